import Verif.Stream.RecvHist

/-!
Model of what `/repo/quiche/src/lib.rs` does with CRYPTO frames: the bytes of the TLS
handshake arrive in frames at any offset, are put in order by a receive buffer per
encryption level, and are handed to the TLS library in pieces of up to 512 bytes.

Simplifications: TLS is given by its answers (`oks`: the answers of
`SSL_provide_quic_data`, `fin`: the answer of `do_handshake`); a packet number space is
opened once and dropped at most once (a client that starts over because of a Retry or
Version Negotiation packet has received no CRYPTO frame before).
-/

namespace Verif.Stream.Crypto
open Verif

/-- `packet::Epoch` (packet.rs:66-70). -/
inductive Epoch where
  | initial
  | handshake
  | application
  deriving DecidableEq, Repr

/-- `MAX_CRYPTO_STREAM_OFFSET` (lib.rs:499). -/
abbrev maxCryptoOff : Nat := 65536

/-- The receive side of `CryptoContext::crypto_stream` (packet.rs:924-932):
`u64::MAX` as limit, `MAX_STREAM_WINDOW` (stream/mod.rs:50) as window. -/
def fresh : RecvBuf := .new (2 ^ 64 - 1) (16 * 1024 * 1024) (16 * 1024 * 1024)

/-- Why the connection is closed. -/
inductive Why where
  | cryptoBufferExceeded
  | stream (e : QErr)
  | tls
  deriving DecidableEq, Repr

/-- What can be seen from outside. -/
inductive Ev where
  /-- a CRYPTO frame was taken in -/
  | got (ep : Epoch) (off : Nat) (data : Bytes)
  /-- TLS was given bytes -/
  | tls (ep : Epoch) (data : Bytes)
  | dropped (ep : Epoch)
  | closed (why : Why)
  deriving DecidableEq, Repr

/-- The loop handing data to TLS (lib.rs:8519-8528). `oks` are the answers of TLS, which
says yes when the list is used up. Returns the buffer, the pieces handed over and whether
TLS took all of them. `fuel` one more than the number of bytes buffered suffices. -/
def feed : Nat → RecvBuf → List Bool → RecvBuf × List Bytes × Bool
  | 0, r, _ => (r, [], true)
  | fuel + 1, r, oks =>
    match r.emit 512 with
    | (.error _, r) => (r, [], true)
    | (.ok (out, _), r) =>
      if oks.headD true then
        let (r, outs, ok) := feed fuel r oks.tail
        (r, out :: outs, ok)
      else (r, [out], false)

structure St where
  recv : Epoch → RecvBuf := fun _ => fresh
  /-- the keys of the level were dropped: its packets are not read any more -/
  gone : Epoch → Bool := fun _ => false
  /-- the connection is being closed: `recv` returns early (lib.rs:2973-2977) -/
  dead : Bool := false

inductive Op where
  /-- a CRYPTO frame arrives in a packet that could be decrypted -/
  | frame (ep : Epoch) (off : Nat) (data : Bytes) (oks : List Bool) (fin : Bool)
  /-- `drop_epoch_state` -/
  | drop (ep : Epoch)
  deriving DecidableEq, Repr

/-- Changes the receive buffer of a level. -/
def St.set (s : St) (ep : Epoch) (r : RecvBuf) : St :=
  { s with recv := fun e => if e = ep then r else s.recv e }

/-- `process_frame` for CRYPTO (lib.rs:8509-8531) without `do_handshake` itself. -/
def onFrame (s : St) (ep : Epoch) (off : Nat) (data : Bytes) (oks : List Bool) (fin : Bool) :
    St × List Ev :=
  if off + data.length ≥ maxCryptoOff then
    ({ s with dead := true }, [.closed .cryptoBufferExceeded])
  else
    match (s.recv ep).write (.mk' data off false) with
    | (.error e, r) => ({ s.set ep r with dead := true }, [.closed (.stream e)])
    | (.ok (), r) =>
      let (r, outs, ok) := feed (r.len - r.off + 1) r oks
      if ok && fin then (s.set ep r, .got ep off data :: outs.map (.tls ep))
      else ({ s.set ep r with dead := true }, .got ep off data :: outs.map (.tls ep) ++ [.closed .tls])

/-- One step; `drop_epoch_state` (lib.rs:8847-8853, packet.rs:942-953) starts the stream
afresh and takes the keys away. -/
def step (s : St) : Op → St × List Ev
  | .frame ep off data oks fin =>
    if s.dead || s.gone ep then (s, []) else onFrame s ep off data oks fin
  | .drop ep =>
    if s.gone ep then (s, [])
    else ({ s.set ep fresh with gone := fun e => e = ep || s.gone e }, [.dropped ep])

def run : St → List Op → St × List Ev
  | s, [] => (s, [])
  | s, op :: ops =>
    let (s1, e) := step s op
    let (s2, es) := run s1 ops
    (s2, e ++ es)

theorem run_append (s : St) (ops : List Op) (op : Op) :
    run s (ops ++ [op]) = ((step (run s ops).1 op).1, (run s ops).2 ++ (step (run s ops).1 op).2) := by
  induction ops generalizing s with
  | nil => simp [run]
  | cons a t ih => simp [run, ih, List.append_assoc]

/-- Bytes waiting in a buffer. -/
def waiting (r : RecvBuf) : Nat := (r.data.map (fun e => e.2.len)).sum

/-- The allocations a buffer keeps alive, one per piece: the views of one frame share the
bytes of the frame (range_buf.rs:54-59). -/
def backing (r : RecvBuf) : List Bytes := r.data.map (fun e => e.2.data)

end Verif.Stream.Crypto
