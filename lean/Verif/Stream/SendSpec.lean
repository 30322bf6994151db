import Verif.Stream.SendInv

/-!
Histories of one sending stream, as seen from outside: writes by the application,
STREAM frames put into packets, acknowledgements and loss of those frames, limits
granted by the peer, and the two ways a stream is abandoned. `step` mirrors what
`lib.rs` does with a `SendBuf` on each of these occasions; the functions after it
are computed from the list of observable events alone.
-/

namespace Verif.Stream.SendBuf
open Verif Ranges

inductive SOp where
  /-- the application writes `data` (already cut to the connection's send capacity) -/
  | write (data : Bytes) (fin : Bool)
  /-- the application hands over a buffer of which the connection has room for `cap` bytes -/
  | append (data : Bytes) (cap : Nat) (fin : Bool)
  /-- a packet with room for `n` bytes of stream data is being built -/
  | emit (n : Nat)
  /-- the packet with the `i`-th STREAM frame is acknowledged -/
  | ack (i : Nat)
  /-- the packet with the `i`-th STREAM frame is declared lost -/
  | lost (i : Nat)
  /-- a MAX_STREAM_DATA frame arrives -/
  | maxData (m : Nat)
  /-- a STOP_SENDING frame arrives -/
  | stop (code : Nat)
  /-- the application shuts the stream down for writing -/
  | shutdown
  deriving DecidableEq, Repr

/-- Limits come out of variable-length integers (octets: C01). -/
def SOp.Ok : SOp → Prop
  | .maxData m => m < 2 ^ 62
  | _ => True

inductive SEv where
  /-- the application offered `data` and was told that `n` bytes were taken -/
  | offered (data : Bytes) (fin : Bool) (n : Nat)
  | refused (e : QErr)
  /-- a STREAM frame was sent -/
  | sent (off : Nat) (data : Bytes) (fin : Bool)
  | acked (off len : Nat)
  | lost (off len : Nat)
  | limit (m : Nat)
  /-- the stream was abandoned; the final size is reported in RESET_STREAM and the
  unsent amount is given back to the connection -/
  | cut (finalSize unsent : Nat)
  | idle
  | panic
  deriving DecidableEq, Repr

structure SSt where
  s : SendBuf
  /-- offset and length of the STREAM frames sent so far -/
  frames : List (Nat × Nat) := []
  deriving DecidableEq, Repr

/-- One step, following `stream_do_send` (lib.rs:6054-6067; `stream_send` and
`stream_send_zc` pass `write` and `append_buf`, lib.rs:5880-5952), the STREAM frame
part of `send_single` (lib.rs:5180-5264), acknowledged and lost STREAM frames
(lib.rs:3592-3667, 4144-4212), MAX_STREAM_DATA (lib.rs:8605-8649), STOP_SENDING
(lib.rs:8421-8503) and `stream_shutdown` (lib.rs:6259-6309). -/
def step (st : SSt) (op : SOp) : SSt × SEv :=
  match op with
  | .write data fin =>
    match st.s.write data fin with
    | .ok (s, n) => ({ st with s }, .offered data fin n)
    | .error .panic => (st, .panic)
    | .error e => (st, .refused e)
  | .append data cap fin =>
    let fin := if cap < data.length then false else fin
    match st.s.appendBuf data cap fin with
    | .ok (s, n, _) => ({ st with s }, .offered (data.take cap) fin n)
    | .error .panic => (st, .panic)
    | .error e => (st, .refused e)
  | .emit n =>
    if st.s.isStopped then (st, .idle)
    else
      match st.s.emit n with
      | .ok (s, bs, fin) =>
        ({ s, frames := st.frames ++ [(st.s.offFront, bs.length)] }, .sent st.s.offFront bs fin)
      | .error _ => (st, .panic)
  | .ack i =>
    match st.frames[i]? with
    | none => (st, .idle)
    | some (off, len) =>
      match st.s.ackAndDrop off len with
      | .ok (s, _) => ({ st with s }, .acked off len)
      | .error _ => (st, .panic)
  | .lost i =>
    match st.frames[i]? with
    | none => (st, .idle)
    | some (off, len) =>
      if st.s.isStopped then (st, .idle)
      else
        match st.s.retransmit off len with
        | .ok (s, _) => ({ st with s }, .lost off len)
        | .error _ => (st, .panic)
  | .maxData m => ({ st with s := st.s.updateMaxData m }, .limit m)
  | .stop code =>
    match st.s.stop code with
    | .ok (s, fs, unsent) => ({ st with s }, .cut fs unsent)
    | .error .panic => (st, .panic)
    | .error _ => (st, .idle)
  | .shutdown =>
    match st.s.shutdownWrite with
    | .ok (s, fs, unsent) => ({ st with s }, .cut fs unsent)
    | .error .panic => (st, .panic)
    | .error _ => (st, .idle)

/-- Runs a history, returning the events in order. -/
def run : SSt → List SOp → SSt × List SEv
  | s, [] => (s, [])
  | s, op :: ops =>
    let (s1, e) := step s op
    let (s2, es) := run s1 ops
    (s2, e :: es)

/-- A fresh stream with the given limit. -/
def start (m : Nat) : SSt := { s := new m }

/-! ### What the events say -/

/-- Everything the application has written so far. -/
def written : List SEv → Bytes
  | [] => []
  | .offered d _ n :: t => d.take n ++ written t
  | _ :: t => written t

/-- The final size of the stream: the number of bytes written when the application
first finished the stream, unless it was abandoned, which cuts it to the size
reported then. -/
def finalSize (es : List SEv) : Option Nat :=
  (es.foldl (fun (acc : Nat × Option Nat) e =>
    match e with
    | .offered d fin n =>
      (acc.1 + n, if fin = true ∧ n = d.length then acc.2.or (some (acc.1 + n)) else acc.2)
    | .cut F _ => (acc.1, some F)
    | _ => acc) (0, none)).2

/-- The limit granted by the peer. -/
def limit (m0 : Nat) (es : List SEv) : Nat :=
  es.foldl (fun m e => match e with | .limit k => max m k | _ => m) m0

/-- Offset `o` lies in an acknowledged frame. -/
def ackedByte (es : List SEv) (o : Nat) : Prop :=
  ∃ off len, SEv.acked off len ∈ es ∧ off ≤ o ∧ o < off + len

/-- Offset `o` was sent. -/
def sentByte (es : List SEv) (o : Nat) : Prop :=
  ∃ off bs fin, SEv.sent off bs fin ∈ es ∧ off ≤ o ∧ o < off + bs.length

/-- Offset `o` was sent and no frame with it was reported lost since. -/
def outstanding (es : List SEv) (o : Nat) : Prop :=
  ∃ pre off bs fin post, es = pre ++ SEv.sent off bs fin :: post ∧ (off ≤ o ∧ o < off + bs.length) ∧
    ∀ off' len', SEv.lost off' len' ∈ post → ¬ (off' ≤ o ∧ o < off' + len')

/-- The stream was abandoned. -/
def wasCut (es : List SEv) : Prop := ∃ F u, SEv.cut F u ∈ es

/-- One past the highest offset sent. -/
def sentMax (es : List SEv) : Nat :=
  es.foldl (fun m e => match e with | .sent off bs _ => max m (off + bs.length) | _ => m) 0

@[simp] theorem written_append (a b : List SEv) : written (a ++ b) = written a ++ written b := by
  induction a with
  | nil => rfl
  | cons e t ih => cases e <;> simp [written, ih]

end Verif.Stream.SendBuf
