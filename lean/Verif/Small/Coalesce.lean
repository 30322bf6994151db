/-!
Receiving datagrams of several packets, and the queue of 0-RTT packets that come before their
key: `Connection::recv`, `recv_single` and `process_undecrypted_0rtt_packets`
(quiche/src/lib.rs). A packet is its type, number and what opening and reading it would give;
what TLS does is in the packet that carries the data for it.

Not modelled: Version Negotiation and Retry packets (they end the datagram), the credit of the
path (C42), the migration of paths (C82), the window that replaces the set of numbers seen
(C35; it takes more packets for duplicates, never fewer).
-/

namespace Verif.Coalesce

/-- `packet::Type` (packet.rs:121-140) of the packets that carry frames. -/
inductive Ty where
  | initial | early | handshake | short
  deriving DecidableEq, Repr

/-- `Type::to_epoch` (packet.rs:152-164): 0-RTT and short packets share a number space. -/
def Ty.space : Ty → Nat
  | .initial => 0
  | .handshake => 1
  | .early => 2
  | .short => 2

/-- The errors met here; `frame` stands for those of frames. -/
inductive Err where
  | invalidPacket | cryptoFail | frame (code : Nat)
  deriving DecidableEq, Repr

/-- A packet. -/
structure Pkt where
  ty : Ty
  num : Nat
  /-- It opens with the key of its type. -/
  auth : Bool := true
  /-- It has no frame, or one that is an error. -/
  bad : Option Err := none
  /-- The keys TLS installs on reading it. -/
  gives : List Ty := []
  /-- The keys dropped on reading it. -/
  drops : List Ty := []
  /-- The handshake is complete with it. -/
  completes : Bool := false
  /-- It holds a CONNECTION_CLOSE frame. -/
  ends : Bool := false
  deriving DecidableEq, Repr

/-- What duplicates are found by. -/
def Pkt.key (p : Pkt) : Nat × Nat := (p.ty.space, p.num)

/-- A part of a datagram: a packet, or bytes that are none (a header or length that is wrong,
another version); `reset` if the datagram from here on ends with the reset token of the
peer (lib.rs:2922-2943). -/
inductive Body where
  | pkt (p : Pkt)
  | junk
  deriving DecidableEq, Repr

structure Item where
  body : Body
  reset : Bool := false
  deriving DecidableEq, Repr

/-- The fields of `Connection` used here. `closed` stands for closed, draining or with a local
error: `recv_single` does the same then (lib.rs:2968-2978). -/
structure St where
  server : Bool
  /-- `recv_count`. -/
  count : Nat := 0
  /-- The types whose `crypto_open` or `crypto_0rtt_open` is there. -/
  keys : List Ty := [.initial]
  /-- `handshake_completed`. -/
  established : Bool := false
  closed : Bool := false
  /-- `undecryptable_pkts`. -/
  kept : List Pkt := []
  /-- `recv_pkt_num` of the number spaces. -/
  seen : List (Nat × Nat) := []
  /-- Not in the code: the packets processed, in order. -/
  log : List Pkt := []
  deriving DecidableEq, Repr

/-- `MAX_UNDECRYPTABLE_PACKETS` (lib.rs:480). -/
abbrev maxKept : Nat := 10

/-- How `recv_single` ends: packets go on, the rest of the datagram is dropped, or an error. -/
inductive R where
  | took | done | err (e : Err)
  deriving DecidableEq, Repr

/-- `drop_pkt_on_err` (lib.rs:9338-9353). -/
def St.dropped (s : St) (e : Err) : R := if s.server = true ∧ s.count = 0 then .err e else .done

/-- What TLS does: keys are installed (tls/mod.rs:760-806), others dropped (the one for 0-RTT
never is: `drop_epoch_state`, lib.rs:8847-8880, does not touch it), and once the handshake is
complete the packets kept are dropped (`do_handshake`, lib.rs:8126-8138). -/
def St.tls (s : St) (gives drops : List Ty) (completes : Bool) : St :=
  { s with
    keys := s.keys.filter (fun t => decide (t = .early ∨ t ∉ drops)) ++ gives
    established := s.established || completes
    kept := if completes then [] else s.kept }

/-- A packet with no error in it (lib.rs:3344-3789): 0-RTT packets have no CRYPTO frames (C31). -/
def St.process (s : St) (p : Pkt) : St :=
  let s := { s with count := s.count + 1, seen := p.key :: s.seen, log := s.log ++ [p],
                    closed := s.closed || p.ends }
  if p.ty = .early then s else s.tls p.gives p.drops p.completes

/-- `recv_single` (lib.rs:2961-3799). -/
def recvSingle (s : St) : Body → St × R
  | .junk => if s.closed then (s, .done) else (s, s.dropped .invalidPacket)
  | .pkt p =>
    if s.closed then (s, .done)
    else if p.ty ∈ s.keys then
      if p.auth = false then (s, s.dropped .cryptoFail)
      else if p.key ∈ s.seen then (s, .done)
      else
        match p.bad with
        | some e => (s, .err e)
        | none => (s.process p, .took)
    else if p.ty = .early ∧ s.kept.length < maxKept ∧ s.established = false then
      ({ s with kept := s.kept ++ [p] }, .took)
    else (s, s.dropped .cryptoFail)

/-- The loop of `recv` (lib.rs:2854-2891). A short packet takes what is left of the datagram,
so that nothing comes after it. -/
def recvLoop (s : St) : List Item → St × Option Err
  | [] => (s, none)
  | it :: l =>
    match recvSingle s it.body with
    | (s, .took) => recvLoop s l
    | (s, .done) => ({ s with closed := s.closed || it.reset }, none)
    | (s, .err e) => ({ s with closed := true }, some e)

/-- `process_undecrypted_0rtt_packets` (lib.rs:2902-2919) with the key: the packets are taken
from the front, each through `recv`. That call goes on with the packets behind, so that the
order is the same as that of a loop; after an error the queue is cleared. -/
def replay (s : St) : List Pkt → St × Option Err
  | [] => ({ s with kept := [] }, none)
  | p :: l =>
    match recvLoop { s with kept := l } [{ body := .pkt p }] with
    | (s, some e) => ({ s with kept := [] }, some e)
    | (s, none) => replay s l

/-- The same, with the test for the key. -/
def flush (s : St) : St × Option Err := if Ty.early ∈ s.keys then replay s s.kept else (s, none)

/-- `recv` (lib.rs:2820-2900); `known` if the datagram is from an address of a path. -/
def recv (s : St) (known : Bool) (l : List Item) : St × Option Err :=
  if s.server = false ∧ known = false then (s, none)
  else
    match recvLoop s l with
    | (s, some e) => (s, some e)
    | (s, none) => flush s

/-- The part of `send` before packets are built (lib.rs:3964-3980): TLS may go on (after a
signature made elsewhere, say), then the packets kept are processed, and an error of theirs is
not returned. -/
def send (s : St) (gives drops : List Ty) (completes : Bool) : St :=
  if s.closed then s else (flush (s.tls gives drops completes)).1

/-- Events: a datagram, a call of `send`, a close by the application. -/
inductive Ev where
  | recv (known : Bool) (l : List Item)
  | send (gives drops : List Ty) (completes : Bool)
  | close

def step (s : St) : Ev → St
  | .recv k l => (recv s k l).1
  | .send g d c => send s g d c
  | .close => { s with closed := true }

def run (s : St) : List Ev → St
  | [] => s
  | e :: l => run (step s e) l

end Verif.Coalesce
