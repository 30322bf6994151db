/-!
Model of two signals that are sent until they arrive: STREAMS_BLOCKED
(`StreamsBlockedState`, `/repo/quiche/src/lib.rs:1273-1306`) and HANDSHAKE_DONE
(`handshake_done_sent`, `handshake_done_acked`, lib.rs:1500-1504).

Simplifications
* One of the two kinds of streams; the two states do not interact.
* Whether a frame fits into the packet is left open (`fits`).
* A frame may be reported acknowledged or lost at any time after it was sent, and more
  than once; it is identified by its position among the frames sent.
-/

namespace Verif.Small.Notices

/-- `a < b` on `Option<u64>`: `None` is the least. -/
def optLt : Option Nat → Option Nat → Bool
  | none, some _ => true
  | some a, some b => decide (a < b)
  | _, none => false

/-- `a.max(b)` on `Option<u64>`. -/
def optMax (a b : Option Nat) : Option Nat := if optLt a b then b else a

/-- `StreamsBlockedState` (lib.rs:1276-1285) with `peer_max_streams` (stream/mod.rs) and
the limits in the frames sent so far. -/
structure Blk where
  limit : Nat := 0
  blockedAt : Option Nat := none
  blockedSent : Option Nat := none
  sent : List Nat := []
  deriving DecidableEq, Repr

inductive BlkOp where
  /-- MAX_STREAMS or the transport parameter arrives -/
  | granted (m : Nat)
  /-- the application is refused a new stream because of the limit -/
  | refused
  /-- a packet is built -/
  | out (fits : Bool)
  /-- the packet with the `i`-th frame is declared lost -/
  | lost (i : Nat)
  deriving DecidableEq, Repr

namespace Blk

/-- `has_pending_stream_blocked_frame` (lib.rs:1289-1291). -/
def pending (s : Blk) : Bool := optLt s.blockedSent s.blockedAt

/-- `update_at` (lib.rs:1294-1296) as called by `stream_do_send` (lib.rs:5985-6002). -/
def refuse (s : Blk) : Blk := { s with blockedAt := optMax s.blockedAt (some s.limit) }

/-- STREAMS_BLOCKED in `send_single` (lib.rs:4771-4812). -/
def out (s : Blk) (fits : Bool) : Blk × Option Nat :=
  if s.pending then
    match s.blockedAt with
    | some l => if fits then ({ s with blockedSent := some l, sent := s.sent ++ [l] }, some l) else (s, none)
    | none => (s, none)
  else (s, none)

/-- `force_retransmit_sent_limit_eq` (lib.rs:1300-1306) as called for a lost frame
(lib.rs:4268-4281). -/
def lose (s : Blk) (i : Nat) : Blk :=
  match s.sent[i]? with
  | some l => if s.blockedSent = some l then { s with blockedSent := none } else s
  | none => s

/-- One operation; the result is the limit in the frame sent, if any. -/
def step (s : Blk) : BlkOp → Blk × Option Nat
  | .granted m => ({ s with limit := max s.limit m }, none)
  | .refused => (s.refuse, none)
  | .out fits => s.out fits
  | .lost i => (s.lose i, none)

def run : Blk → List BlkOp → Blk × List (Option Nat)
  | s, [] => (s, [])
  | s, op :: ops => let (s1, e) := s.step op; let (s2, es) := run s1 ops; (s2, e :: es)

theorem run_append (s : Blk) (a b : List BlkOp) : (s.run (a ++ b)).1 = ((s.run a).1.run b).1 := by
  induction a generalizing s with
  | nil => rfl
  | cons op a ih => simp only [List.cons_append, run]; exact ih _

theorem run_append_ev (s : Blk) (a b : List BlkOp) : (s.run (a ++ b)).2 = (s.run a).2 ++ ((s.run a).1.run b).2 := by
  induction a generalizing s with
  | nil => rfl
  | cons op a ih => simp only [List.cons_append, run]; rw [ih]

end Blk

/-- The state of HANDSHAKE_DONE (lib.rs:1498-1504). -/
structure Done where
  isServer : Bool
  completed : Bool := false
  sent : Bool := false
  acked : Bool := false
  /-- number of frames sent -/
  count : Nat := 0
  deriving DecidableEq, Repr

inductive DoneOp where
  /-- the handshake completes -/
  | complete
  /-- a packet is built -/
  | out (fits : Bool)
  /-- the packet with the `i`-th frame is acknowledged, or declared lost -/
  | acked (i : Nat)
  | lost (i : Nat)
  deriving DecidableEq, Repr

namespace Done

/-- lib.rs:4706-4721 and, for building a packet at all, `should_send_handshake_done`
(lib.rs:8870-8872). -/
def out (s : Done) (fits : Bool) : Done × Bool :=
  if s.completed && !s.sent && s.isServer && fits then ({ s with sent := true, count := s.count + 1 }, true) else (s, false)

/-- One operation; the result is whether a frame was sent (lib.rs:3669-3675,
4246-4250). -/
def step (s : Done) : DoneOp → Done × Bool
  | .complete => ({ s with completed := true }, false)
  | .out fits => s.out fits
  | .acked i => (if i < s.count then { s with sent := true, acked := true } else s, false)
  | .lost i => (if i < s.count && !s.acked then { s with sent := false } else s, false)

def run : Done → List DoneOp → Done × List Bool
  | s, [] => (s, [])
  | s, op :: ops => let (s1, e) := s.step op; let (s2, es) := run s1 ops; (s2, e :: es)

theorem run_append (s : Done) (a b : List DoneOp) : (s.run (a ++ b)).1 = ((s.run a).1.run b).1 := by
  induction a generalizing s with
  | nil => rfl
  | cons op a ih => simp only [List.cons_append, run]; exact ih _

theorem run_append_ev (s : Done) (a b : List DoneOp) : (s.run (a ++ b)).2 = (s.run a).2 ++ ((s.run a).1.run b).2 := by
  induction a generalizing s with
  | nil => rfl
  | cons op a ih => simp only [List.cons_append, run]; rw [ih]

end Done
end Verif.Small.Notices
