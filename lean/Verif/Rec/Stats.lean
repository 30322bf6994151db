import Verif.Rec.Model

/-!
The counters of packets and bytes that `stats` and `path_stats` report (lib.rs:7827-7867,
path.rs:547-585), with Reno and CUBIC: what the connection and its paths add up when packets are
sent, acknowledged and declared lost.

A connection has a recovery (`Rec/Model.lean`) for each path. Not modelled: counters of received
packets, datagrams and retransmitted stream data.
-/

namespace Verif.Rec

variable {σ : Type}

/-- The counters of a path: `sent_count`, `sent_bytes` (path.rs), and those of its recovery:
`lost_count` of the congestion controller (recovery.rs:568) and `bytes_lost` (recovery.rs:374), which
is set to 0 (417) and not changed. `lost_spurious_count` is in the state of the recovery. -/
structure PathStats where
  sent : Nat := 0
  sentBytes : Nat := 0
  lost : Nat := 0
  lostBytes : Nat := 0
  deriving DecidableEq, Repr

/-- A path with its recovery. -/
structure Path (σ : Type) where
  rec_ : State σ
  st : PathStats := {}

/-- The counters of the connection (lib.rs:1375-1436). -/
structure ConnStats where
  sent : Nat := 0
  sentBytes : Nat := 0
  lost : Nat := 0
  lostBytes : Nat := 0
  ackedBytes : Nat := 0
  spurious : Nat := 0
  deriving DecidableEq, Repr

/-- A connection: its paths and its counters. -/
structure Conn (σ : Type) where
  paths : List (Path σ) := []
  st : ConnStats := {}

/-- The counters of a path after a call of its recovery (lib.rs:5489-5490; recovery.rs:568). -/
def PathStats.after (s : PathStats) (o : Op) (r : Out) : PathStats :=
  match o with
  | .send _ p _ _ => { s with sent := s.sent + 1, sentBytes := s.sentBytes + p.written }
  | _ => { s with lost := s.lost + r.counts.1 }

/-- Those of the connection (lib.rs:5487-5488, 7127-7128, 8357-8360, 9141-9142). -/
def ConnStats.after (s : ConnStats) (o : Op) (r : Out) : ConnStats :=
  match o with
  | .send _ p _ _ => { s with sent := s.sent + 1, sentBytes := s.sentBytes + p.written }
  | _ => { s with lost := s.lost + r.counts.1, lostBytes := s.lostBytes + r.counts.2.1,
                  ackedBytes := s.ackedBytes + r.counts.2.2.1, spurious := s.spurious + r.counts.2.2.2 }

/-- What happens to a connection. -/
inductive ConnOp (σ : Type) where
  /-- a path is added, with a new recovery (path.rs: Path::new) -/
  | add (t0 initialRtt maxAckDelay : Nat) (cc : σ)
  /-- a path is removed to make room (path.rs: insert_path) -/
  | remove (i : Nat)
  /-- a call of the recovery of a path -/
  | on (i : Nat) (o : Op)

/-- One of these. -/
def Conn.step (en : Env σ) (c : Conn σ) : ConnOp σ → Conn σ
  | .add t0 r d cc => { c with paths := c.paths ++ [{ rec_ := State.new t0 r d cc }] }
  | .remove i => { c with paths := c.paths.eraseIdx i }
  | .on i o =>
    match c.paths[i]? with
    | none => c
    | some p =>
      let r := Rec.step en p.rec_ o
      { paths := c.paths.set i ⟨r.1, p.st.after o r.2⟩, st := c.st.after o r.2 }

def Conn.run (en : Env σ) (c : Conn σ) : List (ConnOp σ) → Conn σ
  | [] => c
  | o :: l => (c.step en o).run en l

end Verif.Rec
