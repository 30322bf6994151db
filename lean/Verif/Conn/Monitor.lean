import Verif.Conn.Model

/-!
What an observer of a connection can compute from the operations and their visible
results alone. The statements about limits are made in these terms; nothing here looks
at the state of the connection.
-/

namespace Verif.Conn
open Verif Verif.Stream

/-- Point update. -/
def upd (f : Nat → Nat) (i v : Nat) : Nat → Nat := fun j => if j = i then v else f j

/-- The observer's books. -/
structure Hist where
  /-- per stream: data accepted for sending; cut to what had been sent when the sending
  side is reset -/
  acc : Nat → Nat := fun _ => 0
  /-- per stream: end of the data sent so far -/
  ends : Nat → Nat := fun _ => 0
  /-- per stream: highest offset received -/
  hi : Nat → Nat := fun _ => 0
  /-- no empty STREAM frame without FIN has been received -/
  clean : Bool := true
  /-- connection limit granted by the peer -/
  lim : Nat := 0
  /-- connection limit advertised to the peer -/
  advData : Nat := 0
  /-- stream limits advertised to the peer: bidirectional, unidirectional -/
  adv : Bool → Nat := fun _ => 0
  /-- stream limits granted by the peer -/
  grant : Bool → Nat := fun _ => 0
  /-- stream limits advertised initially -/
  first : Bool → Nat := fun _ => 0
  /-- the configured send capacity factor is at most one -/
  unit : Bool := true

/-- The books after one more operation with its result. -/
def Hist.step (h : Hist) : Op → Ev → Hist
  | .recvStream id off data fin, .ok =>
    { h with hi := upd h.hi id (max (h.hi id) (off + data.length)),
             clean := h.clean && !(data.isEmpty && !fin) }
  | .recvReset id _ F, .ok => { h with hi := upd h.hi id (max (h.hi id) F) }
  | .recvStop id _, .ok => { h with acc := upd h.acc id (h.ends id) }
  | .shutWrite id _ _, .ok => { h with acc := upd h.acc id (h.ends id) }
  | .recvMaxData m, .ok => { h with lim := max h.lim m }
  | .recvMaxStreams b m, .ok => { h with grant := fun k => if k = b then max (h.grant k) m else h.grant k }
  | .peerParams _ d b u _, .ok =>
    { h with lim := d, grant := fun k => max (h.grant k) (if k then b else u) }
  | .send id _ _, .n k => { h with acc := upd h.acc id (h.acc id + k) }
  | .outStream _, .sentStream id off data _ =>
    { h with ends := upd h.ends id (max (h.ends id) (off + data.length)) }
  | .outMaxStreams b _, .sentMaxStreams m => { h with adv := fun k => if k = b then m else h.adv k }
  | .outMaxData .., .sentMaxData m => { h with advData := m }
  | _, _ => h

/-- The books of a new connection. -/
def Hist.init (g : Conn.Config) : Hist :=
  { advData := g.maxData
    adv := fun b => if b then g.maxStreamsBidi else g.maxStreamsUni
    first := fun b => if b then g.maxStreamsBidi else g.maxStreamsUni
    unit := decide (g.factorNum ≤ g.factorDen) }

/-- The books after a history. -/
def Hist.of (h : Hist) (es : List (Op × Ev)) : Hist := es.foldl (fun h e => h.step e.1 e.2) h

/-- Restrictions on operations: the values in frames and transport parameters are
variable-length integers. -/
def Op.Ok : Op → Prop
  | .recvMaxStreamData _ m => m < 2 ^ 62
  | .peerParams p _ _ _ _ => p.bidiLocal < 2 ^ 62 ∧ p.bidiRemote < 2 ^ 62 ∧ p.uni < 2 ^ 62
  | _ => True

end Verif.Conn
