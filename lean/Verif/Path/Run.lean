import Verif.Path.Conn

/-!
A connection through its life: datagrams in and out, timeouts and calls of the
application, in any order.
-/

namespace Verif.Path
open Verif
open Verif.Cid (Ids Err)

inductive Op where
  | recv (a : Nat × Nat) (len : Nat) (pkts : List Pkt)
  | send (src dst : Option Nat) (outLen now : Nat) (pkts : List Conn.Out)
  | timeout (now : Nat) (due : List (Nat × Nat))
  | probe (a : Nat × Nat)
  | migrate (a : Nat × Nat)
  | retireDcid (seq : Nat)
  | newScid (cid : Bytes) (token : Nat) (retireIfNeeded : Bool)
  /-- The transport parameters of the peer arrive. -/
  | setLimit (v : Nat)
  /-- The handshake completes; packets kept are forgotten (lib.rs:8131-8133). -/
  | establish
  /-- The 0-RTT key is known. -/
  | earlyKey
  /-- A packet takes the next NEW_CONNECTION_ID frame, or a RETIRE_CONNECTION_ID frame; or
  one with such a frame is lost. -/
  | takeNew
  | takeRetire (seq : Nat) (inUse : Option Nat)
  | lostNew (seq : Nat)
  | lostRetire (seq : Nat)
  /-- The application closes the connection, or it timed out. -/
  | close
  deriving DecidableEq, Repr

def Conn.step (c : Conn) : Op → Conn
  | .recv a len pkts => c.recv a len pkts
  | .send src dst outLen now pkts => (c.send src dst outLen now pkts).2
  | .timeout now due => c.onTimeout now due
  | .probe a => (c.probePath a).2
  | .migrate a => (c.migrate a).2
  | .retireDcid seq => (c.retireDcid seq).2
  | .newScid cid token r => { c with ids := (c.ids.newScid cid (some token) true none r).2 }
  | .setLimit v => { c with ids := c.ids.setSourceLimit v }
  | .establish => { c with established := true, kept := [] }
  | .earlyKey => { c with earlyKey := true }
  | .takeNew => { c with ids := c.ids.sendNew.2 }
  | .takeRetire seq u => { c with ids := (c.ids.sendRetire seq u).2 }
  | .lostNew seq => { c with ids := c.ids.markAdvertise seq true }
  | .lostRetire seq => { c with ids := (c.ids.markRetire seq true).2 }
  | .close => { c with closed := true }

def Conn.run (c : Conn) (ops : List Op) : Conn := ops.foldl Conn.step c

theorem Conn.run_snoc (c : Conn) (ops : List Op) (op : Op) : c.run (ops ++ [op]) = (c.run ops).step op := by
  simp [Conn.run, List.foldl_append]

theorem Conn.run_append (c : Conn) (a b : List Op) : c.run (a ++ b) = (c.run a).run b := by
  simp [Conn.run, List.foldl_append]

end Verif.Path
