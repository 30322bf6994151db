import Verif.Cid.Lemmas

/-!
One endpoint through its life: the operations the connection performs on its connection
IDs, in any order, and a ledger of what the outside saw. An error while processing a frame
of the peer closes the connection (lib.rs: the error of `process_frame` is returned by
`recv` after `close`).
-/

namespace Verif.Cid
open Verif

inductive Op where
  /-- The peer's transport parameters arrive (lib.rs:8000-8002). -/
  | setLimit (v : Nat)
  /-- `Connection::new_scid` (lib.rs:7324-7334). -/
  | issue (cid : Bytes) (token : Nat) (retireIfNeeded : Bool)
  /-- A packet takes the next NEW_CONNECTION_ID frame. -/
  | sendNew
  /-- A packet with such a frame is declared lost (lib.rs:4285-4287). -/
  | lostNew (seq : Nat)
  /-- A NEW_CONNECTION_ID frame arrives (lib.rs:8695-8748). -/
  | recvNew (cid : Bytes) (seq token retirePriorTo : Nat)
  /-- A RETIRE_CONNECTION_ID frame arrives in a packet for `pktDcid` (lib.rs:8751-8767). -/
  | recvRetire (seq : Nat) (pktDcid : Bytes)
  /-- `Connection::retire_dcid` (lib.rs:7386-7424). -/
  | retireDcid (seq : Nat)
  /-- A packet on a path whose destination is `inUse` takes a RETIRE_CONNECTION_ID frame. -/
  | sendRetire (seq : Nat) (inUse : Option Nat)
  /-- A packet with such a frame is declared lost (lib.rs:4289-4291). -/
  | lostRetire (seq : Nat)
  /-- A path takes a connection ID. -/
  | linkDcid (seq path : Nat)
  | linkScid (seq path : Nat)
  deriving DecidableEq, Repr

structure St where
  ids : Ids
  closed : Bool := false
  /-- Numbers issued and not retired by the peer. -/
  out : List Nat := [0]
  /-- The largest limit the peer gave, 2 before. -/
  lim : Nat := 2
  /-- NEW_CONNECTION_ID frames sent, last first. -/
  sent : List NewFrame := []
  /-- RETIRE_CONNECTION_ID frames sent, last first. -/
  retires : List Nat := []
  deriving DecidableEq, Repr

/-- A number goes into the ledger. -/
def enter (l : List Nat) (n : Nat) : List Nat := if n ∈ l then l else l ++ [n]

/-- `issue`. -/
def stepIssue (st : St) (r : Except Err Nat × Ids) : St :=
  match r with
  | (.ok n, i) => { st with ids := i, out := enter st.out n }
  | (.error _, i) => { st with ids := i }

def stepSendNew (st : St) (r : Except Err (Option NewFrame) × Ids) : St :=
  match r with
  | (.ok (some f), i) => { st with ids := i, sent := f :: st.sent }
  | (_, i) => { st with ids := i }

def stepRecvNew (st : St) (r : Except Err Unit × List (Nat × Nat) × Ids) : St :=
  match r with
  | (.ok _, _, i) => { st with ids := i }
  | (.error _, _, i) => { st with ids := i, closed := true }

def stepRecvRetire (st : St) (seq : Nat) (r : Except Err (Option Nat) × Ids) : St :=
  match r with
  | (.ok _, i) => { st with ids := i, out := st.out.filter (· != seq) }
  | (.error _, i) => { st with ids := i, closed := true }

def stepSendRetire (st : St) (r : Option Nat × Ids) : St :=
  match r with
  | (some n, i) => { st with ids := i, retires := n :: st.retires }
  | (none, i) => { st with ids := i }

def step (st : St) : Op → St
  | .setLimit v => { st with ids := st.ids.setSourceLimit v, lim := if v > st.lim then v else st.lim }
  | .issue cid token r => stepIssue st (st.ids.newScid cid (some token) true none r)
  | .sendNew => stepSendNew st st.ids.sendNew
  | .lostNew seq => if st.sent.any (·.seq == seq) then { st with ids := st.ids.markAdvertise seq true } else st
  | .recvNew cid seq token rpt => stepRecvNew st (st.ids.newDcid cid seq token rpt)
  | .recvRetire seq d => stepRecvRetire st seq (st.ids.retireScid seq d)
  | .retireDcid seq => { st with ids := (st.ids.retireDcid seq).2 }
  | .sendRetire seq u => stepSendRetire st (st.ids.sendRetire seq u)
  | .lostRetire seq => if seq ∈ st.retires then { st with ids := (st.ids.markRetire seq true).2 } else st
  | .linkDcid seq p => { st with ids := (st.ids.linkDcid seq p).2 }
  | .linkScid seq p => { st with ids := (st.ids.linkScid seq p).2 }

/-- Nothing happens after the connection closed. -/
def stepOpen (st : St) (op : Op) : St := if st.closed then st else step st op

/-- A connection whose first connection IDs are `scid` and `dcid`, advertising `limit`. -/
def start (limit : Nat) (scid dcid : Bytes) (stoken dtoken : Option Nat) : St :=
  { ids := (new limit scid 0 stoken).setInitialDcid dcid dtoken (some 0) }

def run (st : St) (ops : List Op) : St := ops.foldl stepOpen st

theorem run_snoc (st : St) (ops : List Op) (op : Op) : run st (ops ++ [op]) = stepOpen (run st ops) op := by
  simp [run, List.foldl_append]

end Verif.Cid
