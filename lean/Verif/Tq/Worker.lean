import Verif.Octets.Model

/-!
The task that serves a connection: `/repo/tokio-quiche/src/quic/io/worker.rs` (`work_loop`, the
three `run`/`close` functions) with `/repo/tokio-quiche/src/quic/io/connection_stage.rs`.

The connection and the application are given by what they answer (`Cx`, any state space). Time is
in microseconds. The loop is cut into small steps, so that datagrams may arrive and time may pass
anywhere; `select!` is the step `wake`, with the bias of the code. Not modelled: the connection IDs
(C152), what is in a buffer (C153), metrics, a task that is aborted.
-/

namespace Verif.Tq.Worker
open Verif

/-- What comes from the router (`Incoming`, connection/mod.rs:187-200): a buffer which holds
several datagrams of `gro` bytes each when the system has put them together. -/
structure Incoming where
  buf : Bytes
  gro : Option Nat := none
  deriving DecidableEq, Repr

/-- `slice::chunks_mut`; fuel: the length of the buffer. (A size of 0, which the system does not
report, would be a panic.) -/
def chunks : Nat → Nat → Bytes → List Bytes
  | 0, _, _ => []
  | fuel + 1, n, l => if l = [] then [] else l.take n :: chunks fuel n (l.drop n)

/-- The datagrams given to the connection for one `Incoming` (worker.rs:891-897). -/
def Incoming.dgrams (p : Incoming) : List Bytes :=
  match p.gro with
  | some n => chunks p.buf.length n p.buf
  | none => [p.buf]

/-- The outcome of `gather_data_from_quiche_conn` (worker.rs:563-728) followed by the flush. -/
structure Gathered where
  ok : Bool := true
  pkts : Nat := 0
  /-- `has_pending_data` afterwards -/
  pending : Bool := false
  /-- `next_release_time`, when it is set -/
  release : Option Nat := none
  deriving DecidableEq, Repr

/-- A connection with its application: `C` are their states, time is passed where it is read. -/
structure Cx (C : Type) where
  recv : C → Bytes → C × Bool
  established : C → Bool
  early : C → Bool
  closed : C → Bool
  timeout : C → Option Nat
  onTimeout : C → Nat → C
  gather : C → Nat → C × Gathered
  close : C → C
  /-- `should_act` -/
  act : C → Bool
  onEstablished : C → C × Bool
  reads : C → C × Bool
  writes : C → C × Bool
  wait : C → C × Bool
  onClose : C → C

/-- Why the work ends. -/
inductive End where
  | ok
  | recv
  | send
  | app
  | timeout
  | closedInHandshake
  deriving DecidableEq, Repr

/-- What can be seen: the calls made. -/
inductive Ev where
  | dgram (b : Bytes)
  | onTimeout (at_ : Nat)
  /-- `on_conn_established`; whether the handshake is complete -/
  | established (complete : Bool)
  /-- the router is told to forget the connection ID the client chose -/
  | forget
  | reads
  | writes
  /-- the queue of incoming packets was found empty -/
  | look
  /-- so many packets were put on the socket -/
  | sent (n : Nat)
  /-- `on_conn_close` and the result it is given -/
  | onClose (e : End)
  | ended (e : End)
  deriving DecidableEq, Repr

/-- `Handshake` with its deadline (connection/mod.rs:644-646), `RunningApplication`, and the end. -/
inductive Stage where
  | handshake (deadline : Option Nat)
  | running
  | over
  deriving DecidableEq, Repr

/-- Where in the loop the task is. -/
inductive Pc where
  | top
  | outer
  | drain
  | read
  | inner
  | arm
  | sleep
  | post
  deriving DecidableEq, Repr

structure St (C : Type) where
  c : C
  stage : Stage
  pc : Pc := .top
  clock : Nat := 0
  queue : List Incoming := []
  inPkt : Option Incoming := none
  /-- `now` of the round -/
  now : Nat := 0
  /-- `current_deadline` -/
  cur : Option Nat := none
  /-- what the timer is set to -/
  sleepAt : Nat
  /-- `next_release_time` -/
  rel : Option Nat := none
  /-- `has_pending_data` -/
  pend : Bool := true
  /-- `packets_sent` -/
  sent : Nat := 0
  didRecv : Bool := false
  log : List Ev := []

/-- `DEFAULT_SLEEP` (worker.rs:381). -/
abbrev defaultSleep : Nat := 60000000
/-- `RELEASE_TIMER_THRESHOLD` (worker.rs:75). -/
abbrev releaseThreshold : Nat := 250
/-- `CHECK_INCOMING_QUEUE_RATIO` (worker.rs:73). -/
abbrev ratio : Nat := 128

/-- `min_of_some` (worker.rs:1278-1285). -/
def minOfSome : Option Nat → Option Nat → Option Nat
  | some a, some b => some (min a b)
  | some a, none => some a
  | none, b => b

/-- `wait_deadline` (connection_stage.rs:68-70, 123-125). -/
def Stage.deadline : Stage → Option Nat
  | .handshake d => d
  | _ => none

variable {C : Type}

/-- The stage `Close` (worker.rs:1187-1276): the application is told, what there is to send is
sent once. -/
def St.finish (x : Cx C) (s : St C) (e : End) : St C :=
  let s := if x.act s.c then { s with c := x.onClose s.c, log := s.log ++ [.onClose e] } else s
  { s with c := (x.gather s.c s.clock).1, stage := .over, log := s.log ++ [.ended e] }

/-- `on_read` (connection_stage.rs:141-156); `false`: the application reports an error. -/
def St.onRead (x : Cx C) (s : St C) (got : Bool) : St C × Bool :=
  if x.act s.c then
    let (s, ok) := if got then ({ s with c := (x.reads s.c).1, log := s.log ++ [.reads] }, (x.reads s.c).2)
      else (s, true)
    if ok then
      if x.established s.c then ({ s with c := (x.writes s.c).1, log := s.log ++ [.writes] }, (x.writes s.c).2)
      else (s, true)
    else (s, false)
  else (s, true)

/-- After a handshake (worker.rs:1087-1129, 1154-1171): the application is told, the router too, the
application reads, and the loop starts anew with a timer of its own. -/
def St.startRunning (x : Cx C) (s : St C) : St C :=
  let s' := { s with c := (x.onEstablished s.c).1, log := s.log ++ [Ev.established (x.established s.c)] }
  if (x.onEstablished s.c).2 then
    match ({ s' with stage := .running, log := s'.log ++ [Ev.forget] } : St C).onRead x true with
    | (s, false) => s.finish x .app
    | (s, true) => { s with pc := .top, cur := none, sleepAt := s.clock + defaultSleep }
  else s'.finish x .ok

/-- `work_loop` returns `Ok` (worker.rs:457-459, 470-474, 1071-1079). -/
def St.leave (x : Cx C) (s : St C) : St C :=
  match s.stage with
  | .handshake _ => if x.closed s.c then s.finish x .closedInHandshake else s.startRunning x
  | _ => s.finish x .ok

/-- The connection is given datagrams until one is an error (worker.rs:883-900). -/
def recvAll (x : Cx C) : C → List Bytes → C × List Bytes × Bool
  | c, [] => (c, [], true)
  | c, d :: ds =>
    match x.recv c d with
    | (c, true) => let (c, l, ok) := recvAll x c ds; (c, d :: l, ok)
    | (c, false) => (c, [d], false)

/-- The next packet to be processed: `in_pkt`, else the queue (worker.rs:414-417). -/
def St.next (s : St C) : Option (Incoming × St C) :=
  match s.inPkt, s.queue with
  | some p, _ => some (p, { s with inPkt := none })
  | none, p :: q => some (p, { s with queue := q })
  | none, [] => none

/-- Whether the pacer allows sending (worker.rs:426-433). -/
def St.canRelease (s : St C) : Bool :=
  match s.rel with
  | none => true
  | some r => decide (r - s.now < releaseThreshold)

/-- Takes over what a gather says. -/
def St.took (s : St C) (c : C) (g : Gathered) : St C :=
  { s with c := c, pend := g.pending, rel := g.release.or s.rel }

/-- One step of the loop (worker.rs:394-543), at the time of the clock. -/
def St.go (x : Cx C) (s : St C) : St C :=
  match s.pc with
  | .top => { s with now := s.clock, pend := true, pc := .outer }
  | .outer => if s.pend then { s with sent := 0, didRecv := false, pc := .drain } else { s with pc := .arm }
  | .drain =>
    match s.next with
    | some (p, s) =>
      let (c, l, ok) := recvAll x s.c p.dgrams
      let s := { s with c := c, log := s.log ++ l.map .dgram, didRecv := true }
      if ok then s else s.finish x .recv
    | none => { s with pc := .read, log := s.log ++ [.look] }
  | .read =>
    let (s, ok) := if s.stage = .running then s.onRead x s.didRecv else (s, true)
    if ok then { s with pend := s.pend && s.canRelease, pc := .inner } else s.finish x .app
  | .inner =>
    if s.pend && decide (s.sent < ratio) then
      let (c, g) := x.gather s.c s.clock
      let s := s.took c g
      if !g.ok then s.finish x .send
      else if x.closed s.c then s.leave x
      else
        let s := { s with sent := s.sent + g.pkts, log := s.log ++ [Ev.sent g.pkts] }
        match s.stage with
        | .handshake _ => if x.established s.c || x.early s.c then s.leave x else s
        | _ => s
    else { s with pc := .outer }
  | .arm =>
    let d := minOfSome (minOfSome (x.timeout s.c) s.rel) s.stage.deadline
    if d = s.cur then { s with pc := .sleep }
    else { s with cur := d, sleepAt := d.getD (s.now + defaultSleep), pc := .sleep }
  | .sleep => s
  | .post =>
    match s.stage with
    | .handshake (some d) =>
      if d ≤ s.clock then ({ s with c := x.close s.c } : St C).finish x .timeout else { s with pc := .top }
    | _ => { s with pc := .top }

/-- The arms of `select!` (worker.rs:510-538, 902-998), in the order of the code. -/
def St.wake (x : Cx C) (s : St C) : St C :=
  if s.sleepAt ≤ s.clock then
    { s with
      c := x.onTimeout s.c s.clock, rel := none, cur := none, sleepAt := s.now + defaultSleep,
      pc := .post, log := s.log ++ [.onTimeout s.clock] }
  else
    match s.queue with
    | p :: q => { s with inPkt := some p, queue := q, pc := .post }
    | [] =>
      if x.act s.c then
        let (c, ok) := x.wait s.c
        let s := { s with c := c }
        if ok then { s with pc := .post } else s.finish x .app
      else
        let (c, g) := x.gather s.c s.clock
        let s := s.took c g
        if !g.ok then s.finish x .send
        else if g.pkts = 0 then s
        else { s with pc := .post, log := s.log ++ [Ev.sent g.pkts] }

inductive Op where
  /-- the router passes a packet on -/
  | arrive (p : Incoming)
  | pass (d : Nat)
  /-- the task runs -/
  | go
  /-- the task is woken -/
  | wake
  deriving DecidableEq, Repr

def St.step (x : Cx C) (s : St C) : Op → St C
  | .arrive p => { s with queue := s.queue ++ [p] }
  | .pass d => { s with clock := s.clock + d }
  | .go => if s.stage = .over then s else s.go x
  | .wake => if s.stage = .over then s else if s.pc = .sleep then s.wake x else s

def St.run (x : Cx C) : St C → List Op → St C
  | s, [] => s
  | s, op :: ops => (s.step x op).run x ops

/-- A new task: the packet that opened the connection is there already. -/
def start (c : C) (first : Option Incoming) (t : Nat) (deadline : Option Nat) : St C :=
  { c := c, stage := .handshake deadline, clock := t, inPkt := first, sleepAt := t + defaultSleep }

end Verif.Tq.Worker
