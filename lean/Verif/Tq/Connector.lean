/-!
The connector of tokio-quiche for connections of a client: it drives the handshake and hands the
connection to the router once it is established (tokio-quiche/src/quic/router/connector.rs).

The connection is any type with the calls made here. Times are numbers. Datagrams come as the
router gives them, after the split by GRO. Not modelled: the tasks that write the packets to the
socket (their errors are only logged) and logs.
-/

namespace Verif.Tq.Connector

/-- The calls of a `quiche::Connection` made here. `send` is `simple_conn_send`
(connector.rs:262-295): packets until `Done`; false for another error. -/
structure Api (C D : Type) where
  recv : C → D → C
  onTimeout : C → C
  send : C → C × Bool
  est : C → Bool
  closed : C → Bool
  timeout : C → Option Nat
  scid : C → Nat

/-- An entry of the `DelayQueue`: its key, the connection ID and the deadline. -/
structure Entry where
  key : Nat
  scid : Nat
  at_ : Nat
  deriving DecidableEq, Repr

/-- `ConnectionState` (connector.rs:58-69); `PendingConnection` (connector.rs:97-101). -/
inductive Phase (C : Type) where
  | queued (c : C)
  | pending (c : C) (key : Option Nat) (start : Nat)
  | returned

/-- `ClientConnector` (connector.rs:51-55); keys of the queue are given out by `next`. -/
structure St (C : Type) where
  phase : Phase C
  queue : List Entry := []
  next : Nat := 0

/-- What a call returns: nothing, a connection with the time its handshake began, an error, or a
panic. -/
inductive Out (C : Type) where
  | none | conn (c : C) (start : Nat) | timedOut | sendError | panic

variable {C D : Type}

/-- `set_connection_to_pending` (connector.rs:120-138). The connection was taken before, so
that it is gone after an error. -/
def pend (a : Api C D) (s : St C) (c : C) (now : Nat) : St C × Out C :=
  match a.send c with
  | (_, false) => ({ s with phase := .returned }, .sendError)
  | (c, true) =>
    match a.timeout c with
    | Option.none => ({ s with phase := .pending c Option.none now }, .none)
    | some t =>
      ({ phase := .pending c (some s.next) now, queue := ⟨s.next, a.scid c, t⟩ :: s.queue,
         next := s.next + 1 }, .none)

/-- `DelayQueue::remove`: it panics if there is no such key. -/
def remove (q : List Entry) (key : Nat) : Option (List Entry) :=
  if q.any (fun e => e.key == key) then some (q.filter fun e => e.key != key) else Option.none

/-- The timer is disarmed (connector.rs:170-174). -/
def disarm (q : List Entry) : Option Nat → Option (List Entry)
  | Option.none => some q
  | some k => remove q k

/-- `on_incoming` (connector.rs:144-197). -/
def incoming (a : Api C D) (s : St C) (dcid : Nat) (ds : List D) (now : Nat) : St C × Out C :=
  match s.phase with
  | .pending c key start =>
    if dcid = a.scid c then
      let c := ds.foldl a.recv c
      match disarm s.queue key with
      | Option.none => ({ s with phase := .returned }, .panic)
      | some q =>
        let s := { s with phase := .returned, queue := q }
        if a.est c then (s, .conn c start)
        else if a.closed c then (s, .timedOut)
        else pend a s c now
    else (s, .none)
  | _ => (s, .none)

/-- `on_timeout` (connector.rs:202-224) for a connection ID. -/
def onTimeout (a : Api C D) (s : St C) (scid now : Nat) : St C × Out C :=
  match s.phase with
  | .pending c _ _ =>
    if scid = a.scid c then
      let c := a.onTimeout c
      let s := { s with phase := .returned }
      if a.closed c then (s, .timedOut) else pend a s c now
    else (s, .none)
  | _ => (s, .none)

/-- One turn of the loop in `update` (connector.rs:229-233): an entry that is due leaves the
queue. `none` if the entry is not there or not due. -/
def expire (a : Api C D) (s : St C) (e : Entry) (now : Nat) : Option (St C × Out C) :=
  if e ∈ s.queue ∧ e.at_ ≤ now then
    some (onTimeout a { s with queue := s.queue.filter fun x => x.key != e.key } e.scid now)
  else Option.none

/-- The rest of `update` (connector.rs:235-237). -/
def startQueued (a : Api C D) (s : St C) (now : Nat) : St C × Out C :=
  match s.phase with
  | .queued c => pend a s c now
  | _ => (s, .none)

/-- Events: packets, an entry of the queue that is due, the start. A call of `update` is some
`expire` and then a `start`, if none of them is an error. -/
inductive Ev (D : Type) where
  | incoming (dcid : Nat) (ds : List D) (now : Nat)
  | expire (e : Entry) (now : Nat)
  | start (now : Nat)

def step (a : Api C D) (s : St C) : Ev D → St C × Out C
  | .incoming d ds now => incoming a s d ds now
  | .expire e now => (expire a s e now).getD (s, .none)
  | .start now => startQueued a s now

/-- The state after a run, and what the calls returned. -/
def run (a : Api C D) (s : St C) : List (Ev D) → St C × List (Out C)
  | [] => (s, [])
  | e :: l =>
    let (s, o) := step a s e
    let (s, os) := run a s l
    (s, o :: os)

/-- `ClientConnector::new` (connector.rs:107-115). -/
def new (c : C) : St C := { phase := .queued c }

end Verif.Tq.Connector
