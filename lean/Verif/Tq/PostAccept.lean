/-!
The time a server of tokio-quiche gives a client for its first request: `post_accept_timeout`, kept
in a delay queue by the hooks of a server (tokio-quiche/src/http3/settings.rs,
tokio-quiche/src/http3/driver/server.rs), waited for by the driver
(tokio-quiche/src/http3/driver/mod.rs) in the task that serves the connection
(tokio-quiche/src/quic/io/worker.rs).

Times are numbers. `DelayQueue` of tokio-util is taken to give out an entry when it is polled at its
time or later (it works in whole milliseconds, and may be up to one later). What requests there are
is in `Tq/Requests.lean`; the loop of the task is in `Tq/Worker.lean`. A poll of the connection's
task is `wake`, with whether something that the two `select!`s look at before the delay queue was
ready.
-/

namespace Verif.Tq.PostAccept

/-- How the work on a connection ended: `work_loop_result` as `Closing` has it. -/
inductive End where
  | ok
  | postAccept
  | other
  deriving DecidableEq, Repr

/-- `WireErrorCode::NoError` (quiche/src/h3/mod.rs:446). -/
abbrev noError : Nat := 0x100

/-- `ServerHooks` (server.rs:158-171) with its `Http3SettingsEnforcer` (settings.rs:104-107,
191-199), and what is seen of the connection. -/
structure St where
  /-- `post_accept_timeout` and `max_requests_per_connection` of the settings. -/
  timeout : Option Nat
  limit : Option Nat
  /-- `start_time` of `HandshakeInfo`. -/
  start : Nat
  /-- `on_conn_established` was called; it is called once (C176). -/
  est : Bool := false
  /-- The delay queue: keys and times. -/
  queue : List (Nat × Nat) := []
  nextKey : Nat := 0
  /-- `post_accept_timeout` of the hooks. -/
  key : Option Nat := none
  requests : Nat := 0
  /-- The keys of `stream_map`. -/
  streams : List Nat := []
  /-- The error code `close` was called with first. -/
  closed : Option Nat := none
  ended : Option End := none
  /-- The controller was given `ConnectionShutdown(Some(PostAcceptTimeout))`. -/
  told : Bool := false
  /-- `DelayQueue::remove` panics if there is no such entry. -/
  panicked : Bool := false
  deriving DecidableEq, Repr

/-- `close` of the connection (quiche/src/lib.rs:7553-7586): only the first counts. -/
def St.close (s : St) (code : Nat) : St :=
  match s.closed with
  | none => { s with closed := some code }
  | some _ => s

/-- `on_conn_established` of the task (worker.rs:1078-1105, 1108-1129), of the driver
(mod.rs:1323-1332) and of the hooks (server.rs:275-299); `add_timeout` (settings.rs:141-146).
After an error `Closing` has the result of the handshake's work, which is `Ok` (worker.rs:1098-1103),
so `on_conn_close` (mod.rs:1380-1413) says nothing. -/
def St.established (s : St) (now : Nat) : St :=
  let s := { s with est := true }
  match s.timeout with
  | none => s
  | some t =>
    if now - s.start ≤ t then
      { s with
        queue := s.queue ++ [(s.nextKey, now + (t - (now - s.start)))]
        nextKey := s.nextKey + 1
        key := some s.nextKey }
    else { s with ended := some .ok }

/-- `enforce_requests_limit` (settings.rs:127-133). -/
def St.full (s : St) : Bool :=
  match s.limit with
  | some n => decide (n ≤ s.requests)
  | none => false

/-- `cancel_timeout` (settings.rs:181-184). -/
def St.cancel (s : St) (k : Nat) : St :=
  if k ∈ s.queue.map (·.1) then { s with queue := s.queue.filter (fun e => e.1 ≠ k) }
  else { s with panicked := true }

/-- The first part of `handle_request` (server.rs:178-192) and its count (250). -/
def St.request (s : St) (id : Nat) : St :=
  if id ∈ s.streams then s
  else { s with streams := id :: s.streams, requests := s.requests + 1 }

/-- `headers_received` (server.rs:301-322). -/
def St.headers (s : St) (id : Nat) : St :=
  if s.full then s.close noError
  else
    match s.key with
    | some k => ({ s with key := none }.cancel k).request id
    | none => s.request id

/-- `poll_timeouts`, `enforce_timeouts` (settings.rs:154-179) and `wait_for_action`
(server.rs:332-341); `close` fails if the connection was closed before. Then `on_conn_close` with the
error (mod.rs:1391-1413). -/
def St.expire (s : St) (now : Nat) : St :=
  if s.queue.any (fun e => decide (e.2 ≤ now)) then
    let s := { s with queue := s.queue.filter (fun e => decide (now < e.2)) }
    match s.closed with
    | none => { s with closed := some noError, ended := some .postAccept, told := true }
    | some _ => { s with ended := some .other }
  else s

inductive Ev where
  /-- the handshake is complete, at a time -/
  | established (now : Nat)
  /-- a HEADERS frame is read -/
  | headers (id : Nat)
  /-- `cleanup_stream` -/
  | cleanup (id : Nat)
  /-- the controller or the protocol closes the connection -/
  | close (code : Nat)
  /-- the task is polled; `busy` if its timer, a packet (worker.rs:510-524), or a stream, a
  datagram or a command of the application (mod.rs:1422-1426) was ready -/
  | wake (now : Nat) (busy : Bool)
  deriving DecidableEq, Repr

def St.step (s : St) (e : Ev) : St :=
  if s.ended.isSome || s.panicked then s
  else
    match e with
    | .established now => if s.est then s else s.established now
    | .headers id => if s.est then s.headers id else s
    | .cleanup id => { s with streams := s.streams.filter (· ≠ id) }
    | .close code => s.close code
    | .wake now busy => if s.est && !busy && !s.queue.isEmpty then s.expire now else s

def St.run (s : St) : List Ev → St
  | [] => s
  | e :: l => (s.step e).run l

end Verif.Tq.PostAccept
