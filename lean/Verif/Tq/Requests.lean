/-!
Requests and responses in the HTTP/3 driver of tokio-quiche: the hooks of a client
(tokio-quiche/src/http3/driver/client.rs) with its queue of requests that could not be sent, and
the count of requests of a server (driver/server.rs). `h3::Connection::send_request`
(quiche/src/h3/mod.rs:1160-1219) is modelled as far as the choice of stream and its errors go.

Requests and lists of headers are of any type. What becomes of a stream after its headers is C158
and C159. Not modelled: flows of datagrams (C156), statistics.
-/

namespace Verif.Tq.Requests

/-! ### The client -/

/-- The state of a client: its command channel, `ClientHooks` (client.rs:147-161), the keys of
`stream_map`, `next_request_stream_id` (as `4 * next`), the streams opened and allowed, and the
events given to the controller. -/
structure Cl (R H : Type) where
  /-- The channel of commands: requests of the controller and those put back. -/
  chan : List R := []
  /-- `queued_requests`. -/
  queued : List R := []
  /-- The keys of `pending_requests`. -/
  pending : List Nat := []
  /-- The keys of `stream_map`. -/
  streams : List Nat := []
  next : Nat := 0
  /-- `local_opened_streams_bidi` and `peer_max_streams_bidi`. -/
  opened : Nat := 0
  max : Nat
  goaway : Bool := false
  /-- An error ended the driver, and with it the connection. -/
  dead : Bool := false
  /-- Not in the code: the events `NewOutboundRequest`, with the request. -/
  sent : List (Nat × R) := []
  /-- The events `IncomingHeaders`. -/
  given : List (Nat × H) := []
  /-- Requests that were dropped. -/
  lost : List R := []

/-- What `send_request` answers. -/
inductive Answer where
  | ok | retry | fatal
  deriving DecidableEq, Repr

variable {R H : Type}

/-- `send_request` (h3/mod.rs:1160-1219), with `is_retriable_send_error` (client.rs:178-184).
The stream of QUIC is opened by a write of no bytes and stays open if the headers do not fit;
`next_request_stream_id` is then the same for the next attempt. -/
def Cl.sendRequest (s : Cl R H) (fits : Bool) : Cl R H × Answer :=
  if s.goaway then (s, .fatal)
  else if s.opened ≤ s.next ∧ s.max ≤ s.opened then (s, .retry)
  else
    let s := { s with opened := if s.opened ≤ s.next then s.opened + 1 else s.opened }
    if fits then ({ s with next := s.next + 1 }, .ok) else (s, .retry)

/-- `initiate_request` (client.rs:192-264). -/
def Cl.initiate (s : Cl R H) (r : R) (fits : Bool) : Cl R H :=
  let id := 4 * s.next
  match s.sendRequest fits with
  | (s, .ok) =>
    { s with streams := id :: s.streams, pending := id :: s.pending, sent := s.sent ++ [(id, r)] }
  | (s, .retry) => { s with queued := s.queued ++ [r] }
  | (s, .fatal) => { s with dead := true, lost := s.lost ++ [r] }

/-- A command is taken from the channel (mod.rs:1426, 1437-1440; client.rs:337-346). -/
def Cl.command (s : Cl R H) (fits : Bool) : Cl R H :=
  match s.chan with
  | [] => s
  | r :: l => { s with chan := l }.initiate r fits

/-- `peer_streams_left_bidi` (stream/mod.rs:695-698). -/
def Cl.left (s : Cl R H) : Nat := s.max - s.opened

/-- `wait_for_action` after its delay (client.rs:352-382). -/
def Cl.retry (s : Cl R H) : Cl R H :=
  let n := min s.left s.queued.length
  { s with chan := s.chan ++ s.queued.take n, queued := s.queued.drop n }

/-- `headers_received` and `handle_response` (client.rs:269-296, 324-335). -/
def Cl.headers (s : Cl R H) (id : Nat) (h : H) : Cl R H :=
  if id ∈ s.pending then
    let s := { s with pending := s.pending.filter (· ≠ id) }
    if id ∈ s.streams then { s with given := s.given ++ [(id, h)] } else { s with dead := true }
  else s

/-- Events: a request of the controller, a command taken, the delay of the queue has passed, headers
of the peer, `cleanup_stream` (mod.rs:1037-1079), a MAX_STREAMS frame (lib.rs, C24), GOAWAY. -/
inductive Ev (R H : Type) where
  | new (r : R)
  | command (fits : Bool)
  | retry
  | headers (id : Nat) (h : H)
  | cleanup (id : Nat)
  | maxStreams (n : Nat)
  | goaway

def Cl.step (s : Cl R H) (e : Ev R H) : Cl R H :=
  match e with
  | .new r => if s.dead then { s with lost := s.lost ++ [r] } else { s with chan := s.chan ++ [r] }
  | .command f => if s.dead then s else s.command f
  | .retry => if s.dead then s else s.retry
  | .headers id h => if s.dead then s else s.headers id h
  | .cleanup id => { s with streams := s.streams.filter (· ≠ id) }
  | .maxStreams n => { s with max := Nat.max s.max n }
  | .goaway => { s with goaway := true }

def Cl.run (s : Cl R H) : List (Ev R H) → Cl R H
  | [] => s
  | e :: l => (s.step e).run l

/-! ### The server -/

/-- `ServerHooks` (server.rs:148-162), the keys of `stream_map` and the events given. -/
structure Sv where
  /-- `max_requests_per_connection`. -/
  limit : Option Nat
  requests : Nat := 0
  streams : List Nat := []
  /-- `close` was called. -/
  closed : Bool := false
  /-- The events `Headers`. -/
  given : List Nat := []
  deriving DecidableEq, Repr

/-- `enforce_requests_limit` (settings.rs:127-133). -/
def Sv.full (s : Sv) : Bool :=
  match s.limit with
  | some n => decide (n ≤ s.requests)
  | none => false

/-- `headers_received` and `handle_request` (server.rs:169-243, 288-309). -/
def Sv.headers (s : Sv) (id : Nat) : Sv :=
  if s.full then { s with closed := true }
  else if id ∈ s.streams then s
  else { s with streams := id :: s.streams, given := s.given ++ [id], requests := s.requests + 1 }

inductive SEv where
  | headers (id : Nat)
  | cleanup (id : Nat)
  deriving DecidableEq, Repr

def Sv.step (s : Sv) : SEv → Sv
  | .headers id => if s.closed then s else s.headers id
  | .cleanup id => { s with streams := s.streams.filter (· ≠ id) }

def Sv.run (s : Sv) : List SEv → Sv
  | [] => s
  | e :: l => (s.step e).run l

end Verif.Tq.Requests
