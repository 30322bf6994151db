import Verif.Frame.Model

/-!
Model of the life of a connection (`/repo/quiche/src/lib.rs`): idle timer, `close()`,
closing and draining, timeouts. Times are nanoseconds (`Instant`, `Duration`).

What other parts of the connection do (decryption, frames other than CONNECTION_CLOSE,
TLS, recovery, paths) is left open: every step takes the outcome of these parts as an
argument, and the theorems hold for all outcomes. What is modelled exactly is how the
fields `closed`, `draining_timer`, `local_error`, `peer_error`, `idle_timer`,
`ack_eliciting_sent`, `timed_out` and `recv_count` are used and changed, and everything
that is sent once `local_error` is set.
-/

namespace Verif.Life
open Verif Verif.Frame

/-- One millisecond. -/
abbrev ms : Nat := 1000000

/-- `ConnectionError` (lib.rs:1331-1345). -/
structure CErr where
  isApp : Bool
  code : Nat
  reason : Bytes
  deriving DecidableEq, Repr

/-- `Error::InvalidState.to_wire()` (error.rs:185-202), PROTOCOL_VIOLATION. -/
abbrev protocolViolation : Nat := 0xa

/-- `idle_timeout` (lib.rs:8874-8909). The parameters are in milliseconds; `pto` is that
of the active path, if there is one. -/
def idleTimeout (localIdle peerIdle : Nat) (pto : Option Nat) : Option Nat :=
  if localIdle = 0 ∧ peerIdle = 0 then none
  else
    let idle :=
      if localIdle = 0 then peerIdle
      else if peerIdle = 0 then localIdle
      else min localIdle peerIdle
    some (max (idle * ms) (3 * pto.getD 0))

/-- What `write_pkt_type` and `send_single` look at in one epoch: send and receive keys,
CRYPTO data waiting (`data_available`), `ack_elicited`, `recv_pkt_need_ack` not empty,
lost frames, probes due. -/
structure Ep where
  sealKey : Bool
  openKey : Bool
  data : Bool
  ackElicited : Bool
  needAck : Bool
  lost : Bool
  probes : Bool
  deriving DecidableEq, Repr

/-- `drop_epoch_state` (lib.rs:8847-8862). -/
def Ep.drop (e : Ep) : Ep :=
  if e.openKey then
    { e with sealKey := false, openKey := false, data := false, ackElicited := false,
             lost := false, probes := false }
  else e

/-- `crypto::Level` as returned by `write_level()`. -/
inductive Lvl where
  | initial | zeroRtt | handshake | oneRtt
  deriving DecidableEq, Repr

/-- The rest of the connection as far as this module reads it. `pto` is that of the active
path, `none` when there is no active path; `timers` are the loss detection timers of the
paths, `keyUpdate` the timer of a key update. -/
structure Env where
  established : Bool
  earlyData : Bool
  confirmed : Bool
  writeLevel : Lvl
  initial : Ep
  handshake : Ep
  app : Ep
  peerIdle : Nat
  pto : Option Nat
  nPaths : Nat
  timers : List (Option Nat)
  keyUpdate : Option Nat
  deriving DecidableEq, Repr

/-- The cause of the end of the connection as `mark_closed` writes it to the qlog
(lib.rs:9217-9308). -/
inductive Cause where
  | handshakeTimeout | idleTimeout | remote (e : CErr) | locally (e : CErr) | unknown
  deriving DecidableEq, Repr

/-- The `match` in `mark_closed` (lib.rs:9220-9300). -/
def causeOf (established timedOut : Bool) (peerErr localErr : Option CErr) : Cause :=
  if !established then .handshakeTimeout
  else if timedOut then .idleTimeout
  else match peerErr, localErr with
  | some e, none => .remote e
  | none, some e => .locally e
  | _, _ => .unknown

/-- The fields of `Connection` modelled here. `cause` is what was written to the qlog when
the connection was closed; the log is closed after that. -/
structure State where
  isServer : Bool
  localIdle : Nat
  env : Env
  closed : Bool
  drain : Option Nat
  localErr : Option CErr
  peerErr : Option CErr
  idle : Option Nat
  aeSent : Bool
  timedOut : Bool
  recvCount : Nat
  cause : Option Cause
  deriving DecidableEq, Repr

/-- A new connection (lib.rs:2130-2180). -/
def State.new (isServer : Bool) (localIdle : Nat) (env : Env) : State where
  isServer := isServer
  localIdle := localIdle
  env := env
  closed := false
  drain := none
  localErr := none
  peerErr := none
  idle := none
  aeSent := false
  timedOut := false
  recvCount := 0
  cause := none

/-- `mark_closed` (lib.rs:9217-9310). -/
def State.markClosed (s : State) : State :=
  { s with
    closed := true
    cause := s.cause.or (some (causeOf s.env.established s.timedOut s.peerErr s.localErr)) }

/-- Restarting the idle timer (lib.rs:3779-3781 and 5515-5517). -/
def State.restartIdle (s : State) (now : Nat) : State :=
  match idleTimeout s.localIdle s.env.peerIdle s.env.pto with
  | some d => { s with idle := some (now + d) }
  | none => s

/-- `close` (lib.rs:7553-7587). -/
def close (s : State) (app : Bool) (code : Nat) (reason : Bytes) : State × Bool :=
  if s.closed || s.drain.isSome then (s, false)
  else if s.localErr.isSome then (s, false)
  else
    let e : CErr :=
      if app && !(s.env.established || s.env.earlyData) then ⟨false, 0x0c, []⟩
      else ⟨app, code, reason⟩
    let s := { s with localErr := some e }
    (if s.recvCount = 0 then s.markClosed else s, true)

/-! ### Receiving -/

/-- What becomes of one packet once the checks at the start of `recv_single` are passed.
`tls` is the error recorded by the TLS callbacks (tls/mod.rs:660-672 and 892-916);
`closes` are the CONNECTION_CLOSE frames processed, each with the probe timeout of the
active path at that moment. -/
inductive Pkt where
  /-- Not processed (`Err(Done)`). -/
  | dropped
  /-- Processed up to an error. -/
  | failed (env : Env) (tls : Option CErr) (closes : List (CErr × Option Nat)) (code : Nat)
  /-- Processed. -/
  | accepted (env : Env) (tls : Option CErr) (closes : List (CErr × Option Nat))
  deriving DecidableEq, Repr

/-- CONNECTION_CLOSE and APPLICATION_CLOSE in `process_frame` (lib.rs:8781-8803): the
error is recorded and the draining timer set; without an active path the frame is an
error. -/
def onClose (s : State) (now : Nat) : List (CErr × Option Nat) → State × Bool
  | [] => (s, true)
  | (e, some p) :: l =>
    onClose { s with peerErr := some e, drain := some (now + 3 * p) } now l
  | (e, none) :: _ => ({ s with peerErr := some e }, false)

/-- Result of `recv_single`. -/
inductive Res where
  | ok | done | err (code : Nat)
  deriving DecidableEq, Repr

/-- A TLS error replaces `local_error`. -/
def orErr (new old : Option CErr) : Option CErr :=
  match new with
  | some e => some e
  | none => old

/-- The end of `recv_single` (lib.rs:3779-3803). -/
def State.received (s : State) (now : Nat) : State :=
  { s.restartIdle now with recvCount := s.recvCount + 1, aeSent := false }

/-- `recv_single` (lib.rs:2960-3806). -/
def recvSingle (s : State) (now : Nat) (p : Pkt) : State × Res :=
  if s.closed || s.drain.isSome then (s, .done)
  else if s.localErr.isSome then (s, .done)
  else match p with
  | .dropped => (s, .done)
  | .failed env tls closes code =>
    let r := onClose { s with env := env, localErr := orErr tls s.localErr } now closes
    (r.1, .err (if r.2 then code else protocolViolation))
  | .accepted env tls closes =>
    let r := onClose { s with env := env, localErr := orErr tls s.localErr } now closes
    if r.2 then (r.1.received now, .ok) else (r.1, .err protocolViolation)

/-- A datagram: its packets, each with the answer of `is_stateless_reset` for the bytes
from there on (lib.rs:2868-2885). The second component is the error returned. Buffered
0-RTT packets processed afterwards are further datagrams. -/
def recv (s : State) (now : Nat) : List (Pkt × Bool) → State × Option Nat
  | [] => (s, none)
  | (p, reset) :: l =>
    match recvSingle s now p with
    | (s', .ok) => recv s' now l
    | (s', .done) => (if reset then s'.markClosed else s', none)
    | (s', .err c) => ((close s' false c []).1, some c)

/-! ### Sending -/

/-- The frames of a packet as far as they are told apart here. PADDING is left out. -/
inductive SFrame where
  | ack | pathResponse | pathChallenge | close (e : CErr) | other
  deriving DecidableEq, Repr

/-- Inputs of one `send_single`. `active`: the path sent on is the active one; `left`: the
room after the overhead, `none` if there is too little (lib.rs:4463-4486); `cwnd`:
`cwnd_available` less the overhead; `elicit`: `should_elicit_ack`; `ackLen`: length of the
ACK frame; `challenges`: PATH_CHALLENGEs to answer; `challenge`: `validation_requested`;
`lostCrypto`: some lost frame is a CRYPTO frame; `moreProbes`: probes are left after this
packet; `timers`: the timers after the packet was sent; `pto`: the probe
timeout of the path sent on. -/
structure Slot where
  active : Bool
  left : Option Nat
  cwnd : Nat
  elicit : Bool
  ackLen : Nat
  challenges : Nat
  challenge : Bool
  lostCrypto : Bool
  moreProbes : Bool
  timers : List (Option Nat)
  pto : Nat
  deriving DecidableEq, Repr

/-- What `send_single` does when the connection is not closing. -/
inductive Free where
  | nothing (env : Env)
  | failed (env : Env)
  | sends (env : Env) (ty : PktType) (eliciting : Bool)
  deriving DecidableEq, Repr

/-- Result of `send_single`. `panic` stands for a panic. -/
inductive SRes where
  | done
  | err
  | panic
  | sent (ty : PktType) (frames : List SFrame)
  deriving DecidableEq, Repr

/-- A reason to send in an epoch (lib.rs:8192-8216). -/
def Ep.wants (e : Ep) : Bool := e.sealKey && (e.data || e.ackElicited || e.lost || e.probes)

/-- `write_pkt_type` (lib.rs:8153-8260) while closing with error `e`. `none` is the
`unreachable!()`; `some none` is `Err(Done)`. -/
def writePktType (s : State) (e : CErr) : Option (Option PktType) :=
  if e.isApp then
    if s.env.initial.wants then some (some .initial)
    else if s.env.handshake.wants then some (some .handshake)
    else if s.env.app.wants then some (some .short)
    else if s.env.established || s.env.earlyData then
      if !s.isServer && s.env.earlyData then some (some .zeroRTT) else some (some .short)
    else some none
  else match s.env.writeLevel with
  | .zeroRtt => none
  | .initial => some (some .initial)
  | .handshake =>
    if !s.env.confirmed && (s.env.initial.openKey && s.env.initial.sealKey) then
      some (some .initial)
    else some (some .handshake)
  | .oneRtt => if s.env.confirmed then some (some .short) else some (some .handshake)

/-- The epoch of a packet type (packet.rs:154-167). -/
def Env.ep (v : Env) : PktType → Ep
  | .initial => v.initial
  | .handshake => v.handshake
  | _ => v.app

/-- Changes an epoch. -/
def Env.setEp (v : Env) (ty : PktType) (e : Ep) : Env :=
  match ty with
  | .initial => { v with initial := e }
  | .handshake => { v with handshake := e }
  | _ => { v with app := e }

/-- The loop over lost frames (lib.rs:4188-4372): lost CRYPTO data is queued again. -/
def Ep.requeue (e : Ep) (x : Slot) : Ep :=
  if e.lost then { e with lost := false, data := e.data || x.lostCrypto } else e

/-- The CONNECTION_CLOSE frame written for an error in a packet of a type
(lib.rs:4973-5003); `none`: none is written. -/
def closeFrame (ty : PktType) (e : CErr) : Option Frame :=
  if e.isApp then
    if ty = .short then some (.applicationClose e.code e.reason) else none
  else some (.connectionClose e.code 0 e.reason)

/-- Is an ACK frame written while closing (lib.rs:4526-4567)? -/
def ackSent (p : Ep) (ty : PktType) (e : CErr) (x : Slot) (left : Nat) : Bool :=
  p.needAck && (p.ackElicited || x.elicit) && (ty == .handshake && e.isApp) && x.active &&
    (p.ackElicited || x.ackLen < x.cwnd) && x.ackLen ≤ left

/-- The room after the ACK frame, limited by the congestion window (lib.rs:4570-4575). -/
def roomAfterAck (ack : Bool) (x : Slot) (left : Nat) : Nat :=
  if ack then min (left - x.ackLen) (x.cwnd - x.ackLen) else min left x.cwnd

/-- How many PATH_RESPONSEs (nine bytes each) are written (lib.rs:4606-4619). -/
def responses (ty : PktType) (x : Slot) (left : Nat) : Nat :=
  if ty = .short then min x.challenges (left / 9) else 0

/-- Is a PATH_CHALLENGE written (lib.rs:4622-4636)? -/
def challengeSent (ty : PktType) (x : Slot) (left : Nat) : Bool :=
  (ty == .short) && x.challenge && 9 ≤ left

/-- Is the CONNECTION_CLOSE frame written, given the room left? `none`: its length has no
varint encoding and `varint_len` panics. -/
def closeSent (ty : PktType) (e : CErr) (x : Slot) (nPaths left : Nat) : Option Bool :=
  if x.active || nPaths == 1 then
    match closeFrame ty e with
    | none => some false
    | some f =>
      match wireLen f with
      | none => none
      | some n => some (decide (n ≤ left))
  else some false

/-- The frames of a packet sent while closing. -/
def closingFrames (ack : Bool) (n : Nat) (chal close : Bool) (e : CErr) : List SFrame :=
  (if ack then [.ack] else []) ++ List.replicate n .pathResponse ++
    (if chal then [.pathChallenge] else []) ++ (if close then [.close e] else [])

/-- The end of `send_single` (lib.rs:5508-5522): the client drops the Initial epoch with
its first Handshake packet; the idle timer restarts with the first ack-eliciting packet
since one was received. -/
def State.finishSend (s : State) (now : Nat) (ty : PktType) (eliciting : Bool) : State :=
  let s :=
    if !s.isServer && ty == .handshake then
      { s with env := { s.env with initial := s.env.initial.drop } }
    else s
  let s := if eliciting && !s.aeSent then s.restartIdle now else s
  { s with aeSent := s.aeSent || eliciting }

/-- The epoch after the packet was built. -/
def Ep.built (p : Ep) (x : Slot) (ack eliciting : Bool) : Ep :=
  { p with ackElicited := p.ackElicited && !ack,
           probes := p.probes && (!eliciting || x.moreProbes) }

/-- `draining_timer` once the CONNECTION_CLOSE frame is written (lib.rs:4983-5000). -/
def drainAfter (s : State) (now : Nat) (x : Slot) (close : Bool) : Option Nat :=
  if close then some (now + 3 * x.pto) else s.drain

/-- `send_single` (lib.rs:4101-5525) of a closing connection, once the packet type is
known. -/
def closingPacket (s : State) (e : CErr) (now : Nat) (x : Slot) (ty : PktType) :
    State × SRes :=
  let p := (s.env.ep ty).requeue x
  let s := { s with env := s.env.setEp ty p }
  if !p.sealKey then (s, .done)
  else match x.left with
  | none => (s, .done)
  | some left =>
    let ack := ackSent p ty e x left
    let room := roomAfterAck ack x left
    let n := responses ty x room
    let chal := challengeSent ty x (room - 9 * n)
    let room' := room - 9 * n - (if chal then 9 else 0)
    match closeSent ty e x s.env.nPaths room' with
    | none => (s, .panic)
    | some c =>
      let frames := closingFrames ack n chal c e
      if frames.isEmpty then (s, .done)
      else
        let eliciting := decide (0 < n) || chal || c
        let env := { s.env.setEp ty (p.built x ack eliciting) with timers := x.timers }
        (State.finishSend { s with env := env, drain := drainAfter s now x c } now ty eliciting,
          .sent ty frames)

/-- `send_single` (lib.rs:4101-5525). -/
def sendSingle (s : State) (now : Nat) (x : Slot) (f : Free) : State × SRes :=
  if s.drain.isSome then (s, .done)
  else match s.localErr with
  | some e =>
    match writePktType s e with
    | none => (s, .panic)
    | some none => (s, .done)
    | some (some ty) => closingPacket s e now x ty
  | none =>
    match f with
    | .nothing env => ({ s with env := env }, .done)
    | .failed env => ({ s with env := env }, .err)
    | .sends env ty el => (State.finishSend { s with env := env } now ty el, .sent ty [.other])

/-- What `do_handshake` does when called from `send_on_path` (lib.rs:3968-3972). -/
inductive Hs where
  | ok (env : Env)
  | failed (env : Env) (tls : Option CErr)
  deriving DecidableEq, Repr

/-- The loop of `send_on_path` over coalesced packets (lib.rs:4022-4062); the list ends
where the room or the reasons to go on end. -/
def sendLoop (s : State) (now : Nat) : List (Slot × Free) → State × List SRes
  | [] => (s, [])
  | (x, f) :: l =>
    match sendSingle s now x f with
    | (s', .sent ty fr) =>
      if ty = .short then (s', [.sent ty fr])
      else let r := sendLoop s' now l; (r.1, .sent ty fr :: r.2)
    | (s', r) => (s', [r])

/-- `send_on_path` (lib.rs:3956-4099). -/
def send (s : State) (now : Nat) (h : Hs) (l : List (Slot × Free)) : State × List SRes :=
  if s.closed || s.drain.isSome then (s, [])
  else if s.localErr.isSome then sendLoop s now l
  else match h with
  | .ok env => sendLoop { s with env := env } now l
  | .failed env tls => ({ s with env := env, localErr := orErr tls s.localErr }, [])

/-! ### Timeouts -/

/-- The least of the timers that are set. -/
def least : List (Option Nat) → Option Nat
  | [] => none
  | none :: l => least l
  | some a :: l =>
    match least l with
    | none => some a
    | some b => some (min a b)

/-- `timeout_instant` (lib.rs:7018-7048). -/
def timeoutInstant (s : State) : Option Nat :=
  if s.closed then none
  else if s.drain.isSome then s.drain
  else least [s.idle, least s.env.timers, s.env.keyUpdate]

/-- What the loss detection timers that fired do: lost frames and probes in each epoch,
new timers, and the probe timeout of the active path (`none`: the active path failed).
`candidate`: another path took over (`find_candidate_path`, `set_active_path`). -/
structure Fired where
  lost : Bool × Bool × Bool
  probes : Bool × Bool × Bool
  timers : List (Option Nat)
  pto : Option Nat
  candidate : Option Nat
  deriving DecidableEq, Repr

/-- An expired timer. -/
def expired (now : Nat) : Option Nat → Bool
  | some t => decide (t ≤ now)
  | none => false

/-- Lost frames and probes appear. -/
def Ep.fire (e : Ep) (lost probes : Bool) : Ep :=
  { e with lost := e.lost || lost, probes := e.probes || probes }

/-- The loop over the paths in `on_timeout` (lib.rs:7112-7136). -/
def Env.fire (v : Env) (now : Nat) (t : Fired) : Env :=
  if v.timers.any (expired now) then
    { v with
      initial := v.initial.fire t.lost.1 t.probes.1
      handshake := v.handshake.fire t.lost.2.1 t.probes.2.1
      app := v.app.fire t.lost.2.2 t.probes.2.2
      timers := t.timers
      pto := t.pto }
  else v

/-- Discards the old keys (lib.rs:7098-7110). -/
def Env.expireKeys (v : Env) (now : Nat) : Env :=
  if expired now v.keyUpdate then { v with keyUpdate := none } else v

/-- The end of `on_timeout` (lib.rs:7138-7155): without an active path another one is
chosen or the connection closed. -/
def State.needPath (s : State) (t : Fired) : State :=
  match s.env.pto, t.candidate with
  | some _, _ => s
  | none, some p => { s with env := { s.env with pto := some p } }
  | none, none => s.markClosed

/-- `on_timeout` (lib.rs:7071-7156). -/
def onTimeout (s : State) (now : Nat) (t : Fired) : State :=
  if s.drain.isSome then
    if expired now s.drain then s.markClosed else s
  else if expired now s.idle then { s.markClosed with timedOut := true }
  else State.needPath { s with env := (s.env.expireKeys now).fire now t } t

/-! ### Runs -/

/-- The calls of the API. `api` stands for the other calls that affect the paths
(`migrate`, `probe_path`, …) or the handshake configuration: they change the timers, the
number of paths and the probe timeout of the active path. -/
inductive Ev where
  | recv (now : Nat) (l : List (Pkt × Bool))
  | send (now : Nat) (h : Hs) (l : List (Slot × Free))
  | timeout (now : Nat) (t : Fired)
  | close (app : Bool) (code : Nat) (reason : Bytes)
  | api (pto : Option Nat) (nPaths : Nat) (timers : List (Option Nat))
  deriving DecidableEq, Repr

/-- What one call sends. -/
def out (s : State) : Ev → List SRes
  | .send now h l => (send s now h l).2
  | _ => []

/-- One call. -/
def step (s : State) : Ev → State
  | .recv now l => (recv s now l).1
  | .send now h l => (send s now h l).1
  | .timeout now t => onTimeout s now t
  | .close a c r => (close s a c r).1
  | .api p n ts => { s with env := { s.env with pto := p, nPaths := n, timers := ts } }

/-- A sequence of calls. -/
def run (s : State) : List Ev → State
  | [] => s
  | e :: l => run (step s e) l

/-- Everything sent in a sequence of calls. -/
def sent (s : State) : List Ev → List SRes
  | [] => []
  | e :: l => out s e ++ sent (step s e) l

end Verif.Life
