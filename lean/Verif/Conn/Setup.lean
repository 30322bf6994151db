import Verif.Tp.Model
import Verif.Small.Pmtud

/-!
The handshake as `/repo/quiche/src/lib.rs` drives it (`do_handshake`), with the settings that are
made in callbacks of the TLS library.

The TLS library is a script for each call: the settings made by callbacks and the moment at which it
writes its transport parameters into a message, and its results.
-/

namespace Verif.Setup
open Verif Verif.Tp

/-- `RecoveryConfig` (recovery/mod.rs:132-144). Algorithms and the parameters of BBR are numbers. -/
structure Rc where
  initialRtt : Nat := 333
  maxSend : Nat := 1200
  maxAckDelay : Nat := 0
  cc : Nat := 1
  bbr : Option Nat := none
  hystart : Bool := true
  pacing : Bool := true
  maxRate : Option Nat := none
  window : Nat := 10
  relaxed : Bool := false
  idleFix : Bool := true
  deriving DecidableEq, Repr

/-- The recovery of the active path: the configuration it was made with, and what is changed
afterwards. -/
structure Rec where
  rc : Rc
  mds : Nat
  ackDelay : Nat
  inFlight : Nat := 0
  duration : Nat := 0
  deriving DecidableEq, Repr

/-- `Recovery::new_with_config` (recovery/mod.rs:332-339, recovery/congestion/recovery.rs:384-442,
recovery/gcongestion/recovery.rs:517-575). -/
def Rec.new (rc : Rc) : Rec := { rc := rc, mds := rc.maxSend, ackDelay := rc.maxAckDelay }

/-- The connection. -/
structure C where
  ids : Ids
  track : Option Nat := none
  loc : Params
  /-- what the TLS library was given -/
  tls : Bytes
  /-- what it has written into a message -/
  sent : Option Bytes := none
  /-- how many bidirectional streams the peer may open -/
  bidi : Nat
  rc : Rc
  factor : Nat := 1
  rcv : Rec
  pmtud : Option Pmtud.St := none
  parsed : Bool := false
  peer : Params := {}
  completed : Bool := false
  confirmed : Bool := false
  /-- keys for Handshake packets are kept -/
  hsKeys : Bool := true
  /-- buffered 0-RTT packets -/
  early : List Bytes := []
  alpn : Bytes := []
  deriving DecidableEq, Repr

/-- `set_.._in_handshake` (lib.rs:2447-2740). -/
inductive Set where
  | cc (v : Nat)
  | bbr (v : Nat)
  | window (v : Nat)
  | relaxed (v : Bool)
  | idleFix (v : Bool)
  | hystart (v : Bool)
  | pacing (v : Bool)
  | maxRate (v : Option Nat)
  | maxSend (v : Nat)
  | factor (v : Nat)
  | pmtu (discover : Bool) (probes : Nat)
  | idle (v : Nat)
  | streams (v : Nat)
  deriving DecidableEq, Repr

/-- What happens within a call of the TLS library. -/
inductive Act where
  | set (s : Set)
  | write
  deriving DecidableEq, Repr

inductive Out where
  | ok
  | done
  | fail
  deriving DecidableEq, Repr

/-- One call of the TLS library. -/
structure Tls where
  acts : List Act := []
  out : Out
  /-- `is_completed` afterwards -/
  completed : Bool := false
  /-- `quic_transport_params` afterwards -/
  raw : Bytes := []
  alpn : Bytes := []
  deriving DecidableEq, Repr

inductive Err where
  | tp (e : Tp.Err)
  | tls
  | done
  deriving DecidableEq, Repr

/-- `ExData` (tls/mod.rs:695-718), with what the TLS library has. -/
structure Ex where
  loc : Params
  rc : Rc
  factor : Nat
  pmtu : Option (Bool × Nat) := none
  tls : Bytes
  sent : Option Bytes
  deriving DecidableEq, Repr

/-- `set_transport_parameters_in_hanshake` (lib.rs:2742-2764); `none`: it panics. The callback may
go on after an error. -/
def Ex.params (e : Ex) (isServer : Bool) (p : Params) : Option Ex :=
  match setParams p isServer with
  | .ok b => some { e with loc := p, tls := b }
  | .error .panic => none
  | .error _ => some { e with loc := p }

/-- The setters (lib.rs:2447-2740). -/
def Ex.set (e : Ex) (isServer : Bool) : Set → Option Ex
  | .cc v => some { e with rc := { e.rc with cc := v } }
  | .bbr v => some { e with rc := { e.rc with bbr := some v } }
  | .window v => some { e with rc := { e.rc with window := v } }
  | .relaxed v => some { e with rc := { e.rc with relaxed := v } }
  | .idleFix v => some { e with rc := { e.rc with idleFix := v } }
  | .hystart v => some { e with rc := { e.rc with hystart := v } }
  | .pacing v => some { e with rc := { e.rc with pacing := v } }
  | .maxRate v => some { e with rc := { e.rc with maxRate := v } }
  | .maxSend v => some { e with rc := { e.rc with maxSend := v } }
  | .factor v => some { e with factor := v }
  | .pmtu d n => some { e with pmtu := some (d, n) }
  | .idle v => e.params isServer { e.loc with maxIdleTimeout := v }
  | .streams v => e.params isServer { e.loc with maxStreamsBidi := v }

def Ex.acts (e : Ex) (isServer : Bool) : List Act → Option Ex
  | [] => some e
  | .set s :: l =>
    match e.set isServer s with
    | none => none
    | some e => e.acts isServer l
  | .write :: l => { e with sent := some e.tls }.acts isServer l

def C.ex (c : C) : Ex := { loc := c.loc, rc := c.rc, factor := c.factor, tls := c.tls, sent := c.sent }

/-- The settings are taken over (lib.rs:8047-8085; path.rs:530-545, 910-924; stream/mod.rs:535-539). -/
def C.adopt (c : C) (e : Ex) : C :=
  if c.rcv.inFlight = 0 ∧ c.rcv.duration = 0 then
    let c := if e.rc ≠ c.rc then { c with rc := e.rc, rcv := Rec.new e.rc } else c
    let c := { c with factor := e.factor }
    let c :=
      match e.pmtu with
      | none => c
      | some (d, n) => { c with pmtud := if d then some (Pmtud.new c.rc.maxSend n) else none }
    if e.loc ≠ c.loc then { c with bidi := e.loc.maxStreamsBidi, loc := e.loc } else c
  else c

/-- `process_peer_transport_params` (lib.rs:7958-8006). -/
def C.process (c : C) (tp : Params) : C :=
  let r := { c.rcv with ackDelay := tp.maxAckDelay }
  let r :=
    match c.pmtud with
    | some p => if p.shouldProbe then { r with mds := min p.probeSize tp.maxUdpPayload } else { r with mds := min r.mds tp.maxUdpPayload }
    | none => { r with mds := min r.mds tp.maxUdpPayload }
  { c with rc := { c.rc with maxAckDelay := tp.maxAckDelay }, rcv := r, peer := tp, parsed := true }

/-- The parameters of the peer, once they are there (lib.rs:8087-8102, 8112-8124). -/
def C.parse (c : C) (raw : Bytes) : Except Err Unit × C :=
  if c.parsed then (.ok (), c)
  else
    match peerParams c.ids raw c.track with
    | .error e => (.error (.tp e), c)
    | .ok none => (.ok (), c)
    | .ok (some tp) => (.ok (), c.process tp)

/-- `do_handshake` (lib.rs:8012-8148). -/
def C.handshake (c : C) (t : Tls) : Except Err Unit × C :=
  match c.ex.acts c.ids.isServer t.acts with
  | none => (.error (.tp .panic), c)
  | some e =>
    let c := { c with tls := e.tls, sent := e.sent }
    if c.completed then
      match t.out with
      | .ok => (.ok (), c)
      | .done => (.error .done, c)
      | .fail => (.error .tls, c)
    else
      match t.out with
      | .fail => (.error .tls, c)
      | .done => (c.adopt e).parse t.raw
      | .ok =>
        match { c with completed := t.completed, alpn := t.alpn }.parse t.raw with
        | (.error e, c) => (.error e, c)
        | (.ok (), c) =>
          (.ok (), if c.completed then
            { c with confirmed := c.confirmed || c.ids.isServer, hsKeys := c.hsKeys && !c.ids.isServer, early := [] }
            else c)

inductive Op where
  /-- `do_handshake` -/
  | call (t : Tls)
  /-- packets are sent, acknowledged, or dropped -/
  | flight (bytes duration : Nat)
  /-- the first packet of a client, without a Retry before it (lib.rs:3416-3428) -/
  | first (dcid : Bytes)
  /-- Version Negotiation: the handshake begins again (lib.rs:3066-3079) -/
  | again
  /-- `set_max_idle_timeout` (lib.rs:2429-2434) -/
  | idle (v : Nat)
  /-- a 0-RTT packet that cannot be decrypted yet is kept -/
  | keep (b : Bytes)
  deriving DecidableEq, Repr

/-- `encode_transport_params` (lib.rs:7899-7904). -/
def C.encode (c : C) : Except Err Unit × C :=
  match setParams c.loc c.ids.isServer with
  | .ok b => (.ok (), { c with tls := b })
  | .error e => (.error (.tp e), c)

/-- A connection; `dead` after an error. -/
structure X where
  c : C
  dead : Bool := false
  deriving DecidableEq, Repr

def X.put (r : Except Err Unit × C) : X :=
  match r with
  | (.ok (), c) => { c := c }
  | (.error .done, c) => { c := c }
  | (.error _, c) => { c := c, dead := true }

def X.step (x : X) (op : Op) : X :=
  if x.dead then x
  else
    match op with
    | .call t => X.put (x.c.handshake t)
    | .flight n d => { c := { x.c with rcv := { x.c.rcv with inFlight := n, duration := d } } }
    | .first d => X.put { x.c with loc := { x.c.loc with originalDcid := some d } }.encode
    | .again => X.put { x.c with sent := none }.encode
    | .idle v => X.put { x.c with loc := { x.c.loc with maxIdleTimeout := min v maxVarInt } }.encode
    | .keep b => { c := { x.c with early := x.c.early ++ [b] } }

def X.run (x : X) (l : List Op) : X := l.foldl X.step x

end Verif.Setup
