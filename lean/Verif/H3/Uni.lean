import Verif.H3.Send

/-!
The unidirectional streams an HTTP/3 endpoint opens: `with_transport` and what is sent on the
control stream afterwards (`/repo/quiche/src/h3/mod.rs`).

Other than in `H3/Send.lean` the capacity is that of the connection and that of the stream, since
several streams are opened one after the other.
-/

namespace Verif.H3.Uni
open Verif Verif.H3 Verif.H3.Send

/-- The send side of a unidirectional stream. `room` is what the peer still allows on it. -/
structure Tx where
  out : Bytes := []
  fin : Bool := false
  room : Nat := 0
  stopped : Bool := false
  urgency : Nat := 127
  deriving DecidableEq, Repr

/-- The connections of HTTP/3 and of the transport, as far as unidirectional streams go. -/
structure U where
  isServer : Bool
  /-- `conn.grease` -/
  grease : Bool
  /-- the handshake is complete, or there is early data -/
  ready : Bool
  /-- how many streams the peer allows -/
  lim : Nat
  /-- what the peer allows on a new stream -/
  first : Nat
  /-- `tx_cap` -/
  cap : Nat
  st : Nat → Option Tx := fun _ => none
  next : Nat
  control : Option Nat := none
  enc : Option Nat := none
  dec : Option Nat := none
  goaway : Option Nat := none
  /-- the code the connection was closed with -/
  closed : Option Nat := none

abbrev R (α : Type) := Except Err α × U

/-- `?`. -/
def bnd {α β : Type} (x : R α) (k : α → U → R β) : R β :=
  match x with
  | (.ok a, u) => k a u
  | (.error e, u) => (.error e, u)

def U.set (u : U) (id : Nat) (t : Tx) : U := { u with st := upd u.st id (some t) }

/-- `get_or_create_stream` (lib.rs, stream/mod.rs:236-372) for a stream of ours. -/
def U.make (u : U) (id : Nat) : Option Tx :=
  match u.st id with
  | some t => some t
  | none => if id / 4 < u.lim then some { room := u.first } else none

/-- `stream_priority` (lib.rs:6158-6192). -/
def U.priority (u : U) (id urgency : Nat) : R Unit :=
  match u.make id with
  | none => (.error .transport, u)
  | some t => (.ok (), u.set id { t with urgency := urgency })

/-- `stream_send` (lib.rs:5955-6147, stream/send_buf.rs:145-210): what is accepted is cut at the
capacity of the connection and of the stream. -/
def U.send (u : U) (id : Nat) (bs : Bytes) (fin : Bool) : R Nat :=
  match u.make id with
  | none => (.error .transport, u)
  | some t =>
    if t.stopped then (.error .transport, u.set id t)
    else if u.cap = 0 ∧ bs ≠ [] then (.error .done, u.set id t)
    else if t.fin then (.error .transport, u.set id t)
    else
      let n := min (min bs.length u.cap) t.room
      if n = 0 ∧ bs ≠ [] then (.error .done, u.set id t)
      else
        (.ok n,
          { u.set id { t with
              out := t.out ++ bs.take n, room := t.room - n, fin := fin && decide (n = bs.length) } with
            cap := u.cap - n })

/-- `stream_capacity` (lib.rs:6330-6355). -/
def U.capacity (u : U) (id : Nat) : Except Err Nat :=
  match u.st id with
  | none => .error .transport
  | some t => if t.stopped then .error .transport else .ok (min u.cap t.room)

/-- `open_uni_stream` (h3/mod.rs:2273-2308), for types that are not push. -/
def U.openUni (u : U) (ty : Nat) : R Nat :=
  bnd (u.priority u.next (if ty = 0 ∨ ty = 2 ∨ ty = 3 then 0 else 255)) fun _ u =>
  bnd (u.send u.next (Io.enc ty) false) fun _ u => (.ok u.next, { u with next := u.next + 4 })

/-- `send_settings` (h3/mod.rs:2488-2572). -/
def U.sendSettings (u : U) (c : Config) (dgram : Bool) (g : Nat × Nat) : R Unit :=
  match u.openUni 0 with
  | (.error .done, u) => (.error .internalError, u)
  | (.error e, u) => (.error e, u)
  | (.ok id, u) =>
    let u := { u with control := some id }
    match c.sent dgram (if u.grease then some (g.1 % greaseBound, g.2 % greaseBound) else none) with
    | .error e => (.error e, u)
    | .ok s => bnd (u.send id s false) fun _ u => (.ok (), u)

/-- `open_qpack_encoder_stream(..).ok()` (h3/mod.rs:2310-2330). -/
def U.openEnc (u : U) : U :=
  match u.openUni 2 with
  | (.error _, u) => u
  | (.ok id, u) => { u with enc := some id }

/-- `open_qpack_decoder_stream(..).ok()` (h3/mod.rs:2332-2352). -/
def U.openDec (u : U) : U :=
  match u.openUni 3 with
  | (.error _, u) => u
  | (.ok id, u) => { u with dec := some id }

/-- `open_grease_stream(..).ok()` (h3/mod.rs:2452-2485). -/
def U.openGrease (u : U) (g : Nat) : U :=
  match u.openUni (draw g) with
  | (.error _, u) => u
  | (.ok id, u) => (u.send id greaseText true).2

/-- `with_transport` (h3/mod.rs:1107-1140); the random numbers are arguments. -/
def U.withTransport (u : U) (c : Config) (dgram : Bool) (g : Nat × Nat × Nat) : R Unit :=
  if !u.isServer && !u.ready then (.error .internalError, u)
  else
    match u.sendSettings c dgram (g.1, g.2.1) with
    | (.error .panic, u) => (.error .panic, u)
    | (.error e, u) => (.error e, { u with closed := some e.toWire })
    | (.ok (), u) =>
      let u := u.openEnc.openDec
      (.ok (), if u.grease then u.openGrease g.2.2 else u)

/-- `send_goaway` (h3/mod.rs:2209-2264), as in `H3/Send.lean`. -/
def U.sendGoaway (u : U) (id : Nat) : R Unit :=
  let id := if u.isServer then id else 0
  if u.isServer && id % 4 != 0 then (.error .idError, u)
  else if u.goaway.any (fun g => decide (g < id)) then (.error .idError, u)
  else
    match u.control with
    | none => (.ok (), u)
    | some c =>
      match toBytes (.goAway id) ⟨List.replicate 10 42, 0⟩ with
      | (.error e, _) => (.error e, u)
      | (.ok (), b) =>
        match u.capacity c with
        | .error e => (.error e, u)
        | .ok cap =>
          if cap < b.off then (.error .streamBlocked, u)
          else bnd (u.send c (b.buf.take b.off) false) fun _ u => (.ok (), { u with goaway := some id })

/-- The field value (h3/mod.rs:1983-1992): `u=` and a digit, and `,i`. -/
def fieldValue (urgency : Nat) (incremental : Bool) : Bytes :=
  [117, 61, UInt8.ofNat (48 + min urgency 7)] ++ (if incremental then [44, 105] else [])

/-- `send_priority_update_for_request` (h3/mod.rs:1962-2049). `varint_len` panics for identifiers
that are not integers of the format. -/
def U.sendPriority (u : U) (id urgency : Nat) (incremental : Bool) : R Unit :=
  if u.isServer then (.error .frameUnexpected, u)
  else if id % 4 ≠ 0 then (.error .frameUnexpected, u)
  else
    match u.control with
    | none => (.error .frameUnexpected, u)
    | some c =>
      if 2 ^ 62 ≤ id then (.error .panic, u)
      else
        let v := fieldValue urgency incremental
        let n := (Io.enc id).length + v.length
        let over := (Io.enc tPrioRequest).length + (Io.enc id).length + (Io.enc n).length
        match u.capacity c with
        | .error e => (.error e, u)
        | .ok cap =>
          if cap < over + v.length then (.error .streamBlocked, u)
          else
            bnd (u.send c (Io.enc tPrioRequest ++ Io.enc n ++ Io.enc id) false) fun _ u =>
            bnd (u.send c v false) fun _ u => (.ok (), u)

/-- A call that was accepted. -/
inductive Call where
  | goaway (id : Nat)
  | priority (id urgency : Nat) (incremental : Bool)
  deriving DecidableEq, Repr

/-- An endpoint and the calls it has accepted. -/
structure X where
  u : U
  log : List Call := []

inductive Act where
  | goaway (id : Nat)
  | priority (id urgency : Nat) (incremental : Bool)
  /-- the capacity of the connection changes -/
  | capacity (n : Nat)
  /-- the peer allows more on a stream -/
  | room (id n : Nat)
  /-- the peer allows more streams -/
  | streams (n : Nat)
  /-- the peer sends STOP_SENDING -/
  | stopped (id : Nat)
  deriving DecidableEq, Repr

def X.step (x : X) : Act → X
  | .goaway id =>
    match x.u.sendGoaway id with
    | (.ok (), u) => { u := u, log := x.log ++ [.goaway (if u.isServer then id else 0)] }
    | (.error _, u) => { x with u := u }
  | .priority id urgency incremental =>
    match x.u.sendPriority id urgency incremental with
    | (.ok (), u) => { u := u, log := x.log ++ [.priority id urgency incremental] }
    | (.error _, u) => { x with u := u }
  | .capacity n => { x with u := { x.u with cap := n } }
  | .room id n =>
    match x.u.st id with
    | none => x
    | some t => { x with u := x.u.set id { t with room := t.room + n } }
  | .streams n => { x with u := { x.u with lim := x.u.lim + n } }
  | .stopped id =>
    match x.u.st id with
    | none => x
    | some t => { x with u := x.u.set id { t with stopped := true } }

def X.run (x : X) (l : List Act) : X := l.foldl X.step x

end Verif.H3.Uni
