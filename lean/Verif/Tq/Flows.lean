import Verif.Tq.DgramBuf

/-!
Model of HTTP/3 datagrams in tokio-quiche: `/repo/tokio-quiche/src/http3/driver/datagram.rs` and
the flow map of `/repo/tokio-quiche/src/http3/driver/mod.rs`.
-/

namespace Verif.Tq
open Verif

/-- `DGRAM_HEADROOM` (buf_factory.rs:38). -/
abbrev dgramHeadroom : Nat := 16

inductive QRes (α : Type) where
  | ok (a : α)
  | err
  | panic
  deriving DecidableEq, Repr

/-- `h3_dgram_add_quarter_stream_id` (datagram.rs:88-107). -/
def addId (q : Nat) (d : DBuf) : QRes DBuf :=
  match Cur.putVarint (Cur.withSlice (List.replicate 8 0)) q with
  | (.error .panic, _) => .panic
  | (.error _, _) => .err
  | (.ok (), c) =>
    let p := c.buf.take c.off
    match d.addPrefix p with
    | none => .panic
    | some (d, true) => .ok d
    | some (d, false) =>
      match d.splice dgramHeadroom with
      | none => .panic
      | some d =>
        match d.addPrefix p with
        | some (d, true) => .ok d
        -- `unwrap`
        | _ => .panic

/-- `h3_dgram_remove_quarter_stream_id` (datagram.rs:112-121). -/
def removeId (chk : Bool) (d : DBuf) : QRes (Nat × DBuf) :=
  match d.slice with
  | none => .panic
  | some bs =>
    match (Cur.withSlice bs).getVarint with
    | (.error .panic, _) => .panic
    | (.error _, _) => .err
    | (.ok q, c) =>
      match d.advance chk c.off with
      | none => .panic
      | some d => .ok (q, d)

/-- The bytes of a string. -/
def str (s : String) : Bytes := s.toList.map fun c => UInt8.ofNat c.toNat

/-- Decimal digits, from the left (`u64::from_str`). -/
def digits : Bytes → Nat → Option Nat
  | [], a => some a
  | c :: t, a => if 48 ≤ c.toNat ∧ c.toNat ≤ 57 ∧ a * 10 + (c.toNat - 48) < 2 ^ 64 then digits t (a * 10 + (c.toNat - 48)) else none

/-- `from_utf8(v).ok().and_then(|v| v.parse::<u64>().ok())` (datagram.rs:50-53): digits with an
optional `+` before them. What is not UTF-8 is not of that form. -/
def parseU64 (v : Bytes) : Option Nat :=
  match v with
  | [] => none
  | 43 :: t => if t = [] then none else digits t 0
  | v => digits v 0

/-- What the loop of `extract_quarter_stream_id` collects. -/
structure Found where
  method : Option Bytes := none
  flow : Option Nat := none
  protocol : Option Bytes := none
  deriving DecidableEq, Repr

/-- The loop (datagram.rs:46-63). -/
def scan : List (Bytes × Bytes) → Found → Found
  | [], f => f
  | (n, v) :: t, f =>
    let f := if n = str ":method" then { f with method := some v }
      else if n = str ":protocol" then { f with protocol := some v }
      else if n = str "datagram-flow-id" then { f with flow := parseU64 v }
      else f
    if f.method.isSome && (f.flow.isSome || f.protocol.isSome) then f else scan t f

/-- `extract_quarter_stream_id` (datagram.rs:39-76). -/
def extractId (stream : Nat) (headers : List (Bytes × Bytes)) : Option Nat :=
  let f := scan headers {}
  if f.method = some (str "CONNECT-UDP") ∧ f.flow.isSome then f.flow
  else if f.method = some (str "CONNECT") ∧ f.protocol.isSome then some (stream / 4)
  else none

/-- `FLOW_CAPACITY` (mod.rs:114). -/
abbrev flowCap : Nat := 2048

/-- The channel of a flow, and the flow it was announced for (`H3Event::NewFlow`). -/
structure Chan where
  flow : Nat
  /-- what waits for the application, and what it has taken -/
  pending : List Bytes := []
  taken : List Bytes := []
  /-- the application still has the receiving end -/
  alive : Bool := true
  deriving DecidableEq, Repr

structure FState where
  /-- `flow_map`: the channel of a flow -/
  flows : List (Nat × Nat) := []
  /-- `stream_map`, with `associated_dgram_flow_id` -/
  streams : List (Nat × Option Nat) := []
  /-- the channels of all `NewFlow` events -/
  chans : List Chan := []
  /-- the connection is closed with an error -/
  failed : Bool := false
  /-- the datagrams that arrived; not in the code -/
  log : List (Nat × Bytes) := []
  deriving DecidableEq, Repr

inductive FOp where
  /-- the headers of a request -/
  | request (stream : Nat) (headers : List (Bytes × Bytes))
  /-- a DATAGRAM frame arrives -/
  | dgram (d : Bytes)
  /-- a stream is finished (`cleanup_stream`) -/
  | cleanup (stream : Nat)
  /-- the application shuts a flow down -/
  | shutdown (flow stream : Nat)
  /-- the application takes a datagram from a channel -/
  | take (c : Nat)
  /-- the application drops the receiving end of a channel -/
  | hangup (c : Nat)
  deriving DecidableEq, Repr

namespace FState

/-- The channel a datagram of a flow goes to. -/
def find (s : FState) (f : Nat) : Option Nat := s.flows.lookup f

/-- `get_or_insert_flow` (mod.rs:473-493); that the controller is gone is not modelled. -/
def insert (s : FState) (f : Nat) : FState :=
  match s.find f with
  | some _ => s
  | none => { s with flows := (f, s.chans.length) :: s.flows, chans := s.chans ++ [{ flow := f }] }

/-- `flow_map.remove`. -/
def remove (s : FState) (f : Nat) : FState := { s with flows := s.flows.filter (fun x => x.1 != f) }

/-- `send_best_effort` (streams.rs:192-194). -/
def send (s : FState) (c : Nat) (d : Bytes) : FState :=
  match s.chans[c]? with
  | some ch => if ch.alive ∧ ch.pending.length < flowCap then { s with chans := s.chans.set c { ch with pending := ch.pending ++ [d] } } else s
  | none => s

/-- `cleanup_stream` (mod.rs:1037-1078). -/
def cleanup (s : FState) (st : Nat) : FState :=
  match s.streams.lookup st with
  | none => s
  | some o =>
    let s := { s with streams := s.streams.filter (fun x => x.1 != st) }
    match o with
    | some f => s.remove f
    | none => s

/-- One event, at a server with extended CONNECT (or a client).
* `request`: `handle_request` (server.rs:177-213), `initiate_request` (client.rs:229-239);
* `dgram`: `process_available_dgrams` (mod.rs:1182-1199), one round of its loop;
* `shutdown`: `dgram_ready` (mod.rs:992-1004). -/
def step (s : FState) : FOp → FState
  | .request st hs =>
    if (s.streams.lookup st).isSome then s
    else
      match extractId st hs with
      | some f => { s.insert f with streams := (st, some f) :: s.streams }
      | none => { s with streams := (st, none) :: s.streams }
  | .dgram d =>
    match removeId true (DBuf.fromSlice d) with
    | .ok (f, b) =>
      let s := { s.insert f with log := s.log ++ [(f, b.view.bytes)] }
      match s.find f with
      | some c => s.send c b.view.bytes
      | none => s
    | _ => { s with failed := true }
  | .cleanup st => s.cleanup st
  | .shutdown f st => (s.cleanup st).remove f
  | .take c =>
    match s.chans[c]? with
    | some ch =>
      match ch.pending with
      | d :: t => { s with chans := s.chans.set c { ch with pending := t, taken := ch.taken ++ [d] } }
      | [] => s
    | none => s
  | .hangup c =>
    match s.chans[c]? with
    | some ch => { s with chans := s.chans.set c { ch with alive := false } }
    | none => s

def run (s : FState) : List FOp → FState
  | [] => s
  | op :: l => (s.step op).run l

/-- Nothing is left (`close_if_idle`, mod.rs:1087-1099). -/
def idle (s : FState) : Bool := s.streams.isEmpty && s.flows.isEmpty

end FState

/-! ### The number before a datagram -/

/-- What goes before the datagram. -/
def idBytes (q : Nat) : Bytes := encVarintLen q ((varintLen q).getD 0)

theorem idBytes_len {q : Nat} (h : q < 2 ^ 62) : 0 < (idBytes q).length ∧ (idBytes q).length ≤ 8 := by
  obtain ⟨n, h1, h2, -⟩ := varintLen_spec h
  unfold idBytes
  rw [h1, Option.getD_some, encVarintLen_length h2]
  rcases h2 with h | h | h | h <;> omega

theorem put_eq {q : Nat} (h : q < 2 ^ 62) : ∃ c, Cur.putVarint (Cur.withSlice (List.replicate 8 0)) q = (.ok (), c) ∧ c.buf.take c.off = idBytes q := by
  obtain ⟨n, h1, h2, -⟩ := varintLen_spec h
  have hn : n ≤ 8 := by rcases h2 with h | h | h | h <;> omega
  have := putVarintWithLen_ok (Cur.withSlice (List.replicate 8 0)) q n (by simp [Cur.WF, Cur.withSlice]) h2 (by simp [Cur.cap, Cur.withSlice]; exact hn)
  refine ⟨_, by unfold Cur.putVarint; rw [h1]; exact this, ?_⟩
  unfold idBytes
  rw [h1, Option.getD_some]
  simp only [Cur.withSlice, Cur.overwrite, List.take_zero, List.nil_append, Nat.zero_add]
  exact List.take_left' (encVarintLen_length h2)

theorem addPrefix_view {d : DBuf} (h : d.WF) (p : Bytes) : (d.addPrefix p).map (fun x => (x.1.view, x.2)) = d.view.step (.pre p) ∧ ∀ x, d.addPrefix p = some x → x.1.WF :=
  DBuf.step_view true h (op := .pre p) trivial

theorem splice_view {d : DBuf} (h : d.WF) (n : Nat) : (d.splice n).map (fun x => (x.view, true)) = d.view.step (.splice n) ∧ ∀ x, d.splice n = some x → x.WF := by
  obtain ⟨h1, h2⟩ := DBuf.step_view true h (op := .splice n) trivial
  simp only [DBuf.step, Option.map_map] at h1
  refine ⟨h1, fun x hx => ?_⟩
  exact h2 (x, true) (by simp [DBuf.step, hx])

/-- The number is put before the datagram, whatever room there is. -/
theorem addId_ok {q : Nat} (hq : q < 2 ^ 62) {d : DBuf} (h : d.WF) (hl : d.view.bytes.length + dgramHeadroom ≤ vecMax) :
    ∃ b, addId q d = .ok b ∧ b.WF ∧ b.view.bytes = idBytes q ++ d.view.bytes := by
  obtain ⟨c, hc, hp⟩ := put_eq hq
  obtain ⟨l1, l2⟩ := idBytes_len hq
  unfold addId
  rw [hc]
  dsimp only
  rw [hp]
  obtain ⟨e1, w1⟩ := addPrefix_view h (idBytes q)
  by_cases hr : (idBytes q).length ≤ d.view.room
  · simp only [View.step, if_pos hr] at e1
    cases hx : d.addPrefix (idBytes q) with
    | none => simp [hx] at e1
    | some x =>
      obtain ⟨b, r⟩ := x
      simp only [hx, Option.map_some, Option.some.injEq, Prod.mk.injEq] at e1
      obtain ⟨e, rfl⟩ := e1
      exact ⟨b, rfl, w1 _ hx, by rw [e]⟩
  · simp only [View.step, if_neg hr] at e1
    cases hx : d.addPrefix (idBytes q) with
    | none => simp [hx] at e1
    | some x =>
      obtain ⟨b, r⟩ := x
      simp only [hx, Option.map_some, Option.some.injEq, Prod.mk.injEq] at e1
      obtain ⟨e, rfl⟩ := e1
      have wb := w1 _ hx
      dsimp only at wb ⊢
      obtain ⟨e2, w2⟩ := splice_view wb dgramHeadroom
      simp only [View.step, e] at e2
      rw [if_pos (.inr (by omega))] at e2
      cases hy : b.splice dgramHeadroom with
      | none => simp [hy] at e2
      | some y =>
        simp only [hy, Option.map_some, Option.some.injEq, Prod.mk.injEq, and_true] at e2
        have wy := w2 y hy
        obtain ⟨e3, w3⟩ := addPrefix_view wy (idBytes q)
        simp only [View.step, e2] at e3
        rw [if_pos (by simp only [dgramHeadroom]; omega)] at e3
        cases hz : y.addPrefix (idBytes q) with
        | none => simp [hz] at e3
        | some z =>
          obtain ⟨z, r⟩ := z
          simp only [hz, Option.map_some, Option.some.injEq, Prod.mk.injEq] at e3
          obtain ⟨e4, rfl⟩ := e3
          refine ⟨z, ?_, w3 _ hz, by rw [e4]⟩
          simp only [hz]

/-- Taking it off. -/
theorem removeId_eq (chk : Bool) {d : DBuf} (h : d.WF) :
    match decVarint d.view.bytes with
    | .error _ => removeId chk d = .err
    | .ok (q, n) => ∃ b, removeId chk d = .ok (q, b) ∧ b.WF ∧ b.view.bytes = d.view.bytes.drop n := by
  have hs : d.slice = some d.view.bytes := by unfold DBuf.slice; rw [if_pos h.pos]; rfl
  have hg := getVarint_eq (Cur.withSlice d.view.bytes) (by simp [Cur.WF, Cur.withSlice])
  have hr : (Cur.withSlice d.view.bytes).rest = d.view.bytes := by simp [Cur.rest, Cur.withSlice]
  rw [hr] at hg
  unfold removeId
  rw [hs]
  cases hd : decVarint d.view.bytes with
  | error e =>
    rw [hd] at hg
    dsimp only at hg ⊢
    rw [hg]
    have : e = .tooShort := by
      unfold decVarint at hd
      split at hd
      · injection hd with hd; exact hd.symm
      · dsimp only at hd
        split at hd
        · injection hd with hd; exact hd.symm
        · simp at hd
    subst this
    rfl
  | ok x =>
    obtain ⟨q, n⟩ := x
    rw [hd] at hg
    dsimp only at hg ⊢
    rw [hg]
    have hn : n ≤ d.view.bytes.length ∧ n ≤ 8 := by
      unfold decVarint at hd
      split at hd
      · simp at hd
      · rename_i b t hb
        dsimp only at hd
        split at hd
        · simp at hd
        · simp only [Except.ok.injEq, Prod.mk.injEq] at hd
          have := varintParseLen_isLen b
          refine ⟨by omega, ?_⟩
          rcases this with h | h | h | h <;> omega
    obtain ⟨e, w⟩ := DBuf.step_view chk h (op := .advance n) (show n < 2 ^ 63 by omega)
    simp only [View.step, if_pos hn.1, DBuf.step, Option.map_map] at e
    simp only [Cur.withSlice, Nat.zero_add]
    cases ha : d.advance chk n with
    | none => simp [ha] at e
    | some b =>
      simp only [ha, Option.map_some, Function.comp, Option.some.injEq, Prod.mk.injEq, and_true] at e
      exact ⟨b, rfl, w (b, true) (by simp [DBuf.step, ha]), by rw [e]⟩

end Verif.Tq
