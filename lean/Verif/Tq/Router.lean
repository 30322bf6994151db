import Verif.Tq.Map

/-!
The router of `/repo/tokio-quiche/src/quic/router/mod.rs` together with the connections it serves
(`/repo/tokio-quiche/src/quic/io/worker.rs`). Connections tell the router about their connection
IDs through a queue of commands that it works off now and then, so the two views differ in between.
-/

namespace Verif.Tq
open Verif

/-- `ConnectionMapCommand` (router/mod.rs:122-128). -/
inductive Cmd where
  | mapCid (existing new : Bytes)
  | unmapCid (cid : Bytes)
  deriving DecidableEq, Repr

/-- One command (router/mod.rs:718-727). -/
def CMap.apply (m : CMap) : Cmd → CMap
  | .mapCid e n => m.mapCid e n
  | .unmapCid c => m.unmapCid c

/-- What is left when the queue is empty. -/
def CMap.final (m : CMap) : List Cmd → CMap
  | [] => m
  | c :: q => (m.apply c).final q

/-- What matters of a connection. -/
structure Worker where
  /-- `source_ids()` -/
  cur : List Bytes
  /-- retired by the peer, not yet taken by `retired_scid_next()` -/
  gone : List Bytes := []
  /-- `pending_cid` (worker.rs:238): the ID the client chose -/
  pending : Option Bytes := none
  running : Bool := true
  deriving DecidableEq, Repr

/-- All connection IDs that lead to the connection. -/
def Worker.ids (w : Worker) : List Bytes := w.cur ++ w.gone ++ w.pending.toList

structure Router where
  map : CMap := fun _ => none
  queue : List Cmd := []
  conns : List Worker := []
  /-- every connection ID there ever was; not in the code -/
  used : List Bytes := []

inductive ROp where
  /-- a connection is created for a packet with the destination connection ID `pending` (a
  server), or for an application that connects -/
  | spawn (scid : Bytes) (pending : Option Bytes)
  /-- the router works off one command -/
  | handle
  /-- connection `c` issues a new ID; its `source_id()` is the `i`-th -/
  | issue (c i : Nat) (cid : Bytes)
  /-- the peer of `c` retires the `i`-th ID -/
  | retire (c i : Nat)
  /-- `c` tells the router about an ID that was retired -/
  | sweep (c : Nat)
  /-- the handshake of `c` is complete -/
  | established (c : Nat)
  /-- `c` is over -/
  | close (c : Nat)
  deriving DecidableEq, Repr

namespace Router

/-- A running connection. -/
def live (s : Router) (c : Nat) : Option Worker := s.conns[c]?.filter (·.running)

/-- One step.
* `spawn`: `spawn_new_connection` (router/mod.rs:305-392), reached only if the ID of the packet is
  not in the map (router/mod.rs:264-267);
* `handle`: `poll_conn_map_commands` (router/mod.rs:710-731), command by command;
* `issue`: `fill_available_scids` (worker.rs:327-358), one round of the loop; `new_scid` succeeds
  there (it is tried `scids_left()` times, see C38);
* `retire`: RETIRE_CONNECTION_ID, which never takes the last ID (C79);
* `sweep`: `refresh_connection_ids` (worker.rs:367-375), one round of the loop;
* `established`: `on_conn_established` (worker.rs:1124-1126);
* `close`: `close_connection` (worker.rs:1263-1275). -/
def step (s : Router) : ROp → Router
  | .spawn scid none =>
    { s with map := s.map.put (key scid) s.conns.length
             conns := s.conns ++ [{ cur := [scid] }]
             used := scid :: s.used }
  | .spawn scid (some p) =>
    if (s.map (key p)).isSome then s
    else
      { s with map := (s.map.put (key scid) s.conns.length).mapCid scid p
               conns := s.conns ++ [{ cur := [scid], pending := some p }]
               used := p :: scid :: s.used }
  | .handle =>
    match s.queue with
    | [] => s
    | c :: q => { s with map := s.map.apply c, queue := q }
  | .issue c i cid =>
    match s.live c with
    | none => s
    | some w =>
      match w.cur[i]? with
      | none => s
      | some e =>
        { s with queue := s.queue ++ [.mapCid e cid]
                 conns := s.conns.set c { w with cur := w.cur ++ [cid] }
                 used := cid :: s.used }
  | .retire c i =>
    match s.live c with
    | none => s
    | some w =>
      if w.cur.length ≤ 1 then s
      else
        match w.cur[i]? with
        | none => s
        | some e => { s with conns := s.conns.set c { w with cur := w.cur.eraseIdx i, gone := w.gone ++ [e] } }
  | .sweep c =>
    match s.live c with
    | none => s
    | some w =>
      match w.gone with
      | [] => s
      | e :: l => { s with queue := s.queue ++ [.unmapCid e], conns := s.conns.set c { w with gone := l } }
  | .established c =>
    match s.live c with
    | none => s
    | some w =>
      match w.pending with
      | none => s
      | some p => { s with queue := s.queue ++ [.unmapCid p], conns := s.conns.set c { w with pending := none } }
  | .close c =>
    match s.live c with
    | none => s
    | some w =>
      { s with queue := s.queue ++ (w.pending.toList ++ w.gone ++ w.cur).map .unmapCid
               conns := s.conns.set c { w with running := false } }

def run (s : Router) : List ROp → Router
  | [] => s
  | op :: l => (s.step op).run l

/-- IDs that the generator gives out are new (they are random and of 20 bytes), and a client does
not choose an ID that some connection has issued and the router has not heard of yet. -/
def Ok (s : Router) : ROp → Prop
  | .spawn scid p => scid ∉ s.used ∧ p ≠ some scid ∧ ∀ e, ∀ x ∈ p, Cmd.mapCid e x ∉ s.queue
  | .issue _ _ cid => cid ∉ s.used
  | _ => True

def OkRun (s : Router) : List ROp → Prop
  | [] => True
  | op :: l => s.Ok op ∧ (s.step op).OkRun l

end Router

/-! ### The queue -/

/-- Every command in the queue will find what it needs: the ID to copy from is there, the new one
is not, the one to remove is there; and an ID once given stays with its connection. -/
def Good (m : CMap) : List Cmd → Prop
  | [] => True
  | .mapCid e n :: q =>
    (∃ c, m (key e) = some c ∧ ∀ c', (m.apply (.mapCid e n)).final q (key n) = some c' → c' = c) ∧ m (key n) = none ∧ Good (m.apply (.mapCid e n)) q
  | .unmapCid x :: q => (m (key x)).isSome ∧ Good (m.apply (.unmapCid x)) q

theorem final_append (m : CMap) (a b : List Cmd) : m.final (a ++ b) = (m.final a).final b := by
  induction a generalizing m with
  | nil => rfl
  | cons c q ih => exact ih _

theorem apply_map {m : CMap} {e n : Bytes} {c : Nat} (h : m (key e) = some c) : m.apply (.mapCid e n) = m.put (key n) c := by
  simp [CMap.apply, CMap.mapCid, h]

/-- The queue speaks of IDs in `used` only, and so does the map. -/
def Known (used : List Bytes) (m : CMap) (q : List Cmd) : Prop :=
  (∀ k, (m k).isSome → ∃ x ∈ used, key x = k) ∧ (∀ e n, Cmd.mapCid e n ∈ q → n ∈ used) ∧ (∀ x, Cmd.unmapCid x ∈ q → x ∈ used)

theorem final_other {m : CMap} {q : List Cmd} {k : Key} (h1 : ∀ e n, Cmd.mapCid e n ∈ q → key n ≠ k) (h2 : ∀ x, Cmd.unmapCid x ∈ q → key x ≠ k) :
    m.final q k = m k := by
  induction q generalizing m with
  | nil => rfl
  | cons c q ih =>
    rw [CMap.final, ih (fun e n h => h1 e n (.tail _ h)) (fun x h => h2 x (.tail _ h))]
    cases c with
    | mapCid e n =>
      have := h1 e n (.head _)
      simp only [CMap.apply, CMap.mapCid]
      cases m (key e) with
      | none => rfl
      | some c => simp [CMap.put, Ne.symm this]
    | unmapCid x =>
      have := h2 x (.head _)
      simp [CMap.apply, CMap.unmapCid, Ne.symm this]

theorem final_none {m : CMap} {q : List Cmd} {used : List Bytes} (h : Known used m q) {x : Bytes} (hx : x ∉ used) : m.final q (key x) = none := by
  rw [final_other]
  · cases hm : m (key x) with
    | none => rfl
    | some c =>
      obtain ⟨y, hy, e⟩ := h.1 (key x) (by simp [hm])
      rw [key_inj e] at hy
      exact absurd hy hx
  · intro e n hn he
    rw [key_inj he] at hn
    exact hx (h.2.1 _ _ hn)
  · intro y hy he
    rw [key_inj he] at hy
    exact hx (h.2.2 _ hy)

/-- A command at the end. -/
theorem good_append {m : CMap} {q : List Cmd} (h : Good m q) {c : Cmd} (hc : Good (m.final q) [c])
    (hn : ∀ e n, c = .mapCid e n → (∀ e' , Cmd.mapCid e' n ∉ q)) : Good m (q ++ [c]) := by
  induction q generalizing m with
  | nil => exact hc
  | cons a q ih =>
    have hn' : ∀ e n, c = .mapCid e n → (∀ e' , Cmd.mapCid e' n ∉ q) := fun e n h e' h' => hn e n h e' (.tail _ h')
    cases a with
    | unmapCid x => exact ⟨h.1, ih h.2 hc hn'⟩
    | mapCid e n =>
      obtain ⟨⟨c0, h1, h2⟩, h3, h4⟩ := h
      refine ⟨⟨c0, h1, fun c' h' => ?_⟩, h3, ih h4 hc hn'⟩
      replace h' : (m.apply (.mapCid e n)).final (q ++ [c]) (key n) = some c' := h'
      rw [final_append] at h'
      apply h2
      cases c with
      | unmapCid y =>
        simp only [CMap.final, CMap.apply, CMap.unmapCid] at h'
        split at h'
        · simp at h'
        · exact h'
      | mapCid e1 n1 =>
        have hne : key n ≠ key n1 := fun ee => by
          have := key_inj ee
          subst this
          exact hn e1 n rfl e (.head _)
        obtain ⟨⟨c1, h5, -⟩, -⟩ := hc
        have e5 : (m.final (Cmd.mapCid e n :: q)).final [.mapCid e1 n1] = (m.final (Cmd.mapCid e n :: q)).put (key n1) c1 :=
          apply_map h5
        have h6 : (((m.apply (.mapCid e n)).final q).final [.mapCid e1 n1]) (key n) = some c' := h'
        rw [show (m.apply (.mapCid e n)).final q = m.final (Cmd.mapCid e n :: q) from rfl, e5] at h6
        simp only [CMap.put, hne, if_false] at h6
        exact h6

/-- A new entry at the front, for an ID that the queue does not touch. -/
theorem final_put {m : CMap} {q : List Cmd} {k : Key} {c : Nat} (h1 : ∀ e n, Cmd.mapCid e n ∈ q → key n ≠ k ∧ key e ≠ k)
    (h2 : ∀ x, Cmd.unmapCid x ∈ q → key x ≠ k) : (m.put k c).final q = (m.final q).put k c := by
  induction q generalizing m with
  | nil => rfl
  | cons a q ih =>
    rw [CMap.final, CMap.final, ← ih (fun e n h => h1 e n (.tail _ h)) (fun x h => h2 x (.tail _ h))]
    congr 1
    cases a with
    | mapCid e n =>
      obtain ⟨hn, he⟩ := h1 e n (.head _)
      simp only [CMap.apply, CMap.mapCid, CMap.put, he, if_false]
      cases m (key e) with
      | none => rfl
      | some d =>
        funext x
        simp only [CMap.put]
        by_cases e1 : x = key n
        · subst e1; simp [hn]
        · simp [e1]
    | unmapCid y =>
      have hy := h2 y (.head _)
      funext x
      simp only [CMap.apply, CMap.unmapCid, CMap.put]
      by_cases e1 : x = key y
      · subst e1; simp [hy]
      · simp [e1]

theorem good_put {m : CMap} {q : List Cmd} {k : Key} {c : Nat} (h : Good m q) (h1 : ∀ e n, Cmd.mapCid e n ∈ q → key n ≠ k ∧ key e ≠ k)
    (h2 : ∀ x, Cmd.unmapCid x ∈ q → key x ≠ k) : Good (m.put k c) q := by
  induction q generalizing m with
  | nil => trivial
  | cons a q ih =>
    have t1 : ∀ e n, Cmd.mapCid e n ∈ q → key n ≠ k ∧ key e ≠ k := fun e n h => h1 e n (.tail _ h)
    have t2 : ∀ x, Cmd.unmapCid x ∈ q → key x ≠ k := fun x h => h2 x (.tail _ h)
    cases a with
    | mapCid e n =>
      obtain ⟨hn, he⟩ := h1 e n (.head _)
      obtain ⟨⟨c0, h3, h4⟩, h5, h6⟩ := h
      have ep : (m.put k c).apply (.mapCid e n) = (m.apply (.mapCid e n)).put k c := by
        rw [apply_map (c := c0) (by simp [CMap.put, he, h3]), apply_map h3]
        funext x
        simp only [CMap.put]
        by_cases e1 : x = key n
        · subst e1; simp [hn]
        · simp [e1]
      refine ⟨⟨c0, by simp [CMap.put, he, h3], fun c' h' => ?_⟩, by simp [CMap.put, hn, h5], ?_⟩
      · rw [ep, final_put t1 t2] at h'
        simp only [CMap.put, hn, if_false] at h'
        exact h4 c' h'
      · rw [ep]; exact ih h6 t1 t2
    | unmapCid y =>
      have hy := h2 y (.head _)
      have ep : (m.put k c).apply (.unmapCid y) = (m.apply (.unmapCid y)).put k c := by
        funext x
        simp only [CMap.apply, CMap.unmapCid, CMap.put]
        by_cases e1 : x = key y
        · subst e1; simp [hy]
        · simp [e1]
      refine ⟨by simpa [CMap.put, hy] using h.1, ?_⟩
      rw [ep]; exact ih h.2 t1 t2

/-- What the queue touches is in the map or put there by the queue. -/
theorem good_touch {m : CMap} {q : List Cmd} (h : Good m q) :
    (∀ e n, Cmd.mapCid e n ∈ q → (m (key e)).isSome ∨ ∃ e' n', Cmd.mapCid e' n' ∈ q ∧ key n' = key e) ∧
    (∀ x, Cmd.unmapCid x ∈ q → (m (key x)).isSome ∨ ∃ e' n', Cmd.mapCid e' n' ∈ q ∧ key n' = key x) := by
  have up : ∀ (m : CMap) (a : Cmd) (q : List Cmd) (k : Key), ((m.apply a) k).isSome ∨ (∃ e' n', Cmd.mapCid e' n' ∈ q ∧ key n' = k) →
      (m k).isSome ∨ ∃ e' n', Cmd.mapCid e' n' ∈ a :: q ∧ key n' = k := by
    intro m a q k h
    rcases h with h | ⟨e', n', h1, h2⟩
    · cases a with
      | unmapCid y =>
        simp only [CMap.apply, CMap.unmapCid] at h
        split at h
        · simp at h
        · exact .inl h
      | mapCid e n =>
        by_cases hk : key n = k
        · exact .inr ⟨e, n, .head _, hk⟩
        · simp only [CMap.apply, CMap.mapCid] at h
          left
          cases hm : m (key e) with
          | none => rw [hm] at h; exact h
          | some c => rw [hm] at h; simpa [CMap.put, Ne.symm hk] using h
    · exact .inr ⟨e', n', .tail _ h1, h2⟩
  induction q generalizing m with
  | nil => simp
  | cons a q ih =>
    have hg : Good (m.apply a) q := by cases a; exact h.2.2; exact h.2
    obtain ⟨i1, i2⟩ := ih hg
    refine ⟨fun e n hm => ?_, fun x hm => ?_⟩
    · cases hm with
      | head => obtain ⟨⟨c, h1, -⟩, -⟩ := h; exact .inl (by simp [h1])
      | tail _ hm => exact up m a q _ (i1 e n hm)
    · cases hm with
      | head => exact .inl h.1
      | tail _ hm => exact up m a q _ (i2 x hm)

end Verif.Tq
