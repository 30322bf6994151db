import Verif.Conn.Reach

/-! Which stream is served next. -/

namespace Verif.Conn
open Verif Verif.Stream

theorem qdel_head {k : Key} {t : List Key} (h : k.id ∉ t.map (·.id)) : qdel k.id (k :: t) = t := by
  unfold qdel
  rw [List.filter_cons_of_neg (by simp)]
  rw [List.filter_eq_self]
  intro e he
  have : e.id ≠ k.id := fun x => h (x ▸ List.mem_map_of_mem he)
  simpa using this

namespace Conn
variable {c c' : Conn} {h : Hist} {gone : List Nat}

/-- The stream is passed over by the packet builder: it is stopped or the header of its
STREAM frame does not fit into `left` bytes. -/
def Skipped (c : Conn) (left : Nat) (id : Nat) : Prop :=
  ∀ s, c.get id = some s → s.send.isStopped = true ∨ left < 1 + varintLen id + varintLen s.send.offFront + 2

/-- A STREAM frame is for the first queued stream that is not passed over. -/
theorem outStreamLoop_first (left : Nat) : ∀ (fuel : Nat) (c c' : Conn) (id off : Nat) (data : Bytes) (fin : Bool),
    (c.flushable.map (·.id)).Nodup → outStreamLoop left fuel c = (c', .sentStream id off data fin) →
    ∃ pre k post, c.flushable = pre ++ k :: post ∧ k.id = id ∧ (∀ e ∈ pre, Skipped c left e.id) := by
  intro fuel
  induction fuel with
  | zero => intro c c' id off data fin _ h; simp [outStreamLoop] at h
  | succ fuel ih =>
    intro c c' id off data fin hn h
    unfold outStreamLoop at h
    cases hq : c.flushable with
    | nil => rw [hq] at h; simp at h
    | cons k t =>
      rw [hq] at h
      simp only at h
      have hn' : k.id ∉ t.map (·.id) ∧ (t.map (·.id)).Nodup := by rw [hq] at hn; simpa using hn
      have hrm : (c.removeFlushable k.id).flushable = t := by
        simp only [removeFlushable, hq]; exact qdel_head hn'.1
      have skip : Skipped c left k.id → outStreamLoop left fuel (c.removeFlushable k.id) = (c', .sentStream id off data fin) →
          ∃ pre k' post, k :: t = pre ++ k' :: post ∧ k'.id = id ∧ (∀ e ∈ pre, Skipped c left e.id) := by
        intro hsk hrun
        obtain ⟨pre, k', post, e1, e2, e3⟩ := ih _ _ _ _ _ _ (by rw [hrm]; exact hn'.2) hrun
        rw [hrm] at e1
        refine ⟨k :: pre, k', post, by rw [e1]; rfl, e2, ?_⟩
        intro e he
        rcases List.mem_cons.mp he with rfl | he
        · exact hsk
        · exact e3 e he
      cases hg : c.get k.id with
      | none =>
        rw [hg] at h
        refine skip ?_ h
        intro s hs; rw [hg] at hs; cases hs
      | some s =>
        rw [hg] at h
        simp only at h
        split at h
        · next hst => exact skip (fun s' hs' => by rw [hg] at hs'; cases hs'; exact .inl hst) h
        · split at h
          · next hl => exact skip (fun s' hs' => by rw [hg] at hs'; cases hs'; exact .inr hl) h
          · split at h
            · simp [die] at h
            · split at h
              · simp [die] at h
              · simp only [Prod.mk.injEq, Ev.sentStream.injEq] at h
                exact ⟨[], k, t, rfl, h.2.1, by simp⟩

/-- What `stream_writable_next` returns. -/
theorem nextWritable_first (c : Conn) : ∀ (q : List Key) (id : Nat), c.nextWritable q = some id →
    ∃ pre k post, q = pre ++ k :: post ∧ k.id = id ∧
      ∀ e ∈ pre, ∀ s, c.get e.id = some s → ∃ n, s.send.cap = .ok n ∧ min c.txCap n < s.sendLowat := by
  intro q
  induction q with
  | nil => intro id h; simp [nextWritable] at h
  | cons k t ih =>
    intro id h
    unfold nextWritable at h
    have skip : (∀ s, c.get k.id = some s → ∃ n, s.send.cap = .ok n ∧ min c.txCap n < s.sendLowat) →
        c.nextWritable t = some id → ∃ pre k' post, k :: t = pre ++ k' :: post ∧ k'.id = id ∧
          ∀ e ∈ pre, ∀ s, c.get e.id = some s → ∃ n, s.send.cap = .ok n ∧ min c.txCap n < s.sendLowat := by
      intro hsk hrun
      obtain ⟨pre, k', post, e1, e2, e3⟩ := ih id hrun
      refine ⟨k :: pre, k', post, by rw [e1]; rfl, e2, ?_⟩
      intro e he
      rcases List.mem_cons.mp he with rfl | he
      · exact hsk
      · exact e3 e he
    cases hg : c.get k.id with
    | none => rw [hg] at h; exact skip (fun s hs => by rw [hg] at hs; cases hs) h
    | some s =>
      rw [hg] at h
      simp only at h
      cases hcap : s.send.cap with
      | error e =>
        rw [hcap] at h
        simp only [Option.some.injEq] at h
        exact ⟨[], k, t, rfl, h, by simp⟩
      | ok n =>
        rw [hcap] at h
        simp only at h
        split at h
        · simp only [Option.some.injEq] at h
          exact ⟨[], k, t, rfl, h, by simp⟩
        · next hlt =>
          exact skip (fun s' hs' => by rw [hg] at hs'; cases hs'; exact ⟨n, hcap, by omega⟩) h

/-- In a queue kept in order, what comes first comes first. -/
theorem Ordered.first {pre post : List Key} {k e : Key} (h : Ordered (pre ++ k :: post)) (he : e ∈ pre ++ k :: post)
    (hp : e ∉ pre) (hk : e.id ≠ k.id) : k.le e := by
  have h1 := h.ord
  rcases List.mem_append.mp he with h2 | h2
  · exact absurd h2 hp
  · rcases List.mem_cons.mp h2 with rfl | h2
    · exact absurd rfl hk
    · rw [List.pairwise_append] at h1
      exact (List.pairwise_cons.mp h1.2.1).1 e h2

end Conn
end Verif.Conn
