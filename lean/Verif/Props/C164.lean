import Verif.Tq.Killswitch

/-!
# C164: The killswitch gets every task
-/

namespace Verif.Props.C164
open Verif.Tq.Kill

/-- The shard of a task has been cleared. -/
def Cleared (killer : Option Nat) (sh : Nat) : Prop := ∃ k, killer = some k ∧ sh < k

/-- What holds of a task at any time. -/
structure Inv (act : Bool) (cl : Prop) (l : Loc) : Prop where
  absent : l.call = .idle ∨ l.call = .checked ∨ l.call = .refused → l = { call := l.call }
  spawned : l.call = .spawned → l.aborted = false ∧ l.entry ≠ some .handle ∧ (l.gone = false → l.entry = none) ∧ (l.gone = true → ¬ cl → l.entry = some .tombstone)
  listed : l.call = .some → (¬ cl → l.aborted = false ∧ l.entry = if l.gone then none else some .handle) ∧ (cl → (l.gone = true ∨ l.aborted = true) ∧ l.entry ≠ some .handle)
  aborted : l.call = .aborted → l.aborted = true ∧ act = true ∧ l.entry ≠ some .handle
  truly : l.aborted = true → act = true
  gone : l.gone = true → l.polled = true ∨ l.aborted = true

structure Ok (n : Nat) (shard : Nat → Nat) (s : State) : Prop where
  act : s.activated = s.killer.isSome
  signal : s.signal = true → s.killer = some n
  range : ∀ k, s.killer = some k → k ≤ n
  inv : ∀ id, Inv s.activated (Cleared s.killer (shard id)) (s.loc id)

theorem ok_init (n : Nat) (shard : Nat → Nat) : Ok n shard {} :=
  ⟨rfl, by simp, by simp, fun _ => ⟨fun _ => rfl, by simp, by simp, by simp, by simp, by simp⟩⟩

theorem ok_set {n : Nat} {shard : Nat → Nat} {s : State} (h : Ok n shard s) (id : Nat) (l : Loc) (hl : Inv s.activated (Cleared s.killer (shard id)) l) :
    Ok n shard (s.set id l) := by
  refine ⟨h.act, h.signal, h.range, ?_⟩
  intro j
  show Inv s.activated (Cleared s.killer (shard j)) (if j = id then l else s.loc j)
  split
  · rename_i e; subst e; exact hl
  · exact h.inv j

theorem cleared_act {n : Nat} {shard : Nat → Nat} {s : State} (h : Ok n shard s) {sh : Nat} (hc : Cleared s.killer sh) : s.activated = true := by
  obtain ⟨k, hk, _⟩ := hc
  rw [h.act, hk]; rfl

theorem inv_add {act : Bool} {cl : Prop} {l : Loc} (hc : cl → act = true) (h : Inv act cl l) (hs : l.call = .spawned) :
    ∃ l', l.add act = some l' ∧ Inv act cl l' := by
  obtain ⟨h1, h2, h3, h4⟩ := h.spawned hs
  unfold Loc.add
  cases he : l.entry with
  | none =>
    cases act with
    | true =>
      refine ⟨_, rfl, by simp, by simp, by simp, fun _ => ⟨rfl, rfl, by simp [he]⟩, fun _ => rfl, fun _ => .inr rfl⟩
    | false =>
      have hncl : ¬ cl := fun c => by have := hc c; cases this
      have hg : l.gone = false := by
        cases hg : l.gone with
        | false => rfl
        | true => have := h4 hg hncl; rw [he] at this; cases this
      refine ⟨_, rfl, by simp, by simp, fun _ => ⟨fun _ => ⟨h1, by simp [hg]⟩, fun c => absurd c hncl⟩, by simp, ?_, ?_⟩
      · intro ha; simp only [h1] at ha; cases ha
      · intro hg'; simp only [hg] at hg'; cases hg'
  | some e =>
    cases e with
    | handle => exact absurd he h2
    | tombstone =>
      have hg : l.gone = true := by
        cases hg : l.gone with
        | true => rfl
        | false => have := h3 hg; rw [he] at this; cases this
      refine ⟨_, rfl, by simp, by simp, fun _ => ⟨fun _ => ⟨h1, by simp [hg]⟩, fun _ => ⟨.inl hg, by simp⟩⟩, by simp, h.truly, h.gone⟩

theorem remove_fields (l : Loc) : l.remove.call = l.call ∧ l.remove.polled = l.polled ∧ l.remove.aborted = l.aborted ∧ l.remove.gone = l.gone := by
  unfold Loc.remove
  split <;> exact ⟨rfl, rfl, rfl, rfl⟩

theorem remove_entry (l : Loc) : l.remove.entry = if l.entry = some .handle then none else some .tombstone := by
  unfold Loc.remove
  split <;> simp [*]

theorem inv_leave {act : Bool} {cl : Prop} {l : Loc} (h : Inv act cl l) (hg : l.gone = false) (hp : l.polled = true ∨ l.aborted = true) (hr : l.call = .spawned ∨ l.call = .some ∨ l.call = .aborted) :
    Inv act cl (if l.polled then ({ l with gone := true } : Loc).remove else { l with gone := true }) := by
  cases hpl : l.polled with
  | true =>
    simp only [if_true]
    obtain ⟨e1, e2, e3, e4⟩ := remove_fields { l with gone := true, polled := true }
    have e5 := remove_entry { l with gone := true, polled := true }
    simp only at e1 e2 e3 e4 e5
    generalize hq : ({ l with gone := true, polled := true } : Loc).remove = q at *
    refine ⟨?_, ?_, ?_, ?_, ?_, ?_⟩
    · intro hc; rw [e1] at hc; rcases hr with hr | hr | hr <;> rw [hr] at hc <;> simp at hc
    · intro hc
      rw [e1] at hc
      obtain ⟨h1, h2, h3, h4⟩ := h.spawned hc
      rw [if_neg h2] at e5
      exact ⟨by rw [e3]; exact h1, by rw [e5]; simp, by rw [e4]; simp, fun _ _ => e5⟩
    · intro hc
      rw [e1] at hc
      obtain ⟨h1, h2⟩ := h.listed hc
      refine ⟨fun c => ?_, fun c => ?_⟩
      · obtain ⟨a, b⟩ := h1 c
        rw [hg] at b
        simp only [Bool.false_eq_true, if_false] at b
        rw [if_pos b] at e5
        exact ⟨by rw [e3]; exact a, by rw [e4, e5]; rfl⟩
      · refine ⟨.inl e4, ?_⟩
        rw [if_neg (h2 c).2] at e5; rw [e5]; simp
    · intro hc
      rw [e1] at hc
      obtain ⟨h1, h2, h3⟩ := h.aborted hc
      rw [if_neg h3] at e5
      exact ⟨by rw [e3]; exact h1, h2, by rw [e5]; simp⟩
    · intro ha; rw [e3] at ha; exact h.truly ha
    · intro _; exact .inl e2
  | false =>
    simp only [Bool.false_eq_true, if_false]
    have hab : l.aborted = true := by rcases hp with hp | hp; · rw [hpl] at hp; cases hp
                                      · exact hp
    refine ⟨?_, ?_, ?_, ?_, h.truly, fun _ => .inr hab⟩
    · intro hc; dsimp only at hc; rcases hr with hr | hr | hr <;> rw [hr] at hc <;> simp at hc
    · intro hc
      have := (h.spawned hc).1
      rw [hab] at this; cases this
    · intro hc
      obtain ⟨h1, h2⟩ := h.listed hc
      refine ⟨fun c => ?_, fun c => ⟨.inl rfl, (h2 c).2⟩⟩
      have := (h1 c).1
      rw [hab] at this; cases this
    · intro hc; exact h.aborted hc

theorem inv_kill {cl : Prop} {l : Loc} (h : Inv true cl l) (cl' : Prop) (hc : cl') (hn : cl → False) : Inv true cl' l.kill := by
  unfold Loc.kill
  refine ⟨?_, ?_, ?_, ?_, fun _ => rfl, ?_⟩
  · intro hq
    have := h.absent hq
    rw [this]; rfl
  · intro hq
    obtain ⟨h1, h2, h3, h4⟩ := h.spawned hq
    refine ⟨?_, by simp, by simp, fun _ k => absurd hc k⟩
    simp [h1, h2]
  · intro hq
    obtain ⟨h1, _⟩ := h.listed hq
    refine ⟨fun k => absurd hc k, fun _ => ⟨?_, by simp⟩⟩
    obtain ⟨a, b⟩ := h1 hn
    dsimp only
    cases hg : l.gone with
    | true => exact .inl rfl
    | false => rw [hg] at b; simp at b; right; simp [b]
  · intro hq
    obtain ⟨a, _, _⟩ := h.aborted hq
    exact ⟨by simp [a], rfl, by simp⟩
  · intro hg
    rcases h.gone hg with k | k
    · exact .inl k
    · right; simp [k]

theorem inv_mono {act act' : Bool} {cl cl' : Prop} {l : Loc} (h : Inv act cl l) (ha : act = true → act' = true) (hc : cl ↔ cl') : Inv act' cl' l := by
  have : cl = cl' := propext hc
  subst this
  exact ⟨h.absent, h.spawned, h.listed, fun k => ⟨(h.aborted k).1, ha (h.aborted k).2.1, (h.aborted k).2.2⟩, fun k => ha (h.truly k), h.gone⟩

theorem ok_step {n : Nat} {shard : Nat → Nat} {s : State} (h : Ok n shard s) (e : Ev) (hne : e = .activate → s.activated = false) :
    ∃ s', s.step n shard e = some s' ∧ Ok n shard s' := by
  cases e with
  | check id =>
    simp only [State.step]
    split
    · rename_i hc
      refine ⟨_, rfl, ok_set h id _ ?_⟩
      have := (h.inv id).absent (.inl hc)
      rw [this]
      cases s.activated <;> exact ⟨fun _ => rfl, by simp, by simp, by simp, by simp, by simp⟩
    · exact ⟨s, rfl, h⟩
  | spawn id =>
    simp only [State.step]
    split
    · rename_i hc
      refine ⟨_, rfl, ok_set h id _ ?_⟩
      have := (h.inv id).absent (.inr (.inl hc))
      rw [this]
      exact ⟨by simp, fun _ => ⟨rfl, by simp, fun _ => rfl, by simp⟩, by simp, by simp, by simp, by simp⟩
    · exact ⟨s, rfl, h⟩
  | add id =>
    simp only [State.step]
    split
    · rename_i hc
      obtain ⟨l', h1, h2⟩ := inv_add (fun c => cleared_act h c) (h.inv id) hc
      rw [h1]
      exact ⟨_, rfl, ok_set h id l' h2⟩
    · exact ⟨s, rfl, h⟩
  | poll id =>
    simp only [State.step]
    split
    · rename_i hc
      refine ⟨_, rfl, ok_set h id _ ?_⟩
      have hi := h.inv id
      refine ⟨?_, hi.spawned, hi.listed, hi.aborted, hi.truly, fun _ => .inl rfl⟩
      intro hk
      exfalso
      have hm := hc.1
      dsimp only at hk
      rcases hk with k | k | k <;> rw [k] at hm <;> simp at hm
    · exact ⟨s, rfl, h⟩
  | leave id =>
    simp only [State.step]
    split
    · rename_i hc
      refine ⟨_, rfl, ok_set h id _ ?_⟩
      exact inv_leave (h.inv id) hc.2.1 hc.2.2 (by simpa using hc.1)
    · exact ⟨s, rfl, h⟩
  | activate =>
    have ha := hne rfl
    simp only [State.step, ha]
    have hk : s.killer = none := by
      have := h.act; rw [ha] at this
      cases hk : s.killer with
      | none => rfl
      | some k => rw [hk] at this; cases this
    refine ⟨_, rfl, rfl, ?_, ?_, ?_⟩
    · intro hs; have := h.signal hs; rw [hk] at this; cases this
    · intro k hk'; injection hk' with hk'; omega
    · intro id
      refine inv_mono (h.inv id) (fun _ => rfl) ?_
      rw [hk]
      constructor
      · rintro ⟨k, hk, _⟩; cases hk
      · rintro ⟨k, hk, hl⟩; injection hk with hk; omega
  | kill =>
    simp only [State.step]
    cases hk : s.killer with
    | none => exact ⟨s, rfl, h⟩
    | some k =>
      have hact : s.activated = true := by rw [h.act, hk]; rfl
      dsimp only
      by_cases hlt : k < n
      · rw [if_pos hlt]
        refine ⟨_, rfl, ?_, ?_, ?_, ?_⟩
        · show s.activated = true; exact hact
        · intro hs; have := h.signal hs; rw [hk] at this; injection this with this; omega
        · intro j hj; injection hj with hj; omega
        · intro id
          show Inv s.activated (Cleared (some (k + 1)) (shard id)) (if shard id = k then (s.loc id).kill else s.loc id)
          have hi := h.inv id
          rw [hact] at hi ⊢
          rw [hk] at hi
          by_cases hsh : shard id = k
          · rw [if_pos hsh]
            refine inv_kill hi _ ⟨k + 1, rfl, by omega⟩ ?_
            rintro ⟨j, hj, hl⟩; injection hj with hj; omega
          · rw [if_neg hsh]
            refine inv_mono hi (fun k => k) ?_
            constructor
            · rintro ⟨j, hj, hl⟩; injection hj with hj; exact ⟨k + 1, rfl, by omega⟩
            · rintro ⟨j, hj, hl⟩; injection hj with hj; exact ⟨k, rfl, by omega⟩
      · rw [if_neg hlt]
        have hr := h.range k hk
        refine ⟨_, rfl, ?_, ?_, ?_, ?_⟩
        · exact hact
        · intro _; show some k = some n; congr 1; omega
        · intro j hj; exact h.range j (hk.trans hj)
        · intro id; have := h.inv id; rw [hk] at this; exact this

/-- The switch is used once. -/
def Once (evs : List Ev) : Prop := evs.count .activate ≤ 1

theorem step_act {n : Nat} {shard : Nat → Nat} {s s' : State} {e : Ev} (h : s.step n shard e = some s') (hne : e ≠ .activate) : s'.activated = s.activated := by
  cases e with
  | activate => exact absurd rfl hne
  | check id => simp only [State.step] at h; split at h <;> (injection h with h; subst h; rfl)
  | spawn id => simp only [State.step] at h; split at h <;> (injection h with h; subst h; rfl)
  | add id =>
    simp only [State.step] at h
    split at h
    · cases hq : (s.loc id).add s.activated with
      | none => rw [hq] at h; cases h
      | some l => rw [hq] at h; injection h with h; subst h; rfl
    · injection h with h; subst h; rfl
  | poll id => simp only [State.step] at h; split at h <;> (injection h with h; subst h; rfl)
  | leave id => simp only [State.step] at h; split at h <;> (injection h with h; subst h; rfl)
  | kill =>
    simp only [State.step] at h
    split at h
    · injection h with h; subst h; rfl
    · split at h <;> (injection h with h; subst h; rfl)

theorem ok_run {n : Nat} {shard : Nat → Nat} (evs : List Ev) (s : State) (h : Ok n shard s) (ho : evs.count .activate ≤ if s.activated then 0 else 1) :
    ∃ s', s.run n shard evs = some s' ∧ Ok n shard s' := by
  induction evs generalizing s with
  | nil => exact ⟨s, rfl, h⟩
  | cons e evs ih =>
    by_cases he : e = .activate
    · subst he
      rw [List.count_cons_self] at ho
      have ha : s.activated = false := by
        cases hq : s.activated with
        | false => rfl
        | true => rw [hq] at ho; simp at ho
      obtain ⟨s', h1, h2⟩ := ok_step h .activate (fun _ => ha)
      unfold State.run
      rw [h1]
      refine ih s' h2 ?_
      rw [ha] at ho
      simp only [Bool.false_eq_true, if_false] at ho
      split <;> omega
    · obtain ⟨s', h1, h2⟩ := ok_step h e (fun k => absurd k he)
      unfold State.run
      rw [h1]
      refine ih s' h2 ?_
      rw [step_act h1 he]
      rw [List.count_cons_of_ne (by simpa using he)] at ho
      exact ho

/-- If the switch is used at most once, nothing panics: no number is found in use. -/
theorem no_panic (n : Nat) (shard : Nat → Nat) (evs : List Ev) (ho : Once evs) : (State.run n shard {} evs).isSome = true := by
  obtain ⟨s, h, _⟩ := ok_run evs {} (ok_init n shard) (by simpa [Once] using ho)
  rw [h]; rfl

theorem reach_ok {n : Nat} {shard : Nat → Nat} : ∀ {evs : List Ev} {s t : State}, Ok n shard s → s.run n shard evs = some t → Ok n shard t
  | [], s, t, h, hr => by injection hr with hr; subst hr; exact h
  | e :: l, s, t, h, hr => by
    unfold State.run at hr
    cases hq : s.step n shard e with
    | none => rw [hq] at hr; cases hr
    | some u =>
      rw [hq] at hr
      have hne : e = .activate → s.activated = false := by
        intro he; subst he
        cases ha : s.activated with
        | false => rfl
        | true => simp [State.step, ha] at hq
      obtain ⟨u', h1, h2⟩ := ok_step h e hne
      rw [hq] at h1; injection h1 with h1; subst h1
      exact reach_ok h2 hr

/-- The task exists in tokio. -/
def Exists (l : Loc) : Prop := l.call = .spawned ∨ l.call = .some ∨ l.call = .aborted

/-- When the signal comes that all were killed, every task is gone or told to abort, but those whose spawning is still
under way. (They are dealt with by `late`.) -/
theorem all_killed (n : Nat) (shard : Nat → Nat) (hs : ∀ id, shard id < n) (evs : List Ev) (s : State) (h : State.run n shard {} evs = some s) (hk : s.signal = true)
    (id : Nat) (he : Exists (s.loc id)) : (s.loc id).gone = true ∨ (s.loc id).aborted = true ∨ (s.loc id).call = .spawned := by
  have ho := reach_ok (ok_init n shard) h
  have hc : Cleared s.killer (shard id) := ⟨n, ho.signal hk, hs id⟩
  have hi := ho.inv id
  rcases he with he | he | he
  · exact .inr (.inr he)
  · rcases ((hi.listed he).2 hc).1 with k | k
    · exact .inl k
    · exact .inr (.inl k)
  · exact .inr (.inl (hi.aborted he).1)

/-- Once the switch is used, a call that still has to register its task aborts it and returns nothing, or the task is gone. -/
theorem late (n : Nat) (shard : Nat → Nat) (evs : List Ev) (s t : State) (h : State.run n shard {} evs = some s) (ha : s.activated = true) (id : Nat)
    (hc : (s.loc id).call = .spawned) (hst : s.step n shard (.add id) = some t) :
    ((t.loc id).call = .aborted ∧ (t.loc id).aborted = true) ∨ (t.loc id).gone = true := by
  have ho := reach_ok (ok_init n shard) h
  obtain ⟨h1, h2, h3, h4⟩ := (ho.inv id).spawned hc
  simp only [State.step, if_pos hc, Loc.add, ha] at hst
  split at hst
  · simp only [if_true, Option.map_some, Option.some.injEq] at hst
    subst hst; left; simp [State.set]
  · rename_i hq
    simp only [Option.map_some, Option.some.injEq] at hst
    subst hst
    right
    cases hg : (s.loc id).gone with
    | true => simp [State.set, hg]
    | false => have := h3 hg; rw [hq] at this; cases this
  · cases hst

/-- Nothing new is spawned for calls begun after that. -/
theorem refuses (n : Nat) (shard : Nat → Nat) (s t : State) (id : Nat) (ha : s.activated = true) (hc : (s.loc id).call = .idle) (h : s.step n shard (.check id) = some t) :
    (t.loc id).call = .refused := by
  simp only [State.step, if_pos hc, ha, if_true, Option.some.injEq] at h
  subst h; simp [State.set]

/-- No task is aborted unless the switch is used. -/
theorem only (n : Nat) (shard : Nat → Nat) (evs : List Ev) (s : State) (h : State.run n shard {} evs = some s) (id : Nat) (ha : (s.loc id).aborted = true) : s.activated = true :=
  ((reach_ok (ok_init n shard) h).inv id).truly ha

/-- The signal comes only after that. -/
theorem signal_after (n : Nat) (shard : Nat → Nat) (evs : List Ev) (s : State) (h : State.run n shard {} evs = some s) (hs : s.signal = true) : s.activated = true := by
  have ho := reach_ok (ok_init n shard) h
  rw [ho.act, ho.signal hs]; rfl

/-- Before it is used, the map has exactly the tasks that are registered and not gone, and marks for those that
were gone before they could be registered. -/
theorem registered (n : Nat) (shard : Nat → Nat) (evs : List Ev) (s : State) (h : State.run n shard {} evs = some s) (ha : s.activated = false) (id : Nat) :
    ((s.loc id).entry = some .handle ↔ (s.loc id).call = .some ∧ (s.loc id).gone = false) ∧
    ((s.loc id).entry = some .tombstone ↔ (s.loc id).call = .spawned ∧ (s.loc id).gone = true) := by
  have ho := reach_ok (ok_init n shard) h
  have hi := ho.inv id
  have hnc : ¬ Cleared s.killer (shard id) := by
    rintro ⟨k, hk, _⟩
    have := ho.act; rw [ha, hk] at this; cases this
  cases hc : (s.loc id).call with
  | idle => have := hi.absent (.inl hc); rw [this]; simp
  | checked => have := hi.absent (.inr (.inl hc)); rw [this]; simp
  | refused => have := hi.absent (.inr (.inr hc)); rw [this]; simp
  | aborted => have := (hi.aborted hc).2.1; rw [ha] at this; cases this
  | spawned =>
    obtain ⟨h1, h2, h3, h4⟩ := hi.spawned hc
    cases hg : (s.loc id).gone with
    | true => have := h4 hg hnc; rw [this]; simp
    | false => have := h3 hg; rw [this]; simp
  | some =>
    obtain ⟨h1, h2⟩ := (hi.listed hc).1 hnc
    rw [h2]
    cases hg : (s.loc id).gone <;> simp

/-- After it was used, marks remain in the map for ever: tasks that are killed while running leave one. -/
theorem leak : ((State.run 1 (fun _ => 0) {} [.check 7, .spawn 7, .add 7, .poll 7, .activate, .kill, .kill, .leave 7]).map fun s => (s.signal, (s.loc 7))) =
    some (true, { call := .some, entry := some .tombstone, polled := true, aborted := true, gone := true }) := by decide

/-- A task that finishes before it is registered, and one that is spawned while the switch is used. -/
example : ((State.run 2 (fun id => id % 2) {} [.check 1, .spawn 1, .poll 1, .leave 1, .check 2, .add 1, .spawn 2, .activate, .poll 2, .kill, .add 2, .kill, .kill, .leave 2]).map
    fun s => ((s.loc 1).call, (s.loc 1).entry, (s.loc 2).call, (s.loc 2).aborted)) = some (.some, none, .aborted, true) := by decide

end Verif.Props.C164
