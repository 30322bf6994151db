import Verif.Props.C93

/-!
C94: the timeout reported is the earliest one armed, and nothing happens before it.

`exact`: while the connection is not closed, `timeout_instant()` is the draining deadline if
there is one and otherwise the least of the idle deadline, the loss detection timers of all
paths and the timer of a key update; there is none only if none of these is armed.
`nothing_before`: a call of `on_timeout()` before that instant changes nothing, given an
active path. `due`: a call at that instant or later serves the timer that was due.

After the end no timeout is reported, but `on_timeout()` still looks at the idle deadline:
`late` has a connection closed by a stateless reset that then claims to have timed out.
-/

namespace Verif.Props.C94
open Verif Verif.Life
open Verif.Props.C49 (env0 slot0 fired0)

/-- The deadlines that count. -/
def Armed (s : State) (t : Nat) : Prop :=
  s.drain = some t ∨
    (s.drain = none ∧ (s.idle = some t ∨ some t ∈ s.env.timers ∨ s.env.keyUpdate = some t))

theorem least_none : ∀ {l : List (Option Nat)}, least l = none ↔ ∀ t, some t ∉ l := by
  intro l
  induction l with
  | nil => simp [least]
  | cons a l ih =>
    cases a with
    | none => simp only [least]; rw [ih]; simp
    | some a =>
      simp only [least]
      constructor
      · intro h; split at h <;> simp at h
      · intro h; exact absurd List.mem_cons_self (h a)

theorem least_some : ∀ {l : List (Option Nat)} {t : Nat}, least l = some t →
    some t ∈ l ∧ ∀ u, some u ∈ l → t ≤ u := by
  intro l
  induction l with
  | nil => intro t h; simp [least] at h
  | cons a l ih =>
    intro t h
    cases a with
    | none =>
      obtain ⟨h1, h2⟩ := ih (t := t) h
      exact ⟨List.mem_cons_of_mem _ h1, fun u hu => h2 u (by simpa using hu)⟩
    | some a =>
      simp only [least] at h
      cases hl : least l with
      | none =>
        rw [hl] at h
        obtain rfl : a = t := by simpa using h
        refine ⟨List.mem_cons_self, fun u hu => ?_⟩
        rcases List.mem_cons.1 hu with hu | hu
        · simp only [Option.some.injEq] at hu; omega
        · exact absurd hu (least_none.1 hl u)
      | some b =>
        rw [hl] at h
        have hm : min a b = t := by simpa using h
        obtain ⟨h1, h2⟩ := ih (t := b) hl
        constructor
        · rcases Nat.le_total a b with hab | hab
          · have : t = a := by omega
            rw [this]; exact List.mem_cons_self
          · have : t = b := by omega
            rw [this]; exact List.mem_cons_of_mem _ h1
        · intro u hu
          rcases List.mem_cons.1 hu with hu | hu
          · simp only [Option.some.injEq] at hu; omega
          · have := h2 u hu; omega

theorem armed_iff {s : State} (hd : s.drain = none) (t : Nat) :
    Armed s t ↔ s.idle = some t ∨ some t ∈ s.env.timers ∨ s.env.keyUpdate = some t := by
  unfold Armed; rw [hd]; simp

/-- **The timeout reported is armed and no armed one is earlier.** -/
theorem exact {s : State} {t : Nat} (h : timeoutInstant s = some t) :
    s.closed = false ∧ Armed s t ∧ ∀ u, Armed s u → t ≤ u := by
  unfold timeoutInstant at h
  split at h
  · simp at h
  · rename_i hc
    refine ⟨by simpa using hc, ?_⟩
    split at h
    · refine ⟨Or.inl h, fun u hu => ?_⟩
      rcases hu with hu | ⟨hu, _⟩
      · rw [h] at hu; simp only [Option.some.injEq] at hu; omega
      · rw [h] at hu; simp at hu
    · rename_i hd
      have hd : s.drain = none := by simpa using hd
      obtain ⟨h1, h2⟩ := least_some h
      constructor
      · rw [armed_iff hd]
        simp only [List.mem_cons, List.not_mem_nil, or_false] at h1
        rcases h1 with h1 | h1 | h1
        · exact Or.inl h1.symm
        · exact Or.inr (Or.inl (least_some h1.symm).1)
        · exact Or.inr (Or.inr h1.symm)
      · intro u hu
        rw [armed_iff hd] at hu
        rcases hu with hu | hu | hu
        · exact h2 u (by rw [hu]; simp)
        · cases hl : least s.env.timers with
          | none => exact absurd hu (least_none.1 hl u)
          | some b =>
            have := h2 b (by rw [hl]; simp)
            have := (least_some hl).2 u hu
            omega
        · exact h2 u (by rw [hu]; simp)

/-- **No timeout is reported only if the connection is closed or nothing is armed.** -/
theorem none_iff (s : State) :
    timeoutInstant s = none ↔ s.closed = true ∨ ∀ t, ¬ Armed s t := by
  constructor
  · intro h
    cases hc : s.closed with
    | true => exact Or.inl rfl
    | false =>
      right
      intro t ht
      unfold timeoutInstant at h
      rw [if_neg (by rw [hc]; simp)] at h
      split at h
      · rename_i hd; rw [h] at hd; simp at hd
      · rename_i hd
        have hd : s.drain = none := by simpa using hd
        have hn := least_none.1 h
        rw [armed_iff hd] at ht
        rcases ht with ht | ht | ht
        · exact hn t (by rw [ht]; simp)
        · cases hl : least s.env.timers with
          | none => exact absurd ht (least_none.1 hl t)
          | some b => exact hn b (by rw [hl]; simp)
        · exact hn t (by rw [ht]; simp)
  · intro h
    cases hx : timeoutInstant s with
    | none => rfl
    | some t =>
      obtain ⟨h1, h2, _⟩ := exact hx
      rcases h with h | h
      · rw [h1] at h; simp at h
      · exact absurd h2 (h t)

theorem not_expired {now : Nat} {o : Option Nat} (h : ∀ t, o = some t → now < t) :
    expired now o = false := by
  cases o with
  | none => rfl
  | some t => have := h t rfl; simp only [expired, decide_eq_false_iff_not]; omega

/-- **Before every armed timer `on_timeout()` does nothing.** -/
theorem nothing_before {s : State} {now : Nat} (hp : s.env.pto ≠ none)
    (h : ∀ t, Armed s t → now < t) (f : Fired) : onTimeout s now f = s := by
  unfold onTimeout
  split
  · rw [not_expired (fun t ht => h t (Or.inl ht))]; rfl
  · rename_i hd
    have hd : s.drain = none := by simpa using hd
    rw [not_expired (fun t ht => h t ((armed_iff hd t).2 (Or.inl ht)))]
    have hk : s.env.expireKeys now = s.env := by
      unfold Env.expireKeys
      rw [not_expired (fun t ht => h t ((armed_iff hd t).2 (Or.inr (Or.inr ht))))]; rfl
    have hf : s.env.fire now f = s.env := by
      unfold Env.fire
      rw [if_neg]
      intro hx
      obtain ⟨o, ho, hx⟩ := List.any_eq_true.1 hx
      rw [not_expired (fun t ht => h t ((armed_iff hd t).2 (Or.inr (Or.inl (ht ▸ ho)))))] at hx
      simp at hx
    rw [hk, hf]
    simp only [Bool.false_eq_true, if_false]
    unfold State.needPath
    split
    · rfl
    · rename_i hx _; exact absurd hx hp
    · rename_i hx _; exact absurd hx hp

/-- The same in terms of the timeout reported: a call before it, or when there is none,
does nothing. -/
theorem early {s : State} {now : Nat} (hc : s.closed = false) (hp : s.env.pto ≠ none)
    (h : ∀ t, timeoutInstant s = some t → now < t) (f : Fired) : onTimeout s now f = s := by
  refine nothing_before hp (fun u hu => ?_) f
  cases hx : timeoutInstant s with
  | none =>
    rcases (none_iff s).1 hx with h' | h'
    · rw [hc] at h'; simp at h'
    · exact absurd hu (h' u)
  | some t =>
    have := h t hx
    have := (exact hx).2.2 u hu
    omega

/-- **At the timeout reported, or later, `on_timeout()` serves a timer**: the connection
ends, or the key update timer is gone, or the loss detection timers are those after loss
detection ran. -/
theorem due {s : State} {t now : Nat} (h : timeoutInstant s = some t) (hn : t ≤ now)
    (f : Fired) :
    (onTimeout s now f).closed = true ∨ (onTimeout s now f).env.keyUpdate ≠ s.env.keyUpdate ∨
      (onTimeout s now f).env.timers = f.timers := by
  obtain ⟨_, h2, h3⟩ := exact h
  have hex : ∀ {o : Option Nat} {u : Nat}, o = some u → t = u → expired now o = true := by
    intro o u ho hu; rw [ho]; simp only [expired, decide_eq_true_eq]; omega
  unfold onTimeout
  rcases h2 with h2 | ⟨hd, h2⟩
  · rw [if_pos (by rw [h2]; rfl), if_pos (hex h2 rfl)]
    exact Or.inl rfl
  · rw [if_neg (by rw [hd]; simp)]
    split
    · exact Or.inl rfl
    · rename_i hi
      have hi' : s.idle ≠ some t := fun hx => hi (hex hx rfl)
      have hkeep : ∀ v : Env, (State.needPath { s with env := v } f).env.keyUpdate =
          v.keyUpdate ∧ (State.needPath { s with env := v } f).env.timers = v.timers := by
        intro v
        unfold State.needPath
        split
        · exact ⟨rfl, rfl⟩
        · exact ⟨rfl, rfl⟩
        · exact ⟨rfl, rfl⟩
      obtain ⟨k1, k2⟩ := hkeep ((s.env.expireKeys now).fire now f)
      have ht : (s.env.expireKeys now).timers = s.env.timers := by
        unfold Env.expireKeys; split <;> rfl
      rcases h2 with h2 | h2 | h2
      · exact absurd h2 hi'
      · right; right
        rw [k2]
        unfold Env.fire
        rw [if_pos]
        rw [ht, List.any_eq_true]
        exact ⟨some t, h2, hex rfl rfl⟩
      · right; left
        rw [k1, h2]
        have : (s.env.expireKeys now).keyUpdate = none := by
          unfold Env.expireKeys; rw [if_pos (hex h2 rfl)]
        unfold Env.fire
        split
        · rw [show ({ s.env.expireKeys now with
            initial := _, handshake := _, app := _, timers := _, pto := _ } : Env).keyUpdate =
            (s.env.expireKeys now).keyUpdate from rfl, this]; simp
        · rw [this]; simp

/-- With an idle deadline at 60, loss detection at 25 and 40 and a key update at 30 the
timeout is 25. -/
example : timeoutInstant
    { State.new true 60 { env0 with timers := [some 40, none, some 25], keyUpdate := some 30 }
      with idle := some 60 } = some 25 := by decide +kernel

/-- **After the end**: the connection was closed by a stateless reset at time 1, no timeout
is reported, but `on_timeout()` at the old idle deadline makes `is_timed_out()` true. -/
theorem late :
    let s := run (State.new true 60 env0)
      [.recv 0 [(.accepted env0 none [], false)], .recv 1 [(.dropped, true)]]
    s.closed = true ∧ s.timedOut = false ∧ timeoutInstant s = none ∧
      (run s [.timeout (30 * ms) fired0]).timedOut = true := by
  decide +kernel

end Verif.Props.C94
