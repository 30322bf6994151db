import Verif.Bbr.Filter

/-!
C137. The windowed maximum filter of BBR: with samples in the order of time it never
panics; its estimate is a sample taken since it was last cleared, not older than the window,
at least as large as every sample taken since, and there is one as soon as there is a
sample.
-/

namespace Verif.Props.C137

open Verif.Bbr

variable {T : Type}

/-- What is asked of the order of samples. -/
structure Order (gt : T → T → Bool) : Prop where
  irrefl : ∀ a, gt a a = false
  trans : ∀ a b c, gt a b = false → gt b c = false → gt a c = false

/-- The samples since the filter was last cleared or reset, the latest first. -/
def since : List (FOp T) → List (FSample T)
  | [] => []
  | .update v :: l => v :: since l
  | .reset v :: _ => [v]
  | .clear :: _ => []

/-- Every sample is taken not before those taken since the filter was cleared. -/
def InTime : List (FOp T) → Prop
  | [] => True
  | .update v :: l => (∀ w ∈ since l, w.time ≤ v.time) ∧ InTime l
  | .reset _ :: l => InTime l
  | .clear :: l => InTime l

/-- The sample `e` is in the history and not smaller than those taken after it. -/
def BestSince (gt : T → T → Bool) (hist : List (FSample T)) (e : FSample T) : Prop :=
  ∃ newer older, hist = newer ++ e :: older ∧ ∀ w ∈ newer, gt w.value e.value = false

structure Inv (gt : T → T → Bool) (hist : List (FSample T)) (e : FSample T × FSample T × FSample T) : Prop where
  b0 : BestSince gt hist e.1
  b1 : BestSince gt hist e.2.1
  b2 : BestSince gt hist e.2.2
  v01 : gt e.2.1.value e.1.value = false
  v12 : gt e.2.2.value e.2.1.value = false
  t01 : e.1.time ≤ e.2.1.time
  t12 : e.2.1.time ≤ e.2.2.time

theorem best_new (gt : T → T → Bool) (hist : List (FSample T)) (v : FSample T) : BestSince gt (v :: hist) v :=
  ⟨[], hist, rfl, by simp⟩

theorem BestSince.cons {gt : T → T → Bool} {hist : List (FSample T)} {e : FSample T} (h : BestSince gt hist e) (v : FSample T)
    (hv : gt v.value e.value = false) : BestSince gt (v :: hist) e := by
  obtain ⟨n, o, h1, h2⟩ := h
  refine ⟨v :: n, o, by rw [h1]; rfl, ?_⟩
  intro w hw
  rcases List.mem_cons.mp hw with hw | hw
  · rw [hw]; exact hv
  · exact h2 w hw

theorem BestSince.mem {gt : T → T → Bool} {hist : List (FSample T)} {e : FSample T} (h : BestSince gt hist e) : e ∈ hist := by
  obtain ⟨n, o, h1, _⟩ := h
  rw [h1]; simp

theorem inv_one {gt : T → T → Bool} (ho : Order gt) (hist : List (FSample T)) (v : FSample T) :
    Inv gt (v :: hist) (v, v, v) :=
  ⟨best_new _ _ _, best_new _ _ _, best_new _ _ _, ho.irrefl _, ho.irrefl _, Nat.le_refl _, Nat.le_refl _⟩

theorem place_inv {gt : T → T → Bool} (ho : Order gt) (hist : List (FSample T)) (e : FSample T × FSample T × FSample T)
    (v : FSample T) (hi : Inv gt hist e) (ht : ∀ w ∈ hist, w.time ≤ v.time) (h0 : gt v.value e.1.value = false) :
    Inv gt (v :: hist) (place gt e v) ∧ gt v.value (place gt e v).2.2.value = false ∧ e.2.2.time ≤ (place gt e v).2.2.time
      ∧ (place gt e v).2.2.time ≤ v.time := by
  have ht0 := ht _ hi.b0.mem
  have ht1 := ht _ hi.b1.mem
  have ht2 := ht _ hi.b2.mem
  unfold place
  split
  · exact ⟨⟨hi.b0.cons v h0, best_new _ _ _, best_new _ _ _, h0, ho.irrefl _, ht0, Nat.le_refl _⟩, ho.irrefl _, ht2, Nat.le_refl _⟩
  · next h1 =>
    have h1 : gt v.value e.2.1.value = false := by simpa using h1
    split
    · exact ⟨⟨hi.b0.cons v h0, hi.b1.cons v h1, best_new _ _ _, hi.v01, h1, hi.t01, ht1⟩, ho.irrefl _, ht2, Nat.le_refl _⟩
    · next h2 =>
      have h2 : gt v.value e.2.2.value = false := by simpa using h2
      exact ⟨⟨hi.b0.cons v h0, hi.b1.cons v h1, hi.b2.cons v h2, hi.v01, hi.v12, hi.t01, hi.t12⟩, h2, Nat.le_refl _, ht2⟩

theorem expire_inv [BEq T] {gt : T → T → Bool} (ho : Order gt) (win : Nat) (hist : List (FSample T))
    (e : FSample T × FSample T × FSample T) (v : FSample T) (hi : Inv gt (v :: hist) e) (h2 : gt v.value e.2.2.value = false)
    (ht : e.2.2.time ≤ v.time) (hw : v.time - e.2.2.time ≤ win) :
    Inv gt (v :: hist) (expire win e v) ∧ v.time - (expire win e v).1.time ≤ win := by
  have h1 : gt v.value e.2.1.value = false := ho.trans _ _ _ h2 hi.v12
  have h0 : gt v.value e.1.value = false := ho.trans _ _ _ h1 hi.v01
  have t01 := hi.t01
  have t12 := hi.t12
  unfold expire
  split
  · unfold promote
    split
    · exact ⟨⟨hi.b2, best_new _ _ _, best_new _ _ _, h2, ho.irrefl _, ht, Nat.le_refl _⟩, hw⟩
    · exact ⟨⟨hi.b1, hi.b2, best_new _ _ _, hi.v12, h2, t12, ht⟩, by dsimp only; omega⟩
  · split
    · exact ⟨⟨hi.b0, best_new _ _ _, best_new _ _ _, h0, ho.irrefl _, by dsimp only; omega, Nat.le_refl _⟩, by dsimp only; omega⟩
    · split
      · exact ⟨⟨hi.b0, hi.b1, best_new _ _ _, hi.v01, h1, t01, by dsimp only; omega⟩, by dsimp only; omega⟩
      · exact ⟨hi, by omega⟩

/-- The state of the filter against the samples since it was cleared. -/
def Good (gt : T → T → Bool) (hist : List (FSample T)) (f : Filter T) : Prop :=
  match f.est with
  | none => hist = []
  | some e => Inv gt hist e

theorem update_good [BEq T] {gt : T → T → Bool} (ho : Order gt) (hist : List (FSample T)) (f : Filter T) (v : FSample T)
    (hg : Good gt hist f) (ht : ∀ w ∈ hist, w.time ≤ v.time) :
    ∃ f', f.update gt v = some f' ∧ Good gt (v :: hist) f' ∧ f'.win = f.win
      ∧ ∃ e, f'.est = some e ∧ v.time - e.1.time ≤ f.win := by
  unfold Filter.update
  unfold Good at hg
  cases he : f.est with
  | none =>
    refine ⟨_, rfl, ?_, rfl, (v, v, v), rfl, by simp⟩
    exact inv_one ho hist v
  | some e =>
    rw [he] at hg
    dsimp only at hg ⊢
    by_cases h0 : gt v.value e.1.value = true
    · rw [if_pos h0]
      exact ⟨_, rfl, inv_one ho hist v, rfl, (v, v, v), rfl, by simp⟩
    · rw [if_neg h0]
      have h0 : gt v.value e.1.value = false := by simpa using h0
      have hb : Before e v.time = true := by
        unfold Before
        simpa using ⟨ht _ hg.b0.mem, ht _ hg.b1.mem, ht _ hg.b2.mem⟩
      rw [if_pos hb]
      by_cases hw : v.time - e.2.2.time > f.win
      · rw [if_pos hw]
        exact ⟨_, rfl, inv_one ho hist v, rfl, (v, v, v), rfl, by simp⟩
      · rw [if_neg hw]
        obtain ⟨p1, p2, p3, p4⟩ := place_inv ho hist e v hg ht h0
        obtain ⟨x1, x2⟩ := expire_inv ho f.win hist _ v p1 p2 p4 (by omega)
        exact ⟨_, rfl, x1, rfl, _, rfl, x2⟩

theorem feed_good [BEq T] {gt : T → T → Bool} (ho : Order gt) (win : Nat) : ∀ l : List (FOp T), InTime l →
    ∃ f, feed gt win l = some f ∧ Good gt (since l) f ∧ f.win = win
  | [], _ => ⟨_, rfl, rfl, rfl⟩
  | .update v :: l, h => by
    obtain ⟨f, h1, h2, h3⟩ := feed_good ho win l h.2
    obtain ⟨f', g1, g2, g3, -⟩ := update_good ho _ f v h2 h.1
    exact ⟨f', by rw [feed, h1]; exact g1, g2, by rw [g3, h3]⟩
  | .reset v :: l, h => by
    obtain ⟨f, h1, h2, h3⟩ := feed_good ho win l h
    exact ⟨f.reset v, by rw [feed, h1]; rfl, inv_one ho [] v, h3⟩
  | .clear :: l, h => by
    obtain ⟨f, h1, h2, h3⟩ := feed_good ho win l h
    exact ⟨f.clear, by rw [feed, h1]; rfl, rfl, h3⟩

/-- No panic. -/
theorem no_panic [BEq T] {gt : T → T → Bool} (ho : Order gt) (win : Nat) (l : List (FOp T)) (h : InTime l) :
    (feed gt win l).isSome = true := by
  obtain ⟨f, h1, -⟩ := feed_good ho win l h
  rw [h1]; rfl

/-- There is an estimate exactly if there is a sample since the filter was cleared; the
best one is the largest of all samples since its own, and the estimates are ordered. -/
theorem sound [BEq T] {gt : T → T → Bool} (ho : Order gt) (win : Nat) (l : List (FOp T)) (h : InTime l) (f : Filter T)
    (hf : feed gt win l = some f) :
    (f.best = none ↔ since l = []) ∧
    ∀ b, f.best = some b → ∃ newer older t, since l = newer ++ ⟨b, t⟩ :: older ∧ (∀ w ∈ newer, gt w.value b = false) ∧
      ∃ b2 b3, f.second = some b2 ∧ f.third = some b3 ∧ gt b2 b = false ∧ gt b3 b2 = false ∧
        (∃ t2, ⟨b2, t2⟩ ∈ since l) ∧ ∃ t3, ⟨b3, t3⟩ ∈ since l := by
  obtain ⟨f', h1, h2, -⟩ := feed_good ho win l h
  rw [h1] at hf
  cases hf
  unfold Good at h2
  cases he : f.est with
  | none =>
    rw [he] at h2
    refine ⟨by simp [Filter.best, he, h2], ?_⟩
    intro b hb
    simp [Filter.best, he] at hb
  | some e =>
    rw [he] at h2
    dsimp only at h2
    refine ⟨?_, ?_⟩
    · constructor
      · intro hb
        simp [Filter.best, he] at hb
      · intro hs
        have := h2.b0.mem
        rw [hs] at this
        cases this
    · intro b hb
      have hb : e.1.value = b := by simpa [Filter.best, he] using hb
      obtain ⟨n, o, hh, hn⟩ := h2.b0
      rw [hb] at hn
      refine ⟨n, o, e.1.time, by rw [hh, ← hb], hn, e.2.1.value, e.2.2.value, by simp [Filter.second, he], by simp [Filter.third, he],
        by rw [← hb]; exact h2.v01, h2.v12, ⟨_, h2.b1.mem⟩, ⟨_, h2.b2.mem⟩⟩

/-- The estimate is never smaller than the newest sample and its sample is never older than
the window. -/
theorem fresh [BEq T] {gt : T → T → Bool} (ho : Order gt) (win : Nat) (l : List (FOp T)) (v : FSample T) (h : InTime (.update v :: l)) :
    ∃ f b t, feed gt win (.update v :: l) = some f ∧ f.best = some b ∧ gt v.value b = false ∧ ⟨b, t⟩ ∈ since (.update v :: l)
      ∧ v.time - t ≤ win := by
  obtain ⟨f, h1, h2, h3⟩ := feed_good ho win l h.2
  obtain ⟨f', g1, g2, g3, e, he, hw⟩ := update_good ho _ f v h2 h.1
  unfold Good at g2
  rw [he] at g2
  dsimp only at g2
  refine ⟨f', e.1.value, e.1.time, by rw [feed, h1]; exact g1, by simp [Filter.best, he], ?_, g2.b0.mem, by rw [← h3]; exact hw⟩
  obtain ⟨n, o, hh, hn⟩ := g2.b0
  cases n with
  | nil =>
    rw [List.nil_append, List.cons.injEq] at hh
    rw [hh.1]; exact ho.irrefl _
  | cons a n =>
    rw [List.cons_append, List.cons.injEq] at hh
    have := hn a (by simp)
    rw [← hh.1] at this
    exact this

/-- Numbers. -/
theorem order_nat : Order (T := Nat) (fun a b => decide (a > b)) :=
  ⟨by simp, by intro a b c h1 h2; simp at *; omega⟩

/-- A larger sample is kept until it leaves the window. -/
example : (feed (fun a b : Nat => decide (a > b)) 10 [.update ⟨20, 10⟩, .update ⟨30, 5⟩, .update ⟨50, 0⟩]).bind Filter.best = some 50
    ∧ (feed (fun a b : Nat => decide (a > b)) 10 [.update ⟨10, 11⟩, .update ⟨20, 10⟩, .update ⟨30, 5⟩, .update ⟨50, 0⟩]).bind Filter.best = some 30
    ∧ (feed (fun a b : Nat => decide (a > b)) 10 [.update ⟨10, 30⟩, .update ⟨20, 10⟩, .update ⟨30, 5⟩, .update ⟨50, 0⟩]).bind Filter.best = some 10 := by
  decide

/-- Without the order of time there is a panic. -/
example : (feed (fun a b : Nat => decide (a > b)) 10 [.update ⟨10, 3⟩, .update ⟨50, 5⟩]).isNone = true := by decide

end Verif.Props.C137
