import Verif.Props.C119

/-!
# C120: Old keys are not accepted above new ones

A packet with a higher number than one protected with newer keys must not be protected with older
keys; to accept such a packet is a connection error (RFC 9001 6.4). Packets protected with the old key
are compared only with the number of the packet that started the update, not with the lowest number
of its generation, so that the claim is false (`claim_false`); it holds for the former (`first_partial`).
-/

namespace Verif.Props.C120
open Verif Verif.Packet Verif.Packet.Keys

/-- What ought to hold: nothing accepted is protected with older keys than a packet with a lower
number that was accepted before. -/
def Claim : Prop := ∀ (y : Y) (l : List Act), y.Initial → ∀ l1 p l2 q l3 a b,
  (y.run l).accepted = l1 ++ p :: (l2 ++ q :: l3) → p.gen = some a → q.gen = some b → p.pn < q.pn → a ≤ b

/-- Packet 10 starts an update, 8 is protected with the new keys, and 9 with the old ones. -/
def acts : List Act := [.complete, .recv { gen := some 1, pn := 10, phase := true } 60,
  .recv { gen := some 1, pn := 8, phase := true } 60, .recv { gen := some 0, pn := 9, phase := false } 60]

theorem claim_false : ¬ Claim := by
  intro h
  have := h C119.server acts ⟨rfl, rfl, rfl, rfl⟩ [{ gen := some 1, pn := 10, phase := true }]
    { gen := some 1, pn := 8, phase := true } [] { gen := some 0, pn := 9, phase := false } [] 1 0 (by decide +kernel) rfl rfl
    (by decide)
  omega

/-- The packet that brought the present keys. -/
structure Inv (y : Y) : Prop where
  pn : ∀ u, y.k.prev = some u → ∃ l1 p l2, y.accepted = l1 ++ p :: l2 ∧ p.gen = some y.k.openGen ∧
    p.pn = u.pnOnUpdate ∧ ∀ x ∈ l1, x.gen ≠ some y.k.openGen
  le : ∀ p ∈ y.accepted, ∃ g, p.gen = some g ∧ g ≤ y.k.openGen
  ok : ∀ l1 p l2 q a b, y.accepted = l1 ++ p :: l2 → q ∈ l2 → p.gen = some a → (∀ x ∈ l1, x.gen ≠ some a) →
    q.gen = some b → b < a → q.pn < p.pn

/-- The first element with a property is unique. -/
theorem first_unique {α : Type} {f : α → Prop} {l1 l2 k1 k2 : List α} {p q : α} (h : l1 ++ p :: l2 = k1 ++ q :: k2)
    (hp : f p) (hq : f q) (h1 : ∀ x ∈ l1, ¬ f x) (h2 : ∀ x ∈ k1, ¬ f x) : p = q := by
  induction l1 generalizing k1 with
  | nil =>
    cases k1 with
    | nil => simp at h; exact h.1
    | cons c t => simp at h; rw [h.1] at hp; exact absurd hp (h2 c (by simp))
  | cons b t ih =>
    cases k1 with
    | nil => simp at h; rw [h.1] at h1; exact absurd hq (h1 q (by simp))
    | cons c t' =>
      simp only [List.cons_append, List.cons.injEq] at h
      exact ih h.2 (fun x hx => h1 x (by simp [hx])) (fun x hx => h2 x (by simp [hx]))

/-- How a list that was extended is split. -/
theorem split_concat {α : Type} {L l1 l2 : List α} {q p : α} (h : L ++ [q] = l1 ++ p :: l2) :
    (l2 = [] ∧ p = q ∧ L = l1) ∨ ∃ l, l2 = l ++ [q] ∧ L = l1 ++ p :: l := by
  rcases List.eq_nil_or_concat l2 with rfl | ⟨l, x, rfl⟩
  · left
    have := List.append_inj' h rfl
    simp at this; exact ⟨rfl, this.2.symm, this.1⟩
  · right
    have h' : L ++ [q] = (l1 ++ p :: l) ++ [x] := by rw [h]; simp
    have := List.append_inj' h' rfl
    simp only [List.cons.injEq, and_true] at this
    exact ⟨l, by rw [this.2]; simp, this.1⟩

theorem inv_step {y : Y} (h0 : C119.Inv y) (h : Inv y) (a : Act) : Inv (y.step a) := by
  cases a with
  | recv p t =>
    rcases C119.recv_cases y p t with ⟨e, -⟩ | ⟨-, e, -⟩ | ⟨-, g, new, k', hs, hg, hk, hnew, e⟩
    · rw [e]; exact h
    · rw [e]; exact ⟨h.pn, h.le, h.ok⟩
    · have hopen : k'.openGen = if new then y.k.openGen + 1 else y.k.openGen := by
        subst hk; split <;> rfl
      -- the keys used, if not new
      have hold : new = false → g = y.k.openGen ∨ ∃ u, y.k.prev = some u ∧ g = u.gen ∧ p.pn < u.pnOnUpdate := by
        rintro rfl
        unfold K.select at hs
        split at hs
        · split at hs
          · rename_i u hu
            split at hs
            · simp only [Prod.mk.injEq] at hs
              exact .inr ⟨u, hu, hs.1.symm, by assumption⟩
            · simp at hs
          · simp at hs
        · simp only [Prod.mk.injEq] at hs; exact .inl hs.1.symm
      have hgle : g ≤ k'.openGen := by
        rw [hopen]
        cases new with
        | true => rw [if_pos rfl, hnew rfl]; omega
        | false =>
          rw [if_neg (by simp)]
          rcases hold rfl with h1 | ⟨u, hu, h1, -⟩
          · omega
          · have := h0.prev u hu; omega
      rw [e]
      refine ⟨?_, ?_, ?_⟩
      · intro u hu
        cases new with
        | false =>
          simp only [Bool.false_eq_true, if_false] at hk
          subst hk
          obtain ⟨l1, p1, l2, h1, h2⟩ := h.pn u hu
          exact ⟨l1, p1, l2 ++ [p], by simp only [h1]; simp, h2⟩
        | true =>
          simp only [if_true] at hk hopen
          subst hk
          simp only [K.update, Option.some.injEq] at hu
          subst hu
          refine ⟨y.accepted, p, [], rfl, by rw [hg, hnew rfl]; rfl, rfl, fun x hx he => ?_⟩
          obtain ⟨g', h1, h2⟩ := h.le x hx
          rw [h1] at he
          simp only [K.update, Option.some.injEq] at he
          omega
      · intro q hq
        rcases List.mem_append.mp hq with hq | hq
        · obtain ⟨g', h1, h2⟩ := h.le q hq
          refine ⟨g', h1, Nat.le_trans h2 ?_⟩
          simp only [hopen]; split <;> omega
        · simp only [List.mem_singleton] at hq; subst hq; exact ⟨g, hg, hgle⟩
      · intro l1 p1 l2 q a b hsp hq ha h1 hb hba
        rcases split_concat hsp with ⟨rfl, -, -⟩ | ⟨l, rfl, hL⟩
        · simp at hq
        · rcases List.mem_append.mp hq with hq | hq
          · exact h.ok l1 p1 l q a b hL hq ha h1 hb hba
          · simp only [List.mem_singleton] at hq
            subst hq
            rw [hg] at hb
            simp only [Option.some.injEq] at hb
            subst hb
            obtain ⟨a', ha', hale⟩ := h.le p1 (by rw [hL]; simp)
            rw [ha] at ha'
            simp only [Option.some.injEq] at ha'
            subst ha'
            cases new with
            | true => have := hnew rfl; omega
            | false =>
              rcases hold rfl with h3 | ⟨u, hu, h3, h4⟩
              · omega
              · have := h0.prev u hu
                have hao : a = y.k.openGen := by omega
                obtain ⟨m1, p2, m2, e1, e2, e3, e4⟩ := h.pn u hu
                have : p1 = p2 := first_unique (f := fun x : Pkt => x.gen = some y.k.openGen) (hL.symm.trans e1)
                  (by rw [ha, hao]) e2 (fun x hx => by rw [← hao]; exact h1 x hx) e4
                rw [this, e3]; exact h4
  | send s ack =>
    simp only [Y.step]
    split
    · exact h
    · refine ⟨fun u hu => ?_, h.le, h.ok⟩
      simp only [K.send, Option.map_eq_some_iff] at hu
      obtain ⟨v, hv, rfl⟩ := hu
      exact h.pn v hv
  | timeout now =>
    have hk : y.k.timeout now = y.k ∨ y.k.timeout now = { y.k with prev := none } := by
      unfold K.timeout; split
      · exact .inl rfl
      · split
        · exact .inr rfl
        · exact .inl rfl
    rcases hk with hk | hk <;> simp only [Y.step, hk]
    · exact h
    · exact ⟨(fun u hu => by simp at hu), h.le, h.ok⟩
  | complete => exact ⟨h.pn, h.le, h.ok⟩

theorem inv_run (l : List Act) : ∀ {y : Y}, C119.Inv y → Inv y → Inv (y.run l) := by
  induction l with
  | nil => intro y _ h; exact h
  | cons a t ih => intro y h0 h; exact ih (C119.inv_step h0 a) (inv_step h0 h a)

/-- A packet protected with older keys than those of the packet that started an update, and accepted
after it, has a lower number. -/
theorem first_partial {y : Y} (h : y.Initial) (l : List Act) (l1 l2 : List Pkt) (p q : Pkt) (a b : Nat)
    (hs : (y.run l).accepted = l1 ++ p :: l2) (hq : q ∈ l2) (ha : p.gen = some a)
    (hfirst : ∀ x ∈ l1, x.gen ≠ some a) (hb : q.gen = some b) (hba : b < a) : q.pn < p.pn := by
  refine (inv_run l (C119.Initial.inv h) ⟨fun u hu => ?_, fun p hp => ?_, fun l1 p l2 q a b hs => ?_⟩).ok l1 p l2 q a b hs
    hq ha hfirst hb hba
  · rw [h.k] at hu; simp at hu
  · rw [h.accepted] at hp; simp at hp
  · rw [h.accepted] at hs; simp at hs

/-! ### Concrete cases -/

example : (C119.server.run acts).accepted.map (·.pn) = [10, 8, 9] := by decide +kernel
example : (C119.server.run acts).failed = false := by decide +kernel
/-- A packet with the old keys above 10 is not opened. -/
example : (C119.server.run (acts ++ [.recv { gen := some 0, pn := 11, phase := false } 60])).accepted.map (·.pn) =
    [10, 8, 9] := by decide +kernel
/-- An update may even start below packets of the old keys. -/
example : (C119.server.run [.complete, .recv { gen := some 0, pn := 20, phase := false } 60,
    .recv { gen := some 1, pn := 10, phase := true } 60]).accepted.map (·.pn) = [20, 10] := by decide +kernel

end Verif.Props.C120
