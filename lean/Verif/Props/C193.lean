import Verif.Rand.Model

/-!
C193: random numbers below a bound are uniform, and so are what is made of them: the distances
between packet numbers left out, and reserved HTTP/3 identifiers. Of the latter, one that
could be encoded is never drawn.
-/

namespace Verif.Props.C193
open Verif Verif.Rand

theorem chunk_pos {max : Nat} (h0 : 0 < max) (hm : max ≤ wordMax) : 0 < chunk max := Nat.div_pos hm h0

theorem end_le (max : Nat) : lastEnd max ≤ wordMax := Nat.div_mul_le_self _ _

theorem loop_spec {max : Nat} {l rest : List Nat} {v : Nat} (h : loop max l = some (v, rest)) :
    ∃ pre r, l = pre ++ r :: rest ∧ (∀ x ∈ pre, lastEnd max ≤ x) ∧ r < lastEnd max ∧ v = r / chunk max := by
  induction l with
  | nil => cases h
  | cons r l ih =>
    unfold loop at h
    split at h
    · rename_i hr
      obtain ⟨pre, x, e, h1, h2, h3⟩ := ih h
      refine ⟨r :: pre, x, by rw [e]; rfl, ?_, h2, h3⟩
      intro y hy
      rcases List.mem_cons.mp hy with hy | hy
      · rw [hy]; exact hr
      · exact h1 y hy
    · rename_i hr
      obtain ⟨e1, e2⟩ := Prod.mk.inj (Option.some.inj h)
      exact ⟨[], r, by rw [e2, List.nil_append], (fun x hx => (nomatch hx)), by omega, e1.symm⟩

/-- The number is below the bound. -/
theorem below (max : Nat) (draws rest : List Nat) (v : Nat) (h : uniform max draws = .ok (some (v, rest))) : v < max := by
  unfold uniform at h
  split at h
  · cases h
  · have h : loop max draws = some (v, rest) := by injection h
    obtain ⟨_, r, _, _, hr, hv⟩ := loop_spec h
    rw [hv]
    exact Nat.div_lt_of_lt_mul hr

theorem countP_from (n a : Nat) (ha : a ≤ n) : (List.range n).countP (fun r => decide (a ≤ r)) = n - a := by
  induction n with
  | zero => simp
  | succ m ih =>
    rw [List.range_succ, List.countP_append, List.countP_singleton]
    by_cases ham : a ≤ m
    · rw [ih ham, if_pos (by simp; omega)]
      omega
    · have e : (List.range m).countP (fun r => decide (a ≤ r)) = 0 := by
        rw [List.countP_eq_zero]
        intro x hx
        have := List.mem_range.mp hx
        simp
        omega
      rw [e, if_neg (by simp; omega)]
      omega

theorem countP_range_shift (n a b : Nat) (hab : a ≤ b) (hb : b ≤ n) : (List.range n).countP (fun r => decide (a ≤ r ∧ r < b)) = b - a := by
  induction n with
  | zero =>
    have : b - a = 0 := by omega
    rw [this]
    rfl
  | succ n ih =>
    by_cases hbn : b ≤ n
    · rw [List.range_succ, List.countP_append, List.countP_singleton, ih hbn, if_neg (by simp; omega)]
      omega
    · have hbn : b = n + 1 := by omega
      have hc : (List.range (n + 1)).countP (fun r => decide (a ≤ r ∧ r < b)) = (List.range (n + 1)).countP (fun r => decide (a ≤ r)) := by
        apply List.countP_congr
        intro x hx
        have := List.mem_range.mp hx
        simp
        omega
      rw [hc, countP_from _ _ (by omega), hbn]

theorem one_word {max v r : Nat} (h0 : 0 < max) (hm : max ≤ wordMax) (hv : v < max) :
    uniform max [r] = .ok (some (v, [])) ↔ v * chunk max ≤ r ∧ r < v * chunk max + chunk max := by
  have hc := chunk_pos h0 hm
  unfold uniform
  rw [if_neg (by omega)]
  unfold loop
  have hle : v * chunk max + chunk max ≤ lastEnd max := by
    unfold lastEnd
    rw [← Nat.succ_mul, Nat.mul_comm]
    exact Nat.mul_le_mul_left _ hv
  constructor
  · intro h
    split at h
    · cases h
    · have h : r / chunk max = v := by
        injection h with h
        injection h with h
        exact (Prod.mk.inj h).1
      have h1 := Nat.div_add_mod r (chunk max)
      have h2 := Nat.mod_lt r hc
      rw [h, Nat.mul_comm] at h1
      omega
  · rintro ⟨h1, h2⟩
    rw [if_neg (by omega)]
    have : r / chunk max = v := by
      apply Nat.div_eq_of_lt_le
      · exact h1
      · rw [Nat.succ_mul]; exact h2
    rw [this]

/-- Every number below the bound is given by equally many words. -/
theorem even (max v : Nat) (h0 : 0 < max) (hm : max ≤ wordMax) (hv : v < max) (N : Nat) (hN : N = 2 ^ 64) :
    (List.range N).countP (fun r => decide (uniform max [r] = .ok (some (v, [])))) = (2 ^ 64 - 1) / max := by
  have e : (List.range N).countP (fun r => decide (uniform max [r] = .ok (some (v, [])))) =
      (List.range N).countP (fun r => decide (v * chunk max ≤ r ∧ r < v * chunk max + chunk max)) := by
    apply List.countP_congr
    intro r _
    simp only [decide_eq_true_eq]
    exact one_word h0 hm hv
  have hle : v * chunk max + chunk max ≤ lastEnd max := by
    unfold lastEnd
    rw [← Nat.succ_mul, Nat.mul_comm]
    exact Nat.mul_le_mul_left _ hv
  have := end_le max
  rw [e, countP_range_shift N _ _ (by omega) (by rw [hN]; have : lastEnd max ≤ 2 ^ 64 - 1 := this; omega)]
  show _ = chunk max
  omega

/-- At most half of the words are rejected. -/
theorem accepted (max : Nat) (h0 : 0 < max) (hm : max ≤ wordMax) (N : Nat) (hN : N = 2 ^ 64) :
    (List.range N).countP (fun r => decide (uniform max [r] = .ok none)) ≤ 2 ^ 63 := by
  have e : (List.range N).countP (fun r => decide (uniform max [r] = .ok none)) =
      (List.range N).countP (fun r => decide (lastEnd max ≤ r ∧ r < N)) := by
    apply List.countP_congr
    intro r hr
    have := List.mem_range.mp hr
    simp only [decide_eq_true_eq]
    unfold uniform
    rw [if_neg (by omega)]
    unfold loop
    constructor
    · intro h
      split at h
      · rename_i hx; exact ⟨hx, this⟩
      · cases h
    · rintro ⟨h1, _⟩
      rw [if_pos h1]
      rfl
  have hend := end_le max
  have hend : lastEnd max ≤ 2 ^ 64 - 1 := hend
  rw [e, countP_range_shift N _ _ (by omega) (Nat.le_refl _), hN]
  have hge : 2 ^ 63 ≤ lastEnd max := by
    have h1 : max * (wordMax / max) + wordMax % max = wordMax := Nat.div_add_mod _ _
    have h2 := Nat.mod_lt wordMax h0
    have h3 : lastEnd max = max * (wordMax / max) := Nat.mul_comm _ _
    have h4 : max ≤ lastEnd max := by
      rw [h3]
      exact Nat.le_mul_of_pos_right _ (Nat.div_pos hm h0)
    have h1 : lastEnd max + wordMax % max = 2 ^ 64 - 1 := by rw [h3]; exact h1
    omega
  omega

/-- As soon as one word is accepted, there is a number. -/
theorem ends (max : Nat) (draws : List Nat) (r : Nat) (h0 : 0 < max) (hr : r ∈ draws) (ha : uniform max [r] ≠ .ok none) :
    ∃ v rest, uniform max draws = .ok (some (v, rest)) := by
  unfold uniform at ha ⊢
  rw [if_neg (by omega)] at ha ⊢
  have hlt : r < lastEnd max := by
    apply Nat.lt_of_not_le
    intro h
    apply ha
    unfold loop
    rw [if_pos h]
    rfl
  suffices ∃ v rest, loop max draws = some (v, rest) by
    obtain ⟨v, rest, h⟩ := this
    exact ⟨v, rest, by rw [h]⟩
  clear ha
  induction draws with
  | nil => cases hr
  | cons x l ih =>
    unfold loop
    split
    · rename_i hx
      rcases List.mem_cons.mp hr with h | h
      · omega
      · exact ih h
    · exact ⟨_, _, rfl⟩

/-- The words of two numbers exchanged. -/
def flip (max v w r : Nat) : Nat :=
  if r < lastEnd max ∧ r / chunk max = v then r % chunk max + w * chunk max
  else if r < lastEnd max ∧ r / chunk max = w then r % chunk max + v * chunk max
  else r

/-- Two numbers exchanged. -/
def swap (v w x : Nat) : Nat := if x = v then w else if x = w then v else x

theorem flip_one {max v w r : Nat} (h0 : 0 < max) (hm : max ≤ wordMax) (hv : v < max) (hw : w < max) :
    (r < lastEnd max ↔ flip max v w r < lastEnd max) ∧ (r < lastEnd max → flip max v w r / chunk max = swap v w (r / chunk max)) ∧
    flip max v w (flip max v w r) = r := by
  have hc := chunk_pos h0 hm
  have put : ∀ a, a < max → r % chunk max + a * chunk max < lastEnd max ∧ (r % chunk max + a * chunk max) / chunk max = a ∧
      (r % chunk max + a * chunk max) % chunk max = r % chunk max := by
    intro a ha
    have h1 := Nat.mod_lt r hc
    have hle : a * chunk max + chunk max ≤ lastEnd max := by
      unfold lastEnd
      rw [← Nat.succ_mul, Nat.mul_comm]
      exact Nat.mul_le_mul_left _ ha
    refine ⟨by omega, ?_, ?_⟩
    · rw [Nat.add_mul_div_right _ _ hc, Nat.div_eq_of_lt h1, Nat.zero_add]
    · rw [Nat.add_mul_mod_self_right, Nat.mod_mod]
  have back : ∀ a, r / chunk max = a → r % chunk max + a * chunk max = r := by
    intro a ha
    have := Nat.div_add_mod r (chunk max)
    rw [ha, Nat.mul_comm] at this
    omega
  by_cases h1 : r < lastEnd max ∧ r / chunk max = v
  · have e : flip max v w r = r % chunk max + w * chunk max := if_pos h1
    obtain ⟨p1, p2, p3⟩ := put w hw
    rw [e]
    refine ⟨⟨fun _ => p1, fun _ => h1.1⟩, fun _ => ?_, ?_⟩
    · rw [p2, h1.2]; unfold swap; rw [if_pos rfl]
    · unfold flip
      rw [p2, p3]
      by_cases hvw : w = v
      · rw [if_pos ⟨p1, hvw⟩, hvw]
        exact back v h1.2
      · rw [if_neg (by simp [hvw]), if_pos ⟨p1, rfl⟩]
        exact back v h1.2
  · by_cases h2 : r < lastEnd max ∧ r / chunk max = w
    · have e : flip max v w r = r % chunk max + v * chunk max := by unfold flip; rw [if_neg h1, if_pos h2]
      obtain ⟨p1, p2, p3⟩ := put v hv
      rw [e]
      refine ⟨⟨fun _ => p1, fun _ => h2.1⟩, fun _ => ?_, ?_⟩
      · rw [p2, h2.2]
        unfold swap
        have : w ≠ v := fun h => h1 ⟨h2.1, by rw [h2.2, h]⟩
        rw [if_neg this, if_pos rfl]
      · unfold flip
        rw [p2, p3, if_pos ⟨p1, rfl⟩]
        exact back w h2.2
    · have e : flip max v w r = r := by unfold flip; rw [if_neg h1, if_neg h2]
      rw [e]
      refine ⟨Iff.rfl, fun hr => ?_, e⟩
      unfold swap
      rw [if_neg (fun h => h1 ⟨hr, h⟩), if_neg (fun h => h2 ⟨hr, h⟩)]

/-- No number is preferred, however many words are drawn: exchanging words one to one exchanges
any two numbers and leaves the rest. -/
theorem exchange (max v w : Nat) (h0 : 0 < max) (hm : max ≤ wordMax) (hv : v < max) (hw : w < max) :
    ∃ f : Nat → Nat, (∀ r, f (f r) = r) ∧ (∀ r, r ≤ wordMax → f r ≤ wordMax) ∧
      ∀ draws, uniform max (draws.map f) = (uniform max draws).map fun o => o.map fun x => (swap v w x.1, x.2.map f) := by
  refine ⟨flip max v w, fun r => (flip_one h0 hm hv hw).2.2, fun r hr => ?_, fun draws => ?_⟩
  · by_cases h : r < lastEnd max
    · have := (flip_one (r := r) h0 hm hv hw).1.mp h
      have := end_le max
      omega
    · have : flip max v w r = r := by unfold flip; rw [if_neg (fun h' => h h'.1), if_neg (fun h' => h h'.1)]
      rw [this]
      exact hr
  · unfold uniform
    rw [if_neg (by omega), if_neg (by omega)]
    show _ = Except.ok _
    congr 1
    induction draws with
    | nil => rfl
    | cons r l ih =>
      obtain ⟨h1, h2, _⟩ := flip_one (r := r) h0 hm hv hw
      rw [List.map_cons]
      unfold loop
      by_cases hr : r < lastEnd max
      · have := h1.mp hr
        rw [if_neg (by omega), if_neg (by omega), h2 hr]
        rfl
      · have : ¬ flip max v w r < lastEnd max := fun h => hr (h1.mpr h)
        rw [if_pos (by omega), if_pos (by omega)]
        exact ih

/-- It panics for the bound 0 only. -/
theorem panics (max : Nat) (draws : List Nat) : uniform max draws = .error () ↔ max = 0 := by
  unfold uniform
  split
  · rename_i h; exact ⟨fun _ => h, fun _ => rfl⟩
  · rename_i h; exact ⟨fun h' => (nomatch h'), fun h' => absurd h' h⟩

theorem value_below {max v : Nat} {draws : List Nat} (h : value max draws = some v) : v < max := by
  unfold value at h
  split at h
  · rename_i x rest hu
    rw [← Option.some.inj h]
    exact below _ _ _ _ hu
  · cases h

/-- The distance to the next packet number left out: from 20 packets and half a window to 20
packets and two windows. -/
theorem distance (cwnd mds : Nat) (draws : List Nat) (d : Nat) (h : armed cwnd mds draws = some d) :
    20 + cwnd / mds / 2 ≤ d ∧ d ≤ 20 + cwnd / mds * 2 := by
  unfold armed Packet.armCounter at h
  split at h
  · cases h
  · have h : 20 + cwnd / mds / 2 + (value (cwnd / mds * 2 - cwnd / mds / 2 + 1) draws).getD 0 = d := Option.some.inj h
    cases hv : value (cwnd / mds * 2 - cwnd / mds / 2 + 1) draws with
    | none =>
      rw [hv, Option.getD_none] at h
      omega
    | some v =>
      rw [hv, Option.getD_some] at h
      have := value_below hv
      omega

/-- Each of these distances is drawn for some word. -/
theorem distance_all (cwnd mds d : Nat) (hm : 0 < mds) (hs : cwnd / mds * 2 < wordMax) (h1 : 20 + cwnd / mds / 2 ≤ d) (h2 : d ≤ 20 + cwnd / mds * 2) :
    ∃ r, r ≤ wordMax ∧ armed cwnd mds [r] = some d := by
  generalize hb : cwnd / mds * 2 - cwnd / mds / 2 + 1 = b
  have hb1 : b ≤ wordMax := by omega
  have hv : d - 20 - cwnd / mds / 2 < b := by omega
  have hr := (one_word (r := (d - 20 - cwnd / mds / 2) * chunk b) (by omega) hb1 hv).mpr ⟨Nat.le_refl _, by have := chunk_pos (by omega) hb1; omega⟩
  refine ⟨(d - 20 - cwnd / mds / 2) * chunk b, ?_, ?_⟩
  · have h3 : (d - 20 - cwnd / mds / 2) * chunk b ≤ lastEnd b := by
      unfold lastEnd
      rw [Nat.mul_comm]
      exact Nat.mul_le_mul_left _ (by omega)
    exact Nat.le_trans h3 (end_le b)
  · unfold armed Packet.armCounter
    rw [if_neg (by omega)]
    show some (20 + cwnd / mds / 2 + (value (cwnd / mds * 2 - cwnd / mds / 2 + 1) _).getD 0) = some d
    unfold value
    rw [hb, hr]
    show some (20 + cwnd / mds / 2 + (d - 20 - cwnd / mds / 2)) = some d
    congr 1
    omega

/-- An HTTP/3 identifier that is reserved (RFC 9114, 7.2.8) and can be encoded. -/
def Reserved (x : Nat) : Prop := x < 2 ^ 62 ∧ ∃ n, x = 0x1f * n + 0x21

/-- Only such are drawn. -/
theorem grease_reserved (draws : List Nat) (x : Nat) (h : grease draws = some x) : Reserved x := by
  obtain ⟨v, hv, h⟩ := Option.map_eq_some_iff.mp h
  have hv : v < 148764065110560899 := value_below hv
  have h : 31 * v + 33 = x := h
  exact ⟨by omega, v, h.symm⟩

/-- All but the largest are. -/
theorem grease_all_partial (x : Nat) (h : Reserved x) (hl : x + 0x1f < 2 ^ 62) : ∃ r, r ≤ wordMax ∧ grease [r] = some x := by
  obtain ⟨_, n, hn⟩ := h
  have hv : n < H3.greaseBound := by show n < 148764065110560899; omega
  have h0 : 0 < H3.greaseBound := by decide
  have hm : H3.greaseBound ≤ wordMax := by decide
  have hr := (one_word (r := n * chunk H3.greaseBound) h0 hm hv).mpr ⟨Nat.le_refl _, by have := chunk_pos h0 hm; omega⟩
  refine ⟨n * chunk H3.greaseBound, ?_, ?_⟩
  · have h3 : n * chunk H3.greaseBound ≤ lastEnd H3.greaseBound := by
      unfold lastEnd
      rw [Nat.mul_comm]
      exact Nat.mul_le_mul_left _ (by omega)
    exact Nat.le_trans h3 (end_le _)
  · unfold grease value
    rw [hr]
    show some (31 * n + 33) = some x
    rw [hn]

/-- The largest is not. -/
theorem grease_all_false : ¬ ∀ x, Reserved x → ∃ draws, grease draws = some x := by
  intro h
  obtain ⟨draws, hd⟩ := h (31 * 148764065110560899 + 33) ⟨by decide, _, rfl⟩
  obtain ⟨v, hv, h⟩ := Option.map_eq_some_iff.mp hd
  have hv : v < 148764065110560899 := value_below hv
  have h : 31 * v + 33 = 31 * 148764065110560899 + 33 := h
  omega

/-- For the bound 6 only the words from 2^64 - 4 on are rejected. -/
example : uniform 6 [2 ^ 64 - 1, 2 ^ 64 - 4, 2 ^ 64 - 5, 7] = .ok (some (5, [7])) ∧ uniform 6 [0] = .ok (some (0, [])) ∧
    uniform 6 [2 ^ 63 - 3, 1] = .ok (some (2, [1])) ∧ uniform 0 [1] = .error () ∧
    armed 13500 1350 [2 ^ 63] = some 33 ∧ grease [0] = some 33 := by decide +kernel

end Verif.Props.C193
