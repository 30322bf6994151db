import Verif.Packet.PnManager

/-! Packet number bookkeeping: the invariant. -/

namespace Verif.Packet
open Verif

structure PnInv (s : PnState) : Prop where
  dec : s.sent.Pairwise (fun a b => b.2 < a.2)
  bound : ∀ x ∈ s.sent, x.2 < s.next
  skip : ∀ k, s.skip = some k → k < s.next ∧ ∀ x ∈ s.sent, x.2 ≠ k
  ackedSent : ∀ p e a, s.acked p e = some a → (e, a) ∈ s.sent
  ackedSkip : ∀ k p e a, s.skip = some k → s.acked p e = some a → a < k
  largest : ∀ e l, s.largestTx e = some l → (e, l) ∈ s.sent ∧ ∀ x ∈ s.sent, x.1 = e → x.2 ≤ l
  nothing : ∀ e, s.largestTx e = none → ∀ x ∈ s.sent, x.1 ≠ e
  counter : s.skip.isSome → s.counter = none

theorem PnInv.init : PnInv {} := by
  constructor <;> simp

/-- Only the counter differs. -/
theorem PnInv.setCounter {s : PnState} (h : PnInv s) (c : Option Nat) (hc : s.skip.isSome → c = none) :
    PnInv { s with counter := c } :=
  ⟨h.dec, h.bound, h.skip, h.ackedSent, h.ackedSkip, h.largest, h.nothing, hc⟩

theorem PnInv.clearSkip {s : PnState} (h : PnInv s) : PnInv { s with skip := none, counter := none } :=
  ⟨h.dec, h.bound, by simp, h.ackedSent, by simp, h.largest, h.nothing, by simp⟩

theorem pick_spec {s : PnState} (h : PnInv s) (completed : Bool) :
    ∃ pn s', s.pick completed = some (pn, s') ∧ pn = s'.next ∧ PnInv s' ∧ s.next ≤ s'.next ∧ s'.sent = s.sent ∧
      s'.largestTx = s.largestTx ∧ s'.acked = s.acked ∧
      ((s' = s) ∨ (s.skip = none ∧ s'.skip = some s.next ∧ s'.next = s.next + 1 ∧ s.counter = some 0 ∧ completed)) := by
  unfold PnState.pick
  by_cases hs : s.shouldSkip completed
  · rw [if_pos hs]
    unfold PnState.shouldSkip at hs
    simp only [Bool.and_eq_true, beq_iff_eq, Option.isNone_iff_eq_none] at hs
    obtain ⟨⟨hc, hk⟩, hcomp⟩ := hs
    have : s.setSkip (some s.next) = some { s with skip := some s.next, counter := none } := by
      unfold PnState.setSkip; simp [hc, hk]
    rw [this]
    refine ⟨_, _, rfl, rfl, ⟨h.dec, ?_, ?_, h.ackedSent, ?_, h.largest, h.nothing, by simp⟩, by simp, rfl, rfl, rfl,
      .inr ⟨hk, rfl, rfl, hc, hcomp⟩⟩
    · intro x hx; have := h.bound x hx; simp only; omega
    · intro k hk; cases hk; exact ⟨by simp, fun x hx => by have := h.bound x hx; omega⟩
    · intro k p e a hk ha; cases hk; exact h.bound _ (h.ackedSent p e a ha)
  · rw [if_neg hs]
    exact ⟨_, _, rfl, rfl, h, Nat.le_refl _, rfl, rfl, rfl, .inl rfl⟩

theorem onSent_spec {s : PnState} (h : PnInv s) (cwnd mds : Nat) (completed : Bool) (rnd : Nat → Nat) (hm : 0 < mds) :
    ∃ c, s.onSent cwnd mds completed rnd = some { s with counter := c } ∧ PnInv { s with counter := c } := by
  unfold PnState.onSent
  cases hc : s.counter with
  | some c =>
    refine ⟨_, rfl, h.setCounter _ fun hk => ?_⟩
    have := h.counter hk
    rw [hc] at this; cases this
  | none =>
    simp only
    by_cases hs : s.skip.isNone && completed
    · rw [if_pos hs]
      have e : ∃ c, armCounter cwnd mds rnd = some c := by
        unfold armCounter; rw [if_neg (by omega)]; exact ⟨_, rfl⟩
      obtain ⟨c, e⟩ := e
      rw [e]
      refine ⟨_, rfl, h.setCounter _ fun hk => ?_⟩
      simp only [Bool.and_eq_true, Option.isNone_iff_eq_none] at hs
      rw [hs.1] at hk; cases hk
    · rw [if_neg hs]
      exact ⟨none, by rw [← hc], by rw [← hc]; exact h⟩

/-- What sending does. -/
theorem send_spec {s : PnState} (h : PnInv s) (epoch cwnd mds : Nat) (completed : Bool) (rnd : Nat → Nat) (ok : Bool)
    (hm : 0 < mds) :
    ∃ s', s.send epoch cwnd mds completed rnd ok = some s' ∧ PnInv s' ∧ s.next ≤ s'.next ∧
      (s'.sent = s.sent ∨ ∃ pn, s.next ≤ pn ∧ s'.sent = (epoch, pn) :: s.sent ∧ s'.next = pn + 1) ∧
      (∀ k, s.skip = some k → s'.skip = some k) := by
  obtain ⟨pn, s1, e, hpn, hi, hle, hsent, hl, ha, hcase⟩ := pick_spec h completed
  have hkeep : ∀ k, s.skip = some k → s1.skip = some k := by
    intro k hk
    rcases hcase with rfl | ⟨h1, _⟩
    · exact hk
    · rw [hk] at h1; cases h1
  unfold PnState.send
  rw [e]
  simp only
  cases ok
  · exact ⟨s1, by simp, hi, hle, .inl hsent, hkeep⟩
  · rw [if_pos rfl]
    have hi2 : PnInv { s1 with
        next := s1.next + 1
        sent := (epoch, pn) :: s1.sent
        largestTx := fun e => if e = epoch then some (maxOpt (s1.largestTx e) pn) else s1.largestTx e } := by
      constructor
      · simp only [List.pairwise_cons]
        exact ⟨fun x hx => by have := hi.bound x hx; omega, hi.dec⟩
      · intro x hx
        rcases List.mem_cons.mp hx with rfl | hx
        · simp only; omega
        · have := hi.bound x hx; simp only; omega
      · intro k hk
        obtain ⟨h1, h2⟩ := hi.skip k hk
        refine ⟨by simp only; omega, fun x hx => ?_⟩
        rcases List.mem_cons.mp hx with rfl | hx
        · simp only; omega
        · exact h2 x hx
      · intro p e a h1
        exact List.mem_cons_of_mem _ (hi.ackedSent p e a h1)
      · exact hi.ackedSkip
      · intro e l hl1
        simp only at hl1
        by_cases he : e = epoch
        · rw [if_pos he] at hl1
          subst he
          cases hlt : s1.largestTx e with
          | none =>
            rw [hlt] at hl1; simp only [maxOpt, Option.some.injEq] at hl1; subst hl1
            refine ⟨List.mem_cons_self, fun x hx hxe => ?_⟩
            rcases List.mem_cons.mp hx with rfl | hx
            · exact Nat.le_refl _
            · exact absurd hxe (hi.nothing e hlt x hx)
          | some l0 =>
            rw [hlt] at hl1; simp only [maxOpt, Option.some.injEq] at hl1
            have hb := hi.largest e l0 hlt
            have hlb := hi.bound _ hb.1
            simp only at hlb
            have : l = pn := by omega
            subst this
            refine ⟨List.mem_cons_self, fun x hx hxe => ?_⟩
            rcases List.mem_cons.mp hx with rfl | hx
            · exact Nat.le_refl _
            · have := hi.bound x hx; omega
        · rw [if_neg he] at hl1
          obtain ⟨h1, h2⟩ := hi.largest e l hl1
          refine ⟨List.mem_cons_of_mem _ h1, fun x hx hxe => ?_⟩
          rcases List.mem_cons.mp hx with rfl | hx
          · exact absurd hxe.symm he
          · exact h2 x hx hxe
      · intro e hn
        simp only at hn
        by_cases he : e = epoch
        · rw [if_pos he] at hn; cases hn
        · rw [if_neg he] at hn
          intro x hx
          rcases List.mem_cons.mp hx with rfl | hx
          · exact fun h => he h.symm
          · exact hi.nothing e hn x hx
      · exact hi.counter
    obtain ⟨c, e2, hi3⟩ := onSent_spec hi2 cwnd mds completed rnd hm
    rw [e2]
    refine ⟨_, rfl, hi3, by simp only; omega, .inr ⟨pn, by omega, by simp only [hsent], by simp only; omega⟩, hkeep⟩

/-- What an accepted acknowledgement does on a path. -/
theorem ackPath_spec {s : PnState} (h : PnInv s) {epoch path : Nat} {ranges : List (Nat × Nat)} {record : List Nat}
    (hr : ranges ≠ []) :
    s.ackPath epoch ranges path record ≠ .error .panic ∧
    ∀ s', s.ackPath epoch ranges path record = .ok s' → PnInv s' ∧ s'.next = s.next ∧ s'.sent = s.sent ∧
      s'.largestTx = s.largestTx ∧
      (∀ k, s.skip = some k → covers ranges k = false ∧
        (s'.skip = some k ∨ s'.skip = none ∧ ∃ pn, k < pn ∧ (epoch, pn) ∈ s.sent ∧ covers ranges pn)) ∧
      (s.skip = none → s'.skip = none) := by
  unfold PnState.ackPath
  obtain ⟨l, hl⟩ : ∃ l, lastOf ranges = some l := by
    unfold lastOf
    cases hg : ranges.getLast? with
    | none => exact absurd (List.getLast?_eq_none_iff.mp hg) hr
    | some r => exact ⟨_, rfl⟩
  rw [hl]
  simp only
  split
  · exact ⟨by simp, by simp⟩
  split
  · exact ⟨by simp, by simp⟩
  next h1 h2 =>
  have hcov : ∀ k, s.skip = some k → covers ranges k = false := by
    intro k hk; unfold PnState.coversSkip at h2; rw [hk] at h2; simpa using h2
  have hset : ∀ t : PnState, t.setSkip none = some { t with skip := none, counter := none } := by
    intro t; unfold PnState.setSkip; simp
  generalize hfd : (record.filter fun pn => covers ranges pn && s.sent.contains (epoch, pn)) = found
  have hfound : ∀ m ∈ found, covers ranges m = true ∧ (epoch, m) ∈ s.sent := by
    intro m hm
    rw [← hfd] at hm
    simp only [List.mem_filter, Bool.and_eq_true, List.contains_iff_mem] at hm
    exact hm.2
  unfold PnState.record
  cases hf : found.getLast? with
  | none =>
    simp only
    -- nothing newly acknowledged: a stored larger acknowledgement is impossible
    have : s.validate epoch path = .ok s := by
      unfold PnState.validate
      split
      · next a k ha hk =>
        rw [if_neg (by have := h.ackedSkip k path epoch a hk ha; omega)]
      · rfl
    rw [this]
    refine ⟨by simp, fun s' hs' => ?_⟩
    cases hs'
    exact ⟨h, rfl, rfl, rfl, fun k hk => ⟨hcov k hk, .inl hk⟩, fun hk => hk⟩
  | some m =>
    obtain ⟨hmc, hms⟩ := hfound m (List.mem_of_getLast? hf)
    simp only
    have hack : ∀ p e a, (if p = path ∧ e = epoch then some (max ((s.acked p e).getD 0) m) else s.acked p e) = some a →
        (e, a) ∈ s.sent := by
      intro p e a ha
      by_cases hpe : p = path ∧ e = epoch
      · rw [if_pos hpe] at ha
        cases ha
        obtain ⟨rfl, rfl⟩ := hpe
        cases hac : s.acked p e with
        | none => simpa using hms
        | some a0 =>
          have := h.ackedSent _ _ _ hac
          simp only [Option.getD_some]
          rcases Nat.le_total a0 m with hh | hh
          · rw [Nat.max_eq_right hh]; exact hms
          · rw [Nat.max_eq_left hh]; exact this
      · rw [if_neg hpe] at ha; exact h.ackedSent p e a ha
    unfold PnState.validate
    simp only [and_self, if_true]
    cases hk : s.skip with
    | none =>
      simp only
      refine ⟨by simp, fun s' hs' => ?_⟩
      have hs' := Except.ok.inj hs'
      subst hs'
      refine ⟨⟨h.dec, h.bound, by simp, hack, by simp, h.largest, h.nothing, by simp⟩,
        rfl, rfl, rfl, by simp, fun _ => rfl⟩
    | some k =>
      simp only
      have hlt : ∀ a0, s.acked path epoch = some a0 → a0 < k := fun a0 ha => h.ackedSkip k path epoch a0 hk ha
      have hmk : m ≠ k := (h.skip k hk).2 _ hms
      by_cases hgt : max ((s.acked path epoch).getD 0) m > k
      · rw [if_pos hgt, hset]
        simp only
        refine ⟨by simp, fun s' hs' => ?_⟩
        have hs' := Except.ok.inj hs'
        subst hs'
        refine ⟨⟨h.dec, h.bound, by simp, hack, by simp, h.largest, h.nothing, by simp⟩, rfl, rfl, rfl, ?_, by simp⟩
        intro k' hk'
        cases hk'
        refine ⟨hcov k hk, .inr ⟨rfl, m, ?_, hms, hmc⟩⟩
        cases hac : s.acked path epoch with
        | none => rw [hac] at hgt; simp only [Option.getD_none] at hgt; omega
        | some a0 => rw [hac] at hgt; have := hlt a0 hac; simp only [Option.getD_some] at hgt; omega
      · rw [if_neg hgt]
        refine ⟨by simp, fun s' hs' => ?_⟩
        have hs' := Except.ok.inj hs'
        subst hs'
        refine ⟨⟨h.dec, h.bound, fun k' hk' => h.skip k' (by rw [hk]; exact hk'), hack, ?_, h.largest, h.nothing,
          fun _ => h.counter (by rw [hk]; rfl)⟩, rfl, rfl, rfl, ?_, ?_⟩
        · intro k' p e a hk' ha
          have hk2 : k = k' := Option.some.inj hk'
          subst hk2
          have hsent := hack p e a ha
          have hne := (h.skip k hk).2 _ hsent
          simp only at ha hne
          by_cases hpe : p = path ∧ e = epoch
          · rw [if_pos hpe] at ha
            obtain ⟨rfl, rfl⟩ := hpe
            have ha := Option.some.inj ha
            omega
          · rw [if_neg hpe] at ha; exact h.ackedSkip k p e a hk ha
        · intro k' hk'; cases hk'; exact ⟨hcov k hk, .inl rfl⟩
        · intro h0; cases h0

/-- What an accepted ACK frame does. -/
theorem ack_spec (epoch : Nat) (ranges : List (Nat × Nat)) (hr : ranges ≠ []) (paths : List (Nat × List Nat)) :
    ∀ s : PnState, PnInv s →
    s.ack epoch ranges paths ≠ .error .panic ∧
    ∀ s', s.ack epoch ranges paths = .ok s' → PnInv s' ∧ s'.next = s.next ∧ s'.sent = s.sent ∧
      s'.largestTx = s.largestTx ∧
      (∀ k, s.skip = some k → (paths ≠ [] → covers ranges k = false) ∧
        (s'.skip = some k ∨ s'.skip = none ∧ ∃ pn, k < pn ∧ (epoch, pn) ∈ s.sent ∧ covers ranges pn)) ∧
      (s.skip = none → s'.skip = none) := by
  induction paths with
  | nil =>
    intro s h
    unfold PnState.ack
    refine ⟨by simp, fun s' hs' => ?_⟩
    cases hs'
    exact ⟨h, rfl, rfl, rfl, fun k hk => ⟨by simp, .inl hk⟩, fun hk => hk⟩
  | cons x l ih =>
    intro s h
    obtain ⟨p, record⟩ := x
    unfold PnState.ack
    obtain ⟨hnp, hsp⟩ := ackPath_spec h (epoch := epoch) (path := p) (record := record) hr
    cases hc : s.ackPath epoch ranges p record with
    | error e =>
      rw [hc] at hnp
      simp only
      exact ⟨fun he => hnp (by rw [Except.error.inj he]), by simp⟩
    | ok s1 =>
      simp only
      obtain ⟨hi, hn, hs, hl, hk, hk0⟩ := hsp s1 hc
      obtain ⟨h1, h2⟩ := ih s1 hi
      refine ⟨h1, fun s' hs' => ?_⟩
      obtain ⟨hi', hn', hss', hl', hk', hk0'⟩ := h2 s' hs'
      refine ⟨hi', by rw [hn', hn], by rw [hss', hs], by rw [hl', hl], ?_, fun h0 => hk0' (hk0 h0)⟩
      intro k hkk
      obtain ⟨hcov, hcase⟩ := hk k hkk
      refine ⟨fun _ => hcov, ?_⟩
      rcases hcase with h3 | ⟨h3, h4⟩
      · rcases (hk' k h3).2 with h5 | ⟨h5, h6⟩
        · exact .inl h5
        · exact .inr ⟨h5, by rw [hs] at h6; exact h6⟩
      · exact .inr ⟨hk0' h3, h4⟩

/-- Steps whose inputs can occur: a positive datagram size, ACK frames with at least one
range (the parser guarantees this). -/
def PnOp.Ok : PnOp → Prop
  | .send _ _ mds _ _ _ => 0 < mds
  | .ack _ ranges _ => ranges ≠ []

theorem step_inv {s : PnState} (h : PnInv s) (op : PnOp) (hok : op.Ok) :
    ∃ s', s.step op = some s' ∧ PnInv s' ∧ s.next ≤ s'.next ∧ ∃ l, s'.sent = l ++ s.sent ∧ ∀ x ∈ l, s.next ≤ x.2 := by
  cases op with
  | send e c m k r ok =>
    obtain ⟨s', e1, hi, hn, hs, _⟩ := send_spec h e c m k r ok hok
    refine ⟨s', e1, hi, hn, ?_⟩
    rcases hs with hs | ⟨pn, hpn, hs, _⟩
    · exact ⟨[], by simpa using hs, by simp⟩
    · exact ⟨[(e, pn)], by simpa using hs, by simpa using hpn⟩
  | ack e r p =>
    obtain ⟨h1, h2⟩ := ack_spec e r hok p s h
    have hst : s.step (.ack e r p) = match s.ack e r p with
      | .ok s => some s
      | .error .panic => none
      | .error _ => some s := rfl
    rw [hst]
    cases hc : s.ack e r p with
    | error er =>
      rw [hc] at h1
      cases er with
      | panic => exact absurd rfl h1
      | _ => exact ⟨s, rfl, h, Nat.le_refl _, [], by simp, by simp⟩
    | ok s' =>
      obtain ⟨hi, hn, hs, _⟩ := h2 s' hc
      exact ⟨s', rfl, hi, by omega, [], by simpa using hs, by simp⟩

theorem run_inv (ops : List PnOp) (hok : ∀ op ∈ ops, op.Ok) : ∀ s : PnState, PnInv s →
    ∃ s', s.run ops = some s' ∧ PnInv s' ∧ s.next ≤ s'.next ∧ ∃ l, s'.sent = l ++ s.sent ∧ ∀ x ∈ l, s.next ≤ x.2 := by
  induction ops with
  | nil => intro s h; exact ⟨s, rfl, h, Nat.le_refl _, [], by simp, by simp⟩
  | cons op t ih =>
    intro s h
    obtain ⟨s1, e1, h1, n1, l1, hl1, hb1⟩ := step_inv h op (hok op (by simp))
    obtain ⟨s2, e2, h2, n2, l2, hl2, hb2⟩ := ih (fun o ho => hok o (by simp [ho])) s1 h1
    refine ⟨s2, ?_, h2, by omega, l2 ++ l1, by rw [hl2, hl1, List.append_assoc], ?_⟩
    · unfold PnState.run; rw [e1]; exact e2
    · intro x hx
      rcases List.mem_append.mp hx with hx | hx
      · have := hb2 x hx; omega
      · exact hb1 x hx

end Verif.Packet
