import Verif.Packet.KeyUpdate

/-!
# C119: Key updates of a peer that follows the rules are understood

The peer protects packets with generations of keys that do not decrease with the packet number,
marks them with the phase of the generation, and updates for the first time after the handshake was
confirmed, and again only after it got a packet protected with the current generation. Then, whatever
order packets arrive in and whatever is forged in between, packets of the current and of the next
generation are always opened, those of the generation before for as long as its key is kept; the
generation used for sending follows the newest packet accepted; and there is never an error.

A client that has not yet seen HANDSHAKE_DONE does not look at the phase: if the server updates its
keys before (its handshake is confirmed earlier), all its packets are dropped for ever (`stuck`).
-/

namespace Verif.Props.C119
open Verif Verif.Packet Verif.Packet.Keys

/-- The phase of a generation. -/
def odd (g : Nat) : Bool := g % 2 == 1

theorem odd_succ (g : Nat) : odd (g + 1) = !odd g := by
  unfold odd
  rcases Nat.mod_two_eq_zero_or_one g with h | h
  · have : (g + 1) % 2 = 1 := by omega
    simp [h, this]
  · have : (g + 1) % 2 = 0 := by omega
    simp [h, this]

/-- The packet is from the peer, which protects packet `n` with generation `gens n`. -/
def Genuine (gens : Nat → Nat) (p : Pkt) : Prop := p.gen = some (gens p.pn) ∧ p.phase = odd (gens p.pn)

/-- The rules for a packet that arrives. -/
def Rule (gens : Nat → Nat) (y : Y) : Act → Prop
  | .recv p _ => p.gen = none ∨ Genuine gens p ∧ (gens p.pn = 0 ∨
      (y.k.confirmed = true ∧ (gens p.pn = 1 ∨ ∃ x ∈ y.sent, gens p.pn ≤ x.1 + 1)))
  | _ => True

def Rules (gens : Nat → Nat) (y : Y) : List Act → Prop
  | [] => True
  | a :: t => Rule gens y a ∧ Rules gens (y.step a) t

/-! ### Any peer -/

/-- What holds of the keys at any time. -/
structure Inv (y : Y) : Prop where
  same : y.k.sealGen = y.k.openGen
  phase : y.k.phase = odd y.k.openGen
  prev : ∀ u, y.k.prev = some u → u.gen + 1 = y.k.openGen
  seen : y.k.openGen = 0 ∨ ∃ p ∈ y.accepted, p.gen = some y.k.openGen
  sent : ∀ x ∈ y.sent, x.1 ≤ y.k.openGen ∧ x.2.1 = odd x.1 ∧ (x.1 = 0 ∨ ∃ p ∈ y.accepted, p.gen = some x.1)
  sorted : y.sent.Pairwise (fun a b => a.1 ≤ b.1)
  conf : y.k.openGen = 0 ∨ y.k.confirmed = true

theorem Initial.inv {y : Y} (h : y.Initial) : Inv y := by
  have hk := h.k
  refine ⟨by rw [hk], by rw [hk]; rfl, fun u hu => ?_, .inl (by rw [hk]), fun x hx => ?_, ?_, .inl (by rw [hk])⟩
  · rw [hk] at hu; simp at hu
  · rw [h.sent] at hx; simp at hx
  · rw [h.sent]; exact List.Pairwise.nil

/-- The ways a packet can be received. -/
theorem recv_cases (y : Y) (p : Pkt) (t : Nat) :
    (y.step (.recv p t) = y ∧ ((y.k.recv p t).1 = .dropped ∨ (y.k.recv p t).1 = .duplicate)) ∨
    ((y.k.recv p t).1 = .keyUpdateError ∧ y.step (.recv p t) = { y with k := { y.k with closed := true }, failed := true } ∧
      y.k.select p = (y.k.openGen + 1, true) ∧ p.gen = some (y.k.openGen + 1) ∧ ∃ u, y.k.prev = some u ∧ u.acked = false) ∨
    ((y.k.recv p t).1 = .accepted ∧ ∃ g new k', y.k.select p = (g, new) ∧ p.gen = some g ∧
      k' = (if new then y.k.update p.pn t else y.k) ∧ (new = true → g = y.k.openGen + 1) ∧
      y.step (.recv p t) = { y with
        k := { k' with seen := k'.seen.insert p.pn, confirmed := k'.confirmed || (p.done && !k'.isServer) }
        accepted := y.accepted ++ [p] }) := by
  have hnew : ∀ g, y.k.select p = (g, true) → g = y.k.openGen + 1 := by
    intro g; unfold K.select; split
    · split
      · split
        · simp
        · intro h; simp at h; omega
      · intro h; simp at h; omega
    · simp
  cases hs : y.k.select p with
  | mk g new =>
  by_cases h1 : y.k.closed = true
  · left; simp [Y.step, K.recv, h1]
  by_cases h2 : p.gen = some g
  rotate_left
  · left; simp [Y.step, K.recv, h1, hs, h2]
  cases h3 : y.k.seen.contains p.pn with
  | true => left; simp [Y.step, K.recv, h1, hs, h2, h3]
  | false =>
    generalize hb : (new && y.k.pending) = b
    cases b with
    | true =>
      right; left
      simp only [Bool.and_eq_true] at hb
      obtain ⟨rfl, hb⟩ := hb
      refine ⟨by simp [K.recv, h1, hs, h2, h3, hb], by simp [Y.step, K.recv, h1, hs, h2, h3, hb], by rw [hnew g hs], by rw [h2, hnew g hs], ?_⟩
      unfold K.pending at hb
      split at hb
      · simp at hb
      · rename_i u hu; exact ⟨u, hu, by simpa using hb⟩
    | false =>
      right; right
      refine ⟨?_, g, new, _, rfl, h2, rfl, fun h => hnew g (h ▸ hs), ?_⟩
      · simp only [K.recv, h1, hs, h2, h3, hb]; simp
      · simp only [Y.step, K.recv, h1, hs, h2, h3, hb]; simp

theorem inv_step {y : Y} (h : Inv y) (a : Act) : Inv (y.step a) := by
  cases a with
  | recv p t =>
    rcases recv_cases y p t with ⟨e, -⟩ | ⟨-, e, -⟩ | ⟨-, g, new, k', hs, hg, hk, hnew, e⟩
    · rw [e]; exact h
    · rw [e]; exact ⟨h.same, h.phase, h.prev, h.seen, h.sent, h.sorted, h.conf⟩
    · rw [e]
      have old : ∀ {g}, (g = 0 ∨ ∃ q ∈ y.accepted, q.gen = some g) → (g = 0 ∨ ∃ q ∈ y.accepted ++ [p], q.gen = some g) := by
        rintro g (h | ⟨q, h1, h2⟩)
        · exact .inl h
        · exact .inr ⟨q, List.mem_append_left _ h1, h2⟩
      cases new with
      | false =>
        simp only [Bool.false_eq_true, if_false] at hk
        subst hk
        refine ⟨h.same, h.phase, h.prev, old h.seen, fun x hx => ?_, h.sorted, ?_⟩
        · obtain ⟨h1, h2, h3⟩ := h.sent x hx
          exact ⟨h1, h2, old h3⟩
        · rcases h.conf with h1 | h1
          · exact .inl h1
          · right; simp only [h1, Bool.true_or]
      | true =>
        have hgo := hnew rfl
        simp only [if_true] at hk
        subst hk
        refine ⟨?_, ?_, ?_, ?_, fun x hx => ?_, h.sorted, ?_⟩
        · simp only [K.update]; rw [h.same]
        · simp only [K.update]; rw [h.phase, odd_succ]
        · intro u hu; simp only [K.update, Option.some.injEq] at hu; subst hu; rfl
        · right; exact ⟨p, by simp, by rw [hg, hgo]; rfl⟩
        · obtain ⟨h1, h2, h3⟩ := h.sent x hx
          exact ⟨by simp only [K.update]; omega, h2, old h3⟩
        · right
          have : y.k.confirmed = true := by
            unfold K.select at hs
            split at hs
            · rename_i hc; simp only [Bool.and_eq_true] at hc; exact hc.1
            · simp at hs
          simp [K.update, this]
  | send s ack =>
    simp only [Y.step]
    split
    · exact h
    · refine ⟨h.same, h.phase, ?_, h.seen, ?_, ?_, h.conf⟩
      · intro u hu
        simp only [K.send, Option.map_eq_some_iff] at hu
        obtain ⟨v, hv, rfl⟩ := hu
        exact h.prev v hv
      · simp only
        split
        · intro x hx
          rcases List.mem_append.mp hx with hx | hx
          · exact h.sent x hx
          · simp only [List.mem_singleton] at hx
            subst hx
            simp only [K.send]
            rw [h.same]
            exact ⟨Nat.le_refl _, h.phase, h.seen⟩
        · exact h.sent
      · simp only
        split
        · refine List.pairwise_append.mpr ⟨h.sorted, by simp, fun a ha b hb => ?_⟩
          simp only [List.mem_singleton] at hb
          subst hb
          simp only
          rw [h.same]
          exact (h.sent a ha).1
        · exact h.sorted
  | timeout now =>
    have hk : y.k.timeout now = y.k ∨ y.k.timeout now = { y.k with prev := none } := by
      unfold K.timeout; split
      · exact .inl rfl
      · split
        · exact .inr rfl
        · exact .inl rfl
    rcases hk with hk | hk <;> simp only [Y.step, hk]
    · exact h
    · exact ⟨h.same, h.phase, (fun u hu => by simp at hu), h.seen, h.sent, h.sorted, h.conf⟩
  | complete =>
    refine ⟨h.same, h.phase, h.prev, h.seen, h.sent, h.sorted, ?_⟩
    rcases h.conf with h1 | h1
    · exact .inl h1
    · right; simp only [Y.step, h1, Bool.true_or]

theorem inv_run {y : Y} (h : Inv y) (l : List Act) : Inv (y.run l) := by
  induction l generalizing y with
  | nil => exact h
  | cons a t ih => exact ih (inv_step h a)

/-- Whatever the peer does: packets are sent with the phase of their generation; generations never
go back, and never ahead of what was accepted from the peer. -/
theorem follow {y : Y} (h : y.Initial) (l : List Act) :
    (y.run l).sent.Pairwise (fun a b => a.1 ≤ b.1) ∧
    ∀ x ∈ (y.run l).sent, x.2.1 = odd x.1 ∧ (x.1 = 0 ∨ ∃ p ∈ (y.run l).accepted, p.gen = some x.1) :=
  have hi := inv_run (Initial.inv h) l
  ⟨hi.sorted, fun x hx => (hi.sent x hx).2⟩

/-- A forged packet changes nothing. -/
theorem forged (y : Y) (p : Pkt) (t : Nat) (hp : p.gen = none) : y.step (.recv p t) = y := by
  rcases recv_cases y p t with ⟨e, -⟩ | ⟨-, -, -, e, -⟩ | ⟨-, _, _, _, -, e, -⟩
  · exact e
  · rw [hp] at e; simp at e
  · rw [hp] at e; simp at e

/-! ### A peer that follows the rules -/

/-- What holds in addition. -/
structure Good (gens : Nat → Nat) (y : Y) : Prop extends Inv y where
  pn : ∀ u, y.k.prev = some u → gens u.pnOnUpdate = y.k.openGen
  acked : ∀ u, y.k.prev = some u → (∃ x ∈ y.sent, y.k.openGen ≤ x.1) → u.acked = true
  opened : y.k.closed = false
  failed : y.failed = false

theorem ahead {gens : Nat → Nat} {y : Y} (h : Good gens y) {p : Pkt} {t : Nat} (hr : Rule gens y (.recv p t))
    (hp : p.gen ≠ none) : gens p.pn ≤ y.k.openGen + 1 := by
  rcases hr with hr | ⟨-, hr | ⟨-, hr | ⟨x, hx, hr⟩⟩⟩
  · exact absurd hr hp
  · omega
  · omega
  · have := (h.sent x hx).1; omega

/-- How a packet of the peer is received. -/
theorem recv_good {gens : Nat → Nat} (hm : ∀ a b, a ≤ b → gens a ≤ gens b) {y : Y} (h : Good gens y) {p : Pkt} {t : Nat}
    (hg : Genuine gens p) (hr : Rule gens y (.recv p t)) :
    (y.k.recv p t).1 ≠ .keyUpdateError ∧
    (y.k.openGen ≤ gens p.pn ∨ (gens p.pn + 1 = y.k.openGen ∧ y.k.prev.isSome = true) →
      y.k.select p = (gens p.pn, decide (gens p.pn = y.k.openGen + 1)) ∧
      (y.k.recv p t).1 ≠ .dropped) := by
  have hne : p.gen ≠ none := by rw [hg.1]; simp
  have hle := ahead h hr hne
  have hlt : ∀ {a b}, gens a < gens b → a < b := by
    intro a b hab
    rcases Nat.lt_or_ge a b with h | h
    · exact h
    · have := hm b a h; omega
  have hconf : y.k.openGen < gens p.pn → y.k.confirmed = true := by
    intro hlt
    rcases hr with hr | ⟨-, hr | ⟨hr, -⟩⟩
    · exact absurd hr hne
    · omega
    · exact hr
  -- keys that were confirmed
  have hack : gens p.pn = y.k.openGen + 1 → ∀ u, y.k.prev = some u → u.acked = true := by
    intro he u hu
    refine h.acked u hu ?_
    have := h.prev u hu
    rcases hr with hr | ⟨-, hr | ⟨-, hr | ⟨x, hx, hr⟩⟩⟩
    · exact absurd hr hne
    · omega
    · omega
    · exact ⟨x, hx, by omega⟩
  have hsel : y.k.openGen ≤ gens p.pn ∨ (gens p.pn + 1 = y.k.openGen ∧ y.k.prev.isSome = true) →
      y.k.select p = (gens p.pn, decide (gens p.pn = y.k.openGen + 1)) := by
    intro hc
    unfold K.select
    rw [hg.2, h.phase]
    rcases hc with hc | ⟨hc, hprev⟩
    · by_cases he : gens p.pn = y.k.openGen
      · rw [he, if_neg (by simp)]; simp
      · have he : gens p.pn = y.k.openGen + 1 := by omega
        rw [he, odd_succ, hconf (by omega)]
        simp only [Bool.true_and, bne_iff_ne, ne_eq, Bool.not_eq_eq_eq_not, Bool.eq_not_self, not_false_eq_true, if_true, decide_true]
        split
        · rename_i u hu
          rw [if_neg]
          have := h.pn u hu
          have : u.pnOnUpdate < p.pn := hlt (by omega)
          omega
        · rfl
    · obtain ⟨u, hu⟩ := Option.isSome_iff_exists.mp hprev
      have hp1 := h.prev u hu
      have hp2 := h.pn u hu
      have hc1 : y.k.confirmed = true := by rcases h.conf with h1 | h1; (· omega); exact h1
      rw [← hc, odd_succ, hc1, hu]
      have : p.pn < u.pnOnUpdate := hlt (by omega)
      simp only [Bool.true_and, this, if_true]
      rw [if_pos (by simp)]
      have : u.gen = gens p.pn := by omega
      rw [this]
      simp; omega
  constructor
  · rcases recv_cases y p t with ⟨-, e | e⟩ | ⟨-, -, -, e, u, hu, hua⟩ | ⟨e, -⟩
    · rw [e]; simp
    · rw [e]; simp
    · rw [hg.1] at e
      simp only [Option.some.injEq] at e
      exact absurd (hack e u hu) (by rw [hua]; simp)
    · rw [e]; simp
  · intro hc
    refine ⟨hsel hc, ?_⟩
    unfold K.recv
    rw [if_neg (by rw [h.opened]; simp), hsel hc]
    simp only [hg.1, ne_eq, not_true_eq_false, if_false]
    split
    · simp
    · split <;> simp

theorem good_step {gens : Nat → Nat} (hm : ∀ a b, a ≤ b → gens a ≤ gens b) {y : Y} (h : Good gens y) {a : Act}
    (hr : Rule gens y a) : Good gens (y.step a) := by
  refine { toInv := inv_step h.toInv a, pn := ?_, acked := ?_, opened := ?_, failed := ?_ }
  all_goals
    cases a with
    | recv p t =>
      rcases recv_cases y p t with ⟨e, -⟩ | ⟨e, -⟩ | ⟨-, g, new, k', hs, hg, hk, hnew, e⟩
      · rw [e]; first | exact h.pn | exact h.acked | exact h.opened | exact h.failed
      · exfalso
        rcases hr with hr | ⟨hr, hr'⟩
        · rw [K.recv] at e
          split at e
          · simp at e
          · rw [hr] at e; simp at e
        · exact (recv_good hm h hr (.inr ⟨hr, hr'⟩)).1 e
      · rw [e]
        have hgg : g = gens p.pn := by
          rcases hr with hr | ⟨hr, -⟩
          · rw [hr] at hg; simp at hg
          · rw [hr.1] at hg; simpa using hg.symm
        cases new with
        | false =>
          simp only [Bool.false_eq_true, if_false] at hk
          subst hk
          first | exact h.pn | exact h.acked | exact h.opened | exact h.failed
        | true =>
          have hgo := hnew rfl
          simp only [if_true] at hk
          subst hk
          first
          | exact h.failed
          | exact h.opened
          | (intro u hu; simp only [K.update, Option.some.injEq] at hu; subst hu; simp only [K.update]; omega)
          | (rintro u hu ⟨x, hx, hle⟩
             have := (h.sent x hx).1
             simp only [K.update] at hle; omega)
    | send s ack =>
      simp only [Y.step, h.opened, Bool.false_eq_true, if_false]
      first
      | exact h.failed
      | exact h.opened
      | (intro u hu
         simp only [K.send, Option.map_eq_some_iff] at hu
         obtain ⟨v, hv, rfl⟩ := hu
         first | exact h.pn v hv | exact fun _ => rfl)
    | timeout now =>
      have hk : y.k.timeout now = y.k ∨ y.k.timeout now = { y.k with prev := none } := by
        unfold K.timeout; split
        · exact .inl rfl
        · split
          · exact .inr rfl
          · exact .inl rfl
      rcases hk with hk | hk <;> simp only [Y.step, hk]
      · first | exact h.pn | exact h.acked | exact h.opened | exact h.failed
      · first | exact h.failed | exact h.opened | (intro u hu; simp at hu)
    | complete => first | exact h.pn | exact h.acked | exact h.opened | exact h.failed

theorem good_run {gens : Nat → Nat} (hm : ∀ a b, a ≤ b → gens a ≤ gens b) (l : List Act) : ∀ {y : Y}, Good gens y →
    Rules gens y l → Good gens (y.run l) := by
  induction l with
  | nil => intro y h _; exact h
  | cons a t ih => intro y h hr; exact ih (good_step hm h hr.1) hr.2

theorem Initial.good {gens : Nat → Nat} {y : Y} (h : y.Initial) : Good gens y := by
  have hk := h.k
  refine { toInv := Initial.inv h, pn := fun u hu => ?_, acked := fun u hu => ?_, opened := by rw [hk], failed := h.failed } <;>
    (rw [hk] at hu; simp at hu)

/-- A packet of a peer that follows the rules, at any time: it is at most one generation ahead of
those sent; one of the current or the next generation is accepted or a duplicate, and if accepted,
packets sent from then on have its generation; so is one of the generation before, as long as that key
is kept, and it does not change the generation. There is no error. -/
theorem understood {gens : Nat → Nat} (hm : ∀ a b, a ≤ b → gens a ≤ gens b) {y : Y} (h : y.Initial) (l : List Act)
    (hl : Rules gens y l) (p : Pkt) (t : Nat) (hg : Genuine gens p) (hr : Rule gens (y.run l) (.recv p t)) :
    let k := (y.run l).k
    (y.run l).failed = false ∧ (k.recv p t).1 ≠ .keyUpdateError ∧ gens p.pn ≤ k.sealGen + 1 ∧
    (k.sealGen ≤ gens p.pn ∨ (gens p.pn + 1 = k.sealGen ∧ k.prev.isSome = true) →
      ((k.recv p t).1 = .accepted ∧ (k.recv p t).2.sealGen = max k.sealGen (gens p.pn)) ∨
      ((k.recv p t).1 = .duplicate ∧ k.seen.contains p.pn = true)) := by
  dsimp only
  have hgd := good_run hm l (Initial.good h) hl
  obtain ⟨r1, r2⟩ := recv_good hm hgd hg hr
  have hle := ahead hgd hr (by rw [hg.1]; simp)
  refine ⟨hgd.failed, r1, by rw [hgd.same]; exact hle, fun hc => ?_⟩
  rw [hgd.same] at hc ⊢
  obtain ⟨s1, s2⟩ := r2 hc
  unfold K.recv at r1 s2 ⊢
  rw [if_neg (by rw [hgd.opened]; simp), s1] at r1 s2 ⊢
  simp only [hg.1, ne_eq, not_true_eq_false, if_false] at r1 s2 ⊢
  cases hs : (y.run l).k.seen.contains p.pn with
  | true => right; simp
  | false =>
    left
    simp only [hs, Bool.false_eq_true, if_false] at r1 s2 ⊢
    split
    · rename_i hb; simp only [hb, if_true] at r1; simp at r1
    · refine ⟨rfl, ?_⟩
      simp only
      split
      · rename_i hd
        simp only [decide_eq_true_eq] at hd
        simp only [K.update, hgd.same]; omega
      · rename_i hd
        simp only [decide_eq_true_eq] at hd
        rw [hgd.same]; omega

/-- Old keys are dropped only by the timer, or replaced by an update. -/
theorem kept (y : Y) (a : Act) (u : Prev) (hu : y.k.prev = some u) :
    (∃ u', (y.step a).k.prev = some u' ∧ (u'.timer = u.timer ∧ u'.gen = u.gen ∧ (y.step a).k.openGen = y.k.openGen ∨
      ∃ p t, a = .recv p t ∧ u'.timer = t ∧ (y.step a).k.openGen = y.k.openGen + 1)) ∨
    ∃ now, a = .timeout now ∧ u.timer ≤ now := by
  cases a with
  | recv p t =>
    left
    rcases recv_cases y p t with ⟨e, -⟩ | ⟨-, e, -⟩ | ⟨-, g, new, k', hs, hg, hk, hnew, e⟩
    · rw [e]; exact ⟨u, hu, .inl ⟨rfl, rfl, rfl⟩⟩
    · rw [e]; exact ⟨u, hu, .inl ⟨rfl, rfl, rfl⟩⟩
    · rw [e]
      cases new with
      | false =>
        simp only [Bool.false_eq_true, if_false] at hk
        subst hk; exact ⟨u, hu, .inl ⟨rfl, rfl, rfl⟩⟩
      | true =>
        simp only [if_true] at hk
        subst hk; exact ⟨_, rfl, .inr ⟨p, t, rfl, rfl, rfl⟩⟩
  | send s ack =>
    left
    simp only [Y.step]
    split
    · exact ⟨u, hu, .inl ⟨rfl, rfl, rfl⟩⟩
    · exact ⟨{ u with acked := true }, by simp [K.send, hu], .inl ⟨rfl, rfl, rfl⟩⟩
  | timeout now =>
    by_cases ht : u.timer ≤ now
    · exact .inr ⟨now, rfl, ht⟩
    · left; simp only [Y.step, K.timeout, hu, ht, if_false]; exact ⟨u, rfl, .inl ⟨rfl, rfl, trivial⟩⟩
  | complete => left; exact ⟨u, hu, .inl ⟨rfl, rfl, rfl⟩⟩

/-! ### Before the handshake is confirmed -/

/-- A client that has not seen HANDSHAKE_DONE drops every packet of a server that has updated its
keys, whatever is in it: it never sees one. -/
theorem stuck {y : Y} (h : y.Initial) (hc : y.k.isServer = false) (l : List Act)
    (hl : ∀ p t, Act.recv p t ∈ l → ∀ g, p.gen = some g → 0 < g) :
    (y.run l).accepted = [] ∧ (y.run l).k.confirmed = false := by
  suffices hs : ∀ (y : Y), y.k.isServer = false → y.k.confirmed = false → y.k.openGen = 0 → y.accepted = [] →
      (y.run l).accepted = [] ∧ (y.run l).k.confirmed = false by
    have hk := h.k
    exact hs y hc (by rw [hk]) (by rw [hk]) h.accepted
  clear h hc
  induction l with
  | nil => intro y _ h2 _ h4; exact ⟨h4, h2⟩
  | cons a t ih =>
    intro y h1 h2 h3 h4
    have step : (y.step a).k.isServer = false ∧ (y.step a).k.confirmed = false ∧ (y.step a).k.openGen = 0 ∧
        (y.step a).accepted = [] := by
      cases a with
      | recv p tm =>
        have hsel : y.k.select p = (0, false) := by simp [K.select, h2, h3]
        have hgen := hl p tm (List.mem_cons_self ..)
        rcases recv_cases y p tm with ⟨e, -⟩ | ⟨-, -, e, -⟩ | ⟨-, g, new, k', hs, hg, -⟩
        · rw [e]; exact ⟨h1, h2, h3, h4⟩
        · rw [hsel] at e; simp at e
        · rw [hsel] at hs
          simp only [Prod.mk.injEq] at hs
          have := hgen g hg
          omega
      | send s ack =>
        simp only [Y.step]; split
        · exact ⟨h1, h2, h3, h4⟩
        · exact ⟨h1, h2, h3, h4⟩
      | timeout now =>
        simp only [Y.step, K.timeout]
        split
        · exact ⟨h1, h2, h3, h4⟩
        · split <;> exact ⟨h1, h2, h3, h4⟩
      | complete =>
        refine ⟨h1, ?_, h3, h4⟩
        simp [Y.step, h1, h2]
    exact ih (fun p t hm => hl p t (List.mem_cons_of_mem _ hm)) _ step.1 step.2.1 step.2.2.1 step.2.2.2

/-! ### Concrete cases -/

/-- The peer updates with packet 10 and again with packet 20. -/
def gens (n : Nat) : Nat := if n < 10 then 0 else if n < 20 then 1 else 2

def pkt (n : Nat) : Pkt := { gen := some (gens n), pn := n, phase := odd (gens n) }

theorem genuine (n : Nat) : Genuine gens (pkt n) := ⟨rfl, rfl⟩

/-- Packets 3, 11, 10 and the late 7; a forged one; an answer; then 20 and the late 12. -/
def acts : List Act := [.complete, .recv (pkt 3) 50, .recv (pkt 11) 60, .recv (pkt 10) 60, .recv (pkt 7) 60,
  .recv { gen := none, pn := 30, phase := false } 60, .send true true, .recv (pkt 20) 90, .recv (pkt 12) 90, .send true false]

def server : Y := { k := { isServer := true } }
example : server.Initial := ⟨rfl, rfl, rfl, rfl⟩
example : (server.run acts).accepted.map (·.pn) = [3, 11, 10, 7, 20, 12] := by decide +kernel
example : (server.run acts).sent = [(1, true, true), (2, false, false)] := by decide +kernel
example : Rules gens server acts := by
  refine ⟨trivial, .inr ⟨genuine _, .inl rfl⟩, .inr ⟨genuine _, .inr ⟨by decide +kernel, .inl rfl⟩⟩,
    .inr ⟨genuine _, .inr ⟨by decide +kernel, .inl rfl⟩⟩, .inr ⟨genuine _, .inl rfl⟩, .inl rfl, trivial,
    .inr ⟨genuine _, .inr ⟨by decide +kernel, .inr ⟨(1, true, true), by decide +kernel, by decide +kernel⟩⟩⟩,
    .inr ⟨genuine _, .inr ⟨by decide +kernel, .inl rfl⟩⟩, trivial, trivial⟩
/-- Without an answer in between the second update is an error. -/
example : (server.run [.complete, .recv (pkt 3) 50, .recv (pkt 11) 60, .recv (pkt 20) 90]).failed = true := by decide +kernel
/-- After the timer the late packet is dropped. -/
example : (server.run [.complete, .recv (pkt 3) 50, .recv (pkt 11) 60, .timeout 60, .recv (pkt 7) 90]).accepted.map (·.pn) =
    [3, 11] := by decide +kernel
/-- A client without HANDSHAKE_DONE. -/
example : (Y.run {} [.recv { pkt 11 with done := true } 60]).accepted = [] := by decide +kernel
example : (Y.run {} [.recv { pkt 3 with done := true } 60, .recv (pkt 11) 60]).accepted.length = 2 := by decide +kernel

end Verif.Props.C119
