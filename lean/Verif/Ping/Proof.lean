import Verif.Ping.Model

/-!
Lemmas about `Verif.Ping.Model`.
-/

namespace Verif.Ping

/-- A packet asks for an acknowledgement if it carries anything but ACK and CONNECTION_CLOSE
(RFC 9000, 1.2; PADDING apart). -/
def Asks (l : List Kind) : Prop := ∃ k ∈ l, k ≠ .ack ∧ k ≠ .close

/-- There is room for one byte more than the header and what is to be acknowledged, both in the
buffer and, unless probes are to be sent, in the congestion window. -/
structure Fits (p : P) (i : In) : Prop where
  size : i.overhead + i.left < usizeMax
  window : (∀ e, p.probes e = 0) → i.overhead < i.cwnd
  ack : ∀ n, i.ack = some n → n < i.left ∧ ((∀ e, p.probes e = 0) → i.overhead + n < i.cwnd)

theorem elicits_iff (l : List Kind) : P.elicits l = true ↔ Asks l := by
  unfold P.elicits Asks
  rw [List.any_eq_true]
  constructor
  · rintro ⟨k, hk, h⟩
    refine ⟨k, hk, ?_⟩
    have h := of_decide_eq_true h
    rcases h with h | h | h <;> rw [h] <;> decide
  · rintro ⟨k, hk, h1, h2⟩
    refine ⟨k, hk, decide_eq_true ?_⟩
    cases k
    · exact absurd rfl h1
    · exact absurd rfl h2
    · exact Or.inl rfl
    · exact Or.inr (Or.inl rfl)
    · exact Or.inr (Or.inr rfl)

theorem push_zero {left : Nat} {l : List Nat} (h : (P.push left l).1 = 0) : (P.push left l).2 = left := by
  induction l generalizing left with
  | nil => rfl
  | cons n l ih =>
    unfold P.push at h ⊢
    split
    · rename_i hn
      rw [if_pos hn] at h
      exact absurd h (Nat.succ_ne_zero _)
    · rename_i hn
      rw [if_neg hn] at h
      exact ih h

theorem not_probing {p : P} (h : p.probing = false) (e : Epoch) : p.probes e = 0 := by
  unfold P.probing at h
  have h := of_decide_eq_false h
  cases e <;> omega

theorem ackLen_mem {p : P} {i : In} {n : Nat} (h : p.ackLen i = some n) : i.ack = some n ∧ n ≤ i.left := by
  unfold P.ackLen at h
  split at h
  · cases h
  · rename_i m hm
    split at h
    · rename_i hc
      cases h
      rw [Bool.and_eq_true] at hc
      exact ⟨hm, of_decide_eq_true hc.2⟩
    · cases h

theorem window_pos {p : P} {i : In} (h : Fits p i) : 0 < p.window i ∧ ∀ n, i.ack = some n → n < p.window i := by
  unfold P.window
  cases hp : p.probing with
  | true =>
    simp only [if_true]
    have := h.size
    refine ⟨by omega, fun n hn => ?_⟩
    have := (h.ack n hn).1
    omega
  | false =>
    rw [if_neg (by simp)]
    have h1 := h.window (not_probing hp)
    refine ⟨by omega, fun n hn => ?_⟩
    have := (h.ack n hn).2 (not_probing hp)
    omega

theorem room_pos {p : P} {i : In} (h : Fits p i) (hl : payloadMin ≤ i.left) : 1 ≤ p.room i := by
  obtain ⟨h1, h2⟩ := window_pos h
  have hl : 4 ≤ i.left := hl
  unfold P.room
  split
  · omega
  · rename_i n hn
    have hm := (ackLen_mem hn).1
    have := (h.ack n hm).1
    have := h2 n hm
    omega

theorem frames_elicit {p : P} {i : In} (h : Fits p i) (hl : payloadMin ≤ i.left) (hc : i.closing = false)
    (hw : p.needs = true ∨ p.required i.epoch = true) : P.elicits (p.frames i) = true := by
  have hw : (p.required i.epoch || p.needs) = true := by
    rcases hw with hw | hw <;> rw [hw] <;> simp
  unfold P.frames
  split
  · unfold P.elicits; simp
  · rename_i hn
    cases he : P.elicits (p.before i).1 with
    | true => rfl
    | false =>
      exfalso
      apply hn
      rw [hw, he, hc]
      have : (p.before i).2 ≥ 1 := by
        unfold P.before at he ⊢
        dsimp only at he ⊢
        split
        · rename_i hp
          rw [if_pos hp] at he
          unfold P.elicits at he
          simp at he
        · rename_i hp
          rw [if_neg hp, hc] at he
          rw [hc]
          rw [if_neg (by simp)] at he ⊢
          have hz : (P.push (p.room i) i.frames).1 = 0 := by
            cases hx : (P.push (p.room i) i.frames).1 with
            | zero => rfl
            | succ n =>
              rw [hx] at he
              unfold P.elicits at he
              simp [List.replicate_succ] at he
          show (P.push (p.room i) i.frames).2 ≥ 1
          rw [push_zero hz]
          exact room_pos h hl
      simp [this]

theorem call_some {p p' : P} {i : In} {l : List Kind} (h : p.call i = (some l, p')) :
    l = p.frames i ∧ p' = p.after i l ∧ payloadMin ≤ i.left := by
  unfold P.call at h
  split at h
  · cases (Prod.mk.inj h).1
  · split at h
    · cases (Prod.mk.inj h).1
    · rename_i hl
      split at h
      · cases (Prod.mk.inj h).1
      · obtain ⟨h1, h2⟩ := Prod.mk.inj h
        have h1 := Option.some.inj h1
        subst h1
        exact ⟨rfl, h2.symm, by omega⟩

theorem call_none {p : P} {i : In} (h : (p.call i).1 = none) : (p.call i).2 = p := by
  unfold P.call at h ⊢
  split
  · rfl
  · rename_i h1
    rw [if_neg h1] at h
    split
    · rfl
    · rename_i h2
      rw [if_neg h2] at h
      split
      · rfl
      · rename_i h3
        rw [if_neg h3] at h
        cases h

/-- A path that has a reason of its own to ask sends a packet that does. -/
theorem call_asks {p : P} {i : In} (h : Fits p i) (hl : payloadMin ≤ i.left) (hc : i.closing = false)
    (hw : i.epoch = .application ∧ i.established = true ∧ p.needs = true ∨ 0 < p.probes i.epoch) : ∃ l, (p.call i).1 = some l ∧ Asks l := by
  have hr : p.reason i = true := by
    unfold P.reason
    rcases hw with ⟨h1, h2, h3⟩ | h1
    · rw [h2, h3]; simp [h1]
    · simp [h1]
  have he : P.elicits (p.frames i) = true := by
    apply frames_elicit h hl hc
    rcases hw with ⟨_, _, h3⟩ | h1
    · exact Or.inl h3
    · right; unfold P.required; simp [h1]
  have hne : (p.frames i).isEmpty = false := by
    cases hx : p.frames i with
    | nil => rw [hx] at he; cases he
    | cons => rfl
  refine ⟨p.frames i, ?_, (elicits_iff _).mp he⟩
  unfold P.call
  rw [if_neg (by rw [hr]; simp), if_neg (by omega), hne]
  rfl

theorem mem_before {p : P} {i : In} {k : Kind} (h : k ∈ (p.before i).1) :
    k = .ack ∧ (p.ackLen i).isSome = true ∨ k = .mtuProbe ∧ p.probeNow i = true ∨ k = .close ∨ k = .other := by
  have hack : k ∈ (match p.ackLen i with
      | none => []
      | some _ => [Kind.ack]) → k = .ack ∧ (p.ackLen i).isSome = true := by
    intro h
    cases ha : p.ackLen i with
    | none => rw [ha] at h; cases h
    | some n => rw [ha] at h; exact ⟨List.mem_singleton.mp h, rfl⟩
  unfold P.before at h
  dsimp only at h
  split at h
  · rename_i hp
    rcases List.mem_append.mp h with h | h
    · exact Or.inl (hack h)
    · exact Or.inr (Or.inl ⟨List.mem_singleton.mp h, hp⟩)
  · split at h
    · split at h
      · rcases List.mem_append.mp h with h | h
        · exact Or.inl (hack h)
        · exact Or.inr (Or.inr (Or.inl (List.mem_singleton.mp h)))
      · exact Or.inl (hack h)
    · rcases List.mem_append.mp h with h | h
      · exact Or.inl (hack h)
      · exact Or.inr (Or.inr (Or.inr (List.eq_of_mem_replicate h)))

theorem no_probe {p : P} {i : In} (h : p.probeNow i = false) : .mtuProbe ∉ p.frames i := by
  intro hm
  have : Kind.mtuProbe ∈ (p.before i).1 := by
    unfold P.frames at hm
    split at hm
    · rcases List.mem_append.mp hm with hm | hm
      · exact hm
      · cases List.mem_singleton.mp hm
    · exact hm
  rcases mem_before this with ⟨h1, _⟩ | ⟨_, h1⟩ | h1 | h1
  · cases h1
  · rw [h] at h1; cases h1
  · cases h1
  · cases h1

theorem push_le (left : Nat) (l : List Nat) : (P.push left l).2 ≤ left := by
  induction l generalizing left with
  | nil => exact Nat.le_refl _
  | cons n l ih =>
    unfold P.push
    split
    · have := ih (left - n)
      show (P.push (left - n) l).2 ≤ left
      omega
    · exact ih left

/-- A PING is within the window. -/
theorem ping_room {p : P} {i : In} (h : .ping ∈ p.frames i) :
    i.closing = false ∧ ((∀ e, p.probes e = 0) → i.overhead < i.cwnd ∧ (.ack ∈ p.frames i → ∃ n, i.ack = some n ∧ i.overhead + n < i.cwnd)) := by
  have hb : Kind.ping ∉ (p.before i).1 := by
    intro hb
    rcases mem_before hb with ⟨h1, _⟩ | ⟨h1, _⟩ | h1 | h1 <;> cases h1
  unfold P.frames at h ⊢
  split at h
  · rename_i hc
    rw [if_pos hc]
    rw [Bool.and_eq_true, Bool.and_eq_true, Bool.not_eq_true'] at hc
    obtain ⟨⟨_, hl⟩, hcl⟩ := hc
    have hl := of_decide_eq_true hl
    refine ⟨hcl, fun hz => ?_⟩
    have hroom : 1 ≤ p.room i := by
      unfold P.before at hl
      dsimp only at hl
      split at hl
      · exact absurd (show (0 : Nat) ≥ 1 from hl) (by decide)
      · rw [hcl, if_neg (by simp)] at hl
        have := push_le (p.room i) i.frames
        have hl : (P.push (p.room i) i.frames).2 ≥ 1 := hl
        omega
    have hpr : p.probing = false := by
      unfold P.probing
      apply decide_eq_false
      rw [hz, hz, hz]
      omega
    have hw : p.window i = i.cwnd - i.overhead := by unfold P.window; rw [hpr]; rfl
    unfold P.room at hroom
    rw [hw] at hroom
    refine ⟨?_, fun ha => ?_⟩
    · split at hroom <;> omega
    · have ha : Kind.ack ∈ (p.before i).1 := by
        rcases List.mem_append.mp ha with ha | ha
        · exact ha
        · cases List.mem_singleton.mp ha
      rcases mem_before ha with ⟨_, hs⟩ | ⟨h1, _⟩ | h1 | h1
      · cases hn : p.ackLen i with
        | none => rw [hn] at hs; cases hs
        | some n =>
          rw [hn] at hroom
          have hroom : 1 ≤ min (i.left - n) (i.cwnd - i.overhead - n) := hroom
          exact ⟨n, (ackLen_mem hn).1, by omega⟩
      all_goals cases h1
  · exact absurd h hb

/-! ## Runs -/

namespace Conn

theorem get_upd (c : Conn) (k j : Nat) (f : P → P) : (c.upd k f).paths[j]? = if k = j then c.paths[j]?.map f else c.paths[j]? := by
  unfold upd
  dsimp only
  rw [List.getElem?_modify]
  by_cases h : k = j
  · simp only [h, if_true]
    cases c.paths[j]? <;> rfl
  · simp only [h, if_false]
    cases c.paths[j]? <;> rfl

theorem sendOn_none {c : Conn} {k : Nat} {i : In} {j : Nat} {p : P} (hp : c.paths[j]? = some p) (hk : k ≠ j) :
    (c.sendOn k i).2.paths[j]? = some p ∧ ∀ r, (c.sendOn k i).1 = some r → r.1 ≠ j := by
  unfold sendOn
  split
  · exact ⟨hp, fun r hr => nomatch hr⟩
  · refine ⟨by rw [get_upd, if_neg hk]; exact hp, fun r hr => ?_⟩
    obtain ⟨l, _, he⟩ := Option.map_eq_some_iff.mp hr
    rw [← he]
    exact hk

theorem sendOn_self {c : Conn} {j : Nat} {i : In} {p : P} (hp : c.paths[j]? = some p) :
    (c.sendOn j i).1 = (p.call i).1.map (fun l => (j, l)) ∧ (c.sendOn j i).2.paths[j]? = some (p.call i).2 := by
  unfold sendOn
  rw [hp]
  refine ⟨rfl, ?_⟩
  dsimp only
  rw [get_upd, if_pos rfl, hp]
  rfl

/-- What an operation does to one path: nothing but a call, or no packet on it. -/
theorem step_path (c : Conn) (op : Op) (j : Nat) (p : P) (hp : c.paths[j]? = some p) :
    (∃ i, ((op = .send i ∧ c.act = j) ∨ op = .sendOn j i) ∧ (c.step op).1 = (p.call i).1.map (fun l => (j, l)) ∧
      (c.step op).2.paths[j]? = some (p.call i).2) ∨
    (∃ q, (c.step op).2.paths[j]? = some q ∧ q.run = p.run ∧ (p.needs = true → q.needs = true) ∧ ∀ r, (c.step op).1 = some r → r.1 ≠ j) := by
  cases op with
  | ask =>
    right
    simp only [step]
    rw [get_upd, hp]
    split
    · exact ⟨_, rfl, rfl, fun _ => rfl, fun r hr => nomatch hr⟩
    · exact ⟨_, rfl, rfl, id, fun r hr => nomatch hr⟩
  | askOn k =>
    right
    simp only [step]
    rw [get_upd, hp]
    split
    · exact ⟨_, rfl, rfl, fun _ => rfl, fun r hr => nomatch hr⟩
    · exact ⟨_, rfl, rfl, id, fun r hr => nomatch hr⟩
  | migrate k =>
    right
    simp only [step]
    rw [List.getElem?_mapIdx, hp]
    exact ⟨_, rfl, rfl, id, fun r hr => nomatch hr⟩
  | pto k e n =>
    right
    simp only [step]
    rw [get_upd, hp]
    split <;> exact ⟨_, rfl, rfl, id, fun r hr => nomatch hr⟩
  | calm k e =>
    right
    simp only [step]
    rw [get_upd, hp]
    split <;> exact ⟨_, rfl, rfl, id, fun r hr => nomatch hr⟩
  | send i =>
    simp only [step]
    by_cases h : c.act = j
    · left
      refine ⟨i, Or.inl ⟨rfl, h⟩, ?_⟩
      rw [h]
      exact sendOn_self hp
    · right
      obtain ⟨h1, h2⟩ := sendOn_none (i := i) hp h
      exact ⟨p, h1, rfl, id, h2⟩
  | sendOn k i =>
    simp only [step]
    by_cases h : k = j
    · left
      rw [h]
      exact ⟨i, Or.inr rfl, sendOn_self hp⟩
    · right
      obtain ⟨h1, h2⟩ := sendOn_none (i := i) hp h
      exact ⟨p, h1, rfl, id, h2⟩

end Conn

/-- The packets of a run on one path. -/
def on (j : Nat) (l : List (Nat × List Kind)) : List (List Kind) := (l.filter fun x => x.1 == j).map (·.2)

theorem on_append (j : Nat) (a b : List (Nat × List Kind)) : on j (a ++ b) = on j a ++ on j b := by
  unfold on; rw [List.filter_append, List.map_append]

theorem on_self (j : Nat) (o : Option (List Kind)) : on j (o.map fun l => (j, l)).toList = o.toList := by
  cases o with
  | none => rfl
  | some l => unfold on; simp

theorem on_other {j : Nat} {o : Option (Nat × List Kind)} (h : ∀ r, o = some r → r.1 ≠ j) : on j o.toList = [] := by
  cases o with
  | none => rfl
  | some r =>
    have := h r rfl
    unfold on
    simp [this]

end Verif.Ping
