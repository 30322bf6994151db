import Verif.Apps.Serve

/-!
C195: the example server sends the packets of a connection as they were made if none is larger than the
size it knows and all have one destination; otherwise not. Bursts keep to their limits. A connection
that fills its bursts starves those after it.
-/

namespace Verif.Props.C195
open Verif.Apps

theorem split_nil (seg n : Nat) : split seg n [] = [] := by cases n <;> rfl

theorem split_full (seg n : Nat) (b rest : List UInt8) (hb : b.length = seg) (h0 : 0 < seg) (hn : b.length + rest.length ≤ n + 1) :
    split seg (n + 1) (b ++ rest) = b :: split seg n rest := by
  show (if (b ++ rest).isEmpty then [] else (b ++ rest).take seg :: split seg n ((b ++ rest).drop seg)) = _
  have hne : b ≠ [] := by intro h; rw [h] at hb; simp at hb; omega
  rw [if_neg (by simp [hne]), ← hb, List.take_left, List.drop_left]

theorem split_short (seg n : Nat) (b : List UInt8) (hb : b.length ≤ seg) (h0 : b ≠ []) : split seg (n + 1) b = [b] := by
  show (if b.isEmpty then [] else b.take seg :: split seg n (b.drop seg)) = _
  rw [if_neg (by simp [h0]), List.take_of_length_le hb, List.drop_eq_nil_of_le hb, split_nil]

/-- The packets collected and those left are all, in order. -/
theorem collect_all (mds burst total : Nat) (l : List Pkt) : (collect mds burst total l).1 ++ (collect mds burst total l).2.1 = l := by
  induction l generalizing total with
  | nil => rfl
  | cons p l ih =>
    unfold collect
    split
    · split
      · rfl
      · show p :: (_ ++ _) = _
        rw [ih]
    · rfl

/-- All but the last are not short. -/
theorem collect_full (mds burst total : Nat) (l a b : List Pkt) (p q : Pkt) (h : (collect mds burst total l).1 = a ++ p :: q :: b) : mds ≤ p.bytes.length := by
  induction l generalizing total a with
  | nil => cases a <;> cases h
  | cons x l ih =>
    unfold collect at h
    split at h
    · split at h
      · cases a with
        | nil => cases h
        | cons y a =>
          injection h with _ h
          cases a <;> cases h
      · rename_i hx
        cases a with
        | nil =>
          injection h with h1 _
          rw [← h1]
          omega
        | cons y a =>
          injection h with _ h
          exact ih _ _ h
    · cases a <;> cases h

theorem split_joined (seg : Nat) (h0 : 0 < seg) (t : List Pkt) (hlen : ∀ p ∈ t, p.bytes ≠ [] ∧ p.bytes.length ≤ seg)
    (hfull : ∀ a p q b, t = a ++ p :: q :: b → seg ≤ p.bytes.length) (n : Nat) (hn : (joined t).length ≤ n) :
    split seg n (joined t) = t.map (·.bytes) := by
  induction t generalizing n with
  | nil => exact split_nil _ _
  | cons p t ih =>
    obtain ⟨hp0, hp1⟩ := hlen p List.mem_cons_self
    have hj : joined (p :: t) = p.bytes ++ joined t := rfl
    have hpos : 0 < p.bytes.length := List.length_pos_iff.mpr hp0
    rw [hj, List.length_append] at hn
    obtain ⟨m, rfl⟩ : ∃ m, n = m + 1 := ⟨n - 1, by omega⟩
    rw [hj]
    cases t with
    | nil =>
      show split seg (m + 1) (p.bytes ++ []) = [p.bytes]
      rw [List.append_nil]
      exact split_short _ _ _ hp1 hp0
    | cons q t =>
      have hf := hfull [] p q t rfl
      rw [split_full seg m _ _ (by omega) h0 (by omega), ih (fun x hx => hlen x (List.mem_cons_of_mem _ hx))
        (fun a x y b e => hfull (p :: a) x y b (by rw [e]; rfl)) m (by omega)]
      rfl

/-- A connection's own limits in a round. -/
abbrev lim (j : Job) : Client := j.client.reduce j.rises

/-- What a turn takes of the packets. -/
abbrev taken (j : Job) : List Pkt := (collect (lim j).mds ((lim j).burst j.quantum) 0 j.pkts).1

/-- Packets taken that are no larger than the size known and have one destination leave as
they were made, in order, up to the point where the socket would block; nothing is sent that was not made. -/
theorem as_made_partial (j : Job) (h0 : 0 < j.client.mds) (hlen : ∀ p ∈ j.pkts, p.bytes ≠ [] ∧ p.bytes.length ≤ j.client.mds)
    (to : Nat) (hto : ∀ p ∈ j.pkts, p.to = to) :
    j.turn.out = (match j.takes with | some k => (taken j).take k | none => taken j) ∧ taken j ++ j.turn.left = j.pkts := by
  have hm : (lim j).mds = j.client.mds := by
    show (j.client.reduce j.rises).mds = _
    unfold Client.reduce
    split <;> rfl
  have hall := collect_all (lim j).mds ((lim j).burst j.quantum) 0 j.pkts
  have hsub : ∀ p ∈ taken j, p ∈ j.pkts := fun p hp => by rw [← hall]; exact List.mem_append_left _ hp
  have hsplit := split_joined (lim j).mds (by rw [hm]; exact h0) (taken j) (fun p hp => by rw [hm]; exact hlen p (hsub p hp))
    (fun a p q b e => collect_full _ _ _ _ a b p q e) _ (Nat.le_refl _)
  have hmap : ∀ t : List Pkt, (∀ p ∈ t, p.to = to) → (t.map (·.bytes)).map (fun x => Pkt.mk x to) = t := by
    intro t ht
    rw [List.map_map]
    have : t.map ((fun x => Pkt.mk x to) ∘ fun x => x.bytes) = t.map id := by
      apply List.map_congr_left
      intro p hp
      show Pkt.mk p.bytes to = p
      rw [← ht p hp]
    rw [this, List.map_id]
  have hleft : j.turn.left = (collect (lim j).mds ((lim j).burst j.quantum) 0 j.pkts).2.1 := by
    unfold Job.turn
    simp only
    split
    · rfl
    · split
      · rfl
      · split
        · split
          · rfl
          · split <;> rfl
        · split <;> rfl
  refine ⟨?_, by rw [hleft]; exact hall⟩
  unfold Job.turn
  simp only
  split
  · rename_i ht
    rw [show taken j = [] from ht]
    cases j.takes with
    | none => rfl
    | some k => show [] = List.take k []; rw [List.take_nil]
  · rename_i p l ht
    have ht' : taken j = p :: l := ht
    have hp : p ∈ taken j := by rw [ht']; exact List.mem_cons_self
    have hpos := List.length_pos_iff.mpr (hlen p (hsub p hp)).1
    have hjl : 0 < (joined (taken j)).length := by
      rw [ht']
      show 0 < (p.bytes ++ joined l).length
      rw [List.length_append]
      omega
    have e : (split (lim j).mds (joined (taken j)).length (joined (taken j))).map (fun x => Pkt.mk x p.to) = taken j := by
      rw [hsplit, hto p (hsub p hp)]
      exact hmap _ (fun q hq => hto q (hsub q hq))
    rw [if_neg (show ¬ (joined (taken j)).length = 0 by omega)]
    split
    · rename_i k hk0
      rw [e]
      simp only [hk0]
      split
      · rfl
      · rename_i hk
        have : (taken j).take k = taken j := List.take_of_length_le (by omega)
        rw [this]
        split <;> rfl
    · rename_i hk0
      rw [e]
      simp only [hk0]
      split <;> rfl

/-- The buffer offered to each packet is what is left of the burst (`Connection::send` keeps to it, C160). -/
def Fits (burst : Nat) (t : List Pkt) : Prop := ∀ a p b, t = a ++ p :: b → p.bytes.length ≤ burst - (joined a).length

theorem fits_sum (burst : Nat) (t : List Pkt) (h : Fits burst t) : (joined t).length ≤ burst := by
  suffices ∀ pre, (joined pre).length ≤ burst → Fits burst (pre ++ t) → (joined (pre ++ t)).length ≤ burst from this [] (Nat.zero_le _) h
  clear h
  induction t with
  | nil => intro pre h _; rw [List.append_nil]; exact h
  | cons p t ih =>
    intro pre h hf
    have := hf pre p t rfl
    rw [List.append_cons] at hf ⊢
    apply ih _ _ hf
    unfold joined at *
    rw [List.flatMap_append, List.length_append]
    show _ + (p.bytes ++ []).length ≤ _
    rw [List.append_nil]
    omega

theorem split_length (seg n : Nat) (b : List UInt8) : (split seg n b).flatten.length ≤ b.length := by
  induction n generalizing b with
  | zero => exact Nat.zero_le _
  | succ n ih =>
    unfold split
    split
    · exact Nat.zero_le _
    · rw [List.flatten_cons, List.length_append, List.length_take]
      have := ih (b.drop seg)
      rw [List.length_drop] at this
      omega

theorem take_sum (l : List (List UInt8)) (k : Nat) : (l.take k).flatten.length ≤ l.flatten.length := by
  induction l generalizing k with
  | nil => rw [List.take_nil]; exact Nat.le_refl _
  | cons a l ih =>
    cases k with
    | zero => exact Nat.zero_le _
    | succ k =>
      rw [List.take_succ_cons, List.flatten_cons, List.flatten_cons, List.length_append, List.length_append]
      have := ih k
      omega

/-- A turn sends no more than the quantum and the client's cap. -/
theorem burst_kept (j : Job) (hf : Fits ((lim j).burst j.quantum) (taken j)) :
    ((j.turn.out.map (·.bytes)).flatten).length ≤ min j.quantum (lim j).cap := by
  have h1 := fits_sum _ _ hf
  have h2 : (lim j).burst j.quantum ≤ min j.quantum (lim j).cap := Nat.div_mul_le_self _ _
  have h3 := split_length (lim j).mds (joined (taken j)).length (joined (taken j))
  have hm : ∀ (l : List (List UInt8)) (to : Nat), (l.map fun x => Pkt.mk x to).map (·.bytes) = l := by
    intro l to
    rw [List.map_map]
    exact List.map_id _
  unfold Job.turn
  simp only
  split
  · exact Nat.zero_le _
  · split
    · exact Nat.zero_le _
    · split
      · rename_i k _
        split
        · show ((List.take k _).map _).flatten.length ≤ _
          rw [List.map_take, hm]
          have := take_sum (split (lim j).mds (joined (taken j)).length (joined (taken j))) k
          exact Nat.le_trans this (by omega)
        · split <;>
          · rw [hm]
            exact Nat.le_trans h3 (by omega)
      · split <;>
        · rw [hm]
          exact Nat.le_trans h3 (by omega)

/-- What may happen to a client's limits. -/
inductive Limits : Client → Prop
  | new (mds : Nat) : mds ≤ 1350 → Limits ⟨mds, maxBuf⟩
  | mtu {c : Client} (mds : Nat) : Limits c → mds ≤ 1350 → Limits { c with mds := mds }
  | reduced {c : Client} (rises : Bool) : Limits c → Limits (c.reduce rises)

/-- The burst always fits in the buffer. -/
theorem in_buffer (c : Client) (h : Limits c) (quantum : Nat) : c.burst quantum ≤ maxBuf := by
  have : c.mds ≤ 1350 ∧ c.cap ≤ maxBuf := by
    induction h with
    | new mds hm => exact ⟨hm, Nat.le_refl _⟩
    | mtu mds _ hm ih => exact ⟨hm, ih.2⟩
    | reduced rises _ ih =>
      unfold Client.reduce
      split
      · refine ⟨ih.1, ?_⟩
        show max _ _ ≤ 65507
        have : _ ≤ 65507 := ih.2
        have := ih.1
        omega
      · exact ih
  have h2 : c.burst quantum ≤ min quantum c.cap := Nat.div_mul_le_self _ _
  omega

/-- A reduction leaves ten datagrams. -/
theorem floor (c : Client) : c.mds * 10 ≤ (c.reduce true).cap := by
  show _ ≤ max _ _
  omega

theorem left_again (mds burst total : Nat) (l : List Pkt) (h : (collect mds burst total l).2.1 ≠ []) :
    (collect mds burst total l).2.2 = true ∨ burst ≤ total + (joined (collect mds burst total l).1).length := by
  induction l generalizing total with
  | nil => exact absurd rfl h
  | cons p l ih =>
    unfold collect at h ⊢
    split
    · rename_i ht
      rw [if_pos ht] at h
      split
      · exact Or.inl rfl
      · rename_i hp
        rw [if_neg hp] at h
        rcases ih _ h with h' | h'
        · exact Or.inl h'
        · right
          show burst ≤ total + (p.bytes ++ joined _).length
          rw [List.length_append]
          omega
    · right
      show burst ≤ total + 0
      omega

/-- If a connection has more to send after its turn and the socket did not block, there is another round at once,
provided that the quantum allows one datagram. -/
theorem goes_on_partial (j : Job) (h0 : 0 < j.client.mds) (hlen : ∀ p ∈ j.pkts, p.bytes ≠ []) (hq : (lim j).mds ≤ min j.quantum (lim j).cap)
    (hs : j.takes = none) (hl : j.turn.left ≠ []) : j.turn.again = true := by
  have hall := collect_all (lim j).mds ((lim j).burst j.quantum) 0 j.pkts
  have hm : (lim j).mds = j.client.mds := by
    show (j.client.reduce j.rises).mds = _
    unfold Client.reduce
    split <;> rfl
  have hb : 0 < (lim j).burst j.quantum := Nat.mul_pos (Nat.div_pos hq (by omega)) (by omega)
  have key := left_again (lim j).mds ((lim j).burst j.quantum) 0 j.pkts
  unfold Job.turn at hl ⊢
  simp only [hs] at hl ⊢
  split
  · rename_i ht
    simp only [ht] at hl
    rcases key hl with h | h
    · exact h
    · rw [show (collect (lim j).mds ((lim j).burst j.quantum) 0 j.pkts).1 = [] from ht] at h
      have h : _ ≤ 0 + 0 := h
      omega
  · rename_i p l ht
    have hp : p ∈ j.pkts := by
      rw [← hall]
      apply List.mem_append_left
      rw [show (collect (lim j).mds ((lim j).burst j.quantum) 0 j.pkts).1 = p :: l from ht]
      exact List.mem_cons_self
    have hjl : ¬ (joined (taken j)).length = 0 := by
      show ¬ (joined (collect (lim j).mds ((lim j).burst j.quantum) 0 j.pkts).1).length = 0
      rw [show (collect (lim j).mds ((lim j).burst j.quantum) 0 j.pkts).1 = p :: l from ht]
      show ¬ (p.bytes ++ joined l).length = 0
      have := List.length_pos_iff.mpr (hlen p hp)
      rw [List.length_append]
      omega
    rw [if_neg hjl]
    simp only [ht] at hl
    split
    · rfl
    · rename_i hn
      have hleft : (collect (lim j).mds ((lim j).burst j.quantum) 0 j.pkts).2.1 ≠ [] := by
        intro e
        apply hl
        split
        · exact e
        · split <;> exact e
      rcases key hleft with h | h
      · exact h
      · exact absurd (show (joined (taken j)).length ≥ _ by rw [Nat.zero_add] at h; exact h) hn

theorem round_append (a b : List Job) (h : ∀ j ∈ a, j.turn.stop = false) : (round (a ++ b)).1 = a.map (·.turn.out) ++ (round b).1 := by
  induction a with
  | nil => rfl
  | cons x a ih =>
    have e : (round (x :: (a ++ b))).1 = x.turn.out :: (round (a ++ b)).1 := by
      show (if x.turn.stop then _ else _ : List (List Pkt) × Bool).1 = _
      rw [if_neg (by rw [h x List.mem_cons_self]; decide)]
    show (round (x :: (a ++ b))).1 = _
    rw [e, ih (fun y hy => h y (List.mem_cons_of_mem _ hy))]
    rfl

/-- A connection has its turn if none before it fills its burst or blocks. -/
theorem served_partial (a b : List Job) (j : Job) (h : ∀ x ∈ a, x.turn.stop = false) :
    (round (a ++ j :: b)).1[a.length]? = some j.turn.out := by
  rw [round_append a (j :: b) h]
  have hl : (a.map (·.turn.out)).length = a.length := List.length_map _
  rw [List.getElem?_append_right (by omega), hl, Nat.sub_self]
  unfold round
  split <;> rfl

/-- Otherwise it has none. -/
theorem not_served (a b : List Job) (x : Job) (h : ∀ y ∈ a, y.turn.stop = false) (hx : x.turn.stop = true) :
    (round (a ++ x :: b)).1 = a.map (·.turn.out) ++ x.turn.out :: b.map fun _ => [] := by
  rw [round_append a (x :: b) h]
  congr 1
  unfold round
  rw [if_pos hx]

/-- If a connection that had its turn asks for another round, there is one, whatever the others do. -/
theorem round_again (a b : List Job) (j : Job) (h : ∀ x ∈ a, x.turn.stop = false) (ha : j.turn.again = true) : (round (a ++ j :: b)).2 = true := by
  induction a with
  | nil =>
    show (if j.turn.stop then _ else _ : List (List Pkt) × Bool).2 = true
    split
    · exact ha
    · show (j.turn.again || _) = true
      rw [ha, Bool.true_or]
  | cons x a ih =>
    show (if x.turn.stop then _ else _ : List (List Pkt) × Bool).2 = true
    rw [if_neg (by rw [h x List.mem_cons_self]; decide)]
    show (x.turn.again || (round (a ++ j :: b)).2) = true
    rw [ih (fun y hy => h y (List.mem_cons_of_mem _ hy)), Bool.or_true]

/-- And only then. -/
theorem round_again_only (l : List Job) (h : (round l).2 = true) : ∃ j ∈ l, j.turn.again = true := by
  induction l with
  | nil => cases h
  | cons x l ih =>
    have h : (if x.turn.stop then _ else _ : List (List Pkt) × Bool).2 = true := h
    split at h
    · exact ⟨x, List.mem_cons_self, h⟩
    · have h : (x.turn.again || (round l).2) = true := h
      rcases Bool.or_eq_true_iff.mp h with h | h
      · exact ⟨x, List.mem_cons_self, h⟩
      · obtain ⟨j, hj, e⟩ := ih h
        exact ⟨j, List.mem_cons_of_mem _ hj, e⟩

/-- A full packet. -/
def full (n to : Nat) : Pkt := ⟨List.replicate n 7, to⟩

/-- A connection that always has ten packets for a burst of ten. -/
def busy : Job := ⟨⟨4, 40⟩, false, 40, List.replicate 12 (full 4 1), none⟩

/-- While the first connection fills its bursts, the others send nothing, whatever they have, for any number of
rounds. -/
theorem starved_false (rounds : List (List Job)) (h : ∀ r ∈ rounds, ∃ others, r = busy :: others) :
    ∀ r ∈ rounds, (round r).1.head? = some (List.replicate 10 (full 4 1)) ∧ ∀ o ∈ (round r).1.tail, o = [] := by
  intro r hr
  obtain ⟨others, rfl⟩ := h r hr
  have := not_served [] others busy (fun _ hy => (nomatch hy)) (by decide +kernel)
  rw [List.nil_append] at this
  rw [this]
  refine ⟨?_, ?_⟩
  · show some busy.turn.out = _
    decide +kernel
  · intro o ho
    obtain ⟨_, _, e⟩ := List.mem_map.mp ho
    exact e.symm

/-- A probe to another path, sent after data, goes to the destination of the data. -/
theorem destination_false : (Job.mk ⟨5, 50⟩ false 50 [full 5 1, full 4 2] none).turn.out = [full 5 1, full 4 1] := by decide +kernel

/-- A packet larger than the size known, such as a probe of the path MTU above the size found so far, is cut in two. -/
theorem probe_false : (Job.mk ⟨5, 50⟩ false 50 [full 7 1] none).turn.out = [full 5 1, full 2 1] := by decide +kernel

/-- If the socket would block, packets made are not sent and not kept. -/
theorem blocked_false : (Job.mk ⟨5, 50⟩ false 50 [full 5 1, full 5 1, full 4 1] (some 1)).turn.out = [full 5 1] ∧
    (Job.mk ⟨5, 50⟩ false 50 [full 5 1, full 5 1, full 4 1] (some 1)).turn.left = [] := by decide +kernel

/-- With a quantum below one datagram nothing is sent, and there is no other round for it. -/
theorem quantum_false : (Job.mk ⟨5, 50⟩ false 4 [full 3 1] none).turn.out = [] ∧
    (Job.mk ⟨5, 50⟩ false 4 [full 3 1] none).turn.again = false := by decide +kernel

/-- Three packets of which the last is short: they leave as made, and there is another round. -/
example : (Job.mk ⟨5, 50⟩ false 50 [full 5 1, full 5 1, full 2 1, full 5 1] none).turn.out = [full 5 1, full 5 1, full 2 1] ∧
    (Job.mk ⟨5, 50⟩ false 50 [full 5 1, full 5 1, full 2 1, full 5 1] none).turn.left = [full 5 1] ∧
    (Job.mk ⟨5, 50⟩ false 50 [full 5 1, full 5 1, full 2 1, full 5 1] none).turn.again = true ∧
    (Client.mk 1350 65507).burst 100000 = 64800 ∧ ((Client.mk 1350 65507).reduce true).cap = 49128 := by decide +kernel

end Verif.Props.C195
