import Verif.Cid.Run

/-! The invariants of one endpoint. -/

namespace Verif.Cid
open Verif

/-- The source side of `s`, with peer limits up to `lim` and ledger `out`. -/
structure SInv (s : Ids) (lim : Nat) (out : List Nat) : Prop where
  nodup : (keys s.scids.inner).Nodup
  lt : ∀ x ∈ keys s.scids.inner, x < s.nextScidSeq
  cids : (s.scids.inner.map (·.cid)).Nodup
  len : s.scids.inner.length ≤ s.scids.capacity
  cap : s.scids.capacity ≤ 2 * lim - 1
  active : (above s.retirePriorTo s.scids.inner).length ≤ lim
  limit : s.sourceLimit ≤ lim
  two : 2 ≤ s.sourceLimit
  ne : s.scids.inner ≠ []
  rpt : s.retirePriorTo ≤ s.nextScidSeq
  out : out = keys s.scids.inner

/-- The destination side of `s`, which advertised `cap`. -/
structure DInv (s : Ids) (c : Nat) : Prop where
  nodup : (keys s.dcids.inner).Nodup
  cids : (s.dcids.inner.map (·.cid)).Nodup
  len : s.dcids.inner.length ≤ c
  cap : s.dcids.capacity = c
  two : 2 ≤ c
  ne : s.dcids.inner ≠ []
  above : ∀ x ∈ keys s.dcids.inner, s.peerRetirePriorTo ≤ x
  rcap : s.retire.capacity ≤ 3 * c
  rlen : s.retire.inner.length ≤ s.retire.capacity
  rnodup : s.retire.inner.Nodup

/-! ### the source side -/

theorem enter_old {l : List Nat} {n : Nat} (h : n ∈ l) : enter l n = l := by
  unfold enter; rw [if_pos h]

theorem enter_new {l : List Nat} {n : Nat} (h : n ∉ l) : enter l n = l ++ [n] := by
  unfold enter; rw [if_neg h]

theorem nodup_snoc {α} {l : List α} {a : α} (h : l.Nodup) (ha : a ∉ l) : (l ++ [a]).Nodup := by
  rw [List.nodup_append]
  refine ⟨h, List.nodup_cons.mpr ⟨by simp, List.nodup_nil⟩, ?_⟩
  intro x hx y hy hxy
  rw [List.mem_singleton] at hy
  exact ha (by rw [← hy, ← hxy]; exact hx)

/-- The ledger after an attempt to issue. -/
def ledger (out : List Nat) : Except Err Nat → List Nat
  | .ok n => enter out n
  | .error _ => out

theorem SInv.newScidCont {s : Ids} {lim : Nat} {out : List Nat} (h : SInv s lim out)
    (hlt : (Cid.above s.retirePriorTo s.scids.inner).length < lim) (cid : Bytes) (t : Option Nat) (a : Bool) (p : Option Nat) :
    SInv (s.newScidCont cid t a p).2 lim (ledger out (s.newScidCont cid t a p).1) := by
  rcases newScidCont_cases s cid t a p with ⟨r, hr, hc⟩ | ⟨d, hr, hd, hnew, _⟩
  · rw [hr]
    rcases hc with ⟨e, rfl⟩ | ⟨e, he, _, _, rfl⟩
    · exact h
    · have : enter out e.seq = out := enter_old (by rw [h.out]; exact List.mem_map.mpr ⟨e, he, rfl⟩)
      dsimp only [ledger]
      rw [this]; exact h
  · rw [hr]
    have hn : s.nextScidSeq ∉ keys s.scids.inner := fun hm => Nat.lt_irrefl _ (h.lt _ hm)
    obtain ⟨hd, hl⟩ := insert_new hn hd
    subst hd
    have hm := markAdvertise_scids { s with scids := { s.scids with inner := s.scids.inner ++ [⟨cid, s.nextScidSeq, t, p⟩] }, nextScidSeq := s.nextScidSeq + 1 } s.nextScidSeq a
    obtain ⟨m1, m2, m3, m4, _, _, _⟩ := hm
    have hk : keys (s.scids.inner ++ [⟨cid, s.nextScidSeq, t, p⟩]) = keys s.scids.inner ++ [s.nextScidSeq] := by simp
    constructor
    · rw [m1]; dsimp only; rw [hk]; exact nodup_snoc h.nodup hn
    · rw [m1, m2]; dsimp only; rw [hk]
      intro x hx
      rcases List.mem_append.mp hx with hx | hx
      · have := h.lt x hx; omega
      · rw [List.mem_singleton] at hx; omega
    · rw [m1]; dsimp only; rw [List.map_append]
      apply nodup_snoc h.cids
      intro hc
      obtain ⟨e, he, hec⟩ := List.mem_map.mp hc
      exact hnew e he hec
    · rw [m1]; dsimp only; rw [List.length_append]; exact hl
    · rw [m1]; exact h.cap
    · rw [m1, m3]; dsimp only
      unfold Cid.above
      rw [List.filter_append, List.length_append]
      have h1 := hlt
      unfold Cid.above at h1
      have h2 := List.length_filter_le (fun e : Entry => decide (s.retirePriorTo ≤ e.seq)) [⟨cid, s.nextScidSeq, t, p⟩]
      simp only [List.length_cons, List.length_nil] at h2
      omega
    · rw [m4]; exact h.limit
    · rw [m4]; exact h.two
    · rw [m1]; dsimp only; simp
    · rw [m2, m3]; have := h.rpt; dsimp only; omega
    · rw [m1]; dsimp only [ledger]; rw [hk, enter_new (by rw [h.out]; exact hn), h.out]

theorem SInv.newScid {s : Ids} {lim : Nat} {out : List Nat} (h : SInv s lim out) (cid : Bytes) (t : Option Nat) (a : Bool)
    (p : Option Nat) (r : Bool) : SInv (s.newScid cid t a p r).2 lim (ledger out (s.newScid cid t a p r).1) := by
  unfold Ids.newScid
  split
  · exact h
  split
  · split
    · exact h
    split
    · exact h
    · rename_i n hn
      obtain ⟨h1, h2, _⟩ := lowestUsable_ok hn
      have hlt := above_lt h1 h2
      have := h.active
      apply SInv.newScidCont
      · exact { nodup := h.nodup, lt := h.lt, cids := h.cids, len := h.len, cap := h.cap, limit := h.limit, two := h.two, ne := h.ne,
                out := h.out, active := by dsimp only; omega, rpt := by have := h.lt n h1; dsimp only; omega }
      · dsimp only; omega
  · rename_i hc
    apply SInv.newScidCont h
    have h1 := List.length_filter_le (fun e : Entry => decide (s.retirePriorTo ≤ e.seq)) s.scids.inner
    have h2 := h.limit
    unfold Cid.above
    omega

theorem SInv.setSourceLimit {s : Ids} {lim : Nat} {out : List Nat} (h : SInv s lim out) (v : Nat) :
    SInv (s.setSourceLimit v) (if v > lim then v else lim) out := by
  have hle : lim ≤ if v > lim then v else lim := by split <;> omega
  have hv : v ≤ if v > lim then v else lim := by split <;> omega
  generalize (if v > lim then v else lim) = m at hle hv
  unfold Ids.setSourceLimit
  dsimp only
  have hw : min v halfUsize ≤ v := Nat.min_le_left _ _
  generalize min v halfUsize = w at hw
  have hc := h.cap
  have ha := h.active
  have hl := h.limit
  split
  · rename_i h2
    unfold Deque.resize
    split
    · rename_i hr
      exact { nodup := h.nodup, lt := h.lt, cids := h.cids, len := by have := h.len; dsimp only; omega, cap := by dsimp only; omega, active := by dsimp only; omega,
              limit := by dsimp only; omega, two := h2, ne := h.ne, rpt := h.rpt, out := h.out }
    · exact { nodup := h.nodup, lt := h.lt, cids := h.cids, len := h.len, cap := by dsimp only; omega, active := by dsimp only; omega,
              limit := by dsimp only; omega, two := h2, ne := h.ne, rpt := h.rpt, out := h.out }
  · exact { nodup := h.nodup, lt := h.lt, cids := h.cids, len := h.len, cap := by omega, active := by omega,
            limit := by omega, two := h.two, ne := h.ne, rpt := h.rpt, out := h.out }

theorem keys_del (l : List Entry) (n : Nat) : keys (Deque.del l n) = (keys l).erase n := by
  induction l with
  | nil => rfl
  | cons x l ih =>
    unfold Deque.del
    split
    · rename_i h; simp [keys, h]
    · rename_i h
      simp only [keys, List.map_cons] at ih ⊢
      rw [List.erase_cons_tail (by simpa using h), ih]

/-- A source side whose entries shrank. -/
theorem SInv.shrink {s s' : Ids} {lim : Nat} {out : List Nat} (h : SInv s lim out) (hs : s'.scids.inner.Sublist s.scids.inner)
    (hc : s'.scids.capacity = s.scids.capacity) (hn : s'.nextScidSeq = s.nextScidSeq) (hl : s'.sourceLimit = s.sourceLimit)
    (hr : s.retirePriorTo ≤ s'.retirePriorTo) (hr' : s'.retirePriorTo ≤ s.nextScidSeq) (hne : s'.scids.inner ≠ []) :
    SInv s' lim (keys s'.scids.inner) where
  nodup := (hs.map _).nodup h.nodup
  lt := fun x hx => by rw [hn]; exact h.lt x ((hs.map _).subset hx)
  cids := (hs.map _).nodup h.cids
  len := by rw [hc]; exact Nat.le_trans hs.length_le h.len
  cap := by rw [hc]; exact h.cap
  active := Nat.le_trans (above_sublist hs) (Nat.le_trans (above_le _ hr) h.active)
  limit := by rw [hl]; exact h.limit
  two := by rw [hl]; exact h.two
  ne := hne
  rpt := by rw [hn]; exact hr'
  out := rfl

theorem erase_eq_filter {l : List Nat} (h : l.Nodup) (n : Nat) : l.erase n = l.filter (· != n) := by
  rw [h.erase_eq_filter]

theorem remove_cases (d : Deque) (n : Nat) :
    (d.inner.length ≤ 1 ∧ d.remove n = .error .outOfIdentifiers) ∨
    (1 < d.inner.length ∧ n ∉ keys d.inner ∧ d.remove n = .ok (none, d)) ∨
    (1 < d.inner.length ∧ ∃ e ∈ d.inner, e.seq = n ∧ d.remove n = .ok (some e, { d with inner := Deque.del d.inner n })) := by
  unfold Deque.remove
  split
  · rename_i h; exact Or.inl ⟨h, rfl⟩
  · rename_i h
    right
    unfold Deque.get
    cases hf : d.inner.find? (·.seq == n) with
    | none =>
      have := find_seq_none.mp hf
      exact Or.inl ⟨by omega, this, by rw [del_of_not_mem this]⟩
    | some e =>
      have := find_seq_some hf
      exact Or.inr ⟨by omega, e, this.1, this.2, rfl⟩

theorem del_ne_nil {l : List Entry} {n : Nat} (h : 1 < l.length) : Deque.del l n ≠ [] := by
  intro hh
  have := @del_length l n
  rw [hh] at this
  simp only [List.length_nil] at this
  omega

theorem SInv.retireScid {s : Ids} {lim : Nat} {out : List Nat} (h : SInv s lim out) (seq : Nat) (d : Bytes) :
    ∃ out', SInv (s.retireScid seq d).2 lim out' ∧ ∀ p, (s.retireScid seq d).1 = .ok p → out' = out.filter (· != seq) := by
  unfold Ids.retireScid
  split
  · exact ⟨out, h, fun p hp => by cases hp⟩
  rcases remove_cases s.scids seq with ⟨_, hr⟩ | ⟨hlen, hnm, hr⟩ | ⟨hlen, e, he, hes, hr⟩
  · rw [hr]
    exact ⟨out, h, fun p hp => by cases hp⟩
  · rw [hr]
    refine ⟨out, h, fun p hp => ?_⟩
    rw [h.out]; symm; rw [List.filter_eq_self]; intro x hx; simp only [bne_iff_ne, ne_eq]; intro hh; exact hnm (hh ▸ hx)
  · rw [hr]
    have hne : Deque.del s.scids.inner seq ≠ [] := del_ne_nil hlen
    have hout : keys (Deque.del s.scids.inner seq) = out.filter (· != seq) := by
      rw [keys_del, h.out, erase_eq_filter h.nodup]
    dsimp only
    split
    · refine ⟨_, h.shrink (s' := { s with scids := { s.scids with inner := Deque.del s.scids.inner seq } }) (del_sublist _ _) rfl rfl rfl (Nat.le_refl _) h.rpt hne, ?_⟩
      intro p hp; cases hp
    · split
      · refine ⟨_, h.shrink (s' := { s with scids := { s.scids with inner := Deque.del s.scids.inner seq }, retiredScids := s.retiredScids ++ [e.cid] }) (del_sublist _ _) rfl rfl rfl (Nat.le_refl _) h.rpt hne, ?_⟩
        intro p hp; cases hp
      · rename_i n hn
        obtain ⟨h1, h2, _⟩ := lowestUsable_ok hn
        dsimp only at h1 h2
        have h3 := h.lt n ((del_sublist s.scids.inner seq).map _ |>.subset h1)
        refine ⟨_, h.shrink (s' := { s with scids := { s.scids with inner := Deque.del s.scids.inner seq }, retiredScids := s.retiredScids ++ [e.cid], retirePriorTo := n }) (del_sublist _ _) rfl rfl rfl h2 (by dsimp only; omega) hne, ?_⟩
        intro p _
        exact hout

/-- Only these parts matter on the source side. -/
theorem SInv.congr {s s' : Ids} {lim : Nat} {out : List Nat} (h : SInv s lim out) (h1 : s'.scids = s.scids)
    (h2 : s'.nextScidSeq = s.nextScidSeq) (h3 : s'.retirePriorTo = s.retirePriorTo) (h4 : s'.sourceLimit = s.sourceLimit) : SInv s' lim out where
  nodup := h1 ▸ h.nodup
  lt := by rw [h1, h2]; exact h.lt
  cids := h1 ▸ h.cids
  len := h1 ▸ h.len
  cap := h1 ▸ h.cap
  active := by rw [h1, h3]; exact h.active
  limit := h4 ▸ h.limit
  two := h4 ▸ h.two
  ne := h1 ▸ h.ne
  rpt := by rw [h2, h3]; exact h.rpt
  out := h1 ▸ h.out

/-! ### the destination side -/

structure RInv (r : SeqSet) : Prop where
  len : r.inner.length ≤ r.capacity
  nodup : r.inner.Nodup

theorem seqset_insert {r r' : SeqSet} {n : Nat} (h : r.insert n = .ok r') :
    r'.capacity = r.capacity ∧ (∀ x, x ∈ r'.inner ↔ x ∈ r.inner ∨ x = n) ∧ r.inner.length < r.capacity ∧ (RInv r → RInv r') := by
  unfold SeqSet.insert at h
  split at h
  · cases h
  rename_i hc
  split at h
  · rename_i hm
    cases h
    have hm : n ∈ r.inner := by simpa using hm
    refine ⟨rfl, fun x => ⟨Or.inl, ?_⟩, by omega, id⟩
    rintro (hx | hx)
    · exact hx
    · rw [hx]; exact hm
  · rename_i hm
    cases h
    have hm : n ∉ r.inner := by simpa using hm
    refine ⟨rfl, fun x => by simp, by omega, fun hi => ⟨?_, nodup_snoc hi.nodup hm⟩⟩
    dsimp only
    rw [List.length_append, List.length_singleton]
    omega

theorem seqset_insert_error {r : SeqSet} {n : Nat} {e : Err} : r.insert n = .error e ↔ e = .idLimit ∧ r.capacity ≤ r.inner.length := by
  unfold SeqSet.insert
  split
  · rename_i h
    simp only [Except.error.injEq]
    exact ⟨fun hh => ⟨hh.symm, h⟩, fun hh => hh.1.symm⟩
  · rename_i h
    simp only [reduceCtorEq, false_iff]
    intro hh; exact h hh.2

theorem retireAll_err (l : List Entry) (r : SeqSet) (x : Err) : (Ids.retireAll l r (some x)).2 = some x := by
  induction l generalizing r with
  | nil => rfl
  | cons e l ih =>
    unfold Ids.retireAll
    split
    · rw [Option.some_or]; exact ih _
    · exact ih _

theorem retireAll_spec (l : List Entry) (r : SeqSet) (err : Option Err) :
    (Ids.retireAll l r err).1.capacity = r.capacity ∧ (RInv r → RInv (Ids.retireAll l r err).1) ∧
    (∀ x ∈ r.inner, x ∈ (Ids.retireAll l r err).1.inner) ∧
    (∀ x ∈ (Ids.retireAll l r err).1.inner, x ∈ r.inner ∨ x ∈ keys l) ∧
    ((Ids.retireAll l r err).2 = none → err = none ∧ ∀ x ∈ keys l, x ∈ (Ids.retireAll l r err).1.inner) ∧
    (r.inner.length + l.length ≤ r.capacity → (Ids.retireAll l r err).2 = err) ∧
    (∀ x, (Ids.retireAll l r err).2 = some x → err = some x ∨ x = .idLimit) := by
  induction l generalizing r err with
  | nil => exact ⟨rfl, id, fun x hx => hx, fun x hx => Or.inl hx, fun h => ⟨h, by simp⟩, fun _ => rfl, fun x hx => Or.inl hx⟩
  | cons e l ih =>
    unfold Ids.retireAll
    cases hi : r.insert e.seq with
    | error x =>
      dsimp only
      have hfull := (seqset_insert_error.mp hi)
      obtain ⟨h1, h2, h3, h4, h5, h6, h7⟩ := ih r (err.or (some x))
      refine ⟨h1, h2, h3, fun y hy => ?_, fun hn => ?_, fun hl => ?_, fun y hy => ?_⟩
      · rcases h4 y hy with h | h
        · exact Or.inl h
        · exact Or.inr (List.mem_cons_of_mem _ h)
      · have := (h5 hn).1
        cases err <;> cases this
      · simp only [List.length_cons] at hl; omega
      · rcases h7 y hy with h | h
        · cases err with
          | none => simp only [Option.none_or, Option.some.injEq] at h; right; rw [← h]; exact hfull.1
          | some z => simp only [Option.some_or] at h; exact Or.inl h
        · exact Or.inr h
    | ok r' =>
      dsimp only
      obtain ⟨g1, g2, g3, g4⟩ := seqset_insert hi
      obtain ⟨h1, h2, h3, h4, h5, h6, h7⟩ := ih r' err
      refine ⟨by rw [h1, g1], fun h => h2 (g4 h), fun y hy => h3 y ((g2 y).mpr (Or.inl hy)), fun y hy => ?_, fun hn => ?_, fun hl => ?_, h7⟩
      · rcases h4 y hy with h | h
        · rcases (g2 y).mp h with h | h
          · exact Or.inl h
          · exact Or.inr (by rw [h]; exact List.mem_cons_self)
        · exact Or.inr (List.mem_cons_of_mem _ h)
      · refine ⟨(h5 hn).1, fun y hy => ?_⟩
        rcases List.mem_cons.mp hy with hy | hy
        · exact h3 y ((g2 y).mpr (Or.inr hy))
        · exact (h5 hn).2 y hy
      · apply h6
        simp only [List.length_cons] at hl
        have : r'.inner.length ≤ r.inner.length + 1 := by
          unfold SeqSet.insert at hi
          split at hi
          · cases hi
          · split at hi <;> cases hi
            · omega
            · simp
        rw [g1]; omega

/-- Is this connection ID or this number known? -/
def Known (s : Ids) (cid : Bytes) (seq : Nat) : Prop := ∃ e ∈ s.dcids.inner, e.cid = cid ∨ e.seq = seq

theorem known_find {s : Ids} {cid : Bytes} {seq : Nat} :
    s.dcids.inner.find? (fun e => e.cid == cid || e.seq == seq) = none ↔ ¬ Known s cid seq := by
  simp [List.find?_eq_none, Known]

/-- What happens to the numbers below the new threshold. -/
def afterRetire (s : Ids) (seq rpt : Nat) : Ids × Option Err :=
  let s := s.noteSeq seq
  if rpt > s.peerRetirePriorTo then
    let ra := Ids.retireAll (s.dcids.inner.filter (·.seq < rpt)) s.retire none
    ({ s with dcids := { s.dcids with inner := s.dcids.inner.filter fun e => !decide (e.seq < rpt) },
              retire := ra.1, peerRetirePriorTo := rpt }, ra.2)
  else (s, none)

/-- A frame with a new connection ID and a new number, not below the threshold. -/
theorem newDcid_new {s : Ids} {cid : Bytes} {seq tok rpt : Nat} (h0 : s.zeroLenDcid = false) (hk : ¬ Known s cid seq)
    (hr : rpt ≤ seq) (hp : s.peerRetirePriorTo ≤ seq) :
    (s.newDcid cid seq tok rpt).1 = ((afterRetire s seq rpt).1.insertDcid ⟨cid, seq, some tok, none⟩ (afterRetire s seq rpt).2).1 ∧
    (s.newDcid cid seq tok rpt).2.2 = ((afterRetire s seq rpt).1.insertDcid ⟨cid, seq, some tok, none⟩ (afterRetire s seq rpt).2).2 := by
  unfold Ids.newDcid
  rw [known_find.mpr hk, h0]
  simp only [Bool.false_eq_true, if_false]
  rw [if_neg (show ¬ rpt > seq by omega), if_neg (show ¬ seq < s.peerRetirePriorTo by omega)]
  unfold afterRetire
  dsimp only
  have e1 : (s.noteSeq seq).peerRetirePriorTo = s.peerRetirePriorTo := by
    unfold Ids.noteSeq; split <;> rfl
  rw [e1]
  by_cases hc : rpt > s.peerRetirePriorTo
  · rw [if_pos hc, if_pos hc, if_neg (show ¬ seq < rpt by omega)]
    exact ⟨rfl, rfl⟩
  · rw [if_neg hc, if_neg hc]
    exact ⟨rfl, rfl⟩

/-- A frame with a number below the threshold. -/
theorem newDcid_below {s : Ids} {cid : Bytes} {seq tok rpt : Nat} (h0 : s.zeroLenDcid = false) (hk : ¬ Known s cid seq)
    (hr : rpt ≤ seq) (hp : seq < s.peerRetirePriorTo) :
    s.newDcid cid seq tok rpt = ((s.markRetire seq true).1, [], (s.markRetire seq true).2) := by
  unfold Ids.newDcid
  rw [known_find.mpr hk, h0]
  simp only [Bool.false_eq_true, if_false]
  rw [if_neg (show ¬ rpt > seq by omega), if_pos hp]

/-- Every other frame leaves everything as it is. -/
theorem newDcid_other {s : Ids} {cid : Bytes} {seq tok rpt : Nat} (h : s.zeroLenDcid = true ∨ Known s cid seq ∨ seq < rpt) :
    (s.newDcid cid seq tok rpt).2 = ([], s) := by
  unfold Ids.newDcid
  split
  · rfl
  rename_i h0
  split
  · split <;> rfl
  · rename_i hn
    rw [known_find] at hn
    have : rpt > seq := by
      rcases h with h | h | h
      · exact absurd h h0
      · exact absurd h hn
      · exact h
    rw [if_pos this]

theorem afterRetire_frame (s : Ids) (seq rpt : Nat) :
    (afterRetire s seq rpt).1.scids = s.scids ∧ (afterRetire s seq rpt).1.nextScidSeq = s.nextScidSeq ∧
    (afterRetire s seq rpt).1.retirePriorTo = s.retirePriorTo ∧ (afterRetire s seq rpt).1.sourceLimit = s.sourceLimit ∧
    (afterRetire s seq rpt).1.advertise = s.advertise ∧ (afterRetire s seq rpt).1.dcids.capacity = s.dcids.capacity ∧
    (afterRetire s seq rpt).1.zeroLenDcid = s.zeroLenDcid := by
  unfold afterRetire Ids.noteSeq
  dsimp only
  split <;> split <;> exact ⟨rfl, rfl, rfl, rfl, rfl, rfl, rfl⟩

theorem afterRetire_spec (s : Ids) (seq rpt : Nat) :
    (∃ p : Entry → Bool, (afterRetire s seq rpt).1.dcids.inner = s.dcids.inner.filter p) ∧
    (afterRetire s seq rpt).1.peerRetirePriorTo = (if rpt > s.peerRetirePriorTo then rpt else s.peerRetirePriorTo) ∧
    (afterRetire s seq rpt).1.retire.capacity = s.retire.capacity ∧ (RInv s.retire → RInv (afterRetire s seq rpt).1.retire) ∧
    (∀ e, e ∈ (afterRetire s seq rpt).1.dcids.inner ↔ e ∈ s.dcids.inner ∧ (s.peerRetirePriorTo < rpt → rpt ≤ e.seq)) ∧
    (∀ x ∈ s.retire.inner, x ∈ (afterRetire s seq rpt).1.retire.inner) ∧
    (∀ x ∈ (afterRetire s seq rpt).1.retire.inner, x ∈ s.retire.inner ∨ (x ∈ keys s.dcids.inner ∧ x < rpt ∧ s.peerRetirePriorTo < rpt)) ∧
    ((afterRetire s seq rpt).2 = none → ∀ x ∈ keys s.dcids.inner, x < rpt → s.peerRetirePriorTo < rpt → x ∈ (afterRetire s seq rpt).1.retire.inner) ∧
    (∀ x, (afterRetire s seq rpt).2 = some x → x = .idLimit) ∧
    (s.retire.inner.length + s.dcids.inner.length ≤ s.retire.capacity → (afterRetire s seq rpt).2 = none) := by
  have e1 : (s.noteSeq seq).peerRetirePriorTo = s.peerRetirePriorTo := by
    unfold Ids.noteSeq; split <;> rfl
  have e2 : (s.noteSeq seq).dcids = s.dcids := by unfold Ids.noteSeq; split <;> rfl
  have e3 : (s.noteSeq seq).retire = s.retire := by unfold Ids.noteSeq; split <;> rfl
  unfold afterRetire
  dsimp only
  rw [e1]
  by_cases hc : rpt > s.peerRetirePriorTo
  · rw [if_pos hc, if_pos hc]
    dsimp only
    rw [e2, e3]
    obtain ⟨h1, h2, h3, h4, h5, h6, h7⟩ := retireAll_spec (s.dcids.inner.filter (·.seq < rpt)) s.retire none
    refine ⟨⟨_, rfl⟩, rfl, h1, h2, ?_, h3, ?_, ?_, ?_, ?_⟩
    · intro e
      rw [List.mem_filter]
      simp only [Bool.not_eq_true', decide_eq_false_iff_not, Nat.not_lt]
      exact ⟨fun h => ⟨h.1, fun _ => h.2⟩, fun h => ⟨h.1, h.2 hc⟩⟩
    · intro x hx
      rcases h4 x hx with h | h
      · exact Or.inl h
      · obtain ⟨e, he, hs⟩ := List.mem_map.mp h
        rw [List.mem_filter] at he
        refine Or.inr ⟨List.mem_map.mpr ⟨e, he.1, hs⟩, ?_, hc⟩
        have := he.2
        simp only [decide_eq_true_eq] at this
        omega
    · intro hn x hx hlt _
      apply (h5 hn).2
      obtain ⟨e, he, hs⟩ := List.mem_map.mp hx
      exact List.mem_map.mpr ⟨e, List.mem_filter.mpr ⟨he, by simp only [decide_eq_true_eq]; omega⟩, hs⟩
    · intro x hx
      rcases h7 x hx with h | h
      · cases h
      · exact h
    · intro hl
      apply h6
      have := List.length_filter_le (fun e : Entry => decide (e.seq < rpt)) s.dcids.inner
      omega
  · rw [if_neg hc, if_neg hc]
    dsimp only
    rw [e1, e2, e3]
    refine ⟨⟨fun _ => true, (List.filter_eq_self.mpr (fun _ _ => rfl)).symm⟩, rfl, rfl, id, ?_, fun x hx => hx, fun x hx => Or.inl hx, ?_, ?_, fun _ => rfl⟩
    case refine_3 => intro x hx; cases hx
    · intro e; exact ⟨fun h => ⟨h, fun hh => absurd hh hc⟩, fun h => h.1⟩
    · intro _ x _ _ hh; exact absurd hh hc

theorem insertDcid_cases (s : Ids) (e : Entry) (err : Option Err) (hn : e.seq ∉ keys s.dcids.inner) :
    (s.dcids.capacity ≤ s.dcids.inner.length ∧ s.insertDcid e err = (.error .idLimit, s)) ∨
    (s.dcids.inner.length < s.dcids.capacity ∧
      (s.insertDcid e err).2 = { s with dcids := { s.dcids with inner := s.dcids.inner ++ [e] } } ∧
      (s.insertDcid e err).1 = match err with | some x => .error x | none => .ok ()) := by
  unfold Ids.insertDcid
  cases h : s.dcids.insert e with
  | error x =>
    have := (insert_full hn).mp h
    exact Or.inl ⟨this.2, by rw [this.1]⟩
  | ok d =>
    have := insert_new hn h
    right
    dsimp only
    rw [this.1]
    cases err <;> exact ⟨this.2, rfl, rfl⟩

theorem DInv.rinv {s : Ids} {c : Nat} (h : DInv s c) : RInv s.retire := ⟨h.rlen, h.rnodup⟩

theorem DInv.markRetire {s : Ids} {c : Nat} (h : DInv s c) (n : Nat) (b : Bool) : DInv (s.markRetire n b).2 c := by
  unfold Ids.markRetire
  split
  · split
    · exact h
    · rename_i r hr
      obtain ⟨h1, _, _, h4⟩ := seqset_insert hr
      have := h4 h.rinv
      exact { nodup := h.nodup, cids := h.cids, len := h.len, cap := h.cap, two := h.two, ne := h.ne, above := h.above,
              rcap := by dsimp only; rw [h1]; exact h.rcap, rlen := this.len, rnodup := this.nodup }
  · exact { nodup := h.nodup, cids := h.cids, len := h.len, cap := h.cap, two := h.two, ne := h.ne, above := h.above,
            rcap := h.rcap, rlen := Nat.le_trans (List.length_filter_le _ _) h.rlen, rnodup := h.rnodup.filter _ }

theorem DInv.newDcid {s : Ids} {c : Nat} (h : DInv s c) (cid : Bytes) (seq tok rpt : Nat) : DInv (s.newDcid cid seq tok rpt).2.2 c := by
  by_cases ho : s.zeroLenDcid = true ∨ Known s cid seq ∨ seq < rpt
  · rw [newDcid_other ho]; exact h
  · simp only [not_or, Bool.not_eq_true, Nat.not_lt] at ho
    obtain ⟨h0, hk, hr⟩ := ho
    by_cases hp : seq < s.peerRetirePriorTo
    · rw [newDcid_below h0 hk hr hp]; exact h.markRetire _ _
    · rw [(newDcid_new h0 hk hr (by omega)).2]
      obtain ⟨⟨p, a1⟩, a2, a3, a4, a5, _, _, _, _, _⟩ := afterRetire_spec s seq rpt
      obtain ⟨_, _, _, _, _, a6, _⟩ := afterRetire_frame s seq rpt
      have hsub : (afterRetire s seq rpt).1.dcids.inner.Sublist s.dcids.inner := by rw [a1]; exact List.filter_sublist
      have hnk : seq ∉ keys (afterRetire s seq rpt).1.dcids.inner := by
        intro hm
        obtain ⟨e, he, hs⟩ := List.mem_map.mp ((hsub.map _).subset hm)
        exact hk ⟨e, he, Or.inr hs⟩
      have hnc : cid ∉ (afterRetire s seq rpt).1.dcids.inner.map (·.cid) := by
        intro hm
        obtain ⟨e, he, hs⟩ := List.mem_map.mp ((hsub.map _).subset hm)
        exact hk ⟨e, he, Or.inl hs⟩
      have hab : ∀ x ∈ keys (afterRetire s seq rpt).1.dcids.inner, (afterRetire s seq rpt).1.peerRetirePriorTo ≤ x := by
        intro x hx
        obtain ⟨e, he, hs⟩ := List.mem_map.mp hx
        have h1 := (a5 e).mp he
        have h2 := h.above x (List.mem_map.mpr ⟨e, h1.1, hs⟩)
        rw [a2]
        split
        · have := h1.2 (by omega); omega
        · exact h2
      have hri := a4 h.rinv
      have hlen := hsub.length_le
      have hl := h.len
      rcases insertDcid_cases (afterRetire s seq rpt).1 ⟨cid, seq, some tok, none⟩ (afterRetire s seq rpt).2 hnk with ⟨hf, he⟩ | ⟨hf, he, _⟩
      · rw [he]
        have hc := h.cap
        have h2 := h.two
        exact { nodup := (hsub.map _).nodup h.nodup, cids := (hsub.map _).nodup h.cids, len := by dsimp only; omega, cap := by dsimp only; rw [a6]; exact hc,
                two := h2, ne := by intro hh; dsimp only at hh; rw [hh] at hf; rw [a6, hc] at hf; simp only [List.length_nil] at hf; omega,
                above := hab, rcap := by dsimp only; rw [a3]; exact h.rcap, rlen := hri.len, rnodup := hri.nodup }
      · rw [he]
        refine { nodup := ?_, cids := ?_, len := ?_, cap := by dsimp only; rw [a6]; exact h.cap, two := h.two, ne := by dsimp only; simp,
                 above := ?_, rcap := by dsimp only; rw [a3]; exact h.rcap, rlen := hri.len, rnodup := hri.nodup }
        · dsimp only
          rw [keys, List.map_append]
          exact nodup_snoc ((hsub.map _).nodup h.nodup) hnk
        · dsimp only
          rw [List.map_append]
          exact nodup_snoc ((hsub.map _).nodup h.cids) hnc
        · dsimp only
          rw [List.length_append, List.length_singleton]
          rw [a6, h.cap] at hf
          omega
        · dsimp only
          intro x hx
          rw [keys, List.map_append] at hx
          rcases List.mem_append.mp hx with hx | hx
          · exact hab x hx
          · simp only [List.map_cons, List.map_nil, List.mem_singleton] at hx
            rw [a2, hx]
            split <;> omega

theorem DInv.retireDcid {s : Ids} {c : Nat} (h : DInv s c) (seq : Nat) : DInv (s.retireDcid seq).2 c := by
  unfold Ids.retireDcid
  split
  · exact h
  rcases remove_cases s.dcids seq with ⟨_, hr⟩ | ⟨_, _, hr⟩ | ⟨hl, e, he, hes, hr⟩
  · rw [hr]; exact h
  · rw [hr]; exact h
  · rw [hr]
    dsimp only
    have hd : DInv { s with dcids := { s.dcids with inner := Deque.del s.dcids.inner seq } } c := by
      have hs := del_sublist s.dcids.inner seq
      exact { nodup := (hs.map _).nodup h.nodup, cids := (hs.map _).nodup h.cids, len := Nat.le_trans hs.length_le h.len, cap := h.cap, two := h.two,
              ne := del_ne_nil hl, above := fun x hx => h.above x ((hs.map _).subset hx), rcap := h.rcap, rlen := h.rlen, rnodup := h.rnodup }
    have := hd.markRetire seq true
    split
    · rename_i hm; rw [hm] at this; exact this
    · rename_i hm; rw [hm] at this; exact this

theorem DInv.congr {s s' : Ids} {c : Nat} (h : DInv s c) (h1 : s'.dcids = s.dcids)
    (h2 : s'.peerRetirePriorTo = s.peerRetirePriorTo) (h3 : s'.retire = s.retire) : DInv s' c where
  nodup := h1 ▸ h.nodup
  cids := h1 ▸ h.cids
  len := h1 ▸ h.len
  cap := h1 ▸ h.cap
  two := h.two
  ne := h1 ▸ h.ne
  above := by rw [h1, h2]; exact h.above
  rcap := h3 ▸ h.rcap
  rlen := h3 ▸ h.rlen
  rnodup := h3 ▸ h.rnodup

theorem put_path {l : List Entry} {n : Nat} {e : Entry} (p : Option Nat) (h : l.find? (·.seq == n) = some e) :
    keys (Deque.put l { e with path := p }) = keys l ∧
    (Deque.put l { e with path := p }).map (·.cid) = l.map (·.cid) ∧
    (Deque.put l { e with path := p }).map (·.token) = l.map (·.token) := by
  have hs := (find_seq_some h).2
  rw [← hs] at h
  have := put_path_map (p := p) h
  refine ⟨?_, ?_, ?_⟩
  · have := congrArg (List.map fun x => x.1) this
    rw [List.map_map, List.map_map] at this; exact this
  · have := congrArg (List.map fun x => x.2.1) this
    rw [List.map_map, List.map_map] at this; exact this
  · have := congrArg (List.map fun x => x.2.2) this
    rw [List.map_map, List.map_map] at this; exact this

theorem ne_of_length {l l' : List Entry} (h : l'.length = l.length) (hn : l ≠ []) : l' ≠ [] := by
  intro hh; rw [hh] at h; exact hn (List.eq_nil_of_length_eq_zero h.symm)

theorem DInv.linkDcid {s : Ids} {c : Nat} (h : DInv s c) (seq p : Nat) : DInv (s.linkDcid seq p).2 c := by
  unfold Ids.linkDcid
  split
  · exact h
  · rename_i e he
    obtain ⟨h1, h2, _⟩ := put_path (some p) he
    have h3 := length_put s.dcids.inner { e with path := some p }
    exact { nodup := by dsimp only; rw [h1]; exact h.nodup, cids := by dsimp only; rw [h2]; exact h.cids, len := by dsimp only; rw [h3]; exact h.len,
            cap := h.cap, two := h.two, ne := ne_of_length h3 h.ne, above := by dsimp only; rw [h1]; exact h.above, rcap := h.rcap, rlen := h.rlen, rnodup := h.rnodup }

theorem above_length (r : Nat) (l : List Entry) : (above r l).length = ((keys l).filter fun x => decide (r ≤ x)).length := by
  rw [keys, List.filter_map, List.length_map]; rfl

theorem SInv.linkScid {s : Ids} {lim : Nat} {out : List Nat} (h : SInv s lim out) (seq p : Nat) : SInv (s.linkScid seq p).2 lim out := by
  unfold Ids.linkScid
  split
  · exact h
  · rename_i e he
    obtain ⟨h1, h2, _⟩ := put_path (some p) he
    have h3 := length_put s.scids.inner { e with path := some p }
    exact { nodup := by dsimp only; rw [h1]; exact h.nodup, lt := by dsimp only; rw [h1]; exact h.lt, cids := by dsimp only; rw [h2]; exact h.cids,
            len := by dsimp only; rw [h3]; exact h.len, cap := h.cap, active := by have := h.active; rw [above_length] at this ⊢; dsimp only; rw [h1]; exact this,
            limit := h.limit, two := h.two, ne := ne_of_length h3 h.ne, rpt := h.rpt, out := by dsimp only; rw [h1]; exact h.out }

/-! ### the whole endpoint -/

theorem newScidCont_dframe (s : Ids) (cid : Bytes) (t : Option Nat) (a : Bool) (p : Option Nat) :
    (s.newScidCont cid t a p).2.dcids = s.dcids ∧ (s.newScidCont cid t a p).2.peerRetirePriorTo = s.peerRetirePriorTo ∧
    (s.newScidCont cid t a p).2.retire = s.retire := by
  rcases newScidCont_cases s cid t a p with ⟨r, hr, _⟩ | ⟨d, hr, _⟩
  · rw [hr]; exact ⟨rfl, rfl, rfl⟩
  · rw [hr]
    obtain ⟨_, _, _, _, h1, h2, h3⟩ := markAdvertise_scids { s with scids := d, nextScidSeq := s.nextScidSeq + 1 } s.nextScidSeq a
    exact ⟨h1, h3, h2⟩

theorem newScid_dframe (s : Ids) (cid : Bytes) (t : Option Nat) (a : Bool) (p : Option Nat) (r : Bool) :
    (s.newScid cid t a p r).2.dcids = s.dcids ∧ (s.newScid cid t a p r).2.peerRetirePriorTo = s.peerRetirePriorTo ∧
    (s.newScid cid t a p r).2.retire = s.retire := by
  unfold Ids.newScid
  split
  · exact ⟨rfl, rfl, rfl⟩
  split
  · split
    · exact ⟨rfl, rfl, rfl⟩
    split
    · exact ⟨rfl, rfl, rfl⟩
    · exact newScidCont_dframe _ _ _ _ _
  · exact newScidCont_dframe _ _ _ _ _

theorem retireScid_dframe (s : Ids) (seq : Nat) (d : Bytes) :
    (s.retireScid seq d).2.dcids = s.dcids ∧ (s.retireScid seq d).2.peerRetirePriorTo = s.peerRetirePriorTo ∧
    (s.retireScid seq d).2.retire = s.retire := by
  unfold Ids.retireScid
  split
  · exact ⟨rfl, rfl, rfl⟩
  split
  · exact ⟨rfl, rfl, rfl⟩
  · exact ⟨rfl, rfl, rfl⟩
  · dsimp only
    split
    · exact ⟨rfl, rfl, rfl⟩
    · split <;> exact ⟨rfl, rfl, rfl⟩

theorem newDcid_sframe (s : Ids) (cid : Bytes) (seq tok rpt : Nat) :
    (s.newDcid cid seq tok rpt).2.2.scids = s.scids ∧ (s.newDcid cid seq tok rpt).2.2.nextScidSeq = s.nextScidSeq ∧
    (s.newDcid cid seq tok rpt).2.2.retirePriorTo = s.retirePriorTo ∧ (s.newDcid cid seq tok rpt).2.2.sourceLimit = s.sourceLimit ∧
    (s.newDcid cid seq tok rpt).2.2.advertise = s.advertise := by
  by_cases ho : s.zeroLenDcid = true ∨ Known s cid seq ∨ seq < rpt
  · rw [newDcid_other ho]; exact ⟨rfl, rfl, rfl, rfl, rfl⟩
  · simp only [not_or, Bool.not_eq_true, Nat.not_lt] at ho
    obtain ⟨h0, hk, hr⟩ := ho
    by_cases hp : seq < s.peerRetirePriorTo
    · rw [newDcid_below h0 hk hr hp]
      obtain ⟨r, hr⟩ := markRetire_frame s seq true
      dsimp only
      rw [hr]; exact ⟨rfl, rfl, rfl, rfl, rfl⟩
    · rw [(newDcid_new h0 hk hr (by omega)).2]
      obtain ⟨a1, a2, a3, a4, a5, _⟩ := afterRetire_frame s seq rpt
      unfold Ids.insertDcid
      split
      · exact ⟨a1, a2, a3, a4, a5⟩
      · dsimp only
        split <;> exact ⟨a1, a2, a3, a4, a5⟩

theorem retireDcid_sframe (s : Ids) (seq : Nat) :
    (s.retireDcid seq).2.scids = s.scids ∧ (s.retireDcid seq).2.nextScidSeq = s.nextScidSeq ∧
    (s.retireDcid seq).2.retirePriorTo = s.retirePriorTo ∧ (s.retireDcid seq).2.sourceLimit = s.sourceLimit ∧
    (s.retireDcid seq).2.advertise = s.advertise := by
  unfold Ids.retireDcid
  split
  · exact ⟨rfl, rfl, rfl, rfl, rfl⟩
  split
  · exact ⟨rfl, rfl, rfl, rfl, rfl⟩
  · exact ⟨rfl, rfl, rfl, rfl, rfl⟩
  · rename_i d _
    obtain ⟨r, hr⟩ := markRetire_frame { s with dcids := d } seq true
    split
    · rename_i hm; rw [hm] at hr; dsimp only at hr ⊢; rw [hr]; exact ⟨rfl, rfl, rfl, rfl, rfl⟩
    · rename_i hm; rw [hm] at hr; dsimp only at hr ⊢; rw [hr]; exact ⟨rfl, rfl, rfl, rfl, rfl⟩

structure Inv (st : St) (c : Nat) : Prop where
  src : ∃ out, SInv st.ids st.lim out ∧ (st.closed = false → out = st.out)
  dst : DInv st.ids c

/-- The limit in force for an advertised value. -/
def atLeastTwo (n : Nat) : Nat := if n < 2 then 2 else n

theorem Inv.start (limit : Nat) (scid dcid : Bytes) (st dt : Option Nat) :
    Inv (start limit scid dcid st dt) (atLeastTwo limit) where
  src := ⟨[0], { nodup := by simp [Cid.start, new, Ids.setInitialDcid], lt := by simp [Cid.start, new, Ids.setInitialDcid],
                 cids := by simp [Cid.start, new, Ids.setInitialDcid], len := by simp [Cid.start, new, Ids.setInitialDcid],
                 cap := by simp [Cid.start, new, Ids.setInitialDcid], active := by simp [Cid.start, new, Ids.setInitialDcid],
                 limit := by simp [Cid.start, new, Ids.setInitialDcid], two := by simp [Cid.start, new, Ids.setInitialDcid],
                 ne := by simp [Cid.start, new, Ids.setInitialDcid], rpt := by simp [Cid.start, new, Ids.setInitialDcid],
                 out := by simp [Cid.start, new, Ids.setInitialDcid] }, fun _ => rfl⟩
  dst := { nodup := by simp [Cid.start, new, Ids.setInitialDcid], cids := by simp [Cid.start, new, Ids.setInitialDcid],
           len := by simp only [Cid.start, new, Ids.setInitialDcid, List.length_singleton, atLeastTwo]; split <;> omega,
           cap := by simp only [Cid.start, new, Ids.setInitialDcid, atLeastTwo],
           two := by unfold atLeastTwo; split <;> omega, ne := by simp [Cid.start, new, Ids.setInitialDcid],
           above := by simp [Cid.start, new, Ids.setInitialDcid],
           rcap := by
            simp only [Cid.start, new, Ids.setInitialDcid, retiredMultiplier, atLeastTwo]
            have := Nat.min_le_right (2 ^ 64 - 1) ((if limit < 2 then 2 else limit) * 3)
            omega
           rlen := by simp [Cid.start, new, Ids.setInitialDcid], rnodup := by simp [Cid.start, new, Ids.setInitialDcid] }

theorem Inv.step {st : St} {c : Nat} (h : Inv st c) (ho : st.closed = false) (op : Op) : Inv (step st op) c := by
  obtain ⟨out, hs, heq⟩ := h.src
  have heq := heq ho
  subst heq
  have hd := h.dst
  cases op with
  | setLimit v =>
    refine ⟨⟨_, hs.setSourceLimit v, fun _ => rfl⟩, ?_⟩
    apply hd.congr <;> (unfold Cid.step Ids.setSourceLimit; dsimp only; split <;> rfl)
  | issue cid token r =>
    have h1 := hs.newScid cid (some token) true none r
    have h2 := newScid_dframe st.ids cid (some token) true none r
    have h3 := hd.congr h2.1 h2.2.1 h2.2.2
    simp only [Cid.step]
    generalize st.ids.newScid cid (some token) true none r = x at h1 h3
    obtain ⟨x1, x2⟩ := x
    cases x1 with
    | ok n => exact ⟨⟨_, h1, fun _ => rfl⟩, h3⟩
    | error e => exact ⟨⟨_, h1, fun _ => rfl⟩, h3⟩
  | sendNew =>
    simp only [Cid.step]
    unfold Ids.sendNew
    split
    · exact ⟨⟨_, hs, fun _ => rfl⟩, hd⟩
    · split
      · exact ⟨⟨_, hs, fun _ => rfl⟩, hd⟩
      · rename_i n _ _ _ _
        obtain ⟨m1, m2, m3, m4, m5, m6, m7⟩ := markAdvertise_scids st.ids n false
        exact ⟨⟨_, hs.congr m1 m2 m3 m4, fun _ => rfl⟩, hd.congr m5 m7 m6⟩
  | lostNew seq =>
    simp only [Cid.step]
    split
    · obtain ⟨m1, m2, m3, m4, m5, m6, m7⟩ := markAdvertise_scids st.ids seq true
      exact ⟨⟨_, hs.congr m1 m2 m3 m4, fun _ => rfl⟩, hd.congr m5 m7 m6⟩
    · exact h
  | recvNew cid seq token rpt =>
    have h1 := hd.newDcid cid seq token rpt
    obtain ⟨f1, f2, f3, f4, _⟩ := newDcid_sframe st.ids cid seq token rpt
    have h2 := hs.congr f1 f2 f3 f4
    simp only [Cid.step]
    generalize st.ids.newDcid cid seq token rpt = x at h1 h2
    obtain ⟨x1, x2, x3⟩ := x
    cases x1 with
    | ok n => exact ⟨⟨_, h2, fun _ => rfl⟩, h1⟩
    | error e => exact ⟨⟨_, h2, fun _ => rfl⟩, h1⟩
  | recvRetire seq d =>
    obtain ⟨out', h1, h2⟩ := hs.retireScid seq d
    obtain ⟨f1, f2, f3⟩ := retireScid_dframe st.ids seq d
    have h3 := hd.congr f1 f2 f3
    simp only [Cid.step]
    generalize st.ids.retireScid seq d = x at h1 h2 h3
    obtain ⟨x1, x2⟩ := x
    cases x1 with
    | ok n => exact ⟨⟨_, h1, fun _ => h2 n rfl⟩, h3⟩
    | error e => exact ⟨⟨_, h1, fun hh => by cases hh⟩, h3⟩
  | retireDcid seq =>
    obtain ⟨f1, f2, f3, f4, _⟩ := retireDcid_sframe st.ids seq
    exact ⟨⟨_, hs.congr f1 f2 f3 f4, fun _ => rfl⟩, hd.retireDcid seq⟩
  | sendRetire seq u =>
    simp only [Cid.step]
    unfold Ids.sendRetire
    split
    · exact ⟨⟨_, hs, fun _ => rfl⟩, hd⟩
    · split
      · exact ⟨⟨_, hs, fun _ => rfl⟩, hd⟩
      · have := hd.markRetire seq false
        obtain ⟨r, hr⟩ := markRetire_frame st.ids seq false
        refine ⟨⟨_, hs.congr ?_ ?_ ?_ ?_, fun _ => rfl⟩, this⟩ <;> (simp only [stepSendRetire]; rw [hr])
  | lostRetire seq =>
    simp only [Cid.step]
    split
    · have := hd.markRetire seq true
      obtain ⟨r, hr⟩ := markRetire_frame st.ids seq true
      refine ⟨⟨_, hs.congr ?_ ?_ ?_ ?_, fun _ => rfl⟩, this⟩ <;> (dsimp only; rw [hr])
    · exact h
  | linkDcid seq p =>
    have := hd.linkDcid seq p
    refine ⟨⟨_, hs.congr ?_ ?_ ?_ ?_, fun _ => rfl⟩, this⟩ <;> (simp only [Cid.step, Ids.linkDcid]; split <;> rfl)
  | linkScid seq p =>
    have := hs.linkScid seq p
    refine ⟨⟨_, this, fun _ => rfl⟩, hd.congr ?_ ?_ ?_⟩ <;> (simp only [Cid.step, Ids.linkScid]; split <;> rfl)

theorem Inv.run {st : St} {c : Nat} (h : Inv st c) (ops : List Op) : Inv (run st ops) c := by
  induction ops generalizing st with
  | nil => exact h
  | cons op ops ih =>
    apply ih
    unfold stepOpen
    split
    · exact h
    · rename_i ho
      exact h.step (by simpa using ho) op

end Verif.Cid
