import Verif.Cid.Inv

/-!
C40: NEW_CONNECTION_ID frames: repeats change nothing, inconsistent ones are errors,
numbers below the threshold are retired at once and announced once.

This holds for numbers the endpoint still stores. It forgets those it retired, and then
the first and the last part fail.
-/

namespace Verif.Props.C40
open Verif Verif.Cid

variable {limit : Nat} {scid dcid : Bytes} {stok dtok : Option Nat}

theorem find_known {s : Ids} {c : Nat} (h : DInv s c) {cid : Bytes} {seq : Nat} {e : Entry} (he : e ∈ s.dcids.inner)
    (hc : e.cid = cid) (hs : e.seq = seq) : s.dcids.inner.find? (fun e => e.cid == cid || e.seq == seq) = some e := by
  cases hf : s.dcids.inner.find? (fun e => e.cid == cid || e.seq == seq) with
  | none => exact absurd ⟨e, he, Or.inl hc⟩ (known_find.mp hf)
  | some x =>
    have h1 := List.mem_of_find?_eq_some hf
    have h2 := List.find?_some hf
    simp only [Bool.or_eq_true, beq_iff_eq] at h2
    rcases h2 with h2 | h2
    · have : ∀ l : List Entry, (l.map (·.cid)).Nodup → x ∈ l → e ∈ l → x = e := by
        intro l hn hx he
        induction l with
        | nil => cases hx
        | cons y l ih =>
          rw [List.map_cons, List.nodup_cons] at hn
          rcases List.mem_cons.mp hx with hx | hx <;> rcases List.mem_cons.mp he with he | he
          · rw [hx, he]
          · exact absurd (List.mem_map.mpr ⟨e, he, by rw [hc, ← h2, hx]⟩) hn.1
          · exact absurd (List.mem_map.mpr ⟨x, hx, by rw [h2, ← hc, he]⟩) hn.1
          · exact ih hn.2 hx he
      rw [this _ h.cids h1 he]
    · rw [eq_of_seq h.nodup h1 he (by rw [h2, hs])]

/-- A frame repeating a stored connection ID changes nothing. -/
theorem repeat_stored_partial (ops : List Op) (e : Entry) (tok rpt : Nat) :
    let st := run (start limit scid dcid stok dtok) ops
    st.ids.zeroLenDcid = false → e ∈ st.ids.dcids.inner → e.token = some tok →
    st.ids.newDcid e.cid e.seq tok rpt = (.ok (), [], st.ids) := by
  intro st hz he ht
  obtain ⟨_, hd⟩ := (Inv.start limit scid dcid stok dtok).run ops
  unfold Ids.newDcid
  rw [find_known hd he rfl rfl, hz]
  simp [ht]

/-- A frame accepted and stored, arriving again at once, changes nothing. -/
theorem repeat_partial (ops : List Op) (cid : Bytes) (seq tok rpt rpt' : Nat) :
    let st := run (start limit scid dcid stok dtok) ops
    let r := st.ids.newDcid cid seq tok rpt
    st.closed = false → st.ids.zeroLenDcid = false → r.1 = .ok () → st.ids.peerRetirePriorTo ≤ seq →
    r.2.2.newDcid cid seq tok rpt' = (.ok (), [], r.2.2) := by
  intro st r ho hz hr hp
  have hd := ((Inv.start limit scid dcid stok dtok).run ops).dst
  have hd' := hd.newDcid cid seq tok rpt
  have key : ∃ e ∈ r.2.2.dcids.inner, e.cid = cid ∧ e.seq = seq ∧ e.token = some tok := by
    by_cases ho : st.ids.zeroLenDcid = true ∨ Known st.ids cid seq ∨ seq < rpt
    · have he : r.2.2 = st.ids := by show (st.ids.newDcid cid seq tok rpt).2.2 = _; rw [newDcid_other ho]
      rw [he]
      have hr' : (st.ids.newDcid cid seq tok rpt).1 = .ok () := hr
      unfold Ids.newDcid at hr'
      rw [hz] at hr'
      simp only [Bool.false_eq_true, if_false] at hr'
      split at hr'
      · rename_i e hf
        split at hr'
        · cases hr'
        · rename_i hc
          simp only [ne_eq, not_or, Decidable.not_not] at hc
          exact ⟨e, List.mem_of_find?_eq_some hf, hc.1, hc.2.1, hc.2.2⟩
      · rename_i hn
        rw [known_find] at hn
        have : rpt > seq := by
          rcases ho with h | h | h
          · rw [hz] at h; cases h
          · exact absurd h hn
          · exact h
        rw [if_pos this] at hr'
        cases hr'
    · simp only [not_or, Bool.not_eq_true, Nat.not_lt] at ho
      obtain ⟨h0, hk, hr'⟩ := ho
      have h1 : r.1 = _ := (newDcid_new (tok := tok) h0 hk hr' hp).1
      have h2 : r.2.2 = _ := (newDcid_new (tok := tok) h0 hk hr' hp).2
      have hnk : seq ∉ keys (afterRetire st.ids seq rpt).1.dcids.inner := by
        intro hm
        obtain ⟨e, he, hs⟩ := List.mem_map.mp hm
        obtain ⟨_, _, _, _, a5, _⟩ := afterRetire_spec st.ids seq rpt
        exact hk ⟨e, ((a5 e).mp he).1, Or.inr hs⟩
      rcases insertDcid_cases (afterRetire st.ids seq rpt).1 ⟨cid, seq, some tok, none⟩ (afterRetire st.ids seq rpt).2 hnk with ⟨_, he⟩ | ⟨_, he, _⟩
      · rw [h1, he] at hr; cases hr
      · rw [h2, he]
        exact ⟨_, List.mem_append_right _ (List.mem_singleton.mpr rfl), rfl, rfl, rfl⟩
  obtain ⟨e, he, h1, h2, h3⟩ := key
  have hz' : r.2.2.zeroLenDcid = false := by
    show (st.ids.newDcid cid seq tok rpt).2.2.zeroLenDcid = false
    by_cases ho : st.ids.zeroLenDcid = true ∨ Known st.ids cid seq ∨ seq < rpt
    · rw [newDcid_other ho]; exact hz
    · simp only [not_or, Bool.not_eq_true, Nat.not_lt] at ho
      obtain ⟨h0, hk, hr'⟩ := ho
      rw [(newDcid_new (tok := tok) h0 hk hr' hp).2]
      obtain ⟨_, _, _, _, _, _, a7⟩ := afterRetire_frame st.ids seq rpt
      unfold Ids.insertDcid
      split
      · dsimp only; rw [a7]; exact hz
      · dsimp only; split <;> (dsimp only; rw [a7]; exact hz)
  unfold Ids.newDcid
  rw [find_known hd' he h1 h2, hz']
  simp [h1, h2, h3]

/-- A frame in conflict with a stored connection ID is an error and changes nothing. -/
theorem inconsistent (ops : List Op) (cid : Bytes) (seq tok rpt : Nat) (e : Entry) :
    let st := run (start limit scid dcid stok dtok) ops
    st.ids.zeroLenDcid = false → e ∈ st.ids.dcids.inner → e.cid = cid ∨ e.seq = seq →
    ¬ (e.cid = cid ∧ e.seq = seq ∧ e.token = some tok) →
    st.ids.newDcid cid seq tok rpt = (.error .invalidFrame, [], st.ids) := by
  intro st hz he hm hne
  obtain ⟨_, hd⟩ := (Inv.start limit scid dcid stok dtok).run ops
  unfold Ids.newDcid
  rw [hz]
  simp only [Bool.false_eq_true, if_false]
  split
  · rename_i x hx
    split
    · rfl
    · rename_i hc
      exfalso
      simp only [ne_eq, not_or, Decidable.not_not] at hc
      have hxm := List.mem_of_find?_eq_some hx
      have : e = x := by
        have h1 := find_known hd hxm hc.1 hc.2.1
        rcases hm with hm | hm
        · have hlist : ∀ l : List Entry, (l.map (·.cid)).Nodup → x ∈ l → e ∈ l → e = x := by
            intro l hn hx he
            induction l with
            | nil => cases hx
            | cons y l ih =>
              rw [List.map_cons, List.nodup_cons] at hn
              rcases List.mem_cons.mp hx with hx | hx <;> rcases List.mem_cons.mp he with he | he
              · rw [hx, he]
              · exact absurd (List.mem_map.mpr ⟨e, he, by rw [hm, ← hc.1, hx]⟩) hn.1
              · exact absurd (List.mem_map.mpr ⟨x, hx, by rw [hc.1, ← hm, he]⟩) hn.1
              · exact ih hn.2 hx he
          exact hlist _ hd.cids hxm he
        · exact eq_of_seq hd.nodup he hxm (by rw [hm, hc.2.1])
      exact hne (by rw [this]; exact hc)
  · rename_i hn
    rw [known_find] at hn
    exact absurd ⟨e, he, hm⟩ hn

/-- No stored number is below the threshold. -/
theorem none_below (ops : List Op) :
    let st := run (start limit scid dcid stok dtok) ops
    ∀ e ∈ st.ids.dcids.inner, st.ids.peerRetirePriorTo ≤ e.seq := by
  intro st e he
  have hd := ((Inv.start limit scid dcid stok dtok).run ops).dst
  exact hd.above _ (List.mem_map.mpr ⟨e, he, rfl⟩)

/-- A new connection ID with a number below the threshold is not stored; a
RETIRE_CONNECTION_ID is due for it, or too many are. -/
theorem below_retired (ops : List Op) (cid : Bytes) (seq tok rpt : Nat) :
    let st := run (start limit scid dcid stok dtok) ops
    let r := st.ids.newDcid cid seq tok rpt
    st.ids.zeroLenDcid = false → (∀ e ∈ st.ids.dcids.inner, e.cid ≠ cid) → rpt ≤ seq → seq < st.ids.peerRetirePriorTo →
    r.2.2.dcids = st.ids.dcids ∧
    (r.1 = .ok () ∧ (∀ n, n ∈ r.2.2.retire.inner ↔ n ∈ st.ids.retire.inner ∨ n = seq) ∨
     r.1 = .error .idLimit ∧ st.ids.retire.inner.length = st.ids.retire.capacity) := by
  intro st r hz hnew hr hp
  have hd := ((Inv.start limit scid dcid stok dtok).run ops).dst
  have hk : ¬ Known st.ids cid seq := by
    rintro ⟨e, he, h | h⟩
    · exact hnew e he h
    · have := none_below (limit := limit) (scid := scid) (dcid := dcid) (stok := stok) (dtok := dtok) ops e he
      rw [h] at this
      exact absurd this (Nat.not_le.mpr hp)
  have he : r = _ := newDcid_below (tok := tok) hz hk hr hp
  rw [he]
  unfold Ids.markRetire
  rw [if_pos rfl]
  cases hi : st.ids.retire.insert seq with
  | error x =>
    have := seqset_insert_error.mp hi
    dsimp only
    exact ⟨rfl, Or.inr ⟨by rw [this.1], Nat.le_antisymm hd.rlen this.2⟩⟩
  | ok s' =>
    obtain ⟨_, h2, _, _⟩ := seqset_insert hi
    exact ⟨rfl, Or.inl ⟨rfl, h2⟩⟩

/-- A frame raising the threshold: every stored number below it goes, and a
RETIRE_CONNECTION_ID is due for each, unless too many are. -/
theorem raise_retires (ops : List Op) (cid : Bytes) (seq tok rpt : Nat) :
    let st := run (start limit scid dcid stok dtok) ops
    let r := st.ids.newDcid cid seq tok rpt
    st.ids.zeroLenDcid = false → (∀ e ∈ st.ids.dcids.inner, e.cid ≠ cid ∧ e.seq ≠ seq) → rpt ≤ seq → st.ids.peerRetirePriorTo < rpt →
    r.1 = .ok () →
    r.2.2.peerRetirePriorTo = rpt ∧
    (∀ e, e ∈ r.2.2.dcids.inner ↔ (e ∈ st.ids.dcids.inner ∧ rpt ≤ e.seq) ∨ e = ⟨cid, seq, some tok, none⟩) ∧
    (∀ n, n ∈ r.2.2.retire.inner ↔ n ∈ st.ids.retire.inner ∨ (n < rpt ∧ ∃ e ∈ st.ids.dcids.inner, e.seq = n)) := by
  intro st r hz hnew hr hp hok
  have hk : ¬ Known st.ids cid seq := by
    rintro ⟨e, he, h | h⟩
    · exact (hnew e he).1 h
    · exact (hnew e he).2 h
  have hp' : st.ids.peerRetirePriorTo ≤ seq := Nat.le_trans (Nat.le_of_lt hp) hr
  have h1 : r.1 = _ := (newDcid_new (tok := tok) hz hk hr hp').1
  have h2 : r.2.2 = _ := (newDcid_new (tok := tok) hz hk hr hp').2
  obtain ⟨_, a2, _, _, a5, a6, a7, a8, _, _⟩ := afterRetire_spec st.ids seq rpt
  have hnk : seq ∉ keys (afterRetire st.ids seq rpt).1.dcids.inner := by
    intro hm
    obtain ⟨e, he, hs⟩ := List.mem_map.mp hm
    exact (hnew e ((a5 e).mp he).1).2 hs
  rcases insertDcid_cases (afterRetire st.ids seq rpt).1 ⟨cid, seq, some tok, none⟩ (afterRetire st.ids seq rpt).2 hnk with ⟨_, he⟩ | ⟨_, he, he1⟩
  · rw [h1, he] at hok; cases hok
  · rw [h1, he1] at hok
    have hnone : (afterRetire st.ids seq rpt).2 = none := by
      cases hx : (afterRetire st.ids seq rpt).2 with
      | none => rfl
      | some x => rw [hx] at hok; cases hok
    rw [h2, he]
    dsimp only
    refine ⟨by rw [a2, if_pos hp], fun e => ?_, fun n => ?_⟩
    · rw [List.mem_append, List.mem_singleton, a5 e]
      constructor
      · rintro (⟨h, h'⟩ | h)
        · exact Or.inl ⟨h, h' hp⟩
        · exact Or.inr h
      · rintro (⟨h, h'⟩ | h)
        · exact Or.inl ⟨h, fun _ => h'⟩
        · exact Or.inr h
    · constructor
      · intro hn
        rcases a7 n hn with h | ⟨h, h', _⟩
        · exact Or.inl h
        · obtain ⟨e, he, hs⟩ := List.mem_map.mp h
          exact Or.inr ⟨h', e, he, hs⟩
      · rintro (h | ⟨h', e, he, hs⟩)
        · exact a6 n h
        · exact a8 hnone n (List.mem_map.mpr ⟨e, he, hs⟩) h' hp

/-- Once a RETIRE_CONNECTION_ID frame is in a packet, no second one is due. -/
theorem announced_once (s : Ids) (seq : Nat) (u : Option Nat) (n : Nat) (h : (s.sendRetire seq u).1 = some n) :
    n = seq ∧ seq ∈ s.retire.inner ∧ some seq ≠ u ∧ (∀ m, m ∈ (s.sendRetire seq u).2.retire.inner ↔ m ∈ s.retire.inner ∧ m ≠ seq) := by
  unfold Ids.sendRetire at h ⊢
  split at h
  · cases h
  · rename_i h1
    split at h
    · cases h
    · rename_i h2
      rw [if_neg h1, if_neg h2]
      simp only [Option.some.injEq] at h
      refine ⟨h.symm, by simpa using h1, h2, fun m => ?_⟩
      simp [Ids.markRetire, SeqSet.remove, List.mem_filter]

/-- The same frame makes the endpoint announce the same retirement twice, nothing being
lost. -/
theorem announced_again :
    let st := run (start 2 [1] [2] none none)
      [.recvNew [3] 1 7 0, .recvNew [4] 2 8 2, .sendRetire 0 none, .sendRetire 1 none, .recvNew [3] 1 7 0, .sendRetire 1 none]
    st.retires = [1, 1, 0] ∧ st.closed = false := by decide +kernel

/-- A connection ID retired by the application, the peer having been told so, is stored
and handed to the next path after a repeat of the frame; a reuse of its number for another
connection ID goes unnoticed. -/
theorem resurrected :
    let st := run (start 2 [1] [2] none none) [.recvNew [3] 1 7 0, .retireDcid 1, .sendRetire 1 none]
    (st.ids.dcids.inner.map (·.seq), st.retires) = ([0], [1]) ∧
    (step st (.recvNew [3] 1 7 0)).ids.lowestAvailable = some 1 ∧ (step st (.recvNew [9] 1 99 0)).ids.lowestAvailable = some 1 := by
  decide +kernel

/-- With the queue of retirements full, a frame accepted before is an error when it comes
again, though its retirement is pending already. -/
theorem repeat_error :
    let st := run (start 2 [1] [2] none none)
      [.recvNew [3] 1 7 1, .recvNew [4] 2 8 2, .recvNew [5] 3 9 3, .recvNew [6] 4 10 4, .recvNew [7] 5 11 5, .recvNew [8] 6 12 6]
    st.closed = false ∧ 3 ∈ st.ids.retire.inner ∧ (step st (.recvNew [5] 3 9 3)).closed = true := by decide +kernel

/-- A repeat of a stored connection ID that now asks for retirements is ignored. -/
theorem retirement_ignored :
    let st := run (start 2 [1] [2] none none) [.recvNew [3] 1 7 0]
    (st.ids.newDcid [3] 1 7 1).2.2 = st.ids ∧ st.ids.dcids.inner.map (·.seq) = [0, 1] := by decide +kernel

example :
    let st := run (start 2 [1] [2] none none) [.recvNew [3] 1 7 0]
    (st.ids.newDcid [3] 2 7 0).1 = .error .invalidFrame ∧ (st.ids.newDcid [4] 1 7 0).1 = .error .invalidFrame ∧
    (st.ids.newDcid [3] 1 8 0).1 = .error .invalidFrame ∧ (st.ids.newDcid [4] 2 8 2).2.2.retire.inner = [0, 1] := by decide +kernel

end Verif.Props.C40
