import Verif.Cid.Inv

/-!
C79: what a RETIRE_CONNECTION_ID frame does.
-/

namespace Verif.Props.C79
open Verif Verif.Cid

variable {limit : Nat} {scid dcid : Bytes} {stok dtok : Option Nat}

/-- A number never issued is an error, whatever happened before: neither outstanding nor
less than some number issued. -/
theorem unissued (ops : List Op) (seq : Nat) (d : Bytes) :
    let st := run (start limit scid dcid stok dtok) ops
    st.ids.nextScidSeq ≤ seq → st.ids.retireScid seq d = (.error .invalidState, st.ids) ∧ (st.closed = false → seq ∉ st.out) := by
  intro st h
  obtain ⟨⟨out, hs, heq⟩, _⟩ := (Inv.start limit scid dcid stok dtok).run ops
  refine ⟨by unfold Ids.retireScid; rw [if_pos h], fun ho hm => ?_⟩
  rw [← heq ho, hs.out] at hm
  have := hs.lt seq hm
  exact absurd h (by simp only [st]; omega)

/-- The next number issued is the number of connection IDs issued before. -/
theorem next_number (ops : List Op) (cid : Bytes) (tok : Nat) (r : Bool) (n : Nat) :
    let st := run (start limit scid dcid stok dtok) ops
    st.closed = false → (st.ids.newScid cid (some tok) true none r).1 = .ok n → n ∉ st.out → n = st.ids.nextScidSeq := by
  intro st ho hr hn
  obtain ⟨⟨out, hs, heq⟩, _⟩ := (Inv.start limit scid dcid stok dtok).run ops
  have heq := heq ho
  have key : ∀ s : Ids, s.scids = st.ids.scids → s.nextScidSeq = st.ids.nextScidSeq →
      (s.newScidCont cid (some tok) true none).1 = .ok n → n = st.ids.nextScidSeq := by
    intro s h1 h2 hr
    rcases newScidCont_cases s cid (some tok) true none with ⟨x, hx, hc⟩ | ⟨d, hx, _⟩
    · rw [hx] at hr
      rcases hc with ⟨e, rfl⟩ | ⟨e, he, _, _, rfl⟩
      · cases hr
      · cases hr
        exfalso
        apply hn
        rw [show st.out = out from heq.symm, hs.out]
        rw [h1] at he
        exact List.mem_map.mpr ⟨e, he, rfl⟩
    · rw [hx] at hr
      cases hr
      exact h2
  unfold Ids.newScid at hr
  split at hr
  · cases hr
  split at hr
  · split at hr
    · cases hr
    split at hr
    · cases hr
    · rename_i m _
      exact key { st.ids with retirePriorTo := m + 1 } rfl rfl hr
  · exact key _ rfl rfl hr

/-- A frame retiring the connection ID of its own packet is an error. -/
theorem own_packet (ops : List Op) (e : Entry) :
    let st := run (start limit scid dcid stok dtok) ops
    e ∈ st.ids.scids.inner → ∃ x, (st.ids.retireScid e.seq e.cid).1 = .error x ∧ (x = .invalidState ∨ x = .outOfIdentifiers) := by
  intro st he
  obtain ⟨⟨out, hs, _⟩, _⟩ := (Inv.start limit scid dcid stok dtok).run ops
  unfold Ids.retireScid
  split
  · exact ⟨_, rfl, Or.inl rfl⟩
  · rcases remove_cases st.ids.scids e.seq with ⟨_, hr⟩ | ⟨_, hn, _⟩ | ⟨_, e', he', hes, hr⟩
    · rw [hr]; exact ⟨_, rfl, Or.inr rfl⟩
    · exact absurd (List.mem_map.mpr ⟨e, he, rfl⟩) hn
    · rw [hr]
      have : e' = e := eq_of_seq hs.nodup he' he hes
      subst this
      dsimp only
      rw [if_pos rfl]
      exact ⟨_, rfl, Or.inl rfl⟩

/-- An accepted frame removes that connection ID and no other, and hands it to the
application; if it was retired already, nothing changes. -/
theorem effect (ops : List Op) (seq : Nat) (d : Bytes) (p : Option Nat) :
    let st := run (start limit scid dcid stok dtok) ops
    let r := st.ids.retireScid seq d
    r.1 = .ok p →
    (∃ e ∈ st.ids.scids.inner, e.seq = seq ∧ e.cid ≠ d ∧ p = e.path ∧ r.2.retiredScids = st.ids.retiredScids ++ [e.cid] ∧
      ∀ x, x ∈ r.2.scids.inner ↔ x ∈ st.ids.scids.inner ∧ x.seq ≠ seq) ∨
    (seq ∉ keys st.ids.scids.inner ∧ p = none ∧ r.2 = st.ids) := by
  intro st r h
  obtain ⟨⟨out, hs, _⟩, _⟩ := (Inv.start limit scid dcid stok dtok).run ops
  revert h
  show (st.ids.retireScid seq d).1 = .ok p → _
  simp only [r]
  unfold Ids.retireScid
  split
  · intro h; cases h
  · rcases remove_cases st.ids.scids seq with ⟨_, hr⟩ | ⟨_, hn, hr⟩ | ⟨_, e, he, hes, hr⟩
    · rw [hr]; intro h; cases h
    · rw [hr]; intro h; cases h; exact Or.inr ⟨hn, rfl, rfl⟩
    · rw [hr]
      dsimp only
      split
      · intro h; cases h
      · rename_i hne
        split
        · intro h; cases h
        · intro h
          cases h
          exact Or.inl ⟨e, he, hes, hne, rfl, rfl, fun x => mem_del hs.nodup⟩

/-- What the application has been told is exactly one connection ID for each number issued
and no longer outstanding; `hist` lists what was accepted, with the connection IDs. -/
structure Told (st : St) (hist : List (Nat × Bytes)) : Prop where
  nums : (hist.map (·.1)).Nodup
  cids : st.ids.retiredScids = hist.map (·.2)
  apart : ∀ n ∈ hist.map (·.1), n ∉ keys st.ids.scids.inner
  old : ∀ n ∈ hist.map (·.1), n < st.ids.nextScidSeq
  all : ∀ n, n < st.ids.nextScidSeq → n ∈ keys st.ids.scids.inner ∨ n ∈ hist.map (·.1)

theorem Told.same {st st' : St} {hist : List (Nat × Bytes)} (h : Told st hist) (h1 : keys st'.ids.scids.inner = keys st.ids.scids.inner)
    (h2 : st'.ids.nextScidSeq = st.ids.nextScidSeq) (h3 : st'.ids.retiredScids = st.ids.retiredScids) : Told st' hist :=
  ⟨h.nums, by rw [h3]; exact h.cids, by rw [h1]; exact h.apart, by rw [h2]; exact h.old, by rw [h1, h2]; exact h.all⟩

theorem markAdvertise_retired (s : Ids) (n : Nat) (b : Bool) : (s.markAdvertise n b).retiredScids = s.retiredScids := by
  unfold Ids.markAdvertise; split <;> rfl

theorem newDcid_retired (s : Ids) (cid : Bytes) (seq tok rpt : Nat) : (s.newDcid cid seq tok rpt).2.2.retiredScids = s.retiredScids := by
  by_cases ho : s.zeroLenDcid = true ∨ Known s cid seq ∨ seq < rpt
  · rw [newDcid_other ho]
  · simp only [not_or, Bool.not_eq_true, Nat.not_lt] at ho
    obtain ⟨h0, hk, hr⟩ := ho
    by_cases hp : seq < s.peerRetirePriorTo
    · rw [newDcid_below h0 hk hr hp]
      obtain ⟨r, hr⟩ := markRetire_frame s seq true
      dsimp only
      rw [hr]
    · rw [(newDcid_new h0 hk hr (by omega)).2]
      have : (afterRetire s seq rpt).1.retiredScids = s.retiredScids := by
        unfold afterRetire Ids.noteSeq
        dsimp only
        split <;> split <;> rfl
      unfold Ids.insertDcid
      split
      · exact this
      · dsimp only
        split <;> exact this

theorem retireDcid_retired (s : Ids) (seq : Nat) : (s.retireDcid seq).2.retiredScids = s.retiredScids := by
  unfold Ids.retireDcid
  split
  · rfl
  split
  · rfl
  · rfl
  · rename_i d _
    obtain ⟨r, hr⟩ := markRetire_frame { s with dcids := d } seq true
    split
    · rename_i hm; rw [hm] at hr; dsimp only at hr ⊢; rw [hr]
    · rename_i hm; rw [hm] at hr; dsimp only at hr ⊢; rw [hr]

theorem Told.newScidCont {st : St} {c : Nat} {hist : List (Nat × Bytes)} (h : Told st hist) (hi : Inv st c) (cid : Bytes) (t : Nat) (r : Nat) :
    Told { st with ids := ({ st.ids with retirePriorTo := r }.newScidCont cid (some t) true none).2 } hist := by
  obtain ⟨out, hs, _⟩ := hi.src
  rcases newScidCont_cases { st.ids with retirePriorTo := r } cid (some t) true none with ⟨x, hx, _⟩ | ⟨d, hx, hd, _⟩
  · rw [hx]; exact h.same rfl rfl rfl
  · rw [hx]
    dsimp only at hd ⊢
    have hn : st.ids.nextScidSeq ∉ keys st.ids.scids.inner := fun hm => Nat.lt_irrefl _ (hs.lt _ hm)
    obtain ⟨hd, _⟩ := insert_new hn hd
    subst hd
    unfold Ids.markAdvertise
    rw [if_pos rfl]
    have hk : keys (st.ids.scids.inner ++ [⟨cid, st.ids.nextScidSeq, some t, none⟩]) = keys st.ids.scids.inner ++ [st.ids.nextScidSeq] := by simp
    refine ⟨h.nums, h.cids, ?_, ?_, ?_⟩ <;> dsimp only
    · intro n hn
      rw [hk, List.mem_append, List.mem_singleton]
      rintro (hm | hm)
      · exact h.apart n hn hm
      · have := h.old n hn; omega
    · intro n hn; have := h.old n hn; omega
    · intro n hlt
      rw [hk, List.mem_append, List.mem_singleton]
      by_cases hx : n = st.ids.nextScidSeq
      · exact Or.inl (Or.inr hx)
      · rcases h.all n (by omega) with h | h
        · exact Or.inl (Or.inl h)
        · exact Or.inr h

/-- What a step adds to the history. -/
def adds (st : St) : Op → List (Nat × Bytes)
  | .recvRetire seq d =>
    match (st.ids.retireScid seq d).1, st.ids.scids.inner.find? (·.seq == seq) with
    | .ok _, some e => [(seq, e.cid)]
    | _, _ => []
  | _ => []

theorem Told.step {st : St} {c : Nat} {hist : List (Nat × Bytes)} (h : Told st hist) (hi : Inv st c)
    (op : Op) (hopen : (Cid.step st op).closed = false) : Told (step st op) (hist ++ adds st op) := by
  obtain ⟨out, hs, _⟩ := hi.src
  cases op with
  | setLimit v =>
    rw [show adds st (.setLimit v) = [] from rfl, List.append_nil]
    simp only [Cid.step, Ids.setSourceLimit, Deque.resize]
    split
    · split <;> exact h.same rfl rfl rfl
    · exact h.same rfl rfl rfl
  | issue cid token r =>
    rw [show adds st (.issue cid token r) = [] from rfl, List.append_nil]
    simp only [Cid.step]
    have key : Told { st with ids := (st.ids.newScid cid (some token) true none r).2 } hist := by
      unfold Ids.newScid
      split
      · exact h
      split
      · split
        · exact h
        split
        · exact h
        · exact h.newScidCont hi cid token _
      · exact h.newScidCont hi cid token st.ids.retirePriorTo
    generalize st.ids.newScid cid (some token) true none r = x at key
    obtain ⟨x1, x2⟩ := x
    cases x1 <;> exact key.same rfl rfl rfl
  | sendNew =>
    rw [show adds st .sendNew = [] from rfl, List.append_nil]
    simp only [Cid.step]
    unfold Ids.sendNew
    split
    · exact h.same rfl rfl rfl
    · rename_i n _
      split
      · exact h.same rfl rfl rfl
      · obtain ⟨m1, m2, _⟩ := markAdvertise_scids st.ids n false
        exact h.same (by simp only [stepSendNew]; rw [m1]) m2 (markAdvertise_retired _ _ _)
  | lostNew seq =>
    rw [show adds st (.lostNew seq) = [] from rfl, List.append_nil]
    simp only [Cid.step]
    split
    · obtain ⟨m1, m2, _⟩ := markAdvertise_scids st.ids seq true
      exact h.same (by dsimp only; rw [m1]) m2 (markAdvertise_retired _ _ _)
    · exact h
  | recvNew cid seq token rpt =>
    rw [show adds st (.recvNew cid seq token rpt) = [] from rfl, List.append_nil]
    obtain ⟨f1, f2, f3, f4, f5⟩ := newDcid_sframe st.ids cid seq token rpt
    have f6 := newDcid_retired st.ids cid seq token rpt
    simp only [Cid.step]
    generalize st.ids.newDcid cid seq token rpt = x at f1 f2 f6
    obtain ⟨x1, x2, x3⟩ := x
    cases x1 <;> exact h.same (by simp only [stepRecvNew]; rw [f1]) f2 f6
  | recvRetire seq d =>
    simp only [Cid.step, adds] at hopen ⊢
    unfold Ids.retireScid at hopen ⊢
    split at hopen
    · cases hopen
    rename_i hlt
    rw [if_neg hlt]
    rcases remove_cases st.ids.scids seq with ⟨_, hr⟩ | ⟨_, hn, hr⟩ | ⟨_, e, he, hes, hr⟩
    · rw [hr] at hopen; cases hopen
    · rw [hr]
      rw [find_seq_none.mpr hn]
      simp only [List.append_nil]
      exact h.same rfl rfl rfl
    · rw [hr] at hopen ⊢
      have hf : st.ids.scids.inner.find? (·.seq == seq) = some e := by rw [← hes]; exact find_seq_of_mem hs.nodup he
      dsimp only at hopen ⊢
      split at hopen
      · cases hopen
      rename_i hne
      rw [if_neg hne]
      split at hopen
      · cases hopen
      · rename_i n hn
        rw [hf]
        dsimp only [stepRecvRetire]
        have hmem : seq ∈ keys st.ids.scids.inner := List.mem_map.mpr ⟨e, he, hes⟩
        have hdel : ∀ n, n ∈ keys (Deque.del st.ids.scids.inner seq) ↔ n ∈ keys st.ids.scids.inner ∧ n ≠ seq := by
          intro n
          rw [keys_del, List.Nodup.mem_erase_iff hs.nodup]
          exact ⟨fun h => ⟨h.2, h.1⟩, fun h => ⟨h.2, h.1⟩⟩
        refine ⟨?_, ?_, ?_, ?_, ?_⟩ <;> try dsimp only
        · rw [List.map_append]
          exact nodup_snoc h.nums (fun hm => h.apart seq hm hmem)
        · rw [List.map_append, h.cids]; rfl
        · intro n hn hm
          rw [List.map_append, List.mem_append] at hn
          have := (hdel n).mp hm
          rcases hn with hn | hn
          · exact h.apart n hn this.1
          · simp only [List.map_cons, List.map_nil, List.mem_singleton] at hn
            exact this.2 hn
        · intro n hn
          rw [List.map_append, List.mem_append] at hn
          rcases hn with hn | hn
          · exact h.old n hn
          · simp only [List.map_cons, List.map_nil, List.mem_singleton] at hn
            rw [hn]; exact hs.lt seq hmem
        · intro n hn
          rw [hdel, List.map_append, List.mem_append]
          by_cases hx : n = seq
          · exact Or.inr (Or.inr (by simp [hx]))
          · rcases h.all n hn with h | h
            · exact Or.inl ⟨h, hx⟩
            · exact Or.inr (Or.inl h)
  | retireDcid seq =>
    rw [show adds st (.retireDcid seq) = [] from rfl, List.append_nil]
    obtain ⟨f1, f2, f3, f4, f5⟩ := retireDcid_sframe st.ids seq
    exact h.same (by simp only [Cid.step]; rw [f1]) f2 (retireDcid_retired _ _)
  | sendRetire seq u =>
    rw [show adds st (.sendRetire seq u) = [] from rfl, List.append_nil]
    simp only [Cid.step]
    unfold Ids.sendRetire
    split
    · exact h.same rfl rfl rfl
    · split
      · exact h.same rfl rfl rfl
      · obtain ⟨r, hr⟩ := markRetire_frame st.ids seq false
        apply h.same <;> simp only [stepSendRetire] <;> rw [hr]
  | lostRetire seq =>
    rw [show adds st (.lostRetire seq) = [] from rfl, List.append_nil]
    simp only [Cid.step]
    split
    · obtain ⟨r, hr⟩ := markRetire_frame st.ids seq true
      apply h.same <;> dsimp only <;> rw [hr]
    · exact h
  | linkDcid seq p =>
    rw [show adds st (.linkDcid seq p) = [] from rfl, List.append_nil]
    apply h.same <;> (simp only [Cid.step, Ids.linkDcid] <;> split <;> rfl)
  | linkScid seq p =>
    rw [show adds st (.linkScid seq p) = [] from rfl, List.append_nil]
    simp only [Cid.step, Ids.linkScid]
    split
    · exact h
    · exact h.same (by dsimp only; rw [keys_put]) rfl rfl

/-- The accepted retirements of a whole history. -/
def accepted (st : St) : List Op → List (Nat × Bytes)
  | [] => []
  | op :: ops => (if st.closed then [] else adds st op) ++ accepted (stepOpen st op) ops

theorem open_before {st : St} {ops : List Op} (h : (run st ops).closed = false) : st.closed = false := by
  induction ops generalizing st with
  | nil => exact h
  | cons op ops ih =>
    have := ih (st := stepOpen st op) h
    unfold stepOpen at this
    split at this
    · exact this
    · rename_i ho; simpa using ho

theorem told_run {st : St} {c : Nat} {hist : List (Nat × Bytes)} (h : Told st hist) (hi : Inv st c) (ops : List Op)
    (ho : (run st ops).closed = false) : Told (run st ops) (hist ++ accepted st ops) := by
  induction ops generalizing st hist with
  | nil => simp only [accepted, List.append_nil]; exact h
  | cons op ops ih =>
    have h1 : st.closed = false := open_before (ops := op :: ops) ho
    have h2 : stepOpen st op = step st op := by unfold stepOpen; rw [h1]; rfl
    have h3 : (step st op).closed = false := by rw [← h2]; exact open_before (ops := ops) ho
    simp only [accepted]
    rw [h1, ← List.append_assoc]
    simp only [Bool.false_eq_true, if_false]
    have ho' : (run (stepOpen st op) ops).closed = false := ho
    show Told (run (stepOpen st op) ops) _
    rw [h2] at ho' ⊢
    exact ih (h.step hi op h3) (hi.step h1 op) ho'

theorem Told.start : Told (start limit scid dcid stok dtok) [] :=
  ⟨by simp, by simp [Cid.start, new, Ids.setInitialDcid], by simp, by simp, by
    intro n hn
    simp only [Cid.start, new, Ids.setInitialDcid] at hn ⊢
    left; simp; omega⟩

/-- In a connection still open, the application has been told of every accepted
retirement, in order, each number once. -/
theorem told (ops : List Op) (ho : (run (start limit scid dcid stok dtok) ops).closed = false) :
    (run (start limit scid dcid stok dtok) ops).ids.retiredScids = (accepted (start limit scid dcid stok dtok) ops).map (·.2) ∧
    ((accepted (start limit scid dcid stok dtok) ops).map (·.1)).Nodup := by
  have := told_run Told.start (Inv.start limit scid dcid stok dtok) ops ho
  rw [List.nil_append] at this
  exact ⟨this.cids, this.nums⟩

/-- And every number issued is outstanding or one the application was told of, never both. -/
theorem told_complete (ops : List Op) (ho : (run (start limit scid dcid stok dtok) ops).closed = false) (n : Nat)
    (hn : n < (run (start limit scid dcid stok dtok) ops).ids.nextScidSeq) :
    (n ∈ (run (start limit scid dcid stok dtok) ops).out ↔ n ∉ (accepted (start limit scid dcid stok dtok) ops).map (·.1)) := by
  have h := told_run Told.start (Inv.start limit scid dcid stok dtok) ops ho
  rw [List.nil_append] at h
  obtain ⟨⟨out, hs, heq⟩, _⟩ := (Inv.start limit scid dcid stok dtok).run ops
  rw [← heq ho, hs.out]
  constructor
  · intro hm ha; exact h.apart n ha hm
  · intro ha
    rcases h.all n hn with h | h
    · exact h
    · exact absurd h ha

example :
    let ops := [Op.setLimit 3, .issue [3] 7 false, .issue [4] 8 false, .sendNew, .sendNew, .recvRetire 0 [3], .recvRetire 1 [4]]
    let st := run (start 2 [1] [2] none none) ops
    st.ids.retiredScids = [[1], [3]] ∧ accepted (start 2 [1] [2] none none) ops = [(0, [1]), (1, [3])] ∧ st.out = [2] := by decide +kernel

end Verif.Props.C79
