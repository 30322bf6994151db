import Verif.Path.Table

/-!
Connection IDs point only to paths that exist.
-/

namespace Verif.Path
open Verif
open Verif.Cid (Ids Err Entry Deque)

/-- The paths connection IDs are linked to have a slot below `n`. -/
structure Linked (n : Nat) (ids : Ids) : Prop where
  dst : ∀ e ∈ ids.dcids.inner, ∀ k, e.path = some k → k < n
  src : ∀ e ∈ ids.scids.inner, ∀ k, e.path = some k → k < n

variable {n : Nat} {ids : Ids}

theorem Linked.mono {n' : Nat} (h : Linked n ids) (hn : n ≤ n') : Linked n' ids :=
  ⟨fun e he k hk => Nat.lt_of_lt_of_le (h.dst e he k hk) hn, fun e he k hk => Nat.lt_of_lt_of_le (h.src e he k hk) hn⟩

theorem Linked.of_eq {ids' : Ids} (h : Linked n ids) (h1 : ids'.dcids.inner = ids.dcids.inner) (h2 : ids'.scids.inner = ids.scids.inner) :
    Linked n ids' := ⟨by rw [h1]; exact h.dst, by rw [h2]; exact h.src⟩

theorem Linked.sub {ids' : Ids} (h : Linked n ids) (h1 : ∀ e ∈ ids'.dcids.inner, e ∈ ids.dcids.inner ∨ e.path = none)
    (h2 : ∀ e ∈ ids'.scids.inner, e ∈ ids.scids.inner ∨ e.path = none) : Linked n ids' := by
  constructor
  · intro e he k hk
    rcases h1 e he with h' | h'
    · exact h.dst e h' k hk
    · rw [hk] at h'; cases h'
  · intro e he k hk
    rcases h2 e he with h' | h'
    · exact h.src e h' k hk
    · rw [hk] at h'; cases h'

theorem mem_put {l : List Entry} {e x : Entry} (h : x ∈ Deque.put l e) : x ∈ l ∨ x = e := by
  induction l with
  | nil => cases h
  | cons y l ih =>
    unfold Deque.put at h
    split at h
    · rcases List.mem_cons.mp h with h | h
      · exact Or.inr h
      · exact Or.inl (List.mem_cons_of_mem _ h)
    · rcases List.mem_cons.mp h with h | h
      · exact Or.inl (by rw [h]; exact List.mem_cons_self)
      · rcases ih h with h | h
        · exact Or.inl (List.mem_cons_of_mem _ h)
        · exact Or.inr h

theorem mem_of_del {l : List Entry} {seq : Nat} {x : Entry} (h : x ∈ Deque.del l seq) : x ∈ l := by
  induction l with
  | nil => cases h
  | cons y l ih =>
    unfold Deque.del at h
    split at h
    · exact List.mem_cons_of_mem _ h
    · rcases List.mem_cons.mp h with h | h
      · rw [h]; exact List.mem_cons_self
      · exact List.mem_cons_of_mem _ (ih h)

theorem mem_insert {d d' : Deque} {e x : Entry} (h : d.insert e = .ok d') (hx : x ∈ d'.inner) : x ∈ d.inner ∨ x = e := by
  unfold Deque.insert at h
  split at h
  · cases h; exact mem_put hx
  · split at h
    · cases h
    · cases h
      rcases List.mem_append.mp hx with h | h
      · exact Or.inl h
      · exact Or.inr (List.mem_singleton.mp h)

theorem Linked.linkDcid (h : Linked n ids) (seq : Nat) {pid : Nat} (hp : pid < n) : Linked n (ids.linkDcid seq pid).2 := by
  unfold Ids.linkDcid
  split
  · exact h
  · refine ⟨fun x hx k hk => ?_, h.src⟩
    rcases mem_put hx with hx | hx
    · exact h.dst x hx k hk
    · rw [hx] at hk; cases hk; exact hp

theorem Linked.linkScid (h : Linked n ids) (seq : Nat) {pid : Nat} (hp : pid < n) : Linked n (ids.linkScid seq pid).2 := by
  unfold Ids.linkScid
  split
  · exact h
  · refine ⟨h.dst, fun x hx k hk => ?_⟩
    rcases mem_put hx with hx | hx
    · exact h.src x hx k hk
    · rw [hx] at hk; cases hk; exact hp

theorem Linked.markRetire (h : Linked n ids) (seq : Nat) (b : Bool) : Linked n (ids.markRetire seq b).2 := by
  unfold Ids.markRetire
  split
  · split
    · exact h
    · exact h.of_eq rfl rfl
  · exact h.of_eq rfl rfl

theorem Linked.markAdvertise (h : Linked n ids) (seq : Nat) (b : Bool) : Linked n (ids.markAdvertise seq b) := by
  unfold Ids.markAdvertise
  split <;> exact h.of_eq rfl rfl

theorem Linked.insertDcid (h : Linked n ids) {e : Entry} (he : e.path = none) (err : Option Err) : Linked n (ids.insertDcid e err).2 := by
  unfold Ids.insertDcid
  split
  · exact h
  · rename_i d hd
    have : Linked n { ids with dcids := d } := h.sub (fun x hx => by
      rcases mem_insert hd hx with h | h
      · exact Or.inl h
      · exact Or.inr (by rw [h]; exact he)) (fun x hx => Or.inl hx)
    dsimp only
    split <;> exact this

theorem Linked.newDcid (h : Linked n ids) (cid : Bytes) (seq token rpt : Nat) : Linked n (ids.newDcid cid seq token rpt).2.2 := by
  unfold Ids.newDcid
  split
  · exact h
  split
  · split <;> exact h
  split
  · exact h
  split
  · exact h.markRetire _ _
  dsimp only
  have h1 : Linked n (ids.noteSeq seq) := by
    unfold Ids.noteSeq; split
    · exact h.of_eq rfl rfl
    · exact h
  split
  · refine Linked.insertDcid (e := { cid := cid, seq := seq, token := some token, path := none }) ?_ rfl _
    exact h1.sub (fun x hx => Or.inl (List.mem_filter.mp hx).1) (fun x hx => Or.inl hx)
  · exact h1.insertDcid rfl _

theorem newDcid_paths (h : Linked n ids) (cid : Bytes) (seq token rpt : Nat) (x : Nat × Nat) (hx : x ∈ (ids.newDcid cid seq token rpt).2.1) :
    x.2 < n ∧ ∃ e ∈ ids.dcids.inner, e.seq = x.1 ∧ e.path = some x.2 := by
  unfold Ids.newDcid at hx
  split at hx
  · cases hx
  split at hx
  · split at hx <;> cases hx
  split at hx
  · cases hx
  split at hx
  · cases hx
  dsimp only at hx
  have h1 : (ids.noteSeq seq).dcids = ids.dcids := by unfold Ids.noteSeq; split <;> rfl
  split at hx
  · dsimp only at hx
    rw [h1] at hx
    obtain ⟨e, he, hm⟩ := List.mem_filterMap.mp hx
    cases hp : e.path with
    | none => rw [hp] at hm; cases hm
    | some k =>
      rw [hp] at hm
      cases hm
      have he := (List.mem_filter.mp he).1
      exact ⟨h.dst e he k hp, e, he, rfl, hp⟩
  · cases hx

theorem remove_mem {d d' : Deque} {seq : Nat} {o : Option Entry} (h : d.remove seq = .ok (o, d')) {x : Entry} (hx : x ∈ d'.inner) :
    x ∈ d.inner := by
  unfold Deque.remove at h
  split at h
  · cases h
  · cases h; exact mem_of_del hx

theorem remove_found {d d' : Deque} {seq : Nat} {e : Entry} (h : d.remove seq = .ok (some e, d')) : e ∈ d.inner ∧ e.seq = seq := by
  unfold Deque.remove Deque.get at h
  split at h
  · cases h
  · have h := Except.ok.inj h
    have h1 := (Prod.mk.inj h).1
    exact ⟨List.mem_of_find?_eq_some h1, by simpa using List.find?_some h1⟩

theorem Linked.retireScid (h : Linked n ids) (seq : Nat) (cid : Bytes) : Linked n (ids.retireScid seq cid).2 := by
  unfold Ids.retireScid
  split
  · exact h
  split
  · exact h
  · rename_i d hd
    exact h.sub (fun x hx => Or.inl hx) fun x hx => Or.inl (remove_mem hd hx)
  · rename_i e d hd
    have h1 : Linked n { ids with scids := d } := h.sub (fun x hx => Or.inl hx) fun x hx => Or.inl (remove_mem hd hx)
    dsimp only
    split
    · exact h1
    · split
      · exact h1.of_eq rfl rfl
      · exact h1.of_eq rfl rfl

theorem retireScid_path (h : Linked n ids) {seq k : Nat} {cid : Bytes} (hk : (ids.retireScid seq cid).1 = .ok (some k)) : k < n := by
  unfold Ids.retireScid at hk
  split at hk
  · cases hk
  split at hk
  · cases hk
  · cases hk
  · rename_i e d hd
    dsimp only at hk
    split at hk
    · cases hk
    · split at hk
      · cases hk
      · have hk := Except.ok.inj hk
        exact h.src e (remove_found hd).1 k hk

theorem Linked.retireDcid (h : Linked n ids) (seq : Nat) : Linked n (ids.retireDcid seq).2 := by
  unfold Ids.retireDcid
  split
  · exact h
  split
  · exact h
  · rename_i d hd
    exact h.sub (fun x hx => Or.inl (remove_mem hd hx)) fun x hx => Or.inl hx
  · rename_i e d hd
    have h1 : Linked n { ids with dcids := d } := h.sub (fun x hx => Or.inl (remove_mem hd hx)) fun x hx => Or.inl hx
    have h2 := h1.markRetire seq true
    split
    · rename_i hm; rw [hm] at h2; exact h2
    · rename_i hm; rw [hm] at h2; exact h2

theorem retireDcid_path (h : Linked n ids) {seq k : Nat} (hk : (ids.retireDcid seq).1 = .ok (some k)) : k < n := by
  unfold Ids.retireDcid at hk
  split at hk
  · cases hk
  split at hk
  · cases hk
  · cases hk
  · rename_i e d hd
    split at hk
    · cases hk
    · have hk := Except.ok.inj hk
      exact h.dst e (remove_found hd).1 k hk

theorem Linked.newScidCont (h : Linked n ids) (cid : Bytes) (token : Option Nat) (b : Bool) : Linked n (ids.newScidCont cid token b none).2 := by
  unfold Ids.newScidCont
  dsimp only
  split
  · exact h
  split
  · split <;> exact h
  · split
    · exact h
    · rename_i d hd
      apply Linked.markAdvertise
      exact h.sub (fun x hx => Or.inl hx) fun x hx => by
        rcases mem_insert hd hx with h | h
        · exact Or.inl h
        · exact Or.inr (by rw [h])

theorem Linked.newScid (h : Linked n ids) (cid : Bytes) (token : Option Nat) (b r : Bool) : Linked n (ids.newScid cid token b none r).2 := by
  unfold Ids.newScid
  split
  · exact h
  split
  · split
    · exact h
    · split
      · exact h
      · refine Linked.newScidCont ?_ _ _ _
        exact h.of_eq rfl rfl
  · exact h.newScidCont _ _ _

theorem Linked.setSourceLimit (h : Linked n ids) (v : Nat) : Linked n (ids.setSourceLimit v) := by
  unfold Ids.setSourceLimit Deque.resize
  dsimp only
  split
  · split <;> exact h.of_eq rfl rfl
  · exact h

theorem Linked.sendNew (h : Linked n ids) : Linked n ids.sendNew.2 := by
  unfold Ids.sendNew
  split
  · exact h
  · split
    · exact h
    · dsimp only; exact h.markAdvertise _ _

theorem Linked.sendRetire (h : Linked n ids) (seq : Nat) (u : Option Nat) : Linked n (ids.sendRetire seq u).2 := by
  unfold Ids.sendRetire
  split
  · exact h
  · split
    · exact h
    · exact h.markRetire _ _

end Verif.Path
