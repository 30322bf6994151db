import Verif.Stream.SendInv

/-!
The first chunk of a send buffer is never fully acknowledged: `ack_and_drop` has
removed such chunks. Hence nothing is buffered any more once a stream is complete.
-/

namespace Verif.Stream.SendBuf
open Verif Ranges

/-- The first chunk reaches beyond the contiguously acknowledged data. -/
def Front (s : SendBuf) : Prop := ∀ c, s.data.head? = some c → s.ackOff < c.off' + c.len'

theorem front_new (m : Nat) : Front (new m) := by intro c h; simp [new] at h

theorem front_nil {s : SendBuf} (h : s.data = []) : Front s := by intro c hc; simp [h] at hc

theorem Front.empty {s : SendBuf} {W : Bytes} (hF : Front s) (h : SInv s W) (hc : s.isComplete = true) :
    s.data = [] ∧ s.bufferedBytes = 0 := by
  obtain ⟨F, hf, -, hm⟩ := (complete_spec h).mp hc
  have hFo := h.fin F hf
  have hd : s.data = [] := by
    cases hd : s.data with
    | nil => rfl
    | cons c t =>
      have h1 := hF c (by simp [hd])
      obtain ⟨base, hch, -⟩ := h.chain
      have h2 := hch.mem (c := c) (by simp [hd])
      have hA := (ackOffOf_spec h.inv.1).2
      exact absurd (hm s.ackOff (by omega)) hA
  exact ⟨hd, by rw [h.buf, hd]; rfl⟩

theorem appendChunks_data {fin : Bool} (cs : List Bytes) : ∀ (s : SendBuf) (n : Nat) (s' : SendBuf),
    appendChunks fin s n cs = .ok s' →
    s'.acked = s.acked ∧ ∃ ext, s'.data = s.data ++ ext ∧ ∀ c ∈ ext, s.off ≤ c.off' := by
  induction cs with
  | nil =>
    intro s n s' h
    simp only [appendChunks] at h
    split at h
    · obtain rfl := Except.ok.inj h; exact ⟨rfl, [], by simp, by simp⟩
    · simp at h
  | cons c cs ih =>
    intro s n s' h
    simp only [appendChunks] at h
    split at h
    · simp at h
    · obtain ⟨h1, ext, h2, h3⟩ := ih _ _ _ h
      refine ⟨h1, RangeBuf.mk' c s.off (n == c.length && fin) :: ext, by rw [h2]; simp, ?_⟩
      intro x hx
      rcases List.mem_cons.mp hx with rfl | hx
      · simp [RangeBuf.mk']
      · have := h3 x hx; simp only at this; omega

theorem Front.write {s s' : SendBuf} {W : Bytes} (hF : Front s) (h : SInv s W) {d : Bytes} {fin : Bool}
    {n : Nat} (hw : s.write d fin = .ok (s', n)) (h' : ∃ W', SInv s' W') : Front s' := by
  obtain ⟨W', h'⟩ := h'
  simp only [SendBuf.write, bind, Except.bind] at hw
  cases hr : s.reserveForWrite d.length fin with
  | error e => rw [hr] at hw; simp at hw
  | ok r =>
    obtain ⟨r1, r2, r3⟩ := (reserve_spec h d.length fin).2.2 r hr
    have hrd : r.1.data = s.data ∧ r.1.acked = s.acked ∧ r.1.off = s.off := by
      rw [r1]; simp only; split <;> simp
    rw [hr] at hw
    obtain ⟨s1, n1, f1⟩ := r
    simp only at hw hrd
    split at hw
    · obtain ⟨rfl, rfl⟩ := Prod.mk.inj (Except.ok.inj hw)
      intro c hc
      rw [hrd.1] at hc
      have := hF c hc
      simpa only [ackOff, hrd.2.1] using this
    · split at hw
      · simp at hw
      · next s2 ha =>
        obtain ⟨rfl, rfl⟩ := Prod.mk.inj (Except.ok.inj hw)
        obtain ⟨e1, ext, e2, e3⟩ := appendChunks_data _ _ _ _ ha
        have hA : s2.ackOff = s.ackOff := by simp only [ackOff, e1, hrd.2.1]
        intro c hc
        rw [hA]
        rw [e2, hrd.1] at hc
        cases hd : s.data with
        | nil =>
          rw [hd, List.nil_append] at hc
          have hm : c ∈ ext := List.mem_of_mem_head? hc
          have h1 := e3 c hm
          have hg := (h'.good c (by rw [e2]; simp [hm])).pos
          have h2 := h.ackOff_le
          have h3 := h.emit
          rw [hrd.2.2] at h1
          omega
        | cons x t =>
          rw [hd] at hc
          simp only [List.cons_append, List.head?_cons] at hc
          exact hF c (by rw [hd]; simpa using hc)

/-- Position and length of a chunk in the stream. -/
def place (c : RangeBuf) : Nat × Nat := (c.off', c.len')

theorem set_place {l : List RangeBuf} {i : Nat} {b b' : RangeBuf} (h : l[i]? = some b)
    (hp : place b' = place b) : (l.set i b').map place = l.map place := by
  rw [List.map_set, hp]
  apply List.ext_getElem?
  intro j
  rw [List.getElem?_set]
  split
  · next e => subst e; split <;> simp_all
  · rfl

theorem emitLoop_place (off maxD : Nat) : ∀ (fuel : Nat) (data : List RangeBuf) (pos bufd next out : Nat)
    (acc : Bytes) (r : List RangeBuf × Nat × Nat × Nat × Bytes),
    emitLoop off maxD fuel data pos bufd next out acc = .ok r → r.1.map place = data.map place := by
  intro fuel
  induction fuel with
  | zero => intro data pos bufd next out acc r h; simp only [emitLoop] at h; obtain rfl := Except.ok.inj h; rfl
  | succ fuel ih =>
    intro data pos bufd next out acc r h
    simp only [emitLoop] at h
    split at h
    · obtain rfl := Except.ok.inj h; rfl
    split at h
    · obtain rfl := Except.ok.inj h; rfl
    split at h
    · obtain rfl := Except.ok.inj h; rfl
    next b hb =>
    split at h
    · exact ih _ _ _ _ _ _ _ h
    split at h
    · simp at h
    have hs := set_place (b' := b.consume (min b.len out)) hb (by simp [place, RangeBuf.consume])
    split at h
    · obtain rfl := Except.ok.inj h; exact hs
    · exact (ih _ _ _ _ _ _ _ h).trans hs

theorem front_of_place {s s' : SendBuf} (hF : Front s) (h : s'.data.map place = s.data.map place)
    (ha : s'.acked = s.acked) : Front s' := by
  intro c hc
  have hA : s'.ackOff = s.ackOff := by simp only [ackOff, ha]
  cases hd' : s'.data with
  | nil => rw [hd'] at hc; simp at hc
  | cons x t =>
    cases hd : s.data with
    | nil => rw [hd, hd'] at h; simp at h
    | cons y u =>
      rw [hd, hd'] at h
      simp only [List.map_cons, List.cons.injEq, place, Prod.mk.injEq] at h
      rw [hd'] at hc
      simp only [List.head?_cons, Option.some.injEq] at hc
      subst hc
      have := hF y (by simp [hd])
      rw [hA]
      rw [h.1.1, h.1.2]; exact this

theorem Front.emit {s s' : SendBuf} (hF : Front s) {n : Nat} {bs : Bytes} {fin : Bool}
    (he : s.emit n = .ok (s', bs, fin)) : Front s' := by
  simp only [SendBuf.emit] at he
  split at he
  · simp at he
  · next h =>
    obtain ⟨rfl, -⟩ := Prod.mk.inj (Except.ok.inj he)
    exact front_of_place hF (emitLoop_place _ _ _ _ _ _ _ _ _ _ h) rfl

theorem Front.ackAndDrop {s s' : SendBuf} {W : Bytes} (hF : Front s) (h : SInv s W) {off len n : Nat}
    (hs : off + len ≤ s.emitOff) (he : s.ackAndDrop off len = .ok (s', n)) : Front s' := by
  obtain ⟨s2, n2, e2, hA⟩ := ackAndDrop_spec h hs
  rw [he] at e2
  obtain ⟨rfl, rfl⟩ := Prod.mk.inj (Except.ok.inj e2)
  have hg := hA.inv.good
  simp only [SendBuf.ackAndDrop, bind, Except.bind] at he
  split at he
  · simp at he
  · next s1 h1 =>
    have hs1 : s1.data = s.data := by
      simp only [ack] at h1
      split at h1
      · obtain rfl := Except.ok.inj h1; rfl
      · simp at h1
    split at he
    · next hd =>
      obtain ⟨rfl, rfl⟩ := Prod.mk.inj (Except.ok.inj he)
      exact front_nil (by simpa using hd)
    split at he
    · next hgt =>
      obtain ⟨rfl, rfl⟩ := Prod.mk.inj (Except.ok.inj he)
      have hle : s1.ackOff ≤ s.ackOff := by
        rcases Nat.lt_or_ge s.ackOff s1.ackOff with hlt | hge
        · have h5 := (ackOffOf_spec hA.inv.inv.1).1 s.ackOff hlt
          rcases (hA.mem _).mp h5 with h6 | h6
          · exact absurd h6 (ackOffOf_spec h.inv.1).2
          · omega
        · exact hge
      intro c hc
      rw [hs1] at hc
      have := hF c hc
      omega
    split at he
    · next hk =>
      obtain ⟨rfl, rfl⟩ := Prod.mk.inj (Except.ok.inj he)
      intro c hc
      have hgc := (hg c (List.mem_of_mem_head? hc)).nums
      have hgp := (hg c (List.mem_of_mem_head? hc)).pos
      cases hd : s1.data with
      | nil => rw [hd] at hc; simp at hc
      | cons x t =>
        rw [hd] at hc hk
        simp only [List.head?_cons, Option.some.injEq] at hc
        subst hc
        simp only [List.takeWhile_cons] at hk
        split at hk
        · simp at hk
        · next hx =>
          simp only [droppable, Bool.not_eq_true, Bool.not_eq_false', Bool.or_eq_true,
            Bool.and_eq_true, decide_eq_true_eq] at hx
          omega
    · obtain ⟨rfl, rfl⟩ := Prod.mk.inj (Except.ok.inj he)
      intro c hc
      have hgc := (hg c (List.mem_of_mem_head? hc)).nums
      have hgp := (hg c (List.mem_of_mem_head? hc)).pos
      have hx : droppable s1.ackOff c = false := by
        have : ∀ (l : List RangeBuf), l.drop (l.takeWhile (droppable s1.ackOff)).length =
            l.dropWhile (droppable s1.ackOff) := by
          intro l
          induction l with
          | nil => rfl
          | cons y t ih =>
            simp only [List.takeWhile_cons, List.dropWhile_cons]
            split <;> simp [ih]
        rw [this] at hc
        have := List.head?_dropWhile_not (droppable s1.ackOff) s1.data
        rw [hc] at this
        simpa using this
      simp only [droppable, Bool.not_eq_false', Bool.or_eq_true,
        Bool.and_eq_true, decide_eq_true_eq] at hx
      show s1.ackOff < _
      omega

theorem Front.retransmit {s s' : SendBuf} {W : Bytes} (hF : Front s) (h : SInv s W) {off len n : Nat}
    (he : s.retransmit off len = .ok (s', n)) : Front s' := by
  simp only [SendBuf.retransmit, bind, Except.bind] at he
  split at he
  · obtain ⟨rfl, rfl⟩ := Prod.mk.inj (Except.ok.inj he); exact hF
  split at he
  · obtain ⟨rfl, rfl⟩ := Prod.mk.inj (Except.ok.inj he); exact hF
  next hack =>
  split at he
  · simp at he
  next r hr =>
  obtain ⟨rfl, rfl⟩ := Prod.mk.inj (Except.ok.inj he)
  cases hd : s.data with
  | nil => rw [hd] at hr; simp [retransmitLoop] at hr; subst hr; exact front_nil rfl
  | cons b t =>
    have hb := hF b (by simp [hd])
    have hgb := (h.good b (by simp [hd]))
    rw [hd] at hr
    simp only [List.length_cons, retransmitLoop] at hr
    split at hr
    · obtain rfl := Except.ok.inj hr
      intro c hc
      simp only [List.head?_cons, Option.some.injEq] at hc
      subst hc; exact hb
    split at hr
    · simp only [bind, Except.bind] at hr
      split at hr
      · simp at hr
      · obtain rfl := Except.ok.inj hr
        intro c hc
        simp only [List.head?_cons, Option.some.injEq] at hc
        subst hc; exact hb
    · simp only [bind, Except.bind] at hr
      split at hr
      · next hcond =>
        have hnu := hgb.nums
        obtain ⟨b1, b2, e, g1, g2, p1, p2, p3⟩ := hgb.split (n := off + len - b.off') (by omega)
          (by omega)
        rw [e] at hr
        simp only at hr
        generalize (if off > b1.off' ∧ off ≤ b1.maxOff then _ else b1.start) = np at hr
        split at hr
        · simp at hr
        · split at hr
          · simp at hr
          · obtain rfl := Except.ok.inj hr
            intro c hc
            simp only [List.head?_cons, Option.some.injEq] at hc
            subst hc
            show s.ackOff < b1.off' + b1.len'
            omega
      · generalize (if off > b.off' ∧ off ≤ b.maxOff then _ else b.start) = np at hr
        split at hr
        · simp at hr
        · split at hr
          · simp at hr
          · obtain rfl := Except.ok.inj hr
            intro c hc
            simp only [List.head?_cons, Option.some.injEq] at hc
            subst hc; exact hb

end Verif.Stream.SendBuf
