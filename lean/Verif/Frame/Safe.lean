import Verif.Frame.Encode

/-! The parser never panics; what the serialiser returns. -/

namespace Verif.Frame
open Verif Verif.Io

theorem safe_insert {r : Ranges.RangeSet} {s e : Nat} (hi : Ranges.Inv r) (hc : 4 ≤ r.capacity) (hse : s ≤ e) :
    Safe (insertRange r s e) (fun r' => Ranges.Inv r' ∧ 4 ≤ r'.capacity) := by
  obtain ⟨r', h⟩ := Ranges.insert_isSome (st := r) (item := (s, e)) (.inr ⟨hc, hi.2.2⟩)
  unfold insertRange
  rw [h]
  obtain ⟨i1, i2, _⟩ := Ranges.insert_spec hi hse h
  exact Safe.pure ⟨i1, by omega⟩

theorem safe_blocks (n : Nat) : ∀ (smallest : Nat) (r : Ranges.RangeSet), Ranges.Inv r → 4 ≤ r.capacity →
    Safe (ackBlocks n smallest r) (fun _ => True) := by
  induction n with
  | zero => intro _ r _ _; exact Safe.pure trivial
  | succ n ih =>
    intro smallest r hi hc
    refine Safe.bind (safe_varint distinct) fun gap _ => ?_
    split
    · exact Safe.fail (by decide)
    · refine Safe.bind (safe_varint distinct) fun len _ => ?_
      split
      · exact Safe.fail (by decide)
      · exact Safe.bind (safe_insert hi hc (by omega)) fun r' h => ih _ r' h.1 h.2

theorem safe_parse (ty : Nat) : Safe (parse ty) (fun _ => True) := by
  have v := safe_varint distinct
  have vb := safe_varBytes distinct
  have by' := safe_bytes distinct
  have p : ∀ f : Frame, Safe (pure f : P Frame) (fun _ => True) := fun f => Safe.pure trivial
  have st : ∀ ty, Safe (parseStream ty) (fun _ => True) := by
    intro ty
    refine Safe.bind v fun id _ => Safe.bind (Q := fun _ => True) ?_ fun off _ => Safe.bind (Q := fun _ => True) ?_ fun len _ => ?_
    · split
      · exact v.mono fun _ _ => trivial
      · exact Safe.pure trivial
    · split
      · exact v.mono fun _ _ => trivial
      · exact safe_cap
    · split
      · exact Safe.fail (by decide)
      · exact Safe.bind (by' len) fun d _ => p _
  have dg : ∀ ty, Safe (parseDatagram ty) (fun _ => True) := by
    intro ty
    refine Safe.bind (Q := fun _ => True) ?_ fun len _ => Safe.bind (by' len) fun d _ => p _
    split
    · exact v.mono fun _ _ => trivial
    · exact safe_cap
  have ak : ∀ ty, Safe (parseAck ty) (fun _ => True) := by
    intro ty
    refine Safe.bind v fun largest _ => Safe.bind v fun delay _ => Safe.bind v fun count _ =>
      Safe.bind v fun first _ => ?_
    split
    · exact Safe.fail (by decide)
    · refine Safe.bind (safe_insert (Ranges.inv_new _) (by simp [defaultRanges, Ranges.RangeSet.new, Ranges.RangeSet.capacity]) (by omega)) fun r hr =>
        Safe.bind (safe_blocks _ _ r hr.1 hr.2) fun r _ => ?_
      split
      · exact Safe.bind v fun _ _ => Safe.bind v fun _ _ => Safe.bind v fun _ _ => p _
      · exact p _
  have i1 : ∀ g : Nat → Frame, Safe (do let a ← (varint : P Nat); pure (g a)) (fun _ => True) :=
    fun g => Safe.bind v fun _ _ => p _
  have i2 : ∀ g : Nat → Nat → Frame, Safe (do let a ← (varint : P Nat); let b ← (varint : P Nat); pure (g a b)) (fun _ => True) :=
    fun g => Safe.bind v fun _ _ => i1 _
  unfold parse
  split
  · refine Safe.bind (Q := fun _ => True) ?_ fun n _ => p _
    intro c hc
    obtain ⟨t, h1, h2⟩ := zeros_spec c.rest
    have hl : c.rest.length = zeros c.rest + t.length := by rw [h1]; simp [zeros_append _ h2]
    have : c.rest.length = c.buf.length - c.off := by unfold Cur.rest; simp
    unfold Cur.WF at hc
    refine ⟨_, _, rfl, rfl, by simp only; omega, by unfold Cur.WF; simp only; omega, by simp, fun _ _ => trivial⟩
  · exact p _
  · exact ak _
  · exact ak _
  · exact Safe.bind v fun _ _ => i2 _
  · exact i2 _
  · exact Safe.bind v fun _ _ => Safe.bind vb fun _ _ => p _
  · refine Safe.bind v fun n _ => ?_
    split
    · exact Safe.fail (by decide)
    · exact Safe.bind (by' n) fun _ _ => p _
  · exact st _
  · exact st _
  · exact st _
  · exact st _
  · exact st _
  · exact st _
  · exact st _
  · exact st _
  · exact i1 _
  · exact i2 _
  · exact i1 _
  · exact i1 _
  · exact i1 _
  · exact i2 _
  · exact i1 _
  · exact i1 _
  · refine Safe.bind v fun _ _ => Safe.bind v fun _ _ => Safe.bind (safe_getU distinct 1) fun n _ => ?_
    split
    · exact Safe.fail (by decide)
    · exact Safe.bind (by' n) fun _ _ => Safe.bind (by' 16) fun _ _ => p _
  · exact i1 _
  · exact Safe.bind (by' 8) fun _ _ => p _
  · exact Safe.bind (by' 8) fun _ _ => p _
  · exact Safe.bind v fun _ _ => Safe.bind v fun _ _ => Safe.bind vb fun _ _ => p _
  · exact Safe.bind v fun _ _ => Safe.bind vb fun _ _ => p _
  · exact p _
  · exact dg _
  · exact dg _
  · exact Safe.fail (by decide)

theorem safe_fromBytes (pkt : PktType) : Safe (fromBytes pkt) (fun _ => True) := by
  refine Safe.bind (safe_varint distinct) fun ty _ => Safe.bind (safe_parse ty) fun f _ => ?_
  split
  · exact Safe.pure trivial
  · exact Safe.fail (by decide)

/-- `to_bytes` returns the number of bytes written. -/
theorem toBytes_writes {f : Frame} {bs : Bytes} (h : Writes (put f) bs ()) :
    Writes (toBytes f) bs bs.length := by
  constructor
  · intro c hc hl
    obtain ⟨c', h1, h2⟩ := h.ok c hc hl
    refine ⟨c', ?_, h2⟩
    have e : toBytes f c = match put f c with
        | (.ok (), c') => (.ok (c.cap - c'.cap), c')
        | (.error e, c') => (.error e, c') := by
      rcases hp : put f c with ⟨r, c1⟩
      show (put f >>= fun _ => (cap : P Nat) >>= fun after => pure (c.cap - after)) c = _
      rw [bind_run, hp]
      cases r with
      | error e => rfl
      | ok u => rfl
    rw [e, h1]
    simp only
    rw [Wr.cap h2]
    congr 2
    omega
  · intro c hc hl
    obtain ⟨c', h1⟩ := h.short c hc hl
    refine ⟨c', ?_⟩
    show (put f >>= fun _ => (cap : P Nat) >>= fun after => pure (c.cap - after)) c = _
    rw [bind_run, h1]

end Verif.Frame
