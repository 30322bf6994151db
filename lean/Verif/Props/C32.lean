import Verif.Props.C29

/-!
# C32: ACK frames denote exactly the acknowledged packet numbers

A normalised set survives the ACK frame; a decoded set is exactly the one the
fields describe over the integers, so none of its numbers is made up; and fields
describing a negative packet number are rejected.
-/

namespace Verif.C32
open Verif Verif.Io Verif.Frame

/-- `n` is in the set. -/
def In (n : Nat) (r : Ranges.RangeSet) : Prop := ∃ x ∈ r.ranges, x.1 ≤ n ∧ n < x.2

/-- A set of packet numbers written in an ACK frame is read back. -/
theorem same_set (delay : Nat) (r : Ranges.RangeSet) (ecn : Option Ecn) (hd : delay < 2 ^ 62)
    (hr : AckOk r.ranges) (he : ∀ e, ecn = some e → e.ect0 < 2 ^ 62 ∧ e.ect1 < 2 ^ 62 ∧ e.ce < 2 ^ 62)
    (pkt : PktType) (hp : pkt ≠ .zeroRTT) (c c' : Cur) (hc : c.WF) (n : Nat)
    (hw : toBytes (.ack delay r ecn) c = (.ok n, c')) (tail : Bytes) :
    ∃ r', fromBytes pkt (Cur.withSlice ((c'.buf.drop c.off).take n ++ tail)) =
        (.ok (.ack delay r' ecn), { buf := (c'.buf.drop c.off).take n ++ tail, off := n }) ∧
      r'.ranges = r.ranges ∧ ∀ k, In k r' ↔ In k r := by
  obtain ⟨g, h1, h2⟩ := C29.round_trip (.ack delay r ecn) ⟨hd, hr, he⟩ pkt
    (by cases pkt <;> simp_all [Permitted]) c c' hc n hw tail trivial
  cases g <;> simp [Same] at h1
  obtain ⟨rfl, e, rfl⟩ := h1
  exact ⟨_, h2, e.symm, fun k => by unfold In; rw [e]⟩

/-- Numbers of a decoded set are those of the ranges the fields describe; the set
is not empty and in normal form. -/
theorem as_described (pkt : PktType) (c c' : Cur) (hc : c.WF) (delay : Nat) (r : Ranges.RangeSet)
    (ecn : Option Ecn) (h : fromBytes pkt c = (.ok (.ack delay r ecn), c')) :
    ∃ bs largest first blocks, c.rest = bs ++ c'.rest ∧
      Spells ([.int (if ecn.isSome then 3 else 2), .int largest, .int delay, .int blocks.length, .int first] ++
        blockFields blocks ++ ecnFields ecn) bs ∧
      (∀ k : Nat, In k r ↔ ∃ x ∈ acked largest first blocks, x.1 ≤ k ∧ (k : Int) ≤ x.2) ∧
      (∀ x ∈ acked largest first blocks, 0 ≤ x.1 ∧ x.1 ≤ x.2 ∧ x.2 < 2 ^ 62) ∧
      AckOk r.ranges := by
  obtain ⟨bs, h1, h2, h3, ⟨ty, fs, hs, hb⟩, _⟩ := decode_sound hc h
  have hack : ∃ w, AckBody fs (.ack delay r ecn) w ∧ ty = if w then 3 else 2 := by
    unfold Body at hb
    split at hb
    all_goals first
      | exact ⟨false, hb, rfl⟩
      | exact ⟨true, hb, rfl⟩
      | (exfalso; unfold StreamBody at hb; simp at hb; done)
      | (exfalso; simp at hb; done)
  obtain ⟨w, ⟨largest, delay', first, blocks, r', ecn', rfl, hset, hw, hf⟩, rfl⟩ := hack
  cases hf
  have hlargest : largest < 2 ^ 62 := spells_mem hs (by simp)
  have hlo : ∀ x ∈ acked largest first blocks, 0 ≤ x.1 := by
    intro x hx; rw [← hset] at hx
    obtain ⟨y, _, rfl⟩ := List.mem_map.mp hx
    unfold incl; simp only; omega
  -- descending, at least two apart
  have desc : ∀ (bl : List (Nat × Nat)) (sm : Int),
      (∀ x ∈ ackedFrom sm bl, x.1 ≤ x.2 ∧ x.2 + 2 ≤ sm) ∧
      (ackedFrom sm bl).Pairwise (fun a b => b.2 + 2 ≤ a.1) := by
    intro bl
    induction bl with
    | nil => intro sm; simp [ackedFrom]
    | cons b t ih =>
      intro sm
      obtain ⟨gap, len⟩ := b
      simp only [ackedFrom, List.mem_cons, forall_eq_or_imp, List.pairwise_cons]
      have hi := ih (sm - gap - 2 - len)
      refine ⟨⟨⟨by omega, by omega⟩, fun x hx => ?_⟩, fun x hx => (hi.1 x hx).2, hi.2⟩
      have := hi.1 x hx; omega
  have hd := desc blocks ((largest : Int) - first)
  have hall : ∀ x ∈ acked largest first blocks, 0 ≤ x.1 ∧ x.1 ≤ x.2 ∧ x.2 < 2 ^ 62 := by
    intro x hx
    have h0 := hlo x hx
    rcases List.mem_cons.mp hx with rfl | hx
    · simp only at h0 ⊢; omega
    · have := hd.1 x hx
      have h1 : (0 : Int) ≤ first := by omega
      omega
  have hpw : (acked largest first blocks).Pairwise (fun a b => b.2 + 2 ≤ a.1) := by
    unfold acked; rw [List.pairwise_cons]
    exact ⟨fun x hx => (hd.1 x hx).2, hd.2⟩
  refine ⟨bs, largest, first, blocks, h1, ?_, ?_, hall, ?_⟩
  · rw [← hw] at hs
    simpa using hs
  · intro k
    rw [← hset]
    constructor
    · rintro ⟨x, hx, hk⟩
      exact ⟨incl x, List.mem_map.mpr ⟨x, List.mem_reverse.mpr hx, rfl⟩, by unfold incl; simp only; omega,
        by unfold incl; simp only; omega⟩
    · rintro ⟨_, hx, hk⟩
      obtain ⟨y, hy, rfl⟩ := List.mem_map.mp hx
      unfold incl at hk; simp only at hk
      exact ⟨y, List.mem_reverse.mp hy, by omega, by omega⟩
  · rw [← hset] at hall hpw
    rw [List.pairwise_map, List.pairwise_reverse] at hpw
    refine ⟨?_, hpw.imp ?_, ?_⟩
    · intro he
      rw [he] at hset
      simp [acked] at hset
    · intro a b hab
      unfold incl at hab; simp only at hab; omega
    · intro x hx
      have := hall (incl x) (List.mem_map.mpr ⟨x, List.mem_reverse.mpr hx, rfl⟩)
      unfold incl at this; simp only at this; omega

/-- `p` fails in front of `bs ++ tail`. -/
def Fails {α : Type} (p : P α) (bs tail : Bytes) : Prop :=
  ∀ c : Cur, c.WF → c.rest = bs ++ tail → ∃ c', p c = (.error .invalidFrame, c')

theorem Fails.bind {α β : Type} {p : P α} {f : α → P β} {b1 b2 tail : Bytes} {a : α}
    (h1 : Reads p b1 (b2 ++ tail) a) (h2 : Fails (f a) b2 tail) : Fails (p >>= f) (b1 ++ b2) tail := by
  intro c hc hr
  rw [List.append_assoc] at hr
  obtain ⟨w, r⟩ := advance hc hr
  rw [bind_run, h1 c hc hr]
  exact h2 _ w r

theorem Fails.first {α β : Type} {p : P α} {f : α → P β} {bs tail : Bytes}
    (h1 : Fails p bs tail) : Fails (p >>= f) bs tail := by
  intro c hc hr
  obtain ⟨c', h⟩ := h1 c hc hr
  exact ⟨c', by rw [bind_run, h]⟩

theorem fails_fail {α : Type} (bs tail : Bytes) : Fails (Io.fail .invalidFrame : P α) bs tail :=
  fun c _ _ => ⟨c, rfl⟩

theorem reads_int {v : Nat} {bs : Bytes} (tail : Bytes) (h : IsVarint v bs) : Reads (varint : P Nat) bs tail v :=
  gram_varint.complete [.int v] bs tail v rfl (spells_one.mpr h)

theorem blocks_fail (blocks : List (Nat × Nat)) : ∀ (smallest : Nat) (r : Ranges.RangeSet) (bs tail : Bytes)
    (rest : List Field), Ranges.Inv r → 4 ≤ r.capacity → Spells (blockFields blocks ++ rest) bs →
    (∃ x ∈ ackedFrom smallest blocks, x.1 < 0) → Fails (ackBlocks blocks.length smallest r) bs tail := by
  induction blocks with
  | nil => intro _ _ _ _ _ _ _ _ h; simp [ackedFrom] at h
  | cons b t ih =>
    obtain ⟨gap, len⟩ := b
    intro smallest r bs tail rest hi hcap hs hneg
    obtain ⟨b1, _, rfl, s1, b2, b3, rfl, s2, s3⟩ := hs
    refine Fails.bind (reads_int _ s1) ?_
    by_cases h1 : smallest < 2 + gap
    · rw [if_pos h1]; exact fails_fail _ _
    rw [if_neg h1]
    refine Fails.bind (reads_int _ s2) ?_
    by_cases h2 : smallest - gap - 2 < len
    · rw [if_pos h2]; exact fails_fail _ _
    rw [if_neg h2]
    obtain ⟨r', hr'⟩ := Ranges.insert_isSome (st := r)
      (item := (smallest - gap - 2 - len, smallest - gap - 2 + 1)) (.inr ⟨hcap, hi.2.2⟩)
    obtain ⟨i1, i2, _⟩ := Ranges.insert_spec hi (by omega) hr'
    have hins : insertRange r (smallest - gap - 2 - len) (smallest - gap - 2 + 1) = pure r' := by
      unfold insertRange; rw [hr']
    rw [hins]
    have ez : ((smallest - gap - 2 - len : Nat) : Int) = (smallest : Int) - gap - 2 - len := by omega
    refine ih _ r' b3 tail rest i1 (by omega) s3 ?_
    obtain ⟨x, hx, hx0⟩ := hneg
    rw [ez]
    rcases List.mem_cons.mp hx with rfl | hx
    · simp only at hx0; omega
    · exact ⟨x, hx, hx0⟩

/-- Fields describing a negative packet number are rejected. -/
theorem underflow_rejected (pkt : PktType) (c : Cur) (hc : c.WF) (ty largest delay first : Nat)
    (blocks : List (Nat × Nat)) (rest : List Field) (bs tail : Bytes) (hty : ty = 2 ∨ ty = 3)
    (hr : c.rest = bs ++ tail)
    (hs : Spells ([.int ty, .int largest, .int delay, .int blocks.length, .int first] ++
      blockFields blocks ++ rest) bs)
    (hneg : ∃ x ∈ acked largest first blocks, x.1 < 0) :
    ∃ c', fromBytes pkt c = (.error .invalidFrame, c') := by
  obtain ⟨b0, _, rfl, s0, b1, _, rfl, s1, b2, _, rfl, s2, b3, _, rfl, s3, b4, b5, rfl, s4, s5⟩ := hs
  have hp : parse ty = parseAck ty := by rcases hty with rfl | rfl <;> rfl
  suffices h : Fails (fromBytes pkt) (b0 ++ (b1 ++ (b2 ++ (b3 ++ (b4 ++ b5))))) tail from h c hc hr
  refine Fails.bind (reads_int _ s0) (Fails.first ?_)
  rw [hp]
  refine Fails.bind (reads_int _ s1) (Fails.bind (reads_int _ s2) (Fails.bind (reads_int _ s3)
    (Fails.bind (reads_int _ s4) ?_)))
  by_cases h1 : largest < first
  · rw [if_pos h1]; exact fails_fail _ _
  rw [if_neg h1]
  have hcap : defaultRanges.capacity = 2 ^ 64 - 1 := rfl
  have hi : Ranges.Inv defaultRanges := Ranges.inv_new _
  obtain ⟨r', hr'⟩ := Ranges.insert_isSome (st := defaultRanges)
    (item := (largest - first, largest + 1)) (.inr ⟨by rw [hcap]; decide, hi.2.2⟩)
  obtain ⟨i1, i2, _⟩ := Ranges.insert_spec hi (by omega) hr'
  have hins : insertRange defaultRanges (largest - first) (largest + 1) = pure r' := by
    unfold insertRange; rw [hr']
  rw [hins]
  have ez : ((largest - first : Nat) : Int) = (largest : Int) - first := by omega
  refine Fails.first (p := ackBlocks blocks.length (largest - first) r') (blocks_fail blocks _ r' b5 tail rest i1 (by omega) s5 ?_)
  obtain ⟨x, hx, hx0⟩ := hneg
  rw [ez]
  rcases List.mem_cons.mp hx with rfl | hx
  · simp only at hx0; omega
  · exact ⟨x, hx, hx0⟩

/-! ### Concrete cases -/

/-- Packets 7-9 and, after a gap of two, 3-4. -/
example : acked 9 2 [(1, 1)] = [(7, 9), (3, 4)] := by decide
/-- The gap leads below zero: 7-9, then a range ending at -1. -/
example : fromBytes .short (Cur.withSlice [2, 9, 0, 1, 2, 6, 0]) =
    (.error .invalidFrame, ⟨[2, 9, 0, 1, 2, 6, 0], 6⟩) := by decide +kernel
example : ∃ x ∈ acked 9 2 [(6, 0)], x.1 < 0 := ⟨(-1, -1), by decide, by decide⟩
/-- One less is packet 0. -/
example : (fromBytes .short (Cur.withSlice [2, 9, 0, 1, 2, 5, 0])).1 =
    .ok (.ack 0 (.inline [(0, 1), (7, 10)] (2 ^ 64 - 1)) none) := by decide +kernel

end Verif.C32
