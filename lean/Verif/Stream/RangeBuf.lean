import Verif.Octets.Model

/-!
Model of `/repo/quiche/src/range_buf.rs`: a view into a shared byte buffer,
placed at an offset of a stream. The reference-counted buffer is modelled by the
list of its bytes.
-/

namespace Verif

/-- Errors of `/repo/quiche/src/error.rs` that the modelled stream code returns.
`panic` stands for a failed assertion, slice index or arithmetic underflow. -/
inductive QErr where
  | done
  | flowControl
  | finalSize
  | streamLimit
  | streamReset (code : Nat)
  | streamStopped (code : Nat)
  | invalidStreamState (id : Nat)
  | panic
  deriving DecidableEq, Repr

namespace Stream

/-- `RangeBuf` (range_buf.rs:49-76). -/
structure RangeBuf where
  data : Bytes
  start : Nat
  pos : Nat
  len' : Nat
  off' : Nat
  fin : Bool
  deriving DecidableEq, Repr

namespace RangeBuf

/-- `RangeBuf::from` and `from_raw` (range_buf.rs:83-97). -/
def mk' (data : Bytes) (off : Nat) (fin : Bool) : RangeBuf :=
  { data, start := 0, pos := 0, len' := data.length, off' := off, fin }

/-- `RangeBuf::off` (range_buf.rs:105-107). -/
def off (b : RangeBuf) : Nat := (b.off' - b.start) + b.pos

/-- `RangeBuf::len` (range_buf.rs:115-117). -/
def len (b : RangeBuf) : Nat := b.len' - (b.pos - b.start)

/-- `RangeBuf::max_off` (range_buf.rs:110-112). -/
def maxOff (b : RangeBuf) : Nat := b.off + b.len

/-- `RangeBuf::is_empty` (range_buf.rs:120-122). -/
def isEmpty (b : RangeBuf) : Bool := b.len == 0

/-- `RangeBuf::consume` (range_buf.rs:125-127). -/
def consume (b : RangeBuf) (count : Nat) : RangeBuf := { b with pos := b.pos + count }

/-- `Deref for RangeBuf` (range_buf.rs:162-164): the bytes not yet consumed. -/
def bytes (b : RangeBuf) : Bytes := (b.data.take (b.start + b.len')).drop b.pos

/-- `RangeBuf::split_off` (range_buf.rs:130-156): `(self, result)`; `none` is the
failed assertion. -/
def splitOff (b : RangeBuf) (at_ : Nat) : Option (RangeBuf × RangeBuf) :=
  if at_ ≤ b.len' then
    some ({ b with pos := min b.pos (b.start + at_), len' := at_, fin := false },
      { data := b.data, start := b.start + at_, pos := max b.pos (b.start + at_),
        len' := b.len' - at_, off' := b.off' + at_, fin := b.fin })
  else none

/-- Well-formedness of views: the slice is inside the buffer, the position inside
the slice, and none of the unsigned subtractions above underflows. -/
def WF (b : RangeBuf) : Prop :=
  b.start ≤ b.pos ∧ b.pos ≤ b.start + b.len' ∧ b.start + b.len' ≤ b.data.length ∧
  b.start ≤ b.off'

/-- The byte a view holds for stream offset `o`. -/
def byteAt (b : RangeBuf) (o : Nat) : Option UInt8 :=
  if b.off ≤ o then b.bytes[o - b.off]? else none

theorem wf_mk' (data : Bytes) (off : Nat) (fin : Bool) : (mk' data off fin).WF := by
  simp [WF, mk']

@[simp] theorem off_mk' (data : Bytes) (off : Nat) (fin : Bool) : (mk' data off fin).off = off := by
  simp [mk', RangeBuf.off]

@[simp] theorem len_mk' (data : Bytes) (off : Nat) (fin : Bool) :
    (mk' data off fin).len = data.length := by
  simp [mk', len]

@[simp] theorem bytes_mk' (data : Bytes) (off : Nat) (fin : Bool) :
    (mk' data off fin).bytes = data := by
  simp [mk', bytes]

@[simp] theorem fin_mk' (data : Bytes) (off : Nat) (fin : Bool) : (mk' data off fin).fin = fin := rfl

theorem bytes_length {b : RangeBuf} (h : b.WF) : b.bytes.length = b.len := by
  simp only [WF] at h
  simp only [bytes, len, List.length_drop, List.length_take]
  omega

theorem byteAt_isSome {b : RangeBuf} (h : b.WF) (o : Nat) :
    (b.byteAt o).isSome ↔ b.off ≤ o ∧ o < b.maxOff := by
  simp only [byteAt, maxOff]
  split
  · rw [Option.isSome_iff_ne_none, ne_eq, List.getElem?_eq_none_iff, bytes_length h]; omega
  · simp; omega

theorem byteAt_none {b : RangeBuf} (h : b.WF) {o : Nat} (ho : o < b.off ∨ b.maxOff ≤ o) :
    b.byteAt o = none := by
  have := byteAt_isSome h o
  rw [← Option.not_isSome_iff_eq_none, this]; omega

theorem byteAt_lt {b : RangeBuf} (h : b.WF) {o : Nat} {x : UInt8} (hx : b.byteAt o = some x) :
    b.off ≤ o ∧ o < b.maxOff := by
  rw [← byteAt_isSome h]; simp [hx]

/-- What consuming does to the view. -/
theorem consume_spec {b : RangeBuf} (h : b.WF) {n : Nat} (hn : n ≤ b.len) :
    (b.consume n).WF ∧ (b.consume n).off = b.off + n ∧ (b.consume n).maxOff = b.maxOff ∧
    (b.consume n).fin = b.fin ∧ (b.consume n).len = b.len - n ∧
    (b.consume n).bytes = b.bytes.drop n ∧
    ∀ o, b.off + n ≤ o → (b.consume n).byteAt o = b.byteAt o := by
  simp only [WF, len] at h hn
  have hoff : (b.consume n).off = b.off + n := by simp only [off, consume]; omega
  have hlen : (b.consume n).len = b.len - n := by simp only [len, consume]; omega
  have hb : (b.consume n).bytes = b.bytes.drop n := by
    simp only [bytes, consume, List.drop_drop]
  refine ⟨by simp only [WF, consume]; omega, hoff, ?_, rfl, hlen, hb, fun o ho => ?_⟩
  · simp only [maxOff, hoff, hlen]; simp only [len]; omega
  · simp only [byteAt, hoff, hb]
    rw [if_pos ho, if_pos (by omega), List.getElem?_drop]
    congr 1; omega

/-- What splitting does to a view whose bytes have not been consumed. -/
theorem splitOff_spec {b : RangeBuf} (h : b.WF) (hp : b.pos = b.start) {n : Nat}
    (hn : n ≤ b.len) :
    ∃ l r, b.splitOff n = some (l, r) ∧ l.WF ∧ r.WF ∧ l.pos = l.start ∧ r.pos = r.start ∧
      l.off = b.off ∧ l.maxOff = b.off + n ∧ r.off = b.off + n ∧ r.maxOff = b.maxOff ∧
      l.len = n ∧ r.len = b.len - n ∧
      l.fin = false ∧ r.fin = b.fin ∧
      l.bytes = b.bytes.take n ∧ r.bytes = b.bytes.drop n ∧
      (∀ o, o < b.off + n → l.byteAt o = b.byteAt o) ∧
      (∀ o, b.off + n ≤ o → r.byteAt o = b.byteAt o) := by
  simp only [WF, len] at h hn
  have hle : n ≤ b.len' := by omega
  have e1 : min b.pos (b.start + n) = b.start := by omega
  have e2 : max b.pos (b.start + n) = b.start + n := by omega
  have hl1 : (RangeBuf.mk b.data b.start b.start n b.off' false).bytes = b.bytes.take n := by
    simp only [bytes, hp, List.take_drop, List.take_take]
    rw [Nat.min_eq_left (by omega)]
  have hr1 : (RangeBuf.mk b.data (b.start + n) (b.start + n) (b.len' - n) (b.off' + n) b.fin).bytes
      = b.bytes.drop n := by
    simp only [bytes, hp, List.drop_drop]
    congr 2; omega
  refine ⟨_, _, by simp only [splitOff, if_pos hle, e1, e2]; rfl, ?_⟩
  refine ⟨?_, ?_, rfl, rfl, ?_, ?_, ?_, ?_, ?_, ?_, rfl, rfl, hl1, hr1, ?_, ?_⟩
  · simp only [WF]; omega
  · simp only [WF]; omega
  · simp only [off]; omega
  · simp only [maxOff, off, len]; omega
  · simp only [off]; omega
  · simp only [maxOff, off, len]; omega
  · simp only [len]; omega
  · simp only [len]; omega
  · intro o ho
    have : (RangeBuf.mk b.data b.start b.start n b.off' false).off = b.off := by
      simp only [off]; omega
    simp only [byteAt, this, hl1]
    split
    · rw [List.getElem?_take_of_lt (by omega)]
    · rfl
  · intro o ho
    have : (RangeBuf.mk b.data (b.start + n) (b.start + n) (b.len' - n) (b.off' + n) b.fin).off
        = b.off + n := by
      simp only [off]; omega
    simp only [byteAt, this, hr1]
    rw [if_pos ho, if_pos (by omega), List.getElem?_drop]
    congr 1; omega

end RangeBuf
end Stream
end Verif
