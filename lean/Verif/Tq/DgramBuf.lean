import Verif.Octets.Lemmas

/-!
Model of the two byte buffers with a read position: `DgramBuffer`
(`/repo/datagram-socket/src/buffer.rs`) and `ConsumeBuffer` (`/repo/buffer-pool/src/buffer.rs`).
`none` is a panic. Whether arithmetic on `usize` panics or wraps when it overflows depends on the
build; that is the parameter `chk`.
-/

namespace Verif.Tq
open Verif

/-- `a + b` on `usize` (64 bits). -/
def uadd (chk : Bool) (a b : Nat) : Option Nat :=
  if a + b < 2 ^ 64 then some (a + b) else if chk then none else some ((a + b) % 2 ^ 64)

/-- A `Vec` never has more than `isize::MAX` bytes; growing beyond is a panic. -/
abbrev vecMax : Nat := 2 ^ 63 - 1

/-- `DgramBuffer` (buffer.rs:33-37). -/
structure DBuf where
  data : Bytes := []
  start : Nat := 0
  deriving DecidableEq, Repr

/-- What one can do with one. -/
inductive DOp where
  | truncate (n : Nat)
  | advance (n : Nat)
  | pre (p : Bytes)
  | splice (h : Nat)
  | clear
  /-- `put_slice` -/
  | put (bs : Bytes)
  /-- `put_bytes` -/
  | fill (b : UInt8) (n : Nat)
  /-- `as_mut_slice()[i] = b` -/
  | set (i : Nat) (b : UInt8)
  deriving DecidableEq, Repr

namespace DBuf

/-- `from_slice` (buffer.rs:47-52). -/
def fromSlice (d : Bytes) : DBuf := { data := d }

/-- `with_capacity_and_headroom` (buffer.rs:70-78). -/
def withHeadroom (cap h : Nat) : Option DBuf :=
  if h ≤ cap then some { data := List.replicate h 0, start := h } else none

/-- `from_vec_with_headroom` (buffer.rs:83-89). -/
def fromVec (v : Bytes) (h : Nat) : Option DBuf :=
  if h ≤ v.length then some { data := v, start := h } else none

/-- `as_slice` (buffer.rs:159-161): slicing panics if the start is beyond the end. -/
def slice (b : DBuf) : Option Bytes := if b.start ≤ b.data.length then some (b.data.drop b.start) else none

/-- `truncate` (buffer.rs:94-96). -/
def truncate (chk : Bool) (b : DBuf) (n : Nat) : Option DBuf :=
  (uadd chk b.start n).map fun e => { b with data := b.data.take e }

/-- `advance` (buffer.rs:100-103). The second sum is that of the first. -/
def advance (chk : Bool) (b : DBuf) (n : Nat) : Option DBuf :=
  match uadd chk b.start n with
  | none => none
  | some e => if e ≤ b.data.length then some { b with start := e } else none

/-- `try_add_prefix` (buffer.rs:112-120). The copy panics if the range is not in the vector. -/
def addPrefix (b : DBuf) (p : Bytes) : Option (DBuf × Bool) :=
  if b.start < p.length then some (b, false)
  else
    let s := b.start - p.length
    if s + p.length ≤ b.data.length then some ({ data := b.data.take s ++ p ++ b.data.drop (s + p.length), start := s }, true) else none

/-- `splice_headroom` (buffer.rs:125-132). `splice` panics if the range is not in the vector. -/
def splice (b : DBuf) (h : Nat) : Option DBuf :=
  if h ≤ b.start then some b
  else if b.start ≤ b.data.length ∧ h + (b.data.length - b.start) ≤ vecMax then
    some { data := List.replicate h 0 ++ b.data.drop b.start, start := h }
  else none

/-- `put_slice` and `put` (buffer.rs:218-231). -/
def put (b : DBuf) (bs : Bytes) : Option DBuf :=
  if b.data.length + bs.length ≤ vecMax then some { b with data := b.data ++ bs } else none

/-- One call; the second result is whether it succeeded. `clear`: buffer.rs:135-138. -/
def step (chk : Bool) (b : DBuf) : DOp → Option (DBuf × Bool)
  | .truncate n => (b.truncate chk n).map (·, true)
  | .advance n => (b.advance chk n).map (·, true)
  | .pre p => b.addPrefix p
  | .splice h => (b.splice h).map (·, true)
  | .clear => some ({ data := [], start := 0 }, true)
  | .put bs => (b.put bs).map (·, true)
  | .fill x n => (b.put (List.replicate n x)).map (·, true)
  | .set i x =>
    if b.start ≤ b.data.length ∧ i < b.data.length - b.start then some ({ b with data := b.data.set (b.start + i) x }, true) else none

/-- Some calls: the answers, and what is left unless there was a panic. -/
def run (chk : Bool) (b : DBuf) : List DOp → List Bool × Option DBuf
  | [] => ([], some b)
  | op :: l =>
    match b.step chk op with
    | none => ([], none)
    | some (b, r) => let (rs, o) := run chk b l; (r :: rs, o)

end DBuf

/-! ### What it is meant to be -/

/-- The bytes that can be read, and how many can be put before them. -/
structure View where
  room : Nat := 0
  bytes : Bytes := []
  deriving DecidableEq, Repr

namespace View

def step (v : View) : DOp → Option (View × Bool)
  | .truncate n => some ({ v with bytes := v.bytes.take n }, true)
  | .advance n => if n ≤ v.bytes.length then some ({ room := v.room + n, bytes := v.bytes.drop n }, true) else none
  | .pre p => if p.length ≤ v.room then some ({ room := v.room - p.length, bytes := p ++ v.bytes }, true) else some (v, false)
  | .splice h => if h ≤ v.room ∨ h + v.bytes.length ≤ vecMax then some ({ v with room := max v.room h }, true) else none
  | .clear => some ({}, true)
  | .put bs => if v.room + v.bytes.length + bs.length ≤ vecMax then some ({ v with bytes := v.bytes ++ bs }, true) else none
  | .fill x n => if v.room + v.bytes.length + n ≤ vecMax then some ({ v with bytes := v.bytes ++ List.replicate n x }, true) else none
  | .set i x => if i < v.bytes.length then some ({ v with bytes := v.bytes.set i x }, true) else none

def run (v : View) : List DOp → List Bool × Option View
  | [] => ([], some v)
  | op :: l =>
    match v.step op with
    | none => ([], none)
    | some (v, r) => let (rs, o) := run v l; (r :: rs, o)

end View

/-- The numbers given are not astronomic. -/
def DOp.Small : DOp → Prop
  | .truncate n => n < 2 ^ 63
  | .advance n => n < 2 ^ 63
  | _ => True

def DBuf.view (b : DBuf) : View := { room := b.start, bytes := b.data.drop b.start }

/-- What holds of every buffer. -/
structure DBuf.WF (b : DBuf) : Prop where
  pos : b.start ≤ b.data.length
  len : b.data.length ≤ vecMax

theorem uadd_small {chk : Bool} {a n : Nat} (ha : a ≤ vecMax) (hn : n < 2 ^ 63) : uadd chk a n = some (a + n) := by
  unfold uadd
  rw [if_pos]
  simp only [vecMax] at ha
  omega

/-- One step of the code is one step of what it is meant to be. -/
theorem DBuf.step_view (chk : Bool) {b : DBuf} (h : b.WF) {op : DOp} (hs : op.Small) :
    (b.step chk op).map (fun x => (x.1.view, x.2)) = b.view.step op ∧ ∀ x, b.step chk op = some x → x.1.WF := by
  obtain ⟨h1, h2⟩ := h
  have hst : b.start ≤ vecMax := Nat.le_trans h1 h2
  cases op with
  | truncate n =>
    simp only [DBuf.step, DBuf.truncate, uadd_small hst hs, Option.map_some, DBuf.view, View.step, Option.some.injEq, Prod.mk.injEq, View.mk.injEq,
      and_true, true_and]
    refine ⟨?_, ?_⟩
    · rw [List.drop_take, Nat.add_sub_cancel_left]
    · rintro x rfl
      refine ⟨?_, ?_⟩ <;> simp only [List.length_take] <;> omega
  | advance n =>
    simp only [DBuf.step, DBuf.advance, uadd_small hst hs, DBuf.view, View.step, List.length_drop]
    by_cases hn : b.start + n ≤ b.data.length
    · rw [if_pos hn, if_pos (by omega)]
      simp only [Option.map_some, List.drop_drop, Option.some.injEq, true_and]
      rintro x rfl
      exact ⟨hn, h2⟩
    · rw [if_neg hn, if_neg (by omega)]
      simp
  | pre p =>
    have e : b.view.step (.pre p) = if p.length ≤ b.start then some ({ room := b.start - p.length, bytes := p ++ b.data.drop b.start }, true)
        else some (b.view, false) := rfl
    rw [e]
    simp only [DBuf.step, DBuf.addPrefix, DBuf.view]
    by_cases hp : b.start < p.length
    · rw [if_pos hp, if_neg (by omega)]
      simp only [Option.map_some, Option.some.injEq, true_and]
      rintro x rfl
      exact ⟨h1, h2⟩
    · rw [if_neg hp, if_pos (by omega), if_pos (by omega)]
      have hl : (b.data.take (b.start - p.length)).length = b.start - p.length := by simp only [List.length_take]; omega
      simp only [Option.map_some, Option.some.injEq, Prod.mk.injEq, View.mk.injEq, true_and, and_true]
      refine ⟨?_, ?_⟩
      · rw [List.append_assoc]
        rw [List.drop_left' hl, show b.start - p.length + p.length = b.start by omega]
      · rintro x rfl
        refine ⟨?_, ?_⟩ <;> simp only [List.length_append, List.length_take, List.length_drop] <;> omega
  | splice k =>
    simp only [DBuf.step, DBuf.splice, DBuf.view, View.step, List.length_drop]
    by_cases hk : k ≤ b.start
    · rw [if_pos hk, if_pos (.inl hk)]
      simp only [Option.map_some, Option.some.injEq, Prod.mk.injEq, View.mk.injEq, and_true]
      refine ⟨by omega, ?_⟩
      rintro x rfl
      exact ⟨h1, h2⟩
    · rw [if_neg hk]
      by_cases hr : k + (b.data.length - b.start) ≤ vecMax
      · rw [if_pos ⟨h1, hr⟩, if_pos (.inr hr)]
        simp only [Option.map_some, Option.some.injEq, Prod.mk.injEq, View.mk.injEq, and_true]
        refine ⟨⟨by omega, ?_⟩, ?_⟩
        · exact List.drop_left' (by simp)
        · rintro x rfl
          refine ⟨?_, ?_⟩ <;> simp only [List.length_append, List.length_replicate, List.length_drop] <;> omega
      · rw [if_neg (by simp [hr]), if_neg (by omega)]
        simp
  | clear =>
    simp only [DBuf.step, View.step, Option.map_some, DBuf.view, Option.some.injEq, true_and, List.drop_nil]
    rintro x rfl
    exact ⟨by simp, by simp⟩
  | put bs =>
    simp only [DBuf.step, DBuf.put, DBuf.view, View.step, List.length_drop]
    rw [show b.start + (b.data.length - b.start) + bs.length = b.data.length + bs.length by omega]
    split
    · rename_i hl
      simp only [Option.map_some, Option.some.injEq, Prod.mk.injEq, View.mk.injEq, and_true, true_and]
      refine ⟨List.drop_append_of_le_length h1, ?_⟩
      rintro x rfl
      refine ⟨?_, ?_⟩ <;> simp only [List.length_append] <;> omega
    · simp
  | fill c n =>
    simp only [DBuf.step, DBuf.put, DBuf.view, View.step, List.length_drop, List.length_replicate]
    rw [show b.start + (b.data.length - b.start) + n = b.data.length + n by omega]
    split
    · rename_i hl
      simp only [Option.map_some, Option.some.injEq, Prod.mk.injEq, View.mk.injEq, and_true, true_and]
      refine ⟨List.drop_append_of_le_length h1, ?_⟩
      rintro x rfl
      refine ⟨?_, ?_⟩ <;> simp only [List.length_append, List.length_replicate] <;> omega
    · simp
  | set i c =>
    simp only [DBuf.step, DBuf.view, View.step, List.length_drop]
    by_cases hi : i < b.data.length - b.start
    · rw [if_pos ⟨h1, hi⟩, if_pos hi]
      simp only [Option.map_some, Option.some.injEq, Prod.mk.injEq, View.mk.injEq, and_true, true_and]
      refine ⟨?_, ?_⟩
      · rw [List.drop_set, if_neg (by omega), Nat.add_sub_cancel_left]
      · rintro x rfl
        exact ⟨by simpa using h1, by simpa using h2⟩
    · rw [if_neg (by simp [hi]), if_neg hi]
      simp

/-- And so are all calls one after the other, to the panic if there is one. -/
theorem DBuf.run_view (chk : Bool) {b : DBuf} (h : b.WF) (l : List DOp) (hs : ∀ op ∈ l, op.Small) :
    (b.run chk l).1 = (b.view.run l).1 ∧ (b.run chk l).2.map DBuf.view = (b.view.run l).2 ∧ ∀ c, (b.run chk l).2 = some c → c.WF := by
  induction l generalizing b with
  | nil =>
    refine ⟨rfl, rfl, ?_⟩
    rintro c ⟨⟩
    exact h
  | cons op l ih =>
    obtain ⟨e, w⟩ := DBuf.step_view chk h (hs op (by simp))
    simp only [DBuf.run, View.run, ← e]
    cases hx : b.step chk op with
    | none => simp
    | some x =>
      obtain ⟨i1, i2, i3⟩ := ih (w x hx) (fun o ho => hs o (by simp [ho]))
      simp only [Option.map_some]
      exact ⟨by rw [i1], i2, i3⟩

/-! ### `ConsumeBuffer` -/

/-- `ConsumeBuffer` (buffer-pool/src/buffer.rs:41-44). Its `pop_front`, `truncate` and
`add_prefix` (buffer.rs:98-101, 112-125) are those of `DgramBuffer` word for word, so the vector
and the position are a `DBuf`. -/
structure CBuf where
  buf : DBuf := {}
  /-- capacity of the vector -/
  cap : Nat := 0
  deriving DecidableEq, Repr

/-- All `ConsumeBuffer`s there are, and `consume_buffer_total_bytes`. -/
structure CWorld where
  bufs : List CBuf := []
  gauge : Int := 0
  deriving DecidableEq, Repr

inductive COp where
  | default
  | fromVec (v : Bytes) (cap : Nat)
  | intoVec (i : Nat)
  | drop (i : Nat)
  | pop (i n : Nat)
  | truncate (i n : Nat)
  | pre (i : Nat) (p : Bytes)
  /-- `expand`; `junk` is what the memory happens to hold -/
  | expand (i n : Nat) (junk : Bytes)
  /-- `extend`; the vector grows to `cap` if that is enough -/
  | extend (i : Nat) (bs : Bytes) (cap : Nat)
  | reuse (i trim : Nat)
  deriving DecidableEq, Repr

/-- `expand` (buffer.rs:103-109): `reserve_exact`, then `set_len(count)`. -/
def CBuf.expand (c : CBuf) (n : Nat) (junk : Bytes) : CBuf :=
  { buf := { c.buf with data := (c.buf.data ++ junk ++ List.replicate n 0).take n }
    cap := if n ≤ c.cap - c.buf.data.length then c.cap else c.buf.data.length + n }

/-- `extend` (buffer.rs:139-145). -/
def CBuf.extend (c : CBuf) (bs : Bytes) (cap : Nat) : CBuf :=
  { buf := { c.buf with data := c.buf.data ++ bs }
    cap := if c.buf.data.length + bs.length ≤ c.cap then c.cap else max cap (c.buf.data.length + bs.length) }

/-- `reuse` (buffer.rs:61-68). -/
def CBuf.reuse (c : CBuf) (trim : Nat) : CBuf := { buf := {}, cap := min c.cap trim }

/-- `update_metrics_after_resize` (buffer.rs:127-136): the gauge after a change of capacity. -/
def resized (gauge : Int) (old new : Nat) : Int :=
  if new < old then gauge - (old - new : Nat) else if new > old then gauge + (new - old : Nat) else gauge

/-- One call; a panic unwinds, and the buffer is dropped with its owner. -/
def CWorld.step (w : CWorld) (chk : Bool) : COp → CWorld
  | .default => { w with bufs := w.bufs ++ [{}] }
  | .fromVec v cap => { bufs := w.bufs ++ [{ buf := { data := v }, cap := max cap v.length }], gauge := w.gauge + (max cap v.length : Nat) }
  | .intoVec i =>
    match w.bufs[i]? with
    | none => w
    -- the vector that is left in the buffer is dropped with it, and has no capacity
    | some c => { bufs := w.bufs.eraseIdx i, gauge := w.gauge - c.cap - 0 }
  | .drop i =>
    match w.bufs[i]? with
    | none => w
    | some c => { bufs := w.bufs.eraseIdx i, gauge := w.gauge - c.cap }
  | .pop i n =>
    match w.bufs[i]? with
    | none => w
    | some c =>
      match c.buf.advance chk n with
      | none => { bufs := w.bufs.eraseIdx i, gauge := w.gauge - c.cap }
      | some b => { w with bufs := w.bufs.set i { c with buf := b } }
  | .truncate i n =>
    match w.bufs[i]? with
    | none => w
    | some c =>
      match c.buf.truncate chk n with
      | none => { bufs := w.bufs.eraseIdx i, gauge := w.gauge - c.cap }
      | some b => { w with bufs := w.bufs.set i { c with buf := b } }
  | .pre i p =>
    match w.bufs[i]? with
    | none => w
    | some c =>
      match c.buf.addPrefix p with
      | none => { bufs := w.bufs.eraseIdx i, gauge := w.gauge - c.cap }
      | some (b, _) => { w with bufs := w.bufs.set i { c with buf := b } }
  | .expand i n junk =>
    match w.bufs[i]? with
    | none => w
    | some c => { bufs := w.bufs.set i (c.expand n junk), gauge := resized w.gauge c.cap (c.expand n junk).cap }
  | .extend i bs cap =>
    match w.bufs[i]? with
    | none => w
    | some c => { bufs := w.bufs.set i (c.extend bs cap), gauge := resized w.gauge c.cap (c.extend bs cap).cap }
  | .reuse i trim =>
    match w.bufs[i]? with
    | none => w
    | some c => { bufs := w.bufs.set i (c.reuse trim), gauge := resized w.gauge c.cap (c.reuse trim).cap }

def CWorld.run (w : CWorld) (chk : Bool) : List COp → CWorld
  | [] => w
  | op :: l => (w.step chk op).run chk l

def CWorld.caps (l : List CBuf) : Nat := (l.map (·.cap)).sum

theorem caps_erase : ∀ (l : List CBuf) (i : Nat) (c : CBuf), l[i]? = some c → CWorld.caps l = CWorld.caps (l.eraseIdx i) + c.cap
  | [], i, c, h => by simp at h
  | a :: l, 0, c, h => by simp at h; subst h; simp [CWorld.caps]; omega
  | a :: l, i + 1, c, h => by
    have := caps_erase l i c (by simpa using h)
    simp only [CWorld.caps, List.eraseIdx_cons_succ, List.map_cons, List.sum_cons] at this ⊢
    omega

theorem caps_set : ∀ (l : List CBuf) (i : Nat) (c d : CBuf), l[i]? = some c → CWorld.caps (l.set i d) + c.cap = CWorld.caps l + d.cap
  | [], i, c, d, h => by simp at h
  | a :: l, 0, c, d, h => by simp at h; subst h; simp [CWorld.caps]; omega
  | a :: l, i + 1, c, d, h => by
    have := caps_set l i c d (by simpa using h)
    simp only [CWorld.caps, List.set_cons_succ, List.map_cons, List.sum_cons] at this ⊢
    omega

theorem resized_eq (g : Int) (old new : Nat) : resized g old new = g + new - old := by
  unfold resized
  split
  · omega
  · split <;> omega

theorem gauge_step {w : CWorld} (h : w.gauge = CWorld.caps w.bufs) (chk : Bool) (op : COp) :
    (w.step chk op).gauge = CWorld.caps (w.step chk op).bufs := by
  have er : ∀ i c, w.bufs[i]? = some c → w.gauge - c.cap = CWorld.caps (w.bufs.eraseIdx i) := by
    intro i c hc
    have := caps_erase w.bufs i c hc
    omega
  have se : ∀ i c d, w.bufs[i]? = some c → w.gauge + d.cap - c.cap = CWorld.caps (w.bufs.set i d) := by
    intro i c d hc
    have := caps_set w.bufs i c d hc
    omega
  have sm : ∀ i c (b : DBuf), w.bufs[i]? = some c → w.gauge = CWorld.caps (w.bufs.set i { c with buf := b }) := by
    intro i c b hc
    have := se i c { c with buf := b } hc
    simp only at this
    omega
  cases op <;> simp only [CWorld.step]
  case default => simp [CWorld.caps, h]
  case fromVec v cap => simp [CWorld.caps, h]
  case intoVec i =>
    split
    · exact h
    · have := er _ _ (by assumption); simp only; omega
  case drop i =>
    split
    · exact h
    · exact er _ _ (by assumption)
  case pop i n =>
    split
    · exact h
    · split
      · exact er _ _ (by assumption)
      · exact sm _ _ _ (by assumption)
  case truncate i n =>
    split
    · exact h
    · split
      · exact er _ _ (by assumption)
      · exact sm _ _ _ (by assumption)
  case pre i p =>
    split
    · exact h
    · split
      · exact er _ _ (by assumption)
      · exact sm _ _ _ (by assumption)
  case expand i n junk =>
    split
    · exact h
    · simp only [resized_eq]; exact se _ _ _ (by assumption)
  case extend i bs cap =>
    split
    · exact h
    · simp only [resized_eq]; exact se _ _ _ (by assumption)
  case reuse i trim =>
    split
    · exact h
    · simp only [resized_eq]; exact se _ _ _ (by assumption)

theorem gauge_run {w : CWorld} (h : w.gauge = CWorld.caps w.bufs) (chk : Bool) (l : List COp) :
    (w.run chk l).gauge = CWorld.caps (w.run chk l).bufs := by
  induction l generalizing w with
  | nil => exact h
  | cons op l ih => exact ih (gauge_step h chk op)

end Verif.Tq
