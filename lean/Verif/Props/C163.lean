import Verif.Octets.Api
import Verif.Octets.Lemmas

/-!
# C163: A buffer with a cursor is a tape
-/

namespace Verif.Props.C163
open Verif

/-! ### The specification: bytes to the left and to the right of the cursor -/

structure Tape where
  left : Bytes
  right : Bytes
  deriving DecidableEq, Repr

/-- Moving to the right over `n` bytes. -/
def Tape.fwd (t : Tape) (n : Nat) : Tape := ⟨t.left ++ t.right.take n, t.right.drop n⟩

/-- Writing bytes over those to the right. -/
def Tape.write (t : Tape) (v : Bytes) : Tape := ⟨t.left ++ v, t.right.drop v.length⟩

/-- Length of the integer that begins with the given byte (RFC 9000, 16). -/
def intLen (b : UInt8) : Nat := 2 ^ (b.toNat / 64)

/-- A value in `n` bytes, with its length in the top two bits (RFC 9000, 16). -/
def intBytes (v n : Nat) : Bytes := beBytes n (v + Nat.log2 n * 2 ^ (8 * n - 2))

/-- Least length of a value. -/
def least (v : Nat) : Nat := if v < 2 ^ 6 then 1 else if v < 2 ^ 14 then 2 else if v < 2 ^ 30 then 4 else 8

/-- Refused for want of bytes, or done. -/
def need (t : Tape) (n : Nat) (r : Except OErr Cur.Out × Tape) : Except OErr Cur.Out × Tape :=
  if t.right.length < n then (.error .tooShort, t) else r

/-- An integer of variable length at the cursor, and then something else. -/
def withInt (t : Tape) (k : Nat → Tape → Except OErr Cur.Out × Tape) : Except OErr Cur.Out × Tape :=
  match t.right with
  | [] => (.error .tooShort, t)
  | b :: _ => need t (intLen b) (k (beVal (t.right.take (intLen b)) % 2 ^ (8 * intLen b - 2)) (t.fwd (intLen b)))

/-- What each call does. -/
def spec (t : Tape) : Cur.Op → Except OErr Cur.Out × Tape
  | .getU n => need t n (.ok (.num (beVal (t.right.take n))), t.fwd n)
  | .peekU n => need t n (.ok (.num (beVal (t.right.take n))), t)
  | .getVarint => withInt t fun v t => (.ok (.num v), t)
  | .getBytes n => need t n (.ok (.bytes (t.right.take n)), t.fwd n)
  | .getBytesWithU n => need t n <|
    let m := beVal (t.right.take n)
    let t := t.fwd n
    need t m (.ok (.bytes (t.right.take m)), t.fwd m)
  | .getBytesWithVarint => withInt t fun m t => need t m (.ok (.bytes (t.right.take m)), t.fwd m)
  | .peekBytes n => need t n (.ok (.bytes (t.right.take n)), t)
  | .sliceLast n => need t n (.ok (.bytes (t.right.drop (t.right.length - n))), t)
  | .splitAt n => if t.left.length + t.right.length < n then (.error .tooShort, t) else (.ok (.two ((t.left ++ t.right).take n) ((t.left ++ t.right).drop n)), t)
  | .skip n => need t n (.ok .unit, t.fwd n)
  | .rewind n => if t.left.length < n then (.error .tooShort, t) else
    (.ok .unit, ⟨t.left.take (t.left.length - n), t.left.drop (t.left.length - n) ++ t.right⟩)
  | .putU n v => need t n (.ok .unit, t.write (beBytes n v))
  | .putVarint v => need t (least v) (.ok .unit, t.write (intBytes v (least v)))
  | .putVarintWithLen v n => need t n (.ok .unit, t.write (intBytes v n))
  | .putBytes v => need t v.length (.ok .unit, t.write v)

def specRun (t : Tape) : List Cur.Op → List (Except OErr Cur.Out) × Tape
  | [] => ([], t)
  | o :: l => ((spec t o).1 :: (specRun (spec t o).2 l).1, (specRun (spec t o).2 l).2)

/-- Integers of variable length are below 2^62, and lengths given for them are lengths there are, large enough. -/
def Proper : Cur.Op → Prop
  | .putVarint v => v < 2 ^ 62
  | .putVarintWithLen v n => (n = 1 ∨ n = 2 ∨ n = 4 ∨ n = 8) ∧ v < 2 ^ (8 * n - 2)
  | _ => True

/-! ### The code does that -/

/-- The tape a buffer is. -/
def tape (c : Cur) : Tape := ⟨c.buf.take c.off, c.buf.drop c.off⟩

theorem tape_cap (c : Cur) : (tape c).right.length = c.cap := by simp [tape, Cur.cap]

theorem fwd_eq (c : Cur) (n : Nat) (h : n ≤ c.cap) : tape { c with off := c.off + n } = (tape c).fwd n := by
  unfold tape Tape.fwd
  simp only [Tape.mk.injEq]
  exact ⟨List.take_add, by rw [List.drop_drop]⟩

theorem write_eq (c : Cur) (v : Bytes) (hw : c.WF) (h : v.length ≤ c.cap) :
    tape { buf := Cur.overwrite c.buf c.off v, off := c.off + v.length } = (tape c).write v := by
  unfold Cur.WF at hw
  unfold Cur.cap at h
  have hl : (c.buf.take c.off).length = c.off := by simp; omega
  unfold tape Tape.write Cur.overwrite
  simp only [Tape.mk.injEq]
  refine ⟨?_, ?_⟩
  · rw [List.take_append_of_le_length (by simp; omega), List.take_of_length_le (by simp; omega)]
  · rw [List.drop_append, List.drop_eq_nil_of_le (by simp; omega), List.drop_drop]
    simp [hl, Nat.min_eq_left hw]

theorem wf_write (c : Cur) (v : Bytes) (h : c.off + v.length ≤ c.buf.length) :
    Cur.WF { buf := Cur.overwrite c.buf c.off v, off := c.off + v.length } := by
  unfold Cur.WF
  show c.off + v.length ≤ (Cur.overwrite c.buf c.off v).length
  rw [overwrite_length _ _ _ h]; exact h

/-- What a call of the code should come to. -/
def Ok (r : Except OErr Cur.Out × Cur) (s : Except OErr Cur.Out × Tape) : Prop := r.1 = s.1 ∧ tape r.2 = s.2 ∧ r.2.WF

theorem ok_need {c : Cur} {n : Nat} {r : Except OErr Cur.Out × Cur} {s : Except OErr Cur.Out × Tape} (hw : c.WF) (h1 : c.cap < n → r = (.error .tooShort, c))
    (h2 : n ≤ c.cap → Ok r s) : Ok r (need (tape c) n s) := by
  unfold need
  rw [tape_cap]
  split
  · rename_i h; rw [h1 h]; exact ⟨rfl, rfl, hw⟩
  · rename_i h; exact h2 (by omega)

theorem getU_short (c : Cur) (n : Nat) (hw : c.WF) (h : c.cap < n) : c.getU n = (.error .tooShort, c) := by
  unfold Cur.WF at hw
  unfold Cur.cap at h
  unfold Cur.getU Cur.peekU
  rw [if_neg (by omega), if_pos (by simp; omega)]

theorem peekU_ok (c : Cur) (n : Nat) (hw : c.WF) (h : n ≤ c.cap) : c.peekU n = .ok (beVal ((tape c).right.take n)) := by
  unfold Cur.WF at hw
  unfold Cur.cap at h
  unfold Cur.peekU
  rw [if_neg (by omega), if_neg (by simp; omega)]
  rfl

theorem getU_ok (c : Cur) (n : Nat) (hw : c.WF) (h : n ≤ c.cap) : c.getU n = (.ok (beVal ((tape c).right.take n)), { c with off := c.off + n }) := by
  unfold Cur.getU
  rw [peekU_ok c n hw h]

theorem wf_fwd (c : Cur) (n : Nat) (hw : c.WF) (h : n ≤ c.cap) : Cur.WF { c with off := c.off + n } := by
  unfold Cur.WF Cur.cap at *
  show c.off + n ≤ c.buf.length
  omega

theorem intLen_eq (b : UInt8) : varintParseLen b = intLen b := by
  revert b; apply u8_forall; decide +kernel

theorem getVarint_tape (c : Cur) (hw : c.WF) :
    c.getVarint = match (tape c).right with
      | [] => (.error .tooShort, c)
      | b :: _ => if (tape c).right.length < intLen b then (.error .tooShort, c) else
        (.ok (beVal ((tape c).right.take (intLen b)) % 2 ^ (8 * intLen b - 2)), { c with off := c.off + intLen b }) := by
  rw [getVarint_eq c hw]
  have hr : c.rest = (tape c).right := rfl
  rw [hr]
  cases h : (tape c).right with
  | nil => rfl
  | cons b l =>
    simp only [decVarint, intLen_eq]
    by_cases hc : (b :: l).length < intLen b
    · rw [if_pos hc, if_pos hc]
    · rw [if_neg hc, if_neg hc]

theorem ok_getBytes (c : Cur) (n : Nat) (hw : c.WF) :
    Ok (Cur.out .bytes (c.getBytes n)) (need (tape c) n (.ok (.bytes ((tape c).right.take n)), (tape c).fwd n)) := by
  refine ok_need hw ?_ ?_
  · intro h; unfold Cur.getBytes; rw [if_pos h]; rfl
  · intro h
    unfold Cur.getBytes
    rw [if_neg (by omega)]
    exact ⟨rfl, fwd_eq c n h, wf_fwd c n hw h⟩

theorem enc_eq {v n : Nat} (hn : n = 1 ∨ n = 2 ∨ n = 4 ∨ n = 8) (hv : v < 2 ^ (8 * n - 2)) : encVarintLen v n = intBytes v n := by
  obtain ⟨b, bs, he, hp, hval⟩ := encVarintLen_head hn hv
  have hlen := encVarintLen_length (v := v) hn
  have hb : beVal (encVarintLen v n) = v + Nat.log2 n * 2 ^ (8 * n - 2) := by
    rw [he] at hlen ⊢
    rw [varintParseLen_eq] at hp
    have hc := beVal_cons b bs
    have hl := beVal_lt bs
    have hbl := u8_lt b
    have hbs : bs.length = n - 1 := by simp at hlen; omega
    rw [hbs] at hc hl
    have l1 : Nat.log2 1 = 0 := by decide
    have l2 : Nat.log2 2 = 1 := by decide
    have l4 : Nat.log2 4 = 2 := by decide
    have l8 : Nat.log2 8 = 3 := by decide
    rcases hn with rfl | rfl | rfl | rfl <;> (simp only [l1, l2, l4, l8]; simp at hc hl hval ⊢; repeat' split at hp) <;> omega
  have := beBytes_beVal (encVarintLen v n)
  rw [hlen, hb] at this
  exact this.symm

theorem ok_write (c : Cur) (v : Bytes) (hw : c.WF) (h : v.length ≤ c.cap) :
    Ok (.ok .unit, { buf := Cur.overwrite c.buf c.off v, off := c.off + v.length }) (.ok .unit, (tape c).write v) := by
  refine ⟨rfl, write_eq c v hw h, wf_write c v ?_⟩
  unfold Cur.WF Cur.cap at *
  omega

theorem ok_putVarintWithLen (c : Cur) (v n : Nat) (hw : c.WF) (hn : n = 1 ∨ n = 2 ∨ n = 4 ∨ n = 8) (hv : v < 2 ^ (8 * n - 2)) :
    Ok (Cur.out (fun _ => .unit) (c.putVarintWithLen v n)) (need (tape c) n (.ok .unit, (tape c).write (intBytes v n))) := by
  refine ok_need hw ?_ ?_
  · intro h; rw [putVarintWithLen_short c v n h]; rfl
  · intro h
    rw [putVarintWithLen_ok c v n hw hn h, enc_eq hn hv]
    have hl : (intBytes v n).length = n := by simp [intBytes]
    have := ok_write c (intBytes v n) hw (by rw [hl]; exact h)
    rw [hl] at this
    exact this

/-- Each call does to the buffer what the specification does to the tape, and returns the same. -/
theorem step_ok (c : Cur) (hw : c.WF) (o : Cur.Op) (hp : Proper o) : Ok (c.step o) (spec (tape c) o) := by
  cases o with
  | getU n =>
    refine ok_need hw ?_ ?_
    · intro h; show Cur.out _ (c.getU n) = _; rw [getU_short c n hw h]; rfl
    · intro h; show Ok (Cur.out _ (c.getU n)) _; rw [getU_ok c n hw h]; exact ⟨rfl, fwd_eq c n h, wf_fwd c n hw h⟩
  | peekU n =>
    refine ok_need hw ?_ ?_
    · intro h
      have := getU_short c n hw h
      unfold Cur.getU at this
      show Cur.out _ (c.peekU n, c) = _
      cases hq : c.peekU n with
      | ok v => rw [hq] at this; cases this
      | error e => rw [hq] at this; injection this with this; injection this with this; rw [this]; rfl
    · intro h; show Ok (Cur.out _ (c.peekU n, c)) _; rw [peekU_ok c n hw h]; exact ⟨rfl, rfl, hw⟩
  | getVarint =>
    show Ok (Cur.out _ c.getVarint) (withInt (tape c) _)
    rw [getVarint_tape c hw]
    unfold withInt
    cases ht : (tape c).right with
    | nil => exact ⟨rfl, rfl, hw⟩
    | cons b l =>
      dsimp only
      rw [← ht]
      refine ok_need hw ?_ ?_
      · intro h; rw [← tape_cap] at h; rw [if_pos h]; rfl
      · intro h
        have h' := h
        rw [← tape_cap] at h'; rw [if_neg (by omega)]
        exact ⟨rfl, fwd_eq c _ h, wf_fwd c _ hw h⟩
  | getBytes n => exact ok_getBytes c n hw
  | getBytesWithU n =>
    refine ok_need hw ?_ ?_
    · intro h; show Cur.out _ (c.getBytesWithU n) = _; unfold Cur.getBytesWithU; rw [getU_short c n hw h]; rfl
    · intro h
      show Ok (Cur.out _ (c.getBytesWithU n)) _
      unfold Cur.getBytesWithU
      rw [getU_ok c n hw h]
      dsimp only
      rw [← fwd_eq c n h]
      exact ok_getBytes _ _ (wf_fwd c n hw h)
  | getBytesWithVarint =>
    show Ok (Cur.out _ c.getBytesWithVarint) (withInt (tape c) _)
    unfold Cur.getBytesWithVarint
    rw [getVarint_tape c hw]
    unfold withInt
    cases ht : (tape c).right with
    | nil => exact ⟨rfl, rfl, hw⟩
    | cons b l =>
      dsimp only
      rw [← ht]
      refine ok_need hw ?_ ?_
      · intro h; rw [← tape_cap] at h; rw [if_pos h]; rfl
      · intro h
        have h' := h
        rw [← tape_cap] at h'; rw [if_neg (by omega)]
        dsimp only
        rw [← fwd_eq c _ h]
        exact ok_getBytes _ _ (wf_fwd c _ hw h)
  | peekBytes n =>
    refine ok_need hw ?_ ?_
    · intro h; show Cur.out _ (c.peekBytes n, c) = _; unfold Cur.peekBytes; rw [if_pos h]; rfl
    · intro h; show Ok (Cur.out _ (c.peekBytes n, c)) _; unfold Cur.peekBytes; rw [if_neg (by omega)]; exact ⟨rfl, rfl, hw⟩
  | sliceLast n =>
    refine ok_need hw ?_ ?_
    · intro h; show Cur.out _ (c.sliceLast n, c) = _; unfold Cur.sliceLast; rw [if_pos h]; rfl
    · intro h
      show Ok (Cur.out _ (c.sliceLast n, c)) _
      unfold Cur.sliceLast
      rw [if_neg (by omega)]
      refine ⟨?_, rfl, hw⟩
      show Except.ok (Cur.Out.bytes _) = Except.ok (Cur.Out.bytes _)
      congr 2
      simp only [tape, List.drop_drop, List.length_drop]
      congr 1
      unfold Cur.WF at hw
      unfold Cur.cap at h
      omega
  | splitAt n =>
    have e1 : (tape c).left ++ (tape c).right = c.buf := List.take_append_drop _ _
    have e2 : (tape c).left.length + (tape c).right.length = c.buf.length := by rw [← List.length_append, e1]
    show Ok (Cur.out _ (c.splitAt n, c)) (if _ then _ else _)
    unfold Cur.splitAt
    rw [e1, e2]
    split <;> exact ⟨rfl, rfl, hw⟩
  | skip n =>
    refine ok_need hw ?_ ?_
    · intro h; show Cur.out _ (c.skip n) = _; unfold Cur.skip; rw [if_pos h]; rfl
    · intro h
      show Ok (Cur.out _ (c.skip n)) _
      unfold Cur.skip
      rw [if_neg (by omega)]
      exact ⟨rfl, fwd_eq c n h, wf_fwd c n hw h⟩
  | rewind n =>
    unfold Cur.WF at hw
    have hl : (tape c).left.length = c.off := by simp [tape]; omega
    show Ok (Cur.out _ (c.rewind n)) (if _ then _ else _)
    unfold Cur.rewind
    rw [hl]
    split
    · exact ⟨rfl, rfl, hw⟩
    · refine ⟨rfl, ?_, by unfold Cur.WF; show c.off - n ≤ c.buf.length; omega⟩
      show tape { c with off := c.off - n } = _
      unfold tape
      dsimp only
      have hm : min (c.off - n) c.off = c.off - n := by omega
      simp only [Tape.mk.injEq, List.take_take, hm, true_and]
      have : c.buf = (c.buf.take c.off) ++ c.buf.drop c.off := (List.take_append_drop _ _).symm
      conv => lhs; rw [this]
      rw [List.drop_append_of_le_length (by simp; omega)]
  | putU n v =>
    refine ok_need hw ?_ ?_
    · intro h
      show Cur.out _ (c.putU n v) = _
      unfold Cur.putU
      unfold Cur.WF Cur.cap at *
      rw [if_pos (by omega)]; rfl
    · intro h
      show Ok (Cur.out _ (c.putU n v)) _
      unfold Cur.putU
      have := ok_write c (beBytes n v) hw (by simpa using h)
      rw [beBytes_length] at this
      unfold Cur.WF Cur.cap at *
      rw [if_neg (by omega)]
      exact this
  | putVarint v =>
    have hv : v < 2 ^ 62 := hp
    have hm : varintLen v = some (least v) ∧ (least v = 1 ∨ least v = 2 ∨ least v = 4 ∨ least v = 8) ∧ v < 2 ^ (8 * least v - 2) := by
      unfold varintLen least maxVarInt
      simp only [Nat.reducePow] at hv ⊢
      repeat' split
      all_goals first | omega | (refine ⟨rfl, by omega, ?_⟩; simp; omega)
    show Ok (Cur.out _ (c.putVarint v)) (need (tape c) (least v) _)
    unfold Cur.putVarint
    rw [hm.1]
    exact ok_putVarintWithLen c v _ hw hm.2.1 hm.2.2
  | putVarintWithLen v n => exact ok_putVarintWithLen c v n hw hp.1 hp.2
  | putBytes v =>
    refine ok_need hw ?_ ?_
    · intro h; show Cur.out _ (c.putBytes v) = _; unfold Cur.putBytes; rw [if_pos h]; rfl
    · intro h
      show Ok (Cur.out _ (c.putBytes v)) _
      unfold Cur.putBytes
      rw [if_neg (by omega)]
      split
      · rename_i hz
        have : v = [] := List.length_eq_zero_iff.1 hz
        subst this
        exact ⟨rfl, by simp [Tape.write, tape, Cur.out], hw⟩
      · exact ok_write c v hw h

/-- Any calls one after another: results and buffer are those of the specification. -/
theorem refines (c : Cur) (hw : c.WF) (ops : List Cur.Op) (hp : ∀ o ∈ ops, Proper o) :
    (c.run ops).1 = (specRun (tape c) ops).1 ∧ tape (c.run ops).2 = (specRun (tape c) ops).2 ∧ (c.run ops).2.WF := by
  induction ops generalizing c with
  | nil => exact ⟨rfl, rfl, hw⟩
  | cons o ops ih =>
    obtain ⟨h1, h2, h3⟩ := step_ok c hw o (hp o List.mem_cons_self)
    obtain ⟨g1, g2, g3⟩ := ih (c.step o).2 h3 (fun q hq => hp q (List.mem_cons_of_mem _ hq))
    rw [h2] at g1 g2
    refine ⟨?_, g2, g3⟩
    show (c.step o).1 :: _ = (spec (tape c) o).1 :: _
    rw [h1, g1]

/-- A tape determines the buffer. -/
theorem tape_inj (c d : Cur) (hc : c.WF) (hd : d.WF) (h : tape c = tape d) : c = d := by
  unfold tape at h
  simp only [Tape.mk.injEq] at h
  obtain ⟨h1, h2⟩ := h
  have hb : c.buf = d.buf := by rw [← List.take_append_drop c.off c.buf, h1, h2, List.take_append_drop]
  unfold Cur.WF at *
  have ho : c.off = d.off := by
    have := congrArg List.length h1
    simp at this; omega
  cases c; cases d; simp_all

/-- No call panics. -/
theorem no_panic (c : Cur) (hw : c.WF) (o : Cur.Op) (hp : Proper o) : (c.step o).1 ≠ .error .panic := by
  rw [(step_ok c hw o hp).1]
  intro h
  have hn : ∀ (t : Tape) n (r : Except OErr Cur.Out × Tape), r.1 ≠ .error .panic → (need t n r).1 ≠ .error .panic := by
    intro t n r hr; unfold need; split
    · simp
    · exact hr
  have hi : ∀ (t : Tape) k, (∀ v t, (k v t : Except OErr Cur.Out × Tape).1 ≠ .error .panic) → (withInt t k).1 ≠ .error .panic := by
    intro t k hk; unfold withInt; split
    · simp
    · exact hn _ _ _ (hk _ _)
  cases o with
  | getVarint => exact hi _ _ (by simp) h
  | getBytesWithVarint => exact hi _ _ (fun _ _ => hn _ _ _ (by simp)) h
  | getBytesWithU n => exact hn _ _ _ (hn _ _ _ (by simp)) h
  | splitAt n => simp only [spec] at h; split at h <;> simp at h
  | rewind n => simp only [spec] at h; split at h <;> simp at h
  | _ => exact hn _ _ _ (by simp) h

/-- Reads with a length in front, of which the length may be read and the rest not. -/
def Prefixed : Cur.Op → Prop
  | .getBytesWithU _ => True
  | .getBytesWithVarint => True
  | _ => False

/-- A call that fails changes nothing, but for reads with a length in front. -/
theorem unchanged (c : Cur) (hw : c.WF) (o : Cur.Op) (hp : Proper o) (hl : ¬ Prefixed o) (e : OErr) (h : (c.step o).1 = .error e) : (c.step o).2 = c := by
  obtain ⟨h1, h2, h3⟩ := step_ok c hw o hp
  refine tape_inj _ _ h3 hw ?_
  rw [h2]
  rw [h1] at h
  have hn : ∀ (t : Tape) n (x : Cur.Out) (t' : Tape), (need t n (.ok x, t')).1 = .error e → (need t n (.ok x, t')).2 = t := by
    intro t n x t' hh; unfold need at *; split
    · rfl
    · rename_i hc; rw [if_neg hc] at hh; cases hh
  cases o with
  | getVarint =>
    simp only [spec, withInt] at h ⊢
    split at h
    · rfl
    · exact hn _ _ _ _ h
  | getBytesWithVarint => exact absurd trivial hl
  | getBytesWithU n => exact absurd trivial hl
  | splitAt n => simp only [spec] at h ⊢; split <;> rfl
  | rewind n => simp only [spec] at h ⊢; split
                · rfl
                · rename_i hc; rw [if_neg hc] at h; cases h
  | _ => exact hn _ _ _ _ h

/-- Those leave the cursor after the length. -/
theorem moved : (Cur.withSlice [2, 7]).step (.getBytesWithU 1) = (.error .tooShort, { buf := [2, 7], off := 1 }) ∧
    (Cur.withSlice [0x40, 2, 7]).step .getBytesWithVarint = (.error .tooShort, { buf := [0x40, 2, 7], off := 2 }) := by decide

/-- Calls that write. -/
def Writes : Cur.Op → Prop
  | .putU _ _ => True
  | .putVarint _ => True
  | .putVarintWithLen _ _ => True
  | .putBytes _ => True
  | _ => False

/-- No call changes the length of the buffer; bytes to the left of the cursor and, by writing, to the right of where
the cursor goes remain as they are; reading changes no byte at all. -/
theorem outside (c : Cur) (hw : c.WF) (o : Cur.Op) (hp : Proper o) :
    (c.step o).2.buf.length = c.buf.length ∧
    (Writes o → (c.step o).2.buf.take c.off = c.buf.take c.off ∧ (c.step o).2.buf.drop (c.step o).2.off = c.buf.drop (c.step o).2.off) ∧
    (¬ Writes o → (c.step o).2.buf = c.buf) := by
  obtain ⟨h1, h2, h3⟩ := step_ok c hw o hp
  have hcat : ∀ d : Cur, d.buf = (tape d).left ++ (tape d).right := fun d => (List.take_append_drop _ _).symm
  have hoff : ∀ d : Cur, d.WF → d.off = (tape d).left.length := by intro d hd; unfold Cur.WF at hd; simp [tape]; omega
  have hwr : ∀ v : Bytes, (tape (c.step o).2 = tape c ∨ (v.length ≤ (tape c).right.length ∧ tape (c.step o).2 = (tape c).write v)) →
      (c.step o).2.buf.length = c.buf.length ∧ (c.step o).2.buf.take c.off = c.buf.take c.off ∧
        (c.step o).2.buf.drop (c.step o).2.off = c.buf.drop (c.step o).2.off := by
    intro v hv
    rcases hv with hv | ⟨hl, hv⟩
    · rw [tape_inj _ _ h3 hw hv]; exact ⟨rfl, rfl, rfl⟩
    · have ho := hoff _ h3
      have hb := hcat (c.step o).2
      have hc := hcat c
      have hco := hoff _ hw
      rw [hv] at ho hb
      simp only [Tape.write] at ho hb
      rw [ho, hb]
      refine ⟨?_, ?_, ?_⟩
      · rw [hc]; simp; omega
      · rw [hco]
        conv => rhs; rw [hc]
        simp
      · conv => rhs; rw [hc]
        simp [List.drop_append, List.drop_eq_nil_of_le]
  have hnd : ∀ n v, (spec (tape c) o) = need (tape c) n (.ok .unit, (tape c).write v) → v.length = n →
      (tape (c.step o).2 = tape c ∨ (v.length ≤ (tape c).right.length ∧ tape (c.step o).2 = (tape c).write v)) := by
    intro n v hs hl
    rw [h2, hs]
    unfold need
    split
    · exact .inl rfl
    · exact .inr ⟨by omega, rfl⟩
  have hrd : (c.step o).2.buf = c.buf → (c.step o).2.buf.length = c.buf.length := by intro h; rw [h]
  -- reading: left and right together stay the same
  have fw : ∀ (t : Tape) n, (t.fwd n).left ++ (t.fwd n).right = t.left ++ t.right := by
    intro t n; simp [Tape.fwd]
  have nd : ∀ (t : Tape) n (r : Except OErr Cur.Out × Tape), r.2.left ++ r.2.right = t.left ++ t.right → (need t n r).2.left ++ (need t n r).2.right = t.left ++ t.right := by
    intro t n r hr; unfold need; split
    · rfl
    · exact hr
  have wi : ∀ (t : Tape) (k : Nat → Tape → Except OErr Cur.Out × Tape), (∀ v u, (k v u).2.left ++ (k v u).2.right = u.left ++ u.right) →
      (withInt t k).2.left ++ (withInt t k).2.right = t.left ++ t.right := by
    intro t k hk; unfold withInt; split
    · rfl
    · exact nd _ _ _ (by rw [hk, fw])
  have key : (spec (tape c) o).2.left ++ (spec (tape c) o).2.right = (tape c).left ++ (tape c).right → (c.step o).2.buf = c.buf := by
    intro h; rw [hcat (c.step o).2, h2, h, ← hcat]
  cases o with
  | putU n v => obtain ⟨a, b⟩ := hwr _ (hnd n (beBytes n v) rfl (by simp)); exact ⟨a, fun _ => b, fun h => absurd trivial h⟩
  | putVarint v => obtain ⟨a, b⟩ := hwr _ (hnd (least v) (intBytes v (least v)) rfl (by simp [intBytes])); exact ⟨a, fun _ => b, fun h => absurd trivial h⟩
  | putVarintWithLen v n => obtain ⟨a, b⟩ := hwr _ (hnd n (intBytes v n) rfl (by simp [intBytes])); exact ⟨a, fun _ => b, fun h => absurd trivial h⟩
  | putBytes v => obtain ⟨a, b⟩ := hwr _ (hnd v.length v rfl rfl); exact ⟨a, fun _ => b, fun h => absurd trivial h⟩
  | getU n => have := key (nd _ _ _ (fw _ _)); exact ⟨hrd this, fun h => h.elim, fun _ => this⟩
  | peekU n => have := key (nd _ _ _ rfl); exact ⟨hrd this, fun h => h.elim, fun _ => this⟩
  | getVarint => have := key (wi _ _ (fun _ _ => rfl)); exact ⟨hrd this, fun h => h.elim, fun _ => this⟩
  | getBytes n => have := key (nd _ _ _ (fw _ _)); exact ⟨hrd this, fun h => h.elim, fun _ => this⟩
  | getBytesWithU n => have := key (nd _ _ _ (by rw [nd _ _ _ (fw _ _), fw])); exact ⟨hrd this, fun h => h.elim, fun _ => this⟩
  | getBytesWithVarint => have := key (wi _ _ (fun _ _ => nd _ _ _ (fw _ _))); exact ⟨hrd this, fun h => h.elim, fun _ => this⟩
  | peekBytes n => have := key (nd _ _ _ rfl); exact ⟨hrd this, fun h => h.elim, fun _ => this⟩
  | sliceLast n => have := key (nd _ _ _ rfl); exact ⟨hrd this, fun h => h.elim, fun _ => this⟩
  | splitAt n => have := key (by simp only [spec]; split <;> rfl); exact ⟨hrd this, fun h => h.elim, fun _ => this⟩
  | skip n => have := key (nd _ _ _ (fw _ _)); exact ⟨hrd this, fun h => h.elim, fun _ => this⟩
  | rewind n =>
    have := key (by
      simp only [spec]; split
      · rfl
      · dsimp only; rw [← List.append_assoc, List.take_append_drop])
    exact ⟨hrd this, fun h => h.elim, fun _ => this⟩

/-- A value that does not fit the length given for it is not refused, and what is written is not that value: read again
it is another one, or there are not even enough bytes. -/
theorem oversize : ((Cur.withSlice [0, 0]).step (.putVarintWithLen 0xc000 2)).2.buf = [0xc0, 0] ∧
    ((Cur.withSlice [0xc0, 0]).step .getVarint).1 = .error .tooShort ∧
    ((Cur.withSlice [0, 0]).step (.putVarintWithLen 0x4001 2)).2.buf = [0x40, 1] ∧ ((Cur.withSlice [0x40, 1]).step .getVarint).1 = .ok (.num 1) := by
  decide

/-- Written, gone back over, and read. -/
example : ((Cur.withSlice (List.replicate 6 0)).run [.putU 2 0x1234, .putVarint 300, .rewind 4, .getU 2, .getVarint, .putBytes [7, 8], .putU 1 0, .rewind 7]).1 =
    [.ok .unit, .ok .unit, .ok .unit, .ok (.num 0x1234), .ok (.num 300), .ok .unit, .error .tooShort, .error .tooShort] := by decide +kernel

end Verif.Props.C163
