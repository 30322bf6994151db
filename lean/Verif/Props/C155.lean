import Verif.Tq.DgramBuf

/-! # C155 — buffers with a read position -/

namespace Verif.Props.C155
open Verif Verif.Tq

/-- How a datagram buffer comes to be, and what it is to hold. -/
inductive Made : DBuf → View → Prop
  | slice (d : Bytes) (h : d.length ≤ vecMax) : Made (DBuf.fromSlice d) { room := 0, bytes := d }
  | headroom (cap h : Nat) (b : DBuf) (hc : cap ≤ vecMax) (e : DBuf.withHeadroom cap h = some b) : Made b { room := h, bytes := [] }
  | vec (v : Bytes) (h : Nat) (b : DBuf) (hv : v.length ≤ vecMax) (e : DBuf.fromVec v h = some b) : Made b { room := h, bytes := v.drop h }

theorem Made.wf {b : DBuf} {v : View} (h : Made b v) : b.WF ∧ b.view = v := by
  cases h with
  | slice d h => exact ⟨⟨by simp [DBuf.fromSlice], h⟩, by simp [DBuf.view, DBuf.fromSlice]⟩
  | headroom cap h b hc e =>
    unfold DBuf.withHeadroom at e
    split at e
    · injection e with e
      subst e
      exact ⟨⟨by simp, by simp only [List.length_replicate]; omega⟩, by simp [DBuf.view]⟩
    · simp at e
  | vec w h b hv e =>
    unfold DBuf.fromVec at e
    split at e
    · injection e with e
      subst e
      exact ⟨⟨by assumption, hv⟩, rfl⟩
    · simp at e

/-- Whatever is done with a datagram buffer, it is the bytes that can be read and the room before
them: the answers, the panics and what is left are those of the specification. -/
theorem as_meant_partial (chk : Bool) {b : DBuf} {v : View} (h : Made b v) (l : List DOp) (hs : ∀ op ∈ l, op.Small) :
    (b.run chk l).1 = (v.run l).1 ∧ (b.run chk l).2.map DBuf.view = (v.run l).2 := by
  obtain ⟨hw, rfl⟩ := h.wf
  obtain ⟨h1, h2, -⟩ := DBuf.run_view chk hw l hs
  exact ⟨h1, h2⟩

/-- It can always be read, and taken apart into a vector and a position in it. -/
theorem readable_partial (chk : Bool) {b : DBuf} {v : View} (h : Made b v) (l : List DOp) (hs : ∀ op ∈ l, op.Small) {c : DBuf}
    (hc : (b.run chk l).2 = some c) : ∃ w, (v.run l).2 = some w ∧ c.slice = some w.bytes ∧ c.start = w.room ∧ c.start ≤ c.data.length := by
  obtain ⟨hw, rfl⟩ := h.wf
  obtain ⟨-, h2, h3⟩ := DBuf.run_view chk hw l hs
  rw [hc] at h2
  exact ⟨c.view, h2.symm, by rw [DBuf.slice, if_pos (h3 c hc).pos]; rfl, rfl, (h3 c hc).pos⟩

/-- The constructors with headroom panic exactly if there is less than that. -/
theorem made_iff (cap h : Nat) (v : Bytes) : ((DBuf.withHeadroom cap h).isSome ↔ h ≤ cap) ∧ ((DBuf.fromVec v h).isSome ↔ h ≤ v.length) := by
  constructor
  · unfold DBuf.withHeadroom; split <;> simp_all
  · unfold DBuf.fromVec; split <;> simp_all

/-- Truncating to the largest number there is should do nothing; without overflow checks it takes
a byte more than there is to read, and the buffer can no longer be read. With them it panics. -/
theorem truncate_false : ∃ b c : DBuf, Made b { room := 1, bytes := [7, 8] } ∧ b.step false (.truncate (2 ^ 64 - 1)) = some (c, true) ∧ c.slice = none ∧
    b.step true (.truncate (2 ^ 64 - 1)) = none ∧ View.step { room := 1, bytes := [7, 8] } (.truncate (2 ^ 64 - 1)) = some ({ room := 1, bytes := [7, 8] }, true) := by
  refine ⟨{ data := [0, 7, 8], start := 1 }, { data := [], start := 1 }, .vec [0, 7, 8] 1 _ (by decide) (by decide), by decide +kernel, by decide, by decide +kernel, ?_⟩
  simp [View.step]

/-- Advancing beyond the end should panic; without overflow checks it may go back instead. -/
theorem advance_false : ∃ b c : DBuf, Made b { room := 1, bytes := [7, 8] } ∧ b.step false (.advance (2 ^ 64 - 1)) = some (c, true) ∧
    c.slice = some [0, 7, 8] := by
  exact ⟨{ data := [0, 7, 8], start := 1 }, { data := [0, 7, 8], start := 0 }, .vec [0, 7, 8] 1 _ (by decide) (by decide), by decide +kernel, by decide⟩

/-! ### `ConsumeBuffer` -/

/-- The memory reported for all of them is what they have, always. -/
theorem total_bytes (chk : Bool) (l : List COp) : (CWorld.run {} chk l).gauge = (((CWorld.run {} chk l).bufs.map (·.cap)).sum : Nat) :=
  gauge_run (w := {}) (by simp [CWorld.caps]) chk l

/-- Expanding one from whose front nothing was taken makes that many bytes readable, of which the first are those there were. -/
theorem expand_partial (c : CBuf) (h0 : c.buf.start = 0) (n : Nat) (junk : Bytes) : ∃ bs, (c.expand n junk).buf.slice = some bs ∧ bs.length = n ∧
    ∀ i, i < n → i < c.buf.data.length → bs[i]? = c.buf.data[i]? := by
  refine ⟨(c.buf.data ++ junk ++ List.replicate n 0).take n, ?_, ?_, ?_⟩
  · simp [CBuf.expand, DBuf.slice, h0]
  · simp only [List.length_take, List.length_append, List.length_replicate]; omega
  · intro i h1 h2
    rw [List.getElem?_take_of_lt h1, List.append_assoc, List.getElem?_append_left h2]

/-- With bytes taken from the front there are fewer, and the buffer may become unreadable. -/
theorem expand_false : (∃ c : CBuf, c.buf.slice = some [3] ∧ ((c.expand 4 []).buf.slice.map (·.length)) = some 2) ∧
    (∃ c : CBuf, c.buf.slice = some [3] ∧ (c.expand 1 []).buf.slice = none) :=
  ⟨⟨{ buf := { data := [1, 2, 3], start := 2 }, cap := 8 }, by decide, by decide⟩, ⟨{ buf := { data := [1, 2, 3], start := 2 }, cap := 8 }, by decide, by decide⟩⟩

/-- Capacity is enough for what is in the vector. -/
theorem capacity (chk : Bool) (l : List COp) : ∀ c ∈ (CWorld.run {} chk l).bufs, c.buf.data.length ≤ c.cap := by
  have gen : ∀ (l : List COp) (w : CWorld), (∀ c ∈ w.bufs, c.buf.data.length ≤ c.cap) → ∀ c ∈ (w.run chk l).bufs, c.buf.data.length ≤ c.cap := by
    intro l
    induction l with
    | nil => exact fun w h => h
    | cons op l ih =>
      intro w h
      refine ih _ ?_
      have er : ∀ i, ∀ c ∈ w.bufs.eraseIdx i, c.buf.data.length ≤ c.cap := fun i c hc => h c (List.mem_of_mem_eraseIdx hc)
      have se : ∀ i d, d.buf.data.length ≤ d.cap → ∀ c ∈ w.bufs.set i d, c.buf.data.length ≤ c.cap := by
        intro i d hd c hc
        rcases List.mem_or_eq_of_mem_set hc with hc | rfl
        · exact h c hc
        · exact hd
      cases op <;> simp only [CWorld.step]
      case default => intro c hc; rcases List.mem_append.mp hc with hc | hc
                      · exact h c hc
                      · simp at hc; subst hc; simp
      case fromVec v cap => intro c hc; rcases List.mem_append.mp hc with hc | hc
                            · exact h c hc
                            · simp at hc; subst hc; simp only; omega
      case intoVec i => split
                        · exact h
                        · exact er i
      case drop i => split
                     · exact h
                     · exact er i
      case pop i n =>
        split
        · exact h
        · rename_i c hc
          have := h c (List.mem_of_getElem? hc)
          split
          · exact er i
          · rename_i b hb
            refine se i _ ?_
            unfold DBuf.advance at hb
            split at hb
            · simp at hb
            · split at hb
              · injection hb with hb; subst hb; exact this
              · simp at hb
      case truncate i n =>
        split
        · exact h
        · rename_i c hc
          have := h c (List.mem_of_getElem? hc)
          split
          · exact er i
          · rename_i b hb
            refine se i _ ?_
            unfold DBuf.truncate at hb
            cases hu : uadd chk c.buf.start n with
            | none => simp [hu] at hb
            | some e => simp only [hu, Option.map_some, Option.some.injEq] at hb; subst hb; simp only [List.length_take]; omega
      case pre i p =>
        split
        · exact h
        · rename_i c hc
          have := h c (List.mem_of_getElem? hc)
          split
          · exact er i
          · rename_i b r hb
            refine se i _ ?_
            unfold DBuf.addPrefix at hb
            split at hb
            · simp only [Option.some.injEq, Prod.mk.injEq] at hb; rw [← hb.1]; exact this
            · dsimp only at hb
              split at hb
              · simp only [Option.some.injEq, Prod.mk.injEq] at hb
                rw [← hb.1]
                simp only [List.length_append, List.length_take, List.length_drop]
                omega
              · simp at hb
      case expand i n junk =>
        split
        · exact h
        · rename_i c hc
          have := h c (List.mem_of_getElem? hc)
          refine se i _ ?_
          simp only [CBuf.expand, List.length_take]
          split <;> omega
      case extend i bs cap =>
        split
        · exact h
        · rename_i c hc
          have := h c (List.mem_of_getElem? hc)
          refine se i _ ?_
          simp only [CBuf.extend, List.length_append]
          split <;> omega
      case reuse i trim =>
        split
        · exact h
        · exact se i _ (by simp [CBuf.reuse])
  exact gen l {} (by simp)

/-! ### Runs -/

/-- A datagram is read behind headroom, a prefix goes before it and is taken off again. -/
example : (DBuf.run true { data := [0, 0, 0], start := 3 } [.put [5, 6, 7], .pre [1, 2], .pre [9, 9], .truncate 4, .advance 2, .splice 4]) =
    ([true, true, false, true, true, true], some { data := [0, 0, 0, 0, 5, 6], start := 4 }) := by decide
example : View.run { room := 3 } [.put [5, 6, 7], .pre [1, 2], .pre [9, 9], .truncate 4, .advance 2, .splice 4] =
    ([true, true, false, true, true, true], some { room := 4, bytes := [5, 6] }) := by decide
example : (DBuf.run true { data := [1] } [.advance 1, .advance 1]).2 = none := by decide

/-- Two buffers; one grows, one is reused. -/
example : CWorld.run {} true [.default, .fromVec [1, 2, 3] 3, .extend 0 [4, 5] 8, .pop 1 1, .expand 1 10 [], .reuse 0 4] =
    { bufs := [{ buf := {}, cap := 4 }, { buf := { data := [1, 2, 3, 0, 0, 0, 0, 0, 0, 0], start := 1 }, cap := 13 }], gauge := 17 } := by decide

end Verif.Props.C155
