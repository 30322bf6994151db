import Verif.Conn.Book
import Verif.Conn.Monitor
import Verif.Stream.SendFront

/-! The sending side of a connection. -/

namespace Verif.Conn
open Verif Verif.Stream

/-- A value of the stream's state, whether live or collected. -/
def valAt (f : Stream → Nat) (L G : List (Nat × Stream)) (id : Nat) : Nat :=
  match Assoc.get L id with
  | some s => f s
  | none => match Assoc.get G id with
    | some s => f s
    | none => 0

/-- Frames sent stay within the data sent. -/
def FrameOk (E : Nat → Nat) : Frame → Prop
  | .stream id o n _ => o + n ≤ E id
  | .reset id _ F => F ≤ E id
  | _ => True

theorem FrameOk.mono {E E' : Nat → Nat} (h : ∀ i, E i ≤ E' i) {f : Frame} (hf : FrameOk E f) : FrameOk E' f := by
  cases f <;> simp only [FrameOk] at hf ⊢
  · exact Nat.le_trans hf (h _)
  · exact Nat.le_trans hf (h _)

/-- The sending state of a live stream. -/
structure SendOk (s : Stream) : Prop where
  inv : ∃ W, SendBuf.SInv s.send W
  front : SendBuf.Front s.send
  uni : s.bidi = false → s.local' = false → s.send.maxData = 0

/-- The sending side: `A` is the data accepted per stream, `E` the end of the data sent. -/
structure Tx (L G : List (Nat × Stream)) (txData txBuf : Nat) (frames : List Frame)
    (reset : List (Nat × (Nat × Nat))) (A E : Nat → Nat) : Prop where
  live : ∀ id s, Assoc.get L id = some s → SendOk s
  tot : txData = Assoc.sum (fun s => s.send.off) L + Assoc.sum (fun s => s.send.off) G
  buf : txBuf = Assoc.sum (fun s => s.send.bufferedBytes) L
  acc : ∀ id, A id = valAt (fun s => s.send.off) L G id
  ends : ∀ id, E id = valAt (fun s => s.send.emitOff) L G id
  le : ∀ id, E id ≤ A id
  fr : ∀ f ∈ frames, FrameOk E f
  rs : ∀ id code F, (id, (code, F)) ∈ reset → F ≤ E id
  sent : ∀ id s, Assoc.get G id = some s → s.send.emitOff = s.send.off

theorem valAt_put (f : Stream → Nat) (L G : List (Nat × Stream)) (id : Nat) (s : Stream) :
    valAt f (Assoc.put L id s) G = upd (valAt f L G) id (f s) := by
  funext j
  unfold valAt upd
  rw [Assoc.get_put]
  by_cases h : id = j
  · simp [h]
  · rw [if_neg h, if_neg (fun e => h e.symm)]

theorem valAt_live {f : Stream → Nat} {L : List (Nat × Stream)} (G : List (Nat × Stream)) {id : Nat} {s : Stream}
    (h : Assoc.get L id = some s) : valAt f L G id = f s := by
  unfold valAt; rw [h]

theorem valAt_none {f : Stream → Nat} {L G : List (Nat × Stream)} {id : Nat}
    (h : Assoc.get L id = none) (hg : Assoc.get G id = none) : valAt f L G id = 0 := by
  unfold valAt; rw [h, hg]

theorem valAt_collect (f : Stream → Nat) {L G : List (Nat × Stream)} (hn : (Assoc.keys L).Nodup) {id : Nat}
    {s s' : Stream} (hg : Assoc.get L id = some s) (hf : f s' = f s) :
    valAt f (Assoc.del L id) (Assoc.put G id s') = valAt f L G := by
  funext j
  unfold valAt
  rw [Assoc.get_put]
  by_cases h : id = j
  · subst h; rw [Assoc.get_del_self hn, hg]; simp [hf]
  · rw [Assoc.get_del_ne _ (fun e => h e.symm), if_neg h]

theorem upd_self (f : Nat → Nat) (i : Nat) : upd f i (f i) = f := by
  funext j; unfold upd; split
  · next h => rw [h]
  · rfl

theorem upd_eq_self {f : Nat → Nat} {i v : Nat} (h : v = f i) : upd f i v = f := by rw [h, upd_self]

theorem upd_mono {f : Nat → Nat} {i v : Nat} (h : f i ≤ v) (j : Nat) : f j ≤ upd f i v j := by
  unfold upd; split
  · next e => rw [e]; exact h
  · exact Nat.le_refl _

section
variable {L G : List (Nat × Stream)} {a b : Nat} {fs : List Frame} {rs : List (Nat × (Nat × Nat))}
  {A E : Nat → Nat}

theorem Tx.acc' (h : Tx L G a b fs rs A E) : A = valAt (fun s => s.send.off) L G := funext h.acc

theorem Tx.ends' (h : Tx L G a b fs rs A E) : E = valAt (fun s => s.send.emitOff) L G := funext h.ends

/-- A stream changes. -/
theorem Tx.put (h : Tx L G a b fs rs A E) {id : Nat} {s s' : Stream} (hg : Assoc.get L id = some s)
    (hs : SendOk s') {a' b' : Nat} {fs' : List Frame} {rs' : List (Nat × (Nat × Nat))}
    (ha : a' + s.send.off = a + s'.send.off) (hb : b' + s.send.bufferedBytes = b + s'.send.bufferedBytes)
    (he : s.send.emitOff ≤ s'.send.emitOff)
    (hf : ∀ f ∈ fs', f ∈ fs ∨ FrameOk (upd E id s'.send.emitOff) f)
    (hr : ∀ i code F, (i, (code, F)) ∈ rs' →
      (i, (code, F)) ∈ rs ∨ (F ≤ upd E id s'.send.emitOff i)) :
    Tx (Assoc.put L id s') G a' b' fs' rs' (upd A id s'.send.off) (upd E id s'.send.emitOff) := by
  have hE : E id = s.send.emitOff := by rw [h.ends]; exact valAt_live G hg
  have hm : ∀ j, E j ≤ upd E id s'.send.emitOff j := upd_mono (by omega)
  have h1 := Assoc.sum_put_of_get hg (fun s => s.send.off) s'
  have h2 := Assoc.sum_put_of_get hg (fun s => s.send.bufferedBytes) s'
  have h3 := h.tot
  have h4 := h.buf
  refine ⟨?_, by omega, by omega, ?_, ?_, ?_, ?_, ?_, h.sent⟩
  · intro i x hx
    rw [Assoc.get_put] at hx
    split at hx
    · obtain rfl := Option.some.inj hx; exact hs
    · exact h.live i x hx
  · intro i; rw [valAt_put, h.acc']
  · intro i; rw [valAt_put, h.ends']
  · intro i
    unfold upd; split
    · obtain ⟨W, hW⟩ := hs.inv; exact hW.emit
    · exact h.le i
  · intro f hf'
    rcases hf f hf' with h5 | h5
    · exact (h.fr f h5).mono hm
    · exact h5
  · intro i code F hF
    rcases hr i code F hF with h5 | h5
    · exact Nat.le_trans (h.rs i code F h5) (hm i)
    · exact h5

/-- A stream changes without effect on what it sends. -/
theorem Tx.put_same (h : Tx L G a b fs rs A E) {id : Nat} {s s' : Stream} (hg : Assoc.get L id = some s)
    (hs : s'.send = s.send) (hb : s'.bidi = s.bidi) (hl : s'.local' = s.local') {fs' : List Frame}
    (hf : ∀ f ∈ fs', f ∈ fs ∨ FrameOk E f) :
    Tx (Assoc.put L id s') G a b fs' rs A E := by
  have hE : E id = s'.send.emitOff := by rw [h.ends, hs]; exact valAt_live G hg
  have hA : A id = s'.send.off := by rw [h.acc, hs]; exact valAt_live G hg
  have h0 := h.live id s hg
  have h1 := h.put hg (s' := s') (a' := a) (b' := b) (fs' := fs') (rs' := rs)
    ⟨hs ▸ h0.inv, hs ▸ h0.front, hs ▸ hb ▸ hl ▸ h0.uni⟩ (by rw [hs]) (by rw [hs]) (by rw [hs]; exact Nat.le_refl _)
    (by rw [upd_eq_self hE.symm]; exact hf) (fun i code F h => .inl h)
  rwa [upd_eq_self hE.symm, upd_eq_self hA.symm] at h1

/-- Other frames. -/
theorem Tx.frames (h : Tx L G a b fs rs A E) {fs' : List Frame} {rs' : List (Nat × (Nat × Nat))}
    (hf : ∀ f ∈ fs', f ∈ fs ∨ FrameOk E f)
    (hr : ∀ i code F, (i, (code, F)) ∈ rs' → (i, (code, F)) ∈ rs ∨ F ≤ E i) :
    Tx L G a b fs' rs' A E :=
  ⟨h.live, h.tot, h.buf, h.acc, h.ends, h.le,
    fun f hf' => (hf f hf').elim (h.fr f) id, fun i code F hF => (hr i code F hF).elim (h.rs i code F) id, h.sent⟩

theorem SendOk.zero {s : Stream} (h : SendOk s) (hb : s.bidi = false) (hl : s.local' = false) :
    s.send.bufferedBytes = 0 := by
  have hm := h.uni hb hl
  obtain ⟨W, hW⟩ := h.inv
  have h1 := hW.max
  rw [hW.buf]
  have : s.send.data = [] := by
    cases hd : s.send.data with
    | nil => rfl
    | cons c t =>
      obtain ⟨base, hch, -⟩ := hW.chain
      have h2 := hch.mem (c := c) (by simp [hd])
      have h3 := (hW.good c (by simp [hd])).pos
      omega
  rw [this]; rfl

theorem SendOk.done {s : Stream} (h : SendOk s) (hc : s.isComplete = true) : s.send.bufferedBytes = 0 := by
  unfold Stream.isComplete at hc
  obtain ⟨W, hW⟩ := h.inv
  split at hc
  · simp only [Bool.and_eq_true] at hc; exact (h.front.empty hW hc.2).2
  · exact (h.front.empty hW hc).2
  · next h1 h2 => exact h.zero h1 h2

/-- A complete stream is collected. -/
theorem Tx.collect (h : Tx L G a b fs rs A E) (hn : (Assoc.keys L).Nodup)
    (hd : ∀ id ∈ Assoc.keys L, id ∉ Assoc.keys G) {id : Nat} {s : Stream} (hg : Assoc.get L id = some s)
    (hc : s.isComplete = true) :
    Tx (Assoc.del L id) (Assoc.put G id s) a b fs rs A E := by
  have hG : Assoc.get G id = none := (Assoc.get_none_iff _ _).mpr (hd id (Assoc.get_some_keys hg))
  have h0 := (h.live id s hg).done hc
  have h1 := Assoc.sum_del_of_get hg (fun s => s.send.off)
  have h2 := Assoc.sum_del_of_get hg (fun s => s.send.bufferedBytes)
  have h3 := Assoc.sum_put_of_none hG (fun s => s.send.off) s
  have h4 := h.tot
  have h5 := h.buf
  refine ⟨?_, by omega, by omega, ?_, ?_, h.le, h.fr, h.rs, ?_⟩
  · intro i x hx
    by_cases e : i = id
    · subst e; rw [Assoc.get_del_self hn] at hx; simp at hx
    · rw [Assoc.get_del_ne _ e] at hx; exact h.live i x hx
  · rw [valAt_collect _ hn hg rfl]; exact h.acc
  · rw [valAt_collect _ hn hg rfl]; exact h.ends
  · intro i x hx
    rw [Assoc.get_put] at hx
    split at hx
    · cases hx
      obtain ⟨W, hW⟩ := (h.live id s hg).inv
      have h6 := hW.emit
      have h7 := hW.buf
      have : ¬ s.send.emitOff < s.send.off := by
        intro hlt
        have := SendBuf.lens_pos (hW.unsent (Nat.le_refl _) hlt)
        omega
      omega
    · exact h.sent i x hx

/-- A stream is created. -/
theorem Tx.create (h : Tx L G a b fs rs A E) {id : Nat} {s : Stream} (hl : Assoc.get L id = none)
    (hG : Assoc.get G id = none) {m : Nat} (hs : s.send = .new m) (hm : m < 2 ^ 62)
    (hu : s.bidi = false → s.local' = false → m = 0) :
    Tx (Assoc.put L id s) G a b fs rs A E := by
  have h1 := Assoc.sum_put_of_none hl (fun s => s.send.off) s
  have h2 := Assoc.sum_put_of_none hl (fun s => s.send.bufferedBytes) s
  have h4 := h.tot
  have h5 := h.buf
  have e1 : s.send.off = 0 := by rw [hs]; rfl
  have e2 : s.send.bufferedBytes = 0 := by rw [hs]; rfl
  have e3 : s.send.emitOff = 0 := by rw [hs]; rfl
  have hA : A id = 0 := by rw [h.acc]; exact valAt_none hl hG
  have hE : E id = 0 := by rw [h.ends]; exact valAt_none hl hG
  refine ⟨?_, by omega, by omega, ?_, ?_, h.le, h.fr, h.rs, h.sent⟩
  · intro i x hx
    rw [Assoc.get_put] at hx
    split at hx
    · obtain rfl := Option.some.inj hx
      exact ⟨⟨[], hs ▸ SendBuf.sinv_new hm⟩, hs ▸ SendBuf.front_new m, fun a b => by rw [hs]; exact hu a b⟩
    · exact h.live i x hx
  · intro i; rw [valAt_put, ← h.acc', upd_eq_self (by omega)]
  · intro i; rw [valAt_put, ← h.ends', upd_eq_self (by omega)]

/-- The data accepted on any set of streams is part of the total. -/
theorem sum_valAt_le (f : Stream → Nat) (ids : List Nat) (hn : ids.Nodup) :
    ∀ (L G : List (Nat × Stream)), (Assoc.keys L).Nodup →
    (ids.map (valAt f L G)).sum ≤ Assoc.sum f L + Assoc.sum f G := by
  induction ids with
  | nil => intro L G _; simp
  | cons i t ih =>
    intro L G hL
    have hn' := List.nodup_cons.mp hn
    simp only [List.map_cons, List.sum_cons]
    cases hl : Assoc.get L i with
    | some s =>
      have h1 := Assoc.sum_del_of_get hl f
      have h2 := ih hn'.2 (Assoc.del L i) G (Assoc.nodup_del hL i)
      have h3 : t.map (valAt f (Assoc.del L i) G) = t.map (valAt f L G) := by
        apply List.map_congr_left
        intro j hj
        have : j ≠ i := fun e => hn'.1 (e ▸ hj)
        unfold valAt; rw [Assoc.get_del_ne _ this]
      rw [h3] at h2
      rw [valAt_live G hl]
      omega
    | none =>
      cases hg : Assoc.get G i with
      | some s =>
        have h1 := Assoc.sum_del_of_get hg f
        have h2 := ih hn'.2 L (Assoc.del G i) hL
        have h3 : t.map (valAt f L (Assoc.del G i)) = t.map (valAt f L G) := by
          apply List.map_congr_left
          intro j hj
          have : j ≠ i := fun e => hn'.1 (e ▸ hj)
          unfold valAt; rw [Assoc.get_del_ne _ this]
        rw [h3] at h2
        have : valAt f L G i = f s := by unfold valAt; rw [hl, hg]
        omega
      | none =>
        have h2 := ih hn'.2 L G hL
        rw [valAt_none hl hg]; omega

theorem Tx.sum_acc (h : Tx L G a b fs rs A E) (hL : (Assoc.keys L).Nodup) {ids : List Nat} (hn : ids.Nodup) :
    (ids.map A).sum ≤ a := by
  rw [h.acc', h.tot]; exact sum_valAt_le _ ids hn L G hL

end
end Verif.Conn
