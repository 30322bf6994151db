import Verif.H3.Fill
import Verif.H3.Format

/-! The state of a stream as a function of the bytes read from it. -/

namespace Verif.H3
open Verif

/-! ### Sequences of frame types -/

/-- HEADERS and DATA. -/
def isHd (t : Nat) : Bool := t == 0 || t == 1

/-- The flags of a stream opened by the peer, for the types of frames read. -/
def Flags (s : Strm) (tys : List Nat) : Prop :=
  ∃ a b c, tys.filter isHd = List.replicate a 1 ++ List.replicate b 0 ++ List.replicate c 1 ∧
    (s.remoteInit = true ↔ 0 < a) ∧ (s.dataReceived = true ↔ 0 < b) ∧
    (s.trailersReceived = true ↔ 0 < c) ∧ c ≤ 1 ∧ (a = 0 → b = 0) ∧ (b = 0 → c = 0)

/-- The sequence of types is as it should be; `peer` if the stream is opened by the peer. -/
def Gram (id : Nat) (peer : Bool) (s : Strm) (tys : List Nat) : Prop :=
  if isBidi id then (∀ t ∈ tys, neverOnRequest t = false) ∧ (peer = true → Flags s tys)
  else if s.remoteInit then ∃ l, tys = 4 :: l ∧ ∀ t ∈ l, t ∉ [0, 1, 4, 5]
  else tys = []

/-- Streams with frames. -/
def Head (id : Nat) (s : Strm) (hdr : Bytes) : Prop :=
  if isBidi id then s.ty = some .request ∧ hdr = [] else s.ty = some .control ∧ IsVarint 0 hdr

theorem replicate_snoc {α : Type} (n : Nat) (a : α) :
    List.replicate n a ++ [a] = List.replicate (n + 1) a := by
  rw [List.replicate_succ']

theorem flags_other {s : Strm} {tys : List Nat} {t : Nat} (h : Flags s tys) (h0 : t ≠ 0) (h1 : t ≠ 1) :
    Flags s (tys ++ [t]) := by
  obtain ⟨a, b, c, h⟩ := h
  refine ⟨a, b, c, ?_⟩
  rw [List.filter_append]
  have : [t].filter isHd = [] := by simp [isHd, h0, h1]
  rw [this, List.append_nil]
  exact h

theorem flags_validate {s s' : Strm} {tys : List Nat} {t : Nat} (hl : s.isLocal = false)
    (h : Flags s tys) (e : s.validateRequest t = .ok s') : Flags s' (tys ++ [t]) := by
  unfold Strm.validateRequest at e
  split at e
  · cases e
  rw [hl] at e
  simp only [Bool.false_eq_true, if_false] at e
  obtain ⟨a, b, c, h1, h2, h3, h4, h5, h6, h7⟩ := h
  split at e
  · rename_i ht
    subst ht
    have hf : (tys ++ [1]).filter isHd = tys.filter isHd ++ [1] := by
      rw [List.filter_append]; rfl
    simp only [tHeaders, Bool.not_eq_true'] at e
    split at e
    · rename_i hr
      have ha : a = 0 := by
        have : ¬ 0 < a := by rw [← h2, hr]; simp
        omega
      cases e
      refine ⟨1, 0, 0, ?_, ?_, ?_, ?_, by omega, by omega, by omega⟩
      · show (tys ++ [1]).filter isHd = _
        rw [hf, h1, ha, h6 ha, h7 (h6 ha)]; rfl
      · simp
      · show s.dataReceived = true ↔ _
        rw [h3, h6 ha]
      · show s.trailersReceived = true ↔ _
        rw [h4, h7 (h6 ha)]
    split at e
    · cases e
    rename_i hr htr
    have hc : c = 0 := by
      have : ¬ 0 < c := by rw [← h4]; exact htr
      omega
    split at e
    · rename_i hd
      have hb : 0 < b := h3.mp hd
      cases e
      refine ⟨a, b, 1, ?_, h2, h3, by simp, by omega, h6, by omega⟩
      show (tys ++ [1]).filter isHd = _
      rw [hf, h1, hc]; simp
    · rename_i hd
      have hb : b = 0 := by
        have : ¬ 0 < b := by rw [← h3]; exact hd
        omega
      cases e
      have ha : 0 < a := by
        rw [← h2]
        cases h : s.remoteInit with
        | true => rfl
        | false => rw [h] at hr; exact absurd rfl hr
      refine ⟨a + 1, 0, 0, ?_, ?_, ?_, ?_, by omega, by omega, by omega⟩
      · show (tys ++ [1]).filter isHd = _
        rw [hf, h1, hb, hc]; simp [List.replicate_succ']
      · rw [h2]; omega
      · rw [h3, hb]
      · rw [h4, hc]
  · rename_i ht1
    split at e
    · rename_i ht
      subst ht
      have hf : (tys ++ [0]).filter isHd = tys.filter isHd ++ [0] := by
        rw [List.filter_append]; rfl
      split at e
      · cases e
      split at e
      · cases e
      rename_i hr htr
      cases e
      have hc : c = 0 := by
        have : ¬ 0 < c := by rw [← h4]; exact htr
        omega
      have ha : 0 < a := by
        rw [← h2]
        simpa using hr
      refine ⟨a, b + 1, 0, ?_, h2, by simp, ?_, by omega, by omega, by omega⟩
      · show (tys ++ [0]).filter isHd = _
        rw [hf, h1, hc]; simp [List.replicate_succ']
      · show s.trailersReceived = true ↔ _
        rw [h4, hc]
    · rename_i ht0
      cases e
      exact flags_other ⟨a, b, c, h1, h2, h3, h4, h5, h6, h7⟩ ht0 ht1

theorem validateRequest_core {s s' : Strm} {t : Nat} (e : s.validateRequest t = .ok s') :
    s'.ty = s.ty ∧ s'.isLocal = s.isLocal ∧ neverOnRequest t = false := by
  unfold Strm.validateRequest at e
  split at e
  · cases e
  rename_i hn
  have hn : neverOnRequest t = false := by simpa using hn
  repeat' split at e
  all_goals first
    | (cases e; exact ⟨rfl, rfl, hn⟩)
    | cases e

theorem validateControl_core {s s' : Strm} {t : Nat} (e : s.validateControl t = .ok s') :
    s'.ty = s.ty ∧ s'.isLocal = s.isLocal ∧ s'.remoteInit = true ∧
      (s.remoteInit = false → t = 4) ∧ (s.remoteInit = true → t ∉ [0, 1, 4, 5]) := by
  unfold Strm.validateControl at e
  split at e
  · rename_i hr
    split at e
    · rename_i ht
      cases e
      refine ⟨rfl, rfl, rfl, fun _ => ht, fun c => ?_⟩
      rw [c] at hr; cases hr
    · cases e
  · rename_i hr
    have hr : s.remoteInit = true := by simpa using hr
    split at e
    · cases e
    · rename_i ht
      cases e
      refine ⟨rfl, rfl, hr, fun c => (by rw [hr] at c; cases c), fun _ c => ht ?_⟩
      simp only [List.mem_cons, List.not_mem_nil, or_false] at c
      simp only [tSettings, tData, tHeaders, tPushPromise]
      omega

/-- A frame type that is accepted continues the grammar. -/
theorem gram_validate {id : Nat} {peer : Bool} {s s' : Strm} {tys : List Nat} {t : Nat} {hdr : Bytes}
    (hl : peer = true → s.isLocal = false) (hh : Head id s hdr) (hg : Gram id peer s tys) (e : s.validate t = .ok s') :
    Head id s' hdr ∧ Gram id peer s' (tys ++ [t]) ∧ s'.isLocal = s.isLocal := by
  unfold Head Gram at *
  cases hb : isBidi id with
  | true =>
    simp only [hb, if_true] at *
    unfold Strm.validate at e
    rw [hh.1] at e
    obtain ⟨c1, c2, c3⟩ := validateRequest_core e
    refine ⟨⟨by rw [c1]; exact hh.1, hh.2⟩, ⟨?_, ?_⟩, c2⟩
    · intro x hx
      rw [List.mem_append] at hx
      rcases hx with hx | hx
      · exact hg.1 x hx
      · rw [List.mem_singleton.mp hx]; exact c3
    · intro c
      exact flags_validate (hl c) (hg.2 c) e
  | false =>
    simp only [hb, Bool.false_eq_true, if_false] at *
    unfold Strm.validate at e
    rw [hh.1] at e
    obtain ⟨c1, c2, c3, c4, c5⟩ := validateControl_core e
    refine ⟨⟨by rw [c1]; exact hh.1, hh.2⟩, ?_, c2⟩
    rw [c3, if_pos rfl]
    cases hr : s.remoteInit with
    | false =>
      rw [hr, if_neg (by decide)] at hg
      rw [hg, c4 hr]
      exact ⟨[], rfl, by intro t ht; cases ht⟩
    | true =>
      rw [hr, if_pos rfl] at hg
      obtain ⟨l, h1, h2⟩ := hg
      refine ⟨l ++ [t], by rw [h1]; rfl, ?_⟩
      intro x hx
      rw [List.mem_append] at hx
      rcases hx with hx | hx
      · exact h2 x hx
      · rw [List.mem_singleton.mp hx]; exact c5 hr

/-! ### Bytes -/

/-- An integer that is being read. -/
structure VarBuf (s : Strm) : Prop where
  off : s.off = s.buf.length
  lt : s.off < s.len
  nil : s.buf = [] → s.len = 1
  cons : ∀ b t, s.buf = b :: t → s.len = varintParseLen b

/-- Frames that a peer's request stream has not been refused for. -/
def NoPush (id : Nat) (peer : Bool) (fs : List (Nat × Bytes)) : Prop :=
  isBidi id = true → peer = true → ∀ f ∈ fs, f.1 ≠ 5

/-- The state of a stream from which `bs` have been read and that has given `out`. -/
inductive Match (limit id : Nat) (peer : Bool) (s : Strm) : Bytes → List Out → Prop where
  | start : isBidi id = false → s.state = .streamType → s.ty = none → s.remoteInit = false →
      VarBuf s → Match limit id peer s s.buf []
  | other {v x y} : isBidi id = false → s.state = .qpackInstruction ∨ s.state = .drain →
      IsVarint v x → v ≠ 0 ∧ v ≠ 1 ∧ s.ty = some (.deserialize v) → Match limit id peer s (x ++ y) []
  | ft {hdr fs body} : Head id s hdr → s.state = .frameType → Frames fs body → VarBuf s →
      Gram id peer s (fs.map (·.1)) → NoPush id peer fs →
      Match limit id peer s (hdr ++ body ++ s.buf) (framesOut limit fs)
  | fl {hdr fs body t a} : Head id s hdr → s.state = .framePayloadLen → Frames fs body →
      s.frameType = some t → IsVarint t a → VarBuf s → Gram id peer s (fs.map (·.1) ++ [t]) →
      NoPush id peer fs → Match limit id peer s (hdr ++ body ++ (a ++ s.buf)) (framesOut limit fs)
  | fp {hdr fs body t a l} : Head id s hdr → s.state = .framePayload → Frames fs body →
      s.frameType = some t → IsVarint t a → t ≠ 0 → IsVarint s.len l → s.off = s.buf.length →
      s.off < s.len ∨ s.len = 0 ∧ s.off = 0 ∧ t ≠ 5 → Gram id peer s (fs.map (·.1) ++ [t]) → NoPush id peer fs →
      Match limit id peer s (hdr ++ body ++ (a ++ l ++ s.buf)) (framesOut limit fs)
  | sk {hdr fs body t a l p} : Head id s hdr → s.state = .skipFramePayload → Frames fs body →
      s.frameType = some t → IsVarint t a → t ∉ knownFrames → IsVarint s.len l →
      s.off = p.length → s.off ≤ s.len → Gram id peer s (fs.map (·.1) ++ [t]) → NoPush id peer fs →
      Match limit id peer s (hdr ++ body ++ (a ++ l ++ p)) (framesOut limit fs)
  | da {hdr fs body a l p} : Head id s hdr → s.state = .data → Frames fs body →
      s.frameType = some 0 → IsVarint 0 a → IsVarint s.len l → s.off = p.length →
      s.off ≤ s.len → Gram id peer s (fs.map (·.1) ++ [0]) → NoPush id peer fs →
      Match limit id peer s (hdr ++ body ++ (a ++ l ++ p)) (framesOut limit fs ++ p.map .byte)

theorem Head.congr {id : Nat} {s t : Strm} {hdr : Bytes} (c : SameCore t s) (h : Head id s hdr) :
    Head id t hdr := by
  unfold Head at *; rw [c.ty]; exact h

theorem Gram.congr {id : Nat} {peer : Bool} {s t : Strm} {tys : List Nat} (c : SameCore t s) (h : Gram id peer s tys) :
    Gram id peer t tys := by
  unfold Gram Flags at *; rw [c.remoteInit, c.dataReceived, c.trailersReceived]; exact h

theorem VarBuf.congr {s t : Strm} (c : SameCore t s) (h : VarBuf s) : VarBuf t :=
  ⟨by rw [c.off, c.buf]; exact h.off, by rw [c.off, c.len]; exact h.lt,
    by rw [c.buf, c.len]; exact h.nil, by rw [c.buf, c.len]; exact h.cons⟩

theorem Match.congr {limit id : Nat} {peer : Bool} {s t : Strm} {bs : Bytes} {out : List Out} (c : SameCore t s)
    (h : Match limit id peer s bs out) : Match limit id peer t bs out := by
  cases h with
  | start h1 h2 h3 h4 h5 =>
    rw [← c.buf]
    exact .start h1 (c.state.trans h2) (c.ty.trans h3) (c.remoteInit.trans h4) (h5.congr c)
  | other h1 h2 h3 h4 => exact .other h1 (by rw [c.state]; exact h2) h3 (by rw [c.ty]; exact h4)
  | ft h1 h2 h3 h4 h5 h6 =>
    rw [← c.buf]
    exact .ft (h1.congr c) (c.state.trans h2) h3 (h4.congr c) (h5.congr c) h6
  | fl h1 h2 h3 h4 h5 h6 h7 h8 =>
    rw [← c.buf]
    exact .fl (h1.congr c) (c.state.trans h2) h3 (c.frameType.trans h4) h5 (h6.congr c) (h7.congr c) h8
  | fp h1 h2 h3 h4 h5 h6 h7 h8 h9 h10 h11 =>
    rw [← c.buf]
    exact .fp (h1.congr c) (c.state.trans h2) h3 (c.frameType.trans h4) h5 h6 (by rw [c.len]; exact h7)
      (by rw [c.off, c.buf]; exact h8) (by rw [c.off, c.len]; exact h9) (h10.congr c) h11
  | sk h1 h2 h3 h4 h5 h6 h7 h8 h9 h10 h11 =>
    exact .sk (h1.congr c) (c.state.trans h2) h3 (c.frameType.trans h4) h5 h6 (by rw [c.len]; exact h7)
      (c.off.trans h8) (by rw [c.off, c.len]; exact h9) (h10.congr c) h11
  | da h1 h2 h3 h4 h5 h6 h7 h8 h9 h10 =>
    exact .da (h1.congr c) (c.state.trans h2) h3 (c.frameType.trans h4) h5 (by rw [c.len]; exact h6)
      (c.off.trans h7) (by rw [c.off, c.len]; exact h8) (h9.congr c) h10

/-! ### What it says -/

/-- What is known of the bytes of a stream and of what it gave. -/
def Good (limit id : Nat) (peer : Bool) (bs : Bytes) (out : List Out) : Prop :=
  if isBidi id then ∃ tys, Says limit [] bs tys out ∧ (peer = true → Message tys)
  else out = [] ∧ ∀ hdr y, bs = hdr ++ y → IsVarint 0 hdr →
    ∃ tys, Says limit hdr bs tys [] ∧ Control tys

theorem varBuf_open {s : Strm} (h : VarBuf s) : ∀ v x y, s.buf ≠ x ++ y ∨ ¬ IsVarint v x := by
  intro v x y
  refine Classical.not_and_iff_not_or_not.mp ?_
  intro ⟨e, hv⟩
  have hd := decVarint_iff (tail := y).mpr hv
  cases hb : s.buf with
  | nil =>
    rw [hb] at e
    have := isVarint_pos hv
    have e2 := congrArg List.length e
    simp only [List.length_nil, List.length_append] at e2
    omega
  | cons b t =>
    have h1 := h.cons b t hb
    rw [← e, hb] at hd
    have h2 := h.lt
    have h3 := h.off
    rw [hb] at h3
    simp only [decVarint] at hd
    rw [if_pos (by omega)] at hd
    cases hd

/-- The encoding of an integer is not the beginning of another. -/
theorem isVarint_prefix {v w : Nat} {a b x y : Bytes} (ha : IsVarint v a) (hb : IsVarint w b)
    (h : a ++ x = b ++ y) : v = w ∧ a = b ∧ x = y := by
  have h1 := decVarint_iff (tail := x).mpr ha
  have h2 := decVarint_iff (tail := y).mpr hb
  rw [h] at h1
  rw [h1] at h2
  have h3 := Except.ok.inj h2
  have h4 : v = w := congrArg Prod.fst h3
  have h5 : a.length = b.length := congrArg Prod.snd h3
  obtain ⟨h6, h7⟩ := List.append_inj h h5
  exact ⟨h4, h6, h7⟩

theorem message_of {id : Nat} {peer : Bool} {s : Strm} {fs : List (Nat × Bytes)} {ty : Option Nat}
    (hb : isBidi id = true) (hl : peer = true) (hp : NoPush id peer fs)
    (hg : Gram id peer s (fs.map (·.1) ++ ty.toList)) : Message (fs.map (·.1) ++ begunTy ty) := by
  unfold Gram at hg
  rw [if_pos hb] at hg
  obtain ⟨h1, h2⟩ := hg
  obtain ⟨a, b, c, h3, h4, h5, h6, h7, h8, h9⟩ := h2 hl
  have hp := hp hb hl
  have key : ∀ l : List Nat, (∀ t ∈ l, neverOnRequest t = false) → (∀ t ∈ l, t ≠ 5) →
      l.filter (· ∈ knownFrames) = l.filter isHd := by
    intro l hl h5
    apply List.filter_congr
    intro t ht
    have := hl t ht
    have := h5 t ht
    unfold neverOnRequest at *
    simp only [tCancelPush, tSettings, tGoAway, tMaxPush, tPrioRequest, tPrioPush, Bool.or_eq_false_iff, beq_eq_false_iff_ne] at *
    unfold isHd knownFrames
    rw [Bool.eq_iff_iff]
    simp only [List.mem_cons, List.not_mem_nil, or_false, decide_eq_true_eq, Bool.or_eq_true, beq_iff_eq]
    omega
  have hfs : ∀ t ∈ fs.map (·.1), t ≠ 5 := by
    intro t ht
    obtain ⟨f, hf, rfl⟩ := List.mem_map.mp ht
    exact hp f hf
  have hn : ∀ t ∈ fs.map (·.1), neverOnRequest t = false := fun t ht =>
    h1 t (List.mem_append_left _ ht)
  unfold begunTy
  split
  · rename_i e
    subst e
    refine ⟨a, b, c, ?_, by omega, h7, h9⟩
    rw [key]
    · exact h3
    · exact h1
    · intro t ht
      rw [List.mem_append] at ht
      rcases ht with ht | ht
      · exact hfs t ht
      · rw [List.mem_singleton.mp ht]; decide
  · rename_i e
    rw [List.append_nil]
    unfold Message
    rw [key _ hn hfs]
    rw [List.filter_append] at h3
    by_cases e1 : ty = some 1
    · subst e1
      have e2 : (Option.toList (some 1)).filter isHd = [1] := rfl
      rw [e2] at h3
      -- the last header section is not complete
      rcases Nat.eq_zero_or_pos c with hc | hc
      · have hb0 : b = 0 := by
          rcases Nat.eq_zero_or_pos b with hb0 | hb0
          · exact hb0
          · exfalso
            have := congrArg List.getLast? h3
            rw [hc] at this
            obtain ⟨b', rfl⟩ : ∃ b', b = b' + 1 := ⟨b - 1, by omega⟩
            simp [List.replicate_succ'] at this
        have ha : 0 < a := by
          rcases Nat.eq_zero_or_pos a with ha | ha
          · rw [ha, hb0, hc] at h3
            simp at h3
          · exact ha
        obtain ⟨a', rfl⟩ : ∃ a', a = a' + 1 := ⟨a - 1, by omega⟩
        rw [hb0, hc, List.replicate_succ'] at h3
        simp only [List.replicate_zero, List.append_nil] at h3
        have := List.append_inj_left' h3 rfl
        exact ⟨a', 0, 0, by rw [this]; simp, by omega, by omega, by omega⟩
      · have hc1 : c = 1 := by omega
        rw [hc1] at h3
        have : List.replicate 1 1 = [1] := rfl
        rw [this] at h3
        have := List.append_inj_left' h3 rfl
        refine ⟨a, b, 0, by rw [this]; simp, by omega, by omega, by omega⟩
    · have e2 : ty.toList.filter isHd = [] := by
        cases ty with
        | none => rfl
        | some t =>
          have : t ≠ 0 := fun c => e (by rw [c])
          have : t ≠ 1 := fun c => e1 (by rw [c])
          simp [isHd, *]
      rw [e2, List.append_nil] at h3
      exact ⟨a, b, c, h3, by omega, h7, h9⟩

theorem frameOut_other {limit : Nat} {f : Nat × Bytes} (h0 : f.1 ≠ 0) (h1 : f.1 ≠ 1) :
    frameOut limit f = [] := by
  unfold frameOut; rw [if_neg h1, if_neg h0]

theorem framesOut_snoc {limit : Nat} {fs : List (Nat × Bytes)} {f : Nat × Bytes} :
    framesOut limit (fs ++ [f]) = framesOut limit fs ++ frameOut limit f := by
  unfold framesOut; simp

theorem control_of {limit id : Nat} {peer : Bool} {s : Strm} {fs : List (Nat × Bytes)} {ty : Option Nat}
    (hb : isBidi id = false) (hg : Gram id peer s (fs.map (·.1) ++ ty.toList)) :
    Control (fs.map (·.1) ++ begunTy ty) ∧ framesOut limit fs = [] ∧ ty ≠ some 0 := by
  have hmem : ∀ t ∈ fs.map (·.1) ++ ty.toList, t ≠ 0 ∧ t ≠ 1 := by
    intro t ht
    unfold Gram at hg
    rw [if_neg (by rw [hb]; decide)] at hg
    split at hg
    · obtain ⟨l, h1, h2⟩ := hg
      rw [h1] at ht
      rcases List.mem_cons.mp ht with rfl | ht
      · decide
      · have := h2 t ht
        simp only [List.mem_cons, List.not_mem_nil, or_false, not_or] at this
        exact ⟨this.1, this.2.1⟩
    · rw [hg] at ht; cases ht
  have hty : ty ≠ some 0 := by
    intro c
    exact (hmem 0 (List.mem_append_right _ (by rw [c]; simp))).1 rfl
  refine ⟨?_, ?_, hty⟩
  · unfold begunTy
    rw [if_neg hty, List.append_nil]
    unfold Gram at hg
    rw [if_neg (by rw [hb]; decide)] at hg
    unfold Control
    split at hg
    · obtain ⟨l, h1, h2⟩ := hg
      cases hf : fs.map (·.1) with
      | nil => exact .inl rfl
      | cons t u =>
        right
        rw [hf, List.cons_append, List.cons.injEq] at h1
        refine ⟨u, by rw [h1.1], fun x hx => h2 x ?_⟩
        rw [← h1.2]
        exact List.mem_append_left _ hx
    · left
      exact (List.append_eq_nil_iff.mp hg).1
  · clear hg
    have : ∀ fs : List (Nat × Bytes), (∀ t ∈ fs.map (·.1), t ≠ 0 ∧ t ≠ 1) → framesOut limit fs = [] := by
      intro fs h
      unfold framesOut
      rw [List.flatten_eq_nil_iff]
      intro l hl
      obtain ⟨f, hf, rfl⟩ := List.mem_map.mp hl
      have := h f.1 (List.mem_map.mpr ⟨f, hf, rfl⟩)
      exact frameOut_other this.1 this.2
    exact this fs (fun t ht => hmem t (List.mem_append_left _ ht))

theorem head_bidi {id : Nat} {s : Strm} {hdr : Bytes} (hb : isBidi id = true) (h : Head id s hdr) :
    s.ty = some .request ∧ hdr = [] := by
  unfold Head at h; rw [if_pos hb] at h; exact h

theorem head_uni {id : Nat} {s : Strm} {hdr : Bytes} (hb : isBidi id = false) (h : Head id s hdr) :
    s.ty = some .control ∧ IsVarint 0 hdr := by
  unfold Head at h; rw [if_neg (by rw [hb]; decide)] at h; exact h

/-- Streams with frames are as they should be. -/
theorem good_framed {limit id : Nat} {s : Strm} {peer : Bool} {hdr body rest p : Bytes}
    {fs : List (Nat × Bytes)} {ty : Option Nat}
    (hh : Head id s hdr) (hf : Frames fs body) (hbg : Begun ty p rest)
    (hg : Gram id peer s (fs.map (·.1) ++ ty.toList)) (hn : NoPush id peer fs) :
    Good limit id peer (hdr ++ body ++ rest) (framesOut limit fs ++ begunOut ty p) := by
  unfold Good
  cases hb : isBidi id with
  | true =>
    obtain ⟨_, rfl⟩ := head_bidi hb hh
    rw [if_pos rfl]
    exact ⟨_, ⟨fs, body, ty, p, rest, rfl, hf, hbg, rfl, rfl⟩, fun c => message_of hb c hn hg⟩
  | false =>
    rw [if_neg (by decide)]
    obtain ⟨h1, h2, h3⟩ := control_of (limit := limit) hb hg
    have h4 : begunOut ty p = [] := by unfold begunOut; rw [if_neg h3]
    rw [h2, h4]
    refine ⟨rfl, fun hdr' y e hv => ?_⟩
    rw [List.append_assoc] at e
    obtain ⟨_, e1, _⟩ := isVarint_prefix (head_uni hb hh).2 hv e
    refine ⟨_, ⟨fs, body, ty, p, rest, by rw [e1], hf, hbg, rfl, ?_⟩, h1⟩
    rw [h2, h4]; rfl

/-- The same, if the last frame is complete. -/
theorem good_whole {limit id : Nat} {s : Strm} {peer : Bool} {hdr body a l p : Bytes}
    {fs : List (Nat × Bytes)} {t : Nat}
    (hh : Head id s hdr) (hf : Frames fs body) (ha : IsVarint t a) (hl : IsVarint p.length l)
    (hg : Gram id peer s (fs.map (·.1) ++ [t])) (hn : NoPush id peer fs)
    (h5 : isBidi id = true → peer = true → t ≠ 5) :
    Good limit id peer (hdr ++ body ++ (a ++ l ++ p)) (framesOut limit fs ++ frameOut limit (t, p)) := by
  have := good_framed (limit := limit) (ty := none) (p := []) (rest := []) hh
    (.snoc hf ⟨a, l, rfl, ha, hl⟩) (.none ?_) (by simpa using hg) (?_ : NoPush id peer (fs ++ [(t, p)]))
  · rw [framesOut_snoc] at this
    simpa [begunOut] using this
  · intro v x y
    refine Classical.not_and_iff_not_or_not.mp ?_
    intro ⟨e, hv⟩
    have := isVarint_pos hv
    have e2 := congrArg List.length e
    simp only [List.length_nil, List.length_append] at e2
    omega
  · intro hb hp f hf
    rcases List.mem_append.mp hf with hf | hf
    · exact hn hb hp f hf
    · rw [List.mem_singleton.mp hf]; exact h5 hb hp

theorem Match.good {limit id : Nat} {s : Strm} {peer : Bool} {bs : Bytes} {out : List Out}
    (h : Match limit id peer s bs out) :
    Good limit id peer bs out := by
  cases h with
  | start h1 h2 h3 h4 h5 =>
    unfold Good
    rw [if_neg (by rw [h1]; decide)]
    refine ⟨rfl, fun hdr y e hv => ?_⟩
    rcases varBuf_open h5 0 hdr y with c | c
    · exact absurd e c
    · exact absurd hv c
  | @other v x y h1 h2 h3 h4 =>
    unfold Good
    rw [if_neg (by rw [h1]; decide)]
    refine ⟨rfl, fun hdr y e hv => ?_⟩
    exact absurd (isVarint_prefix h3 hv e).1 h4.1
  | @ft hdr fs body h1 h2 h3 h4 h5 h6 =>
    have := good_framed (limit := limit) (ty := none) (p := []) h1 h3 (.none (varBuf_open h4)) (by simpa using h5) h6
    simpa [begunOut] using this
  | @fl hdr fs body t a h1 h2 h3 h4 h5 h6 h7 h8 =>
    have := good_framed (limit := limit) (ty := some t) (p := []) h1 h3 (.ty h5 (varBuf_open h6)) h7 h8
    simpa [begunOut] using this
  | @fp hdr fs body t a l h1 h2 h3 h4 h5 h6 h7 h8 h9 h10 h11 =>
    rcases h9 with h9 | ⟨h9, h9', h12⟩
    · have := good_framed (limit := limit) (ty := some t) (p := s.buf) h1 h3
        (.payload h5 h7 (by omega)) h10 h11
      simpa [begunOut, h6] using this
    · have hbuf : s.buf = [] := List.eq_nil_of_length_eq_zero (by omega)
      rw [hbuf]
      rw [h9] at h7
      have := good_whole (limit := limit) (p := []) h1 h3 h5 h7 h10 h11 (fun _ _ => h12)
      have ho : frameOut limit (t, []) = [] := by
        by_cases ht : t = 1
        · rw [ht]; rfl
        · exact frameOut_other h6 ht
      rw [ho] at this
      simpa using this
  | @sk hdr fs body t a l p h1 h2 h3 h4 h5 h6 h7 h8 h9 h10 h11 =>
    have ht : t ≠ 0 := by intro c; rw [c] at h6; exact h6 (by decide)
    have ht1 : t ≠ 1 := by intro c; rw [c] at h6; exact h6 (by decide)
    have ht5 : t ≠ 5 := by intro c; rw [c] at h6; exact h6 (by decide)
    by_cases hl : p.length = s.len
    · rw [← hl] at h7
      have := good_whole (limit := limit) h1 h3 h5 h7 h10 h11 (fun _ _ => ht5)
      rw [frameOut_other (f := (t, p)) ht ht1, List.append_nil] at this
      exact this
    · have := good_framed (limit := limit) (ty := some t) (p := p) h1 h3
        (.payload h5 h7 (by omega)) h10 h11
      simpa [begunOut, ht] using this
  | @da hdr fs body a l p h1 h2 h3 h4 h5 h6 h7 h8 h9 h10 =>
    by_cases hl : p.length = s.len
    · rw [← hl] at h6
      exact good_whole (limit := limit) h1 h3 h5 h6 h9 h10 (fun _ _ => by decide)
    · have := good_framed (limit := limit) (ty := some 0) (p := p) h1 h3
        (.payload h5 h6 (by omega)) h9 h10
      simpa [begunOut] using this

end Verif.H3
