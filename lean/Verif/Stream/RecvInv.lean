import Verif.Stream.RecvLemmas

/-! The invariant of `RecvBuf` and what each operation does. -/

namespace Verif.Stream.RecvBuf
open Verif

structure RInv (r : RecvBuf) : Prop where
  d : DInv r.off r.data
  dlen : ∀ e ∈ r.data, e.1 ≤ r.len
  offlen : r.off ≤ r.len
  fin : ∀ F, r.finOff = some F → r.len = F
  empt : ∀ e ∈ r.data, e.2.len = 0 → r.finOff = some e.1
  drn : r.drain = true → r.data = [] ∧ r.off = r.len
  err : r.error.isSome → r.finOff = some r.off ∧ ∀ e ∈ r.data, e.2.len = 0
  lim : r.len ≤ r.maxData
  cons : r.flowControl.consumed ≤ r.off

theorem rinv_new (m w mw : Nat) : RInv (new m w mw) := by
  constructor <;> simp [new, dinv_nil, FlowControl.new]

/-- The chunk contradicts what is known about the final size. -/
def BadFinal (r : RecvBuf) (buf : RangeBuf) : Prop :=
  (∃ F, r.finOff = some F ∧ (F < buf.maxOff ∨ (buf.fin = true ∧ F ≠ buf.maxOff))) ∨
  (buf.fin = true ∧ buf.maxOff < r.len)

/-- What an accepted chunk does to the state. -/
structure Wrote (r : RecvBuf) (buf : RangeBuf) (r' : RecvBuf) : Prop where
  inv : RInv r'
  len : r'.len = if buf.len = 0 ∧ buf.fin = false then r.len else max r.len buf.maxOff
  finOff : r'.finOff = if buf.fin then some buf.maxOff else r.finOff
  off : r'.off = if r.drain then r'.len else r.off
  fc : r'.flowControl = r.flowControl
  error : r'.error = r.error
  drain : r'.drain = r.drain
  look : r.drain = false → ∀ o, r.off ≤ o → lookup r'.data o = (lookup r.data o).or (buf.byteAt o)
  fresh : r.data = [] → r.drain = false → r.finOff = none → buf.len = 0 → buf.fin = true →
    ∃ b, r'.data = [(buf.maxOff, b)] ∧ b.off = max r.off buf.off
  keep : r.finOff = some r.off → r'.data = r.data

theorem write_spec {r : RecvBuf} (hI : RInv r) {buf : RangeBuf} (hwf : buf.WF)
    (hp : buf.pos = buf.start) :
    (r.maxData < buf.maxOff ∧ r.write buf = (.error .flowControl, r)) ∨
    (buf.maxOff ≤ r.maxData ∧ BadFinal r buf ∧ r.write buf = (.error .finalSize, r)) ∨
    (buf.maxOff ≤ r.maxData ∧ ¬ BadFinal r buf ∧ ∃ r', r.write buf = (.ok (), r') ∧ Wrote r buf r') := by
  obtain ⟨hd, hdl, hol, hfin, hempt, hdrn, herr, hlim, hcons⟩ := hI
  have hge := maxOff_ge buf
  have hz := len_zero_iff buf
  simp only [write]
  by_cases c1 : buf.maxOff > r.maxData
  · left; exact ⟨c1, by rw [if_pos c1]⟩
  right
  rw [if_neg c1]
  by_cases c2 : r.finOff.any (fun f => decide (buf.maxOff > f) || (buf.fin && f != buf.maxOff)) = true
  · left
    rw [if_pos c2]
    refine ⟨by omega, .inl ?_, rfl⟩
    rw [Option.any_eq_true_iff_get] at c2
    obtain ⟨h1, h2⟩ := c2
    refine ⟨_, Option.eq_some_of_isSome h1, ?_⟩
    simpa using h2
  rw [if_neg c2]
  by_cases c3 : (buf.fin && decide (buf.maxOff < r.len)) = true
  · left
    rw [if_pos c3]
    simp only [Bool.and_eq_true, decide_eq_true_eq] at c3
    exact ⟨by omega, .inr c3, rfl⟩
  rw [if_neg c3]
  right
  simp only [Bool.and_eq_true, decide_eq_true_eq] at c3
  have hnb : ¬ BadFinal r buf := by
    rintro (⟨F, h1, h2⟩ | h)
    · apply c2; simp [h1]; simpa using h2
    · exact c3 h
  have hfb : ∀ F, r.finOff = some F → buf.maxOff ≤ F ∧ (buf.fin = true → F = buf.maxOff) := by
    intro F hF
    constructor
    · by_cases h : buf.maxOff ≤ F
      · exact h
      · exact absurd (.inl ⟨F, hF, .inl (by omega)⟩) hnb
    · intro hf
      by_cases h : F = buf.maxOff
      · exact h
      · exact absurd (.inl ⟨F, hF, .inr ⟨hf, h⟩⟩) hnb
  refine ⟨by omega, hnb, ?_⟩
  -- when an accepted chunk carries the final size it is the largest offset
  have hfl : buf.fin = true → r.len ≤ buf.maxOff := by
    intro hf
    by_cases h : buf.maxOff < r.len
    · exact absurd ⟨hf, h⟩ c3
    · omega
  have hsame : ∀ o, r.off ≤ o → buf.maxOff ≤ r.off ∨ buf.len = 0 → buf.byteAt o = none := by
    intro o ho h
    exact RangeBuf.byteAt_none hwf (by rw [hz] at h; omega)
  by_cases c4 : (r.finOff.isSome && buf.isEmpty) = true
  · rw [if_pos c4]
    simp only [Bool.and_eq_true, RangeBuf.isEmpty, beq_iff_eq] at c4
    obtain ⟨F, hF⟩ := Option.isSome_iff_exists.mp c4.1
    have hF1 := hfb F hF
    have hF2 := hfin F hF
    have hmax : max r.len buf.maxOff = r.len := by omega
    refine ⟨r, rfl, ⟨⟨hd, hdl, hol, hfin, hempt, hdrn, herr, hlim, hcons⟩, ?_, ?_, ?_, rfl, rfl, rfl, ?_, ?_, fun _ => rfl⟩⟩
    · rw [hmax]; split <;> rfl
    · by_cases hf : buf.fin = true
      · rw [if_pos hf, hF, hF1.2 hf]
      · rw [if_neg hf]
    · by_cases hdr : r.drain = true
      · rw [if_pos hdr]; exact (hdrn hdr).2
      · rw [if_neg hdr]
    · intro _ o ho
      rw [hsame o ho (.inr c4.2)]; simp
    · intro _ _ hn; simp [hn] at c4
  rw [if_neg c4]
  -- state with the final size recorded
  have hr1 : (if buf.fin = true then { r with finOff := some buf.maxOff } else r)
      = { r with finOff := if buf.fin = true then some buf.maxOff else r.finOff } := by
    split <;> rfl
  simp only [hr1]
  by_cases c5 : (!buf.fin && buf.isEmpty) = true
  · rw [if_pos c5]
    simp only [Bool.and_eq_true, Bool.not_eq_true', RangeBuf.isEmpty, beq_iff_eq] at c5
    refine ⟨_, rfl, ⟨?_, ?_, rfl, ?_, rfl, rfl, rfl, ?_, ?_, fun _ => rfl⟩⟩
    · simp only [c5.1, Bool.false_eq_true, if_false]
      exact ⟨hd, hdl, hol, hfin, hempt, hdrn, herr, hlim, hcons⟩
    · simp [c5.1, c5.2]
    · by_cases hdr : r.drain = true
      · simp [hdr, (hdrn hdr).2]
      · simp [hdr]
    · intro _ o ho
      rw [hsame o ho (.inr c5.2)]; simp
    · intro _ _ _ _ hf; simp [hf] at c5
  rw [if_neg c5]
  simp only [Bool.and_eq_true, Bool.not_eq_true', RangeBuf.isEmpty, beq_iff_eq] at c4 c5
  have hnotempty : ¬ (buf.len = 0 ∧ buf.fin = false) := fun h => c5 ⟨h.2, h.1⟩
  -- invariant parts that concern the final size
  have hfin' : ∀ F, (if buf.fin = true then some buf.maxOff else r.finOff) = some F →
      max r.len buf.maxOff = F := by
    intro F hF
    by_cases hf : buf.fin = true
    · rw [if_pos hf] at hF
      have := hfl hf
      simp only [Option.some.injEq] at hF; omega
    · rw [if_neg hf] at hF
      have := hfin F hF
      have := (hfb F hF).1
      omega
  have hlim' : max r.len buf.maxOff ≤ r.maxData := by omega
  have hfmono : ∀ F, r.finOff = some F →
      (if buf.fin = true then some buf.maxOff else r.finOff) = some F := by
    intro F hF
    by_cases hf : buf.fin = true
    · rw [if_pos hf, (hfb F hF).2 hf]
    · rw [if_neg hf, hF]
  have herr' : r.error.isSome → buf.maxOff ≤ r.off := by
    intro he
    have := herr he
    exact (hfb _ this.1).1
  by_cases c6 : (decide (r.off ≥ buf.maxOff) && !buf.isEmpty) = true
  · rw [if_pos c6]
    simp only [Bool.and_eq_true, decide_eq_true_eq, Bool.not_eq_true', RangeBuf.isEmpty,
      beq_eq_false_iff_ne, ne_eq] at c6
    have hmax : max r.len buf.maxOff = r.len := by omega
    rw [hmax] at hfin' hlim'
    refine ⟨_, rfl, ⟨?_, ?_, rfl, ?_, rfl, rfl, rfl, ?_, ?_, fun _ => rfl⟩⟩
    · refine ⟨hd, hdl, hol, hfin', ?_, hdrn, ?_, hlim', hcons⟩
      · intro e he hz; exact hfmono _ (hempt e he hz)
      · intro he; exact ⟨hfmono _ (herr he).1, (herr he).2⟩
    · simp only [hmax]; split <;> rfl
    · by_cases hdr : r.drain = true
      · simp [hdr, (hdrn hdr).2]
      · simp [hdr]
    · intro _ o ho
      rw [hsame o ho (.inl c6.1)]; simp
    · intro _ _ _ h0; exact absurd h0 c6.2
  rw [if_neg c6]
  simp only [Bool.and_eq_true, decide_eq_true_eq, Bool.not_eq_true', RangeBuf.isEmpty,
    beq_eq_false_iff_ne, ne_eq] at c6
  have hnoerr : r.error = none := by
    cases he : r.error with
    | none => rfl
    | some x =>
      exfalso
      have h1 := herr' (by simp [he])
      have h2 := (herr (by simp [he])).1
      apply c4
      refine ⟨by simp [h2], ?_⟩
      by_cases h : buf.len = 0
      · exact h
      · exact absurd ⟨h1, h⟩ c6
  have hoff : r.off < buf.maxOff ∨ (buf.len = 0 ∧ r.off ≤ buf.off) := by
    by_cases h : buf.len = 0
    · right
      refine ⟨h, ?_⟩
      have hf : buf.fin = true := by
        cases hf : buf.fin with
        | true => rfl
        | false => exact absurd ⟨h, hf⟩ hnotempty
      have := hfl hf
      rw [hz] at h; omega
    · left
      by_cases h2 : r.off < buf.maxOff
      · exact h2
      · exact absurd ⟨by omega, h⟩ c6
  by_cases hdr : r.drain = true
  · -- draining: data is dropped
    obtain ⟨hd0, hd1⟩ := hdrn hdr
    have htl : tmpLoop (r.data.length + 1)
        { r with finOff := if buf.fin = true then some buf.maxOff else r.finOff } [buf]
        = some { r with
            finOff := if buf.fin = true then some buf.maxOff else r.finOff
            len := max r.len buf.maxOff, off := max r.len buf.maxOff } := by
      simp only [tmpLoop]
      by_cases hc : r.off > buf.off
      · have hle : r.off - buf.off ≤ buf.len := by
          simp only [RangeBuf.maxOff] at hoff; omega
        obtain ⟨l, r', hs, hlw, hrw, hlp, hrp, hlo, hlm, hro, hrm, -⟩ :=
          RangeBuf.splitOff_spec hwf hp hle
        simp only [if_pos hc, hs, Option.map_some, hd0, List.filter_nil, overlapLoop, hdr, if_true]
        simp [tmpLoop, hrm]
      · simp only [if_neg hc, hd0, List.filter_nil, overlapLoop, hdr, if_true]
        simp [tmpLoop]
    simp only [htl]
    refine ⟨_, rfl, ⟨?_, ?_, rfl, ?_, rfl, rfl, rfl, ?_, ?_, fun _ => rfl⟩⟩
    · refine ⟨?_, ?_, Nat.le_refl _, hfin', ?_, ?_, ?_, hlim', ?_⟩
      · simp [hd0, dinv_nil]
      · simp [hd0]
      · simp [hd0]
      · intro _; exact ⟨hd0, rfl⟩
      · intro he; simp [hnoerr] at he
      · simp only; omega
    · simp only [if_neg hnotempty]
    · simp [hdr]
    · intro h; simp [hdr] at h
    · intro _ h; simp [hdr] at h
  · -- storing
    have hdr' : r.drain = false := by simpa using hdr
    obtain ⟨D', i1, i2, i3, i4, i5, i6⟩ := tmpLoop_spec (r.data.length + 1)
      { r with finOff := if buf.fin = true then some buf.maxOff else r.finOff } buf hd hdl hdr' hwf hp
      hoff (by
        have := List.length_filter_le (fun e : Entry => decide (buf.off < e.2.off)) r.data
        simp only; omega)
    simp only [i1]
    have hkeep : r.finOff ≠ some r.off := by
      intro h
      have h1 := (hfb _ h).1
      apply c4
      refine ⟨by simp [h], ?_⟩
      omega
    refine ⟨_, rfl, ⟨?_, ?_, rfl, ?_, rfl, rfl, rfl, ?_, ?_, fun h => absurd h hkeep⟩⟩
    · refine ⟨i2, i3, ?_, hfin', ?_, ?_, ?_, hlim', hcons⟩
      · simp only; omega
      · intro e he hze
        rcases i5 e he hze with h | ⟨h1, h2⟩
        · exact hfmono _ (hempt e h hze)
        · have hf : buf.fin = true := by
            cases hf : buf.fin with
            | true => rfl
            | false => exact absurd ⟨h1, hf⟩ hnotempty
          simp only [hf, if_true, h2]
      · intro h; simp [hdr'] at h
      · intro he; simp [hnoerr] at he
    · simp only [if_neg hnotempty]
    · simp [hdr']
    · intro _ o ho; exact i4 o ho
    · intro h1 h2 h3 h4 h5
      obtain ⟨b, hb, hb2, _⟩ := i6 h1
      exact ⟨b, hb, hb2⟩

/-- What a successful read does. -/
structure Read (r : RecvBuf) (cap : Nat) (out : Bytes) (fin : Bool) (r' : RecvBuf) : Prop where
  inv : RInv r'
  noerr : r.error = none
  off : r'.off = r.off + out.length
  le : out.length ≤ cap
  bytes : ∀ i, i < out.length → out[i]? = lookup r.data (r.off + i)
  full : out.length = cap ∨ lookup r.data r'.off = none
  look : ∀ o, r'.off ≤ o → lookup r'.data o = lookup r.data o
  fin : fin = true ↔ r.finOff = some r'.off
  len : r'.len = r.len
  finOff : r'.finOff = r.finOff
  error : r'.error = r.error
  drain : r'.drain = r.drain
  consumed : r'.flowControl = r.flowControl.addConsumed out.length

theorem ready_iff {r : RecvBuf} (hI : RInv r) :
    r.ready = true ↔ (lookup r.data r.off).isSome ∨ ∃ e ∈ r.data, e.2.len = 0 ∧ e.1 = r.off := by
  obtain ⟨hd, hdl, hol, hfin, hempt, hdrn, herr, hlim, hcons⟩ := hI
  cases hD : r.data with
  | nil => simp [ready, hD, lookup]
  | cons e t =>
    obtain ⟨k, b⟩ := e
    rw [hD, dinv_cons] at hd
    obtain ⟨⟨h1, h2, h3⟩, h4, h5⟩ := hd
    simp only at h1 h2 h3 h4
    have hbge := maxOff_ge b
    simp only [ready, hD, beq_iff_eq]
    constructor
    · intro h
      by_cases hz : b.len = 0
      · right
        exact ⟨(k, b), by simp, hz, by rw [len_zero_iff] at hz; simp only; omega⟩
      · left
        rw [lookup_cons]
        have := (RangeBuf.byteAt_isSome h2 r.off).mpr ⟨by omega, by rw [len_zero_iff] at hz; omega⟩
        obtain ⟨x, hx⟩ := Option.isSome_iff_exists.mp this
        simp [hx]
    · rintro (h | ⟨e, he, hz, hk⟩)
      · rw [lookup_cons] at h
        cases hb : b.byteAt r.off with
        | some x => have := RangeBuf.byteAt_lt h2 hb; omega
        | none =>
          simp only [hb, Option.none_or] at h
          obtain ⟨x, hx⟩ := Option.isSome_iff_exists.mp h
          obtain ⟨e, he, hx⟩ := (lookup_iff h5 _ _).mp hx
          have := RangeBuf.byteAt_lt (h5.1 e he).2.1 hx
          have := (h4 e he).2
          omega
      · simp only [List.mem_cons] at he
        rcases he with rfl | he
        · rw [len_zero_iff] at hz; simp only at hz hk; omega
        · have := (h4 e he).1
          omega

theorem emit_spec {r : RecvBuf} (hI : RInv r) (cap : Nat) :
    (r.ready = false ∧ r.emit cap = (.error .done, r)) ∨
    (r.ready = true ∧ ∃ e, r.error = some e ∧
      r.emit cap = (.error (.streamReset e), { r with data := [] }) ∧ RInv { r with data := [] }) ∨
    (r.ready = true ∧ ∃ out fin r', r.emit cap = (.ok (out, fin), r') ∧ Read r cap out fin r') := by
  by_cases hr' : r.ready = false
  · left
    exact ⟨hr', by simp [emit, hr']⟩
  have hr : r.ready = true := by simpa using hr'
  right
  have hI' := hI
  obtain ⟨hd, hdl, hol, hfin, hempt, hdrn, herr, hlim, hcons⟩ := hI
  cases he : r.error with
  | some e =>
    left
    refine ⟨hr, e, rfl, by simp [emit, hr, he], ?_⟩
    refine ⟨dinv_nil _, by simp, hol, hfin, by simp, ?_, ?_, hlim, hcons⟩
    · intro h; exact ⟨rfl, (hdrn h).2⟩
    · intro _; exact ⟨(herr (by simp [he])).1, by simp⟩
  | none =>
    right
    refine ⟨hr, ?_⟩
    rcases hl : emitLoop cap r.off r.data with ⟨out, off', D'⟩
    obtain ⟨j1, j2, j3, j4, j5, j6, j7, j8⟩ := emitLoop_spec cap r.off r.data hd _ _ _ hl
    refine ⟨out, _, _, by simp only [emit, hr, he, hl]; rfl, ?_⟩
    -- the read offset stays within what was received
    have hbound : off' ≤ r.len := by
      by_cases h0 : out.length = 0
      · omega
      · have h1 := j3 (out.length - 1) (by omega)
        have : out[out.length - 1]? = some (out[out.length - 1]'(by omega)) :=
          List.getElem?_eq_getElem _
        rw [this] at h1
        obtain ⟨e, hee, hx⟩ := (lookup_iff hd _ _).mp h1.symm
        have a1 := RangeBuf.byteAt_lt (hd.1 e hee).2.1 hx
        have a2 := (hd.1 e hee).1
        have a3 := hdl e hee
        omega
    refine ⟨?_, he, j1, j2, j3, j4, j6, ?_, rfl, rfl, he.symm, rfl, rfl⟩
    · refine ⟨j5, ?_, hbound, hfin, ?_, ?_, ?_, hlim, ?_⟩
      · intro e' he'
        obtain ⟨e, hee, g1, g2⟩ := j7 e' he'
        have := hdl e hee
        simp only at *; omega
      · intro e' he' hz
        obtain ⟨e, hee, g1, g2⟩ := j7 e' he'
        have := hempt e hee (g2 hz)
        simp only at *; rw [this, g1]
      · intro h
        obtain ⟨h1, h2⟩ := hdrn h
        simp [ready, h1] at hr
      · intro h; simp [he] at h
      · simp only [FlowControl.addConsumed]; omega
    · simp only [isFin, beq_iff_eq]

/-- What an accepted reset does. -/
structure DidReset (r : RecvBuf) (code F : Nat) (ret : ResetReturn) (r' : RecvBuf) : Prop where
  inv : RInv r'
  delta : ret.maxDataDelta = r'.len - r.len
  consumed : ret.consumed = r'.off - r.off
  off : r.off ≤ r'.off
  len : r'.len = F
  finOff : r'.finOff = some F
  error : r'.error = some (r.error.getD code)
  fc : r'.flowControl = r.flowControl
  drain : r'.drain = r.drain
  allRead : r'.off = F
  empties : ∀ e ∈ r'.data, e.2.len = 0
  ready : r.finOff = none → r.drain = false → r'.ready = true
  notReady : r.error = none → r.finOff.isSome = true → r'.ready = false

theorem reset_spec {r : RecvBuf} (hI : RInv r) (code F : Nat) :
    (((∃ G, r.finOff = some G ∧ G ≠ F) ∨ F < r.len) ∧ r.reset code F = (.error .finalSize, r)) ∨
    ((∀ G, r.finOff = some G → G = F) ∧ r.len ≤ F ∧ r.maxData < F ∧
      ∃ r', r.reset code F = (.error .flowControl, r') ∧ r'.data = []) ∨
    ((∀ G, r.finOff = some G → G = F) ∧ r.len ≤ F ∧ F ≤ r.maxData ∧
      ∃ ret r', r.reset code F = (.ok ret, r') ∧ DidReset r code F ret r') := by
  have hI' := hI
  obtain ⟨hd, hdl, hol, hfin, hempt, hdrn, herr, hlim, hcons⟩ := hI
  simp only [reset]
  by_cases c1 : r.finOff.any (fun f => f != F) = true
  · left
    rw [if_pos c1]
    rw [Option.any_eq_true_iff_get] at c1
    obtain ⟨h1, h2⟩ := c1
    exact ⟨.inl ⟨_, Option.eq_some_of_isSome h1, by simpa using h2⟩, rfl⟩
  rw [if_neg c1]
  have hG : ∀ G, r.finOff = some G → G = F := by
    intro G h
    simp [h] at c1; exact c1
  by_cases c2 : F < r.len
  · left; rw [if_pos c2]; exact ⟨.inr c2, rfl⟩
  rw [if_neg c2]
  right
  by_cases c3 : r.error.isSome = true
  · right
    have h1 := herr c3
    have h2 := hG _ h1.1
    have h3 := hfin _ h1.1
    rw [if_pos c3]
    refine ⟨hG, by omega, by omega, ⟨0, 0⟩, r, rfl, ⟨hI', by simp, by simp, Nat.le_refl _, by omega,
      by rw [h1.1, h2], ?_, rfl, rfl, h2, h1.2, ?_, ?_⟩⟩
    · obtain ⟨x, hx⟩ := Option.isSome_iff_exists.mp c3
      simp [hx]
    · intro hn; simp [h1.1] at hn
    · intro hn; simp [hn] at c3
  rw [if_neg c3, if_neg (by omega)]
  have hnone : r.error = none := by simpa using c3
  -- the state handed to `write`
  by_cases hf : r.finOff = none
  · -- unknown final size: the marker is written
    simp only [write]
    have hmo : (RangeBuf.mk' [] F true).maxOff = F := by simp [RangeBuf.maxOff]
    have hemp : (RangeBuf.mk' [] F true).isEmpty = true := by simp [RangeBuf.isEmpty]
    simp only [hmo, hf, RangeBuf.fin_mk', hemp]
    by_cases c4 : F > r.maxData
    · left
      refine ⟨by simp, by omega, by omega, ?_⟩
      rw [if_pos (by simpa [maxData] using c4)]
      exact ⟨_, rfl, rfl⟩
    · right
      refine ⟨by simp, by omega, by omega, ?_⟩
      rw [if_neg (by simpa [maxData] using c4)]
      simp only [Option.any_none, Bool.false_eq_true, if_false, Bool.true_and, decide_eq_true_eq]
      rw [if_neg c2]
      simp only [Option.isSome_none, Bool.false_and, Bool.false_eq_true, if_false, if_true,
        Bool.not_true, Bool.and_false, tmpLoop, List.filter_nil, overlapLoop,
        List.length_nil, RangeBuf.off_mk', Nat.lt_irrefl, gt_iff_lt, hemp, or_true]
      have hmax : max r.len F = F := by omega
      by_cases hdr : r.drain = true
      · simp only [hdr, if_true, hmo, hmax]
        refine ⟨_, _, rfl, ⟨?_, rfl, rfl, by simp only; omega, rfl, rfl, by simp [hnone], rfl, hdr.symm, rfl,
          by simp, by simp [hdr], by simp [hf]⟩⟩
        refine ⟨dinv_nil _, by simp, Nat.le_refl _, by simp, by simp, by simp, by simp,
          by simpa [maxData] using c4, ?_⟩
        simp only; omega
      · have hdr' : r.drain = false := by simpa using hdr
        simp only [hdr', Bool.false_eq_true, if_false, hmo, hmax, mapInsert]
        refine ⟨_, _, rfl, ⟨?_, rfl, rfl, by simp only; omega, rfl, rfl, by simp [hnone], rfl, hdr'.symm, rfl,
          by simp, by simp [ready], by simp [hf]⟩⟩
        refine ⟨?_, by simp, Nat.le_refl _, by simp, by simp, by simp, by simp,
          by simpa [maxData] using c4, ?_⟩
        · simp [DInv, RangeBuf.wf_mk', hmo]
        · simp only; omega
  · -- known final size: nothing is queued
    right
    obtain ⟨G, hGs⟩ := Option.ne_none_iff_exists'.mp hf
    have hGF := hG G hGs
    have hGl := hfin G hGs
    subst hGF
    refine ⟨hG, by omega, by omega, ?_⟩
    have hw : write { r with error := some code, off := G, data := [] } (.mk' [] G true)
        = (.ok (), { r with error := some code, off := G, data := [] }) := by
      have hmo : (RangeBuf.mk' [] G true).maxOff = G := by simp [RangeBuf.maxOff]
      have hemp : (RangeBuf.mk' [] G true).isEmpty = true := by simp [RangeBuf.isEmpty]
      simp only [write, hmo, hGs, hemp, RangeBuf.fin_mk']
      rw [if_neg (by simp only [maxData] at *; omega)]
      simp [hGl]
    simp only [hw]
    refine ⟨_, _, rfl, ⟨?_, by simp only; omega, rfl, by simp only; omega, hGl, hGs, by simp [hnone], rfl, rfl, rfl,
      by simp, by simp [hGs], by simp [ready]⟩⟩
    refine ⟨dinv_nil _, by simp, by simp only; omega, hfin, by simp, ?_, ?_, hlim, ?_⟩
    · intro _; exact ⟨rfl, hGl.symm⟩
    · intro _; exact ⟨hGs, by simp⟩
    · simp only; omega

theorem shutdown_spec {r : RecvBuf} (hI : RInv r) :
    (r.drain = true ∧ r.shutdown = (.error .done, r)) ∨
    (r.drain = false ∧ ∃ r', r.shutdown = (.ok (r'.off - r.off), r') ∧ RInv r' ∧ r'.off = r.len ∧
      r'.len = r.len ∧ r'.drain = true ∧ r'.data = [] ∧ r'.finOff = r.finOff ∧ r'.error = r.error ∧
      r'.flowControl = r.flowControl) := by
  obtain ⟨hd, hdl, hol, hfin, hempt, hdrn, herr, hlim, hcons⟩ := hI
  by_cases hdr : r.drain = true
  · exact .inl ⟨hdr, by simp [shutdown, hdr]⟩
  · right
    have hdr' : r.drain = false := by simpa using hdr
    refine ⟨hdr', { r with drain := true, data := [], off := r.len }, ?_, ?_, rfl, rfl, rfl, rfl, rfl, rfl, rfl⟩
    · simp only [shutdown, hdr', Bool.false_eq_true, if_false]
      rw [if_neg (by omega)]
    · refine ⟨dinv_nil _, by simp, Nat.le_refl _, hfin, by simp, by simp, ?_, hlim, by simp only; omega⟩
      intro he
      refine ⟨?_, by simp⟩
      have := (herr he).1
      have h2 := hfin _ this
      simp only; rw [this, h2]

end Verif.Stream.RecvBuf
