import Verif.H3.Write

/-! # C50 — HTTP/3 frames survive an encode/decode round trip

The format of payloads is `Denotes` (H3/Format.lean); a frame is its type, the length of its
payload, and its payload. -/

namespace Verif.Props.C50
open Verif Verif.H3

/-- `out` is a frame of that type with that payload. -/
def IsFrame (ty : Nat) (payload out : Bytes) : Prop :=
  ∃ t l, out = t ++ l ++ payload ∧ IsVarint ty t ∧ IsVarint payload.length l

/-- Frames with fields in range: integers have an encoding, and so has the length of the
payload; unknown types are unknown; settings may be sent, and extra settings do not have the
identifiers of others. -/
def InRange : Frame → Prop
  | .data p | .headers p => p.length < 2 ^ 62
  | .cancelPush id | .goAway id | .maxPushId id => id < 2 ^ 62
  | .pushPromise id r | .prioRequest id r | .prioPush id r => id < 2 ^ 62 ∧ r.length + 8 < 2 ^ 62
  | .unknown ty p => ty ∉ knownTypes ∧ ty < 2 ^ 62 ∧ p.length < 2 ^ 62
  | .settings s => s.Tidy ∧ Sendable s.pairs ∧
      (∀ p ∈ s.pairs, p.1 < 2 ^ 62 ∧ p.2 < 2 ^ 62) ∧ s.pairs.length < 2 ^ 56

/-- What comes back: the same frame, but of settings the extra setting in `grease` is among the
additional ones, and `raw` is the list as sent. -/
def Back (f g : Frame) (payload : Bytes) : Prop :=
  match f with
  | .settings s => ∃ l, Spells (settingFields l) payload ∧ g = .settings
      { s with
        grease := none
        additional := listOpt (s.grease.toList ++ s.additional.getD [])
        raw := some l }
  | f => g = f

theorem pairBytes_le {l : List (Nat × Nat)} (h : Enc l) : (pairBytes l).length ≤ 16 * l.length := by
  induction l with
  | nil => simp [pairBytes]
  | cons p l ih =>
    obtain ⟨id, v⟩ := p
    obtain ⟨h1, h2, h3⟩ := enc_cons h
    have := ih h3
    have h1 : id < 2 ^ 62 := h1
    have h2 : v < 2 ^ 62 := h2
    have a : (Io.enc id).length ≤ 8 := by
      rcases enc_isVarint h1 with h | h | h | h <;> omega
    have b : (Io.enc v).length ≤ 8 := by
      rcases enc_isVarint h2 with h | h | h | h <;> omega
    simp only [pairBytes, List.length_append, List.length_cons]
    omega

/-- **C50.** A frame with fields in range is written as a frame of its type, if there is room,
and otherwise writing fails for lack of it. Reading the payload with the type and length
written returns the frame. Settings longer than 256 bytes are refused. -/
theorem roundtrip {f : Frame} (h : InRange f) :
    ∃ out payload g, Io.Writes (toBytes f) out () ∧ IsFrame f.code payload out ∧
      Back f g payload ∧
      (f.code = 0x04 ∧ 256 < payload.length →
        fromBytes f.code payload.length payload = .error .excessiveLoad) ∧
      (¬ (f.code = 0x04 ∧ 256 < payload.length) →
        fromBytes f.code payload.length payload = .ok g) := by
  have raw : ∀ {ty : Nat} {f : Bytes → Frame} {p : Bytes}, ty < 2 ^ 62 → p.length < 2 ^ 62 →
      IsFrame ty p (Io.enc ty ++ (Io.enc p.length ++ p)) := by
    intro ty f p h1 h2
    exact ⟨_, _, by rw [List.append_assoc], enc_isVarint h1, enc_isVarint h2⟩
  have one : ∀ {id : Nat}, id < 2 ^ 62 → (Io.enc id).length ≤ 8 := by
    intro id h
    rcases enc_isVarint h with h | h | h | h <;> omega
  cases f with
  | data p =>
    have h : p.length < 2 ^ 62 := h
    refine ⟨_, p, .data p, putRaw_writes (by decide) h, raw (f := .data) (by simp [Frame.code]) h, rfl,
      fun c => absurd c.1 (by simp [Frame.code]), fun _ => ?_⟩
    exact fromBytes_complete (.data p) (spells_raw.mpr rfl) (fun c => absurd c (by simp [Frame.code]))
  | headers p =>
    have h : p.length < 2 ^ 62 := h
    refine ⟨_, p, .headers p, putRaw_writes (by decide) h, raw (f := .data) (by simp [Frame.code]) h, rfl,
      fun c => absurd c.1 (by simp [Frame.code]), fun _ => ?_⟩
    exact fromBytes_complete (.headers p) (spells_raw.mpr rfl) (fun c => absurd c (by simp [Frame.code]))
  | cancelPush id =>
    have h : id < 2 ^ 62 := h
    have hl := one h
    refine ⟨_, Io.enc id, .cancelPush id, putId_writes (by decide) h,
      raw (f := .data) (by simp [Frame.code]) (by omega), rfl, fun c => absurd c.1 (by simp [Frame.code]), fun _ => ?_⟩
    exact fromBytes_complete (.cancelPush id) (spells_int.mpr (enc_isVarint h))
      (fun c => absurd c (by simp [Frame.code]))
  | goAway id =>
    have h : id < 2 ^ 62 := h
    have hl := one h
    refine ⟨_, Io.enc id, .goAway id, putId_writes (by decide) h,
      raw (f := .data) (by simp [Frame.code]) (by omega), rfl, fun c => absurd c.1 (by simp [Frame.code]), fun _ => ?_⟩
    exact fromBytes_complete (.goAway id) (spells_int.mpr (enc_isVarint h))
      (fun c => absurd c (by simp [Frame.code]))
  | maxPushId id =>
    have h : id < 2 ^ 62 := h
    have hl := one h
    refine ⟨_, Io.enc id, .maxPushId id, putId_writes (by decide) h,
      raw (f := .data) (by simp [Frame.code]) (by omega), rfl, fun c => absurd c.1 (by simp [Frame.code]), fun _ => ?_⟩
    exact fromBytes_complete (.maxPushId id) (spells_int.mpr (enc_isVarint h))
      (fun c => absurd c (by simp [Frame.code]))
  | pushPromise id r =>
    have h : id < 2 ^ 62 ∧ r.length + 8 < 2 ^ 62 := h
    have hl := one h.1
    refine ⟨_, Io.enc id ++ r, .pushPromise id r, putIdAnd_writes (by decide) h.1 (by omega),
      raw (f := .data) (by simp [Frame.code]) (by rw [List.length_append]; omega), rfl,
      fun c => absurd c.1 (by simp [Frame.code]), fun _ => ?_⟩
    exact fromBytes_complete (.pushPromise id r) (spells_int_raw.mpr ⟨_, rfl, enc_isVarint h.1⟩)
      (fun c => absurd c (by simp [Frame.code]))
  | prioRequest id r =>
    have h : id < 2 ^ 62 ∧ r.length + 8 < 2 ^ 62 := h
    have hl := one h.1
    refine ⟨_, Io.enc id ++ r, .prioRequest id r, putIdAnd_writes (by decide) h.1 (by omega),
      raw (f := .data) (by simp [Frame.code]) (by rw [List.length_append]; omega), rfl,
      fun c => absurd c.1 (by simp [Frame.code]), fun _ => ?_⟩
    exact fromBytes_complete (.prioRequest id r) (spells_int_raw.mpr ⟨_, rfl, enc_isVarint h.1⟩)
      (fun c => absurd c (by simp [Frame.code]))
  | prioPush id r =>
    have h : id < 2 ^ 62 ∧ r.length + 8 < 2 ^ 62 := h
    have hl := one h.1
    refine ⟨_, Io.enc id ++ r, .prioPush id r, putIdAnd_writes (by decide) h.1 (by omega),
      raw (f := .data) (by simp [Frame.code]) (by rw [List.length_append]; omega), rfl,
      fun c => absurd c.1 (by simp [Frame.code]), fun _ => ?_⟩
    exact fromBytes_complete (.prioPush id r) (spells_int_raw.mpr ⟨_, rfl, enc_isVarint h.1⟩)
      (fun c => absurd c (by simp [Frame.code]))
  | unknown ty p =>
    have h : ty ∉ knownTypes ∧ ty < 2 ^ 62 ∧ p.length < 2 ^ 62 := h
    have ht : ty ≠ 0x04 := fun c => h.1 (by rw [c]; decide)
    refine ⟨_, p, .unknown ty p, putRaw_writes h.2.1 h.2.2, raw (f := .data) h.2.1 h.2.2, rfl,
      fun c => absurd c.1 ht, fun _ => ?_⟩
    exact fromBytes_complete (.unknown ty p h.1) (spells_raw.mpr rfl) (fun c => absurd c ht)
  | settings s =>
    obtain ⟨h1, h2, h3, h4⟩ := h
    have hl := pairBytes_le h3
    have hl2 : (pairBytes s.pairs).length < 2 ^ 62 := by omega
    refine ⟨_, pairBytes s.pairs, .settings (received s s.pairs), putSettings_writes h3 hl2,
      raw (f := .data) (by simp [Frame.code]) hl2, ⟨s.pairs, pairBytes_spells h3, rfl⟩, ?_, ?_⟩
    · intro c
      show parseSettingsFrame _ _ = _
      unfold parseSettingsFrame
      rw [if_pos (by exact c.2)]
    · intro c
      rw [← meaning_pairs h1]
      refine fromBytes_complete (.settings s.pairs h2) (pairBytes_spells h3) (fun _ => ?_)
      rcases Nat.lt_or_ge 256 (pairBytes s.pairs).length with d | d
      · exact absurd ⟨rfl, d⟩ c
      · exact d

/-- **C50, the same settings**: without an extra setting in `grease`, and with absent rather
than empty additional settings, the frame comes back but for the list `raw`. -/
theorem same_settings {s : Settings} {g : Frame} {payload : Bytes}
    (h : Back (.settings s) g payload) (hg : s.grease = none) (ha : s.additional ≠ some []) :
    ∃ l, g = .settings { s with raw := some l } := by
  obtain ⟨l, _, h⟩ := h
  refine ⟨l, ?_⟩
  rw [h, hg]
  obtain ⟨a, b, c, d, e, g, i, j⟩ := s
  cases hg
  cases i with
  | none => rfl
  | some i =>
    have : i ≠ [] := fun c => ha (by rw [c])
    simp [listOpt, this]

/-- What is written never depends on the list `raw`, and what is read never has a `grease`. -/
theorem raw_ignored (s : Settings) (r : Option (List (Nat × Nat))) :
    toBytes (.settings { s with raw := r }) = toBytes (.settings s) := rfl

/-! ### A concrete case -/

def sample : Settings :=
  { maxFieldSectionSize := some 65536, h3Datagram := some 1, grease := some (64, 16384),
    additional := some [(0x2b603742, 1)] }

example : toBytes (.settings sample) ⟨List.replicate 28 0, 0⟩ =
    (.ok (), ⟨[4, 21, 6, 128, 1, 0, 0, 66, 118, 1, 51, 1, 64, 64, 128, 0, 64, 0, 171, 96, 55,
      66, 1, 0, 0, 0, 0, 0], 23⟩) := by decide +kernel

example : InRange (.settings sample) := by
  refine ⟨?_, ?_, ?_, by decide⟩
  · unfold Settings.Tidy; decide
  · unfold Sendable; decide
  · decide

example : fromBytes 5 5 [64, 63, 1, 2, 3] = .ok (.pushPromise 63 [1, 2, 3]) := by decide +kernel

end Verif.Props.C50
