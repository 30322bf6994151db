import Verif.H3.Format

/-! # C98 — HTTP/3 frame payloads are read exactly as the format says

The format of payloads is `Denotes` (H3/Format.lean). -/

namespace Verif.Props.C98
open Verif Verif.H3

/-- The content of a frame of type `ty` with payload `bs`, in the format. SETTINGS frames of
more than 256 bytes are not supported. -/
def InFormat (ty : Nat) (bs : Bytes) (f : Frame) : Prop :=
  f.code = ty ∧ (ty = 0x04 → bs.length ≤ 256) ∧ ∃ fs, Denotes f fs ∧ Spells fs bs

/-- The claim, in full: what is read is what the format says; payloads that are not in the
format are refused, as malformed frames (0x106), malformed settings (0x109), or excessive load
(0x107). -/
def Exact : Prop := ∀ (ty : Nat) (bs : Bytes),
  (∀ f, fromBytes ty bs.length bs = .ok f ↔ InFormat ty bs f) ∧
  (∀ e, fromBytes ty bs.length bs = .error e → e.toWire ∈ [0x106, 0x107, 0x109])

/-- **C98, complete**: every payload in the format is read. -/
theorem complete {ty : Nat} {bs : Bytes} {f : Frame} (h : InFormat ty bs f) :
    fromBytes ty bs.length bs = .ok f := by
  obtain ⟨rfl, hl, fs, h1, h2⟩ := h
  exact fromBytes_complete h1 h2 hl

/-- **C98, sound but for trailing bytes.** A frame read is of the type given, and all of its
payload is the format of the frame. Missing from `Exact`: after the single integer of
CANCEL_PUSH, GOAWAY and MAX_PUSH_ID any bytes may follow (`trailing`). -/
theorem sound_partial {ty : Nat} {bs : Bytes} {f : Frame}
    (h : fromBytes ty bs.length bs = .ok f) :
    f.code = ty ∧ (ty = 0x04 → bs.length ≤ 256) ∧
      ∃ b extra, bs = b ++ extra ∧ InFormat ty b f ∧ (ty ∉ [0x03, 0x07, 0x0d] → extra = []) := by
  obtain ⟨h1, fs, b, extra, h2, h3, h4, h5, h6⟩ := fromBytes_sound h
  refine ⟨h1, h6, b, extra, h4, ⟨h1, ?_, fs, h2, h3⟩, ?_⟩
  · intro c
    have := h6 c
    rw [h4, List.length_append] at this
    omega
  · intro c
    apply h5
    subst h1
    cases f <;> first | rfl | exact absurd (by simp [Frame.code]) c

/-- **C98, exact** for the other types. -/
theorem exact_partial {ty : Nat} {bs : Bytes} {f : Frame} (ht : ty ∉ [0x03, 0x07, 0x0d]) :
    fromBytes ty bs.length bs = .ok f ↔ InFormat ty bs f := by
  constructor
  · intro h
    obtain ⟨_, _, b, extra, h1, h2, h3⟩ := sound_partial h
    rw [h3 ht, List.append_nil] at h1
    rw [h1]
    exact h2
  · exact complete

/-- **C98, refusals.** A payload is refused for ending early, or, if it is that of a SETTINGS
frame, for a forbidden setting or for its length; never by a panic. -/
theorem refused {ty : Nat} {bs : Bytes} {e : Err} (h : fromBytes ty bs.length bs = .error e) :
    e ≠ .panic ∧ (e = .bufferTooShort ∨ ty = 0x04 ∧ (e = .settingsError ∨ e = .excessiveLoad)) := by
  have h := fromBytes_err h
  refine ⟨?_, h⟩
  rcases h with h | ⟨_, h | h⟩ <;> rw [h] <;> simp

/-- A GOAWAY frame with three bytes too many is accepted. -/
theorem trailing : fromBytes 0x07 4 [4, 0xde, 0xad, 0xbe] = .ok (.goAway 4) := by decide +kernel

/-- **C98 fails**: the frame is not in the format. -/
theorem not_exact : ¬ Exact := by
  intro h
  obtain ⟨_, _, fs, h1, h2⟩ := ((h 0x07 [4, 0xde, 0xad, 0xbe]).1 (.goAway 4)).mp trailing
  cases h1
  rcases spells_int.mp h2 with h | h | h | h
  · exact absurd h.1 (by decide)
  · exact absurd h.1 (by decide)
  · exact absurd h.2.2 (by decide +kernel)
  · exact absurd h.1 (by decide)

/-- An empty GOAWAY is refused with a code that is not of HTTP/3. -/
theorem wrong_code : fromBytes 0x07 0 [] = .error .bufferTooShort ∧
    Err.toWire .bufferTooShort = 0x999 := by decide +kernel

/-- **C98 fails** for the codes too, and not only for the frames accepted. -/
theorem not_codes : ¬ ∀ (ty : Nat) (bs : Bytes) (e : Err),
    fromBytes ty bs.length bs = .error e → e.toWire ∈ [0x106, 0x107, 0x109] := by
  intro h
  exact absurd (h 0x07 [] .bufferTooShort (by decide +kernel)) (by decide)

/-! ### Concrete cases -/

/-- Encodings need not be minimal; the later value of a setting counts. -/
example : fromBytes 0x04 9 [6, 10, 64, 33, 0, 64, 6, 64, 20] = .ok (.settings
    { maxFieldSectionSize := some 20, additional := some [(33, 0)],
      raw := some [(6, 10), (33, 0), (6, 20)] }) := by decide +kernel

example : fromBytes 0x04 2 [8, 2] = .error .settingsError := by decide +kernel

example : InFormat 0x04 [6, 10] (.settings (meaning [(6, 10)])) :=
  ⟨rfl, by decide, _, .settings [(6, 10)] (by unfold Sendable; decide),
    ⟨[6], [10], rfl, .inl (by decide), [10], [], rfl, .inl (by decide), rfl⟩⟩

/-- Given more bytes than the length says, reading a promise panics; a stream never gives
more. -/
example : fromBytes 0x05 1 [64, 1] = .error .panic := by decide +kernel

end Verif.Props.C98
