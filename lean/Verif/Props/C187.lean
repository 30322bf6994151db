import Verif.Tp.Reserved
import Verif.Tp.Spec

/-!
C187: reserved identifiers and unknown transport parameters.

Of the transport parameters an application can ask for, `is_reserved` tells exactly those that are
reserved (RFC 9000, 18.1: `31 * N + 27`). The unknown parameters that are kept are among those
received, in order, and together no more than was allowed. A configuration can be made for version 1
and for versions reserved to force negotiation (RFC 9000, 15: `0x?a?a?a?a`) only.

False: the check panics for unknown parameters below 27, one of them in use (`reserved_false`); a
parameter that just fits is not kept (`fit_false`); configurations can be made for versions that are
not reserved, version 0 of Version Negotiation packets among them (`version_false`,
`version_zero_false`).
-/

namespace Verif.Props.C187

open Verif Verif.Tp

/-! ### Transport parameters -/

/-- RFC 9000, 18.1. -/
def Reserved (id : Nat) : Prop := ∃ n, id = 31 * n + 27

theorem reserved (id : Nat) (h : 27 ≤ id) :
    ∃ b, isReserved id = some b ∧ (b = true ↔ Reserved id) := by
  refine ⟨_, by unfold isReserved; rw [if_pos h], ?_⟩
  simp only [beq_iff_eq, Reserved]
  constructor
  · intro h1
    exact ⟨_, h1⟩
  · rintro ⟨n, hn⟩
    omega

theorem reserved_wrapping (id : Nat) (h : id < 2 ^ 64) (h11 : id ≠ 11) :
    isReservedWrapping id = true ↔ Reserved id := by
  by_cases h27 : id < 27
  · have hd : ∀ i < 27, i ≠ 11 → isReservedWrapping i = false := by decide
    rw [hd id h27 h11]
    simp only [Bool.false_eq_true, false_iff]
    rintro ⟨n, hn⟩
    omega
  · unfold isReservedWrapping Reserved
    rw [show (id + 2 ^ 64 - 27) % 2 ^ 64 = id - 27 by omega]
    simp only [beq_iff_eq]
    rw [Nat.mod_eq_of_lt (show 31 * ((id - 27) / 31) + 27 < 2 ^ 64 by omega)]
    constructor
    · intro h1
      exact ⟨_, h1⟩
    · rintro ⟨n, hn⟩
      omega

example : isReserved 58 = some true ∧ isReserved 59 = some false := by decide
example : isReservedWrapping 17 = false ∧ isReservedWrapping 27 = true := by decide

/-- The parameter `version_information` (RFC 9368), 0x11, with any value is kept and then panics
when it is asked whether it is reserved. -/
theorem reserved_false :
    (decode [0x11, 4, 0, 0, 0, 1] true (some 100)).toOption.bind (·.unknown) =
      some { capacity := 88, params := [(0x11, [0, 0, 0, 1])] } ∧
    isReserved 0x11 = none := by
  decide +kernel

/-- No parameter below 27 is reserved, but for all of them the check panics. -/
theorem reserved_panics (id : Nat) (h : id < 27) : isReserved id = none ∧ ¬ Reserved id := by
  refine ⟨by unfold isReserved; rw [if_neg (by omega)], ?_⟩
  rintro ⟨n, hn⟩
  omega

/-- Parameter 11 is taken for reserved without overflow checks; but it is a known one. -/
theorem reserved_eleven : isReservedWrapping 11 = true ∧ ¬ Reserved 11 ∧ 11 ∈ knownIds := by
  refine ⟨by decide, ?_, by decide⟩
  rintro ⟨n, hn⟩
  omega

/-- The bytes charged for parameters. -/
def charge : List Entry → Nat
  | [] => 0
  | e :: es => e.2.length + 8 + charge es

/-- What is kept is among what was received, in order, unknown, and charged to the allowance, which
is never used up whole. -/
theorem kept (room : Nat) (es : List Entry) :
    (keep room es).2.Sublist es ∧ (∀ e ∈ (keep room es).2, e.1 ∉ knownIds) ∧
    (keep room es).1 + charge (keep room es).2 = room ∧ (0 < room → 0 < (keep room es).1) := by
  induction es generalizing room with
  | nil => exact ⟨.slnil, by simp [keep], by simp [keep, charge], by simp [keep]⟩
  | cons e es ih =>
    unfold keep
    split
    · rename_i h
      obtain ⟨h1, h2, h3, h4⟩ := ih (room - (e.2.length + 8))
      refine ⟨.cons_cons _ h1, ?_, ?_, fun _ => h4 (by omega)⟩
      · intro x hx
        rcases List.mem_cons.mp hx with rfl | hx
        · exact h.1
        · exact h2 x hx
      · simp only [charge]
        omega
    · obtain ⟨h1, h2, h3⟩ := ih room
      exact ⟨.cons _ h1, h2, h3⟩

/-- All that is unknown is kept if there is more room than it needs. -/
theorem all_kept (room : Nat) (es : List Entry)
    (h : charge (es.filter (fun e => e.1 ∉ knownIds)) < room) :
    (keep room es).2 = es.filter (fun e => e.1 ∉ knownIds) := by
  induction es generalizing room with
  | nil => rfl
  | cons e es ih =>
    unfold keep
    by_cases hk : e.1 ∉ knownIds
    · rw [List.filter_cons_of_pos (by simpa using hk)] at h ⊢
      simp only [charge] at h
      rw [if_pos ⟨hk, by omega⟩]
      simp only
      rw [ih _ (by omega)]
    · rw [List.filter_cons_of_neg (by simpa using hk)] at h ⊢
      rw [if_neg (fun hx => hk hx.1)]
      exact ih _ h

/-- The model keeps what `keep` says (C37 says so for whole encodings). -/
example : (decode [0x11, 1, 5, 0x40, 0x40, 3, 1, 2, 3, 0x01, 1, 9] true (some 20)).toOption.bind (·.unknown) =
    some { capacity := 11, params := [(0x11, [5])] } ∧
    keep 20 [(0x11, [5]), (0x40, [1, 2, 3]), (0x01, [9])] = (11, [(0x11, [5])]) := by decide +kernel

/-- A parameter that needs just the room there is, is not kept. -/
theorem fit_false (id : Nat) (val : Bytes) :
    (keep (val.length + 8) [(id, val)]).2 = [] ∧
    (({ capacity := val.length + 8 } : Unknown).push id val).params = [] := by
  constructor
  · unfold keep
    rw [if_neg (by simp)]
    rfl
  · simp [Unknown.push]

/-! ### Versions -/

/-- RFC 9000, 15: `0x?a?a?a?a`. -/
def ReservedVersion (v : Nat) : Prop := ∀ i < 4, v / 256 ^ i % 16 = 10

/-- The bits of a version that must be zero. -/
theorem mask_iff (v : Nat) (h : v < 2 ^ 32) :
    isReservedVersion v = true ↔ ∀ i < 4, v / 256 ^ i % 2 = 0 ∧ v / (4 * 256 ^ i) % 2 = 0 := by
  unfold isReservedVersion
  rw [beq_iff_eq]
  have hz : ∀ i, v.testBit i = true → i < 32 := by
    intro i hi
    apply Classical.byContradiction
    intro hn
    have : v < 2 ^ i := Nat.lt_of_lt_of_le h (Nat.pow_le_pow_right (by omega) (by omega))
    rw [Nat.testBit_lt_two_pow this] at hi
    simp at hi
  have hm : ∀ i < 32, reservedVersionMask.testBit i =
      !decide (i ∈ [0, 2, 8, 10, 16, 18, 24, 26]) := by decide
  constructor
  · intro he
    have hb : ∀ i ∈ [0, 2, 8, 10, 16, 18, 24, 26], v.testBit i = false := by
      intro i hi
      have h1 : (v &&& reservedVersionMask).testBit i = v.testBit i := by rw [he]
      rw [Nat.testBit_and] at h1
      have h2 : i < 32 := by
        simp at hi; omega
      rw [hm i h2] at h1
      rw [← h1]
      simp [hi]
    have hd : ∀ i ∈ [0, 2, 8, 10, 16, 18, 24, 26], v / 2 ^ i % 2 = 0 := by
      intro i hi
      have := hb i hi
      rw [Nat.testBit_eq_decide_div_mod_eq] at this
      simp at this
      omega
    intro i hi
    have : i = 0 ∨ i = 1 ∨ i = 2 ∨ i = 3 := by omega
    rcases this with rfl | rfl | rfl | rfl
    · exact ⟨hd 0 (by simp), hd 2 (by simp)⟩
    · exact ⟨hd 8 (by simp), hd 10 (by simp)⟩
    · exact ⟨hd 16 (by simp), hd 18 (by simp)⟩
    · exact ⟨hd 24 (by simp), hd 26 (by simp)⟩
  · intro hd
    apply Nat.eq_of_testBit_eq
    intro i
    rw [Nat.testBit_and]
    by_cases hi : v.testBit i = true
    · rw [hi, Bool.true_and]
      have h32 := hz i hi
      rw [hm i h32]
      have hd' : ∀ i ∈ [0, 2, 8, 10, 16, 18, 24, 26], v / 2 ^ i % 2 = 0 := by
        intro i hi
        have h0 := hd 0 (by omega)
        have h1 := hd 1 (by omega)
        have h2 := hd 2 (by omega)
        have h3 := hd 3 (by omega)
        simp only [List.mem_cons, List.not_mem_nil, or_false] at hi
        rcases hi with rfl | rfl | rfl | rfl | rfl | rfl | rfl | rfl
        · exact h0.1
        · exact h0.2
        · exact h1.1
        · exact h1.2
        · exact h2.1
        · exact h2.2
        · exact h3.1
        · exact h3.2
      by_cases hl : i ∈ [0, 2, 8, 10, 16, 18, 24, 26]
      · have := hd' i hl
        rw [Nat.testBit_eq_decide_div_mod_eq] at hi
        simp at hi
        omega
      · simp [hl]
    · simp at hi
      rw [hi]; rfl

/-- A configuration can be made for every reserved version, and for version 1. -/
theorem version_reserved (v : Nat) (h : v < 2 ^ 32) (hr : ReservedVersion v ∨ v = 1) :
    configNew v = .ok v := by
  unfold configNew
  rcases hr with hr | rfl
  · have : isReservedVersion v = true := by
      rw [mask_iff v h]
      intro i hi
      have := hr i hi
      rw [Nat.mul_comm 4, ← Nat.div_div_eq_div_mul]
      omega
    rw [this]; rfl
  · rfl

example : ReservedVersion 0xbabababa ∧ configNew 0xbabababa = .ok 0xbabababa :=
  ⟨by unfold ReservedVersion; decide, by rfl⟩

/-- What a configuration can be made for: version 1, and versions whose every other half byte is 0,
2, 8 or 10. -/
theorem version_partial (v : Nat) (h : v < 2 ^ 32) :
    configNew v = .ok v ↔ v = 1 ∨ ∀ i < 4, v / 256 ^ i % 16 ∈ [0, 2, 8, 10] := by
  have hb : isReservedVersion v = true ↔ ∀ i < 4, v / 256 ^ i % 16 ∈ [0, 2, 8, 10] := by
    rw [mask_iff v h]
    constructor
    · intro hh i hi
      have := hh i hi
      rw [Nat.mul_comm 4, ← Nat.div_div_eq_div_mul] at this
      simp only [List.mem_cons, List.not_mem_nil, or_false]
      omega
    · intro hh i hi
      have := hh i hi
      rw [Nat.mul_comm 4, ← Nat.div_div_eq_div_mul]
      simp only [List.mem_cons, List.not_mem_nil, or_false] at this
      omega
  rw [← hb]
  unfold configNew Verif.Packet.versionIsSupported
  cases isReservedVersion v with
  | true => simp
  | false => by_cases h1 : v = 1 <;> simp [h1]

/-- All other versions are refused as unknown. -/
theorem version_refused (v : Nat) (h : configNew v ≠ .ok v) : configNew v = .error .unknownVersion := by
  unfold configNew at h ⊢
  split
  · rfl
  · rename_i hc
    rw [if_neg hc] at h
    exact absurd rfl h

example : configNew 0xff00001d = .error .unknownVersion := by rfl

/-- Configurations for versions that are neither supported nor reserved. -/
theorem version_false :
    (∃ v < 2 ^ 32, configNew v = .ok v ∧ v ≠ 1 ∧ ¬ ReservedVersion v) ∧
    configNew 0 = .ok 0 ∧ configNew 2 = .ok 2 ∧ configNew 0x08000000 = .ok 0x08000000 := by
  refine ⟨⟨0, by omega, by rfl, by omega, fun h => ?_⟩, by rfl, by rfl, by rfl⟩
  have := h 0 (by omega)
  simp at this

/-- A long header with version 0, whatever its type bits and what follows, is that of a Version
Negotiation packet: so are the first packets of a client with such a configuration. -/
theorem version_zero_false (first : Nat) : Verif.Packet.longType first 0 = some .versionNegotiation := rfl

/-- The header of an Initial packet of such a client, with a token and a length: a server takes the
rest for a list of versions. -/
example : (Verif.Packet.fromBytes 0
    (Cur.withSlice [0xc0, 0, 0, 0, 0, 2, 1, 2, 1, 9, 0, 0x41, 0, 0])).1 =
    .ok { ty := .versionNegotiation, version := 0, dcid := [1, 2], scid := [9], versions := some [0x00410000] } := by
  decide +kernel

end Verif.Props.C187
