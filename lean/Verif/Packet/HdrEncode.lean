import Verif.Packet.HdrLemmas

namespace Verif.Packet
open Verif Verif.Io

/-- The token fields of a long header. -/
def tokenFields (h : Header) : List Field :=
  match h.ty with
  | .initial => [.int (h.token.getD []).length, .raw (h.token.getD [])]
  | .retry => [.raw (h.token.getD [])]
  | _ => []

/-- The fields of a header, with first byte `b`. -/
def hdrFields (h : Header) (b : Nat) : List Field :=
  if h.ty = .short then [.fix 1 b, .raw h.dcid]
  else [.fix 1 b, .fix 4 h.version, .fix 1 h.dcid.length, .raw h.dcid, .fix 1 h.scid.length, .raw h.scid] ++ tokenFields h

/-- The first byte of a header. -/
def firstByte (h : Header) : Nat :=
  if h.ty = .short then firstShort h.pktNumLen h.keyPhase else firstLong h.pktNumLen ((typeBits h.ty).getD 0)

/-- First bytes: form, fixed bit, type or key phase, packet number length. -/
theorem firstShort_spec {n : Nat} (hn : n ≤ 4) (k : Bool) :
    firstShort n k < 128 ∧ firstShort n k / 64 = 1 ∧ firstShort n k % 4 = n - 1 ∧
      (firstShort n k / 4 % 2 = if k then 1 else 0) := by
  have : n = 0 ∨ n = 1 ∨ n = 2 ∨ n = 3 ∨ n = 4 := by omega
  rcases this with rfl | rfl | rfl | rfl | rfl <;> cases k <;> decide

theorem firstLong_spec {n t : Nat} (hn : n ≤ 4) (ht : t < 4) :
    128 ≤ firstLong n t ∧ firstLong n t < 256 ∧ firstLong n t / 64 = 3 ∧ firstLong n t / 16 % 4 = t ∧
      firstLong n t % 4 = n - 1 := by
  have h1 : n = 0 ∨ n = 1 ∨ n = 2 ∨ n = 3 ∨ n = 4 := by omega
  have h2 : t = 0 ∨ t = 1 ∨ t = 2 ∨ t = 3 := by omega
  rcases h1 with rfl | rfl | rfl | rfl | rfl <;> rcases h2 with rfl | rfl | rfl | rfl <;> decide

theorem emits_toBytes {h : Header} (hr : InRange h) :
    ∃ n, Emits (toBytes h) (hdrFields h (firstByte h)) n := by
  obtain ⟨⟨hv, _⟩, hty, hd, hs, ht, hre, hpl⟩ := hr
  unfold toBytes hdrFields firstByte
  by_cases hsh : h.ty = .short
  · rw [if_pos hsh, if_pos hsh, if_pos hsh]
    have := firstShort_spec hpl h.keyPhase
    exact ⟨_, Emits.bind (f1 := [_]) (emits_u (by simpa using (by omega : firstShort h.pktNumLen h.keyPhase < 256))) (emits_bytes _)⟩
  rw [if_neg hsh, if_neg hsh, if_neg hsh]
  have tail : ∃ n, Emits (match h.ty with
      | .initial => match h.token with
        | some v => do
          Io.putVarint v.length
          Io.putBytes v
        | none => Io.putVarint 0
      | .retry => match h.token with
        | some v => Io.putBytes v
        | none => Io.fail .panic
      | _ => pure () : P Unit) (tokenFields h) n := by
    unfold tokenFields
    split
    · cases htk : h.token with
      | none =>
        obtain ⟨n, h1, _⟩ := varintLen_spec (v := 0) (by decide)
        obtain ⟨bs, w, s, l⟩ := emits_varint (ε := Err) h1
        exact ⟨n, bs, w, spells_append (f1 := [.int 0]) (f2 := [.raw []]) |>.mpr ⟨bs, [], by simp, s, spells_one.mpr rfl⟩, l⟩
      | some t =>
        obtain ⟨n, h1, _⟩ := varintLen_spec (ht t htk)
        exact ⟨_, Emits.bind (f1 := [.int t.length]) (emits_varint h1) (emits_bytes t)⟩
    · next he =>
      cases htk : h.token with
      | none => have := hre he; rw [htk] at this; simp at this
      | some t => exact ⟨_, emits_bytes t⟩
    · exact ⟨_, Emits.pure⟩
  obtain ⟨n, htail⟩ := tail
  have tb : ∃ t, typeBits h.ty = some t ∧ t < 4 := by
    cases hh : h.ty <;> simp_all [typeBits]
  obtain ⟨t, ht1, ht2⟩ := tb
  rw [ht1]
  have h1 := firstLong_spec (n := h.pktNumLen) hpl ht2
  have e1 : asU8 h.dcid.length = h.dcid.length := Nat.mod_eq_of_lt (by omega)
  have e2 : asU8 h.scid.length = h.scid.length := Nat.mod_eq_of_lt (by omega)
  simp only [e1, e2, Option.getD_some]
  exact ⟨_, Emits.bind (f1 := [_]) (emits_u (by simpa using h1.2.1)) <|
    Emits.bind (f1 := [_]) (emits_u (by simpa using hv)) <|
    Emits.bind (f1 := [_]) (emits_u (by simp; omega)) <|
    Emits.bind (f1 := [_]) (emits_bytes _) <|
    Emits.bind (f1 := [_]) (emits_u (by simp; omega)) <|
    Emits.bind (f1 := [_]) (emits_bytes _) htail⟩

/-- A header with any first byte of the right form and type is on the wire. -/
theorem hdrFields_wire {h : Header} (hr : InRange h) {b : Nat} {tail : Bytes}
    (hb : if h.ty = .short then b < 128 else 128 ≤ b ∧ some (b / 16 % 4) = typeBits h.ty)
    (ht : h.ty = .retry → tail.length = 16) : HdrWire h.dcid.length (hdrFields h b) tail (visible h) := by
  obtain ⟨⟨hv, hv0⟩, hty, hd, hs, htk, hre, hpl⟩ := hr
  refine ⟨rfl, rfl, rfl, ?_⟩
  unfold hdrFields
  by_cases hsh : h.ty = .short
  · rw [if_pos hsh] at hb ⊢
    left
    refine ⟨b, hb, ?_⟩
    unfold visible
    simp [hsh]
  · rw [if_neg hsh] at hb ⊢
    right
    refine ⟨b, tokenFields h, hb.1, ?_, ?_, ?_⟩
    · unfold visible; simp [hsh]
    · unfold visible; simp only [if_neg hsh]; intro _; exact ⟨hd, hs⟩
    · have hvis : (visible h).version = h.version := by unfold visible; simp [hsh]
      rw [hvis]
      unfold LongRest
      rw [if_neg (hv0 hsh)]
      unfold visible tokenFields
      cases hh : h.ty <;> simp_all [typeBits]
      · cases htt : h.token <;> simp_all

end Verif.Packet
