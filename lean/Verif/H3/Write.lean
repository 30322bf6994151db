import Verif.H3.Format

/-!
What serialising a frame writes.
-/

namespace Verif.H3
open Verif Verif.Io

theorem enc_isVarint {v : Nat} (h : v < 2 ^ 62) : IsVarint v (enc v) := by
  obtain ⟨n, h1, h2, h3⟩ := varintLen_spec h
  unfold enc; rw [h1]; exact isVarint_enc h2 h3

theorem vlen_eq {v : Nat} (h : v < 2 ^ 62) : vlen v = pure (enc v).length := by
  unfold vlen
  rw [enc_length h]

/-- The bytes of a list of settings. -/
def pairBytes : List (Nat × Nat) → Bytes
  | [] => []
  | (id, v) :: l => enc id ++ (enc v ++ pairBytes l)

/-- All identifiers and values have an encoding. -/
def Enc (l : List (Nat × Nat)) : Prop := ∀ p ∈ l, p.1 < 2 ^ 62 ∧ p.2 < 2 ^ 62

theorem enc_cons {p : Nat × Nat} {l : List (Nat × Nat)} (h : Enc (p :: l)) :
    p.1 < 2 ^ 62 ∧ p.2 < 2 ^ 62 ∧ Enc l := by
  have h1 := h p (by simp)
  exact ⟨h1.1, h1.2, fun q hq => h q (List.mem_cons_of_mem _ hq)⟩

theorem lenPairs_eq {l : List (Nat × Nat)} (h : Enc l) :
    lenPairs l = pure (pairBytes l).length := by
  induction l with
  | nil => rfl
  | cons p l ih =>
    obtain ⟨id, v⟩ := p
    obtain ⟨h1, h2, h3⟩ := enc_cons h
    unfold lenPairs
    rw [vlen_eq h1, vlen_eq h2, ih h3]
    show (pure ((enc id).length + (enc v).length + (pairBytes l).length) : P Nat) = _
    simp only [pairBytes, List.length_append]
    rw [Nat.add_assoc]

theorem putPairs_writes {l : List (Nat × Nat)} (h : Enc l) :
    Writes (putPairs l) (pairBytes l) () := by
  induction l with
  | nil => exact Writes.pure ()
  | cons p l ih =>
    obtain ⟨id, v⟩ := p
    obtain ⟨h1, h2, h3⟩ := enc_cons h
    unfold putPairs pairBytes
    exact (writes_varint h1).bind ((writes_varint h2).bind (ih h3))

theorem pairBytes_spells {l : List (Nat × Nat)} (h : Enc l) :
    Spells (settingFields l) (pairBytes l) := by
  induction l with
  | nil => rfl
  | cons p l ih =>
    obtain ⟨id, v⟩ := p
    obtain ⟨h1, h2, h3⟩ := enc_cons h
    exact ⟨_, _, rfl, enc_isVarint h1, _, _, rfl, enc_isVarint h2, ih h3⟩

theorem putRaw_writes {ty : Nat} {p : Bytes} (ht : ty < 2 ^ 62) (hp : p.length < 2 ^ 62) :
    Writes (putRaw ty p) (enc ty ++ (enc p.length ++ p)) () :=
  (writes_varint ht).bind ((writes_varint hp).bind (writes_bytes p))

theorem putId_writes {ty id : Nat} (ht : ty < 2 ^ 62) (hi : id < 2 ^ 62) :
    Writes (putId ty id) (enc ty ++ (enc (enc id).length ++ enc id)) () := by
  unfold putId
  rw [vlen_eq hi]
  have hl : (enc id).length < 2 ^ 62 := by
    rcases enc_isVarint hi with h | h | h | h <;> omega
  exact (writes_varint ht).bind ((writes_varint hl).bind (writes_varint hi))

theorem putIdAnd_writes {ty id : Nat} {r : Bytes} (ht : ty < 2 ^ 62) (hi : id < 2 ^ 62)
    (hr : (enc id).length + r.length < 2 ^ 62) :
    Writes (putIdAnd ty id r) (enc ty ++ (enc (enc id ++ r).length ++ (enc id ++ r))) () := by
  unfold putIdAnd
  rw [vlen_eq hi, List.length_append]
  exact (writes_varint ht).bind ((writes_varint hr).bind ((writes_varint hi).bind
    (writes_bytes r)))

theorem putSettings_writes {s : Settings} (h : Enc s.pairs) (hl : (pairBytes s.pairs).length < 2 ^ 62) :
    Writes (toBytes (.settings s))
      (enc 0x04 ++ (enc (pairBytes s.pairs).length ++ pairBytes s.pairs)) () := by
  show Writes (do
    let n ← lenPairs s.pairs
    putVarint tSettings
    putVarint n
    putPairs s.pairs : P Unit) _ ()
  rw [lenPairs_eq h]
  exact (writes_varint (by decide)).bind ((writes_varint hl).bind (putPairs_writes h))

/-! ### The settings of a frame -/

/-- What a receiver makes of the settings of a frame, the list of pairs aside. -/
def received (s : Settings) (l : List (Nat × Nat)) : Settings :=
  { s with
    grease := none
    additional := listOpt (s.grease.toList ++ s.additional.getD [])
    raw := some l }

/-- Extra settings do not interfere with those with a meaning. -/
def Settings.Tidy (s : Settings) : Prop :=
  ∀ p ∈ s.grease.toList ++ s.additional.getD [], p.1 ∉ knownSettings

theorem lastValue_append (ids : List Nat) (a b : List (Nat × Nat)) :
    lastValue ids (a ++ b) = (lastValue ids b).or (lastValue ids a) := by
  unfold lastValue
  rw [List.filter_append, List.getLast?_append]
  cases h : (b.filter fun p => decide (p.1 ∈ ids)).getLast? <;> simp [Option.or, h]

theorem lastValue_none {ids : List Nat} {l : List (Nat × Nat)} (h : ∀ p ∈ l, p.1 ∉ ids) :
    lastValue ids l = none := by
  unfold lastValue
  rw [List.filter_eq_nil_iff.mpr]
  · rfl
  · intro p hp; simpa using h p hp

theorem filter_extra {l : List (Nat × Nat)} (h : ∀ p ∈ l, p.1 ∉ knownSettings) :
    l.filter (fun p => p.1 ∉ knownSettings) = l := by
  rw [List.filter_eq_self]
  intro p hp; simpa using h p hp

theorem meaning_pairs {s : Settings} (h : s.Tidy) : meaning s.pairs = received s s.pairs := by
  unfold Settings.Tidy at h
  have hx : ∀ (ids : List Nat), (∀ i ∈ ids, i ∈ knownSettings) →
      lastValue ids (s.grease.toList ++ s.additional.getD []) = none := fun ids hi =>
    lastValue_none (fun p hp c => h p hp (hi _ c))
  have hf := filter_extra h
  unfold meaning received Settings.pairs
  simp only [List.append_assoc]
  generalize s.grease.toList ++ s.additional.getD [] = x at *
  obtain ⟨a, b, c, d, e, g, i, j⟩ := s
  cases a <;> cases b <;> cases c <;> cases d <;> cases e <;>
    (simp only [Option.map_none, Option.map_some, Option.toList_none, Option.toList_some,
      List.nil_append, List.filter_append, lastValue_append, hf]
     rw [hx [0x06] (by decide), hx [0x01] (by decide), hx [0x07] (by decide),
       hx [0x08] (by decide), hx [0x33, 0x276] (by decide)]
     try simp [lastValue, knownSettings, sMaxFieldSectionSize, sQpackMaxTableCapacity,
       sQpackBlockedStreams, sEnableConnectProtocol, sDatagram, sDatagram00])

end Verif.H3
