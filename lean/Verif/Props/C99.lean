import Verif.H3.Write
import Verif.H3.Config
import Verif.Props.C50

/-! # C99 — The settings an endpoint sends are those it was configured with, and are accepted -/

namespace Verif.Props.C99
open Verif Verif.H3

/-- What an application asked for: the values of settings, by their identifiers (RFC 9114,
section 7.2.4.1; RFC 9204, section 5; RFC 9220, section 3). -/
abbrev Wants := Nat → Option Nat

def Wants.set (w : Wants) (id : Nat) (v : Option Nat) : Wants := fun i => if i = id then v else w i

/-- A list of further settings replaces an earlier one. -/
def Wants.more (w : Wants) (l : List (Nat × Nat)) : Wants := fun i =>
  if i ∈ [0x01, 0x06, 0x07, 0x08] then w i else (l.find? (·.1 == i)).map (·.2)

/-- Configurations that can be made with the API, with 64-bit arguments, and what they are to
tell the peer. -/
inductive Made : Config → Wants → Prop where
  | new : Made .new (fun i => if i = 0x06 then some 32768 else none)
  | maxField {c w} (v) (hv : v < 2 ^ 64) (h : Made c w) :
      Made (c.setMaxFieldSectionSize v) (w.set 0x06 (some v))
  | table {c w} (v) (hv : v < 2 ^ 64) (h : Made c w) :
      Made (c.setQpackMaxTableCapacity v) (w.set 0x01 (some v))
  | blocked {c w} (v) (hv : v < 2 ^ 64) (h : Made c w) :
      Made (c.setQpackBlockedStreams v) (w.set 0x07 (some v))
  | connect {c w} (b : Bool) (h : Made c w) :
      Made (c.enableExtendedConnect b) (w.set 0x08 (if b then some 1 else none))
  | additional {c d w} (l) (hl : ∀ p ∈ l, p.1 < 2 ^ 64 ∧ p.2 < 2 ^ 64) (h : Made c w)
      (e : c.setAdditional l = .ok d) : Made d (w.more l)

/-- The random numbers drawn. -/
def Drawn (rnd : Option (Nat × Nat)) : Prop :=
  ∀ r, rnd = some r → r.1 < 148764065110560899 ∧ r.2 < 148764065110560899

/-- What the peer should learn. -/
structure Learned (w : Wants) (dgram : Bool) (s : Settings) : Prop where
  maxField : s.maxFieldSectionSize = w 0x06
  table : s.qpackMaxTableCapacity = w 0x01
  blocked : s.qpackBlockedStreams = w 0x07
  connect : s.connectProtocolEnabled = w 0x08
  dgram : s.h3Datagram = if dgram then some 1 else none
  additional : ∀ i v, i ∉ [0x01, 0x06, 0x07, 0x08] → w i = some v →
    (i, v) ∈ s.additional.getD []

/-- `out` is a SETTINGS frame that a peer accepts and that tells it `s`. -/
def Accepted (out : Bytes) (s : Settings) : Prop :=
  ∃ payload, C50.IsFrame 0x04 payload out ∧
    fromBytes 0x04 payload.length payload = .ok (.settings s)

/-- The claim, in full: a configuration made with the API is sent in a SETTINGS frame that is
accepted and tells the peer that configuration, unless there is no room in the buffer for the
frame. -/
def Sent : Prop := ∀ (c : Config) (w : Wants) (dgram : Bool) (rnd : Option (Nat × Nat)),
  Made c w → Drawn rnd →
  c.sent dgram rnd = .error .bufferTooShort ∨
  ∃ out s, c.sent dgram rnd = .ok out ∧ Accepted out s ∧ Learned w dgram s

theorem made_wants {c : Config} {w : Wants} (h : Made c w) :
    c.maxFieldSectionSize = w 0x06 ∧ c.qpackMaxTableCapacity = w 0x01 ∧
    c.qpackBlockedStreams = w 0x07 ∧ c.connectProtocolEnabled = w 0x08 ∧
    ∀ i v, i ∉ [0x01, 0x06, 0x07, 0x08] → w i = some v → (i, v) ∈ c.additional.getD [] := by
  induction h with
  | new =>
    refine ⟨rfl, rfl, rfl, rfl, fun i v hi e => ?_⟩
    simp only [List.mem_cons, List.not_mem_nil, or_false, not_or] at hi
    simp [hi.2.1] at e
  | maxField v hv h ih =>
    refine ⟨rfl, ih.2.1, ih.2.2.1, ih.2.2.2.1, fun i v hi e => ih.2.2.2.2 i v hi ?_⟩
    simp only [List.mem_cons, List.not_mem_nil, or_false, not_or] at hi
    simpa [Wants.set, hi.2.1] using e
  | table v hv h ih =>
    refine ⟨ih.1, rfl, ih.2.2.1, ih.2.2.2.1, fun i v hi e => ih.2.2.2.2 i v hi ?_⟩
    simp only [List.mem_cons, List.not_mem_nil, or_false, not_or] at hi
    simpa [Wants.set, hi.1] using e
  | blocked v hv h ih =>
    refine ⟨ih.1, ih.2.1, rfl, ih.2.2.2.1, fun i v hi e => ih.2.2.2.2 i v hi ?_⟩
    simp only [List.mem_cons, List.not_mem_nil, or_false, not_or] at hi
    simpa [Wants.set, hi.2.2.1] using e
  | connect b h ih =>
    refine ⟨ih.1, ih.2.1, ih.2.2.1, rfl, fun i v hi e => ih.2.2.2.2 i v hi ?_⟩
    simp only [List.mem_cons, List.not_mem_nil, or_false, not_or] at hi
    simpa [Wants.set, hi.2.2.2] using e
  | additional l hl h e ih =>
    unfold Config.setAdditional at e
    split at e
    · cases e
    · cases e
      refine ⟨ih.1, ih.2.1, ih.2.2.1, ih.2.2.2.1, fun i v hi e => ?_⟩
      unfold Wants.more at e
      rw [if_neg hi] at e
      cases hf : l.find? (·.1 == i) with
      | none => rw [hf] at e; cases e
      | some p =>
        rw [hf] at e
        have h1 := List.mem_of_find?_eq_some hf
        have h2 := List.find?_some hf
        have h3 := Option.some.inj e
        have h4 : p.1 = i := by simpa using h2
        rw [← h3, ← h4]
        exact h1

theorem noDup_iff {l : List Nat} : noDup l = true ↔ l.Nodup := by
  induction l with
  | nil => simp [noDup]
  | cons a l ih => simp [noDup, ih]

/-- The additional settings of a configuration are distinct and are not the settings the
library handles. -/
theorem made_additional {c : Config} {w : Wants} (h : Made c w) :
    ((c.additional.getD []).map (·.1)).Nodup ∧
      ∀ p ∈ c.additional.getD [], p.1 ∉ knownSettings := by
  induction h with
  | new => exact ⟨by decide, by intro p hp; cases hp⟩
  | maxField v hv h ih => exact ih
  | table v hv h ih => exact ih
  | blocked v hv h ih => exact ih
  | connect b h ih => exact ih
  | additional l hl h e ih =>
    unfold Config.setAdditional at e
    split at e
    · cases e
    · rename_i hc
      cases e
      simp only [Option.getD_some]
      simp only [Bool.or_eq_true, Bool.not_eq_true', not_or, Bool.not_eq_false] at hc
      refine ⟨noDup_iff.mp hc.1, fun p hp hk => hc.2 ?_⟩
      rw [List.any_eq_true]
      refine ⟨p.1, ?_, by simpa using ⟨p.2, hp⟩⟩
      revert hk
      simp only [knownSettings, explicitSettings, sQpackMaxTableCapacity, sMaxFieldSectionSize,
        sQpackBlockedStreams, sEnableConnectProtocol, sDatagram, sDatagram00, List.mem_cons,
        List.not_mem_nil, or_false]
      omega

theorem made_connect {c : Config} {w : Wants} (h : Made c w) :
    c.connectProtocolEnabled = none ∨ c.connectProtocolEnabled = some 1 := by
  induction h with
  | new => exact .inl rfl
  | maxField v hv h ih => exact ih
  | table v hv h ih => exact ih
  | blocked v hv h ih => exact ih
  | connect b h ih => cases b <;> simp [Config.enableExtendedConnect]
  | additional l hl h e ih =>
    unfold Config.setAdditional at e
    split at e
    · cases e
    · cases e; exact ih

/-- Reserved identifiers (RFC 9114, section 7.2.4.1) are those of the form 31 n + 33; they are
of no use to a peer. -/
theorem grease_form {n : Nat} (h : n < greaseBound) :
    greaseValue n < 2 ^ 62 ∧ (∃ k, greaseValue n = 0x1f * k + 0x21) ∧
      greaseValue n ∉ knownSettings ∧ greaseValue n ∉ reservedSettings ∧
      greaseValue n ∉ knownTypes := by
  unfold greaseValue greaseBound at *
  refine ⟨by omega, ⟨n, rfl⟩, ?_, ?_, ?_⟩ <;>
    simp only [knownSettings, reservedSettings, knownTypes, List.mem_cons, List.not_mem_nil,
      or_false] <;> omega

theorem mem_pairs {s : Settings} {p : Nat × Nat} (h : p ∈ s.pairs) :
    s.maxFieldSectionSize = some p.2 ∧ p.1 = 0x06 ∨
    s.qpackMaxTableCapacity = some p.2 ∧ p.1 = 0x01 ∨
    s.qpackBlockedStreams = some p.2 ∧ p.1 = 0x07 ∨
    s.connectProtocolEnabled = some p.2 ∧ p.1 = 0x08 ∨
    s.h3Datagram = some p.2 ∧ (p.1 = 0x33 ∨ p.1 = 0x276) ∨
    p ∈ s.grease.toList ∨ p ∈ s.additional.getD [] := by
  unfold Settings.pairs at h
  obtain ⟨a, b, c, d, e, g, i, j⟩ := s
  simp only [List.mem_append, Option.mem_toList, Option.map_eq_some_iff] at h ⊢
  rcases h with (((((h | h) | h) | h) | h) | h) | h
  · obtain ⟨v, rfl, rfl⟩ := h; exact .inl ⟨rfl, rfl⟩
  · obtain ⟨v, rfl, rfl⟩ := h; exact .inr (.inl ⟨rfl, rfl⟩)
  · obtain ⟨v, rfl, rfl⟩ := h; exact .inr (.inr (.inl ⟨rfl, rfl⟩))
  · obtain ⟨v, rfl, rfl⟩ := h; exact .inr (.inr (.inr (.inl ⟨rfl, rfl⟩)))
  · refine .inr (.inr (.inr (.inr (.inl ?_))))
    cases e with
    | none => simp at h
    | some v =>
      simp only [List.mem_cons, List.not_mem_nil, or_false] at h
      rcases h with rfl | rfl
      · exact ⟨rfl, .inr rfl⟩
      · exact ⟨rfl, .inl rfl⟩
  · exact .inr (.inr (.inr (.inr (.inr (.inl h)))))
  · exact .inr (.inr (.inr (.inr (.inr (.inr h)))))

/-- Configurations whose settings have an encoding and that do not use the identifiers of
HTTP/2 settings. -/
structure Proper (c : Config) : Prop where
  maxField : ∀ v, c.maxFieldSectionSize = some v → v < 2 ^ 62
  table : ∀ v, c.qpackMaxTableCapacity = some v → v < 2 ^ 62
  blocked : ∀ v, c.qpackBlockedStreams = some v → v < 2 ^ 62
  additional : ∀ p ∈ c.additional.getD [], p.1 < 2 ^ 62 ∧ p.2 < 2 ^ 62 ∧ p.1 ∉ reservedSettings

/-- **C99 for proper configurations.** Missing from `Sent`: values of 2^62 and more, for which
the endpoint panics (`panics`), and additional settings with the identifiers of HTTP/2, which
are sent and which the peer refuses (`refused`). -/
theorem sent_partial {c : Config} {w : Wants} {dgram : Bool} {rnd : Option (Nat × Nat)}
    (hm : Made c w) (hp : Proper c) (hd : Drawn rnd) (hn : (c.frame dgram rnd).pairs.length < 2 ^ 56) :
    c.sent dgram rnd = .error .bufferTooShort ∨
    ∃ out s, c.sent dgram rnd = .ok out ∧ Accepted out s ∧ Learned w dgram s := by
  have hg : ∀ p ∈ (c.frame dgram rnd).grease.toList, p.1 < 2 ^ 62 ∧ p.2 < 2 ^ 62 ∧
      p.1 ∉ knownSettings ∧ p.1 ∉ reservedSettings := by
    intro p h
    simp only [Config.frame, Option.mem_toList, Option.map_eq_some_iff] at h
    obtain ⟨r, hr, rfl⟩ := h
    have a := grease_form (hd r hr).1
    have b := grease_form (hd r hr).2
    exact ⟨a.1, b.1, a.2.2.1, a.2.2.2.1⟩
  have ha := (made_additional hm).2
  have hin : C50.InRange (.settings (c.frame dgram rnd)) := by
    refine ⟨?_, ?_, ?_, hn⟩
    · intro p h
      rw [List.mem_append] at h
      rcases h with h | h
      · exact (hg p h).2.2.1
      · exact ha p h
    · intro p h
      rcases mem_pairs h with ⟨h1, h2⟩ | ⟨h1, h2⟩ | ⟨h1, h2⟩ | ⟨h1, h2⟩ | ⟨h1, h2⟩ | h | h
      · rw [h2]; exact ⟨by decide, fun c => absurd c (by decide)⟩
      · rw [h2]; exact ⟨by decide, fun c => absurd c (by decide)⟩
      · rw [h2]; exact ⟨by decide, fun c => absurd c (by decide)⟩
      · rw [h2]
        refine ⟨by decide, fun _ => ?_⟩
        change c.connectProtocolEnabled = some p.2 at h1
        rcases made_connect hm with e | e <;> rw [e] at h1
        · cases h1
        · have := Option.some.inj h1; omega
      · have : p.2 ≤ 1 := by
          change (if dgram then some 1 else none) = some p.2 at h1
          split at h1
          · have := Option.some.inj h1; omega
          · cases h1
        refine ⟨?_, fun _ => this⟩
        rcases h2 with h2 | h2 <;> rw [h2] <;> decide
      · refine ⟨(hg p h).2.2.2, fun c => absurd ?_ (hg p h).2.2.1⟩
        revert c
        simp only [knownSettings, List.mem_cons, List.not_mem_nil, or_false]
        omega
      · refine ⟨(hp.additional p h).2.2, fun c => absurd ?_ (ha p h)⟩
        revert c
        simp only [knownSettings, List.mem_cons, List.not_mem_nil, or_false]
        omega
    · intro p h
      rcases mem_pairs h with ⟨h1, h2⟩ | ⟨h1, h2⟩ | ⟨h1, h2⟩ | ⟨h1, h2⟩ | ⟨h1, h2⟩ | h | h
      · exact ⟨by omega, hp.maxField _ h1⟩
      · exact ⟨by omega, hp.table _ h1⟩
      · exact ⟨by omega, hp.blocked _ h1⟩
      · refine ⟨by omega, ?_⟩
        change c.connectProtocolEnabled = some p.2 at h1
        rcases made_connect hm with e | e <;> rw [e] at h1
        · cases h1
        · have := Option.some.inj h1; omega
      · refine ⟨by omega, ?_⟩
        change (if dgram then some 1 else none) = some p.2 at h1
        split at h1
        · have := Option.some.inj h1; omega
        · cases h1
      · exact ⟨(hg p h).1, (hg p h).2.1⟩
      · exact ⟨(hp.additional p h).1, (hp.additional p h).2.1⟩
  obtain ⟨out, payload, g, h1, h2, h3, h4, h5⟩ := C50.roundtrip hin
  obtain ⟨l, h6, h7⟩ := h3
  have hwf : (⟨List.replicate 128 42, 0⟩ : Cur).WF := by unfold Cur.WF; simp
  by_cases hr : out.length ≤ 128
  · right
    obtain ⟨c', e, w⟩ := h1.ok ⟨List.replicate 128 42, 0⟩ hwf (by simpa [Cur.cap] using hr)
    refine ⟨out, received (c.frame dgram rnd) l, ?_, ⟨payload, h2, ?_⟩, ?_⟩
    rotate_left
    · show _ = Except.ok (Frame.settings (received (c.frame dgram rnd) l))
      unfold received
      rw [← h7]
      apply h5
      obtain ⟨t, l', e, _⟩ := h2
      rw [e] at hr
      simp only [List.length_append] at hr
      omega
    · have hw := made_wants hm
      exact ⟨hw.1, hw.2.1, hw.2.2.1, hw.2.2.2.1, rfl, by
        intro i v hi hv
        have : (i, v) ∈ (c.frame dgram rnd).grease.toList ++
            (c.frame dgram rnd).additional.getD [] :=
          List.mem_append_right _ (hw.2.2.2.2 i v hi hv)
        show (i, v) ∈ (listOpt _).getD []
        unfold listOpt
        split
        · rename_i e; rw [e] at this; cases this
        · exact this⟩
    · unfold Config.sent
      rw [e]
      dsimp only
      rw [w.off, w.buf]
      simp [Cur.overwrite]
  · left
    obtain ⟨c', e⟩ := h1.short ⟨List.replicate 128 42, 0⟩ hwf (by simp [Cur.cap]; omega)
    unfold Config.sent
    rw [e]
    rfl

/-- The API accepts the identifier of an HTTP/2 setting. -/
theorem accepts_http2 : Config.new.setAdditional [(0x02, 1)] =
    .ok ⟨some 32768, none, none, none, some [(0x02, 1)]⟩ := by decide +kernel

/-- It is sent, and the peer closes the connection. -/
theorem refused : Config.sent ⟨some 32768, none, none, none, some [(0x02, 1)]⟩ false none =
      .ok [4, 7, 6, 128, 0, 128, 0, 2, 1] ∧
    fromBytes 0x04 7 [6, 128, 0, 128, 0, 2, 1] = .error .settingsError := by decide +kernel

/-- A size of 2^62 makes the endpoint panic. -/
theorem panics : (Config.new.setMaxFieldSectionSize (2 ^ 62)).sent false none = .error .panic := by
  decide +kernel

/-- **C99 fails**, for values without an encoding. -/
theorem not_sent : ¬ Sent := by
  intro h
  rcases h _ _ false none (.maxField (2 ^ 62) (by decide) .new) (by intro r hr; cases hr) with h | h
  · rw [panics] at h; cases h
  · obtain ⟨_, _, h, _⟩ := h
    rw [panics] at h; cases h

/-! ### A concrete case -/

def sample : Config := ⟨some 32768, none, some 3, some 1, some [(0x2b603742, 1)]⟩

example : (∃ w, Made sample w ∧ w 0x2b603742 = some 1 ∧ w 7 = some 3) ∧ Proper sample := by
  constructor
  · exact ⟨_, .additional (c := ⟨some 32768, none, some 3, some 1, none⟩) [(0x2b603742, 1)]
      (by decide) (.connect true (.blocked 3 (by decide) .new)) (by decide +kernel),
      by decide, by decide⟩
  · refine ⟨?_, ?_, ?_, ?_⟩
    · intro v h; cases h; decide
    · intro v h; cases h
    · intro v h; cases h; decide
    · decide

example : sample.sent true (some (0, 1)) = .ok [4, 22, 6, 128, 0, 128, 0, 7, 3, 8, 1, 66, 118, 1,
    51, 1, 33, 64, 64, 171, 96, 55, 66, 1] := by decide +kernel

end Verif.Props.C99
