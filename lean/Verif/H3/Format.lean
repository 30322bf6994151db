import Verif.Codec.Fields
import Verif.H3.Frame

/-!
The format of HTTP/3 frame payloads (RFC 9114, section 7.2; RFC 9218, section 7), written
down without the code of the parser or of the serialiser.
-/

namespace Verif.H3
open Verif

/-- The type of a frame (RFC 9114, section 11.2.1; RFC 9218, section 7). -/
def Frame.code : Frame → Nat
  | .data _ => 0x00
  | .headers _ => 0x01
  | .cancelPush _ => 0x03
  | .settings _ => 0x04
  | .pushPromise _ _ => 0x05
  | .goAway _ => 0x07
  | .maxPushId _ => 0x0d
  | .prioRequest _ _ => 0xf0700
  | .prioPush _ _ => 0xf0701
  | .unknown ty _ => ty

/-- The types with a format of their own. -/
def knownTypes : List Nat := [0x00, 0x01, 0x03, 0x04, 0x05, 0x07, 0x0d, 0xf0700, 0xf0701]

/-- Identifiers and values of settings are spelled one after the other. -/
def settingFields : List (Nat × Nat) → List Field
  | [] => []
  | (id, v) :: l => .int id :: .int v :: settingFields l

/-- The last value given for one of these identifiers. -/
def lastValue (ids : List Nat) (l : List (Nat × Nat)) : Option Nat :=
  ((l.filter (fun p => p.1 ∈ ids)).getLast?).map (·.2)

/-- Identifiers with a meaning. -/
def knownSettings : List Nat := [0x01, 0x06, 0x07, 0x08, 0x33, 0x276]

/-- Identifiers reserved for HTTP/2 settings (RFC 9114, section 7.2.4.1). -/
def reservedSettings : List Nat := [0x00, 0x02, 0x03, 0x04, 0x05]

/-- A list that is absent rather than empty. -/
def listOpt (l : List (Nat × Nat)) : Option (List (Nat × Nat)) := if l = [] then none else some l

/-- What a list of settings means. -/
def meaning (l : List (Nat × Nat)) : Settings where
  maxFieldSectionSize := lastValue [0x06] l
  qpackMaxTableCapacity := lastValue [0x01] l
  qpackBlockedStreams := lastValue [0x07] l
  connectProtocolEnabled := lastValue [0x08] l
  h3Datagram := lastValue [0x33, 0x276] l
  grease := none
  additional := listOpt (l.filter (fun p => p.1 ∉ knownSettings))
  raw := some l

/-- Settings that may be sent: no reserved identifiers, and flags are 0 or 1 (RFC 8441,
RFC 9297). -/
def Sendable (l : List (Nat × Nat)) : Prop :=
  ∀ p ∈ l, p.1 ∉ reservedSettings ∧ (p.1 ∈ [0x08, 0x33, 0x276] → p.2 ≤ 1)

/-- `Denotes f fs`: the fields `fs` are a payload with the content of `f`. -/
inductive Denotes : Frame → List Field → Prop where
  | data (p) : Denotes (.data p) [.raw p]
  | headers (p) : Denotes (.headers p) [.raw p]
  | cancelPush (id) : Denotes (.cancelPush id) [.int id]
  | settings (l) (h : Sendable l) : Denotes (.settings (meaning l)) (settingFields l)
  | pushPromise (id r) : Denotes (.pushPromise id r) [.int id, .raw r]
  | goAway (id) : Denotes (.goAway id) [.int id]
  | maxPushId (id) : Denotes (.maxPushId id) [.int id]
  | prioRequest (id r) : Denotes (.prioRequest id r) [.int id, .raw r]
  | prioPush (id r) : Denotes (.prioPush id r) [.int id, .raw r]
  | unknown (ty p) (h : ty ∉ knownTypes) : Denotes (.unknown ty p) [.raw p]

/-- The frames whose payload is a single integer. -/
def Frame.single : Frame → Bool
  | .cancelPush _ | .goAway _ | .maxPushId _ => true
  | _ => false

/-! ### Reading integers -/

theorem getVar_spell {v : Nat} {bs : Bytes} (h : IsVarint v bs) (tail : Bytes) :
    getVar (bs ++ tail) = .ok (v, tail) := by
  unfold getVar
  rw [decVarint_iff.mpr h]
  simp

theorem decVarint_len {bs : Bytes} {v n : Nat} (h : decVarint bs = .ok (v, n)) :
    n ≤ bs.length ∧ 1 ≤ n := by
  cases bs with
  | nil => simp [decVarint] at h
  | cons b t =>
    simp only [decVarint] at h
    split at h
    · cases h
    · have h := Except.ok.inj h
      simp only [Prod.mk.injEq] at h
      rcases varintParseLen_isLen b with e | e | e | e <;> omega

theorem getVar_sound {bs t : Bytes} {v : Nat} (h : getVar bs = .ok (v, t)) :
    ∃ hd, bs = hd ++ t ∧ IsVarint v hd := by
  unfold getVar at h
  split at h
  · rename_i w n e
    have h := Except.ok.inj h
    simp only [Prod.mk.injEq] at h
    obtain ⟨rfl, rfl⟩ := h
    have hl := decVarint_len e
    refine ⟨bs.take n, (List.take_append_drop n bs).symm, ?_⟩
    apply (decVarint_iff (tail := bs.drop n)).mp
    rw [List.take_append_drop, e, List.length_take, Nat.min_eq_left hl.1]
  · cases h

theorem decVarint_err {bs : Bytes} {e : OErr} (h : decVarint bs = .error e) : e = .tooShort := by
  cases bs with
  | nil => simp [decVarint] at h; exact h.symm
  | cons b t =>
    simp only [decVarint] at h
    split at h
    · cases h; rfl
    · cases h

theorem getVar_err {bs : Bytes} {e : Err} (h : getVar bs = .error e) : e = .bufferTooShort := by
  unfold getVar at h
  split at h
  · cases h
  · rename_i o ho
    rw [decVarint_err ho] at h
    cases h; rfl

theorem isVarint_pos {v : Nat} {bs : Bytes} (h : IsVarint v bs) : 1 ≤ bs.length := by
  rcases h with h | h | h | h <;> omega

/-! ### Settings -/

theorem apply_ok {s t : Settings} {id v : Nat} (h : s.apply id v = .ok t) :
    Sendable [(id, v)] := by
  unfold Settings.apply at h
  intro p hp
  simp only [List.mem_singleton] at hp
  subst hp
  simp only [reservedSettings, List.mem_cons, List.not_mem_nil, or_false]
  simp only [sQpackMaxTableCapacity, sMaxFieldSectionSize, sQpackBlockedStreams,
    sEnableConnectProtocol, sDatagram00, sDatagram] at h
  repeat' split at h
  all_goals first
    | cases h; done
    | (constructor <;> omega)

theorem apply_err {s : Settings} {id v : Nat} {e : Err} (h : s.apply id v = .error e) :
    e = .settingsError ∧ ¬ Sendable [(id, v)] := by
  unfold Settings.apply at h
  simp only [sQpackMaxTableCapacity, sMaxFieldSectionSize, sQpackBlockedStreams,
    sEnableConnectProtocol, sDatagram00, sDatagram] at h
  have key : ∀ (c : Sendable [(id, v)]), (id ≠ 0 ∧ id ≠ 2 ∧ id ≠ 3 ∧ id ≠ 4 ∧ id ≠ 5) ∧
      (id = 8 ∨ id = 0x33 ∨ id = 0x276 → v ≤ 1) := by
    intro c
    have c := c (id, v) (by simp)
    simp only [reservedSettings, List.mem_cons, List.not_mem_nil, or_false] at c
    omega
  repeat' split at h
  all_goals first
    | cases h; done
    | (cases h
       refine ⟨rfl, fun c => ?_⟩
       have c := key c
       omega)

theorem lastValue_snoc (ids : List Nat) (l : List (Nat × Nat)) (id v : Nat) :
    lastValue ids (l ++ [(id, v)]) = if id ∈ ids then some v else lastValue ids l := by
  unfold lastValue
  rw [List.filter_append]
  by_cases h : id ∈ ids
  · simp [h]
  · simp [h]

theorem listOpt_snoc (l : List (Nat × Nat)) (p : Nat × Nat) :
    some ((listOpt l).getD [] ++ [p]) = listOpt (l ++ [p]) := by
  unfold listOpt
  by_cases h : l = []
  · simp [h]
  · simp [h]

theorem meaning_apply {l : List (Nat × Nat)} {id v : Nat} (h : Sendable [(id, v)]) :
    ((meaning l).pushRaw id v).apply id v = .ok (meaning (l ++ [(id, v)])) := by
  have h := h (id, v) (by simp)
  simp only [reservedSettings, List.mem_cons, List.not_mem_nil, or_false] at h
  have hf : ((l ++ [(id, v)]).filter (fun p => p.1 ∉ knownSettings)) =
      l.filter (fun p => p.1 ∉ knownSettings) ++
        (if id ∈ knownSettings then [] else [(id, v)]) := by
    rw [List.filter_append]
    congr 1
    by_cases c : id ∈ knownSettings
    · simp [c]
    · simp [c]
  unfold Settings.apply Settings.pushRaw meaning
  simp only [lastValue_snoc, hf]
  simp only [sQpackMaxTableCapacity, sMaxFieldSectionSize, sQpackBlockedStreams,
    sEnableConnectProtocol, sDatagram00, sDatagram, List.mem_cons, List.not_mem_nil, or_false]
  by_cases c1 : id = 1
  · subst c1; simp [knownSettings]
  by_cases c2 : id = 6
  · subst c2; simp [knownSettings]
  by_cases c3 : id = 7
  · subst c3; simp [knownSettings]
  by_cases c4 : id = 8
  · subst c4
    have : ¬ 1 < v := by omega
    simp [knownSettings, this]
  by_cases c5 : id = 0x33
  · subst c5
    have : ¬ 1 < v := by omega
    simp [knownSettings, this]
  by_cases c6 : id = 0x276
  · subst c6
    have : ¬ 1 < v := by omega
    simp [knownSettings, this]
  have c7 : id ∉ knownSettings := by
    simp only [knownSettings, List.mem_cons, List.not_mem_nil, or_false]; omega
  have c8 : ¬ (id = 0 ∨ id = 2 ∨ id = 3 ∨ id = 4 ∨ id = 5) := by omega
  have c9 : ¬ (id = 0x276 ∨ id = 0x33) := by omega
  have c10 : ¬ (id = 0x33 ∨ id = 0x276) := by omega
  rw [if_neg c1, if_neg c2, if_neg c3, if_neg c4, if_neg c9, if_neg c8, if_neg c1, if_neg c2,
    if_neg c3, if_neg c4, if_neg c10, if_neg c7, listOpt_snoc]
  rfl

theorem sendable_cons {p : Nat × Nat} {l : List (Nat × Nat)} :
    Sendable (p :: l) ↔ Sendable [p] ∧ Sendable l := by
  unfold Sendable
  simp

/-- Settings in the format are read, whatever the encodings of the integers. -/
theorem parseSettings_complete {l : List (Nat × Nat)} (hs : Sendable l) :
    ∀ {bs tail : Bytes} {k : Nat} {l0 : List (Nat × Nat)}, Spells (settingFields l) bs →
      bs.length < k →
      parseSettings k bs.length (meaning l0) (bs ++ tail) = .ok (meaning (l0 ++ l)) := by
  induction l with
  | nil =>
    intro bs tail k l0 hb hk
    cases k with
    | zero => omega
    | succ k =>
      simp only [settingFields, Spells] at hb
      subst hb
      simp [parseSettings]
  | cons p l ih =>
    obtain ⟨id, v⟩ := p
    intro bs tail k l0 hb hk
    cases k with
    | zero => omega
    | succ k =>
      obtain ⟨b1, b', rfl, h1, b2, b3, rfl, h2, h3⟩ := hb
      simp only [Field.Spells] at h1 h2
      have p1 := isVarint_pos h1
      have p2 := isVarint_pos h2
      have hs := sendable_cons.mp hs
      simp only [List.length_append] at hk
      rw [parseSettings, if_pos (by simp only [List.length_append]; omega)]
      rw [List.append_assoc, getVar_spell h1]
      simp only [List.append_assoc]
      rw [getVar_spell h2]
      simp only [meaning_apply hs.1]
      rw [show (b1 ++ (b2 ++ b3)).length - ((b1 ++ (b2 ++ (b3 ++ tail))).length -
        (b3 ++ tail).length) = b3.length by simp only [List.length_append]; omega]
      rw [ih hs.2 h3 (by omega), List.append_assoc]
      rfl

/-- What is read as settings is in the format. -/
theorem parseSettings_sound : ∀ {k : Nat} {bs : Bytes} {l0 : List (Nat × Nat)} {s : Settings},
    parseSettings k bs.length (meaning l0) bs = .ok s →
    ∃ l, Spells (settingFields l) bs ∧ Sendable l ∧ s = meaning (l0 ++ l) := by
  intro k
  induction k with
  | zero =>
    intro bs l0 s h
    unfold parseSettings at h
    split at h
    · cases h
    · cases h
      have : bs = [] := List.length_eq_zero_iff.mp (by omega)
      subst this
      exact ⟨[], rfl, (by intro p hp; cases hp), by rw [List.append_nil]⟩
  | succ k ih =>
    intro bs l0 s h
    unfold parseSettings at h
    split at h
    · split at h
      · cases h
      · rename_i id t h1
        split at h
        · cases h
        · rename_i v u h2
          split at h
          · cases h
          · rename_i s' h3
            obtain ⟨b1, rfl, i1⟩ := getVar_sound h1
            obtain ⟨b2, rfl, i2⟩ := getVar_sound h2
            have hs := apply_ok h3
            rw [meaning_apply hs] at h3
            cases h3
            rw [show (b1 ++ (b2 ++ u)).length - ((b1 ++ (b2 ++ u)).length - u.length) = u.length by
              simp only [List.length_append]; omega] at h
            obtain ⟨l, h4, h5, h6⟩ := ih h
            refine ⟨(id, v) :: l, ?_, sendable_cons.mpr ⟨hs, h5⟩, ?_⟩
            · exact ⟨b1, _, rfl, i1, b2, u, rfl, i2, h4⟩
            · rw [h6, List.append_assoc]; rfl
    · cases h
      have : bs = [] := List.length_eq_zero_iff.mp (by omega)
      subst this
      exact ⟨[], rfl, (by intro p hp; cases hp), by rw [List.append_nil]⟩

/-- Reading settings never panics. -/
theorem parseSettings_err : ∀ {k : Nat} {bs : Bytes} {s : Settings} {e : Err},
    bs.length < k → parseSettings k bs.length s bs = .error e →
    e = .bufferTooShort ∨ e = .settingsError := by
  intro k
  induction k with
  | zero => intro bs s e hk; omega
  | succ k ih =>
    intro bs s e hk h
    unfold parseSettings at h
    split at h
    · split at h
      · rename_i e' h1
        cases h
        exact .inl (getVar_err h1)
      · rename_i id t h1
        split at h
        · rename_i e' h2
          cases h
          exact .inl (getVar_err h2)
        · rename_i v u h2
          split at h
          · rename_i e' h3
            cases h
            exact .inr (apply_err h3).1
          · rename_i s' h3
            obtain ⟨b1, rfl, i1⟩ := getVar_sound h1
            obtain ⟨b2, rfl, i2⟩ := getVar_sound h2
            have := isVarint_pos i1
            rw [show (b1 ++ (b2 ++ u)).length - ((b1 ++ (b2 ++ u)).length - u.length) = u.length by
              simp only [List.length_append]; omega] at h
            simp only [List.length_append] at hk
            exact ih (by omega) h
    · cases h

theorem meaning_nil : meaning [] = { raw := some [] } := rfl

/-! ### Frames -/

theorem getRaw_all (bs : Bytes) : getRaw bs.length bs = .ok bs := by
  unfold getRaw; simp

theorem getRaw_sound {n : Nat} {bs r : Bytes} (h : getRaw n bs = .ok r) (hn : bs.length ≤ n) :
    r = bs := by
  unfold getRaw at h
  split at h
  · cases h
  · cases h; exact List.take_of_length_le hn

theorem parseIdAnd_complete {f : Nat → Bytes → Frame} {id : Nat} {b r : Bytes}
    (h : IsVarint id b) : parseIdAnd f (b ++ r).length (b ++ r) = .ok (f id r) := by
  unfold parseIdAnd
  rw [getVar_spell h]
  dsimp only
  rw [if_neg (by simp only [List.length_append]; omega)]
  rw [show (b ++ r).length - ((b ++ r).length - r.length) = r.length by
    simp only [List.length_append]; omega, getRaw_all]

theorem parseIdAnd_sound {f : Nat → Bytes → Frame} {bs : Bytes} {g : Frame}
    (h : parseIdAnd f bs.length bs = .ok g) :
    ∃ id b r, bs = b ++ r ∧ IsVarint id b ∧ g = f id r := by
  unfold parseIdAnd at h
  split at h
  · cases h
  · rename_i id t h1
    obtain ⟨b, rfl, i⟩ := getVar_sound h1
    rw [if_neg (by simp only [List.length_append]; omega)] at h
    rw [show (b ++ t).length - ((b ++ t).length - t.length) = t.length by
      simp only [List.length_append]; omega, getRaw_all] at h
    cases h
    exact ⟨id, b, t, rfl, i, rfl⟩

theorem parseIdAnd_err {f : Nat → Bytes → Frame} {bs : Bytes} {e : Err}
    (h : parseIdAnd f bs.length bs = .error e) : e = .bufferTooShort := by
  unfold parseIdAnd at h
  split at h
  · rename_i e' h1
    cases h
    exact getVar_err h1
  · rename_i id t h1
    obtain ⟨b, rfl, i⟩ := getVar_sound h1
    rw [if_neg (by simp only [List.length_append]; omega)] at h
    rw [show (b ++ t).length - ((b ++ t).length - t.length) = t.length by
      simp only [List.length_append]; omega, getRaw_all] at h
    cases h

theorem spells_raw {p bs : Bytes} : Spells [.raw p] bs ↔ bs = p := by
  rw [spells_one]; rfl

theorem spells_int {v : Nat} {bs : Bytes} : Spells [.int v] bs ↔ IsVarint v bs := by
  rw [spells_one]; rfl

theorem spells_int_raw {v : Nat} {p bs : Bytes} :
    Spells [.int v, .raw p] bs ↔ ∃ b, bs = b ++ p ∧ IsVarint v b := by
  constructor
  · rintro ⟨b, r, rfl, h1, h2⟩
    rw [spells_raw.mp h2]
    exact ⟨b, rfl, h1⟩
  · rintro ⟨b, rfl, h⟩
    exact ⟨b, p, rfl, h, spells_raw.mpr rfl⟩

theorem parseId_complete {f : Nat → Frame} {id : Nat} {b tail : Bytes} (h : IsVarint id b) :
    parseId f (b ++ tail) = .ok (f id) := by
  unfold parseId
  rw [getVar_spell h]

theorem parseId_sound {f : Nat → Frame} {bs : Bytes} {g : Frame} (h : parseId f bs = .ok g) :
    ∃ id b r, bs = b ++ r ∧ IsVarint id b ∧ g = f id := by
  unfold parseId at h
  split at h
  · cases h
  · rename_i id t h1
    obtain ⟨b, rfl, i⟩ := getVar_sound h1
    cases h
    exact ⟨id, b, t, rfl, i, rfl⟩

theorem parseRaw_all (f : Bytes → Frame) (bs : Bytes) :
    parseRaw f bs.length bs = .ok (f bs) := by
  unfold parseRaw
  rw [getRaw_all]

/-- Payloads in the format are read. -/
theorem fromBytes_complete {f : Frame} {fs : List Field} (h : Denotes f fs) {bs : Bytes}
    (hb : Spells fs bs) (hl : f.code = 0x04 → bs.length ≤ 256) :
    fromBytes f.code bs.length bs = .ok f := by
  cases h with
  | data p => cases spells_raw.mp hb; exact parseRaw_all _ _
  | headers p => cases spells_raw.mp hb; exact parseRaw_all _ _
  | cancelPush id =>
    have := parseId_complete (f := .cancelPush) (tail := []) (spells_int.mp hb)
    rw [List.append_nil] at this
    exact this
  | settings l hs =>
    have hl := hl rfl
    have := parseSettings_complete (tail := []) (l0 := []) hs hb (Nat.lt_succ_self _)
    rw [List.append_nil, List.nil_append] at this
    show parseSettingsFrame bs.length bs = _
    unfold parseSettingsFrame
    have c : ¬ bs.length > maxSettings := by simp only [maxSettings]; omega
    rw [if_neg c, ← meaning_nil, this]
  | pushPromise id r =>
    obtain ⟨b, rfl, i⟩ := spells_int_raw.mp hb
    exact parseIdAnd_complete i
  | goAway id =>
    have := parseId_complete (f := .goAway) (tail := []) (spells_int.mp hb)
    rw [List.append_nil] at this
    exact this
  | maxPushId id =>
    have := parseId_complete (f := .maxPushId) (tail := []) (spells_int.mp hb)
    rw [List.append_nil] at this
    exact this
  | prioRequest id r =>
    obtain ⟨b, rfl, i⟩ := spells_int_raw.mp hb
    exact parseIdAnd_complete i
  | prioPush id r =>
    obtain ⟨b, rfl, i⟩ := spells_int_raw.mp hb
    exact parseIdAnd_complete i
  | unknown ty p h =>
    cases spells_raw.mp hb
    simp only [knownTypes, List.mem_cons, List.not_mem_nil, or_false, not_or] at h
    obtain ⟨h1, h2, h3, h4, h5, h6, h7, h8, h9⟩ := h
    show fromBytes ty bs.length bs = _
    unfold fromBytes
    rw [if_neg h1, if_neg h2, if_neg h3, if_neg h4, if_neg h5, if_neg h6, if_neg h7, if_neg h8,
      if_neg h9]
    exact parseRaw_all _ _

/-- What is read is in the format, but for bytes after a single integer. -/
theorem fromBytes_sound {ty : Nat} {bs : Bytes} {f : Frame}
    (h : fromBytes ty bs.length bs = .ok f) :
    f.code = ty ∧ ∃ fs b extra, Denotes f fs ∧ Spells fs b ∧ bs = b ++ extra ∧
      (f.single = false → extra = []) ∧ (ty = 0x04 → bs.length ≤ 256) := by
  unfold fromBytes at h
  split at h
  · rename_i c; subst c
    rw [parseRaw_all] at h; cases h
    exact ⟨rfl, _, bs, [], .data _, spells_raw.mpr rfl, by simp, fun _ => rfl, fun c => absurd c (by decide)⟩
  split at h
  · rename_i c; subst c
    rw [parseRaw_all] at h; cases h
    exact ⟨rfl, _, bs, [], .headers _, spells_raw.mpr rfl, by simp, fun _ => rfl, fun c => absurd c (by decide)⟩
  split at h
  · rename_i c; subst c
    obtain ⟨id, b, r, rfl, i, rfl⟩ := parseId_sound h
    exact ⟨rfl, _, b, r, .cancelPush _, spells_int.mpr i, rfl, by simp [Frame.single],
      fun c => absurd c (by decide)⟩
  split at h
  · rename_i c; subst c
    unfold parseSettingsFrame at h
    split at h
    · cases h
    · rename_i hl
      have hl : bs.length ≤ 256 := Nat.not_lt.mp hl
      split at h
      · cases h
      · rename_i s hs
        cases h
        rw [← meaning_nil] at hs
        obtain ⟨l, h1, h2, h3⟩ := parseSettings_sound hs
        rw [h3, List.nil_append]
        exact ⟨rfl, _, bs, [], .settings l h2, h1, by simp, fun _ => rfl,
          fun _ => by omega⟩
  split at h
  · rename_i c; subst c
    obtain ⟨id, b, r, rfl, i, rfl⟩ := parseIdAnd_sound h
    exact ⟨rfl, _, b ++ r, [], .pushPromise _ _, spells_int_raw.mpr ⟨b, rfl, i⟩, by simp,
      fun _ => rfl, fun c => absurd c (by decide)⟩
  split at h
  · rename_i c; subst c
    obtain ⟨id, b, r, rfl, i, rfl⟩ := parseId_sound h
    exact ⟨rfl, _, b, r, .goAway _, spells_int.mpr i, rfl, by simp [Frame.single],
      fun c => absurd c (by decide)⟩
  split at h
  · rename_i c; subst c
    obtain ⟨id, b, r, rfl, i, rfl⟩ := parseId_sound h
    exact ⟨rfl, _, b, r, .maxPushId _, spells_int.mpr i, rfl, by simp [Frame.single],
      fun c => absurd c (by decide)⟩
  split at h
  · rename_i c; subst c
    obtain ⟨id, b, r, rfl, i, rfl⟩ := parseIdAnd_sound h
    exact ⟨rfl, _, b ++ r, [], .prioRequest _ _, spells_int_raw.mpr ⟨b, rfl, i⟩, by simp,
      fun _ => rfl, fun c => absurd c (by decide)⟩
  split at h
  · rename_i c; subst c
    obtain ⟨id, b, r, rfl, i, rfl⟩ := parseIdAnd_sound h
    exact ⟨rfl, _, b ++ r, [], .prioPush _ _, spells_int_raw.mpr ⟨b, rfl, i⟩, by simp,
      fun _ => rfl, fun c => absurd c (by decide)⟩
  · rename_i h1 h2 h3 h4 h5 h6 h7 h8 h9
    rw [parseRaw_all] at h; cases h
    refine ⟨rfl, _, bs, [], .unknown _ _ ?_, spells_raw.mpr rfl, by simp, fun _ => rfl, ?_⟩
    · simp only [knownTypes, List.mem_cons, List.not_mem_nil, or_false, not_or]
      exact ⟨h1, h2, h3, h4, h5, h6, h7, h8, h9⟩
    · intro c; exact absurd c h4

/-- How reading fails. -/
theorem fromBytes_err {ty : Nat} {bs : Bytes} {e : Err}
    (h : fromBytes ty bs.length bs = .error e) :
    e = .bufferTooShort ∨ ty = 0x04 ∧ (e = .settingsError ∨ e = .excessiveLoad) := by
  have hid : ∀ {f : Nat → Frame}, parseId f bs = .error e → e = .bufferTooShort := by
    intro f h
    unfold parseId at h
    split at h
    · rename_i e' h1
      cases h
      exact getVar_err h1
    · cases h
  unfold fromBytes at h
  split at h
  · rw [parseRaw_all] at h; cases h
  split at h
  · rw [parseRaw_all] at h; cases h
  split at h
  · exact .inl (hid h)
  split at h
  · rename_i c; subst c
    unfold parseSettingsFrame at h
    split at h
    · cases h; exact .inr ⟨rfl, .inr rfl⟩
    · split at h
      · rename_i e' hs
        cases h
        rcases parseSettings_err (Nat.lt_succ_self _) hs with c | c
        · exact .inl c
        · exact .inr ⟨rfl, .inl c⟩
      · cases h
  split at h
  · exact .inl (parseIdAnd_err h)
  split at h
  · exact .inl (hid h)
  split at h
  · exact .inl (hid h)
  split at h
  · exact .inl (parseIdAnd_err h)
  split at h
  · exact .inl (parseIdAnd_err h)
  · rw [parseRaw_all] at h; cases h

end Verif.H3
