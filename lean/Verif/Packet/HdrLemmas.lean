import Verif.Packet.Spec

namespace Verif.Packet
open Verif Verif.Io

theorem distinct : Distinct Err := by unfold Distinct; decide

theorem fix_lt {n v : Nat} {bs : Bytes} (h : (Field.fix n v).Spells bs) : v < 256 ^ n := by
  obtain ⟨h1, h2⟩ := h
  have := beVal_lt bs
  rw [h1, h2] at this; exact this

theorem isLong_iff (b : Nat) (h : b < 256) : isLong b = decide (128 ≤ b) := by
  unfold isLong
  have := bit_iff b 7
  rw [show (0x80 : Nat) = 1 <<< 7 from rfl, this, Nat.testBit_eq_decide_div_mod_eq]
  simp only [Nat.reducePow, decide_eq_decide]
  omega

theorem longType_eq (b v : Nat) : longType b v =
    if v = 0 then some .versionNegotiation
    else match b / 16 % 4 with
      | 0 => some .initial
      | 1 => some .zeroRTT
      | 2 => some .handshake
      | _ => some .retry := by
  have e : (b &&& 0x30) >>> 4 = b / 16 % 4 := by
    rw [Nat.shiftRight_and_distrib, show (0x30 : Nat) >>> 4 = 2 ^ 2 - 1 from rfl, Nat.and_two_pow_sub_one_eq_mod,
      Nat.shiftRight_eq_div_pow]
  unfold longType
  rw [e]
  split
  · rfl
  · have : b / 16 % 4 < 4 := Nat.mod_lt _ (by decide)
    generalize b / 16 % 4 = x at *
    have : x = 0 ∨ x = 1 ∨ x = 2 ∨ x = 3 := by omega
    rcases this with rfl | rfl | rfl | rfl <;> rfl

/-! ### The list of versions -/

theorem versions_sound (n : Nat) : ∀ (c : Cur) (l : List Nat) (c' : Cur), c.WF → versionList n c = (.ok l, c') →
    ∃ bs, Spells (l.map (.fix 4)) bs ∧ c.rest = bs ++ c'.rest ∧ c' = { c with off := c.off + bs.length } ∧
      c'.WF ∧ c'.rest = [] := by
  induction n with
  | zero => intro c l c' _ h; cases h
  | succ n ih =>
    intro c l c' hc h
    have e : versionList (n + 1) c = (if c.cap > 0 then ((getU 4 : P Nat) >>= fun v => versionList n >>= fun l => pure (v :: l)) c
        else (.ok [], c)) := by
      show (Io.cap >>= _) c = _
      rw [bind_run]
      show (if c.cap > 0 then _ else _ : P (List Nat)) c = _
      split <;> rfl
    rw [e] at h
    by_cases hz : c.cap > 0
    · rw [if_pos hz, bind_run] at h
      rcases hv : (getU 4 : P Nat) c with ⟨r, c1⟩
      rw [hv] at h
      cases r with
      | error e => cases h
      | ok v =>
        obtain ⟨_, b1, s1, r1, e1, w1, rfl⟩ := (gram_getU 4).sound c v c1 hc hv
        simp only at h
        rw [bind_run] at h
        rcases hl : versionList n c1 with ⟨r, c2⟩
        rw [hl] at h
        cases r with
        | error e => cases h
        | ok l2 =>
          simp only at h
          rw [pure_run] at h
          cases h
          obtain ⟨b2, s2, r2, e2, w2, t2⟩ := ih c1 l2 _ w1 hl
          refine ⟨b1 ++ b2, ?_, ?_, ?_, w2, t2⟩
          · exact ⟨b1, b2, rfl, spells_one.mp s1, s2⟩
          · rw [r1, r2, List.append_assoc]
          · rw [e2, e1]; simp [Nat.add_assoc]
    · rw [if_neg hz] at h
      cases h
      refine ⟨[], rfl, rfl, rfl, hc, ?_⟩
      unfold Cur.rest
      exact List.drop_eq_nil_of_le (by unfold Cur.cap at hz; omega)

theorem versions_complete (l : List Nat) : ∀ (n : Nat) (bs : Bytes), l.length < n → Spells (l.map (.fix 4)) bs →
    Reads (versionList n) bs [] l := by
  induction l with
  | nil =>
    intro n bs hn hs c hc hr
    cases n with
    | zero => omega
    | succ n =>
      cases hs
      have hz : ¬ c.cap > 0 := by
        have := congrArg List.length hr
        unfold Cur.rest at this
        simp at this
        unfold Cur.cap; omega
      show (Io.cap >>= _) c = _
      rw [bind_run]
      show (if c.cap > 0 then _ else _ : P (List Nat)) c = _
      rw [if_neg hz]; rfl
  | cons v l ih =>
    intro n bs hn hs
    cases n with
    | zero => omega
    | succ n =>
      obtain ⟨b1, b2, rfl, s1, s2⟩ := hs
      intro c hc hr
      have hz : c.cap > 0 := by
        have := congrArg List.length hr
        unfold Cur.rest at this
        have h4 := s1.1
        simp at this
        unfold Cur.cap; omega
      show (Io.cap >>= _) c = _
      rw [bind_run]
      show (if c.cap > 0 then _ else _ : P (List Nat)) c = _
      rw [if_pos hz]
      have h2 : Reads (versionList n >>= fun l => (pure (v :: l) : P (List Nat))) b2 [] (v :: l) :=
        Reads.bindPure (ih n b2 (by simp at hn; omega) s2) rfl
      have h1 := (gram_getU (ε := Err) 4).complete [.fix 4 v] b1 (b2 ++ []) v rfl (spells_one.mpr s1)
      exact Reads.bind h1 h2 c hc hr

theorem spells_fix_length {l : List Nat} {bs : Bytes} (h : Spells (l.map (.fix 4)) bs) : bs.length = 4 * l.length := by
  induction l generalizing bs with
  | nil => cases h; rfl
  | cons v l ih =>
    obtain ⟨b1, b2, rfl, s1, s2⟩ := h
    have := s1.1
    have := ih s2
    simp; omega

theorem gram_versions : Gram ((Io.cap : P Nat) >>= fun left => versionList (left + 1))
    (fun fs tail l => fs = l.map (.fix 4) ∧ tail = []) := by
  constructor
  · intro c l c' hc h
    rw [bind_run] at h
    change versionList (c.cap + 1) c = _ at h
    obtain ⟨bs, h1, h2, h3, h4, h5⟩ := versions_sound _ c l c' hc h
    exact ⟨_, bs, h1, h2, h3, h4, rfl, h5⟩
  · rintro fs bs tail l ⟨rfl, rfl⟩ hs c hc hr
    rw [bind_run]
    show versionList (c.cap + 1) c = _
    refine versions_complete l _ bs ?_ hs c hc hr
    have h1 := spells_fix_length hs
    have := congrArg List.length hr
    unfold Cur.rest at this
    simp at this
    unfold Cur.cap; omega

/-! ### The token of a Retry packet -/

theorem gram_retryToken : Gram ((Io.cap : P Nat) >>= fun left =>
      if left < retryTagLen then (Io.fail .invalidPacket : P Bytes) else Io.bytes (left - retryTagLen))
    (fun fs tail t => fs = [.raw t] ∧ tail.length = 16) := by
  constructor
  · intro c t c' hc h
    rw [bind_run] at h
    change (if c.cap < retryTagLen then (Io.fail .invalidPacket : P Bytes) else Io.bytes (c.cap - retryTagLen)) c = _ at h
    split at h
    · cases h
    · next hn =>
      obtain ⟨fs, bs, h1, h2, h3, h4, h5, h6⟩ := (gram_bytes _).sound c t c' hc h
      refine ⟨fs, bs, h1, h2, h3, h4, h5, ?_⟩
      subst h5
      have hb := spells_one.mp h1
      change bs = t at hb
      subst hb
      have := congrArg List.length h2
      have hl : c.rest.length = c.cap := by unfold Cur.rest Cur.cap; simp
      simp at this
      simp only [retryTagLen] at *
      omega
  · rintro fs bs tail t ⟨rfl, ht⟩ hs c hc hr
    rw [bind_run]
    show (if c.cap < retryTagLen then (Io.fail .invalidPacket : P Bytes) else Io.bytes (c.cap - retryTagLen)) c = _
    have hb := spells_one.mp hs
    change bs = t at hb
    subst hb
    have := congrArg List.length hr
    have hl : c.rest.length = c.cap := by unfold Cur.rest Cur.cap; simp
    simp at this
    rw [if_neg (by simp only [retryTagLen]; omega)]
    have e : c.cap - retryTagLen = bs.length := by simp only [retryTagLen]; omega
    rw [e]
    exact reads_bytes bs tail c hc hr

/-! ### Headers -/

def LongTail (ty : PktType) (fs : List Field) (tail : Bytes) (r : Option Bytes × Option (List Nat)) : Prop :=
  match ty with
  | .initial => ∃ t : Bytes, fs = [.int t.length, .raw t] ∧ r = (some t, none)
  | .retry => ∃ t : Bytes, fs = [.raw t] ∧ tail.length = 16 ∧ r = (some t, none)
  | .versionNegotiation => ∃ l : List Nat, fs = l.map (.fix 4) ∧ tail = [] ∧ r = (none, some l)
  | _ => fs = [] ∧ r = (none, none)

theorem gram_longTail (ty : PktType) : Gram (longTail ty) (LongTail ty) := by
  have map {α β : Type} {p : P α} {L : List Field → Bytes → α → Prop} (g : α → β) (h : Gram p L) :
      Gram (p >>= fun a => (pure (g a) : P β)) (fun fs tail b => ∃ a, L fs tail a ∧ b = g a) := by
    constructor
    · intro c b c' hc hb
      rw [bind_run] at hb
      rcases hp : p c with ⟨r, c1⟩
      rw [hp] at hb
      cases r with
      | error e => cases hb
      | ok a =>
        simp only at hb
        rw [pure_run] at hb
        cases hb
        obtain ⟨fs, bs, h1, h2, h3, h4, h5⟩ := h.sound c a c' hc hp
        exact ⟨fs, bs, h1, h2, h3, h4, a, h5, rfl⟩
    · rintro fs bs tail b ⟨a, ha, rfl⟩ hs
      exact Reads.bindPure (h.complete fs bs tail a ha hs) rfl
  cases ty with
  | initial =>
    refine (map (fun t => (some t, none)) gram_varBytes).congr ?_
    intro fs tail r; unfold LongTail; simp
  | retry =>
    have := map (fun t => ((some t, none) : Option Bytes × Option (List Nat))) gram_retryToken
    have e : longTail .retry = (((Io.cap : P Nat) >>= fun left =>
        if left < retryTagLen then (Io.fail .invalidPacket : P Bytes) else Io.bytes (left - retryTagLen)) >>= fun t =>
        pure (some t, none)) := by
      funext c
      show ((Io.cap : P Nat) >>= _) c = _
      have hcap : (Io.cap : P Nat) c = (.ok c.cap, c) := rfl
      rw [bind_run, bind_run, bind_run, hcap]
      dsimp only
      by_cases h : c.cap < retryTagLen
      · rw [if_pos h, if_pos h]; rfl
      · rw [if_neg h, if_neg h]; rfl
    rw [e]
    refine this.congr ?_
    intro fs tail r
    constructor
    · rintro ⟨t, ⟨h1, h2⟩, h3⟩; exact ⟨t, h1, h2, h3⟩
    · rintro ⟨t, h1, h2, h3⟩; exact ⟨t, ⟨h1, h2⟩, h3⟩
  | versionNegotiation =>
    have := map (fun l => ((none, some l) : Option Bytes × Option (List Nat))) gram_versions
    have e : longTail .versionNegotiation = (((Io.cap : P Nat) >>= fun left => versionList (left + 1)) >>= fun l =>
        pure (none, some l)) := by
      funext c
      show ((Io.cap : P Nat) >>= _) c = _
      rw [bind_run, bind_run, bind_run]
      rfl
    rw [e]
    refine this.congr ?_
    intro fs tail r
    constructor
    · rintro ⟨t, ⟨h1, h2⟩, h3⟩; exact ⟨t, h1, h2, h3⟩
    · rintro ⟨t, h1, h2, h3⟩; exact ⟨t, ⟨h1, h2⟩, h3⟩
  | zeroRTT => exact Gram.pure _
  | handshake => exact Gram.pure _
  | short => exact Gram.pure _

theorem supported_iff (v : Nat) : versionIsSupported v = true ↔ v = 1 := by
  unfold versionIsSupported; simp

theorem gram_longIds (version : Nat) (ty : PktType) : Gram (longIds version ty) (fun fs tail h =>
    ∃ dcid scid rest r, fs = [.fix 1 dcid.length, .raw dcid, .fix 1 scid.length, .raw scid] ++ rest ∧
      (version = 1 → dcid.length ≤ 20 ∧ scid.length ≤ 20) ∧ LongTail ty rest tail r ∧
      h = { ty := ty, version := version, dcid := dcid, scid := scid, token := r.1, versions := r.2 }) := by
  have g3 : ∀ (dcid scid : Bytes), Gram (longTail ty >>= fun r =>
      (pure { ty := ty, version := version, dcid := dcid, scid := scid, token := r.1, versions := r.2 } : P Header))
      (fun fs tail h => ∃ r, LongTail ty fs tail r ∧
        h = { ty := ty, version := version, dcid := dcid, scid := scid, token := r.1, versions := r.2 }) := by
    intro dcid scid
    constructor
    · intro c b c' hc hb
      rw [bind_run] at hb
      rcases hp : longTail ty c with ⟨r, c1⟩
      rw [hp] at hb
      cases r with
      | error e => cases hb
      | ok a =>
        simp only at hb
        rw [pure_run] at hb
        cases hb
        obtain ⟨fs, bs, h1, h2, h3, h4, h5⟩ := (gram_longTail ty).sound c a c' hc hp
        exact ⟨fs, bs, h1, h2, h3, h4, a, h5, rfl⟩
    · rintro fs bs tail b ⟨a, ha, rfl⟩ hs
      exact Reads.bindPure ((gram_longTail ty).complete fs bs tail a ha hs) rfl
  refine (Gram.bind (gram_getU 1) fun dl => Gram.ite (Gram.fail _) (Gram.bind (gram_bytes dl) fun dcid =>
      Gram.bind (gram_getU 1) fun sl => Gram.ite (Gram.fail _) (Gram.bind (gram_bytes sl) fun scid => g3 dcid scid))).congr ?_
  intro fs tail h
  simp only [supported_iff, and_false, false_or, not_and, gt_iff_lt, Nat.not_lt]
  constructor
  · rintro ⟨_, _, dl, rfl, rfl, hd, _, _, dcid, rfl, ⟨rfl, hdl⟩, _, _, sl, rfl, rfl, hs, _, rest, scid, rfl, ⟨rfl, hsl⟩, r, hr, rfl⟩
    subst hdl hsl
    exact ⟨dcid, scid, rest, r, by simp, fun hv => ⟨hd hv, hs hv⟩, hr, rfl⟩
  · rintro ⟨dcid, scid, rest, r, rfl, hv, hr, rfl⟩
    exact ⟨[.fix 1 dcid.length], [.raw dcid, .fix 1 scid.length, .raw scid] ++ rest, _, rfl, rfl, fun h => (hv h).1,
      [.raw dcid], [.fix 1 scid.length, .raw scid] ++ rest, dcid, rfl, ⟨rfl, rfl⟩,
      [.fix 1 scid.length], [.raw scid] ++ rest, _, rfl, rfl, fun h => (hv h).2,
      [.raw scid], rest, scid, rfl, ⟨rfl, rfl⟩, r, hr, rfl⟩

theorem gram_longHeader (first : Nat) : Gram (longHeader first) (fun fs tail h =>
    h.pktNum = 0 ∧ h.pktNumLen = 0 ∧ h.keyPhase = false ∧
    ∃ rest, fs = [.fix 4 h.version, .fix 1 h.dcid.length, .raw h.dcid, .fix 1 h.scid.length, .raw h.scid] ++ rest ∧
      (h.version = 1 → h.dcid.length ≤ 20 ∧ h.scid.length ≤ 20) ∧ LongRest first h.version rest tail h) := by
  have gm : ∀ version, Gram (match longType first version with
      | none => (Io.fail .invalidPacket : P Header)
      | some ty => longIds version ty) (fun fs tail h => h.pktNum = 0 ∧ h.pktNumLen = 0 ∧ h.keyPhase = false ∧
        h.version = version ∧
        ∃ rest, fs = [.fix 1 h.dcid.length, .raw h.dcid, .fix 1 h.scid.length, .raw h.scid] ++ rest ∧
        (h.version = 1 → h.dcid.length ≤ 20 ∧ h.scid.length ≤ 20) ∧ LongRest first version rest tail h) := by
    intro version
    have main : ∀ ty, longType first version = some ty → Gram (longIds version ty) (fun fs tail h =>
        h.pktNum = 0 ∧ h.pktNumLen = 0 ∧ h.keyPhase = false ∧ h.version = version ∧
        ∃ rest, fs = [.fix 1 h.dcid.length, .raw h.dcid, .fix 1 h.scid.length, .raw h.scid] ++ rest ∧
        (h.version = 1 → h.dcid.length ≤ 20 ∧ h.scid.length ≤ 20) ∧ LongRest first version rest tail h) := by
      intro ty hty
      have key : ∀ rest tail (h : Header), LongRest first version rest tail h ↔
          h.ty = ty ∧ LongTail ty rest tail (h.token, h.versions) := by
        intro rest tail h
        rw [longType_eq] at hty
        unfold LongRest LongTail
        split at hty
        · next hz =>
          cases hty
          rw [if_pos hz]
          constructor
          · rintro ⟨l, h1, h2, h3, h4, h5⟩; exact ⟨h3, l, h1, h2, by rw [h4, h5]⟩
          · rintro ⟨h3, l, h1, h2, h4⟩
            simp only [Prod.mk.injEq] at h4
            exact ⟨l, h1, h2, h3, h4.1, h4.2⟩
        · next hz =>
          rw [if_neg hz]
          have hlt : first / 16 % 4 < 4 := Nat.mod_lt _ (by decide)
          generalize first / 16 % 4 = x at *
          have : x = 0 ∨ x = 1 ∨ x = 2 ∨ x = 3 := by omega
          rcases this with rfl | rfl | rfl | rfl
          · cases hty
            simp only [Prod.mk.injEq]
            constructor
            · rintro ⟨t, h1, h2, h3⟩; exact ⟨h2, t, h1, h3⟩
            · rintro ⟨h2, t, h1, h3⟩; exact ⟨t, h1, h2, h3⟩
          · cases hty
            simp only [Prod.mk.injEq]
            constructor
            · rintro ⟨h1, h2, h3⟩; exact ⟨h2, h1, h3⟩
            · rintro ⟨h2, h1, h3⟩; exact ⟨h1, h2, h3⟩
          · cases hty
            simp only [Prod.mk.injEq]
            constructor
            · rintro ⟨h1, h2, h3⟩; exact ⟨h2, h1, h3⟩
            · rintro ⟨h2, h1, h3⟩; exact ⟨h1, h2, h3⟩
          · cases hty
            simp only [Prod.mk.injEq]
            constructor
            · rintro ⟨t, h1, h2, h3, h4⟩; exact ⟨h3, t, h1, h2, h4⟩
            · rintro ⟨h3, t, h1, h2, h4⟩; exact ⟨t, h1, h2, h3, h4⟩
      refine (gram_longIds version ty).congr ?_
      intro fs tail h
      constructor
      · rintro ⟨dcid, scid, rest, r, rfl, hv, hr, rfl⟩
        exact ⟨rfl, rfl, rfl, rfl, rest, rfl, hv, (key _ _ _).mpr ⟨rfl, hr⟩⟩
      · rintro ⟨h1, h2, h3, h4, rest, rfl, hv, hl⟩
        obtain ⟨k1, k2⟩ := (key _ _ _).mp hl
        refine ⟨h.dcid, h.scid, rest, (h.token, h.versions), rfl, by rw [← h4]; exact hv, k2, ?_⟩
        obtain ⟨_, _, _, _, _, _, _, _, _⟩ := h
        simp_all
    rcases hlt : longType first version with _ | ty
    · rw [longType_eq] at hlt
      split at hlt
      · cases hlt
      · split at hlt <;> cases hlt
    · exact main ty hlt
  refine (Gram.bind (gram_getU 4) gm).congr ?_
  intro fs tail h
  constructor
  · rintro ⟨_, _, v, rfl, rfl, h1, h2, h3, rfl, rest, rfl, hv, hr⟩
    exact ⟨h1, h2, h3, rest, rfl, hv, hr⟩
  · rintro ⟨h1, h2, h3, rest, rfl, hv, hr⟩
    exact ⟨[.fix 4 h.version], _, h.version, rfl, rfl, h1, h2, h3, rfl, rest, rfl, hv, hr⟩

theorem gram_shortHeader (dcidLen : Nat) : Gram (shortHeader dcidLen) (fun fs _ h =>
    fs = [.raw h.dcid] ∧ h.dcid.length = dcidLen ∧ h = { ty := .short, version := 0, dcid := h.dcid, scid := [] }) := by
  refine (Gram.bind (gram_bytes dcidLen) fun d => Gram.pure _).congr ?_
  intro fs tail h
  constructor
  · rintro ⟨_, _, d, rfl, ⟨rfl, hd⟩, rfl, rfl⟩; exact ⟨rfl, hd, rfl⟩
  · rintro ⟨rfl, hd, he⟩; exact ⟨_, _, h.dcid, rfl, ⟨rfl, hd⟩, rfl, he⟩

/-- The parser reads exactly the headers of the wire format. -/
theorem gram_fromBytes (dcidLen : Nat) : Gram (fromBytes dcidLen) (HdrWire dcidLen) := by
  have g : ∀ first, Gram (if isLong first = false then shortHeader dcidLen else longHeader first) _ :=
    fun first => Gram.ite (gram_shortHeader dcidLen) (gram_longHeader first)
  have hb := Gram.bind (gram_getU (ε := Err) 1) g
  constructor
  · intro c h c' hc hr
    obtain ⟨fs, bs, h1, h2, h3, h4, _, f2, first, rfl, rfl, h5⟩ := hb.sound c h c' hc hr
    have hlt : first < 256 := by
      obtain ⟨_, _, _, s, _⟩ := h1
      simpa using fix_lt s
    rw [isLong_iff first hlt] at h5
    refine ⟨_, bs, h1, h2, h3, h4, ?_⟩
    rcases h5 with ⟨hl, rfl, hd, he⟩ | ⟨hl, p1, p2, p3, rest, rfl, hv, hr⟩
    · simp only [decide_eq_false_iff_not, Nat.not_le] at hl
      rw [he] at hd ⊢
      exact ⟨rfl, rfl, rfl, .inl ⟨first, hl, rfl, hd, rfl, rfl, rfl, rfl, rfl⟩⟩
    · simp only [decide_eq_false_iff_not, Nat.not_le, Nat.not_lt] at hl
      exact ⟨p1, p2, p3, .inr ⟨first, rest, hl, rfl, hv, hr⟩⟩
  · intro fs bs tail h hw hs
    obtain ⟨p1, p2, p3, hw⟩ := hw
    rcases hw with ⟨b, hl, rfl, hd, q1, q2, q3, q4, q5⟩ | ⟨b, rest, hl, rfl, hv, hr⟩
    · refine hb.complete _ bs tail h ⟨[.fix 1 b], [.raw h.dcid], b, rfl, rfl, ?_⟩ hs
      rw [isLong_iff b (by omega)]
      refine .inl ⟨by simp; omega, rfl, hd, ?_⟩
      obtain ⟨_, _, _, _, _, _, _, _, _⟩ := h
      simp_all
    · have hlt : b < 256 := by
        obtain ⟨_, _, _, s, _⟩ := hs
        simpa using fix_lt s
      refine hb.complete _ bs tail h ⟨[.fix 1 b], _, b, rfl, rfl, ?_⟩ hs
      rw [isLong_iff b hlt]
      exact .inr ⟨by simp; omega, p1, p2, p3, rest, rfl, hv, hr⟩

end Verif.Packet
