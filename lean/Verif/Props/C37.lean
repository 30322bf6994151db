import Verif.Tp.Encode

/-!
C37: transport parameters survive a round trip, malformed ones are rejected.
-/

namespace Verif.C37
open Verif Verif.Tp

/-- Parameters in protocol range (RFC 9000, 18.2). -/
structure Proper (tp : Params) : Prop where
  maxIdleTimeout : tp.maxIdleTimeout < 2 ^ 62
  maxUdpPayload : 1200 ≤ tp.maxUdpPayload ∧ tp.maxUdpPayload < 2 ^ 62
  maxData : tp.maxData < 2 ^ 62
  maxStreamDataBidiLocal : tp.maxStreamDataBidiLocal < 2 ^ 62
  maxStreamDataBidiRemote : tp.maxStreamDataBidiRemote < 2 ^ 62
  maxStreamDataUni : tp.maxStreamDataUni < 2 ^ 62
  maxStreamsBidi : tp.maxStreamsBidi ≤ 2 ^ 60
  maxStreamsUni : tp.maxStreamsUni ≤ 2 ^ 60
  ackDelayExponent : tp.ackDelayExponent ≤ 20
  maxAckDelay : tp.maxAckDelay < 2 ^ 14
  activeCidLimit : 2 ≤ tp.activeCidLimit ∧ tp.activeCidLimit < 2 ^ 62
  maxDatagram : ∀ v, tp.maxDatagram = some v → v < 2 ^ 62
  resetToken : ∀ t, tp.resetToken = some t → t < 2 ^ 128
  originalDcid : ∀ v, tp.originalDcid = some v → v.length ≤ 20
  initialScid : ∀ v, tp.initialScid = some v → v.length ≤ 20
  retryScid : ∀ v, tp.retryScid = some v → v.length ≤ 20

/-- What the other side is to know: everything, but what only servers send only from a
server. -/
def Shared (tp : Params) (fromServer : Bool) (track : Option Nat) (tp' : Params) : Prop :=
  tp' = { tp with
    originalDcid := if fromServer then tp.originalDcid else none
    resetToken := if fromServer then tp.resetToken else none
    retryScid := if fromServer then tp.retryScid else none
    unknown := track.map fun n => { capacity := n } }

theorem Proper.encodable {tp : Params} (h : Proper tp) : Encodable tp :=
  have lt : ∀ {l : Nat}, l ≤ 20 → l < 2 ^ 62 := by intro l h; omega
  ⟨h.maxIdleTimeout, h.maxUdpPayload.2, h.maxData, h.maxStreamDataBidiLocal, h.maxStreamDataBidiRemote, h.maxStreamDataUni,
    by have := h.maxStreamsBidi; omega, by have := h.maxStreamsUni; omega, h.ackDelayExponent,
    by have := h.maxAckDelay; omega, h.activeCidLimit.2, h.maxDatagram, fun v hv => lt (h.originalDcid v hv),
    fun v hv => lt (h.initialScid v hv), fun v hv => lt (h.retryScid v hv)⟩

/-! ### Decoding -/

/-- Decoding succeeds on exactly the sequences of permitted entries with distinct
identifiers, and yields their meaning. -/
theorem exact (bs : Bytes) (isServer : Bool) (track : Option Nat) (tp : Params) :
    decode bs isServer track = .ok tp ↔
      ∃ es, Wire es bs ∧ (es.map Prod.fst).Nodup ∧ (∀ e ∈ es, Permitted isServer e) ∧ Meaning (defaults track) es tp :=
  decode_iff bs isServer track tp

/-- Decoding never panics. -/
theorem no_panic (bs : Bytes) (isServer : Bool) (track : Option Nat) : decode bs isServer track ≠ .error .panic :=
  decode_panic bs isServer track

/-- Two ways to read a byte string as entries agree. -/
theorem spells_entry_unique {a b : Entry} {x y s t : Bytes} (h1 : Spells (entryFields a) x) (h2 : Spells (entryFields b) y)
    (h : x ++ s = y ++ t) : a = b ∧ s = t := by
  obtain ⟨i1, r1, rfl, p1, l1, v1, rfl, q1, w1, _, rfl, e1, rfl⟩ := h1
  obtain ⟨i2, r2, rfl, p2, l2, v2, rfl, q2, w2, _, rfl, e2, rfl⟩ := h2
  have one : ∀ {v w : Nat} {b c s t : Bytes}, IsVarint v b → IsVarint w c → b ++ s = c ++ t → v = w ∧ s = t := by
    intro v w b c s t hb hc e
    have hb := decVarint_iff (tail := s).mpr hb
    have hc := decVarint_iff (tail := t).mpr hc
    rw [e, hc] at hb
    simp only [Except.ok.injEq, Prod.mk.injEq] at hb
    exact ⟨hb.1.symm, (List.append_inj e hb.2.symm).2⟩
  simp only [List.append_assoc] at h
  obtain ⟨h3, h4⟩ := one p1 p2 h
  obtain ⟨h5, h6⟩ := one q1 q2 h4
  have h1 : w1 = a.2 := e1
  have h2 : w2 = b.2 := e2
  subst h1; subst h2
  simp only [List.nil_append] at h6
  obtain ⟨h7, h8⟩ := List.append_inj h6 h5
  exact ⟨Prod.ext h3 h7, h8⟩

theorem wire_unique : ∀ {es fs : List Entry} {bs : Bytes}, Wire es bs → Wire fs bs → es = fs
  | [], [], _, _, _ => rfl
  | [], f :: fs, bs, h1, h2 => by
    have := wire_length h2
    cases h1
    simp at this
  | e :: es, [], bs, h1, h2 => by
    have := wire_length h1
    cases h2
    simp at this
  | e :: es, f :: fs, bs, h1, h2 => by
    unfold Wire at h1 h2
    rw [List.flatMap_cons, spells_append] at h1 h2
    obtain ⟨a, b, rfl, h1, h3⟩ := h1
    obtain ⟨c, d, hcd, h2, h4⟩ := h2
    obtain ⟨rfl, rfl⟩ := spells_entry_unique h1 h2 hcd
    rw [wire_unique h3 h4]

/-- Duplicates, integers out of range, and what only servers may send are rejected. -/
theorem rejected (es : List Entry) (bs : Bytes) (isServer : Bool) (track : Option Nat) (h : Wire es bs)
    (hbad : ¬ (es.map Prod.fst).Nodup ∨
      (∃ e ∈ es, isServer = true ∧ (e.1 = 0x00 ∨ e.1 = 0x02 ∨ e.1 = 0x0d ∨ e.1 = 0x10)) ∨
      (∃ e ∈ es, ∃ v, Leads e.2 v ∧ ((e.1 = 0x03 ∧ v < 1200) ∨ (e.1 = 0x08 ∧ v > 2 ^ 60) ∨ (e.1 = 0x09 ∧ v > 2 ^ 60) ∨
        (e.1 = 0x0a ∧ v > 20) ∨ (e.1 = 0x0b ∧ v ≥ 2 ^ 14) ∨ (e.1 = 0x0e ∧ v < 2)))) (tp : Params) :
    decode bs isServer track ≠ .ok tp := by
  intro hok
  obtain ⟨fs, h1, h2, h3, _⟩ := (exact ..).mp hok
  obtain rfl := wire_unique h h1
  rcases hbad with h4 | ⟨e, he, h4, h5⟩ | ⟨e, he, v, h4, h5⟩
  · exact h4 h2
  · have := (h3 e he).server (by simp [serverIds]; omega)
    rw [this] at h4; cases h4
  · obtain ⟨w, hw, hr⟩ := (h3 e he).int (by simp [intIds]; omega)
    have := leads_unique h4 hw
    subst this
    obtain ⟨r1, r2, r3, r4, r5⟩ := hr
    rcases h5 with ⟨h5, h6⟩ | ⟨h5, h6⟩ | ⟨h5, h6⟩ | ⟨h5, h6⟩ | ⟨h5, h6⟩ | ⟨h5, h6⟩
    · have := r1 h5; omega
    · have := r2 (.inl h5); omega
    · have := r2 (.inr h5); omega
    · have := r3 h5; omega
    · have := r4 h5; omega
    · have := r5 h5; omega

/-! ### Encoding -/

/-- Writing fails only for lack of room. -/
theorem written (tp : Params) (fromServer : Bool) (h : Proper tp) :
    ∃ n, ∀ room, (room < n → encode tp fromServer room = .error .bufferTooShort) ∧
      (n ≤ room → ∃ bs, encode tp fromServer room = .ok bs ∧ bs.length = n) := by
  refine ⟨(bytesOf (entries tp fromServer)).length, fun room => ⟨fun hr => ?_, fun hr => ?_⟩⟩
  · rw [encode_eq h.encodable, if_neg (by omega)]
  · exact ⟨_, by rw [encode_eq h.encodable, if_pos hr], rfl⟩

theorem server_or (s : Bool) {α β : Type} (o : Option α) (f : α → β) :
    (if s = true then o.map f else none) = (if s = true then o else none).map f := by cases s <;> rfl

theorem intIs_of {es : List Entry} {id d v : Nat} {k : Nat} (h : es.lookup id = ifNot k v) (hv : v < 2 ^ 62)
    (hd : v = k → v = d) : IntIs es id d v := by
  unfold IntIs
  rw [h]
  unfold ifNot
  by_cases e : v = k
  · rw [if_pos e]; exact hd e
  · rw [if_neg e]; exact leads_enc hv

/-- The other side learns the values, as long as neither of the two parameters that may
be zero although their default value is another one is zero. Missing for the claim: these two
cases, in which it is false (`zero_exponent`, `zero_ack_delay`). -/
theorem round_trip_partial (tp : Params) (fromServer : Bool) (room : Nat) (track : Option Nat) (bs : Bytes) (h : Proper tp)
    (hexp : tp.ackDelayExponent ≠ 0) (hdelay : tp.maxAckDelay ≠ 0) (hbs : encode tp fromServer room = .ok bs) :
    ∃ tp', decode bs (!fromServer) track = .ok tp' ∧ Shared tp fromServer track tp' := by
  refine ⟨_, ?_, rfl⟩
  have he := h.encodable
  rw [encode_eq he] at hbs
  split at hbs
  case isFalse => cases hbs
  cases hbs
  rw [exact]
  refine ⟨entries tp fromServer, entries_wire he _, entries_nodup tp _, ?_, ?_⟩
  · intro e hm
    have hids := (entries_ids tp fromServer).subset (List.mem_map.mpr ⟨e, hm, rfl⟩)
    unfold entries at hm
    simp only [List.mem_append, mem_opt] at hm
    obtain ⟨id, val⟩ := e
    have srv : ∀ {o : Option Bytes}, onServer fromServer o = some val → (!fromServer) = false ∧ o = some val := by
      intro o ho; unfold onServer at ho; cases fromServer
      · cases ho
      · exact ⟨rfl, ho⟩
    have int : ∀ {d v : Nat}, v < 2 ^ 62 → ifNot d v = some val → Leads val v ∧ v ≠ d := by
      intro d v hv hi
      unfold ifNot at hi
      split at hi
      · cases hi
      · cases hi; exact ⟨leads_enc hv, by assumption⟩
    have mk : ∀ {v : Nat}, id ∉ serverIds → Leads val v → InRange id v → Permitted (!fromServer) (id, val) :=
      fun h1 h2 h3 => ⟨fun h => absurd h h1, fun h => absurd (by simp only at h; rw [h]; decide) h1, fun _ => ⟨_, h2, h3⟩⟩
    rcases hm with ⟨h1, hm⟩ | ⟨h1, hm⟩ | ⟨h1, hm⟩ | ⟨h1, hm⟩ | ⟨h1, hm⟩ | ⟨h1, hm⟩ | ⟨h1, hm⟩ | ⟨h1, hm⟩ | ⟨h1, hm⟩ | ⟨h1, hm⟩ |
      ⟨h1, hm⟩ | ⟨h1, hm⟩ | ⟨h1, hm⟩ | ⟨h1, hm⟩ | ⟨h1, hm⟩ | ⟨h1, hm⟩ | ⟨h1, hm⟩ <;> simp only at h1 hm <;> subst h1
    · exact ⟨fun _ => (srv hm).1, fun h => absurd h (by dsimp only; decide), fun h => absurd h (by dsimp only; decide)⟩
    · exact mk (by decide) (int h.maxIdleTimeout hm).1 (by simp [InRange])
    · refine ⟨fun _ => (srv hm).1, fun _ => ?_, fun h => absurd h (by dsimp only; decide)⟩
      have := (srv hm).2
      cases ht : tp.resetToken with
      | none => rw [ht] at this; cases this
      | some t => rw [ht] at this; have := Option.some.inj this; rw [← this]; simp
    · exact mk (by decide) (int h.maxUdpPayload.2 hm).1 (by have := h.maxUdpPayload.1; simpa [InRange] using this)
    · exact mk (by decide) (int h.maxData hm).1 (by simp [InRange])
    · exact mk (by decide) (int h.maxStreamDataBidiLocal hm).1 (by simp [InRange])
    · exact mk (by decide) (int h.maxStreamDataBidiRemote hm).1 (by simp [InRange])
    · exact mk (by decide) (int h.maxStreamDataUni hm).1 (by simp [InRange])
    · exact mk (by decide) (int he.maxStreamsBidi hm).1 (by have := h.maxStreamsBidi; simpa [InRange] using this)
    · exact mk (by decide) (int he.maxStreamsUni hm).1 (by have := h.maxStreamsUni; simpa [InRange] using this)
    · exact mk (by decide) (int (by have := h.ackDelayExponent; omega) hm).1
        (by have := h.ackDelayExponent; simpa [InRange] using this)
    · exact mk (by decide) (int he.maxAckDelay hm).1 (by have := h.maxAckDelay; simpa [InRange] using this)
    · exact ⟨fun h => absurd h (by dsimp only; decide), fun h => absurd h (by dsimp only; decide), fun h => absurd h (by dsimp only; decide)⟩
    · exact mk (by decide) (int h.activeCidLimit.2 hm).1 (by have := h.activeCidLimit.1; simpa [InRange] using this)
    · exact ⟨fun h => absurd h (by dsimp only; decide), fun h => absurd h (by dsimp only; decide), fun h => absurd h (by dsimp only; decide)⟩
    · exact ⟨fun _ => (srv hm).1, fun h => absurd h (by dsimp only; decide), fun h => absurd h (by dsimp only; decide)⟩
    · cases hd : tp.maxDatagram with
      | none => rw [hd] at hm; cases hm
      | some v =>
        rw [hd] at hm
        have e := Option.some.inj hm
        refine mk (by decide) (v := v) ?_ (by simp [InRange])
        rw [← e]; exact leads_enc (h.maxDatagram v hd)
  · constructor <;> dsimp only
    case originalDcid =>
      unfold RawIs entries; simp only [lookup_opt, lookup_opt']
      simp [onServer, defaults]
    case maxIdleTimeout =>
      refine intIs_of (k := 0) ?_ h.maxIdleTimeout (fun h => h)
      unfold entries; simp only [lookup_opt, lookup_opt']; simp
    case resetToken =>
      unfold TokenIs entries; simp only [lookup_opt, lookup_opt']
      cases fromServer
      · simp [onServer, defaults]
      · cases ht : tp.resetToken with
        | none => simp [onServer, defaults]
        | some t =>
          have := h.resetToken t ht
          simp only [onServer, defaults, if_true, Option.map_some]
          have e : List.take 16 (beBytes 16 t) = beBytes 16 t := List.take_of_length_le (by simp)
          simp [e, beVal_beBytes]
          exact (Nat.mod_eq_of_lt (by omega)).symm
    case maxUdpPayload =>
      refine intIs_of (k := 0) ?_ h.maxUdpPayload.2 (fun e => by have := h.maxUdpPayload.1; omega)
      unfold entries; simp only [lookup_opt, lookup_opt']; simp
    case maxData =>
      refine intIs_of (k := 0) ?_ h.maxData (fun h => h)
      unfold entries; simp only [lookup_opt, lookup_opt']; simp
    case maxStreamDataBidiLocal =>
      refine intIs_of (k := 0) ?_ h.maxStreamDataBidiLocal (fun h => h)
      unfold entries; simp only [lookup_opt, lookup_opt']; simp
    case maxStreamDataBidiRemote =>
      refine intIs_of (k := 0) ?_ h.maxStreamDataBidiRemote (fun h => h)
      unfold entries; simp only [lookup_opt, lookup_opt']; simp
    case maxStreamDataUni =>
      refine intIs_of (k := 0) ?_ h.maxStreamDataUni (fun h => h)
      unfold entries; simp only [lookup_opt, lookup_opt']; simp
    case maxStreamsBidi =>
      refine intIs_of (k := 0) ?_ he.maxStreamsBidi (fun h => h)
      unfold entries; simp only [lookup_opt, lookup_opt']; simp
    case maxStreamsUni =>
      refine intIs_of (k := 0) ?_ he.maxStreamsUni (fun h => h)
      unfold entries; simp only [lookup_opt, lookup_opt']; simp
    case ackDelayExponent =>
      refine intIs_of (k := 0) ?_ (by have := h.ackDelayExponent; omega) (fun e => absurd e hexp)
      unfold entries; simp only [lookup_opt, lookup_opt']; simp
    case maxAckDelay =>
      refine intIs_of (k := 0) ?_ he.maxAckDelay (fun e => absurd e hdelay)
      unfold entries; simp only [lookup_opt, lookup_opt']; simp
    case disableMigration =>
      unfold entries; simp only [lookup_opt, lookup_opt']
      cases tp.disableMigration <;> simp [defaults]
    case activeCidLimit =>
      refine intIs_of (k := 2) ?_ h.activeCidLimit.2 (fun h => h)
      unfold entries; simp only [lookup_opt, lookup_opt']; simp
    case initialScid =>
      unfold RawIs entries; simp only [lookup_opt, lookup_opt']
      simp [defaults]
    case retryScid =>
      unfold RawIs entries; simp only [lookup_opt, lookup_opt']
      simp [onServer, defaults]
    case maxDatagram =>
      unfold OptIntIs entries; simp only [lookup_opt, lookup_opt']
      cases hd : tp.maxDatagram with
      | none => simp [defaults]
      | some v => simp; exact leads_enc (h.maxDatagram v hd)
    case unknown =>
      have key : ∀ (es : List Entry) (r : Nat), (∀ e ∈ es, e.1 ∈ knownIds) → keep r es = (r, []) := by
        intro es
        induction es with
        | nil => intro r _; rfl
        | cons e es ih =>
          intro r hs
          rw [keep_known (hs e (List.mem_cons_self ..))]
          exact ih r fun x hx => hs x (List.mem_cons_of_mem _ hx)
      have hk : ∀ r, keep r (entries tp fromServer) = (r, []) := by
        intro r
        refine key _ r fun e hm => ?_
        have := (entries_ids tp fromServer).subset (List.mem_map.mpr ⟨e, hm, rfl⟩)
        revert this
        simp only [knownIds, List.mem_cons, List.not_mem_nil, or_false]
        omega
      simp only [hk, defaults, Option.map_map]
      cases track <;> simp

/-- The claim fails for an exponent of zero: it is not sent, and the other side assumes
three. -/
theorem zero_exponent : ∃ tp bs tp', Proper tp ∧ tp.ackDelayExponent = 0 ∧ encode tp false 128 = .ok bs ∧
    decode bs true none = .ok tp' ∧ tp'.ackDelayExponent = 3 := by
  refine ⟨{ ackDelayExponent := 0 }, [3, 4, 0x80, 0, 0xff, 0xf7, 0x0b, 1, 0x19], {}, ?_, rfl, by decide +kernel, by decide +kernel, rfl⟩
  constructor <;> simp

/-- The claim fails for a maximal acknowledgement delay of zero: the other side assumes 25
milliseconds. -/
theorem zero_ack_delay : ∃ tp bs tp', Proper tp ∧ tp.maxAckDelay = 0 ∧ encode tp false 128 = .ok bs ∧
    decode bs true none = .ok tp' ∧ tp'.maxAckDelay = 25 := by
  refine ⟨{ maxAckDelay := 0 }, [3, 4, 0x80, 0, 0xff, 0xf7, 0x0a, 1, 3], {}, ?_, rfl, by decide +kernel, by decide +kernel, rfl⟩
  constructor <;> simp

/-! ### Parameters from the configuration -/

/-- Parameters as a connection sends them: set by calls on the configuration, with
connection IDs. -/
def configured (calls : List Setter) (odcid iscid rscid : Option Bytes) : Params :=
  { calls.foldl Params.set {} with originalDcid := odcid, initialScid := iscid, retryScid := rscid }

/-- No configuration makes the encoder panic. -/
theorem configured_no_panic (calls : List Setter) (odcid iscid rscid : Option Bytes)
    (h1 : ∀ v, odcid = some v → v.length ≤ 20) (h2 : ∀ v, iscid = some v → v.length ≤ 20)
    (h3 : ∀ v, rscid = some v → v.length ≤ 20) (fromServer : Bool) (room : Nat) :
    encode (configured calls odcid iscid rscid) fromServer room ≠ .error .panic := by
  have lt : ∀ {l : Nat}, l ≤ 20 → l < 2 ^ 62 := by intro l h; omega
  have cap : ∀ v, min v maxVarInt < 2 ^ 62 := by intro v; simp only [maxVarInt]; omega
  have key : ∀ (calls : List Setter) (tp : Params), tp.originalDcid = none → tp.initialScid = none → tp.retryScid = none →
      Encodable tp → Encodable { calls.foldl Params.set tp with originalDcid := odcid, initialScid := iscid, retryScid := rscid } := by
    intro calls
    induction calls with
    | nil =>
      intro tp _ _ _ h
      exact ⟨h.maxIdleTimeout, h.maxUdpPayload, h.maxData, h.maxStreamDataBidiLocal, h.maxStreamDataBidiRemote,
        h.maxStreamDataUni, h.maxStreamsBidi, h.maxStreamsUni, h.ackDelayExponent, h.maxAckDelay, h.activeCidLimit,
        h.maxDatagram, fun v hv => lt (h1 v hv), fun v hv => lt (h2 v hv), fun v hv => lt (h3 v hv)⟩
    | cons c calls ih =>
      intro tp e1 e2 e3 h
      obtain ⟨a1, a2, a3, a4, a5, a6, a7, a8, a9, a10, a11, a12, a13, a14, a15⟩ := h
      rw [List.foldl_cons]
      cases c <;> simp only [Params.set]
      case activeCidLimit v =>
        split
        · exact ih _ e1 e2 e3 ⟨a1, a2, a3, a4, a5, a6, a7, a8, a9, a10, cap _, a12, a13, a14, a15⟩
        · exact ih _ e1 e2 e3 ⟨a1, a2, a3, a4, a5, a6, a7, a8, a9, a10, a11, a12, a13, a14, a15⟩
      case enableDgram b =>
        refine ih _ e1 e2 e3 ⟨a1, a2, a3, a4, a5, a6, a7, a8, a9, a10, a11, ?_, a13, a14, a15⟩
        intro v hv
        cases b
        · cases hv
        · cases hv; decide
      case ackDelayExponent v =>
        refine ih _ e1 e2 e3 ⟨a1, a2, a3, a4, a5, a6, a7, a8, ?_, a10, a11, a12, a13, a14, a15⟩
        simp only [maxAckDelayExponent]; omega
      all_goals
        refine ih _ e1 e2 e3 ⟨?_, ?_, ?_, ?_, ?_, ?_, ?_, ?_, ?_, ?_, ?_, ?_, ?_, ?_, ?_⟩ <;> first | assumption | exact cap _
  have henc : Encodable (configured calls odcid iscid rscid) := by
    refine key calls {} rfl rfl rfl ?_
    constructor <;> simp
  rw [encode_eq henc]
  split <;> intro h <;> cases h

/-- Settings the configuration accepts but every peer refuses: too many streams, too long
an acknowledgement delay, too small a payload size. -/
theorem configured_refused : ∀ call ∈ [Setter.maxStreamsBidi (2 ^ 60 + 1), .maxAckDelay (2 ^ 14), .maxUdpPayload 1199],
    ∃ bs, encode (configured [call] none none none) false 128 = .ok bs ∧ decode bs true none = .error .invalidTransportParam := by
  intro call h
  simp only [List.mem_cons, List.not_mem_nil, or_false] at h
  rcases h with rfl | rfl | rfl
  · exact ⟨[3, 4, 0x80, 0, 0xff, 0xf7, 8, 8, 0xd0, 0, 0, 0, 0, 0, 0, 1, 0x0a, 1, 3, 0x0b, 1, 0x19], by decide +kernel, by decide +kernel⟩
  · exact ⟨[3, 4, 0x80, 0, 0xff, 0xf7, 0x0a, 1, 3, 0x0b, 4, 0x80, 0, 0x40, 0], by decide +kernel, by decide +kernel⟩
  · exact ⟨[3, 2, 0x44, 0xaf, 0x0a, 1, 3, 0x0b, 1, 0x19], by decide +kernel, by decide +kernel⟩

/-- A server after a Retry, with connection IDs of 20 bytes and a stateless reset token. -/
def ordinaryServer : Params :=
  configured [.maxIdleTimeout 30000, .maxData 10000000, .maxStreamDataBidiLocal 1000000, .maxStreamDataBidiRemote 1000000,
      .maxStreamDataUni 1000000, .maxStreamsBidi 100, .maxStreamsUni 100, .resetToken (some 1)]
    (some (List.replicate 20 1)) (some (List.replicate 20 2)) (some (List.replicate 20 3))

/-- The buffer of 128 bytes from which parameters are handed to the TLS library is too
small for such a server, whose connections cannot be accepted. -/
theorem buffer_too_small : Proper ordinaryServer ∧ setParams ordinaryServer true = .error .bufferTooShort ∧
    ∃ bs, encode ordinaryServer true 134 = .ok bs := by
  refine ⟨?_, by decide +kernel, ?_⟩
  · constructor <;> simp [ordinaryServer, configured, Params.set]
  · have : (encode ordinaryServer true 134).toBool = true := by decide +kernel
    cases h : encode ordinaryServer true 134 with
    | error e => rw [h] at this; cases this
    | ok bs => exact ⟨bs, rfl⟩

/-! ### Examples -/

example : decode [1, 2, 0x40, 0x1e, 0x0f, 2, 7, 8] true none =
    .ok { maxIdleTimeout := 30, initialScid := some [7, 8] } := by decide +kernel
/-- A duplicate. -/
example : decode [1, 1, 5, 1, 1, 5] true none = .error .invalidTransportParam := by decide +kernel
/-- A server's parameter from a client. -/
example : decode [0, 2, 7, 8] true none = .error .invalidTransportParam := by decide +kernel
/-- Bytes after an integer are ignored. -/
example : decode [1, 3, 5, 0xff, 0xff] true none = .ok { maxIdleTimeout := 5 } := by decide +kernel
/-- Unknown parameters that fit are kept. -/
example : decode [0x2a, 1, 9, 0x2b, 2, 9, 9] true (some 12) =
    .ok { unknown := some { capacity := 3, params := [(0x2a, [9])] } } := by decide +kernel
example : Proper { maxData := 5, maxStreamsBidi := 2 ^ 60, resetToken := some 77, maxDatagram := some 65536 } := by
  constructor <;> simp

end Verif.C37
