import Verif.Frame.Lemmas

/-! The serialiser produces the wire format, and `wire_len` its length. -/

namespace Verif.Frame
open Verif Verif.Io

theorem spells_mem {fs : List Field} {bs : Bytes} (h : Spells fs bs) {v : Nat} (hv : Field.int v ∈ fs) :
    v < 2 ^ 62 := by
  induction fs generalizing bs with
  | nil => simp at hv
  | cons f fs ih =>
    obtain ⟨b1, b2, rfl, h1, h2⟩ := h
    rcases List.mem_cons.mp hv with rfl | hv
    · exact isVarint_lt h1
    · exact ih h2 hv

theorem ackD_sound {fs : List Field} {bs : Bytes} {f : Frame} {w : Bool} (hs : Spells fs bs)
    (h : AckD fs f w) : AckBody fs f w := by
  obtain ⟨largest, delay, first, blocks, r, ecn, rfl, h1, h2, h3⟩ := h
  have hn : blocks.length < 2 ^ 62 := spells_mem hs (by simp)
  exact ⟨largest, delay, first, blocks, r, ecn, rfl, ((buildAll_spec hn).1 r h1).1, h2, h3⟩

theorem incl_inj {a b : Rng} (h : incl a = incl b) : a = b := by
  unfold incl at h
  simp only [Prod.mk.injEq] at h
  exact Prod.ext (by omega) (by omega)

theorem ackD_complete {fs : List Field} {bs : Bytes} {f : Frame} {w : Bool} (hs : Spells fs bs)
    (h : AckBody fs f w) : ∃ f', AckD fs f' w ∧ Same f f' := by
  obtain ⟨largest, delay, first, blocks, r, ecn, rfl, h1, h2, rfl⟩ := h
  have hn : blocks.length < 2 ^ 62 := spells_mem hs (by simp)
  have hb := buildAll_spec (largest := largest) (first := first) hn
  obtain ⟨r', hr'⟩ := hb.2 (by
    intro x hx
    rw [← h1] at hx
    obtain ⟨y, _, rfl⟩ := List.mem_map.mp hx
    unfold incl; simp only; omega)
  refine ⟨.ack delay r' ecn, ⟨largest, delay, first, blocks, r', ecn, rfl, hr', h2, rfl⟩, rfl, ?_, rfl⟩
  have := (hb.1 r' hr').1
  rw [← h1] at this
  have := List.map_inj_right (f := incl) (fun a b h => incl_inj h) |>.mp this
  exact (List.reverse_inj.mp this).symm

theorem same_refl (f : Frame) : Same f f := by
  cases f <;> simp [Same]

theorem body_acks (fs : List Field) (tail : Bytes) (f : Frame) :
    (Body 2 fs tail f ↔ AckBody fs f false) ∧ (Body 3 fs tail f ↔ AckBody fs f true) := ⟨Iff.rfl, Iff.rfl⟩

/-- Everything decoded was on the wire. -/
theorem decode_sound {pkt : PktType} {c c' : Cur} {f : Frame} (hc : c.WF)
    (h : fromBytes pkt c = (.ok f, c')) :
    ∃ bs, c.rest = bs ++ c'.rest ∧ c' = { c with off := c.off + bs.length } ∧ c'.WF ∧
      OnWire f bs c'.rest ∧ Permitted pkt f := by
  obtain ⟨_, bs, s1, s2, s3, s4, ty, body, rfl, hb, hp⟩ := (gram_fromBytes pkt).sound c f c' hc h
  refine ⟨bs, s2, s3, s4, ⟨ty, body, s1, ?_⟩, hp⟩
  obtain ⟨_, b2, _, _, sb⟩ := s1
  unfold BodyD at hb
  split at hb
  · next e => subst e; exact ackD_sound sb hb
  split at hb
  · next e => subst e; exact ackD_sound sb hb
  · exact hb

/-- Everything permitted that is on the wire is decoded. -/
theorem decode_complete {pkt : PktType} {f : Frame} {bs tail : Bytes} (h : OnWire f bs tail)
    (hp : Permitted pkt f) : ∃ f', Same f f' ∧ Reads (fromBytes pkt) bs tail f' := by
  obtain ⟨ty, fs, hs, hb⟩ := h
  have hs0 := hs
  obtain ⟨_, b2, _, _, sb⟩ := hs0
  have key : ∃ f', BodyD ty fs tail f' ∧ Same f f' ∧ Permitted pkt f' := by
    unfold BodyD
    by_cases e2 : ty = 2
    · subst e2
      obtain ⟨f', h1, h2⟩ := ackD_complete sb ((body_acks fs tail f).1.mp hb)
      refine ⟨f', by rw [if_pos rfl]; exact h1, h2, ?_⟩
      obtain ⟨_, _, _, _, _, _, _, _, _, rfl⟩ := h1
      cases f <;> simp [Same] at h2
      cases pkt <;> simp_all [Permitted]
    by_cases e3 : ty = 3
    · subst e3
      obtain ⟨f', h1, h2⟩ := ackD_complete sb ((body_acks fs tail f).2.mp hb)
      refine ⟨f', by rw [if_neg (by decide), if_pos rfl]; exact h1, h2, ?_⟩
      obtain ⟨_, _, _, _, _, _, _, _, _, rfl⟩ := h1
      cases f <;> simp [Same] at h2
      cases pkt <;> simp_all [Permitted]
    · exact ⟨f, by rw [if_neg e2, if_neg e3]; exact hb, same_refl f, hp⟩
  obtain ⟨f', h1, h2, h3⟩ := key
  exact ⟨f', h2, (gram_fromBytes pkt).complete _ bs tail f' ⟨ty, fs, rfl, h1, h3⟩ hs⟩

/-! ### Encoding -/

theorem Emits.eq {p : P Unit} {fs : List Field} {n m : Nat} (h : Emits p fs n) (e : n = m) : Emits p fs m :=
  e ▸ h

theorem emits_int {v : Nat} (h : v < 2 ^ 62) :
    ∃ n, varintLen v = some n ∧ Emits (putVarint v : P Unit) [.int v] n := by
  obtain ⟨n, h1, _⟩ := varintLen_spec h
  exact ⟨n, h1, emits_varint h1⟩

theorem emits_len {v : Nat} (h : v < 2 ^ 14) : Emits (putVarintLen v 2 : P Unit) [.int v] 2 :=
  emits_varintLen (.inr (.inl rfl)) (by simpa using h)

theorem emits_zeros (n : Nat) : Emits (putZeros n) [.raw (List.replicate n 0)] n := by
  have : Writes (putZeros n) (List.replicate n 0) () := by
    induction n with
    | zero => exact Writes.pure ()
    | succ n ih =>
      have e : enc 0 = [0] := by decide
      have := (writes_varint (ε := Err) (v := 0) (by decide)).bind (f := fun _ => putZeros n) ih
      rw [e] at this
      exact this
  exact ⟨_, this, spells_one.mpr rfl, by simp⟩

/-- The gaps and lengths the serialiser computes. -/
def blocksOf : Nat → List Rng → List (Nat × Nat)
  | _, [] => []
  | smallest, (s, e) :: t => (smallest - e - 1, e - 1 - s) :: blocksOf s t

theorem blocksOf_length (smallest : Nat) (l : List Rng) : (blocksOf smallest l).length = l.length := by
  induction l generalizing smallest with
  | nil => rfl
  | cons r t ih => simp [blocksOf, ih]

theorem sub_ok {a b : Nat} (h : b ≤ a) : sub a b = pure (a - b) := by unfold sub; rw [if_pos h]

theorem emits_blocks (l : List Rng) : ∀ smallest : Nat, smallest ≤ 2 ^ 62 →
    (∀ r ∈ l, r.1 < r.2 ∧ r.2 < smallest) → l.Pairwise (fun a b => b.2 < a.1) →
    ∃ n, blocksLen smallest l = some n ∧ Emits (putBlocks smallest l) (blockFields (blocksOf smallest l)) n ∧
      ackedFrom smallest (blocksOf smallest l) = l.map incl := by
  induction l with
  | nil => intro smallest _ _ _; exact ⟨0, rfl, Emits.pure, rfl⟩
  | cons r t ih =>
    obtain ⟨s, e⟩ := r
    intro smallest hs hl hp
    have h0 := hl (s, e) (by simp)
    simp only at h0
    rw [List.pairwise_cons] at hp
    obtain ⟨n, i1, i2, i3⟩ := ih s (by omega)
      (fun r hr => ⟨(hl r (by simp [hr])).1, hp.1 r hr⟩) hp.2
    obtain ⟨a, a1, a2⟩ := emits_int (v := smallest - e - 1) (by omega)
    obtain ⟨b, b1, b2⟩ := emits_int (v := e - 1 - s) (by omega)
    refine ⟨a + b + n, ?_, ?_, ?_⟩
    · simp only [blocksLen]
      rw [if_neg (by omega), a1, b1, i1]; rfl
    · refine Emits.eq (Emits.bindPure (sub_ok (by omega)) (Emits.bindPure (sub_ok (by omega))
        (Emits.bindPure (sub_ok (by omega)) (Emits.bindPure (sub_ok (by omega))
          (a2.bind (b2.bind i2)))))) (by omega)
    · simp only [blocksOf, ackedFrom, List.map_cons, incl]
      have e1 : ((smallest : Int) - ((smallest - e - 1 : Nat) : Int) - 2 - ((e - 1 - s : Nat) : Int)) = (s : Int) := by omega
      have e2 : ((smallest : Int) - ((smallest - e - 1 : Nat) : Int) - 2) = (e : Int) - 1 := by omega
      rw [e1, e2, i3]

/-- The number of ranges is far below 2^62. -/
theorem ranges_count (l : List Rng) : ∀ k : Nat, (∀ r ∈ l, r.1 < r.2 ∧ r.2 < k) →
    l.Pairwise (fun a b => b.2 < a.1) → l.length ≤ k := by
  induction l with
  | nil => intros; simp
  | cons r t ih =>
    intro k h hp
    rw [List.pairwise_cons] at hp
    have h0 := h r (by simp)
    have := ih r.1 (fun x hx => ⟨(h x (by simp [hx])).1, hp.1 x hx⟩) hp.2
    simp only [List.length_cons]; omega

theorem emits_ack {delay : Nat} {r : Ranges.RangeSet} {ecn : Option Ecn} (hd : delay < 2 ^ 62)
    (hr : AckOk r.ranges) (he : ∀ e, ecn = some e → e.ect0 < 2 ^ 62 ∧ e.ect1 < 2 ^ 62 ∧ e.ce < 2 ^ 62) :
    ∃ n fs, ackLen delay r.ranges ecn = some n ∧
      Emits (putAck delay r.ranges ecn) (.int (if ecn.isNone then 2 else 3) :: fs) n ∧
      AckBody fs (.ack delay r ecn) ecn.isSome := by
  obtain ⟨h1, h2, h3⟩ := hr
  have hp : r.ranges.reverse.Pairwise (fun a b => b.2 < a.1) := List.pairwise_reverse.mpr h2
  have hm : ∀ x ∈ r.ranges.reverse, x.1 < x.2 ∧ x.2 ≤ 2 ^ 62 := fun x hx => h3 x (List.mem_reverse.mp hx)
  rcases hrev : r.ranges.reverse with _ | ⟨⟨s, e⟩, t⟩
  · exact absurd (List.reverse_eq_nil_iff.mp hrev) h1
  rw [hrev] at hp hm
  rw [List.pairwise_cons] at hp
  have h0 := hm (s, e) (by simp)
  simp only at h0
  have hlt : ∀ x ∈ t, x.1 < x.2 ∧ x.2 < s := fun x hx => ⟨(hm x (by simp [hx])).1, hp.1 x hx⟩
  have hcount := ranges_count t s hlt hp.2
  obtain ⟨nb, b1, b2, b3⟩ := emits_blocks t s (by omega) hlt hp.2
  obtain ⟨n1, l1, e1⟩ := emits_int (v := e - 1) (by omega)
  obtain ⟨n2, l2, e2⟩ := emits_int hd
  obtain ⟨n3, l3, e3⟩ := emits_int (v := t.length) (by omega)
  obtain ⟨n4, l4, e4⟩ := emits_int (v := e - 1 - s) (by omega)
  have hset : r.ranges.reverse.map incl = acked (e - 1) (e - 1 - s) (blocksOf s t) := by
    rw [hrev]
    simp only [List.map_cons, acked, incl]
    have q1 : (((e - 1 : Nat) : Int) - ((e - 1 - s : Nat) : Int)) = (s : Int) := by omega
    have q2 : ((e - 1 : Nat) : Int) = (e : Int) - 1 := by omega
    rw [q1, b3, q2]
  cases ecn with
  | none =>
    refine ⟨1 + n1 + n2 + n3 + n4 + nb,
      [.int (e - 1), .int delay, .int (blocksOf s t).length, .int (e - 1 - s)] ++ blockFields (blocksOf s t) ++ ecnFields none,
      ?_, ?_, e - 1, delay, e - 1 - s, blocksOf s t, r, none, rfl, hset, rfl, rfl⟩
    · simp only [ackLen, hrev]
      rw [if_neg (by omega), l1, l2, l3, l4, b1]; rfl
    · unfold putAck
      rw [hrev, blocksOf_length]
      refine Emits.eq ((emits_varint (ε := Err) (v := 2) (n := 1) rfl).bind
        (Emits.bindPure (sub_ok (show 1 ≤ e by omega)) (Emits.bindPure (sub_ok (show s ≤ e - 1 by omega))
          (e1.bind (e2.bind (e3.bind (e4.bind (b2.bind Emits.pure)))))))) ?_
      omega
  | some ec =>
    obtain ⟨x1, x2, x3⟩ := he ec rfl
    obtain ⟨n5, l5, e5⟩ := emits_int x1
    obtain ⟨n6, l6, e6⟩ := emits_int x2
    obtain ⟨n7, l7, e7⟩ := emits_int x3
    refine ⟨1 + n1 + n2 + n3 + n4 + nb + (n5 + n6 + n7),
      [.int (e - 1), .int delay, .int (blocksOf s t).length, .int (e - 1 - s)] ++ blockFields (blocksOf s t) ++ ecnFields (some ec),
      ?_, ?_, e - 1, delay, e - 1 - s, blocksOf s t, r, some ec, rfl, hset, rfl, rfl⟩
    · simp only [ackLen, hrev]
      rw [if_neg (by omega), l1, l2, l3, l4, b1, l5, l6, l7]; rfl
    · unfold putAck
      rw [hrev, blocksOf_length]
      refine Emits.eq ((emits_varint (ε := Err) (v := 3) (n := 1) rfl).bind
        (Emits.bindPure (sub_ok (show 1 ≤ e by omega)) (Emits.bindPure (sub_ok (show s ≤ e - 1 by omega))
          (e1.bind (e2.bind (e3.bind (e4.bind (b2.bind (e5.bind (e6.bind e7)))))))))) ?_
      omega

/-- Every frame in range is written as on the wire, with the announced length. -/
theorem encode_spec {f : Frame} (h : InRange f) : ∃ n ty fs g, wireLen f = some n ∧
    Emits (put f) (.int ty :: fs) n ∧ (∀ tail, TailOk f tail → Body ty fs tail g) ∧ Same f g := by
  cases f with
  | padding n =>
    obtain ⟨m, rfl⟩ : ∃ m, n = m + 1 := ⟨n - 1, by simp only [InRange] at h; omega⟩
    refine ⟨m + 1, 0, [.raw (List.replicate m 0)], .padding (m + 1), rfl, ?_, fun tail ht => ⟨m, rfl, ht, rfl⟩, rfl⟩
    exact Emits.eq ((emits_varint rfl).bind (emits_zeros m)) (by omega)
  | ping p => exact ⟨1, 1, [], .ping none, rfl, emits_varint rfl, fun _ _ => ⟨rfl, rfl⟩, trivial⟩
  | ack delay r ecn =>
    obtain ⟨n, fs, h1, h2, h3⟩ := emits_ack h.1 h.2.1 h.2.2
    refine ⟨n, _, fs, .ack delay r ecn, h1, h2, fun tail _ => ?_, rfl, rfl, rfl⟩
    cases ecn with
    | none => exact h3
    | some e => exact h3
  | resetStream a b c =>
    obtain ⟨n1, l1, e1⟩ := emits_int h.1
    obtain ⟨n2, l2, e2⟩ := emits_int h.2.1
    obtain ⟨n3, l3, e3⟩ := emits_int h.2.2
    refine ⟨_, 4, _, _, by simp only [wireLen, l1, l2, l3]; rfl, Emits.eq ((emits_varint rfl).bind (e1.bind (e2.bind e3))) ?_,
      fun _ _ => ⟨a, b, c, rfl, rfl⟩, rfl⟩
    omega
  | stopSending a b =>
    obtain ⟨n1, l1, e1⟩ := emits_int h.1
    obtain ⟨n2, l2, e2⟩ := emits_int h.2
    refine ⟨_, 5, _, _, by simp only [wireLen, l1, l2]; rfl, Emits.eq ((emits_varint rfl).bind (e1.bind e2)) ?_,
      fun _ _ => ⟨a, b, rfl, rfl⟩, rfl⟩
    omega
  | crypto off data =>
    obtain ⟨n1, l1, e1⟩ := emits_int h.1
    refine ⟨_, 6, _, _, by simp only [wireLen, l1]; rfl,
      Emits.eq (((emits_varint rfl).bind (e1.bind (emits_len h.2))).bind (emits_bytes data)) ?_,
      fun _ _ => ⟨off, data, rfl, rfl⟩, rfl⟩
    omega
  | newToken t =>
    obtain ⟨n1, l1, e1⟩ := emits_int h.2
    refine ⟨_, 7, _, _, by simp only [wireLen, l1]; rfl, Emits.eq ((emits_varint rfl).bind (e1.bind (emits_bytes t))) ?_,
      fun _ _ => ⟨t, h.1, rfl, rfl⟩, rfl⟩
    omega
  | stream id off data fin =>
    have ho : off < 2 ^ 62 := by have := h.2.2; omega
    obtain ⟨n1, l1, e1⟩ := emits_int h.1
    obtain ⟨n2, l2, e2⟩ := emits_int ho
    cases fin with
    | false =>
      refine ⟨_, 0x0e, _, _, by simp only [wireLen, l1, l2]; rfl,
        Emits.eq (((emits_varint (v := 0x0e) rfl).bind (e1.bind (e2.bind (emits_len h.2.1)))).bind (emits_bytes data)) ?_,
        fun _ _ => ⟨id, off, data, rfl, by simp, by simp, h.2.2, rfl⟩, rfl⟩
      omega
    | true =>
      refine ⟨_, 0x0f, _, _, by simp only [wireLen, l1, l2]; rfl,
        Emits.eq (((emits_varint (v := 0x0f) rfl).bind (e1.bind (e2.bind (emits_len h.2.1)))).bind (emits_bytes data)) ?_,
        fun _ _ => ⟨id, off, data, rfl, by simp, by simp, h.2.2, rfl⟩, rfl⟩
      omega
  | maxData a =>
    obtain ⟨n1, l1, e1⟩ := emits_int (show a < 2 ^ 62 from h)
    exact ⟨_, 0x10, _, _, by simp only [wireLen, l1]; rfl, (emits_varint rfl).bind e1, fun _ _ => ⟨a, rfl, rfl⟩, rfl⟩
  | maxStreamData a b =>
    obtain ⟨n1, l1, e1⟩ := emits_int h.1
    obtain ⟨n2, l2, e2⟩ := emits_int h.2
    refine ⟨_, 0x11, _, _, by simp only [wireLen, l1, l2]; rfl, Emits.eq ((emits_varint rfl).bind (e1.bind e2)) ?_,
      fun _ _ => ⟨a, b, rfl, rfl⟩, rfl⟩
    omega
  | maxStreamsBidi a =>
    obtain ⟨n1, l1, e1⟩ := emits_int (show a < 2 ^ 62 from h)
    exact ⟨_, 0x12, _, _, by simp only [wireLen, l1]; rfl, (emits_varint rfl).bind e1, fun _ _ => ⟨a, rfl, rfl⟩, rfl⟩
  | maxStreamsUni a =>
    obtain ⟨n1, l1, e1⟩ := emits_int (show a < 2 ^ 62 from h)
    exact ⟨_, 0x13, _, _, by simp only [wireLen, l1]; rfl, (emits_varint rfl).bind e1, fun _ _ => ⟨a, rfl, rfl⟩, rfl⟩
  | dataBlocked a =>
    obtain ⟨n1, l1, e1⟩ := emits_int (show a < 2 ^ 62 from h)
    exact ⟨_, 0x14, _, _, by simp only [wireLen, l1]; rfl, (emits_varint rfl).bind e1, fun _ _ => ⟨a, rfl, rfl⟩, rfl⟩
  | streamDataBlocked a b =>
    obtain ⟨n1, l1, e1⟩ := emits_int h.1
    obtain ⟨n2, l2, e2⟩ := emits_int h.2
    refine ⟨_, 0x15, _, _, by simp only [wireLen, l1, l2]; rfl, Emits.eq ((emits_varint rfl).bind (e1.bind e2)) ?_,
      fun _ _ => ⟨a, b, rfl, rfl⟩, rfl⟩
    omega
  | streamsBlockedBidi a =>
    obtain ⟨n1, l1, e1⟩ := emits_int (show a < 2 ^ 62 from h)
    exact ⟨_, 0x16, _, _, by simp only [wireLen, l1]; rfl, (emits_varint rfl).bind e1, fun _ _ => ⟨a, rfl, rfl⟩, rfl⟩
  | streamsBlockedUni a =>
    obtain ⟨n1, l1, e1⟩ := emits_int (show a < 2 ^ 62 from h)
    exact ⟨_, 0x17, _, _, by simp only [wireLen, l1]; rfl, (emits_varint rfl).bind e1, fun _ _ => ⟨a, rfl, rfl⟩, rfl⟩
  | newConnectionId seq ret cid tok =>
    obtain ⟨h1, h2, h3, h4, h5⟩ := h
    obtain ⟨n1, l1, e1⟩ := emits_int h1
    obtain ⟨n2, l2, e2⟩ := emits_int h2
    refine ⟨_, 0x18, _, _, by simp only [wireLen, l1, l2]; rfl,
      Emits.eq ((emits_varint rfl).bind (e1.bind (e2.bind ((emits_u (n := 1) (v := cid.length) (by omega)).bind
        ((emits_bytes cid).bind (emits_bytes tok)))))) ?_,
      fun _ _ => ⟨seq, ret, cid, tok, h3, h4, h5, rfl, rfl⟩, rfl⟩
    omega
  | retireConnectionId a =>
    obtain ⟨n1, l1, e1⟩ := emits_int (show a < 2 ^ 62 from h)
    exact ⟨_, 0x19, _, _, by simp only [wireLen, l1]; rfl, (emits_varint rfl).bind e1, fun _ _ => ⟨a, rfl, rfl⟩, rfl⟩
  | pathChallenge d =>
    have h : d.length = 8 := h
    exact ⟨_, 0x1a, _, _, rfl, Emits.eq ((emits_varint (n := 1) rfl).bind (emits_bytes d)) (by rw [h]), fun _ _ => ⟨d, h, rfl, rfl⟩, rfl⟩
  | pathResponse d =>
    have h : d.length = 8 := h
    exact ⟨_, 0x1b, _, _, rfl, Emits.eq ((emits_varint (n := 1) rfl).bind (emits_bytes d)) (by rw [h]), fun _ _ => ⟨d, h, rfl, rfl⟩, rfl⟩
  | connectionClose code ft reason =>
    obtain ⟨n1, l1, e1⟩ := emits_int h.1
    obtain ⟨n2, l2, e2⟩ := emits_int h.2.1
    obtain ⟨n3, l3, e3⟩ := emits_int h.2.2
    refine ⟨_, 0x1c, _, _, by simp only [wireLen, l1, l2, l3]; rfl,
      Emits.eq ((emits_varint rfl).bind (e1.bind (e2.bind (e3.bind (emits_bytes reason))))) ?_,
      fun _ _ => ⟨code, ft, reason, rfl, rfl⟩, rfl⟩
    omega
  | applicationClose code reason =>
    obtain ⟨n1, l1, e1⟩ := emits_int h.1
    obtain ⟨n3, l3, e3⟩ := emits_int h.2
    refine ⟨_, 0x1d, _, _, by simp only [wireLen, l1, l3]; rfl,
      Emits.eq ((emits_varint rfl).bind (e1.bind (e3.bind (emits_bytes reason)))) ?_,
      fun _ _ => ⟨code, reason, rfl, rfl⟩, rfl⟩
    omega
  | handshakeDone => exact ⟨1, 0x1e, [], _, rfl, emits_varint rfl, fun _ _ => ⟨rfl, rfl⟩, rfl⟩
  | datagram d =>
    refine ⟨_, 0x31, _, _, rfl, Emits.eq (((emits_varint (v := 0x31) (n := 1) rfl).bind (emits_len h)).bind (emits_bytes d)) ?_,
      fun _ _ => ⟨d, rfl, rfl⟩, rfl⟩
    omega
  | cryptoHeader a b => exact h.elim
  | streamHeader a b c d => exact h.elim
  | datagramHeader a => exact h.elim

end Verif.Frame
