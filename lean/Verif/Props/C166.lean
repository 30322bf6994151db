import Verif.Small.Resume

/-!
C166: a client that resumes a session goes by what it stored until the handshake and by what
the handshake says from then on. The stored value can be read back, whatever else is offered
is refused and changes no limit, and the parameters of the handshake replace the stored ones.
Two things are false: the stream limits stay at the stored values if those are larger, and
values that must not be stored (RFC 9000, 7.4.1) are used.
-/

namespace Verif.Props.C166
open Verif Verif.Tp Verif.Resume

/-! ### Blocks with their length before them -/

theorem block_get {c : Cur} {s rest : Bytes} (hc : c.WF) (hs : s.length < 2 ^ 64)
    (h : c.rest = beBytes 8 s.length ++ (s ++ rest)) :
    ∃ c', c.getBytesWithU 8 = (.ok s, c') ∧ c'.WF ∧ c'.rest = rest := by
  unfold Cur.rest at h
  unfold Cur.WF at hc
  have hl : c.buf.length - c.off = 8 + (s.length + rest.length) := by
    have := congrArg List.length h
    simpa using this
  have h1 : c.getU 8 = (.ok s.length, { c with off := c.off + 8 }) := by
    have hv : c.peekU 8 = .ok s.length := by
      unfold Cur.peekU
      rw [if_neg (show ¬ c.off > c.buf.length by omega), if_neg (show ¬ (c.buf.drop c.off).length < 8 by rw [List.length_drop]; omega), h,
        List.take_left' (by simp), beVal_beBytes]
      rw [Nat.mod_eq_of_lt (by simpa using hs)]
    unfold Cur.getU
    rw [hv]
  have h2 : c.buf.drop (c.off + 8) = s ++ rest := by
    rw [← List.drop_drop, h, List.drop_left' (by simp)]
  refine ⟨{ c with off := c.off + 8 + s.length }, ?_, ?_, ?_⟩
  · unfold Cur.getBytesWithU
    rw [h1]
    show Cur.getBytes { c with off := c.off + 8 } s.length = _
    unfold Cur.getBytes Cur.cap
    dsimp only
    rw [if_neg (show ¬ c.buf.length - (c.off + 8) < s.length by omega), h2, List.take_left' rfl]
  · show c.off + 8 + s.length ≤ c.buf.length
    omega
  · show c.buf.drop (c.off + 8 + s.length) = rest
    rw [← List.drop_drop, h2, List.drop_left' rfl]

theorem beVal_lt : ∀ bs : Bytes, beVal bs < 256 ^ bs.length
  | [] => by simp [beVal]
  | b :: bs => by
    rw [beVal_cons]
    have h1 := beVal_lt bs
    have h2 := b.toNat_lt
    have h3 : (b.toNat + 1) * 256 ^ bs.length ≤ 256 * 256 ^ bs.length := Nat.mul_le_mul_right _ (by omega)
    rw [List.length_cons, Nat.pow_succ]
    rw [Nat.add_mul] at h3
    omega

theorem block_got {c c' : Cur} {s : Bytes} (hc : c.WF) (h : c.getBytesWithU 8 = (.ok s, c')) :
    c'.WF ∧ s.length < 2 ^ 64 ∧ c.rest = beBytes 8 s.length ++ (s ++ c'.rest) := by
  unfold Cur.WF at hc
  unfold Cur.getBytesWithU Cur.getU Cur.peekU at h
  rw [if_neg (show ¬ c.off > c.buf.length by omega)] at h
  by_cases h8 : (c.buf.drop c.off).length < 8
  · rw [if_pos h8] at h
    cases h
  · rw [if_neg h8] at h
    dsimp only at h
    generalize hn : beVal ((c.buf.drop c.off).take 8) = n at h
    have ht : ((c.buf.drop c.off).take 8).length = 8 := by rw [List.length_take]; omega
    have hlt : n < 2 ^ 64 := by
      have := beVal_lt ((c.buf.drop c.off).take 8)
      rw [hn, ht] at this
      simpa using this
    have hb : (c.buf.drop c.off).take 8 = beBytes 8 n := by
      have := beBytes_beVal ((c.buf.drop c.off).take 8)
      rw [hn, ht] at this
      exact this.symm
    unfold Cur.getBytes Cur.cap at h
    dsimp only at h
    by_cases hk : c.buf.length - (c.off + 8) < n
    · rw [if_pos hk] at h
      cases h
    · rw [if_neg hk] at h
      have e1 : (c.buf.drop (c.off + 8)).take n = s := by
        have := congrArg (fun x => x.1) h
        simpa using this
      have e2 : c' = { c with off := c.off + 8 + n } := (congrArg Prod.snd h).symm
      rw [List.length_drop] at h8
      have hs : s.length = n := by
        rw [← e1, List.length_take, List.length_drop]
        omega
      refine ⟨?_, by omega, ?_⟩
      · rw [e2]
        show c.off + 8 + n ≤ c.buf.length
        omega
      · unfold Cur.rest
        rw [e2, hs, ← hb]
        show c.buf.drop c.off = (c.buf.drop c.off).take 8 ++ (s ++ c.buf.drop (c.off + 8 + n))
        have h1 : c.buf.drop (c.off + 8 + n) = (c.buf.drop (c.off + 8)).drop n := by rw [List.drop_drop]
        have h2 : c.buf.drop (c.off + 8) = (c.buf.drop c.off).drop 8 := by rw [List.drop_drop]
        rw [← e1, h1, List.take_append_drop, h2, List.take_append_drop]

theorem block_panic {c : Cur} (hc : c.WF) : (c.getBytesWithU 8).1 ≠ .error .panic := by
  unfold Cur.WF at hc
  unfold Cur.getBytesWithU Cur.getU Cur.peekU
  rw [if_neg (show ¬ c.off > c.buf.length by omega)]
  by_cases h8 : (c.buf.drop c.off).length < 8
  · rw [if_pos h8]
    simp
  · rw [if_neg h8]
    dsimp only
    unfold Cur.getBytes
    split <;> simp

/-! ### What can be offered -/

/-- The limits and other values in force are those of `tp`, but for streams the larger of the
two. -/
structure Follows (c : Client) (tp : Params) (c' : Client) : Prop where
  params : c'.tp = tp
  data : c'.maxTx = tp.maxData
  bidi : c'.streamsBidi = max c.streamsBidi tp.maxStreamsBidi
  uni : c'.streamsUni = max c.streamsUni tp.maxStreamsUni
  ackDelay : c'.maxAckDelay = tp.maxAckDelay
  others : c'.ids = c.ids ∧ c'.parsed = c.parsed ∧ c'.track = c.track ∧ c'.closed = c.closed ∧ c'.dcids.dcids = c.dcids.dcids

theorem process_follows (c : Client) (tp : Params) : Follows c tp (c.process tp) :=
  ⟨rfl, rfl, rfl, rfl, rfl, rfl, rfl, rfl, rfl, by unfold Client.process Cid.Ids.setSourceLimit; dsimp only; split <;> rfl⟩

/-- An offer is taken exactly if it begins with what `pack` makes of a session TLS takes and of
valid parameters; these are in force then. -/
theorem taken_iff (c : Client) (takes : Bytes → Bool) (blob : Bytes) (c' : Client) :
    c.setSession takes blob = (.ok (), c') ↔ ∃ sess raw rest tp, blob = pack sess raw ++ rest ∧ sess.length < 2 ^ 64 ∧
      raw.length < 2 ^ 64 ∧ takes sess = true ∧ decode raw c.ids.isServer c.track = .ok tp ∧
      c' = { c with tls := some sess }.process tp := by
  constructor
  · intro h
    unfold Client.setSession at h
    cases h1 : (Cur.withSlice blob).getBytesWithU 8 with
    | mk r b =>
      rw [h1] at h
      cases r with
      | error e => cases h
      | ok sess =>
        dsimp only at h
        by_cases ht : takes sess = true
        · rw [if_pos ht] at h
          obtain ⟨wf, l1, e1⟩ := block_got (withSlice_wf blob) h1
          unfold Client.setParams at h
          cases h2 : b.getBytesWithU 8 with
          | mk r b' =>
            rw [h2] at h
            cases r with
            | error e => cases h
            | ok raw =>
              dsimp only at h
              obtain ⟨wf', l2, e2⟩ := block_got wf h2
              cases hd : decode raw c.ids.isServer c.track with
              | error e => rw [hd] at h; cases h
              | ok tp =>
                rw [hd] at h
                refine ⟨sess, raw, b'.rest, tp, ?_, l1, l2, ht, hd, (congrArg Prod.snd h).symm⟩
                rw [← withSlice_rest blob, e1, e2]
                simp [pack]
        · rw [if_neg ht] at h
          cases h
  · rintro ⟨sess, raw, rest, tp, rfl, l1, l2, ht, hd, rfl⟩
    obtain ⟨b, h1, wf, e1⟩ := block_get (c := Cur.withSlice (pack sess raw ++ rest)) (s := sess)
      (rest := beBytes 8 raw.length ++ (raw ++ rest)) (withSlice_wf _) l1 (by rw [withSlice_rest]; simp [pack])
    obtain ⟨b', h2, _, _⟩ := block_get wf l2 e1
    unfold Client.setSession
    rw [h1]
    dsimp only
    rw [if_pos ht]
    unfold Client.setParams
    rw [h2]
    dsimp only
    rw [hd]

/-- What one connection stored is taken by the next, and brings back what the server said. -/
theorem carried (c : Client) (takes : Bytes → Bool) (sess raw : Bytes) (tp : Params) (l1 : sess.length < 2 ^ 64)
    (l2 : raw.length < 2 ^ 64) (ht : takes sess = true) (hd : decode raw c.ids.isServer c.track = .ok tp) :
    ∃ c', c.setSession takes (pack sess raw) = (.ok (), c') ∧ c'.tls = some sess ∧ Follows c tp c' :=
  ⟨_, (taken_iff ..).2 ⟨sess, raw, [], tp, by simp, l1, l2, ht, hd, rfl⟩, rfl, by
    have := process_follows { c with tls := some sess } tp
    exact ⟨this.1, this.2, this.3, this.4, this.5, this.6⟩⟩

/-- An offer that is refused changes nothing, except that TLS may have got its session. -/
theorem refused (c : Client) (takes : Bytes → Bool) (blob : Bytes) (e : Err) (c' : Client)
    (h : c.setSession takes blob = (.error e, c')) : c' = c ∨ ∃ sess, takes sess = true ∧ c' = { c with tls := some sess } := by
  unfold Client.setSession at h
  split at h
  · cases h; exact Or.inl rfl
  · rename_i sess b _
    split at h
    · rename_i ht
      refine Or.inr ⟨sess, ht, ?_⟩
      unfold Client.setParams at h
      split at h
      · cases h; rfl
      · split at h
        · cases h; rfl
        · cases h
    · cases h; exact Or.inl rfl

/-- Nothing that is offered makes the code panic. -/
theorem no_panic (c : Client) (takes : Bytes → Bool) (blob : Bytes) : (c.setSession takes blob).1 ≠ .error .panic := by
  unfold Client.setSession
  have h1 := block_panic (withSlice_wf blob)
  cases hb : (Cur.withSlice blob).getBytesWithU 8 with
  | mk r b =>
    rw [hb] at h1
    cases r with
    | error e => cases e <;> simp_all [FromOctets.fromO]
    | ok sess =>
      dsimp only
      split
      · obtain ⟨wf, _, _⟩ := block_got (withSlice_wf blob) hb
        have h2 := block_panic wf
        unfold Client.setParams
        cases hb' : b.getBytesWithU 8 with
        | mk r b' =>
          rw [hb'] at h2
          cases r with
          | error e => cases e <;> simp_all [FromOctets.fromO]
          | ok raw =>
            dsimp only
            cases hd : decode raw c.ids.isServer c.track with
            | error e =>
              have := decode_panic raw c.ids.isServer c.track
              rw [hd] at this
              simpa using this
            | ok tp => simp
      · simp

/-! ### The handshake -/

/-- The parameters of the handshake take the place of the stored ones. -/
theorem replaced (c c' : Client) (raw : Bytes) (h0 : c.parsed = false) (h : c.onParams raw = (.ok (), c')) (h1 : c'.parsed = true) :
    ∃ tp, decode raw c.ids.isServer c.track = .ok tp ∧ authenticate c.ids tp = true ∧ Follows { c with parsed := true } tp c' := by
  unfold Client.onParams at h
  rw [h0] at h
  simp only [Bool.false_eq_true, if_false] at h
  cases hp : peerParams c.ids raw c.track with
  | error e => rw [hp] at h; cases h
  | ok o =>
    rw [hp] at h
    cases o with
    | none =>
      dsimp only at h
      have : c' = c := (congrArg Prod.snd h).symm
      rw [this, h0] at h1
      cases h1
    | some tp =>
      dsimp only at h
      have he : c' = { c.process tp with parsed := true } := (congrArg Prod.snd h).symm
      unfold peerParams at hp
      split at hp
      · cases hp
      · split at hp
        · cases hp
        · rename_i hd
          split at hp
          · rename_i ha
            cases hp
            have := process_follows c tp
            rw [he]
            exact ⟨tp, hd, ha, this.1, this.2, this.3, this.4, this.5, this.6.1, rfl, this.6.2.2.1, this.6.2.2.2.1, this.6.2.2.2.2⟩
          · cases hp

/-- No offers are made any more. -/
def Later : Ev → Prop
  | .session .. => False
  | _ => True

/-- A client that resumed, and one that did not: they differ in what was stored until the
handshake, and in the stream limits. -/
structure Alike (b u : Nat) (c d : Client) : Prop where
  ids : c.ids = d.ids
  track : c.track = d.track
  parsed : c.parsed = d.parsed
  bidi : c.streamsBidi = max b d.streamsBidi
  uni : c.streamsUni = max u d.streamsUni
  values : c.parsed = true → c.tp = d.tp ∧ c.maxTx = d.maxTx ∧ c.maxAckDelay = d.maxAckDelay

theorem Alike.step {b u : Nat} {c d : Client} (h : Alike b u c d) (e : Ev) (he : Later e) : Alike b u (c.step e) (d.step e) := by
  obtain ⟨h1, h2, h3, h4, h5, h6⟩ := h
  cases e with
  | session takes blob => exact he.elim
  | retry s =>
    simp only [Client.step, Client.onRetry, h1]
    split
    · exact ⟨h1, h2, h3, h4, h5, h6⟩
    · exact ⟨rfl, h2, h3, h4, h5, h6⟩
  | packet s =>
    simp only [Client.step, Client.onPacket, h1]
    split
    · exact ⟨h1, h2, h3, h4, h5, h6⟩
    · exact ⟨rfl, h2, h3, h4, h5, h6⟩
  | params raw =>
    simp only [Client.step, Client.onParams, h1, h2, h3]
    split
    · exact ⟨h1, h2, h3, h4, h5, h6⟩
    · split
      · exact ⟨h1, h2, h3, h4, h5, h6⟩
      · exact ⟨h1, h2, h3, h4, h5, h6⟩
      · refine ⟨h1, h2, rfl, ?_, ?_, fun _ => ⟨rfl, rfl, rfl⟩⟩
        · simp only [Client.process, h4]; omega
        · simp only [Client.process, h5]; omega
  | newCid cid seq token rpt => exact ⟨h1, h2, h3, h4, h5, h6⟩
  | retire seq => exact ⟨h1, h2, h3, h4, h5, h6⟩
  | noise x =>
    have key : ∀ a : Client, (a.onNoise x).ids = a.ids ∧ (a.onNoise x).track = a.track ∧ (a.onNoise x).parsed = a.parsed ∧
        (a.onNoise x).streamsBidi = a.streamsBidi ∧ (a.onNoise x).streamsUni = a.streamsUni ∧ (a.onNoise x).tp = a.tp ∧
        (a.onNoise x).maxTx = a.maxTx ∧ (a.onNoise x).maxAckDelay = a.maxAckDelay := by
      intro a
      unfold Client.onNoise
      split <;> exact ⟨rfl, rfl, rfl, rfl, rfl, rfl, rfl, rfl⟩
    obtain ⟨a1, a2, a3, a4, a5, a6, a7, a8⟩ := key c
    obtain ⟨b1, b2, b3, b4, b5, b6, b7, b8⟩ := key d
    show Alike b u (c.onNoise x) (d.onNoise x)
    refine ⟨by rw [a1, b1, h1], by rw [a2, b2, h2], by rw [a3, b3, h3], by rw [a4, b4, h4], by rw [a5, b5, h5], ?_⟩
    rw [a3, a6, a7, a8, b6, b7, b8]
    exact h6

theorem Alike.run {b u : Nat} : ∀ (evs : List Ev) {c d : Client}, Alike b u c d → (∀ e ∈ evs, Later e) →
    Alike b u (c.run evs) (d.run evs)
  | [], _, _, h, _ => h
  | e :: evs, _, _, h, hl => Alike.run evs (h.step e (hl e (by simp))) fun e' he => hl e' (by simp [he])

/-- What a session can change for good: the stream limits. -/
theorem session_alike (limit : Nat) (scid dcid : Bytes) (track : Option Nat) (takes : Bytes → Bool) (blob : Bytes) :
    ∃ b u, Alike b u ((Client.start limit scid dcid track).step (.session takes blob)) (Client.start limit scid dcid track) := by
  show ∃ b u, Alike b u ((Client.start limit scid dcid track).setSession takes blob).2 _
  generalize hr : (Client.start limit scid dcid track).setSession takes blob = r
  obtain ⟨res, c'⟩ := r
  cases res with
  | error e =>
    rcases refused _ _ _ _ _ hr with rfl | ⟨sess, _, rfl⟩
    · exact ⟨0, 0, rfl, rfl, rfl, by simp, by simp, fun h => by cases h⟩
    · exact ⟨0, 0, rfl, rfl, rfl, by simp, by simp, fun h => by cases h⟩
  | ok _ =>
    obtain ⟨sess, raw, rest, tp, _, _, _, _, _, rfl⟩ := (taken_iff ..).1 hr
    exact ⟨tp.maxStreamsBidi, tp.maxStreamsUni, rfl, rfl, rfl, by simp [Client.process, Client.start],
      by simp [Client.process, Client.start], fun h => by cases h⟩

/-- Once the parameters of the handshake are there, a connection that resumed a session goes
by the same values as one that did not, except for the stream limits, which may be larger. -/
theorem forgotten_partial (limit : Nat) (scid dcid : Bytes) (track : Option Nat) (takes : Bytes → Bool) (blob : Bytes) (evs : List Ev)
    (hl : ∀ e ∈ evs, Later e) :
    let c := (Client.start limit scid dcid track).run (.session takes blob :: evs)
    let d := (Client.start limit scid dcid track).run evs
    c.parsed = d.parsed ∧ d.streamsBidi ≤ c.streamsBidi ∧ d.streamsUni ≤ c.streamsUni ∧
      (c.parsed = true → c.tp = d.tp ∧ c.maxTx = d.maxTx ∧ c.maxAckDelay = d.maxAckDelay) := by
  obtain ⟨b, u, h⟩ := session_alike limit scid dcid track takes blob
  have h := Alike.run evs h hl
  exact ⟨h.parsed, Nat.le_trans (Nat.le_max_right ..) (Nat.le_of_eq h.bidi.symm),
    Nat.le_trans (Nat.le_max_right ..) (Nat.le_of_eq h.uni.symm), h.values⟩

/-! ### What is not as it should be -/

/-- Parameters of a server: 100 bytes and 10 streams, an ACK delay exponent of 5 and a maximum
of 40 ms, and the token 7. -/
def old : Bytes := [0x04, 0x02, 0x40, 100, 0x08, 0x01, 10, 0x0a, 0x01, 5, 0x0b, 0x01, 40, 0x02, 0x10] ++ beBytes 16 7

/-- Later it allows 3 streams and has another token. -/
def new : Bytes := [0x04, 0x01, 50, 0x08, 0x01, 3, 0x0f, 0x01, 9, 0x00, 0x01, 2, 0x02, 0x10] ++ beBytes 16 8

abbrev c0 : Client := Client.start 2 [1] [2] none

/-- After the handshake a resumed connection may open more streams than the server allows in
it: 10 instead of 3. -/
theorem forgotten_false : ¬ ∀ (takes : Bytes → Bool) (blob : Bytes) (evs : List Ev), (∀ e ∈ evs, Later e) →
    (c0.run (.session takes blob :: evs)).parsed = true →
    (c0.run (.session takes blob :: evs)).streamsBidi = (c0.run evs).streamsBidi := by
  intro h
  have := h (fun _ => true) (pack [5] old) [.packet [9], .params new] (by intro e he; simp at he; rcases he with rfl | rfl <;> trivial)
    (by decide +kernel)
  revert this
  decide +kernel

/-- Before the handshake the stored delay and exponent, which must not be stored, and the
stored token are in force. -/
theorem stored_false :
    (¬ ∀ (takes : Bytes → Bool) (blob : Bytes), (c0.setSession takes blob).2.tp.ackDelayExponent = c0.tp.ackDelayExponent) ∧
    (¬ ∀ (takes : Bytes → Bool) (blob : Bytes), (c0.setSession takes blob).2.maxAckDelay = c0.maxAckDelay) ∧
    (¬ ∀ (takes : Bytes → Bool) (blob : Bytes), (c0.setSession takes blob).2.tp.resetToken = c0.tp.resetToken) := by
  refine ⟨fun h => ?_, fun h => ?_, fun h => ?_⟩ <;>
  · have := h (fun _ => true) (pack [5] old)
    revert this
    decide +kernel

example : (c0.setSession (fun _ => true) (pack [5] old)).1 = .ok () ∧
    (c0.setSession (fun _ => true) (pack [5] old)).2.tls = some [5] ∧
    (c0.setSession (fun _ => true) (pack [5] old)).2.tp =
      { maxData := 100, maxStreamsBidi := 10, ackDelayExponent := 5, maxAckDelay := 40, resetToken := some 7 } ∧
    (c0.run [.session (fun _ => true) (pack [5] old), .packet [9], .params new]).tp =
      { maxData := 50, maxStreamsBidi := 3, resetToken := some 8, initialScid := some [9], originalDcid := some [2] } ∧
    (c0.run [.session (fun _ => true) (pack [5] old), .packet [9], .params new]).streamsBidi = 10 ∧
    (c0.run [.packet [9], .params new]).streamsBidi = 3 := by decide +kernel

/-- Trailing bytes do no harm; a length beyond the end is refused, after TLS got its session. -/
example : (c0.setSession (fun _ => true) (pack [5] old ++ [1, 2, 3])).1 = .ok () ∧
    (c0.setSession (fun _ => true) ((pack [5] old).take 30)).1 = .error .bufferTooShort ∧
    (c0.setSession (fun _ => true) ((pack [5] old).take 30)).2 = { c0 with tls := some [5] } ∧
    (c0.setSession (fun _ => false) (pack [5] old)).2 = c0 := by decide +kernel

end Verif.Props.C166
