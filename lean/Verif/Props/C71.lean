import Verif.Packet.EndToEnd
import Verif.Packet.Client

/-!
# C71: Version Negotiation and Retry packets of a server are understood by the client
-/

namespace Verif.C71
open Verif Verif.Io Verif.Packet

theorem bind_assoc {ε α β γ : Type} (p : Io ε α) (f : α → Io ε β) (g : β → Io ε γ) :
    (p >>= f) >>= g = p >>= fun a => f a >>= g := by
  funext c
  rw [bind_run, bind_run, bind_run]
  cases h : p c with
  | mk r c1 => cases r <;> simp only [bind_run]

/-- Writing at the start of a buffer and returning the offset. -/
theorem emits_offset {p : P Unit} {fs : List Field} {n : Nat} (he : Emits p fs n) :
    ∃ out : Bytes, Spells fs out ∧ ∀ buf : Bytes, out.length ≤ buf.length →
      (p >>= fun _ => offset) (Cur.withSlice buf) =
        (.ok out.length, { buf := out ++ buf.drop out.length, off := out.length }) := by
  obtain ⟨bs, w, s, l⟩ := he
  refine ⟨bs, s, fun buf hb => ?_⟩
  obtain ⟨a, b, rfl, la⟩ := split_at hb
  have := writes_at w [] a b la
  simp only [List.nil_append, List.length_nil, Nat.zero_add] at this
  rw [bind_run]
  simp only [Cur.withSlice, this, offset]
  rw [List.drop_append, ← la]
  simp

/-- The Version Negotiation packet made for a client with connection IDs `scid` (its
own) and `dcid` is parsed by the client as such, with connection IDs exchanged and the
list of versions the server knows. -/
theorem version_negotiation (rnd : UInt8) (scid dcid : Bytes) (hs : scid.length < 256) (hd : dcid.length < 256) (n : Nat) :
    ∃ out : Bytes,
      (∀ buf : Bytes, out.length ≤ buf.length → negotiateVersion rnd scid dcid (Cur.withSlice buf) =
        (.ok out.length, { buf := out ++ buf.drop out.length, off := out.length })) ∧
      fromBytes n (Cur.withSlice out) =
        (.ok { ty := .versionNegotiation, version := 0, dcid := scid, scid := dcid, versions := some [1] },
          { buf := out, off := out.length }) := by
  have e1 : asU8 scid.length = scid.length := Nat.mod_eq_of_lt hs
  have e2 : asU8 dcid.length = dcid.length := Nat.mod_eq_of_lt hd
  have hem : Emits (do
      Io.putU 1 (rnd ||| 0x80).toNat
      Io.putU 4 0
      Io.putU 1 scid.length
      Io.putBytes scid
      Io.putU 1 dcid.length
      Io.putBytes dcid
      Io.putU 4 versionV1 : P Unit)
      [.fix 1 (rnd ||| 0x80).toNat, .fix 4 0, .fix 1 scid.length, .raw scid, .fix 1 dcid.length, .raw dcid, .fix 4 1] _ :=
    Emits.bind (f1 := [_]) (emits_u (UInt8.toNat_lt _)) <|
    Emits.bind (f1 := [_]) (emits_u (by decide)) <|
    Emits.bind (f1 := [_]) (emits_u (by simpa using hs)) <|
    Emits.bind (f1 := [_]) (emits_bytes _) <|
    Emits.bind (f1 := [_]) (emits_u (by simpa using hd)) <|
    Emits.bind (f1 := [_]) (emits_bytes _) (emits_u (by decide))
  obtain ⟨out, hsp, hout⟩ := emits_offset hem
  refine ⟨out, fun buf hb => ?_, ?_⟩
  · rw [← hout buf hb]
    unfold negotiateVersion
    rw [e1, e2]
    simp only [bind_assoc]
  · have hlong : 128 ≤ (rnd ||| 0x80).toNat := by
      rw [UInt8.toNat_or]; exact Nat.right_le_or
    have := (gram_fromBytes n).complete _ out []
      { ty := .versionNegotiation, version := 0, dcid := scid, scid := dcid, versions := some [1] }
      (⟨rfl, rfl, rfl, .inr ⟨_, [.fix 4 1], hlong, rfl, fun h => absurd h (Nat.zero_ne_one), by
        unfold LongRest
        rw [if_pos rfl]
        exact ⟨[1], rfl, rfl, rfl, rfl, rfl⟩⟩⟩) hsp (Cur.withSlice out) (by simp [Cur.WF, Cur.withSlice])
        (by simp [Cur.rest, Cur.withSlice])
    rw [this]; simp [Cur.withSlice]

/-- The Retry packet made for a client with connection IDs `scid` and `dcid` is parsed
by the client as such, with the new connection ID and token, and its integrity tag
verifies against `dcid`. `mac` is the integrity tag function (16 bytes). -/
theorem retry_packet (mac : Bytes → Bytes) (hmac : ∀ x, (mac x).length = 16) (scid dcid newScid token : Bytes)
    (hs : scid.length ≤ 20) (hns : newScid.length ≤ 20) (ht : token.length < 2 ^ 62) (n : Nat) :
    ∃ out : Bytes, 16 ≤ out.length ∧
      (∀ buf : Bytes, out.length ≤ buf.length → retry mac scid dcid newScid token 1 (Cur.withSlice buf) =
        (.ok out.length, { buf := out ++ buf.drop out.length, off := out.length })) ∧
      fromBytes n (Cur.withSlice out) =
        (.ok { ty := .retry, version := 1, dcid := scid, scid := newScid, token := some token },
          { buf := out, off := out.length - 16 }) ∧
      verifyRetry mac { buf := out, off := out.length - 16 } dcid = .ok () := by
  have hr : InRange { ty := .retry, version := 1, dcid := scid, scid := newScid, token := some token } :=
    ⟨by simp, by simp, hs, hns, by intro t h; cases h; exact ht, by intro; rfl, by simp⟩
  obtain ⟨m, hb, hw, hsp, _⟩ := emits_toBytes hr
  let tag := mac (beBytes 1 (asU8 dcid.length) ++ dcid ++ hb)
  have htag : tag.length = 16 := hmac _
  refine ⟨hb ++ tag, by simp [htag], ?_, ?_, ?_⟩
  · intro buf hbuf
    obtain ⟨a, b, rfl, la⟩ := split_at hbuf
    obtain ⟨a1, a2, rfl, la1⟩ := split_at (l := a) (n := hb.length) (by simp at la; omega)
    have la2 : a2.length = tag.length := by simp at la; omega
    unfold retry
    rw [if_neg (by decide)]
    have s1 := writes_at hw [] a1 (a2 ++ b) la1
    simp only [List.nil_append, List.length_nil, Nat.zero_add] at s1
    rw [bind_run]
    simp only [Cur.withSlice, List.append_assoc, s1]
    rw [bind_run]
    have e3 : retryTag mac { buf := hb ++ (a2 ++ b), off := hb.length } dcid = tag := by
      unfold retryTag; simp [tag]
    simp only [putTag, offset, e3, writes_at (writes_bytes (ε := Err) tag) hb a2 b la2]
    rw [List.drop_append (l₁ := a1), List.drop_append (l₁ := a2)]
    rw [List.drop_eq_nil_of_le (by simp; omega), List.drop_eq_nil_of_le (by simp; omega)]
    have e4 : (hb ++ tag).length - a1.length - a2.length = 0 := by simp; omega
    rw [e4]
    simp
  · have hfb : firstByte { ty := .retry, version := 1, dcid := scid, scid := newScid, token := some token } = 240 := by
      unfold firstByte firstLong typeBits; simp
    have := (gram_fromBytes n).complete _ hb tag
      { ty := .retry, version := 1, dcid := scid, scid := newScid, token := some token }
      (by
        refine ⟨rfl, rfl, rfl, .inr ⟨240, [.raw token], by decide, ?_, fun _ => ⟨hs, hns⟩, ?_⟩⟩
        · exact rfl
        · unfold LongRest
          rw [if_neg (by simp)]
          exact ⟨token, rfl, htag, rfl, rfl, rfl⟩) (by rw [hfb] at hsp; exact hsp)
      (Cur.withSlice (hb ++ tag)) (by simp [Cur.WF, Cur.withSlice]) (by simp [Cur.rest, Cur.withSlice])
    rw [this]
    simp [Cur.withSlice, htag]
  · have e5 : (hb ++ tag).length - 16 = hb.length := by simp [htag]
    rw [e5]
    unfold verifyRetry
    have e6 : ({ buf := hb ++ tag, off := hb.length } : Cur).rest = tag := by simp [Cur.rest]
    simp only [e6]
    rw [if_neg (by simp [htag]), if_pos]
    unfold retryTag
    simp only [List.take_left]
    rw [List.take_of_length_le (by simp [htag, retryTagLen])]

/-- A client waiting for the server's first answer acts on such a Retry packet: it starts
over with the token and the connection ID the server chose. -/
theorem retry_works (mac : Bytes → Bytes) (hmac : ∀ x, (mac x).length = 16) (c : Endpoint) (newScid token : Bytes)
    (hc : c.isServer = false ∧ c.didRetry = false) (hs : c.scid.length ≤ 20) (hns : newScid.length ≤ 20)
    (ht : token.length < 2 ^ 62) :
    ∃ out : Bytes,
      (∀ buf : Bytes, out.length ≤ buf.length → retry mac c.scid c.dcid newScid token 1 (Cur.withSlice buf) =
        (.ok out.length, { buf := out ++ buf.drop out.length, off := out.length })) ∧
      recvSpecial mac c out =
        (.restart, { c with token := some token, dcid := newScid, didRetry := true, odcid := some c.dcid, rscid := some newScid }) := by
  obtain ⟨out, h16, h1, h2, h3⟩ := retry_packet mac hmac c.scid c.dcid newScid token hs hns ht c.scid.length
  refine ⟨out, h1, ?_⟩
  unfold recvSpecial
  rw [h2]
  simp only
  rw [if_neg (by simp)]
  unfold recvRetry
  simp [hc.1, hc.2, h3]

/-! ### Concrete case -/

def mac (b : Bytes) : Bytes := List.replicate 15 1 ++ [b.foldl (· + ·) 0]
def client : Endpoint := { isServer := false, version := 1, scid := [1, 2], dcid := [9, 9, 9] }
example : (retry mac [1, 2] [9, 9, 9] [7] [0xaa] 1 (Cur.withSlice (List.replicate 40 0))).1 = .ok 27 := by decide +kernel
example : recvSpecial mac client
    ((retry mac [1, 2] [9, 9, 9] [7] [0xaa] 1 (Cur.withSlice (List.replicate 40 0))).2.buf.take 27) =
    (.restart, { client with token := some [0xaa], dcid := [7], didRetry := true, odcid := some [9, 9, 9], rscid := some [7] }) := by
  decide +kernel
/-- A Retry packet for another connection attempt is not accepted. -/
example : (recvSpecial mac { client with dcid := [9, 9, 8] }
    ((retry mac [1, 2] [9, 9, 9] [7] [0xaa] 1 (Cur.withSlice (List.replicate 40 0))).2.buf.take 27)).1 = .ignored := by
  decide +kernel

end Verif.C71
