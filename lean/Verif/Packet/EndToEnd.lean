import Verif.Props.C36

/-! Building a packet and taking it apart again: lemmas. -/

namespace Verif.Packet
open Verif Verif.Io

theorem split_at {l : Bytes} {n : Nat} (h : n ≤ l.length) : ∃ a b, l = a ++ b ∧ a.length = n :=
  ⟨l.take n, l.drop n, by simp, by simp; omega⟩

theorem overwrite_mid (pre old post bs : Bytes) (h : old.length = bs.length) :
    Cur.overwrite (pre ++ (old ++ post)) pre.length bs = pre ++ (bs ++ post) := by
  unfold Cur.overwrite
  simp [List.drop_append, ← h]

/-- A writer in the middle of a buffer. -/
theorem writes_at {ε α : Type} [FromOctets ε] {p : Io ε α} {bs : Bytes} {a : α} (w : Writes p bs a)
    (pre old post : Bytes) (h : old.length = bs.length) :
    p { buf := pre ++ (old ++ post), off := pre.length } =
      (.ok a, { buf := pre ++ (bs ++ post), off := pre.length + bs.length }) := by
  obtain ⟨c', e, hw⟩ := w.ok { buf := pre ++ (old ++ post), off := pre.length }
    (by simp [Cur.WF]) (by simp [Cur.cap]; omega)
  rw [e]
  obtain ⟨b, o⟩ := c'
  have h1 := hw.buf
  have h2 := hw.off
  simp only at h1 h2
  rw [overwrite_mid _ _ _ _ h] at h1
  rw [h1, h2]

/-- The header of a packet on its way: header fields, length, packet number. -/
theorem encryptHdr_congr (k : Keys) (hdr : Bytes) (pnLen : Nat) (ct x y : Bytes) (h : 20 ≤ pnLen + ct.length) :
    encryptHdr k hdr pnLen (ct ++ x) = encryptHdr k hdr pnLen (ct ++ y) := by
  unfold encryptHdr
  split
  · rfl
  have e : ∀ z : Bytes, ((ct ++ z).drop (4 - pnLen)).take 16 = (ct.drop (4 - pnLen)).take 16 := by
    intro z
    rw [List.drop_append_of_le_length (by omega), List.take_append_of_le_length (by simp; omega)]
  rw [if_neg (by simp; omega), if_neg (by simp; omega), e, e]

theorem two_ok : IsVarintLen 2 := .inr (.inl rfl)

/-- The length field of a packet, if it has one. -/
def lenBytes (h : Header) (n : Nat) : Bytes := if h.ty = .short then [] else encVarintLen n 2

theorem lenBytes_length (h : Header) (n : Nat) : (lenBytes h n).length = if h.ty = .short then 0 else 2 := by
  unfold lenBytes
  split
  · rfl
  · exact encVarintLen_length two_ok

theorem build_eq {k : Keys} (hk : k.Sound) {h : Header} {hb : Bytes} (hw : Writes (toBytes h) hb ())
    (pn : Nat) (payload : Bytes) (hn : 1 ≤ h.pktNumLen ∧ h.pktNumLen ≤ 4)
    (hp : 20 ≤ h.pktNumLen + payload.length + k.tagLen) {hdr' : Bytes} :
    let hdr := hb ++ lenBytes h (h.pktNumLen + payload.length + k.tagLen) ++ beBytes h.pktNumLen pn
    let ct := k.encrypt pn hdr payload
    encryptHdr k hdr h.pktNumLen ct = .ok hdr' → hdr'.length = hdr.length →
    ∀ buf : Bytes, (hdr' ++ ct).length ≤ buf.length →
      build k h pn payload buf = .ok (hdr' ++ ct ++ buf.drop (hdr' ++ ct).length, (hdr' ++ ct).length) := by
  intro hdr ct he hl buf hbuf
  have hct : ct.length = payload.length + k.tagLen := hk.length _ _ _
  have hlb := lenBytes_length h (h.pktNumLen + payload.length + k.tagLen)
  have hbe : (beBytes h.pktNumLen pn).length = h.pktNumLen := by simp
  have htot : hb.length + (lenBytes h (h.pktNumLen + payload.length + k.tagLen)).length + h.pktNumLen +
      (payload.length + k.tagLen) ≤ buf.length := by
    simp only [List.length_append, hl, hct, hdr] at hbuf
    omega
  obtain ⟨b0, r0, e0, l0⟩ := split_at (l := buf) (n := hb.length) (by omega)
  subst e0
  simp only [List.length_append] at htot
  obtain ⟨b1, r1, e1, l1⟩ := split_at (l := r0) (n := (lenBytes h (h.pktNumLen + payload.length + k.tagLen)).length) (by omega)
  subst e1
  simp only [List.length_append] at htot
  obtain ⟨b2, r2, e2, l2⟩ := split_at (l := r1) (n := h.pktNumLen) (by omega)
  subst e2
  simp only [List.length_append] at htot
  obtain ⟨b3, r3, e3, l3⟩ := split_at (l := r2) (n := payload.length) (by omega)
  subst e3
  simp only [List.length_append] at htot
  unfold build
  have s1 := writes_at hw [] b0 (b1 ++ (b2 ++ (b3 ++ r3))) l0
  simp only [List.nil_append, List.length_nil, Nat.zero_add] at s1
  simp only [Cur.withSlice, s1]
  have s2 : (if h.ty ≠ .short then Io.lift (Cur.skip · payloadLengthLen) { buf := hb ++ (b1 ++ (b2 ++ (b3 ++ r3))), off := hb.length }
      else ((.ok (), { buf := hb ++ (b1 ++ (b2 ++ (b3 ++ r3))), off := hb.length }) : Except Err Unit × Cur)) =
      (.ok (), { buf := (hb ++ b1) ++ (b2 ++ (b3 ++ r3)), off := (hb ++ b1).length }) := by
    by_cases hs : h.ty = .short
    · rw [if_pos hs] at hlb
      rw [if_neg (by simp [hs])]
      have : b1 = [] := List.eq_nil_of_length_eq_zero (by omega)
      simp [this]
    · rw [if_neg hs] at hlb
      rw [if_pos hs]
      unfold Io.lift Cur.skip
      simp only
      rw [if_neg (by simp [Cur.cap, payloadLengthLen]; omega)]
      simp [l1, hlb]
  rw [s2]
  simp only
  unfold encodePktNum
  rw [if_pos hn]
  rw [writes_at (writes_u (ε := Err) h.pktNumLen pn) (hb ++ b1) b2 (b3 ++ r3) (by simp [l2])]
  simp only
  have s4 := writes_at (writes_bytes (ε := Err) payload) (hb ++ b1 ++ beBytes h.pktNumLen pn) b3 r3 l3
  rw [List.append_assoc (hb ++ b1), List.length_append (as := hb ++ b1)] at s4
  rw [s4]
  simp only [List.append_assoc (hb ++ b1)]
  have s5 : (if h.ty ≠ .short then
        (Io.putVarintLen (h.pktNumLen + payload.length + k.tagLen) payloadLengthLen : P Unit)
          { buf := hb ++ b1 ++ (beBytes h.pktNumLen pn ++ (payload ++ r3)), off := hb.length }
      else ((.ok (), ⟨hb ++ b1 ++ (beBytes h.pktNumLen pn ++ (payload ++ r3)),
        (hb ++ b1).length + (beBytes h.pktNumLen pn).length + payload.length⟩) : Except Err Unit × Cur)) =
      (.ok (), ⟨hdr ++ (payload ++ r3), if h.ty ≠ .short then hb.length + 2
        else (hb ++ b1).length + (beBytes h.pktNumLen pn).length + payload.length⟩) := by
    by_cases hs : h.ty = .short
    · rw [if_pos hs] at hlb
      rw [if_neg (by simp [hs]), if_neg (by simp [hs])]
      have : b1 = [] := List.eq_nil_of_length_eq_zero (by omega)
      simp [this, hdr, lenBytes, hs]
    · rw [if_neg hs] at hlb
      rw [if_pos hs, if_pos hs]
      have := writes_at (writes_varintLen (ε := Err) (v := h.pktNumLen + payload.length + k.tagLen) (n := 2) two_ok)
        hb b1 (beBytes h.pktNumLen pn ++ (payload ++ r3)) (by rw [l1, hlb, encVarintLen_length two_ok])
      rw [List.append_assoc, this]
      simp [hdr, lenBytes, hs, encVarintLen_length (v := h.pktNumLen + payload.length + k.tagLen) two_ok]
  rw [s5]
  simp only
  have hoff : (hb ++ b1).length + (beBytes h.pktNumLen pn).length = hdr.length := by
    simp [hdr, l1]; omega
  rw [hoff]
  unfold encryptPkt
  rw [if_neg (by simp)]
  simp only [List.take_left, List.drop_left]
  rw [if_neg (by simp; omega)]
  have ect : k.encrypt pn hdr payload = ct := rfl
  rw [ect]
  have hd : (payload ++ r3).drop ct.length = r3.drop k.tagLen := by
    rw [hct, List.drop_append]; simp
  rw [hd, encryptHdr_congr k hdr _ ct (r3.drop k.tagLen) [] (by omega), List.append_nil, he]
  simp only
  have e4 : (hdr' ++ ct).length = hb.length + b1.length + h.pktNumLen + payload.length + k.tagLen := by
    rw [List.length_append, hl, hct, ← hoff]; simp; omega
  have e5 : (b0 ++ (b1 ++ (b2 ++ (b3 ++ r3)))).drop (hdr' ++ ct).length = r3.drop k.tagLen := by
    rw [e4, ← l2, ← l3, ← l0]
    simp only [List.drop_append]
    rw [List.drop_eq_nil_of_le (by omega), List.drop_eq_nil_of_le (by omega), List.drop_eq_nil_of_le (by omega),
      List.drop_eq_nil_of_le (by omega)]
    simp only [List.nil_append]
    congr 1
    omega
  rw [e5, List.append_assoc, List.length_append (as := hdr'), hl]

/-- The written header with its first byte taken off. -/
theorem first_split {h : Header} {b : Nat} {bs : Bytes} (hs : Spells (hdrFields h b) bs) :
    ∃ f mid, bs = f :: mid ∧ f.toNat = b ∧ ∀ g : UInt8, Spells (hdrFields h g.toNat) (g :: mid) := by
  have key : ∃ fs, ∀ b, hdrFields h b = .fix 1 b :: fs := by
    unfold hdrFields
    split
    · exact ⟨_, fun _ => rfl⟩
    · exact ⟨_, fun _ => rfl⟩
  obtain ⟨fs, hf⟩ := key
  rw [hf] at hs
  obtain ⟨b1, b2, e, ⟨l, v⟩, s⟩ := hs
  match b1, l with
  | [x], _ =>
    refine ⟨x, b2, e, ?_, fun g => ?_⟩
    · simpa [beVal] using v
    · rw [hf]
      exact ⟨[g], b2, rfl, ⟨rfl, by simp [beVal]⟩, s⟩

theorem unpack_eq {k : Keys} (hk : k.Sound) {h : Header} (hr : InRange h) (hret : h.ty ≠ .retry)
    {f : UInt8} {mid : Bytes} (hf : f.toNat = firstByte h)
    (hsp : ∀ g : UInt8, Spells (hdrFields h g.toNat) (g :: mid))
    (pn largest : Nat) (payload tail : Bytes) (hn : 1 ≤ h.pktNumLen)
    (hp : 20 ≤ h.pktNumLen + payload.length + k.tagLen)
    (hlen : h.ty ≠ .short → h.pktNumLen + payload.length + k.tagLen < 2 ^ 14)
    (htail : h.ty = .short → tail = [])
    (hdec : decodePktNum largest (pn % 256 ^ h.pktNumLen) h.pktNumLen = pn) {hdr' : Bytes}
    (hdr : Bytes)
    (hhdr : hdr = f :: (mid ++ lenBytes h (h.pktNumLen + payload.length + k.tagLen) ++ beBytes h.pktNumLen pn))
    (he : encryptHdr k hdr h.pktNumLen (k.encrypt pn hdr payload) = .ok hdr') :
    unpack k h.dcid.length largest (hdr' ++ k.encrypt pn hdr payload ++ tail) =
      .ok (some
        { hdr := { visible h with pktNum := pn % 256 ^ h.pktNumLen, pktNumLen := h.pktNumLen
                                  keyPhase := h.ty = .short ∧ h.keyPhase }
          pn := pn, payload := payload, read := (hdr' ++ k.encrypt pn hdr payload).length }) := by
  have hct : (k.encrypt pn hdr payload).length = payload.length + k.tagLen := hk.length _ _ _
  have hop := hk.decrypt pn hdr payload
  generalize k.encrypt pn hdr payload = ct at *
  generalize hL : lenBytes h (h.pktNumLen + payload.length + k.tagLen) = L at *
  have hlb := lenBytes_length h (h.pktNumLen + payload.length + k.tagLen)
  rw [hL] at hlb
  have hbe : (beBytes h.pktNumLen pn).length = h.pktNumLen := by simp
  have hpb : (beBytes h.pktNumLen pn).length = f.toNat % 4 + 1 := by
    rw [hbe, hf]
    unfold firstByte
    have h4 := hr.pktNumLen
    by_cases hs : h.ty = .short
    · rw [if_pos hs, (firstShort_spec h4 _).2.2.1]; omega
    · rw [if_neg hs]
      have : (typeBits h.ty).getD 0 < 4 := by cases h.ty <;> decide
      rw [(firstLong_spec h4 this).2.2.2.2]; omega
  have hbv : beVal (beBytes h.pktNumLen pn) = pn % 256 ^ h.pktNumLen := beVal_beBytes _ _
  generalize beBytes h.pktNumLen pn = pb at *
  rw [← hbe] at he
  obtain ⟨f', pb', ehdr, lpb, hclear⟩ := C36.rest_in_the_clear k f (mid ++ L) pb ct hdr' (by rw [← hhdr]; exact he)
  obtain ⟨hdr2, e2, hund⟩ := C36.undone k f (mid ++ L) pb (ct ++ tail) hpb (by simp; omega)
  rw [← hhdr, encryptHdr_congr k hdr _ ct tail [] (by omega), List.append_nil, he] at e2
  cases e2
  have hb' : if h.ty = .short then f'.toNat < 128
      else 128 ≤ f'.toNat ∧ some (f'.toNat / 16 % 4) = typeBits h.ty := by
    unfold firstByte at hf
    by_cases hs : h.ty = .short
    · rw [if_pos hs] at hf ⊢
      have := (firstShort_spec hr.pktNumLen h.keyPhase).1
      rw [if_pos (by omega)] at hclear
      omega
    · rw [if_neg hs] at hf ⊢
      have tb : ∃ t, typeBits h.ty = some t ∧ t < 4 := by
        have := hr.ty
        cases hh : h.ty <;> simp_all [typeBits]
      obtain ⟨t, ht1, ht2⟩ := tb
      rw [ht1] at hf ⊢
      have := firstLong_spec hr.pktNumLen ht2
      simp only [Option.getD_some] at hf
      rw [if_neg (by omega)] at hclear
      rw [hclear, hf, this.2.2.2.1]
      exact ⟨by omega, rfl⟩
  have hbuf : hdr' ++ ct ++ tail = (f' :: mid) ++ (L ++ (pb' ++ (ct ++ tail))) := by rw [ehdr]; simp
  have hfrom := (gram_fromBytes h.dcid.length).complete _ (f' :: mid) (L ++ (pb' ++ (ct ++ tail))) _
    (hdrFields_wire hr hb' (fun h => absurd h hret)) (hsp f') (Cur.withSlice (hdr' ++ ct ++ tail))
    (by simp [Cur.WF, Cur.withSlice]) (by simp [Cur.rest, Cur.withSlice, hbuf])
  unfold unpack
  rw [hfrom]
  have hvty : (visible h).ty = h.ty := rfl
  have hnty : ¬(h.ty = .versionNegotiation ∨ h.ty = .retry) := by
    rintro (h1 | h1)
    · exact hr.ty h1
    · exact hret h1
  simp only [hvty]
  rw [if_neg hnty]
  have hlen2 : (if h.ty = .short
      then ((.ok ({ buf := (Cur.withSlice (hdr' ++ ct ++ tail)).buf, off := (Cur.withSlice (hdr' ++ ct ++ tail)).off + (f' :: mid).length } : Cur).cap,
        { buf := (Cur.withSlice (hdr' ++ ct ++ tail)).buf, off := (Cur.withSlice (hdr' ++ ct ++ tail)).off + (f' :: mid).length }) : Except Err Nat × Cur)
      else (Io.varint : P Nat) { buf := (Cur.withSlice (hdr' ++ ct ++ tail)).buf, off := (Cur.withSlice (hdr' ++ ct ++ tail)).off + (f' :: mid).length }) =
      (.ok (h.pktNumLen + payload.length + k.tagLen), { buf := hdr' ++ (ct ++ tail), off := 1 + (mid ++ L).length }) := by
    by_cases hs : h.ty = .short
    · rw [if_pos hs] at hlb
      have hL0 : L = [] := List.eq_nil_of_length_eq_zero hlb
      rw [if_pos hs, htail hs, ehdr, hL0]
      simp [Cur.withSlice, Cur.cap, lpb, hbe, hct]
      constructor <;> omega
    · rw [if_neg hs] at hlb
      rw [if_neg hs]
      have hL2 : encVarintLen (h.pktNumLen + payload.length + k.tagLen) 2 = L := by
        rw [← hL]; unfold lenBytes; rw [if_neg hs]
      have := reads_varintLen (ε := Err) two_ok (hlen hs) (pb' ++ (ct ++ tail))
        { buf := (Cur.withSlice (hdr' ++ ct ++ tail)).buf, off := (Cur.withSlice (hdr' ++ ct ++ tail)).off + (f' :: mid).length }
        (by unfold Cur.WF Cur.withSlice; rw [ehdr]; simp)
        (by rw [hL2]; unfold Cur.rest Cur.withSlice; simp only [hbuf, Nat.zero_add, List.drop_left])
      rw [this, hL2]
      simp [Cur.withSlice]
      omega
  rw [hlen2]
  simp only
  have hdl : hdr'.length = 1 + (mid ++ L).length + pb.length := by rw [ehdr]; simp [lpb]; omega
  rw [if_neg (by unfold Cur.cap; simp only [List.length_append] at *; omega), hund]
  simp only [hbv, hbe, hdec]
  have hbuf2 : f :: (mid ++ L ++ pb) ++ (ct ++ tail) = hdr ++ (ct ++ tail) := by rw [hhdr]
  have hl : hdr.length = 1 + (mid ++ L).length + h.pktNumLen := by rw [hhdr]; simp [hbe]; omega
  rw [hbuf2, ← hl]
  unfold decryptPkt
  rw [if_neg (by simp)]
  simp only [List.take_left, List.drop_left]
  rw [if_neg (by omega)]
  have e3 : h.pktNumLen + payload.length + k.tagLen - h.pktNumLen = ct.length := by omega
  rw [e3, if_neg (by simp)]
  simp only [List.take_left, hop]
  have hcap : ¬ (({ buf := Cur.overwrite (hdr ++ (ct ++ tail)) hdr.length payload, off := hdr.length } : Cur).cap < payload.length) := by
    unfold Cur.cap Cur.overwrite
    simp
  rw [if_neg hcap]
  simp only
  congr 2
  have hkp : (if h.ty = .short then f.toNat.testBit 2 else (visible h).keyPhase) = decide (h.ty = .short ∧ h.keyPhase) := by
    by_cases hs : h.ty = .short
    · rw [if_pos hs, hf]
      unfold firstByte
      rw [if_pos hs, Nat.testBit_eq_decide_div_mod_eq]
      have := (firstShort_spec hr.pktNumLen h.keyPhase).2.2.2
      rw [show (2 ^ 2 : Nat) = 4 from rfl, this]
      cases h.keyPhase <;> simp [hs]
    · rw [if_neg hs]; simp [visible, hs]
  rw [hkp]
  congr 1
  rw [List.length_append, hct, hl, hdl, hbe]
  omega

end Verif.Packet
