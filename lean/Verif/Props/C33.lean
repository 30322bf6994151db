import Verif.Packet.HdrEncode

/-!
# C33: Packet headers survive an encode/decode round trip
-/

namespace Verif.C33
open Verif Verif.Io Verif.Packet

/-- With room for it, a header in range is written at the cursor; nothing else changes. -/
theorem written (h : Header) (hr : InRange h) :
    ∃ bs, ∀ c : Cur, c.WF → bs.length ≤ c.cap →
      toBytes h c = (.ok (), { buf := Cur.overwrite c.buf c.off bs, off := c.off + bs.length }) := by
  obtain ⟨n, bs, w, s, l⟩ := emits_toBytes hr
  refine ⟨bs, fun c hc hl => ?_⟩
  obtain ⟨c', e, hw⟩ := w.ok c hc hl
  rw [e]
  have : c' = { buf := Cur.overwrite c.buf c.off bs, off := c.off + bs.length } := by
    obtain ⟨b, o⟩ := c'
    rw [← hw.buf, ← hw.off]
  rw [this]

/-- Parsing what was written, followed by anything (the 16 bytes of the integrity tag for
a Retry packet), returns type, version, connection IDs and token and stops right behind
the header. -/
theorem round_trip (h : Header) (hr : InRange h) (c c' : Cur) (hc : c.WF)
    (he : toBytes h c = (.ok (), c')) (tail : Bytes) (ht : h.ty = .retry → tail.length = 16) :
    fromBytes h.dcid.length (Cur.withSlice ((c'.buf.drop c.off).take (c'.off - c.off) ++ tail)) =
      (.ok (visible h), { buf := (c'.buf.drop c.off).take (c'.off - c.off) ++ tail, off := c'.off - c.off }) := by
  obtain ⟨n, bs, w, s, l⟩ := emits_toBytes hr
  by_cases hl : bs.length ≤ c.cap
  · obtain ⟨c2, e, hw⟩ := w.ok c hc hl
    rw [e] at he
    cases he
    have e1 : c'.off - c.off = bs.length := by rw [hw.off]; omega
    have e2 : (c'.buf.drop c.off).take bs.length = bs := by
      rw [Io.Wr.rest hw]; simp
    rw [e1, e2]
    have hb : if h.ty = .short then firstByte h < 128
        else 128 ≤ firstByte h ∧ some (firstByte h / 16 % 4) = typeBits h.ty := by
      unfold firstByte
      by_cases hs : h.ty = .short
      · rw [if_pos hs, if_pos hs]; exact (firstShort_spec hr.pktNumLen _).1
      · rw [if_neg hs, if_neg hs]
        have tb : ∃ t, typeBits h.ty = some t ∧ t < 4 := by
          have := hr.ty
          cases hh : h.ty <;> simp_all [typeBits]
        obtain ⟨t, ht1, ht2⟩ := tb
        rw [ht1]
        have := firstLong_spec hr.pktNumLen ht2
        exact ⟨this.1, by simp [this.2.2.2.1]⟩
    have := (gram_fromBytes h.dcid.length).complete _ bs tail _ (hdrFields_wire hr hb ht) s
      (Cur.withSlice (bs ++ tail)) (by simp [Cur.WF, Cur.withSlice]) (by simp [Cur.rest, Cur.withSlice])
    rw [this]
    simp [Cur.withSlice]
  · obtain ⟨c2, e⟩ := w.short c hc (by omega)
    rw [e] at he; cases he

/-- A connection ID longer than 20 bytes is never accepted for a known version. -/
theorem long_cid_rejected (dcidLen : Nat) (c c' : Cur) (hc : c.WF) (h : Header)
    (hp : fromBytes dcidLen c = (.ok h, c')) (hv : h.version = 1) : h.dcid.length ≤ 20 ∧ h.scid.length ≤ 20 := by
  obtain ⟨fs, bs, _, _, _, _, _, _, _, h5⟩ := (gram_fromBytes dcidLen).sound c h c' hc hp
  rcases h5 with ⟨b, _, _, _, _, h0, _⟩ | ⟨b, rest, _, _, h2, _⟩
  · omega
  · exact h2 hv

/-! ### Concrete cases -/

def hdr : Header :=
  { ty := .initial, version := 1, dcid := [1, 2, 3], scid := [4], token := some [0xaa, 0xbb], pktNumLen := 2 }
example : InRange hdr := ⟨by decide, by decide, by decide, by decide, by decide, by decide, by decide⟩
example : toBytes hdr (Cur.withSlice (List.replicate 20 0)) =
    (.ok (), ⟨[0xc1, 0, 0, 0, 1, 3, 1, 2, 3, 1, 4, 2, 0xaa, 0xbb, 0, 0, 0, 0, 0, 0], 14⟩) := by decide +kernel
example : (fromBytes 8 (Cur.withSlice [0xc1, 0, 0, 0, 1, 3, 1, 2, 3, 1, 4, 2, 0xaa, 0xbb, 99])).1 =
    .ok { hdr with pktNumLen := 0 } := by decide +kernel
/-- 21 bytes: rejected in version 1, accepted in a version that is not known. -/
example : (fromBytes 8 (Cur.withSlice ([0xc1, 0, 0, 0, 1, 21] ++ List.replicate 30 0))).1 = .error .invalidPacket := by
  decide +kernel
example : ((fromBytes 8 (Cur.withSlice ([0xc1, 0, 0, 0, 2, 21] ++ List.replicate 30 0))).1.toOption.map (·.dcid.length)) =
    some 21 := by decide +kernel

end Verif.C33
