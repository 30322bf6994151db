import Verif.Packet.EndToEnd
import Verif.Props.C34

/-!
# C70: What is sealed into a packet is what the peer opens
-/

namespace Verif.C70
open Verif Verif.Packet

/-- A packet of any protected type, built with keys `k` into any buffer with room for
it, is taken apart by a receiver with matching keys to the same header, packet number,
payload and key phase, and the receiver uses up exactly the bytes of the packet. Behind a long
header packet any bytes may follow (coalesced packets). The receiver's largest packet
number is as in C34; the payload has at least `4 - pktNumLen` bytes (the sender pads);
the length of a long header packet must fit in the two bytes set aside for it. -/
theorem delivered (k : Keys) (hk : k.Sound) (htag : k.tagLen = 16) (h : Header) (hr : InRange h) (hty : h.ty ≠ .retry)
    (pn acked largest : Nat) (payload : Bytes)
    (hn : h.pktNumLen = pktNumLen pn acked) (hpn : pn < 2 ^ 62) (hl : largest < 2 ^ 62) (hacked : acked ≤ largest)
    (hclose : largest + 1 < pn + 256 ^ h.pktNumLen / 2)
    (hp : 4 ≤ h.pktNumLen + payload.length)
    (hlen : h.ty ≠ .short → h.pktNumLen + payload.length + 16 < 2 ^ 14) :
    ∃ out : Bytes,
      (∀ buf : Bytes, out.length ≤ buf.length →
        build k h pn payload buf = .ok (out ++ buf.drop out.length, out.length)) ∧
      ∀ tail : Bytes, (h.ty = .short → tail = []) →
        unpack k h.dcid.length largest (out ++ tail) =
          .ok (some
            { hdr := { visible h with pktNum := pn % 256 ^ h.pktNumLen, pktNumLen := h.pktNumLen
                                      keyPhase := h.ty = .short ∧ h.keyPhase }
              pn := pn, payload := payload, read := out.length }) := by
  have hn1 : 1 ≤ h.pktNumLen := by rw [hn]; exact pktNumLen_pos _ _
  have hn4 := hr.pktNumLen
  have hdec : decodePktNum largest (pn % 256 ^ h.pktNumLen) h.pktNumLen = pn := by
    rw [hn] at hclose hn4 ⊢
    exact C34.recovered pn acked largest hpn hl hn4 hacked hclose
  obtain ⟨n, hb, hw, hs, _⟩ := emits_toBytes hr
  obtain ⟨f, mid, rfl, hf, hsp⟩ := first_split hs
  have hbe : (beBytes h.pktNumLen pn).length = h.pktNumLen := by simp
  have hct := hk.length pn (f :: mid ++ lenBytes h (h.pktNumLen + payload.length + k.tagLen) ++ beBytes h.pktNumLen pn) payload
  have he := encryptHdr_eq k f (mid ++ lenBytes h (h.pktNumLen + payload.length + k.tagLen)) (beBytes h.pktNumLen pn)
    (k.encrypt pn (f :: mid ++ lenBytes h (h.pktNumLen + payload.length + k.tagLen) ++ beBytes h.pktNumLen pn) payload)
    (by omega) (by rw [hct, hbe]; omega)
  rw [hbe] at he
  refine ⟨_, build_eq hk hw pn payload ⟨hn1, hn4⟩ (by omega) (by simpa using he) (by simp), ?_⟩
  intro tail htail
  exact unpack_eq hk hr hty hf hsp pn largest payload tail hn1 (by omega) (by rw [htag]; exact hlen) htail hdec _
    (by simp) (by simpa using he)

/-! ### Concrete case: a toy cipher (xor with 0x5a, tag of sevens) -/

def toy : Keys :=
  { mask := fun s i => s.getD i 0 ^^^ 0xa5, tagLen := 16
    encrypt := fun _ _ p => p.map (· ^^^ 0x5a) ++ List.replicate 16 7
    decrypt := fun _ _ c => if 16 ≤ c.length then some ((c.take (c.length - 16)).map (· ^^^ 0x5a)) else none }

theorem toy_sound : toy.Sound := by
  constructor
  · intro _ _ p; simp [toy]
  · intro _ _ p
    have : (p.map (· ^^^ (0x5a : UInt8))).map (· ^^^ 0x5a) = p := by
      rw [List.map_map]
      have : ((fun x : UInt8 => x ^^^ 0x5a) ∘ fun x => x ^^^ 0x5a) = id := by
        funext x; simp [UInt8.xor_assoc]
      rw [this]; simp
    simp only [toy]
    rw [if_pos (by simp)]
    simp only [List.length_append, List.length_replicate, Nat.add_sub_cancel, List.take_left, this]
  · intro _ _ c p h
    simp only [toy] at h ⊢
    split at h
    · cases h; simp; omega
    · cases h

def hdr : Header := { ty := .handshake, version := 1, dcid := [1, 2], scid := [3], pktNumLen := 1 }

/-- 32 bytes: the receiver takes these and leaves the two behind. -/
def wire : Bytes := ((build toy hdr 5 [0xca, 0xfe, 0xba] (List.replicate 64 0)).toOption.map fun r => r.1.take r.2).getD []
example : wire.length = 32 := by decide +kernel
example : unpack toy 2 4 (wire ++ [9, 9]) =
    .ok (some { hdr := { hdr with pktNum := 5 }, pn := 5, payload := [0xca, 0xfe, 0xba], read := 32 }) := by
  decide +kernel

/-- The two bytes for the length are too few for a long header packet of 2^14 bytes or
more: the length wraps. -/
example : (Io.putVarintLen (2 ^ 14 + 5) payloadLengthLen : P Unit) (Cur.withSlice [0, 0]) =
    (.ok (), ⟨[0x40, 0x05], 2⟩) := by decide +kernel

end Verif.C70
