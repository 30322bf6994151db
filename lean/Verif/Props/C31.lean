import Verif.Frame.Safe

/-!
# C31: Frames are only accepted in packet types that permit them

For arbitrary bytes, however the frame type is encoded.
-/

namespace Verif.C31
open Verif Verif.Io Verif.Frame

/-- In Initial and Handshake packets: PADDING, PING, ACK, CRYPTO and transport
CONNECTION_CLOSE only. -/
theorem initial_handshake (pkt : PktType) (hp : pkt = .initial ∨ pkt = .handshake) (c c' : Cur) (hc : c.WF)
    (f : Frame) (h : fromBytes pkt c = (.ok f, c')) :
    (∃ n, f = .padding n) ∨ (∃ m, f = .ping m) ∨ (∃ d r e, f = .ack d r e) ∨
    (∃ o d, f = .crypto o d) ∨ (∃ e t r, f = .connectionClose e t r) := by
  obtain ⟨_, _, _, _, _, hp2⟩ := decode_sound hc h
  rcases hp with rfl | rfl <;> cases f <;> simp [Permitted] at hp2 ⊢

/-- In 0-RTT packets none of the frames that need a confirmed peer. -/
theorem zero_rtt (c c' : Cur) (hc : c.WF) (f : Frame) (h : fromBytes .zeroRTT c = (.ok f, c')) :
    (∀ d r e, f ≠ .ack d r e) ∧ (∀ o d, f ≠ .crypto o d) ∧ f ≠ .handshakeDone ∧ (∀ t, f ≠ .newToken t) ∧
    (∀ d, f ≠ .pathResponse d) ∧ (∀ s, f ≠ .retireConnectionId s) ∧ (∀ e t r, f ≠ .connectionClose e t r) := by
  obtain ⟨_, _, _, _, _, hp2⟩ := decode_sound hc h
  cases f <;> simp [Permitted] at hp2 ⊢

instance (pkt : PktType) (f : Frame) : Decidable (Permitted pkt f) :=
  decidable_of_iff _ (allowed_iff pkt f)

/-- The check rejects no more than that: a frame on the wire is rejected only if it
is not permitted, and then as an invalid packet. -/
theorem rejected_iff (pkt : PktType) (c : Cur) (hc : c.WF) (f : Frame) (bs tail : Bytes)
    (hr : c.rest = bs ++ tail) (hw : OnWire f bs tail) :
    ((∃ g c', fromBytes pkt c = (.ok g, c') ∧ Same f g) ↔ Permitted pkt f) ∧
    (¬ Permitted pkt f → ∃ c', fromBytes pkt c = (.error .invalidPacket, c')) := by
  have hs : ∃ g, Same f g ∧ fromBytes .short c = (.ok g, { c with off := c.off + bs.length }) := by
    obtain ⟨g, h1, h2⟩ := decode_complete (pkt := .short) hw trivial
    exact ⟨g, h1, h2 c hc hr⟩
  obtain ⟨g, hg, hgs⟩ := hs
  have hperm : Permitted pkt g ↔ Permitted pkt f := by
    cases f <;> cases g <;> simp [Same] at hg <;> cases pkt <;> simp_all [Permitted]
  have hrun : fromBytes pkt c = if Permitted pkt g then (.ok g, { c with off := c.off + bs.length })
      else (.error .invalidPacket, { c with off := c.off + bs.length }) := by
    unfold fromBytes at hgs ⊢
    rw [bind_run] at hgs ⊢
    rcases hv : (varint : P Nat) c with ⟨r, c1⟩
    rw [hv] at hgs
    cases r with
    | error e => cases hgs
    | ok ty =>
      simp only at hgs ⊢
      rw [bind_run] at hgs ⊢
      rcases hpp : parse ty c1 with ⟨r, c2⟩
      rw [hpp] at hgs
      cases r with
      | error e => cases hgs
      | ok x =>
        simp only at hgs ⊢
        have hx : x = g ∧ c2 = { c with off := c.off + bs.length } := by
          have ha : allowed .short x = true := by cases x <;> rfl
          rw [if_pos ha] at hgs
          cases hgs
          exact ⟨rfl, rfl⟩
        obtain ⟨rfl, rfl⟩ := hx
        by_cases hpx : Permitted pkt x
        · rw [if_pos hpx, if_pos ((allowed_iff _ _).mpr hpx)]; rfl
        · rw [if_neg hpx, if_neg (fun h => hpx ((allowed_iff _ _).mp h))]; rfl
  constructor
  · constructor
    · rintro ⟨g', c', h1, h2⟩
      rw [hrun] at h1
      split at h1
      · next h => exact hperm.mp h
      · cases h1
    · intro h
      exact ⟨g, _, by rw [hrun, if_pos (hperm.mpr h)], hg⟩
  · intro h
    exact ⟨_, by rw [hrun, if_neg (fun h' => h (hperm.mp h'))]⟩



/-! ### Concrete cases -/

/-- HANDSHAKE_DONE with a two-byte frame type in an Initial packet. -/
example : fromBytes .initial (Cur.withSlice [0x40, 0x1e]) = (.error .invalidPacket, ⟨[0x40, 0x1e], 2⟩) := by
  decide +kernel
/-- The same in a 1-RTT packet. -/
example : fromBytes .short (Cur.withSlice [0x40, 0x1e]) = (.ok .handshakeDone, ⟨[0x40, 0x1e], 2⟩) := by
  decide +kernel
/-- A PATH_RESPONSE frame in a 0-RTT packet. -/
example : (fromBytes .zeroRTT (Cur.withSlice [0x1b, 1, 2, 3, 4, 5, 6, 7, 8])).1 = .error .invalidPacket := by
  decide +kernel

end Verif.C31
