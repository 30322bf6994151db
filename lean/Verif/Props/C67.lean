import Verif.Conn.StreamLim

/-! # C67 — the limits of single streams -/

namespace Verif.C67
open Verif Verif.Stream Verif.Conn Verif.Conn.Conn

/-- **C67.** After every history, the data accepted from the application on a stream is
within the highest limit the peer has given for this stream: the initial limit for its
kind in transport parameters and MAX_STREAM_DATA frames. -/
theorem sent_within (g : Config) (hd : 0 < g.factorDen) (ops : List Op) (hok : ∀ op ∈ ops, op.Ok) (id : Nat) :
    (books g ops).acc id ≤ (limits g ops).tx id := (after_sl g hd hok).2.1 id

/-- **C67.** After every history, the data accepted from the peer on a stream (including
final sizes in RESET_STREAM frames) is within the limit advertised last for it. -/
theorem received_within (g : Config) (hd : 0 < g.factorDen) (ops : List Op) (hok : ∀ op ∈ ops, op.Ok) (id : Nat) :
    (books g ops).hi id ≤ (limits g ops).rx id := (after_sl g hd hok).2.2 id

/-- **C67.** The advertised limits of streams never go down. -/
theorem advertised_mono (g : Config) (hd : 0 < g.factorDen) (ops : List Op) (hok : ∀ op ∈ ops, op.Ok)
    (id now rtt : Nat) (fits : Bool) (m : Nat)
    (he : ((after g ops).step (.outMaxStreamData id now rtt fits)).2 = .sentMaxStreamData m) :
    (limits g ops).rx id ≤ m := by
  have hcr : (after g ops).crashed = false ∧ (after g ops).dead = false := by
    generalize after g ops = c at he
    unfold step at he
    split at he
    · cases he
    · next h =>
      simp only [Op.needsAlive, Bool.and_true, Bool.or_eq_true, not_or, Bool.not_eq_true] at h
      exact h
  rcases after_inv g hd hok with hI | hc
  · rcases (after_sl g hd hok).1 with hs | hc
    · refine outMaxStreamData_raises (now := now) (rtt := rtt) (fits := fits) hI hcr.2 hs ?_
      rw [← he]; unfold step; simp [hcr.1, hcr.2]
    · rw [hcr.1] at hc; cases hc
  · rw [hcr.1] at hc; cases hc

/-- **C67.** A STREAM frame on an existing stream that exceeds the stream's advertised
limit closes the connection with a flow control error. -/
theorem beyond_refused (g : Config) (hd : 0 < g.factorDen) (ops : List Op) (hok : ∀ op ∈ ops, op.Ok)
    (hcr : (after g ops).crashed = false) (hdd : (after g ops).dead = false)
    (id off : Nat) (data : Bytes) (fin : Bool) (hex : (limits g ops).rx id < off + data.length)
    (hg : (after g ops).get id ≠ none) (hkind : ¬ (isBidi id = false ∧ isLocal id (after g ops).isServer = true)) :
    ((after g ops).step (.recvStream id off data fin)).2 = .closed (.q .flowControl) := by
  rcases after_inv g hd hok with hI | hc
  · rcases (after_sl g hd hok).1 with hs | hc
    · generalize after g ops = c at *
      generalize limits g ops = l at *
      unfold step
      simp only [hcr, hdd, Bool.false_or, Bool.false_and, Bool.false_eq_true, if_false]
      unfold recvStream
      rw [if_neg (by simpa using hkind)]
      have hlim := (hI.rx hdd).lim
      rw [if_neg (by omega)]
      cases hgs : c.get id with
      | none => exact absurd hgs hg
      | some s =>
        have hgc : c.getOrCreate id false = .ok (c, s) := by unfold getOrCreate; rw [hgs]
        rw [hgc]
        simp only
        split
        · rfl
        · have : s.recv.write (.mk' data off fin) = (.error .flowControl, s.recv) := by
            unfold RecvBuf.write
            rw [if_pos]
            have := hs.rx id s hgs
            simp only [RangeBuf.mk', RangeBuf.maxOff, RecvBuf.maxData, RangeBuf.off, RangeBuf.len]
            omega
          rw [this]; rfl
    · rw [hcr] at hc; cases hc
  · rw [hcr] at hc; cases hc

/-- **C67.** What was advertised is accepted: a flow control error in answer to a STREAM
frame means that the frame exceeds the limit advertised last for its stream, or that it
exceeds the connection's limit. -/
theorem within_accepted (g : Config) (hd : 0 < g.factorDen) (ops : List Op) (hok : ∀ op ∈ ops, op.Ok)
    (id off : Nat) (data : Bytes) (fin : Bool)
    (he : ((after g ops).step (.recvStream id off data fin)).2 = .closed (.q .flowControl)) :
    (limits g ops).rx id < off + data.length ∨ (books g ops).advData < (after g ops).rxData + (off + data.length) := by
  have hcr : (after g ops).crashed = false ∧ (after g ops).dead = false := by
    generalize after g ops = c at he
    unfold step at he
    split at he
    · cases he
    · next h =>
      simp only [Op.needsAlive, Bool.and_true, Bool.or_eq_true, not_or, Bool.not_eq_true] at h
      exact h
  obtain ⟨hcr, hdd⟩ := hcr
  rcases after_inv g hd hok with hI | hc
  · rcases (after_sl g hd hok).1 with hs | hc
    · generalize after g ops = c at *
      generalize limits g ops = l at *
      generalize books g ops = h at *
      unfold step at he
      simp only [hcr, hdd, Bool.false_or, Bool.false_and, Bool.false_eq_true, if_false] at he
      unfold recvStream at he
      have hadv := hI.advData hdd
      split at he
      · cases he
      · split at he
        · cases he
        · simp only at he
          have hcl : ∀ e, (c.close (.q e)).2 = .closed (.q .flowControl) → e = .flowControl := by
            intro e h; unfold close at h; split at h <;> cases h; rfl
          rcases getOrCreate_spec hI.shape id false with ⟨s, h1, h2⟩ | ⟨_, _, h2⟩ | ⟨_, _, _, h2⟩ | ⟨_, _, _, _, h2⟩ |
            ⟨_, c', s, h2, h3⟩
          all_goals try (rw [h2] at he; first | (cases he; done) | (have := hcl _ he; cases this; done))
          all_goals
            obtain ⟨hs', hI', hg'⟩ := hs.lookup hI h2
            rw [h2] at he
            simp only at he
            split at he
            · right; omega
            · left
              rw [← hs'.rx id s hg']
              split at he
              · next e r hw =>
                have hcl' : e = .flowControl := by
                  unfold close at he; split at he <;> cases he; rfl
                subst hcl'
                unfold RecvBuf.write at hw
                split at hw
                · next hle =>
                  simp only [RangeBuf.mk', RangeBuf.maxOff, RecvBuf.maxData, RangeBuf.off, RangeBuf.len] at hle
                  exact hle
                · exfalso
                  generalize hr : (if (RangeBuf.mk' data off fin).fin = true then _ else _ : RecvBuf) = r1 at hw
                  simp only at hw
                  repeat' split at hw
                  all_goals cases hw
              · cases he
    · rw [hcr] at hc; cases hc
  · rw [hcr] at hc; cases hc

/-! ## Examples -/

/-- A client that allows 4 bytes on its bidirectional streams and has a peer that allows 3. -/
def g0 : Config := { loc := { bidiLocal := 4, bidiRemote := 9 }, maxData := 100, maxWindow := 100, maxStreamWindow := 6,
                     maxStreamsBidi := 5 }
def o0 : List Op := [.peerParams { bidiLocal := 7, bidiRemote := 3 } 100 5 0 1000, .recvDone 1000, .send 0 [1, 2, 3, 4, 5] false]

example : (books g0 o0).acc 0 = 3 ∧ (limits g0 o0).tx 0 = 3 ∧ (limits g0 o0).tx 1 = 7 := by decide +kernel

example : (books g0 (o0 ++ [.recvMaxStreamData 0 4, .send 0 [4, 5] false])).acc 0 = 4 := by decide +kernel

example : ((after g0 o0).step (.recvStream 0 0 [1, 2, 3, 4] false)).2 = .ok ∧
    ((after g0 o0).step (.recvStream 0 1 [1, 2, 3, 4] false)).2 = .closed (.q .flowControl) := by decide +kernel

def o1 : List Op := o0 ++ [.recvStream 0 0 [1, 2, 3, 4] false, .recv 0 4, .outMaxStreamData 0 0 0 true]
example : (limits g0 o1).rx 0 = 8 ∧ ((after g0 o1).step (.recvStream 0 4 [1, 2, 3, 4] false)).2 = .ok ∧
    ((after g0 o1).step (.recvStream 0 4 [1, 2, 3, 4, 5] false)).2 = .closed (.q .flowControl) := by decide +kernel

end Verif.C67
