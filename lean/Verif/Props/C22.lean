import Verif.Conn.Reach

/-! # C22 — received data respects the connection limit that was advertised -/

namespace Verif.C22
open Verif Stream Verif.Conn Verif.Conn.Conn

/-- **C22.** After every history, the highest offsets received on any set of streams (in
STREAM and RESET_STREAM frames that were accepted) sum up to at most the connection limit
that was advertised last. -/
theorem within_limit (g : Config) (hd : 0 < g.factorDen) (ops : List Op) (hok : ∀ op ∈ ops, op.Ok)
    (ids : List Nat) (hn : ids.Nodup) :
    (ids.map (books g ops).hi).sum ≤ (books g ops).advData := by
  obtain ⟨c, hI⟩ := books_inv g hd hok
  exact hI.hiB ids hn

/-- The frame refers to a stream that does not exist: it is ignored if the stream existed
earlier, otherwise the connection is closed since it may not be created. -/
def Refused (c : Conn) (id : Nat) (ev : Ev) : Prop :=
  c.get id = none ∧ (ev = .ignored ∨ ev = .closed (.q .streamLimit) ∨ ev = .closed (.q (.invalidStreamState id)))

/-- How far a frame overshoots. -/
theorem overshoot {c : Conn} {h : Hist} {gone : List Nat} (hI : Inv c h gone) (hd : c.dead = false) {id : Nat}
    {s : Stream} (hg : c.get id = some s) {e : Nat} {ids : List Nat} (hn : ids.Nodup)
    (hex : h.advData < (ids.map (upd h.hi id (max (h.hi id) e))).sum) :
    c.fc.maxData - c.rxData < e - s.recv.len := by
  have hR := hI.rx hd
  have h1 := hR.hs ids hn
  have h2 := sum_upd (H := h.hi) (id := id) (v := max (h.hi id) e) (by omega) ids hn
  have h3 := hR.hi id s hg
  have h4 := hI.advData hd
  have h5 := hR.lim
  omega

/-- **C22.** A STREAM frame that would raise the sum above the advertised limit is
answered with a flow control error, unless its stream does not exist and cannot be
created. -/
theorem stream_beyond_limit (g : Config) (hd : 0 < g.factorDen) (ops : List Op) (hok : ∀ op ∈ ops, op.Ok)
    (hcr : (after g ops).crashed = false) (hdd : (after g ops).dead = false)
    (id off : Nat) (data : Bytes) (fin : Bool) (ids : List Nat) (hn : ids.Nodup)
    (hex : (books g ops).advData <
      (ids.map (upd (books g ops).hi id (max ((books g ops).hi id) (off + data.length)))).sum) :
    ((after g ops).step (.recvStream id off data fin)).2 = .closed (.q .flowControl) ∨
    (isBidi id = false ∧ isLocal id (after g ops).isServer = true) ∨
    Refused (after g ops) id ((after g ops).step (.recvStream id off data fin)).2 := by
  rcases after_inv g hd hok with hI | hc
  · generalize after g ops = c at *
    generalize books g ops = h at *
    unfold step
    rw [hcr, hdd]
    simp only [Bool.false_or, Bool.false_and, Bool.false_eq_true, if_false]
    unfold recvStream
    split
    · next hs => right; left; simpa using hs
    · have hlim := (hI.rx hdd).lim
      rw [if_neg (by omega)]
      rcases getOrCreate_spec hI.shape id false with ⟨s, h1, e⟩ | ⟨h0, -, e⟩ | ⟨h0, -, -, e⟩ | ⟨h0, -, -, -, e⟩ |
        ⟨-, c', s, e, hc⟩ <;> rw [e] <;> simp only
      · have := overshoot hI hdd h1 hn hex
        rw [if_pos this]; left; rfl
      · exact .inr (.inr ⟨h0, .inl rfl⟩)
      · exact .inr (.inr ⟨h0, .inr (.inr rfl)⟩)
      · exact .inr (.inr ⟨h0, .inr (.inl rfl)⟩)
      · obtain ⟨hI', hg'⟩ := hI.create hc
        have := overshoot hI' (by rw [hc.base.dead]; exact hdd) hg' hn hex
        rw [hc.base.fc, hc.base.rxData] at this
        rw [if_pos this]; left; rfl
  · rw [hcr] at hc; cases hc

/-- **C22.** The same for RESET_STREAM, whose final size may also contradict what was
received before. -/
theorem reset_beyond_limit (g : Config) (hd : 0 < g.factorDen) (ops : List Op) (hok : ∀ op ∈ ops, op.Ok)
    (hcr : (after g ops).crashed = false) (hdd : (after g ops).dead = false)
    (id code F : Nat) (ids : List Nat) (hn : ids.Nodup)
    (hex : (books g ops).advData < (ids.map (upd (books g ops).hi id (max ((books g ops).hi id) F))).sum) :
    ((after g ops).step (.recvReset id code F)).2 = .closed (.q .flowControl) ∨
    ((after g ops).step (.recvReset id code F)).2 = .closed (.q .finalSize) ∨
    (isBidi id = false ∧ isLocal id (after g ops).isServer = true) ∨
    Refused (after g ops) id ((after g ops).step (.recvReset id code F)).2 := by
  have key : ∀ (c : Conn) (h : Hist) (gone : List Nat) (s : Stream) (L : Nat), Inv c h gone → c.dead = false → c.get id = some s →
      L < F - s.recv.len →
      let r := s.recv.reset code F
      (∃ r', r = (.error .flowControl, r')) ∨ r = (.error .finalSize, s.recv) ∨
        ∃ ret r', r = (.ok ret, r') ∧ L < ret.maxDataDelta := by
    intro c h gone s L hI hdd hg hL
    have hok := (hI.rx hdd).live id s hg
    rcases RecvBuf.reset_spec hok.inv code F with ⟨-, e⟩ | ⟨-, -, -, r', e, -⟩ | ⟨-, hl, -, ret, r', e, hw⟩
    · exact .inr (.inl e)
    · exact .inl ⟨r', e⟩
    · refine .inr (.inr ⟨ret, r', e, ?_⟩)
      have := hw.delta
      have := hw.len
      omega
  rcases after_inv g hd hok with hI | hc
  · generalize after g ops = c at *
    generalize books g ops = h at *
    unfold step
    rw [hcr, hdd]
    simp only [Bool.false_or, Bool.false_and, Bool.false_eq_true, if_false]
    unfold recvReset
    split
    · next hs => right; right; left; simpa using hs
    · have hlim := (hI.rx hdd).lim
      rw [if_neg (by omega)]
      rcases getOrCreate_spec hI.shape id false with ⟨s, h1, e⟩ | ⟨h0, -, e⟩ | ⟨h0, -, -, e⟩ | ⟨h0, -, -, -, e⟩ |
        ⟨-, c', s, e, hc⟩ <;> rw [e] <;> simp only
      · have := overshoot hI hdd h1 hn hex
        rcases key c h _ s _ hI hdd h1 this with ⟨r', e2⟩ | e2 | ⟨ret, r', e2, hr⟩ <;> rw [e2] <;> simp only
        · left; rfl
        · right; left; rfl
        · rw [if_pos hr]; left; rfl
      · exact .inr (.inr (.inr ⟨h0, .inl rfl⟩))
      · exact .inr (.inr (.inr ⟨h0, .inr (.inr rfl)⟩))
      · exact .inr (.inr (.inr ⟨h0, .inr (.inl rfl)⟩))
      · obtain ⟨hI', hg'⟩ := hI.create hc
        have hdd' : c'.dead = false := by rw [hc.base.dead]; exact hdd
        have := overshoot hI' hdd' hg' hn hex
        rw [hc.base.fc, hc.base.rxData] at this
        rcases key c' h _ s _ hI' hdd' hg' this with ⟨r', e2⟩ | e2 | ⟨ret, r', e2, hr⟩ <;> rw [e2] <;> simp only
        · left; rfl
        · right; left; rfl
        · rw [if_pos hr]; left; rfl
  · rw [hcr] at hc; cases hc

/-- A server that advertised 10 bytes for the connection. -/
def server : Config :=
  { isServer := true
    loc := { bidiRemote := 100 }
    maxData := 10
    maxWindow := 100
    maxStreamsBidi := 9
    maxStreamWindow := 100 }

/-- A server that advertised 10 bytes for the connection: two streams together may use
them, the eleventh byte is an error. After reading, more is advertised. -/
example : ((start server).run
      [.recvStream 0 0 (List.replicate 6 1) false, .recvReset 4 7 4, .recv 0 100, .recv 4 100,
       .outMaxData 0 0 true, .recvStream 0 6 (List.replicate 9 1) true, .recvStream 0 15 [1] false]).2.map (·.2) =
    [.ok, .ok, .got (List.replicate 6 1) false, .err (.streamReset 7), .sentMaxData 20, .ok,
     .closed (.q .finalSize)] := by decide

example : ((start server).run
      [.recvStream 0 0 (List.replicate 6 1) false, .recvStream 4 0 (List.replicate 5 1) false,
       .recvStream 0 6 [1] false]).2.map (·.2) =
    [.ok, .closed (.q .flowControl), .idle] := by decide

end Verif.C22
