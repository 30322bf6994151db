import Verif.Conn.Queued

/-! # C65 — a stream becomes writable again when its capacity reaches the watermark -/

namespace Verif.C65
open Verif Verif.Stream Verif.Conn Verif.Conn.Conn

/-- **C65 fails** by one byte: the application asks to be told when ten bytes can be
written; the peer raises the limit so that exactly ten can be; the stream is not
reported. With the default watermark of one byte the same happens when the peer allows
exactly one byte. -/
theorem exact_capacity_not_reported :
    ((start {}).run [.peerParams { bidiRemote := 5 } 100 9 0 100, .send 0 [] false, .writableNext, .isWritable 0 10,
      .recvMaxStreamData 0 10, .writableNext, .capacity 0]).2.map (·.2) =
    [.ok, .n 0, .next (some 0), .bool false, .ok, .next none, .n 10] ∧
    ((start {}).run [.peerParams { bidiRemote := 0 } 100 9 0 100, .send 0 [] false, .recvMaxStreamData 0 1,
      .writableNext, .capacity 0]).2.map (·.2) = [.ok, .n 0, .ok, .next none, .n 1] := by decide

/-- What the search finds has the capacity asked for, or was stopped by the peer. -/
theorem nextWritable_sound (c : Conn) (q : List Key) (id : Nat) (h : c.nextWritable q = some id) :
    ∃ s, c.get id = some s ∧ ((∃ e, s.send.cap = .error e) ∨ ∃ n, s.send.cap = .ok n ∧ s.sendLowat ≤ min c.txCap n) := by
  induction q with
  | nil => cases h
  | cons k t ih =>
    unfold nextWritable at h
    split at h
    · exact ih h
    · next s hs =>
      split at h
      · next e he => cases h; exact ⟨s, hs, .inl ⟨e, he⟩⟩
      · next n hn =>
        split at h
        · next hc => cases h; exact ⟨s, hs, .inr ⟨n, hn, hc⟩⟩
        · exact ih h

/-- **C65**, soundness: a stream reported as writable accepts at least as many bytes as
its watermark, or reports that the peer stopped it. -/
theorem reported_is_writable (g : Config) (hd : 0 < g.factorDen) (ops : List Op) (hok : ∀ op ∈ ops, op.Ok) (id : Nat)
    (he : ((after g ops).step .writableNext).2 = .next (some id)) :
    ∃ s, (after g ops).get id = some s ∧
      ((∃ n, ((after g ops).step (.capacity id)).2 = .n n ∧ s.sendLowat ≤ n) ∨
        ∃ e, ((after g ops).step (.capacity id)).2 = .err (.streamStopped e)) := by
  rcases after_inv g hd hok with hI | hx
  rotate_left
  · have : (after g ops).step .writableNext = (after g ops, .idle) := by unfold step; rw [hx]; rfl
    rw [this] at he; cases he
  generalize after g ops = c at *
  have h0 : c.crashed = false := by
    cases hc : c.crashed with
    | false => rfl
    | true => have : c.step .writableNext = (c, .idle) := by unfold step; rw [hc]; rfl
              rw [this] at he; cases he
  have h1 : c.step .writableNext = c.writableNext := by unfold step; simp [h0, Op.needsAlive]
  have h2 : c.step (.capacity id) = c.capacity id := by unfold step; simp [h0, Op.needsAlive]
  rw [h1] at he
  rw [h2]
  unfold writableNext at he
  split at he
  · cases he
  · split at he
    · cases he
    · next i hi =>
      cases he
      obtain ⟨s, hs, hcap⟩ := nextWritable_sound c _ _ hi
      refine ⟨s, hs, ?_⟩
      unfold capacity
      rw [hs]
      rcases hcap with ⟨e, hc⟩ | ⟨n, hc, hle⟩
      · obtain ⟨W, hW⟩ := (hI.tx.live _ s hs).inv
        right
        have hc' := hc
        unfold SendBuf.cap at hc
        split at hc
        · next e' _ => cases hc; exact ⟨e', by simp only [hc']⟩
        · split at hc
          · cases hc
          · exact absurd hW.max (by assumption)
      · exact .inl ⟨_, by simp only [hc], hle⟩

/-- The search does not pass over a stream with capacity. -/
theorem nextWritable_complete (c : Conn) (q : List Key) (id : Nat) (hq : linked q id = true) {s : Conn.Stream}
    (hs : c.get id = some s) {n : Nat} (hn : s.send.cap = .ok n) (hc : s.sendLowat ≤ min c.txCap n) :
    ∃ i, c.nextWritable q = some i := by
  induction q with
  | nil => simp [linked] at hq
  | cons k t ih =>
    unfold nextWritable
    by_cases hk : k.id = id
    · rw [hk, hs]
      simp only [hn, if_pos hc]
      exact ⟨_, rfl⟩
    · have hq : linked t id = true := by simpa [linked, hk] using hq
      split
      · exact ih hq
      · split
        · exact ⟨_, rfl⟩
        · split
          · exact ⟨_, rfl⟩
          · exact ih hq

/-- **C65**, the part that holds: when MAX_STREAM_DATA lifts the capacity of an open
stream *above* the watermark, and the connection has that capacity too, some stream is
reported as writable right after. What is missing is the case of exact equality. -/
theorem reported_above_partial (g : Config) (hd : 0 < g.factorDen) (ops : List Op) (hok : ∀ op ∈ ops, op.Ok)
    (id m : Nat) (s : Conn.Stream) (hs : (after g ops).get id = some s) (hdead : (after g ops).dead = false)
    (hid : isBidi id = true ∨ isLocal id (after g ops).isServer = true)
    (hopen : s.send.isFin = false ∧ s.send.shutdown = false ∧ s.send.error = none)
    (hm : (books g ops).acc id + s.sendLowat < m) (hl : 0 < s.sendLowat ∧ s.sendLowat ≤ (after g ops).txCap)
    (hcr : (after g ops).crashed = false) :
    ∃ i, (((after g ops).step (.recvMaxStreamData id m)).1.step .writableNext).2 = .next (some i) := by
  rcases after_inv g hd hok with hI | hx
  rotate_left
  · rw [hcr] at hx; cases hx
  have hA : (books g ops).acc id = s.send.off := by rw [hI.tx.acc]; exact valAt_live _ hs
  rw [hA] at hm
  generalize after g ops = c at *
  have h1 : c.step (.recvMaxStreamData id m) = c.recvMaxStreamData id m := by
    unfold step; simp [hcr, hdead]
  rw [h1]
  unfold recvMaxStreamData
  rw [if_neg (by rcases hid with h | h <;> simp [h])]
  have hgc : c.getOrCreate id false = .ok (c, s) := by unfold getOrCreate; rw [hs]
  rw [hgc]
  simp only
  generalize hs' : ({ s with send := s.send.updateMaxData m } : Conn.Stream) = s'
  have e1 : s'.send.off = s.send.off := by rw [← hs']; rfl
  have e2 : m ≤ s'.send.maxData := by
    rw [← hs']; simp only [SendBuf.updateMaxData]; exact Nat.le_max_right _ _
  have e3 : s'.send.error = none := by rw [← hs']; exact hopen.2.2
  have e4 : s'.sendLowat = s.sendLowat := by rw [← hs']
  have hw : s'.isWritable = true := by
    have e5 : s'.send.shutdown = false := by rw [← hs']; exact hopen.2.1
    have e6 : s'.send.isFin = false := by rw [← hs']; exact hopen.1
    have : s'.send.off + s'.sendLowat < s'.send.maxData := by omega
    simp [Stream.isWritable, e5, e6, this]
  rw [if_pos hw]
  have hcap : s'.send.cap = .ok (s'.send.maxData - s'.send.off) := by
    unfold SendBuf.cap; rw [e3]; rw [if_pos (by omega)]
  have hk : s.key.id = id := (hI.static hs).key
  generalize hd1 : (if s'.isFlushable && !s.isFlushable then (c.put id s').insertFlushable s.key else c.put id s') = d
  have d1 : (d.insertWritable s.key).txCap = c.txCap := by rw [← hd1]; split <;> rfl
  have d2 : (d.insertWritable s.key).get id = some s' := by
    rw [← hd1]; split <;> simp [Conn.get, put, insertFlushable, insertWritable, Assoc.get_put]
  have d3 : d.crashed = false := by rw [← hd1, ← hcr]; split <;> rfl
  have d4 : linked (d.insertWritable s.key).writable id = true := by
    unfold insertWritable; exact linked_qadd.mpr (.inl hk)
  obtain ⟨i, hi⟩ := nextWritable_complete _ _ id d4 d2 hcap (by rw [d1]; omega)
  refine ⟨i, ?_⟩
  have h2 : (d.insertWritable s.key).step .writableNext = (d.insertWritable s.key).writableNext := by
    unfold step; simp [d3, Op.needsAlive]
  rw [h2]
  unfold writableNext
  rw [if_neg (by rw [d1]; omega), hi]

/-- One byte above the watermark. -/
example : ((start {}).run [.peerParams { bidiRemote := 5 } 100 9 0 100, .send 0 [] false, .writableNext,
      .isWritable 0 10, .recvMaxStreamData 0 11, .writableNext, .capacity 0]).2.map (·.2) =
    [.ok, .n 0, .next (some 0), .bool false, .ok, .next (some 0), .n 11] := by decide

end Verif.C65
