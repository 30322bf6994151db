import Verif.Frame.Safe

/-!
# C30: Announced frame sizes are exact

The reported wire length of a frame is the number of bytes it is written with,
and writing fails exactly if fewer bytes are left. For the frames that stand for a
header written elsewhere (CRYPTO, STREAM and DATAGRAM), the reported length is that
of header and data.
-/

namespace Verif.C30
open Verif Verif.Io Verif.Frame

/-- Encoding a frame takes exactly the reported number of bytes. -/
theorem exact_size (f : Frame) (h : InRange f) :
    ∃ n, wireLen f = some n ∧ ∀ c : Cur, c.WF →
      (n ≤ c.cap → ∃ c', toBytes f c = (.ok n, c') ∧ c'.off = c.off + n ∧ c'.cap = c.cap - n) ∧
      (c.cap < n → ∃ c', toBytes f c = (.error .bufferTooShort, c')) := by
  obtain ⟨n, ty, fs, g, h1, ⟨bs, w, s, rfl⟩, _, _⟩ := encode_spec h
  refine ⟨_, h1, fun c hc => ⟨fun hl => ?_, fun hl => ?_⟩⟩
  · obtain ⟨c', e, hw⟩ := (toBytes_writes w).ok c hc hl
    exact ⟨c', e, hw.off, Wr.cap hw⟩
  · exact (toBytes_writes w).short c hc hl

/-- The headers of frames whose data is written in place: with the data, they take
the length reported for the header frame. The length field has room for 2^14 - 1. -/
theorem header_size :
    (∀ off len, off < 2 ^ 62 → len < 2 ^ 14 → ∃ n, wireLen (.cryptoHeader off len) = some (n + len) ∧
      ∀ c : Cur, c.WF → n ≤ c.cap → ∃ c', encodeCryptoHeader off len c = (.ok (), c') ∧ c'.off = c.off + n) ∧
    (∀ id off len fin, id < 2 ^ 62 → off < 2 ^ 62 → len < 2 ^ 14 →
      ∃ n, wireLen (.streamHeader id off len fin) = some (n + len) ∧
      ∀ c : Cur, c.WF → n ≤ c.cap → ∃ c', encodeStreamHeader id off len fin c = (.ok (), c') ∧ c'.off = c.off + n) ∧
    (∀ len, len < 2 ^ 14 → ∃ n, wireLen (.datagramHeader len) = some (n + len) ∧
      ∀ c : Cur, c.WF → n ≤ c.cap → ∃ c', encodeDgramHeader len c = (.ok (), c') ∧ c'.off = c.off + n) := by
  have key : ∀ {p : P Unit} {fs : List Field} {n : Nat}, Emits p fs n → ∀ c : Cur, c.WF → n ≤ c.cap →
      ∃ c', p c = (.ok (), c') ∧ c'.off = c.off + n := by
    rintro p fs n ⟨bs, w, _, rfl⟩ c hc hl
    obtain ⟨c', e, hw⟩ := w.ok c hc hl
    exact ⟨c', e, hw.off⟩
  refine ⟨fun off len h1 h2 => ?_, fun id off len fin h0 h1 h2 => ?_, fun len h2 => ?_⟩
  · obtain ⟨n1, l1, e1⟩ := emits_int h1
    refine ⟨1 + (n1 + 2), ?_, key ((emits_varint rfl).bind (e1.bind (emits_len h2)))⟩
    simp only [wireLen, l1]
    exact congrArg some (by omega)
  · obtain ⟨n0, l0, e0⟩ := emits_int h0
    obtain ⟨n1, l1, e1⟩ := emits_int h1
    refine ⟨1 + (n0 + (n1 + 2)), ?_, ?_⟩
    · simp only [wireLen, l0, l1]
      exact congrArg some (by omega)
    · cases fin with
      | false => exact key ((emits_varint (v := 0x0e) rfl).bind (e0.bind (e1.bind (emits_len h2))))
      | true => exact key ((emits_varint (v := 0x0f) rfl).bind (e0.bind (e1.bind (emits_len h2))))
  · exact ⟨1 + 2, rfl, key ((emits_varint (v := 0x31) rfl).bind (emits_len h2))⟩

/-- The header that stands for a frame is as long as the frame. -/
theorem header_as_frame (id off : Nat) (data : Bytes) (fin : Bool) :
    wireLen (.cryptoHeader off data.length) = wireLen (.crypto off data) ∧
    wireLen (.streamHeader id off data.length fin) = wireLen (.stream id off data fin) ∧
    wireLen (.datagramHeader data.length) = wireLen (.datagram data) := ⟨rfl, rfl, rfl⟩

/-- A NEW_CONNECTION_ID frame of 4 + 1 + 1 + 8 + 16 bytes. -/
example : wireLen (.newConnectionId 100 2 (List.replicate 8 7) (List.replicate 16 9)) = some 29 := by decide
example : InRange (.newConnectionId 100 2 (List.replicate 8 7) (List.replicate 16 9)) := by simp [InRange]
/-- An ACK frame with three ranges. -/
example : wireLen (.ack 70 (.inline [(3, 5), (7, 10), (200, 1000)] 100) (some ⟨1, 2, 3⟩)) = some 16 := by decide

end Verif.C30
