import Verif.Ffi.Model
import Verif.Props.C01
/-!
C182: what a C program sees of the library: error codes, return values, writes
through pointers, addresses, timeouts, callbacks.
-/

namespace Verif.Props.C182
open Verif Verif.Ffi

/-! ### The header file, transcribed -/

/-- The errors declared by quiche/include/quiche.h:66-140. -/
def header : List (String × Int) :=
  [("DONE", -1), ("BUFFER_TOO_SHORT", -2), ("UNKNOWN_VERSION", -3), ("INVALID_FRAME", -4),
   ("INVALID_PACKET", -5), ("INVALID_STATE", -6), ("INVALID_STREAM_STATE", -7),
   ("INVALID_TRANSPORT_PARAM", -8), ("CRYPTO_FAIL", -9), ("TLS_FAIL", -10),
   ("FLOW_CONTROL", -11), ("STREAM_LIMIT", -12), ("STREAM_STOPPED", -15),
   ("STREAM_RESET", -16), ("FINAL_SIZE", -13), ("CONGESTION_CONTROL", -14),
   ("ID_LIMIT", -17), ("OUT_OF_IDENTIFIERS", -18), ("KEY_UPDATE", -19),
   ("CRYPTO_BUFFER_EXCEEDED", -20), ("INVALID_ACK_RANGE", -21),
   ("OPTIMISTIC_ACK_DETECTED", -22), ("INVALID_DCID_INITIALIZATION", -23)]

/-- The errors `QUICHE_H3_ERR_*` declared by quiche/include/quiche.h:973-1039. -/
def h3header : List (String × Int) :=
  [("DONE", -1), ("BUFFER_TOO_SHORT", -2), ("INTERNAL_ERROR", -3), ("EXCESSIVE_LOAD", -4),
   ("ID_ERROR", -5), ("STREAM_CREATION_ERROR", -6), ("CLOSED_CRITICAL_STREAM", -7),
   ("MISSING_SETTINGS", -8), ("FRAME_UNEXPECTED", -9), ("FRAME_ERROR", -10),
   ("QPACK_DECOMPRESSION_FAILED", -11), ("STREAM_BLOCKED", -13), ("SETTINGS_ERROR", -14),
   ("REQUEST_REJECTED", -15), ("REQUEST_CANCELLED", -16), ("REQUEST_INCOMPLETE", -17),
   ("MESSAGE_ERROR", -18), ("CONNECT_ERROR", -19), ("VERSION_FALLBACK", -20)]

/-- The errors `QUICHE_H3_TRANSPORT_ERR_*` declared by
quiche/include/quiche.h:1044-1108: all but the last of the transport errors. -/
def h3transport : List (String × Int) :=
  [("DONE", -1001), ("BUFFER_TOO_SHORT", -1002), ("UNKNOWN_VERSION", -1003),
   ("INVALID_FRAME", -1004), ("INVALID_PACKET", -1005), ("INVALID_STATE", -1006),
   ("INVALID_STREAM_STATE", -1007), ("INVALID_TRANSPORT_PARAM", -1008),
   ("CRYPTO_FAIL", -1009), ("TLS_FAIL", -1010), ("FLOW_CONTROL", -1011),
   ("STREAM_LIMIT", -1012), ("STREAM_STOPPED", -1015), ("STREAM_RESET", -1016),
   ("FINAL_SIZE", -1013), ("CONGESTION_CONTROL", -1014), ("ID_LIMIT", -1017),
   ("OUT_OF_IDENTIFIERS", -1018), ("KEY_UPDATE", -1019),
   ("CRYPTO_BUFFER_EXCEEDED", -1020), ("INVALID_ACK_RANGE", -1021),
   ("OPTIMISTIC_ACK_DETECTED", -1022)]

/-- The name of an error, as the header writes it. -/
def cname : Err → String
  | .done => "DONE" | .bufferTooShort => "BUFFER_TOO_SHORT"
  | .unknownVersion => "UNKNOWN_VERSION" | .invalidFrame => "INVALID_FRAME"
  | .invalidPacket => "INVALID_PACKET" | .invalidState => "INVALID_STATE"
  | .invalidStreamState _ => "INVALID_STREAM_STATE"
  | .invalidTransportParam => "INVALID_TRANSPORT_PARAM" | .cryptoFail => "CRYPTO_FAIL"
  | .tlsFail => "TLS_FAIL" | .flowControl => "FLOW_CONTROL"
  | .streamLimit => "STREAM_LIMIT" | .streamStopped _ => "STREAM_STOPPED"
  | .streamReset _ => "STREAM_RESET" | .finalSize => "FINAL_SIZE"
  | .congestionControl => "CONGESTION_CONTROL" | .idLimit => "ID_LIMIT"
  | .outOfIdentifiers => "OUT_OF_IDENTIFIERS" | .keyUpdate => "KEY_UPDATE"
  | .cryptoBufferExceeded => "CRYPTO_BUFFER_EXCEEDED"
  | .invalidAckRange => "INVALID_ACK_RANGE"
  | .optimisticAckDetected => "OPTIMISTIC_ACK_DETECTED"
  | .invalidDcidInitialization => "INVALID_DCID_INITIALIZATION"

/-- The name of an error of HTTP/3 itself, as the header writes it. -/
def h3name : H3Err → String
  | .done => "DONE" | .bufferTooShort => "BUFFER_TOO_SHORT"
  | .internalError => "INTERNAL_ERROR" | .excessiveLoad => "EXCESSIVE_LOAD"
  | .idError => "ID_ERROR" | .streamCreationError => "STREAM_CREATION_ERROR"
  | .closedCriticalStream => "CLOSED_CRITICAL_STREAM"
  | .missingSettings => "MISSING_SETTINGS" | .frameUnexpected => "FRAME_UNEXPECTED"
  | .frameError => "FRAME_ERROR"
  | .qpackDecompressionFailed => "QPACK_DECOMPRESSION_FAILED"
  | .streamBlocked => "STREAM_BLOCKED" | .settingsError => "SETTINGS_ERROR"
  | .requestRejected => "REQUEST_REJECTED" | .requestCancelled => "REQUEST_CANCELLED"
  | .requestIncomplete => "REQUEST_INCOMPLETE" | .messageError => "MESSAGE_ERROR"
  | .connectError => "CONNECT_ERROR" | .versionFallback => "VERSION_FALLBACK"
  | .transport e => cname e

/-- Every error has the code the header gives it, negative, also when it is
returned as `int`; errors of different names have different codes. -/
theorem codes (e : Err) :
    header.lookup (cname e) = some e.toC ∧ e.toC < 0 ∧ asI32 e.toC = e.toC ∧
    ∀ e', e'.toC = e.toC → cname e' = cname e := by
  refine ⟨?_, ?_, ?_, ?_⟩
  · cases e <;> simp [header, cname, Err.toC, List.lookup]
  · cases e <;> simp [Err.toC]
  · cases e <;> rfl
  · intro e' h
    cases e <;> cases e' <;> first | rfl | (simp only [Err.toC] at h; omega)

/-- The same of the errors of HTTP/3, except for one error of the transport. -/
theorem h3codes_partial (e : H3Err) (h : e ≠ .transport .invalidDcidInitialization) :
    (match e with
      | .transport t => h3transport.lookup (cname t)
      | e => h3header.lookup (h3name e)) = some e.toC ∧ e.toC < 0 ∧ asI32 e.toC = e.toC := by
  refine ⟨?_, ?_, ?_⟩
  · cases e with
    | transport t =>
      cases t <;> first | exact absurd rfl h | simp [h3transport, cname, H3Err.toC, Err.toC, List.lookup]
    | _ => simp [h3header, h3name, H3Err.toC, List.lookup]
  · cases e with
    | transport t => cases t <;> simp [H3Err.toC, Err.toC]
    | _ => decide
  · cases e with
    | transport t => cases t <;> rfl
    | _ => decide

/-- Codes of HTTP/3 errors tell the errors apart, and an error of the transport
is never taken for one of HTTP/3. -/
theorem h3distinct (e e' : H3Err) (h : e.toC = e'.toC) :
    h3name e = h3name e' ∧ ((∃ t, e = .transport t) ↔ ∃ t, e' = .transport t) := by
  cases e with
  | transport t =>
    cases e' with
    | transport t' =>
      have : t.toC = t'.toC := by simp only [H3Err.toC] at h; omega
      exact ⟨(codes t').2.2.2 t this, by simp⟩
    | _ => exfalso; cases t <;> simp [H3Err.toC, Err.toC] at h
  | _ =>
    cases e' with
    | transport t => exfalso; cases t <;> simp [H3Err.toC, Err.toC] at h
    | _ => first | exact ⟨rfl, by simp⟩ | (simp [H3Err.toC] at h)

/-- "Done" of the transport is "done" of HTTP/3; every other error of the
transport has its own code less a thousand. -/
theorem converted (e : Err) :
    (H3Err.toC (.ofQuic e) = -1 ↔ e = .done) ∧
    (e ≠ .done → H3Err.toC (.ofQuic e) = e.toC - 1000) := by
  cases e <;> simp [H3Err.ofQuic, H3Err.toC, Err.toC]

/-- The header gives no name to the code returned when the transport reports an
invalid destination connection ID. -/
theorem h3codes_false :
    H3Err.toC (.ofQuic .invalidDcidInitialization) = -1023 ∧
    ∀ p ∈ h3transport ++ h3header, p.2 ≠ -1023 := by
  refine ⟨rfl, ?_⟩
  simp [h3transport, h3header]

/-! ### Return values -/

theorem asI64_small {v : Nat} (h : v < 2 ^ 63) : asI64 v = v := by
  have h1 : v % 2 ^ 64 = v := Nat.mod_eq_of_lt (by omega)
  unfold asI64
  rw [h1, if_pos h]

theorem toC_neg (e : Err) : e.toC < 0 := (codes e).2.1

/-- How a C program reads a return value. -/
inductive Reads (v : Int) : Except String Nat → Prop where
  | bytes (n : Nat) : v = n → Reads v (.ok n)
  | error (s : String) : v < 0 → (s, v) ∈ header → Reads v (.error s)

theorem reads_unique {v : Int} {a b : Except String Nat} (ha : Reads v a) (hb : Reads v b) :
    a = b := by
  cases ha with
  | bytes n h =>
    cases hb with
    | bytes m h' => have : n = m := by omega
                    rw [this]
    | error s h1 _ => omega
  | error s h1 h2 =>
    cases hb with
    | bytes m h' => omega
    | error s' h1' h2' =>
      have key : ∀ p ∈ header, ∀ q ∈ header, p.2 = q.2 → p = q := by
        simp [header]
      have := key _ h2 _ h2' rfl
      simp at this
      rw [this]

theorem toC_reads (e : Err) : Reads e.toC (.error (cname e)) := by
  refine .error _ (toC_neg e) ?_
  cases e <;> simp [header, cname, Err.toC]

/-- A function that fills a buffer of the caller: the process ends if the buffer
is larger than the return type can tell; otherwise, when the library keeps to
the buffer, the value read by the caller is the number of bytes or the name of
the error. -/
theorem filled (len : Nat) (r : Except Err Nat) (hr : ∀ n, r = .ok n → n ≤ len) :
    (sized len r = .abort ∧ 2 ^ 63 ≤ len) ∨
    ∃ v, sized len r = .ret v ∧ len < 2 ^ 63 ∧ Reads v (r.mapError cname) := by
  unfold sized
  by_cases h : len > 2 ^ 63 - 1
  · rw [if_pos h]; exact .inl ⟨rfl, by omega⟩
  · rw [if_neg h]
    refine .inr ⟨_, rfl, by omega, ?_⟩
    cases r with
    | error e => exact toC_reads e
    | ok n =>
      refine .bytes n ?_
      have := hr n rfl
      exact asI64_small (by omega)

/-- A DATAGRAM that is queued is reported with its full length. -/
theorem queued (len : Nat) (r : Except Err Unit) (h : len < 2 ^ 63) :
    ∃ v, dgramSend len r = .ret v ∧ Reads v ((r.map fun _ => len).mapError cname) := by
  unfold dgramSend
  rw [if_neg (by omega)]
  cases r with
  | error e => exact ⟨_, rfl, toC_reads e⟩
  | ok u => exact ⟨_, rfl, .bytes _ (asI64_small h)⟩

/-- A quantity at or above 2^63, which no length check guards, is read as an
error or as nothing at all: a capacity of 2^64 - 1 reads as "done". -/
theorem capacity_false : Reads (bytesRet (.ok (2 ^ 64 - 1))) (.error "DONE") := by
  have : bytesRet (.ok (2 ^ 64 - 1)) = -1 := by decide
  rw [this]
  exact toC_reads .done

theorem capacity_partial (r : Except Err Nat) (h : ∀ n, r = .ok n → n < 2 ^ 63) :
    Reads (bytesRet r) (r.mapError cname) := by
  cases r with
  | error e => exact toC_reads e
  | ok n => exact .bytes _ (asI64_small (h n rfl))

/-- Functions that return zero, or zero and one. -/
theorem status (r : Except Err Unit) (b : Except Err Bool) :
    Reads (unitRet r) ((r.map fun _ => 0).mapError cname) ∧
    Reads (boolRet b) ((b.map fun x => if x then 1 else 0).mapError cname) := by
  constructor
  · cases r with
    | error e => rw [unitRet, (codes e).2.2.1]; exact toC_reads e
    | ok u => exact .bytes 0 rfl
  · rcases b with e | _ | _
    · rw [boolRet, (codes e).2.2.1]; exact toC_reads e
    · exact .bytes 0 rfl
    · exact .bytes 1 rfl

/-- A sequence number is written exactly on success. -/
theorem sequence (r : Except Err Nat) (old : Nat) :
    Reads (seqRet r old).1 ((r.map fun _ => 0).mapError cname) ∧
    (seqRet r old).2 = (match r with | .ok v => v | .error _ => old) := by
  cases r with
  | error e => refine ⟨?_, rfl⟩; simp only [seqRet, (codes e).2.2.1]; exact toC_reads e
  | ok v => exact ⟨.bytes 0 rfl, rfl⟩

/-- The next stream: stream IDs are below 2^62, so that none of them is taken
for the end of the list. -/
theorem next_stream (s : Option Nat) (h : ∀ v, s = some v → v < 2 ^ 62) :
    (nextRet s = -1 ↔ s = none) ∧ ∀ v, nextRet s = (v : Nat) ↔ s = some v := by
  cases s with
  | none => simp [nextRet]
  | some v =>
    have := h v rfl
    have e : nextRet (some v) = v := asI64_small (by omega)
    rw [e]
    constructor
    · constructor
      · intro hh; omega
      · intro hh; cases hh
    · intro w; rw [Option.some.injEq]; omega

/-- An optional length below 2^63 reads as the length, or as "done". -/
theorem opt_length (s : Option Nat) (h : ∀ v, s = some v → v < 2 ^ 63) :
    Reads (lenRet s) (match s with | some v => .ok v | none => .error "DONE") := by
  cases s with
  | none => exact toC_reads .done
  | some v => exact .bytes _ (asI64_small (h v rfl))

/-! ### Streams -/

/-- The code a stream was stopped or reset with. -/
def peerCode : Err → Option Nat
  | .streamReset c => some c
  | .streamStopped c => some c
  | _ => none

/-- Reading a stream: what is returned, and what the two pointers hold. The end
of the stream is told only with data; the code of the peer only with the two
errors that have one. -/
theorem stream_recv (len : Nat) (r : Except Err (Nat × Bool)) (fin : Bool) (code : Nat)
    (hl : len < 2 ^ 63) (hr : ∀ n f, r = .ok (n, f) → n ≤ len) :
    ∃ v f c, streamRecv len r fin code = .ret (v, f, c) ∧
      Reads v ((r.map (·.1)).mapError cname) ∧
      (∀ n f', r = .ok (n, f') → f = f' ∧ c = code) ∧
      (∀ e, r = .error e → f = fin ∧ c = (peerCode e).getD code) := by
  unfold streamRecv
  rw [if_neg (by omega)]
  rcases r with e | ⟨n, f⟩
  · refine ⟨_, _, _, rfl, toC_reads e, by simp, ?_⟩
    intro e' h
    cases h
    refine ⟨rfl, ?_⟩
    cases e <;> rfl
  · refine ⟨_, _, _, rfl, .bytes _ (asI64_small (by have := hr n f rfl; omega)), ?_, by simp⟩
    intro n' f' h
    cases h
    exact ⟨rfl, rfl⟩

/-- Writing to a stream; a null pointer is accepted exactly with length zero. -/
theorem stream_send (isNull : Bool) (len : Nat) (r : Except Err Nat) (code : Nat)
    (hl : len < 2 ^ 63) (hr : ∀ n, r = .ok n → n ≤ len) :
    (streamSend isNull len r code = .abort ↔ isNull = true ∧ 0 < len) ∧
    ∀ v c, streamSend isNull len r code = .ret (v, c) →
      Reads v (r.mapError cname) ∧
      c = (match r with | .ok _ => code | .error e => (peerCode e).getD code) := by
  unfold streamSend
  rw [if_neg (by omega)]
  by_cases hn : (isNull && len != 0) = true
  · rw [if_pos hn]
    simp at hn
    refine ⟨by simp [hn.1]; omega, by simp⟩
  · rw [if_neg hn]
    have hn' : ¬ (isNull = true ∧ 0 < len) := by
      intro h; apply hn; simp [h.1]; omega
    rcases r with e | n
    · refine ⟨by simp [hn'], ?_⟩
      intro v c h
      simp only [Out.ret.injEq, Prod.mk.injEq] at h
      refine ⟨by rw [← h.1]; exact toC_reads e, ?_⟩
      rw [← h.2]
      cases e <;> rfl
    · refine ⟨by simp [hn'], ?_⟩
      intro v c h
      simp only [Out.ret.injEq, Prod.mk.injEq] at h
      refine ⟨?_, h.2.symm⟩
      rw [← h.1]
      exact .bytes _ (asI64_small (by have := hr n rfl; omega))

/-! ### Timeouts -/

/-- The time left in nanoseconds is exact below 2^64 - 1 nanoseconds (five
hundred years); the largest value means no timeout. -/
theorem nanos_partial (t : Option Nat) (h : ∀ d, t = some d → d < 2 ^ 64 - 1) :
    (timeoutNanos t = 2 ^ 64 - 1 ↔ t = none) ∧ ∀ d, t = some d → timeoutNanos t = d := by
  cases t with
  | none => simp [timeoutNanos]
  | some d =>
    have h1 := h d rfl
    have : timeoutNanos (some d) = d := Nat.mod_eq_of_lt (by omega)
    rw [this]
    exact ⟨by simp; omega, by simp⟩

/-- An idle timeout is at most 2^62 - 1 milliseconds, and can make the time left
wrap around: with 2^64 nanoseconds left the program is told that none is. -/
theorem nanos_false : ∃ d, d ≤ (2 ^ 62 - 1) * 1000000 ∧ timeoutNanos (some d) = 0 ∧ 0 < d :=
  ⟨2 ^ 64, by decide, by decide, by decide⟩

/-- The time left in milliseconds is rounded down. -/
theorem millis_partial (d : Nat) (h : d / 1000000 < 2 ^ 64) :
    timeoutMillis (some d) * 1000000 ≤ d ∧ d < (timeoutMillis (some d) + 1) * 1000000 := by
  have : timeoutMillis (some d) = d / 1000000 := Nat.mod_eq_of_lt h
  rw [this]
  omega

/-- So a program that waits for the milliseconds it was told, and no longer,
calls too early, whenever the time left is not whole milliseconds; with less
than one millisecond left it is told not to wait at all. -/
theorem millis_false (d : Nat) (h : d / 1000000 < 2 ^ 64) (hd : d % 1000000 ≠ 0) :
    timeoutMillis (some d) * 1000000 < d ∧ (d < 1000000 → timeoutMillis (some d) = 0) := by
  have : timeoutMillis (some d) = d / 1000000 := Nat.mod_eq_of_lt h
  rw [this]
  omega

/-! ### Packet headers -/

/-- The header fits in the buffers of the caller. -/
def Fits (h : Hdr) (i : Info) : Prop :=
  h.scid.length ≤ i.scid.len ∧ h.dcid.length ≤ i.dcid.len ∧
    ∀ t, h.token = some t → t.length ≤ i.token.len

/-- The buffer holds the data, and nothing after it has changed. -/
def Holds (b old : Buf) (data : List Nat) : Prop :=
  b.len = data.length ∧ b.mem.take b.len = data ∧ b.mem.drop b.len = old.mem.drop b.len

theorem put_holds (b : Buf) (data : List Nat) : Holds (b.put data) b data := by
  simp [Holds, Buf.put]

/-- Zero is returned exactly when the packet could be parsed and everything
fits; then the pointers hold the header. A packet that cannot be parsed changes
nothing. -/
theorem header_info (r : Except Err Hdr) (i : Info) :
    (∀ e, r = .error e → headerInfo r i = (e.toC, i)) ∧
    (∀ h, r = .ok h → ((headerInfo r i).1 = 0 ↔ Fits h i)) ∧
    (∀ h, r = .ok h → Fits h i → ∃ j, headerInfo r i = (0, j) ∧
      j.version = h.version ∧ j.ty = h.ty ∧ Holds j.scid i.scid h.scid ∧
      Holds j.dcid i.dcid h.dcid ∧ Holds j.token i.token (h.token.getD [])) := by
  refine ⟨?_, ?_, ?_⟩
  · intro e he; rw [he, headerInfo, (codes e).2.2.1]
  · intro h hh
    rw [hh]
    simp only [headerInfo, Fits]
    split
    · simp; omega
    · split
      · simp; omega
      · cases ht : h.token with
        | none => simp; omega
        | some t =>
          simp only
          split
          · simp; omega
          · simp; omega
  · intro h hh ⟨f1, f2, f3⟩
    rw [hh]
    simp only [headerInfo]
    rw [if_neg (by omega), if_neg (by omega)]
    cases ht : h.token with
    | none =>
      exact ⟨_, rfl, rfl, rfl, put_holds _ _, put_holds _ _, by simp [Holds]⟩
    | some t =>
      simp only
      rw [if_neg (by have := f3 t ht; omega)]
      exact ⟨_, rfl, rfl, rfl, put_holds _ _, put_holds _ _, put_holds _ _⟩

/-- Too small a buffer is reported with the code of "done", not with that of
"buffer too short", and the lengths of other buffers may have been replaced: a
second call with the same arguments and a packet with a longer source connection
ID then fails although the buffer is large enough. -/
theorem header_info_false :
    ∃ (h1 h2 : Hdr) (i j : Info), headerInfo (.ok h1) i = (Err.toC .done, j) ∧
      ¬ Fits h1 i ∧ Fits h2 i ∧ (headerInfo (.ok h2) i).1 = 0 ∧
      headerInfo (.ok h2) j = (Err.toC .done, j) :=
  ⟨⟨1, 1, [7], [1, 2, 3], none⟩, ⟨1, 1, [7, 8], [1], none⟩,
   ⟨0, 0, ⟨[0, 0], 2⟩, ⟨[0, 0], 2⟩, ⟨[], 0⟩⟩,
   ⟨1, 1, ⟨[7, 0], 1⟩, ⟨[0, 0], 2⟩, ⟨[], 0⟩⟩,
   by decide, by simp [Fits], by simp [Fits], by decide, by decide⟩

/-! ### Addresses -/

theorem bytes32 (a b c d : Nat) (ha : a < 256) (hb : b < 256) (hc : c < 256) (hd : d < 256) :
    wr32 (a + 256 * b + 65536 * c + 16777216 * d) = [a, b, c, d] := by
  simp only [wr32, List.cons.injEq, and_true]
  refine ⟨?_, ?_, ?_, ?_⟩ <;> omega

theorem swap16_bytes (p : Nat) : wr16 (swap16 p) = [p / 256 % 256, p % 256] := by
  have h1 : p % 256 < 256 := Nat.mod_lt _ (by decide)
  have h2 : p / 256 % 256 < 256 := Nat.mod_lt _ (by decide)
  simp only [wr16, swap16, List.cons.injEq, and_true]
  generalize p % 256 = x at *
  generalize p / 256 % 256 = y at *
  constructor <;> omega

theorem swap32_bytes (a b c d : Nat) (ha : a < 256) (hb : b < 256) (hc : c < 256)
    (hd : d < 256) :
    swap32 (a + 256 * b + 65536 * c + 16777216 * d) =
      a * 16777216 + b * 65536 + c * 256 + d := by
  have e := bytes32 a b c d ha hb hc hd
  simp only [wr32, List.cons.injEq, and_true] at e
  rw [swap32, e.1, e.2.1, e.2.2.1, e.2.2.2]

theorem port_back (p : Nat) (h : p < 65536) : swap16 (p / 256 + 256 * (p % 256)) = p := by
  have h0 : p = 256 * (p / 256) + p % 256 := (Nat.div_add_mod p 256).symm
  have h1 : p % 256 < 256 := Nat.mod_lt _ (by decide)
  have h2 : p / 256 < 256 := by omega
  generalize p % 256 = x at *
  generalize p / 256 = y at *
  rw [h0, swap16]
  have e1 : (y + 256 * x) % 256 = y := by omega
  have e2 : (y + 256 * x) / 256 % 256 = x := by omega
  rw [e1, e2]
  omega

/-- The memory written is what the system calls expect: the family, the port and
the address in network byte order, and nothing beyond the returned length. -/
theorem address_bytes (a b c d p : Nat) (out : List Nat)
    (h : (Addr.v4 a b c d p).ok) :
    addrToC (.v4 a b c d p) out =
      ([2, 0, p / 256, p % 256, a, b, c, d, 0, 0, 0, 0, 0, 0, 0, 0] ++ out.drop 16, 16) := by
  obtain ⟨ha, hb, hc, hd, hp⟩ := h
  simp only [addrToC, swap16_bytes, bytes32 a b c d ha hb hc hd]
  have : p / 256 % 256 = p / 256 := Nat.mod_eq_of_lt (by omega)
  rw [this]
  rfl

theorem address6_bytes (ip : List Nat) (p f s : Nat) (out : List Nat)
    (h : (Addr.v6 ip p f s).ok) :
    ∃ fl sc : List Nat, fl.length = 4 ∧ sc.length = 4 ∧
    addrToC (.v6 ip p f s) out =
      ([10, 0, p / 256, p % 256] ++ fl ++ ip ++ sc ++ out.drop 28, 28) := by
  obtain ⟨_, _, hp, _, _⟩ := h
  refine ⟨wr32 f, wr32 s, rfl, rfl, ?_⟩
  simp only [addrToC, swap16_bytes]
  have : p / 256 % 256 = p / 256 := Nat.mod_eq_of_lt (by omega)
  rw [this]
  rfl

/-- An address given to a C program and handed back, with the length it came
with, is the same address, whatever memory it was written to. -/
theorem address (a : Addr) (out : List Nat) (h : a.ok) :
    addrFromC (addrToC a out).1 (addrToC a out).2 = .ret a := by
  cases a with
  | v4 a b c d p =>
    rw [address_bytes a b c d p out h]
    obtain ⟨ha, hb, hc, hd, hp⟩ := h
    simp only [addrFromC, rd16, rd32, at', List.cons_append, List.getD_cons_zero,
      List.getD_cons_succ, Nat.reduceAdd, Nat.reduceMul, if_true]
    rw [swap32_bytes a b c d ha hb hc hd]
    rw [port_back p hp]
    simp only [Out.ret.injEq, Addr.v4.injEq, and_true]
    refine ⟨?_, ?_, ?_, ?_⟩ <;> omega
  | v6 ip p f s =>
    obtain ⟨hl, hb, hp, hf, hs⟩ := h
    have hp2 : p / 256 % 256 = p / 256 := Nat.mod_eq_of_lt (by omega)
    simp only [addrToC, swap16_bytes]
    simp only [wr16, wr32]
    have hd : ∀ k, (ip ++ [s % 256, s / 256 % 256, s / 65536 % 256, s / 16777216 % 256]
        ++ out.drop 28).getD (16 + k) 0 =
        ([s % 256, s / 256 % 256, s / 65536 % 256, s / 16777216 % 256] ++ out.drop 28).getD k 0 := by
      intro k
      simp only [List.getD_eq_getElem?_getD, List.append_assoc]
      rw [List.getElem?_append_right (by omega)]
      congr 2
      omega
    have e : ([2 * 5 % 256, 10 / 256 % 256] ++ [p / 256 % 256, p % 256] ++
        [f % 256, f / 256 % 256, f / 65536 % 256, f / 16777216 % 256] ++ ip ++
        [s % 256, s / 256 % 256, s / 65536 % 256, s / 16777216 % 256] ++ out.drop 28) =
        10 :: 0 :: (p / 256 % 256) :: (p % 256) :: (f % 256) :: (f / 256 % 256) ::
        (f / 65536 % 256) :: (f / 16777216 % 256) ::
        (ip ++ [s % 256, s / 256 % 256, s / 65536 % 256, s / 16777216 % 256] ++ out.drop 28) := by
      simp
    have e2 : ([10 % 256, 10 / 256 % 256] : List Nat) = [2 * 5 % 256, 10 / 256 % 256] := rfl
    rw [e2, e]
    simp only [addrFromC, rd16, rd32, at', List.getD_cons_zero, List.getD_cons_succ,
      Nat.reduceAdd, Nat.reduceMul, Nat.reduceEqDiff, if_false, if_true, List.drop_succ_cons,
      List.drop_zero]
    have h0 := hd 0
    have h1 := hd 1
    have h2 := hd 2
    have h3 := hd 3
    simp only [Nat.reduceAdd, List.cons_append, List.getD_cons_zero, List.getD_cons_succ] at h0 h1 h2 h3
    rw [h0, h1, h2, h3]
    rw [hp2, port_back p hp]
    simp only [Out.ret.injEq, Addr.v6.injEq, true_and]
    refine ⟨?_, ?_, ?_⟩
    · rw [List.append_assoc, List.take_append_of_le_length (by omega), List.take_of_length_le (by omega)]
    · omega
    · omega

/-- An address handed in with any other length ends the process, even when the
length is that of the storage; so does a family that is neither of the two. -/
theorem address_aborts (m : List Nat) (len : Nat) :
    (∃ a, addrFromC m len = .ret a) ↔
      (rd16 m 0 = 2 ∧ len = 16) ∨ (rd16 m 0 = 10 ∧ len = 28) := by
  unfold addrFromC
  split
  · rename_i h
    split <;> simp_all
  · split
    · rename_i h
      split <;> simp_all
    · simp_all

/-- An address that may be left out. -/
theorem address_optional (m : Option (List Nat)) (len : Nat) :
    addrFromC? m len = .ret none ↔ m = none ∨ len = 0 := by
  cases m with
  | none => simp [addrFromC?]
  | some m =>
    simp only [addrFromC?]
    split
    · simp_all
    · split <;> simp_all

/-- The iterator over addresses gives them in order and writes the length, when
the caller has cleared the upper half of its variable. -/
theorem iterator_partial (it : List Addr) (mem : List Nat) (old : Nat) (h : old < 2 ^ 32) :
    (addrIterNext it mem old).1 = !it.isEmpty ∧
    ∀ a rest, it = a :: rest → a.ok →
      (addrIterNext it mem old).2.2.2 = rest ∧
      addrFromC (addrIterNext it mem old).2.1 (addrIterNext it mem old).2.2.1 = .ret a := by
  cases it with
  | nil => simp [addrIterNext]
  | cons a rest =>
    refine ⟨rfl, ?_⟩
    intro a' rest' he ha
    cases he
    refine ⟨rfl, ?_⟩
    have hl : write32 old (addrToC a mem).2 = (addrToC a mem).2 := by
      have h1 : (addrToC a mem).2 < 2 ^ 32 := by cases a <;> simp [addrToC]
      have h2 : old / 2 ^ 32 = 0 := Nat.div_eq_of_lt h
      rw [write32, h2, Nat.mod_eq_of_lt h1]
      omega
    simp only [addrIterNext]
    rw [hl]
    exact address a mem ha

/-- The declaration in the header has a pointer to `size_t` where the function
writes a `socklen_t`: half of the variable keeps what it had, and the length is
wrong whenever that is not zero. -/
theorem iterator_false (a : Addr) (rest : List Addr) (mem : List Nat) (old : Nat)
    (h : 2 ^ 32 ≤ old) :
    (addrIterNext (a :: rest) mem old).2.2.1 ≠ (addrToC a mem).2 ∧
    addrFromC (addrIterNext (a :: rest) mem old).2.1 (addrIterNext (a :: rest) mem old).2.2.1
      = .abort := by
  have h1 : (addrToC a mem).2 < 2 ^ 32 := by cases a <;> simp [addrToC]
  have h2 : 1 ≤ old / 2 ^ 32 := (Nat.one_le_div_iff (by decide)).2 h
  have h3 : 2 ^ 32 ≤ (addrIterNext (a :: rest) mem old).2.2.1 := by
    simp only [addrIterNext, write32]
    omega
  refine ⟨by omega, ?_⟩
  cases hr : addrFromC (addrIterNext (a :: rest) mem old).2.1
      (addrIterNext (a :: rest) mem old).2.2.1 with
  | abort => rfl
  | ret x =>
    have := (address_aborts _ _).1 ⟨x, hr⟩
    omega

/-! ### Callbacks -/

/-- The states a callback goes through. -/
def final {σ α : Type} (cb : σ → α → σ × Int) (s : σ) (l : List α) : σ :=
  l.foldl (fun s x => (cb s x).1) s

/-- The callback is given the items in order; the loop ends at the first one for
which it returns something other than zero, and returns that. -/
theorem callbacks {σ α : Type} (cb : σ → α → σ × Int) (s : σ) (l : List α) :
    ∃ called rest, forEach cb s l = (final cb s called, called, (forEach cb s l).2.2) ∧
      l = called ++ rest ∧
      (((forEach cb s l).2.2 = 0 ∧ rest = []) ∨
       ∃ pre x, called = pre ++ [x] ∧ (cb (final cb s pre) x).2 = (forEach cb s l).2.2 ∧
         (forEach cb s l).2.2 ≠ 0) ∧
      (∀ pre x post, called = pre ++ x :: post → post ≠ [] → (cb (final cb s pre) x).2 = 0) := by
  induction l generalizing s with
  | nil => exact ⟨[], [], rfl, rfl, .inl ⟨rfl, rfl⟩, by simp⟩
  | cons x l ih =>
    by_cases h : (cb s x).2 ≠ 0
    · refine ⟨[x], l, ?_, rfl, .inr ⟨[], x, rfl, ?_, ?_⟩, ?_⟩
      · simp [forEach, h, final]
      · simp [forEach, h, final]
      · simp [forEach, h]
      · intro pre y post he hp
        cases pre with
        | nil => simp at he; exact absurd he.2.symm (by simpa using hp)
        | cons a pre => simp at he
    · obtain ⟨called, rest, h1, h2, h3, h4⟩ := ih (cb s x).1
      have h0 : (cb s x).2 = 0 := by simpa using h
      have hf : forEach cb s (x :: l) =
          ((forEach cb (cb s x).1 l).1, x :: (forEach cb (cb s x).1 l).2.1,
            (forEach cb (cb s x).1 l).2.2) := by
        simp [forEach, h0]
      refine ⟨x :: called, rest, ?_, by simp [h2], ?_, ?_⟩
      · rw [hf, h1]; rfl
      · rw [hf]
        rcases h3 with ⟨a, b⟩ | ⟨pre, y, a, b, c⟩
        · exact .inl ⟨a, b⟩
        · exact .inr ⟨x :: pre, y, by simp [a], b, c⟩
      · intro pre y post he hp
        cases pre with
        | nil =>
          simp at he
          rw [← he.1]
          exact h0
        | cons a pre =>
          simp at he
          have := h4 pre y post he.2 hp
          rw [← he.1]
          exact this

/-- A peer whose settings have not arrived cannot be told from a callback that
returned -1. -/
theorem settings_false :
    ∃ cb : Nat → Nat × Nat → Nat × Int,
      (forEachSetting cb 0 none).2.2 = (forEachSetting cb 0 (some [(6, 100)])).2.2 :=
  ⟨fun n _ => (n + 1, -1), by decide⟩

/-! ### Statistics of a path -/

/-- Every figure but one is reported, when durations are below 2^64
nanoseconds. -/
theorem path_stats_partial (paths : List PStats) (idx : Nat) (out : CStats) (s : PStats)
    (h : paths[idx]? = some s) (h1 : s.rtt < 2 ^ 64) (h2 : ∀ v, s.minRtt = some v → v < 2 ^ 64)
    (h3 : s.rttvar < 2 ^ 64) :
    ∃ o, pathStats paths idx out = (0, o) ∧
      o.validation = s.validation ∧ o.active = s.active ∧ o.recv = s.recv ∧
      o.sent = s.sent ∧ o.lost = s.lost ∧ o.retrans = s.retrans ∧
      o.totalPto = s.totalPto ∧ o.dgramRecv = s.dgramRecv ∧ o.dgramSent = s.dgramSent ∧
      o.rtt = s.rtt ∧ o.minRtt = s.minRtt.getD 0 ∧ o.rttvar = s.rttvar ∧
      o.cwnd = s.cwnd ∧ o.sentBytes = s.sentBytes ∧ o.recvBytes = s.recvBytes ∧
      o.lostBytes = s.lostBytes ∧ o.streamRetrans = s.streamRetrans ∧ o.pmtu = s.pmtu ∧
      o.deliveryRate = s.deliveryRate ∧ o.maxBandwidth = s.maxBandwidth.getD 0 ∧
      o.startupExit = s.startupExit.getD 0 := by
  have e1 : asU64 s.rtt = s.rtt := Nat.mod_eq_of_lt h1
  have e3 : asU64 s.rttvar = s.rttvar := Nat.mod_eq_of_lt h3
  have e2 : asU64 (s.minRtt.getD 0) = s.minRtt.getD 0 := by
    cases hm : s.minRtt with
    | none => rfl
    | some v => exact Nat.mod_eq_of_lt (h2 v hm)
  unfold pathStats
  rw [h]
  refine ⟨_, rfl, ?_⟩
  simp [e1, e2, e3]

/-- The largest round-trip time is never reported: the caller finds in it what
was there before the call. -/
theorem max_rtt_false (paths : List PStats) (idx : Nat) (out : CStats) :
    (pathStats paths idx out).2.maxRtt = out.maxRtt := by
  unfold pathStats
  split <;> rfl

/-- A path that does not exist: nothing is written. -/
theorem path_stats_none (paths : List PStats) (idx : Nat) (out : CStats)
    (h : paths.length ≤ idx) :
    (pathStats paths idx out).2 = out ∧ Reads (pathStats paths idx out).1 (.error "DONE") := by
  have : paths[idx]? = none := List.getElem?_eq_none h
  unfold pathStats
  rw [this]
  exact ⟨rfl, toC_reads .done⟩

/-! ### Variable-length integers -/

/-- Integers below 2^62 are written when they fit in the buffer, and read back
from it; zero is returned in the first case, the number of bytes in the second.
Larger integers end the process. -/
theorem varints (buf : Bytes) (v old : Nat) :
    (2 ^ 62 ≤ v → putVarint buf v = .abort) ∧
    (v < 2 ^ 62 → buf.length < Verif.C01.minLen v →
      ∃ r, putVarint buf v = .ret (r, buf) ∧ Reads r (.error "BUFFER_TOO_SHORT")) ∧
    (v < 2 ^ 62 → Verif.C01.minLen v ≤ buf.length →
      ∃ b, putVarint buf v = .ret (0, b) ∧ b.length = buf.length ∧
        getVarint b old = .ret ((Verif.C01.minLen v : Nat), v)) := by
  refine ⟨?_, ?_, ?_⟩
  · intro h
    simp only [putVarint, Verif.C01.varint_too_large _ v h]
  · intro h hl
    have := (Verif.C01.varint_roundtrip (Cur.withSlice buf) (by simp [Cur.WF, Cur.withSlice]) v h).1
      (by simpa [Cur.cap, Cur.withSlice] using hl)
    refine ⟨-2, ?_, toC_reads .bufferTooShort⟩
    simp only [putVarint, this]
    rfl
  · intro h hl
    obtain ⟨c', h1, h2⟩ :=
      (Verif.C01.varint_roundtrip (Cur.withSlice buf) (by simp [Cur.WF, Cur.withSlice]) v h).2
      (by simpa [Cur.cap, Cur.withSlice] using hl)
    obtain ⟨ho, hlen, _, _, hr⟩ := h2
    refine ⟨c'.buf, by simp only [putVarint, h1], hlen, ?_⟩
    have := hr [] (c'.buf.drop (Verif.C01.minLen v))
    simp only [Cur.withSlice, List.drop_zero, List.nil_append, List.take_append_drop,
      List.length_nil, Nat.zero_add, List.length_take] at this
    have hlen' : c'.buf.length = buf.length := hlen
    have hm : min (Verif.C01.minLen v) c'.buf.length = Verif.C01.minLen v := by omega
    rw [hm] at this
    have h8 : Verif.C01.minLen v ≤ 8 := by
      unfold Verif.C01.minLen; repeat' split
      all_goals omega
    simp only [Ffi.getVarint, Cur.withSlice, this]
    rw [asI64_small (by omega)]

/-- Reading from any buffer: the number of bytes read is at least one and at most
the length of the buffer, or the buffer is reported too short and the variable
of the caller left alone. -/
theorem read_varint (buf : Bytes) (old : Nat) (h : buf.length < 2 ^ 63) :
    (∃ n v : Nat, Ffi.getVarint buf old = .ret ((n : Int), v) ∧ 0 < n ∧ n ≤ buf.length ∧ v < 2 ^ 62) ∨
    ∃ r, Ffi.getVarint buf old = .ret (r, old) ∧ Reads r (.error "BUFFER_TOO_SHORT") := by
  have hg := getVarint_eq (Cur.withSlice buf) (by simp [Cur.WF, Cur.withSlice])
  have hrest : (Cur.withSlice buf).rest = buf := by simp [Cur.rest, Cur.withSlice]
  rw [hrest] at hg
  unfold Ffi.getVarint
  rw [hg]
  cases buf with
  | nil => exact .inr ⟨_, rfl, toC_reads .bufferTooShort⟩
  | cons b bs =>
    simp only [decVarint]
    have hL := varintParseLen_isLen b
    by_cases hs : (b :: bs).length < varintParseLen b
    · rw [if_pos hs]
      exact .inr ⟨_, rfl, toC_reads .bufferTooShort⟩
    · rw [if_neg hs]
      refine .inl ⟨varintParseLen b,
        beVal (List.take (varintParseLen b) (b :: bs)) % 2 ^ (8 * varintParseLen b - 2),
        ?_, ?_, by omega, ?_⟩
      · simp only [Cur.withSlice, Nat.zero_add]
        rw [asI64_small (by rcases hL with h | h | h | h <;> omega)]
      · rcases hL with h | h | h | h <;> omega
      · rcases hL with h | h | h | h <;> rw [h] <;>
          refine Nat.lt_of_lt_of_le (Nat.mod_lt _ (by decide)) (by decide)

/-! ### Concrete cases -/

example : streamRecv 100 (.error (.streamReset 77)) false 5 = .ret (-16, false, 77) := by decide
example : streamRecv 100 (.ok (40, true)) false 5 = .ret (40, true, 5) := by decide
example : streamSend true 0 (.ok 0) 5 = .ret (0, 5) := by decide
example : streamSend true 3 (.ok 0) 5 = .abort := by decide
example : timeoutMillis (some 1500000) = 1 := by decide
example : addrToC (.v4 127 0 0 1 8080) (List.replicate 128 9) =
    ([2, 0, 31, 144, 127, 0, 0, 1, 0, 0, 0, 0, 0, 0, 0, 0] ++ List.replicate 112 9, 16) := by
  decide
example : (addrIterNext [.v4 127 0 0 1 8080] [] 0xdeadbeef00000080).2.2.1 = 0xdeadbeef00000010 := by
  decide
example : putVarint [0, 0, 0] 15293 = .ret (0, [0x7b, 0xbd, 0]) := by decide +kernel
example : forEach (fun (n : Nat) (x : Nat) => (n + x, if x = 2 then 9 else 0)) 0 [1, 2, 3] =
    (3, [1, 2], 9) := by decide

end Verif.Props.C182
