import Verif.Octets.Model
/-!
Model of the C interface (`/repo/quiche/src/ffi.rs`, `/repo/quiche/src/h3/ffi.rs`):
how results of the library become C return values and writes through pointers.

The library call behind each function is a parameter (its `Result`). Machine:
64-bit little-endian Linux (`size_t`, `ssize_t` of 8 bytes, `socklen_t` and
`int` of 4 bytes, `AF_INET` = 2, `AF_INET6` = 10). A panic in an `extern "C"`
function aborts the process (`Out.abort`). Not modelled: validity of the
caller's pointers, ownership (`*_free`), file names, windows and BSD variants.
-/

namespace Verif.Ffi

/-- `Error` (quiche/src/error.rs:37-124). -/
inductive Err where
  | done | bufferTooShort | unknownVersion | invalidFrame | invalidPacket
  | invalidState | invalidStreamState (id : Nat) | invalidTransportParam
  | cryptoFail | tlsFail | flowControl | streamLimit
  | streamStopped (code : Nat) | streamReset (code : Nat)
  | finalSize | congestionControl | idLimit | outOfIdentifiers | keyUpdate
  | cryptoBufferExceeded | invalidAckRange | optimisticAckDetected
  | invalidDcidInitialization
  deriving DecidableEq, Repr

/-- `Error::to_c` (quiche/src/error.rs:215-241). -/
def Err.toC : Err → Int
  | .done => -1
  | .bufferTooShort => -2
  | .unknownVersion => -3
  | .invalidFrame => -4
  | .invalidPacket => -5
  | .invalidState => -6
  | .invalidStreamState _ => -7
  | .invalidTransportParam => -8
  | .cryptoFail => -9
  | .tlsFail => -10
  | .flowControl => -11
  | .streamLimit => -12
  | .finalSize => -13
  | .congestionControl => -14
  | .streamStopped _ => -15
  | .streamReset _ => -16
  | .idLimit => -17
  | .outOfIdentifiers => -18
  | .keyUpdate => -19
  | .cryptoBufferExceeded => -20
  | .invalidAckRange => -21
  | .optimisticAckDetected => -22
  | .invalidDcidInitialization => -23

/-- `h3::Error` (quiche/src/h3/mod.rs, the enum of `to_c` at 520-545). -/
inductive H3Err where
  | done | bufferTooShort | internalError | excessiveLoad | idError
  | streamCreationError | closedCriticalStream | missingSettings
  | frameUnexpected | frameError | qpackDecompressionFailed | streamBlocked
  | settingsError | requestRejected | requestCancelled | requestIncomplete
  | messageError | connectError | versionFallback
  | transport (e : Err)
  deriving DecidableEq, Repr

/-- `h3::Error::to_c` (quiche/src/h3/mod.rs:520-545). -/
def H3Err.toC : H3Err → Int
  | .done => -1
  | .bufferTooShort => -2
  | .internalError => -3
  | .excessiveLoad => -4
  | .idError => -5
  | .streamCreationError => -6
  | .closedCriticalStream => -7
  | .missingSettings => -8
  | .frameUnexpected => -9
  | .frameError => -10
  | .qpackDecompressionFailed => -11
  | .streamBlocked => -13
  | .settingsError => -14
  | .requestRejected => -15
  | .requestCancelled => -16
  | .requestIncomplete => -17
  | .messageError => -18
  | .connectError => -19
  | .versionFallback => -20
  | .transport e => e.toC - 1000

/-- `From<super::Error> for h3::Error` (quiche/src/h3/mod.rs:560-568). -/
def H3Err.ofQuic : Err → H3Err
  | .done => .done
  | e => .transport e

/-- `v as ssize_t`, `v as i64` of an unsigned 64-bit value. -/
def asI64 (v : Nat) : Int :=
  if v % 2 ^ 64 < 2 ^ 63 then (v % 2 ^ 64 : Nat) else ((v % 2 ^ 64 : Nat) : Int) - 2 ^ 64

/-- `v as c_int` of a signed 64-bit value. -/
def asI32 (v : Int) : Int :=
  if v % 2 ^ 32 < 2 ^ 31 then v % 2 ^ 32 else v % 2 ^ 32 - 2 ^ 32

/-- `v as u64` of a wider unsigned value. -/
def asU64 (v : Nat) : Nat := v % 2 ^ 64

/-- What a call from C leads to. -/
inductive Out (α : Type) where
  | ret (a : α)
  | abort
  deriving DecidableEq, Repr

/-- Functions returning `ssize_t` bytes or an error with no check of a length:
`quiche_conn_stream_capacity` (quiche/src/ffi.rs:1011-1019),
`quiche_negotiate_version` (581-598), `quiche_retry` (606-629). -/
def bytesRet : Except Err Nat → Int
  | .ok v => asI64 v
  | .error e => e.toC

/-- The check of the length of the caller's buffer (quiche/src/ffi.rs:854-856)
and the functions that return a number of bytes: `quiche_conn_recv` (851-866),
`quiche_conn_dgram_recv` (1578-1594). -/
def sized (len : Nat) (r : Except Err Nat) : Out Int :=
  if len > 2 ^ 63 - 1 then .abort else .ret (bytesRet r)

/-- `quiche_conn_dgram_send` (quiche/src/ffi.rs:1561-1575): the length of the
caller's buffer is returned. -/
def dgramSend (len : Nat) (r : Except Err Unit) : Out Int :=
  if len > 2 ^ 63 - 1 then .abort
  else match r with
    | .ok _ => .ret (asI64 len)
    | .error e => .ret e.toC

/-- Functions that return `int`, zero on success, such as
`quiche_conn_stream_priority` (quiche/src/ffi.rs:989-997). -/
def unitRet : Except Err Unit → Int
  | .ok _ => 0
  | .error e => asI32 e.toC

/-- `quiche_conn_stream_writable` (quiche/src/ffi.rs:1034-1044) and
`quiche_conn_is_path_validated` (1773-1783). -/
def boolRet : Except Err Bool → Int
  | .ok true => 1
  | .ok false => 0
  | .error e => asI32 e.toC

/-- Functions that write a sequence number and return zero:
`quiche_conn_new_scid` (quiche/src/ffi.rs:1678-1699), `quiche_conn_probe_path`
(1786-1799), `quiche_conn_migrate` (1816-1829). `old` is what the pointer holds
before the call. -/
def seqRet (r : Except Err Nat) (old : Nat) : Int × Nat :=
  match r with
  | .ok v => (0, v)
  | .error e => (asI32 e.toC, old)

/-- `quiche_conn_stream_readable_next`, `quiche_conn_stream_writable_next`
(quiche/src/ffi.rs:1029-1031, 1047-1049). -/
def nextRet : Option Nat → Int
  | some v => asI64 v
  | none => -1

/-- `quiche_conn_dgram_max_writable_len`, `quiche_conn_dgram_recv_front_len`
(quiche/src/ffi.rs:1517-1534) and the maximum DATAGRAM frame size of
`quiche_conn_peer_transport_params` (1437-1441). -/
def lenRet : Option Nat → Int
  | some v => asI64 v
  | none => Err.toC .done

/-- `quiche_conn_stream_recv` (quiche/src/ffi.rs:930-956). `fin` and `code` are
what the two pointers hold before the call. -/
def streamRecv (len : Nat) (r : Except Err (Nat × Bool)) (fin : Bool) (code : Nat) :
    Out (Int × Bool × Nat) :=
  if len > 2 ^ 63 - 1 then .abort
  else match r with
    | .ok (n, f) => .ret (asI64 n, f, code)
    | .error e =>
      let code := match e with
        | .streamReset c => c
        | .streamStopped c => c
        | _ => code
      .ret (e.toC, fin, code)

/-- `quiche_conn_stream_send` (quiche/src/ffi.rs:959-986). `isNull`: the buffer
is the null pointer. -/
def streamSend (isNull : Bool) (len : Nat) (r : Except Err Nat) (code : Nat) :
    Out (Int × Nat) :=
  if len > 2 ^ 63 - 1 then .abort
  else if isNull && len != 0 then .abort
  else match r with
    | .ok n => .ret (asI64 n, code)
    | .error e =>
      let code := match e with
        | .streamReset c => c
        | .streamStopped c => c
        | _ => code
      .ret (e.toC, code)

/-- `quiche_conn_timeout_as_nanos` (quiche/src/ffi.rs:1100-1106); the time left
is in nanoseconds. -/
def timeoutNanos : Option Nat → Nat
  | some d => asU64 d
  | none => 2 ^ 64 - 1

/-- `quiche_conn_timeout_as_millis` (quiche/src/ffi.rs:1109-1115). -/
def timeoutMillis : Option Nat → Nat
  | some d => asU64 (d / 1000000)
  | none => 2 ^ 64 - 1

/-- A buffer of the caller with its length, both in and out. -/
structure Buf where
  mem : List Nat
  len : Nat
  deriving DecidableEq, Repr

/-- The fields of a parsed packet header that are reported
(quiche/src/ffi.rs:475-520). -/
structure Hdr where
  version : Nat
  ty : Nat
  scid : List Nat
  dcid : List Nat
  token : Option (List Nat)
  deriving DecidableEq, Repr

/-- What the pointers of `quiche_header_info` hold. -/
structure Info where
  version : Nat
  ty : Nat
  scid : Buf
  dcid : Buf
  token : Buf
  deriving DecidableEq, Repr

/-- `copy_from_slice` into the front of the buffer, then the length. -/
def Buf.put (b : Buf) (data : List Nat) : Buf :=
  { mem := data ++ b.mem.drop data.length, len := data.length }

/-- `quiche_header_info` (quiche/src/ffi.rs:464-526). -/
def headerInfo (r : Except Err Hdr) (i : Info) : Int × Info :=
  match r with
  | .error e => (asI32 e.toC, i)
  | .ok h =>
    let i := { i with version := h.version, ty := h.ty }
    if i.scid.len < h.scid.length then (-1, i)
    else
      let i := { i with scid := i.scid.put h.scid }
      if i.dcid.len < h.dcid.length then (-1, i)
      else
        let i := { i with dcid := i.dcid.put h.dcid }
        match h.token with
        | some t =>
          if i.token.len < t.length then (-1, i)
          else (0, { i with token := i.token.put t })
        | none => (0, { i with token := { i.token with len := 0 } })

/-- `SocketAddr`. The octets of an IPv4 address; the sixteen octets of an IPv6
address, its flow information and its scope. -/
inductive Addr where
  | v4 (a b c d : Nat) (port : Nat)
  | v6 (ip : List Nat) (port flow scope : Nat)
  deriving DecidableEq, Repr

/-- The address is one that the Rust types can hold. -/
def Addr.ok : Addr → Prop
  | .v4 a b c d p => a < 256 ∧ b < 256 ∧ c < 256 ∧ d < 256 ∧ p < 65536
  | .v6 ip p f s =>
    ip.length = 16 ∧ (∀ x ∈ ip, x < 256) ∧ p < 65536 ∧ f < 2 ^ 32 ∧ s < 2 ^ 32

/-- Bytes of a 16-bit value in memory. -/
def wr16 (v : Nat) : List Nat := [v % 256, v / 256 % 256]

/-- Bytes of a 32-bit value in memory. -/
def wr32 (v : Nat) : List Nat :=
  [v % 256, v / 256 % 256, v / 65536 % 256, v / 16777216 % 256]

/-- A byte of memory. -/
def at' (m : List Nat) (i : Nat) : Nat := m.getD i 0

/-- A 16-bit value read from memory. -/
def rd16 (m : List Nat) (i : Nat) : Nat := at' m i + 256 * at' m (i + 1)

/-- A 32-bit value read from memory. -/
def rd32 (m : List Nat) (i : Nat) : Nat :=
  at' m i + 256 * at' m (i + 1) + 65536 * at' m (i + 2) + 16777216 * at' m (i + 3)

/-- `u16::to_be`, `u16::from_be`. -/
def swap16 (v : Nat) : Nat := v % 256 * 256 + v / 256 % 256

/-- `u32::from_be`. -/
def swap32 (v : Nat) : Nat :=
  v % 256 * 16777216 + v / 256 % 256 * 65536 + v / 65536 % 256 * 256 + v / 16777216 % 256

/-- `std_addr_to_c` (quiche/src/ffi.rs:2072-2159): the memory of the caller's
`sockaddr_storage` afterwards, and the length returned. The fields of
`sockaddr_in` are at 0, 2, 4 and 8; those of `sockaddr_in6` at 0, 2, 4, 8, 24. -/
def addrToC (a : Addr) (out : List Nat) : List Nat × Nat :=
  match a with
  | .v4 a b c d p =>
    -- from_ne_bytes
    let s := a + 256 * b + 65536 * c + 16777216 * d
    (wr16 2 ++ wr16 (swap16 p) ++ wr32 s ++ List.replicate 8 0 ++ out.drop 16, 16)
  | .v6 ip p f s =>
    (wr16 10 ++ wr16 (swap16 p) ++ wr32 f ++ ip ++ wr32 s ++ out.drop 28, 28)

/-- `std_addr_from_c` (quiche/src/ffi.rs:2013-2070). -/
def addrFromC (m : List Nat) (len : Nat) : Out Addr :=
  if rd16 m 0 = 2 then
    if len = 16 then
      let v := swap32 (rd32 m 4)
      .ret (.v4 (v / 16777216 % 256) (v / 65536 % 256) (v / 256 % 256) (v % 256)
        (swap16 (rd16 m 2)))
    else .abort
  else if rd16 m 0 = 10 then
    if len = 28 then
      .ret (.v6 ((m.drop 8).take 16) (swap16 (rd16 m 2)) (rd32 m 4) (rd32 m 24))
    else .abort
  else .abort

/-- `optional_std_addr_from_c` (quiche/src/ffi.rs:2003-2011). -/
def addrFromC? (m : Option (List Nat)) (len : Nat) : Out (Option Addr) :=
  match m with
  | none => .ret none
  | some m =>
    if len = 0 then .ret none
    else match addrFromC m len with
      | .ret a => .ret (some a)
      | .abort => .abort

/-- The write of a `socklen_t` through a pointer to 8 bytes of memory: only the
four low-order bytes change. `quiche_socket_addr_iter_next` takes `*mut
socklen_t` (quiche/src/ffi.rs:1753-1763) and is declared to C with
`size_t *peer_len` (quiche/include/quiche.h:945). -/
def write32 (old v : Nat) : Nat := old / 2 ^ 32 * 2 ^ 32 + v % 2 ^ 32

/-- `quiche_socket_addr_iter_next` as seen by a caller that follows the header:
the value returned, the address, and the `size_t` it passed. -/
def addrIterNext (it : List Addr) (mem : List Nat) (peerLen : Nat) :
    Bool × List Nat × Nat × List Addr :=
  match it with
  | [] => (false, mem, peerLen, [])
  | a :: rest =>
    (true, (addrToC a mem).1, write32 peerLen (addrToC a mem).2, rest)

/-- The loop of `quiche_h3_event_for_each_header` and of
`quiche_h3_for_each_setting` (quiche/src/h3/ffi.rs:164-197, 106-126): the
callback and its argument, the state it leaves, the items it was given, and the
value returned. -/
def forEach {σ α : Type} (cb : σ → α → σ × Int) : σ → List α → σ × List α × Int
  | s, [] => (s, [], 0)
  | s, x :: rest =>
    let (s', rc) := cb s x
    if rc ≠ 0 then (s', [x], rc)
    else
      let (s'', called, r) := forEach cb s' rest
      (s'', x :: called, r)

/-- `quiche_h3_for_each_setting` (quiche/src/h3/ffi.rs:106-126). -/
def forEachSetting {σ : Type} (cb : σ → Nat × Nat → σ × Int) (s : σ)
    (raw : Option (List (Nat × Nat))) : σ × List (Nat × Nat) × Int :=
  match raw with
  | some l => forEach cb s l
  | none => (s, [], -1)

/-- The statistics of a path (quiche/src/path.rs, `PathStats`), without its
addresses. Durations in nanoseconds. -/
structure PStats where
  validation : Int
  active : Bool
  recv : Nat
  sent : Nat
  lost : Nat
  retrans : Nat
  totalPto : Nat
  dgramRecv : Nat
  dgramSent : Nat
  rtt : Nat
  minRtt : Option Nat
  maxRtt : Option Nat
  rttvar : Nat
  cwnd : Nat
  sentBytes : Nat
  recvBytes : Nat
  lostBytes : Nat
  streamRetrans : Nat
  pmtu : Nat
  deliveryRate : Nat
  maxBandwidth : Option Nat
  startupExit : Option Nat
  deriving DecidableEq, Repr

/-- `PathStats` of the C interface (quiche/src/ffi.rs:1443-1471), without the
addresses. -/
structure CStats where
  validation : Int
  active : Bool
  recv : Nat
  sent : Nat
  lost : Nat
  retrans : Nat
  totalPto : Nat
  dgramRecv : Nat
  dgramSent : Nat
  rtt : Nat
  minRtt : Nat
  maxRtt : Nat
  rttvar : Nat
  cwnd : Nat
  sentBytes : Nat
  recvBytes : Nat
  lostBytes : Nat
  streamRetrans : Nat
  pmtu : Nat
  deliveryRate : Nat
  maxBandwidth : Nat
  startupExit : Nat
  deriving DecidableEq, Repr

/-- `quiche_conn_path_stats` (quiche/src/ffi.rs:1475-1509): the assignments, in
order. -/
def pathStats (paths : List PStats) (idx : Nat) (out : CStats) : Int × CStats :=
  match paths[idx]? with
  | none => (asI32 (Err.toC .done), out)
  | some s =>
    (0, { out with
      validation := s.validation
      active := s.active
      recv := s.recv
      sent := s.sent
      lost := s.lost
      retrans := s.retrans
      totalPto := s.totalPto
      dgramRecv := s.dgramRecv
      dgramSent := s.dgramSent
      rtt := asU64 s.rtt
      minRtt := asU64 (s.minRtt.getD 0)
      rttvar := asU64 s.rttvar
      cwnd := s.cwnd
      sentBytes := s.sentBytes
      recvBytes := s.recvBytes
      lostBytes := s.lostBytes
      streamRetrans := s.streamRetrans
      pmtu := s.pmtu
      deliveryRate := s.deliveryRate
      maxBandwidth := s.maxBandwidth.getD 0
      startupExit := s.startupExit.getD 0 })

/-- `quiche_put_varint` (quiche/src/ffi.rs:1968-1982): the value returned and
the buffer afterwards. -/
def putVarint (buf : Bytes) (v : Nat) : Out (Int × Bytes) :=
  match (Cur.withSlice buf).putVarint v with
  | (.ok _, c) => .ret (0, c.buf)
  | (.error .tooShort, c) => .ret (asI32 (Err.toC .bufferTooShort), c.buf)
  | (.error .panic, _) => .abort

/-- `quiche_get_varint` (quiche/src/ffi.rs:1985-2001): the value returned and
what the pointer holds afterwards. -/
def getVarint (buf : Bytes) (old : Nat) : Out (Int × Nat) :=
  match (Cur.withSlice buf).getVarint with
  | (.ok v, c) => .ret (asI64 c.off, v)
  | (.error .tooShort, _) => .ret (Err.toC .bufferTooShort, old)
  | (.error .panic, _) => .abort

end Verif.Ffi
