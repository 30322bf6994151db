import Verif.Codec.Fields
import Verif.Frame.Model

/-!
The wire format of frames as in RFC 9000, section 19 and RFC 9221, section 4,
independent of the parser and serialiser.
-/

namespace Verif.Frame
open Verif

/-- The ranges of packet numbers described by the ACK range fields following the
first one (RFC 9000, section 19.3.1): inclusive, in descending order, over the
integers. `smallest` is the smallest number of the preceding range. -/
def ackedFrom (smallest : Int) : List (Nat × Nat) → List (Int × Int)
  | [] => []
  | (gap, len) :: t =>
    (smallest - gap - 2 - len, smallest - gap - 2) :: ackedFrom (smallest - gap - 2 - len) t

/-- The ranges described by the fields of an ACK frame. -/
def acked (largest first : Nat) (blocks : List (Nat × Nat)) : List (Int × Int) :=
  ((largest : Int) - first, (largest : Int)) :: ackedFrom ((largest : Int) - first) blocks

/-- A half-open range as an inclusive range of integers. -/
def incl (r : Rng) : Int × Int := (r.1, (r.2 : Int) - 1)

/-- The fields of the ACK ranges. -/
def blockFields (blocks : List (Nat × Nat)) : List Field :=
  blocks.flatMap (fun b => [.int b.1, .int b.2])

/-- The fields of the ECN counts. -/
def ecnFields : Option Ecn → List Field
  | none => []
  | some e => [.int e.ect0, .int e.ect1, .int e.ce]

/-- Body of an ACK frame. -/
def AckBody (fs : List Field) (f : Frame) (withEcn : Bool) : Prop :=
  ∃ largest delay first blocks r ecn,
    fs = [.int largest, .int delay, .int blocks.length, .int first] ++ blockFields blocks ++ ecnFields ecn ∧
    r.ranges.reverse.map incl = acked largest first blocks ∧
    ecn.isSome = withEcn ∧
    f = .ack delay r ecn

/-- Body of a STREAM frame: with or without offset and length; without length it
extends to the end of the packet. -/
def StreamBody (offBit lenBit fin : Bool) (fs : List Field) (tail : Bytes) (f : Frame) : Prop :=
  ∃ id off data,
    fs = [.int id] ++ (if offBit then [.int off] else []) ++
      (if lenBit then [.int data.length] else []) ++ [.raw data] ∧
    (offBit = false → off = 0) ∧ (lenBit = false → tail = []) ∧
    off + data.length < 2 ^ 62 ∧
    f = .stream id off data fin

/-- What follows frame type `ty`: fields `fs`, then `tail`. -/
def Body (ty : Nat) (fs : List Field) (tail : Bytes) (f : Frame) : Prop :=
  match ty with
  | 0x00 => ∃ n, fs = [.raw (List.replicate n 0)] ∧ tail.head? ≠ some 0 ∧ f = .padding (n + 1)
  | 0x01 => fs = [] ∧ f = .ping none
  | 0x02 => AckBody fs f false
  | 0x03 => AckBody fs f true
  | 0x04 => ∃ id code size, fs = [.int id, .int code, .int size] ∧ f = .resetStream id code size
  | 0x05 => ∃ id code, fs = [.int id, .int code] ∧ f = .stopSending id code
  | 0x06 => ∃ off data, fs = [.int off, .int data.length, .raw data] ∧ f = .crypto off data
  | 0x07 => ∃ token, token ≠ [] ∧ fs = [.int token.length, .raw token] ∧ f = .newToken token
  | 0x08 => StreamBody false false false fs tail f
  | 0x09 => StreamBody false false true fs tail f
  | 0x0a => StreamBody false true false fs tail f
  | 0x0b => StreamBody false true true fs tail f
  | 0x0c => StreamBody true false false fs tail f
  | 0x0d => StreamBody true false true fs tail f
  | 0x0e => StreamBody true true false fs tail f
  | 0x0f => StreamBody true true true fs tail f
  | 0x10 => ∃ max, fs = [.int max] ∧ f = .maxData max
  | 0x11 => ∃ id max, fs = [.int id, .int max] ∧ f = .maxStreamData id max
  | 0x12 => ∃ max, fs = [.int max] ∧ f = .maxStreamsBidi max
  | 0x13 => ∃ max, fs = [.int max] ∧ f = .maxStreamsUni max
  | 0x14 => ∃ limit, fs = [.int limit] ∧ f = .dataBlocked limit
  | 0x15 => ∃ id limit, fs = [.int id, .int limit] ∧ f = .streamDataBlocked id limit
  | 0x16 => ∃ limit, fs = [.int limit] ∧ f = .streamsBlockedBidi limit
  | 0x17 => ∃ limit, fs = [.int limit] ∧ f = .streamsBlockedUni limit
  | 0x18 => ∃ seq retire cid token, 1 ≤ cid.length ∧ cid.length ≤ 20 ∧ token.length = 16 ∧
      fs = [.int seq, .int retire, .fix 1 cid.length, .raw cid, .raw token] ∧
      f = .newConnectionId seq retire cid token
  | 0x19 => ∃ seq, fs = [.int seq] ∧ f = .retireConnectionId seq
  | 0x1a => ∃ data, data.length = 8 ∧ fs = [.raw data] ∧ f = .pathChallenge data
  | 0x1b => ∃ data, data.length = 8 ∧ fs = [.raw data] ∧ f = .pathResponse data
  | 0x1c => ∃ code ft reason, fs = [.int code, .int ft, .int reason.length, .raw reason] ∧
      f = .connectionClose code ft reason
  | 0x1d => ∃ code reason, fs = [.int code, .int reason.length, .raw reason] ∧
      f = .applicationClose code reason
  | 0x1e => fs = [] ∧ f = .handshakeDone
  | 0x30 => ∃ data, fs = [.raw data] ∧ tail = [] ∧ f = .datagram data
  | 0x31 => ∃ data, fs = [.int data.length, .raw data] ∧ f = .datagram data
  | _ => False

/-- `bs`, followed by `tail`, is a frame on the wire. -/
def OnWire (f : Frame) (bs tail : Bytes) : Prop :=
  ∃ ty fs, Spells (.int ty :: fs) bs ∧ Body ty fs tail f

/-- The same frame: sets of packet numbers are compared by their ranges, and the
note about the size of a probe is not on the wire. -/
def Same : Frame → Frame → Prop
  | .ack d r e, .ack d' r' e' => d = d' ∧ r.ranges = r'.ranges ∧ e = e'
  | .ping _, .ping _ => True
  | f, g => f = g

/-- The frames permitted in a packet (RFC 9000, sections 12.4 and 12.5; in 0-RTT
packets additionally no transport CONNECTION_CLOSE). -/
def Permitted : PktType → Frame → Prop
  | .short, _ => True
  | .zeroRTT, f => match f with
    | .ack .. | .crypto .. | .handshakeDone | .newToken _ | .pathResponse _
    | .retireConnectionId _ | .connectionClose .. => False
    | _ => True
  | _, f => match f with
    | .padding _ | .ping _ | .ack .. | .crypto .. | .connectionClose .. => True
    | _ => False

/-- A set of packet numbers as an ACK frame can report it: not empty, in order,
not adjacent, no empty range, below 2^62. -/
def AckOk (l : List Rng) : Prop :=
  l ≠ [] ∧ l.Pairwise (fun a b => a.2 < b.1) ∧ ∀ r ∈ l, r.1 < r.2 ∧ r.2 ≤ 2 ^ 62

/-- Frames whose fields are in their protocol range. Data carried in CRYPTO, STREAM
and DATAGRAM frames is shorter than 2^14 bytes. -/
def InRange : Frame → Prop
  | .padding n => 1 ≤ n
  | .ping _ => True
  | .ack delay r ecn => delay < 2 ^ 62 ∧ AckOk r.ranges ∧
      ∀ e, ecn = some e → e.ect0 < 2 ^ 62 ∧ e.ect1 < 2 ^ 62 ∧ e.ce < 2 ^ 62
  | .resetStream id code size => id < 2 ^ 62 ∧ code < 2 ^ 62 ∧ size < 2 ^ 62
  | .stopSending id code => id < 2 ^ 62 ∧ code < 2 ^ 62
  | .crypto off data => off < 2 ^ 62 ∧ data.length < 2 ^ 14
  | .newToken token => token ≠ [] ∧ token.length < 2 ^ 62
  | .stream id off data _ => id < 2 ^ 62 ∧ data.length < 2 ^ 14 ∧ off + data.length < 2 ^ 62
  | .maxData n | .maxStreamsBidi n | .maxStreamsUni n | .dataBlocked n | .streamsBlockedBidi n
  | .streamsBlockedUni n | .retireConnectionId n => n < 2 ^ 62
  | .maxStreamData id n | .streamDataBlocked id n => id < 2 ^ 62 ∧ n < 2 ^ 62
  | .newConnectionId seq retire cid token => seq < 2 ^ 62 ∧ retire < 2 ^ 62 ∧
      1 ≤ cid.length ∧ cid.length ≤ 20 ∧ token.length = 16
  | .pathChallenge data | .pathResponse data => data.length = 8
  | .connectionClose code ft reason => code < 2 ^ 62 ∧ ft < 2 ^ 62 ∧ reason.length < 2 ^ 62
  | .applicationClose code reason => code < 2 ^ 62 ∧ reason.length < 2 ^ 62
  | .handshakeDone => True
  | .datagram data => data.length < 2 ^ 14
  | .cryptoHeader .. | .streamHeader .. | .datagramHeader _ => False

/-- What may follow: PADDING is delimited by the first byte that is not zero. -/
def TailOk : Frame → Bytes → Prop
  | .padding _, tail => tail.head? ≠ some 0
  | _, _ => True

end Verif.Frame
