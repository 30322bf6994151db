/-!
Model of the part of the example server that sends: the loop over the connections in
`/repo/apps/src/bin/quiche-server.rs:538-622` and `send_to` in `/repo/apps/src/sendto.rs`. What the
connections have to send is an input: a list of packets, one for each successful call of
`Connection::send`, after which it is done (or fails, which ends the loop likewise). The loss rate
is an input as well: whether it has risen by more than 0.1 %.
-/

namespace Verif.Apps

/-- A packet with its destination (`SendInfo::to`), or a datagram. -/
structure Pkt where
  bytes : List UInt8
  to : Nat
deriving DecidableEq

/-- `MAX_BUF_SIZE` (quiche-server.rs:52), the size of the buffer `out` (58). -/
abbrev maxBuf : Nat := 65507

/-- The fields `max_datagram_size` and `max_send_burst` of a client (quiche-server.rs:401-403). -/
structure Client where
  mds : Nat
  cap : Nat

/-- The reduction when the loss rate rises (quiche-server.rs:543-552). -/
def Client.reduce (c : Client) (rises : Bool) : Client :=
  if rises then { c with cap := max (c.cap / 4 * 3) (c.mds * 10) } else c

/-- `max_send_burst` of a round (quiche-server.rs:554-557). -/
def Client.burst (c : Client) (quantum : Nat) : Nat := min quantum c.cap / c.mds * c.mds

/-- The packets collected (quiche-server.rs:561-590), those left, and whether the last one was short;
`total` are the bytes so far. -/
def collect (mds burst total : Nat) : List Pkt → List Pkt × List Pkt × Bool
  | [] => ([], [], false)
  | p :: l =>
    if total < burst then
      if p.bytes.length < mds then ([p], l, true)
      else
        let (t, r, c) := collect mds burst (total + p.bytes.length) l
        (p :: t, r, c)
    else ([], p :: l, false)

/-- The bytes of packets in the buffer. -/
def joined (l : List Pkt) : List UInt8 := l.flatMap (·.bytes)

/-- The datagrams of a buffer (sendto.rs:112-126; with GSO the kernel does the same). `fuel` is
the number of bytes; for the segment size 0 the code would not end. -/
def split (seg : Nat) : Nat → List UInt8 → List (List UInt8)
  | 0, _ => []
  | n + 1, b => if b.isEmpty then [] else b.take seg :: split seg n (b.drop seg)

/-- What one connection brings to a round: whether the loss rate rises, `send_quantum`, its packets,
and how many datagrams the socket takes before it would block, if it would. -/
structure Job where
  client : Client
  rises : Bool
  quantum : Nat
  pkts : List Pkt
  takes : Option Nat

/-- The end of one connection's turn. -/
structure Turn where
  client : Client
  out : List Pkt
  left : List Pkt
  again : Bool
  stop : Bool

/-- One connection's turn (quiche-server.rs:543-621): `again` is `continue_write` as set here, `stop`
the `break` out of the loop over the connections. -/
def Job.turn (j : Job) : Turn :=
  let c := j.client.reduce j.rises
  let b := c.burst j.quantum
  let (t, r, short) := collect c.mds b 0 j.pkts
  let buf := joined t
  match t with
  | [] => ⟨c, [], r, short, false⟩
  | p :: _ =>
    if buf.length = 0 then ⟨c, [], r, short, false⟩
    else
      let all := (split c.mds buf.length buf).map fun x => Pkt.mk x p.to
      match j.takes with
      | some k => if k < all.length then ⟨c, all.take k, r, short, true⟩
        else if buf.length ≥ b then ⟨c, all, r, true, true⟩ else ⟨c, all, r, short, false⟩
      | none => if buf.length ≥ b then ⟨c, all, r, true, true⟩ else ⟨c, all, r, short, false⟩

/-- A round over the connections in the order of the map (quiche-server.rs:541-622): the datagrams for each
and `continue_write`. -/
def round : List Job → List (List Pkt) × Bool
  | [] => ([], false)
  | j :: l =>
    if j.turn.stop then (j.turn.out :: l.map fun _ => [], j.turn.again)
    else
      let (o, a) := round l
      (j.turn.out :: o, j.turn.again || a)

end Verif.Apps
