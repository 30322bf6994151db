import Verif.Tq.Worker

/-!
What a received message says besides its bytes: `poll_recv_and_rx_time` of
`/repo/tokio-quiche/src/quic/router/mod.rs` (Linux), and `PktInfo` of
`/repo/tokio-quiche/src/quic/io/gso.rs`, by which a reply leaves from the address it was sent to.

Fields of the system's structures are given as the bytes in memory; the host may have either order
of bytes. `putAll` is how Linux fills the space for control messages (`put_cmsg` of
net/core/scm.c, on 64 bits); the `nix` crate refuses to read messages that did not all fit
(`RecvMsg::cmsgs`). Time stamps are not interpreted.
-/

namespace Verif.Tq.Ancillary
open Verif

/-- The order of bytes of the host. -/
inductive Host where
  | little
  | big
  deriving DecidableEq, Repr

/-- The number that bytes stand for, least significant first. -/
def le : Bytes → Nat
  | [] => 0
  | b :: l => b.toNat + 256 * le l

/-- The number that bytes stand for, most significant first. -/
def be (l : Bytes) : Nat := le l.reverse

/-- The `n` bytes of a number, least significant first. -/
def leBytes : Nat → Nat → Bytes
  | 0, _ => []
  | n + 1, x => UInt8.ofNat x :: leBytes n (x / 256)

/-- An integer field read from memory. -/
def Host.read : Host → Bytes → Nat
  | .little, l => le l
  | .big, l => be l

/-- An integer of `n` bytes written to memory. -/
def Host.write : Host → Nat → Nat → Bytes
  | .little, n, x => leBytes n x
  | .big, n, x => (leBytes n x).reverse

/-- `to_be` of an integer of `n` bytes. -/
def Host.toBe : Host → Nat → Nat → Nat
  | .little, n, x => be (leBytes n x)
  | .big, _, x => x

/-- `SocketAddr`: the octets of the address, the port; flow information and scope of IPv6. -/
inductive Addr where
  | v4 (ip : Bytes) (port : Nat)
  | v6 (ip : Bytes) (port flow scope : Nat)
  deriving DecidableEq, Repr

/-- `sockaddr_in`: port and address, as in memory. -/
structure Sin where
  port : Bytes
  addr : Bytes
  deriving DecidableEq, Repr

/-- `sockaddr_in6`. -/
structure Sin6 where
  port : Bytes
  flow : Bytes
  addr : Bytes
  scope : Bytes
  deriving DecidableEq, Repr

/-- The original destination, IPv4 (router/mod.rs:540-553); `Ipv4Addr::from(u32)` takes the most
significant byte first. -/
def orig4 (h : Host) (s : Sin) : Addr :=
  .v4 (leBytes 4 (h.toBe 4 (h.read s.addr))).reverse (h.toBe 2 (h.read s.port))

/-- The same, IPv6 (router/mod.rs:559-581). -/
def orig6 (h : Host) (s : Sin6) : Addr :=
  .v6 s.addr (h.toBe 2 (h.read s.port)) (h.toBe 4 (h.read s.flow)) (h.toBe 4 (h.read s.scope))

/-- How the standard library makes a `SocketAddr` of what the system says (the address the socket is
bound to, `local_addr`). -/
def std4 (_h : Host) (s : Sin) : Addr := .v4 s.addr (be s.port)
def std6 (h : Host) (s : Sin6) : Addr := .v6 s.addr (be s.port) (h.read s.flow) (h.read s.scope)

/-- `resolve_dst_addr` (router/mod.rs:768-776). -/
def resolve (loc parsed : Addr) : Option Addr := if loc ≠ parsed then some parsed else none

/-- Control messages (router/mod.rs:516-615). -/
inductive Cmsg where
  | rxqOvfl (c : Nat)
  | timestamp (t : Nat)
  | gro (n : Nat)
  | dst4 (s : Sin)
  | dst6 (s : Sin6)
  | pktinfo4
  | pktinfo6
  /-- a message `nix` does not know: level, type, bytes -/
  | other (level type : Nat) (data : Bytes)
  deriving DecidableEq, Repr

abbrev solSocket : Nat := 1
abbrev soMark : Nat := 36

/-- What the messages say (router/mod.rs:499-503). -/
structure Info where
  rx : Option Nat := none
  gro : Option Nat := none
  dst : Option Addr := none
  mark : Option Bytes := none
  deriving DecidableEq, Repr

/-- What the router keeps: its address, the last count of drops (`u32`) and the counter. -/
structure Router where
  loc : Addr
  drops : Nat := 0
  metric : Nat := 0
  deriving DecidableEq, Repr

/-- The count of drops (router/mod.rs:518-525). `checked`: whether an overflow is a panic (`none`). -/
def Router.dropped (r : Router) (checked : Bool) (c : Nat) : Option Router :=
  if c ≠ r.drops then
    if checked = true ∧ c < r.drops then none
    else some { r with metric := r.metric + (c + 2 ^ 32 - r.drops) % 2 ^ 32, drops := c }
  else some r

/-- One message (router/mod.rs:517-615). -/
def Router.cmsg (h : Host) (checked : Bool) (r : Router) (i : Info) : Cmsg → Option (Router × Info)
  | .rxqOvfl c => (r.dropped checked c).map fun r => (r, i)
  | .timestamp t => some (r, { i with rx := some t })
  | .gro n => some (r, { i with gro := some n })
  | .dst4 s => some (r, { i with dst := resolve r.loc (orig4 h s) })
  | .dst6 s => some (r, { i with dst := resolve r.loc (orig6 h s) })
  | .pktinfo4 => some (r, i)
  | .pktinfo6 => some (r, i)
  | .other level type data =>
    if level = solSocket ∧ type = soMark then
      if data.length = 4 then some (r, { i with mark := some data }) else some (r, i)
    else some (r, i)

/-- All messages. -/
def Router.cmsgs (h : Host) (checked : Bool) : Router → Info → List Cmsg → Option (Router × Info)
  | r, i, [] => some (r, i)
  | r, i, c :: l =>
    match r.cmsg h checked i c with
    | none => none
    | some x => Router.cmsgs h checked x.1 x.2 l

/-! ### The space for control messages -/

/-- The bytes of a message: a number of 4, a time of 16, addresses. -/
def Cmsg.len : Cmsg → Nat
  | .rxqOvfl _ => 4
  | .timestamp _ => 16
  | .gro _ => 4
  | .dst4 _ => 16
  | .dst6 _ => 28
  | .pktinfo4 => 12
  | .pktinfo6 => 20
  | .other _ _ d => d.length

/-- `CMSG_SPACE`: a header of 16 bytes, and padding to 8. -/
def space (n : Nat) : Nat := 16 + (n + 7) / 8 * 8

/-- The space the router has (router/mod.rs:217-224). -/
def room : Nat := space 4 + space 16 + space 2 + space 16 + space 28 + space 4

/-- Whether all messages fit, as the system puts them one after the other: each needs its header and
its bytes, and takes its padding too if there is room. -/
def putAll : Nat → List Cmsg → Bool
  | _, [] => true
  | n, c :: l => if n < 16 + c.len then false else putAll (n - min (space c.len) n) l

/-- What is received: bytes and control messages; what goes on (router/mod.rs:471-624, 644-677). -/
structure Got where
  pkt : Worker.Incoming
  loc : Addr
  info : Info
  deriving DecidableEq, Repr

/-- One received message. `none`: a panic. -/
def Router.recv (h : Host) (checked : Bool) (r : Router) (buf : Bytes) (cs : List Cmsg) : Option (Router × Got) :=
  if putAll room cs = true then
    (r.cmsgs h checked {} cs).map fun x => (x.1, ⟨⟨buf, x.2.gro⟩, x.2.dst.getD r.loc, x.2⟩)
  else some (r, ⟨⟨buf, none⟩, r.loc, {}⟩)

/-! ### Sending -/

/-- `PktInfo` (gso.rs:78-82): the bytes of the source address in memory. -/
inductive PktInfo where
  | v4 (addr : Bytes)
  | v6 (addr : Bytes)
  deriving DecidableEq, Repr

/-- `from_socket_addr` (gso.rs:93-114). -/
def PktInfo.of (h : Host) : Addr → PktInfo
  | .v4 ip _ => .v4 (h.write 4 (h.read ip))
  | .v6 ip _ _ _ => .v6 ip

end Verif.Tq.Ancillary
