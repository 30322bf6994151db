import Verif.Path.Model

/-!
Model of what `/repo/quiche/src/lib.rs` does with paths and connection IDs: receiving a
datagram, sending one, timeouts, and the calls of the application.

What a packet contains and which packets are sent is not computed but given, so the
theorems hold for all of it: a received packet is the list of its frames that matter here,
a packet to send its size and the path frames that fit in it. Packets that cannot be
parsed or decrypted, and repeated ones, are not in the list; the code ignores the rest of
the datagram after one. Instants and challenge data are given as well. The model starts
when the connection IDs of the handshake are known (`got_peer_conn_id`).
-/

namespace Verif.Path
open Verif
open Verif.Cid (Ids Err)

inductive Frame where
  | newCid (cid : Bytes) (seq token retirePriorTo : Nat)
  | retire (seq : Nat)
  | challenge (data : Nat)
  | response (data : Nat)
  /-- PADDING, which is all that makes a packet with it probing. -/
  | padding
  /-- A frame that does not touch paths; it makes its packet non-probing. -/
  | other
  deriving DecidableEq, Repr

/-- `Frame::probing` (frame.rs:825-833). -/
def Frame.probing : Frame → Bool
  | .newCid .. | .challenge _ | .response _ | .padding => true
  | .retire _ | .other => false

/-- What may be in a 0-RTT packet (frame.rs:337-363). -/
def Frame.inEarly : Frame → Bool
  | .retire _ | .response _ => false
  | _ => true

inductive Pkt where
  /-- An Initial or Handshake packet; its frames do not touch paths. -/
  | long (handshake : Bool) (size : Nat)
  /-- A 0-RTT packet. -/
  | early (frames : List Frame) (newest : Bool) (size : Nat)
  /-- A 1-RTT packet sent to `cid`, and whether its number is the largest of the
  non-probing packets so far. It takes the rest of the datagram. -/
  | short (cid : Bytes) (frames : List Frame) (newest : Bool)
  deriving DecidableEq, Repr

/-- A 0-RTT packet kept until the key is known, with the addresses of its datagram. -/
structure Kept where
  addr : Nat × Nat
  frames : List Frame
  newest : Bool
  size : Nat
  deriving DecidableEq, Repr

structure Conn where
  ids : Ids
  paths : PathMap
  server : Bool
  /-- `max_amplification_factor`. -/
  factor : Nat
  /-- `disable_dcid_reuse`. -/
  noReuse : Bool
  /-- `path_challenge_recv_max_queue_len`. -/
  recvMax : Nat
  established : Bool := false
  /-- Whether the 0-RTT key is known (`crypto_0rtt_open`). -/
  earlyKey : Bool := false
  /-- `undecryptable_pkts`: 0-RTT packets kept until the key is known. -/
  kept : List Kept := []
  /-- Whether an error was raised or the connection is gone. -/
  closed : Bool := false
  /-- The number for the next path. -/
  nextUid : Nat := 1
  deriving DecidableEq, Repr

namespace Conn

/-- The result of a fallible function that may have changed the connection. -/
abbrev Res (α : Type) := Except Err α × Conn

/-- The paths of the destination connection IDs just retired (lib.rs:8715-8743). -/
def repath (c : Conn) : List (Nat × Nat) → Res Unit
  | [] => (.ok (), c)
  | (seq, pid) :: l =>
    match c.paths.get pid with
    | none => (.error .invalidState, c)
    | some p =>
      if p.dcid ≠ some seq then repath c l
      else
        match c.ids.lowestAvailable with
        | some n =>
          let c := { c with paths := c.paths.upd pid fun p => { p with dcid := some n } }
          match c.ids.linkDcid n pid with
          | (.error e, ids) => (.error e, { c with ids := ids })
          | (.ok _, ids) => repath { c with ids := ids } l
        | none => repath { c with paths := c.paths.upd pid fun p => { p with dcid := none } } l

/-- A NEW_CONNECTION_ID frame (lib.rs:8695-8747). -/
def onNewCid (c : Conn) (cid : Bytes) (seq token rpt : Nat) : Res Unit :=
  if c.ids.zeroLenDcid then (.error .invalidState, c)
  else
    let r := c.ids.newDcid cid seq token rpt
    match repath { c with ids := r.2.2 } r.2.1 with
    | (.error e, c) => (.error e, c)
    | (.ok _, c) => (r.1, c)

/-- A RETIRE_CONNECTION_ID frame (lib.rs:8750-8767). -/
def onRetire (c : Conn) (seq : Nat) (cid : Bytes) : Res Unit :=
  if c.ids.zeroLenScid then (.error .invalidState, c)
  else
    match c.ids.retireScid seq cid with
    | (.error e, ids) => (.error e, { c with ids := ids })
    | (.ok none, ids) => (.ok (), { c with ids := ids })
    | (.ok (some pid), ids) =>
      let c := { c with ids := ids }
      match c.paths.get pid with
      | none => (.error .invalidState, c)
      | some p =>
        if p.scid = some seq then (.ok (), { c with paths := c.paths.upd pid fun p => { p with scid := none } })
        else (.ok (), c)

/-- `process_frame` (lib.rs:8695-8780). -/
def onFrame (c : Conn) (pid : Nat) (cid : Bytes) : Frame → Res Unit
  | .newCid cid' seq token rpt => c.onNewCid cid' seq token rpt
  | .retire seq => c.onRetire seq cid
  | .challenge d =>
    match c.paths.get pid with
    | none => (.error .invalidState, c)
    | some _ => (.ok (), { c with paths := c.paths.upd pid (·.onChallenge d) })
  | .response d =>
    match c.paths.onResponse d with
    | .error e => (.error e, c)
    | .ok m => (.ok (), { c with paths := m })
  | .padding | .other => (.ok (), c)

/-- The loop over the frames of a packet (lib.rs:3443-3463). -/
def onFrames (c : Conn) (pid : Nat) (cid : Bytes) (early : Bool) : List Frame → Res Unit
  | [] => (.ok (), c)
  | f :: fs =>
    if early = true ∧ f.inEarly = false then (.error .invalidFrame, c)
    else
      match c.onFrame pid cid f with
      | (.error e, c) => (.error e, c)
      | (.ok _, c) => onFrames c pid cid early fs

/-- Paths without destination connection ID get one (lib.rs:3723-3744). -/
def allocate (c : Conn) : List Nat → Res Unit
  | [] => (.ok (), c)
  | pid :: l =>
    match c.paths.get pid with
    | none => allocate c l
    | some p =>
      if p.dcid.isSome then allocate c l
      else if c.ids.zeroLenDcid then allocate { c with paths := c.paths.upd pid fun p => { p with dcid := some 0 } } l
      else
        match c.ids.lowestAvailable with
        | none => (.ok (), c)
        | some n =>
          match c.ids.linkDcid n pid with
          | (.error e, ids) => (.error e, { c with ids := ids })
          | (.ok _, ids) => allocate { c with ids := ids, paths := c.paths.upd pid fun p => { p with dcid := some n } } l

/-- `set_active_path` (lib.rs:9132-9147). -/
def setActive (c : Conn) (pid : Nat) : Res Unit :=
  let r := c.paths.setActive pid
  (r.1, { c with paths := r.2 })

/-- The destination connection ID of the old path is used again on the new one if it has
none (lib.rs:9161-9167). -/
def reuseDcid (c : Conn) (old new : Nat) : Res Unit :=
  match c.paths.get new with
  | none => (.error .invalidState, c)
  | some p =>
    if p.dcid.isNone ∧ c.noReuse = false then
      match c.paths.get old with
      | none => (.error .invalidState, c)
      | some q => (.ok (), { c with paths := c.paths.upd new fun p => { p with dcid := q.dcid } })
    else (.ok (), c)

/-- `on_peer_migrated` (lib.rs:9150-9171). -/
def onPeerMigrated (c : Conn) (new : Nat) : Res Unit :=
  match c.paths.activeId with
  | none => (.error .invalidState, c)
  | some old =>
    if old = new then (.ok (), c)
    else
      match c.setActive new with
      | (.error e, c) => (.error e, c)
      | (.ok _, c) => c.reuseDcid old new

/-- Did the peer migrate? (lib.rs:3762-3777) -/
def migration (c : Conn) (pid : Nat) (newest : Bool) : Res Unit :=
  match c.paths.activeId with
  | none => (.error .invalidState, c)
  | some active =>
    if c.server = true ∧ pid ≠ active ∧ newest = true then c.onPeerMigrated pid else (.ok (), c)

/-- A known path sees a source connection ID (lib.rs:8984-9022). -/
def seenOn (c : Conn) (pid seq : Nat) (cid : Bytes) : Res Nat :=
  match c.paths.get pid with
  | none => (.error .invalidState, c)
  | some p =>
    if ((p.scid.bind c.ids.scids.get).map (·.cid)) = some cid then (.ok pid, c)
    else
      let c := { c with paths := c.paths.upd pid fun p => { p with scid := some seq } }
      match c.ids.linkScid seq pid with
      | (.error e, ids) => (.error e, { c with ids := ids })
      | (.ok _, ids) => (.ok pid, { c with ids := ids })

/-- The path a packet from a new address creates (lib.rs:9045-9059). -/
def newPath (c : Conn) (a : Nat × Nat) (seq left : Nat) : Path :=
  { Path.new c.nextUid a.1 a.2 c.recvMax false with maxSend := left * c.factor, scid := some seq, requested := true }

/-- The end of `get_or_create_recv_path_id` (lib.rs:9067-9092). -/
def noteReuse (c : Conn) (pid seq : Nat) (a : Nat × Nat) : Option Path → Res Nat
  | some old => (.ok pid, { c with paths := c.paths.notify (.reusedScid seq old.laddr old.paddr a.1 a.2) })
  | none =>
    match c.ids.linkScid seq pid with
    | (.error e, ids) => (.error e, { c with ids := ids })
    | (.ok _, ids) => (.ok pid, { c with ids := ids })

/-- A packet from a new address, with the path its connection ID was used on
(lib.rs:9045-9094). An error of `insert_path` is `Done`, which drops the packet: `none`. -/
def createRecv (c : Conn) (a : Nat × Nat) (seq left : Nat) (old : Option Path) : Option (Res Nat) :=
  match c.paths.insertPath (c.newPath a seq left) c.server with
  | none => none
  | some (pid, m) => some ({ c with paths := m, nextUid := c.nextUid + 1 }.noteReuse pid seq a old)

/-- `get_or_create_recv_path_id` (lib.rs:8977-9095) for a packet to `cid`, `left` bytes
before the end of its datagram. -/
def recvPath (c : Conn) (pid : Option Nat) (a : Nat × Nat) (cid : Bytes) (left : Nat) : Option (Res Nat) :=
  match c.ids.scids.inner.find? (·.cid == cid) with
  | none => some (.error .invalidState, c)
  | some e =>
    match pid with
    | some pid => some (c.seenOn pid e.seq cid)
    | none =>
      match if c.ids.zeroLenScid then none else e.path with
      | none => c.createRecv a e.seq left none
      | some old =>
        match c.paths.get old with
        | none => some (.error .invalidState, c)
        | some p => c.createRecv a e.seq left (some p)

/-- The rest of `recv_single` for a packet on path `pid` (lib.rs:3427-3803). -/
def process (c : Conn) (pid : Nat) (cid : Bytes) (early : Bool) (frames : List Frame) (newest : Bool) : Res Unit :=
  match c.onFrames pid cid early frames with
  | (.error e, c) => (.error e, c)
  | (.ok _, c) =>
    match c.allocate (List.range c.paths.slots.length) with
    | (.error e, c) => (.error e, c)
    | (.ok _, c) => if frames.all (·.probing) then (.ok (), c) else c.migration pid newest

/-- A Handshake packet of the client verifies its address (lib.rs:3797-3801). -/
def verify (c : Conn) (pid : Nat) (handshake : Bool) : Conn :=
  if c.server = true ∧ handshake = true then { c with paths := c.paths.upd pid fun p => { p with verified := true } } else c

/-- A packet other than 1-RTT is taken to be on the active path (lib.rs:3338-3341). -/
def recvLong (c : Conn) (handshake early : Bool) (frames : List Frame) (newest : Bool) : Res Unit :=
  match c.paths.activeId with
  | none => (.error .invalidState, c)
  | some pid =>
    match c.process pid [] early frames newest with
    | (.error e, c) => (.error e, c)
    | (.ok _, c) => (.ok (), c.verify pid handshake)

/-- The capacity of the queue of packets kept (lib.rs:480). -/
abbrev maxKept : Nat := 10

/-- `recv_single`: `none` if the packet is dropped with the rest of the datagram, else the
number of bytes read. -/
def recvSingle (c : Conn) (pid : Option Nat) (a : Nat × Nat) (left : Nat) : Pkt → Option (Res Nat)
  | .long hs size =>
    match c.recvLong hs false [.other] true with
    | (.error e, c) => some (.error e, c)
    | (.ok _, c) => some (.ok size, c)
  | .early frames newest size =>
    if c.earlyKey then
      match c.recvLong false true frames newest with
      | (.error e, c) => some (.error e, c)
      | (.ok _, c) => some (.ok size, c)
    else if c.kept.length < maxKept ∧ c.established = false then
      some (.ok size, { c with kept := c.kept ++ [{ addr := a, frames := frames, newest := newest, size := size }] })
    else none
  | .short cid frames newest =>
    match c.recvPath pid a cid left with
    | none => none
    | some (.error e, c) => some (.error e, c)
    | some (.ok pid, c) =>
      match c.process pid cid false frames newest with
      | (.error e, c) => some (.error e, c)
      | (.ok _, c) => some (.ok left, c)

/-- The loop over the packets of a datagram (lib.rs:2852-2892): whether there was an error. -/
def recvLoop (c : Conn) (pid : Option Nat) (a : Nat × Nat) (left : Nat) : List Pkt → Bool × Conn
  | [] => (false, c)
  | pkt :: l =>
    if c.closed = true ∨ left = 0 then (false, c)
    else
      match c.recvSingle pid a left pkt with
      | none => (false, c)
      | some (.error _, c) => (true, { c with closed := true })
      | some (.ok n, c) => recvLoop c pid a (left - n) l

/-- The credit for a datagram of a client whose address is not verified (lib.rs:2831-2845). -/
def credit (c : Conn) (pid len : Nat) : Conn :=
  { c with paths := c.paths.upd pid fun p =>
      if c.server = true ∧ p.verified = false then { p with maxSend := p.maxSend + len * c.factor } else p }

/-- `recv` (lib.rs:2820-2892) without what it does with the packets kept. -/
def recvOne (c : Conn) (a : Nat × Nat) (len : Nat) (pkts : List Pkt) : Bool × Conn :=
  if len = 0 then (false, c)
  else
    match c.paths.fromAddrs a with
    | some pid =>
      match c.paths.get pid with
      | none => (true, c)
      | some _ => (c.credit pid len).recvLoop (some pid) a len pkts
    | none => if c.server then c.recvLoop none a len pkts else (false, c)

/-- `process_undecrypted_0rtt_packets` (lib.rs:2901-2918): each packet goes through `recv`
again. -/
def replay (c : Conn) : List Kept → Conn
  | [] => c
  | k :: l =>
    match c.recvOne k.addr k.size [.early k.frames k.newest k.size] with
    | (true, c) => c
    | (false, c) => replay c l

/-- The packets kept are processed once the key is known. -/
def flush (c : Conn) : Conn := if c.earlyKey then { c with kept := [] }.replay c.kept else c

/-- `recv` (lib.rs:2820-2899). -/
def recv (c : Conn) (a : Nat × Nat) (len : Nat) (pkts : List Pkt) : Conn :=
  match c.recvOne a len pkts with
  | (true, c) => c
  | (false, c) => c.flush

/-- Whether a path has the addresses asked for (lib.rs:9105-9106). -/
def matches_ (p : Path) (src dst : Option Nat) : Bool :=
  (src.isNone || decide (some p.laddr = src)) && (dst.isNone || decide (some p.paddr = dst))

/-- `get_send_path_id` (lib.rs:9098-9129): the error is `Done` or `InvalidState`. -/
def sendPath (c : Conn) (src dst : Option Nat) : Option Nat :=
  match if c.established then c.paths.find fun p => matches_ p src dst && p.dcid.isSome && p.probingRequired else none with
  | some pid => some pid
  | none =>
    match c.paths.activeId with
    | none => none
    | some pid =>
      match c.paths.get pid with
      | none => none
      | some p => if matches_ p src dst then some pid else none

/-- A packet to send: its type, its size, how many PATH_RESPONSE frames were taken from the
queue for it and the data of the PATH_CHALLENGE that fits, if one is to be sent. -/
structure Out where
  initial : Bool
  short : Bool
  size : Nat
  responses : Nat := 0
  chal : Option Nat := none
  deriving DecidableEq, Repr

/-- The effect of a packet on its path (lib.rs:4650-4681, 5482-5497). -/
def sent (p : Path) (o : Out) (now : Nat) : Path :=
  let p := if o.short then { p with received := p.received.drop o.responses } else p
  let p := match if o.short && p.requested then o.chal else none with
    | some d => p.addChallenge { data := d, size := o.size, time := now }
    | none => p
  { p with maxSend := p.maxSend - o.size }

/-- Whether the connection IDs of a path can be put in a packet (lib.rs:4402-4413). -/
def header (c : Conn) (p : Path) (short : Bool) : Except Err Unit :=
  match p.dcid with
  | none => .error .outOfIdentifiers
  | some d =>
    match c.ids.dcids.get d with
    | none => .error .invalidState
    | some _ =>
      match p.scid with
      | none => if short then .ok () else .error .invalidState
      | some s =>
        match c.ids.scids.get s with
        | none => .error .invalidState
        | some _ => .ok ()

/-- `send_single` (lib.rs:4103-5520); `none` is `Done`. -/
def sendSingle (c : Conn) (pid left : Nat) (o : Out) (now : Nat) : Option (Res Unit) :=
  if o.size = 0 ∨ o.size > left then none
  else
    match c.paths.get pid with
    | none => some (.error .invalidState, c)
    | some p =>
      match c.header p o.short with
      | .error e => some (.error e, c)
      | .ok _ => some (.ok (), { c with paths := c.paths.upd pid (sent · o now) })

/-- The loop of `send_on_path` (lib.rs:4031-4071): what was written, what is left and
whether there was an Initial packet. -/
def sendLoop (c : Conn) (pid : Nat) (src dst : Option Nat) (now : Nat) (done left : Nat) (initial : Bool) :
    List Out → Res (Nat × Nat × Bool)
  | [] => (.ok (done, left, initial), c)
  | o :: l =>
    if left = 0 then (.ok (done, left, initial), c)
    else
      match c.sendSingle pid left o now with
      | none => (.ok (done, left, initial), c)
      | some (.error e, c) => (.error e, c)
      | some (.ok _, c) =>
        let done := done + o.size
        let left := left - o.size
        let initial := initial || o.initial
        if o.short then (.ok (done, left, initial), c)
        else if src.isSome && dst.isSome then sendLoop c pid src dst now done left initial l
        else
          match c.sendPath src dst with
          | none => (.error .invalidState, c)
          | some q => if q = pid then sendLoop c pid src dst now done left initial l else (.ok (done, left, initial), c)

/-- The limit on what a server sends to an address not verified (lib.rs:4024-4028). -/
def budget (c : Conn) (p : Path) (outLen : Nat) : Nat :=
  if p.verified = false ∧ c.server = true then min outLen p.maxSend else outLen

/-- The padding after an Initial packet (lib.rs:4079-4087). -/
def padLen (done left : Nat) (initial : Bool) : Nat :=
  if initial = true ∧ left > 0 ∧ done < minInitial then min left (minInitial - done) else 0

/-- The path `send_on_path` uses (lib.rs:3994-4001). -/
def pickPath (c : Conn) (src dst : Option Nat) : Option Nat :=
  match src, dst with
  | some f, some t => c.paths.fromAddrs (f, t)
  | _, _ => c.sendPath src dst

/-- `send_on_path` (lib.rs:3956-4101) with a buffer of `outLen` bytes, already cut to the
largest datagram: the path and the size of the datagram, with the part of it that is
padding; `none` if nothing is sent. -/
def send (c : Conn) (src dst : Option Nat) (outLen now : Nat) (pkts : List Out) : Option (Nat × Nat × Nat) × Conn :=
  let c := c.flush
  match c.pickPath src dst with
  | none => (none, c)
  | some pid =>
    match c.paths.get pid with
    | none => (none, c)
    | some p =>
      match c.sendLoop pid src dst now 0 (c.budget p outLen) false pkts with
      | (.error _, c) => (none, c)
      | (.ok (done, left, initial), c) =>
        if done = 0 then (none, c) else (some (pid, done + padLen done left initial, padLen done left initial), c)

/-- The timers of some paths expired: path and its round-trip time (lib.rs:7111-7136). -/
def expire (c : Conn) (now : Nat) : List (Nat × Nat) → Conn
  | [] => c
  | (pid, rtt) :: l => expire { c with paths := c.paths.upd pid (·.onTimeout now rtt c.server) } now l

/-- If the active path failed, another one is taken (lib.rs:7140-7156). -/
def fallback (c : Conn) : Conn :=
  match c.paths.activeId with
  | some _ => c
  | none =>
    match c.paths.candidate with
    | none => { c with closed := true }
    | some pid =>
      match c.setActive pid with
      | (.error _, c) => { c with closed := true }
      | (.ok _, c) => c

/-- `on_timeout` (lib.rs:7109-7157). -/
def onTimeout (c : Conn) (now : Nat) (due : List (Nat × Nat)) : Conn :=
  let c := c.expire now due
  { c with paths := c.paths.notifyFailed }.fallback

/-- `create_path_on_client` (lib.rs:9174-9214). -/
def createClient (c : Conn) (a : Nat × Nat) : Res Nat :=
  if c.server then (.error .invalidState, c)
  else if c.ids.zeroLenScid = false ∧ (c.ids.scids.inner.filter (·.path.isNone)).length = 0 then (.error .outOfIdentifiers, c)
  else
    match if c.ids.zeroLenDcid then some 0 else c.ids.lowestAvailable with
    | none => (.error .outOfIdentifiers, c)
    | some n =>
      match c.paths.insertPath { Path.new c.nextUid a.1 a.2 c.recvMax false with dcid := some n } false with
      | none => (.error .outOfIdentifiers, c)
      | some (pid, m) =>
        let c := { c with paths := m, nextUid := c.nextUid + 1 }
        match c.ids.linkDcid n pid with
        | (.error e, ids) => (.error e, { c with ids := ids })
        | (.ok _, ids) => (.ok pid, { c with ids := ids })

/-- The path to probe or create. -/
def findOrCreate (c : Conn) (a : Nat × Nat) : Res Nat :=
  match c.paths.fromAddrs a with
  | some pid => (.ok pid, c)
  | none => c.createClient a

/-- `probe_path` (lib.rs:7188-7201). -/
def probePath (c : Conn) (a : Nat × Nat) : Res Unit :=
  match c.findOrCreate a with
  | (.error e, c) => (.error e, c)
  | (.ok pid, c) =>
    match c.paths.get pid with
    | none => (.error .invalidState, c)
    | some p =>
      let c := { c with paths := c.paths.upd pid (·.request) }
      if p.dcid.isNone then (.error .invalidState, c) else (.ok (), c)

/-- `migrate` to a path that exists (lib.rs:7239-7273). -/
def takeDcid (c : Conn) (pid : Nat) (p : Path) : Res Unit :=
  if c.ids.zeroLenScid = false ∧ p.scid.isNone ∧ (c.ids.scids.inner.filter (·.path.isNone)).length = 0 then
    (.error .outOfIdentifiers, c)
  else if p.dcid.isSome then (.ok (), c)
  else
    match c.ids.lowestAvailable with
    | none => (.error .outOfIdentifiers, c)
    | some n =>
      match c.ids.linkDcid n pid with
      | (.error e, ids) => (.error e, { c with ids := ids })
      | (.ok _, ids) => (.ok (), { c with ids := ids, paths := c.paths.upd pid fun p => { p with dcid := some n } })

/-- `migrate` (lib.rs:7230-7290). -/
def migrate (c : Conn) (a : Nat × Nat) : Res Unit :=
  if c.server then (.error .invalidState, c)
  else
    match c.paths.fromAddrs a with
    | some pid =>
      match c.paths.get pid with
      | none => (.error .invalidState, c)
      | some p =>
        if p.isActive then (.ok (), c)
        else
          match c.takeDcid pid p with
          | (.error e, c) => (.error e, c)
          | (.ok _, c) => c.setActive pid
    | none =>
      match c.createClient a with
      | (.error e, c) => (.error e, c)
      | (.ok pid, c) => c.setActive pid

/-- Whether a path other than `active` can be used (lib.rs:7399-7404). -/
def otherUsable (c : Conn) (active : Nat) : Bool :=
  c.paths.slots.zipIdx.any fun x => x.2 != active && x.1.any (·.usable)

/-- The path of a connection ID just retired takes another one (lib.rs:7409-7420). -/
def replaceDcid (c : Conn) (pid : Nat) : Res Unit :=
  match c.paths.get pid with
  | none => (.error .invalidState, c)
  | some _ =>
    match c.ids.lowestAvailable with
    | none => (.ok (), { c with paths := c.paths.upd pid fun p => { p with dcid := none } })
    | some n =>
      match c.ids.linkDcid n pid with
      | (.error e, ids) => (.error e, { c with ids := ids })
      | (.ok _, ids) => (.ok (), { c with ids := ids, paths := c.paths.upd pid fun p => { p with dcid := some n } })

/-- `retire_dcid` (lib.rs:7386-7424). -/
def retireDcid (c : Conn) (seq : Nat) : Res Unit :=
  if c.ids.zeroLenDcid then (.error .invalidState, c)
  else
    match c.paths.activeId with
    | none => (.error .invalidState, c)
    | some active =>
      if (c.paths.get active).bind (·.dcid) = some seq ∧ c.ids.lowestAvailable = none ∧ c.otherUsable active = false then
        (.error .outOfIdentifiers, c)
      else
        match c.ids.retireDcid seq with
        | (.error e, ids) => (.error e, { c with ids := ids })
        | (.ok none, ids) => (.ok (), { c with ids := ids })
        | (.ok (some pid), ids) => { c with ids := ids }.replaceDcid pid

end Conn

/-- A connection between two addresses. `verified` says whether a Retry was sent. -/
def Conn.start (server verified : Bool) (a : Nat × Nat) (limit factor recvMax : Nat) (noReuse : Bool) (scid dcid : Bytes)
    (stoken dtoken : Option Nat) : Conn :=
  { ids := (Cid.new limit scid 0 stoken).setInitialDcid dcid dtoken (some 0)
    paths := PathMap.new { Path.new 0 a.1 a.2 recvMax true with verified := verified, peerVerified := server } limit server
    server := server, factor := factor, noReuse := noReuse, recvMax := recvMax }

end Verif.Path
