import Verif.Packet.HdrLemmas

/-!
Model of `/repo/tokio-quiche/src/quic/connection/map.rs` and of how
`/repo/tokio-quiche/src/quic/router/mod.rs` finds the connection a datagram is for. A
`BTreeMap` is a function to `Option`; a connection (the sending end of its queue) is a number.
-/

namespace Verif.Tq
open Verif

/-- `u64::from_le_bytes` of a chunk, padded with zeros (map.rs:79-87). -/
def le : Bytes → Nat
  | [] => 0
  | b :: t => b.toNat + 256 * le t

/-- `MAX_CONN_ID_LEN` (quiche/src/lib.rs:446) and `CONN_ID_USABLE_LEN` (map.rs:36-43):
`min (3 * 8 - 1) (min 20 255)`. -/
abbrev idLen : Nat := 20

/-- `CidOwned` (map.rs:55-66). -/
inductive Key where
  | generic (b : Bytes)
  | optimized (q0 q1 q2 : Nat)
  deriving DecidableEq, Repr

/-- `impl From<&ConnectionId> for CidOwned` (map.rs:68-97). The `u64`s are `Nat`s; the three of
them hold 24 bytes, of which the last one is for the length. -/
def key (cid : Bytes) : Key :=
  if cid.length > idLen then .generic cid
  else .optimized (le (cid.take 8)) (le ((cid.drop 8).take 8)) (le ((cid.drop 16).take 8) ||| (cid.length <<< 56))

theorem le_lt (b : Bytes) : le b < 256 ^ b.length := by
  induction b with
  | nil => simp [le]
  | cons x t ih =>
    simp only [le, List.length_cons, Nat.pow_succ]
    have := x.toNat_lt
    omega

theorem le_inj {a b : Bytes} (hl : a.length = b.length) (h : le a = le b) : a = b := by
  induction a generalizing b with
  | nil => cases b <;> simp_all
  | cons x t ih =>
    cases b with
    | nil => simp at hl
    | cons y u =>
      simp only [le] at h
      have hx := x.toNat_lt
      have hy := y.toNat_lt
      have h1 : x.toNat = y.toNat := by omega
      have h2 : le t = le u := by omega
      rw [ih (by simpa using hl) h2, UInt8.toNat_inj.mp h1]

theorem last_eq (cid : Bytes) (h : cid.length ≤ 20) :
    le ((cid.drop 16).take 8) ||| (cid.length <<< 56) = cid.length * 2 ^ 56 + le ((cid.drop 16).take 8) ∧ le ((cid.drop 16).take 8) < 2 ^ 56 := by
  have hlt : le ((cid.drop 16).take 8) < 2 ^ 56 := by
    have h1 := le_lt ((cid.drop 16).take 8)
    have h2 : ((cid.drop 16).take 8).length ≤ 4 := by simp; omega
    have h3 : 256 ^ ((cid.drop 16).take 8).length ≤ 256 ^ 4 := Nat.pow_le_pow_right (by omega) h2
    omega
  refine ⟨?_, hlt⟩
  rw [Nat.or_comm, ← Nat.shiftLeft_add_eq_or_of_lt hlt, Nat.shiftLeft_eq]

/-- Different connection IDs have different keys. -/
theorem key_inj {a b : Bytes} (h : key a = key b) : a = b := by
  unfold key at h
  split at h <;> split at h
  · injection h
  · cases h
  · cases h
  · rename_i ha hb
    simp only [idLen, Nat.not_lt] at ha hb
    injection h with h0 h1 h2
    obtain ⟨ea, la⟩ := last_eq a ha
    obtain ⟨eb, lb⟩ := last_eq b hb
    rw [ea, eb] at h2
    have hl : a.length = b.length := by omega
    have h3 : le ((a.drop 16).take 8) = le ((b.drop 16).take 8) := by omega
    have e0 := le_inj (by simp [hl]) h0
    have e1 := le_inj (by simp [hl]) h1
    have e2 := le_inj (by simp [hl]) h3
    have d : ∀ c : Bytes, c.length ≤ 20 → c = c.take 8 ++ ((c.drop 8).take 8 ++ (c.drop 16).take 8) := by
      intro c hc
      have t : (c.drop 16).take 8 = (c.drop 8).drop 8 := by
        rw [List.drop_drop]
        exact List.take_of_length_le (by simp; omega)
      rw [t, List.take_append_drop, List.take_append_drop]
    rw [d a ha, d b hb, e0, e1, e2]

/-- `quic_id_map` (map.rs:104-107). -/
abbrev CMap := Key → Option Nat

namespace CMap

/-- `BTreeMap::insert`. -/
def put (m : CMap) (k : Key) (c : Nat) : CMap := fun x => if x = k then some c else m x

/-- `map_cid` (map.rs:119-125). -/
def mapCid (m : CMap) (existing new : Bytes) : CMap :=
  match m (key existing) with
  | some c => m.put (key new) c
  | none => m

/-- `unmap_cid` (map.rs:127-129). -/
def unmapCid (m : CMap) (cid : Bytes) : CMap := fun x => if x = key cid then none else m x

end CMap

/-- `short_dcid` (router/mod.rs:733-741). -/
def shortDcid (buf : Bytes) : Option Bytes :=
  match buf with
  | [] => none
  | b :: t => if b.toNat >>> 7 = 0 then (if idLen ≤ t.length then some (t.take idLen) else none) else none

/-- Where a datagram goes. -/
inductive Route where
  /-- to the queue of a connection -/
  | conn (c : Nat)
  /-- to the `InitialPacketHandler` -/
  | initial (hdr : Packet.Header)
  | drop (e : Packet.Err)
  deriving DecidableEq, Repr

/-- `on_incoming` up to `handle_initials` (router/mod.rs:243-290), of a datagram that is not
part of a batch. -/
def route (m : CMap) (buf : Bytes) : Route :=
  match (shortDcid buf).bind (fun d => m (key d)) with
  | some c => .conn c
  | none =>
    match (Packet.fromBytes idLen (Cur.withSlice buf)).1 with
    | .error e => .drop e
    | .ok hdr =>
      match m (key hdr.dcid) with
      | some c => .conn c
      | none => .initial hdr

/-- The short cut reads what the parser of headers reads. -/
theorem short_parse {buf d : Bytes} (h : shortDcid buf = some d) :
    (Packet.fromBytes idLen (Cur.withSlice buf)).1 = .ok { ty := .short, version := 0, dcid := d, scid := [] } := by
  cases buf with
  | nil => simp [shortDcid] at h
  | cons b t =>
    simp only [shortDcid] at h
    split at h
    · split at h
      · rename_i h1 h2
        injection h with h
        subst h
        have hb := b.toNat_lt
        have hl : Packet.isLong b.toNat = false := by
          rw [Packet.isLong_iff _ hb, decide_eq_false_iff_not]
          rw [Nat.shiftRight_eq_div_pow] at h1
          omega
        have e1 : (Io.getU 1 : Packet.P Nat) (Cur.withSlice (b :: t)) = (.ok b.toNat, { buf := b :: t, off := 1 }) := by
          simp [Io.getU, Io.lift, Cur.getU, Cur.peekU, Cur.withSlice, Cur.cap, Cur.rest, beVal]
        have e2 : (Io.bytes idLen : Packet.P Bytes) { buf := b :: t, off := 1 } = (.ok (t.take 20), { buf := b :: t, off := 21 }) := by
          simp only [idLen] at h2
          simp [Io.bytes, Io.lift, Cur.getBytes, Cur.cap, idLen, Nat.not_lt.mpr h2]
        show ((Io.bind (Io.getU 1) _) _).1 = _
        unfold Io.bind
        rw [e1]
        simp only [hl, if_true]
        show ((Io.bind (Io.bytes idLen) _) _).1 = _
        unfold Io.bind
        rw [e2]
        rfl
      · simp at h
    · simp at h

theorem route_eq (m : CMap) (buf : Bytes) : route m buf =
    match (Packet.fromBytes idLen (Cur.withSlice buf)).1 with
    | .error e => .drop e
    | .ok hdr => match m (key hdr.dcid) with | some c => .conn c | none => .initial hdr := by
  unfold route
  cases h : shortDcid buf with
  | none => rfl
  | some d =>
    rw [short_parse h]
    simp only [Option.bind]
    cases m (key d) <;> rfl

end Verif.Tq
