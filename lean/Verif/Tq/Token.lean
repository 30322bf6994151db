import Verif.Packet.Header

/-!
Model of `/repo/tokio-quiche/src/quic/addr_validation_token.rs` and of the decisions of
`/repo/tokio-quiche/src/quic/router/acceptor.rs`. HMAC-SHA256 under the key of the process is a
parameter `mac`; that nobody else can compute it is a condition on histories (`Unforged`).
-/

namespace Verif.Tq
open Verif

/-- `IpAddr`. -/
inductive Ip where
  | v4 (o : Vector UInt8 4)
  | v6 (o : Vector UInt8 16)
  deriving DecidableEq, Repr

namespace Ip

/-- `octets()` (addr_validation_token.rs:58-61, 87-90). -/
def octets : Ip → Bytes
  | v4 o => o.toList
  | v6 o => o.toList

/-- The address family. -/
def six : Ip → Bool
  | v4 _ => false
  | v6 _ => true

theorem len (a : Ip) : a.octets.length = if a.six then 16 else 4 := by cases a <;> simp [octets, six]

theorem octets_inj {a b : Ip} (hs : a.six = b.six) (h : a.octets = b.octets) : a = b := by
  cases a <;> cases b <;> simp [octets, six] at *
  · exact Vector.toList_inj.mp h
  · exact Vector.toList_inj.mp h

end Ip

/-- `HMAC_TAG_LEN` (addr_validation_token.rs:39). -/
abbrev tagLen : Nat := 32

inductive TErr where
  | tooShort
  | signature
  | address
  deriving DecidableEq, Repr

/-- `gen` (addr_validation_token.rs:55-82). -/
def gen (mac : Bytes → Bytes) (odcid : Bytes) (ip : Ip) : Bytes :=
  let payload := ip.octets ++ odcid
  mac payload ++ payload

/-- `validate_and_extract_original_dcid` (addr_validation_token.rs:84-112). -/
def validate (mac : Bytes → Bytes) (token : Bytes) (ip : Ip) : Except TErr Bytes :=
  if token.length < tagLen + ip.octets.length then .error .tooShort
  else
    let tag := token.take tagLen
    let payload := token.drop tagLen
    if mac payload ≠ tag then .error .signature
    else if payload.take ip.octets.length ≠ ip.octets then .error .address
    else .ok (token.drop (tagLen + ip.octets.length))

/-- What the acceptor does with a packet that belongs to no connection. -/
inductive Act where
  /-- the packet is refused -/
  | wrongType
  | badToken (e : TErr)
  /-- a Version Negotiation packet goes to the sender -/
  | negotiate
  /-- a Retry packet with this source connection ID and token goes to the sender -/
  | retry (scid token : Bytes)
  /-- a connection is created; with a Retry the two IDs are those of `RetryConnectionIds` -/
  | accept (scid : Bytes) (retried : Option (Bytes × Bytes)) (pending : Bytes)
  /-- `hdr.token.as_ref().unwrap()` -/
  | panic
  deriving DecidableEq, Repr

/-- `handle_initials` (acceptor.rs:213-260) with `stateless_retry` (acceptor.rs:192-203) and
`accept_conn` (acceptor.rs:92-147). `fresh` is what `cid_generator.new_connection_id()` gives. -/
def handleInitials (mac : Bytes → Bytes) (noValidation : Bool) (hdr : Packet.Header) (ip : Ip) (fresh : Bytes) : Act :=
  if hdr.ty ≠ .initial then .wrongType
  else if Packet.versionIsSupported hdr.version = false then .negotiate
  else if noValidation then .accept fresh none hdr.dcid
  else
    match hdr.token with
    | none => .panic
    | some token =>
      if token.isEmpty then .retry fresh (gen mac hdr.dcid ip)
      else
        match validate mac token ip with
        | .error e => .badToken e
        | .ok odcid => .accept fresh (some (odcid, hdr.dcid)) hdr.dcid

/-! ### Tokens by themselves -/

theorem validate_gen {mac : Bytes → Bytes} (hm : ∀ x, (mac x).length = tagLen) (odcid : Bytes) (ip : Ip) :
    validate mac (gen mac odcid ip) ip = .ok odcid := by
  have h := hm (ip.octets ++ odcid)
  simp only [tagLen] at h
  have e1 : (gen mac odcid ip).take 32 = mac (ip.octets ++ odcid) := by
    unfold gen; rw [← h]; exact List.take_left
  have e2 : (gen mac odcid ip).drop 32 = ip.octets ++ odcid := by
    unfold gen; dsimp only; rw [← h]; exact List.drop_left
  have e3 : (gen mac odcid ip).length = 32 + (ip.octets.length + odcid.length) := by
    simp [gen, h]
  have e4 : (gen mac odcid ip).drop (32 + ip.octets.length) = odcid := by
    rw [← List.drop_drop, e2, List.drop_left]
  unfold validate
  dsimp only [tagLen]
  rw [if_neg (by omega), e1, e2, if_neg (by simp), if_neg (by simp), e4]

theorem validate_ok {mac : Bytes → Bytes} {token o : Bytes} {ip : Ip} (h : validate mac token ip = .ok o) :
    token.drop tagLen = ip.octets ++ o ∧ mac (token.drop tagLen) = token.take tagLen := by
  unfold validate at h
  dsimp only at h
  split at h
  · simp at h
  · split at h
    · simp at h
    · split at h
      · simp at h
      · rename_i h1 h2 h3
        simp only [ne_eq, Decidable.not_not] at h2 h3
        injection h with h
        refine ⟨?_, h2⟩
        rw [← h, ← List.drop_drop]
        conv => lhs; rw [← List.take_append_drop ip.octets.length (token.drop tagLen)]
        rw [h3]

/-- Two readings of one payload by addresses of the same family agree. -/
theorem same_family {a b : Ip} {x y : Bytes} (hs : a.six = b.six) (h : a.octets ++ x = b.octets ++ y) : a = b ∧ x = y := by
  have hl : a.octets.length = b.octets.length := by rw [Ip.len, Ip.len, hs]
  obtain ⟨h1, h2⟩ := List.append_inj h hl
  exact ⟨Ip.octets_inj hs h1, h2⟩

end Verif.Tq
