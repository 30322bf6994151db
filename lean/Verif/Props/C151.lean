import Verif.Tq.Token

/-! # C151 — a server that asks for address validation keeps state only for addresses that answer -/

namespace Verif.Props.C151
open Verif Verif.Tq

/-- A packet that belongs to no connection, with the address in it and the ID the server would use next. -/
structure Pkt where
  hdr : Packet.Header
  ip : Ip
  fresh : Bytes

/-- What a server that validates addresses does with a packet. -/
def answer (mac : Bytes → Bytes) (p : Pkt) : Act := handleInitials mac false p.hdr p.ip p.fresh

/-- A Retry packet with this token was sent to that address. -/
def Retried (mac : Bytes → Bytes) (ps : List Pkt) (ip : Ip) (token : Bytes) : Prop :=
  ∃ p ∈ ps, p.ip = ip ∧ ∃ scid, answer mac p = .retry scid token

/-- Only the server computes the tag: a token whose tag is right was sent out by it before. -/
def Unforged (mac : Bytes → Bytes) : List Pkt → List Pkt → Prop
  | _, [] => True
  | before, p :: ps =>
    (∀ t, p.hdr.token = some t → mac (t.drop 32) = t.take 32 → ∃ ip, Retried mac before ip t) ∧ Unforged mac (before ++ [p]) ps

/-- What C151 asks for: when a connection is created, its client has been sent a Retry packet, at this address, in answer to
a packet with the destination connection ID that the connection takes for the original one. -/
def Validated (mac : Bytes → Bytes) (before : List Pkt) (p : Pkt) : Prop :=
  ∀ scid r pending, answer mac p = .accept scid r pending →
    ∃ q ∈ before, q.ip = p.ip ∧ r = some (q.hdr.dcid, p.hdr.dcid) ∧ ∃ s t, answer mac q = .retry s t ∧ p.hdr.token = some t

theorem retry_token {mac : Bytes → Bytes} {p : Pkt} {scid token : Bytes} (h : answer mac p = .retry scid token) :
    token = gen mac p.hdr.dcid p.ip := by
  unfold answer handleInitials at h
  repeat' split at h
  all_goals first | (injection h with _ h; exact h.symm) | simp at h

theorem accept_token {mac : Bytes → Bytes} {p : Pkt} {scid pending : Bytes} {r : Option (Bytes × Bytes)}
    (h : answer mac p = .accept scid r pending) :
    ∃ t o, p.hdr.token = some t ∧ validate mac t p.ip = .ok o ∧ r = some (o, p.hdr.dcid) := by
  unfold answer handleInitials at h
  repeat' split at h
  case h_2 => rename_i t ht _ _ o ho; injection h with _ h2 _; exact ⟨t, o, ht, ho, h2.symm⟩
  all_goals simp_all

/-- In general only this holds: the address and the ID, one after the other, are those of some Retry packet. -/
theorem accepted {mac : Bytes → Bytes} (hm : ∀ x, (mac x).length = 32) {before ps : List Pkt} {p : Pkt}
    (hu : Unforged mac before (p :: ps)) {scid pending : Bytes} {r : Option (Bytes × Bytes)} (h : answer mac p = .accept scid r pending) :
    ∃ o, r = some (o, p.hdr.dcid) ∧ ∃ q ∈ before, q.ip.octets ++ q.hdr.dcid = p.ip.octets ++ o ∧
      ∃ s t, answer mac q = .retry s t ∧ p.hdr.token = some t := by
  obtain ⟨t, o, ht, ho, hr⟩ := accept_token h
  obtain ⟨h1, h2⟩ := validate_ok ho
  obtain ⟨ip, q, hq, rfl, s, hs⟩ := hu.1 t ht h2
  refine ⟨o, hr, q, hq, ?_, s, t, hs, ht⟩
  have e := retry_token hs
  rw [← h1, e]
  have hl := hm (q.ip.octets ++ q.hdr.dcid)
  unfold gen
  dsimp only [tagLen]
  rw [← hl, List.drop_left]

/-- C151 for a packet whose token was made for an address of the same family, whatever happened before. What is missing: the
family is not in the token (see `mixed_false`). -/
theorem validated_partial {mac : Bytes → Bytes} (hm : ∀ x, (mac x).length = 32) {before ps : List Pkt} {p : Pkt}
    (hu : Unforged mac before (p :: ps))
    (hf : ∀ q ∈ before, ∀ s t, answer mac q = .retry s t → p.hdr.token = some t → q.ip.six = p.ip.six) : Validated mac before p := by
  intro scid r pending h
  obtain ⟨o, hr, q, hq, he, s, t, hs, ht⟩ := accepted hm hu h
  obtain ⟨h1, h2⟩ := same_family (hf q hq s t hs ht) he
  exact ⟨q, hq, h1, by rw [hr, h2], s, t, hs, ht⟩

/-- So a server with one family of addresses is safe. -/
theorem one_family {mac : Bytes → Bytes} (hm : ∀ x, (mac x).length = 32) {before ps : List Pkt} {p : Pkt}
    (hu : Unforged mac before (p :: ps)) (b : Bool) (hp : p.ip.six = b) (hb : ∀ q ∈ before, q.ip.six = b) : Validated mac before p :=
  validated_partial hm hu fun q hq _ _ _ _ => by rw [hb q hq, hp]

/-- The client that follows the Retry packet gets its connection: same address, the token as it was sent. -/
theorem follows {mac : Bytes → Bytes} (hm : ∀ x, (mac x).length = 32) {q p : Pkt} {scid token : Bytes}
    (hq : answer mac q = .retry scid token) (hip : p.ip = q.ip) (ht : p.hdr.token = some token) (hty : p.hdr.ty = .initial) (hv : p.hdr.version = 1) :
    answer mac p = .accept p.fresh (some (q.hdr.dcid, p.hdr.dcid)) p.hdr.dcid := by
  have e := retry_token hq
  have hne : token.isEmpty = false := by
    rw [e]
    have := hm (q.ip.octets ++ q.hdr.dcid)
    cases hg : gen mac q.hdr.dcid q.ip with
    | nil => simp [gen] at hg; rw [hg.1] at this; simp at this
    | cons => rfl
  unfold answer handleInitials
  rw [if_neg (by simp [hty]), if_neg (by simp [hv, Packet.versionIsSupported]), if_neg (by simp), ht]
  simp only [hne]
  rw [e, hip, validate_gen hm]
  simp

/-- Nothing is created, and nothing sent, for a packet that is not an Initial packet. -/
theorem only_initial (mac : Bytes → Bytes) (nv : Bool) (hdr : Packet.Header) (ip : Ip) (fresh : Bytes) (h : hdr.ty ≠ .initial) :
    handleInitials mac nv hdr ip fresh = .wrongType := by simp [handleInitials, h]

/-- No connection is created for a version the server does not speak. -/
theorem only_version (mac : Bytes → Bytes) (nv : Bool) (hdr : Packet.Header) (ip : Ip) (fresh : Bytes) (hv : hdr.version ≠ 1) (s : Bytes)
    (r : Option (Bytes × Bytes)) (d : Bytes) : handleInitials mac nv hdr ip fresh ≠ .accept s r d := by
  unfold handleInitials
  have : Packet.versionIsSupported hdr.version = false := by simp [Packet.versionIsSupported, hv]
  simp only [this]
  split <;> simp

/-- A Retry packet is only sent for a packet without a token (so never in answer to the packet that a Retry packet caused). -/
theorem retry_once (mac : Bytes → Bytes) (nv : Bool) (hdr : Packet.Header) (ip : Ip) (fresh s t : Bytes)
    (h : handleInitials mac nv hdr ip fresh = .retry s t) : hdr.token = some [] ∧ nv = false := by
  unfold handleInitials at h
  repeat' split at h
  all_goals try simp at h
  rename_i hnv _ tok htok he
  refine ⟨?_, by simpa using hnv⟩
  rw [htok]
  simpa using he

/-! ### Two families -/

/-- A tag for the examples. -/
def sum (x : Bytes) : Bytes := List.replicate 31 7 ++ [x.foldl (fun a b => a + b) 0]

/-- An Initial packet of a client with an IPv4 address. It chooses the destination connection ID, of 20 bytes. -/
def first : Pkt :=
  { hdr := { ty := .initial, version := 1, dcid := [0xd, 0xb8, 0, 0, 0, 0, 0, 0, 0, 0, 0, 1] ++ List.replicate 8 9, scid := [5], token := some [] },
    ip := .v4 #v[0x20, 1, 0xd, 0xb8], fresh := List.replicate 20 1 }

/-- The token that came back, in a packet with an IPv6 source address that is not the client's. -/
def second : Pkt :=
  { hdr := { ty := .initial, version := 1, dcid := List.replicate 20 1, scid := [5],
             token := some (gen sum first.hdr.dcid first.ip) },
    ip := .v6 #v[0x20, 1, 0xd, 0xb8, 0xd, 0xb8, 0, 0, 0, 0, 0, 0, 0, 0, 0, 1], fresh := List.replicate 20 2 }

/-- C151 fails for a server with both families: no Retry packet was sent to the IPv6 address, no tag was forged, and yet a
connection is created for it as if the address were known to be that of the client. -/
theorem mixed_false :
    Unforged sum [] [first, second] ∧ answer sum second = .accept (List.replicate 20 2) (some (List.replicate 8 9, List.replicate 20 1)) (List.replicate 20 1) ∧
    ¬ Validated sum [first] second := by
  have hf : answer sum first = .retry (List.replicate 20 1) (gen sum first.hdr.dcid first.ip) := by decide +kernel
  have hs : answer sum second = .accept (List.replicate 20 2) (some (List.replicate 8 9, List.replicate 20 1)) (List.replicate 20 1) := by
    decide +kernel
  refine ⟨⟨?_, ?_, trivial⟩, hs, ?_⟩
  · intro t ht
    simp only [first, Option.some.injEq] at ht
    subst ht
    intro h
    exact absurd h (by decide)
  · intro t ht _
    simp only [second, Option.some.injEq] at ht
    subst ht
    exact ⟨first.ip, first, by simp, rfl, _, hf⟩
  · intro h
    obtain ⟨q, hq, hip, -⟩ := h _ _ _ hs
    simp only [List.mem_singleton] at hq
    subst hq
    simp [first, second] at hip

/-- The honest continuation of the same exchange. -/
example : Unforged sum [] [first, { second with ip := first.ip }] ∧
    answer sum { second with ip := first.ip } = .accept (List.replicate 20 2) (some (first.hdr.dcid, List.replicate 20 1)) (List.replicate 20 1) := by
  have hf : answer sum first = .retry (List.replicate 20 1) (gen sum first.hdr.dcid first.ip) := by decide +kernel
  refine ⟨⟨?_, ?_, trivial⟩, by decide +kernel⟩
  · intro t ht
    simp only [first, Option.some.injEq] at ht
    subst ht
    intro h
    exact absurd h (by decide)
  · intro t ht _
    simp only [second, Option.some.injEq] at ht
    subst ht
    exact ⟨first.ip, first, by simp, rfl, _, hf⟩

/-- A token of another address of the same family is refused. -/
example : answer sum { second with ip := .v4 #v[10, 0, 0, 1] } = .badToken .address := by decide +kernel

end Verif.Props.C151
