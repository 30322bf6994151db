import Verif.Props.C71

/-!
# C73: When a client acts on Version Negotiation and Retry packets
-/

namespace Verif.C73
open Verif Verif.Packet

/-- What reaches an endpoint: a datagram starting with a Version Negotiation or Retry
packet (or anything else that is not processed), or a packet that is processed. -/
inductive Event where
  | special (buf : Bytes)
  | other (dcid : Bytes)

/-- How the endpoint goes on, with the number of handshakes started over for a Retry and
for a Version Negotiation packet. -/
structure Trace where
  e : Endpoint
  retries : Nat := 0
  negotiations : Nat := 0

/-- One event. -/
def step (mac : Bytes → Bytes) (t : Trace) : Event → Trace
  | .special buf =>
    let e' := (recvSpecial mac t.e buf).2
    { e := e'
      retries := t.retries + if e'.didRetry && !t.e.didRetry then 1 else 0
      negotiations := t.negotiations + if e'.didVn && !t.e.didVn then 1 else 0 }
  | .other dcid => { t with e := recvOther t.e dcid }

theorem vn_spec (c : Endpoint) (h : Header) :
    (recvVn c h = (.ignored, c)) ∨
    (c.isServer = false ∧ c.didVn = false ∧ c.recvCount = 0 ∧ h.dcid = c.scid ∧ h.scid = c.dcid ∧
      ∃ versions, h.versions = some versions ∧ c.version ∉ versions ∧
        ((recvVn c h = (.unknownVersion, c) ∧ ∀ v ∈ versions, v ≠ 1) ∨
         (recvVn c h = (.restart, { c with version := 1, didVn := true }) ∧ 1 ∈ versions))) := by
  unfold recvVn
  split
  · exact .inl rfl
  split
  · exact .inl rfl
  split
  · exact .inl rfl
  split
  · exact .inl rfl
  split
  · exact .inl rfl
  next h1 h2 h3 h4 h5 =>
  cases hv : h.versions with
  | none => exact .inl rfl
  | some versions =>
    simp only
    by_cases hc : versions.contains c.version
    · rw [if_pos hc]; exact .inl rfl
    · rw [if_neg hc]
      right
      refine ⟨by simpa using h1, by simpa using h2, by omega, Classical.not_not.mp h4, Classical.not_not.mp h5, versions, rfl, ?_, ?_⟩
      · simpa using hc
      · have hf : ∀ v, versionIsSupported v = true ↔ v = 1 := by intro v; simp [versionIsSupported, versionV1]
        cases hl : versions.filter versionIsSupported with
        | nil =>
          left
          refine ⟨by simp [selectVersion], fun v hv' hv1 => ?_⟩
          have : v ∈ versions.filter versionIsSupported := List.mem_filter.mpr ⟨hv', (hf v).mpr hv1⟩
          rw [hl] at this; cases this
        | cons v l =>
          right
          have hm : v ∈ versions.filter versionIsSupported := by rw [hl]; simp
          rw [List.mem_filter, hf] at hm
          obtain ⟨hm1, rfl⟩ := hm
          refine ⟨?_, hm1⟩
          simp [selectVersion, versionV1]

/-- A Version Negotiation packet is acted on only by a client, only before anything
else was processed and only once, if its connection IDs echo the client's and the
version in use is not on the list; then the version becomes one that is on the list and
known. Otherwise, apart from an error if no version is known, nothing happens. -/
theorem negotiation (c : Endpoint) (h : Header) :
    recvVn c h = (.ignored, c) ∨
    (c.isServer = false ∧ c.didVn = false ∧ c.recvCount = 0 ∧ h.dcid = c.scid ∧ h.scid = c.dcid ∧
      ∃ versions, h.versions = some versions ∧ c.version ∉ versions ∧
        ((recvVn c h = (.unknownVersion, c) ∧ ∀ v ∈ versions, versionIsSupported v = false) ∨
         ∃ v ∈ versions, versionIsSupported v = true ∧ recvVn c h = (.restart, { c with version := v, didVn := true }))) := by
  rcases vn_spec c h with h | ⟨h1, h2, h3, h4, h5, vs, h6, h7, h8 | h8⟩
  · exact .inl h
  · refine .inr ⟨h1, h2, h3, h4, h5, vs, h6, h7, .inl ⟨h8.1, fun v hv => ?_⟩⟩
    have := h8.2 v hv
    simp [versionIsSupported, versionV1, this]
  · exact .inr ⟨h1, h2, h3, h4, h5, vs, h6, h7, .inr ⟨1, h8.2, rfl, h8.1⟩⟩

/-- A Retry packet is acted on only by a client, only if none was before, and only if
its integrity tag is that of the client's connection attempt; the client then goes on with
the server's token and connection ID. Otherwise nothing happens. -/
theorem retry_tag (mac : Bytes → Bytes) (c : Endpoint) (h : Header) (b : Cur) :
    recvRetry mac c h b = (.ignored, c) ∨
    (c.isServer = false ∧ c.didRetry = false ∧
      b.rest.take 16 = mac (beBytes 1 (c.dcid.length % 256) ++ c.dcid ++ b.buf.take b.off) ∧
      recvRetry mac c h b =
        (.restart, { c with token := h.token, didRetry := true, odcid := some c.dcid, dcid := h.scid, rscid := some h.scid })) := by
  unfold recvRetry
  split
  · exact .inl rfl
  split
  · exact .inl rfl
  next h1 h2 =>
  cases hv : verifyRetry mac b c.dcid with
  | error e => exact .inl rfl
  | ok _ =>
    right
    refine ⟨by simpa using h1, by simpa using h2, ?_, rfl⟩
    unfold verifyRetry at hv
    simp only at hv
    split at hv
    · cases hv
    · split at hv
      · next h => exact h
      · cases hv

theorem special_spec (mac : Bytes → Bytes) (c : Endpoint) (buf : Bytes) :
    (c.didRetry = true → (recvSpecial mac c buf).2.didRetry = true) ∧
    (c.didVn = true → (recvSpecial mac c buf).2.didVn = true) ∧
    (c.recvCount > 0 → (recvSpecial mac c buf).2.didVn = c.didVn) ∧
    (recvSpecial mac c buf).2.recvCount = c.recvCount := by
  unfold recvSpecial
  split
  · exact ⟨fun h => h, fun h => h, fun _ => rfl, rfl⟩
  · next h b _ =>
    split
    · rcases vn_spec c h with h1 | ⟨_, hd, h3, _, _, _, _, _, h8 | h8⟩
      · rw [h1]; exact ⟨fun h => h, fun h => h, fun _ => rfl, rfl⟩
      · rw [h8.1]; exact ⟨fun h => h, fun h => h, fun _ => rfl, rfl⟩
      · rw [h8.1]; exact ⟨fun h => h, fun _ => rfl, fun h => by omega, rfl⟩
    · split
      · rcases retry_tag mac c h b with h1 | ⟨_, hd, _, h4⟩
        · rw [h1]; exact ⟨fun h => h, fun h => h, fun _ => rfl, rfl⟩
        · rw [h4]; exact ⟨fun _ => rfl, fun h => h, fun _ => rfl, rfl⟩
      · exact ⟨fun h => h, fun h => h, fun _ => rfl, rfl⟩

/-- Whatever arrives, at most one Retry and at most one Version Negotiation packet are
acted on. -/
theorem at_most_once (mac : Bytes → Bytes) (c : Endpoint) (evs : List Event) :
    (evs.foldl (step mac) { e := c }).retries ≤ 1 ∧ (evs.foldl (step mac) { e := c }).negotiations ≤ 1 := by
  have lem : ∀ (a b : Bool) (n : Nat), (n ≤ if a then 1 else 0) → (a = true → b = true) →
      n + (if b && !a then 1 else 0) ≤ if b then 1 else 0 := by
    intro a b n; cases a <;> cases b <;> simp
  have key : ∀ (evs : List Event) (t : Trace), (t.retries ≤ if t.e.didRetry then 1 else 0) →
      (t.negotiations ≤ if t.e.didVn then 1 else 0) →
      (evs.foldl (step mac) t).retries ≤ 1 ∧ (evs.foldl (step mac) t).negotiations ≤ 1 := by
    intro evs
    induction evs with
    | nil =>
      intro t h1 h2
      refine ⟨Nat.le_trans h1 (by split <;> simp), Nat.le_trans h2 (by split <;> simp)⟩
    | cons ev l ih =>
      intro t h1 h2
      refine ih (step mac t ev) ?_ ?_
      · cases ev with
        | special buf =>
          have := (special_spec mac t.e buf).1
          exact lem _ _ _ h1 this
        | other d => exact h1
      · cases ev with
        | special buf =>
          have := (special_spec mac t.e buf).2.1
          exact lem _ _ _ h2 this
        | other d => exact h2
  exact key evs { e := c } (by simp) (by simp)

/-- Once a packet of the server was processed, Version Negotiation packets have no
effect. (For the full claim the same is missing for Retry packets, see `late_retry`.) -/
theorem not_late_partial (c : Endpoint) (h : Header) (hc : c.recvCount > 0) : recvVn c h = (.ignored, c) := by
  rcases negotiation c h with h | ⟨_, _, h3, _⟩
  · exact h
  · omega

/-- The claim fails for Retry packets: a client that has already processed packets of the
server (any number of them) still acts on a Retry packet, even one with an empty token and
the connection ID it already uses. RFC 9000, section 17.2.5.2, has clients discard all of
these; the tag does not protect, as its key is public. -/
theorem late_retry (mac : Bytes → Bytes) (hmac : ∀ x, (mac x).length = 16) (c : Endpoint)
    (hc : c.isServer = false ∧ c.didRetry = false) (hs : c.scid.length ≤ 20) (hd : c.dcid.length ≤ 20) :
    ∃ buf, recvSpecial mac c buf =
      (.restart, { c with token := some [], didRetry := true, odcid := some c.dcid, rscid := some c.dcid }) := by
  obtain ⟨out, _, h⟩ := C71.retry_works mac hmac c c.dcid [] hc hs hd (by decide)
  exact ⟨out, h⟩

/-! ### Concrete cases -/

def client : Endpoint := { isServer := false, version := 0x1a2a3a4a, scid := [1, 2], dcid := [9, 9, 9] }
def vn : Bytes := [0x80, 0, 0, 0, 0, 2, 1, 2, 3, 9, 9, 9, 0, 0, 0, 1, 0x6b, 0x33, 0x43, 0xcf]
/-- A client that starts with a reserved version goes on with version 1. -/
example : recvSpecial C71.mac client vn = (.restart, { client with version := 1, didVn := true }) := by decide +kernel
example : recvSpecial C71.mac (recvOther client [9, 9, 9]) vn = (.ignored, recvOther client [9, 9, 9]) := by decide +kernel
example : (recvSpecial C71.mac { client with version := 1 } vn).1 = .ignored := by decide +kernel

end Verif.C73
