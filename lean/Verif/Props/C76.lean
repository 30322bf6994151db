import Verif.Tp.Decode

/-!
C76: the connection IDs of the handshake are authenticated by the transport parameters.
-/

namespace Verif.C76
open Verif Verif.Tp

/-- What a client receives. -/
inductive Ev where
  /-- A Retry packet with a valid tag. -/
  | retry (scid : Bytes)
  /-- Any other packet that could be decrypted. -/
  | packet (scid : Bytes)
  deriving DecidableEq, Repr

def step (c : Ids) : Ev → Ids
  | .retry s => c.onRetry s
  | .packet s => c.onPacket s

/-- A client that chose `d` for the first packet, after these events. -/
def client (d : Bytes) (evs : List Ev) : Ids := evs.foldl step { isServer := false, dcid := d }

/-- A server after packets with these source IDs. -/
def server (scids : List Bytes) : Ids := scids.foldl Ids.onPacket { isServer := true, dcid := [] }

/-- Packets of the server up to a Retry packet do not exist in a handshake that follows the
protocol: the Retry packet comes first, or there is none. -/
def packets (l : List Bytes) : List Ev := l.map .packet

theorem onPacket_got {c : Ids} (h : c.gotPeer = true) (s : Bytes) : c.onPacket s = c := by simp [Ids.onPacket, h]

theorem packets_got {c : Ids} (h : c.gotPeer = true) : ∀ l : List Bytes, (packets l).foldl step c = c
  | [] => rfl
  | s :: l => by
    show (packets l).foldl step (c.onPacket s) = c
    rw [onPacket_got h]; exact packets_got h l

theorem authenticate_iff {c : Ids} {tp : Params} : authenticate c tp = true ↔
    tp.initialScid = some c.dcid ∧
      (∀ o, c.odcid = some o → tp.originalDcid = some o ∨ (tp.originalDcid = none ∧ c.isServer = true)) ∧
      (∀ r, c.rscid = some r → tp.retryScid = some r) := by
  unfold authenticate
  cases tp.initialScid <;> cases c.odcid <;> cases tp.originalDcid <;> cases c.rscid <;> cases tp.retryScid <;>
    simp [and_assoc]

theorem peerParams_ok {c : Ids} {raw : Bytes} {track : Option Nat} {tp : Params} :
    peerParams c raw track = .ok (some tp) ↔ raw ≠ [] ∧ decode raw c.isServer track = .ok tp ∧ authenticate c tp = true := by
  unfold peerParams
  cases raw with
  | nil => simp
  | cons b raw =>
    simp only [List.isEmpty_cons, if_false]
    cases hd : decode (b :: raw) c.isServer track with
    | error e => simp
    | ok tp' =>
      simp only
      by_cases ha : authenticate c tp' = true
      · simp only [ha, if_true]
        constructor
        · intro h; cases h; exact ⟨by simp, rfl, ha⟩
        · rintro ⟨_, h, _⟩; cases h; rfl
      · simp only [ha]
        constructor
        · intro h; cases h
        · rintro ⟨_, h, h2⟩; cases h; exact absurd h2 ha

/-- Without a Retry packet: what a client accepts repeats the ID the client chose first and
the ID the server answered with. Missing: that it names no ID of a Retry packet, which is
false (`unexpected_retry_id`). -/
theorem no_retry_partial (d s : Bytes) (l : List Bytes) (raw : Bytes) (track : Option Nat) (tp : Params)
    (h : peerParams (client d (packets (s :: l))) raw track = .ok (some tp)) :
    tp.originalDcid = some d ∧ tp.initialScid = some s := by
  have e : client d (packets (s :: l)) = { isServer := false, dcid := s, odcid := some d, gotPeer := true } := by
    show (packets l).foldl step _ = _
    exact packets_got rfl l
  rw [peerParams_ok, e, authenticate_iff] at h
  obtain ⟨_, _, h1, h2, _⟩ := h
  rcases h2 d rfl with h2 | ⟨_, h2⟩
  · exact ⟨h2, h1⟩
  · cases h2

/-- With a Retry packet before the first packet: what a client accepts repeats the ID the
client chose first, the ID of the Retry packet, and the ID the server answered with. Further
Retry packets change nothing. -/
theorem with_retry (d r s : Bytes) (rs : List Bytes) (l : List Ev) (raw : Bytes) (track : Option Nat) (tp : Params)
    (h : peerParams (client d (.retry r :: (rs.map .retry ++ .packet s :: l))) raw track = .ok (some tp)) :
    tp.originalDcid = some d ∧ tp.retryScid = some r ∧ tp.initialScid = some s := by
  have idle : ∀ {c : Ids} (_ : c.isServer = false) (_ : c.didRetry = true) (s : Bytes), c.onRetry s = c := by
    intro c h1 h2 s; simp [Ids.onRetry, h1, h2]
  have e1 : ∀ {c : Ids} (_ : c.isServer = false) (_ : c.didRetry = true) (rs : List Bytes) (m : List Ev),
      (rs.map Ev.retry ++ m).foldl step c = m.foldl step c := by
    intro c h1 h2 rs m
    induction rs with
    | nil => rfl
    | cons x rs ih =>
      show (rs.map Ev.retry ++ m).foldl step (c.onRetry x) = _
      rw [idle h1 h2]; exact ih
  have e2 : ∀ (l : List Ev) {c : Ids} (_ : c.isServer = false) (_ : c.didRetry = true) (_ : c.gotPeer = true),
      l.foldl step c = c := by
    intro l c h1 h2 h3
    induction l with
    | nil => rfl
    | cons x l ih =>
      have : step c x = c := by
        cases x
        · exact idle h1 h2 _
        · exact onPacket_got h3 _
      rw [List.foldl_cons, this]; exact ih
  have e : client d (.retry r :: (rs.map .retry ++ .packet s :: l)) =
      { isServer := false, dcid := s, odcid := some d, rscid := some r, didRetry := true, gotPeer := true } := by
    show (rs.map Ev.retry ++ Ev.packet s :: l).foldl step
      { isServer := false, dcid := r, odcid := some d, rscid := some r, didRetry := true, gotPeer := false } = _
    rw [e1 rfl rfl]
    exact e2 l rfl rfl rfl
  rw [peerParams_ok, e, authenticate_iff] at h
  obtain ⟨_, _, h1, h2, h3⟩ := h
  rcases h2 d rfl with h2 | ⟨_, h2⟩
  · exact ⟨h2, h3 r rfl, h1⟩
  · cases h2

/-- What a server accepts repeats the ID of the client's first packet. -/
theorem by_server (s : Bytes) (l : List Bytes) (raw : Bytes) (track : Option Nat) (tp : Params)
    (h : peerParams (server (s :: l)) raw track = .ok (some tp)) : tp.initialScid = some s := by
  have e : ∀ (l : List Bytes) {c : Ids} (_ : c.gotPeer = true), l.foldl Ids.onPacket c = c := by
    intro l c hc
    induction l with
    | nil => rfl
    | cons x l ih => rw [List.foldl_cons, onPacket_got hc]; exact ih
  have e : server (s :: l) = { isServer := true, dcid := s, gotPeer := true } := by
    show l.foldl Ids.onPacket _ = _
    exact e l rfl
  rw [peerParams_ok, e, authenticate_iff] at h
  exact h.2.2.1

/-- A client accepts every parameters that are well-formed and repeat the IDs. -/
theorem accepted (d s : Bytes) (l : List Bytes) (raw : Bytes) (track : Option Nat) (tp : Params)
    (hd : decode raw false track = .ok tp) (h1 : tp.originalDcid = some d) (h2 : tp.initialScid = some s) :
    peerParams (client d (packets (s :: l))) raw track = .ok (some tp) := by
  have e : client d (packets (s :: l)) = { isServer := false, dcid := s, odcid := some d, gotPeer := true } := by
    show (packets l).foldl step _ = _
    exact packets_got rfl l
  rw [peerParams_ok, e, authenticate_iff]
  refine ⟨?_, hd, h2, ?_, ?_⟩
  · rintro rfl
    have : decode [] false track = .ok (defaults track) := rfl
    rw [this] at hd
    cases hd
    cases h1
  · intro o ho; cases ho; exact .inl h1
  · intro r hr; cases hr

/-- Not checked: a client accepts the source ID of a Retry packet although there was no
Retry packet (RFC 9000, 7.3, has this refused). -/
theorem unexpected_retry_id : ∃ d s raw tp, peerParams (client d (packets [s])) raw none = .ok (some tp) ∧
    tp.retryScid = some [9] :=
  ⟨[1], [2], [0, 1, 1, 0x0f, 1, 2, 0x10, 1, 9], { originalDcid := some [1], initialScid := some [2], retryScid := some [9] },
    by decide +kernel, rfl⟩

/-- Not checked: empty parameters are not looked at, so that an endpoint that sends none is
not authenticated and the handshake can go on. -/
theorem empty_not_checked (c : Ids) (track : Option Nat) : peerParams c [] track = .ok none := rfl

/-- In the words of the claim, for parameters that were accepted or ignored: the claim
fails. -/
theorem not_authenticated : ∃ d s raw r, peerParams (client d (packets [s])) raw none = .ok r ∧
    ∀ tp, r = some tp → tp.initialScid ≠ some s :=
  ⟨[1], [2], [], none, rfl, fun _ h => by cases h⟩

/-! ### Examples -/

example : peerParams (client [1] (packets [[2], [3]])) [0, 1, 1, 0x0f, 1, 2] none =
    .ok (some { originalDcid := some [1], initialScid := some [2] }) := by decide +kernel
example : peerParams (client [1] (packets [[2]])) [0, 1, 5, 0x0f, 1, 2] none = .error .invalidTransportParam := by
  decide +kernel
example : peerParams (client [1] [.retry [4], .retry [5], .packet [2]]) [0, 1, 1, 0x0f, 1, 2, 0x10, 1, 4] none =
    .ok (some { originalDcid := some [1], initialScid := some [2], retryScid := some [4] }) := by decide +kernel
example : peerParams (client [1] [.retry [4], .packet [2]]) [0, 1, 1, 0x0f, 1, 2] none = .error .invalidTransportParam := by
  decide +kernel
example : peerParams (server [[2], [3]]) [0x0f, 1, 2] none = .ok (some { initialScid := some [2] }) := by decide +kernel

end Verif.C76
