import Verif.Conn.Reach

/-! # C24 — stream count limits are enforced in both directions -/

namespace Verif.C24
open Verif Stream Verif.Conn Verif.Conn.Conn

/-- The limit on the number of streams of the kind of `id`: granted by the peer for local
streams, advertised to the peer for its streams. -/
def limit (h : Hist) (isServer : Bool) (id : Nat) : Nat :=
  if isLocal id isServer then h.grant (isBidi id) else h.adv (isBidi id)

theorem inv_within {c : Conn} {h : Hist} {gone : List Nat} (hI : Inv c h gone) {id : Nat}
    (hex : (c.get id).isSome = true ∨ c.isCollected id = true) : id / 4 < limit h c.isServer id := by
  have w := hI.shape.wf
  have hc : Counted c.isServer c.counts id := by
    rcases hex with h1 | h1
    · obtain ⟨s, h1⟩ := Option.isSome_iff_exists.mp h1
      exact w.ordL id (Assoc.get_some_keys h1)
    · obtain ⟨s, h1⟩ := Option.isSome_iff_exists.mp h1
      exact w.ordG id (Assoc.get_some_keys h1)
  unfold Counted at hc
  unfold limit
  have h1 := w.limP (isBidi id)
  have h2 := w.limL (isBidi id)
  have h3 := hI.adv (isBidi id)
  have h4 := hI.grant (isBidi id)
  cases e : isLocal id c.isServer with
  | true => have := hc.1 e; simp only [if_true]; omega
  | false => have := hc.2 e; simp only [Bool.false_eq_true, if_false]; omega

/-- **C24.** After every history, every stream that exists or has existed has an ordinal
below the limit for its kind: advertised to the peer for streams it opened, granted by
the peer for local ones. -/
theorem within_limit (g : Config) (hd : 0 < g.factorDen) (ops : List Op) (hok : ∀ op ∈ ops, op.Ok)
    (hcr : (after g ops).crashed = false) (id : Nat)
    (hex : ((after g ops).get id).isSome = true ∨ (after g ops).isCollected id = true) :
    id / 4 < limit (books g ops) (after g ops).isServer id := by
  rcases after_inv g hd hok with hI | hc
  · exact inv_within hI hex
  · rw [hcr] at hc; cases hc

theorem inv_absent {c : Conn} {h : Hist} {gone : List Nat} (hI : Inv c h gone) {id : Nat}
    (hl : limit h c.isServer id ≤ id / 4) : c.get id = none ∧ Assoc.get c.collected id = none := by
  have := @inv_within c h gone hI id
  constructor
  · cases e : c.get id with
    | none => rfl
    | some s => have := this (.inl (by rw [e]; rfl)); omega
  · cases e : Assoc.get c.collected id with
    | none => rfl
    | some s => have := this (.inr (by unfold isCollected; rw [e]; rfl)); omega

/-- The outcome of `getOrCreate` for a stream that is over the limit, or has the wrong
initiator. -/
theorem inv_over {c : Conn} {h : Hist} {gone : List Nat} (hI : Inv c h gone) {id : Nat}
    (hl : limit h c.isServer id ≤ id / 4) : c.getOrCreate id (isLocal id c.isServer) = .error .streamLimit := by
  obtain ⟨h1, h2⟩ := inv_absent hI hl
  have h3 := hI.adv (isBidi id)
  have h4 := hI.grant (isBidi id)
  rcases getOrCreate_spec hI.shape id (isLocal id c.isServer) with ⟨s, e, -⟩ | ⟨-, ⟨s, e⟩, -⟩ | ⟨-, -, e, -⟩ | ⟨-, -, -, -, e⟩ |
    ⟨-, c', s, -, hc⟩
  · rw [h1] at e; cases e
  · rw [h2] at e; cases e
  · exact absurd rfl e
  · exact e
  · have := hc.limit
    unfold limit at hl
    split at this
    · next e => rw [if_pos e] at hl; omega
    · next e => rw [if_neg e] at hl; omega

theorem inv_wrong {c : Conn} {h : Hist} {gone : List Nat} (hI : Inv c h gone) {id : Nat} {loc : Bool}
    (hn : c.get id = none) (hc : c.isCollected id = false) (hw : loc ≠ isLocal id c.isServer) :
    c.getOrCreate id loc = .error (.invalidStreamState id) := by
  unfold getOrCreate
  rw [hn, hc]
  simp only [Bool.false_eq_true, if_false]
  rw [if_pos (by simpa using hw)]

theorem send_refused {c : Conn} {id : Nat} {e : QErr} (hx : c.txData ≤ c.maxTxData)
    (hs : (!isBidi id && !isLocal id c.isServer) = false)
    (h : ∀ b, ({ c with blockedLimit := b } : Conn).getOrCreate id true = .error e) (data : Bytes) (fin : Bool) :
    (c.sendData id data fin).2 = .err e := by
  unfold sendData
  have hx' : ¬ c.maxTxData < c.txData := by omega
  simp only [hs, Bool.false_eq_true, if_false, hx']
  have : ∃ b, (if c.maxTxData - c.txData < data.length then { c with blockedLimit := some c.maxTxData } else c) =
      ({ c with blockedLimit := b } : Conn) := by
    split
    · exact ⟨_, rfl⟩
    · exact ⟨c.blockedLimit, rfl⟩
  obtain ⟨b, hb⟩ := this
  rw [hb, h b]

theorem inv_blocked {c : Conn} {h : Hist} {gone : List Nat} (hI : Inv c h gone) (b : Option Nat) :
    Inv ({ c with blockedLimit := b } : Conn) h gone :=
  hI.other (by constructor <;> rfl) (by constructor <;> rfl) (by constructor <;> rfl)
    (fun f hf => .inl hf) rfl rfl rfl rfl

/-- **C24.** Frames on a peer-initiated stream beyond the advertised limit close the
connection with a stream limit error. -/
theorem peer_beyond_limit (g : Config) (hd : 0 < g.factorDen) (ops : List Op) (hok : ∀ op ∈ ops, op.Ok)
    (hcr : (after g ops).crashed = false) (hdd : (after g ops).dead = false)
    (id : Nat) (hp : isLocal id (after g ops).isServer = false)
    (hl : (books g ops).adv (isBidi id) ≤ id / 4) :
    (∀ off data fin, ((after g ops).step (.recvStream id off data fin)).2 = .closed (.q .streamLimit)) ∧
    (∀ code F, ((after g ops).step (.recvReset id code F)).2 = .closed (.q .streamLimit)) ∧
    (isBidi id = true → ∀ code, ((after g ops).step (.recvStop id code)).2 = .closed (.q .streamLimit)) ∧
    (isBidi id = true → ∀ m, ((after g ops).step (.recvMaxStreamData id m)).2 = .closed (.q .streamLimit)) := by
  rcases after_inv g hd hok with hI | hc
  · generalize after g ops = c at *
    generalize books g ops = h at *
    have e := inv_over hI (id := id) (by unfold limit; rw [hp]; exact hl)
    rw [hp] at e
    have hlim := (hI.rx hdd).lim
    have hlim' : ¬ c.fc.maxData < c.rxData := by omega
    refine ⟨?_, ?_, ?_, ?_⟩ <;> intros <;> unfold step <;> simp only [hcr, hdd, Bool.false_or, Bool.false_and, Bool.false_eq_true, if_false]
    · unfold recvStream; simp only [hp, Bool.and_false, Bool.false_eq_true, if_false, hlim', e, close]
    · unfold recvReset; simp only [hp, Bool.and_false, Bool.false_eq_true, if_false, hlim', e, close]
    · next hb _ => unfold recvStop; simp only [hp, hb, Bool.not_true, Bool.and_false, Bool.false_eq_true, if_false, e, close]
    · next hb _ => unfold recvMaxStreamData; simp only [hp, hb, Bool.not_true, Bool.false_and, Bool.false_eq_true, if_false, e, close]
  · rw [hcr] at hc; cases hc

/-- **C24.** Opening a local stream beyond the limit granted by the peer fails with a
stream limit error. For `send` the connection limit must not have been reduced below
what was accepted (otherwise the call panics, see C63). -/
theorem local_beyond_limit (g : Config) (hd : 0 < g.factorDen) (ops : List Op) (hok : ∀ op ∈ ops, op.Ok)
    (hcr : (after g ops).crashed = false)
    (id : Nat) (hp : isLocal id (after g ops).isServer = true)
    (hl : (books g ops).grant (isBidi id) ≤ id / 4) :
    ((after g ops).txData ≤ (after g ops).maxTxData → ∀ data fin,
      ((after g ops).step (.send id data fin)).2 = .err .streamLimit) ∧
    (∀ u inc, ((after g ops).step (.priority id u inc)).2 = .err .streamLimit) := by
  rcases after_inv g hd hok with hI | hc
  · generalize after g ops = c at *
    generalize books g ops = h at *
    have e := inv_over hI (id := id) (by unfold limit; rw [hp]; exact hl)
    rw [hp] at e
    refine ⟨?_, ?_⟩ <;> intros <;> unfold step <;> simp only [hcr, Bool.false_or, Bool.and_false, Bool.false_eq_true, if_false, Op.needsAlive]
    · next hx data fin =>
      refine send_refused hx (by simp [hp]) (fun b => ?_) _ _
      have := inv_over (inv_blocked hI b) (id := id) (by unfold limit; simp only; rw [hp]; exact hl)
      simp only [hp] at this
      exact this
    · unfold priority; simp only [e]
  · rw [hcr] at hc; cases hc

/-- **C24.** A frame on a stream that only this endpoint may open and that it has not
opened closes the connection with a stream state error; and the application can neither
write to nor prioritise a stream that only the peer may open and has not opened. -/
theorem wrong_initiator (g : Config) (hd : 0 < g.factorDen) (ops : List Op) (hok : ∀ op ∈ ops, op.Ok)
    (hcr : (after g ops).crashed = false) (id : Nat) (hn : (after g ops).get id = none)
    (hg : (after g ops).isCollected id = false) :
    ((after g ops).dead = false → isLocal id (after g ops).isServer = true →
      (∀ off data fin, ((after g ops).step (.recvStream id off data fin)).2 = .closed (.q (.invalidStreamState id))) ∧
      (∀ code F, ((after g ops).step (.recvReset id code F)).2 = .closed (.q (.invalidStreamState id))) ∧
      (∀ code, ((after g ops).step (.recvStop id code)).2 = .closed (.q (.invalidStreamState id))) ∧
      (∀ m, ((after g ops).step (.recvMaxStreamData id m)).2 = .closed (.q (.invalidStreamState id)))) ∧
    (isLocal id (after g ops).isServer = false →
      ((after g ops).txData ≤ (after g ops).maxTxData → ∀ data fin,
        ((after g ops).step (.send id data fin)).2 = .err (.invalidStreamState id)) ∧
      (∀ u inc, ((after g ops).step (.priority id u inc)).2 = .err (.invalidStreamState id))) := by
  rcases after_inv g hd hok with hI | hc
  · generalize after g ops = c at *
    generalize books g ops = h at *
    constructor
    · intro hdd hp
      have e := inv_wrong hI (loc := false) hn hg (by rw [hp]; decide)
      have hlim := (hI.rx hdd).lim
      have hlim' : ¬ c.fc.maxData < c.rxData := by omega
      refine ⟨?_, ?_, ?_, ?_⟩ <;> intros <;> unfold step <;>
        simp only [hcr, hdd, Bool.false_or, Bool.false_and, Bool.false_eq_true, if_false]
      · unfold recvStream
        cases hb : isBidi id <;> simp [hp, hlim', e, close]
      · unfold recvReset
        cases hb : isBidi id <;> simp [hp, hlim', e, close]
      · unfold recvStop; simp [hp, e, close]
      · unfold recvMaxStreamData; simp [hp, e, close]
    · intro hp
      refine ⟨?_, ?_⟩ <;> intros <;> unfold step <;>
        simp only [hcr, Bool.false_or, Bool.and_false, Bool.false_eq_true, if_false, Op.needsAlive]
      · next hx data fin =>
        cases hb : isBidi id with
        | false => unfold sendData; simp [hp, hb]
        | true =>
          refine send_refused hx (by simp [hb]) (fun b => ?_) _ _
          exact inv_wrong (inv_blocked hI b) (loc := true) hn hg (by show true ≠ isLocal id c.isServer; rw [hp]; decide)
      · have e := inv_wrong hI (loc := true) hn hg (by rw [hp]; decide)
        unfold priority; simp only [e]
  · rw [hcr] at hc; cases hc

/-- A client that advertised two unidirectional streams and may open one bidirectional
stream: the third stream of the peer is refused, and so is its own second one. -/
example : ((start { loc := { uni := 100 }, maxData := 10, maxStreamsUni := 2 }).run
      [.peerParams { bidiRemote := 100 } 10 1 0 50, .recvStream 7 0 [1] false, .send 0 [1] false, .send 4 [1] false,
       .send 2 [1] false, .recvMaxStreams true 2, .send 4 [1] false, .send 1 [1] true, .recvStream 11 0 [1] false]).2.map (·.2) =
    [.ok, .ok, .n 1, .err .streamLimit, .err .streamLimit, .ok, .n 1, .err (.invalidStreamState 1),
     .closed (.q .streamLimit)] := by decide

end Verif.C24
