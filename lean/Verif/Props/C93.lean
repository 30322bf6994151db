import Verif.Props.C92

/-!
C93: after `close()` the peer is told.

`told` gives the conditions under which the next packet carries the CONNECTION_CLOSE. They
are met for a confirmed handshake (`told_confirmed`), but the claim is false in general:

* an application that closes its side while CRYPTO data waits in the Initial or Handshake
  space, or an acknowledgement in the Initial space, is never heard: the packet type chosen
  is that of the earlier space, in which nothing is written any more, and since nothing is
  received any more either this never changes (`never_told_app`). This is the state of every
  client that closes as soon as `is_established()` turns true (`client_example`);
* so is a client that closes during 0-RTT (`never_told_early`);
* so is one whose reason does not fit a packet (`never_told_long`);
* an error code that has no varint encoding panics (`panics`).

Without an idle timeout such a connection never ends (`hangs`).
-/

namespace Verif.Props.C93
open Verif Verif.Life Verif.Frame
open Verif.Props.C90 (Later step_later over_iff final)
open Verif.Props.C91 (frames isClose frames_append)
open Verif.Props.C49 (env0 slot0 fired0)

/-- The room in a packet, by buffer and congestion window. -/
def room (x : Slot) : Nat := min (x.left.getD 0) x.cwnd

theorem ackSent_short (p : Ep) (ty : PktType) (e : CErr) (x : Slot) (left : Nat)
    (h : ty ≠ .handshake ∨ e.isApp = false) : ackSent p ty e x left = false := by
  unfold ackSent
  rcases h with h | h
  · have : (ty == PktType.handshake) = false := by simpa using h
    rw [this]; simp
  · rw [h]; simp

/-- **The CONNECTION_CLOSE is in the next packet** if the packet type chosen can carry it,
there are keys for it, the path is the active one or the only one, and the room suffices
(also for PATH_RESPONSEs and a PATH_CHALLENGE that go before it). -/
theorem told {s : State} {e : CErr} {ty : PktType} {f : Frame} {n : Nat} (x : Slot)
    (hc : s.closed = false) (hd : s.drain = none) (hl : s.localErr = some e)
    (hty : writePktType s e = some (some ty)) (hk : (s.env.ep ty).sealKey = true)
    (hf : closeFrame ty e = some f) (hn : wireLen f = some n)
    (hp : x.active = true ∨ s.env.nPaths = 1)
    (hr : x.left ≠ none ∧ n + 9 * x.challenges + 9 ≤ room x) (now : Nat) (h : Hs) (g : Free)
    (rest : List (Slot × Free)) :
    ∃ fr more, (send s now h ((x, g) :: rest)).2 = .sent ty (fr ++ [.close e]) :: more ∧
      frames more = [] ∧ (send s now h ((x, g) :: rest)).1.drain = some (now + 3 * x.pto) := by
  obtain ⟨left, hleft⟩ : ∃ left, x.left = some left := by
    cases hx : x.left with
    | none => exact absurd hx hr.1
    | some l => exact ⟨l, rfl⟩
  have hroom : n + 9 * x.challenges + 9 ≤ min left x.cwnd := by
    have := hr.2; unfold room at this; rw [hleft] at this; exact this
  have hkr : ((s.env.ep ty).requeue x).sealKey = true := by
    unfold Ep.requeue; split <;> exact hk
  have hack : ackSent ((s.env.ep ty).requeue x) ty e x left = false := by
    apply ackSent_short
    cases he : e.isApp with
    | false => exact Or.inr rfl
    | true =>
      left
      unfold closeFrame at hf
      rw [he] at hf
      simp only [if_true] at hf
      split at hf
      · rename_i h; rw [h]; simp
      · simp at hf
  have hnp : (s.env.setEp ty ((s.env.ep ty).requeue x)).nPaths = s.env.nPaths := by
    cases ty <;> rfl
  have key : ∃ fr, (closingPacket s e now x ty).2 = .sent ty (fr ++ [.close e]) ∧
      (closingPacket s e now x ty).1.drain = some (now + 3 * x.pto) := by
    unfold closingPacket
    dsimp only
    rw [hkr, hleft]
    simp only [Bool.not_true, Bool.false_eq_true, if_false]
    rw [hack, hnp]
    have hra : roomAfterAck false x left = min left x.cwnd := rfl
    rw [hra]
    generalize hm : min left x.cwnd = m at hroom
    have hresp : responses ty x m ≤ x.challenges := by
      unfold responses; split
      · exact Nat.min_le_left _ _
      · exact Nat.zero_le _
    generalize responses ty x m = k at hresp
    generalize challengeSent ty x (m - 9 * k) = ch
    have hcs : closeSent ty e x s.env.nPaths (m - 9 * k - if ch = true then 9 else 0) =
        some true := by
      unfold closeSent
      have : (x.active || s.env.nPaths == 1) = true := by
        rcases hp with hp | hp
        · rw [hp]; rfl
        · rw [hp]; simp
      rw [if_pos this, hf]
      dsimp only
      rw [hn]
      dsimp only
      have : n ≤ m - 9 * k - if ch = true then 9 else 0 := by
        split <;> omega
      rw [decide_eq_true this]
    rw [hcs]
    dsimp only
    have hne : (closingFrames false k ch true e).isEmpty = false := by
      unfold closingFrames; simp
    rw [hne]
    refine ⟨[] ++ List.replicate k .pathResponse ++ (if ch = true then [.pathChallenge] else []),
      rfl, ?_⟩
    simp only [Bool.false_eq_true, if_false]
    exact congrArg Core.drain (finishSend_core _ now ty _)
  obtain ⟨fr, k1, k2⟩ := key
  have hs : sendSingle s now x g = closingPacket s e now x ty := by
    unfold sendSingle
    rw [if_neg (by rw [hd]; simp), hl]
    dsimp only
    rw [hty]
  have hsend : send s now h ((x, g) :: rest) = sendLoop s now ((x, g) :: rest) := by
    unfold send
    rw [if_neg (by rw [hc, hd]; simp), if_pos (by rw [hl]; rfl)]
  rw [hsend]
  simp only [sendLoop]
  obtain ⟨s', r, hcp⟩ : ∃ s' r, closingPacket s e now x ty = (s', r) := ⟨_, _, rfl⟩
  rw [hcp] at k1 k2
  dsimp only at k1 k2
  rw [hs, hcp, k1]
  dsimp only
  split
  · exact ⟨fr, [], rfl, rfl, k2⟩
  · refine ⟨fr, (sendLoop s' now rest).2, rfl, ?_, ?_⟩
    · exact C91.frames_sendLoop_drain now rest s' (by rw [k2]; rfl)
    · exact (C90.sendLoop_later now rest s').drain _ k2

/-- The handshake is confirmed: only the keys of the application epoch are left. -/
structure Confirmed (s : State) : Prop where
  initial : s.env.initial.sealKey = false
  handshake : s.env.handshake.sealKey = false
  app : s.env.app.sealKey = true
  established : s.env.established = true
  early : s.env.earlyData = false
  level : s.env.writeLevel = .oneRtt
  confirmed : s.env.confirmed = true

/-- The CONNECTION_CLOSE frame of an error. -/
def frameOf (e : CErr) : Frame :=
  if e.isApp then .applicationClose e.code e.reason else .connectionClose e.code 0 e.reason

/-- **Once the handshake is confirmed the next packet sent after `close()` carries the error**,
room and path permitting, in a 1-RTT packet. -/
theorem told_confirmed {s : State} {e : CErr} {n : Nat} (h : Confirmed s) (x : Slot)
    (hc : s.closed = false) (hd : s.drain = none) (hl : s.localErr = some e)
    (hn : wireLen (frameOf e) = some n) (hp : x.active = true ∨ s.env.nPaths = 1)
    (hr : x.left ≠ none ∧ n + 9 * x.challenges + 9 ≤ room x) (now : Nat) (hs : Hs) (g : Free)
    (rest : List (Slot × Free)) :
    ∃ fr more, (send s now hs ((x, g) :: rest)).2 = .sent .short (fr ++ [.close e]) :: more ∧
      frames more = [] ∧ (send s now hs ((x, g) :: rest)).1.drain = some (now + 3 * x.pto) := by
  refine told (ty := .short) (f := frameOf e) x hc hd hl ?_ h.app ?_ hn hp hr now hs g rest
  · unfold writePktType Ep.wants
    rw [h.initial, h.handshake, h.established, h.early, h.level, h.confirmed]
    cases e.isApp <;> simp
  · unfold closeFrame frameOf
    cases e.isApp <;> simp

/-! ### Where the peer is never told -/

/-- Closing for the application while an earlier space has something to send that is not
sent any more. -/
def Stuck (s : State) : Prop :=
  ∃ e, s.localErr = some e ∧ e.isApp = true ∧ s.drain = none ∧
    ((s.env.initial.sealKey = true ∧
        (s.env.initial.data = true ∨ s.env.initial.ackElicited = true)) ∨
     (s.env.initial.sealKey = false ∧ s.env.handshake.sealKey = true ∧
        s.env.handshake.data = true))

/-- Packets of a type other than 1-RTT never carry an application's close. -/
theorem closingPacket_no_close {s : State} {e : CErr} (he : e.isApp = true) (now : Nat)
    (x : Slot) {ty : PktType} (hty : ty ≠ .short) (hd : s.drain = none) :
    (∀ fr ∈ frames [(closingPacket s e now x ty).2], isClose fr = false) ∧
      (closingPacket s e now x ty).1.drain = none ∧
      (closingPacket s e now x ty).1.localErr = s.localErr := by
  rcases closingPacket_spec s e now x ty with ⟨v, h1, h2⟩ |
    ⟨v, ack, n, chal, c, el, h1, h2, hcf, _⟩
  · rw [h1]
    refine ⟨?_, hd, rfl⟩
    rcases h2 with h2 | h2 <;> rw [h2] <;> simp [frames]
  · have hc : c = false := by
      cases c with
      | false => rfl
      | true =>
        obtain ⟨_, f, _, _, hx, _⟩ := hcf rfl
        unfold closeFrame at hx
        rw [he] at hx
        simp [hty] at hx
    subst hc
    rw [h1, h2]
    refine ⟨?_, ?_, ?_⟩
    · obtain ⟨_, h | ⟨h, _⟩⟩ := C91.closingFrames_says ack n chal false e
      · simpa [frames] using h.2
      · simp at h
    · exact (congrArg Core.drain (finishSend_core
        { s with env := v, drain := drainAfter s now x false } now ty el)).trans hd
    · exact congrArg Core.localErr (finishSend_core
        { s with env := v, drain := drainAfter s now x false } now ty el)

theorem requeue_keeps (e : Ep) (x : Slot) : (e.requeue x).sealKey = e.sealKey ∧
    (e.data = true → (e.requeue x).data = true) ∧
    (e.requeue x).ackElicited = e.ackElicited := by
  unfold Ep.requeue
  split
  · exact ⟨rfl, fun h => by dsimp only; rw [h]; rfl, rfl⟩
  · exact ⟨rfl, id, rfl⟩

/-- In a stuck state no frame can be written in an Initial packet, and the waiting data and
acknowledgement stay. -/
theorem initial_stuck {s : State} {e : CErr} (he : e.isApp = true)
    (hw : s.env.initial.data = true ∨ s.env.initial.ackElicited = true) (now : Nat) (x : Slot) :
    (closingPacket s e now x .initial).1.env.initial.sealKey = s.env.initial.sealKey ∧
    ((closingPacket s e now x .initial).1.env.initial.data = true ∨
      (closingPacket s e now x .initial).1.env.initial.ackElicited = true) ∧
    (closingPacket s e now x .initial).1.env.handshake = s.env.handshake := by
  have hrq : ((s.env.ep .initial).requeue x).sealKey = s.env.initial.sealKey ∧
      (((s.env.ep .initial).requeue x).data = true ∨
        ((s.env.ep .initial).requeue x).ackElicited = true) := by
    obtain ⟨r1, r2, r3⟩ := requeue_keeps s.env.initial x
    refine ⟨r1, ?_⟩
    rcases hw with hw | hw
    · exact Or.inl (r2 hw)
    · exact Or.inr (r3.trans hw)
  unfold closingPacket
  dsimp only
  split
  · exact ⟨hrq.1, hrq.2, rfl⟩
  · split
    · exact ⟨hrq.1, hrq.2, rfl⟩
    · rename_i left _
      have hack : ackSent ((s.env.ep .initial).requeue x) .initial e x left = false :=
        ackSent_short _ _ _ _ _ (Or.inl (by simp))
      rw [hack]
      have hn : responses .initial x (roomAfterAck false x left) = 0 := rfl
      rw [hn]
      have hch : ∀ m, challengeSent .initial x m = false := fun m => rfl
      rw [hch]
      have hcs : ∀ np m, closeSent .initial e x np m = some false := by
        intro np m
        unfold closeSent closeFrame
        rw [he]
        simp
      rw [hcs]
      dsimp only
      have : (closingFrames false 0 false false e).isEmpty = true := rfl
      rw [this]
      exact ⟨hrq.1, hrq.2, rfl⟩

/-- A Handshake packet leaves the waiting CRYPTO data where it is. -/
theorem handshake_stuck {s : State} {e : CErr} (now : Nat) (x : Slot)
    (hi : s.env.initial.sealKey = false)
    (hk : s.env.handshake.sealKey = true) (hw : s.env.handshake.data = true) :
    (closingPacket s e now x .handshake).1.env.handshake.sealKey = true ∧
    (closingPacket s e now x .handshake).1.env.handshake.data = true ∧
    (closingPacket s e now x .handshake).1.env.initial.sealKey = false := by
  have hrq : ((s.env.ep .handshake).requeue x).sealKey = true ∧
      ((s.env.ep .handshake).requeue x).data = true := by
    obtain ⟨r1, r2, _⟩ := requeue_keeps s.env.handshake x
    exact ⟨r1.trans hk, r2 hw⟩
  have hfin : ∀ (t : State) (el : Bool), t.env.initial.sealKey = false →
      (t.finishSend now .handshake el).env.handshake = t.env.handshake ∧
      (t.finishSend now .handshake el).env.initial.sealKey = false := by
    intro t el ht
    unfold State.finishSend
    dsimp only
    by_cases c1 : (!t.isServer && PktType.handshake == PktType.handshake) = true
    · rw [if_pos c1]
      by_cases c2 : (el && !t.aeSent) = true
      · rw [if_pos c2]
        rw [restartIdle_env]
        refine ⟨rfl, ?_⟩
        dsimp only
        unfold Ep.drop; split
        · rfl
        · exact ht
      · rw [if_neg c2]
        refine ⟨rfl, ?_⟩
        dsimp only
        unfold Ep.drop; split
        · rfl
        · exact ht
    · rw [if_neg c1]
      by_cases c2 : (el && !t.aeSent) = true
      · rw [if_pos c2, restartIdle_env]; exact ⟨rfl, ht⟩
      · rw [if_neg c2]; exact ⟨rfl, ht⟩
  unfold closingPacket
  dsimp only
  split
  · exact ⟨hrq.1, hrq.2, hi⟩
  · split
    · exact ⟨hrq.1, hrq.2, hi⟩
    · split
      · exact ⟨hrq.1, hrq.2, hi⟩
      · split
        · exact ⟨hrq.1, hrq.2, hi⟩
        · rename_i c _ _
          dsimp only
          generalize hg : ({ s with env := _, drain := _ } : State) = t
          generalize (decide (0 < _) || _ || c : Bool) = el
          have ht : t.env.initial.sealKey = false := by rw [← hg]; exact hi
          obtain ⟨g1, g2⟩ := hfin t el ht
          rw [g1]
          refine ⟨?_, ?_, g2⟩
          · rw [← hg]; exact hrq.1
          · rw [← hg]; exact hrq.2

theorem sendSingle_stuck {s : State} (h : Stuck s) (now : Nat) (x : Slot) (f : Free) :
    Stuck (sendSingle s now x f).1 ∧
      ∀ fr ∈ frames [(sendSingle s now x f).2], isClose fr = false := by
  obtain ⟨e, hl, he, hd, hc⟩ := h
  unfold sendSingle
  rw [if_neg (by rw [hd]; simp), hl]
  dsimp only
  rcases hc with ⟨hk, hw⟩ | ⟨hi, hk, hw⟩
  · have hty : writePktType s e = some (some .initial) := by
      unfold writePktType Ep.wants
      rw [he, hk]
      rcases hw with hw | hw <;> rw [hw] <;> simp
    rw [hty]
    dsimp only
    obtain ⟨h1, h2, h3⟩ := closingPacket_no_close (s := s) he now x (ty := .initial) (by simp) hd
    obtain ⟨g1, g2, _⟩ := initial_stuck (s := s) he hw now x
    exact ⟨⟨e, h3.trans hl, he, h2, Or.inl ⟨g1.trans hk, g2⟩⟩, h1⟩
  · have hty : writePktType s e = some (some .handshake) := by
      unfold writePktType Ep.wants
      rw [he, hi, hk, hw]
      simp
    rw [hty]
    dsimp only
    obtain ⟨h1, h2, h3⟩ := closingPacket_no_close (s := s) he now x (ty := .handshake)
      (by simp) hd
    obtain ⟨g1, g2, g3⟩ := handshake_stuck (s := s) (e := e) now x hi hk hw
    exact ⟨⟨e, h3.trans hl, he, h2, Or.inr ⟨g3, g1, g2⟩⟩, h1⟩

theorem sendLoop_stuck (now : Nat) : ∀ (l : List (Slot × Free)) {s : State}, Stuck s →
    Stuck (sendLoop s now l).1 ∧
      ∀ fr ∈ frames (sendLoop s now l).2, isClose fr = false := by
  intro l
  induction l with
  | nil => intro s h; exact ⟨h, by simp [sendLoop, frames]⟩
  | cons y l ih =>
    obtain ⟨x, f⟩ := y
    intro s h
    obtain ⟨h1, h2⟩ := sendSingle_stuck h now x f
    simp only [sendLoop]
    obtain ⟨s', r, hr⟩ : ∃ s' r, sendSingle s now x f = (s', r) := ⟨_, _, rfl⟩
    rw [hr] at h1 h2 ⊢
    cases r with
    | sent ty fr =>
      dsimp only at h1 h2 ⊢
      split
      · exact ⟨h1, h2⟩
      · obtain ⟨g1, g2⟩ := ih h1
        refine ⟨g1, fun z hz => ?_⟩
        simp only [frames, List.mem_append] at hz
        rcases hz with hz | hz
        · exact h2 z (by simpa [frames] using hz)
        · exact g2 z hz
    | done => exact ⟨h1, h2⟩
    | err => exact ⟨h1, h2⟩
    | panic => exact ⟨h1, h2⟩

theorem Stuck.congr {s t : State} (h : Stuck s) (h1 : t.localErr = s.localErr)
    (h2 : t.drain = s.drain) (h3 : t.env.initial.sealKey = s.env.initial.sealKey)
    (h4 : t.env.initial.data = s.env.initial.data)
    (h5 : t.env.initial.ackElicited = s.env.initial.ackElicited)
    (h6 : t.env.handshake.sealKey = s.env.handshake.sealKey)
    (h7 : t.env.handshake.data = s.env.handshake.data) : Stuck t := by
  unfold Stuck at *
  rw [h1, h2, h3, h4, h5, h6, h7]
  exact h

theorem fire_keeps (v : Env) (now : Nat) (t : Fired) :
    ((v.expireKeys now).fire now t).initial.sealKey = v.initial.sealKey ∧
    ((v.expireKeys now).fire now t).initial.data = v.initial.data ∧
    ((v.expireKeys now).fire now t).initial.ackElicited = v.initial.ackElicited ∧
    ((v.expireKeys now).fire now t).handshake.sealKey = v.handshake.sealKey ∧
    ((v.expireKeys now).fire now t).handshake.data = v.handshake.data ∧
    ((v.expireKeys now).fire now t).peerIdle = v.peerIdle := by
  unfold Env.fire Env.expireKeys Ep.fire
  split
  · split <;> exact ⟨rfl, rfl, rfl, rfl, rfl, rfl⟩
  · split <;> exact ⟨rfl, rfl, rfl, rfl, rfl, rfl⟩

theorem onTimeout_stuck {s : State} (h : Stuck s) (now : Nat) (t : Fired) :
    Stuck (onTimeout s now t) := by
  have hd : s.drain = none := by obtain ⟨_, _, _, hd, _⟩ := h; exact hd
  unfold onTimeout
  rw [if_neg (by rw [hd]; simp)]
  split
  · exact h.congr rfl rfl rfl rfl rfl rfl rfl
  · obtain ⟨f1, f2, f3, f4, f5, _⟩ := fire_keeps s.env now t
    unfold State.needPath
    split
    · exact h.congr rfl rfl f1 f2 f3 f4 f5
    · exact h.congr rfl rfl f1 f2 f3 f4 f5
    · exact h.congr rfl rfl f1 f2 f3 f4 f5

theorem step_stuck {s : State} (h : Stuck s) (e : Ev) :
    Stuck (step s e) ∧ ∀ fr ∈ frames (out s e), isClose fr = false := by
  have hl : s.localErr.isSome = true := by
    obtain ⟨e, hl, _⟩ := h; rw [hl]; rfl
  cases e with
  | recv now l =>
    refine ⟨?_, by simp [out, frames]⟩
    simp only [step]
    rcases C90.deaf (Or.inr hl) now l with g | ⟨g, _⟩
    · rw [g]; exact h
    · rw [g]; exact h.congr rfl rfl rfl rfl rfl rfl rfl
  | send now hs l =>
    simp only [step, out, send]
    split
    · exact ⟨h, by simp [frames]⟩
    · exact sendLoop_stuck now l h
  | timeout now t => exact ⟨onTimeout_stuck h now t, by simp [out, frames]⟩
  | close a c r =>
    refine ⟨?_, by simp [out, frames]⟩
    simp only [step]; rw [close_closing hl]; exact h
  | api p n ts => exact ⟨h.congr rfl rfl rfl rfl rfl rfl rfl, by simp [out, frames]⟩

/-- **An application that closes while an earlier packet number space has CRYPTO data to
send, or an acknowledgement in the Initial space, never tells the peer**, whatever happens
afterwards. -/
theorem never_told_app {s : State} (h : Stuck s) (evs : List Ev) :
    (∀ fr ∈ frames (sent s evs), isClose fr = false) ∧ (run s evs).drain = none := by
  have key : ∀ (evs : List Ev) (s : State), Stuck s →
      (∀ fr ∈ frames (sent s evs), isClose fr = false) ∧ Stuck (run s evs) := by
    intro evs
    induction evs with
    | nil => intro s h; exact ⟨by simp [sent, frames], h⟩
    | cons e evs ih =>
      intro s h
      obtain ⟨h1, h2⟩ := step_stuck h e
      obtain ⟨g1, g2⟩ := ih _ h1
      refine ⟨fun fr hf => ?_, g2⟩
      simp only [sent] at hf
      rw [frames_append] at hf
      rcases List.mem_append.1 hf with hf | hf
      · exact h2 fr hf
      · exact g1 fr hf
  obtain ⟨h1, _, _, _, h2, _⟩ := key evs s h
  exact ⟨h1, h2⟩

/-- A client that has just processed the server's first flight: its own Finished waits in
the Handshake space, and the server's Initial is to be acknowledged. -/
def clientEnv : Env :=
  let e : Ep := ⟨true, true, false, true, true, false, false⟩
  { env0 with confirmed := false, initial := e, handshake := { e with data := true },
              app := { e with ackElicited := false, needAck := false }, peerIdle := 0 }

/-- **A client that closes when the handshake completes**: `is_established()` holds, `close()`
succeeds, and in no continuation is a CONNECTION_CLOSE sent. -/
theorem client_example (evs : List Ev) :
    let s := run (State.new false 0 clientEnv)
      [.recv 0 [(.accepted clientEnv none [], false)], .close true 7 [1]]
    s.localErr = some ⟨true, 7, [1]⟩ ∧ s.closed = false ∧
    (∀ fr ∈ frames (sent s evs), isClose fr = false) ∧ (run s evs).drain = none := by
  intro s
  have hs : s = { State.new false 0 clientEnv with
      recvCount := 1, localErr := some ⟨true, 7, [1]⟩ } := by
    show run (State.new false 0 clientEnv) _ = _
    decide +kernel
  refine ⟨by rw [hs], by rw [hs]; rfl, never_told_app ?_ evs⟩
  rw [hs]
  exact ⟨_, rfl, rfl, rfl, Or.inl ⟨rfl, Or.inr rfl⟩⟩

/-- The peer is told is false: here it never is, although the path is open, the application
keeps sending and handling timeouts. -/
theorem told_false : ∃ s : State, s.localErr ≠ none ∧ s.closed = false ∧ s.drain = none ∧
    ∀ evs, ∀ fr ∈ frames (sent s evs), isClose fr = false :=
  ⟨_, by rw [(client_example []).1]; simp, (client_example []).2.1,
    (client_example []).2.2.2, fun evs => (client_example evs).2.2.1⟩

/-! ### Without an idle timeout such a connection never ends -/

/-- Events that do not end a connection by themselves: no stateless reset, no loss of the
active path. -/
def Harmless : Ev → Prop
  | .recv _ l => ∀ p r, l ≠ (p, true) :: r
  | .timeout _ t => t.pto ≠ none
  | .api p _ _ => p ≠ none
  | _ => True

/-- A stuck connection for which neither endpoint stated an idle timeout. -/
structure Hung (s : State) : Prop where
  stuck : Stuck s
  closed : s.closed = false
  idle : s.idle = none
  localIdle : s.localIdle = 0
  peerIdle : s.env.peerIdle = 0
  pto : s.env.pto ≠ none

theorem restartIdle_none {s : State} (h : s.localIdle = 0) (h' : s.env.peerIdle = 0)
    (now : Nat) : s.restartIdle now = s := by
  have : idleTimeout s.localIdle s.env.peerIdle s.env.pto = none := by
    rw [h, h']; rfl
  unfold State.restartIdle
  rw [this]

theorem finishSend_none {s : State} (h : s.localIdle = 0) (h' : s.env.peerIdle = 0)
    (now : Nat) (ty : PktType) (el : Bool) :
    (s.finishSend now ty el).idle = s.idle ∧
    (s.finishSend now ty el).env.peerIdle = s.env.peerIdle ∧
    (s.finishSend now ty el).env.pto = s.env.pto := by
  unfold State.finishSend
  dsimp only
  by_cases c1 : (!s.isServer && ty == PktType.handshake) = true
  · rw [if_pos c1]
    by_cases c2 : (el && !s.aeSent) = true
    · rw [if_pos c2]
      rw [restartIdle_none (s := { s with env := { s.env with initial := s.env.initial.drop } })
        h h' now]
      exact ⟨rfl, rfl, rfl⟩
    · rw [if_neg c2]; exact ⟨rfl, rfl, rfl⟩
  · rw [if_neg c1]
    by_cases c2 : (el && !s.aeSent) = true
    · rw [if_pos c2, restartIdle_none h h' now]; exact ⟨rfl, rfl, rfl⟩
    · rw [if_neg c2]; exact ⟨rfl, rfl, rfl⟩

theorem setEp_keeps (v : Env) (ty : PktType) (e : Ep) :
    (v.setEp ty e).peerIdle = v.peerIdle ∧ (v.setEp ty e).pto = v.pto := by
  cases ty <;> exact ⟨rfl, rfl⟩

theorem closingPacket_none {s : State} (h : s.localIdle = 0) (h' : s.env.peerIdle = 0)
    (e : CErr) (now : Nat) (x : Slot) (ty : PktType) :
    (closingPacket s e now x ty).1.idle = s.idle ∧
    (closingPacket s e now x ty).1.env.peerIdle = s.env.peerIdle ∧
    (closingPacket s e now x ty).1.env.pto = s.env.pto := by
  obtain ⟨k1, k2⟩ := setEp_keeps s.env ty ((s.env.ep ty).requeue x)
  unfold closingPacket
  dsimp only
  split
  · exact ⟨rfl, k1, k2⟩
  · split
    · exact ⟨rfl, k1, k2⟩
    · split
      · exact ⟨rfl, k1, k2⟩
      · split
        · exact ⟨rfl, k1, k2⟩
        · rename_i left _ _ c _ _
          dsimp only
          generalize hep : Ep.built _ x _ _ = ep
          obtain ⟨m1, m2⟩ := setEp_keeps (s.env.setEp ty ((s.env.ep ty).requeue x)) ty ep
          generalize hg : ({ s with env := _, drain := _ } : State) = t
          generalize (decide (0 < _) || _ || c : Bool) = el
          have ht1 : t.localIdle = 0 := by rw [← hg]; exact h
          have ht2 : t.env.peerIdle = s.env.peerIdle := by rw [← hg]; exact m1.trans k1
          have ht3 : t.env.pto = s.env.pto := by rw [← hg]; exact m2.trans k2
          have ht4 : t.idle = s.idle := by rw [← hg]
          obtain ⟨g1, g2, g3⟩ := finishSend_none ht1 (ht2.trans h') now ty el
          exact ⟨g1.trans ht4, g2.trans ht2, g3.trans ht3⟩

theorem sendSingle_none {s : State} (h : s.localIdle = 0) (h' : s.env.peerIdle = 0)
    (hl : s.localErr ≠ none) (now : Nat) (x : Slot) (f : Free) :
    (sendSingle s now x f).1.idle = s.idle ∧
    (sendSingle s now x f).1.env.peerIdle = s.env.peerIdle ∧
    (sendSingle s now x f).1.env.pto = s.env.pto := by
  unfold sendSingle
  split
  · exact ⟨rfl, rfl, rfl⟩
  · split
    · split
      · exact ⟨rfl, rfl, rfl⟩
      · exact ⟨rfl, rfl, rfl⟩
      · exact closingPacket_none h h' _ now x _
    · rename_i hx; exact absurd hx hl

theorem Hung.localErr {s : State} (h : Hung s) : s.localErr ≠ none := by
  obtain ⟨e, hl, _⟩ := h.stuck
  rw [hl]; simp

theorem sendSingle_core (s : State) (now : Nat) (x : Slot) (f : Free) :
    (sendSingle s now x f).1.closed = s.closed ∧
    (sendSingle s now x f).1.localIdle = s.localIdle := by
  unfold sendSingle
  split
  · exact ⟨rfl, rfl⟩
  · split
    · rename_i e _
      split
      · exact ⟨rfl, rfl⟩
      · exact ⟨rfl, rfl⟩
      · rename_i ty _
        rcases closingPacket_spec s e now x ty with ⟨v, h1, _⟩ | ⟨v, _, _, _, c, el, h1, _⟩
        · rw [h1]; exact ⟨rfl, rfl⟩
        · rw [h1]
          have := finishSend_core { s with env := v, drain := drainAfter s now x c } now ty el
          exact ⟨congrArg Core.closed this, congrArg Core.localIdle this⟩
    · split
      · exact ⟨rfl, rfl⟩
      · exact ⟨rfl, rfl⟩
      · rename_i env ty el
        have := finishSend_core { s with env := env } now ty el
        exact ⟨congrArg Core.closed this, congrArg Core.localIdle this⟩

theorem sendSingle_hung {s : State} (h : Hung s) (now : Nat) (x : Slot) (f : Free) :
    Hung (sendSingle s now x f).1 := by
  obtain ⟨h1, h2, h3⟩ := sendSingle_none h.localIdle h.peerIdle h.localErr now x f
  obtain ⟨g1, g2⟩ := sendSingle_core s now x f
  exact ⟨(sendSingle_stuck h.stuck now x f).1, g1.trans h.closed, h1.trans h.idle,
    g2.trans h.localIdle, h2.trans h.peerIdle, by rw [h3]; exact h.pto⟩

theorem sendLoop_hung (now : Nat) : ∀ (l : List (Slot × Free)) {s : State}, Hung s →
    Hung (sendLoop s now l).1 := by
  intro l
  induction l with
  | nil => intro s h; exact h
  | cons y l ih =>
    obtain ⟨x, f⟩ := y
    intro s h
    have h1 := sendSingle_hung h now x f
    simp only [sendLoop]
    obtain ⟨s', r, hr⟩ : ∃ s' r, sendSingle s now x f = (s', r) := ⟨_, _, rfl⟩
    rw [hr] at h1 ⊢
    cases r with
    | sent ty fr =>
      dsimp only at h1 ⊢
      split
      · exact h1
      · exact ih h1
    | done => exact h1
    | err => exact h1
    | panic => exact h1

theorem fire_pto {v : Env} (h : v.pto ≠ none) (now : Nat) {t : Fired} (ht : t.pto ≠ none) :
    ((v.expireKeys now).fire now t).pto ≠ none := by
  have h1 : (v.expireKeys now).pto = v.pto := by
    unfold Env.expireKeys; split <;> rfl
  unfold Env.fire
  split
  · exact ht
  · rw [h1]; exact h

theorem step_hung {s : State} (h : Hung s) (e : Ev) (he : Harmless e) : Hung (step s e) := by
  have hst := (step_stuck h.stuck e).1
  have hl : s.localErr.isSome = true := by
    obtain ⟨e, hl, _⟩ := h.stuck; rw [hl]; rfl
  cases e with
  | recv now l =>
    simp only [step]
    rcases C90.deaf (Or.inr hl) now l with g | ⟨_, p, r, hr⟩
    · rw [g]; exact h
    · exact absurd hr (he p r)
  | send now hs l =>
    simp only [step, send]
    split
    · exact h
    · exact sendLoop_hung now l h
  | timeout now t =>
    have hd : s.drain = none := by obtain ⟨_, _, _, hd, _⟩ := h.stuck; exact hd
    simp only [step] at hst ⊢
    unfold onTimeout at hst ⊢
    rw [if_neg (by rw [hd]; simp)] at hst ⊢
    rw [if_neg (by rw [h.idle]; simp [expired])] at hst ⊢
    have hp := fire_pto h.pto now (t := t) he
    have hi := (fire_keeps s.env now t).2.2.2.2.2
    unfold State.needPath at hst ⊢
    split at hst
    · exact ⟨hst, h.closed, h.idle, h.localIdle, hi.trans h.peerIdle, hp⟩
    · rename_i hx _; exact absurd hx hp
    · rename_i hx _; exact absurd hx hp
  | close a c r => simp only [step]; rw [close_closing hl]; exact h
  | api p n ts => exact ⟨hst, h.closed, h.idle, h.localIdle, h.peerIdle, he⟩

/-- **Without an idle timeout a stuck connection neither closes nor drains, ever**, whatever
is sent and received and however many timeouts are handled. -/
theorem hangs {s : State} (h : Hung s) (evs : List Ev) (he : ∀ e ∈ evs, Harmless e) :
    (run s evs).closed = false ∧ (run s evs).drain = none := by
  have key : ∀ (evs : List Ev) (s : State), Hung s → (∀ e ∈ evs, Harmless e) →
      Hung (run s evs) := by
    intro evs
    induction evs with
    | nil => intro s h _; exact h
    | cons e evs ih =>
      intro s h he
      exact ih _ (step_hung h e (he e List.mem_cons_self))
        (fun x hx => he x (List.mem_cons_of_mem _ hx))
  have hk := key evs s h he
  obtain ⟨_, _, _, hd, _⟩ := hk.stuck
  exact ⟨hk.closed, hd⟩

/-- The client of `client_example`, whose endpoints state no idle timeout, is hung. -/
example : Hung (run (State.new false 0 clientEnv)
    [.recv 0 [(.accepted clientEnv none [], false)], .close true 7 [1]]) := by
  have hs : run (State.new false 0 clientEnv)
      [.recv 0 [(.accepted clientEnv none [], false)], .close true 7 [1]] =
      { State.new false 0 clientEnv with
        recvCount := 1, localErr := some ⟨true, 7, [1]⟩ } := by
    decide +kernel
  rw [hs]
  exact ⟨⟨_, rfl, rfl, rfl, Or.inl ⟨rfl, Or.inr rfl⟩⟩, rfl, rfl, rfl, rfl,
    by simp [State.new, clientEnv, env0]⟩

/-! ### A reason that does not fit -/

/-- Every packet of the run has less room than the CONNECTION_CLOSE needs. -/
def TooSmall (n : Nat) : Ev → Prop
  | .send _ _ l => ∀ y ∈ l, ∀ left, y.1.left = some left → left < n
  | _ => True

theorem sendSingle_long {s : State} {e : CErr} {n : Nat} (hl : s.localErr = some e)
    (hn : wireLen (frameOf e) = some n) (now : Nat) (x : Slot) (f : Free)
    (hx : ∀ left, x.left = some left → left < n) :
    ∀ fr ∈ frames [(sendSingle s now x f).2], isClose fr = false := by
  unfold sendSingle
  split
  · simp [frames]
  · rw [hl]
    dsimp only
    split
    · simp [frames]
    · simp [frames]
    · rename_i ty _
      rcases closingPacket_spec s e now x ty with ⟨v, _, h2⟩ |
        ⟨v, ack, k, chal, c, el, _, h2, hcf, _⟩
      · rcases h2 with h2 | h2 <;> rw [h2] <;> simp [frames]
      · have hc : c = false := by
          cases c with
          | false => rfl
          | true =>
            obtain ⟨left, fr, m, hle, hfr, hm, hml⟩ := hcf rfl
            have : fr = frameOf e := by
              unfold closeFrame at hfr
              unfold frameOf
              split at hfr
              · rename_i ha
                split at hfr
                · rw [if_pos ha]; exact (Option.some.inj hfr).symm
                · simp at hfr
              · rename_i ha
                rw [if_neg ha]; exact (Option.some.inj hfr).symm
            rw [this, hn] at hm
            have := hx left hle
            have := Option.some.inj hm
            omega
        subst hc
        rw [h2]
        obtain ⟨_, h | ⟨h, _⟩⟩ := C91.closingFrames_says ack k chal false e
        · simpa [frames] using h.2
        · simp at h

/-- **An error whose reason does not fit the packets is never sent**: it is not shortened. -/
theorem never_told_long {s : State} {e : CErr} {n : Nat} (hl : s.localErr = some e)
    (hn : wireLen (frameOf e) = some n) (evs : List Ev) (hs : ∀ ev ∈ evs, TooSmall n ev) :
    ∀ fr ∈ frames (sent s evs), isClose fr = false := by
  have hloop : ∀ (now : Nat) (l : List (Slot × Free)) (s : State), s.localErr = some e →
      (∀ y ∈ l, ∀ left, y.1.left = some left → left < n) →
      ∀ fr ∈ frames (sendLoop s now l).2, isClose fr = false := by
    intro now l
    induction l with
    | nil => intro s _ _; simp [sendLoop, frames]
    | cons y l ih =>
      obtain ⟨x, f⟩ := y
      intro s hl hy
      have h1 := sendSingle_long hl hn now x f (hy _ List.mem_cons_self)
      have h2 := (C90.sendSingle_later s now x f).localErr e hl
      simp only [sendLoop]
      obtain ⟨s', r, hr⟩ : ∃ s' r, sendSingle s now x f = (s', r) := ⟨_, _, rfl⟩
      rw [hr] at h1 h2 ⊢
      cases r with
      | sent ty fr =>
        dsimp only at h1 h2 ⊢
        split
        · exact h1
        · intro z hz
          simp only [frames, List.mem_append] at hz
          rcases hz with hz | hz
          · exact h1 z (by simpa [frames] using hz)
          · exact ih s' h2 (fun y hy' => hy y (List.mem_cons_of_mem _ hy')) z hz
      | done => exact h1
      | err => exact h1
      | panic => exact h1
  induction evs generalizing s with
  | nil => simp [sent, frames]
  | cons ev evs ih =>
    intro fr hf
    simp only [sent] at hf
    rw [frames_append] at hf
    rcases List.mem_append.1 hf with hf | hf
    · cases ev with
      | send now h l =>
        have hts := hs _ List.mem_cons_self
        simp only [out, send] at hf
        split at hf
        · simp [frames] at hf
        · rw [if_pos (by rw [hl]; rfl)] at hf
          exact hloop now l s hl hts fr hf
      | recv now l => simp [out, frames] at hf
      | timeout now t => simp [out, frames] at hf
      | close a c r => simp [out, frames] at hf
      | api p n ts => simp [out, frames] at hf
    · exact ih ((step_later s ev).localErr e hl)
        (fun x hx => hs x (List.mem_cons_of_mem _ hx)) fr hf

/-- A reason of 1200 bytes and packets of at most 1200 bytes. -/
example : wireLen (frameOf ⟨true, 7, List.replicate 1200 0⟩) = some 1204 := by
  decide +kernel

/-! ### An error code without an encoding -/

/-- **An error code above 2^62 - 1, which `close()` accepts, panics in the next `send()`.** -/
theorem panics {s : State} {e : CErr} (h : Confirmed s) (x : Slot) (hd : s.drain = none)
    (hl : s.localErr = some e) (hcode : maxVarInt < e.code)
    (hp : x.active = true ∨ s.env.nPaths = 1) (hr : x.left ≠ none) (now : Nat) (g : Free) :
    (sendSingle s now x g).2 = .panic := by
  have hv : varintLen e.code = none := by
    have h4 : ¬ e.code ≤ maxVarInt := by omega
    simp only [maxVarInt] at hcode
    unfold varintLen
    rw [if_neg (by omega), if_neg (by omega), if_neg (by omega), if_neg h4]
  have hty : writePktType s e = some (some .short) := by
    unfold writePktType Ep.wants
    rw [h.initial, h.handshake, h.established, h.early, h.level, h.confirmed]
    cases e.isApp <;> simp
  unfold sendSingle
  rw [if_neg (by rw [hd]; simp), hl]
  dsimp only
  rw [hty]
  dsimp only
  unfold closingPacket
  dsimp only
  have hk : ((s.env.ep .short).requeue x).sealKey = true := (requeue_keeps _ x).1.trans h.app
  rw [hk]
  simp only [Bool.not_true, Bool.false_eq_true, if_false]
  cases hx : x.left with
  | none => exact absurd hx hr
  | some left =>
    dsimp only
    have hcs : ∀ m, closeSent .short e x (s.env.setEp .short
        ((s.env.ep .short).requeue x)).nPaths m = none := by
      intro m
      unfold closeSent
      have : (x.active || (s.env.setEp .short ((s.env.ep .short).requeue x)).nPaths == 1) =
          true := by
        rcases hp with hp | hp
        · rw [hp]; rfl
        · show (x.active || s.env.nPaths == 1) = true
          rw [hp]; simp
      rw [if_pos this]
      have hf : closeFrame .short e = some (frameOf e) := by
        unfold closeFrame frameOf
        cases e.isApp <;> simp
      rw [hf]
      have hw : wireLen (frameOf e) = none := by
        unfold frameOf
        cases e.isApp <;> simp [wireLen, hv]
      dsimp only
      rw [hw]
    rw [hcs]

/-! ### Closing in 0-RTT -/

/-- A client that closes for the application while in early data, with nothing to retransmit
in the application space (loss detection is off there until the handshake is complete). -/
structure Early (s : State) : Prop where
  err : ∃ e, s.localErr = some e ∧ e.isApp = true
  drain : s.drain = none
  client : s.isServer = false
  early : s.env.earlyData = true
  quiet : s.env.app.data = false ∧ s.env.app.ackElicited = false ∧ s.env.app.lost = false ∧
    s.env.app.probes = false

/-- No loss and no probe in the application space. -/
def NoAppLoss : Ev → Prop
  | .timeout _ t => t.lost.2.2 = false ∧ t.probes.2.2 = false
  | _ => True

theorem closingPacket_early {s : State} {e : CErr} (h : Early s) (he : e.isApp = true)
    (now : Nat) (x : Slot) {ty : PktType}
    (hty : ty = .initial ∨ ty = .handshake ∨ ty = .zeroRTT) :
    (closingPacket s e now x ty).1.isServer = false ∧
    (closingPacket s e now x ty).1.env.earlyData = true ∧
    (closingPacket s e now x ty).1.env.app = s.env.app := by
  have hcl : (closingPacket s e now x ty).1.isServer = false := by
    rcases closingPacket_spec s e now x ty with ⟨v, h1, _⟩ | ⟨v, _, _, _, c, el, h1, _⟩
    · rw [h1]; exact h.client
    · rw [h1]
      exact (congrArg Core.isServer (finishSend_core
        { s with env := v, drain := drainAfter s now x c } now ty el)).trans h.client
  refine ⟨hcl, ?_⟩
  have hfin : ∀ (t : State) (ty : PktType) (el : Bool),
      (t.finishSend now ty el).env.earlyData = t.env.earlyData ∧
      (t.finishSend now ty el).env.app = t.env.app := by
    intro t ty el
    unfold State.finishSend
    dsimp only
    by_cases c1 : (!t.isServer && ty == PktType.handshake) = true
    · rw [if_pos c1]
      by_cases c2 : (el && !t.aeSent) = true
      · rw [if_pos c2, restartIdle_env]; exact ⟨rfl, rfl⟩
      · rw [if_neg c2]; exact ⟨rfl, rfl⟩
    · rw [if_neg c1]
      by_cases c2 : (el && !t.aeSent) = true
      · rw [if_pos c2, restartIdle_env]; exact ⟨rfl, rfl⟩
      · rw [if_neg c2]; exact ⟨rfl, rfl⟩
  have hq : s.env.app.requeue x = s.env.app := by
    unfold Ep.requeue; rw [h.quiet.2.2.1]; rfl
  have hset : ∀ v : Env, v.earlyData = true → v.app = s.env.app → ∀ p : Ep,
      (ty = .zeroRTT → p = s.env.app) →
      (v.setEp ty p).earlyData = true ∧ (v.setEp ty p).app = s.env.app := by
    intro v h1 h2 p h3
    rcases hty with rfl | rfl | rfl
    · exact ⟨h1, h2⟩
    · exact ⟨h1, h2⟩
    · exact ⟨h1, h3 rfl⟩
  have h1 := hset s.env h.early rfl ((s.env.ep ty).requeue x)
    (fun hz => by subst hz; exact hq)
  unfold closingPacket
  dsimp only
  split
  · exact h1
  · split
    · exact h1
    · rename_i left _
      split
      · exact h1
      · rename_i c hcs
        split
        · exact h1
        · rename_i hne
          dsimp only
          generalize hep : Ep.built _ x _ _ = ep at *
          have hz : ty = .zeroRTT → ep = s.env.app := by
            intro hz
            subst hz
            exfalso
            apply hne
            have hack : ackSent ((s.env.ep .zeroRTT).requeue x) .zeroRTT e x left = false :=
              ackSent_short _ _ _ _ _ (Or.inl (by simp))
            have hc : c = false := by
              unfold closeSent at hcs
              split at hcs
              · have : closeFrame .zeroRTT e = none := by
                  unfold closeFrame; rw [he]; rfl
                rw [this] at hcs
                exact (Option.some.inj hcs).symm
              · exact (Option.some.inj hcs).symm
            rw [hack, hc]
            rfl
          have h2 := hset _ h1.1 h1.2 ep hz
          generalize hg : ({ s with env := _, drain := _ } : State) = t
          generalize (decide (0 < _) || _ || c : Bool) = el
          obtain ⟨g1, g2⟩ := hfin t ty el
          rw [g1, g2, ← hg]
          exact h2

theorem sendSingle_early {s : State} (h : Early s) (now : Nat) (x : Slot) (f : Free) :
    Early (sendSingle s now x f).1 ∧
      ∀ fr ∈ frames [(sendSingle s now x f).2], isClose fr = false := by
  obtain ⟨e, hl, he⟩ := h.err
  have hty : ∃ ty, writePktType s e = some (some ty) ∧
      (ty = .initial ∨ ty = .handshake ∨ ty = .zeroRTT) := by
    have ha : s.env.app.wants = false := by
      unfold Ep.wants; rw [h.quiet.1, h.quiet.2.1, h.quiet.2.2.1, h.quiet.2.2.2]; simp
    unfold writePktType
    rw [he, ha, h.early, h.client]
    cases s.env.initial.wants <;> cases s.env.handshake.wants <;> simp
  obtain ⟨ty, hty, hcase⟩ := hty
  have hns : ty ≠ .short := by rcases hcase with rfl | rfl | rfl <;> simp
  unfold sendSingle
  rw [if_neg (by rw [h.drain]; simp), hl]
  dsimp only
  rw [hty]
  dsimp only
  obtain ⟨h1, h2, h3⟩ := closingPacket_no_close (s := s) he now x hns h.drain
  obtain ⟨g1, g2, g3⟩ := closingPacket_early h he now x hcase
  exact ⟨⟨⟨e, h3.trans hl, he⟩, h2, g1, g2, by rw [g3]; exact h.quiet⟩, h1⟩

theorem sendLoop_early (now : Nat) : ∀ (l : List (Slot × Free)) {s : State}, Early s →
    Early (sendLoop s now l).1 ∧
      ∀ fr ∈ frames (sendLoop s now l).2, isClose fr = false := by
  intro l
  induction l with
  | nil => intro s h; exact ⟨h, by simp [sendLoop, frames]⟩
  | cons y l ih =>
    obtain ⟨x, f⟩ := y
    intro s h
    obtain ⟨h1, h2⟩ := sendSingle_early h now x f
    simp only [sendLoop]
    obtain ⟨s', r, hr⟩ : ∃ s' r, sendSingle s now x f = (s', r) := ⟨_, _, rfl⟩
    rw [hr] at h1 h2 ⊢
    cases r with
    | sent ty fr =>
      dsimp only at h1 h2 ⊢
      split
      · exact ⟨h1, h2⟩
      · obtain ⟨g1, g2⟩ := ih h1
        refine ⟨g1, fun z hz => ?_⟩
        simp only [frames, List.mem_append] at hz
        rcases hz with hz | hz
        · exact h2 z (by simpa [frames] using hz)
        · exact g2 z hz
    | done => exact ⟨h1, h2⟩
    | err => exact ⟨h1, h2⟩
    | panic => exact ⟨h1, h2⟩

theorem step_early {s : State} (h : Early s) (e : Ev) (he : NoAppLoss e) :
    Early (step s e) ∧ ∀ fr ∈ frames (out s e), isClose fr = false := by
  have hl : s.localErr.isSome = true := by
    obtain ⟨e, hl, _⟩ := h.err; rw [hl]; rfl
  cases e with
  | recv now l =>
    refine ⟨?_, by simp [out, frames]⟩
    simp only [step]
    rcases C90.deaf (Or.inr hl) now l with g | ⟨g, _⟩
    · rw [g]; exact h
    · rw [g]; exact ⟨h.err, h.drain, h.client, h.early, h.quiet⟩
  | send now hs l =>
    simp only [step, out, send]
    split
    · exact ⟨h, by simp [frames]⟩
    · exact sendLoop_early now l h
  | timeout now t =>
    refine ⟨?_, by simp [out, frames]⟩
    simp only [step, onTimeout]
    rw [if_neg (by rw [h.drain]; simp)]
    split
    · exact ⟨h.err, h.drain, h.client, h.early, h.quiet⟩
    · have hk : ((s.env.expireKeys now).fire now t).earlyData = true ∧
          ((s.env.expireKeys now).fire now t).app = s.env.app := by
        unfold Env.fire Env.expireKeys Ep.fire
        rw [he.1, he.2]
        simp only [Bool.or_false]
        split
        · split <;> exact ⟨h.early, rfl⟩
        · split <;> exact ⟨h.early, rfl⟩
      unfold State.needPath
      split
      · exact ⟨h.err, h.drain, h.client, hk.1, by dsimp only; rw [hk.2]; exact h.quiet⟩
      · exact ⟨h.err, h.drain, h.client, hk.1, by dsimp only; rw [hk.2]; exact h.quiet⟩
      · exact ⟨h.err, h.drain, h.client, hk.1,
          by unfold State.markClosed; dsimp only; rw [hk.2]; exact h.quiet⟩
  | close a c r =>
    refine ⟨?_, by simp [out, frames]⟩
    simp only [step]; rw [close_closing hl]; exact h
  | api p n ts =>
    exact ⟨⟨h.err, h.drain, h.client, h.early, h.quiet⟩, by simp [out, frames]⟩

/-- **A client that closes for the application during 0-RTT never tells the peer**: 0-RTT
packets cannot carry the frame, and the handshake is not driven any further. -/
theorem never_told_early {s : State} (h : Early s) (evs : List Ev)
    (he : ∀ e ∈ evs, NoAppLoss e) :
    (∀ fr ∈ frames (sent s evs), isClose fr = false) ∧ (run s evs).drain = none := by
  induction evs generalizing s with
  | nil => exact ⟨by simp [sent, frames], h.drain⟩
  | cons e evs ih =>
    obtain ⟨h1, h2⟩ := step_early h e (he e List.mem_cons_self)
    obtain ⟨g1, g2⟩ := ih h1 (fun x hx => he x (List.mem_cons_of_mem _ hx))
    refine ⟨fun fr hf => ?_, g2⟩
    simp only [sent] at hf
    rw [frames_append] at hf
    rcases List.mem_append.1 hf with hf | hf
    · exact h2 fr hf
    · exact g1 fr hf

/-- A confirmed connection whose next packet has the error (`told_confirmed`). -/
example : Confirmed
    { State.new true 60 env0 with
      recvCount := 1, localErr := some ⟨true, 7, [1]⟩ } :=
  ⟨rfl, rfl, rfl, rfl, rfl, rfl, rfl⟩

/-- A client in early data that closes. -/
example : Early (run (State.new false 0 { clientEnv with earlyData := true })
    [.recv 0 [(.accepted { clientEnv with earlyData := true } none [], false)],
      .close true 7 [1]]) := by
  have hs : run (State.new false 0 { clientEnv with earlyData := true })
      [.recv 0 [(.accepted { clientEnv with earlyData := true } none [], false)],
        .close true 7 [1]] =
      { State.new false 0 { clientEnv with earlyData := true } with
        recvCount := 1, localErr := some ⟨true, 7, [1]⟩ } := by
    decide +kernel
  rw [hs]
  exact ⟨⟨_, rfl, rfl⟩, rfl, rfl, rfl, rfl, rfl, rfl, rfl⟩

end Verif.Props.C93
