import Verif.Bbr.ModesInv

/-!
Runs of BBR's controller and their invariant.
-/

namespace Verif.Bbr

/-! ### The totals of the sampler over an event -/

theorem onAcked_more {n r : Nat} {s : Sampler} (h : SInv n r s) (now pn : Nat) :
    s.acked ≤ (s.onAcked now pn).2.acked ∧ (s.onAcked now pn).2.lost = s.lost := by
  obtain ⟨t1, -, -⟩ := take_spec pn s.map h.sorted
  obtain ⟨k1, k2⟩ := take_sub h.sorted pn
  have h1 : SInv n r { s with lastAcked := pn, map := (s.map.take pn).2 } := { shrink_inv h _ k1 k2 with }
  unfold Sampler.onAcked
  dsimp only
  cases hx : (s.map.take pn).1 with
  | none => exact ⟨Nat.le_refl _, rfl⟩
  | some e =>
    dsimp only
    have he : EntryOk s.acked s.sent e := by
      rw [hx] at t1
      exact h.ent _ (findPk_mem t1.symm)
    obtain ⟨a1, a2⟩ := ackedPacket_inv h1 now pn e he
    have hl : (Sampler.ackedPacket { s with lastAcked := pn, map := (s.map.take pn).2 } now pn e).lost = s.lost := by
      unfold Sampler.ackedPacket Sampler.leave Sampler.mark
      dsimp only
      split <;> rfl
    generalize Sampler.ackedPacket { s with lastAcked := pn, map := (s.map.take pn).2 } now pn e = u at a1 a2 hl
    have hle : e.state.acked ≤ u.acked := by
      have := he.acked
      rw [a2]
      show e.state.acked ≤ s.acked + e.size
      omega
    obtain ⟨b1, b2, b3⟩ := slope_inv a1 e hle
    have hv : (u.slope e).2.lost = u.lost := by
      unfold Sampler.slope
      split <;> rfl
    refine ⟨?_, ?_⟩
    · show s.acked ≤ (u.slope e).2.acked
      rw [b3, a2]
      exact Nat.le_add_right _ _
    · show (u.slope e).2.lost = s.lost
      rw [hv, hl]

/-- A send state as of before `acked`. -/
def StateOk (acked : Nat) (st : SendState) : Prop := st.valid = true → st.acked ≤ acked

theorem none_ok (acked : Nat) : StateOk acked .none := by intro h; cases h

theorem losses_more {n r : Nat} : ∀ (ls : List Lost) {s : Sampler} (_ : SInv n r s) (st : SendState) (k : Nat), StateOk s.acked st →
    (s.losses st k ls).2.2.acked = s.acked ∧ s.lost ≤ (s.losses st k ls).2.2.lost ∧ StateOk s.acked (s.losses st k ls).1
  | [], _, _, _, _, hst => ⟨rfl, Nat.le_refl _, hst⟩
  | p :: ls, s, h, st, k, hst => by
    have h1 : StateOk s.acked (s.onLost p).1 := by
      unfold Sampler.onLost
      dsimp only
      split
      · next e he =>
        intro _
        obtain ⟨t1, -, -⟩ := take_spec p.pn s.map h.sorted
        rw [he] at t1
        exact (h.ent _ (findPk_mem t1.symm)).acked
      · exact none_ok _
    unfold Sampler.losses
    split
    · obtain ⟨a, b, c⟩ := losses_more ls (onLost_inv h p) (s.onLost p).1 p.pn h1
      exact ⟨a, Nat.le_trans (Nat.le_add_right _ _) b, c⟩
    · obtain ⟨a, b, c⟩ := losses_more ls (onLost_inv h p) st k hst
      exact ⟨a, Nat.le_trans (Nat.le_add_right _ _) b, c⟩

theorem acks_more {n r : Nat} (now : Nat) : ∀ (pns : List Acked) {s : Sampler} (_ : SInv n r s) (a : AckRun), StateOk s.acked a.state →
    s.acked ≤ (s.acks now a pns).2.acked ∧ (s.acks now a pns).2.lost = s.lost ∧ StateOk (s.acks now a pns).2.acked (s.acks now a pns).1.state
  | [], _, _, _, ha => ⟨Nat.le_refl _, rfl, ha⟩
  | pn :: pns, s, h, a, ha => by
    obtain ⟨h1, h2⟩ := onAcked_inv h now pn
    obtain ⟨h3, h4⟩ := onAcked_more h now pn
    unfold Sampler.acks
    dsimp only
    split
    · obtain ⟨k1, k2, k3⟩ := acks_more now pns h1 a (fun hv => Nat.le_trans (ha hv) h3)
      exact ⟨Nat.le_trans h3 k1, k2.trans h4, k3⟩
    · next x hx =>
      have h5 : SInv n r { (s.onAcked now pn).2 with bad := (s.onAcked now pn).2.bad || decide ((s.onAcked now pn).2.acked < x.state.acked) } := by
        refine { h1 with ok := ?_ }
        dsimp only
        have := (h2 x hx).1
        rw [h1.ok]
        simp only [Bool.false_or, decide_eq_false_iff_not]
        omega
      obtain ⟨k1, k2, k3⟩ := acks_more now pns h5 (a.add (s.onAcked now pn).2.acked x pn) (fun _ => (h2 x hx).1)
      exact ⟨Nat.le_trans h3 k1, k2.trans h4, k3⟩

theorem ackEnd_more (s : Sampler) (bw : Nat) (newMax : Bool) (round : Nat) :
    (s.ackEnd bw newMax round).2.acked = s.acked ∧ (s.ackEnd bw newMax round).2.lost = s.lost := by
  unfold Sampler.ackEnd
  dsimp only
  split
  · exact ⟨rfl, rfl⟩
  · split <;> exact ⟨rfl, rfl⟩

theorem pickState_ok {A : Nat} {a b : SendState} (ha : StateOk A a) (hb : StateOk A b) (i j : Nat) : StateOk A (pickState a b i j) := by
  unfold pickState
  split
  · exact hb
  · split
    · exact ha
    · split
      · exact hb
      · exact ha

/-- An event only adds to the totals, and the send state it reports is of before. -/
theorem event_more {n r : Nat} {s : Sampler} (h : SInv n r s) (now : Nat) (acked : List Acked) (lost : List Lost) (maxBw upper round : Nat) :
    s.acked ≤ (s.onEvent now acked lost maxBw upper round).2.acked ∧ s.lost ≤ (s.onEvent now acked lost maxBw upper round).2.lost ∧
    StateOk (s.onEvent now acked lost maxBw upper round).2.acked (s.onEvent now acked lost maxBw upper round).1.state := by
  obtain ⟨a1, a2, a3⟩ := losses_more lost h .none 0 (none_ok _)
  unfold Sampler.onEvent
  dsimp only
  split
  · exact ⟨Nat.le_of_eq a1.symm, a2, by dsimp only; rw [a1]; exact a3⟩
  · obtain ⟨b1, b2, b3⟩ := acks_more now acked (losses_inv lost h .none 0) ⟨.none, .none, 0⟩ (none_ok _)
    generalize (s.losses .none 0 lost).2.2.acks now ⟨.none, .none, 0⟩ acked = A at b1 b2 b3
    obtain ⟨c1, c2⟩ := ackEnd_more A.2 (aggBw A.1.ev.maxBw maxBw upper) (optGt A.1.ev.maxBw (some maxBw)) round
    dsimp only
    rw [c1, c2]
    exact ⟨by omega, by omega, pickState_ok (fun hv => Nat.le_trans (a3 hv) (by omega)) b3 _ _⟩

/-! ### The start of an event -/

/-- What the start of an event leaves alone. -/
structure Keep (n m : Net) : Prop where
  sampler : m.sampler = n.sampler
  rounds : m.rounds = n.rounds
  last : m.lastSent = n.lastSent
  roundEnd : m.roundEnd = n.roundEnd
  full : m.full = n.full
  pacingGain : m.pacingGain = n.pacingGain
  cwndGain : m.cwndGain = n.cwndGain
  hi : m.inflightHi = n.inflightHi

theorem Keep.refl (n : Net) : Keep n n := ⟨rfl, rfl, rfl, rfl, rfl, rfl, rfl, rfl⟩

theorem Keep.trans {a b c : Net} (h : Keep a b) (k : Keep b c) : Keep a c :=
  ⟨k.1.trans h.1, k.2.trans h.2, k.3.trans h.3, k.4.trans h.4, k.5.trans h.5, k.6.trans h.6, k.7.trans h.7, k.8.trans h.8⟩

theorem takeBw_keep (n : Net) (e : EventSample) (a : Nat) : Keep n (n.takeBw e a).2 := by
  unfold Net.takeBw
  split
  · exact .refl n
  · split
    · exact .refl n
    · split
      · exact ⟨rfl, rfl, rfl, rfl, rfl, rfl, rfl, rfl⟩
      · exact .refl n

theorem takeRtt_keep (n : Net) (e : EventSample) (now : Nat) : Keep n (n.takeRtt e now) := by
  unfold Net.takeRtt
  split
  · exact .refl n
  · split
    · exact ⟨rfl, rfl, rfl, rfl, rfl, rfl, rfl, rfl⟩
    · exact .refl n

theorem takeLoss_keep (n : Net) (l : Nat) : Keep n (n.takeLoss l) := by
  unfold Net.takeLoss
  split
  · exact ⟨rfl, rfl, rfl, rfl, rfl, rfl, rfl, rfl⟩
  · exact .refl n

theorem takeDelivered_keep (n : Net) (c : CEvent) : Keep n (n.takeDelivered c) := by
  unfold Net.takeDelivered
  split
  · exact ⟨rfl, rfl, rfl, rfl, rfl, rfl, rfl, rfl⟩
  · exact .refl n

theorem takeLatest_keep (n : Net) (e : EventSample) (f : Nat) : Keep n (n.takeLatest e f) := ⟨rfl, rfl, rfl, rfl, rfl, rfl, rfl, rfl⟩

theorem lowerOther_keep (F : Floats) (p : Params) (n : Net) (c : CEvent) : Keep n (n.lowerOther F p c) := by
  unfold Net.lowerOther
  dsimp only
  split <;> exact ⟨rfl, rfl, rfl, rfl, rfl, rfl, rfl, rfl⟩

theorem adaptLower_keep (F : Floats) (p : Params) (n : Net) (c : CEvent) : Keep n (n.adaptLower F p c) := by
  unfold Net.adaptLower
  split
  · split
    · exact .refl n
    · split
      · exact ⟨rfl, rfl, rfl, rfl, rfl, rfl, rfl, rfl⟩
      · exact .refl n
  · split
    · exact .refl n
    · split
      · exact .refl n
      · exact lowerOther_keep F p n c

theorem endLatest_keep (n : Net) (e : EventSample) (r : Bool) : Keep n (n.endLatest e r) := by
  unfold Net.endLatest
  split
  · exact .refl n
  · exact ⟨rfl, rfl, rfl, rfl, rfl, rfl, rfl, rfl⟩

theorem eventRound_keep (n : Net) (acked : List Acked) :
    (n.eventRound acked).2.sampler = n.sampler ∧ n.rounds ≤ (n.eventRound acked).2.rounds ∧ (n.eventRound acked).2.full = n.full ∧
    (n.eventRound acked).2.pacingGain = n.pacingGain ∧ (n.eventRound acked).2.cwndGain = n.cwndGain ∧ (n.eventRound acked).2.lastSent = n.lastSent ∧
    (n.eventRound acked).2.inflightHi = n.inflightHi := by
  unfold Net.eventRound
  split
  · unfold Net.ackRound
    split
    · split
      · exact ⟨rfl, Nat.le_refl _, rfl, rfl, rfl, rfl, rfl⟩
      · exact ⟨rfl, Nat.le_succ _, rfl, rfl, rfl, rfl, rfl⟩
    · exact ⟨rfl, Nat.le_succ _, rfl, rfl, rfl, rfl, rfl⟩
  · exact ⟨rfl, Nat.le_refl _, rfl, rfl, rfl, rfl, rfl⟩

/-- The sampler's report of an event. -/
def Net.reported (n : Net) (now : Nat) (acked : List Acked) (lost : List Lost) : EventSample × Sampler :=
  n.sampler.onEvent now acked lost n.maxBw (n.bwLo.getD infinite) (n.eventRound acked).2.rounds

/-- The start of an event. -/
structure Started (n : Net) (c : CEvent) (acked : List Acked) (lost : List Lost) (r : CEvent × Net) : Prop where
  sampler : r.2.sampler = (n.reported c.now acked lost).2
  rounds : r.2.rounds = (n.eventRound acked).2.rounds
  roundEnd : r.2.roundEnd = (n.eventRound acked).2.roundEnd
  last : r.2.lastSent = n.lastSent
  full : r.2.full = n.full
  pacingGain : r.2.pacingGain = n.pacingGain
  cwndGain : r.2.cwndGain = n.cwndGain
  hi : r.2.inflightHi = n.inflightHi
  now : r.1.now = c.now
  priorCwnd : r.1.priorCwnd = c.priorCwnd
  priorInFlight : r.1.priorInFlight = c.priorInFlight
  endRound : r.1.endRound = (n.eventRound acked).1
  rtt : r.1.rtt = (n.reported c.now acked lost).1.rtt
  bytesAcked : r.1.acked = (n.reported c.now acked lost).2.acked - n.sampler.acked
  bytesLost : r.1.lost = (n.reported c.now acked lost).2.lost - n.sampler.lost
  inFlight : r.1.inFlight = c.priorInFlight - r.1.acked - r.1.lost
  state : r.1.state = if (n.reported c.now acked lost).1.state.valid = true then (n.reported c.now acked lost).1.state else c.state

theorem start_keep (F : Floats) (p : Params) (n : Net) (c : CEvent) (acked : List Acked) (lost : List Lost) : Started n c acked lost (n.start F p c acked lost) := by
  obtain ⟨e1, e2, e3, e4, e5, e6, e7⟩ := eventRound_keep n acked
  have hrep : (n.eventRound acked).2.sampler.onEvent c.now acked lost n.maxBw (n.bwLo.getD infinite) (n.eventRound acked).2.rounds = n.reported c.now acked lost := by
    unfold Net.reported; rw [e1]
  unfold Net.start
  dsimp only
  rw [hrep]
  generalize hS : n.reported c.now acked lost = S
  have k1 := takeBw_keep { (n.eventRound acked).2 with sampler := S.2 } S.1 n.sampler.acked
  generalize Net.takeBw { (n.eventRound acked).2 with sampler := S.2 } S.1 n.sampler.acked = B at k1
  generalize hc : c.fill S.1 (n.eventRound acked).1 B.1 (S.2.acked - n.sampler.acked) (S.2.lost - n.sampler.lost) = d
  have k2 := k1.trans ((((((takeRtt_keep B.2 S.1 d.now).trans (takeLoss_keep _ d.lost)).trans (takeDelivered_keep _ d)).trans (takeLatest_keep _ S.1 d.inFlight)).trans
    (adaptLower_keep F p _ d)).trans (endLatest_keep _ S.1 d.endRound))
  generalize Net.endLatest _ S.1 d.endRound = m at k2
  obtain ⟨f1, f2, f3, f4, f5, f6, f7, f8⟩ := k2
  refine ⟨f1.trans (by rw [hS]), f2, f4, f3.trans e6, f5.trans e3, f6.trans e4, f7.trans e5, f8.trans e7, ?_, ?_, ?_, ?_, ?_, ?_, ?_, ?_, ?_⟩ <;> (first | (rw [← hc]; rfl) | (rw [← hc, hS]; rfl))

theorem start_ok {k : Nat} (F : Floats) (p : Params) (n : Net) (c : CEvent) (acked : List Acked) (lost : List Lost) (h : SInv k n.rounds n.sampler)
    (hb : n.bad = false) (hc : c.state.valid = false) :
    (n.start F p c acked lost).2.bad = false ∧ SInv k (n.start F p c acked lost).2.rounds (n.start F p c acked lost).2.sampler ∧
    n.sampler.acked + (n.start F p c acked lost).1.acked = (n.start F p c acked lost).2.sampler.acked ∧
    n.sampler.lost + (n.start F p c acked lost).1.lost = (n.start F p c acked lost).2.sampler.lost ∧
    ((n.start F p c acked lost).1.state.valid = true → (n.start F p c acked lost).1.state.acked ≤ (n.start F p c acked lost).2.sampler.acked) := by
  obtain ⟨e1, e2, -⟩ := eventRound_keep n acked
  have hs := start_keep F p n c acked lost
  have hi : SInv k (n.eventRound acked).2.rounds n.sampler := h.mono (Nat.le_refl _) e2
  obtain ⟨m1, m2, m3⟩ := event_more hi c.now acked lost n.maxBw (n.bwLo.getD infinite) (n.eventRound acked).2.rounds
  have hinv := onEvent_inv hi c.now acked lost n.maxBw (n.bwLo.getD infinite)
  have hdef : n.sampler.onEvent c.now acked lost n.maxBw (n.bwLo.getD infinite) (n.eventRound acked).2.rounds = n.reported c.now acked lost := rfl
  rw [hdef] at m1 m2 m3 hinv
  refine ⟨?_, ?_, ?_, ?_, ?_⟩
  · unfold Net.start
    dsimp only
    rw [e1, hdef, hb]
    have a1 : decide ((n.reported c.now acked lost).2.acked < n.sampler.acked) = false := by simp only [decide_eq_false_iff_not]; omega
    have a2 : decide ((n.reported c.now acked lost).2.lost < n.sampler.lost) = false := by simp only [decide_eq_false_iff_not]; omega
    rw [a1, a2]
    rfl
  · rw [hs.rounds, hs.sampler]; exact hinv
  · rw [hs.bytesAcked, hs.sampler]; omega
  · rw [hs.bytesLost, hs.sampler]; omega
  · rw [hs.state, hs.sampler]
    split
    · exact m3
    · intro hv; rw [hc] at hv; cases hv

/-! ### Runs -/

/-- What happens to the controller. -/
inductive BOp where
  | sent (now inFlight pn bytes : Nat) (eliciting : Bool)
  | event (now inFlight : Nat) (acked : List Acked) (lost : List Lost) (least : Nat)
  | neutered (pn : Nat)
  | appLimited (inFlight : Nat)
  | mss (mss factor : Nat)
  | limit (max : Nat)

/-- One step. -/
def Bbr.step (F : Floats) (p : Params) (b : Bbr) : BOp → Bbr
  | .sent now inFlight pn bytes el => b.onSent p now inFlight pn bytes el
  | .event now inFlight acked lost least => (b.onEvent F p now inFlight acked lost least).2
  | .neutered pn => b.onNeutered pn
  | .appLimited inFlight => b.onAppLimited inFlight
  | .mss m f => b.updateMss F p m f
  | .limit m => b.limitCwnd m

/-- Packet numbers grow, from `n`. -/
def Numbered (n : Nat) : List BOp → Prop
  | [] => True
  | .sent _ _ pn _ _ :: l => n ≤ pn ∧ Numbered (pn + 1) l
  | _ :: l => Numbered n l

/-- The next packet number. -/
def nextPn (n : Nat) : BOp → Nat
  | .sent _ _ pn _ _ => pn + 1
  | _ => n

/-- At each event the window and the bytes acknowledged fit in 64 bits together. -/
def Fits (F : Floats) (p : Params) (b : Bbr) : List BOp → Prop
  | [] => True
  | op :: ops => (match op with | .event now _ acked lost _ => b.cwnd + (b.net.reported now acked lost).2.acked ≤ u64Max | _ => True) ∧ Fits F p (b.step F p op) ops

/-- The state after operations. -/
def Bbr.run (F : Floats) (p : Params) (b : Bbr) (ops : List BOp) : Bbr := ops.foldl (Bbr.step F p) b

/-- The invariant. -/
structure BInv (p : Params) (n : Nat) (b : Bbr) : Prop where
  samp : SInv n b.net.rounds b.net.sampler
  ok : b.net.bad = false
  mode : ModeOk p b.net.sampler.acked b.mode b.net b.exit

theorem ModeOk.congr {p : Params} {A : Nat} {m : Mode} {n n' : Net} {x : Option Exit} (h : ModeOk p A m n x) (h1 : n'.full = n.full)
    (h2 : n'.pacingGain = n.pacingGain) (h3 : n'.cwndGain = n.cwndGain) : ModeOk p A m n' x := by
  cases m with
  | startup => exact ⟨h1.trans h.1, h.2.1, h2.trans h.2.2.1, h3.trans h.2.2.2⟩
  | drain y => exact ⟨h1.trans h.1, h.2⟩
  | probeBw y => exact ⟨h1.trans h.1, h.2⟩
  | probeRtt y e => exact ⟨h1.trans h.1, h.2.1, h.2.2.1, h.2.2.2.1, h2.trans h.2.2.2.2.1, h3.trans h.2.2.2.2.2⟩

theorem new_binv (F : Floats) (p : Params) (initial max mss rtt now factor : Nat) : BInv p 0 (Bbr.new F p initial max mss rtt now factor) :=
  ⟨new_inv _ _ _ _, rfl, ⟨rfl, rfl, rfl, rfl⟩⟩

theorem onSent_same (s : Sampler) (now pn bytes inFlight : Nat) (el : Bool) : (s.onSent now pn bytes inFlight el).acked = s.acked ∧
    (s.onSent now pn bytes inFlight el).lost = s.lost := by
  unfold Sampler.onSent
  dsimp only
  split
  · exact ⟨rfl, rfl⟩
  · split
    · unfold Sampler.fresh
      dsimp only
      split <;> exact ⟨rfl, rfl⟩
    · exact ⟨rfl, rfl⟩

theorem wake_inv {p : Params} {n : Nat} {b : Bbr} (h : BInv p n b) (now since : Nat) : BInv p n (b.wake p now since) ∧ (b.wake p now since).net.sampler = b.net.sampler := by
  have hm := h.mode
  have into : ∀ (y : Cycle), CycleOk b.net.sampler.acked y → b.net.full = true → b.exit.isSome = true →
      BInv p n { b with mode := (intoProbeBw p b.net y now).1, net := (intoProbeBw p b.net y now).2 } ∧ (intoProbeBw p b.net y now).2.sampler = b.net.sampler := by
    intro y hy hf hx
    obtain ⟨g1, g2, -⟩ := intoProbeBw_ok p b.net b.exit hy hf hx now
    refine ⟨⟨?_, g2.ok h.ok, ?_⟩, g2.sampler⟩
    · show SInv n (intoProbeBw p b.net y now).2.rounds (intoProbeBw p b.net y now).2.sampler
      rw [g2.rounds, g2.sampler]; exact h.samp
    · show ModeOk p (intoProbeBw p b.net y now).2.sampler.acked _ _ _
      rw [g2.sampler]; exact g1
  unfold Bbr.wake
  split
  · exact ⟨h, rfl⟩
  · exact ⟨h, rfl⟩
  · exact ⟨⟨h.samp, h.ok, h.mode.congr rfl rfl rfl⟩, rfl⟩
  · next y he =>
    rw [he] at hm
    exact into y hm.2.2.1 hm.1 hm.2.1
  · next y t he =>
    rw [he] at hm
    split
    · exact into y hm.2.2.1 hm.1 hm.2.1
    · exact ⟨h, rfl⟩

theorem sent_binv {p : Params} {n : Nat} {b : Bbr} (h : BInv p n b) (now inFlight pn bytes : Nat) (el : Bool) (hp : n ≤ pn) :
    BInv p (pn + 1) (b.onSent p now inFlight pn bytes el) := by
  have h1 : BInv p n (if inFlight = 0 then b.exitQuiet p now else b) := by
    split
    · unfold Bbr.exitQuiet
      split
      · exact h
      · exact (wake_inv (b := { b with quiet := none }) ⟨h.samp, h.ok, h.mode⟩ now _).1
    · exact h
  unfold Bbr.onSent
  dsimp only
  generalize (if inFlight = 0 then b.exitQuiet p now else b) = d at h1
  refine ⟨onSent_inv h1.samp now pn bytes inFlight el hp, h1.ok, ?_⟩
  show ModeOk p (d.net.sampler.onSent now pn bytes inFlight el).acked d.mode _ d.exit
  rw [(onSent_same _ _ _ _ _ _).1]
  exact h1.mode.congr rfl rfl rfl

theorem finish_keep (n : Net) (c : CEvent) (least : Nat) :
    (n.finish c least).sampler = n.sampler.removeObsolete least ∧ (n.finish c least).rounds = n.rounds ∧ (n.finish c least).bad = n.bad ∧
    (n.finish c least).full = n.full ∧ (n.finish c least).pacingGain = n.pacingGain ∧ (n.finish c least).cwndGain = n.cwndGain ∧
    (n.finish c least).lastSent = n.lastSent := by
  unfold Net.finish
  dsimp only
  split <;> exact ⟨rfl, rfl, rfl, rfl, rfl, rfl, rfl⟩

theorem rank_lt (m : Mode) : rank m < maxChanges := by
  have : rank m ≤ 3 := by
    cases m with
    | startup => exact Nat.le_refl 3
    | drain y => exact (by decide : 2 ≤ 3)
    | probeBw y => show (if y.phase = .down then 1 else 0) ≤ 3; split <;> decide
    | probeRtt y e =>
      cases e with
      | none => exact Nat.zero_le 3
      | some t => exact (by decide : 1 ≤ 3)
  exact Nat.lt_succ_of_le this

/-- The state of an event after the modes. -/
def Bbr.moded (F : Floats) (p : Params) (b : Bbr) (now inFlight : Nat) (acked : List Acked) (lost : List Lost) : Bool × Bbr :=
  ({ b with net := (b.net.start F p (.new now b.cwnd inFlight b.mode.probing) acked lost).2 } : Bbr).loop F p
    (b.net.start F p (.new now b.cwnd inFlight b.mode.probing) acked lost).1 maxChanges

theorem updateRate_keep (F : Floats) (p : Params) (b : Bbr) (a : Nat) :
    (b.updateRate F p a).net = b.net ∧ (b.updateRate F p a).mode = b.mode ∧ (b.updateRate F p a).exit = b.exit ∧ (b.updateRate F p a).cwnd = b.cwnd ∧
    (b.updateRate F p a).lo = b.lo ∧ (b.updateRate F p a).hi = b.hi ∧ (b.updateRate F p a).initial = b.initial ∧ (b.updateRate F p a).mss = b.mss ∧
    (b.updateRate F p a).quiet = b.quiet := by
  unfold Bbr.updateRate
  dsimp only
  split
  · exact ⟨rfl, rfl, rfl, rfl, rfl, rfl, rfl, rfl, rfl⟩
  · split
    · exact ⟨rfl, rfl, rfl, rfl, rfl, rfl, rfl, rfl, rfl⟩
    · split
      · exact ⟨rfl, rfl, rfl, rfl, rfl, rfl, rfl, rfl, rfl⟩
      · split
        · exact ⟨rfl, rfl, rfl, rfl, rfl, rfl, rfl, rfl, rfl⟩
        · split <;> exact ⟨rfl, rfl, rfl, rfl, rfl, rfl, rfl, rfl, rfl⟩

/-- An event: the modes come to rest, and all is as it should be. -/
structure Evented (F : Floats) (p : Params) (b : Bbr) (now inFlight : Nat) (acked : List Acked) (lost : List Lost) : Prop where
  rest : (b.moded F p now inFlight acked lost).1 = false
  same : Same (b.net.start F p (.new now b.cwnd inFlight b.mode.probing) acked lost).2 (b.moded F p now inFlight acked lost).2.net
  mode : ModeOk p (b.moded F p now inFlight acked lost).2.net.sampler.acked (b.moded F p now inFlight acked lost).2.mode (b.moded F p now inFlight acked lost).2.net
    (b.moded F p now inFlight acked lost).2.exit
  gains : ((b.moded F p now inFlight acked lost).2.net.pacingGain, (b.moded F p now inFlight acked lost).2.net.cwndGain) = gainsOf p (b.moded F p now inFlight acked lost).2.mode
  keep : (b.moded F p now inFlight acked lost).2.cwnd = b.cwnd ∧ (b.moded F p now inFlight acked lost).2.mss = b.mss ∧
    (b.moded F p now inFlight acked lost).2.pacingRate = b.pacingRate ∧ (b.moded F p now inFlight acked lost).2.lo = b.lo ∧
    (b.moded F p now inFlight acked lost).2.hi = b.hi ∧ (b.moded F p now inFlight acked lost).2.initial = b.initial ∧ (b.moded F p now inFlight acked lost).2.quiet = b.quiet
  reach : ∃ j, j ≤ 3 ∧ Reach j b.mode (b.moded F p now inFlight acked lost).2.mode
  exit : b.mode.kind ≠ 0 → (b.moded F p now inFlight acked lost).2.exit = b.exit

theorem evented {p : Params} {n : Nat} {b : Bbr} (h : BInv p n b) (F : Floats) (now inFlight : Nat) (acked : List Acked) (lost : List Lost)
    (hov : b.cwnd + (b.net.start F p (.new now b.cwnd inFlight b.mode.probing) acked lost).2.sampler.acked ≤ u64Max) :
    Evented F p b now inFlight acked lost := by
  have hk := start_keep F p b.net (.new now b.cwnd inFlight b.mode.probing) acked lost
  obtain ⟨h1, h2, h3, h4, h5⟩ := start_ok F p b.net (.new now b.cwnd inFlight b.mode.probing) acked lost h.samp h.ok rfl
  have hp : (b.net.start F p (.new now b.cwnd inFlight b.mode.probing) acked lost).1.priorCwnd = b.cwnd := hk.priorCwnd
  have hm : ModeOk p b.net.sampler.acked b.mode (b.net.start F p (.new now b.cwnd inFlight b.mode.probing) acked lost).2 b.exit :=
    h.mode.congr hk.full hk.pacingGain hk.cwndGain
  obtain ⟨e1, e2, e3, e4, e5, e6, e7⟩ := loop_rest F p (b.net.start F p (.new now b.cwnd inFlight b.mode.probing) acked lost).1 maxChanges
    { b with net := (b.net.start F p (.new now b.cwnd inFlight b.mode.probing) acked lost).2 } (rank_lt _) hm h5 (by rw [hp]; rw [← h3] at hov; exact hov)
  obtain ⟨j, j1, j2⟩ := e6
  refine ⟨e1, e2, ?_, e4, e5, ⟨j, Nat.le_trans j1 (Nat.le_of_lt_succ (rank_lt b.mode)), j2⟩, e7⟩
  have hsam : (b.moded F p now inFlight acked lost).2.net.sampler = (b.net.start F p (.new now b.cwnd inFlight b.mode.probing) acked lost).2.sampler := e2.sampler
  rw [hsam, ← h3]
  exact e3

/-- The state after an event in terms of that after the modes. -/
theorem event_after (F : Floats) (p : Params) (b : Bbr) (now inFlight : Nat) (acked : List Acked) (lost : List Lost) (least : Nat) :
    (b.onEvent F p now inFlight acked lost least).2.mode = (b.moded F p now inFlight acked lost).2.mode ∧
    (b.onEvent F p now inFlight acked lost least).2.exit = (b.moded F p now inFlight acked lost).2.exit ∧
    (b.onEvent F p now inFlight acked lost least).2.net = (b.moded F p now inFlight acked lost).2.net.finish
      (b.net.start F p (.new now b.cwnd inFlight b.mode.probing) acked lost).1 least := by
  unfold Bbr.onEvent Bbr.updateCwnd
  dsimp only
  obtain ⟨g1, g2, g3, -⟩ := updateRate_keep F p (b.moded F p now inFlight acked lost).2 (b.net.start F p (.new now b.cwnd inFlight b.mode.probing) acked lost).1.acked
  exact ⟨g2, g3, by rw [← g1]; rfl⟩

theorem event_binv {p : Params} {n : Nat} {b : Bbr} (h : BInv p n b) (F : Floats) (now inFlight : Nat) (acked : List Acked) (lost : List Lost) (least : Nat)
    (hov : b.cwnd + (b.net.reported now acked lost).2.acked ≤ u64Max) :
    BInv p n (b.onEvent F p now inFlight acked lost least).2 ∧ Evented F p b now inFlight acked lost := by
  obtain ⟨a1, a2, a3⟩ := event_after F p b now inFlight acked lost least
  obtain ⟨f1, f2, f3, f4, f5, f6, -⟩ := finish_keep (b.moded F p now inFlight acked lost).2.net (b.net.start F p (.new now b.cwnd inFlight b.mode.probing) acked lost).1 least
  have hacc : (b.onEvent F p now inFlight acked lost least).2.net.sampler.acked = (b.moded F p now inFlight acked lost).2.net.sampler.acked := by
    rw [a3, f1]; rfl
  obtain ⟨h1, h2, h3, h4, h5⟩ := start_ok F p b.net (.new now b.cwnd inFlight b.mode.probing) acked lost h.samp h.ok rfl
  have he := evented h F now inFlight acked lost (by rw [(start_keep F p b.net (.new now b.cwnd inFlight b.mode.probing) acked lost).sampler]; exact hov)
  refine ⟨⟨?_, ?_, ?_⟩, he⟩
  · rw [a3, f1, f2, he.same.sampler, he.same.rounds]
    exact removeObsolete_inv h2 least
  · rw [a3, f3]; exact he.same.ok h1
  · rw [hacc, a1, a2, a3]
    exact he.mode.congr f4 f5 f6

theorem step_binv {p : Params} {n : Nat} {b : Bbr} (h : BInv p n b) (F : Floats) (op : BOp) (hn : Numbered n [op]) (hf : Fits F p b [op]) :
    BInv p (nextPn n op) (b.step F p op) := by
  cases op with
  | sent now f pn bytes el => exact sent_binv h now f pn bytes el hn.1
  | event now f a l least => exact (event_binv h F now f a l least hf.1).1
  | neutered pn => exact ⟨onNeutered_inv h.samp pn, h.ok, h.mode.congr rfl rfl rfl⟩
  | appLimited f =>
    show BInv p n (b.onAppLimited f)
    unfold Bbr.onAppLimited
    split
    · exact h
    · exact ⟨onAppLimited_inv h.samp, h.ok, h.mode.congr rfl rfl rfl⟩
  | mss m f => exact ⟨h.samp, h.ok, h.mode⟩
  | limit m => exact ⟨h.samp, h.ok, h.mode⟩

/-- The next packet number after operations. -/
def nextPns (n : Nat) (ops : List BOp) : Nat := ops.foldl nextPn n

theorem run_binv {p : Params} (F : Floats) : ∀ (ops : List BOp) {n : Nat} {b : Bbr}, BInv p n b → Numbered n ops → Fits F p b ops →
    BInv p (nextPns n ops) (b.run F p ops)
  | [], _, _, h, _, _ => h
  | op :: ops, n, b, h, hn, hf => by
    have h1 : Numbered n [op] := by
      cases op <;> first | exact ⟨hn.1, trivial⟩ | exact trivial
    have h2 : Numbered (nextPn n op) ops := by
      cases op <;> first | exact hn.2 | exact hn
    exact run_binv F ops (step_binv h F op h1 ⟨hf.1, trivial⟩) h2 hf.2

end Verif.Bbr
