import Verif.GRec.Step

/-! What every call keeps, and where packets go. -/

namespace Verif.GRec

open Verif.Rec (Epoch Status Rtt Bif optLt pow2 idleSpace hitsSkip lastOf granularity initialPacketThreshold maxPacketThreshold maxPtoProbes)

variable {σ : Type}

/-- What always holds. -/
def Inv (s : State σ) : Prop := ∀ e, SpaceInv (s.get e)

/-- The bytes in flight among all open packets. -/
def total (s : State σ) : Nat := wt (s.get .initial).live + wt (s.get .handshake).live + wt (s.get .application).live

/-- What a call reports for a space. -/
def Out.at {α : Type} (o : Out) (e : Epoch) (l : List α) : List α := if o.epoch = e then l else []

theorem Out.at_same {α : Type} (o : Out) (l : List α) : o.at o.epoch l = l := if_pos rfl
theorem Out.at_nil {α : Type} (o : Out) (e : Epoch) : o.at e ([] : List α) = [] := by unfold Out.at; split <;> rfl

/-- What a call does. -/
structure Facts (s s' : State σ) (o : Out) : Prop where
  inv : Inv s'
  moved : ∀ e, ((s.get e).live ++ o.at e o.sent).Perm
    ((s'.get e).live ++ (o.at e o.acked ++ (o.at e o.lost ++ o.at e o.dropped)))
  bytes : s'.failed = false → s.flight.bytes = total s → s'.flight.bytes = total s'
  pns : ∀ e, ∀ q ∈ (s'.get e).sent, q.pn ∈ (s.get e).sent.map Pk.pn ∨ q.pn ∈ (o.at e o.sent).map Prod.fst
  failed : s.failed = true → s'.failed = true

/-- Only one space changes. -/
theorem total_change {s s' : State σ} {e : Epoch} (h : ∀ e', e' ≠ e → s'.get e' = s.get e') :
    total s' + wt (s.get e).live = total s + wt (s'.get e).live := by
  unfold total
  cases e with
  | initial => rw [h .handshake (by simp), h .application (by simp)]; omega
  | handshake => rw [h .initial (by simp), h .application (by simp)]; omega
  | application => rw [h .initial (by simp), h .handshake (by simp)]; omega

theorem wt_le_total (s : State σ) (e : Epoch) : wt (s.get e).live ≤ total s := by
  unfold total; cases e <;> omega

/-- A call that changes one space. -/
theorem Facts.one {s s' : State σ} {o : Out} (e : Epoch) (he : o.epoch = e) (hi : Inv s)
    (hget : ∀ e', e' ≠ e → s'.get e' = s.get e')
    (hinv : SpaceInv (s'.get e))
    (hm : ((s.get e).live ++ o.sent).Perm ((s'.get e).live ++ (o.acked ++ (o.lost ++ o.dropped))))
    (hb : s'.failed = false →
      s'.flight.bytes = s.flight.bytes + wt o.sent - (wt o.acked + wt o.lost + wt o.dropped))
    (hp : ∀ q ∈ (s'.get e).sent, q.pn ∈ (s.get e).sent.map Pk.pn ∨ q.pn ∈ o.sent.map Prod.fst)
    (hf : s.failed = true → s'.failed = true) : Facts s s' o := by
  refine ⟨?_, ?_, ?_, ?_, hf⟩
  · intro e'
    by_cases h : e' = e
    · subst h; exact hinv
    · rw [hget e' h]; exact hi e'
  · intro e'
    by_cases h : e' = e
    · subst h
      simp only [Out.at, he, if_true]
      exact hm
    · have hn : o.epoch ≠ e' := fun hh => h (hh.symm.trans he)
      simp only [Out.at, hn, if_false, hget e' h]
      simp
  · intro hff heq
    rw [hb hff]
    have h1 := total_change hget
    have h2 := wt_perm hm
    simp only [wt_append] at h2
    have h3 := wt_le_total s e
    have h4 := wt_le_total s' e
    omega
  · intro e' q hq
    by_cases h : e' = e
    · subst h
      simp only [Out.at, he, if_true]
      exact hp q hq
    · rw [hget e' h] at hq
      exact Or.inl (List.mem_map_of_mem hq)

/-- A call that changes no packet. -/
theorem Facts.quiet {s s' : State σ} {o : Out} (hi : Inv s) (ho : o.sent = [] ∧ o.acked = [] ∧ o.lost = [] ∧ o.dropped = [])
    (hs : ∀ e, (s'.get e).sent = (s.get e).sent ∧ (s'.get e).inFlightCount = (s.get e).inFlightCount)
    (hfl : s'.flight.bytes = s.flight.bytes) (hf : s'.failed = s.failed) : Facts s s' o := by
  have hl : ∀ e, (s'.get e).live = (s.get e).live := fun e => by unfold Space.live; rw [(hs e).1]
  refine ⟨?_, ?_, ?_, ?_, fun h => hf.trans h⟩
  · intro e
    refine ⟨?_, ?_⟩
    · rw [(hs e).1]; exact (hi e).sorted
    · rw [(hs e).2, hl e]; exact (hi e).count
  · intro e
    rw [hl e, ho.1, ho.2.1, ho.2.2.1, ho.2.2.2]
    simp [Out.at_nil]
  · intro _ h
    rw [hfl, h]
    unfold total
    rw [hl, hl, hl]
  · intro e q hq
    rw [(hs e).1] at hq
    exact Or.inl (List.mem_map_of_mem hq)

/-! ### Sending -/

theorem onSent_get (en : Env σ) (s : State σ) (e : Epoch) (p : Pkt) (st : Status) (now : Nat) (e' : Epoch) :
    (s.onSent en e p st now).get e' = if e' = e then (s.get e).onSent p.pn (p.info (en.cc.sendTime s.cc now)) else s.get e' := by
  have h : ∀ t : State σ, ∀ (i : Info), (t.sentInFlight en p.pn i st now).get e' = t.get e' := by
    intro t i
    unfold State.sentInFlight
    split
    · exact get_congr rfl rfl rfl e'
    · rfl
  unfold State.onSent
  dsimp only
  refine (get_congr rfl rfl rfl e').trans ((h _ _).trans ?_)
  by_cases he : e' = e
  · subst he; rw [if_pos rfl]; exact (get_congr rfl rfl rfl e').trans (get_set_same ..)
  · rw [if_neg he]; exact (get_congr rfl rfl rfl e').trans (get_set_other _ _ he)

theorem onSent_rest (en : Env σ) (s : State σ) (e : Epoch) (p : Pkt) (st : Status) (now : Nat) :
    (s.onSent en e p st now).failed = s.failed ∧
    (s.onSent en e p st now).flight.bytes = s.flight.bytes + wt [(p.pn, p.info (en.cc.sendTime s.cc now))] ∧
    (s.onSent en e p st now).log = s.log ++ (if p.inFlight = true then
      [.sent (en.cc.sendTime s.cc now) s.flight.bytes p.pn (p.info (en.cc.sendTime s.cc now)).size p.hasData] else []) ∧
    (s.onSent en e p st now).thresh = s.thresh ∧ (s.onSent en e p st now).rtt = s.rtt ∧
    (s.onSent en e p st now).lostCount = s.lostCount ∧ (s.onSent en e p st now).spuriousCount = s.spuriousCount := by
  unfold State.onSent
  dsimp only
  generalize hI : p.info (en.cc.sendTime s.cc now) = i
  have h1 : i.inFlight = p.inFlight := by rw [← hI]; rfl
  have h2 : i.timeSent = en.cc.sendTime s.cc now := by rw [← hI]; rfl
  have h3 : i.hasData = p.hasData := by rw [← hI]; rfl
  obtain ⟨f1, f2, f3, f4, f5, f6, f7, f8, f9⟩ := set_fields s e ((s.get e).onSent p.pn i)
  generalize s.set e ((s.get e).onSent p.pn i) = t at *
  rw [wt_cons, wt_nil]
  unfold State.sentInFlight
  split
  · next h =>
    rw [h1] at h
    rw [if_pos h]
    refine ⟨f2, ?_, ?_, f5, f4, f7, f9⟩
    · dsimp only [State.setTimer]
      rw [add_bytes]
      show t.flight.bytes + i.size = _
      rw [f1]; simp
    · show t.log ++ [.sent i.timeSent t.flight.bytes p.pn i.size i.hasData] = _
      rw [f3, f1, h2, h3]
  · next h =>
    rw [h1] at h
    rw [if_neg h]
    refine ⟨f2, ?_, ?_, f5, f4, f7, f9⟩
    · dsimp only
      rw [f1]; simp
    · dsimp only; rw [f3]; simp

theorem onSent_live (x : Space) (pn : Nat) (i : Info) : (x.onSent pn i).live = x.live ++ [(pn, i)] := by
  unfold Space.live Space.onSent
  dsimp only
  rw [openOf_append]; rfl

theorem onSent_inv {x : Space} (h : SpaceInv x) (pn : Nat) (i : Info) (hn : ∀ q ∈ x.sent, q.pn < pn) : SpaceInv (x.onSent pn i) := by
  refine ⟨?_, ?_⟩
  · refine List.pairwise_append.2 ⟨h.sorted, by simp, ?_⟩
    intro a ha b hb
    rw [List.mem_singleton] at hb
    subst hb
    exact hn a ha
  · rw [onSent_live, cnt_append, ← h.count, cnt_cons, cnt_nil]
    unfold Space.onSent
    dsimp only
    split <;> omega

theorem send_facts (en : Env σ) {s : State σ} (hi : Inv s) (e : Epoch) (p : Pkt) (st : Status) (now : Nat)
    (hn : ∀ q ∈ (s.get e).sent, q.pn < p.pn) : Facts s (step en s (.send e p st now)).1 (step en s (.send e p st now)).2 := by
  have hg := onSent_get en s e p st now
  have hr := onSent_rest en s e p st now
  refine Facts.one e rfl hi ?_ ?_ ?_ ?_ ?_ ?_
  · intro e' he; show (s.onSent en e p st now).get e' = _; rw [hg, if_neg he]
  · show SpaceInv ((s.onSent en e p st now).get e); rw [hg, if_pos rfl]; exact onSent_inv (hi e) _ _ hn
  · show ((s.get e).live ++ [(p.pn, p.info (en.cc.sendTime s.cc now))]).Perm (((s.onSent en e p st now).get e).live ++ ([] ++ ([] ++ [])))
    rw [hg, if_pos rfl, onSent_live]
    simp
  · intro _
    show (s.onSent en e p st now).flight.bytes = s.flight.bytes + wt [_] - (wt [] + wt [] + wt [])
    rw [hr.2.1]; rfl
  · intro q hq
    have hq' : q ∈ ((s.onSent en e p st now).get e).sent := hq
    rw [hg, if_pos rfl] at hq'
    rcases List.mem_append.1 hq' with h | h
    · exact Or.inl (List.mem_map_of_mem h)
    · rw [List.mem_singleton] at h
      subst h
      exact Or.inr (List.mem_cons_self ..)
  · intro h; show (s.onSent en e p st now).failed = true; rw [hr.1]; exact h

/-! ### Loss detection -/

/-- Facts about a loss detection followed by changes that touch no packet. -/
theorem detectLost_facts (en : Env σ) {s : State σ} (hi : Inv s) (e : Epoch) (now : Nat) {s' : State σ} {o : Out} (he : o.epoch = e)
    (ho : o.sent = [] ∧ o.acked = [] ∧ o.lost = (s.detectLost en e now).1.lost ∧ o.dropped = [])
    (hs : ∀ e, s'.get e = (s.detectLost en e now).2.get e ∨ True)
    (hg : ∀ e', s'.get e' = (s.detectLost en e now).2.get e') (hfl : s'.flight = (s.detectLost en e now).2.flight)
    (hf : s'.failed = s.failed) : Facts s s' o := by
  obtain ⟨h1, h2, h3, -⟩ := detectLost_spec en s e now
  obtain ⟨l1, l2, l3, l4, -, -, -, -, -, -, -, l12, -⟩ := lose_spec (s.lossDelay en) s.thresh.pkt now (hi e)
  rw [h1] at ho
  have hget : s'.get e = ((s.get e).lose (s.lossDelay en) s.thresh.pkt now).2 := by rw [hg, h2, if_pos rfl]
  refine Facts.one e he hi ?_ ?_ ?_ ?_ ?_ ?_
  · intro e' hne; rw [hg, h2, if_neg hne]
  · rw [hget]; exact l1
  · rw [ho.1, ho.2.1, ho.2.2.1, ho.2.2.2, hget, l2]
    simp only [List.append_nil, List.nil_append]
    exact List.perm_append_comm
  · intro _
    rw [hfl, h3, sub_bytes, h1, l4, ho.1, ho.2.1, ho.2.2.1, ho.2.2.2, wt_nil]
    omega
  · intro q hq
    rw [hget] at hq
    left
    rw [← l12]
    exact List.mem_map_of_mem hq
  · intro h; rw [hf]; exact h

/-! ### Acknowledgements -/

/-- The three ways an ACK may go. -/
theorem onAck_cases (en : Env σ) (s : State σ) (e : Epoch) (rs : List (Nat × Nat)) (delay : Nat) (st : Status) (now : Nat) (skip : Option Nat) :
    (((s.get e).acked skip rs).1 = true ∧ s.onAck en e rs delay st now skip =
      ({ s.set e ((s.get e).acked skip rs).2.2 with failed := true },
        ⟨e, [], ((s.get e).acked skip rs).2.1.newly, [], [], ((s.get e).acked skip rs).2.1.spurious, none, 0, 0, 0, 0⟩)) ∨
    (((s.get e).acked skip rs).1 = false ∧ ((s.get e).acked skip rs).2.1.newly = [] ∧ s.onAck en e rs delay st now skip =
      ((s.set e ((s.get e).acked skip rs).2.2).spurious ((s.get e).acked skip rs).2.1,
        ⟨e, [], [], [], [], ((s.get e).acked skip rs).2.1.spurious, none, 0, 0, ((s.get e).acked skip rs).2.1.bytes,
          ((s.get e).acked skip rs).2.1.spurious.length⟩)) ∨
    (((s.get e).acked skip rs).1 = false ∧ ∃ last, ((s.get e).acked skip rs).2.1.newly.getLast? = some last ∧
      s.onAck en e rs delay st now skip =
        ((s.set e ((s.get e).acked skip rs).2.2).spurious ((s.get e).acked skip rs).2.1).ackTail en s.flight.bytes e
          ((s.get e).acked skip rs).2.1 last delay st now) := by
  unfold State.onAck
  dsimp only
  generalize (s.get e).acked skip rs = r
  by_cases h : r.1 = true
  · left; rw [if_pos h]; exact ⟨h, rfl⟩
  · right
    rw [if_neg h]
    have h' : r.1 = false := by simpa using h
    cases hl : r.2.1.newly.getLast? with
    | none => left; exact ⟨h', List.getLast?_eq_none_iff.1 hl, rfl⟩
    | some last => right; exact ⟨h', last, rfl, rfl⟩

theorem spurious_get (s : State σ) (a : AckAcc) (e : Epoch) : (s.spurious a).get e = s.get e := get_congr rfl rfl rfl e

/-- The state in which an ACK looks for lost packets. -/
def ackState (en : Env σ) (s : State σ) (e : Epoch) (rs : List (Nat × Nat)) (delay : Nat) (st : Status) (now : Nat) (skip : Option Nat)
    (last : Nat × Info) : State σ :=
  ((s.set e ((s.get e).acked skip rs).2.2).spurious ((s.get e).acked skip rs).2.1).ackMid en e ((s.get e).acked skip rs).2.1 last delay st now

theorem ackMid_get (en : Env σ) (s : State σ) (e : Epoch) (a : AckAcc) (last : Nat × Info) (delay : Nat) (st : Status) (now : Nat) (e' : Epoch) :
    (s.ackMid en e a last delay st now).get e' =
      if e' = e then { s.get e with largestAcked := some (Nat.max ((s.get e).largestAcked.getD 0) last.1) } else s.get e' := by
  unfold State.ackMid
  dsimp only
  by_cases h : e' = e
  · subst h; rw [if_pos rfl]; exact (get_congr rfl rfl rfl e').trans (get_set_same ..)
  · rw [if_neg h]; exact (get_congr rfl rfl rfl e').trans (get_set_other _ _ h)

theorem ackMid_fields (en : Env σ) (s : State σ) (e : Epoch) (a : AckAcc) (last : Nat × Info) (delay : Nat) (st : Status) (now : Nat) :
    (s.ackMid en e a last delay st now).flight = s.flight.sub a.bytes now ∧ (s.ackMid en e a last delay st now).failed = s.failed ∧
    (s.ackMid en e a last delay st now).log = s.log ∧ (s.ackMid en e a last delay st now).thresh = s.thresh ∧
    (s.ackMid en e a last delay st now).lostCount = s.lostCount ∧ (s.ackMid en e a last delay st now).spuriousCount = s.spuriousCount := by
  obtain ⟨f1, f2, f3, f4, f5, f6, f7, f8, f9⟩ := set_fields s e { s.get e with largestAcked := some (Nat.max ((s.get e).largestAcked.getD 0) last.1) }
  exact ⟨rfl, f2, f3, f5, f7, f9⟩

/-- The space in which an ACK looks for lost packets. -/
theorem ackState_get (en : Env σ) (s : State σ) (e : Epoch) (rs : List (Nat × Nat)) (delay : Nat) (st : Status) (now : Nat) (skip : Option Nat)
    (last : Nat × Info) (e' : Epoch) :
    (ackState en s e rs delay st now skip last).get e' =
      if e' = e then { ((s.get e).acked skip rs).2.2 with
        largestAcked := some (Nat.max (((s.get e).acked skip rs).2.2.largestAcked.getD 0) last.1) } else s.get e' := by
  unfold ackState
  rw [ackMid_get, spurious_get, get_set_same]
  split
  · rfl
  · next h => rw [spurious_get, get_set_other _ _ h]

theorem ackState_fields (en : Env σ) (s : State σ) (e : Epoch) (rs : List (Nat × Nat)) (delay : Nat) (st : Status) (now : Nat) (skip : Option Nat)
    (last : Nat × Info) :
    (ackState en s e rs delay st now skip last).flight = s.flight.sub ((s.get e).acked skip rs).2.1.bytes now ∧
    (ackState en s e rs delay st now skip last).failed = s.failed ∧
    (ackState en s e rs delay st now skip last).log = s.log ∧
    (ackState en s e rs delay st now skip last).lostCount = s.lostCount ∧
    (ackState en s e rs delay st now skip last).thresh = (s.spurious ((s.get e).acked skip rs).2.1).thresh ∧
    (ackState en s e rs delay st now skip last).spuriousCount = s.spuriousCount + ((s.get e).acked skip rs).2.1.spurious.length := by
  unfold ackState
  obtain ⟨m1, m2, m3, m4, m5, m6⟩ := ackMid_fields en ((s.set e ((s.get e).acked skip rs).2.2).spurious ((s.get e).acked skip rs).2.1) e
    ((s.get e).acked skip rs).2.1 last delay st now
  obtain ⟨f1, f2, f3, f4, f5, f6, f7, f8, f9⟩ := set_fields s e ((s.get e).acked skip rs).2.2
  refine ⟨?_, m2.trans f2, m3.trans f3, m5.trans f7, ?_, ?_⟩
  · rw [m1]; show Bif.sub (s.set e _).flight _ _ = _; rw [f1]
  · rw [m4]; unfold State.spurious; dsimp only; rw [f5]
  · rw [m6]; show (s.set e _).spuriousCount + _ = _; rw [f9]

theorem ackState_inv (en : Env σ) {s : State σ} (hi : Inv s) (e : Epoch) (rs : List (Nat × Nat)) (delay : Nat) (st : Status) (now : Nat)
    (skip : Option Nat) (last : Nat × Info) : Inv (ackState en s e rs delay st now skip last) := by
  intro e'
  rw [ackState_get]
  split
  · have := (acked_spec skip rs (hi e)).1
    exact ⟨this.sorted, this.count⟩
  · exact hi e'

/-- What an ACK that acknowledges something does. -/
theorem ackTail_spec (en : Env σ) (s : State σ) (e : Epoch) (rs : List (Nat × Nat)) (delay : Nat) (st : Status) (now : Nat) (skip : Option Nat)
    (last : Nat × Info) {t : State σ} (ht : t = ackState en s e rs delay st now skip last)
    {r : State σ × Out} (hr : r = ((s.set e ((s.get e).acked skip rs).2.2).spurious ((s.get e).acked skip rs).2.1).ackTail en s.flight.bytes e
          ((s.get e).acked skip rs).2.1 last delay st now) :
    (∀ e', r.1.get e' = (t.detectLost en e now).2.get e') ∧ r.1.flight = (t.detectLost en e now).2.flight ∧ r.1.failed = s.failed ∧
    r.2.epoch = e ∧ r.2.sent = [] ∧ r.2.acked = ((s.get e).acked skip rs).2.1.newly ∧ r.2.lost = (t.detectLost en e now).1.lost ∧
    r.2.dropped = [] ∧ r.2.spurious = ((s.get e).acked skip rs).2.1.spurious ∧ r.2.handed = none ∧
    r.2.counts = ((t.detectLost en e now).1.newly.length, (t.detectLost en e now).1.bytes, ((s.get e).acked skip rs).2.1.bytes,
      ((s.get e).acked skip rs).2.1.spurious.length) ∧
    (∃ u, r.1.log = s.log ++ (t.detectLost en e now).1.probes.map Told.neutered ++ [.event u s.flight.bytes (t.detectLost en e now).2.flight.bytes now
      (((s.get e).acked skip rs).2.1.newly.map fun x => (x.1, x.2.timeSent)) (t.detectLost en e now).1.newly
      ((t.detectLost en e now).2.get e).leastUnacked]) ∧
    r.1.lostCount = s.lostCount + (t.detectLost en e now).1.newly.length ∧ r.1.thresh = t.thresh ∧ r.1.rtt = t.rtt ∧
    r.1.spuriousCount = t.spuriousCount ∧ r.1.ptoCount = 0 := by
  subst hr
  have hd := detectLost_spec en t e now
  have hf := ackState_fields en s e rs delay st now skip last
  rw [← ht] at hf
  unfold State.ackTail
  dsimp only
  rw [show State.ackMid en ((s.set e ((s.get e).acked skip rs).2.2).spurious ((s.get e).acked skip rs).2.1) e
    ((s.get e).acked skip rs).2.1 last delay st now = t from ht.symm]
  obtain ⟨h1, h2, h3, h4, h5, h6, h7, h8, h9, h10⟩ := hd
  refine ⟨fun e' => get_congr rfl rfl rfl e', rfl, ?_, rfl, rfl, rfl, rfl, rfl, rfl, rfl, rfl,
    ⟨_, congrArg (· ++ _) (h5.trans (congrArg (· ++ _) hf.2.2.1))⟩, ?_, h7, h6, h10, rfl⟩
  · show (t.detectLost en e now).2.failed = s.failed
    rw [h4]; exact hf.2.1
  · show (t.detectLost en e now).2.lostCount + _ = _
    rw [h8, hf.2.2.2.1]

theorem ack_facts (en : Env σ) {s : State σ} (hi : Inv s) (e : Epoch) (rs : List (Nat × Nat)) (delay : Nat) (st : Status) (now : Nat)
    (skip : Option Nat) : Facts s (s.onAck en e rs delay st now skip).1 (s.onAck en e rs delay st now skip).2 := by
  obtain ⟨a1, a2, a3, a4, a5, a6, a7, a8, a9, a10, a11, a12, a13, a14⟩ := acked_spec skip rs (hi e)
  obtain ⟨f1, f2, f3, f4, f5, f6, f7, f8, f9⟩ := set_fields s e ((s.get e).acked skip rs).2.2
  rcases onAck_cases en s e rs delay st now skip with ⟨_, he⟩ | ⟨hnf, hn, he⟩ | ⟨hnf, last, hl, he⟩
  · rw [he]
    have hg : ({ s.set e ((s.get e).acked skip rs).2.2 with failed := true } : State σ).get e = ((s.get e).acked skip rs).2.2 :=
      (get_congr rfl rfl rfl e).trans (get_set_same ..)
    refine Facts.one e rfl hi (fun e' hne => (get_congr rfl rfl rfl e').trans (get_set_other _ _ hne)) ?_ ?_ (fun h => nomatch h) ?_ (fun _ => rfl)
    · rw [hg]; exact a1
    · rw [hg]; simpa using a2
    · intro q hq
      rw [hg] at hq
      exact Or.inl (a13.subset (List.mem_map_of_mem hq))
  · rw [he]
    have hg : ((s.set e ((s.get e).acked skip rs).2.2).spurious ((s.get e).acked skip rs).2.1).get e = ((s.get e).acked skip rs).2.2 := by
      rw [spurious_get, get_set_same]
    refine Facts.one e rfl hi (fun e' hne => by rw [spurious_get, get_set_other _ _ hne]) ?_ ?_ ?_ ?_ (fun h => f2.trans h)
    · rw [hg]; exact a1
    · rw [hg]; rw [hn] at a2; simpa using a2
    · intro _
      show (s.set e _).flight.bytes = _
      rw [f1]; simp [wt_nil]
    · intro q hq
      rw [hg] at hq
      exact Or.inl (a13.subset (List.mem_map_of_mem hq))
  · obtain ⟨t, ht⟩ : ∃ t, t = ackState en s e rs delay st now skip last := ⟨_, rfl⟩
    obtain ⟨g1, g2, g3, g4, g5, g6, g7, g8, -⟩ := ackTail_spec en s e rs delay st now skip last ht he
    have hti : Inv t := by rw [ht]; exact ackState_inv en hi e rs delay st now skip last
    have htg := ackState_get en s e rs delay st now skip last e
    rw [← ht, if_pos rfl] at htg
    have htf := (ackState_fields en s e rs delay st now skip last).1
    rw [← ht] at htf
    obtain ⟨h1, h2, h3, -⟩ := detectLost_spec en t e now
    obtain ⟨l1, l2, l3, l4, -, -, -, -, -, -, -, l12, -⟩ := lose_spec (t.lossDelay en) t.thresh.pkt now (hti e)
    generalize s.onAck en e rs delay st now skip = r at *
    have hge : r.1.get e = ((t.get e).lose (t.lossDelay en) t.thresh.pkt now).2 := by rw [g1, h2, if_pos rfl]
    have hlive : (t.get e).live = ((s.get e).acked skip rs).2.2.live := by rw [htg]; rfl
    have hsent : (t.get e).sent = ((s.get e).acked skip rs).2.2.sent := by rw [htg]
    refine Facts.one e g4 hi ?_ ?_ ?_ ?_ ?_ ?_
    · intro e' hne
      rw [g1, h2, if_neg hne, ht, ackState_get, if_neg hne]
    · rw [hge]; exact l1
    · rw [g5, g6, g7, g8, hge, h1]
      simp only [List.append_nil]
      refine a2.trans ?_
      rw [← hlive, l2]
      refine (List.Perm.append_right _ List.perm_append_comm).trans ?_
      rw [List.append_assoc]
      exact List.Perm.append_left _ List.perm_append_comm
    · intro _
      rw [g2, h3, sub_bytes, htf, sub_bytes, h1, l4, a4, g5, g6, g7, g8, h1, wt_nil]
      omega
    · intro q hq
      rw [hge] at hq
      left
      have : q.pn ∈ (t.get e).sent.map Pk.pn := by rw [← l12]; exact List.mem_map_of_mem hq
      rw [hsent] at this
      exact a13.subset this
    · intro h; rw [g3]; exact h

/-! ### The other calls -/

theorem tell_get (en : Env σ) (s : State σ) (t : Told) (e : Epoch) : (s.tell en t).get e = s.get e := get_congr rfl rfl rfl e

theorem onPto_spec (en : Env σ) (s : State σ) (st : Status) (now : Nat) :
    (∀ e, (s.onPto en st now).get e = if e = s.ptoSpace st now then (s.get e).onProbe (s.ptoCount + 1) else s.get e) ∧
    (s.onPto en st now).flight = s.flight ∧ (s.onPto en st now).failed = s.failed ∧
    (s.onPto en st now).log = s.log ++ [.rto ((s.get (s.ptoSpace st now)).onProbe (s.ptoCount + 1)).hasLost] ∧
    (s.onPto en st now).thresh = s.thresh ∧ (s.onPto en st now).rtt = s.rtt ∧ (s.onPto en st now).lostCount = s.lostCount ∧
    (s.onPto en st now).spuriousCount = s.spuriousCount := by
  unfold State.onPto
  dsimp only
  generalize s.ptoSpace st now = e
  generalize hx : (s.get e).onProbe (s.ptoCount + 1) = x
  obtain ⟨f1, f2, f3, f4, f5, f6, f7, f8, f9⟩ := set_fields { s with ptoCount := s.ptoCount + 1 } e x
  refine ⟨?_, f1, f2, ?_, f5, f4, f7, f9⟩
  · intro e'
    rw [setTimer_get, tell_get]
    split
    · next h => subst h; rw [get_set_same, hx]
    · next h => rw [get_set_other _ _ h]; exact get_congr rfl rfl rfl e'
  · show State.log (State.set _ e x) ++ _ = _
    rw [f3]

theorem onDiscard_spec (en : Env σ) (s : State σ) (e : Epoch) (st : Status) (now : Nat) :
    (∀ e', (s.onDiscard en e st now).1.get e' = if e' = e then (s.get e).discard else s.get e') ∧
    (s.onDiscard en e st now).1.flight.bytes = s.flight.bytes - wt (s.get e).live ∧
    (s.onDiscard en e st now).1.failed = s.failed ∧
    (s.onDiscard en e st now).1.log = s.log ++ ((s.get e).live.map Prod.fst).map Told.neutered ∧
    (s.onDiscard en e st now).1.thresh = s.thresh ∧ (s.onDiscard en e st now).1.rtt = s.rtt ∧
    (s.onDiscard en e st now).1.lostCount = s.lostCount ∧
    (s.onDiscard en e st now).1.spuriousCount = s.spuriousCount := by
  unfold State.onDiscard
  dsimp only
  obtain ⟨h1, h2, h3, h4, h5, h6, h7, h8, h9⟩ := neuter_fields en ((openOf (s.get e).sent).map Prod.fst) (s.set e (s.get e).discard)
  obtain ⟨f1, f2, f3, f4, f5, f6, f7, f8, f9⟩ := set_fields s e (s.get e).discard
  refine ⟨?_, ?_, h3.trans f2, ?_, h6.trans f5, h5.trans f4, h7.trans f7, h9.trans f9⟩
  · intro e'
    rw [setTimer_get]
    refine (get_congr rfl rfl rfl e').trans ((h1 e').trans ?_)
    split
    · next h => subst h; rw [get_set_same]
    · next h => rw [get_set_other _ _ h]
  · show (Bif.sub _ _ _).bytes = _
    rw [sub_bytes, h2, f1]; rfl
  · show (State.neuter en _ _).log = _
    rw [h4, f3]; rfl

theorem nextAcked_same (x : Space) : x.nextAcked.1.sent = x.sent ∧ x.nextAcked.1.inFlightCount = x.inFlightCount ∧
    x.nextAcked.1.lossTime = x.lossTime ∧ x.nextAcked.1.largestAcked = x.largestAcked ∧ x.nextAcked.1.lostAck = x.lostAck ∧
    x.nextAcked.1.lostPto = x.lostPto := by
  unfold Space.nextAcked; split <;> exact ⟨rfl, rfl, rfl, rfl, rfl, rfl⟩

theorem nextLost_same (x : Space) : x.nextLost.1.sent = x.sent ∧ x.nextLost.1.inFlightCount = x.inFlightCount ∧
    x.nextLost.1.lossTime = x.lossTime ∧ x.nextLost.1.largestAcked = x.largestAcked ∧ x.nextLost.1.ackedFrames = x.ackedFrames := by
  unfold Space.nextLost; split <;> exact ⟨rfl, rfl, rfl, rfl, rfl⟩

/-- The calls that touch no packet. -/
def Op.quiet : Op → Bool
  | .pingSent _ | .nextAcked _ | .nextLost _ | .ackDelay _ => true
  | _ => false

theorem quiet_spec (en : Env σ) (s : State σ) (o : Op) (h : o.quiet = true) :
    (∀ e, ((step en s o).1.get e).sent = (s.get e).sent ∧ ((step en s o).1.get e).inFlightCount = (s.get e).inFlightCount ∧
      ((step en s o).1.get e).lossTime = (s.get e).lossTime ∧ ((step en s o).1.get e).largestAcked = (s.get e).largestAcked) ∧
    (step en s o).1.flight = s.flight ∧ (step en s o).1.failed = s.failed ∧ (step en s o).1.log = s.log ∧
    (step en s o).1.thresh = s.thresh ∧ (step en s o).1.lostCount = s.lostCount ∧
    (step en s o).1.spuriousCount = s.spuriousCount ∧
    (step en s o).2.sent = [] ∧ (step en s o).2.acked = [] ∧ (step en s o).2.lost = [] ∧ (step en s o).2.dropped = [] ∧
    (step en s o).2.spurious = [] := by
  have key : ∀ (e : Epoch) (x : Space), (x.sent = (s.get e).sent ∧ x.inFlightCount = (s.get e).inFlightCount ∧
      x.lossTime = (s.get e).lossTime ∧ x.largestAcked = (s.get e).largestAcked) →
      (∀ e', ((s.set e x).get e').sent = (s.get e').sent ∧ ((s.set e x).get e').inFlightCount = (s.get e').inFlightCount ∧
        ((s.set e x).get e').lossTime = (s.get e').lossTime ∧ ((s.set e x).get e').largestAcked = (s.get e').largestAcked) := by
    intro e x hx e'
    by_cases he : e' = e
    · subst he; rw [get_set_same]; exact hx
    · rw [get_set_other _ _ he]; exact ⟨rfl, rfl, rfl, rfl⟩
  cases o with
  | pingSent e =>
    obtain ⟨f1, f2, f3, f4, f5, f6, f7, f8, f9⟩ := set_fields s e { s.get e with lossProbes := (s.get e).lossProbes - 1 }
    exact ⟨key e _ ⟨rfl, rfl, rfl, rfl⟩, f1, f2, f3, f5, f7, f9, rfl, rfl, rfl, rfl, rfl⟩
  | nextAcked e =>
    obtain ⟨f1, f2, f3, f4, f5, f6, f7, f8, f9⟩ := set_fields s e (s.get e).nextAcked.1
    have hn := nextAcked_same (s.get e)
    exact ⟨key e _ ⟨hn.1, hn.2.1, hn.2.2.1, hn.2.2.2.1⟩, f1, f2, f3, f5, f7, f9, rfl, rfl, rfl, rfl, rfl⟩
  | nextLost e =>
    obtain ⟨f1, f2, f3, f4, f5, f6, f7, f8, f9⟩ := set_fields s e (s.get e).nextLost.1
    have hn := nextLost_same (s.get e)
    exact ⟨key e _ ⟨hn.1, hn.2.1, hn.2.2.1, hn.2.2.2.1⟩, f1, f2, f3, f5, f7, f9, rfl, rfl, rfl, rfl, rfl⟩
  | ackDelay d => exact ⟨fun e => by cases e <;> exact ⟨rfl, rfl, rfl, rfl⟩, rfl, rfl, rfl, rfl, rfl, rfl, rfl, rfl, rfl, rfl, rfl⟩
  | _ => exact absurd h (by simp [Op.quiet])

/-- What a packet that is sent needs: its number is above those of the space. -/
def Fresh (s : State σ) : Op → Prop
  | .send e p _ _ => ∀ q ∈ (s.get e).sent, q.pn < p.pn
  | _ => True

/-- Every call. -/
theorem step_facts (en : Env σ) {s : State σ} (hi : Inv s) (o : Op) (hf : Fresh s o) : Facts s (step en s o).1 (step en s o).2 := by
  by_cases hq : o.quiet = true
  · obtain ⟨q1, q2, q3, q4, q5, q6, q7, q8, q9, q10, q11, q12⟩ := quiet_spec en s o hq
    exact Facts.quiet hi ⟨q8, q9, q10, q11⟩ (fun e => ⟨(q1 e).1, (q1 e).2.1⟩) (by rw [q2]) q3
  · cases o with
    | send e p st now => exact send_facts en hi e p st now hf
    | ack e rs delay st now skip => exact ack_facts en hi e rs delay st now skip
    | timeout st now =>
      show Facts s (s.onTimeout en st now).1 (s.onTimeout en st now).2
      unfold State.onTimeout
      split
      · exact detectLost_facts en hi _ now rfl ⟨rfl, rfl, rfl, rfl⟩ (fun _ => Or.inr trivial) (fun e' => get_congr rfl rfl rfl e') rfl
          (detectLost_spec en s _ now).2.2.2.1
      · obtain ⟨p1, p2, p3, p4, -⟩ := onPto_spec en s st now
        refine Facts.quiet hi ⟨rfl, rfl, rfl, rfl⟩ ?_ (by rw [p2]) p3
        intro e
        dsimp only
        rw [p1]
        split <;> exact ⟨rfl, rfl⟩
    | discard e st now =>
      show Facts s (s.onDiscard en e st now).1 (s.onDiscard en e st now).2
      obtain ⟨d1, d2, d3, d4, -⟩ := onDiscard_spec en s e st now
      refine Facts.one e rfl hi (fun e' hne => by rw [d1, if_neg hne]) ?_ ?_ ?_ ?_ (fun h => d3.trans h)
      · rw [d1, if_pos rfl]; exact ⟨List.Pairwise.nil, rfl⟩
      · rw [d1, if_pos rfl]
        show ((s.get e).live ++ []).Perm ([] ++ ([] ++ ([] ++ (s.get e).live)))
        simp
      · intro _
        rw [d2]
        show _ = _ + wt [] - (wt [] + wt [] + wt (s.get e).live)
        rw [wt_nil]; omega
      · intro q hq
        rw [d1, if_pos rfl] at hq
        exact nomatch hq
    | pathChange e now =>
      exact detectLost_facts en hi e now rfl ⟨rfl, rfl, rfl, rfl⟩ (fun _ => Or.inr trivial) (fun e' => rfl) rfl
          (detectLost_spec en s _ now).2.2.2.1
    | _ => exact absurd rfl hq

end Verif.GRec
