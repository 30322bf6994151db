import Verif.Rec.Rate

/-!
C157: the delivery rate reported for a path is backed by acknowledgements.
-/

namespace Verif.Props.C157
open Verif.Rate

/-! ### Lists of events -/

theorem bytes_append (a b : List Ev) : bytes (a ++ b) = bytes a + bytes b := by simp [bytes]

theorem bytes_split (l : List Ev) (k : Nat) : bytes l = bytes (l.take k) + bytes (l.drop k) := by
  rw [← bytes_append, List.take_append_drop]

theorem bytes_take_mono (l : List Ev) {i j : Nat} (h : i ≤ j) : bytes (l.take i) ≤ bytes (l.take j) := by
  have := bytes_split (l.take j) i
  rw [List.take_take, Nat.min_eq_left h] at this
  omega

theorem lastTime_snoc (l : List Ev) (e : Ev) : lastTime (l ++ [e]) = e.time := by simp [lastTime]

/-- Bytes acknowledged at or after a time. -/
def ackedSince (l : List Ev) (t : Nat) : Nat := bytes (l.filter fun e => decide (t ≤ e.time))

theorem drop_le_since (l : List Ev) (k t : Nat) (h : ∀ e ∈ l.drop k, t ≤ e.time) : bytes (l.drop k) ≤ ackedSince l t := by
  have e1 : (l.drop k).filter (fun e => decide (t ≤ e.time)) = l.drop k :=
    List.filter_eq_self.mpr fun e he => by simpa using h e he
  unfold ackedSince
  rw [← List.take_append_drop k l, List.filter_append, bytes_append, List.take_append_drop, e1]
  omega

/-! ### What always holds -/

/-- What is known of a packet, sent when the history was `l.take p.k`. -/
structure Good (l : List Ev) (now : Nat) (p : Pkt) : Prop where
  k : p.k ≤ l.length
  del : p.del = bytes (l.take p.k)
  delTime : p.delTime = lastTime (l.take p.k)
  sent : p.sent ≤ now
  first : p.firstSent ≤ p.sent
  before : p.delTime ≤ p.sent
  after : ∀ e ∈ l.drop p.k, p.sent ≤ e.time

theorem Good.snoc {l : List Ev} {now : Nat} {p : Pkt} (h : Good l now p) {e : Ev} (he : e.time = now) : Good (l ++ [e]) now p := by
  have ht : (l ++ [e]).take p.k = l.take p.k := List.take_append_of_le_length h.k
  refine ⟨by have := h.k; simp; omega, by rw [ht]; exact h.del, by rw [ht]; exact h.delTime, h.sent, h.first, h.before, ?_⟩
  intro x hx
  rw [List.drop_append_of_le_length h.k, List.mem_append] at hx
  rcases hx with hx | hx
  · exact h.after x hx
  · simp only [List.mem_singleton] at hx
    subst hx
    rw [he]; exact h.sent

theorem Good.later {l : List Ev} {now : Nat} {p : Pkt} (h : Good l now p) (d : Nat) : Good l (now + d) p :=
  ⟨h.k, h.del, h.delTime, by have := h.sent; omega, h.first, h.before, h.after⟩

structure Sampled (w : World) (q : Pkt) (t : Nat) : Prop where
  good : Good w.log w.now q
  old : q.id < w.sent
  del : w.r.s.priorDel = q.del
  time : w.r.s.priorTime = some q.delTime
  lim : w.r.s.appLim = q.appLim
  send : w.r.s.sendElapsed = q.sent - q.firstSent
  ack : w.r.s.ackElapsed = t - q.delTime
  sent : q.sent ≤ t
  now : t ≤ w.now

structure Inv (w : World) (out : List Pkt) : Prop where
  delivered : w.r.delivered = bytes w.log
  delTime : w.r.delTime = lastTime w.log
  last : lastTime w.log ≤ w.now
  first : w.r.firstSent ≤ w.now
  good : ∀ p ∈ out, Good w.log w.now p ∧ p.id < w.sent
  order : out.Pairwise fun p q => p.id < q.id ∧ p.k ≤ q.k
  none : w.sampled = none → w.r.s.priorTime = none
  some : ∀ q t, w.sampled = some (q, t) → Sampled w q t ∧ ∀ p ∈ out, q.id < p.id → q.k ≤ p.k

theorem inv_init : Inv {} [] :=
  ⟨rfl, rfl, Nat.le_refl _, Nat.le_refl _, by simp, .nil, fun _ => rfl, by simp⟩

theorem Sampled.prior_le {w : World} {q : Pkt} {t : Nat} (h : Sampled w q t) : w.r.s.priorDel ≤ bytes w.log := by
  have := bytes_split w.log q.k
  rw [h.del, h.good.del]
  omega

theorem Inv.prior_le {w : World} {out : List Pkt} (h : Inv w out) (hp : w.r.s.priorTime.isSome) : w.r.s.priorDel ≤ bytes w.log := by
  cases hs : w.sampled with
  | none => rw [h.none hs] at hp; simp at hp
  | some x => exact (h.some x.1 x.2 hs).1.prior_le

theorem inv_tick {w : World} {out : List Pkt} (h : Inv w out) (d : Nat) : Inv { w with now := w.now + d } out := by
  refine ⟨h.delivered, h.delTime, by have := h.last; simp only; omega, by have := h.first; simp only; omega, ?_, h.order, h.none, ?_⟩
  · intro p hp
    exact ⟨(h.good p hp).1.later d, (h.good p hp).2⟩
  · intro q t hq
    obtain ⟨s, o⟩ := h.some q t hq
    exact ⟨⟨s.good.later d, s.old, s.del, s.time, s.lim, s.send, s.ack, s.sent, by have := s.now; simp only; omega⟩, o⟩

theorem inv_filter {w : World} {out : List Pkt} (h : Inv w out) (f : Pkt → Bool) : Inv w (out.filter f) := by
  refine ⟨h.delivered, h.delTime, h.last, h.first, ?_, h.order.filter f, h.none, ?_⟩
  · intro p hp
    exact h.good p (List.mem_filter.mp hp).1
  · intro q t hq
    obtain ⟨s, o⟩ := h.some q t hq
    exact ⟨s, fun p hp => o p (List.mem_filter.mp hp).1⟩

theorem inv_out {w : World} {out : List Pkt} (h : Inv w out) (o : List Pkt) : Inv { w with out := o } out :=
  ⟨h.delivered, h.delTime, h.last, h.first, h.good, h.order, h.none, fun q t hq => by
    obtain ⟨s, o⟩ := h.some q t hq
    exact ⟨⟨s.good, s.old, s.del, s.time, s.lim, s.send, s.ack, s.sent, s.now⟩, o⟩⟩

theorem inv_restart {w : World} {out : List Pkt} (h : Inv w out) : Inv { w with r := { w.r with firstSent := w.now, delTime := w.now }, log := w.log ++ [.restart w.now] } out := by
  refine ⟨?_, ?_, ?_, Nat.le_refl _, ?_, h.order, h.none, ?_⟩
  · simp only [bytes_append, h.delivered]; simp [bytes, Ev.bytes]
  · simp only [lastTime_snoc, Ev.time]
  · simp only [lastTime_snoc, Ev.time]; omega
  · intro p hp
    exact ⟨(h.good p hp).1.snoc rfl, (h.good p hp).2⟩
  · intro q t hq
    obtain ⟨s, o⟩ := h.some q t hq
    exact ⟨⟨s.good.snoc rfl, s.old, s.del, s.time, s.lim, s.send, s.ack, s.sent, s.now⟩, o⟩

theorem inv_send' {w : World} (h : Inv w w.out) (num size : Nat) (b : Bool) :
    Inv { w with r := { w.r with lastSent := num }, sent := w.sent + 1,
                 out := w.out ++ [{ num, size, sent := w.now, firstSent := w.r.firstSent, delTime := w.r.delTime, del := w.r.delivered, appLim := b, id := w.sent, k := w.log.length }] }
      (w.out ++ [{ num, size, sent := w.now, firstSent := w.r.firstSent, delTime := w.r.delTime, del := w.r.delivered, appLim := b, id := w.sent, k := w.log.length }]) := by
  refine ⟨h.delivered, h.delTime, h.last, h.first, ?_, ?_, h.none, ?_⟩
  · intro p hp
    rcases List.mem_append.mp hp with hp | hp
    · exact ⟨(h.good p hp).1, Nat.lt_succ_of_lt (h.good p hp).2⟩
    · simp only [List.mem_singleton] at hp
      subst hp
      refine ⟨⟨Nat.le_refl _, ?_, ?_, Nat.le_refl _, h.first, ?_, ?_⟩, Nat.lt_succ_self _⟩
      · simp only [List.take_length]; exact h.delivered
      · simp only [List.take_length]; exact h.delTime
      · simp only [h.delTime]; exact h.last
      · simp
  · refine List.pairwise_append.mpr ⟨h.order, List.pairwise_singleton _ _, ?_⟩
    intro a ha b hb
    simp only [List.mem_singleton] at hb
    subst hb
    exact ⟨(h.good a ha).2, (h.good a ha).1.k⟩
  · intro q t hq
    obtain ⟨s, o⟩ := h.some q t hq
    refine ⟨⟨s.good, Nat.lt_succ_of_lt s.old, s.del, s.time, s.lim, s.send, s.ack, s.sent, s.now⟩, ?_⟩
    intro p hp hi
    rcases List.mem_append.mp hp with hp | hp
    · exact o p hp hi
    · simp only [List.mem_singleton] at hp
      subst hp
      exact s.good.k

theorem inv_send {w : World} (h : Inv w w.out) (num size inflight : Nat) : Inv (w.send num size inflight) (w.send num size inflight).out := by
  unfold World.send Rate.restart
  by_cases hi : inflight = 0
  · simp only [if_pos hi]
    exact inv_send' (w := { w with r := { w.r with firstSent := w.now, delTime := w.now }, log := w.log ++ [.restart w.now] }) (inv_restart h) num size _
  · simp only [if_neg hi]
    exact inv_send' h num size _

/-- One acknowledged packet. -/
theorem inv_update {w : World} {p : Pkt} {out : List Pkt} (h : Inv w (p :: out)) :
    Inv (w.update p) out := by
  obtain ⟨gp, ip⟩ := h.good p (by simp)
  have gp' : Good (w.log ++ [.acked w.now p.size]) w.now p := gp.snoc rfl
  unfold World.update Rate.update
  by_cases hc : w.r.s.priorTime = none ∨ p.del ≥ w.r.s.priorDel
  · simp only [if_pos hc]
    refine ⟨?_, ?_, ?_, gp.sent, ?_, (List.pairwise_cons.mp h.order).2, by simp, ?_⟩
    · simp only [bytes_append, h.delivered]; simp [bytes, Ev.bytes]
    · simp only [lastTime_snoc, Ev.time]
    · simp only [lastTime_snoc, Ev.time]; omega
    · intro x hx
      exact ⟨(h.good x (by simp [hx])).1.snoc rfl, (h.good x (by simp [hx])).2⟩
    · intro q t hq
      simp only [Option.some.injEq, Prod.mk.injEq] at hq
      obtain ⟨rfl, rfl⟩ := hq
      refine ⟨⟨gp', ip, rfl, rfl, rfl, rfl, rfl, gp.sent, Nat.le_refl _⟩, ?_⟩
      intro x hx _
      exact ((List.pairwise_cons.mp h.order).1 x hx).2
  · simp only [if_neg hc]
    refine ⟨?_, ?_, ?_, h.first, ?_, (List.pairwise_cons.mp h.order).2, h.none, ?_⟩
    · simp only [bytes_append, h.delivered]; simp [bytes, Ev.bytes]
    · simp only [lastTime_snoc, Ev.time]
    · simp only [lastTime_snoc, Ev.time]; omega
    · intro x hx
      exact ⟨(h.good x (by simp [hx])).1.snoc rfl, (h.good x (by simp [hx])).2⟩
    · intro q t hq
      obtain ⟨s, o⟩ := h.some q t hq
      exact ⟨⟨s.good.snoc rfl, s.old, s.del, s.time, s.lim, s.send, s.ack, s.sent, s.now⟩, fun x hx => o x (by simp [hx])⟩

theorem updates_now (w : World) (l : List Pkt) : (w.updates l).now = w.now ∧ (w.updates l).sent = w.sent ∧ (w.updates l).out = w.out ∧ (w.updates l).r.s.bw = w.r.s.bw ∧
    (w.updates l).r.endApp = w.r.endApp ∧ (w.updates l).r.lastSent = w.r.lastSent ∧ (w.updates l).mark = w.mark := by
  induction l generalizing w with
  | nil => exact ⟨rfl, rfl, rfl, rfl, rfl, rfl, rfl⟩
  | cons p l ih =>
    unfold World.updates
    obtain ⟨a, b, c, d, e, f, g⟩ := ih (w.update p)
    refine ⟨a, b, c, d.trans ?_, e.trans ?_, f.trans ?_, g⟩ <;> simp only [Rate.update] <;> split <;> rfl

theorem updates_log (w : World) (l : List Pkt) : (w.updates l).log = w.log ++ l.map fun p => .acked w.now p.size := by
  induction l generalizing w with
  | nil => simp [World.updates]
  | cons p l ih =>
    unfold World.updates
    rw [ih]
    simp

theorem inv_updates {w : World} {l : List Pkt} (h : Inv w l) : Inv (w.updates l) [] := by
  induction l generalizing w with
  | nil => exact h
  | cons p l ih => exact ih (inv_update h)

/-- The packets that are not acknowledged keep what is known of them. -/
theorem good_updates {w : World} {p : Pkt} (l : List Pkt) (h : Good w.log w.now p) : Good (w.updates l).log (w.updates l).now p := by
  induction l generalizing w with
  | nil => exact h
  | cons q l ih => exact ih (h.snoc rfl)

/-- The packet sampled in the end: the last one, if it brings at least as much as the one sampled
before. -/
theorem updates_sampled {w : World} {l : List Pkt} {p : Pkt} (h : Inv w (l ++ [p])) :
    (w.updates (l ++ [p])).sampled = if w.r.s.priorTime = none ∨ p.del ≥ w.r.s.priorDel then some (p, w.now) else w.sampled := by
  induction l generalizing w with
  | nil => rfl
  | cons a l ih =>
    rw [List.cons_append] at h ⊢
    have hi := inv_update h
    have hg := (h.good a (by simp)).1
    have hgp := (h.good p (by simp)).1
    have hk : a.k ≤ p.k := ((List.pairwise_cons.mp h.order).1 p (by simp)).2
    have hd : a.del ≤ p.del := by rw [hg.del, hgp.del]; exact bytes_take_mono _ hk
    rw [World.updates, ih hi]
    by_cases hc : w.r.s.priorTime = none ∨ a.del ≥ w.r.s.priorDel
    · have hc' : w.r.s.priorTime = none ∨ p.del ≥ w.r.s.priorDel := by
        rcases hc with h | h
        · exact .inl h
        · exact .inr (Nat.le_trans h hd)
      rw [if_pos hc']
      simp only [Rate.update, if_pos hc]
      rw [if_pos (.inr hd)]
    · simp only [Rate.update, if_neg hc]

/-! ### Generating the sample -/

/-- The end of the phase. -/
def ended (r : Rate) : Rate := if r.appLimited && decide (r.largestAcked > r.endApp) then r.setLimited false else r

theorem ended_eq (r : Rate) : (ended r).s = r.s ∧ (ended r).delivered = r.delivered ∧ (ended r).delTime = r.delTime ∧ (ended r).firstSent = r.firstSent ∧
    (ended r).lastSent = r.lastSent ∧ (ended r).largestAcked = r.largestAcked ∧
    (ended r).endApp = if r.largestAcked > r.endApp then 0 else r.endApp := by
  unfold ended Rate.appLimited
  by_cases h0 : r.endApp = 0
  · simp [h0]
  · by_cases h1 : r.largestAcked > r.endApp
    · simp [h0, h1, Rate.setLimited]
    · simp [h1]

/-- The rate after a sample: bytes, interval. -/
def newRate (old bytes interval minRtt : Nat) (limited : Bool) : Nat :=
  if interval < minRtt ∨ interval = 0 then old
  else if limited then max old (bytes * 1000000000 / interval) else bytes * 1000000000 / interval

theorem generate_eq (r : Rate) (m : Nat) (hp : r.s.priorTime.isSome) (hd : r.s.priorDel ≤ r.delivered) :
    r.generate m = some { ended r with s := { r.s with bw := newRate r.s.bw (r.delivered - r.s.priorDel) (max r.s.sendElapsed r.s.ackElapsed) m r.s.appLim } } := by
  obtain ⟨e1, e2, -⟩ := ended_eq r
  have e : r.generate m = (if (ended r).s.priorTime.isSome then
    let interval := max (ended r).s.sendElapsed (ended r).s.ackElapsed
    if (ended r).delivered < (ended r).s.priorDel then none
    else if interval < m then some (ended r)
    else if interval ≠ 0 then
      let bw := ((ended r).delivered - (ended r).s.priorDel) * 1000000000 / interval
      if !(ended r).s.appLim || decide (bw > (ended r).s.bw) then some { ended r with s := { (ended r).s with bw := bw } } else some (ended r)
    else some (ended r)
  else some (ended r)) := rfl
  rw [e, e1, e2, if_pos hp]
  dsimp only
  rw [if_neg (by omega)]
  have es : ∀ b, b = r.s.bw → some (ended r) = some { ended r with s := { r.s with bw := b } } := by
    intro b hb; subst hb; rw [← e1]
  generalize hi : max r.s.sendElapsed r.s.ackElapsed = i
  generalize hb : (r.delivered - r.s.priorDel) * 1000000000 / i = b
  by_cases h1 : i < m
  · rw [if_pos h1]
    exact es _ (by simp only [newRate]; rw [if_pos (.inl h1)])
  · rw [if_neg h1]
    by_cases h2 : i = 0
    · rw [if_neg (by simp [h2])]
      exact es _ (by simp only [newRate]; rw [if_pos (.inr h2)])
    · rw [if_pos h2]
      have hn : newRate r.s.bw (r.delivered - r.s.priorDel) i m r.s.appLim = if r.s.appLim then max r.s.bw b else b := by
        unfold newRate
        rw [if_neg (by simp [h1, h2]), hb]
      rw [hn]
      cases ha : r.s.appLim with
      | false => simp
      | true =>
        simp only [Bool.not_true, Bool.false_or, decide_eq_true_eq, if_true]
        by_cases h3 : b > r.s.bw
        · rw [if_pos h3, Nat.max_eq_right (by omega)]
        · rw [if_neg h3]
          rw [Nat.max_eq_left (by omega)]
          have := es _ rfl
          dsimp only at this
          rw [ha] at this
          exact this

theorem updates_prior {w : World} {l : List Pkt} (hl : l ≠ []) : (w.updates l).r.s.priorTime.isSome := by
  have keep : ∀ (l : List Pkt) (w : World), w.r.s.priorTime.isSome → (w.updates l).r.s.priorTime.isSome := by
    intro l
    induction l with
    | nil => exact fun _ h => h
    | cons a l ih =>
      intro w h
      rw [World.updates]
      apply ih
      simp only [Rate.update]
      split
      · rfl
      · exact h
  cases l with
  | nil => exact absurd rfl hl
  | cons a l =>
    rw [World.updates]
    apply keep
    simp only [Rate.update]
    split
    · rfl
    · rename_i hc
      simp only [not_or] at hc
      cases h : w.r.s.priorTime with
      | none => exact absurd h hc.1
      | some x => rfl

/-- Where the sampled packet comes from. -/
theorem sampled_from (w : World) (l : List Pkt) : (w.updates l).sampled = w.sampled ∨ ∃ p ∈ l, (w.updates l).sampled = some (p, w.now) := by
  induction l generalizing w with
  | nil => exact .inl rfl
  | cons a l ih =>
    rw [World.updates]
    rcases ih (w.update a) with h | ⟨p, hp, h⟩
    · by_cases hc : w.r.s.priorTime = none ∨ a.del ≥ w.r.s.priorDel
      · refine .inr ⟨a, by simp, h.trans ?_⟩
        simp only [if_pos hc]
      · refine .inl (h.trans ?_)
        simp only [if_neg hc]
    · exact .inr ⟨p, by simp [hp], h⟩

/-- An acknowledgement: the state after it. -/
theorem ack_eq {w : World} (h : Inv w w.out) (sel : Nat → Bool) (m : Nat) (hb : w.batch sel ≠ []) :
    w.step (.ack sel m) = some { w.updates (w.batch sel) with
      r := { ended (w.updates (w.batch sel)).r with s := { (w.updates (w.batch sel)).r.s with
        bw := newRate w.r.s.bw (bytes (w.updates (w.batch sel)).log - (w.updates (w.batch sel)).r.s.priorDel)
          (max (w.updates (w.batch sel)).r.s.sendElapsed (w.updates (w.batch sel)).r.s.ackElapsed) m (w.updates (w.batch sel)).r.s.appLim } }
      out := w.out.filter fun p => !sel p.id } := by
  have hi : Inv (w.updates (w.batch sel)) [] := inv_updates (inv_filter h _)
  simp only [World.step, if_neg hb]
  have hp := updates_prior (w := w) hb
  rw [generate_eq _ m hp (by rw [hi.delivered]; exact hi.prior_le hp), Option.map_some, hi.delivered, (updates_now w (w.batch sel)).2.2.2.1]

/-- Everything is as it should be at all times, and nothing panics. -/
theorem inv_step {w : World} (h : Inv w w.out) (op : Op) : ∃ v, w.step op = some v ∧ Inv v v.out := by
  cases op with
  | tick d => exact ⟨_, rfl, inv_tick h d⟩
  | send n s i => exact ⟨_, rfl, inv_send h n s i⟩
  | lose sel => exact ⟨_, rfl, inv_out (inv_filter h _) _⟩
  | limited =>
    refine ⟨_, rfl, h.delivered, h.delTime, h.last, h.first, h.good, h.order, h.none, ?_⟩
    intro q t hq
    obtain ⟨s, o⟩ := h.some q t hq
    exact ⟨⟨s.good, s.old, s.del, s.time, s.lim, s.send, s.ack, s.sent, s.now⟩, o⟩
  | ack sel m =>
    by_cases hb : w.batch sel = []
    · exact ⟨w, by simp only [World.step, if_pos hb], h⟩
    refine ⟨_, ack_eq h sel m hb, ?_⟩
    have hi : Inv (w.updates (w.batch sel)) [] := inv_updates (inv_filter h _)
    obtain ⟨n1, n2, -⟩ := updates_now w (w.batch sel)
    obtain ⟨-, e2, e3, e4, -⟩ := ended_eq (w.updates (w.batch sel)).r
    refine ⟨e2.trans hi.delivered, e3.trans hi.delTime, hi.last, ?_, ?_, h.order.filter _, hi.none, ?_⟩
    · exact Nat.le_trans (Nat.le_of_eq e4) hi.first
    · intro p hp
      obtain ⟨g, i⟩ := h.good p (List.mem_filter.mp hp).1
      exact ⟨good_updates _ g, by simp only [n2]; exact i⟩
    · intro q t hq
      obtain ⟨s, -⟩ := hi.some q t hq
      refine ⟨⟨s.good, s.old, s.del, s.time, s.lim, s.send, s.ack, s.sent, s.now⟩, ?_⟩
      intro p hp hqp
      have hpo := (List.mem_filter.mp hp).1
      rcases sampled_from w (w.batch sel) with hs | ⟨a, ha, hs⟩
      · exact (h.some q t (hs ▸ hq)).2 p hpo hqp
      · rw [hs] at hq
        simp only [Option.some.injEq, Prod.mk.injEq] at hq
        obtain ⟨rfl, rfl⟩ := hq
        have hao := (List.mem_filter.mp ha).1
        -- both are in the list, in order
        obtain ⟨i, hi', hai⟩ := List.getElem_of_mem hao
        obtain ⟨j, hj', hpj⟩ := List.getElem_of_mem hpo
        rcases Nat.lt_trichotomy i j with hij | hij | hij
        · have := (List.pairwise_iff_getElem.mp h.order) i j hi' hj' hij
          rw [hai, hpj] at this
          exact this.2
        · subst hij
          rw [← hai, hpj] at hqp
          omega
        · have := (List.pairwise_iff_getElem.mp h.order) j i hj' hi' hij
          rw [hai, hpj] at this
          omega

theorem inv_run {w : World} (h : Inv w w.out) (l : List Op) : ∃ v, w.run l = some v ∧ Inv v v.out := by
  induction l generalizing w with
  | nil => exact ⟨w, rfl, h⟩
  | cons op l ih =>
    obtain ⟨v, e, hv⟩ := inv_step h op
    obtain ⟨u, e', hu⟩ := ih hv
    exact ⟨u, by simp only [World.run, e, Option.bind_some]; exact e', hu⟩

/-! ### The claims -/

/-- What can happen to a path. -/
def Reach (w : World) : Prop := ∃ l, World.run {} l = some w

theorem reach_inv {w : World} (h : Reach w) : Inv w w.out := by
  obtain ⟨l, hl⟩ := h
  obtain ⟨v, e, hv⟩ := inv_run (w := {}) inv_init l
  rw [hl] at e
  injection e with e
  exact e ▸ hv

/-- Nothing panics. -/
theorem no_panic (l : List Op) : ∃ w, World.run {} l = some w := by
  obtain ⟨v, e, -⟩ := inv_run (w := {}) inv_init l
  exact ⟨v, e⟩

/-- The newest of the packets that an acknowledgement is of. -/
def Newest (w : World) (sel : Nat → Bool) (p : Pkt) : Prop := (w.batch sel).getLast? = some p

/-- No bytes have been acknowledged between the sending of this packet and that of the packet last
sampled. -/
def Fresh (w : World) (p : Pkt) : Prop := ∀ q t, w.sampled = some (q, t) → bytes (w.log.take q.k) ≤ bytes (w.log.take p.k)

/-- A packet sent after the one last sampled will do. -/
theorem fresh_of_newer {w : World} (h : Reach w) {p : Pkt} (hp : p ∈ w.out) (hn : ∀ q t, w.sampled = some (q, t) → q.id < p.id) : Fresh w p := by
  intro q t hq
  exact bytes_take_mono _ (((reach_inv h).some q t hq).2 p hp (hn q t hq))

theorem fresh_iff {w : World} (h : Inv w w.out) {p : Pkt} (hp : p ∈ w.out) :
    Fresh w p ↔ w.r.s.priorTime = none ∨ p.del ≥ w.r.s.priorDel := by
  have gp := (h.good p hp).1
  constructor
  · intro hf
    cases hs : w.sampled with
    | none => exact .inl (h.none hs)
    | some x =>
      have s := (h.some x.1 x.2 hs).1
      refine .inr ?_
      rw [s.del, s.good.del, gp.del]
      exact hf x.1 x.2 hs
  · intro hc q t hq
    have s := (h.some q t hq).1
    rcases hc with hc | hc
    · rw [s.time] at hc; cases hc
    · rw [← s.good.del, ← gp.del, ← s.del]; exact hc

theorem newest_split {w : World} {sel : Nat → Bool} {p : Pkt} (hp : Newest w sel p) : ∃ l, w.batch sel = l ++ [p] := by
  obtain ⟨l, hl⟩ := List.getLast?_eq_some_iff.mp hp
  exact ⟨l, hl⟩

/-- The rate after an acknowledgement whose newest packet is fresh: the bytes acknowledged since
that packet was sent, over the time from the last acknowledgement before it was sent (or, if later,
the last time something was sent with nothing in flight), or the time it took to send, if longer.
The rate stays if this is less than the least round trip, and does not fall if the application
limits the sender. -/
theorem exact {w : World} (h : Reach w) {sel : Nat → Bool} {m : Nat} {p : Pkt} (hp : Newest w sel p) (hf : Fresh w p) :
    ∃ v, w.step (.ack sel m) = some v ∧
      v.r.s.bw = newRate w.r.s.bw (bytes (v.log.drop p.k)) (max (p.sent - p.firstSent) (w.now - lastTime (v.log.take p.k))) m p.appLim := by
  have hi := reach_inv h
  obtain ⟨l, hl⟩ := newest_split hp
  have hb : w.batch sel ≠ [] := by rw [hl]; simp
  have hpo : p ∈ w.out := (List.mem_filter.mp (show p ∈ w.batch sel by rw [hl]; simp)).1
  refine ⟨_, ack_eq hi sel m hb, ?_⟩
  have hib : Inv w (w.batch sel) := inv_filter hi _
  have hs : (w.updates (w.batch sel)).sampled = some (p, w.now) := by
    rw [hl] at hib ⊢
    rw [updates_sampled hib, if_pos ((fresh_iff hi hpo).mp hf)]
  have hu := inv_updates hib
  obtain ⟨s, -⟩ := hu.some p w.now hs
  have hsp := bytes_split (w.updates (w.batch sel)).log p.k
  simp only [s.del, s.lim, s.send, s.ack, s.good.del, s.good.delTime]
  rw [hsp, Nat.add_sub_cancel_left]

/-- An acknowledgement whose newest packet is not fresh adds to the bytes, and nothing to the
time. -/
theorem stale {w : World} (h : Reach w) {sel : Nat → Bool} {m : Nat} {p : Pkt} (hp : Newest w sel p) (hf : ¬ Fresh w p) :
    ∃ q t v, w.sampled = some (q, t) ∧ w.step (.ack sel m) = some v ∧ v.sampled = w.sampled ∧
      v.r.s.bw = newRate w.r.s.bw (bytes (v.log.drop q.k)) (max (q.sent - q.firstSent) (t - lastTime (v.log.take q.k))) m q.appLim := by
  have hi := reach_inv h
  obtain ⟨l, hl⟩ := newest_split hp
  have hb : w.batch sel ≠ [] := by rw [hl]; simp
  have hpo : p ∈ w.out := (List.mem_filter.mp (show p ∈ w.batch sel by rw [hl]; simp)).1
  have hib : Inv w (w.batch sel) := inv_filter hi _
  have hs : (w.updates (w.batch sel)).sampled = w.sampled := by
    rw [hl] at hib ⊢
    rw [updates_sampled hib, if_neg (fun hc => hf ((fresh_iff hi hpo).mpr hc))]
  cases hq : w.sampled with
  | none => exact absurd (fun q t hc => by rw [hq] at hc; cases hc) hf
  | some x =>
    obtain ⟨q, t⟩ := x
    refine ⟨q, t, _, rfl, ack_eq hi sel m hb, hs.trans hq, ?_⟩
    have hu := inv_updates hib
    obtain ⟨s, -⟩ := hu.some q t (hs.trans hq)
    have hsp := bytes_split (w.updates (w.batch sel)).log q.k
    simp only [s.del, s.lim, s.send, s.ack, s.good.del, s.good.delTime]
    rw [hsp, Nat.add_sub_cancel_left]

/-- A rate is backed from some time on if that many bytes have been acknowledged since. -/
def Backed (w : World) (rate t : Nat) : Prop := rate * (w.now - t) ≤ ackedSince w.log t * 1000000000

/-- If the newest acknowledged packet is fresh, then a rate that changes is backed from the time
that packet was sent. -/
theorem backed_partial {w v : World} (h : Reach w) {sel : Nat → Bool} {m : Nat} {p : Pkt} (hp : Newest w sel p) (hf : Fresh w p)
    (hv : w.step (.ack sel m) = some v) (hc : v.r.s.bw ≠ w.r.s.bw) : Backed v v.r.s.bw p.sent := by
  have hi := reach_inv h
  obtain ⟨v', hv', he⟩ := exact (m := m) h hp hf
  rw [hv] at hv'
  injection hv' with hv'
  subst hv'
  obtain ⟨l, hl⟩ := newest_split hp
  have hb : w.batch sel ≠ [] := by rw [hl]; simp
  have hpo : p ∈ w.out := (List.mem_filter.mp (show p ∈ w.batch sel by rw [hl]; simp)).1
  have gp := good_updates (w.batch sel) (hi.good p hpo).1
  rw [ack_eq hi sel m hb] at hv
  injection hv with hv
  have hlog : v.log = (w.updates (w.batch sel)).log := by rw [← hv]
  have hnow : v.now = w.now := by rw [← hv]; exact (updates_now w _).1
  rw [← hlog] at gp
  have hle := drop_le_since v.log p.k p.sent gp.after
  have hdt : lastTime (v.log.take p.k) ≤ p.sent := by rw [← gp.delTime]; exact gp.before
  unfold Backed
  rw [hnow]
  generalize hI : max (p.sent - p.firstSent) (w.now - lastTime (v.log.take p.k)) = I at he
  have hIge : w.now - p.sent ≤ I := by omega
  generalize hB : bytes (v.log.drop p.k) = B at he hle
  have hq : B * 1000000000 / I * I ≤ B * 1000000000 := Nat.div_mul_le_self _ _
  have hr : v.r.s.bw = B * 1000000000 / I := by
    unfold newRate at he
    split at he
    · exact absurd he hc
    · split at he
      · omega
      · exact he
  rw [hr]
  calc B * 1000000000 / I * (w.now - p.sent) ≤ B * 1000000000 / I * I := Nat.mul_le_mul_left _ hIge
    _ ≤ B * 1000000000 := hq
    _ ≤ ackedSince v.log p.sent * 1000000000 := Nat.mul_le_mul_right _ hle

/-- An application with little to send does not lower the rate. -/
theorem not_lowered {w v : World} (h : Reach w) {sel : Nat → Bool} {m : Nat} {p : Pkt} (hp : Newest w sel p) (hf : Fresh w p) (hl : p.appLim = true)
    (hv : w.step (.ack sel m) = some v) : w.r.s.bw ≤ v.r.s.bw := by
  obtain ⟨v', hv', he⟩ := exact (m := m) h hp hf
  rw [hv] at hv'
  injection hv' with hv'
  subst hv'
  rw [he, hl]
  unfold newRate
  split
  · exact Nat.le_refl _
  · exact Nat.le_max_left _ _

/-- Nothing but acknowledgements changes the rate. -/
theorem only_acks {w v : World} {op : Op} (hv : w.step op = some v) (ho : ∀ sel m, op ≠ .ack sel m) : v.r.s.bw = w.r.s.bw := by
  cases op with
  | ack sel m => exact absurd rfl (ho sel m)
  | tick d => simp only [World.step, Option.some.injEq] at hv; subst hv; rfl
  | lose sel => simp only [World.step, Option.some.injEq] at hv; subst hv; rfl
  | limited => simp only [World.step, Option.some.injEq] at hv; subst hv; rfl
  | send n s i =>
    simp only [World.step, Option.some.injEq] at hv
    subst hv
    simp only [World.send, Rate.restart]
    split <;> rfl

/-! ### Acknowledgements that come late -/

abbrev ms : Nat := 1000000

def only (i : Nat) : Nat → Bool := fun j => i == j

/-- Four packets; the third is acknowledged after the fourth, within the time after which it would
be lost. -/
def late : List Op :=
  [.send 0 50 0, .tick (1 * ms), .send 1 1200 50, .tick (94 * ms), .send 2 1200 1250, .tick (5 * ms), .ack (only 0) (100 * ms), .send 3 1200 2400,
   .tick (1 * ms), .ack (only 1) (100 * ms), .tick (99 * ms), .ack (only 3) (100 * ms), .tick (7 * ms)]

def lateEnd : World := ((World.run {} late).getD {})
def lateAck : World := ((lateEnd.step (.ack (only 2) (100 * ms))).getD {})

/-- A late acknowledgement makes the rate rise to a value that is not backed from any time a round
trip (100 ms) or more ago. -/
theorem backed_false : ∃ w v, Reach w ∧ w.step (.ack (only 2) (100 * ms)) = some v ∧ w.r.s.bw = 24000 ∧ v.r.s.bw = 36000 ∧
    ∀ t, t + 100 * ms ≤ v.now → ¬ Backed v v.r.s.bw t := by
  have hr : World.run {} late = some lateEnd := by rw [lateEnd]; cases h : World.run {} late with
    | none => obtain ⟨w, hw⟩ := no_panic late; rw [h] at hw; cases hw
    | some w => rfl
  have hreach : Reach lateEnd := ⟨late, hr⟩
  have hstep : lateEnd.step (.ack (only 2) (100 * ms)) = some lateAck := by
    obtain ⟨v, hv, -⟩ := inv_step (reach_inv hreach) (.ack (only 2) (100 * ms))
    rw [lateAck, hv]; rfl
  refine ⟨lateEnd, lateAck, hreach, hstep, by decide +kernel, by decide +kernel, ?_⟩
  have hn : lateAck.now = 207 * ms := by decide +kernel
  have hb : lateAck.r.s.bw = 36000 := by decide +kernel
  have hlg : lateAck.log = [.restart 0, .acked (100 * ms) 50, .acked (101 * ms) 1200, .acked (200 * ms) 1200, .acked (207 * ms) 1200] := by decide +kernel
  intro t ht
  unfold Backed ackedSince
  rw [hn, hb, hlg]
  rw [hn] at ht
  simp only [ms] at ht ⊢
  simp only [List.filter_cons, List.filter_nil, Ev.time]
  by_cases h0 : t ≤ 0
  · have : t = 0 := by omega
    subst this
    decide +kernel
  · by_cases h1 : t ≤ 100 * 1000000
    · simp [h0, h1, show t ≤ 101 * 1000000 by omega, show t ≤ 200 * 1000000 by omega, show t ≤ 207 * 1000000 by omega, bytes, Ev.bytes]
      omega
    · by_cases h2 : t ≤ 101 * 1000000
      · simp [h0, h1, h2, show t ≤ 200 * 1000000 by omega, show t ≤ 207 * 1000000 by omega, bytes, Ev.bytes]
        omega
      · simp [h0, h1, h2, show t ≤ 200 * 1000000 by omega, show t ≤ 207 * 1000000 by omega, bytes, Ev.bytes]
        omega

/-! ### The phase in which the application limits the sender -/

/-- Packets sent in it are marked. -/
theorem marked (w : World) (n s i : Nat) : ∃ p, (w.send n s i).out = w.out ++ [p] ∧ p.id = w.sent ∧ p.appLim = w.r.appLimited := by
  refine ⟨_, rfl, rfl, ?_⟩
  unfold Rate.restart
  split <;> rfl

/-- It begins when the application has too little to send. -/
theorem begins (w : World) : ∃ v, w.step .limited = some v ∧ v.r.appLimited = true := by
  refine ⟨_, rfl, ?_⟩
  simp only [Rate.setLimited, Rate.appLimited, if_true]
  have : max w.r.lastSent 1 ≠ 0 := by omega
  simpa using this

/-- All packets have numbers of one space, which grow. -/
def OneSpace : List Op → Nat → Prop
  | [], _ => True
  | .send n _ _ :: l, k => k ≤ n ∧ OneSpace l (n + 1)
  | _ :: l, k => OneSpace l k

structure Ph (w : World) (next : Nat) : Prop where
  last : w.r.lastSent < next ∨ (w.r.lastSent = 0 ∧ w.sent = 0)
  largest : w.r.largestAcked ≤ w.r.lastSent
  out : ∀ p ∈ w.out, p.num ≤ w.r.lastSent
  mark : w.r.appLimited = true → w.r.largestAcked ≤ w.r.endApp ∧ ∀ p ∈ w.out, p.id < w.mark → p.num ≤ w.r.endApp
  ids : ∀ p ∈ w.out, p.id < w.sent
  markLe : w.mark ≤ w.sent

theorem updates_largest (w : World) (l : List Pkt) (b : Nat) : (w.updates l).r.largestAcked ≤ b ↔ w.r.largestAcked ≤ b ∧ ∀ p ∈ l, p.num ≤ b := by
  induction l generalizing w with
  | nil => simp [World.updates]
  | cons a l ih =>
    rw [World.updates, ih]
    have : (w.r.update a w.now).largestAcked = max w.r.largestAcked a.num := by
      simp only [Rate.update]; split <;> rfl
    simp only [this, List.mem_cons, forall_eq_or_imp]
    constructor
    · rintro ⟨h1, h2⟩
      exact ⟨by omega, by omega, h2⟩
    · rintro ⟨h1, h2, h3⟩
      exact ⟨by omega, h3⟩

theorem ph_ack {w v : World} {k : Nat} (h : Ph w k) (hi : Inv w w.out) {sel : Nat → Bool} {m : Nat} (hv : w.step (.ack sel m) = some v) : Ph v k := by
  by_cases hb : w.batch sel = []
  · simp only [World.step, if_pos hb, Option.some.injEq] at hv
    exact hv ▸ h
  rw [ack_eq hi sel m hb] at hv
  injection hv with hv
  obtain ⟨-, n2, -, -, n5, n6, n7⟩ := updates_now w (w.batch sel)
  obtain ⟨-, -, -, -, e5, e6, e7⟩ := ended_eq (w.updates (w.batch sel)).r
  have hl : v.r.lastSent = w.r.lastSent := by rw [← hv]; exact e5.trans n6
  have hs : v.sent = w.sent := by rw [← hv]; exact n2
  have hm : v.mark = w.mark := by rw [← hv]; exact n7
  have hla : v.r.largestAcked = (w.updates (w.batch sel)).r.largestAcked := by rw [← hv]; exact e6
  have he : v.r.endApp = if (w.updates (w.batch sel)).r.largestAcked > w.r.endApp then 0 else w.r.endApp := by
    rw [← hv]; exact e7.trans (by rw [n5])
  have ho : ∀ p ∈ v.out, p ∈ w.out := by rw [← hv]; exact fun p hp => (List.mem_filter.mp hp).1
  refine ⟨by rw [hl, hs]; exact h.last, ?_, fun p hp => by rw [hl]; exact h.out p (ho p hp), ?_, fun p hp => by rw [hs]; exact h.ids p (ho p hp), by rw [hm, hs]; exact h.markLe⟩
  · rw [hl, hla, updates_largest]
    exact ⟨h.largest, fun p hp => h.out p (List.mem_filter.mp hp).1⟩
  · intro ha
    unfold Rate.appLimited at ha
    rw [he] at ha ⊢
    split at ha
    · simp at ha
    · rename_i hg
      rw [if_neg hg, hla, hm]
      refine ⟨by omega, fun p hp hid => ?_⟩
      exact (h.mark ha).2 p (ho p hp) hid

theorem ph_step {w v : World} {k : Nat} {op : Op} (h : Ph w k) (hi : Inv w w.out) (hv : w.step op = some v) :
    (∀ n s i, op = .send n s i → k ≤ n → Ph v (n + 1)) ∧ ((∀ n s i, op ≠ .send n s i) → Ph v k) := by
  cases op with
  | tick d =>
    simp only [World.step, Option.some.injEq] at hv; subst hv
    exact ⟨by simp, fun _ => ⟨h.last, h.largest, h.out, h.mark, h.ids, h.markLe⟩⟩
  | lose sel =>
    simp only [World.step, Option.some.injEq] at hv; subst hv
    exact ⟨by simp, fun _ => ⟨h.last, h.largest, fun p hp => h.out p (List.mem_filter.mp hp).1,
      fun ha => ⟨(h.mark ha).1, fun p hp => (h.mark ha).2 p (List.mem_filter.mp hp).1⟩, fun p hp => h.ids p (List.mem_filter.mp hp).1, h.markLe⟩⟩
  | ack sel m => exact ⟨by simp, fun _ => ph_ack h hi hv⟩
  | limited =>
    simp only [World.step, Option.some.injEq] at hv; subst hv
    refine ⟨by simp, fun _ => ⟨h.last, h.largest, h.out, fun _ => ?_, h.ids, Nat.le_refl _⟩⟩
    simp only [Rate.setLimited, if_true]
    refine ⟨by have := h.largest; omega, fun p hp _ => ?_⟩
    have := h.out p hp
    omega
  | send n s i =>
    refine ⟨?_, fun hc => absurd rfl (hc n s i)⟩
    intro n' s' i' hop hk
    simp only [Op.send.injEq] at hop
    obtain ⟨rfl, rfl, rfl⟩ := hop
    simp only [World.step, Option.some.injEq] at hv
    subst hv
    have hle : w.r.lastSent ≤ n := by
      rcases h.last with h1 | h1 <;> omega
    have hr : (w.r.restart i w.now).largestAcked = w.r.largestAcked ∧ (w.r.restart i w.now).endApp = w.r.endApp := by
      unfold Rate.restart; split <;> exact ⟨rfl, rfl⟩
    refine ⟨.inl (Nat.lt_succ_self n), ?_, ?_, ?_, ?_, ?_⟩
    · simp only [World.send, hr.1]
      exact Nat.le_trans h.largest hle
    · intro p hp
      rcases List.mem_append.mp hp with hp | hp
      · exact Nat.le_trans (h.out p hp) hle
      · simp only [List.mem_singleton] at hp
        subst hp
        exact Nat.le_refl _
    · intro ha
      simp only [World.send, Rate.appLimited, hr.2] at ha
      simp only [World.send, hr.1, hr.2]
      refine ⟨(h.mark ha).1, fun p hp hid => ?_⟩
      rcases List.mem_append.mp hp with hp | hp
      · exact (h.mark ha).2 p hp hid
      · simp only [List.mem_singleton] at hp
        subst hp
        have := h.markLe
        simp only at hid
        omega
    · intro p hp
      rcases List.mem_append.mp hp with hp | hp
      · exact Nat.lt_succ_of_lt (h.ids p hp)
      · simp only [List.mem_singleton] at hp
        subst hp
        exact Nat.lt_succ_self _
    · exact Nat.le_succ_of_le h.markLe

theorem ph_run {w v : World} {l : List Op} {k : Nat} (h : Ph w k) (hi : Inv w w.out) (ho : OneSpace l k) (hv : w.run l = some v) : ∃ k', Ph v k' := by
  induction l generalizing w k with
  | nil => simp only [World.run, Option.some.injEq] at hv; exact ⟨k, hv ▸ h⟩
  | cons op l ih =>
    obtain ⟨u, hu, iu⟩ := inv_step hi op
    simp only [World.run, hu, Option.bind_some] at hv
    obtain ⟨p1, p2⟩ := ph_step h hi hu
    cases op with
    | send n s i => exact ih (p1 n s i rfl ho.1) iu ho.2 hv
    | tick d => exact ih (p2 (by simp)) iu ho hv
    | lose sel => exact ih (p2 (by simp)) iu ho hv
    | ack sel m => exact ih (p2 (by simp)) iu ho hv
    | limited => exact ih (p2 (by simp)) iu ho hv

/-- With one packet number space it ends only when a packet is acknowledged that was sent after the
application had last too little to send. -/
theorem stays_partial {l : List Op} (ho : OneSpace l 0) {w v : World} (hw : World.run {} l = some w) (ha : w.r.appLimited = true)
    {op : Op} (hv : w.step op = some v) (he : v.r.appLimited = false) : ∃ sel m, op = .ack sel m ∧ ∃ p ∈ w.batch sel, w.mark ≤ p.id := by
  have hi := reach_inv ⟨l, hw⟩
  obtain ⟨k, h⟩ := ph_run (w := {}) (k := 0) ⟨.inr ⟨rfl, rfl⟩, Nat.le_refl _, by simp, by simp [Rate.appLimited], by simp, Nat.le_refl _⟩ inv_init ho hw
  cases op with
  | tick d => simp only [World.step, Option.some.injEq] at hv; subst hv; rw [show Rate.appLimited _ = true from ha] at he; cases he
  | lose sel => simp only [World.step, Option.some.injEq] at hv; subst hv; rw [show Rate.appLimited _ = true from ha] at he; cases he
  | limited =>
    obtain ⟨v', hv', h'⟩ := begins w
    rw [hv] at hv'
    injection hv' with hv'
    subst hv'
    rw [h'] at he; cases he
  | send n s i =>
    simp only [World.step, Option.some.injEq] at hv
    subst hv
    have hr : (w.r.restart i w.now).endApp = w.r.endApp := by unfold Rate.restart; split <;> rfl
    simp only [World.send, Rate.appLimited, hr] at he
    unfold Rate.appLimited at ha
    rw [ha] at he; cases he
  | ack sel m =>
    refine ⟨sel, m, rfl, ?_⟩
    by_cases hb : w.batch sel = []
    · simp only [World.step, if_pos hb, Option.some.injEq] at hv
      subst hv
      rw [ha] at he; cases he
    rw [ack_eq hi sel m hb] at hv
    injection hv with hv
    obtain ⟨-, -, -, -, n5, -⟩ := updates_now w (w.batch sel)
    obtain ⟨-, -, -, -, -, -, e7⟩ := ended_eq (w.updates (w.batch sel)).r
    have he' : v.r.endApp = if (w.updates (w.batch sel)).r.largestAcked > w.r.endApp then 0 else w.r.endApp := by
      rw [← hv]; exact e7.trans (by rw [n5])
    unfold Rate.appLimited at he ha
    rw [he'] at he
    split at he
    · rename_i hg
      apply Classical.byContradiction
      intro hn
      have : (w.updates (w.batch sel)).r.largestAcked ≤ w.r.endApp := by
        rw [updates_largest]
        refine ⟨(h.mark ha).1, fun p hp => ?_⟩
        refine (h.mark ha).2 p (List.mem_filter.mp hp).1 ?_
        exact Nat.lt_of_not_le fun hle => hn ⟨p, hp, hle⟩
      omega
    · rw [ha] at he; cases he

/-- Numbers of different spaces are compared with each other: an acknowledgement of the first
packet ends the phase though that packet was sent before it began. -/
theorem stays_false : ∃ w v, Reach w ∧ w.r.appLimited = true ∧ w.step (.ack (only 3) 0) = some v ∧ v.r.appLimited = false ∧
    ∀ p ∈ w.batch (only 3), p.id < w.mark := by
  -- three Handshake packets are acknowledged, then 1-RTT packet 0 is sent
  let l : List Op := [.send 0 1200 0, .send 1 1200 1200, .send 2 1200 2400, .tick (30 * ms), .ack (fun i => i < 3) (30 * ms), .send 0 100 0, .limited, .tick (30 * ms)]
  have hr : ∃ w, World.run {} l = some w := no_panic l
  obtain ⟨w, hw⟩ := hr
  obtain ⟨v, hv, -⟩ := inv_step (reach_inv ⟨l, hw⟩) (.ack (only 3) 0)
  have e1 : w = (World.run {} l).getD {} := by rw [hw]; rfl
  have e2 : v = (((World.run {} l).getD {}).step (.ack (only 3) 0)).getD {} := by rw [hw, Option.getD_some, hv]; rfl
  refine ⟨w, v, ⟨l, hw⟩, ?_, hv, ?_, ?_⟩
  · rw [e1]; decide +kernel
  · rw [e2]; decide +kernel
  · rw [e1]; decide +kernel

/-! ### Examples -/

/-- Two packets sent at once and acknowledged after two seconds: 2400 bytes in two seconds. -/
example : ((World.run {} [.send 0 1200 0, .send 1 1200 1200, .tick (2000 * ms), .ack (fun _ => true) (2000 * ms)]).map fun w => w.r.s.bw) = some 1200 := by decide +kernel

/-- With little to send the rate stays; the test of the code has the same numbers. -/
example : ((World.run {} [.send 0 1200 0, .send 1 1200 1200, .tick (2000 * ms), .ack (fun _ => true) (2000 * ms), .limited,
    .send 2 1200 0, .tick (2000 * ms), .ack (fun _ => true) (2000 * ms)]).map fun w => (w.r.s.bw, w.r.s.appLim, w.r.appLimited)) = some (1200, true, false) := by decide +kernel

end Verif.Props.C157
