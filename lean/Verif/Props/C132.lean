import Verif.Props.C131

/-!
C132. What the BBR controller is told about packets is consistent.

The controller keeps its own record of packets, so what it is told must fit together. Over
all histories and for every controller:

* it is told of the packets sent in flight, in order, each with the bytes in flight before
  it (`sent_told`, `flight_told`);
* it is told that a packet was acknowledged, lost, or need not be considered any more at
  most once, all three taken together (`told_once`);
* a history in which no path changes and no skipped number is acknowledged leaves no packet
  out: every packet it was told of as sent is still open, or it was told its fate
  (`complete_partial`), and the count of lost packets is the number of packets told lost
  (`lost_count_partial`).

As losses found on a change of path are not told, nor counted, the last claim is false in
general (`complete_false`). Two further things are not as one would expect: packets never
told as sent, since they are not in flight, are told as lost (`unannounced`); and the
least unacknowledged packet told, upon which the controller forgets all smaller packets,
is that of one packet number space (`least_space`), so that open packets of the other
spaces are forgotten (`least_false`).
-/

namespace Verif.Props.C132

open Verif.GRec
open Verif.Rec (Epoch Status Rtt)
open Verif.Props.C130 (quietEnv s0 done data)

variable {σ : Type}

/-! ### The specification -/

/-- A packet told as sent: number, size and time. -/
def sentT : Told → List (Nat × Nat × Nat)
  | .sent time _ pn bytes _ => [(pn, bytes, time)]
  | _ => []

/-- The packets told as acknowledged: number and time of sending. -/
def ackedT : Told → List (Nat × Nat)
  | .event _ _ _ _ a _ _ => a
  | _ => []

/-- The packets told as lost: number and size. -/
def lostT : Told → List (Nat × Nat)
  | .event _ _ _ _ _ l _ => l
  | _ => []

/-- The packets told not to be considered any more. -/
def neutT : Told → List Nat
  | .neutered pn => [pn]
  | _ => []

/-- The bytes in flight told are those before and after the call. -/
def Flight (before after : Nat) : Told → Prop
  | .sent _ f _ _ _ => f = before
  | .event _ p f _ _ _ _ => p = before ∧ f = after
  | _ => True

/-- The least packet told is not above an open packet of a space. -/
def Least (x : Space) : Told → Prop
  | .event _ _ _ _ _ _ l => ∀ p ∈ x.live, l ≤ p.1
  | _ => True

/-- Whether a call changes the path. -/
def isPath : Op → Bool
  | .pathChange _ _ => true
  | _ => false

/-- What one call tells, compared to what it does. -/
structure Tells (s s' : State σ) (op : Op) (o : Out) (add : List Told) : Prop where
  log : s'.log = s.log ++ add
  sent : add.flatMap sentT = (o.sent.filter fun x => x.2.inFlight).map fun x => (x.1, x.2.size, x.2.timeSent)
  acked : s'.failed = false → add.flatMap ackedT = o.acked.map fun x => (x.1, x.2.timeSent)
  ackedSub : (add.flatMap ackedT).Sublist (o.acked.map fun x => (x.1, x.2.timeSent))
  lost : isPath op = false → add.flatMap lostT = (o.lost.filter fun x => !quietLoss x).map fun x => (x.1, x.2.size)
  path : isPath op = true → add.flatMap lostT = []
  neut : add.flatMap neutT = (o.lost.filter quietLoss).map Prod.fst ++ o.dropped.map Prod.fst
  flight : ∀ t ∈ add, Flight s.flight.bytes s'.flight.bytes t
  least : ∀ t ∈ add, Least (s'.get o.epoch) t
  count : s'.lostCount = s.lostCount + (add.flatMap lostT).length

theorem neut_map (l : List Nat) : (l.map Told.neutered).flatMap sentT = [] ∧ (l.map Told.neutered).flatMap ackedT = [] ∧
    (l.map Told.neutered).flatMap lostT = [] ∧ (l.map Told.neutered).flatMap neutT = l := by
  induction l with
  | nil => exact ⟨rfl, rfl, rfl, rfl⟩
  | cons n l ih =>
    obtain ⟨h1, h2, h3, h4⟩ := ih
    refine ⟨h1, h2, h3, ?_⟩
    exact congrArg (n :: ·) h4

/-- A loss detection in a space, followed by an event. -/
theorem tells_lose (en : Env σ) {t s s' : State σ} (hi : Inv t) (e : Epoch) (now : Nat) {op : Op} {o : Out} (hp : isPath op = false)
    {u : Bool} (hlog : s'.log = s.log ++ (t.detectLost en e now).1.probes.map Told.neutered ++ [.event u s.flight.bytes
      (t.detectLost en e now).2.flight.bytes now (o.acked.map fun x => (x.1, x.2.timeSent)) (t.detectLost en e now).1.newly
      ((t.detectLost en e now).2.get e).leastUnacked])
    (he : o.epoch = e) (hs : o.sent = []) (hl : o.lost = (t.detectLost en e now).1.lost) (hd : o.dropped = [])
    (hfl : s'.flight = (t.detectLost en e now).2.flight) (hg : ∀ e', s'.get e' = (t.detectLost en e now).2.get e')
    (hc : s'.lostCount = s.lostCount + (t.detectLost en e now).1.newly.length) : ∃ add, Tells s s' op o add := by
  obtain ⟨d1, d2, -⟩ := detectLost_spec en t e now
  obtain ⟨l1, l2, l3, l4, l5, l6, l7, -⟩ := lose_spec (t.lossDelay en) t.thresh.pkt now (hi e)
  rw [← d1] at l2 l3 l4 l5 l6 l7
  rw [← hl] at l2 l3 l4 l5 l6 l7
  have hinv : SpaceInv ((t.detectLost en e now).2.get e) := by rw [d2, if_pos rfl]; exact l1
  obtain ⟨n1, n2, n3, n4⟩ := neut_map (t.detectLost en e now).1.probes
  refine ⟨(t.detectLost en e now).1.probes.map Told.neutered ++ [.event u s.flight.bytes
      (t.detectLost en e now).2.flight.bytes now (o.acked.map fun x => (x.1, x.2.timeSent)) (t.detectLost en e now).1.newly
      ((t.detectLost en e now).2.get e).leastUnacked], ?_, ?_, ?_, ?_, ?_, ?_, ?_, ?_, ?_, ?_⟩
  · rw [hlog, List.append_assoc]
  · rw [List.flatMap_append, n1, hs]; rfl
  · intro _; rw [List.flatMap_append, n2]; simp [ackedT]
  · rw [List.flatMap_append, n2]; simp [ackedT]
  · intro _; rw [List.flatMap_append, n3, ← l7]; simp [lostT]
  · intro h; rw [hp] at h; exact nomatch h
  · rw [List.flatMap_append, n4, l6, hd]; simp [neutT]
  · intro x hx
    rcases List.mem_append.1 hx with h | h
    · obtain ⟨n, _, rfl⟩ := List.mem_map.1 h; trivial
    · rw [List.mem_singleton] at h; subst h; exact ⟨rfl, by rw [hfl]⟩
  · intro x hx
    rcases List.mem_append.1 hx with h | h
    · obtain ⟨n, _, rfl⟩ := List.mem_map.1 h; trivial
    · rw [List.mem_singleton] at h; subst h
      intro p hp'
      rw [hg, he] at hp'
      exact least_spec hinv.sorted _ p hp'
  · rw [hc, List.flatMap_append, n3]; simp [lostT]

/-- Nothing is told. -/
theorem tells_nothing {s s' : State σ} {op : Op} {o : Out} (hlog : s'.log = s.log) (hs : o.sent = []) (ha : o.acked = []) (hl : o.lost = [])
    (hd : o.dropped = []) (hc : s'.lostCount = s.lostCount) : ∃ add, Tells s s' op o add := by
  refine ⟨[], ?_, ?_, ?_, ?_, ?_, ?_, ?_, ?_, ?_, ?_⟩
  · rw [hlog, List.append_nil]
  · rw [hs]; rfl
  · intro _; rw [ha]; rfl
  · rw [ha]; exact List.Sublist.refl _
  · intro _; rw [hl]; rfl
  · intro _; rfl
  · rw [hl, hd]; rfl
  · intro t ht; exact nomatch ht
  · intro t ht; exact nomatch ht
  · rw [hc]; rfl

theorem step_tells (en : Env σ) {s : State σ} (op : Op) (hi : Inv s) : ∃ add, Tells s (step en s op).1 op (step en s op).2 add := by
  by_cases hq : op.quiet = true
  · obtain ⟨q1, q2, q3, q4, q5, q6, q7, q8, q9, q10, q11, q12⟩ := quiet_spec en s op hq
    exact tells_nothing q4 q8 q9 q10 q11 q6
  · cases op with
    | send e p st now =>
      obtain ⟨r1, r2, r3, r4, r5, r6, r7⟩ := onSent_rest en s e p st now
      refine ⟨_, r3, ?_, ?_, ?_, ?_, ?_, ?_, ?_, ?_, ?_⟩
      · show _ = ([(p.pn, p.info (en.cc.sendTime s.cc now))].filter fun x => x.2.inFlight).map _
        cases hp : p.inFlight <;> simp [sentT, Pkt.info, hp]
      · intro _; split <;> rfl
      · split <;> exact List.Sublist.refl _
      · intro _; split <;> rfl
      · intro h; exact nomatch h
      · split <;> rfl
      · intro t ht
        split at ht
        · rw [List.mem_singleton] at ht; subst ht; exact rfl
        · exact nomatch ht
      · intro t ht
        split at ht
        · rw [List.mem_singleton] at ht; subst ht; trivial
        · exact nomatch ht
      · show (s.onSent en e p st now).lostCount = _
        rw [r6]; split <;> rfl
    | ack e rs delay st now skip =>
      show ∃ add, Tells s (s.onAck en e rs delay st now skip).1 _ (s.onAck en e rs delay st now skip).2 add
      obtain ⟨f1, f2, f3, f4, f5, f6, f7, f8, f9⟩ := set_fields s e ((s.get e).acked skip rs).2.2
      rcases onAck_cases en s e rs delay st now skip with ⟨_, he⟩ | ⟨hnf, hn, he⟩ | ⟨hnf, last, hl, he⟩
      · rw [he]
        refine ⟨[], ?_, rfl, (fun h => nomatch h), List.nil_sublist _, fun _ => rfl, (fun h => nomatch h), rfl, fun t ht => (nomatch ht),
          fun t ht => (nomatch ht), ?_⟩
        · rw [List.append_nil]; exact f3
        · exact f7
      · rw [he]; exact tells_nothing f3 rfl rfl rfl rfl f7
      · obtain ⟨t, ht⟩ : ∃ t, t = ackState en s e rs delay st now skip last := ⟨_, rfl⟩
        obtain ⟨g1, g2, g3, g4, g5, g6, g7, g8, g9, g10, g11, ⟨u, g12⟩, g13, -⟩ := ackTail_spec en s e rs delay st now skip last ht he
        have hti : Inv t := by rw [ht]; exact ackState_inv en hi e rs delay st now skip last
        refine tells_lose en hti e now rfl (u := u) ?_ g4 g5 g7 g8 g2 g1 g13
        rw [g12, g6]
    | timeout st now =>
      show ∃ add, Tells s (s.onTimeout en st now).1 _ (s.onTimeout en st now).2 add
      unfold State.onTimeout
      split
      · dsimp only
        obtain ⟨d1, d2, d3, d4, d5, d6, d7, d8, d9⟩ := detectLost_spec en s s.lossTimeAndSpace.2 now
        refine tells_lose en hi s.lossTimeAndSpace.2 now rfl (u := false) ?_ rfl rfl rfl rfl rfl (fun e' => get_congr rfl rfl rfl e') ?_
        · exact congrArg (· ++ _) d5
        · exact congrArg (· + _) d8
      · dsimp only
        obtain ⟨p1, p2, p3, p4, p5, p6, p7, p8⟩ := onPto_spec en s st now
        refine ⟨_, p4, rfl, fun _ => rfl, List.Sublist.refl _, fun _ => rfl, (fun h => nomatch h), rfl, ?_, ?_, p7⟩
        · intro t ht; rw [List.mem_singleton] at ht; subst ht; trivial
        · intro t ht; rw [List.mem_singleton] at ht; subst ht; trivial
    | discard e st now =>
      obtain ⟨d1, d2, d3, d4, d5, d6, d7, d8⟩ := onDiscard_spec en s e st now
      obtain ⟨n1, n2, n3, n4⟩ := neut_map ((s.get e).live.map Prod.fst)
      refine ⟨_, d4, n1, fun _ => n2, ?_, fun _ => n3, (fun h => nomatch h), n4, ?_, ?_, ?_⟩
      · rw [n2]; exact List.Sublist.refl _
      · intro t ht; obtain ⟨n, _, rfl⟩ := List.mem_map.1 ht; trivial
      · intro t ht; obtain ⟨n, _, rfl⟩ := List.mem_map.1 ht; trivial
      · rw [n3]; exact d7
    | pathChange e now =>
      obtain ⟨d1, d2, d3, d4, d5, d6, d7, d8, d9⟩ := detectLost_spec en s e now
      obtain ⟨l1, l2, l3, l4, l5, l6, l7, -⟩ := lose_spec (s.lossDelay en) s.thresh.pkt now (hi e)
      rw [← d1] at l6
      obtain ⟨n1, n2, n3, n4⟩ := neut_map (s.detectLost en e now).1.probes
      refine ⟨_, d5, n1, fun _ => n2, ?_, (fun h => nomatch h), fun _ => n3, ?_, ?_, ?_, ?_⟩
      · rw [n2]; exact List.Sublist.refl _
      · rw [n4, l6]; exact (List.append_nil _).symm
      · intro t ht; obtain ⟨n, _, rfl⟩ := List.mem_map.1 ht; trivial
      · intro t ht; obtain ⟨n, _, rfl⟩ := List.mem_map.1 ht; trivial
      · rw [n3]; exact d8
    | _ => exact absurd rfl hq

/-! ### Histories -/

/-- What is reported of all spaces. -/
def allSent (tr : List (Op × Out)) : List (Nat × Info) := tr.flatMap fun x => x.2.sent
def allAcked (tr : List (Op × Out)) : List (Nat × Info) := tr.flatMap fun x => x.2.acked
def allLost (tr : List (Op × Out)) : List (Nat × Info) := tr.flatMap fun x => x.2.lost
def allDropped (tr : List (Op × Out)) : List (Nat × Info) := tr.flatMap fun x => x.2.dropped
/-- The packets lost other than on a change of path. -/
def usualLost (tr : List (Op × Out)) : List (Nat × Info) := tr.flatMap fun x => if isPath x.1 = true then [] else x.2.lost
/-- All open packets. -/
def allOpen (s : State σ) : List (Nat × Info) := (s.get .initial).live ++ ((s.get .handshake).live ++ (s.get .application).live)

theorem at_count {α : Type} [BEq α] [LawfulBEq α] (o : Out) (l : List α) (x : α) :
    (o.at .initial l).count x + (o.at .handshake l).count x + (o.at .application l).count x = l.count x := by
  unfold Out.at
  cases o.epoch <;> simp

theorem at_sum (f : Out → List (Nat × Info)) (x : Nat × Info) : ∀ (tr : List (Op × Out)),
    (tr.flatMap fun y => f y.2).count x =
      (tr.flatMap fun y => y.2.at .initial (f y.2)).count x + (tr.flatMap fun y => y.2.at .handshake (f y.2)).count x +
      (tr.flatMap fun y => y.2.at .application (f y.2)).count x
  | [] => rfl
  | y :: tr => by
    have ih := at_sum f x tr
    have := at_count y.2 (f y.2) x
    simp only [List.flatMap_cons, List.count_append]
    omega

/-- The packets sent in all spaces and their fates. -/
theorem run_all (en : Env σ) (os : List Op) {s : State σ} (hi : Inv s) (ha : Ascending os) (hb : Below s os) :
    (allOpen s ++ allSent (run en s os).2).Perm (allOpen (run en s os).1 ++ (allAcked (run en s os).2 ++
      (allLost (run en s os).2 ++ allDropped (run en s os).2))) := by
  have h := (run_facts en os s hi ha hb).2.1
  rw [List.perm_iff_count]
  intro x
  have h1 := List.perm_iff_count.1 (h .initial) x
  have h2 := List.perm_iff_count.1 (h .handshake) x
  have h3 := List.perm_iff_count.1 (h .application) x
  have a1 := at_sum Out.sent x (run en s os).2
  have a2 := at_sum Out.acked x (run en s os).2
  have a3 := at_sum Out.lost x (run en s os).2
  have a4 := at_sum Out.dropped x (run en s os).2
  simp only [sentIn, ackedIn, lostIn, droppedIn, allOpen, allSent, allAcked, allLost, allDropped, List.count_append] at *
  omega

/-- The numbers of the packets sent are those of the calls. -/
theorem all_numbers (en : Env σ) : ∀ (os : List Op) (s : State σ), (allSent (run en s os).2).map Prod.fst = numbers os
  | [], _ => rfl
  | o :: os, s => by
    have ih := all_numbers en os (step en s o).1
    show ((step en s o).2.sent ++ allSent (run en (step en s o).1 os).2).map Prod.fst = _
    rw [List.map_append, ih]
    have hz : (∀ e' p st now, o ≠ .send e' p st now) → (step en s o).2.sent = [] := by
      intro hn
      rw [List.eq_nil_iff_forall_not_mem]
      intro x hx
      obtain ⟨p, st, now, h, _⟩ := step_sent en s o (step en s o).2.epoch x (by rw [Out.at_same]; exact hx)
      exact hn _ _ _ _ h
    cases o with
    | send e' p st now => rfl
    | _ => rw [hz (by intro _ _ _ _ h; exact nomatch h)]; rfl

/-- What is told over a history, compared to what is done. -/
structure Telling (s s' : State σ) (tr : List (Op × Out)) (add : List Told) : Prop where
  log : s'.log = s.log ++ add
  sent : add.flatMap sentT = ((allSent tr).filter fun x => x.2.inFlight).map fun x => (x.1, x.2.size, x.2.timeSent)
  acked : s'.failed = false → add.flatMap ackedT = (allAcked tr).map fun x => (x.1, x.2.timeSent)
  ackedSub : (add.flatMap ackedT).Sublist ((allAcked tr).map fun x => (x.1, x.2.timeSent))
  lost : add.flatMap lostT = ((usualLost tr).filter fun x => !quietLoss x).map fun x => (x.1, x.2.size)
  neut : (add.flatMap neutT).Perm (((allLost tr).filter quietLoss).map Prod.fst ++ (allDropped tr).map Prod.fst)
  count : s'.lostCount = s.lostCount + (add.flatMap lostT).length

theorem run_telling (en : Env σ) : ∀ (os : List Op) (s : State σ), Inv s → Ascending os → Below s os →
    ∃ add, Telling s (run en s os).1 (run en s os).2 add
  | [], s, _, _, _ => ⟨[], by simp [run], rfl, fun _ => rfl, List.Sublist.refl _, rfl, List.Perm.refl _, rfl⟩
  | o :: os, s, hi, ha, hb => by
    have hf := step_facts en hi o hb.fresh
    obtain ⟨b, B⟩ := run_telling en os (step en s o).1 hf.inv ha.tail (hb.step en ha hf)
    obtain ⟨a, A⟩ := step_tells en o hi
    have hfail : (run en (step en s o).1 os).1.failed = false → (step en s o).1.failed = false := by
      intro hff
      cases hc : (step en s o).1.failed with
      | false => rfl
      | true => rw [(run_facts en os (step en s o).1 hf.inv ha.tail (hb.step en ha hf)).2.2.2 hc] at hff; exact nomatch hff
    refine ⟨a ++ b, ?_, ?_, ?_, ?_, ?_, ?_, ?_⟩
    · show (run en (step en s o).1 os).1.log = _
      rw [B.log, A.log, List.append_assoc]
    · show _ = (((step en s o).2.sent ++ allSent (run en (step en s o).1 os).2).filter _).map _
      rw [List.flatMap_append, A.sent, B.sent, List.filter_append, List.map_append]
    · intro hff
      show _ = ((step en s o).2.acked ++ allAcked (run en (step en s o).1 os).2).map _
      rw [List.flatMap_append, A.acked (hfail hff), B.acked hff, List.map_append]
    · show List.Sublist _ (((step en s o).2.acked ++ allAcked (run en (step en s o).1 os).2).map _)
      rw [List.flatMap_append, List.map_append]
      exact A.ackedSub.append B.ackedSub
    · show _ = (((if isPath o = true then [] else (step en s o).2.lost) ++ usualLost (run en (step en s o).1 os).2).filter _).map _
      rw [List.flatMap_append, B.lost, List.filter_append, List.map_append]
      congr 1
      cases hp : isPath o with
      | true => rw [A.path hp]; rfl
      | false => rw [A.lost hp]; rfl
    · show List.Perm _ ((((step en s o).2.lost ++ allLost (run en (step en s o).1 os).2).filter _).map _ ++
        ((step en s o).2.dropped ++ allDropped (run en (step en s o).1 os).2).map _)
      have h2 := B.neut
      rw [List.flatMap_append, A.neut, List.filter_append, List.map_append, List.map_append]
      rw [List.perm_iff_count] at *
      intro x
      have := h2 x
      simp only [List.count_append] at *
      omega
    · show (run en (step en s o).1 os).1.lostCount = _
      rw [B.count, A.count, List.flatMap_append, List.length_append]; omega

theorem usual_sub : ∀ (tr : List (Op × Out)), (usualLost tr).Sublist (allLost tr)
  | [] => List.Sublist.refl _
  | x :: tr => by
    refine List.Sublist.append ?_ (usual_sub tr)
    dsimp only
    split
    · exact List.nil_sublist _
    · exact List.Sublist.refl _

theorem usual_eq : ∀ (tr : List (Op × Out)), (∀ x ∈ tr, isPath x.1 = false) → usualLost tr = allLost tr
  | [], _ => rfl
  | x :: tr, h => by
    show (if isPath x.1 = true then [] else x.2.lost) ++ usualLost tr = x.2.lost ++ allLost tr
    rw [h x (List.mem_cons_self ..), usual_eq tr (fun y hy => h y (List.mem_cons_of_mem _ hy))]
    rfl

theorem run_ops (en : Env σ) : ∀ (os : List Op) (s : State σ), (run en s os).2.map Prod.fst = os
  | [], _ => rfl
  | o :: os, s => congrArg (o :: ·) (run_ops en os _)

section
variable (en : Env σ) (t0 r d : Nat) (relaxed : Bool) (c : σ)

/-- What the controller was told in a history. -/
def told (os : List Op) : List Told := (run en (State.new t0 r d relaxed c) os).1.log

theorem telling (os : List Op) (ha : Ascending os) :
    Telling (State.new t0 r d relaxed c) (run en (State.new t0 r d relaxed c) os).1 (run en (State.new t0 r d relaxed c) os).2
      (told en t0 r d relaxed c os) := by
  obtain ⟨add, h⟩ := run_telling en os _ (new_inv t0 r d relaxed c) ha (new_below t0 r d relaxed c os)
  have : told en t0 r d relaxed c os = add := h.log
  rw [this]
  exact h

/-- **C132.** The packets told as sent are those sent in flight, in order. -/
theorem sent_told (os : List Op) (ha : Ascending os) :
    (told en t0 r d relaxed c os).flatMap sentT =
      ((allSent (run en (State.new t0 r d relaxed c) os).2).filter fun x => x.2.inFlight).map fun x => (x.1, x.2.size, x.2.timeSent) :=
  (telling en t0 r d relaxed c os ha).sent

/-- **C132.** The bytes in flight told are those before and after the call, and the least
packet is not above an open packet of the space concerned. -/
theorem flight_told (os : List Op) (ha : Ascending os) (o : Op) {s : State σ} (hs : s = (run en (State.new t0 r d relaxed c) os).1) :
    ∃ add, (step en s o).1.log = s.log ++ add ∧ (∀ t ∈ add, Flight s.flight.bytes (step en s o).1.flight.bytes t) ∧
      ∀ t ∈ add, Least ((step en s o).1.get (step en s o).2.epoch) t := by
  have hi : Inv s := by rw [hs]; exact (run_facts en os _ (new_inv t0 r d relaxed c) ha (new_below t0 r d relaxed c os)).1
  obtain ⟨a, A⟩ := step_tells en o hi
  exact ⟨a, A.log, A.flight, A.least⟩

/-- The numbers of the packets whose fate was told. -/
def fates (l : List Told) : List Nat := (l.flatMap ackedT).map Prod.fst ++ ((l.flatMap lostT).map Prod.fst ++ l.flatMap neutT)

/-- The packets whose fate is told are packets that have one. -/
theorem fates_le (os : List Op) (ha : Ascending os) (n : Nat) :
    (fates (told en t0 r d relaxed c os)).count n ≤ ((allAcked (run en (State.new t0 r d relaxed c) os).2).map Prod.fst).count n +
      ((allLost (run en (State.new t0 r d relaxed c) os).2).map Prod.fst).count n +
      ((allDropped (run en (State.new t0 r d relaxed c) os).2).map Prod.fst).count n := by
  have T := telling en t0 r d relaxed c os ha
  generalize told en t0 r d relaxed c os = l at *
  generalize (run en (State.new t0 r d relaxed c) os).2 = tr at *
  have c1 := (T.ackedSub.map Prod.fst).count_le n
  rw [List.map_map] at c1
  have c2 : ((l.flatMap lostT).map Prod.fst).count n ≤ (((allLost tr).filter fun x => !quietLoss x).map Prod.fst).count n := by
    rw [T.lost, List.map_map]
    exact (((usual_sub tr).filter _).map Prod.fst).count_le n
  have c3 := List.perm_iff_count.1 T.neut n
  rw [List.count_append] at c3
  have c4 : (((allLost tr).filter quietLoss).map Prod.fst).count n + (((allLost tr).filter fun x => !quietLoss x).map Prod.fst).count n =
      ((allLost tr).map Prod.fst).count n := by
    have := List.perm_iff_count.1 ((List.filter_append_perm quietLoss (allLost tr)).map Prod.fst) n
    rw [List.map_append, List.count_append] at this
    exact this
  have c5 : ((allAcked tr).map (Prod.fst ∘ fun x => (x.1, x.2.timeSent))).count n = ((allAcked tr).map Prod.fst).count n := rfl
  unfold fates
  rw [List.count_append, List.count_append]
  omega

/-- **C132.** The fate of a packet is told at most once. -/
theorem told_once (os : List Op) (ha : Ascending os) : (fates (told en t0 r d relaxed c os)).Nodup := by
  rw [List.nodup_iff_count]
  intro n
  have h := fates_le en t0 r d relaxed c os ha n
  have hp := List.perm_iff_count.1 ((run_all en os (new_inv t0 r d relaxed c) ha (new_below t0 r d relaxed c os)).map Prod.fst) n
  simp only [List.map_append, List.count_append] at hp
  have hz : allOpen (State.new t0 r d relaxed c) = [] := rfl
  rw [hz, all_numbers, List.map_nil, List.count_nil] at hp
  have hn : (numbers os).Nodup := List.Pairwise.imp (fun h => Nat.ne_of_lt h) ha
  have := List.nodup_iff_count.1 hn n
  omega

/-- **C132.** When no path changes and no skipped number is acknowledged, the packets sent
are, each once, those still open and those whose fate was told. -/
theorem complete_partial (os : List Op) (ha : Ascending os) (hp : ∀ o ∈ os, isPath o = false)
    (hf : (run en (State.new t0 r d relaxed c) os).1.failed = false) :
    (numbers os).Perm ((allOpen (run en (State.new t0 r d relaxed c) os).1).map Prod.fst ++ fates (told en t0 r d relaxed c os)) := by
  have T := telling en t0 r d relaxed c os ha
  have hall := (run_all en os (new_inv t0 r d relaxed c) ha (new_below t0 r d relaxed c os)).map Prod.fst
  simp only [List.map_append] at hall
  rw [show allOpen (State.new t0 r d relaxed c) = [] from rfl, all_numbers, List.map_nil, List.nil_append] at hall
  refine hall.trans (List.Perm.append_left _ ?_)
  have hu := usual_eq (run en (State.new t0 r d relaxed c) os).2 (fun x hx => hp _ (by
    have := List.mem_map_of_mem (f := Prod.fst) hx
    rw [run_ops] at this
    exact this))
  generalize told en t0 r d relaxed c os = l at *
  generalize (run en (State.new t0 r d relaxed c) os).2 = tr at *
  unfold fates
  rw [T.acked hf, T.lost, hu, List.map_map, List.map_map]
  refine List.Perm.append (List.Perm.refl _) ?_
  have c4 := (List.filter_append_perm quietLoss (allLost tr)).map Prod.fst
  have c3 := T.neut
  rw [List.map_append] at c4
  have c5 : ((allLost tr).filter fun x => !quietLoss x).map (Prod.fst ∘ fun x => (x.1, x.2.size)) =
    ((allLost tr).filter fun x => !quietLoss x).map Prod.fst := rfl
  rw [c5]
  rw [List.perm_iff_count] at *
  intro n
  have c3 := c3 n
  have c4 := c4 n
  simp only [List.count_append] at *
  omega

/-- **C132.** The count of lost packets is the number of packets told lost. -/
theorem lost_count_told (os : List Op) (ha : Ascending os) :
    (run en (State.new t0 r d relaxed c) os).1.lostCount = ((told en t0 r d relaxed c os).flatMap lostT).length := by
  have := (telling en t0 r d relaxed c os ha).count
  rw [this]; exact Nat.zero_add _

/-- **C132.** When no path changes, it is the number of packets lost other than probes of
path MTU discovery. -/
theorem lost_count_partial (os : List Op) (ha : Ascending os) (hp : ∀ o ∈ os, isPath o = false) :
    (run en (State.new t0 r d relaxed c) os).1.lostCount =
      ((allLost (run en (State.new t0 r d relaxed c) os).2).filter fun x => !(x.2.inFlight && x.2.probe)).length := by
  rw [lost_count_told en t0 r d relaxed c os ha, (telling en t0 r d relaxed c os ha).lost, List.length_map,
    usual_eq _ (fun x hx => hp _ (by
      have := List.mem_map_of_mem (f := Prod.fst) hx
      rw [run_ops] at this
      exact this))]
  rfl

end

/-! ### Witnesses -/

/-- Two spaces, an ACK, a loss and a discarded space. -/
def story : List Op :=
  [.send .initial (data 0 1200) done 5, .send .handshake (data 1 1100) done 6, .send .application (data 2 1000) done 7,
   .send .application (data 3 1000) done 8, .send .application (data 4 1000) done 9, .send .application (data 5 1000) done 10,
   .ack .application [(5, 6)] 0 done 100 none, .discard .initial done 200]

example : Ascending story ∧
    told quietEnv 0 100000000 25000000 false () story =
      [.sent 5 0 0 1200 true, .sent 6 1200 1 1100 true, .sent 7 2300 2 1000 true, .sent 8 3300 3 1000 true, .sent 9 4300 4 1000 true,
       .sent 10 5300 5 1000 true, .event true 6300 4300 100 [(5, 10)] [(2, 1000)] 3, .neutered 0] := by
  refine ⟨?_, ?_⟩
  · unfold Ascending story; decide +kernel
  · decide +kernel

/-- A loss found on a change of path is told to nobody, and not counted. -/
theorem complete_false : ∃ os : List Op, Ascending os ∧ (run quietEnv s0 os).1.failed = false ∧
    allLost (run quietEnv s0 os).2 ≠ [] ∧ (run quietEnv s0 os).1.lostCount = 0 ∧
    0 ∈ ((told quietEnv 0 100000000 25000000 false () os).flatMap sentT).map Prod.fst ∧
    0 ∉ (allOpen (run quietEnv s0 os).1).map Prod.fst ∧ 0 ∉ fates (told quietEnv 0 100000000 25000000 false () os) := by
  refine ⟨[.send .application (data 0 1000) done 5, .send .application (data 1 1000) done 6,
    .ack .application [(1, 2)] 0 done 100 none, .pathChange .application 1000000000], ?_, ?_, ?_, ?_, ?_, ?_, ?_⟩
  · unfold Ascending; decide +kernel
  all_goals decide +kernel

/-- A packet never told as sent is told, and counted, as lost. -/
theorem unannounced : ∃ os : List Op, Ascending os ∧ (run quietEnv s0 os).1.lostCount = 1 ∧
    ((told quietEnv 0 100000000 25000000 false () os).flatMap lostT).map Prod.fst = [0] ∧
    0 ∉ ((told quietEnv 0 100000000 25000000 false () os).flatMap sentT).map Prod.fst := by
  refine ⟨[.send .application ⟨0, [.other 0], 40, false, false, false, false⟩ done 5, .send .application (data 1 1000) done 6,
    .send .application (data 2 1000) done 6, .send .application (data 3 1000) done 6,
    .ack .application [(3, 4)] 0 done 100 none], ?_, ?_, ?_, ?_⟩
  · unfold Ascending; decide +kernel
  all_goals decide +kernel

/-- The least packet told may be above an open packet of another space. -/
theorem least_false : ∃ (os : List Op) (u : Bool) (p f now : Nat) (a l : List (Nat × Nat)) (least : Nat), Ascending os ∧
    (told quietEnv 0 100000000 25000000 false () os).getLast? = some (.event u p f now a l least) ∧
    ∃ x ∈ (run quietEnv s0 os).1.handshake.live, x.1 < least ∧ x.2.inFlight = true := by
  refine ⟨[.send .handshake (data 0 1200) done 5, .send .application (data 1 1000) done 6, .ack .application [(1, 2)] 0 done 100 none],
    true, 2200, 1200, 100, [(1, 6)], [], 2, ?_, ?_, ⟨0, ⟨5, true, true, true, false, 1200, [.other 0]⟩⟩, ?_, ?_, ?_⟩
  · unfold Ascending; decide +kernel
  all_goals decide +kernel

/-- The claim for the space itself. -/
theorem least_space (en : Env σ) (t0 r d : Nat) (relaxed : Bool) (c : σ) (os : List Op) (ha : Ascending os) (o : Op) {s : State σ}
    (hs : s = (run en (State.new t0 r d relaxed c) os).1) {u : Bool} {p f now : Nat} {a l : List (Nat × Nat)} {least : Nat}
    (hl : (step en s o).1.log = s.log ++ [.event u p f now a l least]) :
    ∀ x ∈ ((step en s o).1.get (step en s o).2.epoch).live, least ≤ x.1 := by
  obtain ⟨add, h1, -, h3⟩ := flight_told en t0 r d relaxed c os ha o hs
  rw [hl] at h1
  have := List.append_cancel_left h1
  exact h3 (.event u p f now a l least) (this ▸ List.mem_singleton.2 rfl)

end Verif.Props.C132
