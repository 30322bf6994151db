import Verif.Bbr.SamplerInv

/-!
C138. The bandwidth sampler of BBR keeps account of the bytes sent, acknowledged, lost and
neutered, each packet once, and never panics.

The account is stated with a ledger of its own: the packets outstanding and four totals,
and the *curves*, the totals acknowledged and sent with the times they were reached.
-/

namespace Verif.Props.C138

open Verif.Bbr

/-! ### The ledger -/

/-- A packet outstanding: its number, size and time of sending, and what held when it was sent: whether the application
was short of data, the totals sent (with this packet), acknowledged and lost, and the bytes in flight (with this packet). -/
structure Pkt where
  pn : Nat
  bytes : Nat
  time : Nat
  limited : Bool
  sent : Nat
  acked : Nat
  lost : Nat
  inFlight : Nat
  deriving DecidableEq, Repr

/-- The account. `acks` and `sends` are curves: pairs of a time and the total at that time, newest first. -/
structure Ledger where
  out : List Pkt
  sent : Nat
  acked : Nat
  lost : Nat
  neutered : Nat
  acks : List (Nat × Nat)
  sends : List (Nat × Nat)
  /-- The application is short of data: from then until a packet sent later is acknowledged. -/
  limited : Bool
  /-- The last packet sent when that began. -/
  mark : Option Nat
  /-- The last packet sent. -/
  last : Nat
  deriving DecidableEq, Repr

/-- Nothing was sent by time `now`. -/
def Ledger.new (now : Nat) : Ledger := ⟨[], 0, 0, 0, 0, [(now, 0)], [(now, 0)], true, none, 0⟩

/-- What happens to the sampler. -/
inductive Op where
  | sent (now pn bytes inFlight : Nat) (eliciting : Bool)
  | neutered (pn : Nat)
  | event (now : Nat) (acked : List Acked) (lost : List Lost) (maxBw upper round : Nat)
  | appLimited
  | obsolete (least : Nat)

/-- The packet of a number. -/
def look (out : List Pkt) (pn : Nat) : Option Pkt := out.find? fun p => p.pn == pn

/-- Without it. -/
def without (out : List Pkt) (pn : Nat) : List Pkt := out.filter fun p => !(p.pn == pn)

/-- A packet is sent; with nothing in flight a new flight starts. -/
def Ledger.send (l : Ledger) (now pn bytes inFlight : Nat) : Ledger :=
  { l with out := l.out ++ [⟨pn, bytes, now, l.limited, l.sent + bytes, l.acked, l.lost, inFlight + bytes⟩],
           sent := l.sent + bytes, sends := (now, l.sent + bytes) :: l.sends, last := pn,
           acks := if inFlight = 0 then (now, l.acked) :: l.acks else l.acks }

/-- A packet is lost: its bytes are counted even if it is not known. -/
def Ledger.lose (l : Ledger) (p : Lost) : Ledger := { l with out := without l.out p.pn, lost := l.lost + p.bytes }

/-- A packet is acknowledged. -/
def Ledger.ack (now : Nat) (l : Ledger) (pn : Nat) : Ledger :=
  match look l.out pn with
  | none => l
  | some p => { l with out := without l.out pn, acked := l.acked + p.bytes, acks := (now, l.acked + p.bytes) :: l.acks,
                       limited := if l.mark.all (fun m => decide (m < pn)) = true then false else l.limited }

/-- A packet is taken out without a verdict. -/
def Ledger.neuter (l : Ledger) (pn : Nat) : Ledger :=
  { l with out := without l.out pn, neutered := l.neutered + ((look l.out pn).map Pkt.bytes).getD 0 }

/-- One step. -/
def Ledger.step (l : Ledger) : Op → Ledger
  | .sent now pn bytes inFlight eliciting => if eliciting = true then l.send now pn bytes inFlight else { l with last := pn }
  | .neutered pn => l.neuter pn
  | .event now acked lost _ _ _ => acked.foldl (Ledger.ack now) (lost.foldl Ledger.lose l)
  | .appLimited => { l with limited := true, mark := some l.last }
  | .obsolete least => { l with out := l.out.filter fun p => !decide (p.pn < least) }

/-- The sampler. -/
def step (s : Sampler) : Op → Sampler
  | .sent now pn bytes inFlight eliciting => s.onSent now pn bytes inFlight eliciting
  | .neutered pn => s.onNeutered pn
  | .event now acked lost maxBw upper round => (s.onEvent now acked lost maxBw upper round).2
  | .appLimited => s.onAppLimited
  | .obsolete least => s.removeObsolete least

/-- Packet numbers grow, from `n`, and rounds do not go back, from `r`. -/
def Legal (n r : Nat) : List Op → Prop
  | [] => True
  | .sent _ pn _ _ _ :: l => n ≤ pn ∧ Legal (pn + 1) r l
  | .event _ _ _ _ _ round :: l => r ≤ round ∧ Legal n round l
  | _ :: l => Legal n r l

/-! ### The sampler follows the ledger -/

/-- The packet of an entry. -/
def pkt (q : Nat × Entry) : Pkt :=
  ⟨q.1, q.2.size, q.2.sentTime, q.2.state.appLimited, q.2.state.sent, q.2.state.acked, q.2.state.lost, q.2.state.inFlight⟩

/-- The points kept with a packet are on the curves. -/
structure EntryOn (l : Ledger) (e : Entry) : Prop where
  ack : (e.lastAckedAckTime, e.state.acked) ∈ l.acks
  base : (e.lastAckedSentTime, e.sentAtLastAcked) ∈ l.sends
  sent : (e.sentTime, e.state.sent) ∈ l.sends

/-- The sampler against the ledger. -/
structure Rel (l : Ledger) (s : Sampler) : Prop where
  out : s.map.live.map pkt = l.out
  sent : s.sent = l.sent
  acked : s.acked = l.acked
  lost : s.lost = l.lost
  neutered : s.neutered = l.neutered
  ack : (s.ackTime, s.acked) ∈ l.acks
  base : (s.lastAckedSentTime, s.sentAtLastAcked) ∈ l.sends
  ent : ∀ q ∈ s.map.live, EntryOn l q.2
  p0 : ∀ p, s.point0 = some p → (p.time, p.acked) ∈ l.acks
  p1 : ∀ p, s.point1 = some p → (p.time, p.acked) ∈ l.acks
  cs : ∀ c ∈ s.cands, (c.time, c.acked) ∈ l.acks
  limited : s.appLimited = l.limited
  mark : s.endAppLimited = l.mark
  last : s.lastSent = l.last

theorem look_pkt (m : List (Nat × Entry)) (pn : Nat) :
    look (m.map pkt) pn = (findPk m pn).map fun e => pkt (pn, e) := by
  unfold look findPk
  induction m with
  | nil => rfl
  | cons q m ih =>
    simp only [List.map_cons, List.find?_cons]
    by_cases h : q.1 = pn
    · have h1 : ((pkt q).pn == pn) = true := by simp [pkt, h]
      have h2 : (q.1 == pn) = true := by simp [h]
      rw [h1, h2]
      simp [pkt, h]
    · have h1 : ((pkt q).pn == pn) = false := by simp [pkt, h]
      have h2 : (q.1 == pn) = false := by simp [h]
      rw [h1, h2]
      exact ih

theorem without_pkt (m : List (Nat × Entry)) (pn : Nat) :
    (m.filter fun q => !(q.1 == pn)).map pkt = without (m.map pkt) pn := by
  unfold without
  rw [List.filter_map]
  rfl

theorem new_rel (win : Nat) (avoid fix : Bool) (now : Nat) : Rel (Ledger.new now) (Sampler.new win avoid fix now) :=
  { out := rfl, sent := rfl, acked := rfl, lost := rfl, neutered := rfl, ack := (by simp [Ledger.new, Sampler.new]),
    base := (by simp [Ledger.new, Sampler.new]), ent := (by intro q hq; cases hq), p0 := (by intro p hp; cases hp),
    p1 := (by intro p hp; cases hp), cs := (by intro c hc; cases hc), limited := rfl, mark := rfl, last := rfl }

/-- After removal of a packet. -/
theorem take_rel {l : Ledger} {s : Sampler} (hr : Rel l s) (hs : s.map.Sorted) (pn : Nat) :
    ((s.map.take pn).2.live.map pkt = without l.out pn) ∧ (∀ q ∈ (s.map.take pn).2.live, EntryOn l q.2) ∧
    look l.out pn = ((s.map.take pn).1).map (fun e => pkt (pn, e)) ∧
    ∀ e, (s.map.take pn).1 = some e → EntryOn l e := by
  obtain ⟨h1, h2, -⟩ := take_spec pn s.map hs
  refine ⟨by rw [h2, without_pkt, hr.out], ?_, by rw [h1, ← hr.out, look_pkt], ?_⟩
  · intro q hq
    rw [h2] at hq
    exact hr.ent q (List.mem_filter.1 hq).1
  · intro e he
    rw [h1] at he
    exact hr.ent _ (findPk_mem he)

theorem fresh_rel {l : Ledger} {s : Sampler} (hr : Rel l s) (now : Nat) (hsend : (now, s.sent) ∈ l.sends) :
    Rel { l with acks := (now, l.acked) :: l.acks } (s.fresh now) := by
  have hm : ∀ {p}, p ∈ l.acks → p ∈ (now, l.acked) :: l.acks := fun h => List.mem_cons_of_mem _ h
  have hh : (now, s.acked) ∈ (now, l.acked) :: l.acks := by rw [hr.acked]; exact List.mem_cons_self
  unfold Sampler.fresh Sampler.point
  dsimp only
  split
  · exact { out := hr.out, sent := hr.sent, acked := hr.acked, lost := hr.lost, neutered := hr.neutered, ack := hh, base := hsend,
            ent := fun q hq => ⟨hm (hr.ent q hq).ack, (hr.ent q hq).base, (hr.ent q hq).sent⟩,
            p0 := (by intro p hp; cases hp), p1 := (by intro p hp; cases hp; exact hh),
            cs := (by intro c hc; simp only [Option.toList, List.mem_singleton] at hc; rw [hc]; exact hh),
            limited := hr.limited, mark := hr.mark, last := hr.last }
  · exact { out := hr.out, sent := hr.sent, acked := hr.acked, lost := hr.lost, neutered := hr.neutered, ack := hh, base := hsend,
            ent := fun q hq => ⟨hm (hr.ent q hq).ack, (hr.ent q hq).base, (hr.ent q hq).sent⟩,
            p0 := fun p hp => hm (hr.p0 p hp), p1 := fun p hp => hm (hr.p1 p hp), cs := fun c hc => hm (hr.cs c hc),
            limited := hr.limited, mark := hr.mark, last := hr.last }

theorem send_rel {l : Ledger} {s : Sampler} (hr : Rel l s) (now pn bytes inFlight : Nat) :
    Rel (l.send now pn bytes inFlight) (s.onSent now pn bytes inFlight true) := by
  have hs : (now, s.sent + bytes) ∈ (now, l.sent + bytes) :: l.sends := by rw [hr.sent]; exact List.mem_cons_self
  have hm : ∀ {p}, p ∈ l.sends → p ∈ (now, l.sent + bytes) :: l.sends := fun h => List.mem_cons_of_mem _ h
  have h1 : Rel { l with sent := l.sent + bytes, sends := (now, l.sent + bytes) :: l.sends, last := pn } { s with lastSent := pn, sent := s.sent + bytes } :=
    { hr with sent := (by show s.sent + bytes = l.sent + bytes; rw [hr.sent]), last := rfl, base := hm hr.base,
              ent := fun q hq => ⟨(hr.ent q hq).ack, hm (hr.ent q hq).base, hm (hr.ent q hq).sent⟩ }
  have h2 : Rel { l with sent := l.sent + bytes, sends := (now, l.sent + bytes) :: l.sends, last := pn,
                         acks := if inFlight = 0 then (now, l.acked) :: l.acks else l.acks }
      (if inFlight = 0 then ({ s with lastSent := pn, sent := s.sent + bytes } : Sampler).fresh now else { s with lastSent := pn, sent := s.sent + bytes }) ∧
      (if inFlight = 0 then ({ s with lastSent := pn, sent := s.sent + bytes } : Sampler).fresh now else { s with lastSent := pn, sent := s.sent + bytes }).sent = s.sent + bytes := by
    by_cases h0 : inFlight = 0
    · rw [if_pos h0, if_pos h0]
      refine ⟨fresh_rel h1 now hs, ?_⟩
      unfold Sampler.fresh
      dsimp only
      split <;> rfl
    · rw [if_neg h0, if_neg h0]; exact ⟨h1, rfl⟩
  unfold Sampler.onSent
  rw [if_neg (by decide)]
  dsimp only
  generalize (if inFlight = 0 then ({ s with lastSent := pn, sent := s.sent + bytes } : Sampler).fresh now else { s with lastSent := pn, sent := s.sent + bytes }) = u at h2
  obtain ⟨h2, hu⟩ := h2
  refine { h2 with out := ?_, ent := ?_ }
  · show (PMap.live (u.map ++ [(pn, some (u.entry now bytes (inFlight + bytes)))])).map pkt =
      l.out ++ [⟨pn, bytes, now, l.limited, l.sent + bytes, l.acked, l.lost, inFlight + bytes⟩]
    rw [live_append, live_some, live_nil, List.map_append, h2.out]
    show l.out ++ [⟨pn, bytes, now, u.appLimited, u.sent, u.acked, u.lost, inFlight + bytes⟩] = _
    rw [h2.limited, h2.sent, h2.acked, h2.lost]
  · intro q hq
    have hq : q ∈ PMap.live (u.map ++ [(pn, some (u.entry now bytes (inFlight + bytes)))]) := hq
    rw [live_append] at hq
    rcases List.mem_append.1 hq with hq | hq
    · exact ⟨(h2.ent q hq).ack, (h2.ent q hq).base, (h2.ent q hq).sent⟩
    · rw [live_some, live_nil, List.mem_singleton] at hq
      rw [hq]
      refine ⟨h2.ack, h2.base, ?_⟩
      show (now, u.sent) ∈ _
      rw [hu]
      exact hs

theorem neuter_rel {l : Ledger} {s : Sampler} (hr : Rel l s) (hs : s.map.Sorted) (pn : Nat) : Rel (l.neuter pn) (s.onNeutered pn) := by
  obtain ⟨h1, h2, h3, -⟩ := take_rel hr hs pn
  refine { hr with out := h1, ent := fun q hq => ⟨(h2 q hq).ack, (h2 q hq).base, (h2 q hq).sent⟩, neutered := ?_ }
  show s.neutered + ((s.map.take pn).1.map Entry.size).getD 0 = l.neutered + ((look l.out pn).map Pkt.bytes).getD 0
  rw [h3, hr.neutered, Option.map_map]
  rfl

theorem lose_rel {l : Ledger} {s : Sampler} (hr : Rel l s) (hs : s.map.Sorted) (p : Lost) : Rel (l.lose p) (s.onLost p).2 := by
  obtain ⟨h1, h2, -, -⟩ := take_rel hr hs p.pn
  refine { hr with out := h1, ent := fun q hq => ⟨(h2 q hq).ack, (h2 q hq).base, (h2 q hq).sent⟩, lost := ?_ }
  show s.lost + p.bytes = l.lost + p.bytes
  rw [hr.lost]

theorem losses_rel {n r : Nat} : ∀ (ls : List Lost) {l : Ledger} {s : Sampler} (_ : SInv n r s) (_ : Rel l s) (st : SendState) (k : Nat),
    Rel (ls.foldl Ledger.lose l) (s.losses st k ls).2.2
  | [], _, _, _, hr, _, _ => hr
  | p :: ls, l, s, hi, hr, st, k => by
    unfold Sampler.losses
    have h := losses_rel ls (onLost_inv hi p) (lose_rel hr hi.sorted p)
    rw [List.foldl_cons]
    split
    · exact h _ _
    · exact h _ _

/-- The state after the counters of an acknowledged packet are changed. -/
theorem ackedPacket_rel {l : Ledger} {s : Sampler} (hr : Rel l s) (now pn : Nat) (e : Entry) (he : EntryOn l e) :
    Rel { l with acked := l.acked + e.size, acks := (now, l.acked + e.size) :: l.acks
                 limited := if l.mark.all (fun m => decide (m < pn)) = true then false else l.limited } (s.ackedPacket now pn e) := by
  have hm : ∀ {p}, p ∈ l.acks → p ∈ (now, l.acked + e.size) :: l.acks := fun h => List.mem_cons_of_mem _ h
  have hh : (now, s.acked + e.size) ∈ (now, l.acked + e.size) :: l.acks := by rw [hr.acked]; exact List.mem_cons_self
  have ha : s.acked + e.size = l.acked + e.size := by rw [hr.acked]
  have h1 : Rel { l with acked := l.acked + e.size, acks := (now, l.acked + e.size) :: l.acks } ((s.credit now e).mark now) := by
    unfold Sampler.mark
    split
    · exact { out := hr.out, sent := hr.sent, acked := ha, lost := hr.lost, neutered := hr.neutered, ack := hh, base := he.sent,
              ent := fun q hq => ⟨hm (hr.ent q hq).ack, (hr.ent q hq).base, (hr.ent q hq).sent⟩,
              p0 := fun p hp => hm (hr.p1 p hp), p1 := (by intro p hp; cases hp; exact hh), cs := fun c hc => hm (hr.cs c hc),
              limited := hr.limited, mark := hr.mark, last := hr.last }
    · exact { out := hr.out, sent := hr.sent, acked := ha, lost := hr.lost, neutered := hr.neutered, ack := hh, base := he.sent,
              ent := fun q hq => ⟨hm (hr.ent q hq).ack, (hr.ent q hq).base, (hr.ent q hq).sent⟩,
              p0 := fun p hp => hm (hr.p0 p hp), p1 := fun p hp => hm (hr.p1 p hp), cs := fun c hc => hm (hr.cs c hc),
              limited := hr.limited, mark := hr.mark, last := hr.last }
  have hmark : ((s.credit now e).mark now).endAppLimited = l.mark := h1.mark
  have hlim : ((s.credit now e).mark now).appLimited = l.limited := h1.limited
  unfold Sampler.ackedPacket
  generalize (s.credit now e).mark now = u at h1 hmark hlim
  refine { h1 with limited := ?_, ent := fun q hq => ⟨(h1.ent q hq).ack, (h1.ent q hq).base, (h1.ent q hq).sent⟩ }
  unfold Sampler.leave
  dsimp only
  rw [hmark, hlim]
  cases l.mark with
  | none => simp
  | some m => by_cases h : m < pn <;> simp [h]

theorem slope_rel {l : Ledger} {s : Sampler} (hr : Rel l s) (e : Entry) (he : EntryOn l e) :
    Rel l (s.slope e).2 ∧ ((s.slope e).1.time, (s.slope e).1.acked) ∈ l.acks := by
  unfold Sampler.slope
  split
  · obtain ⟨c1, c2⟩ := choose_mem e.state.acked s.fix s.cands
    refine ⟨{ hr with cs := fun c hc => hr.cs c (c2 c hc) }, ?_⟩
    dsimp only
    cases hc : (chooseLoop e.state.acked s.fix s.cands).1 with
    | none => exact he.ack
    | some a => exact hr.cs a (c1 a hc)
  · exact ⟨hr, he.ack⟩

/-- What a sample says, with the curves: see `Verif.Props.C139`. -/
structure SampleOn (now : Nat) (out : List Pkt) (l : Ledger) (pn : Nat) (x : Sample) : Prop where
  pkt : ∃ p, look out pn = some p ∧ x.rtt = now - p.time ∧ x.state = ⟨true, p.limited, p.sent, p.acked, p.lost, p.inFlight⟩
  ack : ∃ t a, (t, a) ∈ l.acks ∧ t < now ∧ a ≤ l.acked ∧ x.ackRate = rate (l.acked - a) (now - t)
  send : ∀ b, x.sendRate = some b → ∃ t a t' a', (t, a) ∈ l.sends ∧ (t', a') ∈ l.sends ∧ t < t' ∧ a ≤ a' ∧ b = rate (a' - a) (t' - t)
  least : x.bandwidth = match x.sendRate with | some b => min b x.ackRate | none => x.ackRate

theorem ack_rel {n r : Nat} {l : Ledger} {s : Sampler} (hi : SInv n r s) (hr : Rel l s) (now pn : Nat) :
    Rel (l.ack now pn) (s.onAcked now pn).2 ∧ ∀ x, (s.onAcked now pn).1 = some x → SampleOn now l.out (l.ack now pn) pn x := by
  obtain ⟨h1, h2, h3, h4⟩ := take_rel hr hi.sorted pn
  obtain ⟨t1, -, -⟩ := take_spec pn s.map hi.sorted
  obtain ⟨k1, k2⟩ := take_sub hi.sorted pn
  have hr0 : Rel { l with out := without l.out pn } { s with lastAcked := pn, map := (s.map.take pn).2 } :=
    { hr with out := h1, ent := fun q hq => ⟨(h2 q hq).ack, (h2 q hq).base, (h2 q hq).sent⟩ }
  have hi0 : SInv n r { s with lastAcked := pn, map := (s.map.take pn).2 } := { shrink_inv hi _ k1 k2 with }
  unfold Sampler.onAcked Ledger.ack
  dsimp only
  rw [h3]
  cases hx : (s.map.take pn).1 with
  | none =>
    refine ⟨{ hr with out := ?_, ent := fun q hq => ⟨(h2 q hq).ack, (h2 q hq).base, (h2 q hq).sent⟩ }, by intro x hx; cases hx⟩
    show (s.map.take pn).2.live.map pkt = l.out
    rw [h1, without, List.filter_eq_self]
    intro p hp
    rw [hx, Option.map_none, look, List.find?_eq_none] at h3
    simpa using h3 p hp
  | some e =>
    have he := h4 e hx
    have heo : EntryOk s.acked s.sent e := by
      rw [hx] at t1
      exact hi.ent _ (findPk_mem t1.symm)
    dsimp only [Option.map_some]
    have a1 := ackedPacket_rel hr0 now pn e ⟨he.ack, he.base, he.sent⟩
    obtain ⟨i1, i2⟩ := ackedPacket_inv hi0 now pn e heo
    generalize Sampler.ackedPacket { s with lastAcked := pn, map := (s.map.take pn).2 } now pn e = u at a1 i1 i2
    have hle : e.state.acked ≤ u.acked := by
      have := heo.acked
      rw [i2]
      show e.state.acked ≤ s.acked + e.size
      omega
    obtain ⟨b1, b2⟩ := slope_rel a1 e ⟨List.mem_cons_of_mem _ he.ack, he.base, he.sent⟩
    obtain ⟨c1, c2, c3⟩ := slope_inv i1 e hle
    generalize u.slope e = v at b1 b2 c1 c2 c3
    refine ⟨{ b1 with }, ?_⟩
    intro x hx'
    unfold mkSample at hx'
    split at hx'
    · cases hx'
    · next hlt =>
      simp only [Option.some.injEq] at hx'
      have hva : v.2.acked = l.acked + e.size := b1.acked
      rw [← hx']
      refine ⟨⟨pkt (pn, e), by rw [h3, hx]; rfl, rfl, rfl⟩, ⟨v.1.time, v.1.acked, b2, by omega, ?_, ?_⟩, ?_, rfl⟩
      · show v.1.acked ≤ l.acked + e.size
        rw [← hva]; rw [c3]; exact c2
      · show rate (v.2.acked - v.1.acked) (now - v.1.time) = rate (l.acked + e.size - v.1.acked) (now - v.1.time)
        rw [hva]
      · intro b hb
        dsimp only at hb
        unfold Entry.sendRate at hb
        split at hb
        · next hgt =>
          cases hb
          exact ⟨_, _, _, _, he.base, he.sent, hgt, heo.base, rfl⟩
        · cases hb

theorem acks_rel {n r : Nat} (now : Nat) : ∀ (pns : List Acked) {l : Ledger} {s : Sampler} (_ : SInv n r s) (_ : Rel l s) (a : AckRun),
    Rel (pns.foldl (Ledger.ack now) l) (s.acks now a pns).2
  | [], _, _, _, hr, _ => hr
  | pn :: pns, l, s, hi, hr, a => by
    obtain ⟨h1, h2⟩ := onAcked_inv hi now pn
    obtain ⟨r1, -⟩ := ack_rel hi hr now pn
    unfold Sampler.acks
    rw [List.foldl_cons]
    dsimp only
    split
    · exact acks_rel now pns h1 r1 a
    · next x hx =>
      have h3 : SInv n r { (s.onAcked now pn).2 with bad := (s.onAcked now pn).2.bad || decide ((s.onAcked now pn).2.acked < x.state.acked) } := by
        refine { h1 with ok := ?_ }
        dsimp only
        have := (h2 x hx).1
        rw [h1.ok]
        simp only [Bool.false_or, decide_eq_false_iff_not]
        omega
      exact acks_rel now pns h3 { r1 with } _

theorem ackEnd_rel {l : Ledger} {s : Sampler} (hr : Rel l s) (bw : Nat) (newMax : Bool) (r : Nat) : Rel l (s.ackEnd bw newMax r).2 := by
  unfold Sampler.ackEnd
  dsimp only
  split
  · exact { hr with }
  · split
    · refine { hr with cs := ?_ }
      intro c hc
      rcases List.mem_append.1 hc with hc | hc
      · exact hr.cs c hc
      · unfold Sampler.lessRecent at hc
        dsimp only at hc
        have hor : ∀ a b : Option AckPoint, c ∈ (a.or b).toList → a = some c ∨ b = some c := by
          intro a b h
          cases a <;> cases b <;> simp_all [Option.toList]
        split at hc
        · rcases hor _ _ hc with h | h
          · exact hr.p0 c (Option.filter_eq_some_iff.1 h).1
          · exact hr.p1 c h
        · rcases hor _ _ hc with h | h
          · exact hr.p0 c h
          · exact hr.p1 c h
    · exact { hr with }

theorem event_rel {n r : Nat} {l : Ledger} {s : Sampler} (hi : SInv n r s) (hr : Rel l s) (now : Nat) (acked : List Acked) (lost : List Lost)
    (maxBw upper round : Nat) : Rel (l.step (.event now acked lost maxBw upper round)) (s.onEvent now acked lost maxBw upper round).2 := by
  have h1 := losses_rel lost hi hr .none 0
  unfold Sampler.onEvent Ledger.step
  dsimp only
  split
  · next h0 => rw [h0]; exact h1
  · exact ackEnd_rel (acks_rel now acked (losses_inv lost hi _ _) h1 _) _ _ _

/-- The next packet number and the round after some operations. -/
def after (n r : Nat) : List Op → Nat × Nat
  | [] => (n, r)
  | .sent _ pn _ _ _ :: l => after (pn + 1) r l
  | .event _ _ _ _ _ round :: l => after n round l
  | _ :: l => after n r l

theorem run_rel : ∀ (ops : List Op) {n r : Nat} {l : Ledger} {s : Sampler}, Legal n r ops → SInv n r s → Rel l s →
    SInv (after n r ops).1 (after n r ops).2 (ops.foldl step s) ∧ Rel (ops.foldl Ledger.step l) (ops.foldl step s)
  | [], _, _, _, _, _, hi, hr => ⟨hi, hr⟩
  | .sent now pn bytes inFlight el :: ops, n, r, l, s, hl, hi, hr => by
    refine run_rel ops hl.2 (onSent_inv hi now pn bytes inFlight el hl.1) ?_
    cases el with
    | false => exact { hr with last := rfl, ent := fun q hq => ⟨(hr.ent q hq).ack, (hr.ent q hq).base, (hr.ent q hq).sent⟩ }
    | true => exact send_rel hr now pn bytes inFlight
  | .neutered pn :: ops, _, _, _, _, hl, hi, hr => run_rel ops hl (onNeutered_inv hi pn) (neuter_rel hr hi.sorted pn)
  | .event now acked lost maxBw upper round :: ops, _, _, _, _, hl, hi, hr =>
    run_rel ops hl.2 (onEvent_inv (hi.mono (Nat.le_refl _) hl.1) now acked lost maxBw upper) (event_rel hi hr now acked lost maxBw upper round)
  | .appLimited :: ops, _, _, _, _, hl, hi, hr => run_rel ops hl (onAppLimited_inv hi) { hr with limited := rfl, mark := congrArg some hr.last, ent := fun q hq => ⟨(hr.ent q hq).ack, (hr.ent q hq).base, (hr.ent q hq).sent⟩ }
  | .obsolete least :: ops, _, _, l, s, hl, hi, hr => by
    refine run_rel ops hl (removeObsolete_inv hi least) { hr with out := ?_, ent := ?_ }
    · show (s.map.drop least).live.map pkt = l.out.filter fun p => !decide (p.pn < least)
      rw [drop_live least s.map hi.sorted, ← hr.out, List.filter_map]
      rfl
    · intro q hq
      have hq : q ∈ (s.map.drop least).live := hq
      rw [drop_live least s.map hi.sorted] at hq
      have := hr.ent q (List.mem_filter.1 hq).1
      exact ⟨this.ack, this.base, this.sent⟩

/-! ### The property -/

/-- A sampler after some operations. -/
def run (win : Nat) (avoid fix : Bool) (now : Nat) (ops : List Op) : Sampler := ops.foldl step (.new win avoid fix now)

/-- The ledger after the same. -/
def book (now : Nat) (ops : List Op) : Ledger := ops.foldl Ledger.step (.new now)

/-- **C138**, no panic: no assertion fails, no `unwrap` meets `None` and no subtraction goes below zero. -/
theorem no_panic (win : Nat) (avoid fix : Bool) (now : Nat) (ops : List Op) (h : Legal 0 0 ops) :
    (run win avoid fix now ops).failed = false :=
  (run_rel ops h (new_inv win avoid fix now) (new_rel win avoid fix now)).1.good

/-- **C138**, the totals and the packets outstanding are those of the ledger. -/
theorem account (win : Nat) (avoid fix : Bool) (now : Nat) (ops : List Op) (h : Legal 0 0 ops) :
    (run win avoid fix now ops).sent = (book now ops).sent ∧ (run win avoid fix now ops).acked = (book now ops).acked ∧
    (run win avoid fix now ops).lost = (book now ops).lost ∧ (run win avoid fix now ops).neutered = (book now ops).neutered ∧
    (run win avoid fix now ops).map.live.map pkt = (book now ops).out ∧ (run win avoid fix now ops).appLimited = (book now ops).limited :=
  have r := (run_rel ops h (new_inv win avoid fix now) (new_rel win avoid fix now)).2
  ⟨r.sent, r.acked, r.lost, r.neutered, r.out, r.limited⟩

/-- The bytes outstanding. -/
def Ledger.outstanding (l : Ledger) : Nat := (l.out.map Pkt.bytes).sum

theorem filter_le (p : Pkt → Bool) : ∀ out : List Pkt, ((out.filter p).map Pkt.bytes).sum ≤ (out.map Pkt.bytes).sum
  | [] => Nat.le_refl _
  | a :: out => by
    have := filter_le p out
    rw [List.filter_cons]
    split
    · simp only [List.map_cons, List.sum_cons]; omega
    · simp only [List.map_cons, List.sum_cons]; omega

theorem take_le (pn : Nat) : ∀ out : List Pkt, ((without out pn).map Pkt.bytes).sum + ((look out pn).map Pkt.bytes).getD 0 ≤ (out.map Pkt.bytes).sum
  | [] => Nat.le_refl _
  | a :: out => by
    have h1 := take_le pn out
    have h2 := filter_le (fun p => !(p.pn == pn)) out
    unfold without look at *
    rw [List.filter_cons, List.find?_cons]
    by_cases h : a.pn = pn
    · have hb : (a.pn == pn) = true := by simp [h]
      rw [hb]
      simp only [Bool.not_true, Bool.false_eq_true, if_false, Option.map_some, Option.getD_some, List.map_cons, List.sum_cons]
      omega
    · have hb : (a.pn == pn) = false := by simp [h]
      rw [hb]
      simp only [Bool.not_false, if_true, List.map_cons, List.sum_cons]
      omega

/-- Nothing is counted twice. -/
def Ledger.Fair (l : Ledger) : Prop := l.outstanding + l.acked + l.neutered ≤ l.sent

theorem ack_fair (now : Nat) {l : Ledger} (h : l.Fair) (pn : Nat) : (l.ack now pn).Fair := by
  unfold Ledger.ack
  have := take_le pn l.out
  split
  · exact h
  · next p hp =>
    rw [hp] at this
    unfold Ledger.Fair Ledger.outstanding at *
    dsimp only at *
    simp only [Option.map_some, Option.getD_some] at this
    omega

theorem lose_fair {l : Ledger} (h : l.Fair) (p : Lost) : (l.lose p).Fair := by
  have := filter_le (fun q => !(q.pn == p.pn)) l.out
  unfold Ledger.Fair Ledger.outstanding Ledger.lose without at *
  dsimp only at *
  omega

theorem fair_step {l : Ledger} (h : l.Fair) (op : Op) : (l.step op).Fair := by
  cases op with
  | sent now pn bytes inFlight el =>
    show (if el = true then l.send now pn bytes inFlight else { l with last := pn }).Fair
    split
    · unfold Ledger.Fair Ledger.outstanding Ledger.send at *
      simp only [List.map_append, List.sum_append, List.map_cons, List.map_nil, List.sum_cons, List.sum_nil]
      omega
    · exact h
  | neutered pn =>
    have := take_le pn l.out
    unfold Ledger.step Ledger.neuter Ledger.Fair Ledger.outstanding at *
    dsimp only at *
    omega
  | event now acked lost a b c =>
    unfold Ledger.step
    have h1 : ∀ (ls : List Lost) (l : Ledger), l.Fair → (ls.foldl Ledger.lose l).Fair := by
      intro ls
      induction ls with
      | nil => intro l h; exact h
      | cons p ls ih => intro l h; exact ih _ (lose_fair h p)
    have h2 : ∀ (ls : List Acked) (l : Ledger), l.Fair → (ls.foldl (Ledger.ack now) l).Fair := by
      intro ls
      induction ls with
      | nil => intro l h; exact h
      | cons p ls ih => intro l h; exact ih _ (ack_fair now h p)
    exact h2 _ _ (h1 _ _ h)
  | appLimited => exact h
  | obsolete least =>
    have := filter_le (fun p => !decide (p.pn < least)) l.out
    unfold Ledger.step Ledger.Fair Ledger.outstanding at *
    dsimp only at *
    omega

/-- **C138**, once: the bytes acknowledged, neutered and outstanding are bytes sent, no packet being counted twice. -/
theorem once (win : Nat) (avoid fix : Bool) (now : Nat) (ops : List Op) (h : Legal 0 0 ops) :
    ((run win avoid fix now ops).map.live.map fun q => q.2.size).sum + (run win avoid fix now ops).acked
      + (run win avoid fix now ops).neutered ≤ (run win avoid fix now ops).sent := by
  obtain ⟨h1, h2, h3, h4, h5, -⟩ := account win avoid fix now ops h
  have hf : (book now ops).Fair := by
    unfold book
    have : ∀ (ops : List Op) (l : Ledger), l.Fair → (ops.foldl Ledger.step l).Fair := by
      intro ops
      induction ops with
      | nil => intro l h; exact h
      | cons p ls ih => intro l h; exact ih _ (fair_step h p)
    exact this _ _ (Nat.le_refl _)
  unfold Ledger.Fair Ledger.outstanding at hf
  rw [← h5, List.map_map] at hf
  rw [h1, h2, h4]
  exact hf

/-- A packet acknowledged twice, lost twice or acknowledged after it was lost is counted once. -/
example : let ops : List Op := [.sent 10 0 1000 0 true, .sent 20 1 1000 1000 true, .sent 30 2 500 2000 true,
      .event 110 [0, 0] [] 0 1000000 0, .event 120 [0] [⟨1, 1000⟩] 0 1000000 1, .event 130 [1] [⟨1, 1000⟩] 0 1000000 1]
    let s := run 10 true false 0 ops
    Legal 0 0 ops ∧ s.acked = 1000 ∧ s.sent = 2500 ∧ s.lost = 2000 ∧ s.map.live.map pkt = [⟨2, 500, 30, true, 2500, 0, 0, 2500⟩] ∧ s.failed = false := by
  refine ⟨by simp [Legal], ?_⟩
  decide +kernel

/-- Packet numbers that go back do panic. -/
example : (run 10 true false 0 [.sent 10 5 1000 0 true, .sent 20 5 1000 1000 true]).failed = true := by decide +kernel

end Verif.Props.C138
