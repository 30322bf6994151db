import Verif.Props.C138

/-!
C139. The bandwidth samples of BBR are measured rates: what an acknowledgement reports was
measured between two points of the account of C138.
-/

namespace Verif.Props.C139

open Verif.Bbr Verif.Props.C138

/-! ### Where the results of an event come from -/

/-- A sample `x` of a packet of the list has `P`: with its number, and the bytes acknowledged up to and with it. The sample is what
`SampleOn` says, against the ledger `l` at the start of the list. -/
def Src (now : Nat) (l : Ledger) (pns : List Acked) (P : Nat → Nat → Sample → Prop) : Prop :=
  ∃ pre pn post x, pns = pre ++ pn :: post ∧
    SampleOn now (pre.foldl (Ledger.ack now) l).out ((pre ++ [pn]).foldl (Ledger.ack now) l) pn x ∧
    P pn ((pre ++ [pn]).foldl (Ledger.ack now) l).acked x

theorem Src.cons {now : Nat} {l : Ledger} {pn : Nat} {pns : List Acked} {P : Nat → Nat → Sample → Prop} (h : Src now (l.ack now pn) pns P) :
    Src now l (pn :: pns) P := by
  obtain ⟨pre, k, post, x, h1, h2, h3⟩ := h
  exact ⟨pn :: pre, k, post, x, by rw [h1]; rfl, h2, h3⟩

theorem Src.head {now : Nat} {l : Ledger} {pn : Nat} {pns : List Acked} {P : Nat → Nat → Sample → Prop} {x : Sample}
    (h : SampleOn now l.out (l.ack now pn) pn x) (hp : P pn (l.ack now pn).acked x) : Src now l (pn :: pns) P :=
  ⟨[], pn, pns, x, rfl, h, hp⟩

/-- What is claimed of a run: each result is that of before or that of a sample. -/
structure From (now : Nat) (l : Ledger) (pns : List Acked) (a b : AckRun) : Prop where
  bw : (b.ev.maxBw = a.ev.maxBw ∧ b.ev.appLimited = a.ev.appLimited) ∨
    Src now l pns fun _ _ x => b.ev.maxBw = some x.bandwidth ∧ b.ev.appLimited = x.state.appLimited
  rtt : b.ev.rtt = a.ev.rtt ∨ Src now l pns fun _ _ x => b.ev.rtt = some x.rtt
  inflight : b.ev.maxInflight = a.ev.maxInflight ∨ Src now l pns fun _ t x => b.ev.maxInflight = t - x.state.acked
  state : (b.state = a.state ∧ b.num = a.num) ∨ Src now l pns fun pn _ x => b.state = x.state ∧ b.num = pn
  ack : b.ev.ackRate = a.ev.ackRate ∨ Src now l pns fun _ _ x => b.ev.ackRate = some x.ackRate
  send : b.ev.sendRate = a.ev.sendRate ∨ Src now l pns fun _ _ x => b.ev.sendRate = x.sendRate

theorem add_from {now : Nat} {l : Ledger} {pn : Nat} {pns : List Acked} {x : Sample} (a : AckRun)
    (h : SampleOn now l.out (l.ack now pn) pn x) : From now l (pn :: pns) a (a.add (l.ack now pn).acked x pn) := by
  unfold AckRun.add
  refine ⟨?_, ?_, ?_, Or.inr (Src.head h ⟨rfl, rfl⟩), ?_, ?_⟩
  · dsimp only
    by_cases hg : optGt (some x.bandwidth) a.ev.maxBw = true
    · rw [if_pos hg, if_pos hg]; exact Or.inr (Src.head h ⟨rfl, rfl⟩)
    · rw [if_neg hg, if_neg hg]; exact Or.inl ⟨rfl, rfl⟩
  · dsimp only
    cases hr : a.ev.rtt with
    | none => exact Or.inr (Src.head h (by simp))
    | some r =>
      by_cases hx : x.rtt ≤ r
      · exact Or.inr (Src.head h (by simp only [Option.getD_some, Option.some.injEq]; omega))
      · exact Or.inl (by simp only [Option.getD_some, Option.some.injEq]; omega)
  · dsimp only
    by_cases hx : a.ev.maxInflight ≤ (l.ack now pn).acked - x.state.acked
    · exact Or.inr (Src.head h (Nat.max_eq_right hx))
    · exact Or.inl (Nat.max_eq_left (by omega))
  · dsimp only
    cases hr : a.ev.ackRate with
    | none => exact Or.inr (Src.head h rfl)
    | some r =>
      by_cases hx : r ≤ x.ackRate
      · exact Or.inr (Src.head h (congrArg some (Nat.max_eq_right hx)))
      · exact Or.inl (congrArg some (Nat.max_eq_left (by omega)))
  · dsimp only
    cases hr : a.ev.sendRate with
    | none => exact Or.inr (Src.head h rfl)
    | some r =>
      cases hs : x.sendRate with
      | none => exact Or.inl rfl
      | some q =>
        by_cases hx : r ≤ q
        · exact Or.inr (Src.head h (by rw [hs]; exact congrArg some (Nat.max_eq_right hx)))
        · exact Or.inl (congrArg some (Nat.max_eq_left (by omega)))

theorem From.trans {now : Nat} {l : Ledger} {pn : Nat} {pns : List Acked} {a b c : AckRun} (h1 : From now l (pn :: pns) a b)
    (h2 : From now (l.ack now pn) pns b c) : From now l (pn :: pns) a c := by
  refine ⟨?_, ?_, ?_, ?_, ?_, ?_⟩
  · rcases h2.bw with h | h
    · rw [h.1, h.2]; exact h1.bw
    · exact Or.inr h.cons
  · rcases h2.rtt with h | h
    · rw [h]; exact h1.rtt
    · exact Or.inr h.cons
  · rcases h2.inflight with h | h
    · rw [h]; exact h1.inflight
    · exact Or.inr h.cons
  · rcases h2.state with h | h
    · rw [h.1, h.2]; exact h1.state
    · exact Or.inr h.cons
  · rcases h2.ack with h | h
    · rw [h]; exact h1.ack
    · exact Or.inr h.cons
  · rcases h2.send with h | h
    · rw [h]; exact h1.send
    · exact Or.inr h.cons

theorem From.skip {now : Nat} {l : Ledger} {pn : Nat} {pns : List Acked} {a b : AckRun}
    (h2 : From now (l.ack now pn) pns a b) : From now l (pn :: pns) a b :=
  From.trans ⟨Or.inl ⟨rfl, rfl⟩, Or.inl rfl, Or.inl rfl, Or.inl ⟨rfl, rfl⟩, Or.inl rfl, Or.inl rfl⟩ h2

/-- A sampler whose `bad` flag was brought up to date. -/
theorem flag_inv {n r : Nat} {s : Sampler} (h : SInv n r s) {b : Bool} (hb : b = false) : SInv n r { s with bad := s.bad || b } := by
  refine { h with ok := ?_ }
  dsimp only
  rw [h.ok, hb]
  rfl

theorem flag_of {n r : Nat} {s : Sampler} (h : SInv n r s) (now pn : Nat) {x : Sample} (hx : (s.onAcked now pn).1 = some x) :
    decide ((s.onAcked now pn).2.acked < x.state.acked) = false := by
  have := ((onAcked_inv h now pn).2 x hx).1
  simp only [decide_eq_false_iff_not]
  omega

theorem acks_from {n r : Nat} (now : Nat) : ∀ (pns : List Acked) {l : Ledger} {s : Sampler} (_ : SInv n r s) (_ : Rel l s) (a : AckRun),
    From now l pns a (s.acks now a pns).1
  | [], _, _, _, _, _ => ⟨Or.inl ⟨rfl, rfl⟩, Or.inl rfl, Or.inl rfl, Or.inl ⟨rfl, rfl⟩, Or.inl rfl, Or.inl rfl⟩
  | pn :: pns, l, s, hi, hr, a => by
    obtain ⟨h1, -⟩ := onAcked_inv hi now pn
    obtain ⟨r1, r2⟩ := ack_rel hi hr now pn
    unfold Sampler.acks
    dsimp only
    split
    · exact (acks_from now pns h1 r1 a).skip
    · next x hx =>
      have h := acks_from now pns (flag_inv h1 (flag_of hi now pn hx)) ({ r1 with } : Rel (l.ack now pn) { (s.onAcked now pn).2 with bad := (s.onAcked now pn).2.bad || decide ((s.onAcked now pn).2.acked < x.state.acked) }) (a.add (s.onAcked now pn).2.acked x pn)
      refine From.trans ?_ h
      have hacc : (s.onAcked now pn).2.acked = (l.ack now pn).acked := r1.acked
      rw [hacc]
      exact add_from a (r2 x hx)

/-! ### No sample is forgotten -/

/-- The results do not get worse. -/
structure Grows (a b : AckRun) : Prop where
  bw : ∀ x, a.ev.maxBw = some x → ∃ y, b.ev.maxBw = some y ∧ x ≤ y
  rtt : ∀ x, a.ev.rtt = some x → ∃ y, b.ev.rtt = some y ∧ y ≤ x
  inflight : a.ev.maxInflight ≤ b.ev.maxInflight

theorem Grows.refl (a : AckRun) : Grows a a := ⟨fun x h => ⟨x, h, Nat.le_refl _⟩, fun x h => ⟨x, h, Nat.le_refl _⟩, Nat.le_refl _⟩

theorem Grows.trans {a b c : AckRun} (h1 : Grows a b) (h2 : Grows b c) : Grows a c := by
  refine ⟨?_, ?_, Nat.le_trans h1.inflight h2.inflight⟩
  · intro x hx
    obtain ⟨y, hy, h⟩ := h1.bw x hx
    obtain ⟨z, hz, h'⟩ := h2.bw y hy
    exact ⟨z, hz, by omega⟩
  · intro x hx
    obtain ⟨y, hy, h⟩ := h1.rtt x hx
    obtain ⟨z, hz, h'⟩ := h2.rtt y hy
    exact ⟨z, hz, by omega⟩

theorem add_grows (a : AckRun) (t : Nat) (x : Sample) (pn : Nat) : Grows a (a.add t x pn) := by
  unfold AckRun.add
  refine ⟨?_, ?_, Nat.le_max_left _ _⟩
  · intro b hb
    dsimp only
    rw [hb]
    by_cases h : x.bandwidth > b
    · exact ⟨x.bandwidth, by simp [optGt, h], by omega⟩
    · exact ⟨b, by simp [optGt, h], by omega⟩
  · intro b hb
    dsimp only
    rw [hb]
    exact ⟨min x.rtt b, rfl, by omega⟩

/-- The sample is among the results. -/
theorem add_has (a : AckRun) (t : Nat) (x : Sample) (pn : Nat) :
    (∃ y, (a.add t x pn).ev.maxBw = some y ∧ x.bandwidth ≤ y) ∧ (∃ y, (a.add t x pn).ev.rtt = some y ∧ y ≤ x.rtt) ∧
    t - x.state.acked ≤ (a.add t x pn).ev.maxInflight := by
  unfold AckRun.add
  refine ⟨?_, ⟨_, rfl, Nat.min_le_left _ _⟩, Nat.le_max_right _ _⟩
  dsimp only
  cases hb : a.ev.maxBw with
  | none => exact ⟨x.bandwidth, rfl, Nat.le_refl _⟩
  | some b =>
    by_cases h : x.bandwidth > b
    · exact ⟨x.bandwidth, by simp [optGt, h], by omega⟩
    · exact ⟨b, by simp [optGt, h], by omega⟩

theorem acks_grows (now : Nat) : ∀ (pns : List Acked) (s : Sampler) (a : AckRun), Grows a (s.acks now a pns).1
  | [], _, a => Grows.refl a
  | pn :: pns, s, a => by
    unfold Sampler.acks
    dsimp only
    split
    · exact acks_grows now pns _ a
    · exact (add_grows _ _ _ _).trans (acks_grows now pns _ _)

theorem acks_append (now : Nat) : ∀ (p q : List Acked) (s : Sampler) (a : AckRun),
    s.acks now a (p ++ q) = ((s.acks now a p).2).acks now (s.acks now a p).1 q
  | [], _, _, _ => rfl
  | pn :: p, q, s, a => by
    rw [List.cons_append, Sampler.acks, Sampler.acks]
    dsimp only
    split
    · exact acks_append now p q _ _
    · exact acks_append now p q _ _

theorem acks_has (now : Nat) (p q : List Acked) (pn : Nat) (s : Sampler) (a : AckRun) (x : Sample)
    (hx : (((s.acks now a p).2).onAcked now pn).1 = some x) :
    (∃ y, (s.acks now a (p ++ pn :: q)).1.ev.maxBw = some y ∧ x.bandwidth ≤ y) ∧
    (∃ y, (s.acks now a (p ++ pn :: q)).1.ev.rtt = some y ∧ y ≤ x.rtt) ∧
    (((s.acks now a p).2).onAcked now pn).2.acked - x.state.acked ≤ (s.acks now a (p ++ pn :: q)).1.ev.maxInflight := by
  rw [acks_append]
  generalize (s.acks now a p) = r at hx
  rw [Sampler.acks]
  dsimp only
  rw [hx]
  dsimp only
  have hg := acks_grows now q { (r.2.onAcked now pn).2 with bad := (r.2.onAcked now pn).2.bad || decide ((r.2.onAcked now pn).2.acked < x.state.acked) }
    (r.1.add (r.2.onAcked now pn).2.acked x pn)
  obtain ⟨⟨y, h1, h1'⟩, ⟨z, h2, h2'⟩, h3⟩ := add_has r.1 (r.2.onAcked now pn).2.acked x pn
  obtain ⟨y', g1, g1'⟩ := hg.bw y h1
  obtain ⟨z', g2, g2'⟩ := hg.rtt z h2
  exact ⟨⟨y', g1, by omega⟩, ⟨z', g2, by omega⟩, Nat.le_trans h3 hg.inflight⟩

/-! ### Events -/

/-- An acknowledgement or loss after some operations. -/
structure Ev where
  now : Nat
  acked : List Acked
  lost : List Lost
  maxBw : Nat
  upper : Nat
  round : Nat

/-- As an operation. -/
def Ev.op (e : Ev) : Op := .event e.now e.acked e.lost e.maxBw e.upper e.round

/-- What the sampler reports. -/
def report (s : Sampler) (e : Ev) : EventSample := (s.onEvent e.now e.acked e.lost e.maxBw e.upper e.round).1

/-- The ledger between the losses and the acknowledgements of an event. -/
def between (l : Ledger) (e : Ev) : Ledger := e.lost.foldl Ledger.lose l

/-- The ledger before an event. -/
structure Reached (s : Sampler) (l : Ledger) : Prop where
  inv : ∃ n r, SInv n r s
  rel : Rel l s

theorem legal_left : ∀ (ops ops' : List Op) {n r : Nat}, Legal n r (ops ++ ops') → Legal n r ops
  | [], _, _, _, _ => trivial
  | .sent _ _ _ _ _ :: ops, ops', _, _, h => ⟨h.1, legal_left ops ops' h.2⟩
  | .neutered _ :: ops, ops', _, _, h => legal_left ops ops' h
  | .event _ _ _ _ _ _ :: ops, ops', _, _, h => ⟨h.1, legal_left ops ops' h.2⟩
  | .appLimited :: ops, ops', _, _, h => legal_left ops ops' h
  | .obsolete _ :: ops, ops', _, _, h => legal_left ops ops' h

theorem reached (win : Nat) (avoid fix : Bool) (t0 : Nat) (ops : List Op) (h : Legal 0 0 ops) :
    Reached (run win avoid fix t0 ops) (book t0 ops) :=
  have r := run_rel ops h (new_inv win avoid fix t0) (new_rel win avoid fix t0)
  ⟨⟨_, _, r.1⟩, r.2⟩

/-- The run of an event. -/
def arun (s : Sampler) (e : Ev) : AckRun := ((s.losses .none 0 e.lost).2.2.acks e.now ⟨.none, .none, 0⟩ e.acked).1

theorem report_eq (s : Sampler) (e : Ev) (hne : e.acked ≠ []) :
    (report s e).maxBw = (arun s e).ev.maxBw ∧ (report s e).appLimited = (arun s e).ev.appLimited ∧ (report s e).rtt = (arun s e).ev.rtt ∧
    (report s e).maxInflight = (arun s e).ev.maxInflight ∧ (report s e).sendRate = (arun s e).ev.sendRate ∧ (report s e).ackRate = (arun s e).ev.ackRate ∧
    (report s e).state = pickState (s.losses .none 0 e.lost).1 (arun s e).state (s.losses .none 0 e.lost).2.1 (arun s e).num := by
  unfold report Sampler.onEvent
  dsimp only
  rw [if_neg hne]
  exact ⟨rfl, rfl, rfl, rfl, rfl, rfl, rfl⟩

theorem report_nil (s : Sampler) (e : Ev) (h : e.acked = []) :
    report s e = { EventSample.none with state := (s.losses .none 0 e.lost).1 } := by
  unfold report Sampler.onEvent
  dsimp only
  rw [if_pos h]

theorem run_from {s : Sampler} {l : Ledger} (h : Reached s l) (e : Ev) : From e.now (between l e) e.acked ⟨.none, .none, 0⟩ (arun s e) := by
  obtain ⟨n, r, hi⟩ := h.inv
  exact acks_from e.now e.acked (losses_inv e.lost hi _ _) (losses_rel e.lost hi h.rel _ _) _

/-- **C139**, bandwidth: the bandwidth reported is that of a sample of a packet acknowledged now, with its flag. -/
theorem measured {s : Sampler} {l : Ledger} (h : Reached s l) (e : Ev) (b : Nat) (hb : (report s e).maxBw = some b) :
    Src e.now (between l e) e.acked fun _ _ x => x.bandwidth = b ∧ (report s e).appLimited = x.state.appLimited := by
  by_cases hne : e.acked = []
  · rw [report_nil s e hne] at hb; cases hb
  · obtain ⟨h1, h2, -⟩ := report_eq s e hne
    rcases (run_from h e).bw with hf | ⟨pre, pn, post, x, k1, k2, k3, k4⟩
    · rw [h1, hf.1] at hb; cases hb
    · refine ⟨pre, pn, post, x, k1, k2, ?_, by rw [h2, k4]⟩
      rw [h1, k3] at hb
      exact Option.some.inj hb

/-- **C139**, round trip: the time reported is that since the sending of a packet acknowledged now. -/
theorem rtt_measured {s : Sampler} {l : Ledger} (h : Reached s l) (e : Ev) (t : Nat) (ht : (report s e).rtt = some t) :
    Src e.now (between l e) e.acked fun _ _ x => x.rtt = t := by
  by_cases hne : e.acked = []
  · rw [report_nil s e hne] at ht; cases ht
  · obtain ⟨-, -, h3, -⟩ := report_eq s e hne
    rcases (run_from h e).rtt with hf | ⟨pre, pn, post, x, k1, k2, k3⟩
    · rw [h3, hf] at ht; cases ht
    · refine ⟨pre, pn, post, x, k1, k2, ?_⟩
      rw [h3, k3] at ht
      exact Option.some.inj ht

/-- **C139**, in flight: what is reported is what was acknowledged between the sending of a packet and now, with it. -/
theorem inflight_measured {s : Sampler} {l : Ledger} (h : Reached s l) (e : Ev) (hpos : 0 < (report s e).maxInflight) :
    Src e.now (between l e) e.acked fun _ t x => (report s e).maxInflight = t - x.state.acked := by
  by_cases hne : e.acked = []
  · rw [report_nil s e hne] at hpos; exact absurd hpos (by simp [EventSample.none])
  · obtain ⟨-, -, -, h4, -⟩ := report_eq s e hne
    rcases (run_from h e).inflight with hf | hf
    · rw [h4, hf] at hpos; exact absurd hpos (by simp [EventSample.none])
    · rw [h4]; exact hf

/-- **C139**, every sample counts: none has a greater bandwidth, a smaller round trip or more bytes in flight than reported. -/
theorem all_counted (s : Sampler) (e : Ev) (pre post : List Acked) (pn : Nat) (x : Sample) (hp : e.acked = pre ++ pn :: post)
    (hx : (((((s.losses .none 0 e.lost).2.2).acks e.now ⟨.none, .none, 0⟩ pre).2).onAcked e.now pn).1 = some x) :
    (∃ b, (report s e).maxBw = some b ∧ x.bandwidth ≤ b) ∧ (∃ t, (report s e).rtt = some t ∧ t ≤ x.rtt) ∧
    (((((s.losses .none 0 e.lost).2.2).acks e.now ⟨.none, .none, 0⟩ pre).2).onAcked e.now pn).2.acked - x.state.acked ≤ (report s e).maxInflight := by
  have hne : e.acked ≠ [] := by rw [hp]; simp
  obtain ⟨h1, -, h3, h4, -⟩ := report_eq s e hne
  obtain ⟨a1, a2, a3⟩ := acks_has e.now pre post pn _ ⟨.none, .none, 0⟩ x hx
  rw [← hp] at a1 a2 a3
  rw [h1, h3, h4]
  exact ⟨a1, a2, a3⟩

/-! ### The bound in terms of the curve -/

theorem acks_mono (now : Nat) : ∀ (pns : List Acked) (l : Ledger), ∀ p ∈ l.acks, p ∈ (pns.foldl (Ledger.ack now) l).acks
  | [], _, _, h => h
  | pn :: pns, l, p, h => by
    refine acks_mono now pns _ p ?_
    unfold Ledger.ack
    split
    · exact h
    · exact List.mem_cons_of_mem _ h

/-- A packet found is counted at once. -/
theorem ack_point (now : Nat) (l : Ledger) (pn : Nat) (p : Pkt) (h : look l.out pn = some p) :
    (now, (l.ack now pn).acked) ∈ (l.ack now pn).acks := by
  unfold Ledger.ack
  rw [h]
  exact List.mem_cons_self

/-- **C139**, bound: over some time before the acknowledgement the bytes acknowledged came at least at the rate reported. -/
theorem bound {s : Sampler} {l : Ledger} (h : Reached s l) (e : Ev) (b : Nat) (hb : (report s e).maxBw = some b) :
    ∃ t a a', (t, a) ∈ (l.step e.op).acks ∧ (e.now, a') ∈ (l.step e.op).acks ∧ t < e.now ∧ a ≤ a' ∧ b ≤ rate (a' - a) (e.now - t) := by
  obtain ⟨pre, pn, post, x, k1, k2, k3, -⟩ := measured h e b hb
  obtain ⟨t, a, ha, ht, hle, hr⟩ := k2.ack
  obtain ⟨p, hp, -⟩ := k2.pkt
  have hall : e.acked.foldl (Ledger.ack e.now) (between l e) = post.foldl (Ledger.ack e.now) ((pre ++ [pn]).foldl (Ledger.ack e.now) (between l e)) := by
    rw [k1, ← List.foldl_append, List.append_assoc]
    rfl
  have hm := acks_mono e.now post ((pre ++ [pn]).foldl (Ledger.ack e.now) (between l e))
  rw [← hall] at hm
  refine ⟨t, a, _, hm _ ha, hm _ ?_, ht, hle, ?_⟩
  · rw [List.foldl_append]
    exact ack_point e.now _ pn p hp
  · rw [← hr, ← k3, k2.least]
    split
    · exact Nat.min_le_right _ _
    · exact Nat.le_refl _

/-- **C139**, nothing known: if no packet acknowledged is outstanding, nothing is reported. -/
theorem unknown {s : Sampler} {l : Ledger} (h : Reached s l) (e : Ev) (hn : ∀ pn ∈ e.acked, look (between l e).out pn = none) :
    (report s e).maxBw = none ∧ (report s e).rtt = none ∧ (report s e).maxInflight = 0 := by
  have hno : ∀ P, ¬ Src e.now (between l e) e.acked P := by
    intro P hsrc
    obtain ⟨pre, pn, post, x, k1, k2, -⟩ := hsrc
    obtain ⟨p, hp, -⟩ := k2.pkt
    have hkeep : ∀ (pre : List Acked), (∀ k ∈ pre, look (between l e).out k = none) → pre.foldl (Ledger.ack e.now) (between l e) = between l e := by
      intro pre
      induction pre with
      | nil => intro _; rfl
      | cons k pre ih =>
        intro hk
        rw [List.foldl_cons]
        have : (between l e).ack e.now k = between l e := by
          unfold Ledger.ack
          rw [hk k (by simp)]
        rw [this]
        exact ih (fun q hq => hk q (by simp [hq]))
    rw [hkeep pre (fun k hk => hn k (by rw [k1]; simp [hk])), hn pn (by rw [k1]; simp)] at hp
    cases hp
  refine ⟨?_, ?_, ?_⟩
  · cases hb : (report s e).maxBw with
    | none => rfl
    | some b => exact absurd (measured h e b hb) (hno _)
  · cases hb : (report s e).rtt with
    | none => rfl
    | some b => exact absurd (rtt_measured h e b hb) (hno _)
  · cases hm : (report s e).maxInflight with
    | zero => rfl
    | succ k => exact absurd (inflight_measured h e (by omega)) (hno _)

/-! ### Without overestimate avoidance every packet sent earlier gives a sample -/

/-- The times of the operations do not go back, from `c`. -/
def Timed (c : Nat) : List Op → Prop
  | [] => True
  | .sent now _ _ _ _ :: l => c ≤ now ∧ Timed now l
  | .event now _ _ _ _ _ :: l => c ≤ now ∧ Timed now l
  | _ :: l => Timed c l

/-- The sampler at time `c`, without overestimate avoidance. -/
structure TInv (c : Nat) (s : Sampler) : Prop where
  plain : s.avoid = false
  now : s.ackTime ≤ c
  ent : ∀ q ∈ s.map.live, q.2.lastAckedAckTime ≤ q.2.sentTime

theorem TInv.mono {c c' : Nat} {s : Sampler} (h : TInv c s) (hc : c ≤ c') : TInv c' s := ⟨h.plain, Nat.le_trans h.now hc, h.ent⟩

theorem tinv_take {c : Nat} {s : Sampler} (h : TInv c s) (hs : s.map.Sorted) (pn : Nat) : ∀ q ∈ (s.map.take pn).2.live, q.2.lastAckedAckTime ≤ q.2.sentTime :=
  fun q hq => h.ent q ((take_sub hs pn).2 q hq)

theorem tinv_lost {c n r : Nat} : ∀ (ls : List Lost) {s : Sampler} (_ : SInv n r s) (_ : TInv c s) (st : SendState) (k : Nat), TInv c (s.losses st k ls).2.2
  | [], _, _, h, _, _ => h
  | p :: ls, s, hi, h, st, k => by
    have h1 : TInv c (s.onLost p).2 := ⟨h.plain, h.now, tinv_take h hi.sorted p.pn⟩
    unfold Sampler.losses
    split
    · exact tinv_lost ls (onLost_inv hi p) h1 _ _
    · exact tinv_lost ls (onLost_inv hi p) h1 _ _

/-- A packet found in plain mode: what becomes of the sampler. -/
theorem plain_acked {s : Sampler} (hp : s.avoid = false) (now pn : Nat) :
    (s.onAcked now pn).2.avoid = false ∧ (s.onAcked now pn).2.map = (s.map.take pn).2 ∧ ((s.onAcked now pn).2.ackTime = now ∨ (s.onAcked now pn).2.ackTime = s.ackTime) ∧
    ∀ e, (s.map.take pn).1 = some e → (s.onAcked now pn).1 = mkSample now (s.acked + e.size) ⟨e.lastAckedAckTime, e.state.acked⟩ e := by
  unfold Sampler.onAcked
  dsimp only
  cases hx : (s.map.take pn).1 with
  | none => exact ⟨hp, rfl, Or.inr rfl, by intro e he; cases he⟩
  | some e =>
    dsimp only
    unfold Sampler.ackedPacket Sampler.mark
    have hc : (Sampler.credit { s with lastAcked := pn, map := (s.map.take pn).2 } now e).avoid = false := hp
    rw [if_neg (by rw [hc]; decide)]
    unfold Sampler.slope Sampler.leave
    dsimp only
    rw [hc, if_neg (by decide)]
    exact ⟨rfl, rfl, Or.inl rfl, by intro e' he; cases he; rfl⟩

theorem tinv_acked {c n r : Nat} {s : Sampler} (hi : SInv n r s) (h : TInv c s) (now pn : Nat) (hc : c ≤ now) : TInv now (s.onAcked now pn).2 := by
  obtain ⟨h1, h2, h3, -⟩ := plain_acked h.plain now pn
  refine ⟨h1, ?_, by rw [h2]; exact tinv_take h hi.sorted pn⟩
  have := h.now
  rcases h3 with h3 | h3 <;> omega

theorem tinv_acks {n r : Nat} (now : Nat) : ∀ (pns : List Acked) {c : Nat} {s : Sampler} (_ : c ≤ now) (_ : SInv n r s) (_ : TInv c s) (a : AckRun),
    SInv n r (s.acks now a pns).2 ∧ TInv now (s.acks now a pns).2
  | [], _, _, hc, hi, h, _ => ⟨hi, h.mono hc⟩
  | pn :: pns, c, s, hc, hi, h, a => by
    have h1 := tinv_acked hi h now pn hc
    obtain ⟨i1, -⟩ := onAcked_inv hi now pn
    unfold Sampler.acks
    dsimp only
    split
    · exact tinv_acks now pns (Nat.le_refl _) i1 h1 _
    · next x hx => exact tinv_acks now pns (Nat.le_refl _) (flag_inv i1 (flag_of hi now pn hx)) ⟨h1.plain, h1.now, h1.ent⟩ _

theorem tinv_end {c : Nat} {s : Sampler} (h : TInv c s) (bw : Nat) (m : Bool) (r : Nat) : TInv c (s.ackEnd bw m r).2 := by
  unfold Sampler.ackEnd
  dsimp only
  split
  · exact ⟨h.plain, h.now, h.ent⟩
  · split
    · exact ⟨h.plain, h.now, h.ent⟩
    · exact ⟨h.plain, h.now, h.ent⟩

/-- The time after some operations. -/
def clock (c : Nat) : List Op → Nat
  | [] => c
  | .sent now _ _ _ _ :: l => clock now l
  | .event now _ _ _ _ _ :: l => clock now l
  | _ :: l => clock c l

theorem tinv_run : ∀ (ops : List Op) {n r c : Nat} {s : Sampler}, Legal n r ops → Timed c ops → SInv n r s → TInv c s →
    TInv (clock c ops) (ops.foldl step s)
  | [], _, _, _, _, _, _, _, h => h
  | .sent now pn bytes inFlight el :: ops, n, r, c, s, hl, ht, hi, h => by
    refine tinv_run ops hl.2 ht.2 (onSent_inv hi now pn bytes inFlight el hl.1) ?_
    unfold step Sampler.onSent
    dsimp only
    split
    · exact ⟨h.plain, Nat.le_trans h.now ht.1, h.ent⟩
    · have hu : ∀ u : Sampler, TInv now u → TInv now (u.insert pn (u.entry now bytes (inFlight + bytes))) := by
        intro u hu
        refine ⟨hu.plain, hu.now, ?_⟩
        intro q hq
        have hq : q ∈ PMap.live (u.map ++ [(pn, some (u.entry now bytes (inFlight + bytes)))]) := hq
        rw [live_append] at hq
        rcases List.mem_append.1 hq with hq | hq
        · exact hu.ent q hq
        · rw [live_some, live_nil, List.mem_singleton] at hq
          rw [hq]
          exact hu.now
      apply hu
      split
      · unfold Sampler.fresh
        dsimp only
        rw [if_neg (by rw [h.plain]; decide)]
        exact ⟨h.plain, Nat.le_refl _, h.ent⟩
      · exact ⟨h.plain, Nat.le_trans h.now ht.1, h.ent⟩
  | .neutered pn :: ops, _, _, _, _, hl, ht, hi, h =>
    tinv_run ops hl ht (onNeutered_inv hi pn) ⟨h.plain, h.now, tinv_take h hi.sorted pn⟩
  | .event now acked lost maxBw upper round :: ops, _, _, _, s, hl, ht, hi, h => by
    have hi' := hi.mono (Nat.le_refl _) hl.1
    refine tinv_run ops hl.2 ht.2 (onEvent_inv hi' now acked lost maxBw upper) ?_
    show TInv now (s.onEvent now acked lost maxBw upper round).2
    unfold Sampler.onEvent
    dsimp only
    have h1 := tinv_lost lost hi h .none 0
    split
    · exact h1.mono ht.1
    · exact tinv_end (tinv_acks now acked ht.1 (losses_inv lost hi _ _) h1 _).2 _ _ _
  | .appLimited :: ops, _, _, _, _, hl, ht, hi, h => tinv_run ops hl ht (onAppLimited_inv hi) ⟨h.plain, h.now, h.ent⟩
  | .obsolete least :: ops, _, _, _, s, hl, ht, hi, h => by
    refine tinv_run ops hl ht (removeObsolete_inv hi least) ⟨h.plain, h.now, ?_⟩
    intro q hq
    have hq : q ∈ (s.map.drop least).live := hq
    rw [drop_live least s.map hi.sorted] at hq
    exact h.ent q (List.mem_filter.1 hq).1

/-- An earlier acknowledgement in the list does not take another packet. -/
theorem look_kept (now : Nat) : ∀ (pre : List Acked) (l : Ledger) (pn : Nat), pn ∉ pre → look (pre.foldl (Ledger.ack now) l).out pn = look l.out pn
  | [], _, _, _ => rfl
  | k :: pre, l, pn, h => by
    rw [List.foldl_cons, look_kept now pre _ pn (by intro h'; exact h (by simp [h']))]
    have hk : k ≠ pn := by intro h'; exact h (by simp [h'])
    unfold Ledger.ack
    split
    · rfl
    · show look (without l.out k) pn = look l.out pn
      unfold look without
      rw [List.find?_filter]
      congr 1
      funext p
      by_cases hp : p.pn = pn
      · simp [hp, Ne.symm hk]
      · simp [hp]

/-- **C139**, complete: without overestimate avoidance each packet acknowledged, if still outstanding and sent before now, takes part:
the round trip reported is not longer than its own, and a bandwidth is reported. -/
theorem complete (win : Nat) (fix : Bool) (t0 : Nat) (ops : List Op) (e : Ev) (hl : Legal 0 0 (ops ++ [e.op])) (ht : Timed t0 (ops ++ [e.op]))
    (pn : Nat) (p : Pkt) (hp : look (between (book t0 ops) e).out pn = some p) (hm : pn ∈ e.acked) (hlt : p.time < e.now) :
    (∃ t, (report (run win false fix t0 ops) e).rtt = some t ∧ t ≤ e.now - p.time) ∧ (report (run win false fix t0 ops) e).maxBw.isSome = true := by
  have hops := legal_left ops _ hl
  have htim : ∀ (ops : List Op) (c : Nat), Timed c (ops ++ [e.op]) → Timed c ops ∧ clock c ops ≤ e.now := by
    intro ops
    induction ops with
    | nil => intro c h; exact ⟨trivial, h.1⟩
    | cons o ops ih =>
      intro c h
      cases o with
      | sent now _ _ _ _ => exact ⟨⟨h.1, (ih now h.2).1⟩, (ih now h.2).2⟩
      | event now _ _ _ _ _ => exact ⟨⟨h.1, (ih now h.2).1⟩, (ih now h.2).2⟩
      | neutered _ => exact ih c h
      | appLimited => exact ih c h
      | obsolete _ => exact ih c h
  obtain ⟨htt, hclk⟩ := htim ops t0 ht
  have hrel := run_rel ops hops (new_inv win false fix t0) (new_rel win false fix t0)
  have htv := tinv_run ops hops htt (new_inv win false fix t0) ⟨rfl, Nat.le_refl _, by intro q hq; cases hq⟩
  obtain ⟨hi, hr⟩ := hrel
  have hi1 := losses_inv e.lost hi .none 0
  have hr1 := losses_rel e.lost hi hr .none 0
  have ht1 := tinv_lost e.lost hi htv .none 0
  -- the first place of the packet
  obtain ⟨pre, post, hsplit, hnot⟩ : ∃ pre post, e.acked = pre ++ pn :: post ∧ pn ∉ pre := List.eq_append_cons_of_mem hm
  have hi2 := acks_inv e.now pre hi1 ⟨.none, .none, 0⟩
  have hr2 := acks_rel e.now pre hi1 hr1 ⟨.none, .none, 0⟩
  have ht2 := (tinv_acks e.now pre hclk hi1 ht1 ⟨.none, .none, 0⟩).2
  have hlook := look_kept e.now pre (between (book t0 ops) e) pn hnot
  rw [hp] at hlook
  obtain ⟨-, -, k3, -⟩ := take_rel hr2 hi2.sorted pn
  rw [show look (pre.foldl (Ledger.ack e.now) (e.lost.foldl Ledger.lose (ops.foldl Ledger.step (Ledger.new t0)))).out pn = some p from hlook] at k3
  have hall := all_counted (run win false fix t0 ops) e pre post pn
  unfold run at hall ⊢
  generalize ((((ops.foldl step (Sampler.new win false fix t0)).losses .none 0 e.lost).2.2).acks e.now ⟨.none, .none, 0⟩ pre).2 = u at hi2 ht2 k3 hall
  cases hx : (u.map.take pn).1 with
  | none => rw [hx] at k3; cases k3
  | some q =>
    rw [hx, Option.map_some, Option.some.injEq] at k3
    obtain ⟨t1, -, -⟩ := take_spec pn u.map hi2.sorted
    have hq : q.lastAckedAckTime ≤ q.sentTime := by
      rw [hx] at t1
      exact ht2.ent _ (findPk_mem t1.symm)
    have htime : p.time = q.sentTime := by rw [k3]; rfl
    have hs := (plain_acked ht2.plain e.now pn).2.2.2 q hx
    unfold mkSample at hs
    rw [if_neg (by dsimp only; omega)] at hs
    obtain ⟨⟨b, b1, -⟩, ⟨t, c1, c2⟩, -⟩ := hall _ hsplit hs
    refine ⟨⟨t, c1, ?_⟩, by rw [b1]; rfl⟩
    rw [htime]
    exact c2

/-! ### The state at sending -/

/-- What held when a packet was sent. -/
def stateOf (p : Pkt) : SendState := ⟨true, p.limited, p.sent, p.acked, p.lost, p.inFlight⟩

/-- The last lost packet that was outstanding. -/
def lastLost (l : Ledger) : List Lost → Option Pkt
  | [] => none
  | p :: ls => (lastLost (l.lose p) ls).or (look l.out p.pn)

theorem onLost_state {n r : Nat} {l : Ledger} {s : Sampler} (hi : SInv n r s) (hr : Rel l s) (p : Lost) :
    (s.onLost p).1 = (look l.out p.pn).elim .none stateOf ∧ ∀ q, look l.out p.pn = some q → q.pn = p.pn := by
  obtain ⟨-, -, h3, -⟩ := take_rel hr hi.sorted p.pn
  unfold Sampler.onLost
  dsimp only
  cases hx : (s.map.take p.pn).1 with
  | none => rw [hx] at h3; rw [h3]; exact ⟨rfl, by intro q hq; cases hq⟩
  | some e => rw [hx] at h3; rw [h3]; exact ⟨rfl, by intro q hq; cases hq; rfl⟩

theorem losses_state {n r : Nat} : ∀ (ls : List Lost) {l : Ledger} {s : Sampler} (_ : SInv n r s) (_ : Rel l s) (st : SendState) (k : Nat),
    (s.losses st k ls).1 = (lastLost l ls).elim st stateOf ∧ (s.losses st k ls).2.1 = (lastLost l ls).elim k Pkt.pn
  | [], _, _, _, _, _, _ => ⟨rfl, rfl⟩
  | p :: ls, l, s, hi, hr, st, k => by
    obtain ⟨h1, h2⟩ := onLost_state hi hr p
    have h := losses_state ls (onLost_inv hi p) (lose_rel hr hi.sorted p)
    unfold Sampler.losses lastLost
    rw [h1]
    cases hl : look l.out p.pn with
    | none =>
      rw [Option.elim_none, if_neg (by simp [SendState.none]), Option.or_none]
      exact h st k
    | some q =>
      rw [Option.elim_some, if_pos (by rfl)]
      obtain ⟨a, b⟩ := h (stateOf q) p.pn
      rw [a, b]
      cases lastLost (l.lose p) ls with
      | none => exact ⟨rfl, (h2 q hl).symm⟩
      | some w => exact ⟨rfl, rfl⟩

/-- **C139**, state: what is reported of the time of sending is that of the last packet lost, or of the last sample. -/
theorem state_of {s : Sampler} {l : Ledger} (h : Reached s l) (e : Ev) :
    (lastLost l e.lost = none → (report s e).state = .none ∨ Src e.now (between l e) e.acked fun _ _ x => (report s e).state = x.state) ∧
    (∀ p, lastLost l e.lost = some p → (report s e).state = stateOf p ∨
      Src e.now (between l e) e.acked fun pn _ x => (report s e).state = x.state ∧ p.pn < pn) := by
  obtain ⟨n, r, hi⟩ := h.inv
  obtain ⟨h1, h2⟩ := losses_state e.lost hi h.rel .none 0
  by_cases hne : e.acked = []
  · rw [report_nil s e hne]
    dsimp only
    rw [h1]
    exact ⟨fun hl => Or.inl (by rw [hl]; rfl), fun p hp => Or.inl (by rw [hp]; rfl)⟩
  · obtain ⟨-, -, -, -, -, -, h7⟩ := report_eq s e hne
    rw [h7, h1, h2]
    constructor
    · intro hl
      rw [hl]
      have : pickState ((none : Option Pkt).elim .none stateOf) (arun s e).state ((none : Option Pkt).elim 0 Pkt.pn) (arun s e).num = (arun s e).state := rfl
      rw [this]
      rcases (run_from h e).state with hf | ⟨pre, pn, post, x, k1, k2, k3, -⟩
      · exact Or.inl hf.1
      · exact Or.inr ⟨pre, pn, post, x, k1, k2, k3⟩
    · intro p hp
      rw [hp]
      rcases (run_from h e).state with hf | ⟨pre, pn, post, x, k1, k2, k3, k4⟩
      · left
        rw [hf.1]
        rfl
      · unfold pickState
        rw [if_neg (by simp [stateOf])]
        split
        · exact Or.inl rfl
        · split
          · next hgt =>
            rw [k4] at hgt
            exact Or.inr ⟨pre, pn, post, x, k1, k2, k3, hgt⟩
          · exact Or.inl rfl

/-- **C139**, state, one packet acknowledged: the later of it and the last packet lost. -/
theorem state_single {s : Sampler} {l : Ledger} (h : Reached s l) (e : Ev) (pn : Nat) (hp : e.acked = [pn]) (x : Sample)
    (hx : (((s.losses .none 0 e.lost).2.2).onAcked e.now pn).1 = some x) :
    (report s e).state = match lastLost l e.lost with
      | none => x.state
      | some p => if p.pn < pn then x.state else stateOf p := by
  obtain ⟨n, r, hi⟩ := h.inv
  obtain ⟨h1, h2⟩ := losses_state e.lost hi h.rel .none 0
  have hv := ((onAcked_inv (losses_inv e.lost hi .none 0) e.now pn).2 x hx).2
  obtain ⟨-, -, -, -, -, -, h7⟩ := report_eq s e (by rw [hp]; simp)
  rw [h7, h1, h2]
  have ha : (arun s e).state = x.state ∧ (arun s e).num = pn := by
    unfold arun
    rw [hp, Sampler.acks]
    dsimp only
    rw [hx]
    exact ⟨rfl, rfl⟩
  rw [ha.1, ha.2]
  cases lastLost l e.lost with
  | none => rfl
  | some p =>
    unfold pickState
    rw [Option.elim_some, if_neg (by simp [stateOf]), if_neg (by rw [hv]; decide)]
    rfl

/-! ### Cases -/

/-- A flight of four packets of 1000 bytes, a millisecond apart, acknowledged two by two after 100 ms. -/
def flight : List Op := [.sent 0 0 1000 0 true, .sent 1000000 1 1000 1000 true, .sent 2000000 2 1000 2000 true, .sent 3000000 3 1000 3000 true]

/-- The first report: 2000 bytes in 101 ms (158415 bits a second; the send rate would have allowed 8 million). -/
example : let e : Ev := ⟨101000000, [0, 1], [], 0, 1000000000, 0⟩
    let r := report (run 10 false false 0 flight) e
    Legal 0 0 (flight ++ [e.op]) ∧ r.maxBw = some 158415 ∧ r.rtt = some 100000000 ∧ r.maxInflight = 2000 ∧ r.appLimited = true
      ∧ r.state = stateOf ⟨1, 1000, 1000000, true, 2000, 0, 0, 2000⟩ := by
  refine ⟨by simp [Legal, flight, Ev.op], ?_⟩
  decide +kernel

/-- With overestimate avoidance an acknowledgement of two packets saves a start of the slope of its own time, in the middle of
the acknowledgement, and not "the last ack point of the previous epoch" (comment at 714-716). -/
theorem saved_point_false : ∃ ops e, Legal 0 0 (ops ++ [Ev.op e]) ∧ Timed 0 (ops ++ [Ev.op e]) ∧
    ∃ c ∈ (run 10 true false 0 (ops ++ [Ev.op e])).cands, c.time = e.now ∧ (book 0 ops).acked < c.acked ∧ c.acked < (book 0 (ops ++ [Ev.op e])).acked := by
  refine ⟨flight, ⟨101000000, [0, 1], [], 0, 1000000000, 0⟩, by simp [Legal, flight, Ev.op], by simp [Timed, flight, Ev.op],
    ⟨101000000, 1000⟩, ?_⟩
  decide +kernel

/-- The next report then takes a byte acknowledged at the start of the interval into account: 2000 bytes in 100 ms, though in the
100 ms only one packet of 1000 bytes was acknowledged. Without the option it is 3000 bytes in 201 ms. -/
example : let ops := flight ++ [.event 101000000 [0, 1] [] 0 1000000000 0]
    let e : Ev := ⟨201000000, [2], [], 0, 1000000000, 1⟩
    (report (run 10 true false 0 ops) e).maxBw = some 160000 ∧ (report (run 10 false false 0 ops) e).maxBw = some 119402 := by
  decide +kernel

end Verif.Props.C139
