import Verif.Path.Step

/-!
Validation of paths: what changes the challenges in flight, the largest challenge answered
and the state.
-/

namespace Verif.Path
open Verif
open Verif.Cid (Ids Err Entry Deque)

variable {c c' c'' : Conn}

/-- A path before and after: `D` holds for the data of the PATH_RESPONSE frames received,
`N` for the challenges sent on the path. -/
structure Vrel (D : Nat → Prop) (N : Nat → Chal → Prop) (p q : Path) : Prop where
  id : SameId p q
  flight : ∀ ch ∈ q.inFlight, ch ∈ p.inFlight ∨ N p.uid ch
  size : minInitial ≤ q.maxChal → minInitial ≤ p.maxChal ∨ ∃ ch ∈ p.inFlight, D ch.data ∧ minInitial ≤ ch.size
  grow : p.maxChal ≤ q.maxChal
  valid : q.state = .validated → p.state = .validated ∨ ((∃ ch ∈ p.inFlight, D ch.data) ∧ minInitial ≤ q.maxChal)

/-- A path just made. -/
structure Fresh (q : Path) : Prop where
  flight : q.inFlight = []
  size : q.maxChal < minInitial
  state : q.state ≠ .validated

variable {D : Nat → Prop} {N : Nat → Chal → Prop}

abbrev noSend : Nat → Chal → Prop := fun _ _ => False
abbrev noResp : Nat → Prop := fun _ => False

theorem Vrel.mono {D' : Nat → Prop} {N' : Nat → Chal → Prop} {p q : Path} (h : Vrel D N p q) (hD : ∀ d, D d → D' d) (hN : ∀ u ch, N u ch → N' u ch) :
    Vrel D' N' p q where
  id := h.id
  flight ch hc := (h.flight ch hc).imp_right (hN _ _)
  size hs := (h.size hs).imp_right fun ⟨ch, h1, h2, h3⟩ => ⟨ch, h1, hD _ h2, h3⟩
  grow := h.grow
  valid hv := (h.valid hv).imp_right fun ⟨⟨ch, h1, h2⟩, h3⟩ => ⟨⟨ch, h1, hD _ h2⟩, h3⟩

/-- Nothing about validation changes. -/
theorem Vrel.quiet {p q : Path} (h0 : SameId p q) (h1 : ∀ ch ∈ q.inFlight, ch ∈ p.inFlight) (h2 : q.maxChal = p.maxChal)
    (h3 : q.state = .validated → p.state = .validated) : Vrel D N p q :=
  ⟨h0, fun ch hc => Or.inl (h1 ch hc), fun h => Or.inl (h2 ▸ h), by omega, fun h => Or.inl (h3 h)⟩

theorem Vrel.refl (p : Path) : Vrel D N p p := Vrel.quiet ⟨rfl, rfl, rfl⟩ (fun _ h => h) rfl fun h => h

theorem Vrel.trans {p q r : Path} (h1 : Vrel D noSend p q) (h2 : Vrel D N q r) : Vrel D N p r := by
  have hf : ∀ ch ∈ q.inFlight, ch ∈ p.inFlight := fun ch hc => (h1.flight ch hc).resolve_right (fun h => h)
  refine ⟨h1.id.trans h2.id, ?_, ?_, Nat.le_trans h1.grow h2.grow, ?_⟩
  · intro ch hc
    rcases h2.flight ch hc with h | h
    · exact Or.inl (hf ch h)
    · exact Or.inr (h1.id.1 ▸ h)
  · intro hs
    rcases h2.size hs with h | ⟨ch, hc, hd, hm⟩
    · exact h1.size h
    · exact Or.inr ⟨ch, hf ch hc, hd, hm⟩
  · intro hv
    rcases h2.valid hv with h | ⟨⟨ch, hc, hd⟩, hm⟩
    · exact (h1.valid h).imp_right fun ⟨h, hm⟩ => ⟨h, Nat.le_trans hm h2.grow⟩
    · exact Or.inr ⟨⟨ch, hf ch hc, hd⟩, hm⟩

theorem Fresh.vrel {p q : Path} (h : Fresh p) (hr : Vrel D noSend p q) : Fresh q := by
  have hn : ∀ ch ∈ p.inFlight, False := by intro ch hc; rw [h.flight] at hc; cases hc
  refine ⟨?_, ?_, ?_⟩
  · cases hq : q.inFlight with
    | nil => rfl
    | cons ch l => exact (((hr.flight ch (by rw [hq]; exact List.mem_cons_self)).resolve_right (fun h => h)) |> hn ch).elim
  · apply Nat.lt_of_not_le
    intro hs
    rcases hr.size hs with h' | ⟨ch, hc, _⟩
    · exact absurd h.size (Nat.not_lt.mpr h')
    · exact hn ch hc
  · intro hv
    rcases hr.valid hv with h' | ⟨⟨ch, hc, _⟩, _⟩
    · exact h.state h'
    · exact hn ch hc

theorem sizeOf_mem (l : List Chal) (d : Nat) (h : 0 < Path.sizeOf l d) : ∃ ch ∈ l, ch.data = d ∧ ch.size = Path.sizeOf l d := by
  have key : ∀ (l : List Chal) (s : Nat), l.foldl (fun s c => if c.data = d then c.size else s) s = s ∨
      ∃ ch ∈ l, ch.data = d ∧ ch.size = l.foldl (fun s c => if c.data = d then c.size else s) s := by
    intro l
    induction l with
    | nil => intro s; exact Or.inl rfl
    | cons x l ih =>
      intro s
      simp only [List.foldl_cons]
      rcases ih (if x.data = d then x.size else s) with h | ⟨ch, hc, h1, h2⟩
      · split at h
        · rename_i hx
          refine Or.inr ⟨x, List.mem_cons_self, hx, ?_⟩
          rw [if_pos hx, h]
        · rename_i hx
          rw [if_neg hx]
          exact Or.inl h
      · exact Or.inr ⟨ch, List.mem_cons_of_mem _ hc, h1, h2⟩
  unfold Path.sizeOf at h ⊢
  rcases key l 0 with h' | h'
  · omega
  · exact h'

theorem Path.promote_validated {p : Path} {s : PState} (hs : s ≠ .validated) (h : (p.promote s).state = .validated) : p.state = .validated := by
  unfold Path.promote at h
  split at h
  · exact absurd h hs
  · exact h

theorem Path.promote_inFlight (p : Path) (s : PState) : (p.promote s).inFlight = p.inFlight := by
  obtain ⟨s', h⟩ := p.promote_frame s; rw [h]

theorem Path.promote_maxChal (p : Path) (s : PState) : (p.promote s).maxChal = p.maxChal := by
  obtain ⟨s', h⟩ := p.promote_frame s; rw [h]

theorem answer_inFlight (p : Path) (d : Nat) : (p.answer d).inFlight = p.inFlight.filter (·.data != d) := by
  unfold Path.answer; dsimp only; rw [Path.promote_inFlight]

theorem answer_maxChal (p : Path) (d : Nat) : (p.answer d).maxChal = max p.maxChal (Path.sizeOf p.inFlight d) := by
  unfold Path.answer; dsimp only; rw [Path.promote_maxChal]

theorem answer_state {p : Path} {d : Nat} (h : (p.answer d).state = .validated) : p.state = .validated := by
  unfold Path.answer at h
  dsimp only at h
  exact Path.promote_validated (p := { p with verified := true, probingLost := 0, inFlight := p.inFlight.filter (·.data != d) }) (by decide) h

theorem onResponse_cases (p : Path) (d : Nat) :
    (p.onResponse d).2.inFlight = (p.answer d).inFlight ∧ (p.onResponse d).2.maxChal = (p.answer d).maxChal ∧
    ((p.onResponse d).2.state = .validated → (p.answer d).state = .validated ∨ minInitial ≤ (p.answer d).maxChal) := by
  unfold Path.onResponse
  dsimp only
  split
  · split
    · rename_i hm
      exact ⟨Path.promote_inFlight _ _, Path.promote_maxChal _ _, fun _ => Or.inr hm⟩
    · exact ⟨rfl, rfl, fun h => Or.inl h⟩
  · exact ⟨rfl, rfl, fun h => Or.inl h⟩

theorem Vrel.response (p : Path) (d : Nat) (hd : D d) (hp : p.pending d = true) : Vrel D N p (p.onResponse d).2 := by
  obtain ⟨h1, h2, h3⟩ := onResponse_cases p d
  obtain ⟨ch, hc, hcd⟩ := List.any_eq_true.mp hp
  have hcd : ch.data = d := by simpa using hcd
  refine ⟨SameId.onResponse p d, ?_, ?_, ?_, ?_⟩
  · intro x hx
    rw [h1, answer_inFlight] at hx
    exact Or.inl (List.mem_filter.mp hx).1
  · intro hs
    rw [h2, answer_maxChal] at hs
    by_cases hm : minInitial ≤ p.maxChal
    · exact Or.inl hm
    · right
      have hz : minInitial ≤ Path.sizeOf p.inFlight d := by omega
      obtain ⟨x, hx, h4, h5⟩ := sizeOf_mem p.inFlight d (by simp only [minInitial] at hz; omega)
      exact ⟨x, hx, h4 ▸ hd, by rw [h5]; exact hz⟩
  · rw [h2, answer_maxChal]; exact Nat.le_max_left _ _
  · intro hv
    rcases h3 hv with h | h
    · exact Or.inl (answer_state h)
    · exact Or.inr ⟨⟨ch, hc, hcd ▸ hd⟩, by rw [h2]; exact h⟩

theorem startMigrating_same (p : Path) : p.startMigrating.inFlight = p.inFlight ∧ p.startMigrating.maxChal = p.maxChal ∧
    p.startMigrating.state = p.state := by
  unfold Path.startMigrating Path.request
  dsimp only
  split <;> exact ⟨rfl, rfl, rfl⟩

theorem Vrel.elem : Elem (Vrel D noSend) D where
  refl p := Vrel.refl p
  trans _ _ _ h1 h2 := h1.trans h2
  dcid p _ := Vrel.quiet ⟨rfl, rfl, rfl⟩ (fun _ h => h) rfl fun h => h
  scid p _ := Vrel.quiet ⟨rfl, rfl, rfl⟩ (fun _ h => h) rfl fun h => h
  chal p d := by unfold Path.onChallenge; split <;> exact Vrel.quiet ⟨rfl, rfl, rfl⟩ (fun _ h => h) rfl fun h => h
  resp p d hd hp := Vrel.response p d hd hp
  settled p := Vrel.quiet ⟨rfl, rfl, rfl⟩ (fun _ h => h) rfl fun h => h
  act p _ := Vrel.quiet ⟨rfl, rfl, rfl⟩ (fun _ h => h) rfl fun h => h
  start p h := by
    obtain ⟨h1, h2, h3⟩ := startMigrating_same p
    exact Vrel.quiet (SameId.elem.start p h) (by rw [h1]; exact fun _ h => h) h2 (by rw [h3]; exact fun h => h)

theorem Vrel.fam : Fam (fun _ => Vrel D noSend) (fun _ => Fresh) D True where
  elem := Vrel.elem
  same _ _ _ h := h.id
  comp _ _ _ _ _ h1 h2 := h1.trans h2
  mono _ _ _ _ _ h := h
  fcomp _ _ _ _ h r := h.vrel r
  fmono _ _ _ _ h := h
  verify _ _ := Vrel.quiet ⟨rfl, rfl, rfl⟩ (fun _ h => h) rfl fun h => h
  credit _ _ _ := Vrel.quiet ⟨rfl, rfl, rfl⟩ (fun _ h => h) rfl fun h => h
  fresh _ _ _ _ _ _ := ⟨rfl, Nat.lt_of_sub_eq_succ rfl, by intro h; cases h⟩

theorem onTimeout_same (p : Path) (now rtt : Nat) (s : Bool) : (∀ ch ∈ (p.onTimeout now rtt s).inFlight, ch ∈ p.inFlight) ∧
    (p.onTimeout now rtt s).maxChal = p.maxChal ∧ ((p.onTimeout now rtt s).state = p.state ∨ (p.onTimeout now rtt s).state = .failed) := by
  unfold Path.onTimeout
  dsimp only
  split
  · exact ⟨fun ch h => (List.mem_filter.mp h).1, rfl, Or.inl rfl⟩
  · rename_i x _
    have h : (Path.countLost { p with inFlight := p.inFlight.filter fun c => !decide (c.time ≤ now) } x.time rtt).inFlight =
        p.inFlight.filter (fun c => !decide (c.time ≤ now)) ∧
        (Path.countLost { p with inFlight := p.inFlight.filter fun c => !decide (c.time ≤ now) } x.time rtt).maxChal = p.maxChal ∧
        (Path.countLost { p with inFlight := p.inFlight.filter fun c => !decide (c.time ≤ now) } x.time rtt).state = p.state := by
      unfold Path.countLost
      split
      · split <;> exact ⟨rfl, rfl, rfl⟩
      · exact ⟨rfl, rfl, rfl⟩
    obtain ⟨h1, h2, h3⟩ := h
    split
    · exact ⟨fun ch hc => by
        have hc : ch ∈ (Path.countLost { p with inFlight := p.inFlight.filter fun c => !decide (c.time ≤ now) } x.time rtt).inFlight := hc
        rw [h1] at hc; exact (List.mem_filter.mp hc).1, h2, Or.inr rfl⟩
    · exact ⟨fun ch hc => by
        have hc : ch ∈ (Path.countLost { p with inFlight := p.inFlight.filter fun c => !decide (c.time ≤ now) } x.time rtt).inFlight := hc
        rw [h1] at hc; exact (List.mem_filter.mp hc).1, h2, Or.inl h3⟩

theorem Vrel.quiets : Quiet (Vrel D noSend) Fresh where
  refl p := Vrel.refl p
  trans _ _ _ h1 h2 := h1.trans h2
  same _ _ h := h.id
  fcomp _ _ h r := h.vrel r
  dcid p _ := Vrel.quiet ⟨rfl, rfl, rfl⟩ (fun _ h => h) rfl fun h => h
  act p _ := Vrel.quiet ⟨rfl, rfl, rfl⟩ (fun _ h => h) rfl fun h => h
  start p h := Vrel.elem.start p h
  request p := Vrel.quiet ⟨rfl, rfl, rfl⟩ (fun _ h => h) rfl fun h => h
  timeout p now rtt s := by
    obtain ⟨h1, h2, h3⟩ := onTimeout_same p now rtt s
    exact Vrel.quiet (SameId.onTimeout p now rtt s) h1 h2 fun h => by
      rcases h3 with h3 | h3
      · rw [← h3]; exact h
      · rw [h3] at h; cases h
  notified p := Vrel.quiet ⟨rfl, rfl, rfl⟩ (fun _ h => h) rfl fun h => h
  fresh _ _ _ _ _ := ⟨rfl, Nat.lt_of_sub_eq_succ rfl, by intro h; cases h⟩

/-- A packet sent, and what it does to its path: the challenge in it, if any. -/
theorem sent_same (p : Path) (o : Conn.Out) (now : Nat) :
    (∀ ch ∈ (Conn.sent p o now).inFlight, ch ∈ p.inFlight ∨ (o.short = true ∧ o.chal = some ch.data ∧ ch.size = o.size ∧ ch.time = now)) ∧
    (Conn.sent p o now).maxChal = p.maxChal ∧ ((Conn.sent p o now).state = .validated → p.state = .validated) := by
  unfold Conn.sent
  dsimp only
  have h0 : (if o.short = true then { p with received := p.received.drop o.responses } else p).inFlight = p.inFlight ∧
      (if o.short = true then { p with received := p.received.drop o.responses } else p).maxChal = p.maxChal ∧
      (if o.short = true then { p with received := p.received.drop o.responses } else p).state = p.state := by
    split <;> exact ⟨rfl, rfl, rfl⟩
  generalize (if o.short = true then { p with received := p.received.drop o.responses } else p) = q at h0
  obtain ⟨h1, h2, h3⟩ := h0
  split
  · rename_i d hd
    have hs : o.short = true ∧ o.chal = some d := by
      split at hd
      · rename_i hc
        simp only [Bool.and_eq_true] at hc
        exact ⟨hc.1, hd⟩
      · cases hd
    refine ⟨?_, ?_, ?_⟩
    · intro ch hc
      unfold Path.addChallenge at hc
      dsimp only at hc
      rw [Path.promote_inFlight, h1] at hc
      rcases List.mem_append.mp hc with hc | hc
      · exact Or.inl hc
      · rw [List.mem_singleton.mp hc]
        exact Or.inr ⟨hs.1, hs.2, rfl, rfl⟩
    · show (q.addChallenge _).maxChal = _
      unfold Path.addChallenge
      dsimp only
      rw [Path.promote_maxChal, h2]
    · intro hv
      rw [← h3]
      exact Path.promote_validated (s := .validating) (by decide) hv
  · exact ⟨fun ch hc => Or.inl (h1 ▸ hc), h2, fun hv => h3 ▸ hv⟩

theorem sentAll_same (p : Path) (os : List Conn.Out) (now : Nat) :
    (∀ ch ∈ (p.sentAll os now).inFlight, ch ∈ p.inFlight ∨
      ∃ o ∈ os, o.short = true ∧ o.chal = some ch.data ∧ ch.size = o.size ∧ ch.time = now) ∧
    (p.sentAll os now).maxChal = p.maxChal ∧ ((p.sentAll os now).state = .validated → p.state = .validated) := by
  induction os generalizing p with
  | nil => exact ⟨fun ch hc => Or.inl hc, rfl, fun h => h⟩
  | cons o l ih =>
    obtain ⟨a1, a2, a3⟩ := ih (Conn.sent p o now)
    obtain ⟨b1, b2, b3⟩ := sent_same p o now
    refine ⟨?_, a2.trans b2, fun h => b3 (a3 h)⟩
    intro ch hc
    rcases a1 ch hc with h | ⟨x, hx, h⟩
    · rcases b1 ch h with h | h
      · exact Or.inl h
      · exact Or.inr ⟨o, List.mem_cons_self, h⟩
    · exact Or.inr ⟨x, List.mem_cons_of_mem _ hx, h⟩

end Verif.Path
