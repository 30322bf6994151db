import Verif.Path.Valid

/-!
The credit of a path: how what a server may send before the address of its peer is
verified changes.
-/

namespace Verif.Path
open Verif
open Verif.Cid (Ids Err Entry Deque)

variable {c c' c'' : Conn}

/-- A path before and after, when its addresses got credit `k`. -/
def Crel (k : Amt) (p q : Path) : Prop :=
  SameId p q ∧ (q.verified = false → p.verified = false ∧ q.maxSend ≤ p.maxSend + k (p.laddr, p.paddr))

/-- A path made with credit `k`. -/
def Cnew (k : Amt) (q : Path) : Prop := q.verified = false → q.maxSend ≤ k (q.laddr, q.paddr)

theorem Crel.quiet {k : Amt} {p q : Path} (h0 : SameId p q) (h1 : q.maxSend = p.maxSend) (h2 : q.verified = false → p.verified = false) : Crel k p q :=
  ⟨h0, fun h => ⟨h2 h, by omega⟩⟩

theorem Crel.comp {j k : Amt} {p q r : Path} (h1 : Crel j p q) (h2 : Crel k q r) : Crel (j.add k) p r := by
  refine ⟨h1.1.trans h2.1, fun hv => ?_⟩
  obtain ⟨a1, a2⟩ := h2.2 hv
  obtain ⟨b1, b2⟩ := h1.2 a1
  rw [h1.1.2.1, h1.1.2.2] at a2
  refine ⟨b1, ?_⟩
  simp only [Amt.add]
  omega

theorem onResponse_verified (p : Path) (d : Nat) : (p.onResponse d).2.verified = true := by
  have h : (p.answer d).verified = true := by
    unfold Path.answer
    dsimp only
    obtain ⟨s, hs⟩ := Path.promote_frame { p with verified := true, probingLost := 0, inFlight := p.inFlight.filter (·.data != d) } .validatingMtu
    rw [hs]
  unfold Path.onResponse
  dsimp only
  split
  · split
    · obtain ⟨s, hs⟩ := Path.promote_frame (p.answer d) .validated
      rw [hs]; exact h
    · exact h
  · exact h

theorem startMigrating_send (p : Path) : p.startMigrating.maxSend = p.maxSend ∧ p.startMigrating.verified = p.verified := by
  unfold Path.startMigrating Path.request
  dsimp only
  split <;> exact ⟨rfl, rfl⟩

theorem onTimeout_send (p : Path) (now rtt : Nat) (s : Bool) : (p.onTimeout now rtt s).maxSend = p.maxSend ∧
    (p.onTimeout now rtt s).verified = p.verified := by
  unfold Path.onTimeout
  dsimp only
  split
  · exact ⟨rfl, rfl⟩
  · rename_i x _
    have h : (Path.countLost { p with inFlight := p.inFlight.filter fun c => !decide (c.time ≤ now) } x.time rtt).maxSend = p.maxSend ∧
        (Path.countLost { p with inFlight := p.inFlight.filter fun c => !decide (c.time ≤ now) } x.time rtt).verified = p.verified := by
      unfold Path.countLost
      split
      · split <;> exact ⟨rfl, rfl⟩
      · exact ⟨rfl, rfl⟩
    split
    · exact h
    · exact h

theorem Crel.elem : Elem (Crel Amt.zero) (fun _ => True) where
  refl p := Crel.quiet ⟨rfl, rfl, rfl⟩ rfl fun h => h
  trans _ _ _ h1 h2 := by have := h1.comp h2; rwa [Amt.add_zero] at this
  dcid p _ := Crel.quiet ⟨rfl, rfl, rfl⟩ rfl fun h => h
  scid p _ := Crel.quiet ⟨rfl, rfl, rfl⟩ rfl fun h => h
  chal p d := by unfold Path.onChallenge; split <;> exact Crel.quiet ⟨rfl, rfl, rfl⟩ rfl fun h => h
  resp p d _ _ := ⟨SameId.onResponse p d, fun h => by rw [onResponse_verified] at h; cases h⟩
  settled p := Crel.quiet ⟨rfl, rfl, rfl⟩ rfl fun h => h
  act p _ := Crel.quiet ⟨rfl, rfl, rfl⟩ rfl fun h => h
  start p h := by
    obtain ⟨h1, h2⟩ := startMigrating_send p
    exact Crel.quiet (SameId.elem.start p h) h1 (by rw [h2]; exact fun h => h)

theorem Crel.fam : Fam Crel Cnew (fun _ => True) True where
  elem := Crel.elem
  same _ _ _ h := h.1
  comp _ _ _ _ _ h1 h2 := h1.comp h2
  mono j k p q h r := ⟨r.1, fun hv => by
    obtain ⟨a, b⟩ := r.2 hv
    have := h (p.laddr, p.paddr)
    exact ⟨a, by omega⟩⟩
  fcomp j k p q h r := fun hv => by
    obtain ⟨a, b⟩ := r.2 hv
    have := h a
    rw [r.1.2.1, r.1.2.2]
    simp only [Amt.add]
    omega
  fmono j k p h f := fun hv => Nat.le_trans (f hv) (h _)
  verify _ p := ⟨⟨rfl, rfl, rfl⟩, fun h => by cases h⟩
  credit p n hv := ⟨⟨rfl, rfl, rfl⟩, fun _ => ⟨hv, by simp [Amt.one]⟩⟩
  fresh uid l p rm n s := fun _ => by
    show n ≤ Amt.one (l, p) n (l, p)
    simp [Amt.one]

theorem Crel.quiets : Quiet (Crel Amt.zero) (Cnew Amt.zero) where
  refl p := Crel.elem.refl p
  trans := Crel.elem.trans
  same _ _ h := h.1
  fcomp p q h r := by have := Crel.fam.fcomp Amt.zero Amt.zero p q h r; rwa [Amt.add_zero] at this
  dcid := Crel.elem.dcid
  act := Crel.elem.act
  start := Crel.elem.start
  request p := Crel.quiet ⟨rfl, rfl, rfl⟩ rfl fun h => h
  timeout p now rtt s := by
    obtain ⟨h1, h2⟩ := onTimeout_send p now rtt s
    exact Crel.quiet (SameId.onTimeout p now rtt s) h1 (by rw [h2]; exact fun h => h)
  notified p := Crel.quiet ⟨rfl, rfl, rfl⟩ rfl fun h => h
  fresh uid l p rm d := fun _ => Nat.le_refl 0

theorem sent_send (p : Path) (o : Conn.Out) (now : Nat) : (Conn.sent p o now).maxSend = p.maxSend - o.size ∧ (Conn.sent p o now).verified = p.verified := by
  unfold Conn.sent
  dsimp only
  have h0 : (if o.short = true then { p with received := p.received.drop o.responses } else p).maxSend = p.maxSend ∧
      (if o.short = true then { p with received := p.received.drop o.responses } else p).verified = p.verified := by
    split <;> exact ⟨rfl, rfl⟩
  generalize (if o.short = true then { p with received := p.received.drop o.responses } else p) = q at h0
  obtain ⟨h1, h2⟩ := h0
  split
  · rename_i d _
    have : (q.addChallenge { data := d, size := o.size, time := now }).maxSend = q.maxSend ∧
        (q.addChallenge { data := d, size := o.size, time := now }).verified = q.verified := by
      unfold Path.addChallenge
      dsimp only
      obtain ⟨s, hs⟩ := Path.promote_frame q .validating
      rw [hs]
      exact ⟨rfl, rfl⟩
    rw [this.1, this.2, h1, h2]
    exact ⟨rfl, rfl⟩
  · rw [h1, h2]
    exact ⟨rfl, rfl⟩

theorem sentAll_send (p : Path) (os : List Conn.Out) (now : Nat) : (p.sentAll os now).maxSend = p.maxSend - (os.map (·.size)).sum ∧
    (p.sentAll os now).verified = p.verified := by
  induction os generalizing p with
  | nil => exact ⟨rfl, rfl⟩
  | cons o l ih =>
    obtain ⟨a1, a2⟩ := ih (Conn.sent p o now)
    obtain ⟨b1, b2⟩ := sent_send p o now
    have e : p.sentAll (o :: l) now = (Conn.sent p o now).sentAll l now := rfl
    rw [e, a1, a2, b1, b2, List.map_cons, List.sum_cons]
    exact ⟨by omega, rfl⟩

/-- How the address of a peer becomes verified: `V` if a Handshake packet was received, or
by the answer to a challenge. -/
structure Orel (D : Nat → Prop) (V : Prop) (p q : Path) : Prop where
  id : SameId p q
  flight : ∀ ch ∈ q.inFlight, ch ∈ p.inFlight
  verified : q.verified = true → p.verified = true ∨ V ∨ ∃ ch ∈ p.inFlight, D ch.data

structure Onew (V : Prop) (q : Path) : Prop where
  flight : q.inFlight = []
  verified : q.verified = true → V

variable {D : Nat → Prop} {V : Prop}

theorem Orel.quiet {p q : Path} (h0 : SameId p q) (h1 : ∀ ch ∈ q.inFlight, ch ∈ p.inFlight) (h2 : q.verified = p.verified) : Orel D V p q :=
  ⟨h0, h1, fun h => Or.inl (h2 ▸ h)⟩

theorem Orel.trans {p q r : Path} (h1 : Orel D V p q) (h2 : Orel D V q r) : Orel D V p r :=
  ⟨h1.id.trans h2.id, fun ch hc => h1.flight ch (h2.flight ch hc), fun hv => by
    rcases h2.verified hv with h | h | ⟨ch, hc, hd⟩
    · exact h1.verified h
    · exact Or.inr (Or.inl h)
    · exact Or.inr (Or.inr ⟨ch, h1.flight ch hc, hd⟩)⟩

theorem Onew.orel {p q : Path} (h : Onew V p) (r : Orel D V p q) : Onew V q := by
  have hn : ∀ ch ∈ p.inFlight, False := by intro ch hc; rw [h.flight] at hc; cases hc
  refine ⟨?_, fun hv => ?_⟩
  · cases hq : q.inFlight with
    | nil => rfl
    | cons ch l => exact (hn ch (r.flight ch (by rw [hq]; exact List.mem_cons_self))).elim
  · rcases r.verified hv with h' | h' | ⟨ch, hc, _⟩
    · exact h.verified h'
    · exact h'
    · exact (hn ch hc).elim

theorem Orel.elem : Elem (Orel D V) D where
  refl p := Orel.quiet ⟨rfl, rfl, rfl⟩ (fun _ h => h) rfl
  trans _ _ _ h1 h2 := h1.trans h2
  dcid p _ := Orel.quiet ⟨rfl, rfl, rfl⟩ (fun _ h => h) rfl
  scid p _ := Orel.quiet ⟨rfl, rfl, rfl⟩ (fun _ h => h) rfl
  chal p d := by unfold Path.onChallenge; split <;> exact Orel.quiet ⟨rfl, rfl, rfl⟩ (fun _ h => h) rfl
  resp p d hd hp := by
    obtain ⟨ch, hc, hcd⟩ := List.any_eq_true.mp hp
    have hcd : ch.data = d := by simpa using hcd
    refine ⟨SameId.onResponse p d, fun x hx => ?_, fun _ => Or.inr (Or.inr ⟨ch, hc, hcd ▸ hd⟩)⟩
    rw [(onResponse_cases p d).1, answer_inFlight] at hx
    exact (List.mem_filter.mp hx).1
  settled p := Orel.quiet ⟨rfl, rfl, rfl⟩ (fun _ h => h) rfl
  act p _ := Orel.quiet ⟨rfl, rfl, rfl⟩ (fun _ h => h) rfl
  start p h := Orel.quiet (SameId.elem.start p h) (by rw [(startMigrating_same p).1]; exact fun _ h => h) (startMigrating_send p).2

theorem Orel.fam : Fam (fun _ => Orel D V) (fun _ => Onew V) D V where
  elem := Orel.elem
  same _ _ _ h := h.id
  comp _ _ _ _ _ h1 h2 := h1.trans h2
  mono _ _ _ _ _ h := h
  fcomp _ _ _ _ h r := h.orel r
  fmono _ _ _ _ h := h
  verify hv p := ⟨⟨rfl, rfl, rfl⟩, fun _ h => h, fun _ => Or.inr (Or.inl hv)⟩
  credit _ _ _ := Orel.quiet ⟨rfl, rfl, rfl⟩ (fun _ h => h) rfl
  fresh _ _ _ _ _ _ := ⟨rfl, fun h => by cases h⟩

theorem Orel.quiets : Quiet (Orel D V) (Onew V) where
  refl p := Orel.elem.refl p
  trans _ _ _ h1 h2 := h1.trans h2
  same _ _ h := h.id
  fcomp _ _ h r := h.orel r
  dcid := Orel.elem.dcid
  act := Orel.elem.act
  start := Orel.elem.start
  request p := Orel.quiet ⟨rfl, rfl, rfl⟩ (fun _ h => h) rfl
  timeout p now rtt s := Orel.quiet (SameId.onTimeout p now rtt s) (onTimeout_same p now rtt s).1 (onTimeout_send p now rtt s).2
  notified p := Orel.quiet ⟨rfl, rfl, rfl⟩ (fun _ h => h) rfl
  fresh _ _ _ _ _ := ⟨rfl, fun h => by cases h⟩

end Verif.Path
