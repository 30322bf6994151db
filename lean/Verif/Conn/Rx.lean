import Verif.Conn.Tx
import Verif.Stream.RecvHist

/-! The receiving side of a connection. -/

namespace Verif.Conn
open Verif Verif.Stream

/-- The receiving state of a live stream. -/
structure RecvOk (s : Stream) : Prop where
  inv : RecvBuf.RInv s.recv
  win : s.recv.flowControl.window ≤ s.recv.flowControl.maxWindow
  uni : s.bidi = false → s.local' = true → s.recv.len = 0

/-- Received but neither read nor abandoned. -/
def held (s : Stream) : Nat := s.recv.len - s.recv.off

/-- The next limit to advertise for the stream is no lower than the current one. -/
def Raises (f : FlowControl) : Prop := f.maxData ≤ f.consumed + f.window

/-- The receiving side: `H` is the highest offset received per stream. -/
structure Rx (L G : List (Nat × Stream)) (rx : Nat) (fc : FlowControl) (smd : Bool) (af : List Nat)
    (frames : List Frame) (H : Nat → Nat) (clean : Bool) : Prop where
  live : ∀ id s, Assoc.get L id = some s → RecvOk s
  le : fc.consumed + Assoc.sum held L ≤ rx
  eq : clean = true → fc.consumed + Assoc.sum held L = rx
  lim : rx ≤ fc.maxData
  win : fc.window ≤ fc.maxWindow
  md : (smd = true ∨ .maxData ∈ frames) → Raises fc
  msd : ∀ id, (id ∈ af ∨ .maxStreamData id ∈ frames) →
    (∀ s, Assoc.get L id = some s → Raises s.recv.flowControl) ∧
    (Assoc.get L id = none → ∃ s, Assoc.get G id = some s)
  hi : ∀ id s, Assoc.get L id = some s → s.recv.len ≤ H id
  hs : ∀ ids : List Nat, ids.Nodup → (ids.map H).sum ≤ rx

theorem sum_upd {H : Nat → Nat} {id v : Nat} (hv : H id ≤ v) (ids : List Nat) (hn : ids.Nodup) :
    (ids.map (upd H id v)).sum + H id ≤ (ids.map H).sum + v := by
  induction ids with
  | nil => simpa using hv
  | cons i t ih =>
    have hn' := List.nodup_cons.mp hn
    simp only [List.map_cons, List.sum_cons]
    by_cases e : i = id
    · subst e
      have : t.map (upd H i v) = t.map H := by
        apply List.map_congr_left
        intro j hj
        have : j ≠ i := fun e => hn'.1 (e ▸ hj)
        simp [upd, this]
      rw [this]
      simp only [upd, if_true]; omega
    · have := ih hn'.2
      simp only [upd, e, if_false] at this ⊢
      have e2 : (fun j => if j = id then v else H j) = upd H id v := rfl
      simp only [e2] at *
      omega

section
variable {L G : List (Nat × Stream)} {rx : Nat} {fc : FlowControl} {smd : Bool} {af : List Nat}
  {fs : List Frame} {H : Nat → Nat} {clean : Bool}

/-- A stream changes. -/
theorem Rx.put (h : Rx L G rx fc smd af fs H clean) {id : Nat} {s s' : Stream} (hg : Assoc.get L id = some s)
    (hs : RecvOk s') {rx' : Nat} {fc' : FlowControl} {smd' : Bool} {af' : List Nat} {fs' : List Frame}
    {v : Nat} {clean' : Bool}
    (hv : H id ≤ v) (hv2 : rx + v ≤ rx' + H id) (hlen : s'.recv.len ≤ v)
    (hle : fc'.consumed + held s' + rx ≤ fc.consumed + held s + rx')
    (heq : clean' = true → clean = true ∧ fc'.consumed + held s' + rx = fc.consumed + held s + rx')
    (hlim : rx' ≤ fc'.maxData) (hwin : fc'.window ≤ fc'.maxWindow)
    (hmd : (smd' = true ∨ .maxData ∈ fs') → Raises fc')
    (hm : (id ∈ af' ∨ .maxStreamData id ∈ fs') → Raises s'.recv.flowControl)
    (haf : ∀ i ∈ af', i = id ∨ i ∈ af) (hfr : ∀ i, .maxStreamData i ∈ fs' → i = id ∨ .maxStreamData i ∈ fs) :
    Rx (Assoc.put L id s') G rx' fc' smd' af' fs' (upd H id v) clean' := by
  have h1 := Assoc.sum_put_of_get hg held s'
  refine ⟨?_, ?_, ?_, hlim, hwin, hmd, ?_, ?_, ?_⟩
  · intro i x hx
    rw [Assoc.get_put] at hx
    split at hx
    · obtain rfl := Option.some.inj hx; exact hs
    · exact h.live i x hx
  · have := h.le; omega
  · intro hc; have := h.eq (heq hc).1; have := (heq hc).2; omega
  · intro i hi
    rw [Assoc.get_put]
    by_cases e : id = i
    · subst e; simp only [if_true]; exact ⟨fun x hx => Option.some.inj hx ▸ hm hi, fun hx => by simp at hx⟩
    · rw [if_neg e]
      apply h.msd
      rcases hi with hi | hi
      · rcases haf i hi with h2 | h2
        · exact absurd h2.symm e
        · exact .inl h2
      · rcases hfr i hi with h2 | h2
        · exact absurd h2.symm e
        · exact .inr h2
  · intro i x hx
    rw [Assoc.get_put] at hx
    split at hx
    · next e => obtain rfl := Option.some.inj hx; subst e; simpa [upd] using hlen
    · next e => simp only [upd]; rw [if_neg (fun e' => e e'.symm)]; exact h.hi i x hx
  · intro ids hn
    have h2 := h.hs ids hn
    have h3 := sum_upd hv ids hn
    omega

/-- A stream changes without effect on what it has received. -/
theorem Rx.put_same (h : Rx L G rx fc smd af fs H clean) {id : Nat} {s s' : Stream}
    (hg : Assoc.get L id = some s) (hs : s'.recv = s.recv) (hb : s'.bidi = s.bidi)
    (hl : s'.local' = s.local') {fs' : List Frame}
    (hf1 : .maxData ∈ fs' → .maxData ∈ fs)
    (hf2 : ∀ i, .maxStreamData i ∈ fs' → .maxStreamData i ∈ fs) :
    Rx (Assoc.put L id s') G rx fc smd af fs' H clean := by
  have h0 := h.live id s hg
  have hh : held s' = held s := by unfold held; rw [hs]
  have h1 := h.put hg (s' := s') (rx' := rx) (fc' := fc) (smd' := smd) (af' := af) (fs' := fs') (v := H id)
    (clean' := clean) ⟨hs ▸ h0.inv, hs ▸ h0.win, hs ▸ hb ▸ hl ▸ h0.uni⟩ (Nat.le_refl _) (Nat.le_refl _)
    (hs ▸ h.hi id s hg) (by rw [hh]; omega) (fun hc => ⟨hc, by rw [hh]⟩) h.lim h.win
    (fun hc => h.md (hc.imp (fun x => x) hf1))
    (fun hc => by rw [hs]; exact (h.msd id (hc.imp (fun x => x) (hf2 id))).1 s hg)
    (fun i hi => .inr hi) (fun i hi => .inr (hf2 i hi))
  rwa [upd_self] at h1

/-- Other frames and limits. -/
theorem Rx.frames (h : Rx L G rx fc smd af fs H clean) {fs' : List Frame} {smd' : Bool} {af' : List Nat}
    (hf1 : (smd' = true ∨ .maxData ∈ fs') → (smd = true ∨ .maxData ∈ fs))
    (hf2 : ∀ i, (i ∈ af' ∨ .maxStreamData i ∈ fs') → (i ∈ af ∨ .maxStreamData i ∈ fs)) :
    Rx L G rx fc smd' af' fs' H clean :=
  ⟨h.live, h.le, h.eq, h.lim, h.win, fun hc => h.md (hf1 hc), fun i hi => h.msd i (hf2 i hi), h.hi, h.hs⟩

theorem RecvOk.done {s : Stream} (h : RecvOk s) (hc : s.isComplete = true) : held s = 0 := by
  unfold Stream.isComplete at hc
  have hfin : s.recv.isFin = true → held s = 0 := by
    intro hf
    simp only [RecvBuf.isFin, beq_iff_eq] at hf
    have := h.inv.fin _ hf
    unfold held; omega
  split at hc
  · simp only [Bool.and_eq_true] at hc; exact hfin hc.1
  · next h1 h2 => have := h.uni h1 h2; unfold held; omega
  · exact hfin hc

/-- A complete stream is collected. -/
theorem Rx.collect (h : Rx L G rx fc smd af fs H clean) (hn : (Assoc.keys L).Nodup) {id : Nat} {s : Stream}
    (hg : Assoc.get L id = some s) (hc : s.isComplete = true) :
    Rx (Assoc.del L id) (Assoc.put G id s) rx fc smd af fs H clean := by
  have h0 := (h.live id s hg).done hc
  have h1 := Assoc.sum_del_of_get hg held
  have hl : ∀ i x, Assoc.get (Assoc.del L id) i = some x → Assoc.get L i = some x := by
    intro i x hx
    by_cases e : i = id
    · subst e; rw [Assoc.get_del_self hn] at hx; simp at hx
    · rwa [Assoc.get_del_ne _ e] at hx
  refine ⟨fun i x hx => h.live i x (hl i x hx), ?_, ?_, h.lim, h.win, h.md, ?_,
    fun i x hx => h.hi i x (hl i x hx), h.hs⟩
  · have := h.le; omega
  · intro hc; have := h.eq hc; omega
  · intro i hi
    have h2 := h.msd i hi
    refine ⟨fun x hx => h2.1 x (hl i x hx), ?_⟩
    rw [Assoc.get_put]
    split
    · intro _; exact ⟨s, rfl⟩
    · next e => rw [Assoc.get_del_ne _ (fun e' => e e'.symm)]; exact h2.2

/-- A stream is created. -/
theorem Rx.create (h : Rx L G rx fc smd af fs H clean) {id : Nat} {s : Stream} (hl : Assoc.get L id = none)
    (hG : Assoc.get G id = none) {m w mw : Nat} (hs : s.recv = .new m w mw) :
    Rx (Assoc.put L id s) G rx fc smd af fs H clean := by
  have h1 := Assoc.sum_put_of_none hl held s
  have hr := RecvBuf.rinv_new m w mw
  have h0 : held s = 0 := by unfold held; rw [hs]; rfl
  refine ⟨?_, ?_, ?_, h.lim, h.win, h.md, ?_, ?_, h.hs⟩
  · intro i x hx
    rw [Assoc.get_put] at hx
    split at hx
    · obtain rfl := Option.some.inj hx
      refine ⟨hs ▸ hr, ?_, fun _ _ => by rw [hs]; rfl⟩
      rw [hs]; simp only [RecvBuf.new, FlowControl.new]; omega
    · exact h.live i x hx
  · have := h.le; omega
  · intro hc; have := h.eq hc; omega
  · intro i hi
    have h2 := h.msd i hi
    rw [Assoc.get_put]
    split
    · next e => subst e; obtain ⟨x, hx⟩ := h2.2 hl; rw [hG] at hx; simp at hx
    · exact h2
  · intro i x hx
    rw [Assoc.get_put] at hx
    split at hx
    · obtain rfl := Option.some.inj hx; rw [hs]; exact Nat.zero_le _
    · exact h.hi i x hx

end
end Verif.Conn
