import Verif.Props.C54
import Verif.H3.Quiet

/-! # C106 — No body bytes are left without a Data event -/

namespace Verif.Props.C106
open Verif Verif.H3 Verif.Props.C54

/-- A Data event has been given for the stream since `recv_body` last had nothing. -/
def told (id : Nat) : W → Bool → List Act → Bool
  | _, b, [] => b
  | w, b, .poll spare rs :: l =>
    told id (w.step (.poll spare rs))
      (if (w.c.poll spare (rs.filter w.used)).1 = .ok (id, .data) then true else b) l
  | w, b, .body spare i n :: l =>
    told id (w.step (.body spare i n))
      (if i = id ∧ n ≠ 0 ∧ (w.c.recvBody spare i n).1.1 = .error .done then false else b) l
  | w, b, a :: l => told id (w.step a) b l

/-- The claim, in full: if `poll` has nothing to report although it was told that the stream is
readable, and the connection is not closed, then there is nothing `recv_body` would give, or a Data
event has been given since `recv_body` last had nothing. -/
def Woken : Prop := ∀ (w : W) (_ : w.Initial) (l : List Act) (spare : Nat → Nat → Nat) (rs : List Nat) (id n k : Nat)
    (c' : C), (w.run l).c.localErr = none → id ∈ rs → (w.run l).used id = true →
    (w.run l).c.poll spare (rs.filter (w.run l).used) = (.error .done, c') →
    (c'.recvBody spare id n).1.1 = .ok k → told id w false l = true

/-- HEADERS with `:method: GET`. -/
def hd : Bytes := [0x01, 0x03, 0x00, 0x00, 0xd1]

/-- An empty DATA frame, and one with a byte. `recv_body` gives nothing for the first; then no event
comes for the second. -/
def stall : List Act := [.opened 0, .arrive 0 (hd ++ [0x00, 0x00, 0x00, 0x01, 0x2a]) false, .poll sp [0], .poll sp [0],
  .body sp 0 10]

theorem initial : server.Initial :=
  ⟨⟨fun _ => rfl, fun _ => rfl, rfl, rfl, rfl, rfl, rfl, rfl, rfl, rfl⟩, fun _ => rfl, fun _ => rfl⟩

theorem stalled : ((server.run stall).c.poll sp [0]).1 = .error .done ∧
    (((server.run stall).c.poll sp [0]).2.recvBody sp 0 10).1 = (.ok 1, [0x2a]) ∧ told 0 server false stall = false := by
  decide +kernel

/-- The claim is false. -/
theorem woken_false : ¬ Woken := by
  intro h
  have := h server initial stall sp [0] 0 10 1 ((server.run stall).c.poll sp [0]).2 (by decide +kernel) (by decide)
    (by decide +kernel) (Prod.ext (by show ((server.run stall).c.poll sp _).1 = _; decide +kernel) (by
      have : [0].filter (server.run stall).used = [0] := by decide +kernel
      rw [this])) (by decide +kernel)
  revert this
  decide +kernel

/-- What holds: when `poll` has nothing to report, a stream it was to read has no bytes left, or is of
a kind that is discarded, or its end has been reported, or it is inside a body for which a Data event
was given. And if a request stream has been read to its end, the end has been reported. -/
theorem poll_partial {w : W} (h : w.Initial) (l : List Act) {spare : Nat → Nat → Nat} {rs : List Nat} {id : Nat} {c' : C}
    (hn : (w.run l).c.localErr = none) (hid : id ∈ rs) (hu : (w.run l).used id = true)
    (hp : (w.run l).c.poll spare (rs.filter (w.run l).used) = (.error .done, c')) :
    ((c'.rx id).off < (c'.rx id).all.length → ∃ s, c'.streams id = some s ∧
      (s.state = .drain ∨ s.state = .finished ∨ s.state = .data ∧ s.dataTriggered = true)) ∧
    ((c'.rx id).finished = true → isBidi id = true → c'.finished = [] ∧ ∃ s, c'.streams id = some s ∧ s.state = .finished) := by
  obtain ⟨h1, h2⟩ := poll_done (run_inv (initial_inv h) l) hn (fun i hi => (List.mem_filter.mp hi).2) hp
  obtain ⟨q, t⟩ := h2 id (List.mem_filter.mpr ⟨hid, hu⟩)
  have hcur : ∀ st : SState, (c'.cur id).state = st → st ≠ .frameType → st ≠ .streamType → ∃ s, c'.streams id = some s ∧ s.state = st := by
    intro st e n1 n2
    cases hs : c'.streams id with
    | some s => rw [cur_some hs] at e; exact ⟨s, rfl, e⟩
    | none =>
      exfalso
      unfold C.cur at e
      rw [hs] at e
      have : (c'.fresh id).state = if isBidi id then SState.frameType else .streamType := rfl
      rw [show (none.getD (c'.fresh id)) = c'.fresh id from rfl, this] at e
      split at e
      · exact n1 e.symm
      · exact n2 e.symm
  refine ⟨fun hlt => ?_, fun hf hb => ⟨h1, hcur _ (t hf hb) (by decide) (by decide)⟩⟩
  rcases q with q | q | q | q
  · omega
  · obtain ⟨s, a, b⟩ := hcur _ q (by decide) (by decide); exact ⟨s, a, .inl b⟩
  · obtain ⟨s, a, b⟩ := hcur _ q (by decide) (by decide); exact ⟨s, a, .inr (.inl b)⟩
  · unfold C.trig at q
    cases hs : c'.streams id with
    | none => rw [hs] at q; cases q
    | some s =>
      rw [hs] at q
      simp only [Bool.and_eq_true, beq_iff_eq] at q
      exact ⟨s, rfl, .inr (.inr q)⟩

/-- What holds of `recv_body`: if it has nothing, and the stream is inside a body, all that has arrived
has been read. -/
theorem body_partial {w : W} (h : w.Initial) (l : List Act) {spare : Nat → Nat → Nat} {id n : Nat} {c' : C} {got : Bytes} {s : Strm}
    (hn : (w.run l).c.localErr = none) (hz : n ≠ 0) (hu : (w.run l).used id = true)
    (hp : (w.run l).c.recvBody spare id n = ((.error .done, got), c')) (hs : c'.streams id = some s) (hst : s.state = .data) :
    (c'.rx id).off = (c'.rx id).all.length := by
  have hi : Verif.H3.Inv _ (w.run l).c (w.run l).used (w.run l).log := run_inv (initial_inv h) l
  have hm := hi.notBroken hn hu
  refine recvBody_done hz ?_ (fun hd => ?_) hp (by rw [cur_some hs]; exact hst)
  · rcases hm with o | o
    · exact o.wf
    · exact o.wf
  · rcases hm with o | o
    · obtain ⟨k, _, m, _⟩ := o.hist
      generalize ((w.run l).c.rx id).all.take k = pre at m
      generalize (w.run l).log id = out at m
      cases m with
      | start _ h2 => rw [hd] at h2; cases h2
      | other _ h2 => rw [hd] at h2; rcases h2 with h2 | h2 <;> cases h2
      | ft _ h2 => rw [hd] at h2; cases h2
      | fl _ h2 => rw [hd] at h2; cases h2
      | fp _ h2 => rw [hd] at h2; cases h2
      | sk _ h2 => rw [hd] at h2; cases h2
      | da _ _ _ _ _ _ _ h8 => exact h8
    · rcases o.entry with e | e
      · have := e.state
        rw [hd] at this
        exact absurd this.symm (fresh_state _ _)
      · rw [hd] at e; cases e

/-! Tests: a body in two DATA frames, each with an event; and a stream inside a body, with its event given. -/

example : told 0 server false [.opened 0, .arrive 0 (hd ++ [0x00, 0x01, 0x2a]) false, .poll sp [0], .poll sp [0],
    .body sp 0 10, .body sp 0 10, .arrive 0 [0x00, 0x01, 0x2a] false, .poll sp [0]] = true := by decide +kernel

example : ((server.run [.opened 0, .arrive 0 (hd ++ [0x00, 0x01, 0x2a]) false, .poll sp [0], .poll sp [0]]).c.poll sp [0]).1 =
    .error .done := by decide +kernel

end Verif.Props.C106
