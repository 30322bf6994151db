import Verif.Props.C100
import Verif.H3.Crit
import Verif.H3.Trace

/-! # C104 — Identifiers of GOAWAY never increase -/

namespace Verif.Props.C104
open Verif Verif.H3 Verif.Props.C54

/-- The identifiers of the GOAWAY events, in order. -/
def goaways : List Res → List Nat
  | [] => []
  | .ok (g, .goAway) :: l => g :: goaways l
  | _ :: l => goaways l

theorem goaways_ok {g : Nat} {l : List Res} : goaways (.ok (g, .goAway) :: l) = g :: goaways l := rfl

theorem goaways_other {r : Res} {l : List Res} (h : ∀ g, some r ≠ some (.ok (g, .goAway))) : goaways (r :: l) = goaways l := by
  cases r with
  | error e => rfl
  | ok x =>
    obtain ⟨g, ev⟩ := x
    cases ev <;> first | rfl | exact absurd rfl (h g)

theorem polls_cons {w : W} {a : Act} {l : List Act} (h : ∀ g, w.res a ≠ some (.ok (g, .goAway))) :
    goaways (w.polls (a :: l)) = goaways ((w.step a).polls l) := by
  cases a with
  | poll spare rs => exact goaways_other h
  | _ => rfl

theorem polls_goaway {w : W} {a : Act} {l : List Act} {g : Nat} (h : w.res a = some (.ok (g, .goAway))) :
    goaways (w.polls (a :: l)) = g :: goaways ((w.step a).polls l) := by
  cases a with
  | poll spare rs =>
    have h : some (w.c.poll spare (rs.filter w.used)).1 = some (.ok (g, .goAway)) := h
    show goaways ((w.c.poll spare (rs.filter w.used)).1 :: _) = _
    rw [Option.some.inj h]
    rfl
  | body spare id n =>
    simp only [W.res] at h
    split at h
    · have h := Option.some.inj h
      unfold bodyRes at h
      split at h <;> cases h
    · cases h
  | _ => cases h

theorem run {cf : Bool × Option Nat} : ∀ {l : List Act} {w : W}, w.Inv cf → (w.c.localErr = none → ET w.c) →
    (goaways (w.polls l)).Pairwise (· ≥ ·) ∧
    (∀ g ∈ goaways (w.polls l), (∀ p, w.c.peerGoaway = some p → g ≤ p) ∧ (w.c.isServer = false → g % 4 = 0)) := by
  intro l
  induction l with
  | nil => intro w _ _; exact ⟨.nil, fun g hg => by cases hg⟩
  | cons a l ih =>
    intro w h e
    have ht := step_tr h e a
    obtain ⟨i1, i2⟩ := ih (step_inv h a) (step_et h e a)
    rcases ht.goaway with ⟨g, h1, h2, h3, h4⟩ | ⟨h1, h2⟩
    · rw [polls_goaway h1]
      refine ⟨List.pairwise_cons.mpr ⟨fun x hx => (i2 x hx).1 g h2, i1⟩, fun x hx => ?_⟩
      rcases List.mem_cons.mp hx with rfl | hx
      · exact ⟨h3, h4⟩
      · obtain ⟨q1, q2⟩ := i2 x hx
        refine ⟨fun p hp => Nat.le_trans (q1 g h2) (h3 p hp), fun hs => q2 (by rw [ht.server]; exact hs)⟩
    · rw [polls_cons h1]
      refine ⟨i1, fun x hx => ?_⟩
      obtain ⟨q1, q2⟩ := i2 x hx
      exact ⟨fun p hp => q1 p (by rw [h2]; exact hp), fun hs => q2 (by rw [ht.server]; exact hs)⟩

/-- In every execution, each GOAWAY event carries an identifier that is at most that of the one
before. -/
theorem decreasing {w : W} (h : w.Initial) (l : List Act) : (goaways (w.polls l)).Pairwise (· ≥ ·) :=
  (run (initial_inv h) (fun _ => initial_et h)).1

/-- A client gets only identifiers of request streams. -/
theorem requests {w : W} (h : w.Initial) (l : List Act) (hc : w.c.isServer = false) {g : Nat}
    (hg : g ∈ goaways (w.polls l)) : g % 4 = 0 :=
  ((run (initial_inv h) (fun _ => initial_et h)).2 g hg).2 hc

/-! Tests: two events; the third GOAWAY has a greater identifier and closes the connection with
H3_ID_ERROR. -/

def three : List Act := [.opened 3, .arrive 3 [0x00, 0x04, 0x00, 0x07, 0x01, 0x08, 0x07, 0x01, 0x04, 0x07, 0x01, 0x08] false,
  .poll sp [3], .poll sp [3], .poll sp [3]]

example : goaways (C100.client.polls three) = [8, 4] ∧ (C100.client.run three).c.localErr = some 0x108 := by
  decide +kernel

end Verif.Props.C104
