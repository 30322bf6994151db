import Verif.Props.C109

/-! # C113 — What is sent follows the grammar of messages -/

namespace Verif.Props.C113
open Verif Verif.H3 Verif.H3.Send Verif.Props.C109

/-- The claim, in full: calls that would break the grammar are refused, so that the frames sent on
a stream are always those of a message. -/
def Grammar : Prop := ∀ (x : X) (_ : x.Initial) (l : List Send.Act) (id : Nat) (t : Tx), id % 4 < 2 → (x.run l).s.tx id = some t →
  ∃ fs, Frames fs t.out ∧ Message (fs.map (·.1))

def server : X := { s := { isServer := true, grease := false } }

/-- Headers that are not trailers, after the body; and a body after these. -/
def interim : List Send.Act := [.opened 0 100, .entry 0, .response 0 get false (0, 0), .body 0 [1] false,
  .additional 0 get false false (0, 0), .body 0 [2] true]

theorem sent : ((server.run interim).s.tx 0).map (·.out) = some
    [0x01, 0x03, 0x00, 0x00, 0xd1, 0x00, 0x01, 1, 0x01, 0x03, 0x00, 0x00, 0xd1, 0x00, 0x01, 2] := by decide +kernel

theorem initial : server.Initial :=
  ⟨fun _ => rfl, fun _ _ => rfl, rfl, fun _ => rfl, fun _ => rfl, rfl, rfl, (fun _ h => by cases h), fun _ h => by cases h⟩

/-- The claim is false of servers. -/
theorem grammar_false : ¬ Grammar := by
  intro h
  obtain ⟨t, ht⟩ : ∃ t, (server.run interim).s.tx 0 = some t := by
    have := sent
    cases hx : (server.run interim).s.tx 0 with
    | none => rw [hx] at this; cases this
    | some t => exact ⟨t, rfl⟩
  have ho := sent
  rw [ht] at ho
  have ho : t.out = _ := Option.some.inj ho
  obtain ⟨fs, h1, a, b, c, h2, h3, h4, h5⟩ := h server initial interim 0 t (by decide) ht
  have hn : Begun none [] [] := .none fun v x y => by
    by_cases hx : x = []
    · right; rw [hx]; intro hv
      have := isVarint_pos hv
      simp at this
    · left; intro he
      exact hx (List.append_eq_nil_iff.mp he.symm).1
  have h1' : Frames [(0x01, [0x00, 0x00, 0xd1]), (0x00, [1]), (0x01, [0x00, 0x00, 0xd1]), (0x00, [2])] t.out := by
    rw [ho]
    have w1 := frames_one (wire_enc (ty := 1) (p := [0x00, 0x00, 0xd1]) (by decide) (by decide))
    have w2 := frames_one (wire_enc (ty := 0) (p := [1]) (by decide) (by decide))
    have w3 := frames_one (wire_enc (ty := 0) (p := [2]) (by decide) (by decide))
    exact frames_append w1 (frames_append w2 (frames_append w1 w3))
  have := (frames_unique h1 h1' hn hn rfl).1
  subst this
  have h2 : [1, 0, 1, 0] = List.replicate a 1 ++ List.replicate b 0 ++ List.replicate c 1 := h2
  have hlen := congrArg List.length h2
  simp at hlen
  match a, b, c with
  | 0, _, _ => obtain ⟨rfl, rfl⟩ := h3 rfl; simp at hlen
  | a + 2, _, _ => simp [List.replicate_succ] at h2
  | 1, 0, c => rw [h5 rfl] at hlen; simp at hlen
  | 1, b + 2, _ => simp [List.replicate_succ] at h2
  | 1, 1, c => omega

/-- It holds of executions in which servers send no requests, clients send no responses on their
streams, and after content no headers are sent but trailers. -/
theorem grammar_partial {x : X} (h : x.Initial) (l : List Send.Act) (hp : ∀ l1 a l2, l = l1 ++ a :: l2 → Proper (x.run l1) a)
    {id : Nat} (hb : id % 4 < 2) {t : Tx} (ht : (x.run l).s.tx id = some t) :
    ∃ fs, Frames fs t.out ∧ Message (fs.map (·.1)) := by
  have hi := run_inv (g := True) (initial_inv h) l (fun _ => hp)
  have := hi.st id (by simp [isBidi, hb])
  rw [ht] at this
  obtain ⟨fs, h1, _, _, h4⟩ := this
  refine ⟨fs, h1, ?_⟩
  show Msg (types fs)
  cases hs : t.sealed with
  | true => exact (h4 trivial).sealed hs
  | false => exact ((h4 trivial).opened hs).msg

theorem proper_client {x : X} (h : x.s.isServer = false) {l : List Send.Act} (hl : ∀ id hs fin g, Send.Act.response id hs fin g ∉ l)
    (hi : ∀ id hs fin g, Send.Act.additional id hs false fin g ∉ l) (hs : ∀ l1, (x.run l1).s.isServer = x.s.isServer) :
    ∀ l1 a l2, l = l1 ++ a :: l2 → Proper (x.run l1) a := by
  intro l1 a l2 e
  have hm : a ∈ l := by rw [e]; simp
  cases a with
  | request => exact (hs l1).trans h
  | response id hs fin g => exact absurd hm (hl _ _ _ _)
  | additional id hs trailer fin g =>
    cases trailer with
    | true => exact .inl rfl
    | false => exact absurd hm (hi _ _ _ _)
  | _ => trivial

/-! Test: a response with a body and trailers; then nothing more is accepted. -/

def all : List Send.Act := [.opened 0 100, .entry 0, .response 0 get false (0, 0), .additional 0 get false false (0, 0), .body 0 [1] false,
  .additional 0 get true false (0, 0), .body 0 [2] true, .additional 0 get true true (0, 0)]

example : (server.run all).log 0 = [.headers get, .headers get, .byte 1, .headers get] := by decide +kernel

end Verif.Props.C113
