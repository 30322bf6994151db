import Verif.H3.SendStep

/-! # C109 — What is sent on a stream is frames that carry what was accepted -/

namespace Verif.Props.C109
open Verif Verif.H3 Verif.H3.Send

/-- In every execution, whatever calls fail, and however the capacity of streams changes: what was
given to the transport on a stream for requests is a sequence of whole frames, which carry the
headers and the bytes that were accepted by successful calls, in order, and nothing else; and it
has ended if and only if a call that was to end it has succeeded. -/
theorem whole {x : X} (h : x.Initial) (l : List Send.Act) {id : Nat} (hb : id % 4 < 2) {t : Tx} (ht : (x.run l).s.tx id = some t) :
    ∃ fs, Frames fs t.out ∧ Carries fs ((x.run l).log id) ∧ t.fin = (x.run l).ended id := by
  have hi := run_inv (g := False) (initial_inv h) l (fun h => h.elim)
  have := hi.st id (by simp [isBidi, hb])
  rw [ht] at this
  obtain ⟨fs, h1, h2, h3, _⟩ := this
  exact ⟨fs, h1, h2, h3⟩

/-- Nothing is accepted for a stream that does not exist. -/
theorem none {x : X} (h : x.Initial) (l : List Send.Act) {id : Nat} (hb : id % 4 < 2) (ht : (x.run l).s.tx id = none) :
    (x.run l).log id = [] ∧ (x.run l).ended id = false := by
  have hi := run_inv (g := False) (initial_inv h) l (fun h => h.elim)
  have := hi.st id (by simp [isBidi, hb])
  rw [ht] at this
  exact ⟨this.1, this.2.1⟩

/-- The number `send_body` returns is not more than it was given. -/
theorem accepted {s s' : S} {id n : Nat} {body : Bytes} {fin : Bool} (h : s.sendBody id body fin = (.ok n, s')) :
    n ≤ body.length ∧ (n = 0 → body = [] ∧ fin = true) := by
  rcases sendBody_cases h with ⟨_, h, _⟩ | ⟨m, _, h, _, _, _, _, _, _, _, _, h1, h2, _⟩
  · cases h
  · cases h
    refine ⟨h1, fun h0 => ⟨?_, (h2 h0).1⟩⟩
    have := (h2 h0).2
    exact List.length_eq_zero_iff.mp (by omega)

/-! Tests: a request with a body; the capacity is enough for two bytes, and then for the rest. -/

def client : X := { s := { isServer := false, grease := false } }

def get : List Qpack.Header := [([58, 109, 101, 116, 104, 111, 100], [71, 69, 84])]

def two : List Send.Act := [.request get false (some 9) (0, 0), .body 0 [1, 2, 3] true, .capacity 0 100, .body 0 [3] true]

theorem initial : client.Initial :=
  ⟨fun _ => rfl, fun _ _ => rfl, rfl, fun _ => rfl, fun _ => rfl, rfl, rfl, (fun _ h => by cases h), fun _ h => by cases h⟩

example : ((client.run two).s.tx 0).map (·.out) = some [0x01, 0x03, 0x00, 0x00, 0xd1, 0x00, 0x02, 1, 2, 0x00, 0x01, 3] ∧
    (client.run two).log 0 = [.headers get, .byte 1, .byte 2, .byte 3] ∧ (client.run two).ended 0 = true := by decide +kernel

/-- With frames without meaning, and a request that does not fit at first. -/
def later : List Send.Act := [.request get true (some 25) (0, 1), .capacity 0 100, .request get true Option.none (5, 6)]

example : (({ client with s := { client.s with grease := true } } : X).run later).log 0 = [.headers get] ∧
    ((({ client with s := { client.s with grease := true } } : X).run later).s.tx 0).map (·.out.length) = some 28 := by decide +kernel

end Verif.Props.C109
