import Verif.Props.C54
import Verif.H3.Crit

/-! # C103 — Critical streams are unique and must not be closed -/

namespace Verif.Props.C103
open Verif Verif.H3 Verif.Props.C54

/-- What has been read from the stream begins with the integer `v`. The stream was not reset. -/
def Begins (c : C) (id v : Nat) : Prop :=
  (c.rx id).err = none ∧ ∃ b y, (c.rx id).all.take (c.rx id).off = b ++ y ∧ IsVarint v b

/-- The peer's stream has come to its end or was reset, and nothing is left to read. -/
def Ended (c : C) (id : Nat) : Prop := (c.rx id).fin = true ∧ (c.rx id).off = (c.rx id).all.length

/-- The types of control streams and of QPACK streams (RFC 9114, section 6.2; RFC 9204, section
4.2). -/
def critical : List Nat := [0x00, 0x02, 0x03]

theorem roles {w : W} (h : w.Initial) (l : List Act) (hn : (w.run l).c.localErr = none) {id v : Nat}
    (hi : ¬ id % 4 < 2) (hb : Begins (w.run l).c id v) : Roles (w.run l).c id v := by
  have he := run_et (initial_inv h) (fun _ => initial_et h) l hn
  obtain ⟨h1, b, y, h2, h3⟩ := hb
  exact he.typed id (by simp [isBidi]; omega) h1 v b y h2 h3

/-- In every execution, as long as the connection is not closed because of an error, not more than
one stream of each critical type has been accepted. -/
theorem unique {w : W} (h : w.Initial) (l : List Act) (hn : (w.run l).c.localErr = none) {v i j : Nat}
    (hv : v ∈ critical) (hi : ¬ i % 4 < 2) (hj : ¬ j % 4 < 2)
    (hbi : Begins (w.run l).c i v) (hbj : Begins (w.run l).c j v) : i = j := by
  have q1 := roles h l hn hi hbi
  have q2 := roles h l hn hj hbj
  simp only [critical, List.mem_cons, List.not_mem_nil, or_false] at hv
  rcases hv with e | e | e
  · have := q1.2.1 e; rw [q2.2.1 e] at this; cases this; rfl
  · have := q1.2.2.1 e; rw [q2.2.2.1 e] at this; cases this; rfl
  · have := q1.2.2.2 e; rw [q2.2.2.2 e] at this; cases this; rfl

/-- Nor is a push stream ever accepted. -/
theorem push {w : W} (h : w.Initial) (l : List Act) (hn : (w.run l).c.localErr = none) {id : Nat}
    (hi : ¬ id % 4 < 2) : ¬ Begins (w.run l).c id 0x01 :=
  fun hb => (roles h l hn hi hb).1 rfl

theorem ended_finished {c : C} {id : Nat} (h : Ended c id) : (c.rx id).finished = true := by
  unfold Rx.finished
  simp [h.1, h.2]

theorem control_ended {spare : Nat → Nat → Nat} {c : C} {sel : C → Option Nat} {k : C → Res × C} {id : Nat}
    (hd : c.dead = false) (hn : c.localErr = none) (hs : sel c = some id) (he : (c.rx id).finished = true) :
    (C.control spare sel k c).1 = .error .closedCriticalStream ∧ (C.control spare sel k c).2.localErr = some 0x104 := by
  have : C.processControl spare c id = (.error .closedCriticalStream, { c with localErr := some 0x104 }) := by
    unfold C.processControl
    rw [if_pos he]
    unfold resFailed C.failCritical C.fail C.closeWith C.close
    rw [hd, hn]; rfl
  unfold C.control
  rw [hs]
  dsimp only
  rw [this]
  exact ⟨rfl, rfl⟩

theorem role_later {w : W} (h : w.Initial) (l l' : List Act) {id v : Nat} (hi : ¬ id % 4 < 2)
    (hb : Begins (w.run l).c id v) (hn : (w.run (l ++ l')).c.localErr = none) :
    Roles (w.run (l ++ l')).c id v := by
  have hrun : w.run (l ++ l') = (w.run l).run l' := by unfold W.run; rw [List.foldl_append]
  have h1 := run_inv (initial_inv h) l
  have h2 : (w.run l).c.localErr = none → ET (w.run l).c := run_et (initial_inv h) (fun _ => initial_et h) l
  obtain ⟨r1, r2⟩ := run_role h1 h2 l'
  rw [hrun] at hn ⊢
  have hn1 : (w.run l).c.localErr = none := by
    cases hc : (w.run l).c.localErr with
    | none => rfl
    | some x =>
      have := r2 (by rw [hc]; rfl)
      rw [hn, hc] at this; cases this
  exact (roles h l hn1 hi hb).mono r1

/-- The control stream of the peer comes to its end, or is reset: the next `poll` closes the
connection with H3_CLOSED_CRITICAL_STREAM. -/
theorem closed_control {w : W} (h : w.Initial) (l l' : List Act) {id : Nat} (hi : ¬ id % 4 < 2)
    (hb : Begins (w.run l).c id 0x00) (hn : (w.run (l ++ l')).c.localErr = none)
    (he : Ended (w.run (l ++ l')).c id) (spare : Nat → Nat → Nat) (rs : List Nat) :
    ((w.run (l ++ l')).c.poll spare rs).1 = .error .closedCriticalStream ∧
      ((w.run (l ++ l')).c.poll spare rs).2.localErr = some 0x104 := by
  have hr := role_later h l l' hi hb hn
  have hd := (run_inv (initial_inv h) (l ++ l')).dead
  unfold C.poll
  rw [hn, if_neg (by decide)]
  exact control_ended hd hn (hr.2.1 rfl) (ended_finished he)

/-- The continuation returns something else than `Done` whenever a stream has ended. -/
def Stops (cf : Bool × Option Nat) (used : Nat → Bool) (log : Nat → List Out) (sel : C → Option Nat) (id : Nat)
    (k : C → Res × C) : Prop :=
  ∀ c, Inv cf c used log → c.localErr = none → sel c = some id → (c.rx id).finished = true → (k c).1 ≠ .error .done

theorem stops_here {cf : Bool × Option Nat} {used : Nat → Bool} {log : Nat → List Out} {sel : C → Option Nat} {id : Nat}
    {spare : Nat → Nat → Nat} {k : C → Res × C} : Stops cf used log sel id (C.control spare sel k) := by
  intro c h hn hs hf
  rw [(control_ended h.dead hn hs hf).1]
  simp

theorem stops_later {cf : Bool × Option Nat} {used : Nat → Bool} {log : Nat → List Out} {sel sel' : C → Option Nat} {id : Nat}
    {spare : Nat → Nat → Nat} {k : C → Res × C} {t : Ty} (hsel : ∀ c, sel c = c.role t)
    (hk : Stops cf used log sel id k) : Stops cf used log sel id (C.control spare sel' k) := by
  intro c h hn hs hf
  unfold C.control
  split
  · exact hk c h hn hs hf
  · rename_i j hj
    cases hx : c.processControl spare j with
    | mk r1 c1 =>
    by_cases hr : r1 = .error .done
    · subst hr
      dsimp only
      rcases processControl_inv h hn hx with ⟨_, h1, h2⟩ | ⟨h1, _⟩
      · -- roles and ends of streams stay
        have hu : c1.role t = some id := by
          unfold C.processControl at hx
          split at hx
          · exfalso
            unfold resFailed C.failCritical C.fail C.closeWith C.close at hx
            rw [h.dead, hn] at hx
            cases hx
          split at hx
          · cases hx; rw [← hsel]; exact hs
          · cases hy : c.processStream spare true j with
            | mk r2 c2 =>
            have ht := processStream_tr (spare := spare) (polling := true) (id := j) h.dead
            rw [hy] at ht hx
            have hc : c2.role t = some id := ht.role t id (by rw [← hsel]; exact hs)
            split at hx
            · rename_i c3 he
              cases he
              split at hx
              · exfalso
                have hn2 : c2.localErr = none := ht.done.code hn
                unfold resFailed C.failCritical C.fail C.closeWith C.close at hx
                rw [ht.dead, hn2] at hx
                cases hx
              · cases hx; exact hc
            · cases hx; exact hc
        have hf1 : (c1.rx id).finished = true := by
          unfold C.processControl at hx
          split at hx
          · unfold resFailed C.failCritical C.fail C.closeWith C.close at hx
            rw [h.dead, hn] at hx
            cases hx
          rename_i hjf
          have hji : j ≠ id := fun e => by subst e; exact hjf hf
          have hu : used j = true := by
            rcases h.mode j with ⟨_, o⟩ | ⟨a, _⟩
            · rw [o.rx] at hjf; exact absurd rfl hjf
            · exact a
          split at hx
          · cases hx; exact hf
          · cases hy : c.processStream spare true j with
            | mk r2 c2 =>
            have hrx : c2.rx id = c.rx id := by
              rcases h.notBroken hn hu with o | o
              · exact (processStream_ok h.dead (fun _ => hn) o hy).eff.rx id (Ne.symm hji)
              · exact (processStream_closed o hy).1.rx id (Ne.symm hji)
            have ht := processStream_tr (spare := spare) (polling := true) (id := j) h.dead
            rw [hy] at ht hx
            split at hx
            · rename_i c3 he
              cases he
              split at hx
              · have hn2 : c2.localErr = none := ht.done.code hn
                unfold resFailed C.failCritical C.fail C.closeWith C.close at hx
                rw [ht.dead, hn2] at hx
                cases hx
              · cases hx; rw [hrx]; exact hf
            · cases hx; rw [hrx]; exact hf
        exact hk c1 h1 h2 (by rw [hsel]; exact hu) hf1
      · exact absurd rfl h1
    · split
      · rename_i he; cases he; exact absurd rfl hr
      · exact hr

/-- A QPACK stream of the peer comes to its end, or is reset: `poll` does not return `Done` before
the connection is closed. -/
theorem closed_qpack {w : W} (h : w.Initial) (l l' : List Act) {id v : Nat} (hi : ¬ id % 4 < 2)
    (hv : v = 0x02 ∨ v = 0x03)
    (hb : Begins (w.run l).c id v) (hn : (w.run (l ++ l')).c.localErr = none)
    (he : Ended (w.run (l ++ l')).c id) (spare : Nat → Nat → Nat) (rs : List Nat) :
    ((w.run (l ++ l')).c.poll spare rs).1 ≠ .error .done := by
  have hr := role_later h l l' hi hb hn
  have hinv := run_inv (initial_inv h) (l ++ l')
  unfold C.poll
  rw [hn, if_neg (by decide)]
  rcases hv with rfl | rfl
  · exact stops_later (sel := (·.peerEnc)) (t := .qpackEncoder) (fun _ => rfl) stops_here _ hinv hn (hr.2.2.1 rfl) (ended_finished he)
  · exact stops_later (sel := (·.peerDec)) (t := .qpackDecoder) (fun _ => rfl)
      (stops_later (sel := (·.peerDec)) (t := .qpackDecoder) (fun _ => rfl) stops_here) _ hinv hn (hr.2.2.2 rfl) (ended_finished he)

/-! Tests: a control stream that ends; two control streams; a push stream. -/

def open2 : W := server.run [.opened 2, .arrive 2 [0x00, 0x04, 0x00] false, .poll sp [2]]

example : Begins open2.c 2 0x00 ∧ open2.c.localErr = none :=
  ⟨⟨by decide +kernel, [0x00], [0x04, 0x00], by decide +kernel, decVarint_iff (tail := []).mp (by decide)⟩, by decide +kernel⟩

example : Ended (server.run ([.opened 2, .arrive 2 [0x00, 0x04, 0x00] false, .poll sp [2]] ++ [.arrive 2 [] true])).c 2 ∧
    (server.run ([.opened 2, .arrive 2 [0x00, 0x04, 0x00] false, .poll sp [2]] ++ [.arrive 2 [] true])).c.localErr = none := by
  unfold Ended; decide +kernel

example : (server.run [.opened 2, .arrive 2 [0x00, 0x04, 0x00] false, .poll sp [2], .opened 6, .arrive 6 [0x00] false,
    .poll sp [6]]).c.localErr = some 0x103 := by decide +kernel

example : (server.run [.opened 2, .arrive 2 [0x01] false, .poll sp [2]]).c.localErr = some 0x103 := by decide +kernel

example : ((server.run [.opened 2, .arrive 2 [0x02] false, .poll sp [2], .reset 2 7]).c.poll sp []).1 =
    .error .closedCriticalStream := by decide +kernel

end Verif.Props.C103
