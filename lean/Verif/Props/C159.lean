import Verif.Props.C158

/-!
C159: what the peer sends on a stream reaches the application as received, in order and once, with
the end of the body only if the peer ended it; a stream is forgotten when both directions are done.
-/

namespace Verif.Props.C159
open Verif Verif.Tq.Drv
open Verif.Props.C158 (Start)

/-- The body that `quiche` gave, as frames. -/
def bodies (l : List Bytes) : List IF := l.map fun b => ⟨b, false⟩

structure Inv (s : S) : Prop where
  frames : s.taken ++ s.inq = bodies s.got ∨
    (s.taken ++ s.inq = bodies s.got ++ [⟨[], true⟩] ∧ s.ended = true ∧ s.finRecv = true ∧ s.pc ≠ .read ∧ s.send ≠ .waiting)
  ended : s.ended = true → s.finRecv = true
  open_ : s.finRecv = true → s.send ≠ .gone → s.ended = true
  reset : s.wasReset = true → s.send = .gone ∧ s.finRecv = true
  stop : s.stopped = true → s.send = .gone ∧ s.finRecv = true ∧ s.inOpen = false ∧ s.flow = false
  why : s.finRecv = true → s.ended = true ∨ s.wasReset = true ∨ s.stopped = true
  gone : s.live = true → s.send = .gone → s.wasReset = true ∨ s.stopped = true
  reading : s.pc = .read → s.send ≠ .gone
  live : s.pc ≠ .idle → s.live = true
  dead : s.live = false → s.send = .gone
  settled : s.live = true → s.ended = true → s.inOpen = true → s.wasReset = false →
    s.taken ++ s.inq = bodies s.got ++ [⟨[], true⟩] ∨ s.send = .waiting ∨ s.pc = .read
  both : s.live = true → s.finRecv = true → s.finSent = true → s.send = .waiting ∨ s.pc = .read
  cap : s.inq.length ≤ s.cap

theorem start_inv {s : S} (h : Start s) : Inv s := by
  obtain ⟨cap, flow, h | ⟨body, h⟩⟩ := h
  · subst h; constructor <;> simp [S.server, bodies]
  · subst h; constructor <;> cases body <;> simp [S.client, bodies]

/-- What the outbound direction does to the inbound one: nothing, or the stream is forgotten (`err`: or `quiche` answered with an error). -/
structure Out (err : Prop) (s t : S) : Prop where
  taken : t.taken = s.taken
  inq : t.inq = s.inq
  got : t.got = s.got
  stopped : t.stopped = s.stopped
  ended : t.ended = s.ended
  wasReset : t.wasReset = s.wasReset
  finRecv : t.finRecv = s.finRecv
  flow : t.flow = s.flow
  cap : t.cap = s.cap
  inOpen : t.inOpen = s.inOpen
  fatal : t.fatal = s.fatal
  pc : t.pc ≠ .read
  live : (t.live = s.live ∧ t.send = s.send ∧ (t.finSent = s.finSent ∨ t.finRecv = false) ∧ t.shutR = s.shutR) ∨
    (t.live = false ∧ t.send = .gone ∧ t.pc = .idle ∧ (t.finRecv = true ∨ t.shutR = true ∨ err))

theorem Out.inv {err : Prop} {s t : S} (e : Out err s t) (h : Inv s) (hp : s.pc ≠ .read) (hl : s.live = true) : Inv t := by
  obtain ⟨e1, e2, e3, e4, e5, e6, e7, e8, e9, e10, e11, e12, e13⟩ := e
  rcases e13 with ⟨a1, a2, a3, a4⟩ | ⟨a1, a2, a3, a4⟩
  · constructor
    · rw [e1, e2, e3, e5, e7, a2]; exact h.frames.imp id (fun x => ⟨x.1, x.2.1, x.2.2.1, e12, x.2.2.2.2⟩)
    · rw [e5, e7]; exact h.ended
    · rw [e5, e7, a2]; exact h.open_
    · rw [e6, e7, a2]; exact h.reset
    · rw [e4, e7, a2, e10, e8]; exact h.stop
    · rw [e5, e7, e6, e4]; exact h.why
    · rw [a1, a2, e6, e4]; exact h.gone
    · exact fun x => absurd x e12
    · rw [a1]; exact fun _ => hl
    · rw [a1, a2]; exact h.dead
    · rw [a1, e5, e10, e6, e1, e2, e3, a2]
      intro x1 x2 x3 x4
      rcases h.settled x1 x2 x3 x4 with y | y | y
      · exact .inl y
      · exact .inr (.inl y)
      · exact absurd y hp
    · rw [a1, e7, a2]
      intro x1 x2 x3
      rcases a3 with a3 | a3
      · rw [a3] at x3
        rcases h.both x1 x2 x3 with y | y
        · exact .inl y
        · exact absurd y hp
      · rw [e7, x2] at a3; cases a3
    · rw [e2, e9]; exact h.cap
  · constructor
    · rw [e1, e2, e3, e5, e7, a2]; exact h.frames.imp id (fun x => ⟨x.1, x.2.1, x.2.2.1, e12, by simp⟩)
    · rw [e5, e7]; exact h.ended
    · rw [a2]; exact fun _ x => absurd rfl x
    · rw [e6, e7, a2]; exact fun x => ⟨rfl, (h.reset x).2⟩
    · rw [e4, e7, a2, e10, e8]; exact fun x => ⟨rfl, (h.stop x).2⟩
    · rw [e5, e7, e6, e4]; exact h.why
    · rw [a1]; exact fun x => by cases x
    · exact fun x => absurd x e12
    · rw [a3]; exact fun x => absurd rfl x
    · exact fun _ => a2
    · rw [a1]; exact fun x => by cases x
    · rw [a1]; exact fun x => by cases x
    · rw [e2, e9]; exact h.cap

theorem Out.trans_eq {err : Prop} {s u t : S} (h : Out err u t) (hu : u.taken = s.taken ∧ u.inq = s.inq ∧ u.got = s.got ∧ u.stopped = s.stopped ∧
    u.ended = s.ended ∧ u.wasReset = s.wasReset ∧ u.finRecv = s.finRecv ∧ u.flow = s.flow ∧ u.cap = s.cap ∧ u.inOpen = s.inOpen ∧ u.fatal = s.fatal ∧
    u.live = s.live ∧ u.send = s.send ∧ u.shutR = s.shutR ∧ u.finSent = s.finSent) : Out err s t := by
  obtain ⟨e1, e2, e3, e4, e5, e6, e7, e8, e9, e10, e11, e12, e13⟩ := h
  obtain ⟨u1, u2, u3, u4, u5, u6, u7, u8, u9, u10, u11, u12, u13, u14, u15⟩ := hu
  rw [u1] at e1; rw [u2] at e2; rw [u3] at e3; rw [u4] at e4; rw [u5] at e5; rw [u6] at e6; rw [u7] at e7; rw [u8] at e8; rw [u9] at e9
  rw [u10] at e10; rw [u11] at e11; rw [u12, u13, u14, u15] at e13
  exact ⟨e1, e2, e3, e4, e5, e6, e7, e8, e9, e10, e11, e12, e13⟩

theorem refused_out (s : S) (hp : s.pc = .wframe) (o : WOut) : Out (o = .other) s (s.refused o) := by
  cases o with
  | ok n => exact ⟨rfl, rfl, rfl, rfl, rfl, rfl, rfl, rfl, rfl, rfl, rfl, by simp [S.refused, hp], .inl ⟨rfl, rfl, .inl rfl, rfl⟩⟩
  | blocked => exact ⟨rfl, rfl, rfl, rfl, rfl, rfl, rfl, rfl, rfl, rfl, rfl, by simp [S.refused], .inl ⟨rfl, rfl, .inl rfl, rfl⟩⟩
  | stopped =>
    unfold S.refused
    dsimp only
    split
    · unfold S.cleanupIf
      split
      · rename_i hb
        simp only [S.both, Bool.and_eq_true] at hb
        exact ⟨rfl, rfl, rfl, rfl, rfl, rfl, rfl, rfl, rfl, rfl, rfl, by simp [S.cleanup], .inr ⟨rfl, rfl, rfl, .inl hb.1⟩⟩
      · exact ⟨rfl, rfl, rfl, rfl, rfl, rfl, rfl, rfl, rfl, rfl, rfl, by simp, .inl ⟨rfl, rfl, .inl rfl, rfl⟩⟩
    · unfold S.cleanupIf
      split
      · rename_i hb
        simp only [S.both, Bool.and_eq_true] at hb
        exact ⟨rfl, rfl, rfl, rfl, rfl, rfl, rfl, rfl, rfl, rfl, rfl, by simp [S.cleanup], .inr ⟨rfl, rfl, rfl, .inl hb.1⟩⟩
      · rename_i hb
        simp only [S.both, Bool.and_true, Bool.not_eq_true] at hb
        exact ⟨rfl, rfl, rfl, rfl, rfl, rfl, rfl, rfl, rfl, rfl, rfl, by simp, .inl ⟨rfl, rfl, .inr hb, rfl⟩⟩
  | other => exact ⟨rfl, rfl, rfl, rfl, rfl, rfl, rfl, rfl, rfl, rfl, rfl, by simp [S.refused, S.cleanup], .inr ⟨rfl, rfl, rfl, .inr (.inr rfl)⟩⟩

theorem onFinSent_out (err : Prop) (s : S) : Out err s s.onFinSent := by
  unfold S.onFinSent
  dsimp only
  split
  · rename_i hb
    exact ⟨rfl, rfl, rfl, rfl, rfl, rfl, rfl, rfl, rfl, rfl, rfl, by simp [S.cleanup], .inr ⟨rfl, rfl, rfl, .inl hb⟩⟩
  · rename_i hb
    exact ⟨rfl, rfl, rfl, rfl, rfl, rfl, rfl, rfl, rfl, rfl, rfl, by simp, .inl ⟨rfl, rfl, .inr (by simpa using hb), rfl⟩⟩

theorem wframe_out (s : S) (hp : s.pc = .wframe) (o : WOut) : Out (o = .other) s (s.wframe o) := by
  unfold S.wframe
  dsimp only
  split
  · exact ⟨rfl, rfl, rfl, rfl, rfl, rfl, rfl, rfl, rfl, rfl, rfl, by simp, .inl ⟨rfl, rfl, .inl rfl, rfl⟩⟩
  · split
    · exact ⟨rfl, rfl, rfl, rfl, rfl, rfl, rfl, rfl, rfl, rfl, rfl, by simp, .inl ⟨rfl, rfl, .inl rfl, rfl⟩⟩
    · exact refused_out s hp o
  · rename_i b fin hq
    split
    · exact ⟨rfl, rfl, rfl, rfl, rfl, rfl, rfl, rfl, rfl, rfl, rfl, by simp, .inl ⟨rfl, rfl, .inl rfl, rfl⟩⟩
    · split
      · split
        · cases fin <;> exact ⟨rfl, rfl, rfl, rfl, rfl, rfl, rfl, rfl, rfl, rfl, rfl, by simp, .inl ⟨rfl, rfl, .inl rfl, rfl⟩⟩
        · cases fin with
          | true =>
            simp only [if_true]
            refine (onFinSent_out _ _).trans_eq ?_
            exact ⟨rfl, rfl, rfl, rfl, rfl, rfl, rfl, rfl, rfl, rfl, rfl, rfl, rfl, rfl, rfl⟩
          | false => exact ⟨rfl, rfl, rfl, rfl, rfl, rfl, rfl, rfl, rfl, rfl, rfl, by simp, .inl ⟨rfl, rfl, .inl rfl, rfl⟩⟩
      · refine (refused_out _ ?_ o).trans_eq ?_
        · cases fin <;> exact hp
        · cases fin <;> exact ⟨rfl, rfl, rfl, rfl, rfl, rfl, rfl, rfl, rfl, rfl, rfl, rfl, rfl, rfl, rfl⟩
  · split
    · refine (onFinSent_out _ _).trans_eq ?_
      exact ⟨rfl, rfl, rfl, rfl, rfl, rfl, rfl, rfl, rfl, rfl, rfl, rfl, rfl, rfl, rfl⟩
    · exact refused_out s hp o
  · exact ⟨rfl, rfl, rfl, rfl, rfl, rfl, rfl, rfl, rfl, rfl, rfl, by simp [S.shutdown, S.cleanup], .inr ⟨rfl, rfl, rfl, .inr (.inl (by simp [S.shutdown, S.cleanup]))⟩⟩

theorem wnext_out (s : S) : Out False s s.wnext := by
  unfold S.wnext
  split
  · split
    · exact ⟨rfl, rfl, rfl, rfl, rfl, rfl, rfl, rfl, rfl, rfl, rfl, by simp, .inl ⟨rfl, rfl, .inl rfl, rfl⟩⟩
    · split
      · exact ⟨rfl, rfl, rfl, rfl, rfl, rfl, rfl, rfl, rfl, rfl, rfl, by simp, .inl ⟨rfl, rfl, .inl rfl, rfl⟩⟩
      · split
        · unfold S.cleanupIf
          split
          · rename_i hb
            simp only [S.both, Bool.and_eq_true] at hb
            exact ⟨rfl, rfl, rfl, rfl, rfl, rfl, rfl, rfl, rfl, rfl, rfl, by simp [S.cleanup], .inr ⟨rfl, rfl, rfl, .inl hb.1⟩⟩
          · rename_i hb
            simp only [S.both, Bool.and_true, Bool.not_eq_true] at hb
            exact ⟨rfl, rfl, rfl, rfl, rfl, rfl, rfl, rfl, rfl, rfl, rfl, by simp, .inl ⟨rfl, rfl, .inr hb, rfl⟩⟩
        · exact ⟨rfl, rfl, rfl, rfl, rfl, rfl, rfl, rfl, rfl, rfl, rfl, by simp, .inl ⟨rfl, rfl, .inl rfl, rfl⟩⟩
  · exact ⟨rfl, rfl, rfl, rfl, rfl, rfl, rfl, rfl, rfl, rfl, rfl, by simp, .inl ⟨rfl, rfl, .inl rfl, rfl⟩⟩

/-- Forgetting a stream keeps what the application has seen. -/
theorem cleanup_inv {s : S}
    (h1 : s.taken ++ s.inq = bodies s.got ∨ (s.taken ++ s.inq = bodies s.got ++ [⟨[], true⟩] ∧ s.ended = true ∧ s.finRecv = true))
    (h2 : s.ended = true → s.finRecv = true) (h3 : s.wasReset = true → s.finRecv = true)
    (h4 : s.stopped = true → s.finRecv = true ∧ s.inOpen = false ∧ s.flow = false)
    (h5 : s.finRecv = true → s.ended = true ∨ s.wasReset = true ∨ s.stopped = true) (h6 : s.inq.length ≤ s.cap) : Inv s.cleanup := by
  refine ⟨h1.imp id (fun x => ⟨x.1, x.2.1, x.2.2, by simp [S.cleanup], by simp [S.cleanup]⟩), h2, fun _ x => absurd rfl x, fun x => ⟨rfl, h3 x⟩, fun x => ⟨rfl, h4 x⟩, h5, fun x => ?_, fun x => ?_, fun x => absurd rfl x, fun _ => rfl, fun x => ?_, fun x => ?_, h6⟩ <;> cases x

theorem cleanup_inv' {s : S} (h : Inv s) : Inv s.cleanup :=
  cleanup_inv (h.frames.imp id (fun x => ⟨x.1, x.2.1, x.2.2.1⟩)) h.ended (fun x => (h.reset x).2) (fun x => (h.stop x).2) h.why h.cap

/-- The end of `process_h3_data`. -/
theorem readDone_inv {s : S} (h : Inv s) (hp : s.pc = .read)
    (hw : s.finRecv = true → s.send = .waiting ∨ (s.inOpen = false ∧ s.finSent = false)) (f : Bool) : Inv (s.readDone f) := by
  have hl : s.live = true := h.live (by rw [hp]; decide)
  have fr : s.taken ++ s.inq = bodies s.got := by
    rcases h.frames with x | x
    · exact x
    · exact absurd hp x.2.2.2.1
  unfold S.readDone S.gotFin
  split
  · rename_i hc
    simp only [Bool.and_eq_true, Bool.not_eq_true'] at hc
    rw [if_pos (by simp [hl, hc.1])]
    have nr : s.wasReset = false := by
      cases e : s.wasReset with
      | false => rfl
      | true => have := (h.reset e).2; rw [hc.1] at this; cases this
    have ns : s.stopped = false := by
      cases e : s.stopped with
      | false => rfl
      | true => have := (h.stop e).2.1; rw [hc.1] at this; cases this
    refine ⟨.inl fr, fun _ => rfl, fun _ _ => rfl, fun x => ?_, fun x => ?_, fun _ => .inl rfl, fun _ x => absurd x (h.reading hp), fun _ => h.reading hp, fun _ => hl, h.dead, fun _ _ _ _ => .inr (.inr rfl), fun _ _ _ => .inr rfl, h.cap⟩
    · rw [show s.wasReset = true from x] at nr; cases nr
    · rw [show s.stopped = true from x] at ns; cases ns
  · rename_i hc
    refine ⟨.inl fr, h.ended, h.open_, h.reset, h.stop, h.why, h.gone, fun x => ?_, fun x => absurd rfl x, h.dead, fun _ a b c => ?_, fun _ a b => ?_, h.cap⟩
    · cases x
    · rcases hw (h.ended a) with x | x
      · exact .inr (.inl x)
      · rw [show s.inOpen = true from b] at x; cases x.1
    · rcases hw a with x | x
      · exact .inl x
      · rw [show s.finSent = true from b] at x; cases x.2

theorem gotReset_inv {s : S} (h : Inv s) (hl : s.live = true) : Inv s.gotReset := by
  unfold S.gotReset S.cleanupIf
  split
  · apply cleanup_inv
    · exact h.frames.imp id (fun x => ⟨x.1, x.2.1, rfl⟩)
    · exact fun _ => rfl
    · exact fun _ => rfl
    · exact fun x => ⟨rfl, (h.stop x).2.2⟩
    · exact fun _ => .inr (.inl rfl)
    · exact h.cap
  · rename_i hb
    simp only [S.both, Bool.true_and, Bool.not_eq_true] at hb
    refine ⟨h.frames.imp id (fun x => ⟨x.1, x.2.1, rfl, by simp, by simp⟩), fun _ => rfl, fun _ x => absurd rfl x, fun _ => ⟨rfl, rfl⟩, fun x => ⟨rfl, rfl, (h.stop x).2.2⟩, fun _ => .inr (.inl rfl), fun _ _ => .inl rfl, fun x => ?_, fun x => absurd rfl x, fun _ => rfl, fun _ _ _ x => ?_, fun _ _ x => ?_, h.cap⟩
    · cases x
    · cases x
    · rw [show s.finSent = true from x] at hb; cases hb

theorem read_inv {s : S} (h : Inv s) (hp : s.pc = .read) (o : ROut) (r f : Bool) : Inv (s.read o r f) := by
  have hl : s.live = true := h.live (by rw [hp]; decide)
  have hl' : ∀ {P : Prop}, s.live = false → P := fun a => by rw [hl] at a; cases a
  have fr : s.taken ++ s.inq = bodies s.got := by
    rcases h.frames with x | x
    · exact x
    · exact absurd hp x.2.2.2.1
  unfold S.read
  dsimp only
  split
  · rename_i hs
    refine readDone_inv h hp (fun _ => .inl ?_) f
    cases e : s.send with
    | here => exact absurd e hs
    | waiting => rfl
    | gone => exact absurd e (h.reading hp)
  · rename_i hs
    have hs : s.send = .here := Decidable.not_not.1 hs
    have ng : s.send ≠ .gone := by rw [hs]; simp
    have nr : s.wasReset = false := by
      cases e : s.wasReset with
      | false => rfl
      | true => exact absurd (h.reset e).1 ng
    have ns : s.stopped = false := by
      cases e : s.stopped with
      | false => rfl
      | true => exact absurd (h.stop e).1 ng
    have nr' : ∀ {P : Prop}, s.wasReset = true → P := fun a => by rw [nr] at a; cases a
    have ns' : ∀ {P : Prop}, s.stopped = true → P := fun a => by rw [ns] at a; cases a
    split
    · rename_i hin
      split
      · rename_i hc
        simp only [Bool.and_eq_true, Bool.not_eq_true'] at hc
        split
        · apply cleanup_inv
          · exact .inl fr
          · exact fun _ => rfl
          · exact fun _ => rfl
          · exact fun _ => ⟨rfl, hin, hc.2⟩
          · exact fun _ => .inr (.inr rfl)
          · exact h.cap
        · rename_i hb
          simp only [S.both, Bool.true_and, Bool.not_eq_true] at hb
          unfold S.readDone
          simp only [Bool.not_true, Bool.false_and, Bool.false_eq_true, if_false]
          refine ⟨.inl fr, fun _ => rfl, fun _ x => absurd rfl x, fun x => nr' x, fun _ => ⟨rfl, rfl, hin, hc.2⟩, fun _ => .inr (.inr rfl), fun _ _ => .inr rfl, fun x => ?_, fun x => absurd rfl x, fun _ => rfl, fun _ _ x => ?_, fun _ _ x => ?_, h.cap⟩
          · cases x
          · rw [show s.inOpen = true from x] at hin; cases hin
          · rw [show s.finSent = true from x] at hb; cases hb
      · split
        · exact cleanup_inv' h
        · rename_i hb
          refine readDone_inv h hp (fun x => .inr ⟨hin, ?_⟩) f
          simp only [S.both, x, Bool.true_and, Bool.not_eq_true] at hb
          exact hb
    · rename_i hin
      have hin : s.inOpen = true := by simpa using hin
      split
      · split
        · rename_i hc
          refine ⟨.inl fr, h.ended, fun x _ => h.open_ x ng, fun x => nr' x, fun x => ns' x, h.why, fun _ x => ?_, fun x => ?_, fun x => absurd rfl x, fun x => hl' x, fun _ _ _ _ => .inr (.inl rfl), fun _ _ _ => .inl rfl, h.cap⟩ <;> cases x
        · rename_i hc
          refine readDone_inv h hp (fun x => ?_) f
          rw [x] at hc; exact absurd rfl hc
      · rename_i hcap
        have hcap : s.inq.length < s.cap := by omega
        split
        · rename_i hfr
          have he := h.open_ hfr ng
          have new : s.taken ++ (s.inq ++ [(⟨[], true⟩ : IF)]) = bodies s.got ++ [⟨[], true⟩] := by rw [← List.append_assoc, fr]
          split
          · apply cleanup_inv
            · exact .inr ⟨new, he, hfr⟩
            · exact h.ended
            · exact fun x => nr' x
            · exact fun x => ns' x
            · exact h.why
            · show (s.inq ++ [_]).length ≤ s.cap; simp; omega
          · rename_i hfs
            refine ⟨.inr ⟨new, he, hfr, by simp, ?_⟩, h.ended, h.open_, fun x => nr' x, fun x => ns' x, h.why, fun _ x => absurd x ng, fun x => ?_, fun x => absurd rfl x, fun x => hl' x, fun _ _ _ _ => .inl new, fun _ _ x => absurd x hfs, ?_⟩
            · show s.send ≠ _; rw [hs]; simp
            · cases x
            · show (s.inq ++ [_]).length ≤ s.cap; simp; omega
        · rename_i hfr
          have hfr : s.finRecv = false := by simpa using hfr
          split
          · rename_i b
            have new : s.taken ++ (s.inq ++ [(⟨b, false⟩ : IF)]) = bodies (s.got ++ [b]) := by
              rw [← List.append_assoc, fr]; simp [bodies]
            refine ⟨.inl new, h.ended, h.open_, fun x => nr' x, fun x => ns' x, h.why, fun _ x => absurd x ng, fun _ => ng, fun _ => hl, fun x => hl' x, fun _ _ _ _ => .inr (.inr hp), fun _ _ _ => .inr hp, ?_⟩
            show (s.inq ++ [_]).length ≤ s.cap; simp; omega
          · refine readDone_inv h hp (fun x => ?_) f
            rw [hfr] at x; cases x
          · exact gotReset_inv h hl
          · exact cleanup_inv' h

theorem step_inv {s t : S} (h : Inv s) (hd : C158.Inv s) (op : Op) (hs : s.step op = some t) : Inv t := by
  have hl' : ∀ {P : Prop}, s.live = true → s.live = false → P := fun hl a => by rw [hl] at a; cases a
  cases op with
  | push f =>
    simp only [S.step] at hs
    split at hs
    · injection hs with hs; subst hs
      exact ⟨h.frames, h.ended, h.open_, h.reset, h.stop, h.why, h.gone, h.reading, h.live, h.dead, h.settled, h.both, h.cap⟩
    · cases hs
  | dropOut =>
    injection hs with hs; subst hs
    exact ⟨h.frames, h.ended, h.open_, h.reset, h.stop, h.why, h.gone, h.reading, h.live, h.dead, h.settled, h.both, h.cap⟩
  | take =>
    simp only [S.step] at hs
    split at hs
    · split at hs
      · rename_i f l hq
        injection hs with hs; subst hs
        have e : (s.taken ++ [f]) ++ l = s.taken ++ s.inq := by rw [hq]; simp
        refine ⟨?_, h.ended, h.open_, h.reset, h.stop, h.why, h.gone, h.reading, h.live, h.dead, ?_, h.both, ?_⟩
        · show (s.taken ++ [f]) ++ l = _ ∨ ((s.taken ++ [f]) ++ l = _ ∧ _)
          rw [e]; exact h.frames
        · show _ → _ → _ → _ → (s.taken ++ [f]) ++ l = _ ∨ _
          rw [e]; exact h.settled
        · have := h.cap; rw [hq] at this; exact Nat.le_of_succ_le this
      · cases hs
    · cases hs
  | dropIn =>
    injection hs with hs; subst hs
    refine ⟨h.frames, h.ended, h.open_, h.reset, fun x => ⟨(h.stop x).1, (h.stop x).2.1, rfl, (h.stop x).2.2.2⟩, h.why, h.gone, h.reading, h.live, h.dead, fun _ _ x => ?_, h.both, h.cap⟩
    cases x
  | writable =>
    simp only [S.step] at hs
    split at hs
    · rename_i hp
      injection hs with hs; subst hs
      split
      · rename_i hl
        refine Out.inv (s := s) (err := False) ⟨rfl, rfl, rfl, rfl, rfl, rfl, rfl, rfl, rfl, rfl, rfl, by simp, .inl ⟨rfl, rfl, .inl rfl, rfl⟩⟩ h (by rw [hp]; simp) hl
      · exact h
    · cases hs
  | recvReady =>
    simp only [S.step] at hs
    split at hs
    · rename_i hc
      have hl : s.live = true := by
        cases e : s.live with
        | true => rfl
        | false => have := (hd.dead e).1; rw [hc.2] at this; cases this
      split at hs
      · injection hs with hs; subst hs
        exact Out.inv (s := s) (err := False) ⟨rfl, rfl, rfl, rfl, rfl, rfl, rfl, rfl, rfl, rfl, rfl, by simp, .inl ⟨rfl, rfl, .inl rfl, rfl⟩⟩ h (by rw [hc.1]; simp) hl
      · split at hs
        · cases hs
        · injection hs with hs; subst hs
          exact Out.inv (s := s) (err := False) ⟨rfl, rfl, rfl, rfl, rfl, rfl, rfl, rfl, rfl, rfl, rfl, by simp, .inl ⟨rfl, rfl, .inl rfl, rfl⟩⟩ h (by rw [hc.1]; simp) hl
    · cases hs
  | sendReady =>
    simp only [S.step] at hs
    split at hs
    · rename_i hc
      have hl : s.live = true := by
        cases e : s.live with
        | true => rfl
        | false => have := h.dead e; rw [hc.2.1] at this; cases this
      injection hs with hs; subst hs
      have ng : s.send ≠ .gone := by rw [hc.2.1]; simp
      refine ⟨?_, h.ended, fun x _ => h.open_ x ng, fun x => absurd (h.reset x).1 ng, fun x => absurd (h.stop x).1 ng, h.why, fun _ x => ?_, fun _ => by simp, fun _ => hl, fun x => hl' hl x, fun _ _ _ _ => .inr (.inr rfl), fun _ _ _ => .inr rfl, h.cap⟩
      · rcases h.frames with x | x
        · exact .inl x
        · exact absurd hc.2.1 x.2.2.2.2
      · cases x
    · cases hs
  | data =>
    simp only [S.step] at hs
    split at hs
    · rename_i hc
      obtain ⟨c1, c2, c3, c4, c5⟩ := hc
      injection hs with hs; subst hs
      split
      · rename_i hl
        have ng : s.send ≠ .gone := fun x => by
          rcases h.gone hl x with y | y
          · rw [c3] at y; cases y
          · rw [c4] at y; cases y
        refine ⟨?_, h.ended, h.open_, h.reset, h.stop, h.why, h.gone, fun _ => ng, fun _ => hl, h.dead, fun _ _ _ _ => .inr (.inr rfl), fun _ _ _ => .inr rfl, h.cap⟩
        rcases h.frames with x | x
        · exact .inl x
        · rw [c2] at x; cases x.2.1
      · exact ⟨h.frames, h.ended, h.open_, h.reset, h.stop, h.why, h.gone, h.reading, h.live, h.dead, h.settled, h.both, h.cap⟩
    · cases hs
  | fin =>
    simp only [S.step] at hs
    split at hs
    · rename_i hc
      injection hs with hs; subst hs
      unfold S.gotFin
      split
      · rename_i hl
        simp only [Bool.and_eq_true, Bool.not_eq_true'] at hl
        obtain ⟨hl, hfr⟩ := hl
        have nr : s.wasReset = false := by
          cases e : s.wasReset with
          | false => rfl
          | true => have := (h.reset e).2; rw [hfr] at this; cases this
        have ns : s.stopped = false := by
          cases e : s.stopped with
          | false => rfl
          | true => have := (h.stop e).2.1; rw [hfr] at this; cases this
        have ng : s.send ≠ .gone := fun x => by
          rcases h.gone hl x with y | y
          · rw [nr] at y; cases y
          · rw [ns] at y; cases y
        refine ⟨?_, fun _ => rfl, fun _ _ => rfl, fun x => ?_, fun x => ?_, fun _ => .inl rfl, fun _ x => absurd x ng, fun _ => ng, fun _ => hl, h.dead, fun _ _ _ _ => .inr (.inr rfl), fun _ _ _ => .inr rfl, h.cap⟩
        · rcases h.frames with x | x
          · exact .inl x
          · rw [hfr] at x; cases x.2.2.1
        · rw [show s.wasReset = true from x] at nr; cases nr
        · rw [show s.stopped = true from x] at ns; cases ns
      · have : ({ s with pc := .idle } : S) = s := by rw [← hc]
        rw [this]; exact h
    · cases hs
  | reset =>
    simp only [S.step] at hs
    split at hs
    · injection hs with hs; subst hs
      split
      · rename_i hl; exact gotReset_inv h hl
      · exact h
    · cases hs
  | headers =>
    simp only [S.step] at hs
    split at hs
    · injection hs with hs; subst hs
      split
      · exact h
      · exact ⟨h.frames, h.ended, h.open_, h.reset, h.stop, h.why, h.gone, h.reading, h.live, h.dead, h.settled, h.both, h.cap⟩
    · cases hs
  | shutdown r w =>
    simp only [S.step] at hs
    split at hs
    · injection hs with hs; subst hs
      split
      · exact cleanup_inv (s := { s with shutR := s.shutR || r, shutW := s.shutW || w }) (h.frames.imp id (fun x => ⟨x.1, x.2.1, x.2.2.1⟩)) h.ended (fun x => (h.reset x).2) (fun x => (h.stop x).2) h.why h.cap
      · exact h
    · cases hs
  | wframe o =>
    simp only [S.step] at hs
    split at hs
    · rename_i hp; injection hs with hs; subst hs
      exact (wframe_out s hp o).inv h (by rw [hp]; simp) (h.live (by rw [hp]; simp))
    · cases hs
  | wnext =>
    simp only [S.step] at hs
    split at hs
    · rename_i hp; injection hs with hs; subst hs
      exact (wnext_out s).inv h (by rw [hp]; simp) (h.live (by rw [hp]; simp))
    · cases hs
  | read o r f =>
    simp only [S.step] at hs
    split at hs
    · rename_i hp; injection hs with hs; subst hs; exact read_inv h hp o r f
    · cases hs

theorem run_inv {s t : S} (h : Inv s) (hd : C158.Inv s) (l : List Op) (hs : s.run l = some t) : Inv t := by
  induction l generalizing s with
  | nil => injection hs with hs; subst hs; exact h
  | cons op l ih =>
    simp only [S.run, Option.bind_eq_some_iff] at hs
    obtain ⟨u, h1, h2⟩ := hs
    exact ih (step_inv h hd op h1) (C158.step_inv hd op h1) h2

theorem reach {s t : S} (h : Start s) (l : List Op) (hs : s.run l = some t) : Inv t :=
  run_inv (start_inv h) (C158.start_inv h) l hs

/-- In order, once, nothing added: what the application has taken and what waits for it is the body
that `quiche` gave, piece by piece, and then at most one mark for the end. -/
theorem in_order {s t : S} (h : Start s) (l : List Op) (hr : s.run l = some t) :
    t.taken ++ t.inq = bodies t.got ∨ t.taken ++ t.inq = bodies t.got ++ [⟨[], true⟩] :=
  (reach h l hr).frames.imp id And.left

/-- The end is told only if `quiche` said that the peer ended the stream. -/
theorem end_true {s t : S} (h : Start s) (l : List Op) (hr : s.run l = some t) (f : IF) (hf : f ∈ t.taken ++ t.inq) (he : f.fin = true) :
    t.ended = true := by
  rcases (reach h l hr).frames with x | x
  · rw [x] at hf
    obtain ⟨b, _, e⟩ := List.mem_map.1 hf
    rw [← e] at he; cases he
  · exact x.2.1

/-- After RESET_STREAM of the peer nothing more is told: no data and no end. -/
theorem silent {s t u : S} (h : Start s) (l : List Op) (hr : s.run l = some t) (hw : t.wasReset = true) (op : Op) (hs : t.step op = some u) :
    u.taken ++ u.inq = t.taken ++ t.inq := by
  have i := reach h l hr
  have hg := (i.reset hw).1
  have hp : t.pc ≠ .read := fun x => i.reading x hg
  cases op with
  | take =>
    simp only [S.step] at hs
    split at hs
    · split at hs
      · rename_i hq; injection hs with hs; subst hs; rw [hq]; simp
      · cases hs
    · cases hs
  | wframe o =>
    simp only [S.step] at hs
    split at hs
    · rename_i hp; injection hs with hs; subst hs
      rw [(wframe_out t hp o).taken, (wframe_out t hp o).inq]
    · cases hs
  | wnext =>
    simp only [S.step] at hs
    split at hs
    · injection hs with hs; subst hs
      rw [(wnext_out t).taken, (wnext_out t).inq]
    · cases hs
  | read o r f => simp only [S.step, hp, if_false] at hs; cases hs
  | push f =>
    simp only [S.step] at hs
    split at hs
    · injection hs with hs; subst hs; rfl
    · cases hs
  | dropOut => injection hs with hs; subst hs; rfl
  | dropIn => injection hs with hs; subst hs; rfl
  | writable =>
    simp only [S.step] at hs
    split at hs
    · injection hs with hs; subst hs; split <;> rfl
    · cases hs
  | recvReady =>
    simp only [S.step] at hs
    split at hs
    · split at hs
      · injection hs with hs; subst hs; rfl
      · split at hs
        · cases hs
        · injection hs with hs; subst hs; rfl
    · cases hs
  | sendReady =>
    simp only [S.step] at hs
    split at hs
    · injection hs with hs; subst hs; rfl
    · cases hs
  | data =>
    simp only [S.step] at hs
    split at hs
    · injection hs with hs; subst hs; split <;> rfl
    · cases hs
  | fin =>
    simp only [S.step] at hs
    split at hs
    · injection hs with hs; subst hs; unfold S.gotFin; split <;> rfl
    · cases hs
  | reset =>
    simp only [S.step] at hs
    split at hs
    · injection hs with hs; subst hs; unfold S.gotReset S.cleanupIf S.cleanup
      split
      · split <;> rfl
      · rfl
    · cases hs
  | headers =>
    simp only [S.step] at hs
    split at hs
    · injection hs with hs; subst hs; split <;> rfl
    · cases hs
  | shutdown r w =>
    simp only [S.step] at hs
    split at hs
    · injection hs with hs; subst hs; split <;> rfl
    · cases hs

/-- The channel to the application never holds more than its capacity. -/
theorem bounded {s t : S} (h : Start s) (l : List Op) (hr : s.run l = some t) : t.inq.length ≤ t.cap := (reach h l hr).cap

/-- STOP_SENDING by itself only if the application dropped its end, and not for a flow of datagrams. -/
theorem stops_only {s t : S} (h : Start s) (l : List Op) (hr : s.run l = some t) (hs : t.stopped = true) : t.inOpen = false ∧ t.flow = false :=
  ((reach h l hr).stop hs).2.2

/-- STOP_SENDING is never sent for a stream that the peer has ended. -/
theorem stop_or_end {s t u : S} (h : Start s) (l : List Op) (hr : s.run l = some t) (he : t.finRecv = true) (o : ROut) (r f : Bool)
    (hs : t.step (.read o r f) = some u) : u.stopped = t.stopped := by
  simp only [S.step] at hs
  split at hs
  · injection hs with hs; subst hs
    have rd : ∀ v : S, (v.readDone f).stopped = v.stopped := by
      intro v; unfold S.readDone S.gotFin; split
      · split <;> rfl
      · rfl
    unfold S.read
    simp only [he, Bool.not_true, Bool.false_and, Bool.false_eq_true, if_false, Bool.true_or, if_true]
    split
    · exact rd _
    · split
      · split
        · rfl
        · exact rd _
      · split
        · rfl
        · split <;> rfl
  · cases hs

/-- A stream whose directions are both done is forgotten, unless the end still waits for room. -/
theorem forgotten {s t : S} (h : Start s) (l : List Op) (hr : s.run l = some t) (hp : t.pc = .idle) (h1 : t.finRecv = true) (h2 : t.finSent = true) :
    t.live = false ∨ t.send = .waiting := by
  cases hl : t.live with
  | false => exact .inl rfl
  | true =>
    rcases (reach h l hr).both hl h1 h2 with x | x
    · exact .inr x
    · rw [hp] at x; cases x

/-- The end of the body is told, or it waits for room in the channel -- as long as the stream is not
forgotten. Without that the claim is false (`end_lost`). -/
theorem end_told_partial {s t : S} (h : Start s) (l : List Op) (hr : s.run l = some t) (hp : t.pc = .idle) (hl : t.live = true) (he : t.ended = true)
    (hi : t.inOpen = true) (hw : t.wasReset = false) :
    t.taken ++ t.inq = bodies t.got ++ [⟨[], true⟩] ∨
      (t.send = .waiting ∧ (t.inq.length < t.cap → ∀ o r f, ∃ u, t.run [.sendReady, .read o r f] = some u ∧
        u.taken ++ u.inq = bodies u.got ++ [⟨[], true⟩])) := by
  have i := reach h l hr
  rcases i.settled hl he hi hw with x | x | x
  · exact .inl x
  · refine .inr ⟨x, fun hc o r f => ?_⟩
    have fr : t.taken ++ t.inq = bodies t.got := by
      rcases i.frames with y | y
      · exact y
      · exact absurd x y.2.2.2.2
    have hfr := i.ended he
    have e1 : t.run [.sendReady, .read o r f] = some (({ t with send := .here, pc := .read } : S).read o r f) := by
      simp only [S.run, S.step, hp, x, hc, true_or, and_self, if_true, Option.bind]
    refine ⟨_, e1, ?_⟩
    have nc : ¬ t.inq.length ≥ t.cap := by omega
    unfold S.read
    simp only [ne_eq, not_true, if_false, hi, nc, hfr, if_true, Bool.true_eq_false]
    split
    · show t.taken ++ (t.inq ++ _) = _
      rw [← List.append_assoc, fr]; rfl
    · show t.taken ++ (t.inq ++ _) = _
      rw [← List.append_assoc, fr]
  · rw [hp] at x; cases x

/-- The end can get lost: the peer has ended the stream, the application keeps its end of the channel and
reads all of it, `quiche` reports no error; but the end of the body was waiting for room when the driver
wrote the FIN of the application, and forgot the stream. The channel is closed with no mark of the end. -/
theorem end_lost : ∃ l t, (S.server 1 false).run l = some t ∧ t.ended = true ∧ t.inOpen = true ∧ t.wasReset = false ∧ t.stopped = false ∧
    t.shutR = false ∧ t.shutW = false ∧ t.inq = [] ∧ t.send = .gone ∧ t.got = [[1]] ∧ t.taken = [⟨[1], false⟩] := by
  refine ⟨[.data, .read (.data [1]) false false, .read .done false true, .read .done false true, .push (.body [] true), .recvReady, .wframe (.ok 0), .take],
    _, rfl, ?_⟩
  decide +kernel

/-- The same run with room for two frames: the end is told. -/
example : (((S.server 2 false).run [.data, .read (.data [1]) false false, .read .done false true, .read .done false true,
    .push (.body [] true), .recvReady, .wframe (.ok 0), .take, .take]).map fun t => (t.taken, t.live)) =
    some ([⟨[1], false⟩, ⟨[], true⟩], false) := by decide +kernel

/-- No error for writes or reads, no command to shut the stream down. -/
def Calm : Op → Prop
  | .shutdown _ _ => False
  | .wframe .other => False
  | .read .other _ _ => False
  | _ => True

structure Kept (s : S) : Prop where
  dead : s.live = false → s.finRecv = true ∨ s.shutR = true
  fatal : s.fatal = false
  again : s.again = false

theorem kept_step {s t : S} (i : Inv s) (k : Kept s) (op : Op) (hc : Calm op) (hs : s.step op = some t) : Kept t := by
  have rd : ∀ (v : S) (f : Bool), v.live = true → v.fatal = false → v.again = false → Kept (v.readDone f) := by
    intro v f a b c; unfold S.readDone S.gotFin
    split
    · split
      · exact ⟨fun x => (by rw [show v.live = false from x] at a; cases a), b, c⟩
      · exact ⟨fun x => (by rw [show v.live = false from x] at a; cases a), b, c⟩
    · exact ⟨fun x => (by rw [show v.live = false from x] at a; cases a), b, c⟩
  have cl : ∀ v : S, v.finRecv = true → v.fatal = false → v.again = false → Kept v.cleanup := fun v a b c => ⟨fun _ => .inl a, b, c⟩
  have ci : ∀ v : S, v.live = true → v.fatal = false → v.again = false → Kept v.cleanupIf := by
    intro v a b c; unfold S.cleanupIf
    split
    · rename_i hb; simp only [S.both, Bool.and_eq_true] at hb; exact cl v hb.1 b c
    · exact ⟨fun x => (by rw [show v.live = false from x] at a; cases a), b, c⟩
  obtain ⟨k1, k2, k3⟩ := k
  cases op with
  | push f =>
    simp only [S.step] at hs
    split at hs
    · injection hs with hs; subst hs; exact ⟨k1, k2, k3⟩
    · cases hs
  | dropOut => injection hs with hs; subst hs; exact ⟨k1, k2, k3⟩
  | dropIn => injection hs with hs; subst hs; exact ⟨k1, k2, k3⟩
  | take =>
    simp only [S.step] at hs
    split at hs
    · split at hs
      · injection hs with hs; subst hs; exact ⟨k1, k2, k3⟩
      · cases hs
    · cases hs
  | writable =>
    simp only [S.step] at hs
    split at hs
    · injection hs with hs; subst hs; split <;> exact ⟨k1, k2, k3⟩
    · cases hs
  | recvReady =>
    simp only [S.step] at hs
    split at hs
    · split at hs
      · injection hs with hs; subst hs; exact ⟨k1, k2, k3⟩
      · split at hs
        · cases hs
        · injection hs with hs; subst hs; exact ⟨k1, k2, k3⟩
    · cases hs
  | sendReady =>
    simp only [S.step] at hs
    split at hs
    · injection hs with hs; subst hs; exact ⟨k1, k2, k3⟩
    · cases hs
  | data =>
    simp only [S.step] at hs
    split at hs
    · rename_i hc
      injection hs with hs; subst hs
      split
      · exact ⟨k1, k2, k3⟩
      · rename_i hl
        have hl : s.live = false := by simpa using hl
        rcases k1 hl with x | x
        · rcases i.why x with y | y | y
          · rw [hc.2.1] at y; cases y
          · rw [hc.2.2.1] at y; cases y
          · rw [hc.2.2.2.1] at y; cases y
        · rw [hc.2.2.2.2] at x; cases x
    · cases hs
  | fin =>
    simp only [S.step] at hs
    split at hs
    · injection hs with hs; subst hs; unfold S.gotFin
      split
      · exact ⟨fun _ => .inl rfl, k2, k3⟩
      · exact ⟨k1, k2, k3⟩
    · cases hs
  | reset =>
    simp only [S.step] at hs
    split at hs
    · injection hs with hs; subst hs
      split
      · rename_i hl; exact ci _ hl k2 k3
      · exact ⟨k1, k2, k3⟩
    · cases hs
  | headers =>
    simp only [S.step] at hs
    split at hs
    · rename_i hc
      injection hs with hs; subst hs
      split
      · exact ⟨k1, k2, k3⟩
      · rename_i hl
        have hl : s.live = false := by simpa using hl
        rcases k1 hl with x | x
        · rcases i.why x with y | y | y
          · rw [hc.2.1] at y; cases y
          · rw [hc.2.2.1] at y; cases y
          · rw [hc.2.2.2.1] at y; cases y
        · rw [hc.2.2.2.2] at x; cases x
    · cases hs
  | shutdown r w => cases hc
  | wframe o =>
    simp only [S.step] at hs
    split at hs
    · rename_i hp; injection hs with hs; subst hs
      have e := wframe_out s hp o
      have ag : (s.wframe o).again = s.again := by
        have re : ∀ (v : S) (o : WOut), (v.refused o).again = v.again := by
          intro v o; cases o with
          | ok n => rfl
          | blocked => rfl
          | stopped => unfold S.refused S.cleanupIf S.cleanup; dsimp only; split <;> split <;> rfl
          | other => rfl
        have fi : ∀ v : S, v.onFinSent.again = v.again := by intro v; unfold S.onFinSent S.cleanup; dsimp only; split <;> rfl
        unfold S.wframe; dsimp only
        split
        · rfl
        · split
          · rfl
          · exact re _ _
        · rename_i b fin _
          split
          · rfl
          · split
            · split
              · cases fin <;> rfl
              · cases fin with
                | true => exact fi _
                | false => rfl
            · rw [re]; cases fin <;> rfl
        · split
          · exact fi _
          · exact re _ _
        · rfl
      refine ⟨fun hd => ?_, by rw [e.fatal]; exact k2, by rw [ag]; exact k3⟩
      rcases e.live with ⟨x1, x2, x3, x4⟩ | ⟨x1, x2, x3, x4 | x4 | x4⟩
      · rw [x1] at hd; rw [e.finRecv, x4]; exact k1 hd
      · exact .inl x4
      · exact .inr x4
      · rw [x4] at hc; cases hc
    · cases hs
  | wnext =>
    simp only [S.step] at hs
    split at hs
    · rename_i hp; injection hs with hs; subst hs
      have e := wnext_out s
      have ag : s.wnext.again = s.again := by
        unfold S.wnext S.cleanupIf S.cleanup; dsimp only
        split
        · split
          · rfl
          · split
            · rfl
            · split
              · split <;> rfl
              · rfl
        · rfl
      refine ⟨fun hd => ?_, by rw [e.fatal]; exact k2, by rw [ag]; exact k3⟩
      rcases e.live with ⟨x1, x2, x3, x4⟩ | ⟨x1, x2, x3, x4 | x4 | x4⟩
      · rw [x1] at hd; rw [e.finRecv, x4]; exact k1 hd
      · exact .inl x4
      · exact .inr x4
      · exact x4.elim
    · cases hs
  | read o r f =>
    simp only [S.step] at hs
    split at hs
    · rename_i hp; injection hs with hs; subst hs
      have hl : s.live = true := i.live (by rw [hp]; simp)
      unfold S.read; dsimp only
      split
      · exact rd s f hl k2 k3
      · split
        · split
          · split
            · exact cl _ rfl k2 k3
            · exact rd _ f hl k2 k3
          · split
            · rename_i hb; simp only [S.both, Bool.and_eq_true] at hb; exact cl s hb.1 k2 k3
            · exact rd s f hl k2 k3
        · split
          · split
            · exact ⟨k1, k2, k3⟩
            · exact rd s f hl k2 k3
          · split
            · rename_i hfr
              split
              · exact cl _ hfr k2 k3
              · exact ⟨k1, k2, k3⟩
            · split
              · exact ⟨k1, k2, k3⟩
              · exact rd s f hl k2 k3
              · exact ci _ hl k2 k3
              · cases hc
    · cases hs

/-- A peer's data never ends the connection and no stream is announced twice -- as long as no write or
read fails and the application does not ask to shut the stream down. Without that the claim is false
(`kills`, `twice`). -/
theorem survives_partial {s t : S} (h : Start s) (l : List Op) (hc : ∀ op ∈ l, Calm op) (hr : s.run l = some t) : t.fatal = false ∧ t.again = false := by
  have k0 : Kept s := by
    obtain ⟨cap, flow, h | ⟨body, h⟩⟩ := h
    · subst h; exact ⟨fun x => (by cases x), rfl, rfl⟩
    · subst h; exact ⟨fun x => (by cases x), rfl, rfl⟩
  have : ∀ (l : List Op) (s : S), Inv s → C158.Inv s → Kept s → (∀ op ∈ l, Calm op) → s.run l = some t → Kept t := by
    intro l
    induction l with
    | nil => intro s _ _ k _ hr; injection hr with hr; subst hr; exact k
    | cons op l ih =>
      intro s i j k hc hr
      simp only [S.run, Option.bind_eq_some_iff] at hr
      obtain ⟨u, h1, h2⟩ := hr
      have c := hc op (.head _)
      exact ih u (step_inv i j op h1) (C158.step_inv j op h1) (kept_step i k op c h1) (fun o ho => hc o (.tail _ ho)) h2
  have k := this l s (start_inv h) (C158.start_inv h) k0 hc hr
  exact ⟨k.fatal, k.again⟩

/-- The application resets its direction of one stream; the peer, which still sends its body, then ends
the whole connection with the next piece. -/
theorem kills : ∃ l t, (S.server 16 false).run l = some t ∧ t.fatal = true ∧ t.shutR = false ∧ t.given = [] := by
  refine ⟨[.data, .read (.data [1]) true false, .read .done false false, .shutdown false true, .data], _, rfl, ?_⟩
  decide +kernel

/-- Likewise trailers of the peer are then announced as a new request. -/
theorem twice : ∃ l t, (S.server 16 false).run l = some t ∧ t.again = true ∧ t.shutR = false := by
  refine ⟨[.shutdown false true, .headers], _, rfl, ?_⟩
  decide +kernel

/-- The application drops its end in the middle of the body: STOP_SENDING, the response goes on. -/
example : (((S.server 16 false).run [.data, .read (.data [1]) true false, .read .done false false, .dropIn, .data, .read (.data [2]) true false,
    .push (.body [9] true), .recvReady, .wframe (.ok 1)]).map fun t => (t.stopped, t.wire, t.live)) =
    some (true, [.byte 9, .fin], false) := by decide +kernel

end Verif.Props.C159
