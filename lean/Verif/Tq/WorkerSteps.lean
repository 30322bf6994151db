import Verif.Tq.Worker

/-! The steps of the worker's loop, one by one (for the proofs of C176). -/

namespace Verif.Tq.Worker
open Verif

variable {C : Type}

/-- What the application may be asked to do in one `on_read`. -/
def Calls (l : List Ev) : Prop := l = [] ∨ l = [.reads] ∨ l = [.writes] ∨ l = [.reads, .writes]

theorem onRead_eq (x : Cx C) (s : St C) (got : Bool) :
    ∃ c l, (s.onRead x got).1 = { s with c := c, log := s.log ++ l } ∧ Calls l ∧
      (x.act s.c = true → got = true → ∃ l', l = .reads :: l') := by
  unfold St.onRead
  by_cases ha : x.act s.c = true
  · rw [if_pos ha]
    cases got
    · simp only [Bool.false_eq_true, if_false, if_true]
      by_cases he : x.established s.c = true
      · rw [if_pos he]
        exact ⟨(x.writes s.c).1, [.writes], rfl, by simp [Calls], by simp⟩
      · rw [if_neg he]
        exact ⟨s.c, [], by simp, by simp [Calls], by simp⟩
    · simp only [if_true]
      by_cases hr : (x.reads s.c).2 = true
      · rw [if_pos hr]
        by_cases he : x.established (x.reads s.c).1 = true
        · rw [if_pos he]
          exact ⟨(x.writes (x.reads s.c).1).1, [.reads, .writes], by simp, by simp [Calls], by simp⟩
        · rw [if_neg he]
          exact ⟨(x.reads s.c).1, [.reads], rfl, by simp [Calls], by simp⟩
      · rw [if_neg hr]
        exact ⟨(x.reads s.c).1, [.reads], rfl, by simp [Calls], by simp⟩
  · rw [if_neg ha]
    exact ⟨s.c, [], by simp, by simp [Calls], fun h => absurd h ha⟩

theorem finish_eq (x : Cx C) (s : St C) (e : End) :
    ∃ c l, s.finish x e = { s with c := c, stage := .over, log := s.log ++ l ++ [.ended e] } ∧
      (l = [] ∨ l = [.onClose e]) := by
  unfold St.finish
  by_cases ha : x.act s.c = true
  · exact ⟨(x.gather (x.onClose s.c) s.clock).1, [.onClose e], by simp [ha], Or.inr rfl⟩
  · exact ⟨(x.gather s.c s.clock).1, [], by simp [ha], Or.inl rfl⟩

theorem recvAll_ok (x : Cx C) (ds : List Bytes) : ∀ (c : C),
    (recvAll x c ds).2.1 <+: ds ∧ ((recvAll x c ds).2.2 = true → (recvAll x c ds).2.1 = ds) := by
  induction ds with
  | nil => intro c; simp [recvAll]
  | cons d ds ih =>
    intro c
    unfold recvAll
    rcases hr : x.recv c d with ⟨c', ok⟩
    cases ok
    · simp
    · simp only
      obtain ⟨h1, h2⟩ := ih c'
      exact ⟨by simpa using h1, by simpa using h2⟩

theorem next_eq {s s1 : St C} {p : Incoming} (h : s.next = some (p, s1)) :
    (s.inPkt = some p ∧ s1 = { s with inPkt := none }) ∨
    (s.inPkt = none ∧ ∃ q, s.queue = p :: q ∧ s1 = { s with queue := q }) := by
  unfold St.next at h
  split at h
  next q hi =>
    simp only [Option.some.injEq, Prod.mk.injEq] at h
    exact Or.inl ⟨by rw [hi, h.1], h.2.symm⟩
  next q l hi hq =>
    simp only [Option.some.injEq, Prod.mk.injEq] at h
    exact Or.inr ⟨hi, l, by rw [hq, h.1], h.2.symm⟩
  next => simp at h

/-- The steps of the task. What the connection becomes is left open, where it does not matter. -/
inductive Tr (x : Cx C) : St C → St C → Prop where
  | top (s : St C) : s.pc = .top → Tr x s { s with now := s.clock, pend := true, pc := .outer }
  | again (s : St C) : s.pc = .outer → s.pend = true →
      Tr x s { s with sent := 0, didRecv := false, pc := .drain }
  | enough (s : St C) : s.pc = .outer → s.pend = false → Tr x s { s with pc := .arm }
  | recv (s s1 : St C) (p : Incoming) (c : C) : s.pc = .drain → s.next = some (p, s1) →
      Tr x s { s1 with c := c, log := s1.log ++ p.dgrams.map .dgram, didRecv := true }
  | recvBad (s s1 : St C) (p : Incoming) (c : C) (l : List Bytes) : s.pc = .drain →
      s.next = some (p, s1) → l <+: p.dgrams →
      Tr x s (({ s1 with c := c, log := s1.log ++ l.map .dgram, didRecv := true } : St C).finish x .recv)
  | look (s : St C) : s.pc = .drain → s.next = none →
      Tr x s { s with pc := .read, log := s.log ++ [.look] }
  | read (s : St C) (c : C) (l : List Ev) : s.pc = .read → Calls l →
      (s.stage ≠ .running → l = []) →
      (s.stage = .running → x.act s.c = true → s.didRecv = true → ∃ l', l = .reads :: l') →
      Tr x s { s with c := c, log := s.log ++ l, pend := s.pend && s.canRelease, pc := .inner }
  | readBad (s : St C) (c : C) (l : List Ev) : s.pc = .read → s.stage = .running → Calls l →
      Tr x s (({ s with c := c, log := s.log ++ l } : St C).finish x .app)
  | innerEnd (s : St C) : s.pc = .inner → ¬ (s.pend = true ∧ s.sent < ratio) →
      Tr x s { s with pc := .outer }
  | sendBad (s : St C) : s.pc = .inner →
      Tr x s ((s.took (x.gather s.c s.clock).1 (x.gather s.c s.clock).2).finish x .send)
  | closed (s : St C) : s.pc = .inner → x.closed (x.gather s.c s.clock).1 = true →
      Tr x s ((s.took (x.gather s.c s.clock).1 (x.gather s.c s.clock).2).finish x
        (if s.stage = .running then .ok else .closedInHandshake))
  | sent (s : St C) (c : C) (g : Gathered) : s.pc = .inner → x.gather s.c s.clock = (c, g) →
      s.pend = true → s.sent < ratio →
      Tr x s { s.took c g with sent := s.sent + g.pkts, log := s.log ++ [.sent g.pkts] }
  | refused (s : St C) (c : C) (g : Gathered) (c' : C) : s.pc = .inner → s.stage ≠ .running →
      s.pend = true → s.sent < ratio → x.gather s.c s.clock = (c, g) →
      (x.established c = true ∨ x.early c = true) →
      Tr x s (({ s.took c g with
        c := c', sent := s.sent + g.pkts,
        log := s.log ++ [.sent g.pkts] ++ [.established (x.established c)] } : St C).finish x .ok)
  | shook (s : St C) (c : C) (g : Gathered) (c' : C) (l : List Ev) : s.pc = .inner → s.stage ≠ .running →
      s.pend = true → s.sent < ratio → x.gather s.c s.clock = (c, g) →
      (x.established c = true ∨ x.early c = true) → Calls l →
      (x.act (x.onEstablished c).1 = true → ∃ l', l = .reads :: l') →
      Tr x s { s.took c g with
        c := c', sent := s.sent + g.pkts, stage := .running, pc := .top, cur := none,
        sleepAt := s.clock + defaultSleep,
        log := s.log ++ [.sent g.pkts] ++ [.established (x.established c), .forget] ++ l }
  | shookBad (s : St C) (c : C) (g : Gathered) (c' : C) (l : List Ev) : s.pc = .inner → s.stage ≠ .running →
      s.pend = true → s.sent < ratio → x.gather s.c s.clock = (c, g) →
      (x.established c = true ∨ x.early c = true) → Calls l →
      Tr x s (({ s.took c g with
        c := c', sent := s.sent + g.pkts, stage := .running,
        log := s.log ++ [.sent g.pkts] ++ [.established (x.established c), .forget] ++ l } : St C).finish x .app)
  | armOld (s : St C) : s.pc = .arm →
      minOfSome (minOfSome (x.timeout s.c) s.rel) s.stage.deadline = s.cur →
      Tr x s { s with pc := .sleep }
  | armNew (s : St C) (d : Option Nat) : s.pc = .arm →
      d = minOfSome (minOfSome (x.timeout s.c) s.rel) s.stage.deadline →
      Tr x s { s with cur := d, sleepAt := d.getD (s.now + defaultSleep), pc := .sleep }
  | stay (s : St C) : s.pc = .sleep → Tr x s s
  | expired (s : St C) (d : Nat) : s.pc = .post → s.stage = .handshake (some d) → d ≤ s.clock →
      Tr x s (({ s with c := x.close s.c } : St C).finish x .timeout)
  | post (s : St C) : s.pc = .post → (∀ d, s.stage = .handshake (some d) → s.clock < d) →
      Tr x s { s with pc := .top }
  | timer (s : St C) : s.pc = .sleep → s.sleepAt ≤ s.clock →
      Tr x s { s with
        c := x.onTimeout s.c s.clock, rel := none, cur := none, sleepAt := s.now + defaultSleep,
        pc := .post, log := s.log ++ [.onTimeout s.clock] }
  | packet (s : St C) (p : Incoming) (q : List Incoming) : s.pc = .sleep → s.clock < s.sleepAt →
      s.queue = p :: q → Tr x s { s with inPkt := some p, queue := q, pc := .post }
  | app (s : St C) (c : C) : s.pc = .sleep → s.clock < s.sleepAt → s.queue = [] →
      Tr x s { s with c := c, pc := .post }
  | appBad (s : St C) (c : C) : s.pc = .sleep → s.clock < s.sleepAt → s.queue = [] →
      Tr x s (({ s with c := c } : St C).finish x .app)
  | tlsBad (s : St C) (c : C) (g : Gathered) : s.pc = .sleep → s.clock < s.sleepAt → s.queue = [] →
      Tr x s ((s.took c g).finish x .send)
  | poll (s : St C) : s.pc = .sleep → s.clock < s.sleepAt → s.queue = [] → x.act s.c = false →
      (x.gather s.c s.clock).2.pkts = 0 →
      Tr x s (s.took (x.gather s.c s.clock).1 (x.gather s.c s.clock).2)
  | flush (s : St C) (c : C) (g : Gathered) : s.pc = .sleep → s.clock < s.sleepAt → s.queue = [] →
      x.gather s.c s.clock = (c, g) →
      Tr x s { s.took c g with pc := .post, log := s.log ++ [.sent g.pkts] }

theorem leave_running (x : Cx C) (s : St C) (h : s.stage = .running) : s.leave x = s.finish x .ok := by
  unfold St.leave; rw [h]

theorem start_cases (x : Cx C) (s : St C) :
    (∃ c', s.startRunning x = ({ s with c := c', log := s.log ++ [.established (x.established s.c)] } : St C).finish x .ok)
    ∨ (∃ c' l, Calls l ∧ (x.act (x.onEstablished s.c).1 = true → ∃ l', l = .reads :: l') ∧
        s.startRunning x = { s with
          c := c', stage := .running, pc := .top, cur := none, sleepAt := s.clock + defaultSleep,
          log := s.log ++ [.established (x.established s.c), .forget] ++ l })
    ∨ (∃ c' l, Calls l ∧ s.startRunning x = ({ s with
          c := c', stage := .running,
          log := s.log ++ [.established (x.established s.c), .forget] ++ l } : St C).finish x .app) := by
  unfold St.startRunning
  by_cases ho : (x.onEstablished s.c).2 = true
  · right
    simp only [ho, if_true]
    generalize hy : ({ s with
      c := (x.onEstablished s.c).1,
      log := s.log ++ [Ev.established (x.established s.c)] ++ [Ev.forget],
      stage := .running } : St C) = y
    obtain ⟨c, l, h1, h2, h3⟩ := onRead_eq x y true
    rcases hf : y.onRead x true with ⟨s', ok⟩
    rw [hf] at h1
    simp only at h1
    subst h1
    subst hy
    cases ok
    · right
      exact ⟨c, l, h2, by simp⟩
    · left
      exact ⟨c, l, h2, fun ha => h3 ha rfl, by simp⟩
  · left
    simp only [ho]
    exact ⟨(x.onEstablished s.c).1, by simp⟩

theorem go_tr (x : Cx C) (s : St C) (ho : s.stage ≠ .over) : Tr x s (s.go x) := by
  unfold St.go
  split
  next hpc => exact Tr.top s hpc
  next hpc =>
    by_cases hp : s.pend = true
    · rw [if_pos hp]; exact Tr.again s hpc hp
    · rw [if_neg hp]; exact Tr.enough s hpc (by simpa using hp)
  next hpc =>
    rcases hn : s.next with _ | ⟨p, s1⟩
    · exact Tr.look s hpc hn
    · simp only
      obtain ⟨h1, h2⟩ := recvAll_ok x p.dgrams s1.c
      rcases hr : recvAll x s1.c p.dgrams with ⟨c, l, ok⟩
      rw [hr] at h1 h2
      cases ok
      · exact Tr.recvBad s s1 p c l hpc hn h1
      · have h3 : l = p.dgrams := h2 rfl
        rw [h3]
        exact Tr.recv s s1 p c hpc hn
  next hpc =>
    by_cases hs : s.stage = .running
    · rw [if_pos hs]
      obtain ⟨c, l, h1, h2, h3⟩ := onRead_eq x s s.didRecv
      rcases hf : s.onRead x s.didRecv with ⟨s', ok⟩
      rw [hf] at h1
      simp only at h1
      subst h1
      cases ok
      · exact Tr.readBad s c l hpc hs h2
      · exact Tr.read s c l hpc h2 (fun h => absurd hs h) (fun _ => h3)
    · rw [if_neg hs]
      have := Tr.read (x := x) s s.c [] hpc (Or.inl rfl) (fun _ => rfl) (fun h => absurd h hs)
      simpa using this
  next hpc =>
    by_cases hc : s.pend = true ∧ s.sent < ratio
    · rw [if_pos (by simpa using hc)]
      rcases hg : x.gather s.c s.clock with ⟨c, g⟩
      simp only
      by_cases hk : g.ok = true
      · rw [if_neg (by simp [hk])]
        have hcc : (s.took c g).c = c := rfl
        have hst : (s.took c g).stage = s.stage := rfl
        rw [hcc]
        by_cases hcl : x.closed c = true
        · rw [if_pos hcl]
          have := Tr.closed (x := x) s hpc (by rw [hg]; exact hcl)
          rw [hg] at this
          have hl : (s.took c g).leave x = (s.took c g).finish x (if s.stage = .running then .ok else .closedInHandshake) := by
            unfold St.leave
            rw [hst, hcc]
            split
            next d hd => rw [if_pos hcl, if_neg (by rw [hd]; simp)]
            next hd =>
              have hr : s.stage = .running := by
                rcases h : s.stage with d | _ | _
                · exact absurd h (hd d)
                · rfl
                · exact absurd h ho
              rw [if_pos hr]
          rw [hl]
          exact this
        · rw [if_neg hcl]
          split
          next d hd =>
            have hnr : s.stage ≠ .running := by
              intro h
              rw [hst, h] at hd
              simp at hd
            by_cases he : x.established c = true ∨ x.early c = true
            · rw [if_pos (by simpa using he)]
              generalize hy : ({ s.took c g with
                sent := (s.took c g).sent + g.pkts, log := (s.took c g).log ++ [Ev.sent g.pkts] } : St C) = y
              have hyc : y.c = c := by rw [← hy]; rfl
              have hyd : y.stage = .handshake d := by rw [← hy]; exact hd
              have hl : y.leave x = y.startRunning x := by
                unfold St.leave
                rw [hyd]
                simp only
                rw [hyc, if_neg hcl]
              have hgoal : Tr x s (y.startRunning x) → Tr x s (y.leave x) := by rw [hl]; exact id
              suffices h : Tr x s (y.leave x) by subst hy; exact h
              apply hgoal
              rcases start_cases x y with ⟨c', h⟩ | ⟨c', l, h1, h2, h⟩ | ⟨c', l, h1, h⟩
              · rw [h, hyc]; subst hy
                exact Tr.refused s c g c' hpc hnr hc.1 hc.2 hg he
              · rw [h]; rw [hyc] at h2 ⊢; subst hy
                exact Tr.shook s c g c' l hpc hnr hc.1 hc.2 hg he h1 h2
              · rw [h, hyc]; subst hy
                exact Tr.shookBad s c g c' l hpc hnr hc.1 hc.2 hg he h1
            · rw [if_neg (by simpa using he)]
              exact Tr.sent s c g hpc hg hc.1 hc.2
          next => exact Tr.sent s c g hpc hg hc.1 hc.2
      · rw [if_pos (by simpa using hk)]
        have := Tr.sendBad (x := x) s hpc
        rw [hg] at this
        exact this
    · rw [if_neg (by simpa using hc)]
      exact Tr.innerEnd s hpc hc
  next hpc =>
    by_cases hd : minOfSome (minOfSome (x.timeout s.c) s.rel) s.stage.deadline = s.cur
    · rw [if_pos hd]; exact Tr.armOld s hpc hd
    · rw [if_neg hd]; exact Tr.armNew s _ hpc rfl
  next hpc => exact Tr.stay s hpc
  next hpc =>
    split
    next d hs =>
      by_cases hd : d ≤ s.clock
      · rw [if_pos hd]; exact Tr.expired s d hpc hs hd
      · rw [if_neg hd]
        exact Tr.post s hpc (by intro d' h; rw [hs] at h; simp at h; omega)
    next hs => exact Tr.post s hpc (by intro d h; exact absurd h (hs d))

theorem wake_tr (x : Cx C) (s : St C) (hpc : s.pc = .sleep) : Tr x s (s.wake x) := by
  unfold St.wake
  by_cases hd : s.sleepAt ≤ s.clock
  · rw [if_pos hd]; exact Tr.timer s hpc hd
  · rw [if_neg hd]
    have hd' : s.clock < s.sleepAt := by omega
    split
    next p q hq => exact Tr.packet s p q hpc hd' hq
    next hq =>
      by_cases ha : x.act s.c = true
      · rw [if_pos ha]
        rcases hw : x.wait s.c with ⟨c, ok⟩
        cases ok
        · exact Tr.appBad s c hpc hd' hq
        · exact Tr.app s c hpc hd' hq
      · rw [if_neg ha]
        rcases hg : x.gather s.c s.clock with ⟨c, g⟩
        simp only
        by_cases hk : g.ok = true
        · rw [if_neg (by simp [hk])]
          by_cases hp : g.pkts = 0
          · rw [if_pos hp]
            have := Tr.poll (x := x) s hpc hd' hq (by simpa using ha) (by rw [hg]; exact hp)
            rw [hg] at this
            exact this
          · rw [if_neg hp]
            exact Tr.flush s c g hpc hd' hq hg
        · rw [if_pos (by simpa using hk)]
          exact Tr.tlsBad s c g hpc hd' hq

/-- What holds of a new task, is kept by its steps, by arrivals and by time, holds always. -/
theorem run_inv (x : Cx C) (P : St C → Prop)
    (ht : ∀ s s', s.stage ≠ .over → P s → Tr x s s' → P s')
    (ha : ∀ s p, P s → P { s with queue := s.queue ++ [p] })
    (hp : ∀ s d, P s → P { s with clock := s.clock + d })
    (ops : List Op) : ∀ s : St C, P s → P (s.run x ops) := by
  induction ops with
  | nil => intro s h; exact h
  | cons op ops ih =>
    intro s h
    apply ih
    cases op with
    | arrive p => exact ha s p h
    | pass d => exact hp s d h
    | go =>
      simp only [St.step]
      by_cases ho : s.stage = .over
      · rw [if_pos ho]; exact h
      · rw [if_neg ho]; exact ht s _ ho h (go_tr x s ho)
    | wake =>
      simp only [St.step]
      by_cases ho : s.stage = .over
      · rw [if_pos ho]; exact h
      · rw [if_neg ho]
        by_cases hs : s.pc = .sleep
        · rw [if_pos hs]; exact ht s _ ho h (wake_tr x s hs)
        · rw [if_neg hs]; exact h

theorem run_append (x : Cx C) (a b : List Op) : ∀ s : St C, s.run x (a ++ b) = (s.run x a).run x b := by
  induction a with
  | nil => intro s; rfl
  | cons o a ih => intro s; exact ih _

end Verif.Tq.Worker
