import Verif.Tq.Connector

/-!
C173: the connector of a client. The connection is handed over at most once, only when it is
established, and after that or an error the connector does nothing more. While the handshake
goes on the one timer is armed exactly for the time the connection asks for. The connection gets
each datagram for its connection ID that comes in between, once and in order. The time of the
start of the handshake that is handed over with it is not that.
-/

namespace Verif.Props.C173
open Verif.Tq.Connector

variable {C D : Type}

/-- The calls of a connection that does not change its source connection ID, as during the
handshake. -/
structure Stable (a : Api C D) : Prop where
  recv : ∀ c d, a.scid (a.recv c d) = a.scid c
  onTimeout : ∀ c, a.scid (a.onTimeout c) = a.scid c
  send : ∀ c, a.scid (a.send c).1 = a.scid c

theorem Stable.fold {a : Api C D} (h : Stable a) : ∀ (ds : List D) (c : C),
    a.scid (ds.foldl a.recv c) = a.scid c
  | [], _ => rfl
  | d :: ds, c => by rw [List.foldl_cons, h.fold ds, h.recv]

/-- The timers are the one of the connection. -/
def Armed (a : Api C D) (s : St C) : Prop :=
  match s.phase with
  | .pending c k _ =>
    match a.timeout c with
    | none => k = none ∧ s.queue = []
    | some t => ∃ key, k = some key ∧ s.queue = [⟨key, a.scid c, t⟩]
  | _ => s.queue = []

theorem pend_armed {a : Api C D} {s : St C} (c : C) (now : Nat) (h : s.queue = []) :
    Armed a (pend a s c now).1 := by
  unfold pend
  split
  · exact h
  · split
    · rename_i ht
      simp only [Armed, ht]
      exact ⟨trivial, h⟩
    · rename_i t ht
      simp only [Armed, ht, h]
      exact ⟨_, rfl, rfl⟩

theorem pend_out (a : Api C D) (s : St C) (c : C) (now : Nat) :
    (pend a s c now).2 = .none ∨ (pend a s c now).2 = .sendError := by
  unfold pend
  split
  · exact Or.inr rfl
  · split <;> exact Or.inl rfl

theorem remove_one (e : Entry) : remove [e] e.key = some [] := by
  simp [remove]

theorem step_armed {a : Api C D} {s : St C} (h : Armed a s) (e : Ev D) :
    Armed a (step a s e).1 ∧ (step a s e).2 ≠ .panic := by
  have hp : ∀ s c now, (pend a s c now).2 ≠ .panic := by
    intro s c now he
    rcases pend_out a s c now with h | h <;> rw [h] at he <;> cases he
  cases e with
  | incoming dcid ds now =>
    simp only [step, incoming]
    split
    · rename_i c key st hph
      have hq : disarm s.queue key = some [] := by
        simp only [Armed, hph] at h
        split at h
        · rw [h.1, h.2]; rfl
        · obtain ⟨k, h1, h2⟩ := h
          rw [h1, h2]
          exact remove_one ⟨k, _, _⟩
      split
      · rw [hq]
        simp only
        split
        · exact ⟨rfl, (fun h => by cases h)⟩
        · split
          · exact ⟨rfl, (fun h => by cases h)⟩
          · exact ⟨pend_armed _ _ rfl, hp _ _ _⟩
      · exact ⟨h, (fun h => by cases h)⟩
    · exact ⟨h, (fun h => by cases h)⟩
  | expire e now =>
    simp only [step, expire]
    split
    · rename_i he
      simp only [Option.getD_some, onTimeout]
      split
      · rename_i c key st hph
        simp only [Armed, hph] at h
        split at h
        · rw [h.2] at he; cases he.1
        · obtain ⟨k, h1, h2⟩ := h
          rw [h2] at he
          have hee := List.mem_singleton.mp he.1
          have hf : s.queue.filter (fun x => x.key != e.key) = [] := by
            rw [h2, hee]; simp
          rw [hf]
          split
          · split
            · exact ⟨rfl, (fun h => by cases h)⟩
            · exact ⟨pend_armed _ _ rfl, hp _ _ _⟩
          · rename_i hne
            rw [hee] at hne
            exact absurd rfl hne
      · rename_i hph
        have hq : s.queue = [] := by
          revert h
          unfold Armed
          split
          · rename_i c k st hx
            exact absurd hx (hph c k st)
          · exact id
        rw [hq] at he
        cases he.1
    · exact ⟨h, (fun h => by cases h)⟩
  | start now =>
    simp only [step, startQueued]
    split
    · rename_i c hph
      simp only [Armed, hph] at h
      exact ⟨pend_armed _ _ h, hp _ _ _⟩
    · exact ⟨h, (fun h => by cases h)⟩

theorem run_armed {a : Api C D} : ∀ (es : List (Ev D)) {s : St C}, Armed a s →
    Armed a (run a s es).1 ∧ ∀ o ∈ (run a s es).2, o ≠ .panic
  | [], _, h => ⟨h, (fun _ h => by cases h)⟩
  | e :: es, s, h => by
    have h1 := step_armed h e
    have h2 := run_armed es h1.1
    simp only [run]
    refine ⟨h2.1, ?_⟩
    intro o ho
    rcases List.mem_cons.mp ho with ho | ho
    · rw [ho]; exact h1.2
    · exact h2.2 o ho

/-- Nothing panics, and while the handshake goes on the only timer is for the time that the
connection asks for; otherwise there is none. -/
theorem armed (a : Api C D) (c : C) (es : List (Ev D)) :
    (∀ o ∈ (run a (new c) es).2, o ≠ .panic) ∧
    match (run a (new c) es).1.phase with
    | .pending c' _ _ => (run a (new c) es).1.queue.map (fun e => (e.scid, e.at_)) =
        (a.timeout c').toList.map (fun t => (a.scid c', t))
    | _ => (run a (new c) es).1.queue = [] := by
  have h := run_armed (a := a) es (s := new c) rfl
  refine ⟨h.2, ?_⟩
  have h1 := h.1
  unfold Armed at h1
  split
  · rename_i c' k st hph
    rw [hph] at h1
    simp only at h1
    cases ht : a.timeout c' with
    | none => rw [ht] at h1; rw [h1.2]; rfl
    | some t =>
      rw [ht] at h1
      obtain ⟨key, _, h2⟩ := h1
      rw [h2]; rfl
  · rename_i hph
    split at h1
    · rename_i c' k st hx
      exact absurd hx (hph c' k st)
    · exact h1

/-! ### Handing over -/

theorem run_returned {a : Api C D} : ∀ (es : List (Ev D)) {s : St C}, s.phase = .returned →
    Armed a s → (run a s es).1.phase = .returned ∧ ∀ o ∈ (run a s es).2, o = .none
  | [], _, h, _ => ⟨h, (fun _ h => by cases h)⟩
  | e :: es, s, h, ha => by
    have hq : s.queue = [] := by simpa [Armed, h] using ha
    have h1 : step a s e = (s, .none) := by
      cases e with
      | incoming => simp [step, incoming, h]
      | expire => simp [step, expire, hq]
      | start => simp [step, startQueued, h]
    have h2 := run_returned es h ha
    simp only [run, h1]
    refine ⟨h2.1, ?_⟩
    intro o ho
    rcases List.mem_cons.mp ho with ho | ho
    · exact ho
    · exact h2.2 o ho

theorem step_out {a : Api C D} {s : St C} (e : Ev D) (h : (step a s e).2 ≠ .none) :
    (step a s e).1.phase = .returned := by
  have hp : ∀ s c now, (pend a s c now).2 ≠ .none → (pend a s c now).1.phase = .returned := by
    intro s c now h
    unfold pend at h ⊢
    split
    · rfl
    · rename_i hs
      rw [hs] at h
      simp only at h
      split at h <;> exact absurd rfl h
  cases e with
  | incoming dcid ds now =>
    simp only [step, incoming] at h ⊢
    repeat' split
    all_goals simp_all
  | expire e now =>
    simp only [step, expire] at h ⊢
    split
    · rename_i he
      rw [if_pos he] at h
      simp only [Option.getD_some, onTimeout] at h ⊢
      repeat' split
      all_goals simp_all
    · rename_i he
      rw [if_neg he] at h
      exact absurd rfl h
  | start now =>
    simp only [step, startQueued] at h ⊢
    repeat' split
    all_goals simp_all

/-- After a call that returned a connection or an error, the connector does nothing more: the
calls of a run that return something are at most one. -/
theorem once (a : Api C D) (c : C) (es : List (Ev D)) :
    ((run a (new c) es).2.filter fun o => match o with
      | .none => false
      | _ => true).length ≤ 1 := by
  suffices ∀ (es : List (Ev D)) (s : St C), Armed a s → ((run a s es).2.filter fun o => match o with
      | .none => false
      | _ => true).length ≤ 1 from this es (new c) rfl
  intro es
  induction es with
  | nil => intro s _; exact Nat.zero_le _
  | cons e es ih =>
    intro s hs
    have h1 := (step_armed hs e).1
    simp only [run]
    cases ho : (step a s e).2 with
    | none => simpa using ih _ h1
    | _ =>
      have h2 := run_returned es (step_out e (by rw [ho]; exact (fun h => by cases h))) h1
      have h3 : ((run a (step a s e).1 es).2.filter fun o => match o with
          | .none => false
          | _ => true) = [] := by
        rw [List.filter_eq_nil_iff]
        intro o hm
        rw [h2.2 o hm]
        exact Bool.false_ne_true
      simp [List.filter_cons, h3]

/-! ### What the connection is given -/

/-- The datagrams for a connection ID. -/
def fed (cid : Nat) : List (Ev D) → List D
  | [] => []
  | .incoming d ds _ :: es => (if d = cid then ds else []) ++ fed cid es
  | _ :: es => fed cid es

/-- Those after the first `start`. -/
def fedAfter (cid : Nat) : List (Ev D) → List D
  | [] => []
  | .start _ :: es => fed cid es
  | _ :: es => fedAfter cid es

/-- A log of the datagrams given to a connection. -/
structure Logs (a : Api C D) (log : C → List D) : Prop where
  recv : ∀ c d, log (a.recv c d) = log c ++ [d]
  onTimeout : ∀ c, log (a.onTimeout c) = log c
  send : ∀ c, log (a.send c).1 = log c

theorem Logs.fold {a : Api C D} {log : C → List D} (h : Logs a log) : ∀ (ds : List D) (c : C),
    log (ds.foldl a.recv c) = log c ++ ds
  | [], c => by simp
  | d :: ds, c => by rw [List.foldl_cons, h.fold ds, h.recv]; simp

/-- What is known of the connection after the events `es`. -/
def Fed (a : Api C D) (log : C → List D) (cid : Nat) (c : C) (es : List (Ev D)) (s : St C) : Prop :=
  match s.phase with
  | .queued c' => c' = c ∧ (∀ e ∈ es, ∀ t, e ≠ .start t)
  | .pending c' _ _ => a.scid c' = cid ∧ log c' = log c ++ fedAfter cid es ∧ ∃ e ∈ es, ∃ t, e = .start t
  | .returned => True

theorem fed_append (cid : Nat) : ∀ (l m : List (Ev D)), fed cid (l ++ m) = fed cid l ++ fed cid m
  | [], _ => rfl
  | .incoming .. :: l, m => by simp [fed, fed_append cid l m]
  | .expire .. :: l, m => fed_append cid l m
  | .start _ :: l, m => fed_append cid l m

theorem fedAfter_append (cid : Nat) : ∀ (l m : List (Ev D)), (∃ e ∈ l, ∃ t, e = Ev.start t) →
    fedAfter cid (l ++ m) = fedAfter cid l ++ fed cid m
  | [], _, h => by obtain ⟨_, h, _⟩ := h; cases h
  | .start _ :: l, m, _ => fed_append cid l m
  | .incoming .. :: l, m, h => by
    obtain ⟨e, he, t, ht⟩ := h
    rcases List.mem_cons.mp he with h1 | h1
    · rw [h1] at ht; cases ht
    · exact fedAfter_append cid l m ⟨e, h1, t, ht⟩
  | .expire .. :: l, m, h => by
    obtain ⟨e, he, t, ht⟩ := h
    rcases List.mem_cons.mp he with h1 | h1
    · rw [h1] at ht; cases ht
    · exact fedAfter_append cid l m ⟨e, h1, t, ht⟩

theorem fedAfter_start (cid : Nat) : ∀ (l : List (Ev D)), (∀ e ∈ l, ∀ t, e ≠ Ev.start t) →
    ∀ m, fedAfter cid (l ++ m) = fedAfter cid m
  | [], _, _ => rfl
  | .start t :: l, h, _ => absurd rfl (h _ (List.mem_cons_self ..) t)
  | .incoming .. :: l, h, m => fedAfter_start cid l (fun e he => h e (List.mem_cons_of_mem _ he)) m
  | .expire .. :: l, h, m => fedAfter_start cid l (fun e he => h e (List.mem_cons_of_mem _ he)) m

theorem pend_fed {a : Api C D} {log : C → List D} (hs : Stable a) (hl : Logs a log) {cid : Nat}
    {c : C} {es : List (Ev D)} (s : St C) (c' : C) (now : Nat) (h1 : a.scid c' = cid)
    (h2 : log c' = log c ++ fedAfter cid es) (h3 : ∃ e ∈ es, ∃ t, e = Ev.start t) :
    Fed a log cid c es (pend a s c' now).1 := by
  have e1 := hs.send c'
  have e2 := hl.send c'
  unfold pend
  split
  · trivial
  · rename_i c'' hx
    rw [hx] at e1 e2
    simp only at e1 e2
    split
    · exact ⟨e1.trans h1, e2.trans h2, h3⟩
    · exact ⟨e1.trans h1, e2.trans h2, h3⟩

theorem step_fed {a : Api C D} {log : C → List D} (hs : Stable a) (hl : Logs a log) {cid : Nat}
    {c : C} (hc : a.scid c = cid) {es : List (Ev D)} {s : St C} (h : Fed a log cid c es s) (e : Ev D) :
    Fed a log cid c (es ++ [e]) (step a s e).1 ∧
    ∀ c' t, (step a s e).2 = .conn c' t →
      a.est c' = true ∧ log c' = log c ++ fedAfter cid (es ++ [e]) := by
  have hp : ∀ s c now c' t, (pend a s c now).2 ≠ .conn c' t := by
    intro s c now c' t he
    rcases pend_out a s c now with h | h <;> rw [h] at he <;> cases he
  -- events that change nothing
  have hsame : (∀ t, e ≠ .start t) → (s.phase matches .pending .. → fed cid [e] = []) → Fed a log cid c (es ++ [e]) s := by
    intro hne hf
    unfold Fed at h ⊢
    split
    · rename_i c' hph
      rw [hph] at h
      refine ⟨h.1, ?_⟩
      intro x hx
      rcases List.mem_append.mp hx with hx | hx
      · exact h.2 x hx
      · rw [List.mem_singleton.mp hx]; exact hne
    · rename_i c' k st hph
      rw [hph] at h hf
      refine ⟨h.1, ?_, ?_⟩
      · rw [fedAfter_append _ _ _ h.2.2, hf rfl, List.append_nil]; exact h.2.1
      · obtain ⟨x, hx, t, ht⟩ := h.2.2
        exact ⟨x, List.mem_append.mpr (Or.inl hx), t, ht⟩
    · trivial
  cases e with
  | incoming dcid ds now =>
    simp only [step, incoming]
    split
    · rename_i c0 key st hph
      have h0 := h
      simp only [Fed, hph] at h0
      split
      · rename_i hd
        have hd' : dcid = cid := hd.trans h0.1
        have hlog : log (ds.foldl a.recv c0) = log c ++ fedAfter cid (es ++ [.incoming dcid ds now]) := by
          rw [hl.fold, h0.2.1, fedAfter_append _ _ _ h0.2.2]
          simp [fed, hd']
        have hsc : a.scid (ds.foldl a.recv c0) = cid := (hs.fold ds c0).trans h0.1
        have hst : ∃ e ∈ es ++ [.incoming dcid ds now], ∃ t, e = Ev.start t := by
          obtain ⟨x, hx, t, ht⟩ := h0.2.2
          exact ⟨x, List.mem_append.mpr (Or.inl hx), t, ht⟩
        split
        · exact ⟨trivial, (fun _ _ h => by cases h)⟩
        · split
          · rename_i he
            refine ⟨trivial, ?_⟩
            intro c' t hx
            cases hx
            exact ⟨he, hlog⟩
          · split
            · exact ⟨trivial, (fun _ _ h => by cases h)⟩
            · exact ⟨pend_fed hs hl _ _ _ hsc hlog hst, fun c' t hx => absurd hx (hp _ _ _ _ _)⟩
      · rename_i hd
        refine ⟨hsame (fun t h => by cases h) ?_, (fun _ _ h => by cases h)⟩
        intro _
        simp only [fed]
        rw [if_neg (fun hh => hd (hh.trans h0.1.symm))]
        rfl
    · rename_i hph
      refine ⟨hsame (fun t h => by cases h) ?_, (fun _ _ h => by cases h)⟩
      intro hm
      split at hm
      · rename_i c k st hx
        exact absurd hx (hph c k st)
      · cases hm
  | expire en now =>
    have hnone : Fed a log cid c (es ++ [.expire en now]) s :=
      hsame (fun t h => by cases h) (fun _ => rfl)
    simp only [step, expire]
    split
    · simp only [Option.getD_some, onTimeout]
      split
      · rename_i c0 key st hph
        have h0 := h
        simp only [Fed, hph] at h0
        split
        · split
          · exact ⟨trivial, (fun _ _ h => by cases h)⟩
          · refine ⟨pend_fed hs hl _ _ _ ((hs.onTimeout c0).trans h0.1) ?_ ?_, fun c' t hx => absurd hx (hp _ _ _ _ _)⟩
            · rw [hl.onTimeout, h0.2.1, fedAfter_append _ _ _ h0.2.2]
              simp [fed]
            · obtain ⟨x, hx, t, ht⟩ := h0.2.2
              exact ⟨x, List.mem_append.mpr (Or.inl hx), t, ht⟩
        · refine ⟨?_, (fun _ _ h => by cases h)⟩
          have := hnone
          simp only [Fed, hph] at this ⊢
          exact this
      · refine ⟨?_, (fun _ _ h => by cases h)⟩
        exact hnone
    · exact ⟨hnone, (fun _ _ h => by cases h)⟩
  | start now =>
    simp only [step, startQueued]
    split
    · rename_i c0 hph
      have h0 := h
      simp only [Fed, hph] at h0
      refine ⟨pend_fed hs hl _ _ _ (by rw [h0.1]; exact hc) ?_ ?_, fun c' t hx => absurd hx (hp _ _ _ _ _)⟩
      · rw [fedAfter_start _ _ h0.2, h0.1]
        simp [fedAfter, fed]
      · exact ⟨.start now, List.mem_append.mpr (Or.inr (List.mem_singleton.mpr rfl)), now, rfl⟩
    · rename_i hph
      refine ⟨?_, (fun _ _ h => by cases h)⟩
      unfold Fed at h ⊢
      split
      · rename_i c' hx
        exact absurd hx (hph c')
      · rename_i c' k st hx
        rw [hx] at h
        refine ⟨h.1, ?_, ?_⟩
        · rw [fedAfter_append _ _ _ h.2.2]
          simpa [fed] using h.2.1
        · obtain ⟨x, hx, t, ht⟩ := h.2.2
          exact ⟨x, List.mem_append.mpr (Or.inl hx), t, ht⟩
      · trivial

theorem run_snoc {a : Api C D} : ∀ (es : List (Ev D)) (s : St C) (e : Ev D),
    (run a s (es ++ [e])).1 = (step a (run a s es).1 e).1
  | [], _, _ => rfl
  | x :: es, s, e => by
    simp only [List.cons_append, run]
    exact run_snoc es _ e

theorem run_fed {a : Api C D} {log : C → List D} (hs : Stable a) (hl : Logs a log)
    (c : C) (es : List (Ev D)) : Fed a log (a.scid c) c es (run a (new c) es).1 := by
  suffices ∀ (es pre : List (Ev D)) (s : St C), Fed a log (a.scid c) c pre s →
      Fed a log (a.scid c) c (pre ++ es) (run a s es).1 from by
    simpa using this es [] (new c) ⟨rfl, (fun _ h => by cases h)⟩
  intro es
  induction es with
  | nil => intro pre s h; rw [List.append_nil]; exact h
  | cons e es ih =>
    intro pre s h
    have := ih (pre ++ [e]) _ (step_fed hs hl rfl h e).1
    simpa [run] using this

/-- A connection that is handed over is established, and was given exactly the datagrams for its
connection ID since the start, in order. -/
theorem handed (a : Api C D) (log : C → List D) (hs : Stable a) (hl : Logs a log) (c : C)
    (es : List (Ev D)) (e : Ev D) (c' : C) (t : Nat)
    (h : (step a (run a (new c) es).1 e).2 = .conn c' t) :
    a.est c' = true ∧ log c' = log c ++ fedAfter (a.scid c) (es ++ [e]) :=
  (step_fed hs hl rfl (run_fed hs hl c es) e).2 c' t h

/-- The connector gives up on a connection only if it is closed and not established, or a call of
`send` failed. -/
theorem gives_up (a : Api C D) (s : St C) (e : Ev D) (c : C) (k : Option Nat) (st : Nat)
    (h : s.phase = .pending c k st) (ho : (step a s e).2 = .timedOut) :
    (∃ d ds n, e = .incoming d ds n ∧ a.closed (ds.foldl a.recv c) = true ∧
      a.est (ds.foldl a.recv c) = false) ∨
    (∃ en n, e = .expire en n ∧ en ∈ s.queue ∧ en.at_ ≤ n ∧ a.closed (a.onTimeout c) = true) := by
  have hp : ∀ s c now, (pend a s c now).2 ≠ .timedOut := by
    intro s c now he
    rcases pend_out a s c now with h | h <;> rw [h] at he <;> cases he
  cases e with
  | incoming d ds n =>
    refine Or.inl ⟨d, ds, n, rfl, ?_⟩
    simp only [step, incoming, h] at ho
    split at ho
    · split at ho
      · cases ho
      · split at ho
        · cases ho
        · rename_i he
          split at ho
          · rename_i hc
            exact ⟨hc, by simpa using he⟩
          · exact absurd ho (hp _ _ _)
    · cases ho
  | expire en n =>
    refine Or.inr ⟨en, n, rfl, ?_⟩
    simp only [step, expire] at ho
    split at ho
    · rename_i he
      simp only [Option.getD_some, onTimeout, h] at ho
      split at ho
      · split at ho
        · rename_i hc
          exact ⟨he.1, he.2, hc⟩
        · exact absurd ho (hp _ _ _)
      · cases ho
    · cases ho
  | start n =>
    simp only [step, startQueued, h] at ho
    cases ho

/-! ### The time of the start -/

/-- The time handed over is that of the start if the handshake takes one datagram and no timeout:
packets for other connections may come in between. What is missing: any other handshake
(`start_false`). -/
theorem start_partial (a : Api C D) (c : C) (t0 : Nat) (es : List (Ev D)) (e : Ev D)
    (hes : ∀ x ∈ es, ∃ d ds n, x = .incoming d ds n ∧ d ≠ a.scid (a.send c).1) (c' : C) (t : Nat)
    (h : (step a (run a (new c) (.start t0 :: es)).1 e).2 = .conn c' t) : t = t0 := by
  have h0 : ∀ (es : List (Ev D)) (s : St C) (c1 : C) (k : Option Nat),
      s.phase = .pending c1 k t0 → (∀ x ∈ es, ∃ d ds n, x = .incoming d ds n ∧ d ≠ a.scid c1) →
      (run a s es).1.phase = .pending c1 k t0 := by
    intro es
    induction es with
    | nil => intro s c1 k h _; exact h
    | cons x es ih =>
      intro s c1 k h hx
      obtain ⟨d, ds, n, h1, h2⟩ := hx x (List.mem_cons_self ..)
      have : (step a s x).1 = s := by
        rw [h1]
        simp [step, incoming, h, h2]
      simp only [run, this]
      exact ih s c1 k h (fun y hy => hx y (List.mem_cons_of_mem _ hy))
  have h1 : (∃ k, (step a (new c) (.start t0)).1.phase = .pending (a.send c).1 k t0) ∨
      (step a (new c) (.start t0)).1 = { phase := .returned, queue := [], next := 0 } := by
    simp only [step, startQueued, new, pend]
    split
    · exact Or.inr rfl
    · rename_i c1 hx
      rw [hx]
      split
      · exact Or.inl ⟨_, rfl⟩
      · exact Or.inl ⟨_, rfl⟩
  simp only [run] at h
  rcases h1 with ⟨k, h1⟩ | h1
  · have h2 := h0 es _ _ _ h1 hes
    generalize (run a (step a (new c) (.start t0)).1 es).1 = s2 at h h2
    have hp : ∀ s c now c' t, (pend a s c now).2 ≠ .conn c' t := by
      intro s c now c' t he
      rcases pend_out a s c now with h | h <;> rw [h] at he <;> cases he
    cases e with
    | incoming d ds n =>
      simp only [step, incoming, h2] at h
      split at h
      · split at h
        · cases h
        · split at h
          · cases h; rfl
          · split at h
            · cases h
            · exact absurd h (hp _ _ _ _ _)
      · cases h
    | expire en n =>
      simp only [step, expire] at h
      split at h
      · simp only [Option.getD_some, onTimeout, h2] at h
        split at h
        · split at h
          · cases h
          · exact absurd h (hp _ _ _ _ _)
        · cases h
      · cases h
    | start n =>
      simp only [step, startQueued, h2] at h
      cases h
  · rw [h1] at h
    have h3 : (step a (run a { phase := .returned, queue := [], next := 0 } es).1 e).2 = .none := by
      have h4 := run_returned (a := a) es (s := { phase := .returned, queue := [], next := 0 }) rfl rfl
      have h5 := (run_armed (a := a) es (s := { phase := .returned, queue := [], next := 0 }) rfl).1
      exact (run_returned [e] h4.1 h5).2 _ (List.mem_singleton.mpr rfl)
    rw [h3] at h
    cases h

/-- A connection that is established with its second datagram, and asks for a timeout 100 after
each of its packets: what it holds is the number of datagrams and the time of its timer. -/
def two : Api (Nat × Nat) Unit where
  recv c _ := (c.1 + 1, c.2 + 100)
  onTimeout c := (c.1, c.2 + 100)
  send c := (c, true)
  est c := decide (2 ≤ c.1)
  closed c := decide (1000 ≤ c.2)
  timeout c := some c.2
  scid _ := 7

/-- The outcome without the connection. -/
def outcome : Out (Nat × Nat) → Option (Nat × Nat)
  | .conn c t => some (c.1, t)
  | _ => none

/-- The handshake begins at 0; a datagram comes at 50, the second at 60: the time handed over is
50 (1). With a timeout at 100 and both datagrams in one call it is 100 (2). -/
theorem start_false :
    (run two (new (0, 100)) [.start 0, .incoming 7 [()] 50, .incoming 7 [()] 60]).2.map outcome =
      [none, none, some (2, 50)] ∧
    (run two (new (0, 100)) [.start 0, .expire ⟨0, 7, 100⟩ 100, .incoming 7 [(), ()] 110]).2.map outcome =
      [none, none, some (2, 100)] := by
  decide +kernel

/-- A packet for another connection changes nothing, one before the start is lost, and after the
connection was handed over another is not read. -/
example :
    (run two (new (0, 100)) [.incoming 7 [(), ()] 0, .start 1, .incoming 8 [(), ()] 2, .incoming 7 [(), ()] 3,
      .incoming 7 [()] 4]).2.map outcome = [none, none, none, some (2, 1), none] := by
  decide +kernel

/-- Without an answer the connection times out in the end. -/
example : ((run two (new (0, 800)) [.start 0, .expire ⟨0, 7, 800⟩ 800, .expire ⟨1, 7, 900⟩ 900]).2.map fun o =>
    match o with
    | .timedOut => true
    | _ => false) = [false, false, true] := by
  decide +kernel

end Verif.Props.C173
