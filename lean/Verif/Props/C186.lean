import Verif.Tq.PostAccept

/-!
C186: the time a server gives for the first request.

If a server is set to a time for the first request, then a connection on which no request came
within that time of the start of the handshake is closed with H3_NO_ERROR when its task next finds
nothing else to do, and the controller is told why; not before that time, and not if a request came.
Setting and clearing the timer never panics.

It does not hold that the connection is closed, or the controller told, if the handshake took longer
than the time (`late_false`), nor that a peer cannot put off the end by sending (`busy_false`).
-/

namespace Verif.Props.C186

open Verif.Tq.PostAccept

/-- A server with these settings, and a connection whose handshake starts at `start`. -/
def server (timeout limit : Option Nat) (start : Nat) : St :=
  { timeout := timeout, limit := limit, start := start }

/-- Times are not before the start. -/
def From (start : Nat) : Ev → Prop
  | .established now => start ≤ now
  | .wake now _ => start ≤ now
  | _ => True

/-- No HEADERS frame. -/
def Quiet (l : List Ev) : Prop := ∀ id, Ev.headers id ∉ l

theorem run_append (s : St) (a b : List Ev) : s.run (a ++ b) = (s.run a).run b := by
  induction a generalizing s with
  | nil => rfl
  | cons e a ih => exact ih _

/-- The timer is either unused, or set in the hooks and the queue, to the given time after the
start. -/
structure Inv (timeout limit : Option Nat) (start : Nat) (s : St) : Prop where
  to : s.timeout = timeout
  li : s.limit = limit
  st : s.start = start
  np : s.panicked = false
  fresh : s.est = false → s.requests = 0
  timer : s.ended = none →
    (s.key = none ∧ s.queue = []) ∨
    (s.est = true ∧ s.requests = 0 ∧
      ∃ k t, timeout = some t ∧ s.key = some k ∧ s.queue = [(k, start + t)])

theorem inv_server (timeout limit : Option Nat) (start : Nat) :
    Inv timeout limit start (server timeout limit start) :=
  ⟨rfl, rfl, rfl, rfl, fun _ => rfl, fun _ => .inl ⟨rfl, rfl⟩⟩

theorem inv_close {T L : Option Nat} {st : Nat} {s : St} (h : Inv T L st s) (c : Nat) :
    Inv T L st (s.close c) := by
  unfold St.close
  split
  · exact ⟨h.to, h.li, h.st, h.np, h.fresh, h.timer⟩
  · exact h

theorem inv_request {T L : Option Nat} {st : Nat} {s : St} (h : Inv T L st s) (hs : s.est = true)
    (hk : s.key = none ∧ s.queue = []) (id : Nat) : Inv T L st (s.request id) := by
  unfold St.request
  split
  · exact h
  · exact ⟨h.to, h.li, h.st, h.np, fun hf => by simp [hs] at hf, fun _ => .inl hk⟩

/-- What HEADERS that are not over the limit do to the timer. -/
theorem headers_timer {T L : Option Nat} {st : Nat} {s : St} (h : Inv T L st s)
    (he : s.ended = none) (hf : s.full = false) (id : Nat) :
    s.headers id = ({ s with key := none, queue := [] } : St).request id := by
  unfold St.headers
  rw [hf]
  rcases h.timer he with ⟨hk, hq⟩ | ⟨h1, h2, k, t, ht, hk, hq⟩
  · have : ({ s with key := none, queue := [] } : St) = s := by
      cases s; simp at hk hq; subst hk; subst hq; rfl
    rw [this, hk]
    rfl
  · have hc : ({ s with key := none } : St).cancel k = { s with key := none, queue := [] } := by
      simp [St.cancel, hq]
    rw [hk]
    simp only [hc]
    rfl

theorem inv_headers {T L : Option Nat} {st : Nat} {s : St} (h : Inv T L st s)
    (he : s.ended = none) (hs : s.est = true) (id : Nat) : Inv T L st (s.headers id) := by
  by_cases hf : s.full = true
  · unfold St.headers
    rw [if_pos hf]
    exact inv_close h _
  · rw [headers_timer h he (by simpa using hf)]
    exact inv_request (s := { s with key := none, queue := [] })
      ⟨h.to, h.li, h.st, h.np, h.fresh, fun _ => .inl ⟨rfl, rfl⟩⟩ hs ⟨rfl, rfl⟩ id

theorem step_ended {s : St} (he : s.ended ≠ none) (e : Ev) : s.step e = s := by
  unfold St.step
  cases hh : s.ended with
  | none => exact absurd hh he
  | some _ => rfl

theorem inv_step {T L : Option Nat} {st : Nat} {s : St} (h : Inv T L st s) (e : Ev)
    (ht : From st e) : Inv T L st (s.step e) := by
  by_cases he : s.ended = none
  · unfold St.step
    rw [h.np]
    simp only [he, Option.isSome_none, Bool.or_self, Bool.false_eq_true, if_false]
    cases e with
    | established now =>
      dsimp only
      by_cases hs : s.est = true
      · rw [if_pos hs]; exact h
      · rw [if_neg hs]
        have hq : s.key = none ∧ s.queue = [] := by
          rcases h.timer he with h1 | h1
          · exact h1
          · exact absurd h1.1 hs
        have hr := h.fresh (by simpa using hs)
        unfold St.established
        cases T with
        | none =>
          simp only [h.to]
          exact ⟨rfl, h.li, h.st, h.np, fun hx => by simp at hx, fun _ => .inl hq⟩
        | some t =>
          simp only [h.to]
          split
          · rename_i hle
            refine ⟨rfl, h.li, h.st, h.np, fun hx => by simp at hx, fun _ => .inr ?_⟩
            refine ⟨rfl, hr, s.nextKey, t, rfl, rfl, ?_⟩
            have h1 : st ≤ now := ht
            rw [h.st] at hle ⊢
            simp only [hq.2, List.nil_append]
            rw [show now + (t - (now - st)) = st + t by omega]
          · exact ⟨rfl, h.li, h.st, h.np, fun hx => by simp at hx, fun hx => by simp at hx⟩
    | headers id =>
      dsimp only
      split
      · exact inv_headers h he (by assumption) id
      · exact h
    | cleanup id => exact ⟨h.to, h.li, h.st, rfl, h.fresh, fun _ => h.timer he⟩
    | close c => exact inv_close h c
    | wake now busy =>
      dsimp only
      split
      · unfold St.expire
        split
        · dsimp only
          split
          · exact ⟨h.to, h.li, h.st, h.np, h.fresh, fun hx => by simp at hx⟩
          · exact ⟨h.to, h.li, h.st, h.np, h.fresh, fun hx => by simp at hx⟩
        · exact h
      · exact h
  · rw [step_ended he]
    exact h

theorem inv_run {T L : Option Nat} {st : Nat} {s : St} (h : Inv T L st s) (l : List Ev)
    (ht : ∀ e ∈ l, From st e) : Inv T L st (s.run l) := by
  induction l generalizing s with
  | nil => exact h
  | cons e l ih => exact ih (inv_step h e (ht e (by simp))) (fun x hx => ht x (by simp [hx]))

/-- Setting and clearing the timer never panics. -/
theorem no_panic (T L : Option Nat) (start : Nat) (l : List Ev) (ht : ∀ e ∈ l, From start e) :
    ((server T L start).run l).panicked = false :=
  (inv_run (inv_server T L start) l ht).np

/-- The connection is known and was not ended for want of a request, and the timer is off. -/
def Safe (s : St) : Prop :=
  s.est = true ∧ s.key = none ∧ s.queue = [] ∧ s.ended ≠ some .postAccept

theorem safe_close {s : St} (h : Safe s) (c : Nat) : Safe (s.close c) := by
  unfold St.close
  split
  · exact h
  · exact h

theorem safe_request {s : St} (h : Safe s) (id : Nat) : Safe (s.request id) := by
  unfold St.request
  split
  · exact h
  · exact h

theorem safe_step {s : St} (h : Safe s) (e : Ev) : Safe (s.step e) := by
  unfold St.step
  split
  · exact h
  · cases e with
    | established now => simp only [h.1, if_true]; exact h
    | headers id =>
      simp only [h.1, if_true]
      unfold St.headers
      split
      · exact safe_close h _
      · rw [h.2.1]
        exact safe_request h id
    | cleanup id => exact h
    | close c => exact safe_close h c
    | wake now busy => simp only [h.2.2.1, List.isEmpty_nil]; simpa using h

theorem safe_run {s : St} (h : Safe s) (l : List Ev) : Safe (s.run l) := by
  induction l generalizing s with
  | nil => exact h
  | cons e l ih => exact ih (safe_step h e)

/-- A connection on which a request came is not ended for want of one, whatever follows. -/
theorem kept (T L : Option Nat) (start : Nat) (a b : List Ev) (id : Nat)
    (ht : ∀ e ∈ a, From start e) (hL : L ≠ some 0)
    (hs : ((server T L start).run a).est = true)
    (he : ((server T L start).run a).ended = none) :
    ((server T L start).run (a ++ .headers id :: b)).ended ≠ some .postAccept := by
  rw [run_append]
  have hi := inv_run (inv_server T L start) a ht
  generalize (server T L start).run a = s at hs he hi
  have hsafe : Safe (s.step (.headers id)) := by
    unfold St.step
    rw [hi.np, he]
    simp only [Option.isSome_none, Bool.or_self, Bool.false_eq_true, if_false, hs, if_true]
    by_cases hf : s.full = true
    · have hr : s.requests ≠ 0 := by
        intro h0
        unfold St.full at hf
        rw [hi.li, h0] at hf
        cases L with
        | none => simp at hf
        | some n =>
          simp at hf
          exact hL (by rw [hf])
      have hk : s.key = none ∧ s.queue = [] := by
        rcases hi.timer he with h1 | h1
        · exact h1
        · exact absurd h1.2.1 hr
      unfold St.headers
      rw [if_pos hf]
      exact safe_close ⟨hs, hk.1, hk.2, by simp [he]⟩ _
    · rw [headers_timer hi he (by simpa using hf)]
      exact safe_request (s := { s with key := none, queue := [] }) ⟨hs, rfl, rfl, by simp [he]⟩ id
  exact (safe_run hsafe b).2.2.2

/-- A connection is ended for want of a request only at a time after the start that is not less than
the one set, and is then closed with H3_NO_ERROR and the controller told. -/
theorem not_before (T L : Option Nat) (start : Nat) (l : List Ev) (ht : ∀ e ∈ l, From start e)
    (h : ((server T L start).run l).ended = some .postAccept) :
    ∃ t a now b, T = some t ∧ l = a ++ .wake now false :: b ∧ start + t ≤ now ∧
      ((server T L start).run a).ended = none ∧
      ((server T L start).run l).closed = some 0x100 ∧ ((server T L start).run l).told = true := by
  have key : ∀ (s : St), Inv T L start s → s.ended = none → (∀ e ∈ l, From start e) →
      (s.run l).ended = some .postAccept →
      ∃ t a now b, T = some t ∧ l = a ++ .wake now false :: b ∧ start + t ≤ now ∧
        (s.run a).ended = none ∧ (s.run l).closed = some 0x100 ∧ (s.run l).told = true := by
    clear h ht
    induction l with
    | nil => intro s _ he _ h; simp [St.run, he] at h
    | cons e l ih =>
      intro s hi he ht h
      have hi' := inv_step hi e (ht e (by simp))
      by_cases hx : (s.step e).ended = none
      · obtain ⟨t, a, now, b, h1, h2, h3, h4, h5⟩ :=
          ih (s.step e) hi' hx (fun x hx => ht x (by simp [hx])) h
        exact ⟨t, e :: a, now, b, h1, by rw [h2]; rfl, h3, h4, h5⟩
      · have hrun : (s.step e).run l = s.step e := by
          clear ih h ht hi'
          induction l with
          | nil => rfl
          | cons e' l ih' =>
            show ((s.step e).step e').run l = _
            rw [step_ended hx]; exact ih'
        have hr' : s.run (e :: l) = s.step e := hrun
        rw [hr'] at h ⊢
        unfold St.step at h ⊢
        rw [hi.np, he] at h ⊢
        simp only [Option.isSome_none, Bool.or_self, Bool.false_eq_true, if_false] at h ⊢
        cases e with
        | established now =>
          dsimp only at h
          split at h
          · rw [he] at h; simp at h
          · unfold St.established at h
            dsimp only at h
            split at h
            · simp [he] at h
            · split at h
              · simp [he] at h
              · simp at h
        | headers id =>
          dsimp only at h
          split at h
          · by_cases hf : s.full = true
            · unfold St.headers at h
              rw [if_pos hf] at h
              unfold St.close at h
              split at h <;> simp [he] at h
            · rw [headers_timer hi he (by simpa using hf)] at h
              unfold St.request at h
              split at h <;> simp [he] at h
          · rw [he] at h; simp at h
        | cleanup id => simp [he] at h
        | close c =>
          dsimp only at h
          unfold St.close at h
          split at h <;> simp [he] at h
        | wake now busy =>
          dsimp only at h ⊢
          split at h
          · rename_i hc
            rw [if_pos hc]
            rcases hi.timer he with ⟨_, hq⟩ | ⟨_, _, k, t, hT, hk, hq⟩
            · simp [hq] at hc
            · have hb : busy = false := by
                simp at hc; exact hc.1.2
              subst hb
              unfold St.expire at h ⊢
              by_cases hle : start + t ≤ now
              · have ha : s.queue.any (fun e => decide (e.2 ≤ now)) = true := by simp [hq, hle]
                rw [if_pos ha] at h ⊢
                dsimp only at h ⊢
                refine ⟨t, [], now, l, hT, rfl, hle, he, ?_⟩
                split at h
                · exact ⟨rfl, rfl⟩
                · simp at h
              · have ha : s.queue.any (fun e => decide (e.2 ≤ now)) = false := by
                  simp [hq]; omega
                rw [ha] at h
                simp [he] at h
          · rw [he] at h; simp at h
  exact key _ (inv_server T L start) rfl ht h

/-- Until HEADERS come the timer of a connection that was established in time is on. -/
theorem quiet_timer {t : Nat} {L : Option Nat} {start : Nat} {s : St} (h : Inv (some t) L start s)
    (hq : s.est = true → s.ended = none → s.key ≠ none) (l : List Ev) (ht : ∀ e ∈ l, From start e)
    (hl : Quiet l) : (s.run l).est = true → (s.run l).ended = none → (s.run l).key ≠ none := by
  induction l generalizing s with
  | nil => exact hq
  | cons e l ih =>
    refine ih (inv_step h e (ht e (by simp))) ?_ (fun x hx => ht x (by simp [hx]))
      (fun id hid => hl id (by simp [hid]))
    by_cases he : s.ended = none
    · unfold St.step
      rw [h.np, he]
      simp only [Option.isSome_none, Bool.or_self, Bool.false_eq_true, if_false]
      cases e with
      | established now =>
        dsimp only
        split
        · exact hq
        · unfold St.established
          simp only [h.to]
          split
          · intro _ _; simp
          · intro _ hx; simp at hx
      | headers id => exact absurd (by simp) (hl id)
      | cleanup id => exact fun a b => hq a he
      | close c =>
        dsimp only
        unfold St.close
        split
        · exact fun a b => hq a he
        · exact hq
      | wake now busy =>
        dsimp only
        split
        · unfold St.expire
          split
          · dsimp only
            split
            · intro _ hx; simp at hx
            · intro _ hx; simp at hx
          · exact hq
        · exact hq
    · rw [step_ended he]; exact hq

/-- If no request has come by the time set, then the task closes the connection with H3_NO_ERROR and
tells the controller, when it next has nothing else to do. -/
theorem closed_in_time (t : Nat) (L : Option Nat) (start now : Nat) (l : List Ev)
    (ht : ∀ e ∈ l, From start e) (hl : Quiet l)
    (hs : ((server (some t) L start).run l).est = true)
    (he : ((server (some t) L start).run l).ended = none)
    (hc : ((server (some t) L start).run l).closed = none) (hn : start + t ≤ now) :
    ((server (some t) L start).run (l ++ [.wake now false])).ended = some .postAccept ∧
    ((server (some t) L start).run (l ++ [.wake now false])).closed = some 0x100 ∧
    ((server (some t) L start).run (l ++ [.wake now false])).told = true := by
  rw [run_append]
  have hi := inv_run (inv_server (some t) L start) l ht
  have hk := quiet_timer (inv_server (some t) L start) (fun h => by simp [server] at h) l ht hl hs he
  generalize (server (some t) L start).run l = s at hs he hc hi hk
  rcases hi.timer he with ⟨h1, _⟩ | ⟨_, _, k, t', hT, hk', hq⟩
  · exact absurd h1 hk
  · cases hT
    show (s.step _).ended = _ ∧ (s.step _).closed = _ ∧ (s.step _).told = _
    have ha : s.queue.any (fun e => decide (e.2 ≤ now)) = true := by simp [hq, hn]
    simp [St.step, hi.np, he, hs, St.expire, hn, hc, hq]

/-- Without a time set no connection is ended for want of a request. -/
theorem not_set (L : Option Nat) (start : Nat) (l : List Ev) (ht : ∀ e ∈ l, From start e) :
    ((server none L start).run l).ended ≠ some .postAccept := by
  intro h
  obtain ⟨t, _, _, _, h1, _⟩ := not_before none L start l ht h
  cases h1

/-- A request in time, and none. -/
example :
    ((server (some 1000) none 50).run
      [.established 80, .wake 500 false, .headers 0, .wake 2000 false]).ended = none ∧
    ((server (some 1000) none 50).run
      [.established 80, .wake 500 false, .wake 1049 false]).ended = none ∧
    ((server (some 1000) none 50).run
      [.established 80, .wake 500 false, .wake 1050 false]).ended = some .postAccept := by
  decide

/-- If the handshake took longer than the time, then the work ends without an error: the connection
is not closed, so that the client is told nothing, and the controller is not told why. -/
theorem late_false (t : Nat) (L : Option Nat) (start now : Nat) (h : start + t < now) (l : List Ev) :
    let s := (server (some t) L start).run (.established now :: l)
    s.ended = some .ok ∧ s.closed = none ∧ s.told = false := by
  have h1 : (server (some t) L start).step (.established now) =
      { server (some t) L start with est := true, ended := some .ok } := by
    have : ¬ (now - start ≤ t) := by omega
    simp [St.step, server, St.established, this]
  have h2 : ∀ l, ({ server (some t) L start with est := true, ended := some .ok } : St).run l =
      { server (some t) L start with est := true, ended := some .ok } := by
    intro l
    induction l with
    | nil => rfl
    | cons e l ih =>
      show St.run (St.step _ e) l = _
      rw [step_ended (by simp)]; exact ih
  show ((St.step _ _).run l).ended = _ ∧ ((St.step _ _).run l).closed = _ ∧ ((St.step _ _).run l).told = _
  rw [h1, h2]
  exact ⟨rfl, rfl, rfl⟩

/-- A peer whose packets keep the task busy is never closed, however late it is. -/
theorem busy_false (t : Nat) (L : Option Nat) (start now : Nat) (h : start ≤ now)
    (h' : now ≤ start + t) (times : List Nat) :
    let s := (server (some t) L start).run (.established now :: times.map (fun x => .wake x true))
    s.ended = none ∧ s.closed = none := by
  have h1 : ((server (some t) L start).step (.established now)).ended = none ∧
      ((server (some t) L start).step (.established now)).closed = none := by
    have : now - start ≤ t := by omega
    simp [St.step, server, St.established, this]
  have h2 : ∀ (s : St) (l : List Nat), s.run (l.map (fun x => Ev.wake x true)) = s := by
    intro s l
    induction l with
    | nil => rfl
    | cons x l ih =>
      have : s.step (.wake x true) = s := by
        unfold St.step
        split
        · rfl
        · simp
      show (s.step (.wake x true)).run _ = _
      rw [this]; exact ih
  show ((St.step _ _).run _).ended = _ ∧ ((St.step _ _).run _).closed = _
  rw [h2]
  exact h1

/-- Years of it. -/
example : ((server (some 10) none 0).run
    (.established 5 :: [1000, 2000, 3000].map (fun x => .wake x true))).ended = none := by decide

end Verif.Props.C186
