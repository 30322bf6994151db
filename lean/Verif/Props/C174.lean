import Verif.Tq.Requests

/-!
C174: requests and responses in the HTTP/3 driver. Each request of a client is put on one stream
of its own, or waits, or is lost with the connection; the streams are used in order. The
controller is given headers once for each stream. A server gives out at most as many requests as
it is set to. Not true: that requests go out in the order they were made; that a request that waits
goes out once the peer allows it; that the headers given are those of the final response; that a
request after GOAWAY leaves the others alone; that a server closes for its limit only for a request.
-/

namespace Verif.Props.C174
open Verif.Tq.Requests

variable {R H : Type}

/-- The requests made. -/
def made : List (Ev R H) → List R
  | [] => []
  | .new r :: l => r :: made l
  | _ :: l => made l

/-- Where requests are. -/
def places (s : Cl R H) : List R := s.sent.map Prod.snd ++ s.queued ++ s.chan ++ s.lost

theorem sendRequest_same (s : Cl R H) (f : Bool) :
    (s.sendRequest f).1.sent = s.sent ∧ (s.sendRequest f).1.queued = s.queued ∧
    (s.sendRequest f).1.chan = s.chan ∧ (s.sendRequest f).1.lost = s.lost ∧
    (s.sendRequest f).1.pending = s.pending ∧ (s.sendRequest f).1.given = s.given ∧
    (s.sendRequest f).1.streams = s.streams ∧
    (s.sendRequest f).1.next = s.next + (if (s.sendRequest f).2 = .ok then 1 else 0) := by
  simp only [Cl.sendRequest]
  repeat' split
  all_goals simp_all

theorem places_initiate (s : Cl R H) (r : R) (f : Bool) :
    (places (s.initiate r f)).Perm (r :: places s) := by
  obtain ⟨h1, h2, h3, h4, -⟩ := sendRequest_same s f
  unfold Cl.initiate
  generalize s.sendRequest f = x at *
  obtain ⟨s', a⟩ := x
  simp only at h1 h2 h3 h4
  cases a
  · simp only [places, h1, h2, h3, h4, List.map_append, List.map_cons, List.map_nil, List.append_assoc]
    simp only [List.singleton_append]
    exact List.perm_middle
  · simp only [places, h1, h2, h3, h4, List.append_assoc, List.singleton_append]
    rw [← List.append_assoc, ← List.append_assoc (s.sent.map Prod.snd) s.queued]
    exact List.perm_middle
  · simp only [places, h1, h2, h3, h4]
    rw [← List.append_assoc]
    exact (List.perm_append_singleton _ _)

theorem step_places (s : Cl R H) (e : Ev R H) :
    (places (s.step e)).Perm (places s ++ made [e]) := by
  cases e with
  | new r =>
    simp only [Cl.step, made]
    split
    · simp only [places, List.append_assoc]
      exact List.Perm.refl _
    · simp only [places, List.append_assoc]
      refine List.Perm.append_left _ (List.Perm.append_left _ (List.Perm.append_left _ ?_))
      exact List.perm_append_comm
  | command f =>
    simp only [Cl.step, made, List.append_nil]
    split
    · exact List.Perm.refl _
    · unfold Cl.command
      split
      · exact List.Perm.refl _
      · rename_i r l hc
        refine (places_initiate _ r f).trans ?_
        simp only [places, hc, List.append_assoc, List.cons_append]
        rw [← List.append_assoc, ← List.append_assoc (s.sent.map Prod.snd) s.queued]
        exact List.perm_middle.symm
  | retry =>
    simp only [Cl.step, made, List.append_nil]
    split
    · exact List.Perm.refl _
    · simp only [Cl.retry, places]
      generalize min s.left s.queued.length = n
      refine List.Perm.append_right _ ?_
      rw [List.append_assoc, List.append_assoc]
      refine List.Perm.append_left _ ?_
      calc (s.queued.drop n ++ (s.chan ++ s.queued.take n)).Perm
            (s.chan ++ s.queued.take n ++ s.queued.drop n) := List.perm_append_comm
        _ = s.chan ++ s.queued := by rw [List.append_assoc, List.take_append_drop]
        (s.chan ++ s.queued).Perm _ := List.perm_append_comm
  | headers id h =>
    simp only [Cl.step, made, List.append_nil, Cl.headers]
    repeat' split
    all_goals exact List.Perm.refl _
  | cleanup => simp only [Cl.step, made, List.append_nil]; exact List.Perm.refl _
  | maxStreams => simp only [Cl.step, made, List.append_nil]; exact List.Perm.refl _
  | goaway => simp only [Cl.step, made, List.append_nil]; exact List.Perm.refl _

theorem made_cons (e : Ev R H) (l : List (Ev R H)) : made (e :: l) = made [e] ++ made l := by
  cases e <;> rfl

theorem run_places : ∀ (es : List (Ev R H)) (s : Cl R H),
    (places (s.run es)).Perm (places s ++ made es)
  | [], s => by simp [Cl.run, made]
  | e :: es, s => by
    rw [made_cons, ← List.append_assoc]
    exact (run_places es _).trans (List.Perm.append_right _ (step_places s e))

theorem step_dead {s : Cl R H} {e : Ev R H} (h : (s.step e).dead = false) : s.dead = false := by
  cases hd : s.dead with
  | false => rfl
  | true => cases e <;> simp [Cl.step, hd] at h

theorem initiate_lost {s : Cl R H} {r : R} {f : Bool} (h : (s.initiate r f).dead = false)
    (hl : s.lost = []) : (s.initiate r f).lost = [] := by
  obtain ⟨-, -, -, h4, -⟩ := sendRequest_same s f
  unfold Cl.initiate at h ⊢
  generalize s.sendRequest f = x at *
  obtain ⟨s', a⟩ := x
  simp only at h4
  cases a
  · exact h4.trans hl
  · exact h4.trans hl
  · cases h

theorem step_lost {s : Cl R H} {e : Ev R H} (h : (s.step e).dead = false) (hl : s.lost = []) :
    (s.step e).lost = [] := by
  have hd := step_dead h
  cases e with
  | new r => simp [Cl.step, hd, hl]
  | command f =>
    simp only [Cl.step, hd, Bool.false_eq_true, if_false, Cl.command] at h ⊢
    cases hc : s.chan with
    | nil => exact hl
    | cons r l =>
      rw [hc] at h
      exact initiate_lost h hl
  | retry => simp [Cl.step, hd, Cl.retry, hl]
  | headers id h =>
    simp only [Cl.step, hd, Cl.headers]
    repeat' split
    all_goals first
      | exact hl
      | (rename_i hh; cases hh)
  | cleanup => exact hl
  | maxStreams => exact hl
  | goaway => exact hl

theorem run_lost : ∀ (es : List (Ev R H)) (s : Cl R H), s.lost = [] → (s.run es).dead = false →
    (s.run es).lost = [] := by
  intro es
  induction es with
  | nil => intro s h _; exact h
  | cons e es ih =>
    intro s h hd
    have hd' : ∀ (es : List (Ev R H)) (s : Cl R H), (s.run es).dead = false → s.dead = false := by
      intro es
      induction es with
      | nil => intro s h; exact h
      | cons e es ih => intro s h; exact step_dead (ih _ h)
    exact ih _ (step_lost (hd' es _ hd) h) hd

/-- A new client. -/
def start (max : Nat) : Cl R H := { max }

/-- Each request made is on one stream, waits in the queue or the channel, or is lost; none is lost
while the driver runs, and none is sent twice. -/
theorem conserve (max : Nat) (es : List (Ev R H)) :
    let s := (start max).run es
    (s.sent.map Prod.snd ++ s.queued ++ s.chan ++ s.lost).Perm (made es) ∧
    (s.dead = false → s.lost = []) :=
  ⟨by simpa [places, start] using run_places es (start max), run_lost es _ rfl⟩

/-! ### Streams -/

theorem send_cases (s : Cl R H) (f : Bool) (ho : s.next ≤ s.opened ∧ s.opened ≤ s.next + 1) :
    (s.sendRequest f = (s, .fatal) ∧ s.goaway = true) ∨
    (∃ o, s.sendRequest f = ({ s with opened := o }, .retry) ∧ s.next ≤ o ∧ o ≤ s.next + 1) ∨
    (∃ o, s.sendRequest f = ({ s with opened := o, next := s.next + 1 }, .ok) ∧ o = s.next + 1) := by
  unfold Cl.sendRequest
  by_cases hg : s.goaway = true
  · exact Or.inl ⟨by simp [hg], hg⟩
  · rw [if_neg hg]
    right
    by_cases hb : s.opened ≤ s.next ∧ s.max ≤ s.opened
    · rw [if_pos hb]
      exact Or.inl ⟨s.opened, rfl, ho.1, ho.2⟩
    · rw [if_neg hb]
      have h1 : (if s.opened ≤ s.next then s.opened + 1 else s.opened) = s.next + 1 := by
        split <;> omega
      rw [h1]
      cases f
      · exact Or.inl ⟨s.next + 1, rfl, Nat.le_succ _, Nat.le_refl _⟩
      · exact Or.inr ⟨s.next + 1, rfl, rfl⟩

/-- The streams used, and what is known of responses. -/
structure Ids (s : Cl R H) : Prop where
  ids : s.sent.map Prod.fst = (List.range s.next).map (4 * ·)
  opened : s.next ≤ s.opened ∧ s.opened ≤ s.next + 1
  once : (s.given.map Prod.fst).Nodup
  apart : ∀ p ∈ s.given, p.1 ∉ s.pending
  used : ∀ p ∈ s.given, p.1 ∈ s.sent.map Prod.fst
  pused : ∀ id ∈ s.pending, id ∈ s.sent.map Prod.fst

theorem Ids.fresh {s : Cl R H} (h : Ids s) : 4 * s.next ∉ s.sent.map Prod.fst := by
  rw [h.ids]
  intro hm
  obtain ⟨n, h1, h2⟩ := List.mem_map.mp hm
  have := List.mem_range.mp h1
  omega

theorem step_ids {s : Cl R H} (h : Ids s) (e : Ev R H) : Ids (s.step e) := by
  cases e with
  | new r => simp only [Cl.step]; split <;> exact ⟨h.ids, h.opened, h.once, h.apart, h.used, h.pused⟩
  | command f =>
    simp only [Cl.step]
    split
    · exact h
    · unfold Cl.command
      split
      · exact h
      · rename_i r l hc
        unfold Cl.initiate
        rcases send_cases { s with chan := l } f h.opened with h1 | ⟨o, h1, h2⟩ | ⟨o, h1, h2⟩
        · rw [h1.1]
          exact ⟨h.ids, h.opened, h.once, h.apart, h.used, h.pused⟩
        · rw [h1]
          exact ⟨h.ids, h2, h.once, h.apart, h.used, h.pused⟩
        · rw [h1]
          have h3 : o = s.next + 1 := h2
          have hsub : ∀ x, x ∈ s.sent.map Prod.fst → x ∈ (s.sent ++ [(4 * s.next, r)]).map Prod.fst := by
            intro x hx
            rw [List.map_append]
            exact List.mem_append.mpr (Or.inl hx)
          refine ⟨?_, ?_, h.once, ?_, ?_, ?_⟩
          · show (s.sent ++ [(4 * s.next, r)]).map Prod.fst = (List.range (s.next + 1)).map (4 * ·)
            simp only [List.map_append, h.ids, List.range_succ, List.map_cons, List.map_nil]
          · show s.next + 1 ≤ o ∧ o ≤ s.next + 1 + 1
            omega
          · intro p hp hm
            rcases List.mem_cons.mp hm with hm | hm
            · exact h.fresh (hm ▸ h.used p hp)
            · exact h.apart p hp hm
          · intro p hp
            exact hsub _ (h.used p hp)
          · intro p hp
            rcases List.mem_cons.mp hp with hp | hp
            · rw [hp]
              show 4 * s.next ∈ (s.sent ++ [(4 * s.next, r)]).map Prod.fst
              simp
            · exact hsub _ (h.pused p hp)
  | retry => simp only [Cl.step]; split <;> exact ⟨h.ids, h.opened, h.once, h.apart, h.used, h.pused⟩
  | headers id hd =>
    simp only [Cl.step, Cl.headers]
    split
    · exact h
    · split
      · rename_i hp
        split
        · refine ⟨h.ids, h.opened, ?_, ?_, ?_, ?_⟩
          · simp only [List.map_append, List.map_cons, List.map_nil]
            rw [List.nodup_append]
            refine ⟨h.once, by simp, ?_⟩
            intro a h1 b h2 hab
            simp only [List.mem_singleton] at h2
            subst hab; subst h2
            obtain ⟨p, h3, h4⟩ := List.mem_map.mp h1
            exact h.apart p h3 (h4 ▸ hp)
          · intro p h1 h2
            simp only [List.mem_filter, decide_eq_true_eq] at h2
            rcases List.mem_append.mp h1 with h1 | h1
            · exact h.apart p h1 h2.1
            · rw [List.mem_singleton.mp h1] at h2; exact h2.2 rfl
          · intro p h1
            rcases List.mem_append.mp h1 with h1 | h1
            · exact h.used p h1
            · rw [List.mem_singleton.mp h1]; exact h.pused _ hp
          · intro p h1; exact h.pused p (List.mem_filter.mp h1).1
        · refine ⟨h.ids, h.opened, h.once, ?_, h.used, ?_⟩
          · intro p h1 h2; exact h.apart p h1 (List.mem_filter.mp h2).1
          · intro p h1; exact h.pused p (List.mem_filter.mp h1).1
      · exact h
  | cleanup => exact ⟨h.ids, h.opened, h.once, h.apart, h.used, h.pused⟩
  | maxStreams => exact ⟨h.ids, h.opened, h.once, h.apart, h.used, h.pused⟩
  | goaway => exact ⟨h.ids, h.opened, h.once, h.apart, h.used, h.pused⟩

theorem run_ids : ∀ (es : List (Ev R H)) {s : Cl R H}, Ids s → Ids (s.run es)
  | [], _, h => h
  | e :: es, _, h => run_ids es (step_ids h e)

theorem start_ids (max : Nat) : Ids (start max : Cl R H) :=
  ⟨rfl, by simp [start], by simp [start], (fun _ h => by cases h), (fun _ h => by cases h),
    (fun _ h => by cases h)⟩

/-- The requests sent are on the streams 0, 4, 8 and so on, in the order in which they are
announced; headers are given once for each stream, and only for these. -/
theorem streams (max : Nat) (es : List (Ev R H)) :
    let s := (start max).run es
    s.sent.map Prod.fst = (List.range s.sent.length).map (4 * ·) ∧
    (s.given.map Prod.fst).Nodup ∧ ∀ p ∈ s.given, p.1 ∈ s.sent.map Prod.fst := by
  have h := run_ids es (start_ids (R := R) (H := H) max)
  have hl : ((start max).run es).sent.length = ((start max).run es).next := by
    have := congrArg List.length h.ids
    simpa using this
  exact ⟨by rw [hl]; exact h.ids, h.once, h.used⟩

/-! ### Order -/

theorem order_run : ∀ (es : List (Ev R H)) (s : Cl R H), Ids s → s.queued = [] → s.opened = s.next →
    s.next + s.chan.length + (made es).length ≤ s.max → (∀ f, Ev.command f ∈ es → f = true) →
    (s.run es).dead = false →
    (s.run es).queued = [] ∧
      (s.run es).sent.map Prod.snd ++ (s.run es).chan = s.sent.map Prod.snd ++ s.chan ++ made es
  | [], s, _, hq, _, _, _, _ => by simp [Cl.run, made, hq]
  | e :: es, s, hi, hq, ho, hm, hf, hd => by
    have hd1 : (s.step e).dead = false := by
      have : ∀ (es : List (Ev R H)) (s : Cl R H), (s.run es).dead = false → s.dead = false := by
        intro es
        induction es with
        | nil => intro s h; exact h
        | cons e es ih => intro s h; exact step_dead (ih _ h)
      exact this es _ hd
    have hd0 := step_dead hd1
    have hf' : ∀ f, Ev.command f ∈ es → f = true := fun f h => hf f (List.mem_cons_of_mem _ h)
    rw [made_cons, List.length_append] at hm
    have main : (s.step e).queued = [] ∧ (s.step e).opened = (s.step e).next ∧
        (s.step e).next + (s.step e).chan.length + (made es).length ≤ (s.step e).max ∧
        (s.step e).sent.map Prod.snd ++ (s.step e).chan = s.sent.map Prod.snd ++ s.chan ++ made [e] := by
      cases e with
      | new r =>
        simp only [made, List.length_singleton] at hm
        simp only [Cl.step, hd0, made]
        refine ⟨hq, ho, ?_, by simp⟩
        show s.next + (s.chan ++ [r]).length + _ ≤ s.max
        rw [List.length_append, List.length_singleton]; omega
      | command f =>
        have hf0 := hf f (List.mem_cons_self ..)
        subst hf0
        simp only [made, List.length_nil] at hm
        have hs : s.step (.command true) = s.command true := by simp [Cl.step, hd0]
        rw [hs] at hd1 ⊢
        cases hc : s.chan with
        | nil =>
          have h0 : s.command true = s := by simp [Cl.command, hc]
          rw [hc] at hm
          rw [h0, hc]
          refine ⟨hq, ho, by simpa using hm, by simp [made]⟩
        | cons r l =>
          rw [hc] at hm
          simp only [List.length_cons] at hm
          have hs2 : s.command true = Cl.initiate { s with chan := l } r true := by simp [Cl.command, hc]
          rw [hs2] at hd1 ⊢
          have hg : s.goaway = false := by
            cases hg : s.goaway with
            | false => rfl
            | true => simp [Cl.initiate, Cl.sendRequest, hg] at hd1
          have h1 : ¬ (s.opened ≤ s.next ∧ s.max ≤ s.opened) := by omega
          have h2 : s.opened ≤ s.next := by omega
          have h3 : Cl.sendRequest { s with chan := l } true =
              ({ s with chan := l, opened := s.opened + 1, next := s.next + 1 }, .ok) := by
            unfold Cl.sendRequest
            rw [if_neg (by simp [hg]), if_neg h1]
            simp [h2]
          simp only [Cl.initiate, h3, made]
          refine ⟨hq, by omega, by omega, ?_⟩
          simp
      | retry =>
        simp only [made, List.length_nil] at hm
        simp [Cl.step, hd0, Cl.retry, hq, ho, made]
        omega
      | headers id h =>
        simp only [made, List.length_nil] at hm
        simp only [Cl.step, hd0, Cl.headers, made]
        repeat' split
        all_goals first
          | exact ⟨hq, ho, by simpa using hm, by simp⟩
          | (rename_i hh; cases hh)
      | cleanup =>
        simp only [made, List.length_nil] at hm
        exact ⟨hq, ho, by simpa [Cl.step] using hm, by simp [Cl.step, made]⟩
      | maxStreams n =>
        simp only [made, List.length_nil] at hm
        refine ⟨hq, ho, ?_, by simp [Cl.step, made]⟩
        simp only [Cl.step]
        exact Nat.le_trans (by simpa using hm) (Nat.le_max_left _ _)
      | goaway =>
        simp only [made, List.length_nil] at hm
        exact ⟨hq, ho, by simpa [Cl.step] using hm, by simp [Cl.step, made]⟩
    have ih := order_run es (s.step e) (step_ids hi e) main.1 main.2.1 main.2.2.1 hf' hd
    rw [made_cons, ← List.append_assoc, ← main.2.2.2]
    exact ih

/-- Requests go out in the order they were made, as long as the peer allows a stream for each and
their headers always fit. What is missing: the order when one of them has to wait
(`order_false`). -/
theorem order_partial (max : Nat) (es : List (Ev R H)) (hm : (made es).length ≤ max)
    (hf : ∀ f, Ev.command f ∈ es → f = true) (hd : ((start max).run es).dead = false) :
    ((start max).run es).sent.map Prod.snd ++ ((start max).run es).chan = made es := by
  have := (order_run es (start max) (start_ids max) rfl rfl (by simpa [start] using hm) hf hd).2
  simpa [start] using this

/-- Request 1 finds no room for its headers, request 2 overtakes it. -/
theorem order_false :
    ((start 9 : Cl Nat Nat).run [.new 1, .new 2, .command false, .command true, .retry, .command true]).sent =
      [(0, 2), (4, 1)] := by
  decide +kernel

/-! ### Requests that wait -/

theorem drain : ∀ (l : List R) (s : Cl R H), s.chan = l → s.dead = false → s.goaway = false →
    s.next ≤ s.opened ∧ s.opened ≤ s.next + 1 → s.next + l.length ≤ s.max →
    (s.run (List.replicate l.length (.command true))).chan = [] ∧
    (s.run (List.replicate l.length (.command true))).queued = s.queued ∧
    (s.run (List.replicate l.length (.command true))).sent.map Prod.snd = s.sent.map Prod.snd ++ l
  | [], s, hc, _, _, _, _ => by simp [Cl.run, hc]
  | r :: l, s, hc, hd, hg, ho, hm => by
    simp only [List.length_cons] at hm
    have h1 : ¬ (s.opened ≤ s.next ∧ s.max ≤ s.opened) := by omega
    have h2 : (if s.opened ≤ s.next then s.opened + 1 else s.opened) = s.next + 1 := by
      split <;> omega
    have h3 : Cl.sendRequest { s with chan := l } true =
        ({ s with chan := l, opened := s.next + 1, next := s.next + 1 }, .ok) := by
      unfold Cl.sendRequest
      rw [if_neg (by simp [hg]), if_neg h1]
      simp [h2]
    have h4 : s.step (.command true) =
        { s with
          chan := l, opened := s.next + 1, next := s.next + 1, streams := 4 * s.next :: s.streams
          pending := 4 * s.next :: s.pending, sent := s.sent ++ [(4 * s.next, r)] } := by
      have : s.step (.command true) = Cl.initiate { s with chan := l } r true := by
        simp [Cl.step, hd, Cl.command, hc]
      rw [this]
      simp only [Cl.initiate, h3]
    have ih := drain l (s.step (.command true)) (by rw [h4]) (by rw [h4]; exact hd) (by rw [h4]; exact hg)
      (by rw [h4]; exact ⟨Nat.le_refl _, Nat.le_succ _⟩) (by rw [h4]; show s.next + 1 + l.length ≤ s.max; omega)
    rw [List.length_cons, List.replicate_succ]
    simp only [Cl.run]
    refine ⟨ih.1, ih.2.1.trans (by rw [h4]), ih.2.2.trans ?_⟩
    rw [h4]
    simp

/-- Requests that wait are sent after the delay, if the peer allows as many more streams as there
are requests in the queue and the channel, and their headers fit. What is missing: a request whose
stream is already open needs no other (`stuck_false`). -/
theorem progress_partial (max : Nat) (es : List (Ev R H))
    (hd : ((start max).run es).dead = false) (hg : ((start max).run es).goaway = false)
    (hm : ((start max).run es).opened + (((start max).run es).chan.length + ((start max).run es).queued.length)
      ≤ ((start max).run es).max) :
    let s := (start max).run es
    let t := s.run (.retry :: List.replicate (s.chan.length + s.queued.length) (.command true))
    t.queued = [] ∧ t.chan = [] ∧ t.sent.map Prod.snd = s.sent.map Prod.snd ++ s.chan ++ s.queued := by
  intro s t
  have hi : Ids s := run_ids es (start_ids max)
  have hn : min s.left s.queued.length = s.queued.length := by
    have : s.opened + (s.chan.length + s.queued.length) ≤ s.max := hm
    simp only [Cl.left]; omega
  have h1 : s.step .retry = { s with chan := s.chan ++ s.queued, queued := [] } := by
    have hd' : s.dead = false := hd
    have h2 : s.step .retry = s.retry := by simp [Cl.step, hd']
    rw [h2]
    unfold Cl.retry
    simp only [hn, List.take_length, List.drop_length]
  have h2 := drain (s.chan ++ s.queued) (s.step .retry) (by rw [h1]) (by rw [h1]; exact hd) (by rw [h1]; exact hg)
    (by rw [h1]; exact hi.opened) (by
      rw [h1, List.length_append]
      have h3 := hi.opened.1
      have : s.opened + (s.chan.length + s.queued.length) ≤ s.max := hm
      show s.next + _ ≤ s.max
      omega)
  rw [List.length_append] at h2
  refine ⟨h2.2.1.trans (by rw [h1]), h2.1, h2.2.2.trans ?_⟩
  rw [h1, List.append_assoc]

/-- One stream is allowed. The headers of the first request do not fit at first, though its stream is
opened. Then nothing sends it, however much room there is for it later and however often its delay
passes, unless the peer allows another stream; and the peer has no stream it could see ended. -/
theorem stuck_false (es : List (Ev Nat Nat)) (hn : ∀ r, Ev.new r ∉ es)
    (hm : ∀ n, Ev.maxStreams n ∈ es → n ≤ 1) :
    (((start 1 : Cl Nat Nat).run [.new 7, .command false]).run es).sent = [] ∧
    (((start 1 : Cl Nat Nat).run [.new 7, .command false]).run es).queued = [7] := by
  have key : ∀ (es : List (Ev Nat Nat)) (s : Cl Nat Nat), s.chan = [] → s.queued = [7] → s.sent = [] →
      s.opened = 1 → s.max = 1 → (∀ r, Ev.new r ∉ es) → (∀ n, Ev.maxStreams n ∈ es → n ≤ 1) →
      (s.run es).sent = [] ∧ (s.run es).queued = [7] := by
    intro es
    induction es with
    | nil => intro s _ hq hs _ _ _ _; exact ⟨hs, hq⟩
    | cons e es ih =>
      intro s hc hq hs ho hx hn hm
      have hn' : ∀ r, Ev.new r ∉ es := fun r h => hn r (List.mem_cons_of_mem _ h)
      have hm' : ∀ n, Ev.maxStreams n ∈ es → n ≤ 1 := fun n h => hm n (List.mem_cons_of_mem _ h)
      refine ih (s.step e) ?_ ?_ ?_ ?_ ?_ hn' hm' <;> cases e <;> simp only [Cl.step]
      all_goals first
        | assumption
        | exact absurd (List.mem_cons_self ..) (hn _)
        | (split <;> simp_all [Cl.command, Cl.retry, Cl.left]; done)
        | (simp only [Cl.headers]; repeat' split
           all_goals assumption)
        | (have := hm _ (List.mem_cons_self ..)
           rw [hx]
           exact Nat.max_eq_left this)
  exact key es _ (by decide) (by decide) (by decide) (by decide) (by decide) hn hm

/-! ### Responses -/

/-- The first headers on a stream are given to the controller, as long as its stream is there. -/
theorem response (s : Cl R H) (id : Nat) (h : H) (hd : s.dead = false) (hp : id ∈ s.pending)
    (hs : id ∈ s.streams) : (s.step (.headers id h)).given = s.given ++ [(id, h)] := by
  simp [Cl.step, hd, Cl.headers, hp, hs]

/-- An interim response (103) is taken for the response; the final one (200) is not given. -/
theorem final_false :
    ((start 9 : Cl Nat Nat).run [.new 1, .command true, .headers 0 103, .headers 0 200]).given =
      [(0, 103)] := by
  decide +kernel

/-- A request made after the peer's GOAWAY ends the driver; the response to another that the peer
still answers is not given. -/
theorem goaway_false :
    ((start 9 : Cl Nat Nat).run [.new 1, .command true, .goaway, .new 2, .command true, .headers 0 200]).given =
      [] ∧
    ((start 9 : Cl Nat Nat).run [.new 1, .command true, .goaway, .headers 0 200]).given = [(0, 200)] := by
  decide +kernel

/-- What is kept for a request whose stream is over before any headers is kept for good. -/
theorem leak_false (es : List (Ev Nat Nat)) (h : ∀ x, Ev.headers 0 x ∉ es) :
    0 ∈ (((start 9 : Cl Nat Nat).run [.new 1, .command true, .cleanup 0]).run es).pending := by
  have key : ∀ (es : List (Ev Nat Nat)) (s : Cl Nat Nat), 0 ∈ s.pending → (∀ x, Ev.headers 0 x ∉ es) →
      0 ∈ (s.run es).pending := by
    intro es
    induction es with
    | nil => intro s h _; exact h
    | cons e es ih =>
      intro s hp hn
      refine ih (s.step e) ?_ (fun x h => hn x (List.mem_cons_of_mem _ h))
      cases e with
      | new r => simp only [Cl.step]; split <;> exact hp
      | command f =>
        simp only [Cl.step, Cl.command]
        repeat' split
        · exact hp
        · exact hp
        · rename_i r l hc
          obtain ⟨-, -, -, -, h5, -⟩ := sendRequest_same { s with chan := l } f
          unfold Cl.initiate
          generalize Cl.sendRequest { s with chan := l } f = x at *
          obtain ⟨s', a⟩ := x
          simp only at h5
          cases a
          · exact List.mem_cons_of_mem _ (h5 ▸ hp)
          · exact h5 ▸ hp
          · exact h5 ▸ hp
      | retry => simp only [Cl.step]; split <;> exact hp
      | headers id x =>
        have hne : id ≠ 0 := fun h0 => hn x (h0 ▸ List.mem_cons_self ..)
        have hf : 0 ∈ s.pending.filter (· ≠ id) := by simp [hp, Ne.symm hne]
        simp only [Cl.step, Cl.headers]
        repeat' split
        all_goals first
          | exact hp
          | exact hf
      | cleanup => exact hp
      | maxStreams => exact hp
      | goaway => exact hp
  exact key es _ (by decide +kernel) h

/-! ### The server's limit -/

/-- A server gives out at most as many requests as it is set to, whatever the peer sends. -/
theorem limit (n : Nat) (es : List SEv) : (({ limit := some n } : Sv).run es).given.length ≤ n := by
  suffices ∀ (es : List SEv) (s : Sv), s.limit = some n → s.given.length = s.requests → s.requests ≤ n →
      (s.run es).given.length ≤ n from this es _ rfl rfl (Nat.zero_le _)
  intro es
  induction es with
  | nil => intro s _ h1 h2; simp only [Sv.run]; omega
  | cons e es ih =>
    intro s hl h1 h2
    simp only [Sv.run]
    cases e with
    | headers id =>
      simp only [Sv.step, Sv.headers, Sv.full, hl]
      split
      · exact ih _ hl h1 h2
      · split
        · exact ih _ rfl h1 h2
        · rename_i hf
          simp only [decide_eq_true_eq] at hf
          split
          · exact ih _ hl h1 h2
          · refine ih _ rfl ?_ ?_
            · simp [h1]
            · show s.requests + 1 ≤ n
              omega
    | cleanup id => exact ih _ hl h1 h2

/-- The streams with headers. -/
def heads : List SEv → List Nat
  | [] => []
  | .headers id :: l => id :: heads l
  | .cleanup _ :: l => heads l

/-- A server does not close for its limit before more lists of headers came than it is set to. What is
missing: that this is so for requests, without the trailers (`limit_false`). -/
theorem limit_partial (n : Nat) (es : List SEv) (h : (heads es).length ≤ n) :
    (({ limit := some n } : Sv).run es).closed = false := by
  suffices ∀ (es : List SEv) (s : Sv), s.limit = some n → s.closed = false →
      s.requests + (heads es).length ≤ n → (s.run es).closed = false from
    this es _ rfl rfl (by simpa using h)
  intro es
  induction es with
  | nil => intro s _ h _; exact h
  | cons e es ih =>
    intro s hl hc hn
    simp only [Sv.run]
    cases e with
    | headers id =>
      simp only [heads, List.length_cons] at hn
      have hf : ¬ (n ≤ s.requests) := by omega
      simp only [Sv.step, hc, Sv.headers, Sv.full, hl, hf]
      simp only [decide_false, Bool.false_eq_true, if_false]
      split
      · exact ih _ hl hc (by omega)
      · exact ih _ rfl rfl (by show s.requests + 1 + _ ≤ n; omega)
    | cleanup id => exact ih _ hl hc hn

/-- With a limit of one request, its own trailers close the connection. -/
theorem limit_false :
    (({ limit := some 1 } : Sv).run [.headers 0, .headers 0]).closed = true ∧
    (({ limit := some 1 } : Sv).run [.headers 0]).given = [0] := by
  decide +kernel

/-- Three requests with room for two streams: the third waits until there is another. -/
example :
    ((start 2 : Cl Nat Nat).run [.new 1, .new 2, .new 3, .command true, .command true, .command true,
      .headers 4 200, .retry, .maxStreams 3, .retry, .command true, .headers 8 404]).sent = [(0, 1), (4, 2), (8, 3)] ∧
    ((start 2 : Cl Nat Nat).run [.new 1, .new 2, .new 3, .command true, .command true, .command true,
      .headers 4 200, .retry, .maxStreams 3, .retry, .command true, .headers 8 404]).given = [(4, 200), (8, 404)] := by
  decide +kernel

end Verif.Props.C174
