import Verif.Small.InFlight

/-!
C170: the time with bytes in flight that a connection reports is the total length of the times
at which some bytes were on their way, up to the last event; and the recovery of a path may be
made anew exactly as long as nothing that counts was sent. The latter is asked through the time
and so fails for bytes that were in flight for no time.
-/

namespace Verif.Props.C170
open Verif Verif.InFlight

/-- The time of an event. -/
def time : Ev → Nat
  | .sent _ t => t
  | .gone _ t => t

/-- How many bytes are on their way after some events; more than there are cannot leave. -/
def level : List Ev → Nat
  | [] => 0
  | evs => evs.foldl (fun n e => match e with | .sent b _ => n + b | .gone b _ => n - b) 0

/-- The total time with bytes on their way: for each event the time to the next one if there
are bytes then. `n` bytes are there at the time `t` before. -/
def busy (n t : Nat) : List Ev → Nat
  | [] => 0
  | .sent b u :: evs => (if 0 < n then u - t else 0) + busy (n + b) u evs
  | .gone b u :: evs => (if 0 < n then u - t else 0) + busy (n - b) u evs

/-- Time does not go back. -/
def Ordered : Nat → List Ev → Prop
  | _, [] => True
  | t, e :: evs => t ≤ time e ∧ Ordered (time e) evs

/-- Every packet has some bytes. -/
def Real : List Ev → Prop := fun evs => ∀ b t, .sent b t ∈ evs → 0 < b

/-- The state between events: at the time `t`, `n` bytes are there and were so long that `d` is
the time in sum. -/
structure St (f : Flight) (n t d : Nat) : Prop where
  bytes : f.bytes = n
  idle : n = 0 → f.start = none ∧ f.opened = 0 ∧ f.closed = d
  open' : 0 < n → ∃ s, f.start = some s ∧ s ≤ t ∧ f.opened = t - s ∧ f.closed + (t - s) = d

theorem St.duration {f : Flight} {n t d : Nat} (h : St f n t d) : f.duration = d := by
  unfold Flight.duration
  by_cases hn : n = 0
  · have := h.idle hn; omega
  · obtain ⟨s, _, _, h3, h4⟩ := h.open' (by omega); omega

theorem St.sent {f : Flight} {n t d b u : Nat} (h : St f n t d) (hu : t ≤ u) (hb : 0 < b) :
    St (f.add b u) (n + b) u (d + if 0 < n then u - t else 0) := by
  unfold Flight.add
  rw [if_neg (by omega)]
  by_cases hn : n = 0
  · obtain ⟨h1, h2, h3⟩ := h.idle hn
    rw [h1]
    refine ⟨by simp [h.bytes], fun g => by omega, fun _ => ⟨u, rfl, Nat.le_refl u, by simp [h2], ?_⟩⟩
    simp [hn, h3]
  · obtain ⟨s, h1, h2, h3, h4⟩ := h.open' (by omega)
    rw [h1]
    simp only [Flight.update, h1]
    rw [if_neg (by have := h.bytes; omega)]
    refine ⟨by simp [h.bytes], fun g => by omega, fun _ => ⟨s, rfl, by omega, rfl, ?_⟩⟩
    rw [if_pos (by omega)]
    simp only
    omega

theorem St.gone {f : Flight} {n t d b u : Nat} (h : St f n t d) (hu : t ≤ u) :
    St (f.sub b u) (n - b) u (d + if 0 < n then u - t else 0) := by
  unfold Flight.sub Flight.update
  have hb := h.bytes
  by_cases hn : n = 0
  · obtain ⟨h1, h2, h3⟩ := h.idle hn
    simp only [h1]
    refine ⟨by simp [hb], fun _ => ⟨rfl, h2, by simp [hn, h3]⟩, fun g => by omega⟩
  · obtain ⟨s, h1, h2, h3, h4⟩ := h.open' (by omega)
    simp only [h1]
    rw [if_pos (show 0 < n by omega)]
    by_cases hz : f.bytes - b = 0
    · rw [if_pos hz]
      exact ⟨by simp only; omega, fun _ => ⟨rfl, rfl, by simp only; omega⟩, fun g => by omega⟩
    · rw [if_neg hz]
      exact ⟨by simp only; omega, fun g => by omega, fun _ => ⟨s, rfl, by omega, rfl, by simp only; omega⟩⟩

theorem run_st (evs : List Ev) : ∀ (f : Flight) (n t d : Nat), St f n t d → Ordered t evs → Real evs →
    ∃ n' t', St (f.run evs) n' t' (d + busy n t evs) ∧
      n' = evs.foldl (fun n e => match e with | .sent b _ => n + b | .gone b _ => n - b) n := by
  induction evs with
  | nil => intro f n t d h _ _; exact ⟨n, t, by simpa [busy, Flight.run] using h, rfl⟩
  | cons e evs ih =>
    intro f n t d h ho hr
    have hr' : Real evs := fun b u m => hr b u (List.mem_cons_of_mem _ m)
    cases e with
    | sent b u =>
      obtain ⟨n', t', h1, h2⟩ := ih _ _ _ _ (h.sent ho.1 (hr b u (List.mem_cons_self ..))) ho.2 hr'
      exact ⟨n', t', by simpa [busy, Nat.add_assoc, Flight.run, Flight.step, time] using h1, h2⟩
    | gone b u =>
      obtain ⟨n', t', h1, h2⟩ := ih _ _ _ _ (h.gone (b := b) ho.1) ho.2 hr'
      exact ⟨n', t', by simpa [busy, Nat.add_assoc, Flight.run, Flight.step, time] using h1, h2⟩

theorem start_st (t : Nat) : St {} 0 t 0 := ⟨rfl, fun _ => ⟨rfl, rfl, rfl⟩, fun h => by omega⟩

theorem level_eq (evs : List Ev) : level evs = evs.foldl (fun n e => match e with | .sent b _ => n + b | .gone b _ => n - b) 0 := by
  cases evs <;> rfl

/-- C170: the time reported, and the bytes. -/
theorem duration_eq (evs : List Ev) (ho : Ordered 0 evs) (hr : Real evs) :
    (Flight.run {} evs).duration = busy 0 0 evs ∧ (Flight.run {} evs).bytes = level evs := by
  obtain ⟨n', t', h1, h2⟩ := run_st evs {} 0 0 0 (start_st 0) ho hr
  exact ⟨by rw [h1.duration, Nat.zero_add], by rw [h1.bytes, h2, level_eq]⟩

theorem run_append (a b : List Ev) (f : Flight) : f.run (a ++ b) = (f.run a).run b := by simp [Flight.run]

theorem ordered_append (a b : List Ev) : ∀ t, Ordered t (a ++ b) → Ordered t a := by
  induction a with
  | nil => intro t _; exact trivial
  | cons e a ih => intro t h; exact ⟨h.1, ih _ h.2⟩

theorem busy_append (a b : List Ev) : ∀ n t, busy n t a ≤ busy n t (a ++ b) := by
  induction a with
  | nil => intro n t; exact Nat.zero_le _
  | cons e a ih =>
    intro n t
    cases e with
    | sent b u => exact Nat.add_le_add_left (ih _ _) _
    | gone b u => exact Nat.add_le_add_left (ih _ _) _

/-- C170: the time reported never becomes less. -/
theorem duration_mono (a b : List Ev) (ho : Ordered 0 (a ++ b)) (hr : Real (a ++ b)) :
    (Flight.run {} a).duration ≤ (Flight.run {} (a ++ b)).duration := by
  rw [(duration_eq (a ++ b) ho hr).1,
    (duration_eq a (ordered_append a b 0 ho) (fun x t m => hr x t (List.mem_append_left _ m))).1]
  exact busy_append a b 0 0

/-- The last time in a list of events. -/
def last (t : Nat) : List Ev → Nat
  | [] => t
  | e :: evs => last (time e) evs

theorem busy_le (evs : List Ev) : ∀ n t, Ordered t evs → t + busy n t evs ≤ last t evs := by
  induction evs with
  | nil => intro n t _; simp [busy, last]
  | cons e evs ih =>
    intro n t h
    have h1 := h.1
    cases e with
    | sent b u =>
      have := ih (n + b) u h.2
      simp only [busy, last, time] at this h1 ⊢
      split <;> omega
    | gone b u =>
      have := ih (n - b) u h.2
      simp only [busy, last, time] at this h1 ⊢
      split <;> omega

/-- C170: it is not longer than the time since the first packet. -/
theorem duration_le (b t : Nat) (evs : List Ev) (ho : Ordered 0 (.sent b t :: evs)) (hr : Real (.sent b t :: evs)) :
    t + (Flight.run {} (.sent b t :: evs)).duration ≤ last t evs := by
  rw [(duration_eq _ ho hr).1]
  have := busy_le evs (0 + b) t ho.2
  simpa [busy] using this

/-- C170, if time passes between events: recovery may be made anew exactly as long as nothing
that counts was sent. For events at one time this is false, see `reinit_false`. -/
theorem reinit_partial (evs : List Ev) (ho : Ordered 0 evs) (hr : Real evs)
    (hs : ∀ a b t e c, evs = a ++ .sent b t :: e :: c → t < time e) :
    (Flight.run {} evs).canReinit = true ↔ ∀ b t, .sent b t ∉ evs := by
  have hd := duration_eq evs ho hr
  unfold Flight.canReinit
  rw [decide_eq_true_iff, hd.1, hd.2]
  constructor
  · rintro ⟨h1, h2⟩ b t hm
    obtain ⟨a, c, rfl⟩ := List.append_of_mem hm
    have hb := hr b t hm
    cases c with
    | nil =>
      rw [level_eq, List.foldl_append] at h1
      simp only [List.foldl_cons, List.foldl_nil] at h1
      omega
    | cons e c =>
      have hlt := hs a b t e c rfl
      have key : ∀ (a : List Ev) n t0, 0 < busy n t0 (a ++ .sent b t :: e :: c) := by
        intro a
        induction a with
        | nil =>
          intro n t0
          cases e with
          | sent b' u =>
            simp only [List.nil_append, busy, time] at hlt ⊢
            rw [if_pos (show 0 < n + b by omega)]; omega
          | gone b' u =>
            simp only [List.nil_append, busy, time] at hlt ⊢
            rw [if_pos (show 0 < n + b by omega)]; omega
        | cons x a ih =>
          intro n t0
          cases x with
          | sent b' u => exact Nat.lt_of_lt_of_le (ih _ _) (Nat.le_add_left _ _)
          | gone b' u => exact Nat.lt_of_lt_of_le (ih _ _) (Nat.le_add_left _ _)
      have := key a 0 0
      omega
  · intro hn
    have key : ∀ (evs : List Ev) t, (∀ b t, .sent b t ∉ evs) → busy 0 t evs = 0 ∧
        evs.foldl (fun n e => match e with | .sent b _ => n + b | .gone b _ => n - b) 0 = 0 := by
      intro evs
      induction evs with
      | nil => intro t _; exact ⟨rfl, rfl⟩
      | cons e evs ih =>
        intro t h
        cases e with
        | sent b u => exact absurd (List.mem_cons_self ..) (h b u)
        | gone b u =>
          have := ih u (fun b t m => h b t (List.mem_cons_of_mem _ m))
          exact ⟨by simpa [busy] using this.1, by simpa using this.2⟩
    have := key evs 0 hn
    exact ⟨by rw [level_eq]; exact this.2, this.1⟩

/-- C170 is false for bytes that are in flight for no time: they were sent, and recovery may be
made anew, which forgets them. -/
theorem reinit_false : ¬ ∀ evs, Ordered 0 evs → Real evs → (Flight.run {} evs).canReinit = true → ∀ b t, .sent b t ∉ evs := by
  intro h
  exact h [.sent 1200 5, .gone 1200 5] ⟨by decide, by decide, trivial⟩ (fun b t m => by simp at m; omega) (by decide) 1200 5 (by simp)

/-- Two times with bytes in flight, from 10 to 40 and from 100 to 105. -/
example : (Flight.run {} [.sent 5 10, .sent 3 20, .gone 8 40, .gone 1 60, .sent 4 100, .gone 1 105]).duration = 35 ∧
    (Flight.run {} [.sent 5 10, .sent 3 20, .gone 8 40, .gone 1 60, .sent 4 100, .gone 1 105]).bytes = 3 := by decide

/-- Nothing sent yet: packets without data do not count. -/
example : (Flight.run {} [.gone 0 4]).canReinit = true ∧ (Flight.run {} [.sent 1 4]).canReinit = false ∧
    (Flight.run {} [.sent 1 4, .gone 1 5]).canReinit = false := by decide

end Verif.Props.C170
