import Verif.Tq.Bandwidth
import Verif.Props.C137

/-!
# C162: The bandwidth estimate of a connection and the gauge of all
-/

namespace Verif.Props.C162
open Verif.Tq.Bw Verif.Bbr Verif.Props.C137

/-! ### The gauge -/

/-- The estimates of all live connections together. -/
def total (l : List Rep) : Nat := (l.map (·.lastBw)).sum

theorem sum_set : ∀ (l : List Nat) (i a b : Nat), l[i]? = some a → (l.set i b).sum + a = l.sum + b
  | x :: l, 0, a, b, h => by
    simp at h; subst h; simp; omega
  | x :: l, i + 1, a, b, h => by
    have := sum_set l i a b (by simpa using h)
    simp; omega

theorem sum_erase : ∀ (l : List Nat) (i a : Nat), l[i]? = some a → (l.eraseIdx i).sum + a = l.sum
  | x :: l, 0, a, h => by
    simp at h; subst h; simp; omega
  | x :: l, i + 1, a, h => by
    have := sum_erase l i a (by simpa using h)
    simp; omega

theorem map_erase (f : Rep → Nat) : ∀ (l : List Rep) (i : Nat), (l.eraseIdx i).map f = (l.map f).eraseIdx i
  | [], i => by simp
  | x :: l, 0 => by simp
  | x :: l, i + 1 => by simp [map_erase f l i]

theorem dec_eq {g t x : Nat} (h : g = (t + x) % u64) : dec g x = t % u64 := by
  unfold dec; subst h; simp only [u64]; omega

theorem gauge_step {w w' : World} {o : Op} (h : w.gauge = total w.live % u64) (hs : w.step o = some w') :
    w'.gauge = total w'.live % u64 := by
  cases o with
  | new now =>
    injection hs with hs; subst hs
    simpa [total] using h
  | update i x =>
    unfold World.step at hs
    dsimp only at hs
    split at hs
    · injection hs with hs; subst hs; exact h
    · rename_i r hr
      cases hu : r.update x with
      | none => rw [hu] at hs; cases hs
      | some r' =>
        rw [hu] at hs
        injection hs with hs; subst hs
        have e := sum_set (w.live.map (·.lastBw)) i r.lastBw r'.lastBw (by simp [hr])
        have e2 : total (w.live.set i r') + r.lastBw = total w.live + r'.lastBw := by
          unfold total; rw [List.map_set]; exact e
        dsimp only
        split
        · rename_i hq; rw [h]; congr 1; omega
        · by_cases hle : r.lastBw ≤ total w.live
          · rw [dec_eq (t := total w.live - r.lastBw) (by rw [h]; congr 1; omega)]
            unfold inc
            simp only [u64] at *
            omega
          · exfalso
            have : (w.live.map (·.lastBw)).sum ≥ r.lastBw := by
              have := sum_erase (w.live.map (·.lastBw)) i r.lastBw (by simp [hr]); omega
            exact hle this
  | drop i =>
    unfold World.step at hs
    dsimp only at hs
    split at hs
    · injection hs with hs; subst hs; exact h
    · rename_i r hr
      injection hs with hs; subst hs
      have e := sum_erase (w.live.map (·.lastBw)) i r.lastBw (by simp [hr])
      dsimp only
      have e2 : total (w.live.eraseIdx i) + r.lastBw = total w.live := by
        unfold total; rw [map_erase]; exact e
      exact dec_eq (by rw [h, e2])

/-- At all times the gauge is the sum of the estimates of the live connections. -/
theorem gauge (ops : List Op) (w : World) (h : World.run {} ops = some w) : w.gauge = total w.live % u64 := by
  have key : ∀ (ops : List Op) (v w : World), v.gauge = total v.live % u64 → v.run ops = some w → w.gauge = total w.live % u64 := by
    intro ops
    induction ops with
    | nil => intro v w hv hr; injection hr with hr; subst hr; exact hv
    | cons o ops ih =>
      intro v w hv hr
      unfold World.run at hr
      cases hs : v.step o with
      | none => rw [hs] at hr; cases hr
      | some v' => rw [hs] at hr; exact ih v' w (gauge_step hv hs) hr
  exact key ops {} w rfl h

/-- When no connection is left it is zero. -/
theorem gauge_zero (ops : List Op) (w : World) (h : World.run {} ops = some w) (he : w.live = []) : w.gauge = 0 := by
  rw [gauge ops w h, he]; rfl

/-! ### The estimate, from what was sent and acknowledged in each round -/

/-- A round: when it began, and the bytes sent and acknowledged in it. -/
structure R where
  start : Nat
  sent : Nat
  acked : Nat

/-- The estimator after rounds, the latest first. -/
def after : List R → Option Est
  | [] => some {}
  | x :: l => (after l).bind fun e => e.newRound x.start x.sent x.acked

/-- Bytes sent in the rounds before the latest one, ten at most. -/
def sentIn (l : List R) : Nat := ((l.tail.take 10).map (·.sent)).sum
/-- Bytes acknowledged in the latest rounds, ten at most. -/
def ackedIn (l : List R) : Nat := ((l.take 10).map (·.acked)).sum
/-- From the beginning of the oldest of these rounds to that of the latest. -/
def span (l : List R) : Nat := (l.head?.map (·.start)).getD 0 - ((l.take 10).getLast?.map (·.start)).getD 0

/-- The sample of the latest round. -/
def rate (l : List R) : Option Nat :=
  if ackedIn l > 0 then some (min (bw (ackedIn l) (span l)) (bw (sentIn l) (span l))) else none

/-- What the filter is given. -/
def fed : List R → List (FOp Nat)
  | [] => []
  | x :: l => match rate (x :: l) with
    | none => fed l
    | some v => (if l.length + 1 < 5 then .reset ⟨v, x.start⟩ else .update ⟨v, x.start⟩) :: fed l

/-- Rounds do not begin before earlier ones. -/
def InOrder : List R → Prop
  | [] => True
  | x :: l => (∀ y ∈ l, y.start ≤ x.start) ∧ InOrder l

/-- The rounds as kept, all of them, the latest first. -/
def kept : List R → List Round
  | [] => []
  | x :: l => { sent := (l.head?.map (·.sent)).getD 0, acked := x.acked, start := x.start } :: kept l

theorem kept_length : ∀ l, (kept l).length = l.length
  | [] => rfl
  | _ :: l => by simp [kept, kept_length l]

theorem kept_acked : ∀ l, (kept l).map (·.acked) = l.map (·.acked)
  | [] => rfl
  | _ :: l => by simp [kept, kept_acked l]

theorem kept_start : ∀ l, (kept l).map (·.start) = l.map (·.start)
  | [] => rfl
  | _ :: l => by simp [kept, kept_start l]

theorem kept_sent : ∀ (l : List R) n, (((kept l).take n).map (·.sent)).sum = ((l.tail.take n).map (·.sent)).sum
  | [], n => by simp [kept]
  | x :: l, 0 => by simp
  | [x], n + 1 => by simp [kept]
  | x :: y :: l, n + 1 => by
    have := kept_sent (y :: l) n
    simp only [kept, List.take_succ_cons, List.map_cons, List.sum_cons, List.tail_cons, List.head?_cons, Option.map_some, Option.getD_some] at this ⊢
    rw [this]

theorem sample_eq (x : R) (l : List R) : sample ((kept (x :: l)).take 10).reverse x.start = rate (x :: l) := by
  have h1 : (((kept (x :: l)).take 10).reverse.map (·.acked)).sum = ackedIn (x :: l) := by
    unfold ackedIn
    rw [List.map_reverse, List.sum_reverse, List.map_take, List.map_take, kept_acked]
  have h2 : (((kept (x :: l)).take 10).reverse.map (·.sent)).sum = sentIn (x :: l) := by
    unfold sentIn
    rw [List.map_reverse, List.sum_reverse, kept_sent]
  have h3 : (((kept (x :: l)).take 10).reverse.head?.map (·.start)) = ((x :: l).take 10).getLast?.map (·.start) := by
    rw [List.head?_reverse, ← List.getLast?_map, ← List.getLast?_map, List.map_take, List.map_take, kept_start]
  unfold sample rate
  dsimp only
  rw [h1, h2, h3]
  rfl

/-- What the estimator is. -/
structure Is (l : List R) (e : Est) : Prop where
  rounds : e.rounds = ((kept l).take 10).reverse
  prev : e.prev = (l.head?.map (·.sent)).getD 0
  filter : feed Tq.Bw.gt filterWin (fed l) = some e.filter

theorem next_eq {l : List R} {e : Est} (h : Is l e) (x : R) : e.next x.start x.acked = ((kept (x :: l)).take 10).reverse := by
  unfold Est.next
  rw [h.rounds, h.prev]
  have hl := kept_length l
  by_cases c : l.length < 10
  · have e1 : (kept l).take 10 = kept l := List.take_of_length_le (by omega)
    have e2 : (kept l).take 9 = kept l := List.take_of_length_le (by omega)
    have : (((kept l).take 10).reverse).length ≠ win := by rw [e1]; simp [hl, win]; omega
    rw [if_neg this, e1]
    simp [kept, e2]
  · have : (((kept l).take 10).reverse).length = win := by rw [List.length_reverse, List.length_take, hl]; simp only [win]; omega
    rw [if_pos this]
    have e3 : ((kept l).take 10).reverse.tail = ((kept l).take 9).reverse := by
      rw [List.tail_reverse, List.dropLast_eq_take, List.length_take, List.take_take, hl]
      congr 2
      omega
    rw [e3]; simp [kept]

theorem rounds_length {l : List R} {e : Est} (h : Is l e) : e.rounds.length = min 10 l.length := by
  rw [h.rounds]; simp [kept_length]

theorem since_fed : ∀ (l : List R), ∀ w ∈ since (fed l), ∃ y ∈ l, w.time = y.start
  | [], w, hw => by simp [fed, since] at hw
  | x :: l, w, hw => by
    unfold fed at hw
    split at hw
    · obtain ⟨y, hy, e⟩ := since_fed l w hw; exact ⟨y, List.mem_cons_of_mem _ hy, e⟩
    · split at hw
      · simp [since] at hw; exact ⟨x, List.mem_cons_self, by rw [hw]⟩
      · simp only [since, List.mem_cons] at hw
        rcases hw with hw | hw
        · exact ⟨x, List.mem_cons_self, by rw [hw]⟩
        · obtain ⟨y, hy, e⟩ := since_fed l w hw; exact ⟨y, List.mem_cons_of_mem _ hy, e⟩

theorem fed_inTime : ∀ (l : List R), InOrder l → InTime (fed l)
  | [], _ => trivial
  | x :: l, h => by
    unfold fed
    split
    · exact fed_inTime l h.2
    · split
      · exact fed_inTime l h.2
      · refine ⟨?_, fed_inTime l h.2⟩
        intro w hw
        obtain ⟨y, hy, e⟩ := since_fed l w hw
        rw [e]; exact h.1 y hy

theorem after_is : ∀ (l : List R), InOrder l → ∃ e, after l = some e ∧ Is l e
  | [], _ => ⟨{}, rfl, rfl, rfl, rfl⟩
  | x :: l, h => by
    obtain ⟨e, he, hi⟩ := after_is l h.2
    have hne := next_eq hi x
    have hsm := sample_eq x l
    have hlen : (e.next x.start x.acked).length = min 10 (l.length + 1) := by
      rw [hne]; simp [kept_length]
    unfold after
    rw [he]
    show ∃ e', e.newRound x.start x.sent x.acked = some e' ∧ Is (x :: l) e'
    unfold Est.newRound
    dsimp only
    have hT := fed_inTime (x :: l) h
    rw [hlen, hne, hsm]
    cases hr : rate (x :: l) with
    | none =>
      refine ⟨_, rfl, rfl, rfl, ?_⟩
      unfold fed; rw [hr]; exact hi.filter
    | some v =>
      dsimp only
      have hc : (min 10 (l.length + 1) < win / 2) ↔ l.length + 1 < 5 := by simp only [win]; omega
      by_cases c : l.length + 1 < 5
      · rw [if_pos (hc.2 c)]
        refine ⟨_, rfl, rfl, rfl, ?_⟩
        unfold fed; rw [hr]
        dsimp only
        rw [if_pos c]
        simp only [feed, hi.filter, Option.map_some]
      · rw [if_neg (fun k => c (hc.1 k))]
        have hfd : fed (x :: l) = .update ⟨v, x.start⟩ :: fed l := by
          rw [fed, hr]; dsimp only; rw [if_neg c]
        rw [hfd] at hT
        have := no_panic order_nat filterWin _ hT
        simp only [feed, hi.filter, Option.bind_some] at this
        cases hu : e.filter.update Tq.Bw.gt ⟨v, x.start⟩ with
        | none => rw [hu] at this; cases this
        | some f =>
          refine ⟨_, rfl, rfl, rfl, ?_⟩
          rw [hfd]
          simp only [feed, hi.filter, Option.bind_some, hu]

/-- The estimator does not panic. -/
theorem estimates (l : List R) (h : InOrder l) : (after l).isSome = true := by
  obtain ⟨e, he, _⟩ := after_is l h
  rw [he]; rfl

/-- With fewer than five rounds there is no estimate. -/
theorem few (l : List R) (h : InOrder l) (e : Est) (he : after l = some e) (hl : l.length < 5) : e.get = 0 := by
  obtain ⟨e', he', hi⟩ := after_is l h
  rw [he] at he'; injection he' with he'; subst he'
  unfold Est.get
  rw [rounds_length hi, if_pos (by simp only [win]; omega)]

/-- The rounds up to each one, the latest first. -/
def upTo : List R → List (List R)
  | [] => []
  | x :: l => (x :: l) :: upTo l

/-- An estimate is a sample of one of the rounds, and no later sample is larger. -/
theorem since_rate : ∀ (l : List R), ∀ w ∈ since (fed l), ∃ m ∈ upTo l, rate m = some w.value ∧ (m.head?.map (·.start)) = some w.time
  | [], w, hw => by simp [fed, since] at hw
  | x :: l, w, hw => by
    unfold fed at hw
    split at hw
    · obtain ⟨m, hm, e⟩ := since_rate l w hw; exact ⟨m, List.mem_cons_of_mem _ hm, e⟩
    · rename_i v hv
      split at hw
      · simp [since] at hw; subst hw; exact ⟨x :: l, List.mem_cons_self, hv, rfl⟩
      · simp only [since, List.mem_cons] at hw
        rcases hw with hw | hw
        · subst hw; exact ⟨x :: l, List.mem_cons_self, hv, rfl⟩
        · obtain ⟨m, hm, e⟩ := since_rate l w hw; exact ⟨m, List.mem_cons_of_mem _ hm, e⟩

/-- The estimate, if there is one, is the sample of a round. -/
theorem is_sample (l : List R) (h : InOrder l) (e : Est) (he : after l = some e) (hg : e.get ≠ 0) :
    ∃ m ∈ upTo l, rate m = some e.get := by
  obtain ⟨e', he', hi⟩ := after_is l h
  rw [he] at he'; injection he' with he'; subst he'
  unfold Est.get at *
  split at hg
  · exact absurd rfl hg
  · rename_i c
    rw [if_neg c]
    have hs := sound order_nat filterWin _ (fed_inTime l h) e.filter hi.filter
    cases hb : e.filter.best with
    | none => rw [hb] at hg; exact absurd rfl hg
    | some b =>
      obtain ⟨n, o, t, e1, _⟩ := hs.2 b hb
      obtain ⟨m, hm, hr, _⟩ := since_rate l ⟨b, t⟩ (by rw [e1]; simp)
      exact ⟨m, hm, hr⟩

/-- If anything was acknowledged in the latest ten rounds, the estimate is the sample of a round that began at most two
minutes before the latest, and not below the latest sample. -/
theorem recent (x : R) (l : List R) (h : InOrder (x :: l)) (hl : 4 ≤ l.length) (e : Est) (he : after (x :: l) = some e) (v : Nat)
    (hv : rate (x :: l) = some v) :
    v ≤ e.get ∧ ∃ m ∈ upTo (x :: l), rate m = some e.get ∧ ∃ t, (m.head?.map (·.start)) = some t ∧ x.start - t ≤ 120 * 10 ^ 9 := by
  obtain ⟨e', he', hi⟩ := after_is (x :: l) h
  rw [he] at he'; injection he' with he'; subst he'
  have hfd : fed (x :: l) = .update ⟨v, x.start⟩ :: fed l := by
    rw [fed, hv]; dsimp only; rw [if_neg (by omega)]
  have hT := fed_inTime (x :: l) h
  have hF := hi.filter
  rw [hfd] at hT hF
  obtain ⟨f, b, t, g1, g2, g3, g4, g5⟩ := fresh order_nat filterWin (fed l) ⟨v, x.start⟩ hT
  have : feed Tq.Bw.gt filterWin (.update ⟨v, x.start⟩ :: fed l) = some f := g1
  rw [hF] at this
  injection this with this
  subst this
  have hget : e.get = b := by
    unfold Est.get
    rw [rounds_length hi, if_neg (by simp only [win, List.length_cons]; omega), g2]; rfl
  rw [hget]
  rw [← hfd] at g4
  obtain ⟨m, hm, hr, ht⟩ := since_rate (x :: l) ⟨b, t⟩ g4
  refine ⟨?_, m, hm, hr, t, ht, g5⟩
  simpa using g3

/-! ### Samples and true rates -/

theorem bw_le (b n : Nat) (h : 2 ≤ bw b n) (hn : 0 < n) : bw b n * n ≤ 8 * b * 10 ^ 9 := by
  unfold bw at *
  split at h
  · omega
  · rename_i hb
    rw [if_neg hb]
    dsimp only at *
    rw [if_neg (show ¬ n = 0 by omega)] at *
    split at h
    · omega
    · rename_i hc
      rw [if_neg hc]
      exact Nat.le_trans (Nat.mul_le_mul_right _ (Nat.mod_le _ _)) (Nat.div_mul_le_self _ _)

/-- A sample is not above the rate at which bytes were acknowledged, nor that at which they were sent in the rounds
before; both over the time from the beginning of the oldest round kept to that of the latest. -/
theorem sample_le (l : List R) (v : Nat) (h : rate l = some v) (hv : 2 ≤ v) (hs : 0 < span l) :
    v * span l ≤ 8 * ackedIn l * 10 ^ 9 ∧ v * span l ≤ 8 * sentIn l * 10 ^ 9 := by
  unfold rate at h
  split at h
  · injection h with h
    have h1 : v ≤ bw (ackedIn l) (span l) := by omega
    have h2 : v ≤ bw (sentIn l) (span l) := by omega
    refine ⟨?_, ?_⟩
    · exact Nat.le_trans (Nat.mul_le_mul_right _ h1) (bw_le _ _ (by omega) hs)
    · exact Nat.le_trans (Nat.mul_le_mul_right _ h2) (bw_le _ _ (by omega) hs)
  · cases h

/-- Up to the tenth round, a sample is not above the rate at which bytes were sent: these are the bytes sent from
the beginning of the first round to that of the latest. -/
theorem honest_partial (x : R) (l : List R) (v : Nat) (h : rate (x :: l) = some v) (hv : 2 ≤ v) (hl : l.length < 10) (f : R) (hf : l.getLast? = some f)
    (ht : f.start < x.start) : v * (x.start - f.start) ≤ 8 * ((l.map (·.sent)).sum) * 10 ^ 9 := by
  have e1 : span (x :: l) = x.start - f.start := by
    unfold span
    rw [List.take_of_length_le (by simp; omega)]
    rw [List.getLast?_cons, hf]
    rfl
  have e2 : sentIn (x :: l) = (l.map (·.sent)).sum := by
    unfold sentIn
    rw [List.tail_cons, List.take_of_length_le (by omega)]
  have := (sample_le (x :: l) v h hv (by rw [e1]; omega)).2
  rwa [e1, e2] at this

/-- `s` bytes sent and acknowledged in each of `n` rounds of `d` nanoseconds. -/
def steady (s d : Nat) : Nat → List R
  | 0 => []
  | n + 1 => ⟨n * d, s, s⟩ :: steady s d n

theorem steady_start (s d : Nat) : ∀ n, ∀ y ∈ steady s d n, y.start ≤ (n - 1) * d
  | 0, y, h => by simp [steady] at h
  | n + 1, y, h => by
    simp only [steady, List.mem_cons] at h
    rcases h with h | h
    · subst h; simp
    · exact Nat.le_trans (steady_start s d n y h) (Nat.mul_le_mul_right _ (by omega))

theorem steady_order (s d : Nat) : ∀ n, InOrder (steady s d n)
  | 0 => trivial
  | n + 1 => ⟨fun y hy => Nat.le_trans (steady_start s d n y hy) (Nat.mul_le_mul_right _ (by omega)), steady_order s d n⟩

theorem steady_length (s d : Nat) : ∀ n, (steady s d n).length = n
  | 0 => rfl
  | n + 1 => by simp [steady, steady_length s d n]

theorem steady_rate (s d n : Nat) (hs : 0 < s) : rate (steady s d (n + 11)) = some (bw (10 * s) (9 * d)) := by
  have h1 : ackedIn (steady s d (n + 11)) = 10 * s := by simp [ackedIn, steady]; omega
  have h2 : sentIn (steady s d (n + 11)) = 10 * s := by simp [sentIn, steady]; omega
  have h3 : span (steady s d (n + 11)) = 9 * d := by
    simp only [span, steady, List.head?_cons, Option.map_some, Option.getD_some, List.take_succ_cons, List.take_zero, List.getLast?_cons, List.getLast?_nil, Option.getD_none]
    rw [← Nat.sub_mul]; congr 1; omega
  unfold rate
  rw [h1, h2, h3, if_pos (by omega), Nat.min_self]

/-- After that, samples are too large: of the bytes of ten rounds and the time of nine. For a connection that sends and
has acknowledged `s` bytes in every `d` nanoseconds, the estimate is at least ten ninths of its rate from the
eleventh round on. -/
theorem over (s d n : Nat) (hs : 0 < s) (e : Est) (he : after (steady s d (n + 11)) = some e) : bw (10 * s) (9 * d) ≤ e.get := by
  have hr := steady_rate s d n hs
  have ho := steady_order s d (n + 11)
  exact (recent ⟨(n + 10) * d, s, s⟩ (steady s d (n + 10)) ho (by rw [steady_length]; omega) e he _ hr).1

/-- 1 MB/s: reported as 8.9 Mbit/s. -/
example : bw (10 * 50000) (9 * 50000000) = 8888888 ∧ bw 50000 50000000 = 8000000 := by decide +kernel

theorem rate_idle (l : List R) (h : ∀ y ∈ l.take 10, y.acked = 0) : rate l = none := by
  have : ackedIn l = 0 := by
    unfold ackedIn
    have : ∀ m : List R, (∀ y ∈ m, y.acked = 0) → (m.map (·.acked)).sum = 0 := by
      intro m
      induction m with
      | nil => simp
      | cons a m ih => intro k; simp [k a List.mem_cons_self, ih (fun y hy => k y (List.mem_cons_of_mem _ hy))]
    exact this _ h
  unfold rate
  rw [this, if_neg (by omega)]

/-- When nothing is acknowledged, the estimate does not change, however long that lasts. -/
theorem stale (x : R) (l : List R) (h : InOrder (x :: l)) (hl : 5 ≤ l.length) (hz : ∀ y ∈ (x :: l).take 10, y.acked = 0) (e e' : Est) (he : after l = some e)
    (he' : after (x :: l) = some e') : e'.get = e.get := by
  obtain ⟨a, ha, hi⟩ := after_is l h.2
  obtain ⟨b, hb, hi'⟩ := after_is (x :: l) h
  rw [he] at ha; injection ha with ha; subst ha
  rw [he'] at hb; injection hb with hb; subst hb
  have hfd : fed (x :: l) = fed l := by rw [fed, rate_idle _ hz]
  have hf := hi'.filter
  rw [hfd, hi.filter] at hf
  injection hf with hf
  unfold Est.get
  rw [rounds_length hi, rounds_length hi', List.length_cons, if_neg (by simp only [win]; omega), if_neg (by simp only [win]; omega), hf]

/-! ### The reporter of a connection -/

/-- The reporter after updates. -/
def runRep (r : Rep) : List In → Option Rep
  | [] => some r
  | x :: l => (r.update x).bind fun r => runRep r l

/-- Time and counters never go back. -/
def Forward (now sent acked : Nat) : List In → Prop
  | [] => True
  | x :: l => now ≤ x.now ∧ sent ≤ x.sent ∧ acked ≤ x.acked ∧ Forward x.now x.sent x.acked l

/-- The reporter is what its rounds make it, and these are consecutive: each begins where the one before ended, and together they
account for all bytes. -/
structure Tracks (r : Rep) (l : List R) : Prop where
  est : after l = some r.est
  order : InOrder l
  times : ∀ y ∈ l, y.start ≤ r.lastUpdate
  sent : (l.map (·.sent)).sum = r.lastSent
  acked : (l.map (·.acked)).sum = r.lastAcked
  bw : r.lastBw = r.est.get
  max : r.lastBw ≤ r.maxBw

theorem tracks_update {r : Rep} {l : List R} (h : Tracks r l) (x : In) (hn : r.lastUpdate ≤ x.now) (hs : r.lastSent ≤ x.sent) (ha : r.lastAcked ≤ x.acked) :
    ∃ r', r.update x = some r' ∧
      ((r' = r ∧ x.now - r.lastUpdate < r.period) ∨ (Tracks r' (⟨r.lastUpdate, x.sent - r.lastSent, x.acked - r.lastAcked⟩ :: l) ∧ r.period ≤ x.now - r.lastUpdate
        ∧ r'.lastUpdate = x.now ∧ r'.lastSent = x.sent ∧ r'.lastAcked = x.acked ∧ r'.maxBw = Nat.max r.maxBw r'.lastBw)) := by
  unfold Rep.update
  split
  · rename_i c; exact ⟨r, rfl, .inl ⟨rfl, c⟩⟩
  · rename_i c
    rw [if_neg (by omega)]
    have ho : InOrder (⟨r.lastUpdate, x.sent - r.lastSent, x.acked - r.lastAcked⟩ :: l) := ⟨h.times, h.order⟩
    obtain ⟨e, he, _⟩ := after_is _ ho
    have he2 := he
    unfold after at he2
    rw [h.est] at he2
    have he3 : r.est.newRound r.lastUpdate (x.sent - r.lastSent) (x.acked - r.lastAcked) = some e := he2
    rw [he3]
    have hm := h.max
    have hmax : (r.finish x e).maxBw = Nat.max r.maxBw (r.finish x e).lastBw := by
      simp only [Rep.finish]
      split
      · rename_i q; rw [← q]; exact (Nat.max_eq_left hm).symm
      · rfl
    refine ⟨r.finish x e, rfl, .inr ⟨⟨he, ho, ?_, ?_, ?_, rfl, ?_⟩, by omega, rfl, rfl, rfl, hmax⟩⟩
    · intro y hy
      simp only [List.mem_cons] at hy
      rcases hy with rfl | hy
      · exact hn
      · exact Nat.le_trans (h.times y hy) hn
    · have := h.sent
      simp only [List.map_cons, List.sum_cons, Rep.finish]; omega
    · have := h.acked
      simp only [List.map_cons, List.sum_cons, Rep.finish]; omega
    · rw [hmax]; exact Nat.le_max_right _ _

/-- The reporter never panics; its rounds are consecutive and account for all bytes; the value it contributes is the
estimate from these rounds, and the largest one is kept. -/
theorem tracks (now : Nat) (ups : List In) (h : Forward now 0 0 ups) : ∃ r l, runRep { lastUpdate := now } ups = some r ∧ Tracks r l := by
  have key : ∀ (ups : List In) (r : Rep) (l : List R) (a b c : Nat), Tracks r l → r.lastUpdate ≤ a → r.lastSent ≤ b → r.lastAcked ≤ c → Forward a b c ups →
      ∃ r' l', runRep r ups = some r' ∧ Tracks r' l' := by
    intro ups
    induction ups with
    | nil => intro r l a b c ht _ _ _ _; exact ⟨r, l, rfl, ht⟩
    | cons x ups ih =>
      intro r l a b c ht ha hb hc hf
      obtain ⟨f1, f2, f3, f4⟩ := hf
      obtain ⟨r', hr, hk⟩ := tracks_update ht x (by omega) (by omega) (by omega)
      unfold runRep
      rw [hr]
      rcases hk with ⟨rfl, _⟩ | ⟨hk, _, k1, k2, k3, _⟩
      · exact ih r' l x.now x.sent x.acked ht (by omega) (by omega) (by omega) f4
      · exact ih r' _ x.now x.sent x.acked hk (by omega) (by omega) (by omega) f4
  exact key ups _ [] now 0 0 ⟨rfl, trivial, by simp, rfl, rfl, rfl, Nat.le_refl _⟩ (Nat.le_refl _) (Nat.le_refl _) (Nat.le_refl _) h

/-- Values contributed after each update. -/
def values (r : Rep) : List In → List Nat
  | [] => []
  | x :: l => match r.update x with
    | none => []
    | some r' => r'.lastBw :: values r' l

/-- The maximum kept is that of all values contributed. -/
theorem maximum (now : Nat) (ups : List In) (r : Rep) (h : runRep { lastUpdate := now } ups = some r) :
    r.maxBw = (values { lastUpdate := now } ups).foldl Nat.max 0 := by
  have key : ∀ (ups : List In) (r r' : Rep), r.lastBw ≤ r.maxBw → runRep r ups = some r' → r'.maxBw = (values r ups).foldl Nat.max r.maxBw := by
    intro ups
    induction ups with
    | nil => intro r r' _ h; injection h with h; subst h; rfl
    | cons x ups ih =>
      intro r r' hm h
      unfold runRep at h
      unfold values
      cases hu : r.update x with
      | none => rw [hu] at h; cases h
      | some q =>
        rw [hu] at h
        have hq : q.lastBw ≤ q.maxBw ∧ q.maxBw = Nat.max r.maxBw q.lastBw := by
          unfold Rep.update at hu
          split at hu
          · injection hu with hu; subst hu; exact ⟨hm, (Nat.max_eq_left hm).symm⟩
          · split at hu
            · cases hu
            · cases hn : r.est.newRound r.lastUpdate (x.sent - r.lastSent) (x.acked - r.lastAcked) with
              | none => rw [hn] at hu; cases hu
              | some e =>
                rw [hn] at hu
                injection hu with hu
                subst hu
                have : (r.finish x e).maxBw = Nat.max r.maxBw (r.finish x e).lastBw := by
                  simp only [Rep.finish]
                  split
                  · rename_i q; rw [← q]; exact (Nat.max_eq_left hm).symm
                  · rfl
                exact ⟨by rw [this]; exact Nat.le_max_right _ _, this⟩
        have := ih q r' hq.1 h
        rw [this]
        dsimp only
        rw [List.foldl_cons, hq.2]
  exact key ups _ r (Nat.le_refl _) h

/-- A connection at 1 MB/s, looked at every 50 ms, and the gauge with another, idle one; then the first is gone. -/
example : (World.run {} (.new 0 :: .new 0 :: (List.range 12).map fun i => .update 1 { now := (i + 1) * 50000000, sent := (i + 1) * 50000, acked := (i + 1) * 50000 })).map (·.gauge) = some 8888888 ∧
    (World.run {} (.new 0 :: .new 0 :: ((List.range 12).map fun i => .update 1 { now := (i + 1) * 50000000, sent := (i + 1) * 50000, acked := (i + 1) * 50000 }) ++ [.drop 1])).map (·.gauge) = some 0 := by
  decide +kernel

end Verif.Props.C162
