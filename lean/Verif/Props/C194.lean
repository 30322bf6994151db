import Verif.Dancer.Trackers

/-!
C194: the totals over streams that qlog-dancer draws are the sums of the highest positions of each
stream, in whatever order the events come; they are the bytes moved only where these follow each
other without gaps. The report on MAX_DATA panics for some logs.
-/

namespace Verif.Props.C194
open Verif.Dancer

/-- The highest value of a stream. -/
def peak : List (Nat × Nat) → Nat → Nat
  | [], _ => 0
  | u :: l, s => if u.1 = s then max u.2 (peak l s) else peak l s

/-- The positions up to which data was moved to `r`. -/
def ends (r : Recipient) (l : List Ev) : List (Nat × Nat) :=
  l.filterMap fun
    | .moved (some r') (some s) (some o) (some n) _ => if r' = r then some (s, o + n) else none
    | _ => none

/-- The limits of streams. -/
def limits (rx : Bool) (l : List Ev) : List (Nat × Nat) :=
  l.filterMap fun
    | .streamLimit rx' s m _ => if rx' = rx then some (s, m) else none
    | _ => none

theorem peak_append (l : List (Nat × Nat)) (u : Nat × Nat) (s : Nat) :
    peak (l ++ [u]) s = if u.1 = s then max (peak l s) u.2 else peak l s := by
  induction l with
  | nil =>
    show (if u.1 = s then max u.2 0 else 0) = _
    split
    · show _ = max 0 u.2; omega
    · rfl
  | cons x l ih =>
    show (if x.1 = s then max x.2 (peak (l ++ [u]) s) else peak (l ++ [u]) s) = if u.1 = s then max (if x.1 = s then max x.2 (peak l s) else peak l s) u.2 else (if x.1 = s then max x.2 (peak l s) else peak l s)
    rw [ih]
    split <;> split <;> omega

theorem sum_upd (L : List Nat) (hn : L.Nodup) (f g : Nat → Nat) (s : Nat) (hs : s ∈ L) (hg : ∀ x, x ≠ s → g x = f x) :
    (L.map g).sum + f s = (L.map f).sum + g s := by
  induction L with
  | nil => cases hs
  | cons a L ih =>
    obtain ⟨ha, hn⟩ := List.nodup_cons.mp hn
    rw [List.map_cons, List.map_cons, List.sum_cons, List.sum_cons]
    rcases List.mem_cons.mp hs with h | h
    · have : L.map g = L.map f := by
        apply List.map_congr_left
        intro x hx
        exact hg x (fun e => ha (by rw [← h, ← e]; exact hx))
      rw [this, ← h]
      omega
    · have := ih hn h
      have := hg a (fun e => ha (by rw [e]; exact h))
      omega

/-- A tracker after the values `l`. -/
structure Right {α : Type} (t : Tracker α) (l : List (Nat × Nat)) : Prop where
  flat : ∀ s, t.flat s = if peak l s = 0 then none else some (peak l s)
  sum : ∀ L : List Nat, L.Nodup → (∀ u ∈ l, u.1 ∈ L) → t.sum = (L.map (peak l)).sum
  len : t.series.length = l.length
  mono : (t.series.map (·.2)).Pairwise (· ≤ ·)
  top : ∀ p ∈ t.series, p.2 ≤ t.sum
  last : t.series ≠ [] → (t.series.getLast?).map (·.2) = some t.sum
  keys : ∀ s, s ∈ t.keys ↔ s ∈ l.map (·.1)
  fits : t.sum < 2 ^ 64
  le : t.sum ≤ (l.map (·.2)).sum

theorem right_empty {α : Type} : Right (Tracker.empty : Tracker α) [] where
  flat := fun _ => rfl
  sum := fun L _ _ => by
    have : L.map (peak []) = L.map fun _ => 0 := rfl
    rw [this]
    clear this
    show 0 = _
    induction L with
    | nil => rfl
    | cons a L ih => rename_i h1 h2; rw [List.map_cons, List.sum_cons, ← ih (List.nodup_cons.mp h1).2 (fun u hu => (nomatch hu))]
  len := rfl
  mono := List.Pairwise.nil
  top := fun _ h => (nomatch h)
  last := fun h => absurd rfl h
  keys := fun _ => ⟨fun h => (nomatch h), fun h => (nomatch h)⟩
  fits := by show 0 < 2 ^ 64; decide
  le := Nat.le_refl _

theorem mem_addKey (l : List Nat) (s x : Nat) : x ∈ addKey l s ↔ x = s ∨ x ∈ l := by
  unfold addKey
  split
  · rename_i h
    exact ⟨Or.inr, fun h' => h'.elim (fun e => by rw [e]; exact h) id⟩
  · exact List.mem_cons

theorem pairwise_snoc {l : List Nat} {x : Nat} (h : l.Pairwise (· ≤ ·)) (hx : ∀ y ∈ l, y ≤ x) : (l ++ [x]).Pairwise (· ≤ ·) := by
  rw [List.pairwise_append]
  exact ⟨h, List.pairwise_singleton _ _, fun a ha b hb => by rw [List.mem_singleton.mp hb]; exact hx a ha⟩

theorem raise_right {α : Type} {t t' : Tracker α} {l : List (Nat × Nat)} {s v time : Nat} {o : Option (Nat × Nat)} {ks : List Nat} {per : Nat → List (Nat × α)}
    (h : Right t l) (hk : ∀ x, x ∈ ks ↔ x = s ∨ x ∈ t.keys)
    (e : Tracker.raise { t with keys := ks, per := per } s v time = some (t', o)) :
    Right t' (l ++ [(s, v)]) ∧ (o = if v > peak l s then some (peak l s, v) else none) := by
  have hold : (t.flat s).getD 0 = peak l s := by
    rw [h.flat]
    split
    · rename_i h; rw [h]; rfl
    · rfl
  have hkeys : ∀ x, x ∈ ks ↔ x ∈ (l ++ [(s, v)]).map (·.1) := by
    intro x
    rw [hk, h.keys, List.map_append, List.mem_append]
    constructor
    · rintro (e | e)
      · right; rw [e]; exact List.mem_singleton.mpr rfl
      · exact Or.inl e
    · rintro (e | e)
      · exact Or.inr e
      · exact Or.inl (List.mem_singleton.mp e)
  have hpk : ∀ x, x ≠ s → peak (l ++ [(s, v)]) x = peak l x := by
    intro x hx
    rw [peak_append, if_neg (fun e => hx e.symm)]
  have hps : peak (l ++ [(s, v)]) s = max (peak l s) v := by rw [peak_append, if_pos rfl]
  have hsum : ∀ L : List Nat, L.Nodup → (∀ u ∈ l ++ [(s, v)], u.1 ∈ L) → t.sum + (max (peak l s) v - peak l s) = (L.map (peak (l ++ [(s, v)]))).sum := by
    intro L hn hc
    have h1 := h.sum L hn (fun u hu => hc u (List.mem_append_left _ hu))
    have h2 := sum_upd L hn (peak l) (peak (l ++ [(s, v)])) s (hc (s, v) (List.mem_append_right _ (List.mem_singleton.mpr rfl))) hpk
    rw [hps] at h2
    omega
  have hle : t.sum + (max (peak l s) v - peak l s) ≤ ((l ++ [(s, v)]).map (·.2)).sum := by
    rw [List.map_append, List.sum_append]
    have := h.le
    show _ ≤ _ + (v + 0)
    omega
  unfold Tracker.raise at e
  simp only [hold] at e
  by_cases hv : v > peak l s
  · rw [if_pos (by omega)] at e
    split at e
    · cases e
    · rename_i hfit
      obtain ⟨e1, e2⟩ := Prod.mk.inj (Option.some.inj e)
      subst e1
      have hm : max (peak l s) v = v := by omega
      refine ⟨{ flat := ?_, sum := hsum, len := ?_, mono := ?_, top := ?_, last := ?_, keys := hkeys, fits := by show t.sum + _ < 2 ^ 64; omega, le := hle }, ?_⟩
      · intro x
        show put t.flat s _ x = _
        unfold put
        split
        · rename_i hx
          rw [hx, hps, if_neg (by omega)]
        · rename_i hx
          rw [hpk x hx, h.flat]
      · show (t.series ++ [_]).length = _
        rw [List.length_append, List.length_append, h.len]
        rfl
      · show ((t.series ++ [_]).map _).Pairwise _
        rw [List.map_append]
        apply pairwise_snoc h.mono
        intro y hy
        obtain ⟨p, hp, hy⟩ := List.mem_map.mp hy
        have := h.top p hp
        have hy : p.2 = y := hy
        show y ≤ t.sum + _
        omega
      · intro p hp
        rcases List.mem_append.mp hp with hp | hp
        · have := h.top p hp
          show p.2 ≤ t.sum + _
          omega
        · rw [List.mem_singleton.mp hp]
          exact Nat.le_refl _
      · intro _
        show ((t.series ++ [_]).getLast?).map _ = _
        rw [List.getLast?_append]
        rfl
      · rw [if_pos hv, ← e2, hm]
  · rw [if_neg (by omega)] at e
    obtain ⟨e1, e2⟩ := Prod.mk.inj (Option.some.inj e)
    subst e1
    have hm : max (peak l s) v - peak l s = 0 := by omega
    refine ⟨{ flat := ?_, sum := ?_, len := ?_, mono := ?_, top := ?_, last := ?_, keys := hkeys, fits := h.fits, le := Nat.le_trans (Nat.le_add_right _ _) hle }, ?_⟩
    · intro x
      show t.flat x = _
      by_cases hx : x = s
      · rw [hx, hps, h.flat, show max (peak l s) v = peak l s by omega]
      · rw [hpk x hx, h.flat]
    · intro L hn hc
      have := hsum L hn hc
      rw [hm] at this
      exact this
    · show (t.series ++ [_]).length = _
      rw [List.length_append, List.length_append, h.len]
      rfl
    · show ((t.series ++ [_]).map _).Pairwise _
      rw [List.map_append]
      apply pairwise_snoc h.mono
      intro y hy
      obtain ⟨p, hp, hy⟩ := List.mem_map.mp hy
      have := h.top p hp
      have hy : p.2 = y := hy
      show y ≤ t.sum
      omega
    · intro p hp
      rcases List.mem_append.mp hp with hp | hp
      · exact h.top p hp
      · rw [List.mem_singleton.mp hp]
        exact Nat.le_refl _
    · intro _
      show ((t.series ++ [_]).getLast?).map _ = _
      rw [List.getLast?_append]
      rfl
    · rw [if_neg hv, ← e2]

theorem max_right {t t' : Tracker Nat} {l : List (Nat × Nat)} {s v time init : Nat} {o : Option (Nat × Nat)} (h : Right t l)
    (e : t.updateMax s v time init = some (t', o)) : Right t' (l ++ [(s, v)]) ∧ (o = if v > peak l s then some (peak l s, v) else none) :=
  raise_right h (fun x => mem_addKey _ _ _) e

theorem buf_right {t t' : Tracker (Nat × Nat)} {l : List (Nat × Nat)} {s a n time : Nat} {o : Option (Nat × Nat)} (h : Right t l)
    (e : t.updateBuf s a n time = some (t', o)) : Right t' (l ++ [(s, a + n)]) ∧ (o = if a + n > peak l s then some (peak l s, a + n) else none) := by
  unfold Tracker.updateBuf at e
  split at e
  · cases e
  · exact raise_right h (fun x => mem_addKey _ _ _) e

/-- All trackers after a log. -/
structure AllRight (d : Store) (l : List Ev) : Prop where
  rx : Right d.rxStream (limits true l)
  tx : Right d.txStream (limits false l)
  reads : Right d.reads (ends .application l)
  writes : Right d.writes (ends .transport l)
  drops : Right d.drops (ends .dropped l)

theorem step_right {d d' : Store} {l : List Ev} {e : Ev} (h : AllRight d l) (hs : d.step e = some d') : AllRight d' (l ++ [e]) := by
  have hl : ∀ b, limits b (l ++ [e]) = limits b l ++ limits b [e] := fun b => List.filterMap_append ..
  have he : ∀ r, ends r (l ++ [e]) = ends r l ++ ends r [e] := fun b => List.filterMap_append ..
  have same : (∀ b, limits b [e] = []) → (∀ r, ends r [e] = []) → d'.rxStream = d.rxStream → d'.txStream = d.txStream → d'.reads = d.reads →
      d'.writes = d.writes → d'.drops = d.drops → AllRight d' (l ++ [e]) := by
    intro h1 h2 e1 e2 e3 e4 e5
    constructor
    · rw [hl, h1, List.append_nil, e1]; exact h.rx
    · rw [hl, h1, List.append_nil, e2]; exact h.tx
    · rw [he, h2, List.append_nil, e3]; exact h.reads
    · rw [he, h2, List.append_nil, e4]; exact h.writes
    · rw [he, h2, List.append_nil, e5]; exact h.drops
  cases e with
  | params loc m bl br u =>
    cases loc <;>
    · have := Option.some.inj hs
      subst this
      exact same (fun _ => rfl) (fun _ => rfl) rfl rfl rfl rfl rfl
  | limit rx m time =>
    cases rx <;>
    · have := Option.some.inj hs
      subst this
      exact same (fun _ => rfl) (fun _ => rfl) rfl rfl rfl rfl rfl
  | streamLimit rx s m time =>
    have hn : ∀ r, ends r [Ev.streamLimit rx s m time] = [] := fun _ => rfl
    cases rx with
    | true =>
      unfold Store.step at hs
      simp only at hs
      split at hs
      · rename_i t o ht
        have := Option.some.inj hs
        subst this
        exact ⟨by rw [hl]; exact (max_right h.rx ht).1, by rw [hl]; show Right _ (_ ++ []); rw [List.append_nil]; exact h.tx,
          by rw [he, hn, List.append_nil]; exact h.reads, by rw [he, hn, List.append_nil]; exact h.writes, by rw [he, hn, List.append_nil]; exact h.drops⟩
      · cases hs
    | false =>
      unfold Store.step at hs
      simp only at hs
      split at hs
      · rename_i t o ht
        have := Option.some.inj hs
        subst this
        exact ⟨by rw [hl]; show Right _ (_ ++ []); rw [List.append_nil]; exact h.rx, by rw [hl]; exact (max_right h.tx ht).1,
          by rw [he, hn, List.append_nil]; exact h.reads, by rw [he, hn, List.append_nil]; exact h.writes, by rw [he, hn, List.append_nil]; exact h.drops⟩
      · cases hs
  | moved to s o n time =>
    have hn : ∀ b, limits b [Ev.moved to s o n time] = [] := fun _ => rfl
    cases to with
    | none =>
      have := Option.some.inj hs
      subst this
      exact same hn (fun _ => rfl) rfl rfl rfl rfl rfl
    | some r =>
      by_cases hf : ∃ s' o' n', s = some s' ∧ o = some o' ∧ n = some n'
      · obtain ⟨s, o, n, rfl, rfl, rfl⟩ := hf
        cases r with
        | user => cases hs
        | network => cases hs
        | application =>
          unfold Store.step at hs
          simp only at hs
          split at hs
          · rename_i t o ht
            have := Option.some.inj hs
            subst this
            exact ⟨by rw [hl, hn, List.append_nil]; exact h.rx, by rw [hl, hn, List.append_nil]; exact h.tx, by rw [he]; exact (buf_right h.reads ht).1,
              by rw [he]; show Right _ (_ ++ []); rw [List.append_nil]; exact h.writes, by rw [he]; show Right _ (_ ++ []); rw [List.append_nil]; exact h.drops⟩
          · cases hs
        | transport =>
          unfold Store.step at hs
          simp only at hs
          split at hs
          · rename_i t o ht
            have := Option.some.inj hs
            subst this
            exact ⟨by rw [hl, hn, List.append_nil]; exact h.rx, by rw [hl, hn, List.append_nil]; exact h.tx, by rw [he]; show Right _ (_ ++ []); rw [List.append_nil]; exact h.reads,
              by rw [he]; exact (buf_right h.writes ht).1, by rw [he]; show Right _ (_ ++ []); rw [List.append_nil]; exact h.drops⟩
          · cases hs
        | dropped =>
          unfold Store.step at hs
          simp only at hs
          split at hs
          · rename_i t o ht
            have := Option.some.inj hs
            subst this
            exact ⟨by rw [hl, hn, List.append_nil]; exact h.rx, by rw [hl, hn, List.append_nil]; exact h.tx, by rw [he]; show Right _ (_ ++ []); rw [List.append_nil]; exact h.reads,
              by rw [he]; show Right _ (_ ++ []); rw [List.append_nil]; exact h.writes, by rw [he]; exact (buf_right h.drops ht).1⟩
          · cases hs
      · have h2 : ∀ r', ends r' [Ev.moved (some r) s o n time] = [] := by
          intro r'
          cases s with
          | none => rfl
          | some s =>
            cases o with
            | none => rfl
            | some o =>
              cases n with
              | none => rfl
              | some n => exact absurd ⟨s, o, n, rfl, rfl, rfl⟩ hf
        have h3 : d' = d := by
          cases r with
          | user => cases hs
          | network => cases hs
          | _ =>
            cases s with
            | none => exact (Option.some.inj hs).symm
            | some s =>
              cases o with
              | none => exact (Option.some.inj hs).symm
              | some o =>
                cases n with
                | none => exact (Option.some.inj hs).symm
                | some n => exact absurd ⟨s, o, n, rfl, rfl, rfl⟩ hf
        rw [h3] at same ⊢
        exact same hn h2 rfl rfl rfl rfl rfl

theorem run_right {d d' : Store} (l pre : List Ev) (h : AllRight d pre) (hr : d.run l = some d') : AllRight d' (pre ++ l) := by
  induction l generalizing d pre with
  | nil =>
    rw [List.append_nil, ← Option.some.inj hr]
    exact h
  | cons e l ih =>
    unfold Store.run at hr
    split at hr
    · rename_i d1 h1
      have := ih (pre ++ [e]) (step_right h h1) hr
      rw [List.append_assoc] at this
      exact this
    · cases hr

theorem from_empty {d : Store} {l : List Ev} (hr : Store.empty.run l = some d) : AllRight d l :=
  run_right l [] ⟨right_empty, right_empty, right_empty, right_empty, right_empty⟩ hr

/-- The totals are the sums of the highest values, over any list that names each stream once. -/
theorem total (l : List Ev) (d : Store) (hr : Store.empty.run l = some d) (L : List Nat) (hn : L.Nodup) :
    ((∀ u ∈ ends .application l, u.1 ∈ L) → d.reads.sum = (L.map (peak (ends .application l))).sum) ∧
    ((∀ u ∈ ends .transport l, u.1 ∈ L) → d.writes.sum = (L.map (peak (ends .transport l))).sum) ∧
    ((∀ u ∈ ends .dropped l, u.1 ∈ L) → d.drops.sum = (L.map (peak (ends .dropped l))).sum) ∧
    ((∀ u ∈ limits true l, u.1 ∈ L) → d.rxStream.sum = (L.map (peak (limits true l))).sum) ∧
    ((∀ u ∈ limits false l, u.1 ∈ L) → d.txStream.sum = (L.map (peak (limits false l))).sum) := by
  have h := from_empty hr
  exact ⟨h.reads.sum L hn, h.writes.sum L hn, h.drops.sum L hn, h.rx.sum L hn, h.tx.sum L hn⟩

/-- The maximum of a stream is its highest value; there is none while that is 0. -/
theorem stream_max (l : List Ev) (d : Store) (hr : Store.empty.run l = some d) (s : Nat) :
    d.reads.flat s = (if peak (ends .application l) s = 0 then none else some (peak (ends .application l) s)) ∧
    d.writes.flat s = (if peak (ends .transport l) s = 0 then none else some (peak (ends .transport l) s)) ∧
    d.drops.flat s = (if peak (ends .dropped l) s = 0 then none else some (peak (ends .dropped l) s)) ∧
    d.rxStream.flat s = (if peak (limits true l) s = 0 then none else some (peak (limits true l) s)) ∧
    d.txStream.flat s = (if peak (limits false l) s = 0 then none else some (peak (limits false l) s)) := by
  have h := from_empty hr
  exact ⟨h.reads.flat s, h.writes.flat s, h.drops.flat s, h.rx.flat s, h.tx.flat s⟩

/-- A curve: `n` points, never falling, the last at the total. -/
def Curve (series : List (Nat × Nat)) (n sum : Nat) : Prop :=
  series.length = n ∧ (series.map (·.2)).Pairwise (· ≤ ·) ∧ (series ≠ [] → (series.getLast?).map (·.2) = some sum)

/-- The curves of the totals have a point for each event and never fall, although events may be out of order. -/
theorem curve (l : List Ev) (d : Store) (hr : Store.empty.run l = some d) :
    Curve d.reads.series (ends .application l).length d.reads.sum ∧ Curve d.writes.series (ends .transport l).length d.writes.sum ∧
    Curve d.drops.series (ends .dropped l).length d.drops.sum ∧ Curve d.rxStream.series (limits true l).length d.rxStream.sum ∧
    Curve d.txStream.series (limits false l).length d.txStream.sum := by
  have h := from_empty hr
  exact ⟨⟨h.reads.len, h.reads.mono, h.reads.last⟩, ⟨h.writes.len, h.writes.mono, h.writes.last⟩, ⟨h.drops.len, h.drops.mono, h.drops.last⟩,
    ⟨h.rx.len, h.rx.mono, h.rx.last⟩, ⟨h.tx.len, h.tx.mono, h.tx.last⟩⟩

/-- An update tells the rise of the stream's maximum, if there is one. -/
theorem told (l : List Ev) (d : Store) (hr : Store.empty.run l = some d) :
    (∀ s m time init t o, d.rxStream.updateMax s m time init = some (t, o) →
      o = if m > peak (limits true l) s then some (peak (limits true l) s, m) else none) ∧
    (∀ s a n time t o, d.reads.updateBuf s a n time = some (t, o) →
      o = if a + n > peak (ends .application l) s then some (peak (ends .application l) s, a + n) else none) := by
  have h := from_empty hr
  exact ⟨fun s m time init t o e => (max_right h.rx e).2, fun s a n time t o e => (buf_right h.reads e).2⟩

theorem raise_per {α : Type} {t t' : Tracker α} {s v time : Nat} {o : Option (Nat × Nat)} (e : t.raise s v time = some (t', o)) :
    t'.per = t.per ∧ t'.keys = t.keys := by
  unfold Tracker.raise at e
  simp only at e
  split at e
  · split at e
    · cases e
    · rw [← (Prod.mk.inj (Option.some.inj e)).1]; exact ⟨rfl, rfl⟩
  · rw [← (Prod.mk.inj (Option.some.inj e)).1]; exact ⟨rfl, rfl⟩

/-- Each event adds itself to the points of its stream, the first one after a point for the initial limit. -/
theorem points (t t' : Tracker Nat) (s v time init : Nat) (o : Option (Nat × Nat)) (e : t.updateMax s v time init = some (t', o)) :
    t'.per s = (if s ∈ t.keys then t.per s else [(0, init)]) ++ [(time, v)] ∧ (∀ x, x ≠ s → t'.per x = t.per x) := by
  rw [(raise_per e).1]
  show put t.per s _ s = _ ∧ ∀ x, x ≠ s → put t.per s _ x = _
  unfold put
  exact ⟨if_pos rfl, fun x hx => if_neg hx⟩

/-- Likewise for data moved. -/
theorem points_moved (t t' : Tracker (Nat × Nat)) (s a n time : Nat) (o : Option (Nat × Nat)) (e : t.updateBuf s a n time = some (t', o)) :
    t'.per s = t.per s ++ [(time, a, n)] ∧ (∀ x, x ≠ s → t'.per x = t.per x) := by
  unfold Tracker.updateBuf at e
  split at e
  · cases e
  · rw [(raise_per e).1]
    show put t.per s _ s = _ ∧ ∀ x, x ≠ s → put t.per s _ x = _
    unfold put
    exact ⟨if_pos rfl, fun x hx => if_neg hx⟩

/-- A log without foreign recipients whose values add up to less than 2^64. -/
structure Plain (l : List Ev) : Prop where
  known : ∀ s o n time, Ev.moved (some .user) s o n time ∉ l ∧ Ev.moved (some .network) s o n time ∉ l
  small : ∀ r, ((ends r l).map (·.2)).sum < 2 ^ 64
  smallLimits : ∀ b, ((limits b l).map (·.2)).sum < 2 ^ 64

theorem raise_some {α : Type} {t : Tracker α} {l : List (Nat × Nat)} {s v time : Nat} {ks : List Nat} {per : Nat → List (Nat × α)}
    (h : Right t l) (hs : ((l ++ [(s, v)]).map (·.2)).sum < 2 ^ 64) : ∃ x, Tracker.raise { t with keys := ks, per := per } s v time = some x := by
  rw [List.map_append, List.sum_append] at hs
  have hs : (l.map (·.2)).sum + (v + 0) < 2 ^ 64 := hs
  have := h.le
  unfold Tracker.raise
  simp only
  split
  · rw [if_neg (by omega)]
    exact ⟨_, rfl⟩
  · exact ⟨_, rfl⟩

theorem max_some {t : Tracker Nat} {l : List (Nat × Nat)} {s v time init : Nat} (h : Right t l)
    (hs : ((l ++ [(s, v)]).map (·.2)).sum < 2 ^ 64) : ∃ x, t.updateMax s v time init = some x := raise_some h hs

theorem buf_some {t : Tracker (Nat × Nat)} {l : List (Nat × Nat)} {s a n time : Nat} (h : Right t l)
    (hs : ((l ++ [(s, a + n)]).map (·.2)).sum < 2 ^ 64) : ∃ x, t.updateBuf s a n time = some x := by
  unfold Tracker.updateBuf
  rw [if_neg]
  · exact raise_some h hs
  · rw [List.map_append, List.sum_append] at hs
    have hs : (l.map (·.2)).sum + (a + n + 0) < 2 ^ 64 := hs
    omega

theorem step_some {d : Store} {pre l : List Ev} {e : Ev} (h : AllRight d pre) (hp : Plain (pre ++ e :: l)) : ∃ d', d.step e = some d' := by
  have hl : ∀ b, ((limits b pre ++ limits b [e]).map (·.2)).sum < 2 ^ 64 := by
    intro b
    have h1 := hp.smallLimits b
    have h2 : limits b (pre ++ e :: l) = limits b pre ++ limits b [e] ++ limits b l := by
      rw [List.append_cons]; unfold limits; rw [List.filterMap_append, List.filterMap_append]
    rw [h2, List.map_append, List.sum_append] at h1
    omega
  have he : ∀ b, ((ends b pre ++ ends b [e]).map (·.2)).sum < 2 ^ 64 := by
    intro b
    have h1 := hp.small b
    have h2 : ends b (pre ++ e :: l) = ends b pre ++ ends b [e] ++ ends b l := by
      rw [List.append_cons]; unfold ends; rw [List.filterMap_append, List.filterMap_append]
    rw [h2, List.map_append, List.sum_append] at h1
    omega
  cases e with
  | params loc m bl br u => cases loc <;> exact ⟨_, rfl⟩
  | limit rx m time => cases rx <;> exact ⟨_, rfl⟩
  | streamLimit rx s m time =>
    cases rx with
    | true =>
      obtain ⟨x, hx⟩ := max_some (time := time) (init := if isBidi s then d.peerBidi else d.peerUni) h.rx (hl true)
      exact ⟨{ d with rxStream := x.1 }, by unfold Store.step; simp only [hx]⟩
    | false =>
      obtain ⟨x, hx⟩ := max_some (time := time) (init := if isBidi s then d.localBidi else d.localUni) h.tx (hl false)
      exact ⟨{ d with txStream := x.1 }, by unfold Store.step; simp only [hx]⟩
  | moved to s o n time =>
    cases to with
    | none => exact ⟨_, rfl⟩
    | some r =>
      have hm : Ev.moved (some r) s o n time ∈ pre ++ Ev.moved (some r) s o n time :: l := List.mem_append_right _ List.mem_cons_self
      cases s with
      | none =>
        cases r with
        | user => exact absurd hm (hp.known _ _ _ _).1
        | network => exact absurd hm (hp.known _ _ _ _).2
        | _ => exact ⟨_, rfl⟩
      | some s =>
        cases o with
        | none =>
          cases r with
          | user => exact absurd hm (hp.known _ _ _ _).1
          | network => exact absurd hm (hp.known _ _ _ _).2
          | _ => exact ⟨_, rfl⟩
        | some o =>
          cases n with
          | none =>
            cases r with
            | user => exact absurd hm (hp.known _ _ _ _).1
            | network => exact absurd hm (hp.known _ _ _ _).2
            | _ => exact ⟨_, rfl⟩
          | some n =>
            cases r with
            | user => exact absurd hm (hp.known _ _ _ _).1
            | network => exact absurd hm (hp.known _ _ _ _).2
            | application =>
              obtain ⟨x, hx⟩ := buf_some (time := time) h.reads (he .application)
              exact ⟨{ d with reads := x.1 }, by unfold Store.step; simp only [hx]⟩
            | transport =>
              obtain ⟨x, hx⟩ := buf_some (time := time) h.writes (he .transport)
              exact ⟨{ d with writes := x.1 }, by unfold Store.step; simp only [hx]⟩
            | dropped =>
              obtain ⟨x, hx⟩ := buf_some (time := time) h.drops (he .dropped)
              exact ⟨{ d with drops := x.1 }, by unfold Store.step; simp only [hx]⟩

/-- Such a log is read without a panic. -/
theorem reads_log (l : List Ev) (hp : Plain l) : ∃ d, Store.empty.run l = some d := by
  suffices ∀ pre d, AllRight d pre → Plain (pre ++ l) → ∃ d', d.run l = some d' from
    this [] _ ⟨right_empty, right_empty, right_empty, right_empty, right_empty⟩ hp
  clear hp
  induction l with
  | nil => exact fun _ d _ _ => ⟨d, rfl⟩
  | cons e l ih =>
    intro pre d h hp
    obtain ⟨d1, h1⟩ := step_some h hp
    unfold Store.run
    rw [h1]
    exact ih (pre ++ [e]) d1 (step_right h h1) (by rw [← List.append_cons]; exact hp)

/-- Data moved to the user or to the network makes it panic. -/
theorem foreign_false : ¬ ∀ l, (∀ r, ((ends r l).map (·.2)).sum < 2 ^ 64) → (∀ b, ((limits b l).map (·.2)).sum < 2 ^ 64) →
    ∃ d, Store.empty.run l = some d := by
  intro h
  obtain ⟨d, hd⟩ := h [.moved (some .network) (some 0) (some 0) (some 1) 0] (fun r => by cases r <;> decide) (fun b => by cases b <;> decide)
  cases hd

/-! ### Bytes moved -/

/-- The pieces of data moved to `r`: stream, offset and length. -/
def pieces (r : Recipient) (l : List Ev) : List (Nat × Nat × Nat) :=
  l.filterMap fun
    | .moved (some r') (some s) (some o) (some n) _ => if r' = r then some (s, o, n) else none
    | _ => none

/-- The bytes of a stream in pieces. -/
def bytes : List (Nat × Nat × Nat) → Nat → Nat
  | [], _ => 0
  | p :: l, s => (if p.1 = s then p.2.2 else 0) + bytes l s

/-- Each piece begins where the ones of its stream before it end. -/
def Gapless (l : List (Nat × Nat × Nat)) : Prop := ∀ a p b, l = a ++ p :: b → p.2.1 = bytes a p.1

theorem bytes_append (a b : List (Nat × Nat × Nat)) (s : Nat) : bytes (a ++ b) s = bytes a s + bytes b s := by
  induction a with
  | nil => exact (Nat.zero_add _).symm
  | cons x a ih =>
    show _ + bytes (a ++ b) s = _ + bytes a s + bytes b s
    rw [ih]
    omega

theorem ends_pieces (r : Recipient) (l : List Ev) : ends r l = (pieces r l).map fun p => (p.1, p.2.1 + p.2.2) := by
  unfold ends pieces
  rw [List.map_filterMap]
  congr 1
  funext e
  split
  · split <;> rfl
  · rfl

theorem peak_bytes (l : List (Nat × Nat × Nat)) (hg : Gapless l) (s : Nat) : peak (l.map fun p => (p.1, p.2.1 + p.2.2)) s = bytes l s := by
  suffices ∀ pre, (∀ s, peak (pre.map fun p => (p.1, p.2.1 + p.2.2)) s = bytes pre s) → Gapless (pre ++ l) →
      ∀ s, peak ((pre ++ l).map fun p => (p.1, p.2.1 + p.2.2)) s = bytes (pre ++ l) s from this [] (fun _ => rfl) hg s
  clear hg s
  induction l with
  | nil => intro pre h _; rw [List.append_nil]; exact h
  | cons p l ih =>
    intro pre h hg
    have hp := hg pre p l rfl
    rw [List.append_cons] at hg ⊢
    apply ih _ _ hg
    intro s
    rw [List.map_append, bytes_append]
    show peak (_ ++ [(p.1, p.2.1 + p.2.2)]) s = _ + ((if p.1 = s then p.2.2 else 0) + 0)
    rw [peak_append, h]
    show (if p.1 = s then _ else _) = _
    split
    · rename_i e
      rw [hp, e]
      show max (bytes pre s) (bytes pre s + p.2.2) = _
      omega
    · rfl

theorem sum_bytes (l : List (Nat × Nat × Nat)) (L : List Nat) (hn : L.Nodup) (hc : ∀ p ∈ l, p.1 ∈ L) : (L.map (bytes l)).sum = (l.map (·.2.2)).sum := by
  induction l with
  | nil =>
    show (L.map fun _ => 0).sum = 0
    clear hn hc
    induction L with
    | nil => rfl
    | cons a L ih => rw [List.map_cons, List.sum_cons, ih, Nat.zero_add]
  | cons p l ih =>
    have h1 := ih (fun x hx => hc x (List.mem_cons_of_mem _ hx))
    have h2 := sum_upd L hn (bytes l) (bytes (p :: l)) p.1 (hc p List.mem_cons_self) (fun x hx => by
      show (if p.1 = x then _ else 0) + _ = _
      rw [if_neg (fun e => hx e.symm), Nat.zero_add])
    have h3 : bytes (p :: l) p.1 = p.2.2 + bytes l p.1 := by
      show (if p.1 = p.1 then _ else 0) + _ = _
      rw [if_pos rfl]
    rw [List.map_cons, List.sum_cons]
    omega

theorem exists_cover (l : List Nat) : ∃ L : List Nat, L.Nodup ∧ ∀ x ∈ l, x ∈ L := by
  induction l with
  | nil => exact ⟨[], List.nodup_nil, fun _ h => h⟩
  | cons a l ih =>
    obtain ⟨L, h1, h2⟩ := ih
    by_cases ha : a ∈ L
    · exact ⟨L, h1, fun x hx => (List.mem_cons.mp hx).elim (fun e => by rw [e]; exact ha) (h2 x)⟩
    · exact ⟨a :: L, List.nodup_cons.mpr ⟨ha, h1⟩, fun x hx => (List.mem_cons.mp hx).elim (fun e => by rw [e]; exact List.mem_cons_self) (fun h => List.mem_cons_of_mem _ (h2 x h))⟩

theorem right_bytes {t : Tracker (Nat × Nat)} {r : Recipient} {l : List Ev} (h : Right t (ends r l)) (hg : Gapless (pieces r l)) :
    t.sum = ((pieces r l).map (·.2.2)).sum := by
  obtain ⟨L, hn, hc⟩ := exists_cover ((pieces r l).map (·.1))
  have hc : ∀ p ∈ pieces r l, p.1 ∈ L := fun p hp => hc p.1 (List.mem_map.mpr ⟨p, hp, rfl⟩)
  rw [h.sum L hn, ← sum_bytes _ L hn hc]
  · congr 1
    apply List.map_congr_left
    intro s _
    rw [ends_pieces]
    exact peak_bytes _ hg s
  · rw [ends_pieces]
    intro u hu
    obtain ⟨p, hp, e⟩ := List.mem_map.mp hu
    rw [← e]
    exact hc p hp

/-- Where pieces follow each other without gaps, the totals are the bytes moved. -/
theorem moved_partial (l : List Ev) (d : Store) (hr : Store.empty.run l = some d) :
    (Gapless (pieces .application l) → d.reads.sum = ((pieces .application l).map (·.2.2)).sum) ∧
    (Gapless (pieces .transport l) → d.writes.sum = ((pieces .transport l).map (·.2.2)).sum) ∧
    (Gapless (pieces .dropped l) → d.drops.sum = ((pieces .dropped l).map (·.2.2)).sum) := by
  have h := from_empty hr
  exact ⟨right_bytes h.reads, right_bytes h.writes, right_bytes h.drops⟩

/-- For data dropped they are not: when a stream is shut down after 100 bytes were sent and 50 were not,
the total dropped is 150. -/
theorem dropped_false : ∃ d, Store.empty.run [.moved (some .transport) (some 0) (some 0) (some 150) 1, .moved (some .dropped) (some 0) (some 100) (some 50) 2] = some d ∧
    d.drops.sum = 150 ∧ ((pieces .dropped [.moved (some .transport) (some 0) (some 0) (some 150) 1, .moved (some .dropped) (some 0) (some 100) (some 50) 2]).map (·.2.2)).sum = 50 :=
  ⟨_, rfl, rfl, rfl⟩

/-- The total of the limits leaves out the initial limit: one of 500, and a MAX_STREAM_DATA of 300 that
changes nothing, give 300. -/
theorem initial_false : ∃ d, Store.empty.run [.params true none none none (some 500), .streamLimit false 3 300 1] = some d ∧
    d.txStream.sum = 300 ∧ d.txStream.per 3 = [(0, 500), (1, 300)] :=
  ⟨_, rfl, rfl, rfl⟩

/-! ### The first point of a stream -/

/-- A parameter, as last set; 0 before. -/
def latest (f : Ev → Option Nat) (l : List Ev) : Nat := l.foldl (fun a e => (f e).getD a) 0

/-- `initial_max_stream_data_bidi_local` as declared locally or by the peer. -/
def bidiLocal (loc : Bool) : Ev → Option Nat
  | .params loc' _ bl _ _ => if loc' = loc then bl else none
  | _ => none

/-- `initial_max_stream_data_bidi_remote`. -/
def bidiRemote (loc : Bool) : Ev → Option Nat
  | .params loc' _ _ br _ => if loc' = loc then br else none
  | _ => none

/-- `initial_max_stream_data_uni`. -/
def uniLimit (loc : Bool) : Ev → Option Nat
  | .params loc' _ _ _ u => if loc' = loc then u else none
  | _ => none

/-- The initial limit of a stream (RFC 9000, 18.2) in the log of a server or a client: of the data received
on it as declared locally, or of the data sent as declared by the peer. -/
def initial (server sentLimit : Bool) (l : List Ev) (s : Nat) : Nat :=
  if s / 2 % 2 = 1 then latest (uniLimit sentLimit) l
  else if (s % 2 = 1 ↔ server = true) ↔ sentLimit = true then latest (bidiLocal sentLimit) l
  else latest (bidiRemote sentLimit) l

theorem step_params {d d' : Store} {e : Ev} (hs : d.step e = some d') :
    d'.localBidi = (bidiLocal true e).getD d.localBidi ∧ d'.localUni = (uniLimit true e).getD d.localUni ∧
    d'.peerBidi = (bidiRemote false e).getD d.peerBidi ∧ d'.peerUni = (uniLimit false e).getD d.peerUni := by
  cases e with
  | params loc m bl br u =>
    cases loc <;>
    · have := Option.some.inj hs
      subst this
      exact ⟨rfl, rfl, rfl, rfl⟩
  | limit rx m time =>
    cases rx <;>
    · have := Option.some.inj hs
      subst this
      exact ⟨rfl, rfl, rfl, rfl⟩
  | streamLimit rx s m time =>
    cases rx <;>
    · unfold Store.step at hs
      simp only at hs
      split at hs
      · have := Option.some.inj hs
        subst this
        exact ⟨rfl, rfl, rfl, rfl⟩
      · cases hs
  | moved to s o n time =>
    cases to with
    | none => have := Option.some.inj hs; subst this; exact ⟨rfl, rfl, rfl, rfl⟩
    | some r =>
      cases r with
      | user => cases hs
      | network => cases hs
      | _ =>
        unfold Store.step at hs
        simp only at hs
        split at hs
        · split at hs
          · have := Option.some.inj hs; subst this; exact ⟨rfl, rfl, rfl, rfl⟩
          · cases hs
        · have := Option.some.inj hs; subst this; exact ⟨rfl, rfl, rfl, rfl⟩

theorem run_params {d d' : Store} (l : List Ev) (hr : d.run l = some d') :
    d'.localBidi = l.foldl (fun a e => (bidiLocal true e).getD a) d.localBidi ∧ d'.localUni = l.foldl (fun a e => (uniLimit true e).getD a) d.localUni ∧
    d'.peerBidi = l.foldl (fun a e => (bidiRemote false e).getD a) d.peerBidi ∧ d'.peerUni = l.foldl (fun a e => (uniLimit false e).getD a) d.peerUni := by
  induction l generalizing d with
  | nil =>
    rw [← Option.some.inj hr]
    exact ⟨rfl, rfl, rfl, rfl⟩
  | cons e l ih =>
    unfold Store.run at hr
    split at hr
    · rename_i d1 h1
      obtain ⟨a1, a2, a3, a4⟩ := step_params h1
      have := ih hr
      rw [a1, a2, a3, a4] at this
      exact this
    · cases hr

/-- The first limit of a stream comes after a point for its initial limit, if the stream is
unidirectional or was started by the side that the log is of. -/
theorem first_partial (server : Bool) (l : List Ev) (d d' : Store) (hr : Store.empty.run l = some d) (rx : Bool) (s m time : Nat)
    (hnew : s ∉ (limits rx l).map (·.1)) (hs : d.step (.streamLimit rx s m time) = some d')
    (hside : s / 2 % 2 = 1 ∨ (s % 2 = 1 ↔ server = true)) :
    (if rx then d'.rxStream else d'.txStream).per s = [(0, initial server (!rx) l s), (time, m)] := by
  obtain ⟨p1, p2, p3, p4⟩ := run_params l hr
  have h := from_empty hr
  unfold Store.step at hs
  unfold initial
  cases rx with
  | true =>
    simp only at hs
    split at hs
    · rename_i t o ht
      have := Option.some.inj hs
      subst this
      have := (points _ _ _ _ _ _ _ ht).1
      rw [if_neg (fun hk => hnew ((h.rx.keys s).mp hk))] at this
      show t.per s = _
      rw [this, p3, p4]
      by_cases hb : s / 2 % 2 = 1
      · have hi : ¬ isBidi s = true := by unfold isBidi; rw [hb]; decide
        rw [if_pos hb, if_neg hi]
        rfl
      · have hi : isBidi s = true := by unfold isBidi; rw [show s / 2 % 2 = 0 by omega]; rfl
        rw [if_neg hb, if_pos hi, if_neg (fun h => absurd (h.mp (hside.resolve_left hb)) (by decide))]
        rfl
    · cases hs
  | false =>
    simp only at hs
    split at hs
    · rename_i t o ht
      have := Option.some.inj hs
      subst this
      have := (points _ _ _ _ _ _ _ ht).1
      rw [if_neg (fun hk => hnew ((h.tx.keys s).mp hk))] at this
      show t.per s = _
      rw [this, p1, p2]
      by_cases hb : s / 2 % 2 = 1
      · have hi : ¬ isBidi s = true := by unfold isBidi; rw [hb]; decide
        rw [if_pos hb, if_neg hi]
        rfl
      · have hi : isBidi s = true := by unfold isBidi; rw [show s / 2 % 2 = 0 by omega]; rfl
        rw [if_neg hb, if_pos hi, if_pos ⟨fun _ => rfl, fun _ => hside.resolve_left hb⟩]
        rfl
    · cases hs

/-- For the bidirectional streams of the other side it is the wrong one: in the log of a server, a stream of the client
that may carry 200 bytes at first is drawn with 100. -/
theorem first_false : ∃ d, Store.empty.run [.params true none (some 100) (some 200) none, .streamLimit false 0 300 1] = some d ∧
    d.txStream.per 0 = [(0, 100), (1, 300)] ∧ initial true true [.params true none (some 100) (some 200) none] 0 = 200 :=
  ⟨_, rfl, rfl, rfl⟩

/-! ### The report on MAX_DATA -/

/-- The limits of the connection, the initial ones at the time 0. -/
def connLimits (rx : Bool) (l : List Ev) : List (Nat × Nat) :=
  l.filterMap fun
    | .params loc (some m) _ _ _ => if loc = !rx then some (0, m) else none
    | .limit rx' m time => if rx' = rx then some (time, m) else none
    | _ => none

theorem step_conn {d d' : Store} {e : Ev} (hs : d.step e = some d') :
    d'.rxMax = d.rxMax ++ connLimits true [e] ∧ d'.txMax = d.txMax ++ connLimits false [e] := by
  cases e with
  | params loc m bl br u =>
    cases loc <;> cases m <;>
    · have := Option.some.inj hs
      subst this
      simp [connLimits]
  | limit rx m time =>
    cases rx <;>
    · have := Option.some.inj hs
      subst this
      simp [connLimits]
  | streamLimit rx s m time =>
    have hc : ∀ b, connLimits b [Ev.streamLimit rx s m time] = [] := fun _ => rfl
    rw [hc, hc, List.append_nil, List.append_nil]
    cases rx <;>
    · unfold Store.step at hs
      simp only at hs
      split at hs
      · have := Option.some.inj hs
        subst this
        exact ⟨rfl, rfl⟩
      · cases hs
  | moved to s o n time =>
    have hc : ∀ b, connLimits b [Ev.moved to s o n time] = [] := fun _ => rfl
    rw [hc, hc, List.append_nil, List.append_nil]
    cases to with
    | none => have := Option.some.inj hs; subst this; exact ⟨rfl, rfl⟩
    | some r =>
      cases r with
      | user => cases hs
      | network => cases hs
      | _ =>
        unfold Store.step at hs
        simp only at hs
        split at hs
        · split at hs
          · have := Option.some.inj hs; subst this; exact ⟨rfl, rfl⟩
          · cases hs
        · have := Option.some.inj hs; subst this; exact ⟨rfl, rfl⟩

theorem run_conn {d d' : Store} (l : List Ev) (hr : d.run l = some d') :
    d'.rxMax = d.rxMax ++ connLimits true l ∧ d'.txMax = d.txMax ++ connLimits false l := by
  induction l generalizing d with
  | nil =>
    rw [← Option.some.inj hr]
    show _ = _ ++ [] ∧ _ = _ ++ []
    rw [List.append_nil, List.append_nil]
    exact ⟨rfl, rfl⟩
  | cons e l ih =>
    unfold Store.run at hr
    split at hr
    · rename_i d1 h1
      obtain ⟨a1, a2⟩ := step_conn h1
      obtain ⟨b1, b2⟩ := ih hr
      have hx : ∀ b, connLimits b (e :: l) = connLimits b [e] ++ connLimits b l := fun b => by
        show connLimits b ([e] ++ l) = _
        exact List.filterMap_append ..
      rw [b1, b2, a1, a2, hx, hx, List.append_assoc, List.append_assoc]
      exact ⟨rfl, rfl⟩
    · cases hr

/-- The report on the received limits of the connection panics if MAX_STREAM_DATA was received but no limit of
the connection is known; it says nothing whenever no MAX_STREAM_DATA was received. -/
theorem report_rx (l : List Ev) (d : Store) (hr : Store.empty.run l = some d) :
    (d.reportRx = none ↔ limits true l ≠ [] ∧ connLimits true l = []) ∧ (d.reportRx = some .nothing ↔ limits true l = []) := by
  have hk := (from_empty hr).rx.keys
  have hm : d.rxMax = connLimits true l := (run_conn l hr).1
  have he : d.rxStream.keys.isEmpty = true ↔ limits true l = [] := by
    rw [List.isEmpty_iff]
    constructor
    · intro e
      cases hl : limits true l with
      | nil => rfl
      | cons u r =>
        have := (hk u.1).mpr (by rw [hl]; exact List.mem_cons_self)
        rw [e] at this
        cases this
    · intro e
      cases hl : d.rxStream.keys with
      | nil => rfl
      | cons u r =>
        have := (hk u).mp (by rw [hl]; exact List.mem_cons_self)
        rw [e] at this
        cases this
  unfold Store.reportRx
  rw [hm]
  by_cases h : d.rxStream.keys.isEmpty = true
  · rw [if_pos h]
    exact ⟨⟨fun h' => (nomatch h'), fun h' => absurd (he.mp h) h'.1⟩, ⟨fun _ => he.mp h, fun _ => rfl⟩⟩
  · rw [if_neg h]
    have hne : limits true l ≠ [] := fun e => h (he.mpr e)
    cases hc : connLimits true l with
    | nil => exact ⟨⟨fun _ => ⟨hne, rfl⟩, fun _ => rfl⟩, ⟨fun h' => (nomatch h'), fun h' => absurd h' hne⟩⟩
    | cons a r =>
      rw [List.getLast?_cons]
      exact ⟨⟨fun h' => (nomatch h'), fun h' => (nomatch h'.2)⟩, ⟨fun h' => (nomatch h'), fun h' => absurd h' hne⟩⟩

/-- Where both are known, it says the first and the last limit. -/
theorem report_rx_partial (l : List Ev) (d : Store) (hr : Store.empty.run l = some d) (h1 : limits true l ≠ []) (a b : Nat × Nat)
    (ha : (connLimits true l).head? = some a) (hb : (connLimits true l).getLast? = some b) : d.reportRx = some (.firstLast a b) := by
  have hm : d.rxMax = connLimits true l := (run_conn l hr).1
  have hn : ¬ d.reportRx = some .nothing := fun h => h1 ((report_rx l d hr).2.mp h)
  unfold Store.reportRx at hn ⊢
  split
  · rename_i hx; rw [if_pos hx] at hn; exact absurd rfl hn
  · rw [hm, ha, hb]

/-- The report on the sent ones panics if there are none, and is right otherwise. -/
theorem report_tx (l : List Ev) (d : Store) (hr : Store.empty.run l = some d) :
    (d.reportTx = none ↔ connLimits false l = []) ∧
    ∀ n a b, d.reportTx = some (n, a, b) → n = (connLimits false l).length ∧ (connLimits false l).head? = some a ∧ (connLimits false l).getLast? = some b := by
  have hm : d.txMax = connLimits false l := (run_conn l hr).2
  unfold Store.reportTx
  rw [hm]
  cases hc : connLimits false l with
  | nil => exact ⟨⟨fun _ => rfl, fun _ => rfl⟩, fun n a b h => (nomatch h)⟩
  | cons x r =>
    rw [List.getLast?_cons]
    refine ⟨⟨fun h => (nomatch h), fun h => (nomatch h)⟩, fun n a b h => ?_⟩
    have h := Option.some.inj h
    obtain ⟨h1, h2⟩ := Prod.mk.inj h
    obtain ⟨h2, h3⟩ := Prod.mk.inj h2
    exact ⟨h1.symm, by rw [← h2]; rfl, by rw [← h3]⟩

/-- A log without any limit of the connection, and one with a limit that is not reported. -/
theorem report_false : (∃ d, Store.empty.run [.streamLimit true 0 1000 1] = some d ∧ d.reportRx = none) ∧
    (∃ d, Store.empty.run [.params false (some 10) none none none, .limit true 1000 1] = some d ∧ d.reportRx = some .nothing) ∧
    (∃ d, Store.empty.run [] = some d ∧ d.reportTx = none) :=
  ⟨⟨_, rfl, rfl⟩, ⟨_, rfl, rfl⟩, ⟨_, rfl, rfl⟩⟩

/-- Reads of two streams, out of order. -/
example : ∃ d, Store.empty.run [.moved (some .application) (some 0) (some 1000) (some 1000) 20, .moved (some .application) (some 0) (some 0) (some 1000) 10,
      .moved (some .application) (some 4) (some 0) (some 300) 25, .moved (some .application) none (some 0) (some 7) 26,
      .streamLimit true 4 5000 27, .params false (some 9000) none none none] = some d ∧
    d.reads.sum = 2300 ∧ d.reads.series = [(20, 2000), (10, 2000), (25, 2300)] ∧ d.reads.flat 0 = some 2000 ∧ d.writes.sum = 0 ∧
    d.reportRx = some (.firstLast (0, 9000) (0, 9000)) := ⟨_, rfl, rfl, rfl, rfl, rfl, rfl⟩

end Verif.Props.C194
