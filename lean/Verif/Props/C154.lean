import Verif.Tq.Pool

/-! # C154 — a pool of buffers shared by threads -/

namespace Verif.Props.C154
open Verif.Tq

/-- All that can happen to a pool of `n` shards. -/
def After (n limit trim : Nat) (l : List POp) : Pool := (Pool.new n limit trim).run l

/-- How many buffers wait in the pool, and how much memory they take. -/
def stored (p : Pool) : Nat := (p.shards.map (·.queue.length)).sum
def storedBytes (p : Pool) : Nat := (p.shards.map (fun s => (s.queue.map (·.cap)).sum)).sum

/-- How many are in use. -/
def inUse (p : Pool) : Nat := (p.shards.map (·.held.length)).sum

/-- The gauges, for which all shards have one name. -/
def gaugeCount (p : Pool) : Int := (p.shards.map (·.idleCount)).sum
def gaugeBytes (p : Pool) : Int := (p.shards.map (·.idleBytes)).sum
def gaugeActive (p : Pool) : Int := (p.shards.map (·.active)).sum

/-- No thread is in the middle of an operation. -/
def Rest (p : Pool) : Prop := ∀ s ∈ p.shards, s.threads = []

structure Inv (n limit trim : Nat) (p : Pool) : Prop where
  len : p.shards.length = n
  each : ∀ s ∈ p.shards, s.Inv ∧ s.max = limit / n ∧ s.trim = trim

theorem inv_new (n limit trim : Nat) : Inv n limit trim (Pool.new n limit trim) := by
  refine ⟨by simp [Pool.new], fun s hs => ?_⟩
  simp only [Pool.new, List.mem_replicate] at hs
  rw [hs.2]
  exact ⟨Shard.inv_init _ _, rfl, rfl⟩

theorem inv_onShard {n limit trim : Nat} {p : Pool} (h : Inv n limit trim p) (k : Nat) (op : PoolOp) : Inv n limit trim (p.onShard k op) := by
  unfold Pool.onShard
  split
  · rename_i s hs
    obtain ⟨h1, h2, h3⟩ := h.each s (List.mem_of_getElem? hs)
    refine ⟨by simp [h.len], fun t ht => ?_⟩
    rcases List.mem_or_eq_of_mem_set ht with ht | rfl
    · exact h.each t ht
    · obtain ⟨e1, e2⟩ := s.step_params op
      exact ⟨Shard.inv_step h1 op, e1.trans h2, e2.trans h3⟩
  · exact h

theorem inv_step {n limit trim : Nat} {p : Pool} (h : Inv n limit trim p) (op : POp) : Inv n limit trim (p.step op) := by
  cases op with
  | get => have := inv_onShard h (p.next.toNat % p.shards.length) .get; exact ⟨this.len, this.each⟩
  | fromOwned b => have := inv_onShard h (p.next.toNat % p.shards.length) (.new b); exact ⟨this.len, this.each⟩
  | getEmpty => exact inv_onShard h _ _
  | «at» k op => exact inv_onShard h k op

theorem inv_run {n limit trim : Nat} {p : Pool} (h : Inv n limit trim p) (l : List POp) : Inv n limit trim (p.run l) := by
  induction l generalizing p with
  | nil => exact h
  | cons op l ih => exact ih (inv_step h op)

theorem inv (n limit trim : Nat) (l : List POp) : Inv n limit trim (After n limit trim l) := inv_run (inv_new n limit trim) l

theorem sum_le {α : Type} (f : α → Nat) (m : Nat) (l : List α) (h : ∀ x ∈ l, f x ≤ m) : (l.map f).sum ≤ l.length * m := by
  induction l with
  | nil => simp
  | cons a l ih =>
    have h1 := h a (by simp)
    have h2 := ih (fun x hx => h x (by simp [hx]))
    simp only [List.map_cons, List.sum_cons, List.length_cons, Nat.add_mul, Nat.one_mul]
    omega

/-- At all times, whatever the threads are doing, no more than `limit` buffers are in the pool. -/
theorem at_most_limit (n limit trim : Nat) (l : List POp) : stored (After n limit trim l) ≤ limit := by
  have h := inv n limit trim l
  have := sum_le (fun s : Shard => s.queue.length) (limit / n) (After n limit trim l).shards (fun s hs => by
    obtain ⟨h1, h2, -⟩ := h.each s hs
    have := h1.room
    show s.queue.length ≤ limit / n
    omega)
  rw [h.len] at this
  exact Nat.le_trans this (Nat.mul_div_le limit n)

/-- And no more memory than that many buffers of the size to keep. -/
theorem at_most_bytes (n limit trim : Nat) (l : List POp) : storedBytes (After n limit trim l) ≤ limit * trim := by
  have h := inv n limit trim l
  have := sum_le (fun s : Shard => (s.queue.map (·.cap)).sum) (limit / n * trim) (After n limit trim l).shards (fun s hs => by
    obtain ⟨h1, h2, h3⟩ := h.each s hs
    have a := sum_le (fun b : PBuf => b.cap) trim s.queue (fun b hb => by rw [← h3]; exact (h1.clean b hb).2.2)
    have b := h1.room
    exact Nat.le_trans a (Nat.mul_le_mul_right _ (by omega)))
  rw [h.len] at this
  refine Nat.le_trans this ?_
  rw [← Nat.mul_assoc]
  exact Nat.mul_le_mul_right _ (Nat.mul_div_le limit n)

theorem sum_int {α : Type} (f : α → Int) (g : α → Nat) (l : List α) (h : ∀ x ∈ l, (g x : Int) ≤ f x) : ((l.map g).sum : Int) ≤ (l.map f).sum := by
  induction l with
  | nil => simp
  | cons a l ih =>
    have h1 := h a (by simp)
    have h2 := ih (fun x hx => h x (by simp [hx]))
    simp only [List.map_cons, List.sum_cons]
    omega

theorem sum_int_eq {α : Type} (f : α → Int) (g : α → Nat) (l : List α) (h : ∀ x ∈ l, f x = g x) : (l.map f).sum = ((l.map g).sum : Int) := by
  induction l with
  | nil => simp
  | cons a l ih =>
    have h1 := h a (by simp)
    have h2 := ih (fun x hx => h x (by simp [hx]))
    simp only [List.map_cons, List.sum_cons]
    omega

/-- The gauges never say less than what is there, so they never become negative; and no counter does. -/
theorem gauges (n limit trim : Nat) (l : List POp) :
    (stored (After n limit trim l) : Int) ≤ gaugeCount (After n limit trim l) ∧ (storedBytes (After n limit trim l) : Int) ≤ gaugeBytes (After n limit trim l) ∧
    gaugeActive (After n limit trim l) = inUse (After n limit trim l) ∧ ∀ s ∈ (After n limit trim l).shards, 0 ≤ s.cnt := by
  have h := inv n limit trim l
  refine ⟨sum_int _ _ _ fun s hs => ?_, sum_int _ _ _ fun s hs => ?_, sum_int_eq _ _ _ fun s hs => ?_, fun s hs => ?_⟩
  · have := (h.each s hs).1.idle; omega
  · have := (h.each s hs).1.bytes; simp only [caps] at this; omega
  · exact (h.each s hs).1.act
  · have := (h.each s hs).1.cnt; omega

/-- When nobody is in the middle of something, they are exact. -/
theorem gauges_at_rest (n limit trim : Nat) (l : List POp) (hr : Rest (After n limit trim l)) :
    gaugeCount (After n limit trim l) = stored (After n limit trim l) ∧ gaugeBytes (After n limit trim l) = storedBytes (After n limit trim l) ∧
    ∀ s ∈ (After n limit trim l).shards, s.cnt = s.queue.length := by
  have h := inv n limit trim l
  refine ⟨sum_int_eq _ _ _ fun s hs => ?_, sum_int_eq _ _ _ fun s hs => ?_, fun s hs => ?_⟩
  · have := (h.each s hs).1.idle; rw [hr s hs] at this; simpa [total] using this
  · have := (h.each s hs).1.bytes; rw [hr s hs] at this; simpa [total, caps] using this
  · have := (h.each s hs).1.cnt; rw [hr s hs] at this; simpa [total] using this

/-- What a caller of `get` gets (at once, or when its thread is through) is empty. -/
theorem given_empty (n limit trim : Nat) (l : List POp) {s : Shard} (hs : s ∈ (After n limit trim l).shards) (op : PoolOp)
    (hop : op = .get ∨ ∃ i, op = .go i) : (s.step op).held = s.held ∨ ∃ b, (s.step op).held = s.held ++ [b] ∧ b.data = [] := by
  have h := ((inv n limit trim l).each s hs).1
  rcases hop with rfl | ⟨i, rfl⟩
  · simp only [Shard.step]
    split
    · exact .inr ⟨{}, rfl, rfl⟩
    · exact .inl rfl
  · simp only [Shard.step]
    split
    · rename_i p hp
      cases p with
      | decBytes b => exact .inr ⟨b, rfl, (h.cleanT _ (List.mem_of_getElem? hp) b rfl).1⟩
      | _ => exact .inl rfl
    · exact .inl rfl

/-- A buffer that was dropped is in the pool or was given up, and with nobody else around it is kept exactly if there is room and it is not
empty-handed. -/
theorem dropped (n limit trim : Nat) (l : List POp) {s : Shard} (hs : s ∈ (After n limit trim l).shards) (hr : s.threads = []) {i : Nat} {b : PBuf}
    (hi : s.held[i]? = some b) :
    let r := s.run [.drop i, .go 0, .go 0, .go 0, .go 0]
    r.threads = [] ∧ r.held = s.held.eraseIdx i ∧
    r.queue = if 0 < min b.cap trim ∧ s.queue.length < limit / n then s.queue ++ [{ data := [], cap := min b.cap trim }] else s.queue := by
  obtain ⟨h, hm, ht⟩ := (inv n limit trim l).each s hs
  have hc := h.cnt
  rw [hr] at hc
  simp only [total, List.map_nil, List.sum_nil] at hc
  simp only [Shard.run, Shard.step, hi, Shard.startDrop, PBuf.reuse, hr, ht]
  by_cases hcap : 0 < min b.cap trim
  · by_cases hroom : s.cnt < s.max
    · have : s.queue.length < limit / n := by omega
      simp [hcap, hroom, this, Shard.advance]
    · have : ¬ s.queue.length < limit / n := by omega
      simp [hcap, hroom, this, Shard.advance]
  · simp [hcap]

/-- What a caller takes out for good does not come back: nothing is put into the pool for it. -/
theorem taken_out {s : Shard} {i : Nat} {b : PBuf} (hi : s.held[i]? = some b) : (s.step (.take i)).queue = s.queue ∧ (s.step (.take i)).threads = s.threads ∧ (s.step (.take i)).held = s.held.eraseIdx i := by
  simp [Shard.step, hi, Shard.startDrop, PBuf.reuse]

/-- With others around it may be given up although there is room: their count comes before their check. -/
theorem kept_false : ∃ l, let s := (Shard.run { max := 1, trim := 10 } l)
    s.queue = [] ∧ s.held = [] ∧ s.threads = [.undo, .undo] := by
  exact ⟨[.new { cap := 5 }, .new { cap := 5 }, .new { cap := 5 }, .drop 0, .go 0, .go 0, .go 0, .go 0, .drop 0, .go 0, .get, .go 1, .go 1, .go 1,
    .take 1, .drop 0, .go 1], by decide⟩

/-! ### A run -/

/-- Two shards, three buffers: one is used and dropped, the next caller of that shard gets it back, empty. -/
def demo : List POp :=
  [.get, .get, .at 0 (.use 0 { data := [1, 2, 3], cap := 8 }), .at 0 (.drop 0), .at 0 (.go 0), .at 0 (.go 0), .at 0 (.go 0), .at 0 (.go 0)]

example : stored (After 2 5 4 demo) = 1 ∧ storedBytes (After 2 5 4 demo) = 4 ∧ inUse (After 2 5 4 demo) = 1 ∧ gaugeCount (After 2 5 4 demo) = 1 := by decide
example : ((After 2 5 4 (demo ++ [.get, .at 0 (.go 0), .at 0 (.go 0), .at 0 (.go 0)])).shards.map (·.held)) = [[{ data := [], cap := 4 }], [{}]] := by decide

/-- In the middle of a drop the gauge may say more than there is. -/
example : stored (After 2 5 4 (demo.take 6)) = 0 ∧ gaugeCount (After 2 5 4 (demo.take 6)) = 1 := by decide

end Verif.Props.C154
