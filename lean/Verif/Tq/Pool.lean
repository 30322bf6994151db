/-!
Model of `/repo/buffer-pool/src/lib.rs`: a pool of buffers in shards, used by any number of
threads. One step is one atomic operation. All atomic operations on one variable take place in
one order, and a value popped from the queue was pushed before, so interleavings of steps are all
there is as far as the values are concerned (the orderings `Acquire`, `Release` and `Relaxed` say
something about other memory only). The elements are `Vec<u8>`s, of which the length and the
capacity matter. Counters and gauges are integers; that they do not become negative is proved.
-/

namespace Verif.Tq

/-- A `Vec<u8>` with its contents. -/
structure PBuf where
  data : List UInt8 := []
  cap : Nat := 0
  deriving DecidableEq, Repr

/-- `<Vec<u8> as Reuse>::reuse` (lib.rs:244-253). `shrink_to` lowers the capacity to the given
value (bytes are allocated exactly). -/
def PBuf.reuse (b : PBuf) (trim : Nat) : PBuf := { data := [], cap := min b.cap trim }

/-- Where a thread is in `Pooled::drop` (lib.rs:107-135) or `Pool::get` (lib.rs:165-180). -/
inductive PC where
  /-- about to `fetch_add` -/
  | add (b : PBuf)
  /-- about to count the buffer, its bytes, and to push it -/
  | incCount (b : PBuf)
  | incBytes (b : PBuf)
  | push (b : PBuf)
  /-- no room: about to `fetch_sub` -/
  | undo
  /-- popped: about to `fetch_sub`, to uncount it, its bytes -/
  | sub (b : PBuf)
  | decCount (b : PBuf)
  | decBytes (b : PBuf)
  deriving DecidableEq, Repr

structure Shard where
  max : Nat
  trim : Nat
  queue : List PBuf := []
  cnt : Int := 0
  idleCount : Int := 0
  idleBytes : Int := 0
  active : Int := 0
  threads : List PC := []
  /-- buffers in use -/
  held : List PBuf := []
  deriving Repr

inductive PoolOp where
  /-- someone asks for a buffer: `pop`, and if there is none, a new one -/
  | get
  /-- someone gets a new buffer (`get_empty`, `from_owned`) -/
  | new (b : PBuf)
  /-- the `i`-th buffer in use is changed -/
  | use (i : Nat) (b : PBuf)
  /-- the `i`-th buffer in use is dropped -/
  | drop (i : Nat)
  /-- its contents are taken out of the pool (`into_inner`) -/
  | take (i : Nat)
  /-- the `i`-th thread goes on -/
  | go (i : Nat)
  deriving DecidableEq, Repr

namespace Shard

/-- The beginning of `drop`: the gauge, and `reuse` (lib.rs:116-117). -/
def startDrop (s : Shard) (i : Nat) (b : PBuf) : Shard :=
  let r := b.reuse s.trim
  { s with active := s.active - 1
           held := s.held.eraseIdx i
           threads := if r.cap > 0 then s.threads ++ [.add r] else s.threads }

/-- One atomic step of a thread. -/
def advance (s : Shard) (i : Nat) : PC → Shard
  | .add b =>
    { s with cnt := s.cnt + 1, threads := s.threads.set i (if s.cnt < s.max then .incCount b else .undo) }
  | .incCount b => { s with idleCount := s.idleCount + 1, threads := s.threads.set i (.incBytes b) }
  | .incBytes b => { s with idleBytes := s.idleBytes + b.cap, threads := s.threads.set i (.push b) }
  | .push b => { s with queue := s.queue ++ [b], threads := s.threads.eraseIdx i }
  | .undo => { s with cnt := s.cnt - 1, threads := s.threads.eraseIdx i }
  | .sub b => { s with cnt := s.cnt - 1, threads := s.threads.set i (.decCount b) }
  | .decCount b => { s with idleCount := s.idleCount - 1, threads := s.threads.set i (.decBytes b) }
  | .decBytes b =>
    { s with idleBytes := s.idleBytes - b.cap, threads := s.threads.eraseIdx i, active := s.active + 1, held := s.held ++ [b] }

def step (s : Shard) : PoolOp → Shard
  | .get =>
    match s.queue with
    | [] => { s with active := s.active + 1, held := s.held ++ [{}] }
    | b :: q => { s with queue := q, threads := s.threads ++ [.sub b] }
  | .new b => { s with active := s.active + 1, held := s.held ++ [b] }
  | .use i b => { s with held := s.held.set i b }
  | .drop i =>
    match s.held[i]? with
    | some b => s.startDrop i b
    | none => s
  | .take i =>
    match s.held[i]? with
    | some _ => s.startDrop i {}
    | none => s
  | .go i =>
    match s.threads[i]? with
    | some pc => s.advance i pc
    | none => s

def run (s : Shard) : List PoolOp → Shard
  | [] => s
  | op :: l => (s.step op).run l

end Shard

/-! ### Counting -/

/-- The number of buffers that are counted in `elem_cnt` without being in the queue. -/
def PC.inCnt : PC → Nat
  | .incCount _ | .incBytes _ | .push _ | .undo | .sub _ => 1
  | _ => 0

/-- Those that will be in the queue. -/
def PC.coming : PC → Nat
  | .incCount _ | .incBytes _ | .push _ => 1
  | _ => 0

def PC.inCount : PC → Nat
  | .incBytes _ | .push _ | .sub _ | .decCount _ => 1
  | _ => 0

def PC.inBytes : PC → Nat
  | .push b | .sub b | .decCount b | .decBytes b => b.cap
  | _ => 0

/-- The buffer a thread is about to hand over. -/
def PC.buf : PC → Option PBuf
  | .add b | .incCount b | .incBytes b | .push b | .sub b | .decCount b | .decBytes b => some b
  | .undo => none

def total (f : PC → Nat) (l : List PC) : Nat := (l.map f).sum

theorem total_append (f : PC → Nat) (a b : List PC) : total f (a ++ b) = total f a + total f b := by simp [total]

theorem total_set (f : PC → Nat) : ∀ {l : List PC} {i : Nat} {p q : PC}, l[i]? = some p → total f (l.set i q) + f p = total f l + f q
  | [], i, p, q, h => by simp at h
  | a :: l, 0, p, q, h => by simp at h; subst h; simp [total]; omega
  | a :: l, i + 1, p, q, h => by
    have := total_set f (l := l) (i := i) (p := p) (q := q) (by simpa using h)
    simp only [total, List.set_cons_succ, List.map_cons, List.sum_cons] at this ⊢
    omega

theorem total_erase (f : PC → Nat) : ∀ {l : List PC} {i : Nat} {p : PC}, l[i]? = some p → total f (l.eraseIdx i) + f p = total f l
  | [], i, p, h => by simp at h
  | a :: l, 0, p, h => by simp at h; subst h; simp [total]; omega
  | a :: l, i + 1, p, h => by
    have := total_erase f (l := l) (i := i) (p := p) (by simpa using h)
    simp only [total, List.eraseIdx_cons_succ, List.map_cons, List.sum_cons] at this ⊢
    omega

theorem total_le {f g : PC → Nat} (h : ∀ p, f p ≤ g p) (l : List PC) : total f l ≤ total g l := by
  induction l with
  | nil => simp [total]
  | cons a l ih =>
    have := h a
    simp only [total, List.map_cons, List.sum_cons] at ih ⊢
    omega

def caps (l : List PBuf) : Nat := (l.map (·.cap)).sum

theorem caps_append (a b : List PBuf) : caps (a ++ b) = caps a + caps b := by simp [caps]

/-- A buffer as the pool keeps it. -/
def PBuf.Clean (trim : Nat) (b : PBuf) : Prop := b.data = [] ∧ 0 < b.cap ∧ b.cap ≤ trim

structure Shard.Inv (s : Shard) : Prop where
  cnt : s.cnt = s.queue.length + total PC.inCnt s.threads
  room : s.queue.length + total PC.coming s.threads ≤ s.max
  idle : s.idleCount = s.queue.length + total PC.inCount s.threads
  bytes : s.idleBytes = caps s.queue + total PC.inBytes s.threads
  act : s.active = s.held.length
  clean : ∀ b ∈ s.queue, b.Clean s.trim
  cleanT : ∀ p ∈ s.threads, ∀ b, p.buf = some b → b.Clean s.trim

theorem Shard.inv_init (max trim : Nat) : Shard.Inv { max := max, trim := trim } := by
  constructor <;> simp [total, caps]

theorem Shard.inv_startDrop {s : Shard} (h : s.Inv) {i : Nat} {x : PBuf} (hi : s.held[i]? = some x) (b : PBuf) : (s.startDrop i b).Inv := by
  have hl : i < s.held.length := (List.getElem?_eq_some_iff.mp hi).1
  unfold Shard.startDrop
  dsimp only
  obtain ⟨h1, h2, h3, h4, h5, h6, h7⟩ := h
  have ha : s.active - 1 = (s.held.eraseIdx i).length := by
    rw [List.length_eraseIdx_of_lt hl, h5]
    omega
  split
  · rename_i hc
    refine ⟨?_, ?_, ?_, ?_, ha, h6, ?_⟩
    · simpa [total_append, total, PC.inCnt] using h1
    · simpa [total_append, total, PC.coming] using h2
    · simpa [total_append, total, PC.inCount] using h3
    · simpa [total_append, total, PC.inBytes] using h4
    · intro p hp c hb
      simp only [List.mem_append, List.mem_singleton] at hp
      rcases hp with hp | rfl
      · exact h7 p hp c hb
      · simp only [PC.buf, Option.some.injEq] at hb
        subst hb
        exact ⟨rfl, hc, by simp only [PBuf.reuse]; omega⟩
  · exact ⟨h1, h2, h3, h4, ha, h6, h7⟩

theorem mem_set_of {l : List PC} {i : Nat} {q p : PC} (h : p ∈ l.set i q) : p ∈ l ∨ p = q := List.mem_or_eq_of_mem_set h

theorem Shard.inv_advance {s : Shard} (h : s.Inv) {i : Nat} {p : PC} (hi : s.threads[i]? = some p) : (s.advance i p).Inv := by
  obtain ⟨h1, h2, h3, h4, h5, h6, h7⟩ := h
  have hp : p ∈ s.threads := List.mem_of_getElem? hi
  have hset : ∀ q, total PC.inCnt (s.threads.set i q) + PC.inCnt p = total PC.inCnt s.threads + PC.inCnt q ∧
      total PC.coming (s.threads.set i q) + PC.coming p = total PC.coming s.threads + PC.coming q ∧
      total PC.inCount (s.threads.set i q) + PC.inCount p = total PC.inCount s.threads + PC.inCount q ∧
      total PC.inBytes (s.threads.set i q) + PC.inBytes p = total PC.inBytes s.threads + PC.inBytes q :=
    fun q => ⟨total_set _ hi, total_set _ hi, total_set _ hi, total_set _ hi⟩
  have her : total PC.inCnt (s.threads.eraseIdx i) + PC.inCnt p = total PC.inCnt s.threads ∧
      total PC.coming (s.threads.eraseIdx i) + PC.coming p = total PC.coming s.threads ∧
      total PC.inCount (s.threads.eraseIdx i) + PC.inCount p = total PC.inCount s.threads ∧
      total PC.inBytes (s.threads.eraseIdx i) + PC.inBytes p = total PC.inBytes s.threads :=
    ⟨total_erase _ hi, total_erase _ hi, total_erase _ hi, total_erase _ hi⟩
  have cset : ∀ q, (∀ b, q.buf = some b → b.Clean s.trim) → ∀ r ∈ s.threads.set i q, ∀ b, r.buf = some b → b.Clean s.trim := by
    intro q hq r hr b hb
    rcases mem_set_of hr with hr | rfl
    · exact h7 r hr b hb
    · exact hq b hb
  have cer : ∀ r ∈ s.threads.eraseIdx i, ∀ b, r.buf = some b → b.Clean s.trim :=
    fun r hr => h7 r ((List.eraseIdx_sublist _ _).subset hr)
  have hle : total PC.coming s.threads ≤ total PC.inCnt s.threads := total_le (by intro p; cases p <;> simp [PC.coming, PC.inCnt]) _
  cases p with
  | add b =>
    have hb := h7 _ hp b rfl
    by_cases hc : s.cnt < s.max
    · obtain ⟨a1, a2, a3, a4⟩ := hset (.incCount b)
      simp only [PC.inCnt, PC.coming, PC.inCount, PC.inBytes] at a1 a2 a3 a4
      simp only [advance, if_pos hc]
      refine ⟨?_, ?_, ?_, ?_, h5, h6, cset _ (by intro c hc; simp only [PC.buf, Option.some.injEq] at hc; subst hc; exact hb)⟩ <;> dsimp only <;> omega
    · obtain ⟨a1, a2, a3, a4⟩ := hset .undo
      simp only [PC.inCnt, PC.coming, PC.inCount, PC.inBytes] at a1 a2 a3 a4
      simp only [advance, if_neg hc]
      refine ⟨?_, ?_, ?_, ?_, h5, h6, cset _ (by intro c hc; simp [PC.buf] at hc)⟩ <;> dsimp only <;> omega
  | incCount b =>
    have hb := h7 _ hp b rfl
    obtain ⟨a1, a2, a3, a4⟩ := hset (.incBytes b)
    simp only [PC.inCnt, PC.coming, PC.inCount, PC.inBytes] at a1 a2 a3 a4
    refine ⟨?_, ?_, ?_, ?_, h5, h6, cset _ (by intro c hc; simp only [PC.buf, Option.some.injEq] at hc; subst hc; exact hb)⟩ <;> simp only [advance] <;> omega
  | incBytes b =>
    have hb := h7 _ hp b rfl
    obtain ⟨a1, a2, a3, a4⟩ := hset (.push b)
    simp only [PC.inCnt, PC.coming, PC.inCount, PC.inBytes] at a1 a2 a3 a4
    refine ⟨?_, ?_, ?_, ?_, h5, h6, cset _ (by intro c hc; simp only [PC.buf, Option.some.injEq] at hc; subst hc; exact hb)⟩ <;> simp only [advance] <;> omega
  | push b =>
    have hb := h7 _ hp b rfl
    obtain ⟨a1, a2, a3, a4⟩ := her
    simp only [PC.inCnt, PC.coming, PC.inCount, PC.inBytes] at a1 a2 a3 a4
    refine ⟨?_, ?_, ?_, ?_, h5, ?_, cer⟩ <;> simp only [advance, List.length_append, List.length_singleton, caps_append]
    · omega
    · omega
    · omega
    · simp only [caps] at *; simp; omega
    · intro c hc
      simp only [List.mem_append, List.mem_singleton] at hc
      rcases hc with hc | rfl
      · exact h6 c hc
      · exact hb
  | undo =>
    obtain ⟨a1, a2, a3, a4⟩ := her
    simp only [PC.inCnt, PC.coming, PC.inCount, PC.inBytes] at a1 a2 a3 a4
    refine ⟨?_, ?_, ?_, ?_, h5, h6, cer⟩ <;> simp only [advance] <;> omega
  | sub b =>
    have hb := h7 _ hp b rfl
    obtain ⟨a1, a2, a3, a4⟩ := hset (.decCount b)
    simp only [PC.inCnt, PC.coming, PC.inCount, PC.inBytes] at a1 a2 a3 a4
    refine ⟨?_, ?_, ?_, ?_, h5, h6, cset _ (by intro c hc; simp only [PC.buf, Option.some.injEq] at hc; subst hc; exact hb)⟩ <;> simp only [advance] <;> omega
  | decCount b =>
    have hb := h7 _ hp b rfl
    obtain ⟨a1, a2, a3, a4⟩ := hset (.decBytes b)
    simp only [PC.inCnt, PC.coming, PC.inCount, PC.inBytes] at a1 a2 a3 a4
    refine ⟨?_, ?_, ?_, ?_, h5, h6, cset _ (by intro c hc; simp only [PC.buf, Option.some.injEq] at hc; subst hc; exact hb)⟩ <;> simp only [advance] <;> omega
  | decBytes b =>
    obtain ⟨a1, a2, a3, a4⟩ := her
    simp only [PC.inCnt, PC.coming, PC.inCount, PC.inBytes] at a1 a2 a3 a4
    refine ⟨?_, ?_, ?_, ?_, ?_, h6, cer⟩ <;> simp only [advance, List.length_append, List.length_singleton] <;> omega

theorem Shard.inv_step {s : Shard} (h : s.Inv) (op : PoolOp) : (s.step op).Inv := by
  cases op with
  | get =>
    simp only [step]
    split
    · obtain ⟨h1, h2, h3, h4, h5, h6, h7⟩ := h
      exact ⟨h1, h2, h3, h4, by simp [h5], h6, h7⟩
    · rename_i b q hq
      obtain ⟨h1, h2, h3, h4, h5, h6, h7⟩ := h
      rw [hq] at h1 h2 h3 h4 h6
      simp only [List.length_cons, caps, List.map_cons, List.sum_cons] at h1 h2 h3 h4
      refine ⟨?_, ?_, ?_, ?_, h5, fun c hc => h6 c (.tail _ hc), ?_⟩
      · simp [total_append, total, PC.inCnt] at *; omega
      · simp [total_append, total, PC.coming] at *; omega
      · simp [total_append, total, PC.inCount] at *; omega
      · simp [total_append, total, PC.inBytes, caps] at *; omega
      · intro p hp c hc
        simp only [List.mem_append, List.mem_singleton] at hp
        rcases hp with hp | rfl
        · exact h7 p hp c hc
        · simp only [PC.buf, Option.some.injEq] at hc
          subst hc
          exact h6 _ (.head _)
  | new b =>
    obtain ⟨h1, h2, h3, h4, h5, h6, h7⟩ := h
    exact ⟨h1, h2, h3, h4, by simp [step, h5], h6, h7⟩
  | use i b =>
    obtain ⟨h1, h2, h3, h4, h5, h6, h7⟩ := h
    exact ⟨h1, h2, h3, h4, by simp [step, h5], h6, h7⟩
  | drop i =>
    simp only [step]
    split
    · rename_i b hb; exact inv_startDrop h hb b
    · exact h
  | take i =>
    simp only [step]
    split
    · rename_i b hb; exact inv_startDrop h hb {}
    · exact h
  | go i =>
    simp only [step]
    split
    · rename_i p hp; exact inv_advance h hp
    · exact h

theorem Shard.inv_run {s : Shard} (h : s.Inv) (l : List PoolOp) : (s.run l).Inv := by
  induction l generalizing s with
  | nil => exact h
  | cons op l ih => exact ih (inv_step h op)

theorem Shard.step_params (s : Shard) (op : PoolOp) : (s.step op).max = s.max ∧ (s.step op).trim = s.trim := by
  cases op with
  | get => simp only [step]; split <;> exact ⟨rfl, rfl⟩
  | new b => exact ⟨rfl, rfl⟩
  | use i b => exact ⟨rfl, rfl⟩
  | drop i => simp only [step]; split <;> exact ⟨rfl, rfl⟩
  | take i => simp only [step]; split <;> exact ⟨rfl, rfl⟩
  | go i => simp only [step]; split; (rename_i p _; cases p <;> exact ⟨rfl, rfl⟩); exact ⟨rfl, rfl⟩

theorem Shard.run_params (s : Shard) (l : List PoolOp) : (s.run l).max = s.max ∧ (s.run l).trim = s.trim := by
  induction l generalizing s with
  | nil => exact ⟨rfl, rfl⟩
  | cons op l ih =>
    obtain ⟨h1, h2⟩ := ih (s.step op)
    obtain ⟨h3, h4⟩ := s.step_params op
    exact ⟨h1.trans h3, h2.trans h4⟩

/-! ### The pool -/

/-- `Pool` (lib.rs:59-65). `next_shard` is a `usize` that wraps around. -/
structure Pool where
  shards : List Shard
  next : UInt64 := 0

/-- `Pool::new` (lib.rs:141-156). -/
def Pool.new (n limit trim : Nat) : Pool := { shards := List.replicate n { max := limit / n, trim := trim } }

inductive POp where
  /-- `get` and `from_owned` take the next shard in turn (lib.rs:166, 202) -/
  | get
  | fromOwned (b : PBuf)
  /-- `get_empty` looks at it only (lib.rs:187) -/
  | getEmpty
  /-- something happens to a buffer or a thread of the `k`-th shard -/
  | at (k : Nat) (op : PoolOp)

def Pool.onShard (p : Pool) (k : Nat) (op : PoolOp) : Pool :=
  match p.shards[k]? with
  | some s => { p with shards := p.shards.set k (s.step op) }
  | none => p

def Pool.step (p : Pool) : POp → Pool
  | .get => { p.onShard (p.next.toNat % p.shards.length) .get with next := p.next + 1 }
  | .fromOwned b => { p.onShard (p.next.toNat % p.shards.length) (.new b) with next := p.next + 1 }
  | .getEmpty => p.onShard (p.next.toNat % p.shards.length) (.new {})
  | .at k op => p.onShard k op

def Pool.run (p : Pool) : List POp → Pool
  | [] => p
  | op :: l => (p.step op).run l

end Verif.Tq
