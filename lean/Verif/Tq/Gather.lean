/-!
Model of how a connection's packets are collected for one `sendmsg` call with generic
segmentation offload (GSO): `gather_data_from_quiche_conn`, `select_path`,
`write_packet_to_buffer` and `flush_buffer_to_socket` of
`/repo/tokio-quiche/src/quic/io/worker.rs`, `tune_max_send_size` of `gso.rs`. The connection is
any state machine that answers `send_on_path`. An address is a number; the local address is
fixed (`cfg.local_addr`), so a path is a peer address.
-/

namespace Verif.Tq

/-- What `send_on_path` answers. -/
inductive Sent (σ : Type) where
  | pkt (bytes : List UInt8) (to : Nat) (s : σ)
  | done (s : σ)
  | err (s : σ)

/-- A connection, as far as `gather_data_from_quiche_conn` sees it. -/
structure Source (σ : Type) where
  /-- `send_on_path`, with the length of the buffer and the path (worker.rs:785) -/
  send : σ → Nat → Option Nat → Sent σ
  /-- `paths_iter` -/
  paths : σ → List Nat
  /-- `send_quantum` -/
  quantum : σ → Nat
  /-- `get_next_release_time()` lets the next packet join the burst (worker.rs:676-686) -/
  burst : σ → Bool

/-- What the connection promises: a packet has at least one byte, fits the buffer, and goes to
the path that was asked for; an empty buffer is an error (quiche/src/lib.rs:3956-4090). -/
structure Source.Lawful {σ : Type} (c : Source σ) : Prop where
  size : ∀ s n to b to' s', c.send s n to = .pkt b to' s' → 0 < b.length ∧ b.length ≤ n
  path : ∀ s n a b to' s', c.send s n (some a) = .pkt b to' s' → to' = a
  empty : ∀ s to, c.send s 0 to = .err s

/-- `WriteState` (worker.rs:251-266), without times. -/
structure WState where
  /-- the buffer up to `bytes_written` -/
  buf : List UInt8 := []
  num : Nat := 0
  seg : Nat := 0
  pending : Bool := false
  selected : Option Nat := none
  /-- what is left of `pending_paths` -/
  iter : List Nat := []
  deriving DecidableEq, Repr

/-- `UDP_MAX_SEGMENT_COUNT`, `UDP_MAX_GSO_PACKET_SIZE` (gso.rs:51,77), `GSO_THRESHOLD`
(worker.rs:78). -/
abbrev maxSegments : Nat := 64
abbrev maxGso : Nat := 65507
abbrev gsoThreshold : Nat := 1000

/-- `tune_max_send_size` (gso.rs:62-72). -/
def tune (seg : Option Nat) (quantum cap : Nat) : Nat :=
  match seg with
  | some mss => min quantum cap / mss * mss
  | none => min quantum cap

/-- `select_path` (worker.rs:744-763): the path, and the write state. -/
def select {σ : Type} (c : Source σ) (s : σ) (w : WState) : Option Nat × WState :=
  match w.selected with
  | some a => (some a, w)
  | none =>
    let it := if w.iter.length = 0 then c.paths s else w.iter
    match it with
    | [] => (none, { w with iter := [] })
    | a :: t => (some a, { w with iter := t })

/-- `write_packet_to_buffer` (worker.rs:776-833), with the length of the buffer and the segment
size so far. `none` is an error; `some 0` that there is no packet. -/
def write {σ : Type} (c : Source σ) (s : σ) (w : WState) (cap : Nat) (seg : Option Nat) : Option Nat × σ × WState :=
  let room := cap - w.buf.length
  let room := match seg with
    | some n => min room n
    | none => room
  let (to, w) := select c s w
  match c.send s room to with
  | .pkt b to' s' =>
    -- `selected_path` is taken from the information about the first packet of the buffer
    let sel := match w.selected with
      | some a => some a
      | none => some to'
    (some b.length, s', { w with buf := w.buf ++ b, num := w.num + 1, selected := sel, pending := true })
  | .done s' => (some 0, s', { w with pending := decide (w.iter.length > 0) })
  | .err s' => (none, s', w)

/-- The settings of a gather. -/
structure GCfg where
  /-- `cfg.with_gso` -/
  gso : Bool := true
  /-- `single_packet` -/
  single : Bool := false
  /-- `gcongestion_enabled` -/
  gcong : Bool := false
  /-- there is a release decision to keep to (worker.rs:592-596) -/
  paced : Bool := false

/-- The loop (worker.rs:615-689), in at most as many rounds as the buffer has bytes, and one. -/
def loop {σ : Type} (c : Source σ) (g : GCfg) (cap : Nat) : Nat → σ → WState → Option Nat → Option Unit × σ × WState × Option Nat
  | 0, s, w, seg => (some (), s, w, seg)
  | f + 1, s, w, seg =>
    match write c s w cap seg with
    | (none, s, w) => (none, s, w, seg)
    | (some 0, s, w) => (some (), s, w, seg)
    | (some (n + 1), s, w) =>
      if g.single ∨ g.gso = false then (some (), s, w, seg)
      else if w.num = maxSegments ∨ (g.gcong = false ∧ w.buf.length ≥ tune seg (c.quantum s) cap) then (some (), s, w, seg)
      else
        match seg with
        | some size =>
          if n + 1 ≠ size ∨ n + 1 < gsoThreshold then (some (), s, w, seg)
          else if g.gcong ∧ g.paced ∧ c.burst s = false then (some (), s, w, seg)
          else loop c g cap f s w seg
        | none =>
          if g.gcong ∧ g.paced ∧ c.burst s = false then (some (), s, w, some (n + 1))
          else loop c g cap f s w (some (n + 1))

/-- `gather_data_from_quiche_conn` (worker.rs:563-728), without the cases in which the pacer puts
the packets off (in the first of them nothing is written, in the second the buffer is the same and
only `has_pending_data` differs). `none` is an error. -/
def gather {σ : Type} (c : Source σ) (g : GCfg) (len : Nat) (s : σ) (w : WState) : Option Unit × σ × WState :=
  let w := { w with num := 0, buf := [], selected := none }
  let (r, s, w, seg) := loop c g (min maxGso len) (min maxGso len + 1) s w none
  (r, s, { w with seg := seg.getD w.buf.length })

/-- What the kernel makes of a buffer with a segment size: datagrams of that size, the last of
which may be shorter. -/
def cut (seg : Nat) : Nat → List UInt8 → List (List UInt8)
  | 0, _ => []
  | f + 1, b => if b = [] then [] else b.take seg :: cut seg f (b.drop seg)

/-- The datagrams that `flush_buffer_to_socket` (worker.rs:835-877) sends, and where to. -/
def flush (g : GCfg) (w : WState) (peer : Nat) : List (List UInt8) × Nat :=
  (if w.buf = [] then [] else if g.gso then cut w.seg (w.buf.length + 1) w.buf else [w.buf], w.selected.getD peer)

/-! ### The packets -/

/-- The same connection, with a record of its packets. -/
def Source.log {σ : Type} (c : Source σ) : Source (σ × List (List UInt8 × Nat)) where
  send := fun x n to =>
    match c.send x.1 n to with
    | .pkt b t s => .pkt b t (s, x.2 ++ [(b, t)])
    | .done s => .done (s, x.2)
    | .err s => .err (s, x.2)
  paths := fun x => c.paths x.1
  quantum := fun x => c.quantum x.1
  burst := fun x => c.burst x.1

theorem log_select {σ : Type} (c : Source σ) (s : σ) (l : List (List UInt8 × Nat)) (w : WState) : select c.log (s, l) w = select c s w := rfl

theorem log_write {σ : Type} (c : Source σ) (s : σ) (l : List (List UInt8 × Nat)) (w : WState) (cap : Nat) (seg : Option Nat) :
    (write c.log (s, l) w cap seg).1 = (write c s w cap seg).1 ∧ (write c.log (s, l) w cap seg).2.1.1 = (write c s w cap seg).2.1 ∧
    (write c.log (s, l) w cap seg).2.2 = (write c s w cap seg).2.2 := by
  unfold write
  rw [log_select]
  dsimp only [Source.log]
  cases seg <;> dsimp only <;> cases c.send s _ (select c s w).1 <;> simp

theorem log_loop {σ : Type} (c : Source σ) (g : GCfg) (cap f : Nat) (s : σ) (l : List (List UInt8 × Nat)) (w : WState) (seg : Option Nat) :
    (loop c.log g cap f (s, l) w seg).1 = (loop c g cap f s w seg).1 ∧ (loop c.log g cap f (s, l) w seg).2.1.1 = (loop c g cap f s w seg).2.1 ∧
    (loop c.log g cap f (s, l) w seg).2.2 = (loop c g cap f s w seg).2.2 := by
  induction f generalizing s l w seg with
  | zero => simp [loop]
  | succ f ih =>
    obtain ⟨h1, h2, h3⟩ := log_write c s l w cap seg
    simp only [loop]
    generalize write c.log (s, l) w cap seg = x at h1 h2 h3
    obtain ⟨a, ⟨s1, l1⟩, w1⟩ := x
    generalize write c s w cap seg = y at h1 h2 h3
    obtain ⟨a', s1', w1'⟩ := y
    dsimp only at h1 h2 h3
    subst h1 h2 h3
    have hq : c.log.quantum (s1, l1) = c.quantum s1 := rfl
    have hb : c.log.burst (s1, l1) = c.burst s1 := rfl
    match a with
    | none => simp
    | some 0 => simp
    | some (n + 1) =>
      simp only [hq, hb]
      by_cases c1 : g.single ∨ g.gso = false
      · simp [c1]
      by_cases c2 : w1.num = maxSegments ∨ (g.gcong = false ∧ w1.buf.length ≥ tune seg (c.quantum s1) cap)
      · simp only [if_neg c1, if_pos c2]; simp
      simp only [if_neg c1, if_neg c2]
      by_cases c4 : g.gcong ∧ g.paced ∧ c.burst s1 = false
      · cases seg with
        | none => simp only [if_pos c4]; simp
        | some z =>
          by_cases c3 : n + 1 ≠ z ∨ n + 1 < gsoThreshold
          · simp only [if_pos c3]; simp
          · simp only [if_neg c3, if_pos c4]; simp
      · cases seg with
        | none => simp only [if_neg c4]; exact ih ..
        | some z =>
          by_cases c3 : n + 1 ≠ z ∨ n + 1 < gsoThreshold
          · simp only [if_pos c3]; simp
          · simp only [if_neg c3, if_neg c4]; exact ih ..

/-- The record does not change anything. -/
theorem log_gather {σ : Type} (c : Source σ) (g : GCfg) (len : Nat) (s : σ) (w : WState) :
    (gather c.log g len (s, []) w).1 = (gather c g len s w).1 ∧ (gather c.log g len (s, []) w).2.1.1 = (gather c g len s w).2.1 ∧
    (gather c.log g len (s, []) w).2.2 = (gather c g len s w).2.2 := by
  unfold gather
  obtain ⟨h1, h2, h3⟩ := log_loop c g (min maxGso len) (min maxGso len + 1) s [] { w with num := 0, buf := [], selected := none } none
  exact ⟨h1, h2, congrArg (fun x : WState × Option Nat => { x.1 with seg := x.2.getD x.1.buf.length }) h3⟩

/-- The room for a packet. -/
def roomFor (w : WState) (cap : Nat) (seg : Option Nat) : Nat :=
  match seg with
  | some n => min (cap - w.buf.length) n
  | none => cap - w.buf.length

/-- A round that made a packet, one that did not, and one that failed. -/
theorem write_cases {σ : Type} (c : Source σ) (s : σ) (w : WState) (cap : Nat) (seg : Option Nat) :
    (∃ b to s', c.send s (roomFor w cap seg) (select c s w).1 = .pkt b to s' ∧
      write c s w cap seg = (some b.length, s', { (select c s w).2 with
        buf := w.buf ++ b, num := w.num + 1, selected := some (w.selected.getD to), pending := true })) ∨
    (∃ s', c.send s (roomFor w cap seg) (select c s w).1 = .done s' ∧
      write c s w cap seg = (some 0, s', { (select c s w).2 with pending := decide ((select c s w).2.iter.length > 0) })) ∨
    (∃ s', c.send s (roomFor w cap seg) (select c s w).1 = .err s' ∧ write c s w cap seg = (none, s', (select c s w).2)) := by
  have e1 : (select c s w).2.buf = w.buf ∧ (select c s w).2.num = w.num ∧ (select c s w).2.selected = w.selected := by
    unfold select
    split
    · rename_i h; simp
    · dsimp only
      split <;> simp
  obtain ⟨e1, e2, e3⟩ := e1
  have hr : (match seg with | some n => min (cap - w.buf.length) n | none => cap - w.buf.length) = roomFor w cap seg := by
    cases seg <;> rfl
  unfold write
  dsimp only
  rw [hr]
  cases hs : c.send s (roomFor w cap seg) (select c s w).1 with
  | pkt b to s' =>
    refine .inl ⟨b, to, s', rfl, ?_⟩
    rw [e1, e2, e3]
    cases w.selected <;> rfl
  | done s' => exact .inr (.inl ⟨s', rfl, rfl⟩)
  | err s' => exact .inr (.inr ⟨s', rfl, rfl⟩)

theorem select_frame {σ : Type} (c : Source σ) (s : σ) (w : WState) :
    (select c s w).2.buf = w.buf ∧ (select c s w).2.num = w.num ∧ (select c s w).2.selected = w.selected ∧
    (∀ a, w.selected = some a → (select c s w).1 = some a) := by
  unfold select
  split
  · rename_i h; simp [h]
  · rename_i h
    dsimp only
    split <;> simp [h]

/-- Packets of one size, then one that may be shorter; or a single one. -/
def Shape (seg : Option Nat) (l : List (List UInt8)) : Prop :=
  match seg with
  | none => l.length ≤ 1
  | some n => 0 < n ∧ ∃ a b, l = a ++ b ∧ (∀ x ∈ a, x.length = n) ∧ b.length ≤ 1 ∧ ∀ x ∈ b, 0 < x.length ∧ x.length ≤ n

/-- What is in the buffer. -/
structure Holds (cap : Nat) (l : List (List UInt8 × Nat)) (w : WState) : Prop where
  buf : w.buf = (l.map (·.1)).flatten
  num : w.num = l.length
  sel : ∀ p ∈ l, w.selected = some p.2
  none : w.selected = none → l = []
  cap : w.buf.length ≤ cap
  pos : ∀ p ∈ l, 0 < p.1.length

/-- Before a round. -/
def Ready (seg : Option Nat) (l : List (List UInt8 × Nat)) : Prop :=
  match seg with
  | none => l = []
  | some n => 0 < n ∧ ∀ p ∈ l, p.1.length = n

theorem Ready.shape {seg : Option Nat} {l : List (List UInt8 × Nat)} (h : Ready seg l) : Shape seg (l.map (·.1)) := by
  cases seg with
  | none => simp [Ready] at h; simp [Shape, h]
  | some n =>
    refine ⟨h.1, l.map (·.1), [], by simp, ?_, by simp, by simp⟩
    intro x hx
    obtain ⟨p, hp, rfl⟩ := List.mem_map.mp hx
    exact h.2 p hp

theorem loop_holds {σ : Type} {c : Source σ} (hc : c.Lawful) (g : GCfg) (cap : Nat) (f : Nat) (s : σ) (l : List (List UInt8 × Nat)) (w : WState)
    (seg : Option Nat) (h : Holds cap l w) (hn : w.num < maxSegments) (hr : Ready seg l) :
    let r := loop c.log g cap f (s, l) w seg
    Holds cap r.2.1.2 r.2.2.1 ∧ r.2.2.1.num ≤ maxSegments ∧ Shape r.2.2.2 (r.2.1.2.map (·.1)) := by
  induction f generalizing s l w seg with
  | zero => exact ⟨h, Nat.le_of_lt hn, hr.shape⟩
  | succ f ih =>
    dsimp only
    obtain ⟨f1, f2, f3, f4⟩ := select_frame c.log (s, l) w
    rcases write_cases c.log (s, l) w cap seg with ⟨b, to, s', h1, h2⟩ | ⟨s', h1, h2⟩ | ⟨s', h1, h2⟩
    · obtain ⟨s1, l1⟩ := s'
      have hraw : c.send s (roomFor w cap seg) (select c.log (s, l) w).1 = .pkt b to s1 ∧ l1 = l ++ [(b, to)] := by
        simp only [Source.log] at h1
        cases hs : c.send s (roomFor w cap seg) (select c.log (s, l) w).1 with
        | pkt b' t' s'' =>
          simp only [Source.log] at hs
          rw [hs] at h1
          simp only [Sent.pkt.injEq, Prod.mk.injEq] at h1
          obtain ⟨rfl, rfl, rfl, rfl⟩ := h1
          exact ⟨rfl, rfl⟩
        | done _ => simp only [Source.log] at hs; rw [hs] at h1; cases h1
        | err _ => simp only [Source.log] at hs; rw [hs] at h1; cases h1
      obtain ⟨hraw, rfl⟩ := hraw
      obtain ⟨p1, p2⟩ := hc.size _ _ _ _ _ _ hraw
      have hcap : w.buf.length + b.length ≤ cap := by
        have := h.cap
        unfold roomFor at p2
        cases seg <;> simp only at p2 <;> omega
      have hto : ∀ a, w.selected = some a → to = a := by
        intro a ha
        rw [f4 a ha] at hraw
        exact hc.path _ _ _ _ _ _ hraw
      have hnew : Holds cap (l ++ [(b, to)]) { (select c.log (s, l) w).2 with
          buf := w.buf ++ b, num := w.num + 1, selected := some (w.selected.getD to), pending := true } := by
        refine ⟨by simp [h.buf], by simp [h.num], ?_, by simp, by simpa using hcap, ?_⟩
        · intro p hp
          simp only [List.mem_append, List.mem_singleton] at hp
          rcases hp with hp | rfl
          · rw [h.sel p hp]; rfl
          · cases hs : w.selected with
            | none => rfl
            | some a => rw [hto a hs]; rfl
        · intro p hp
          simp only [List.mem_append, List.mem_singleton] at hp
          rcases hp with hp | rfl
          · exact h.pos p hp
          · exact p1
      have hle : ∀ n, seg = some n → b.length ≤ n := by
        intro n hseg
        subst hseg
        simp only [roomFor] at p2
        omega
      have hshape : Shape seg ((l ++ [(b, to)]).map (·.1)) := by
        cases seg with
        | none => simp only [Ready] at hr; simp [Shape, hr]
        | some n =>
          refine ⟨hr.1, l.map (·.1), [b], by simp, ?_, by simp, ?_⟩
          · intro x hx
            obtain ⟨p, hp, rfl⟩ := List.mem_map.mp hx
            exact hr.2 p hp
          · intro x hx
            simp only [List.mem_singleton] at hx
            subst hx
            exact ⟨p1, hle n rfl⟩
      simp only [loop, h2]
      obtain ⟨n, hbn⟩ : ∃ n, b.length = n + 1 := ⟨b.length - 1, by omega⟩
      rw [hbn]
      simp only
      by_cases c1 : g.single ∨ g.gso = false
      · simp only [if_pos c1]; exact ⟨hnew, by simp only [maxSegments] at *; omega, hshape⟩
      simp only [if_neg c1]
      by_cases c2 : w.num + 1 = maxSegments ∨ (g.gcong = false ∧ (w.buf ++ b).length ≥ tune seg (c.log.quantum (s1, l ++ [(b, to)])) cap)
      · simp only [if_pos c2]; exact ⟨hnew, by simp only [maxSegments] at *; omega, hshape⟩
      simp only [if_neg c2]
      have hn' : w.num + 1 < maxSegments := by simp only [maxSegments] at *; omega
      cases seg with
      | none =>
        simp only [Ready] at hr
        subst hr
        have hr' : Ready (some (n + 1)) ([] ++ [(b, to)]) := ⟨by omega, by simp [hbn]⟩
        dsimp only
        split
        · exact ⟨hnew, by simp only [maxSegments] at *; omega, hr'.shape⟩
        · exact ih _ _ _ _ hnew hn' hr'
      | some z =>
        dsimp only
        split
        · exact ⟨hnew, by simp only [maxSegments] at *; omega, hshape⟩
        · rename_i c3
          have hr' : Ready (some z) (l ++ [(b, to)]) := by
            refine ⟨hr.1, fun p hp => ?_⟩
            simp only [List.mem_append, List.mem_singleton] at hp
            rcases hp with hp | rfl
            · exact hr.2 p hp
            · show b.length = z
              omega
          split
          · exact ⟨hnew, by simp only [maxSegments] at *; omega, hshape⟩
          · exact ih _ _ _ _ hnew hn' hr'
    · obtain ⟨s1, l1⟩ := s'
      have hl : l1 = l := by
        simp only [Source.log] at h1
        revert h1
        generalize c.send s _ _ = y
        intro h1
        cases y <;> simp at h1
        exact h1.2.symm
      subst hl
      simp only [loop, h2]
      exact ⟨⟨by rw [f1]; exact h.buf, by rw [f2]; exact h.num, by rw [f3]; exact h.sel, by rw [f3]; exact h.none, by rw [f1]; exact h.cap, h.pos⟩,
        by rw [f2]; omega, hr.shape⟩
    · obtain ⟨s1, l1⟩ := s'
      have hl : l1 = l := by
        simp only [Source.log] at h1
        revert h1
        generalize c.send s _ _ = y
        intro h1
        cases y <;> simp at h1
        exact h1.2.symm
      subst hl
      simp only [loop, h2]
      exact ⟨⟨by rw [f1]; exact h.buf, by rw [f2]; exact h.num, by rw [f3]; exact h.sel, by rw [f3]; exact h.none, by rw [f1]; exact h.cap, h.pos⟩,
        by rw [f2]; omega, hr.shape⟩

/-- Cutting up undoes putting together. -/
theorem cut_flatten {n : Nat} (hn : 0 < n) (a b : List (List UInt8)) (ha : ∀ x ∈ a, x.length = n) (hb : b.length ≤ 1)
    (hb' : ∀ x ∈ b, 0 < x.length ∧ x.length ≤ n) (f : Nat) (hf : (a ++ b).flatten.length < f) : cut n f (a ++ b).flatten = a ++ b := by
  induction a generalizing f with
  | nil =>
    match b, hb with
    | [], _ =>
      cases f with
      | zero => simp at hf
      | succ f => simp [cut]
    | [x], _ =>
      obtain ⟨h1, h2⟩ := hb' x (by simp)
      have hx : x ≠ [] := by intro e; simp [e] at h1
      match f, hf with
      | f + 2, _ =>
        simp only [List.nil_append, List.flatten_cons, List.flatten_nil, List.append_nil, cut, if_neg hx]
        rw [List.take_of_length_le h2, List.drop_eq_nil_of_le h2]
        simp
      | 1, hf => simp at hf; exact absurd hf hx
      | 0, hf => simp at hf
  | cons x a ih =>
    have hx := ha x (by simp)
    cases f with
    | zero => simp at hf
    | succ f =>
      have hne : x ++ (a ++ b).flatten ≠ [] := by intro e; simp at e; simp [e.1] at hx; omega
      simp only [List.cons_append, List.flatten_cons, cut]
      rw [if_neg hne, ← hx, List.take_left, List.drop_left]
      congr 1
      rw [hx]
      refine ih (fun y hy => ha y (by simp [hy])) f ?_
      simp only [List.cons_append, List.flatten_cons, List.length_append] at hf ⊢
      omega

/-! ### Nothing left -/

/-- A connection with one path that never needs more than `m` bytes of room to see what it has to send, and whose packets have from `m` to
`M` bytes. For `m = 1`: whatever it sends can be cut into pieces of any size. -/
structure Source.Needs {σ : Type} (c : Source σ) (m M a : Nat) : Prop where
  pos : 0 < m
  quiet : ∀ s n to s', m ≤ n → c.send s n to = .done s' → s' = s ∧ ∀ n', 0 < n' → c.send s n' to = .done s
  size : ∀ s n to b to' s', c.send s n to = .pkt b to' s' → m ≤ b.length ∧ b.length ≤ M
  paths : ∀ s, c.paths s = [a]

theorem loop_quiet {σ : Type} {c : Source σ} (hc : c.Lawful) {m M a : Nat} (hm : c.Needs m M a) (g : GCfg) {cap : Nat} (hcap : 2 * M ≤ cap)
    (hcm : m ≤ cap) (hg : g.gcong = false ∨ m = 1) (f : Nat) (s : σ) (w : WState) (seg : Option Nat) (hit : w.iter = [])
    (hsel : ∀ x, w.selected = some x → x = a)
    (hseg : match seg with | none => w.buf = [] | some n => m ≤ n ∧ (∃ k, w.buf.length = n * k) ∧ (w.buf.length + m ≤ cap ∨ m = 1))
    (hpend : f = 0 → w.pending = true)
    {s' : σ} {w' : WState} {seg' : Option Nat} (h : loop c g cap f s w seg = (some (), s', w', seg')) (hq : w'.pending = false) :
    ∀ n, 0 < n → c.send s' n (some a) = .done s' := by
  induction f generalizing s w seg with
  | zero =>
    simp only [loop, Prod.mk.injEq, true_and] at h
    obtain ⟨_, rfl, _⟩ := h
    rw [hpend rfl] at hq
    cases hq
  | succ f ih =>
    have hs : (select c s w).1 = some a ∧ (select c s w).2.iter = [] := by
      unfold select
      cases hw : w.selected with
      | some x => rw [hsel x hw]; exact ⟨rfl, hit⟩
      | none => simp [hit, hm.paths s]
    obtain ⟨hs1, hs2⟩ := hs
    have hroom : roomFor w cap seg = 0 ∨ m ≤ roomFor w cap seg := by
      cases seg with
      | none => simp only at hseg; simp only [roomFor, hseg]; right; simpa using hcm
      | some n =>
        obtain ⟨h1, -, h3⟩ := hseg
        simp only [roomFor]
        omega
    rcases write_cases c s w cap seg with ⟨b, to, s1, h1, h2⟩ | ⟨s1, h1, h2⟩ | ⟨s1, h1, h2⟩
    · have hb := hm.size _ _ _ _ _ _ h1
      have hto : to = a := by rw [hs1] at h1; exact hc.path _ _ _ _ _ _ h1
      subst hto
      have hsel' : ∀ x, some (w.selected.getD to) = some x → x = to := by
        intro x hx
        injection hx with hx
        cases hw : w.selected with
        | none => rw [hw] at hx; exact hx.symm
        | some y => rw [hw] at hx; rw [← hx]; exact hsel y hw
      obtain ⟨n, hbn⟩ : ∃ n, b.length = n + 1 := ⟨b.length - 1, by have := hm.pos; omega⟩
      simp only [loop, h2, hbn] at h
      -- every way out leaves `pending`
      split at h
      · simp only [Prod.mk.injEq, true_and] at h
        obtain ⟨_, rfl, _⟩ := h
        simp at hq
      split at h
      · simp only [Prod.mk.injEq, true_and] at h
        obtain ⟨_, rfl, _⟩ := h
        simp at hq
      rename_i hfull
      cases seg with
      | none =>
        simp only at hseg
        dsimp only at h
        split at h
        · simp only [Prod.mk.injEq, true_and] at h
          obtain ⟨_, rfl, _⟩ := h
          simp at hq
        refine ih _ { (select c s w).2 with buf := w.buf ++ b, num := w.num + 1, selected := some (w.selected.getD to), pending := true } _ hs2 hsel' ?_
          (fun _ => rfl) h
        refine ⟨by omega, ⟨1, by simp [hseg, hbn]⟩, ?_⟩
        simp only [hseg, List.nil_append]
        omega
      | some z =>
        obtain ⟨e1, ⟨k, e2⟩, e3⟩ := hseg
        dsimp only at h
        split at h
        · simp only [Prod.mk.injEq, true_and] at h
          obtain ⟨_, rfl, _⟩ := h
          simp at hq
        rename_i hz
        split at h
        · simp only [Prod.mk.injEq, true_and] at h
          obtain ⟨_, rfl, _⟩ := h
          simp at hq
        refine ih _ { (select c s w).2 with buf := w.buf ++ b, num := w.num + 1, selected := some (w.selected.getD to), pending := true } _ hs2 hsel' ?_
          (fun _ => rfl) h
        have hzb : b.length = z := by omega
        have e4 : (w.buf ++ b).length = z * (k + 1) := by simp [e2, hzb, Nat.mul_add]
        refine ⟨e1, ⟨k + 1, e4⟩, ?_⟩
        rcases hg with hg | hg
        · left
          simp only [hg, true_and, not_or, Nat.not_le, ge_iff_le] at hfull
          have hlt := hfull.2
          simp only [tune] at hlt
          rw [e4] at hlt ⊢
          have hzp : 0 < z := by have := hm.pos; omega
          rw [Nat.mul_comm z (k + 1)] at hlt ⊢
          have h5 : k + 1 < min (c.quantum s1) cap / z := Nat.lt_of_mul_lt_mul_right hlt
          have h6 : (k + 2) * z ≤ min (c.quantum s1) cap := by
            have := Nat.mul_le_mul_right z (show k + 2 ≤ min (c.quantum s1) cap / z by omega)
            exact Nat.le_trans this (Nat.div_mul_le_self _ _)
          have h7 : (k + 2) * z = (k + 1) * z + z := by rw [show k + 2 = (k + 1) + 1 from rfl, Nat.add_mul (k + 1) 1 z, Nat.one_mul]
          have : min (c.quantum s1) cap ≤ cap := Nat.min_le_right _ _
          omega
        · exact .inr hg
    · simp only [loop, h2, Prod.mk.injEq, true_and] at h
      obtain ⟨rfl, -, -⟩ := h
      rcases hroom with h0 | hroom
      · rw [h0, hc.empty] at h1; cases h1
      · rw [hs1] at h1
        obtain ⟨e1, e2⟩ := hm.quiet _ _ _ _ hroom h1
        rw [e1]
        exact e2
    · simp only [loop, h2] at h
      simp at h

end Verif.Tq
