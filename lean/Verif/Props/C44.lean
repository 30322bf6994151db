import Verif.Small.Dgram

/-!
# C44: Datagram queues are bounded FIFO with exact byte accounting
-/

namespace Verif.C44
open Verif.Dgram

variable {α : Type}

/-- What a queue has to be: a list of datagrams, no more than allowed, and the sum of
their sizes. -/
structure Inv (size : α → Nat) (q : Queue α) : Prop where
  len : q.queue.length ≤ q.maxLen
  bytes : q.bytes = (q.queue.map size).sum

theorem inv_new (size : α → Nat) (m : Nat) : Inv size ({ maxLen := m } : Queue α) := ⟨by simp, by simp⟩

theorem foldl_sum (size : α → Nat) (l : List α) (n : Nat) :
    l.foldl (fun total d => total + size d) n = n + (l.map size).sum := by
  induction l generalizing n with
  | nil => simp
  | cons a l ih => simp only [List.foldl_cons, ih, List.map_cons, List.sum_cons]; omega

/-- A datagram is taken unless the queue is full, and goes to the end. -/
theorem push_spec (size : α → Nat) (q : Queue α) (d : α) (h : Inv size q) :
    (q.queue.length < q.maxLen ∧ ∃ q', q.push size d = .ok q' ∧ q'.queue = q.queue ++ [d] ∧ q'.maxLen = q.maxLen ∧
        Inv size q') ∨
      q.queue.length = q.maxLen ∧ q.push size d = .error .done := by
  unfold Queue.push Queue.isFull
  by_cases hf : q.queue.length = q.maxLen
  · right; exact ⟨hf, by simp [hf]⟩
  · left
    have := h.len
    refine ⟨by omega, { q with bytes := q.bytes + size d, queue := q.queue ++ [d] }, by simp [hf], rfl, rfl, ?_⟩
    constructor
    · simp only [List.length_append, List.length_cons, List.length_nil]; omega
    · simp only [List.map_append, List.sum_append, h.bytes]; simp

theorem pop_spec (size : α → Nat) (q : Queue α) (h : Inv size q) :
    (q.queue = [] ∧ q.pop size = none) ∨
      ∃ d t q', q.queue = d :: t ∧ q.pop size = some (d, q') ∧ q'.queue = t ∧ q'.maxLen = q.maxLen ∧ Inv size q' := by
  unfold Queue.pop
  split
  · rename_i he; exact .inl ⟨he, rfl⟩
  · rename_i d t he
    refine .inr ⟨d, t, _, he, rfl, rfl, rfl, ?_⟩
    have h1 := h.len
    have h2 := h.bytes
    rw [he] at h1 h2
    constructor
    · simp only [List.length_cons] at h1 ⊢; omega
    · simp only [List.map_cons, List.sum_cons] at h2 ⊢; omega

/-- Purging removes exactly the datagrams that match, and keeps the others in order. -/
theorem purge_spec (size : α → Nat) (q : Queue α) (f : α → Bool) (h : Inv size q) :
    (q.purge size f).queue = q.queue.filter (fun d => !f d) ∧ (q.purge size f).maxLen = q.maxLen ∧
      Inv size (q.purge size f) := by
  refine ⟨rfl, rfl, ?_, ?_⟩
  · exact Nat.le_trans (List.length_filter_le _ _) h.len
  · show List.foldl _ 0 _ = _
    rw [foldl_sum]; simp [Queue.purge]

/-! ### The send queue -/

/-- What happens to the send queue. -/
inductive SendOp (α : Type) where
  | send (maxPayload : Option Nat) (d : α)
  | purge (f : α → Bool)
  | pack (maxPayload left : Nat)

/-- State with the record of the datagrams taken from the application and of those put
into packets, in order. -/
structure SendHist (α : Type) where
  q : Queue α
  taken : List α := []
  sent : List α := []

def sendStep (size : α → Nat) (s : SendHist α) : SendOp α → SendHist α
  | .send m d => match dgramSend size s.q m d with
    | .ok q => { s with q := q, taken := s.taken ++ [d] }
    | .error _ => s
  | .purge f => { s with q := s.q.purge size f }
  | .pack m left =>
    let r := pack size m s.q left
    { s with q := r.2.2, sent := s.sent ++ r.1 }

def sendRun (size : α → Nat) (s : SendHist α) (ops : List (SendOp α)) : SendHist α := ops.foldl (sendStep size) s

/-- Packing takes datagrams from the front: those sent fit into the packet; those dropped
are too large for any packet; the rest stays. -/
theorem packLoop_spec (size : α → Nat) (m : Nat) : ∀ (n : Nat) (q : Queue α) (left : Nat), q.queue.length ≤ n → Inv size q →
    let r := packLoop size m n q left
    ∃ gone, q.queue = gone ++ r.2.2.queue ∧ r.1.Sublist gone ∧
      (∀ d ∈ gone, size d ≤ m → d ∈ r.1) ∧
      (r.1.map fun d => 3 + size d).sum + r.2.1 = left ∧
      r.2.2.maxLen = q.maxLen ∧ Inv size r.2.2 ∧
      (∀ d, r.2.2.queue.head? = some d → r.2.1 < 3 + size d ∧ size d ≤ m) := by
  intro n
  induction n with
  | zero =>
    intro q left hn hi
    have he : q.queue = [] := List.length_eq_zero_iff.mp (by omega)
    exact ⟨[], by rw [he]; simp [packLoop, he], by simp [packLoop], by simp, by simp [packLoop], rfl, hi,
      by simp [packLoop, he]⟩
  | succ n ih =>
    intro q left hn hi
    unfold packLoop Queue.peekLen
    rcases pop_spec size q hi with ⟨he, _⟩ | ⟨d, t, q', he, hp, hq, hm, hi'⟩
    · rw [he]
      exact ⟨[], by simp [he], by simp, by simp, by simp, rfl, hi, by simp [he]⟩
    · rw [he]
      simp only [List.head?_cons, Option.map_some]
      have hlen : q'.queue.length ≤ n := by rw [he] at hn; simp only [List.length_cons] at hn; rw [hq]; omega
      by_cases c1 : 1 + 2 + size d ≤ left
      · rw [if_pos c1, hp]
        obtain ⟨gone, g1, g2, g3, g4, g5, g6, g7⟩ := ih q' (left - (1 + 2 + size d)) hlen hi'
        refine ⟨d :: gone, ?_, ?_, ?_, ?_, by rw [← hm]; exact g5, g6, g7⟩
        · rw [← hq, g1]; simp
        · exact g2.cons₂ d
        · intro x hx hs
          rcases List.mem_cons.mp hx with hx | hx
          · rw [hx]; simp
          · exact List.mem_cons_of_mem _ (g3 x hx hs)
        · simp only [List.map_cons, List.sum_cons] at g4 ⊢; omega
      · rw [if_neg c1]
        by_cases c2 : size d > m
        · rw [if_pos c2, hp]
          obtain ⟨gone, g1, g2, g3, g4, g5, g6, g7⟩ := ih q' left hlen hi'
          refine ⟨d :: gone, ?_, ?_, ?_, g4, by rw [← hm]; exact g5, g6, g7⟩
          · rw [← hq, g1]; simp
          · exact g2.cons d
          · intro x hx hs
            rcases List.mem_cons.mp hx with hx | hx
            · rw [hx] at hs; omega
            · exact g3 x hx hs
        · rw [if_neg c2]
          refine ⟨[], by simp [he], by simp, by simp, by simp, rfl, hi, ?_⟩
          intro x hx
          rw [he] at hx
          simp only [List.head?_cons, Option.some.injEq] at hx
          rw [← hx]
          exact ⟨by simp only; omega, by omega⟩

theorem pack_spec (size : α → Nat) (m left : Nat) (q : Queue α) (hi : Inv size q) :
    let r := pack size m q left
    ∃ gone, q.queue = gone ++ r.2.2.queue ∧ r.1.Sublist gone ∧
      (∀ d ∈ gone, size d ≤ m → d ∈ r.1) ∧
      (r.1.map fun d => 3 + size d).sum + r.2.1 = left ∧
      r.2.2.maxLen = q.maxLen ∧ Inv size r.2.2 ∧
      (∀ d, r.2.2.queue.head? = some d → r.2.1 < 3 + size d ∧ size d ≤ m) :=
  packLoop_spec size m q.queue.length q left (Nat.le_refl _) hi

theorem sendStep_inv (size : α → Nat) (s : SendHist α) (op : SendOp α) (hi : Inv size s.q)
    (hs : (s.sent ++ s.q.queue).Sublist s.taken) :
    Inv size (sendStep size s op).q ∧ (sendStep size s op).q.maxLen = s.q.maxLen ∧
      ((sendStep size s op).sent ++ (sendStep size s op).q.queue).Sublist (sendStep size s op).taken := by
  cases op with
  | send m d =>
    unfold sendStep dgramSend
    cases m with
    | none => exact ⟨hi, rfl, hs⟩
    | some m =>
      by_cases c : size d > m
      · simp only [if_pos c]; exact ⟨hi, by first | rfl | trivial, hs⟩
      · simp only [if_neg c]
        rcases push_spec size s.q d hi with ⟨_, q', e, h1, h2, h3⟩ | ⟨_, e⟩
        · rw [e]
          refine ⟨h3, h2, ?_⟩
          show (s.sent ++ q'.queue).Sublist (s.taken ++ [d])
          rw [h1, ← List.append_assoc]
          exact hs.append (List.Sublist.refl _)
        · rw [e]; exact ⟨hi, rfl, hs⟩
  | purge f =>
    obtain ⟨h1, h2, h3⟩ := purge_spec size s.q f hi
    refine ⟨h3, h2, ?_⟩
    show (s.sent ++ (s.q.purge size f).queue).Sublist s.taken
    rw [h1]
    exact List.Sublist.trans ((List.Sublist.refl _).append List.filter_sublist) hs
  | pack m left =>
    obtain ⟨gone, g1, g2, _, _, g5, g6, _⟩ := pack_spec size m left s.q hi
    refine ⟨g6, g5, ?_⟩
    show ((s.sent ++ (pack size m s.q left).1) ++ (pack size m s.q left).2.2.queue).Sublist s.taken
    refine List.Sublist.trans ?_ hs
    rw [g1, List.append_assoc]
    exact (List.Sublist.refl _).append (g2.append (List.Sublist.refl _))

/-- The send queue, over all uses: the number of datagrams is bounded, the byte size exact,
and datagrams are put into packets in the order the application gave them, each at most
once. -/
theorem send_queue (size : α → Nat) (max : Nat) (ops : List (SendOp α)) :
    let s := sendRun size { q := { maxLen := max } } ops
    s.q.queue.length ≤ max ∧ s.q.bytes = (s.q.queue.map size).sum ∧ (s.sent ++ s.q.queue).Sublist s.taken := by
  have main : ∀ (ops : List (SendOp α)) (s : SendHist α), Inv size s.q → s.q.maxLen = max →
      (s.sent ++ s.q.queue).Sublist s.taken →
      Inv size (sendRun size s ops).q ∧ (sendRun size s ops).q.maxLen = max ∧
        ((sendRun size s ops).sent ++ (sendRun size s ops).q.queue).Sublist (sendRun size s ops).taken := by
    intro ops
    induction ops with
    | nil => intro s h1 h2 h3; exact ⟨h1, h2, h3⟩
    | cons op l ih =>
      intro s h1 h2 h3
      obtain ⟨g1, g2, g3⟩ := sendStep_inv size s op h1 h3
      exact ih _ g1 (g2.trans h2) g3
  obtain ⟨h1, h2, h3⟩ := main ops { q := { maxLen := max } } (inv_new size max) rfl (by simp)
  have := h1.len
  exact ⟨by omega, h1.bytes, h3⟩

theorem packAll (size : α → Nat) (m : Nat) (hall : ∀ d, size d ≤ m) : ∀ (n : Nat) (q : Queue α) (left : Nat),
    q.queue.length ≤ n → Inv size q → q.queue = (packLoop size m n q left).1 ++ (packLoop size m n q left).2.2.queue := by
  intro n
  induction n with
  | zero =>
    intro q left hn _
    have he : q.queue = [] := List.length_eq_zero_iff.mp (by omega)
    simp [packLoop]
  | succ n ih =>
    intro q left hn hi
    unfold packLoop Queue.peekLen
    rcases pop_spec size q hi with ⟨he, _⟩ | ⟨d, t, q', he, hp, hq, hm, hi'⟩
    · rw [he]; simp [he]
    · rw [he]
      simp only [List.head?_cons, Option.map_some]
      have hlen : q'.queue.length ≤ n := by rw [he] at hn; simp only [List.length_cons] at hn; rw [hq]; omega
      by_cases c1 : 1 + 2 + size d ≤ left
      · rw [if_pos c1, hp]
        have := ih q' (left - (1 + 2 + size d)) hlen hi'
        rw [hq] at this
        simp only [List.cons_append, List.cons.injEq, true_and]
        exact this
      · have c2 : ¬ (size d > m) := by have := hall d; omega
        rw [if_neg c1, if_neg c2]; simp [he]

/-- No datagram is lost in the queue: without purging, and if every one still fits in some
packet, what was taken is what was sent, followed by what is queued. -/
theorem nothing_lost (size : α → Nat) (max : Nat) (ops : List (SendOp α))
    (hops : ∀ op ∈ ops, match op with
      | .send _ _ => True
      | .purge _ => False
      | .pack m _ => ∀ d : α, size d ≤ m) :
    let s := sendRun size { q := { maxLen := max } } ops
    s.taken = s.sent ++ s.q.queue := by
  have main : ∀ (ops : List (SendOp α)) (s : SendHist α), (∀ op ∈ ops, match op with
      | .send _ _ => True
      | .purge _ => False
      | .pack m _ => ∀ d : α, size d ≤ m) → Inv size s.q → s.taken = s.sent ++ s.q.queue →
      (s.sent ++ s.q.queue).Sublist s.taken →
      (sendRun size s ops).taken = (sendRun size s ops).sent ++ (sendRun size s ops).q.queue := by
    intro ops
    induction ops with
    | nil => intro s _ _ h _; exact h
    | cons op l ih =>
      intro s hok hi ht hsub
      have hop := hok op (by simp)
      obtain ⟨g1, _, g3⟩ := sendStep_inv size s op hi hsub
      refine ih _ (fun o ho => hok o (by simp [ho])) g1 ?_ g3
      cases op with
      | send m d =>
        unfold sendStep dgramSend
        cases m with
        | none => exact ht
        | some m =>
          by_cases c : size d > m
          · simp only [if_pos c]; exact ht
          · simp only [if_neg c]
            rcases push_spec size s.q d hi with ⟨_, q', e, h1, h2, h3⟩ | ⟨_, e⟩
            · rw [e]
              show s.taken ++ [d] = s.sent ++ q'.queue
              rw [h1, ht, List.append_assoc]
            · rw [e]; exact ht
      | purge f => exact hop.elim
      | pack m left =>
        have hall : ∀ d : α, size d ≤ m := hop
        show s.taken = (s.sent ++ (pack size m s.q left).1) ++ (pack size m s.q left).2.2.queue
        rw [List.append_assoc]
        exact ht.trans (congrArg (s.sent ++ ·) (packAll size m hall s.q.queue.length s.q left (Nat.le_refl _) hi))
  exact main ops { q := { maxLen := max } } hops (inv_new size max) (by simp) (by simp)

/-! ### The receive queue -/

/-- What happens to the receive queue. -/
inductive RecvOp (α : Type) where
  | frame (d : α)
  | recv (len : Nat)

/-- State with the record of frames received and of datagrams delivered to the
application (those too long for its buffer are removed without delivery). -/
structure RecvHist (α : Type) where
  q : Queue α
  arrived : List α := []
  delivered : List α := []

def recvStep (size : α → Nat) (s : RecvHist α) : RecvOp α → RecvHist α
  | .frame d => match recvFrame size s.q true d with
    | .ok q => { s with q := q, arrived := s.arrived ++ [d] }
    | .error _ => s
  | .recv len => match dgramRecv size s.q len with
    | (.ok d, q) => { s with q := q, delivered := s.delivered ++ [d] }
    | (.error _, q) => { s with q := q }

def recvRun (size : α → Nat) (s : RecvHist α) (ops : List (RecvOp α)) : RecvHist α := ops.foldl (recvStep size) s

/-- With a queue of at least one place every frame is accepted; if the queue is full, the
oldest datagram makes room. -/
theorem frame_spec (size : α → Nat) (q : Queue α) (d : α) (hi : Inv size q) (hm : 0 < q.maxLen) :
    ∃ q', recvFrame size q true d = .ok q' ∧ q'.maxLen = q.maxLen ∧ Inv size q' ∧
      q'.queue = (if q.queue.length < q.maxLen then q.queue else q.queue.tail) ++ [d] := by
  unfold recvFrame
  simp only [Bool.true_eq_false, if_false]
  by_cases c : q.queue.length = q.maxLen
  · have hfull : q.isFull = true := by simp [Queue.isFull, c]
    have c' : ¬ (q.queue.length < q.maxLen) := by omega
    rw [if_pos hfull, if_neg c']
    rcases pop_spec size q hi with ⟨he, _⟩ | ⟨x, t, q', he, hp, hq, hmm, hi'⟩
    · rw [he] at c; simp at c; omega
    · rw [hp]
      simp only
      have hlt : q'.queue.length < q'.maxLen := by rw [hq, hmm, ← c, he]; simp
      rcases push_spec size q' d hi' with ⟨_, q2, e, h1, h2, h3⟩ | ⟨h, _⟩
      · exact ⟨q2, e, h2.trans hmm, h3, by rw [h1, hq, he]; rfl⟩
      · omega
  · have hfull : ¬ (q.isFull = true) := by simp [Queue.isFull, c]
    have hl := hi.len
    rw [if_neg hfull, if_pos (by omega)]
    rcases push_spec size q d hi with ⟨_, q2, e, h1, h2, h3⟩ | ⟨h, _⟩
    · exact ⟨q2, e, h2, h3, h1⟩
    · exact absurd h c

theorem recvStep_inv (size : α → Nat) (s : RecvHist α) (op : RecvOp α) (hi : Inv size s.q) (hm : 0 < s.q.maxLen)
    (hs : (s.delivered ++ s.q.queue).Sublist s.arrived) :
    Inv size (recvStep size s op).q ∧ (recvStep size s op).q.maxLen = s.q.maxLen ∧
      ((recvStep size s op).delivered ++ (recvStep size s op).q.queue).Sublist (recvStep size s op).arrived := by
  cases op with
  | frame d =>
    obtain ⟨q', e, h1, h2, h3⟩ := frame_spec size s.q d hi hm
    unfold recvStep
    simp only [e]
    refine ⟨h2, h1, ?_⟩
    show (s.delivered ++ q'.queue).Sublist (s.arrived ++ [d])
    rw [h3, ← List.append_assoc]
    refine List.Sublist.append (List.Sublist.trans ?_ hs) (List.Sublist.refl _)
    refine (List.Sublist.refl _).append ?_
    split
    · exact List.Sublist.refl _
    · exact List.tail_sublist _
  | recv len =>
    unfold recvStep dgramRecv
    rcases pop_spec size s.q hi with ⟨he, e⟩ | ⟨x, t, q', he, hp, hq, hmm, hi'⟩
    · simp only [e]; exact ⟨hi, by first | rfl | trivial, hs⟩
    · simp only [hp]
      rw [he] at hs
      by_cases c : size x > len
      · simp only [if_pos c]
        refine ⟨hi', hmm, ?_⟩
        show (s.delivered ++ q'.queue).Sublist s.arrived
        rw [hq]
        exact List.Sublist.trans ((List.Sublist.refl _).append (List.sublist_cons_self x t)) hs
      · simp only [if_neg c]
        refine ⟨hi', hmm, ?_⟩
        show ((s.delivered ++ [x]) ++ q'.queue).Sublist s.arrived
        rw [hq, List.append_assoc]
        exact hs

/-- The receive queue, over all uses: bounded, exact byte size, and the application gets
the datagrams in the order of arrival, each at most once. -/
theorem recv_queue (size : α → Nat) (max : Nat) (hm : 0 < max) (ops : List (RecvOp α)) :
    let s := recvRun size { q := { maxLen := max } } ops
    s.q.queue.length ≤ max ∧ s.q.bytes = (s.q.queue.map size).sum ∧ (s.delivered ++ s.q.queue).Sublist s.arrived := by
  have main : ∀ (ops : List (RecvOp α)) (s : RecvHist α), Inv size s.q → s.q.maxLen = max →
      (s.delivered ++ s.q.queue).Sublist s.arrived →
      Inv size (recvRun size s ops).q ∧ (recvRun size s ops).q.maxLen = max ∧
        ((recvRun size s ops).delivered ++ (recvRun size s ops).q.queue).Sublist (recvRun size s ops).arrived := by
    intro ops
    induction ops with
    | nil => intro s h1 h2 h3; exact ⟨h1, h2, h3⟩
    | cons op l ih =>
      intro s h1 h2 h3
      obtain ⟨g1, g2, g3⟩ := recvStep_inv size s op h1 (by omega) h3
      exact ih _ g1 (g2.trans h2) g3
  obtain ⟨h1, h2, h3⟩ := main ops { q := { maxLen := max } } (inv_new size max) rfl (by simp)
  have := h1.len
  exact ⟨by omega, h1.bytes, h3⟩

/-- What the queue holds for the application is the latest of what arrived: after frames
and no reads, the last `max` of them. -/
theorem keeps_latest (size : α → Nat) (max : Nat) (hm : 0 < max) (l : List α) :
    (recvRun size { q := { maxLen := max } } (l.map .frame)).q.queue = l.drop (l.length - max) := by
  have main : ∀ (l : List α) (s : RecvHist α), Inv size s.q → s.q.maxLen = max →
      (recvRun size s (l.map .frame)).q.queue = (s.q.queue ++ l).drop (s.q.queue.length + l.length - max) := by
    intro l
    induction l with
    | nil =>
      intro s hi hmx
      have := hi.len
      have e : s.q.queue.length + ([] : List α).length - max = 0 := by simp; omega
      rw [e]; simp [recvRun]
    | cons d l ih =>
      intro s hi hmx
      obtain ⟨q', e, h1, h2, h3⟩ := frame_spec size s.q d hi (by omega)
      have es : recvRun size s ((d :: l).map .frame) =
          recvRun size { s with q := q', arrived := s.arrived ++ [d] } (l.map .frame) := by
        show List.foldl (recvStep size) (recvStep size s (.frame d)) _ = _
        have : recvStep size s (.frame d) = { s with q := q', arrived := s.arrived ++ [d] } := by
          unfold recvStep; simp only [e]
        rw [this]; rfl
      rw [es, ih _ h2 (h1.trans hmx)]
      show (q'.queue ++ l).drop _ = _
      have hl := hi.len
      by_cases c : s.q.queue.length < s.q.maxLen
      · rw [if_pos c] at h3
        rw [h3, List.append_assoc]
        have : (s.q.queue ++ [d]).length + l.length - max = s.q.queue.length + (d :: l).length - max := by
          simp; omega
        simp only [List.length_append, List.length_cons, List.length_nil, List.cons_append, List.nil_append] at this ⊢
        rw [this]
      · rw [if_neg c] at h3
        cases hq : s.q.queue with
        | nil => rw [hq] at c; simp at c; omega
        | cons x t =>
          rw [hq] at h3 c hl
          simp only [List.tail_cons, List.length_cons] at h3 c hl
          rw [h3]
          have : (x :: t).length + (d :: l).length - max = (t ++ [d]).length + l.length - max + 1 := by simp; omega
          rw [this]
          simp
  have := main l { q := { maxLen := max } } (inv_new size max) rfl
  simpa using this

/-! Three places: the fourth datagram pushes out the first on the receive side and is
refused on the send side; a datagram too large for any packet is dropped when its turn
comes. -/

example : (recvRun (fun d : Nat => d) { q := { maxLen := 3 } }
    [.frame 10, .frame 20, .frame 30, .frame 40, .recv 100, .recv 5]).q = { queue := [40], maxLen := 3, bytes := 40 } := by decide
example : (recvRun (fun d : Nat => d) { q := { maxLen := 3 } }
    [.frame 10, .frame 20, .frame 30, .frame 40, .recv 100, .recv 5]).delivered = [20] := by decide
example : (sendRun (fun d : Nat => d) { q := { maxLen := 3 } }
    [.send (some 50) 10, .send (some 50) 45, .send (some 50) 30, .send (some 50) 4, .pack 40 46]).sent = [10, 30] := by decide
/-- A queue of no places refuses every frame. -/
example : recvFrame (fun d : Nat => d) { maxLen := 0 } true 7 = .error .done := rfl

end Verif.C44
