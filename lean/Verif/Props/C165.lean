import Verif.Small.DgramConn
import Verif.Props.C44

/-!
# C165: Datagrams and streams take turns, and datagrams arrive at most once
-/

namespace Verif.Props.C165
open Verif.Dgram Verif.C44

variable {α : Type}

/-! ### Turns -/

/-- The packet may carry data of the application. -/
structure Open (x : Slot) : Prop where
  app : x.app = true
  active : x.active = true
  closing : x.closing = false

/-- The next datagram fits. -/
def DgramFits (size : α → Nat) (t : Tx α) (x : Slot) : Prop := x.writable.isSome = true ∧ ∃ d, t.q.queue.head? = some d ∧ 3 + size d ≤ x.left

/-- A stream frame fits. -/
def StreamFits (x : Slot) : Prop := ∃ hdr, x.flush = .ready hdr ∧ hdr ≤ x.left ∧ 12 < x.left

theorem pack_nonempty (size : α → Nat) (m left : Nat) (q : Queue α) (d : α) (hd : q.queue.head? = some d) (hf : 3 + size d ≤ left) : (pack size m q left).1 ≠ [] := by
  unfold pack
  cases hq : q.queue with
  | nil => rw [hq] at hd; cases hd
  | cons a l =>
    rw [hq] at hd; injection hd with hd; subst hd
    simp only [List.length_cons, packLoop, Queue.peekLen, Queue.pop, hq, List.head?_cons, Option.map_some]
    rw [if_pos (by omega)]
    simp

theorem pack_none (size : α → Nat) (m left : Nat) (q : Queue α) (h : Inv size q) (he : (pack size m q left).1 = []) : (pack size m q left).2.1 = left := by
  obtain ⟨g, h1, h2, h3, h4, _⟩ := pack_spec size m left q h
  rw [he] at h4; simpa using h4

theorem packet_cases (size : α → Nat) (t : Tx α) (x : Slot) : t.packet size x = ([], streamFrame x x.left, { q := t.q, emit := true }) ∨
    ∃ m, t.packet size x = ((pack size m t.q x.left).1, (pack size m t.q x.left).1.isEmpty && streamFrame x (pack size m t.q x.left).2.1,
      { q := (pack size m t.q x.left).2.2, emit := (pack size m t.q x.left).1.isEmpty }) := by
  unfold Tx.packet
  generalize (if t.q.queue = [] then none else x.writable) = mx
  simp only
  generalize (t.emit && mx.isSome || !(!t.emit && decide (x.flush ≠ .empty)) && mx.isSome) = c
  by_cases h : x.app = true ∧ x.left > 2 ∧ x.closing = false ∧ x.active = true ∧ c = true
  · rw [if_pos h]
    cases mx with
    | none => left; simp
    | some m => right; exact ⟨m, rfl⟩
  · rw [if_neg h]; left; simp

/-- After a packet with datagrams, it is the turn of the streams. -/
theorem stream_turn (size : α → Nat) (t : Tx α) (x y : Slot) (hd : (t.packet size x).1 ≠ []) (q : Queue α) (ho : Open y) (hs : StreamFits y) :
    let r := ({ (t.packet size x).2.2 with q := q } : Tx α).packet size y
    r.1 = [] ∧ r.2.1 = true := by
  have he : (t.packet size x).2.2.emit = false := by
    show (List.isEmpty _) = false
    simpa [Tx.packet] using hd
  obtain ⟨hdr, h1, h2, h3⟩ := hs
  generalize (t.packet size x).2.2 = u at *
  simp [Tx.packet, he, h1, streamFrame, ho.app, ho.active, ho.closing, h2, h3]

/-- After a packet without datagrams, it is theirs. -/
theorem dgram_turn (size : α → Nat) (t : Tx α) (x y : Slot) (hd : (t.packet size x).1 = []) (q : Queue α) (ho : Open y)
    (hf : DgramFits size ({ (t.packet size x).2.2 with q := q } : Tx α) y) :
    let r := ({ (t.packet size x).2.2 with q := q } : Tx α).packet size y
    r.1 ≠ [] ∧ r.2.1 = false := by
  have he : (t.packet size x).2.2.emit = true := by
    show (List.isEmpty _) = true
    simpa [Tx.packet] using hd
  obtain ⟨hw, d, h1, h2⟩ := hf
  simp only at h1
  obtain ⟨m, hm⟩ := Option.isSome_iff_exists.mp hw
  have hne : q.queue ≠ [] := by intro h; rw [h] at h1; cases h1
  have hn := pack_nonempty size m y.left q d h1 h2
  have h2' : 2 < y.left := by omega
  generalize (t.packet size x).2.2 = u at *
  simp [Tx.packet, he, hne, ho.app, ho.active, ho.closing, hm, h2', hn]

/-- A packet with room for what is next carries something, if a stream that is waiting can be served. -/
theorem work_partial (size : α → Nat) (t : Tx α) (x : Slot) (hi : Inv size t.q) (ho : Open x) (hs : x.flush = .empty ∨ StreamFits x) (hf : DgramFits size t x ∨ StreamFits x) :
    (t.packet size x).1 ≠ [] ∨ (t.packet size x).2.1 = true := by
  by_cases hp : (t.packet size x).1 = []
  · right
    rcases hs with hs | hs
    · rcases hf with ⟨hw, d, h1, h2⟩ | ⟨hdr, h1, _⟩
      · exfalso
        obtain ⟨m, hm⟩ := Option.isSome_iff_exists.mp hw
        have hne : t.q.queue ≠ [] := by intro h; rw [h] at h1; cases h1
        have hn := pack_nonempty size m x.left t.q d h1 h2
        have h2' : 2 < x.left := by omega
        simp [Tx.packet, hne, ho.app, ho.active, ho.closing, hm, h2', hs] at hp
        exact hn hp
      · rw [hs] at h1; cases h1
    · obtain ⟨hdr, h1, h2, h3⟩ := hs
      have key : ∀ (l : Nat), l = x.left → streamFrame x l = true := by
        intro l hl; subst hl; simp [streamFrame, h1, h2, h3, ho.app, ho.active, ho.closing]
      rcases packet_cases size t x with h | ⟨m, h⟩
      · rw [h]; exact key _ rfl
      · rw [h] at hp ⊢
        simp only at hp ⊢
        rw [hp]
        simp only [List.isEmpty_nil, Bool.true_and]
        exact key _ (pack_none size m x.left t.q hi hp)
  · exact .inl hp

/-- Otherwise it may stay empty, though a datagram would fit: the turn was that of a stream that the peer has stopped. -/
theorem idle : ∃ (t : Tx Nat) (x : Slot), Inv id t.q ∧ Open x ∧ DgramFits id t x ∧ t.packet id x = ([], false, { t with emit := true }) :=
  ⟨{ q := { queue := [5], maxLen := 9, bytes := 5 }, emit := false }, { left := 1000, writable := some 1200, flush := .stopped }, ⟨by decide, by decide⟩, ⟨rfl, rfl, rfl⟩,
    ⟨rfl, 5, rfl, by decide⟩, by decide⟩

/-- A packet that can carry neither, for instance a probe of the MTU, or one on another path. -/
def Closed (x : Slot) : Prop := x.app = false ∨ x.active = false ∨ x.left ≤ 2

theorem closed_packet (size : α → Nat) (t : Tx α) (x : Slot) (h : Closed x) : t.packet size x = ([], false, { t with emit := true }) := by
  rcases h with h | h | h
  · simp [Tx.packet, streamFrame, h]
  · simp [Tx.packet, streamFrame, h]
  · have : ¬ (2 < x.left) := by omega
    have h2 : ¬ (12 < x.left) := by omega
    simp [Tx.packet, streamFrame, this, h2]

def probe : Slot := { left := 0, writable := some 1200, flush := .ready 10 }
def usual : Slot := { left := 1000, writable := some 1200, flush := .ready 10 }

/-- Streams may starve: with such a packet after each of the others, only datagrams are sent, however long a stream waits. -/
theorem stream_starves (n : Nat) : ∀ (bytes : Nat), (Tx.packets (fun _ => 900) { q := { queue := List.replicate n (), maxLen := n, bytes := bytes } } (List.replicate n [usual, probe]).flatten).1 =
    (List.replicate n [([()], false), ([], false)]).flatten := by
  suffices h : ∀ (n max bytes : Nat), (Tx.packets (fun _ => 900) { q := { queue := List.replicate n (), maxLen := max, bytes := bytes } } (List.replicate n [usual, probe]).flatten).1 =
      (List.replicate n [([()], false), ([], false)]).flatten from fun b => h n n b
  intro n
  induction n with
  | zero => intro _ _; rfl
  | succ n ih =>
    intro max bytes
    have h1 : Tx.packet (fun _ => 900) { q := { queue := List.replicate (n + 1) (), maxLen := max, bytes := bytes } } usual =
        ([()], false, { q := { queue := List.replicate n (), maxLen := max, bytes := bytes - 900 }, emit := false }) := by
      cases n with
      | zero => simp [Tx.packet, usual, pack, packLoop, Queue.peekLen, Queue.pop, List.replicate_succ]
      | succ n => simp [Tx.packet, usual, pack, packLoop, Queue.peekLen, Queue.pop, List.replicate_succ]
    have h2 := closed_packet (fun _ => 900) ({ q := { queue := List.replicate n (), maxLen := max, bytes := bytes - 900 }, emit := false } : Tx Unit) probe (.inr (.inr (by decide)))
    rw [List.replicate_succ (a := [usual, probe]), List.flatten_cons, List.replicate_succ (a := [([()], false), ([], false)]), List.flatten_cons]
    simp only [List.cons_append, List.nil_append, Tx.packets, h1, h2]
    rw [ih]

/-- So may datagrams: one of the largest size that is taken waits as long as each packet carries some other frame first. -/
theorem dgram_starves (n : Nat) (left : Nat) (hl : left < 1203) (q : Queue Unit) (hq : q.queue = [()]) (e : Bool) :
    ∀ p ∈ (Tx.packets (fun _ => 1200) { q := q, emit := e } (List.replicate n { left, writable := some 1200, flush := .ready 10 })).1, p.1 = [] := by
  induction n generalizing e with
  | zero => intro p hp; cases hp
  | succ n ih =>
    intro p hp
    have h1 : (pack (fun _ => 1200) 1200 q left) = ([], left, q) := by
      simp only [pack, hq, List.length_cons, List.length_nil, packLoop, Queue.peekLen, List.head?_cons, Option.map_some]
      rw [if_neg (by omega), if_neg (by omega)]
    have h2 : (Tx.packet (fun _ => 1200) { q := q, emit := e } { left, writable := some 1200, flush := .ready 10 }).1 = [] ∧
        (Tx.packet (fun _ => 1200) { q := q, emit := e } { left, writable := some 1200, flush := .ready 10 }).2.2 = { q := q, emit := true } := by
      simp only [Tx.packet, hq]
      split <;> simp [h1]
    rw [List.replicate_succ] at hp
    simp only [Tx.packets] at hp
    rcases List.mem_cons.mp hp with hp | hp
    · rw [hp]; exact h2.1
    · rw [h2.2] at hp; exact ih true p hp

/-! ### From end to end -/

/-- What was handed over and is not lost, oldest first. -/
def whole (s : Way α) : List α := s.given ++ s.rx.queue ++ s.wire.flatten ++ s.tx.q.queue

theorem packet_split (size : α → Nat) (t : Tx α) (x : Slot) (hi : Inv size t.q) :
    ((t.packet size x).1 ++ (t.packet size x).2.2.q.queue).Sublist t.q.queue ∧ Inv size (t.packet size x).2.2.q ∧ (t.packet size x).2.2.q.maxLen = t.q.maxLen := by
  rcases packet_cases size t x with h | ⟨m, h⟩
  · rw [h]; exact ⟨List.Sublist.refl _, hi, rfl⟩
  · rw [h]
    obtain ⟨g, h1, h2, _, _, h5, h6, _⟩ := pack_spec size m x.left t.q hi
    refine ⟨?_, h6, h5⟩
    simp only
    conv => rhs; rw [h1]
    exact h2.append (List.Sublist.refl _)

theorem recvFrame_split (size : α → Nat) (q q' : Queue α) (en : Bool) (d : α) (hi : Inv size q) (h : recvFrame size q en d = .ok q') :
    (q'.queue).Sublist (q.queue ++ [d]) ∧ Inv size q' ∧ q'.maxLen = q.maxLen := by
  unfold recvFrame at h
  split at h
  · cases h
  · simp only at h
    split at h
    · rcases pop_spec size q hi with ⟨_, hp⟩ | ⟨a, t, q2, he, hp, hq, hm, hi2⟩
      · rw [hp] at h
        rcases push_spec size q d hi with ⟨_, q3, e, h1, h2, h3⟩ | ⟨_, e⟩
        · rw [e] at h; injection h with h; subst h
          exact ⟨by rw [h1]; exact List.Sublist.refl _, h3, h2⟩
        · simp only [e] at h; cases h
      · rw [hp] at h
        simp only at h
        rcases push_spec size q2 d hi2 with ⟨_, q3, e, h1, h2, h3⟩ | ⟨_, e⟩
        · rw [e] at h; injection h with h; subst h
          refine ⟨?_, h3, by rw [h2, hm]⟩
          rw [h1, hq, he]
          exact (List.sublist_cons_self a t).append (List.Sublist.refl _)
        · simp only [e] at h; cases h
    · rcases push_spec size q d hi with ⟨_, q3, e, h1, h2, h3⟩ | ⟨_, e⟩
      · rw [e] at h; injection h with h; subst h
        exact ⟨by rw [h1]; exact List.Sublist.refl _, h3, h2⟩
      · simp only [e] at h; cases h

theorem recvPkt_split (size : α → Nat) (en : Bool) : ∀ (l : List α) (q : Queue α), Inv size q →
    ((recvPkt size q en l).1.queue).Sublist (q.queue ++ l) ∧ Inv size (recvPkt size q en l).1 ∧ (recvPkt size q en l).1.maxLen = q.maxLen
  | [], q, hi => ⟨by simp [recvPkt], hi, rfl⟩
  | d :: l, q, hi => by
    unfold recvPkt
    cases hr : recvFrame size q en d with
    | ok q' =>
      obtain ⟨h1, h2, h3⟩ := recvFrame_split size q q' en d hi hr
      obtain ⟨k1, k2, k3⟩ := recvPkt_split size en l q' h2
      refine ⟨k1.trans ?_, k2, by rw [k3, h3]⟩
      rw [show q.queue ++ d :: l = (q.queue ++ [d]) ++ l by simp]
      exact h1.append (List.Sublist.refl _)
    | error e => exact ⟨by simp, hi, rfl⟩

theorem dgramRecv_split (size : α → Nat) (q : Queue α) (len : Nat) (hi : Inv size q) :
    (∃ d, (dgramRecv size q len).1 = .ok d ∧ q.queue = d :: (dgramRecv size q len).2.queue ∨ (∃ e, (dgramRecv size q len).1 = .error e) ∧ ((dgramRecv size q len).2.queue).Sublist q.queue) ∨
      ((∃ e, (dgramRecv size q len).1 = .error e) ∧ ((dgramRecv size q len).2.queue).Sublist q.queue) := by
  unfold dgramRecv
  rcases pop_spec size q hi with ⟨_, hp⟩ | ⟨a, t, q2, he, hp, hq, hm, hi2⟩
  · rw [hp]; exact .inr ⟨⟨_, rfl⟩, List.Sublist.refl _⟩
  · rw [hp]
    simp only
    split
    · right; refine ⟨⟨_, rfl⟩, ?_⟩; simp only; rw [hq, he]; exact List.sublist_cons_self a t
    · left; exact ⟨a, .inl ⟨rfl, by simp only; rw [hq, he]⟩⟩

theorem dgramRecv_inv (size : α → Nat) (q : Queue α) (len : Nat) (hi : Inv size q) : Inv size (dgramRecv size q len).2 ∧ (dgramRecv size q len).2.maxLen = q.maxLen := by
  unfold dgramRecv
  rcases pop_spec size q hi with ⟨_, hp⟩ | ⟨a, t, q2, he, hp, hq, hm, hi2⟩
  · rw [hp]; exact ⟨hi, rfl⟩
  · rw [hp]
    simp only
    split <;> exact ⟨hi2, hm⟩

theorem dgramSend_split (size : α → Nat) (q q' : Queue α) (w : Option Nat) (d : α) (hi : Inv size q) (h : dgramSend size q w d = .ok q') :
    q'.queue = q.queue ++ [d] ∧ Inv size q' ∧ q'.maxLen = q.maxLen := by
  unfold dgramSend at h
  cases w with
  | none => cases h
  | some m =>
    simp only at h
    split at h
    · cases h
    · rcases push_spec size q d hi with ⟨_, q3, e, h1, h2, h3⟩ | ⟨_, e⟩
      · rw [e] at h; injection h with h; subst h
        exact ⟨h1, h3, h2⟩
      · rw [e] at h; cases h

structure Good (size : α → Nat) (s : Way α) : Prop where
  tx : Inv size s.tx.q
  rx : Inv size s.rx

theorem good_step (size : α → Nat) (en : Bool) (s : Way α) (op : WayOp α) (h : Good size s) : Good size (s.step size en op) := by
  cases op with
  | send w d =>
    simp only [Way.step]
    cases hq : dgramSend size s.tx.q w d with
    | ok q => exact ⟨(dgramSend_split size _ _ w d h.tx hq).2.1, h.rx⟩
    | error e => exact h
  | purge f => exact ⟨(purge_spec size s.tx.q f h.tx).2.2, h.rx⟩
  | packet x => exact ⟨(packet_split size s.tx x h.tx).2.1, h.rx⟩
  | deliver i => exact ⟨h.tx, (recvPkt_split size en _ s.rx h.rx).2.1⟩
  | lose i => exact ⟨h.tx, h.rx⟩
  | recv len =>
    have := (dgramRecv_inv size s.rx len h.rx).1
    simp only [Way.step]
    split
    · rename_i hq; rw [hq] at this; exact ⟨h.tx, this⟩
    · rename_i hq; rw [hq] at this; exact ⟨h.tx, this⟩

theorem erase_count [DecidableEq α] (d : α) : ∀ (l : List (List α)) (i : Nat), (l.eraseIdx i).flatten.count d + ((l[i]?).getD []).count d = l.flatten.count d
  | [], i => by simp
  | a :: l, 0 => by simp; omega
  | a :: l, i + 1 => by
    have := erase_count d l i
    simp only [List.eraseIdx_cons_succ, List.flatten_cons, List.count_append, List.getElem?_cons_succ]
    omega

/-- The number of times a datagram is there never exceeds the number of times it was handed over. -/
theorem count_step [DecidableEq α] (size : α → Nat) (en : Bool) (s : Way α) (op : WayOp α) (h : Good size s) (d : α) (hc : (whole s).count d ≤ s.taken.count d) :
    (whole (s.step size en op)).count d ≤ (s.step size en op).taken.count d := by
  simp only [whole, List.count_append] at hc ⊢
  cases op with
  | send w e =>
    simp only [Way.step]
    cases hq : dgramSend size s.tx.q w e with
    | ok q =>
      have := (dgramSend_split size _ _ w e h.tx hq).1
      simp only [this, List.count_append]; omega
    | error e => exact hc
  | purge f =>
    simp only [Way.step]
    have := (purge_spec size s.tx.q f h.tx).1
    rw [this]
    have := List.Sublist.count_le d (List.filter_sublist (p := fun d => !f d) (l := s.tx.q.queue))
    omega
  | packet x =>
    have := (packet_split size s.tx x h.tx).1.count_le d
    simp only [Way.step, List.flatten_append, List.flatten_cons, List.flatten_nil, List.append_nil, List.count_append] at this ⊢
    omega
  | deliver i =>
    have h1 := (recvPkt_split size en ((s.wire[i]?).getD []) s.rx h.rx).1.count_le d
    have h2 := erase_count d s.wire i
    simp only [Way.step, List.count_append] at h1 ⊢
    omega
  | lose i =>
    have h2 := erase_count d s.wire i
    simp only [Way.step]
    omega
  | recv len =>
    simp only [Way.step]
    have hs := dgramRecv_split size s.rx len h.rx
    split
    · rename_i e q hq
      rw [hq] at hs
      rcases hs with ⟨e', ⟨h1, h2⟩ | ⟨⟨_, h1⟩, _⟩⟩ | ⟨⟨_, h1⟩, _⟩
      · injection h1 with h1; subst h1
        simp only at h2
        have : s.rx.queue.count d = [e].count d + q.queue.count d := by rw [h2, ← List.singleton_append, List.count_append]
        simp only [List.count_append]
        omega
      · cases h1
      · cases h1
    · rename_i e q hq
      rw [hq] at hs
      rcases hs with ⟨e', ⟨h1, h2⟩ | ⟨_, h2⟩⟩ | ⟨_, h2⟩
      · cases h1
      · have := h2.count_le d; simp only at this ⊢; omega
      · have := h2.count_le d; simp only at this ⊢; omega

theorem run_inv [DecidableEq α] (size : α → Nat) (en : Bool) (ops : List (WayOp α)) : ∀ (s : Way α), Good size s → (∀ d, (whole s).count d ≤ s.taken.count d) →
    Good size (s.run size en ops) ∧ ∀ d, (whole (s.run size en ops)).count d ≤ (s.run size en ops).taken.count d := by
  induction ops with
  | nil => intro s h hc; exact ⟨h, hc⟩
  | cons op ops ih => intro s h hc; exact ih _ (good_step size en s op h) (fun d => count_step size en s op h d (hc d))

def start (m k : Nat) : Way α := { tx := { q := { maxLen := m } }, rx := { maxLen := k } }

theorem good_start (size : α → Nat) (m k : Nat) : Good size (start m k : Way α) := ⟨inv_new size m, inv_new size k⟩

/-- Over any network, the other application gets no datagram that was not handed over, and none more often. -/
theorem at_most_once [DecidableEq α] (size : α → Nat) (en : Bool) (m k : Nat) (ops : List (WayOp α)) (d : α) :
    ((start m k).run size en ops).given.count d ≤ ((start m k : Way α).run size en ops).taken.count d := by
  have := (run_inv size en ops (start m k) (good_start size m k) (fun d => by simp [start, whole])).2 d
  simp only [whole, List.count_append] at this
  omega

/-- The network keeps the order. -/
def Ordered (ops : List (WayOp α)) : Prop := ∀ op ∈ ops, match op with
  | .deliver i => i = 0
  | _ => True

theorem lose_sublist : ∀ (l : List (List α)) (i : Nat), ((l.eraseIdx i).flatten).Sublist l.flatten
  | [], i => by simp
  | a :: l, 0 => by simp
  | a :: l, i + 1 => by
    simp only [List.eraseIdx_cons_succ, List.flatten_cons]
    exact (List.Sublist.refl _).append (lose_sublist l i)

theorem order_step (size : α → Nat) (en : Bool) (s : Way α) (op : WayOp α) (h : Good size s) (ho : ∀ i, op = .deliver i → i = 0) (hs : (whole s).Sublist s.taken) :
    (whole (s.step size en op)).Sublist (s.step size en op).taken := by
  unfold whole at hs ⊢
  cases op with
  | send w e =>
    simp only [Way.step]
    cases hq : dgramSend size s.tx.q w e with
    | ok q =>
      have := (dgramSend_split size _ _ w e h.tx hq).1
      simp only [this]
      rw [← List.append_assoc]
      exact hs.append (List.Sublist.refl _)
    | error e => exact hs
  | purge f =>
    simp only [Way.step]
    rw [(purge_spec size s.tx.q f h.tx).1]
    exact ((List.Sublist.refl _).append List.filter_sublist).trans hs
  | packet x =>
    have := (packet_split size s.tx x h.tx).1
    simp only [Way.step, List.flatten_append, List.flatten_cons, List.flatten_nil, List.append_nil]
    refine List.Sublist.trans ?_ hs
    rw [show s.given ++ s.rx.queue ++ (s.wire.flatten ++ (s.tx.packet size x).1) ++ (s.tx.packet size x).2.2.q.queue =
      (s.given ++ s.rx.queue ++ s.wire.flatten) ++ ((s.tx.packet size x).1 ++ (s.tx.packet size x).2.2.q.queue) by simp]
    exact (List.Sublist.refl _).append this
  | deliver i =>
    have hi := ho i rfl
    subst hi
    have h1 := (recvPkt_split size en ((s.wire[0]?).getD []) s.rx h.rx).1
    simp only [Way.step]
    refine List.Sublist.trans ?_ hs
    refine List.Sublist.append ?_ (List.Sublist.refl _)
    rw [List.append_assoc, List.append_assoc]
    refine (List.Sublist.refl _).append ?_
    cases hw : s.wire with
    | nil => rw [hw] at h1; simpa using h1
    | cons a l =>
      rw [hw] at h1
      simp only [List.eraseIdx_cons_zero, List.flatten_cons]
      rw [← List.append_assoc]
      refine List.Sublist.append ?_ (List.Sublist.refl _)
      simpa using h1
  | lose i =>
    simp only [Way.step]
    exact (((List.Sublist.refl _).append (lose_sublist s.wire i)).append (List.Sublist.refl _)).trans hs
  | recv len =>
    simp only [Way.step]
    have hr := dgramRecv_split size s.rx len h.rx
    have drop : ∀ q : Queue α, (q.queue).Sublist s.rx.queue → (s.given ++ q.queue ++ s.wire.flatten ++ s.tx.q.queue).Sublist s.taken := by
      intro q hq
      exact ((((List.Sublist.refl _).append hq).append (List.Sublist.refl _)).append (List.Sublist.refl _)).trans hs
    split
    · rename_i e q hq
      rw [hq] at hr
      rcases hr with ⟨e', ⟨h1, h2⟩ | ⟨⟨_, h1⟩, _⟩⟩ | ⟨⟨_, h1⟩, _⟩
      · injection h1 with h1; subst h1
        simp only at h2
        rw [h2] at hs
        simpa using hs
      · cases h1
      · cases h1
    · rename_i e q hq
      rw [hq] at hr
      rcases hr with ⟨e', ⟨h1, h2⟩ | ⟨_, h2⟩⟩ | ⟨_, h2⟩
      · cases h1
      · exact drop q h2
      · exact drop q h2

theorem order_run (size : α → Nat) (en : Bool) (ops : List (WayOp α)) : ∀ (s : Way α), Ordered ops → Good size s → (whole s).Sublist s.taken → (whole (s.run size en ops)).Sublist (s.run size en ops).taken := by
  induction ops with
  | nil => intro s _ _ h; exact h
  | cons op ops ih =>
    intro s ho h hs
    refine ih _ (fun o h => ho o (List.mem_cons_of_mem _ h)) (good_step size en s op h) (order_step size en s op h ?_ hs)
    intro i hi; subst hi; exact ho _ List.mem_cons_self

/-- If the network keeps the order, so does the connection. -/
theorem in_order (size : α → Nat) (en : Bool) (m k : Nat) (ops : List (WayOp α)) (ho : Ordered ops) :
    ((start m k).run size en ops).given.Sublist ((start m k : Way α).run size en ops).taken := by
  have h := order_run size en ops (start m k) ho (good_start size m k) (by simp [start, whole])
  refine List.Sublist.trans ?_ h
  unfold whole
  rw [List.append_assoc, List.append_assoc]
  exact List.sublist_append_left _ _

/-! ### Receiving -/

/-- With a receive queue of at least one, every packet with datagrams is taken; the latest are kept. -/
theorem recv_ok (size : α → Nat) : ∀ (l : List α) (q : Queue α), Inv size q → 0 < q.maxLen →
    (recvPkt size q true l).2 = none ∧ (recvPkt size q true l).1.queue = (q.queue ++ l).drop (q.queue.length + l.length - q.maxLen)
  | [], q, hi, hm => by
    refine ⟨rfl, ?_⟩
    have := hi.len
    simp only [recvPkt, List.append_nil, List.length_nil, Nat.add_zero]
    rw [show q.queue.length - q.maxLen = 0 by omega]; rfl
  | d :: l, q, hi, hm => by
    have key : ∃ q', recvFrame size q true d = .ok q' ∧ Inv size q' ∧ q'.maxLen = q.maxLen ∧ q'.queue = (q.queue ++ [d]).drop (q.queue.length + 1 - q.maxLen) := by
      have hlen := hi.len
      unfold recvFrame
      simp only [Bool.true_eq_false, if_false]
      unfold Queue.isFull
      by_cases hf : q.queue.length = q.maxLen
      · rcases pop_spec size q hi with ⟨he, _⟩ | ⟨a, t, q2, he, hp, hq, hm2, hi2⟩
        · rw [he] at hf; simp at hf; omega
        · simp only [hf, beq_self_eq_true, if_true, hp]
          rcases push_spec size q2 d hi2 with ⟨_, q3, e, h1, h2, h3⟩ | ⟨h1, _⟩
          · refine ⟨q3, e, h3, by rw [h2, hm2], ?_⟩
            rw [h1, hq, he, show q.maxLen + 1 - q.maxLen = 1 by omega]; rfl
          · rw [hq, hm2, ← hf, he] at h1; simp at h1
      · have hb : (q.queue.length == q.maxLen) = false := by simpa using hf
        simp only [hb, Bool.false_eq_true, if_false]
        rcases push_spec size q d hi with ⟨_, q3, e, h1, h2, h3⟩ | ⟨h1, _⟩
        · refine ⟨q3, e, h3, h2, ?_⟩
          rw [h1, show q.queue.length + 1 - q.maxLen = 0 by omega]; rfl
        · exact absurd h1 hf
    obtain ⟨q', h1, h2, h3, h4⟩ := key
    obtain ⟨k1, k2⟩ := recv_ok size l q' h2 (by omega)
    simp only [recvPkt, h1]
    refine ⟨k1, ?_⟩
    rw [k2, h4, h3]
    have hlen := hi.len
    simp only [List.length_drop, List.length_append, List.length_cons, List.length_nil]
    have e2 : q.queue ++ d :: l = (q.queue ++ [d]) ++ l := by simp
    rw [e2]
    by_cases hb : q.queue.length + 1 ≤ q.maxLen
    · rw [show q.queue.length + 1 - q.maxLen = 0 by omega]
      simp only [List.drop_zero]
      congr 1
      omega
    · rw [show q.queue.length + 1 - q.maxLen = 1 by omega]
      rw [← List.drop_append_of_le_length (l₂ := l) (by simp), List.drop_drop]
      congr 1
      omega

/-- With a receive queue of zero, every packet with a DATAGRAM frame fails: its remaining frames are not read, and it is not
acknowledged. -/
theorem zero_queue (size : α → Nat) (d : α) (l : List α) : recvPkt size { maxLen := 0 } true (d :: l) = ({ maxLen := 0 }, some .done) := rfl

/-- Three datagrams, two packets that arrive in the wrong order, and a queue of two. -/
example : let s := (start 9 2).run id true ([.send (some 1200) 700, .send (some 1200) 600, .send (some 1200) 500, .packet usual, .packet usual, .packet usual, .deliver 2, .deliver 0, .recv 2000, .recv 2000] : List (WayOp Nat))
    s.given = [600, 700] ∧ s.tx.q.queue = [500] := by decide

end Verif.Props.C165
