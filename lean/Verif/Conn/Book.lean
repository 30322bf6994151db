import Verif.Conn.Queue

/-! The book-keeping of streams: identity, counters and queues. -/

namespace Verif.Conn
open Verif Verif.Stream

/-- What is fixed for a stream when it is created. -/
structure Static (sv : Bool) (id : Nat) (s : Stream) : Prop where
  key : s.key.id = id
  bidi : s.bidi = isBidi id
  loc : s.local' = isLocal id sv

/-- The ordinal of the stream has been counted. -/
def Counted (sv : Bool) (k : Bool → Counts) (id : Nat) : Prop :=
  (isLocal id sv = true → id / 4 < (k (isBidi id)).localOpened) ∧
  (isLocal id sv = false → id / 4 < (k (isBidi id)).peerOpened)

/-- Number of peer-initiated streams of a kind in a map. -/
def credits (sv : Bool) (G : List (Nat × Stream)) (kind : Bool) : Nat :=
  (G.filter (fun p => isBidi p.1 == kind && !isLocal p.1 sv)).length

/-- The counters after the stream `id` has been counted. -/
def Counts.opened (k : Counts) (loc : Bool) (id : Nat) : Counts :=
  { k with
    localOpened := if loc then max k.localOpened (id / 4 + 1) else k.localOpened
    peerOpened := if loc then k.peerOpened else max k.peerOpened (id / 4 + 1) }

/-- Live streams `L`, collected streams `G` and counters `k` fit together. -/
structure WF (sv : Bool) (L G : List (Nat × Stream)) (k : Bool → Counts) : Prop where
  ndL : (Assoc.keys L).Nodup
  ndG : (Assoc.keys G).Nodup
  disj : ∀ id ∈ Assoc.keys L, id ∉ Assoc.keys G
  static : ∀ id s, Assoc.get L id = some s → Static sv id s
  staticG : ∀ id s, Assoc.get G id = some s → Static sv id s
  ordL : ∀ id ∈ Assoc.keys L, Counted sv k id
  ordG : ∀ id ∈ Assoc.keys G, Counted sv k id
  limP : ∀ b, (k b).peerOpened ≤ (k b).localMax
  limL : ∀ b, (k b).localOpened ≤ (k b).peerMax
  next : ∀ b, (k b).localMax ≤ (k b).localMaxNext
  credit : ∀ b, (k b).localMaxNext = (k b).initial + credits sv G b

/-- A queue holds live streams under their current priority, in serving order. -/
structure QOk (L : List (Nat × Stream)) (q : List Key) : Prop where
  live : ∀ k ∈ q, ∃ s, Assoc.get L k.id = some s ∧ s.key = k
  ord : Ordered q

theorem WF.put {sv : Bool} {L G : List (Nat × Stream)} {k : Bool → Counts} (h : WF sv L G k)
    {id : Nat} {s s' : Stream} (hg : Assoc.get L id = some s) (hs : Static sv id s') :
    WF sv (Assoc.put L id s') G k where
  ndL := Assoc.nodup_put h.ndL _ _
  ndG := h.ndG
  disj := by rw [Assoc.keys_put_of_get hg]; exact h.disj
  static := by
    intro i x hx
    rw [Assoc.get_put] at hx
    split at hx
    · next e => subst e; obtain rfl := Option.some.inj hx; exact hs
    · exact h.static i x hx
  staticG := h.staticG
  ordL := by rw [Assoc.keys_put_of_get hg]; exact h.ordL
  ordG := h.ordG
  limP := h.limP
  limL := h.limL
  next := h.next
  credit := h.credit

theorem WF.collect {sv : Bool} {L G : List (Nat × Stream)} {k k' : Bool → Counts} (h : WF sv L G k)
    {id : Nat} {s s' : Stream} (hg : Assoc.get L id = some s) (hs : Static sv id s')
    (hk : ∀ b, k' b = if s'.local' = false ∧ b = isBidi id then
      { k b with localMaxNext := (k b).localMaxNext + 1 } else k b) :
    WF sv (Assoc.del L id) (Assoc.put G id s') k' := by
  have hid := Assoc.get_some_keys hg
  have hG : Assoc.get G id = none := (Assoc.get_none_iff _ _).mpr (h.disj id hid)
  have e1 : ∀ b, (k' b).localOpened = (k b).localOpened := by intro b; rw [hk]; split <;> rfl
  have e2 : ∀ b, (k' b).peerOpened = (k b).peerOpened := by intro b; rw [hk]; split <;> rfl
  have e3 : ∀ b, (k' b).peerMax = (k b).peerMax := by intro b; rw [hk]; split <;> rfl
  have e4 : ∀ b, (k' b).localMax = (k b).localMax := by intro b; rw [hk]; split <;> rfl
  have e5 : ∀ b, (k' b).initial = (k b).initial := by intro b; rw [hk]; split <;> rfl
  have hc : ∀ i, Counted sv k i → Counted sv k' i := by
    intro i hi; unfold Counted at hi ⊢; rw [e1, e2]; exact hi
  refine ⟨Assoc.nodup_del h.ndL _, Assoc.nodup_put h.ndG _ _, ?_, ?_, ?_, ?_, ?_, ?_, ?_, ?_, ?_⟩
  · intro i hi
    rw [Assoc.keys_del_mem h.ndL] at hi
    rw [Assoc.keys_put_mem, not_or]
    exact ⟨hi.1, h.disj i hi.2⟩
  · intro i x hx
    by_cases e : i = id
    · subst e; rw [Assoc.get_del_self h.ndL] at hx; simp at hx
    · rw [Assoc.get_del_ne _ e] at hx; exact h.static i x hx
  · intro i x hx
    rw [Assoc.get_put] at hx
    split at hx
    · next e => subst e; obtain rfl := Option.some.inj hx; exact hs
    · exact h.staticG i x hx
  · intro i hi
    rw [Assoc.keys_del_mem h.ndL] at hi
    exact hc i (h.ordL i hi.2)
  · intro i hi
    rcases (Assoc.keys_put_mem _ _ _ _).mp hi with rfl | hi
    · exact hc _ (h.ordL _ hid)
    · exact hc _ (h.ordG _ hi)
  · intro b; rw [e2, e4]; exact h.limP b
  · intro b; rw [e1, e3]; exact h.limL b
  · intro b
    have := h.next b
    rw [hk]; split
    · exact Nat.le_succ_of_le this
    · exact this
  · intro b
    have := h.credit b
    rw [Assoc.put_of_none hG]
    simp only [credits, List.filter_append, List.length_append] at this ⊢
    rw [e5]
    rw [hk]
    by_cases hb : s'.local' = false ∧ b = isBidi id
    · rw [if_pos hb]
      have hl : isLocal id sv = false := hs.loc ▸ hb.1
      simp [hb.2, hl, this] at this ⊢
      omega
    · rw [if_neg hb]
      have : List.filter (fun p : Nat × Stream => isBidi p.1 == b && !isLocal p.1 sv) [(id, s')] = [] := by
        simp only [List.filter_cons, List.filter_nil]
        split
        · next hh =>
          simp only [Bool.and_eq_true, beq_iff_eq, Bool.not_eq_true'] at hh
          exact absurd ⟨hs.loc.trans hh.2, hh.1.symm⟩ hb
        · rfl
      rw [this]; simp_all

/-- Changes of counters that create and collect nothing. -/
theorem WF.recount {sv : Bool} {L G : List (Nat × Stream)} {k k' : Bool → Counts} (h : WF sv L G k)
    (h1 : ∀ b, (k' b).localOpened = (k b).localOpened) (h2 : ∀ b, (k' b).peerOpened = (k b).peerOpened)
    (h3 : ∀ b, (k b).peerMax ≤ (k' b).peerMax) (h4 : ∀ b, (k b).localMax ≤ (k' b).localMax)
    (h5 : ∀ b, (k' b).localMax ≤ (k' b).localMaxNext)
    (h6 : ∀ b, (k' b).localMaxNext = (k b).localMaxNext) (h7 : ∀ b, (k' b).initial = (k b).initial) :
    WF sv L G k' := by
  have hc : ∀ i, Counted sv k i → Counted sv k' i := by
    intro i hi; unfold Counted at hi ⊢; rw [h1, h2]; exact hi
  exact ⟨h.ndL, h.ndG, h.disj, h.static, h.staticG, fun i hi => hc i (h.ordL i hi),
    fun i hi => hc i (h.ordG i hi), fun b => h2 b ▸ Nat.le_trans (h.limP b) (h4 b),
    fun b => h1 b ▸ Nat.le_trans (h.limL b) (h3 b), h5, fun b => by rw [h6, h7]; exact h.credit b⟩

theorem WF.create {sv : Bool} {L G : List (Nat × Stream)} {k k' : Bool → Counts} (h : WF sv L G k)
    {id : Nat} {s : Stream} (hl : Assoc.get L id = none) (hg : Assoc.get G id = none)
    (hs : Static sv id s)
    (hk : ∀ b, k' b = if b = isBidi id then (k b).opened (isLocal id sv) id else k b)
    (hlim : if isLocal id sv then id / 4 < (k (isBidi id)).peerMax
      else id / 4 < (k (isBidi id)).localMax) :
    WF sv (Assoc.put L id s) G k' := by
  have e1 : ∀ b, (k b).localOpened ≤ (k' b).localOpened := by
    intro b; rw [hk]; split
    · simp only [Counts.opened]; split <;> omega
    · exact Nat.le_refl _
  have e2 : ∀ b, (k b).peerOpened ≤ (k' b).peerOpened := by
    intro b; rw [hk]; split
    · simp only [Counts.opened]; split <;> omega
    · exact Nat.le_refl _
  have e3 : ∀ b, (k' b).peerMax = (k b).peerMax := by intro b; rw [hk]; split <;> rfl
  have e4 : ∀ b, (k' b).localMax = (k b).localMax := by intro b; rw [hk]; split <;> rfl
  have e5 : ∀ b, (k' b).initial = (k b).initial := by intro b; rw [hk]; split <;> rfl
  have e6 : ∀ b, (k' b).localMaxNext = (k b).localMaxNext := by intro b; rw [hk]; split <;> rfl
  have hc : ∀ i, Counted sv k i → Counted sv k' i := by
    intro i hi; unfold Counted at hi ⊢
    have := e1 (isBidi i); have := e2 (isBidi i)
    exact ⟨fun x => Nat.lt_of_lt_of_le (hi.1 x) (e1 _), fun x => Nat.lt_of_lt_of_le (hi.2 x) (e2 _)⟩
  have hn : Counted sv k' id := by
    unfold Counted; rw [hk, if_pos rfl]
    constructor <;> intro x
    · simp only [Counts.opened, x, if_true]; omega
    · simp only [Counts.opened, x, Bool.false_eq_true, if_false]; omega
  refine ⟨Assoc.nodup_put h.ndL _ _, h.ndG, ?_, ?_, h.staticG, ?_, fun i hi => hc i (h.ordG i hi),
    ?_, ?_, fun b => by rw [e4, e6]; exact h.next b, fun b => by rw [e5, e6]; exact h.credit b⟩
  · intro i hi
    rcases (Assoc.keys_put_mem _ _ _ _).mp hi with rfl | hi
    · exact (Assoc.get_none_iff _ _).mp hg
    · exact h.disj i hi
  · intro i x hx
    rw [Assoc.get_put] at hx
    split at hx
    · next e => subst e; obtain rfl := Option.some.inj hx; exact hs
    · exact h.static i x hx
  · intro i hi
    rcases (Assoc.keys_put_mem _ _ _ _).mp hi with rfl | hi
    · exact hn
    · exact hc i (h.ordL i hi)
  · intro b
    have := h.limP b
    rw [e4, hk]
    by_cases hb : b = isBidi id
    · subst hb
      rw [if_pos rfl]
      cases hloc : isLocal id sv with
      | true => simpa [Counts.opened] using this
      | false => simp only [Counts.opened, hloc, Bool.false_eq_true, if_false] at hlim ⊢; omega
    · rw [if_neg hb]; exact this
  · intro b
    have := h.limL b
    rw [e3, hk]
    by_cases hb : b = isBidi id
    · subst hb
      rw [if_pos rfl]
      cases hloc : isLocal id sv with
      | true => simp only [Counts.opened, hloc, if_true] at hlim ⊢; omega
      | false => simpa [Counts.opened] using this
    · rw [if_neg hb]; exact this

theorem QOk.put {L : List (Nat × Stream)} {q : List Key} (h : QOk L q) {id : Nat} {s s' : Stream}
    (hg : Assoc.get L id = some s) (hk : s'.key = s.key) : QOk (Assoc.put L id s') q := by
  refine ⟨?_, h.ord⟩
  intro k hk'
  obtain ⟨x, hx, e⟩ := h.live k hk'
  rw [Assoc.get_put]
  split
  · next e' => subst e'; rw [hg] at hx; obtain rfl := Option.some.inj hx; exact ⟨s', rfl, hk.trans e⟩
  · exact ⟨x, hx, e⟩

theorem QOk.create {L : List (Nat × Stream)} {q : List Key} (h : QOk L q) {id : Nat} {s : Stream}
    (hg : Assoc.get L id = none) : QOk (Assoc.put L id s) q := by
  refine ⟨?_, h.ord⟩
  intro k hk'
  obtain ⟨x, hx, e⟩ := h.live k hk'
  rw [Assoc.get_put]
  split
  · next e' => subst e'; rw [hg] at hx; simp at hx
  · exact ⟨x, hx, e⟩

theorem QOk.not_linked {L : List (Nat × Stream)} {q : List Key} (h : QOk L q) {id : Nat}
    (hg : Assoc.get L id = none) : id ∉ q.map (·.id) := by
  intro hm
  obtain ⟨k, hk, rfl⟩ := List.mem_map.mp hm
  obtain ⟨s, hs, -⟩ := h.live k hk
  rw [hg] at hs; simp at hs

theorem QOk.qins {L : List (Nat × Stream)} {q : List Key} (h : QOk L q) {k : Key} {s : Stream}
    (hg : Assoc.get L k.id = some s) (hk : s.key = k) (hn : k.id ∉ q.map (·.id)) : QOk L (qins k q) := by
  refine ⟨?_, h.ord.qins hn⟩
  intro x hx
  rcases (mem_qins _ _ _).mp hx with rfl | hx
  · exact ⟨s, hg, hk⟩
  · exact h.live x hx

theorem QOk.qadd {L : List (Nat × Stream)} {q : List Key} (h : QOk L q) {k : Key} {s : Stream}
    (hg : Assoc.get L k.id = some s) (hk : s.key = k) : QOk L (qadd k q) := by
  unfold Conn.qadd
  split
  · exact h
  · next hl => exact h.qins hg hk (by rw [← linked_iff]; exact hl)

theorem QOk.qdel {L : List (Nat × Stream)} {q : List Key} (h : QOk L q) (id : Nat) : QOk L (qdel id q) :=
  ⟨fun k hk => h.live k ((mem_qdel _ _ _).mp hk).1, h.ord.qdel id⟩

theorem QOk.collect {L : List (Nat × Stream)} {q : List Key} (h : QOk L q) (id : Nat) :
    QOk (Assoc.del L id) (Conn.qdel id q) := by
  refine ⟨?_, h.ord.qdel id⟩
  intro k hk
  obtain ⟨h1, h2⟩ := (mem_qdel _ _ _).mp hk
  rw [Assoc.get_del_ne _ h2]
  exact h.live k h1

/-- The effect of `update_priority` on one queue. -/
def rekey (k : Key) (q : List Key) : List Key := if linked q k.id then qins k (qdel k.id q) else q

theorem QOk.rekey {L : List (Nat × Stream)} {q : List Key} (h : QOk L q) {k : Key} {s : Stream}
    (hk : s.key = k) : QOk (Assoc.put L k.id s) (Conn.rekey k q) := by
  have hd : QOk (Assoc.put L k.id s) (Conn.qdel k.id q) := by
    refine ⟨?_, h.ord.qdel _⟩
    intro x hx
    obtain ⟨h1, h2⟩ := (mem_qdel _ _ _).mp hx
    rw [Assoc.get_put, if_neg (fun e => h2 e.symm)]
    exact h.live x h1
  unfold Conn.rekey
  split
  · exact hd.qins (s := s) (by simp [Assoc.get_put]) hk (not_linked_qdel _ _)
  · next hl =>
    have hl : k.id ∉ q.map (·.id) := by rw [← linked_iff]; exact hl
    refine ⟨?_, h.ord⟩
    intro x hx
    have : k.id ≠ x.id := fun e => hl (e ▸ List.mem_map_of_mem hx)
    rw [Assoc.get_put, if_neg this]
    exact h.live x hx

namespace Conn

/-- The book-keeping invariant of a connection. -/
structure Shape (c : Conn) : Prop where
  wf : WF c.isServer c.streams c.collected c.counts
  flushable : QOk c.streams c.flushable
  readable : QOk c.streams c.readable
  writable : QOk c.streams c.writable

/-- The state of a stream that has just been created. -/
def fresh (c : Conn) (id : Nat) : Stream :=
  let l := c.initialLimits (isLocal id c.isServer) id
  Stream.new id l.1 l.2 (isLocal id c.isServer) l.1 c.maxStreamWindow

/-- What the creation of a stream does. -/
structure Created (c : Conn) (id : Nat) (c' : Conn) (s : Stream) : Prop where
  stream : s = c.fresh id
  none : c.get id = Option.none
  noneG : Assoc.get c.collected id = Option.none
  streams : c'.streams = Assoc.put c.streams id s
  counts : ∀ b, c'.counts b = if b = isBidi id then (c.counts b).opened (isLocal id c.isServer) id
    else c.counts b
  limit : if isLocal id c.isServer then id / 4 < (c.counts (isBidi id)).peerMax
      else id / 4 < (c.counts (isBidi id)).localMax
  writable : c'.writable = if s.isWritable then qins s.key c.writable else c.writable
  isServer' : c'.isServer = c.isServer
  loc' : c'.loc = c.loc
  peer' : c'.peer = c.peer
  maxStreamWindow' : c'.maxStreamWindow = c.maxStreamWindow
  collected' : c'.collected = c.collected
  flushable' : c'.flushable = c.flushable
  readable' : c'.readable = c.readable
  almostFull' : c'.almostFull = c.almostFull
  blocked' : c'.blocked = c.blocked
  reset' : c'.reset = c.reset
  stopped' : c'.stopped = c.stopped
  txBuffered' : c'.txBuffered = c.txBuffered
  rxData' : c'.rxData = c.rxData
  fc' : c'.fc = c.fc
  shouldSendMaxData' : c'.shouldSendMaxData = c.shouldSendMaxData
  shouldSendMaxStreamsBidi' : c'.shouldSendMaxStreamsBidi = c.shouldSendMaxStreamsBidi
  shouldSendMaxStreamsUni' : c'.shouldSendMaxStreamsUni = c.shouldSendMaxStreamsUni
  txCap' : c'.txCap = c.txCap
  factorNum' : c'.factorNum = c.factorNum
  factorDen' : c'.factorDen = c.factorDen
  txData' : c'.txData = c.txData
  maxTxData' : c'.maxTxData = c.maxTxData
  blockedLimit' : c'.blockedLimit = c.blockedLimit
  frames' : c'.frames = c.frames
  dead' : c'.dead = c.dead
  crashed' : c'.crashed = c.crashed

theorem getOrCreate_spec {c : Conn} (h : Shape c) (id : Nat) (loc : Bool) :
    (∃ s, c.get id = some s ∧ c.getOrCreate id loc = .ok (c, s)) ∨
    (c.get id = none ∧ (∃ s, Assoc.get c.collected id = some s) ∧
      c.getOrCreate id loc = .error .done) ∨
    (c.get id = none ∧ Assoc.get c.collected id = none ∧ loc ≠ isLocal id c.isServer ∧
      c.getOrCreate id loc = .error (.invalidStreamState id)) ∨
    (c.get id = none ∧ Assoc.get c.collected id = none ∧ loc = isLocal id c.isServer ∧
      (if isLocal id c.isServer then (c.counts (isBidi id)).peerMax ≤ id / 4
        else (c.counts (isBidi id)).localMax ≤ id / 4) ∧
      c.getOrCreate id loc = .error .streamLimit) ∨
    (loc = isLocal id c.isServer ∧ ∃ c' s, c.getOrCreate id loc = .ok (c', s) ∧ Created c id c' s) := by
  unfold getOrCreate
  cases hg : c.get id with
  | some s => exact .inl ⟨s, rfl, rfl⟩
  | none =>
    right
    simp only
    cases hc : Assoc.get c.collected id with
    | some x =>
      left
      refine ⟨trivial, ⟨x, rfl⟩, by simp [isCollected, hc]⟩
    | none =>
      right
      have h0 : c.isCollected id = false := by simp [isCollected, hc]
      rw [h0]; simp only [Bool.false_eq_true, if_false]
      by_cases hl : loc = isLocal id c.isServer
      · right
        have h1 : (loc != isLocal id c.isServer) = false := by simp [hl]
        rw [h1]; simp only [Bool.false_eq_true, if_false]
        have hP := h.wf.limP (isBidi id)
        have hL := h.wf.limL (isBidi id)
        by_cases hloc : isLocal id c.isServer = true
        · simp only [hloc, if_true]
          by_cases hm : max (c.counts (isBidi id)).localOpened (id / 4 + 1) > (c.counts (isBidi id)).peerMax
          · left; rw [if_pos hm]; exact ⟨trivial, trivial, by rw [hl, hloc], by omega, rfl⟩
          · right
            rw [if_neg hm]
            refine ⟨by rw [hl, hloc], _, _, rfl, ?_⟩
            constructor <;> first
              | (simp only [fresh, hl, hloc]; done)
              | exact hg
              | exact hc
              | (simp only [hloc, if_true]; omega)
              | (simp; done)
              | (intro b; rw [addStream_counts]
                 by_cases hb : b = isBidi id <;> simp [Counts.opened, hloc, hb])
        · have hloc : isLocal id c.isServer = false := by simpa using hloc
          simp only [hloc, Bool.false_eq_true, if_false]
          by_cases hm : max (c.counts (isBidi id)).peerOpened (id / 4 + 1) > (c.counts (isBidi id)).localMax
          · left; rw [if_pos hm]; exact ⟨trivial, trivial, by rw [hl, hloc], by omega, rfl⟩
          · right
            rw [if_neg hm]
            refine ⟨by rw [hl, hloc], _, _, rfl, ?_⟩
            constructor <;> first
              | (simp only [fresh, hl, hloc]; done)
              | exact hg
              | exact hc
              | (simp only [hloc, Bool.false_eq_true, if_false]; omega)
              | (simp; done)
              | (intro b; rw [addStream_counts]
                 by_cases hb : b = isBidi id <;> simp [Counts.opened, hloc, hb])
      · left
        have h1 : (loc != isLocal id c.isServer) = true := by simp [hl]
        rw [h1]; simp only [if_true]
        exact ⟨trivial, trivial, hl, trivial⟩

end Conn
end Verif.Conn
