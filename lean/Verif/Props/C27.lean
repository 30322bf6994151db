import Verif.Conn.Serve

/-! # C27 — stream scheduling honours urgency -/

namespace Verif.C27
open Verif Stream Verif.Conn Verif.Conn.Conn

/-- Serving `s` before `t` honours the priorities: `s` is not less urgent; and at equal
urgency a non-incremental `t` only has to wait for a non-incremental `s` with a smaller
ID. -/
def Honours (s t : Stream) : Prop :=
  s.key.urgency ≤ t.key.urgency ∧
  (s.key.urgency = t.key.urgency → t.key.incremental = false → s.key.incremental = false ∧ s.key.id < t.key.id)

theorem honours_of_le {s t : Stream} (h : s.key.le t.key) : Honours s t := by
  rcases h with h1 | ⟨h1, h2⟩
  · exact ⟨by omega, fun e => by omega⟩
  · refine ⟨by omega, fun _ hi => ?_⟩
    rcases h2 with h2 | ⟨h3, -, h4⟩
    · rw [hi] at h2; cases h2
    · exact ⟨h3, h4⟩

theorem first_honours {c : Conn} {q pre post : List Key} {k : Key} (hq : QOk c.streams q) (e : q = pre ++ k :: post)
    {id' : Nat} {t : Stream} (ht : c.get id' = some t) (hl : linked q id' = true) (hne : id' ≠ k.id)
    (hpre : ∀ x ∈ pre, x.id ≠ id') : ∃ s, c.get k.id = some s ∧ Honours s t := by
  obtain ⟨s, hs, hk⟩ := hq.live k (by rw [e]; simp)
  refine ⟨s, hs, honours_of_le ?_⟩
  rw [linked_iff] at hl
  obtain ⟨x, hx, hxi⟩ := List.mem_map.mp hl
  obtain ⟨t', ht', hk'⟩ := hq.live x hx
  rw [hxi] at ht'
  have : t' = t := by unfold Conn.get at ht; rw [ht] at ht'; exact (Option.some.inj ht').symm
  subst this
  rw [hk, hk']
  have ho := hq.ord
  rw [e] at ho hx
  exact Ordered.first ho hx (fun hm => hpre x hm hxi) (by rw [hxi]; exact hne)

/-- **C27**, sending. When a STREAM frame of stream `id` is put into a packet, every other
stream queued for sending that is neither stopped nor has a frame header too long for the
packet is one that `id` may go before. -/
theorem sending (g : Config) (hd : 0 < g.factorDen) (ops : List Op) (hok : ∀ op ∈ ops, op.Ok)
    (left id off : Nat) (data : Bytes) (fin : Bool)
    (hs : ((after g ops).step (.outStream left)).2 = .sentStream id off data fin)
    (id' : Nat) (t : Stream) (ht : (after g ops).get id' = some t) (hne : id' ≠ id)
    (hl : linked (after g ops).flushable id' = true) (hsk : ¬ Skipped (after g ops) left id') :
    ∃ s, (after g ops).get id = some s ∧ Honours s t := by
  unfold step at hs
  split at hs
  · cases hs
  · next hcr =>
    rcases after_inv g hd hok with hI | hc
    · generalize after g ops = c at *
      simp only at hs
      unfold outStream at hs
      split at hs
      · obtain ⟨pre, k, post, e1, e2, e3⟩ := outStreamLoop_first left _ c
          (outStreamLoop left c.flushable.length c).1 id off data fin hI.shape.flushable.ord.nd (by rw [← hs])
        subst e2
        refine first_honours hI.shape.flushable e1 ht hl hne ?_
        intro x hx he
        exact hsk (he ▸ e3 x hx)
      · cases hs
    · rw [hc] at hcr; simp at hcr

/-- **C27**, reading: the stream reported as readable next. -/
theorem reading (g : Config) (hd : 0 < g.factorDen) (ops : List Op) (hok : ∀ op ∈ ops, op.Ok)
    (id : Nat) (hs : ((after g ops).step .readableNext).2 = .next (some id))
    (id' : Nat) (t : Stream) (ht : (after g ops).get id' = some t) (hne : id' ≠ id)
    (hl : linked (after g ops).readable id' = true) :
    ∃ s, (after g ops).get id = some s ∧ Honours s t := by
  unfold step at hs
  split at hs
  · cases hs
  · next hcr =>
    rcases after_inv g hd hok with hI | hc
    · generalize after g ops = c at *
      simp only at hs
      unfold readableNext at hs
      cases hq : c.readable with
      | nil => rw [hq] at hs; simp at hs
      | cons k q =>
        rw [hq] at hs
        simp only [Ev.next.injEq, Option.some.injEq] at hs
        subst hs
        exact first_honours (pre := []) (q := c.readable) hI.shape.readable hq ht hl hne (by simp)
    · rw [hc] at hcr; simp at hcr

/-- **C27**, writing: the stream reported as writable next, among those that have enough
capacity for what the application asked for, or have failed. -/
theorem writing (g : Config) (hd : 0 < g.factorDen) (ops : List Op) (hok : ∀ op ∈ ops, op.Ok)
    (id : Nat) (hs : ((after g ops).step .writableNext).2 = .next (some id))
    (id' : Nat) (t : Stream) (ht : (after g ops).get id' = some t) (hne : id' ≠ id)
    (hl : linked (after g ops).writable id' = true)
    (hcap : ∀ n, t.send.cap = .ok n → t.sendLowat ≤ min (after g ops).txCap n) :
    ∃ s, (after g ops).get id = some s ∧ Honours s t := by
  unfold step at hs
  split at hs
  · cases hs
  · next hcr =>
    rcases after_inv g hd hok with hI | hc
    · generalize after g ops = c at *
      simp only at hs
      unfold writableNext at hs
      split at hs
      · cases hs
      · cases hq : c.nextWritable c.writable with
        | none => rw [hq] at hs; simp at hs
        | some i =>
          rw [hq] at hs
          simp only [Ev.next.injEq, Option.some.injEq] at hs
          subst hs
          obtain ⟨pre, k, post, e1, rfl, e3⟩ := nextWritable_first c _ _ hq
          refine first_honours hI.shape.writable e1 ht hl hne ?_
          rintro x hx rfl
          obtain ⟨n, h1, h2⟩ := e3 x hx t ht
          have := hcap n h1
          omega
    · rw [hc] at hcr; simp at hcr

/-- The tree behind a queue: inserting by descent with the comparison function, which is
not an order (incremental keys are greater than each other), gives the queue in which the
new stream comes right behind everything it must not overtake. -/
theorem tree (t : Tree) (k : Key) (h : Ordered t.inorder) (hk : k.id ∉ t.inorder.map (·.id)) :
    (t.insert k).inorder = qins k t.inorder ∧ Ordered (t.insert k).inorder := by
  have := Tree.inorder_insert t k h hk
  exact ⟨this, by rw [this]; exact h.qins hk⟩

/-- Four streams with data: urgency 3 goes first, then the non-incremental ones of urgency
127 by ID, then the incremental one, although it was written first. -/
example : ((start {}).run
      [.peerParams { bidiRemote := 100 } 100 9 0 50, .send 0 [1] false, .send 8 [2] false, .send 4 [3] false,
       .send 12 [4] false, .priority 8 127 false, .priority 12 3 true, .priority 4 127 false,
       .outStream 100, .outStream 100, .outStream 100, .outStream 100]).2.map (·.2) =
    [.ok, .n 1, .n 1, .n 1, .n 1, .ok, .ok, .ok, .sentStream 12 0 [4] false, .sentStream 4 0 [3] false,
     .sentStream 8 0 [2] false, .sentStream 0 0 [1] false] := by decide

end Verif.C27
