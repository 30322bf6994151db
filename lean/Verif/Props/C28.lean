import Verif.Conn.Turn2

/-! # C28 — incremental streams share bandwidth round-robin -/

namespace Verif.C28
open Verif Stream Verif.Conn Verif.Conn.Conn

/-- `b` is queued with urgency `u`, and so is `a`, incrementally, whenever it is queued. -/
structure Waiting (c : Conn) (a b u : Nat) : Prop where
  b : ∃ k ∈ c.flushable, k.id = b ∧ k.urgency = u
  a : ∀ k ∈ c.flushable, k.id = a → k.urgency = u ∧ k.incremental = true

theorem Waiting.peers {c : Conn} {h : Hist} {gone : List Nat} {a b u : Nat} (hI : Inv c h gone) (hw : Waiting c a b u) :
    Peers a b u c.flushable ∧ b ∈ c.flushable.map (·.id) := by
  obtain ⟨k, hk, hid, hu⟩ := hw.b
  refine ⟨⟨?_, hw.a⟩, List.mem_map.mpr ⟨k, hk, hid⟩⟩
  intro e he hei
  obtain ⟨s, hs, h1⟩ := hI.shape.flushable.live e he
  obtain ⟨s', hs', h2⟩ := hI.shape.flushable.live k hk
  rw [hei] at hs; rw [hid] at hs'
  rw [hs] at hs'
  cases hs'
  rw [← h1, h2]; exact hu

/-- `b` keeps its turn. -/
theorem keeps_turn {a b u : Nat} (hab : a ≠ b) : ∀ (mid : List Op) (c : Conn) (h : Hist),
    Inv c h [] → Turn a b c.flushable →
    (∀ op ∈ mid, op.Ok) → (∀ x v inc, .priority x v inc ∈ mid → x ≠ a ∧ x ≠ b) →
    (∀ p q, mid = p ++ q → Waiting (c.run p).1 a b u ∧ (c.run p).1.crashed = false) →
    (∀ e ∈ (c.run mid).2, ∀ off data fin, e.2 ≠ .sentStream b off data fin) →
    Turn a b (c.run mid).1.flushable ∧ Inv (c.run mid).1 (h.of (c.run mid).2) [] := by
  intro mid
  induction mid with
  | nil => intro c h hI ht _ _ _ _; exact ⟨ht, hI⟩
  | cons op mid ih =>
    intro c h hI ht hok hpr hw hev
    have h1 := hw [op] mid rfl
    have hcr : (c.step op).1.crashed = false := h1.2
    have hI1 : Inv (c.step op).1 (h.step op (c.step op).2) [] := by
      rcases step_safe hI (hok op List.mem_cons_self) with ⟨-, -, h2⟩ | ⟨-, h2, -⟩
      · exact h2
      · rw [hcr] at h2; cases h2
    obtain ⟨hp, hb⟩ := Waiting.peers hI1 h1.1
    have ht1 : Turn a b (c.step op).1.flushable :=
      Turn.step hI ht hab hcr (fun x v inc e => hpr x v inc (e ▸ List.mem_cons_self))
        (hev (op, (c.step op).2) List.mem_cons_self) hp hb
    exact ih _ _ hI1 ht1 (fun o ho => hok o (List.mem_cons_of_mem _ ho))
      (fun x v inc ho => hpr x v inc (List.mem_cons_of_mem _ ho))
      (fun p q e => hw (op :: p) q (by rw [e]; rfl))
      (fun e he => hev e (List.mem_cons_of_mem _ he))

/-- **C28.** A STREAM frame is sent for `a`, and after an arbitrary stretch `mid` of the
history another one. All the time in between, `b` is queued with urgency `u`, and `a`,
when it is queued, is incremental with the same urgency (and nobody changed their
priorities). Then a STREAM frame was sent for `b` in between; unless, when the second
packet is built, `b` is stopped or its frame header does not fit. -/
theorem round_robin (g : Config) (hd : 0 < g.factorDen) (ops mid : List Op) (l1 l2 a b u : Nat) (hab : a ≠ b)
    (hok : ∀ op ∈ ops ++ .outStream l1 :: mid, op.Ok)
    (hpr : ∀ x v inc, .priority x v inc ∈ mid → x ≠ a ∧ x ≠ b)
    (o1 : Nat) (d1 : Bytes) (f1 : Bool) (h1 : ((after g ops).step (.outStream l1)).2 = .sentStream a o1 d1 f1)
    (hw : ∀ p q, mid = p ++ q → Waiting (after g (ops ++ .outStream l1 :: p)) a b u ∧
      (after g (ops ++ .outStream l1 :: p)).crashed = false)
    (o2 : Nat) (d2 : Bytes) (f2 : Bool)
    (h2 : ((after g (ops ++ .outStream l1 :: mid)).step (.outStream l2)).2 = .sentStream a o2 d2 f2)
    (hsk : ¬ Skipped (after g (ops ++ .outStream l1 :: mid)) l2 b) :
    ∃ op off data fin, (op, .sentStream b off data fin) ∈ ((after g (ops ++ [.outStream l1])).run mid).2 := by
  false_or_by_contra
  rename_i hno
  have split : ∀ p, after g (ops ++ .outStream l1 :: p) = ((after g (ops ++ [.outStream l1])).run p).1 := by
    intro p
    rw [show ops ++ .outStream l1 :: p = (ops ++ [.outStream l1]) ++ p by simp, after_append]
  have e1 : after g (ops ++ [.outStream l1]) = ((after g ops).step (.outStream l1)).1 := by
    rw [after_append]; rfl
  have hcr0 := (hw [] mid rfl)
  rw [split] at hcr0
  rcases after_inv g hd (ops := ops) (fun o ho => hok o (by simp [ho])) with hI0 | hx
  rotate_left
  · have : (after g ops).step (.outStream l1) = (after g ops, .idle) := by unfold step; rw [hx]; rfl
    rw [this] at h1; cases h1
  rcases after_inv g hd (ops := ops ++ [.outStream l1])
    (fun o ho => hok o (by simp at ho ⊢; rcases ho with h | h <;> simp [h])) with hI1 | hx
  rotate_left
  · have := hcr0.2
    simp only [run] at this
    rw [this] at hx; cases hx
  have hs : (after g ops).step (.outStream l1) = (after g ops).outStream l1 := by
    unfold step
    split
    · next hx => unfold step at h1; rw [if_pos hx] at h1; cases h1
    · rfl
  have ht : Turn a b (after g (ops ++ [.outStream l1])).flushable := by
    obtain ⟨hp, hb⟩ := Waiting.peers hI1 hcr0.1
    rw [e1, hs] at hp hb ⊢
    rw [hs] at h1
    refine Turn.init hI0 hab ?_ h1 hp hb
    have := hcr0.2
    simp only [run] at this
    rw [e1, hs] at this; exact this
  obtain ⟨ht2, hI2⟩ := keeps_turn hab mid _ _ hI1 ht (fun o ho => hok o (by simp [ho])) hpr
    (fun p q e => by have := hw p q e; rw [split] at this; exact this)
    (fun e he off data fin hx => hno ⟨e.1, off, data, fin, by rw [← hx]; exact he⟩)
  rw [split] at h2 hsk
  generalize ((after g (ops ++ [.outStream l1])).run mid).1 = c2 at *
  have hs2 : (c2.outStream l2).2 = .sentStream a o2 d2 f2 := by
    unfold step at h2
    split at h2
    · cases h2
    · exact h2
  unfold outStream at hs2
  split at hs2
  · obtain ⟨pre, k, post, e3, e4, e5⟩ := outStreamLoop_first l2 _ c2
      (outStreamLoop l2 c2.flushable.length c2).1 a o2 d2 f2 hI2.shape.flushable.ord.nd (by rw [← hs2])
    have hbp : b ∈ pre.map (·.id) := by
      unfold Turn at ht2
      rw [e3, pair_append, pair_cons, if_pos (.inl e4), e4] at ht2
      cases hp : pair a b pre with
      | nil =>
        rw [hp] at ht2
        rcases ht2 with h | h <;> simp at h
        · exact absurd h.1 hab
        · exact absurd h.1 hab
      | cons x y =>
        rw [hp] at ht2
        have hxb : x = b := by rcases ht2 with h | h <;> simp at h <;> exact h.1
        have : x ∈ pair a b pre := by rw [hp]; exact List.mem_cons_self
        rw [hxb] at this
        exact (mem_pair.mp this).1
    obtain ⟨x, hx, hxb⟩ := List.mem_map.mp hbp
    exact hsk (hxb ▸ e5 x hx)
  · cases hs2

/-- The streams a history sends STREAM frames for, with the offsets, in order. -/
def served : List (Op × Ev) → List (Nat × Nat)
  | [] => []
  | (_, .sentStream id off _ _) :: t => (id, off) :: served t
  | _ :: t => served t

/-- Three incremental streams with more than one packet's worth of data take turns, also
when more is written to one of them in between. -/
example : served ((start {}).run
      [.peerParams { bidiRemote := 100 } 100 9 0 90, .send 0 (List.replicate 25 1) false,
       .send 4 (List.replicate 25 2) false, .send 8 (List.replicate 25 3) false,
       .outStream 14, .outStream 14, .send 0 [7] false, .outStream 14, .outStream 14, .outStream 14,
       .outStream 14, .outStream 14]).2 =
    [(0, 0), (4, 0), (8, 0), (0, 9), (4, 9), (8, 9), (0, 18)] := by decide +kernel

end Verif.C28
