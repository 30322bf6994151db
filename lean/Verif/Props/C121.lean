import Verif.Props.C119

/-!
# C121: Two key updates without an answer in between are an error

A peer must wait for an acknowledgement sent with the new keys before it updates again. A second
update before such an acknowledgement was sent is to be refused with KEY_UPDATE_ERROR. The mark for
this is set when a packet is built, whether or not there is an ACK frame in it and whether or not it is
sent, and the timer for the old keys removes it, so that the claim is false (`claim_false`, `timer`). It
holds if no packet is built and the timer does not expire (`refused_partial`).
-/

namespace Verif.Props.C121
open Verif Verif.Packet Verif.Packet.Keys

/-- What ought to hold: for a packet of generation `g + 2` to be accepted, a packet with an ACK
frame, protected with `g + 1`, must have been sent. -/
def Claim : Prop := ∀ (y : Y) (l : List Act), y.Initial → ∀ p ∈ (y.run l).accepted, ∀ g, p.gen = some (g + 2) →
  ∃ x ∈ (y.run l).sent, x.1 = g + 1 ∧ x.2.2 = true

/-- Nothing is ever sent. -/
def acts : List Act := [.complete, .recv { gen := some 1, pn := 10, phase := true } 60, .send false false,
  .recv { gen := some 2, pn := 20, phase := false } 60]

theorem claim_false : ¬ Claim := by
  intro h
  obtain ⟨x, hx, -⟩ := h C119.server acts ⟨rfl, rfl, rfl, rfl⟩ { gen := some 2, pn := 20, phase := false } (by decide +kernel) 0 rfl
  have : (C119.server.run acts).sent = [] := by decide +kernel
  rw [this] at hx; simp at hx

/-- The timer alone. -/
def expired : List Act := [.complete, .recv { gen := some 1, pn := 10, phase := true } 60, .timeout 60,
  .recv { gen := some 2, pn := 20, phase := false } 60]

theorem timer : (C119.server.run expired).accepted.map (·.gen) = [some 1, some 2] ∧ (C119.server.run expired).sent = [] := by
  decide +kernel

/-- Only packets arrive. -/
def OnlyRecv (l : List Act) : Prop := ∀ a ∈ l, ∃ p t, a = .recv p t

theorem pending_run (l : List Act) (hl : OnlyRecv l) : ∀ {y : Y} {u : Prev}, y.k.prev = some u → u.acked = false →
    ((y.run l).k.prev = some u ∧ (y.run l).k.openGen = y.k.openGen ∧ (y.run l).k.phase = y.k.phase ∧
      (y.k.confirmed = true → (y.run l).k.confirmed = true) ∧ (y.run l).k.closed = y.k.closed) ∨
    (y.run l).failed = true ∧ (y.run l).k.closed = true := by
  induction l with
  | nil => intro y u h1 _; exact .inl ⟨h1, rfl, rfl, id, rfl⟩
  | cons a t ih =>
    intro y u h1 h2
    have hl' : OnlyRecv t := fun a ha => hl a (List.mem_cons_of_mem _ ha)
    have stays : ∀ (t : List Act), OnlyRecv t → ∀ {y : Y}, y.failed = true → y.k.closed = true →
        (y.run t).failed = true ∧ (y.run t).k.closed = true := by
      intro t
      induction t with
      | nil => intro _ y h h'; exact ⟨h, h'⟩
      | cons b t ih =>
        intro hl y h h'
        obtain ⟨p, tm, rfl⟩ := hl _ (List.mem_cons_self ..)
        refine ih (fun a ha => hl a (List.mem_cons_of_mem _ ha)) ?_ ?_ <;> simp [Y.step, K.recv, h, h']
    obtain ⟨p, tm, rfl⟩ := hl a (List.mem_cons_self ..)
    rcases C119.recv_cases y p tm with ⟨e, -⟩ | ⟨-, e, -⟩ | ⟨hacc, g, new, k', hs, hg, hk, hnew, e⟩
    · have : y.run (Act.recv p tm :: t) = y.run t := by show (y.step _).run t = _; rw [e]
      rw [this]
      exact ih hl' h1 h2
    · right
      have := stays t hl' (y := y.step (.recv p tm)) (by rw [e]) (by rw [e])
      exact this
    · cases new with
      | true =>
        exfalso
        have hp : y.k.pending = true := by simp [K.pending, h1, h2]
        unfold K.recv at hacc
        split at hacc
        · simp at hacc
        · rw [hs] at hacc
          simp only [hg, ne_eq, not_true_eq_false, if_false, hp, Bool.and_self, if_true] at hacc
          split at hacc <;> simp at hacc
      | false =>
        simp only [Bool.false_eq_true, if_false] at hk
        subst hk
        have hst : ∀ z, z = y.step (.recv p tm) → z.k.prev = some u ∧ z.k.openGen = y.k.openGen ∧ z.k.phase = y.k.phase ∧
            (y.k.confirmed = true → z.k.confirmed = true) ∧ z.k.closed = y.k.closed := by
          rintro z rfl
          rw [e]
          exact ⟨h1, rfl, rfl, (fun h => by simp [h]), rfl⟩
        obtain ⟨s1, s2, s3, s4, s5⟩ := hst _ rfl
        rcases ih hl' s1 h2 with ⟨r1, r2, r3, r4, r5⟩ | r
        · exact .inl ⟨r1, r2.trans s2, r3.trans s3, fun h => r4 (s4 h), r5.trans s5⟩
        · exact .inr r

/-- After an update, if nothing but packets arrives, a packet with the keys after the next is an error. -/
theorem refused_partial {y : Y} (h : y.Initial) (l : List Act) (p : Pkt) (t : Nat) (l2 : List Act) (hl2 : OnlyRecv l2)
    (hup : ((y.run l).step (.recv p t)).k.sealGen = (y.run l).k.sealGen + 1) (q : Pkt) (t' : Nat)
    (hgen : q.gen = some ((y.run l).k.sealGen + 2)) (hph : q.phase = C119.odd ((y.run l).k.sealGen + 2)) (hpn : p.pn ≤ q.pn)
    (hnew : (y.run (l ++ [.recv p t] ++ l2)).k.seen.contains q.pn = false) :
    (y.run (l ++ [.recv p t] ++ l2 ++ [.recv q t'])).failed = true := by
  have hi := C119.inv_run (C119.Initial.inv h) l
  have hi1 := C119.inv_step hi (.recv p t)
  have hrun : ∀ k a, y.run (k ++ [a]) = (y.run k).step a := by intro k a; simp [Y.run, List.foldl_append]
  have hrun2 : y.run (l ++ [.recv p t] ++ l2) = ((y.run l).step (.recv p t)).run l2 := by simp [Y.run, List.foldl_append]
  rw [hrun]
  have hsame := hi.same
  have hphase := hi1.phase
  have hstate : ∃ u, ((y.run l).step (.recv p t)).k.prev = some u ∧ u.acked = false ∧ u.pnOnUpdate = p.pn ∧
      ((y.run l).step (.recv p t)).k.openGen = (y.run l).k.sealGen + 1 ∧
      ((y.run l).step (.recv p t)).k.confirmed = true ∧ ((y.run l).step (.recv p t)).k.closed = false := by
    rcases C119.recv_cases (y.run l) p t with ⟨e, -⟩ | ⟨-, e, -⟩ | ⟨hacc, g, new, k', hs, hg, hk, hnew, e⟩
    · rw [e] at hup; omega
    · rw [e] at hup; simp only at hup; omega
    · cases new with
      | false =>
        simp only [Bool.false_eq_true, if_false] at hk
        subst hk; rw [e] at hup; simp only at hup; omega
      | true =>
        have hcl : (y.run l).k.closed = false := by
          cases hc : (y.run l).k.closed with
          | false => rfl
          | true => simp [K.recv, hc] at hacc
        simp only [if_true] at hk
        subst hk
        have hconf : (y.run l).k.confirmed = true := by
          unfold K.select at hs
          split at hs
          · rename_i hc; simp only [Bool.and_eq_true] at hc; exact hc.1
          · simp at hs
        rw [e]
        exact ⟨_, rfl, rfl, rfl, by simp only [K.update]; omega, by simp [K.update, hconf], hcl⟩
  obtain ⟨u, u1, u2, u3, u4, u5, u6⟩ := hstate
  rw [hrun2] at hnew ⊢
  rcases pending_run l2 hl2 u1 u2 with ⟨r1, r2, r3, r4, r5⟩ | ⟨r1, r2⟩
  · have hp : (((y.run l).step (.recv p t)).run l2).k.pending = true := by simp [K.pending, r1, u2]
    have hsel : (((y.run l).step (.recv p t)).run l2).k.select q = ((y.run l).k.sealGen + 2, true) := by
      unfold K.select
      rw [r4 u5, r3, hphase, u4, hph, C119.odd_succ ((y.run l).k.sealGen + 1), r1, r2, u4]
      simp only [Bool.true_and]
      rw [if_pos (by simp)]
      simp only [u3]
      rw [if_neg (by omega)]
    have hout : ((((y.run l).step (.recv p t)).run l2).k.recv q t').1 = .keyUpdateError := by
      unfold K.recv
      rw [if_neg (by rw [r5, u6]; simp), hsel]
      simp only [hgen, ne_eq, not_true_eq_false, if_false, hnew, Bool.false_eq_true, hp, Bool.and_self, if_true]
    rcases C119.recv_cases (((y.run l).step (.recv p t)).run l2) q t' with ⟨-, e⟩ | ⟨-, e, -⟩ | ⟨e, -⟩
    · rw [hout] at e; simp at e
    · rw [e]
    · rw [hout] at e; simp at e
  · generalize ((y.run l).step (.recv p t)).run l2 = z at r1 r2
    simp [Y.step, K.recv, r2, r1]

/-! ### Concrete cases -/

example : (C119.server.run acts).accepted.map (·.gen) = [some 1, some 2] := by decide +kernel
example : (C119.server.run ([.complete] ++ [.recv (C119.pkt 11) 60] ++ [.recv (C119.pkt 12) 60] ++ [.recv (C119.pkt 20) 60])).failed = true :=
  refused_partial (y := C119.server) ⟨rfl, rfl, rfl, rfl⟩ [.complete] (C119.pkt 11) 60 [.recv (C119.pkt 12) 60]
    (fun a ha => ⟨_, _, List.mem_singleton.mp ha⟩) (by decide +kernel) (C119.pkt 20) 60 (by decide +kernel) (by decide +kernel)
    (by decide) (by decide +kernel)

end Verif.Props.C121
