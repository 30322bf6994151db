import Verif.Ping.Proof

/-!
C192: an acknowledgement asked for by the application, by a probe timeout, or because too many
packets went without, is asked of the peer. It does not hold if the active path changes
before the packet is sent, or if there is no window for one more byte.
-/

namespace Verif.Props.C192
open Verif.Ping

/-- A 1-RTT packet of a connection that is not closing, with room in the buffer for one byte
more than what is to be acknowledged. -/
structure Usual (i : In) : Prop where
  epoch : i.epoch = .application
  established : i.established = true
  closing : i.closing = false
  left : 4 ≤ i.left
  size : i.overhead + i.left < usizeMax
  ack : ∀ n, i.ack = some n → n < i.left

/-- The window has it as well. -/
def Wide (i : In) : Prop := i.overhead + i.ack.getD 0 < i.cwnd

theorem fits {i : In} (h : Usual i) (hw : Wide i) (p : P) : Fits p i := by
  unfold Wide at hw
  refine ⟨h.size, fun _ => by omega, fun n hn => ⟨h.ack n hn, fun _ => ?_⟩⟩
  rw [hn] at hw
  exact hw

/-- After the application has asked, the next call sends a packet that asks the peer. -/
theorem next (c : Conn) (i : In) (ha : c.act < c.paths.length) (h : Usual i) (hw : Wide i) :
    ∃ l, ((c.step .ask).2.step (.send i)).1 = some (c.act, l) ∧ Asks l := by
  have hp : c.paths[c.act]? = some c.paths[c.act] := List.getElem?_eq_getElem ha
  have hq : (c.step .ask).2.paths[c.act]? = some { c.paths[c.act] with needs := true } := by
    simp only [Conn.step]
    rw [Conn.get_upd, if_pos rfl, hp]
    rfl
  have := (Conn.sendOn_self (i := i) hq).1
  obtain ⟨l, hl, hA⟩ := call_asks (p := { c.paths[c.act] with needs := true }) (fits h hw _) h.left h.closing
    (Or.inl ⟨h.epoch, h.established, rfl⟩)
  rw [hl] at this
  exact ⟨l, this, hA⟩

/-- Until a packet asks that is no probe of the path MTU, the request stands. -/
theorem kept (c : Conn) (j : Nat) (p : P) (hp : c.paths[j]? = some p) (hn : p.needs = true) (ops : List Op) :
    (∃ l ∈ on j (c.exec ops).1, Asks l ∧ .mtuProbe ∉ l) ∨ ∃ q, (c.exec ops).2.paths[j]? = some q ∧ q.needs = true := by
  induction ops generalizing c p with
  | nil => exact Or.inr ⟨p, hp, hn⟩
  | cons op l ih =>
    simp only [Conn.exec]
    rw [on_append]
    have go : ∀ q, (c.step op).2.paths[j]? = some q → q.needs = true →
        (∃ x ∈ on j (c.step op).1.toList ++ on j ((c.step op).2.exec l).1, Asks x ∧ .mtuProbe ∉ x) ∨
        ∃ q, ((c.step op).2.exec l).2.paths[j]? = some q ∧ q.needs = true := by
      intro q hq hqn
      rcases ih (c.step op).2 q hq hqn with ⟨x, hx, hA⟩ | h
      · exact Or.inl ⟨x, List.mem_append_right _ hx, hA⟩
      · exact Or.inr h
    rcases Conn.step_path c op j p hp with ⟨i, _, h1, h2⟩ | ⟨q, hq, _, hk, _⟩
    · cases hc : (p.call i).1 with
      | none =>
        rw [call_none hc] at h2
        exact go p h2 hn
      | some x =>
        obtain ⟨e1, e2, _⟩ := call_some (show p.call i = (some x, (p.call i).2) from by rw [← hc])
        cases he : P.elicits x && !p.probeNow i with
        | true =>
          left
          rw [Bool.and_eq_true, Bool.not_eq_true'] at he
          refine ⟨x, List.mem_append_left _ ?_, (elicits_iff x).mp he.1, by rw [e1]; exact no_probe he.2⟩
          rw [h1, on_self, hc]
          exact List.mem_singleton.mpr rfl
        | false =>
          refine go _ h2 ?_
          rw [e2]
          unfold P.after
          dsimp only
          rw [hn, he]
          rfl
    · exact go q hq (hk hn)

/-- A request is not forgotten: whatever happens in between, by the time of a call for its path
with room, a packet that asks the peer, and is no probe of the path MTU, was sent on it. -/
theorem not_forgotten (c : Conn) (j : Nat) (hj : j < c.paths.length) (ops : List Op) (i : In) (h : Usual i) (hw : Wide i)
    (hm : i.mtu = false) : ∃ l ∈ on j (((c.step (.askOn j)).2.exec (ops ++ [.sendOn j i]))).1, Asks l ∧ .mtuProbe ∉ l := by
  have happ : ∀ (ops : List Op) (c : Conn), (c.exec (ops ++ [.sendOn j i])).1 = (c.exec ops).1 ++ ((c.exec ops).2.step (.sendOn j i)).1.toList := by
    intro ops
    induction ops with
    | nil => intro c; simp [Conn.exec]
    | cons op l ih =>
      intro c
      simp only [List.cons_append, Conn.exec]
      rw [ih, List.append_assoc]
  rw [happ, on_append]
  have hq : (c.step (.askOn j)).2.paths[j]? = some { c.paths[j] with needs := true } := by
    simp only [Conn.step]
    rw [Conn.get_upd, if_pos rfl, List.getElem?_eq_getElem hj]
    rfl
  rcases kept _ j _ hq rfl ops with ⟨l, hl, hA⟩ | ⟨q, hq, hn⟩
  · exact ⟨l, List.mem_append_left _ hl, hA⟩
  · obtain ⟨l, hl, hA⟩ := call_asks (p := q) (fits h hw _) h.left h.closing (Or.inl ⟨h.epoch, h.established, hn⟩)
    refine ⟨l, List.mem_append_right _ ?_, hA, ?_⟩
    rotate_left
    · rw [(call_some (show q.call i = (some l, (q.call i).2) from by rw [← hl])).1]
      exact no_probe (by unfold P.probeNow; rw [hm]; rfl)
    show l ∈ on j (((c.step (.askOn j)).2.exec ops).2.sendOn j i).1.toList
    rw [(Conn.sendOn_self hq).1, on_self, hl]
    exact List.mem_singleton.mpr rfl

/-- After a probe timeout the next call for the path sends a packet that asks, whatever the
congestion window. -/
theorem probe (c : Conn) (j : Nat) (hj : j < c.paths.length) (n : Nat) (hn : 0 < n) (i : In) (h : Usual i) :
    ∃ l, ((c.step (.pto j .application n)).2.step (.sendOn j i)).1 = some (j, l) ∧ Asks l := by
  have hq : (c.step (.pto j .application n)).2.paths[j]? =
      some { c.paths[j] with probes := fun x => if x = .application then min n maxProbes else (c.paths[j]).probes x } := by
    simp only [Conn.step]
    rw [Conn.get_upd, if_pos rfl, List.getElem?_eq_getElem hj]
    rfl
  generalize hqe : ({ c.paths[j] with probes := fun x => if x = .application then min n maxProbes else (c.paths[j]).probes x } : P) = q at hq
  have hpos : 0 < q.probes .application := by
    rw [← hqe]
    show 0 < min n 2
    omega
  have hfit : Fits q i := by
    refine ⟨h.size, fun hz => ?_, fun m hm => ⟨h.ack m hm, fun hz => ?_⟩⟩ <;>
    · have := hz .application
      omega
  obtain ⟨l, hl, hA⟩ := call_asks hfit h.left h.closing (Or.inr (by rw [h.epoch]; exact hpos))
  refine ⟨l, ?_, hA⟩
  show ((c.step (.pto j .application n)).2.sendOn j i).1 = _
  rw [(Conn.sendOn_self hq).1, hl]
  rfl

/-- A PING keeps to the congestion window if no probes are to be sent, and is not sent while
closing. -/
theorem ping_within (p : P) (i : In) (l : List Kind) (h : (p.call i).1 = some l) (hp : .ping ∈ l) :
    i.closing = false ∧ ((∀ e, p.probes e = 0) → i.overhead < i.cwnd ∧ (.ack ∈ l → ∃ n, i.ack = some n ∧ i.overhead + n < i.cwnd)) := by
  have e := (call_some (show p.call i = (some l, (p.call i).2) from by rw [← h])).1
  rw [e] at hp ⊢
  exact ping_room hp

/-! ## Packets that do not ask -/

/-- In a row of packets, never more than 24 without, `r` of them before. -/
def Row : Nat → List (List Kind) → Prop
  | _, [] => True
  | r, l :: t => Asks l ∧ Row 0 t ∨ ¬ Asks l ∧ r < maxRun ∧ Row (r + 1) t

/-- The calls of a run are usual, with a wide window. -/
def Calm (ops : List Op) : Prop := ∀ op ∈ ops, ∀ i, (op = .send i ∨ ∃ k, op = .sendOn k i) → Usual i ∧ Wide i

theorem row (c : Conn) (j : Nat) (p : P) (hp : c.paths[j]? = some p) (ops : List Op) (h : Calm ops) : Row p.run (on j (c.exec ops).1) := by
  induction ops generalizing c p with
  | nil => trivial
  | cons op l ih =>
    simp only [Conn.exec]
    rw [on_append]
    have hl : Calm l := fun op ho => h op (List.mem_cons_of_mem _ ho)
    rcases Conn.step_path c op j p hp with ⟨i, ho, h1, h2⟩ | ⟨q, hq, hr, _, hno⟩
    · have hu : Usual i ∧ Wide i := h op List.mem_cons_self i (by
        rcases ho with ⟨ho, _⟩ | ho
        · exact Or.inl ho
        · exact Or.inr ⟨j, ho⟩)
      rw [h1, on_self]
      cases hc : (p.call i).1 with
      | none =>
        rw [call_none hc] at h2
        exact ih _ p h2 hl
      | some x =>
        obtain ⟨e1, e2, e3⟩ := call_some (show p.call i = (some x, (p.call i).2) from by rw [← hc])
        have hrest := ih _ _ h2 hl
        rw [e2] at hrest
        show Row p.run (x :: _)
        cases he : P.elicits x with
        | true =>
          left
          refine ⟨(elicits_iff x).mp he, ?_⟩
          have : (p.after i x).run = 0 := by unfold P.after; dsimp only; rw [he]; rfl
          rw [this] at hrest
          exact hrest
        | false =>
          right
          refine ⟨fun hA => ?_, ?_, ?_⟩
          · rw [(elicits_iff x).mpr hA] at he; cases he
          · apply Nat.lt_of_not_le
            intro hge
            have := frames_elicit (fits hu.1 hu.2 p) e3 hu.1.closing (Or.inr (by unfold P.required; simp; omega))
            rw [← e1, he] at this
            cases this
          · have : (p.after i x).run = p.run + 1 := by unfold P.after; dsimp only; rw [he]; rfl
            rw [this] at hrest
            exact hrest
    · rw [on_other hno, ← hr]
      exact ih _ q hq hl

theorem row_prefix {r : Nat} {mid post : List (List Kind)} (h : Row r (mid ++ post)) (hr : r ≤ maxRun) (hl : maxRun + 1 ≤ r + mid.length) :
    ∃ l ∈ mid, Asks l := by
  induction mid generalizing r with
  | nil =>
    have hr : r ≤ 24 := hr
    have hl : 24 + 1 ≤ r + 0 := hl
    omega
  | cons x t ih =>
    rcases h with ⟨h, _⟩ | ⟨_, h1, h2⟩
    · exact ⟨x, List.mem_cons_self, h⟩
    · obtain ⟨l, hm, hA⟩ := ih h2 h1 (by rw [List.length_cons] at hl; omega)
      exact ⟨l, List.mem_cons_of_mem _ hm, hA⟩

theorem row_drop {r : Nat} {pre t : List (List Kind)} (h : Row r (pre ++ t)) (hr : r ≤ maxRun) : ∃ r', r' ≤ maxRun ∧ Row r' t := by
  induction pre generalizing r with
  | nil => exact ⟨r, hr, h⟩
  | cons x l ih =>
    rcases h with ⟨_, h⟩ | ⟨_, h1, h2⟩
    · exact ih h (Nat.zero_le _)
    · exact ih h2 h1

/-- Of 25 packets in a row on a path, one asks for an acknowledgement. -/
theorem one_in_25 (c : Conn) (j : Nat) (p : P) (hp : c.paths[j]? = some p) (h0 : p.run = 0) (ops : List Op) (h : Calm ops)
    (pre mid post : List (List Kind)) (ht : on j (c.exec ops).1 = pre ++ mid ++ post) (hm : mid.length = 25) : ∃ l ∈ mid, Asks l := by
  have hr := row c j p hp ops h
  rw [h0, ht, List.append_assoc] at hr
  obtain ⟨r, h1, h2⟩ := row_drop hr (Nat.zero_le _)
  exact row_prefix h2 h1 (by rw [hm]; show 24 + 1 ≤ r + 25; omega)

/-! ## Examples, and what does not hold -/

abbrev c0 : Conn := ⟨[{ active := true }, {}], 0⟩

/-- Only something to acknowledge. -/
abbrev ackOnly (cwnd : Nat) : In := { ready := true, left := 1000, overhead := 40, cwnd := cwnd, ack := some 5, ackElicited := true }

/-- The first 24 packets have an ACK only, then there is a PING. -/
example : (c0.exec (List.replicate 26 (.send (ackOnly 5000)))).1.map (·.2) =
    List.replicate 24 [.ack] ++ [[.ack, .ping]] ++ [[.ack]] := by decide +kernel

/-- Nothing to send; the application asks; a probe of the path MTU goes first. -/
example : (c0.exec [.send { left := 1000, overhead := 40, cwnd := 5000 }, .ask, .send { left := 1000, overhead := 40, cwnd := 5000, mtu := true },
    .send { left := 1000, overhead := 40, cwnd := 5000 }, .send { left := 1000, overhead := 40, cwnd := 5000 }]).1 =
    [(0, [.mtuProbe]), (0, [.ping])] := by decide +kernel

/-- If the window is full the packets do not ask, however many. -/
theorem no_window_false : ¬ ∀ (ops : List Op), (∀ op ∈ ops, ∃ i, op = .send i ∧ Usual i) →
    ∀ pre mid post, on 0 (c0.exec ops).1 = pre ++ mid ++ post → mid.length = 25 → ∃ l ∈ mid, Asks l := by
  intro h
  obtain ⟨l, hl, k, hk, h1, _⟩ := h (List.replicate 25 (.send (ackOnly 45))) (by
    intro op ho
    rw [List.eq_of_mem_replicate ho]
    exact ⟨_, rfl, rfl, rfl, rfl, by decide, by decide, fun n hn => by cases hn; decide⟩)
    [] (List.replicate 25 [.ack]) [] (by decide +kernel) (by decide)
  rw [List.eq_of_mem_replicate hl, List.mem_singleton] at hk
  exact h1 hk

/-- The application asks, then the connection moves to another path: `send` sends nothing. -/
theorem moved_false : ¬ ∀ (k : Nat) (i : In), k < c0.paths.length → Usual i → Wide i →
    ∃ r, ((c0.exec [.ask, .migrate k]).2.step (.send i)).1 = some r ∧ Asks r.2 := by
  intro h
  obtain ⟨r, hr, _⟩ := h 1 { left := 1000, overhead := 40, cwnd := 5000 } (by decide)
    ⟨rfl, rfl, rfl, by decide, by decide, fun n hn => (nomatch hn)⟩ (by unfold Wide; decide)
  have : ((c0.exec [.ask, .migrate 1]).2.step (.send { left := 1000, overhead := 40, cwnd := 5000 })).1 = none := by decide +kernel
  rw [this] at hr
  cases hr

end Verif.Props.C192
