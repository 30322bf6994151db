import Verif.Conn.Reach

/-! # C23 — connection receive credit is conserved -/

namespace Verif.C23
open Verif Stream Verif.Conn Verif.Conn.Conn

/-- **C23**, first half. After every history, unless the connection is being closed
because of an error, the bytes reported as consumed to the connection's flow control are
at most the bytes charged to it. -/
theorem consumed_le_charged (g : Config) (hd : 0 < g.factorDen) (ops : List Op) (hok : ∀ op ∈ ops, op.Ok)
    (hcr : (after g ops).crashed = false) (hdd : (after g ops).dead = false) :
    (after g ops).fc.consumed ≤ (after g ops).rxData := by
  rcases after_inv g hd hok with hI | hc
  · have := (hI.rx hdd).le; omega
  · rw [hcr] at hc; cases hc

/-- Nothing is outstanding on the stream: everything received was read, or the stream was
reset, or reading was abandoned. -/
def Settled (s : Stream) : Prop := s.recv.off = s.recv.len

theorem sum_settled {L : List (Nat × Stream)} (h : ∀ p ∈ L, Settled p.2) : Assoc.sum held L = 0 := by
  induction L with
  | nil => rfl
  | cons p t ih =>
    have h1 := h p List.mem_cons_self
    have h2 := ih (fun q hq => h q (List.mem_cons_of_mem _ hq))
    unfold Settled at h1
    simp only [Assoc.sum, List.map_cons, List.sum_cons, held] at *
    omega

/-- **C23**, second half, for histories without empty STREAM frames that lack FIN: once
every stream is settled, what was charged has been consumed to the last byte.
Missing: such empty frames, for which it is false (`credit_leaks`). -/
theorem consumed_eq_charged_partial (g : Config) (hd : 0 < g.factorDen) (ops : List Op) (hok : ∀ op ∈ ops, op.Ok)
    (hcr : (after g ops).crashed = false) (hdd : (after g ops).dead = false)
    (hclean : ∀ id off, .recvStream id off [] false ∉ ops)
    (hset : ∀ p ∈ (after g ops).streams, Settled p.2) :
    (after g ops).fc.consumed = (after g ops).rxData := by
  rcases after_inv g hd hok with hI | hc
  · have hc : (books g ops).clean = true := by
      have step : ∀ (h : Hist) (op : Op) (ev : Ev), (∀ id off, op ≠ .recvStream id off [] false) →
          (h.step op ev).clean = h.clean := by
        intro h op ev hne
        unfold Hist.step
        split <;> try rfl
        next id off data fin =>
        have : (data.isEmpty && !fin) = false := by
          cases data with
          | nil => cases fin with
            | false => exact absurd rfl (hne id off)
            | true => rfl
          | cons => rfl
        simp [this]
      have run : ∀ (ops : List Op) (c : Conn) (h : Hist), (∀ id off, .recvStream id off [] false ∉ ops) →
          (h.of (c.run ops).2).clean = h.clean := by
        intro ops
        induction ops with
        | nil => intro c h _; rfl
        | cons op ops ih =>
          intro c h hn
          have := ih (c.step op).1 (h.step op (c.step op).2)
            (fun id off hm => hn id off (List.mem_cons_of_mem _ hm))
          refine this.trans (step h op _ ?_)
          intro id off e
          exact hn id off (e ▸ List.mem_cons_self)
      exact run ops (start g) (Hist.init g) hclean
    have h1 := (hI.rx hdd).eq hc
    rw [sum_settled hset] at h1
    omega
  · rw [hcr] at hc; cases hc

/-- Empty STREAM frames without FIN ahead of the data are charged each time, but never
consumed: a single stream that was received and read completely leaves a gap, and with it
less credit for ever. -/
theorem credit_leaks : ∃ g ops, 0 < g.factorDen ∧ (∀ op ∈ ops, op.Ok) ∧ (after g ops).crashed = false ∧
    (after g ops).dead = false ∧ (after g ops).streams = [] ∧
    (after g ops).fc.consumed + 20 = (after g ops).rxData := by
  refine ⟨{ isServer := true, loc := { uni := 100 }, maxData := 50, maxWindow := 100, maxStreamsUni := 9, maxStreamWindow := 100 },
    [.recvStream 2 10 [] false, .recvStream 2 10 [] false, .recvStream 2 0 (List.replicate 10 1) true, .recv 2 100],
    by decide, ?_, by decide⟩
  intro op hop
  simp only [List.mem_cons, List.not_mem_nil, or_false] at hop
  rcases hop with rfl | rfl | rfl | rfl <;> trivial

/-- A server that advertised 50 bytes for the connection. -/
def server : Config :=
  { isServer := true
    loc := { bidiRemote := 100 }
    maxData := 50
    maxWindow := 100
    maxStreamsBidi := 9
    maxStreamWindow := 100 }

/-- A stream that is reset after part of it was read, one that is abandoned and then
reset, and one that is read: 4 + 9 + 3 bytes are charged and consumed. -/
example : let c := after server [.recvStream 0 0 [1, 2] false, .recv 0 1, .recvReset 0 7 4, .recvStream 4 5 [1, 2] false, .shutRead 4 0,
       .recvReset 4 7 9, .recvStream 8 0 [1, 2, 3] true, .recv 8 2, .recv 8 2];
    c.fc.consumed = 16 ∧ c.rxData = 16 := by decide

end Verif.C23
