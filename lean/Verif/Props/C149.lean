import Verif.Stream.PairRead
import Verif.Stream.PairLive

/-! # C149 — a stream from end to end over a network that loses, delays, reorders and repeats -/

namespace Verif.Props.C149
open Verif Verif.Stream Verif.Stream.Pair
open Verif.Stream.SendBuf (SEv written wasCut ackedByte)
open Verif.Stream.RecvBuf (REv delivered firstByte wasReset wasShut finTold)

/-- Between two such endpoints no frame of a stream is ever answered with an error, and nothing panics: the final size and the
limits the two know never contradict each other, however the packets are ordered. -/
theorem never_refused {m : Nat} (hm : m < 2 ^ 62) (w mw : Nat) (ops : List POp) :
    (∀ e ∈ ((start m w mw).run ops).seen, e.isReject = false ∧ e ≠ .panic) ∧ SEv.panic ∉ ((start m w mw).run ops).said :=
  ⟨(reach_pinv hm w mw ops).calm, (reach_pinv hm w mw ops).tx.nopanic⟩

/-- What was read is a prefix of what was written, whatever the network and either application did. -/
theorem read_is_prefix {m : Nat} (hm : m < 2 ^ 62) (w mw : Nat) (ops : List POp) :
    delivered ((start m w mw).run ops).seen <+: written ((start m w mw).run ops).said :=
  read_prefix (reach_pinv hm w mw ops)

/-- A byte the sender knows to be acknowledged is at the receiver. -/
theorem acked_is_there {m : Nat} (hm : m < 2 ^ 62) (w mw : Nat) (ops : List POp) (o : Nat)
    (ha : ackedByte ((start m w mw).run ops).said o) :
    ∃ x, firstByte ((start m w mw).run ops).seen o = some x ∧ (written ((start m w mw).run ops).said)[o]? = some x := by
  have h := reach_pinv hm w mw ops
  obtain ⟨x, hx⟩ := Option.isSome_iff_exists.mp (acked_arrived h ha)
  exact ⟨x, hx, arrived_written h hx⟩

/-- When the sender considers the stream done, and did not give it up, the reader can get everything (unless it gave up). -/
theorem done_is_readable {m : Nat} (hm : m < 2 ^ 62) (w mw : Nat) (ops : List POp) :
    let p := (start m w mw).run ops
    p.tx.s.isComplete = true → ¬ wasCut p.said → wasReset p.seen = none → wasShut p.seen = false →
    ∀ cap, (written p.said).length ≤ (delivered p.seen).length + cap → delivered (p.step (.read cap)).seen = written p.said := by
  intro p hc hn hr hs cap hcap
  have h := reach_pinv hm w mw ops
  exact read_all h hr hs (fun o ho => complete_arrived h hc hn ho) hcap

/-- What C149 asks for: the reader is told about the end only when it has everything the other application wrote, and that
application has ended the stream. -/
def EndIsEnd (p : Pair) : Prop :=
  finTold p.seen = true → SendBuf.finalSize p.said = some (written p.said).length ∧ delivered p.seen = written p.said

/-- It holds as long as the writing application does not shut the stream down (giving up because the reader asked for it
is fine). -/
theorem end_is_end_partial {m : Nat} (hm : m < 2 ^ 62) (w mw : Nat) (ops : List POp) (hop : .abandon ∉ ops) :
    EndIsEnd ((start m w mw).run ops) := by
  intro ht
  have h := reach_pinv hm w mw ops
  have hs : Told (start m w mw) ∧ Honest (start m w mw) := by
    constructor
    · intro hf; simp [start, finTold] at hf
    · intro hc; simp [start, wasCut] at hc
  obtain ⟨h1, -⟩ := run_told (start_pinv hm) hs.1 hs.2 hop
  obtain ⟨h2, h3⟩ := h1 ht
  refine ⟨?_, h3⟩
  rw [SendBuf.finalSize_eq, h.tx.acc]
  exact h2

/-- The history of the next theorem: three bytes are written, the first is sent, and the application shuts the stream down.
The next packet has an empty frame with FIN; both frames arrive, RESET_STREAM does not (yet). -/
def cutOps : List POp := [.write [1, 2, 3] false, .emit 1, .abandon, .emit 5, .deliver 0, .deliver 1, .read 10]

/-- **It does not hold in general**: after a shutdown the reader is told that the stream ended properly, after one of the three
bytes written; the writer never ended it. -/
theorem truncated_false : ¬ EndIsEnd ((start 10 10 20).run cutOps) := by
  intro h
  have := (h (by decide +kernel)).2
  revert this
  decide +kernel

/-- What the reader saw in it: one byte and a clean end. -/
theorem truncated_seen : ((start 10 10 20).run cutOps).seen.getLast? = some (.got [1] true) ∧
    written ((start 10 10 20).run cutOps).said = [1, 2, 3] ∧
    ∀ d n, SEv.offered d true n ∉ ((start 10 10 20).run cutOps).said := by
  refine ⟨by decide +kernel, by decide +kernel, ?_⟩
  intro d n hm
  have : ∀ e ∈ ((start 10 10 20).run cutOps).said, (match e with | .offered _ f _ => f | _ => false) = false := by decide +kernel
  have := this _ hm
  simp at this

/-- Nothing left to read and the end known. -/
structure Hidden (p : Pair) : Prop where
  ready : p.rx.r.ready = false
  fin : p.rx.r.finOff = some p.rx.r.off
  told : finTold p.seen = false

theorem hidden_rx {m : Nat} {p : Pair} (h : PInv m p) (hh : Hidden p) (o : RecvBuf.ROp) (hrej : (RecvBuf.step p.rx o).2.isReject = false) :
    (RecvBuf.step p.rx o).1.r.ready = false ∧ (RecvBuf.step p.rx o).1.r.finOff = some (RecvBuf.step p.rx o).1.r.off ∧
    finTold [(RecvBuf.step p.rx o).2] = false := by
  have hd := h.alive
  have hlen := h.rx.inv.fin _ hh.fin
  have same : p.rx.r.ready = false ∧ p.rx.r.finOff = some p.rx.r.off := ⟨hh.ready, hh.fin⟩
  cases o with
  | write off data fin =>
    rcases RecvBuf.write_spec h.rx.inv (RangeBuf.wf_mk' data off fin) (by rfl) with ⟨-, hw⟩ | ⟨-, -, hw⟩ | ⟨hmx, hnb, r', hw, W⟩
    · simp only [RecvBuf.step, hd, Bool.false_eq_true, if_false, hw]; exact ⟨same.1, same.2, rfl⟩
    · simp only [RecvBuf.step, hd, Bool.false_eq_true, if_false, hw]; exact ⟨same.1, same.2, rfl⟩
    · simp only [RecvBuf.step, hd, Bool.false_eq_true, if_false, hw]
      have hk := W.keep hh.fin
      have hle : ¬ (p.rx.r.off < (RangeBuf.mk' data off fin).maxOff) := fun hc => hnb (.inl ⟨_, hh.fin, .inl hc⟩)
      have hl : r'.len = p.rx.r.len := by
        rw [W.len]
        split
        · rfl
        · omega
      have ho : r'.off = p.rx.r.off := by
        rw [W.off]
        split
        · omega
        · rfl
      have hf : r'.finOff = some p.rx.r.off := by
        rw [W.finOff]
        split
        · rename_i hfin
          by_cases hc : p.rx.r.off = (RangeBuf.mk' data off fin).maxOff
          · rw [hc]
          · exact absurd (.inl ⟨_, hh.fin, .inr ⟨hfin, hc⟩⟩) hnb
        · exact hh.fin
      refine ⟨?_, by rw [hf, ho], rfl⟩
      have := hh.ready
      simp only [RecvBuf.ready, hk, ho] at this ⊢
      exact this
  | read cap =>
    rcases RecvBuf.emit_spec h.rx.inv cap with ⟨-, hw⟩ | ⟨hr, -⟩ | ⟨hr, -⟩
    · simp only [RecvBuf.step, hw]; exact ⟨same.1, same.2, rfl⟩
    · rw [hh.ready] at hr; cases hr
    · rw [hh.ready] at hr; cases hr
  | reset code F =>
    rcases RecvBuf.reset_spec h.rx.inv code F with ⟨-, hw⟩ | ⟨-, -, hc, r', hw, -⟩ | ⟨hG, hle, -, ret, r', hw, D⟩
    · simp only [RecvBuf.step, hd, Bool.false_eq_true, if_false, hw]; exact ⟨same.1, same.2, rfl⟩
    · simp [RecvBuf.step, hd, hw, REv.isReject] at hrej
    · have hF := hG _ hh.fin
      simp only [RecvBuf.step, hd, Bool.false_eq_true, if_false, hw]
      refine ⟨?_, by rw [D.finOff, D.allRead], rfl⟩
      cases he : p.rx.r.error with
      | none => exact D.notReady he (by rw [hh.fin]; rfl)
      | some e =>
        have : p.rx.r.reset code F = (.ok ⟨0, 0⟩, p.rx.r) := by
          simp only [RecvBuf.reset, hh.fin, Option.any_some, hF, bne_self_eq_false, Bool.false_eq_true, if_false, he, Option.isSome_some, if_true]
          rw [if_neg (by omega)]
        rw [this] at hw
        cases hw
        exact hh.ready
  | shutdown =>
    rcases RecvBuf.shutdown_spec h.rx.inv with ⟨-, hw⟩ | ⟨-, r', hw, -, w1, w2, w3, w4, w5, w6, w7⟩
    · simp only [RecvBuf.step, hw]; exact ⟨same.1, same.2, rfl⟩
    · simp only [RecvBuf.step, hw]
      exact ⟨by simp [RecvBuf.ready, w4], by rw [w5, w1, hh.fin, hlen], rfl⟩
  | send now rtt fits =>
    simp only [RecvBuf.step, hd, Bool.false_eq_true, if_false]
    split
    · split
      · exact ⟨same.1, same.2, rfl⟩
      · rename_i af haf
        have : ∀ r : RecvBuf, r = (if af then p.rx.r.autotuneWindow now rtt else p.rx.r) → r.ready = false ∧ r.finOff = some r.off := by
          intro r hr
          subst hr
          split
          · exact same
          · exact same
        have h2 := this _ rfl
        cases fits with
        | false => exact ⟨h2.1, h2.2, rfl⟩
        | true => exact ⟨h2.1, h2.2, rfl⟩
    · exact ⟨same.1, same.2, rfl⟩
  | lost =>
    simp only [RecvBuf.step, hd, Bool.false_eq_true, if_false]
    split
    · exact ⟨same.1, same.2, rfl⟩
    · exact ⟨same.1, same.2, rfl⟩

theorem hidden_step {m : Nat} {p : Pair} (h : PInv m p) (hh : Hidden p) (op : POp) : Hidden (p.step op) := by
  have hP := step_pinv h op
  have rx : ∀ o, (RecvBuf.step p.rx o).2.isReject = false → Hidden (p.rxStep o) := by
    intro o hq
    obtain ⟨h1, h2, h3⟩ := hidden_rx h hh o hq
    exact ⟨h1, h2, by simp [rxStep, RecvBuf.finTold_append, hh.told, h3]⟩
  have same : ∀ q : Pair, q.rx = p.rx → q.seen = p.seen → Hidden q := by
    intro q h1 h2
    exact ⟨by rw [h1]; exact hh.ready, by rw [h1]; exact hh.fin, by rw [h2]; exact hh.told⟩
  cases op with
  | write data fin => exact same _ rfl rfl
  | append data cap fin => exact same _ rfl rfl
  | emit n => exact same _ rfl rfl
  | abandon => exact same _ rfl rfl
  | lost i => exact same _ rfl rfl
  | ack i => simp only [step]; split <;> exact same _ rfl rfl
  | grant j =>
    simp only [step]
    split
    · exact hh
    · split <;> exact same _ rfl rfl
  | stop code => simp only [step]; split <;> exact same _ rfl rfl
  | read cap => exact rx _ (hP.calm _ (by simp [step, rxStep])).1
  | ignore => exact rx _ (hP.calm _ (by simp [step, rxStep])).1
  | update now rtt fits => exact rx _ (hP.calm _ (by simp [step, rxStep])).1
  | updateLost => exact rx _ (hP.calm _ (by simp [step, rxStep])).1
  | reset j code =>
    simp only [step] at hP ⊢
    split
    · exact hh
    · rename_i F hF
      rw [hF] at hP
      exact rx _ (hP.calm _ (by simp [rxStep])).1
  | deliver i =>
    simp only [step] at hP ⊢
    split
    · exact hh
    · rename_i off data fin hf
      obtain ⟨c, b, he⟩ := write_ok h (List.mem_of_getElem? hf)
      have := rx (.write off data fin) (by rw [he]; rfl)
      split
      · exact ⟨this.ready, this.fin, this.told⟩
      · exact this

/-- The history of the next theorem: two bytes arrive and are read, but their packet is declared lost. Meanwhile the writer ends the
stream, so that they are sent again together with FIN; all is acknowledged. -/
def lateOps : List POp :=
  [.write [1, 2] false, .emit 9, .deliver 0, .read 9, .write [] true, .lost 0, .emit 9, .deliver 1, .ack 1]

/-- **The end of a stream can stay hidden for ever**: the writer ended it and counts it as done, all its data arrived and was read, but
the reader is not told, whatever happens from then on. -/
theorem end_hidden (more : List POp) :
    let p := (start 10 10 20).run lateOps
    p.tx.s.isComplete = true ∧ SendBuf.finalSize p.said = some 2 ∧ delivered p.seen = [1, 2] ∧ delivered p.seen = written p.said ∧
    RecvBuf.finalSize p.seen = some 2 ∧ finTold ((start 10 10 20).run (lateOps ++ more)).seen = false := by
  refine ⟨by decide +kernel, by decide +kernel, by decide +kernel, by decide +kernel, by decide +kernel, ?_⟩
  have h0 : Hidden ((start 10 10 20).run lateOps) := ⟨by decide +kernel, by decide +kernel, by decide +kernel⟩
  have h1 := reach_pinv (m := 10) (by decide) 10 20 lateOps
  rw [run_append]
  generalize (start 10 10 20).run lateOps = p at *
  induction more generalizing p with
  | nil => exact h0.told
  | cons op l ih => exact ih _ (hidden_step h1 h0 op) (step_pinv h1 op)

/-! Concrete runs -/

/-- Lost, repeated and out of order: all arrives. -/
def exOps : List POp :=
  [.write [1, 2, 3, 4] true, .emit 2, .emit 9, .deliver 1, .read 9, .lost 0, .emit 9, .deliver 2, .deliver 1, .ack 1, .ack 2, .read 9]

example : delivered ((start 10 10 20).run exOps).seen = [1, 2, 3, 4] ∧ finTold ((start 10 10 20).run exOps).seen = true ∧
    ((start 10 10 20).run exOps).tx.s.isComplete = true ∧ .abandon ∉ exOps := by decide +kernel

/-- A reset arrives after all: the reader learns that the stream was given up. -/
example : ((start 10 10 20).run [.write [1, 2, 3] false, .emit 1, .abandon, .deliver 0, .reset 0 7, .read 10]).seen.getLast?
    = some (.readErr (.streamReset 7)) := by decide +kernel

/-- An acknowledgement needs the packet to have arrived. -/
example : ((start 10 10 20).run [.write [1, 2, 3] true, .emit 9, .ack 0]).tx.s.isComplete = false := by decide +kernel

end Verif.Props.C149
