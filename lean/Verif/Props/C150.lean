import Verif.Stream.PairWindow

/-! # C150 — a stream between two endpoints never gets stuck -/

namespace Verif.Props.C150
open Verif Verif.Stream Verif.Stream.Pair
open Verif.Stream.SendBuf (SEv written wasCut ackedByte)
open Verif.Stream.RecvBuf (REv delivered firstByte wasReset wasShut finTold)

/-- Nothing that was written needs the packets sent so far: let all of them be given up for lost, let as many packets of any sizes be
sent as there are bytes, and let those arrive in any order; then one read gets all that was written. -/
theorem sent_again {m : Nat} (hm : m < 2 ^ 62) (w mw : Nat) (ops : List POp) (ns ds : List Nat) (cap : Nat) :
    let p := (start m w mw).run ops
    ¬ wasCut p.said → wasReset p.seen = none → wasShut p.seen = false → (∀ n ∈ ns, 0 < n) → (written p.said).length ≤ ns.length →
    (∀ i, p.frames.length ≤ i → i < p.frames.length + ns.length → i ∈ ds) → (written p.said).length ≤ (delivered p.seen).length + cap →
    delivered ((p.run (retry p ns ds)).step (.read cap)).seen = written p.said := by
  intro p hn hr hs hpos hlen hall hcap
  obtain ⟨r1, r2, r3, r4, r5, r6, r7, r8, -⟩ := retry_arrives (reach_pinv hm w mw ops) hn hpos hlen hall
  rw [read_all r1 (r4.trans hr) (r5.trans hs) (by rw [r3]; exact r8) (by rw [r3, r6]; exact hcap), r3]

/-- With one packet more, the reader of a finished stream of which it has not yet everything also learns of its end. -/
theorem end_sent_again {m : Nat} (hm : m < 2 ^ 62) (w mw : Nat) (ops : List POp) (ns ds : List Nat) (cap : Nat) :
    let p := (start m w mw).run ops
    ¬ wasCut p.said → wasReset p.seen = none → wasShut p.seen = false → SendBuf.finalSize p.said = some (written p.said).length →
    (∀ n ∈ ns, 0 < n) → (written p.said).length < ns.length →
    (∀ i, p.frames.length ≤ i → i < p.frames.length + ns.length → i ∈ ds) → (delivered p.seen).length < (written p.said).length →
    (written p.said).length ≤ (delivered p.seen).length + cap →
    finTold ((p.run (retry p ns ds)).step (.read cap)).seen = true := by
  intro p hn hr hs hf hpos hlen hall hlt hcap
  have h : PInv m p := reach_pinv hm w mw ops
  have hfo : p.tx.s.finOff = some p.tx.s.off := by
    rw [SendBuf.finalSize_eq, h.tx.acc] at hf
    rw [(running h hn).2.2]
    exact hf
  obtain ⟨r1, r2, r3, r4, r5, r6, r7, r8, r9⟩ := retry_arrives h hn hpos (Nat.le_of_lt hlen) hall
  obtain ⟨off, bs, c, b, hw⟩ := r9 hlen hfo
  obtain ⟨F, hF⟩ := final_of_wrote hw
  have h1 := (r1.fin F hF).1
  have h2 := r1.tx.inv.fin F h1
  have h3 := (running r1 r2).2.2
  exact read_fin r1 (r4.trans hr) (r5.trans hs) (by rw [hF, h2, h3]) (by rw [r3]; exact r8) (by rw [r6, r3]; exact hlt)
    (by rw [r3, r6]; exact hcap)

/-- What C150 asks for: as long as neither side gave the stream up and it was not ended, any further data can be written, gets through and
can be ended with, and nobody has to give up anything for it. `x` is the last byte. -/
def CanFinish (p : Pair) : Prop :=
  ∀ data x, ∃ ops, (∀ op ∈ ops, op.fair = true ∨ (∃ y, op = .write [y] false) ∨ op = .write [x] true) ∧
    written (p.run ops).said = written p.said ++ data ++ [x] ∧ delivered (p.run ops).seen = written p.said ++ data ++ [x] ∧
    finTold (p.run ops).seen = true

/-- It holds for windows of at least two bytes, until the offsets end (limits are at most `2 ^ 62 - 1`). The window a stream starts with is its
initial limit. -/
theorem can_finish_partial {m mw : Nat} (hm : m < 2 ^ 62) (h1 : 2 ≤ m) (h2 : 2 ≤ mw) (ops : List POp) (data : Bytes) (x : UInt8) :
    let p := (start m m mw).run ops
    ¬ wasCut p.said → wasReset p.seen = none → wasShut p.seen = false → SendBuf.finalSize p.said = none →
    (written p.said).length + data.length + mw < 2 ^ 62 →
    ∃ ops', (∀ op ∈ ops', op.fair = true ∨ (∃ y, op = .write [y] false) ∨ op = .write [x] true) ∧
      written (p.run ops').said = written p.said ++ data ++ [x] ∧ delivered (p.run ops').seen = written p.said ++ data ++ [x] ∧
      finTold (p.run ops').seen = true := by
  intro p hn hr hs hf hb
  have h : WInv m mw p := run_winv (start_winv hm h1 h2) ops
  have hfo : p.tx.s.finOff = none := by
    rw [SendBuf.finalSize_eq, h.base.tx.acc] at hf
    exact hf
  exact finish h ⟨hn, hr, hs, hfo⟩ data x hb

/-- When everything was read, the sender can get room for at least one byte with a single update. -/
theorem window_opens {m mw : Nat} (hm : m < 2 ^ 62) (h1 : 2 ≤ m) (h2 : 2 ≤ mw) (ops : List POp) (now rtt : Nat) (y : UInt8) :
    let p := (start m m mw).run ops
    ¬ wasCut p.said → wasReset p.seen = none → wasShut p.seen = false → SendBuf.finalSize p.said = none → delivered p.seen = written p.said →
    (written p.said).length + mw < 2 ^ 62 →
    written ((p.run (reopen p now rtt)).step (.write [y] false)).said = written p.said ++ [y] := by
  intro p hn hr hs hf hall hb
  have h : WInv m mw p := run_winv (start_winv hm h1 h2) ops
  have hfo : p.tx.s.finOff = none := by
    rw [SendBuf.finalSize_eq, h.base.tx.acc] at hf
    exact hf
  obtain ⟨o1, o2, o3, o4, o5, -⟩ := reopens h hn hr hs hfo hall hb now rtt
  have hq := (run_winv h (reopen p now rtt)).base
  generalize p.run (reopen p now rtt) = q at *
  obtain ⟨he, -, -⟩ := running hq o3
  rcases SendBuf.write_spec hq.tx.inv [y] false with ⟨s', n, e, T⟩ | ⟨er, -, -, hne⟩
  · have hn : n = 1 := by
      have h7 := T.amount
      rw [h7]
      apply Nat.le_antisymm
      · exact Nat.min_le_left _ _
      · exact Nat.le_min.mpr ⟨by simp, by omega⟩
    have hs : SendBuf.step q.tx (.write [y] false) = ({ q.tx with s := s' }, .offered [y] false n) := by
      simp [SendBuf.step, e]
    simp only [step, txStep, hs, SendBuf.written_append, o4]
    simp [written, hn]
  · rcases hne with hne | hne
    · exact absurd he hne
    · exact absurd o5 hne

/-- **It does not hold for a window of one byte**: a stream that may carry one byte at first never carries a second one, whatever is read,
sent and received (room for half a window, which is nothing, is never less than nothing, so no update is sent). -/
theorem one_byte_stuck (mw : Nat) (ops : List POp) : (written ((start 1 1 mw).run ops).said).length ≤ 1 := by
  have h := run_one (start_one mw) ops
  have := h.base.tx.inv.wmax
  rw [h.max] at this
  exact this

theorem can_finish_false (mw : Nat) : ¬ CanFinish (start 1 1 mw) := by
  intro h
  obtain ⟨ops, -, hw, -⟩ := h [1] 2
  have := one_byte_stuck mw ops
  rw [hw] at this
  simp [start, written] at this

/-! Concrete runs -/

/-- The window of four bytes is used up, what was sent is lost, and the writer waits. -/
def exOps : List POp := [.write [1, 2, 3, 4, 5] false, .emit 3, .emit 3]

example : written ((start 4 4 8).run exOps).said = [1, 2, 3, 4] ∧ delivered ((start 4 4 8).run exOps).seen = [] ∧
    ((start 4 4 8).run exOps).frames.length = 2 := by decide +kernel

/-- Sent again, read, and the window opened. -/
def exMore : List POp := retry ((start 4 4 8).run exOps) [2, 1, 1, 1] [5, 4, 3, 2] ++ [.read 9, .update 0 0 true, .grant 0, .write [5, 6] true, .emit 9,
  .deliver 6, .read 9]

example : delivered ((start 4 4 8).run (exOps ++ exMore)).seen = [1, 2, 3, 4, 5, 6] ∧ finTold ((start 4 4 8).run (exOps ++ exMore)).seen = true := by
  decide +kernel

end Verif.Props.C150
