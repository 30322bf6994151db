import Verif.Stream.Pair

/-! What the reader gets at the other end. -/

namespace Verif.Stream.Pair
open Verif
open Verif.Stream.SendBuf (SOp SEv SSt written wasCut ackedByte)
open Verif.Stream.RecvBuf (ROp REv RSt delivered firstByte wasReset wasShut finTold)

theorem firstByte_some {es : List REv} {o : Nat} {x : UInt8} (h : firstByte es o = some x) :
    ∃ off data fin c b, REv.wrote off data fin c b ∈ es ∧ off ≤ o ∧ o < off + data.length ∧ data[o - off]? = some x := by
  induction es with
  | nil => simp [firstByte] at h
  | cons e t ih =>
    cases e with
    | wrote off data fin c b =>
      simp only [firstByte] at h
      split at h
      · rename_i hc
        exact ⟨off, data, fin, c, b, by simp, hc.1, hc.2, h⟩
      · obtain ⟨a1, a2, a3, a4, a5, h1, h2⟩ := ih h
        exact ⟨a1, a2, a3, a4, a5, by simp [h1], h2⟩
    | _ =>
      obtain ⟨a1, a2, a3, a4, a5, h1, h2⟩ := ih (by simpa [firstByte] using h)
      exact ⟨a1, a2, a3, a4, a5, by simp [h1], h2⟩

theorem firstByte_covered {es : List REv} {off : Nat} {data : Bytes} {fin : Bool} {c b o : Nat} (h : REv.wrote off data fin c b ∈ es)
    (h1 : off ≤ o) (h2 : o < off + data.length) : (firstByte es o).isSome := by
  induction es with
  | nil => simp at h
  | cons e t ih =>
    simp only [List.mem_cons] at h
    rcases h with rfl | h
    · simp only [firstByte, h1, h2, and_self, if_true]
      rw [List.getElem?_eq_getElem (by omega)]; rfl
    · have := ih h
      cases e with
      | wrote a d f x y =>
        simp only [firstByte]
        split
        · rw [List.getElem?_eq_getElem (by omega)]; rfl
        · exact this
      | _ => simpa [firstByte] using this

/-- What arrived is what was written. -/
theorem arrived_written {m : Nat} {p : Pair} (h : PInv m p) {o : Nat} {x : UInt8} (hx : firstByte p.seen o = some x) :
    (written p.said)[o]? = some x := by
  obtain ⟨off, data, fin, c, b, h1, h2, h3, h4⟩ := firstByte_some hx
  have := (h.frames _ (h.wrote _ _ _ _ _ h1)).bytes (o - off) (by simp only; omega)
  simp only at this
  rw [h4, show off + (o - off) = o by omega] at this
  exact this.symm

theorem read_prefix {m : Nat} {p : Pair} (h : PInv m p) : delivered p.seen <+: written p.said := by
  have key : ∀ i, i < (delivered p.seen).length → (delivered p.seen)[i]? = (written p.said)[i]? := by
    intro i hi
    have h1 := h.rx.pre i hi
    rw [List.getElem?_eq_getElem hi] at h1
    rw [List.getElem?_eq_getElem hi, arrived_written h h1.symm]
  have hl : (delivered p.seen).length ≤ (written p.said).length := by
    by_cases h0 : (delivered p.seen).length = 0
    · omega
    · have := key ((delivered p.seen).length - 1) (by omega)
      rw [List.getElem?_eq_getElem (by omega)] at this
      have := (List.getElem?_eq_some_iff.mp this.symm).1
      omega
  rw [List.prefix_iff_eq_take]
  apply List.ext_getElem?
  intro i
  by_cases hi : i < (delivered p.seen).length
  · rw [key i hi, List.getElem?_take_of_lt hi]
  · rw [List.getElem?_eq_none (by omega), List.getElem?_eq_none (by simp; omega)]

/-- What was acknowledged has arrived. -/
theorem acked_arrived {m : Nat} {p : Pair} (h : PInv m p) {o : Nat} (ha : ackedByte p.said o) : (firstByte p.seen o).isSome := by
  obtain ⟨off, len, h1, h2, h3⟩ := ha
  obtain ⟨i, data, fin, g1, g2, g3⟩ := h.acked off len h1
  obtain ⟨off', data', fin', c, b, k1, k2⟩ := h.arrived i g1
  rw [g2] at k1
  simp only [Option.some.injEq, Prod.mk.injEq] at k1
  obtain ⟨rfl, rfl, rfl⟩ := k1
  exact firstByte_covered k2 h2 (by omega)

/-- Once everything written has arrived, one read with enough room gets the rest. -/
theorem read_all {m : Nat} {p : Pair} (h : PInv m p) (hr : wasReset p.seen = none) (hs : wasShut p.seen = false)
    (ha : ∀ o, o < (written p.said).length → (firstByte p.seen o).isSome) {cap : Nat}
    (hc : (written p.said).length ≤ (delivered p.seen).length + cap) :
    delivered (p.step (.read cap)).seen = written p.said := by
  have hP := step_pinv h (.read cap)
  have hpre := read_prefix hP
  have hw : written (p.step (.read cap)).said = written p.said := rfl
  rw [hw] at hpre
  apply hpre.eq_of_length_le
  have hoff := h.rx.off hr hs
  have hlook := h.rx.look hr hs
  have hdel : delivered (p.step (.read cap)).seen = delivered p.seen ++ delivered [(RecvBuf.step p.rx (.read cap)).2] := by
    simp only [step, rxStep, RecvBuf.delivered_append]
  rw [hdel, List.length_append]
  rcases RecvBuf.emit_spec h.rx.inv cap with ⟨hnr, -⟩ | ⟨-, e, he, -⟩ | ⟨-, out, fin, r', hw, hR⟩
  · by_cases hlt : (delivered p.seen).length < (written p.said).length
    · have h1 := ha _ hlt
      rw [← hoff, ← hlook _ (Nat.le_refl _)] at h1
      have := (RecvBuf.ready_iff h.rx.inv).mpr (.inl h1)
      rw [this] at hnr; cases hnr
    · omega
  · rw [h.rx.err, hr] at he; cases he
  · obtain ⟨af, haf, -⟩ := RecvBuf.almostFull_of hR.inv
    have : (RecvBuf.step p.rx (.read cap)).2 = .got out fin := by simp [RecvBuf.step, hw, haf]
    rw [this]
    simp only [delivered, List.append_nil]
    rcases hR.full with hf | hf
    · omega
    · by_cases hlt : r'.off < (written p.said).length
      · have h1 := ha _ hlt
        have h2 := hR.off
        rw [← hlook _ (by omega), hf] at h1
        cases h1
      · have := hR.off
        omega

/-- The sender says it is done and did not give up: everything written has arrived. -/
theorem complete_arrived {m : Nat} {p : Pair} (h : PInv m p) (hc : p.tx.s.isComplete = true) (hn : ¬ wasCut p.said) {o : Nat}
    (ho : o < (written p.said).length) : (firstByte p.seen o).isSome := by
  obtain ⟨F, h1, -, h3⟩ := (SendBuf.complete_spec h.tx.inv).mp hc
  have hF := h.tx.inv.fin F h1
  have hlen : p.tx.s.off = (written p.said).length := by
    rcases h.tx.inv.state with hs | hs
    · exact hs.2.2
    · exact absurd (h.tx.cut.mpr hs.2.2.2.2.2.1) hn
  exact acked_arrived h ((h.tx.mem hn o).mp (h3 o (by omega)))

/-- The stream was given up only because the reader asked for it. -/
def Honest (p : Pair) : Prop := wasCut p.said → p.rx.r.drain = true

/-- The end that was told is the end. -/
def Told (p : Pair) : Prop :=
  finTold p.seen = true → p.tx.s.finOff = some (written p.said).length ∧ delivered p.seen = written p.said

theorem finOff_frozen {m0 : Nat} {st : SSt} {es : List SEv} (h : SendBuf.HInv m0 st es) {F : Nat} (hf : st.s.finOff = some F) (op : SOp) :
    written (es ++ [(SendBuf.step st op).2]) = written es := by
  have key : ∀ d f n, (SendBuf.step st op).2 = .offered d f n → d.take n = [] := by
    intro d f n he
    cases op with
    | write d' f' =>
      simp only [SendBuf.step] at he
      rcases SendBuf.write_spec h.inv d' f' with ⟨s', k, e, T⟩ | ⟨er, e, -⟩
      · rw [e] at he
        simp only [SEv.offered.injEq] at he
        obtain ⟨rfl, -, rfl⟩ := he
        have := (T.dead (.inr (.inr (by simp [hf])))).1
        simp [this]
      · rw [e] at he
        cases er <;> cases he
    | append d' cap f' =>
      simp only [SendBuf.step] at he
      rcases SendBuf.appendBuf_spec h.inv d' cap (if cap < d'.length then false else f') with ⟨s', k, r, e, T, -⟩ | ⟨er, e, -⟩
      · rw [e] at he
        simp only [SEv.offered.injEq] at he
        obtain ⟨-, -, rfl⟩ := he
        have := (T.dead (.inr (.inr (by simp [hf])))).1
        simp [this]
      · rw [e] at he
        cases er <;> cases he
    | emit n =>
      simp only [SendBuf.step] at he
      split at he
      · cases he
      · split at he <;> cases he
    | ack i =>
      simp only [SendBuf.step] at he
      split at he
      · cases he
      · split at he <;> cases he
    | lost i =>
      simp only [SendBuf.step] at he
      split at he
      · cases he
      · split at he
        · cases he
        · split at he <;> cases he
    | maxData m => cases he
    | stop c => simp only [SendBuf.step] at he; split at he <;> cases he
    | shutdown => simp only [SendBuf.step] at he; split at he <;> cases he
  rw [SendBuf.written_append]
  cases he : (SendBuf.step st op).2 with
  | offered d f n => simp [written, key d f n he]
  | _ => simp [written]

theorem tx_told {m : Nat} {p : Pair} (h : PInv m p) (ht : Told p) (op : SOp) : Told (p.txStep op) := by
  intro hf
  obtain ⟨h1, h2⟩ := ht hf
  have hM := step_moved h.tx op
  have hw := finOff_frozen h.tx h1 op
  have hb : (written p.said).length ≤ p.tx.s.emitOff := by
    have h3 := h.len
    have h4 := h.rx.inv.offlen
    have h5 := h.rx.offge
    rw [h.rx.len] at h4
    rw [← h2]; omega
  simp only [txStep, hw]
  exact ⟨hM.fin _ h1 hb, h2⟩

theorem rx_told {m : Nat} {p : Pair} (h : PInv m p) (ht : Told p) (hh : Honest p) {op : ROp} (hP : PInv m (p.rxStep op)) : Told (p.rxStep op) := by
  intro hf
  simp only [rxStep, RecvBuf.finTold_append, Bool.or_eq_true] at hf
  have hpre := read_prefix hP
  have hw : written (p.rxStep op).said = written p.said := rfl
  rw [hw] at hpre ⊢
  rcases hf with hf | hf
  · obtain ⟨h1, h2⟩ := ht hf
    refine ⟨h1, hpre.eq_of_length_le ?_⟩
    simp only [rxStep, RecvBuf.delivered_append, List.length_append, h2]
    omega
  · -- this read told the end
    have hgot : ∃ out, (RecvBuf.step p.rx op).2 = .got out true := by
      cases he : (RecvBuf.step p.rx op).2 with
      | got out fin =>
        rw [he] at hf
        cases fin with
        | false => simp [finTold] at hf
        | true => exact ⟨out, rfl⟩
      | _ => rw [he] at hf; simp [finTold] at hf
    obtain ⟨out, he⟩ := hgot
    cases op with
    | read cap =>
      rcases RecvBuf.emit_spec h.rx.inv cap with ⟨-, hw'⟩ | ⟨-, e, -, hw', -⟩ | ⟨hrd, out', fin', r', hw', hR⟩
      · simp [RecvBuf.step, hw'] at he
      · simp [RecvBuf.step, hw'] at he
      · obtain ⟨af, haf, -⟩ := RecvBuf.almostFull_of hR.inv
        have hs : RecvBuf.step p.rx (.read cap) = ({ p.rx with r := r', pending := p.rx.pending || af }, .got out' fin') := by
          simp [RecvBuf.step, hw', haf]
        rw [hs] at he
        simp only [REv.got.injEq] at he
        obtain ⟨rfl, rfl⟩ := he
        have hdr : p.rx.r.drain = false := by
          cases hd : p.rx.r.drain with
          | false => rfl
          | true => simp [RecvBuf.ready, (h.rx.inv.drn hd).1] at hrd
        have hn : ¬ wasCut p.said := fun hc => by have := hh hc; simp [hdr] at this
        have h1 := hR.fin.mp rfl
        obtain ⟨g1, g2⟩ := h.fin _ (by rw [← h.rx.finOff]; exact h1)
        have g3 := h.tx.inv.fin _ g1
        have hlen : p.tx.s.off = (written p.said).length := by
          rcases h.tx.inv.state with hs | hs
          · exact hs.2.2
          · exact absurd (h.tx.cut.mpr hs.2.2.2.2.2.1) hn
        refine ⟨by rw [← hlen, ← g3]; exact g1, hpre.eq_of_length_le ?_⟩
        have hoff := h.rx.off (by rw [← h.rx.err]; exact hR.noerr) (by rw [← h.rx.drn]; exact hdr)
        simp only [rxStep, hs, RecvBuf.delivered_append, List.length_append, delivered, List.append_nil]
        have := hR.off
        omega
    | write a b c =>
      simp only [RecvBuf.step] at he
      split at he
      · cases he
      · split at he <;> cases he
    | reset a b =>
      simp only [RecvBuf.step] at he
      split at he
      · cases he
      · split at he <;> cases he
    | shutdown => simp only [RecvBuf.step] at he; split at he <;> cases he
    | send now rtt fits =>
      simp only [RecvBuf.step] at he
      split at he
      · cases he
      · split at he
        · split at he
          · cases he
          · cases fits <;> simp at he
        · cases he
    | lost =>
      simp only [RecvBuf.step] at he
      split at he
      · cases he
      · split at he <;> cases he

theorem tx_honest {m : Nat} {p : Pair} (h : PInv m p) (hh : Honest p) {op : SOp} (hop : (∃ c, op = .stop c) ∨ op = .shutdown → p.rx.r.drain = true) :
    Honest (p.txStep op) := by
  intro hc
  simp only [txStep, SendBuf.wasCut_append] at hc
  rcases hc with hc | ⟨F, u, he⟩
  · exact hh hc
  · have hS := step_says h.tx op
    apply hop
    cases op with
    | stop c => exact .inl ⟨c, rfl⟩
    | shutdown => exact .inr rfl
    | write d' f' =>
      simp only [SendBuf.step] at he
      split at he <;> cases he
    | append d' cap f' =>
      simp only [SendBuf.step] at he
      split at he <;> cases he
    | emit n =>
      simp only [SendBuf.step] at he
      split at he
      · cases he
      · split at he <;> cases he
    | ack i =>
      simp only [SendBuf.step] at he
      split at he
      · cases he
      · split at he <;> cases he
    | lost i =>
      simp only [SendBuf.step] at he
      split at he
      · cases he
      · split at he
        · cases he
        · split at he <;> cases he
    | maxData m => cases he

theorem rx_honest {m : Nat} {p : Pair} (h : PInv m p) (hh : Honest p) {op : ROp} (hP : PInv m (p.rxStep op)) : Honest (p.rxStep op) := by
  intro hc
  have h1 := hh hc
  have h2 := hP.rx.drn
  rw [h2]
  simp only [rxStep, RecvBuf.wasShut_append, ← h.rx.drn, h1, Bool.true_or]

theorem step_told {m : Nat} {p : Pair} (h : PInv m p) (ht : Told p) (hh : Honest p) {op : POp} (hop : op ≠ .abandon) :
    Told (p.step op) ∧ Honest (p.step op) := by
  have hP := step_pinv h op
  cases op with
  | abandon => exact absurd rfl hop
  | write data fin => exact ⟨tx_told h ht _, tx_honest h hh (by simp)⟩
  | append data cap fin => exact ⟨tx_told h ht _, tx_honest h hh (by simp)⟩
  | emit n => exact ⟨tx_told h ht _, tx_honest h hh (by simp)⟩
  | lost i => exact ⟨tx_told h ht _, tx_honest h hh (by simp)⟩
  | ack i =>
    simp only [step]
    split
    · exact ⟨tx_told h ht _, tx_honest h hh (by simp)⟩
    · exact ⟨ht, hh⟩
  | grant j =>
    simp only [step]
    split
    · exact ⟨ht, hh⟩
    · split
      · exact ⟨tx_told h ht _, tx_honest h hh (by simp)⟩
      · exact ⟨ht, hh⟩
  | stop code =>
    simp only [step]
    split
    · rename_i hd
      exact ⟨tx_told h ht _, tx_honest h hh (fun _ => hd)⟩
    · exact ⟨ht, hh⟩
  | read cap => exact ⟨rx_told h ht hh hP, rx_honest h hh hP⟩
  | ignore => exact ⟨rx_told h ht hh hP, rx_honest h hh hP⟩
  | update now rtt fits => exact ⟨rx_told h ht hh hP, rx_honest h hh hP⟩
  | updateLost => exact ⟨rx_told h ht hh hP, rx_honest h hh hP⟩
  | reset j code =>
    simp only [step] at hP ⊢
    split
    · exact ⟨ht, hh⟩
    · rename_i F hF
      rw [hF] at hP
      exact ⟨rx_told h ht hh hP, rx_honest h hh hP⟩
  | deliver i =>
    simp only [step] at hP ⊢
    split
    · exact ⟨ht, hh⟩
    · rename_i off data fin hf
      rw [hf] at hP
      simp only at hP
      split at hP
      · rename_i hacc
        rw [if_pos hacc]
        have hP' : PInv m (p.rxStep (.write off data fin)) := by
          obtain ⟨c, b, he⟩ := write_ok h (List.mem_of_getElem? hf)
          refine ⟨hP.tx, hP.rx, hP.alive, hP.calm, hP.same, hP.sent, hP.frames, hP.resets, hP.fin, hP.len, hP.lim, hP.grants,
            ?_, hP.wrote, ?_⟩
          · intro k hk
            exact hP.arrived k (by simp only [List.mem_append]; exact .inl hk)
          · exact h.acked
        exact ⟨rx_told h ht hh hP', rx_honest h hh hP'⟩
      · rename_i hacc
        rw [if_neg hacc]
        exact ⟨rx_told h ht hh hP, rx_honest h hh hP⟩

theorem run_told {m : Nat} {p : Pair} (h : PInv m p) (ht : Told p) (hh : Honest p) {ops : List POp} (hop : .abandon ∉ ops) :
    Told (p.run ops) ∧ Honest (p.run ops) := by
  induction ops generalizing p with
  | nil => exact ⟨ht, hh⟩
  | cons op l ih =>
    simp only [List.mem_cons, not_or] at hop
    obtain ⟨h1, h2⟩ := step_told h ht hh (op := op) (fun he => hop.1 he.symm)
    exact ih (step_pinv h op) h1 h2 hop.2

end Verif.Stream.Pair
