import Verif.Stream.PairRead

/-! What can still be done from any state: data gets through, and the window opens. -/

namespace Verif.Stream.Pair
open Verif Ranges
open Verif.Stream.SendBuf (SOp SEv SSt written wasCut ackedByte)
open Verif.Stream.RecvBuf (ROp REv RSt delivered firstByte wasReset wasShut finTold)

theorem running {m : Nat} {p : Pair} (h : PInv m p) (hn : ¬ wasCut p.said) :
    p.tx.s.error = none ∧ p.tx.s.shutdown = false ∧ p.tx.s.off = (written p.said).length := by
  rcases h.tx.inv.state with hs | hs
  · exact hs
  · exact absurd (h.tx.cut.mpr hs.2.2.2.2.2.1) hn

/-- Frames were declared lost. -/
structure Lose (m : Nat) (p p' : Pair) (is : List Nat) : Prop where
  inv : PInv m p'
  nocut : ¬ wasCut p'.said
  wr : written p'.said = written p.said
  frames : p'.frames = p.frames
  grants : p'.grants = p.grants
  rx : p'.rx = p.rx
  seen : p'.seen = p.seen
  off : p'.tx.s.off = p.tx.s.off
  acked : p'.tx.s.acked = p.tx.s.acked
  finOff : p'.tx.s.finOff = p.tx.s.finOff
  pend : ∀ o, Pend p.tx.s.data o → Pend p'.tx.s.data o
  again : ∀ i ∈ is, ∀ off data fin, p.frames[i]? = some (off, data, fin) → ∀ o, off ≤ o → o < off + data.length → o < p.tx.s.off →
    ¬ Mem o p.tx.s.acked.ranges → Pend p'.tx.s.data o

theorem lose_one {m : Nat} {p : Pair} (h : PInv m p) (hn : ¬ wasCut p.said) (i : Nat) : Lose m p (p.step (.lost i)) [i] := by
  have hP := step_pinv h (.lost i)
  obtain ⟨he, -, -⟩ := running h hn
  cases hf : p.tx.frames[i]? with
  | none =>
    have hs : SendBuf.step p.tx (.lost i) = (p.tx, .idle) := by simp [SendBuf.step, hf]
    refine ⟨hP, ?_, ?_, ?_, rfl, rfl, rfl, ?_, ?_, ?_, ?_, ?_⟩
    · simp only [step, txStep, hs, SendBuf.wasCut_append]; simpa using hn
    · simp [step, txStep, hs, SendBuf.written]
    · simp [step, txStep, hs, framesOf]
    · simp [step, txStep, hs]
    · simp [step, txStep, hs]
    · simp [step, txStep, hs]
    · simp [step, txStep, hs]
    · intro j hj off data fin hq
      simp only [List.mem_singleton] at hj
      subst hj
      rw [← h.same, List.getElem?_map, hq] at hf
      simp at hf
  | some f =>
    obtain ⟨off, len⟩ := f
    obtain ⟨s', n, e, R⟩ := SendBuf.retransmit_spec h.tx.inv off len
    have hs : SendBuf.step p.tx (.lost i) = ({ p.tx with s := s' }, .lost off len) := by
      simp [SendBuf.step, hf, SendBuf.isStopped, he, e]
    refine ⟨hP, ?_, ?_, ?_, rfl, rfl, rfl, ?_, ?_, ?_, ?_, ?_⟩
    · simp only [step, txStep, hs, SendBuf.wasCut_append]; simpa using hn
    · simp [step, txStep, hs, SendBuf.written]
    · simp [step, txStep, hs, framesOf]
    · simp only [step, txStep, hs]; rw [R.fields]
    · simp only [step, txStep, hs]; rw [R.fields]
    · simp only [step, txStep, hs]; rw [R.fields]
    · simp only [step, txStep, hs]; exact R.pend
    · intro j hj off' data fin hq
      simp only [List.mem_singleton] at hj
      subst hj
      rw [← h.same, List.getElem?_map, hq] at hf
      simp only [Option.map_some, Option.some.injEq, Prod.mk.injEq] at hf
      obtain ⟨rfl, rfl⟩ := hf
      simp only [step, txStep, hs]
      exact R.again

theorem lose_list {m : Nat} {p : Pair} (h : PInv m p) (hn : ¬ wasCut p.said) (is : List Nat) : Lose m p (p.run (is.map .lost)) is := by
  induction is generalizing p with
  | nil => exact ⟨h, hn, rfl, rfl, rfl, rfl, rfl, rfl, rfl, rfl, fun _ h => h, by simp⟩
  | cons i l ih =>
    have a := lose_one h hn i
    have b := ih a.inv a.nocut
    simp only [List.map_cons, run]
    refine ⟨b.inv, b.nocut, b.wr.trans a.wr, b.frames.trans a.frames, b.grants.trans a.grants, b.rx.trans a.rx,
      b.seen.trans a.seen, b.off.trans a.off, b.acked.trans a.acked, b.finOff.trans a.finOff,
      fun o ho => b.pend o (a.pend o ho), ?_⟩
    intro j hj off data fin hf o h1 h2 h3 h4
    simp only [List.mem_cons] at hj
    rcases hj with rfl | hj
    · exact b.pend o (a.again j (by simp) off data fin hf o h1 h2 h3 h4)
    · exact b.again j hj off data fin (by rw [a.frames]; exact hf) o h1 h2 (by rw [a.off]; exact h3) (by rw [a.acked]; exact h4)

/-- Every frame declared lost: what was not acknowledged is waiting again. -/
theorem lose_all {m : Nat} {p : Pair} (h : PInv m p) (hn : ¬ wasCut p.said) {o : Nat} (ho : o < (written p.said).length) :
    ackedByte p.said o ∨ Pend (p.run ((List.range p.frames.length).map .lost)).tx.s.data o := by
  have L := lose_list h hn (List.range p.frames.length)
  obtain ⟨-, -, hlen⟩ := running h hn
  rcases h.tx.safe hn o (by omega) with h1 | h1 | ⟨pre, off, bs, fin, post, h1, h2, -⟩
  · exact .inl h1
  · exact .inr (L.pend o h1)
  · by_cases hm : Mem o p.tx.s.acked.ranges
    · exact .inl ((h.tx.mem hn o).mp hm)
    · right
      have hmem : (off, bs, fin) ∈ p.frames := (h.sent (off, bs, fin)).mpr (by rw [h1]; simp)
      obtain ⟨i, hi, he⟩ := List.getElem_of_mem hmem
      exact L.again i (by simpa using hi) off bs fin (by rw [List.getElem?_eq_getElem hi, he]) o h2.1 h2.2 (by omega) hm

/-- Sending changes nothing at the receiver and adds the frames sent. -/
theorem run_emits (p : Pair) (ns : List Nat) :
    let r := SendBuf.run p.tx (ns.map .emit)
    (p.run (ns.map .emit)).tx = r.1 ∧ (p.run (ns.map .emit)).said = p.said ++ r.2 ∧
    (p.run (ns.map .emit)).frames = p.frames ++ r.2.flatMap framesOf ∧ (p.run (ns.map .emit)).rx = p.rx ∧
    (p.run (ns.map .emit)).seen = p.seen ∧ (p.run (ns.map .emit)).grants = p.grants := by
  induction ns generalizing p with
  | nil => simp [run, SendBuf.run]
  | cons n l ih =>
    obtain ⟨h1, h2, h3, h4, h5, h6⟩ := ih (p.step (.emit n))
    simp only [List.map_cons, run, SendBuf.run] at *
    rw [h1, h2, h3, h4, h5, h6]
    simp [step, txStep]

/-- Frames were delivered. -/
structure Got (m : Nat) (p p' : Pair) (is : List Nat) : Prop where
  inv : PInv m p'
  tx : p'.tx = p.tx
  said : p'.said = p.said
  frames : p'.frames = p.frames
  reset : wasReset p'.seen = wasReset p.seen
  shut : wasShut p'.seen = wasShut p.seen
  del : delivered p'.seen = delivered p.seen
  grows : ∀ e ∈ p.seen, e ∈ p'.seen
  got : ∀ i ∈ is, ∀ off data fin, p.frames[i]? = some (off, data, fin) → ∃ c b, REv.wrote off data fin c b ∈ p'.seen

theorem got_one {m : Nat} {p : Pair} (h : PInv m p) (i : Nat) : Got m p (p.step (.deliver i)) [i] := by
  have hP := step_pinv h (.deliver i)
  cases hf : p.frames[i]? with
  | none =>
    have : p.step (.deliver i) = p := by simp [step, hf]
    rw [this]
    exact ⟨h, rfl, rfl, rfl, rfl, rfl, rfl, fun _ h => h, by simp [hf]⟩
  | some f =>
    obtain ⟨off, data, fin⟩ := f
    obtain ⟨c, b, he⟩ := write_ok h (List.mem_of_getElem? hf)
    have hacc : accepted (RecvBuf.step p.rx (.write off data fin)).2 = true := by rw [he]; rfl
    have hs : (p.step (.deliver i)).seen = p.seen ++ [.wrote off data fin c b] ∧ (p.step (.deliver i)).tx = p.tx ∧
        (p.step (.deliver i)).said = p.said ∧ (p.step (.deliver i)).frames = p.frames := by
      simp only [step, hf]
      rw [if_pos hacc]
      simp [rxStep, he]
    obtain ⟨h1, h2, h3, h4⟩ := hs
    refine ⟨hP, h2, h3, h4, ?_, ?_, ?_, ?_, ?_⟩
    · simp [h1, RecvBuf.wasReset_append, wasReset]
    · simp [h1, RecvBuf.wasShut_append, wasShut]
    · simp [h1, RecvBuf.delivered_append, delivered]
    · intro e he; simp [h1, he]
    · intro j hj off' data' fin' hq
      simp only [List.mem_singleton] at hj
      subst hj
      rw [hf] at hq
      cases hq
      exact ⟨c, b, by simp [h1]⟩

theorem got_list {m : Nat} {p : Pair} (h : PInv m p) (is : List Nat) : Got m p (p.run (is.map .deliver)) is := by
  induction is generalizing p with
  | nil => exact ⟨h, rfl, rfl, rfl, rfl, rfl, rfl, fun _ h => h, by simp⟩
  | cons i l ih =>
    have a := got_one h i
    have b := ih a.inv
    simp only [List.map_cons, run]
    refine ⟨b.inv, b.tx.trans a.tx, b.said.trans a.said, b.frames.trans a.frames, b.reset.trans a.reset, b.shut.trans a.shut,
      b.del.trans a.del, fun e he => b.grows e (a.grows e he), ?_⟩
    intro j hj off data fin hf
    simp only [List.mem_cons] at hj
    rcases hj with rfl | hj
    · obtain ⟨c, b', hc⟩ := a.got j (by simp) off data fin hf
      exact ⟨c, b', b.grows _ hc⟩
    · exact b.got j hj off data fin (by rw [a.frames]; exact hf)

/-- Everything sent so far is given up for lost, packets of the sizes `ns` are sent and those
arrive in the order `ds`. -/
def retry (p : Pair) (ns ds : List Nat) : List POp :=
  (List.range p.frames.length).map .lost ++ (ns.map .emit ++ ds.map .deliver)

theorem mem_flatMap_framesOf {es : List SEv} {f : Nat × Bytes × Bool} : f ∈ es.flatMap framesOf ↔ SEv.sent f.1 f.2.1 f.2.2 ∈ es := by
  simp only [List.mem_flatMap, mem_framesOf]
  constructor
  · rintro ⟨e, he, rfl⟩; exact he
  · intro h; exact ⟨_, h, rfl⟩

theorem length_flatMap_framesOf {m0 : Nat} {st : SSt} {es : List SEv} (h : SendBuf.HInv m0 st es) (hc : ¬ wasCut es) (ns : List Nat) :
    ((SendBuf.run st (ns.map .emit)).2.flatMap framesOf).length = ns.length := by
  induction ns generalizing st es with
  | nil => rfl
  | cons n t ih =>
    have he : st.s.error = none := by
      by_cases hh : st.s.error = none
      · exact hh
      · exact absurd (h.cut.mpr (.inl hh)) hc
    obtain ⟨s', bs, fin, e, S⟩ := SendBuf.emit_spec h.inv n
    have hst : SendBuf.step st (.emit n) = ({ s := s', frames := st.frames ++ [(st.s.offFront, bs.length)] },
        .sent st.s.offFront bs fin) := by
      simp [SendBuf.step, SendBuf.isStopped, he, e]
    simp only [List.map_cons, SendBuf.run, hst, List.flatMap_cons, framesOf, List.length_append, List.length_singleton, List.length_cons]
    rw [ih (h.sending S) (by rw [SendBuf.wasCut_append]; simp [hc])]
    simp only [List.length_nil]
    omega

/-- Sending changes neither what was written nor its end. -/
theorem emits_quiet {m0 : Nat} {st : SSt} {es : List SEv} (h : SendBuf.HInv m0 st es) (hc : ¬ wasCut es) (ns : List Nat) :
    written (SendBuf.run st (ns.map .emit)).2 = [] ∧ (SendBuf.run st (ns.map .emit)).1.s.finOff = st.s.finOff ∧
    (SendBuf.run st (ns.map .emit)).1.s.maxData = st.s.maxData := by
  induction ns generalizing st es with
  | nil => simp [SendBuf.run, written]
  | cons n t ih =>
    have he : st.s.error = none := by
      by_cases hh : st.s.error = none
      · exact hh
      · exact absurd (h.cut.mpr (.inl hh)) hc
    obtain ⟨s', bs, fin, e, S⟩ := SendBuf.emit_spec h.inv n
    have hst : SendBuf.step st (.emit n) = ({ s := s', frames := st.frames ++ [(st.s.offFront, bs.length)] },
        .sent st.s.offFront bs fin) := by
      simp [SendBuf.step, SendBuf.isStopped, he, e]
    simp only [List.map_cons, SendBuf.run, hst, written]
    have := ih (h.sending S) (by rw [SendBuf.wasCut_append]; simp [hc])
    refine ⟨this.1, this.2.1.trans ?_, this.2.2.trans ?_⟩
    · rw [S.fields]
    · rw [S.fields]

/-- With one packet to spare the end of a finished stream is sent, too. -/
theorem emits_fin {m0 : Nat} {st : SSt} {es : List SEv} (h : SendBuf.HInv m0 st es) (hc : ¬ wasCut es) {ns : List Nat}
    (hpos : ∀ n ∈ ns, 0 < n) (hlen : (written es).length < ns.length) (hf : st.s.finOff = some st.s.off) :
    ∃ off bs, SEv.sent off bs true ∈ (SendBuf.run st (ns.map .emit)).2 := by
  have hsplit : ns = ns.take (written es).length ++ ns[(written es).length] :: ns.drop ((written es).length + 1) := by
    rw [List.getElem_cons_drop, List.take_append_drop]
  generalize hA : ns.take (written es).length = A at hsplit
  generalize ns[(written es).length] = n at hsplit
  generalize ns.drop ((written es).length + 1) = B at hsplit
  have hAl : A.length = (written es).length := by rw [← hA, List.length_take]; omega
  subst hsplit
  have hpA : ∀ k ∈ A, 0 < k := fun k hk => hpos k (by simp [hk])
  obtain ⟨i1, i2, i3, -⟩ := SendBuf.emits_drain h hc A hpA
  obtain ⟨q1, q2, -⟩ := emits_quiet h hc A
  rw [List.map_append, SendBuf.run_append]
  simp only [List.map_cons, SendBuf.run]
  generalize SendBuf.run st (A.map .emit) = r at *
  obtain ⟨st', ev⟩ := r
  simp only at *
  have hb : st'.s.bufferedBytes = 0 := by
    obtain ⟨base, hch, -⟩ := h.inv.chain
    have := SendBuf.chain_lens_le hch
    have := h.inv.buf
    have := h.inv.wlen
    omega
  have he : st'.s.error = none := by
    by_cases hh : st'.s.error = none
    · exact hh
    · exact absurd (i1.cut.mpr (.inl hh)) i2
  obtain ⟨s', bs, fin, e, S⟩ := SendBuf.emit_spec i1.inv n
  have hst : SendBuf.step st' (.emit n) = ({ s := s', frames := st'.frames ++ [(st'.s.offFront, bs.length)] },
      .sent st'.s.offFront bs fin) := by
    simp [SendBuf.step, SendBuf.isStopped, he, e]
  have hfront : st'.s.offFront = st'.s.off := by
    have h1 := i1.inv.front
    by_cases hl : st'.s.offFront < st'.s.off
    · have := SendBuf.lens_pos (h1.2.1 hl)
      have := i1.inv.buf
      omega
    · omega
  have hfin : fin = true := by
    have h1 := S.bound
    have h2 := i1.inv.fin _ (q2.trans hf)
    rw [S.finFlag, q2, hf, h2]
    simp only [beq_iff_eq, Option.some.injEq]
    omega
  refine ⟨st'.s.offFront, bs, ?_⟩
  rw [hst, hfin]
  simp

/-- Sent again, everything arrives. -/
theorem retry_arrives {m : Nat} {p : Pair} (h : PInv m p) (hn : ¬ wasCut p.said) {ns ds : List Nat} (hpos : ∀ n ∈ ns, 0 < n)
    (hlen : (written p.said).length ≤ ns.length) (hall : ∀ i, p.frames.length ≤ i → i < p.frames.length + ns.length → i ∈ ds) :
    PInv m (p.run (retry p ns ds)) ∧ ¬ wasCut (p.run (retry p ns ds)).said ∧ written (p.run (retry p ns ds)).said = written p.said ∧
    wasReset (p.run (retry p ns ds)).seen = wasReset p.seen ∧ wasShut (p.run (retry p ns ds)).seen = wasShut p.seen ∧
    delivered (p.run (retry p ns ds)).seen = delivered p.seen ∧
    (p.run (retry p ns ds)).tx.s.finOff = p.tx.s.finOff ∧
    (∀ o, o < (written p.said).length → (firstByte (p.run (retry p ns ds)).seen o).isSome) ∧
    ((written p.said).length < ns.length → p.tx.s.finOff = some p.tx.s.off →
      ∃ off bs c b, REv.wrote off bs true c b ∈ (p.run (retry p ns ds)).seen) := by
  simp only [retry, run_append]
  have L := lose_list h hn (List.range p.frames.length)
  have hla := fun o => lose_all h hn (o := o)
  generalize p.run ((List.range p.frames.length).map .lost) = q at *
  have hE := SendBuf.emits_drain L.inv.tx L.nocut ns hpos
  have hEa := fun o => SendBuf.emits_all L.inv.tx L.nocut ns hpos (by rw [L.wr]; exact hlen) (o := o)
  have hEl := length_flatMap_framesOf L.inv.tx L.nocut ns
  obtain ⟨e1, e2, e3, e4, e5, e6⟩ := run_emits q ns
  simp only at e1 e2 e3 e4 e5 e6 hE
  obtain ⟨i1, i2, -, -⟩ := hE
  have hqi := run_pinv L.inv (ns.map .emit)
  have hwr := emits_quiet L.inv.tx L.nocut ns
  generalize q.run (ns.map .emit) = r at *
  have G := got_list hqi ds
  have hw : written r.said = written p.said := by
    rw [e2, SendBuf.written_append, hwr.1, List.append_nil, L.wr]
  have hidx : ∀ off bs fin, SEv.sent off bs fin ∈ (SendBuf.run q.tx (ns.map .emit)).2 → ∃ c b, REv.wrote off bs fin c b ∈ (r.run (ds.map .deliver)).seen := by
    intro off bs fin g1
    have hmem : (off, bs, fin) ∈ (SendBuf.run q.tx (ns.map .emit)).2.flatMap framesOf := mem_flatMap_framesOf.mpr g1
    obtain ⟨i, hi, he⟩ := List.getElem_of_mem hmem
    have hidx : r.frames[q.frames.length + i]? = some (off, bs, fin) := by
      rw [e3, List.getElem?_append_right (by omega), Nat.add_sub_cancel_left, List.getElem?_eq_getElem hi, he]
    exact G.got (q.frames.length + i) (hall _ (by rw [L.frames]; omega) (by rw [L.frames]; omega)) off bs fin hidx
  refine ⟨G.inv, ?_, ?_, ?_, ?_, ?_, ?_, ?_, ?_⟩
  · rw [G.said, e2]; exact i2
  · rw [G.said, hw]
  · rw [G.reset, e5, L.seen]
  · rw [G.shut, e5, L.seen]
  · rw [G.del, e5, L.seen]
  · rw [G.tx, e1, hwr.2.1, L.finOff]
  · intro o ho
    rcases hla o ho with ha | hp
    · have := acked_arrived h ha
      obtain ⟨x, hx⟩ := Option.isSome_iff_exists.mp this
      obtain ⟨off, data, fin, c, b, g1, g2, g3, -⟩ := firstByte_some hx
      exact firstByte_covered (G.grows _ (by rw [e5, L.seen]; exact g1)) g2 g3
    · obtain ⟨off, bs, fin, g1, g2, g3⟩ := hEa o hp
      obtain ⟨c, b, hc⟩ := hidx off bs fin g1
      exact firstByte_covered hc g2 g3
  · intro hl hf
    obtain ⟨off, bs, hs⟩ := emits_fin L.inv.tx L.nocut hpos (by rw [L.wr]; exact hl) (by rw [L.finOff, L.off]; exact hf)
    obtain ⟨c, b, hc⟩ := hidx off bs true hs
    exact ⟨off, bs, c, b, hc⟩

theorem final_of_wrote {es : List REv} {off : Nat} {bs : Bytes} {c b : Nat} (h : REv.wrote off bs true c b ∈ es) : ∃ F, RecvBuf.finalSize es = some F := by
  induction es with
  | nil => simp at h
  | cons e t ih =>
    simp only [List.mem_cons] at h
    simp only [RecvBuf.finalSize]
    rcases h with rfl | h
    · exact ⟨_, rfl⟩
    · obtain ⟨F, hF⟩ := ih h
      cases he : e.final with
      | none => exact ⟨F, by simp [hF]⟩
      | some G => exact ⟨G, by simp⟩

/-- The read that gets the last byte of a finished stream tells its end. -/
theorem read_fin {m : Nat} {p : Pair} (h : PInv m p) (hr : wasReset p.seen = none) (hs : wasShut p.seen = false)
    (hf : RecvBuf.finalSize p.seen = some (written p.said).length) {cap : Nat}
    (ha : ∀ o, o < (written p.said).length → (firstByte p.seen o).isSome) (hlt : (delivered p.seen).length < (written p.said).length)
    (hc : (written p.said).length ≤ (delivered p.seen).length + cap) : finTold (p.step (.read cap)).seen = true := by
  have hall := read_all h hr hs ha hc
  have hoff := h.rx.off hr hs
  simp only [step, rxStep, RecvBuf.finTold_append, Bool.or_eq_true, RecvBuf.delivered_append] at hall ⊢
  right
  rcases RecvBuf.emit_spec h.rx.inv cap with ⟨-, hw⟩ | ⟨-, e, -, hw, -⟩ | ⟨-, out, fin, r', hw, hR⟩
  · have hs : RecvBuf.step p.rx (.read cap) = (p.rx, .readErr .done) := by simp only [RecvBuf.step, hw]
    rw [hs] at hall
    simp only [delivered, List.append_nil] at hall
    rw [hall] at hlt
    omega
  · have hs : (RecvBuf.step p.rx (.read cap)).2 = .readErr (.streamReset e) := by simp only [RecvBuf.step, hw]
    rw [hs] at hall
    simp only [delivered, List.append_nil] at hall
    rw [hall] at hlt
    omega
  · obtain ⟨af, haf, -⟩ := RecvBuf.almostFull_of hR.inv
    have hs : (RecvBuf.step p.rx (.read cap)).2 = .got out fin := by simp [RecvBuf.step, hw, haf]
    rw [hs] at hall ⊢
    simp only [delivered, List.append_nil] at hall
    have hfin : fin = true := by
      rw [hR.fin, h.rx.finOff, hf, hR.off, hoff]
      rw [← hall, List.length_append]
    rw [hfin]
    rfl

end Verif.Stream.Pair
