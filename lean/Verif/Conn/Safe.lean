import Verif.Conn.StepD

/-! Every operation preserves the invariant. -/

namespace Verif.Conn
open Verif Verif.Stream

namespace Conn
variable {c c' : Conn} {h : Hist} {gone : List Nat}

theorem collectAcked_inv (hI : Inv c h gone) {id : Nat} {s : Stream} (hg : c.get id = some s) :
    Inv (c.collectAcked id s) h gone := by
  unfold collectAcked
  refine hI.ite_collect hg ?_
  simp only [Bool.and_eq_true]
  exact fun x => x.1.1

theorem collectAcked_fields (c : Conn) (id : Nat) (s : Stream) :
    (c.collectAcked id s).txBuffered = c.txBuffered ∧ (c.collectAcked id s).crashed = c.crashed := by
  unfold collectAcked; split <;> simp

/-- `tx_buffered` follows the buffers of the streams. -/
theorem collectAcked_buffered (c : Conn) (id : Nat) (s : Stream) (n : Nat) :
    ({ c with txBuffered := n } : Conn).collectAcked id s = { (c.collectAcked id s) with txBuffered := n } := by
  unfold collectAcked
  split
  · unfold collect setCounts counts; cases s.local' <;> cases isBidi id <;> rfl
  · rfl

theorem acked_safe (hI : Inv c h gone) (i : Nat) : Safe c h gone (.acked i) (c.acked i) := by
  unfold acked
  have hidle : Safe c h gone (.acked i) (c, .ok) := .inl ⟨by simp, rfl, hI⟩
  split
  · next id off len fin hf =>
    cases hg : c.get id with
    | none => exact hidle
    | some s =>
      simp only
      have hs := hI.static hg
      have hok := hI.tx.live id s hg
      obtain ⟨W, hW⟩ := hok.inv
      have hE := hI.ends_eq hg
      have hA := hI.acc_eq hg
      have hbuf := hI.buf_le hg
      have hfo : off + len ≤ s.send.emitOff := by
        have := hI.tx.fr _ (List.mem_of_getElem? hf)
        simp only [FrameOk] at this; omega
      obtain ⟨b, n, e, ht⟩ := SendBuf.ackAndDrop_spec hW hfo
      rw [e]
      simp only
      have hoff : b.off = s.send.off := by rw [ht.fields]
      have hemit : b.emitOff = s.send.emitOff := by rw [ht.fields]
      have hmax : b.maxData = s.send.maxData := by rw [ht.fields]
      have hcnt := ht.count
      obtain ⟨k1, k2⟩ := collectAcked_fields (c.put id { s with send := b }) id { s with send := b }
      rw [subTxBuffered, if_neg (by rw [k1]; simp; omega)]
      simp only
      rw [k1, ← collectAcked_buffered]
      have hI1 : Inv { (c.put id { s with send := b }) with txBuffered := (c.put id { s with send := b }).txBuffered - n } h gone := by
        refine hI.putSend (s' := { s with send := b }) hg (by constructor <;> rfl) (by constructor <;> rfl) rfl rfl rfl rfl rfl
          .refl .refl .refl ⟨⟨_, ht.inv⟩, hok.front.ackAndDrop hW hfo e, fun h1 h2 => hmax.trans (hok.uni h1 h2)⟩ ?_ ?_ ?_
          (fun f hf => .inl hf) (fun i code F hF => .inl hF) hI.cap ?_
        · show _ + _ = _ + b.off; simp; omega
        · show _ + _ = _ + b.bufferedBytes; simp; omega
        · show _ ≤ b.emitOff; omega
        · rw [upd_eq_self (show b.off = h.acc id by omega), upd_eq_self (show b.emitOff = h.ends id by omega)]
      refine .inl ⟨by simp, (collectAcked_fields _ _ _).2, ?_⟩
      refine collectAcked_inv hI1 ?_
      simp [get, put, Assoc.get_put]
  · next id code F hf =>
    cases hg : c.get id with
    | none => exact hidle
    | some s => exact .inl ⟨by simp, (collectAcked_fields _ _ _).2, collectAcked_inv hI hg⟩
  · exact hidle

theorem lost_safe (hI : Inv c h gone) (i : Nat) : Safe c h gone (.lost i) (c.lost i) := by
  unfold lost
  have hidle : Safe c h gone (.lost i) (c, .ok) := .inl ⟨by simp, rfl, hI⟩
  split
  · next id off len fin hf =>
    cases hg : c.get id with
    | none => exact hidle
    | some s =>
      simp only
      split
      · exact hidle
      have hs := hI.static hg
      have hok := hI.tx.live id s hg
      obtain ⟨W, hW⟩ := hok.inv
      have hE := hI.ends_eq hg
      have hA := hI.acc_eq hg
      obtain ⟨b, n, e, ht⟩ := SendBuf.retransmit_spec hW off len
      rw [e]
      simp only
      have hoff : b.off = s.send.off := by rw [ht.fields]
      have hemit : b.emitOff = s.send.emitOff := by rw [ht.fields]
      have hmax : b.maxData = s.send.maxData := by rw [ht.fields]
      have hcnt := ht.count
      refine .inl ⟨by simp, by simp, ?_⟩
      refine hI.putSend (s' := { s with send := b }) hg ?_ ?_ (by simp) rfl rfl rfl rfl ?_ ?_ ?_
        ⟨⟨_, ht.inv⟩, hok.front.retransmit hW e, fun h1 h2 => hmax.trans (hok.uni h1 h2)⟩ ?_ ?_ ?_
        (fun f hf => .inl (by simpa using hf)) (fun i code F hF => .inl (by simpa using hF)) ?_ ?_
      · constructor <;> simp
      · constructor <;> simp
      · simp; exact .ite (.add .refl) .refl
      · simp; exact .refl
      · simp; exact .refl
      · simp; omega
      · simp; omega
      · show _ ≤ b.emitOff; omega
      · simpa using hI.cap
      · rw [upd_eq_self (show b.off = h.acc id by omega), upd_eq_self (show b.emitOff = h.ends id by omega)]
        rfl
  · next id code F hf =>
    refine .inl ⟨by simp, rfl, ?_⟩
    refine ⟨⟨hI.shape.wf, hI.shape.flushable, hI.shape.readable, hI.shape.writable⟩, ?_, hI.rx, hI.cap, hI.den, hI.lim,
      hI.advData, hI.adv, hI.grant, hI.gone, hI.peerB, hI.hiB, hI.init, hI.fac⟩
    refine hI.tx.frames (fun f hf => .inl hf) ?_
    intro i code' F' hF
    rcases Assoc.mem_put hF with h1 | h1
    · exact .inl h1
    · right
      simp only [Prod.mk.injEq] at h1
      obtain ⟨rfl, -, rfl⟩ := h1
      exact hI.tx.fr _ (List.mem_of_getElem? hf)
  · next id code hf =>
    cases hg : c.get id with
    | none => exact hidle
    | some s =>
      simp only
      split
      · exact .inl ⟨by simp, rfl, hI.other (by constructor <;> rfl) (by constructor <;> rfl) (by constructor <;> rfl)
          (fun f hf => .inl hf) rfl rfl rfl rfl⟩
      · exact hidle
  · next id hf =>
    split
    · next hg =>
      refine .inl ⟨by simp, by simp, ?_⟩
      show Inv _ h gone
      refine ⟨⟨?_, ?_, ?_, ?_⟩, ?_, ?_, ?_, ?_, ?_, ?_, ?_, ?_, ?_, ?_, hI.hiB, ?_, ?_⟩
      · simpa using hI.shape.wf
      · simpa using hI.shape.flushable
      · simpa using hI.shape.readable
      · simpa using hI.shape.writable
      · simpa using hI.tx
      · intro hd
        simp at hd
        simp only [insertAlmostFull_streams, insertAlmostFull_collected, insertAlmostFull_rxData, insertAlmostFull_fc,
          insertAlmostFull_shouldSendMaxData, insertAlmostFull_frames]
        refine (hI.rx hd).frames (fun x => x) ?_
        rintro j (hj | hj)
        · simp only [insertAlmostFull] at hj
          split at hj
          · exact .inl hj
          · rcases List.mem_cons.mp hj with rfl | hj
            · exact .inr (List.mem_of_getElem? hf)
            · exact .inl hj
        · exact .inr hj
      · simpa using hI.cap
      · simpa using hI.den
      · simpa using hI.lim
      · simpa using hI.advData
      · simpa using hI.adv
      · simpa using hI.grant
      · simpa using hI.gone
      · simpa using hI.peerB
      · simpa using hI.init
      · simpa using hI.fac
    · exact hidle
  · next hf =>
    refine .inl ⟨by simp, rfl, ?_⟩
    refine ⟨⟨hI.shape.wf, hI.shape.flushable, hI.shape.readable, hI.shape.writable⟩, hI.tx, ?_, hI.cap, hI.den, hI.lim,
      hI.advData, hI.adv, hI.grant, hI.gone, hI.peerB, hI.hiB, hI.init, hI.fac⟩
    intro hd
    exact (hI.rx hd).frames (fun _ => .inr (List.mem_of_getElem? hf)) (fun i hi => hi)
  · exact .inl ⟨by simp, rfl, hI.other (by constructor <;> rfl) (by constructor <;> rfl) (by constructor <;> rfl)
          (fun f hf => .inl hf) rfl rfl rfl rfl⟩
  · exact .inl ⟨by simp, rfl, hI.other (by constructor <;> rfl) (by constructor <;> rfl) (by constructor <;> rfl)
          (fun f hf => .inl hf) rfl rfl rfl rfl⟩
  · exact hidle

/-- Every operation preserves the invariant. -/
theorem step_safe (hI : Inv c h gone) {op : Op} (hop : op.Ok) : Safe c h gone op (c.step op) := by
  unfold step
  split
  · exact safe_idle hI _
  next hcond =>
  have hd : Op.needsAlive op = true → c.dead = false := by
    intro hn
    cases hd : c.dead with
    | false => rfl
    | true => simp [hd, hn] at hcond
  cases op with
  | recvStream id off data fin => exact recvStream_safe hI (hd rfl) id off data fin
  | recvReset id code F => exact recvReset_safe hI (hd rfl) id code F
  | recvStop id code => exact recvStop_safe hI id code
  | recvMaxData m => exact recvMaxData_safe hI m
  | recvMaxStreamData id m => exact recvMaxStreamData_safe hI id m hop
  | recvMaxStreams b m => exact recvMaxStreams_safe hI b m
  | peerParams p d b u w => exact peerParams_safe hI p d b u w hop
  | recvDone w => exact recvDone_safe hI w
  | send id data fin => exact sendData_safe hI id data fin
  | recv id cap => exact recvData_safe hI id cap
  | shutRead id code => exact shutRead_safe hI id code
  | shutWrite id code w => exact shutWrite_safe hI id code w
  | capacity id => exact capacity_safe hI id
  | isWritable id len => exact isWritable_safe hI id len
  | writableNext => exact writableNext_safe hI
  | readableNext => exact readableNext_safe hI
  | priority id u inc => exact priority_safe hI id u inc
  | outStream left => exact outStream_safe hI left
  | outMaxStreams b fits => exact outMaxStreams_safe hI b fits
  | outMaxStreamData id now rtt fits => exact outMaxStreamData_safe hI (hd rfl) id now rtt fits
  | outMaxData now rtt fits => exact outMaxData_safe hI (hd rfl) now rtt fits
  | outStop id fits => exact outStop_safe hI id fits
  | outReset id fits => exact outReset_safe hI id fits
  | acked i => exact acked_safe hI i
  | lost i => exact lost_safe hI i

/-- After a panic nothing happens any more. -/
theorem run_crashed (hc : c.crashed = true) (ops : List Op) :
    (c.run ops).1 = c ∧ ∀ e ∈ (c.run ops).2, e.2 = .idle := by
  induction ops with
  | nil => exact ⟨rfl, by simp [run]⟩
  | cons op ops ih =>
    have : c.step op = (c, .idle) := by unfold step; rw [hc]; rfl
    simp only [run, this]
    refine ⟨ih.1, ?_⟩
    intro e he
    rcases List.mem_cons.mp he with rfl | he
    · rfl
    · exact ih.2 e he

theorem Hist.step_panic (h : Hist) (op : Op) : h.step op .panic = h := by cases op <;> rfl

theorem Hist.of_idle (h : Hist) (es : List (Op × Ev)) (hi : ∀ e ∈ es, e.2 = .idle) : h.of es = h := by
  induction es with
  | nil => rfl
  | cons e t ih =>
    simp only [Hist.of, List.foldl_cons]
    rw [hi e List.mem_cons_self, Hist.step_idle]
    exact ih (fun e he => hi e (List.mem_cons_of_mem _ he))

/-- The invariant holds along every history, or there was a panic; up to then it held,
and the panic had one of the excuses. -/
theorem run_inv (ops : List Op) : ∀ {c : Conn} {h : Hist}, Inv c h gone → (∀ op ∈ ops, op.Ok) →
    Inv (c.run ops).1 (h.of (c.run ops).2) gone ∨
    ∃ pre op post c1, ops = pre ++ op :: post ∧ c1 = (c.run pre).1 ∧ Inv c1 (h.of (c.run pre).2) gone ∧
      Excuse c1 op ∧ (c1.step op).2 = .panic ∧
      h.of (c.run ops).2 = h.of (c.run pre).2 := by
  induction ops with
  | nil => intro c h hI _; exact .inl hI
  | cons op ops ih =>
    intro c h hI hok
    rcases step_safe hI (hok op List.mem_cons_self) with ⟨-, -, hI1⟩ | ⟨hp, hcr, hex⟩
    · rcases ih hI1 (fun o ho => hok o (List.mem_cons_of_mem _ ho)) with h1 | ⟨pre, o, post, c1, e, e1, h1, h2, h3, h4⟩
      · exact .inl h1
      · refine .inr ⟨op :: pre, o, post, c1, by rw [e]; rfl, e1, ?_, h2, h3, ?_⟩
        · exact h1
        · exact h4
    · right
      refine ⟨[], op, ops, c, rfl, rfl, hI, hex, hp, ?_⟩
      have hi := run_crashed hcr ops
      show h.of ((op, (c.step op).2) :: ((c.step op).1.run ops).2) = h
      simp only [Hist.of, List.foldl_cons]
      rw [hp, Hist.step_panic]
      exact Hist.of_idle h _ hi.2

end Conn
end Verif.Conn
