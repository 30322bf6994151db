import Verif.Conn.Serve

/-! How the queue of streams with data to send changes. -/

namespace Verif.Conn
open Verif Verif.Stream

/-- One change of a queue. -/
inductive QRel (q : List Key) : List Key → Prop where
  | same : QRel q q
  | add (k : Key) : QRel q (qadd k q)
  | del (id : Nat) : QRel q (qdel id q)

theorem QRel.ite {q a b : List Key} {p : Prop} [Decidable p] (ha : QRel q a) (hb : QRel q b) :
    QRel q (if p then a else b) := by split <;> assumption

namespace Conn
variable {c c' : Conn}

theorem getOrCreate_flushable {id : Nat} {loc : Bool} {s : Stream} (h : c.getOrCreate id loc = .ok (c', s)) :
    c'.flushable = c.flushable := by
  unfold getOrCreate at h
  split at h
  · cases h; rfl
  · split at h
    · cases h
    · split at h
      · cases h
      · simp only at h
        split at h
        · split at h
          · cases h
          · cases h; simp
        · split at h
          · cases h
          · cases h; simp

theorem close_flushable (c : Conn) (e : CErr) : (c.close e).1.flushable = c.flushable := by
  unfold close; split <;> rfl

theorem die_flushable (c : Conn) : c.die.1.flushable = c.flushable := rfl

theorem subTxBuffered_flushable {n : Nat} (h : c.subTxBuffered n = some c') : c'.flushable = c.flushable := by
  unfold subTxBuffered at h; split at h <;> cases h; rfl

theorem updateTxCap_flushable {n : Nat} (h : c.updateTxCap n = some c') : c'.flushable = c.flushable := by
  unfold updateTxCap at h; split at h <;> cases h; rfl

theorem _root_.Verif.Conn.QRel.of_eq {q q' : List Key} (h : q' = q) : QRel q q' := h ▸ .same

/-- The changes after a stream has been looked up. -/
theorem _root_.Verif.Conn.QRel.lookup {id : Nat} {loc : Bool} {s : Stream} {q : List Key} (h : c.getOrCreate id loc = .ok (c', s))
    (hq : QRel c'.flushable q) : QRel c.flushable q := by
  rw [← getOrCreate_flushable h]; exact hq

theorem recvStream_q (id off : Nat) (data : Bytes) (fin : Bool) :
    QRel c.flushable (c.recvStream id off data fin).1.flushable := by
  unfold recvStream
  split
  · exact .of_eq (close_flushable _ _)
  · split
    · exact .same
    · simp only
      split
      · exact .same
      · exact .of_eq (close_flushable _ _)
      · next h =>
        refine .lookup h ?_
        split
        · exact .of_eq (close_flushable _ _)
        · split
          · exact .of_eq (by rw [close_flushable]; rfl)
          · simp; exact .same

theorem recvReset_q (id code F : Nat) : QRel c.flushable (c.recvReset id code F).1.flushable := by
  unfold recvReset
  split
  · exact .of_eq (close_flushable _ _)
  · split
    · exact .same
    · simp only
      split
      · exact .same
      · exact .of_eq (close_flushable _ _)
      · next h =>
        refine .lookup h ?_
        split
        · exact .of_eq (by rw [close_flushable]; rfl)
        · split
          · exact .of_eq (by rw [close_flushable]; rfl)
          · simp; exact .same

theorem recvStop_q (id code : Nat) : QRel c.flushable (c.recvStop id code).1.flushable := by
  unfold recvStop
  split
  · exact .of_eq (close_flushable _ _)
  · split
    · exact .same
    · exact .of_eq (close_flushable _ _)
    · next h =>
      refine .lookup h ?_
      simp only
      split
      · exact .same
      · exact .same
      · split
        · exact .same
        · next h2 =>
          have := subTxBuffered_flushable h2
          simp only [flushable_ite, insertWritable_flushable, ite_self]
          exact .of_eq this

theorem recvMaxStreamData_q (id m : Nat) : QRel c.flushable (c.recvMaxStreamData id m).1.flushable := by
  unfold recvMaxStreamData
  split
  · exact .of_eq (close_flushable _ _)
  · split
    · exact .same
    · exact .of_eq (close_flushable _ _)
    · next h =>
      refine .lookup h ?_
      simp only [flushable_ite, insertWritable_flushable, ite_self, insertFlushable_flushable, put_flushable]
      exact .ite (.add _) .same

theorem recvMaxStreams_q (b : Bool) (m : Nat) : QRel c.flushable (c.recvMaxStreams b m).1.flushable := by
  unfold recvMaxStreams
  split
  · exact .of_eq (close_flushable _ _)
  · simp; exact .same

theorem peerParams_q (p : StreamLimits) (d b u w : Nat) : QRel c.flushable (c.peerParams p d b u w).1.flushable := by
  unfold peerParams
  simp only
  split
  · exact .same
  · next h =>
    have := updateTxCap_flushable h
    exact .of_eq this

theorem sendTail_q (id : Nat) (s : Stream) (b : SendBuf) (n m : Nat) (x y : Bool) :
    QRel c.flushable (c.sendTail id s b n m x y).1.flushable := by
  unfold sendTail
  obtain ⟨ba, bl, e⟩ := sendBlocked_spec c id { s with send := b } n m
  rw [e]
  simp only
  generalize ({ s with send := { b with blockedAt := ba } } : Stream) = s'
  have h1 : QRel c.flushable ((({ c with blocked := bl } : Conn).put id s').sendQueues s' s.isWritable s.isFlushable x y).flushable := by
    unfold sendQueues
    simp only [flushable_ite, removeWritable_flushable, insertWritable_flushable, ite_self, insertFlushable_flushable, put_flushable]
    exact .ite (.add _) .same
  generalize (({ c with blocked := bl } : Conn).put id s').sendQueues s' s.isWritable s.isFlushable x y = c1 at h1
  split
  · exact h1
  · split
    · exact h1
    · simp; exact h1

theorem sendData_q (id : Nat) (data : Bytes) (fin : Bool) : QRel c.flushable (c.sendData id data fin).1.flushable := by
  unfold sendData
  split
  · exact .same
  · split
    · exact .same
    · simp only
      have hb : ∃ b, (if c.maxTxData - c.txData < data.length then { c with blockedLimit := some c.maxTxData } else c) =
          ({ c with blockedLimit := b } : Conn) := by
        split
        · exact ⟨_, rfl⟩
        · exact ⟨c.blockedLimit, rfl⟩
      obtain ⟨b, hb⟩ := hb
      rw [hb]
      split
      · exact .same
      · next h =>
        have := getOrCreate_flushable h
        have e : ({ c with blockedLimit := b } : Conn).flushable = c.flushable := rfl
        rw [e] at this
        rw [← this]
        split
        · simp; exact .ite (.del _) .same
        · exact .same
        · split
          · simp; exact .same
          · by_cases hlt : c.txCap < data.length <;> simp only [hlt, if_true, if_false] <;> split
            all_goals first
              | exact .same
              | exact sendTail_q _ _ _ _ _ _ _

theorem recvData_q (id cap : Nat) : QRel c.flushable (c.recvData id cap).1.flushable := by
  unfold recvData
  split
  · exact .same
  · split
    · exact .same
    · split
      · exact .same
      · split
        · simp; exact .ite (.del _) .same
        · simp only
          split
          · exact .same
          · simp; exact .ite (.del _) .same

theorem shutRead_q (id code : Nat) : QRel c.flushable (c.shutRead id code).1.flushable := by
  unfold shutRead
  split
  · exact .same
  · split
    · exact .same
    · split
      · exact .same
      · exact .same
      · simp; exact .same

theorem shutWrite_q (id code w : Nat) : QRel c.flushable (c.shutWrite id code w).1.flushable := by
  unfold shutWrite
  split
  · exact .same
  · split
    · exact .same
    · simp only
      split
      · exact .same
      · exact .same
      · split
        · exact .same
        · next h =>
          have h1 := subTxBuffered_flushable h
          split
          · exact .of_eq h1
          · next h2 =>
            have h3 := updateTxCap_flushable h2
            exact .of_eq (h3.trans h1)

theorem capacity_q (id : Nat) : QRel c.flushable (c.capacity id).1.flushable := by
  unfold capacity
  split
  · exact .same
  · split
    · exact .same
    · simp; exact .ite (.del _) .same
    · exact .same

theorem isWritable_q (id len : Nat) : QRel c.flushable (c.isWritable id len).1.flushable := by
  have hc := capacity_q (c := c) id
  unfold isWritable
  generalize c.capacity id = r at hc
  obtain ⟨c1, ev⟩ := r
  split
  · next h =>
    cases h
    split
    · exact hc
    · split
      · exact hc
      · simp only
        repeat' split
        all_goals exact hc
  · exact hc

theorem writableNext_q : QRel c.flushable c.writableNext.1.flushable := by
  unfold writableNext
  split
  · exact .same
  · split <;> exact .same

theorem readableNext_q : QRel c.flushable c.readableNext.1.flushable := by
  unfold readableNext
  split <;> exact .same

theorem outMaxStreams_q (b fits : Bool) : QRel c.flushable (c.outMaxStreams b fits).1.flushable := by
  cases b
  · rcases outMaxStreams_false c fits with e | e <;> rw [e] <;> exact .same
  · rcases outMaxStreams_true c fits with e | e <;> rw [e] <;> exact .same

theorem outMaxStreamData_q (id now rtt : Nat) (fits : Bool) :
    QRel c.flushable (c.outMaxStreamData id now rtt fits).1.flushable := by
  unfold outMaxStreamData
  split
  · exact .same
  · split
    · exact .same
    · split
      · exact .same
      · simp only; split <;> exact .same

theorem outMaxData_q (now rtt : Nat) (fits : Bool) : QRel c.flushable (c.outMaxData now rtt fits).1.flushable := by
  unfold outMaxData
  split
  · exact .same
  · simp only
    repeat' split
    all_goals exact .same

theorem outStop_q (id : Nat) (fits : Bool) : QRel c.flushable (c.outStop id fits).1.flushable := by
  unfold outStop
  split
  · exact .same
  · split <;> exact .same

theorem outReset_q (id : Nat) (fits : Bool) : QRel c.flushable (c.outReset id fits).1.flushable := by
  unfold outReset
  split
  · exact .same
  · split <;> exact .same

theorem collectAcked_q (id : Nat) (s : Stream) : QRel c.flushable (c.collectAcked id s).flushable := by
  unfold collectAcked
  split
  · simp; exact .del _
  · exact .same

theorem acked_q (i : Nat) : QRel c.flushable (c.acked i).1.flushable := by
  unfold acked
  split
  · split
    · exact .same
    · split
      · exact .same
      · simp only
        split
        · exact collectAcked_q (c := c.put _ _) _ _
        · next h => rw [subTxBuffered_flushable h]; exact collectAcked_q (c := c.put _ _) _ _
  · split
    · exact .same
    · exact collectAcked_q _ _
  · exact .same

theorem lost_q (i : Nat) : QRel c.flushable (c.lost i).1.flushable := by
  unfold lost
  split
  · split
    · exact .same
    · split
      · exact .same
      · simp only
        split
        · exact .same
        · simp; exact .ite (.add _) .same
  · exact .same
  · split
    · exact .same
    · split <;> exact .same
  · split
    · simp; exact .same
    · exact .same
  · exact .same
  · exact .same
  · exact .same
  · exact .same

theorem priority_q (id u : Nat) (inc : Bool) : QRel c.flushable (c.priority id u inc).1.flushable ∨
    ∃ k : Key, k.id = id ∧ (c.priority id u inc).1.flushable = rekey k c.flushable := by
  unfold priority
  split
  · exact .inl .same
  · exact .inl .same
  · next h =>
    have e := getOrCreate_flushable h
    split
    · exact .inl (.of_eq e)
    · right
      refine ⟨{ urgency := u, incremental := inc, id }, rfl, ?_⟩
      rw [← e]; rfl

/-- Every operation but the two that say otherwise changes the queue by at most one
insertion or removal. -/
theorem step_q (op : Op) : QRel c.flushable (c.step op).1.flushable ∨
    (∃ id u inc k, op = .priority id u inc ∧ k.id = id ∧ (c.step op).1.flushable = rekey k c.flushable) ∨
    (∃ left, op = .outStream left ∧ c.step op = c.outStream left) := by
  unfold step
  split
  · exact .inl .same
  cases op with
  | recvStream id off data fin => exact .inl (recvStream_q ..)
  | recvReset id code F => exact .inl (recvReset_q ..)
  | recvStop id code => exact .inl (recvStop_q ..)
  | recvMaxData m => exact .inl .same
  | recvMaxStreamData id m => exact .inl (recvMaxStreamData_q ..)
  | recvMaxStreams b m => exact .inl (recvMaxStreams_q ..)
  | peerParams p d b u w => exact .inl (peerParams_q ..)
  | recvDone w =>
    left
    simp only
    split
    · exact .same
    · next h => exact .of_eq (updateTxCap_flushable h)
  | send id data fin => exact .inl (sendData_q ..)
  | recv id cap => exact .inl (recvData_q ..)
  | shutRead id code => exact .inl (shutRead_q ..)
  | shutWrite id code w => exact .inl (shutWrite_q ..)
  | capacity id => exact .inl (capacity_q ..)
  | isWritable id len => exact .inl (isWritable_q ..)
  | writableNext => exact .inl writableNext_q
  | readableNext => exact .inl readableNext_q
  | priority id u inc =>
    rcases priority_q (c := c) id u inc with h | ⟨k, hk, h⟩
    · exact .inl h
    · exact .inr (.inl ⟨id, u, inc, k, rfl, hk, h⟩)
  | outStream left => exact .inr (.inr ⟨left, rfl, rfl⟩)
  | outMaxStreams b fits => exact .inl (outMaxStreams_q ..)
  | outMaxStreamData id now rtt fits => exact .inl (outMaxStreamData_q ..)
  | outMaxData now rtt fits => exact .inl (outMaxData_q ..)
  | outStop id fits => exact .inl (outStop_q ..)
  | outReset id fits => exact .inl (outReset_q ..)
  | acked i => exact .inl (acked_q ..)
  | lost i => exact .inl (lost_q ..)

end Conn
end Verif.Conn
