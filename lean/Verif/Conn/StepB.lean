import Verif.Conn.StepA

/-! Application calls preserve the invariant. -/

namespace Verif.Conn
open Verif Verif.Stream

theorem QMove.del' {k : Key} {q q' : List Key} {id : Nat} (hk : k.id = id) (h : QMove k q q') :
    QMove k q (qdel id q') := hk ▸ h.del

theorem cap_spec {s : SendBuf} {W : Bytes} (h : SendBuf.SInv s W) :
    (∃ e, s.error = some e ∧ s.cap = .error (.streamStopped e)) ∨
    (s.error = none ∧ s.cap = .ok (s.maxData - s.off)) := by
  have := h.max
  unfold SendBuf.cap
  cases s.error with
  | some e => exact .inl ⟨e, rfl, rfl⟩
  | none => right; simp only; rw [if_pos (by omega)]; exact ⟨trivial, rfl⟩

theorem SInv_blockedAt {s : SendBuf} {W : Bytes} (h : SendBuf.SInv s W) (x : Option Nat) :
    SendBuf.SInv { s with blockedAt := x } W :=
  ⟨h.chain, h.good, h.done, h.posLe, h.buf, h.max, h.maxB, h.emit, h.mark, h.inv, h.cap, h.ackB, h.fin, h.state⟩

namespace Conn
variable {c c' : Conn} {h : Hist} {gone : List Nat}

theorem Inv.ite_blockedLimit (hI : Inv c h gone) (p : Prop) [Decidable p] (x : Option Nat) :
    Inv (if p then { c with blockedLimit := x } else c) h gone ∧
    Base c (if p then { c with blockedLimit := x } else c) := by
  split
  · exact ⟨hI.other (by constructor <;> rfl) (by constructor <;> rfl) (by constructor <;> rfl)
      (fun f hf => .inl hf) rfl rfl rfl rfl, by constructor <;> rfl⟩
  · exact ⟨hI, .refl c⟩

theorem Inv.ite_collect (hI : Inv c h gone) {p : Bool} {id : Nat} {s : Stream} (hg : c.get id = some s)
    (hp : p = true → s.isComplete = true) : Inv (if p then c.collect id s else c) h gone := by
  split
  · next hh => exact hI.collect hg (hp hh)
  · exact hI

theorem sendBlocked_spec (c : Conn) (id : Nat) (s : Stream) (sent capN : Nat) :
    ∃ ba bl, c.sendBlocked id s sent capN =
      ({ s with send := { s.send with blockedAt := ba } }, { c with blocked := bl }) := by
  unfold sendBlocked
  split
  · simp only
    split
    · exact ⟨_, _, rfl⟩
    · exact ⟨s.send.blockedAt, c.blocked, rfl⟩
  · exact ⟨_, _, rfl⟩

theorem sendQueues_spec (c : Conn) (s : Stream) (a b d e : Bool) :
    ∃ f w, c.sendQueues s a b d e = { c with flushable := f, writable := w } ∧
      QMove s.key c.flushable f ∧ QMove s.key c.writable w := by
  unfold sendQueues
  simp only
  have h1 : ∃ f, (if ((s.isFlushable || d) && !b) = true then c.insertFlushable s.key else c) = { c with flushable := f } ∧
      QMove s.key c.flushable f := by
    split
    · exact ⟨_, rfl, .add .refl⟩
    · exact ⟨_, rfl, .refl⟩
  obtain ⟨f, e1, m1⟩ := h1
  rw [e1]
  by_cases h2 : (!s.isWritable) = true
  · rw [if_pos h2]; exact ⟨f, _, rfl, m1, .del .refl⟩
  · rw [if_neg h2]
    split
    · exact ⟨f, _, rfl, m1, .add .refl⟩
    · exact ⟨f, _, rfl, m1, .refl⟩

theorem sendTail_safe (hI : Inv c h gone) {id : Nat} {s : Stream} (hg : c.get id = some s) {W d : Bytes}
    (hW : SendBuf.SInv s.send W) {fin : Bool} {b : SendBuf} {n capN : Nat}
    (e : s.send.write d fin = .ok (b, n)) (ht : SendBuf.Took s.send W d d.length fin b n)
    (hn : n ≤ c.txCap) (ef bc : Bool) (data : Bytes) (fin0 : Bool) :
    Safe c h gone (.send id data fin0) (c.sendTail id s b n capN ef bc) := by
  have hs := hI.static hg
  have hok := hI.tx.live id s hg
  have hA := hI.acc_eq hg
  have hE := hI.ends_eq hg
  have hoff : b.off = s.send.off + n := by rw [ht.fields]
  have hemit : b.emitOff = s.send.emitOff := by rw [ht.fields]
  have hmax : b.maxData = s.send.maxData := by rw [ht.fields]
  have hcnt := ht.count
  have hfront := hok.front.write hW e ⟨_, ht.inv⟩
  unfold sendTail
  obtain ⟨ba, bl, hbl⟩ := sendBlocked_spec c id { s with send := b } n capN
  simp only [hbl]
  obtain ⟨qf, qw, hq, q1, q3⟩ := sendQueues_spec
    (({ c with blocked := bl } : Conn).put id { s with send := { b with blockedAt := ba } })
    { s with send := { b with blockedAt := ba } } s.isWritable s.isFlushable ef bc
  rw [hq]
  simp only [put_flushable, put_writable] at q1 q3
  rw [if_neg (by simp; omega)]
  have key : ∀ {c2 : Conn} {h' : Hist}, Frame0 c c2 → SameRx c c2 →
      c2.streams = Assoc.put c.streams id { s with send := { b with blockedAt := ba } } →
      QMove s.key c.flushable c2.flushable → QMove s.key c.readable c2.readable →
      QMove s.key c.writable c2.writable → c2.txData = c.txData + n → c2.txBuffered = c.txBuffered + n →
      c2.txCap = c.txCap - n → c2.frames = c.frames → c2.reset = c.reset →
      h' = { h with acc := upd h.acc id (h.acc id + n) } → Inv c2 h' gone := by
    intro c2 h' f r hst q1 q2 q3 t1 t2 t3 t4 t5 hh
    refine hI.putSend (s' := { s with send := { b with blockedAt := ba } }) hg f r hst rfl rfl rfl rfl q1 q2 q3
      ⟨⟨_, SInv_blockedAt ht.inv ba⟩, hfront, fun h1 h2 => hmax.trans (hok.uni h1 h2)⟩ ?_ ?_ ?_ ?_ ?_ ?_ ?_
    · show _ = _ + b.off; omega
    · show _ = _ + b.bufferedBytes; omega
    · show _ ≤ b.emitOff; omega
    · rw [t4]; exact fun f hf => .inl hf
    · rw [t5]; exact fun i code F hF => .inl hF
    · intro hf; have := hI.cap hf; rw [t1, t3, f.maxTxData]; omega
    · rw [hh, upd_eq_self (show b.emitOff = h.ends id by omega), show h.acc id + n = b.off by omega]
  split
  · next hz =>
    refine .inl ⟨by simp, by simp, ?_⟩
    have hz1 := hz.1
    refine key ?_ ?_ (by simp) q1 .refl q3 (by simp) (by simp) (by simp) (by simp) (by simp) ?_
    · constructor <;> simp
    · constructor <;> simp
    · exact (show h = { h with acc := upd h.acc id (h.acc id + n) } by rw [hz1, Nat.add_zero, upd_self])
  · refine .inl ⟨by simp, by simp, ?_⟩
    refine key ?_ ?_ (by simp) (by simpa using q1) (by simp; exact .refl) ?_ (by simp) (by simp) (by simp) (by simp) (by simp) rfl
    · constructor <;> simp
    · constructor <;> simp
    · simp only [writable_ite, insertWritable_writable, removeWritable_writable]
      exact .ite (.add (.del' hs.key q3)) q3

theorem sendData_safe (hI : Inv c h gone) (id : Nat) (data : Bytes) (fin : Bool) :
    Safe c h gone (.send id data fin) (c.sendData id data fin) := by
  unfold sendData
  split
  · exact safe_err hI rfl _ _
  next hside =>
  split
  · next hlt => exact .inr ⟨rfl, rfl, .inr (.inl hlt)⟩
  obtain ⟨hI0, hb0⟩ := hI.ite_blockedLimit (c.maxTxData - c.txData < data.length) (some c.maxTxData)
  simp only
  generalize (if c.maxTxData - c.txData < data.length then { c with blockedLimit := some c.maxTxData } else c) = c0 at hI0 hb0 ⊢
  rcases getOrCreate_inv hI0 id true with ⟨c1, s, e, hI1, hg, hb⟩ | e | e | e <;> rw [e] <;> simp only
  · have hcr : c1.crashed = c.crashed := hb.crashed.trans hb0.crashed
    have hs := hI1.static hg
    have hok := hI1.tx.live id s hg
    obtain ⟨W, hW⟩ := hok.inv
    rcases cap_spec hW with ⟨e', he, hcap⟩ | ⟨he, hcap⟩ <;> rw [hcap] <;> simp only
    · refine safe_err (hI1.ite_collect hg (by simp; exact fun h _ => h)) ?_ _ _
      simp [hcr]
    split
    · refine safe_err ?_ (by simp [hcr]) _ _
      refine hI1.queues ?_ ?_ ?_ (by simp) (by simp) hg ?_ ?_ ?_
      · constructor <;> simp
      · constructor <;> simp
      · constructor <;> simp
      · simp; exact .refl
      · simp; exact .refl
      · simp; exact .ite (.add .refl) .refl
    next hcap0 =>
    have hcapN : ∃ capN fin' blk, (if c0.txCap < data.length then (c0.txCap, false, true) else (data.length, fin, false)) =
        (capN, fin', blk) ∧ capN ≤ c0.txCap := by
      split
      · exact ⟨_, _, _, rfl, Nat.le_refl _⟩
      · exact ⟨_, _, _, rfl, by omega⟩
    obtain ⟨capN, fin', blk, e1, hcapN⟩ := hcapN
    rw [e1]
    simp only
    rcases SendBuf.write_spec hW (data.take capN) fin' with ⟨b, n, e2, ht⟩ | ⟨e', e2, hne, -⟩ <;> rw [e2]
    · simp only
      have hn : n ≤ c1.txCap := by
        have := ht.amount
        have h2 : (data.take capN).length ≤ capN := by simp; omega
        have h3 : n ≤ (data.take capN).length := by rw [this]; exact Nat.min_le_left _ _
        rw [hb.txCap]; omega
      rcases sendTail_safe (capN := capN) hI1 hg hW e2 ht hn (data.length == 0 && fin') blk data fin with ⟨r1, r2, r3⟩ | ⟨r1, r2, r3⟩
      · exact .inl ⟨r1, r2.trans hcr, r3⟩
      · refine .inr ⟨r1, r2, ?_⟩
        unfold Excuse at r3 ⊢
        rw [hb.dead, hb0.dead, hb.maxTxData, hb0.maxTxData, hb.txData, hb0.txData] at r3
        exact r3
    · split
      · next hh => simp only [Except.error.injEq] at hh; exact absurd hh hne
      · next hh =>
        refine safe_err ?_ (by simp [hcr]) _ _
        refine hI1.queues ?_ ?_ ?_ (by simp) (by simp) hg ?_ ?_ ?_
        · constructor <;> simp
        · constructor <;> simp
        · constructor <;> simp
        · simp; exact .refl
        · simp; exact .refl
        · simp; exact .del' hs.key .refl
      · next hh => simp at hh
  · exact safe_err hI0 hb0.crashed _ _
  · exact safe_err hI0 hb0.crashed _ _
  · exact safe_err hI0 hb0.crashed _ _

end Conn
end Verif.Conn
