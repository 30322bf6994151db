import Verif.Conn.StepB

/-! More application calls preserve the invariant. -/

namespace Verif.Conn
open Verif Verif.Stream

namespace Conn
variable {c c' : Conn} {h : Hist} {gone : List Nat}

/-- A stream may be removed from queues. -/
theorem Inv.dequeue (hI : Inv c h gone) (f : Frame0 c c') (r : SameRx c c') (t : SameTx c c')
    (hfr : c'.frames = c.frames) (hst : c'.streams = c.streams) (id : Nat)
    (q1 : c'.flushable = c.flushable ∨ c'.flushable = qdel id c.flushable)
    (q2 : c'.readable = c.readable ∨ c'.readable = qdel id c.readable)
    (q3 : c'.writable = c.writable ∨ c'.writable = qdel id c.writable) : Inv c' h gone := by
  refine ⟨⟨?_, ?_, ?_, ?_⟩, ?_, ?_, ?_, ?_, ?_, ?_, ?_, ?_, ?_, ?_, hI.hiB, ?_, ?_⟩
  · rw [f.isServer, f.collected, f.counts, hst]; exact hI.shape.wf
  · rw [hst]; rcases q1 with q | q <;> rw [q]
    · exact hI.shape.flushable
    · exact hI.shape.flushable.qdel id
  · rw [hst]; rcases q2 with q | q <;> rw [q]
    · exact hI.shape.readable
    · exact hI.shape.readable.qdel id
  · rw [hst]; rcases q3 with q | q <;> rw [q]
    · exact hI.shape.writable
    · exact hI.shape.writable.qdel id
  · rw [hst, f.collected, t.txData, t.txBuffered, t.reset, hfr]; exact hI.tx
  · intro hd
    rw [hst, f.collected, r.rxData, r.fc, r.smd, r.almostFull, hfr]
    exact hI.rx (r.dead ▸ hd)
  · rw [f.factorNum, f.factorDen, t.txCap, t.txData, f.maxTxData]; exact hI.cap
  · rw [f.factorDen]; exact hI.den
  · rw [f.maxTxData]; exact hI.lim
  · rw [r.fc, r.dead]; exact hI.advData
  · rw [f.counts]; exact hI.adv
  · rw [f.counts]; exact hI.grant
  · rw [f.collected]; exact hI.gone
  · rw [f.peer]; exact hI.peerB
  · rw [f.counts]; exact hI.init
  · rw [f.factorNum, f.factorDen]; exact hI.fac

theorem Inv.removeReadable (hI : Inv c h gone) (id : Nat) : Inv (c.removeReadable id) h gone :=
  hI.dequeue (by constructor <;> rfl) (by constructor <;> rfl) (by constructor <;> rfl) rfl rfl id
    (.inl rfl) (.inr rfl) (.inl rfl)

theorem Inv.removeWritable (hI : Inv c h gone) (id : Nat) : Inv (c.removeWritable id) h gone :=
  hI.dequeue (by constructor <;> rfl) (by constructor <;> rfl) (by constructor <;> rfl) rfl rfl id
    (.inl rfl) (.inl rfl) (.inr rfl)

theorem Inv.removeFlushable (hI : Inv c h gone) (id : Nat) : Inv (c.removeFlushable id) h gone :=
  hI.dequeue (by constructor <;> rfl) (by constructor <;> rfl) (by constructor <;> rfl) rfl rfl id
    (.inr rfl) (.inl rfl) (.inl rfl)

theorem Inv.ite (h1 : Inv c h gone) (h2 : Inv c' h gone) (p : Prop) [Decidable p] :
    Inv (if p then c else c') h gone := by split <;> assumption

theorem ite_crashed (h1 : c.crashed = c'.crashed) {d : Conn} (p : Prop) [Decidable p] (h2 : d.crashed = c'.crashed) :
    (if p then c else d).crashed = c'.crashed := by split <;> assumption

/-- Reading gives back connection window. -/
theorem Inv.read (hI : Inv c h gone) {id : Nat} {s : Stream} (hg : c.get id = some s) {r : RecvBuf} {n : Nat}
    {af : List Nat} (hf : c'.fc = c.fc.addConsumed n) (hst : c'.streams = Assoc.put c.streams id { s with recv := r })
    (f : Frame0 c c') (t : SameTx c c') (q1 : c'.flushable = c.flushable) (q2 : QMove s.key c.readable c'.readable)
    (q3 : c'.writable = c.writable) (hfr : c'.frames = c.frames) (hd : c'.dead = c.dead)
    (hrx : c'.rxData = c.rxData) (hs : c'.shouldSendMaxData = c.shouldSendMaxData)
    (haf : c'.almostFull = af)
    (alive : c.dead = false → RecvBuf.RInv r ∧ r.flowControl.window ≤ r.flowControl.maxWindow ∧
      s.recv.flowControl.maxData ≤ r.flowControl.maxData ∧ r.len = s.recv.len ∧ r.off = s.recv.off + n ∧
      (Raises s.recv.flowControl → Raises r.flowControl) ∧
      (∀ i ∈ af, i ∈ c.almostFull ∨ i = id ∧ Raises r.flowControl)) :
    Inv c' h gone := by
  refine hI.putRecv (id := id) (s := s) (s' := { s with recv := r }) (v := h.hi id) (clean' := h.clean) hg
    f t hst rfl rfl rfl rfl (q1 ▸ .refl) q2 (q3 ▸ .refl) (hfr ▸ fun f hf => .inl hf) (by rw [upd_self]) hd (fun _ => rfl) ?_
  intro hd0
  obtain ⟨a1, a2, a3, a4, a5, a6, a7⟩ := alive hd0
  have hR := hI.rx hd0
  have hok := hR.live id s hg
  have hol := a1.offlen
  have hhi := hR.hi id s hg
  have h1 := hR.lim
  have h2 := hR.win
  rw [hf, hrx, hs, haf, hfr]
  simp only [FlowControl.addConsumed, held]
  refine ⟨⟨a1, a2, ?_⟩, trivial, Nat.le_refl _, Nat.le_refl _, ?_, by omega, fun hc => ⟨hc, by omega⟩, h1, h2,
    fun hm => raises_addConsumed (hR.md hm) _, ?_, ?_, fun i hi => .inr hi⟩
  · intro x y; show r.len = 0; rw [a4]; exact hok.uni x y
  · omega
  · rintro (hm | hm)
    · rcases a7 id hm with h3 | ⟨-, h3⟩
      · exact a6 ((hR.msd id (.inl h3)).1 s hg)
      · exact h3
    · exact a6 ((hR.msd id (.inr hm)).1 s hg)
  · intro i hi
    rcases a7 i hi with h3 | ⟨h3, -⟩
    · exact .inr h3
    · exact .inl h3

theorem recvData_safe (hI : Inv c h gone) (id cap : Nat) :
    Safe c h gone (.recv id cap) (c.recvData id cap) := by
  unfold recvData
  split
  · exact safe_err hI rfl _ _
  cases hg : c.get id with
  | none => exact safe_err hI rfl _ _
  | some s =>
  simp only
  split
  · exact safe_err hI rfl _ _
  cases e : s.recv.emit cap with
  | mk res r =>
  cases res with
  | error er =>
    simp only
    have h1 : Inv (c.put id { s with recv := r }) h gone := by
      refine hI.read (n := 0) (af := c.almostFull) (r := r) hg (by simp [FlowControl.addConsumed]) rfl ?_ ?_ rfl .refl rfl rfl rfl rfl rfl rfl ?_
      · constructor <;> rfl
      · constructor <;> rfl
      intro hd
      have hok := (hI.rx hd).live id s hg
      have hr : r = s.recv ∨ r = { s.recv with data := [] } ∧ RecvBuf.RInv { s.recv with data := [] } := by
        rcases RecvBuf.emit_spec hok.inv cap with ⟨-, e2⟩ | ⟨-, e', -, e2, hi⟩ | ⟨-, out, fin, r', e2, -⟩ <;> rw [e] at e2
        · exact .inl (Prod.mk.inj e2).2
        · exact .inr ⟨(Prod.mk.inj e2).2, hi⟩
        · simp at e2
      have hI' : RecvBuf.RInv r := by
        rcases hr with rfl | ⟨rfl, hi⟩
        · exact hok.inv
        · exact hi
      have hf : r.flowControl = s.recv.flowControl ∧ r.len = s.recv.len ∧ r.off = s.recv.off := by
        rcases hr with rfl | ⟨rfl, -⟩ <;> exact ⟨rfl, rfl, rfl⟩
      obtain ⟨f1, f2, f3⟩ := hf
      rw [f1]
      exact ⟨hI', hok.win, Nat.le_refl _, f2, f3, fun x => x, fun i hi => .inl hi⟩
    have hg1 : (c.put id { s with recv := r }).get id = some { s with recv := r } := by
      simp [get, put, Assoc.get_put]
    refine safe_err ((h1.ite_collect hg1 (fun x => x)).removeReadable id) ?_ _ _
    simp
  | ok p =>
    obtain ⟨out, fin⟩ := p
    simp only
    cases haf : r.almostFull with
    | none =>
      simp only
      refine .inr ⟨rfl, rfl, .inl ?_⟩
      cases hd : c.dead with
      | true => rfl
      | false =>
        have hok := (hI.rx hd).live id s hg
        rcases RecvBuf.emit_spec hok.inv cap with ⟨-, e2⟩ | ⟨-, e', -, e2, hi⟩ | ⟨-, out, fin, r', e2, hr⟩ <;> rw [e] at e2
        · simp at e2
        · simp at e2
        · obtain ⟨-, rfl⟩ := Prod.mk.inj e2
          obtain ⟨b, hb, -⟩ := RecvBuf.almostFull_of hr.inv
          rw [haf] at hb; simp at hb
    | some af =>
      simp only
      refine .inl ⟨by simp, by simp, ?_⟩
      show Inv _ h gone
      refine Inv.ite_collect ?_ ?_ (fun x => x)
      · have h1 : Inv (if af = true then ({ (c.put id { s with recv := r }) with fc := c.fc.addConsumed out.length } : Conn).insertAlmostFull id
            else { (c.put id { s with recv := r }) with fc := c.fc.addConsumed out.length }) h gone := by
          refine hI.read (n := out.length) (r := r) hg (by simp) (by simp) ?_ ?_ (by simp) (by simp; exact .refl) (by simp) (by simp) (by simp) (by simp)
            (by simp) rfl ?_
          · constructor <;> simp
          · constructor <;> simp
          intro hd
          have hok := (hI.rx hd).live id s hg
          rcases RecvBuf.emit_spec hok.inv cap with ⟨-, e2⟩ | ⟨-, e', -, e2, hi⟩ | ⟨-, out, fin, r', e2, hr⟩ <;> rw [e] at e2
          · simp at e2
          · simp at e2
          · obtain ⟨e3, rfl⟩ := Prod.mk.inj e2
            obtain ⟨rfl, rfl⟩ := Prod.mk.inj (Except.ok.inj e3)
            obtain ⟨b, hb, hb2⟩ := RecvBuf.almostFull_of hr.inv
            rw [haf] at hb
            obtain rfl := Option.some.inj hb
            have hc := hr.consumed
            refine ⟨hr.inv, by rw [hc]; exact hok.win, by rw [hc]; exact Nat.le_refl _, hr.len, hr.off, ?_, ?_⟩
            · rw [hc]; exact fun x => raises_addConsumed x _
            · intro i hi
              cases haf' : af with
              | false => rw [haf'] at hi; left; simpa using hi
              | true =>
                rw [haf'] at hi
                simp only [if_true, insertAlmostFull] at hi
                split at hi
                · exact .inl hi
                · rcases List.mem_cons.mp hi with h4 | h4
                  · exact .inr ⟨h4, hb2 haf'⟩
                  · exact .inl h4
        exact .ite (h1.removeReadable id) h1 _
      · simp [get, streams_ite, Assoc.get_put]

theorem shutRead_safe (hI : Inv c h gone) (id code : Nat) :
    Safe c h gone (.shutRead id code) (c.shutRead id code) := by
  unfold shutRead
  split
  · exact safe_err hI rfl _ _
  cases hg : c.get id with
  | none => exact safe_err hI rfl _ _
  | some s =>
  simp only
  have halive : c.dead = false → ∀ res r, s.recv.shutdown = (res, r) → (res = .error .done ∨ ∃ n, res = .ok n ∧
      RecvBuf.RInv r ∧ r.off = s.recv.off + n ∧ r.len = s.recv.len ∧ r.flowControl = s.recv.flowControl) := by
    intro hd res r e
    have hok := (hI.rx hd).live id s hg
    rcases RecvBuf.shutdown_spec hok.inv with ⟨-, e2⟩ | ⟨-, r', e2, a1, a2, a3, -, -, -, -, a5⟩ <;> rw [e] at e2
    · exact .inl (Prod.mk.inj e2).1
    · obtain ⟨e3, rfl⟩ := Prod.mk.inj e2
      have := hok.inv.offlen
      exact .inr ⟨_, e3, a1, by omega, a3, a5⟩
  split
  · next r e =>
    refine .inr ⟨rfl, rfl, .inl ?_⟩
    cases hd : c.dead with
    | true => rfl
    | false => rcases halive hd _ _ e with h1 | ⟨n, h1, -⟩ <;> simp at h1
  · exact safe_err hI rfl _ _
  · next n r e =>
    refine .inl ⟨by simp, by simp, ?_⟩
    show Inv _ h gone
    refine Inv.removeReadable ?_ id
    refine hI.read (n := n) (r := r) hg (by simp) (by simp) ?_ ?_ (by simp) (by simp; exact .refl) (by simp) (by simp) (by simp) (by simp)
      (by simp) rfl ?_
    · constructor <;> simp
    · constructor <;> simp
    intro hd
    have hok := (hI.rx hd).live id s hg
    rcases halive hd _ _ e with h1 | ⟨m, h1, a1, a2, a3, a4⟩
    · simp at h1
    · obtain rfl := Except.ok.inj h1
      rw [a4]
      exact ⟨a1, hok.win, Nat.le_refl _, a3, a2, fun x => x, fun i hi => .inl (by simpa using hi)⟩

theorem shutWrite_safe (hI : Inv c h gone) (id code w : Nat) :
    Safe c h gone (.shutWrite id code w) (c.shutWrite id code w) := by
  unfold shutWrite
  split
  · exact safe_err hI rfl _ _
  cases hg : c.get id with
  | none => exact safe_err hI rfl _ _
  | some s =>
  simp only
  have hs := hI.static hg
  have hok := hI.tx.live id s hg
  obtain ⟨W, hW⟩ := hok.inv
  have hle := hW.emit
  have hA := hI.acc_eq hg
  have hE := hI.ends_eq hg
  rcases SendBuf.shutdown_spec hW with ⟨he, e2⟩ | ⟨he, b, e2, hc, -⟩ <;> rw [e2] <;> simp only
  · exact safe_err hI rfl _ _
  · have hbuf := hI.buf_le hg
    have hoff := hI.off_le hg
    have c1' := hc.off
    have c2 := hc.emitOff
    have c3 := hc.buf
    rw [subTxBuffered, if_neg (by simpa using hbuf)]
    simp only
    rcases updateTxCap_spec (c := { (c.put id { s with send := b }) with
        txData := (c.put id { s with send := b }).txData - (s.send.off - s.send.emitOff),
        txBuffered := (c.put id { s with send := b }).txBuffered - s.send.bufferedBytes }) hI.den w
      with ⟨h1, e⟩ | ⟨_, n, e, hn⟩ <;> rw [e] <;> simp only
    · refine .inr ⟨rfl, rfl, .inr (.inl ?_)⟩
      simp at h1; omega
    · refine .inl ⟨by simp, by simp, ?_⟩
      refine hI.putSend (id := id) (s := s) (s' := { s with send := b }) hg ?_ ?_ (by simp) rfl rfl rfl rfl
        ?_ ?_ ?_ ⟨⟨W, hc.inv⟩, SendBuf.front_nil hc.data, ?_⟩ ?_ ?_ ?_ ?_ ?_ ?_ ?_
      · constructor <;> simp
      · constructor <;> simp
      · simp; exact .refl
      · simp; exact .refl
      · simp; exact .del' hs.key .refl
      · intro h1 h2; exact hc.maxData.trans (hok.uni h1 h2)
      · simp; omega
      · simp; omega
      · show s.send.emitOff ≤ b.emitOff
        omega
      · intro f hf; left; simpa using hf
      · intro i code' F hF
        simp only [removeWritable_reset, put_reset] at hF
        rcases Assoc.mem_put hF with h1 | h1
        · exact .inl h1
        · right; simp only [Prod.mk.injEq] at h1; obtain ⟨rfl, -, rfl⟩ := h1; exact ⟨rfl, by show _ ≤ b.emitOff; omega⟩
      · intro hf; simpa using hn hf
      · simp only [Hist.step]
        rw [upd_eq_self (show b.emitOff = h.ends id by omega), show h.ends id = b.off by omega]

theorem capacity_spec (hI : Inv c h gone) (id : Nat) :
    (c.get id = none ∧ c.capacity id = (c, .err (.invalidStreamState id))) ∨
    (∃ s e c', c.get id = some s ∧ c.capacity id = (c', .err (.streamStopped e)) ∧ Inv c' h gone ∧
      c'.crashed = c.crashed) ∨
    (∃ s, c.get id = some s ∧ s.send.error = none ∧
      c.capacity id = (c, .n (min c.txCap (s.send.maxData - s.send.off)))) := by
  unfold capacity
  cases hg : c.get id with
  | none => exact .inl ⟨rfl, rfl⟩
  | some s =>
    obtain ⟨W, hW⟩ := (hI.tx.live id s hg).inv
    simp only
    rcases cap_spec hW with ⟨e', he, hcap⟩ | ⟨he, hcap⟩ <;> rw [hcap] <;> simp only
    · refine .inr (.inl ⟨s, e', _, rfl, rfl, hI.ite_collect hg (by simp; exact fun h _ => h), by simp⟩)
    · exact .inr (.inr ⟨s, rfl, he, rfl⟩)

theorem capacity_safe (hI : Inv c h gone) (id : Nat) : Safe c h gone (.capacity id) (c.capacity id) := by
  rcases capacity_spec hI id with ⟨-, e⟩ | ⟨s, e', c', -, e, h1, h2⟩ | ⟨s, -, -, e⟩ <;> rw [e]
  · exact safe_err hI rfl _ _
  · exact safe_err h1 h2 _ _
  · exact .inl ⟨by simp, rfl, hI⟩

theorem isWritable_safe (hI : Inv c h gone) (id len : Nat) :
    Safe c h gone (.isWritable id len) (c.isWritable id len) := by
  unfold isWritable
  rcases capacity_spec hI id with ⟨-, e⟩ | ⟨s, e', c', -, e, h1, h2⟩ | ⟨s, hg, he, e⟩ <;> rw [e] <;> simp only
  · exact safe_err hI rfl _ _
  · exact safe_err h1 h2 _ _
  · split
    · exact .inl ⟨by simp, rfl, hI⟩
    rw [hg]
    simp only
    have hok := hI.tx.live id s hg
    obtain ⟨W, hW⟩ := hok.inv
    split
    · next hlt => exact .inr ⟨rfl, rfl, .inr (.inl (by simpa using hlt))⟩
    have hI1 : Inv (c.put id { s with sendLowat := max 1 len }) h gone :=
      hI.putSend0 (s' := { s with sendLowat := max 1 len }) hg (by constructor <;> rfl) (by constructor <;> rfl)
        (by constructor <;> rfl) rfl rfl rfl rfl rfl rfl .refl .refl .refl ⟨hok.inv, hok.front, hok.uni⟩ rfl rfl rfl
    have hg1 : (c.put id { s with sendLowat := max 1 len }).get id = some { s with sendLowat := max 1 len } := by
      simp [get, put, Assoc.get_put]
    rcases cap_spec hW with ⟨e', he', hcap⟩ | ⟨he', hcap⟩
    · rw [he] at he'; simp at he'
    rw [hcap]
    simp only
    obtain ⟨hI2, hb2⟩ := hI1.ite_blockedLimit ((c.put id { s with sendLowat := max 1 len }).maxTxData -
      (c.put id { s with sendLowat := max 1 len }).txData < len) (some (c.put id { s with sendLowat := max 1 len }).maxTxData)
    have hg2 : (if (c.put id { s with sendLowat := max 1 len }).maxTxData -
        (c.put id { s with sendLowat := max 1 len }).txData < len then
        { (c.put id { s with sendLowat := max 1 len }) with blockedLimit := some (c.put id { s with sendLowat := max 1 len }).maxTxData }
        else c.put id { s with sendLowat := max 1 len }).get id = some { s with sendLowat := max 1 len } := by
      split <;> exact hg1
    generalize (if (c.put id { s with sendLowat := max 1 len }).maxTxData -
        (c.put id { s with sendLowat := max 1 len }).txData < len then
        { (c.put id { s with sendLowat := max 1 len }) with blockedLimit := some (c.put id { s with sendLowat := max 1 len }).maxTxData }
        else c.put id { s with sendLowat := max 1 len }) = c2 at hI2 hb2 hg2 ⊢
    have hcr : c2.crashed = c.crashed := hb2.crashed
    split
    · split
      · refine .inl ⟨by simp, by simpa using hcr, ?_⟩
        exact hI2.putSend0 (s' := { s with sendLowat := max 1 len, send := { s.send with blockedAt := some s.send.maxData } }) hg2
          (by constructor <;> rfl) (by constructor <;> rfl) (by constructor <;> rfl) rfl rfl rfl rfl rfl rfl .refl .refl .refl
          ⟨⟨_, SInv_blockedAt hW _⟩, hok.front, hok.uni⟩ rfl rfl rfl
      · exact .inl ⟨by simp, hcr, hI2⟩
    · refine .inl ⟨by simp, by simpa using hcr, ?_⟩
      refine hI2.queues ?_ ?_ ?_ (by simp) (by simp) hg2 ?_ ?_ ?_
      · constructor <;> simp
      · constructor <;> simp
      · constructor <;> simp
      · simp; exact .refl
      · simp; exact .refl
      · simp; exact .ite (.add .refl) .refl

theorem writableNext_safe (hI : Inv c h gone) : Safe c h gone .writableNext c.writableNext := by
  unfold writableNext
  split
  · exact .inl ⟨by simp, rfl, hI⟩
  · split
    · exact .inl ⟨by simp, rfl, hI⟩
    · exact .inl ⟨by simp, rfl, hI.removeWritable _⟩

theorem readableNext_safe (hI : Inv c h gone) : Safe c h gone .readableNext c.readableNext := by
  unfold readableNext
  split
  · exact .inl ⟨by simp, rfl, hI⟩
  · exact .inl ⟨by simp, rfl, hI.removeReadable _⟩

theorem Inv.rekey (hI : Inv c h gone) {id : Nat} {s : Stream} (hg : c.get id = some s) {k : Key} (hk : k.id = id) :
    Inv ((c.put id { s with key := k }).updatePriority k) h gone := by
  have hs := hI.static hg
  refine ⟨⟨?_, ?_, ?_, ?_⟩, ?_, ?_, ?_, hI.den, hI.lim, hI.advData, hI.adv, hI.grant, hI.gone, hI.peerB, hI.hiB, hI.init, hI.fac⟩
  · exact hI.shape.wf.put hg ⟨hk, hs.bidi, hs.loc⟩
  · subst hk; exact hI.shape.flushable.rekey rfl
  · subst hk; exact hI.shape.readable.rekey rfl
  · subst hk; exact hI.shape.writable.rekey rfl
  · exact hI.tx.put_same (s' := { s with key := k }) hg rfl rfl rfl (fun f hf => .inl hf)
  · intro hd; exact (hI.rx hd).put_same (s' := { s with key := k }) hg rfl rfl rfl (fun x => x) (fun _ x => x)
  · exact hI.cap

theorem priority_safe (hI : Inv c h gone) (id u : Nat) (inc : Bool) :
    Safe c h gone (.priority id u inc) (c.priority id u inc) := by
  unfold priority
  rcases getOrCreate_inv hI id true with ⟨c1, s, e, hI1, hg, hb⟩ | e | e | e <;> rw [e] <;> simp only
  · split
    · exact .inl ⟨by simp, hb.crashed, hI1⟩
    · exact .inl ⟨by simp, by simp [hb.crashed], hI1.rekey hg rfl⟩
  · exact .inl ⟨by simp, rfl, hI⟩
  · exact safe_err hI rfl _ _
  · exact safe_err hI rfl _ _

end Conn
end Verif.Conn
