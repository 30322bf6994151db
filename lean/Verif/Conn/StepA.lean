import Verif.Conn.Inv

/-! Arriving frames preserve the invariant. -/

namespace Verif.Conn.Conn
open Verif Verif.Stream

/-- When a panic is possible: on a connection that is being closed because of an error,
or when the peer's connection limit is below what has been accepted already. -/
def Excuse (c : Conn) (op : Op) : Prop :=
  c.dead = true ∨ c.maxTxData < c.txData ∨ ∃ p d b u w, op = .peerParams p d b u w ∧ d < c.txData

/-- What one operation may do. -/
def Safe (c : Conn) (h : Hist) (gone : List Nat) (op : Op) (r : Conn × Ev) : Prop :=
  (r.2 ≠ .panic ∧ r.1.crashed = c.crashed ∧ Inv r.1 (h.step op r.2) gone) ∨
  (r.2 = .panic ∧ r.1.crashed = true ∧ Excuse c op)

variable {c c' : Conn} {h : Hist} {gone : List Nat}

/-- The fields that `getOrCreate` leaves alone. -/
structure Base (c c' : Conn) : Prop where
  isServer : c'.isServer = c.isServer
  dead : c'.dead = c.dead
  crashed : c'.crashed = c.crashed
  maxTxData : c'.maxTxData = c.maxTxData
  txData : c'.txData = c.txData
  txCap : c'.txCap = c.txCap
  fc : c'.fc = c.fc
  rxData : c'.rxData = c.rxData
  factorNum : c'.factorNum = c.factorNum
  factorDen : c'.factorDen = c.factorDen

theorem Base.refl (c : Conn) : Base c c := by constructor <;> rfl

theorem Created.base {id : Nat} {s : Stream} (h : Created c id c' s) : Base c c' :=
  ⟨h.isServer', h.dead', h.crashed', h.maxTxData', h.txData', h.txCap', h.fc', h.rxData', h.factorNum', h.factorDen'⟩

theorem getOrCreate_inv (hI : Inv c h gone) (id : Nat) (loc : Bool) :
    (∃ c1 s, c.getOrCreate id loc = .ok (c1, s) ∧ Inv c1 h gone ∧ c1.get id = some s ∧ Base c c1) ∨
    c.getOrCreate id loc = .error .done ∨ c.getOrCreate id loc = .error (.invalidStreamState id) ∨
    c.getOrCreate id loc = .error .streamLimit := by
  rcases getOrCreate_spec hI.shape id loc with ⟨s, h1, h2⟩ | ⟨_, _, h2⟩ | ⟨_, _, _, h2⟩ | ⟨_, _, _, _, h2⟩ |
    ⟨_, c', s, h2, h3⟩
  · exact .inl ⟨c, s, h2, hI, h1, .refl c⟩
  · exact .inr (.inl h2)
  · exact .inr (.inr (.inl h2))
  · exact .inr (.inr (.inr h2))
  · exact .inl ⟨c', s, h2, (hI.create h3).1, (hI.create h3).2, h3.base⟩

theorem Hist.step_closed (h : Hist) (op : Op) (e : CErr) : h.step op (.closed e) = h := by
  cases op <;> rfl

theorem Hist.step_err (h : Hist) (op : Op) (e : QErr) : h.step op (.err e) = h := by
  cases op <;> rfl

theorem Hist.step_ignored (h : Hist) (op : Op) : h.step op .ignored = h := by
  cases op <;> rfl

theorem Hist.step_idle (h : Hist) (op : Op) : h.step op .idle = h := by
  cases op <;> rfl

theorem safe_close (hI : Inv c' h gone) (hb : c'.crashed = c.crashed) (op : Op) {e : CErr}
    (he : e ≠ .q .panic) : Safe c h gone op (c'.close e) := by
  have : c'.close e = ({ c' with dead := true }, .closed e) := by
    unfold close; split
    · exact absurd rfl he
    · rfl
  rw [this]
  refine .inl ⟨by simp, hb, ?_⟩
  rw [Hist.step_closed]; exact hI.dead

theorem safe_ignored (hI : Inv c h gone) (op : Op) : Safe c h gone op (c, .ignored) :=
  .inl ⟨by simp, rfl, by rw [Hist.step_ignored]; exact hI⟩

theorem safe_err (hI : Inv c' h gone) (hb : c'.crashed = c.crashed) (op : Op) (e : QErr) :
    Safe c h gone op (c', .err e) :=
  .inl ⟨by simp, hb, by rw [Hist.step_err]; exact hI⟩

/-- After a failed write to the receive buffer the connection is closed. -/
theorem Inv.putDead (hI : Inv c h gone) {id : Nat} {s : Stream} (hg : c.get id = some s) (r : RecvBuf) :
    Inv { c.put id { s with recv := r } with dead := true } h gone :=
  hI.dead.putRecv (c' := { c.put id { s with recv := r } with dead := true }) (id := id) (s := s)
    (s' := { s with recv := r }) (v := h.hi id) (clean' := h.clean) hg
    (by constructor <;> rfl) (by constructor <;> rfl) rfl rfl rfl rfl rfl .refl .refl .refl
    (fun f hf => .inl hf) (by rw [upd_self]) rfl (fun _ => rfl) (fun hd => by simp at hd)

theorem safe_closeRecv (hI : Inv c' h gone) (hb : c'.crashed = c.crashed) {id : Nat} {s : Stream}
    (hg : c'.get id = some s) (r : RecvBuf) (op : Op) {e : CErr} (he : e ≠ .q .panic) :
    Safe c h gone op ((c'.put id { s with recv := r }).close e) := by
  have : (c'.put id { s with recv := r }).close e =
      ({ c'.put id { s with recv := r } with dead := true }, .closed e) := by
    unfold close; split
    · exact absurd rfl he
    · rfl
  rw [this]
  refine .inl ⟨by simp, hb, ?_⟩
  rw [Hist.step_closed]; exact hI.putDead hg r

theorem raises_addConsumed {f : FlowControl} (h : Raises f) (n : Nat) : Raises (f.addConsumed n) := by
  unfold Raises FlowControl.addConsumed at *; simp only; omega

theorem recvStream_safe (hI : Inv c h gone) (hd : c.dead = false) (id off : Nat) (data : Bytes) (fin : Bool) :
    Safe c h gone (.recvStream id off data fin) (c.recvStream id off data fin) := by
  have hR := hI.rx hd
  unfold recvStream
  split
  · exact safe_close hI rfl _ (by simp)
  next hside =>
  have hlim := hR.lim
  rw [if_neg (by omega)]
  rcases getOrCreate_inv hI id false with ⟨c1, s, e, hI1, hg, hb⟩ | e | e | e <;> rw [e] <;> simp only
  · have hd1 : c1.dead = false := by rw [hb.dead]; exact hd
    have hR1 := hI1.rx hd1
    have hs := hI1.static hg
    have hok := hR1.live id s hg
    have hwf := RangeBuf.wf_mk' data off fin
    have hhi := hR1.hi id s hg
    split
    · exact safe_close hI1 hb.crashed _ (by simp)
    next hdelta =>
    have n1 : (RangeBuf.mk' data off fin).maxOff = off + data.length := by simp [RangeBuf.maxOff]
    have n2 : (RangeBuf.mk' data off fin).len = data.length := by simp
    have n3 : (RangeBuf.mk' data off fin).fin = fin := rfl
    rcases RecvBuf.write_spec hok.inv hwf rfl with ⟨_, e2⟩ | ⟨_, _, e2⟩ | ⟨_, _, r, e2, hw⟩ <;> rw [e2] <;> simp only
    · exact safe_closeRecv hI1 hb.crashed hg _ _ (by simp)
    · exact safe_closeRecv hI1 hb.crashed hg _ _ (by simp)
    · refine .inl ⟨by simp, by simp [hb.crashed], ?_⟩
      have hlen := hw.len
      have hoff := hw.off
      have hol := hok.inv.offlen
      have hdr := hok.inv.drn
      have hol' := hw.inv.offlen
      rw [n1, n2, n3] at hlen
      have hle : r.len ≤ s.recv.len + (off + data.length - s.recv.len) := by
        rw [hlen]; split <;> omega
      have hge : s.recv.len ≤ r.len := by rw [hlen]; split <;> omega
      have hex : ¬ (data.length = 0 ∧ fin = false) → r.len = s.recv.len + (off + data.length - s.recv.len) := by
        intro hne; rw [hlen, if_neg hne]; omega
      have hfc : c1.rxData + (off + data.length - s.recv.len) ≤ c1.fc.maxData := by
        rw [hb.rxData, hb.fc]; omega
      have hside2 : s.bidi = false → s.local' = true → False := by
        intro h1 h2
        rw [hs.bidi] at h1; rw [hs.loc, hb.isServer] at h2
        exact hside (by simp [h1, h2])
      refine hI1.putRecv (id := id) (s := s) (s' := { s with recv := r }) (v := max (h.hi id) (off + data.length))
        (clean' := h.clean && !(data.isEmpty && !fin)) hg ?_ ?_ (by simp) rfl rfl rfl rfl ?_ ?_ ?_ ?_ rfl (by simp) (by rw [hd1]; simp) ?_
      · constructor <;> simp
      · constructor <;> simp
      · simp; exact .refl
      · simp; exact .ite (.add .refl) .refl
      · simp; exact .refl
      · intro f hf; left; simpa using hf
      · intro _
        have hmd := hR1.md
        have hmsd := hR1.msd id
        have hwin := hR1.win
        cases hdrain : s.recv.drain with
        | true =>
          have hz := (hdr hdrain).2
          rw [hdrain] at hoff
          simp only [if_true] at hoff
          have hheld : held { s with recv := r } = 0 := by unfold held; simp only; omega
          have hheld0 : held s = 0 := by unfold held; omega
          simp only [if_true, rxData_ite, fc_ite, put_rxData, insertReadable_rxData, put_fc, insertReadable_fc,
            ite_self, hheld, hheld0, shouldSendMaxData_ite, almostFull_ite, frames_ite, put_shouldSendMaxData,
            insertReadable_shouldSendMaxData, put_almostFull, insertReadable_almostFull, put_frames,
            insertReadable_frames, FlowControl.addConsumed]
          refine ⟨⟨hw.inv, by rw [hw.fc]; exact hok.win, fun h1 h2 => (hside2 h1 h2).elim⟩, trivial, by omega, by omega,
            ?_, by omega, ?_, hfc, hwin, fun hm => raises_addConsumed (hmd hm) _, ?_, fun i hi => .inr hi, fun i hi => .inr hi⟩
          · rw [hlen]; split <;> omega
          · intro hc; simp only [Bool.and_eq_true] at hc; exact ⟨hc.1, by omega⟩
          · intro hm; rw [hw.fc]; exact (hmsd hm).1 s hg
        | false =>
          rw [hdrain] at hoff
          simp only [Bool.false_eq_true, if_false] at hoff
          have hheld : held { s with recv := r } = held s + (r.len - s.recv.len) := by unfold held; simp only; omega
          simp only [Bool.false_eq_true, if_false, rxData_ite, fc_ite, put_rxData, insertReadable_rxData, put_fc, insertReadable_fc,
            ite_self, hheld, shouldSendMaxData_ite, almostFull_ite, frames_ite, put_shouldSendMaxData,
            insertReadable_shouldSendMaxData, put_almostFull, insertReadable_almostFull, put_frames,
            insertReadable_frames, FlowControl.addConsumed]
          refine ⟨⟨hw.inv, by rw [hw.fc]; exact hok.win, fun h1 h2 => (hside2 h1 h2).elim⟩, trivial, by omega, by omega,
            ?_, by omega, ?_, hfc, hwin, hmd, ?_, fun i hi => .inr hi, fun i hi => .inr hi⟩
          · rw [hlen]; split <;> omega
          · intro hc
            simp only [Bool.and_eq_true, Bool.not_eq_true', Bool.and_eq_false_iff, Bool.not_eq_false'] at hc
            refine ⟨hc.1, ?_⟩
            have := hex (by
              rintro ⟨h1, h2⟩
              have : data = [] := List.length_eq_zero_iff.mp h1
              rw [this, h2] at hc; simp at hc)
            omega
          · intro hm; rw [hw.fc]; exact (hmsd hm).1 s hg
  · exact safe_ignored hI _
  · exact safe_close hI rfl _ (by simp)
  · exact safe_close hI rfl _ (by simp)

theorem recvReset_safe (hI : Inv c h gone) (hd : c.dead = false) (id code F : Nat) :
    Safe c h gone (.recvReset id code F) (c.recvReset id code F) := by
  have hR := hI.rx hd
  unfold recvReset
  split
  · exact safe_close hI rfl _ (by simp)
  next hside =>
  have hlim := hR.lim
  rw [if_neg (by omega)]
  rcases getOrCreate_inv hI id false with ⟨c1, s, e, hI1, hg, hb⟩ | e | e | e <;> rw [e] <;> simp only
  · have hd1 : c1.dead = false := by rw [hb.dead]; exact hd
    have hR1 := hI1.rx hd1
    have hs := hI1.static hg
    have hok := hR1.live id s hg
    have hhi := hR1.hi id s hg
    rcases RecvBuf.reset_spec hok.inv code F with ⟨_, e2⟩ | ⟨_, _, _, r, e2, _⟩ | ⟨_, hlF, _, ret, r, e2, hw⟩ <;>
      rw [e2] <;> simp only
    · exact safe_closeRecv hI1 hb.crashed hg _ _ (by simp)
    · exact safe_closeRecv hI1 hb.crashed hg _ _ (by simp)
    · split
      · exact safe_closeRecv hI1 hb.crashed hg _ _ (by simp)
      next hdelta =>
      refine .inl ⟨by simp, by simp [hb.crashed], ?_⟩
      have w1 := hw.delta
      have w2 := hw.consumed
      have w3 := hw.off
      have w4 := hw.len
      have w5 := hw.allRead
      have hol := hok.inv.offlen
      have hfc : c1.rxData + ret.maxDataDelta ≤ c1.fc.maxData := by
        rw [hb.rxData, hb.fc]; omega
      have hside2 : s.bidi = false → s.local' = true → False := by
        intro h1 h2
        rw [hs.bidi] at h1; rw [hs.loc, hb.isServer] at h2
        exact hside (by simp [h1, h2])
      refine hI1.putRecv (id := id) (s := s) (s' := { s with recv := r }) (v := max (h.hi id) F)
        (clean' := h.clean) hg ?_ ?_ (by simp) rfl rfl rfl rfl ?_ ?_ ?_ ?_ rfl (by simp) (by rw [hd1]; simp) ?_
      · constructor <;> simp
      · constructor <;> simp
      · simp; exact .refl
      · simp; exact .ite (.add .refl) .refl
      · simp; exact .refl
      · intro f hf; left; simpa using hf
      · intro _
        have hmd := hR1.md
        have hmsd := hR1.msd id
        have hwin := hR1.win
        have hheld : held { s with recv := r } = 0 := by unfold held; simp only; omega
        simp only [if_true, rxData_ite, fc_ite, put_rxData, insertReadable_rxData, put_fc, insertReadable_fc,
          ite_self, hheld, shouldSendMaxData_ite, almostFull_ite, frames_ite, put_shouldSendMaxData,
          insertReadable_shouldSendMaxData, put_almostFull, insertReadable_almostFull, put_frames,
          insertReadable_frames, FlowControl.addConsumed]
        unfold held
        refine ⟨⟨hw.inv, by rw [hw.fc]; exact hok.win, fun h1 h2 => (hside2 h1 h2).elim⟩, trivial, by omega, by omega,
          by omega, by omega, ?_, hfc, hwin, fun hm => raises_addConsumed (hmd hm) _, ?_, fun i hi => .inr hi, fun i hi => .inr hi⟩
        · intro hc; exact ⟨hc, by omega⟩
        · intro hm; rw [hw.fc]; exact (hmsd hm).1 s hg
  · exact safe_ignored hI _
  · exact safe_close hI rfl _ (by simp)
  · exact safe_close hI rfl _ (by simp)

theorem Inv.acc_eq (hI : Inv c h gone) {id : Nat} {s : Stream} (hg : c.get id = some s) : h.acc id = s.send.off := by
  rw [hI.tx.acc]; exact valAt_live (f := fun s => s.send.off) _ hg

theorem Inv.ends_eq (hI : Inv c h gone) {id : Nat} {s : Stream} (hg : c.get id = some s) :
    h.ends id = s.send.emitOff := by
  rw [hI.tx.ends]; exact valAt_live (f := fun s => s.send.emitOff) _ hg

theorem Inv.buf_le (hI : Inv c h gone) {id : Nat} {s : Stream} (hg : c.get id = some s) :
    s.send.bufferedBytes ≤ c.txBuffered := by
  rw [hI.tx.buf]; exact Assoc.le_sum_of_get hg (fun s => s.send.bufferedBytes)

theorem Inv.off_le (hI : Inv c h gone) {id : Nat} {s : Stream} (hg : c.get id = some s) :
    s.send.off ≤ c.txData := by
  have := Assoc.le_sum_of_get hg (fun s => s.send.off)
  rw [hI.tx.tot]; omega

theorem recvStop_safe (hI : Inv c h gone) (id code : Nat) :
    Safe c h gone (.recvStop id code) (c.recvStop id code) := by
  unfold recvStop
  split
  · exact safe_close hI rfl _ (by simp)
  next hside =>
  rcases getOrCreate_inv hI id false with ⟨c1, s, e, hI1, hg, hb⟩ | e | e | e <;> rw [e] <;> simp only
  · have hs := hI1.static hg
    have hok := hI1.tx.live id s hg
    obtain ⟨W, hW⟩ := hok.inv
    have hle := hW.emit
    have hA := hI1.acc_eq hg
    have hE := hI1.ends_eq hg
    rcases SendBuf.stop_spec hW code with ⟨he, e2⟩ | ⟨he, b, e2, hc, -⟩ <;> rw [e2] <;> simp only
    · refine .inl ⟨by simp, hb.crashed, ?_⟩
      have : h.step (.recvStop id code) .ok = h := by
        simp only [Hist.step]
        rw [upd_eq_self]
        rcases hW.state with h1 | h1
        · exact absurd h1.1 he
        · rw [hA, hE]; exact h1.2.2.1
      rw [this]; exact hI1
    · have hbuf := hI1.buf_le hg
      have hoff := hI1.off_le hg
      have c1' := hc.off
      have c2 := hc.emitOff
      have c3 := hc.buf
      rw [subTxBuffered, if_neg (by simpa using hbuf)]
      simp only
      refine .inl ⟨by simp, by simp [hb.crashed], ?_⟩
      refine hI1.putSend (id := id) (s := s) (s' := { s with send := b }) hg ?_ ?_ (by simp) rfl rfl rfl rfl
        ?_ ?_ ?_ ⟨⟨W, hc.inv⟩, SendBuf.front_nil hc.data, ?_⟩ ?_ ?_ ?_ ?_ ?_ ?_ ?_
      · constructor <;> simp
      · constructor <;> simp
      · simp; exact .refl
      · simp; exact .refl
      · simp; exact .ite (.add .refl) .refl
      · intro h1 h2; exact hc.maxData.trans (hok.uni h1 h2)
      · simp; omega
      · simp; omega
      · show s.send.emitOff ≤ b.emitOff
        omega
      · intro f hf; left; simpa using hf
      · intro i code' F hF
        simp only [reset_ite, insertWritable_reset, ite_self, put_reset] at hF
        rcases Assoc.mem_put hF with h1 | h1
        · exact .inl h1
        · right; simp only [Prod.mk.injEq] at h1; obtain ⟨rfl, -, rfl⟩ := h1; exact ⟨rfl, by show _ ≤ b.emitOff; omega⟩
      · intro hf
        have := hI1.cap hf
        simp; omega
      · simp only [Hist.step]
        rw [upd_eq_self (show b.emitOff = h.ends id by omega), show h.ends id = b.off by omega]
  · exact safe_ignored hI _
  · exact safe_close hI rfl _ (by simp)
  · exact safe_close hI rfl _ (by simp)

theorem recvMaxStreamData_safe (hI : Inv c h gone) (id m : Nat) (hm : m < 2 ^ 62) :
    Safe c h gone (.recvMaxStreamData id m) (c.recvMaxStreamData id m) := by
  unfold recvMaxStreamData
  split
  · exact safe_close hI rfl _ (by simp)
  next hside =>
  rcases getOrCreate_inv hI id false with ⟨c1, s, e, hI1, hg, hb⟩ | e | e | e <;> rw [e] <;> simp only
  · have hs := hI1.static hg
    have hok := hI1.tx.live id s hg
    obtain ⟨W, hW⟩ := hok.inv
    refine .inl ⟨by simp, by simp [hb.crashed], ?_⟩
    refine hI1.putSend0 (id := id) (s := s) (s' := { s with send := s.send.updateMaxData m }) hg ?_ ?_ ?_ (by simp) (by simp)
        rfl rfl rfl rfl ?_ ?_ ?_ ⟨⟨W, SendBuf.updateMax_spec hW hm⟩, hok.front, ?_⟩ rfl rfl rfl
    · constructor <;> simp
    · constructor <;> simp
    · constructor <;> simp
    · simp; exact .ite (.add .refl) .refl
    · simp; exact .refl
    · simp; exact .ite (.add .refl) .refl
    · intro h1 h2
      rw [hs.bidi] at h1; rw [hs.loc, hb.isServer] at h2
      exact absurd (by simp [h1, h2]) hside
  · exact safe_ignored hI _
  · exact safe_close hI rfl _ (by simp)
  · exact safe_close hI rfl _ (by simp)

theorem Inv.recount (hI : Inv c h gone) {h' : Hist} (f1 : c'.isServer = c.isServer) (f2 : c'.collected = c.collected)
    (f3 : c'.streams = c.streams) (f4 : c'.flushable = c.flushable) (f5 : c'.readable = c.readable)
    (f6 : c'.writable = c.writable) (r : SameRx c c') (t1 : c'.txData = c.txData)
    (t2 : c'.txBuffered = c.txBuffered) (t3 : c'.reset = c.reset)
    (hfr : ∀ f ∈ c'.frames, f ∈ c.frames ∨ (∃ b, f = .maxStreams b))
    (n1 : c'.factorNum = c.factorNum) (n2 : c'.factorDen = c.factorDen)
    (cap : c.factorNum ≤ c.factorDen → c'.txCap + c'.txData ≤ c'.maxTxData)
    (k1 : ∀ b, (c'.counts b).localOpened = (c.counts b).localOpened)
    (k2 : ∀ b, (c'.counts b).peerOpened = (c.counts b).peerOpened)
    (k3 : ∀ b, (c.counts b).peerMax ≤ (c'.counts b).peerMax) (k4 : ∀ b, (c.counts b).localMax ≤ (c'.counts b).localMax)
    (k5 : ∀ b, (c'.counts b).localMax ≤ (c'.counts b).localMaxNext)
    (k6 : ∀ b, (c'.counts b).localMaxNext = (c.counts b).localMaxNext)
    (k7 : ∀ b, (c'.counts b).initial = (c.counts b).initial)
    (p : c'.peer.bidiLocal < 2 ^ 62 ∧ c'.peer.bidiRemote < 2 ^ 62 ∧ c'.peer.uni < 2 ^ 62)
    (hh : h' = { h with lim := c'.maxTxData, adv := fun b => (c'.counts b).localMax,
                        grant := fun b => (c'.counts b).peerMax }) : Inv c' h' gone := by
  subst hh
  refine ⟨⟨?_, ?_, ?_, ?_⟩, ?_, ?_, ?_, ?_, rfl, ?_, fun _ => rfl, fun _ => rfl, ?_, p, hI.hiB, ?_, ?_⟩
  · rw [f1, f2, f3]; exact hI.shape.wf.recount k1 k2 k3 k4 k5 k6 k7
  · rw [f3, f4]; exact hI.shape.flushable
  · rw [f3, f5]; exact hI.shape.readable
  · rw [f3, f6]; exact hI.shape.writable
  · rw [f2, f3, t1, t2, t3]
    refine hI.tx.frames ?_ (fun i code F hF => .inl hF)
    intro f hf
    rcases hfr f hf with h1 | ⟨b, rfl⟩
    · exact .inl h1
    · right; trivial
  · intro hd
    rw [f2, f3, r.rxData, r.fc, r.smd, r.almostFull]
    refine (hI.rx (r.dead ▸ hd)).frames ?_ ?_
    · intro hm
      refine hm.imp (fun x => x) (fun hm => ?_)
      rcases hfr _ hm with h1 | ⟨b, h1⟩
      · exact h1
      · simp at h1
    · intro i hm
      refine hm.imp (fun x => x) (fun hm => ?_)
      rcases hfr _ hm with h1 | ⟨b, h1⟩
      · exact h1
      · simp at h1
  · rw [n1, n2]; exact cap
  · rw [n2]; exact hI.den
  · rw [r.fc, r.dead]; exact hI.advData
  · rw [f2]; exact hI.gone
  · intro b; rw [k7]; exact hI.init b
  · rw [n1, n2]; exact hI.fac

theorem recvMaxStreams_safe (hI : Inv c h gone) (b : Bool) (m : Nat) :
    Safe c h gone (.recvMaxStreams b m) (c.recvMaxStreams b m) := by
  unfold recvMaxStreams
  split
  · exact safe_close hI rfl _ (by simp)
  have hk : ∀ x, (c.setCounts b { c.counts b with peerMax := max (c.counts b).peerMax m }).counts x =
      if x = b then { c.counts x with peerMax := max (c.counts x).peerMax m } else c.counts x := by
    intro x; rw [setCounts_counts]; split
    · next e => subst e; rfl
    · rfl
  refine .inl ⟨by simp, by simp, ?_⟩
  refine hI.recount (by simp) (by simp) (by simp) (by simp) (by simp) (by simp) (by constructor <;> simp)
    (by simp) (by simp) (by simp) (fun f hf => .inl (by simpa using hf)) (by simp) (by simp)
    (by simpa using hI.cap) ?_ ?_ ?_ ?_ ?_ ?_ ?_ (by simpa using hI.peerB) ?_
  · intro x; simp only [hk]; split <;> rfl
  · intro x; simp only [hk]; split <;> rfl
  · intro x; simp only [hk]; split <;> simp <;> omega
  · intro x; simp only [hk]; split <;> simp
  · intro x; simp only [hk]; split <;> exact hI.shape.wf.next x
  · intro x; simp only [hk]; split <;> rfl
  · intro x; simp only [hk]; split <;> rfl
  · simp only [Hist.step, setCounts_maxTxData, hI.lim]
    have e1 : (fun k => if k = b then max (h.grant k) m else h.grant k) = fun x =>
        ((c.setCounts b { c.counts b with peerMax := max (c.counts b).peerMax m }).counts x).peerMax := by
      funext x; rw [hk]; split <;> simp [hI.grant]
    have e2 : h.adv = fun x =>
        ((c.setCounts b { c.counts b with peerMax := max (c.counts b).peerMax m }).counts x).localMax := by
      funext x; rw [hk]; split <;> simp [hI.adv]
    rw [← e1, ← e2]

theorem cap_le {x num den : Nat} (hd : 0 < den) (h : num ≤ den) : (x * num + (den - 1)) / den ≤ x := by
  have h1 : x * num ≤ x * den := Nat.mul_le_mul_left x h
  have h2 : x * num + (den - 1) < den * (x + 1) := by
    rw [Nat.mul_add, Nat.mul_comm den x]; omega
  exact Nat.le_of_lt_succ (Nat.div_lt_of_lt_mul h2)

/-- `updateTxCap` keeps the capacity within the limit. -/
theorem updateTxCap_spec (hden : 0 < c.factorDen) (w : Nat) :
    (c.maxTxData < c.txData ∧ c.updateTxCap w = none) ∨
    (c.txData ≤ c.maxTxData ∧ ∃ n, c.updateTxCap w = some { c with txCap := n } ∧
      (c.factorNum ≤ c.factorDen → n + c.txData ≤ c.maxTxData)) := by
  unfold updateTxCap
  by_cases hlt : c.maxTxData < c.txData
  · left; rw [if_pos hlt]; exact ⟨hlt, rfl⟩
  · right
    rw [if_neg hlt]
    refine ⟨by omega, _, rfl, ?_⟩
    intro hf
    have := cap_le (x := min w (c.maxTxData - c.txData)) hden hf
    omega

theorem Inv.lims (hI : Inv c h gone) : { h with lim := c.maxTxData, adv := fun b => (c.counts b).localMax, grant := fun b => (c.counts b).peerMax } = h := by
  have e1 : (fun b => (c.counts b).localMax) = h.adv := funext hI.adv
  have e2 : (fun b => (c.counts b).peerMax) = h.grant := funext hI.grant
  rw [e1, e2, hI.lim]

theorem peerParams_safe (hI : Inv c h gone) (p : StreamLimits) (d b u w : Nat)
    (hp : p.bidiLocal < 2 ^ 62 ∧ p.bidiRemote < 2 ^ 62 ∧ p.uni < 2 ^ 62) :
    Safe c h gone (.peerParams p d b u w) (c.peerParams p d b u w) := by
  unfold peerParams
  simp only
  rcases updateTxCap_spec (c := { c with maxTxData := d }) hI.den w with ⟨h1, e⟩ | ⟨_, n, e, hn⟩ <;> rw [e] <;> simp only
  · exact .inr ⟨rfl, rfl, .inr (.inr ⟨p, d, b, u, w, rfl, h1⟩)⟩
  · refine .inl ⟨by simp, rfl, ?_⟩
    have w := hI.shape.wf
    refine hI.recount rfl rfl rfl rfl rfl rfl (by constructor <;> rfl) rfl rfl rfl (fun f hf => .inl hf) rfl rfl hn
      ?_ ?_ ?_ ?_ ?_ ?_ ?_ hp ?_
    · intro x; cases x <;> rfl
    · intro x; cases x <;> rfl
    · intro x; cases x <;> simp [counts] <;> omega
    · intro x; cases x <;> exact Nat.le_refl _
    · intro x; have := w.next x; cases x <;> exact this
    · intro x; cases x <;> rfl
    · intro x; cases x <;> rfl
    · simp only [Hist.step]
      have e1 : h.adv = fun b => (c.counts b).localMax := (funext hI.adv).symm
      have e2 : h.grant = fun b => (c.counts b).peerMax := (funext hI.grant).symm
      rw [e1, e2]
      congr 1
      · funext x; cases x <;> rfl
      · funext x; cases x <;> rfl

theorem recvDone_safe (hI : Inv c h gone) (w : Nat) :
    Safe c h gone (.recvDone w) (match c.updateTxCap w with | none => c.die | some c => (c, .ok)) := by
  rcases updateTxCap_spec hI.den w with ⟨h1, e⟩ | ⟨_, n, e, hn⟩ <;> rw [e] <;> simp only
  · exact .inr ⟨rfl, rfl, .inr (.inl h1)⟩
  · refine .inl ⟨by simp, rfl, ?_⟩
    exact hI.recount rfl rfl rfl rfl rfl rfl (by constructor <;> rfl) rfl rfl rfl (fun f hf => .inl hf) rfl rfl hn
      (fun _ => rfl) (fun _ => rfl) (fun _ => Nat.le_refl _) (fun _ => Nat.le_refl _) hI.shape.wf.next (fun _ => rfl) (fun _ => rfl)
      hI.peerB hI.lims.symm

theorem recvMaxData_safe (hI : Inv c h gone) (m : Nat) :
    Safe c h gone (.recvMaxData m) ({ c with maxTxData := max c.maxTxData m }, .ok) := by
  refine .inl ⟨by simp, rfl, ?_⟩
  refine hI.recount rfl rfl rfl rfl rfl rfl (by constructor <;> rfl) rfl rfl rfl (fun f hf => .inl hf) rfl rfl ?_
      (fun _ => rfl) (fun _ => rfl) (fun _ => Nat.le_refl _) (fun _ => Nat.le_refl _) hI.shape.wf.next (fun _ => rfl) (fun _ => rfl)
      hI.peerB ?_
  · intro hf; have := hI.cap hf; simp only; omega
  · simp only [Hist.step]
    have e1 : (fun b => (c.counts b).localMax) = h.adv := funext hI.adv
    have e2 : (fun b => (c.counts b).peerMax) = h.grant := funext hI.grant
    show _ = { h with lim := max c.maxTxData m, adv := fun b => (c.counts b).localMax, grant := fun b => (c.counts b).peerMax }
    rw [e1, e2, hI.lim]

end Verif.Conn.Conn
