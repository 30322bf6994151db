import Verif.Conn.StepC

/-! Sending, acknowledged and lost frames preserve the invariant. -/

namespace Verif.Conn
open Verif Verif.Stream

namespace Conn
variable {c c' : Conn} {h : Hist} {gone : List Nat}

theorem safe_idle (hI : Inv c h gone) (op : Op) : Safe c h gone op (c, .idle) :=
  .inl ⟨by simp, rfl, by rw [Hist.step_idle]; exact hI⟩

/-- The first stream of the queue sends. -/
theorem emit_safe (hI : Inv c h gone) {id : Nat} {s : Stream} (hg : c.get id = some s) {W : Bytes}
    (hW : SendBuf.SInv s.send W) {n : Nat} {b : SendBuf} {out : Bytes} {fin : Bool}
    (e : s.send.emit n = .ok (b, out, fin)) (ht : SendBuf.Sent s.send W n b out fin) (left : Nat) :
    ∃ c3, (if !({ s with send := b } : Stream).isFlushable then
          ({ (c.put id { s with send := b }) with frames := (c.put id { s with send := b }).frames ++ [Frame.stream id s.send.offFront out.length fin] } : Conn).removeFlushable id
        else if s.key.incremental then
          (({ (c.put id { s with send := b }) with frames := (c.put id { s with send := b }).frames ++ [Frame.stream id s.send.offFront out.length fin] } : Conn).removeFlushable id).insertFlushable s.key
        else { (c.put id { s with send := b }) with frames := (c.put id { s with send := b }).frames ++ [Frame.stream id s.send.offFront out.length fin] }).subTxBuffered out.length = some c3 ∧
      Safe c h gone (.outStream left) (c3, .sentStream id s.send.offFront out fin) := by
  have hs := hI.static hg
  have hok := hI.tx.live id s hg
  have hA := hI.acc_eq hg
  have hE := hI.ends_eq hg
  have hbuf := hI.buf_le hg
  have hoff : b.off = s.send.off := by rw [ht.fields]
  have hemit : b.emitOff = max s.send.emitOff (s.send.offFront + out.length) := by rw [ht.fields]
  have hmax : b.maxData = s.send.maxData := by rw [ht.fields]
  have hcnt := ht.count
  rw [subTxBuffered, if_neg (by simp; omega)]
  refine ⟨_, rfl, .inl ⟨by simp, by simp, ?_⟩⟩
  refine hI.putSend (s' := { s with send := b }) hg ?_ ?_ (by simp) rfl rfl rfl rfl ?_ ?_ ?_
    ⟨⟨_, ht.inv⟩, hok.front.emit e, fun h1 h2 => hmax.trans (hok.uni h1 h2)⟩ ?_ ?_ ?_ ?_ ?_ ?_ ?_
  · constructor <;> simp
  · constructor <;> simp
  · simp only [flushable_ite, removeFlushable_flushable, insertFlushable_flushable, put_flushable]
    exact .ite (.del' hs.key .refl) (.ite (.add (.del' hs.key .refl)) .refl)
  · simp; exact .refl
  · simp; exact .refl
  · simp; omega
  · simp; omega
  · show s.send.emitOff ≤ b.emitOff; omega
  · intro f hf
    simp only [frames_ite, removeFlushable_frames, insertFlushable_frames, put_frames, ite_self] at hf
    rcases List.mem_append.mp hf with h1 | h1
    · exact .inl h1
    · right; exact ⟨_, _, _, by simpa using h1, by show _ ≤ b.emitOff; omega⟩
  · intro i code F hF; left; simpa using hF
  · intro hf; have := hI.cap hf; simpa using this
  · simp only [Hist.step]
    rw [upd_eq_self (show b.off = h.acc id by omega), show max (h.ends id) (s.send.offFront + out.length) = b.emitOff by omega]

theorem outStreamLoop_safe (left : Nat) (fuel : Nat) : ∀ {c : Conn}, Inv c h gone →
    Safe c h gone (.outStream left) (outStreamLoop left fuel c) := by
  induction fuel with
  | zero => intro c hI; exact safe_idle hI _
  | succ fuel ih =>
    intro c hI
    unfold outStreamLoop
    split
    · exact safe_idle hI _
    · next k t hq =>
      cases hg : c.get k.id with
      | none => exact ih (hI.removeFlushable k.id)
      | some s =>
        simp only
        split
        · exact ih (hI.removeFlushable k.id)
        split
        · exact ih (hI.removeFlushable k.id)
        obtain ⟨W, hW⟩ := (hI.tx.live _ s hg).inv
        obtain ⟨b, out, fin, e, ht⟩ := SendBuf.emit_spec hW (left - (1 + varintLen k.id + varintLen s.send.offFront + 2))
        rw [e]
        simp only
        obtain ⟨c3, e3, hsafe⟩ := emit_safe hI hg hW e ht left
        rw [e3]
        exact hsafe

theorem outStream_safe (hI : Inv c h gone) (left : Nat) : Safe c h gone (.outStream left) (c.outStream left) := by
  unfold outStream
  split
  · exact outStreamLoop_safe left _ hI
  · exact safe_idle hI _

theorem outMaxStreams_true (c : Conn) (fits : Bool) : c.outMaxStreams true fits = (c, .idle) ∨
    c.outMaxStreams true fits = ({ c with bidi := { c.bidi with localMax := c.bidi.localMaxNext }, shouldSendMaxStreamsBidi := false, frames := c.frames ++ [.maxStreams true] }, .sentMaxStreams c.bidi.localMaxNext) := by
  unfold outMaxStreams
  cases fits
  · left; simp
  · simp only [reduceIte, Bool.false_eq_true]
    split
    · exact .inr rfl
    · exact .inl rfl

theorem outMaxStreams_false (c : Conn) (fits : Bool) : c.outMaxStreams false fits = (c, .idle) ∨
    c.outMaxStreams false fits = ({ c with uni := { c.uni with localMax := c.uni.localMaxNext }, shouldSendMaxStreamsUni := false, frames := c.frames ++ [.maxStreams false] }, .sentMaxStreams c.uni.localMaxNext) := by
  unfold outMaxStreams
  cases fits
  · left; simp
  · simp only [reduceIte, Bool.false_eq_true]
    split
    · exact .inr rfl
    · exact .inl rfl

theorem outMaxStreams_safe (hI : Inv c h gone) (b fits : Bool) :
    Safe c h gone (.outMaxStreams b fits) (c.outMaxStreams b fits) := by
  have w := hI.shape.wf
  have w1 : c.bidi.localMax ≤ c.bidi.localMaxNext := w.next true
  have w2 : c.uni.localMax ≤ c.uni.localMaxNext := w.next false
  have e1 : h.adv = fun b => (c.counts b).localMax := (funext hI.adv).symm
  have e2 : h.grant = fun b => (c.counts b).peerMax := (funext hI.grant).symm
  have hfr : ∀ b, ∀ f ∈ c.frames ++ [.maxStreams b], f ∈ c.frames ∨ (∃ b, f = .maxStreams b) := by
    intro b f hf
    rcases List.mem_append.mp hf with h1 | h1
    · exact .inl h1
    · right; exact ⟨b, by simpa using h1⟩
  cases b with
  | true =>
    rcases outMaxStreams_true c fits with e | e <;> rw [e]
    · exact safe_idle hI _
    · refine .inl ⟨by simp, rfl, ?_⟩
      refine hI.recount rfl rfl rfl rfl rfl rfl (by constructor <;> rfl) rfl rfl rfl (hfr true) rfl rfl hI.cap
        ?_ ?_ ?_ ?_ ?_ ?_ ?_ hI.peerB ?_
      · intro x; cases x <;> rfl
      · intro x; cases x <;> rfl
      · intro x; cases x <;> exact Nat.le_refl _
      · intro x; cases x
        · exact Nat.le_refl _
        · exact w1
      · intro x; cases x
        · exact w2
        · exact Nat.le_refl _
      · intro x; cases x <;> rfl
      · intro x; cases x <;> rfl
      · simp only [Hist.step]
        rw [e1, e2]
        simp only [Hist.mk.injEq, true_and, and_true]
        exact ⟨hI.lim.symm, by funext x; cases x <;> rfl, by funext x; cases x <;> rfl⟩
  | false =>
    rcases outMaxStreams_false c fits with e | e <;> rw [e]
    · exact safe_idle hI _
    · refine .inl ⟨by simp, rfl, ?_⟩
      refine hI.recount rfl rfl rfl rfl rfl rfl (by constructor <;> rfl) rfl rfl rfl (hfr false) rfl rfl hI.cap
        ?_ ?_ ?_ ?_ ?_ ?_ ?_ hI.peerB ?_
      · intro x; cases x <;> rfl
      · intro x; cases x <;> rfl
      · intro x; cases x <;> exact Nat.le_refl _
      · intro x; cases x
        · exact w2
        · exact Nat.le_refl _
      · intro x; cases x
        · exact Nat.le_refl _
        · exact w1
      · intro x; cases x <;> rfl
      · intro x; cases x <;> rfl
      · simp only [Hist.step]
        rw [e1, e2]
        simp only [Hist.mk.injEq, true_and, and_true]
        exact ⟨hI.lim.symm, by funext x; cases x <;> rfl, by funext x; cases x <;> rfl⟩

theorem raises_window {f f' : FlowControl} (h : Raises f) (h1 : f'.consumed = f.consumed) (h2 : f'.maxData = f.maxData)
    (h3 : f.window ≤ f'.window) : Raises f' := by unfold Raises at *; omega

theorem autotune_spec (f : FlowControl) (now rtt : Nat) (hw : f.window ≤ f.maxWindow) :
    (f.autotuneWindow now rtt).consumed = f.consumed ∧ (f.autotuneWindow now rtt).maxData = f.maxData ∧
    f.window ≤ (f.autotuneWindow now rtt).window ∧
    (f.autotuneWindow now rtt).window ≤ (f.autotuneWindow now rtt).maxWindow := by
  unfold FlowControl.autotuneWindow
  split
  · split
    · simp only [FlowControl.setWindow]; refine ⟨trivial, trivial, ?_, ?_⟩ <;> omega
    · exact ⟨rfl, rfl, Nat.le_refl _, hw⟩
  · exact ⟨rfl, rfl, Nat.le_refl _, hw⟩

theorem ensure_spec (f : FlowControl) (w : Nat) (hw : f.window ≤ f.maxWindow) :
    (f.ensureWindowLowerBound w).consumed = f.consumed ∧ (f.ensureWindowLowerBound w).maxData = f.maxData ∧
    f.window ≤ (f.ensureWindowLowerBound w).window ∧
    (f.ensureWindowLowerBound w).window ≤ (f.ensureWindowLowerBound w).maxWindow := by
  unfold FlowControl.ensureWindowLowerBound
  split
  · simp only [FlowControl.setWindow]; refine ⟨trivial, trivial, ?_, ?_⟩ <;> omega
  · exact ⟨rfl, rfl, Nat.le_refl _, hw⟩

/-- The flow control record of a receive buffer does not matter much. -/
theorem rinv_fc {r : RecvBuf} (h : RecvBuf.RInv r) {f : FlowControl} (h1 : f.consumed = r.flowControl.consumed)
    (h2 : r.flowControl.maxData ≤ f.maxData) : RecvBuf.RInv { r with flowControl := f } := by
  refine ⟨h.d, h.dlen, h.offlen, h.fin, h.empt, h.drn, h.err, ?_, ?_⟩
  · exact Nat.le_trans h.lim h2
  · show f.consumed ≤ r.off; rw [h1]; exact h.cons

/-- The windows change. -/
theorem Inv.window (hI : Inv c h gone) (hd0 : c.dead = false) {id : Nat} {s : Stream} (hg : c.get id = some s) {f : FlowControl}
    (hst : c'.streams = Assoc.put c.streams id { s with recv := { s.recv with flowControl := f } })
    (fr : Frame0 c c') (t : SameTx c c') (q1 : c'.flushable = c.flushable) (q2 : c'.readable = c.readable)
    (q3 : c'.writable = c.writable) (hfr : ∀ f ∈ c'.frames, f ∈ c.frames ∨ f = .maxStreamData id) (hd : c'.dead = c.dead)
    (hrx : c'.rxData = c.rxData) (hs : c'.shouldSendMaxData = c.shouldSendMaxData)
    (haf : ∀ i ∈ c'.almostFull, i ∈ c.almostFull)
    (k1 : c'.fc.consumed = c.fc.consumed) (k2 : c'.fc.maxData = c.fc.maxData) (k3 : c.fc.window ≤ c'.fc.window)
    (k4 : c'.fc.window ≤ c'.fc.maxWindow)
    (m1 : f.consumed = s.recv.flowControl.consumed) (m2 : s.recv.flowControl.maxData ≤ f.maxData)
    (m3 : f.window ≤ f.maxWindow) (m4 : Raises f) : Inv c' h gone := by
  refine hI.putRecv (id := id) (s := s) (s' := { s with recv := { s.recv with flowControl := f } }) (v := h.hi id)
    (clean' := h.clean) hg fr t hst rfl rfl rfl rfl (q1 ▸ .refl) (q2 ▸ .refl) (q3 ▸ .refl) ?_ (by rw [upd_self]) hd (fun _ => rfl) ?_
  · intro f hf
    rcases hfr f hf with h1 | h1
    · exact .inl h1
    · exact .inr ⟨id, h1⟩
  intro _
  have hR := hI.rx hd0
  have hok := hR.live id s hg
  have hhi := hR.hi id s hg
  have h1 := hR.lim
  rw [hrx, hs, k1, k2]
  have hh : held { s with recv := { s.recv with flowControl := f } } = held s := rfl
  rw [hh]
  refine ⟨⟨rinv_fc hok.inv m1 m2, m3, hok.uni⟩, rfl, Nat.le_refl _, Nat.le_refl _, hhi, Nat.le_refl _, fun hc => ⟨hc, rfl⟩, h1, k4,
    ?_, fun _ => m4, fun i hi => .inr (haf i hi), ?_⟩
  · intro hm
    refine raises_window (hR.md (hm.imp (fun x => x) ?_)) k1 k2 k3
    intro hx
    rcases hfr _ hx with h2 | h2
    · exact h2
    · simp at h2
  · intro i hi
    rcases hfr _ hi with h2 | h2
    · exact .inr h2
    · left; simpa using h2

theorem outMaxStreamData_safe (hI : Inv c h gone) (hd : c.dead = false) (id now rtt : Nat) (fits : Bool) :
    Safe c h gone (.outMaxStreamData id now rtt fits) (c.outMaxStreamData id now rtt fits) := by
  unfold outMaxStreamData
  split
  · exact safe_idle hI _
  next hm =>
  have hm : id ∈ c.almostFull := by simpa using hm
  have hR := hI.rx hd
  cases hg : c.get id with
  | none =>
    simp only
    refine .inl ⟨by simp, rfl, ?_⟩
    refine ⟨⟨hI.shape.wf, hI.shape.flushable, hI.shape.readable, hI.shape.writable⟩, hI.tx, ?_, hI.cap, hI.den, hI.lim,
      hI.advData, hI.adv, hI.grant, hI.gone, hI.peerB, hI.hiB, hI.init, hI.fac⟩
    intro _
    exact hR.frames (fun x => x) (fun i hi => hi.imp (fun x => (List.mem_filter.mp x).1) (fun x => x))
  | some s =>
    have hok := hR.live id s hg
    obtain ⟨af, haf, haf2⟩ := RecvBuf.almostFull_of hok.inv
    simp only
    rw [haf]
    simp only
    have hf : ∃ f, (if af = true then s.recv.autotuneWindow now rtt else s.recv) = { s.recv with flowControl := f } ∧
        f.consumed = s.recv.flowControl.consumed ∧ f.maxData = s.recv.flowControl.maxData ∧
        s.recv.flowControl.window ≤ f.window ∧ f.window ≤ f.maxWindow := by
      split
      · exact ⟨_, rfl, autotune_spec _ now rtt hok.win⟩
      · exact ⟨_, rfl, rfl, rfl, Nat.le_refl _, hok.win⟩
    obtain ⟨f, e, f1, f2, f3, f4⟩ := hf
    rw [e]
    have hra := raises_window ((hR.msd id (.inl hm)).1 s hg) f1 f2 f3
    split
    · refine .inl ⟨by simp, by simp, ?_⟩
      obtain ⟨k1, k2, k3, k4⟩ := ensure_spec c.fc (f.window * 3 / 2) hR.win
      refine hI.window hd hg (f := f.updateMaxData now) (by simp [Assoc.put_put, RecvBuf.updateMaxData]) ?_ ?_ rfl rfl rfl ?_ rfl rfl rfl ?_ k1 k2 k3 k4 f1 ?_ f4 ?_
      · constructor <;> simp
      · constructor <;> simp
      · intro x hx
        rcases List.mem_append.mp hx with h1 | h1
        · exact .inl h1
        · right; simpa using h1
      · exact fun i hi => (List.mem_filter.mp hi).1
      · unfold Raises at hra
        show _ ≤ f.consumed + f.window; omega
      · unfold Raises; show f.consumed + f.window ≤ _ ; exact Nat.le_refl _
    · refine .inl ⟨by simp, by simp, ?_⟩
      refine hI.window hd hg (f := f) rfl ?_ ?_ rfl rfl rfl (fun x hx => .inl hx) rfl rfl rfl (fun i hi => hi) rfl rfl (Nat.le_refl _) hR.win f1
        (by rw [f2]; exact Nat.le_refl _) f4 hra
      · constructor <;> simp
      · constructor <;> simp

theorem outMaxData_safe (hI : Inv c h gone) (hd : c.dead = false) (now rtt : Nat) (fits : Bool) :
    Safe c h gone (.outMaxData now rtt fits) (c.outMaxData now rtt fits) := by
  have hR := hI.rx hd
  have hle := hR.le
  have hlim := hR.lim
  unfold outMaxData
  have hsu : ∃ u, c.fc.shouldUpdateMaxData = some u := by
    unfold FlowControl.shouldUpdateMaxData; rw [if_neg (by omega)]; exact ⟨_, rfl⟩
  obtain ⟨u, hu⟩ := hsu
  rw [hu]
  simp only
  have hf : ∃ f sm, (if (u && decide (c.fc.maxData < c.fc.maxDataNext)) = true then
      { c with fc := c.fc.autotuneWindow now rtt, shouldSendMaxData := true } else c) =
      { c with fc := f, shouldSendMaxData := sm } ∧ f.consumed = c.fc.consumed ∧ f.maxData = c.fc.maxData ∧
      c.fc.window ≤ f.window ∧ f.window ≤ f.maxWindow ∧ (sm = true → Raises f) := by
    split
    · next hh =>
      simp only [Bool.and_eq_true, decide_eq_true_eq, FlowControl.maxDataNext] at hh
      obtain ⟨a1, a2, a3, a4⟩ := autotune_spec c.fc now rtt hR.win
      have hh2 : c.fc.maxData < c.fc.consumed + c.fc.window := of_decide_eq_true hh.2
      exact ⟨_, _, rfl, a1, a2, a3, a4, fun _ => by unfold Raises; omega⟩
    · exact ⟨c.fc, c.shouldSendMaxData, rfl, rfl, rfl, Nat.le_refl _, hR.win, fun hh => hR.md (.inl hh)⟩
  obtain ⟨f, sm, e, f1, f2, f3, f4, f5⟩ := hf
  rw [e]
  simp only
  have hmd : (sm = true ∨ .maxData ∈ c.frames) → Raises f := by
    rintro (hh | hh)
    · exact f5 hh
    · exact raises_window (hR.md (.inr hh)) f1 f2 f3
  split
  · next hh =>
    simp only [Bool.and_eq_true] at hh
    have hra := f5 hh.1
    unfold Raises at hra
    refine .inl ⟨by simp, rfl, ?_⟩
    have hB : ∀ ids : List Nat, ids.Nodup → (ids.map h.hi).sum ≤ f.consumed + f.window := fun ids hn => by
      have := hR.hs ids hn; omega
    refine ⟨⟨hI.shape.wf, hI.shape.flushable, hI.shape.readable, hI.shape.writable⟩, ?_, ?_, hI.cap, hI.den, hI.lim,
      fun _ => rfl, hI.adv, hI.grant, hI.gone, hI.peerB, hB, hI.init, hI.fac⟩
    · refine hI.tx.frames ?_ (fun i code F hF => .inl hF)
      intro x hx
      rcases List.mem_append.mp hx with h1 | h1
      · exact .inl h1
      · right; have : x = .maxData := by simpa using h1
        subst this; trivial
    · intro _
      refine ⟨hR.live, ?_, ?_, ?_, f4, ?_, ?_, hR.hi, hR.hs⟩
      · simp only [FlowControl.updateMaxData, f1]; exact hle
      · simp only [FlowControl.updateMaxData, f1]; exact hR.eq
      · simp only [FlowControl.updateMaxData, FlowControl.maxDataNext]; omega
      · intro _; unfold Raises; simp [FlowControl.updateMaxData, FlowControl.maxDataNext]
      · intro i hi
        apply hR.msd
        refine hi.imp (fun x => x) (fun x => ?_)
        rcases List.mem_append.mp x with h1 | h1
        · exact h1
        · simp at h1
  · refine .inl ⟨by simp, rfl, ?_⟩
    refine ⟨⟨hI.shape.wf, hI.shape.flushable, hI.shape.readable, hI.shape.writable⟩, hI.tx, ?_, hI.cap, hI.den, hI.lim,
      ?_, hI.adv, hI.grant, hI.gone, hI.peerB, hI.hiB, hI.init, hI.fac⟩
    · intro _
      refine ⟨hR.live, ?_, ?_, ?_, f4, hmd, hR.msd, hR.hi, hR.hs⟩
      · show f.consumed + _ ≤ _; rw [f1]; exact hle
      · show _ → f.consumed + _ = _; rw [f1]; exact hR.eq
      · show _ ≤ f.maxData; rw [f2]; exact hlim
    · intro h1; show f.maxData = h.advData; rw [f2]; exact hI.advData h1

theorem outStop_safe (hI : Inv c h gone) (id : Nat) (fits : Bool) :
    Safe c h gone (.outStop id fits) (c.outStop id fits) := by
  unfold outStop
  split
  · exact safe_idle hI _
  · split
    · refine .inl ⟨by simp, rfl, ?_⟩
      refine hI.other (by constructor <;> rfl) (by constructor <;> rfl) (by constructor <;> rfl) ?_ rfl rfl rfl rfl
      intro f hf
      rcases List.mem_append.mp hf with h1 | h1
      · exact .inl h1
      · exact .inr (.inl ⟨_, _, by simpa using h1⟩)
    · exact safe_idle hI _

theorem outReset_safe (hI : Inv c h gone) (id : Nat) (fits : Bool) :
    Safe c h gone (.outReset id fits) (c.outReset id fits) := by
  unfold outReset
  cases hr : Assoc.get c.reset id with
  | none => exact safe_idle hI _
  | some p =>
    obtain ⟨code, F⟩ := p
    simp only
    split
    · refine .inl ⟨by simp, rfl, ?_⟩
      refine ⟨⟨hI.shape.wf, hI.shape.flushable, hI.shape.readable, hI.shape.writable⟩, ?_, ?_, hI.cap, hI.den, hI.lim,
        hI.advData, hI.adv, hI.grant, hI.gone, hI.peerB, hI.hiB, hI.init, hI.fac⟩
      · refine hI.tx.frames ?_ ?_
        · intro x hx
          rcases List.mem_append.mp hx with h1 | h1
          · exact .inl h1
          · right; have : x = .reset id code F := by simpa using h1
            subst this; exact hI.tx.rs _ _ _ (Assoc.get_some_mem hr)
        · intro i code' F' hF
          exact .inl (Assoc.mem_del hF)
      · intro hd
        refine (hI.rx hd).frames ?_ ?_
        · refine fun hi => hi.imp (fun x => x) (fun x => ?_)
          rcases List.mem_append.mp x with h1 | h1
          · exact h1
          · simp at h1
        · refine fun i hi => hi.imp (fun x => x) (fun x => ?_)
          rcases List.mem_append.mp x with h1 | h1
          · exact h1
          · simp at h1
    · exact safe_idle hI _

end Conn
end Verif.Conn
