import Verif.Conn.Calm

/-!
Control frames owed to the peer: an observer's ledger, and the proof that the connection
remembers everything in it.
-/

namespace Verif.Conn
open Verif Verif.Stream

/-- Sets one entry. -/
def mark {α : Type} [DecidableEq α] (f : α → Bool) (i : α) (v : Bool) : α → Bool := fun j => if j = i then v else f j

@[simp] theorem mark_same {α : Type} [DecidableEq α] (f : α → Bool) (i : α) (v : Bool) : mark f i v i = v := by simp [mark]

theorem mark_ne {α : Type} [DecidableEq α] (f : α → Bool) {i j : α} (v : Bool) (h : j ≠ i) : mark f i v j = f j := by simp [mark, h]

/-- `stream_finished` (lib.rs:6540-6548). -/
def Conn.finished (c : Conn) (id : Nat) : Bool :=
  match c.get id with
  | none => true
  | some s => s.recv.isFin

/-- What an observer who sees all frames sent, all results, and which packets are lost,
knows the peer still has to be told. -/
structure Debt where
  /-- the frames sent -/
  log : List Frame := []
  /-- the connection's data limit -/
  data : Bool := false
  /-- the limits on streams -/
  str : Bool → Bool := fun _ => false
  /-- the data limit of a stream -/
  sd : Nat → Bool := fun _ => false
  /-- that a stream was reset -/
  rs : Nat → Bool := fun _ => false
  /-- that a stream is not read any more -/
  st : Nat → Bool := fun _ => false

namespace Debt

/-- A frame was lost: it has to be repeated (RFC 9000, 13.3). `fin` tells which streams
are received completely; for these STOP_SENDING is pointless. -/
def lose (d : Debt) (fin : Nat → Bool) : Frame → Debt
  | .stream .. => d
  | .reset id _ _ => { d with rs := mark d.rs id true }
  | .stop id _ => if fin id then d else { d with st := mark d.st id true }
  | .maxStreamData id => { d with sd := mark d.sd id true }
  | .maxData => { d with data := true }
  | .maxStreams b => { d with str := mark d.str b true }

/-- The ledger after one more operation with its result. `fin` tells which streams are
received completely afterwards. -/
def step (d : Debt) (fin : Nat → Bool) (op : Op) (ev : Ev) : Debt :=
  match op with
  | .outStream _ =>
    match ev with
    | .sentStream id off data f => { d with log := d.log ++ [.stream id off data.length f] }
    | _ => d
  | .outMaxStreams b _ =>
    match ev with
    | .sentMaxStreams _ => { d with log := d.log ++ [.maxStreams b], str := mark d.str b false }
    | _ => d
  | .outMaxStreamData id _ _ _ =>
    match ev with
    | .sentMaxStreamData _ => { d with log := d.log ++ [.maxStreamData id], sd := mark d.sd id false }
    | _ => d
  | .outMaxData _ _ _ =>
    match ev with
    | .sentMaxData _ => { d with log := d.log ++ [.maxData], data := false }
    | _ => d
  | .outStop id _ =>
    match ev with
    | .sentStop code => { d with log := d.log ++ [.stop id code], st := mark d.st id false }
    | _ => d
  | .outReset id _ =>
    match ev with
    | .sentReset code F => { d with log := d.log ++ [.reset id code F], rs := mark d.rs id false }
    | _ => d
  | .shutWrite id _ _ =>
    match ev with
    | .ok => { d with rs := mark d.rs id true }
    | _ => d
  | .shutRead id _ =>
    match ev with
    | .ok => if fin id then d else { d with st := mark d.st id true }
    | _ => d
  | .lost i =>
    match ev with
    | .ok =>
      match d.log[i]? with
      | some f => d.lose fin f
      | none => d
    | _ => d
  | _ => d

/-- The ledger after a history from a state. -/
def run (d : Debt) (c : Conn) : List Op → Debt
  | [] => d
  | op :: ops => run (d.step (c.step op).1.finished op (c.step op).2) (c.step op).1 ops

theorem step_idle (d : Debt) (fin : Nat → Bool) (op : Op) : d.step fin op .idle = d := by cases op <;> rfl
theorem step_panic (d : Debt) (fin : Nat → Bool) (op : Op) : d.step fin op .panic = d := by cases op <;> rfl

end Debt

namespace Conn
variable {c c' : Conn} {h : Hist} {gone : List Nat} {d : Debt}

/-- Whether a lost MAX_STREAMS is remembered. -/
def flag (c : Conn) (b : Bool) : Bool := if b then c.shouldSendMaxStreamsBidi else c.shouldSendMaxStreamsUni

/-- The connection remembers what is in the ledger. -/
structure Ctl (c : Conn) (d : Debt) : Prop where
  log : d.log = c.frames
  data : d.data = true → c.shouldSendMaxData = true
  str : ∀ b, d.str b = true → c.flag b = true
  sd : ∀ id, d.sd id = true → (c.look id).isSome = true ∧ (id ∈ c.almostFull ∨ c.isCollected id = true)
  rs : ∀ id, d.rs id = true → (Assoc.get c.reset id).isSome = true
  st : ∀ id, d.st id = true → (Assoc.get c.stopped id).isSome = true
  msd : ∀ id, Frame.maxStreamData id ∈ c.frames → (c.look id).isSome = true
  fsize : ∀ id code F, (Frame.reset id code F ∈ c.frames ∨ (id, (code, F)) ∈ c.reset) → ∃ s, c.look id = some s ∧ Settled s F
  ffin : ∀ id off len, Frame.stream id off len true ∈ c.frames → ∃ s, c.look id = some s ∧ Settled s (off + len)
  fdat : ∀ id off len fin, Frame.stream id off len fin ∈ c.frames → ∃ s, c.look id = some s ∧ off + len ≤ s.send.emitOff
  fstop : ∀ id code, (Frame.stop id code ∈ c.frames ∨ (id, code) ∈ c.stopped) → ∃ s, c.look id = some s ∧ s.recv.drain = true
  code : ∀ id a b, (Frame.stop id a ∈ c.frames ∨ (id, a) ∈ c.stopped) → (Frame.stop id b ∈ c.frames ∨ (id, b) ∈ c.stopped) → a = b

theorem Ctl.calm (hc : Ctl c d) (hk : Calm c c') : Ctl c' d := by
  have hctl := hk.ctl
  simp only [ctl, Prod.mk.injEq] at hctl
  obtain ⟨e1, e2, e3, e4, e5, e6⟩ := hctl
  have hl : ∀ id, (c.look id).isSome = true → (c'.look id).isSome = true := by
    intro id hx
    obtain ⟨s, hs⟩ := Option.isSome_iff_exists.1 hx
    obtain ⟨s', h1, -⟩ := hk.look id s hs
    rw [h1]; rfl
  constructor
  · rw [e6]; exact hc.log
  · rw [e3]; exact hc.data
  · intro b; simp only [flag, e4, e5]; exact hc.str b
  · intro id hd
    obtain ⟨h1, h2⟩ := hc.sd id hd
    exact ⟨hl id h1, h2.imp (hk.af id) (hk.coll id)⟩
  · rw [e1]; exact hc.rs
  · rw [e2]; exact hc.st
  · rw [e6]; exact fun id hm => hl id (hc.msd id hm)
  · rw [e6, e1]
    intro id code F hm
    obtain ⟨s, h1, h2⟩ := hc.fsize id code F hm
    obtain ⟨s', h3, h4⟩ := hk.look id s h1
    exact ⟨s', h3, h4.settled F h2⟩
  · rw [e6]
    intro id off len hm
    obtain ⟨s, h1, h2⟩ := hc.ffin id off len hm
    obtain ⟨s', h3, h4⟩ := hk.look id s h1
    exact ⟨s', h3, h4.settled _ h2⟩
  · rw [e6]
    intro id off len fin hm
    obtain ⟨s, h1, h2⟩ := hc.fdat id off len fin hm
    obtain ⟨s', h3, h4⟩ := hk.look id s h1
    exact ⟨s', h3, Nat.le_trans h2 h4.emit⟩
  · rw [e6, e2]
    intro id code hm
    obtain ⟨s, h1, h2⟩ := hc.fstop id code hm
    obtain ⟨s', h3, h4⟩ := hk.look id s h1
    exact ⟨s', h3, h4.drain h2⟩
  · rw [e6, e2]; exact hc.code

/-- Less may be in the ledger. -/
theorem Ctl.forget {d' : Debt} (hc : Ctl c d) (h1 : d'.log = d.log) (h2 : d'.data = true → d.data = true)
    (h3 : ∀ b, d'.str b = true → d.str b = true) (h4 : ∀ i, d'.sd i = true → d.sd i = true)
    (h5 : ∀ i, d'.rs i = true → d.rs i = true) (h6 : ∀ i, d'.st i = true → d.st i = true) : Ctl c d' :=
  { hc with log := h1.trans hc.log, data := fun h => hc.data (h2 h), str := fun b h => hc.str b (h3 b h)
            sd := fun i h => hc.sd i (h4 i h), rs := fun i h => hc.rs i (h5 i h), st := fun i h => hc.st i (h6 i h) }

/-- A RESET_STREAM is queued. -/
theorem Ctl.addReset (hc : Ctl c d) {id code F : Nat} {s : Stream} (hs : c.look id = some s) (hF : Settled s F) :
    Ctl { c with reset := Assoc.put c.reset id (code, F) } { d with rs := mark d.rs id true } := by
  refine { hc with rs := ?_, fsize := ?_ }
  · intro j hj
    simp only [Assoc.get_put]
    split
    · rfl
    · next e => exact hc.rs j (by simpa only [mark_ne _ _ (fun h : j = id => e h.symm)] using hj)
  · intro j cd G hm
    rcases hm with hm | hm
    · exact hc.fsize j cd G (.inl hm)
    · rcases Assoc.mem_put hm with hm | hm
      · exact hc.fsize j cd G (.inr hm)
      · simp only [Prod.mk.injEq] at hm
        obtain ⟨rfl, rfl, rfl⟩ := hm
        exact ⟨s, hs, hF⟩

/-- A STOP_SENDING is queued. -/
theorem Ctl.addStop (hc : Ctl c d) {id code : Nat} {s : Stream} (hs : c.look id = some s) (hF : s.recv.drain = true)
    (hcode : ∀ b, (Frame.stop id b ∈ c.frames ∨ (id, b) ∈ c.stopped) → b = code) :
    Ctl { c with stopped := Assoc.put c.stopped id code } { d with st := mark d.st id true } := by
  have hcode' : ∀ j b, (Frame.stop j b ∈ c.frames ∨ (j, b) ∈ Assoc.put c.stopped id code) →
      (Frame.stop j b ∈ c.frames ∨ (j, b) ∈ c.stopped) ∨ j = id ∧ b = code := by
    intro j b hm
    rcases hm with hm | hm
    · exact .inl (.inl hm)
    · rcases Assoc.mem_put hm with hm | hm
      · exact .inl (.inr hm)
      · simp only [Prod.mk.injEq] at hm; exact .inr hm
  refine { hc with st := ?_, fstop := ?_, code := ?_ }
  · intro j hj
    simp only [Assoc.get_put]
    split
    · rfl
    · next e => exact hc.st j (by simpa only [mark_ne _ _ (fun h : j = id => e h.symm)] using hj)
  · intro j cd hm
    rcases hcode' j cd hm with hm | ⟨rfl, rfl⟩
    · exact hc.fstop j cd hm
    · exact ⟨s, hs, hF⟩
  · intro j a b ha hb
    rcases hcode' j a ha with ha' | ⟨rfl, rfl⟩ <;> rcases hcode' j b hb with hb' | ⟨h1, rfl⟩
    · exact hc.code j a b ha' hb'
    · subst h1; exact hcode a ha'
    · exact (hcode b hb').symm
    · rfl

theorem mem_snoc {α : Type} {l : List α} {a b : α} (h : a ∈ l ++ [b]) : a ∈ l ∨ a = b := by simpa using h

theorem recvStop_ctl (hI : Inv c h gone) (hc : Ctl c d) (id code : Nat) : Ctl (c.recvStop id code).1 d := by
  unfold recvStop
  split
  · exact hc.calm (.close _ _)
  · split
    · exact hc
    · exact hc.calm (.close _ _)
    · next c1 s he =>
      obtain ⟨hk, hI, hg⟩ := Calm.lookup hI he
      have hc := hc.calm hk
      obtain ⟨W, hW⟩ := (hI.tx.live id s hg).inv
      simp only
      rcases SendBuf.stop_spec hW code with ⟨-, e⟩ | ⟨-, b, e, hC, -⟩
      · rw [e]; exact hc
      · rw [e]
        simp only
        have hk : Calm c1 { (c1.put id { s with send := b }) with txData := c1.txData - (s.send.off - s.send.emitOff) } :=
          Calm.put (s' := { s with send := b }) hg rfl rfl rfl rfl (.cut hC)
        split
        · exact hc.calm (hk.trans (.of_eq rfl rfl rfl rfl))
        · next c2 h2 =>
          have hk2 := hk.trans (subTxBuffered_calm h2)
          have hg2 : c2.look id = some { s with send := b } := by
            refine look_live ?_
            unfold get
            rw [subTxBuffered_streams h2]
            show Assoc.get (Assoc.put c1.streams id _) id = _
            rw [Assoc.get_put, if_pos rfl]
          have h3 := (hc.calm hk2).addReset (code := code) hg2 (F := s.send.emitOff) ⟨hC.finOff, hC.emitOff⟩
          have h4 : Ctl ({ c2 with reset := Assoc.put c2.reset id (code, s.send.emitOff) } : Conn) d := by
            refine h3.forget rfl (fun h => h) (fun _ h => h) (fun _ h => h) (fun i hi => ?_) (fun _ h => h)
            simp only [mark]; split
            · rfl
            · exact hi
          split
          · exact h4.calm (.of_eq rfl rfl rfl rfl)
          · exact h4

theorem shutWrite_ctl (hI : Inv c h gone) (hc : Ctl c d) (id code w : Nat) (fin : Nat → Bool) :
    Ctl (c.shutWrite id code w).1 (d.step fin (.shutWrite id code w) (c.shutWrite id code w).2) := by
  unfold shutWrite
  split
  · exact hc
  · cases hg : c.get id with
    | none => exact hc
    | some s =>
      obtain ⟨W, hW⟩ := (hI.tx.live id s hg).inv
      simp only
      rcases SendBuf.shutdown_spec hW with ⟨-, e⟩ | ⟨-, b, e, hC, -⟩
      · rw [e]; exact hc
      · rw [e]
        simp only
        have hk : Calm c { (c.put id { s with send := b }) with txData := c.txData - (s.send.off - s.send.emitOff) } :=
          Calm.put (s' := { s with send := b }) hg rfl rfl rfl rfl (.cut hC)
        split
        · exact hc.calm (hk.trans (.of_eq rfl rfl rfl rfl))
        · next c2 h2 =>
          have hk2 := hk.trans (subTxBuffered_calm h2)
          split
          · exact hc.calm (hk2.trans (.of_eq rfl rfl rfl rfl))
          · next c3 h3 =>
            have hk3 := hk2.trans (updateTxCap_calm h3)
            have hg3 : c3.look id = some { s with send := b } := by
              refine look_live ?_
              unfold get
              rw [updateTxCap_streams h3, subTxBuffered_streams h2]
              show Assoc.get (Assoc.put c.streams id _) id = _
              rw [Assoc.get_put, if_pos rfl]
            have h4 := (hc.calm hk3).addReset (code := code) hg3 (F := s.send.emitOff) ⟨hC.finOff, hC.emitOff⟩
            exact h4.calm (.of_eq rfl rfl rfl rfl)

theorem shutdown_fresh (r : RecvBuf) {n : Nat} (hr : r.shutdown.1 = .ok n) : r.drain = false := by
  unfold RecvBuf.shutdown at hr
  cases hd : r.drain with
  | false => rfl
  | true => rw [hd] at hr; cases hr

theorem shutRead_ctl (hc : Ctl c d) (id code : Nat) :
    Ctl (c.shutRead id code).1 (d.step (c.shutRead id code).1.finished (.shutRead id code) (c.shutRead id code).2) := by
  unfold shutRead
  split
  · exact hc
  · cases hg : c.get id with
    | none => exact hc
    | some s =>
      simp only
      have hw := RecvBuf.shutdown_drain s.recv
      have hf := @shutdown_fresh s.recv
      split
      · next r hr =>
        rw [hr] at hw; simp only at hw
        exact hc.calm (Calm.put (s' := { s with recv := r }) hg rfl rfl rfl rfl ⟨fun _ h => h, fun _ => hw, Nat.le_refl _⟩)
      · exact hc
      · next consumed r hr =>
        rw [hr] at hw hf; simp only at hw hf
        have hf := hf rfl
        obtain ⟨c1, hc1⟩ : ∃ c1 : Conn, c1 = { (c.put id { s with recv := r }) with fc := c.fc.addConsumed consumed } := ⟨_, rfl⟩
        have hk : Calm c c1 := by
          rw [hc1]
          exact Calm.put (s' := { s with recv := r }) hg rfl rfl rfl rfl ⟨fun _ h => h, fun _ => hw, Nat.le_refl _⟩
        have hg1 : c1.get id = some { s with recv := r } := by
          rw [hc1]
          show Assoc.get (Assoc.put c.streams id _) id = _
          rw [Assoc.get_put, if_pos rfl]
        have hfin : ∀ c2 : Conn, c2.streams = c1.streams → c2.finished id = r.isFin := by
          intro c2 h2
          unfold finished get
          rw [h2]
          unfold get at hg1; rw [hg1]
        cases hfi : r.isFin with
        | true =>
          have key : ∀ c2 : Conn, c2.streams = c1.streams → Ctl c2 d → Ctl c2 (d.step c2.finished (.shutRead id code) .ok) := by
            intro c2 h1 h2
            simp only [Debt.step]
            rw [if_pos ((hfin c2 h1).trans hfi)]; exact h2
          refine key _ (by rw [hc1]; rfl) ?_
          exact (hc.calm hk).calm (.of_eq (by rw [hc1]; rfl) (by rw [hc1]; rfl) (by rw [hc1]; rfl) (by rw [hc1]; rfl))
        | false =>
          have h1 := (hc.calm hk).addStop (code := code) (look_live hg1) hw (by
            intro b hb
            have hctl := hk.ctl
            simp only [ctl, Prod.mk.injEq] at hctl
            rw [hctl.2.1, hctl.2.2.2.2.2] at hb
            obtain ⟨s0, h1, h2⟩ := hc.fstop id b hb
            rw [look_live hg] at h1; cases h1
            rw [hf] at h2; cases h2)
          have key : ∀ c2 : Conn, c2.streams = c1.streams → Ctl c2 { d with st := mark d.st id true } →
              Ctl c2 (d.step c2.finished (.shutRead id code) .ok) := by
            intro c2 h1 h2
            simp only [Debt.step]
            rw [if_neg (by rw [hfin c2 h1, hfi]; simp)]; exact h2
          refine key _ (by rw [hc1]; rfl) (h1.calm ?_)
          exact .of_eq (by rw [hc1]; rfl) (by rw [hc1]; rfl) (by rw [hc1]; rfl) (by rw [hc1]; rfl)

theorem outMaxStreams_ctl (hc : Ctl c d) (b fits : Bool) (fin : Nat → Bool) :
    Ctl (c.outMaxStreams b fits).1 (d.step fin (.outMaxStreams b fits) (c.outMaxStreams b fits).2) := by
  have key : ∀ (c' : Conn), (∀ b', b' ≠ b → c'.flag b' = c.flag b') → c'.streams = c.streams → c'.collected = c.collected →
      c'.almostFull = c.almostFull → c'.reset = c.reset → c'.stopped = c.stopped → c'.shouldSendMaxData = c.shouldSendMaxData →
      c'.frames = c.frames ++ [.maxStreams b] → Ctl c' { d with log := d.log ++ [.maxStreams b], str := mark d.str b false } := by
    intro c' hf h1 h2 h3 h4 h5 h6 h7
    have hl : ∀ i, c'.look i = c.look i := by intro i; unfold look get; rw [h1, h2]
    have hcol : ∀ i, c'.isCollected i = c.isCollected i := by intro i; unfold isCollected; rw [h2]
    constructor
    · rw [h7]; show d.log ++ _ = _; rw [hc.log]
    · rw [h6]; exact hc.data
    · intro b' hb
      by_cases e : b' = b
      · subst e; simp at hb
      · rw [hf b' e]; simp only [mark_ne _ _ e] at hb; exact hc.str b' hb
    · intro id; rw [hl, h3, hcol]; exact hc.sd id
    · rw [h4]; exact hc.rs
    · rw [h5]; exact hc.st
    · intro id; rw [hl, h7]; intro hm; exact hc.msd id ((mem_snoc hm).resolve_right (by simp))
    · intro id code F; rw [hl, h7, h4]; intro hm
      exact hc.fsize id code F (hm.imp (fun hm => (mem_snoc hm).resolve_right (by simp)) fun h => h)
    · intro id off len; rw [hl, h7]; intro hm; exact hc.ffin id off len ((mem_snoc hm).resolve_right (by simp))
    · intro id off len fin; rw [hl, h7]; intro hm; exact hc.fdat id off len fin ((mem_snoc hm).resolve_right (by simp))
    · intro id code; rw [hl, h7, h5]; intro hm
      exact hc.fstop id code (hm.imp (fun hm => (mem_snoc hm).resolve_right (by simp)) fun h => h)
    · intro id a b; rw [h7, h5]; intro ha hb
      exact hc.code id a b (ha.imp (fun hm => (mem_snoc hm).resolve_right (by simp)) fun h => h)
        (hb.imp (fun hm => (mem_snoc hm).resolve_right (by simp)) fun h => h)
  cases b
  · rcases outMaxStreams_false c fits with e | e <;> rw [e]
    · exact hc
    · exact key _ (by intro b' hb; cases b' <;> simp [flag] at hb ⊢) rfl rfl rfl rfl rfl rfl rfl
  · rcases outMaxStreams_true c fits with e | e <;> rw [e]
    · exact hc
    · exact key _ (by intro b' hb; cases b' <;> simp [flag] at hb ⊢) rfl rfl rfl rfl rfl rfl rfl

theorem outMaxData_ctl (hc : Ctl c d) (now rtt : Nat) (fits : Bool) (fin : Nat → Bool) :
    Ctl (c.outMaxData now rtt fits).1 (d.step fin (.outMaxData now rtt fits) (c.outMaxData now rtt fits).2) := by
  unfold outMaxData
  split
  · exact hc.calm (.of_eq rfl rfl rfl rfl)
  · next u _ =>
    simp only
    generalize hc1 : (if (u && decide (c.fc.maxData < c.fc.maxDataNext)) = true then _ else c : Conn) = c1
    have h1 : Ctl c1 d := by
      rw [← hc1]; split
      · exact { hc with data := fun _ => rfl }
      · exact hc
    split
    · refine { h1 with log := ?_, data := ?_, msd := ?_, fsize := ?_, ffin := ?_, fdat := ?_, fstop := ?_, code := ?_ }
      · show d.log ++ _ = _; rw [h1.log]
      · intro h; cases h
      · exact fun id hm => h1.msd id ((mem_snoc hm).resolve_right (by simp))
      · exact fun id code F hm => h1.fsize id code F (hm.imp (fun hm => (mem_snoc hm).resolve_right (by simp)) fun h => h)
      · exact fun id off len hm => h1.ffin id off len ((mem_snoc hm).resolve_right (by simp))
      · exact fun id off len fin hm => h1.fdat id off len fin ((mem_snoc hm).resolve_right (by simp))
      · exact fun id code hm => h1.fstop id code (hm.imp (fun hm => (mem_snoc hm).resolve_right (by simp)) fun h => h)
      · exact fun id a b ha hb => h1.code id a b (ha.imp (fun hm => (mem_snoc hm).resolve_right (by simp)) fun h => h)
          (hb.imp (fun hm => (mem_snoc hm).resolve_right (by simp)) fun h => h)
    · exact h1

theorem outStop_ctl (hc : Ctl c d) (id : Nat) (fits : Bool) (fin : Nat → Bool) :
    Ctl (c.outStop id fits).1 (d.step fin (.outStop id fits) (c.outStop id fits).2) := by
  unfold outStop
  cases hg : Assoc.get c.stopped id with
  | none => exact hc
  | some code =>
    simp only
    have hin : (id, code) ∈ c.stopped := Assoc.get_some_mem hg
    split
    · have hm' : ∀ j b, (Frame.stop j b ∈ c.frames ++ [Frame.stop id code] ∨ (j, b) ∈ Assoc.del c.stopped id) →
          (Frame.stop j b ∈ c.frames ∨ (j, b) ∈ c.stopped) := by
        intro j b hm
        rcases hm with hm | hm
        · rcases mem_snoc hm with hm | hm
          · exact .inl hm
          · cases hm; exact .inr hin
        · exact .inr (Assoc.mem_del hm)
      refine { hc with log := ?_, st := ?_, msd := ?_, fsize := ?_, ffin := ?_, fdat := ?_, fstop := ?_, code := ?_ }
      · show d.log ++ _ = _; rw [hc.log]
      · intro j hj
        by_cases e : j = id
        · subst e; simp [Debt.step] at hj
        · simp only [Debt.step, mark_ne _ _ e] at hj
          show (Assoc.get (Assoc.del c.stopped id) j).isSome = true
          rw [Assoc.get_del_ne _ e]; exact hc.st j hj
      · exact fun id hm => hc.msd id ((mem_snoc hm).resolve_right (by simp))
      · exact fun id code F hm => hc.fsize id code F (hm.imp (fun hm => (mem_snoc hm).resolve_right (by simp)) fun h => h)
      · exact fun id off len hm => hc.ffin id off len ((mem_snoc hm).resolve_right (by simp))
      · exact fun id off len fin hm => hc.fdat id off len fin ((mem_snoc hm).resolve_right (by simp))
      · exact fun j b hm => hc.fstop j b (hm' j b hm)
      · exact fun j a b ha hb => hc.code j a b (hm' j a ha) (hm' j b hb)
    · exact hc

theorem outReset_ctl (hc : Ctl c d) (id : Nat) (fits : Bool) (fin : Nat → Bool) :
    Ctl (c.outReset id fits).1 (d.step fin (.outReset id fits) (c.outReset id fits).2) := by
  unfold outReset
  cases hg : Assoc.get c.reset id with
  | none => exact hc
  | some p =>
    obtain ⟨code, F⟩ := p
    simp only
    have hin : (id, (code, F)) ∈ c.reset := Assoc.get_some_mem hg
    split
    · refine { hc with log := ?_, rs := ?_, msd := ?_, fsize := ?_, ffin := ?_, fdat := ?_, fstop := ?_, code := ?_ }
      · show d.log ++ _ = _; rw [hc.log]
      · intro j hj
        by_cases e : j = id
        · subst e; simp [Debt.step] at hj
        · simp only [Debt.step, mark_ne _ _ e] at hj
          show (Assoc.get (Assoc.del c.reset id) j).isSome = true
          rw [Assoc.get_del_ne _ e]; exact hc.rs j hj
      · exact fun id hm => hc.msd id ((mem_snoc hm).resolve_right (by simp))
      · intro j cd G hm
        rcases hm with hm | hm
        · rcases mem_snoc hm with hm | hm
          · exact hc.fsize j cd G (.inl hm)
          · cases hm; exact hc.fsize _ _ _ (.inr hin)
        · exact hc.fsize j cd G (.inr (Assoc.mem_del hm))
      · exact fun id off len hm => hc.ffin id off len ((mem_snoc hm).resolve_right (by simp))
      · exact fun id off len fin hm => hc.fdat id off len fin ((mem_snoc hm).resolve_right (by simp))
      · exact fun id code hm => hc.fstop id code (hm.imp (fun hm => (mem_snoc hm).resolve_right (by simp)) fun h => h)
      · exact fun id a b ha hb => hc.code id a b (ha.imp (fun hm => (mem_snoc hm).resolve_right (by simp)) fun h => h)
          (hb.imp (fun hm => (mem_snoc hm).resolve_right (by simp)) fun h => h)
    · exact hc

theorem look_collected {id : Nat} (h1 : (c.look id).isSome = true) (h2 : c.get id = none) : c.isCollected id = true := by
  unfold look at h1; rw [h2] at h1; exact h1

theorem outMaxStreamData_ctl (hc : Ctl c d) (id now rtt : Nat) (fits : Bool) (fin : Nat → Bool) :
    Ctl (c.outMaxStreamData id now rtt fits).1
      (d.step fin (.outMaxStreamData id now rtt fits) (c.outMaxStreamData id now rtt fits).2) := by
  unfold outMaxStreamData
  split
  · exact hc
  · cases hg : c.get id with
    | none =>
      refine { hc with sd := ?_ }
      intro j hj
      obtain ⟨h1, h2⟩ := hc.sd j hj
      refine ⟨h1, ?_⟩
      by_cases e : j = id
      · subst e; exact .inr (look_collected h1 hg)
      · exact h2.imp (fun hm => List.mem_filter.2 ⟨hm, by simpa using e⟩) fun h => h
    | some s =>
      simp only
      split
      · exact hc.calm (.of_eq rfl rfl rfl rfl)
      · next af _ =>
        have hr : (if af = true then s.recv.autotuneWindow now rtt else s.recv).drain = s.recv.drain := by split <;> rfl
        generalize (if af = true then s.recv.autotuneWindow now rtt else s.recv) = r at hr
        split
        · have hk : Calm c ((c.put id { s with recv := r }).put id { s with recv := r.updateMaxData now }) :=
            Calm.put (s' := { s with recv := r.updateMaxData now }) hg (Assoc.put_put _ _ _ _) rfl rfl rfl (.recv hr)
          have h1 := hc.calm hk
          have hl : (((c.put id { s with recv := r }).put id { s with recv := r.updateMaxData now }).look id).isSome = true := by
            rw [look_live (s := { s with recv := r.updateMaxData now })
              (by unfold get; rw [put_streams, Assoc.get_put, if_pos rfl])]; rfl
          generalize (c.put id { s with recv := r }).put id { s with recv := r.updateMaxData now } = c1 at h1 hl
          refine { h1 with log := ?_, sd := ?_, msd := ?_, fsize := ?_, ffin := ?_, fdat := ?_, fstop := ?_, code := ?_ }
          · show d.log ++ _ = _; rw [h1.log]
          · intro j hj
            by_cases e : j = id
            · subst e; simp [Debt.step] at hj
            · simp only [Debt.step, mark_ne _ _ e] at hj
              obtain ⟨h2, h3⟩ := h1.sd j hj
              exact ⟨h2, h3.imp (fun hm => List.mem_filter.2 ⟨hm, by simpa using e⟩) fun h => h⟩
          · intro j hm
            rcases mem_snoc hm with hm | hm
            · exact h1.msd j hm
            · cases hm; exact hl
          · exact fun id code F hm => h1.fsize id code F (hm.imp (fun hm => (mem_snoc hm).resolve_right (by simp)) fun h => h)
          · exact fun id off len hm => h1.ffin id off len ((mem_snoc hm).resolve_right (by simp))
          · exact fun id off len fin hm => h1.fdat id off len fin ((mem_snoc hm).resolve_right (by simp))
          · exact fun id code hm => h1.fstop id code (hm.imp (fun hm => (mem_snoc hm).resolve_right (by simp)) fun h => h)
          · exact fun id a b ha hb => h1.code id a b (ha.imp (fun hm => (mem_snoc hm).resolve_right (by simp)) fun h => h)
              (hb.imp (fun hm => (mem_snoc hm).resolve_right (by simp)) fun h => h)
        · exact hc.calm (Calm.put (s' := { s with recv := r }) hg rfl rfl rfl rfl (.recv hr))

/-- A STREAM frame is sent. -/
theorem Ctl.addStream (hc : Ctl c d) {id off len : Nat} {fin : Bool} {s : Stream} (hs : c.look id = some s)
    (h1 : off + len ≤ s.send.emitOff) (h2 : fin = true → Settled s (off + len)) (h3 : c'.streams = c.streams)
    (h4 : c'.collected = c.collected) (h5 : c'.almostFull = c.almostFull)
    (h6 : c'.ctl = ({ c with frames := c.frames ++ [Frame.stream id off len fin] } : Conn).ctl) :
    Ctl c' { d with log := d.log ++ [Frame.stream id off len fin] } := by
  have hl : ∀ i, c'.look i = c.look i := by intro i; unfold look get; rw [h3, h4]
  have hcol : ∀ i, c'.isCollected i = c.isCollected i := by intro i; unfold isCollected; rw [h4]
  simp only [ctl, Prod.mk.injEq] at h6
  obtain ⟨e1, e2, e3, e4, e5, e6⟩ := h6
  constructor
  · rw [e6]; show d.log ++ _ = _; rw [hc.log]
  · rw [e3]; exact hc.data
  · intro b; simp only [flag, e4, e5]; exact hc.str b
  · intro j; rw [hl, hcol, h5]; exact hc.sd j
  · rw [e1]; exact hc.rs
  · rw [e2]; exact hc.st
  · intro j; rw [hl, e6]; exact fun hm => hc.msd j ((mem_snoc hm).resolve_right (by simp))
  · intro j code F; rw [hl, e6, e1]
    exact fun hm => hc.fsize j code F (hm.imp (fun hm => (mem_snoc hm).resolve_right (by simp)) fun h => h)
  · intro j o n; rw [hl, e6]; intro hm
    rcases mem_snoc hm with hm | hm
    · exact hc.ffin j o n hm
    · cases hm; exact ⟨s, hs, h2 rfl⟩
  · intro j o n f; rw [hl, e6]; intro hm
    rcases mem_snoc hm with hm | hm
    · exact hc.fdat j o n f hm
    · cases hm; exact ⟨s, hs, h1⟩
  · intro j code; rw [hl, e6, e2]
    exact fun hm => hc.fstop j code (hm.imp (fun hm => (mem_snoc hm).resolve_right (by simp)) fun h => h)
  · intro j a b; rw [e6, e2]
    exact fun ha hb => hc.code j a b (ha.imp (fun hm => (mem_snoc hm).resolve_right (by simp)) fun h => h)
      (hb.imp (fun hm => (mem_snoc hm).resolve_right (by simp)) fun h => h)

theorem outStreamLoop_ctl (left fuel op : Nat) (fin : Nat → Bool) : ∀ {c : Conn}, Inv c h gone → Ctl c d →
    (outStreamLoop left fuel c).1.crashed = true ∨ Ctl (outStreamLoop left fuel c).1 (d.step fin (.outStream op) (outStreamLoop left fuel c).2) := by
  induction fuel with
  | zero => intro c _ hc; exact .inr hc
  | succ fuel ih =>
    intro c hI hc
    have hrm : ∀ i, Ctl (c.removeFlushable i) d := fun i => hc.calm (.of_eq rfl rfl rfl rfl)
    unfold outStreamLoop
    split
    · exact .inr hc
    · next k t hq =>
      cases hg : c.get k.id with
      | none => exact ih (hI.removeFlushable k.id) (hrm _)
      | some s =>
        simp only
        split
        · exact ih (hI.removeFlushable k.id) (hrm _)
        split
        · exact ih (hI.removeFlushable k.id) (hrm _)
        obtain ⟨W, hW⟩ := (hI.tx.live _ s hg).inv
        obtain ⟨b, out, f, e, ht⟩ := SendBuf.emit_spec hW (left - (1 + varintLen k.id + varintLen s.send.offFront + 2))
        rw [e]
        simp only
        have hbe : b.emitOff = Nat.max s.send.emitOff (s.send.offFront + out.length) := by rw [ht.fields]
        have hbf : b.finOff = s.send.finOff := by rw [ht.fields]
        have hk : Calm c (c.put k.id { s with send := b }) :=
          Calm.put (s' := { s with send := b }) hg rfl rfl rfl rfl (.sent hW ht)
        have h1 := hc.calm hk
        have hl : (c.put k.id { s with send := b }).look k.id = some { s with send := b } :=
          look_live (by unfold get; rw [put_streams, Assoc.get_put, if_pos rfl])
        have hfin : f = true → Settled { s with send := b } (s.send.offFront + out.length) := by
          intro hf
          have := ht.finFlag
          rw [hf] at this
          have hF : s.send.finOff = some (s.send.offFront + out.length) := by simpa using this.symm
          refine ⟨hbf.trans hF, ?_⟩
          have h2 := hW.fin _ hF
          have h3 := hW.emit
          show b.emitOff = _
          rw [hbe]
          exact Nat.max_eq_right (by omega)
        have hle : s.send.offFront + out.length ≤ ({ s with send := b } : Stream).send.emitOff := by
          show _ ≤ b.emitOff
          rw [hbe]; exact Nat.le_max_right _ _
        generalize hc1 : (if (!({ s with send := b } : Stream).isFlushable) = true then _ else _ : Conn) = c1
        have h2 : Ctl c1 { d with log := d.log ++ [Frame.stream k.id s.send.offFront out.length f] } := by
          refine h1.addStream hl hle hfin ?_ ?_ ?_ ?_
          · rw [← hc1]; simp [streams_ite]
          all_goals
            rw [← hc1]
            try simp only [ctl]
            repeat' split
          all_goals rfl
        generalize hfr : Frame.stream k.id s.send.offFront out.length f = fr at h2
        cases hsub : c1.subTxBuffered out.length with
        | none =>
          exact .inl rfl
        | some c2 =>
          simp only [Debt.step]
          rw [hfr]
          exact .inr (h2.calm (subTxBuffered_calm hsub))

theorem lost_ctl (hI : Inv c h gone) (hc : Ctl c d) (i : Nat) :
    Ctl (c.lost i).1 (d.step (c.lost i).1.finished (.lost i) (c.lost i).2) := by
  have hlog : d.log[i]? = c.frames[i]? := by rw [hc.log]
  cases hf : c.frames[i]? with
  | none =>
    have e : c.lost i = (c, .ok) := by unfold lost; rw [hf]
    rw [e]; simp only [Debt.step, hlog, hf]; exact hc
  | some f =>
    have hmem : f ∈ c.frames := List.mem_of_getElem? hf
    cases f with
    | stream id off len fin =>
      have h1 := hc.calm (lost_stream_calm hI hf)
      have h2 : d.step (c.lost i).1.finished (.lost i) (c.lost i).2 = d := by
        simp only [Debt.step]
        split
        · rw [hlog, hf]; rfl
        · rfl
      rw [h2]; exact h1
    | reset id code F =>
      have e : c.lost i = ({ c with reset := Assoc.put c.reset id (code, F) }, .ok) := by unfold lost; rw [hf]
      rw [e]; simp only [Debt.step, hlog, hf, Debt.lose]
      obtain ⟨s, h1, h2⟩ := hc.fsize id code F (.inl hmem)
      exact hc.addReset h1 h2
    | stop id code =>
      cases hg : c.get id with
      | none =>
        have e : c.lost i = (c, .ok) := by unfold lost; rw [hf]; simp only [hg]
        rw [e]; simp only [Debt.step, hlog, hf, Debt.lose]
        rw [if_pos (by unfold finished; rw [hg])]
        exact hc
      | some s =>
        cases hfi : s.recv.isFin with
        | true =>
          have e : c.lost i = (c, .ok) := by unfold lost; rw [hf]; simp only [hg, hfi]; rfl
          rw [e]; simp only [Debt.step, hlog, hf, Debt.lose]
          rw [if_pos (by unfold finished; rw [hg]; exact hfi)]
          exact hc
        | false =>
          have e : c.lost i = ({ c with stopped := Assoc.put c.stopped id code }, .ok) := by
            unfold lost; rw [hf]; simp only [hg, hfi]; rfl
          rw [e]; simp only [Debt.step, hlog, hf, Debt.lose]
          have h2 : ({ c with stopped := Assoc.put c.stopped id code } : Conn).finished id = false := by
            show c.finished id = false
            unfold finished; rw [hg]; exact hfi
          rw [if_neg (by rw [h2]; simp)]
          obtain ⟨s', h3, h4⟩ := hc.fstop id code (.inl hmem)
          exact hc.addStop h3 h4 fun b hb => hc.code id b code hb (.inl hmem)
    | maxStreamData id =>
      have hl := hc.msd id hmem
      cases hg : c.get id with
      | none =>
        have e : c.lost i = (c, .ok) := by unfold lost; rw [hf]; simp only [hg]; rfl
        rw [e]; simp only [Debt.step, hlog, hf, Debt.lose]
        refine { hc with sd := fun j hj => ?_ }
        by_cases ej : j = id
        · subst ej; exact ⟨hl, .inr (look_collected hl hg)⟩
        · simp only [mark_ne _ _ ej] at hj; exact hc.sd j hj
      | some s =>
        have e : c.lost i = (c.insertAlmostFull id, .ok) := by unfold lost; rw [hf]; simp only [hg]; rfl
        rw [e]; simp only [Debt.step, hlog, hf, Debt.lose]
        refine { hc.calm (.insertAlmostFull c id) with sd := fun j hj => ?_ }
        by_cases ej : j = id
        · subst ej
          refine ⟨hl, .inl ?_⟩
          unfold insertAlmostFull
          simp only
          split
          · next h => simpa using h
          · exact List.mem_cons_self
        · simp only [mark_ne _ _ ej] at hj
          exact (hc.calm (.insertAlmostFull c id)).sd j hj
    | maxData =>
      have e : c.lost i = ({ c with shouldSendMaxData := true }, .ok) := by unfold lost; rw [hf]
      rw [e]; simp only [Debt.step, hlog, hf, Debt.lose]
      exact { hc with data := fun _ => rfl }
    | maxStreams b =>
      cases b with
      | true =>
        have e : c.lost i = ({ c with shouldSendMaxStreamsBidi := true }, .ok) := by unfold lost; rw [hf]
        rw [e]; simp only [Debt.step, hlog, hf, Debt.lose]
        refine { hc with str := fun b hb => ?_ }
        cases b with
        | true => rfl
        | false => exact hc.str false hb
      | false =>
        have e : c.lost i = ({ c with shouldSendMaxStreamsUni := true }, .ok) := by unfold lost; rw [hf]
        rw [e]; simp only [Debt.step, hlog, hf, Debt.lose]
        refine { hc with str := fun b hb => ?_ }
        cases b with
        | true => exact hc.str true hb
        | false => rfl

theorem step_ctl (hI : Inv c h gone) (hc : Ctl c d) (op : Op) :
    (c.step op).1.crashed = true ∨ Ctl (c.step op).1 (d.step (c.step op).1.finished op (c.step op).2) := by
  unfold step
  split
  · right; rw [Debt.step_idle]; exact hc
  cases op with
  | recvStream id off data fin => exact .inr (hc.calm (recvStream_calm hI id off data fin))
  | recvReset id code F => exact .inr (hc.calm (recvReset_calm hI id code F))
  | recvStop id code => exact .inr (recvStop_ctl hI hc id code)
  | recvMaxData m => exact .inr (hc.calm (.of_eq rfl rfl rfl rfl))
  | recvMaxStreamData id m => exact .inr (hc.calm (recvMaxStreamData_calm hI id m))
  | recvMaxStreams b m => exact .inr (hc.calm (recvMaxStreams_calm b m))
  | peerParams p e b u w => exact .inr (hc.calm (peerParams_calm p e b u w))
  | recvDone w =>
    simp only
    split
    · exact .inl rfl
    · next h => exact .inr (hc.calm (updateTxCap_calm h))
  | send id data fin => exact .inr (hc.calm (sendData_calm hI id data fin))
  | recv id cap => exact .inr (hc.calm (recvData_calm hI id cap))
  | shutRead id code => exact .inr (shutRead_ctl hc id code)
  | shutWrite id code w => exact .inr (shutWrite_ctl hI hc id code w _)
  | capacity id => exact .inr (hc.calm (capacity_calm hI id))
  | isWritable id len => exact .inr (hc.calm (isWritable_calm hI id len))
  | writableNext => exact .inr (hc.calm writableNext_calm)
  | readableNext => exact .inr (hc.calm readableNext_calm)
  | priority id u inc => exact .inr (hc.calm (priority_calm hI id u inc))
  | outStream left =>
    simp only
    unfold outStream
    split
    · exact outStreamLoop_ctl left _ left _ hI hc
    · exact .inr hc
  | outMaxStreams b fits => exact .inr (outMaxStreams_ctl hc b fits _)
  | outMaxStreamData id now rtt fits => exact .inr (outMaxStreamData_ctl hc id now rtt fits _)
  | outMaxData now rtt fits => exact .inr (outMaxData_ctl hc now rtt fits _)
  | outStop id fits => exact .inr (outStop_ctl hc id fits _)
  | outReset id fits => exact .inr (outReset_ctl hc id fits _)
  | acked i => exact .inr (hc.calm (acked_calm hI i))
  | lost i => exact .inr (lost_ctl hI hc i)

end Conn

theorem Debt.run_crashed {c : Conn} (d : Debt) (hcr : c.crashed = true) : ∀ ops, d.run c ops = d
  | [] => rfl
  | op :: ops => by
    have e : c.step op = (c, .idle) := by unfold Conn.step; rw [hcr]; rfl
    simp only [Debt.run, e, Debt.step_idle]
    exact Debt.run_crashed d hcr ops

namespace Conn
variable {c c' : Conn} {h : Hist} {gone : List Nat} {d : Debt}

/-- The ledger is what some connection in order remembers; and if the code has not
panicked, that connection is the present one. -/
theorem run_ctl {ops : List Op} (hI : Inv c h gone) (hcr0 : c.crashed = false) (hc : Ctl c d) (hok : ∀ op ∈ ops, op.Ok) :
    ∃ c', Ctl c' (d.run c ops) ∧ ((c.run ops).1.crashed = true ∨ c' = (c.run ops).1) := by
  induction ops generalizing c h d with
  | nil => exact ⟨c, hc, .inr rfl⟩
  | cons op ops ih =>
    rcases step_safe hI (hok op List.mem_cons_self) with ⟨-, hncr, hI1⟩ | ⟨hp, hcr, -⟩
    · rcases step_ctl hI hc op with hcr | hc1
      · rw [hncr, hcr0] at hcr; cases hcr
      · exact ih hI1 (hncr.trans hcr0) hc1 fun o ho => hok o (List.mem_cons_of_mem _ ho)
    · refine ⟨c, ?_, .inl ?_⟩
      · simp only [Debt.run]
        rw [Debt.run_crashed _ hcr, hp, Debt.step_panic]; exact hc
      · simp only [run]
        rw [(run_crashed hcr ops).1]; exact hcr

/-- The ledger after a history of a new connection. -/
def owed (g : Config) (ops : List Op) : Debt := ({} : Debt).run (start g) ops

theorem start_ctl (g : Config) : Ctl (start g) {} := by
  constructor
  all_goals simp [start, look, get, Assoc.get]

theorem owed_ctl (g : Config) (hd : 0 < g.factorDen) {ops : List Op} (hok : ∀ op ∈ ops, op.Ok) :
    ∃ c', Ctl c' (owed g ops) ∧ ((after g ops).crashed = true ∨ c' = after g ops) :=
  run_ctl (Inv.start g hd) rfl (start_ctl g) hok

end Conn
end Verif.Conn

namespace Verif.Conn.Conn

/-- `write_pkt_type`, the reasons to build an application packet that concern streams
(lib.rs:8218-8240). `none` is the underflow in `should_update_max_data`. -/
def wants (c : Conn) : Option Bool :=
  match c.fc.shouldUpdateMaxData with
  | none => none
  | some u => some (u || c.shouldSendMaxData || c.blockedLimit.isSome ||
      c.shouldSendMaxStreamsBidi || shouldUpdateMaxStreams c.bidi ||
      c.shouldSendMaxStreamsUni || shouldUpdateMaxStreams c.uni ||
      !c.flushable.isEmpty || !c.almostFull.isEmpty || !c.blocked.isEmpty ||
      !c.reset.isEmpty || !c.stopped.isEmpty)

end Verif.Conn.Conn
