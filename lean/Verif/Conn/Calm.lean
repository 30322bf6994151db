import Verif.Conn.StreamLim

/-!
How the operations of a connection change what is waiting to be sent in control frames,
and what they never undo about the streams.
-/

namespace Verif.Stream.RecvBuf

theorem tmpLoop_drain : ∀ (fuel : Nat) (r : RecvBuf) (l : List RangeBuf) {r' : RecvBuf}, tmpLoop fuel r l = some r' → r'.drain = r.drain
  | _, r, [], r', h => by simp only [tmpLoop, Option.some.injEq] at h; rw [h]
  | 0, r, _ :: _, r', h => by simp [tmpLoop] at h
  | fuel + 1, r, b :: l, r', h => by
    unfold tmpLoop at h
    split at h
    · cases h
    · simp only at h
      split at h
      · cases h
      · exact tmpLoop_drain fuel _ _ h
      · split at h
        · exact (tmpLoop_drain fuel _ _ h).trans rfl
        · exact (tmpLoop_drain fuel _ _ h).trans rfl

theorem write_drain (r : RecvBuf) (b : RangeBuf) : (r.write b).2.drain = r.drain := by
  unfold write
  generalize hr : (if b.fin = true then { r with finOff := some b.maxOff } else r : RecvBuf) = r1
  have h1 : r1.drain = r.drain := by rw [← hr]; split <;> rfl
  simp only
  repeat' split
  all_goals first
    | rfl
    | exact h1
    | (next h => exact (tmpLoop_drain _ _ _ h).trans h1)

theorem emit_drain (r : RecvBuf) (n : Nat) : (r.emit n).2.drain = r.drain := by
  unfold emit; repeat' split
  all_goals rfl

theorem reset_drain (r : RecvBuf) (code F : Nat) : (r.reset code F).2.drain = r.drain := by
  unfold reset
  repeat' split
  all_goals first
    | rfl
    | skip
  all_goals
    simp only
    have hw := write_drain ({ r with error := some code, off := F, data := [] } : RecvBuf) (.mk' [] F true)
    split <;> (next h => rw [h] at hw; exact hw)

theorem shutdown_drain (r : RecvBuf) : r.shutdown.2.drain = true := by
  unfold shutdown
  split
  · next h => exact h
  · split <;> rfl

end Verif.Stream.RecvBuf

namespace Verif.Conn
open Verif Verif.Stream

/-- The final size of the sending side is settled: nothing more is, or can be, sent
than has been. -/
def Settled (s : Stream) (F : Nat) : Prop := s.send.finOff = some F ∧ s.send.emitOff = F

/-- What no operation undoes. -/
structure Kept (s s' : Stream) : Prop where
  settled : ∀ F, Settled s F → Settled s' F
  drain : s.recv.drain = true → s'.recv.drain = true
  emit : s.send.emitOff ≤ s'.send.emitOff

theorem Kept.rfl' {s : Stream} : Kept s s := ⟨fun _ h => h, fun h => h, Nat.le_refl _⟩

theorem Kept.trans {s s' s'' : Stream} (h1 : Kept s s') (h2 : Kept s' s'') : Kept s s'' :=
  ⟨fun F h => h2.settled F (h1.settled F h), fun h => h2.drain (h1.drain h), Nat.le_trans h1.emit h2.emit⟩

theorem Kept.recv {s : Stream} {r : RecvBuf} (h : r.drain = s.recv.drain) : Kept s { s with recv := r } :=
  ⟨fun _ h => h, fun h' => h.trans h', Nat.le_refl _⟩

theorem Kept.cut {s : Stream} {W : Bytes} {b : SendBuf} (h : SendBuf.Cut s.send W b) : Kept s { s with send := b } :=
  ⟨fun F hF => ⟨by rw [← hF.2]; exact h.finOff, h.emitOff.trans hF.2⟩, fun h => h, Nat.le_of_eq h.emitOff.symm⟩

theorem Kept.took {s : Stream} {W d : Bytes} {len n : Nat} {fin : Bool} {b : SendBuf} (hW : SendBuf.SInv s.send W)
    (h : SendBuf.Took s.send W d len fin b n) : Kept s { s with send := b } := by
  have e : b.emitOff = s.send.emitOff := by rw [h.fields]
  refine ⟨fun F hF => ?_, fun h => h, Nat.le_of_eq e.symm⟩
  have h1 := hW.fin F hF.1
  have h2 := h.dead (.inr (.inr (by rw [hF.1]; simp)))
  refine ⟨?_, e.trans hF.2⟩
  show b.finOff = some F
  rw [h.finOff]
  split
  · rw [h1, h2.1]; rfl
  · exact hF.1

theorem Kept.sent {s : Stream} {W out : Bytes} {n : Nat} {fin : Bool} {b : SendBuf} (hW : SendBuf.SInv s.send W)
    (h : SendBuf.Sent s.send W n b out fin) : Kept s { s with send := b } := by
  have e : b.emitOff = Nat.max s.send.emitOff (s.send.offFront + out.length) := by rw [h.fields]
  refine ⟨fun F hF => ?_, fun h => h, e ▸ Nat.le_max_left _ _⟩
  have h1 := hW.fin F hF.1
  have h2 := h.bound
  have h3 := hF.2
  have e2 : b.finOff = s.send.finOff := by rw [h.fields]
  refine ⟨e2.trans hF.1, ?_⟩
  show b.emitOff = F
  rw [e]; exact (Nat.max_eq_left (by omega)).trans h3

theorem Kept.same {s s' : Stream} (h1 : s'.send.finOff = s.send.finOff) (h2 : s'.send.emitOff = s.send.emitOff)
    (h3 : s'.recv.drain = s.recv.drain) : Kept s s' :=
  ⟨fun F h => ⟨h1.trans h.1, h2.trans h.2⟩, fun h => h3.trans h, Nat.le_of_eq h2.symm⟩

namespace Conn
variable {c c' c'' : Conn} {h : Hist} {gone : List Nat}

/-- A stream, whether live or collected. -/
def look (c : Conn) (id : Nat) : Option Stream :=
  match c.get id with
  | some s => some s
  | none => Assoc.get c.collected id

theorem look_live {id : Nat} {s : Stream} (h : c.get id = some s) : c.look id = some s := by
  unfold look; rw [h]

/-- What is waiting to be sent in control frames, and what has been sent. -/
def ctl (c : Conn) : List (Nat × (Nat × Nat)) × List (Nat × Nat) × Bool × Bool × Bool × List Frame :=
  (c.reset, c.stopped, c.shouldSendMaxData, c.shouldSendMaxStreamsBidi, c.shouldSendMaxStreamsUni, c.frames)

/-- A change that leaves the control frames to be sent alone. -/
structure Calm (c c' : Conn) : Prop where
  look : ∀ id s, c.look id = some s → ∃ s', c'.look id = some s' ∧ Kept s s'
  coll : ∀ id, c.isCollected id = true → c'.isCollected id = true
  af : ∀ id ∈ c.almostFull, id ∈ c'.almostFull
  ctl : c'.ctl = c.ctl

theorem Calm.rfl' : Calm c c := ⟨fun _ s h => ⟨s, h, .rfl'⟩, fun _ h => h, fun _ h => h, rfl⟩

theorem Calm.trans (h1 : Calm c c') (h2 : Calm c' c'') : Calm c c'' := by
  refine ⟨fun id s h => ?_, fun id h => h2.coll id (h1.coll id h), fun id h => h2.af id (h1.af id h), h2.ctl.trans h1.ctl⟩
  obtain ⟨s1, e1, k1⟩ := h1.look id s h
  obtain ⟨s2, e2, k2⟩ := h2.look id s1 e1
  exact ⟨s2, e2, k1.trans k2⟩

theorem Calm.of_eq (h1 : c'.streams = c.streams) (h2 : c'.collected = c.collected) (h3 : c'.almostFull = c.almostFull)
    (h4 : c'.ctl = c.ctl) : Calm c c' := by
  refine ⟨fun id s h => ⟨s, ?_, .rfl'⟩, fun id h => ?_, fun id h => h3 ▸ h, h4⟩
  · rw [← h]; unfold Conn.look get; rw [h1, h2]
  · rw [← h]; unfold isCollected; rw [h2]

theorem Calm.put {id : Nat} {s s' : Stream} (hg : c.get id = some s) (h1 : c'.streams = Assoc.put c.streams id s')
    (h2 : c'.collected = c.collected) (h3 : c'.almostFull = c.almostFull) (h4 : c'.ctl = c.ctl) (hk : Kept s s') : Calm c c' := by
  refine ⟨fun j t h => ?_, fun id h => ?_, fun id h => h3 ▸ h, h4⟩
  · unfold Conn.look get
    simp only [h1, h2, Assoc.get_put]
    by_cases e : id = j
    · subst e
      rw [look_live hg] at h; cases h
      exact ⟨s', by simp, hk⟩
    · refine ⟨t, ?_, .rfl'⟩
      rw [← h]; simp [e, Conn.look, get]
  · rw [← h]; unfold isCollected; rw [h2]

@[simp] theorem collect_ctl (c : Conn) (id : Nat) (s : Stream) : (c.collect id s).ctl = c.ctl := by
  simp [ctl]

theorem Calm.collect (hn : (Assoc.keys c.streams).Nodup) {id : Nat} {s : Stream} (hg : c.get id = some s) : Calm c (c.collect id s) := by
  refine ⟨fun j t h => ⟨t, ?_, .rfl'⟩, fun j h => ?_, fun j h => by simpa using h, by simp⟩
  · unfold Conn.look get
    simp only [collect_streams, collect_collected, Assoc.get_put]
    by_cases e : j = id
    · subst e
      rw [look_live hg] at h
      simp [Assoc.get_del_self hn, h]
    · have e' : ¬ id = j := fun h => e h.symm
      rw [Assoc.get_del_ne _ e]
      simp only [e', if_false]
      exact h
  · unfold isCollected at h ⊢
    simp only [collect_collected, Assoc.get_put]
    split
    · rfl
    · exact h

theorem Calm.lookup (hI : Inv c h gone) {id : Nat} {loc : Bool} {s : Stream} (he : c.getOrCreate id loc = .ok (c', s)) :
    Calm c c' ∧ Inv c' h gone ∧ c'.get id = some s := by
  rcases getOrCreate_spec hI.shape id loc with ⟨s, h1, h2⟩ | ⟨_, _, h2⟩ | ⟨_, _, _, h2⟩ | ⟨_, _, _, _, h2⟩ |
    ⟨_, c', s, h2, h3⟩
  · rw [h2] at he; cases he; exact ⟨.rfl', hI, h1⟩
  · rw [h2] at he; cases he
  · rw [h2] at he; cases he
  · rw [h2] at he; cases he
  · rw [h2] at he; cases he
    refine ⟨?_, hI.create h3⟩
    refine ⟨fun j t h => ⟨t, ?_, .rfl'⟩, fun j h => ?_, fun j h => h3.almostFull' ▸ h, ?_⟩
    · by_cases e : id = j
      · subst e
        unfold Conn.look at h
        rw [h3.none] at h
        simp only [h3.noneG] at h
        cases h
      · rw [← h]
        unfold Conn.look get
        rw [h3.streams, h3.collected', Assoc.get_put, if_neg e]
    · rw [← h]; unfold isCollected; rw [h3.collected']
    · simp [Conn.ctl, h3.reset', h3.stopped', h3.shouldSendMaxData', h3.shouldSendMaxStreamsBidi', h3.shouldSendMaxStreamsUni', h3.frames']

theorem close_ctl (c : Conn) (e : CErr) : (c.close e).1.ctl = c.ctl := by unfold close; split <;> rfl

theorem Calm.close (c : Conn) (e : CErr) : Calm c (c.close e).1 := by
  unfold Conn.close; split <;> exact .of_eq rfl rfl rfl rfl

theorem subTxBuffered_calm {n : Nat} (h : c.subTxBuffered n = some c') : Calm c c' := by
  unfold subTxBuffered at h; split at h <;> cases h; exact .of_eq rfl rfl rfl rfl

theorem updateTxCap_calm {n : Nat} (h : c.updateTxCap n = some c') : Calm c c' := by
  unfold updateTxCap at h; split at h <;> cases h; exact .of_eq rfl rfl rfl rfl

theorem recvStream_calm (hI : Inv c h gone) (id off : Nat) (data : Bytes) (fin : Bool) :
    Calm c (c.recvStream id off data fin).1 := by
  unfold recvStream
  split
  · exact .close _ _
  · split
    · exact .of_eq rfl rfl rfl rfl
    · simp only
      split
      · exact .rfl'
      · exact .close _ _
      · next c1 s he =>
        obtain ⟨hc, hI, hg⟩ := Calm.lookup hI he
        have hw := RecvBuf.write_drain s.recv (.mk' data off fin)
        split
        · exact hc.trans (.close _ _)
        · split
          · next r hr =>
            rw [hr] at hw; simp only at hw
            exact hc.trans ((Calm.put (c' := c1.put id { s with recv := r }) hg rfl rfl rfl rfl (.recv hw)).trans (.close _ _))
          · next r hr =>
            rw [hr] at hw; simp only at hw
            refine hc.trans (Calm.put (s' := { s with recv := r }) hg (by simp) ?_ ?_ ?_ (.recv hw))
            all_goals
              try simp only [ctl]
              repeat' split
            all_goals simp

theorem recvReset_calm (hI : Inv c h gone) (id code F : Nat) : Calm c (c.recvReset id code F).1 := by
  unfold recvReset
  split
  · exact .close _ _
  · split
    · exact .of_eq rfl rfl rfl rfl
    · simp only
      split
      · exact .rfl'
      · exact .close _ _
      · next c1 s he =>
        obtain ⟨hc, hI, hg⟩ := Calm.lookup hI he
        have hw := RecvBuf.reset_drain s.recv code F
        split
        · next r hr =>
          rw [hr] at hw; simp only at hw
          exact hc.trans ((Calm.put (c' := c1.put id { s with recv := r }) hg rfl rfl rfl rfl (.recv hw)).trans (.close _ _))
        · next r hr =>
          rw [hr] at hw; simp only at hw
          split
          · exact hc.trans ((Calm.put (c' := c1.put id { s with recv := r }) hg rfl rfl rfl rfl (.recv hw)).trans (.close _ _))
          · refine hc.trans (Calm.put (s' := { s with recv := r }) hg (by simp) ?_ ?_ ?_ (.recv hw))
            all_goals
              try simp only [ctl]
              repeat' split
            all_goals simp

theorem recvMaxStreamData_calm (hI : Inv c h gone) (id m : Nat) : Calm c (c.recvMaxStreamData id m).1 := by
  unfold recvMaxStreamData
  split
  · exact .close _ _
  · split
    · exact .rfl'
    · exact .close _ _
    · next c1 s he =>
      obtain ⟨hc, hI, hg⟩ := Calm.lookup hI he
      simp only
      refine hc.trans (Calm.put (s' := { s with send := s.send.updateMaxData m }) hg (by simp [streams_ite]) ?_ ?_ ?_ (.same rfl rfl rfl))
      all_goals
        try simp only [ctl]
        repeat' split
      all_goals simp

theorem recvMaxStreams_calm (b : Bool) (m : Nat) : Calm c (c.recvMaxStreams b m).1 := by
  unfold recvMaxStreams
  split
  · exact .close _ _
  · exact .of_eq (by simp) (by simp) (by simp) (by simp [ctl])

theorem peerParams_calm (p : StreamLimits) (d b u w : Nat) : Calm c (c.peerParams p d b u w).1 := by
  unfold peerParams
  simp only
  split
  · exact .of_eq rfl rfl rfl rfl
  · next h =>
    have h1 := updateTxCap_calm h
    exact (Calm.of_eq (c := c) (c' := { c with maxTxData := d }) rfl rfl rfl rfl).trans (h1.trans (.of_eq rfl rfl rfl rfl))

theorem sendTail_calm {id : Nat} {s : Stream} (hg : c.get id = some s) {b : SendBuf} (hb : Kept s { s with send := b })
    (n m : Nat) (x y : Bool) : Calm c (c.sendTail id s b n m x y).1 := by
  unfold sendTail
  obtain ⟨ba, bl, e⟩ := sendBlocked_spec c id { s with send := b } n m
  rw [e]
  simp only
  have hk' : Kept s ({ s with send := { b with blockedAt := ba } } : Stream) := hb.trans (.same rfl rfl rfl)
  generalize ({ s with send := { b with blockedAt := ba } } : Stream) = s' at hk'
  have h1 : Calm c ((({ c with blocked := bl } : Conn).put id s').sendQueues s' s.isWritable s.isFlushable x y) := by
    refine Calm.put hg (s' := s') ?_ ?_ ?_ ?_ hk'
    · unfold sendQueues; simp [streams_ite]
    all_goals
      unfold sendQueues; try simp only [ctl]
      repeat' split
    all_goals simp
  generalize (({ c with blocked := bl } : Conn).put id s').sendQueues s' s.isWritable s.isFlushable x y = c1 at h1
  split
  · exact h1.trans (.of_eq rfl rfl rfl rfl)
  · split
    · exact h1.trans (.of_eq rfl rfl rfl rfl)
    · refine h1.trans (.of_eq (by simp [streams_ite]) ?_ ?_ ?_)
      all_goals
        try simp only [ctl]
        repeat' split
      all_goals simp

theorem sendData_calm (hI : Inv c h gone) (id : Nat) (data : Bytes) (fin : Bool) : Calm c (c.sendData id data fin).1 := by
  unfold sendData
  split
  · exact .rfl'
  · split
    · exact .of_eq rfl rfl rfl rfl
    · simp only
      have hb : ∃ b, (if c.maxTxData - c.txData < data.length then { c with blockedLimit := some c.maxTxData } else c) =
          ({ c with blockedLimit := b } : Conn) := by
        split
        · exact ⟨_, rfl⟩
        · exact ⟨c.blockedLimit, rfl⟩
      obtain ⟨b, hb⟩ := hb
      rw [hb]
      have hI' : Inv ({ c with blockedLimit := b } : Conn) h gone := hI.other (by constructor <;> rfl) (by constructor <;> rfl) (by constructor <;> rfl)
          (fun f hf => .inl hf) rfl rfl rfl rfl
      have hs : Calm c ({ c with blockedLimit := b } : Conn) := .of_eq rfl rfl rfl rfl
      split
      · exact hs
      · next c1 s he =>
        obtain ⟨hc, hI, hg⟩ := Calm.lookup hI' he
        have hc := hs.trans hc
        obtain ⟨W, hW⟩ := (hI.tx.live id s hg).inv
        split
        · simp only
          split
          · exact hc.trans (.collect hI.shape.wf.ndL hg)
          · exact hc
        · exact hc.trans (.of_eq rfl rfl rfl rfl)
        · have hwr : ∀ d f b n, s.send.write d f = .ok (b, n) → Kept s { s with send := b } := by
            intro d f b n hw
            rcases SendBuf.write_spec hW d f with ⟨b', n', h1, ht⟩ | ⟨e, h1, -⟩
            · rw [h1] at hw; cases hw; exact .took hW ht
            · rw [h1] at hw; cases hw
          split
          · refine hc.trans (.of_eq (by simp [streams_ite]) ?_ ?_ ?_)
            all_goals
              try simp only [ctl]
              split
            all_goals simp
          · by_cases hlt : c.txCap < data.length <;> simp only [hlt, if_true, if_false] <;> split
            all_goals first
              | exact hc.trans (.of_eq rfl rfl rfl rfl)
              | (next hw => exact hc.trans (sendTail_calm hg (hwr _ _ _ _ hw) _ _ _ _))

theorem Calm.insertAlmostFull (c : Conn) (id : Nat) : Calm c (c.insertAlmostFull id) := by
  refine ⟨fun j s h => ⟨s, h, .rfl'⟩, fun j h => h, fun j h => ?_, rfl⟩
  unfold Conn.insertAlmostFull
  simp only
  split
  · exact h
  · exact List.mem_cons_of_mem _ h

theorem recvData_calm (hI : Inv c h gone) (id cap : Nat) : Calm c (c.recvData id cap).1 := by
  unfold recvData
  split
  · exact .rfl'
  · cases hg : c.get id with
    | none => exact .rfl'
    | some s =>
      simp only
      have hw := RecvBuf.emit_drain s.recv cap
      have hput : ∀ r, r.drain = s.recv.drain → Calm c (c.put id { s with recv := r }) := fun r hr =>
        Calm.put (s' := { s with recv := r }) hg rfl rfl rfl rfl (.recv hr)
      have hcol : ∀ (c1 : Conn) (s' : Stream), c1.streams = Assoc.put c.streams id s' → Calm c1 (c1.collect id s') := by
        intro c1 s' h1
        refine .collect ?_ ?_
        · rw [h1]; exact Assoc.nodup_put hI.shape.wf.ndL _ _
        · unfold get; rw [h1, Assoc.get_put, if_pos rfl]
      split
      · exact .rfl'
      · split
        · next r hr =>
          rw [hr] at hw; simp only at hw
          refine Calm.trans (c' := if _ then (c.put id { s with recv := r }).collect id { s with recv := r } else c.put id { s with recv := r })
            ?_ (.of_eq (removeReadable_streams _ _) rfl rfl rfl)
          split
          · exact (hput r hw).trans (hcol _ _ rfl)
          · exact hput r hw
        · next r hr =>
          rw [hr] at hw; simp only at hw
          split
          · exact (hput r hw).trans (.of_eq rfl rfl rfl rfl)
          · next af _ =>
            generalize hc1 : ({ (c.put id { s with recv := r }) with fc := _ } : Conn) = c1
            have h1 : Calm c c1 := (hput r hw).trans (by rw [← hc1]; exact .of_eq rfl rfl rfl rfl)
            have e1 : c1.streams = Assoc.put c.streams id { s with recv := r } := by rw [← hc1]; rfl
            generalize hc2 : (if af = true then c1.insertAlmostFull id else c1) = c2
            have h2 : Calm c c2 := by
              rw [← hc2]; split
              · exact h1.trans (.insertAlmostFull _ _)
              · exact h1
            have e2 : c2.streams = Assoc.put c.streams id { s with recv := r } := by
              rw [← hc2, ← e1]; split <;> rfl
            generalize hc3 : (if (!({ s with recv := r } : Stream).isReadable) = true then c2.removeReadable id else c2) = c3
            have h3 : Calm c c3 := by
              rw [← hc3]; split
              · exact h2.trans (.of_eq rfl rfl rfl rfl)
              · exact h2
            have e3 : c3.streams = Assoc.put c.streams id { s with recv := r } := by
              rw [← hc3, ← e2]; split <;> rfl
            simp only
            split
            · exact h3.trans (hcol _ _ e3)
            · exact h3

theorem capacity_calm (hI : Inv c h gone) (id : Nat) : Calm c (c.capacity id).1 := by
  unfold capacity
  split
  · exact .rfl'
  · next s hg =>
    split
    · exact .rfl'
    · simp only
      split
      · exact .collect hI.shape.wf.ndL hg
      · exact .rfl'
    · exact .of_eq rfl rfl rfl rfl

theorem isWritable_calm (hI : Inv c h gone) (id len : Nat) : Calm c (c.isWritable id len).1 := by
  have hc := capacity_calm hI id
  unfold isWritable
  generalize c.capacity id = r at hc
  obtain ⟨c1, ev⟩ := r
  split
  · next h =>
    cases h
    split
    · exact hc
    · split
      · exact hc
      · next s hg =>
        simp only
        have key : ∀ (c' : Conn), c'.streams = Assoc.put c1.streams id { s with sendLowat := max 1 len } →
            c'.collected = c1.collected → c'.almostFull = c1.almostFull → c'.ctl = c1.ctl → Calm c c' := by
          intro c' h2 h3 h4 h5
          exact hc.trans (Calm.put hg h2 h3 h4 h5 (.same rfl rfl rfl))
        have key2 : ∀ (c' : Conn) b, c'.streams = Assoc.put (Assoc.put c1.streams id { s with sendLowat := max 1 len }) id
              { s with sendLowat := max 1 len, send := { s.send with blockedAt := b } } →
            c'.collected = c1.collected → c'.almostFull = c1.almostFull → c'.ctl = c1.ctl → Calm c c' := by
          intro c' b h2 h3 h4 h5
          rw [Assoc.put_put] at h2
          exact hc.trans (Calm.put hg h2 h3 h4 h5 (.same rfl rfl rfl))
        split
        · exact key _ rfl rfl rfl rfl
        · repeat' split
          all_goals first
            | exact key _ rfl rfl rfl rfl
            | exact key2 _ _ rfl rfl rfl rfl
  · exact hc

theorem writableNext_calm : Calm c c.writableNext.1 := by
  unfold writableNext
  split
  · exact .rfl'
  · split
    · exact .rfl'
    · exact .of_eq rfl rfl rfl rfl

theorem readableNext_calm : Calm c c.readableNext.1 := by
  unfold readableNext
  split
  · exact .rfl'
  · exact .of_eq rfl rfl rfl rfl

theorem priority_calm (hI : Inv c h gone) (id u : Nat) (inc : Bool) : Calm c (c.priority id u inc).1 := by
  unfold priority
  split
  · exact .rfl'
  · exact .rfl'
  · next c1 s he =>
    obtain ⟨hc, hI, hg⟩ := Calm.lookup hI he
    split
    · exact hc
    · exact hc.trans (Calm.put hg rfl rfl rfl rfl (.same rfl rfl rfl))

theorem collectAcked_calm (hn : (Assoc.keys c.streams).Nodup) {id : Nat} {s : Stream} (hg : c.get id = some s) :
    Calm c (c.collectAcked id s) := by
  unfold collectAcked
  split
  · exact .collect hn hg
  · exact .rfl'

theorem acked_calm (hI : Inv c h gone) (i : Nat) : Calm c (c.acked i).1 := by
  unfold acked
  split
  · next id off len fin hf =>
    cases hg : c.get id with
    | none => exact .rfl'
    | some s =>
      simp only
      obtain ⟨W, hW⟩ := (hI.tx.live id s hg).inv
      have hE := hI.ends_eq hg
      have hfo : off + len ≤ s.send.emitOff := by
        have := hI.tx.fr _ (List.mem_of_getElem? hf)
        simp only [FrameOk] at this; omega
      obtain ⟨b, n, e, ht⟩ := SendBuf.ackAndDrop_spec hW hfo
      rw [e]
      simp only
      have h1 : Calm c (c.put id { s with send := b }) := by
        refine Calm.put hg rfl rfl rfl rfl (.same ?_ ?_ rfl)
        · show b.finOff = _; rw [ht.fields]
        · show b.emitOff = _; rw [ht.fields]
      have h2 : Calm c ((c.put id { s with send := b }).collectAcked id { s with send := b }) :=
        h1.trans (collectAcked_calm (by simpa using Assoc.nodup_put hI.shape.wf.ndL _ _)
          (by unfold get; rw [put_streams, Assoc.get_put, if_pos rfl]))
      split
      · exact h2.trans (.of_eq rfl rfl rfl rfl)
      · next h3 => exact h2.trans (subTxBuffered_calm h3)
  · split
    · exact .rfl'
    · next hg => exact collectAcked_calm hI.shape.wf.ndL hg
  · exact .rfl'

/-- A lost STREAM frame. -/
theorem lost_stream_calm (hI : Inv c h gone) {i id off len : Nat} {fin : Bool} (hf : c.frames[i]? = some (.stream id off len fin)) :
    Calm c (c.lost i).1 := by
  unfold lost
  rw [hf]
  simp only
  cases hg : c.get id with
  | none => exact .rfl'
  | some s =>
    simp only
    obtain ⟨W, hW⟩ := (hI.tx.live id s hg).inv
    obtain ⟨b, n, e, ht⟩ := SendBuf.retransmit_spec hW off len
    rw [e]
    split
    · exact .rfl'
    · refine Calm.put (s' := { s with send := b }) hg (by simp [streams_ite]) ?_ ?_ ?_ (.same ?_ ?_ rfl)
      · simp only; split <;> rfl
      · simp only; split <;> rfl
      · simp only [ctl]; split <;> rfl
      · show b.finOff = _; rw [ht.fields]
      · show b.emitOff = _; rw [ht.fields]

end Conn
end Verif.Conn
