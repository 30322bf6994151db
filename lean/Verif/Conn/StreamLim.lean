import Verif.Conn.Queued

/-!
The flow-control limits of the single streams: what the connection enforces is what was
agreed with the peer.
-/

namespace Verif.Conn
open Verif Verif.Stream

/-- The initial limit a set of transport parameters puts on data sent *to* the endpoint
they come from. `srv` is the role of the other endpoint. Streams opened by that other
endpoint are governed by `initial_max_stream_data_bidi_remote` and `_uni`, those opened
by the endpoint itself by `initial_max_stream_data_bidi_local` (RFC 9000, 18.2). -/
def StreamLimits.toward (p : StreamLimits) (srv : Bool) (id : Nat) : Nat :=
  if id % 2 = srv.toNat then (if id % 4 < 2 then p.bidiRemote else p.uni)
  else (if id % 4 < 2 then p.bidiLocal else 0)

/-- Limits on single streams as an observer knows them. -/
structure Lims where
  /-- role of the local endpoint -/
  srv : Bool
  /-- data allowed to be sent: the highest limit the peer has given -/
  tx : Nat → Nat := fun _ => 0
  /-- data allowed to be received: the last limit advertised -/
  rx : Nat → Nat

/-- The limits after one more operation with its result. -/
def Lims.step (l : Lims) : Op → Ev → Lims
  | .peerParams p _ _ _ _, .ok => { l with tx := fun id => max (l.tx id) (p.toward l.srv id) }
  | .recvMaxStreamData id m, .ok => { l with tx := upd l.tx id (max (l.tx id) m) }
  | .outMaxStreamData id _ _ _, .sentMaxStreamData m => { l with rx := upd l.rx id m }
  | _, _ => l

/-- The limits of a new connection. -/
def Lims.init (g : Conn.Config) : Lims :=
  { srv := g.isServer, rx := fun id => g.loc.toward (!g.isServer) id }

/-- The limits after a history. -/
def Lims.of (l : Lims) (es : List (Op × Ev)) : Lims := es.foldl (fun l e => l.step e.1 e.2) l

/-- The limits in force for a stream. -/
def limsOf (s : Stream) : Nat × Nat := (s.send.maxData, s.recv.flowControl.maxData)

namespace Conn
variable {c c' c'' : Conn} {h : Hist} {gone : List Nat} {l : Lims}

theorem initialLimits_eq (c : Conn) (id : Nat) :
    c.initialLimits (isLocal id c.isServer) id = (c.loc.toward (!c.isServer) id, c.peer.toward c.isServer id) := by
  have hb : isBidi id = decide (id % 4 < 2) := by
    rw [Bool.eq_iff_iff]; simp only [isBidi, beq_iff_eq, decide_eq_true_eq]; omega
  have hl : isLocal id c.isServer = decide (id % 2 = c.isServer.toNat) := by rw [Bool.eq_iff_iff]; simp [isLocal]
  unfold initialLimits StreamLimits.toward
  rw [hb, hl]
  have h2 : id % 2 < 2 := Nat.mod_lt _ (by omega)
  by_cases e1 : id % 4 < 2 <;> cases hs : c.isServer <;> by_cases e2 : id % 2 = 0
  all_goals first
    | (have e3 : ¬ id % 2 = 1 := by omega); simp [e1, e2]
    | (have e3 : id % 2 = 1 := by omega); simp [e1, e3]

/-- What does not change together with streams. -/
def fix (c : Conn) : Bool × StreamLimits × StreamLimits × List (Nat × Stream) := (c.isServer, c.loc, c.peer, c.collected)

/-- The limits in force are those in the books. -/
structure SL (c : Conn) (l : Lims) : Prop where
  srv : c.isServer = l.srv
  peer : ∀ id, c.peer.toward c.isServer id ≤ l.tx id
  tx : ∀ id s, c.get id = some s → s.send.maxData ≤ l.tx id
  rx : ∀ id s, c.get id = some s → s.recv.flowControl.maxData = l.rx id
  new : ∀ id, c.get id = none → c.isCollected id = false → c.loc.toward (!c.isServer) id = l.rx id

/-- No stream is created and no limit changed. -/
structure Keeps (c c' : Conn) : Prop where
  isServer : c'.isServer = c.isServer
  loc : c'.loc = c.loc
  peer : c'.peer = c.peer
  back : ∀ j s', c'.get j = some s' → ∃ s, c.get j = some s ∧ limsOf s' = limsOf s
  fwd : ∀ j, c'.get j = none → c'.isCollected j = false → c.get j = none ∧ c.isCollected j = false

theorem SL.keeps (hs : SL c l) (hk : Keeps c c') : SL c' l := by
  refine ⟨hk.isServer ▸ hs.srv, ?_, ?_, ?_, ?_⟩
  · intro id; rw [hk.peer, hk.isServer]; exact hs.peer id
  · intro id s hg
    obtain ⟨s0, h0, e⟩ := hk.back id s hg
    have := hs.tx id s0 h0
    simp only [limsOf, Prod.mk.injEq] at e; omega
  · intro id s hg
    obtain ⟨s0, h0, e⟩ := hk.back id s hg
    have := hs.rx id s0 h0
    simp only [limsOf, Prod.mk.injEq] at e; omega
  · intro id h1 h2
    obtain ⟨h3, h4⟩ := hk.fwd id h1 h2
    rw [hk.loc, hk.isServer]; exact hs.new id h3 h4

theorem Keeps.trans (h1 : Keeps c c') (h2 : Keeps c' c'') : Keeps c c'' := by
  refine ⟨h2.isServer.trans h1.isServer, h2.loc.trans h1.loc, h2.peer.trans h1.peer, ?_, ?_⟩
  · intro j s hj
    obtain ⟨s1, e1, e2⟩ := h2.back j s hj
    obtain ⟨s2, e3, e4⟩ := h1.back j s1 e1
    exact ⟨s2, e3, e2.trans e4⟩
  · intro j e1 e2
    obtain ⟨e3, e4⟩ := h2.fwd j e1 e2
    exact h1.fwd j e3 e4

theorem Keeps.of_eq (h1 : c'.streams = c.streams) (h2 : c'.fix = c.fix) : Keeps c c' := by
  simp only [fix, Prod.mk.injEq] at h2
  refine ⟨h2.1, h2.2.1, h2.2.2.1, ?_, ?_⟩
  · intro j s hj; exact ⟨s, by rw [← hj]; simp only [get, h1], rfl⟩
  · intro j e1 e2; simp only [get, isCollected, h1, h2.2.2.2] at *; exact ⟨e1, e2⟩

theorem Keeps.rfl' : Keeps c c := .of_eq rfl rfl

theorem Keeps.same {id : Nat} {s s' : Stream} (hg : c.get id = some s) (h1 : c'.streams = Assoc.put c.streams id s')
    (h2 : c'.fix = c.fix) (hs : limsOf s' = limsOf s) : Keeps c c' := by
  simp only [fix, Prod.mk.injEq] at h2
  refine ⟨h2.1, h2.2.1, h2.2.2.1, ?_, ?_⟩
  · intro j t hj
    simp only [get, h1, Assoc.get_put] at hj
    split at hj
    · next e => cases hj; subst e; exact ⟨s, hg, hs⟩
    · exact ⟨t, hj, rfl⟩
  · intro j e1 e2
    simp only [get, h1, Assoc.get_put] at e1
    split at e1
    · cases e1
    · simp only [isCollected, h2.2.2.2] at e2; exact ⟨e1, e2⟩

theorem Keeps.collect (hn : (Assoc.keys c.streams).Nodup) (id : Nat) (s : Stream) : Keeps c (c.collect id s) := by
  refine ⟨by simp, by simp, by simp, ?_, ?_⟩
  · intro j t hj
    simp only [get, collect_streams] at hj
    by_cases e : j = id
    · rw [e, Assoc.get_del_self hn] at hj; cases hj
    · rw [Assoc.get_del_ne _ e] at hj; exact ⟨t, hj, rfl⟩
  · intro j e1 e2
    simp only [get, collect_streams, isCollected, collect_collected, Assoc.get_put] at e1 e2
    by_cases e : j = id
    · subst e; simp at e2
    · rw [Assoc.get_del_ne _ e] at e1
      rw [if_neg (fun h => e h.symm)] at e2
      exact ⟨e1, e2⟩

theorem SL.lookup (hI : Inv c h gone) (hs : SL c l) {id : Nat} {loc : Bool} {s : Stream} (he : c.getOrCreate id loc = .ok (c', s)) :
    SL c' l ∧ Inv c' h gone ∧ c'.get id = some s := by
  rcases getOrCreate_spec hI.shape id loc with ⟨s, h1, h2⟩ | ⟨_, _, h2⟩ | ⟨_, _, _, h2⟩ | ⟨_, _, _, _, h2⟩ |
    ⟨_, c', s, h2, h3⟩
  · rw [h2] at he; cases he; exact ⟨hs, hI, h1⟩
  · rw [h2] at he; cases he
  · rw [h2] at he; cases he
  · rw [h2] at he; cases he
  · rw [h2] at he; cases he
    refine ⟨?_, hI.create h3⟩
    have hf : limsOf (c.fresh id) = (c.peer.toward c.isServer id, c.loc.toward (!c.isServer) id) := by
      simp [limsOf, fresh, Stream.new, SendBuf.new, RecvBuf.new, FlowControl.new, initialLimits_eq]
    simp only [limsOf, Prod.mk.injEq] at hf
    have hnone : c.isCollected id = false := by simp [isCollected, h3.noneG]
    refine ⟨h3.isServer' ▸ hs.srv, ?_, ?_, ?_, ?_⟩
    · intro j; rw [h3.peer', h3.isServer']; exact hs.peer j
    · intro j t hj
      simp only [get, h3.streams, Assoc.get_put] at hj
      split at hj
      · next e => cases hj; subst e; rw [h3.stream, hf.1]; exact hs.peer _
      · exact hs.tx j t hj
    · intro j t hj
      simp only [get, h3.streams, Assoc.get_put] at hj
      split at hj
      · next e => cases hj; subst e; rw [h3.stream, hf.2]; exact hs.new _ h3.none hnone
      · exact hs.rx j t hj
    · intro j e1 e2
      simp only [get, h3.streams, Assoc.get_put] at e1
      split at e1
      · cases e1
      · simp only [isCollected, h3.collected'] at e2
        rw [h3.loc', h3.isServer']; exact hs.new j e1 e2

theorem close_fix (c : Conn) (e : CErr) : (c.close e).1.fix = c.fix := by unfold close; split <;> rfl

theorem SL.close (hs : SL c l) (e : CErr) : SL (c.close e).1 l := hs.keeps (.of_eq (close_streams _ _) (close_fix _ _))

theorem subTxBuffered_fix {n : Nat} (h : c.subTxBuffered n = some c') : c'.fix = c.fix := by
  unfold subTxBuffered at h; split at h <;> cases h; rfl

theorem updateTxCap_fix {n : Nat} (h : c.updateTxCap n = some c') : c'.fix = c.fix := by
  unfold updateTxCap at h; split at h <;> cases h; rfl

end Conn

end Verif.Conn

namespace Verif.Stream.RecvBuf

theorem tmpLoop_fc : ∀ (fuel : Nat) (r : RecvBuf) (l : List RangeBuf) {r' : RecvBuf}, tmpLoop fuel r l = some r' → r'.flowControl = r.flowControl
  | _, r, [], r', h => by simp only [tmpLoop, Option.some.injEq] at h; rw [h]
  | 0, r, _ :: _, r', h => by simp [tmpLoop] at h
  | fuel + 1, r, b :: l, r', h => by
    unfold tmpLoop at h
    split at h
    · cases h
    · simp only at h
      split at h
      · cases h
      · exact tmpLoop_fc fuel _ _ h
      · split at h
        · exact (tmpLoop_fc fuel _ _ h).trans rfl
        · exact (tmpLoop_fc fuel _ _ h).trans rfl

theorem write_fc (r : RecvBuf) (b : RangeBuf) : (r.write b).2.flowControl = r.flowControl := by
  unfold write
  generalize hr : (if b.fin = true then { r with finOff := some b.maxOff } else r : RecvBuf) = r1
  have h1 : r1.flowControl = r.flowControl := by rw [← hr]; split <;> rfl
  simp only
  repeat' split
  all_goals first
    | rfl
    | exact h1
    | (next h => exact (tmpLoop_fc _ _ _ h).trans h1)

theorem emit_fc (r : RecvBuf) (n : Nat) : (r.emit n).2.flowControl.maxData = r.flowControl.maxData := by
  unfold emit; repeat' split
  all_goals rfl

theorem reset_fc (r : RecvBuf) (code F : Nat) : (r.reset code F).2.flowControl = r.flowControl := by
  unfold reset
  repeat' split
  all_goals first
    | rfl
    | skip
  all_goals
    simp only
    have hw := write_fc ({ r with error := some code, off := F, data := [] } : RecvBuf) (.mk' [] F true)
    split <;> (next h => rw [h] at hw; exact hw)

theorem shutdown_fc (r : RecvBuf) : r.shutdown.2.flowControl = r.flowControl := by
  unfold shutdown; repeat' split
  all_goals rfl

theorem autotune_maxData (f : FlowControl) (now rtt : Nat) : (f.autotuneWindow now rtt).maxData = f.maxData := by
  unfold FlowControl.autotuneWindow; repeat' split
  all_goals rfl

end Verif.Stream.RecvBuf

namespace Verif.Conn
open Verif Verif.Stream
namespace Conn
variable {c c' c'' : Conn} {h : Hist} {gone : List Nat} {l : Lims}

theorem recvStream_sl (hI : Inv c h gone) (hs : SL c l) (id off : Nat) (data : Bytes) (fin : Bool) :
    SL (c.recvStream id off data fin).1 l := by
  unfold recvStream
  split
  · exact hs.close _
  · split
    · exact hs.keeps (.of_eq rfl rfl)
    · simp only
      split
      · exact hs
      · exact hs.close _
      · next c1 s he =>
        obtain ⟨hs, hI, hg⟩ := hs.lookup hI he
        have hw := RecvBuf.write_fc s.recv (.mk' data off fin)
        split
        · exact hs.close _
        · split
          · next r hr =>
            rw [hr] at hw; simp only at hw
            exact SL.close (hs.keeps (Keeps.same (c' := c1.put id { s with recv := r }) hg rfl rfl (by simp [limsOf, hw]))) _
          · next r hr =>
            rw [hr] at hw; simp only at hw
            refine hs.keeps (Keeps.same (s' := { s with recv := r }) hg (by simp) ?_ (by simp [limsOf, hw]))
            simp only [fix]; repeat' split
            all_goals simp

theorem recvReset_sl (hI : Inv c h gone) (hs : SL c l) (id code F : Nat) : SL (c.recvReset id code F).1 l := by
  unfold recvReset
  split
  · exact hs.close _
  · split
    · exact hs.keeps (.of_eq rfl rfl)
    · simp only
      split
      · exact hs
      · exact hs.close _
      · next c1 s he =>
        obtain ⟨hs, hI, hg⟩ := hs.lookup hI he
        have hw := RecvBuf.reset_fc s.recv code F
        split
        · next r hr =>
          rw [hr] at hw; simp only at hw
          exact SL.close (hs.keeps (Keeps.same (c' := c1.put id { s with recv := r }) hg rfl rfl (by simp [limsOf, hw]))) _
        · next r hr =>
          rw [hr] at hw; simp only at hw
          split
          · exact SL.close (hs.keeps (Keeps.same (c' := c1.put id { s with recv := r }) hg rfl rfl (by simp [limsOf, hw]))) _
          · refine hs.keeps (Keeps.same (s' := { s with recv := r }) hg (by simp) ?_ (by simp [limsOf, hw]))
            simp only [fix]; repeat' split
            all_goals simp

theorem recvStop_sl (hI : Inv c h gone) (hs : SL c l) (id code : Nat) : SL (c.recvStop id code).1 l := by
  unfold recvStop
  split
  · exact hs.close _
  · split
    · exact hs
    · exact hs.close _
    · next c1 s he =>
      obtain ⟨hs, hI, hg⟩ := hs.lookup hI he
      obtain ⟨W, hW⟩ := (hI.tx.live id s hg).inv
      simp only
      rcases SendBuf.stop_spec hW code with ⟨-, e⟩ | ⟨-, b, e, hc, -⟩
      · rw [e]; exact hs
      · rw [e]
        simp only
        split
        · exact hs.keeps (Keeps.same (s' := { s with send := b }) hg (by rfl) rfl (by simp [limsOf, hc.maxData]))
        · next h2 =>
          refine hs.keeps (Keeps.same (s' := { s with send := b }) hg ?_ ?_ (by simp [limsOf, hc.maxData]))
          · simpa [streams_ite] using subTxBuffered_streams h2
          · have := subTxBuffered_fix h2
            simp only [fix, Prod.mk.injEq] at this ⊢
            split <;> simpa using this

theorem SL.of_tx (hs : SL c l) {t : Nat → Nat} (ht : ∀ j, l.tx j ≤ t j) : SL c { l with tx := t } :=
  ⟨hs.srv, fun id => Nat.le_trans (hs.peer id) (ht id), fun id s hg => Nat.le_trans (hs.tx id s hg) (ht id), hs.rx, hs.new⟩

theorem le_upd_max (f : Nat → Nat) (i m j : Nat) : f j ≤ upd f i (max (f i) m) j := by
  unfold upd; split
  · next e => rw [e]; exact Nat.le_max_left _ _
  · exact Nat.le_refl _

theorem Lims.step_tx_le (l : Lims) (op : Op) (ev : Ev) (j : Nat) : l.tx j ≤ (l.step op ev).tx j := by
  unfold Lims.step; split
  · exact Nat.le_max_left _ _
  · exact le_upd_max _ _ _ _
  · exact Nat.le_refl _
  · exact Nat.le_refl _

theorem recvMaxStreamData_sl (hI : Inv c h gone) (hs : SL c l) (id m : Nat) :
    SL (c.recvMaxStreamData id m).1 (l.step (.recvMaxStreamData id m) (c.recvMaxStreamData id m).2) := by
  have hmono : ∀ ev c', SL c' l → (∃ x, (l.step (.recvMaxStreamData id m) ev) = { l with tx := x }) →
      SL c' (l.step (.recvMaxStreamData id m) ev) := by
    intro ev c' h1 ⟨x, hx⟩
    have := Lims.step_tx_le l (.recvMaxStreamData id m) ev
    rw [hx] at this ⊢
    exact h1.of_tx this
  have hx : ∀ ev, ∃ x, (l.step (.recvMaxStreamData id m) ev) = { l with tx := x } := by
    intro ev
    cases ev
    all_goals first
      | exact ⟨l.tx, rfl⟩
      | exact ⟨_, rfl⟩
  unfold recvMaxStreamData
  split
  · exact hmono _ _ (hs.close _) (hx _)
  · split
    · exact hmono _ _ hs (hx _)
    · exact hmono _ _ (hs.close _) (hx _)
    · next c1 s he =>
      obtain ⟨hs, hI, hg⟩ := hs.lookup hI he
      simp only
      generalize hc2 : (if ({ s with send := s.send.updateMaxData m } : Stream).isWritable = true then _ else _ : Conn) = c2
      have e1 : c2.streams = Assoc.put c1.streams id { s with send := s.send.updateMaxData m } := by
        rw [← hc2]; simp [streams_ite]
      have e2 : c2.fix = c1.fix := by
        rw [← hc2]; simp only [fix]; repeat' split
        all_goals simp
      simp only [fix, Prod.mk.injEq] at e2
      have htx := le_upd_max l.tx id m
      refine ⟨e2.1 ▸ hs.srv, ?_, ?_, ?_, ?_⟩
      · intro j; rw [e2.2.2.1, e2.1]; exact Nat.le_trans (hs.peer j) (htx j)
      · intro j t hj
        simp only [get, e1, Assoc.get_put] at hj
        split at hj
        · next e =>
          cases hj; subst e
          have := hs.tx _ s hg
          show max s.send.maxData m ≤ upd l.tx id (max (l.tx id) m) id
          simp only [upd, if_true]; omega
        · exact Nat.le_trans (hs.tx j t hj) (htx j)
      · intro j t hj
        simp only [get, e1, Assoc.get_put] at hj
        split at hj
        · next e => cases hj; subst e; exact hs.rx _ s hg
        · exact hs.rx j t hj
      · intro j h1 h2
        simp only [get, e1, Assoc.get_put] at h1
        split at h1
        · cases h1
        · simp only [isCollected, e2.2.2.2] at h2
          rw [e2.2.1, e2.1]; exact hs.new j h1 h2

theorem recvMaxStreams_sl (hs : SL c l) (b : Bool) (m : Nat) : SL (c.recvMaxStreams b m).1 l := by
  unfold recvMaxStreams
  split
  · exact hs.close _
  · exact hs.keeps (.of_eq (by simp) (by simp [fix]))

theorem peerParams_sl (hs : SL c l) (p : StreamLimits) (d b u w : Nat) :
    SL (c.peerParams p d b u w).1 (l.step (.peerParams p d b u w) (c.peerParams p d b u w).2) := by
  unfold peerParams
  simp only
  split
  · exact hs.keeps (.of_eq rfl rfl)
  · next h =>
    have e1 := updateTxCap_streams h
    have e2 := updateTxCap_fix h
    simp only [fix, Prod.mk.injEq] at e2
    have e1 : _ = c.streams := e1
    have e2 : _ = c.isServer ∧ _ = c.loc ∧ _ = c.peer ∧ _ = c.collected := e2
    refine ⟨e2.1 ▸ hs.srv, ?_, ?_, ?_, ?_⟩
    · intro j
      simp only [Lims.step, e2.1, hs.srv]
      exact Nat.le_max_right _ _
    · intro j t hj
      simp only [get, e1] at hj
      exact Nat.le_trans (hs.tx j t hj) (Nat.le_max_left _ _)
    · intro j t hj
      simp only [get, e1] at hj
      exact hs.rx j t hj
    · intro j h1 h2
      simp only [get, e1] at h1
      simp only [isCollected, e2.2.2.2] at h2
      simp only [e2.1, e2.2.1]
      exact hs.new j h1 h2

theorem sendTail_sl (hs : SL c l) {id : Nat} {s : Stream} (hg : c.get id = some s) {b : SendBuf} (hb : b.maxData = s.send.maxData)
    (n m : Nat) (x y : Bool) : SL (c.sendTail id s b n m x y).1 l := by
  unfold sendTail
  obtain ⟨ba, bl, e⟩ := sendBlocked_spec c id { s with send := b } n m
  rw [e]
  simp only
  have hk' : limsOf ({ s with send := { b with blockedAt := ba } } : Stream) = limsOf s := by simp [limsOf, hb]
  generalize ({ s with send := { b with blockedAt := ba } } : Stream) = s' at hk'
  have h1 : SL ((({ c with blocked := bl } : Conn).put id s').sendQueues s' s.isWritable s.isFlushable x y) l := by
    refine hs.keeps (Keeps.same hg (s' := s') ?_ ?_ hk')
    · unfold sendQueues; simp [streams_ite]
    · unfold sendQueues; simp only [fix]; repeat' split
      all_goals simp
  generalize (({ c with blocked := bl } : Conn).put id s').sendQueues s' s.isWritable s.isFlushable x y = c1 at h1
  split
  · exact h1.keeps (.of_eq rfl rfl)
  · split
    · exact h1.keeps (.of_eq rfl rfl)
    · refine h1.keeps (.of_eq (by simp [streams_ite]) ?_)
      simp only [fix]; repeat' split
      all_goals simp

theorem sendData_sl (hI : Inv c h gone) (hs : SL c l) (id : Nat) (data : Bytes) (fin : Bool) : SL (c.sendData id data fin).1 l := by
  unfold sendData
  split
  · exact hs
  · split
    · exact hs.keeps (.of_eq rfl rfl)
    · simp only
      have hb : ∃ b, (if c.maxTxData - c.txData < data.length then { c with blockedLimit := some c.maxTxData } else c) =
          ({ c with blockedLimit := b } : Conn) := by
        split
        · exact ⟨_, rfl⟩
        · exact ⟨c.blockedLimit, rfl⟩
      obtain ⟨b, hb⟩ := hb
      rw [hb]
      have hI' : Inv ({ c with blockedLimit := b } : Conn) h gone := hI.other (by constructor <;> rfl) (by constructor <;> rfl) (by constructor <;> rfl)
          (fun f hf => .inl hf) rfl rfl rfl rfl
      have hs : SL ({ c with blockedLimit := b } : Conn) l := hs.keeps (.of_eq rfl rfl)
      split
      · exact hs
      · next c1 s he =>
        obtain ⟨hs, hI, hg⟩ := SL.lookup hI' hs he
        obtain ⟨W, hW⟩ := (hI.tx.live id s hg).inv
        split
        · simp only
          split
          · exact hs.keeps (.collect hI.shape.wf.ndL _ _)
          · exact hs
        · exact hs.keeps (.of_eq rfl rfl)
        · have hwr : ∀ d f b n, s.send.write d f = .ok (b, n) → b.maxData = s.send.maxData := by
            intro d f b n hw
            rcases SendBuf.write_spec hW d f with ⟨b', n', h1, ht⟩ | ⟨e, h1, -⟩
            · rw [h1] at hw; cases hw; rw [ht.fields]
            · rw [h1] at hw; cases hw
          split
          · refine hs.keeps (.of_eq (by simp [streams_ite]) ?_)
            simp only [fix]; split <;> simp
          · by_cases hlt : c.txCap < data.length <;> simp only [hlt, if_true, if_false] <;> split
            all_goals first
              | exact hs.keeps (.of_eq rfl rfl)
              | (next hw => exact sendTail_sl hs hg (hwr _ _ _ _ hw) _ _ _ _)

theorem recvData_sl (hI : Inv c h gone) (hs : SL c l) (id cap : Nat) : SL (c.recvData id cap).1 l := by
  unfold recvData
  split
  · exact hs
  · cases hg : c.get id with
    | none => exact hs
    | some s =>
      simp only
      have hw := RecvBuf.emit_fc s.recv cap
      have hput : ∀ r, r.flowControl.maxData = s.recv.flowControl.maxData → SL (c.put id { s with recv := r }) l := fun r hr =>
        hs.keeps (Keeps.same (s' := { s with recv := r }) hg rfl rfl (by simp [limsOf, hr]))
      have hcol : ∀ r i s', r.flowControl.maxData = s.recv.flowControl.maxData → SL ((c.put id { s with recv := r }).collect i s') l := by
        intro r i s' hr
        refine (hput r hr).keeps (.collect ?_ _ _)
        simp only [put_streams]
        exact Assoc.nodup_put hI.shape.wf.ndL _ _
      split
      · exact hs
      · split
        · next r hr =>
          rw [hr] at hw; simp only at hw
          refine SL.keeps (c := if _ then (c.put id { s with recv := r }).collect id { s with recv := r } else c.put id { s with recv := r })
            ?_ (.of_eq (removeReadable_streams _ _) rfl)
          split
          · exact hcol r _ _ hw
          · exact hput r hw
        · next r hr =>
          rw [hr] at hw; simp only at hw
          split
          · exact (hput r hw).keeps (.of_eq rfl rfl)
          · next af _ =>
            split
            · refine SL.keeps (hcol r id { s with recv := r } hw) (.of_eq ?_ ?_)
              · simp [streams_ite]
              · simp only [fix]; repeat' split
                all_goals simp
            · refine SL.keeps (hput r hw) (.of_eq ?_ ?_)
              · simp [streams_ite]
              · simp only [fix]; repeat' split
                all_goals simp

theorem shutRead_sl (hs : SL c l) (id code : Nat) : SL (c.shutRead id code).1 l := by
  unfold shutRead
  split
  · exact hs
  · cases hg : c.get id with
    | none => exact hs
    | some s =>
      simp only
      have hw := RecvBuf.shutdown_fc s.recv
      split
      · next r hr =>
        rw [hr] at hw; simp only at hw
        exact hs.keeps (Keeps.same (c' := ((c.put id { s with recv := r }).die).1) hg rfl rfl (by simp [limsOf, hw]))
      · exact hs
      · next r hr =>
        rw [hr] at hw; simp only at hw
        refine hs.keeps (Keeps.same (s' := { s with recv := r }) hg (by simp [streams_ite]) ?_ (by simp [limsOf, hw]))
        simp only [fix]; repeat' split
        all_goals simp

theorem shutWrite_sl (hI : Inv c h gone) (hs : SL c l) (id code w : Nat) : SL (c.shutWrite id code w).1 l := by
  unfold shutWrite
  split
  · exact hs
  · cases hg : c.get id with
    | none => exact hs
    | some s =>
      obtain ⟨W, hW⟩ := (hI.tx.live id s hg).inv
      simp only
      rcases SendBuf.shutdown_spec hW with ⟨-, e⟩ | ⟨-, b, e, hc, -⟩
      · rw [e]; exact hs
      · rw [e]
        simp only
        have hl : limsOf { s with send := b } = limsOf s := by simp [limsOf, hc.maxData]
        split
        · exact hs.keeps (Keeps.same (s' := { s with send := b }) hg (by rfl) rfl hl)
        · next h2 =>
          have e1 := subTxBuffered_streams h2
          have e2 := subTxBuffered_fix h2
          split
          · exact hs.keeps (Keeps.same (s' := { s with send := b }) hg e1 e2 hl)
          · next h3 =>
            have e3 := updateTxCap_streams h3
            have e4 := updateTxCap_fix h3
            exact hs.keeps (Keeps.same (s' := { s with send := b }) hg (e3.trans e1) (e4.trans e2) hl)

theorem capacity_sl (hI : Inv c h gone) (hs : SL c l) (id : Nat) : SL (c.capacity id).1 l := by
  unfold capacity
  split
  · exact hs
  · split
    · exact hs
    · simp only
      split
      · exact hs.keeps (.collect hI.shape.wf.ndL _ _)
      · exact hs
    · exact hs.keeps (.of_eq rfl rfl)

theorem isWritable_sl (hI : Inv c h gone) (hs : SL c l) (id len : Nat) : SL (c.isWritable id len).1 l := by
  have hc := capacity_sl hI hs id
  unfold isWritable
  generalize c.capacity id = r at hc
  obtain ⟨c1, ev⟩ := r
  split
  · next h =>
    cases h
    split
    · exact hc
    · split
      · exact hc
      · next s hg =>
        simp only
        have key : ∀ (c' : Conn), c'.streams = Assoc.put c1.streams id { s with sendLowat := max 1 len } →
            c'.fix = c1.fix → SL c' l := by
          intro c' h2 h3
          exact hc.keeps (Keeps.same hg h2 h3 rfl)
        have key2 : ∀ (c' : Conn) b, c'.streams = Assoc.put (Assoc.put c1.streams id { s with sendLowat := max 1 len }) id
              { s with sendLowat := max 1 len, send := { s.send with blockedAt := b } } →
            c'.fix = c1.fix → SL c' l := by
          intro c' b h2 h3
          rw [Assoc.put_put] at h2
          exact hc.keeps (Keeps.same hg h2 h3 rfl)
        split
        · exact key _ rfl rfl
        · repeat' split
          all_goals first
            | exact key _ rfl rfl
            | exact key2 _ _ rfl rfl
  · exact hc

theorem writableNext_sl (hs : SL c l) : SL c.writableNext.1 l := by
  unfold writableNext
  split
  · exact hs
  · split
    · exact hs
    · exact hs.keeps (.of_eq rfl rfl)

theorem readableNext_sl (hs : SL c l) : SL c.readableNext.1 l := by
  unfold readableNext
  split
  · exact hs
  · exact hs.keeps (.of_eq rfl rfl)

theorem outMaxStreams_sl (hs : SL c l) (b fits : Bool) : SL (c.outMaxStreams b fits).1 l := by
  cases b
  · rcases outMaxStreams_false c fits with e | e <;> rw [e]
    · exact hs
    · exact hs.keeps (.of_eq rfl rfl)
  · rcases outMaxStreams_true c fits with e | e <;> rw [e]
    · exact hs
    · exact hs.keeps (.of_eq rfl rfl)

theorem outMaxStreamData_sl (hs : SL c l) (id now rtt : Nat) (fits : Bool) :
    SL (c.outMaxStreamData id now rtt fits).1
      (l.step (.outMaxStreamData id now rtt fits) (c.outMaxStreamData id now rtt fits).2) := by
  unfold outMaxStreamData
  split
  · exact hs
  · cases hg : c.get id with
    | none => exact hs.keeps (.of_eq rfl rfl)
    | some s =>
      simp only
      split
      · exact hs.keeps (.of_eq rfl rfl)
      · next af _ =>
        have hr : (if af = true then s.recv.autotuneWindow now rtt else s.recv).flowControl.maxData = s.recv.flowControl.maxData := by
          split
          · exact RecvBuf.autotune_maxData _ _ _
          · rfl
        generalize (if af = true then s.recv.autotuneWindow now rtt else s.recv) = r at hr
        split
        · refine ⟨hs.srv, hs.peer, ?_, ?_, ?_⟩
          · intro j t hj
            simp only [get, put_streams, Assoc.put_put, Assoc.get_put] at hj
            split at hj
            · next e => cases hj; subst e; exact hs.tx _ s hg
            · exact hs.tx j t hj
          · intro j t hj
            simp only [get, put_streams, Assoc.put_put, Assoc.get_put] at hj
            simp only [Lims.step, upd]
            split at hj
            · next e => cases hj; subst e; simp [RecvBuf.updateMaxData, FlowControl.updateMaxData]
            · next e => rw [if_neg (fun h => e h.symm)]; exact hs.rx j t hj
          · intro j h1 h2
            simp only [get, put_streams, Assoc.put_put, Assoc.get_put] at h1
            split at h1
            · cases h1
            · next e =>
              simp only [Lims.step, upd]
              rw [if_neg (fun h => e h.symm)]
              exact hs.new j h1 h2
        · exact hs.keeps (Keeps.same (s' := { s with recv := r }) hg rfl rfl (by simp [limsOf, hr]))

theorem outMaxData_sl (hs : SL c l) (now rtt : Nat) (fits : Bool) : SL (c.outMaxData now rtt fits).1 l := by
  unfold outMaxData
  split
  · exact hs.keeps (.of_eq rfl rfl)
  · simp only
    repeat' split
    all_goals exact hs.keeps (.of_eq rfl rfl)

theorem outStop_sl (hs : SL c l) (id : Nat) (fits : Bool) : SL (c.outStop id fits).1 l := by
  unfold outStop
  split
  · exact hs
  · split
    · exact hs.keeps (.of_eq rfl rfl)
    · exact hs

theorem outReset_sl (hs : SL c l) (id : Nat) (fits : Bool) : SL (c.outReset id fits).1 l := by
  unfold outReset
  split
  · exact hs
  · split
    · exact hs.keeps (.of_eq rfl rfl)
    · exact hs

theorem collectAcked_sl (hn : (Assoc.keys c.streams).Nodup) (hs : SL c l) (id : Nat) (s : Stream) : SL (c.collectAcked id s) l := by
  unfold collectAcked
  split
  · exact hs.keeps (.collect hn _ _)
  · exact hs

theorem acked_sl (hI : Inv c h gone) (hs : SL c l) (i : Nat) : SL (c.acked i).1 l := by
  unfold acked
  split
  · next id off len fin hf =>
    cases hg : c.get id with
    | none => exact hs
    | some s =>
      simp only
      obtain ⟨W, hW⟩ := (hI.tx.live id s hg).inv
      have hE := hI.ends_eq hg
      have hfo : off + len ≤ s.send.emitOff := by
        have := hI.tx.fr _ (List.mem_of_getElem? hf)
        simp only [FrameOk] at this; omega
      obtain ⟨b, n, e, ht⟩ := SendBuf.ackAndDrop_spec hW hfo
      rw [e]
      simp only
      have h1 : SL (c.put id { s with send := b }) l := by
        refine hs.keeps (Keeps.same hg rfl rfl ?_)
        have : b.maxData = s.send.maxData := by rw [ht.fields]
        simp [limsOf, this]
      have h2 := collectAcked_sl (by simpa using Assoc.nodup_put hI.shape.wf.ndL _ _) h1 id { s with send := b }
      split
      · exact h2.keeps (.of_eq rfl rfl)
      · next h3 => exact h2.keeps (.of_eq (subTxBuffered_streams h3) (subTxBuffered_fix h3))
  · split
    · exact hs
    · exact collectAcked_sl hI.shape.wf.ndL hs _ _
  · exact hs

theorem lost_sl (hI : Inv c h gone) (hs : SL c l) (i : Nat) : SL (c.lost i).1 l := by
  unfold lost
  split
  · next id off len fin hf =>
    cases hg : c.get id with
    | none => exact hs
    | some s =>
      simp only
      obtain ⟨W, hW⟩ := (hI.tx.live id s hg).inv
      obtain ⟨b, n, e, ht⟩ := SendBuf.retransmit_spec hW off len
      rw [e]
      have : b.maxData = s.send.maxData := by rw [ht.fields]
      split
      · exact hs
      · refine hs.keeps (Keeps.same (s' := { s with send := b }) hg (by simp [streams_ite]) ?_ (by simp [limsOf, this]))
        simp only [fix]; repeat' split
        all_goals simp
  · exact hs.keeps (.of_eq rfl rfl)
  · split
    · exact hs
    · split
      · exact hs.keeps (.of_eq rfl rfl)
      · exact hs
  · split
    · exact hs.keeps (.of_eq rfl rfl)
    · exact hs
  · exact hs.keeps (.of_eq rfl rfl)
  · exact hs.keeps (.of_eq rfl rfl)
  · exact hs.keeps (.of_eq rfl rfl)
  · exact hs

theorem priority_sl (hI : Inv c h gone) (hs : SL c l) (id u : Nat) (inc : Bool) : SL (c.priority id u inc).1 l := by
  unfold priority
  split
  · exact hs
  · exact hs
  · next c1 s he =>
    obtain ⟨hs, hI, hg⟩ := hs.lookup hI he
    split
    · exact hs
    · exact hs.keeps (Keeps.same hg rfl rfl rfl)

theorem outStreamLoop_sl (left : Nat) (fuel : Nat) : ∀ {c : Conn}, Inv c h gone → SL c l → SL (outStreamLoop left fuel c).1 l := by
  induction fuel with
  | zero => intro c _ hs; exact hs
  | succ fuel ih =>
    intro c hI hs
    have hrm : ∀ i, SL (c.removeFlushable i) l := fun i => hs.keeps (.of_eq rfl rfl)
    unfold outStreamLoop
    split
    · exact hs
    · next k t hq =>
      cases hg : c.get k.id with
      | none => exact ih (hI.removeFlushable k.id) (hrm _)
      | some s =>
        simp only
        split
        · exact ih (hI.removeFlushable k.id) (hrm _)
        split
        · exact ih (hI.removeFlushable k.id) (hrm _)
        obtain ⟨W, hW⟩ := (hI.tx.live _ s hg).inv
        obtain ⟨b, out, fin, e, ht⟩ := SendBuf.emit_spec hW (left - (1 + varintLen k.id + varintLen s.send.offFront + 2))
        rw [e]
        simp only
        have hb : b.maxData = s.send.maxData := by rw [ht.fields]
        generalize hc1 : (if (!({ s with send := b } : Stream).isFlushable) = true then _ else _ : Conn) = c1
        have h1 : SL c1 l := by
          rw [← hc1]
          refine hs.keeps (Keeps.same (s' := { s with send := b }) hg (by simp [streams_ite]) ?_ (by simp [limsOf, hb]))
          simp only [fix]; repeat' split
          all_goals simp
        split
        · exact h1.keeps (.of_eq rfl rfl)
        · next c2 h2 => exact h1.keeps (.of_eq (subTxBuffered_streams h2) (subTxBuffered_fix h2))

theorem step_sl (hI : Inv c h gone) (hs : SL c l) (op : Op) : SL (c.step op).1 (l.step op (c.step op).2) := by
  unfold step
  split
  · have : l.step op .idle = l := by cases op <;> rfl
    rw [this]; exact hs
  cases op with
  | recvStream id off data fin => exact recvStream_sl hI hs id off data fin
  | recvReset id code F => exact recvReset_sl hI hs id code F
  | recvStop id code => exact recvStop_sl hI hs id code
  | recvMaxData m => exact hs.keeps (.of_eq rfl rfl)
  | recvMaxStreamData id m => exact recvMaxStreamData_sl hI hs id m
  | recvMaxStreams b m => exact recvMaxStreams_sl hs b m
  | peerParams p d b u w => exact peerParams_sl hs p d b u w
  | recvDone w =>
    simp only
    split
    · exact hs.keeps (.of_eq rfl rfl)
    · next h => exact hs.keeps (.of_eq (updateTxCap_streams h) (updateTxCap_fix h))
  | send id data fin => exact sendData_sl hI hs id data fin
  | recv id cap => exact recvData_sl hI hs id cap
  | shutRead id code => exact shutRead_sl hs id code
  | shutWrite id code w => exact shutWrite_sl hI hs id code w
  | capacity id => exact capacity_sl hI hs id
  | isWritable id len => exact isWritable_sl hI hs id len
  | writableNext => exact writableNext_sl hs
  | readableNext => exact readableNext_sl hs
  | priority id u inc => exact priority_sl hI hs id u inc
  | outStream left =>
    simp only
    unfold outStream
    split
    · exact outStreamLoop_sl left _ hI hs
    · exact hs
  | outMaxStreams b fits => exact outMaxStreams_sl hs b fits
  | outMaxStreamData id now rtt fits => exact outMaxStreamData_sl hs id now rtt fits
  | outMaxData now rtt fits => exact outMaxData_sl hs now rtt fits
  | outStop id fits => exact outStop_sl hs id fits
  | outReset id fits => exact outReset_sl hs id fits
  | acked i => exact acked_sl hI hs i
  | lost i => exact lost_sl hI hs i

/-- Data stays within the limits of its stream. -/
def Agree (h : Hist) (l : Lims) : Prop := (∀ id, h.acc id ≤ l.tx id) ∧ ∀ id, h.hi id ≤ l.rx id

theorem recvStream_lim (hI : Inv c h gone) (hs : SL c l) {id off : Nat} {data : Bytes} {fin : Bool}
    (he : (c.recvStream id off data fin).2 = .ok) : off + data.length ≤ l.rx id := by
  unfold recvStream at he
  have hcl : ∀ (c : Conn) e, (c.close e).2 ≠ .ok := by intro c e; unfold close; split <;> simp
  split at he
  · exact absurd he (hcl _ _)
  · split at he
    · cases he
    · simp only at he
      split at he
      · cases he
      · exact absurd he (hcl _ _)
      · next c1 s hgc =>
        obtain ⟨hs, hI, hg⟩ := hs.lookup hI hgc
        split at he
        · exact absurd he (hcl _ _)
        · split at he
          · exact absurd he (hcl _ _)
          · next r hr =>
            rw [← hs.rx id s hg]
            unfold RecvBuf.write at hr
            split at hr
            · cases hr
            · next hle =>
              simp only [RangeBuf.mk', RangeBuf.maxOff, RecvBuf.maxData] at hle
              simp only [RangeBuf.off, RangeBuf.len] at hle
              omega

theorem recvReset_lim (hI : Inv c h gone) (hd : c.dead = false) (hs : SL c l) {id code F : Nat}
    (he : (c.recvReset id code F).2 = .ok) : F ≤ l.rx id := by
  unfold recvReset at he
  have hcl : ∀ (c : Conn) e, (c.close e).2 ≠ .ok := by intro c e; unfold close; split <;> simp
  split at he
  · exact absurd he (hcl _ _)
  · split at he
    · cases he
    · simp only at he
      have hdd : ∀ c1 s, c.getOrCreate id false = .ok (c1, s) → c1.dead = false := by
        intro c1 s hgc
        rcases getOrCreate_spec hI.shape id false with ⟨s, h1, h2⟩ | ⟨_, _, h2⟩ | ⟨_, _, _, h2⟩ | ⟨_, _, _, _, h2⟩ |
          ⟨_, c', s, h2, h3⟩ <;> rw [h2] at hgc <;> cases hgc
        · exact hd
        · rw [h3.base.dead]; exact hd
      split at he
      · cases he
      · exact absurd he (hcl _ _)
      · next c1 s hgc =>
        have hd := hdd _ _ hgc
        obtain ⟨hs, hI, hg⟩ := hs.lookup hI hgc
        rw [← hs.rx id s hg]
        rcases RecvBuf.reset_spec ((hI.rx hd).live id s hg).inv code F with ⟨-, e⟩ | ⟨-, -, -, r', e, -⟩ | ⟨-, hl, h1, -⟩
        · rw [e] at he; exact absurd he (hcl _ _)
        · rw [e] at he; exact absurd he (hcl _ _)
        · exact h1

theorem outMaxStreamData_raises (hI : Inv c h gone) (hd : c.dead = false) (hs : SL c l) {id now rtt m : Nat} {fits : Bool}
    (he : (c.outMaxStreamData id now rtt fits).2 = .sentMaxStreamData m) : l.rx id ≤ m := by
  unfold outMaxStreamData at he
  split at he
  · cases he
  · next haf =>
    cases hg : c.get id with
    | none => rw [hg] at he; cases he
    | some s =>
      rw [hg] at he
      simp only at he
      split at he
      · cases he
      · next af _ =>
        have hR := hI.rx hd
        have hra := (hR.msd id (.inl (by simpa using haf))).1 s hg
        have hwin := (hR.live id s hg).win
        split at he
        · have hm : (if af = true then s.recv.autotuneWindow now rtt else s.recv).flowControl.maxDataNext = m := by
            injection he
          rw [← hs.rx id s hg]
          unfold Raises at hra
          rw [← hm]
          split
          · obtain ⟨h1, h2, h3, h4⟩ := autotune_spec s.recv.flowControl now rtt hwin
            simp only [FlowControl.maxDataNext, RecvBuf.autotuneWindow]
            omega
          · exact hra
        · cases he

theorem sendData_live {id : Nat} {data : Bytes} {fin : Bool} {k : Nat} (hI : Inv c h gone)
    (he : (c.sendData id data fin).2 = .n k) : ∃ s, (c.sendData id data fin).1.get id = some s := by
  have htail : ∀ (c : Conn) s b n m x y, (c.sendTail id s b n m x y).2 = .n k → ∃ s', (c.sendTail id s b n m x y).1.get id = some s' := by
    intro c s b n m x y he
    unfold sendTail at he ⊢
    obtain ⟨ba, bl, e⟩ := sendBlocked_spec c id { s with send := b } n m
    rw [e] at he ⊢
    simp only at he ⊢
    generalize hs' : ({ s with send := { b with blockedAt := ba } } : Stream) = s' at *
    have h1 : ((({ c with blocked := bl } : Conn).put id s').sendQueues s' s.isWritable s.isFlushable x y).get id = some s' := by
      unfold sendQueues get
      simp [streams_ite, Assoc.get_put]
    generalize (({ c with blocked := bl } : Conn).put id s').sendQueues s' s.isWritable s.isFlushable x y = c1 at *
    split
    · exact ⟨s', h1⟩
    · split
      · exact ⟨s', h1⟩
      · refine ⟨s', ?_⟩
        simp only [get, streams_ite] at h1 ⊢
        simpa using h1
  generalize hr : c.sendData id data fin = r at he ⊢
  obtain ⟨c', ev⟩ := r
  simp only at he
  subst he
  unfold sendData at hr
  split at hr
  · cases hr
  · split at hr
    · cases hr
    · simp only at hr
      generalize (if c.maxTxData - c.txData < data.length then { c with blockedLimit := some c.maxTxData } else c) = c0 at hr
      split at hr
      · cases hr
      · split at hr
        · cases hr
        · cases hr
        · split at hr
          · cases hr
          · split at hr
            · cases hr
            · cases hr
            · next he =>
              have := htail _ _ _ _ _ _ _ (by rw [hr])
              rw [hr] at this; exact this

theorem step_agree (hI : Inv c h gone) (hs : SL c l) (ha : Agree h l) {op : Op} (hop : op.Ok) :
    Agree (h.step op (c.step op).2) (l.step op (c.step op).2) := by
  have hsl := step_sl hI hs op
  have hsafe := step_safe hI hop
  have hacc : ∀ id, h.acc id ≤ (l.step op (c.step op).2).tx id := fun id =>
    Nat.le_trans (ha.1 id) (Lims.step_tx_le _ _ _ _)
  have hcut : ∀ id j, upd h.acc id (h.ends id) j ≤ (l.step op (c.step op).2).tx j := by
    intro id j
    refine Nat.le_trans ?_ (hacc j)
    unfold upd; split
    · next e => rw [e]; exact hI.tx.le id
    · exact Nat.le_refl _
  have hlive : (c.step op).2 ≠ .idle → c.crashed = false ∧ (Op.needsAlive op = true → c.dead = false) := by
    intro hne
    unfold step at hne
    split at hne
    · exact absurd rfl hne
    · next hcond =>
      simp only [Bool.or_eq_true, Bool.and_eq_true, not_or, not_and, Bool.not_eq_true] at hcond
      refine ⟨hcond.1, ?_⟩
      intro hn
      cases hd : c.dead with
      | false => rfl
      | true => rw [hcond.2 hd] at hn; cases hn
  have hmono : ∀ j, l.rx j ≤ (l.step op (c.step op).2).rx j := by
    intro j
    cases op with
    | outMaxStreamData id now rtt fits =>
      generalize hev : (c.step (.outMaxStreamData id now rtt fits)).2 = ev at hlive ⊢
      cases ev with
      | sentMaxStreamData m =>
        obtain ⟨h1, h2⟩ := hlive (by simp)
        have h2 := h2 rfl
        have : l.rx id ≤ m := by
          refine outMaxStreamData_raises (now := now) (rtt := rtt) (fits := fits) hI h2 hs ?_
          rw [← hev]; unfold step; simp [h1, h2]
        simp only [Lims.step, upd]
        split
        · next e => rw [e]; exact this
        · exact Nat.le_refl _
      | _ => exact Nat.le_refl _
    | _ => cases (c.step _).2 <;> exact Nat.le_refl _
  have hhi : ∀ j, h.hi j ≤ (l.step op (c.step op).2).rx j := fun j => Nat.le_trans (ha.2 j) (hmono j)
  have hrec : ∀ id e, e ≤ l.rx id → ∀ j, upd h.hi id (max (h.hi id) e) j ≤ (l.step op (c.step op).2).rx j := by
    intro id e he j
    refine Nat.le_trans ?_ (hmono j)
    unfold upd; split
    · next e1 => rw [e1]; exact Nat.max_le.mpr ⟨ha.2 id, he⟩
    · exact ha.2 j
  cases op with
  | recvStream id off data fin =>
    generalize hev : (c.step (.recvStream id off data fin)).2 = ev at *
    cases ev with
    | ok =>
      obtain ⟨h1, h2⟩ := hlive (by simp)
      have h2 := h2 rfl
      have : off + data.length ≤ l.rx id := by
        refine recvStream_lim (fin := fin) hI hs ?_
        rw [← hev]; unfold step; simp [h1, h2]
      exact ⟨hacc, hrec _ _ this⟩
    | _ => exact ⟨hacc, hhi⟩
  | recvReset id code F =>
    generalize hev : (c.step (.recvReset id code F)).2 = ev at *
    cases ev with
    | ok =>
      obtain ⟨h1, h2⟩ := hlive (by simp)
      have h2 := h2 rfl
      have : F ≤ l.rx id := by
        refine recvReset_lim (code := code) hI h2 hs ?_
        rw [← hev]; unfold step; simp [h1, h2]
      exact ⟨hacc, hrec _ _ this⟩
    | _ => exact ⟨hacc, hhi⟩
  | recvStop id code =>
    generalize (c.step (.recvStop id code)).2 = ev at *
    cases ev with
    | ok => exact ⟨hcut _, hhi⟩
    | _ => exact ⟨hacc, hhi⟩
  | shutWrite id code w =>
    generalize (c.step (.shutWrite id code w)).2 = ev at *
    cases ev with
    | ok => exact ⟨hcut _, hhi⟩
    | _ => exact ⟨hacc, hhi⟩
  | send id data fin =>
    have hlv : ∀ k, (c.step (.send id data fin)).2 = .n k → ∃ s, (c.step (.send id data fin)).1.get id = some s := by
      intro k hk
      have hst : c.step (.send id data fin) = c.sendData id data fin := by
        have h1 := (hlive (by rw [hk]; simp)).1
        unfold step; simp [h1, Op.needsAlive]
      rw [hst] at hk ⊢
      exact sendData_live hI hk
    rcases hsafe with ⟨-, -, hI'⟩ | ⟨hp, -⟩
    · generalize c.step (.send id data fin) = r at *
      obtain ⟨c1, ev⟩ := r
      simp only at *
      cases ev with
      | n k =>
        obtain ⟨s, hg⟩ := hlv k rfl
        refine ⟨?_, hhi⟩
        intro j
        by_cases e : j = id
        · subst e
          rw [hI'.tx.acc j, valAt_live _ hg]
          obtain ⟨W, hW⟩ := (hI'.tx.live j s hg).inv
          exact Nat.le_trans hW.max (hsl.tx j s hg)
        · have := hacc j
          simp only [Hist.step, upd, e, if_false]
          exact this
      | _ => exact ⟨hacc, hhi⟩
    · rw [hp] at hacc hhi ⊢; exact ⟨hacc, hhi⟩
  | _ =>
    generalize (c.step _).2 = ev at *
    cases ev <;> exact ⟨hacc, hhi⟩

theorem run_sl {ops : List Op} (hI : Inv c h gone) (hs : SL c l) (ha : Agree h l) (hok : ∀ op ∈ ops, op.Ok) :
    (SL (c.run ops).1 (l.of (c.run ops).2) ∨ (c.run ops).1.crashed = true) ∧ Agree (h.of (c.run ops).2) (l.of (c.run ops).2) := by
  induction ops generalizing c h l with
  | nil => exact ⟨.inl hs, ha⟩
  | cons op ops ih =>
    have hag := step_agree hI hs ha (hok op List.mem_cons_self)
    rcases step_safe hI (hok op List.mem_cons_self) with ⟨-, -, hI1⟩ | ⟨-, hcr, -⟩
    · exact ih hI1 (step_sl hI hs op) hag (fun o ho => hok o (List.mem_cons_of_mem _ ho))
    · have h1 := run_crashed hcr ops
      refine ⟨.inr ?_, ?_⟩
      · show ((c.step op).1.run ops).1.crashed = true
        rw [h1.1]; exact hcr
      · show Agree ((h.step op (c.step op).2).of ((c.step op).1.run ops).2) ((l.step op (c.step op).2).of ((c.step op).1.run ops).2)
        have hidle : ∀ es : List (Op × Ev), (∀ e ∈ es, e.2 = .idle) → ∀ h l, Agree h l → Agree (h.of es) (l.of es) := by
          intro es
          induction es with
          | nil => intro _ h l ha; exact ha
          | cons e es ih =>
            intro he h l ha
            refine ih (fun e' h' => he e' (List.mem_cons_of_mem _ h')) _ _ ?_
            show Agree (h.step e.1 e.2) (l.step e.1 e.2)
            rw [he e List.mem_cons_self]
            obtain ⟨op, ev⟩ := e
            cases op <;> exact ha
        exact hidle _ h1.2 _ _ hag

/-- The limits on single streams an observer of a new connection knows after a history. -/
def limits (g : Config) (ops : List Op) : Lims := (Lims.init g).of ((start g).run ops).2

theorem start_sl (g : Config) : SL (start g) (Lims.init g) := by
  refine ⟨rfl, ?_, ?_, ?_, ?_⟩
  · intro id; simp [start, StreamLimits.toward]
  · intro id s h; simp [start, get, Assoc.get] at h
  · intro id s h; simp [start, get, Assoc.get] at h
  · intro id _ _; rfl

theorem after_sl (g : Config) (hd : 0 < g.factorDen) {ops : List Op} (hok : ∀ op ∈ ops, op.Ok) :
    (SL (after g ops) (limits g ops) ∨ (after g ops).crashed = true) ∧ Agree (books g ops) (limits g ops) :=
  run_sl (Inv.start g hd) (start_sl g) ⟨fun _ => Nat.zero_le _, fun _ => Nat.zero_le _⟩ hok

end Conn
end Verif.Conn
