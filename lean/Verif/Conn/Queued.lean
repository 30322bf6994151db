import Verif.Conn.Turn

/-! Streams with data to send are queued for sending. -/

namespace Verif.Conn
open Verif Verif.Stream

/-- Every stream with data to send is in the queue. -/
def Qd (L : List (Nat × Stream)) (q : List Key) : Prop :=
  ∀ id s, Assoc.get L id = some s → s.send.isFlushable = true → linked q id = true

theorem linked_ex {q : List Key} {id : Nat} : linked q id = true ↔ ∃ k ∈ q, k.id = id := by
  simp [linked]

theorem linked_qins {k : Key} {q : List Key} {id : Nat} : linked (qins k q) id = true ↔ k.id = id ∨ linked q id = true := by
  simp [linked_ex]

theorem linked_qadd {k : Key} {q : List Key} {id : Nat} : linked (qadd k q) id = true ↔ k.id = id ∨ linked q id = true := by
  unfold qadd
  split
  · next h =>
    constructor
    · exact .inr
    · rintro (rfl | h1)
      · exact h
      · exact h1
  · exact linked_qins

theorem linked_qdel {i : Nat} {q : List Key} {id : Nat} : linked (qdel i q) id = true ↔ id ≠ i ∧ linked q id = true := by
  simp only [linked_ex, qdel, List.mem_filter, bne_iff_ne, ne_eq]
  constructor
  · rintro ⟨k, ⟨h1, h2⟩, rfl⟩; exact ⟨h2, k, h1, rfl⟩
  · rintro ⟨h1, k, h2, rfl⟩; exact ⟨k, ⟨h2, h1⟩, rfl⟩

theorem linked_rekey {k : Key} {q : List Key} {id : Nat} : linked (rekey k q) id = true ↔ linked q id = true := by
  unfold rekey
  split
  · next h =>
    rw [linked_qins, linked_qdel]
    constructor
    · rintro (rfl | h1)
      · exact h
      · exact h1.2
    · intro h1
      by_cases h2 : k.id = id
      · exact .inl h2
      · exact .inr ⟨fun x => h2 x.symm, h1⟩
  · exact Iff.rfl

theorem Qd.put {L : List (Nat × Stream)} {q q' : List Key} (h : Qd L q) {id : Nat} {s' : Stream}
    (h1 : s'.send.isFlushable = true → linked q' id = true)
    (h2 : ∀ j, j ≠ id → linked q j = true → linked q' j = true) : Qd (Assoc.put L id s') q' := by
  intro j s hj hs
  rw [Assoc.get_put] at hj
  split at hj
  · next e => cases hj; exact e ▸ h1 hs
  · next e => exact h2 j (fun x => e x.symm) (h j s hj hs)

theorem Qd.put_same {L : List (Nat × Stream)} {q : List Key} (h : Qd L q) {id : Nat} {s s' : Stream}
    (hg : Assoc.get L id = some s) (hs : s'.send.isFlushable = true → s.send.isFlushable = true) : Qd (Assoc.put L id s') q :=
  h.put (fun h1 => h id s hg (hs h1)) (fun _ _ h => h)

theorem Qd.del {L : List (Nat × Stream)} {q : List Key} (h : Qd L q) (hn : (Assoc.keys L).Nodup) (id : Nat) :
    Qd (Assoc.del L id) (qdel id q) := by
  intro j s hj hs
  rw [linked_qdel]
  by_cases e : j = id
  · rw [e, Assoc.get_del_self hn] at hj; cases hj
  · rw [Assoc.get_del_ne L e] at hj; exact ⟨e, h j s hj hs⟩

namespace Conn
variable {c c' : Conn} {h : Hist} {gone : List Nat}

def Queued (c : Conn) : Prop := Qd c.streams c.flushable

theorem Queued.lookup (hI : Inv c h gone) (hq : Queued c) {id : Nat} {loc : Bool} {s : Stream} (he : c.getOrCreate id loc = .ok (c', s)) :
    Queued c' ∧ Inv c' h gone ∧ c'.get id = some s := by
  rcases getOrCreate_spec hI.shape id loc with ⟨s, h1, h2⟩ | ⟨_, _, h2⟩ | ⟨_, _, _, h2⟩ | ⟨_, _, _, _, h2⟩ |
    ⟨_, c', s, h2, h3⟩
  · rw [h2] at he; cases he; exact ⟨hq, hI, h1⟩
  · rw [h2] at he; cases he
  · rw [h2] at he; cases he
  · rw [h2] at he; cases he
  · rw [h2] at he; cases he
    refine ⟨?_, hI.create h3⟩
    unfold Queued
    rw [h3.flushable', h3.streams]
    refine Qd.put hq ?_ (fun _ _ h => h)
    rw [h3.stream]
    simp [fresh, Stream.new, SendBuf.new, SendBuf.isFlushable]

theorem Queued.of_eq (hq : Queued c) (h1 : c'.streams = c.streams) (h2 : c'.flushable = c.flushable) : Queued c' := by
  unfold Queued; rw [h1, h2]; exact hq

theorem Queued.same (hq : Queued c) {id : Nat} {s s' : Stream} (hg : c.get id = some s)
    (h1 : c'.streams = Assoc.put c.streams id s') (h2 : c'.flushable = c.flushable)
    (hs : s'.send.isFlushable = true → s.send.isFlushable = true) : Queued c' := by
  unfold Queued; rw [h1, h2]; exact Qd.put_same hq hg hs

theorem close_streams (c : Conn) (e : CErr) : (c.close e).1.streams = c.streams := by
  unfold close; split <;> rfl

theorem subTxBuffered_streams {n : Nat} (h : c.subTxBuffered n = some c') : c'.streams = c.streams := by
  unfold subTxBuffered at h; split at h <;> cases h; rfl

theorem updateTxCap_streams {n : Nat} (h : c.updateTxCap n = some c') : c'.streams = c.streams := by
  unfold updateTxCap at h; split at h <;> cases h; rfl

theorem Queued.close (hq : Queued c) (e : CErr) : Queued (c.close e).1 := hq.of_eq (close_streams _ _) (close_flushable _ _)

theorem Queued.collect (hI : Inv c h gone) (hq : Queued c) (id : Nat) (s : Stream) : Queued (c.collect id s) := by
  unfold Queued
  simp only [collect_streams, collect_flushable]
  exact Qd.del hq hI.shape.wf.ndL id

theorem isFlushable_cut {s s' : SendBuf} {W : Bytes} (h : SendBuf.Cut s W s') : s'.isFlushable = false := by
  simp [SendBuf.isFlushable, h.data]

theorem recvStream_qd (hI : Inv c h gone) (hq : Queued c) (id off : Nat) (data : Bytes) (fin : Bool) :
    Queued (c.recvStream id off data fin).1 := by
  unfold recvStream
  split
  · exact hq.close _
  · split
    · exact hq
    · simp only
      split
      · exact hq
      · exact hq.close _
      · next c1 s he =>
        obtain ⟨hq, hI, hg⟩ := hq.lookup hI he
        split
        · exact hq.close _
        · split
          · next r _ => exact Queued.close (hq.same (c' := c1.put id { s with recv := r }) hg rfl rfl (fun x => x)) _
          · next r _ => exact hq.same (s' := { s with recv := r }) hg (by simp) (by simp) (fun x => x)

theorem recvReset_qd (hI : Inv c h gone) (hq : Queued c) (id code F : Nat) : Queued (c.recvReset id code F).1 := by
  unfold recvReset
  split
  · exact hq.close _
  · split
    · exact hq
    · simp only
      split
      · exact hq
      · exact hq.close _
      · next c1 s he =>
        obtain ⟨hq, hI, hg⟩ := hq.lookup hI he
        split
        · next r _ => exact Queued.close (hq.same (c' := c1.put id { s with recv := r }) hg rfl rfl (fun x => x)) _
        · next r _ =>
          split
          · exact Queued.close (hq.same (c' := c1.put id { s with recv := r }) hg rfl rfl (fun x => x)) _
          · exact hq.same (s' := { s with recv := r }) hg (by simp) (by simp) (fun x => x)

theorem recvStop_qd (hI : Inv c h gone) (hq : Queued c) (id code : Nat) : Queued (c.recvStop id code).1 := by
  unfold recvStop
  split
  · exact hq.close _
  · split
    · exact hq
    · exact hq.close _
    · next c1 s he =>
      obtain ⟨hq, hI, hg⟩ := hq.lookup hI he
      obtain ⟨W, hW⟩ := (hI.tx.live id s hg).inv
      simp only
      rcases SendBuf.stop_spec hW code with ⟨-, e⟩ | ⟨-, b, e, hc, -⟩
      · rw [e]; exact hq
      · rw [e]
        simp only
        split
        · exact hq.same (s' := { s with send := b }) hg (by rfl) rfl (by simp [isFlushable_cut hc])
        · next h2 =>
          refine hq.same (s' := { s with send := b }) hg ?_ ?_ (by simp [isFlushable_cut hc])
          · simpa [streams_ite] using subTxBuffered_streams h2
          · simpa using subTxBuffered_flushable h2

theorem recvMaxStreamData_qd (hI : Inv c h gone) (hq : Queued c) (id m : Nat) : Queued (c.recvMaxStreamData id m).1 := by
  unfold recvMaxStreamData
  split
  · exact hq.close _
  · split
    · exact hq
    · exact hq.close _
    · next c1 s he =>
      obtain ⟨hq, hI, hg⟩ := hq.lookup hI he
      have hk := (hI.static hg).key
      simp only
      unfold Queued
      simp only [streams_ite, flushable_ite, insertWritable_streams, insertFlushable_streams, insertWritable_flushable, ite_self,
        insertFlushable_flushable, put_flushable, put_streams]
      refine Qd.put hq ?_ ?_
      · intro hf
        split
        · rw [linked_qadd]; exact .inl hk
        · next h1 =>
          simp only [Stream.isFlushable, Bool.and_eq_true, Bool.not_eq_true', not_and, Bool.not_eq_false] at h1
          exact hq id s hg (h1 hf)
      · intro j _ hj
        split
        · rw [linked_qadd]; exact .inr hj
        · exact hj

theorem recvMaxStreams_qd (hq : Queued c) (b : Bool) (m : Nat) : Queued (c.recvMaxStreams b m).1 := by
  unfold recvMaxStreams
  split
  · exact hq.close _
  · exact hq.of_eq (by simp) (by simp)

theorem peerParams_qd (hq : Queued c) (p : StreamLimits) (d b u w : Nat) : Queued (c.peerParams p d b u w).1 := by
  unfold peerParams
  simp only
  split
  · exact hq
  · next h =>
    have e1 := updateTxCap_streams h
    have e2 := updateTxCap_flushable h
    refine hq.of_eq ?_ ?_
    · exact e1
    · exact e2

theorem sendTail_qd (hI : Inv c h gone) (hq : Queued c) {id : Nat} {s : Stream} (hg : c.get id = some s) (b : SendBuf) (n m : Nat) (x y : Bool) :
    Queued (c.sendTail id s b n m x y).1 := by
  unfold sendTail
  have hk := (hI.static hg).key
  obtain ⟨ba, bl, e⟩ := sendBlocked_spec c id { s with send := b } n m
  rw [e]
  simp only
  have hk' : ({ s with send := { b with blockedAt := ba } } : Stream).key.id = id := hk
  generalize ({ s with send := { b with blockedAt := ba } } : Stream) = s' at hk'
  have h1 : Queued ((({ c with blocked := bl } : Conn).put id s').sendQueues s' s.isWritable s.isFlushable x y) := by
    unfold sendQueues Queued
    simp only [streams_ite, flushable_ite, removeWritable_flushable, insertWritable_flushable, ite_self, insertFlushable_flushable, put_flushable,
      removeWritable_streams, insertWritable_streams, insertFlushable_streams, put_streams]
    refine Qd.put hq ?_ ?_
    · intro hf
      split
      · rw [linked_qadd]; exact .inl hk'
      · next h1 =>
        simp only [Stream.isFlushable, Bool.and_eq_true, Bool.not_eq_true', not_and, Bool.not_eq_false] at h1
        exact hq id s hg (h1 (by rw [hf]; rfl))
    · intro j _ hj
      split
      · rw [linked_qadd]; exact .inr hj
      · exact hj
  generalize (({ c with blocked := bl } : Conn).put id s').sendQueues s' s.isWritable s.isFlushable x y = c1 at h1
  split
  · exact h1
  · split
    · exact h1
    · exact h1.of_eq (by simp) (by simp)

theorem sendData_qd (hI : Inv c h gone) (hq : Queued c) (id : Nat) (data : Bytes) (fin : Bool) : Queued (c.sendData id data fin).1 := by
  unfold sendData
  split
  · exact hq
  · split
    · exact hq
    · simp only
      have hb : ∃ b, (if c.maxTxData - c.txData < data.length then { c with blockedLimit := some c.maxTxData } else c) =
          ({ c with blockedLimit := b } : Conn) := by
        split
        · exact ⟨_, rfl⟩
        · exact ⟨c.blockedLimit, rfl⟩
      obtain ⟨b, hb⟩ := hb
      rw [hb]
      have hI' : Inv ({ c with blockedLimit := b } : Conn) h gone := hI.other (by constructor <;> rfl) (by constructor <;> rfl) (by constructor <;> rfl)
          (fun f hf => .inl hf) rfl rfl rfl rfl
      split
      · exact hq
      · next c1 s he =>
        obtain ⟨hq, hI, hg⟩ := Queued.lookup hI' hq he
        split
        · simp only
          split
          · exact hq.collect hI _ _
          · exact hq
        · exact hq
        · split
          · exact hq.of_eq (by simp) (by simp)
          · by_cases hlt : c.txCap < data.length <;> simp only [hlt, if_true, if_false] <;> split
            all_goals first
              | exact hq
              | exact sendTail_qd hI hq hg _ _ _ _ _

theorem ite_collect_qd (hI : Inv c h gone) (hq : Queued c) (p : Prop) [Decidable p] (id : Nat) (s : Stream) :
    Queued (if p then c.collect id s else c) := by
  split
  · exact hq.collect hI _ _
  · exact hq

theorem recvData_qd (hI : Inv c h gone) (hq : Queued c) (id cap : Nat) : Queued (c.recvData id cap).1 := by
  unfold recvData
  split
  · exact hq
  · cases hg : c.get id with
    | none => exact hq
    | some s =>
      simp only
      have hput : ∀ r, Queued (c.put id { s with recv := r }) := fun r =>
        hq.same (s' := { s with recv := r }) hg rfl rfl (fun x => x)
      have hcol : ∀ r i s', Queued ((c.put id { s with recv := r }).collect i s') := by
        intro r i s'
        unfold Queued
        simp only [collect_streams, collect_flushable]
        refine Qd.del (hput r) ?_ i
        simp only [put_streams]
        exact Assoc.nodup_put hI.shape.wf.ndL _ _
      split
      · exact hq
      · split
        · next r _ =>
          refine Queued.of_eq (c := if _ then (c.put id { s with recv := r }).collect id { s with recv := r } else c.put id { s with recv := r })
            ?_ (removeReadable_streams _ _) (removeReadable_flushable _ _)
          split
          · exact hcol r _ _
          · exact hput r
        · next r _ =>
          split
          · exact hput r
          · next af _ =>
            split
            · refine Queued.of_eq (hcol r id { s with recv := r }) ?_ ?_
              · simp [streams_ite]
              · simp
            · refine Queued.of_eq (hput r) ?_ ?_
              · simp [streams_ite]
              · simp

theorem shutRead_qd (hq : Queued c) (id code : Nat) : Queued (c.shutRead id code).1 := by
  unfold shutRead
  split
  · exact hq
  · cases hg : c.get id with
    | none => exact hq
    | some s =>
      simp only
      split
      · next r _ => exact hq.same (c' := ((c.put id { s with recv := r }).die).1) hg rfl rfl (fun x => x)
      · exact hq
      · next r _ => exact hq.same (s' := { s with recv := r }) hg (by simp) (by simp) (fun x => x)

theorem shutWrite_qd (hI : Inv c h gone) (hq : Queued c) (id code w : Nat) : Queued (c.shutWrite id code w).1 := by
  unfold shutWrite
  split
  · exact hq
  · cases hg : c.get id with
    | none => exact hq
    | some s =>
      obtain ⟨W, hW⟩ := (hI.tx.live id s hg).inv
      simp only
      rcases SendBuf.shutdown_spec hW with ⟨-, e⟩ | ⟨-, b, e, hc, -⟩
      · rw [e]; exact hq
      · rw [e]
        simp only
        split
        · exact hq.same (s' := { s with send := b }) hg (by rfl) rfl (by simp [isFlushable_cut hc])
        · next h2 =>
          have e1 := subTxBuffered_streams h2
          have e2 := subTxBuffered_flushable h2
          split
          · exact hq.same (s' := { s with send := b }) hg e1 e2 (by simp [isFlushable_cut hc])
          · next h3 =>
            have e3 := updateTxCap_streams h3
            have e4 := updateTxCap_flushable h3
            exact hq.same (s' := { s with send := b }) hg (e3.trans e1) (e4.trans e2) (by simp [isFlushable_cut hc])

theorem capacity_qd (hI : Inv c h gone) (hq : Queued c) (id : Nat) : Queued (c.capacity id).1 := by
  unfold capacity
  split
  · exact hq
  · split
    · exact hq
    · exact ite_collect_qd hI hq _ _ _
    · exact hq

theorem isWritable_qd (hI : Inv c h gone) (hq : Queued c) (id len : Nat) : Queued (c.isWritable id len).1 := by
  have hc := capacity_qd hI hq id
  unfold isWritable
  generalize c.capacity id = r at hc
  obtain ⟨c1, ev⟩ := r
  split
  · next h =>
    cases h
    split
    · exact hc
    · split
      · exact hc
      · next s hg =>
        simp only
        have key : ∀ (c' : Conn), c'.streams = Assoc.put c1.streams id { s with sendLowat := max 1 len } →
            c'.flushable = c1.flushable → Queued c' := by
          intro c' h2 h3
          exact Queued.same hc hg h2 h3 (fun x => x)
        have key2 : ∀ (c' : Conn) b, c'.streams = Assoc.put (Assoc.put c1.streams id { s with sendLowat := max 1 len }) id
              { s with sendLowat := max 1 len, send := { s.send with blockedAt := b } } →
            c'.flushable = c1.flushable → Queued c' := by
          intro c' b h2 h3
          rw [Assoc.put_put] at h2
          exact Queued.same hc hg h2 h3 (fun x => x)
        split
        · exact key _ rfl rfl
        · repeat' split
          all_goals first
            | exact key _ rfl rfl
            | exact key2 _ _ rfl rfl
            | exact key _ (by simp) (by simp)
  · exact hc

theorem writableNext_qd (hq : Queued c) : Queued c.writableNext.1 := by
  unfold writableNext
  split
  · exact hq
  · split <;> exact hq

theorem readableNext_qd (hq : Queued c) : Queued c.readableNext.1 := by
  unfold readableNext
  split <;> exact hq

theorem outMaxStreams_qd (hq : Queued c) (b fits : Bool) : Queued (c.outMaxStreams b fits).1 := by
  cases b
  · rcases outMaxStreams_false c fits with e | e <;> rw [e] <;> exact hq
  · rcases outMaxStreams_true c fits with e | e <;> rw [e] <;> exact hq

theorem outMaxStreamData_qd (hq : Queued c) (id now rtt : Nat) (fits : Bool) :
    Queued (c.outMaxStreamData id now rtt fits).1 := by
  unfold outMaxStreamData
  split
  · exact hq
  · cases hg : c.get id with
    | none => exact hq
    | some s =>
      simp only
      split
      · exact hq
      · next af _ =>
        split
        · refine hq.same (s' := { s with recv := (if af then s.recv.autotuneWindow now rtt else s.recv).updateMaxData now }) hg ?_ rfl (fun x => x)
          simp [Assoc.put_put]
        · exact hq.same (s' := { s with recv := if af then s.recv.autotuneWindow now rtt else s.recv }) hg rfl rfl (fun x => x)

theorem outMaxData_qd (hq : Queued c) (now rtt : Nat) (fits : Bool) : Queued (c.outMaxData now rtt fits).1 := by
  unfold outMaxData
  split
  · exact hq
  · simp only
    repeat' split
    all_goals exact hq

theorem outStop_qd (hq : Queued c) (id : Nat) (fits : Bool) : Queued (c.outStop id fits).1 := by
  unfold outStop
  split
  · exact hq
  · split <;> exact hq

theorem outReset_qd (hq : Queued c) (id : Nat) (fits : Bool) : Queued (c.outReset id fits).1 := by
  unfold outReset
  split
  · exact hq
  · split <;> exact hq

theorem collectAcked_qd (hn : (Assoc.keys c.streams).Nodup) (hq : Queued c) (id : Nat) (s : Stream) : Queued (c.collectAcked id s) := by
  unfold collectAcked
  split
  · unfold Queued
    simp only [collect_streams, collect_flushable]
    exact Qd.del hq hn id
  · exact hq

theorem acked_qd (hI : Inv c h gone) (hq : Queued c) (i : Nat) : Queued (c.acked i).1 := by
  unfold acked
  split
  · next id off len fin hf =>
    cases hg : c.get id with
    | none => exact hq
    | some s =>
      simp only
      obtain ⟨W, hW⟩ := (hI.tx.live id s hg).inv
      have hE := hI.ends_eq hg
      have hfo : off + len ≤ s.send.emitOff := by
        have := hI.tx.fr _ (List.mem_of_getElem? hf)
        simp only [FrameOk] at this; omega
      obtain ⟨b, n, e, ht⟩ := SendBuf.ackAndDrop_spec hW hfo
      rw [e]
      simp only
      have h1 : Queued (c.put id { s with send := b }) := by
        refine hq.same hg rfl rfl ?_
        show b.isFlushable = true → _
        rw [ht.inv.flushable, hW.flushable]
        exact fun ⟨o, ho⟩ => ⟨o, ht.pend o ho⟩
      have h2 := collectAcked_qd (by simpa using Assoc.nodup_put hI.shape.wf.ndL _ _) h1 id { s with send := b }
      split
      · exact h2
      · next h3 => exact h2.of_eq (subTxBuffered_streams h3) (subTxBuffered_flushable h3)
  · split
    · exact hq
    · exact collectAcked_qd hI.shape.wf.ndL hq _ _
  · exact hq

theorem lost_qd (hI : Inv c h gone) (hq : Queued c) (i : Nat) : Queued (c.lost i).1 := by
  unfold lost
  split
  · next id off len fin hf =>
    cases hg : c.get id with
    | none => exact hq
    | some s =>
      have hk := (hI.static hg).key
      simp only
      split
      · exact hq
      · split
        · exact hq
        · next b n _ =>
          unfold Queued
          simp only [streams_ite, flushable_ite, insertFlushable_streams, insertFlushable_flushable, put_flushable, put_streams, ite_self]
          refine Qd.put hq ?_ ?_
          · intro h1
            split
            · rw [linked_qadd]; exact .inl hk
            · next h2 =>
              simp only [Stream.isFlushable, Bool.and_eq_true, Bool.not_eq_true', not_and, Bool.not_eq_false] at h2
              exact hq id s hg (h2 (by rw [h1]; rfl))
          · intro j _ hj
            split
            · rw [linked_qadd]; exact .inr hj
            · exact hj
  · exact hq
  · split
    · exact hq
    · split <;> exact hq
  · split
    · exact hq.of_eq (by simp) (by simp)
    · exact hq
  · exact hq
  · exact hq
  · exact hq
  · exact hq

theorem priority_qd (hI : Inv c h gone) (hq : Queued c) (id u : Nat) (inc : Bool) : Queued (c.priority id u inc).1 := by
  unfold priority
  split
  · exact hq
  · exact hq
  · next c1 s he =>
    obtain ⟨hq, hI, hg⟩ := hq.lookup hI he
    split
    · exact hq
    · show Qd (Assoc.put c1.streams id _) (rekey _ c1.flushable)
      refine Qd.put hq ?_ ?_
      · intro h1; rw [linked_rekey]; exact hq id s hg h1
      · intro j _ hj; rw [linked_rekey]; exact hj

/-- The largest header of a STREAM frame. -/
theorem varintLen_le (v : Nat) : varintLen v ≤ 8 := by
  unfold varintLen; repeat' split
  all_goals omega

theorem outStreamLoop_qd {left : Nat} (hl : 19 ≤ left) : ∀ (fuel : Nat) (c : Conn),
    (∀ id s, c.get id = some s → s.key.id = id ∧ SendOk s) → Queued c → QOk c.streams c.flushable →
    c.flushable.length ≤ fuel →
    Queued (outStreamLoop left fuel c).1 ∧
    ((∃ id s, c.get id = some s ∧ s.send.isFlushable = true) → (outStreamLoop left fuel c).1.crashed = c.crashed →
      c.crashed = false → ∃ id off data fin, (outStreamLoop left fuel c).2 = .sentStream id off data fin) := by
  intro fuel
  induction fuel with
  | zero =>
    intro c _ hq _ hlen
    refine ⟨hq, ?_⟩
    rintro ⟨id, s, hg, hs⟩
    have := hq id s hg hs
    rw [List.length_eq_zero_iff.mp (Nat.le_zero.mp hlen)] at this
    simp [linked] at this
  | succ fuel ih =>
    intro c hk hq hok hlen
    unfold outStreamLoop
    cases hql : c.flushable with
    | nil =>
      simp only
      refine ⟨hq, ?_⟩
      rintro ⟨id, s, hg, hs⟩
      have := hq id s hg hs
      rw [hql] at this
      simp [linked] at this
    | cons k t =>
      simp only
      obtain ⟨s, hg, hks⟩ := hok.live k (by rw [hql]; exact List.mem_cons_self)
      have hg : c.get k.id = some s := hg
      have hn' : k.id ∉ t.map (·.id) ∧ (t.map (·.id)).Nodup := by have := hok.ord.nd; rw [hql] at this; simpa using this
      have hrm : (c.removeFlushable k.id).flushable = t := by
        simp only [removeFlushable, hql]; exact qdel_head hn'.1
      rw [hg]
      simp only
      obtain ⟨hkey, hso⟩ := hk _ _ hg
      obtain ⟨W, hW⟩ := hso.inv
      split
      · next hst =>
        have hnf : s.send.isFlushable = false := by
          rcases hW.state with h1 | h1
          · simp [SendBuf.isStopped, h1.1] at hst
          · simp [SendBuf.isFlushable, h1.1]
        refine ih (c.removeFlushable k.id) hk ?_ (hok.qdel k.id) ?_
        · intro id s' hg' hs'
          simp only [removeFlushable_flushable, linked_qdel]
          refine ⟨?_, hq id s' hg' hs'⟩
          rintro rfl
          have hg' : c.get k.id = some s' := hg'
          rw [hg] at hg'; cases hg'
          rw [hnf] at hs'; cases hs'
        · rw [hrm]; rw [hql] at hlen; simpa using hlen
      · next hst =>
        have h1 := varintLen_le k.id
        have h2 := varintLen_le s.send.offFront
        rw [if_neg (by omega)]
        obtain ⟨b, out, fin, e, ht⟩ := SendBuf.emit_spec hW (left - (1 + varintLen k.id + varintLen s.send.offFront + 2))
        rw [e]
        simp only
        generalize hc1 : (if (!({ s with send := b } : Stream).isFlushable) = true then _ else _ : Conn) = c1
        have hc1q : Queued c1 := by
          rw [← hc1]
          unfold Queued
          simp only [streams_ite, flushable_ite, insertFlushable_streams, insertFlushable_flushable, put_flushable, put_streams,
            removeFlushable_streams, removeFlushable_flushable, ite_self]
          refine Qd.put hq ?_ ?_
          · intro h1
            have h1' : ({ s with send := b } : Stream).isFlushable = true := h1
            rw [if_neg (by simp [h1'])]
            split
            · rw [linked_qadd]; exact .inl hkey
            · rw [hql]; simp [linked]
          · intro j hj h1
            have h3 : linked (qdel k.id c.flushable) j = true := linked_qdel.mpr ⟨hj, h1⟩
            split
            · exact h3
            · split
              · rw [linked_qadd]; exact .inr h3
              · exact h1
        split
        · refine ⟨hc1q, ?_⟩
          intro _ h1 h2
          rw [h2] at h1; simp [die] at h1
        · next c2 h2 => exact ⟨hc1q.of_eq (subTxBuffered_streams h2) (subTxBuffered_flushable h2), fun _ _ _ => ⟨_, _, _, _, rfl⟩⟩

/-- Building a packet does not panic. -/
theorem outStreamLoop_alive (left : Nat) (fuel : Nat) : ∀ {c : Conn}, Inv c h gone →
    (outStreamLoop left fuel c).1.crashed = c.crashed := by
  induction fuel with
  | zero => intro c hI; rfl
  | succ fuel ih =>
    intro c hI
    unfold outStreamLoop
    split
    · rfl
    · next k t hq =>
      cases hg : c.get k.id with
      | none => exact ih (hI.removeFlushable k.id)
      | some s =>
        simp only
        split
        · exact ih (hI.removeFlushable k.id)
        split
        · exact ih (hI.removeFlushable k.id)
        obtain ⟨W, hW⟩ := (hI.tx.live _ s hg).inv
        obtain ⟨b, out, fin, e, ht⟩ := SendBuf.emit_spec hW (left - (1 + varintLen k.id + varintLen s.send.offFront + 2))
        rw [e]
        simp only
        obtain ⟨c3, e3, hsafe⟩ := emit_safe hI hg hW e ht left
        rw [e3]
        rcases hsafe with ⟨-, h1, -⟩ | ⟨h1, -⟩
        · exact h1
        · cases h1

/-- A packet has room for a STREAM frame header of any size, or for none. -/
def _root_.Verif.Conn.Op.Roomy : Op → Prop
  | .outStream left => left ≤ 12 ∨ 19 ≤ left
  | _ => True

theorem step_qd (hI : Inv c h gone) (hq : Queued c) {op : Op} (hr : op.Roomy) : Queued (c.step op).1 := by
  unfold step
  split
  · exact hq
  cases op with
  | recvStream id off data fin => exact recvStream_qd hI hq id off data fin
  | recvReset id code F => exact recvReset_qd hI hq id code F
  | recvStop id code => exact recvStop_qd hI hq id code
  | recvMaxData m => exact hq
  | recvMaxStreamData id m => exact recvMaxStreamData_qd hI hq id m
  | recvMaxStreams b m => exact recvMaxStreams_qd hq b m
  | peerParams p d b u w => exact peerParams_qd hq p d b u w
  | recvDone w =>
    simp only
    split
    · exact hq
    · next h => exact hq.of_eq (updateTxCap_streams h) (updateTxCap_flushable h)
  | send id data fin => exact sendData_qd hI hq id data fin
  | recv id cap => exact recvData_qd hI hq id cap
  | shutRead id code => exact shutRead_qd hq id code
  | shutWrite id code w => exact shutWrite_qd hI hq id code w
  | capacity id => exact capacity_qd hI hq id
  | isWritable id len => exact isWritable_qd hI hq id len
  | writableNext => exact writableNext_qd hq
  | readableNext => exact readableNext_qd hq
  | priority id u inc => exact priority_qd hI hq id u inc
  | outStream left =>
    simp only
    unfold outStream
    split
    · next hl =>
      have hl : 19 ≤ left := by
        rcases hr with h1 | h1
        · have : ¬ left > maxStreamOverhead := by show ¬ left > 12; omega
          contradiction
        · exact h1
      exact (outStreamLoop_qd hl _ c (fun id s hg => ⟨(hI.static hg).key, hI.tx.live id s hg⟩) hq hI.shape.flushable
        (Nat.le_refl _)).1
    · exact hq
  | outMaxStreams b fits => exact outMaxStreams_qd hq b fits
  | outMaxStreamData id now rtt fits => exact outMaxStreamData_qd hq id now rtt fits
  | outMaxData now rtt fits => exact outMaxData_qd hq now rtt fits
  | outStop id fits => exact outStop_qd hq id fits
  | outReset id fits => exact outReset_qd hq id fits
  | acked i => exact acked_qd hI hq i
  | lost i => exact lost_qd hI hq i

theorem run_qd {ops : List Op} (hI : Inv c h gone) (hq : Queued c) (hok : ∀ op ∈ ops, op.Ok) (hr : ∀ op ∈ ops, op.Roomy) :
    Queued (c.run ops).1 ∨ (c.run ops).1.crashed = true := by
  induction ops generalizing c h with
  | nil => exact .inl hq
  | cons op ops ih =>
    rcases step_safe hI (hok op List.mem_cons_self) with ⟨-, -, hI1⟩ | ⟨-, hcr, -⟩
    · exact ih hI1 (step_qd hI hq (hr op List.mem_cons_self)) (fun o ho => hok o (List.mem_cons_of_mem _ ho))
        (fun o ho => hr o (List.mem_cons_of_mem _ ho))
    · right
      show ((c.step op).1.run ops).1.crashed = true
      rw [(run_crashed hcr ops).1]; exact hcr

end Conn
end Verif.Conn
