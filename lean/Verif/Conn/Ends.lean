import Verif.Conn.Debt

/-!
`stream_finished` and `stream_closed` (`/repo/quiche/src/lib.rs:6540-6578`) over the model of
`Conn/Model.lean`, and what the operations of a connection never undo about the ends of its
streams. `stream_finished` is `Conn.finished` (`Conn/Debt.lean`).
-/

namespace Verif.Stream.RecvBuf

theorem isFin_iff {r : RecvBuf} : r.isFin = true ↔ r.finOff = some r.off := by simp [isFin]

theorem write_isFin {r : RecvBuf} (hI : RInv r) (d : Bytes) (o : Nat) (f : Bool) (h : r.isFin = true) :
    (r.write (.mk' d o f)).2.isFin = true := by
  rcases write_spec hI (RangeBuf.wf_mk' d o f) rfl with ⟨-, e⟩ | ⟨-, -, e⟩ | ⟨-, hb, r', e, hw⟩
  · rw [e]; exact h
  · rw [e]; exact h
  · rw [e]
    have h0 := isFin_iff.1 h
    have h1 := hI.fin _ h0
    have hb1 : ¬ (r.off < (RangeBuf.mk' d o f).maxOff ∨ ((RangeBuf.mk' d o f).fin = true ∧ r.off ≠ (RangeBuf.mk' d o f).maxOff)) :=
      fun hx => hb (.inl ⟨_, h0, hx⟩)
    have hfin : r'.finOff = some r.off := by
      rw [hw.finOff]
      split
      · next hf =>
        by_cases e : r.off = (RangeBuf.mk' d o f).maxOff
        · rw [e]
        · exact absurd (.inr ⟨hf, e⟩) hb1
      · exact h0
    have h2 := hw.inv.fin _ hfin
    refine isFin_iff.2 ?_
    show r'.finOff = some r'.off
    rw [hfin, hw.off]
    split
    · rw [h2]
    · rfl

theorem emit_isFin {r : RecvBuf} (hI : RInv r) (cap : Nat) (h : r.isFin = true) : (r.emit cap).2.isFin = true := by
  have h0 := isFin_iff.1 h
  have h1 := hI.fin _ h0
  rcases emit_spec hI cap with ⟨-, e⟩ | ⟨-, _, -, e, -⟩ | ⟨-, out, fin, r', e, hr⟩
  · rw [e]; exact h
  · rw [e]; exact h
  · rw [e]
    have h2 := hr.inv.offlen
    have h3 := hr.off
    have h4 := hr.len
    refine isFin_iff.2 ?_
    show r'.finOff = some r'.off
    rw [hr.finOff, h0, show r'.off = r.off by omega]

theorem emit_nothing {r : RecvBuf} (hI : RInv r) (cap : Nat) (h : r.isFin = true) {out : Bytes} {f : Bool}
    (he : (r.emit cap).1 = .ok (out, f)) : out = [] := by
  have h0 := isFin_iff.1 h
  have h1 := hI.fin _ h0
  rcases emit_spec hI cap with ⟨-, e⟩ | ⟨-, _, -, e, -⟩ | ⟨-, out', fin, r', e, hr⟩
  · rw [e] at he; cases he
  · rw [e] at he; cases he
  · rw [e] at he; cases he
    have h2 := hr.inv.offlen
    have h3 := hr.off
    have h4 := hr.len
    exact List.eq_nil_of_length_eq_zero (by omega)

theorem reset_isFin {r : RecvBuf} (hI : RInv r) (code F : Nat) (h : r.isFin = true) : (r.reset code F).2.isFin = true := by
  have h0 := isFin_iff.1 h
  have h1 := hI.fin _ h0
  rcases reset_spec hI code F with ⟨-, e⟩ | ⟨hG, -, hm, -⟩ | ⟨-, -, -, ret, r', e, hr⟩
  · rw [e]; exact h
  · have := hG _ h0
    have := hI.lim
    omega
  · rw [e]
    refine isFin_iff.2 ?_
    show r'.finOff = some r'.off
    rw [hr.finOff, hr.allRead]

theorem shutdown_isFin {r : RecvBuf} (hI : RInv r) (h : r.isFin = true) : r.shutdown.2.isFin = true := by
  have h0 := isFin_iff.1 h
  have h1 := hI.fin _ h0
  rcases shutdown_spec hI with ⟨-, e⟩ | ⟨-, r', e, -, h2, h3, -, -, h4, -⟩
  · rw [e]; exact h
  · rw [e]
    refine isFin_iff.2 ?_
    show r'.finOff = some r'.off
    rw [h4, h0, h2, h1]

theorem write_back {r : RecvBuf} (hI : RInv r) (d : Bytes) (o : Nat) (f : Bool)
    (h : (r.write (.mk' d o f)).2.finOff.isSome = true) : f = true ∨ r.finOff.isSome = true := by
  rcases write_spec hI (RangeBuf.wf_mk' d o f) rfl with ⟨-, e⟩ | ⟨-, -, e⟩ | ⟨-, -, r', e, hw⟩
  · rw [e] at h; exact .inr h
  · rw [e] at h; exact .inr h
  · rw [e] at h
    simp only at h
    rw [hw.finOff] at h
    split at h
    · next hf => exact .inl hf
    · exact .inr h

theorem emit_back {r : RecvBuf} (hI : RInv r) (cap : Nat) : (r.emit cap).2.finOff = r.finOff := by
  rcases emit_spec hI cap with ⟨-, e⟩ | ⟨-, _, -, e, -⟩ | ⟨-, out, fin, r', e, hr⟩
  · rw [e]
  · rw [e]
  · rw [e]; exact hr.finOff

theorem shutdown_back {r : RecvBuf} (hI : RInv r) : r.shutdown.2.finOff = r.finOff := by
  rcases shutdown_spec hI with ⟨-, e⟩ | ⟨-, r', e, -, -, -, -, -, h4, -⟩
  · rw [e]
  · rw [e]; exact h4

end Verif.Stream.RecvBuf

namespace Verif.Conn
open Verif Verif.Stream

/-- What no operation undoes about the ends of a stream; and the end of the receiving side is
not made up unless `P`. -/
structure Held (P : Prop) (s s' : Stream) : Prop where
  recv : s.recv.isFin = true → s'.recv.isFin = true
  send : s.send.finOff.isSome = true → s'.send.finOff.isSome = true
  bidi : s'.bidi = s.bidi
  loc : s'.local' = s.local'
  back : s'.recv.finOff.isSome = true → P ∨ s.recv.finOff.isSome = true

theorem Held.rfl' {P : Prop} {s : Stream} : Held P s s := ⟨fun h => h, fun h => h, rfl, rfl, .inr⟩

theorem Held.trans {P : Prop} {s s' s'' : Stream} (h1 : Held P s s') (h2 : Held P s' s'') : Held P s s'' :=
  ⟨fun h => h2.recv (h1.recv h), fun h => h2.send (h1.send h), h2.bidi.trans h1.bidi, h2.loc.trans h1.loc,
    fun h => (h2.back h).elim .inl h1.back⟩

theorem Held.ofRecv {P : Prop} {s : Stream} {r : RecvBuf} (h : s.recv.isFin = true → r.isFin = true)
    (hb : r.finOff.isSome = true → P ∨ s.recv.finOff.isSome = true) : Held P s { s with recv := r } :=
  ⟨h, fun h => h, rfl, rfl, hb⟩

theorem Held.cut {P : Prop} {s : Stream} {W : Bytes} {b : SendBuf} (h : SendBuf.Cut s.send W b) : Held P s { s with send := b } :=
  ⟨fun h => h, fun _ => by show b.finOff.isSome = true; rw [h.finOff]; rfl, rfl, rfl, .inr⟩

theorem Held.took {P : Prop} {s : Stream} {W d : Bytes} {len n : Nat} {fin : Bool} {b : SendBuf}
    (h : SendBuf.Took s.send W d len fin b n) : Held P s { s with send := b } := by
  refine ⟨fun h => h, fun hF => ?_, rfl, rfl, .inr⟩
  show b.finOff.isSome = true
  rw [h.finOff]
  split
  · rfl
  · exact hF

theorem Held.same {P : Prop} {s s' : Stream} (h1 : s'.send.finOff = s.send.finOff) (h2 : s'.recv = s.recv)
    (h3 : s'.bidi = s.bidi) (h4 : s'.local' = s.local') : Held P s s' :=
  ⟨fun h => by rw [h2]; exact h, fun h => by rw [h1]; exact h, h3, h4, fun h => by rw [h2] at h; exact .inr h⟩

theorem Held.mono {P Q : Prop} (hPQ : P → Q) {s s' : Stream} (h : Held P s s') : Held Q s s' :=
  { h with back := fun hx => (h.back hx).imp_left hPQ }

namespace Conn
variable {c c' c'' : Conn} {h : Hist} {gone : List Nat} {F : Nat → Prop}

/-- A change that undoes none of this, unless the connection is closed. `F` says of which
streams the peer has announced the end. -/
structure Firm (F : Nat → Prop) (c c' : Conn) : Prop where
  look : c'.dead = false → ∀ id s, c.look id = some s → ∃ s', c'.look id = some s' ∧ Held (F id) s s'
  fresh : c'.dead = false → ∀ id s', c.look id = none → c'.look id = some s' → s'.recv.finOff.isSome = true → F id
  dead : c.dead = true → c'.dead = true

theorem Firm.of_look (h1 : ∀ id, c'.look id = c.look id) (h2 : c'.dead = c.dead) : Firm F c c' :=
  ⟨fun _ id s h => ⟨s, (h1 id).trans h, .rfl'⟩, fun _ id s' h h' => (by rw [h1, h] at h'; exact nomatch h'), fun h => h2.trans h⟩

theorem Firm.rfl' : Firm F c c := .of_look (fun _ => rfl) rfl

theorem Firm.alive (h : Firm F c c') (hd : c'.dead = false) : c.dead = false := by
  cases e : c.dead with
  | false => rfl
  | true => rw [h.dead e] at hd; cases hd

theorem Firm.mono {G : Nat → Prop} (hFG : ∀ id, F id → G id) (h : Firm F c c') : Firm G c c' := by
  refine ⟨fun hd id s hs => ?_, fun hd id s' h1 h2 h3 => hFG _ (h.fresh hd id s' h1 h2 h3), h.dead⟩
  obtain ⟨s', e, k⟩ := h.look hd id s hs
  exact ⟨s', e, k.mono (hFG id)⟩

theorem Firm.trans (h1 : Firm F c c') (h2 : Firm F c' c'') : Firm F c c'' := by
  refine ⟨fun hd id s h => ?_, fun hd id s' e1 e2 e3 => ?_, fun h => h2.dead (h1.dead h)⟩
  · obtain ⟨s1, e1, k1⟩ := h1.look (h2.alive hd) id s h
    obtain ⟨s2, e2, k2⟩ := h2.look hd id s1 e1
    exact ⟨s2, e2, k1.trans k2⟩
  · cases e : c'.look id with
    | none => exact h2.fresh hd id s' e e2 e3
    | some s1 =>
      obtain ⟨s2, e4, k⟩ := h2.look hd id s1 e
      rw [e2] at e4; cases e4
      exact (k.back e3).elim (fun h => h) (h1.fresh (h2.alive hd) id s1 e1 e)

theorem Firm.of_eq (h1 : c'.streams = c.streams) (h2 : c'.collected = c.collected)
    (h4 : c'.dead = c.dead) : Firm F c c' :=
  .of_look (fun id => by unfold Conn.look get; rw [h1, h2]) h4

theorem Firm.put {id : Nat} {s s' : Stream} (hg : c.get id = some s) (h1 : c'.streams = Assoc.put c.streams id s')
    (h2 : c'.collected = c.collected) (h4 : c'.dead = c.dead) (hk : c.dead = false → Held (F id) s s') : Firm F c c' := by
  have hne : ∀ j, ¬ id = j → c'.look j = c.look j := by
    intro j e
    unfold Conn.look get
    simp only [h1, h2, Assoc.get_put, e, if_false]
  have heq : c'.look id = some s' := look_live (by unfold get; rw [h1, Assoc.get_put, if_pos rfl])
  refine ⟨fun hd j t h => ?_, fun hd j t h1 h2 => ?_, fun h => h4.trans h⟩
  · by_cases e : id = j
    · subst e
      rw [look_live hg] at h; cases h
      exact ⟨s', heq, hk (h4.symm.trans hd)⟩
    · exact ⟨t, (hne j e).trans h, .rfl'⟩
  · by_cases e : id = j
    · subst e; rw [look_live hg] at h1; cases h1
    · rw [hne j e, h1] at h2; cases h2

theorem collect_look (hn : (Assoc.keys c.streams).Nodup) {id : Nat} {s : Stream} (hg : c.get id = some s) (j : Nat) :
    (c.collect id s).look j = c.look j := by
  by_cases e : j = id
  · subst e
    rw [look_live hg]
    unfold Conn.look get
    simp only [collect_streams, collect_collected, Assoc.get_put]
    simp [Assoc.get_del_self hn]
  · unfold Conn.look get
    simp only [collect_streams, collect_collected, Assoc.get_put]
    have e' : ¬ id = j := fun h => e h.symm
    rw [Assoc.get_del_ne _ e]
    simp only [e', if_false]

theorem Firm.collect (hn : (Assoc.keys c.streams).Nodup) {id : Nat} {s : Stream} (hg : c.get id = some s) :
    Firm F c (c.collect id s) := .of_look (collect_look hn hg) (by simp)

theorem Firm.lookup (hI : Inv c h gone) {id : Nat} {loc : Bool} {s : Stream} (he : c.getOrCreate id loc = .ok (c', s)) :
    Firm F c c' ∧ Inv c' h gone ∧ c'.get id = some s := by
  obtain ⟨hk, hI', hg⟩ := Calm.lookup hI he
  refine ⟨?_, hI', hg⟩
  rcases getOrCreate_spec hI.shape id loc with ⟨s, h1, h2⟩ | ⟨_, _, h2⟩ | ⟨_, _, _, h2⟩ | ⟨_, _, _, _, h2⟩ |
    ⟨_, c', s, h2, h3⟩
  · rw [h2] at he; cases he; exact .rfl'
  · rw [h2] at he; cases he
  · rw [h2] at he; cases he
  · rw [h2] at he; cases he
  · rw [h2] at he; cases he
    have hne : ∀ j, ¬ id = j → c'.look j = c.look j := by
      intro j e
      unfold Conn.look get
      rw [h3.streams, h3.collected', Assoc.get_put, if_neg e]
    have hno : c.look id = none := by unfold Conn.look; rw [h3.none]; exact h3.noneG
    refine ⟨fun _ j t h => ⟨t, ?_, .rfl'⟩, fun _ j t h1 h2 h4 => ?_, fun h => h3.dead'.trans h⟩
    · by_cases e : id = j
      · subst e; rw [hno] at h; cases h
      · exact (hne j e).trans h
    · by_cases e : id = j
      · subst e
        rw [look_live hg] at h2; cases h2
        exact absurd h4 (by rw [h3.stream]; simp [Conn.fresh, Stream.new, RecvBuf.new])
      · rw [hne j e, h1] at h2; cases h2

theorem Firm.close (c : Conn) (e : CErr) : Firm F c (c.close e).1 := by
  unfold Conn.close; split
  · exact .of_eq rfl rfl rfl
  · exact ⟨fun hd => Bool.noConfusion hd, fun hd => Bool.noConfusion hd, fun _ => rfl⟩

theorem subTxBuffered_firm {n : Nat} (h : c.subTxBuffered n = some c') : Firm F c c' := by
  unfold subTxBuffered at h; split at h <;> cases h; exact .of_eq rfl rfl rfl

theorem updateTxCap_firm {n : Nat} (h : c.updateTxCap n = some c') : Firm F c c' := by
  unfold updateTxCap at h; split at h <;> cases h; exact .of_eq rfl rfl rfl

/-- The receiving side of a stream of a connection that is not closed. -/
theorem Inv.rinv (hI : Inv c h gone) (hd : c.dead = false) {id : Nat} {s : Stream} (hg : c.get id = some s) :
    RecvBuf.RInv s.recv := ((hI.rx hd).live id s hg).inv

theorem recvStream_firm (hI : Inv c h gone) (id off : Nat) (data : Bytes) (fin : Bool) (hF : fin = true → F id) :
    Firm F c (c.recvStream id off data fin).1 := by
  unfold recvStream
  split
  · exact .close _ _
  · split
    · exact .of_eq rfl rfl rfl
    · simp only
      split
      · exact .rfl'
      · exact .close _ _
      · next c1 s he =>
        obtain ⟨hc, hI, hg⟩ := Firm.lookup hI he
        have hw : c1.dead = false → s.recv.isFin = true → (s.recv.write (.mk' data off fin)).2.isFin = true :=
          fun hd => RecvBuf.write_isFin (Inv.rinv hI hd hg) data off fin
        have hb : c1.dead = false → (s.recv.write (.mk' data off fin)).2.finOff.isSome = true → F id ∨ s.recv.finOff.isSome = true :=
          fun hd hx => (RecvBuf.write_back (Inv.rinv hI hd hg) data off fin hx).imp_left hF
        split
        · exact hc.trans (.close _ _)
        · split
          · next r hr =>
            rw [hr] at hw hb; simp only at hw hb
            exact hc.trans ((Firm.put (c' := c1.put id { s with recv := r }) hg rfl rfl rfl (fun hd => .ofRecv (hw hd) (hb hd))).trans (.close _ _))
          · next r hr =>
            rw [hr] at hw hb; simp only at hw hb
            refine hc.trans (Firm.put (s' := { s with recv := r }) hg (by simp) ?_ ?_ (fun hd => .ofRecv (hw hd) (hb hd)))
            all_goals repeat' split
            all_goals simp

theorem recvReset_firm (hI : Inv c h gone) (id code n : Nat) (hF : F id) : Firm F c (c.recvReset id code n).1 := by
  unfold recvReset
  split
  · exact .close _ _
  · split
    · exact .of_eq rfl rfl rfl
    · simp only
      split
      · exact .rfl'
      · exact .close _ _
      · next c1 s he =>
        obtain ⟨hc, hI, hg⟩ := Firm.lookup hI he
        have hw : c1.dead = false → s.recv.isFin = true → (s.recv.reset code n).2.isFin = true :=
          fun hd => RecvBuf.reset_isFin (Inv.rinv hI hd hg) code n
        split
        · next r hr =>
          rw [hr] at hw; simp only at hw
          exact hc.trans ((Firm.put (c' := c1.put id { s with recv := r }) hg rfl rfl rfl (fun hd => .ofRecv (hw hd) (fun _ => .inl hF))).trans (.close _ _))
        · next r hr =>
          rw [hr] at hw; simp only at hw
          split
          · exact hc.trans ((Firm.put (c' := c1.put id { s with recv := r }) hg rfl rfl rfl (fun hd => .ofRecv (hw hd) (fun _ => .inl hF))).trans (.close _ _))
          · refine hc.trans (Firm.put (s' := { s with recv := r }) hg (by simp) ?_ ?_ (fun hd => .ofRecv (hw hd) (fun _ => .inl hF)))
            all_goals repeat' split
            all_goals simp

theorem recvStop_firm (hI : Inv c h gone) (id code : Nat) : Firm F c (c.recvStop id code).1 := by
  unfold recvStop
  split
  · exact .close _ _
  · split
    · exact .rfl'
    · exact .close _ _
    · next c1 s he =>
      obtain ⟨hk, hI, hg⟩ := Firm.lookup hI he
      obtain ⟨W, hW⟩ := (hI.tx.live id s hg).inv
      simp only
      rcases SendBuf.stop_spec hW code with ⟨-, e⟩ | ⟨-, b, e, hC, -⟩
      · rw [e]; exact hk
      · rw [e]
        simp only
        have hk := hk.trans (c'' := { (c1.put id { s with send := b }) with txData := c1.txData - (s.send.off - s.send.emitOff) })
          (Firm.put (s' := { s with send := b }) hg rfl rfl rfl (fun _ => .cut hC))
        split
        · exact hk.trans (.of_eq rfl rfl rfl)
        · next c2 h2 =>
          have hk2 := hk.trans (subTxBuffered_firm h2)
          split
          · exact hk2.trans (.of_eq rfl rfl rfl)
          · exact hk2.trans (.of_eq rfl rfl rfl)

theorem shutWrite_firm (hI : Inv c h gone) (id code w : Nat) : Firm F c (c.shutWrite id code w).1 := by
  unfold shutWrite
  split
  · exact .rfl'
  · cases hg : c.get id with
    | none => exact .rfl'
    | some s =>
      obtain ⟨W, hW⟩ := (hI.tx.live id s hg).inv
      simp only
      rcases SendBuf.shutdown_spec hW with ⟨-, e⟩ | ⟨-, b, e, hC, -⟩
      · rw [e]; exact .rfl'
      · rw [e]
        simp only
        have hk : Firm F c { (c.put id { s with send := b }) with txData := c.txData - (s.send.off - s.send.emitOff) } :=
          Firm.put (s' := { s with send := b }) hg rfl rfl rfl (fun _ => .cut hC)
        split
        · exact hk.trans (.of_eq rfl rfl rfl)
        · next c2 h2 =>
          have hk2 := hk.trans (subTxBuffered_firm h2)
          split
          · exact hk2.trans (.of_eq rfl rfl rfl)
          · next c3 h3 => exact (hk2.trans (updateTxCap_firm h3)).trans (.of_eq rfl rfl rfl)

theorem shutRead_firm (hI : Inv c h gone) (id code : Nat) : Firm F c (c.shutRead id code).1 := by
  unfold shutRead
  split
  · exact .rfl'
  · cases hg : c.get id with
    | none => exact .rfl'
    | some s =>
      simp only
      have hw : c.dead = false → s.recv.isFin = true → s.recv.shutdown.2.isFin = true :=
        fun hd => RecvBuf.shutdown_isFin (Inv.rinv hI hd hg)
      have hb : c.dead = false → s.recv.shutdown.2.finOff = s.recv.finOff :=
        fun hd => RecvBuf.shutdown_back (Inv.rinv hI hd hg)
      split
      · next r hr =>
        rw [hr] at hw hb; simp only at hw hb
        exact Firm.put (s' := { s with recv := r }) hg rfl rfl rfl (fun hd => .ofRecv (hw hd) (fun hx => .inr (hb hd ▸ hx)))
      · exact .rfl'
      · next consumed r hr =>
        rw [hr] at hw hb; simp only at hw hb
        refine Firm.put (s' := { s with recv := r }) hg (by simp [streams_ite]) ?_ ?_ (fun hd => .ofRecv (hw hd) (fun hx => .inr (hb hd ▸ hx)))
        all_goals repeat' split
        all_goals simp

theorem recvMaxStreamData_firm (hI : Inv c h gone) (id m : Nat) : Firm F c (c.recvMaxStreamData id m).1 := by
  unfold recvMaxStreamData
  split
  · exact .close _ _
  · split
    · exact .rfl'
    · exact .close _ _
    · next c1 s he =>
      obtain ⟨hc, hI, hg⟩ := Firm.lookup hI he
      simp only
      refine hc.trans (Firm.put (s' := { s with send := s.send.updateMaxData m }) hg (by simp [streams_ite]) ?_ ?_ (fun _ => .same rfl rfl rfl rfl))
      all_goals repeat' split
      all_goals simp

theorem recvMaxStreams_firm (b : Bool) (m : Nat) : Firm F c (c.recvMaxStreams b m).1 := by
  unfold recvMaxStreams
  split
  · exact .close _ _
  · exact .of_eq (by simp) (by simp) (by simp)

theorem peerParams_firm (p : StreamLimits) (d b u w : Nat) : Firm F c (c.peerParams p d b u w).1 := by
  unfold peerParams
  simp only
  split
  · exact .of_eq rfl rfl rfl
  · next h =>
    have h1 := updateTxCap_firm (F := F) h
    exact (Firm.of_eq (c := c) (c' := { c with maxTxData := d }) rfl rfl rfl).trans (h1.trans (.of_eq rfl rfl rfl))

theorem sendTail_firm {id : Nat} {s : Stream} (hg : c.get id = some s) {b : SendBuf} (hb : Held (F id) s { s with send := b })
    (n m : Nat) (x y : Bool) : Firm F c (c.sendTail id s b n m x y).1 := by
  unfold sendTail
  obtain ⟨ba, bl, e⟩ := sendBlocked_spec c id { s with send := b } n m
  rw [e]
  simp only
  have hk' : Held (F id) s ({ s with send := { b with blockedAt := ba } } : Stream) := hb.trans (.same rfl rfl rfl rfl)
  generalize ({ s with send := { b with blockedAt := ba } } : Stream) = s' at hk'
  have h1 : Firm F c ((({ c with blocked := bl } : Conn).put id s').sendQueues s' s.isWritable s.isFlushable x y) := by
    refine Firm.put hg (s' := s') ?_ ?_ ?_ (fun _ => hk')
    · unfold sendQueues; simp [streams_ite]
    all_goals
      unfold sendQueues
      repeat' split
    all_goals simp
  generalize (({ c with blocked := bl } : Conn).put id s').sendQueues s' s.isWritable s.isFlushable x y = c1 at h1
  split
  · exact h1.trans (.of_eq rfl rfl rfl)
  · split
    · exact h1.trans (.of_eq rfl rfl rfl)
    · refine h1.trans (.of_eq (by simp [streams_ite]) ?_ ?_)
      all_goals repeat' split
      all_goals simp

theorem sendData_firm (hI : Inv c h gone) (id : Nat) (data : Bytes) (fin : Bool) : Firm F c (c.sendData id data fin).1 := by
  unfold sendData
  split
  · exact .rfl'
  · split
    · exact .of_eq rfl rfl rfl
    · simp only
      have hb : ∃ b, (if c.maxTxData - c.txData < data.length then { c with blockedLimit := some c.maxTxData } else c) =
          ({ c with blockedLimit := b } : Conn) := by
        split
        · exact ⟨_, rfl⟩
        · exact ⟨c.blockedLimit, rfl⟩
      obtain ⟨b, hb⟩ := hb
      rw [hb]
      have hI' : Inv ({ c with blockedLimit := b } : Conn) h gone := hI.other (by constructor <;> rfl) (by constructor <;> rfl) (by constructor <;> rfl)
          (fun f hf => .inl hf) rfl rfl rfl rfl
      have hs : Firm F c ({ c with blockedLimit := b } : Conn) := .of_eq rfl rfl rfl
      split
      · exact hs
      · next c1 s he =>
        obtain ⟨hc, hI, hg⟩ := Firm.lookup hI' he
        have hc := hs.trans hc
        obtain ⟨W, hW⟩ := (hI.tx.live id s hg).inv
        split
        · simp only
          split
          · exact hc.trans (.collect hI.shape.wf.ndL hg)
          · exact hc
        · exact hc.trans (.of_eq rfl rfl rfl)
        · have hwr : ∀ d f b n, s.send.write d f = .ok (b, n) → Held (F id) s { s with send := b } := by
            intro d f b n hw
            rcases SendBuf.write_spec hW d f with ⟨b', n', h1, ht⟩ | ⟨e, h1, -⟩
            · rw [h1] at hw; cases hw; exact .took ht
            · rw [h1] at hw; cases hw
          split
          · refine hc.trans (.of_eq (by simp [streams_ite]) ?_ ?_)
            all_goals split
            all_goals simp
          · by_cases hlt : c.txCap < data.length <;> simp only [hlt, if_true, if_false] <;> split
            all_goals first
              | exact hc.trans (.of_eq rfl rfl rfl)
              | (next hw => exact hc.trans (sendTail_firm hg (hwr _ _ _ _ hw) _ _ _ _))

theorem recvData_firm (hI : Inv c h gone) (id cap : Nat) : Firm F c (c.recvData id cap).1 := by
  unfold recvData
  split
  · exact .rfl'
  · cases hg : c.get id with
    | none => exact .rfl'
    | some s =>
      simp only
      have hw : c.dead = false → s.recv.isFin = true → (s.recv.emit cap).2.isFin = true :=
        fun hd => RecvBuf.emit_isFin (Inv.rinv hI hd hg) cap
      have hb : c.dead = false → (s.recv.emit cap).2.finOff = s.recv.finOff :=
        fun hd => RecvBuf.emit_back (Inv.rinv hI hd hg) cap
      have hput : ∀ r : RecvBuf, (c.dead = false → s.recv.isFin = true → r.isFin = true) →
          (c.dead = false → r.finOff = s.recv.finOff) → Firm F c (c.put id { s with recv := r }) := fun r hr hb =>
        Firm.put (s' := { s with recv := r }) hg rfl rfl rfl (fun hd => .ofRecv (hr hd) (fun hx => .inr (hb hd ▸ hx)))
      have hcol : ∀ (c1 : Conn) (s' : Stream), c1.streams = Assoc.put c.streams id s' → Firm F c1 (c1.collect id s') := by
        intro c1 s' h1
        refine .collect ?_ ?_
        · rw [h1]; exact Assoc.nodup_put hI.shape.wf.ndL _ _
        · unfold get; rw [h1, Assoc.get_put, if_pos rfl]
      split
      · exact .rfl'
      · split
        · next r hr =>
          rw [hr] at hw hb; simp only at hw hb
          refine Firm.trans (c' := if _ then (c.put id { s with recv := r }).collect id { s with recv := r } else c.put id { s with recv := r })
            ?_ (.of_eq (removeReadable_streams _ _) rfl rfl)
          split
          · exact (hput r hw hb).trans (hcol _ _ rfl)
          · exact hput r hw hb
        · next r hr =>
          rw [hr] at hw hb; simp only at hw hb
          split
          · exact (hput r hw hb).trans (.of_eq rfl rfl rfl)
          · next af _ =>
            generalize hc1 : ({ (c.put id { s with recv := r }) with fc := _ } : Conn) = c1
            have h1 : Firm F c c1 := (hput r hw hb).trans (by rw [← hc1]; exact .of_eq rfl rfl rfl)
            have e1 : c1.streams = Assoc.put c.streams id { s with recv := r } := by rw [← hc1]; rfl
            generalize hc2 : (if af = true then c1.insertAlmostFull id else c1) = c2
            have h2 : Firm F c c2 := by
              rw [← hc2]; split
              · exact h1.trans (.of_eq rfl rfl rfl)
              · exact h1
            have e2 : c2.streams = Assoc.put c.streams id { s with recv := r } := by
              rw [← hc2, ← e1]; split <;> rfl
            generalize hc3 : (if (!({ s with recv := r } : Stream).isReadable) = true then c2.removeReadable id else c2) = c3
            have h3 : Firm F c c3 := by
              rw [← hc3]; split
              · exact h2.trans (.of_eq rfl rfl rfl)
              · exact h2
            have e3 : c3.streams = Assoc.put c.streams id { s with recv := r } := by
              rw [← hc3, ← e2]; split <;> rfl
            simp only
            split
            · exact h3.trans (hcol _ _ e3)
            · exact h3

theorem capacity_firm (hI : Inv c h gone) (id : Nat) : Firm F c (c.capacity id).1 := by
  unfold capacity
  split
  · exact .rfl'
  · next s hg =>
    split
    · exact .rfl'
    · simp only
      split
      · exact .collect hI.shape.wf.ndL hg
      · exact .rfl'
    · exact .of_eq rfl rfl rfl

theorem isWritable_firm (hI : Inv c h gone) (id len : Nat) : Firm F c (c.isWritable id len).1 := by
  have hc := capacity_firm (F := F) hI id
  unfold isWritable
  generalize c.capacity id = r at hc
  obtain ⟨c1, ev⟩ := r
  split
  · next h =>
    cases h
    split
    · exact hc
    · split
      · exact hc
      · next s hg =>
        simp only
        have key : ∀ (c' : Conn), c'.streams = Assoc.put c1.streams id { s with sendLowat := max 1 len } →
            c'.collected = c1.collected → c'.dead = c1.dead → Firm F c c' := by
          intro c' h2 h3 h5
          exact hc.trans (Firm.put hg h2 h3 h5 (fun _ => .same rfl rfl rfl rfl))
        have key2 : ∀ (c' : Conn) b, c'.streams = Assoc.put (Assoc.put c1.streams id { s with sendLowat := max 1 len }) id
              { s with sendLowat := max 1 len, send := { s.send with blockedAt := b } } →
            c'.collected = c1.collected → c'.dead = c1.dead → Firm F c c' := by
          intro c' b h2 h3 h5
          rw [Assoc.put_put] at h2
          exact hc.trans (Firm.put hg h2 h3 h5 (fun _ => .same rfl rfl rfl rfl))
        split
        · exact key _ rfl rfl rfl
        · repeat' split
          all_goals first
            | exact key _ rfl rfl rfl
            | exact key2 _ _ rfl rfl rfl
  · exact hc

theorem writableNext_firm : Firm F c c.writableNext.1 := by
  unfold writableNext
  split
  · exact .rfl'
  · split
    · exact .rfl'
    · exact .of_eq rfl rfl rfl

theorem readableNext_firm : Firm F c c.readableNext.1 := by
  unfold readableNext
  split
  · exact .rfl'
  · exact .of_eq rfl rfl rfl

theorem priority_firm (hI : Inv c h gone) (id u : Nat) (inc : Bool) : Firm F c (c.priority id u inc).1 := by
  unfold priority
  split
  · exact .rfl'
  · exact .rfl'
  · next c1 s he =>
    obtain ⟨hc, hI, hg⟩ := Firm.lookup hI he
    split
    · exact hc
    · exact hc.trans (Firm.put hg rfl rfl rfl (fun _ => .same rfl rfl rfl rfl))

theorem collectAcked_firm (hn : (Assoc.keys c.streams).Nodup) {id : Nat} {s : Stream} (hg : c.get id = some s) :
    Firm F c (c.collectAcked id s) := by
  unfold collectAcked
  split
  · exact .collect hn hg
  · exact .rfl'

theorem acked_firm (hI : Inv c h gone) (i : Nat) : Firm F c (c.acked i).1 := by
  unfold acked
  split
  · next id off len fin hf =>
    cases hg : c.get id with
    | none => exact .rfl'
    | some s =>
      simp only
      obtain ⟨W, hW⟩ := (hI.tx.live id s hg).inv
      have hE := hI.ends_eq hg
      have hfo : off + len ≤ s.send.emitOff := by
        have := hI.tx.fr _ (List.mem_of_getElem? hf)
        simp only [FrameOk] at this; omega
      obtain ⟨b, n, e, ht⟩ := SendBuf.ackAndDrop_spec hW hfo
      rw [e]
      simp only
      have h1 : Firm F c (c.put id { s with send := b }) := by
        refine Firm.put hg rfl rfl rfl (fun _ => .same ?_ rfl rfl rfl)
        show b.finOff = _; rw [ht.fields]
      have h2 : Firm F c ((c.put id { s with send := b }).collectAcked id { s with send := b }) :=
        h1.trans (collectAcked_firm (by simpa using Assoc.nodup_put hI.shape.wf.ndL _ _)
          (by unfold get; rw [put_streams, Assoc.get_put, if_pos rfl]))
      split
      · exact h2.trans (.of_eq rfl rfl rfl)
      · next h3 => exact h2.trans (subTxBuffered_firm h3)
  · split
    · exact .rfl'
    · next hg => exact collectAcked_firm hI.shape.wf.ndL hg
  · exact .rfl'

theorem lost_firm (hI : Inv c h gone) (i : Nat) : Firm F c (c.lost i).1 := by
  unfold lost
  split
  · next id off len fin hf =>
    cases hg : c.get id with
    | none => exact .rfl'
    | some s =>
      simp only
      obtain ⟨W, hW⟩ := (hI.tx.live id s hg).inv
      obtain ⟨b, n, e, ht⟩ := SendBuf.retransmit_spec hW off len
      rw [e]
      split
      · exact .rfl'
      · refine Firm.put (s' := { s with send := b }) hg (by simp [streams_ite]) ?_ ?_ (fun _ => .same ?_ rfl rfl rfl)
        · simp only; split <;> rfl
        · simp only; split <;> rfl
        · show b.finOff = _; rw [ht.fields]
  all_goals repeat' split
  all_goals exact .of_eq rfl rfl rfl

theorem outMaxStreams_firm (b fits : Bool) : Firm F c (c.outMaxStreams b fits).1 := by
  unfold outMaxStreams
  generalize (if b = true then c.shouldSendMaxStreamsBidi else c.shouldSendMaxStreamsUni) = flag
  simp only
  split
  · split
    · refine .of_eq ?_ ?_ ?_
      all_goals
        simp only
        split
      all_goals simp
    · exact .rfl'
  · exact .rfl'

theorem outMaxStreamData_firm (id now rtt : Nat) (fits : Bool) : Firm F c (c.outMaxStreamData id now rtt fits).1 := by
  unfold outMaxStreamData
  split
  · exact .rfl'
  · cases hg : c.get id with
    | none => exact .of_eq rfl rfl rfl
    | some s =>
      simp only
      split
      · exact .of_eq rfl rfl rfl
      · next af _ =>
        have hr : (if af = true then s.recv.autotuneWindow now rtt else s.recv).isFin = s.recv.isFin := by split <;> rfl
        have hb : (if af = true then s.recv.autotuneWindow now rtt else s.recv).finOff = s.recv.finOff := by split <;> rfl
        generalize (if af = true then s.recv.autotuneWindow now rtt else s.recv) = r at hr hb
        split
        · exact Firm.put (s' := { s with recv := r.updateMaxData now }) hg (Assoc.put_put _ _ _ _) rfl rfl
            (fun _ => .ofRecv (fun h => hr.trans h) (fun hx => .inr (hb ▸ hx)))
        · exact Firm.put (s' := { s with recv := r }) hg rfl rfl rfl (fun _ => .ofRecv (fun h => hr.trans h) (fun hx => .inr (hb ▸ hx)))

theorem outMaxData_firm (now rtt : Nat) (fits : Bool) : Firm F c (c.outMaxData now rtt fits).1 := by
  unfold outMaxData
  split
  · exact .of_eq rfl rfl rfl
  · simp only
    split
    all_goals
      split
    all_goals exact .of_eq rfl rfl rfl

theorem outStop_firm (id : Nat) (fits : Bool) : Firm F c (c.outStop id fits).1 := by
  unfold outStop
  repeat' split
  all_goals exact .of_eq rfl rfl rfl

theorem outReset_firm (id : Nat) (fits : Bool) : Firm F c (c.outReset id fits).1 := by
  unfold outReset
  repeat' split
  all_goals exact .of_eq rfl rfl rfl

theorem outStreamLoop_firm (left fuel : Nat) : ∀ {c : Conn}, Inv c h gone → Firm F c (outStreamLoop left fuel c).1 := by
  induction fuel with
  | zero => intro c _; exact .rfl'
  | succ fuel ih =>
    intro c hI
    have hrm : ∀ i, Firm F c (c.removeFlushable i) := fun i => .of_eq rfl rfl rfl
    unfold outStreamLoop
    split
    · exact .rfl'
    · next k t hq =>
      cases hg : c.get k.id with
      | none => exact (hrm _).trans (ih (hI.removeFlushable k.id))
      | some s =>
        simp only
        split
        · exact (hrm _).trans (ih (hI.removeFlushable k.id))
        split
        · exact (hrm _).trans (ih (hI.removeFlushable k.id))
        obtain ⟨W, hW⟩ := (hI.tx.live _ s hg).inv
        obtain ⟨b, out, f, e, ht⟩ := SendBuf.emit_spec hW (left - (1 + varintLen k.id + varintLen s.send.offFront + 2))
        rw [e]
        simp only
        have hbf : b.finOff = s.send.finOff := by rw [ht.fields]
        generalize hc1 : (if (!({ s with send := b } : Stream).isFlushable) = true then _ else _ : Conn) = c1
        have h2 : Firm F c c1 := by
          refine Firm.put (s' := { s with send := b }) hg ?_ ?_ ?_ (fun _ => .same hbf rfl rfl rfl)
          · rw [← hc1]; simp [streams_ite]
          all_goals
            rw [← hc1]
            repeat' split
          all_goals rfl
        cases hsub : c1.subTxBuffered out.length with
        | none => exact h2.trans (.of_eq rfl rfl rfl)
        | some c2 => exact h2.trans (subTxBuffered_firm hsub)

/-- The peer announces the end of the stream. -/
def ends (id : Nat) : Op → Prop
  | .recvStream i _ _ fin => i = id ∧ fin = true
  | .recvReset i _ _ => i = id
  | _ => False

/-- No operation undoes the end of a stream. -/
theorem step_firm (hI : Inv c h gone) (op : Op) : Firm (fun id => ends id op) c (c.step op).1 := by
  unfold step
  split
  · exact .rfl'
  cases op with
  | recvStream id off data fin => exact recvStream_firm hI id off data fin fun hf => ⟨rfl, hf⟩
  | recvReset id code F => exact recvReset_firm hI id code F rfl
  | recvStop id code => exact recvStop_firm hI id code
  | recvMaxData m => exact .of_eq rfl rfl rfl
  | recvMaxStreamData id m => exact recvMaxStreamData_firm hI id m
  | recvMaxStreams b m => exact recvMaxStreams_firm b m
  | peerParams p e b u w => exact peerParams_firm p e b u w
  | recvDone w =>
    simp only
    split
    · exact .of_eq rfl rfl rfl
    · next h => exact updateTxCap_firm h
  | send id data fin => exact sendData_firm hI id data fin
  | recv id cap => exact recvData_firm hI id cap
  | shutRead id code => exact shutRead_firm hI id code
  | shutWrite id code w => exact shutWrite_firm hI id code w
  | capacity id => exact capacity_firm hI id
  | isWritable id len => exact isWritable_firm hI id len
  | writableNext => exact writableNext_firm
  | readableNext => exact readableNext_firm
  | priority id u inc => exact priority_firm hI id u inc
  | outStream left =>
    simp only
    unfold outStream
    split
    · exact outStreamLoop_firm left _ hI
    · exact .rfl'
  | outMaxStreams b fits => exact outMaxStreams_firm b fits
  | outMaxStreamData id now rtt fits => exact outMaxStreamData_firm id now rtt fits
  | outMaxData now rtt fits => exact outMaxData_firm now rtt fits
  | outStop id fits => exact outStop_firm id fits
  | outReset id fits => exact outReset_firm id fits
  | acked i => exact acked_firm hI i
  | lost i => exact lost_firm hI i

theorem run_firm {ops : List Op} (hI : Inv c h gone) (hok : ∀ op ∈ ops, op.Ok) (hcr : (c.run ops).1.crashed = false) :
    Firm (fun id => ∃ op ∈ ops, ends id op) c (c.run ops).1 := by
  induction ops generalizing c h with
  | nil => exact .rfl'
  | cons op ops ih =>
    simp only [run] at hcr ⊢
    rcases step_safe hI (hok op List.mem_cons_self) with ⟨-, -, hI1⟩ | ⟨-, hx, -⟩
    · exact ((step_firm hI op).mono fun id h => ⟨op, List.mem_cons_self, h⟩).trans
        ((ih hI1 (fun o ho => hok o (List.mem_cons_of_mem _ ho)) hcr).mono fun id ⟨o, ho, h⟩ => ⟨o, List.mem_cons_of_mem _ ho, h⟩)
    · rw [(run_crashed hx ops).1, hx] at hcr; cases hcr

/-- `stream_closed` (lib.rs:6560-6578). -/
def closed (c : Conn) (id : Nat) : Bool :=
  match c.get id with
  | none => c.isCollected id
  | some s =>
    match s.bidi, s.local' with
    | true, _ => s.recv.isFin && s.send.isFin
    | false, true => s.send.isFin
    | false, false => s.recv.isFin

end Conn
end Verif.Conn
