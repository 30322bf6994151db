import Verif.H3.SendInv

/-!
Every step of an execution of `Verif.H3.Send` keeps the invariant.
-/

namespace Verif.H3.Send
open Verif Verif.H3 Verif.Io

/-- `s'` differs from `s` at `id` only. -/
structure Loc (s s' : S) (id : Nat) : Prop where
  server : s'.isServer = s.isServer
  control : s'.control = s.control
  next : s'.nextReq = s.nextReq
  goaway : s'.localGoaway = s.localGoaway
  peer : s'.peerGoaway = s.peerGoaway
  tx : ∀ j, j ≠ id → s'.tx j = s.tx j
  ent : ∀ j, j ≠ id → s'.ent j = s.ent j

theorem Loc.refl (s : S) (id : Nat) : Loc s s id := ⟨rfl, rfl, rfl, rfl, rfl, fun _ _ => rfl, fun _ _ => rfl⟩

theorem Loc.trans {s s' s'' : S} {id : Nat} (h : Loc s s' id) (h' : Loc s' s'' id) : Loc s s'' id :=
  ⟨h'.server.trans h.server, h'.control.trans h.control, h'.next.trans h.next, h'.goaway.trans h.goaway, h'.peer.trans h.peer,
    fun j hj => (h'.tx j hj).trans (h.tx j hj), fun j hj => (h'.ent j hj).trans (h.ent j hj)⟩

theorem setEnt_loc (s : S) (id : Nat) (e : Option Ent) : Loc s (s.setEnt id e) id :=
  ⟨rfl, rfl, rfl, rfl, rfl, fun _ _ => rfl, fun _ hj => upd_ne _ _ hj⟩

theorem setTx_loc (s : S) (id : Nat) (t : Tx) : Loc s (s.setTx id t) id :=
  ⟨rfl, rfl, rfl, rfl, rfl, fun _ hj => upd_ne _ _ hj, fun _ _ => rfl⟩

theorem greased_loc {s s' : S} {id : Nat} (h : Greased s s' id) : Loc s s' id := by
  rcases h with h | ⟨t, _, _, w, _, _, _, h⟩ <;> rw [h]
  · exact ⟨rfl, rfl, rfl, rfl, rfl, fun _ _ => rfl, fun _ _ => rfl⟩
  · exact ⟨rfl, rfl, rfl, rfl, rfl, fun _ hj => upd_ne _ _ hj, fun _ _ => rfl⟩

theorem forgot_loc {s s' : S} {id : Nat} (h : Forgot s s' id) : Loc s s' id := by
  rcases h with rfl | ⟨rfl, _⟩
  · exact .refl _ _
  · exact setEnt_loc _ _ _

theorem finishLocal_loc (s : S) (id : Nat) (b : Bool) : Loc s (s.finishLocal id b) id := by
  unfold S.finishLocal
  split
  · exact .refl _ _
  · split <;> exact setEnt_loc _ _ _

theorem finishLocal_tx (s : S) (id : Nat) (b : Bool) : (s.finishLocal id b).tx = s.tx := by
  unfold S.finishLocal
  split
  · rfl
  · split <;> rfl

theorem headersSent_loc (s : S) (id : Nat) (fin : Bool) : Loc s (s.headersSent id fin) id := by
  unfold S.headersSent
  split
  · exact finishLocal_loc _ _ _
  · split
    · exact .refl _ _
    · exact setEnt_loc _ _ _

theorem headersSent_tx (s : S) (id : Nat) (fin : Bool) : (s.headersSent id fin).tx = s.tx := by
  unfold S.headersSent
  split
  · exact finishLocal_tx _ _ _
  · split <;> rfl

theorem headersSent_ent {s : S} {id : Nat} {e : Ent} (h : s.ent id = some e) :
    (s.headersSent id false).ent id = some { e with localInit := true } := by
  unfold S.headersSent
  rw [if_neg (by decide), h]
  exact upd_at _ _ _

theorem headed_loc {s s' : S} {id : Nat} {hs : List Qpack.Header} {fin : Bool} (h : Headed s s' id hs fin) : Loc s s' id := by
  obtain ⟨t, block, w, _, _, _, _, h⟩ := h
  rw [h]
  exact (setTx_loc _ _ _).trans (headersSent_loc _ _ _)

theorem bodied_loc {s s' : S} {id : Nat} {body : Bytes} {n : Nat} {fin : Bool} (h : Bodied s s' id body n fin) : Loc s s' id := by
  obtain ⟨t, w, _, _, _, _, _, h⟩ := h
  rw [h]
  split
  · exact (setTx_loc _ _ _).trans (finishLocal_loc _ _ _)
  · exact setTx_loc _ _ _

theorem greased_st {g fresh : Prop} {s s' : S} {id : Nat} {log : List Out} {ended : Bool} (h : Greased s s' id)
    (hs : St g fresh (s.ent id) (s.tx id) log ended) : St g fresh (s'.ent id) (s'.tx id) log ended ∧ s'.ent = s.ent := by
  rcases h with h | ⟨t, a, b, w, h1, h2, h3, h⟩ <;> rw [h]
  · exact ⟨hs, rfl⟩
  · rw [h1] at hs
    refine ⟨?_, rfl⟩
    show St g fresh (s.ent id) ((s.setTx id (t.add w false)).tx id) _ _
    rw [S.setTx_at]
    exact hs.grease h2 h3

theorem forgot_st {g fresh : Prop} {s s' : S} {id : Nat} {log : List Out} {ended : Bool} (h : Forgot s s' id)
    (hs : St g fresh (s.ent id) (s.tx id) log ended) : St g fresh (s'.ent id) (s'.tx id) log ended := by
  rcases h with rfl | ⟨rfl, h⟩
  · exact hs
  · show St g fresh (upd s.ent id none id) (s.tx id) _ _
    rw [upd_at]
    exact hs.forget h

theorem headed_st {g fresh : Prop} {s s' : S} {id : Nat} {hs : List Qpack.Header} {fin : Bool} {log : List Out} {ended : Bool}
    (h : Headed s s' id hs fin) (hst : St g fresh (s.ent id) (s.tx id) log ended) {e' : Option Ent}
    (hg : g → ∀ tys, Phase (s.ent id) tys log →
      Msg (tys ++ [0x01]) ∧ (fin = false → Phase e' (tys ++ [0x01]) (log ++ headersOut hs))) :
    St g False e' (s'.tx id) (log ++ headersOut hs) (ended || fin) := by
  obtain ⟨t, block, w, h1, h2, h3, h4, h⟩ := h
  rw [h1] at hst
  rw [h, headersSent_tx, S.setTx_at]
  exact hst.headers h2 h3 h4 hg

/-- Sending headers, where there is an entry. -/
theorem sendHeaders_st {g fresh : Prop} {s s' : S} {id : Nat} {hs : List Qpack.Header} {fin : Bool} {gr : Nat × Nat}
    {r : Except Err Unit} {log : List Out} {ended : Bool} {e : Ent} (h : s.sendHeaders id hs fin gr = (r, s'))
    (hst : St g fresh (s.ent id) (s.tx id) log ended) (he : s.ent id = some e) :
    Loc s s' id ∧ ((∃ er, r = .error er ∧ St g fresh (s'.ent id) (s'.tx id) log ended) ∨
      (r = .ok () ∧ (fin = false → s'.ent id = some { e with localInit := true }) ∧
        ∀ e', (g → ∀ tys, Phase (some e) tys log → Msg (tys ++ [0x01]) ∧ (fin = false → Phase e' (tys ++ [0x01]) (log ++ headersOut hs))) →
          St g False e' (s'.tx id) (log ++ headersOut hs) (ended || fin))) := by
  rcases sendHeaders_cases h with ⟨er, s1, rfl, h1, h2⟩ | ⟨rfl, s1, h1, h2⟩
  · exact ⟨(greased_loc h1).trans (forgot_loc h2), .inl ⟨er, rfl, forgot_st h2 (greased_st h1 hst).1⟩⟩
  · obtain ⟨q1, q2⟩ := greased_st h1 hst
    refine ⟨(greased_loc h1).trans (headed_loc h2), .inr ⟨rfl, fun hf => ?_, fun e' hg => ?_⟩⟩
    · obtain ⟨t, block, w, _, _, _, _, rfl⟩ := h2
      subst hf
      refine headersSent_ent ?_
      show s1.ent id = _
      rw [q2, he]
    · exact headed_st h2 q1 (by rw [q2, he]; exact hg)

/-- The first headers on a stream. -/
theorem phase_first {e : Ent} {tys : List Nat} {log out : List Out} (hl : e.localInit = false) (h : Phase (some e) tys log) :
    Msg (tys ++ [0x01]) ∧ Phase (some { e with localInit := true }) (tys ++ [0x01]) (log ++ out) := by
  obtain ⟨h1, h2, _⟩ := h
  obtain ⟨rfl, h3⟩ := h2 hl
  have hp : Pre [0x01] (log ++ out) := ⟨1, 0, rfl, by omega, by simp⟩
  refine ⟨hp.msg, h1, fun h => (by cases h), fun _ => ?_⟩
  rw [h3]
  exact hp

/-- More headers. -/
theorem phase_more {e : Ent} {tys : List Nat} {log : List Out} {hs : List Qpack.Header} {trailer : Bool} (hl : e.localInit = true)
    (ht : e.trailersSent = false) (hp : trailer = true ∨ ∀ c, Out.byte c ∉ log) (h : Phase (some e) tys log) :
    Msg (tys ++ [0x01]) ∧ Phase (some { e with localInit := true, trailersSent := trailer }) (tys ++ [0x01]) (log ++ headersOut hs) := by
  obtain ⟨h1, _, h2⟩ := h
  have h3 := h2 hl
  rw [ht] at h3
  refine ⟨h3.trailer, h1, fun h => (by cases h), fun _ => ?_⟩
  cases trailer with
  | true => exact h3.trailer
  | false =>
    rcases hp with hp | hp
    · cases hp
    · exact h3.more _ hp

/-- A change at one stream. -/
theorem Inv.at {g : Prop} {x : X} (h : Inv g x) {s' : S} {id : Nat} {log : List Out} {ended : Bool} (hl : Loc x.s s' id)
    (hs : isBidi id = true → St g (Fresh x.s id) (s'.ent id) (s'.tx id) log ended) {gs : List Nat} :
    Inv g { s := s', log := upd x.log id log, ended := upd x.ended id ended, goaways := gs } := by
  have hfr : ∀ j, Fresh s' j ↔ Fresh x.s j := fun j => by unfold Fresh; rw [hl.server, hl.next]
  refine ⟨fun j hj => ?_, fun c hc => h.control c (by rw [← hl.control]; exact hc), by show s'.nextReq % 4 = 0; rw [hl.next]; exact h.next⟩
  show St g (Fresh s' j) (s'.ent j) (s'.tx j) (upd x.log id log j) (upd x.ended id ended j)
  by_cases e : j = id
  · subst e
    rw [upd_at, upd_at]
    exact (hs hj).weaken (hfr _).1
  · rw [upd_ne _ _ e, upd_ne _ _ e, hl.tx j e, hl.ent j e]
    exact (h.st j hj).weaken (hfr _).1

theorem Inv.same {g : Prop} {x : X} (h : Inv g x) {s' : S} {id : Nat} (hl : Loc x.s s' id)
    (hs : isBidi id = true → St g (Fresh x.s id) (s'.ent id) (s'.tx id) (x.log id) (x.ended id)) {gs : List Nat} :
    Inv g { s := s', log := x.log, ended := x.ended, goaways := gs } := by
  have := h.at hl hs (gs := gs)
  rwa [upd_id rfl, upd_id rfl] at this

theorem St.stale {g fresh : Prop} {e : Option Ent} {t : Option Tx} {log : List Out} {ended : Bool}
    (h : St g False e t log ended) (hf : g → ¬ fresh) : St g fresh e t log ended := by
  unfold St at h ⊢
  cases t with
  | none => exact h
  | some t =>
    obtain ⟨fs, h1, h2, h3, h4⟩ := h
    exact ⟨fs, h1, h2, h3, fun hg => ⟨fun hf' => absurd hf' (hf hg), (h4 hg).sealed, (h4 hg).opened⟩⟩

theorem markTrailers_loc (s : S) (id : Nat) : Loc s (s.markTrailers id) id := by
  unfold S.markTrailers
  split
  · exact .refl _ _
  · exact setEnt_loc _ _ _

theorem markTrailers_tx (s : S) (id : Nat) : (s.markTrailers id).tx = s.tx := by
  unfold S.markTrailers
  split <;> rfl

theorem markTrailers_ent {s : S} {id : Nat} {e : Ent} (h : s.ent id = some e) :
    (s.markTrailers id).ent id = some { e with trailersSent := true } := by
  unfold S.markTrailers
  rw [h]
  exact upd_at _ _ _

/-- A stream with content has been begun. -/
theorem not_fresh {g fresh : Prop} {e : Ent} {t : Tx} {log : List Out} {ended : Bool}
    (h : St g fresh (some e) (some t) log ended) (hs : t.sealed = false) (hl : e.localInit = true) (ht : e.trailersSent = false)
    (hg : g) : ¬ fresh := by
  obtain ⟨fs, _, _, _, h4⟩ := h
  intro hf
  have h5 := (h4 hg).fresh hf
  have h6 := ((h4 hg).opened hs).2.2 hl
  rw [ht, h5] at h6
  obtain ⟨a, b, q1, q2, _⟩ := h6
  have : (([] : List Nat)).length = _ := congrArg List.length q1
  simp at this
  omega

theorem response_inv {g : Prop} {x : X} (h : Inv g x) {id : Nat} {hs : List Qpack.Header} {fin : Bool} {gr : Nat × Nat}
    (hp : g → Proper x (.response id hs fin gr)) : Inv g (x.step (.response id hs fin gr)) := by
  simp only [X.step]
  cases hx : x.s.sendResponse id hs fin gr with
  | mk r s' =>
    unfold S.sendResponse at hx
    split at hx
    · cases hx; exact h
    rename_i e he
    split at hx
    · cases hx; exact h
    rename_i hl
    have hl : e.localInit = false := by simpa using hl
    by_cases hb : isBidi id = true
    · obtain ⟨q1, ⟨er, rfl, q2⟩ | ⟨rfl, q2, q3⟩⟩ := sendHeaders_st hx (h.st id hb) he
      · exact h.same q1 fun _ => q2
      · refine h.at q1 fun _ => (q3 _ fun hg tys hph => ⟨(phase_first (out := headersOut hs) hl hph).1, fun hf => ?_⟩).stale fun hg hfr => ?_
        · rw [q2 hf]
          exact (phase_first hl hph).2
        · rcases hp hg with h1 | h1
          · rw [hfr.1] at h1; cases h1
          · exact h1 hfr.2.1
    · obtain ⟨s1, hs1⟩ : ∃ s1 : S, Loc x.s s' id := ⟨s', by
        rcases sendHeaders_cases hx with ⟨er, s1, rfl, h1, h2⟩ | ⟨rfl, s1, h1, h2⟩
        · exact (greased_loc h1).trans (forgot_loc h2)
        · exact (greased_loc h1).trans (headed_loc h2)⟩
      cases r with
      | error er => exact h.same hs1 fun hb' => absurd hb' hb
      | ok u => exact h.at hs1 fun hb' => absurd hb' hb

theorem additional_inv {g : Prop} {x : X} (h : Inv g x) {id : Nat} {hs : List Qpack.Header} {trailer fin : Bool} {gr : Nat × Nat}
    (hp : g → Proper x (.additional id hs trailer fin gr)) : Inv g (x.step (.additional id hs trailer fin gr)) := by
  simp only [X.step]
  cases hx : x.s.sendAdditional id hs trailer fin gr with
  | mk r s' =>
    unfold S.sendAdditional at hx
    split at hx
    · cases hx; exact h
    split at hx
    · cases hx; exact h
    rename_i e he
    split at hx
    · cases hx; exact h
    rename_i hl
    split at hx
    · cases hx; exact h
    rename_i ht
    have hl : e.localInit = true := by simpa using hl
    have ht : e.trailersSent = false := by simpa using ht
    cases hy : x.s.sendHeaders id hs fin gr with
    | mk r1 s1 =>
      rw [hy] at hx
      have hloc : Loc x.s s1 id := by
        rcases sendHeaders_cases hy with ⟨er, s1, rfl, h1, h2⟩ | ⟨rfl, s1, h1, h2⟩
        · exact (greased_loc h1).trans (forgot_loc h2)
        · exact (greased_loc h1).trans (headed_loc h2)
      cases r1 with
      | error er =>
        cases hx
        refine h.same hloc fun hb => ?_
        obtain ⟨_, ⟨er, _, q2⟩ | ⟨q, _⟩⟩ := sendHeaders_st hy (h.st id hb) he
        · exact q2
        · cases q
      | ok u =>
        rw [bnd_ok] at hx
        cases hx
        refine h.at (hloc.trans ?_) fun hb => ?_
        · split
          · exact markTrailers_loc _ _
          · exact .refl _ _
        · have htx : (if trailer = true then s1.markTrailers id else s1).tx = s1.tx := by
            split
            · exact markTrailers_tx _ _
            · rfl
          rw [htx]
          have hst := h.st id hb
          rw [he] at hst
          obtain ⟨_, ⟨er, q, _⟩ | ⟨_, q2, q3⟩⟩ := sendHeaders_st hy (h.st id hb) he
          · cases q
          · refine (q3 _ fun hg tys hph => ⟨(phase_more (hs := hs) hl ht (hp hg) hph).1, fun hf => ?_⟩).stale fun hg hfr => ?_
            · have := (phase_more (hs := hs) hl ht (hp hg) hph).2
              cases trailer with
              | true => rw [if_pos rfl, markTrailers_ent (q2 hf)]; exact this
              | false =>
                rw [if_neg (by decide), q2 hf]
                have e1 : ({ e with localInit := true } : Ent) = { e with localInit := true, trailersSent := false } := by rw [← ht]
                rw [e1]; exact this
            · rcases sendHeaders_cases hy with ⟨er, s2, q, _⟩ | ⟨_, s2, h1, h2⟩
              · cases q
              · obtain ⟨t, block, w, w1, w2, _⟩ := h2
                obtain ⟨z1, z2⟩ := greased_st h1 (h.st id hb)
                rw [w1, z2, he] at z1
                exact not_fresh z1 w2 hl ht hg hfr

theorem body_inv {g : Prop} {x : X} (h : Inv g x) {id : Nat} {bs : Bytes} {fin : Bool} : Inv g (x.step (.body id bs fin)) := by
  simp only [X.step]
  cases hx : x.s.sendBody id bs fin with
  | mk r s' =>
    rcases sendBody_cases hx with ⟨er, rfl, h1⟩ | ⟨n, e, rfl, hid, he, hl, ht, h1⟩
    · exact h.same (forgot_loc h1) fun hb => forgot_st h1 (h.st id hb)
    · refine h.at (bodied_loc h1) fun hb => ?_
      obtain ⟨t, w, w1, w2, w3, w4, w5, w6⟩ := h1
      have hst := h.st id hb
      rw [w1, he] at hst
      have hnf : g → ¬ Fresh x.s id := fun hg => not_fresh hst w2 hl ht hg
      refine St.stale ?_ hnf
      have htx : s'.tx id = some (t.add w (fin && n == bs.length)) := by
        rw [w6]
        split
        · rename_i hf; rw [finishLocal_tx, S.setTx_at, hf]
        · rename_i hf; rw [S.setTx_at]; simp only [Bool.not_eq_true] at hf; rw [hf]
      rw [htx]
      refine hst.data w2 w5 fun hg tys hph => ?_
      obtain ⟨p1, _, p2⟩ := hph
      have p3 := p2 hl
      rw [ht] at p3
      refine ⟨p3.dataMsg, fun hf => ?_⟩
      have hent : s'.ent id = some e := by
        rw [w6, hf, if_neg (by decide)]
        exact he
      rw [hent]
      refine ⟨p1, fun h => (by rw [hl] at h; cases h), fun _ => ?_⟩
      rw [ht]
      refine p3.data _ fun hnil => ?_
      have hl0 : (bs.take n).length = 0 := by rw [hnil]; rfl
      rw [List.length_take] at hl0
      have hn0 : n = 0 := by omega
      obtain ⟨r1, r2⟩ := w4 hn0
      rw [r1, r2] at hf
      simp at hf

theorem bidi_next {n : Nat} (h : n % 4 = 0) : isBidi n = true := by simp [isBidi, h]

theorem openReq_st {g fresh : Prop} {s s' : S} {id : Nat} {room : Option Nat} {r : Except Err Unit} {log : List Out} {ended : Bool}
    (h : s.openReq id room = (r, s')) (hst : St g fresh (s.ent id) (s.tx id) log ended) :
    Loc s s' id ∧ s'.ent = s.ent ∧ St g fresh (s'.ent id) (s'.tx id) log ended := by
  unfold S.openReq at h
  split at h
  · rename_i hn
    rw [hn] at hst
    split at h
    · cases h
      exact ⟨.refl _ _, rfl, by rw [hn]; exact hst⟩
    · cases h
      refine ⟨setTx_loc _ _ _, rfl, ?_⟩
      rw [S.setTx_at]
      exact hst.opened _
  · rename_i t ht
    cases hse : t.sealed with
    | true =>
      obtain ⟨e, he⟩ := S.write_sealed (bs := []) (fin := false) ht hse (.inr rfl)
      rw [he] at h
      cases h
      exact ⟨.refl _ _, rfl, hst⟩
    | false =>
      rw [S.write_full false ht hse (by simp)] at h
      cases h
      refine ⟨setTx_loc _ _ _, rfl, ?_⟩
      rw [S.setTx_at]
      rw [ht] at hst
      exact hst.env (by simp [Tx.add]) (by simp [Tx.add, sealed_fin hse]) (fun h => by rw [hse] at h; cases h)

theorem request_inv {g : Prop} {x : X} (h : Inv g x) {hs : List Qpack.Header} {fin : Bool} {room : Option Nat} {gr : Nat × Nat}
    (hp : g → Proper x (.request hs fin room gr)) : Inv g (x.step (.request hs fin room gr)) := by
  simp only [X.step]
  cases hx : x.s.sendRequest hs fin room gr with
  | mk r s' =>
    unfold S.sendRequest at hx
    split at hx
    · cases hx; exact h
    have hb := bidi_next h.next
    have hfr : g → Fresh x.s x.s.nextReq := fun hg => ⟨hp hg, h.next, Nat.le_refl _⟩
    have h0 : St g (Fresh x.s x.s.nextReq) ((x.s.setEnt x.s.nextReq (some {})).ent x.s.nextReq)
        ((x.s.setEnt x.s.nextReq (some {})).tx x.s.nextReq) (x.log x.s.nextReq) (x.ended x.s.nextReq) := by
      show St g _ (upd x.s.ent _ _ _) (x.s.tx _) _ _
      rw [upd_at]
      exact (h.st _ hb).entry fun hg => .inr (hfr hg)
    have l0 := setEnt_loc x.s x.s.nextReq (some {})
    have e0 : (x.s.setEnt x.s.nextReq (some {})).ent x.s.nextReq = some {} := upd_at _ _ _
    generalize x.s.setEnt x.s.nextReq (some {}) = s0 at h0 l0 e0 hx
    cases hy : s0.openReq x.s.nextReq room with
    | mk r1 s1 =>
      rw [hy] at hx
      obtain ⟨l1, n1, h1⟩ := openReq_st hy h0
      have e1 : s1.ent x.s.nextReq = some {} := by rw [n1]; exact e0
      cases r1 with
      | error er =>
        cases hx
        refine h.same ((l0.trans l1).trans (setEnt_loc _ _ _)) fun _ => ?_
        show St g _ (upd s1.ent _ _ _) (s1.tx _) _ _
        rw [upd_at]
        exact h1.rollback hfr
      | ok u =>
        dsimp only at hx
        cases hz : s1.sendHeaders x.s.nextReq hs fin gr with
        | mk r2 s2 =>
          rw [hz] at hx
          obtain ⟨l2, ⟨er, rfl, q2⟩ | ⟨rfl, q2, q3⟩⟩ := sendHeaders_st hz h1 e1
          · split at hx
            · rename_i heq
              cases heq
              cases hx
              refine h.same (((l0.trans l1).trans l2).trans (setEnt_loc _ _ _)) fun _ => ?_
              show St g _ (upd s2.ent _ _ _) (s2.tx _) _ _
              rw [upd_at]
              exact q2.rollback hfr
            · rename_i heq
              cases heq
              cases hx
              exact h.same ((l0.trans l1).trans l2) fun _ => q2
            · rename_i heq; cases heq
          · dsimp only at hx
            cases hx
            have hst := q3 (s2.ent x.s.nextReq) fun hg tys hph =>
              ⟨(phase_first (out := headersOut hs) rfl hph).1, fun hf => by rw [q2 hf]; exact (phase_first rfl hph).2⟩
            have lo := (l0.trans l1).trans l2
            refine ⟨fun j hj => ?_, fun c hc => h.control c (by rw [← lo.control]; exact hc), ?_⟩
            · show St g (Fresh { s2 with nextReq := s2.nextReq + 4 } j) (s2.ent j) (s2.tx j) (upd x.log _ _ j) (upd x.ended _ _ j)
              by_cases e : j = x.s.nextReq
              · subst e
                rw [upd_at, upd_at]
                refine hst.weaken fun hf => ?_
                have := hf.2.2
                dsimp only at this
                rw [lo.next] at this
                omega
              · rw [upd_ne _ _ e, upd_ne _ _ e, lo.tx j e, lo.ent j e]
                refine (h.st j hj).weaken fun hf => ⟨by rw [← lo.server]; exact hf.1, hf.2.1, ?_⟩
                have := hf.2.2
                dsimp only at this
                rw [lo.next] at this
                omega
            · show (s2.nextReq + 4) % 4 = 0
              rw [lo.next]
              have := h.next
              omega

theorem modTx_inv {g : Prop} {x : X} (h : Inv g x) {id : Nat} {f : Tx → Tx} (h1 : ∀ t, (f t).out = t.out) (h2 : ∀ t, (f t).fin = t.fin)
    (h3 : ∀ t, t.sealed = true → (f t).sealed = true) : Inv g (x.modTx id f) := by
  unfold X.modTx
  split
  · exact h
  · rename_i t ht
    refine h.same (setTx_loc _ _ _) fun hb => ?_
    have := h.st id hb
    rw [ht] at this
    rw [S.setTx_at]
    exact this.env (h1 t) (h2 t) (h3 t)

theorem goaway_loc {s s' : S} {id : Nat} {r : Except Err Unit} (h : s.sendGoaway id = (r, s')) :
    s' = { s with localGoaway := s'.localGoaway, tx := s'.tx } ∧ (∀ j, s.control ≠ some j → s'.tx j = s.tx j) := by
  unfold S.sendGoaway at h
  dsimp only at h
  generalize (if s.isServer then id else 0) = i at h
  split at h
  · cases h; exact ⟨rfl, fun _ _ => rfl⟩
  split at h
  · cases h; exact ⟨rfl, fun _ _ => rfl⟩
  split at h
  · cases h; exact ⟨rfl, fun _ _ => rfl⟩
  rename_i c hc
  split at h
  · cases h; exact ⟨rfl, fun _ _ => rfl⟩
  split at h
  · cases h; exact ⟨rfl, fun _ _ => rfl⟩
  split at h
  · cases h; exact ⟨rfl, fun _ _ => rfl⟩
  rename_i b _ _ _ _ _
  unfold S.write at h
  cases hx : s.tx c with
  | none =>
    rw [hx] at h
    cases h
    exact ⟨rfl, fun _ _ => rfl⟩
  | some t =>
    rw [hx] at h
    dsimp only at h
    cases hy : t.write (b.buf.take b.off) false with
    | mk r1 t1 =>
      rw [hy] at h
      have hj : ∀ j, s.control ≠ some j → (s.setTx c t1).tx j = s.tx j := fun j hj =>
        upd_ne _ _ (fun e => hj (by rw [hc, e]))
      cases r1 with
      | error er => cases h; exact ⟨rfl, hj⟩
      | ok n => cases h; exact ⟨rfl, hj⟩

theorem goaway_inv {g : Prop} {x : X} (h : Inv g x) {id : Nat} : Inv g (x.step (.goaway id)) := by
  have key : ∀ {r : Except Err Unit} {s' : S} (gs : List Nat), x.s.sendGoaway id = (r, s') →
      Inv g { s := s', log := x.log, ended := x.ended, goaways := gs } := by
    intro r s' gs hx
    obtain ⟨h1, h2⟩ := goaway_loc hx
    refine ⟨fun j hj => ?_, fun c hc => h.control c (by rw [h1] at hc; exact hc), by show s'.nextReq % 4 = 0; rw [h1]; exact h.next⟩
    show St g (Fresh s' j) (s'.ent j) (s'.tx j) (x.log j) (x.ended j)
    rw [h2 j fun hc => by rw [h.control j hc] at hj; cases hj]
    have q1 : s'.ent = x.s.ent := by rw [h1]
    have q2 : Fresh s' j ↔ Fresh x.s j := by rw [h1]; exact Iff.rfl
    rw [q1]
    exact (h.st j hj).weaken q2.1
  simp only [X.step]
  cases hx : x.s.sendGoaway id with
  | mk r s' =>
    cases r with
    | error er => exact key _ hx
    | ok u => exact key _ hx

theorem step_inv {g : Prop} {x : X} (h : Inv g x) (a : Act) (hp : g → Proper x a) : Inv g (x.step a) := by
  cases a with
  | request hs fin room gr => exact request_inv h hp
  | response id hs fin gr => exact response_inv h hp
  | additional id hs trailer fin gr => exact additional_inv h hp
  | body id bs fin => exact body_inv h
  | goaway id => exact goaway_inv h
  | opened id cap =>
    simp only [X.step]
    split
    · exact h
    · rename_i hn
      split
      · refine h.same (setTx_loc _ _ _) fun hb => ?_
        have := h.st id hb
        rw [hn] at this
        rw [S.setTx_at]
        exact this.opened _
      · exact h
  | entry id =>
    simp only [X.step]
    split
    · exact h
    · rename_i hn
      split
      · refine h.same (setEnt_loc _ _ _) fun hb => ?_
        show St g _ (upd x.s.ent _ _ _) (x.s.tx _) _ _
        rw [upd_at]
        exact (h.st id hb).entry fun _ => .inl hn
      · exact h
  | dropped id =>
    simp only [X.step]
    split
    · rename_i e he
      split
      · rename_i hl
        refine h.same (setEnt_loc _ _ _) fun hb => ?_
        show St g _ (upd x.s.ent _ _ _) (x.s.tx _) _ _
        rw [upd_at]
        have := h.st id hb
        rw [he] at this
        exact this.drop hl
      · exact h
    · exact h
  | capacity id n => exact modTx_inv h (fun _ => rfl) (fun _ => rfl) (fun _ h => h)
  | stopped id => exact modTx_inv h (fun _ => rfl) (fun _ => rfl) (fun t _ => by simp [Tx.sealed])
  | shutdown id => exact modTx_inv h (fun _ => rfl) (fun _ => rfl) (fun t _ => by simp [Tx.sealed])
  | collected id => exact modTx_inv h (fun _ => rfl) (fun _ => rfl) (fun t _ => by simp [Tx.sealed])
  | rxFinished id => exact ⟨h.st, h.control, h.next⟩
  | peerGoaway => exact ⟨h.st, h.control, h.next⟩

theorem initial_inv {g : Prop} {x : X} (h : x.Initial) : Inv g x := by
  refine ⟨fun id hb => ?_, h.control, by rw [h.next]⟩
  rw [h.ent, h.tx id hb, h.log, h.ended]
  exact ⟨rfl, rfl, fun _ e he => by cases he⟩

theorem run_inv {g : Prop} {x : X} (h : Inv g x) : ∀ (l : List Act), (g → ∀ l1 a l2, l = l1 ++ a :: l2 → Proper (x.run l1) a) → Inv g (x.run l) := by
  intro l
  unfold X.run
  induction l generalizing x with
  | nil => intro _; exact h
  | cons a l ih =>
    intro hp
    exact ih (step_inv h a fun hg => hp hg [] a l rfl) fun hg l1 b l2 e => hp hg (a :: l1) b l2 (by rw [e]; rfl)

end Verif.H3.Send
