import Verif.Props.C109

/-! # C115 — GOAWAY is sent with identifiers that never increase -/

namespace Verif.Props.C115
open Verif Verif.H3 Verif.H3.Send Verif.Io

/-- A unidirectional stream of this endpoint. -/
def Own (s : S) (id : Nat) : Prop := isBidi id = false ∧ (id % 2 == 1) = s.isServer

/-- What no call but that for GOAWAY changes. -/
structure Keeps (s s' : S) : Prop where
  server : s'.isServer = s.isServer
  control : s'.control = s.control
  goaway : s'.localGoaway = s.localGoaway
  ent : ∀ id, Own s id → s.ent id = none → s'.ent id = none
  out : ∀ id, Own s id → s.ent id = none → (s'.tx id).map (·.out) = (s.tx id).map (·.out)

theorem Keeps.refl (s : S) : Keeps s s := ⟨rfl, rfl, rfl, fun _ _ h => h, fun _ _ _ => rfl⟩

theorem loc_keeps {s s' : S} {id : Nat} (h : Loc s s' id) (hn : ¬ Own s id ∨ s.ent id ≠ none) : Keeps s s' := by
  have hne : ∀ j, Own s j → s.ent j = none → j ≠ id := fun j hj he e => by
    subst e
    rcases hn with hn | hn
    · exact hn hj
    · exact hn he
  exact ⟨h.server, h.control, h.goaway, fun j hj he => (h.ent j (hne j hj he)).trans he,
    fun j hj he => by rw [h.tx j (hne j hj he)]⟩

theorem headers_loc {s s' : S} {id : Nat} {hs : List Qpack.Header} {fin : Bool} {gr : Nat × Nat} {r : Except Err Unit}
    (h : s.sendHeaders id hs fin gr = (r, s')) : Loc s s' id := by
  rcases sendHeaders_cases h with ⟨_, _, _, h1, h2⟩ | ⟨_, _, h1, h2⟩
  · exact (greased_loc h1).trans (forgot_loc h2)
  · exact (greased_loc h1).trans (headed_loc h2)

theorem response_keeps {s s' : S} {id : Nat} {hs : List Qpack.Header} {fin : Bool} {gr : Nat × Nat} {r : Except Err Unit}
    (h : s.sendResponse id hs fin gr = (r, s')) : Keeps s s' := by
  unfold S.sendResponse at h
  split at h
  · cases h; exact .refl _
  rename_i e he
  split at h
  · cases h; exact .refl _
  exact loc_keeps (headers_loc h) (.inr (by rw [he]; simp))

theorem additional_keeps {s s' : S} {id : Nat} {hs : List Qpack.Header} {trailer fin : Bool} {gr : Nat × Nat} {r : Except Err Unit}
    (h : s.sendAdditional id hs trailer fin gr = (r, s')) : Keeps s s' := by
  unfold S.sendAdditional at h
  split at h
  · cases h; exact .refl _
  split at h
  · cases h; exact .refl _
  rename_i e he
  split at h
  · cases h; exact .refl _
  split at h
  · cases h; exact .refl _
  refine loc_keeps (id := id) ?_ (.inr (by rw [he]; simp))
  cases hy : s.sendHeaders id hs fin gr with
  | mk r1 s1 =>
    rw [hy] at h
    cases r1 with
    | error er => cases h; exact headers_loc hy
    | ok u =>
      rw [bnd_ok] at h
      cases h
      refine (headers_loc hy).trans ?_
      split
      · exact markTrailers_loc _ _
      · exact .refl _ _

theorem body_keeps {s s' : S} {id : Nat} {bs : Bytes} {fin : Bool} {r : Except Err Nat} (h : s.sendBody id bs fin = (r, s')) :
    Keeps s s' := by
  rcases sendBody_cases h with ⟨er, rfl, h1⟩ | ⟨n, e, rfl, hid, he, hl, ht, h1⟩
  · rcases h1 with rfl | ⟨rfl, _⟩
    · exact .refl _
    · refine ⟨rfl, rfl, rfl, fun j _ hj => ?_, fun _ _ _ => rfl⟩
      show upd s.ent id none j = none
      unfold upd
      split
      · rfl
      · exact hj
  · exact loc_keeps (bodied_loc h1) (.inr (by rw [he]; simp))

theorem openReq_loc {s s' : S} {id : Nat} {room : Option Nat} {r : Except Err Unit} (h : s.openReq id room = (r, s')) : Loc s s' id := by
  unfold S.openReq at h
  split at h
  · split at h
    · cases h; exact .refl _ _
    · cases h; exact setTx_loc _ _ _
  · rename_i t ht
    unfold S.write at h
    rw [ht] at h
    dsimp only at h
    cases hy : t.write [] false with
    | mk r1 t1 =>
      rw [hy] at h
      cases r1 with
      | error e => cases h; exact setTx_loc _ _ _
      | ok n => cases h; exact setTx_loc _ _ _

/-- A request changes nothing but its stream, and the number of the next. -/
theorem request_cases {s s' : S} {hs : List Qpack.Header} {fin : Bool} {room : Option Nat} {gr : Nat × Nat} {r : Except Err Nat}
    (h : s.sendRequest hs fin room gr = (r, s')) : ∃ s1, Loc s s1 s.nextReq ∧ s' = { s1 with nextReq := s'.nextReq } := by
  unfold S.sendRequest at h
  split at h
  · cases h; exact ⟨_, .refl _ _, rfl⟩
  have l0 := setEnt_loc s s.nextReq (some {})
  split at h
  · rename_i hy
    cases h
    exact ⟨_, (l0.trans (openReq_loc hy)).trans (setEnt_loc _ _ _), rfl⟩
  · rename_i s1 hy
    have l1 := l0.trans (openReq_loc hy)
    split at h
    · rename_i hz; cases h
      exact ⟨_, (l1.trans (headers_loc hz)).trans (setEnt_loc _ _ _), rfl⟩
    · rename_i hz; cases h
      exact ⟨_, l1.trans (headers_loc hz), rfl⟩
    · rename_i hz; cases h
      exact ⟨_, l1.trans (headers_loc hz), rfl⟩

theorem request_keeps {s s' : S} {hs : List Qpack.Header} {fin : Bool} {room : Option Nat} {gr : Nat × Nat} {r : Except Err Nat}
    (h : s.sendRequest hs fin room gr = (r, s')) (hn : s.nextReq % 4 = 0) : Keeps s s' := by
  obtain ⟨s1, h1, h2⟩ := request_cases h
  have := loc_keeps h1 (.inl fun ho => by have := ho.1; rw [bidi_next hn] at this; cases this)
  rw [h2]
  exact ⟨this.server, this.control, this.goaway, this.ent, this.out⟩

theorem modTx_keeps {x : X} {id : Nat} {f : Tx → Tx} (h : ∀ t, (f t).out = t.out) : Keeps x.s (x.modTx id f).s := by
  unfold X.modTx
  split
  · exact .refl _
  · rename_i t ht
    refine ⟨rfl, rfl, rfl, fun _ _ h => h, fun j _ _ => ?_⟩
    show (upd x.s.tx id (some (f t)) j).map _ = _
    by_cases e : j = id
    · subst e; rw [upd_at, ht]; simp [h]
    · rw [upd_ne _ _ e]

/-- Only the call for GOAWAY sends GOAWAY. -/
theorem step_keeps {x : X} (hi : Inv False x) (a : Send.Act) (ha : ∀ id, a ≠ .goaway id) :
    Keeps x.s (x.step a).s ∧ (x.step a).goaways = x.goaways := by
  cases a with
  | request hs fin room gr =>
    simp only [X.step]
    cases hx : x.s.sendRequest hs fin room gr with
    | mk r s' => cases r <;> exact ⟨request_keeps hx hi.next, rfl⟩
  | response id hs fin gr =>
    simp only [X.step]
    cases hx : x.s.sendResponse id hs fin gr with
    | mk r s' => cases r <;> exact ⟨response_keeps hx, rfl⟩
  | additional id hs trailer fin gr =>
    simp only [X.step]
    cases hx : x.s.sendAdditional id hs trailer fin gr with
    | mk r s' => cases r <;> exact ⟨additional_keeps hx, rfl⟩
  | body id bs fin =>
    simp only [X.step]
    cases hx : x.s.sendBody id bs fin with
    | mk r s' => cases r <;> exact ⟨body_keeps hx, rfl⟩
  | goaway id => exact absurd rfl (ha id)
  | opened id cap =>
    simp only [X.step]
    split
    · exact ⟨.refl _, rfl⟩
    · split
      · rename_i hb
        refine ⟨loc_keeps (setTx_loc _ id _) (.inl fun ho => ?_), rfl⟩
        rw [ho.1] at hb; cases hb
      · exact ⟨.refl _, rfl⟩
  | entry id =>
    simp only [X.step]
    split
    · exact ⟨.refl _, rfl⟩
    · split
      · rename_i hb
        refine ⟨loc_keeps (setEnt_loc _ id _) (.inl fun ho => ?_), rfl⟩
        rw [ho.1, ho.2] at hb; simp at hb
      · exact ⟨.refl _, rfl⟩
  | dropped id =>
    simp only [X.step]
    split
    · rename_i e he
      split
      · exact ⟨loc_keeps (setEnt_loc _ id _) (.inr (by rw [he]; simp)), rfl⟩
      · exact ⟨.refl _, rfl⟩
    · exact ⟨.refl _, rfl⟩
  | capacity id n => exact ⟨modTx_keeps fun _ => rfl, by simp only [X.step]; unfold X.modTx; split <;> rfl⟩
  | stopped id => exact ⟨modTx_keeps fun _ => rfl, by simp only [X.step]; unfold X.modTx; split <;> rfl⟩
  | shutdown id => exact ⟨modTx_keeps fun _ => rfl, by simp only [X.step]; unfold X.modTx; split <;> rfl⟩
  | collected id => exact ⟨modTx_keeps fun _ => rfl, by simp only [X.step]; unfold X.modTx; split <;> rfl⟩
  | rxFinished id => exact ⟨⟨rfl, rfl, rfl, fun _ _ h => h, fun _ _ _ => rfl⟩, rfl⟩
  | peerGoaway => exact ⟨⟨rfl, rfl, rfl, fun _ _ h => h, fun _ _ _ => rfl⟩, rfl⟩

/-- The frame that is written. -/
theorem frame {id : Nat} {b : Cur} (h : toBytes (.goAway id) ⟨List.replicate 10 42, 0⟩ = (.ok (), b)) :
    Wire 0x07 (enc id) (b.buf.take b.off) := by
  have h : putId 0x07 id ⟨List.replicate 10 42, 0⟩ = (.ok (), b) := h
  by_cases hid : id < 2 ^ 62
  · have hw := putId_writes (ty := 0x07) (by decide) hid
    have hl : (enc id).length < 2 ^ 62 := by rcases enc_isVarint hid with h | h | h | h <;> omega
    by_cases hc : (enc 0x07 ++ (enc (enc id).length ++ enc id)).length ≤ 10
    · obtain ⟨c', e, w⟩ := hw.ok ⟨List.replicate 10 42, 0⟩ (by unfold Cur.WF; decide) hc
      rw [h] at e
      cases e
      have h1 := Io.Wr.rest w
      have h2 := w.off
      dsimp only at h1 h2
      rw [List.drop_zero] at h1
      rw [h1, h2, Nat.zero_add, List.take_left, ← List.append_assoc]
      exact wire_enc (by decide) hl
    · obtain ⟨c', e⟩ := hw.short ⟨List.replicate 10 42, 0⟩ (by unfold Cur.WF; decide) (Nat.lt_of_not_le hc)
      rw [h] at e
      cases e
  · unfold putId at h
    rw [bind_run] at h
    have hv : vlen id = Io.fail .panic := by
      unfold vlen varintLen maxVarInt
      rw [if_neg (by omega), if_neg (by omega), if_neg (by omega), if_neg (by omega)]
    rw [hv] at h
    split at h
    · rw [bind_run] at h
      cases h
    · cases h

/-- What a successful call does. -/
theorem goaway_ok {s s' : S} {id c : Nat} (hc : s.control = some c) (h : s.sendGoaway id = (.ok (), s')) :
    ∃ i t w, (s.isServer = true → i = id ∧ i % 4 = 0) ∧ (s.isServer = false → i = 0) ∧ (∀ g, s.localGoaway = some g → i ≤ g) ∧
      s.tx c = some t ∧ Wire 0x07 (enc i) w ∧ s' = { s.setTx c (t.add w false) with localGoaway := some i } ∧
      i = (if s.isServer then id else 0) := by
  unfold S.sendGoaway at h
  dsimp only at h
  have hi1 : s.isServer = true → (if s.isServer then id else 0) = id := fun h => by rw [h]; rfl
  have hi2 : s.isServer = false → (if s.isServer then id else 0) = 0 := fun h => by rw [h]; rfl
  generalize (if s.isServer then id else 0) = i at h hi1 hi2
  split at h
  · cases h
  rename_i h4
  split at h
  · cases h
  rename_i hg
  rw [hc] at h
  dsimp only at h
  split at h
  · cases h
  rename_i b hb
  split at h
  · cases h
  rename_i cap hcap
  split at h
  · cases h
  rename_i hroom
  obtain ⟨t, ht, rfl, _⟩ := S.capacity_ok hcap
  have hlen : (b.buf.take b.off).length ≤ t.cap := by rw [List.length_take]; omega
  cases hs : t.sealed with
  | true =>
    obtain ⟨e, he⟩ := S.write_sealed (bs := b.buf.take b.off) (fin := false) ht hs (.inr rfl)
    rw [he] at h
    cases h
  | false =>
    rw [S.write_full false ht hs hlen, bnd_ok] at h
    cases h
    refine ⟨i, t, _, fun h => ⟨hi1 h, ?_⟩, hi2, fun g hg' => ?_, ht, frame hb, rfl, rfl⟩
    · rw [h] at h4; simpa using h4
    · rw [hg'] at hg; simpa using hg

theorem goaway_none {s s' : S} {id : Nat} {r : Except Err Unit} (hc : s.control = none) (h : s.sendGoaway id = (r, s')) : s' = s := by
  unfold S.sendGoaway at h
  dsimp only at h
  generalize (if s.isServer then id else 0) = i at h
  split at h
  · cases h; rfl
  split at h
  · cases h; rfl
  rw [hc] at h
  cases h; rfl

theorem goaway_err {s s' : S} {id c : Nat} {e : Err} (hc : s.control = some c) (h : s.sendGoaway id = (.error e, s')) : s' = s := by
  unfold S.sendGoaway at h
  dsimp only at h
  generalize (if s.isServer then id else 0) = i at h
  split at h
  · cases h; rfl
  split at h
  · cases h; rfl
  rw [hc] at h
  dsimp only at h
  split at h
  · cases h; rfl
  rename_i b hb
  split at h
  · cases h; rfl
  rename_i cap hcap
  split at h
  · cases h; rfl
  obtain ⟨t, ht, rfl, _⟩ := S.capacity_ok hcap
  have hlen : (b.buf.take b.off).length ≤ t.cap := by rw [List.length_take]; omega
  cases hs : t.sealed with
  | true =>
    obtain ⟨e, he⟩ := S.write_sealed (bs := b.buf.take b.off) (fin := false) ht hs (.inr rfl)
    rw [he] at h
    cases h; rfl
  | false =>
    rw [S.write_full false ht hs hlen, bnd_ok] at h
    cases h

/-- The invariant; `out0` is what was on the control stream before. -/
structure G (srv : Bool) (ctl : Option Nat) (out0 : Bytes) (x : X) : Prop where
  server : x.s.isServer = srv
  control : x.s.control = ctl
  own : ∀ c, x.s.control = some c → Own x.s c
  ent : ∀ id, Own x.s id → x.s.ent id = none
  last : ∀ g ∈ x.goaways, ∃ p, x.s.localGoaway = some p ∧ p ≤ g
  le : x.goaways.Pairwise (· ≥ ·)
  kind : ∀ g ∈ x.goaways, g % 4 = 0 ∧ (srv = false → g = 0)
  out : ∀ c, x.s.control = some c → ∀ o, (x.s.tx c).map (·.out) = some o →
    ∃ bs, o = out0 ++ bs ∧ Frames (x.goaways.map fun g => (0x07, enc g)) bs

theorem G.keeps {srv : Bool} {ctl : Option Nat} {out0 : Bytes} {x x' : X} (h : G srv ctl out0 x) (hk : Keeps x.s x'.s) (hg : x'.goaways = x.goaways) :
    G srv ctl out0 x' := by
  have ho : ∀ id, Own x'.s id ↔ Own x.s id := fun id => by unfold Own; rw [hk.server]
  refine ⟨hk.server.trans h.server, hk.control.trans h.control, fun c hc => (ho c).2 (h.own c (by rw [← hk.control]; exact hc)),
    fun id hid => hk.ent id ((ho id).1 hid) (h.ent id ((ho id).1 hid)), by rw [hg, hk.goaway]; exact h.last, by rw [hg]; exact h.le,
    by rw [hg]; exact h.kind, fun c hc o he => ?_⟩
  rw [hk.control] at hc
  have hw := h.own c hc
  rw [hk.out c hw (h.ent c hw)] at he
  rw [hg]
  exact h.out c hc o he

theorem step_g {srv : Bool} {ctl : Option Nat} {out0 : Bytes} {x : X} (hi : Inv False x) (h : G srv ctl out0 x) (a : Send.Act) : G srv ctl out0 (x.step a) := by
  by_cases ha : ∃ id, a = .goaway id
  · obtain ⟨id, rfl⟩ := ha
    simp only [X.step]
    cases hx : x.s.sendGoaway id with
    | mk r s' =>
      cases hc : x.s.control with
      | none =>
        have := goaway_none hc hx
        subst this
        cases r with
        | error e => exact h
        | ok u => simp only [Option.isSome_none]; exact h.keeps (.refl _) (by simp)
      | some c =>
        cases r with
        | error e =>
          have := goaway_err hc hx
          subst this
          exact h
        | ok u =>
          obtain ⟨i, t, w, h1, h2, h3, h4, h5, rfl, h7⟩ := goaway_ok hc hx
          simp only [Option.isSome_some, if_true, ← h7]
          refine ⟨h.server, h.control, h.own, h.ent, fun g hg => ⟨i, rfl, ?_⟩, ?_, fun g hg => ?_, fun c' hc' o ho => ?_⟩
          · simp only [List.mem_append, List.mem_singleton] at hg
            rcases hg with hg | rfl
            · obtain ⟨p, hp, hle⟩ := h.last g hg
              exact Nat.le_trans (h3 p hp) hle
            · exact Nat.le_refl _
          · rw [List.pairwise_append]
            refine ⟨h.le, List.pairwise_singleton _ _, fun a ha b hb => ?_⟩
            rw [List.mem_singleton] at hb
            subst hb
            obtain ⟨p, hp, hle⟩ := h.last a ha
            exact Nat.le_trans (h3 p hp) hle
          · simp only [List.mem_append, List.mem_singleton] at hg
            rcases hg with hg | rfl
            · exact h.kind g hg
            · cases hs : x.s.isServer with
              | true => exact ⟨(h1 hs).2, fun hf => by rw [h.server, hf] at hs; cases hs⟩
              | false => rw [h2 hs]; exact ⟨rfl, fun _ => rfl⟩
          · have hc' : x.s.control = some c' := hc'
            rw [hc] at hc'
            cases hc'
            have ho : ((x.s.setTx c (t.add w false)).tx c).map (·.out) = some o := ho
            rw [S.setTx_at] at ho
            have ho : t.out ++ w = o := Option.some.inj ho
            obtain ⟨bs, q1, q2⟩ := h.out c hc t.out (by rw [h4]; rfl)
            refine ⟨bs ++ w, by rw [← ho, q1, List.append_assoc], ?_⟩
            rw [List.map_append]
            exact .snoc q2 h5
  · obtain ⟨h1, h2⟩ := step_keeps hi a fun id e => ha ⟨id, e⟩
    exact h.keeps h1 h2

theorem run_g {srv : Bool} {ctl : Option Nat} {out0 : Bytes} {x : X} (hi : Inv False x) (h : G srv ctl out0 x) (l : List Send.Act) : G srv ctl out0 (x.run l) := by
  unfold X.run
  induction l generalizing x with
  | nil => exact h
  | cons a l ih => exact ih (step_inv hi a fun h => h.elim) (step_g hi h a)

theorem init_g {x : X} (h : x.Initial) {out0 : Bytes} (ho : ∀ c, x.s.control = some c → ∀ o, (x.s.tx c).map (·.out) = some o → o = out0) :
    G x.s.isServer x.s.control out0 x := by
  refine ⟨rfl, rfl, fun c hc => ⟨h.control c hc, h.own c hc⟩, fun _ _ => h.ent _, ?_, ?_, ?_, fun c hc o he => ⟨[], ?_, ?_⟩⟩
  · rw [h.goaways]; intro g hg; cases hg
  · rw [h.goaways]; exact .nil
  · rw [h.goaways]; intro g hg; cases hg
  · rw [ho c hc o he, List.append_nil]
  · rw [h.goaways]; exact .nil

/-- In every execution, the identifiers of the GOAWAY frames that were sent never increase. Those
of a server are identifiers of requests, those of a client are 0. -/
theorem decreasing {x : X} (h : x.Initial) (l : List Send.Act) :
    (x.run l).goaways.Pairwise (· ≥ ·) ∧ ∀ g ∈ (x.run l).goaways, g % 4 = 0 ∧ (x.s.isServer = false → g = 0) := by
  have := run_g (initial_inv h) (init_g (out0 := match x.s.control with | none => [] | some c => match x.s.tx c with | none => [] | some t => t.out) h
    fun c hc o ho => by
      rw [hc]
      dsimp only
      cases ht : x.s.tx c with
      | none => rw [ht] at ho; cases ho
      | some t => rw [ht] at ho; exact (Option.some.inj ho).symm) l
  exact ⟨this.le, this.kind⟩

/-- In every execution, what follows on the control stream after its type and SETTINGS is exactly
the GOAWAY frames with these identifiers. -/
theorem sent {x : X} (h : x.Initial) {c : Nat} (hc : x.s.control = some c) {t : Tx} (ht : x.s.tx c = some t) (l : List Send.Act)
    {t' : Tx} (ht' : (x.run l).s.tx c = some t') :
    ∃ bs, t'.out = t.out ++ bs ∧ Frames ((x.run l).goaways.map fun g => (0x07, enc g)) bs := by
  have := run_g (initial_inv h) (init_g (out0 := t.out) h fun c' h' o ho => by
    rw [hc] at h'
    cases h'
    rw [ht] at ho
    exact (Option.some.inj ho).symm) l
  exact this.out c (this.control.trans hc) t'.out (by rw [ht']; rfl)

/-! ### Requests after the peer's GOAWAY -/

theorem greased_none {s s' : S} {id : Nat} (h : Greased s s' id) (hn : s.tx id = none) : s'.tx id = none := by
  rcases h with h | ⟨t, _, _, _, ht, _⟩
  · rw [h]; exact hn
  · rw [ht] at hn; cases hn

theorem forgot_none {s s' : S} {id : Nat} (h : Forgot s s' id) (hn : s.tx id = none) : s'.tx id = none := by
  rcases h with rfl | ⟨rfl, _⟩ <;> exact hn

theorem headers_none {s s' : S} {id : Nat} {hs : List Qpack.Header} {fin : Bool} {gr : Nat × Nat} {r : Except Err Unit}
    (h : s.sendHeaders id hs fin gr = (r, s')) (hn : s.tx id = none) : s'.tx id = none := by
  rcases sendHeaders_cases h with ⟨_, _, _, h1, h2⟩ | ⟨_, _, h1, h2⟩
  · exact forgot_none h2 (greased_none h1 hn)
  · obtain ⟨t, _, _, ht, _⟩ := h2
    rw [greased_none h1 hn] at ht; cases ht

/-- No stream for a request is made: a client that has got GOAWAY, `s` before and `s'` after. -/
structure Stays (s s' : S) : Prop where
  server : s'.isServer = s.isServer
  peer : s'.peerGoaway = true
  tx : ∀ id, id % 4 = 0 → s.tx id = none → s'.tx id = none

theorem loc_stays {s s' : S} {i : Nat} (hp : s.peerGoaway = true) (h : Loc s s' i) (h' : i % 4 = 0 → s.tx i = none → s'.tx i = none) :
    Stays s s' := by
  refine ⟨h.server, h.peer.trans hp, fun id h4 hn => ?_⟩
  by_cases e : id = i
  · subst e; exact h' h4 hn
  · rw [h.tx id e]; exact hn

theorem modTx_stays {x : X} {id : Nat} {f : Tx → Tx} (hp : x.s.peerGoaway = true) : Stays x.s (x.modTx id f).s := by
  unfold X.modTx
  split
  · exact ⟨rfl, hp, fun _ _ h => h⟩
  · rename_i t ht
    exact loc_stays hp (setTx_loc _ id _) fun _ hn => by rw [ht] at hn; cases hn

theorem step_stays {x : X} (hi : Inv False x) (hs : x.s.isServer = false) (hp : x.s.peerGoaway = true) (a : Send.Act) :
    Stays x.s (x.step a).s := by
  have hr : Stays x.s x.s := ⟨rfl, hp, fun _ _ h => h⟩
  cases a with
  | request hs fin room gr =>
    simp only [X.step]
    unfold S.sendRequest
    rw [if_pos hp]
    exact hr
  | response id hs fin gr =>
    simp only [X.step]
    cases hx : x.s.sendResponse id hs fin gr with
    | mk r s' =>
      have : Stays x.s s' := by
        unfold S.sendResponse at hx
        split at hx
        · cases hx; exact hr
        split at hx
        · cases hx; exact hr
        exact loc_stays hp (headers_loc hx) fun _ => headers_none hx
      cases r <;> exact this
  | additional id hs trailer fin gr =>
    simp only [X.step]
    cases hx : x.s.sendAdditional id hs trailer fin gr with
    | mk r s' =>
      have : Stays x.s s' := by
        unfold S.sendAdditional at hx
        split at hx
        · cases hx; exact hr
        split at hx
        · cases hx; exact hr
        split at hx
        · cases hx; exact hr
        split at hx
        · cases hx; exact hr
        cases hy : x.s.sendHeaders id hs fin gr with
        | mk r1 s1 =>
          rw [hy] at hx
          cases r1 with
          | error er => cases hx; exact loc_stays hp (headers_loc hy) fun _ => headers_none hy
          | ok u =>
            rw [bnd_ok] at hx
            cases hx
            split
            · exact loc_stays hp ((headers_loc hy).trans (markTrailers_loc _ _)) fun _ hn => by
                rw [markTrailers_tx]; exact headers_none hy hn
            · exact loc_stays hp (headers_loc hy) fun _ => headers_none hy
      cases r <;> exact this
  | body id bs fin =>
    simp only [X.step]
    cases hx : x.s.sendBody id bs fin with
    | mk r s' =>
      have : Stays x.s s' := by
        rcases sendBody_cases hx with ⟨er, rfl, h1⟩ | ⟨n, e, rfl, hid, he, hl, ht, h1⟩
        · exact loc_stays hp (forgot_loc h1) fun _ => forgot_none h1
        · refine loc_stays hp (bodied_loc h1) fun _ hn => ?_
          obtain ⟨t, _, ht, _⟩ := h1
          rw [ht] at hn; cases hn
      cases r <;> exact this
  | goaway id =>
    simp only [X.step]
    cases hx : x.s.sendGoaway id with
    | mk r s' =>
      obtain ⟨h1, h2⟩ := goaway_loc hx
      have : Stays x.s s' := by
        refine ⟨by rw [h1], by rw [h1]; exact hp, fun j hj hn => ?_⟩
        rw [h2 j fun hc => by have := hi.control j hc; rw [bidi_next hj] at this; cases this]
        exact hn
      cases r <;> exact this
  | opened id cap =>
    simp only [X.step]
    split
    · exact hr
    · split
      · rename_i hb
        refine loc_stays hp (setTx_loc _ id _) fun h4 => ?_
        rw [hs] at hb
        simp only [Bool.and_eq_true, bne_iff_ne, ne_eq, Bool.not_eq_false, beq_iff_eq] at hb
        omega
      · exact hr
  | entry id =>
    simp only [X.step]
    split
    · exact hr
    · split
      · exact loc_stays hp (setEnt_loc _ id _) fun _ hn => hn
      · exact hr
  | dropped id =>
    simp only [X.step]
    split
    · split
      · exact loc_stays hp (setEnt_loc _ id _) fun _ hn => hn
      · exact hr
    · exact hr
  | capacity id n => exact modTx_stays hp
  | stopped id => exact modTx_stays hp
  | shutdown id => exact modTx_stays hp
  | collected id => exact modTx_stays hp
  | rxFinished id => exact ⟨rfl, hp, fun _ _ h => h⟩
  | peerGoaway => exact ⟨rfl, rfl, fun _ _ h => h⟩

/-- In every execution of a client, after it has processed a GOAWAY of its peer no stream is
opened for a request any more: what did not exist then has nothing sent on it later. -/
theorem no_request {x : X} (h : x.Initial) (hs : x.s.isServer = false) (l1 l2 : List Send.Act) {id : Nat} (h4 : id % 4 = 0)
    (hn : (x.run l1).s.tx id = none) :
    (x.run (l1 ++ .peerGoaway :: l2)).s.tx id = none ∧ (x.run (l1 ++ .peerGoaway :: l2)).log id = [] := by
  have hi := run_inv (g := False) (initial_inv h) l1 (fun h => h.elim)
  have hsrv : (x.run l1).s.isServer = false := by
    have : G x.s.isServer x.s.control (match x.s.control with | none => [] | some c => match x.s.tx c with | none => [] | some t => t.out) (x.run l1) :=
      run_g (initial_inv h) (init_g h fun c hc o ho => by
        rw [hc]
        dsimp only
        cases ht : x.s.tx c with
        | none => rw [ht] at ho; cases ho
        | some t => rw [ht] at ho; exact (Option.some.inj ho).symm) l1
    exact this.server.trans hs
  have key : (x.run (l1 ++ .peerGoaway :: l2)).s.tx id = none := by
    have e : x.run (l1 ++ .peerGoaway :: l2) = ((x.run l1).step .peerGoaway).run l2 := by simp [X.run]
    rw [e]
    have hi' := step_inv hi .peerGoaway fun h => h.elim
    have : ∀ (l : List Send.Act) {y : X}, Inv False y → y.s.isServer = false → y.s.peerGoaway = true → y.s.tx id = none → (y.run l).s.tx id = none := by
      intro l
      unfold X.run
      induction l with
      | nil => intro y _ _ _ h; exact h
      | cons a l ih =>
        intro y hi hs hp hn
        have q := step_stays hi hs hp a
        exact ih (step_inv hi a fun h => h.elim) (q.server.trans hs) q.peer (q.tx id h4 hn)
    exact this l2 hi' hsrv rfl hn
  exact ⟨key, (C109.none h _ (by omega) key).1⟩

/-! Tests: a server sends GOAWAY with 8, 4, 4; 6 and 8 are refused. -/

def server : X := { s := { isServer := true, grease := false, control := some 3, tx := upd (fun _ => none) 3 (some { out := [0x00, 0x04, 0x00], cap := 100 }) } }

example : ((server.run [.goaway 8, .goaway 4, .goaway 6, .goaway 8, .goaway 4]).goaways,
    ((server.run [.goaway 8, .goaway 4, .goaway 6, .goaway 8, .goaway 4]).s.tx 3).map (·.out)) =
    ([8, 4, 4], some [0x00, 0x04, 0x00, 0x07, 0x01, 0x08, 0x07, 0x01, 0x04, 0x07, 0x01, 0x04]) := by decide +kernel

theorem initial : server.Initial := by
  refine ⟨fun _ => rfl, fun id hb => ?_, rfl, fun _ => rfl, fun _ => rfl, rfl, rfl, fun c hc => ?_, fun c hc => ?_⟩
  · have : id ≠ 3 := by rintro rfl; cases hb
    simp [server, upd, this]
  · cases hc; rfl
  · cases hc; rfl

/-- The client's request is refused after GOAWAY. -/
example : ((C109.client.run [.request C109.get true (some 9) (0, 0), .peerGoaway, .request C109.get true (some 9) (0, 0)]).s.nextReq,
    (C109.client.run [.request C109.get true (some 9) (0, 0), .request C109.get true (some 9) (0, 0)]).s.nextReq) = (4, 8) := by decide +kernel

end Verif.Props.C115
