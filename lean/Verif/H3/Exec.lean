import Verif.H3.Inv

/-! The invariant holds in every execution. -/

namespace Verif.H3
open Verif

variable {cf : Bool × Option Nat} {used : Nat → Bool} {log : Nat → List Out}

theorem recvBody_ok {spare : Nat → Nat → Nat} {id n : Nat} {c c' : C} {res : BodyRes} (hu : used id = true)
    (h : Inv cf c used log) (hp : c.recvBody spare id n = (res, c')) : BodyOk cf used log id n [] res c' :=
  bodyLoop_ok hu h (Nat.le_refl _) hp

/-! ### The transport -/

theorem Match.drain {limit id : Nat} {peer : Bool} {s : Strm} {pre x : Bytes} {out : List Out}
    (m : Match limit id peer s pre out) (hst : s.state = .drain) : Match limit id peer s (pre ++ x) out := by
  cases m with
  | start _ h2 => rw [hst] at h2; cases h2
  | @other v x' y h1 h2 h3 h4 =>
    rw [List.append_assoc]; exact Match.other h1 h2 h3 h4
  | ft _ h2 => rw [hst] at h2; cases h2
  | fl _ h2 => rw [hst] at h2; cases h2
  | fp _ h2 => rw [hst] at h2; cases h2
  | sk _ h2 => rw [hst] at h2; cases h2
  | da _ h2 => rw [hst] at h2; cases h2

theorem take_append_le {α : Type} {l x : List α} {k : Nat} (h : k ≤ l.length) : (l ++ x).take k = l.take k := by
  rw [List.take_append, Nat.sub_eq_zero_of_le h]; simp

/-- A change by the transport. -/
theorem Inv.setRx {c : C} {id : Nat} {r : Rx} (h : Inv cf c used log) (hu : used id = true)
    (hl : ∀ {limit peer s out}, Live limit id peer s (c.rx id) out → Live limit id peer s r out)
    (hw : (c.rx id).WF → r.WF) (hf : (c.rx id).WF → (c.rx id).finished = true → r.finished = true ∧ r.all = (c.rx id).all ∧
      (r.err = none → (c.rx id).err = none))
    (hp : ∃ x, r.all = (c.rx id).all ++ x) : Inv cf (c.setRx id r) used log := by
  have hrx : (c.setRx id r).rx id = r := by simp [C.setRx, upd_same]
  have hcl : Closed id c (log id) → Closed id (c.setRx id r) (log id) := by
    intro o
    obtain ⟨f1, f2, f3⟩ := hf o.wf o.fin
    obtain ⟨k, k1, k2, k3⟩ := o.hist
    refine ⟨by rw [hrx]; exact hw o.wf, by rw [hrx]; exact f1, o.entry, ⟨k, ?_, ?_, ?_⟩⟩
    · rw [hrx, f2]; exact k1
    · rw [hrx, f2]; exact k2
    · rw [hrx, f2]; exact fun e => k3 (f3 e)
  have hbr : Broken id c (log id) → Broken id (c.setRx id r) (log id) := by
    intro o
    obtain ⟨k, k1, k2⟩ := o.hist
    obtain ⟨x, hx⟩ := hp
    refine ⟨o.lerr, o.state, ⟨k, ?_, ?_⟩⟩
    · rw [hrx, hx, List.length_append]; omega
    · rw [hrx, hx, take_append_le k1]; exact k2
  refine h.update rfl (fun j hj => ⟨rfl, rfl, rfl, fun e => e, upd_other _ _ hj, .refl _⟩) (fun _ _ => rfl) hu
    (fun j hj => .inl hj) ?_ (fun hj => ((h.fins id hj).2.imp hcl hbr))
  rcases h.used hu with o | o | o
  · left
    unfold Open at o ⊢
    rw [hrx]
    exact hl o
  · exact .inr (.inl (hcl o))
  · exact .inr (.inr (hbr o))

theorem arrive_wf {r : Rx} {bs : Bytes} {fin : Bool} (h : r.WF) : (r.arrive bs fin).WF := by
  unfold Rx.arrive
  split
  · exact h
  rename_i hg
  simp only [Bool.or_eq_true, not_or, Bool.not_eq_true] at hg
  obtain ⟨g1, g2⟩ := hg
  have hne : ¬ r.err.isSome = true := fun e => by have := (h.err e).1; rw [g2] at this; cases this
  have hm : r.marker = false := by
    cases hm : r.marker with
    | false => rfl
    | true => have := (h.marker hm).1; rw [g2] at this; cases this
  split
  · exact ⟨Nat.le_refl _, fun e => absurd e hne, (fun c => by simp only [g1] at c; cases c), (fun c => by simp only [hm] at c; cases c)⟩
  · refine ⟨?_, fun e => absurd e hne, (fun c => by simp only [g1] at c; cases c), ?_⟩
    · have := h.off
      show r.off ≤ (r.all ++ bs).length
      rw [List.length_append]; omega
    · intro c
      simp only [Bool.and_eq_true, beq_iff_eq, List.isEmpty_iff] at c
      obtain ⟨⟨c1, c2⟩, c3⟩ := c
      refine ⟨c1, ?_⟩
      show r.off = (r.all ++ bs).length
      rw [c2, List.append_nil]; exact c3

theorem arrive_inv {c : C} {id : Nat} {bs : Bytes} {fin : Bool} (h : Inv cf c used log) (hu : used id = true) :
    Inv cf (c.setRx id ((c.rx id).arrive bs fin)) used log := by
  refine h.setRx hu ?_ arrive_wf ?_ ?_
  · intro limit peer s out o
    have hw := arrive_wf (bs := bs) (fin := fin) o.wf
    obtain ⟨k, k1, k2, k3⟩ := o.hist
    unfold Rx.arrive at hw ⊢
    split at hw
    · rename_i hg; rw [if_pos hg]; exact o
    rename_i hg
    rw [if_neg hg]
    split at hw
    · rename_i hd
      rw [if_pos hd]
      refine ⟨hw, ⟨((c.rx id).all ++ bs).length, Nat.le_refl _, ?_, fun _ => rfl⟩, o.loc, o.drain⟩
      show Match limit id peer s (((c.rx id).all ++ bs).take _) out
      rw [List.take_length]
      have : (c.rx id).all ++ bs = (c.rx id).all.take k ++ ((c.rx id).all.drop k ++ bs) := by
        rw [← List.append_assoc, List.take_append_drop]
      rw [this]
      exact k2.drain (o.drain hd)
    · rename_i hd
      rw [if_neg hd]
      refine ⟨hw, ⟨k, ?_, ?_, k3⟩, o.loc, o.drain⟩
      · show k ≤ ((c.rx id).all ++ bs).length
        rw [List.length_append]; omega
      · show Match limit id peer s (((c.rx id).all ++ bs).take k) out
        rw [take_append_le k1]; exact k2
  · intro _ hf
    have : (c.rx id).arrive bs fin = c.rx id := by
      unfold Rx.arrive
      refine if_pos ?_
      unfold Rx.finished at hf
      cases hg : (c.rx id).gone <;> cases hi : (c.rx id).fin <;> simp_all
    rw [this]
    exact ⟨hf, rfl, fun e => e⟩
  · unfold Rx.arrive
    split
    · exact ⟨[], by simp⟩
    split <;> exact ⟨bs, rfl⟩

theorem reset_wf {r : Rx} {code : Nat} (h : r.WF) : (r.reset code).WF := by
  unfold Rx.reset
  split
  · exact h
  · exact ⟨Nat.le_refl _, fun _ => ⟨rfl, rfl⟩, fun _ => ⟨rfl, rfl⟩, fun _ => ⟨rfl, rfl⟩⟩

theorem reset_inv {c : C} {id code : Nat} (h : Inv cf c used log) (hu : used id = true) :
    Inv cf (c.setRx id ((c.rx id).reset code)) used log := by
  refine h.setRx hu ?_ reset_wf ?_ ?_
  · intro limit peer s out o
    have hw := reset_wf (code := code) o.wf
    obtain ⟨k, k1, k2, k3⟩ := o.hist
    unfold Rx.reset at hw ⊢
    split at hw
    · rename_i hg; rw [if_pos hg]; exact o
    rename_i hg
    rw [if_neg hg]
    exact ⟨hw, ⟨k, k1, k2, (fun c => by cases c)⟩, o.loc, o.drain⟩
  · intro _ hf
    unfold Rx.reset
    split
    · exact ⟨hf, rfl, fun e => e⟩
    · exact ⟨by simp [Rx.finished], rfl, (fun c => by cases c)⟩
  · unfold Rx.reset
    split <;> exact ⟨[], by simp⟩

theorem sent_wf {r : Rx} (h : r.WF) : r.sent.WF := by
  unfold Rx.sent
  split
  · exact h
  · refine ⟨h.off, h.err, ?_, h.marker⟩
    intro e
    have : r.finished = true := by
      simp only [Bool.and_eq_true] at e; exact e.1
    exact ⟨finished_fin (r := r) h this, finished_off (r := r) h this⟩

theorem sent_inv {c : C} {id : Nat} (h : Inv cf c used log) (hu : used id = true) :
    Inv cf (c.setRx id (c.rx id).sent) used log := by
  refine h.setRx hu ?_ sent_wf ?_ ?_
  · intro limit peer s out o
    have hw := sent_wf o.wf
    obtain ⟨k, k1, k2, k3⟩ := o.hist
    unfold Rx.sent at hw ⊢
    split at hw
    · rename_i hg; rw [if_pos hg]; exact o
    rename_i hg
    rw [if_neg hg]
    exact ⟨hw, ⟨k, k1, k2, k3⟩, o.loc, o.drain⟩
  · intro _ hf
    unfold Rx.sent
    split
    · exact ⟨hf, rfl, fun e => e⟩
    · rename_i hg
      refine ⟨?_, rfl, fun e => e⟩
      unfold Rx.finished at hf ⊢
      simp only [Bool.or_eq_true, Bool.and_eq_true] at hf ⊢
      rcases hf with hf | hf
      · exact absurd hf hg
      · exact .inr hf
  · unfold Rx.sent
    split <;> exact ⟨[], by simp⟩

/-! ### New streams -/

/-- A stream begins. -/
theorem Inv.begin {c c' : C} {id : Nat} (h : Inv cf c used log) (hu : used id = false) (hd : c'.dead = c.dead)
    (hs : ∀ j, j ≠ id → Same j c c') (hf : c'.finished = c.finished) (ho : Open id c' []) :
    Inv cf c' (upd used id true) log where
  conf := by
    have := hs (id + 1) (by omega)
    rw [this.isServer, this.maxField]; exact h.conf
  dead := by rw [hd]; exact h.dead
  mode := fun j => by
    by_cases e : j = id
    · subst e
      rw [upd_same]
      rcases h.mode j with ⟨_, o⟩ | ⟨a, _⟩
      · rw [o.out]; exact .inr ⟨rfl, .inl ho⟩
      · rw [hu] at a; cases a
    · rw [upd_other _ _ e]; exact (h.mode j).same (hs j e)
  fins := fun j hj => by
    rw [hf] at hj
    have := h.fins j hj
    have e : j ≠ id := fun e => by rw [e, hu] at this; cases this.1
    rw [upd_other _ _ e]
    exact ⟨this.1, this.2.imp (·.same (hs j e)) (·.same (hs j e))⟩

/-- A stream from which nothing has been read. -/
theorem live_new {limit id : Nat} {peer loc : Bool} {s : Strm} {r : Rx} {m p : Nat} (hs : SameCore s (.new id loc m p))
    (hr : r.WF) (h0 : r.off = 0) (he : r.all = []) (hd : r.drain = false) (hl : peer = true → loc = false) :
    Live limit id peer s r [] := by
  have hv : VarBuf s := varBuf_new hs.buf hs.off hs.len
  refine ⟨hr, ⟨0, Nat.zero_le _, ?_, fun _ => h0.symm⟩, fun e => by rw [hs.isLocal]; exact hl e,
    fun e => by rw [hd] at e; cases e⟩
  rw [List.take_zero]
  cases hb : isBidi id with
  | false =>
    obtain ⟨h1, h2⟩ := new_uni hb loc m p
    have := Match.start (limit := limit) (peer := peer) hb (hs.state.trans h2) (hs.ty.trans h1) hs.remoteInit hv
    rw [show s.buf = [] from hs.buf] at this
    exact this
  | true =>
    obtain ⟨h1, h2⟩ := new_bidi hb loc m p
    have := Match.ft (limit := limit) (peer := peer) (hdr := []) (fs := []) (body := [])
      (show Head id s [] by unfold Head; simp [hb, hs.ty.trans h1]) (hs.state.trans h2) .nil hv
      (by
        have a1 : s.remoteInit = false := hs.remoteInit
        have a2 : s.dataReceived = false := hs.dataReceived
        have a3 : s.trailersReceived = false := hs.trailersReceived
        unfold Gram Flags
        simp only [hb, a1, a2, a3, if_true]
        exact ⟨(fun t ht => by cases ht), fun _ => ⟨0, 0, 0, by simp⟩⟩)
      (by intro _ _ f hf; cases hf)
    rw [show s.buf = [] from hs.buf] at this
    exact this

theorem opened_inv {c : C} {id : Nat} (h : Inv cf c used log) (hu : used id = false) :
    Inv cf (c.setRx id { sendDone := !isBidi id }) (upd used id true) log := by
  refine h.begin hu rfl (fun j hj => ⟨rfl, rfl, rfl, fun e => e, upd_other _ _ hj, .refl _⟩) rfl ?_
  unfold Open
  have hrx : (c.setRx id { sendDone := !isBidi id }).rx id = { sendDone := !isBidi id } := by simp [C.setRx, upd_same]
  rw [hrx]
  rcases h.mode id with ⟨_, o⟩ | ⟨a, _⟩
  · exact live_new (s := c.cur id) o.entry ⟨Nat.le_refl _, (fun c => by cases c), (fun c => by cases c), (fun c => by cases c)⟩
      rfl rfl rfl (fun _ => rfl)
  · rw [hu] at a; cases a

theorem request_inv {c : C} {id : Nat} (h : Inv cf c used log) (hu : used id = false) (hc : c.isServer = false)
    (hi : id % 4 = 0) : Inv cf (c.request id) (upd used id true) log := by
  refine h.begin hu rfl (fun j hj => ⟨rfl, rfl, rfl, fun e => e, upd_other _ _ hj, ?_⟩) rfl ?_
  · unfold C.request C.cur C.fresh
    rw [show (c.put id _ _).streams j = c.streams j from upd_other _ _ hj]
    exact .refl _
  · unfold Open C.request
    rw [cur_put, put_rx]
    refine live_new (loc := true) (m := c.maxField.getD defaultMaxField) (p := c.maxPrio)
      ⟨rfl, rfl, rfl, rfl, rfl, rfl, rfl, rfl, rfl, rfl, rfl, rfl⟩
      ⟨Nat.le_refl _, (fun c => by cases c), (fun c => by cases c), (fun c => by cases c)⟩
      rfl rfl rfl ?_
    intro e
    have : c.peerStream id = false := by
      unfold C.peerStream
      rw [hc, show id % 2 = 0 by omega]
      rfl
    have e : c.peerStream id = true := e
    rw [this] at e; cases e

/-! ### Other calls -/

/-- The entry of a stream changes in what is not about receiving. -/
theorem Inv.setStrm {c : C} {id : Nat} {s : Strm} (h : Inv cf c used log) (hs : SameCore s (c.cur id)) :
    Inv cf (c.setStrm id s) used log := by
  refine h.keep rfl (fun j => ⟨rfl, rfl, rfl, fun e => e, rfl, ?_⟩) (fun j hj => hj)
  by_cases e : j = id
  · subst e; rw [cur_setStrm]; exact hs
  · unfold C.cur C.fresh
    rw [show (c.setStrm id s).streams j = c.streams j from upd_other _ _ e]
    exact .refl _

theorem finishLocal_inv {c : C} {id : Nat} (h : Inv cf c used log) (hu : used id = true) :
    Inv cf (c.finishLocal id) used log := by
  unfold C.finishLocal
  split
  · exact h
  rename_i s hs
  split
  · rename_i hf
    exact h.finish hu hf rfl rfl rfl rfl rfl rfl (fun j hj => upd_other _ _ hj) (fun j hj => .inl hj)
      (.inl (by rw [cur_remove]; exact .refl _))
  · refine h.setStrm ?_
    rw [cur_some hs]
    exact ⟨rfl, rfl, rfl, rfl, rfl, rfl, rfl, rfl, rfl, rfl, rfl, rfl⟩

theorem takePrio_inv {c : C} {id : Nat} (h : Inv cf c used log) : Inv cf (c.takePrio id) used log := by
  unfold C.takePrio
  split
  · exact h
  rename_i s hs
  refine h.setStrm ?_
  rw [cur_some hs]
  exact ⟨rfl, rfl, rfl, rfl, rfl, rfl, rfl, rfl, rfl, rfl, rfl, rfl⟩

/-! ### Executions -/

def W.Inv (cf : Bool × Option Nat) (w : W) : Prop := Verif.H3.Inv cf w.c w.used w.log

theorem initial_inv {w : W} (h : w.Initial) : w.Inv (w.c.isServer, w.c.maxField) := by
  obtain ⟨⟨h1, h2, h3, h4, h5, h6, h7, h8, _⟩, h9, h10⟩ := h
  refine ⟨rfl, h8, fun id => .inl ⟨h9 id, ⟨h2 id, h10 id, ?_⟩⟩, fun id hf => ?_⟩
  · unfold C.cur; rw [h1 id]; exact .refl _
  · rw [h6] at hf; cases hf

theorem step_inv {w : W} (h : w.Inv cf) (a : Act) : (w.step a).Inv cf := by
  cases a with
  | opened id =>
    simp only [W.step]
    split
    · rename_i hg
      simp only [Bool.and_eq_true, Bool.not_eq_true'] at hg
      exact opened_inv h hg.1
    · exact h
  | arrive id bs fin =>
    simp only [W.step]
    split
    · rename_i hu; exact arrive_inv h hu
    · exact h
  | reset id code =>
    simp only [W.step]
    split
    · rename_i hu; exact reset_inv h hu
    · exact h
  | sent id =>
    simp only [W.step]
    split
    · rename_i hu; exact sent_inv h hu
    · exact h
  | request id =>
    simp only [W.step]
    split
    · rename_i hg
      simp only [Bool.and_eq_true, Bool.not_eq_true', beq_iff_eq] at hg
      exact request_inv h hg.1.1 hg.1.2 hg.2
    · exact h
  | finishLocal id =>
    simp only [W.step]
    split
    · rename_i hu; exact finishLocal_inv h hu
    · exact h
  | takePrio id => exact takePrio_inv h
  | poll spare rs =>
    exact (poll_inv h (fun i hi => (List.mem_filter.mp hi).2) rfl).inv
  | body spare id n =>
    simp only [W.step]
    split
    · rename_i hu
      generalize hx : w.c.recvBody spare id n = x
      obtain ⟨bs, b1, _, b3⟩ := (recvBody_ok hu h hx).more
      rw [List.nil_append] at b1
      rw [b1]
      exact b3
    · exact h

theorem run_inv {w : W} (h : w.Inv cf) (l : List Act) : (w.run l).Inv cf := by
  unfold W.run
  induction l generalizing w with
  | nil => exact h
  | cons a l ih => exact ih (step_inv h a)

end Verif.H3
