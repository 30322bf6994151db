import Verif.Stream.Crypto

/-! # C175 — the bytes of the handshake reach TLS in order, and what is kept of them -/

namespace Verif.Props.C175
open Verif Stream Crypto
open Verif.Stream.RecvBuf hiding step run run_append run_alive

/-! ### What the events say -/

/-- The bytes TLS was given at a level. -/
def toTls (ep : Epoch) : List Ev → Bytes
  | [] => []
  | .tls e bs :: t => if e = ep then bs ++ toTls ep t else toTls ep t
  | _ :: t => toTls ep t

/-- The byte of the first frame taken in at a level that covers offset `o`. -/
def first (ep : Epoch) : List Ev → Nat → Option UInt8
  | [], _ => none
  | .got e off data :: t, o =>
    if e = ep ∧ off ≤ o ∧ o < off + data.length then data[o - off]? else first ep t o
  | _ :: t, o => first ep t o

/-- The payloads of the frames taken in at a level. -/
def payloads (ep : Epoch) : List Ev → List Bytes
  | [] => []
  | .got e _ data :: t => if e = ep then data :: payloads ep t else payloads ep t
  | _ :: t => payloads ep t

theorem toTls_append (ep : Epoch) (a b : List Ev) : toTls ep (a ++ b) = toTls ep a ++ toTls ep b := by
  induction a with
  | nil => rfl
  | cons e t ih =>
    cases e <;> simp only [List.cons_append, toTls, ih]
    split <;> simp

theorem first_append (ep : Epoch) (a b : List Ev) (o : Nat) :
    first ep (a ++ b) o = (first ep a o).or (first ep b o) := by
  induction a with
  | nil => simp [first]
  | cons e t ih =>
    cases e with
    | got e off data =>
      simp only [List.cons_append, first, ih]
      split
      · rename_i h
        rw [List.getElem?_eq_getElem (by omega)]; simp
      · rfl
    | _ => simpa [first] using ih

theorem payloads_append (ep : Epoch) (a b : List Ev) :
    payloads ep (a ++ b) = payloads ep a ++ payloads ep b := by
  induction a with
  | nil => rfl
  | cons e t ih =>
    cases e <;> simp only [List.cons_append, payloads, ih]
    split <;> simp

theorem toTls_map (ep e : Epoch) (outs : List Bytes) :
    toTls ep (outs.map (.tls e)) = if e = ep then outs.flatten else [] := by
  induction outs with
  | nil => simp [toTls]
  | cons x t ih =>
    simp only [List.map_cons, toTls, ih, List.flatten_cons]
    split <;> rfl

theorem first_map (ep e : Epoch) (outs : List Bytes) (o : Nat) : first ep (outs.map (.tls e)) o = none := by
  induction outs with
  | nil => rfl
  | cons x t ih => simpa [first] using ih

theorem payloads_map (ep e : Epoch) (outs : List Bytes) : payloads ep (outs.map (.tls e)) = [] := by
  induction outs with
  | nil => rfl
  | cons x t ih => simpa [payloads] using ih

/-! ### The buffer -/

/-- A buffer of a level in use. -/
structure Plain (r : RecvBuf) : Prop where
  inv : RInv r
  err : r.error = none
  drn : r.drain = false
  fin : r.finOff = none
  lim : r.maxData = 2 ^ 64 - 1

theorem plain_fresh : Plain fresh :=
  ⟨rinv_new _ _ _, rfl, rfl, rfl, rfl⟩

theorem Plain.nonempty {r : RecvBuf} (h : Plain r) : ∀ e ∈ r.data, e.2.len ≠ 0 := by
  intro e he hz
  have := h.inv.empt e he hz
  rw [h.fin] at this; cases this

theorem Plain.ready {r : RecvBuf} (h : Plain r) : r.ready = true ↔ (lookup r.data r.off).isSome := by
  rw [ready_iff h.inv]
  constructor
  · rintro (g | ⟨e, he, hz, -⟩)
    · exact g
    · exact absurd hz (h.nonempty e he)
  · exact .inl

/-- What handing over does. -/
structure Fed (r r' : RecvBuf) (out : Bytes) (ok : Bool) : Prop where
  plain : Plain r'
  off : r'.off = r.off + out.length
  len : r'.len = r.len
  bytes : ∀ i, i < out.length → out[i]? = lookup r.data (r.off + i)
  look : ∀ o, r'.off ≤ o → lookup r'.data o = lookup r.data o
  all : ok = true → lookup r'.data r'.off = none

theorem feed_spec (fuel : Nat) (r : RecvBuf) (oks : List Bool) (hP : Plain r) (hf : r.len - r.off < fuel) :
    Fed r (feed fuel r oks).1 (feed fuel r oks).2.1.flatten (feed fuel r oks).2.2 := by
  induction fuel generalizing r oks with
  | zero => omega
  | succ fuel ih =>
    rcases emit_spec hP.inv 512 with ⟨hr, hw⟩ | ⟨-, e, he, -⟩ | ⟨hr, out, f, r1, hw, hR⟩
    · simp only [feed, hw, List.flatten_nil]
      refine ⟨hP, by simp, rfl, by simp, fun _ _ => rfl, fun _ => ?_⟩
      have := hP.ready
      rw [hr] at this
      simpa using this
    · rw [hP.err] at he; cases he
    · have hP1 : Plain r1 := ⟨hR.inv, by rw [hR.error, hP.err], by rw [hR.drain, hP.drn],
        by rw [hR.finOff, hP.fin], by rw [← hP.lim]; simp only [maxData, hR.consumed, FlowControl.addConsumed]⟩
      have hne : out.length ≠ 0 := by
        intro h0
        rcases hR.full with h | h
        · omega
        · have := hP.ready.mp hr
          rw [hR.off, h0, Nat.add_zero] at h
          rw [h] at this; cases this
      have hol := hR.inv.offlen
      have h1 := hR.off
      have h2 := hR.len
      by_cases hk : oks.headD true = true
      · have hs : feed (fuel + 1) r oks =
            ((feed fuel r1 oks.tail).1, out :: (feed fuel r1 oks.tail).2.1, (feed fuel r1 oks.tail).2.2) := by
          simp only [feed, hw, hk, if_true]
        rw [hs]
        have hF := ih r1 oks.tail hP1 (by omega)
        generalize feed fuel r1 oks.tail = x at *
        obtain ⟨r2, outs, ok⟩ := x
        simp only [List.flatten_cons] at *
        refine ⟨hF.plain, ?_, by rw [hF.len, h2], ?_, ?_, hF.all⟩
        · rw [hF.off, List.length_append]; omega
        · intro i hi
          rw [List.length_append] at hi
          by_cases hc : i < out.length
          · rw [List.getElem?_append_left hc, hR.bytes i hc]
          · rw [List.getElem?_append_right (by omega), hF.bytes _ (by omega), hR.look _ (by omega)]
            congr 1; omega
        · intro o ho
          have := hF.off
          rw [hF.look o ho, hR.look o (by omega)]
      · have hs : feed (fuel + 1) r oks = (r1, [out], false) := by
          simp only [feed, hw, hk, if_false]; rfl
        rw [hs]
        simp only [List.flatten_cons, List.flatten_nil, List.append_nil]
        exact ⟨hP1, h1, h2, hR.bytes, hR.look, by simp⟩

/-! ### Along a history -/

/-- What holds of one level. -/
structure Lvl (ep : Epoch) (s : St) (log : List Ev) : Prop where
  plain : Plain (s.recv ep)
  len : (s.recv ep).len < 65536
  pre : ∀ i, i < (toTls ep log).length → (toTls ep log)[i]? = first ep log i
  off : s.gone ep = false → (s.recv ep).off = (toTls ep log).length
  look : s.gone ep = false → ∀ o, (s.recv ep).off ≤ o → lookup (s.recv ep).data o = first ep log o
  all : s.dead = false → first ep log (toTls ep log).length = none

theorem lvl_start (ep : Epoch) : Lvl ep {} [] :=
  ⟨plain_fresh, show fresh.len < 65536 by decide, by simp [toTls], fun _ => rfl, fun _ _ _ => rfl, fun _ => rfl⟩

theorem write_ok {r : RecvBuf} (hP : Plain r) (off : Nat) (data : Bytes) (h : off + data.length < 65536) :
    ∃ r', r.write (.mk' data off false) = (.ok (), r') ∧ Wrote r (.mk' data off false) r' ∧ Plain r' := by
  have hmo : (RangeBuf.mk' data off false).maxOff = off + data.length := by simp [RangeBuf.maxOff]
  rcases write_spec hP.inv (RangeBuf.wf_mk' data off false) (by rfl) with ⟨g, -⟩ | ⟨-, g, -⟩ | ⟨-, -, r', hw, hW⟩
  · rw [hmo, hP.lim] at g; omega
  · rcases g with ⟨F, hF, -⟩ | ⟨h1, -⟩
    · rw [hP.fin] at hF; cases hF
    · cases h1
  · refine ⟨r', hw, hW, hW.inv, by rw [hW.error, hP.err], by rw [hW.drain, hP.drn], ?_, ?_⟩
    · rw [hW.finOff]; simpa using hP.fin
    · rw [← hP.lim]; simp only [maxData, hW.fc]

/-- What a frame within the limit does. -/
theorem onFrame_ok {s : St} {ep : Epoch} (hP : Plain (s.recv ep)) (off : Nat) (data : Bytes)
    (oks : List Bool) (fin : Bool) (h : off + data.length < 65536) :
    ∃ r1 r2 outs ok, (s.recv ep).write (.mk' data off false) = (.ok (), r1) ∧
      Wrote (s.recv ep) (.mk' data off false) r1 ∧
      feed (r1.len - r1.off + 1) r1 oks = (r2, outs, ok) ∧ Fed r1 r2 outs.flatten ok ∧
      onFrame s ep off data oks fin = (if ok && fin then (s.set ep r2, .got ep off data :: outs.map (.tls ep))
        else ({ s.set ep r2 with dead := true },
          .got ep off data :: outs.map (.tls ep) ++ [.closed .tls])) := by
  obtain ⟨r1, hw, hW, hP1⟩ := write_ok hP off data h
  have hF := feed_spec (r1.len - r1.off + 1) r1 oks hP1 (by omega)
  rcases hf : feed (r1.len - r1.off + 1) r1 oks with ⟨r2, outs, ok⟩
  rw [hf] at hF
  refine ⟨r1, r2, outs, ok, hw, hW, hf, hF, ?_⟩
  simp only [onFrame]
  rw [if_neg (by simp only [maxCryptoOff]; omega), hw]
  simp only [hf]

theorem lvl_frame {ep : Epoch} {s : St} {log : List Ev} (h : Lvl ep s log) (off : Nat) (data : Bytes)
    (hg : s.gone ep = false) (hl : off + data.length < 65536) {r1 r2 : RecvBuf}
    {out : Bytes} {ok : Bool} (hW : Wrote (s.recv ep) (.mk' data off false) r1) (hF : Fed r1 r2 out ok)
    {s' : St} (hs : s'.recv ep = r2) (hg' : s'.gone ep = false) (hd : s'.dead = false → ok = true)
    {es : List Ev} (h1 : toTls ep es = out)
    (h2 : ∀ o, first ep es o = if off ≤ o ∧ o < off + data.length then data[o - off]? else none) :
    Lvl ep s' (log ++ es) := by
  obtain ⟨hP, hlen, hpre, hoff, hlook, hall⟩ := h
  have hmo : (RangeBuf.mk' data off false).maxOff = off + data.length := by simp [RangeBuf.maxOff]
  have hWo := hW.off
  rw [hP.drn] at hWo
  simp only [Bool.false_eq_true, if_false] at hWo
  have hWl := hW.len
  rw [hmo] at hWl
  have hFo := hF.off
  have ho := hoff hg
  have hlk : ∀ o, (s.recv ep).off ≤ o → lookup r1.data o = first ep (log ++ es) o := by
    intro o ho'
    rw [hW.look hP.drn o ho', hlook hg o ho', byteAt_mk', first_append, h2]
  refine ⟨by rw [hs]; exact hF.plain, ?_, ?_, ?_, ?_, ?_⟩
  · rw [hs, hF.len, hWl]; split <;> omega
  · intro i hi
    rw [toTls_append, h1] at hi ⊢
    rw [List.length_append] at hi
    by_cases hc : i < (toTls ep log).length
    · rw [List.getElem?_append_left hc, hpre i hc, first_append]
      have := hpre i hc
      rw [List.getElem?_eq_getElem hc] at this
      rw [← this]; rfl
    · rw [List.getElem?_append_right (by omega), hF.bytes _ (by omega), hlk _ (by omega)]
      congr 1; omega
  · intro _
    rw [hs, hFo, toTls_append, h1, List.length_append, hWo, ho]
  · intro _ o ho'
    rw [hs] at ho' ⊢
    rw [hF.look o ho', hlk o (by omega)]
  · intro hd'
    rw [toTls_append, h1, List.length_append, ← ho, ← hWo, ← hFo, ← hlk _ (by omega), ← hF.look _ (by omega)]
    exact hF.all (hd hd')

theorem Lvl.neutral {ep : Epoch} {s s' : St} {log es : List Ev} (h : Lvl ep s log)
    (h1 : s'.recv ep = s.recv ep) (h2 : s'.gone ep = s.gone ep) (h3 : s'.dead = false → s.dead = false)
    (h4 : toTls ep es = []) (h5 : ∀ o, first ep es o = none) : Lvl ep s' (log ++ es) := by
  obtain ⟨a, b, c, d, e, f⟩ := h
  have e1 : toTls ep (log ++ es) = toTls ep log := by rw [toTls_append, h4, List.append_nil]
  have e2 : ∀ o, first ep (log ++ es) o = first ep log o := by
    intro o; rw [first_append, h5]; simp
  refine ⟨by rwa [h1], by rwa [h1], ?_, ?_, ?_, ?_⟩
  · intro i hi; rw [e1] at hi ⊢; rw [e2]; exact c i hi
  · rw [h1, h2, e1]; exact d
  · rw [h1, h2]; intro g o ho; rw [e2]; exact e g o ho
  · intro g; rw [e1, e2]; exact f (h3 g)

theorem step_lvl {ep : Epoch} {s : St} {log : List Ev} (h : Lvl ep s log) (op : Op) :
    Lvl ep (step s op).1 (log ++ (step s op).2) := by
  cases op with
  | drop e =>
    by_cases hg : s.gone e = true
    · simp only [step, hg, if_true]
      exact h.neutral rfl rfl id rfl (fun _ => rfl)
    · have hs : step s (.drop e) =
          ({ s.set e fresh with gone := fun x => x = e || s.gone x }, [.dropped e]) := by
        simp [step, hg]
      rw [hs]
      by_cases he : ep = e
      · subst he
        obtain ⟨a, b, c, d, f, g⟩ := h
        have e1 : toTls ep (log ++ [.dropped ep]) = toTls ep log := by rw [toTls_append]; simp [toTls]
        have e2 : ∀ o, first ep (log ++ [.dropped ep]) o = first ep log o := by
          intro o; rw [first_append]; simp [first]
        refine ⟨by simpa [St.set] using plain_fresh, by simp only [St.set, if_true]; decide, ?_, by simp, by simp, ?_⟩
        · intro i hi; rw [e1] at hi ⊢; rw [e2]; exact c i hi
        · intro hd; rw [e1, e2]; exact g hd
      · exact h.neutral (by simp [St.set, he]) (by simp [he]) id rfl (fun _ => rfl)
  | frame e off data oks fin =>
    by_cases hq : (s.dead || s.gone e) = true
    · simp only [step, hq, if_true]
      exact h.neutral rfl rfl id rfl (fun _ => rfl)
    have hs : step s (.frame e off data oks fin) = onFrame s e off data oks fin := by
      simp only [step]; rw [if_neg hq]
    rw [hs]
    simp only [Bool.or_eq_true, not_or, Bool.not_eq_true] at hq
    by_cases hl : off + data.length < 65536
    · by_cases he : e = ep
      · subst he
        obtain ⟨r1, r2, outs, ok, hw, hW, hf, hF, heq⟩ := onFrame_ok h.plain off data oks fin hl
        rw [heq]
        by_cases hk : (ok && fin) = true
        · rw [if_pos hk]
          rw [Bool.and_eq_true] at hk
          refine lvl_frame (s' := s.set e r2) h off data hq.2 hl hW hF (if_pos rfl) hq.2 (fun _ => hk.1) ?_ ?_
          · simp [toTls, toTls_map]
          · intro o; simp [first, first_map]
        · rw [if_neg hk]
          refine lvl_frame (s' := { s.set e r2 with dead := true }) h off data hq.2 hl hW hF (if_pos rfl) hq.2
            (fun h => by cases h) ?_ ?_
          · simp [toTls, toTls_append, toTls_map]
          · intro o; simp [first, first_append, first_map]
      · have he' : ep ≠ e := fun x => he x.symm
        simp only [onFrame]
        rw [if_neg (by simp only [maxCryptoOff]; omega)]
        generalize (s.recv e).write (.mk' data off false) = x
        obtain ⟨a, r⟩ := x
        cases a with
        | error q => exact h.neutral (by simp [St.set, he']) rfl (by simp) rfl (fun _ => rfl)
        | ok u =>
          simp only
          generalize feed (r.len - r.off + 1) r oks = y
          obtain ⟨r2, outs, ok⟩ := y
          simp only
          split
          · refine h.neutral (by simp [St.set, he']) rfl (fun g => g) ?_ ?_
            · simp [toTls, toTls_map, he]
            · intro o; simp [first, first_map, he]
          · refine h.neutral (by simp [St.set, he']) rfl (by simp) ?_ ?_
            · simp [toTls, toTls_append, toTls_map, he]
            · intro o; simp [first, first_append, first_map, he]
    · simp only [onFrame]
      rw [if_pos (by simp only [maxCryptoOff]; omega)]
      exact h.neutral rfl rfl (by simp) rfl (fun _ => rfl)

theorem run_lvl (ep : Epoch) (ops : List Op) : Lvl ep (run {} ops).1 (run {} ops).2 := by
  suffices H : ∀ (ops : List Op), Lvl ep (run {} ops.reverse).1 (run {} ops.reverse).2 by
    simpa using H ops.reverse
  intro l
  induction l with
  | nil => exact lvl_start ep
  | cons op t ih =>
    rw [List.reverse_cons, run_append]
    exact step_lvl ih op

/-- **C175, order.** Whatever frames come, in whatever order, the bytes TLS was given at a
level are those of the frames, from offset 0 on, each as first received. -/
theorem order (ep : Epoch) (ops : List Op) (i : Nat) (h : i < (toTls ep (run {} ops).2).length) :
    (toTls ep (run {} ops).2)[i]? = first ep (run {} ops).2 i := (run_lvl ep ops).pre i h

/-- **C175, nothing held back.** While the connection is not closing, TLS has been given
everything up to the first gap. -/
theorem complete (ep : Epoch) (ops : List Op) (h : (run {} ops).1.dead = false) :
    first ep (run {} ops).2 (toTls ep (run {} ops).2).length = none := (run_lvl ep ops).all h

/-! ### Frames of a handshake -/

theorem step_mono (s : St) (op : Op) :
    ((step s op).1.dead = false → s.dead = false) ∧
    ∀ ep, (step s op).1.gone ep = false → s.gone ep = false := by
  cases op with
  | drop e =>
    simp only [step]
    split
    · exact ⟨id, fun _ => id⟩
    · refine ⟨id, fun ep h => ?_⟩
      simp only [Bool.or_eq_false_iff] at h
      exact h.2
  | frame e off data oks fin =>
    simp only [step]
    split
    · exact ⟨id, fun _ => id⟩
    · rename_i hq
      simp only [Bool.or_eq_true, not_or, Bool.not_eq_true] at hq
      refine ⟨fun _ => hq.1, fun ep => ?_⟩
      simp only [onFrame]
      split
      · exact id
      · split
        · exact id
        · split <;> exact id

/-- A frame after which the connection is not closing was taken in. -/
theorem step_got {s : St} {ep : Epoch} {off : Nat} {data : Bytes} {oks : List Bool} {fin : Bool}
    (hd : (step s (.frame ep off data oks fin)).1.dead = false) (hg : s.gone ep = false) :
    .got ep off data ∈ (step s (.frame ep off data oks fin)).2 := by
  have h0 := (step_mono s _).1 hd
  have hs : step s (.frame ep off data oks fin) = onFrame s ep off data oks fin := by
    simp only [step]; rw [if_neg (by simp [h0, hg])]
  rw [hs] at hd ⊢
  simp only [onFrame] at hd ⊢
  split
  · rename_i h; rw [if_pos h] at hd; cases hd
  · rename_i h
    rw [if_neg h] at hd
    generalize (s.recv ep).write (.mk' data off false) = x at hd ⊢
    obtain ⟨a, r⟩ := x
    cases a with
    | error e => cases hd
    | ok u =>
      simp only at hd ⊢
      split <;> simp

/-- Only frames that came are taken in. -/
theorem got_step {s : St} {op : Op} {ep : Epoch} {off : Nat} {data : Bytes}
    (h : .got ep off data ∈ (step s op).2) : ∃ oks fin, op = .frame ep off data oks fin := by
  cases op with
  | drop e =>
    simp only [step] at h
    split at h <;> simp at h
  | frame e o d oks fin =>
    simp only [step] at h
    split at h
    · simp at h
    · simp only [onFrame] at h
      split at h
      · simp at h
      · split at h
        · simp at h
        · split at h <;> simp at h <;> obtain ⟨rfl, rfl, rfl⟩ := h <;> exact ⟨_, _, rfl⟩

theorem run_snoc {P : List Op → Prop} (ops : List Op) (h0 : P []) (h1 : ∀ l op, P l → P (l ++ [op])) : P ops := by
  suffices H : ∀ l : List Op, P l.reverse by simpa using H ops.reverse
  intro l
  induction l with
  | nil => exact h0
  | cons a t ih => rw [List.reverse_cons]; exact h1 _ _ ih

theorem run_got (ep : Epoch) (off : Nat) (data : Bytes) (oks : List Bool) (fin : Bool) (ops : List Op) :
    (run {} ops).1.dead = false → (run {} ops).1.gone ep = false → .frame ep off data oks fin ∈ ops →
    .got ep off data ∈ (run {} ops).2 := by
  refine run_snoc (P := fun ops => (run {} ops).1.dead = false → (run {} ops).1.gone ep = false →
    .frame ep off data oks fin ∈ ops → .got ep off data ∈ (run {} ops).2) ops (by simp) ?_
  intro l op ih hd hg hm
  rw [run_append] at hd hg ⊢
  simp only [List.mem_append, List.mem_singleton] at hd hg hm ⊢
  have hM := step_mono (run {} l).1 op
  rcases hm with hm | rfl
  · exact .inl (ih (hM.1 hd) (hM.2 ep hg) hm)
  · exact .inr (step_got hd (hM.2 ep hg))

theorem got_run (ep : Epoch) (off : Nat) (data : Bytes) (ops : List Op)
    (h : .got ep off data ∈ (run {} ops).2) : ∃ oks fin, .frame ep off data oks fin ∈ ops := by
  revert h
  refine run_snoc (P := fun ops => .got ep off data ∈ (run {} ops).2 →
    ∃ oks fin, .frame ep off data oks fin ∈ ops) ops (by simp [run]) ?_
  intro l op ih h
  rw [run_append] at h
  simp only [List.mem_append, List.mem_singleton] at h ⊢
  rcases h with h | h
  · obtain ⟨a, b, hm⟩ := ih h; exact ⟨a, b, .inl hm⟩
  · obtain ⟨a, b, rfl⟩ := got_step h; exact ⟨a, b, .inr rfl⟩

theorem first_some {ep : Epoch} {log : List Ev} {o : Nat} {x : UInt8} (h : first ep log o = some x) :
    ∃ off data, .got ep off data ∈ log ∧ off ≤ o ∧ o < off + data.length ∧ data[o - off]? = some x := by
  induction log with
  | nil => cases h
  | cons e t ih =>
    cases e with
    | got e off data =>
      simp only [first] at h
      split at h
      · rename_i hc
        obtain ⟨rfl, h1, h2⟩ := hc
        exact ⟨off, data, by simp, h1, h2, h⟩
      · obtain ⟨a, b, hm, hr⟩ := ih h
        exact ⟨a, b, by simp [hm], hr⟩
    | _ =>
      simp only [first] at h
      obtain ⟨a, b, hm, hr⟩ := ih h
      exact ⟨a, b, by simp [hm], hr⟩

theorem first_none {ep : Epoch} {log : List Ev} {o : Nat} (h : first ep log o = none) {off : Nat} {data : Bytes}
    (hm : .got ep off data ∈ log) : ¬ (off ≤ o ∧ o < off + data.length) := by
  induction log with
  | nil => simp at hm
  | cons e t ih =>
    simp only [List.mem_cons] at hm
    rcases hm with rfl | hm
    · intro hc
      simp only [first] at h
      rw [if_pos ⟨trivial, hc⟩, List.getElem?_eq_none_iff] at h
      omega
    · refine ih ?_ hm
      cases e with
      | got e a b =>
        simp only [first] at h
        split at h
        · rename_i hc
          rw [List.getElem?_eq_none_iff] at h; omega
        · exact h
      | _ => simpa only [first] using h

/-- **C175, the handshake of the peer.** When the frames of a level carry pieces of one
sequence of bytes, TLS is given a beginning of it. -/
theorem beginning (ep : Epoch) (S : Bytes) (ops : List Op)
    (hS : ∀ off data oks fin, .frame ep off data oks fin ∈ ops →
      ∀ i, i < data.length → data[i]? = S[off + i]?) :
    toTls ep (run {} ops).2 <+: S := by
  rw [List.prefix_iff_eq_take]
  have key : ∀ i, i < (toTls ep (run {} ops).2).length → (toTls ep (run {} ops).2)[i]? = S[i]? := by
    intro i hi
    rw [order ep ops i hi]
    cases hf : first ep (run {} ops).2 i with
    | none =>
      have := order ep ops i hi
      rw [hf, List.getElem?_eq_none_iff] at this; omega
    | some x =>
      obtain ⟨off, data, hm, h1, h2, h3⟩ := first_some hf
      obtain ⟨a, b, hop⟩ := got_run ep off data ops hm
      have := hS off data a b hop (i - off) (by omega)
      rw [h3] at this
      rw [this]; congr 1; omega
  apply List.ext_getElem?
  intro i
  by_cases hi : i < (toTls ep (run {} ops).2).length
  · rw [key i hi, List.getElem?_take_of_lt hi]
  · rw [List.getElem?_eq_none (by omega), List.getElem?_eq_none]
    rw [List.length_take]; omega

/-- **C175, delivery.** Once every byte of it has come in some frame, TLS has been given all
of it, unless the connection is closing or the level was given up. -/
theorem delivery (ep : Epoch) (S : Bytes) (ops : List Op)
    (hS : ∀ off data oks fin, .frame ep off data oks fin ∈ ops →
      ∀ i, i < data.length → data[i]? = S[off + i]?)
    (hc : ∀ o, o < S.length → ∃ off data oks fin, .frame ep off data oks fin ∈ ops ∧
      off ≤ o ∧ o < off + data.length)
    (hd : (run {} ops).1.dead = false) (hg : (run {} ops).1.gone ep = false) :
    toTls ep (run {} ops).2 = S := by
  have hp := beginning ep S ops hS
  refine hp.eq_of_length ?_
  have hle := hp.length_le
  by_cases hlt : (toTls ep (run {} ops).2).length < S.length
  · obtain ⟨off, data, oks, fin, hm, h1, h2⟩ := hc _ hlt
    exact absurd ⟨h1, h2⟩ (first_none (complete ep ops hd) (run_got ep off data oks fin ops hd hg hm))
  · omega

/-- **C175, refusal.** A connection is closed for CRYPTO frames only because one of them ended
beyond the limit or because TLS said so; in particular the buffer neither refuses anything
nor fails. -/
theorem refusal (ops : List Op) (w : Why) (h : .closed w ∈ (run {} ops).2) :
    (w = .cryptoBufferExceeded ∧ ∃ ep off data oks fin, .frame ep off data oks fin ∈ ops ∧
      65536 ≤ off + data.length) ∨
    (w = .tls ∧ ∃ ep off data oks fin, .frame ep off data oks fin ∈ ops ∧ (false ∈ oks ∨ fin = false)) := by
  revert h
  refine run_snoc (P := fun ops => .closed w ∈ (run {} ops).2 →
    (w = .cryptoBufferExceeded ∧ ∃ ep off data oks fin, .frame ep off data oks fin ∈ ops ∧
      65536 ≤ off + data.length) ∨
    (w = .tls ∧ ∃ ep off data oks fin, .frame ep off data oks fin ∈ ops ∧ (false ∈ oks ∨ fin = false))) ops
    (by simp [run]) ?_
  intro l op ih h
  rw [run_append] at h
  simp only [List.mem_append] at h
  rcases h with h | h
  · rcases ih h with ⟨hw, ep, off, data, oks, fin, hm, hr⟩ | ⟨hw, ep, off, data, oks, fin, hm, hr⟩
    · exact .inl ⟨hw, ep, off, data, oks, fin, by simp [hm], hr⟩
    · exact .inr ⟨hw, ep, off, data, oks, fin, by simp [hm], hr⟩
  · cases op with
    | drop e =>
      simp only [step] at h
      split at h <;> simp at h
    | frame e o d oks fin =>
      have hL := run_lvl e l
      generalize (run {} l).1 = s at *
      simp only [step] at h
      split at h
      · simp at h
      · by_cases hl : o + d.length < 65536
        · obtain ⟨r1, r2, outs, ok, -, -, hf, -, heq⟩ := onFrame_ok hL.plain o d oks fin hl
          rw [heq] at h
          split at h
          · simp at h
          · rename_i hk
            simp at h
            refine .inr ⟨h, e, o, d, oks, fin, by simp, ?_⟩
            cases fin with
            | false => exact .inr rfl
            | true =>
              refine .inl ?_
              simp only [Bool.and_true, Bool.not_eq_true] at hk
              have : ∀ fuel r oks, (feed fuel r oks).2.2 = false → false ∈ oks := by
                intro fuel
                induction fuel with
                | zero => intro r oks h; cases h
                | succ n ihn =>
                  intro r oks h
                  simp only [feed] at h
                  split at h
                  · cases h
                  · split at h
                    · have := ihn _ _ h
                      exact List.mem_of_mem_tail this
                    · rename_i hh
                      cases oks with
                      | nil => simp at hh
                      | cons a t => simp at hh; simp [hh]
              apply this (r1.len - r1.off + 1) r1 oks
              rw [hf]; exact hk
        · simp only [onFrame] at h
          rw [if_pos (by simp only [maxCryptoOff]; omega)] at h
          simp at h
          exact .inl ⟨h, e, o, d, oks, fin, by simp, by omega⟩

/-- **C175, room (partial).** RFC 9000 section 7.5 asks for room for at least 4096 bytes that
come out of order. What is missing: it is only there as long as fewer than 61440 bytes have
been handed to TLS at this level since the connection began. -/
theorem room_partial (ep : Epoch) (ops : List Op) (off : Nat) (data : Bytes) (oks : List Bool) (fin : Bool)
    (hd : (run {} ops).1.dead = false) (hg : (run {} ops).1.gone ep = false)
    (hb : (toTls ep (run {} ops).2).length < 61440)
    (hr : off + data.length ≤ (toTls ep (run {} ops).2).length + 4096) :
    .got ep off data ∈ (step (run {} ops).1 (.frame ep off data oks fin)).2 := by
  have hL := run_lvl ep ops
  generalize run {} ops = x at *
  obtain ⟨s, log⟩ := x
  simp only at *
  obtain ⟨r1, r2, outs, ok, -, -, -, -, heq⟩ := onFrame_ok hL.plain off data oks fin (by omega)
  simp only [step]
  rw [if_neg (by simp [hd, hg]), heq]
  split <;> simp

/-- A handshake level used in order, by `n` frames of 1000 bytes. -/
def inOrder (ep : Epoch) (n : Nat) : List Op :=
  (List.range n).map (fun i => .frame ep (1000 * i) (List.replicate 1000 0) [] true)

theorem run_alive (ops : List Op) (h : ∀ op ∈ ops, ∃ ep off data, op = .frame ep off data [] true ∧
      off + data.length < 65536) :
    (run {} ops).1.dead = false ∧ ∀ ep, (run {} ops).1.gone ep = false := by
  have hd : ∀ s op, s.dead = false → (∃ ep off data, op = .frame ep off data [] true ∧
      off + data.length < 65536 ∧ Plain (s.recv ep)) → (step s op).1.dead = false := by
    rintro s _ hs ⟨ep, off, data, rfl, hl, hP⟩
    obtain ⟨r1, r2, outs, ok, -, -, hf, hF, heq⟩ := onFrame_ok hP off data [] true hl
    have : ∀ fuel r, (feed fuel r []).2.2 = true := by
      intro fuel
      induction fuel with
      | zero => intro r; rfl
      | succ n ihn =>
        intro r
        simp only [feed]
        split
        · rfl
        · simpa using ihn _
    have hok : ok = true := by
      have := this (r1.len - r1.off + 1) r1
      rw [hf] at this; exact this
    simp only [step]
    split
    · exact hs
    · rw [heq, hok]; simpa [St.set] using hs
  revert h
  refine run_snoc (P := fun ops => (∀ op ∈ ops, ∃ ep off data, op = .frame ep off data [] true ∧
      off + data.length < 65536) → (run {} ops).1.dead = false ∧ ∀ ep, (run {} ops).1.gone ep = false) ops ?_ ?_
  · intro _; exact ⟨rfl, fun _ => rfl⟩
  · intro l op ih h
    obtain ⟨i1, i2⟩ := ih (fun o ho => h o (by simp [ho]))
    obtain ⟨ep, off, data, rfl, hl⟩ := h op (by simp)
    rw [run_append]
    refine ⟨hd _ _ i1 ⟨ep, off, data, rfl, hl, (run_lvl ep l).plain⟩, fun e => ?_⟩
    simp only [step]
    split
    · exact i2 e
    · simp only [onFrame]
      split
      · exact i2 e
      · split
        · exact i2 e
        · split <;> exact i2 e

theorem inOrder_run (ep : Epoch) (n : Nat) (hn : n ≤ 65) :
    (run {} (inOrder ep n)).1.dead = false ∧ (run {} (inOrder ep n)).1.gone ep = false ∧
    toTls ep (run {} (inOrder ep n)).2 = List.replicate (1000 * n) 0 := by
  have hA := run_alive (inOrder ep n) (by
    intro op hop
    simp only [inOrder, List.mem_map, List.mem_range] at hop
    obtain ⟨i, hi, rfl⟩ := hop
    exact ⟨_, _, _, rfl, by rw [List.length_replicate]; omega⟩)
  refine ⟨hA.1, hA.2 ep, delivery ep _ _ ?_ ?_ hA.1 (hA.2 ep)⟩
  · intro off data oks fin hm i hi
    simp only [inOrder, List.mem_map, List.mem_range, Op.frame.injEq] at hm
    obtain ⟨k, hk, -, rfl, rfl, -, -⟩ := hm
    rw [List.length_replicate] at hi
    rw [List.getElem?_replicate, List.getElem?_replicate, if_pos hi, if_pos (by omega)]
  · intro o ho
    rw [List.length_replicate] at ho
    refine ⟨1000 * (o / 1000), List.replicate 1000 0, [], true, ?_, by omega, by rw [List.length_replicate]; omega⟩
    simp only [inOrder, List.mem_map, List.mem_range]
    exact ⟨o / 1000, by omega, rfl⟩

/-- **C175, a deviation.** The limit counts the bytes since the connection began, not those
waiting: after 65000 bytes, all in order and all with TLS, the next 600 close the connection,
although nothing is waiting. Session tickets sent over a long time do this to a client. -/
theorem lifetime_false : ∃ ops : List Op,
    (run {} ops).1.dead = false ∧ (run {} ops).1.gone .application = false ∧
    (toTls .application (run {} ops).2).length = 65000 ∧
    (∀ o, 65000 ≤ o → first .application (run {} ops).2 o = none) ∧
    (step (run {} ops).1 (.frame .application 65000 (List.replicate 600 0) [] true)).2
      = [.closed .cryptoBufferExceeded] := by
  obtain ⟨h1, h2, h3⟩ := inOrder_run .application 65 (by omega)
  refine ⟨inOrder .application 65, h1, h2, by rw [h3, List.length_replicate], ?_, ?_⟩
  · intro o ho
    cases hf : first .application (run {} (inOrder .application 65)).2 o with
    | none => rfl
    | some x =>
      obtain ⟨off, data, hm, g1, g2, -⟩ := first_some hf
      obtain ⟨a, b, hop⟩ := got_run _ off data _ hm
      simp only [inOrder, List.mem_map, List.mem_range, Op.frame.injEq] at hop
      obtain ⟨k, hk, -, rfl, rfl, -, -⟩ := hop
      rw [List.length_replicate] at g2; omega
  · simp only [step]
    rw [if_neg (by simp [h1, h2])]
    simp only [onFrame]
    rw [if_pos (by simp only [maxCryptoOff, List.length_replicate]; omega)]

/-! ### What is kept -/

theorem waiting_le {off : Nat} {D : List Entry} (h : DInv off D) {m : Nat} (hm : ∀ e ∈ D, e.1 ≤ m) (ho : off ≤ m) :
    (D.map (fun e => e.2.len)).sum ≤ m - off := by
  induction D generalizing off with
  | nil => simp
  | cons e t ih =>
    rw [dinv_cons] at h
    obtain ⟨⟨h1, h2, h3⟩, h4, h5⟩ := h
    have hle := hm e (by simp)
    have := ih (off := e.1) (h5.mono (fun y hy => by rw [h1]; exact (h4 y hy).2))
      (fun y hy => hm y (by simp [hy])) hle
    simp only [List.map_cons, List.sum_cons]
    have : e.2.maxOff = e.2.off + e.2.len := rfl
    omega

theorem count_le {D : List Entry} (h : ∀ e ∈ D, e.2.len ≠ 0) : D.length ≤ (D.map (fun e => e.2.len)).sum := by
  induction D with
  | nil => simp
  | cons e t ih =>
    have := ih (fun y hy => h y (by simp [hy]))
    have := h e (by simp)
    simp only [List.length_cons, List.map_cons, List.sum_cons]
    omega

/-- **C175, memory.** The bytes waiting at a level and those already with TLS together are
fewer than 65536, and there are no more pieces than bytes waiting. -/
theorem memory (ep : Epoch) (ops : List Op) (hg : (run {} ops).1.gone ep = false) :
    waiting ((run {} ops).1.recv ep) + (toTls ep (run {} ops).2).length < 65536 ∧
    (backing ((run {} ops).1.recv ep)).length ≤ waiting ((run {} ops).1.recv ep) := by
  have hL := run_lvl ep ops
  have ho := hL.off hg
  have hw := waiting_le hL.plain.inv.d hL.plain.inv.dlen hL.plain.inv.offlen
  have h1 := hL.plain.inv.offlen
  have h2 := hL.len
  have hc := count_le hL.plain.nonempty
  simp only [waiting, backing, List.length_map]
  omega

/-- Nothing is kept of a level given up. -/
theorem gone_empty (ep : Epoch) (ops : List Op) (hg : (run {} ops).1.gone ep = true) :
    backing ((run {} ops).1.recv ep) = [] := by
  revert hg
  refine run_snoc (P := fun ops => (run {} ops).1.gone ep = true →
    backing ((run {} ops).1.recv ep) = []) ops (by simp [run]) ?_
  intro l op ih hg
  rw [run_append] at hg ⊢
  generalize (run {} l).1 = s at *
  simp only at *
  cases op with
  | drop e =>
    simp only [step] at hg ⊢
    split
    · rename_i h; rw [if_pos h] at hg; exact ih hg
    · rename_i h
      rw [if_neg h] at hg
      simp only [Bool.or_eq_true, decide_eq_true_eq] at hg
      simp only [St.set]
      split
      · rfl
      · rename_i hne; exact ih (hg.resolve_left hne)
  | frame e off data oks fin =>
    simp only [step] at hg ⊢
    split
    · rename_i h; rw [if_pos h] at hg; exact ih hg
    · rename_i h
      rw [if_neg h] at hg
      simp only [Bool.or_eq_true, not_or, Bool.not_eq_true] at h
      have hgs : (onFrame s e off data oks fin).1.gone = s.gone := by
        simp only [onFrame]
        split
        · rfl
        · split
          · rfl
          · split <;> rfl
      rw [hgs] at hg
      have hne : ep ≠ e := by rintro rfl; rw [h.2] at hg; cases hg
      have : (onFrame s e off data oks fin).1.recv ep = s.recv ep := by
        simp only [onFrame]
        split
        · rfl
        · split
          · simp [St.set, hne]
          · split <;> simp [St.set, hne]
      rw [this]; exact ih hg

/-- All the views in a list are views of payloads from `F`. -/
def Of (F : List Bytes) (l : List RangeBuf) : Prop := ∀ b ∈ l, b.data ∈ F

theorem splitOff_data {b l r : RangeBuf} {n : Nat} (h : b.splitOff n = some (l, r)) : l.data = b.data ∧ r.data = b.data := by
  simp only [RangeBuf.splitOff] at h
  split at h
  · simp only [Option.some.injEq, Prod.mk.injEq] at h
    obtain ⟨rfl, rfl⟩ := h
    exact ⟨rfl, rfl⟩
  · cases h

theorem splitOff_snd {b r : RangeBuf} {n : Nat} (h : (b.splitOff n).map (·.2) = some r) : r.data = b.data := by
  cases hs : b.splitOff n with
  | none => rw [hs] at h; cases h
  | some p =>
    obtain ⟨l, r'⟩ := p
    rw [hs] at h
    simp only [Option.map_some, Option.some.injEq] at h
    subst h
    exact (splitOff_data hs).2

/-- What the overlap loop keeps are views of the frame at hand. -/
def OfOverlap (F : List Bytes) : Overlap → Prop
  | .keep b tmp => b.data ∈ F ∧ Of F tmp
  | .skip tmp => Of F tmp
  | .panic => True

theorem overlapLoop_of (F : List Bytes) (D : List Entry) (buf : RangeBuf) (tmp : List RangeBuf)
    (hb : buf.data ∈ F) (ht : Of F tmp) : OfOverlap F (overlapLoop D buf tmp) := by
  induction D generalizing buf tmp with
  | nil => exact ⟨hb, ht⟩
  | cons e t ih =>
    simp only [overlapLoop]
    split
    · exact ⟨hb, ht⟩
    · split
      · exact ht
      · split
        · trivial
        · rename_i buf' hbuf'
          have hb' : buf'.data ∈ F := by
            split at hbuf'
            · rw [splitOff_snd hbuf']; exact hb
            · simp only [Option.some.injEq] at hbuf'; rw [← hbuf']; exact hb
          split
          · split
            · trivial
            · rename_i front rest hsp
              obtain ⟨d1, d2⟩ := splitOff_data hsp
              refine ih front _ (by rw [d1]; exact hb') ?_
              intro b hbm
              rw [List.mem_append, List.mem_singleton] at hbm
              rcases hbm with hbm | rfl
              · exact ht b hbm
              · rw [d2]; exact hb'
          · exact ih _ _ hb' ht

theorem mapInsert_of (F : List Bytes) (k : Nat) (b : RangeBuf) (D : List Entry) (hb : b.data ∈ F)
    (hD : ∀ e ∈ D, e.2.data ∈ F) : ∀ e ∈ mapInsert k b D, e.2.data ∈ F := by
  induction D with
  | nil => simpa [mapInsert] using hb
  | cons x t ih =>
    obtain ⟨k', v⟩ := x
    have ht := ih (fun e he => hD e (by simp [he]))
    have hv := hD (k', v) (by simp)
    intro e he
    simp only [mapInsert] at he
    split at he
    · simp only [List.mem_cons] at he
      rcases he with rfl | rfl | he
      · exact hb
      · exact hv
      · exact hD e (by simp [he])
    · split at he
      · simp only [List.mem_cons] at he
        rcases he with rfl | he
        · exact hb
        · exact hD e (by simp [he])
      · simp only [List.mem_cons] at he
        rcases he with rfl | he
        · exact hv
        · exact ht e he

theorem tmpLoop_of (F : List Bytes) (fuel : Nat) (r : RecvBuf) (tmp : List RangeBuf) (ht : Of F tmp)
    (hD : ∀ e ∈ r.data, e.2.data ∈ F) {r' : RecvBuf} (h : tmpLoop fuel r tmp = some r') :
    ∀ e ∈ r'.data, e.2.data ∈ F := by
  induction fuel generalizing r tmp with
  | zero =>
    cases tmp with
    | nil => simp only [tmpLoop, Option.some.injEq] at h; rw [← h]; exact hD
    | cons a t => simp [tmpLoop] at h
  | succ n ih =>
    cases tmp with
    | nil => simp only [tmpLoop, Option.some.injEq] at h; rw [← h]; exact hD
    | cons a t =>
      simp only [tmpLoop] at h
      have ha : a.data ∈ F := ht a (by simp)
      have htt : Of F t := fun b hb => ht b (by simp [hb])
      split at h
      · cases h
      · rename_i buf hbuf
        have hb : buf.data ∈ F := by
          split at hbuf
          · rw [splitOff_snd hbuf]; exact ha
          · simp only [Option.some.injEq] at hbuf; rw [← hbuf]; exact ha
        have hO : OfOverlap F (if buf.off < r.len ∨ buf.isEmpty = true then
               overlapLoop (r.data.filter (fun e => buf.off ≤ e.1)) buf t
             else .keep buf t) := by
          split
          · exact overlapLoop_of F _ _ _ hb htt
          · exact ⟨hb, htt⟩
        split at h
        · cases h
        · rename_i tmp' heq
          rw [heq] at hO
          exact ih r tmp' hO hD h
        · rename_i b' tmp' heq
          rw [heq] at hO
          split at h
          · exact ih { r with len := max r.len b'.maxOff, off := max r.len b'.maxOff } tmp' hO.2 hD h
          · exact ih _ tmp' hO.2 (mapInsert_of F _ _ _ hO.1 hD) h

theorem write_of (F : List Bytes) {r r' : RecvBuf} {b : RangeBuf} (hb : b.data ∈ F)
    (hD : ∀ e ∈ r.data, e.2.data ∈ F) (h : r.write b = (.ok (), r')) : ∀ e ∈ r'.data, e.2.data ∈ F := by
  simp only [write] at h
  split at h
  · cases h
  · split at h
    · cases h
    · split at h
      · cases h
      · split at h
        · simp only [Prod.mk.injEq, true_and] at h; rw [← h]; exact hD
        · have hD' : ∀ e ∈ (if b.fin = true then { r with finOff := some b.maxOff } else r).data, e.2.data ∈ F := by
            split <;> exact hD
          generalize (if b.fin = true then { r with finOff := some b.maxOff } else r) = r0 at h hD'
          split at h
          · simp only [Prod.mk.injEq, true_and] at h; rw [← h]; exact hD'
          · split at h
            · simp only [Prod.mk.injEq, true_and] at h; rw [← h]; exact hD'
            · split at h
              · rename_i r2 heq
                simp only [Prod.mk.injEq, true_and] at h
                subst h
                exact tmpLoop_of F _ _ [b] (by intro x hx; simp only [List.mem_singleton] at hx; subst hx; exact hb) hD' heq
              · cases h

theorem emitLoop_of (F : List Bytes) (cap off : Nat) (D : List Entry) (hD : ∀ e ∈ D, e.2.data ∈ F) :
    ∀ e ∈ (emitLoop cap off D).2.2, e.2.data ∈ F := by
  induction D generalizing cap off with
  | nil => simp [emitLoop]
  | cons x t ih =>
    obtain ⟨k, b⟩ := x
    have hb := hD (k, b) (by simp)
    have ht : ∀ e ∈ t, e.2.data ∈ F := fun e he => hD e (by simp [he])
    simp only [emitLoop]
    split
    · split
      · intro e he
        simp only [List.mem_cons] at he
        rcases he with rfl | he
        · exact hb
        · exact ht e he
      · exact ih _ _ ht
    · exact hD

theorem feed_of (F : List Bytes) (fuel : Nat) (r : RecvBuf) (oks : List Bool) (hD : ∀ e ∈ r.data, e.2.data ∈ F) :
    ∀ e ∈ (feed fuel r oks).1.data, e.2.data ∈ F := by
  induction fuel generalizing r oks with
  | zero => exact hD
  | succ n ih =>
    have hE : ∀ e ∈ (r.emit 512).2.data, e.2.data ∈ F := by
      simp only [emit]
      split
      · exact hD
      · split
        · simp
        · exact emitLoop_of F 512 r.off r.data hD
    simp only [feed]
    split
    · rename_i heq; rw [heq] at hE; exact hE
    · rename_i heq
      rw [heq] at hE
      split
      · exact ih _ _ hE
      · exact hE

theorem Of_mono {F : List Bytes} {D : List Entry} (h : ∀ e ∈ D, e.2.data ∈ F) (G : List Bytes) :
    ∀ e ∈ D, e.2.data ∈ F ++ G := fun e he => List.mem_append_left _ (h e he)

/-- **C175, memory of the frames (partial).** What a waiting piece keeps alive is the payload
of a frame taken in at this level, so with `memory` fewer than 65536 payloads are kept.
What is missing: a bound by the number of bytes waiting (`kept_false`). -/
theorem kept_partial (ep : Epoch) (ops : List Op) :
    ∀ p ∈ backing ((run {} ops).1.recv ep), p ∈ payloads ep (run {} ops).2 := by
  suffices H : ∀ e ∈ ((run {} ops).1.recv ep).data, e.2.data ∈ payloads ep (run {} ops).2 by
    intro p hp
    simp only [backing, List.mem_map] at hp
    obtain ⟨e, he, rfl⟩ := hp
    exact H e he
  refine run_snoc (P := fun ops => ∀ e ∈ ((run {} ops).1.recv ep).data,
    e.2.data ∈ payloads ep (run {} ops).2) ops ?_ ?_
  · intro e he
    exact absurd (show e ∈ ([] : List Entry) from he) (by simp)
  · intro l op ih
    rw [run_append]
    generalize (run {} l).2 = log at *
    generalize (run {} l).1 = s at *
    rw [payloads_append]
    cases op with
    | drop e =>
      simp only [step]
      split
      · exact Of_mono ih _
      · simp only [St.set]
        split
        · intro x hx
          have : fresh.data = [] := rfl
          rw [this] at hx; simp at hx
        · exact Of_mono ih _
    | frame e off data oks fin =>
      simp only [step]
      split
      · exact Of_mono ih _
      · simp only [onFrame]
        split
        · exact Of_mono ih _
        · rcases hw : (s.recv e).write (.mk' data off false) with ⟨a, r⟩
          cases a with
          | error q =>
            by_cases he : ep = e
            · subst he
              have hr : r.data = (s.recv ep).data := by
                have := hw
                simp only [write] at this
                have hfin : (RangeBuf.mk' data off false).fin = false := rfl
                simp only [hfin, Bool.false_and, Bool.false_eq_true, if_false] at this
                split at this
                · simp only [Prod.mk.injEq] at this; rw [← this.2]
                · split at this
                  · simp only [Prod.mk.injEq] at this; rw [← this.2]
                  · split at this
                    · cases this
                    · split at this
                      · cases this
                      · split at this
                        · cases this
                        · split at this
                          · cases this
                          · simp only [Prod.mk.injEq] at this; rw [← this.2]
              simp only [St.set, if_true, hr]
              exact Of_mono ih _
            · simp only [St.set, he, if_false]
              exact Of_mono ih _
          | ok u =>
            simp only
            by_cases he : ep = e
            · subst he
              have hW := write_of (payloads ep log ++ [data]) (r := s.recv ep) (b := .mk' data off false)
                (by simp [RangeBuf.mk']) (Of_mono ih _) hw
              have hFd := feed_of _ (r.len - r.off + 1) r oks hW
              split <;> simpa [St.set, payloads, payloads_append, payloads_map] using hFd
            · split
              · simp only [St.set, he, if_false]; exact Of_mono ih _
              · simp only [St.set, he, if_false]; exact Of_mono ih _

/-! ### Frames of which one byte is new -/

/-- The part from `s` on of a frame at offset 1 with `m` zero bytes. -/
def view (m s : Nat) : RangeBuf := ⟨List.replicate m 0, s, s, m - s, 1 + s, false⟩

theorem view_off (m s : Nat) : (view m s).off = 1 + s := by simp only [view, RangeBuf.off]; omega
theorem view_len (m s : Nat) : (view m s).len = m - s := by simp [view, RangeBuf.len]
theorem view_maxOff (m s : Nat) (h : s ≤ m) : (view m s).maxOff = 1 + m := by
  simp only [RangeBuf.maxOff, view_off, view_len]; omega

theorem view_split (m s a : Nat) (h : s + a ≤ m) : ((view m s).splitOff a).map (·.2) = some (view m (s + a)) := by
  have e1 : max s (s + a) = s + a := by omega
  have e2 : m - s - a = m - (s + a) := by omega
  have e3 : 1 + s + a = 1 + (s + a) := by omega
  have hle : a ≤ (view m s).len' := show a ≤ m - s by omega
  simp only [RangeBuf.splitOff, if_pos hle, Option.map_some]
  simp only [view, e1, e2, e3]

/-- The pieces after the first. -/
def tailPieces (L j c : Nat) : List Entry := (List.range' j c).map (fun k => (L + k + 2, view (L + k + 1) (L + k)))

theorem overlap_tail (L m : Nat) (c j : Nat) (h : L + j + c < m) :
    overlapLoop (tailPieces L j c) (view m (L + j)) [] = .keep (view m (L + j + c)) [] := by
  induction c generalizing j with
  | zero => rfl
  | succ c ih =>
    have e : tailPieces L j (c + 1) = (L + j + 2, view (L + j + 1) (L + j)) :: tailPieces L (j + 1) c := by
      simp [tailPieces, List.range'_succ]
    rw [e]
    have m1 : (view m (L + j)).maxOff = 1 + m := view_maxOff _ _ (by omega)
    have m2 : (view (L + j + 1) (L + j)).maxOff = 1 + (L + j + 1) := view_maxOff _ _ (by omega)
    have hsp : ((view m (L + j)).splitOff (1 + (L + j + 1) - (1 + (L + j)))).map (·.2) = some (view m (L + (j + 1))) := by
      have : 1 + (L + j + 1) - (1 + (L + j)) = 1 := by omega
      rw [this, view_split _ _ _ (by omega)]
      rfl
    simp only [overlapLoop, view_off, m1, m2]
    rw [if_neg (by omega), if_neg (by omega), if_pos (by omega), hsp]
    simp only
    rw [if_neg (by omega), ih (j + 1) (by omega)]
    congr 2; omega

/-- All the pieces. -/
def pieces (L n : Nat) : List Entry := (L + 1, view L 0) :: tailPieces L 0 n

theorem overlap_all (L n : Nat) (hL : 0 < L) :
    overlapLoop (pieces L n) (view (L + n + 1) 0) [] = .keep (view (L + n + 1) (L + n)) [] := by
  have m1 : (view (L + n + 1) 0).maxOff = 1 + (L + n + 1) := view_maxOff _ _ (by omega)
  have m2 : (view L 0).maxOff = 1 + L := view_maxOff _ _ (by omega)
  have hsp : ((view (L + n + 1) 0).splitOff (1 + L - (1 + 0))).map (·.2) = some (view (L + n + 1) (L + 0)) := by
    have : 1 + L - (1 + 0) = L := by omega
    rw [this, view_split _ _ _ (by omega)]
    congr 2; omega
  simp only [pieces, overlapLoop, view_off, m1, m2]
  rw [if_neg (by omega), if_neg (by omega), if_pos (by omega), hsp]
  simp only
  rw [if_neg (by omega), overlap_tail L (L + n + 1) n 0 (by omega)]
  congr 2

theorem mapInsert_end (k : Nat) (b : RangeBuf) (D : List Entry) (h : ∀ e ∈ D, e.1 < k) :
    mapInsert k b D = D ++ [(k, b)] := by
  induction D with
  | nil => rfl
  | cons x t ih =>
    obtain ⟨k', v⟩ := x
    have := h (k', v) (by simp)
    simp only at this
    simp only [mapInsert, List.cons_append]
    rw [if_neg (by omega), if_neg (by omega), ih (fun e he => h e (by simp [he]))]

theorem pieces_keys (L n : Nat) : ∀ e ∈ pieces L n, 1 ≤ e.1 ∧ e.1 < L + n + 2 := by
  intro e he
  simp only [pieces, tailPieces, List.mem_cons, List.mem_map, List.mem_range'_1] at he
  rcases he with rfl | ⟨k, hk, rfl⟩
  · simp only; omega
  · simp only; omega

theorem pieces_succ (L n : Nat) : pieces L (n + 1) = pieces L n ++ [(L + n + 2, view (L + n + 1) (L + n))] := by
  simp [pieces, tailPieces, List.range'_concat]

/-- The frames: each starts at offset 1 and is one byte longer than the one before. -/
def longer (L n : Nat) : List Op :=
  (List.range (n + 1)).map (fun k => .frame .initial 1 (List.replicate (L + k) 0) [] true)

theorem feed_gap {r : RecvBuf} (h : r.ready = false) (fuel : Nat) (oks : List Bool) :
    feed fuel r oks = (r, [], true) := by
  cases fuel with
  | zero => rfl
  | succ n => simp [feed, emit, h]

theorem longer_run (L n : Nat) (hL : 0 < L) (h : L + n + 1 < 65536) :
    (run {} (longer L n)).1.dead = false ∧ (run {} (longer L n)).1.gone .initial = false ∧
    (run {} (longer L n)).1.recv .initial = { fresh with data := pieces L n, len := L + n + 1 } := by
  induction n with
  | zero =>
    have hw : fresh.write (.mk' (List.replicate L 0) 1 false) =
        (.ok (), { fresh with data := pieces L 0, len := L + 0 + 1 }) := by
      have hmo : (RangeBuf.mk' (List.replicate L (0 : UInt8)) 1 false).maxOff = 1 + L := by simp [RangeBuf.maxOff]
      have hle : (RangeBuf.mk' (List.replicate L (0 : UInt8)) 1 false).len = L := by simp
      have hoff : (RangeBuf.mk' (List.replicate L (0 : UInt8)) 1 false).off = 1 := by simp
      have hvw : RangeBuf.mk' (List.replicate L (0 : UInt8)) 1 false = view L 0 := by
        simp [RangeBuf.mk', view]
      have hE : (RangeBuf.mk' (List.replicate L (0 : UInt8)) 1 false).isEmpty = false := by
        simp only [RangeBuf.isEmpty, hle]; simpa using (by omega : L ≠ 0)
      have hm : fresh.maxData = 2 ^ 64 - 1 := rfl
      simp only [write, hmo, hm, hE]
      rw [if_neg (by omega)]
      have h1 : fresh.finOff = none := rfl
      have h2 : fresh.off = 0 := rfl
      have h3 : fresh.data = [] := rfl
      have h4 : fresh.len = 0 := rfl
      have h5 : fresh.drain = false := rfl
      have h6 : ¬ (0 > 1) := by omega
      have h7 : ¬ (1 < 0) := by omega
      simp only [h1, h2, h3, RangeBuf.fin_mk', Option.any_none, Bool.false_and, Bool.false_eq_true, if_false,
        Option.isSome_none, Bool.and_false, Bool.not_false, List.length_nil, tmpLoop, hoff, h6, h4, h7, hE,
        or_self, h5, hmo, mapInsert, pieces, tailPieces, Bool.and_true, decide_eq_true_eq]
      rw [if_neg (by omega)]
      have : max 0 (1 + L) = L + 0 + 1 := by omega
      have h8 : 1 + L = L + 1 := by omega
      simp only [this, hvw, h8]
      rfl
    have hr : ({ fresh with data := pieces L 0, len := L + 0 + 1 } : RecvBuf).ready = false := rfl
    have hs : (run {} (longer L 0)) = onFrame {} .initial 1 (List.replicate (L + 0) 0) [] true := by
      have : longer L 0 = [] ++ [.frame .initial 1 (List.replicate (L + 0) 0) [] true] := rfl
      rw [this, run_append]
      simp [run, step]
    rw [hs]
    simp only [onFrame, List.length_replicate]
    rw [if_neg (by simp only [maxCryptoOff]; omega)]
    have h0 : ({} : St).recv .initial = fresh := rfl
    simp only [h0, Nat.add_zero] at hw hr ⊢
    rw [hw]
    simp only [feed_gap hr, Bool.and_self, if_true]
    exact ⟨rfl, rfl, rfl⟩
  | succ n ih =>
    obtain ⟨i1, i2, i3⟩ := ih (by omega)
    have hl : longer L (n + 1) = longer L n ++ [.frame .initial 1 (List.replicate (L + n + 1) 0) [] true] := by
      simp only [longer]
      rw [List.range_succ, List.map_append]
      simp [Nat.add_assoc]
    rw [hl, run_append]
    generalize run {} (longer L n) = x at *
    obtain ⟨s, log⟩ := x
    simp only at *
    have hw : ({ fresh with data := pieces L n, len := L + n + 1 } : RecvBuf).write
          (.mk' (List.replicate (L + n + 1) 0) 1 false) =
        (.ok (), { fresh with data := pieces L (n + 1), len := L + (n + 1) + 1 }) := by
      have hvw : RangeBuf.mk' (List.replicate (L + n + 1) (0 : UInt8)) 1 false = view (L + n + 1) 0 := by
        simp [RangeBuf.mk', view]
      rw [hvw]
      have hmo : (view (L + n + 1) 0).maxOff = 1 + (L + n + 1) := view_maxOff _ _ (by omega)
      have hmo2 : (view (L + n + 1) (L + n)).maxOff = 1 + (L + n + 1) := view_maxOff _ _ (by omega)
      have hoff : (view (L + n + 1) 0).off = 1 := view_off _ _
      have hE : (view (L + n + 1) 0).isEmpty = false := by
        simp only [RangeBuf.isEmpty, view_len]; simp
      have hfin : (view (L + n + 1) 0).fin = false := rfl
      have hm : ({ fresh with data := pieces L n, len := L + n + 1 } : RecvBuf).maxData = 2 ^ 64 - 1 := rfl
      have hflt : (pieces L n).filter (fun e => 1 ≤ e.1) = pieces L n := by
        rw [List.filter_eq_self]
        intro e he
        simpa using (pieces_keys L n e he).1
      simp only [write, hmo, hm, hE]
      rw [if_neg (by omega)]
      have h1 : fresh.finOff = none := rfl
      have h2 : fresh.off = 0 := rfl
      have h5 : fresh.drain = false := rfl
      have h6 : ¬ (0 > 1) := by omega
      simp only [h1, h2, hfin, Option.any_none, Bool.false_and, Bool.false_eq_true, if_false,
        Option.isSome_none, Bool.and_false, Bool.not_false, tmpLoop, hoff, h6, hE, or_false, h5,
        Bool.and_true, decide_eq_true_eq]
      rw [if_neg (by omega), if_pos (by omega), hflt, overlap_all L n hL]
      simp only [hmo2]
      rw [mapInsert_end _ _ _ (fun e he => by have := (pieces_keys L n e he).2; omega), pieces_succ]
      have e2 : 1 + (L + n + 1) = L + n + 2 := by omega
      have e1 : max (L + n + 1) (L + n + 2) = L + (n + 1) + 1 := by omega
      simp only [e2, e1]
      cases hpl : (pieces L n).length <;> rfl
    have hr : ({ fresh with data := pieces L (n + 1), len := L + (n + 1) + 1 } : RecvBuf).ready = false := rfl
    have hs : step s (.frame .initial 1 (List.replicate (L + n + 1) 0) [] true) =
        onFrame s .initial 1 (List.replicate (L + n + 1) 0) [] true := by
      simp only [step]; rw [if_neg (by simp [i1, i2])]
    rw [hs]
    simp only [onFrame, List.length_replicate]
    rw [if_neg (by simp only [maxCryptoOff]; omega), i3, hw]
    simp only [feed_gap hr, Bool.and_self, if_true]
    exact ⟨i1, i2, rfl⟩

theorem pieces_data (L n : Nat) :
    (pieces L n).map (fun e => e.2.data) = (List.range (n + 1)).map (fun k => List.replicate (L + k) 0) := by
  simp only [pieces, tailPieces, List.map_cons, List.map_map, view, ← List.range_eq_range']
  rw [List.range_succ_eq_map, List.map_cons, List.map_map]
  congr 1

theorem pieces_sum (L n : Nat) : ((pieces L n).map (fun e => e.2.len)).sum = L + n := by
  induction n with
  | zero => simp [pieces, tailPieces, view_len]
  | succ n ih =>
    rw [pieces_succ, List.map_append, List.sum_append, ih]
    simp only [List.map_cons, List.map_nil, view_len, List.sum_cons, List.sum_nil]
    omega

theorem sum_ge (f : Nat → Nat) (L : Nat) (hf : ∀ k, L ≤ f k) (m : Nat) : m * L ≤ ((List.range m).map f).sum := by
  induction m with
  | zero => simp
  | succ m ih =>
    have := hf m
    rw [List.range_succ, List.map_append, List.sum_append]
    simp only [List.map_cons, List.map_nil, List.sum_cons, List.sum_nil, Nat.succ_mul]
    omega

/-- **C175, a deviation.** The memory kept is not bounded by the bytes waiting: a frame of
which one byte is new is kept whole. Frames that each begin at offset 1 and are one byte longer
than the one before leave `L + n` bytes waiting and `n + 1` payloads of at least `L` bytes each
alive, all different. For `L = 1000` and `n = 64000` this is 64 megabytes, in a connection whose
handshake has not begun. -/
theorem kept_false (L n : Nat) (hL : 0 < L) (h : L + n + 1 < 65536) : ∃ ops : List Op,
    (run {} ops).1.dead = false ∧ (run {} ops).1.gone .initial = false ∧
    toTls .initial (run {} ops).2 = [] ∧
    waiting ((run {} ops).1.recv .initial) = L + n ∧
    (backing ((run {} ops).1.recv .initial)).Nodup ∧
    (n + 1) * L ≤ ((backing ((run {} ops).1.recv .initial)).map List.length).sum := by
  obtain ⟨h1, h2, h3⟩ := longer_run L n hL h
  refine ⟨longer L n, h1, h2, ?_, ?_, ?_, ?_⟩
  · have := (run_lvl .initial (longer L n)).off h2
    rw [h3] at this
    exact List.length_eq_zero_iff.mp this.symm
  · rw [h3]; exact pieces_sum L n
  · rw [h3]
    simp only [backing, pieces_data]
    refine List.Pairwise.map _ ?_ (List.pairwise_lt_range (n := n + 1))
    intro a b hab he
    have := congrArg List.length he
    simp only [List.length_replicate] at this
    omega
  · rw [h3]
    simp only [backing, pieces_data, List.map_map]
    refine sum_ge _ L (fun k => ?_) (n + 1)
    simp only [Function.comp, List.length_replicate]; omega

/-- A handshake in three frames, the last two out of order and overlapping, then one too far. -/
def sample : List Op :=
  [.frame .initial 4 [4, 5, 6, 7] [] true,
   .frame .initial 0 [0, 1, 2] [] true,
   .frame .initial 2 [2, 3, 4, 5] [] true,
   .frame .handshake 0 [9] [] true,
   .drop .initial,
   .frame .initial 8 [8] [] true,
   .frame .handshake 65535 [1] [] true]

example : toTls .initial (run {} sample).2 = [0, 1, 2, 3, 4, 5, 6, 7] ∧
    toTls .handshake (run {} sample).2 = [9] ∧
    (run {} sample).2.getLast? = some (.closed .cryptoBufferExceeded) := by decide +kernel

example : waiting ((run {} (longer 3 4)).1.recv .initial) = 7 ∧
    (backing ((run {} (longer 3 4)).1.recv .initial)).map List.length = [3, 4, 5, 6, 7] := by decide +kernel

end Verif.Props.C175
