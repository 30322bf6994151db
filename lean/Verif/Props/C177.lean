import Verif.H3i.Step

/-!
C177: the parser of h3i reports the frames of a stream, all of them, in order, however the bytes
come; when it says that the stream has ended, and when it does not.
-/

namespace Verif.Props.C177
open Verif Verif.H3i

/-! ### Specification -/

/-- The bytes of the stream. -/
def received : Bool → List Op → Bytes
  | _, [] => []
  | false, .data b fin :: ops => b ++ received fin ops
  | true, .data _ _ :: ops => received true ops
  | f, _ :: ops => received f ops

/-- Has the end of the stream arrived? -/
def ended : List Op → Bool
  | [] => false
  | .data _ true :: _ => true
  | _ :: ops => ended ops

/-- The frames reported. -/
def frames : List Out → List (Nat × Bytes)
  | [] => []
  | .frame ty pl _ :: l => (ty, pl) :: frames l
  | _ :: l => frames l

/-- Frames written one after the other. -/
inductive Spelled : List (Nat × Bytes) → Bytes → Prop where
  | nil : Spelled [] []
  | cons (f : Nat × Bytes) (fs : List (Nat × Bytes)) (a b : Bytes) : Wire f a → Spelled fs b → Spelled (f :: fs) (a ++ b)

/-- The reader after `ops`. -/
def after (ops : List Op) : St := St.run { } ops

/-- The answer to a call made after `ops`. -/
def answer (ops : List Op) : Out := ((after ops).p.tryParse (after ops).s).2.2

/-! ### Lemmas -/

theorem frames_append (l m : List Out) : frames (l ++ m) = frames l ++ frames m := by
  induction l with
  | nil => rfl
  | cons o l ih => cases o <;> simp [frames, ih]

theorem spelled_snoc {fs : List (Nat × Bytes)} {w v : Bytes} {f : Nat × Bytes} (h : Spelled fs w) (hf : Wire f v) :
    Spelled (fs ++ [f]) (w ++ v) := by
  induction h with
  | nil =>
    have := Spelled.cons f [] v [] hf Spelled.nil
    simpa using this
  | cons g gs a b hg _ ih =>
    have := Spelled.cons g _ a _ hg ih
    simpa using this

theorem run_snoc (t : St) (ops : List Op) (o : Op) : t.run (ops ++ [o]) = (t.run ops).step o := by
  induction ops generalizing t with
  | nil => rfl
  | cons x ops ih => simp [St.run, ih]

/-- What holds of a reader. -/
structure Ok (t : St) (R : Bytes) : Prop where
  small : t.p.buf.length ≤ maxState
  pre : ∃ w r, Spelled (frames t.log) w ∧ R = w ++ r
  live : t.over = false → ∃ w h, Spelled (frames t.log) w ∧ R = w ++ h ++ t.s.avail ∧ Held t.p h ∧ ToldOk t.s t.p h

theorem wire_ne {f : Nat × Bytes} {w : Bytes} (h : Wire f w) : w ≠ [] := by
  obtain ⟨a, b, ha, _, rfl⟩ := h
  intro hx
  exact (isVarint_head ha).1 (List.append_eq_nil_iff.mp (List.append_eq_nil_iff.mp hx).1).1

theorem call_ok {t : St} {R : Bytes} (h : Ok t R) : Ok (t.step .call) R := by
  simp only [St.step]
  split
  next ho => exact h
  next ho =>
    have ho' : t.over = false := by simpa using ho
    obtain ⟨w, hd, hw, hR, hh, ht⟩ := h.live ho'
    rcases hp : t.p.tryParse t.s with ⟨p', s', o⟩
    have post := tryParse_spec hh ht hp
    simp only
    -- an answer without a frame, after which the reader goes on
    have goes : ∀ d : Bytes, t.s.avail = d ++ s'.avail → Held p' (hd ++ d) → ToldOk s' p' (hd ++ d) →
        frames [o] = [] → Ok { p := p', s := s', over := o.stops, log := t.log ++ [o] } R := by
      intro d h1 h2 h3 h4
      refine ⟨by simp only; rw [h2.len]; exact h2.size, ⟨w, hd ++ t.s.avail, by simpa [frames_append, h4] using hw, by simpa using hR⟩, fun _ => ?_⟩
      exact ⟨w, hd ++ d, by simpa [frames_append, h4] using hw, by rw [hR, h1]; simp, h2, h3⟩
    have stop : o.stops = true → p'.buf.length ≤ maxState →
        frames [o] = [] → Ok { p := p', s := s', over := o.stops, log := t.log ++ [o] } R := by
      intro h1 h2 h4
      refine ⟨h2, ⟨w, hd ++ t.s.avail, by simpa [frames_append, h4] using hw, by simpa using hR⟩, fun hx => ?_⟩
      simp only at hx
      rw [h1] at hx
      simp at hx
    cases post with
    | reset e a1 => exact stop rfl a1 rfl
    | frame d ty pl fin a1 a2 a3 a4 a5 a6 =>
      have hsp : Spelled (frames (t.log ++ [Out.frame ty pl fin])) (w ++ (hd ++ d)) := by
        rw [frames_append]
        exact spelled_snoc hw a3
      subst a4
      refine ⟨by simp [maxState], ⟨w ++ (hd ++ d), s'.avail, hsp, by rw [hR, a1]; simp⟩, fun hx => ?_⟩
      have hfin : fin = false := hx
      refine ⟨w ++ (hd ++ d), [], hsp, by rw [hR, a1]; simp, held_new, ?_⟩
      intro hto
      have := a6 hfin
      simp only at hto
      rw [this] at hto
      simp at hto
    | ended d a1 a2 a3 a4 a5 a6 => exact stop rfl a6 rfl
    | done d a1 a2 a3 a4 a5 a6 a7 => exact goes d a1 a3 a4 rfl
    | retry d a1 a2 a3 a4 a5 a6 => exact goes d a1 a3 a4 rfl
    | excessive d _ _ _ _ a1 a2 a3 a4 => exact goes d a1 a3 a4 rfl
    | bad d _ _ _ a1 a2 a3 a4 => exact goes d a1 a3 a4 rfl
    | panic d pl e a1 a2 a3 a4 a5 => exact stop rfl a5 rfl

theorem data_ok {t : St} {R b : Bytes} {fin : Bool} (h : Ok t R) (hf : t.s.fin = false) :
    Ok (t.step (.data b fin)) (R ++ b) := by
  simp only [St.step]
  rw [hf]
  simp only [Bool.false_eq_true, if_false]
  refine ⟨h.small, ?_, fun ho => ?_⟩
  · obtain ⟨w, r, h1, h2⟩ := h.pre
    exact ⟨w, r ++ b, h1, by rw [h2]; simp⟩
  · obtain ⟨w, hd, hw, hR, hh, ht⟩ := h.live ho
    refine ⟨w, hd, hw, by rw [hR]; simp, hh, ?_⟩
    intro hto
    have := (ht hto).1
    rw [hf] at this
    simp at this

theorem reset_ok {t : St} {R : Bytes} {e : Nat} (h : Ok t R) : Ok (t.step (.reset e)) R := by
  simp only [St.step]
  split
  · exact h
  next hto =>
    refine ⟨h.small, h.pre, fun ho => ?_⟩
    obtain ⟨w, hd, hw, hR, hh, ht⟩ := h.live ho
    exact ⟨w, hd, hw, hR, hh, fun hx => absurd hx hto⟩

theorem once_fin (p : P) (s : Src) : (p.once s).2.1.fin = s.fin := by
  have hrecv : ∀ n, (s.recv n).1.fin = s.fin := by
    intro n
    unfold Src.recv
    split
    · rfl
    · split <;> rfl
  have hfill : (p.fill s).2.1.fin = s.fin := by
    unfold P.fill
    split
    · rfl
    · have := hrecv (p.slen - p.off)
      rcases hr : s.recv (p.slen - p.off) with ⟨s1, g⟩
      rw [hr] at this
      cases g <;> exact this
  unfold P.once
  rcases hf : p.fill s with ⟨p1, s1, g⟩
  rw [hf] at hfill
  cases g with
  | reset e => exact hfill
  | done => exact hfill
  | data b fin =>
    simp only
    split
    · exact hfill
    · split
      · split
        · exact hfill
        · split <;> exact hfill
      · split
        · exact hfill
        · split <;> exact hfill
      · split
        · split
          · split <;> exact hfill
          · exact hfill
        · exact hfill

theorem tryParse_fin (p : P) (s : Src) : (p.tryParse s).2.1.fin = s.fin := by
  unfold P.tryParse
  have h1 := once_fin p s
  rcases e1 : p.once s with ⟨p1, s1, o1⟩
  rw [e1] at h1
  cases o1 with
  | some o => exact h1
  | none =>
    simp only
    have h2 := once_fin p1 s1
    rcases e2 : p1.once s1 with ⟨p2, s2, o2⟩
    rw [e2] at h2
    cases o2 with
    | some o => exact h2.trans h1
    | none =>
      simp only
      have h3 := once_fin p2 s2
      rcases e3 : p2.once s2 with ⟨p3, s3, o3⟩
      rw [e3] at h3
      cases o3 with
      | some o => exact h3.trans (h2.trans h1)
      | none => exact h3.trans (h2.trans h1)

theorem run_ok (ops : List Op) {t : St} {R : Bytes} (h : Ok t R) :
    Ok (t.run ops) (R ++ received t.s.fin ops) ∧ (t.run ops).s.fin = (t.s.fin || ended ops) := by
  induction ops generalizing t R with
  | nil => simp [St.run, received, ended]; exact h
  | cons o ops ih =>
    cases o with
    | data b fin =>
      cases hf : t.s.fin with
      | true =>
        have hst : t.step (.data b fin) = t := by simp only [St.step]; rw [hf]; simp
        have := ih h
        rw [hf] at this
        refine ⟨?_, ?_⟩
        · simp only [St.run, hst, received]; exact this.1
        · simp only [St.run, hst]; rw [this.2]; simp
      | false =>
        have hfin : (t.step (.data b fin)).s.fin = fin := by simp only [St.step]; rw [hf]; simp
        have := ih (data_ok (b := b) (fin := fin) h hf)
        rw [hfin] at this
        refine ⟨?_, ?_⟩
        · simp only [St.run, received]; simpa using this.1
        · simp only [St.run]; rw [this.2]; cases fin <;> simp [ended]
    | reset e =>
      have hfin : (t.step (.reset e)).s.fin = t.s.fin := by simp only [St.step]; split <;> rfl
      have := ih (reset_ok (e := e) h)
      rw [hfin] at this
      refine ⟨?_, ?_⟩
      · simp only [St.run]; cases hx : t.s.fin <;> simp only [received] <;> simpa [hx] using this.1
      · simp only [St.run, ended]; exact this.2
    | call =>
      have hfin : (t.step .call).s.fin = t.s.fin := by
        simp only [St.step]
        split
        · rfl
        · exact tryParse_fin t.p t.s
      have := ih (call_ok h)
      rw [hfin] at this
      refine ⟨?_, ?_⟩
      · simp only [St.run]; cases hx : t.s.fin <;> simp only [received] <;> simpa [hx] using this.1
      · simp only [St.run, ended]; exact this.2

theorem new_ok : Ok { } [] :=
  ⟨by simp [maxState], ⟨[], [], Spelled.nil, rfl⟩, fun _ => ⟨[], [], Spelled.nil, rfl, held_new, by simp [ToldOk]⟩⟩

theorem after_ok (ops : List Op) : Ok (after ops) (received false ops) ∧ (after ops).s.fin = ended ops := by
  have := run_ok ops new_ok
  simpa [after] using this

/-- A call after `ops`: the frames already reported, the bytes held, and what the call came to. -/
theorem call_spec (ops : List Op) (ho : (after ops).over = false) :
    ∃ w h p' s', Spelled (frames (after ops).log) w ∧ received false ops = w ++ h ++ (after ops).s.avail ∧
      Post (after ops).p (after ops).s h p' s' (some (answer ops)) := by
  obtain ⟨w, hd, hw, hR, hh, ht⟩ := (after_ok ops).1.live ho
  rcases hp : (after ops).p.tryParse (after ops).s with ⟨p', s', o⟩
  have := tryParse_spec hh ht hp
  refine ⟨w, hd, p', s', hw, hR, ?_⟩
  unfold answer
  rw [hp]
  exact this

/-! ### Theorems -/

/-- A call is answered by `answer`. -/
theorem log_call (ops : List Op) (ho : (after ops).over = false) :
    (after (ops ++ [.call])).log = (after ops).log ++ [answer ops] ∧
    (after (ops ++ [.call])).over = (answer ops).stops := by
  unfold after answer
  rw [run_snoc]
  have ho' : (St.run { } ops).over = false := ho
  simp only [St.step]
  rw [ho']
  simp [after]

/-- **C177 sound**: however the bytes come, the frames reported are those with which the stream
begins, in order. -/
theorem sound (ops : List Op) : ∃ w r, Spelled (frames (after ops).log) w ∧ received false ops = w ++ r :=
  (after_ok ops).1.pre

/-- **C177 complete**: with the answer that there is nothing to read, every complete frame has been
reported. -/
theorem complete (ops : List Op) (ho : (after ops).over = false) (ha : answer ops = .done) :
    ∃ w r, Spelled (frames (after ops).log) w ∧ received false ops = w ++ r ∧ NoFrame r := by
  obtain ⟨w, h, p', s', hw, hR, post⟩ := call_spec ops ho
  rw [ha] at post
  cases post with
  | done d a1 a2 a3 a4 a5 a6 a7 =>
    refine ⟨w, h ++ d, hw, ?_, held_noFrame a3 a5⟩
    rw [hR, a1, a6]; simp

theorem wire_unique {f g : Nat × Bytes} {w v x y : Bytes} (hf : Wire f w) (hg : Wire g v) (h : w ++ x = v ++ y) :
    f = g ∧ x = y := by
  obtain ⟨a, b, ha, hb, rfl⟩ := hf
  obtain ⟨a', b', ha', hb', rfl⟩ := hg
  simp only [List.append_assoc] at h
  obtain ⟨e1, _, e2⟩ := isVarint_unique ha ha' h
  obtain ⟨e3, _, e4⟩ := isVarint_unique hb hb' e2
  obtain ⟨e5, e6⟩ := List.append_inj e4 e3
  exact ⟨Prod.ext e1 e5, e6⟩

theorem spelled_unique {fs gs : List (Nat × Bytes)} {w v x y : Bytes} (hf : Spelled fs w) (hg : Spelled gs v)
    (hx : NoFrame x) (hy : NoFrame y) (h : w ++ x = v ++ y) : fs = gs ∧ x = y := by
  induction hf generalizing gs v with
  | nil =>
    cases hg with
    | nil => exact ⟨rfl, by simpa using h⟩
    | cons g gs a b hg _ => exact absurd (by simpa using h) (hx g a (b ++ y) hg)
  | cons f fs a b hf _ ih =>
    cases hg with
    | nil => exact absurd (by simpa using h.symm) (hy f a (b ++ x) hf)
    | cons g gs a' b' hg hgs =>
      simp only [List.append_assoc] at h
      obtain ⟨rfl, e⟩ := wire_unique hf hg h
      obtain ⟨rfl, e2⟩ := ih hgs e
      exact ⟨rfl, e2⟩

/-- **C177 same**: the frames reported do not depend on how the bytes came. -/
theorem same (ops ops' : List Op) (hr : received false ops = received false ops')
    (ho : (after ops).over = false) (ha : answer ops = .done)
    (ho' : (after ops').over = false) (ha' : answer ops' = .done) :
    frames (after ops).log = frames (after ops').log := by
  obtain ⟨w, r, h1, h2, h3⟩ := complete ops ho ha
  obtain ⟨w', r', h1', h2', h3'⟩ := complete ops' ho' ha'
  exact (spelled_unique h1 h1' h3 h3' (by rw [← h2, ← h2', hr])).1

/-- **C177 fin**: a frame is the last one exactly when the end has arrived and it ends there. -/
theorem fin (ops : List Op) (ho : (after ops).over = false) {ty : Nat} {pl : Bytes} {f : Bool}
    (ha : answer ops = .frame ty pl f) :
    ∃ w r, Spelled (frames (after ops).log ++ [(ty, pl)]) w ∧ received false ops = w ++ r ∧
      (f = true ↔ ended ops = true ∧ r = []) := by
  obtain ⟨w, h, p', s', hw, hR, post⟩ := call_spec ops ho
  rw [ha] at post
  cases post with
  | frame d ty pl f a1 a2 a3 a4 a5 a6 =>
    refine ⟨w ++ (h ++ d), s'.avail, spelled_snoc hw a3, ?_, ?_⟩
    · rw [hR, a1]; simp
    · rw [← (after_ok ops).2]; exact a5

/-- **C177 cut**: a stream is said to have ended in the middle of a frame, or after none, only when
it has: its end has arrived and all complete frames were reported before. -/
theorem cut (ops : List Op) (ho : (after ops).over = false) (ha : answer ops = .interruptedFin) :
    ended ops = true ∧
    ∃ w r, Spelled (frames (after ops).log) w ∧ received false ops = w ++ r ∧ NoFrame r := by
  obtain ⟨w, h, p', s', hw, hR, post⟩ := call_spec ops ho
  rw [ha] at post
  cases post with
  | ended d a1 a2 a3 a4 a5 a6 =>
    refine ⟨by rw [← (after_ok ops).2]; exact a3, w, h ++ d, hw, ?_, a5⟩
    rw [hR, a1, a4]; simp

/-- **C177 fin_partial**: with the end arrived, there is nothing to read only in the middle of a
frame of which something has been read. *Missing*: that this does not happen (`fin_false`). -/
theorem fin_partial (ops : List Op) (ho : (after ops).over = false) (ha : answer ops = .done)
    (he : ended ops = true) :
    ∃ w r, Spelled (frames (after ops).log) w ∧ received false ops = w ++ r ∧ NoFrame r ∧ r ≠ [] := by
  obtain ⟨w, h, p', s', hw, hR, post⟩ := call_spec ops ho
  rw [ha] at post
  cases post with
  | done d a1 a2 a3 a4 a5 a6 a7 =>
    refine ⟨w, h ++ d, hw, by rw [hR, a1, a6]; simp, held_noFrame a3 a5, ?_⟩
    exact (a4 (a7 (by rw [(after_ok ops).2]; exact he))).2.2.1

/-- **C177 small**: no more than two million bytes are kept. -/
theorem small (ops : List Op) : (after ops).p.buf.length ≤ 2000000 := (after_ok ops).1.small

/-- **C177 panic_partial**: the only thing that brings the reader down is a HEADERS frame whose
field section cannot be decoded. *Missing*: that there is no such thing (`panic_false`). -/
theorem panic_partial (ops : List Op) (ho : (after ops).over = false) (ha : answer ops = .panic) :
    ∃ w pl r e, Spelled (frames (after ops).log ++ [(1, pl)]) w ∧ received false ops = w ++ r ∧
      Qpack.decode pl (2 ^ 64 - 1) = .error e := by
  obtain ⟨w, h, p', s', hw, hR, post⟩ := call_spec ops ho
  rw [ha] at post
  cases post with
  | panic d pl e a1 a2 a3 a4 a5 =>
    exact ⟨w ++ (h ++ d), pl, s'.avail, e, spelled_snoc hw a3, by rw [hR, a1]; simp, a4⟩

/-- **C177 too_large**: a frame is called too large only when it announces more than two million
bytes. -/
theorem too_large (ops : List Op) (ho : (after ops).over = false) (ha : answer ops = .excessive) :
    ∃ w t n a b r, Spelled (frames (after ops).log) w ∧ IsVarint t a ∧ IsVarint n b ∧ 2000000 < n ∧
      received false ops = w ++ a ++ b ++ r := by
  obtain ⟨w, h, p', s', hw, hR, post⟩ := call_spec ops ho
  rw [ha] at post
  cases post with
  | excessive d t n a b a1 a2 a3 a4 a5 a6 a7 a8 =>
    refine ⟨w, t, n, a, b, s'.avail, hw, a5, a6, a7, ?_⟩
    have : received false ops = w ++ (h ++ d) ++ s'.avail := by rw [hR, a1]; simp
    rw [this, a8]
    simp

/-- **C177 malformed**: a frame is called malformed only when its payload is. -/
theorem malformed (ops : List Op) (ho : (after ops).over = false) (ha : answer ops = .bad) :
    ∃ w ty pl r e, Spelled (frames (after ops).log ++ [(ty, pl)]) w ∧ received false ops = w ++ r ∧
      H3.fromBytes ty pl.length pl = .error e := by
  obtain ⟨w, h, p', s', hw, hR, post⟩ := call_spec ops ho
  rw [ha] at post
  cases post with
  | bad d ty pl e a1 a2 a3 a4 a5 a6 =>
    exact ⟨w ++ (h ++ d), ty, pl, s'.avail, e, spelled_snoc hw a5, by rw [hR, a1]; simp, a6⟩

/-! #### The caller's loop ends -/

/-- The answers after which the caller asks again (client/mod.rs:381-469). -/
def asksAgain : Out → Bool
  | .retry => true
  | .frame _ _ fin => !fin
  | _ => false

theorem calls_end (n : Nat) : ∀ (t : St) (w : Bytes) (h : Bytes), t.over = false → Held t.p h → ToldOk t.s t.p h →
    2 * t.s.avail.length + (if h = [] then 0 else 1) ≤ n →
    ∃ k, k ≤ n ∧ (t.run (List.replicate k .call)).over = false ∧
      asksAgain (((t.run (List.replicate k .call)).p.tryParse (t.run (List.replicate k .call)).s).2.2) = false := by
  induction n with
  | zero =>
    intro t w h ho hh ht hn
    refine ⟨0, Nat.le_refl _, ho, ?_⟩
    simp only [List.replicate_zero, St.run]
    rcases hp : t.p.tryParse t.s with ⟨p', s', o⟩
    have post := tryParse_spec hh ht hp
    have hav : t.s.avail = [] := by
      cases hx : t.s.avail with
      | nil => rfl
      | cons x xs => rw [hx] at hn; simp at hn
    have hh0 : h = [] := by
      by_cases hx : h = []
      · exact hx
      · rw [if_neg hx] at hn; omega
    simp only
    cases post with
    | frame d ty pl fin a1 a2 a3 a4 a5 a6 =>
      exfalso
      rw [hav] at a1
      have := List.append_eq_nil_iff.mp a1.symm
      exact wire_ne a3 (by rw [hh0, this.1]; rfl)
    | retry d a1 a2 a3 a4 a5 a6 =>
      exfalso
      rw [hav] at a1
      exact a6 (List.append_eq_nil_iff.mp a1.symm).1
    | _ => rfl
  | succ n ih =>
    intro t w h ho hh ht hn
    rcases hp : t.p.tryParse t.s with ⟨p', s', o⟩
    have post := tryParse_spec hh ht hp
    by_cases hag : asksAgain o = false
    · exact ⟨0, by omega, ho, by simp only [List.replicate_zero, St.run]; rw [hp]; exact hag⟩
    · have hstep : t.step .call = { p := p', s := s', over := o.stops, log := t.log ++ [o] } := by
        simp only [St.step, ho, hp]; simp
      have next : ∀ h' : Bytes, o.stops = false → Held p' h' → ToldOk s' p' h' →
          2 * s'.avail.length + (if h' = [] then 0 else 1) ≤ n →
          ∃ k, k ≤ n + 1 ∧ (t.run (List.replicate k .call)).over = false ∧
            asksAgain (((t.run (List.replicate k .call)).p.tryParse (t.run (List.replicate k .call)).s).2.2) = false := by
        intro h' hs h1 h2 h3
        obtain ⟨k, k1, k2, k3⟩ := ih { p := p', s := s', over := o.stops, log := t.log ++ [o] } w h' hs h1 h2 h3
        refine ⟨k + 1, by omega, ?_⟩
        simp only [List.replicate_succ, St.run, hstep]
        exact ⟨k2, k3⟩
      cases post with
      | frame d ty pl fin a1 a2 a3 a4 a5 a6 =>
        have hfin : fin = false := by simpa [asksAgain] using hag
        subst a4
        apply next [] hfin held_new
        · intro hx; rw [a6 hfin] at hx; simp at hx
        · have hl := congrArg List.length a1
          simp only [List.length_append] at hl
          simp only [if_true]
          by_cases hx : h = []
          · have : d ≠ [] := by
              intro hd
              exact wire_ne a3 (by rw [hx, hd]; rfl)
            have : 0 < d.length := List.length_pos_iff.mpr this
            omega
          · rw [if_neg hx] at hn
            omega
      | retry d a1 a2 a3 a4 a5 a6 =>
        apply next (h ++ d) rfl a3 a4
        have hl := congrArg List.length a1
        simp only [List.length_append] at hl
        have : 0 < d.length := List.length_pos_iff.mpr a6
        have hle : (if h ++ d = [] then 0 else 1) ≤ 1 := by split <;> omega
        omega
      | _ => exact absurd rfl hag

/-- **C177 drains**: the loop of the caller ends: after at most twice as many calls as there are
bytes to read, and one, the answer is another than a frame before the end or `Retry`. -/
theorem drains (ops : List Op) (ho : (after ops).over = false) :
    ∃ k, k ≤ 2 * (after ops).s.avail.length + 1 ∧
      (after (ops ++ List.replicate k .call)).over = false ∧
      asksAgain (answer (ops ++ List.replicate k .call)) = false := by
  obtain ⟨w, h, hw, hR, hh, ht⟩ := (after_ok ops).1.live ho
  have hrun : ∀ (a b : List Op) (t : St), t.run (a ++ b) = (t.run a).run b := by
    intro a
    induction a with
    | nil => intro b t; rfl
    | cons x a ih => intro b t; simp [St.run, ih]
  obtain ⟨k, k1, k2, k3⟩ := calls_end (2 * (after ops).s.avail.length + 1) (after ops) [] h ho hh ht
    (by split <;> omega)
  refine ⟨k, k1, ?_, ?_⟩
  · unfold after at *; rw [hrun]; exact k2
  · unfold answer after at *; rw [hrun]; exact k3

/-! #### After an error -/

/-- The parser cannot go on, whatever comes. -/
def Stuck (p : P) (o : Out) : Prop := ∀ s, p.tryParse s = (p, s, o)

theorem stuck_once {p p' : P} {s s' : Src} {h : Bytes} {o : Out} (hh : Held p h)
    (e : p.once s = (p', s', some o)) (ho : o = .excessive ∨ o = .bad) : Stuck p' o := by
  unfold P.once at e
  rcases hf : p.fill s with ⟨p1, s1, g⟩
  rw [hf] at e
  cases g with
  | reset c => simp only [Prod.mk.injEq, Option.some.injEq] at e; rcases ho with rfl | rfl <;> simp at e
  | done => simp only [Prod.mk.injEq, Option.some.injEq] at e; rcases ho with rfl | rfl <;> simp at e
  | data b fin =>
    simp only at e
    obtain ⟨f1, -⟩ := fill_spec hh hf
    split at e
    · simp only [Prod.mk.injEq, Option.some.injEq] at e; rcases ho with rfl | rfl <;> simp at e
    · cases hm : p1.mode with
      | type =>
        rw [hm] at e
        simp only at e
        rcases hv : p1.varint with ⟨p2, r⟩
        rw [hv] at e
        cases r with
        | none => simp only [Prod.mk.injEq, Option.some.injEq] at e; rcases ho with rfl | rfl <;> simp at e
        | some v =>
          simp only at e
          have : ({ p2 with ty := some v } : P).transition .len 1 = some { p2 with ty := some v, buf := resize p2.buf 1, mode := .len, off := 0, slen := 1 } := by
            unfold P.transition; simp [maxState]
          rw [this] at e
          simp at e
      | len =>
        rw [hm] at e
        simp only at e
        rcases hv : p1.varint with ⟨p2, r⟩
        rw [hv] at e
        obtain ⟨v1, v2, v3, v4, v5, v6, v7⟩ := varint_spec f1 (by rw [hm]; simp) hv
        cases r with
        | none => simp only [Prod.mk.injEq, Option.some.injEq] at e; rcases ho with rfl | rfl <;> simp at e
        | some v =>
          obtain ⟨w1, w2⟩ := v6 v rfl
          simp only at e
          rcases htr : ({ p2 with len := some v } : P).transition .val v with _ | p3
          · rw [htr] at e
            simp only [Prod.mk.injEq, Option.some.injEq] at e
            obtain ⟨rfl, rfl, rfl⟩ := e
            have hmode2 : p2.mode = .len := by rw [v2, hm]
            intro s2
            have hvar : ({ p2 with len := some v } : P).varint = ({ p2 with len := some v }, some v) := by
              have hdec : decVarint p2.buf = .ok (v, p2.buf.length) := by
                have := decVarint_iff (tail := []) |>.mpr w2
                simpa using this
              have hcon := v1.var (by rw [hmode2]; simp)
              unfold VarOk at hcon
              unfold P.varint
              simp only
              by_cases h1 : p2.off = 1
              · rw [if_pos h1]
                have hpl : varintParseLen (p2.buf.headD 0) = p2.slen := by omega
                have hrs : resize p2.buf p2.slen = p2.buf := by
                  unfold resize; rw [← v1.len]; simp
                rw [hpl, hrs]
                rw [if_pos (by simpa [P.complete] using w1)]
                simp only [hdec]
              · rw [if_neg h1]
                rw [if_pos (by simpa [P.complete] using w1)]
                simp only [hdec]
            have hone : ({ p2 with len := some v } : P).once s2 = ({ p2 with len := some v }, s2, some .excessive) := by
              unfold P.once
              have hfl : ({ p2 with len := some v } : P).fill s2 = ({ p2 with len := some v }, s2, .data [] s2.finished) := by
                unfold P.fill
                rw [if_pos (by simpa [P.complete] using w1)]
              rw [hfl]
              simp only
              have hinc : ({ p2 with len := some v } : P).incomplete = false := by
                simp [P.incomplete, P.complete, w1]
              rw [hinc]
              simp only [Bool.and_false, Bool.false_eq_true, if_false, hmode2]
              have hvar' := hvar
              simp only [hmode2] at hvar' 
              rw [hvar']
              simp only [hmode2] at htr
              simp only [htr]
            unfold P.tryParse
            rw [hone]
          · rw [htr] at e
            simp at e
      | val =>
        rw [hm] at e
        simp only at e
        split at e
        next hcm =>
          split at e
          next ty len hty hlen =>
            split at e
            next o' hb =>
              simp only [Prod.mk.injEq, Option.some.injEq] at e
              obtain ⟨rfl, rfl, rfl⟩ := e
              intro s2
              have hone : p1.once s2 = (p1, s2, some o') := by
                unfold P.once
                have hfl : p1.fill s2 = (p1, s2, .data [] s2.finished) := by
                  unfold P.fill
                  rw [if_pos hcm]
                rw [hfl]
                simp only
                have hinc : p1.incomplete = false := by
                  simp [P.incomplete, hcm]
                rw [hinc]
                simp only [Bool.and_false, Bool.false_eq_true, if_false, hm]
                rw [if_pos hcm, hty, hlen]
                simp only [hb]
              unfold P.tryParse
              rw [hone]
            next hb => simp only [Prod.mk.injEq, Option.some.injEq] at e; rcases ho with rfl | rfl <;> simp at e
          · simp only [Prod.mk.injEq, Option.some.injEq] at e; rcases ho with rfl | rfl <;> simp at e
        · simp only [Prod.mk.injEq, Option.some.injEq] at e; rcases ho with rfl | rfl <;> simp at e

theorem stuck_try {p p' : P} {s s' : Src} {h : Bytes} {o : Out} (hh : Held p h) (ht : ToldOk s p h)
    (e : p.tryParse s = (p', s', o)) (ho : o = .excessive ∨ o = .bad) : Stuck p' o := by
  unfold P.tryParse at e
  rcases h1 : p.once s with ⟨p1, s1, o1⟩
  rw [h1] at e
  cases o1 with
  | some o1 =>
    simp only [Prod.mk.injEq] at e
    obtain ⟨rfl, rfl, rfl⟩ := e
    exact stuck_once hh h1 ho
  | none =>
    cases once_spec hh ht h1 with
    | again d a1 a2 a3 a4 a5 =>
      simp only at e
      rcases h2 : p1.once s1 with ⟨p2, s2, o2⟩
      rw [h2] at e
      cases o2 with
      | some o2 =>
        simp only [Prod.mk.injEq] at e
        obtain ⟨rfl, rfl, rfl⟩ := e
        exact stuck_once a3 h2 ho
      | none =>
        cases once_spec a3 a4 h2 with
        | again d2 b1 b2 b3 b4 b5 =>
          simp only at e
          rcases h3 : p2.once s2 with ⟨p3, s3, o3⟩
          rw [h3] at e
          cases o3 with
          | some o3 =>
            simp only [Prod.mk.injEq] at e
            obtain ⟨rfl, rfl, rfl⟩ := e
            exact stuck_once b3 h3 ho
          | none =>
            simp only [Prod.mk.injEq] at e
            obtain ⟨_, _, rfl⟩ := e
            rcases ho with h | h <;> simp at h

/-- **C177 stuck**: after a frame called too large or malformed there are no further frames: every
later call has the same answer, also when the stream ends or is reset. -/
theorem stuck (ops more : List Op) (ho : (after ops).over = false)
    (ha : answer ops = .excessive ∨ answer ops = .bad) :
    answer (ops ++ .call :: more) = answer ops ∧ frames (after (ops ++ .call :: more)).log = frames (after ops).log := by
  obtain ⟨w, h, hw, hR, hh, ht⟩ := (after_ok ops).1.live ho
  rcases hp : (after ops).p.tryParse (after ops).s with ⟨p', s', o⟩
  have hans : answer ops = o := by unfold answer; rw [hp]
  rw [hans] at ha ⊢
  have hst := stuck_try hh ht hp ha
  have hrun : ∀ (a b : List Op) (t : St), t.run (a ++ b) = (t.run a).run b := by
    intro a
    induction a with
    | nil => intro b t; rfl
    | cons x a ih => intro b t; simp [St.run, ih]
  have key : ∀ (more : List Op) (t : St), t.p = p' → frames t.log = frames (after ops).log → t.over = false →
      (t.run more).p = p' ∧ frames (t.run more).log = frames (after ops).log := by
    intro more
    induction more with
    | nil => intro t h1 h2 _; exact ⟨h1, h2⟩
    | cons x more ih =>
      intro t h1 h2 h3
      apply ih
      · cases x with
        | data b fin => simp only [St.step]; split <;> exact h1
        | reset e => simp only [St.step]; split <;> exact h1
        | call => simp only [St.step, h3]; rw [h1, hst]; rfl
      · cases x with
        | data b fin => simp only [St.step]; split <;> exact h2
        | reset e => simp only [St.step]; split <;> exact h2
        | call =>
          simp only [St.step, h3]; rw [h1, hst]
          simp only [Bool.false_eq_true, if_false, frames_append, h2]
          rcases ha with rfl | rfl <;> simp [frames]
      · cases x with
        | data b fin => simp only [St.step]; split <;> exact h3
        | reset e => simp only [St.step]; split <;> exact h3
        | call =>
          simp only [St.step, h3]; rw [h1, hst]
          rcases ha with rfl | rfl <;> simp [Out.stops]
  have h0 : after (ops ++ .call :: more) = ({ p := p', s := s', over := o.stops, log := (after ops).log ++ [o] } : St).run more := by
    show St.run { } (ops ++ .call :: more) = _
    rw [hrun]
    simp only [St.run, St.step]
    have ho' : (St.run { } ops).over = false := ho
    rw [ho']
    have hp' : (St.run { } ops).p.tryParse (St.run { } ops).s = (p', s', o) := hp
    rw [hp']
    rfl
  have := key more { p := p', s := s', over := o.stops, log := (after ops).log ++ [o] } rfl
    (by simp only [frames_append]; rcases ha with rfl | rfl <;> simp [frames])
    (by rcases ha with rfl | rfl <;> rfl)
  rw [← h0] at this
  refine ⟨?_, this.2⟩
  show ((after (ops ++ .call :: more)).p.tryParse (after (ops ++ .call :: more)).s).2.2 = o
  rw [this.1, hst]

/-! ### What does not hold -/

/-- **C177 fin_false**: the end of a stream in the middle of a frame need not be reported, and
whether it is depends on how the bytes came. The type of a frame and the end of the stream in one
packet: nothing to read, for ever. The same in two packets: the end. -/
theorem fin_false :
    (after [.data [0x00] true, .call, .call, .call]).log = [.done, .done, .done] ∧
    (after [.data [0x00] false, .call, .data [] true, .call]).log = [.done, .interruptedFin] ∧
    received false [.data [0x00] true, .call, .call, .call] =
      received false [.data [0x00] false, .call, .data [] true, .call] := by
  decide +kernel

/-- **C177 panic_false**: a peer brings the reader down with three bytes. -/
theorem panic_false : (after [.data [0x01, 0x01, 0xff] false, .call]).log = [.panic] := by
  decide +kernel

/-! ### A concrete case -/

/-- Two frames, in pieces, and the end. -/
example : (after [.data [0x00, 0x02, 0x61] false, .call, .data [0x62, 0x21] false, .call, .call,
    .data [0x01, 0x07] true, .call, .call]).log =
    [.done, .frame 0 [0x61, 0x62] false, .done, .frame 0x21 [0x07] true] := by decide +kernel

/-- A frame of an announced length of 2^30 - 1. -/
example : (after [.data [0x00, 0xbf, 0xff, 0xff, 0xff] false, .call, .call, .call, .data [] true, .call]).log =
    [.retry, .excessive, .excessive, .excessive] := by decide +kernel

/-- A reset. -/
example : (after [.data [0x00, 0x02, 0x61] false, .call, .reset 5, .call]).log = [.done, .interruptedReset 5] := by
  decide +kernel

end Verif.Props.C177
