import Verif.H3.Match

/-! The content of a stream is determined by its bytes. -/

namespace Verif.H3
open Verif

theorem wire_unique {t t' : Nat} {p p' w w' x x' : Bytes} (h : Wire t p w) (h' : Wire t' p' w')
    (e : w ++ x = w' ++ x') : t = t' ∧ p = p' ∧ x = x' := by
  obtain ⟨a, l, rfl, h1, h2⟩ := h
  obtain ⟨a', l', rfl, h1', h2'⟩ := h'
  simp only [List.append_assoc] at e
  obtain ⟨q1, q2, q3⟩ := isVarint_prefix h1 h1' e
  obtain ⟨q4, q5, q6⟩ := isVarint_prefix h2 h2' q3
  have := List.append_inj q6 q4
  exact ⟨q1, this.1, this.2⟩

theorem Frames.nil_bytes {bs : Bytes} (h : Frames [] bs) : bs = [] := by
  generalize hl : ([] : List (Nat × Bytes)) = l at h
  cases h with
  | nil => rfl
  | snoc => simp at hl

/-- Sequences of frames from the left. -/
theorem Frames.uncons {f : Nat × Bytes} {fs : List (Nat × Bytes)} {bs : Bytes} (h : Frames (f :: fs) bs) :
    ∃ w r, bs = w ++ r ∧ Wire f.1 f.2 w ∧ Frames fs r := by
  generalize hl : f :: fs = l at h
  induction h generalizing fs with
  | nil => cases hl
  | @snoc gs bs ty p w hg hw ih =>
    cases gs with
    | nil =>
      have := hg.nil_bytes
      subst this
      rw [List.nil_append] at hl
      cases hl
      exact ⟨w, [], by simp, hw, .nil⟩
    | cons g gs =>
      rw [List.cons_append] at hl
      injection hl with h1 h2
      subst h1
      obtain ⟨w', r, q1, q2, q3⟩ := ih rfl
      refine ⟨w', r ++ w, by rw [q1, List.append_assoc], q2, ?_⟩
      rw [h2]
      exact .snoc q3 hw

/-- The beginning of a frame is not a whole frame. -/
theorem begun_wire {ty : Option Nat} {p b w x : Bytes} {t : Nat} {q : Bytes} (h : Begun ty p b) (hw : Wire t q w)
    (e : b = w ++ x) : False := by
  obtain ⟨a, l, rfl, h1, h2⟩ := hw
  simp only [List.append_assoc] at e
  cases h with
  | none hn => rcases hn t a (l ++ (q ++ x)) with h | h <;> contradiction
  | ty ha hn =>
    obtain ⟨_, _, q3⟩ := isVarint_prefix ha h1 e
    rcases hn q.length l (q ++ x) with h | h <;> contradiction
  | payload ha hl hlt =>
    simp only [List.append_assoc] at e
    obtain ⟨_, _, q3⟩ := isVarint_prefix ha h1 e
    obtain ⟨q4, _, q6⟩ := isVarint_prefix hl h2 q3
    rw [q6, List.length_append] at hlt
    omega

theorem begun_unique {ty ty' : Option Nat} {p p' b b' : Bytes} (h : Begun ty p b) (h' : Begun ty' p' b')
    (e : b = b') : ty = ty' ∧ p = p' := by
  subst e
  cases h with
  | none hn =>
    generalize hb : b = c at h'
    cases h' with
    | none => exact ⟨rfl, rfl⟩
    | @ty t a b ha _ => subst hb; rcases hn t a b with h | h <;> contradiction
    | @payload t n a l _ ha _ _ =>
      subst hb
      rcases hn t a (l ++ p') with h | h
      · simp at h
      · contradiction
  | @ty t a b ha hn =>
    generalize hb : a ++ b = c at h'
    cases h' with
    | none hn' => subst hb; rcases hn' t a b with h | h <;> contradiction
    | @ty t' a' b' ha' _ =>
      obtain ⟨q1, _, _⟩ := isVarint_prefix ha ha' hb
      exact ⟨by rw [q1], rfl⟩
    | @payload t' n a' l _ ha' hl _ =>
      rw [List.append_assoc] at hb
      obtain ⟨_, _, q3⟩ := isVarint_prefix ha ha' hb
      rcases hn n l p' with h | h <;> contradiction
  | @payload t n a l p ha hl hlt =>
    generalize hb : a ++ l ++ p = c at h'
    cases h' with
    | none hn' =>
      subst hb
      rcases hn' t a (l ++ p) with h | h
      · simp at h
      · contradiction
    | @ty t' a' b' ha' hn' =>
      rw [List.append_assoc] at hb
      obtain ⟨_, _, q3⟩ := isVarint_prefix ha ha' hb
      rcases hn' n l p with h | h
      · exact absurd q3.symm h
      · contradiction
    | @payload t' n' a' l' p' ha' hl' _ =>
      simp only [List.append_assoc] at hb
      obtain ⟨q1, _, q3⟩ := isVarint_prefix ha ha' hb
      obtain ⟨_, _, q6⟩ := isVarint_prefix hl hl' q3
      exact ⟨by rw [q1], q6⟩

theorem frames_unique : ∀ {fs fs' : List (Nat × Bytes)} {ty ty' : Option Nat} {p p' body body' rest rest' : Bytes},
    Frames fs body → Frames fs' body' → Begun ty p rest → Begun ty' p' rest' →
    body ++ rest = body' ++ rest' → fs = fs' ∧ ty = ty' ∧ p = p' := by
  intro fs
  induction fs with
  | nil =>
    intro fs' ty ty' p p' body body' rest rest' h h' b b' e
    have := h.nil_bytes; subst this
    cases fs' with
    | nil =>
      have := h'.nil_bytes; subst this
      exact ⟨rfl, begun_unique b b' e⟩
    | cons f' fs' =>
      obtain ⟨w, r, rfl, q2, _⟩ := h'.uncons
      rw [List.append_assoc] at e
      exact (begun_wire b q2 e).elim
  | cons f fs ih =>
    intro fs' ty ty' p p' body body' rest rest' h h' b b' e
    obtain ⟨w, r, rfl, q2, q3⟩ := h.uncons
    cases fs' with
    | nil =>
      have := h'.nil_bytes; subst this
      rw [List.append_assoc] at e
      exact (begun_wire b' q2 e.symm).elim
    | cons f' fs' =>
      obtain ⟨w', r', rfl, q2', q3'⟩ := h'.uncons
      simp only [List.append_assoc] at e
      obtain ⟨a1, a2, a3⟩ := wire_unique q2 q2' e
      obtain ⟨b1, b2⟩ := ih q3 q3' b b' a3
      have : f = f' := Prod.ext a1 a2
      exact ⟨by rw [this, b1], b2⟩

/-- What a stream says is determined by its bytes. -/
theorem Says.unique {limit : Nat} {hdr bs : Bytes} {tys tys' : List Nat} {out out' : List Out}
    (h : Says limit hdr bs tys out) (h' : Says limit hdr bs tys' out') : tys = tys' ∧ out = out' := by
  obtain ⟨fs, body, ty, p, rest, h1, h2, h3, rfl, rfl⟩ := h
  obtain ⟨fs', body', ty', p', rest', h1', h2', h3', rfl, rfl⟩ := h'
  have e : body ++ rest = body' ++ rest' := by
    rw [h1] at h1'
    simp only [List.append_assoc] at h1'
    exact List.append_cancel_left h1'
  obtain ⟨rfl, rfl, rfl⟩ := frames_unique h2 h2' h3 h3' e
  exact ⟨rfl, rfl⟩

end Verif.H3
