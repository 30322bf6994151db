import Verif.Props.C101
import Verif.Props.C109

/-! # C114 — The receiver gets what the sender has sent -/

namespace Verif.Props.C114
open Verif Verif.H3 Verif.H3.Send

/-- Every header list that was sent is within the limit, each field counted as name, value and 32
bytes. -/
def Fits (limit : Nat) (log : List Out) : Prop :=
  ∀ hs, Out.headers hs ∈ log → (hs.map fun h => h.1.length + h.2.length + 32).sum ≤ limit

theorem framesOut_append (limit : Nat) (fs gs : List (Nat × Bytes)) :
    framesOut limit (fs ++ gs) = framesOut limit fs ++ framesOut limit gs := by
  simp [framesOut]

/-- What frames carry is what they give. -/
theorem carried {limit : Nat} {fs : List (Nat × Bytes)} {log : List Out} (h : Carries fs log) (hf : Fits limit log) :
    framesOut limit fs = log := by
  induction h with
  | nil => rfl
  | @headers fs out block hs _ hb ih =>
    rw [framesOut_append, ih fun x hx => hf x (by simp [hx])]
    have : Qpack.size hs ≤ limit := hf hs (by simp)
    have hd := Qpack.decode_complete hb limit
    rw [if_pos this] at hd
    simp [framesOut, frameOut, hd]
  | @data fs out p _ ih =>
    rw [framesOut_append, ih fun x hx => hf x (by simp [hx])]
    simp [framesOut, frameOut]
  | @other fs out ty p _ hk ih =>
    rw [framesOut_append, ih hf]
    have h1 : ty ≠ 1 := fun h => hk (by rw [h]; decide)
    have h0 : ty ≠ 0 := fun h => hk (by rw [h]; decide)
    simp [framesOut, frameOut, h0, h1]

/-- The beginning of a frame of a sequence of frames gives the beginning of what these give. -/
theorem begun_prefix {limit : Nat} {fs : List (Nat × Bytes)} {full rest more : Bytes} {ty : Option Nat} {p : Bytes}
    (h : Frames fs full) (hb : Begun ty p rest) (e : rest ++ more = full) : begunOut ty p <+: framesOut limit fs := by
  unfold begunOut
  split
  · rename_i h0
    subst h0
    generalize ht : some 0 = o at hb
    cases hb with
    | none => cases ht
    | ty => exact List.nil_prefix
    | @payload t n a l p ha hl hlt =>
      cases ht
      cases fs with
      | nil =>
        rw [h.nil_bytes] at e
        have hpos := isVarint_pos ha
        have := congrArg List.length e
        simp only [List.length_append, List.length_nil] at this
        omega
      | cons f fs =>
        obtain ⟨w, r, rfl, ⟨a', l', rfl, h1, h2⟩, _⟩ := h.uncons
        simp only [List.append_assoc] at e
        obtain ⟨q1, _, q3⟩ := isVarint_prefix ha h1 e
        obtain ⟨q4, _, q6⟩ := isVarint_prefix hl h2 q3
        have hp : p <+: f.2 := by
          rw [List.prefix_iff_eq_take]
          have := congrArg (List.take p.length) q6
          rw [List.take_left, List.take_append_of_le_length (by omega)] at this
          exact this
        have : framesOut limit (f :: fs) = f.2.map .byte ++ framesOut limit fs := by
          simp [framesOut, frameOut, ← q1]
        rw [this]
        exact (hp.map _).trans (List.prefix_append _ _)
  · exact List.nil_prefix

theorem frames_prefix {limit : Nat} {rest more : Bytes} {ty : Option Nat} {p : Bytes} (hb : Begun ty p rest) :
    ∀ {fs fs' : List (Nat × Bytes)} {body full : Bytes}, Frames fs body → Frames fs' full → body ++ rest ++ more = full →
    framesOut limit fs ++ begunOut ty p <+: framesOut limit fs' := by
  intro fs
  induction fs with
  | nil =>
    intro fs' body full h h' e
    have := h.nil_bytes; subst this
    exact begun_prefix h' hb e
  | cons f fs ih =>
    intro fs' body full h h' e
    obtain ⟨w, r, rfl, q2, q3⟩ := h.uncons
    cases fs' with
    | nil =>
      have := h'.nil_bytes; subst this
      obtain ⟨a, l, rfl, h1, _⟩ := q2
      have hpos := isVarint_pos h1
      have := congrArg List.length e
      simp only [List.length_append, List.length_nil] at this
      omega
    | cons f' fs' =>
      obtain ⟨w', r', rfl, q2', q3'⟩ := h'.uncons
      simp only [List.append_assoc] at e
      obtain ⟨a1, a2, a3⟩ := wire_unique q2 q2' e
      have : f = f' := Prod.ext a1 a2
      subst this
      have := ih q3 q3' (by rw [List.append_assoc]; exact a3)
      have ha : ∀ gs, framesOut limit (f :: gs) = frameOut limit f ++ framesOut limit gs := fun gs => by simp [framesOut]
      rw [ha, ha, List.append_assoc]
      exact (List.prefix_append_right_inj _).mpr this

theorem says_prefix {limit : Nat} {bs full : Bytes} {tys : List Nat} {out log : List Out} {fs : List (Nat × Bytes)}
    (h : Says limit [] bs tys out) (hf : Frames fs full) (hc : Carries fs log) (hs : Fits limit log) (hp : bs <+: full) :
    out <+: log := by
  obtain ⟨fs', body, ty, p, rest, rfl, h2, h3, _, rfl⟩ := h
  obtain ⟨more, e⟩ := hp
  rw [← carried hc hs]
  exact frames_prefix h3 h2 hf e

theorem says_all {limit : Nat} {full : Bytes} {tys : List Nat} {out log : List Out} {fs : List (Nat × Bytes)}
    (h : Says limit [] full tys out) (hf : Frames fs full) (hc : Carries fs log) (hs : Fits limit log) : out = log := by
  have hn : Begun none [] [] := .none fun v x y => by
    by_cases hx : x = []
    · right; rw [hx]; intro hv
      have := isVarint_pos hv
      simp at this
    · left; intro he
      exact hx (List.append_eq_nil_iff.mp he.symm).1
  have : Says limit [] full (fs.map (·.1)) (framesOut limit fs) :=
    ⟨fs, full, none, [], [], by simp, hf, hn, by simp [begunTy], by simp [begunOut]⟩
  rw [(h.unique this).2, carried hc hs]

/-- In every execution of a sender `x` and of a receiver `w`: if what has arrived at the receiver
on a stream is a beginning of what the sender has given to the transport, and the header lists
sent are within the receiver's limit, then what the receiving application has got is a beginning
of what the sending application has sent. -/
theorem transfer {x : X} {w : W} (hx : x.Initial) (hw : w.Initial) (lx : List Send.Act) (lw : List H3.Act) {id : Nat}
    (hb : id % 4 < 2) {t : Tx} (ht : (x.run lx).s.tx id = some t) (hu : (w.run lw).used id = true)
    (hp : ((w.run lw).c.rx id).all <+: t.out) (hf : Fits w.c.limit ((x.run lx).log id)) :
    (w.run lw).log id <+: (x.run lx).log id := by
  obtain ⟨fs, h1, h2, _⟩ := C109.whole hx lx hb ht
  obtain ⟨k, tys, _, h3⟩ := C100.framed_partial hw lw hu hb
  exact says_prefix h3 h1 h2 hf ((List.take_prefix _ _).trans hp)

/-- When `poll` says that the stream is finished, and all that was sent has arrived, the receiving
application has got all that was sent, and nothing else. -/
theorem complete {x : X} {w : W} (hx : x.Initial) (hw : w.Initial) (lx : List Send.Act) (lw : List H3.Act) {id : Nat}
    (hb : id % 4 < 2) {t : Tx} (ht : (x.run lx).s.tx id = some t) {spare : Nat → Nat → Nat} {rs : List Nat} {c : C}
    (hfin : (w.run lw).c.poll spare (rs.filter (w.run lw).used) = (.ok (id, .finished), c))
    (he : (c.rx id).err = none) (hp : (c.rx id).all = t.out) (hf : Fits w.c.limit ((x.run lx).log id)) :
    (w.run lw).log id = (x.run lx).log id := by
  obtain ⟨fs, h1, h2, _⟩ := C109.whole hx lx hb ht
  obtain ⟨tys, h3⟩ := (C101.finished hw lw hfin).2 hb he
  rw [hp] at h3
  exact says_all h3 h1 h2 hf

/-! Test: the request of C109 is read by a server. -/

def received : W := C54.server.run [.opened 0, .arrive 0 [0x01, 0x03, 0x00, 0x00, 0xd1, 0x00, 0x02, 1] false, .poll C54.sp [0],
  .poll C54.sp [0], .body C54.sp 0 10, .arrive 0 [2, 0x00, 0x01, 3] true, .poll C54.sp [0], .body C54.sp 0 10]

example : received.log 0 = (C109.client.run C109.two).log 0 ∧ (received.c.poll C54.sp []).1 = .ok (0, .finished) := by decide +kernel

end Verif.Props.C114
