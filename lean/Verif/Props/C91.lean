import Verif.Props.C90

/-!
C91: a connection says goodbye at most once.

In every run the frames sent contain at most one CONNECTION_CLOSE; it carries
`local_error()`, nothing is sent after the packet it is in, and from the moment the local
error is set every packet consists of ACK, PATH_RESPONSE, PATH_CHALLENGE and
CONNECTION_CLOSE frames only (and PADDING).
-/

namespace Verif.Props.C91
open Verif Verif.Life Verif.Frame
open Verif.Props.C90 (Later step_later sendSingle_later silent final over_iff)
open Verif.Props.C49 (env0 slot0 fired0)

/-- The frames of what was sent. -/
def frames : List SRes → List SFrame
  | [] => []
  | .sent _ fr :: l => fr ++ frames l
  | _ :: l => frames l

theorem frames_append (a b : List SRes) : frames (a ++ b) = frames a ++ frames b := by
  induction a with
  | nil => rfl
  | cons x a ih => cases x <;> simp [frames, ih]

/-- A CONNECTION_CLOSE frame. -/
def isClose : SFrame → Bool
  | .close _ => true
  | _ => false

/-- How the frames sent relate to the states before and after: without a close frame
nothing is settled by sending; with one, it is the last frame, it is the only one, it has the
local error and the connection is draining. While closing nothing else is sent. -/
structure Says (s t : State) (fr : List SFrame) : Prop where
  none : (∀ x ∈ fr, isClose x = false) ∨
    (∃ init e, fr = init ++ [.close e] ∧ (∀ x ∈ init, isClose x = false) ∧
      t.localErr = some e ∧ t.drain.isSome = true)
  closing : s.localErr ≠ Option.none → SFrame.other ∉ fr

theorem closingFrames_says (ack : Bool) (n : Nat) (chal c : Bool) (e : CErr) :
    SFrame.other ∉ closingFrames ack n chal c e ∧
    ((c = false ∧ ∀ x ∈ closingFrames ack n chal c e, isClose x = false) ∨
     (c = true ∧ ∃ init, closingFrames ack n chal c e = init ++ [.close e] ∧
       ∀ x ∈ init, isClose x = false)) := by
  have hi : ∀ x ∈ (if ack = true then [SFrame.ack] else []) ++
      List.replicate n .pathResponse ++ (if chal = true then [SFrame.pathChallenge] else []),
      isClose x = false ∧ x ≠ .other := by
    intro x hx
    simp only [List.mem_append, List.mem_replicate] at hx
    rcases hx with (hx | ⟨_, hx⟩) | hx
    · split at hx
      · simp at hx; subst hx; exact ⟨rfl, by simp⟩
      · simp at hx
    · subst hx; exact ⟨rfl, by simp⟩
    · split at hx
      · simp at hx; subst hx; exact ⟨rfl, by simp⟩
      · simp at hx
  unfold closingFrames
  cases c with
  | false =>
    simp only [Bool.false_eq_true, if_false, List.append_nil]
    exact ⟨fun h => (hi _ h).2 rfl, Or.inl ⟨trivial, fun x hx => (hi x hx).1⟩⟩
  | true =>
    simp only [if_true]
    refine ⟨fun h => ?_, Or.inr ⟨trivial, _, rfl, fun x hx => (hi x hx).1⟩⟩
    rcases List.mem_append.1 h with h | h
    · exact (hi _ h).2 rfl
    · simp at h

theorem sendSingle_says (s : State) (now : Nat) (x : Slot) (f : Free) :
    Says s (sendSingle s now x f).1 (frames [(sendSingle s now x f).2]) := by
  have hnil : ∀ t, Says s t [] := fun t => ⟨Or.inl (by simp), fun _ => by simp⟩
  unfold sendSingle
  split
  · exact hnil _
  · split
    · rename_i e hl
      split
      · exact hnil _
      · exact hnil _
      · rename_i ty _
        rcases closingPacket_spec s e now x ty with ⟨v, h1, h2⟩ |
          ⟨v, ack, n, chal, c, el, h1, h2, _⟩
        · rcases h2 with h2 | h2 <;> rw [h2] <;> exact hnil _
        · rw [h1, h2]
          simp only [frames, List.append_nil]
          obtain ⟨ho, hc⟩ := closingFrames_says ack n chal c e
          refine ⟨?_, fun _ => ho⟩
          rcases hc with ⟨_, hc⟩ | ⟨hc, init, hf, hi⟩
          · exact Or.inl hc
          · right
            refine ⟨init, e, hf, hi, ?_, ?_⟩
            · have := congrArg Core.localErr (finishSend_core
                { s with env := v, drain := drainAfter s now x c } now ty el)
              exact this.trans hl
            · have := congrArg Core.drain (finishSend_core
                { s with env := v, drain := drainAfter s now x c } now ty el)
              have h3 : ({ s with env := v, drain := drainAfter s now x c } : State).drain =
                some (now + 3 * x.pto) := by
                show drainAfter s now x c = _
                rw [hc]; rfl
              have h4 := this.trans h3
              exact Option.isSome_iff_exists.2 ⟨_, h4⟩
    · rename_i hl
      split
      · exact hnil _
      · exact hnil _
      · refine ⟨Or.inl (by simp [frames, isClose]), fun h => absurd hl h⟩

theorem sendSingle_drain (s : State) (now : Nat) (x : Slot) (f : Free)
    (h : s.drain.isSome = true) : sendSingle s now x f = (s, .done) := by
  unfold sendSingle; rw [if_pos h]

theorem frames_sendLoop_drain (now : Nat) (l : List (Slot × Free)) (s : State)
    (h : s.drain.isSome = true) : frames (sendLoop s now l).2 = [] := by
  cases l with
  | nil => rfl
  | cons y l =>
    obtain ⟨x, f⟩ := y
    simp only [sendLoop]
    rw [sendSingle_drain s now x f h]
    rfl

theorem Says.trans {s t u : State} {a b : List SFrame} (h : Says s t a) (h' : Says t u b)
    (hl : Later s t) (hb : t.drain.isSome = true → b = [] ∧ u = t) : Says s u (a ++ b) where
  none := by
    rcases h.none with h1 | ⟨init, e, h1, h2, h3, h4⟩
    · rcases h'.none with h1' | ⟨init, e, h1', h2', h3', h4'⟩
      · left
        intro x hx
        rcases List.mem_append.1 hx with hx | hx
        · exact h1 x hx
        · exact h1' x hx
      · right
        refine ⟨a ++ init, e, by rw [h1', List.append_assoc], ?_, h3', h4'⟩
        intro x hx
        rcases List.mem_append.1 hx with hx | hx
        · exact h1 x hx
        · exact h2' x hx
    · obtain ⟨hb, hu⟩ := hb h4
      right
      rw [hb, hu, List.append_nil]
      exact ⟨init, e, h1, h2, h3, h4⟩
  closing := by
    intro hs hm
    rcases List.mem_append.1 hm with hm | hm
    · exact h.closing hs hm
    · refine h'.closing ?_ hm
      cases he : s.localErr with
      | none => exact absurd he hs
      | some e => rw [hl.localErr e he]; simp

theorem sendLoop_says (now : Nat) : ∀ (l : List (Slot × Free)) (s : State),
    Says s (sendLoop s now l).1 (frames (sendLoop s now l).2) := by
  intro l
  induction l with
  | nil =>
    intro s
    exact ⟨Or.inl (by simp [sendLoop, frames]), fun _ => by simp [sendLoop, frames]⟩
  | cons y l ih =>
    obtain ⟨x, f⟩ := y
    intro s
    have hk := sendSingle_says s now x f
    have hla := sendSingle_later s now x f
    simp only [sendLoop]
    obtain ⟨s', r, hr⟩ : ∃ s' r, sendSingle s now x f = (s', r) := ⟨_, _, rfl⟩
    rw [hr] at hk hla ⊢
    cases r with
    | sent ty fr =>
      dsimp only at hk hla ⊢
      split
      · exact hk
      · have e : frames (SRes.sent ty fr :: (sendLoop s' now l).2) =
            frames [SRes.sent ty fr] ++ frames (sendLoop s' now l).2 := by
          simp [frames]
        dsimp only
        rw [e]
        refine hk.trans (ih s') hla fun hd => ⟨frames_sendLoop_drain now l s' hd, ?_⟩
        cases l with
        | nil => rfl
        | cons y l =>
          obtain ⟨x', f'⟩ := y
          simp only [sendLoop]
          rw [sendSingle_drain s' now x' f' hd]
    | done => exact hk
    | err => exact hk
    | panic => exact hk

theorem step_says (s : State) (e : Ev) : Says s (step s e) (frames (out s e)) := by
  have hnil : ∀ t, Says s t [] := fun t => ⟨Or.inl (by simp), fun _ => by simp⟩
  cases e with
  | send now hs l =>
    simp only [step, out, send]
    split
    · exact hnil _
    · split
      · exact sendLoop_says now l s
      · rename_i hl
        have hl : s.localErr = none := by simpa using hl
        split
        · rename_i env
          have := sendLoop_says now l { s with env := env }
          exact ⟨this.none, fun h => absurd hl h⟩
        · exact hnil _
  | recv now l => exact hnil _
  | timeout now t => exact hnil _
  | close a c r => exact hnil _
  | api p n ts => exact hnil _

theorem run_says : ∀ (evs : List Ev) (s : State), Says s (run s evs) (frames (sent s evs)) := by
  intro evs
  induction evs with
  | nil => intro s; exact ⟨Or.inl (by simp [sent, frames]), fun _ => by simp [sent, frames]⟩
  | cons e evs ih =>
    intro s
    simp only [sent, run]
    rw [frames_append]
    have h1 := step_says s e
    have h2 := ih (step s e)
    have hl := step_later s e
    refine ⟨?_, ?_⟩
    · rcases h1.none with g | ⟨init, er, g1, g2, g3, g4⟩
      · rcases h2.none with g' | ⟨init, er, g1, g2, g3, g4⟩
        · left; intro x hx
          rcases List.mem_append.1 hx with hx | hx
          · exact g x hx
          · exact g' x hx
        · right
          refine ⟨frames (out s e) ++ init, er, by rw [g1, List.append_assoc], ?_, g3, g4⟩
          intro x hx
          rcases List.mem_append.1 hx with hx | hx
          · exact g x hx
          · exact g2 x hx
      · right
        have ho : (step s e).over = true := by
          unfold State.over; rw [g4]; simp
        rw [silent ho]
        have hf := final (step s e) evs
        refine ⟨init, er, by simp [frames, g1], g2, hf.localErr er g3, ?_⟩
        obtain ⟨d, hd⟩ := Option.isSome_iff_exists.1 g4
        rw [hf.drain d hd]; rfl
    · intro hs hm
      rcases List.mem_append.1 hm with hm | hm
      · exact h1.closing hs hm
      · refine h2.closing ?_ hm
        cases he : s.localErr with
        | none => exact absurd he hs
        | some er => rw [hl.localErr er he]; simp

/-- **At most one CONNECTION_CLOSE is sent; it is the last frame sent, carries the local
error, and the connection is draining afterwards.** -/
theorem once (s : State) (evs : List Ev) :
    (∀ x ∈ frames (sent s evs), isClose x = false) ∨
    ∃ init e, frames (sent s evs) = init ++ [.close e] ∧ (∀ x ∈ init, isClose x = false) ∧
      (run s evs).localErr = some e ∧ (run s evs).drain.isSome = true :=
  (run_says evs s).none

/-- **Once the local error is set no other frames are sent.** -/
theorem nothing_else {s : State} (h : s.localErr ≠ none) (evs : List Ev) :
    SFrame.other ∉ frames (sent s evs) := (run_says evs s).closing h

/-- **While closing, packets are only sent in epochs with send keys.** -/
theorem keyed {s : State} (h : s.localErr ≠ none) (now : Nat) (x : Slot) (f : Free)
    {ty : PktType} {fr : List SFrame} (hs : (sendSingle s now x f).2 = .sent ty fr) :
    (s.env.ep ty).sealKey = true := by
  unfold sendSingle at hs
  split at hs
  · simp at hs
  · split at hs
    · split at hs
      · simp at hs
      · simp at hs
      · rename_i t _
        unfold closingPacket at hs
        dsimp only at hs
        split at hs
        · simp at hs
        · rename_i hk
          have hk' : (s.env.ep t).sealKey = true := by
            have h1 : ((s.env.ep t).requeue x).sealKey = (s.env.ep t).sealKey := by
              unfold Ep.requeue; split <;> rfl
            rw [← h1]; simpa using hk
          split at hs
          · simp at hs
          · split at hs
            · simp at hs
            · split at hs
              · simp at hs
              · simp only [SRes.sent.injEq] at hs
                rw [← hs.1]; exact hk'
    · rename_i hx; exact absurd hx h

/-- `close()` after a packet was processed: the next packet has the error, later calls send
nothing. -/
example :
    let evs : List Ev := [.recv 0 [(.accepted env0 none [], false)], .close true 7 [1, 2],
      .close true 8 [], .send 5 (.ok env0) [(slot0, .nothing env0)],
      .send 6 (.ok env0) [(slot0, .nothing env0)]]
    frames (sent (State.new true 60 env0) evs) = [.close ⟨true, 7, [1, 2]⟩] ∧
      (run (State.new true 60 env0) evs).drain = some (5 + 3 * ms) := by
  decide +kernel

end Verif.Props.C91
