import Verif.Small.Qlog

/-!
C169: what the qlog reader returns from a file is what the streamer accepted: the header and
the events whose call succeeded, in order, and no others, whatever calls were made. The claim
is stated for any writing and reading of JSON that fit each other (`Fits`). It holds if the
writer never fails, and if it fails for good at any byte; if the writer fails and works again
it holds except for two ways of failing, for which it is false: an empty record ends the
reading, and a record that lacks only its line feed is read though its call failed.
-/

namespace Verif.Props.C169
open Verif Verif.Qlog

variable {H E : Type}

/-- What is asked of JSON: no separator byte, nothing empty; a line feed behind does not matter;
reading an event that was written gives `back` of it, which is nothing for those that cannot be
read; a part of a written event is not readable. -/
structure Fits (j : Json H E) (back : E → Option E) : Prop where
  noSep : ∀ p e, sep ∉ j.ser p e
  some : ∀ p e, j.ser p e ≠ []
  whole : ∀ p e, j.de (j.ser p e) = back e
  line : ∀ p e, j.de (j.ser p e ++ [lf]) = back e
  part : ∀ p e k, k < (j.ser p e).length → j.de ((j.ser p e).take k) = none
  hNoSep : ∀ h, sep ∉ j.serHeader h
  hSome : ∀ h, j.serHeader h ≠ []
  hWhole : ∀ h, j.deHeader (j.serHeader h) = Option.some h
  hLine : ∀ h, j.deHeader (j.serHeader h ++ [lf]) = Option.some h

/-- The writer takes at least `n` bytes. -/
def Enough (room : Option Nat) (n : Nat) : Prop := ∀ r, room = some r → n ≤ r

instance (room : Option Nat) (n : Nat) : Decidable (Enough room n) :=
  match room with
  | none => isTrue (fun _ h => (by cases h))
  | some r => if h : n ≤ r then isTrue (fun _ e => by cases e; exact h) else isFalse (fun g => h (g r rfl))

/-- How many bytes the record of an event takes: a separator before and a line feed behind. -/
def size (body : Bytes) : Nat := body.length + 2

/-- The calls after which a log takes events: it was started, not before, and not finished
since. -/
def Open (j : Json H E) (h : H) (cs : List (Call E)) : Prop :=
  ∃ a room b, cs = a ++ .start room :: b ∧ Enough room (size (j.serHeader h)) ∧
    (∀ r, .start r ∈ a → ¬ Enough r (size (j.serHeader h))) ∧ ∀ f, .finish f ∉ b

/-- A level of detail as a number. -/
def rank : Importance → Nat
  | .core => 0
  | .base => 1
  | .extra => 2

/-- The event `e` added after the calls `cs` is to be accepted. -/
def Takes (j : Json H E) (h : H) (lvl : Importance) (cs : List (Call E)) (e : E) (p : Bool) (room : Option Nat) : Prop :=
  Open j h cs ∧ rank (j.importance e) ≤ rank lvl ∧ Enough room (size (j.ser p e))

/-- The event a call added, if it returned success. -/
def took : Call E → Res → List E
  | .event e _ _, .ok => [e]
  | _, _ => []

/-- The events whose calls returned success, in order. -/
def accepted (j : Json H E) (l : Log H) : List (Call E) → List E
  | [] => []
  | c :: cs =>
    took c (l.step j c).2 ++ accepted j (l.step j c).1 cs

/-! ### Writing -/

theorem put_eq (room : Option Nat) (file b : Bytes) :
    (Enough room b.length ∧ put room file b = (room.map (· - b.length), file ++ b, true)) ∨
    ∃ r, room = some r ∧ r < b.length ∧ put room file b = (some 0, file ++ b.take r, false) := by
  unfold put
  cases room with
  | none => exact Or.inl ⟨fun _ h => (by cases h), rfl⟩
  | some r =>
    by_cases h : b.length ≤ r
    · exact Or.inl ⟨fun _ e => by cases e; exact h, by simp [h]⟩
    · exact Or.inr ⟨r, rfl, by omega, by simp [h]⟩

/-- A record as a whole. -/
def record (body : Bytes) : Bytes := sep :: (body ++ [lf])

theorem record_length (body : Bytes) : (record body).length = size body := by simp [record, size]

/-- The three writes leave the first bytes of the record, all of them exactly if they succeed. -/
theorem writeRecord_eq (room : Option Nat) (file body : Bytes) :
    (Enough room (size body) ∧ writeRecord room file body = (file ++ record body, .ok)) ∨
    ∃ r res, room = some r ∧ r < size body ∧ res ≠ .ok ∧
      writeRecord room file body = (file ++ (record body).take r, res) := by
  unfold writeRecord
  rcases put_eq room file [sep] with ⟨e1, p1⟩ | ⟨r, hr, hl, p1⟩
  · rw [p1]
    simp only
    rcases put_eq (room.map (· - [sep].length)) (file ++ [sep]) body with ⟨e2, p2⟩ | ⟨r, hr, hl, p2⟩
    · rw [p2]
      simp only
      rcases put_eq ((room.map (· - [sep].length)).map (· - body.length)) (file ++ [sep] ++ body) [lf] with ⟨e3, p3⟩ | ⟨r, hr, hl, p3⟩
      · rw [p3]
        refine Or.inl ⟨?_, by simp [record]⟩
        intro r hr
        subst hr
        have h1 := e1 r rfl
        have h2 := e2 _ rfl
        have h3 := e3 _ rfl
        simp only [List.length_cons, List.length_nil] at h1 h2 h3
        simp only [size]
        omega
      · rw [p3]
        cases room with
        | none => cases hr
        | some q =>
          have h1 := e1 q rfl
          have h2 := e2 _ rfl
          simp only [Option.map_some, Option.some.injEq, List.length_cons, List.length_nil] at hr h1 h2 hl
          refine Or.inr ⟨q, .io, rfl, by simp only [size]; omega, by decide, ?_⟩
          have : r = 0 := by omega
          have hq : q = body.length + 1 := by omega
          subst this hq
          simp [record]
    · rw [p2]
      cases room with
      | none => cases hr
      | some q =>
        have h1 := e1 q rfl
        simp only [Option.map_some, Option.some.injEq, List.length_cons, List.length_nil] at hr h1
        refine Or.inr ⟨q, .done, rfl, by simp only [size]; omega, by decide, ?_⟩
        have hq : q = r + 1 := by omega
        subst hq
        simp [record, List.take_append_of_le_length (Nat.le_of_lt hl)]
  · rw [p1]
    simp only [List.length_cons, List.length_nil] at hl
    have : r = 0 := by omega
    subst this
    exact Or.inr ⟨0, .io, hr, by simp only [size]; omega, by decide, by simp⟩

theorem contained_iff (a b : Importance) : a.isContainedIn b = true ↔ rank a ≤ rank b := by
  cases a <;> cases b <;> decide

/-! ### Reading -/

theorem readUntil_sep (b rest : Bytes) (h : sep ∉ b) : readUntil (b ++ sep :: rest) = (b ++ [sep], rest) := by
  induction b with
  | nil => simp [readUntil]
  | cons x b ih =>
    simp only [List.mem_cons, not_or] at h
    simp only [List.cons_append, readUntil, ih h.2]
    rw [if_neg (fun g => h.1 g.symm)]

theorem readUntil_end (b : Bytes) (h : sep ∉ b) : readUntil b = (b, []) := by
  induction b with
  | nil => rfl
  | cons x b ih =>
    simp only [List.mem_cons, not_or] at h
    simp only [readUntil, ih h.2]
    rw [if_neg (fun g => h.1 g.symm)]

theorem readRecord_sep (b rest : Bytes) (h : sep ∉ b) (hb : b ≠ []) : readRecord (b ++ sep :: rest) = (some b, rest) := by
  have : b.length ≠ 0 := fun g => hb (List.length_eq_zero_iff.mp g)
  simp [readRecord, readUntil_sep b rest h, hb]

theorem readRecord_empty (rest : Bytes) : readRecord (sep :: rest) = (none, rest) := by
  simp [readRecord, readUntil]

theorem readRecord_end (b : Bytes) (h : sep ∉ b) (hb : 2 ≤ b.length) : readRecord b = (some b.dropLast, []) := by
  simp only [readRecord, readUntil_end b h]
  rw [if_neg (by omega), List.dropLast_eq_take]

theorem readRecord_short (b : Bytes) (h : sep ∉ b) (hb : b.length ≤ 1) : readRecord b = (none, []) := by
  simp only [readRecord, readUntil_end b h]
  rw [if_pos hb]

theorem readUntil_length (bs : Bytes) : (readUntil bs).1.length + (readUntil bs).2.length = bs.length := by
  induction bs with
  | nil => rfl
  | cons b bs ih =>
    simp only [readUntil]
    split
    · simp; omega
    · simp only [List.length_cons]; omega

theorem readRecord_less (bs b rest : Bytes) (h : readRecord bs = (some b, rest)) : rest.length < bs.length := by
  have hl := readUntil_length bs
  unfold readRecord at h
  simp only at h
  split at h
  · cases h
  · cases h; omega

/-- More fuel than bytes does not matter. -/
theorem fuel_enough (de : Bytes → Option E) (n : Nat) : ∀ bs : Bytes, bs.length < n →
    eventsFuel de n bs = eventsFuel de (bs.length + 1) bs := by
  induction n with
  | zero => intro bs h; omega
  | succ n ih =>
    intro bs h
    simp only [eventsFuel]
    rcases hr : readRecord bs with ⟨_ | b, rest⟩
    · rfl
    · have hl := readRecord_less bs b rest hr
      simp only
      rw [ih rest (by omega)]
      congr 1
      have aux : ∀ m k (bs : Bytes), bs.length < m → bs.length < k → eventsFuel de m bs = eventsFuel de k bs := by
        intro m
        induction m with
        | zero => intro k bs h; omega
        | succ m ihm =>
          intro k bs h1 h2
          cases k with
          | zero => omega
          | succ k =>
            simp only [eventsFuel]
            rcases hr : readRecord bs with ⟨_ | b, rest⟩
            · rfl
            · have hl := readRecord_less bs b rest hr
              simp only
              rw [ihm k rest (by omega) (by omega)]
      exact aux _ _ _ (by omega) (by omega)

theorem events_some (de : Bytes → Option E) (bs b rest : Bytes) (h : readRecord bs = (some b, rest)) :
    events de bs = (de b).toList ++ events de rest := by
  have hl := readRecord_less bs b rest h
  unfold events
  rw [show eventsFuel de (bs.length + 1) bs = (de b).toList ++ eventsFuel de bs.length rest by simp only [eventsFuel, h]]
  rw [fuel_enough de bs.length rest hl]

theorem events_none (de : Bytes → Option E) (bs rest : Bytes) (h : readRecord bs = (none, rest)) : events de bs = [] := by
  simp only [events, eventsFuel, h]

/-- What stands between separators: bytes that read as `r`, also without the last of them. -/
structure Chunk (de : Bytes → Option E) (b : Bytes) (r : Option E) : Prop where
  noSep : sep ∉ b
  some : b ≠ []
  whole : de b = r
  short : 2 ≤ b.length → de b.dropLast = r
  tiny : b.length ≤ 1 → r = none

/-- Records one after the other. -/
def seqOf : List (Bytes × Option E) → Bytes
  | [] => []
  | (b, _) :: cs => sep :: (b ++ seqOf cs)

/-- An end of a file that no event is read from. -/
def Tail (de : Bytes → Option E) (z : Bytes) : Prop :=
  z = [] ∨ ∃ b, z = sep :: b ∧ sep ∉ b ∧ (2 ≤ b.length → de b.dropLast = none)

theorem seqOf_append (a b : List (Bytes × Option E)) : seqOf (a ++ b) = seqOf a ++ seqOf b := by
  induction a with
  | nil => rfl
  | cons x a ih => simp [seqOf, ih]

theorem events_tail (de : Bytes → Option E) (b : Bytes) (h1 : sep ∉ b) (h2 : 2 ≤ b.length → de b.dropLast = none) :
    events de b = [] := by
  by_cases hl : 2 ≤ b.length
  · rw [events_some de b _ _ (readRecord_end b h1 hl), h2 hl]
    rfl
  · exact events_none de b _ (readRecord_short b h1 (by omega))

/-- The events read from records, behind the first separator. -/
theorem events_seq (de : Bytes → Option E) (b : Bytes) (r : Option E) (cs : List (Bytes × Option E)) (z : Bytes)
    (hb : Chunk de b r) (hc : ∀ x ∈ cs, Chunk de x.1 x.2) (hz : Tail de z) :
    events de (b ++ (seqOf cs ++ z)) = r.toList ++ cs.filterMap (·.2) := by
  induction cs generalizing b r with
  | nil =>
    simp only [seqOf, List.nil_append, List.filterMap_nil, List.append_nil]
    rcases hz with rfl | ⟨t, rfl, ht, hd⟩
    · rw [List.append_nil]
      by_cases hl : 2 ≤ b.length
      · rw [events_some de b _ _ (readRecord_end b hb.noSep hl), hb.short hl]
        simp [events, eventsFuel, readRecord, readUntil]
      · rw [events_none de b _ (readRecord_short b hb.noSep (by omega)), hb.tiny (by omega)]
        rfl
    · rw [events_some de _ _ _ (readRecord_sep b t hb.noSep hb.some), hb.whole, events_tail de t ht hd, List.append_nil]
  | cons x cs ih =>
    have hx := hc x (List.mem_cons_self ..)
    simp only [seqOf, List.cons_append, List.append_assoc]
    rw [events_some de _ _ _ (readRecord_sep b _ hb.noSep hb.some), hb.whole,
      ih x.1 x.2 hx (fun y hy => hc y (List.mem_cons_of_mem _ hy))]
    rcases x with ⟨xb, _ | xr⟩ <;> simp

/-- Reading a file of a header and records. -/
theorem read_seq (j : Json H E) (back : E → Option E) (hf : Fits j back) (h : H) (cs : List (Bytes × Option E)) (z : Bytes)
    (hc : ∀ x ∈ cs, Chunk j.de x.1 x.2) (hz : Tail j.de z) :
    readLog j (record (j.serHeader h) ++ (seqOf cs ++ z)) = some (h, cs.filterMap (·.2)) := by
  have hn : sep ∉ j.serHeader h ++ [lf] := by
    intro g
    rcases List.mem_append.mp g with g | g
    · exact hf.hNoSep h g
    · revert g; decide
  have hl : 2 ≤ (j.serHeader h ++ [lf]).length := by
    have := hf.hSome h
    have : (j.serHeader h).length ≠ 0 := fun g => this (List.length_eq_zero_iff.mp g)
    simp; omega
  unfold readLog
  simp only [record, List.cons_append, readRecord_empty]
  have hne : j.serHeader h ++ [lf] ≠ [] := by simp
  cases cs with
  | nil =>
    simp only [seqOf, List.nil_append, List.filterMap_nil]
    rcases hz with rfl | ⟨t, rfl, ht, hd⟩
    · rw [List.append_nil, readRecord_end _ hn hl]
      simp [hf.hWhole, events, eventsFuel, readRecord, readUntil]
    · rw [readRecord_sep _ t hn hne]
      simp [hf.hLine, events_tail j.de t ht hd]
  | cons x cs =>
    simp only [seqOf, List.cons_append, List.append_assoc]
    rw [show j.serHeader h ++ lf :: ([] ++ sep :: (x.1 ++ (seqOf cs ++ z))) = (j.serHeader h ++ [lf]) ++ sep :: (x.1 ++ (seqOf cs ++ z)) by simp,
      readRecord_sep _ _ hn hne]
    simp only [hf.hLine, Option.map_some]
    rw [events_seq j.de x.1 x.2 cs z (hc x (List.mem_cons_self ..)) (fun y hy => hc y (List.mem_cons_of_mem _ hy)) hz]
    rcases x with ⟨xb, _ | xr⟩ <;> simp

/-! ### Calls -/

theorem start_cases (j : Json H E) (l : Log H) (room : Option Nat) :
    (l.state ≠ .initial ∧ l.step j (.start room) = (l, .done)) ∨
    (l.state = .initial ∧ Enough room (size (j.serHeader l.header)) ∧
      l.step j (.start room) = ({ l with file := l.file ++ record (j.serHeader l.header), state := .ready }, .ok)) ∨
    (l.state = .initial ∧ ∃ r res, room = some r ∧ r < size (j.serHeader l.header) ∧ res ≠ .ok ∧
      l.step j (.start room) = ({ l with file := l.file ++ (record (j.serHeader l.header)).take r }, res)) := by
  simp only [Log.step, Log.start]
  by_cases hs : l.state = .initial
  · rw [if_neg (fun g => g hs)]
    rcases writeRecord_eq room l.file (j.serHeader l.header) with ⟨h1, h2⟩ | ⟨r, res, h1, h2, h3, h4⟩
    · exact Or.inr (Or.inl ⟨hs, h1, by rw [h2]⟩)
    · refine Or.inr (Or.inr ⟨hs, r, res, h1, h2, h3, ?_⟩)
      rw [h4]
      cases res
      · exact absurd rfl h3
      all_goals rfl
  · exact Or.inl ⟨hs, by rw [if_pos hs]⟩

theorem event_cases (j : Json H E) (l : Log H) (e : E) (p : Bool) (room : Option Nat) :
    (l.state ≠ .ready ∧ l.step j (.event e p room) = (l, .invalid)) ∨
    (l.state = .ready ∧ rank l.level < rank (j.importance e) ∧ l.step j (.event e p room) = (l, .done)) ∨
    (l.state = .ready ∧ rank (j.importance e) ≤ rank l.level ∧ Enough room (size (j.ser p e)) ∧
      l.step j (.event e p room) = ({ l with file := l.file ++ record (j.ser p e) }, .ok)) ∨
    (l.state = .ready ∧ rank (j.importance e) ≤ rank l.level ∧ ∃ r res, room = some r ∧ r < size (j.ser p e) ∧ res ≠ .ok ∧
      l.step j (.event e p room) = ({ l with file := l.file ++ (record (j.ser p e)).take r }, res)) := by
  simp only [Log.step, Log.event]
  by_cases hs : l.state = .ready
  · rw [if_neg (fun g => g hs)]
    have hi := contained_iff (j.importance e) l.level
    by_cases hc : (j.importance e).isContainedIn l.level = true
    · rw [if_neg (by simp [hc])]
      rcases writeRecord_eq room l.file (j.ser p e) with ⟨h1, h2⟩ | ⟨r, res, h1, h2, h3, h4⟩
      · exact Or.inr (Or.inr (Or.inl ⟨hs, hi.mp hc, h1, by rw [h2]⟩))
      · exact Or.inr (Or.inr (Or.inr ⟨hs, hi.mp hc, r, res, h1, h2, h3, by rw [h4]⟩))
    · rw [if_pos (by simpa using hc)]
      exact Or.inr (Or.inl ⟨hs, Nat.lt_of_not_le (fun g => hc (hi.mpr g)), rfl⟩)
  · exact Or.inl ⟨hs, by rw [if_pos hs]⟩

theorem finish_cases (j : Json H E) (l : Log H) (f : Bool) :
    (l.state ≠ .ready ∧ l.step j (.finish f) = (l, .invalid)) ∨
    (l.state = .ready ∧ l.step j (.finish f) = ({ l with state := .finished }, if f then .ok else .io)) := by
  simp only [Log.step, Log.finish]
  rcases l with ⟨h, lv, s, fl⟩
  cases s <;> simp

theorem run_snoc (j : Json H E) (l : Log H) (cs : List (Call E)) (c : Call E) :
    l.run j (cs ++ [c]) = ((l.run j cs).step j c).1 := by
  simp [Log.run]

theorem run_append (j : Json H E) (l : Log H) (a b : List (Call E)) : l.run j (a ++ b) = (l.run j a).run j b := by
  simp [Log.run]

/-- A new log. -/
def fresh (h : H) (lvl : Importance) : Log H := { header := h, level := lvl }

theorem step_const (j : Json H E) (l : Log H) (c : Call E) : (l.step j c).1.header = l.header ∧ (l.step j c).1.level = l.level := by
  cases c with
  | start room => rcases start_cases j l room with ⟨_, h⟩ | ⟨_, _, h⟩ | ⟨_, _, _, _, _, _, h⟩ <;> rw [h] <;> exact ⟨rfl, rfl⟩
  | event e p room =>
    rcases event_cases j l e p room with ⟨_, h⟩ | ⟨_, _, h⟩ | ⟨_, _, _, h⟩ | ⟨_, _, _, _, _, _, _, h⟩ <;> rw [h] <;> exact ⟨rfl, rfl⟩
  | finish f => rcases finish_cases j l f with ⟨_, h⟩ | ⟨_, h⟩ <;> rw [h] <;> exact ⟨rfl, rfl⟩

theorem run_const (j : Json H E) (l : Log H) (cs : List (Call E)) : (l.run j cs).header = l.header ∧ (l.run j cs).level = l.level := by
  induction cs generalizing l with
  | nil => exact ⟨rfl, rfl⟩
  | cons c cs ih =>
    have := ih (l.step j c).1
    have hs := step_const j l c
    exact ⟨this.1.trans hs.1, this.2.trans hs.2⟩

theorem snoc_induction {α : Type} {P : List α → Prop} (h0 : P []) (h1 : ∀ l a, P l → P (l ++ [a])) (l : List α) : P l := by
  have : ∀ r : List α, P r.reverse := by
    intro r
    induction r with
    | nil => exact h0
    | cons a r ih => rw [List.reverse_cons]; exact h1 _ _ ih
  simpa using this l.reverse

/-- Whether a log was ever started. -/
def Started (j : Json H E) (h : H) (cs : List (Call E)) : Prop := ∃ room, .start room ∈ cs ∧ Enough room (size (j.serHeader h))

theorem open_snoc_iff (j : Json H E) (h : H) (cs : List (Call E)) (c : Call E) :
    Open j h (cs ++ [c]) ↔
      (Open j h cs ∧ ∀ f, c ≠ .finish f) ∨ (¬ Started j h cs ∧ ∃ room, c = .start room ∧ Enough room (size (j.serHeader h))) := by
  constructor
  · rintro ⟨a, room, b, he, h1, h2, h3⟩
    rcases List.eq_nil_or_concat b with rfl | ⟨b, x, rfl⟩
    · have := List.append_inj' he rfl
      obtain ⟨rfl, hx⟩ := this
      cases hx
      exact Or.inr ⟨fun ⟨r, g1, g2⟩ => h2 r g1 g2, room, rfl, h1⟩
    · rw [List.concat_eq_append] at he h3
      have : cs ++ [c] = (a ++ .start room :: b) ++ [x] := by rw [he]; simp
      have := List.append_inj' this rfl
      obtain ⟨rfl, hx⟩ := this
      cases hx
      exact Or.inl ⟨⟨a, room, b, rfl, h1, h2, fun f g => h3 f (List.mem_append_left _ g)⟩,
        fun f g => h3 f (by simp [g])⟩
  · rintro (⟨⟨a, room, b, rfl, h1, h2, h3⟩, hc⟩ | ⟨hn, room, rfl, h1⟩)
    · refine ⟨a, room, b ++ [c], by simp, h1, h2, fun f g => ?_⟩
      rcases List.mem_append.mp g with g | g
      · exact h3 f g
      · simp only [List.mem_singleton] at g
        exact hc f g.symm
    · exact ⟨cs, room, [], rfl, h1, fun r g1 g2 => hn ⟨r, g1, g2⟩, fun f g => (by cases g)⟩

theorem started_snoc (j : Json H E) (h : H) (cs : List (Call E)) (c : Call E) :
    Started j h (cs ++ [c]) ↔ Started j h cs ∨ ∃ room, c = .start room ∧ Enough room (size (j.serHeader h)) := by
  unfold Started
  constructor
  · rintro ⟨r, g, e⟩
    rcases List.mem_append.mp g with g | g
    · exact Or.inl ⟨r, g, e⟩
    · exact Or.inr ⟨r, (by simpa [eq_comm] using g), e⟩
  · rintro (⟨r, g, e⟩ | ⟨r, rfl, e⟩)
    · exact ⟨r, List.mem_append_left _ g, e⟩
    · exact ⟨r, by simp, e⟩

theorem open_started (j : Json H E) (h : H) (cs : List (Call E)) (ho : Open j h cs) : Started j h cs := by
  obtain ⟨a, room, b, rfl, h1, _, _⟩ := ho
  exact ⟨room, by simp, h1⟩

/-- The state of a log is what its calls made of it. -/
theorem state_iff (j : Json H E) (h : H) (lvl : Importance) (cs : List (Call E)) :
    (((fresh h lvl).run j cs).state = .ready ↔ Open j h cs) ∧
    (((fresh h lvl).run j cs).state = .initial ↔ ¬ Started j h cs) := by
  induction cs using snoc_induction with
  | h0 =>
    refine ⟨⟨fun g => (by cases g), fun ⟨a, r, b, g, _⟩ => absurd g (by simp)⟩, ⟨fun _ => fun ⟨r, g, _⟩ => (by cases g), fun _ => rfl⟩⟩
  | h1 cs c ih =>
    obtain ⟨hi1, hi2⟩ := ih
    have hh : ((fresh h lvl).run j cs).header = h := (run_const j _ cs).1
    rw [run_snoc, open_snoc_iff, started_snoc]
    generalize (fresh h lvl).run j cs = l at *
    cases c with
    | start room =>
      rcases start_cases j l room with ⟨hs, g⟩ | ⟨hs, e, g⟩ | ⟨hs, r, res, rfl, hr, _, g⟩ <;> rw [g]
      · have hst : Started j h cs := Classical.byContradiction (fun n => hs (hi2.mpr n))
        refine ⟨⟨fun q => Or.inl ⟨hi1.mp q, fun f => by simp⟩, ?_⟩, ⟨fun q => absurd q hs, fun q => absurd (Or.inl hst) q⟩⟩
        rintro (⟨q, _⟩ | ⟨q, _⟩)
        · exact hi1.mpr q
        · exact absurd hst q
      · rw [hh] at e
        exact ⟨⟨fun _ => Or.inr ⟨hi2.mp hs, room, rfl, e⟩, fun _ => rfl⟩, ⟨fun q => (by cases q), fun q => absurd (Or.inr ⟨room, rfl, e⟩) q⟩⟩
      · have hn : ¬ Enough (some r) (size (j.serHeader h)) := by
          intro e
          have := e r rfl
          rw [hh] at hr
          omega
        refine ⟨⟨fun q => Or.inl ⟨hi1.mp q, fun f => by simp⟩, ?_⟩, ⟨fun q => ?_, fun _ => hs⟩⟩
        · rintro (⟨q, _⟩ | ⟨_, r', q, e⟩)
          · exact hi1.mpr q
          · cases q; exact absurd e hn
        · rintro (w | ⟨r', w, e⟩)
          · exact hi2.mp q w
          · cases w; exact hn e
    | event e p room =>
      have hs : (l.step j (.event e p room)).1.state = l.state := by
        rcases event_cases j l e p room with ⟨_, g⟩ | ⟨_, _, g⟩ | ⟨_, _, _, g⟩ | ⟨_, _, _, _, _, _, _, g⟩ <;> rw [g]
      rw [hs]
      simp only [reduceCtorEq, false_and, exists_false, or_false, and_false]
      exact ⟨⟨fun q => ⟨hi1.mp q, fun f => by simp⟩, fun q => hi1.mpr q.1⟩, hi2⟩
    | finish f =>
      simp only [reduceCtorEq, false_and, exists_false, or_false, and_false]
      rcases finish_cases j l f with ⟨hs, g⟩ | ⟨hs, g⟩ <;> rw [g]
      · exact ⟨⟨fun q => absurd q hs, fun q => absurd rfl (q.2 f)⟩, hi2⟩
      · refine ⟨⟨fun q => (by cases q), fun q => absurd rfl (q.2 f)⟩, ⟨fun q => (by cases q), fun q => ?_⟩⟩
        exact absurd (open_started j h cs (hi1.mp hs)) q

/-- C169: an event is accepted exactly if the log is open, the event is within the level of the
log and the writer takes its record. -/
theorem taken_iff (j : Json H E) (h : H) (lvl : Importance) (cs : List (Call E)) (e : E) (p : Bool) (room : Option Nat) :
    (((fresh h lvl).run j cs).step j (.event e p room)).2 = .ok ↔ Takes j h lvl cs e p room := by
  have hst := (state_iff j h lvl cs).1
  have hl : ((fresh h lvl).run j cs).level = lvl := (run_const j _ cs).2
  generalize (fresh h lvl).run j cs = l at *
  unfold Takes
  rcases event_cases j l e p room with ⟨hs, g⟩ | ⟨hs, hr, g⟩ | ⟨hs, hr, he, g⟩ | ⟨hs, hr, r, res, rfl, hlt, hne, g⟩ <;> rw [g]
  · exact ⟨fun q => (by cases q), fun q => absurd (hst.mpr q.1) hs⟩
  · rw [hl] at hr
    exact ⟨fun q => (by cases q), fun q => absurd q.2.1 (by omega)⟩
  · rw [hl] at hr
    exact ⟨fun _ => ⟨hst.mp hs, hr, he⟩, fun _ => rfl⟩
  · exact ⟨fun q => absurd q hne, fun q => absurd (q.2.2 r rfl) (by omega)⟩

/-- C169: a log that is not open, or whose level the event is beyond, says so and the file stays
as it is. -/
theorem refused (j : Json H E) (h : H) (lvl : Importance) (cs : List (Call E)) (e : E) (p : Bool) (room : Option Nat) :
    (¬ Open j h cs → ((fresh h lvl).run j cs).step j (.event e p room) = ((fresh h lvl).run j cs, .invalid)) ∧
    (Open j h cs → rank lvl < rank (j.importance e) →
      ((fresh h lvl).run j cs).step j (.event e p room) = ((fresh h lvl).run j cs, .done)) := by
  have hst := (state_iff j h lvl cs).1
  have hl : ((fresh h lvl).run j cs).level = lvl := (run_const j _ cs).2
  generalize (fresh h lvl).run j cs = l at *
  constructor
  · intro ho
    rcases event_cases j l e p room with ⟨hs, g⟩ | ⟨hs, hr, g⟩ | ⟨hs, hr, he, g⟩ | ⟨hs, hr, r, res, rfl, hlt, hne, g⟩
    · exact g
    all_goals exact absurd (hst.mp hs) ho
  · intro ho hr'
    rcases event_cases j l e p room with ⟨hs, g⟩ | ⟨hs, hr, g⟩ | ⟨hs, hr, he, g⟩ | ⟨hs, hr, r, res, rfl, hlt, hne, g⟩
    · exact absurd (hst.mpr ho) hs
    · exact g
    all_goals (rw [hl] at hr; omega)

/-! ### From the calls to the reader -/

/-- A way of failing that does no harm: nothing was written, or more than the separator and not
all of the JSON. -/
def Clean (j : Json H E) (h : H) : Call E → Prop
  | .start room => Enough room (size (j.serHeader h)) ∨ room = some 0
  | .event e p room => Enough room (size (j.ser p e)) ∨ room = some 0 ∨ ∃ k, room = some k ∧ 2 ≤ k ∧ k ≤ (j.ser p e).length
  | .finish _ => True

theorem chunk_whole (j : Json H E) (back : E → Option E) (hf : Fits j back) (e : E) (p : Bool) :
    Chunk j.de (j.ser p e ++ [lf]) (back e) := by
  refine ⟨?_, by simp, hf.line p e, fun _ => by rw [List.dropLast_concat, hf.whole], fun g => ?_⟩
  · intro g
    rcases List.mem_append.mp g with g | g
    · exact hf.noSep p e g
    · revert g; decide
  · have := hf.some p e
    have : (j.ser p e).length ≠ 0 := fun g => this (List.length_eq_zero_iff.mp g)
    simp only [List.length_append, List.length_cons, List.length_nil] at g
    omega

theorem chunk_part (j : Json H E) (back : E → Option E) (hf : Fits j back) (e : E) (p : Bool) (k : Nat)
    (h1 : 1 ≤ k) (h2 : k < (j.ser p e).length) : Chunk j.de ((j.ser p e).take k) none := by
  refine ⟨fun g => hf.noSep p e (List.mem_of_mem_take g), ?_, hf.part p e k h2, fun _ => ?_, fun _ => rfl⟩
  · intro g
    have : ((j.ser p e).take k).length = 0 := by rw [g]; rfl
    rw [List.length_take] at this
    omega
  · rw [List.dropLast_eq_take, List.take_take, List.length_take]
    exact hf.part p e _ (by omega)

/-- The file of a log that was started holds the header and chunks that read as the events
accepted. -/
def Shape (j : Json H E) (back : E → Option E) (h : H) (file : Bytes) (acc : List E) : Prop :=
  ∃ cs : List (Bytes × Option E), file = record (j.serHeader h) ++ seqOf cs ∧ (∀ x ∈ cs, Chunk j.de x.1 x.2) ∧
    cs.filterMap (·.2) = acc.filterMap back

theorem accepted_snoc (j : Json H E) (l : Log H) (cs : List (Call E)) (c : Call E) :
    accepted j l (cs ++ [c]) = accepted j l cs ++ accepted j (l.run j cs) [c] := by
  induction cs generalizing l with
  | nil => rfl
  | cons x cs ih =>
    simp only [List.cons_append, accepted, List.append_assoc]
    rw [ih]
    rfl

theorem accepted_event (j : Json H E) (l : Log H) (e : E) (p : Bool) (room : Option Nat) :
    accepted j l [.event e p room] = if (l.step j (.event e p room)).2 = .ok then [e] else [] := by
  simp only [accepted, List.append_nil]
  rcases (l.step j (.event e p room)).2 <;> rfl

theorem inv (j : Json H E) (back : E → Option E) (hf : Fits j back) (h : H) (lvl : Importance) (cs : List (Call E))
    (hc : ∀ c ∈ cs, Clean j h c) :
    (((fresh h lvl).run j cs).state = .initial → ((fresh h lvl).run j cs).file = [] ∧ accepted j (fresh h lvl) cs = []) ∧
    (((fresh h lvl).run j cs).state ≠ .initial → Shape j back h ((fresh h lvl).run j cs).file (accepted j (fresh h lvl) cs)) := by
  induction cs using snoc_induction with
  | h0 => exact ⟨fun _ => ⟨rfl, rfl⟩, fun g => absurd rfl g⟩
  | h1 cs c ih =>
    obtain ⟨hi1, hi2⟩ := ih (fun x hx => hc x (List.mem_append_left _ hx))
    have hcc := hc c (by simp)
    have hh : ((fresh h lvl).run j cs).header = h := (run_const j _ cs).1
    rw [run_snoc, accepted_snoc]
    generalize accepted j (fresh h lvl) cs = acc at *
    generalize (fresh h lvl).run j cs = l at *
    cases c with
    | start room =>
      have ha : accepted j l [Call.start room] = [] := by simp [accepted, took]
      rw [ha, List.append_nil]
      rcases start_cases j l room with ⟨hs, g⟩ | ⟨hs, e, g⟩ | ⟨hs, r, res, rfl, hr, _, g⟩ <;> rw [g]
      · exact ⟨fun q => absurd q hs, hi2⟩
      · refine ⟨fun q => (by cases q), fun _ => ⟨[], ?_, fun x hx => (by cases hx), ?_⟩⟩
        · rw [(hi1 hs).1, hh]; simp [seqOf]
        · rw [(hi1 hs).2]; rfl
      · refine ⟨fun _ => ?_, fun q => absurd hs q⟩
        rcases hcc with q | q
        · have := q r rfl; rw [hh] at hr; omega
        · cases q
          simpa using hi1 hs
    | event e p room =>
      rw [accepted_event]
      rcases event_cases j l e p room with ⟨hs, g⟩ | ⟨hs, hr, g⟩ | ⟨hs, hr, he, g⟩ | ⟨hs, hr, r, res, rfl, hlt, hne, g⟩ <;> rw [g]
      · simpa using ⟨hi1, hi2⟩
      · simpa using ⟨hi1, hi2⟩
      · refine ⟨fun q => absurd (hs.symm.trans q) (by decide), fun _ => ?_⟩
        obtain ⟨ch, e1, e2, e3⟩ := hi2 (by rw [hs]; decide)
        refine ⟨ch ++ [(j.ser p e ++ [lf], back e)], ?_, ?_, ?_⟩
        · rw [e1, seqOf_append]; simp [seqOf, record]
        · intro x hx
          rcases List.mem_append.mp hx with hx | hx
          · exact e2 x hx
          · simp only [List.mem_singleton] at hx; subst hx; exact chunk_whole j back hf e p
        · rw [if_pos rfl, List.filterMap_append, List.filterMap_append, e3]
          rfl
      · refine ⟨fun q => absurd (hs.symm.trans q) (by decide), fun _ => ?_⟩
        rw [if_neg hne, List.append_nil]
        obtain ⟨ch, e1, e2, e3⟩ := hi2 (by rw [hs]; decide)
        rcases hcc with q | q | ⟨k, q, k1, k2⟩
        · have := q r rfl; omega
        · cases q; exact ⟨ch, by simpa using e1, e2, e3⟩
        · cases q
          refine ⟨ch ++ [((j.ser p e).take (r - 1), none)], ?_, ?_, ?_⟩
          · rw [e1, seqOf_append, List.append_assoc]
            obtain ⟨m, rfl⟩ : ∃ m, r = m + 1 := ⟨r - 1, by omega⟩
            simp [seqOf, record, List.take_append_of_le_length (show m ≤ (j.ser p e).length by omega)]
          · intro x hx
            rcases List.mem_append.mp hx with hx | hx
            · exact e2 x hx
            · simp only [List.mem_singleton] at hx; subst hx; exact chunk_part j back hf e p _ (by omega) (by omega)
          · rw [List.filterMap_append, e3]; simp
    | finish f =>
      have ha : accepted j l [Call.finish f] = [] := by simp [accepted, took]
      rw [ha, List.append_nil]
      rcases finish_cases j l f with ⟨hs, g⟩ | ⟨hs, g⟩ <;> rw [g]
      · exact ⟨hi1, hi2⟩
      · exact ⟨fun q => (by cases q), fun _ => hi2 (by rw [hs]; decide)⟩

/-- C169, but for two ways of failing: the reader returns the header and the events accepted.
The claim for every failing writer is false, see `empty_false` and `line_false`. -/
theorem read_partial (j : Json H E) (back : E → Option E) (hf : Fits j back) (h : H) (lvl : Importance) (cs : List (Call E))
    (hc : ∀ c ∈ cs, Clean j h c) (hs : Started j h cs) :
    readLog j ((fresh h lvl).run j cs).file = some (h, (accepted j (fresh h lvl) cs).filterMap back) := by
  obtain ⟨ch, e1, e2, e3⟩ := (inv j back hf h lvl cs hc).2 (fun g => (state_iff j h lvl cs).2.mp g hs)
  have := read_seq j back hf h ch [] e2 (Or.inl rfl)
  rw [List.append_nil] at this
  rw [e1, this, e3]

/-- A call whose record the writer takes. -/
def Whole (j : Json H E) (h : H) : Call E → Prop
  | .start room => Enough room (size (j.serHeader h))
  | .event e p room => Enough room (size (j.ser p e))
  | .finish _ => True

/-- C169: a writer that never fails. -/
theorem read_back (j : Json H E) (back : E → Option E) (hf : Fits j back) (h : H) (lvl : Importance) (cs : List (Call E))
    (hc : ∀ c ∈ cs, Whole j h c) (hs : ∃ room, .start room ∈ cs) :
    readLog j ((fresh h lvl).run j cs).file = some (h, (accepted j (fresh h lvl) cs).filterMap back) := by
  refine read_partial j back hf h lvl cs (fun c m => ?_) ?_
  · have := hc c m
    cases c with
    | start room => exact Or.inl this
    | event e p room => exact Or.inl this
    | finish f => exact trivial
  · obtain ⟨room, m⟩ := hs
    exact ⟨room, m, hc _ m⟩

/-- A call of which the writer takes nothing. -/
def Full : Call E → Prop
  | .start room => room = some 0
  | .event _ _ room => room = some 0
  | .finish _ => True

theorem full_run (j : Json H E) (l : Log H) (cs : List (Call E)) (hc : ∀ c ∈ cs, Full c) (hl : l.state ≠ .initial) :
    (l.run j cs).file = l.file ∧ accepted j l cs = [] := by
  induction cs generalizing l with
  | nil => exact ⟨rfl, rfl⟩
  | cons c cs ih =>
    have hcc := hc c (List.mem_cons_self ..)
    have key : (l.step j c).1.file = l.file ∧ (l.step j c).1.state ≠ .initial ∧ took c (l.step j c).2 = [] := by
      cases c with
      | start room =>
        rcases start_cases j l room with ⟨hs, g⟩ | ⟨hs, e, g⟩ | ⟨hs, r, res, rfl, hr, _, g⟩
        · rw [g]; exact ⟨rfl, hl, rfl⟩
        · exact absurd hs hl
        · exact absurd hs hl
      | event e p room =>
        cases hcc
        rcases event_cases j l e p (some 0) with ⟨hs, g⟩ | ⟨hs, hr, g⟩ | ⟨hs, hr, he, g⟩ | ⟨hs, hr, r, res, q, hlt, hne, g⟩
        · rw [g]; exact ⟨rfl, hl, rfl⟩
        · rw [g]; exact ⟨rfl, hl, rfl⟩
        · have := he 0 rfl; simp [size] at this
        · cases q
          rw [g]
          refine ⟨by simp, hl, ?_⟩
          cases res
          · exact absurd rfl hne
          all_goals rfl
      | finish f =>
        rcases finish_cases j l f with ⟨hs, g⟩ | ⟨hs, g⟩ <;> rw [g]
        · exact ⟨rfl, hl, rfl⟩
        · exact ⟨rfl, (fun q => by cases q), rfl⟩
    have := ih (l.step j c).1 (fun x hx => hc x (List.mem_cons_of_mem _ hx)) key.2.1
    refine ⟨this.1.trans key.1, ?_⟩
    simp only [accepted]
    rw [this.2, List.append_nil]
    exact key.2.2

/-- What is left of a record that is cut anywhere is not read at the end of a file. -/
theorem tail_cut (j : Json H E) (back : E → Option E) (hf : Fits j back) (e : E) (p : Bool) (r : Nat) (hr : r < size (j.ser p e)) :
    Tail j.de ((record (j.ser p e)).take r) := by
  cases r with
  | zero => exact Or.inl rfl
  | succ m =>
    simp only [size] at hr
    have ht : (j.ser p e ++ [lf]).take m = (j.ser p e).take m := List.take_append_of_le_length (by omega)
    refine Or.inr ⟨(j.ser p e).take m, by simp only [record, List.take_succ_cons, ht], fun g => hf.noSep p e (List.mem_of_mem_take g), ?_⟩
    intro h2
    rw [List.length_take] at h2
    rw [List.dropLast_eq_take, List.take_take, List.length_take]
    exact hf.part p e _ (by omega)

/-- C169: a writer that fails at any byte of an event and takes nothing from then on, such as a
disk that is full. -/
theorem read_full (j : Json H E) (back : E → Option E) (hf : Fits j back) (h : H) (lvl : Importance)
    (a b : List (Call E)) (e : E) (p : Bool) (room : Option Nat)
    (ha : ∀ c ∈ a, Whole j h c) (hs : ∃ room, .start room ∈ a) (hb : ∀ c ∈ b, Full c) :
    readLog j ((fresh h lvl).run j (a ++ .event e p room :: b)).file =
      some (h, (accepted j (fresh h lvl) (a ++ .event e p room :: b)).filterMap back) := by
  have hcl : ∀ c ∈ a, Clean j h c := by
    intro c m
    have := ha c m
    cases c with
    | start room => exact Or.inl this
    | event e p room => exact Or.inl this
    | finish f => exact trivial
  have hst : Started j h a := by
    obtain ⟨r, m⟩ := hs
    exact ⟨r, m, ha _ m⟩
  have hne : ((fresh h lvl).run j a).state ≠ .initial := fun g => (state_iff j h lvl a).2.mp g hst
  have happ : ∀ (l : Log H) (x y : List (Call E)), accepted j l (x ++ y) = accepted j l x ++ accepted j (l.run j x) y := by
    intro l x y
    induction x generalizing l with
    | nil => rfl
    | cons c x ih =>
      simp only [List.cons_append, accepted, List.append_assoc]
      rw [ih]
      rfl
  have hacc : accepted j (fresh h lvl) (a ++ .event e p room :: b) =
      accepted j (fresh h lvl) (a ++ [.event e p room]) ++ accepted j ((fresh h lvl).run j (a ++ [.event e p room])) b := by
    rw [← happ]; simp
  have hrun : (fresh h lvl).run j (a ++ .event e p room :: b) = ((fresh h lvl).run j (a ++ [.event e p room])).run j b := by
    rw [← run_append]; simp
  obtain ⟨ch, e1, e2, e3⟩ := (inv j back hf h lvl a hcl).2 hne
  have hkeep : ∀ e p room, (((fresh h lvl).run j a).step j (.event e p room)).1.state = ((fresh h lvl).run j a).state := by
    intro e p room
    rcases event_cases j ((fresh h lvl).run j a) e p room with ⟨_, g⟩ | ⟨_, _, g⟩ | ⟨_, _, _, g⟩ | ⟨_, _, _, _, _, _, _, g⟩ <;> rw [g]
  have hf1 := full_run j ((fresh h lvl).run j (a ++ [.event e p room])) b hb (by rw [run_snoc, hkeep]; exact hne)
  rw [hacc, hrun, hf1.1, hf1.2, List.append_nil]
  by_cases he : Enough room (size (j.ser p e))
  · refine read_partial j back hf h lvl _ (fun c m => ?_) ((started_snoc ..).mpr (Or.inl hst))
    rcases List.mem_append.mp m with m | m
    · exact hcl c m
    · simp only [List.mem_singleton] at m; subst m; exact Or.inl he
  · rw [run_snoc, accepted_snoc, accepted_event]
    have hcont : ∀ z, Tail j.de z → readLog j (((fresh h lvl).run j a).file ++ z) = some (h, (accepted j (fresh h lvl) a).filterMap back) := by
      intro z hz
      rw [e1, List.append_assoc, read_seq j back hf h ch z e2 hz, e3]
    have h0 := hcont [] (Or.inl rfl)
    rw [List.append_nil] at h0
    rcases event_cases j ((fresh h lvl).run j a) e p room with ⟨_, g⟩ | ⟨_, _, g⟩ | ⟨_, _, q, g⟩ | ⟨_, _, r, res, rfl, hlt, hne', g⟩
    · rw [g]; simpa using h0
    · rw [g]; simpa using h0
    · exact absurd q he
    · rw [g, if_neg hne', List.append_nil]
      exact hcont _ (tail_cut j back hf e p r hlt)

/-! ### A JSON of two events, and what fails -/

/-- Two events `{n}`, with `\n` inside if pretty-printed; the second is not within the base level. -/
def tiny : Json Unit Bool where
  ser p e := if p then [123, 10, if e then 49 else 48, 125] else [123, if e then 49 else 48, 125]
  de b := match b.filter (fun x => x != 10) with
    | [123, 48, 125] => some false
    | [123, 49, 125] => some true
    | _ => none
  serHeader _ := [123, 125]
  deHeader b := if b.filter (fun x => x != 10) = [123, 125] then some () else none
  importance e := if e then .extra else .core

/-- The conditions on JSON can be met. -/
theorem tiny_fits : Fits tiny some := by
  refine ⟨by decide, by decide, by decide, by decide, ?_, fun () => by decide, fun () => by decide, fun () => by decide, fun () => by decide⟩
  intro p e k hk
  have : k < 4 := by revert hk; cases p <;> cases e <;> simp [tiny] <;> omega
  revert hk
  rcases (show k = 0 ∨ k = 1 ∨ k = 2 ∨ k = 3 by omega) with rfl | rfl | rfl | rfl <;> revert p e <;> decide

/-- The full claim, for any failing writer. -/
def Claim (j : Json H E) (back : E → Option E) : Prop :=
  ∀ (h : H) (lvl : Importance) (cs : List (Call E)), Started j h cs →
    readLog j ((fresh h lvl).run j cs).file = some (h, (accepted j (fresh h lvl) cs).filterMap back)

/-- C169 is false for a writer that fails just after the separator of an event: all events that
follow were accepted and are in the file, and none of them is returned. -/
theorem empty_false : ¬ Claim tiny some ∧
    ∀ (h : Unit) (lvl : Importance) (e : Bool) (p : Bool) (z : Bytes), tiny.importance e = .core →
      readLog tiny (((fresh h lvl).run tiny [.start none, .event e p (some 1)]).file ++ sep :: z) = some ((), []) := by
  constructor
  · intro hc
    have := hc () .base [.start none, .event false false (some 1), .event false false none] ⟨none, by simp, fun _ h => (by cases h)⟩
    revert this
    decide +kernel
  · intro h lvl e p z he
    have : ((fresh h lvl).run tiny [.start none, .event e p (some 1)]).file = [sep, 123, 125, lf, sep] := by
      cases e
      · cases h; cases lvl <;> cases p <;> decide
      · exact absurd he (by decide)
    rw [this]
    show readLog tiny (sep :: ([123, 125, lf] ++ sep :: (sep :: z))) = _
    unfold readLog
    rw [readRecord_empty]
    simp only
    rw [readRecord_sep [123, 125, lf] (sep :: z) (by decide) (by decide)]
    simp only
    rw [events_none tiny.de _ _ (readRecord_empty z)]
    rfl

/-- C169 is false for a writer that fails at the line feed: the call fails and the event is
returned if another follows. -/
theorem line_false :
    let cs : List (Call Bool) := [.start none, .event false true (some 5), .event false false none]
    (accepted tiny (fresh () .base) cs) = [false] ∧
    readLog tiny ((fresh () .base).run tiny cs).file = some ((), [false, false]) := by decide +kernel

/-- C169 is false for a header that fails part-way and is written again: the file cannot be
read, though the second `start_log` succeeded. -/
theorem header_false :
    let cs : List (Call Bool) := [.start (some 2), .start none, .event false false none]
    (accepted tiny (fresh () .base) cs) = [false] ∧
    readLog tiny ((fresh () .base).run tiny cs).file = none := by decide +kernel

/-- Before the start and after the end nothing is taken, and too detailed events are not. -/
example : accepted tiny (fresh () .base) [.event false false none, .start none, .event false true none, .event true false none,
    .event false false (some 3), .event false false none, .start none, .finish true, .event false false none] = [false, false] ∧
    readLog tiny ((fresh () .base).run tiny [.event false false none, .start none, .event false true none, .event true false none,
      .event false false (some 3), .event false false none, .start none, .finish true, .event false false none]).file =
      some ((), [false, false]) := by decide +kernel

/-- A disk that is full in the middle of the second event. -/
example : readLog tiny ((fresh () .extra).run tiny [.start none, .event true false none, .event false false (some 4), .event true false (some 0)]).file =
    some ((), [true]) := by decide +kernel

end Verif.Props.C169
