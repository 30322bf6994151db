import Verif.H3.Prio
/-!
C184: Extensible Priorities: what a field value means, that what is sent is read
back, and what the transport makes of it.
-/

namespace Verif.Props.C184
open Verif Verif.Prio

/-- The last member with this key. -/
def lastOf (k : String) : Dict → Option Entry
  | [] => none
  | m :: d =>
    match lastOf k d with
    | some e => some e
    | none => if m.1 = k then some m.2 else none

theorem get_eq (d : Dict) (k : String) : d.get k = lastOf k d := by
  have key : ∀ (d : Dict) (acc : Option Entry),
      d.foldl (fun acc m => if m.1 = k then some m.2 else acc) acc = (lastOf k d).or acc := by
    intro d
    induction d with
    | nil => intro acc; simp [lastOf]
    | cons m d ih =>
      intro acc
      simp only [List.foldl_cons, ih, lastOf]
      cases h : lastOf k d with
      | some e => simp
      | none => by_cases hm : m.1 = k <;> simp [hm]
  unfold Dict.get
  rw [key]
  simp

/-- RFC 9218, section 4: unknown parameters, values out of range and values of
other types are ignored, and what is left out has its default. -/
def rfcUrgency (d : Dict) : Nat :=
  match lastOf "u" d with
  | some (.item (.int v)) => if 0 ≤ v ∧ v ≤ 7 then v.toNat else 3
  | _ => 3

def rfcIncremental (d : Dict) : Bool :=
  match lastOf "i" d with
  | some (.item (.bool b)) => b
  | _ => false

/-- `u`, if it is there, is an integer from 0 to 7, and `i`, if it is there, is a
boolean. -/
def Valid (d : Dict) : Prop :=
  (∀ e, lastOf "u" d = some e → ∃ v : Int, e = .item (.int v) ∧ 0 ≤ v ∧ v ≤ 7) ∧
  (∀ e, lastOf "i" d = some e → ∃ b, e = .item (.bool b))

/-- **Field values with correct parameters** mean what RFC 9218 says, whatever
other members they have, and whichever was given first. -/
theorem meaning_partial (parse : List UInt8 → Option Dict) (value : List UInt8) (d : Dict)
    (h : parse value = some d) (hv : Valid d) :
    tryFrom parse value = some ⟨rfcUrgency d, rfcIncremental d⟩ := by
  obtain ⟨hu, hi⟩ := hv
  have h1 : readUrgency d = some (rfcUrgency d) := by
    unfold readUrgency rfcUrgency
    rw [get_eq]
    cases hl : lastOf "u" d with
    | none => rfl
    | some e =>
      obtain ⟨v, he, h0, h7⟩ := hu e hl
      subst he
      simp [h0, h7]
  have h2 : readIncremental d = some (rfcIncremental d) := by
    unfold readIncremental rfcIncremental
    rw [get_eq]
    cases hl : lastOf "i" d with
    | none => rfl
    | some e =>
      obtain ⟨b, he⟩ := hi e hl
      subst he
      rfl
  simp only [tryFrom, h, h1, h2]

/-- **What is refused**: exactly what is no dictionary, a `u` that is not an
integer, and an `i` that is an item other than a boolean. -/
theorem refused (parse : List UInt8 → Option Dict) (value : List UInt8) :
    tryFrom parse value = none ↔
      parse value = none ∨ ∃ d, parse value = some d ∧
        ((∃ e, lastOf "u" d = some e ∧ ∀ v, e ≠ .item (.int v)) ∨
         (∃ b, lastOf "i" d = some (.item b) ∧ ∀ x, b ≠ .bool x)) := by
  cases hp : parse value with
  | none => simp [tryFrom, hp]
  | some d =>
    have h1 : readUrgency d = none ↔ ∃ e, lastOf "u" d = some e ∧ ∀ v, e ≠ .item (.int v) := by
      unfold readUrgency
      rw [get_eq]
      match lastOf "u" d with
      | none => simp
      | some (.item (.int v)) => simp; split <;> simp
      | some .inner => simp
      | some (.item .decimal) => simp
      | some (.item .string) => simp
      | some (.item .bytes) => simp
      | some (.item (.bool b)) => simp
      | some (.item .token) => simp
    have h2 : readIncremental d = none ↔
        ∃ b, lastOf "i" d = some (.item b) ∧ ∀ x, b ≠ .bool x := by
      unfold readIncremental
      rw [get_eq]
      match lastOf "i" d with
      | none => simp
      | some (.item (.int v)) => simp
      | some .inner => simp
      | some (.item .decimal) => simp
      | some (.item .string) => simp
      | some (.item .bytes) => simp
      | some (.item (.bool b)) => simp
      | some (.item .token) => simp
    simp only [tryFrom, hp, reduceCtorEq, false_or, Option.some.injEq, exists_eq_left', ← h1, ← h2]
    cases readUrgency d with
    | none => simp
    | some u => cases readIncremental d <;> simp

/-- The urgency that is read is always one of the eight, and out of range is the
least urgent. -/
theorem bounded (parse : List UInt8 → Option Dict) (value : List UInt8) (p : Priority)
    (h : tryFrom parse value = some p) : p.urgency ≤ 7 ∧
    ∀ d v, parse value = some d → lastOf "u" d = some (.item (.int v)) → (v < 0 ∨ 7 < v) →
      p.urgency = 7 := by
  unfold tryFrom at h
  cases hp : parse value with
  | none => rw [hp] at h; cases h
  | some d =>
    rw [hp] at h
    simp only at h
    cases hu : readUrgency d with
    | none => rw [hu] at h; cases h
    | some u =>
      rw [hu] at h
      simp only at h
      cases hi : readIncremental d with
      | none => rw [hi] at h; cases h
      | some i =>
        rw [hi] at h
        simp only [Option.some.injEq] at h
        subst h
        unfold readUrgency at hu
        rw [get_eq] at hu
        constructor
        · show u ≤ 7
          split at hu
          · split at hu <;> simp only [Option.some.injEq] at hu <;> omega
          · cases hu
          · simp only [Option.some.injEq] at hu; omega
        · intro d' v hd hl hv
          simp only [Option.some.injEq] at hd
          subst hd
          rw [hl] at hu
          simp only at hu
          rw [if_neg (by omega)] at hu
          simp only [Option.some.injEq] at hu
          exact hu.symm

/-- Out of range is not ignored: the least urgent instead of the default. A wrong
type of one parameter makes all of the value be refused. -/
theorem ignored_false :
    (∃ d, tryFrom (fun _ => some d) [] = some ⟨7, false⟩ ∧ rfcUrgency d = 3) ∧
    (∃ d, tryFrom (fun _ => some d) [] = none ∧ rfcUrgency d = 1) :=
  ⟨⟨[("u", .item (.int 8))], by decide, by decide⟩,
   ⟨[("u", .item (.int 1)), ("i", .item .token)], by decide, by decide⟩⟩

/-- The documentation says that a wrong type of `u` or `i` is an error. An inner
list is one for `u`, and is taken for "not given" for `i`. -/
theorem inner_false :
    tryFrom (fun _ => some [("u", .inner)]) [] = none ∧
    tryFrom (fun _ => some [("i", .inner)]) [] = some Priority.default := by decide

/-! ### Sending -/

/-- What a parser of Structured Fields makes of the values that are sent
(RFC 8941, section 3.2: a member without value is true). -/
def Conforms (parse : List UInt8 → Option Dict) : Prop :=
  ∀ n : Nat, n ≤ 7 →
    parse [117, 61, UInt8.ofNat (48 + n)] = some [("u", .item (.int n))] ∧
    parse [117, 61, UInt8.ofNat (48 + n), 44, 105] =
      some [("u", .item (.int n)), ("i", .item (.bool true))]

/-- **What a client sends is what a server reads**, with the urgency brought into
range; it is at most five bytes. -/
theorem round_trip (parse : List UInt8 → Option Dict) (h : Conforms parse) (p : Priority) :
    tryFrom parse (fieldValue p) = some ⟨min p.urgency 7, p.incremental⟩ ∧
    (fieldValue p).length ≤ 5 := by
  have hc : clamp p.urgency = min p.urgency 7 := by
    unfold clamp; split <;> omega
  have hle : min p.urgency 7 ≤ 7 := by omega
  obtain ⟨h1, h2⟩ := h (min p.urgency 7) hle
  have hv : (0 : Int) ≤ ((min p.urgency 7 : Nat) : Int) ∧ ((min p.urgency 7 : Nat) : Int) ≤ 7 := by
    omega
  generalize hm : min p.urgency 7 = n at *
  constructor
  · unfold fieldValue
    rw [hc]
    cases hi : p.incremental with
    | false =>
      simp only [Bool.false_eq_true, if_false, List.append_nil]
      have hV : Valid [("u", .item (.int n))] := by
        constructor
        · intro e he
          simp only [lastOf, if_true, Option.some.injEq] at he
          exact ⟨n, he.symm, hv⟩
        · intro e he; simp [lastOf] at he
      rw [meaning_partial parse _ _ h1 hV]
      simp [rfcUrgency, rfcIncremental, lastOf]
      omega
    | true =>
      simp only [if_true, List.cons_append, List.nil_append]
      have hV : Valid [("u", .item (.int n)), ("i", .item (.bool true))] := by
        constructor
        · intro e he
          simp [lastOf] at he
          exact ⟨n, he.symm, hv⟩
        · intro e he
          simp [lastOf] at he
          exact ⟨true, he.symm⟩
      rw [meaning_partial parse _ _ h2 hV]
      simp [rfcUrgency, rfcIncremental, lastOf]
      omega
  · unfold fieldValue
    cases p.incremental <;> simp

/-- What an operation after these shows. -/
def shows (before : List Op) : Op → Out
  | .take =>
    match before.getLast? with
    | some (.update v) => .value v
    | _ => .done
  | .update _ =>
    match before.getLast? with
    | some (.update _) => .done
    | _ => .event

/-- **The application gets the last update**, and one event for all the updates
that come before it takes the value; in every order of both. -/
theorem last_update (before : List Op) (o : Op) :
    (run none (before ++ [o])).1 = (run none before).1 ++ [shows before o] ∧
    ((run none (before ++ [o])).2 = match o with | .update v => some v | .take => none) := by
  have app : ∀ (ops : List Op) (o : Op) (s : Option (List UInt8)),
      run s (ops ++ [o]) =
        ((run s ops).1 ++ [(step (run s ops).2 o).1], (step (run s ops).2 o).2) := by
    intro ops
    induction ops with
    | nil => intro o s; simp [run]
    | cons p ops ih => intro o s; simp [run, ih]
  have slot : ∀ (o : Op) (s : Option (List UInt8)),
      (step s o).2 = match o with | .update v => some v | .take => none := by
    intro o s
    cases o with
    | update v => rfl
    | take => cases s <;> rfl
  have st : (run none before).2 =
      match before.getLast? with | some (.update v) => some v | _ => none := by
    rcases List.eq_nil_or_concat before with h | ⟨init, l, h⟩
    · subst h; rfl
    · subst h
      rw [List.concat_eq_append, app]
      simp only [slot, List.getLast?_append, List.getLast?_singleton, Option.some_or]
      cases l <;> rfl
  rw [app]
  refine ⟨?_, by simp only [slot]⟩
  simp only [st, shows]
  congr 2
  cases o with
  | take => split <;> simp_all [step]
  | update v => split <;> simp_all [step]

/-! ### The transport -/

/-- **Urgencies of responses in the transport**: the addition never overflows;
requests lie between the control streams (0) and reserved streams (255); a more
urgent priority is never scheduled after a less urgent one; and the default is the
urgency of a stream that was never given one (127). -/
theorem scheduled (p q : Priority) : ∃ a b, transport p = some a ∧ transport q = some b ∧
    0 < a ∧ a < 255 ∧
    (p.urgency ≤ q.urgency → a ≤ b) ∧
    (p.urgency < q.urgency → p.urgency < 7 → a < b) ∧
    transport Priority.default = some 127 := by
  have key : ∀ p : Priority, transport p = some (min p.urgency 7 + 124) := by
    intro p
    unfold transport clamp
    simp only
    by_cases h : p.urgency > 7
    · rw [if_pos h, if_neg (by omega)]; congr 1; omega
    · rw [if_neg h, if_neg (by omega)]; congr 1; omega
  refine ⟨_, _, key p, key q, by omega, by omega, by omega, by omega, by decide⟩

/-- Two ends: the order of the urgencies that a client sends is the order in which
a server that applies them schedules. -/
theorem end_to_end (parse : List UInt8 → Option Dict) (h : Conforms parse) (p : Priority) :
    (tryFrom parse (fieldValue p)).bind transport = transport p := by
  rw [(round_trip parse h p).1]
  simp only [Option.bind_some, transport, clamp]
  congr 1 <;> (try congr 1) <;> split <;> split <;> omega

/-! ### Concrete cases -/

example : fieldValue ⟨200, true⟩ = [117, 61, 55, 44, 105] := by decide
example : tryFrom (fun _ => some [("u", .item (.int 1)), ("x", .inner), ("u", .item (.int 5)),
    ("i", .item (.bool true))]) [] = some ⟨5, true⟩ := by decide
example : (run none [.update [1], .update [2], .take, .take, .update [3]]).1 =
    [.event, .done, .value [2], .done, .event] := by decide

end Verif.Props.C184
