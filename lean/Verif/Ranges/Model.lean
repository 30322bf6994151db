/-!
Model of `/repo/quiche/src/ranges.rs`: sets of `u64` stored as half-open ranges.
`u64` is modelled by `Nat`; `largest + 1` (ranges.rs:261, 325-326) would overflow
only for `u64::MAX`, which is not a packet number or stream offset.
-/

namespace Verif

/-- A half-open range `start..end`. -/
abbrev Rng := Nat × Nat

namespace Ranges

/-- `MAX_INLINE_CAPACITY` (ranges.rs:37). -/
abbrev maxInlineCapacity : Nat := 4
/-- `MIN_TO_INLINE` (ranges.rs:38). -/
abbrev minToInline : Nat := 2

/-- `RangeSet` with its two representations (ranges.rs:42-61). `BTreeMap<u64,u64>`
is modelled by the list of its entries in key order. -/
inductive RangeSet where
  | inline (inner : List Rng) (capacity : Nat)
  | btree (inner : List Rng) (capacity : Nat)
  deriving DecidableEq, Repr

/-! ### Inline representation -/

/-- The merging loop at the end of `InlineRangeSet::insert` (ranges.rs:240-251):
`(s, e)` is the entry at `pos`, the list is what follows. -/
def inlineMerge (s e : Nat) : List Rng → List Rng
  | [] => [(s, e)]
  | (s2, e2) :: t => if e < s2 then (s, e) :: (s2, e2) :: t else inlineMerge s (max e2 e) t

/-- `InlineRangeSet::insert` (ranges.rs:186-252). `pre` are the entries before
`pos`, the last argument the entries from `pos` on. `none` is a panic:
`pos -= 1` with `pos = 0` (ranges.rs:205), or `remove(0)` on an empty vector
(ranges.rs:231). -/
def inlineInsert (cap start fin : Nat) (pre : List Rng) : List Rng → Option (List Rng)
  | [] =>
    if pre.length = cap then
      match pre with
      | [] => none
      | _ :: pre' => some (pre' ++ [(start, fin)])
    else some (pre ++ [(start, fin)])
  | (s, e) :: t =>
    if start > e then inlineInsert cap start fin (pre ++ [(s, e)]) t
    else if fin < s then
      if (pre ++ (s, e) :: t).length = cap then
        match pre with
        | [] => none
        | _ :: pre' => some (pre' ++ (start, fin) :: (s, e) :: t)
      else some (pre ++ (start, fin) :: (s, e) :: t)
    else
      let s' := if start < s then start else s
      if fin > e then some (pre ++ inlineMerge s' fin t)
      else some (pre ++ (s', e) :: t)

/-- `InlineRangeSet::remove_until` (ranges.rs:254-268). -/
def inlineRemoveUntil (largest : Nat) : List Rng → List Rng
  | [] => []
  | (s, e) :: t =>
    if largest ≥ e then inlineRemoveUntil largest t
    else
      let s' := max (largest + 1) s
      if s' = e then t else (s', e) :: t

/-! ### B-tree representation -/

/-- `BTreeRangeSet::prev_to` (ranges.rs:332-337): last entry with key `≤ item`. -/
def prevTo (m : List Rng) (item : Nat) : Option Rng := (m.filter (fun r => r.1 ≤ item)).getLast?

/-- `BTreeRangeSet::next_to` (ranges.rs:339-344): first entry with key `≥ item`. -/
def nextTo (m : List Rng) (item : Nat) : Option Rng := m.find? (fun r => item ≤ r.1)

/-- `BTreeMap::remove`. -/
def mapRemove (m : List Rng) (key : Nat) : List Rng := m.filter (fun r => r.1 ≠ key)

/-- `BTreeMap::insert`. -/
def mapInsert (key val : Nat) : List Rng → List Rng
  | [] => [(key, val)]
  | (k, v) :: t =>
    if key < k then (key, val) :: (k, v) :: t
    else if key = k then (key, val) :: t
    else (k, v) :: mapInsert key val t

/-- `range_overlaps` (ranges.rs:388-391). -/
def rangeOverlaps (r other : Rng) : Bool :=
  (other.1 ≥ r.1 && other.1 ≤ r.2) || (other.2 ≥ r.1 && other.2 ≤ r.2)

/-- `Range::contains`. -/
def rngContains (r : Rng) (x : Nat) : Bool := r.1 ≤ x && x < r.2

/-- The loop of `BTreeRangeSet::insert` over following ranges (ranges.rs:289-306).
Every iteration removes an entry or stops, so `fuel = m.length + 1` is never
exhausted (`btreeLoop_spec`). -/
def btreeLoop (item : Rng) : Nat → List Rng → Nat → Nat → List Rng × Nat × Nat
  | 0, m, start, fin => (m, start, fin)
  | fuel + 1, m, start, fin =>
    match nextTo m start with
    | none => (m, start, fin)
    | some r =>
      if rngContains item r.1 && rngContains item r.2 then
        btreeLoop item fuel (mapRemove m r.1) start fin
      else if !rangeOverlaps r item then (m, start, fin)
      else btreeLoop item fuel (mapRemove m r.1) (min start r.1) (max fin r.2)

/-- First part of `BTreeRangeSet::insert` (ranges.rs:273-306): everything before
the capacity check. -/
def btreeAbsorb (m : List Rng) (item : Rng) : List Rng × Nat × Nat :=
  let (m, start, fin) :=
    match prevTo m item.1 with
    | some r =>
      if rangeOverlaps r item then (mapRemove m r.1, min item.1 r.1, max item.2 r.2)
      else (m, item.1, item.2)
    | none => (m, item.1, item.2)
  btreeLoop item (m.length + 1) m start fin

/-- `BTreeRangeSet::insert` (ranges.rs:273-313). -/
def btreeInsert (cap : Nat) (m : List Rng) (item : Rng) : List Rng :=
  let (m, start, fin) := btreeAbsorb m item
  let m := if m.length ≥ cap then m.tail else m
  mapInsert start fin m

/-- `BTreeRangeSet::remove_until` (ranges.rs:315-330). -/
def btreeRemoveUntil (cap : Nat) (m : List Rng) (largest : Nat) : List Rng :=
  (m.filter (fun r => r.1 ≤ largest)).foldl
    (fun m r =>
      let m := mapRemove m r.1
      if r.2 > largest + 1 then btreeInsert cap m (largest + 1, r.2) else m) m

/-! ### The set -/

namespace RangeSet

/-- `RangeSet::new` (ranges.rs:68-73). -/
def new (cap : Nat) : RangeSet := .inline [] cap

/-- `RangeSet::iter` (ranges.rs:124-135). -/
def ranges : RangeSet → List Rng
  | .inline l _ => l
  | .btree l _ => l

/-- `RangeSet::len` (ranges.rs:76-81). -/
def len (s : RangeSet) : Nat := s.ranges.length

def capacity : RangeSet → Nat
  | .inline _ c => c
  | .btree _ c => c

/-- `RangeSet::fixup` (ranges.rs:86-106). -/
def fixup : RangeSet → RangeSet
  | .inline l c => if l.length = maxInlineCapacity then .btree l c else .inline l c
  | .btree l c => if l.length ≤ minToInline then .inline l c else .btree l c

/-- `RangeSet::insert` (ranges.rs:114-121); `none` is a panic. -/
def insert (s : RangeSet) (item : Rng) : Option RangeSet :=
  match s with
  | .inline l c => (inlineInsert c item.1 item.2 [] l).map (fun l => fixup (.inline l c))
  | .btree l c => some (fixup (.btree (btreeInsert c l item) c))

/-- `RangeSet::remove_until` (ranges.rs:171-178). -/
def removeUntil (s : RangeSet) (largest : Nat) : RangeSet :=
  match s with
  | .inline l c => fixup (.inline (inlineRemoveUntil largest l) c)
  | .btree l c => fixup (.btree (btreeRemoveUntil c l largest) c)

/-- `RangeSet::push_item` (ranges.rs:180-182). -/
def pushItem (s : RangeSet) (item : Nat) : Option RangeSet := s.insert (item, item + 1)

/-- `RangeSet::flatten` (ranges.rs:140-148). -/
def flatten (s : RangeSet) : List Nat :=
  s.ranges.flatMap (fun r => List.range' r.1 (r.2 - r.1))

/-- `RangeSet::first` (ranges.rs:152-158). -/
def first (s : RangeSet) : Option Nat := s.ranges.head?.map (·.1)

/-- `RangeSet::last` (ranges.rs:161-168). The outer `none` is the panic of
`*e - 1` with `*e = 0`. -/
def last (s : RangeSet) : Option (Option Nat) :=
  match s.ranges.getLast? with
  | none => some none
  | some r => if r.2 = 0 then none else some (some (r.2 - 1))

/-- `PartialEq<Range<u64>>` (ranges.rs:360-372). -/
def eqRange (s : RangeSet) (r : Rng) : Bool := s.ranges == [r]

end RangeSet
end Ranges
end Verif
