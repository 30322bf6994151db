/-!
Model of `/repo/quiche/src/flowcontrol.rs`. `Instant` and `Duration` are modelled
by `Nat` (any fixed unit), `u64` by `Nat`.
-/

namespace Verif.Stream

/-- `FlowControl` (flowcontrol.rs:39-55). -/
structure FlowControl where
  consumed : Nat := 0
  maxData : Nat := 0
  window : Nat := 0
  maxWindow : Nat := 0
  lastUpdate : Option Nat := none
  deriving DecidableEq, Repr

namespace FlowControl

/-- `FlowControl::new` (flowcontrol.rs:58-68). -/
def new (maxData window maxWindow : Nat) : FlowControl :=
  { maxData, window := min window maxWindow, maxWindow }

/-- `FlowControl::add_consumed` (flowcontrol.rs:87-89). -/
def addConsumed (f : FlowControl) (n : Nat) : FlowControl := { f with consumed := f.consumed + n }

/-- `FlowControl::should_update_max_data` (flowcontrol.rs:95-99). `none` is the
underflow of `max_data - consumed`. -/
def shouldUpdateMaxData (f : FlowControl) : Option Bool :=
  if f.maxData < f.consumed then none
  else some (f.maxData - f.consumed < f.window / 2)

/-- `FlowControl::max_data_next` (flowcontrol.rs:102-104). -/
def maxDataNext (f : FlowControl) : Nat := f.consumed + f.window

/-- `FlowControl::update_max_data` (flowcontrol.rs:107-110). -/
def updateMaxData (f : FlowControl) (now : Nat) : FlowControl :=
  { f with maxData := f.maxDataNext, lastUpdate := some now }

/-- `FlowControl::set_window` (flowcontrol.rs:123-125). -/
def setWindow (f : FlowControl) (w : Nat) : FlowControl := { f with window := min w f.maxWindow }

/-- `FlowControl::autotune_window` (flowcontrol.rs:115-121). `Instant`
subtraction saturates, as `Nat` subtraction does. -/
def autotuneWindow (f : FlowControl) (now rtt : Nat) : FlowControl :=
  match f.lastUpdate with
  | some last => if now - last < rtt * 2 then f.setWindow (f.window * 2) else f
  | none => f

/-- `FlowControl::ensure_window_lower_bound` (flowcontrol.rs:129-134). -/
def ensureWindowLowerBound (f : FlowControl) (w : Nat) : FlowControl :=
  if w > f.window then f.setWindow w else f

end FlowControl
end Verif.Stream
