/-!
Model of the task killswitch (`/repo/task-killswitch/src/lib.rs`; lines below are of that file): threads that spawn
tasks, the tasks, and the thread that kills them, interleaved.

* A step is what happens under one lock of a shard of the map, or one access to the flag. (`Relaxed` suffices, since
  the flag is set before the killing thread is started and looked at under the lock of the shard.)
* Of a task only matters whether it was ever polled (only then there is a guard, 109-112), whether it was told to abort,
  and whether it is gone. tokio drops an aborted task some time later.
* Task numbers are not used twice.
-/

namespace Verif.Tq.Kill

/-- `TaskEntry` (153-159). -/
inductive Entry where
  | handle
  | tombstone
  deriving DecidableEq, Repr

/-- Where the call of `spawn_task` for a task is (101-125). -/
inductive Call where
  | idle
  /-- the flag was not set (104-106) -/
  | checked
  /-- `tokio::spawn` was called (109-114) -/
  | spawned
  /-- returned the number of the task (124) -/
  | some
  /-- returned `None` before anything was spawned (105) -/
  | refused
  /-- returned `None` after aborting the task (119-123) -/
  | aborted
  deriving DecidableEq, Repr

/-- A task: its call of `spawn_task`, its entry in the map, and its state in tokio. -/
structure Loc where
  call : Call := .idle
  entry : Option Entry := none
  polled : Bool := false
  aborted : Bool := false
  gone : Bool := false
  deriving DecidableEq, Repr

/-- The switch (56-70), the killing thread (127-143) and the tasks. `killer`: the next shard for the killing thread, once it exists. `signal`: `signal_killed` was dropped. -/
structure State where
  activated : Bool := false
  killer : Option Nat := none
  signal : Bool := false
  loc : Nat → Loc := fun _ => {}

inductive Ev where
  | check (id : Nat)
  | spawn (id : Nat)
  | add (id : Nat)
  /-- the task is polled for the first time -/
  | poll (id : Nat)
  /-- the task has finished, panicked, or is dropped after being aborted -/
  | leave (id : Nat)
  | activate
  /-- the killing thread goes on -/
  | kill
  deriving DecidableEq

def State.set (s : State) (id : Nat) (l : Loc) : State := { s with loc := fun j => if j = id then l else s.loc j }

/-- `add_task_if` (176-198), and what `spawn_task` does with the result (118-124); `none` is the panic. -/
def Loc.add (l : Loc) (activated : Bool) : Option Loc :=
  match l.entry with
  | none => if activated then some { l with call := .aborted, aborted := true } else some { l with call := .some, entry := some .handle }
  | some .tombstone => some { l with call := .some, entry := none }
  | some .handle => none

/-- `remove_task` (200-213), by the guard (45-52). -/
def Loc.remove (l : Loc) : Loc :=
  match l.entry with
  | none => { l with entry := some .tombstone }
  | some .tombstone => l
  | some .handle => { l with entry := none }

/-- `kill_all` for an entry of a shard (167-174). -/
def Loc.kill (l : Loc) : Loc := { l with entry := none, aborted := l.aborted || l.entry = some .handle }

/-- One step; steps that are not possible change nothing. `none`: panic. -/
def State.step (n : Nat) (shard : Nat → Nat) (s : State) : Ev → Option State
  | .check id => if (s.loc id).call = .idle then some (s.set id { s.loc id with call := if s.activated then .refused else .checked }) else some s
  | .spawn id => if (s.loc id).call = .checked then some (s.set id { s.loc id with call := .spawned }) else some s
  | .add id => if (s.loc id).call = .spawned then ((s.loc id).add s.activated).map (s.set id) else some s
  | .poll id =>
    if (s.loc id).call ∈ [.spawned, .some, .aborted] ∧ (s.loc id).aborted = false ∧ (s.loc id).gone = false then some (s.set id { s.loc id with polled := true })
    else some s
  | .leave id =>
    if (s.loc id).call ∈ [.spawned, .some, .aborted] ∧ (s.loc id).gone = false ∧ ((s.loc id).polled ∨ (s.loc id).aborted) then
      let l := { s.loc id with gone := true }
      some (s.set id (if l.polled then l.remove else l))
    else some s
  | .activate => if s.activated then none else some { s with activated := true, killer := some 0 }
  | .kill => match s.killer with
    | none => some s
    | some k =>
      if k < n then some { s with killer := some (k + 1), loc := fun id => if shard id = k then (s.loc id).kill else s.loc id }
      else some { s with signal := true }

def State.run (n : Nat) (shard : Nat → Nat) (s : State) : List Ev → Option State
  | [] => some s
  | e :: l => (s.step n shard e).bind fun s => s.run n shard l

end Verif.Tq.Kill
