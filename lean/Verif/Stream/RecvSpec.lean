import Verif.Stream.RecvInv

/-!
Histories of one receiving stream, as seen from outside: frames arriving, reads by
the application, window updates. `step` mirrors what `lib.rs` does with a
`RecvBuf` on each of these occasions; the functions after it are computed from the
list of observable events alone and are what the properties are stated with.
-/

namespace Verif.Stream.RecvBuf
open Verif

inductive ROp where
  /-- a STREAM frame arrives -/
  | write (off : Nat) (data : Bytes) (fin : Bool)
  /-- the application reads or discards up to `cap` bytes -/
  | read (cap : Nat)
  /-- a RESET_STREAM frame arrives -/
  | reset (code finalSize : Nat)
  /-- the application shuts the stream down for reading -/
  | shutdown
  /-- a packet is being built; `fits` tells whether MAX_STREAM_DATA fits into it -/
  | send (now rtt : Nat) (fits : Bool)
  /-- a packet with a MAX_STREAM_DATA frame of this stream is declared lost -/
  | lost
  deriving DecidableEq, Repr

/-- Observable outcome of one step. -/
inductive REv where
  /-- STREAM frame accepted; `charge` is what the connection adds to its received
  data and `back` what it adds to its consumed data -/
  | wrote (off : Nat) (data : Bytes) (fin : Bool) (charge back : Nat)
  /-- a STREAM frame was answered with an error (the connection is closed) -/
  | rejected (e : QErr)
  /-- a RESET_STREAM frame was answered with an error (the connection is closed) -/
  | resetRejected (e : QErr)
  | got (data : Bytes) (fin : Bool)
  | readErr (e : QErr)
  /-- RESET_STREAM accepted -/
  | resetOk (code finalSize charge back : Nat)
  | shut (back : Nat)
  /-- MAX_STREAM_DATA sent -/
  | advert (max : Nat)
  | idle
  /-- the code would have panicked -/
  | panic
  deriving DecidableEq, Repr

structure RSt where
  r : RecvBuf
  /-- the stream is in `StreamMap::almost_full` -/
  pending : Bool := false
  /-- the connection is being closed because of an invalid frame: no packet is
  processed (lib.rs:2973-2977) and no window update sent (lib.rs:4706) any more, but
  the application may go on calling the stream API -/
  dead : Bool := false
  deriving DecidableEq, Repr

/-- One step, following `process_frame` for STREAM (lib.rs:8541-8597) and
RESET_STREAM (lib.rs:8364-8418) without the connection-level limit,
`stream_recv`/`stream_discard` (lib.rs:5778-5826), `stream_shutdown`
(lib.rs:6243-6257), MAX_STREAM_DATA (lib.rs:4815-4856, 4251-4255). -/
def step (s : RSt) (op : ROp) : RSt × REv :=
  match op with
  | .write off data fin =>
    if s.dead then (s, .idle) else
    let charge := off + data.length - s.r.len
    match s.r.write (.mk' data off fin) with
    | (.ok (), r) => ({ s with r }, .wrote off data fin charge (if s.r.drain then charge else 0))
    | (.error .panic, r) => ({ s with r, dead := true }, .panic)
    | (.error e, r) => ({ s with r, dead := true }, .rejected e)
  | .read cap =>
    match s.r.emit cap with
    | (.ok (out, fin), r) =>
      match r.almostFull with
      | none => ({ s with r, dead := true }, .panic)
      | some af => ({ s with r, pending := s.pending || af }, .got out fin)
    | (.error e, r) => ({ s with r }, .readErr e)
  | .reset code F =>
    if s.dead then (s, .idle) else
    match s.r.reset code F with
    | (.ok ret, r) => ({ s with r }, .resetOk code F ret.maxDataDelta ret.consumed)
    | (.error .panic, r) => ({ s with r, dead := true }, .panic)
    | (.error e, r) => ({ s with r, dead := true }, .resetRejected e)
  | .shutdown =>
    match s.r.shutdown with
    | (.ok n, r) => ({ s with r }, .shut n)
    | (.error .panic, r) => ({ s with r, dead := true }, .panic)
    | (.error _, r) => ({ s with r }, .idle)
  | .send now rtt fits =>
    if s.dead then (s, .idle)
    else if s.pending then
      match s.r.almostFull with
      | none => ({ s with dead := true }, .panic)
      | some af =>
        let r := if af then s.r.autotuneWindow now rtt else s.r
        if fits then ({ s with r := r.updateMaxData now, pending := false }, .advert r.flowControl.maxDataNext)
        else ({ s with r }, .idle)
    else (s, .idle)
  | .lost =>
    -- only a frame that was sent can be lost
    if s.dead then (s, .idle)
    else if s.r.flowControl.lastUpdate.isSome then ({ s with pending := true }, .idle) else (s, .idle)

/-- Runs a history, returning the events in order. -/
def run : RSt → List ROp → RSt × List REv
  | s, [] => (s, [])
  | s, op :: ops =>
    let (s1, e) := step s op
    let (s2, es) := run s1 ops
    (s2, e :: es)

/-- A fresh stream. -/
def start (maxData window maxWindow : Nat) : RSt := { r := new maxData window maxWindow }

/-! ### What the events say -/

/-- Everything the application has read so far. -/
def delivered : List REv → Bytes
  | [] => []
  | .got bs _ :: t => bs ++ delivered t
  | _ :: t => delivered t

/-- The byte for offset `o` in the first accepted frame that covers it. -/
def firstByte : List REv → Nat → Option UInt8
  | [], _ => none
  | .wrote off data _ _ _ :: t, o =>
    if off ≤ o ∧ o < off + data.length then data[o - off]? else firstByte t o
  | _ :: t, o => firstByte t o

/-- The final size an event states, if it does. -/
def REv.final : REv → Option Nat
  | .wrote off data true _ _ => some (off + data.length)
  | .resetOk _ F _ _ => some F
  | _ => none

/-- The final size of the stream as first stated by the peer. -/
def finalSize : List REv → Option Nat
  | [] => none
  | e :: t => e.final.or (finalSize t)

/-- One past the last byte (or end of stream) an event tells about. -/
def REv.reach : REv → Nat
  | .wrote off data fin _ _ => if data = [] ∧ fin = false then 0 else off + data.length
  | .resetOk _ F _ _ => F
  | _ => 0

def highest : List REv → Nat
  | [] => 0
  | e :: t => max e.reach (highest t)

/-- The limit in force after the events, starting from `m`. -/
def limit (m : Nat) : List REv → Nat
  | [] => m
  | .advert n :: t => limit n t
  | _ :: t => limit m t

/-- What the connection charged for the stream. -/
def charged : List REv → Nat
  | [] => 0
  | .wrote _ _ _ c _ :: t => c + charged t
  | .resetOk _ _ c _ :: t => c + charged t
  | _ :: t => charged t

/-- What was reported as consumed to the connection for the stream. -/
def returned : List REv → Nat
  | [] => 0
  | .wrote _ _ _ _ b :: t => b + returned t
  | .resetOk _ _ _ b :: t => b + returned t
  | .got bs _ :: t => bs.length + returned t
  | .shut b :: t => b + returned t
  | _ :: t => returned t

/-- The peer reset the stream, with the code of the first reset. -/
def wasReset : List REv → Option Nat
  | [] => none
  | .resetOk c _ _ _ :: _ => some c
  | _ :: t => wasReset t

def wasShut : List REv → Bool
  | [] => false
  | .shut _ :: _ => true
  | _ :: t => wasShut t

/-- The application has been told about the end of the stream. -/
def finTold : List REv → Bool
  | [] => false
  | .got _ true :: _ => true
  | _ :: t => finTold t

def REv.isReject : REv → Bool
  | .rejected _ => true
  | .resetRejected _ => true
  | _ => false

/-! ### Appending an event -/

theorem run_append (s : RSt) (ops : List ROp) (op : ROp) :
    run s (ops ++ [op]) = ((step (run s ops).1 op).1, (run s ops).2 ++ [(step (run s ops).1 op).2]) := by
  induction ops generalizing s with
  | nil => simp [run]
  | cons a t ih => simp [run, ih]

theorem delivered_append (es es' : List REv) : delivered (es ++ es') = delivered es ++ delivered es' := by
  induction es with
  | nil => rfl
  | cons e t ih => cases e <;> simp [delivered, ih]

theorem firstByte_append (es es' : List REv) (o : Nat) :
    firstByte (es ++ es') o = (firstByte es o).or (firstByte es' o) := by
  induction es with
  | nil => simp [firstByte]
  | cons e t ih =>
    cases e with
    | wrote off data fin c b =>
      simp only [List.cons_append, firstByte, ih]
      split
      · rename_i h
        rw [List.getElem?_eq_getElem (by omega)]; simp
      · rfl
    | _ => simpa [firstByte] using ih

theorem finalSize_append (es es' : List REv) : finalSize (es ++ es') = (finalSize es).or (finalSize es') := by
  induction es with
  | nil => simp [finalSize]
  | cons e t ih => simp [finalSize, ih, Option.or_assoc]

theorem highest_append (es es' : List REv) : highest (es ++ es') = max (highest es) (highest es') := by
  induction es with
  | nil => simp [highest]
  | cons e t ih => simp [highest, ih]

theorem limit_append (m : Nat) (es es' : List REv) : limit m (es ++ es') = limit (limit m es) es' := by
  induction es generalizing m with
  | nil => rfl
  | cons e t ih => cases e <;> simp [limit, ih]

theorem charged_append (es es' : List REv) : charged (es ++ es') = charged es + charged es' := by
  induction es with
  | nil => simp [charged]
  | cons e t ih => cases e <;> simp [charged, ih] <;> omega

theorem returned_append (es es' : List REv) : returned (es ++ es') = returned es + returned es' := by
  induction es with
  | nil => simp [returned]
  | cons e t ih => cases e <;> simp [returned, ih] <;> omega

theorem wasReset_append (es es' : List REv) : wasReset (es ++ es') = (wasReset es).or (wasReset es') := by
  induction es with
  | nil => simp [wasReset]
  | cons e t ih => cases e <;> simp [wasReset, ih]

theorem wasShut_append (es es' : List REv) : wasShut (es ++ es') = (wasShut es || wasShut es') := by
  induction es with
  | nil => simp [wasShut]
  | cons e t ih => cases e <;> simp [wasShut, ih]

theorem finTold_append (es es' : List REv) : finTold (es ++ es') = (finTold es || finTold es') := by
  induction es with
  | nil => simp [finTold]
  | cons e t ih =>
    cases e with
    | got bs f => cases f <;> simp [finTold, ih]
    | _ => simpa [finTold] using ih

end Verif.Stream.RecvBuf
