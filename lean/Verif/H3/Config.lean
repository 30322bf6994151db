import Verif.H3.Frame

/-!
Model of `h3::Config` and of the SETTINGS frame made from it
(`/repo/quiche/src/h3/mod.rs`). The random numbers of `grease_value` are arguments.
-/

namespace Verif.H3
open Verif

/-- `Config` (h3/mod.rs:577-587), but for `max_priority_update_size`, which is not sent. -/
structure Config where
  maxFieldSectionSize : Option Nat
  qpackMaxTableCapacity : Option Nat
  qpackBlockedStreams : Option Nat
  connectProtocolEnabled : Option Nat
  additional : Option (List (Nat × Nat))
  deriving DecidableEq, Repr

/-- `Config::new` (h3/mod.rs:591-601); the default of the size of header sections is at
h3/mod.rs:347. -/
def Config.new : Config := ⟨some 32768, none, none, none, none⟩

/-- The setters (h3/mod.rs:619-646). The arguments are `u64`. -/
def Config.setMaxFieldSectionSize (c : Config) (v : Nat) : Config :=
  { c with maxFieldSectionSize := some v }

def Config.setQpackMaxTableCapacity (c : Config) (v : Nat) : Config :=
  { c with qpackMaxTableCapacity := some v }

def Config.setQpackBlockedStreams (c : Config) (v : Nat) : Config :=
  { c with qpackBlockedStreams := some v }

def Config.enableExtendedConnect (c : Config) (on : Bool) : Config :=
  { c with connectProtocolEnabled := if on then some 1 else none }

/-- The settings handled by the library (h3/mod.rs:670-677). -/
def explicitSettings : List Nat :=
  [sQpackMaxTableCapacity, sMaxFieldSectionSize, sQpackBlockedStreams, sEnableConnectProtocol,
    sDatagram, sDatagram00]

/-- No element twice: the set has as many elements as the list (h3/mod.rs:679-682). -/
def noDup : List Nat → Bool
  | [] => true
  | a :: l => !l.contains a && noDup l

/-- `set_additional_settings` (h3/mod.rs:667-689). -/
def Config.setAdditional (c : Config) (l : List (Nat × Nat)) : Except Err Config :=
  if !noDup (l.map (·.1)) || explicitSettings.any (fun i => (l.map (·.1)).contains i) then
    .error .settingsError
  else .ok { c with additional := some l }

/-- `grease_value` (h3/mod.rs:3363-3366); `n` is the random number. -/
def greaseValue (n : Nat) : Nat := 31 * n + 33

/-- The bound of the random number (h3/mod.rs:3364). -/
def greaseBound : Nat := 148764065110560899

/-- The frame of `send_settings` (h3/mod.rs:2520-2539, with 1038 and 1049-1057). `rnd` are the
random numbers, if the transport is configured to send unknown values. -/
def Config.frame (c : Config) (dgram : Bool) (rnd : Option (Nat × Nat)) : Settings where
  maxFieldSectionSize := c.maxFieldSectionSize
  qpackMaxTableCapacity := c.qpackMaxTableCapacity
  qpackBlockedStreams := c.qpackBlockedStreams
  connectProtocolEnabled := c.connectProtocolEnabled
  h3Datagram := if dgram then some 1 else none
  grease := rnd.map (fun r => (greaseValue r.1, greaseValue r.2))
  additional := c.additional
  raw := none

/-- The buffer the frame is written to, and what of it is given to the transport
(h3/mod.rs:2541-2549). -/
def Config.sent (c : Config) (dgram : Bool) (rnd : Option (Nat × Nat)) : Except Err Bytes :=
  match toBytes (.settings (c.frame dgram rnd)) ⟨List.replicate 128 42, 0⟩ with
  | (.error e, _) => .error e
  | (.ok (), b) => .ok (b.buf.take b.off)

end Verif.H3
