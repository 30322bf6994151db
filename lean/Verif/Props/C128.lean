import Verif.Conn.Debt

/-! # C128 — signals about the end of a stream never contradict each other -/

namespace Verif.Props.C128
open Verif Verif.Stream Verif.Conn Verif.Conn.Conn

/-- The final size of a stream as a frame gives it. -/
def sizeOf (id : Nat) : Frame → Option Nat
  | .stream i off len true => if i = id then some (off + len) else none
  | .reset i _ F => if i = id then some F else none
  | _ => none

/-- The end of the data of a stream in a frame. -/
def endOf (id : Nat) : Frame → Option Nat
  | .stream i off len _ => if i = id then some (off + len) else none
  | _ => none

/-- The error code for a stream in a STOP_SENDING frame. -/
def stopOf (id : Nat) : Frame → Option Nat
  | .stop i code => if i = id then some code else none
  | _ => none

/-- The error code for a stream in a RESET_STREAM frame. -/
def resetOf (id : Nat) : Frame → Option Nat
  | .reset i code _ => if i = id then some code else none
  | _ => none

theorem size_settled {c : Conn} {d : Debt} (hC : Ctl c d) {id F : Nat} {f : Frame} (hf : f ∈ d.log) (hs : sizeOf id f = some F) :
    ∃ s, c.look id = some s ∧ Settled s F := by
  rw [hC.log] at hf
  unfold sizeOf at hs
  split at hs
  · split at hs
    · next e => cases hs; subst e; exact hC.ffin _ _ _ hf
    · cases hs
  · split at hs
    · next e => cases hs; subst e; exact hC.fsize _ _ _ (.inl hf)
    · cases hs
  · cases hs

/-- **C128**, final size: all frames that give a final size of a stream, STREAM frames
with FIN and RESET_STREAM frames, give the same. -/
theorem one_final_size (g : Config) (hd : 0 < g.factorDen) (ops : List Op) (hok : ∀ op ∈ ops, op.Ok) (id F F' : Nat)
    (f f' : Frame) (hf : f ∈ (owed g ops).log) (hf' : f' ∈ (owed g ops).log) (hs : sizeOf id f = some F)
    (hs' : sizeOf id f' = some F') : F = F' := by
  obtain ⟨c, hC, -⟩ := owed_ctl g hd hok
  obtain ⟨s, h1, h2, -⟩ := size_settled hC hf hs
  obtain ⟨s', h1', h2', -⟩ := size_settled hC hf' hs'
  rw [h1] at h1'; cases h1'
  rw [h2] at h2'; cases h2'; rfl

/-- **C128**, final size: no data is sent beyond it, before or after. -/
theorem data_within (g : Config) (hd : 0 < g.factorDen) (ops : List Op) (hok : ∀ op ∈ ops, op.Ok) (id F e : Nat)
    (f f' : Frame) (hf : f ∈ (owed g ops).log) (hf' : f' ∈ (owed g ops).log) (hs : sizeOf id f = some F)
    (hs' : endOf id f' = some e) : e ≤ F := by
  obtain ⟨c, hC, -⟩ := owed_ctl g hd hok
  obtain ⟨s, h1, -, h2⟩ := size_settled hC hf hs
  rw [hC.log] at hf'
  unfold endOf at hs'
  split at hs'
  · split at hs'
    · next ei =>
      cases hs'; subst ei
      obtain ⟨s', h1', h2'⟩ := hC.fdat _ _ _ _ hf'
      rw [h1] at h1'; cases h1'
      omega
    · cases hs'
  · cases hs'

/-- **C128**, STOP_SENDING: the error code never changes. -/
theorem one_stop_code (g : Config) (hd : 0 < g.factorDen) (ops : List Op) (hok : ∀ op ∈ ops, op.Ok) (id a b : Nat)
    (f f' : Frame) (hf : f ∈ (owed g ops).log) (hf' : f' ∈ (owed g ops).log) (hs : stopOf id f = some a)
    (hs' : stopOf id f' = some b) : a = b := by
  obtain ⟨c, hC, -⟩ := owed_ctl g hd hok
  rw [hC.log] at hf hf'
  have key : ∀ (f : Frame) x, f ∈ c.frames → stopOf id f = some x → Frame.stop id x ∈ c.frames := by
    intro f x h1 h2
    unfold stopOf at h2
    split at h2
    · split at h2
      · next e => cases h2; subst e; exact h1
      · cases h2
    · cases h2
  exact hC.code id a b (.inl (key f a hf hs)) (.inl (key f' b hf' hs'))

/-- The claim for the error code of RESET_STREAM (RFC 9000, 13.3: "The content of a
RESET_STREAM frame MUST NOT change when it is sent again"). -/
def OneResetCode : Prop := ∀ (g : Config) (ops : List Op), 0 < g.factorDen → (∀ op ∈ ops, op.Ok) → ∀ (id a b : Nat) (f f' : Frame),
  f ∈ (owed g ops).log → f' ∈ (owed g ops).log → resetOf id f = some a → resetOf id f' = some b → a = b

/-- The application resets a stream with one code, then the peer asks it to stop. -/
def twice : List Op := [.peerParams { uni := 100, bidiLocal := 100, bidiRemote := 100 } 1000 10 10 1000,
  .send 0 [1, 2, 3] false, .outStream 100, .shutWrite 0 11 1000, .outReset 0 true, .recvStop 0 22, .outReset 0 true]

theorem frames_of_twice : (owed {} twice).log = [.stream 0 0 3 false, .reset 0 11 3, .reset 0 22 3] := by decide +kernel

/-- **C128 fails** for the error code of RESET_STREAM: a second frame with another code is
sent when the peer's STOP_SENDING arrives after the stream was reset. -/
theorem reset_code_changes : ¬ OneResetCode := by
  intro h
  have := h {} twice (by decide) (by simp [twice, Op.Ok]) 0 11 22 (.reset 0 11 3) (.reset 0 22 3)
    (by rw [frames_of_twice]; simp) (by rw [frames_of_twice]; simp) rfl rfl
  cases this

/-- A stream ended with FIN and then reset, all of it repeated: one final size. -/
example : (owed {} [.peerParams { uni := 100, bidiLocal := 100, bidiRemote := 100 } 1000 10 10 1000,
    .send 0 [1, 2, 3] true, .outStream 100, .lost 0, .outStream 100, .recvStop 0 5, .outReset 0 true, .lost 2,
    .outReset 0 true]).log.map (sizeOf 0) = [some 3, some 3, some 3, some 3] := by decide +kernel

end Verif.Props.C128
