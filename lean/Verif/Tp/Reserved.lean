import Verif.Tp.Model
import Verif.Packet.Header

/-!
What is taken for a reserved identifier: transport parameters (transport_params.rs) and versions
(lib.rs).
-/

namespace Verif.Tp

/-- `UnknownTransportParameter::is_reserved` (transport_params.rs:67-70); nothing if the subtraction
overflows, which panics in builds with overflow checks. -/
def isReserved (id : Nat) : Option Bool :=
  if 27 ≤ id then
    let n := (id - 27) / 31
    some (id == 31 * n + 27)
  else none

/-- The same in builds without overflow checks: arithmetic modulo `2 ^ 64`. -/
def isReservedWrapping (id : Nat) : Bool :=
  let n := (id + 2 ^ 64 - 27) % 2 ^ 64 / 31
  id == (31 * n + 27) % 2 ^ 64

/-- `RESERVED_VERSION_MASK` (lib.rs:482). -/
abbrev reservedVersionMask : Nat := 0xfafafafa

/-- `is_reserved_version` (lib.rs:611-613). -/
def isReservedVersion (v : Nat) : Bool := (v &&& reservedVersionMask) == v

/-- `Config::with_tls_ctx` (lib.rs:643-646): the version the configuration has. -/
def configNew (v : Nat) : Except Verif.Packet.Err Nat :=
  if !isReservedVersion v && !Verif.Packet.versionIsSupported v then .error .unknownVersion else .ok v

end Verif.Tp
