import Verif.Conn.Tls

/-!
Derivation of packet protection keys (`/repo/quiche/src/crypto/mod.rs`, `crypto/boringssl.rs`), and
sealing of packets with them in one sequence of packet numbers (`/repo/quiche/src/lib.rs`).

HKDF is a parameter. Setting up a cipher from a key of the right length is taken to succeed.
-/

namespace Verif.Keys
open Verif.Tls (Str Alg Level Epoch)

/-- Hash functions (`get_evp_digest`, crypto/mod.rs:78-84). -/
inductive Md where
  | sha256 | sha384
  deriving DecidableEq, Repr

def md : Alg → Md
  | .aes128 => .sha256
  | .aes256 => .sha384
  | .chacha => .sha256

/-- `key_len` (crypto/mod.rs:86-92). -/
def keyLen : Alg → Nat
  | .aes128 => 16
  | .aes256 => 32
  | .chacha => 32

/-- `nonce_len` (crypto/mod.rs:106-112). -/
def nonceLen : Alg → Nat
  | .aes128 => 12
  | .aes256 => 12
  | .chacha => 12

/-- `hkdf_extract` and `hkdf_expand` (crypto/boringssl.rs:278-330), the latter with the length asked
for; `none`: the library fails. -/
structure Hkdf where
  extract : Md → Str → Str → Option Str
  expand : Md → Str → Str → Nat → Option Str

/-- The bytes of a label. -/
def ascii (s : String) : Str := s.toList.map Char.toNat

/-- The input of HKDF in `hkdf_expand_label` (crypto/mod.rs:482-489). -/
def info (label : Str) (len : Nat) : Str :=
  [len % 65536 / 256, len % 256] ++ [(6 + label.length) % 256] ++ [116, 108, 115, 49, 51, 32] ++ label ++ [0]

/-- `hkdf_expand_label` (crypto/mod.rs:477-494). -/
def expandLabel (h : Hkdf) (a : Alg) (prk label : Str) (len : Nat) : Option Str :=
  h.expand (md a) prk (info label len) len

/-- `derive_initial_secret` (crypto/mod.rs:398-413): the same salt for every version. -/
def salt : Str :=
  [0x38, 0x76, 0x2c, 0xf7, 0xf5, 0x59, 0x34, 0xb3, 0x4d, 0x17, 0x9a, 0xe6, 0xa4, 0xc8, 0x0c, 0xad, 0xcc, 0xbb, 0x7f, 0x0a]

def initialSecret (h : Hkdf) (cid : Str) (_version : Nat) : Option Str := h.extract (md .aes128) salt cid

/-- `derive_hdr_key`, `derive_pkt_key`, `derive_pkt_iv`, `derive_next_secret` (crypto/mod.rs:429-475)
with buffers of the right length. -/
def hdrKey (h : Hkdf) (a : Alg) (secret : Str) : Option Str := expandLabel h a secret (ascii "quic hp") (keyLen a)
def pktKey (h : Hkdf) (a : Alg) (secret : Str) : Option Str := expandLabel h a secret (ascii "quic key") (keyLen a)
def pktIv (h : Hkdf) (a : Alg) (secret : Str) : Option Str := expandLabel h a secret (ascii "quic iv") (nonceLen a)
def nextSecret (h : Hkdf) (a : Alg) (secret : Str) : Option Str := expandLabel h a secret (ascii "quic ku") secret.length

/-- `Open` and `Seal` (crypto/mod.rs:128-136, 210-218). -/
structure Keys where
  alg : Alg
  secret : Str
  hp : Str
  key : Str
  iv : Str
  /-- a first packet was sealed when the key was made -/
  primed : Bool
  deriving DecidableEq, Repr

/-- `PacketKey::from_secret` (crypto/boringssl.rs:58-82). -/
def packetKey (h : Hkdf) (a : Alg) (secret : Str) : Option (Str × Str) :=
  match pktKey h a secret with
  | none => none
  | some key =>
    match pktIv h a secret with
    | none => none
    | some iv => some (key, iv)

/-- `Open::from_secret`, `Seal::from_secret` (crypto/mod.rs:158-168, 240-250). -/
def fromSecret (h : Hkdf) (a : Alg) (secret : Str) : Option Keys :=
  match hdrKey h a secret with
  | none => none
  | some hp =>
    match packetKey h a secret with
    | none => none
    | some (key, iv) => some { alg := a, secret := secret, hp := hp, key := key, iv := iv, primed := true }

/-- `Open::new`, `Seal::new` after the three derivations (crypto/mod.rs:370-385): a key, an IV, and a
key for header protection. -/
def fresh (h : Hkdf) (a : Alg) (secret : Str) : Option Keys :=
  match pktKey h a secret with
  | none => none
  | some key =>
    match pktIv h a secret with
    | none => none
    | some iv =>
      match hdrKey h a secret with
      | none => none
      | some hp => some { alg := a, secret := secret, hp := hp, key := key, iv := iv, primed := false }

/-- `derive_next_packet_key` (crypto/mod.rs:183-198, 274-289). -/
def Keys.next (h : Hkdf) (k : Keys) : Option Keys :=
  match nextSecret h k.alg k.secret with
  | none => none
  | some s =>
    match packetKey h k.alg s with
    | none => none
    | some (key, iv) => some { k with secret := s, key := key, iv := iv, primed := true }

/-- `derive_initial_key_material` (crypto/mod.rs:328-396): the keys for opening and for sealing. -/
def initial (h : Hkdf) (cid : Str) (version : Nat) (isServer didReset : Bool) : Option (Keys × Keys) :=
  match initialSecret h cid version with
  | none => none
  | some prk =>
    match expandLabel h .aes128 prk (ascii "client in") 32 with
    | none => none
    | some client =>
      match expandLabel h .aes128 prk (ascii "server in") 32 with
      | none => none
      | some server =>
        let make := if didReset then fromSecret h .aes128 else fresh h .aes128
        match make client, make server with
        | some c, some s => if isServer then some (c, s) else some (s, c)
        | _, _ => none

/-! ### Sealing -/

/-- An AEAD context of the TLS library. Those of AES-GCM (`EVP_aead_aes_128_gcm_tls13`,
`EVP_aead_aes_256_gcm_tls13`, crypto/boringssl.rs:28-38) take the first nonce for that of packet 0 and
refuse nonces that do not grow; this is BoringSSL's rule, of which crypto/boringssl.rs:71-77 speaks. -/
structure Ctx where
  strict : Bool
  first : Bool := true
  mask : Nat := 0
  minNext : Nat := 0
  deriving DecidableEq, Repr

def Ctx.new (a : Alg) : Ctx := { strict := decide (a ≠ .chacha) }

/-- `EVP_AEAD_CTX_seal_scatter` as far as nonces go: the last eight bytes of the nonce are those of the
IV, here a number, with the packet number (`make_nonce`, crypto/mod.rs:496-507). -/
def Ctx.encrypt (c : Ctx) (iv pn : Nat) : Bool × Ctx :=
  if c.strict then
    let given := iv ^^^ pn
    let c := if c.first then { c with mask := given, first := false } else c
    let n := given ^^^ c.mask
    if n = 2 ^ 64 - 1 ∨ n < c.minNext then (false, c) else (true, { c with minNext := n + 1 })
  else (true, c)

/-- A key for sealing. -/
structure K where
  iv : Nat
  ctx : Ctx
  deriving DecidableEq, Repr

def K.fresh (a : Alg) (iv : Nat) : K := { iv := iv, ctx := Ctx.new a }

/-- The dummy seal operation of `PacketKey::from_secret` (crypto/boringssl.rs:71-79). -/
def K.primed (a : Alg) (iv : Nat) : K := { iv := iv, ctx := ((Ctx.new a).encrypt iv 0).2 }

/-- The keys of a connection, by number, its packet number, and what was sent: packet numbers and
keys, latest first. -/
structure S where
  next : Nat := 0
  ks : List K
  sent : List (Nat × Nat) := []
  failed : Nat := 0
  /-- `draining_timer` is set -/
  draining : Bool := false
  deriving DecidableEq, Repr

/-- What happens: a key is derived from a secret, or replaced by one (key update, Retry, Version
Negotiation); a packet is sent with a key, with or without CONNECTION_CLOSE; a packet number is left
out (lib.rs:4389-4392, only when the handshake is completed). -/
inductive Op where
  | install (a : Alg) (iv : Nat)
  | replace (i : Nat) (a : Alg) (iv : Nat)
  | send (i : Nat) (close : Bool)
  | skip
  deriving DecidableEq, Repr

/-- Sending a packet (lib.rs:4106-4108, 4393, 4997-5004, 5422-5436, 5466): nothing while draining; with
CONNECTION_CLOSE the connection is draining before the packet is sealed; the packet number is used up
only if sealing succeeds. -/
def S.send (s : S) (i : Nat) (close : Bool) : S :=
  if s.draining then s
  else
    match s.ks[i]? with
    | none => s
    | some k =>
      let s := { s with draining := close }
      match k.ctx.encrypt k.iv s.next with
      | (false, c) => { s with ks := s.ks.set i { k with ctx := c }, failed := s.failed + 1 }
      | (true, c) => { s with ks := s.ks.set i { k with ctx := c }, next := s.next + 1, sent := (s.next, i) :: s.sent }

def S.step (s : S) : Op → S
  | .install a iv => { s with ks := s.ks ++ [K.primed a iv] }
  | .replace i a iv => { s with ks := s.ks.set i (K.primed a iv) }
  | .send i close => s.send i close
  | .skip => if s.sent = [] then s else { s with next := s.next + 1 }

def S.run (s : S) (l : List Op) : S := l.foldl S.step s

/-- A new connection with keys for Initial packets (`did_reset` is false, lib.rs:2252-2257, 3191-3196);
the IV is any number. -/
def S.new (iv : Nat) : S := { ks := [K.fresh .aes128 iv] }

/-- The space of a CONNECTION_CLOSE for an error of the transport (`write_pkt_type`, lib.rs:8157-8186);
`none`: unreachable. -/
def closeSpace (level : Level) (confirmed initialKeys : Bool) : Option Epoch :=
  match level with
  | .initial => some .initial
  | .zeroRtt => none
  | .handshake => if !confirmed && initialKeys then some .initial else some .handshake
  | .oneRtt => if !confirmed then some .handshake else some .application

end Verif.Keys
