
/-!
The application protocols of `/repo/quiche/src/lib.rs` and `/repo/quiche/src/tls/mod.rs`, and the
callbacks that the TLS library makes during the handshake (`tls/mod.rs`).

The TLS library decides what it calls and when; whether it takes a list of protocols (`takes`) and
whether keys can be derived from a secret (`derives`) are parameters. Pointers to the connection that
are missing (`ExData::from_ssl_ptr` giving `None`, every callback then fails) are not modelled: the
pointer is set around every call of the library (tls/mod.rs:518-560).
-/

namespace Verif.Tls

/-- Bytes are numbers below 256. -/
abbrev Str := List Nat

/-- `Octets::get_bytes_with_u8_length` (octets/src/lib.rs:230-233): a protocol and what follows. -/
def next : Str → Option (Str × Str)
  | [] => none
  | n :: b => if b.length < n then none else some (b.take n, b.drop n)

/-- `while let Ok(proto) = b.get_bytes_with_u8_length()` (lib.rs:875-879, tls/mod.rs:963), `fuel` at
least the number of bytes. -/
def protos : Nat → Str → List Str
  | 0, _ => []
  | fuel + 1, b =>
    match next b with
    | none => []
    | some (p, rest) => p :: protos fuel rest

/-- All protocols of a list in wire format. -/
def parse (b : Str) : List Str := protos b.length b

/-- The list that `set_alpn` gives to the TLS library (tls/mod.rs:303-308): `proto.len() as u8`. -/
def wire : List Str → Str
  | [] => []
  | p :: l => p.length % 256 :: p ++ wire l

/-- What a configuration has about protocols: the list of the server (`Config.application_protos`,
copied into a connection, lib.rs:2088), and the list that the TLS library sends as a client. -/
structure Cfg where
  protos : List Str := []
  offer : Str := []
  /-- `SSL_CTX_set_alpn_select_cb` was called -/
  select : Bool := false
  deriving DecidableEq, Repr

/-- `Config::set_application_protos` (lib.rs:844-851, tls/mod.rs:302-327): success, and the
configuration. -/
def Cfg.set (takes : Str → Bool) (c : Cfg) (l : List Str) : Bool × Cfg :=
  let c := { c with protos := l, select := true }
  if takes (wire l) then (true, { c with offer := wire l }) else (false, c)

/-- `Config::set_application_protos_wire_format` (lib.rs:868-882). -/
def Cfg.setWire (takes : Str → Bool) (c : Cfg) (b : Str) : Bool × Cfg := c.set takes (parse b)

/-- `application_protos.iter().any(..)` of `select_alpn` (tls/mod.rs:964-982): the bytes and the
length (`expected.len() as u8`) given to the TLS library. -/
def find (p : Str) : List Str → Option (Str × Nat)
  | [] => none
  | e :: l => if e.length = p.length ∧ e = p then some (e, e.length % 256) else find p l

/-- The loop of `select_alpn` (tls/mod.rs:963-987). -/
def selectLoop (mine : List Str) : Nat → Str → Option (Str × Nat)
  | 0, _ => none
  | fuel + 1, b =>
    match next b with
    | none => none
    | some (p, rest) =>
      match find p mine with
      | some r => some r
      | none => selectLoop mine fuel rest

/-- `select_alpn` (tls/mod.rs:937-990): the protocol, or an error that ends the handshake. -/
def select (mine : List Str) (inp : Str) : Option (Str × Nat) :=
  if mine = [] then none else selectLoop mine inp.length inp

/-- What the server's connection then reports (`application_proto`, lib.rs; `alpn_protocol`,
tls/mod.rs:495-507): the bytes that the callback pointed to, as many as it said. -/
def chosen (mine : List Str) (inp : Str) : Option Str :=
  (select mine inp).map fun r => r.1.take r.2

/-! ### Callbacks -/

/-- `crypto::Level` (crypto/mod.rs:37-43). -/
inductive Level where
  | initial | zeroRtt | handshake | oneRtt
  deriving DecidableEq, Repr

/-- `packet::Epoch` (packet.rs:67-74). -/
inductive Epoch where
  | initial | handshake | application
  deriving DecidableEq, Repr

/-- The packet number space of a level (tls/mod.rs:770-778, 820-828). -/
def Level.space : Level → Epoch
  | .initial => .initial
  | .zeroRtt => .application
  | .handshake => .handshake
  | .oneRtt => .application

/-- `crypto::Algorithm` (crypto/mod.rs:62-72). -/
inductive Alg where
  | aes128 | aes256 | chacha
  deriving DecidableEq, Repr

/-- `get_cipher_from_ptr` (tls/mod.rs:744-756). -/
def cipher (id : Nat) : Option Alg :=
  if id = 0x03001301 then some .aes128
  else if id = 0x03001302 then some .aes256
  else if id = 0x03001303 then some .chacha
  else none

/-- Keys: the algorithm and the secret they are derived from. -/
structure Key where
  alg : Alg
  secret : Str
  deriving DecidableEq, Repr

/-- `CryptoContext` (packet.rs:915-921), without key update. -/
structure Space where
  opn : Option Key := none
  opn0 : Option Key := none
  sealing : Option Key := none
  /-- everything written to the CRYPTO stream -/
  out : Str := []
  deriving DecidableEq, Repr

/-- `ConnectionError` (lib.rs). -/
structure Err where
  isApp : Bool
  code : Nat
  reason : Str
  deriving DecidableEq, Repr

/-- What the callbacks change (`ExData`, tls/mod.rs:695-718). -/
structure St where
  server : Bool
  ini : Space := {}
  hs : Space := {}
  app : Space := {}
  err : Option Err := none
  /-- what was written to the key log, if there is one -/
  log : Option Str := none
  /-- `unreachable!()` was reached -/
  panicked : Bool := false
  deriving DecidableEq, Repr

/-- `crypto_ctx[epoch]`. -/
def St.get (s : St) : Epoch → Space
  | .initial => s.ini
  | .handshake => s.hs
  | .application => s.app

def St.put (s : St) (e : Epoch) (x : Space) : St :=
  match e with
  | .initial => { s with ini := x }
  | .handshake => { s with hs := x }
  | .application => { s with app := x }

/-- `set_read_secret` (tls/mod.rs:758-807): whether the TLS library goes on, and the connection. -/
def St.read (derives : Alg → Str → Bool) (s : St) (l : Level) (id : Nat) (secret : Str) : Bool × St :=
  match cipher id with
  | none => (false, s)
  | some alg =>
    if l ≠ .zeroRtt ∨ s.server then
      if derives alg secret then
        let x := s.get l.space
        if l = .zeroRtt then (true, s.put l.space { x with opn0 := some ⟨alg, secret⟩ })
        else (true, s.put l.space { x with opn := some ⟨alg, secret⟩ })
      else (false, s)
    else (true, s)

/-- `set_write_secret` (tls/mod.rs:809-851). -/
def St.write (derives : Alg → Str → Bool) (s : St) (l : Level) (id : Nat) (secret : Str) : Bool × St :=
  match cipher id with
  | none => (false, s)
  | some alg =>
    if l ≠ .zeroRtt ∨ s.server = false then
      if derives alg secret then
        (true, s.put l.space { s.get l.space with sealing := some ⟨alg, secret⟩ })
      else (false, s)
    else (true, s)

/-- `add_handshake_data` (tls/mod.rs:853-887). The CRYPTO streams have no limit (packet.rs:924-932:
`u64::MAX`) and are never finished, so that writing to them does not fail. -/
def St.data (s : St) (l : Level) (b : Str) : Bool × St :=
  if l = .zeroRtt then (false, { s with panicked := true })
  else (true, s.put l.space { s.get l.space with out := (s.get l.space).out ++ b })

/-- `send_alert` (tls/mod.rs:896-917); `TLS_ALERT_ERROR` is 0x100 (tls/mod.rs:52). -/
def St.alert (s : St) (a : Nat) : St :=
  { s with err := some { isApp := false, code := 0x100 + a, reason := [] } }

/-- `keylog` (tls/mod.rs:919-935). Writing is taken to succeed; errors are ignored. -/
def St.keylog (s : St) (line : Str) : St :=
  { s with log := s.log.map fun f => f ++ line ++ [10] }

/-- `close` (lib.rs:7553-7588) as far as the error goes: by the application, or by `recv` after an
error (lib.rs:2890-2894), on a connection that is neither closed nor draining; `safe` is
`is_established() || is_in_early_data()`. -/
def St.close (s : St) (safe : Bool) (isApp : Bool) (code : Nat) (reason : Str) : Bool × St :=
  match s.err with
  | some _ => (false, s)
  | none =>
    if isApp && !safe then (true, { s with err := some { isApp := false, code := 0x0c, reason := [] } })
    else (true, { s with err := some { isApp := isApp, code := code, reason := reason } })

/-- A callback. -/
inductive Cb where
  | read (l : Level) (id : Nat) (secret : Str)
  | write (l : Level) (id : Nat) (secret : Str)
  | data (l : Level) (b : Str)
  | alert (a : Nat)
  | keylog (line : Str)
  | flush
  deriving DecidableEq, Repr

/-- `flush_flight` (tls/mod.rs:889-894) does nothing. -/
def St.cb (derives : Alg → Str → Bool) (s : St) : Cb → St
  | .read l id sec => (s.read derives l id sec).2
  | .write l id sec => (s.write derives l id sec).2
  | .data l b => (s.data l b).2
  | .alert a => s.alert a
  | .keylog line => s.keylog line
  | .flush => s

def St.cbs (derives : Alg → Str → Bool) (s : St) (l : List Cb) : St := l.foldl (St.cb derives) s

/-- Results of a call. -/
inductive Res where
  | ok | done | tlsFail
  deriving DecidableEq, Repr

/-- `map_result_ssl` (tls/mod.rs:606-657) of what `SSL_get_error` gives: 0 for success. -/
def mapResult (e : Nat) : Res :=
  if e = 0 then .ok
  else if e = 2 ∨ e = 3 ∨ e = 4 ∨ e = 11 ∨ e = 12 ∨ e = 13 ∨ e = 14 ∨ e = 15 ∨ e = 16 then .done
  else .tlsFail

/-- `set_transport_error` (tls/mod.rs:659-673); `INTERNAL_ERROR` is 1 (tls/mod.rs:53). -/
def St.failed (s : St) (e : Nat) : St :=
  if e = 1 ∧ s.err = none then { s with err := some { isApp := false, code := 1, reason := [] } } else s

/-- What happens to a connection: a call of the TLS library in `recv` (with a CRYPTO frame) or in
`send`, the callbacks it makes and the error it ends with, and calls of `close`. -/
inductive Ev where
  | call (inRecv : Bool) (l : List Cb) (e : Nat)
  | close (safe isApp : Bool) (code : Nat) (reason : Str)
  deriving DecidableEq, Repr

/-- A call is made only on a connection without error (lib.rs:2973-2977, 3970-3972). If it fails in
`recv`, the connection is closed with what the error is on the wire (lib.rs:2882-2886;
`PROTOCOL_VIOLATION` for `TlsFail`, error.rs:200). -/
def St.step (derives : Alg → Str → Bool) (s : St) : Ev → St
  | .call inRecv l e =>
    if s.err ≠ none then s
    else
      let s := (s.cbs derives l).failed e
      if inRecv = true ∧ mapResult e = .tlsFail then (s.close true false 0xa []).2 else s
  | .close safe app code reason => (s.close safe app code reason).2

def St.run (derives : Alg → Str → Bool) (s : St) (evs : List Ev) : St := evs.foldl (St.step derives) s

end Verif.Tls
