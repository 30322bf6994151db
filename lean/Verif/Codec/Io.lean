import Verif.Octets.Model

/-!
Readers and writers over a cursor, the shape of every parser and serialiser of
the code base: `fn f(b: &mut Octets, ..) -> Result<T>`. A failing operation leaves
the cursor where it had got to, as the `?` operator does.
-/

namespace Verif

/-- `From<octets::BufferTooShortError>` of an error type (e.g.
quiche/src/error.rs, quiche/src/h3/mod.rs); a panic stays a panic. -/
class FromOctets (ε : Type) where
  fromO : OErr → ε

/-- `FnOnce(&mut Octets) -> Result<α, ε>`. -/
def Io (ε α : Type) : Type := Cur → Except ε α × Cur

namespace Io
variable {ε α β : Type}

/-- Sequencing with `?`. -/
def bind (p : Io ε α) (f : α → Io ε β) : Io ε β := fun c =>
  match p c with
  | (.ok a, c') => f a c'
  | (.error e, c') => (.error e, c')

instance : Monad (Io ε) where
  pure a := fun c => (.ok a, c)
  bind := bind

/-- `return Err(e)`. -/
def fail (e : ε) : Io ε α := fun c => (.error e, c)

/-- An `octets` operation followed by `?`. -/
def lift [FromOctets ε] (p : Cur → Except OErr α × Cur) : Io ε α := fun c =>
  match p c with
  | (.ok a, c') => (.ok a, c')
  | (.error e, c') => (.error (FromOctets.fromO e), c')

variable [FromOctets ε]

/-- `b.get_varint()?`. -/
def varint : Io ε Nat := lift Cur.getVarint
/-- `b.get_u8()?` .. `b.get_u64()?`, by number of bytes. -/
def getU (n : Nat) : Io ε Nat := lift (Cur.getU · n)
/-- `b.get_bytes(n)?`. -/
def bytes (n : Nat) : Io ε Bytes := lift (Cur.getBytes · n)
/-- `b.get_bytes_with_varint_length()?` (octets/src/lib.rs:246-249). -/
def varBytes : Io ε Bytes := do
  let n ← varint
  bytes n
/-- `b.get_bytes_with_u8_length()?` (octets/src/lib.rs:228-235). -/
def u8Bytes : Io ε Bytes := do
  let n ← getU 1
  bytes n
omit [FromOctets ε] in
/-- `b.cap()`. -/
def cap : Io ε Nat := fun c => (.ok c.cap, c)

/-- `b.put_varint(v)?`. -/
def putVarint (v : Nat) : Io ε Unit := lift (Cur.putVarint · v)
/-- `b.put_varint_with_len(v, n)?`. -/
def putVarintLen (v n : Nat) : Io ε Unit := lift (Cur.putVarintWithLen · v n)
/-- `b.put_u8(v)?` .. `b.put_u64(v)?`, by number of bytes. -/
def putU (n v : Nat) : Io ε Unit := lift (Cur.putU · n v)
/-- `b.put_bytes(v)?`. -/
def putBytes (v : Bytes) : Io ε Unit := lift (Cur.putBytes · v)

end Io
end Verif
