import Verif.Rust
/-!
# surge-hound: little-endian and sample codecs
Models `surge-hound/src/lib.rs` 100-290, `read.rs` 69-179, `write.rs` 55-111.
Integers `u16`/`u32` are `Nat`s, `i8..i32` are `Int`s (their ranges are hypotheses of the theorems),
bytes are `UInt8`, `f32` is its bit pattern (`to_bits`/`from_bits` are then the identity).
-/
namespace Verif.Hound

abbrev Bytes := List UInt8

/-- lib.rs 326-351 `enum Error` (`IoError` payload dropped). -/
inductive Err where
  | io
  | format (msg : String)
  | tooWide
  | unfinishedSample
  | unsupported
  | invalidSampleFormat
  deriving DecidableEq, Repr

/-- lib.rs 294-303 `enum SampleFormat`. -/
inductive SampleFormat where
  | float
  | int
  deriving DecidableEq, Repr

/-- lib.rs 306-323 `struct WavSpec`. -/
structure WavSpec where
  channels : Nat      -- u16
  sampleRate : Nat    -- u32
  bits : Nat          -- u16
  fmt : SampleFormat
  deriving DecidableEq, Repr

/-! ## casts -/
/-- `x as u16` for a signed `x` (two's complement truncation). -/
def asU16 (x : Int) : Nat := (x % 65536).toNat
/-- `x as u32` for a signed `x`. -/
def asU32 (x : Int) : Nat := (x % 4294967296).toNat
/-- `x as i8` (truncating). -/
def asI8 (x : Int) : Int := if x % 256 < 128 then x % 256 else x % 256 - 256
/-- `x as i16` (truncating). -/
def asI16 (x : Int) : Int := if x % 65536 < 32768 then x % 65536 else x % 65536 - 65536
/-- `x as i32` (truncating). -/
def asI32 (x : Int) : Int :=
  if x % 4294967296 < 2147483648 then x % 4294967296 else x % 4294967296 - 4294967296

/-! ## WriteExt (write.rs 55-111) : the bytes handed to `write_all` -/
/-- write.rs 70-75 `write_le_u16`. -/
def leU16 (x : Nat) : Bytes := [UInt8.ofNat (x &&& 0xff), UInt8.ofNat (x >>> 8)]
/-- write.rs 65-67 `write_le_i16`. -/
def leI16 (x : Int) : Bytes := leU16 (asU16 x)
/-- write.rs 83-89 `write_le_u24`. -/
def leU24 (x : Nat) : Bytes :=
  [UInt8.ofNat (x &&& 0xff), UInt8.ofNat ((x >>> 8) &&& 0xff), UInt8.ofNat ((x >>> 16) &&& 0xff)]
/-- write.rs 78-80 `write_le_i24`. -/
def leI24 (x : Int) : Bytes := leU24 (asU32 x)
/-- write.rs 97-104 `write_le_u32`. -/
def leU32 (x : Nat) : Bytes :=
  [UInt8.ofNat (x &&& 0xff), UInt8.ofNat ((x >>> 8) &&& 0xff), UInt8.ofNat ((x >>> 16) &&& 0xff),
   UInt8.ofNat ((x >>> 24) &&& 0xff)]
/-- write.rs 92-94 `write_le_i32`. -/
def leI32 (x : Int) : Bytes := leU32 (asU32 x)
/-- write.rs 107-110 `write_le_f32` on a bit pattern. -/
def leF32 (bitsPattern : Nat) : Bytes := leU32 bitsPattern

/-! ## ReadExt (read.rs 69-179) -/
/-- A streaming read: consumes a prefix of the remaining bytes.  An error or panic outcome also carries
the remaining bytes, because the code goes on using the reader after an ignored error. -/
structure Rd (α : Type) where
  run : Bytes → Res Err α × Bytes

instance {α} : CoeFun (Rd α) (fun _ => Bytes → Res Err α × Bytes) := ⟨Rd.run⟩

namespace Rd
variable {α β : Type}
def pure (a : α) : Rd α := ⟨fun s => (.ok a, s)⟩
def bind (m : Rd α) (f : α → Rd β) : Rd β := ⟨fun s =>
  match m s with
  | (.ok a, s') => f a s'
  | (.err e, s') => (.err e, s')
  | (.panic w, s') => (.panic w, s')⟩
instance : Monad Rd where
  pure := Rd.pure
  bind := Rd.bind
/-- `return Err(e)`. -/
def fail (e : Err) : Rd α := ⟨fun s => (.err e, s)⟩
/-- Lift an arithmetic outcome. -/
def lift (r : Res Err α) : Rd α := ⟨fun s => (r, s)⟩
end Rd

/-- A byte of a fixed-size buffer, as a number.  The Rust buffers are zero-initialised arrays of exactly the
length read, so the default is never used on an `Ok` path. -/
def byteAt (b : Bytes) (i : Nat) : Nat := (b.getD i 0).toNat

/-- read.rs 73-84 `read_into` (and 107-116 `read_bytes`) against a reader that delivers what it has; the
short-read loop itself is modelled in `Verif.Hound.ShortRead`.  On a short stream everything left is
consumed and `IoError` results. -/
def readBytes (n : Nat) : Rd Bytes := ⟨fun s =>
  if n ≤ s.length then (.ok (s.take n), s.drop n) else (.err .io, [])⟩
/-- read.rs 87-104 `skip_bytes` (same remark). -/
def skipBytes (n : Nat) : Rd Unit := ⟨fun s =>
  if n ≤ s.length then (.ok (), s.drop n) else (.err .io, [])⟩
/-- read.rs 124-128 `read_u8`. -/
def readU8 : Rd Nat := do let b ← readBytes 1; pure (byteAt b 0)
/-- read.rs 136-140 `read_le_u16`. -/
def readU16 : Rd Nat := do
  let b ← readBytes 2; pure ((byteAt b 1) <<< 8 ||| byteAt b 0)
/-- read.rs 131-133 `read_le_i16`. -/
def readI16 : Rd Int := do let x ← readU16; pure (asI16 x)
/-- read.rs 156-160 `read_le_u24`. -/
def readU24 : Rd Nat := do
  let b ← readBytes 3; pure ((byteAt b 2) <<< 16 ||| (byteAt b 1) <<< 8 ||| byteAt b 0)
/-- read.rs 143-153 `read_le_i24`. -/
def readI24 : Rd Int := do
  let x ← readU24
  pure (if x &&& (1 <<< 23) = 0 then asI32 x else asI32 ((x ||| 0xff000000 : Nat) : Int))
/-- read.rs 168-173 `read_le_u32`. -/
def readU32 : Rd Nat := do
  let b ← readBytes 4
  pure ((byteAt b 3) <<< 24 ||| (byteAt b 2) <<< 16 ||| (byteAt b 1) <<< 8 ||| byteAt b 0)
/-- read.rs 163-165 `read_le_i32`. -/
def readI32 : Rd Int := do let x ← readU32; pure (asI32 x)
/-- read.rs 176-178 `read_le_f32` (bit pattern). -/
def readF32 : Rd Nat := readU32

/-! ## Sample codecs (lib.rs 100-290) -/
/-- lib.rs 102-104 `signed_from_u8`: `(x as i16 - 128) as i8`. -/
def signedFromU8 (x : Nat) : Int := asI8 ((x : Int) - 128)
/-- lib.rs 107-109 `u8_from_signed`: `(x as i16 + 128) as u8`. -/
def u8FromSigned (x : Int) : UInt8 := UInt8.ofNat (((x + 128) % 256).toNat)
/-- lib.rs 123-130 `narrow_to_i8`. -/
def narrowI8 (x : Int) : Res Err Int :=
  if x < -128 ∨ x > 127 then .err .tooWide else .ok (asI8 x)
/-- lib.rs 142-149 `narrow_to_i16`. -/
def narrowI16 (x : Int) : Res Err Int :=
  if x < -32768 ∨ x > 32767 then .err .tooWide else .ok (asI16 x)
/-- lib.rs 161-167 `narrow_to_i24`. -/
def narrowI24 (x : Int) : Res Err Int :=
  if x < -(1 <<< 23 : Int) ∨ x > (1 <<< 23 : Int) - 1 then .err .tooWide else .ok x

/-- lib.rs 80-93 `trait Sample`.  `write` yields the bytes passed to the underlying `write_all`;
on `Err` nothing has been written (each arm computes before it writes). -/
structure SampleImpl (α : Type) where
  write : α → Nat → Res Err Bytes
  read : SampleFormat → Nat → Nat → Rd α
  asI16 : α → Res Err Int

/-- lib.rs 177-204 `impl Sample for i8`. -/
def sampI8 : SampleImpl Int where
  write x bits := match bits with
    | 8 => .ok [u8FromSigned x]
    | 16 => .ok (leI16 x)
    | 24 => .ok (leI24 x)
    | 32 => .ok (leI32 x)
    | _ => .err .unsupported
  asI16 x := .ok x
  read fmt bytes bits :=
    if fmt ≠ .int then Rd.fail .invalidSampleFormat
    else if bytes = 1 ∧ bits = 8 then do let b ← readU8; pure (signedFromU8 b)
    else if bytes > 1 then Rd.fail .tooWide
    else Rd.fail .unsupported

/-- lib.rs 206-234 `impl Sample for i16`. -/
def sampI16 : SampleImpl Int where
  write x bits := match bits with
    | 8 => do let y ← narrowI8 x; pure [u8FromSigned y]
    | 16 => .ok (leI16 x)
    | 24 => .ok (leI24 x)
    | 32 => .ok (leI32 x)
    | _ => .err .unsupported
  asI16 x := .ok x
  read fmt bytes bits :=
    if fmt ≠ .int then Rd.fail .invalidSampleFormat
    else if bytes = 1 ∧ bits = 8 then do let b ← readU8; pure (signedFromU8 b)
    else if bytes = 2 ∧ bits = 16 then readI16
    else if bytes > 2 then Rd.fail .tooWide
    else Rd.fail .unsupported

/-- lib.rs 236-266 `impl Sample for i32`. -/
def sampI32 : SampleImpl Int where
  write x bits := match bits with
    | 8 => do let y ← narrowI8 x; pure [u8FromSigned y]
    | 16 => do let y ← narrowI16 x; pure (leI16 y)
    | 24 => do let y ← narrowI24 x; pure (leI24 y)
    | 32 => .ok (leI32 x)
    | _ => .err .unsupported
  asI16 x := .ok (Hound.asI16 x)
  read fmt bytes bits :=
    if fmt ≠ .int then Rd.fail .invalidSampleFormat
    else if bytes = 1 ∧ bits = 8 then do let b ← readU8; pure (signedFromU8 b)
    else if bytes = 2 ∧ bits = 16 then readI16
    else if bytes = 3 ∧ bits = 24 then readI24
    else if bytes = 4 ∧ bits = 32 then readI32
    else if bytes > 4 then Rd.fail .tooWide
    else Rd.fail .unsupported

/-- lib.rs 268-290 `impl Sample for f32` (values are bit patterns). -/
def sampF32 : SampleImpl Nat where
  write x bits := match bits with
    | 32 => .ok (leF32 x)
    | _ => .err .unsupported
  asI16 _ := .panic "Calling as_i16 with an f32 is invalid."
  read fmt bytes bits :=
    if fmt ≠ .float then Rd.fail .invalidSampleFormat
    else if bytes = 4 ∧ bits = 32 then readF32
    else if bytes > 4 then Rd.fail .tooWide
    else Rd.fail .unsupported

end Verif.Hound
