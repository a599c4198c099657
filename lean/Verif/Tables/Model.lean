import Verif.Param.Props
/-!
# Lookup tables (surge-tables)

Single precision as in `Verif.Float.F32`. The contents of the tables come from `powf`, `exp`, `tanh`, `sin` and are left
open: a table is any list of values. Table length is what `new`/`default` allocate.
-/
namespace Verif.Tables
open Verif Verif.Float Verif.Param Verif.Float.F32

/-- `table[i]`: panics out of bounds. -/
def get {α : Type} (t : List α) (i : Nat) : Res Empty α :=
  match t[i]? with
  | some v => .ok v
  | none => .panic "index out of bounds"

/-- `(e & mask) as usize` for `e : i32`. -/
def index (e : Int) (mask : Nat) : Nat := (BitVec.ofInt 32 e &&& BitVec.ofNat 32 mask).toNat

/-- envelope.rs 31-35, gain.rs 22-26, waveshape.rs 69-77: the common interpolation of `table` at position `x`. -/
def interp (t : List F32) (mask : Nat) (x : F32) : Res Empty F32 :=
  let e := x.toI32
  let a := F32.sub x (F32.ofInt e)
  get t (index e mask) >>= fun t0 =>
  chkI32 (e + 1) >>= fun e1 =>
  get t (index e1 mask) >>= fun t1 =>
  .ok (F32.add (F32.mul (F32.sub (.fin 1) a) t0) (F32.mul a t1))

/-- envelope.rs 26-36 `envelope_rate_lpf`, 38-48 `envelope_rate_linear`: the same code on two tables. -/
def envelopeRate (t : List F32) (x : F32) : Res Empty F32 :=
  interp t 0x1ff (F32.add (F32.mul x (.fin 16)) (.fin 256))

/-- gain.rs 18-27 `db_to_linear`. -/
def dbToLinear (t : List F32) (x : F32) : Res Empty F32 := interp t 0x1ff (F32.add x (.fin 384))

/-- surge-types `FilterSubType` as far as gain.rs 32-43 tells its members apart. -/
inductive SubType where
  | rough | smooth | other
  deriving DecidableEq, Repr

/-- gain.rs 30-44 `clipscale`. -/
def clipscale (t : List F32) (freq : F32) : SubType → Res Empty F32
  | .rough => dbToLinear t (F32.mul freq (flit (55 / 100))) >>= fun g => .ok (F32.mul (.fin (1 / 64)) g)
  | .smooth => .ok (.fin (1 / 1024))
  | .other => .ok (.fin 0)

/-- waveshape.rs 33-56 `lookup_waveshape`: `ts` are the eight tables. -/
def lookupWaveshape (ts : List (List F32)) (entry : Nat) (x : F32) : Res Empty F32 :=
  let y := F32.add (F32.mul x (.fin 32)) (.fin 512)
  if 0x3fd < y.toI32 then .ok (.fin 1)
  else if y.toI32 < 1 then .ok (.fin (-1))
  else get ts entry >>= fun t => interp t 0x3ff y

/-- waveshape.rs 59-75 `lookup_waveshape_warp`. Simplification: `e + 1` is computed before `self.table[idx]` in the code;
with both failing the panic message differs. -/
def lookupWarp (ts : List (List F32)) (entry : Nat) (x : F32) : Res Empty F32 :=
  get ts entry >>= fun t => interp t 0x3ff (F32.add (F32.mul x (.fin 256)) (.fin 512))

/-- tables.rs 122-135 `get_waveshaper_ptr` followed by surge.rs 113-121: the position (table, element) pointed at.
The offset given is not looked at; the table number takes its place. -/
def waveshaperPtr (idx : Nat) (_offset : Int) : Res Empty (Nat × Int) :=
  if ¬ idx < 8 then .panic "assertion failed: idx < WaveshapeTables::ntables()"
  else if ¬ idx &&& 0x3ff = idx then .panic "assertion failed: offset & 0x3ff == offset"
  else .ok (idx, idx)

end Verif.Tables
