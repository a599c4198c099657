import Verif.Rust
import Verif.Float.F32
import Verif.Dsp.Clip
import Verif.Param.CType
/-!
# Parameters

Models the crate `surge-param`: `pdata.rs`, `parameter.rs`, `bound_value.rs`, `limit_range.rs`, `get_value.rs`,
`set_value.rs`, `default_value.rs`, `get_modulation.rs`, `set_modulation.rs`, `normalize.rs`, `morph.rs`, `extend.rs`,
`extend_range.rs`, `snap.rs`, `notation.rs` 3-12; and `split_float` of surge-math/src/flops.rs.

`f32` is `F32` (one NaN, no sign on zero); `2.0_f32.powf` and `log2` are arbitrary functions (`Fns`).
-/
namespace Verif.Param
open Verif.Float Verif.Dsp

/-- pdata.rs 3-8 `PData`. -/
inductive PData where
  | int (i : Int)
  | bool (b : Bool)
  | float (f : F32)
  deriving DecidableEq

/-- pdata.rs 35-41 `ValType`. -/
inductive VType where
  | vtInt | vtBool | vtFloat
  deriving DecidableEq, Repr

/-- The part of a parameter enum's trait implementations that the functions below call (`ParameterInterface`). -/
structure Delegate where
  ctype : CType
  default : PData
  min : PData
  max : PData
  vtype : VType
  extendRange : Bool
  snap : Bool

/-- parameter.rs 3-18 `ParamRT`. Simplification: `midictrl` and `per_voice_processing` are left out, no function here reads
them. -/
structure Param where
  d : Delegate
  val : PData
  modulationDelta : PData
  temposync : Bool
  extendRange : Bool
  absolute : Bool
  snap : Bool

/-- The platform's `2^x` and `log2`. -/
structure Fns where
  pow2 : F32 → F32
  log2 : F32 → F32

/-- Division of `f32`. Simplification: a zero divisor is `+0` (in this crate divisors are differences and a difference of
equal numbers is `+0`). -/
def divF : F32 → F32 → F32
  | .nan, _ => .nan
  | _, .nan => .nan
  | .pinf, .pinf => .nan
  | .pinf, .ninf => .nan
  | .ninf, .pinf => .nan
  | .ninf, .ninf => .nan
  | .fin _, .pinf => .fin 0
  | .fin _, .ninf => .fin 0
  | .fin a, .fin b => if b = 0 then F32.infOf a else F32.ofQ (a / b)
  | .pinf, .fin b => if b < 0 then .ninf else .pinf
  | .ninf, .fin b => if b < 0 then .pinf else .ninf

/-- A decimal `f32` literal. -/
def flit (q : ℚ) : F32 := F32.ofQ q

/-- `f32::floor`. -/
def floorF : F32 → F32
  | .fin q => .fin ⌊q⌋
  | x => x

/-- flops.rs 12-22 `split_float`: (integral, fractional). `to_int_unchecked` is undefined behaviour outside `i32`; here a
panic. -/
def splitFloat (f : F32) : Res Empty (F32 × F32) :=
  match f with
  | .fin q =>
    if q = 0 then .ok (.fin 0, .fin 0)
    else if -2 ^ 31 ≤ F32.truncQ q ∧ F32.truncQ q ≤ 2 ^ 31 - 1 then
      .ok (F32.ofInt (F32.truncQ q), F32.sub f (F32.ofInt (F32.truncQ q)))
    else .panic "undefined behaviour: to_int_unchecked out of range"
  | _ => .panic "undefined behaviour: to_int_unchecked out of range"

/-- bound_value.rs 25-32: the three fractions a synced value can have. -/
def snapFraction (F : Fns) (b : F32) : F32 :=
  let b := F.pow2 b
  if F32.lt (flit (141 / 100)) b then F.log2 (flit (3 / 2))
  else if F32.lt (flit (1167 / 1000)) b then F.log2 (flit (13333334 / 10000000))
  else .fin 0

/-- bound_value.rs 16-36: the value of a tempo-synced parameter. -/
def syncValue (F : Fns) (f : F32) : Res Empty F32 :=
  splitFloat f >>= fun (a, b) =>
    let neg := F32.lt b (.fin 0)
    let b' := if neg = true then F32.add b (.fin 1) else b
    let a' := if neg = true then F32.sub a (.fin 1) else a
    .ok (F32.add a' (snapFraction F b'))

/-- limit_range.rs 10-28 `limit_parameter_range`. -/
def limitParameterRange (p : Param) : Param :=
  match p.val, p.d.min, p.d.max with
  | .float f, .float lo, .float hi => { p with val := .float (limitRange f lo hi) }
  | .int i, .int lo, .int hi => { p with val := .int (limitRangeI i lo hi) }
  | _, _, _ => p

/-- bound_value.rs 13-66 `bound_value`. The force-integer branch uses the value before the sync branch. `i - i % 4`
cannot overflow. -/
def boundValue (F : Fns) (p : Param) (forceInteger : Bool) : Res Empty Param :=
  match p.val with
  | .float f =>
    (if p.temposync = true then syncValue F f else .ok f) >>= fun g =>
    let g := if forceInteger = true then floorF (F32.add f (flit (1 / 2))) else g
    .ok (limitParameterRange { p with val := .float g })
  | .int i =>
    let i' := if p.d.ctype = .vocoderBandcount then i - Int.tmod i 4 else i
    .ok (limitParameterRange { p with val := .int i' })
  | .bool _ => .panic "unreachable"

/-- parameter.rs 84-90 `default_modulation_delta`. -/
def defaultModulationDelta : PData → PData
  | .float _ => .float (.fin 0)
  | .int _ => .int 0
  | .bool _ => .bool false

/-- parameter.rs 92-110 `new`. -/
def Param.new (F : Fns) (d : Delegate) : Res Empty Param :=
  boundValue F ⟨d, d.default, defaultModulationDelta d.default, false, false, false, false⟩ false

/-- set_value.rs 35-43, the integer: `((1.0 / 0.99) * (val as f32 - 0.005) * ((max - min) as f32) + 0.5) as i32 + min`,
from the *old* value. `1.0 / 0.99` is folded in `f32`. -/
def setIntValue (val lo hi : Int) : Res Empty Int :=
  chkI32 (hi - lo) >>= fun w =>
  chkI32 (F32.toI32 (F32.add (F32.mul (F32.mul (divF (.fin 1) (flit (99 / 100)))
    (F32.sub (F32.ofInt val) (flit (5 / 1000)))) (F32.ofInt w)) (flit (1 / 2))) + lo)

/-- set_value.rs 27-52 `set_value_f01`. -/
def setValueF01 (F : Fns) (p : Param) (v : F32) (forceInteger : Bool) : Res Empty Param :=
  match p.val, p.d.min, p.d.max with
  | .float _, .float lo, .float hi =>
    boundValue F { p with val := .float (F32.add (F32.mul v (F32.sub hi lo)) lo) } forceInteger
  | .int i, .int lo, .int hi =>
    setIntValue i lo hi >>= fun j => boundValue F { p with val := .int j } forceInteger
  | .bool _, _, _ => boundValue F { p with val := .bool (F32.lt (flit (1 / 2)) v) } forceInteger
  | _, _, _ => .panic "unreachable"

/-- set_value.rs 13-22 `set_param_val`. -/
def setParamVal (F : Fns) (p : Param) : PData → Res Empty Param
  | .float x => setValueF01 F p x false
  | .int x => setValueF01 F p (F32.ofInt x) true
  | .bool true => setValueF01 F p (.fin 1) false
  | .bool false => setValueF01 F p (.fin 0) false

/-- `0.005 + 0.99 * ((v - min) as f32) / ((max - min) as f32)`, get_value.rs 54. -/
def normInt (v lo hi : Int) : Res Empty F32 :=
  chkI32 (v - lo) >>= fun a => chkI32 (hi - lo) >>= fun b =>
  .ok (F32.add (flit (5 / 1000)) (divF (F32.mul (flit (99 / 100)) (F32.ofInt a)) (F32.ofInt b)))

/-- `(v - min) / (max - min)`. -/
def normFloat (v lo hi : F32) : F32 := divF (F32.sub v lo) (F32.sub hi lo)

/-- get_value.rs 41-63 `get_value_f01`. -/
def getValueF01 (p : Param) : Res Empty F32 :=
  if p.d.ctype = .nil then .ok (.fin 0)
  else match p.val, p.d.max, p.d.min with
  | .float v, .float hi, .float lo => .ok (normFloat v lo hi)
  | .int v, .int hi, .int lo => normInt v lo hi
  | .bool v, _, _ => .ok (if v = true then .fin 1 else .fin 0)
  | _, _, _ => .ok (.fin 0)

/-- default_value.rs 24-43 `get_default_value_f01`. -/
def getDefaultValueF01 (d : Delegate) : Res Empty F32 :=
  if d.ctype = .nil then .ok (.fin 0)
  else match d.default, d.min, d.max with
  | .float v, .float lo, .float hi => .ok (normFloat v lo hi)
  | .int v, .int lo, .int hi => normInt v lo hi
  | .bool v, _, _ => .ok (if v = true then .fin 1 else .fin 0)
  | _, _, _ => .ok (.fin 0)

/-- get_modulation.rs 16-30 `get_modulation_f01`. -/
def getModulationF01 (d : Delegate) (m : F32) : Res Empty F32 :=
  if d.ctype = .nil ∨ d.vtype ≠ .vtFloat then .ok (.fin 0)
  else match d.min, d.max with
  | .float lo, .float hi => .ok (limitRange (divF m (F32.sub hi lo)) (.fin (-1)) (.fin 1))
  | _, _ => .panic "unreachable"

/-- set_modulation.rs 15-27 `set_modulation_f01`. -/
def setModulationF01 (d : Delegate) (v : F32) : Res Empty F32 :=
  if d.ctype = .nil ∨ d.vtype ≠ .vtFloat then .ok (.fin 0)
  else match d.min, d.max with
  | .float lo, .float hi => .ok (F32.mul v (F32.sub hi lo))
  | _, _ => .panic "unreachable"

/-- normalize.rs 10-26 `value2normalized`. -/
def value2normalized (p : Param) (v : F32) : F32 :=
  match p.val, p.d.min, p.d.max with
  | _, .float lo, .float hi => normFloat v lo hi
  | _, .int lo, .int hi => normFloat v (F32.ofInt lo) (F32.ofInt hi)
  | .bool b, _, _ => if b = true then .fin 1 else .fin 0
  | _, _, _ => .fin 0

/-- normalize.rs 28-43 `normalized2value`. -/
def normalized2value (p : Param) (v : F32) : F32 :=
  match p.d.min, p.d.max with
  | .float lo, .float hi => F32.add (F32.mul v (F32.sub hi lo)) lo
  | .int lo, .int hi => F32.add (F32.mul v (F32.sub (F32.ofInt hi) (F32.ofInt lo))) (F32.ofInt lo)
  | .bool _, .bool _ => if F32.lt (flit (1 / 2)) v = true then .fin 1 else .fin 0
  | _, _ => .fin 0

/-- morph.rs 23: `(1.0 - x) * f1 + x * f2`. -/
def morphF (x f1 f2 : F32) : F32 := F32.add (F32.mul (F32.sub (.fin 1) x) f1) (F32.mul x f2)

/-- morph.rs 10-32 `morph`. -/
def morph (a b : Param) (x : F32) : PData :=
  let fallback := if F32.lt (flit (1 / 2)) x = true then b.val else a.val
  match a.val, b.val with
  | .float f1, .float f2 => if a.d.ctype = b.d.ctype then .float (morphF x f1 f2) else fallback
  | _, _ => fallback

/-- morph.rs 34-64 `morph_alt`: the new value of `self`. -/
def morphAlt (a b : Param) (x : F32) : Param :=
  let fallback := if F32.lt (flit (1 / 2)) x = true then b else a
  match a.val, b.val with
  | .float f1, .float f2 => if a.d.ctype = b.d.ctype then { a with val := .float (morphF x f1 f2) } else fallback
  | _, _ => fallback

/-- extend.rs 14-22: the factor of a control type. -/
def extendFactor : CType → Option ℚ
  | .freqShift => some 100
  | .pitchSemi7BP => some 12
  | .pitchSemi7BPAbsolutable => some 12
  | .decibelExtendable => some 3
  | .decibelNarrowExtendable => some 5
  | .oscSpread => some 12
  | _ => none

/-- extend.rs 8-23 `get_extended`; extend_range.rs 9-16: `extend_range()` asks the delegate. -/
def getExtended (p : Param) (f : F32) : F32 :=
  if p.d.extendRange = false then f
  else match extendFactor p.d.ctype with
  | some k => F32.mul (.fin k) f
  | none => f

/-- extend_range.rs 20-30 `can_extend_range`. -/
def canExtendRange (c : CType) : Bool :=
  match c with
  | .pitchSemi7BP | .pitchSemi7BPAbsolutable | .freqShift | .decibelExtendable | .decibelNarrowExtendable
  | .oscSpread => true
  | _ => false

/-- parameter.rs 59-61 `set_extend_range`. -/
def setExtendRange (p : Param) (x : Bool) : Param := { p with extendRange := x }
/-- parameter.rs 28-30 `set_snap`. -/
def setSnap (p : Param) (x : Bool) : Param := { p with snap := x }
/-- snap.rs 13-19 `snap()`: asks the delegate. -/
def getSnap (p : Param) : Bool := p.d.snap
/-- extend_range.rs 9-16 `extend_range()`: asks the delegate. -/
def getExtendRange (p : Param) : Bool := p.d.extendRange
/-- parameter.rs 55-57 `set_temposync`. -/
def setTemposync (p : Param) (x : Bool) : Param := { p with temposync := x }
/-- parameter.rs 63-65 `set_absolute`. -/
def setAbsolute (p : Param) (x : Bool) : Param := { p with absolute := x }
/-- clear_flags.rs 9-15 `clear_flags`. -/
def clearFlags (p : Param) : Param := setSnap (setTemposync (setAbsolute (setExtendRange p false) false) false) false

/-- notation.rs 6-8. -/
def noteNames : List String := ["C ", "C#", "D ", "D#", "E ", "F ", "F#", "G ", "G#", "A ", "A#", "B "]

/-- notation.rs 3-12 `get_notename`. The decimal `i32` format is Lean's `toString` (`-` and digits). -/
def getNotename (i : Int) : Res Empty String :=
  if Int.tmod i 12 < 0 then .panic "unwrap of Err: TryFromIntError"
  else match noteNames[(Int.tmod i 12).toNat]? with
  | some n => .ok (n ++ toString (Int.tdiv i 12 - 2))
  | none => .panic "index out of bounds"

/-! ## The parameter table -/

/-- A value in the source: a float is the decimal literal, not yet rounded to `f32`. -/
inductive Lit where
  | int (i : Int)
  | bool (b : Bool)
  | float (q : ℚ)
  deriving DecidableEq

/-- What the compiler makes of it. -/
def Lit.toPData : Lit → PData
  | .int i => .int i
  | .bool b => .bool b
  | .float q => .float (flit q)

/-- A row of the parameter table. -/
structure Entry where
  family : String
  name : String
  ctype : CType
  default : Lit
  min : Lit
  max : Lit
  vtype : VType
  modulateable : Bool
  snap : Bool
  deriving DecidableEq

/-- The delegate of a row; no parameter overrides `extend_range`, whose default is `false` (extend_range.rs 5-6). -/
def Entry.delegate (e : Entry) : Delegate :=
  { ctype := e.ctype, default := e.default.toPData, min := e.min.toPData, max := e.max.toPData, vtype := e.vtype,
    extendRange := false, snap := e.snap }

end Verif.Param
