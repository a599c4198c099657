import Verif.Tuning.Model
import Verif.Float.Trunc
/-!
# surge-tuning: pitch lookups
Models tuner.rs 56-160 for `T = f32`; the interpolation itself is exact (`f32` rounding of the result is not
modelled), the index and weight computation is bit-accurate.
-/
namespace Verif.Tuning
open Verif.Float

/-- `x as i64`. -/
def toI64 (x : F32) : ℤ := F32.toIntSat (-2 ^ 63) (2 ^ 63 - 1) x

/-- surge-math/interp.rs 21-25: `lerp` asserts that the weight is in `[0, 1)`. -/
def weightOk : F32 → Bool
  | .fin w => decide (0 ≤ w) && decide (w < 1)
  | _ => false

/-- tuner.rs 73-100 / 102-125 (`clampLow = false`), 127-160 (`clampLow = true`): which two entries `n2p`, `n2pinv` and
`note_to_omega` read, and with which weight; the panic is the assertion in `lerp`. -/
def lookup (clampLow : Bool) (x : F32) : P (ℕ × ℕ × ℚ) :=
  let x' := F32.add x (.fin 256)
  let e0 := toI64 x'
  let w := F32.sub x' (F32.ofInt e0)
  let e := if e0 > 0x1fe then 0x1fe else if clampLow && decide (e0 < 0) then 0 else e0
  let a := (e % 512).toNat          -- e & 0x1ff
  let b := ((e + 1) % 512).toNat    -- (e + 1) & 0x1ff
  match w with
  | .fin q => if weightOk (.fin q) then .ok (a, b, q) else .panic "assertion failed: valid_range.contains"
  | _ => .panic "assertion failed: valid_range.contains"

/-- surge-math/interp.rs 27. -/
def lerpR (w a b : ℝ) : ℝ := (1 - w) * a + w * b

/-- tuner.rs 73-100 `n2p::<f32, false>`. -/
noncomputable def n2p (t : Tuner) (x : F32) : P ℝ := do
  let (a, b, w) ← lookup false x
  pure (lerpR (w : ℝ) (t.table a) (t.table b))

/-- tuner.rs 102-125 `n2pinv::<f32, false>`. -/
noncomputable def n2pinv (t : Tuner) (x : F32) : P ℝ := do
  let (a, b, w) ← lookup false x
  pure (lerpR (w : ℝ) (t.tableInv a) (t.tableInv b))

/-- tuner.rs 58-64 `n2p_tuningctr` (the reciprocal of the reference pitch is kept in `pitch_inv`). -/
noncomputable def n2pTuningCtr (t : Tuner) (x : F32) : P ℝ := do
  let v ← n2p t (F32.add x (F32.ofInt t.mapping.tuningNote))
  pure (v * (1 / t.pitch))

/-- tuner.rs 66-71 `n2pinv_tuningctr`: also multiplies by the *reciprocal* of the reference pitch. -/
noncomputable def n2pinvTuningCtr (t : Tuner) (x : F32) : P ℝ := do
  let v ← n2pinv t (F32.add x (F32.ofInt t.mapping.tuningNote))
  pure (v * (1 / t.pitch))

/-- tuner.rs 176-187 `current_scale_count` (for a result type that holds every `i8`). -/
def currentScaleCount (sc : Scale) : P ℕ :=
  if sc.count % 128 = sc.count then .ok sc.count else .panic "assertion failed: val & 127 == val"

end Verif.Tuning
