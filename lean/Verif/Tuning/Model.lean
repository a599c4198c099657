import Verif.Rust
import Mathlib.Analysis.SpecialFunctions.Log.Base
import Mathlib.Analysis.SpecialFunctions.Pow.Real
/-!
# surge-tuning: scales, keyboard mappings, retuning
Models `surge-tuning/src/{scale,keyboard_mapping,retune,remap,tuner,tables,tuning}.rs`.
Numbers: tone values are exact rationals and table entries exact reals (simplification: the `f32`/`f64`
rounding of retuning is not modelled); `i32` overflow of note numbers is not modelled.
-/
namespace Verif.Tuning

/-- Outcome of a function with no error type: a value or a panic. -/
abbrev P (α : Type) := Res Empty α

/-- scale.rs 53-60 `struct Scale`; only what retuning uses: the count and the tones' `val`
(tone.rs: `cents / 1200 + 1`, i.e. one plus the number of octaves above the root). -/
structure Scale where
  count : Nat
  tones : List ℚ
  deriving DecidableEq

/-- scale.rs 75-84 `Scale::default`. -/
def Scale.empty : Scale := ⟨0, []⟩

/-- scale.rs 166-173 `is_valid`. -/
def Scale.isValid (s : Scale) : Bool := s.count != 0

/-- keyboard_mapping.rs 6-20 `struct KeyboardMapping` (names and raw text dropped). -/
structure Mapping where
  isStandard : Bool
  count : Int
  firstMidi : Int
  lastMidi : Int
  middle : Int
  tuningNote : Int
  tuningFreq : ℝ
  octaveDegrees : Int
  keys : List Int

/-- keyboard_mapping.rs 41-58 `Default`. -/
noncomputable def Mapping.default : Mapping :=
  { isStandard := true, count := 12, firstMidi := 0, lastMidi := 127, middle := 60, tuningNote := 60,
    tuningFreq := 8.175798915 * 32, octaveDegrees := 12, keys := [0, 1, 2, 3, 4, 5, 6, 7, 8, 9, 10, 11] }

/-- `v[i as usize]` for an `i32` index. -/
def idxI32 {α} (v : List α) (i : Int) : P α :=
  if i < 0 then .panic "index out of bounds" else
    match v[i.toNat]? with
    | some a => .ok a
    | none => .panic "index out of bounds"

/-- retune.rs 47-51: `while pos < 0 { pos += count; tshift += dt }` (with fuel). -/
def shiftUp (count : Int) (dt : ℚ) : Nat → Int → ℚ → Int × ℚ
  | 0, p, t => (p, t)
  | fuel + 1, p, t => if p < 0 then shiftUp count dt fuel (p + count) (t + dt) else (p, t)

/-- retune.rs 53-57: `while pos > count { pos -= count; tshift -= dt }` (with fuel). -/
def shiftDown (count : Int) (dt : ℚ) : Nat → Int → ℚ → Int × ℚ
  | 0, p, t => (p, t)
  | fuel + 1, p, t => if p > count then shiftDown count dt fuel (p - count) (t - dt) else (p, t)

/-- retune.rs 31-41: the scale position of the reference note (`keys[tuning_note - middle_note]`, with no modulo,
when the mapping has keys). -/
def refPosition (m : Mapping) : P Int :=
  if m.count > 0 then idxI32 m.keys (m.tuningNote - m.middle) else .ok (m.tuningNote - m.middle)

/-- retune.rs 30-66: `tuning_center_pitch_offset`.  The fuel `|pos|` is enough for both loops because every
round moves `pos` by at least one towards the range (`C25` uses this). -/
def centerOffset (sc : Scale) (m : Mapping) : P ℚ := do
  let p ← refPosition m
  if p = 0 then pure 0
  else do
    let last ← idxI32 sc.tones ((sc.count : Int) - 1)
    let dt := last - 1
    let a := shiftUp sc.count dt p.natAbs p 0
    let b := shiftDown sc.count dt p.natAbs a.1 a.2
    if b.1 = 0 then pure (-b.2)
    else do
      let v ← idxI32 sc.tones (b.1 - 1)
      pure (v - 1 - b.2)

/-- retune.rs 98-146: which scale position (minus one) a key at distance `ds` from the middle note plays, and
whether it is disabled. -/
def keyPosition (m : Mapping) (ds : Int) : P (Bool × Int) :=
  if m.isStandard || m.count = 0 then .ok (false, ds - 1)
  else do
    let mk0 := ds.tmod m.count
    let mk := if mk0 < 0 then mk0 + m.count else mk0
    let cm ← idxI32 m.keys mk
    if cm < 0 then pure (true, ds - 1) else pure (false, ds - (mk - cm) - 1)

/-- retune.rs 72-163: the pitch (in octaves, reference = 1) of table entry `idx`. -/
def pitchAt (sc : Scale) (m : Mapping) (off : ℚ) (idx : Nat) : P ℚ :=
  if (idx : Int) - (256 + m.tuningNote) = 0 then .ok 1
  else do
    let (disable, q) ← keyPosition m ((idx : Int) - (256 + m.middle))
    let r0 := q.tdiv sc.count
    let t0 := q.tmod sc.count
    let t := if t0 < 0 then t0 + sc.count else t0
    let r := if t0 < 0 then r0 - 1 else r0
    let last ← idxI32 sc.tones ((sc.count : Int) - 1)
    if disable then pure 0
    else do
      let v ← idxI32 sc.tones t
      pure (v + r * (last - 1) - off)

/-- retune.rs 68-163: all 512 pitches, in index order; `pitches[pos_pitch0 as usize] = 1.0` panics when the
reference note is outside the table. -/
def allPitches (sc : Scale) (m : Mapping) : P (List ℚ) := do
  let off ← centerOffset sc m
  if 256 + m.tuningNote < 0 ∨ 512 ≤ 256 + m.tuningNote then .panic "index out of bounds"
  else (List.range 512).mapM (pitchAt sc m off)

/-- tuner.rs 5-11 `struct SurgeTuner` with tuning.rs 5-9 `SurgeTuning` and tables.rs 5-13 inlined;
the sine/cosine tables are functions of `table` and are left out, as are the `ignoring_tuning` copies. -/
structure Tuner where
  mapping : Mapping
  scale : Scale
  pitch : ℝ
  isStdTuning : Bool
  table : Nat → ℝ
  tableInv : Nat → ℝ

/-- tables.rs 35-36: the equal-tempered table. -/
noncomputable def stdTable (i : Nat) : ℝ := (2 : ℝ) ^ (((i : ℝ) - 256) * (1 / 12))

/-- tuner.rs 14-23 `SurgeTuner::new`: the pitch tables are all zero until `init` is called (tables.rs 15-26). -/
noncomputable def Tuner.new : Tuner :=
  { mapping := Mapping.default, scale := Scale.empty, pitch := 32, isStdTuning := true,
    table := fun _ => 0, tableInv := fun _ => 0 }

/-- tuner.rs 14-23 `SurgeTuner::new` followed by `init`: standard everything. -/
noncomputable def Tuner.fresh : Tuner :=
  { mapping := Mapping.default, scale := Scale.empty, pitch := 32, isStdTuning := true,
    table := stdTable, tableInv := fun i => 1 / stdTable i }

/-- tuner.rs 45-54 `init` (= `retune_to_standard_tuning`, retune.rs 3-9): resets mapping, scale, tables and the
standard-tuning flag — but not `pitch` (tuning.rs 25-31). -/
noncomputable def Tuner.init (t : Tuner) : Tuner :=
  { t with mapping := Mapping.default, scale := Scale.empty, isStdTuning := true,
           table := stdTable, tableInv := fun i => 1 / stdTable i }

/-- retune.rs 11-215 `retune_to_scale`: table entry `2^(pitch + log2(reference pitch) - 1)`; on a panic the tables
are partly overwritten, which is not modelled (the outcome is just the panic). -/
noncomputable def Tuner.retune (t : Tuner) (sc : Scale) : P (Bool × Tuner) :=
  if !sc.isValid then .ok (false, t)
  else do
    let ps ← allPitches sc t.mapping
    let tab : Nat → ℝ := fun i => (2 : ℝ) ^ (((ps.getD i 0 : ℚ) : ℝ) + (Real.logb 2 t.pitch - 1))
    pure (true, { t with scale := sc, isStdTuning := false, table := tab, tableInv := fun i => 1 / tab i })

/-- remap.rs 11-53 `remap_to_keyboard`.  `builtin12` is `Scale::even_temperament_12_note_scale()`. -/
noncomputable def Tuner.remapWith (builtin12 : P Scale) (t : Tuner) (m : Mapping) : P Tuner :=
  let t1 : Tuner := { t with mapping := m, pitch := if m.isStandard then 32 else m.tuningFreq / 8.175798915 }
  if t1.mapping.isStandard && t1.isStdTuning then .ok t1.init
  else if !t1.mapping.isStandard && !t1.scale.isValid then do
    let b ← builtin12
    let r ← t1.retune b
    pure r.2
  else do
    let r ← t1.retune t1.scale
    pure r.2

end Verif.Tuning
