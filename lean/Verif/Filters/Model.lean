import Mathlib.Analysis.SpecialFunctions.Trigonometric.Basic
import Mathlib.Analysis.SpecialFunctions.Pow.Real
import Mathlib.Analysis.SpecialFunctions.Sqrt
import Verif.Biquad.Model
import Verif.Dsp.Clip
/-!
# The per-voice filter units

Models `surgefilter-iir`, `surgefilter-svf`, `surgefilter-snh`, `surgefilter-moog`, `surge-coeffmaker`, the parts of `surge-qfunit` they run on, and
`note_to_omega`/`n2p` of `surge-tuning`.  One SIMD lane (the four lanes of a quad are four voices and never mix inside a filter),
exact real arithmetic.  Arrays with constant indices are functions from `ℕ`: every index used is below the array's length.
-/
namespace Verif.Filters

/-- surge-qfunit/src/qf_unit_state.rs 4-24 `QuadFilterUnitState`, one lane: coefficients, their per-sample increments, registers.
`stage` is `comb_write_position[0]`, which selects the ladder's output. The comb's delay line is modelled elsewhere. -/
structure FU where
  coeff : ℕ → ℝ
  dcoeff : ℕ → ℝ
  reg : ℕ → ℝ
  stage : ℤ

/-- qf_unit_state.rs 36-51 `QuadFilterUnitState::new`. -/
def FU.new : FU := ⟨fun _ => 0, fun _ => 0, fun _ => 0, 0⟩

/-- The repeated `qfu.coeff[i] = _mm_add_ps(qfu.coeff[i], qfu.dcoeff[i])`, for the listed indices. -/
def FU.adv (u : FU) (is : List ℕ) : FU :=
  { u with coeff := fun i => if i ∈ is then u.coeff i + u.dcoeff i else u.coeff i }

/-- `qfu.reg[i] = v`. -/
def FU.set (u : FU) (i : ℕ) (v : ℝ) : FU := { u with reg := Function.update u.reg i v }

/-- The gain stored after each sample: `max(0.1, 1 - clipgain * y * y)` (quad_iir_12_b.rs 70-77 and its copies). -/
noncomputable def clipReg (clip y : ℝ) : ℝ := max 0.1 (1.0 - clip * (y * y))

/-! ## surgefilter-iir: processing -/

/-- quad_iir_12_a.rs 15-68 `iir_12_a_quad`: normalised lattice. -/
def iir12a (u : FU) (x : ℝ) : FU × ℝ :=
  let u := u.adv [1, 3, 0, 2, 4, 5, 6]
  let c := u.coeff
  let f2 := c 3 * x - c 1 * u.reg 1
  let g2 := c 1 * x + c 3 * u.reg 1
  let f1 := c 2 * f2 - c 0 * u.reg 0
  let g1 := c 0 * f2 + c 2 * u.reg 0
  let y := c 6 * g2 + c 5 * g1 + c 4 * f1
  ((u.set 0 f1).set 1 g1, y)

/-- quad_iir_12_b.rs 16-82 `iir_12_b_quad`: the same lattice with a clip gain; `f2` and `f1` use the coefficients of the previous sample. -/
noncomputable def iir12b (u : FU) (x : ℝ) : FU × ℝ :=
  let c := u.coeff
  let f2 := c 3 * x - c 1 * u.reg 1
  let u := u.adv [1, 3]
  let g2 := u.coeff 1 * x + u.coeff 3 * u.reg 1
  let f1 := u.coeff 2 * f2 - u.coeff 0 * u.reg 0
  let u := u.adv [0, 2]
  let g1 := u.coeff 0 * f2 + u.coeff 2 * u.reg 0
  let u := u.adv [4, 5, 6]
  let y := u.coeff 6 * g2 + u.coeff 5 * g1 + u.coeff 4 * f1
  let u := (u.set 0 (f1 * u.reg 2)).set 1 (g1 * u.reg 2)
  let u := u.adv [7]
  (u.set 2 (clipReg (u.coeff 7) y), y)

/-- quad_iir_12_cfc.rs 15-72 `iir_12_cfc_quad`: coupled form with a clip gain. -/
noncomputable def iir12cfc (u : FU) (x : ℝ) : FU × ℝ :=
  let u := u.adv [0, 1, 2, 4, 5, 6]
  let c := u.coeff
  let y := c 4 * u.reg 0 + c 6 * x + c 5 * u.reg 1
  let s1 := x * c 2 + (c 0 * u.reg 0 - c 1 * u.reg 1)
  let s2 := c 1 * u.reg 0 + c 0 * u.reg 1
  let u := (u.set 0 (s1 * u.reg 2)).set 1 (s2 * u.reg 2)
  let u := u.adv [7]
  (u.set 2 (clipReg (u.coeff 7) y), y)

/-- quad_iir_12_cfl.rs 67-82: the limiter. `rs` stands for the reciprocal square root instruction `_mm_rsqrt_ps`. -/
noncomputable def limitReg (rs : ℝ → ℝ) (r y : ℝ) : ℝ := r * 0.999 + rs (max 1.0 (2.0 * |y|)) * 0.001

/-- quad_iir_12_cfl.rs 14-87 `iir_12_cfl_quad`: coupled form with a limiter. -/
noncomputable def iir12cfl (rs : ℝ → ℝ) (u : FU) (x : ℝ) : FU × ℝ :=
  let u := u.adv [0, 1, 2, 4, 5, 6]
  let c := u.coeff
  let y := c 4 * u.reg 0 + c 6 * x + c 5 * u.reg 1
  let ar := c 0 * u.reg 2
  let ai := c 1 * u.reg 2
  let s1 := x * c 2 + (ar * u.reg 0 - ai * u.reg 1)
  let s2 := ai * u.reg 0 + ar * u.reg 1
  let u := (u.set 0 s1).set 1 s2
  (u.set 2 (limitReg rs (u.reg 2) y), y)

/-- quad_iir_24_b.rs 17-117 `iir_24_b_quad`: two lattices in series; registers 0-1 and 2-3, clip gain in register 4. -/
noncomputable def iir24b (u : FU) (x : ℝ) : FU × ℝ :=
  let u := u.adv [0, 1, 2, 3, 4, 5, 6]
  let c := u.coeff
  let f2 := c 3 * x - c 1 * u.reg 1
  let g2 := c 1 * x + c 3 * u.reg 1
  let f1 := c 2 * f2 - c 0 * u.reg 0
  let g1 := c 0 * f2 + c 2 * u.reg 0
  let u := (u.set 0 (f1 * u.reg 4)).set 1 (g1 * u.reg 4)
  let y1 := c 6 * g2 + c 5 * g1 + c 4 * f1
  let f2 := c 3 * y1 - c 1 * u.reg 3
  let g2 := c 1 * y1 + c 3 * u.reg 3
  let f1 := c 2 * f2 - c 0 * u.reg 2
  let g1 := c 0 * f2 + c 2 * u.reg 2
  let u := (u.set 2 (f1 * u.reg 4)).set 3 (g1 * u.reg 4)
  let y2 := c 6 * g2 + c 5 * g1 + c 4 * f1
  let u := u.adv [7]
  (u.set 4 (clipReg (u.coeff 7) y2), y2)

/-- quad_iir_24_cfg.rs 17-98 `iir_24_cfc_quad`: two coupled forms in series; registers 0-1 and 3-4, clip gain in register 2. -/
noncomputable def iir24cfc (u : FU) (x : ℝ) : FU × ℝ :=
  let u := u.adv [0, 1, 2, 4, 5, 6]
  let c := u.coeff
  let y := c 4 * u.reg 0 + c 6 * x + c 5 * u.reg 1
  let s1 := x * c 2 + (c 0 * u.reg 0 - c 1 * u.reg 1)
  let s2 := c 1 * u.reg 0 + c 0 * u.reg 1
  let u := (u.set 0 (s1 * u.reg 2)).set 1 (s2 * u.reg 2)
  let y2 := c 4 * u.reg 3 + c 6 * y + c 5 * u.reg 4
  let s3 := y * c 2 + (c 0 * u.reg 3 - c 1 * u.reg 4)
  let s4 := c 1 * u.reg 3 + c 0 * u.reg 4
  let u := (u.set 3 (s3 * u.reg 2)).set 4 (s4 * u.reg 2)
  let u := u.adv [7]
  (u.set 2 (clipReg (u.coeff 7) y2), y2)

/-- quad_iir_24_cfl.rs 17-107 `iir_24_cfl_quad`: two coupled forms in series with a limiter. -/
noncomputable def iir24cfl (rs : ℝ → ℝ) (u : FU) (x : ℝ) : FU × ℝ :=
  let u := u.adv [0, 1, 2, 4, 5, 6]
  let c := u.coeff
  let ar := c 0 * u.reg 2
  let ai := c 1 * u.reg 2
  let y := c 4 * u.reg 0 + c 6 * x + c 5 * u.reg 1
  let s1 := x * c 2 + (ar * u.reg 0 - ai * u.reg 1)
  let s2 := ai * u.reg 0 + ar * u.reg 1
  let u := (u.set 0 s1).set 1 s2
  let y2 := c 4 * u.reg 3 + c 6 * y + c 5 * u.reg 4
  let s3 := y * c 2 + (ar * u.reg 3 - ai * u.reg 4)
  let s4 := ai * u.reg 3 + ar * u.reg 4
  let u := (u.set 3 s3).set 4 s4
  (u.set 2 (limitReg rs (u.reg 2) y2), y2)

/-! ## surgefilter-iir: design -/

/-- surge-types `FilterSubType`. -/
inductive SubType | svf | rough | smooth | medium
  deriving DecidableEq
/-- surge-types `FilterTypeIIR`. -/
inductive IirType | lowPass | bandPass | highPass
  deriving DecidableEq
/-- surge-types `PoleType`. -/
inductive PoleType | two | four
  deriving DecidableEq

/-- iir_process_quad.rs 36-66 `IIRFilter::process_quad`; `none` is `unreachable!()`. -/
noncomputable def iirProcess (rs : ℝ → ℝ) : IirType → SubType → PoleType → Option (FU → ℝ → FU × ℝ)
  | .lowPass, .rough, .two => some iir12cfc
  | .lowPass, .rough, .four => some iir24cfc
  | .lowPass, .smooth, .two => some iir12b
  | .lowPass, .smooth, .four => some iir24b
  | .lowPass, .medium, .two => some (iir12cfl rs)
  | .lowPass, .medium, .four => some (iir24cfl rs)
  | .highPass, .rough, .two => some iir12cfc
  | .highPass, .rough, .four => some iir24cfc
  | .highPass, .smooth, .two => some iir12b
  | .highPass, .smooth, .four => some iir24b
  | .highPass, .medium, .two => some (iir12cfl rs)
  | .highPass, .medium, .four => some (iir24cfl rs)
  | .bandPass, .rough, .two => some iir12cfc
  | .bandPass, .rough, .four => some iir24cfc
  | .bandPass, .smooth, .two => some iir12b
  | .bandPass, .smooth, .four => some iir24b
  | .bandPass, .medium, .two => some (iir12cfl rs)
  | .bandPass, .medium, .four => some (iir24cfl rs)
  | _, _, _ => none

/-- coeffs.rs 4-11 `FilterCoeffs`. -/
structure Fc where
  a0 : ℝ
  a1 : ℝ
  a2 : ℝ
  b0 : ℝ
  b1 : ℝ
  b2 : ℝ

/-- coeffs.rs 19-28 `bandreject`. -/
noncomputable def Fc.bandreject (α c : ℝ) : Fc := ⟨1.0 + α, -2.0 * c, 1.0 - α, 1.0, -2.0 * c, 1.0⟩
/-- coeffs.rs 30-42 `bandpass`. -/
noncomputable def Fc.bandpass (α c q2inv : ℝ) : Fc :=
  let q := 0.5 / q2inv
  ⟨1.0 + α, -2.0 * c, 1.0 - α, q * α, 0.0, -q * α⟩
/-- coeffs.rs 44-53 `lowpass`. -/
noncomputable def Fc.lowpass (α c : ℝ) : Fc := ⟨1.0 + α, -2.0 * c, 1.0 - α, (1.0 - c) * 0.5, 1.0 - c, (1.0 - c) * 0.5⟩
/-- coeffs.rs 55-64 `highpass`. -/
noncomputable def Fc.highpass (α c : ℝ) : Fc := ⟨1.0 + α, -2.0 * c, 1.0 - α, (1.0 + c) * 0.5, -(1.0 + c), (1.0 + c) * 0.5⟩

/-- coupled.rs 5-60 `to_coupled_form`. -/
noncomputable def Fc.coupled (f : Fc) (gain clip : ℝ) : ℕ → ℝ :=
  let inv := 1.0 / f.a0
  let b0 := f.b0 * gain * inv
  let b1 := f.b1 * gain * inv
  let b2 := f.b2 * gain * inv
  let a1 := f.a1 * inv
  let a2 := f.a2 * inv
  let ar := 0.5 * -a1
  let sq := min 0 (a1 * a1 - 4.0 * a2)
  let ai := max (0.5 * Real.sqrt (-sq)) (8.0 * 1.192092896e-07)
  let bb1 := b1 - a1 * b0
  let bb2 := b2 - a2 * b0
  fun i => match i with
    | 0 => ar | 1 => ai | 2 => 1 | 3 => 0 | 4 => bb1 | 5 => (bb1 * ar + bb2) / ai | 6 => b0 | 7 => clip | _ => 0

/-- lattice.rs 5-50 `to_normalized_lattice`. -/
noncomputable def Fc.lattice (f : Fc) (gain clip : ℝ) : ℕ → ℝ :=
  let inv := 1.0 / f.a0
  let b0 := f.b0 * gain * inv
  let b1 := f.b1 * gain * inv
  let b2 := f.b2 * gain * inv
  let a1 := f.a1 * inv
  let a2 := f.a2 * inv
  let k1 := a1 / (1.0 + a2)
  let k2 := a2
  let q1 := Real.sqrt |1.0 - k1 * k1|
  let q2 := Real.sqrt |1.0 - k2 * k2|
  let v3 := b2
  let v2 := (b1 - a1 * v3) / q2
  let v1 := (b0 - k1 * v2 * q2 - k2 * v3) / (q1 * q2)
  fun i => match i with
    | 0 => k1 | 1 => k2 | 2 => q1 | 3 => q2 | 4 => v1 | 5 => v2 | 6 => v3 | 7 => clip | _ => 0

/-- surge-math/src/limit_range.rs `limit_range` (proved to clamp in `Verif.Dsp`). -/
noncomputable def limit (x lo hi : ℝ) : ℝ := max lo (min x hi)

/-- surge-math/src/saturate.rs 18-27 `boundfreq`. -/
noncomputable def boundfreq (f : ℝ) : ℝ := open Classical in
  let f := if 75 < f then 75 else f
  if f < -55 then -55 else f

/-- reso.rs 8-9: the resonance is reduced above note 58. -/
noncomputable def taper (reso freq : ℝ) : ℝ := reso * max 0 (1.0 - max 0 ((freq - 58.0) * 0.05))
/-- reso.rs: `1 - (1 - reso)²`. -/
noncomputable def curve (reso : ℝ) : ℝ := 1.0 - (1.0 - reso) * (1.0 - reso)

/-- reso.rs 3-18 `map_2pole_resonance`. -/
noncomputable def map2pole (reso freq : ℝ) : SubType → ℝ
  | .medium => 0.99 - 1.0 * limit (curve (taper reso freq)) 0 1
  | .rough => 1.0 - 1.05 * limit (curve (taper reso freq)) 0.001 1
  | .smooth => 2.5 - 2.45 * limit (curve reso) 0 1
  | .svf => 0

/-- reso.rs 32-48 `map_4pole_resonance`. -/
noncomputable def map4pole (reso freq : ℝ) : SubType → ℝ
  | .medium => 0.99 - 0.9949 * limit (taper reso freq) 0 1
  | .rough => 1.0 - 1.05 * limit (taper reso freq) 0.001 1
  | .smooth => 2.5 - 2.3 * limit reso 0 1
  | .svf => 2.5 - 2.3 * limit reso 0 1

/-- coeffs.rs 75-87 `FilterCoeffs::q2inv`. -/
noncomputable def q2inv (reso freq : ℝ) (s : SubType) : PoleType → ℝ
  | .two => map2pole reso freq s
  | .four => map4pole reso freq s

/-- reso.rs 50-59 `resoscale`. -/
noncomputable def resoscale (reso : ℝ) : SubType → ℝ
  | .medium => 1.0 - 0.75 * reso * reso
  | .rough => 1.0 - 0.5 * reso * reso
  | .smooth => 1.0 - 0.25 * reso * reso
  | .svf => 1.0

/-- coeffs.rs 89-105 `FilterCoeffs::alpha`. -/
noncomputable def alpha (sinu cosi q2inv : ℝ) : SubType → ℝ
  | .svf => sinu * q2inv
  | _ => min (sinu * q2inv) (Real.sqrt (1.0 - cosi * cosi) - 0.0001)

/-! ### surge-tuning: the note tables -/

/-- `f as i64`, for values in range. -/
noncomputable def trunc (x : ℝ) : ℤ := open Classical in if 0 ≤ x then ⌊x⌋ else ⌈x⌉

/-- surge-tuning/src/tables.rs 33 `table_pitch_ignoring_tuning`. -/
noncomputable def tablePitch (i : ℕ) : ℝ := (2 : ℝ) ^ (((i : ℝ) - 256.0) * (1.0 / 12.0))

/-- tables.rs 39-58: the angle whose sine (row 0) and cosine (row 1) are stored; `srosInv` is `dsamplerate_os_inv`. -/
noncomputable def tableAngle (srosInv : ℝ) (i : ℕ) : ℝ := 2.0 * Real.pi * min 0.5 (440.0 * tablePitch i * srosInv)

/-- surge-math/src/interp.rs 21-28 `lerp` (its assertion `0 ≤ x < 1` holds for notes from -256 up). -/
def lerp (x a b : ℝ) : ℝ := (1 - x) * a + x * b

/-- surge-tuning/src/tuner.rs 122-154 `note_to_omega::<f64, true>`: sine first, cosine second. -/
noncomputable def noteToOmega (srosInv x : ℝ) : ℝ × ℝ :=
  let x := x + 256.0
  let e := trunc x
  let t := x - e
  let e := if 0x1fe < e then 0x1fe else if e < 0 then 0 else e
  let i := e.toNat % 512
  let j := (e + 1).toNat % 512
  let sinu := lerp t (Real.sin (tableAngle srosInv i)) (Real.sin (tableAngle srosInv j))
  let cosi := lerp t (Real.cos (tableAngle srosInv i)) (Real.cos (tableAngle srosInv j))
  (sinu, cosi)

/-- iir.rs 44-49: the choice of design. -/
noncomputable def designOf (α cosi q : ℝ) : IirType → Fc
  | .lowPass => Fc.lowpass α cosi
  | .bandPass => Fc.bandpass α cosi q
  | .highPass => Fc.highpass α cosi

/-- iir.rs 51-57: the choice of realisation. -/
noncomputable def realise (f : Fc) (gain clip : ℝ) : SubType → ℕ → ℝ
  | .smooth => f.lattice gain clip
  | _ => f.coupled gain clip

/-- iir.rs 30-58 `IIRFilter::coeff_make`. Line 41 names the pair returned by `note_to_omega` `(cosi, sinu)`.
`clipscale` is `tables.clipscale(freq, subtype)`. -/
noncomputable def iirCoeffMake (srosInv : ℝ) (clipscale : ℝ → SubType → ℝ) (ty : IirType) (s : SubType) (p : PoleType)
    (freq reso : ℝ) : ℕ → ℝ :=
  let gain := resoscale reso s
  let freq := boundfreq freq
  let q := q2inv reso freq s p
  let pair := noteToOmega srosInv freq
  let cosi := pair.1
  let sinu := pair.2
  let α := alpha sinu cosi q s
  realise (designOf α cosi q ty) gain (clipscale freq s) s

/-- bandreject.rs 22-60 `BandRejectFilter::coeff_make`; line 53 names the pair `(cosi, sinu)` as well. -/
noncomputable def bandrejectCoeffMake (srosInv : ℝ) (s : SubType) (freq reso : ℝ) : ℕ → ℝ :=
  let m := 1.0 - reso
  let m2 := m * m
  let freq := boundfreq freq
  let q := if s = .rough then 1.00 - 0.99 * limit (1.0 - m2) 0 1 else 2.5 - 2.49 * limit (1.0 - m2) 0 1
  let pair := noteToOmega srosInv freq
  let cosi := pair.1
  let sinu := pair.2
  (Fc.bandreject (sinu * q) cosi).lattice 1.0 0.005

/-! ## surgefilter-svf -/

/-- quad_svf_*.rs: one Chamberlin step with frequency `f` and damping `q` from band `b` and low `l`: new low, high, new band. -/
def chamberlin (f q x b l : ℝ) : ℝ × ℝ × ℝ :=
  let l' := l + f * b
  let h := x - l' - q * b
  (l', h, b + f * h)

/-- quad_svf_lp12_a.rs, quad_svf_bp12_a.rs, quad_svf_hp12_a.rs 5-end: two steps per sample, then the clip gain of register 2 on the
stored state; `pick` chooses low, high or band of the second step. The clip gain looks at the band of the *first* step. -/
noncomputable def svf12 (pick : ℝ × ℝ × ℝ → ℝ) (u : FU) (x : ℝ) : FU × ℝ :=
  let u := u.adv [0, 1]
  let s := chamberlin (u.coeff 0) (u.coeff 1) x (u.reg 0) (u.reg 1)
  let t := chamberlin (u.coeff 0) (u.coeff 1) x s.2.2 s.1
  let u := (u.set 0 (t.2.2 * u.reg 2)).set 1 (t.1 * u.reg 2)
  let u := u.adv [2]
  let u := u.set 2 (clipReg (u.coeff 2) s.2.2)
  let u := u.adv [3]
  (u, pick t * u.coeff 3)

/-- quad_svf_lp24_a.rs and its band and high copies: two sections in series, registers 0-1 and 3-4; the clip gain looks at the band of
the last step. -/
noncomputable def svf24 (pick : ℝ × ℝ × ℝ → ℝ) (u : FU) (x : ℝ) : FU × ℝ :=
  let u := u.adv [0, 1]
  let f := u.coeff 0
  let q := u.coeff 1
  let s := chamberlin f q x (u.reg 0) (u.reg 1)
  let t := chamberlin f q x s.2.2 s.1
  let u := (u.set 0 (t.2.2 * u.reg 2)).set 1 (t.1 * u.reg 2)
  let x := pick t
  let s := chamberlin f q x (u.reg 3) (u.reg 4)
  let t := chamberlin f q x s.2.2 s.1
  let u := (u.set 3 (t.2.2 * u.reg 2)).set 4 (t.1 * u.reg 2)
  let u := u.adv [2]
  let u := u.set 2 (clipReg (u.coeff 2) t.2.2)
  let u := u.adv [3]
  (u, pick t * u.coeff 3)

/-- quad_svf_*.rs: low, band or high of a step. -/
def svfPick : IirType → ℝ × ℝ × ℝ → ℝ
  | .lowPass, t => t.1
  | .highPass, t => t.2.1
  | .bandPass, t => t.2.2

/-- svf_process.rs 19-34 `SvfFilter::process_quad`. -/
noncomputable def svfProcess : IirType → PoleType → FU → ℝ → FU × ℝ
  | .lowPass, .two => svf12 (svfPick .lowPass)
  | .bandPass, .two => svf12 (svfPick .bandPass)
  | .highPass, .two => svf12 (svfPick .highPass)
  | .lowPass, .four => svf24 (svfPick .lowPass)
  | .bandPass, .four => svf24 (svfPick .bandPass)
  | .highPass, .four => svf24 (svfPick .highPass)

/-- svf.rs 19-62 `SvfFilter::coeff_make`; `f` is the cutoff in hertz (`440 * n2p(freq)`), `srInv` is `dsamplerate_inv`. -/
noncomputable def svfCoeffMake (f srInv : ℝ) (p : PoleType) (reso : ℝ) : ℕ → ℝ :=
  let f1 := 2.0 * Real.sin (Real.pi * min 0.11 (f * (0.25 * srInv)))
  let reso := Real.sqrt (limit reso 0 1)
  let overshoot : ℝ := match p with | .four => 0.1 | .two => 0.15
  let q1 := 2.0 - reso * (2.0 + overshoot) + f1 * f1 * overshoot * 0.9
  let q1 := min q1 (min 2.00 (2.00 - 1.52 * f1))
  fun i => match i with
    | 0 => f1 | 1 => q1 | 2 => 0.1 * reso * f1 | 3 => 1.0 - 0.65 * reso | _ => 0

/-! ## surgefilter-snh and surgefilter-moog -/

/-- snh.rs 14-34 `SnhFilter::process_quad`. -/
noncomputable def snh (u : FU) (x : ℝ) : FU × ℝ := open Classical in
  let u := u.adv [0, 1]
  let u := u.set 0 (u.reg 0 + u.coeff 0)
  let mask := 0 < u.reg 0
  let u := u.set 1 (if mask then Dsp.softclip (x - u.coeff 1 * u.reg 1) else u.reg 1)
  let u := u.set 0 (u.reg 0 + (if mask then -1 else 0))
  (u, u.reg 1)

/-- surge-math/src/softclip.rs 85-103 `softclip8_ps`. -/
noncomputable def softclip8ps (x : ℝ) : ℝ :=
  let x := max (min x 12) (-12)
  let t := x * -0.00028935185
  t * (x * x) + x

/-- surgefilter-moog/src/process.rs 9-66 `LpMoogFilter::process_quad`. -/
noncomputable def moog (u : FU) (x : ℝ) : FU × ℝ :=
  let u := u.adv [0, 1, 2]
  let c := u.coeff
  let u := u.set 0 (softclip8ps (u.reg 0 + c 1 * (x * c 0 - c 2 * (u.reg 3 + u.reg 4) - u.reg 0)))
  let u := u.set 1 (u.reg 1 + c 1 * (u.reg 0 - u.reg 1))
  let u := u.set 2 (u.reg 2 + c 1 * (u.reg 1 - u.reg 2))
  let u := u.set 4 (u.reg 3)
  let u := u.set 3 (u.reg 3 + c 1 * (u.reg 2 - u.reg 3))
  (u, u.reg (u.stage % 4).toNat)

/-- snh.rs 38-55 `SnhFilter::coeff_make`; `pitch` is `n2p(-freq)`, `sros` is `dsamplerate_os`. -/
noncomputable def snhCoeffMake (pitch sros reso : ℝ) : ℕ → ℝ :=
  let dtime := (1.0 / 440.0) * pitch * sros
  fun i => match i with
    | 0 => 1.0 / dtime | 1 => reso | _ => 0

/-- surgefilter-moog/src/coeff.rs 5-35 `LpMoogFilter::coeff_make`; `pitch` is `n2p(freq)`. -/
noncomputable def moogCoeffMake (pitch srosInv reso : ℝ) : ℕ → ℝ :=
  let gg := limit (440.0 * pitch * srosInv) 0 0.187
  let b := 1.0 - Real.exp (-2.0 * Real.pi * gg)
  let q := min (2.15 * limit reso 0 1) (0.5 / (b * b * b * b))
  fun i => match i with
    | 0 => 3.0 / (3.0 - q) | 1 => b | 2 => q | _ => 0

/-! ## surge-coeffmaker -/

/-- surge-coeffmaker/src/maker.rs 12-43 `FilterCoefficientMaker`. -/
structure Maker where
  coeff : ℕ → ℝ
  dcoeff : ℕ → ℝ
  tcoeff : ℕ → ℝ
  firstRun : Bool

/-- init.rs 21-54 `FilterCoefficientMaker::new`, init.rs 68-78 `reset`. -/
def Maker.new : Maker := ⟨fun _ => 0, fun _ => 0, fun _ => 0, true⟩

/-- maker.rs 5 `SMOOTH`. -/
noncomputable def SMOOTH : ℝ := 0.2

/-- maker.rs 70-111 `from_direct`: the first call stores zeros. -/
noncomputable def Maker.fromDirect (m : Maker) (n : ℕ → ℝ) : Maker :=
  if m.firstRun then ⟨fun _ => 0, fun _ => 0, fun _ => 0, false⟩
  else
    let t := fun i => (1.0 - SMOOTH) * m.tcoeff i + SMOOTH * n i
    ⟨m.coeff, fun i => (t i - m.coeff i) * (1.0 / 64), t, false⟩

/-- Processing samples in order. -/
def run (step : FU → ℝ → FU × ℝ) (u : FU) : List ℝ → FU × List ℝ
  | [] => (u, [])
  | x :: xs =>
    let r := step u x
    let q := run step r.1 xs
    (q.1, r.2 :: q.2)

/-- surge-voice/src/set_qfb.rs 119-128 and sync_from_qfb.rs 16-33, for one filter: load the maker's coefficients and increments (and the
voice's registers) into the unit, process one block, store the unit's coefficients and registers back. -/
noncomputable def block (step : FU → ℝ → FU × ℝ) (m : Maker) (reg : ℕ → ℝ) (stage : ℤ) (n : ℕ → ℝ) (xs : List ℝ) :
    Maker × (ℕ → ℝ) × List ℝ :=
  let m := m.fromDirect n
  let r := run step ⟨m.coeff, m.dcoeff, reg, stage⟩ xs
  ({ m with coeff := r.1.coeff }, r.1.reg, r.2)

end Verif.Filters
