import Mathlib.Analysis.SpecialFunctions.Trigonometric.Basic
import Mathlib.Analysis.SpecialFunctions.Pow.Real
import Mathlib.Analysis.SpecialFunctions.Complex.Circle
/-!
# The biquad filter (surge-biquad) and its smoothed coefficients (surge-lag, vlag.rs)

Simplification, for the whole file: `f64` and `f32` arithmetic is exact real arithmetic (no rounding, no overflow, no NaN), so the casts
`as f64` and `as f32` are the identity. The block functions take the list of the samples the raw pointers point to (`BLOCK_SIZE` of
them in the code, any number here) and return the list they write.
-/
namespace Verif.Biquad

/-- surge-lag vlag.rs 54-61 `VLag`: lane 0 of the two vectors (lane 1 is never used). -/
structure VLag where
  v : ℝ
  target : ℝ

/-- vlag.rs 12 `VLAG_D_LP`. -/
noncomputable def vlagLp : ℝ := 0.004
/-- vlag.rs 18 `VLAG_D_LPINV`. -/
noncomputable def vlagLpInv : ℝ := 1.0 - 0.004

/-- vlag.rs 83-88 `new_x87`. -/
noncomputable def VLag.new : VLag := ⟨0, 0⟩
/-- vlag.rs 127-129 `process`. -/
noncomputable def VLag.process (l : VLag) : VLag := ⟨l.v * vlagLpInv + l.target * vlagLp, l.target⟩
/-- vlag.rs 135-137 `new_value`. -/
def VLag.newValue (l : VLag) (f : ℝ) : VLag := ⟨l.v, f⟩
/-- vlag.rs 143-145 `instantize`. -/
def VLag.instantize (l : VLag) : VLag := ⟨l.target, l.target⟩
/-- vlag.rs 151-154 `start_value`. -/
def VLag.startValue (_l : VLag) (f : ℝ) : VLag := ⟨f, f⟩

/-- biquad.rs 4-16 `BiquadFilter` without the handles: the registers are pairs (`[0]` left, `[1]` right). -/
structure Filter where
  a1 : VLag
  a2 : VLag
  b0 : VLag
  b1 : VLag
  b2 : VLag
  reg0 : ℝ × ℝ
  reg1 : ℝ × ℝ
  firstRun : Bool

/-- biquad.rs 73-92 `new`. -/
noncomputable def Filter.new : Filter := ⟨.new, .new, .new, .new, .new, (0, 0), (0, 0), true⟩

/-- biquad.rs 57-68 `init`. -/
noncomputable def Filter.init (_f : Filter) : Filter := ⟨.new, .new, .new, .new, .new, (0, 0), (0, 0), true⟩

/-- biquad.rs 22-28 `coeff_process`; the block functions spell the same five calls out. -/
noncomputable def Filter.coeffProcess (f : Filter) : Filter :=
  ⟨f.a1.process, f.a2.process, f.b0.process, f.b1.process, f.b2.process, f.reg0, f.reg1, f.firstRun⟩

/-- biquad.rs 30-37 `coeff_instantize`. -/
def Filter.coeffInstantize (f : Filter) : Filter :=
  ⟨f.a1.instantize, f.a2.instantize, f.b0.instantize, f.b1.instantize, f.b2.instantize, f.reg0, f.reg1, f.firstRun⟩

/-- set_coeffs.rs 45-53: the `start_value` calls of the first run. -/
def Filter.start (f : Filter) (a1 a2 b0 b1 b2 : ℝ) : Filter :=
  if f.firstRun then ⟨f.a1.startValue a1, f.a2.startValue a2, f.b0.startValue b0, f.b1.startValue b1, f.b2.startValue b2,
    f.reg0, f.reg1, false⟩ else f

/-- set_coeffs.rs 55-59: the `new_value` calls. -/
def Filter.newValues (f : Filter) (a1 a2 b0 b1 b2 : ℝ) : Filter :=
  ⟨f.a1.newValue a1, f.a2.newValue a2, f.b0.newValue b0, f.b1.newValue b1, f.b2.newValue b2, f.reg0, f.reg1, f.firstRun⟩

/-- set_coeffs.rs 29-60 `set_coef`. -/
noncomputable def Filter.setCoef (f : Filter) (a0 a1 a2 b0 b1 b2 : ℝ) : Filter :=
  let inv := 1 / a0
  (f.start (a1 * inv) (a2 * inv) (b0 * inv) (b1 * inv) (b2 * inv)).newValues (a1 * inv) (a2 * inv) (b0 * inv) (b1 * inv) (b2 * inv)

/-- The five coefficients in force (`self.b0.v[0]` and so on). -/
structure Cf where
  a1 : ℝ
  a2 : ℝ
  b0 : ℝ
  b1 : ℝ
  b2 : ℝ

/-- The coefficients in force. -/
def Filter.cf (f : Filter) : Cf := ⟨f.a1.v, f.a2.v, f.b0.v, f.b1.v, f.b2.v⟩

/-- The three statements every processing function repeats for each channel (for instance process_sample.rs 44, 61, 66): output, new
`reg0`, new `reg1`. -/
def chan (c : Cf) (x r0 r1 : ℝ) : ℝ × ℝ × ℝ :=
  let op := x * c.b0 + r0
  (op, x * c.b1 - c.a1 * op + r1, x * c.b2 - c.a2 * op)

/-- The channel statements on the left registers. -/
def Filter.left (f : Filter) (x : ℝ) : Filter × ℝ :=
  let q := chan f.cf x f.reg0.1 f.reg1.1
  ({ f with reg0 := (q.2.1, f.reg0.2), reg1 := (q.2.2, f.reg1.2) }, q.1)

/-- The channel statements on the right registers. -/
def Filter.right (f : Filter) (x : ℝ) : Filter × ℝ :=
  let q := chan f.cf x f.reg0.2 f.reg1.2
  ({ f with reg0 := (f.reg0.1, q.2.1), reg1 := (f.reg1.1, q.2.2) }, q.1)

/-- surge-math flops.rs 3-7 `flush_denormal`. -/
noncomputable def flush (d : ℝ) : ℝ := open Classical in if |d| < 1e-30 then 0 else d

/-- process_mono.rs 112-113: the left registers. -/
noncomputable def Filter.flushLeft (f : Filter) : Filter :=
  { f with reg0 := (flush f.reg0.1, f.reg0.2), reg1 := (flush f.reg1.1, f.reg1.2) }

/-- process_stereo.rs 188-191: all four registers. -/
noncomputable def Filter.flushBoth (f : Filter) : Filter :=
  { f with reg0 := (flush f.reg0.1, flush f.reg0.2), reg1 := (flush f.reg1.1, flush f.reg1.2) }

/-- process_sample.rs 19-77 `process_sample`. -/
noncomputable def Filter.processSample (f : Filter) (x : ℝ) : Filter × ℝ := f.coeffProcess.left x

/-- process_sample_stereo.rs 30-97 `process_sample_stereo`. -/
noncomputable def Filter.processSampleStereo (f : Filter) (l r : ℝ) : Filter × ℝ × ℝ :=
  let p := f.coeffProcess.left l
  let q := p.1.right r
  (q.1, p.2, q.2)

/-- process_sample_nolag.rs `process_sample_nolag` and process_sample_stereo_nolag.rs `process_sample_stereo_nolag`: no coefficient
smoothing. -/
def Filter.processSampleNolag (f : Filter) (l r : ℝ) : Filter × ℝ × ℝ :=
  let p := f.left l
  let q := p.1.right r
  (q.1, p.2, q.2)

/-- process_sample_nolag_noinput.rs `process_sample_nolag_noinput`. -/
def Filter.processSampleNolagNoinput (f : Filter) : Filter × ℝ × ℝ :=
  let opl := f.reg0.1
  let opr := f.reg0.2
  ({ f with reg0 := (-f.a1.v * opl + f.reg1.1, -f.a1.v * opr + f.reg1.2), reg1 := (-f.a2.v * opl, -f.a2.v * opr) }, opl, opr)

/-- process_mono.rs 49-105: the loop. -/
noncomputable def Filter.monoLoop (f : Filter) : List ℝ → Filter × List ℝ
  | [] => (f, [])
  | x :: xs => let p := f.coeffProcess.left x
    let q := p.1.monoLoop xs
    (q.1, p.2 :: q.2)

/-- process_mono.rs 40-114 `process_block_mono`. -/
noncomputable def Filter.processBlockMono (f : Filter) (xs : List ℝ) : Filter × List ℝ :=
  let q := f.monoLoop xs
  (q.1.flushLeft, q.2)

/-- process_stereo.rs 126-186: the loop. -/
noncomputable def Filter.stereoLoop (f : Filter) : List (ℝ × ℝ) → Filter × List (ℝ × ℝ)
  | [] => (f, [])
  | (l, r) :: xs => let p := f.coeffProcess.left l
    let p' := p.1.right r
    let q := p'.1.stereoLoop xs
    (q.1, (p.2, p'.2) :: q.2)

/-- process_stereo.rs 113-192 `process_block_stereo`. -/
noncomputable def Filter.processBlockStereo (f : Filter) (xs : List (ℝ × ℝ)) : Filter × List (ℝ × ℝ) :=
  let q := f.stereoLoop xs
  (q.1.flushBoth, q.2)

/-- process_slowlag.rs 58-132: the loop. -/
def Filter.slowLoop (f : Filter) : List (ℝ × ℝ) → Filter × List (ℝ × ℝ)
  | [] => (f, [])
  | (l, r) :: xs => let p := f.left l
    let p' := p.1.right r
    let q := p'.1.slowLoop xs
    (q.1, (p.2, p'.2) :: q.2)

/-- process_slowlag.rs 45-151 `process_block_slowlag`: one coefficient step for the whole block. -/
noncomputable def Filter.processBlockSlowlag (f : Filter) (xs : List (ℝ × ℝ)) : Filter × List (ℝ × ℝ) :=
  let q := f.coeffProcess.slowLoop xs
  (q.1.flushBoth, q.2)

/-! ## The designs -/

/-- surge-math `limit_range` (exact; the cast to `f32` and back is dropped). -/
noncomputable def limit01 (x : ℝ) : ℝ := open Classical in if x < 0 then 0 else if 1 < x then 1 else x

/-- calc.rs 58-60 `calc_v1_q`. -/
noncomputable def calcV1Q (reso : ℝ) : ℝ := 1 / (1.02 - limit01 reso)

/-- calc.rs 49-52 `calc_omega_from_hertz`; `sr` is the sample rate. -/
noncomputable def calcOmegaFromHertz (sr hertz : ℝ) : ℝ := 2 * Real.pi * hertz * (1 / sr)

/-- coeff_lp.rs 86-117 `coeff_lp`. -/
noncomputable def Filter.coeffLp (f : Filter) (ω q : ℝ) : Filter := open Classical in
  if ω > Real.pi then f.setCoef 1 0 0 1 0 0 else
  let cosi := Real.cos ω
  let sinu := Real.sin ω
  let alpha := sinu / (2 * q)
  f.setCoef (1 + alpha) (-2 * cosi) (1 - alpha) ((1 - cosi) * 0.5) (1 - cosi) ((1 - cosi) * 0.5)

/-- coeff_lp.rs 130-133 `coeff_lp_with_bw`. -/
noncomputable def Filter.coeffLpWithBw (f : Filter) (ω bw : ℝ) : Filter := f.coeffLp ω (1 / bw)

/-- coeff_hp.rs 104-122 `coeff_hp`. -/
noncomputable def Filter.coeffHp (f : Filter) (ω q : ℝ) : Filter := open Classical in
  if ω > Real.pi then f.setCoef 1 0 0 0 0 0 else
  let cosi := Real.cos ω
  let sinu := Real.sin ω
  let alpha := sinu / (2 * q)
  f.setCoef (1 + alpha) (-2 * cosi) (1 - alpha) ((1 + cosi) * 0.5) (-(1 + cosi)) ((1 + cosi) * 0.5)

/-- coeff_hp.rs 146-149 `coeff_hp_with_bw`. -/
noncomputable def Filter.coeffHpWithBw (f : Filter) (ω bw : ℝ) : Filter := f.coeffHp ω (1 / bw)

/-- coeff_bp.rs 37-49 `coeff_bp`: there is no test of `omega`. -/
noncomputable def Filter.coeffBp (f : Filter) (ω q : ℝ) : Filter :=
  let cosi := Real.cos ω
  let sinu := Real.sin ω
  let alpha := sinu / (2 * q)
  f.setCoef (1 + alpha) (-2 * cosi) (1 - alpha) alpha 0 (-alpha)

/-- coeff_bp2a.rs 29-42 `coeff_bp2a`. -/
noncomputable def Filter.coeffBp2a (f : Filter) (ω bandwidth : ℝ) : Filter :=
  let cosi := Real.cos ω
  let sinu := Real.sin ω
  let q := 1 / (0.02 + 30 * bandwidth * bandwidth)
  let alpha := sinu / (2 * q)
  f.setCoef (1 + alpha) (-2 * cosi) (1 - alpha) alpha 0 (-alpha)

/-- coeff_pka.rs 34-48 `coeff_pka`. -/
noncomputable def Filter.coeffPka (f : Filter) (ω qq : ℝ) : Filter :=
  let cosi := Real.cos ω
  let sinu := Real.sin ω
  let reso := limit01 qq
  let q := 0.1 + 10 * reso * reso
  let alpha := sinu / (2 * q)
  f.setCoef (1 + alpha) (-2 * cosi) (1 - alpha) (q * alpha) 0 (-q * alpha)

/-- coeff_lph.rs 75-130 `coeff_lph_morph`: the morph parameter is not used. -/
noncomputable def Filter.coeffLphMorph (f : Filter) (ω q _morph : ℝ) : Filter :=
  let cosi := Real.cos ω
  let sinu := Real.sin ω
  let alpha := sinu / (2 * q)
  f.setCoef (1 + alpha) (-2 * cosi) (1 - alpha) alpha 0 (-alpha)

/-- coeff_notch.rs 109-192 `set_notch_filter_coefficients`. -/
noncomputable def Filter.coeffNotch (f : Filter) (ω qq : ℝ) : Filter := open Classical in
  if ω > Real.pi then f.setCoef 1 0 0 1 0 0 else
  let cosi := Real.cos ω
  let sinu := Real.sin ω
  let reso := limit01 qq
  let q := 1 / (0.02 + 30 * reso * reso)
  let alpha := sinu / (2 * q)
  f.setCoef (1 + alpha) (-2 * cosi) (1 - alpha) 1 (-2 * cosi) 1

/-- coeff_apf.rs 48-75 `coeff_apf`. -/
noncomputable def Filter.coeffApf (f : Filter) (ω q : ℝ) : Filter := open Classical in
  if ¬ (0 ≤ ω ∧ ω ≤ Real.pi) then f.setCoef 1 0 0 1 0 0 else
  let cosi := Real.cos ω
  let sinu := Real.sin ω
  let alpha := sinu / (2 * q)
  f.setCoef (1 + alpha) (-2 * cosi) (1 - alpha) (1 - alpha) (-2 * cosi) (1 + alpha)

/-- coeff_lp2b.rs 113-122: `den`. -/
noncomputable def lp2bDen (ω q : ℝ) : ℝ :=
  (ω * ω) * (ω * ω) + Real.pi * Real.pi * Real.pi * Real.pi + (ω * ω) * (Real.pi * Real.pi) * (1 / q - 2)

/-- coeff_lp2b.rs 124-127: `g1`. -/
noncomputable def lp2bG1 (ω q : ℝ) : ℝ := min 1 (Real.sqrt ((ω * ω) * (ω * ω) / lp2bDen ω q) * 0.5)

/-- coeff_lp2b.rs 92-154 `coeff_lp2b`. -/
noncomputable def Filter.coeffLp2b (f : Filter) (ω q : ℝ) : Filter := open Classical in
  if ω > Real.pi then f.setCoef 1 0 0 1 0 0 else
  let g1 := lp2bG1 ω q
  let cosi := Real.cos ω
  let sinu := Real.sin ω
  let alpha := sinu / (2 * q)
  let a := 2 * Real.sqrt g1 * Real.sqrt (2 - g1)
  f.setCoef (1 + alpha) (-2 * cosi) (1 - alpha) ((1 - cosi + g1 * (1 + cosi) + a * sinu) * 0.5) (1 - cosi - g1 * (1 + cosi))
    ((1 - cosi + g1 * (1 + cosi) - a * sinu) * 0.5)

/-- plot_magnitude.rs 20-38: the transfer function. -/
noncomputable def Cf.h (c : Cf) (freq : ℝ) : ℂ :=
  let z := Complex.exp (-2 * Real.pi * freq * Complex.I)
  ((c.b0 : ℂ) + c.b1 * z + c.b2 * z * z) / (1 + c.a1 * z + c.a2 * z * z)

/-- plot_magnitude.rs 8-53 `plot_magnitude`: `freq` is in cycles per sample (the sample rate is not used). -/
noncomputable def Filter.plotMagnitude (f : Filter) (freq : ℝ) : ℝ := ‖f.cf.h freq‖

/-! ## Histories of calls -/

/-- A call of the API. -/
inductive Call
  | setCoef (a0 a1 a2 b0 b1 b2 : ℝ)
  | instantize
  | sample (x : ℝ)
  | stereo (l r : ℝ)
  | nolag (l r : ℝ)
  | noinput
  | mono (xs : List ℝ)
  | block (xs : List (ℝ × ℝ))
  | slowlag (xs : List (ℝ × ℝ))

/-- One call: the filter afterwards, the samples written to the left and to the right output. -/
noncomputable def Filter.call (f : Filter) : Call → Filter × List ℝ × List ℝ
  | .setCoef a0 a1 a2 b0 b1 b2 => (f.setCoef a0 a1 a2 b0 b1 b2, [], [])
  | .instantize => (f.coeffInstantize, [], [])
  | .sample x => ((f.processSample x).1, [(f.processSample x).2], [])
  | .stereo l r => ((f.processSampleStereo l r).1, [(f.processSampleStereo l r).2.1], [(f.processSampleStereo l r).2.2])
  | .nolag l r => ((f.processSampleNolag l r).1, [(f.processSampleNolag l r).2.1], [(f.processSampleNolag l r).2.2])
  | .noinput => (f.processSampleNolagNoinput.1, [f.processSampleNolagNoinput.2.1], [f.processSampleNolagNoinput.2.2])
  | .mono xs => ((f.processBlockMono xs).1, (f.processBlockMono xs).2, [])
  | .block xs => ((f.processBlockStereo xs).1, (f.processBlockStereo xs).2.map (·.1), (f.processBlockStereo xs).2.map (·.2))
  | .slowlag xs => ((f.processBlockSlowlag xs).1, (f.processBlockSlowlag xs).2.map (·.1), (f.processBlockSlowlag xs).2.map (·.2))

/-- A history of calls. -/
noncomputable def Filter.calls (f : Filter) : List Call → Filter × List ℝ × List ℝ
  | [] => (f, [], [])
  | c :: cs => let p := f.call c
    let q := p.1.calls cs
    (q.1, p.2.1 ++ q.2.1, p.2.2 ++ q.2.2)

end Verif.Biquad
