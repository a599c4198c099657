import Verif.Rust
import Verif.Filters.Bounded
import Verif.Filters.Ladder
import Verif.Dsp.Fast
import Verif.Biquad.Stable
/-!
# The nonlinear-states and nonlinear-feedback filters (C201–C205)

surgefilter-nlstates and surgefilter-nlfeedback, one SIMD lane, exact real arithmetic.  Not modelled: `_mm_load_ps` on a local array that need not be 16-byte aligned (nlff.rs 74, 118), which may fault.
-/
namespace Verif.Filters
open Verif Verif.Dsp.Fast

/-! ## Model -/

/-- nlsf_type.rs 3-11, nlff.rs 21-29. -/
inductive NlType | lowPass | highPass | bandPass | notch | allpass
/-- nlff.rs 3-10; the nonlinear-states filter has the first two only (nlsf_saturator.rs). -/
inductive NlSat | tanh | soft | ojd | sine

/-- nlff.rs 79-100 `ojd_waveshaper`, arm by arm. -/
noncomputable def ojd (x : ℝ) : ℝ := open Classical in
  if x ≤ 1.7 then -1
  else if -1.7 < x ∧ x < -0.3 then (x + 0.3) + (x + 0.3) * (x + 0.3) / (4 * (1 - 0.3)) - 0.3
  else if 0.9 < x ∧ x < 1.1 then (x - 0.9) - (x - 0.9) * (x - 0.9) / (4 * (1 - 0.9)) + 0.9
  else 1

/-- The saturators, as the two `process_quad` apply them. -/
noncomputable def NlSat.fn : NlSat → ℝ → ℝ
  | .tanh => fasttanhClamped
  | .soft => Dsp.softclip
  | .ojd => Filters.ojd
  | .sine => fastsin

/-- surgefilter-nlfeedback/src/process.rs 14: bits 2 and 3 of `comb_write_position[0]`. -/
def nlfSat (stage : ℤ) : NlSat :=
  if stage / 4 % 4 = 0 then .tanh else if stage / 4 % 4 = 1 then .soft else if stage / 4 % 4 = 2 then .ojd else .sine

/-- surgefilter-nlstates/src/process.rs 163: `NLSFSaturator::try_from(..).unwrap()` with two variants. -/
def nlsSat (stage : ℤ) : Res Unit NlSat :=
  if stage / 4 % 4 = 0 then .ok .tanh else if stage / 4 % 4 = 1 then .ok .soft else .panic "called `Result::unwrap()` on an `Err` value"

/-- process.rs 152 of the one, 11 of the other: the number of sections, `(comb_write_position[0] & 3) + 1`. -/
def nlSections (stage : ℤ) : ℕ := (stage % 4).toNat + 1

/-- surgefilter-nlstates/src/process.rs 171-256: section `k`. `z1` and `z2` are copies made before the registers are written (qf_unit_state.rs 30-32), and the saturator is applied to the copies.
Coefficients: A1 = 0, A2 = 1, B0 = 2, B1 = 3, B2 = 4. -/
noncomputable def nlsSection (sat : ℝ → ℝ) (u : FU) (x : ℝ) (k : ℕ) : FU × ℝ :=
  let z1 := u.reg (2 * k)
  let z2 := u.reg (2 * k + 1)
  let out := z1 + u.coeff 2 * x
  let u := u.set (2 * k) (z2 + (u.coeff 3 * x - u.coeff 0 * out))
  let u := u.set (2 * k + 1) (u.coeff 4 * x - u.coeff 1 * out)
  let u := u.set (2 * k) (sat z1)
  let u := u.set (2 * k + 1) (sat z2)
  (u, out)

/-- The loop over the sections `0..=stages`. -/
noncomputable def nlChain (sec : FU → ℝ → ℕ → FU × ℝ) (u : FU) (x : ℝ) : ℕ → FU × ℝ
  | 0 => (u, x)
  | n + 1 => let r := nlChain sec u x n; sec r.1 r.2 n

/-- process.rs 143-272 `NonlinearStatesFilter::process_quad`, the saturator given. The increments are added after the sample. -/
noncomputable def nls (sat : NlSat) (u : FU) (x : ℝ) : FU × ℝ :=
  let r := nlChain (nlsSection sat.fn) u x (nlSections u.stage)
  (r.1.adv [0, 1, 2, 3, 4], r.2)

/-- process.rs 143-272 `NonlinearStatesFilter::process_quad`. -/
noncomputable def nlsProcess (u : FU) (x : ℝ) : Res Unit (FU × ℝ) :=
  (nlsSat u.stage).bind fun sat => .ok (nls sat u x)

/-- surgefilter-nlfeedback/src/process.rs 17-64: section `k`. Makeup = 5. -/
noncomputable def nlfSection (sat : ℝ → ℝ) (u : FU) (x : ℝ) (k : ℕ) : FU × ℝ :=
  let z1 := u.reg (2 * k)
  let z2 := u.reg (2 * k + 1)
  let out := z1 + u.coeff 2 * x
  let nf := sat out
  let u := u.set (2 * k) (z2 + (u.coeff 3 * x - u.coeff 0 * nf))
  let u := u.set (2 * k + 1) (u.coeff 4 * x - u.coeff 1 * nf)
  (u, out * u.coeff 5)

/-- process.rs 5-73 `NonlinearFeedbackFilter::process_quad`. -/
noncomputable def nlf (u : FU) (x : ℝ) : FU × ℝ :=
  let r := nlChain (nlfSection (nlfSat u.stage).fn) u x (nlSections u.stage)
  (r.1.adv [0, 1, 2, 3, 4, 5], r.2)

/-- nlsf.rs 18-23, nlff.rs 62-65 `clamped_frequency`; `f` is the frequency of the pitch. -/
noncomputable def nlFreq (f sr : ℝ) : ℝ := limit f 5 (sr * 0.3)

/-- coeff.rs 5-63 of surgefilter-nlstates, without the clamping: the cookbook design at the angular frequency `wc`. -/
noncomputable def nlDesign (ty : NlType) (wc reso : ℝ) : ℕ → ℝ :=
  let reso := limit reso 0 1
  let q := (reso * reso * reso) * 18.0 + 0.1
  let wsin := fastsin wc
  let wcos := fastcos wc
  let α := wsin / (2.0 * q)
  let a0r := 1.0 / (1.0 + α)
  let a1 := -2.0 * wcos * a0r
  let a2 := (1.0 - α) * a0r
  match ty with
  | .lowPass => fun i => match i with | 0 => a1 | 1 => a2 | 2 => (1.0 - wcos) * a0r * 0.5 | 3 => (1.0 - wcos) * a0r | 4 => (1.0 - wcos) * a0r * 0.5 | _ => 0
  | .highPass => fun i => match i with | 0 => a1 | 1 => a2 | 2 => -(1.0 + wcos) * a0r * -0.5 | 3 => -(1.0 + wcos) * a0r | 4 => -(1.0 + wcos) * a0r * -0.5 | _ => 0
  | .bandPass => fun i => match i with | 0 => a1 | 1 => a2 | 2 => wsin * 0.5 * a0r | 3 => 0.0 | 4 => -(wsin * 0.5 * a0r) | _ => 0
  | .notch => fun i => match i with | 0 => a1 | 1 => a2 | 2 => a0r | 3 => -2.0 * wcos * a0r | 4 => a0r | _ => 0
  | .allpass => fun i => match i with | 0 => a1 | 1 => a2 | 2 => a2 | 3 => a1 | 4 => 1.0 | _ => 0

/-- coeff.rs 3-65 `NonlinearStatesFilter::coeff_make`. -/
noncomputable def nlsCoeffMake (ty : NlType) (f sr reso : ℝ) : ℕ → ℝ := nlDesign ty (2.0 * Real.pi * nlFreq f sr / sr) reso

/-- surgefilter-nlfeedback/src/coeff.rs 37-50 `LP_NORM_TABLE`; indexed by the subtype, of which there are four (surge-types/src/filter.rs 50-57), so that the rest is never read. -/
noncomputable def lpNorm : Fin 4 → ℝ := ![1.53273, 1.33407, 1.08197, 0.958219]

/-- surgefilter-nlfeedback/src/coeff.rs 5-125 `coeff_make`. `res_makeup` is 1: the subtype is below 8. -/
noncomputable def nlfCoeffMake (ty : NlType) (sub : Fin 4) (f sr reso : ℝ) : ℕ → ℝ :=
  let nf := 2.0 * nlFreq f sr / sr
  let c := nlDesign ty (Real.pi * nf) reso
  let makeup : ℝ := match ty with
    | .lowPass => 1.0 * lpNorm sub / (max nf 0.001) ^ (0.1 : ℝ)
    | .highPass => 1.0 * lpNorm sub / (max (1.0 - nf) 0.001) ^ (0.1 : ℝ)
    | _ => 1.0
  fun i => if i = 5 then makeup else c i

/-! ## Specification -/

/-- The second-order filter the five coefficients stand for. -/
def Spec.nlBiquad (c : ℕ → ℝ) : Biquad.Cf := ⟨c 0, c 1, c 2, c 3, c 4⟩

/-- The transfer function of a second-order filter on the unit circle: numerator over denominator, `w = e^{-iθ}`. -/
noncomputable def Spec.numAt (c : Biquad.Cf) (w : ℂ) : ℂ := c.b0 + c.b1 * w + c.b2 * w ^ 2
/-- Its denominator. -/
noncomputable def Spec.denAt (c : Biquad.Cf) (w : ℂ) : ℂ := 1 + c.a1 * w + c.a2 * w ^ 2

/-- A bound on the output of `n` sections in series, the input being within `M`: each adds its four times the input and three times the saturator's limit, and its makeup gain of at most 3.1. -/
noncomputable def Spec.nlBound (M : ℝ) : ℕ → ℝ
  | 0 => M
  | n + 1 => 3.1 * (4 * Spec.nlBound M n + 3.1)

/-- Settings of the nonlinear-feedback filter at a sample rate for which its frequency limits are in order. -/
def Spec.nlfSetting (v : ℕ → ℝ) : Prop := ∃ ty sub f sr reso, 17 ≤ sr ∧ v = nlfCoeffMake ty sub f sr reso

end Verif.Filters
