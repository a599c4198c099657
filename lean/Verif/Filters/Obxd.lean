import Verif.Filters.NonlinearClaims
import Mathlib.Analysis.SpecialFunctions.Trigonometric.Arctan
/-!
# The OB-Xd filters (C208–C211)

surgefilter-obxd, one SIMD lane in use, exact real arithmetic. `ObxdFilter::process_quad` itself is `todo!()` (process.rs 3-11); what is
modelled are the two public functions it should call.
-/
namespace Verif.Filters
open Verif

/-! ## Model -/

/-- obxd.rs 44-52 `diode_pair_resistance_approx`. -/
noncomputable def diodePair (x : ℝ) : ℝ := (((0.0103592 * x + 0.00920833) * x + 0.185) * x + 0.05) * x + 1.0

/-- obxd.rs 18-32, 58-76 `get_12db_self_osc` and `SelfOsc::cfb`. -/
noncomputable def obxdCfb (push s1 : ℝ) : ℝ := if push = 1.0 then diodePair (s1 * 0.0876) - 1.035 else diodePair (s1 * 0.0876) - 1.0

/-- obxd.rs 79-124 `newton_raphson_12db`. -/
noncomputable def obxdSolve2 (x s1 s2 r g push : ℝ) : ℝ :=
  let t := obxdCfb push s1
  (((x - 2.0 * (s1 * (r + t))) - g * s1) - s2) / (1.0 + g * (2.0 * (r + t) + g))

/-- process_2pole.rs 48-93: the choice of output. -/
noncomputable def obxdMix2 (mm bp y1 y2 v : ℝ) : ℝ :=
  if bp = 0.0 then (1.0 - mm) * y2 + mm * v
  else if mm < 0.5 then (0.5 - mm) * y2 + mm * y1 else (1.0 - mm) * y1 + (mm - 0.5) * v

/-- process_2pole.rs 5-98 `process_2_pole`: coefficients `G12, R12, MultiMode, BandPass, SelfOscPush` are 0 to 4, registers `S1, S2` are 0 and 1. -/
noncomputable def obxd2 (u : FU) (x : ℝ) : FU × ℝ :=
  let u := u.adv [0, 1, 2, 3, 4]
  let g := u.coeff 0
  let v := obxdSolve2 x (u.reg 0) (u.reg 1) (u.coeff 1) g (u.coeff 4)
  let y1 := v * g + u.reg 0
  let y2 := y1 * g + u.reg 1
  ((u.set 0 (v * g + y1)).set 1 (y1 * g + y2), obxdMix2 (u.coeff 2) (u.coeff 3) y1 y2 v * 0.74)

/-- obxd.rs 126-165 `newton_raphson_r24_db`; `g` is the coefficient after its increment, `lpc` comes from before. -/
noncomputable def obxdSolve4 (x lpc s1 s2 s3 s4 g r : ℝ) : ℝ :=
  (x - r * ((lpc * (lpc * (lpc * s1 + s2) + s3) + s4) * (1.0 / (1.0 + g)))) / (1.0 + r * (lpc * lpc * (lpc * lpc)))

/-- obxd.rs 167-183 `tptpc`: the new state and the output. -/
noncomputable def tptpc (s x c : ℝ) : ℝ × ℝ :=
  let v := (x - s) * c / (1.0 + c)
  (v + s + v, v + s)

/-- process_4pole.rs 87-150: the choice of output. -/
noncomputable def obxdMix4 (pmi pms y1 y2 y3 y4 : ℝ) : ℝ :=
  ((if pmi = 0.0 then (1.0 - pms) * y4 + (pms + y3) else 0) + (if pmi = 1.0 then (1.0 - pms) * y3 + pms * y2 else 0)) +
  ((if pmi = 2.0 then (1.0 - pms) * y2 + pms * y1 else 0) + (if pmi = 3.0 then y1 else 0))

/-- process_4pole.rs 5-167 `process_4_pole`, a lane in use: coefficients `G24, R24, Rcor24, Rcor24inv, PoleMix, PoleMixInvInt, PoleMixScaled` are 0 to 6, registers `S1` to `S4` are 0 to 3.
The cutoff and the pole mix are read before the increments, the rest after them. -/
noncomputable def obxd4 (u : FU) (x : ℝ) : FU × ℝ :=
  let g := u.coeff 0
  let s1 := u.reg 0
  let pmi := u.coeff 5
  let pms := u.coeff 6
  let u := u.adv [0, 1, 2, 3, 4, 5, 6]
  let lpc := g / (1.0 + g)
  let y0 := obxdSolve4 x lpc s1 (u.reg 1) (u.reg 2) (u.reg 3) (u.coeff 0) (u.coeff 1)
  let v := (y0 - s1) * lpc
  let y1 := v + s1
  let p2 := tptpc (u.reg 1) y1 g
  let p3 := tptpc (u.reg 2) p2.2 g
  let p4 := tptpc (u.reg 3) p3.2 g
  ((((u.set 0 (Real.arctan ((y1 + v) * u.coeff 2) * u.coeff 3)).set 1 p2.1).set 2 p3.1).set 3 p4.1,
    obxdMix4 pmi pms y1 p2.2 p3.2 p4.2 * (1.0 + u.coeff 1 * 0.45) * 0.6)

/-- coeff.rs 59-120 `coeff_make` for two poles; `hz` stands for `n2p(freq + 69) * MIDI_0_FREQ`, the frequency before it is limited, `si` for the inverse of the oversampled rate. -/
noncomputable def obxdCoeff2 (sub : ℕ) (hz si reso : ℝ) : ℕ → ℝ := fun i => match i with
  | 0 => Real.tan (min hz 22000.0 * si * Real.pi)
  | 1 => 1.0 - reso
  | 2 => if sub = 0 ∨ sub = 4 then 0.0 else if sub = 1 ∨ sub = 5 then 0.5 else if sub = 2 ∨ sub = 6 then 1.0 else if sub = 3 ∨ sub = 7 then 0.5 else 0
  | 3 => if sub = 1 ∨ sub = 5 then 1.0 else 0.0
  | 4 => if sub > 3 then 1.0 else 0.0
  | _ => 0

/-- coeff.rs 59-120 `coeff_make` for four poles. -/
noncomputable def obxdCoeff4 (sub : ℕ) (hz si reso : ℝ) : ℕ → ℝ := fun i => match i with
  | 0 => Real.tan (min hz 22000.0 * si * Real.pi)
  | 1 => 3.5 * reso
  | 2 => (970.0 / 44000.0) * Real.sqrt (44000.0 * si)
  | 3 => 1.0 / ((970.0 / 44000.0) * Real.sqrt (44000.0 * si))
  | 4 => 1.0 - (sub : ℝ) / 3.0
  | 5 => 3.0 - (sub : ℝ)
  | 6 => (1.0 - (sub : ℝ) / 3.0) * 3.0 - (3.0 - (sub : ℝ))
  | _ => 0

/-! ## C208: the two-pole filter -/

/-- The voltage dependence of the damping: how far below nominal the diode pair can pull the damping (obxd.rs: 0.0034, and 0.035 more when pushed). -/
noncomputable def Spec.obxdMargin (push : ℝ) : ℝ := if push = 1 then 0.0384 else 0.0034

theorem diode_ge (x : ℝ) : -0.0034 ≤ diodePair x - 1.0 := by
  unfold diodePair
  norm_num
  nlinarith [sq_nonneg (x * x + 920833 / 2071840 * x + 0.0419), sq_nonneg (x + 0.13624)]

theorem cfb_ge (push s : ℝ) : -Spec.obxdMargin push ≤ obxdCfb push s := by
  have := diode_ge (s * 0.0876)
  unfold obxdCfb Spec.obxdMargin
  rw [show (1.0 : ℝ) = 1 by norm_num] at *
  split_ifs <;> norm_num at this ⊢ <;> linarith

/-- The two-pole circuit: with the damping `r`, the cutoff `g` and the charges `s1`, `s2`, the currents solve the equations of two trapezoidal integrators in a loop *at the same instant*. -/
structure Spec.TwoPole (x r g s1 s2 v y1 y2 t1 t2 : ℝ) : Prop where
  hp : v = x - 2 * r * y1 - y2
  i1 : y1 = s1 + g * v
  i2 : y2 = s2 + g * y1
  n1 : t1 = s1 + 2 * g * v
  n2 : t2 = s2 + 2 * g * y1

/-- The coefficients a sample is computed with: those in force plus their increments. -/
def Spec.now (u : FU) (i : ℕ) : ℝ := u.coeff i + u.dcoeff i

/-- The damping a sample is computed with. -/
noncomputable def Spec.damping (u : FU) : ℝ := Spec.now u 1 + obxdCfb (Spec.now u 4) (u.reg 0)

theorem two_pole_solve {x r g s1 s2 : ℝ} (hg : 0 ≤ g) (hr : 0 ≤ r) {v : ℝ} (hv : v = (((x - 2 * (s1 * r)) - g * s1) - s2) / (1 + g * (2 * r + g))) :
    Spec.TwoPole x r g s1 s2 v (s1 + g * v) (s2 + g * (s1 + g * v)) (s1 + 2 * g * v) (s2 + 2 * g * (s1 + g * v)) := by
  have d : 0 < 1 + g * (2 * r + g) := by positivity
  refine ⟨?_, rfl, rfl, rfl, rfl⟩
  have : v * (1 + g * (2 * r + g)) = ((x - 2 * (s1 * r)) - g * s1) - s2 := by rw [hv]; field_simp
  linarith

/-- **C208.** Every sample solves the circuit's equations at that very instant (no unit delay in the loop), with the damping set by the first capacitor's charge, and the output is the selected mixture of the three taps. -/
theorem C208_circuit (u : FU) (x : ℝ) (hg : 0 ≤ Spec.now u 0) (hr : 0 ≤ Spec.damping u) :
    ∃ v y1 y2, Spec.TwoPole x (Spec.damping u) (Spec.now u 0) (u.reg 0) (u.reg 1) v y1 y2 ((obxd2 u x).1.reg 0) ((obxd2 u x).1.reg 1) ∧
      (obxd2 u x).2 = 0.74 * (if Spec.now u 3 = 0 then (1 - Spec.now u 2) * y2 + Spec.now u 2 * v
        else if Spec.now u 2 < 1 / 2 then (1 / 2 - Spec.now u 2) * y2 + Spec.now u 2 * y1 else (1 - Spec.now u 2) * y1 + (Spec.now u 2 - 1 / 2) * v) := by
  have e2 : (2.0 : ℝ) = 2 := by norm_num
  have e1 : (1.0 : ℝ) = 1 := by norm_num
  have eh : (0.5 : ℝ) = 1 / 2 := by norm_num
  have e0 : (0.0 : ℝ) = 0 := by norm_num
  set v := obxdSolve2 x (u.reg 0) (u.reg 1) (Spec.now u 1) (Spec.now u 0) (Spec.now u 4) with hv
  have tp := two_pole_solve (x := x) (s1 := u.reg 0) (s2 := u.reg 1) hg hr (v := v) (by rw [hv]; simp only [obxdSolve2, e1, e2]; rfl)
  refine ⟨v, u.reg 0 + Spec.now u 0 * v, u.reg 1 + Spec.now u 0 * (u.reg 0 + Spec.now u 0 * v), ?_, ?_⟩
  · convert tp using 1
    · simp [obxd2, FU.set, FU.adv]
      change v * Spec.now u 0 + (v * Spec.now u 0 + u.reg 0) = _
      ring
    · simp [obxd2, FU.set, FU.adv]
      change (v * Spec.now u 0 + u.reg 0) * Spec.now u 0 + ((v * Spec.now u 0 + u.reg 0) * Spec.now u 0 + u.reg 1) = _
      ring
  · have : (obxd2 u x).2 = obxdMix2 (Spec.now u 2) (Spec.now u 3) (v * Spec.now u 0 + u.reg 0) ((v * Spec.now u 0 + u.reg 0) * Spec.now u 0 + u.reg 1) v * 0.74 := by
      simp [obxd2, FU.adv]
      left; rfl
    rw [this, mul_comm]
    congr 1
    simp only [obxdMix2, e1, eh, e0]
    split_ifs <;> ring

/-- The energy the circuit stores relative to its rest position under the constant input `c`. -/
def Spec.stored (c : ℝ) (reg : ℕ → ℝ) : ℝ := reg 0 ^ 2 + (reg 1 - c) ^ 2

/-- The damping setting outweighs the diode pair. -/
def Spec.Damped (u : FU) : Prop := 0 ≤ Spec.now u 0 ∧ Spec.obxdMargin (Spec.now u 4) ≤ Spec.now u 1

theorem damped_ge {u : FU} (h : Spec.Damped u) : 0 ≤ Spec.damping u ∧ Spec.now u 1 - Spec.obxdMargin (Spec.now u 4) ≤ Spec.damping u := by
  have := cfb_ge (Spec.now u 4) (u.reg 0)
  have := h.2
  unfold Spec.damping
  constructor <;> linarith

theorem two_pole_energy {x r g s1 s2 v y1 y2 t1 t2 : ℝ} (h : Spec.TwoPole x r g s1 s2 v y1 y2 t1 t2) (c : ℝ) :
    t1 ^ 2 + (t2 - c) ^ 2 = s1 ^ 2 + (s2 - c) ^ 2 + 4 * g * y1 * ((x - c) - 2 * r * y1) := by
  obtain ⟨h1, h2, h3, h4, h5⟩ := h
  have e1 : g * v = y1 - s1 := by rw [h2]; ring
  have e2 : g * y1 = y2 - s2 := by rw [h3]; ring
  rw [h4, h5]
  have k1 : (s1 + 2 * g * v) ^ 2 = s1 ^ 2 + 4 * g * y1 * v := by linear_combination 4 * (g * v) * e1
  linear_combination k1 + 4 * g * y1 * h1 + 4 * (g * y1) * e2

/-- A run in which the caller may set all coefficients and increments anew before every sample: only the registers carry over. -/
def Spec.Played (step : FU → ℝ → FU × ℝ) (U : ℕ → FU) (x : ℕ → ℝ) : Prop := ∀ n, (U (n + 1)).reg = (step (U n) (x n)).1.reg

/-- **C208.** Passivity: however the cutoff, the resonance and the mode are modulated from sample to sample, as long as the damping setting outweighs the diode pair, the energy stored relative to a constant input never grows … -/
theorem C208_passive {U : ℕ → FU} {c : ℝ} (h : Spec.Played obxd2 U fun _ => c) (hd : ∀ n, Spec.Damped (U n)) : Antitone fun n => Spec.stored c (U n).reg := by
  refine antitone_nat_of_succ_le fun n => ?_
  obtain ⟨d0, d1⟩ := damped_ge (hd n)
  obtain ⟨v, y1, y2, tp, -⟩ := C208_circuit (U n) c (hd n).1 d0
  have := two_pole_energy tp c
  simp only [Spec.stored]
  rw [h n, this]
  have : 0 ≤ Spec.now (U n) 0 * Spec.damping (U n) * y1 ^ 2 := mul_nonneg (mul_nonneg (hd n).1 d0) (sq_nonneg _)
  nlinarith

/-- … so a low-pass never strays further from the constant input than its initial energy allows. -/
theorem C208_lowpass_within {U : ℕ → FU} {c : ℝ} (h : Spec.Played obxd2 U fun _ => c) (hd : ∀ n, Spec.Damped (U n)) (n : ℕ)
    (hm : Spec.now (U n) 2 = 0 ∧ Spec.now (U n) 3 = 0) : |(obxd2 (U n) c).2 - 0.74 * c| ≤ 0.74 * √(Spec.stored c (U 0).reg) := by
  obtain ⟨d0, d1⟩ := damped_ge (hd n)
  obtain ⟨v, y1, y2, tp, ho⟩ := C208_circuit (U n) c (hd n).1 d0
  rw [ho, if_pos hm.2, hm.1, show 0.74 * ((1 - 0) * y2 + 0 * v) - 0.74 * c = 0.74 * (y2 - c) by ring, abs_mul, abs_of_nonneg (by norm_num : (0 : ℝ) ≤ 0.74)]
  refine mul_le_mul_of_nonneg_left ?_ (by norm_num)
  have e1 := C208_passive h hd (Nat.zero_le n)
  have e2 := C208_passive h hd (Nat.zero_le (n + 1))
  simp only at e1 e2
  have side : ∀ r : ℕ → ℝ, |r 1 - c| ≤ √(Spec.stored c r) := fun r => Real.abs_le_sqrt (by unfold Spec.stored; nlinarith [sq_nonneg (r 0)])
  have a1 := (side (U n).reg).trans (Real.sqrt_le_sqrt e1)
  have a2 := (side (U (n + 1)).reg).trans (Real.sqrt_le_sqrt e2)
  have e : y2 - c = (((U n).reg 1 - c) + ((U (n + 1)).reg 1 - c)) / 2 := by
    rw [h n, tp.n2, tp.i2]; ring
  rw [abs_le] at a1 a2
  rw [e, abs_le]
  constructor <;> linarith

/-- **C208.** With any input, the energy stored is at most what was there plus what the input delivered: each sample adds at most `g x² / (2 (R - margin))`. -/
theorem C208_input_energy {U : ℕ → FU} {x : ℕ → ℝ} (h : Spec.Played obxd2 U x) (hd : ∀ n, 0 ≤ Spec.now (U n) 0 ∧ Spec.obxdMargin (Spec.now (U n) 4) < Spec.now (U n) 1) (n : ℕ) :
    Spec.stored 0 (U n).reg ≤ Spec.stored 0 (U 0).reg + ∑ i ∈ Finset.range n, Spec.now (U i) 0 * x i ^ 2 / (2 * (Spec.now (U i) 1 - Spec.obxdMargin (Spec.now (U i) 4))) := by
  induction n with
  | zero => simp
  | succ n ih =>
    rw [Finset.sum_range_succ, ← add_assoc]
    refine le_trans ?_ (add_le_add_left ih _)
    obtain ⟨d0, d1⟩ := damped_ge (u := U n) ⟨(hd n).1, (hd n).2.le⟩
    obtain ⟨v, y1, y2, tp, -⟩ := C208_circuit (U n) (x n) (hd n).1 d0
    have := two_pole_energy tp 0
    simp only [Spec.stored]
    rw [h n, this]
    set δ := Spec.now (U n) 1 - Spec.obxdMargin (Spec.now (U n) 4) with hδ
    have δ0 : 0 < δ := by have := (hd n).2; rw [hδ]; linarith
    have g0 := (hd n).1
    have k : 4 * y1 * ((x n - 0) - 2 * Spec.damping (U n) * y1) ≤ x n ^ 2 / (2 * δ) := by
      rw [le_div_iff₀ (by positivity)]
      nlinarith [sq_nonneg (x n - 4 * δ * y1), mul_nonneg δ0.le (mul_nonneg (sub_nonneg.2 d1) (sq_nonneg y1))]
    have := mul_le_mul_of_nonneg_left k g0
    rw [mul_div_assoc]
    nlinarith

/-- **C208.** Left alone with fixed settings and a constant input, the filter settles from every state: the first integrator discharges and the second takes on the input. Hence the low-pass passes DC (at the output gain 0.74), the
high-pass and the band-pass block it, the notch passes half. -/
theorem C208_settles {U : ℕ → FU} {c : ℝ} {k : ℕ → ℝ} (h : Spec.Played obxd2 U fun _ => c) (hk : ∀ n i, Spec.now (U n) i = k i) (g0 : 0 < k 0) (hr : Spec.obxdMargin (k 4) < k 1) :
    Filter.Tendsto (fun n => (U n).reg 0) Filter.atTop (nhds 0) ∧ Filter.Tendsto (fun n => (U n).reg 1) Filter.atTop (nhds c) ∧
    (k 2 = 0 → k 3 = 0 → Filter.Tendsto (fun n => (obxd2 (U n) c).2) Filter.atTop (nhds (0.74 * c))) ∧
    (k 2 = 1 → k 3 = 0 → Filter.Tendsto (fun n => (obxd2 (U n) c).2) Filter.atTop (nhds 0)) ∧
    (k 2 = 1 / 2 → k 3 = 0 → Filter.Tendsto (fun n => (obxd2 (U n) c).2) Filter.atTop (nhds (0.37 * c))) ∧
    (k 2 = 1 / 2 → k 3 = 1 → Filter.Tendsto (fun n => (obxd2 (U n) c).2) Filter.atTop (nhds 0)) := by
  have hd : ∀ n, Spec.Damped (U n) := fun n => ⟨by rw [hk]; exact g0.le, by rw [hk, hk]; exact hr.le⟩
  set δ := k 1 - Spec.obxdMargin (k 4) with hδ
  have δ0 : 0 < δ := by rw [hδ]; linarith
  choose v y1 y2 tp ho using fun n => C208_circuit (U n) c (hd n).1 (damped_ge (hd n)).1
  simp only [hk] at tp ho
  set E := fun n => Spec.stored c (U n).reg with hE
  have anti : Antitone E := C208_passive h hd
  -- the first tap dies
  have drop : ∀ n, 8 * k 0 * δ * y1 n ^ 2 ≤ E n - E (n + 1) := fun n => by
    have e := two_pole_energy (tp n) c
    have d1 := (damped_ge (hd n)).2
    rw [hk, hk, ← hδ] at d1
    simp only [hE, Spec.stored]
    rw [h n, e]
    have := mul_nonneg (mul_nonneg g0.le (sub_nonneg.2 d1)) (sq_nonneg (y1 n))
    nlinarith
  have low : ∀ n, 0 ≤ E n := fun n => add_nonneg (sq_nonneg _) (sq_nonneg _)
  obtain ⟨L, hL⟩ : ∃ L, Filter.Tendsto E Filter.atTop (nhds L) := ⟨_, tendsto_atTop_ciInf anti ⟨0, by rintro _ ⟨n, rfl⟩; exact low n⟩⟩
  have gap : Filter.Tendsto (fun n => E n - E (n + 1)) Filter.atTop (nhds 0) := by
    have := hL.sub ((Filter.tendsto_add_atTop_iff_nat 1).2 hL)
    rwa [sub_self] at this
  have y1sq : Filter.Tendsto (fun n => y1 n ^ 2) Filter.atTop (nhds 0) := by
    have := gap.div_const (8 * k 0 * δ)
    rw [zero_div] at this
    refine squeeze_zero (fun n => sq_nonneg _) (fun n => ?_) this
    rw [le_div_iff₀ (by positivity)]
    linarith [drop n]
  have y10 : Filter.Tendsto y1 Filter.atTop (nhds 0) := by
    have := (Real.continuous_sqrt.tendsto 0).comp y1sq
    rw [Real.sqrt_zero] at this
    refine (tendsto_zero_iff_abs_tendsto_zero _).2 (this.congr fun n => ?_)
    simp [Real.sqrt_sq_eq_abs]
  -- the damping stays bounded
  obtain ⟨K, hK⟩ : ∃ K, ∀ n, |Spec.damping (U n)| ≤ K := by
    have cont : Continuous fun s => k 1 + obxdCfb (k 4) s := by
      unfold obxdCfb diodePair
      split_ifs <;> fun_prop
    obtain ⟨K, hK⟩ := (isCompact_Icc (a := -√(E 0)) (b := √(E 0))).exists_bound_of_continuousOn cont.continuousOn
    refine ⟨K, fun n => ?_⟩
    have : |(U n).reg 0| ≤ √(E 0) := by
      refine Real.abs_le_sqrt ?_
      have := anti (Nat.zero_le n)
      simp only [hE, Spec.stored] at this ⊢
      nlinarith [sq_nonneg ((U n).reg 1 - c)]
    have := hK ((U n).reg 0) (abs_le.1 this)
    simpa [Spec.damping, hk] using this
  have ry : Filter.Tendsto (fun n => Spec.damping (U n) * y1 n) Filter.atTop (nhds 0) := by
    refine (tendsto_zero_iff_abs_tendsto_zero _).2 ?_
    have b : Filter.Tendsto (fun n => K * |y1 n|) Filter.atTop (nhds 0) := by
      have := ((tendsto_zero_iff_abs_tendsto_zero _).1 y10).const_mul K
      simpa using this
    refine squeeze_zero (fun n => abs_nonneg _) (fun n => ?_) b
    simp only [Function.comp, abs_mul]
    exact mul_le_mul_of_nonneg_right (hK n) (abs_nonneg _)
  -- the two charges approach a line, and its mirror image
  have p : Filter.Tendsto (fun n => (U n).reg 0 - k 0 * ((U n).reg 1 - c)) Filter.atTop (nhds 0) := by
    have := (y10.mul_const (1 + k 0 ^ 2)).add (ry.const_mul (2 * k 0))
    simp only [zero_mul, mul_zero, add_zero] at this
    refine this.congr fun n => ?_
    obtain ⟨h1, h2, h3, -, -⟩ := tp n
    rw [h3] at h1
    linear_combination h2 + k 0 * h1
  have q : Filter.Tendsto (fun n => (U n).reg 0 + k 0 * ((U n).reg 1 - c)) Filter.atTop (nhds 0) := by
    have p' := (Filter.tendsto_add_atTop_iff_nat 1).2 p
    have := (y10.mul_const (2 - 2 * k 0 ^ 2)).sub p'
    simp only [zero_mul, sub_zero] at this
    refine this.congr fun n => ?_
    obtain ⟨-, h2, -, h4, h5⟩ := tp n
    simp only [h n, h4, h5]
    linear_combination 2 * h2
  have r0 : Filter.Tendsto (fun n => (U n).reg 0) Filter.atTop (nhds 0) := by
    have := (p.add q).div_const 2
    simp only [add_zero, zero_div] at this
    exact this.congr fun n => by ring
  have r1 : Filter.Tendsto (fun n => (U n).reg 1) Filter.atTop (nhds c) := by
    have := ((q.sub p).div_const (2 * k 0)).add_const c
    simp only [sub_zero, zero_div, zero_add] at this
    refine this.congr fun n => ?_
    field_simp
    ring
  have y2c : Filter.Tendsto y2 Filter.atTop (nhds c) := by
    have := r1.add (y10.const_mul (k 0))
    simp only [mul_zero, add_zero] at this
    exact this.congr fun n => (tp n).i2.symm
  have v0 : Filter.Tendsto v Filter.atTop (nhds 0) := by
    have := (((ry.const_mul 2).const_sub c)).sub y2c
    simp only [mul_zero, sub_zero, sub_self] at this
    refine this.congr fun n => ?_
    rw [(tp n).hp]; ring
  refine ⟨r0, r1, fun h2 h3 => ?_, fun h2 h3 => ?_, fun h2 h3 => ?_, fun h2 h3 => ?_⟩
  · refine (y2c.const_mul 0.74).congr fun n => ?_
    rw [ho n, if_pos h3, h2]; ring
  · have := v0.const_mul 0.74
    rw [mul_zero] at this
    refine this.congr fun n => ?_
    rw [ho n, if_pos h3, h2]; ring
  · have := (y2c.add v0).const_mul 0.37
    rw [add_zero] at this
    refine this.congr fun n => ?_
    rw [ho n, if_pos h3, h2, show (0.74 : ℝ) = 2 * 0.37 by norm_num]
    generalize (0.37 : ℝ) = z
    ring
  · have := y10.const_mul 0.37
    rw [mul_zero] at this
    refine this.congr fun n => ?_
    rw [ho n, if_neg (by rw [h3]; norm_num), h2, if_neg (by norm_num), show (0.74 : ℝ) = 2 * 0.37 by norm_num]
    generalize (0.37 : ℝ) = z
    ring

/-- The hypotheses hold: a charged filter with moderate resonance left alone. -/
example : ∃ U : ℕ → FU, ∃ k : ℕ → ℝ, Spec.Played obxd2 U (fun _ => 1) ∧ (∀ n i, Spec.now (U n) i = k i) ∧ 0 < k 0 ∧ Spec.obxdMargin (k 4) < k 1 ∧ (U 0).reg 0 = 5 := by
  let k : ℕ → ℝ := fun i => if i < 2 then 1 / 2 else 0
  let R : ℕ → ℕ → ℝ := fun n => Nat.rec (fun _ => 5) (fun _ r => (obxd2 ⟨k, fun _ => 0, r, 0⟩ 1).1.reg) n
  refine ⟨fun n => ⟨k, fun _ => 0, R n, 0⟩, k, fun n => rfl, fun n i => by simp [Spec.now], by norm_num [k], by norm_num [k, Spec.obxdMargin], rfl⟩

end Verif.Filters
