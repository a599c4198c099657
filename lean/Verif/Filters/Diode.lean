import Verif.Filters.Obxd4
/-!
# The diode ladder filter (C212–C214)

surgefilter-diode, one SIMD lane, exact real arithmetic (`_mm_rcp_ps`, a 12-bit approximate reciprocal, is the exact one here).
-/
namespace Verif.Filters
open Verif Verif.Dsp.Fast

/-! ## Model -/

/-- diode.rs 18-35 `get_feedback_output`. -/
def diodeFb (beta delta feedback z : ℝ) : ℝ := (feedback * delta + z) * beta

/-- lpf.rs 15-43 `do_lpf`: the new state and the result. -/
def diodeLpf (input alpha gamma epsilon ma0 feedback fo z : ℝ) : ℝ × ℝ :=
  let i := (input * gamma + feedback) + epsilon * fo
  let v := (ma0 * i - z) * alpha
  (v + (v + z), v + z)

/-- process_quad.rs 17-274 `process_quad`: coefficients `Alpha, Gamma, G, G4, G3, G2, G1, KModded` are 0 to 7, registers `Z1` to `Z4`, `Feedback3`, `Feedback2`, `Feedback1` are 0 to 6. -/
noncomputable def diode (u : FU) (x : ℝ) : FU × ℝ :=
  let u := u.adv [0, 1, 2, 3, 4, 5, 6, 7]
  let a := u.coeff 0
  let g := u.coeff 2
  let g4 := u.coeff 3
  let g3 := u.coeff 4
  let g2 := u.coeff 5
  let g1 := u.coeff 6
  let k := u.coeff 7
  let sg2 := g4 * g3
  let sg1 := sg2 * g2
  let hg := g * (1 / 2)
  let beta1 := 1 / (g + 1 - g * g2)
  let beta2 := 1 / (g + 1 - hg * g3)
  let beta3 := 1 / (g + 1 - hg * g4)
  let beta4 := 1 / (g + 1)
  let gamma1 := g1 * g2 + 1
  let gamma2 := g2 * g3 + 1
  let gamma3 := g3 * g4 + 1
  let fb3 := diodeFb beta4 0 0 (u.reg 3)
  let fb2 := diodeFb beta3 hg (u.reg 4) (u.reg 2)
  let fb1 := diodeFb beta2 hg (u.reg 5) (u.reg 1)
  let fo1 := diodeFb beta1 g fb1 (u.reg 0)
  let fo2 := diodeFb beta2 hg fb2 (u.reg 1)
  let fo3 := diodeFb beta3 hg fb3 (u.reg 2)
  let fo4 := diodeFb beta4 0 0 (u.reg 3)
  let sigma := ((sg1 * fo1 + sg2 * fo2) + g4 * fo3) + 1 * fo4
  let w := ((0.3 * k + 1) * x - k * sigma) / (k * u.coeff 1 + 1)
  let r1 := diodeLpf w a gamma1 g2 1 fb1 fo1 (u.reg 0)
  let r2 := diodeLpf r1.2 a gamma2 g3 (1 / 2) fb2 fo2 (u.reg 1)
  let r3 := diodeLpf r2.2 a gamma3 g4 (1 / 2) fb3 fo3 (u.reg 2)
  let r4 := diodeLpf r3.2 a 1 0 (1 / 2) 0 fo4 (u.reg 3)
  (((((((u.set 4 fb3).set 5 fb2).set 6 fb1).set 0 r1.1).set 1 r2.1).set 2 r3.1).set 3 r4.1, r4.2)

/-- coeff.rs 15-36: the coefficients from `g`, the warped cutoff, and the resonance. -/
noncomputable def diodeDesign (g reso : ℝ) : ℕ → ℝ :=
  let g4 := 0.5 * g / (1.0 + g)
  let g3 := 0.5 * g / (1.0 + g - 0.5 * g * g4)
  let g2 := 0.5 * g / (1.0 + g - 0.5 * g * g3)
  let g1 := g / (1.0 + g - g * g2)
  fun i => match i with
  | 0 => g / (1.0 + g)
  | 1 => g4 * g3 * g2 * g1
  | 2 => g / (1.0 + g)
  | 3 => g4
  | 4 => g3
  | 5 => g2
  | 6 => g1
  | 7 => limit (reso * 16.0) 0.0 16.0
  | _ => 0

/-- coeff.rs 5-37 `coeff_make` and diode.rs 10-15 `clamped_frequency`; `f` stands for the tuned frequency. -/
noncomputable def diodeCoeffMake (f sr reso : ℝ) : ℕ → ℝ :=
  let wd := limit f 5.0 (sr * 0.3) * 2.0 * Real.pi
  let wa := (2.0 * sr) * fasttan (wd * (1 / sr) * 0.5)
  diodeDesign (wa * (1 / sr) * 0.5) reso

/-! ## Which cutoffs can be had -/

theorem fasttan_den {x : ℝ} (h0 : 0 ≤ x) (h1 : x ≤ 0.93) : -135135 + x * x * (62370 + x * x * (-3150 + 28 * (x * x))) < 0 := by
  have h : x * x ≤ 0.8649 := by nlinarith
  have h' : 0 ≤ x * x := by positivity
  generalize x * x = t at *
  nlinarith [mul_nonneg h' h', mul_nonneg h' (mul_nonneg h' h')]

/-- Every `g` from 1 to 4/3 is the warped cutoff of some frequency between a seventh and three tenths of the sample rate. -/
theorem diode_cutoff {g sr reso : ℝ} (g0 : 1 ≤ g) (g1 : g ≤ 4 / 3) (hs : 100 ≤ sr) : ∃ f, sr / 7 ≤ f ∧ f ≤ sr * 0.3 ∧ diodeCoeffMake f sr reso = diodeDesign g reso := by
  have cont : ContinuousOn fasttan (Set.Icc 0.5 0.93) := by
    unfold fasttan
    refine ContinuousOn.div (by fun_prop) (by fun_prop) fun x hx => (fasttan_den (by linarith [hx.1]) hx.2).ne
  have lo : fasttan 0.5 ≤ g := by
    refine le_trans ?_ g0
    norm_num [fasttan]
  have hi : g ≤ fasttan 0.93 := by
    refine g1.trans ?_
    norm_num [fasttan]
  obtain ⟨θ, ⟨t0, t1⟩, e⟩ := intermediate_value_Icc (by norm_num : (0.5 : ℝ) ≤ 0.93) cont ⟨lo, hi⟩
  have s0 : 0 < sr := by linarith
  have p0 := Real.pi_pos
  have p1 := Real.pi_gt_d2
  have p2 := Real.pi_lt_d2
  have b1 : θ * sr / Real.pi ≤ sr * 0.3 := by
    rw [div_le_iff₀ p0]
    norm_num at t1 p1 ⊢
    nlinarith
  have b0 : sr / 7 ≤ θ * sr / Real.pi := by
    rw [div_le_div_iff₀ (by norm_num) p0]
    norm_num at t0 p2 ⊢
    nlinarith
  refine ⟨θ * sr / Real.pi, b0, b1, ?_⟩
  have l : limit (θ * sr / Real.pi) 5.0 (sr * 0.3) = θ * sr / Real.pi := by
    unfold limit
    rw [min_eq_left b1, max_eq_right]
    norm_num
    linarith
  simp only [diodeCoeffMake, l]
  have a : θ * sr / Real.pi * 2.0 * Real.pi * (1 / sr) * 0.5 = θ := by
    rw [show (2.0 : ℝ) = 2 by norm_num, show (0.5 : ℝ) = 1 / 2 by norm_num]
    field_simp
  rw [a, e]
  congr 1
  rw [show (2.0 : ℝ) = 2 by norm_num, show (0.5 : ℝ) = 1 / 2 by norm_num]
  field_simp

/-! ## C212: the gain at DC -/

/-- The filter with fixed coefficients. -/
def Spec.fixed (c reg : ℕ → ℝ) : FU := ⟨c, fun _ => 0, reg, 0⟩

/-- Under the constant input `x` nothing changes any more. -/
def Spec.Settled (step : FU → ℝ → FU × ℝ) (c reg : ℕ → ℝ) (x : ℝ) : Prop := ∀ i, (step (Spec.fixed c reg) x).1.reg i = reg i

theorem held_adv (c reg : ℕ → ℝ) (is : List ℕ) : (Spec.fixed c reg).adv is = Spec.fixed c reg := by
  simp [Spec.fixed, FU.adv]

theorem diode_rest (c reg : ℕ → ℝ) (x : ℝ) (i : ℕ) : (diode (Spec.fixed c reg) x).1.reg (i + 7) = reg (i + 7) := by
  simp only [diode, held_adv, FU.set]
  simp [Spec.fixed, Function.update, show i + 7 ≠ 0 by omega]

theorem design_one : diodeDesign 1 0 = fun i => match i with | 0 => 1 / 2 | 1 => 1 / 97 | 2 => 1 / 2 | 3 => 1 / 4 | 4 => 4 / 15 | 5 => 15 / 56 | 6 => 56 / 97 | _ => 0 := by
  funext i
  match i with
  | 0 => norm_num [diodeDesign]
  | 1 => norm_num [diodeDesign]
  | 2 => norm_num [diodeDesign]
  | 3 => norm_num [diodeDesign]
  | 4 => norm_num [diodeDesign]
  | 5 => norm_num [diodeDesign]
  | 6 => norm_num [diodeDesign]
  | 7 => norm_num [diodeDesign, limit]
  | i + 8 => rfl

/-- **C212** (refuted: the filter's gain at DC is one when the resonance is zero). For every sample rate there is a cutoff, between a seventh and three tenths of it, at which the settled output for a constant input is more than six times the input: any state in which the filter has settled gives `15824/2425` times the input, and there is such a state. -/
theorem C212_dc_gain_refuted {sr : ℝ} (hs : 100 ≤ sr) : ∃ f, sr / 7 ≤ f ∧ f ≤ sr * 0.3 ∧
    (∀ x, ∃ reg, Spec.Settled diode (diodeCoeffMake f sr 0) reg x) ∧
    ∀ reg x, Spec.Settled diode (diodeCoeffMake f sr 0) reg x → (diode (Spec.fixed (diodeCoeffMake f sr 0) reg) x).2 = 15824 / 2425 * x := by
  obtain ⟨f, f0, f1, e⟩ := diode_cutoff (g := 1) (sr := sr) (reso := 0) (by norm_num) (by norm_num) hs
  refine ⟨f, f0, f1, ?_, ?_⟩
  · intro x
    refine ⟨fun i => match i with | 0 => 10192 / 485 * x | 1 => 8772 / 485 * x | 2 => 31648 / 2425 * x | 3 => 15824 / 2425 * x | 4 => 31648 / 7275 * x | 5 => 71552 / 7275 * x | 6 => 6952 / 485 * x | _ => 0, ?_⟩
    rw [e, design_one]
    intro i
    match i with
    | 0 => simp only [diode, held_adv, FU.set]; norm_num [Spec.fixed, diodeLpf, diodeFb]; ring
    | 1 => simp only [diode, held_adv, FU.set]; norm_num [Spec.fixed, diodeLpf, diodeFb]; ring
    | 2 => simp only [diode, held_adv, FU.set]; norm_num [Spec.fixed, diodeLpf, diodeFb]; ring
    | 3 => simp only [diode, held_adv, FU.set]; norm_num [Spec.fixed, diodeLpf, diodeFb]; ring
    | 4 => simp only [diode, held_adv, FU.set]; norm_num [Spec.fixed, diodeLpf, diodeFb]; ring
    | 5 => simp only [diode, held_adv, FU.set]; norm_num [Spec.fixed, diodeLpf, diodeFb]; ring
    | 6 => simp only [diode, held_adv, FU.set]; norm_num [Spec.fixed, diodeLpf, diodeFb]; ring
    | i + 7 => exact diode_rest _ _ _ i
  · intro reg x
    rw [e, design_one]
    intro h
    have h0 := h 0
    have h1 := h 1
    have h2 := h 2
    have h3 := h 3
    have h4 := h 4
    have h5 := h 5
    simp only [diode, held_adv, FU.set] at h0 h1 h2 h3 h4 h5 ⊢
    norm_num [Spec.fixed, diodeLpf, diodeFb] at h0 h1 h2 h3 h4 h5 ⊢
    linarith

/-- The same coefficients with the warped cutoff itself, not `g/(1+g)`, as the coefficient the loop equations use. -/
noncomputable def Spec.diodeIntended (g k : ℝ) : ℕ → ℝ :=
  let g4 := g / 2 / (1 + g)
  let g3 := g / 2 / (1 + g - g / 2 * g4)
  let g2 := g / 2 / (1 + g - g / 2 * g3)
  let g1 := g / (1 + g - g * g2)
  fun i => match i with
  | 0 => g / (1 + g)
  | 1 => g4 * g3 * g2 * g1
  | 2 => g
  | 3 => g4
  | 4 => g3
  | 5 => g2
  | 6 => g1
  | 7 => k
  | _ => 0

/-- **C212** (what was meant). With `g` where the program has `g/(1+g)`, the filter settles, at every cutoff and resonance, at `(1 + 0.3k)/(1 + k)` times a constant input: one at resonance zero. -/
theorem C212_intended {g k : ℝ} (hg : 0 < g) (hk : 0 ≤ k) (x : ℝ) : ∃ reg, Spec.Settled diode (Spec.diodeIntended g k) reg x ∧
    (diode (Spec.fixed (Spec.diodeIntended g k) reg) x).2 = (1 + 0.3 * k) / (1 + k) * x := by
  obtain ⟨y, hy⟩ : ∃ y, y = (1 + 0.3 * k) / (1 + k) * x := ⟨_, rfl⟩
  have hk' : 1 + k ≠ 0 := by positivity
  have yk : y * (1 + k) = (0.3 * k + 1) * x := by rw [hy]; field_simp; ring
  obtain ⟨b4, hb4⟩ : ∃ b, b = 1 / (g + 1) := ⟨_, rfl⟩
  have e4 : b4 * (g + 1) = 1 := by rw [hb4]; field_simp
  obtain ⟨g4, hg4⟩ : ∃ b, b = g / 2 / (1 + g) := ⟨_, rfl⟩
  have q4 : g4 = g / 2 * b4 := by rw [hg4, hb4]; field_simp; ring
  have l4 : 0 < g4 ∧ g4 < 1 := by
    rw [hg4]; exact ⟨by positivity, by rw [div_lt_one (by positivity)]; linarith⟩
  have d3 : 0 < g + 1 - g / 2 * g4 := by nlinarith
  obtain ⟨b3, hb3⟩ : ∃ b, b = 1 / (g + 1 - g / 2 * g4) := ⟨_, rfl⟩
  have e3 : b3 * (g + 1 - g / 2 * g4) = 1 := by rw [hb3]; exact one_div_mul_cancel d3.ne'
  obtain ⟨g3, hg3⟩ : ∃ b, b = g / 2 / (1 + g - g / 2 * g4) := ⟨_, rfl⟩
  have q3 : g3 = g / 2 * b3 := by rw [hg3, hb3, add_comm 1 g]; field_simp
  have l3 : 0 < g3 ∧ g3 < 1 := by
    rw [hg3, add_comm 1 g]
    exact ⟨by positivity, by rw [div_lt_one d3]; nlinarith⟩
  have d2 : 0 < g + 1 - g / 2 * g3 := by nlinarith
  obtain ⟨b2, hb2⟩ : ∃ b, b = 1 / (g + 1 - g / 2 * g3) := ⟨_, rfl⟩
  have e2 : b2 * (g + 1 - g / 2 * g3) = 1 := by rw [hb2]; exact one_div_mul_cancel d2.ne'
  obtain ⟨g2, hg2⟩ : ∃ b, b = g / 2 / (1 + g - g / 2 * g3) := ⟨_, rfl⟩
  have q2 : g2 = g / 2 * b2 := by rw [hg2, hb2, add_comm 1 g]; field_simp
  have l2 : 0 < g2 ∧ g2 < 1 := by
    rw [hg2, add_comm 1 g]
    exact ⟨by positivity, by rw [div_lt_one d2]; nlinarith⟩
  have d1 : 0 < g + 1 - g * g2 := by nlinarith
  obtain ⟨b1, hb1⟩ : ∃ b, b = 1 / (g + 1 - g * g2) := ⟨_, rfl⟩
  have e1 : b1 * (g + 1 - g * g2) = 1 := by rw [hb1]; exact one_div_mul_cancel d1.ne'
  obtain ⟨g1, hg1⟩ : ∃ b, b = g / (1 + g - g * g2) := ⟨_, rfl⟩
  have q1 : g1 = g * b1 := by rw [hg1, hb1, add_comm 1 g]; field_simp
  have l1 : 0 < g1 := by rw [hg1, add_comm 1 g]; positivity
  have hc : Spec.diodeIntended g k = fun i => match i with | 0 => g / (1 + g) | 1 => g4 * g3 * g2 * g1 | 2 => g | 3 => g4 | 4 => g3 | 5 => g2 | 6 => g1 | 7 => k | _ => 0 := by
    rw [hg1, hg2, hg3, hg4]; rfl
  obtain ⟨f3, hf3⟩ : ∃ f, f = y * b4 := ⟨_, rfl⟩
  obtain ⟨f2, hf2⟩ : ∃ f, f = (f3 * (g * (1 / 2)) + 2 * y) * b3 := ⟨_, rfl⟩
  obtain ⟨f1, hf1⟩ : ∃ f, f = (f2 * (g * (1 / 2)) + 3 * y) * b2 := ⟨_, rfl⟩
  obtain ⟨f0, hf0⟩ : ∃ f, f = (f1 * g + 4 * y) * b1 := ⟨_, rfl⟩
  have r3 : f3 + 2 * g4 * y = y := by rw [hf3, q4]; linear_combination y * e4
  have r2 : f2 + 3 * g3 * y = 2 * y := by
    rw [hf2, q3]; linear_combination 2 * y * e3 + b3 * (g * (1 / 2)) * r3
  have r1 : f1 + 4 * g2 * y = 3 * y := by
    rw [hf1, q2]; linear_combination 3 * y * e2 + b2 * (g * (1 / 2)) * r2
  have r0 : f0 + g1 * y = 4 * y := by
    rw [hf0, q1]; linear_combination 4 * y * e1 + b1 * g * r1
  have out : g4 * g3 * g2 * f0 + g4 * g3 * f1 + g4 * f2 + f3 + g4 * g3 * g2 * g1 * y = y := by
    linear_combination g4 * g3 * g2 * r0 + g4 * g3 * r1 + g4 * r2 + r3
  have den : k * (g4 * g3 * g2 * g1) + 1 ≠ 0 := by
    have := l4.1; have := l3.1; have := l2.1
    positivity
  have w : ((0.3 * k + 1) * x - k * (g4 * g3 * g2 * f0 + g4 * g3 * f1 + g4 * f2 + 1 * f3)) / (k * (g4 * g3 * g2 * g1) + 1) = y := by
    rw [div_eq_iff den]
    linear_combination -yk + (- k) * out
  have c3 : g * (1 / 2) * g4 = g / 2 * g4 := by ring
  have c2 : g * (1 / 2) * g3 = g / 2 * g3 := by ring
  have s1 : y * (g1 * g2 + 1) + f1 + g2 * f0 = 4 * y := by linear_combination g2 * r0 + r1
  have s2 : 4 * y * (g2 * g3 + 1) + f2 + g3 * f1 = 6 * y := by linear_combination g3 * r1 + r2
  have s3 : 3 * y * (g3 * g4 + 1) + f3 + g4 * f2 = 4 * y := by linear_combination g4 * r2 + r3
  obtain ⟨c, hcc⟩ : ∃ c, c = Spec.diodeIntended g k := ⟨_, rfl⟩
  obtain ⟨reg, hr⟩ : ∃ reg : ℕ → ℝ, reg = fun i => match i with | 0 => 4 * y | 1 => 3 * y | 2 => 2 * y | 3 => y | 4 => f3 | 5 => f2 | 6 => f1 | _ => 0 := ⟨_, rfl⟩
  have c0 : c 0 = g / (1 + g) := congrFun (hcc.trans hc) 0
  have c1 : c 1 = g4 * g3 * g2 * g1 := congrFun (hcc.trans hc) 1
  have c2' : c 2 = g := congrFun (hcc.trans hc) 2
  have c3' : c 3 = g4 := congrFun (hcc.trans hc) 3
  have c4 : c 4 = g3 := congrFun (hcc.trans hc) 4
  have c5 : c 5 = g2 := congrFun (hcc.trans hc) 5
  have c6 : c 6 = g1 := congrFun (hcc.trans hc) 6
  have c7 : c 7 = k := congrFun (hcc.trans hc) 7
  have z0 : reg 0 = 4 * y := congrFun hr 0
  have z1 : reg 1 = 3 * y := congrFun hr 1
  have z2 : reg 2 = 2 * y := congrFun hr 2
  have z3 : reg 3 = y := congrFun hr 3
  have z4 : reg 4 = f3 := congrFun hr 4
  have z5 : reg 5 = f2 := congrFun hr 5
  have z6 : reg 6 = f1 := congrFun hr 6
  have n1 : ∀ t : ℝ, (1 * t - t) * (g / (1 + g)) = 0 := fun t => by ring
  have n2 : (1 / 2 * (6 * y) - 3 * y) * (g / (1 + g)) = 0 := by ring
  have n3 : (1 / 2 * (4 * y) - 2 * y) * (g / (1 + g)) = 0 := by ring
  have n4 : (1 / 2 * (2 * y * 1) - y) * (g / (1 + g)) = 0 := by ring
  have st : (diode (Spec.fixed c reg) x).1.reg = Function.update (Function.update (Function.update (Function.update (Function.update (Function.update (Function.update reg 4 f3) 5 f2) 6 f1) 0 (4 * y)) 1 (3 * y)) 2 (2 * y)) 3 y ∧ (diode (Spec.fixed c reg) x).2 = y := by
    simp only [diode, held_adv, FU.set]
    simp only [Spec.fixed, diodeFb, c0, c1, c2', c3', c4, c5, c6, c7, z0, z1, z2, z3, z4, z5, c2, c3, ← hb4, ← hb3, ← hb2, ← hb1, mul_zero, zero_add, zero_mul, add_zero, ← hf3, ← hf2, ← hf1, ← hf0, w, diodeLpf, s1, n1, s2, n2, s3, n3, n4, and_self]
  refine ⟨reg, ?_, ?_⟩
  · intro i
    rw [← hcc, st.1]
    match i with
    | 0 => simp [Function.update, z0]
    | 1 => simp [Function.update, z1]
    | 2 => simp [Function.update, z2]
    | 3 => simp [Function.update, z3]
    | 4 => simp [Function.update, z4]
    | 5 => simp [Function.update, z5]
    | 6 => simp [Function.update, z6]
    | i + 7 => simp [Function.update, show i + 7 ≠ 0 by omega]
  · rw [← hcc, st.2, hy]

/-! ## C213: stability -/

noncomputable def dtab : ℕ → ℝ := fun i => match i with | 0 => 4 / 7 | 1 => 32/1649 | 2 => 4 / 7 | 3 => 2/7 | 4 => 14/45 | 5 => 90/287 | 6 => 1148/1649 | _ => 0

theorem design_four_thirds : diodeDesign (4 / 3) 0 = dtab := by
  funext i
  match i with
  | 0 => norm_num [dtab, diodeDesign]
  | 1 => norm_num [dtab, diodeDesign]
  | 2 => norm_num [dtab, diodeDesign]
  | 3 => norm_num [dtab, diodeDesign]
  | 4 => norm_num [dtab, diodeDesign]
  | 5 => norm_num [dtab, diodeDesign]
  | 6 => norm_num [dtab, diodeDesign]
  | 7 => norm_num [dtab, diodeDesign, limit]
  | i + 8 => rfl

theorem dtab_0 : dtab 0 = 4 / 7 := rfl
theorem dtab_1 : dtab 1 = 32/1649 := rfl
theorem dtab_2 : dtab 2 = 4 / 7 := rfl
theorem dtab_3 : dtab 3 = 2/7 := rfl
theorem dtab_4 : dtab 4 = 14/45 := rfl
theorem dtab_5 : dtab 5 = 90/287 := rfl
theorem dtab_6 : dtab 6 = 1148/1649 := rfl
theorem dtab_7 : dtab 7 = 0 := rfl

/-- Non-negative state, the last section not too far ahead of the third, weighing at least `m`. -/
def DiodeGrown (m : ℝ) (u : FU) : Prop := u.coeff = dtab ∧ u.dcoeff = (fun _ => 0) ∧ u.stage = 0 ∧
  0 ≤ u.reg 0 ∧ 0 ≤ u.reg 1 ∧ 0 ≤ u.reg 2 ∧ 0 ≤ u.reg 3 ∧ 0 ≤ u.reg 4 ∧ 0 ≤ u.reg 5 ∧ u.reg 3 ≤ 8 * u.reg 2 ∧
  m ≤ 99 / 200 * u.reg 0 + u.reg 1 + 147 / 200 * u.reg 2 + 77 / 200 * u.reg 3 + 11 / 50 * u.reg 5 + 37 / 200 * u.reg 4

theorem diode_grows {m : ℝ} {u : FU} (h : DiodeGrown m u) : DiodeGrown (1.004 * m) (diode u 0).1 ∧ 0.015 * m ≤ (diode u 0).2 := by
  obtain ⟨hc, hd, hs, p0, p1, p2, p3, p4, p5, hz, hm⟩ := h
  have hu : u = Spec.fixed dtab u.reg := by
    cases u; simp only at hc hd hs; subst hc hd hs; rfl
  rw [hu]
  clear hu hc hd hs
  generalize u.reg = r at *
  unfold DiodeGrown
  simp only [diode, held_adv, FU.set]
  norm_num [Spec.fixed, diodeLpf, diodeFb, dtab_0, dtab_1, dtab_2, dtab_3, dtab_4, dtab_5, dtab_6, dtab_7]
  refine ⟨⟨?_, ?_, ?_, ?_, ?_, ?_, ?_, ?_⟩, ?_⟩ <;> linarith

/-- **C213** (refuted: at resonance zero the filter is stable). For every sample rate there is a cutoff at which, with no resonance, an impulse into the filter at rest gives an output that grows without bound. -/
theorem C213_stable_refuted {sr : ℝ} (hs : 100 ≤ sr) : ∃ f, sr / 7 ≤ f ∧ f ≤ sr * 0.3 ∧
    ∀ B : ℝ, ∃ n, ∃ y ∈ (run diode (Spec.fixed (diodeCoeffMake f sr 0) fun _ => 0) (1 :: List.replicate n 0)).2, B < y := by
  obtain ⟨f, f0, f1, e⟩ := diode_cutoff (g := 4 / 3) (sr := sr) (reso := 0) (by norm_num) (by norm_num) hs
  refine ⟨f, f0, f1, fun B => ?_⟩
  rw [e]
  have start : DiodeGrown 1 (diode (Spec.fixed (diodeDesign (4 / 3) 0) fun _ => 0) 1).1 := by
    rw [design_four_thirds]
    unfold DiodeGrown
    simp only [diode, held_adv, FU.set]
    norm_num [Spec.fixed, diodeLpf, diodeFb, dtab_0, dtab_1, dtab_2, dtab_3, dtab_4, dtab_5, dtab_6, dtab_7]
  have grow : ∀ n m u, DiodeGrown m u → 0 ≤ m → ∃ y ∈ (run diode u (List.replicate (n + 1) 0)).2, 0.015 * (1.004 ^ n * m) ≤ y := by
    intro n
    induction n with
    | zero =>
      intro m u h _
      exact ⟨(diode u 0).2, by simp [run], by simpa using (diode_grows h).2⟩
    | succ n ih =>
      intro m u h hm
      obtain ⟨y, hy, hl⟩ := ih (1.004 * m) _ (diode_grows h).1 (by positivity)
      refine ⟨y, ?_, ?_⟩
      · rw [List.replicate_succ]
        exact List.mem_cons_of_mem _ hy
      · refine le_trans (le_of_eq ?_) hl
        rw [pow_succ]; ring
  obtain ⟨n, hn⟩ := pow_unbounded_of_one_lt (B / 0.015) (by norm_num : (1 : ℝ) < 1.004)
  obtain ⟨y, hy, hl⟩ := grow n 1 _ start (by norm_num)
  refine ⟨n + 1, y, List.mem_cons_of_mem _ hy, ?_⟩
  refine lt_of_lt_of_le ?_ hl
  rw [div_lt_iff₀ (by norm_num)] at hn
  linarith

/-! ## C214: linearity -/

/-- The weighted sum of two filters' memories. -/
def Spec.mixed (a b : ℝ) (u v : FU) : FU := ⟨u.coeff, u.dcoeff, fun i => a * u.reg i + b * v.reg i, u.stage⟩

set_option maxHeartbeats 1000000 in
theorem diode_mixed (a b x y : ℝ) {u v : FU} (hc : u.coeff = v.coeff) (hd : u.dcoeff = v.dcoeff) (hs : u.stage = v.stage) :
    diode (Spec.mixed a b u v) (a * x + b * y) = (Spec.mixed a b (diode u x).1 (diode v y).1, a * (diode u x).2 + b * (diode v y).2) ∧
    (diode u x).1.coeff = (diode v y).1.coeff ∧ (diode u x).1.dcoeff = (diode v y).1.dcoeff ∧ (diode u x).1.stage = (diode v y).1.stage := by
  obtain ⟨c, d, r, st⟩ := u
  obtain ⟨c', d', r', st'⟩ := v
  simp only at hc hd hs
  subst hc hd hs
  have e : FU.adv ⟨c, d, fun i => a * r i + b * r' i, st⟩ [0, 1, 2, 3, 4, 5, 6, 7] = ⟨(FU.adv ⟨c, d, r, st⟩ [0, 1, 2, 3, 4, 5, 6, 7]).coeff, d, fun i => a * r i + b * r' i, st⟩ := rfl
  have e1 : FU.adv ⟨c, d, r, st⟩ [0, 1, 2, 3, 4, 5, 6, 7] = ⟨(FU.adv ⟨c, d, r, st⟩ [0, 1, 2, 3, 4, 5, 6, 7]).coeff, d, r, st⟩ := rfl
  have e2 : FU.adv ⟨c, d, r', st⟩ [0, 1, 2, 3, 4, 5, 6, 7] = ⟨(FU.adv ⟨c, d, r, st⟩ [0, 1, 2, 3, 4, 5, 6, 7]).coeff, d, r', st⟩ := rfl
  generalize (FU.adv ⟨c, d, r, st⟩ [0, 1, 2, 3, 4, 5, 6, 7]).coeff = k at *
  simp only [diode, Spec.mixed]
  rw [e, e1, e2]
  refine ⟨?_, rfl, rfl, rfl⟩
  simp only [FU.set, Prod.mk.injEq, FU.mk.injEq, true_and, and_true]
  constructor
  · funext i
    by_cases h3 : i = 3
    · subst h3; simp [Function.update, diodeLpf, diodeFb]; ring
    by_cases h2 : i = 2
    · subst h2; simp [Function.update, diodeLpf, diodeFb]; ring
    by_cases h1 : i = 1
    · subst h1; simp [Function.update, diodeLpf, diodeFb]; ring
    by_cases h0 : i = 0
    · subst h0; simp [Function.update, diodeLpf, diodeFb]; ring
    by_cases h6 : i = 6
    · subst h6; simp [Function.update, diodeLpf, diodeFb]; ring
    by_cases h5 : i = 5
    · subst h5; simp [Function.update, diodeLpf, diodeFb]; ring
    by_cases h4 : i = 4
    · subst h4; simp [Function.update, diodeLpf, diodeFb]; ring
    simp [Function.update, h0, h1, h2, h3, h4, h5, h6]
  · simp only [diodeLpf, diodeFb]; ring

/-- **C214.** Superposition, along any coefficient ramp: the response to a weighted sum of two signals, from the weighted sum of two memories, is the weighted sum of the responses. -/
theorem C214_linear (a b : ℝ) (xs ys : List ℝ) : ∀ (u v : FU), xs.length = ys.length → u.coeff = v.coeff → u.dcoeff = v.dcoeff → u.stage = v.stage →
    (run diode (Spec.mixed a b u v) (List.zipWith (fun x y => a * x + b * y) xs ys)).2 = List.zipWith (fun x y => a * x + b * y) (run diode u xs).2 (run diode v ys).2 := by
  induction xs generalizing ys with
  | nil => intro u v h _ _ _; cases ys <;> simp_all [run]
  | cons x xs ih =>
    intro u v h hc hd hs
    cases ys with
    | nil => simp at h
    | cons y ys =>
      obtain ⟨e, c', d', s'⟩ := diode_mixed a b x y hc hd hs
      simp only [List.zipWith_cons_cons, run, e]
      rw [ih ys _ _ (by simpa using h) c' d' s']

/-- **C214.** A silent input into a silent filter stays silent, along any coefficient ramp. -/
theorem C214_silence (n : ℕ) (u : FU) (h : ∀ i, u.reg i = 0) : ∀ y ∈ (run diode u (List.replicate n 0)).2, y = 0 := by
  have l := C214_linear 0 0 (List.replicate n 0) (List.replicate n 0) u u rfl rfl rfl rfl
  have e : Spec.mixed 0 0 u u = u := by
    obtain ⟨c, d, r, st⟩ := u
    simp only [Spec.mixed, FU.mk.injEq, true_and, and_true]
    funext i
    simp only at h
    simp [h i]
  rw [e] at l
  have z : List.zipWith (fun x y : ℝ => 0 * x + 0 * y) (List.replicate n 0) (List.replicate n 0) = List.replicate n 0 := by simp
  rw [z] at l
  intro y hy
  rw [l] at hy
  obtain ⟨i, hi, rfl⟩ := List.mem_iff_getElem.1 hy
  simp

/-- A case of superposition in the middle of a coefficient ramp, with two different memories. -/
example : (run diode (Spec.mixed 2 (-3) ⟨fun i => (i : ℝ) / 10, fun _ => 0.01, fun i => (i : ℝ), 0⟩ ⟨fun i => (i : ℝ) / 10, fun _ => 0.01, fun _ => 1, 0⟩)
      [2 * 1 + -3 * 0, 2 * 0.5 + -3 * 4]).2 =
    List.zipWith (fun x y => 2 * x + -3 * y) (run diode ⟨fun i => (i : ℝ) / 10, fun _ => 0.01, fun i => (i : ℝ), 0⟩ [1, 0.5]).2
      (run diode ⟨fun i => (i : ℝ) / 10, fun _ => 0.01, fun _ => 1, 0⟩ [0, 4]).2 :=
  C214_linear 2 (-3) [1, 0.5] [0, 4] _ _ rfl rfl rfl rfl

end Verif.Filters
