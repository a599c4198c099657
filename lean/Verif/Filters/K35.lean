import Verif.Filters.Obxd
import Verif.Dsp.Fast
/-!
# The K35 filters (C261, C262)

surgefilter-k35, one SIMD lane, exact real arithmetic.  `K35Filter::process_quad` is `todo!()` (process.rs 3-7), and lowpass.rs and highpass.rs, which it should call, are not among the
modules of the crate (lib.rs); they are modelled as they stand.  `doLpf`, `doHpf` there are `do_lpf`, `do_hpf` of k35.rs, and `fasttanhSSEclamped` is `fasttanh_sse_clamped`.
-/
namespace Verif.Filters
open Verif Verif.Dsp.Fast

/-! ## Model -/

/-- k35.rs 57-65 `do_lpf`: the output and the new register. -/
def k35Lpf (g x z : ℝ) : ℝ × ℝ :=
  let v := (x - z) * g
  let r := v + z
  (r, v + r)

/-- k35.rs 67-71 `do_hpf`. -/
def k35Hpf (g x z : ℝ) : ℝ × ℝ := (x - (k35Lpf g x z).1, (k35Lpf g x z).2)

/-- lowpass.rs 40-60, highpass.rs 38-50: a value and its saturated version, blended. -/
noncomputable def k35Drive (sat blend inv x : ℝ) : ℝ := x * inv + fasttanhClamped (x * sat) * blend

/-- lowpass.rs 5-80 `process_lp`.  Coefficients `G, LpfBeta, HpfBeta, KModded, Alpha, Saturation, SaturationBlend, SaturationBlendInv` are 0 to 7, registers `Lpf1z1, Hpf1z1, Xpf2z1` are 0 to 2. -/
noncomputable def k35lp (u : FU) (x : ℝ) : FU × ℝ :=
  let u := u.adv [0, 1, 2, 3, 4, 5, 6, 7]
  let c := u.coeff
  let l1 := k35Lpf (c 0) x (u.reg 0)
  let s35 := c 1 * u.reg 2 + c 2 * u.reg 1
  let clean := c 4 * (l1.1 + s35)
  let l2 := k35Lpf (c 0) (k35Drive (c 5) (c 6) (c 7) clean) (u.reg 2)
  let y := c 3 * l2.1
  let h := k35Hpf (c 0) y (u.reg 1)
  (((u.set 0 l1.2).set 2 l2.2).set 1 h.2, y / c 3)

/-- highpass.rs 5-60 `process_hp`. -/
noncomputable def k35hp (u : FU) (x : ℝ) : FU × ℝ :=
  let u := u.adv [0, 1, 2, 3, 4, 5, 6, 7]
  let c := u.coeff
  let h1 := k35Hpf (c 0) x (u.reg 1)
  let s35 := c 2 * u.reg 2 + c 1 * u.reg 0
  let v := c 4 * (h1.1 + s35)
  let y := k35Drive (c 5) (c 6) (c 7) (c 3 * v)
  let h2 := k35Hpf (c 0) y (u.reg 2)
  let l := k35Lpf (c 0) h2.1 (u.reg 0)
  (((u.set 1 h1.2).set 2 h2.2).set 0 l.2, y / c 3)

/-- k35.rs 34-38 `clamped_frequency`; `hz` stands for `n2p(pitch + 69) * MIDI_0_FREQ`. -/
noncomputable def k35Hz (hz sr : ℝ) : ℝ := max 5.0 (min hz (sr * 0.3))

/-- coeff.rs 10-18: `g`. -/
noncomputable def k35G (hz sr si : ℝ) : ℝ := 2.0 * sr * fasttan (k35Hz hz sr * 2.0 * Real.pi * si * 0.5) * si * 0.5

/-- coeff.rs 5-43 `coeff_make`; `sr`, `si` are the oversampled rate and its inverse. -/
noncomputable def k35Coeff (lowpass : Bool) (sat hz sr si reso : ℝ) : ℕ → ℝ :=
  let g := k35G hz sr si
  let gs := g / (1.0 + g)
  let mk := max 0.01 (min (reso * 1.96) 1.96)
  fun i => match i with
  | 0 => gs
  | 1 => if lowpass then (mk - mk * gs) / (1.0 + g) else 1.0 / (1.0 + g)
  | 2 => if lowpass then -1.0 / (1.0 + g) else -gs / (1.0 + g)
  | 3 => mk
  | 4 => 1.0 / (1.0 - mk * gs + mk * gs * gs)
  | 5 => sat
  | 6 => min sat 1.0
  | 7 => 1.0 - min sat 1.0
  | _ => 0

/-! ## The circuits -/

/-- An integrator by the trapezoidal rule, of gain `g`, in a one-pole low-pass: from `z` to `t`, output `l`. -/
structure Spec.Pole (g x z t l : ℝ) : Prop where
  mid : l = (z + t) / 2
  slope : t - z = 2 * g * (x - l)

/-- The low-pass circuit: input pole, then a second pole whose output, `k` times, comes back through a high-pass; no delay anywhere in the loop. -/
structure Spec.K35Low (g k x z1 zh z2 t1 th t2 l1 lh l2 : ℝ) : Prop where
  first : Spec.Pole g x z1 t1 l1
  second : Spec.Pole g (l1 + (k * l2 - lh)) z2 t2 l2
  back : Spec.Pole g (k * l2) zh th lh

/-- The high-pass circuit: input high-pass; its output and what comes back, `k` times, is the output; it comes back through a high-pass and a low-pass. `u` is the output before the gain `k`. -/
structure Spec.K35High (g k x z1 z2 zl t1 t2 tl l1 l2 ll u : ℝ) : Prop where
  first : Spec.Pole g x z1 t1 l1
  sum : u = (x - l1) + ll
  second : Spec.Pole g (k * u) z2 t2 l2
  back : Spec.Pole g (k * u - l2) zl tl ll

theorem pole_of {g x z : ℝ} (hg : 0 ≤ g) : Spec.Pole g x z (k35Lpf (g / (1 + g)) x z).2 (k35Lpf (g / (1 + g)) x z).1 := by
  have : 1 + g ≠ 0 := by linarith
  constructor
  · simp only [k35Lpf]; ring
  · simp only [k35Lpf]; field_simp; ring

/-- **C261.** For every pitch and resonance, and any rate above 17 Hz: the integrator gain is between 0 and √3, the resonance below the limit 2 of self-oscillation, and the loop's divisor is not near 0. -/
theorem C261_coefficients (lowpass : Bool) (sat hz sr reso : ℝ) (hs : 17 ≤ sr) :
    let c := k35Coeff lowpass sat hz sr (1 / sr) reso
    0 < k35G hz sr (1 / sr) ∧ k35G hz sr (1 / sr) < 1.74 ∧ 0 < c 0 ∧ c 0 < 0.64 ∧ 0.01 ≤ c 3 ∧ c 3 ≤ 1.96 ∧ 1 ≤ c 4 ∧ c 4 < 2 := by
  have s0 : 0 < sr := by linarith
  have f1 : 5 ≤ k35Hz hz sr := by unfold k35Hz; exact (by norm_num : (5:ℝ) ≤ 5.0).trans (le_max_left _ _)
  have f2 : k35Hz hz sr ≤ 0.3 * sr := by
    unfold k35Hz; refine max_le ?_ ((min_le_right _ _).trans (by linarith)); norm_num; linarith
  have pi := Real.pi_pos
  obtain ⟨θ, hθ⟩ : ∃ θ, θ = k35Hz hz sr * 2.0 * Real.pi * (1 / sr) * 0.5 := ⟨_, rfl⟩
  have eθ : θ = k35Hz hz sr / sr * Real.pi := by rw [hθ]; norm_num; ring
  have r0 : 0 < k35Hz hz sr / sr := div_pos (by linarith) s0
  have r1 : k35Hz hz sr / sr ≤ 0.3 := by rw [div_le_iff₀ s0]; exact f2
  have t0 : 0 < θ := by rw [eθ]; positivity
  have t1 : θ ≤ 0.3 * Real.pi := by rw [eθ]; exact mul_le_mul_of_nonneg_right r1 pi.le
  have tp : 0 < Real.tan θ := Real.tan_pos_of_pos_of_lt_pi_div_two t0 (by linarith)
  have tl : Real.tan θ < Real.sqrt 3 := by
    rw [← Real.tan_pi_div_three]
    exact Real.tan_lt_tan_of_lt_of_lt_pi_div_two (by linarith) (by linarith) (by norm_num at t1; linarith)
  have s3 : Real.sqrt 3 < 1.7321 := by rw [Real.sqrt_lt' (by norm_num)]; norm_num
  have near := C142_tan.2 θ (by rw [abs_of_pos t0]; have := Real.pi_lt_d2; norm_num at t1 this ⊢; linarith)
  rw [abs_of_pos tp, abs_le] at near
  have g_eq : k35G hz sr (1 / sr) = fasttan θ := by
    unfold k35G; rw [← hθ]; norm_num; field_simp
  have g0 : 0 < k35G hz sr (1 / sr) := by rw [g_eq]; norm_num at near; nlinarith
  have g1 : k35G hz sr (1 / sr) < 1.74 := by rw [g_eq]; norm_num at near s3 ⊢; nlinarith
  obtain ⟨g, hg⟩ : ∃ g, g = k35G hz sr (1 / sr) := ⟨_, rfl⟩
  obtain ⟨m, hm⟩ : ∃ m, m = max 0.01 (min (reso * 1.96) 1.96) := ⟨_, rfl⟩
  have m0 : 0.01 ≤ m := by rw [hm]; exact le_max_left _ _
  have m1 : m ≤ 1.96 := by rw [hm]; exact max_le (by norm_num) (min_le_right _ _)
  rw [← hg] at g0 g1
  have p : 0 < 1 + g := by linarith
  have G0 : 0 < g / (1 + g) := div_pos g0 p
  have G1 : g / (1 + g) < 0.64 := by rw [div_lt_iff₀ p]; norm_num at g1 ⊢; linarith
  have q0 : 0 ≤ g / (1 + g) * (1 - g / (1 + g)) := mul_nonneg G0.le (by norm_num at G1; linarith)
  have q1 : g / (1 + g) * (1 - g / (1 + g)) ≤ 1 / 4 := by nlinarith [sq_nonneg (g / (1 + g) - 1 / 2)]
  have e : (1.0 - m * (g / (1.0 + g)) + m * (g / (1.0 + g)) * (g / (1.0 + g)) : ℝ) = 1 - m * (g / (1 + g) * (1 - g / (1 + g))) := by norm_num; ring
  have b0 : 0.51 ≤ 1 - m * (g / (1 + g) * (1 - g / (1 + g))) := by norm_num at m0 m1 ⊢; nlinarith
  have b1 : 1 - m * (g / (1 + g) * (1 - g / (1 + g))) ≤ 1 := by norm_num at m0; nlinarith
  norm_num at b0
  simp only [k35Coeff]
  rw [← hg, ← hm, e]
  refine ⟨g0, g1, by norm_num; exact G0, by norm_num at G1 ⊢; exact G1, m0, m1, ?_, ?_⟩
  · rw [le_div_iff₀ (by linarith)]; norm_num; linarith
  · rw [div_lt_iff₀ (by linarith)]; norm_num; linarith

/-- The coefficients `c` are those of a filter with integrator gain `g` and resonance `k`, without saturation. -/
structure Spec.Clean (lowpass : Bool) (g k : ℝ) (c : ℕ → ℝ) : Prop where
  g0 : 0 < g
  k0 : 0 < k
  k2 : k < 2
  c0 : c 0 = g / (1 + g)
  c1 : c 1 = if lowpass then (k - k * (g / (1 + g))) / (1 + g) else 1 / (1 + g)
  c2 : c 2 = if lowpass then -1 / (1 + g) else -(g / (1 + g)) / (1 + g)
  c3 : c 3 = k
  c4 : c 4 = 1 / (1 - k * (g / (1 + g)) + k * (g / (1 + g)) * (g / (1 + g)))
  c6 : c 6 = 0
  c7 : c 7 = 1

/-- Such coefficients are made by `coeff_make` with saturation 0. -/
theorem clean_made (lowpass : Bool) (hz sr reso : ℝ) (hs : 17 ≤ sr) :
    Spec.Clean lowpass (k35G hz sr (1 / sr)) (max 0.01 (min (reso * 1.96) 1.96)) (k35Coeff lowpass 0 hz sr (1 / sr) reso) := by
  obtain ⟨h1, -, -, -, h3, h4, -⟩ := C261_coefficients lowpass 0 hz sr reso hs
  have e3 : k35Coeff lowpass 0 hz sr (1 / sr) reso 3 = max 0.01 (min (reso * 1.96) 1.96) := rfl
  rw [e3] at h3 h4
  refine ⟨h1, lt_of_lt_of_le (by norm_num) h3, lt_of_le_of_lt h4 (by norm_num), ?_, ?_, ?_, rfl, ?_, ?_, ?_⟩ <;> simp only [k35Coeff] <;> norm_num

theorem loop_pos {g k : ℝ} (g0 : 0 < g) (k0 : 0 < k) (k2 : k < 2) : 0 < 1 - k * (g / (1 + g)) + k * (g / (1 + g)) * (g / (1 + g)) := by
  have p : 0 < 1 + g := by linarith
  have G0 : 0 < g / (1 + g) := div_pos g0 p
  have q1 : g / (1 + g) * (1 - g / (1 + g)) ≤ 1 / 4 := by nlinarith [sq_nonneg (g / (1 + g) - 1 / 2)]
  nlinarith

theorem now_adv (u : FU) {i : ℕ} (hi : i < 8) : (u.adv [0, 1, 2, 3, 4, 5, 6, 7]).coeff i = Spec.now u i := by
  unfold FU.adv Spec.now
  have : i ∈ [0, 1, 2, 3, 4, 5, 6, 7] := by interval_cases i <;> simp
  simp only [this, if_true]

theorem drive_clean {sat x : ℝ} : k35Drive sat 0 1 x = x := by unfold k35Drive; ring

theorem lp_step (u : FU) (x : ℝ) :
    let c := Spec.now u
    let l1 := k35Lpf (c 0) x (u.reg 0)
    let l2 := k35Lpf (c 0) (k35Drive (c 5) (c 6) (c 7) (c 4 * (l1.1 + (c 1 * u.reg 2 + c 2 * u.reg 1)))) (u.reg 2)
    (k35lp u x).1.reg 0 = l1.2 ∧ (k35lp u x).1.reg 1 = (k35Lpf (c 0) (c 3 * l2.1) (u.reg 1)).2 ∧ (k35lp u x).1.reg 2 = l2.2 ∧ (k35lp u x).2 = c 3 * l2.1 / c 3 := by
  have a := fun i hi => now_adv u (i := i) hi
  have r : (u.adv [0, 1, 2, 3, 4, 5, 6, 7]).reg = u.reg := rfl
  simp only [k35lp, a 0 (by norm_num), a 1 (by norm_num), a 2 (by norm_num), a 3 (by norm_num), a 4 (by norm_num), a 5 (by norm_num), a 6 (by norm_num), a 7 (by norm_num), r, FU.set, k35Hpf]
  refine ⟨?_, ?_, ?_, trivial⟩ <;> simp [Function.update]

theorem hp_step (u : FU) (x : ℝ) :
    let c := Spec.now u
    let h1 := k35Hpf (c 0) x (u.reg 1)
    let y := k35Drive (c 5) (c 6) (c 7) (c 3 * (c 4 * (h1.1 + (c 2 * u.reg 2 + c 1 * u.reg 0))))
    let h2 := k35Hpf (c 0) y (u.reg 2)
    (k35hp u x).1.reg 0 = (k35Lpf (c 0) h2.1 (u.reg 0)).2 ∧ (k35hp u x).1.reg 1 = h1.2 ∧ (k35hp u x).1.reg 2 = h2.2 ∧ (k35hp u x).2 = y / c 3 := by
  have a := fun i hi => now_adv u (i := i) hi
  have r : (u.adv [0, 1, 2, 3, 4, 5, 6, 7]).reg = u.reg := rfl
  simp only [k35hp, a 0 (by norm_num), a 1 (by norm_num), a 2 (by norm_num), a 3 (by norm_num), a 4 (by norm_num), a 5 (by norm_num), a 6 (by norm_num), a 7 (by norm_num), r, FU.set]
  refine ⟨?_, ?_, ?_, trivial⟩ <;> simp [Function.update]

/-- **C261.** The low-pass without saturation solves its loop exactly: each sample is a step of the circuit, in which nothing is delayed. -/
theorem C261_lowpass {g k : ℝ} (u : FU) (h : Spec.Clean true g k (Spec.now u)) (x : ℝ) :
    ∃ l1 lh, Spec.K35Low g k x (u.reg 0) (u.reg 1) (u.reg 2) ((k35lp u x).1.reg 0) ((k35lp u x).1.reg 1) ((k35lp u x).1.reg 2) l1 lh (k35lp u x).2 := by
  obtain ⟨g0, k0, k2, c0, c1, c2, c3, c4, c6, c7⟩ := h
  obtain ⟨s0, s1, s2, so⟩ := lp_step u x
  have p : 1 + g ≠ 0 := by linarith
  have D := (loop_pos g0 k0 k2).ne'
  rw [c6, c7, drive_clean] at s1 s2 so
  rw [c0] at s0 s1 s2 so
  rw [c3] at s1 so
  rw [c4, c1, c2, if_pos rfl, if_pos rfl] at s1 s2 so
  rw [mul_div_cancel_left₀ _ k0.ne'] at so
  rw [← so] at s1
  rw [s0, s1, s2]
  refine ⟨_, _, pole_of g0.le, ?_, pole_of g0.le⟩
  have key : (1 / (1 - k * (g / (1 + g)) + k * (g / (1 + g)) * (g / (1 + g))) *
      ((k35Lpf (g / (1 + g)) x (u.reg 0)).1 + ((k - k * (g / (1 + g))) / (1 + g) * u.reg 2 + -1 / (1 + g) * u.reg 1))) =
      (k35Lpf (g / (1 + g)) x (u.reg 0)).1 + (k * (k35lp u x).2 - (k35Lpf (g / (1 + g)) (k * (k35lp u x).2) (u.reg 1)).1) := by
    rw [so]
    simp only [k35Lpf]
    generalize u.reg 0 = a
    generalize u.reg 1 = b
    generalize u.reg 2 = c
    have q : -1 / (1 + g) = g / (1 + g) - 1 := by field_simp; ring
    have q' : ∀ y, y / (1 + g) = y * (1 - g / (1 + g)) := by intro y; field_simp; ring
    rw [q, q' (k - k * (g / (1 + g)))]
    generalize g / (1 + g) = G at *
    obtain ⟨cl, hcl⟩ : ∃ cl, cl = 1 / (1 - k * G + k * G * G) * ((x - a) * G + a + ((k - k * G) * (1 - G) * c + (G - 1) * b)) := ⟨_, rfl⟩
    have e : (1 - k * G + k * G * G) * cl = (x - a) * G + a + ((k - k * G) * (1 - G) * c + (G - 1) * b) := by
      rw [hcl, one_div, mul_inv_cancel_left₀ D]
    rw [← hcl]
    linear_combination e
  have := pole_of (x := (k35Lpf (g / (1 + g)) x (u.reg 0)).1 + (k * (k35lp u x).2 - (k35Lpf (g / (1 + g)) (k * (k35lp u x).2) (u.reg 1)).1)) (z := u.reg 2) g0.le
  rw [← key, ← so] at this
  rw [← key]
  exact this

/-- **C261.** The high-pass without saturation solves its loop exactly as well. -/
theorem C261_highpass {g k : ℝ} (u : FU) (h : Spec.Clean false g k (Spec.now u)) (x : ℝ) :
    ∃ l1 l2 ll, Spec.K35High g k x (u.reg 1) (u.reg 2) (u.reg 0) ((k35hp u x).1.reg 1) ((k35hp u x).1.reg 2) ((k35hp u x).1.reg 0) l1 l2 ll (k35hp u x).2 := by
  obtain ⟨g0, k0, k2, c0, c1, c2, c3, c4, c6, c7⟩ := h
  obtain ⟨s0, s1, s2, so⟩ := hp_step u x
  have p : 1 + g ≠ 0 := by linarith
  have D := (loop_pos g0 k0 k2).ne'
  rw [c6, c7, drive_clean] at s0 s2 so
  rw [c0] at s0 s1 s2 so
  rw [c3] at s0 s2 so
  rw [mul_div_cancel_left₀ _ k0.ne'] at so
  rw [← so] at s0 s2
  rw [s0, s1, s2]
  refine ⟨_, _, _, pole_of g0.le, ?_, pole_of g0.le, pole_of g0.le⟩
  have so' := so
  rw [c4, c1, c2, if_neg (by simp), if_neg (by simp)] at so'
  simp only [k35Lpf, k35Hpf] at so' ⊢
  generalize (k35hp u x).2 = y at *
  generalize u.reg 0 = a at *
  generalize u.reg 1 = b at *
  generalize u.reg 2 = c at *
  have q : ∀ y, y / (1 + g) = y * (1 - g / (1 + g)) := by intro y; field_simp; ring
  rw [q 1, q (-(g / (1 + g)))] at so'
  generalize g / (1 + g) = G at *
  have e : (1 - k * G + k * G * G) * y = x - ((x - b) * G + b) + (-G * (1 - G) * c + 1 * (1 - G) * a) := by
    rw [so', one_div, mul_inv_cancel_left₀ D]
  linear_combination e

/-- What the drive `s` makes of a value: that much of it, at most all, is replaced by the saturated value. -/
noncomputable def Spec.driven (s v : ℝ) : ℝ := (1 - min s 1) * v + min s 1 * fasttanhClamped (s * v)

/-- The coefficients `c` are those of a filter with integrator gain `g`, resonance `k` and drive `s`. -/
structure Spec.Driven (lowpass : Bool) (g k s : ℝ) (c : ℕ → ℝ) : Prop where
  clean : Spec.Clean lowpass g k fun i => if i = 6 then 0 else if i = 7 then 1 else c i
  c5 : c 5 = s
  c6 : c 6 = min s 1
  c7 : c 7 = 1 - min s 1

/-- Such coefficients are made by `coeff_make` with any saturation. -/
theorem driven_made (lowpass : Bool) (s hz sr reso : ℝ) (hs : 17 ≤ sr) :
    Spec.Driven lowpass (k35G hz sr (1 / sr)) (max 0.01 (min (reso * 1.96) 1.96)) s (k35Coeff lowpass s hz sr (1 / sr) reso) := by
  obtain ⟨a0, a1, a2, a3, a4, a5, a6, a7, a8, a9⟩ := clean_made lowpass hz sr reso hs
  refine ⟨⟨a0, a1, a2, a3, a4, a5, a6, a7, by simp, by simp⟩, rfl, ?_, ?_⟩ <;> simp only [k35Coeff] <;> norm_num

/-- **C261.** The low-pass with any drive: the poles and the way back are those of the circuit; into the second pole goes, driven, what the circuit without drive would put into it. -/
theorem C261_lowpass_driven {g k s : ℝ} (u : FU) (h : Spec.Driven true g k s (Spec.now u)) (x : ℝ) :
    ∃ l1 lh l lh' t t', Spec.K35Low g k x (u.reg 0) (u.reg 1) (u.reg 2) ((k35lp u x).1.reg 0) t t' l1 lh' l ∧
      Spec.Pole g (Spec.driven s (l1 + (k * l - lh'))) (u.reg 2) ((k35lp u x).1.reg 2) (k35lp u x).2 ∧ Spec.Pole g (k * (k35lp u x).2) (u.reg 1) ((k35lp u x).1.reg 1) lh := by
  obtain ⟨hc, h5, h6, h7⟩ := h
  obtain ⟨v, hv⟩ : ∃ v : FU, v = ⟨fun i => if i = 6 then 0 else if i = 7 then 1 else Spec.now u i, fun _ => 0, u.reg, u.stage⟩ := ⟨_, rfl⟩
  have nv : Spec.now v = fun i => if i = 6 then 0 else if i = 7 then 1 else Spec.now u i := by rw [hv]; funext i; simp [Spec.now]
  have rv : v.reg = u.reg := by rw [hv]
  rw [← nv] at hc
  obtain ⟨l1, lh', K⟩ := C261_lowpass v hc x
  obtain ⟨s0, s1, s2, so⟩ := lp_step u x
  obtain ⟨r0, r1, r2, ro⟩ := lp_step v x
  have g0 := hc.g0
  have k0 := hc.k0
  have e : ∀ i, i ≠ 6 → i ≠ 7 → Spec.now u i = Spec.now v i := fun i a b => by rw [nv]; simp [a, b]
  have e0 := (e 0 (by norm_num) (by norm_num)).trans hc.c0
  have e3 := (e 3 (by norm_num) (by norm_num)).trans hc.c3
  have f0 : (k35lp v x).1.reg 0 = (k35lp u x).1.reg 0 := by rw [r0, s0, ← e 0 (by norm_num) (by norm_num), rv]
  rw [rv, f0] at K
  have inn : Spec.now u 4 * ((k35Lpf (Spec.now u 0) x (u.reg 0)).1 + (Spec.now u 1 * u.reg 2 + Spec.now u 2 * u.reg 1)) = l1 + (k * (k35lp v x).2 - lh') := by
    rw [rv, ← e 0 (by norm_num) (by norm_num), ← e 4 (by norm_num) (by norm_num), ← e 1 (by norm_num) (by norm_num), ← e 2 (by norm_num) (by norm_num), hc.c6, hc.c7, drive_clean] at r2 ro
    rw [← e 3 (by norm_num) (by norm_num), e3, mul_div_cancel_left₀ _ k0.ne'] at ro
    have b := K.second.slope
    have m := K.second.mid
    rw [r2] at b
    generalize Spec.now u 4 * ((k35Lpf (Spec.now u 0) x (u.reg 0)).1 + (Spec.now u 1 * u.reg 2 + Spec.now u 2 * u.reg 1)) = w at *
    rw [e0] at b ro
    have c := (pole_of (x := w) (z := u.reg 2) g0.le).slope
    rw [← ro] at c
    have d : 2 * g * (w - (k35lp v x).2) = 2 * g * (l1 + (k * (k35lp v x).2 - lh') - (k35lp v x).2) := by rw [← b, ← c]
    have := mul_left_cancel₀ (by positivity) d
    linarith
  have dr : k35Drive (Spec.now u 5) (Spec.now u 6) (Spec.now u 7) (l1 + (k * (k35lp v x).2 - lh')) = Spec.driven s (l1 + (k * (k35lp v x).2 - lh')) := by
    rw [h5, h6, h7]; simp only [k35Drive, Spec.driven, mul_comm]
  rw [inn, dr, e0] at s1 s2 so
  rw [e3] at s1 so
  rw [mul_div_cancel_left₀ _ k0.ne'] at so
  rw [← so] at s1
  refine ⟨l1, (k35Lpf (g / (1 + g)) (k * (k35lp u x).2) (u.reg 1)).1, (k35lp v x).2, lh', _, _, K, ?_, ?_⟩
  · rw [s2, so]; exact pole_of g0.le
  · rw [s1]; exact pole_of g0.le

/-- **C261.** The high-pass with any drive: its output, `k` times, is the driven value of what the circuit without drive would give; all else is the circuit, with that output. -/
theorem C261_highpass_driven {g k s : ℝ} (u : FU) (h : Spec.Driven false g k s (Spec.now u)) (x : ℝ) :
    ∃ l1 l2 ll y l2' ll' t t', Spec.K35High g k x (u.reg 1) (u.reg 2) (u.reg 0) ((k35hp u x).1.reg 1) t t' l1 l2' ll' y ∧ k * (k35hp u x).2 = Spec.driven s (k * y) ∧
      Spec.Pole g (k * (k35hp u x).2) (u.reg 2) ((k35hp u x).1.reg 2) l2 ∧ Spec.Pole g (k * (k35hp u x).2 - l2) (u.reg 0) ((k35hp u x).1.reg 0) ll := by
  obtain ⟨hc, h5, h6, h7⟩ := h
  obtain ⟨v, hv⟩ : ∃ v : FU, v = ⟨fun i => if i = 6 then 0 else if i = 7 then 1 else Spec.now u i, fun _ => 0, u.reg, u.stage⟩ := ⟨_, rfl⟩
  have nv : Spec.now v = fun i => if i = 6 then 0 else if i = 7 then 1 else Spec.now u i := by rw [hv]; funext i; simp [Spec.now]
  have rv : v.reg = u.reg := by rw [hv]
  rw [← nv] at hc
  obtain ⟨l1, l2', ll', K⟩ := C261_highpass v hc x
  obtain ⟨s0, s1, s2, so⟩ := hp_step u x
  obtain ⟨r0, r1, r2, ro⟩ := hp_step v x
  have g0 := hc.g0
  have k0 := hc.k0
  have e : ∀ i, i ≠ 6 → i ≠ 7 → Spec.now u i = Spec.now v i := fun i a b => by rw [nv]; simp [a, b]
  have e0 := (e 0 (by norm_num) (by norm_num)).trans hc.c0
  have e3 := (e 3 (by norm_num) (by norm_num)).trans hc.c3
  have f0 : (k35hp v x).1.reg 1 = (k35hp u x).1.reg 1 := by rw [r1, s1, ← e 0 (by norm_num) (by norm_num), rv]
  rw [rv, f0] at K
  rw [rv, ← e 0 (by norm_num) (by norm_num), ← e 4 (by norm_num) (by norm_num), ← e 1 (by norm_num) (by norm_num), ← e 2 (by norm_num) (by norm_num), ← e 3 (by norm_num) (by norm_num), hc.c6, hc.c7, drive_clean, e3, mul_div_cancel_left₀ _ k0.ne'] at ro
  rw [e3, ← ro, h5, h6, h7] at s0 s2 so
  have dr : k35Drive s (min s 1) (1 - min s 1) (k * (k35hp v x).2) = Spec.driven s (k * (k35hp v x).2) := by simp only [k35Drive, Spec.driven, mul_comm]
  rw [dr] at s0 s2 so
  have ko : k * (k35hp u x).2 = Spec.driven s (k * (k35hp v x).2) := by rw [so, mul_div_cancel₀ _ k0.ne']
  rw [← ko, e0] at s0 s2
  obtain ⟨m2, hm2⟩ : ∃ m2, m2 = (k35Lpf (g / (1 + g)) (k * (k35hp u x).2) (u.reg 2)).1 := ⟨_, rfl⟩
  refine ⟨l1, m2, (k35Lpf (g / (1 + g)) (k * (k35hp u x).2 - m2) (u.reg 0)).1, (k35hp v x).2, l2', ll', _, _, K, ko, ?_, ?_⟩
  · rw [s2, hm2]; exact pole_of g0.le
  · rw [s0, hm2]; exact pole_of g0.le

/-! ## Settling -/

/-- The energy argument for both filters: `a`, `b` a damped pair driven by `e`, `w` the charge of the input pole relative to the input. -/
theorem pair_settles {a b w e g : ℕ → ℝ} {α β d gl gh : ℝ} (d0 : 0 < d) (d2 : d < 2) (gl0 : 0 < gl) (hl : ∀ n, gl ≤ g n) (hh : ∀ n, g n ≤ gh)
    (ha : ∀ n, a (n + 1) - a n = 2 * g n * ((b n + b (n + 1)) / 2 + α * e n))
    (hb : ∀ n, b (n + 1) - b n = 2 * g n * (-d * ((b n + b (n + 1)) / 2) - (a n + a (n + 1)) / 2 + β * e n))
    (he : ∀ n, e n = (w n + w (n + 1)) / 2) (hw : ∀ n, w (n + 1) - w n = -(2 * g n * e n)) :
    Filter.Tendsto (fun n => (a n + a (n + 1)) / 2) Filter.atTop (nhds 0) ∧ Filter.Tendsto (fun n => (b n + b (n + 1)) / 2) Filter.atTop (nhds 0) ∧ Filter.Tendsto e Filter.atTop (nhds 0) := by
  obtain ⟨p, hp⟩ : ∃ p, p = 2 * α + d / 2 * β := ⟨_, rfl⟩
  obtain ⟨q, hq⟩ : ∃ q, q = 2 * β + d / 2 * α := ⟨_, rfl⟩
  obtain ⟨M, hM⟩ : ∃ M, M = (p ^ 2 + q ^ 2) / d + 1 := ⟨_, rfl⟩
  have M0 : 0 ≤ M := by rw [hM]; positivity
  obtain ⟨E, hE⟩ : ∃ E : ℕ → ℝ, E = fun n => a n ^ 2 + b n ^ 2 + d / 2 * (a n * b n) + M * w n ^ 2 := ⟨_, rfl⟩
  have low : ∀ n, 0 ≤ E n := fun n => by
    have h1 : 0 ≤ M * w n ^ 2 := by positivity
    simp only [hE]
    nlinarith [sq_nonneg (a n + b n), sq_nonneg (a n - b n), mul_nonneg d0.le (sq_nonneg (a n + b n)), mul_nonneg (sub_nonneg.2 d2.le) (sq_nonneg (a n - b n)), mul_nonneg (sub_nonneg.2 d2.le) (add_nonneg (sq_nonneg (a n)) (sq_nonneg (b n)))]
  have drop : ∀ n, 2 * gl * (d / 8 * ((a n + a (n + 1)) / 2) ^ 2 + d / 8 * ((b n + b (n + 1)) / 2) ^ 2 + e n ^ 2) ≤ E n - E (n + 1) := fun n => by
    obtain ⟨A, hA⟩ : ∃ A, A = (a n + a (n + 1)) / 2 := ⟨_, rfl⟩
    obtain ⟨B, hB⟩ : ∃ B, B = (b n + b (n + 1)) / 2 := ⟨_, rfl⟩
    have k : E n - E (n + 1) = 2 * g n * ((2 * d - d / 2) * B ^ 2 + d / 2 * A ^ 2 + d / 2 * d * (A * B) - e n * (p * A + q * B) + 2 * M * e n ^ 2) := by
      have h1 := ha n
      have h2 := hb n
      have h3 := hw n
      have h4 := he n
      simp only [hE]
      rw [← hB] at h1 h2
      rw [← hA] at h2
      rw [hp, hq]
      have a1 : a n = 2 * A - a (n + 1) := by rw [hA]; ring
      have b1 : b n = 2 * B - b (n + 1) := by rw [hB]; ring
      have w1 : w n = 2 * e n - w (n + 1) := by rw [h4]; ring
      have a2 : a (n + 1) = A + g n * (B + α * e n) := by rw [a1] at h1; linarith
      have b2 : b (n + 1) = B + g n * (-d * B - A + β * e n) := by rw [b1] at h2; linarith
      have w2 : w (n + 1) = e n - g n * e n := by rw [w1] at h3; linarith
      rw [a1, b1, w1, a2, b2, w2]
      ring
    rw [k, ← hA, ← hB]
    have x1 : p * A * e n ≤ d / 8 * A ^ 2 + 2 / d * p ^ 2 * e n ^ 2 := by
      have : 0 ≤ 2 / d * (p * e n - d / 4 * A) ^ 2 := by positivity
      have e1 : 2 / d * (p * e n - d / 4 * A) ^ 2 = d / 8 * A ^ 2 + 2 / d * p ^ 2 * e n ^ 2 - p * A * e n := by field_simp; ring
      linarith
    have x2 : q * B * e n ≤ d / 8 * B ^ 2 + 2 / d * q ^ 2 * e n ^ 2 := by
      have : 0 ≤ 2 / d * (q * e n - d / 4 * B) ^ 2 := by positivity
      have e1 : 2 / d * (q * e n - d / 4 * B) ^ 2 = d / 8 * B ^ 2 + 2 / d * q ^ 2 * e n ^ 2 - q * B * e n := by field_simp; ring
      linarith
    have x3 : 2 * M * e n ^ 2 = 2 / d * p ^ 2 * e n ^ 2 + 2 / d * q ^ 2 * e n ^ 2 + 2 * e n ^ 2 := by rw [hM]; field_simp
    have x4 : 0 ≤ d * (1 / 4 * A ^ 2 + B ^ 2 + d / 2 * (A * B)) := by
      refine mul_nonneg d0.le ?_
      nlinarith [sq_nonneg (A / 2 + B), sq_nonneg (A / 2 - B), mul_nonneg d0.le (sq_nonneg (A / 2 + B)), mul_nonneg (sub_nonneg.2 d2.le) (add_nonneg (sq_nonneg (A / 2)) (sq_nonneg B))]
    have x5 : d / 8 * A ^ 2 + d / 8 * B ^ 2 + e n ^ 2 ≤ (2 * d - d / 2) * B ^ 2 + d / 2 * A ^ 2 + d / 2 * d * (A * B) - e n * (p * A + q * B) + 2 * M * e n ^ 2 := by
      have := mul_nonneg d0.le (sq_nonneg A)
      have := mul_nonneg d0.le (sq_nonneg B)
      nlinarith [sq_nonneg (e n)]
    have x6 : 0 ≤ d / 8 * A ^ 2 + d / 8 * B ^ 2 + e n ^ 2 := by positivity
    exact mul_le_mul (by linarith [hl n]) x5 x6 (by linarith [hl n])
  have anti : Antitone E := antitone_nat_of_succ_le fun n => by
    have := drop n
    have : 0 ≤ 2 * gl * (d / 8 * ((a n + a (n + 1)) / 2) ^ 2 + d / 8 * ((b n + b (n + 1)) / 2) ^ 2 + e n ^ 2) := by positivity
    linarith
  obtain ⟨L, hL⟩ : ∃ L, Filter.Tendsto E Filter.atTop (nhds L) := ⟨_, tendsto_atTop_ciInf anti ⟨0, by rintro _ ⟨n, rfl⟩; exact low n⟩⟩
  have gap : Filter.Tendsto (fun n => E n - E (n + 1)) Filter.atTop (nhds 0) := by
    have := hL.sub ((Filter.tendsto_add_atTop_iff_nat 1).2 hL)
    rwa [sub_self] at this
  have dies : ∀ (y : ℕ → ℝ) (κ : ℝ), 0 < κ → (∀ n, κ * y n ^ 2 ≤ E n - E (n + 1)) → Filter.Tendsto y Filter.atTop (nhds 0) := fun y κ hκ hy => by
    have sq : Filter.Tendsto (fun n => y n ^ 2) Filter.atTop (nhds 0) := by
      have := gap.div_const κ
      rw [zero_div] at this
      refine squeeze_zero (fun n => sq_nonneg _) (fun n => ?_) this
      rw [le_div_iff₀ hκ]
      linarith [hy n]
    have := (Real.continuous_sqrt.tendsto 0).comp sq
    rw [Real.sqrt_zero] at this
    refine (tendsto_zero_iff_abs_tendsto_zero _).2 (this.congr fun n => ?_)
    simp [Real.sqrt_sq_eq_abs]
  have m1 : ∀ n, 0 ≤ gl * d * ((a n + a (n + 1)) / 2) ^ 2 := fun n => by positivity
  have m2 : ∀ n, 0 ≤ gl * d * ((b n + b (n + 1)) / 2) ^ 2 := fun n => by positivity
  have m3 : ∀ n, 0 ≤ gl * e n ^ 2 := fun n => by positivity
  refine ⟨dies _ (gl * d / 4) (by positivity) fun n => ?_, dies _ (gl * d / 4) (by positivity) fun n => ?_, dies _ (2 * gl) (by positivity) fun n => ?_⟩ <;>
    linarith [drop n, m1 n, m2 n, m3 n]

/-- **C262.** Whatever state it starts in, and however its cutoff is swept meanwhile between two positive limits, at fixed resonance the clean low-pass settles on a constant input: it passes DC unchanged and rings off, for every resonance the designer can make. -/
theorem C262_lowpass_settles {U : ℕ → FU} {c k gl gh : ℝ} {g : ℕ → ℝ} (h : Spec.Played k35lp U fun _ => c) (hc : ∀ n, Spec.Clean true (g n) k (Spec.now (U n)))
    (gl0 : 0 < gl) (hl : ∀ n, gl ≤ g n) (hh : ∀ n, g n ≤ gh) : Filter.Tendsto (fun n => (k35lp (U n) c).2) Filter.atTop (nhds c) := by
  have k0 := (hc 0).k0
  have k2 := (hc 0).k2
  choose l1 lh st using fun n => C261_lowpass (U n) (hc n) c
  simp only [← h _] at st
  have := pair_settles (a := fun n => (U n).reg 2 - c) (b := fun n => (k - 1) * (U n).reg 2 - (U n).reg 1 + c) (w := fun n => (U n).reg 0 - c) (e := fun n => l1 n - c) (g := g) (α := 1) (β := k - 1)
    (d := 2 - k) (by linarith) (by linarith) gl0 hl hh ?_ ?_ ?_ ?_
  · have := this.1.add_const c
    rw [zero_add] at this
    refine this.congr fun n => ?_
    rw [(st n).second.mid]; ring
  all_goals
    intro n
    obtain ⟨⟨f1, f2⟩, ⟨s1, s2⟩, ⟨b1, b2⟩⟩ := st n
  · rw [s1, b1] at s2; linear_combination s2
  · rw [s1] at b2 s2; rw [b1] at b2 s2; linear_combination (k - 1) * s2 - b2
  · rw [f1]; ring
  · linear_combination f2

/-- **C262.** The clean high-pass blocks DC in the same way. -/
theorem C262_highpass_settles {U : ℕ → FU} {c k gl gh : ℝ} {g : ℕ → ℝ} (h : Spec.Played k35hp U fun _ => c) (hc : ∀ n, Spec.Clean false (g n) k (Spec.now (U n)))
    (gl0 : 0 < gl) (hl : ∀ n, gl ≤ g n) (hh : ∀ n, g n ≤ gh) : Filter.Tendsto (fun n => (k35hp (U n) c).2) Filter.atTop (nhds 0) := by
  have k0 := (hc 0).k0
  have k2 := (hc 0).k2
  choose l1 l2 ll st using fun n => C261_highpass (U n) (hc n) c
  simp only [← h _] at st
  have := pair_settles (a := fun n => (U n).reg 0) (b := fun n => (k - 1) * (U n).reg 0 - (U n).reg 2) (w := fun n => c - (U n).reg 1) (e := fun n => c - l1 n) (g := g) (α := k) (β := -(k * (2 - k)))
    (d := 2 - k) (by linarith) (by linarith) gl0 hl hh ?_ ?_ ?_ ?_
  · have := this.2.2.add this.1
    rw [zero_add] at this
    refine this.congr fun n => ?_
    rw [(st n).sum, (st n).back.mid]
  all_goals
    intro n
    obtain ⟨⟨f1, f2⟩, su, ⟨s1, s2⟩, ⟨b1, b2⟩⟩ := st n
  · rw [su, b1, s1] at b2; linear_combination b2
  · rw [su, b1, s1] at b2; rw [su, b1, s1] at s2; linear_combination (k - 1) * b2 - s2
  · rw [f1]; ring
  · linear_combination -f2

/-! ## Saturation -/

/-- **C262.** With full saturation (a setting of 1 or more) the low-pass stays within 2.00002 whatever is played into it, whatever the resonance path holds, and however cutoff, resonance and drive are modulated from sample to sample. -/
theorem C262_lowpass_bounded {U : ℕ → FU} {x : ℕ → ℝ} (h : Spec.Played k35lp U x) (hG : ∀ n, 0 ≤ Spec.now (U n) 0 ∧ Spec.now (U n) 0 ≤ 2 / 3) (hk : ∀ n, Spec.now (U n) 3 ≠ 0)
    (hd : ∀ n, Spec.now (U n) 6 = 1 ∧ Spec.now (U n) 7 = 0) (h0 : |(U 0).reg 2| ≤ 2.00002) (n : ℕ) : |(k35lp (U n) (x n)).2| ≤ 2.00002 := by
  have step : ∀ m, |(U m).reg 2| ≤ 2.00002 → |(k35lp (U m) (x m)).1.reg 2| ≤ 2.00002 ∧ |(k35lp (U m) (x m)).2| ≤ 2.00002 := fun m hm => by
    obtain ⟨-, -, s2, so⟩ := lp_step (U m) (x m)
    rw [(hd m).1, (hd m).2] at s2 so
    rw [mul_div_cancel_left₀ _ (hk m)] at so
    rw [s2, so]
    unfold k35Drive
    generalize Spec.now (U m) 4 * _ = y
    obtain ⟨v, hv⟩ : ∃ v, v = y * 0 + fasttanhClamped (y * Spec.now (U m) 5) * 1 := ⟨_, rfl⟩
    have v1 : |v| ≤ 1.00001 := by rw [hv]; simpa using (C142_tanh_clamped (y * Spec.now (U m) 5)).2.1
    rw [← hv]
    obtain ⟨G0, G1⟩ := hG m
    generalize Spec.now (U m) 0 = G at *
    generalize (U m).reg 2 = z at *
    rw [abs_le] at v1 hm
    simp only [k35Lpf]
    norm_num at v1 hm ⊢
    constructor <;> rw [abs_le]
    · rcases le_total G (1 / 2) with hg | hg <;> constructor <;> nlinarith
    · constructor <;> nlinarith
  have inv : ∀ m, |(U m).reg 2| ≤ 2.00002 := fun m => by
    induction m with
    | zero => exact h0
    | succ m ih => rw [h m]; exact (step m ih).1
  exact (step n (inv n)).2

/-- **C262.** The fully saturated high-pass stays within 1.00001 over the resonance gain, from every state. -/
theorem C262_highpass_bounded (u : FU) (x : ℝ) (hk : 0 < Spec.now u 3) (hd : Spec.now u 6 = 1 ∧ Spec.now u 7 = 0) : |(k35hp u x).2| ≤ 1.00001 / Spec.now u 3 := by
  obtain ⟨-, -, -, so⟩ := hp_step u x
  rw [so, hd.1, hd.2, abs_div, abs_of_pos hk]
  refine div_le_div_of_nonneg_right ?_ hk.le
  unfold k35Drive
  simpa using (C142_tanh_clamped _).2.1

/-- The designer makes such coefficients: held settings, any drive of 1 or more. -/
example (lowpass : Bool) (sat hz sr reso : ℝ) (hs : 17 ≤ sr) (h1 : 1 ≤ sat) :
    let u : FU := ⟨k35Coeff lowpass sat hz sr (1 / sr) reso, fun _ => 0, fun _ => 0, 0⟩
    (0 ≤ Spec.now u 0 ∧ Spec.now u 0 ≤ 2 / 3) ∧ Spec.now u 3 ≠ 0 ∧ (Spec.now u 6 = 1 ∧ Spec.now u 7 = 0) := by
  obtain ⟨-, -, h2, h3, h4, -⟩ := C261_coefficients lowpass sat hz sr reso hs
  have m : min sat 1.0 = 1.0 := min_eq_right (by norm_num; exact h1)
  refine ⟨⟨?_, ?_⟩, ?_, ?_, ?_⟩
  · simp only [Spec.now, add_zero]; exact h2.le
  · simp only [Spec.now, add_zero]; norm_num at h3 ⊢; linarith
  · simp only [Spec.now, add_zero]; exact (lt_of_lt_of_le (by norm_num) h4).ne'
  · simp only [Spec.now, add_zero, k35Coeff, m]; norm_num
  · simp only [Spec.now, add_zero, k35Coeff, m]; norm_num

end Verif.Filters
