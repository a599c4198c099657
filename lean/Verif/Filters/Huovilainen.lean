import Verif.Filters.RungeKutta
/-!
# The Huovilainen ladder (C215, C216)

surgefilter-huovilainen, one SIMD lane, exact real arithmetic.
-/
namespace Verif.Filters
open Verif Verif.Dsp.Fast

/-! ## Model -/

/-- huovilainen_process.rs 54-111: the tuning `tune * thermal` of the one-pole sections, from the coefficient `Fc`; the program's 0.4995 stands where its comment has 0.4955. -/
noncomputable def huoTune (fc : ℝ) : ℝ :=
  let fcr := 1.8730 * (fc * (fc * fc)) + (0.4995 * (fc * fc) + (-0.6490 * fc + 0.9988))
  1 - fastexp (-2.0 * Real.pi * (fc * 0.5 * fcr))

/-- huovilainen_process.rs 70-103: the feedback gain `resquad`. -/
noncomputable def huoRes (fc res : ℝ) : ℝ := 4.0 * (res * (-3.9364 * (fc * fc) + (1.8409 * fc + 0.9968)))

/-- huovilainen_process.rs 47-192: one of the four steps of a sample. Coefficients `Cutoff, Res, Fc, GainCompensation` are 0 to 3; registers `Stage` 0 to 3, `StageTanh` 4 to 6, `Delay` 7 to 12. -/
noncomputable def huoSub (u : FU) (x : ℝ) : FU :=
  let tune := huoTune (u.coeff 2) * 40000.0
  let resquad := huoRes (u.coeff 2) (u.coeff 1)
  let c := fun i => if i ∈ [0, 1, 2, 3] then u.coeff i + (1 / 4) * u.dcoeff i else u.coeff i
  let v := x - resquad * (u.reg 12 - c 3 * x)
  let s0 := u.reg 7 + tune * (fasttanhClamped (v * 0.000025) - u.reg 4)
  let t0 := fasttanhClamped (s0 * 0.000025)
  let s1 := u.reg 8 + tune * (t0 - u.reg 5)
  let t1 := fasttanhClamped (s1 * 0.000025)
  let s2 := u.reg 9 + tune * (t1 - u.reg 6)
  let t2 := fasttanhClamped (s2 * 0.000025)
  let s3 := u.reg 10 + tune * (t2 - fasttanhClamped (u.reg 10 * 0.000025))
  let d5 := 0.5 * (s3 + u.reg 11)
  ⟨c, u.dcoeff, fun i => match i with
    | 0 => s0 | 1 => s1 | 2 => s2 | 3 => s3 | 4 => t0 | 5 => t1 | 6 => t2
    | 7 => s0 | 8 => s1 | 9 => s2 | 10 => s3 | 11 => s3 | 12 => d5 | i => u.reg i, u.stage⟩

/-- huovilainen_process.rs 25-231 `process_quad`: the input goes into the first of the four steps, the others get zero; the four outputs are weighted and summed. -/
noncomputable def huo (u : FU) (x : ℝ) : FU × ℝ :=
  let u1 := huoSub u x
  let u2 := huoSub u1 0
  let u3 := huoSub u2 0
  let u4 := huoSub u3 0
  (u4, 1.5 * (u1.reg 12 * -0.0636844 + u2.reg 12 * 0 + u3.reg 12 * 0.57315916 + u4.reg 12 * 1.0))

/-- huovilainen_coeff.rs 5-44 `coeff_make` and huovilainen.rs 47-52 `clamped_frequency`; `f` stands for the tuned frequency, `sros` for the oversampled rate, twice the sample rate. -/
noncomputable def huoCoeffMake (f sros reso : ℝ) (gc : Option ℝ) : ℕ → ℝ :=
  let cutoff := limit f 5 (sros * 0.3)
  let co := max (cutoff - sros / 2 * 0.33333) 0 * 0.1 * (1 / sros)
  let trim : ℝ := if gc.isSome then 0.05 else 0
  fun i => match i with
  | 0 => cutoff
  | 1 => limit (limit reso 0 0.9925) 0 (0.994 - co - trim)
  | 2 => cutoff * (1 / sros) * 0.5
  | 3 => gc.getD 0
  | _ => 0

/-! ## The saturation has slopes between 0 and 1 -/

theorem tanh_slope {x : ℝ} (h : x ^ 2 ≤ 25) : 0 ≤ 1 - fasttanh x ^ 2 + x ^ 14 / tD x ^ 2 := by
  have e : 1 - fasttanh x ^ 2 + x ^ 14 / tD x ^ 2 = (tD x ^ 2 - tN x ^ 2 + x ^ 14) / tD x ^ 2 := by
    rw [fasttanh_eq]
    have := (tD_pos x).ne'
    field_simp
  rw [e]
  refine div_nonneg ?_ (by positivity)
  obtain ⟨t, ht⟩ : ∃ t, t = x ^ 2 := ⟨_, rfl⟩
  have t0 : 0 ≤ t := by rw [ht]; positivity
  have t1 : 0 ≤ 25 - t := by rw [ht]; linarith
  have p : tD x ^ 2 - tN x ^ 2 + x ^ 14 = 730458729/9765625 * (25 - t) ^ 6 + 2978024049/9765625 * t * (25 - t) ^ 5 + 1081346112/1953125 * t ^ 2 * (25 - t) ^ 4 + 1063780641/1953125 * t ^ 3 * (25 - t) ^ 3 + 615593412/1953125 * t ^ 4 * (25 - t) ^ 2 + 875810124/9765625 * t ^ 5 * (25 - t) + 231018529/9765625 * t ^ 6 := by
    rw [ht]; simp only [tN, tD]; ring
  rw [p]
  positivity

theorem tanh_slope_le (x : ℝ) : 1 - fasttanh x ^ 2 + x ^ 14 / tD x ^ 2 ≤ 1 := by
  have : x ^ 14 / tD x ^ 2 ≤ fasttanh x ^ 2 := by
    rw [fasttanh_eq, div_pow]
    refine div_le_div_of_nonneg_right ?_ (by positivity)
    have : tN x ^ 2 - x ^ 14 = x ^ 2 * ((135135 + x ^ 2 * (17325 + x ^ 2 * 378)) * (135135 + x ^ 2 * (17325 + x ^ 2 * (378 + 2 * x ^ 2)))) := by simp only [tN]; ring
    have : 0 ≤ tN x ^ 2 - x ^ 14 := by rw [this]; positivity
    linarith
  linarith

theorem tanh_mono : MonotoneOn fasttanh (Set.Icc (-5) 5) := by
  refine monotoneOn_of_deriv_nonneg (convex_Icc _ _) (fun x _ => (fasttanh_deriv x).continuousAt.continuousWithinAt) (fun x _ => (fasttanh_deriv x).differentiableAt.differentiableWithinAt) fun x hx => ?_
  rw [interior_Icc] at hx
  rw [(fasttanh_deriv x).deriv]
  exact tanh_slope (by nlinarith [hx.1, hx.2])

theorem tanh_lip : Monotone fun x => x - fasttanh x := by
  refine monotone_of_deriv_nonneg (fun x => ((hasDerivAt_id x).sub (fasttanh_deriv x)).differentiableAt) fun x => ?_
  rw [HasDerivAt.deriv (f := fun x => x - fasttanh x) ((hasDerivAt_id x).sub (fasttanh_deriv x))]
  linarith [tanh_slope_le x]

theorem clamped_of {x : ℝ} (h : |x| ≤ 5) : fasttanhClamped x = fasttanh x := by
  obtain ⟨a, b⟩ := abs_le.1 h
  rw [fasttanhClamped, max_eq_right a, min_eq_right b]

/-- A section driven by `v` cannot leave the range it shares with `v`, or the clamp. -/
theorem huoStage {m s v t : ℝ} (hm : m ≤ 200000) (hs : |s| ≤ m) (hv : |v| ≤ m ∨ m = 200000) (t0 : 0 ≤ t) (t1 : t ≤ 1) :
    |s + t * 40000.0 * (fasttanhClamped (v * 0.000025) - fasttanhClamped (s * 0.000025))| ≤ m := by
  have m0 : 0 ≤ m := (abs_nonneg s).trans hs
  rw [show (40000.0 : ℝ) = 40000 by norm_num, show (0.000025 : ℝ) = 1 / 40000 by norm_num]
  obtain ⟨w, hw⟩ : ∃ w, w = s * (1 / 40000) := ⟨_, rfl⟩
  obtain ⟨p, hp⟩ : ∃ p, p = m * (1 / 40000) := ⟨_, rfl⟩
  have p5 : p ≤ 5 := by rw [hp]; linarith
  have p0 : 0 ≤ p := by rw [hp]; linarith
  obtain ⟨q, hq⟩ : ∃ q, q = min 5 (max (-5) (v * (1 / 40000))) := ⟨_, rfl⟩
  have qp : -p ≤ q ∧ q ≤ p := by
    rcases hv with hv | hv
    · obtain ⟨a, b⟩ := abs_le.1 hv
      rw [hq, hp]
      constructor
      · refine le_min (by linarith) (le_max_of_le_right (by linarith))
      · refine min_le_of_right_le (max_le (by linarith) (by linarith))
    · have : p = 5 := by rw [hp, hv]; norm_num
      rw [this, hq]
      exact ⟨le_min (by norm_num) (le_max_left _ _), min_le_left _ _⟩
  obtain ⟨a, b⟩ := abs_le.1 hs
  have wp : -p ≤ w ∧ w ≤ p := by rw [hw, hp]; constructor <;> linarith
  have cw : fasttanhClamped w = fasttanh w := clamped_of (abs_le.2 ⟨by linarith [wp.1], by linarith [wp.2]⟩)
  have cv : fasttanhClamped (v * (1 / 40000)) = fasttanh q := by rw [hq]; rfl
  rw [← hw, cw, cv]
  have es : s = 40000 * w := by rw [hw]; ring
  have em : m = 40000 * p := by rw [hp]; ring
  have k1 : fasttanh q ≤ fasttanh p := tanh_mono ⟨by linarith [qp.1], by linarith [qp.2]⟩ ⟨by linarith, p5⟩ qp.2
  have k2 : fasttanh (-p) ≤ fasttanh q := tanh_mono ⟨by linarith, by linarith⟩ ⟨by linarith [qp.1], by linarith [qp.2]⟩ qp.1
  have l1 := tanh_lip wp.2
  have l2 := tanh_lip wp.1
  simp only at l1 l2
  rw [es, em, abs_le]
  constructor <;> nlinarith

theorem huoTune_range {fc : ℝ} (h0 : 0 ≤ fc) (h1 : fc ≤ 0.15) : 0 ≤ huoTune fc ∧ huoTune fc ≤ 1 := by
  simp only [huoTune]
  norm_num at h1
  obtain ⟨k, hk⟩ : ∃ k : ℝ, k = 1.8730 * (fc * (fc * fc)) + (0.4995 * (fc * fc) + (-0.6490 * fc + 0.9988)) := ⟨_, rfl⟩
  have k0 : 0 ≤ k := by
    rw [hk]; norm_num
    have : 0 ≤ fc * fc := by positivity
    have : 0 ≤ fc * (fc * fc) := by positivity
    linarith
  have k1 : k ≤ 1.1 := by
    rw [hk]; norm_num
    have a : fc * fc ≤ 3 / 20 * fc := by nlinarith
    have b : fc * (fc * fc) ≤ 3 / 20 * (fc * fc) := by nlinarith
    linarith
  rw [← hk]
  obtain ⟨x, hx⟩ : ∃ x, x = 2 * Real.pi * (fc * (1 / 2) * k) := ⟨_, rfl⟩
  have x0 : 0 ≤ x := by rw [hx]; have := Real.pi_pos; positivity
  have x1 : x ≤ 1 := by
    have a : fc * k ≤ 3 / 20 * (11 / 10) := by
      norm_num at k1
      exact mul_le_mul h1 k1 k0 (by norm_num)
    have p := Real.pi_lt_d2
    have p0 := Real.pi_pos
    rw [hx]
    norm_num at p
    have : 0 ≤ fc * k := by positivity
    nlinarith
  have e : -2.0 * Real.pi * (fc * 0.5 * k) = -x := by rw [hx]; norm_num
  rw [e, fastexp]
  have d : 0 < 1680 + -x * (-840 + -x * (180 + -x * (-20 + -x))) := by
    have : 1680 + -x * (-840 + -x * (180 + -x * (-20 + -x))) = 1680 + 840 * x + 180 * x ^ 2 + 20 * x ^ 3 + x ^ 4 := by ring
    rw [this]; positivity
  have n : 0 ≤ 1680 + -x * (840 + -x * (180 + -x * (20 + -x))) := by
    have a : x ^ 3 ≤ 1 := pow_le_one₀ x0 x1
    have : 0 ≤ x ^ 2 := by positivity
    have : 0 ≤ x ^ 4 := by positivity
    nlinarith
  have f0 : 0 ≤ (1680 + -x * (840 + -x * (180 + -x * (20 + -x)))) / (1680 + -x * (-840 + -x * (180 + -x * (-20 + -x)))) := div_nonneg n d.le
  have f1 : (1680 + -x * (840 + -x * (180 + -x * (20 + -x)))) / (1680 + -x * (-840 + -x * (180 + -x * (-20 + -x)))) ≤ 1 := by
    rw [div_le_one d]
    have : 0 ≤ x ^ 3 := by positivity
    nlinarith
  exact ⟨by linarith, by linarith⟩

/-- The memories stay within `m`, and the stored saturations are those of the memories. -/
structure HuoInv (m : ℝ) (r : ℕ → ℝ) : Prop where
  s0 : |r 7| ≤ m
  s1 : |r 8| ≤ m
  s2 : |r 9| ≤ m
  s3 : |r 10| ≤ m
  d4 : |r 11| ≤ m
  d5 : |r 12| ≤ m
  t0 : r 4 = fasttanhClamped (r 7 * 0.000025)
  t1 : r 5 = fasttanhClamped (r 8 * 0.000025)
  t2 : r 6 = fasttanhClamped (r 9 * 0.000025)

theorem huoSub_inv {m : ℝ} (hm : m ≤ 200000) {u : FU} {x : ℝ} (c0 : 0 ≤ u.coeff 2) (c1 : u.coeff 2 ≤ 0.15)
    (hx : |x - huoRes (u.coeff 2) (u.coeff 1) * (u.reg 12 - (u.coeff 3 + (1 / 4) * u.dcoeff 3) * x)| ≤ m ∨ m = 200000) (h : HuoInv m u.reg) :
    HuoInv m (huoSub u x).reg := by
  obtain ⟨t0, t1⟩ := huoTune_range c0 c1
  have a0 := huoStage hm h.s0 hx t0 t1
  rw [← h.t0] at a0
  have a1 := huoStage hm h.s1 (Or.inl a0) t0 t1
  rw [← h.t1] at a1
  have a2 := huoStage hm h.s2 (Or.inl a1) t0 t1
  rw [← h.t2] at a2
  have a3 := huoStage hm h.s3 (Or.inl a2) t0 t1
  have e : (huoSub u x).coeff 3 = u.coeff 3 + (1 / 4) * u.dcoeff 3 := by simp [huoSub]
  have d5 : ∀ a b : ℝ, |a| ≤ m → |b| ≤ m → |0.5 * (a + b)| ≤ m := fun a b ha hb => by
    obtain ⟨p, q⟩ := abs_le.1 ha
    obtain ⟨p', q'⟩ := abs_le.1 hb
    rw [show (0.5 : ℝ) = 1 / 2 by norm_num, abs_le]
    constructor <;> linarith
  refine ⟨?_, ?_, ?_, ?_, ?_, ?_, rfl, rfl, rfl⟩ <;> simp only [huoSub, List.mem_cons, Nat.reduceEqDiff, OfNat.ofNat_ne_zero, OfNat.ofNat_ne_one, false_or, true_or, or_true, if_true]
  · exact a0
  · exact a1
  · exact a2
  · exact a3
  · exact a3
  · exact d5 _ _ a3 h.d4

theorem huo_advances : Spec.Advances huo [0, 1, 2, 3] := fun u x => by
  refine ⟨?_, rfl⟩
  funext i
  simp only [huo, huoSub, FU.adv]
  split_ifs <;> ring

/-- Coefficients met within a sample: any mixture of those before and after it. -/
theorem huo_between {P : ℝ → ℝ → ℝ → Prop} (u : FU) (x : ℝ)
    (hp : ∀ t : ℝ, 0 ≤ t → t ≤ 1 → P (u.coeff 1 + t * u.dcoeff 1) (u.coeff 2 + t * u.dcoeff 2) (u.coeff 3 + t * u.dcoeff 3)) :
    let u1 := huoSub u x
    let u2 := huoSub u1 0
    let u3 := huoSub u2 0
    P (u.coeff 1) (u.coeff 2) (u.coeff 3) ∧ P (u1.coeff 1) (u1.coeff 2) (u1.coeff 3) ∧ P (u2.coeff 1) (u2.coeff 2) (u2.coeff 3) ∧ P (u3.coeff 1) (u3.coeff 2) (u3.coeff 3) := by
  have st : ∀ v y i, i = 1 ∨ i = 2 ∨ i = 3 → (huoSub v y).coeff i = v.coeff i + 1 / 4 * v.dcoeff i := by
    rintro v y i (rfl | rfl | rfl) <;> simp [huoSub]
  have d1 : (huoSub u x).dcoeff = u.dcoeff := rfl
  have d2 : (huoSub (huoSub u x) 0).dcoeff = u.dcoeff := rfl
  have e1 : ∀ i, i = 1 ∨ i = 2 ∨ i = 3 → (huoSub u x).coeff i = u.coeff i + 1 / 4 * u.dcoeff i := fun i h => st _ _ i h
  have e2 : ∀ i, i = 1 ∨ i = 2 ∨ i = 3 → (huoSub (huoSub u x) 0).coeff i = u.coeff i + 1 / 2 * u.dcoeff i := fun i h => by
    rw [st _ _ i h, e1 i h, d1]; ring
  have e3 : ∀ i, i = 1 ∨ i = 2 ∨ i = 3 → (huoSub (huoSub (huoSub u x) 0) 0).coeff i = u.coeff i + 3 / 4 * u.dcoeff i := fun i h => by
    rw [st _ _ i h, e2 i h, d2]; ring
  refine ⟨?_, ?_, ?_, ?_⟩
  · simpa using hp 0 le_rfl (by norm_num)
  · rw [e1 1 (by simp), e1 2 (by simp), e1 3 (by simp)]; exact hp _ (by norm_num) (by norm_num)
  · rw [e2 1 (by simp), e2 2 (by simp), e2 3 (by simp)]; exact hp _ (by norm_num) (by norm_num)
  · rw [e3 1 (by simp), e3 2 (by simp), e3 3 (by simp)]; exact hp _ (by norm_num) (by norm_num)

/-- The settings the coefficients can be between. -/
def huoRange (ρ : ℝ) : Set (ℕ → ℝ) := {v | (0 ≤ v 1 ∧ v 1 ≤ ρ) ∧ (0 ≤ v 2 ∧ v 2 ≤ 0.15) ∧ 0 ≤ v 3 ∧ v 3 ≤ 0.5}

theorem huoRes_range {fc res ρ : ℝ} (r0 : 0 ≤ res) (r1 : res ≤ ρ) (f0 : 0 ≤ fc) (f1 : fc ≤ 0.15) : 0 ≤ huoRes fc res ∧ huoRes fc res ≤ 4.76 * ρ := by
  unfold huoRes
  norm_num at f1 ⊢
  have a : 0 ≤ -(9841 / 2500 * (fc * fc)) + (18409 / 10000 * fc + 623 / 625) := by nlinarith
  have b : -(9841 / 2500 * (fc * fc)) + (18409 / 10000 * fc + 623 / 625) ≤ 119 / 100 := by nlinarith [mul_nonneg f0 (sub_nonneg.2 f1)]
  constructor
  · positivity
  · have := mul_le_mul r1 b a (r0.trans r1)
    linarith

theorem huo_step {m ρ X : ℝ} (hm : m ≤ 200000) (u : FU) (x : ℝ)
    (hc : ∀ t : ℝ, 0 ≤ t → t ≤ 1 → (0 ≤ u.coeff 1 + t * u.dcoeff 1 ∧ u.coeff 1 + t * u.dcoeff 1 ≤ ρ) ∧ (0 ≤ u.coeff 2 + t * u.dcoeff 2 ∧ u.coeff 2 + t * u.dcoeff 2 ≤ 0.15) ∧ 0 ≤ u.coeff 3 + t * u.dcoeff 3 ∧ u.coeff 3 + t * u.dcoeff 3 ≤ 0.5)
    (hx : (|x| ≤ X ∧ 4.76 * ρ * m + (1 + 2.38 * ρ) * X ≤ m) ∨ m = 200000) (h : HuoInv m u.reg) :
    HuoInv m (huo u x).1.reg ∧ |(huo u x).2| ≤ 2.456 * m := by
  obtain ⟨b0, b1, b2, b3⟩ := huo_between (P := fun a b c => (0 ≤ a ∧ a ≤ ρ) ∧ (0 ≤ b ∧ b ≤ 0.15) ∧ 0 ≤ c ∧ c ≤ 0.5) u x hc
  have m0 : 0 ≤ m := (abs_nonneg _).trans h.s0
  have zero : ∀ v : FU, HuoInv m v.reg → (0 ≤ v.coeff 1 ∧ v.coeff 1 ≤ ρ) ∧ (0 ≤ v.coeff 2 ∧ v.coeff 2 ≤ 0.15) ∧ 0 ≤ v.coeff 3 ∧ v.coeff 3 ≤ 0.5 → HuoInv m (huoSub v 0).reg := by
    rintro v hv ⟨⟨r0, r1⟩, ⟨f0, f1⟩, -⟩
    refine huoSub_inv hm f0 f1 ?_ hv
    rcases hx with ⟨xX, hX⟩ | hx
    · left
      obtain ⟨q0, q1⟩ := huoRes_range r0 r1 f0 f1
      have X0 : 0 ≤ X := (abs_nonneg x).trans xX
      rw [mul_zero, sub_zero, zero_sub, abs_neg, abs_mul, abs_of_nonneg q0]
      have := mul_le_mul q1 hv.d5 (abs_nonneg _) (q0.trans q1)
      have ρ0 : 0 ≤ ρ := r0.trans r1
      have : 0 ≤ (1 + 2.38 * ρ) * X := by positivity
      linarith
    · exact Or.inr hx
  have i1 : HuoInv m (huoSub u x).reg := by
    obtain ⟨⟨r0, r1⟩, ⟨f0, f1⟩, -⟩ := b0
    refine huoSub_inv hm f0 f1 ?_ h
    rcases hx with ⟨xX, hX⟩ | hx
    · left
      obtain ⟨q0, q1⟩ := huoRes_range r0 r1 f0 f1
      obtain ⟨-, -, g0, g1⟩ := hc (1 / 4) (by norm_num) (by norm_num)
      obtain ⟨k, hk⟩ : ∃ k, k = u.coeff 3 + 1 / 4 * u.dcoeff 3 := ⟨_, rfl⟩
      rw [← hk] at g0 g1 ⊢
      have X0 : 0 ≤ X := (abs_nonneg x).trans xX
      have a : |u.reg 12 - k * x| ≤ m + 0.5 * X := by
        have := mul_le_mul g1 xX (abs_nonneg _) (by norm_num)
        calc |u.reg 12 - k * x| ≤ |u.reg 12| + |k * x| := abs_sub _ _
          _ = |u.reg 12| + k * |x| := by rw [abs_mul, abs_of_nonneg g0]
          _ ≤ _ := by linarith [h.d5]
      calc _ ≤ |x| + |huoRes (u.coeff 2) (u.coeff 1) * (u.reg 12 - k * x)| := abs_sub _ _
        _ = |x| + huoRes (u.coeff 2) (u.coeff 1) * |u.reg 12 - k * x| := by rw [abs_mul, abs_of_nonneg q0]
        _ ≤ X + 4.76 * ρ * (m + 0.5 * X) := add_le_add xX (mul_le_mul q1 a (abs_nonneg _) (q0.trans q1))
        _ ≤ m := by norm_num at hX ⊢; linarith
    · exact Or.inr hx
  have i2 := zero _ i1 b1
  have i3 := zero _ i2 b2
  have i4 := zero _ i3 b3
  refine ⟨i4, ?_⟩
  obtain ⟨a1, a1'⟩ := abs_le.1 i1.d5
  obtain ⟨a3, a3'⟩ := abs_le.1 i3.d5
  obtain ⟨a4, a4'⟩ := abs_le.1 i4.d5
  simp only [huo]
  norm_num
  rw [← abs_of_pos (by norm_num : (0 : ℝ) < 3 / 2), ← abs_mul, abs_le]
  constructor <;> linarith

/-- Settings of the Huovilainen ladder at the oversampled rate `sros`, with the resonance control at most `ρ`; gain compensation is off or at most one half. -/
def Spec.huoSetting (sros ρ : ℝ) (v : ℕ → ℝ) : Prop := ∃ f reso gc, reso ≤ ρ ∧ (∀ g, gc = some g → 0 ≤ g ∧ g ≤ 0.5) ∧ v = huoCoeffMake f sros reso gc

theorem huo_life {m ρ X sros : ℝ} (hs : 17 ≤ sros) (hρ : 0 ≤ ρ) (m0 : 0 ≤ m) (hm : m ≤ 200000) (stage : ℤ) (bs : List ((ℕ → ℝ) × List ℝ))
    (hb : ∀ b ∈ bs, Spec.huoSetting sros ρ b.1 ∧ b.2.length = 64)
    (hx : (∀ b ∈ bs, ∀ x ∈ b.2, |x| ≤ X) ∧ 4.76 * ρ * m + (1 + 2.38 * ρ) * X ≤ m ∨ m = 200000) :
    ∀ y ∈ (life huo stage Maker.new (fun _ => 0) bs).2.2, |y| ≤ 2.456 * m := by
  have s0 : 0 < sros := by linarith
  have cv : Convex ℝ (huoRange ρ) := by
    intro v hv w hw a b ha hb hab
    obtain ⟨⟨h1, h2⟩, ⟨h3, h4⟩, h5, h6⟩ := hv
    obtain ⟨⟨k1, k2⟩, ⟨k3, k4⟩, k5, k6⟩ := hw
    have e : ∀ i, (a • v + b • w) i = a * v i + b * w i := fun i => rfl
    refine ⟨⟨?_, ?_⟩, ⟨?_, ?_⟩, ?_, ?_⟩ <;> rw [e] <;> nlinarith
  have hul := C104_hull huo_advances cv (by norm_num [huoRange, hρ]) stage (fun _ => 0) bs (fun b h => ⟨by
    obtain ⟨⟨f, r, g, hr, hg, e⟩, -⟩ := hb b h
    rw [e]
    have l : 5 ≤ limit f 5 (sros * 0.3) := le_max_left _ _
    have u : limit f 5 (sros * 0.3) ≤ sros * 0.3 := max_le (by norm_num; linarith) (min_le_right _ _)
    refine ⟨⟨le_max_left _ _, max_le hρ ((min_le_left _ _).trans (max_le hρ ((min_le_left _ _).trans hr)))⟩, ⟨?_, ?_⟩, ?_, ?_⟩
    · show 0 ≤ limit f 5 (sros * 0.3) * (1 / sros) * 0.5
      positivity
    · show limit f 5 (sros * 0.3) * (1 / sros) * 0.5 ≤ 0.15
      have : limit f 5 (sros * 0.3) * (1 / sros) ≤ 0.3 := by
        rw [mul_one_div, div_le_iff₀ s0]; linarith
      norm_num at this ⊢
      linarith
    · show 0 ≤ g.getD 0
      cases g with
      | none => simp
      | some g => exact (hg g rfl).1
    · show g.getD 0 ≤ 0.5
      cases g with
      | none => norm_num
      | some g => exact (hg g rfl).2, (hb b h).2⟩)
  have start : HuoInv m (fun _ => 0) := by
    have z : fasttanhClamped 0 = 0 := by norm_num [fasttanhClamped, fasttanh]
    constructor <;> simp [m0, z]
  refine (life_out (A := fun x => (|x| ≤ X ∧ 4.76 * ρ * m + (1 + 2.38 * ρ) * X ≤ m) ∨ m = 200000) (Q := fun y => |y| ≤ 2.456 * m) (Inv := HuoInv m) ?_ stage bs _ _ hul ?_ start).2
  · rintro u x ⟨⟨v, ⟨⟨v1, v2⟩, ⟨v3, v4⟩, v5, v6⟩, ev⟩, ⟨w, ⟨⟨w1, w2⟩, ⟨w3, w4⟩, w5, w6⟩, ew⟩⟩ ha hi
    have e1 := ev 1 (by simp)
    have e2 := ev 2 (by simp)
    have e3 := ev 3 (by simp)
    have adv : ∀ i, i = 1 ∨ i = 2 ∨ i = 3 → u.coeff i + u.dcoeff i = w i := by
      intro i hi
      have a : (huo u x).1.coeff i = u.coeff i + u.dcoeff i := by
        rw [(huo_advances u x).1]
        rcases hi with rfl | rfl | rfl <;> simp [FU.adv]
      rw [← a]
      rcases hi with rfl | rfl | rfl
      · exact ew 1 (by simp)
      · exact ew 2 (by simp)
      · exact ew 3 (by simp)
    have a1 := adv 1 (by simp)
    have a2 := adv 2 (by simp)
    have a3 := adv 3 (by simp)
    refine huo_step hm u x (fun t t0 t1 => ?_) ha hi
    rw [← e1] at v1 v2
    rw [← e2] at v3 v4
    rw [← e3] at v5 v6
    rw [← a1] at w1 w2
    rw [← a2] at w3 w4
    rw [← a3] at w5 w6
    refine ⟨⟨?_, ?_⟩, ⟨?_, ?_⟩, ?_, ?_⟩ <;> nlinarith
  · intro b hb x hxb
    rcases hx with ⟨h1, h2⟩ | h
    · exact Or.inl ⟨h1 b hb x hxb, h2⟩
    · exact Or.inr h

/-- **C215.** The Huovilainen ladder cannot blow up: over a whole life of 64-sample blocks, with any settings in each block, any resonance and any inputs whatever, no output exceeds 491 200 (the sections saturate at 200 000). -/
theorem C215_bounded {sros : ℝ} (hs : 17 ≤ sros) {ρ : ℝ} (hρ : 0 ≤ ρ) (stage : ℤ) (bs : List ((ℕ → ℝ) × List ℝ)) (hb : ∀ b ∈ bs, Spec.huoSetting sros ρ b.1 ∧ b.2.length = 64) :
    ∀ y ∈ (life huo stage Maker.new (fun _ => 0) bs).2.2, |y| ≤ 491200 := by
  intro y hy
  refine (huo_life (m := 200000) (X := 0) hs hρ (by norm_num) le_rfl stage bs hb (Or.inr rfl) y hy).trans (by norm_num)

/-- **C215** (partial: small resonance only). With the resonance control never above `ρ`, `ρ ≤ 0.2`, the output is at most `2.456 (1 + 2.38 ρ)/(1 - 4.76 ρ)` times the largest input, however the settings change from block to block. -/
theorem C215_gain_partial {sros : ℝ} (hs : 17 ≤ sros) {ρ X : ℝ} (hρ : 0 ≤ ρ) (h2 : ρ ≤ 0.2) (X0 : 0 ≤ X) (X1 : X ≤ 6000) (stage : ℤ) (bs : List ((ℕ → ℝ) × List ℝ))
    (hb : ∀ b ∈ bs, Spec.huoSetting sros ρ b.1 ∧ b.2.length = 64) (hx : ∀ b ∈ bs, ∀ x ∈ b.2, |x| ≤ X) :
    ∀ y ∈ (life huo stage Maker.new (fun _ => 0) bs).2.2, |y| ≤ 2.456 * ((1 + 2.38 * ρ) / (1 - 4.76 * ρ)) * X := by
  norm_num at h2
  have d : 0.048 ≤ 1 - 4.76 * ρ := by norm_num; linarith
  have d0 : (0 : ℝ) < 1 - 4.76 * ρ := lt_of_lt_of_le (by norm_num) d
  have n1 : 1 + 2.38 * ρ ≤ 1.476 := by norm_num; linarith
  have n0 : 0 ≤ 1 + 2.38 * ρ := by positivity
  have q : (1 + 2.38 * ρ) / (1 - 4.76 * ρ) ≤ 31 := by
    rw [div_le_iff₀ d0]; norm_num at d n1 ⊢; linarith
  have q0 : 0 ≤ (1 + 2.38 * ρ) / (1 - 4.76 * ρ) := div_nonneg n0 d0.le
  intro y hy
  have := huo_life (m := (1 + 2.38 * ρ) / (1 - 4.76 * ρ) * X) (X := X) hs hρ (by positivity) (by nlinarith) stage bs hb (Or.inl ⟨hx, ?_⟩) y hy
  · linarith
  · have e : (1 + 2.38 * ρ) / (1 - 4.76 * ρ) * (1 - 4.76 * ρ) = 1 + 2.38 * ρ := div_mul_cancel₀ _ d0.ne'
    generalize (1 + 2.38 * ρ) / (1 - 4.76 * ρ) = Q at *
    generalize (2.38 : ℝ) = k at *
    generalize (4.76 : ℝ) = l at *
    refine le_of_eq ?_
    linear_combination (-X) * e

/-- The hypotheses hold: blocks at 1 kHz, 96 kHz. -/
example : Spec.huoSetting 96000 0.2 (huoCoeffMake 1000 96000 0.1 (some 0.5)) ∧ (List.replicate 64 (1 : ℝ)).length = 64 :=
  ⟨⟨1000, 0.1, some 0.5, by norm_num, fun g h => by cases h; norm_num, rfl⟩, by simp⟩

theorem clamped_odd (x : ℝ) : fasttanhClamped (-x) = -fasttanhClamped x := by
  unfold fasttanhClamped
  rw [← fasttanh_odd]
  congr 1
  rcases le_total x 5 with h | h <;> rcases le_total (-5) x with h' | h'
  · rw [max_eq_right h', min_eq_right h, max_eq_right (by linarith), min_eq_right (by linarith)]
  · rw [max_eq_left h', max_eq_right (by linarith), min_eq_left (by linarith), min_eq_right (by norm_num)]; norm_num
  · rw [max_eq_right h', min_eq_left h, max_eq_left (by linarith), min_eq_right (by norm_num)]
  · linarith

theorem huoSub_flip (u : FU) (x : ℝ) : huoSub (Spec.flip u) (-x) = Spec.flip (huoSub u x) := by
  obtain ⟨c, d, r, st⟩ := u
  simp only [huoSub, Spec.flip, FU.mk.injEq, true_and, and_true]
  have e1 : ∀ (q k : ℝ), (-x - q * (-r 12 - k * -x)) * 0.000025 = -((x - q * (r 12 - k * x)) * 0.000025) := fun q k => by generalize (0.000025 : ℝ) = z; ring
  have e2 : ∀ (a b k t : ℝ), -a + k * (-t - -b) = -(a + k * (t - b)) := fun a b k t => by ring
  have e3 : ∀ (a : ℝ), -a * 0.000025 = -(a * 0.000025) := fun a => neg_mul _ _
  have e4 : ∀ a b : ℝ, 0.5 * (-a + -b) = -(0.5 * (a + b)) := fun a b => by generalize (0.5 : ℝ) = z; ring
  funext i
  match i with
  | 0 | 1 | 2 | 3 | 4 | 5 | 6 | 7 | 8 | 9 | 10 | 11 | 12 => simp only [e1, clamped_odd, e2, e3, e4]
  | i + 13 => rfl

/-- **C216.** Both polarities are treated alike. -/
theorem C216_odd (xs : List ℝ) : ∀ u : FU, (run huo (Spec.flip u) (xs.map (-·))).2 = (run huo u xs).2.map (-·) := by
  induction xs with
  | nil => intro u; rfl
  | cons x xs ih =>
    intro u
    have z : ∀ v, huoSub (Spec.flip v) 0 = Spec.flip (huoSub v 0) := fun v => by
      have := huoSub_flip v 0
      rwa [neg_zero] at this
    have st : huo (Spec.flip u) (-x) = (Spec.flip (huo u x).1, -(huo u x).2) := by
      simp only [huo, huoSub_flip, z]
      refine Prod.ext rfl ?_
      simp only [Spec.flip]
      generalize (1.5 : ℝ) = z
      generalize (1.0 : ℝ) = z'
      generalize (-0.0636844 : ℝ) = z1
      generalize (0.57315916 : ℝ) = z2
      ring
    simp only [List.map_cons, run, st, ih]

/-- **C216.** Silence in, silence out, from rest. -/
theorem C216_silence (n : ℕ) : ∀ u : FU, (∀ i, u.reg i = 0) → (run huo u (List.replicate n 0)).2 = List.replicate n 0 := by
  have c0 : fasttanhClamped 0 = 0 := by have := clamped_odd 0; rw [neg_zero] at this; linarith
  have sub : ∀ u : FU, (∀ i, u.reg i = 0) → ∀ i, (huoSub u 0).reg i = 0 := by
    intro u hu i
    have e : u.reg = fun _ => 0 := funext hu
    simp only [huoSub, e, mul_zero, sub_zero, zero_mul, add_zero, c0]
    split <;> rfl
  induction n with
  | zero => intro u _; rfl
  | succ n ih =>
    intro u hu
    have h1 := sub u hu
    have h2 := sub _ h1
    have h3 := sub _ h2
    have h4 := sub _ h3
    rw [List.replicate_succ]
    simp only [run, huo]
    rw [show (huoSub (huoSub (huoSub (huoSub u 0) 0) 0) 0) = (huo u 0).1 from rfl] at h4
    have := ih _ h4
    simp only [huo] at this
    rw [this, h1, h3]
    have h4' : (huoSub (huoSub (huoSub (huoSub u 0) 0) 0) 0).reg 12 = 0 := h4 12
    rw [h4', h2]
    norm_num

end Verif.Filters
