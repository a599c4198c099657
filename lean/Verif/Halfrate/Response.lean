import Verif.Halfrate.Energy
import Mathlib.Analysis.SpecialFunctions.Trigonometric.Basic
import Mathlib.Analysis.Complex.Trigonometric
import Mathlib.Analysis.SpecialFunctions.Complex.Arg
/-!
# Frequency response of the half-band filter (C110)
-/
namespace Verif.Halfrate

open Complex (exp I)

/-- One sample of delay at angular frequency `ω`. -/
noncomputable def Spec.delay (ω : ℝ) : ℂ := exp (-(ω * I))

/-- The response of a chain of all-passes at angular frequency `ω`: the product of `(z⁻² + a)/(1 + a z⁻²)`. -/
noncomputable def Spec.chainResponse (as : List ℝ) (ω : ℝ) : ℂ :=
  (as.map fun a : ℝ => (Spec.delay ω ^ 2 + (a : ℂ)) / (1 + (a : ℂ) * Spec.delay ω ^ 2)).prod

/-- The response of the half-band filter. -/
noncomputable def Spec.response (as bs : List ℝ) (ω : ℝ) : ℂ :=
  (Spec.chainResponse as ω + Spec.delay ω * Spec.chainResponse bs ω) / 2

/-! ## One all-pass -/

theorem norm_delay (ω : ℝ) : ‖Spec.delay ω‖ = 1 := by
  rw [Spec.delay, ← neg_mul, ← Complex.ofReal_neg, Complex.norm_exp_ofReal_mul_I]

theorem delay_conj (ω : ℝ) : (starRingEnd ℂ) (Spec.delay ω) * Spec.delay ω = 1 := by
  rw [← Complex.normSq_eq_conj_mul_self, Complex.normSq_eq_norm_sq, norm_delay]; norm_num

theorem den_ne {a : ℝ} (h : |a| < 1) (ω : ℝ) : 1 + (a : ℂ) * Spec.delay ω ^ 2 ≠ 0 := by
  intro e
  have : (a : ℂ) * Spec.delay ω ^ 2 = -1 := by linear_combination e
  have := congrArg norm this
  rw [norm_mul, norm_pow, norm_delay, norm_neg, norm_one, one_pow, mul_one, Complex.norm_real, Real.norm_eq_abs] at this
  linarith

/-- A first-order all-pass factor has modulus one. -/
theorem factor_norm {a : ℝ} (h : |a| < 1) (ω : ℝ) : ‖(Spec.delay ω ^ 2 + (a : ℂ)) / (1 + (a : ℂ) * Spec.delay ω ^ 2)‖ = 1 := by
  rw [norm_div, div_eq_one_iff_eq (norm_ne_zero_iff.2 (den_ne h ω))]
  have e : Spec.delay ω ^ 2 + (a : ℂ) = Spec.delay ω ^ 2 * (starRingEnd ℂ) (1 + (a : ℂ) * Spec.delay ω ^ 2) := by
    rw [map_add, map_mul, map_one, Complex.conj_ofReal, map_pow]
    have := delay_conj ω
    linear_combination (-(a : ℂ) * ((starRingEnd ℂ) (Spec.delay ω) * Spec.delay ω + 1)) * this
  rw [e, norm_mul, norm_pow, norm_delay, one_pow, one_mul, Complex.norm_conj]

theorem chain_norm {as : List ℝ} (h : ∀ a ∈ as, |a| < 1) (ω : ℝ) : ‖Spec.chainResponse as ω‖ = 1 := by
  induction as with
  | nil => simp [Spec.chainResponse]
  | cons a as ih =>
    have := ih fun b hb => h b (by simp [hb])
    rw [Spec.chainResponse] at this ⊢
    rw [List.map_cons, List.prod_cons, norm_mul, factor_norm (h a (by simp)), this, one_mul]

/-- Answer of an all-pass to an exponentially small disturbance added to a complex exponential. -/
theorem allpass_track {a r : ℝ} (h : |a| < r ^ 2) (r0 : 0 < r) (r1 : r < 1) (ω : ℝ) {K : ℝ} (K0 : 0 ≤ K) :
    ∃ K', 0 ≤ K' ∧ ∀ (X : ℂ) (x : ℕ → ℂ), ‖X‖ ≤ 1 → (∀ n, ‖x n - X * exp (n * (ω * I))‖ ≤ K * r ^ n) →
      ∀ n, ‖Spec.allpass (a : ℂ) x n - X * ((Spec.delay ω ^ 2 + (a : ℂ)) / (1 + (a : ℂ) * Spec.delay ω ^ 2)) * exp (n * (ω * I))‖ ≤ K' * r ^ n := by
  have ha : |a| < 1 := h.trans (by nlinarith)
  set T := (Spec.delay ω ^ 2 + (a : ℂ)) / (1 + (a : ℂ) * Spec.delay ω ^ 2) with hT
  have hTn : ‖T‖ = 1 := factor_norm ha ω
  have hTe : T = Spec.delay ω ^ 2 + a * (1 - T * Spec.delay ω ^ 2) := by
    have hT' : T * (1 + (a : ℂ) * Spec.delay ω ^ 2) = Spec.delay ω ^ 2 + a := div_mul_cancel₀ _ (den_ne ha ω)
    linear_combination hT'
  have hd : 0 < r ^ 2 - |a| := by linarith
  set K' := max ((2 + K) / r) (K * (1 + |a| * r ^ 2) / (r ^ 2 - |a|)) with hK'
  have hK1 : (2 + K) / r ≤ K' := le_max_left ..
  have hK2 : K * (1 + |a| * r ^ 2) / (r ^ 2 - |a|) ≤ K' := le_max_right ..
  have K'0 : 0 ≤ K' := le_trans (by positivity) hK1
  refine ⟨K', K'0, fun X x hX hx n => ?_⟩
  have hE : ∀ n : ℕ, ‖exp ((n : ℂ) * (ω * I))‖ = 1 := fun n => by
    have : (n : ℂ) * (ω * I) = ((n * ω : ℝ) : ℂ) * I := by push_cast; ring
    rw [this, Complex.norm_exp_ofReal_mul_I]
  have small : ∀ n : ℕ, n ≤ 1 → ‖(a : ℂ) * x n - X * T * exp (n * (ω * I))‖ ≤ K' * r ^ n := fun n hn => by
    have e1 : ‖(a : ℂ) * x n - X * T * exp (n * (ω * I))‖ ≤ 2 + K := by
      have e : (a : ℂ) * x n - X * T * exp (n * (ω * I)) = a * (x n - X * exp (n * (ω * I))) + (a * X * exp (n * (ω * I)) - X * T * exp (n * (ω * I))) := by ring
      rw [e]
      refine (norm_add_le _ _).trans ?_
      have b1 : ‖(a : ℂ) * (x n - X * exp (n * (ω * I)))‖ ≤ K := by
        rw [norm_mul, Complex.norm_real, Real.norm_eq_abs]
        have : r ^ n ≤ 1 := pow_le_one₀ r0.le r1.le
        calc |a| * ‖x n - X * exp (n * (ω * I))‖ ≤ 1 * (K * r ^ n) := mul_le_mul ha.le (hx n) (norm_nonneg _) zero_le_one
          _ ≤ K := by nlinarith
      have b2 : ‖(a : ℂ) * X * exp (n * (ω * I)) - X * T * exp (n * (ω * I))‖ ≤ 2 := by
        refine (norm_sub_le _ _).trans ?_
        rw [norm_mul, norm_mul, norm_mul, norm_mul, hE, hTn, Complex.norm_real, Real.norm_eq_abs]
        nlinarith [norm_nonneg X, abs_nonneg a]
      linarith
    have hr : 2 + K ≤ K' * r := by rwa [div_le_iff₀ r0] at hK1
    interval_cases n
    · rw [pow_zero, mul_one]; nlinarith
    · rw [pow_one]; linarith
  induction n using Nat.strongRecOn with
  | _ n ih =>
    match n, ih with
    | 0, _ => exact small 0 (by norm_num)
    | 1, _ => exact small 1 le_rfl
    | n + 2, ih =>
      have h0 := ih n (by omega)
      have hs : Spec.delay ω ^ 2 * exp (((n + 2 : ℕ) : ℂ) * (ω * I)) = exp ((n : ℂ) * (ω * I)) := by
        rw [Spec.delay, ← Complex.exp_nat_mul, ← Complex.exp_add]
        congr 1; push_cast; ring
      have e : Spec.allpass (a : ℂ) x (n + 2) - X * T * exp (((n + 2 : ℕ) : ℂ) * (ω * I)) =
          (x n - X * exp ((n : ℂ) * (ω * I))) + (a * (x (n + 2) - X * exp (((n + 2 : ℕ) : ℂ) * (ω * I))) -
            a * (Spec.allpass (a : ℂ) x n - X * T * exp ((n : ℂ) * (ω * I)))) := by
        show x n + a * (x (n + 2) - Spec.allpass (a : ℂ) x n) - _ = _
        rw [← hs]
        linear_combination (-(X * exp (((n + 2 : ℕ) : ℂ) * (ω * I)))) * hTe
      rw [e]
      refine (norm_add_le _ _).trans ?_
      have c1 := hx n
      have c2 := hx (n + 2)
      have c3 : ‖(a : ℂ) * (x (n + 2) - X * exp (((n + 2 : ℕ) : ℂ) * (ω * I))) - a * (Spec.allpass (a : ℂ) x n - X * T * exp ((n : ℂ) * (ω * I)))‖ ≤
          |a| * (K * r ^ (n + 2)) + |a| * (K' * r ^ n) := by
        refine (norm_sub_le _ _).trans ?_
        rw [norm_mul, norm_mul, Complex.norm_real, Real.norm_eq_abs]
        exact add_le_add (mul_le_mul_of_nonneg_left c2 (abs_nonneg _)) (mul_le_mul_of_nonneg_left h0 (abs_nonneg _))
      rw [div_le_iff₀ hd] at hK2
      have rn : 0 ≤ r ^ n := pow_nonneg r0.le n
      have : r ^ (n + 2) = r ^ n * r ^ 2 := pow_add ..
      rw [this] at c3 ⊢
      nlinarith [mul_le_mul_of_nonneg_right hK2 rn]

theorem cascade_track {as : List ℝ} {r : ℝ} (h : ∀ a ∈ as, |a| < r ^ 2) (r0 : 0 < r) (r1 : r < 1) (ω : ℝ) {K : ℝ} (K0 : 0 ≤ K) :
    ∃ K', 0 ≤ K' ∧ ∀ (X : ℂ) (x : ℕ → ℂ), ‖X‖ ≤ 1 → (∀ n, ‖x n - X * exp (n * (ω * I))‖ ≤ K * r ^ n) →
      ∀ n, ‖Spec.cascade (as.map fun a : ℝ => (a : ℂ)) x n - X * Spec.chainResponse as ω * exp (n * (ω * I))‖ ≤ K' * r ^ n := by
  induction as generalizing K with
  | nil => exact ⟨K, K0, fun X x _ hx n => by simpa [Spec.cascade, Spec.chainResponse] using hx n⟩
  | cons a as ih =>
    obtain ⟨K1, h1, t1⟩ := allpass_track (h a (by simp)) r0 r1 ω K0
    obtain ⟨K2, h2, t2⟩ := ih (fun b hb => h b (by simp [hb])) h1
    refine ⟨K2, h2, fun X x hX hx n => ?_⟩
    have ha : |a| < 1 := (h a (by simp)).trans (by nlinarith)
    have := t2 (X * ((Spec.delay ω ^ 2 + (a : ℂ)) / (1 + (a : ℂ) * Spec.delay ω ^ 2))) (Spec.allpass (a : ℂ) x)
      (by rw [norm_mul, factor_norm ha, mul_one]; exact hX) (t1 X x hX hx) n
    have e : Spec.chainResponse (a :: as) ω = (Spec.delay ω ^ 2 + (a : ℂ)) / (1 + (a : ℂ) * Spec.delay ω ^ 2) * Spec.chainResponse as ω := rfl
    rw [e, ← mul_assoc]
    exact this

/-- A radius that works for a whole table. -/
theorem exists_radius (l : List ℝ) (h : ∀ a ∈ l, |a| < 1) : ∃ r : ℝ, 0 < r ∧ r < 1 ∧ ∀ a ∈ l, |a| < r ^ 2 := by
  induction l with
  | nil => exact ⟨1 / 2, by norm_num, by norm_num, by simp⟩
  | cons a l ih =>
    obtain ⟨r, r0, r1, hr⟩ := ih fun b hb => h b (by simp [hb])
    have ha := h a (by simp)
    set q := Real.sqrt ((1 + |a|) / 2) with hq
    have q2 : q ^ 2 = (1 + |a|) / 2 := Real.sq_sqrt (by positivity)
    have q1 : q < 1 := by rw [hq, Real.sqrt_lt' one_pos]; linarith
    refine ⟨max r q, lt_max_of_lt_left r0, max_lt r1 q1, fun b hb => ?_⟩
    rcases List.mem_cons.1 hb with rfl | hb
    · calc |b| < q ^ 2 := by rw [q2]; linarith
        _ ≤ max r q ^ 2 := pow_le_pow_left₀ (Real.sqrt_nonneg _) (le_max_right ..) 2
    · exact (hr b hb).trans_le (pow_le_pow_left₀ r0.le (le_max_left ..) 2)

theorem allpass_re (a : ℝ) (x : ℕ → ℂ) (n : ℕ) : (Spec.allpass (a : ℂ) x n).re = Spec.allpass a (fun n => (x n).re) n := by
  induction n using Nat.strongRecOn with
  | _ n ih =>
    match n, ih with
    | 0, _ => simp [Spec.allpass]
    | 1, _ => simp [Spec.allpass]
    | n + 2, ih => simp [Spec.allpass, ih n (by omega)]

theorem cascade_re (as : List ℝ) (x : ℕ → ℂ) (n : ℕ) :
    (Spec.cascade (as.map fun a : ℝ => (a : ℂ)) x n).re = Spec.cascade as (fun n => (x n).re) n := by
  induction as generalizing x with
  | nil => rfl
  | cons a as ih =>
    show (Spec.cascade (as.map fun a : ℝ => (a : ℂ)) (Spec.allpass (a : ℂ) x) n).re = _
    rw [ih]
    show Spec.cascade as _ n = Spec.cascade as (Spec.allpass a fun n => (x n).re) n
    congr 1
    funext k; exact allpass_re ..

/-- Steady state: the answer to a sinusoid approaches the sinusoid scaled and shifted by the response, exponentially fast. -/
theorem halfband_response {as bs : List ℝ} (ha : ∀ a ∈ as, |a| < 1) (hb : ∀ b ∈ bs, |b| < 1) (ω : ℝ) :
    ∃ K r : ℝ, 0 ≤ K ∧ 0 < r ∧ r < 1 ∧ ∀ (φ : ℝ) (n : ℕ),
      |Spec.halfband as bs (fun n => Real.cos (ω * n + φ)) n -
        ‖Spec.response as bs ω‖ * Real.cos (ω * n + φ + (Spec.response as bs ω).arg)| ≤ K * r ^ n := by
  obtain ⟨r, r0, r1, hr⟩ := exists_radius (as ++ bs) (fun c hc => by
    rcases List.mem_append.1 hc with h | h
    · exact ha c h
    · exact hb c h)
  obtain ⟨KA, KA0, tA⟩ := cascade_track (as := as) (fun a h => hr a (by simp [h])) r0 r1 ω le_rfl
  obtain ⟨KB, KB0, tB⟩ := cascade_track (as := bs) (fun a h => hr a (by simp [h])) r0 r1 ω le_rfl
  refine ⟨KA + KB / r + 1, r, by positivity, r0, r1, fun φ n => ?_⟩
  set X : ℂ := exp (φ * I) with hX
  have Xn : ‖X‖ = 1 := Complex.norm_exp_ofReal_mul_I φ
  set x : ℕ → ℂ := fun n => X * exp (n * (ω * I)) with hx
  have hre : (fun n : ℕ => (x n).re) = fun n : ℕ => Real.cos (ω * n + φ) := by
    funext n
    have : x n = exp (((ω * n + φ : ℝ) : ℂ) * I) := by
      simp only [hx, hX]; rw [← Complex.exp_add]; congr 1; push_cast; ring
    rw [this, Complex.exp_ofReal_mul_I_re]
  have hcos : ∀ H : ℂ, (H * x n).re = ‖H‖ * Real.cos (ω * n + φ + H.arg) := fun H => by
    have e : H * x n = ‖H‖ * exp (((ω * n + φ + H.arg : ℝ) : ℂ) * I) := by
      conv_lhs => rw [← Complex.norm_mul_exp_arg_mul_I H]
      simp only [hx, hX]
      rw [mul_assoc, ← Complex.exp_add, ← Complex.exp_add]
      congr 2; push_cast; ring
    rw [e, Complex.re_ofReal_mul, Complex.exp_ofReal_mul_I_re]
  have hx0 : ∀ n, ‖x n - X * exp (n * (ω * I))‖ ≤ 0 * r ^ n := fun n => by simp [hx]
  have uA := tA X x Xn.le hx0
  have uB := tB X x Xn.le hx0
  set CA := Spec.cascade (as.map fun a : ℝ => (a : ℂ)) x with hCA
  set CB := Spec.cascade (bs.map fun a : ℝ => (a : ℂ)) x with hCB
  rw [← hcos, ← hre]
  have e1 : Spec.halfband as bs (fun n => (x n).re) n = ((CA n + Spec.ago CB n 1) / 2).re := by
    have : ((CA n + Spec.ago CB n 1) / 2).re = ((CA n).re + (Spec.ago CB n 1).re) / 2 := by
      rw [show (CA n + Spec.ago CB n 1) / 2 = (CA n + Spec.ago CB n 1) / ((2 : ℝ) : ℂ) by norm_num, Complex.div_ofReal_re, Complex.add_re]
    rw [this, hCA, cascade_re, Spec.halfband]
    congr 2
    unfold Spec.ago
    split
    · rw [hCB, cascade_re]
    · rfl
  rw [e1, ← Complex.sub_re]
  refine (Complex.abs_re_le_norm _).trans ?_
  have hd : Spec.delay ω * exp (n * (ω * I)) = exp (((n : ℂ) - 1) * (ω * I)) := by
    rw [Spec.delay, ← Complex.exp_add]; congr 1; ring
  have e2 : (CA n + Spec.ago CB n 1) / 2 - Spec.response as bs ω * x n =
      ((CA n - X * Spec.chainResponse as ω * exp (n * (ω * I))) + (Spec.ago CB n 1 - X * Spec.chainResponse bs ω * exp (((n : ℂ) - 1) * (ω * I)))) / 2 := by
    rw [← hd, Spec.response]; simp only [hx]; ring
  rw [e2, norm_div]
  have h2 : ‖(2 : ℂ)‖ = 2 := by norm_num
  rw [h2]
  have b2 : ‖Spec.ago CB n 1 - X * Spec.chainResponse bs ω * exp (((n : ℂ) - 1) * (ω * I))‖ ≤ (KB / r + 1) * r ^ n := by
    cases n with
    | zero =>
      have : Spec.ago CB 0 1 = 0 := rfl
      rw [this, zero_sub, norm_neg, norm_mul, norm_mul, Xn, chain_norm hb, pow_zero]
      have : (((0 : ℕ) : ℂ) - 1) * (ω * I) = ((-ω : ℝ) : ℂ) * I := by push_cast; ring
      rw [this, Complex.norm_exp_ofReal_mul_I]
      have : 0 ≤ KB / r := by positivity
      linarith
    | succ n =>
      rw [ago_succ, ago_zero]
      have e : (((n + 1 : ℕ) : ℂ) - 1) = n := by push_cast; ring
      rw [e]
      refine (uB n).trans ?_
      rw [pow_succ, add_mul]
      have : KB / r * (r ^ n * r) = KB * r ^ n := by field_simp
      rw [this]
      have : 0 ≤ r ^ n * r := by positivity
      linarith
  have b1 := uA n
  have := norm_add_le (CA n - X * Spec.chainResponse as ω * exp (n * (ω * I))) (Spec.ago CB n 1 - X * Spec.chainResponse bs ω * exp (((n : ℂ) - 1) * (ω * I)))
  have rn : 0 ≤ r ^ n := by positivity
  have : 0 ≤ KB / r * r ^ n := by positivity
  have : 0 ≤ KA * r ^ n := by positivity
  rw [div_le_iff₀ two_pos]
  nlinarith

/-! ## The response itself -/

theorem response_zero (as bs : List ℝ) (ha : ∀ a ∈ as, |a| < 1) (hb : ∀ b ∈ bs, |b| < 1) : Spec.response as bs 0 = 1 := by
  have d : Spec.delay 0 = 1 := by simp [Spec.delay]
  have c : ∀ l : List ℝ, (∀ a ∈ l, |a| < 1) → Spec.chainResponse l 0 = 1 := fun l hl => by
    rw [Spec.chainResponse]
    refine List.prod_eq_one fun z hz => ?_
    obtain ⟨a, ha, rfl⟩ := List.mem_map.1 hz
    have := den_ne (hl a ha) 0
    rw [d] at this ⊢
    rw [div_eq_one_iff_eq this]; ring
  rw [Spec.response, c _ ha, c _ hb, d]; norm_num

theorem response_pi (as bs : List ℝ) (ha : ∀ a ∈ as, |a| < 1) (hb : ∀ b ∈ bs, |b| < 1) : Spec.response as bs Real.pi = 0 := by
  have d : Spec.delay Real.pi = -1 := by
    rw [Spec.delay, Complex.exp_neg, Complex.exp_pi_mul_I]; norm_num
  have c : ∀ l : List ℝ, (∀ a ∈ l, |a| < 1) → Spec.chainResponse l Real.pi = 1 := fun l hl => by
    rw [Spec.chainResponse]
    refine List.prod_eq_one fun z hz => ?_
    obtain ⟨a, ha, rfl⟩ := List.mem_map.1 hz
    have := den_ne (hl a ha) Real.pi
    rw [d] at this ⊢
    rw [div_eq_one_iff_eq this]; ring
  rw [Spec.response, c _ ha, c _ hb, d]; norm_num

theorem delay_mirror (ω : ℝ) : Spec.delay (Real.pi - ω) = -(starRingEnd ℂ) (Spec.delay ω) := by
  have e1 : (starRingEnd ℂ) (Spec.delay ω) = exp (ω * I) := by
    rw [Spec.delay, ← Complex.exp_conj]; congr 1
    rw [map_neg, map_mul, Complex.conj_ofReal, Complex.conj_I]; ring
  have e2 : -(((Real.pi - ω : ℝ) : ℂ) * I) = -(Real.pi * I) + ω * I := by push_cast; ring
  rw [e1, Spec.delay, e2, Complex.exp_add, Complex.exp_neg, Complex.exp_pi_mul_I]; norm_num

theorem chain_mirror (as : List ℝ) (ω : ℝ) : Spec.chainResponse as (Real.pi - ω) = (starRingEnd ℂ) (Spec.chainResponse as ω) := by
  rw [Spec.chainResponse, Spec.chainResponse, map_list_prod, List.map_map]
  congr 1
  refine List.map_congr_left fun a _ => ?_
  simp only [Function.comp, map_div₀, map_add, map_mul, map_pow, map_one, Complex.conj_ofReal, delay_mirror, neg_sq]

/-- The responses at `ω` and at the mirror frequency `π - ω` are power complementary. -/
theorem power_complementary {as bs : List ℝ} (ha : ∀ a ∈ as, |a| < 1) (hb : ∀ b ∈ bs, |b| < 1) (ω : ℝ) :
    ‖Spec.response as bs ω‖ ^ 2 + ‖Spec.response as bs (Real.pi - ω)‖ ^ 2 = 1 := by
  set A := Spec.chainResponse as ω with hA
  set B := Spec.delay ω * Spec.chainResponse bs ω with hB
  have nA : ‖A‖ = 1 := chain_norm ha ω
  have nB : ‖B‖ = 1 := by rw [hB, norm_mul, norm_delay, chain_norm hb, one_mul]
  have e : Spec.response as bs (Real.pi - ω) = (starRingEnd ℂ) ((A - B) / 2) := by
    rw [Spec.response, chain_mirror, chain_mirror, delay_mirror, hA, hB, map_div₀, map_sub, map_mul, map_ofNat]; ring
  have h2 : ‖(2 : ℂ)‖ = 2 := by norm_num
  have par : ‖A + B‖ ^ 2 + ‖A - B‖ ^ 2 = 4 := by
    rw [← Complex.normSq_eq_norm_sq, ← Complex.normSq_eq_norm_sq, Complex.normSq_add, Complex.normSq_sub, Complex.normSq_eq_norm_sq,
      Complex.normSq_eq_norm_sq, nA, nB]; ring
  have e' : Spec.response as bs ω = (A + B) / 2 := rfl
  rw [e, Complex.norm_conj, e', norm_div, norm_div, h2, div_pow, div_pow]
  linarith

/-! ## Causality -/

theorem allpass_causal (a : ℝ) {x y : ℕ → ℝ} {n : ℕ} (h : ∀ k ≤ n, x k = y k) : Spec.allpass a x n = Spec.allpass a y n := by
  induction n using Nat.strongRecOn with
  | _ n ih =>
    match n, ih, h with
    | 0, _, h => simp [Spec.allpass, h 0 le_rfl]
    | 1, _, h => simp [Spec.allpass, h 1 le_rfl]
    | n + 2, ih, h => simp [Spec.allpass, h n (by omega), h (n + 2) le_rfl, ih n (by omega) (fun k hk => h k (by omega))]

theorem cascade_causal (as : List ℝ) {x y : ℕ → ℝ} {n : ℕ} (h : ∀ k ≤ n, x k = y k) : Spec.cascade as x n = Spec.cascade as y n := by
  induction as generalizing x y with
  | nil => exact h n le_rfl
  | cons a as ih => exact ih fun k hk => allpass_causal a fun j hj => h j (hj.trans hk)

theorem halfband_causal (as bs : List ℝ) {x y : ℕ → ℝ} {n : ℕ} (h : ∀ k ≤ n, x k = y k) : Spec.halfband as bs x n = Spec.halfband as bs y n := by
  unfold Spec.halfband Spec.ago
  rw [cascade_causal as h, cascade_causal bs (fun k (hk : k ≤ n - 1) => h k (by omega))]

/-! ## Claims -/

/-- **C110.**  Every filter `new` builds answers a sinusoid of any frequency and phase, on either channel and however the blocks are cut,
with that sinusoid scaled by the modulus of the half-band response and shifted by its argument, up to a transient that dies out
exponentially. -/
theorem C110_sinusoid {st : Bool} {m : ℕ} {a b : List ℚ} (h : table st (m * 2) = some (a, b)) (ω : ℝ) :
    ∃ K r : ℝ, 0 ≤ K ∧ 0 < r ∧ r < 1 ∧ ∀ (φ : ℝ) (bs : List (List (ℝ × ℝ))) (s s' : St) (ys : List (ℝ × ℝ)), St.new m st = .ok s →
      Spec.Blocks 4 256 bs → runWith St.process s bs = .ok (s', ys) →
      ((∀ n < bs.flatten.length, Spec.left bs.flatten n = Real.cos (ω * n + φ)) →
        ∀ n < ys.length, |Spec.left ys n - ‖Spec.response (Spec.rounded a) (Spec.rounded b) ω‖ *
          Real.cos (ω * n + φ + (Spec.response (Spec.rounded a) (Spec.rounded b) ω).arg)| ≤ K * r ^ n) ∧
      ((∀ n < bs.flatten.length, Spec.right bs.flatten n = Real.cos (ω * n + φ)) →
        ∀ n < ys.length, |Spec.right ys n - ‖Spec.response (Spec.rounded a) (Spec.rounded b) ω‖ *
          Real.cos (ω * n + φ + (Spec.response (Spec.rounded a) (Spec.rounded b) ω).arg)| ≤ K * r ^ n) := by
  obtain ⟨ha, hb⟩ := rounded_stable h
  obtain ⟨K, r, K0, r0, r1, t⟩ := halfband_response ha hb ω
  refine ⟨K, r, K0, r0, r1, fun φ bs s s' ys hs hk hr => ?_⟩
  obtain ⟨s0, e0, f1, -, -⟩ := C108_one_filter h
  rw [hs] at e0; cases e0
  obtain ⟨s1, zs, e, l, k⟩ := f1 bs hk
  rw [hr] at e; cases e
  refine ⟨fun hx n hn => ?_, fun hx n hn => ?_⟩
  · rw [Spec.left, k n hn]
    show |Spec.halfband _ _ (Spec.left bs.flatten) n - _| ≤ _
    rw [halfband_causal _ _ (fun j hj => hx j (by omega))]
    exact t φ n
  · rw [Spec.right, k n hn]
    show |Spec.halfband _ _ (Spec.right bs.flatten) n - _| ≤ _
    rw [halfband_causal _ _ (fun j hj => hx j (by omega))]
    exact t φ n

/-- **C110.**  The response of every filter `new` builds: unit gain at zero frequency, none at half the sample rate, never above one, and
power complementary about a quarter of the sample rate. -/
theorem C110_shape {st : Bool} {m : ℕ} {a b : List ℚ} (h : table st (m * 2) = some (a, b)) :
    Spec.response (Spec.rounded a) (Spec.rounded b) 0 = 1 ∧ Spec.response (Spec.rounded a) (Spec.rounded b) Real.pi = 0 ∧
    (∀ ω, ‖Spec.response (Spec.rounded a) (Spec.rounded b) ω‖ ≤ 1) ∧
    ∀ ω, ‖Spec.response (Spec.rounded a) (Spec.rounded b) ω‖ ^ 2 + ‖Spec.response (Spec.rounded a) (Spec.rounded b) (Real.pi - ω)‖ ^ 2 = 1 := by
  obtain ⟨ha, hb⟩ := rounded_stable h
  refine ⟨response_zero _ _ ha hb, response_pi _ _ ha hb, fun ω => ?_, power_complementary ha hb⟩
  have := power_complementary ha hb ω
  nlinarith [sq_nonneg ‖Spec.response (Spec.rounded a) (Spec.rounded b) (Real.pi - ω)‖, norm_nonneg (Spec.response (Spec.rounded a) (Spec.rounded b) ω)]

end Verif.Halfrate
