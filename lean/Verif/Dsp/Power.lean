import Mathlib.Analysis.SpecialFunctions.Complex.Log
import Mathlib.Analysis.SpecialFunctions.Trigonometric.Basic
import Mathlib.Algebra.BigOperators.Intervals
import Mathlib.RingTheory.RootsOfUnity.Complex
/-!
# The two power measures of a signal (C269)

surge-math/src/white_noise.rs, exact real arithmetic.  The transform is that of the crate `dft`, which is not in the repository; as documented, its transform of a slice of `n` real numbers needs `n` to be a power of two and packs the spectrum into `n` real numbers: the values at frequency 0 and `n/2`, which are real, and then real and imaginary parts of the values at 1 to `n/2 - 1`.
-/
namespace Verif.Dsp.Power
open Finset

/-! ## Model -/

/-- white_noise.rs 68-75 `average_power_time_domain`. -/
noncomputable def timePower (n : ℕ) (x : ℕ → ℝ) : ℝ := (∑ i ∈ range n, |x i| ^ 2) / n

/-- The transform of the crate `dft`, `Operation::Forward`, at frequency `k`. -/
noncomputable def dft (n : ℕ) (x : ℕ → ℝ) (k : ℕ) : ℂ := ∑ j ∈ range n, x j * Complex.exp (-2 * Real.pi * Complex.I * j * k / n)

/-- The transform of `n` real numbers as the crate `dft` leaves it in their place. -/
noncomputable def packed (n : ℕ) (x : ℕ → ℝ) (i : ℕ) : ℝ :=
  if i = 0 then (dft n x 0).re else if i = 1 then (dft n x (n / 2)).re else if i % 2 = 0 then (dft n x (i / 2)).re else (dft n x (i / 2)).im

/-- white_noise.rs 77-88 `average_power_freq_domain`: `n` is a power of two, at least 2. -/
noncomputable def freqPower (n : ℕ) (x : ℕ → ℝ) : ℝ := (∑ i ∈ range n, |packed n x i| ^ 2) / (n ^ 2 : ℕ)

/-! ## Parseval -/

noncomputable def e (n : ℕ) (m : ℤ) : ℂ := Complex.exp (2 * Real.pi * Complex.I * m / n)

theorem e_add (n : ℕ) (a b : ℤ) : e n (a + b) = e n a * e n b := by
  unfold e; rw [← Complex.exp_add]; congr 1; push_cast; ring

theorem e_conj (n : ℕ) (a : ℤ) : (starRingEnd ℂ) (e n a) = e n (-a) := by
  unfold e
  rw [← Complex.exp_conj]
  congr 1
  simp only [map_div₀, map_mul, Complex.conj_I, Complex.conj_ofReal, map_ofNat, Complex.conj_natCast, map_intCast]
  push_cast; ring

theorem e_mul (n : ℕ) (a : ℤ) (k : ℕ) : e n (a * k) = e n a ^ k := by
  unfold e; rw [← Complex.exp_nat_mul]; congr 1; push_cast; ring

theorem e_turn {n : ℕ} (n0 : n ≠ 0) (a : ℤ) : e n (a * n) = 1 := by
  unfold e
  have : (n : ℂ) ≠ 0 := by exact_mod_cast n0
  rw [show (2 * Real.pi * Complex.I * ((a * n : ℤ) : ℂ) / n : ℂ) = a * (2 * Real.pi * Complex.I) by push_cast; field_simp]
  exact Complex.exp_int_mul_two_pi_mul_I a

theorem e_ne {n : ℕ} (n0 : n ≠ 0) {j l : ℕ} (hj : j < n) (hl : l < n) (h : j ≠ l) : e n ((l : ℤ) - j) ≠ 1 := by
  intro h1
  have nc : (n : ℂ) ≠ 0 := by exact_mod_cast n0
  unfold e at h1
  obtain ⟨q, hq⟩ := Complex.exp_eq_one_iff.1 h1
  have tp : (2 * Real.pi * Complex.I : ℂ) ≠ 0 := Complex.two_pi_I_ne_zero
  rw [div_eq_iff nc] at hq
  have : ((((l : ℤ) - j : ℤ)) : ℂ) * (2 * Real.pi * Complex.I) = ((q * n : ℤ) : ℂ) * (2 * Real.pi * Complex.I) := by push_cast at hq ⊢; linear_combination hq
  have := mul_right_cancel₀ tp this
  have : (l : ℤ) - j = q * n := by exact_mod_cast this
  have q0 : q = 0 := by
    by_contra c
    rcases lt_or_gt_of_ne c with d | d <;> nlinarith
  rw [q0] at this
  omega

theorem e_sum {n : ℕ} (n0 : n ≠ 0) {j l : ℕ} (hj : j < n) (hl : l < n) : ∑ k ∈ range n, e n (((l : ℤ) - j) * k) = if j = l then (n : ℂ) else 0 := by
  split_ifs with h
  · subst h; simp [e]
  · simp only [e_mul]
    have := mul_neg_geom_sum (e n ((l : ℤ) - j)) n
    rw [← e_mul, e_turn n0, sub_self] at this
    exact (mul_eq_zero.1 this).resolve_left fun c => e_ne n0 hj hl h (sub_eq_zero.1 c).symm

theorem dft_eq (n : ℕ) (x : ℕ → ℝ) (k : ℕ) : dft n x k = ∑ j ∈ range n, (x j : ℂ) * e n (-((j : ℤ) * k)) := by
  unfold dft e
  refine sum_congr rfl fun j _ => ?_
  congr 2; push_cast; ring

theorem parseval {n : ℕ} (n0 : n ≠ 0) (x : ℕ → ℝ) : ∑ k ∈ range n, Complex.normSq (dft n x k) = n * ∑ j ∈ range n, x j ^ 2 := by
  have : ((∑ k ∈ range n, Complex.normSq (dft n x k) : ℝ) : ℂ) = ((n * ∑ j ∈ range n, x j ^ 2 : ℝ) : ℂ) := by
    push_cast
    have a : ∀ k ∈ range n, (Complex.normSq (dft n x k) : ℂ) = ∑ j ∈ range n, ∑ l ∈ range n, (x j : ℂ) * x l * e n (((l : ℤ) - j) * k) := fun k _ => by
      rw [← Complex.mul_conj, dft_eq, map_sum, sum_mul_sum]
      refine sum_congr rfl fun j _ => sum_congr rfl fun l _ => ?_
      rw [map_mul, Complex.conj_ofReal, e_conj, neg_neg, sub_mul, sub_eq_add_neg, e_add]
      ring
    rw [sum_congr rfl a, sum_comm, mul_sum]
    refine sum_congr rfl fun j hj => ?_
    rw [sum_comm]
    have b : ∀ l ∈ range n, ∑ k ∈ range n, (x j : ℂ) * x l * e n (((l : ℤ) - j) * k) = if j = l then (x j : ℂ) * x l * n else 0 := fun l hl => by
      rw [← mul_sum, e_sum n0 (mem_range.1 hj) (mem_range.1 hl)]
      split_ifs <;> simp
    rw [sum_congr rfl b, sum_ite_eq, if_pos hj]
    ring
  exact_mod_cast this

theorem dft_mirror {n : ℕ} (n0 : n ≠ 0) (x : ℕ → ℝ) {k : ℕ} (hk : k ≤ n) : Complex.normSq (dft n x (n - k)) = Complex.normSq (dft n x k) := by
  rw [← Complex.normSq_conj (dft n x k)]
  congr 1
  rw [dft_eq, dft_eq, map_sum]
  refine sum_congr rfl fun j _ => ?_
  rw [map_mul, Complex.conj_ofReal, e_conj, neg_neg]
  congr 1
  have : -((j : ℤ) * ((n - k : ℕ) : ℤ)) = (j : ℤ) * k + (-(j : ℤ)) * n := by
    rw [Nat.cast_sub hk]; ring
  rw [this, e_add, e_turn n0, mul_one]

/-- The mean of a signal. -/
noncomputable def Spec.mean (n : ℕ) (x : ℕ → ℝ) : ℝ := (∑ i ∈ range n, x i) / n

theorem dft_zero (n : ℕ) (x : ℕ → ℝ) : dft n x 0 = ((∑ j ∈ range n, x j : ℝ) : ℂ) := by
  unfold dft; push_cast; simp

theorem dft_half {h : ℕ} (h0 : h ≠ 0) (x : ℕ → ℝ) : dft (2 * h) x h = ((∑ j ∈ range (2 * h), (-1) ^ j * x j : ℝ) : ℂ) := by
  unfold dft
  push_cast
  refine sum_congr rfl fun j _ => ?_
  have hc : (h : ℂ) ≠ 0 := by exact_mod_cast h0
  rw [show (-2 * Real.pi * Complex.I * j * h / (2 * h) : ℂ) = j * (-(Real.pi * Complex.I)) by field_simp, Complex.exp_nat_mul, Complex.exp_neg, Complex.exp_pi_mul_I]
  norm_num [mul_comm]

/-- The packed spectrum holds each frequency once. -/
theorem packed_sum {h : ℕ} (h0 : 0 < h) (x : ℕ → ℝ) : ∑ i ∈ range (2 * h), |packed (2 * h) x i| ^ 2 =
    Complex.normSq (dft (2 * h) x 0) + Complex.normSq (dft (2 * h) x h) + ∑ k ∈ Ico 1 h, Complex.normSq (dft (2 * h) x k) := by
  have pairs : ∀ m, 1 ≤ m → ∑ i ∈ range (2 * m), |packed (2 * h) x i| ^ 2 =
      Complex.normSq (dft (2 * h) x 0) + Complex.normSq (dft (2 * h) x h) + ∑ k ∈ Ico 1 m, Complex.normSq (dft (2 * h) x k) := by
    intro m hm
    induction m, hm using Nat.le_induction with
    | base =>
      have : (2 * h / 2) = h := by omega
      rw [show 2 * 1 = 1 + 1 by rfl, sum_range_succ, sum_range_one]
      simp only [packed, if_true, one_ne_zero, if_false, this, sq_abs, Ico_self, sum_empty, add_zero]
      rw [dft_zero, dft_half (by omega), Complex.normSq_ofReal, Complex.normSq_ofReal, Complex.ofReal_re, Complex.ofReal_re]
      ring
    | succ m hm ih =>
      rw [show 2 * (m + 1) = 2 * m + 1 + 1 by ring, sum_range_succ, sum_range_succ, ih, sum_Ico_succ_top hm, Complex.normSq_apply (dft (2 * h) x m)]
      simp only [packed, sq_abs, if_neg (show 2 * m ≠ 0 by omega), if_neg (show 2 * m ≠ 1 by omega), if_neg (show 2 * m + 1 ≠ 0 by omega), if_neg (show 2 * m + 1 ≠ 1 by omega),
        if_pos (show 2 * m % 2 = 0 by omega), if_neg (show (2 * m + 1) % 2 ≠ 0 by omega), show 2 * m / 2 = m by omega, show (2 * m + 1) / 2 = m by omega]
      ring
  exact pairs h h0

/-- **C269**, what the second measure is: half of the power, plus half of what lies at frequency 0 and at the highest one. -/
theorem C269_power_partial {h : ℕ} (h0 : 0 < h) (x : ℕ → ℝ) :
    freqPower (2 * h) x = (timePower (2 * h) x + Spec.mean (2 * h) x ^ 2 + Spec.mean (2 * h) (fun i => (-1) ^ i * x i) ^ 2) / 2 := by
  have n0 : 2 * h ≠ 0 := by omega
  have P := parseval n0 x
  obtain ⟨S, hS⟩ : ∃ S, S = ∑ k ∈ Ico 1 h, Complex.normSq (dft (2 * h) x k) := ⟨_, rfl⟩
  have split : ∑ k ∈ range (2 * h), Complex.normSq (dft (2 * h) x k) = Complex.normSq (dft (2 * h) x 0) + S + Complex.normSq (dft (2 * h) x h) + S := by
    rw [range_eq_Ico, ← sum_Ico_consecutive _ (show 0 ≤ 1 by omega) (show 1 ≤ 2 * h by omega), ← sum_Ico_consecutive _ (show 1 ≤ h by omega) (show h ≤ 2 * h by omega),
      ← sum_Ico_consecutive _ (show h ≤ h + 1 by omega) (show h + 1 ≤ 2 * h by omega), ← hS]
    have a : ∑ k ∈ Ico (h + 1) (2 * h), Complex.normSq (dft (2 * h) x k) = S := by
      have r := sum_Ico_reflect (fun k => Complex.normSq (dft (2 * h) x k)) 1 (show h ≤ 2 * h + 1 by omega)
      rw [show 2 * h + 1 - h = h + 1 by omega, show 2 * h + 1 - 1 = 2 * h by omega] at r
      rw [hS, ← r]
      refine sum_congr rfl fun k hk => ?_
      exact dft_mirror n0 x (by have := mem_Ico.1 hk; omega)
    rw [a]
    simp
    ring
  have nr : ((2 * h : ℕ) : ℝ) ≠ 0 := by exact_mod_cast n0
  unfold freqPower timePower Spec.mean
  rw [packed_sum h0, ← hS]
  rw [split, dft_zero, dft_half (by omega), Complex.normSq_ofReal, Complex.normSq_ofReal] at P
  rw [dft_zero, dft_half (by omega), Complex.normSq_ofReal, Complex.normSq_ofReal]
  simp only [sq_abs]
  generalize ∑ j ∈ range (2 * h), x j = A at *
  generalize ∑ j ∈ range (2 * h), (-1) ^ j * x j = B at *
  generalize ∑ j ∈ range (2 * h), x j ^ 2 = T at *
  rw [Nat.cast_pow]
  generalize ((2 * h : ℕ) : ℝ) = N at *
  field_simp
  linear_combination P

/-- **C269.** The second measure is at least half of the power and at most all of it. -/
theorem C269_bounds_partial {h : ℕ} (h0 : 0 < h) (x : ℕ → ℝ) : timePower (2 * h) x / 2 ≤ freqPower (2 * h) x ∧ freqPower (2 * h) x ≤ timePower (2 * h) x := by
  constructor
  · rw [C269_power_partial h0]
    have := sq_nonneg (Spec.mean (2 * h) x)
    have := sq_nonneg (Spec.mean (2 * h) fun i => (-1) ^ i * x i)
    linarith
  · have n0 : 2 * h ≠ 0 := by omega
    have nr : (0 : ℝ) < ((2 * h : ℕ) : ℝ) := by exact_mod_cast (by omega : 0 < 2 * h)
    have P := parseval n0 x
    unfold freqPower timePower
    rw [packed_sum h0, Nat.cast_pow, div_le_div_iff₀ (by positivity) nr]
    simp only [sq_abs]
    have sub : Complex.normSq (dft (2 * h) x 0) + Complex.normSq (dft (2 * h) x h) + ∑ k ∈ Ico 1 h, Complex.normSq (dft (2 * h) x k) ≤ ∑ k ∈ range (2 * h), Complex.normSq (dft (2 * h) x k) := by
      rw [range_eq_Ico, ← sum_Ico_consecutive _ (show 0 ≤ 1 by omega) (show 1 ≤ 2 * h by omega), ← sum_Ico_consecutive _ (show 1 ≤ h by omega) (show h ≤ 2 * h by omega),
        ← sum_Ico_consecutive _ (show h ≤ h + 1 by omega) (show h + 1 ≤ 2 * h by omega)]
      have := sum_nonneg fun k (_ : k ∈ Ico (h + 1) (2 * h)) => Complex.normSq_nonneg (dft (2 * h) x k)
      simp
      linarith
    rw [P] at sub
    nlinarith [mul_le_mul_of_nonneg_right sub nr.le]

/-- **C269 fails**: for a signal with nothing at frequency 0 nor at the highest one (every cycle of a sine) the second measure is exactly half of the power. -/
theorem C269_half_refuted : ∃ x : ℕ → ℝ, timePower 4 x = 1 / 2 ∧ freqPower 4 x = 1 / 4 := by
  refine ⟨fun i => if i = 0 then 1 else if i = 2 then -1 else 0, ?_, ?_⟩
  · unfold timePower; norm_num [sum_range_succ]
  · rw [show (4 : ℕ) = 2 * 2 by rfl, C269_power_partial (by norm_num)]
    unfold timePower Spec.mean; norm_num [sum_range_succ]

end Verif.Dsp.Power
