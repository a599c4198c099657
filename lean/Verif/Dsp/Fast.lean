import Verif.Halfrate.Poly
import Mathlib.Analysis.SpecialFunctions.Trigonometric.Deriv
import Mathlib.Analysis.SpecialFunctions.ExpDeriv
import Mathlib.Analysis.SpecialFunctions.Trigonometric.DerivHyp
import Mathlib.Analysis.Calculus.Deriv.MeanValue
import Mathlib.Analysis.Real.Pi.Bounds
import Mathlib.Analysis.Complex.ExponentialBounds
import Mathlib.Algebra.Order.Floor.Ring
/-!
# The fast approximations of surge-math (C141, C142), in exact real arithmetic

Rounding to `f32` is not modelled: the theorems bound the error of the formulas.
-/
namespace Verif.Dsp.Fast
open Verif.Halfrate

/-- surge-math/src/fast.rs 22-39: `fastsin`. -/
noncomputable def fastsin (x : ℝ) : ℝ :=
  let x2 := x * x
  (-x) * (-11511339840 + x2 * (1640635920 + x2 * (-52785432 + x2 * 479249))) / (11511339840 + x2 * (277920720 + x2 * (3177720 + x2 * 18361)))

/-- fast.rs 47-61: `fastcos`. -/
noncomputable def fastcos (x : ℝ) : ℝ :=
  let x2 := x * x
  (-(-39251520 + x2 * (18471600 + x2 * (-1075032 + 14615 * x2)))) / (39251520 + x2 * (1154160 + x2 * (16632 + x2 * 127)))

/-- fast.rs 68-90: `clamp_to_pi_range`; the quotient is truncated towards zero as `as i32` does (saturation not modelled). -/
noncomputable def clampToPi (x : ℝ) : ℝ :=
  if -Real.pi ≤ x ∧ x ≤ Real.pi then x else
    let y := x + Real.pi
    let t := y * (1 / (2 * Real.pi))
    let p := y - 2 * Real.pi * ((if 0 ≤ t then ⌊t⌋ else ⌈t⌉ : ℤ) : ℝ)
    let p := if p < 0 then p + 2 * Real.pi else p
    p - Real.pi

/-- fast.rs 96-102: `fasttanh`; 116-144: `fasttanh_sse` computes the same per lane. -/
noncomputable def fasttanh (x : ℝ) : ℝ :=
  let x2 := x * x
  x * (135135 + x2 * (17325 + x2 * (378 + x2))) / (135135 + x2 * (62370 + x2 * (3150 + 28 * x2)))

/-- fast.rs 108-114: `fasttan`. -/
noncomputable def fasttan (x : ℝ) : ℝ :=
  let x2 := x * x
  x * (-135135 + x2 * (17325 + x2 * (-378 + x2))) / (-135135 + x2 * (62370 + x2 * (-3150 + 28 * x2)))

/-- fast.rs 146-160: `fasttanh_sse_clamped` (one lane). -/
noncomputable def fasttanhClamped (x : ℝ) : ℝ := fasttanh (min 5 (max (-5) x))

/-- fast.rs 166-171: `fastexp`; 173-206: `fastexp_sse` computes the same per lane. -/
noncomputable def fastexp (x : ℝ) : ℝ := (1680 + x * (840 + x * (180 + x * (20 + x)))) / (1680 + x * (-840 + x * (180 + x * (-20 + x))))

/-! ## Alternating Taylor bounds -/

/-- The sine polynomial with `n` terms. -/
noncomputable def S (n : ℕ) (x : ℝ) : ℝ := ∑ k ∈ Finset.range n, (-1) ^ k * x ^ (2 * k + 1) / (2 * k + 1).factorial
/-- The cosine polynomial with `n` terms. -/
noncomputable def C (n : ℕ) (x : ℝ) : ℝ := ∑ k ∈ Finset.range n, (-1) ^ k * x ^ (2 * k) / (2 * k).factorial

theorem deriv_S (n : ℕ) (x : ℝ) : HasDerivAt (S n) (C n x) x := by
  induction n with
  | zero =>
    have : S 0 = fun _ => 0 := by funext y; simp [S]
    rw [this]; simpa [C] using hasDerivAt_const x (0 : ℝ)
  | succ n ih =>
    have e : S (n + 1) = fun x => S n x + (-1) ^ n * x ^ (2 * n + 1) / (2 * n + 1).factorial := by
      funext y; simp only [S, Finset.sum_range_succ]
    rw [e]
    have e2 : C (n + 1) x = C n x + (-1) ^ n * x ^ (2 * n) / (2 * n).factorial := by simp only [C, Finset.sum_range_succ]
    rw [e2]
    refine ih.add ?_
    have := ((hasDerivAt_pow (2 * n + 1) x).const_mul ((-1) ^ n)).div_const ((2 * n + 1).factorial : ℝ)
    refine this.congr_deriv ?_
    rw [Nat.factorial_succ]
    push_cast
    have h : ((2 * n : ℕ).factorial : ℝ) ≠ 0 := by exact_mod_cast Nat.factorial_ne_zero _
    have h2 : (2 * (n : ℝ) + 1) ≠ 0 := by positivity
    try simp only [Nat.add_sub_cancel]
    field_simp

theorem deriv_C (n : ℕ) (x : ℝ) : HasDerivAt (C (n + 1)) (-S n x) x := by
  induction n with
  | zero =>
    have : C 1 = fun _ => 1 := by funext y; simp [C]
    rw [this]; simpa [S] using hasDerivAt_const x (1 : ℝ)
  | succ n ih =>
    have e : C (n + 2) = fun x => C (n + 1) x + (-1) ^ (n + 1) * x ^ (2 * n + 2) / (2 * n + 2).factorial := by
      funext y; simp only [C, Finset.sum_range_succ, mul_add, mul_one]
    rw [e]
    have e2 : -S (n + 1) x = -S n x + (-1) ^ (n + 1) * x ^ (2 * n + 1) / (2 * n + 1).factorial := by
      simp only [S, Finset.sum_range_succ, pow_succ]; ring
    rw [e2]
    refine ih.add ?_
    have := ((hasDerivAt_pow (2 * n + 2) x).const_mul ((-1) ^ (n + 1))).div_const ((2 * n + 2).factorial : ℝ)
    refine this.congr_deriv ?_
    rw [show 2 * n + 2 = (2 * n + 1) + 1 by ring, Nat.factorial_succ]
    push_cast
    have h : ((2 * n + 1 : ℕ).factorial : ℝ) ≠ 0 := by exact_mod_cast Nat.factorial_ne_zero _
    have h2 : (2 * (n : ℝ) + 1 + 1) ≠ 0 := by positivity
    try simp only [Nat.add_sub_cancel]
    field_simp

/-- A function that starts at 0 and has a nonnegative slope is nonnegative. -/
theorem nonneg_of_slope {f g : ℝ → ℝ} {b : ℝ} (h0 : f 0 = 0) (hd : ∀ x, 0 ≤ x → x ≤ b → HasDerivAt f (g x) x) (hg : ∀ x, 0 ≤ x → x ≤ b → 0 ≤ g x) {x : ℝ} (hx : 0 ≤ x) (hb : x ≤ b) : 0 ≤ f x := by
  have hm : MonotoneOn f (Set.Icc 0 b) := by
    refine monotoneOn_of_deriv_nonneg (convex_Icc 0 b) ?_ ?_ ?_
    · intro y hy; exact (hd y hy.1 hy.2).continuousAt.continuousWithinAt
    · intro y hy; rw [interior_Icc] at hy; exact (hd y hy.1.le hy.2.le).differentiableAt.differentiableWithinAt
    · intro y hy; rw [interior_Icc] at hy; rw [(hd y hy.1.le hy.2.le).deriv]; exact hg y hy.1.le hy.2.le
  have := hm (Set.left_mem_Icc.mpr (hx.trans hb)) ⟨hx, hb⟩ hx
  rwa [h0] at this

theorem S_zero (n : ℕ) : S n 0 = 0 := by simp [S]
theorem C_zero (n : ℕ) : C (n + 1) 0 = 1 := by
  simp only [C, Finset.sum_range_succ']
  simp

theorem taylor (n : ℕ) : (∀ x : ℝ, 0 ≤ x → 0 ≤ (-1) ^ (n + 1) * (Real.cos x - C (n + 1) x)) ∧ ∀ x : ℝ, 0 ≤ x → 0 ≤ (-1) ^ (n + 1) * (Real.sin x - S (n + 1) x) := by
  have sin_of : ∀ n, (∀ x : ℝ, 0 ≤ x → 0 ≤ (-1) ^ (n + 1) * (Real.cos x - C (n + 1) x)) → ∀ x : ℝ, 0 ≤ x → 0 ≤ (-1) ^ (n + 1) * (Real.sin x - S (n + 1) x) := by
    intro n h x hx
    refine nonneg_of_slope (f := fun x => (-1) ^ (n + 1) * (Real.sin x - S (n + 1) x)) (g := fun x => (-1) ^ (n + 1) * (Real.cos x - C (n + 1) x)) (b := x) (by simp [S_zero]) ?_ (fun y hy _ => h y hy) hx le_rfl
    intro y _ _
    exact ((Real.hasDerivAt_sin y).sub (deriv_S (n + 1) y)).const_mul _
  induction n with
  | zero =>
    have hc : ∀ x : ℝ, 0 ≤ x → 0 ≤ (-1) ^ (0 + 1) * (Real.cos x - C (0 + 1) x) := by
      intro x _
      have : C 1 x = 1 := by simp [C]
      rw [zero_add, this]
      have := Real.cos_le_one x
      linarith
    exact ⟨hc, sin_of 0 hc⟩
  | succ n ih =>
    have hc : ∀ x : ℝ, 0 ≤ x → 0 ≤ (-1) ^ (n + 1 + 1) * (Real.cos x - C (n + 1 + 1) x) := by
      intro x hx
      refine nonneg_of_slope (f := fun x => (-1) ^ (n + 1 + 1) * (Real.cos x - C (n + 1 + 1) x)) (g := fun x => (-1) ^ (n + 1) * (Real.sin x - S (n + 1) x)) (b := x) (by simp [C_zero]) ?_ (fun y hy _ => ih.2 y hy) hx le_rfl
      intro y _ _
      refine (((Real.hasDerivAt_cos y).sub (deriv_C (n + 1) y)).const_mul _).congr_deriv ?_
      rw [pow_succ (-1 : ℝ) (n + 1)]; ring
    exact ⟨hc, sin_of (n + 1) hc⟩

/-! ## The polynomials, with integer coefficients -/

def pS11 : Poly.P := [0, 51090942171709440000, 0, -8515157028618240000, 0, 425757851430912000, 0, -10137091700736000, 0, 140792940288000, 0, -1279935820800, 0, 8204716800, 0, -39070080, 0, 143640, 0, -420, 0, 1]
def pS10 : Poly.P := [0, 51090942171709440000, 0, -8515157028618240000, 0, 425757851430912000, 0, -10137091700736000, 0, 140792940288000, 0, -1279935820800, 0, 8204716800, 0, -39070080, 0, 143640, 0, -420]
def pC12 : Poly.P := [1124000727777607680000, 0, -562000363888803840000, 0, 46833363657400320000, 0, -1561112121913344000, 0, 27877002177024000, 0, -309744468633600, 0, 2346549004800, 0, -12893126400, 0, 53721360, 0, -175560, 0, 462, 0, -1]
def pC11 : Poly.P := [1124000727777607680000, 0, -562000363888803840000, 0, 46833363657400320000, 0, -1561112121913344000, 0, 27877002177024000, 0, -309744468633600, 0, 2346549004800, 0, -12893126400, 0, 53721360, 0, -175560, 0, 462]
def sinN : Poly.P := [0, 11511339840, 0, -1640635920, 0, 52785432, 0, -479249]
def sinD : Poly.P := [11511339840, 0, 277920720, 0, 3177720, 0, 18361]
def cosN : Poly.P := [39251520, 0, -18471600, 0, 1075032, 0, -14615]
def cosD : Poly.P := [39251520, 0, 1154160, 0, 16632, 0, 127]

theorem ev_pS11 (x : ℝ) : Poly.ev pS11 x = 51090942171709440000 * S 11 x := by
  simp only [pS11, Poly.ev_cons, Poly.ev_nil, S, Finset.sum_range_succ, Finset.sum_range_zero, Nat.factorial]
  push_cast; ring
theorem ev_pS10 (x : ℝ) : Poly.ev pS10 x = 51090942171709440000 * S 10 x := by
  simp only [pS10, Poly.ev_cons, Poly.ev_nil, S, Finset.sum_range_succ, Finset.sum_range_zero, Nat.factorial]
  push_cast; ring
theorem ev_pC11 (x : ℝ) : Poly.ev pC11 x = 1124000727777607680000 * C 11 x := by
  simp only [pC11, Poly.ev_cons, Poly.ev_nil, C, Finset.sum_range_succ, Finset.sum_range_zero, Nat.factorial]
  push_cast; ring
theorem ev_pC12 (x : ℝ) : Poly.ev pC12 x = 1124000727777607680000 * C 12 x := by
  simp only [pC12, Poly.ev_cons, Poly.ev_nil, C, Finset.sum_range_succ, Finset.sum_range_zero, Nat.factorial]
  push_cast; ring

theorem sinD_pos (x : ℝ) : 0 < Poly.ev sinD x := by
  have : Poly.ev sinD x = 11511339840 + 277920720 * (x ^ 2) + 3177720 * (x ^ 2) ^ 2 + 18361 * (x ^ 2) ^ 3 := by
    simp only [sinD, Poly.ev_cons, Poly.ev_nil]; push_cast; ring
  rw [this]; positivity
theorem cosD_pos (x : ℝ) : 0 < Poly.ev cosD x := by
  have : Poly.ev cosD x = 39251520 + 1154160 * (x ^ 2) + 16632 * (x ^ 2) ^ 2 + 127 * (x ^ 2) ^ 3 := by
    simp only [cosD, Poly.ev_cons, Poly.ev_nil]; push_cast; ring
  rw [this]; positivity
theorem fastsin_eq (x : ℝ) : fastsin x = Poly.ev sinN x / Poly.ev sinD x := by
  simp only [fastsin, sinN, sinD, Poly.ev_cons, Poly.ev_nil]; push_cast; congr 1 <;> ring
theorem fastcos_eq (x : ℝ) : fastcos x = Poly.ev cosN x / Poly.ev cosD x := by
  simp only [fastcos, cosN, cosD, Poly.ev_cons, Poly.ev_nil]; push_cast; congr 1 <;> ring

theorem sin_low {x : ℝ} (h0 : 0 < x) (h1 : x ≤ 22 / 7) : fastsin x ≤ Real.sin x := by
  have t := (taylor 9).2 x h0.le
  have k : Poly.nonnegOn 12 0 22 7 (Poly.add (Poly.mul pS10 sinD) (Poly.smul (-51090942171709440000) sinN)) = true := by decide +kernel
  have := Poly.nonnegOn_sound k (by norm_num) (by norm_num) (c := x) (by push_cast; linarith) (by push_cast; linarith)
  rw [Poly.ev_add, Poly.ev_mul, Poly.ev_smul, ev_pS10] at this
  push_cast at this
  rw [fastsin_eq, div_le_iff₀ (sinD_pos x)]
  have d := sinD_pos x
  norm_num at t
  nlinarith [mul_nonneg (sub_nonneg.2 t) d.le]

theorem sin_high {x : ℝ} (h0 : 0 < x) (h1 : x ≤ 22 / 7) : Real.sin x ≤ fastsin x + 1117 / 10 ^ 8 := by
  have t := (taylor 10).2 x h0.le
  have k : Poly.nonnegOn 12 0 22 7 (Poly.add (Poly.smul (1117 * 51090942171709440000) sinD) (Poly.smul (10 ^ 8) (Poly.add (Poly.smul 51090942171709440000 sinN) (Poly.smul (-1) (Poly.mul pS11 sinD))))) = true := by decide +kernel
  have := Poly.nonnegOn_sound k (by norm_num) (by norm_num) (c := x) (by push_cast; linarith) (by push_cast; linarith)
  simp only [Poly.ev_add, Poly.ev_mul, Poly.ev_smul, ev_pS11] at this
  push_cast at this
  have d := sinD_pos x
  have e : S 11 x ≤ fastsin x + 1117 / 10 ^ 8 := by
    rw [fastsin_eq, div_add' _ _ _ d.ne', le_div_iff₀ d]
    linarith
  norm_num at t
  linarith

theorem cos_low {x : ℝ} (h0 : 0 < x) (h1 : x ≤ 22 / 7) : fastcos x ≤ Real.cos x := by
  have t := (taylor 11).1 x h0.le
  have k : Poly.nonnegOn 12 0 22 7 (Poly.add (Poly.mul pC12 cosD) (Poly.smul (-1124000727777607680000) cosN)) = true := by decide +kernel
  have := Poly.nonnegOn_sound k (by norm_num) (by norm_num) (c := x) (by push_cast; linarith) (by push_cast; linarith)
  rw [Poly.ev_add, Poly.ev_mul, Poly.ev_smul, ev_pC12] at this
  push_cast at this
  rw [fastcos_eq, div_le_iff₀ (cosD_pos x)]
  have d := cosD_pos x
  norm_num at t
  nlinarith [mul_nonneg (sub_nonneg.2 t) d.le]

theorem cos_high {x : ℝ} (h0 : 0 < x) (h1 : x ≤ 22 / 7) : Real.cos x ≤ fastcos x + 74 / 10 ^ 6 := by
  have t := (taylor 10).1 x h0.le
  have k : Poly.nonnegOn 12 0 22 7 (Poly.add (Poly.smul (74 * 1124000727777607680000) cosD) (Poly.smul (10 ^ 6) (Poly.add (Poly.smul 1124000727777607680000 cosN) (Poly.smul (-1) (Poly.mul pC11 cosD))))) = true := by decide +kernel
  have := Poly.nonnegOn_sound k (by norm_num) (by norm_num) (c := x) (by push_cast; linarith) (by push_cast; linarith)
  simp only [Poly.ev_add, Poly.ev_mul, Poly.ev_smul, ev_pC11] at this
  push_cast at this
  have d := cosD_pos x
  have e : C 11 x ≤ fastcos x + 74 / 10 ^ 6 := by
    rw [fastcos_eq, div_add' _ _ _ d.ne', le_div_iff₀ d]
    linarith
  norm_num at t
  linarith

/-! ## C141 -/

theorem fastsin_odd (x : ℝ) : fastsin (-x) = -fastsin x := by
  simp only [fastsin, neg_mul_neg, neg_neg]; rw [neg_mul, neg_div, neg_neg]
theorem fastcos_even (x : ℝ) : fastcos (-x) = fastcos x := by
  simp only [fastcos, neg_mul_neg]

/-- **C141** Between −π and π the sine approximation never exceeds the sine in size and is within 1.12·10⁻⁵ of it. -/
theorem C141_sine {x : ℝ} (h0 : -Real.pi ≤ x) (h1 : x ≤ Real.pi) :
    |fastsin x - Real.sin x| ≤ 1.12e-5 ∧ |fastsin x| ≤ |Real.sin x| + 1.12e-5 ∧ fastsin (-x) = -fastsin x ∧ (0 ≤ x → fastsin x ≤ Real.sin x) := by
  have p1 := Real.pi_lt_d4
  have key : ∀ y : ℝ, 0 ≤ y → y ≤ Real.pi → fastsin y ≤ Real.sin y ∧ Real.sin y ≤ fastsin y + 1117 / 10 ^ 8 := by
    intro y y0 y1
    rcases y0.eq_or_lt with rfl | y0
    · simp [fastsin]; norm_num
    · exact ⟨sin_low y0 (by norm_num at p1 ⊢; linarith), sin_high y0 (by norm_num at p1 ⊢; linarith)⟩
  have main : |fastsin x - Real.sin x| ≤ 1.12e-5 := by
    rcases le_total 0 x with h | h
    · obtain ⟨a, b⟩ := key x h h1
      rw [abs_le]; constructor <;> norm_num <;> linarith
    · obtain ⟨a, b⟩ := key (-x) (by linarith) (by linarith)
      rw [fastsin_odd, Real.sin_neg] at a b
      rw [abs_le]; constructor <;> norm_num <;> linarith
  refine ⟨main, ?_, fastsin_odd x, fun h => (key x h h1).1⟩
  have := abs_add_le (fastsin x - Real.sin x) (Real.sin x)
  rw [sub_add_cancel] at this
  linarith

/-- **C141** Between −π and π the cosine approximation never exceeds the cosine and is within 7.4·10⁻⁵ of it. -/
theorem C141_cosine {x : ℝ} (h0 : -Real.pi ≤ x) (h1 : x ≤ Real.pi) :
    |fastcos x - Real.cos x| ≤ 7.4e-5 ∧ fastcos x ≤ Real.cos x ∧ fastcos (-x) = fastcos x := by
  have p1 := Real.pi_lt_d4
  have key : ∀ y : ℝ, 0 ≤ y → y ≤ Real.pi → fastcos y ≤ Real.cos y ∧ Real.cos y ≤ fastcos y + 74 / 10 ^ 6 := by
    intro y y0 y1
    rcases y0.eq_or_lt with rfl | y0
    · simp [fastcos]; norm_num
    · exact ⟨cos_low y0 (by norm_num at p1 ⊢; linarith), cos_high y0 (by norm_num at p1 ⊢; linarith)⟩
  have hh : fastcos x ≤ Real.cos x ∧ Real.cos x ≤ fastcos x + 74 / 10 ^ 6 := by
    rcases le_total 0 x with h | h
    · exact key x h h1
    · have := key (-x) (by linarith) (by linarith)
      rwa [fastcos_even, Real.cos_neg] at this
  refine ⟨?_, hh.1, fastcos_even x⟩
  rw [abs_le]; constructor <;> norm_num <;> linarith [hh.1, hh.2]

/-- **C141** Wrapping brings every real into [−π, π] by whole turns, and leaves what is there already. -/
theorem C141_wrap (x : ℝ) : -Real.pi ≤ clampToPi x ∧ clampToPi x ≤ Real.pi ∧ (∃ k : ℤ, clampToPi x = x + k * (2 * Real.pi)) ∧ (-Real.pi ≤ x → x ≤ Real.pi → clampToPi x = x) := by
  have hp := Real.pi_pos
  unfold clampToPi
  by_cases hx : -Real.pi ≤ x ∧ x ≤ Real.pi
  · rw [if_pos hx]; exact ⟨hx.1, hx.2, ⟨0, by simp⟩, fun _ _ => rfl⟩
  · rw [if_neg hx]
    simp only
    set t := (x + Real.pi) * (1 / (2 * Real.pi)) with ht
    have et : x + Real.pi = 2 * Real.pi * t := by rw [ht]; field_simp
    refine ⟨?_, ?_, ?_, fun a b => absurd ⟨a, b⟩ hx⟩ <;> rw [et]
    · by_cases h : 0 ≤ t
      · have := Int.floor_le t
        rw [if_pos h, if_neg (by nlinarith)]; nlinarith
      · have := Int.le_ceil t
        have := Int.ceil_lt_add_one t
        rw [if_neg h]
        split
        · nlinarith
        · next h2 => linarith
    · by_cases h : 0 ≤ t
      · have := Int.floor_le t
        have := Int.lt_floor_add_one t
        rw [if_pos h, if_neg (by nlinarith)]; nlinarith
      · have := Int.le_ceil t
        rw [if_neg h]
        split
        · nlinarith
        · next h2 => nlinarith
    · generalize (if 0 ≤ t then ⌊t⌋ else ⌈t⌉) = n
      split
      · exact ⟨-n + 1, by rw [← et]; push_cast; ring⟩
      · exact ⟨-n, by rw [← et]; push_cast; ring⟩

/-- **C141** So with wrapping the two follow sine and cosine on the whole line. -/
theorem C141_everywhere (x : ℝ) : |fastsin (clampToPi x) - Real.sin x| ≤ 1.12e-5 ∧ |fastcos (clampToPi x) - Real.cos x| ≤ 7.4e-5 := by
  obtain ⟨a, b, ⟨k, e⟩, -⟩ := C141_wrap x
  have s : Real.sin (clampToPi x) = Real.sin x := by rw [e, Real.sin_add_int_mul_two_pi]
  have c : Real.cos (clampToPi x) = Real.cos x := by rw [e, Real.cos_add_int_mul_two_pi]
  exact ⟨s ▸ (C141_sine a b).1, c ▸ (C141_cosine a b).1⟩

/-- A decreasing rational: the value at π bounded by comparing polynomials at the rational bounds of π. -/
theorem C141_documented_refuted : ¬ (∀ x : ℝ, -Real.pi ≤ x → x ≤ Real.pi → |fastsin x - Real.sin x| ≤ 1e-5) ∧ ¬ (∀ x : ℝ, -Real.pi ≤ x → x ≤ Real.pi → |fastcos x - Real.cos x| ≤ 1e-5)
    ∧ ∃ x : ℝ, -Real.pi ≤ x ∧ x ≤ Real.pi ∧ fastcos x < -1 := by
  have p0 := Real.pi_gt_d6
  have hp := Real.pi_pos
  have x0 : (0 : ℝ) ≤ 3141592 / 10 ^ 6 := by norm_num
  have c1 : fastcos (3141592 / 10 ^ 6) < -1 - 5 / 10 ^ 5 := by simp only [fastcos]; norm_num
  have s1 : fastsin (3141592 / 10 ^ 6) < -(101 / 10 ^ 7) := by simp only [fastsin]; norm_num
  have lo : -Real.pi ≤ 3141592 / 10 ^ 6 := by linarith
  have hi : 3141592 / 10 ^ 6 ≤ Real.pi := by norm_num at p0 ⊢; linarith
  refine ⟨fun h => ?_, fun h => ?_, ⟨_, lo, hi, by linarith⟩⟩
  · have := (abs_le.1 (h _ lo hi)).1
    have := Real.sin_nonneg_of_nonneg_of_le_pi x0 hi
    norm_num at *; linarith
  · have := (abs_le.1 (h _ lo hi)).1
    have := Real.neg_one_le_cos (3141592 / 10 ^ 6)
    norm_num at *; linarith

/-! ## C142: tanh and tan -/

theorem tanhD_pos (x : ℝ) : 0 < 135135 + x * x * (62370 + x * x * (3150 + 28 * (x * x))) := by
  have := mul_self_nonneg x
  positivity

/-- Linear comparison: a function that starts at 0 and whose slope is `-p f + r` with `p, r` nonnegative stays nonnegative. -/
theorem nonneg_of_linear {h p r : ℝ → ℝ} {b : ℝ} (h0 : h 0 = 0) (hd : ∀ x, 0 ≤ x → x ≤ b → HasDerivAt h (-(p x) * h x + r x) x)
    (hp : ∀ x, 0 ≤ x → x ≤ b → 0 ≤ p x) (hr : ∀ x, 0 ≤ x → x ≤ b → 0 ≤ r x) {x : ℝ} (hx : 0 ≤ x) (hb : x ≤ b) : 0 ≤ h x := by
  have key : ∀ ε : ℝ, 0 < ε → -h x ≤ ε * (1 + x) := by
    intro ε he
    refine image_le_of_deriv_right_lt_deriv_boundary (f := fun x => -h x) (f' := fun x => -(-(p x) * h x + r x)) (a := 0) (b := b) (B := fun x => ε * (1 + x)) (B' := fun _ => ε) ?_ ?_ ?_ ?_ ?_ ⟨hx, hb⟩
    · intro y hy; exact (hd y hy.1 hy.2).neg.continuousAt.continuousWithinAt
    · intro y hy; exact (hd y hy.1 hy.2.le).neg.hasDerivWithinAt
    · simp [h0]; exact he.le
    · intro y
      have := ((hasDerivAt_id y).const_add (1 : ℝ)).const_mul ε
      simpa using this
    · intro y hy e
      have hpp := hp y hy.1 hy.2.le
      have hrr := hr y hy.1 hy.2.le
      have : 0 < -h y := by
        rw [e]; have := hy.1; positivity
      nlinarith [mul_nonneg hpp this.le]
  by_contra hneg
  push Not at hneg
  have := key (-h x / (2 * (1 + x))) (by apply div_pos <;> linarith)
  have e : -h x / (2 * (1 + x)) * (1 + x) = -h x / 2 := by field_simp
  rw [e] at this
  linarith

noncomputable def tN (x : ℝ) : ℝ := x * (135135 + x * x * (17325 + x * x * (378 + x * x)))
noncomputable def tD (x : ℝ) : ℝ := 135135 + x * x * (62370 + x * x * (3150 + 28 * (x * x)))
noncomputable def tN' (x : ℝ) : ℝ := 135135 + 51975 * x ^ 2 + 1890 * x ^ 4 + 7 * x ^ 6
noncomputable def tD' (x : ℝ) : ℝ := 124740 * x + 12600 * x ^ 3 + 168 * x ^ 5

theorem tN_deriv (x : ℝ) : HasDerivAt tN (tN' x) x := by
  have e : tN = fun x => 135135 * x + 17325 * x ^ 3 + 378 * x ^ 5 + x ^ 7 := by funext y; simp only [tN]; ring
  rw [e]
  refine (((((hasDerivAt_id x).const_mul 135135).add ((hasDerivAt_pow 3 x).const_mul 17325)).add ((hasDerivAt_pow 5 x).const_mul 378)).add (hasDerivAt_pow 7 x)).congr_deriv ?_
  simp only [tN']; norm_num; ring
theorem tD_deriv (x : ℝ) : HasDerivAt tD (tD' x) x := by
  have e : tD = fun x => 135135 + 62370 * x ^ 2 + 3150 * x ^ 4 + 28 * x ^ 6 := by funext y; simp only [tD]; ring
  rw [e]
  refine ((((hasDerivAt_const x (135135 : ℝ)).add ((hasDerivAt_pow 2 x).const_mul 62370)).add ((hasDerivAt_pow 4 x).const_mul 3150)).add ((hasDerivAt_pow 6 x).const_mul 28)).congr_deriv ?_
  simp only [tD']; norm_num; ring
theorem tD_pos (x : ℝ) : 0 < tD x := tanhD_pos x
theorem fasttanh_eq (x : ℝ) : fasttanh x = tN x / tD x := rfl
/-- The Padé identity. -/
theorem pade (x : ℝ) : tN' x * tD x - tN x * tD' x = tD x ^ 2 - tN x ^ 2 + x ^ 14 := by
  simp only [tN, tD, tN', tD']; ring

theorem fasttanh_deriv (x : ℝ) : HasDerivAt fasttanh (1 - fasttanh x ^ 2 + x ^ 14 / tD x ^ 2) x := by
  have := (tN_deriv x).div (tD_deriv x) (tD_pos x).ne'
  refine this.congr_deriv ?_
  rw [pade, fasttanh_eq]
  have := (tD_pos x).ne'
  field_simp

theorem tanh_deriv (x : ℝ) : HasDerivAt Real.tanh (1 - Real.tanh x ^ 2) x := by
  have hc := (Real.cosh_pos x).ne'
  have := (Real.hasDerivAt_sinh x).div (Real.hasDerivAt_cosh x) hc
  have e : Real.tanh = fun y => Real.sinh y / Real.cosh y := by funext y; exact Real.tanh_eq_sinh_div_cosh y
  rw [e]
  refine this.congr_deriv ?_
  field_simp

theorem fasttanh_nonneg {x : ℝ} (h : 0 ≤ x) : 0 ≤ fasttanh x := by
  rw [fasttanh_eq]
  exact div_nonneg (by simp only [tN]; positivity) (tD_pos x).le

theorem tanh_nonneg {x : ℝ} (h : 0 ≤ x) : 0 ≤ Real.tanh x := by
  rw [Real.tanh_eq_sinh_div_cosh]
  exact div_nonneg (Real.sinh_nonneg_iff.2 h) (Real.cosh_pos x).le

theorem tanh_low {x : ℝ} (hx : 0 ≤ x) : Real.tanh x ≤ fasttanh x := by
  have := nonneg_of_linear (h := fun x => fasttanh x - Real.tanh x) (p := fun x => fasttanh x + Real.tanh x) (r := fun x => x ^ 14 / tD x ^ 2) (b := x)
    (by simp [fasttanh]) (fun y _ _ => ((fasttanh_deriv y).sub (tanh_deriv y)).congr_deriv (by ring))
    (fun y hy _ => add_nonneg (fasttanh_nonneg hy) (tanh_nonneg hy)) (fun y hy _ => by positivity) hx le_rfl
  linarith

theorem tanh_high {x : ℝ} (hx : 0 ≤ x) (h5 : x ≤ 5) : fasttanh x ≤ Real.tanh x + x ^ 15 / (8 * tD x ^ 2) := by
  have dB : ∀ y : ℝ, HasDerivAt (fun y : ℝ => y ^ 15 / (8 * tD y ^ 2)) (y ^ 14 * (15 * tD y - 2 * y * tD' y) / (8 * tD y ^ 3)) y := by
    intro y
    have hD := (tD_pos y).ne'
    have := (hasDerivAt_pow 15 y).div (((tD_deriv y).pow 2).const_mul 8) (by have := tD_pos y; simp only [Pi.pow_apply]; positivity)
    refine this.congr_deriv ?_
    simp only [Pi.pow_apply]
    field_simp
    norm_num
    ring
  have := nonneg_of_slope (f := fun y => Real.tanh y + y ^ 15 / (8 * tD y ^ 2) - fasttanh y) (b := 5)
    (g := fun y => (1 - Real.tanh y ^ 2) + y ^ 14 * (15 * tD y - 2 * y * tD' y) / (8 * tD y ^ 3) - (1 - fasttanh y ^ 2 + y ^ 14 / tD y ^ 2))
    (by simp [fasttanh]) (fun y _ _ => ((tanh_deriv y).add (dB y)).sub (fasttanh_deriv y)) ?_ hx h5
  · linarith
  · intro y y0 y5
    have a := tanh_low y0
    have b := tanh_nonneg y0
    have k : Poly.nonnegOn 8 0 5 1 [945945, 0, 187110, 0, -3150, 0, -140] = true := by decide +kernel
    have kk : 0 ≤ 7 * tD y - 2 * y * tD' y := by
      rcases y0.eq_or_lt with rfl | y0
      · simp [tD, tD']
      · have := Poly.nonnegOn_sound k (by norm_num) (by norm_num) (c := y) (by simpa using y0) (by simpa using y5)
        have e : Poly.ev [945945, 0, 187110, 0, -3150, 0, -140] y = 7 * tD y - 2 * y * tD' y := by
          simp only [Poly.ev_cons, Poly.ev_nil, tD, tD']; push_cast; ring
        linarith
    have hD := tD_pos y
    have e : y ^ 14 * (15 * tD y - 2 * y * tD' y) / (8 * tD y ^ 3) - y ^ 14 / tD y ^ 2 = y ^ 14 * (7 * tD y - 2 * y * tD' y) / (8 * tD y ^ 3) := by
      field_simp; ring
    have : 0 ≤ y ^ 14 * (7 * tD y - 2 * y * tD' y) / (8 * tD y ^ 3) := by positivity
    nlinarith

theorem fasttanh_odd (x : ℝ) : fasttanh (-x) = -fasttanh x := by
  simp only [fasttanh, neg_mul_neg]; rw [neg_mul, neg_div]

theorem fasttanh_strictMono : StrictMono fasttanh := by
  refine strictMono_of_deriv_pos fun x => ?_
  rw [(fasttanh_deriv x).deriv, fasttanh_eq]
  have hD := tD_pos x
  have e : 1 - (tN x / tD x) ^ 2 + x ^ 14 / tD x ^ 2 = (tN' x * tD x - tN x * tD' x) / tD x ^ 2 := by rw [pade]; field_simp
  rw [e]
  refine div_pos ?_ (by positivity)
  have e2 : tN' x * tD x - tN x * tD' x = 18261468225 - 1404728325 * x ^ 2 + 58939650 * (x ^ 2) ^ 2 - 1819125 * (x ^ 2) ^ 3 + 47250 * (x ^ 2) ^ 4 - 1134 * (x ^ 2) ^ 5 + 28 * (x ^ 2) ^ 6 := by
    simp only [tN, tD, tN', tD']; ring
  rw [e2]
  generalize x ^ 2 = y
  nlinarith [mul_nonneg (sq_nonneg (y ^ 2)) (sq_nonneg (y - 81 / 4)), mul_nonneg (sq_nonneg y) (sq_nonneg (y - 2543 / 100)), sq_nonneg (y - 196 / 10)]

theorem x15_bound {x : ℝ} (hx : 0 ≤ x) (h5 : x ≤ 5) : x ^ 15 / (8 * tD x ^ 2) ≤ 2.3e-4 := by
  have k : Poly.nonnegOn 14 0 5 1 (Poly.add (Poly.smul (8 * 23) (Poly.mul [135135, 0, 62370, 0, 3150, 0, 28] [135135, 0, 62370, 0, 3150, 0, 28])) [0, 0, 0, 0, 0, 0, 0, 0, 0, 0, 0, 0, 0, 0, 0, -100000]) = true := by decide +kernel
  have hD := tD_pos x
  rw [div_le_iff₀ (by positivity)]
  rcases hx.eq_or_lt with rfl | hx
  · norm_num; positivity
  · have := Poly.nonnegOn_sound k (by norm_num) (by norm_num) (c := x) (by simpa using hx) (by simpa using h5)
    rw [Poly.ev_add, Poly.ev_smul, Poly.ev_mul] at this
    have e : Poly.ev [135135, 0, 62370, 0, 3150, 0, 28] x = tD x := by
      simp only [Poly.ev_cons, Poly.ev_nil, tD]; push_cast; ring
    rw [e] at this
    simp only [Poly.ev_cons, Poly.ev_nil] at this
    push_cast at this
    norm_num
    linarith

/-- **C142** The hyperbolic tangent approximation is odd and increasing over the whole line, lies outside the true one, and up to 5 by at most 2.3·10⁻⁴ (and by less than x¹⁵/(8·135135²), so to rounding error near 0). -/
theorem C142_tanh : (∀ x, fasttanh (-x) = -fasttanh x) ∧ StrictMono fasttanh ∧ (∀ x : ℝ, 0 ≤ x → Real.tanh x ≤ fasttanh x)
    ∧ (∀ x : ℝ, |x| ≤ 5 → |fasttanh x - Real.tanh x| ≤ 2.3e-4) ∧ ∀ x : ℝ, |x| ≤ 5 → |fasttanh x - Real.tanh x| ≤ |x| ^ 15 / 146091745800 := by
  have key : ∀ x : ℝ, 0 ≤ x → x ≤ 5 → |fasttanh x - Real.tanh x| ≤ x ^ 15 / (8 * tD x ^ 2) := by
    intro x h0 h5
    rw [abs_le]
    have a := tanh_low h0
    have b := tanh_high h0 h5
    have : 0 ≤ x ^ 15 / (8 * tD x ^ 2) := by positivity
    constructor <;> linarith
  have sym : ∀ x : ℝ, |x| ≤ 5 → |fasttanh x - Real.tanh x| ≤ |x| ^ 15 / (8 * tD |x| ^ 2) := by
    intro x h
    rcases le_total 0 x with hx | hx
    · rw [abs_of_nonneg hx] at h ⊢; exact key x hx h
    · rw [abs_of_nonpos hx] at h ⊢
      have := key (-x) (by linarith) h
      rw [fasttanh_odd, Real.tanh_neg, ← abs_neg] at this
      simpa [sub_eq_add_neg, add_comm] using this
  refine ⟨fasttanh_odd, fasttanh_strictMono, fun x h => tanh_low h, fun x h => (sym x h).trans (x15_bound (abs_nonneg x) h), fun x h => (sym x h).trans ?_⟩
  refine div_le_div_of_nonneg_left (by positivity) (by norm_num) ?_
  have : (135135 : ℝ) ≤ tD |x| := by
    simp only [tD]; have := mul_self_nonneg |x|; nlinarith [mul_nonneg this (mul_nonneg this this), mul_nonneg this this]
  nlinarith

/-- **C142** The clamped form follows the hyperbolic tangent over the whole line. -/
theorem C142_tanh_clamped (x : ℝ) : |fasttanhClamped x - Real.tanh x| ≤ 2.3e-4 ∧ |fasttanhClamped x| ≤ 1.00001 ∧ (∀ y, x ≤ y → fasttanhClamped x ≤ fasttanhClamped y) := by
  obtain ⟨odd, mono, low, near, -⟩ := C142_tanh
  have five : fasttanh 5 ≤ 1.00001 ∧ 1 < fasttanh 5 := by simp only [fasttanh]; norm_num
  have tlt : ∀ y, Real.tanh y < 1 := fun y => Real.tanh_lt_one y
  have tm : StrictMono Real.tanh := by
    refine strictMono_of_deriv_pos fun y => ?_
    rw [(tanh_deriv y).deriv]
    have a := Real.tanh_lt_one y
    have b := Real.neg_one_lt_tanh y
    nlinarith
  have big : ∀ y : ℝ, 5 ≤ y → |fasttanh 5 - Real.tanh y| ≤ 2.3e-4 := by
    intro y hy
    have a := near 5 (by norm_num)
    have b := tm.monotone hy
    have c := tlt y
    rw [abs_le] at a ⊢
    constructor <;> linarith [a.1, a.2, five.2]
  refine ⟨?_, ?_, ?_⟩
  · unfold fasttanhClamped
    rcases le_total x 5 with h5 | h5
    · rcases le_total (-5) x with hm | hm
      · rw [max_eq_right hm, min_eq_right h5]; exact near x (abs_le.2 ⟨hm, h5⟩)
      · rw [max_eq_left hm, min_eq_right (by norm_num)]
        have := big (-x) (by linarith)
        rw [Real.tanh_neg] at this
        rw [odd, ← abs_neg]
        simpa [sub_eq_add_neg, add_comm] using this
    · rw [max_eq_right (by linarith), min_eq_left h5]; exact big x h5
  · unfold fasttanhClamped
    have a : fasttanh (min 5 (max (-5) x)) ≤ fasttanh 5 := mono.monotone (min_le_left _ _)
    have b : fasttanh (-5) ≤ fasttanh (min 5 (max (-5) x)) := mono.monotone (le_min (by norm_num) (le_max_left _ _))
    rw [odd] at b
    rw [abs_le]; constructor <;> linarith [five.1]
  · intro y h
    exact mono.monotone (min_le_min_left _ (max_le_max_left _ h))

/-- **C142** It is not a limiter: its results leave [−1, 1]. -/
theorem C142_limiter_refuted : ¬ ∀ x, |fasttanhClamped x| ≤ 1 := by
  intro h
  have := (abs_le.1 (h 5)).2
  have e : 1 < fasttanhClamped 5 := by simp only [fasttanhClamped, fasttanh]; norm_num
  linarith

def tanN : Poly.P := [0, 135135, 0, -17325, 0, 378, 0, -1]
def tanD : Poly.P := [135135, 0, -62370, 0, 3150, 0, -28]
theorem fasttan_eq (x : ℝ) : fasttan x = Poly.ev tanN x / Poly.ev tanD x := by
  rw [← neg_div_neg_eq]
  simp only [fasttan, tanN, tanD, Poly.ev_cons, Poly.ev_nil]; push_cast; congr 1 <;> ring

/-- **C142** The tangent approximation is odd and, up to 1.57 (π/2 is 1.5707…), below the tangent by at most four millionths of it. -/
theorem C142_tan : (∀ x, fasttan (-x) = -fasttan x) ∧ ∀ x : ℝ, |x| ≤ 1.57 → |fasttan x - Real.tan x| ≤ 4e-6 * |Real.tan x| := by
  have odd : ∀ x, fasttan (-x) = -fasttan x := by intro x; simp only [fasttan, neg_mul_neg]; rw [neg_mul, neg_div]
  have key : ∀ x : ℝ, 0 < x → x ≤ 1.57 → |fasttan x - Real.tan x| ≤ 4e-6 * |Real.tan x| := by
    intro x h0 h1
    have h1' : x ≤ 157 / 100 := by norm_num at h1 ⊢; linarith
    have hpi := Real.pi_gt_d4
    have cpos : 0 < Real.cos x := Real.cos_pos_of_mem_Ioo ⟨by linarith [Real.pi_pos], by norm_num at hpi ⊢; linarith⟩
    have spos : 0 < Real.sin x := Real.sin_pos_of_pos_of_lt_pi h0 (by norm_num at hpi; linarith)
    have b0 : ((0 : ℤ) : ℝ) / (100 : ℤ) < x := by simpa using h0
    have b1 : x ≤ ((157 : ℤ) : ℝ) / (100 : ℤ) := by push_cast; linarith
    have kN : Poly.nonnegOn 10 0 157 100 tanN = true := by decide +kernel
    have kD : Poly.nonnegOn 10 0 157 100 (Poly.add [-1] tanD) = true := by decide +kernel
    have n0 := Poly.nonnegOn_sound kN (by norm_num) (by norm_num) b0 b1
    have d0 := Poly.nonnegOn_sound kD (by norm_num) (by norm_num) b0 b1
    rw [Poly.ev_add] at d0
    simp only [Poly.ev_cons, Poly.ev_nil] at d0
    have D1 : 0 < Poly.ev tanD x := by push_cast at d0; linarith
    have k1 : Poly.nonnegOn 14 0 157 100 (Poly.add (Poly.smul (1124000727777607680000) (Poly.mul tanD pS10)) (Poly.smul (-51090942171709440000) (Poly.mul tanN pC11))) = true := by decide +kernel
    have k2 : Poly.nonnegOn 14 0 157 100 (Poly.add (Poly.smul (1000000 * 51090942171709440000) (Poly.mul tanN pC12)) (Poly.smul (-(999996 * 1124000727777607680000)) (Poly.mul tanD pS11))) = true := by decide +kernel
    have q1 := Poly.nonnegOn_sound k1 (by norm_num) (by norm_num) b0 b1
    have q2 := Poly.nonnegOn_sound k2 (by norm_num) (by norm_num) b0 b1
    rw [Poly.ev_add, Poly.ev_smul, Poly.ev_smul, Poly.ev_mul, Poly.ev_mul, ev_pS10, ev_pC11] at q1
    rw [Poly.ev_add, Poly.ev_smul, Poly.ev_smul, Poly.ev_mul, Poly.ev_mul, ev_pS11, ev_pC12] at q2
    push_cast at q1 q2
    have t1 := (taylor 9).2 x h0.le
    have t2 := (taylor 10).2 x h0.le
    have t3 := (taylor 10).1 x h0.le
    have t4 := (taylor 11).1 x h0.le
    norm_num at t1 t2 t3 t4
    set N := Poly.ev tanN x
    set D := Poly.ev tanD x
    have r1 : N * Real.cos x ≤ D * Real.sin x := by
      have a := mul_le_mul_of_nonneg_left t3 n0
      have b := mul_le_mul_of_nonneg_left t1 D1.le
      linarith
    have r2 : 999996 * (D * Real.sin x) ≤ 1000000 * (N * Real.cos x) := by
      have a := mul_le_mul_of_nonneg_left t4 n0
      have b := mul_le_mul_of_nonneg_left t2 D1.le
      linarith
    have tpos : 0 < Real.tan x := by rw [Real.tan_eq_sin_div_cos]; exact div_pos spos cpos
    have u1 : fasttan x ≤ Real.tan x := by
      rw [fasttan_eq, Real.tan_eq_sin_div_cos, div_le_div_iff₀ D1 cpos]; linarith
    have u2 : 999996 / 1000000 * Real.tan x ≤ fasttan x := by
      rw [fasttan_eq, Real.tan_eq_sin_div_cos, ← mul_div_assoc, div_le_div_iff₀ cpos D1]; linarith
    rw [abs_of_pos tpos, abs_le]
    constructor <;> norm_num <;> linarith
  refine ⟨odd, fun x h => ?_⟩
  rcases lt_trichotomy x 0 with hx | hx | hx
  · rw [abs_of_neg hx] at h
    have := key (-x) (by linarith) h
    rw [odd, Real.tan_neg, abs_neg, ← abs_neg (-fasttan x - -Real.tan x)] at this
    simpa [sub_eq_add_neg, add_comm] using this
  · subst hx; simp [fasttan]
  · rw [abs_of_pos hx] at h; exact key x hx h

/-! ## C143: exp -/

noncomputable def eN (x : ℝ) : ℝ := 1680 + x * (840 + x * (180 + x * (20 + x)))
noncomputable def eD (x : ℝ) : ℝ := 1680 + x * (-840 + x * (180 + x * (-20 + x)))
theorem eD_pos (x : ℝ) : 0 < eD x := by
  have : eD x = (x ^ 2 - 10 * x + 30) ^ 2 + 20 * (x - 6) ^ 2 + 60 := by simp only [eD]; ring
  rw [this]; positivity
theorem eN_eq (x : ℝ) : eN x = eD (-x) := by simp only [eN, eD]; ring
theorem eN_pos (x : ℝ) : 0 < eN x := by rw [eN_eq]; exact eD_pos _
theorem fastexp_eq (x : ℝ) : fastexp x = eN x / eD x := rfl
noncomputable def eN' (x : ℝ) : ℝ := 840 + 360 * x + 60 * x ^ 2 + 4 * x ^ 3
noncomputable def eD' (x : ℝ) : ℝ := -840 + 360 * x - 60 * x ^ 2 + 4 * x ^ 3
theorem eN_deriv (x : ℝ) : HasDerivAt eN (eN' x) x := by
  have e : eN = fun x => 1680 + 840 * x + 180 * x ^ 2 + 20 * x ^ 3 + x ^ 4 := by funext y; simp only [eN]; ring
  rw [e]
  refine (((((hasDerivAt_const x (1680 : ℝ)).add ((hasDerivAt_id x).const_mul 840)).add ((hasDerivAt_pow 2 x).const_mul 180)).add ((hasDerivAt_pow 3 x).const_mul 20)).add (hasDerivAt_pow 4 x)).congr_deriv ?_
  simp only [eN']; norm_num; ring
theorem eD_deriv (x : ℝ) : HasDerivAt eD (eD' x) x := by
  have e : eD = fun x => 1680 + (-840) * x + 180 * x ^ 2 + (-20) * x ^ 3 + x ^ 4 := by funext y; simp only [eD]; ring
  rw [e]
  refine (((((hasDerivAt_const x (1680 : ℝ)).add ((hasDerivAt_id x).const_mul (-840))).add ((hasDerivAt_pow 2 x).const_mul 180)).add ((hasDerivAt_pow 3 x).const_mul (-20))).add (hasDerivAt_pow 4 x)).congr_deriv ?_
  simp only [eD']; norm_num; ring
theorem fastexp_deriv (x : ℝ) : HasDerivAt fastexp (fastexp x - x ^ 8 / eD x ^ 2) x := by
  have := (eN_deriv x).div (eD_deriv x) (eD_pos x).ne'
  refine this.congr_deriv ?_
  have id : eN' x * eD x - eN x * eD' x = eN x * eD x - x ^ 8 := by simp only [eN, eD, eN', eD']; ring
  rw [id, fastexp_eq]
  have := (eD_pos x).ne'
  field_simp
theorem fastexp_pos (x : ℝ) : 0 < fastexp x := div_pos (eN_pos x) (eD_pos x)
theorem fastexp_inv (x : ℝ) : fastexp x * fastexp (-x) = 1 := by
  rw [fastexp_eq, fastexp_eq, ← eN_eq, eN_eq (-x), neg_neg]
  have := (eD_pos x).ne'
  have := (eN_pos x).ne'
  field_simp

/-- The share of the true exponential that is missing. -/
theorem ratio_deriv (x : ℝ) : HasDerivAt (fun x => 1 - fastexp x * Real.exp (-x)) (x ^ 8 / eD x ^ 2 * Real.exp (-x)) x := by
  have e1 : HasDerivAt (fun x : ℝ => Real.exp (-x)) (-Real.exp (-x)) x := by
    simpa using (hasDerivAt_neg x).exp
  have := ((fastexp_deriv x).mul e1).const_sub 1
  refine this.congr_deriv ?_
  ring

theorem exp_low {x : ℝ} (hx : 0 ≤ x) : 0 ≤ 1 - fastexp x * Real.exp (-x) :=
  nonneg_of_slope (b := x) (by simp [fastexp]) (fun y _ _ => ratio_deriv y) (fun y _ _ => by have := Real.exp_pos (-y); positivity) hx le_rfl

theorem exp_high {x : ℝ} (hx : 0 ≤ x) (h4 : x ≤ 4) : 1 - fastexp x * Real.exp (-x) ≤ x ^ 9 / (9 * eD x ^ 2) := by
  have dB : ∀ y : ℝ, HasDerivAt (fun y : ℝ => y ^ 9 / (9 * eD y ^ 2)) (y ^ 8 / eD y ^ 2 + y ^ 9 * (-(2 * eD' y)) / (9 * eD y ^ 3)) y := by
    intro y
    have hD := (eD_pos y).ne'
    have := (hasDerivAt_pow 9 y).div (((eD_deriv y).pow 2).const_mul 9) (by have := eD_pos y; simp only [Pi.pow_apply]; positivity)
    refine this.congr_deriv ?_
    simp only [Pi.pow_apply]
    field_simp
    norm_num
    ring
  have := nonneg_of_slope (b := 4) (by simp [fastexp]) (fun y _ _ => (dB y).sub (ratio_deriv y)) ?_ hx h4
  · simp only [Pi.sub_apply] at this; linarith
  · intro y y0 y4
    have d' : 0 ≤ -(2 * eD' y) := by
      simp only [eD']
      nlinarith [mul_nonneg y0 (sub_nonneg.2 y4), mul_nonneg (mul_nonneg y0 y0) (sub_nonneg.2 y4), sq_nonneg (y - 3), sq_nonneg (y - 4)]
    have hD := eD_pos y
    have a : 0 ≤ y ^ 9 * (-(2 * eD' y)) / (9 * eD y ^ 3) := by positivity
    have b : Real.exp (-y) ≤ 1 := Real.exp_le_one_iff.2 (by linarith)
    have c : 0 ≤ y ^ 8 / eD y ^ 2 := by positivity
    nlinarith

/-- **C143** The exponential approximation is positive, reciprocal at negated arguments, below the exponential to the right of 0 and above it to the left; up to 4 the relative error is at most x⁹/(9·D(x)²), within ±1 it is below 2·10⁻⁷. -/
theorem C143_exp : (∀ x, 0 < fastexp x) ∧ (∀ x, fastexp x * fastexp (-x) = 1) ∧ (∀ x : ℝ, 0 ≤ x → fastexp x ≤ Real.exp x ∧ Real.exp (-x) ≤ fastexp (-x))
    ∧ (∀ x : ℝ, |x| ≤ 1 → |fastexp x - Real.exp x| ≤ 2e-7 * Real.exp x) ∧ ∀ x : ℝ, |x| ≤ 2 → |fastexp x - Real.exp x| ≤ 2e-4 * Real.exp x := by
  have low : ∀ x : ℝ, 0 ≤ x → fastexp x ≤ Real.exp x := by
    intro x hx
    have a := exp_low hx
    have b := Real.exp_pos x
    have c : fastexp x * Real.exp (-x) ≤ 1 := by linarith
    rw [Real.exp_neg, ← div_eq_mul_inv, div_le_one b] at c
    exact c
  have low' : ∀ x : ℝ, 0 ≤ x → Real.exp (-x) ≤ fastexp (-x) := by
    intro x hx
    have a := low x hx
    have b := fastexp_inv x
    have c := fastexp_pos x
    rw [Real.exp_neg, inv_le_iff_one_le_mul₀' (Real.exp_pos x)]
    nlinarith [fastexp_pos (-x)]
  have gen : ∀ (r e e' : ℝ), 0 ≤ e → e < 1 → e / (1 - e) ≤ e' → r ≤ 4 → (∀ x : ℝ, 0 ≤ x → x ≤ r → x ^ 9 / (9 * eD x ^ 2) ≤ e) → ∀ x : ℝ, |x| ≤ r → |fastexp x - Real.exp x| ≤ e' * Real.exp x := by
    intro r e e' he he1 hee hr hb x hx
    have e1 : (1 - e) * e' ≥ e := by rw [div_le_iff₀ (by linarith)] at hee; linarith
    have e2 : e ≤ e' := by nlinarith
    have pos : ∀ y : ℝ, 0 ≤ y → y ≤ r → (1 - e) * Real.exp y ≤ fastexp y := by
      intro y y0 yr
      have a := (exp_high y0 (yr.trans hr)).trans (hb y y0 yr)
      have b := Real.exp_pos y
      have c : 1 - e ≤ fastexp y * Real.exp (-y) := by linarith
      rwa [Real.exp_neg, ← div_eq_mul_inv, le_div_iff₀ b] at c
    rcases le_total 0 x with h | h
    · rw [abs_of_nonneg h] at hx
      have a := pos x h hx
      have b := low x h
      have c := Real.exp_pos x
      rw [abs_le]; constructor <;> nlinarith
    · rw [abs_of_nonpos h] at hx
      have a := pos (-x) (by linarith) hx
      have b := low' (-x) (by linarith)
      rw [neg_neg] at b
      have c := Real.exp_pos x
      have d := fastexp_inv x
      have f := fastexp_pos x
      have g : Real.exp (-x) * Real.exp x = 1 := by rw [← Real.exp_add]; simp
      -- fastexp x ≤ exp x / (1 - e)
      have k : (1 - e) * fastexp x ≤ Real.exp x := by
        have := mul_le_mul_of_nonneg_right (mul_le_mul_of_nonneg_right a f.le) c.le
        have e3 : (1 - e) * Real.exp (-x) * fastexp x * Real.exp x = (1 - e) * fastexp x * (Real.exp (-x) * Real.exp x) := by ring
        have e4 : fastexp (-x) * fastexp x * Real.exp x = fastexp x * fastexp (-x) * Real.exp x := by ring
        rw [e3, e4, g, d] at this
        linarith
      have k2 : (1 - e) * (fastexp x - Real.exp x) ≤ (1 - e) * (e' * Real.exp x) := by nlinarith
      have k3 := le_of_mul_le_mul_left k2 (by linarith)
      rw [abs_le]; constructor
      · nlinarith [mul_nonneg (he.trans e2) c.le]
      · exact k3
  refine ⟨fastexp_pos, fastexp_inv, fun x h => ⟨low x h, low' x h⟩, gen 1 (12 / 10 ^ 8) _ (by norm_num) (by norm_num) (by norm_num) (by norm_num) ?_, gen 2 (18 / 10 ^ 5) _ (by norm_num) (by norm_num) (by norm_num) (by norm_num) ?_⟩
  · intro x h0 h1
    have d : 1001 ≤ eD x := by simp only [eD]; nlinarith [mul_nonneg h0 (sub_nonneg.2 h1), mul_nonneg (mul_nonneg h0 h0) (sub_nonneg.2 h1), pow_nonneg h0 4]
    have p : x ^ 9 ≤ 1 := pow_le_one₀ h0 h1
    rw [div_le_iff₀ (by positivity)]
    nlinarith
  · intro x h0 h1
    have d : 576 ≤ eD x := by
      have k : Poly.nonnegOn 10 0 2 1 [1104, -840, 180, -20, 1] = true := by decide +kernel
      rcases h0.eq_or_lt with rfl | h0
      · norm_num [eD]
      · have := Poly.nonnegOn_sound k (by norm_num) (by norm_num) (c := x) (by simpa using h0) (by simpa using h1)
        simp only [Poly.ev_cons, Poly.ev_nil] at this
        simp only [eD]; push_cast at this; linarith
    have p : x ^ 9 ≤ 2 ^ 9 := pow_le_pow_left₀ h0 h1 9
    rw [div_le_iff₀ (by positivity)]
    nlinarith

/-- **C143** The documented range, −6 to 4, is not covered: at −6 the result is more than twice the exponential. -/
theorem C143_range_refuted : (2 : ℝ) * Real.exp (-6) < fastexp (-6) := by
  have h : fastexp (-6) = 96 / 18816 := by simp only [fastexp]; norm_num
  rw [h, Real.exp_neg]
  have e := Real.exp_one_gt_d9
  have : (400 : ℝ) < Real.exp 6 := by
    have : Real.exp 6 = Real.exp 1 ^ 6 := by rw [← Real.exp_nat_mul]; norm_num
    rw [this]
    have : (2.718 : ℝ) ^ 6 ≤ Real.exp 1 ^ 6 := pow_le_pow_left₀ (by norm_num) (by linarith) 6
    norm_num at this ⊢; linarith
  have : (Real.exp 6)⁻¹ < 400⁻¹ := by apply inv_strictAnti₀ <;> linarith
  norm_num at *; linarith

/-- The hypotheses are met, away from the trivial points. -/
example : |fastsin 3 - Real.sin 3| ≤ 1.12e-5 := (C141_sine (by linarith [Real.pi_pos]) Real.pi_gt_three.le).1
example : |fasttanh (-4) - Real.tanh (-4)| ≤ 2.3e-4 := C142_tanh.2.2.2.1 (-4) (by norm_num [abs_le])
example : |fastexp (-2) - Real.exp (-2)| ≤ 2e-4 * Real.exp (-2) := C143_exp.2.2.2.2 (-2) (by norm_num [abs_le])

end Verif.Dsp.Fast
