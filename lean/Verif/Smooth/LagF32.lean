import Verif.Float.F32
import Mathlib.Tactic.LinearCombination
/-!
# The one-pole smoother at `T = f32`

The same functions of `surge-lag/src/lag.rs` as in `Verif.Smooth.Lag`, with the rounded arithmetic of `Verif.Float.F32`.
-/
namespace Verif.Smooth
open Verif.Float

/-- lag.rs 20-41 `Lag<f32>` (the first-run flag plays no part here). -/
structure LagF where
  v : F32
  target : F32
  lp : F32
  lpinv : F32

/-- lag.rs 82-85 `set_rate`. -/
def LagF.setRate (l : LagF) (lp : F32) : LagF := { l with lp := lp, lpinv := F32.sub (.fin 1) lp }

/-- lag.rs 131-134 `process`. -/
def LagF.process (l : LagF) : LagF := { l with v := (l.v.mul l.lpinv).add (l.target.mul l.lp) }

/-- `n` calls of `process`. -/
def LagF.steps (l : LagF) : Nat → LagF
  | 0 => l
  | n + 1 => (l.steps n).process

theorem LagF.steps_frame (l : LagF) (n : Nat) :
    (l.steps n).lp = l.lp ∧ (l.steps n).lpinv = l.lpinv ∧ (l.steps n).target = l.target := by
  induction n with
  | zero => exact ⟨rfl, rfl, rfl⟩
  | succ n ih => exact ⟨ih.1, ih.2.1, ih.2.2⟩

/-- `f32` unit roundoff and the smallest rounding error. -/
def uR : ℚ := 2 ^ (-24 : ℤ)
def tau : ℚ := 2 ^ (-150 : ℤ)

theorem uR_val : uR = 1 / 16777216 := by norm_num [uR]
theorem tau_pos : 0 < tau := by norm_num [tau]
theorem tau_lt : tau < 1 / 2 ^ 100 := by norm_num [tau]

/-- One rounded step: at most `(1 - r + 4u)` of the old distance plus a rounding error remains. -/
theorem lag_step_bound {v t r a : ℚ} (hr0 : 0 ≤ r) (hr1 : r ≤ 1) (ha0 : 0 ≤ a) (ha1 : a ≤ 1)
    (ha : |a - (1 - r)| ≤ uR) :
    |rne (rne (v * a) + rne (t * r)) - t| ≤ (1 - r + 4 * uR) * |v - t| + 4 * uR * |t| + 4 * tau := by
  have e1 := abs_rne_sub_le' (v * a)
  have e2 := abs_rne_sub_le' (t * r)
  have e3 := abs_rne_sub_le' (rne (v * a) + rne (t * r))
  change _ ≤ _ * uR + tau at e1 e2 e3
  generalize rne (v * a) = p at *
  generalize rne (t * r) = q at *
  generalize rne (p + q) = s at *
  have hu := uR_val
  have ht := tau_pos
  rw [abs_mul, abs_of_nonneg ha0] at e1
  rw [abs_mul, abs_of_nonneg hr0] at e2
  set d := |v - t| with hd
  set T := |t| with hT
  have hv : |v| ≤ d + T := by
    have := abs_add_le (v - t) t; rw [sub_add_cancel] at this; exact this
  have d0 : 0 ≤ d := abs_nonneg _
  have T0 : 0 ≤ T := abs_nonneg _
  have v0 : 0 ≤ |v| := abs_nonneg _
  have har : a + r ≤ 1 + uR := by have := (abs_le.mp ha).2; linarith
  have W : |v| * a + T * r ≤ d + (1 + uR) * T := by nlinarith
  have W0 : 0 ≤ |v| * a + T * r := by positivity
  have hpq : |p + q| ≤ (1 + uR) * (|v| * a + T * r) + 2 * tau := by
    have h1 := abs_add_le p q
    have h2 : |p| ≤ |v| * a + (|v| * a * uR + tau) := by
      have := abs_add_le (p - v * a) (v * a)
      rw [sub_add_cancel, abs_mul v a, abs_of_nonneg ha0] at this; linarith
    have h3 : |q| ≤ T * r + (T * r * uR + tau) := by
      have := abs_add_le (q - t * r) (t * r)
      rw [sub_add_cancel, abs_mul t r, abs_of_nonneg hr0] at this; linarith
    linarith
  have hmid : |v * a + t * r - t| ≤ (1 - r + uR) * d + uR * T := by
    have : v * a + t * r - t = a * (v - t) + (a - (1 - r)) * t := by ring
    rw [this]
    refine (abs_add_le _ _).trans ?_
    rw [abs_mul, abs_mul, abs_of_nonneg ha0]
    have := (abs_le.mp ha).2
    have h1 : a * d ≤ (1 - r + uR) * d := mul_le_mul_of_nonneg_right (by linarith) d0
    have h2 : |a - (1 - r)| * T ≤ uR * T := mul_le_mul_of_nonneg_right ha T0
    linarith
  have hsum : |s - t| ≤ |s - (p + q)| + |p - v * a| + |q - t * r| + |v * a + t * r - t| := by
    have : s - t = (s - (p + q)) + (p - v * a) + (q - t * r) + (v * a + t * r - t) := by ring
    rw [this]
    have h1 := abs_add_le ((s - (p + q)) + (p - v * a) + (q - t * r)) (v * a + t * r - t)
    have h2 := abs_add_le ((s - (p + q)) + (p - v * a)) (q - t * r)
    have h3 := abs_add_le (s - (p + q)) (p - v * a)
    linarith
  have u0 : 0 ≤ uR := by rw [hu]; norm_num
  have f1 := mul_le_mul_of_nonneg_right hpq u0
  have f2 := mul_le_mul_of_nonneg_right W u0
  have f3 := mul_le_mul_of_nonneg_right f2 u0
  have f4 : |v| * a * uR + T * r * uR ≤ (d + (1 + uR) * T) * uR := by linarith
  rw [hu] at e1 e2 e3 hmid f1 f2 f3 f4 ⊢
  linarith

/-- The smoother with target `t` and rate `r` set by `set_rate`, at value `v`. -/
def lagAt (v t r : ℚ) : LagF := LagF.setRate ⟨.fin v, .fin t, .fin 0, .fin 1⟩ (.fin r)

theorem lpinv_bounds {r : ℚ} (h0 : 0 ≤ r) (h1 : r ≤ 1) :
    ∃ a, F32.sub (.fin 1) (.fin r) = .fin a ∧ 0 ≤ a ∧ a ≤ 1 ∧ |a - (1 - r)| ≤ uR := by
  have hq0 : (0 : ℚ) ≤ 1 + -r := by linarith
  have hq1 : (1 : ℚ) + -r ≤ 1 := by linarith
  have e : (1:ℚ) + -r = 1 - r := by ring
  refine ⟨rne (1 + -r), F32.ofQ_fin (by norm_num; linarith) (by norm_num; linarith), rne_nonneg hq0, ?_, ?_⟩
  · have := rne_mono hq1
    rwa [show (1:ℚ) = ((1:ℤ):ℚ) by norm_num, rne_intCast 1 (by norm_num)] at this
  · have := abs_rne_sub_le (1 + -r)
    rw [e] at this ⊢
    refine this.trans ?_
    rcases eq_or_lt_of_le hq0 with hz | hz
    · rw [← e, ← hz]; norm_num [ulpExp, uR]
    · have hm := ulpExp_mono (by linarith : (0:ℚ) < 1 - r) (by linarith : 1 - r ≤ 1)
      have h1 : ulpExp 1 = -23 := by norm_num [ulpExp]
      rw [h1] at hm
      have := zpow_le_zpow_right₀ (by norm_num : (1:ℚ) ≤ 2) hm
      have h2 : (2:ℚ) ^ (-23:ℤ) / 2 = uR := by norm_num [uR]
      exact (div_le_div_of_nonneg_right this (by norm_num)).trans h2.le

/-- C33 (in `f32`, with rounding).  For every rate between 2⁻¹⁰ and 1, every start value and every target of ordinary
size, the smoothed value stays finite and after `n` steps is within the geometrically shrunken distance plus a
rounding error relative to the target. -/
theorem C33_lag_f32 {v t r : ℚ} (hr0 : 1 / 1024 ≤ r) (hr1 : r ≤ 1) (hv : |v| ≤ 2 ^ 90) (ht : |t| ≤ 2 ^ 90) (n : Nat) :
    ∃ x, ((lagAt v t r).steps n).v = .fin x ∧
      |x - t| ≤ (1 - r + 4 * uR) ^ n * |v - t| + 8 * (uR * |t| + tau) / r := by
  obtain ⟨a, ea, ha0, ha1, ha⟩ := lpinv_bounds (by linarith : 0 ≤ r) hr1
  have hu := uR_val
  have htau := tau_pos
  have htau' := tau_lt
  have hrpos : 0 < r := by linarith
  have hq0 : 0 ≤ 1 - r + 4 * uR := by rw [hu]; linarith
  have hq1 : 1 - r + 4 * uR ≤ 1 := by rw [hu]; linarith
  have hT := abs_nonneg t
  set δ := 8 * (uR * |t| + tau) / r with hδ
  have hδr : δ * r = 8 * (uR * |t| + tau) := by rw [hδ]; field_simp
  have hδ0 : 0 ≤ δ := by rw [hδ]; positivity
  have hδle : δ ≤ 2 ^ 90 := by
    rw [hδ, div_le_iff₀ hrpos]
    have : tau ≤ 1 := by norm_num at htau'; linarith
    rw [hu]
    norm_num at ht ⊢
    nlinarith
  have hd0 : |v - t| ≤ 2 ^ 91 := by
    have h := abs_add_le v (-t)
    rw [abs_neg, ← sub_eq_add_neg] at h
    norm_num at *; linarith
  induction n with
  | zero => exact ⟨v, rfl, by simp only [pow_zero, one_mul]; linarith⟩
  | succ n ih =>
    obtain ⟨x, hx, hb⟩ := ih
    obtain ⟨f1, f2, f3⟩ := (lagAt v t r).steps_frame n
    have hpow : (1 - r + 4 * uR) ^ n ≤ 1 := pow_le_one₀ hq0 hq1
    have hpow0 : 0 ≤ (1 - r + 4 * uR) ^ n := pow_nonneg hq0 n
    have hxt : |x - t| ≤ 2 ^ 92 := by
      have : (1 - r + 4 * uR) ^ n * |v - t| ≤ 1 * |v - t| := mul_le_mul_of_nonneg_right hpow (abs_nonneg _)
      norm_num at *; linarith
    have hxb : |x| ≤ 2 ^ 93 := by
      have h := abs_add_le (x - t) t
      rw [sub_add_cancel] at h
      norm_num at *; linarith
    have hr' := abs_of_pos hrpos
    have g1 : |x * a| ≤ 2 ^ 93 := by
      rw [abs_mul, abs_of_nonneg ha0]
      calc _ ≤ |x| * 1 := mul_le_mul_of_nonneg_left ha1 (abs_nonneg _)
        _ ≤ _ := by rw [mul_one]; exact hxb
    have g2 : |t * r| ≤ 2 ^ 90 := by
      rw [abs_mul, hr']
      calc _ ≤ |t| * 1 := mul_le_mul_of_nonneg_left hr1 (abs_nonneg _)
        _ ≤ _ := by rw [mul_one]; exact ht
    have rb : ∀ y : ℚ, ∀ k : ℕ, k < 100 → |y| ≤ 2 ^ k → |rne y| ≤ 2 ^ k := by
      intro y k _ hy
      obtain ⟨l, u⟩ := abs_le.mp hy
      have m1 := rne_mono u
      have m2 := rne_mono l
      rw [show (2:ℚ) ^ k = 2 ^ (k:ℤ) by norm_cast, rne_zpow (by omega)] at m1
      rw [show (2:ℚ) ^ k = 2 ^ (k:ℤ) by norm_cast, rne_neg, rne_zpow (by omega)] at m2
      rw [abs_le]
      exact ⟨by exact_mod_cast m2, by exact_mod_cast m1⟩
    have k1 := rb _ 93 (by norm_num) g1
    have k2 := rb _ 90 (by norm_num) g2
    have w1 := abs_le.mp g1
    have w2 := abs_le.mp g2
    have w3 := abs_le.mp k1
    have w4 := abs_le.mp k2
    have o1 : F32.ofQ (x * a) = .fin (rne (x * a)) :=
      F32.ofQ_fin (by norm_num at *; linarith) (by norm_num at *; linarith)
    have o2 : F32.ofQ (t * r) = .fin (rne (t * r)) :=
      F32.ofQ_fin (by norm_num at *; linarith) (by norm_num at *; linarith)
    have o3 : F32.ofQ (rne (x * a) + rne (t * r)) = .fin (rne (rne (x * a) + rne (t * r))) :=
      F32.ofQ_fin (by norm_num at *; linarith) (by norm_num at *; linarith)
    refine ⟨rne (rne (x * a) + rne (t * r)), ?_, ?_⟩
    · simp only [LagF.steps, LagF.process, f1, f2, f3, hx]
      simp only [lagAt, LagF.setRate, ea, F32.mul, o1, o2, F32.add, o3]
    · refine (lag_step_bound (by linarith) hr1 ha0 ha1 ha).trans ?_
      have h1 : (1 - r + 4 * uR) * |x - t| ≤ (1 - r + 4 * uR) * ((1 - r + 4 * uR) ^ n * |v - t| + δ) :=
        mul_le_mul_of_nonneg_left hb hq0
      have h2 : (1 - r + 4 * uR) * ((1 - r + 4 * uR) ^ n * |v - t| + δ) =
          (1 - r + 4 * uR) ^ (n + 1) * |v - t| + δ - (δ * r) + 4 * uR * δ := by ring
      rw [h2, hδr] at h1
      have h3 : 4 * uR * δ ≤ 4 * (uR * |t| + tau) := by
        have : 8 * uR ≤ r := by rw [hu]; linarith
        have : 8 * uR * δ ≤ δ * r := by nlinarith
        linarith
      linarith

/-- Non-vacuity: the default rate (0.004 rounded to a multiple of 2⁻¹⁰ here), 1 to 0. -/
example : ∃ x, ((lagAt 1 0 (4 / 1024)).steps 100).v = .fin x ∧
    |x - 0| ≤ (1 - 4 / 1024 + 4 * uR) ^ 100 * |1 - 0| + 8 * (uR * |0| + tau) / (4 / 1024) :=
  C33_lag_f32 (by norm_num) (by norm_num) (by norm_num) (by norm_num) 100

end Verif.Smooth
