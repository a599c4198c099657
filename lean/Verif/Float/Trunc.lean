import Verif.Float.F32
import Mathlib.Tactic.LinearCombination
/-!
# Truncation and fractional part of an `f32` are exact
-/
namespace Verif.Float

/-- Every rounded number is a 24-bit integer times a power of two. -/
theorem rne_form (x : ℚ) : ∃ (n e : ℤ), |n| ≤ 2 ^ 24 ∧ -149 ≤ e ∧ rne x = n * 2 ^ e := by
  refine ⟨rhe (x / 2 ^ ulpExp x), ulpExp x, ?_, by unfold ulpExp; omega, rfl⟩
  rcases eq_or_ne x 0 with rfl | hx
  · have : rhe ((0:ℚ) / 2 ^ ulpExp 0) = 0 := by
      rw [zero_div]; exact_mod_cast rhe_intCast 0
    rw [this]; norm_num
  have hub : |x| < 2 ^ (Int.log 2 |x| + 1) := by
    have := Int.lt_zpow_succ_log_self (R := ℚ) (b := 2) (by norm_num) |x|; exact_mod_cast this
  have hub' : |x| ≤ 2 ^ (ulpExp x + 24) :=
    hub.le.trans (zpow_le_zpow_right₀ (by norm_num) (by unfold ulpExp; omega))
  have hq : |x / 2 ^ ulpExp x| ≤ ((2 ^ 24 : ℤ) : ℚ) := by
    rw [abs_div, abs_of_pos (two_zpow_pos _), div_le_iff₀ (two_zpow_pos _)]
    refine hub'.trans ?_
    rw [zpow_add₀ (by norm_num), mul_comm]; norm_num
  rw [abs_le] at hq ⊢
  have a := rhe_mono hq.2
  have b := rhe_mono hq.1
  rw [rhe_intCast] at a
  rw [← Int.cast_neg, rhe_intCast] at b
  exact ⟨b, a⟩

namespace F32

theorem truncQ_intCast (n : ℤ) : truncQ (n : ℚ) = n := by
  unfold truncQ; split <;> simp

theorem truncQ_bounds (q : ℚ) :
    (0 ≤ q → (truncQ q : ℚ) ≤ q ∧ q < truncQ q + 1 ∧ 0 ≤ truncQ q) ∧
    (q < 0 → q ≤ truncQ q ∧ (truncQ q : ℚ) < q + 1 ∧ truncQ q ≤ 0) := by
  unfold truncQ
  constructor
  · intro h; rw [if_pos h]
    exact ⟨Int.floor_le q, Int.lt_floor_add_one q, Int.floor_nonneg.mpr h⟩
  · intro h; rw [if_neg (not_le.mpr h)]
    exact ⟨Int.le_ceil q, Int.ceil_lt_add_one q, by rw [Int.ceil_le]; simpa using h.le⟩

theorem abs_truncQ_le (q : ℚ) : |(truncQ q : ℚ)| ≤ |q| := by
  obtain ⟨h1, h2⟩ := truncQ_bounds q
  rcases le_or_gt 0 q with h | h
  · obtain ⟨a, _, c⟩ := h1 h
    rw [abs_of_nonneg h, abs_of_nonneg (by exact_mod_cast c)]; exact a
  · obtain ⟨a, _, c⟩ := h2 h
    rw [abs_of_neg h, abs_of_nonpos (by exact_mod_cast c)]; linarith

/-- The integer part and the fractional part of an `f32` are `f32` values themselves. -/
theorem rne_trunc (y : ℚ) :
    rne (truncQ (rne y) : ℚ) = truncQ (rne y) ∧ rne (rne y - truncQ (rne y)) = rne y - truncQ (rne y) := by
  obtain ⟨n, e, hn, he, hy⟩ := rne_form y
  have h24 : |(n : ℚ)| ≤ 2 ^ 24 := by exact_mod_cast hn
  rcases le_or_gt 0 e with h0 | h0
  · obtain ⟨k, rfl⟩ := Int.eq_ofNat_of_zero_le h0
    have : rne y = ((n * 2 ^ k : ℤ) : ℚ) := by rw [hy]; push_cast; norm_cast
    rw [this, truncQ_intCast, ← this]
    refine ⟨rne_idem y, ?_⟩
    rw [sub_self, rne_zero]
  · have hs : (2:ℚ) ^ e ≤ 1 := by
      have := zpow_le_zpow_right₀ (a := (2:ℚ)) (by norm_num) h0.le
      simpa using this
    have habs : |rne y| ≤ 2 ^ 24 := by
      rw [hy, abs_mul, abs_of_pos (two_zpow_pos e)]
      calc |(n:ℚ)| * 2 ^ e ≤ |(n:ℚ)| * 1 := mul_le_mul_of_nonneg_left hs (abs_nonneg _)
        _ ≤ _ := by linarith
    have ht : |truncQ (rne y)| ≤ 2 ^ 24 := by
      have := (abs_truncQ_le (rne y)).trans habs
      exact_mod_cast this
    refine ⟨rne_intCast _ ht, ?_⟩
    obtain ⟨k, hk⟩ := Int.eq_ofNat_of_zero_le (show 0 ≤ -e by omega)
    set t := truncQ (rne y) with htt
    have hform : rne y - t = ((n - t * 2 ^ k : ℤ) : ℚ) * 2 ^ e := by
      have : (2:ℚ) ^ e * 2 ^ k = 1 := by
        rw [show e = -(k:ℤ) by omega, zpow_neg, zpow_natCast]
        field_simp
      rw [hy]; push_cast
      linear_combination (t:ℚ) * this
    rw [hform]
    refine rne_mul_zpow _ _ ?_ he
    have hfr : |rne y - t| ≤ |rne y| := by
      obtain ⟨h1, h2⟩ := truncQ_bounds (rne y)
      rcases le_or_gt 0 (rne y) with h | h
      · obtain ⟨a, _, c⟩ := h1 h
        have c' : (0:ℚ) ≤ t := by exact_mod_cast c
        rw [abs_of_nonneg h, abs_of_nonneg (by linarith)]; linarith
      · obtain ⟨a, _, c⟩ := h2 h
        have c' : (t:ℚ) ≤ 0 := by exact_mod_cast c
        rw [abs_of_neg h, abs_of_nonpos (by linarith)]; linarith
    rw [hform, hy, abs_mul, abs_mul] at hfr
    have := le_of_mul_le_mul_right hfr (abs_pos.mpr (two_zpow_pos e).ne')
    have h3 : |((n - t * 2 ^ k : ℤ) : ℚ)| ≤ 2 ^ 24 := this.trans h24
    exact_mod_cast h3

end F32
end Verif.Float
