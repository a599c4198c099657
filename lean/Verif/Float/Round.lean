import Mathlib.Data.Int.Log
import Mathlib.Algebra.Order.Round
import Mathlib.Data.Rat.Floor
import Mathlib.Tactic.Linarith
import Mathlib.Tactic.Ring
import Mathlib.Tactic.NormNum
import Mathlib.Tactic.Positivity
import Mathlib.Tactic.FieldSimp
/-!
# IEEE-754 binary32 rounding of rationals

Round to nearest, ties to even, 24-bit significand, gradual underflow at `2^-149`.  Overflow is handled in
`Verif.Float.F32`.  This is the rounding every Rust `f32` operation performs; it models no particular file of
the repository but the arithmetic all of them use.
-/
namespace Verif.Float

/-- Nearest integer, ties to even. -/
def rhe (x : ℚ) : ℤ :=
  if x - ⌊x⌋ < 1 / 2 then ⌊x⌋
  else if 1 / 2 < x - ⌊x⌋ then ⌊x⌋ + 1
  else if ⌊x⌋ % 2 = 0 then ⌊x⌋ else ⌊x⌋ + 1

/-- Exponent of the last significand bit for a number of the size of `x`. -/
def ulpExp (x : ℚ) : ℤ := max (Int.log 2 |x| - 23) (-149)

/-- binary32 rounding. -/
def rne (x : ℚ) : ℚ := rhe (x / 2 ^ ulpExp x) * 2 ^ ulpExp x

theorem rhe_floor_le (x : ℚ) : ⌊x⌋ ≤ rhe x := by
  unfold rhe; split_ifs <;> omega
theorem rhe_le_floor_succ (x : ℚ) : rhe x ≤ ⌊x⌋ + 1 := by
  unfold rhe; split_ifs <;> omega

theorem rhe_mono {x y : ℚ} (h : x ≤ y) : rhe x ≤ rhe y := by
  rcases lt_or_eq_of_le (Int.floor_mono h) with hf | hf
  · have := rhe_le_floor_succ x
    have := rhe_floor_le y
    omega
  · unfold rhe
    rw [hf]
    split_ifs <;> first | omega | (exfalso; linarith)

@[simp] theorem rhe_intCast (n : ℤ) : rhe (n : ℚ) = n := by
  unfold rhe; simp

theorem rhe_neg (x : ℚ) : rhe (-x) = - rhe x := by
  by_cases hi : x = (⌊x⌋ : ℚ)
  · rw [hi, ← Int.cast_neg, rhe_intCast, rhe_intCast]
  · have h1 : (⌊x⌋ : ℚ) < x := lt_of_le_of_ne (Int.floor_le x) (Ne.symm hi)
    have h2 : x < ⌊x⌋ + 1 := Int.lt_floor_add_one x
    have hn : ⌊-x⌋ = -⌊x⌋ - 1 := by
      rw [Int.floor_eq_iff]; push_cast; constructor <;> linarith
    unfold rhe
    rw [hn]
    push_cast
    split_ifs <;> first | omega | (exfalso; linarith)

theorem abs_rhe_sub_le (x : ℚ) : |(rhe x : ℚ) - x| ≤ 1 / 2 := by
  have h1 := Int.floor_le x
  have h2 := Int.lt_floor_add_one x
  rw [abs_le]
  unfold rhe
  split_ifs <;> push_cast <;> constructor <;> linarith

theorem two_zpow_pos (e : ℤ) : (0 : ℚ) < 2 ^ e := zpow_pos (by norm_num) e

theorem ulpExp_neg (x : ℚ) : ulpExp (-x) = ulpExp x := by unfold ulpExp; rw [abs_neg]

theorem rne_neg (x : ℚ) : rne (-x) = - rne x := by
  unfold rne
  rw [ulpExp_neg, neg_div, rhe_neg]; push_cast; ring

@[simp] theorem rne_zero : rne 0 = 0 := by
  unfold rne
  have : rhe ((0:ℚ) / 2 ^ ulpExp 0) = 0 := by
    rw [zero_div]; exact_mod_cast rhe_intCast 0
  rw [this]; simp

theorem rne_nonneg {x : ℚ} (h : 0 ≤ x) : 0 ≤ rne x := by
  unfold rne
  have h1 : (0:ℚ) ≤ x / 2 ^ ulpExp x := div_nonneg h (two_zpow_pos _).le
  have h2 : rhe ((0:ℤ):ℚ) ≤ rhe (x / 2 ^ ulpExp x) := rhe_mono (by simpa using h1)
  rw [rhe_intCast] at h2
  exact mul_nonneg (by exact_mod_cast h2) (two_zpow_pos _).le

theorem ulpExp_mono {x y : ℚ} (h0 : 0 < x) (h : x ≤ y) : ulpExp x ≤ ulpExp y := by
  unfold ulpExp
  rw [abs_of_pos h0, abs_of_pos (lt_of_lt_of_le h0 h)]
  have := Int.log_mono_right (b := 2) h0 h
  omega

/-- A number that is an integral multiple of `2^e` with `e` at least its own ulp exponent is representable. -/
theorem rne_eq_self_of_mul {x : ℚ} (n : ℤ) (e : ℤ) (he : ulpExp x ≤ e) (hx : x = n * 2 ^ e) :
    rne x = x := by
  unfold rne
  have h2 : (2:ℚ) ^ ulpExp x ≠ 0 := (two_zpow_pos _).ne'
  have : x / 2 ^ ulpExp x = ((n * 2 ^ (e - ulpExp x).toNat : ℤ) : ℚ) := by
    rw [div_eq_iff h2]
    push_cast
    rw [← zpow_natCast, Int.toNat_of_nonneg (by omega), mul_assoc, ← zpow_add₀ (by norm_num)]
    rw [show e - ulpExp x + ulpExp x = e by ring]
    exact hx
  rw [this, rhe_intCast, ← this, div_mul_cancel₀ _ h2]

theorem rne_zpow {e : ℤ} (he : -149 ≤ e) : rne (2 ^ e) = 2 ^ e := by
  apply rne_eq_self_of_mul 1 e
  · unfold ulpExp
    rw [abs_of_pos (two_zpow_pos e)]
    have : Int.log 2 ((2:ℚ) ^ e) = e := by exact_mod_cast Int.log_zpow (R := ℚ) (b := 2) (by norm_num) e
    rw [this]; omega
  · simp

/-- If two numbers have the same ulp exponent rounding is monotone between them. -/
theorem rne_mono_same {x y : ℚ} (h : x ≤ y) (he : ulpExp x = ulpExp y) : rne x ≤ rne y := by
  unfold rne
  rw [he]
  have hp := two_zpow_pos (ulpExp y)
  have : rhe (x / 2 ^ ulpExp y) ≤ rhe (y / 2 ^ ulpExp y) := rhe_mono (by gcongr)
  have : ((rhe (x / 2 ^ ulpExp y) : ℤ) : ℚ) ≤ (rhe (y / 2 ^ ulpExp y) : ℤ) := by exact_mod_cast this
  exact mul_le_mul_of_nonneg_right this hp.le

theorem rne_mono_pos {x y : ℚ} (h0 : 0 < x) (h : x ≤ y) : rne x ≤ rne y := by
  rcases (ulpExp_mono h0 h).eq_or_lt with he | he
  · exact rne_mono_same h he
  · -- different binades: both sides of `2 ^ log y`
    have hy : 0 < y := lt_of_lt_of_le h0 h
    set k := Int.log 2 y with hk
    have hle : (2:ℚ) ^ k ≤ y := by
      have := Int.zpow_log_le_self (R := ℚ) (b := 2) (by norm_num) hy; exact_mod_cast this
    have hxk : x < 2 ^ (Int.log 2 x + 1) := by
      have := Int.lt_zpow_succ_log_self (R := ℚ) (b := 2) (by norm_num) x; exact_mod_cast this
    have hux : ulpExp x = max (Int.log 2 x - 23) (-149) := by unfold ulpExp; rw [abs_of_pos h0]
    have huy : ulpExp y = max (k - 23) (-149) := by unfold ulpExp; rw [abs_of_pos hy]
    have hlt : Int.log 2 x < k := by omega
    have hk149 : -126 < k := by omega
    have hup : x ≤ 2 ^ k := hxk.le.trans (zpow_le_zpow_right₀ (by norm_num) (by omega))
    have a : rne x ≤ 2 ^ k := by
      unfold rne
      have hd : x / 2 ^ ulpExp x ≤ (((2 ^ (k - ulpExp x).toNat : ℤ)) : ℚ) := by
        rw [div_le_iff₀ (two_zpow_pos _)]
        push_cast
        rw [← zpow_natCast, Int.toNat_of_nonneg (by omega), ← zpow_add₀ (by norm_num)]
        simpa using hup
      have h3 := rhe_mono hd
      rw [rhe_intCast] at h3
      have h4 : ((rhe (x / 2 ^ ulpExp x) : ℤ) : ℚ) ≤ ((2 ^ (k - ulpExp x).toNat : ℤ) : ℚ) := by
        exact_mod_cast h3
      refine (mul_le_mul_of_nonneg_right h4 (two_zpow_pos (ulpExp x)).le).trans ?_
      push_cast
      rw [← zpow_natCast, Int.toNat_of_nonneg (by omega), ← zpow_add₀ (by norm_num)]
      simp
    have b : (2:ℚ) ^ k ≤ rne y := by
      have h1 : rne (2 ^ k) = 2 ^ k := rne_zpow (by omega)
      rw [← h1]
      apply rne_mono_same hle
      unfold ulpExp
      rw [abs_of_pos (two_zpow_pos k), abs_of_pos hy, ← hk]
      have : Int.log 2 ((2:ℚ) ^ k) = k := by
        exact_mod_cast Int.log_zpow (R := ℚ) (b := 2) (by norm_num) k
      rw [this]
    exact a.trans b

/-- Rounding is monotone. -/
theorem rne_mono {x y : ℚ} (h : x ≤ y) : rne x ≤ rne y := by
  rcases lt_trichotomy 0 x with hx | hx | hx
  · exact rne_mono_pos hx h
  · subst hx; rw [rne_zero]; exact rne_nonneg h
  · rcases lt_trichotomy 0 y with hy | hy | hy
    · have h1 : rne x ≤ 0 := by
        have := rne_nonneg (x := -x) (by linarith)
        rw [rne_neg] at this; linarith
      exact h1.trans (rne_nonneg hy.le)
    · subst hy
      have := rne_nonneg (x := -x) (by linarith)
      rw [rne_neg] at this; rw [rne_zero]; linarith
    · have := rne_mono_pos (x := -y) (y := -x) (by linarith) (by linarith)
      rw [rne_neg, rne_neg] at this; linarith

/-- Every number `n * 2^e` with a significand of at most 24 bits and `e ≥ -149` is representable. -/
theorem rne_mul_zpow (n : ℤ) (e : ℤ) (h : |n| ≤ 2 ^ 24) (he : -149 ≤ e) :
    rne (n * 2 ^ e) = n * 2 ^ e := by
  rcases eq_or_ne n 0 with rfl | hn
  · simp
  by_cases h24 : |n| = 2 ^ 24
  · have hz : rne (2 ^ (24 + e)) = 2 ^ (24 + e) := rne_zpow (by omega)
    have hq : (2:ℚ) ^ (24 + e) = 2 ^ 24 * 2 ^ e := by
      rw [zpow_add₀ (by norm_num)]; norm_num
    rw [hq] at hz
    rcases abs_eq (by norm_num : (0:ℤ) ≤ 2 ^ 24) |>.mp h24 with h' | h'
    · have : (n : ℚ) = 2 ^ 24 := by rw [h']; norm_num
      rw [this]; exact hz
    · have : (n : ℚ) = - 2 ^ 24 := by rw [h']; norm_num
      rw [this, neg_mul, rne_neg, hz]
  apply rne_eq_self_of_mul n e _ rfl
  have hnq : (0:ℚ) < |(n:ℚ)| := abs_pos.mpr (by exact_mod_cast hn)
  have hpos : (0:ℚ) < |(n:ℚ) * 2 ^ e| := by
    rw [abs_mul, abs_of_pos (two_zpow_pos e)]; exact mul_pos hnq (two_zpow_pos e)
  have hlt : |(n:ℚ) * 2 ^ e| < (2:ℕ) ^ (24 + e) := by
    have : |n| < 2 ^ 24 := lt_of_le_of_ne h h24
    have h3 : ((|n| : ℤ) : ℚ) < 2 ^ 24 := by exact_mod_cast this
    rw [Int.cast_abs] at h3
    rw [abs_mul, abs_of_pos (two_zpow_pos e)]
    push_cast
    rw [zpow_add₀ (by norm_num)]
    have := mul_lt_mul_of_pos_right h3 (two_zpow_pos e)
    simpa using this
  have := (Int.lt_zpow_iff_log_lt (R := ℚ) (b := 2) (by norm_num) hpos).mp hlt
  unfold ulpExp
  omega

/-- Integers of at most 24 bits are representable. -/
theorem rne_intCast (n : ℤ) (h : |n| ≤ 2 ^ 24) : rne (n : ℚ) = n := by
  simpa using rne_mul_zpow n 0 h (by norm_num)

/-- Rounding twice is rounding once: `rne x` is representable. -/
theorem rne_idem (x : ℚ) : rne (rne x) = rne x := by
  have he : -149 ≤ ulpExp x := by unfold ulpExp; omega
  refine rne_mul_zpow _ _ ?_ he
  rcases eq_or_ne x 0 with rfl | hx
  · have : rhe ((0:ℚ) / 2 ^ ulpExp 0) = 0 := by
      rw [zero_div]; exact_mod_cast rhe_intCast 0
    rw [this]; norm_num
  have hub : |x| < 2 ^ (Int.log 2 |x| + 1) := by
    have := Int.lt_zpow_succ_log_self (R := ℚ) (b := 2) (by norm_num) |x|; exact_mod_cast this
  have hub' : |x| ≤ 2 ^ (ulpExp x + 24) :=
    hub.le.trans (zpow_le_zpow_right₀ (by norm_num) (by unfold ulpExp; omega))
  have hq : |x / 2 ^ ulpExp x| ≤ ((2 ^ 24 : ℤ) : ℚ) := by
    rw [abs_div, abs_of_pos (two_zpow_pos _), div_le_iff₀ (two_zpow_pos _)]
    refine hub'.trans ?_
    rw [zpow_add₀ (by norm_num), mul_comm]; norm_num
  rw [abs_le] at hq ⊢
  have a := rhe_mono hq.2
  have b := rhe_mono hq.1
  rw [rhe_intCast] at a
  rw [← Int.cast_neg, rhe_intCast] at b
  exact ⟨b, a⟩

theorem rne_natCast (n : ℕ) (h : n ≤ 2 ^ 24) : rne (n : ℚ) = n := by
  have := rne_intCast (n : ℤ) (by rw [abs_of_nonneg (by positivity)]; exact_mod_cast h)
  exact_mod_cast this

/-- The rounding error is at most half a unit in the last place. -/
theorem abs_rne_sub_le (x : ℚ) : |rne x - x| ≤ 2 ^ ulpExp x / 2 := by
  have h := abs_rhe_sub_le (x / 2 ^ ulpExp x)
  have hp := two_zpow_pos (ulpExp x)
  have : rne x - x = ((rhe (x / 2 ^ ulpExp x) : ℤ) - x / 2 ^ ulpExp x) * 2 ^ ulpExp x := by
    unfold rne; field_simp
  rw [this, abs_mul, abs_of_pos hp]
  calc _ ≤ 1 / 2 * 2 ^ ulpExp x := mul_le_mul_of_nonneg_right h hp.le
    _ = _ := by ring

/-- Relative error bound outside the subnormal range, absolute inside it. -/
theorem abs_rne_sub_le' (x : ℚ) : |rne x - x| ≤ |x| * 2 ^ (-24 : ℤ) + 2 ^ (-150 : ℤ) := by
  rcases eq_or_ne x 0 with rfl | hx
  · simp
  refine (abs_rne_sub_le x).trans ?_
  have hpos : 0 < |x| := abs_pos.mpr hx
  have hle : (2:ℚ) ^ Int.log 2 |x| ≤ |x| := by
    have := Int.zpow_log_le_self (R := ℚ) (b := 2) (by norm_num) hpos; exact_mod_cast this
  unfold ulpExp
  rcases max_choice (Int.log 2 |x| - 23) (-149) with h | h <;> rw [h]
  · have : (2:ℚ) ^ (Int.log 2 |x| - 23) / 2 = 2 ^ Int.log 2 |x| * 2 ^ (-24 : ℤ) := by
      rw [← zpow_add₀ (by norm_num), show Int.log 2 |x| + -24 = (Int.log 2 |x| - 23) - 1 by ring,
        zpow_sub_one₀ (by norm_num)]; rfl
    rw [this]
    have := mul_le_mul_of_nonneg_right hle (two_zpow_pos (-24)).le
    have := two_zpow_pos (-150)
    linarith
  · have : (2:ℚ) ^ (-149 : ℤ) / 2 = 2 ^ (-150 : ℤ) := by norm_num
    rw [this]
    have := mul_nonneg hpos.le (two_zpow_pos (-24)).le
    linarith

end Verif.Float
