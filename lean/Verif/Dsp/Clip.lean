import Verif.Float.F32
import Verif.Dsp.Blocks
import Mathlib.Tactic.Positivity
import Mathlib.Tactic.LinearCombination
/-!
# Clipping and limiting

Models `surge-math/src/{hardclip,limit_range,saturate,clamp,softclip}.rs`.  Hard clipping and limiting use the `F32`
model (NaN, infinities and all); the soft clippers are in exact arithmetic over any ordered field, `softclip_ps` also
with rounding.
-/
namespace Verif.Dsp
open Verif.Float

/-- SSE `minss`/`minps` (Intel): `a < b ? a : b`, so the second operand if either is NaN. -/
def minSs (a b : F32) : F32 := if F32.lt a b then a else b
/-- SSE `maxss`/`maxps` (Intel): `a > b ? a : b`. -/
def maxSs (a b : F32) : F32 := if F32.lt b a then a else b

/-- hardclip.rs 3-21 `hardclip_ss`, `hardclip_ps` (a lane); saturate.rs 3-16 `saturate`; hardclip.rs 44-49 (a lane of
`hardclip_block`). -/
def hardclip (x : F32) : F32 := maxSs (minSs x (.fin 1)) (.fin (-1))
/-- hardclip.rs 73-85, a lane of `hardclip_block8`. -/
def hardclip8 (x : F32) : F32 := maxSs (minSs x (.fin 8)) (.fin (-8))
/-- limit_range.rs 28-44 `limit_range` for `f32`: the maximum first. -/
def limitRange (x lo hi : F32) : F32 := minSs (maxSs x lo) hi
/-- clamp.rs 18-20 `clamp01`. -/
def clamp01f (x : F32) : F32 := limitRange x (.fin 0) (.fin 1)
/-- clamp.rs 33-35 `clamp1_bipolar`. -/
def clamp1bip (x : F32) : F32 := limitRange x (.fin (-1)) (.fin 1)
/-- limit_range.rs 50-63 `limit_range` for `i32` and `u32`. -/
def limitRangeI (x l h : Int) : Int := max (min x h) l
/-- saturate.rs 18-27 `boundfreq`. -/
def boundfreq (f : F32) : F32 :=
  let f := if F32.lt (.fin 75) f then .fin 75 else f
  if F32.lt f (.fin (-55)) then .fin (-55) else f

/-! ## Specification -/

/-- A finite number in `[lo, hi]`. -/
def Spec.In (lo hi : ℚ) (x : F32) : Prop := ∃ q, x = .fin q ∧ lo ≤ q ∧ q ≤ hi

/-- What clamping means on numbers: the nearest point of the interval. -/
def Spec.clamp (lo hi q : ℚ) : ℚ := if q < lo then lo else if hi < q then hi else q

/-! ## C61: hard limits -/

theorem hardclipAt (b : ℚ) (hb : 0 < b) (x : F32) :
    (∀ q, x = .fin q → maxSs (minSs x (.fin b)) (.fin (-b)) = .fin (Spec.clamp (-b) b q)) ∧
    (x = .pinf → maxSs (minSs x (.fin b)) (.fin (-b)) = .fin b) ∧
    (x = .ninf → maxSs (minSs x (.fin b)) (.fin (-b)) = .fin (-b)) ∧
    (x = .nan → maxSs (minSs x (.fin b)) (.fin (-b)) = .fin b) := by
  have h2 : -b < b := by linarith
  have h3 : ¬ b < -b := by linarith
  refine ⟨?_, ?_, ?_, ?_⟩
  · rintro q rfl
    simp only [minSs, F32.lt]
    by_cases h : q < b
    · simp only [h, decide_true, if_true, maxSs, F32.lt, Spec.clamp]
      by_cases h1 : -b < q
      · simp [h1, not_lt.mpr h.le, not_lt.mpr h1.le]
      · rcases lt_or_eq_of_le (not_lt.mp h1) with h4 | h4
        · simp [h1, h4]
        · simp [h4, h3]
    · have h' : b ≤ q := not_lt.mp h
      have hq : ¬ q < -b := by linarith
      rcases lt_or_eq_of_le h' with h4 | h4
      · simp [h, maxSs, F32.lt, h2, Spec.clamp, hq, h4]
      · subst h4
        simp [maxSs, F32.lt, h2, Spec.clamp, hq]
  · rintro rfl; simp [minSs, F32.lt, maxSs, h2]
  · rintro rfl; simp [minSs, F32.lt, maxSs]
  · rintro rfl; simp [minSs, F32.lt, maxSs, h2]

theorem hardclipAt_in (b : ℚ) (hb : 0 < b) (x : F32) : Spec.In (-b) b (maxSs (minSs x (.fin b)) (.fin (-b))) := by
  obtain ⟨h1, h2, h3, h4⟩ := hardclipAt b hb x
  cases x with
  | nan => exact ⟨b, h4 rfl, by linarith, le_refl _⟩
  | pinf => exact ⟨b, h2 rfl, by linarith, le_refl _⟩
  | ninf => exact ⟨-b, h3 rfl, le_refl _, by linarith⟩
  | fin q =>
    refine ⟨_, h1 q rfl, ?_, ?_⟩ <;> unfold Spec.clamp <;> split_ifs <;> linarith

/-- C61. Whatever bit pattern comes in - also NaN and infinities - the hard clippers deliver a finite number within
their limits, and a number already within the limits is not changed. -/
theorem C61_hardclip (x : F32) :
    Spec.In (-1) 1 (hardclip x) ∧ Spec.In (-8) 8 (hardclip8 x) ∧
    (∀ q, x = .fin q → hardclip x = .fin (Spec.clamp (-1) 1 q) ∧ hardclip8 x = .fin (Spec.clamp (-8) 8 q)) ∧
    (Spec.In (-1) 1 x → hardclip x = x) ∧ (Spec.In (-8) 8 x → hardclip8 x = x) := by
  refine ⟨hardclipAt_in 1 (by norm_num) x, hardclipAt_in 8 (by norm_num) x,
    fun q hq => ⟨(hardclipAt 1 (by norm_num) x).1 q hq, (hardclipAt 8 (by norm_num) x).1 q hq⟩, ?_, ?_⟩
  · rintro ⟨q, rfl, h1, h2⟩
    rw [show hardclip (.fin q) = .fin (Spec.clamp (-1) 1 q) from (hardclipAt 1 (by norm_num) _).1 q rfl]
    simp [Spec.clamp, not_lt.mpr h1, not_lt.mpr h2]
  · rintro ⟨q, rfl, h1, h2⟩
    rw [show hardclip8 (.fin q) = .fin (Spec.clamp (-8) 8 q) from (hardclipAt 8 (by norm_num) _).1 q rfl]
    simp [Spec.clamp, not_lt.mpr h1, not_lt.mpr h2]

/-- C61. After `hardclip_block8` over an even number of quads (as in the synthesizer's output stage, 8 quads) every
sample of the block is within [-8, 8], and the samples behind it are untouched. -/
theorem C61_hardclip_block (n : Nat) (hn : n % 2 = 0) (mem : Nat → F32) (s : Nat) :
    (s < n * 4 → Spec.In (-8) 8 (clipBlock hardclip8 n mem s)) ∧ (n * 4 ≤ s → clipBlock hardclip8 n mem s = mem s) := by
  have h := (C58_unrolled_partial n mem).2.2.1 hn hardclip8 s
  exact ⟨fun hs => by rw [h.1 hs]; exact (C61_hardclip _).2.1, h.2⟩

/-- C61. `limit_range` delivers a number in the range for every input, NaN included (NaN becomes the lower limit), and is
the nearest point of the range. -/
theorem C61_limit_range (x : F32) {lo hi : ℚ} (h : lo ≤ hi) :
    Spec.In lo hi (limitRange x (.fin lo) (.fin hi)) ∧
    (∀ q, x = .fin q → limitRange x (.fin lo) (.fin hi) = .fin (Spec.clamp lo hi q)) ∧
    limitRange .nan (.fin lo) (.fin hi) = .fin lo := by
  have hfin : ∀ q, limitRange (.fin q) (.fin lo) (.fin hi) = .fin (Spec.clamp lo hi q) := by
    intro q
    simp only [limitRange, maxSs, F32.lt]
    by_cases h1 : lo < q
    · simp only [h1, decide_true, if_true, minSs, F32.lt, Spec.clamp]
      rcases lt_trichotomy q hi with h2 | h2 | h2
      · simp [h2, not_lt.mpr h1.le, not_lt.mpr h2.le]
      · subst h2; simp [not_lt.mpr h1.le]
      · simp [not_lt.mpr h2.le, not_lt.mpr h1.le, h2]
    · have h1' := not_lt.mp h1
      simp only [h1, decide_false, Bool.false_eq_true, if_false, minSs, F32.lt, Spec.clamp]
      rcases lt_or_eq_of_le h with h2 | h2
      · rcases lt_or_eq_of_le h1' with h3 | h3
        · simp [h2, h3]
        · subst h3; simp [h2, not_lt.mpr h2.le]
      · subst h2
        rcases lt_or_eq_of_le h1' with h3 | h3
        · simp [h3]
        · subst h3; simp
  have hnan : limitRange .nan (.fin lo) (.fin hi) = .fin lo := by
    simp only [limitRange, maxSs, F32.lt, minSs, Bool.false_eq_true, if_false]
    rcases lt_or_eq_of_le h with h2 | h2
    · simp [h2]
    · simp [h2]
  refine ⟨?_, fun q hq => by rw [hq, hfin], hnan⟩
  cases x with
  | nan => exact ⟨lo, hnan, le_refl _, h⟩
  | pinf => exact ⟨hi, by simp [limitRange, maxSs, F32.lt, minSs], h, le_refl _⟩
  | ninf =>
    refine ⟨lo, ?_, le_refl _, h⟩
    rcases lt_or_eq_of_le h with h2 | h2
    · simp [limitRange, maxSs, F32.lt, minSs, h2]
    · simp [limitRange, maxSs, F32.lt, minSs, h2]
  | fin q =>
    refine ⟨_, hfin q, ?_, ?_⟩ <;> unfold Spec.clamp <;> split_ifs <;> linarith

/-- C61. The two normalising clamps, for every input. -/
theorem C61_clamp01 (x : F32) : Spec.In 0 1 (clamp01f x) ∧ Spec.In (-1) 1 (clamp1bip x) :=
  ⟨(C61_limit_range x (by norm_num)).1, (C61_limit_range x (by norm_num)).1⟩

/-- C61. Integer `limit_range`: nearest point of the range; with crossed limits (`h < l`) always the lower limit. -/
theorem C61_limit_range_int (x l h : Int) :
    (l ≤ h → l ≤ limitRangeI x l h ∧ limitRangeI x l h ≤ h ∧ (l ≤ x → x ≤ h → limitRangeI x l h = x) ∧
      (x < l → limitRangeI x l h = l) ∧ (h < x → limitRangeI x l h = h)) ∧
    (h < l → limitRangeI x l h = l) := by
  unfold limitRangeI
  constructor
  · intro hl
    refine ⟨le_max_right _ _, ?_, ?_, ?_, ?_⟩
    · omega
    · intro h1 h2; omega
    · intro h1; omega
    · intro h1; omega
  · intro hl; omega

/-- C61. `boundfreq` keeps numbers within [-55, 75] and lets NaN through. -/
theorem C61_boundfreq (x : F32) : (x ≠ .nan → Spec.In (-55) 75 (boundfreq x)) ∧ boundfreq .nan = .nan := by
  refine ⟨fun hx => ?_, by simp [boundfreq, F32.lt]⟩
  cases x with
  | nan => exact absurd rfl hx
  | pinf => exact ⟨75, by norm_num [boundfreq, F32.lt], by norm_num, by norm_num⟩
  | ninf => exact ⟨-55, by norm_num [boundfreq, F32.lt], by norm_num, by norm_num⟩
  | fin q =>
    unfold boundfreq
    by_cases h : 75 < q
    · exact ⟨75, by norm_num [F32.lt, h], by norm_num, by norm_num⟩
    · by_cases h1 : q < -55
      · exact ⟨-55, by simp [F32.lt, h, h1], by norm_num, by norm_num⟩
      · exact ⟨q, by simp [F32.lt, h, h1], not_lt.mp h1, not_lt.mp h⟩

example : hardclip (.fin 3) = .fin 1 ∧ hardclip .nan = .fin 1 ∧ hardclip8 .ninf = .fin (-8) ∧
    clamp01f (.fin (1 / 4)) = .fin (1 / 4) := by
  refine ⟨?_, ?_, ?_, ?_⟩ <;> norm_num [hardclip, hardclip8, clamp01f, limitRange, minSs, maxSs, F32.lt]

/-! ## C62: soft clippers (exact arithmetic) -/

section Soft
variable {K : Type} [Field K] [LinearOrder K] [IsStrictOrderedRing K]

/-- softclip.rs 6-38 (a lane of) `softclip_ss`, `softclip_ps`, `softclip_block`: clamp to ±1.5, then x - 4/27 x³. -/
def softclip (x : K) : K :=
  let x := max (min x (3 / 2)) (-(3 / 2))
  let xx := x * x
  let t := x * (-4 / 27)
  let t := t * xx
  t + x
/-- softclip.rs 40-48 `softclip_f64` and its three wider copies 50-84: limit `m`, coefficient `c`. -/
def softclipAt (c m x : K) : K :=
  let x := if -m < x then x else -m
  let x := if x < m then x else m
  let ax := c * x
  let xx := x * x
  x - ax * xx
/-- softclip.rs 40-48 `softclip_f64`. -/
def softclipD (x : K) : K := softclipAt (4 / 27) (3 / 2) x
/-- softclip.rs 72-84 `softclip2_f64`: the literal 0.18518518518518517. -/
def softclip2 (x : K) : K := softclipAt (18518518518518517 / 100000000000000000) 3 x
/-- softclip.rs 50-57 `softclip4_f64`: the literal 0.0023148148148. -/
def softclip4 (x : K) : K := softclipAt (23148148148 / 10000000000000) 6 x
/-- softclip.rs 59-66 `softclip8_f64`: the literal 0.00028935185185. -/
def softclip8 (x : K) : K := softclipAt (28935185185 / 100000000000000) 12 x

/-- `x - c x³` is non-decreasing on `[-m, m]` if `3 c m² ≤ 1`. -/
theorem cubic_mono {c m x y : K} (hc : 0 ≤ c) (hm : 3 * c * m ^ 2 ≤ 1) (hx : -m ≤ x) (hxy : x ≤ y) (hy : y ≤ m) :
    x - c * x ^ 3 ≤ y - c * y ^ 3 := by
  have hx' : x ≤ m := hxy.trans hy
  have hy' : -m ≤ y := hx.trans hxy
  have x2 : x ^ 2 ≤ m ^ 2 := by nlinarith
  have y2 : y ^ 2 ≤ m ^ 2 := by nlinarith
  have xy : x * y ≤ m ^ 2 := by nlinarith [sq_nonneg (x - y)]
  have hs : x ^ 2 + x * y + y ^ 2 ≤ 3 * m ^ 2 := by linarith
  have h1 : c * (x ^ 2 + x * y + y ^ 2) ≤ 1 := by
    calc c * (x ^ 2 + x * y + y ^ 2) ≤ c * (3 * m ^ 2) := mul_le_mul_of_nonneg_left hs hc
      _ = 3 * c * m ^ 2 := by ring
      _ ≤ 1 := hm
  have h2 : 0 ≤ (y - x) * (1 - c * (x ^ 2 + x * y + y ^ 2)) := mul_nonneg (by linarith) (by linarith)
  nlinarith [h2]

/-- The clamp used by the `f64` versions. -/
theorem softclipAt_eq (c m x : K) (hm : 0 < m) :
    ∃ z, -m ≤ z ∧ z ≤ m ∧ softclipAt c m x = z - c * z ^ 3 ∧ (-m ≤ x → x ≤ m → z = x) ∧ (m ≤ x → z = m) ∧
      (x ≤ -m → z = -m) := by
  unfold softclipAt
  by_cases h1 : -m < x
  · by_cases h2 : x < m
    · refine ⟨x, h1.le, h2.le, ?_, fun _ _ => rfl, fun h => absurd h2 (not_lt.mpr h), fun h => absurd h1 (not_lt.mpr h)⟩
      simp only [h1, h2, if_true]; ring
    · have h2' := not_lt.mp h2
      refine ⟨m, by linarith, le_refl _, ?_, fun _ h => le_antisymm h2' h, fun _ => rfl, fun h => absurd h1 (not_lt.mpr h)⟩
      simp only [h1, h2, if_true, if_false]; ring
  · have h1' := not_lt.mp h1
    have h3 : -m < m := by linarith
    refine ⟨-m, le_refl _, h3.le, ?_, fun h _ => le_antisymm h h1', fun h => by linarith, fun _ => rfl⟩
    simp only [h1, h3, if_true, if_false]; ring

theorem clamp_mono {m x y : K} (_ : 0 < m) (h : x ≤ y) :
    (max (min x m) (-m)) ≤ max (min y m) (-m) := max_le_max (min_le_min_right m h) (le_refl _)

theorem softclipAt_clamp (c m x : K) (hm : 0 < m) :
    softclipAt c m x = (max (min x m) (-m)) - c * (max (min x m) (-m)) ^ 3 := by
  obtain ⟨z, h1, h2, h3, h4, h5, h6⟩ := softclipAt_eq c m x hm
  have : z = max (min x m) (-m) := by
    rcases le_total m x with h | h
    · rw [h5 h, min_eq_right h, max_eq_left (by linarith)]
    · rcases le_total x (-m) with h' | h'
      · rw [h6 h', min_eq_left h, max_eq_right h']
      · rw [h4 h' h, min_eq_left h, max_eq_left h']
  rw [h3, this]

theorem softclip_eq (x : K) : softclip x = softclipAt (4 / 27) (3 / 2) x := by
  rw [softclipAt_clamp _ _ _ (by norm_num)]
  simp only [softclip]; ring

/-- Monotone, odd and bounded by the value at the limit: what C62 says of one clipper. -/
structure Spec.SoftClipper (f : K → K) (limit top : K) : Prop where
  mono : ∀ x y, x ≤ y → f x ≤ f y
  odd : ∀ x, f (-x) = -f x
  bound : ∀ x, |f x| ≤ top
  reached : ∀ x, limit ≤ x → f x = top

theorem softclipAt_spec {c m : K} (hc : 0 ≤ c) (hm : 0 < m) (h : 3 * c * m ^ 2 ≤ 1) :
    Spec.SoftClipper (softclipAt c m) m (m - c * m ^ 3) := by
  have mono : ∀ x y, x ≤ y → softclipAt c m x ≤ softclipAt c m y := by
    intro x y hxy
    rw [softclipAt_clamp _ _ _ hm, softclipAt_clamp _ _ _ hm]
    exact cubic_mono hc h (le_max_right _ _) (clamp_mono hm hxy) (max_le (min_le_right _ _) (by linarith))
  have odd : ∀ x, softclipAt c m (-x) = -softclipAt c m x := by
    intro x
    rw [softclipAt_clamp _ _ _ hm, softclipAt_clamp _ _ _ hm]
    have : max (min (-x) m) (-m) = -max (min x m) (-m) := by
      rcases le_total m x with h | h
      · rw [min_eq_right h, max_eq_left (by linarith : -m ≤ m), min_eq_left (by linarith), max_eq_right (by linarith)]
      · rcases le_total x (-m) with h' | h'
        · rw [min_eq_left h, max_eq_right h', min_eq_right (by linarith), max_eq_left (by linarith), neg_neg]
        · rw [min_eq_left h, max_eq_left h', min_eq_left (by linarith), max_eq_left (by linarith)]
    rw [this]; ring
  have top : ∀ x, m ≤ x → softclipAt c m x = m - c * m ^ 3 := by
    intro x hx
    rw [softclipAt_clamp _ _ _ hm, min_eq_right hx, max_eq_left (by linarith)]
  refine ⟨mono, odd, fun x => ?_, top⟩
  rw [abs_le]
  constructor
  · have h1 := mono (min x (-m)) x (min_le_left _ _)
    have h2 := odd (-(min x (-m)))
    rw [neg_neg, top (-(min x (-m))) (by have := min_le_right x (-m); linarith)] at h2
    linarith
  · have h1 := mono x (max x m) (le_max_left _ _)
    rw [top _ (le_max_right _ _)] at h1
    exact h1

/-- C62. `softclip` (all SSE versions and `softclip_f64`) is non-decreasing, odd, and never exceeds ±1, which it reaches
from ±1.5 on; the wider `softclip4` and `softclip8` are non-decreasing, odd and bounded too. -/
theorem C62_softclip_partial :
    Spec.SoftClipper (softclip : K → K) (3 / 2) 1 ∧ Spec.SoftClipper (softclipD : K → K) (3 / 2) 1 ∧
    (∃ t : K, t ≤ 551 / 100 ∧ Spec.SoftClipper softclip4 6 t) ∧ (∃ t : K, t ≤ 1151 / 100 ∧ Spec.SoftClipper softclip8 12 t) := by
  have h := softclipAt_spec (K := K) (c := 4 / 27) (m := 3 / 2) (by norm_num) (by norm_num) (by norm_num)
  rw [show (3 / 2 : K) - 4 / 27 * (3 / 2) ^ 3 = 1 by norm_num] at h
  refine ⟨?_, h, ⟨6 - 23148148148 / 10000000000000 * 6 ^ 3, by norm_num, ?_⟩,
    ⟨12 - 28935185185 / 100000000000000 * 12 ^ 3, by norm_num, ?_⟩⟩
  · have e : (softclip : K → K) = softclipAt (4 / 27) (3 / 2) := funext softclip_eq
    rw [e]; exact h
  · exact softclipAt_spec (by norm_num) (by norm_num) (by norm_num)
  · exact softclipAt_spec (by norm_num) (by norm_num) (by norm_num)

/-- C62 is false of the code for `softclip2_f64`: its coefficient is five times too large, so it turns over and comes out
negative: full-scale input 3 gives less than -1.99, while input 1.3 gives more than 0.89. -/
theorem C62_softclip2_folds_over : (softclip2 (3 : K)) < -199 / 100 ∧ 89 / 100 < softclip2 (13 / 10 : K) := by
  unfold softclip2
  rw [softclipAt_clamp _ _ _ (by norm_num), softclipAt_clamp _ _ _ (by norm_num)]
  have e1 : max (min (3 : K) 3) (-3) = 3 := by rw [min_self, max_eq_left (by norm_num)]
  have e2 : max (min (13 / 10 : K) 3) (-3) = 13 / 10 := by rw [min_eq_left (by norm_num), max_eq_left (by norm_num)]
  rw [e1, e2]
  constructor <;> norm_num

/-- C62 is false of the code: the wider clippers do not limit to their nominal 4 and 8: they let 5.49 and 11.49 through. -/
theorem C62_wide_clippers_exceed : 549 / 100 < softclip4 (6 : K) ∧ 1149 / 100 < softclip8 (12 : K) := by
  unfold softclip4 softclip8
  rw [softclipAt_clamp _ _ _ (by norm_num), softclipAt_clamp _ _ _ (by norm_num)]
  have e1 : max (min (6 : K) 6) (-6) = 6 := by rw [min_self, max_eq_left (by norm_num)]
  have e2 : max (min (12 : K) 12) (-12) = 12 := by rw [min_self, max_eq_left (by norm_num)]
  rw [e1, e2]
  constructor <;> norm_num

example : softclip (1 : ℚ) = 23 / 27 := by norm_num [softclip]

end Soft

end Verif.Dsp
