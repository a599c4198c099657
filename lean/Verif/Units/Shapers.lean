import Verif.Tables.Model
import Mathlib.Analysis.SpecialFunctions.Artanh
import Mathlib.Analysis.SpecialFunctions.Trigonometric.DerivHyp
import Mathlib.Analysis.Calculus.Deriv.MeanValue
import Mathlib.Tactic.Ring
import Mathlib.Tactic.Linarith
import Mathlib.Tactic.FieldSimp
import Mathlib.Tactic.Positivity
/-!
# The wave shapers (C118, C119)

`surgeshaper-clip`, `-tanh`, `-digi`, `-sine` and `-asym`: one lane, exact real arithmetic except for the hardware's approximate reciprocal,
which is any function with a given relative error, and its rounding to an integer, which is any nearest integer (simplification: arguments
beyond `2^31` are not modelled).
-/
namespace Verif.Units

/-- surge-filter/src/filter_traits.rs 28-33, `clip_bipolar`. -/
noncomputable def clipBipolar (y : ℝ) : ℝ := max (min y 1) (-1)

/-- `_mm_rcp_ps` (Intel: relative error at most `1.5 * 2^-12`). -/
def Spec.Reciprocal (ε : ℝ) (rcp : ℝ → ℝ) : Prop := ∀ d, d ≠ 0 → |rcp d * d - 1| ≤ ε

/-- `_mm_cvtps_epi32`: a nearest integer. -/
def Spec.Nearest (cvt : ℝ → ℤ) : Prop := ∀ x, |(cvt x : ℝ) - x| ≤ 1 / 2

/-- surgeshaper-clip/src/clipper.rs 8-13. -/
noncomputable def shapeClip (x drive : ℝ) : ℝ := clipBipolar (x * drive)

/-- surgeshaper-tanh/src/tanh.rs, `shape` (the comments around it left out). -/
noncomputable def shapeTanh (rcp : ℝ → ℝ) (input drive : ℝ) : ℝ :=
  let x := input * drive
  let xx := x * x
  let denom := 27 + 9 * xx
  let y := x * (27 + xx) * rcp denom
  clipBipolar y

/-- surgeshaper-digi/src/digi.rs 10-36 (x86-64). -/
noncomputable def shapeDigi (rcp : ℝ → ℝ) (cvt : ℝ → ℤ) (input drive : ℝ) : ℝ :=
  let a := cvt (0.5 + rcp drive * (16 * input))
  drive * (0.0625 * (a - 0.5))

/-- `_mm_packs_epi32` followed by the sign extension of a 16-bit lane: saturation to 16 bits. -/
def packs (e : ℤ) : ℤ := max (-2 ^ 15) (min (2 ^ 15 - 1) e)

/-- surgeshaper-sine/src/sse2.rs 4-66; `tab` is the memory of the shaper tables. -/
noncomputable def shapeSine (cvt : ℝ → ℤ) (tab : ℕ → ℤ → ℝ) (input drive : ℝ) : Res Empty ℝ := do
  let x := input * drive * 256 + 512
  let e := cvt x
  let a := x - e
  let p ← Tables.waveshaperPtr 3 (packs e)
  let q ← Tables.waveshaperPtr 3 (packs e + 1)
  pure ((1 - a) * tab p.1 p.2 + a * tab q.1 q.2)

/-- surgeshaper-asym/src/sse2.rs 4-66. -/
noncomputable def shapeAsym (cvt : ℝ → ℤ) (tab : ℕ → ℤ → ℝ) (input drive : ℝ) : Res Empty ℝ := do
  let x := input * drive * 32 + 512
  let e := cvt x
  let a := x - e
  let e := max (min (packs e) 0x3fe) 0
  let p ← Tables.waveshaperPtr 2 e
  let q ← Tables.waveshaperPtr 2 (e + 1)
  pure ((1 - a) * tab p.1 p.2 + a * tab q.1 q.2)

/-! ## Clip and tanh -/

theorem clip_mem (y : ℝ) : -1 ≤ clipBipolar y ∧ clipBipolar y ≤ 1 := ⟨le_max_right _ _, max_le (min_le_right _ _) (by norm_num)⟩

theorem clip_id {y : ℝ} (h : |y| ≤ 1) : clipBipolar y = y := by
  rw [abs_le] at h
  rw [clipBipolar, min_eq_left h.2, max_eq_left h.1]

theorem clip_mono {x y : ℝ} (h : x ≤ y) : clipBipolar x ≤ clipBipolar y := max_le_max (min_le_min h le_rfl) le_rfl

theorem clip_odd (y : ℝ) : clipBipolar (-y) = -clipBipolar y := by
  unfold clipBipolar
  rcases le_total y 1 with h1 | h1 <;> rcases le_total (-1) y with h2 | h2
  · rw [min_eq_left (by linarith), max_eq_left (by linarith), min_eq_left h1, max_eq_left h2]
  · rw [min_eq_right (by linarith), max_eq_left (by norm_num), min_eq_left h1, max_eq_right h2, neg_neg]
  · rw [min_eq_left (by linarith), max_eq_right (by linarith), min_eq_right h1, max_eq_left (by norm_num)]
  · linarith

/-- The clipped value of a slightly wrong argument. -/
theorem clip_rel {y δ ε : ℝ} (h : |δ| ≤ ε) (h1 : ε ≤ 1) : |clipBipolar (y * (1 + δ)) - clipBipolar y| ≤ ε := by
  have key : ∀ y : ℝ, 0 ≤ y → |clipBipolar (y * (1 + δ)) - clipBipolar y| ≤ ε := by
    intro y hy
    rw [abs_le] at h
    have p : 0 ≤ y * (1 + δ) := mul_nonneg hy (by linarith [h.1])
    have c : ∀ z : ℝ, 0 ≤ z → clipBipolar z = min z 1 := fun z hz => max_eq_left (le_min (by linarith) (by norm_num))
    rw [c _ p, c _ hy, abs_le]
    rcases le_total y 1 with a | a
    · rw [min_eq_left a]
      rcases le_total (y * (1 + δ)) 1 with b | b
      · rw [min_eq_left b]; constructor <;> nlinarith [h.1, h.2]
      · rw [min_eq_right b]; constructor <;> nlinarith [h.1, h.2]
    · rw [min_eq_right a]
      rcases le_total (y * (1 + δ)) 1 with b | b
      · rw [min_eq_left b]; constructor <;> nlinarith [h.1, h.2]
      · rw [min_eq_right b]; constructor <;> linarith [h.1, h.2]
  rcases le_total 0 y with hy | hy
  · exact key y hy
  · have := key (-y) (by linarith)
    rw [neg_mul, clip_odd, clip_odd, ← neg_sub', abs_neg] at this
    simpa [sub_neg_eq_add, add_comm, abs_sub_comm] using this

/-- The curve of the tanh shaper with a perfect reciprocal. -/
noncomputable def curve (x : ℝ) : ℝ := clipBipolar (x * (27 + x * x) / (27 + 9 * (x * x)))

theorem tanh_three (u : ℝ) : Real.tanh (3 * u) = 3 * Real.tanh u * (27 + 3 * Real.tanh u * (3 * Real.tanh u)) / (27 + 9 * (3 * Real.tanh u * (3 * Real.tanh u))) := by
  have hc := Real.cosh_pos u
  have hs := Real.cosh_sq u
  rw [Real.tanh_eq_sinh_div_cosh, Real.tanh_eq_sinh_div_cosh, Real.sinh_three_mul, Real.cosh_three_mul]
  have h3 : 4 * Real.cosh u ^ 3 - 3 * Real.cosh u ≠ 0 := by
    have : 4 * Real.cosh u ^ 3 - 3 * Real.cosh u = Real.cosh u * (1 + 4 * Real.sinh u ^ 2) := by nlinarith
    rw [this]; positivity
  rw [div_eq_div_iff h3 (by nlinarith [mul_self_nonneg (3 * (Real.sinh u / Real.cosh u))])]
  field_simp
  have e : Real.cosh u ^ 2 = Real.sinh u ^ 2 + 1 := hs
  linear_combination (-324 * Real.sinh u * (Real.sinh u ^ 2 + Real.cosh u ^ 2)) * e

theorem tanh_le_self {u : ℝ} (hu : 0 ≤ u) : Real.tanh u ≤ u := by
  have hm : MonotoneOn (fun u : ℝ => u * Real.cosh u - Real.sinh u) (Set.Ici 0) := by
    refine monotoneOn_of_deriv_nonneg (convex_Ici 0) (by fun_prop) (by fun_prop) fun x hx => ?_
    rw [interior_Ici, Set.mem_Ioi] at hx
    have d : HasDerivAt (fun u : ℝ => u * Real.cosh u - Real.sinh u) (1 * Real.cosh x + x * Real.sinh x - Real.cosh x) x :=
      ((hasDerivAt_id x).mul (Real.hasDerivAt_cosh x)).sub (Real.hasDerivAt_sinh x)
    rw [d.deriv]
    have := Real.sinh_nonneg_iff.2 hx.le
    nlinarith [mul_nonneg hx.le this]
  have := hm (Set.mem_Ici.2 le_rfl) (Set.mem_Ici.2 hu) hu
  simp only [zero_mul, Real.sinh_zero, sub_zero] at this
  rw [Real.tanh_eq_sinh_div_cosh, div_le_iff₀ (Real.cosh_pos u)]
  linarith

theorem tanh_mono {x y : ℝ} (h : x ≤ y) : Real.tanh x ≤ Real.tanh y := by
  rw [Real.tanh_eq_sinh_div_cosh, Real.tanh_eq_sinh_div_cosh, div_le_div_iff₀ (Real.cosh_pos _) (Real.cosh_pos _)]
  have := Real.sinh_nonneg_iff.2 (sub_nonneg.2 h)
  rw [Real.sinh_sub] at this
  linarith

theorem tanh_abs (u : ℝ) : |Real.tanh u| ≤ 1 := by
  rw [Real.tanh_eq_sinh_div_cosh, abs_div, abs_of_pos (Real.cosh_pos u), div_le_one (Real.cosh_pos u), abs_le]
  constructor
  · have := Real.cosh_add_sinh u; have := Real.exp_pos u; linarith
  · exact (Real.sinh_lt_cosh u).le

theorem raw_sub_one (x : ℝ) : x * (27 + x * x) / (27 + 9 * (x * x)) = 1 + (x - 3) ^ 3 / (27 + 9 * (x * x)) := by
  have : 27 + 9 * (x * x) ≠ 0 := by nlinarith [mul_self_nonneg x]
  field_simp; ring

theorem raw_odd (x : ℝ) : -x * (27 + -x * -x) / (27 + 9 * (-x * -x)) = -(x * (27 + x * x) / (27 + 9 * (x * x))) := by
  rw [neg_mul_neg]; ring

theorem curve_odd (x : ℝ) : curve (-x) = -curve x := by rw [curve, raw_odd, clip_odd]; rfl

theorem curve_ge_three {x : ℝ} (h : 3 ≤ x) : curve x = 1 := by
  rw [curve, raw_sub_one, clipBipolar, min_eq_right, max_eq_left (by norm_num)]
  have : 0 ≤ (x - 3) ^ 3 / (27 + 9 * (x * x)) := div_nonneg (pow_nonneg (by linarith) 3) (by nlinarith)
  linarith

theorem curve_tanh (u : ℝ) : curve (3 * Real.tanh u) = Real.tanh (3 * u) := by
  rw [tanh_three, curve, clip_id]
  rw [← tanh_three]; exact tanh_abs _

/-- Every number below three in size is three times a hyperbolic tangent. -/
theorem exists_tanh {x : ℝ} (h : |x| < 3) : ∃ u, x = 3 * Real.tanh u := by
  rw [abs_lt] at h
  refine ⟨Real.artanh (x / 3), ?_⟩
  rw [Real.tanh_artanh ⟨by linarith, by linarith⟩]; ring

theorem curve_mono : Monotone curve := by
  intro x y h
  by_cases hx : x ≤ -3
  · have : curve x = -1 := by rw [← neg_neg x, curve_odd, curve_ge_three (by linarith)]
    rw [this]; exact (clip_mem _).1
  by_cases hy : 3 ≤ y
  · rw [curve_ge_three hy]; exact (clip_mem _).2
  push Not at hx hy
  obtain ⟨u, rfl⟩ := exists_tanh (abs_lt.2 ⟨hx, by linarith⟩)
  obtain ⟨v, rfl⟩ := exists_tanh (abs_lt.2 ⟨by linarith, hy⟩)
  rw [curve_tanh, curve_tanh]
  apply tanh_mono
  by_contra hc
  push Not at hc
  have h1 := tanh_mono (show v ≤ u by linarith)
  have : Real.tanh u = Real.tanh v := le_antisymm (by linarith) h1
  have := Real.tanh_injective this
  linarith

/-- **C118.**  The tanh shaper, with any reciprocal of relative error at most `ε ≤ 1`, never leaves `[-1, 1]` and differs by at most `ε` from
one fixed curve of the driven input. -/
theorem C118_tanh {ε : ℝ} {rcp : ℝ → ℝ} (hr : Spec.Reciprocal ε rcp) (h1 : ε ≤ 1) (input drive : ℝ) :
    |shapeTanh rcp input drive| ≤ 1 ∧ |shapeTanh rcp input drive - curve (input * drive)| ≤ ε := by
  refine ⟨abs_le.2 (clip_mem _), ?_⟩
  simp only [shapeTanh, curve]
  have hd : 27 + 9 * (input * drive * (input * drive)) ≠ 0 := by nlinarith [mul_self_nonneg (input * drive)]
  have e : input * drive * (27 + input * drive * (input * drive)) * rcp (27 + 9 * (input * drive * (input * drive))) =
      input * drive * (27 + input * drive * (input * drive)) / (27 + 9 * (input * drive * (input * drive))) *
        (1 + (rcp (27 + 9 * (input * drive * (input * drive))) * (27 + 9 * (input * drive * (input * drive))) - 1)) := by
    field_simp; ring
  rw [e]
  exact clip_rel (hr _ hd) h1

/-- **C118.**  That curve is odd, increasing and one from three on, and is the hyperbolic tangent of a slightly stretched argument: at
`3 tanh (t / 3)` it takes the value `tanh t`.  So it lies above `tanh` for positive inputs. -/
theorem C118_tanh_curve : (∀ x, curve (-x) = -curve x) ∧ Monotone curve ∧ (∀ x, 3 ≤ x → curve x = 1) ∧
    (∀ t, curve (3 * Real.tanh (t / 3)) = Real.tanh t) ∧ ∀ x, 0 ≤ x → Real.tanh x ≤ curve x := by
  refine ⟨curve_odd, curve_mono, fun x h => curve_ge_three h, fun t => by rw [curve_tanh]; congr 1; ring, fun x h => ?_⟩
  by_cases h3 : 3 ≤ x
  · rw [curve_ge_three h3]; exact (abs_le.1 (tanh_abs x)).2
  · obtain ⟨u, rfl⟩ := exists_tanh (abs_lt.2 ⟨by linarith, not_le.1 h3⟩)
    rw [curve_tanh]
    apply tanh_mono
    have hu : 0 ≤ u := by
      by_contra hc
      have := tanh_mono (not_le.1 hc).le
      rw [Real.tanh_zero] at this
      have e0 : Real.tanh u = Real.tanh 0 := by rw [Real.tanh_zero]; linarith
      exact hc (Real.tanh_injective e0).ge
    linarith [tanh_le_self hu]

/-- **C118.**  The clip shaper passes driven inputs up to one unchanged and holds the rest at plus or minus one. -/
theorem C118_clip (x drive : ℝ) : (|x * drive| ≤ 1 → shapeClip x drive = x * drive) ∧ (1 ≤ x * drive → shapeClip x drive = 1) ∧
    (x * drive ≤ -1 → shapeClip x drive = -1) := by
  refine ⟨clip_id, fun h => ?_, fun h => ?_⟩
  · rw [shapeClip, clipBipolar, min_eq_right h, max_eq_left (by norm_num)]
  · rw [shapeClip, clipBipolar, min_eq_left (by linarith), max_eq_right h]

/-- **C118.**  The digital shaper puts its input on a grid of odd multiples of a 32nd of the drive, off by at most a 32nd of the drive plus
the reciprocal's error; it never returns zero unless the drive is zero. -/
theorem C118_digi {ε : ℝ} {rcp : ℝ → ℝ} {cvt : ℝ → ℤ} (hr : Spec.Reciprocal ε rcp) (hc : Spec.Nearest cvt) (x : ℝ) {drive : ℝ} (hd : drive ≠ 0) :
    (∃ k : ℤ, shapeDigi rcp cvt x drive = (2 * k + 1) * (drive / 32)) ∧
    |shapeDigi rcp cvt x drive - x| ≤ |drive| / 32 + ε * |x| ∧ |drive| / 32 ≤ |shapeDigi rcp cvt x drive| := by
  have hk : shapeDigi rcp cvt x drive = (2 * ((cvt (0.5 + rcp drive * (16 * x)) - 1 : ℤ) : ℝ) + 1) * (drive / 32) := by
    simp only [shapeDigi]; push_cast; ring
  refine ⟨⟨_, hk⟩, ?_, ?_⟩
  · have h1 := hc (0.5 + rcp drive * (16 * x))
    have h2 := hr drive hd
    have e : shapeDigi rcp cvt x drive - x =
        drive / 16 * ((cvt (0.5 + rcp drive * (16 * x)) : ℝ) - (0.5 + rcp drive * (16 * x))) + (rcp drive * drive - 1) * x := by
      simp only [shapeDigi]; ring
    rw [e]
    refine (abs_add_le _ _).trans ?_
    rw [abs_mul, abs_mul, abs_div, abs_of_pos (show (0 : ℝ) < 16 by norm_num)]
    have := mul_le_mul_of_nonneg_left h1 (show 0 ≤ |drive| / 16 by positivity)
    have := mul_le_mul_of_nonneg_right h2 (abs_nonneg x)
    linarith
  · rw [hk, abs_mul, abs_div, abs_of_pos (show (0 : ℝ) < 32 by norm_num)]
    have : (1 : ℝ) ≤ |2 * ((cvt (0.5 + rcp drive * (16 * x)) - 1 : ℤ) : ℝ) + 1| := by
      generalize (cvt (0.5 + rcp drive * (16 * x)) - 1) = k
      have : (1 : ℤ) ≤ |2 * k + 1| := by
        rcases le_or_gt 0 k with h | h
        · rw [abs_of_nonneg (by omega)]; omega
        · rw [abs_of_neg (by omega)]; omega
      exact_mod_cast this
    nlinarith [abs_nonneg drive]

/-- **C119**, refuted: the sine and asymmetric shapers ignore their input: whatever they are given they return one fixed table entry. -/
theorem C119_constant (cvt : ℝ → ℤ) (tab : ℕ → ℤ → ℝ) (input drive : ℝ) :
    shapeSine cvt tab input drive = .ok (tab 3 3) ∧ shapeAsym cvt tab input drive = .ok (tab 2 2) := by
  constructor
  · have : ∀ a : ℝ, (1 - a) * tab 3 3 + a * tab 3 3 = tab 3 3 := fun a => by ring
    exact congrArg Res.ok (this _)
  · have : ∀ a : ℝ, (1 - a) * tab 2 2 + a * tab 2 2 = tab 2 2 := fun a => by ring
    exact congrArg Res.ok (this _)

/-- The hypotheses can be met: an exact reciprocal and the usual rounding. -/
example : Spec.Reciprocal 0 (fun d => d⁻¹) ∧ Spec.Nearest round :=
  ⟨fun d h => by simp [inv_mul_cancel₀ h], fun x => by rw [abs_sub_comm]; exact abs_sub_round x⟩

end Verif.Units
