import Verif.Biquad.Designs
/-!
# The second low pass (C97)
-/
namespace Verif.Biquad

theorem lp2bG1_range (ω q : ℝ) : 0 ≤ lp2bG1 ω q ∧ lp2bG1 ω q ≤ 1 :=
  ⟨le_min zero_le_one (by positivity), min_le_left _ _⟩

/-- C97, the second low pass: a constant passes unchanged; at the Nyquist frequency its gain is half the square root the code computes (at most 1, not
0 as for the other low passes); at the cutoff it is at least `q` but up to twice that: with the Nyquist gain `g` it is `q √(1 + 6 g - 3 g²)`, where the
other low passes have `q`. -/
theorem C97_lp2b_gains {ω q : ℝ} (h0 : 0 < ω) (h1 : ω < Real.pi) (hq : 0 < q) :
    (Filter.new.coeffLp2b ω q).plotMagnitude 0 = 1 ∧
    (Filter.new.coeffLp2b ω q).plotMagnitude (1 / 2) =
      min 1 (ω ^ 2 / (2 * Real.sqrt ((Real.pi ^ 2 - ω ^ 2) ^ 2 + (Real.pi * ω) ^ 2 / q))) ∧
    (Filter.new.coeffLp2b ω q).plotMagnitude (ω / (2 * Real.pi)) =
      q * Real.sqrt (1 + 6 * (Filter.new.coeffLp2b ω q).plotMagnitude (1 / 2) - 3 * (Filter.new.coeffLp2b ω q).plotMagnitude (1 / 2) ^ 2) ∧
    q < (Filter.new.coeffLp2b ω q).plotMagnitude (ω / (2 * Real.pi)) ∧ (Filter.new.coeffLp2b ω q).plotMagnitude (ω / (2 * Real.pi)) ≤ 2 * q := by
  have hα := alpha_pos h0 h1 hq
  have hc := abs_lt.1 (cos_lt_one_abs h0 h1)
  have hs := Real.sin_pos_of_pos_of_lt_pi h0 h1
  have hcs := Real.sin_sq_add_cos_sq ω
  have e : Filter.new.coeffLp2b ω q = Filter.new.setCoef (1 + Real.sin ω / (2 * q)) (-2 * Real.cos ω) (1 - Real.sin ω / (2 * q))
    ((1 - Real.cos ω + lp2bG1 ω q * (1 + Real.cos ω) + 2 * Real.sqrt (lp2bG1 ω q) * Real.sqrt (2 - lp2bG1 ω q) * Real.sin ω) * 0.5)
    (1 - Real.cos ω - lp2bG1 ω q * (1 + Real.cos ω))
    ((1 - Real.cos ω + lp2bG1 ω q * (1 + Real.cos ω) - 2 * Real.sqrt (lp2bG1 ω q) * Real.sqrt (2 - lp2bG1 ω q) * Real.sin ω) * 0.5) :=
    if_neg (not_lt.2 h1.le)
  obtain ⟨g0, g1⟩ := lp2bG1_range ω q
  have pw : 0 < Real.pi ^ 2 - ω ^ 2 := by nlinarith
  have dpos : 0 < (Real.pi ^ 2 - ω ^ 2) ^ 2 + (Real.pi * ω) ^ 2 / q := by positivity
  have den : lp2bDen ω q = (Real.pi ^ 2 - ω ^ 2) ^ 2 + (Real.pi * ω) ^ 2 / q := by
    unfold lp2bDen; field_simp; ring
  have gv : lp2bG1 ω q = min 1 (ω ^ 2 / (2 * Real.sqrt ((Real.pi ^ 2 - ω ^ 2) ^ 2 + (Real.pi * ω) ^ 2 / q))) := by
    unfold lp2bG1
    rw [den, show (ω * ω) * (ω * ω) = (ω ^ 2) ^ 2 by ring, Real.sqrt_div (by positivity), Real.sqrt_sq (by positivity)]
    congr 1
    have := Real.sqrt_pos.2 dpos
    field_simp
    norm_num
  have gp : 0 < lp2bG1 ω q := by
    rw [gv]
    have := Real.sqrt_pos.2 dpos
    exact lt_min one_pos (by positivity)
  obtain ⟨g, hg⟩ : ∃ g, g = lp2bG1 ω q := ⟨_, rfl⟩
  rw [← hg] at e g0 g1 gv gp
  have a2 : (2 * Real.sqrt g * Real.sqrt (2 - g)) ^ 2 = 4 * (g * (2 - g)) := by
    rw [mul_pow, mul_pow, Real.sq_sqrt g0, Real.sq_sqrt (by linarith)]; ring
  obtain ⟨a, ha⟩ : ∃ a, a = 2 * Real.sqrt g * Real.sqrt (2 - g) := ⟨_, rfl⟩
  rw [← ha] at a2 e
  have G := fun fr => gain_sq (Real.sin ω / (2 * q)) (Real.cos ω) ((1 - Real.cos ω + g * (1 + Real.cos ω) + a * Real.sin ω) * 0.5)
    (1 - Real.cos ω - g * (1 + Real.cos ω)) ((1 - Real.cos ω + g * (1 + Real.cos ω) - a * Real.sin ω) * 0.5) fr (by linarith)
  rw [← e] at G
  have ny : (Filter.new.coeffLp2b ω q).plotMagnitude (1 / 2) = g := by
    refine eq_of_sq (magnitude_nonneg ..) g0 ?_
    rw [G]
    have e : 2 * Real.pi * (1 / 2) = Real.pi := by ring
    rw [e, Real.cos_pi, Real.sin_pi]
    have : -1 - Real.cos ω ≠ 0 := by linarith
    rw [div_eq_iff (by norm_num; exact this)]
    norm_num
    ring
  have cu : (Filter.new.coeffLp2b ω q).plotMagnitude (ω / (2 * Real.pi)) = q * Real.sqrt (1 + 6 * g - 3 * g ^ 2) := by
    refine eq_of_sq (magnitude_nonneg ..) (by positivity) ?_
    rw [G, mul_pow q, Real.sq_sqrt (by nlinarith)]
    obtain ⟨e1, e2⟩ := at_cutoff h0 h1
    rw [e1, e2]
    have hs2 : Real.sin ω ^ 2 = (1 - Real.cos ω) * (1 + Real.cos ω) := by linear_combination hcs
    have n1 : (1 - Real.cos ω - g * (1 + Real.cos ω) + ((1 - Real.cos ω + g * (1 + Real.cos ω) + a * Real.sin ω) * 0.5 +
        (1 - Real.cos ω + g * (1 + Real.cos ω) - a * Real.sin ω) * 0.5) * Real.cos ω) = (1 - g) * Real.sin ω ^ 2 := by
      rw [hs2]; norm_num; ring
    have n2 : ((1 - Real.cos ω + g * (1 + Real.cos ω) + a * Real.sin ω) * 0.5 - (1 - Real.cos ω + g * (1 + Real.cos ω) - a * Real.sin ω) * 0.5) = a * Real.sin ω := by
      norm_num; ring
    rw [n1, n2, sub_self, show (a * Real.sin ω * Real.sin ω) ^ 2 = a ^ 2 * (Real.sin ω ^ 2) ^ 2 by ring, a2]
    field_simp
    ring
  rw [ny, cu]
  refine ⟨C97_lp2b_partial h0 h1 hq, gv, rfl, ?_, ?_⟩
  · have : 1 < Real.sqrt (1 + 6 * g - 3 * g ^ 2) := by rw [Real.lt_sqrt (by norm_num)]; nlinarith
    nlinarith
  · have : Real.sqrt (1 + 6 * g - 3 * g ^ 2) ≤ 2 := by rw [Real.sqrt_le_left (by norm_num)]; nlinarith
    nlinarith

/-- A cutoff a quarter of the way to the Nyquist frequency. -/
example := C97_lp2b_gains (ω := Real.pi / 4) (q := 0.7) (by positivity) (by linarith [Real.pi_pos]) (by norm_num)

end Verif.Biquad
