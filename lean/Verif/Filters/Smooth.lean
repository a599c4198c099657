import Verif.Filters.Bounded
import Verif.Filters.Obxd4
import Verif.Filters.Iir
/-!
# The smooth voice filters under modulation (C101)

The normalised lattice of quad_iir_12_B.rs and quad_iir_24_B.rs, over whole lives of blocks, in exact real arithmetic.
-/
namespace Verif.Filters
open Verif

/-! ## Specification -/

/-- Lattice coefficients with second reflection at most `ρ`, first reflection at most `1/κ` of its complement, and taps at most `G`. Every stable design is among them for some `ρ < 1`, `κ > 0`, `G` (`lattice_tame`). -/
def Spec.mild (ρ κ G : ℝ) : Set (ℕ → ℝ) :=
  {v | v 0 ^ 2 + v 2 ^ 2 ≤ 1 ∧ κ * |v 0| ≤ v 2 ∧ |v 1| ≤ ρ ∧ |v 3| ≤ 1 ∧ |v 4| ≤ G ∧ |v 5| ≤ G ∧ |v 6| ≤ G ∧ 0 ≤ v 7}

/-! ## Theorems -/

theorem mild_convex {κ : ℝ} (hκ : 0 ≤ κ) (ρ G : ℝ) : Convex ℝ (Spec.mild ρ κ G) := by
  intro v hv w hw a b ha hb hab
  obtain ⟨h1, h2, h3, h4, h5, h6, h7, h8⟩ := hv
  obtain ⟨k1, k2, k3, k4, k5, k6, k7, k8⟩ := hw
  refine ⟨disc_mix ha hb hab h1 k1, ?_, abs_mix ha hb hab h3 k3, abs_mix ha hb hab h4 k4, abs_mix ha hb hab h5 k5, abs_mix ha hb hab h6 k6, abs_mix ha hb hab h7 k7,
    add_nonneg (mul_nonneg ha h8) (mul_nonneg hb k8)⟩
  show κ * |a * v 0 + b * w 0| ≤ a * v 2 + b * w 2
  have t : |a * v 0 + b * w 0| ≤ a * |v 0| + b * |w 0| := by
    refine (abs_add_le _ _).trans (le_of_eq ?_)
    rw [abs_mul, abs_mul, abs_of_nonneg ha, abs_of_nonneg hb]
  nlinarith [mul_le_mul_of_nonneg_left t hκ, mul_le_mul_of_nonneg_left h2 ha, mul_le_mul_of_nonneg_left k2 hb]

theorem mild_zero {ρ G : ℝ} (κ : ℝ) (hρ : 0 ≤ ρ) (hG : 0 ≤ G) : (fun _ => 0) ∈ Spec.mild ρ κ G := by
  refine ⟨?_, ?_, ?_, ?_, ?_, ?_, ?_, le_rfl⟩ <;> simp [hG, hρ]

/-- Weights `w` and a rate `l < 1` by which a lattice of the kind forgets, with room `μ` for coefficients that have moved on between its two halves. -/
structure Rate (ρ κ μ w l e b : ℝ) : Prop where
  w0 : 0 < w
  w1 : w < 1
  l0 : 0 ≤ l
  l1 : l < 1
  e0 : 0 < e
  first : 1 - (1 - w) * (κ ^ 2 / (1 + κ ^ 2)) / 2 + μ * w ≤ l
  second : (2 - w + μ * w) * (1 + e) * ρ ^ 2 ≤ l * w
  size : (2 - w + μ * w) * (1 + 1 / e) ≤ (1 - l) * b
  b0 : 0 ≤ b

theorem rate_of {ρ κ μ w : ℝ} (hρ : 0 ≤ ρ) (hρ1 : ρ ≤ 1) (μ0 : 0 ≤ μ) (w0 : 0 < w) (w1 : w < 1) (h1 : μ * w < (1 - w) * (κ ^ 2 / (1 + κ ^ 2)) / 2) (h2 : (2 - w + μ * w) * ρ ^ 2 < w) :
    ∃ l e b, Rate ρ κ μ w l e b := by
  obtain ⟨m, hm⟩ : ∃ m, m = max (1 - (1 - w) * (κ ^ 2 / (1 + κ ^ 2)) / 2 + μ * w) ((2 - w + μ * w) * ρ ^ 2 / w) := ⟨_, rfl⟩
  have q0 : 0 < 2 - w + μ * w := by nlinarith [mul_nonneg μ0 w0.le]
  have m1 : m < 1 := by rw [hm]; refine max_lt (by linarith) ?_; rw [div_lt_one w0]; exact h2
  have m2 : (2 - w + μ * w) * ρ ^ 2 / w ≤ m := by rw [hm]; exact le_max_right _ _
  have m0 : 0 ≤ m := le_trans (by positivity) m2
  have r1 : ρ ^ 2 ≤ 1 := pow_le_one₀ hρ hρ1
  obtain ⟨e, he⟩ : ∃ e, e = (1 - m) / 2 * w / (2 - w + μ * w) := ⟨_, rfl⟩
  have e0 : 0 < e := by rw [he]; have : 0 < 1 - m := by linarith
                        positivity
  have l1 : 0 < 1 - (1 + m) / 2 := by linarith
  refine ⟨(1 + m) / 2, e, (2 - w + μ * w) * (1 + 1 / e) / (1 - (1 + m) / 2), w0, w1, by linarith, by linarith, e0, ?_, ?_, ?_, by positivity⟩
  · have : 1 - (1 - w) * (κ ^ 2 / (1 + κ ^ 2)) / 2 + μ * w ≤ m := by rw [hm]; exact le_max_left _ _
    linarith
  · rw [div_le_iff₀ w0] at m2
    have a : (2 - w + μ * w) * e = (1 - m) / 2 * w := by rw [he]; exact mul_div_cancel₀ _ q0.ne'
    have : (2 - w + μ * w) * (1 + e) * ρ ^ 2 = (2 - w + μ * w) * ρ ^ 2 + (1 - m) / 2 * w * ρ ^ 2 := by rw [← a]; ring
    rw [this]
    have p : 0 ≤ (1 - m) / 2 * w := by have : 0 < 1 - m := by linarith
                                       positivity
    nlinarith
  · rw [mul_div_cancel₀ _ l1.ne']

set_option maxHeartbeats 1000000 in
/-- One section: the weighted energy stays below its bound. -/
theorem section_step {ρ κ μ w l e b c0 c1 c2 c3 x r0 r1 g M k : ℝ} (R : Rate ρ κ μ w l e b) (hκ : 0 < κ) (μ0 : 0 ≤ μ) (hT : c0 ^ 2 + c2 ^ 2 ≤ 1) (hc : κ * |c0| ≤ c2) (h1 : |c1| ≤ ρ) (h3 : |c3| ≤ 1) (hx : |x| ≤ M)
    (hr : r0 ^ 2 + w * r1 ^ 2 ≤ b * M ^ 2) (k0 : 0 ≤ k) (k1 : k ≤ 1)
    (hg : g ^ 2 ≤ (c0 * (c3 * x - c1 * r1) + c2 * r0) ^ 2 + μ * ((c3 * x - c1 * r1) ^ 2 + r0 ^ 2)) :
    ((c2 * (c3 * x - c1 * r1) - c0 * r0) * k) ^ 2 + w * (g * k) ^ 2 ≤ b * M ^ 2 := by
  obtain ⟨w0, w1, l0, l1, e0, first, second, size, b0⟩ := R
  obtain ⟨f, hf⟩ : ∃ f, f = c3 * x - c1 * r1 := ⟨_, rfl⟩
  obtain ⟨q, hq⟩ : ∃ q, q = κ ^ 2 / (1 + κ ^ 2) := ⟨_, rfl⟩
  obtain ⟨T, hTe⟩ : ∃ T, T = c0 ^ 2 + c2 ^ 2 := ⟨_, rfl⟩
  rw [← hf] at hg ⊢
  rw [← hq] at first
  have T0 : 0 ≤ T := by rw [hTe]; positivity
  have q0 : 0 ≤ q := by rw [hq]; positivity
  have cq : q * T ≤ c2 ^ 2 := by
    have a : κ ^ 2 * c0 ^ 2 ≤ c2 ^ 2 := by
      have := pow_le_pow_left₀ (by positivity) hc 2
      rwa [mul_pow, sq_abs] at this
    rw [hq, hTe, div_mul_eq_mul_div, div_le_iff₀ (by positivity)]
    nlinarith
  have c0T : c0 ^ 2 ≤ T := by rw [hTe]; nlinarith [sq_nonneg c2]
  have f2 : f ^ 2 ≤ (1 + e) * (ρ ^ 2 * r1 ^ 2) + (1 + 1 / e) * M ^ 2 := by
    have a : (c1 * r1) ^ 2 ≤ ρ ^ 2 * r1 ^ 2 := by
      rw [mul_pow]; exact mul_le_mul_of_nonneg_right (sq_le_sq' (by linarith [(abs_le.1 h1).1]) (abs_le.1 h1).2) (sq_nonneg _)
    have c : (c3 * x) ^ 2 ≤ M ^ 2 := by
      rw [← sq_abs (c3 * x), abs_mul]
      refine pow_le_pow_left₀ (by positivity) ?_ 2
      calc |c3| * |x| ≤ 1 * |x| := mul_le_mul_of_nonneg_right h3 (abs_nonneg x)
        _ ≤ M := by rw [one_mul]; exact hx
    have d : f ^ 2 ≤ (1 + e) * (c1 * r1) ^ 2 + (1 + 1 / e) * (c3 * x) ^ 2 := by
      have s : 0 ≤ (e * (c1 * r1) + c3 * x) ^ 2 / e := by positivity
      have s' : (e * (c1 * r1) + c3 * x) ^ 2 / e = e * (c1 * r1) ^ 2 + 2 * (c1 * r1) * (c3 * x) + 1 / e * (c3 * x) ^ 2 := by field_simp; ring
      have s3 : f ^ 2 = (c3 * x) ^ 2 - 2 * (c1 * r1) * (c3 * x) + (c1 * r1) ^ 2 := by rw [hf]; ring
      rw [s3]; linarith
    have p : 0 ≤ 1 + 1 / e := by positivity
    have A := mul_le_mul_of_nonneg_left a (by linarith : (0:ℝ) ≤ 1 + e)
    have C := mul_le_mul_of_nonneg_left c p
    linarith
  have g1 : q * T * r0 ^ 2 / 2 - T * f ^ 2 ≤ (c0 * f + c2 * r0) ^ 2 := by
    have a : c2 ^ 2 * r0 ^ 2 / 2 - c0 ^ 2 * f ^ 2 ≤ (c0 * f + c2 * r0) ^ 2 := by nlinarith [sq_nonneg (2 * (c0 * f) + c2 * r0)]
    have := mul_le_mul_of_nonneg_right cq (sq_nonneg r0)
    have := mul_le_mul_of_nonneg_right c0T (sq_nonneg f)
    linarith
  have E : (c2 * f - c0 * r0) ^ 2 + w * g ^ 2 ≤ (1 - (1 - w) * q / 2 + μ * w) * r0 ^ 2 + (2 - w + μ * w) * f ^ 2 := by
    have iso : (c2 * f - c0 * r0) ^ 2 + (c0 * f + c2 * r0) ^ 2 = T * (f ^ 2 + r0 ^ 2) := by rw [hTe]; ring
    have i1 := mul_le_mul_of_nonneg_left hg w0.le
    have i2 := mul_le_mul_of_nonneg_left g1 (sub_nonneg.2 w1.le)
    have q1 : q ≤ 1 := by rw [hq, div_le_one (by positivity)]; linarith
    have i3 : T * ((1 - (1 - w) * q / 2) * r0 ^ 2 + (2 - w) * f ^ 2) ≤ 1 * ((1 - (1 - w) * q / 2) * r0 ^ 2 + (2 - w) * f ^ 2) := by
      refine mul_le_mul_of_nonneg_right (by rw [hTe]; exact hT) ?_
      have : 0 ≤ 1 - (1 - w) * q / 2 := by nlinarith
      have : 0 ≤ 2 - w := by linarith
      positivity
    nlinarith
  have A := mul_le_mul_of_nonneg_right first (sq_nonneg r0)
  have q2 : 0 ≤ 2 - w + μ * w := by nlinarith [mul_nonneg μ0 w0.le]
  have B := mul_le_mul_of_nonneg_left f2 q2
  have C := mul_le_mul_of_nonneg_right second (sq_nonneg r1)
  have D := mul_le_mul_of_nonneg_right size (sq_nonneg M)
  have F := mul_le_mul_of_nonneg_left hr l0
  have all : (c2 * f - c0 * r0) ^ 2 + w * g ^ 2 ≤ b * M ^ 2 := by nlinarith
  have k2 : k ^ 2 ≤ 1 := pow_le_one₀ k0 k1
  have P : 0 ≤ (c2 * f - c0 * r0) ^ 2 + w * g ^ 2 := by positivity
  calc ((c2 * f - c0 * r0) * k) ^ 2 + w * (g * k) ^ 2 = k ^ 2 * ((c2 * f - c0 * r0) ^ 2 + w * g ^ 2) := by ring
    _ ≤ 1 * ((c2 * f - c0 * r0) ^ 2 + w * g ^ 2) := mul_le_mul_of_nonneg_right k2 P
    _ ≤ _ := by linarith

/-- What a section with state in its bound puts out. -/
theorem section_out {w b c0 c1 c2 c3 d0 d1 d2 d3 v4 v5 v6 x r0 r1 M G : ℝ} (w0 : 0 < w) (w1 : w < 1) (b0 : 0 ≤ b) (M0 : 0 ≤ M) (h0 : |c0| ≤ 1) (h1 : |c1| ≤ 1) (h2 : |c2| ≤ 1) (h3 : |c3| ≤ 1) (i0 : |d0| ≤ 1) (i1 : |d1| ≤ 1) (i2 : |d2| ≤ 1)
    (i3 : |d3| ≤ 1) (h4 : |v4| ≤ G) (h5 : |v5| ≤ G) (h6 : |v6| ≤ G) (hx : |x| ≤ M) (hr : r0 ^ 2 + w * r1 ^ 2 ≤ b * M ^ 2) :
    |v6 * (d1 * x + d3 * r1) + v5 * (d0 * (c3 * x - c1 * r1) + d2 * r0) + v4 * (c2 * (c3 * x - c1 * r1) - c0 * r0)| ≤ G * (3 + 5 * Real.sqrt (b / w)) * M := by
  obtain ⟨s, hs⟩ : ∃ s, s = Real.sqrt (b / w) * M := ⟨_, rfl⟩
  have s0 : 0 ≤ s := by rw [hs]; positivity
  have s2 : s ^ 2 = b / w * M ^ 2 := by rw [hs, mul_pow, Real.sq_sqrt (by positivity)]
  have ws : w * s ^ 2 = b * M ^ 2 := by rw [s2]; field_simp
  have R0 : |r0| ≤ s := by
    refine abs_le_of_sq_le_sq ?_ s0
    nlinarith [mul_nonneg w0.le (sq_nonneg r1), sq_nonneg s]
  have R1 : |r1| ≤ s := by
    refine abs_le_of_sq_le_sq ?_ s0
    have : w * r1 ^ 2 ≤ w * s ^ 2 := by nlinarith [sq_nonneg r0]
    exact le_of_mul_le_mul_left this w0
  have m : ∀ {a y B : ℝ}, |a| ≤ 1 → |y| ≤ B → |a * y| ≤ B := fun {a y B} ha hy => by
    rw [abs_mul]
    exact (mul_le_of_le_one_left (abs_nonneg y) ha).trans hy
  have F : |c3 * x - c1 * r1| ≤ M + s := (abs_sub _ _).trans (add_le_add (m h3 hx) (m h1 R1))
  have Y1 : |d1 * x + d3 * r1| ≤ M + s := (abs_add_le _ _).trans (add_le_add (m i1 hx) (m i3 R1))
  have Y2 : |d0 * (c3 * x - c1 * r1) + d2 * r0| ≤ (M + s) + s := (abs_add_le _ _).trans (add_le_add (m i0 F) (m i2 R0))
  have Y3 : |c2 * (c3 * x - c1 * r1) - c0 * r0| ≤ (M + s) + s := (abs_sub _ _).trans (add_le_add (m h2 F) (m h0 R0))
  have G0 : 0 ≤ G := (abs_nonneg _).trans h4
  have z : ∀ {v y B : ℝ}, |v| ≤ G → |y| ≤ B → |v * y| ≤ G * B := fun {v y B} hv hy => by
    rw [abs_mul]; exact mul_le_mul hv hy (abs_nonneg _) G0
  refine (abs_add_three _ _ _).trans ?_
  have e : G * (3 + 5 * Real.sqrt (b / w)) * M = G * (M + s) + G * (M + s + s) + G * (M + s + s) := by rw [hs]; ring
  rw [e]
  exact add_le_add (add_le_add (z h6 Y1) (z h5 Y2)) (z h4 Y3)

theorem mild_within {ρ κ G : ℝ} {c : ℕ → ℝ} (hρ : ρ ≤ 1) (h : Spec.Within (Spec.mild ρ κ G) [0, 1, 2, 3, 4, 5, 6, 7] c) :
    (c 0 ^ 2 + c 2 ^ 2 ≤ 1 ∧ κ * |c 0| ≤ c 2 ∧ |c 1| ≤ ρ ∧ |c 3| ≤ 1 ∧ |c 4| ≤ G ∧ |c 5| ≤ G ∧ |c 6| ≤ G ∧ 0 ≤ c 7) ∧ |c 0| ≤ 1 ∧ |c 1| ≤ 1 ∧ |c 2| ≤ 1 := by
  obtain ⟨v, hv, e⟩ := h
  rw [e 0 (by simp), e 1 (by simp), e 2 (by simp), e 3 (by simp), e 4 (by simp), e 5 (by simp), e 6 (by simp), e 7 (by simp)]
  obtain ⟨h1, h2, h3, h⟩ := hv
  refine ⟨⟨h1, h2, h3, h⟩, ?_, h3.trans hρ, ?_⟩
  · exact abs_le_of_sq_le_sq (by nlinarith [sq_nonneg (v 2)]) zero_le_one
  · exact abs_le_of_sq_le_sq (by nlinarith [sq_nonneg (v 0)]) zero_le_one

/-- The four-pole filter: one sample. -/
theorem bound24b {ρ κ G w l e b M : ℝ} (hρ1 : ρ ≤ 1) (hκ : 0 < κ) (R : Rate ρ κ 0 w l e b) (u : FU) (x : ℝ) (hP : Spec.Within (Spec.mild ρ κ G) [0, 1, 2, 3, 4, 5, 6, 7] (iir24b u x).1.coeff) (hx : |x| ≤ M)
    (hi : (u.reg 0 ^ 2 + w * u.reg 1 ^ 2 ≤ b * M ^ 2 ∧ u.reg 2 ^ 2 + w * u.reg 3 ^ 2 ≤ b * (G * (3 + 5 * Real.sqrt (b / w)) * M) ^ 2) ∧ 0 ≤ u.reg 4 ∧ u.reg 4 ≤ 1) :
    (((iir24b u x).1.reg 0 ^ 2 + w * (iir24b u x).1.reg 1 ^ 2 ≤ b * M ^ 2 ∧ (iir24b u x).1.reg 2 ^ 2 + w * (iir24b u x).1.reg 3 ^ 2 ≤ b * (G * (3 + 5 * Real.sqrt (b / w)) * M) ^ 2) ∧
      0 ≤ (iir24b u x).1.reg 4 ∧ (iir24b u x).1.reg 4 ≤ 1) ∧ |(iir24b u x).2| ≤ G * (3 + 5 * Real.sqrt (b / w)) * (G * (3 + 5 * Real.sqrt (b / w)) * M) := by
  have M0 : 0 ≤ M := (abs_nonneg x).trans hx
  obtain ⟨⟨t1, t2, t3, t4, t5, t6, t7, t8⟩, n0, n1, n2⟩ := mild_within hρ1 hP
  obtain ⟨⟨i1, i2⟩, g0, g1⟩ := hi
  have s := section_step (g := (iir24b u x).1.coeff 0 * ((iir24b u x).1.coeff 3 * x - (iir24b u x).1.coeff 1 * u.reg 1) + (iir24b u x).1.coeff 2 * u.reg 0) R hκ le_rfl t1 t2 t3 t4 hx i1 g0 g1 (by linarith)
  have o := section_out R.w0 R.w1 R.b0 M0 n0 n1 n2 t4 n0 n1 n2 t4 t5 t6 t7 hx i1
  have M20 := (abs_nonneg _).trans o
  obtain ⟨y1, hy1⟩ : ∃ y1, y1 = (iir24b u x).1.coeff 6 * ((iir24b u x).1.coeff 1 * x + (iir24b u x).1.coeff 3 * u.reg 1) +
    (iir24b u x).1.coeff 5 * ((iir24b u x).1.coeff 0 * ((iir24b u x).1.coeff 3 * x - (iir24b u x).1.coeff 1 * u.reg 1) + (iir24b u x).1.coeff 2 * u.reg 0) +
    (iir24b u x).1.coeff 4 * ((iir24b u x).1.coeff 2 * ((iir24b u x).1.coeff 3 * x - (iir24b u x).1.coeff 1 * u.reg 1) - (iir24b u x).1.coeff 0 * u.reg 0) := ⟨_, rfl⟩
  rw [← hy1] at o
  have s2 := section_step (g := (iir24b u x).1.coeff 0 * ((iir24b u x).1.coeff 3 * y1 - (iir24b u x).1.coeff 1 * u.reg 3) + (iir24b u x).1.coeff 2 * u.reg 2) R hκ le_rfl t1 t2 t3 t4 o i2 g0 g1 (by linarith)
  have o2 := section_out R.w0 R.w1 R.b0 M20 n0 n1 n2 t4 n0 n1 n2 t4 t5 t6 t7 o i2
  have c := fun y => clip_unit (c := (iir24b u x).1.coeff 7) (y := y) t8
  have cc : ∀ i < 7, (iir24b u x).1.coeff i = (u.adv [0, 1, 2, 3, 4, 5, 6]).coeff i := by
    intro i hi
    simp only [iir24b, FU.adv, FU.set]
    interval_cases i <;> simp
  have c0 := cc 0 (by norm_num)
  have c1 := cc 1 (by norm_num)
  have c2 := cc 2 (by norm_num)
  have c3 := cc 3 (by norm_num)
  have c4 := cc 4 (by norm_num)
  have c5 := cc 5 (by norm_num)
  have c6 := cc 6 (by norm_num)
  rw [c0, c1, c2, c3] at s s2
  rw [c0, c1, c2, c3, c4, c5, c6] at o2 hy1
  have r : (u.adv [0, 1, 2, 3, 4, 5, 6]).reg = u.reg := rfl
  have E0 : (iir24b u x).1.reg 0 = ((u.adv [0, 1, 2, 3, 4, 5, 6]).coeff 2 * ((u.adv [0, 1, 2, 3, 4, 5, 6]).coeff 3 * x - (u.adv [0, 1, 2, 3, 4, 5, 6]).coeff 1 * u.reg 1) - (u.adv [0, 1, 2, 3, 4, 5, 6]).coeff 0 * u.reg 0) * u.reg 4 := by
    simp [iir24b, FU.set, FU.adv]
  have E1 : (iir24b u x).1.reg 1 = ((u.adv [0, 1, 2, 3, 4, 5, 6]).coeff 0 * ((u.adv [0, 1, 2, 3, 4, 5, 6]).coeff 3 * x - (u.adv [0, 1, 2, 3, 4, 5, 6]).coeff 1 * u.reg 1) + (u.adv [0, 1, 2, 3, 4, 5, 6]).coeff 2 * u.reg 0) * u.reg 4 := by
    simp [iir24b, FU.set, FU.adv]
  have E2 : (iir24b u x).1.reg 2 = ((u.adv [0, 1, 2, 3, 4, 5, 6]).coeff 2 * ((u.adv [0, 1, 2, 3, 4, 5, 6]).coeff 3 * y1 - (u.adv [0, 1, 2, 3, 4, 5, 6]).coeff 1 * u.reg 3) - (u.adv [0, 1, 2, 3, 4, 5, 6]).coeff 0 * u.reg 2) * u.reg 4 := by
    rw [hy1]; simp [iir24b, FU.set, FU.adv]
  have E3 : (iir24b u x).1.reg 3 = ((u.adv [0, 1, 2, 3, 4, 5, 6]).coeff 0 * ((u.adv [0, 1, 2, 3, 4, 5, 6]).coeff 3 * y1 - (u.adv [0, 1, 2, 3, 4, 5, 6]).coeff 1 * u.reg 3) + (u.adv [0, 1, 2, 3, 4, 5, 6]).coeff 2 * u.reg 2) * u.reg 4 := by
    rw [hy1]; simp [iir24b, FU.set, FU.adv]
  have E4 : ∃ y, (iir24b u x).1.reg 4 = clipReg ((iir24b u x).1.coeff 7) y := ⟨(iir24b u x).2, by simp [iir24b, FU.set, FU.adv]⟩
  have EY : (iir24b u x).2 = (u.adv [0, 1, 2, 3, 4, 5, 6]).coeff 6 * ((u.adv [0, 1, 2, 3, 4, 5, 6]).coeff 1 * y1 + (u.adv [0, 1, 2, 3, 4, 5, 6]).coeff 3 * u.reg 3) +
      (u.adv [0, 1, 2, 3, 4, 5, 6]).coeff 5 * ((u.adv [0, 1, 2, 3, 4, 5, 6]).coeff 0 * ((u.adv [0, 1, 2, 3, 4, 5, 6]).coeff 3 * y1 - (u.adv [0, 1, 2, 3, 4, 5, 6]).coeff 1 * u.reg 3) + (u.adv [0, 1, 2, 3, 4, 5, 6]).coeff 2 * u.reg 2) +
      (u.adv [0, 1, 2, 3, 4, 5, 6]).coeff 4 * ((u.adv [0, 1, 2, 3, 4, 5, 6]).coeff 2 * ((u.adv [0, 1, 2, 3, 4, 5, 6]).coeff 3 * y1 - (u.adv [0, 1, 2, 3, 4, 5, 6]).coeff 1 * u.reg 3) - (u.adv [0, 1, 2, 3, 4, 5, 6]).coeff 0 * u.reg 2) := by
    rw [hy1]; simp [iir24b, FU.set, FU.adv]
  obtain ⟨y, E4⟩ := E4
  refine ⟨⟨⟨?_, ?_⟩, ?_, ?_⟩, ?_⟩
  · rw [E0, E1]; exact s
  · rw [E2, E3]; exact s2
  · rw [E4]; exact (c y).1
  · rw [E4]; exact (c y).2
  · rw [EY]; exact o2

/-- **C101 (smooth, four poles).** Over a whole life of blocks, with designs changing arbitrarily from block to block as long as they are uniformly stable, the output never exceeds a constant times the largest input. -/
theorem C101_smooth_four_modulated_partial {ρ κ G : ℝ} (hρ : 0 ≤ ρ) (hρ1 : ρ < 1) (hκ : 0 < κ) (hG : 0 ≤ G) : ∃ K, ∀ (M : ℝ) (stage : ℤ) (bs : List ((ℕ → ℝ) × List ℝ)), 0 ≤ M →
    (∀ b ∈ bs, b.1 ∈ Spec.mild ρ κ G ∧ b.2.length = 64 ∧ ∀ x ∈ b.2, |x| ≤ M) → ∀ y ∈ (life iir24b stage Maker.new (fun _ => 0) bs).2.2, |y| ≤ K * M := by
  have r2 : ρ ^ 2 < 1 := by nlinarith
  obtain ⟨w, hw⟩ : ∃ w, w = (1 + 3 * ρ ^ 2) / (2 * (1 + ρ ^ 2)) := ⟨_, rfl⟩
  have p : 0 < 2 * (1 + ρ ^ 2) := by positivity
  have w0 : 0 < w := by rw [hw]; positivity
  have w1 : w < 1 := by rw [hw, div_lt_one p]; linarith
  have h2 : (2 - w + 0 * w) * ρ ^ 2 < w := by
    have : 2 * ρ ^ 2 < w * (1 + ρ ^ 2) := by rw [hw]; field_simp; linarith
    linarith
  have h1 : 0 * w < (1 - w) * (κ ^ 2 / (1 + κ ^ 2)) / 2 := by
    rw [zero_mul]
    have : 0 < 1 - w := by linarith
    positivity
  obtain ⟨l, e, b, R⟩ := rate_of hρ hρ1.le le_rfl w0 w1 h1 h2
  refine ⟨G * (3 + 5 * Real.sqrt (b / w)) * (G * (3 + 5 * Real.sqrt (b / w))), fun M stage bs M0 hb y hy => ?_⟩
  have hul := C104_hull C104_advances.2.2.2.2.1 (mild_convex hκ.le ρ G) (mild_zero κ hρ hG) stage (fun _ => 0) bs (fun b h => ⟨(hb b h).1, (hb b h).2.1⟩)
  have := (life_out (A := fun x => |x| ≤ M) (Q := fun y => |y| ≤ G * (3 + 5 * Real.sqrt (b / w)) * (G * (3 + 5 * Real.sqrt (b / w)) * M))
    (Inv := fun r => (r 0 ^ 2 + w * r 1 ^ 2 ≤ b * M ^ 2 ∧ r 2 ^ 2 + w * r 3 ^ 2 ≤ b * (G * (3 + 5 * Real.sqrt (b / w)) * M) ^ 2) ∧ 0 ≤ r 4 ∧ r 4 ≤ 1)
    (fun u x hP hx hi => bound24b hρ1.le hκ R u x hP.2 hx hi) stage bs _ _ hul (fun b h => (hb b h).2.2) ⟨by
      have := R.b0
      norm_num
      constructor <;> positivity, le_rfl, zero_le_one⟩).2 y hy
  linarith

/-- In a life of blocks, a coefficient wanted between `lo` and `hi`, with 0 among them, moves in a sample by at most a fifth of the range, over 64. -/
theorem life_creep {step : FU → ℝ → FU × ℝ} {is : List ℕ} (h : Spec.Advances step is) {i : ℕ} (hi : i ∈ is) {lo up : ℝ} (l0 : lo ≤ 0) (u0 : 0 ≤ up) (stage : ℤ) (bs : List ((ℕ → ℝ) × List ℝ)) :
    ∀ (m : Maker) (reg : ℕ → ℝ), (∀ b ∈ bs, (lo ≤ b.1 i ∧ b.1 i ≤ up) ∧ b.2.length = 64) →
    (m.firstRun = true ∨ (lo ≤ m.tcoeff i ∧ m.tcoeff i ≤ up) ∧ m.coeff i = m.tcoeff i) →
    Spec.LifeAlways step (fun u _ => |u.dcoeff i| ≤ (up - lo) / 320) stage m reg bs := by
  have inside : ∀ (xs : List ℝ) (u : FU), |u.dcoeff i| ≤ (up - lo) / 320 → Spec.Always step (fun u _ => |u.dcoeff i| ≤ (up - lo) / 320) u xs := by
    intro xs
    induction xs with
    | nil => intros; trivial
    | cons x xs ih => exact fun u hu => ⟨hu, ih _ (by rw [(h u x).2]; exact hu)⟩
  induction bs with
  | nil => intros; trivial
  | cons b bs ih =>
    intro m reg hb hm
    obtain ⟨hb1, hb2⟩ := hb b (by simp)
    by_cases hf : m.firstRun = true
    · have e' := block_first h m hf reg stage b.1 b.2
      refine ⟨inside _ _ ?_, ih _ _ (fun c hc => hb c (by simp [hc])) (.inr ?_)⟩
      · simp [Maker.fromDirect, hf]; linarith
      · rw [e']; simp [l0, u0]
    · have hf' : m.firstRun = false := by simpa using hf
      obtain ⟨ht, hc⟩ := hm.resolve_left hf
      obtain ⟨l1, l2⟩ := C104_ramp_lands h m hf' reg stage b.1 b.2 hb2 i hi
      have t0 : lo ≤ 0.8 * m.tcoeff i + 0.2 * b.1 i ∧ 0.8 * m.tcoeff i + 0.2 * b.1 i ≤ up := by
        norm_num
        constructor <;> linarith
      refine ⟨inside _ _ ?_, ih _ _ (fun c hc => hb c (by simp [hc])) (.inr ?_)⟩
      · simp only [Maker.fromDirect, hf', Bool.false_eq_true, if_false, SMOOTH]
        rw [hc, abs_le]; norm_num; constructor <;> linarith
      · rw [l1, l2]; exact ⟨t0, rfl⟩

/-- Coefficients that move on by a fifth of their range, over 64, between the halves of a sample, add little. -/
theorem moved {a c d h f r : ℝ} (t1 : a ^ 2 + c ^ 2 ≤ 1) (d0 : |d| ≤ (1 - -1) / 320) (d2 : |h| ≤ (1 - 0) / 320) :
    ((a + d) * f + (c + h) * r) ^ 2 ≤ (a * f + c * r) ^ 2 + 0.0141 * (f ^ 2 + r ^ 2) := by
  have D0 : d ^ 2 ≤ (1 / 160) ^ 2 := by rw [← sq_abs]; exact pow_le_pow_left₀ (abs_nonneg _) (by linarith) 2
  have D2 : h ^ 2 ≤ (1 / 320) ^ 2 := by rw [← sq_abs]; exact pow_le_pow_left₀ (abs_nonneg _) (by linarith) 2
  obtain ⟨N, hN⟩ : ∃ N, N = f ^ 2 + r ^ 2 := ⟨_, rfl⟩
  have N0 : 0 ≤ N := by rw [hN]; positivity
  have E1 : (a * f + c * r) ^ 2 ≤ N := by
    have : (a * f + c * r) ^ 2 = (a ^ 2 + c ^ 2) * N - (c * f - a * r) ^ 2 := by rw [hN]; ring
    have k := mul_le_mul_of_nonneg_right t1 N0
    have := sq_nonneg (c * f - a * r)
    linarith
  have E2 : (d * f + h * r) ^ 2 ≤ (5 / 102400) * N := by
    have : (d * f + h * r) ^ 2 = (d ^ 2 + h ^ 2) * N - (h * f - d * r) ^ 2 := by rw [hN]; ring
    have k : d ^ 2 + h ^ 2 ≤ 5 / 102400 := by norm_num at D0 D2 ⊢; linarith
    have k := mul_le_mul_of_nonneg_right k N0
    have := sq_nonneg (h * f - d * r)
    linarith
  have e : ((a + d) * f + (c + h) * r) ^ 2 = (a * f + c * r) ^ 2 + 2 * (a * f + c * r) * (d * f + h * r) + (d * f + h * r) ^ 2 := by ring
  rw [e, ← hN]
  generalize a * f + c * r = A at *
  generalize d * f + h * r = B at *
  have y : 2 * A * B ≤ 0.007 * A ^ 2 + B ^ 2 / 0.007 := by
    have : 0 ≤ (0.007 * A - B) ^ 2 / 0.007 := by positivity
    have : (0.007 * A - B) ^ 2 / 0.007 = 0.007 * A ^ 2 - 2 * A * B + B ^ 2 / 0.007 := by ring
    linarith
  norm_num at y ⊢
  linarith

/-- The two-pole filter: one sample. Its two halves see the coefficients before and after the sample's step. -/
theorem bound12b {ρ κ G w l e b M : ℝ} (hρ1 : ρ ≤ 1) (hκ : 0 < κ) (R : Rate ρ κ 0.0141 w l e b) (u : FU) (x : ℝ)
    (hP : (Spec.Within (Spec.mild ρ κ G) [0, 1, 2, 3, 4, 5, 6, 7] u.coeff ∧ Spec.Within (Spec.mild ρ κ G) [0, 1, 2, 3, 4, 5, 6, 7] (iir12b u x).1.coeff) ∧ |u.dcoeff 0| ≤ (1 - -1) / 320 ∧ |u.dcoeff 2| ≤ (1 - 0) / 320) (hx : |x| ≤ M)
    (hi : u.reg 0 ^ 2 + w * u.reg 1 ^ 2 ≤ b * M ^ 2 ∧ 0 ≤ u.reg 2 ∧ u.reg 2 ≤ 1) :
    ((iir12b u x).1.reg 0 ^ 2 + w * (iir12b u x).1.reg 1 ^ 2 ≤ b * M ^ 2 ∧ 0 ≤ (iir12b u x).1.reg 2 ∧ (iir12b u x).1.reg 2 ≤ 1) ∧ |(iir12b u x).2| ≤ G * (3 + 5 * Real.sqrt (b / w)) * M := by
  have M0 : 0 ≤ M := (abs_nonneg x).trans hx
  obtain ⟨⟨hp, hq⟩, d0, d2⟩ := hP
  obtain ⟨⟨t1, t2, t3, t4, -⟩, n0, n1, n2⟩ := mild_within hρ1 hp
  obtain ⟨⟨-, -, -, s4, s5, s6, s7, s8⟩, m0, m1, m2⟩ := mild_within hρ1 hq
  obtain ⟨i1, g0, g1⟩ := hi
  have cc : ∀ i < 8, (iir12b u x).1.coeff i = u.coeff i + u.dcoeff i := by
    intro i hi
    simp only [iir12b, FU.adv, FU.set]
    interval_cases i <;> simp
  have c0 := cc 0 (by norm_num)
  have c1 := cc 1 (by norm_num)
  have c2 := cc 2 (by norm_num)
  have c3 := cc 3 (by norm_num)
  have c4 := cc 4 (by norm_num)
  have c5 := cc 5 (by norm_num)
  have c6 := cc 6 (by norm_num)
  have s := section_step (g := (u.coeff 0 + u.dcoeff 0) * (u.coeff 3 * x - u.coeff 1 * u.reg 1) + (u.coeff 2 + u.dcoeff 2) * u.reg 0) R hκ (by norm_num) t1 t2 t3 t4 hx i1 g0 g1 (moved t1 d0 d2)
  have o := section_out R.w0 R.w1 R.b0 M0 n0 n1 n2 t4 m0 m1 m2 s4 s5 s6 s7 hx i1
  have c := fun y => clip_unit (c := (iir12b u x).1.coeff 7) (y := y) s8
  have E0 : (iir12b u x).1.reg 0 = (u.coeff 2 * (u.coeff 3 * x - u.coeff 1 * u.reg 1) - u.coeff 0 * u.reg 0) * u.reg 2 := by simp [iir12b, FU.set, FU.adv]
  have E1 : (iir12b u x).1.reg 1 = ((u.coeff 0 + u.dcoeff 0) * (u.coeff 3 * x - u.coeff 1 * u.reg 1) + (u.coeff 2 + u.dcoeff 2) * u.reg 0) * u.reg 2 := by simp [iir12b, FU.set, FU.adv]
  have E2 : ∃ y, (iir12b u x).1.reg 2 = clipReg ((iir12b u x).1.coeff 7) y := ⟨(iir12b u x).2, by simp [iir12b, FU.set, FU.adv]⟩
  have EY : (iir12b u x).2 = (iir12b u x).1.coeff 6 * ((iir12b u x).1.coeff 1 * x + (iir12b u x).1.coeff 3 * u.reg 1) +
      (iir12b u x).1.coeff 5 * ((iir12b u x).1.coeff 0 * (u.coeff 3 * x - u.coeff 1 * u.reg 1) + (iir12b u x).1.coeff 2 * u.reg 0) +
      (iir12b u x).1.coeff 4 * (u.coeff 2 * (u.coeff 3 * x - u.coeff 1 * u.reg 1) - u.coeff 0 * u.reg 0) := by
    rw [c0, c1, c2, c3, c4, c5, c6]
    simp [iir12b, FU.set, FU.adv]
  obtain ⟨y, E2⟩ := E2
  refine ⟨⟨?_, ?_, ?_⟩, ?_⟩
  · rw [E0, E1]; exact s
  · rw [E2]; exact (c y).1
  · rw [E2]; exact (c y).2
  · rw [EY]; exact o

/-- **C101 (smooth, two poles).** The same for the two-pole filter, where there is room for coefficients that move between the halves of a sample: for some weight `w`, both margins exceed what the smoothing of the coefficients lets them move in a sample. -/
theorem C101_smooth_two_modulated_partial {ρ κ G w : ℝ} (hρ : 0 ≤ ρ) (hρ1 : ρ < 1) (hκ : 0 < κ) (hG : 0 ≤ G) (w0 : 0 < w) (w1 : w < 1) (h1 : 0.0141 * w < (1 - w) * (κ ^ 2 / (1 + κ ^ 2)) / 2)
    (h2 : (2 - w + 0.0141 * w) * ρ ^ 2 < w) : ∃ K, ∀ (M : ℝ) (stage : ℤ) (bs : List ((ℕ → ℝ) × List ℝ)), 0 ≤ M →
    (∀ b ∈ bs, b.1 ∈ Spec.mild ρ κ G ∧ b.2.length = 64 ∧ ∀ x ∈ b.2, |x| ≤ M) → ∀ y ∈ (life iir12b stage Maker.new (fun _ => 0) bs).2.2, |y| ≤ K * M := by
  obtain ⟨l, e, b, R⟩ := rate_of hρ hρ1.le (by norm_num) w0 w1 h1 h2
  refine ⟨G * (3 + 5 * Real.sqrt (b / w)), fun M stage bs M0 hb y hy => ?_⟩
  have adv := C104_advances.2.1
  have hul := C104_hull adv (mild_convex hκ.le ρ G) (mild_zero κ hρ hG) stage (fun _ => 0) bs (fun b h => ⟨(hb b h).1, (hb b h).2.1⟩)
  have cr0 := life_creep adv (i := 0) (by simp) (lo := -1) (up := 1) (by norm_num) (by norm_num) stage bs Maker.new (fun _ => 0) (fun b h => by
    obtain ⟨a1, -⟩ := (hb b h).1
    exact ⟨abs_le.1 (abs_le_of_sq_le_sq (by nlinarith [sq_nonneg (b.1 2)]) zero_le_one), (hb b h).2.1⟩) (.inl rfl)
  have cr2 := life_creep adv (i := 2) (by simp) (lo := 0) (up := 1) (by norm_num) (by norm_num) stage bs Maker.new (fun _ => 0) (fun b h => by
    obtain ⟨a1, a2, -⟩ := (hb b h).1
    exact ⟨⟨le_trans (by positivity) a2, (abs_le.1 (abs_le_of_sq_le_sq (by nlinarith [sq_nonneg (b.1 0)]) zero_le_one)).2⟩, (hb b h).2.1⟩) (.inl rfl)
  exact (life_out (A := fun x => |x| ≤ M) (Q := fun y => |y| ≤ G * (3 + 5 * Real.sqrt (b / w)) * M)
    (Inv := fun r => r 0 ^ 2 + w * r 1 ^ 2 ≤ b * M ^ 2 ∧ 0 ≤ r 2 ∧ r 2 ≤ 1)
    (fun u x hP hx hi => bound12b hρ1.le hκ R u x hP hx hi) stage bs _ _ (life_both stage bs _ _ hul (life_both stage bs _ _ cr0 cr2)) (fun b h => (hb b h).2.2) ⟨by
      have := R.b0
      norm_num
      positivity, le_rfl, zero_le_one⟩).2 y hy

/-- Every stable design gives coefficients of this kind. -/
theorem lattice_tame (f : Fc) (gain : ℝ) {clip : ℝ} (hclip : 0 ≤ clip) (hst : Biquad.Spec.Stable (Spec.biquad f gain)) : ∃ ρ κ G, 0 ≤ ρ ∧ ρ < 1 ∧ 0 < κ ∧ 0 ≤ G ∧ f.lattice gain clip ∈ Spec.mild ρ κ G := by
  obtain ⟨ha1, ha2, hq1, hq2, hp1, hp2, -⟩ := lattice_ok (clip := clip) hst
  have h7 : f.lattice gain clip 7 = clip := rfl
  obtain ⟨s2, s1⟩ := hst
  generalize f.lattice gain clip = k at *
  obtain ⟨κ, hκ⟩ : ∃ κ, κ = k 2 / (|k 0| + 1) := ⟨_, rfl⟩
  refine ⟨|k 1|, κ, max |k 4| (max |k 5| |k 6|), abs_nonneg _, ?_, by rw [hκ]; positivity, by positivity, ?_, ?_, le_rfl, ?_, le_max_left _ _, (le_max_left _ _).trans (le_max_right _ _), (le_max_right _ _).trans (le_max_right _ _), by rw [h7]; exact hclip⟩
  · exact abs_lt_of_sq_lt_sq (by nlinarith [pow_pos hp2 2]) zero_le_one
  · nlinarith
  · rw [hκ, div_mul_eq_mul_div, div_le_iff₀ (by positivity)]; nlinarith [abs_nonneg (k 0)]
  · exact abs_le_of_sq_le_sq (by nlinarith [sq_nonneg (k 1)]) zero_le_one

/-- The margins are met by designs between an eighth and three eighths of the sample rate with pole radius up to 0.94. -/
example : 0.0141 * 0.92 < (1 - 0.92) * ((1:ℝ) ^ 2 / (1 + 1 ^ 2)) / 2 ∧ (2 - 0.92 + 0.0141 * 0.92) * (0.89:ℝ) ^ 2 < 0.92 := by norm_num

end Verif.Filters
