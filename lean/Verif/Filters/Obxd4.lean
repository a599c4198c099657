import Verif.Filters.Obxd
/-!
# Claims about the four-pole OB-Xd filter (C209–C211)
-/
namespace Verif.Filters
open Verif

/-! ## C209: bounded at every resonance -/

theorem tptpc_eq {g : ℝ} (hg : 0 ≤ g) (s x : ℝ) : (tptpc s x g).1 = 2 * (tptpc s x g).2 - s ∧ (tptpc s x g).2 - s = g * (x - (tptpc s x g).2) ∧ (tptpc s x g).2 = (1 - g / (1 + g)) * s + g / (1 + g) * x := by
  have e1 : (1.0 : ℝ) = 1 := by norm_num
  have : 1 + g ≠ 0 := by positivity
  simp only [tptpc, e1]
  refine ⟨by ring, ?_, ?_⟩ <;> (field_simp; ring)

/-- The dissipation of three passive one-pole sections in a loop with feedback `κ`. -/
theorem loop_form {κ a b c : ℝ} (h0 : 0 ≤ κ) (h1 : κ ≤ 1.79) : (a ^ 2 + b ^ 2 + c ^ 2) / 20 ≤ a ^ 2 + b ^ 2 + c ^ 2 - a * b - b * c + κ * (a * c) := by
  have z0 : (a ^ 2 + b ^ 2 + c ^ 2) / 20 ≤ a ^ 2 + b ^ 2 + c ^ 2 - a * b - b * c := by
    nlinarith [sq_nonneg (a - b / 2 * 1.06), sq_nonneg (c - b / 2 * 1.06)]
  have z1 : (a ^ 2 + b ^ 2 + c ^ 2) / 20 ≤ a ^ 2 + b ^ 2 + c ^ 2 - a * b - b * c + 1.79 * (a * c) := by
    norm_num
    nlinarith [sq_nonneg (b - (a + c) / 1.9), sq_nonneg (a + c), sq_nonneg (a - c)]
  have : (a ^ 2 + b ^ 2 + c ^ 2) / 20 * 1.79 ≤ (a ^ 2 + b ^ 2 + c ^ 2 - a * b - b * c + κ * (a * c)) * 1.79 := by
    have k0 := mul_le_mul_of_nonneg_left z0 (sub_nonneg.2 h1)
    have k1 := mul_le_mul_of_nonneg_left z1 h0
    nlinarith
  linarith

set_option maxHeartbeats 1000000 in
/-- The feedback loop: what enters the second section is a bounded signal less at most 1.79 times the output of the last, even while the cutoff glides. -/
theorem obxd_loop {x k g gn s1 s2 s3 s4 A X : ℝ} (g0 : 0 ≤ g) (g1 : g ≤ 1) (n0 : 0 ≤ gn) (dg : |g - gn| ≤ 1 / 64) (k0 : 0 ≤ k) (k1 : k ≤ 3.5) (hs : |s1| ≤ A) (hx : |x| ≤ X)
    {y0 y1 y2 y3 y4 : ℝ} (e0 : y0 = obxdSolve4 x (g / (1 + g)) s1 s2 s3 s4 gn k) (e1 : y1 = (y0 - s1) * (g / (1 + g)) + s1) (e2 : y2 = (1 - g / (1 + g)) * s2 + g / (1 + g) * y1)
    (e3 : y3 = (1 - g / (1 + g)) * s3 + g / (1 + g) * y2) (e4 : y4 = (1 - g / (1 + g)) * s4 + g / (1 + g) * y3) :
    ∃ p κ : ℝ, |p| ≤ A + X ∧ 0 ≤ κ ∧ κ ≤ 1.79 ∧ y1 = p - κ * y4 := by
  have o1 : (1.0 : ℝ) = 1 := by norm_num
  have a0 : 0 < 1 + g := by linarith
  have b0 : 0 < 1 + gn := by linarith
  set l := g / (1 + g) with hl
  have l0 : 0 ≤ l := by positivity
  have l1 : l ≤ 1 / 2 := by rw [hl, div_le_iff₀ a0]; linarith
  have al : (1 - l) * (1 + g) = 1 := by rw [hl]; field_simp; ring
  set σ := (1 + g) / (1 + gn) with hσ
  have σ0 : 0 < σ := by positivity
  have dσ : |1 - σ| ≤ 1 / 64 := by
    have : 1 - σ = (gn - g) / (1 + gn) := by rw [hσ]; field_simp; ring
    rw [this, abs_div, abs_of_pos b0, div_le_iff₀ b0, abs_sub_comm]
    linarith
  rw [abs_le] at dσ
  have l2 : l ^ 2 ≤ 1 / 4 := by nlinarith
  have l4 : l ^ 4 ≤ 1 / 16 := by nlinarith [sq_nonneg (l ^ 2)]
  have l4' : 0 ≤ l ^ 4 := by positivity
  have kl : k * l ^ 4 ≤ 0.21875 := by norm_num at k1 ⊢; nlinarith
  have kl0 : 0 ≤ k * l ^ 4 := by positivity
  set d := 1 + k * l ^ 4 * (1 - σ) with hd
  have d0 : 0.9965 ≤ d := by rw [hd]; norm_num at kl ⊢; nlinarith
  have dp : 0 < d := by linarith
  have key : y0 * d = x - k * σ * y4 := by
    have n : 0 < 1 + k * (l * l * (l * l)) := by positivity
    have h : y0 * (1 + k * (l * l * (l * l))) = x - k * ((l * (l * (l * s1 + s2) + s3) + s4) * (1 / (1 + gn))) := by
      rw [e0]; simp only [obxdSolve4, o1]; field_simp
    have T : (l * (l * (l * s1 + s2) + s3) + s4) * (1 / (1 + gn)) = σ * (y4 - l ^ 4 * y0) := by
      have : y4 - l ^ 4 * y0 = (1 - l) * (l * (l * (l * s1 + s2) + s3) + s4) := by rw [e4, e3, e2, e1]; ring
      have q : σ * (1 - l) = 1 / (1 + gn) := by
        rw [hσ, div_mul_eq_mul_div, mul_comm (1 + g), al]
      rw [this, ← mul_assoc, q, mul_comm]
    rw [T] at h
    rw [hd]
    linear_combination h
  refine ⟨(1 - l) * s1 + l * x / d, l * k * σ / d, ?_, by positivity, ?_, ?_⟩
  · have h1 : |(1 - l) * s1| ≤ A := by
      rw [abs_mul, abs_of_nonneg (by linarith)]
      nlinarith [abs_nonneg s1]
    have h2 : |l * x / d| ≤ X := by
      rw [abs_div, abs_of_pos dp, abs_mul, abs_of_nonneg l0, div_le_iff₀ dp]
      have := abs_nonneg x
      norm_num at d0
      nlinarith
    exact (abs_add_le _ _).trans (add_le_add h1 h2)
  · rw [div_le_iff₀ dp]
    have s2' : σ ≤ 65 / 64 := by linarith
    have m1 : l * k ≤ 1.75 := (mul_le_mul l1 k1 k0 (by norm_num)).trans (by norm_num)
    have m2 : l * k * σ ≤ 1.75 * (65 / 64) := mul_le_mul m1 s2' σ0.le (by norm_num)
    norm_num at m2 d0 ⊢
    linarith
  · rw [e1]
    field_simp
    linear_combination l * key

set_option maxHeartbeats 1000000 in
/-- One step of the last three sections keeps their energy within `7243 P²`. -/
theorem sections_bound {g p κ P : ℝ} (g0 : 0 ≤ g) (g1 : g ≤ 1) (k0 : 0 ≤ κ) (k1 : κ ≤ 1.79) (hp : |p| ≤ P) {s2 s3 s4 t2 t3 t4 y1 y2 y3 y4 : ℝ}
    (f1 : y1 = p - κ * y4) (f2 : y2 - s2 = g * (y1 - y2)) (f3 : y3 - s3 = g * (y2 - y3)) (f4 : y4 - s4 = g * (y3 - y4))
    (h2 : t2 = 2 * y2 - s2) (h3 : t3 = 2 * y3 - s3) (h4 : t4 = 2 * y4 - s4) (h : s2 ^ 2 + s3 ^ 2 + s4 ^ 2 ≤ 7243 * P ^ 2) : t2 ^ 2 + t3 ^ 2 + t4 ^ 2 ≤ 7243 * P ^ 2 := by
  have pp : p ^ 2 ≤ P ^ 2 := sq_le_sq' (by linarith [(abs_le.1 hp).1]) (abs_le.1 hp).2
  have en : t2 ^ 2 + t3 ^ 2 + t4 ^ 2 = s2 ^ 2 + s3 ^ 2 + s4 ^ 2 + 4 * g * (y2 * (y1 - y2) + y3 * (y2 - y3) + y4 * (y3 - y4)) := by
    rw [h2, h3, h4]
    linear_combination 4 * y2 * f2 + 4 * y3 * f3 + 4 * y4 * f4
  have fm := loop_form (a := y2) (b := y3) (c := y4) k0 k1
  have diss : y2 * (y1 - y2) + y3 * (y2 - y3) + y4 * (y3 - y4) ≤ 10 * P ^ 2 - (y2 ^ 2 + y3 ^ 2 + y4 ^ 2) / 40 := by
    rw [f1]
    nlinarith [sq_nonneg (p * 20 - y2), sq_nonneg y3, sq_nonneg y4]
  rcases le_total (y2 ^ 2 + y3 ^ 2 + y4 ^ 2) (400 * P ^ 2) with hy | hy
  · -- the taps are small, hence so is the energy
    have b2 : |s2| ≤ 2 * |y2| + |p| + 1.79 * |y4| := by
      have : s2 = (1 + g) * y2 - g * p + g * κ * y4 := by rw [f1] at f2; linarith
      rw [this]
      have a1 : |(1 + g) * y2| ≤ 2 * |y2| := by rw [abs_mul, abs_of_nonneg (by linarith)]; nlinarith [abs_nonneg y2]
      have a2 : |g * p| ≤ |p| := by rw [abs_mul, abs_of_nonneg g0]; nlinarith [abs_nonneg p]
      have a3 : |g * κ * y4| ≤ 1.79 * |y4| := by
        rw [abs_mul, abs_of_nonneg (by positivity)]
        exact mul_le_mul_of_nonneg_right (by nlinarith) (abs_nonneg _)
      have := abs_add_le ((1 + g) * y2 - g * p) (g * κ * y4)
      have := abs_sub ((1 + g) * y2) (g * p)
      linarith
    have q2 : s2 ^ 2 ≤ 12 * y2 ^ 2 + 3 * P ^ 2 + 10 * y4 ^ 2 := by
      rw [← sq_abs s2]
      have e : (2 * |y2| + |p| + 1.79 * |y4|) ^ 2 ≤ 12 * y2 ^ 2 + 3 * P ^ 2 + 10 * y4 ^ 2 := by
        have c3 : ∀ a b c : ℝ, (a + b + c) ^ 2 ≤ 3 * a ^ 2 + 3 * b ^ 2 + 3 * c ^ 2 := fun a b c => by nlinarith [sq_nonneg (a - b), sq_nonneg (b - c), sq_nonneg (a - c)]
        refine (c3 _ _ _).trans ?_
        rw [mul_pow, mul_pow, sq_abs, sq_abs, sq_abs]
        have := sq_nonneg y4
        norm_num
        linarith
      exact (pow_le_pow_left₀ (abs_nonneg _) b2 2).trans e
    have q3 : s3 ^ 2 ≤ 8 * y3 ^ 2 + 2 * y2 ^ 2 := by
      have : s3 = (1 + g) * y3 - g * y2 := by linarith
      rw [this]
      nlinarith [sq_nonneg ((1 + g) * y3 + g * y2), mul_nonneg (show 0 ≤ 4 - (1 + g) ^ 2 by nlinarith) (sq_nonneg y3), mul_nonneg (show 0 ≤ 1 - g ^ 2 by nlinarith) (sq_nonneg y2)]
    have q4 : s4 ^ 2 ≤ 8 * y4 ^ 2 + 2 * y3 ^ 2 := by
      have : s4 = (1 + g) * y4 - g * y3 := by linarith
      rw [this]
      nlinarith [sq_nonneg ((1 + g) * y4 + g * y3), mul_nonneg (show 0 ≤ 4 - (1 + g) ^ 2 by nlinarith) (sq_nonneg y4), mul_nonneg (show 0 ≤ 1 - g ^ 2 by nlinarith) (sq_nonneg y3)]
    have small : s2 ^ 2 + s3 ^ 2 + s4 ^ 2 ≤ 7203 * P ^ 2 := by nlinarith [sq_nonneg y2, sq_nonneg y3, sq_nonneg y4]
    rw [en]
    have gd : g * (y2 * (y1 - y2) + y3 * (y2 - y3) + y4 * (y3 - y4)) ≤ 1 * (10 * P ^ 2) := by
      have : y2 * (y1 - y2) + y3 * (y2 - y3) + y4 * (y3 - y4) ≤ 10 * P ^ 2 := by nlinarith [sq_nonneg y2, sq_nonneg y3, sq_nonneg y4]
      have P0 := sq_nonneg P
      nlinarith
    linarith
  · -- the taps are large, so energy is lost
    rw [en]
    have : g * (y2 * (y1 - y2) + y3 * (y2 - y3) + y4 * (y3 - y4)) ≤ 0 := mul_nonpos_of_nonneg_of_nonpos g0 (by linarith)
    linarith

theorem mix4_le {pmi y1 y2 y3 y4 B : ℝ} (h1 : |y1| ≤ 2 * B) (h2 : |y2| ≤ B) (h3 : |y3| ≤ B) (h4 : |y4| ≤ B) : |obxdMix4 pmi 0 y1 y2 y3 y4| ≤ 2 * B := by
  have B0 := (abs_nonneg _).trans h2
  have o : (1.0 : ℝ) = 1 ∧ (2.0 : ℝ) = 2 ∧ (3.0 : ℝ) = 3 ∧ (0.0 : ℝ) = 0 := by norm_num
  have h34 := (abs_add_le y4 y3).trans (add_le_add h4 h3)
  simp only [obxdMix4, o.1, o.2.1, o.2.2.1, o.2.2.2]
  by_cases c0 : pmi = 0
  · subst c0
    norm_num
    linarith
  · by_cases c1 : pmi = 1
    · subst c1
      norm_num
      linarith
    · by_cases c2 : pmi = 2
      · subst c2
        norm_num
        linarith
      · by_cases c3 : pmi = 3
        · subst c3
          norm_num
          linarith
        · simp [c0, c1, c2, c3]
          linarith

/-- What a sample needs of its settings: the cutoff before and after its increment, the resonance, the reach `ρ` of the damping stage. -/
structure Spec.Obxd4Ok (ρ : ℝ) (u : FU) : Prop where
  g0 : 0 ≤ u.coeff 0
  g1 : u.coeff 0 ≤ 1
  n0 : 0 ≤ Spec.now u 0
  slow : |u.dcoeff 0| ≤ 1 / 64
  r0 : 0 ≤ Spec.now u 1
  r1 : Spec.now u 1 ≤ 3.5
  c0 : 0 ≤ Spec.now u 3
  c1 : Spec.now u 3 ≤ ρ
  whole : u.coeff 6 = 0

/-- The states reachable: the first capacitor is limited by the arc tangent, the others by their energy. -/
structure Obxd4Inv (ρ X : ℝ) (r : ℕ → ℝ) : Prop where
  first : |r 0| ≤ Real.pi / 2 * ρ
  rest : r 1 ^ 2 + r 2 ^ 2 + r 3 ^ 2 ≤ 7243 * (Real.pi / 2 * ρ + X) ^ 2

set_option maxHeartbeats 1000000 in
theorem obxd4_step {ρ X : ℝ} (u : FU) (x : ℝ) (h : Spec.Obxd4Ok ρ u) (hx : |x| ≤ X) (hi : Obxd4Inv ρ X u.reg) :
    Obxd4Inv ρ X (obxd4 u x).1.reg ∧ |(obxd4 u x).2| ≤ 264 * (Real.pi / 2 * ρ + X) := by
  have o1 : (1.0 : ℝ) = 1 := by norm_num
  have ρ0 : 0 ≤ ρ := h.c0.trans h.c1
  have A0 : 0 ≤ Real.pi / 2 * ρ := mul_nonneg (by positivity) ρ0
  have P0 : 0 ≤ Real.pi / 2 * ρ + X := add_nonneg A0 ((abs_nonneg _).trans hx)
  set g := u.coeff 0 with hg
  set y0 := obxdSolve4 x (g / (1 + g)) (u.reg 0) (u.reg 1) (u.reg 2) (u.reg 3) (Spec.now u 0) (Spec.now u 1) with hy0
  set y1 := (y0 - u.reg 0) * (g / (1 + g)) + u.reg 0 with hy1
  set p2 := tptpc (u.reg 1) y1 g with hp2
  set p3 := tptpc (u.reg 2) p2.2 g with hp3
  set p4 := tptpc (u.reg 3) p3.2 g with hp4
  obtain ⟨a2, b2, c2⟩ := tptpc_eq h.g0 (u.reg 1) y1
  obtain ⟨a3, b3, c3⟩ := tptpc_eq h.g0 (u.reg 2) p2.2
  obtain ⟨a4, b4, c4⟩ := tptpc_eq h.g0 (u.reg 3) p3.2
  rw [← hp2] at a2 b2 c2
  rw [← hp3] at a3 b3 c3
  rw [← hp4] at a4 b4 c4
  have e0 : (obxd4 u x).1.reg 0 = Real.arctan ((y1 + (y0 - u.reg 0) * (g / (1 + g))) * Spec.now u 2) * Spec.now u 3 := by
    simp [obxd4, FU.set, FU.adv, o1]; rfl
  have e1 : (obxd4 u x).1.reg 1 = p2.1 := by simp [obxd4, FU.set, FU.adv, o1]; rfl
  have e2 : (obxd4 u x).1.reg 2 = p3.1 := by simp [obxd4, FU.set, FU.adv, o1]; rfl
  have e3 : (obxd4 u x).1.reg 3 = p4.1 := by simp [obxd4, FU.set, FU.adv, o1]; rfl
  have eo : (obxd4 u x).2 = obxdMix4 (u.coeff 5) 0 y1 p2.2 p3.2 p4.2 * (1 + Spec.now u 1 * 0.45) * 0.6 := by
    rw [← h.whole]
    have n : ∀ i ∈ [0, 1, 2, 3, 4, 5, 6], (u.adv [0, 1, 2, 3, 4, 5, 6]).coeff i = Spec.now u i := fun i hi => by simp only [FU.adv, hi, if_true, Spec.now]
    simp only [obxd4, o1, n 0 (by simp), n 1 (by simp)]; rfl
  obtain ⟨p, κ, hp, k0, k1, ey⟩ := obxd_loop (s2 := u.reg 1) (s3 := u.reg 2) (s4 := u.reg 3) h.g0 h.g1 h.n0
    (by rw [← hg]; unfold Spec.now; rw [← hg, show g - (g + u.dcoeff 0) = -u.dcoeff 0 by ring, abs_neg]; exact h.slow) h.r0 h.r1 hi.first hx hy0 hy1 c2 c3 c4
  have rest := sections_bound h.g0 h.g1 k0 k1 hp ey b2 b3 b4 a2 a3 a4 hi.rest
  refine ⟨⟨?_, by rw [e1, e2, e3]; exact rest⟩, ?_⟩
  · rw [e0, abs_mul, abs_of_nonneg h.c0]
    refine mul_le_mul ?_ h.c1 h.c0 (by positivity)
    rw [abs_le]
    exact ⟨(by linarith [Real.neg_pi_div_two_lt_arctan ((y1 + (y0 - u.reg 0) * (g / (1 + g))) * Spec.now u 2)]), (Real.arctan_lt_pi_div_two _).le⟩
  · have ir := hi.rest
    generalize Real.pi / 2 * ρ + X = P at *
    have root : ∀ z : ℝ, z ^ 2 ≤ 7243 * P ^ 2 → |z| ≤ 85.2 * P := fun z hz => by
      refine abs_le_of_sq_le_sq ?_ (by positivity)
      rw [mul_pow]; norm_num; nlinarith [sq_nonneg P]
    have s1 := root (u.reg 1) (by nlinarith [sq_nonneg (u.reg 2), sq_nonneg (u.reg 3)])
    have s2 := root (u.reg 2) (by nlinarith [sq_nonneg (u.reg 1), sq_nonneg (u.reg 3)])
    have s3 := root (u.reg 3) (by nlinarith [sq_nonneg (u.reg 1), sq_nonneg (u.reg 2)])
    have t1 := root p2.1 (by nlinarith [sq_nonneg p3.1, sq_nonneg p4.1])
    have t2 := root p3.1 (by nlinarith [sq_nonneg p2.1, sq_nonneg p4.1])
    have t3 := root p4.1 (by nlinarith [sq_nonneg p2.1, sq_nonneg p3.1])
    have avg : ∀ {s t y : ℝ}, t = 2 * y - s → |s| ≤ 85.2 * P → |t| ≤ 85.2 * P → |y| ≤ 85.2 * P := fun {s t y} e hs ht => by
      rw [abs_le] at *
      constructor <;> linarith
    have z2 := avg a2 s1 t1
    have z3 := avg a3 s2 t2
    have z4 := avg a4 s3 t3
    have z1 : |y1| ≤ 2 * (85.2 * P) := by
      rw [ey]
      have m : |κ * p4.2| ≤ 1.79 * (85.2 * P) := by
        rw [abs_mul, abs_of_nonneg k0]
        exact mul_le_mul k1 z4 (abs_nonneg _) (by norm_num)
      have := abs_sub p (κ * p4.2)
      have m' : 1.79 * (85.2 * P) = 152.508 * P := by ring
      have m'' : 2 * (85.2 * P) = 170.4 * P := by ring
      rw [m''] 
      rw [m'] at m
      linarith
    have mix := mix4_le (pmi := u.coeff 5) z1 z2 z3 z4
    rw [eo, abs_mul, abs_mul, abs_of_nonneg (by have := h.r0; positivity : (0 : ℝ) ≤ 1 + Spec.now u 1 * 0.45), abs_of_nonneg (by norm_num : (0 : ℝ) ≤ 0.6)]
    have q : 1 + Spec.now u 1 * 0.45 ≤ 2.575 := by have := h.r1; norm_num at this ⊢; linarith
    have := mul_le_mul mix q (by have := h.r0; positivity) (by positivity)
    norm_num at this ⊢
    linarith

theorem obxd4_advances : Spec.Advances obxd4 [0, 1, 2, 3, 4, 5, 6] := fun _ _ => ⟨rfl, rfl⟩

/-- In a life of 64-sample blocks no coefficient that stays between 0 and `W` moves by more than `W/64` in a sample. -/
theorem life_slope {step : FU → ℝ → FU × ℝ} {is : List ℕ} (h : Spec.Advances step is) {i : ℕ} (hi : i ∈ is) {W : ℝ} (stage : ℤ) (bs : List ((ℕ → ℝ) × List ℝ)) :
    ∀ (m : Maker) (reg : ℕ → ℝ), (∀ b ∈ bs, (0 ≤ b.1 i ∧ b.1 i ≤ W) ∧ b.2.length = 64) → 0 ≤ W →
    (m.firstRun = true ∨ (0 ≤ m.coeff i ∧ m.coeff i ≤ W) ∧ 0 ≤ m.tcoeff i ∧ m.tcoeff i ≤ W) →
    Spec.LifeAlways step (fun u _ => |u.dcoeff i| ≤ W / 64) stage m reg bs := by
  have inside : ∀ (xs : List ℝ) (u : FU), |u.dcoeff i| ≤ W / 64 → Spec.Always step (fun u _ => |u.dcoeff i| ≤ W / 64) u xs := by
    intro xs
    induction xs with
    | nil => intros; trivial
    | cons x xs ih => exact fun u hu => ⟨hu, ih _ (by rw [(h u x).2]; exact hu)⟩
  induction bs with
  | nil => intros; trivial
  | cons b bs ih =>
    intro m reg hb hW hm
    obtain ⟨hb1, hb2⟩ := hb b (by simp)
    by_cases hf : m.firstRun = true
    · have e' := block_first h m hf reg stage b.1 b.2
      refine ⟨inside _ _ ?_, ih _ _ (fun c hc => hb c (by simp [hc])) hW (.inr ?_)⟩
      · simp [Maker.fromDirect, hf]; positivity
      · rw [e']; simp [hW]
    · have hf' : m.firstRun = false := by simpa using hf
      obtain ⟨hc, ht⟩ := hm.resolve_left hf
      obtain ⟨l1, l2⟩ := C104_ramp_lands h m hf' reg stage b.1 b.2 hb2 i hi
      have t0 : 0 ≤ 0.8 * m.tcoeff i + 0.2 * b.1 i ∧ 0.8 * m.tcoeff i + 0.2 * b.1 i ≤ W := by
        norm_num
        constructor <;> linarith
      refine ⟨inside _ _ ?_, ih _ _ (fun c hc => hb c (by simp [hc])) hW (.inr ?_)⟩
      · simp only [Maker.fromDirect, hf', Bool.false_eq_true, if_false, SMOOTH]
        rw [show (1.0 - 0.2 : ℝ) = 0.8 by norm_num, abs_mul, abs_of_nonneg (by norm_num : (0 : ℝ) ≤ 1.0 / 64), show (1.0 / 64 : ℝ) = 1 / 64 by norm_num, mul_one_div]
        refine div_le_div_of_nonneg_right ?_ (by norm_num)
        rw [abs_le]; constructor <;> linarith
      · rw [l1, l2]; exact ⟨t0, t0⟩

theorem life_both {step : FU → ℝ → FU × ℝ} {P Q : FU → ℝ → Prop} (stage : ℤ) (bs : List ((ℕ → ℝ) × List ℝ)) : ∀ m reg,
    Spec.LifeAlways step P stage m reg bs → Spec.LifeAlways step Q stage m reg bs → Spec.LifeAlways step (fun u x => P u x ∧ Q u x) stage m reg bs := by
  induction bs with
  | nil => intros; trivial
  | cons b bs ih => exact fun m reg hp hq => ⟨always_both _ _ hp.1 hq.1, ih _ _ hp.2 hq.2⟩

/-- The settings the four-pole filter makes at the inverse sample rate `si`: any sub-type, frequency and resonance. -/
def Spec.obxd4Setting (si : ℝ) (c : ℕ → ℝ) : Prop := ∃ (sub : ℕ) (hz reso : ℝ), 0 ≤ hz ∧ 0 ≤ reso ∧ reso ≤ 1 ∧ c = obxdCoeff4 sub hz si reso

theorem obxd_cutoff {hz si : ℝ} (h0 : 0 ≤ hz) (s0 : 0 < si) (s1 : si ≤ 1 / 88000) : 0 ≤ Real.tan (min hz 22000.0 * si * Real.pi) ∧ Real.tan (min hz 22000.0 * si * Real.pi) ≤ 1 := by
  have hp := Real.pi_pos
  have m0 : 0 ≤ min hz 22000.0 := le_min h0 (by norm_num)
  have m1 : min hz 22000.0 ≤ 22000.0 := min_le_right _ _
  have a0 : 0 ≤ min hz 22000.0 * si * Real.pi := by positivity
  have a1 : min hz 22000.0 * si * Real.pi ≤ Real.pi / 4 := by
    have : min hz 22000.0 * si ≤ 22000.0 * (1 / 88000) := mul_le_mul m1 s1 s0.le (by norm_num)
    have e : (22000.0 * (1 / 88000) : ℝ) = 1 / 4 := by norm_num
    rw [e] at this
    nlinarith
  refine ⟨Real.tan_nonneg_of_nonneg_of_le_pi_div_two a0 (by linarith), ?_⟩
  rw [← Real.tan_pi_div_four]
  rcases a1.lt_or_eq with h | h
  · exact (Real.tan_lt_tan_of_nonneg_of_lt_pi_div_two a0 (by linarith) h).le
  · rw [h]

/-- **C209.** At every oversampled rate from 88 kHz up, over a whole life of 64-sample blocks with any cutoff and any resonance up to full in each, and inputs within `X`, the four-pole filter's output stays within a bound that depends
on the sample rate and `X` only. -/
theorem C209_bounded {si X : ℝ} (s0 : 0 < si) (s1 : si ≤ 1 / 88000) (stage : ℤ) (bs : List ((ℕ → ℝ) × List ℝ)) (hb : ∀ b ∈ bs, Spec.obxd4Setting si b.1 ∧ b.2.length = 64 ∧ ∀ x ∈ b.2, |x| ≤ X) :
    ∀ y ∈ (life obxd4 stage Maker.new (fun _ => 0) bs).2.2, |y| ≤ 264 * (Real.pi / 2 * (44000 / (970 * √(44000 * si))) + X) := by
  set ρ := 44000 / (970 * √(44000 * si)) with hρ
  have ρ0 : 0 ≤ ρ := by positivity
  have q0 : 0 < √(44000 * si) := Real.sqrt_pos.2 (by positivity)
  set S : Set (ℕ → ℝ) := {v | (0 ≤ v 0 ∧ v 0 ≤ 1) ∧ (0 ≤ v 1 ∧ v 1 ≤ 3.5) ∧ (0 ≤ v 3 ∧ v 3 ≤ ρ) ∧ v 6 = 0} with hS
  have box : ∀ {w : ℝ} {p q a b : ℝ}, 0 ≤ a → 0 ≤ b → a + b = 1 → (0 ≤ p ∧ p ≤ w) → (0 ≤ q ∧ q ≤ w) → 0 ≤ a * p + b * q ∧ a * p + b * q ≤ w := by
    intro w p q a b ha hb hab hp hq
    refine ⟨add_nonneg (mul_nonneg ha hp.1) (mul_nonneg hb hq.1), ?_⟩
    have : w = a * w + b * w := by rw [← add_mul, hab, one_mul]
    rw [this]
    exact add_le_add (mul_le_mul_of_nonneg_left hp.2 ha) (mul_le_mul_of_nonneg_left hq.2 hb)
  have cv : Convex ℝ S := by
    rintro v ⟨a1, a2, a3, a4⟩ w ⟨b1, b2, b3, b4⟩ a b ha hb hab
    refine ⟨box ha hb hab a1 b1, box ha hb hab a2 b2, box ha hb hab a3 b3, ?_⟩
    show a * v 6 + b * w 6 = 0
    rw [a4, b4]; ring
  have mem : ∀ b ∈ bs, b.1 ∈ S := fun b h => by
    obtain ⟨⟨sub, hz, reso, z0, r0, r1, e⟩, -⟩ := hb b h
    rw [e]
    refine ⟨obxd_cutoff z0 s0 s1, ⟨?_, ?_⟩, ⟨?_, ?_⟩, ?_⟩
    · show 0 ≤ 3.5 * reso
      positivity
    · show 3.5 * reso ≤ 3.5
      norm_num; linarith
    · show 0 ≤ 1.0 / ((970.0 / 44000.0) * √(44000.0 * si))
      positivity
    · show 1.0 / ((970.0 / 44000.0) * √(44000.0 * si)) ≤ ρ
      rw [hρ, show (44000.0 : ℝ) = 44000 by norm_num, show (970.0 : ℝ) = 970 by norm_num, show (1.0 : ℝ) = 1 by norm_num]
      refine le_of_eq ?_
      field_simp
    · show (1.0 - (sub : ℝ) / 3.0) * 3.0 - (3.0 - (sub : ℝ)) = 0
      rw [show (3.0 : ℝ) = 3 by norm_num, show (1.0 : ℝ) = 1 by norm_num]; ring
  have zero : (fun _ => 0 : ℕ → ℝ) ∈ S := by simp only [hS, Set.mem_setOf_eq]; exact ⟨by norm_num, by norm_num, ⟨le_rfl, ρ0⟩, trivial⟩
  have hul := C104_hull obxd4_advances cv zero stage (fun _ => 0) bs (fun b h => ⟨mem b h, (hb b h).2.1⟩)
  have slo := life_slope obxd4_advances (i := 0) (by simp) (W := 1) stage bs Maker.new (fun _ => 0) (fun b h => ⟨(mem b h).1, (hb b h).2.1⟩) zero_le_one (.inl rfl)
  refine (life_out (A := fun x => |x| ≤ X) (Q := fun y => |y| ≤ 264 * (Real.pi / 2 * ρ + X)) (Inv := Obxd4Inv ρ X) ?_ stage bs _ _ (life_both stage bs _ _ hul slo) (fun b h => (hb b h).2.2) ?_).2
  · rintro u x ⟨⟨⟨v, ⟨v1, -, -, v6⟩, ev⟩, ⟨w, ⟨w1, w2, w3, -⟩, ew⟩⟩, hd⟩ hx hi
    have n : ∀ i ∈ [0, 1, 2, 3, 4, 5, 6], Spec.now u i = w i := fun i hi => by
      rw [← ew i hi, (obxd4_advances u x).1]
      simp only [FU.adv, hi, if_true, Spec.now]
    refine obxd4_step u x ⟨?_, ?_, ?_, hd, ?_, ?_, ?_, ?_, ?_⟩ hx hi
    · rw [ev 0 (by simp)]; exact v1.1
    · rw [ev 0 (by simp)]; exact v1.2
    · rw [n 0 (by simp)]; exact w1.1
    · rw [n 1 (by simp)]; exact w2.1
    · rw [n 1 (by simp)]; exact w2.2
    · rw [n 3 (by simp)]; exact w3.1
    · rw [n 3 (by simp)]; exact w3.2
    · rw [ev 6 (by simp)]; exact v6
  · exact ⟨by simp only [abs_zero]; positivity, by norm_num; positivity⟩

/-- The hypotheses hold: a block at 1 kHz, 96 kHz, full resonance. -/
example : Spec.obxd4Setting (1 / 96000) (obxdCoeff4 3 1000 (1 / 96000) 1) ∧ (1 / 96000 : ℝ) ≤ 1 / 88000 := ⟨⟨3, 1000, 1, by norm_num, by norm_num, le_rfl, rfl⟩, by norm_num⟩

/-! ## C210: the fourth pole -/

/-- The four-pole filter with fixed settings: cutoff `g`, resonance `k`, damping `ρ`, and the tap selected by `pmi` (3 to 0 for the sub-types 0 to 3). -/
noncomputable def Spec.fixed4 (g k ρ pmi : ℝ) (reg : ℕ → ℝ) : FU :=
  ⟨fun i => match i with | 0 => g | 1 => k | 2 => ρ | 3 => 1 / ρ | 5 => pmi | _ => 0, fun _ => 0, reg, 0⟩

/-- **C210 (refutation).** The four sub-types are taps of one chain, so under a constant input, once everything has settled, they should all give the same. The last one, which should be the full 24 dB low-pass,
*adds* the third tap to the fourth: for every cutoff, resonance and charge the first capacitor can hold there is a settled state in which it is twice as loud as the others. -/
theorem C210_fourth_tap_refuted {g k ρ s : ℝ} (g0 : 0 < g) (k0 : 0 ≤ k) (ρ0 : 0 < ρ) (s0 : s ≠ 0) (hs : |s * ρ| < Real.pi / 2) :
    ∃ (x : ℝ) (reg : ℕ → ℝ) (o : ℝ), reg 0 = s ∧ o ≠ 0 ∧ (∀ pmi, ∀ i < 4, (obxd4 (Spec.fixed4 g k ρ pmi reg) x).1.reg i = reg i) ∧
      (∀ pmi : ℝ, pmi = 3 ∨ pmi = 2 ∨ pmi = 1 → (obxd4 (Spec.fixed4 g k ρ pmi reg) x).2 = o) ∧ (obxd4 (Spec.fixed4 g k ρ 0 reg) x).2 = 2 * o := by
  have o1 : (1.0 : ℝ) = 1 := by norm_num
  have o2 : (2.0 : ℝ) = 2 ∧ (3.0 : ℝ) = 3 ∧ (0.0 : ℝ) = 0 := by norm_num
  have a0 : 0 < 1 + g := by linarith
  set l := g / (1 + g) with hl
  have l0 : 0 < l := by positivity
  set y := (Real.tan (s * ρ) / ρ + s) / 2 with hy
  set y0 := s + (y - s) / l with hy0
  set T := (l * (l * (l * s + y) + y) + y) * (1 / (1 + g)) with hT
  set x := y0 * (1 + k * (l * l * (l * l))) + k * T with hx
  have solve : obxdSolve4 x l s y y y g k = y0 := by
    have : 0 < 1 + k * (l * l * (l * l)) := by positivity
    simp only [obxdSolve4, o1, ← hT]
    rw [hx, div_eq_iff this.ne']; ring
  have v : (y0 - s) * l = y - s := by rw [hy0]; field_simp; ring
  have pole : tptpc y y g = (y, y) := by simp [tptpc]
  have y1 : y ≠ 0 := by
    rw [abs_lt] at hs
    rw [hy]
    rcases lt_or_gt_of_ne s0 with h | h
    · have : Real.tan (s * ρ) < 0 := Real.tan_neg_of_neg_of_pi_div_two_lt (mul_neg_of_neg_of_pos h ρ0) hs.1
      have : Real.tan (s * ρ) / ρ < 0 := div_neg_of_neg_of_pos this ρ0
      linarith
    · have : 0 < Real.tan (s * ρ) := Real.tan_pos_of_pos_of_lt_pi_div_two (mul_pos h ρ0) hs.2
      have : 0 < Real.tan (s * ρ) / ρ := div_pos this ρ0
      linarith
  have at1 : Real.arctan ((y - s + s + (y - s)) * ρ) * (1 / ρ) = s := by
    have : (y - s + s + (y - s)) * ρ = Real.tan (s * ρ) := by rw [hy]; field_simp; ring
    rw [this, Real.arctan_tan (by linarith [(abs_lt.1 hs).1]) (abs_lt.1 hs).2]
    field_simp
  have out : ∀ pmi, obxd4 (Spec.fixed4 g k ρ pmi fun i => if i = 0 then s else y) x =
      (((((Spec.fixed4 g k ρ pmi fun i => if i = 0 then s else y).adv [0, 1, 2, 3, 4, 5, 6]).set 0 s |>.set 1 y).set 2 y).set 3 y, obxdMix4 pmi 0 y y y y * (1.0 + k * 0.45) * 0.6) := by
    intro pmi
    simp [obxd4, Spec.fixed4, FU.adv, o1, ← hl, solve, v, pole]
    rw [one_div] at at1
    rw [show y - s + s = y by ring] at at1
    rw [at1]
  refine ⟨x, fun i => if i = 0 then s else y, y * (1 + k * 0.45) * 0.6, rfl, by positivity, fun pmi i hi => ?_, fun pmi hp => ?_, ?_⟩
  · rw [out]
    match i, hi with
    | 0, _ => simp [FU.set]
    | 1, _ => simp [FU.set]
    | 2, _ => simp [FU.set]
    | 3, _ => simp [FU.set]
  · rw [out]
    rcases hp with rfl | rfl | rfl <;> (simp only [obxdMix4, o1, o2.1, o2.2.1, o2.2.2]; norm_num)
  · rw [out]
    simp only [obxdMix4, o1, o2.1, o2.2.1, o2.2.2]
    norm_num
    ring

/-- The hypotheses hold. -/
example : (1 : ℝ) ≠ 0 ∧ |(1 : ℝ) * 1| < Real.pi / 2 := ⟨one_ne_zero, by rw [abs_of_pos] <;> linarith [Real.pi_gt_three]⟩

/-! ## C211: the smoothed tap selector -/

/-- The ramp from 0 to `n` misses every whole number in between. -/
theorem ramp_misses {n k j : ℕ} (hn : n = 1 ∨ n = 2 ∨ n = 3) (hj : j < 64) {q : ℕ} (hq : q = 1 ∨ q = 2 ∨ q = 3) : (n : ℝ) * (1 - 0.8 ^ k * (1 - j / 320)) ≠ q := by
  intro h
  have j1 : (j : ℝ) ≤ 63 := by exact_mod_cast Nat.le_of_lt_succ hj
  have t0 : (0 : ℝ) < 0.8 ^ k * (1 - j / 320) := mul_pos (by positivity) (by linarith)
  have n0 : (0 : ℝ) < n := by rcases hn with rfl | rfl | rfl <;> norm_num
  have lt : q < n := by
    have : (q : ℝ) < n := by rw [← h]; nlinarith
    exact_mod_cast this
  -- multiply out
  have e : n * (4 ^ k * (320 - j)) = (n - q) * 320 * 5 ^ k := by
    have z : ((n * (4 ^ k * (320 - j)) : ℕ) : ℝ) = (((n - q) * 320 * 5 ^ k : ℕ) : ℝ) := by
      push_cast [Nat.cast_sub lt.le, Nat.cast_sub (show j ≤ 320 by omega)]
      have p : (0.8 : ℝ) ^ k = 4 ^ k / 5 ^ k := by rw [← div_pow]; norm_num
      rw [p] at h
      have p5 : (0 : ℝ) < 5 ^ k := by positivity
      rw [← h]
      field_simp
      ring
    exact_mod_cast z
  have m5 : ∀ k : ℕ, 5 ^ k % 3 = 1 ∨ 5 ^ k % 3 = 2 := by
    intro k
    induction k with
    | zero => left; rfl
    | succ k ih => rw [pow_succ, Nat.mul_mod]; rcases ih with h | h <;> rw [h] <;> decide
  have odd : ∀ k : ℕ, 5 ^ k % 2 = 1 := by
    intro k
    induction k with
    | zero => rfl
    | succ k ih => rw [pow_succ, Nat.mul_mod, ih]
  rcases hn with rfl | rfl | rfl
  · omega
  · obtain rfl : q = 1 := by omega
    match k, e with
    | 0, e => simp at e; omega
    | 1, e => simp at e; omega
    | 2, e => simp at e; omega
    | k + 3, e =>
      have := odd (k + 3)
      have e' : 2 * (4 ^ k * 64 * (320 - j)) = 320 * 5 ^ (k + 3) := by rw [pow_succ, pow_succ, pow_succ] at e; rw [← one_mul (320 * 5 ^ (k + 3))]; linarith
      generalize 5 ^ (k + 3) = a at *
      rw [show 2 * (4 ^ k * 64 * (320 - j)) = 128 * (4 ^ k * (320 - j)) by ring] at e'
      generalize 4 ^ k * (320 - j) = b at *
      omega
  · have := m5 k
    generalize 5 ^ k = a at *
    generalize 4 ^ k * (320 - j) = b at *
    have : q = 1 ∨ q = 2 := by omega
    rcases this with rfl | rfl <;> omega

theorem mix4_none {pmi y1 y2 y3 y4 : ℝ} (h : pmi ≠ 1 ∧ pmi ≠ 2 ∧ pmi ≠ 3) (z : pmi = 0 → y3 = 0 ∧ y4 = 0) : obxdMix4 pmi 0 y1 y2 y3 y4 = 0 := by
  have o : (1.0 : ℝ) = 1 ∧ (2.0 : ℝ) = 2 ∧ (3.0 : ℝ) = 3 ∧ (0.0 : ℝ) = 0 := by norm_num
  simp only [obxdMix4, o.1, o.2.1, o.2.2.1, o.2.2.2, h.1, h.2.1, h.2.2, if_false]
  split_ifs with hz
  · obtain ⟨a, b⟩ := z hz
    rw [a, b]; ring
  · ring

/-- The output of a sample whose selector matches no tap (or matches the last one while the cutoff is zero and the registers are clear) is zero. -/
theorem obxd4_silent (u : FU) (x : ℝ) (h : u.coeff 5 ≠ 1 ∧ u.coeff 5 ≠ 2 ∧ u.coeff 5 ≠ 3) (h6 : u.coeff 6 = 0) (z : u.coeff 5 = 0 → u.coeff 0 = 0 ∧ ∀ i < 4, u.reg i = 0) : (obxd4 u x).2 = 0 := by
  simp only [obxd4, h6]
  rw [mix4_none h]
  · simp
  · intro hz
    obtain ⟨a, b⟩ := z hz
    have r : ∀ i < 4, (u.adv [0, 1, 2, 3, 4, 5, 6]).reg i = 0 := b
    rw [a]
    simp [tptpc, r 1 (by norm_num), r 2 (by norm_num), r 3 (by norm_num)]

theorem run_silent {n k : ℕ} (hn : n = 1 ∨ n = 2 ∨ n = 3) (xs : List ℝ) : ∀ (u : FU) (j : ℕ), j + xs.length ≤ 64 → u.coeff 5 = n * (1 - 0.8 ^ k * (1 - j / 320)) → u.dcoeff 5 = n * 0.8 ^ k / 320 → u.coeff 6 = 0 → u.dcoeff 6 = 0 →
    (k = 0 → j = 0 → u.coeff 0 = 0 ∧ ∀ i < 4, u.reg i = 0) → ∀ y ∈ (run obxd4 u xs).2, y = 0 := by
  induction xs with
  | nil => intro u j _ _ _ _ _ _ y hy; simp [run] at hy
  | cons x xs ih =>
    intro u j hj h5 d5 h6 d6 hz y hy
    simp only [List.length_cons] at hj
    simp only [run, List.mem_cons] at hy
    rcases hy with rfl | hy
    · refine obxd4_silent u x ?_ h6 fun h0 => ?_
      · rw [h5]
        have m := fun q hq => ramp_misses (k := k) (j := j) hn (by omega) (q := q) hq
        exact ⟨by simpa using m 1 (by simp), by simpa using m 2 (by simp), by simpa using m 3 (by simp)⟩
      · rw [h5] at h0
        have n0 : (n : ℝ) ≠ 0 := by rcases hn with rfl | rfl | rfl <;> norm_num
        have t : (0.8 : ℝ) ^ k * (1 - j / 320) = 1 := by
          rcases mul_eq_zero.1 h0 with h | h
          · exact absurd h n0
          · linarith
        have p1 : (0.8 : ℝ) ^ k ≤ 1 := pow_le_one₀ (by norm_num) (by norm_num)
        have p0 : (0 : ℝ) < 0.8 ^ k := by positivity
        have j0 : (0 : ℝ) ≤ j := by positivity
        have jz : (j : ℝ) = 0 := by nlinarith
        have jz' : j = 0 := by exact_mod_cast jz
        have kz : k = 0 := by
          by_contra hk
          have : (0.8 : ℝ) ^ k < 1 := pow_lt_one₀ (by norm_num) (by norm_num) hk
          rw [jz] at t
          linarith
        exact hz kz jz'
    · obtain ⟨a1, a2⟩ := obxd4_advances u x
      refine ih (obxd4 u x).1 (j + 1) (by omega) ?_ (by rw [a2]; exact d5) ?_ (by rw [a2]; exact d6) (fun _ h => by omega) y hy
      · rw [a1]
        simp only [FU.adv, List.mem_cons, List.not_mem_nil]
        norm_num
        rw [h5, d5]
        push_cast
        norm_num
        ring
      · rw [a1]
        simp only [FU.adv, List.mem_cons, List.not_mem_nil]
        norm_num
        rw [h6, d6]; ring

theorem life_silent {n : ℕ} (hn : n = 1 ∨ n = 2 ∨ n = 3) (stage : ℤ) (bs : List ((ℕ → ℝ) × List ℝ)) : ∀ (k : ℕ) (m : Maker) (reg : ℕ → ℝ), m.firstRun = false →
    (∀ b ∈ bs, b.1 5 = n ∧ b.1 6 = 0 ∧ b.2.length = 64) → m.coeff 5 = n * (1 - 0.8 ^ k) → m.tcoeff 5 = n * (1 - 0.8 ^ k) → m.coeff 6 = 0 → m.tcoeff 6 = 0 →
    (k = 0 → m.coeff 0 = 0 ∧ ∀ i < 4, reg i = 0) → ∀ y ∈ (life obxd4 stage m reg bs).2.2, y = 0 := by
  induction bs with
  | nil => intro k m reg _ _ _ _ _ _ _ y hy; simp [life] at hy
  | cons b bs ih =>
    intro k m reg hf hb c5 t5 c6 t6 hz y hy
    obtain ⟨b5, b6, bl⟩ := hb b (by simp)
    simp only [life, List.mem_append] at hy
    rcases hy with hy | hy
    · simp only [block] at hy
      refine run_silent (k := k) hn b.2 _ 0 (by omega) ?_ ?_ ?_ ?_ ?_ y hy
      · simp [Maker.fromDirect, hf, c5]
      · simp only [Maker.fromDirect, hf, Bool.false_eq_true, if_false, SMOOTH, c5, t5, b5]
        norm_num
        ring
      · simp [Maker.fromDirect, hf, c6]
      · simp [Maker.fromDirect, hf, c6, t6, b6]
      · intro hk _
        simpa [Maker.fromDirect, hf] using hz hk
    · obtain ⟨l5, l5'⟩ := C104_ramp_lands obxd4_advances m hf reg stage b.1 b.2 bl 5 (by simp)
      obtain ⟨l6, l6'⟩ := C104_ramp_lands obxd4_advances m hf reg stage b.1 b.2 bl 6 (by simp)
      have e : 0.8 * ((n : ℝ) * (1 - 0.8 ^ k)) + 0.2 * n = n * (1 - 0.8 ^ (k + 1)) := by
        rw [pow_succ]; generalize (0.8 : ℝ) ^ k = p; norm_num; ring
      rw [t5, b5, e] at l5 l5'
      rw [t6, b6, mul_zero, mul_zero, add_zero] at l6 l6'
      exact ih (k + 1) _ _ (block_first_run ..) (fun c hc => hb c (by simp [hc])) l5 l5' l6 l6' (fun h => by omega) y hy

theorem obxd4_dead (xs : List ℝ) : ∀ u : FU, (∀ i, u.coeff i = 0) → (∀ i, u.dcoeff i = 0) → (∀ i < 4, u.reg i = 0) →
    (∀ i < 4, (run obxd4 u xs).1.reg i = 0) ∧ ∀ y ∈ (run obxd4 u xs).2, y = 0 := by
  induction xs with
  | nil => intro u _ _ h; exact ⟨h, by simp [run]⟩
  | cons x xs ih =>
    intro u hc hd hr
    obtain ⟨a1, a2⟩ := obxd4_advances u x
    have r : ∀ i < 4, (obxd4 u x).1.reg i = 0 := by
      intro i hi
      have q : ∀ i < 4, (u.adv [0, 1, 2, 3, 4, 5, 6]).reg i = 0 := hr
      match i, hi with
      | 0, _ => simp [obxd4, FU.set, hc, hd, FU.adv]
      | 1, _ => simp [obxd4, FU.set, tptpc, hc, q 1 (by norm_num)]
      | 2, _ => simp [obxd4, FU.set, tptpc, hc, q 2 (by norm_num)]
      | 3, _ => simp [obxd4, FU.set, tptpc, hc, q 3 (by norm_num)]
    obtain ⟨i1, i2⟩ := ih (obxd4 u x).1 (fun i => by rw [a1]; simp [FU.adv, hc, hd]) (fun i => by rw [a2]; exact hd i) r
    refine ⟨i1, fun y hy => ?_⟩
    simp only [run, List.mem_cons] at hy
    rcases hy with rfl | hy
    · exact obxd4_silent u x ⟨by rw [hc]; norm_num, by rw [hc]; norm_num, by rw [hc]; norm_num⟩ (hc 6) fun _ => ⟨hc 0, hr⟩
    · exact i2 y hy

/-- **C211 (refutation).** The tap is selected by comparing a coefficient with 0, 1, 2 and 3, but the coefficient maker fades every coefficient in from zero: it approaches its value without ever reaching it, and its ramps miss the whole numbers on
the way. So, in exact arithmetic, the sub-types 0, 1 and 2 are silent for ever, whatever they are given to filter and whatever the settings. -/
theorem C211_silent_refuted {si : ℝ} {sub : ℕ} (h : sub < 3) (stage : ℤ) (bs : List ((ℕ → ℝ) × List ℝ)) (hb : ∀ b ∈ bs, (∃ hz reso, b.1 = obxdCoeff4 sub hz si reso) ∧ b.2.length = 64) :
    ∀ y ∈ (life obxd4 stage Maker.new (fun _ => 0) bs).2.2, y = 0 := by
  cases bs with
  | nil => simp [life]
  | cons b bs =>
    intro y hy
    have f := block_first obxd4_advances Maker.new rfl (fun _ => 0) stage b.1 b.2
    obtain ⟨d1, d2⟩ := obxd4_dead b.2 ⟨fun _ => 0, fun _ => 0, fun _ => 0, stage⟩ (fun _ => rfl) (fun _ => rfl) (fun _ _ => rfl)
    simp only [life, List.mem_append] at hy
    rcases hy with hy | hy
    · exact d2 y hy
    · refine life_silent (n := 3 - sub) (by omega) stage bs 0 _ _ (block_first_run ..) (fun c hc => ?_) ?_ ?_ ?_ ?_ (fun _ => ⟨?_, ?_⟩) y hy
      · obtain ⟨⟨hz, reso, e⟩, hl⟩ := hb c (by simp [hc])
        have o3 : (3.0 : ℝ) = 3 := by norm_num
        refine ⟨?_, ?_, hl⟩
        · rw [e]
          show 3.0 - (sub : ℝ) = _
          rw [o3]; push_cast [Nat.cast_sub h.le]; ring
        · rw [e]
          show (1.0 - (sub : ℝ) / 3.0) * 3.0 - (3.0 - (sub : ℝ)) = 0
          rw [o3, show (1.0 : ℝ) = 1 by norm_num]; ring
      all_goals first | (rw [f]; done) | (rw [f]; simp) | exact d1

/-- The hypotheses hold: a life of three blocks of the sub-type 0. -/
example : ∀ b ∈ List.replicate 3 (obxdCoeff4 0 1000 (1 / 96000) 0.5, List.replicate 64 (0.5 : ℝ)), (∃ hz reso, b.1 = obxdCoeff4 0 hz (1 / 96000) reso) ∧ b.2.length = 64 := by
  intro b hb
  rw [List.eq_of_mem_replicate hb]
  exact ⟨⟨_, _, rfl⟩, by simp⟩

end Verif.Filters
