import Verif.Filters.K35
import Verif.Biquad.Stable
/-!
# The K35 filters at every drive (C262)

Held settings with any drive: the saturated part of the signal is a bounded disturbance of a linear filter, the same circuit with a loop gain no greater than that of the clean one, and that is stable.
-/
namespace Verif.Filters
open Verif Verif.Dsp.Fast

theorem two_bounded {A B C D : ℝ} (h1 : A * D - B * C < 1) (h2 : |A + D| < 1 + (A * D - B * C)) : ∃ K : ℝ, 0 ≤ K ∧ ∀ (p q i j : ℕ → ℝ) (M : ℝ), 0 ≤ M →
    (∀ n, p (n + 1) = A * p n + B * q n + i n) → (∀ n, q (n + 1) = C * p n + D * q n + j n) → (∀ n, |i n| ≤ M) → (∀ n, |j n| ≤ M) →
    ∀ n, |p n| ≤ K * (|p 0| + |q 0| + M) := by
  obtain ⟨K, r, K0, r0, r1, b⟩ := Biquad.seq_bound (c := ⟨-(A + D), A * D - B * C, 0, 0, 0⟩) ⟨abs_lt.2 ⟨by have := (abs_nonneg (A + D)).trans_lt h2; show -1 < A * D - B * C; linarith, h1⟩, by show |-(A + D)| < 1 + (A * D - B * C); rwa [abs_neg]⟩
  refine ⟨K * (1 + |B| + |D|), by positivity, fun p q i j M M0 hp hq hi hj n => ?_⟩
  have := (b n (fun n => (p n, B * q n - D * p n)) (fun n => (i n, B * j n - D * i n)) ((1 + |B| + |D|) * M) (fun m _ => ?_) (fun m _ => ⟨?_, ?_⟩) (by positivity) n le_rfl).1
  · simp only at this
    refine this.trans ?_
    have e : |B * q 0 - D * p 0| ≤ |B| * |q 0| + |D| * |p 0| := by
      have := abs_sub (B * q 0) (D * p 0); rwa [abs_mul, abs_mul] at this
    have rn : r ^ n ≤ 1 := pow_le_one₀ r0 r1.le
    have s0 : 0 ≤ |p 0| + |B * q 0 - D * p 0| := by positivity
    have s1 : r ^ n * (|p 0| + |B * q 0 - D * p 0|) ≤ 1 * (|p 0| + |B * q 0 - D * p 0|) := mul_le_mul_of_nonneg_right rn s0
    rw [mul_assoc]
    refine mul_le_mul_of_nonneg_left ?_ K0
    have b0 := mul_nonneg (abs_nonneg B) (abs_nonneg (p 0))
    have b1 := mul_nonneg (abs_nonneg D) (abs_nonneg (q 0))
    have b2 := abs_nonneg (q 0)
    linarith
  · simp only [hp, hq, Prod.mk.injEq]
    constructor <;> ring
  · simp only
    have b0 := mul_nonneg (abs_nonneg B) M0
    have b1 := mul_nonneg (abs_nonneg D) M0
    have := hi m
    linarith
  · simp only
    have := abs_sub (B * j m) (D * i m)
    rw [abs_mul, abs_mul] at this
    have b0 := mul_le_mul_of_nonneg_left (hj m) (abs_nonneg B)
    have b1 := mul_le_mul_of_nonneg_left (hi m) (abs_nonneg D)
    linarith

/-- One pole on its own. -/
theorem one_bounded {w : ℝ} (hw : |w| < 1) {p i : ℕ → ℝ} {M : ℝ} (hp : ∀ n, p (n + 1) = w * p n + i n) (hi : ∀ n, |i n| ≤ M) (n : ℕ) : |p n| ≤ |p 0| + M / (1 - |w|) := by
  have d : 0 < 1 - |w| := by linarith
  have M0 : 0 ≤ M := (abs_nonneg _).trans (hi 0)
  induction n with
  | zero => have := div_nonneg M0 d.le; linarith
  | succ n ih =>
    rw [hp n]
    have a := abs_add_le (w * p n) (i n)
    rw [abs_mul] at a
    have b := mul_le_mul_of_nonneg_left ih (abs_nonneg w)
    have c : M / (1 - |w|) * (1 - |w|) = M := div_mul_cancel₀ _ d.ne'
    have e := mul_nonneg (abs_nonneg w) (abs_nonneg (p 0))
    have f : |w| * |p 0| ≤ |p 0| := by have := mul_le_mul_of_nonneg_right hw.le (abs_nonneg (p 0)); linarith
    have := hi n
    nlinarith

/-- The numbers of both filters: `m` is the gain once round the loop of what is not saturated. -/
theorem loop_stable {G m : ℝ} (G0 : 0 < G) (G1 : G < 1) (m0 : 0 ≤ m) (hm : m * (1 - 2 * (G * (1 - G))) < 2 * (G * (1 - G))) :
    let w := 1 - 2 * G
    w ^ 2 + 2 * w ^ 2 * m + 4 * G * (1 - G) * m < 1 ∧ |2 * w * (1 + m)| < 1 + (w ^ 2 + 2 * w ^ 2 * m + 4 * G * (1 - G) * m) := by
  intro w
  have e : 4 * G * (1 - G) = 1 - w ^ 2 := by simp only [w]; ring
  have gb : G * (1 - G) = (1 - w ^ 2) / 4 := by linarith
  rw [gb] at hm
  have w1 : w < 1 := by simp only [w]; linarith
  have w2 : -1 < w := by simp only [w]; linarith
  rw [e]
  refine ⟨by linarith, ?_⟩
  have p1 : 0 < (1 + m) * (1 - w) ^ 2 := mul_pos (by linarith) (by have : 0 < 1 - w := by linarith
                                                                   positivity)
  have p2 : 0 < (1 + m) * (1 + w) ^ 2 := mul_pos (by linarith) (by have : 0 < 1 + w := by linarith
                                                                   positivity)
  rw [abs_lt]
  constructor <;> linarith

/-- The loop gain of the part that is not saturated. -/
theorem blend_gain {G k t α : ℝ} (G0 : 0 < G) (G1 : G < 1) (k0 : 0 < k) (k2 : k < 2) (t0 : 0 ≤ t) (t1 : t ≤ 1) (hα : α = 1 / (1 - k * G + k * G * G)) :
    0 ≤ G * (t * α) * k * (1 - G) ∧ G * (t * α) * k * (1 - G) * (1 - 2 * (G * (1 - G))) < 2 * (G * (1 - G)) := by
  have q0 : 0 < G * (1 - G) := mul_pos G0 (by linarith)
  have q1 : G * (1 - G) ≤ 1 / 4 := by nlinarith [sq_nonneg (G - 1 / 2)]
  have eD : 1 - k * G + k * G * G = 1 - k * (G * (1 - G)) := by ring
  generalize hq : G * (1 - G) = q at *
  have kq : k * q < 2 * q := mul_lt_mul_of_pos_right k2 q0
  have D0 : 0 < 1 - k * q := by linarith
  rw [eD] at hα
  have a0 : 0 < α := by rw [hα]; positivity
  have aD : α * (1 - k * q) = 1 := by rw [hα]; exact one_div_mul_cancel D0.ne'
  have e : G * (t * α) * k * (1 - G) = t * (α * (k * q)) := by rw [← hq]; ring
  have kq0 : 0 < k * q := mul_pos k0 q0
  have akq := mul_pos a0 kq0
  rw [e]
  refine ⟨by positivity, ?_⟩
  have s1 : t * (α * (k * q)) ≤ α * (k * q) := by have := mul_le_mul_of_nonneg_right t1 akq.le; linarith
  have s2 : t * (α * (k * q)) * (1 - 2 * q) ≤ α * (k * q) * (1 - 2 * q) := mul_le_mul_of_nonneg_right s1 (by linarith)
  have s3 : α * (k * q) * (1 - 2 * q) < 2 * q := by
    have : α * (k * q) * (1 - 2 * q) * (1 - k * q) < 2 * q * (1 - k * q) := by
      have e1 : α * (k * q) * (1 - 2 * q) * (1 - k * q) = α * (1 - k * q) * (k * q * (1 - 2 * q)) := by ring
      rw [e1, aD]
      nlinarith
    exact lt_of_mul_lt_mul_right this D0.le
  linarith

/-- The drive adds to the part let through no more than 1.00001. -/
theorem drive_split {s : ℝ} (s0 : 0 ≤ s) (v : ℝ) : |k35Drive s (min s 1) (1 - min s 1) v - (1 - min s 1) * v| ≤ 1.00001 := by
  unfold k35Drive
  have e : v * (1 - min s 1) + fasttanhClamped (v * s) * min s 1 - (1 - min s 1) * v = fasttanhClamped (v * s) * min s 1 := by ring
  have m0 : 0 ≤ min s 1 := le_min s0 (by norm_num)
  rw [e, abs_mul, abs_of_nonneg m0]
  have := mul_le_mul (C142_tanh_clamped (v * s)).2.1 (min_le_right s 1) m0 (by norm_num)
  linarith

/-- **C262.** The low-pass at held settings, with any drive at all: whatever is played into it, and whatever it held, its output stays within a multiple, the same for all inputs, of what it held, the peak of the input, and 1. -/
theorem C262_lowpass_held {g k s : ℝ} {c : ℕ → ℝ} (hc : Spec.Driven true g k s c) (s0 : 0 ≤ s) : ∃ K : ℝ, 0 ≤ K ∧ ∀ (U : ℕ → FU) (x : ℕ → ℝ) (X : ℝ),
    Spec.Played k35lp U x → (∀ n, Spec.now (U n) = c) → (∀ n, |x n| ≤ X) →
    ∀ n, |(k35lp (U n) (x n)).2| ≤ K * (|(U 0).reg 0| + |(U 0).reg 1| + |(U 0).reg 2| + X + 1) := by
  obtain ⟨⟨g0, k0, k2, c0, c1, c2, c3, c4, -, -⟩, c5, c6, c7⟩ := hc
  simp only [(by norm_num : (0:ℕ) ≠ 6), (by norm_num : (0:ℕ) ≠ 7), (by norm_num : (1:ℕ) ≠ 6), (by norm_num : (1:ℕ) ≠ 7), (by norm_num : (2:ℕ) ≠ 6), (by norm_num : (2:ℕ) ≠ 7),
    (by norm_num : (3:ℕ) ≠ 6), (by norm_num : (3:ℕ) ≠ 7), (by norm_num : (4:ℕ) ≠ 6), (by norm_num : (4:ℕ) ≠ 7), if_false, if_true] at c0 c1 c2 c3 c4
  have p : 0 < 1 + g := by linarith
  have q : ∀ y, y / (1 + g) = y * (1 - g / (1 + g)) := by intro y; field_simp; ring
  have G0 : 0 < g / (1 + g) := div_pos g0 p
  have G1 : g / (1 + g) < 1 := by rw [div_lt_one p]; linarith
  rw [q] at c1 c2
  generalize g / (1 + g) = G at *
  obtain ⟨t, ht⟩ : ∃ t, t = 1 - min s 1 := ⟨_, rfl⟩
  have t0 : 0 ≤ t := by rw [ht]; linarith [min_le_right s 1]
  have t1 : t ≤ 1 := by rw [ht]; linarith [le_min s0 (by norm_num : (0:ℝ) ≤ 1)]
  obtain ⟨m0, m1⟩ := blend_gain G0 G1 k0 k2 t0 t1 c4
  obtain ⟨a, ha⟩ : ∃ a, a = t * c 4 := ⟨_, rfl⟩
  rw [← ha] at m0 m1
  obtain ⟨m, hm⟩ : ∃ m, m = G * a * k * (1 - G) := ⟨_, rfl⟩
  rw [← hm] at m0 m1
  obtain ⟨st1, st2⟩ := loop_stable G0 G1 m0 m1
  have dt : (1 - 2 * G + 2 * (1 - G) * m) * (1 - 2 * G - 2 * G * m) - (-2 * G * a * (1 - G)) * (2 * G * k * (1 - G) * (1 + m)) =
      (1 - 2 * G) ^ 2 + 2 * (1 - 2 * G) ^ 2 * m + 4 * G * (1 - G) * m := by
    linear_combination (-4 * G * (1 - G) * (1 + m)) * hm
  obtain ⟨K, K0, bd⟩ := two_bounded (A := 1 - 2 * G + 2 * (1 - G) * m) (B := -2 * G * a * (1 - G)) (C := 2 * G * k * (1 - G) * (1 + m)) (D := 1 - 2 * G - 2 * G * m)
    (by rw [dt]; exact st1) (by rw [dt]; have e : 1 - 2 * G + 2 * (1 - G) * m + (1 - 2 * G - 2 * G * m) = 2 * (1 - 2 * G) * (1 + m) := by ring
                                rw [e]; exact st2)
  have w1 : |1 - 2 * G| < 1 := by rw [abs_lt]; constructor <;> linarith
  have d0 : 0 < 1 - |1 - 2 * G| := by linarith
  obtain ⟨L, hL⟩ : ∃ L, L = 2 / (1 - |1 - 2 * G|) := ⟨_, rfl⟩
  have L0 : 0 ≤ L := by rw [hL]; positivity
  have a0 : 0 ≤ |a| := abs_nonneg a
  -- a bound for the disturbances in terms of `Z`
  refine ⟨K * (1 + 2 * (1 + k) * (|a| * (2 + L) + 2)), by positivity, fun U x X h hU hx n => ?_⟩
  have X0 : 0 ≤ X := (abs_nonneg _).trans (hx 0)
  obtain ⟨d, hd⟩ : ∃ d : ℕ → ℝ, d = fun n => k35Drive s (min s 1) (1 - min s 1) (c 4 * ((k35Lpf G (x n) ((U n).reg 0)).1 + (c 1 * (U n).reg 2 + c 2 * (U n).reg 1))) -
    (1 - min s 1) * (c 4 * ((k35Lpf G (x n) ((U n).reg 0)).1 + (c 1 * (U n).reg 2 + c 2 * (U n).reg 1))) := ⟨_, rfl⟩
  have hd1 : ∀ n, |d n| ≤ 1.00001 := fun n => by rw [hd]; exact drive_split s0 _
  have r0 : ∀ n, (U (n + 1)).reg 0 = (1 - 2 * G) * (U n).reg 0 + 2 * G * x n := fun n => by
    rw [h n, (lp_step (U n) (x n)).1, hU n, c0]; simp only [k35Lpf]; ring
  obtain ⟨f, hf⟩ : ∃ f : ℕ → ℝ, f = fun n => 2 * G * (a * (G * x n + (1 - G) * (U n).reg 0) + d n) := ⟨_, rfl⟩
  have full : ∀ n, (U (n + 1)).reg 2 = (1 - 2 * G + 2 * (1 - G) * m) * (U n).reg 2 + -2 * G * a * (1 - G) * (U n).reg 1 + f n ∧
      (U (n + 1)).reg 1 = 2 * G * k * (1 - G) * (1 + m) * (U n).reg 2 + (1 - 2 * G - 2 * G * m) * (U n).reg 1 + k * G * f n ∧
      (k35lp (U n) (x n)).2 = ((U n).reg 2 + (U (n + 1)).reg 2) / 2 := fun n => by
    obtain ⟨-, s1, s2, so⟩ := lp_step (U n) (x n)
    rw [← h n, hU n, c5, c6, c7, c0] at s1 s2
    rw [hU n, c5, c6, c7, c0, c3, mul_div_cancel_left₀ _ k0.ne'] at so
    rw [c3] at s1
    have e : k35Drive s (min s 1) (1 - min s 1) (c 4 * ((k35Lpf G (x n) ((U n).reg 0)).1 + (c 1 * (U n).reg 2 + c 2 * (U n).reg 1))) =
        a * (G * x n + (1 - G) * (U n).reg 0 + (k * (1 - G) ^ 2 * (U n).reg 2 - (1 - G) * (U n).reg 1)) + d n := by
      rw [hd, ha, ht]; simp only [k35Lpf]; rw [c1, c2]; ring
    rw [e] at s1 s2 so
    rw [s1, s2, so, hf, hm]
    simp only [k35Lpf]
    refine ⟨by ring, by ring, by ring⟩
  have z1 := one_bounded (p := fun n => (U n).reg 0) (i := fun n => 2 * G * x n) (M := 2 * X) w1 r0 (fun n => by
    show |2 * G * x n| ≤ 2 * X
    rw [abs_mul, abs_of_pos (by linarith : (0:ℝ) < 2 * G)]
    have := mul_le_mul_of_nonneg_right G1.le (abs_nonneg (x n)); have := hx n; linarith)
  have eL : 2 * X / (1 - |1 - 2 * G|) = L * X := by rw [hL]; ring
  simp only [eL] at z1
  obtain ⟨Z, hZ⟩ : ∃ Z, Z = |(U 0).reg 0| + |(U 0).reg 1| + |(U 0).reg 2| + X + 1 := ⟨_, rfl⟩
  have n0 := abs_nonneg ((U 0).reg 0)
  have n1 := abs_nonneg ((U 0).reg 1)
  have n2 := abs_nonneg ((U 0).reg 2)
  have Z1 : 1 ≤ Z := by linarith
  have fb : ∀ n, |f n| ≤ 2 * (|a| * (2 + L) + 2) * Z := fun n => by
    rw [hf]
    simp only [abs_mul, abs_two, abs_of_pos G0]
    have i1 : |G * x n + (1 - G) * (U n).reg 0| ≤ (2 + L) * Z := by
      have u := abs_add_le (G * x n) ((1 - G) * (U n).reg 0)
      rw [abs_mul, abs_mul, abs_of_pos G0, abs_of_pos (by linarith : 0 < 1 - G)] at u
      have u1 := mul_le_mul_of_nonneg_right G1.le (abs_nonneg (x n))
      have u2 := mul_le_mul_of_nonneg_right (by linarith : 1 - G ≤ 1) (abs_nonneg ((U n).reg 0))
      have u3 := z1 n
      have u4 := hx n
      have u5 : L * X ≤ L * Z := mul_le_mul_of_nonneg_left (by linarith) L0
      linarith
    have i2 := abs_add_le (a * (G * x n + (1 - G) * (U n).reg 0)) (d n)
    rw [abs_mul] at i2
    have i3 := mul_le_mul_of_nonneg_left i1 a0
    have i4 := hd1 n
    norm_num at i4
    have i5 : |a * (G * x n + (1 - G) * (U n).reg 0) + d n| ≤ (|a| * (2 + L) + 2) * Z := by linarith
    have i6 := mul_le_mul_of_nonneg_right G1.le (abs_nonneg (a * (G * x n + (1 - G) * (U n).reg 0) + d n))
    linarith
  have W0 : 0 ≤ 2 * (|a| * (2 + L) + 2) * Z := by positivity
  obtain ⟨W, hW⟩ : ∃ W, W = 2 * (|a| * (2 + L) + 2) * Z := ⟨_, rfl⟩
  rw [← hW] at fb W0
  have B := bd (fun n => (U n).reg 2) (fun n => (U n).reg 1) f (fun n => k * G * f n) ((1 + k) * W) (by positivity) (fun n => (full n).1) (fun n => (full n).2.1)
    (fun n => by have := fb n; have := mul_nonneg k0.le W0; linarith)
    (fun n => by
      rw [abs_mul, abs_of_pos (mul_pos k0 G0)]
      have a1 := mul_le_mul_of_nonneg_left (fb n) (mul_pos k0 G0).le
      have a2 := mul_le_mul_of_nonneg_left G1.le (mul_nonneg k0.le W0)
      linarith)
  have tot : K * (|(U 0).reg 2| + |(U 0).reg 1| + (1 + k) * W) ≤ K * (1 + 2 * (1 + k) * (|a| * (2 + L) + 2)) * Z := by
    rw [mul_assoc]
    refine mul_le_mul_of_nonneg_left ?_ K0
    rw [hW]
    linarith
  rw [← hZ, (full n).2.2, abs_div, abs_two]
  have b1 := B n
  have b2 := B (n + 1)
  have := abs_add_le ((U n).reg 2) ((U (n + 1)).reg 2)
  linarith

/-- **C262.** The high-pass at held settings, with any drive at all: whatever is played into it, and whatever it held, its output stays within a multiple, the same for all inputs, of what it held, the peak of the input, and 1. -/
theorem C262_highpass_held {g k s : ℝ} {c : ℕ → ℝ} (hc : Spec.Driven false g k s c) (s0 : 0 ≤ s) : ∃ K : ℝ, 0 ≤ K ∧ ∀ (U : ℕ → FU) (x : ℕ → ℝ) (X : ℝ),
    Spec.Played k35hp U x → (∀ n, Spec.now (U n) = c) → (∀ n, |x n| ≤ X) →
    ∀ n, |(k35hp (U n) (x n)).2| ≤ K * (|(U 0).reg 0| + |(U 0).reg 1| + |(U 0).reg 2| + X + 1) := by
  obtain ⟨⟨g0, k0, k2, c0, c1, c2, c3, c4, -, -⟩, c5, c6, c7⟩ := hc
  simp only [(by norm_num : (0:ℕ) ≠ 6), (by norm_num : (0:ℕ) ≠ 7), (by norm_num : (1:ℕ) ≠ 6), (by norm_num : (1:ℕ) ≠ 7), (by norm_num : (2:ℕ) ≠ 6), (by norm_num : (2:ℕ) ≠ 7),
    (by norm_num : (3:ℕ) ≠ 6), (by norm_num : (3:ℕ) ≠ 7), (by norm_num : (4:ℕ) ≠ 6), (by norm_num : (4:ℕ) ≠ 7), if_false, Bool.false_eq_true] at c0 c1 c2 c3 c4
  have p : 0 < 1 + g := by linarith
  have q : ∀ y, y / (1 + g) = y * (1 - g / (1 + g)) := by intro y; field_simp; ring
  have G0 : 0 < g / (1 + g) := div_pos g0 p
  have G1 : g / (1 + g) < 1 := by rw [div_lt_one p]; linarith
  rw [q] at c1 c2
  generalize g / (1 + g) = G at *
  obtain ⟨t, ht⟩ : ∃ t, t = 1 - min s 1 := ⟨_, rfl⟩
  have t0 : 0 ≤ t := by rw [ht]; linarith [min_le_right s 1]
  have t1 : t ≤ 1 := by rw [ht]; linarith [le_min s0 (by norm_num : (0:ℝ) ≤ 1)]
  obtain ⟨m0, m1⟩ := blend_gain G0 G1 k0 k2 t0 t1 c4
  obtain ⟨a, ha⟩ : ∃ a, a = t * c 4 := ⟨_, rfl⟩
  rw [← ha] at m0 m1
  obtain ⟨m, hm⟩ : ∃ m, m = G * a * k * (1 - G) := ⟨_, rfl⟩
  rw [← hm] at m0 m1
  obtain ⟨st1, st2⟩ := loop_stable G0 G1 m0 m1
  have dt : (1 - 2 * G - 2 * G * m) * (1 - 2 * G + 2 * (1 - G) * m) - 2 * m * (-2 * G * (1 - G) * (1 + m)) =
      (1 - 2 * G) ^ 2 + 2 * (1 - 2 * G) ^ 2 * m + 4 * G * (1 - G) * m := by ring
  obtain ⟨K, K0, bd⟩ := two_bounded (A := 1 - 2 * G - 2 * G * m) (B := 2 * m) (C := -2 * G * (1 - G) * (1 + m)) (D := 1 - 2 * G + 2 * (1 - G) * m)
    (by rw [dt]; exact st1) (by rw [dt]; have e : 1 - 2 * G - 2 * G * m + (1 - 2 * G + 2 * (1 - G) * m) = 2 * (1 - 2 * G) * (1 + m) := by ring
                                rw [e]; exact st2)
  have w1 : |1 - 2 * G| < 1 := by rw [abs_lt]; constructor <;> linarith
  have d0 : 0 < 1 - |1 - 2 * G| := by linarith
  obtain ⟨L, hL⟩ : ∃ L, L = 2 / (1 - |1 - 2 * G|) := ⟨_, rfl⟩
  have L0 : 0 ≤ L := by rw [hL]; positivity
  have a0 : 0 ≤ |a| := abs_nonneg a
  -- a bound for the disturbances in terms of `Z`
  have kG : 0 < k * G := mul_pos k0 G0
  refine ⟨K * (1 + 2 * (|k * a| * (2 + L) + 2)) / (k * G), by positivity, fun U x X h hU hx n => ?_⟩
  have X0 : 0 ≤ X := (abs_nonneg _).trans (hx 0)
  obtain ⟨d, hd⟩ : ∃ d : ℕ → ℝ, d = fun n => k35Drive s (min s 1) (1 - min s 1) (k * (c 4 * ((k35Hpf G (x n) ((U n).reg 1)).1 + (c 2 * (U n).reg 2 + c 1 * (U n).reg 0)))) -
    (1 - min s 1) * (k * (c 4 * ((k35Hpf G (x n) ((U n).reg 1)).1 + (c 2 * (U n).reg 2 + c 1 * (U n).reg 0)))) := ⟨_, rfl⟩
  have hd1 : ∀ n, |d n| ≤ 1.00001 := fun n => by rw [hd]; exact drive_split s0 _
  have r0 : ∀ n, (U (n + 1)).reg 1 = (1 - 2 * G) * (U n).reg 1 + 2 * G * x n := fun n => by
    rw [h n, (hp_step (U n) (x n)).2.1, hU n, c0]; simp only [k35Hpf, k35Lpf]; ring
  obtain ⟨f, hf⟩ : ∃ f : ℕ → ℝ, f = fun n => 2 * G * (k * a * ((1 - G) * (x n - (U n).reg 1)) + d n) := ⟨_, rfl⟩
  have full : ∀ n, (U (n + 1)).reg 2 = (1 - 2 * G - 2 * G * m) * (U n).reg 2 + 2 * m * (U n).reg 0 + f n ∧
      (U (n + 1)).reg 0 = -2 * G * (1 - G) * (1 + m) * (U n).reg 2 + (1 - 2 * G + 2 * (1 - G) * m) * (U n).reg 0 + (1 - G) * f n ∧
      (k35hp (U n) (x n)).2 = ((U (n + 1)).reg 2 - (1 - 2 * G) * (U n).reg 2) / 2 / (k * G) := fun n => by
    obtain ⟨s1, -, s2, so⟩ := hp_step (U n) (x n)
    rw [← h n, hU n, c5, c6, c7, c0, c3] at s1 s2
    rw [hU n, c5, c6, c7, c0, c3] at so
    have e : k35Drive s (min s 1) (1 - min s 1) (k * (c 4 * ((k35Hpf G (x n) ((U n).reg 1)).1 + (c 2 * (U n).reg 2 + c 1 * (U n).reg 0)))) =
        k * a * ((1 - G) * (x n - (U n).reg 1) + (-G * (1 - G) * (U n).reg 2 + (1 - G) * (U n).reg 0)) + d n := by
      rw [hd, ha, ht]; simp only [k35Hpf, k35Lpf]; rw [c1, c2]; ring
    rw [e] at s1 s2 so
    rw [so]
    refine ⟨?_, ?_, ?_⟩
    · rw [s2, hf, hm]; simp only [k35Hpf, k35Lpf]; ring
    · rw [s1, hf, hm]; simp only [k35Hpf, k35Lpf]; ring
    · rw [s2]; simp only [k35Hpf, k35Lpf]; field_simp; ring
  have z1 := one_bounded (p := fun n => (U n).reg 1) (i := fun n => 2 * G * x n) (M := 2 * X) w1 r0 (fun n => by
    show |2 * G * x n| ≤ 2 * X
    rw [abs_mul, abs_of_pos (by linarith : (0:ℝ) < 2 * G)]
    have := mul_le_mul_of_nonneg_right G1.le (abs_nonneg (x n)); have := hx n; linarith)
  have eL : 2 * X / (1 - |1 - 2 * G|) = L * X := by rw [hL]; ring
  simp only [eL] at z1
  obtain ⟨Z, hZ⟩ : ∃ Z, Z = |(U 0).reg 0| + |(U 0).reg 1| + |(U 0).reg 2| + X + 1 := ⟨_, rfl⟩
  have n0 := abs_nonneg ((U 0).reg 0)
  have n1 := abs_nonneg ((U 0).reg 1)
  have n2 := abs_nonneg ((U 0).reg 2)
  have Z1 : 1 ≤ Z := by linarith
  have fb : ∀ n, |f n| ≤ 2 * (|k * a| * (2 + L) + 2) * Z := fun n => by
    rw [hf]
    simp only
    rw [abs_mul, abs_mul, abs_two, abs_of_pos G0]
    have i1 : |(1 - G) * (x n - (U n).reg 1)| ≤ (2 + L) * Z := by
      have u := abs_sub (x n) ((U n).reg 1)
      rw [abs_mul, abs_of_pos (by linarith : 0 < 1 - G)]
      have u1 := mul_le_mul_of_nonneg_right (by linarith : 1 - G ≤ 1) (abs_nonneg (x n - (U n).reg 1))
      have u3 := z1 n
      have u4 := hx n
      have u5 : L * X ≤ L * Z := mul_le_mul_of_nonneg_left (by linarith) L0
      linarith
    have i2 := abs_add_le (k * a * ((1 - G) * (x n - (U n).reg 1))) (d n)
    rw [abs_mul] at i2
    have i3 := mul_le_mul_of_nonneg_left i1 (abs_nonneg (k * a))
    have i4 := hd1 n
    norm_num at i4
    have i5 : |k * a * ((1 - G) * (x n - (U n).reg 1)) + d n| ≤ (|k * a| * (2 + L) + 2) * Z := by linarith
    have i6 := mul_le_mul_of_nonneg_right G1.le (abs_nonneg (k * a * ((1 - G) * (x n - (U n).reg 1)) + d n))
    linarith
  obtain ⟨W, hW⟩ : ∃ W, W = 2 * (|k * a| * (2 + L) + 2) * Z := ⟨_, rfl⟩
  have W0 : 0 ≤ W := by rw [hW]; positivity
  rw [← hW] at fb
  have B := bd (fun n => (U n).reg 2) (fun n => (U n).reg 0) f (fun n => (1 - G) * f n) W W0 (fun n => (full n).1) (fun n => (full n).2.1) fb
    (fun n => by
      rw [abs_mul, abs_of_pos (by linarith : 0 < 1 - G)]
      have a1 := fb n
      have a2 := mul_le_mul_of_nonneg_right (by linarith : 1 - G ≤ 1) (abs_nonneg (f n))
      linarith)
  have tot : K * (|(U 0).reg 2| + |(U 0).reg 0| + W) ≤ K * (1 + 2 * (|k * a| * (2 + L) + 2)) * Z := by
    rw [mul_assoc]
    refine mul_le_mul_of_nonneg_left ?_ K0
    rw [hW]
    linarith
  rw [← hZ, (full n).2.2, abs_div, abs_of_pos kG, abs_div, abs_two, div_mul_eq_mul_div]
  refine div_le_div_of_nonneg_right ?_ kG.le
  have b1 := B n
  have b2 := B (n + 1)
  have b3 := abs_sub ((U (n + 1)).reg 2) ((1 - 2 * G) * (U n).reg 2)
  rw [abs_mul] at b3
  have b4 := mul_le_mul_of_nonneg_right w1.le (abs_nonneg ((U n).reg 2))
  linarith

/-- **C262.** The same of the coefficients the designer makes, at any pitch, resonance, drive and rate of at least 17 Hz. -/
theorem C262_designed_held (s hz sr reso : ℝ) (hs : 17 ≤ sr) (s0 : 0 ≤ s) : ∃ K : ℝ, 0 ≤ K ∧ ∀ (U : ℕ → FU) (x : ℕ → ℝ) (X : ℝ), (∀ n, |x n| ≤ X) →
    (Spec.Played k35lp U x → (∀ n, Spec.now (U n) = k35Coeff true s hz sr (1 / sr) reso) → ∀ n, |(k35lp (U n) (x n)).2| ≤ K * (|(U 0).reg 0| + |(U 0).reg 1| + |(U 0).reg 2| + X + 1)) ∧
    (Spec.Played k35hp U x → (∀ n, Spec.now (U n) = k35Coeff false s hz sr (1 / sr) reso) → ∀ n, |(k35hp (U n) (x n)).2| ≤ K * (|(U 0).reg 0| + |(U 0).reg 1| + |(U 0).reg 2| + X + 1)) := by
  obtain ⟨K, K0, hK⟩ := C262_lowpass_held (driven_made true s hz sr reso hs) s0
  obtain ⟨L, L0, hL⟩ := C262_highpass_held (driven_made false s hz sr reso hs) s0
  refine ⟨max K L, le_max_of_le_left K0, fun U x X hx => ?_⟩
  have X0 := (abs_nonneg (x 0)).trans (hx 0)
  have P : 0 ≤ |(U 0).reg 0| + |(U 0).reg 1| + |(U 0).reg 2| + X + 1 := by positivity
  exact ⟨fun h1 h2 n => (hK U x X h1 h2 hx n).trans (mul_le_mul_of_nonneg_right (le_max_left _ _) P),
    fun h1 h2 n => (hL U x X h1 h2 hx n).trans (mul_le_mul_of_nonneg_right (le_max_right _ _) P)⟩

/-- **C262.** The designer's drive: the saturated part takes as much weight as the drive says, at most all, and the clean part has the rest. -/
theorem C262_drive (lowpass : Bool) (s hz sr reso : ℝ) : k35Coeff lowpass s hz sr (1 / sr) reso 5 = s ∧ k35Coeff lowpass s hz sr (1 / sr) reso 6 = min s 1 ∧ k35Coeff lowpass s hz sr (1 / sr) reso 6 + k35Coeff lowpass s hz sr (1 / sr) reso 7 = 1 := by
  simp only [k35Coeff]
  refine ⟨trivial, ?_, ?_⟩ <;> norm_num

/-- Held settings made by the designer, drive a half. -/
example (lowpass : Bool) (hz sr reso : ℝ) (hs : 17 ≤ sr) : ∃ g k c, Spec.Driven lowpass g k (1 / 2) c ∧ c 6 = 1 / 2 ∧ c 7 = 1 / 2 :=
  ⟨_, _, _, driven_made lowpass (1 / 2) hz sr reso hs, by simp only [k35Coeff]; norm_num, by simp only [k35Coeff]; norm_num⟩

end Verif.Filters
