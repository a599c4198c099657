import Verif.Biquad.Stable
import Mathlib.Algebra.Order.Floor.Ring
import Mathlib.Data.Int.Log
/-!
# The biquad in floating point (C96)

The other modules about the biquad compute with exact real numbers. Here every operation of a channel is rounded, the coefficients may wander
around a stable design from sample to sample (they are the output of a smoother that rounds, too, or of a slow modulation), and registers may be
flushed to zero after any sample: the output stays bounded, with explicit constants.
-/
namespace Verif.Biquad

/-- process_sample.rs 51, 69, 75 (and the same lines of the other six process functions): one sample of a channel with the rounding `rnd`
after each of its nine operations, in the order Rust evaluates them. The conversion of the output to `f32` is left to the caller. -/
def chanR (rnd : ℝ → ℝ) (c : Cf) (x r0 r1 : ℝ) : ℝ × ℝ × ℝ :=
  let op := rnd (rnd (x * c.b0) + r0)
  (op, rnd (rnd (rnd (x * c.b1) - rnd (c.a1 * op)) + r1), rnd (rnd (x * c.b2) - rnd (c.a2 * op)))

/-- A channel over any number of samples: each with its coefficients, its input, and whether the registers are flushed after it (the block
functions do so at the end of a block: process_mono.rs, process_stereo.rs, process_slowlag.rs, `flush_denormal`). -/
noncomputable def runR (rnd : ℝ → ℝ) : ℝ × ℝ → List (Cf × ℝ × Bool) → List ℝ
  | _, [] => []
  | s, (c, x, fl) :: rest =>
    let q := chanR rnd c x s.1 s.2
    q.1 :: runR rnd (if fl then (flush q.2.1, flush q.2.2) else q.2) rest

/-! ## Specification -/

/-- The standard model of floating point: a result is off by at most `u` of itself and `η` (underflow). -/
def Spec.Rounding (rnd : ℝ → ℝ) (u η : ℝ) : Prop := ∀ x, |rnd x - x| ≤ u * |x| + η

/-- All coefficients of `k` are within `δ` of those of `c`. -/
structure Spec.Near (c : Cf) (δ : ℝ) (k : Cf) : Prop where
  a1 : |k.a1 - c.a1| ≤ δ
  a2 : |k.a2 - c.a2| ≤ δ
  b0 : |k.b0 - c.b0| ≤ δ
  b1 : |k.b1 - c.b1| ≤ δ
  b2 : |k.b2 - c.b2| ≤ δ

/-- How far the registers can be driven by disturbances of size one, for poles inside the radius `r`. -/
noncomputable def Spec.gain (c : Cf) (r : ℝ) : ℝ := 4 * (r ^ 2 + c.a2) / (r ^ 2 + c.a2 - r * |c.a1|) * ((1 + 1 / r) / (1 - r))

/-- The size of the feedback coefficients, and of the others. -/
def Spec.sizeA (c : Cf) : ℝ := |c.a1| + |c.a2| + 2
def Spec.sizeB (c : Cf) : ℝ := |c.b0| + |c.b1| + |c.b2| + 3

/-- The disturbance, relative to registers and input, that rounding by `u` and coefficients off by `δ` amount to. -/
def Spec.slack (c : Cf) (u δ : ℝ) : ℝ := 11 * (1 + Spec.sizeA c) * (1 + Spec.sizeB c) * u + (1 + Spec.sizeA c + Spec.sizeB c) * δ

/-! ## Proofs -/

theorem wu_le {p q m : ℝ} (hm : 0 < m) (hp : m ≤ p) (hq : m ≤ q) :
    (1 / Real.sqrt p + 1 / Real.sqrt q) * (Real.sqrt p + Real.sqrt q) ≤ 2 * (p + q) / m := by
  have pp : 0 < p := by linarith
  have pq : 0 < q := by linarith
  have sp : 0 < Real.sqrt p := Real.sqrt_pos.2 pp
  have sq : 0 < Real.sqrt q := Real.sqrt_pos.2 pq
  have ep : Real.sqrt p ^ 2 = p := Real.sq_sqrt pp.le
  have eq : Real.sqrt q ^ 2 = q := Real.sq_sqrt pq.le
  set a := Real.sqrt p
  set b := Real.sqrt q
  have hab : m ≤ a * b := by
    apply le_of_sq_le_sq _ (by positivity)
    rw [mul_pow, ep, eq]; nlinarith
  have e : (1 / a + 1 / b) * (a + b) = (a + b) ^ 2 / (a * b) := by field_simp; ring
  rw [e]
  calc (a + b) ^ 2 / (a * b) ≤ (a + b) ^ 2 / m := by gcongr
    _ ≤ 2 * (p + q) / m := by
        gcongr
        rw [← ep, ← eq]; nlinarith [sq_nonneg (a - b)]

/-- A recursion with poles inside the radius `r` and bounded disturbances. -/
theorem seq_bound_at {c : Cf} {r : ℝ} (r0 : 0 < r) (r1 : r < 1) (h2 : |c.a2| < r ^ 2) (h1 : r * |c.a1| < r ^ 2 + c.a2)
    (N : ℕ) (s d : ℕ → ℝ × ℝ) (D : ℝ)
    (hs : ∀ n < N, s (n + 1) = (-c.a1 * (s n).1 + (s n).2 + (d n).1, -c.a2 * (s n).1 + (d n).2))
    (hd : ∀ n < N, |(d n).1| ≤ D ∧ |(d n).2| ≤ D) (hD : 0 ≤ D) (h0 : |(s 0).1| ≤ D ∧ |(s 0).2| ≤ D) :
    ∀ n ≤ N, |(s n).1| ≤ Spec.gain c r * D ∧ |(s n).2| ≤ Spec.gain c r * D := by
  have hr2 : 0 < r ^ 2 := by positivity
  have g2 : |c.a2 / r ^ 2| < 1 := by rw [abs_div, abs_of_pos hr2, div_lt_one hr2]; exact h2
  have g1 : |c.a1 / r| < 1 + c.a2 / r ^ 2 := by
    rw [abs_div, abs_of_pos r0, div_lt_iff₀ r0]
    have : (1 + c.a2 / r ^ 2) * r = (r ^ 2 + c.a2) / r := by field_simp
    rw [this, lt_div_iff₀ r0]; linarith
  have hgain : Spec.gain c r = 4 * (1 + c.a2 / r ^ 2) / (1 + c.a2 / r ^ 2 - |c.a1 / r|) * ((1 + 1 / r) / (1 - r)) := by
    unfold Spec.gain
    congr 1
    rw [abs_div, abs_of_pos r0]
    have e1 : 1 + c.a2 / r ^ 2 = (r ^ 2 + c.a2) / r ^ 2 := by field_simp
    have e2 : 1 + c.a2 / r ^ 2 - |c.a1| / r = (r ^ 2 + c.a2 - r * |c.a1|) / r ^ 2 := by field_simp
    rw [e2, e1]
    have : r ^ 2 + c.a2 - r * |c.a1| ≠ 0 := by linarith
    field_simp
  generalize hα1 : c.a1 / r = α1 at g1 hgain
  generalize hα2 : c.a2 / r ^ 2 = α2 at g1 g2 hgain
  have ea1 : c.a1 = α1 * r := by rw [← hα1]; field_simp
  have ea2 : c.a2 = α2 * r ^ 2 := by rw [← hα2]; field_simp
  obtain ⟨g1a, g1b⟩ := abs_lt.1 g1
  obtain ⟨g2a, g2b⟩ := abs_lt.1 g2
  set p := (1 + α2 - α1) / 2 with hp
  set q := (1 + α2 + α1) / 2 with hq
  have pp : 0 < p := by rw [hp]; linarith
  have pq : 0 < q := by rw [hq]; linarith
  have sp : 0 < Real.sqrt p := Real.sqrt_pos.2 pp
  have sq : 0 < Real.sqrt q := Real.sqrt_pos.2 pq
  have con : ∀ t : ℝ × ℝ, ‖phi p q r (-c.a1 * t.1 + t.2, -c.a2 * t.1)‖ ≤ r * ‖phi p q r t‖ := by
    intro t
    have : ‖phi p q r (-c.a1 * t.1 + t.2, -c.a2 * t.1)‖ ^ 2 ≤ (r * ‖phi p q r t‖) ^ 2 := by
      rw [mul_pow, phi_sq pp.le pq.le, phi_sq pp.le pq.le]
      obtain ⟨x, y⟩ := t
      have ey : y = (y / r) * r := by field_simp
      generalize y / r = w at ey ⊢
      subst ey
      simp only [ea1, ea2]
      have e1 : -(α2 * r ^ 2) * x / r = -α2 * r * x := by field_simp
      rw [e1, hp, hq]
      have : 0 ≤ (1 - α2) * ((1 + α2 - α1) * (1 + α2 + α1)) * (x * r) ^ 2 := by
        have := mul_pos (show 0 < 1 + α2 - α1 by linarith) (show 0 < 1 + α2 + α1 by linarith)
        have h3 : 0 < 1 - α2 := by linarith
        positivity
      nlinarith [this]
    exact le_of_sq_le_sq this (by positivity)
  set U := (Real.sqrt p + Real.sqrt q) * (1 + 1 / r) with hU
  have U0 : 0 ≤ U := by positivity
  have up : ∀ (t : ℝ × ℝ) (M : ℝ), |t.1| ≤ M → |t.2| ≤ M → ‖phi p q r t‖ ≤ U * M := by
    intro t M m1 m2
    have M0 : 0 ≤ M := (abs_nonneg _).trans m1
    have q2 : |t.2 / r| ≤ M / r := by rw [abs_div, abs_of_pos r0]; exact div_le_div_of_nonneg_right m2 r0.le
    refine (Complex.norm_le_abs_re_add_abs_im _).trans ?_
    simp only [phi, abs_mul, abs_of_pos sp, abs_of_pos sq]
    have a := abs_add_le t.1 (t.2 / r)
    have b := abs_sub t.1 (t.2 / r)
    have : U * M = Real.sqrt p * (M + M / r) + Real.sqrt q * (M + M / r) := by rw [hU]; ring
    rw [this]
    gcongr
    · linarith
    · linarith
  set W := 1 / Real.sqrt p + 1 / Real.sqrt q with hW
  have W0 : 0 ≤ W := by positivity
  have lo : ∀ t : ℝ × ℝ, |t.1| ≤ W * ‖phi p q r t‖ ∧ |t.2| ≤ W * ‖phi p q r t‖ := by
    intro t
    have a : Real.sqrt p * |t.1 + t.2 / r| ≤ ‖phi p q r t‖ := by
      have := Complex.abs_re_le_norm (phi p q r t); simpa [phi, abs_mul, abs_of_pos sp] using this
    have b : Real.sqrt q * |t.1 - t.2 / r| ≤ ‖phi p q r t‖ := by
      have := Complex.abs_im_le_norm (phi p q r t); simpa [phi, abs_mul, abs_of_pos sq] using this
    have a' : |t.1 + t.2 / r| ≤ 1 / Real.sqrt p * ‖phi p q r t‖ := by rw [one_div, ← div_eq_inv_mul, le_div_iff₀ sp]; linarith
    have b' : |t.1 - t.2 / r| ≤ 1 / Real.sqrt q * ‖phi p q r t‖ := by rw [one_div, ← div_eq_inv_mul, le_div_iff₀ sq]; linarith
    have k1 : |t.1 + t.1| ≤ |t.1 + t.2 / r| + |t.1 - t.2 / r| := by
      have := abs_add_le (t.1 + t.2 / r) (t.1 - t.2 / r); ring_nf at this ⊢; exact this
    have k2 : |t.2 / r + t.2 / r| ≤ |t.1 + t.2 / r| + |t.1 - t.2 / r| := by
      have := abs_sub (t.1 + t.2 / r) (t.1 - t.2 / r); ring_nf at this ⊢; exact this
    have j1 : |t.1 + t.1| = 2 * |t.1| := by rw [← two_mul, abs_mul]; norm_num
    have j2 : |t.2 / r + t.2 / r| = 2 * (|t.2| / r) := by
      rw [← two_mul, abs_mul, abs_div, abs_of_pos r0]; norm_num
    have j3 : |t.2| ≤ |t.2| / r := by
      rw [le_div_iff₀ r0]; nlinarith [abs_nonneg t.2]
    have := abs_nonneg t.1
    have := abs_nonneg t.2
    rw [hW, add_mul]
    constructor <;> linarith
  have main : ∀ n ≤ N, ‖phi p q r (s n)‖ ≤ U * D / (1 - r) := by
    intro n
    have hUD : U * D ≤ U * D / (1 - r) := by
      rw [le_div_iff₀ (by linarith)]
      have := mul_nonneg U0 hD
      nlinarith
    induction n with
    | zero => intro _; exact (up (s 0) D h0.1 h0.2).trans hUD
    | succ n ih =>
      intro hn
      have i := ih (by omega)
      rw [hs n (by omega)]
      have e := phi_add p q r (-c.a1 * (s n).1 + (s n).2, -c.a2 * (s n).1) (d n)
      simp only at e
      rw [e]
      refine (norm_add_le _ _).trans ?_
      have dd := up (d n) D (hd n (by omega)).1 (hd n (by omega)).2
      have cc := con (s n)
      have hm := mul_le_mul_of_nonneg_left i r0.le
      have e2 : r * (U * D / (1 - r)) + U * D = U * D / (1 - r) := by
        have : (1 - r) ≠ 0 := by linarith
        field_simp; ring
      linarith
  have hm : 0 < (1 + α2 - |α1|) / 2 := by linarith
  have hmp : (1 + α2 - |α1|) / 2 ≤ p := by rw [hp]; linarith [le_abs_self α1]
  have hmq : (1 + α2 - |α1|) / 2 ≤ q := by rw [hq]; linarith [neg_abs_le α1]
  have hWU : W * U ≤ 4 * (1 + α2) / (1 + α2 - |α1|) * (1 + 1 / r) := by
    have := wu_le hm hmp hmq
    have e : 2 * (p + q) / ((1 + α2 - |α1|) / 2) = 4 * (1 + α2) / (1 + α2 - |α1|) := by
      have : 1 + α2 - |α1| ≠ 0 := by linarith
      rw [hp, hq]; field_simp; ring
    rw [e] at this
    rw [hU, ← mul_assoc]
    exact mul_le_mul_of_nonneg_right this (by positivity)
  intro n hn
  have m := main n hn
  have fin : W * (U * D / (1 - r)) ≤ Spec.gain c r * D := by
    have k : 0 < 1 - r := by linarith
    have e1 : W * (U * D / (1 - r)) = W * U * (D / (1 - r)) := by ring
    have e2 : Spec.gain c r * D = 4 * (1 + α2) / (1 + α2 - |α1|) * (1 + 1 / r) * (D / (1 - r)) := by rw [hgain]; ring
    rw [e1, e2]
    exact mul_le_mul_of_nonneg_right hWU (div_nonneg hD k.le)
  exact ⟨(lo _).1.trans ((mul_le_mul_of_nonneg_left m W0).trans fin), (lo _).2.trans ((mul_le_mul_of_nonneg_left m W0).trans fin)⟩

theorem rnd_le {rnd : ℝ → ℝ} {u η : ℝ} (h : Spec.Rounding rnd u η) (x : ℝ) : |rnd x| ≤ (1 + u) * |x| + η := by
  have := h x
  have h2 : |rnd x| ≤ |rnd x - x| + |x| := by
    have := abs_add_le (rnd x - x) x; simpa using this
  linarith

/-- The output of a rounded sample. -/
theorem op_err {rnd : ℝ → ℝ} {u η : ℝ} (h : Spec.Rounding rnd u η) (u0 : 0 ≤ u) (u1 : u ≤ 1 / 16) (η0 : 0 ≤ η) (p s : ℝ) :
    |rnd (rnd p + s) - (p + s)| ≤ 3 * u * (|p| + |s|) + 3 * η := by
  have e1 := h p
  have e2 := h (rnd p + s)
  have e3 := abs_add_le (rnd p) s
  have e4 := rnd_le h p
  have e5 : |rnd (rnd p + s) - (p + s)| ≤ |rnd (rnd p + s) - (rnd p + s)| + |rnd p - p| := by
    have := abs_add_le (rnd (rnd p + s) - (rnd p + s)) (rnd p - p)
    have e : rnd (rnd p + s) - (rnd p + s) + (rnd p - p) = rnd (rnd p + s) - (p + s) := by ring
    rwa [e] at this
  have e6 : u * |rnd p + s| ≤ u * ((1 + u) * |p| + η + |s|) := mul_le_mul_of_nonneg_left (by linarith) u0
  have e7 : u * (u * |p|) ≤ u * |p| := by
    have : u * |p| ≤ 1 * |p| := mul_le_mul_of_nonneg_right (by linarith) (abs_nonneg p)
    exact mul_le_mul_of_nonneg_left (by linarith) u0
  have e8 : u * η ≤ η := by nlinarith
  have := mul_nonneg u0 (abs_nonneg p)
  have := mul_nonneg u0 (abs_nonneg s)
  nlinarith

/-- The difference of two rounded products, rounded. -/
theorem diff_err {rnd : ℝ → ℝ} {u η : ℝ} (h : Spec.Rounding rnd u η) (u0 : 0 ≤ u) (u1 : u ≤ 1 / 16) (η0 : 0 ≤ η) (p q : ℝ) :
    |rnd (rnd p - rnd q) - (p - q)| ≤ 3 * u * (|p| + |q|) + 4 * η := by
  have e1 := h p
  have e1' := h q
  have e2 := h (rnd p - rnd q)
  have e3 := abs_sub (rnd p) (rnd q)
  have e4 := rnd_le h p
  have e4' := rnd_le h q
  have e5 : |rnd (rnd p - rnd q) - (p - q)| ≤ |rnd (rnd p - rnd q) - (rnd p - rnd q)| + |rnd p - p| + |rnd q - q| := by
    have := abs_add_three (rnd (rnd p - rnd q) - (rnd p - rnd q)) (rnd p - p) (-(rnd q - q))
    have e : rnd (rnd p - rnd q) - (rnd p - rnd q) + (rnd p - p) + -(rnd q - q) = rnd (rnd p - rnd q) - (p - q) := by ring
    rw [e, abs_neg] at this
    exact this
  have e6 : u * |rnd p - rnd q| ≤ u * ((1 + u) * (|p| + |q|) + 2 * η) := mul_le_mul_of_nonneg_left (by linarith) u0
  have e7 : u * (u * (|p| + |q|)) ≤ u * (|p| + |q|) := by
    have : u * (|p| + |q|) ≤ 1 * (|p| + |q|) := mul_le_mul_of_nonneg_right (by linarith) (by positivity)
    exact mul_le_mul_of_nonneg_left (by linarith) u0
  have e8 : u * η ≤ η / 16 := by nlinarith
  nlinarith

/-- The same plus a third number, rounded again. -/
theorem sum_err {rnd : ℝ → ℝ} {u η : ℝ} (h : Spec.Rounding rnd u η) (u0 : 0 ≤ u) (u1 : u ≤ 1 / 16) (η0 : 0 ≤ η) (p q s : ℝ) :
    |rnd (rnd (rnd p - rnd q) + s) - (p - q + s)| ≤ 5 * u * (|p| + |q| + |s|) + 6 * η := by
  have d := diff_err h u0 u1 η0 p q
  have e2 := h (rnd (rnd p - rnd q) + s)
  obtain ⟨t, ht⟩ : ∃ t, t = rnd (rnd p - rnd q) := ⟨_, rfl⟩
  rw [← ht] at d e2 ⊢
  have e3 := abs_add_le t s
  have e4 : |t| ≤ (1 + 3 * u) * (|p| + |q|) + 4 * η := by
    have a := abs_add_le (t - (p - q)) (p - q)
    rw [sub_add_cancel] at a
    have b := abs_sub p q
    linarith
  have e5 : |rnd (t + s) - (p - q + s)| ≤ |rnd (t + s) - (t + s)| + |t - (p - q)| := by
    have := abs_add_le (rnd (t + s) - (t + s)) (t - (p - q))
    have e : rnd (t + s) - (t + s) + (t - (p - q)) = rnd (t + s) - (p - q + s) := by ring
    rwa [e] at this
  have e6 : u * |t + s| ≤ u * ((1 + 3 * u) * (|p| + |q|) + 4 * η + |s|) := mul_le_mul_of_nonneg_left (by linarith) u0
  have e7 : u * (u * (|p| + |q|)) ≤ u * (|p| + |q|) / 16 := by
    have : u * (|p| + |q|) ≤ 1 / 16 * (|p| + |q|) := mul_le_mul_of_nonneg_right u1 (by positivity)
    have := mul_le_mul_of_nonneg_left this u0
    linarith
  have e8 : u * η ≤ η / 16 := by nlinarith
  have := mul_nonneg u0 (abs_nonneg s)
  have := mul_nonneg u0 (show 0 ≤ |p| + |q| by positivity)
  nlinarith

theorem near_size {c k : Cf} {δ : ℝ} (h : Spec.Near c δ k) (δ1 : δ ≤ 1) :
    (|k.a1| ≤ Spec.sizeA c ∧ |k.a2| ≤ Spec.sizeA c) ∧ |k.b0| ≤ Spec.sizeB c ∧ |k.b1| ≤ Spec.sizeB c ∧ |k.b2| ≤ Spec.sizeB c := by
  have g : ∀ x y : ℝ, |x - y| ≤ δ → |x| ≤ |y| + 1 := by
    intro x y hxy
    have := abs_add_le (x - y) y
    rw [sub_add_cancel] at this; linarith
  have a1 := g _ _ h.a1
  have a2 := g _ _ h.a2
  have b0 := g _ _ h.b0
  have b1 := g _ _ h.b1
  have b2 := g _ _ h.b2
  have := abs_nonneg c.a1
  have := abs_nonneg c.a2
  have := abs_nonneg c.b0
  have := abs_nonneg c.b1
  have := abs_nonneg c.b2
  unfold Spec.sizeA Spec.sizeB
  refine ⟨⟨?_, ?_⟩, ?_, ?_, ?_⟩ <;> linarith

/-- What one register is off by: rounding of its own operations (`e`), the rounded output in the feedback, the wandering coefficients. -/
theorem reg_err {A B u η δ X S a a' b b' b0 b0' x s s2 op z : ℝ} (u0 : 0 ≤ u) (u1 : u ≤ 1 / 16) (η0 : 0 ≤ η) (A0 : 0 ≤ A) (B0 : 0 ≤ B)
    (ha : |a| ≤ A) (hb : |b| ≤ B) (hb0 : |b0| ≤ B) (hb0' : |b0'| ≤ B) (da : |a - a'| ≤ δ) (db : |b - b'| ≤ δ) (db0 : |b0 - b0'| ≤ δ)
    (hx : |x| ≤ X) (hs : |s| ≤ S) (hs2 : |s2| ≤ S)
    (hop : |op - (x * b0 + s)| ≤ 3 * u * (|x * b0| + |s|) + 3 * η)
    (hz : |z - (x * b - a * op + s2)| ≤ 5 * u * (|x * b| + |a * op| + |s2|) + 6 * η) :
    |z - (x * (b' - a' * b0') - a' * s + s2)| ≤ (11 * (1 + A) * (1 + B) * u + (1 + A + B) * δ) * (S + X) + 6 * (1 + A) * η := by
  have X0 : 0 ≤ X := (abs_nonneg _).trans hx
  have S0 : 0 ≤ S := (abs_nonneg _).trans hs
  have δ0 : 0 ≤ δ := (abs_nonneg _).trans da
  have m : ∀ {p q P Q : ℝ}, |p| ≤ P → |q| ≤ Q → |p * q| ≤ P * Q := by
    intro p q P Q hp hq
    rw [abs_mul]; exact mul_le_mul hp hq (abs_nonneg _) ((abs_nonneg _).trans hp)
  have xb0 := m hx hb0
  have xb := m hx hb
  have hY : |x * b0| + |s| ≤ X * B + S := by linarith
  have Y0 : 0 ≤ X * B + S := by positivity
  have hop1 : |op - (x * b0 + s)| ≤ 3 * u * (X * B + S) + 3 * η := by
    have := mul_le_mul_of_nonneg_left hY (show 0 ≤ 3 * u by linarith)
    linarith
  have hopa : |op| ≤ (1 + 3 * u) * (X * B + S) + 3 * η := by
    have a := abs_add_le (op - (x * b0 + s)) (x * b0 + s)
    rw [sub_add_cancel] at a
    have b := abs_add_le (x * b0) s
    linarith
  have haop : |a * op| ≤ A * ((1 + 3 * u) * (X * B + S) + 3 * η) := m ha hopa
  have hfb : |a * (op - (x * b0 + s))| ≤ A * (3 * u * (X * B + S) + 3 * η) := m ha hop1
  -- the coefficients
  have c1 := m hx db
  have c2 := m hx (m ha db0)
  have c3 := m hx (m da hb0')
  have c4 := m da hs
  have e : z - (x * (b' - a' * b0') - a' * s + s2) =
      (z - (x * b - a * op + s2)) + (-(a * (op - (x * b0 + s)))) + (x * (b - b') + (-(x * (a * (b0 - b0')))) + (-(x * ((a - a') * b0'))) + (-((a - a') * s))) := by
    ring
  rw [e]
  have t1 := abs_add_three (z - (x * b - a * op + s2)) (-(a * (op - (x * b0 + s)))) (x * (b - b') + (-(x * (a * (b0 - b0')))) + (-(x * ((a - a') * b0'))) + (-((a - a') * s)))
  have t2 := abs_add_le (x * (b - b') + (-(x * (a * (b0 - b0')))) + (-(x * ((a - a') * b0')))) (-((a - a') * s))
  have t3 := abs_add_three (x * (b - b')) (-(x * (a * (b0 - b0')))) (-(x * ((a - a') * b0')))
  rw [abs_neg] at t1 t2
  rw [abs_neg, abs_neg] at t3
  -- rounding part
  have r1 : 5 * u * (|x * b| + |a * op| + |s2|) ≤ 5 * u * (X * B + A * ((1 + 3 * u) * (X * B + S) + 3 * η) + S) :=
    mul_le_mul_of_nonneg_left (by linarith) (by linarith)
  have AY : 0 ≤ A * (X * B + S) := by positivity
  have uAY : 0 ≤ u * (A * (X * B + S)) := by positivity
  have uuAY : u * (u * (A * (X * B + S))) ≤ u * (A * (X * B + S)) / 16 := by
    have := mul_le_mul_of_nonneg_right u1 uAY; linarith
  have uAη : u * (A * η) ≤ A * η / 16 := by
    have := mul_le_mul_of_nonneg_right u1 (show 0 ≤ A * η by positivity); linarith
  have Aη : 0 ≤ A * η := by positivity
  have r2 : 5 * u * (X * B + A * ((1 + 3 * u) * (X * B + S) + 3 * η) + S) + 6 * η + A * (3 * u * (X * B + S) + 3 * η) ≤
      9 * (u * (A * (X * B + S))) + 5 * (u * (X * B + S)) + 6 * (1 + A) * η := by linarith
  have r3 : 9 * (u * (A * (X * B + S))) + 5 * (u * (X * B + S)) ≤ 11 * (1 + A) * (1 + B) * u * (S + X) := by
    have k1 : X * B + S ≤ (1 + B) * (S + X) := by nlinarith [mul_nonneg B0 S0]
    have k2 := mul_le_mul_of_nonneg_left k1 (show 0 ≤ u * (9 * A + 5) by positivity)
    have k3 : u * (9 * A + 5) * ((1 + B) * (S + X)) ≤ u * (11 * (1 + A)) * ((1 + B) * (S + X)) :=
      mul_le_mul_of_nonneg_right (mul_le_mul_of_nonneg_left (by linarith) u0) (by positivity)
    linarith
  -- coefficient part
  have r4 : X * δ + X * (A * δ) + X * (δ * B) + δ * S ≤ (1 + A + B) * δ * (S + X) := by
    have : 0 ≤ A * δ * S := by positivity
    have : 0 ≤ B * δ * S := by positivity
    linarith
  linarith

/-- One rounded sample against the exact recursion of the design. -/
theorem chanR_err {rnd : ℝ → ℝ} {u η : ℝ} (h : Spec.Rounding rnd u η) (u0 : 0 ≤ u) (u1 : u ≤ 1 / 16) (η0 : 0 ≤ η) {c k : Cf} {δ : ℝ}
    (hk : Spec.Near c δ k) (δ0 : 0 ≤ δ) (δ1 : δ ≤ 1) {x s1 s2 X S : ℝ} (hx : |x| ≤ X) (h1 : |s1| ≤ S) (h2 : |s2| ≤ S) :
    |(chanR rnd k x s1 s2).1| ≤ 2 * (Spec.sizeB c * X + S) + 3 * η ∧
    |(chanR rnd k x s1 s2).2.1 - (x * (c.b1 - c.a1 * c.b0) - c.a1 * s1 + s2)| ≤ Spec.slack c u δ * (S + X) + 6 * (1 + Spec.sizeA c) * η ∧
    |(chanR rnd k x s1 s2).2.2 - (x * (c.b2 - c.a2 * c.b0) - c.a2 * s1)| ≤ Spec.slack c u δ * (S + X) + 6 * (1 + Spec.sizeA c) * η := by
  obtain ⟨⟨ha1, ha2⟩, hb0, hb1, hb2⟩ := near_size hk δ1
  have hb0' : |c.b0| ≤ Spec.sizeB c := by
    unfold Spec.sizeB; linarith [abs_nonneg c.b1, abs_nonneg c.b2]
  have A0 : 0 ≤ Spec.sizeA c := (abs_nonneg _).trans ha1
  have B0 : 0 ≤ Spec.sizeB c := (abs_nonneg _).trans hb0
  have X0 : 0 ≤ X := (abs_nonneg _).trans hx
  have S0 : 0 ≤ S := (abs_nonneg _).trans h1
  have hop := op_err h u0 u1 η0 (x * k.b0) s1
  unfold chanR Spec.slack
  dsimp only
  obtain ⟨op, hop'⟩ : ∃ op, op = rnd (rnd (x * k.b0) + s1) := ⟨_, rfl⟩
  rw [← hop'] at hop ⊢
  refine ⟨?_, ?_, ?_⟩
  · have a := abs_add_le (op - (x * k.b0 + s1)) (x * k.b0 + s1)
    rw [sub_add_cancel] at a
    have b := abs_add_le (x * k.b0) s1
    have d : |x * k.b0| ≤ Spec.sizeB c * X := by
      rw [abs_mul, mul_comm]; exact mul_le_mul hb0 hx (abs_nonneg _) B0
    have e : 3 * u * (|x * k.b0| + |s1|) ≤ 3 / 16 * (|x * k.b0| + |s1|) := mul_le_mul_of_nonneg_right (by linarith) (by positivity)
    linarith [abs_nonneg (x * k.b0), abs_nonneg s1]
  · exact reg_err u0 u1 η0 A0 B0 ha1 hb1 hb0 hb0' hk.a1 hk.b1 hk.b0 hx h1 h2 hop (sum_err h u0 u1 η0 _ _ _)
  · have d := diff_err h u0 u1 η0 (x * k.b2) (k.a2 * op)
    have := reg_err (s2 := 0) (z := rnd (rnd (x * k.b2) - rnd (k.a2 * op))) u0 u1 η0 A0 B0 ha2 hb2 hb0 hb0' hk.a2 hk.b2 hk.b0 hx h1 (by simpa using S0) hop (by
      rw [add_zero, abs_zero, add_zero]
      have : 0 ≤ u * (|x * k.b2| + |k.a2 * op|) := by positivity
      linarith)
    simpa using this

/-- The registers before sample `n`. -/
noncomputable def regsR (rnd : ℝ → ℝ) (s : ℝ × ℝ) (xs : List (Cf × ℝ × Bool)) : ℕ → ℝ × ℝ
  | 0 => s
  | n + 1 =>
    let t := regsR rnd s xs n
    let x := xs.getD n (⟨0, 0, 0, 0, 0⟩, 0, false)
    let q := chanR rnd x.1 x.2.1 t.1 t.2
    if x.2.2 then (flush q.2.1, flush q.2.2) else q.2

theorem regsR_cons (rnd : ℝ → ℝ) (s : ℝ × ℝ) (x : Cf × ℝ × Bool) (xs : List (Cf × ℝ × Bool)) (n : ℕ) :
    regsR rnd s (x :: xs) (n + 1) = regsR rnd (regsR rnd s (x :: xs) 1) xs n := by
  induction n with
  | zero => rfl
  | succ n ih =>
    have : ∀ m, regsR rnd s (x :: xs) (m + 1) = (
      let t := regsR rnd s (x :: xs) m
      let y := (x :: xs).getD m (⟨0, 0, 0, 0, 0⟩, 0, false)
      let q := chanR rnd y.1 y.2.1 t.1 t.2
      if y.2.2 then (flush q.2.1, flush q.2.2) else q.2) := fun _ => rfl
    rw [this (n + 1), ih]
    rfl

theorem runR_get (rnd : ℝ → ℝ) (xs : List (Cf × ℝ × Bool)) (s : ℝ × ℝ) :
    (runR rnd s xs).length = xs.length ∧ ∀ n (hn : n < xs.length),
      (runR rnd s xs)[n]? = some (chanR rnd xs[n].1 xs[n].2.1 (regsR rnd s xs n).1 (regsR rnd s xs n).2).1 := by
  induction xs generalizing s with
  | nil => exact ⟨rfl, fun n hn => by simp at hn⟩
  | cons x xs ih =>
    obtain ⟨c, x, fl⟩ := x
    obtain ⟨l, g⟩ := ih (regsR rnd s ((c, x, fl) :: xs) 1)
    have e : runR rnd s ((c, x, fl) :: xs) = (chanR rnd c x s.1 s.2).1 :: runR rnd (regsR rnd s ((c, x, fl) :: xs) 1) xs := rfl
    refine ⟨by rw [e]; simp [l], ?_⟩
    intro n hn
    cases n with
    | zero => rfl
    | succ n =>
      rw [e, List.getElem?_cons_succ, g n (by simpa using hn), regsR_cons rnd s _ xs n]
      rfl

/-- C96: **bounded in floating point, and while the coefficients wander.** Let the poles of a design `c` lie inside the radius `r < 1`. Round every
operation by a relative error of at most `u` and an absolute one of at most `η` (at least the flush threshold 1e-30), let the coefficients of every
sample be anywhere within `δ` of the design, and flush registers after any samples. As long as `2 · gain · slack ≤ 1`, every output of every run of
any length is at most the stated multiple of the largest input (and `η`). -/
theorem C96_rounded_bounded {c : Cf} {r : ℝ} (r0 : 0 < r) (r1 : r < 1) (h2 : |c.a2| < r ^ 2) (h1 : r * |c.a1| < r ^ 2 + c.a2)
    {u η δ : ℝ} (u0 : 0 ≤ u) (u1 : u ≤ 1 / 16) (hη : 1e-30 ≤ η) (δ0 : 0 ≤ δ) (δ1 : δ ≤ 1)
    (hsmall : 2 * Spec.gain c r * Spec.slack c u δ ≤ 1) {rnd : ℝ → ℝ} (hr : Spec.Rounding rnd u η) {M : ℝ} (M0 : 0 ≤ M)
    (xs : List (Cf × ℝ × Bool)) (hx : ∀ x ∈ xs, Spec.Near c δ x.1 ∧ |x.2.1| ≤ M) :
    (runR rnd (0, 0) xs).length = xs.length ∧ ∀ y ∈ runR rnd (0, 0) xs, |y| ≤
      2 * (Spec.sizeB c * M + 2 * Spec.gain c r * ((1 + Spec.sizeA c) * Spec.sizeB c * M + Spec.slack c u δ * M + 7 * (1 + Spec.sizeA c) * η)) + 3 * η := by
  obtain ⟨hl, hg⟩ := runR_get rnd xs (0, 0)
  refine ⟨hl, ?_⟩
  have η0 : 0 ≤ η := le_trans (by norm_num) hη
  have A0 : 0 ≤ Spec.sizeA c := by unfold Spec.sizeA; positivity
  have B0 : 0 ≤ Spec.sizeB c := by unfold Spec.sizeB; positivity
  have K0 : 0 ≤ Spec.slack c u δ := by unfold Spec.slack; positivity
  have G0 : 0 ≤ Spec.gain c r := by
    unfold Spec.gain
    have q1 : 0 < r ^ 2 + c.a2 - r * |c.a1| := by linarith
    have q2 : 0 < r ^ 2 + c.a2 := by linarith [mul_nonneg r0.le (abs_nonneg c.a1)]
    have q3 : 0 < 1 - r := by linarith
    positivity
  obtain ⟨D0, hD0⟩ : ∃ D0, D0 = (1 + Spec.sizeA c) * Spec.sizeB c * M + Spec.slack c u δ * M + 7 * (1 + Spec.sizeA c) * η := ⟨_, rfl⟩
  have D00 : 0 ≤ D0 := by rw [hD0]; positivity
  obtain ⟨Z, hZ⟩ : ∃ Z, Z = 2 * Spec.gain c r * D0 := ⟨_, rfl⟩
  have Z0 : 0 ≤ Z := by rw [hZ]; positivity
  have key : ∀ n ≤ xs.length, ∀ m ≤ n, |(regsR rnd (0, 0) xs m).1| ≤ Z ∧ |(regsR rnd (0, 0) xs m).2| ≤ Z := by
    intro n
    induction n with
    | zero =>
      intro _ m hm
      rw [Nat.le_zero.mp hm]
      simp [regsR, Z0]
    | succ n ih =>
      intro hn
      have i := ih (by omega)
      have D1 : 0 ≤ D0 + Spec.slack c u δ * Z := by positivity
      have sb := seq_bound_at r0 r1 h2 h1 (n + 1) (regsR rnd (0, 0) xs)
        (fun m => ((regsR rnd (0, 0) xs (m + 1)).1 - (-c.a1 * (regsR rnd (0, 0) xs m).1 + (regsR rnd (0, 0) xs m).2),
          (regsR rnd (0, 0) xs (m + 1)).2 - -c.a2 * (regsR rnd (0, 0) xs m).1)) (D0 + Spec.slack c u δ * Z) (by
            intro m hm
            ext <;> simp) (by
            intro m hm
            obtain ⟨i1, i2⟩ := i m (by omega)
            have hmx : m < xs.length := by omega
            obtain ⟨hk, hxm⟩ := hx xs[m] (List.getElem_mem hmx)
            have er := chanR_err hr u0 u1 η0 hk δ0 δ1 hxm i1 i2
            obtain ⟨q, hq⟩ : ∃ q, q = chanR rnd xs[m].1 xs[m].2.1 (regsR rnd (0, 0) xs m).1 (regsR rnd (0, 0) xs m).2 := ⟨_, rfl⟩
            rw [← hq] at er
            obtain ⟨-, er1, er2⟩ := er
            have step : |(regsR rnd (0, 0) xs (m + 1)).1 - q.2.1| ≤ η ∧ |(regsR rnd (0, 0) xs (m + 1)).2 - q.2.2| ≤ η := by
              have e : regsR rnd (0, 0) xs (m + 1) = if xs[m].2.2 then (flush q.2.1, flush q.2.2) else q.2 := by
                rw [hq]
                simp only [regsR, List.getD_eq_getElem?_getD, List.getElem?_eq_getElem hmx, Option.getD_some]
              rw [e]
              split_ifs
              · exact ⟨(flush_err _).trans hη, (flush_err _).trans hη⟩
              · simp [η0]
            have size : ∀ a b : ℝ, |a| ≤ Spec.sizeA c → |b| ≤ Spec.sizeB c → |xs[m].2.1 * (b - a * c.b0)| ≤ (1 + Spec.sizeA c) * Spec.sizeB c * M := by
              intro a b ha hb
              have hb0 : |c.b0| ≤ Spec.sizeB c := by unfold Spec.sizeB; linarith [abs_nonneg c.b1, abs_nonneg c.b2]
              have t1 := abs_sub b (a * c.b0)
              have t2 : |a * c.b0| ≤ Spec.sizeA c * Spec.sizeB c := by rw [abs_mul]; exact mul_le_mul ha hb0 (abs_nonneg _) A0
              rw [abs_mul]
              have := mul_le_mul hxm (show |b - a * c.b0| ≤ (1 + Spec.sizeA c) * Spec.sizeB c by linarith) (abs_nonneg _) M0
              linarith
            have hA1 : |c.a1| ≤ Spec.sizeA c := by unfold Spec.sizeA; linarith [abs_nonneg c.a2]
            have hA2 : |c.a2| ≤ Spec.sizeA c := by unfold Spec.sizeA; linarith [abs_nonneg c.a1]
            have hB1 : |c.b1| ≤ Spec.sizeB c := by unfold Spec.sizeB; linarith [abs_nonneg c.b0, abs_nonneg c.b2]
            have hB2 : |c.b2| ≤ Spec.sizeB c := by unfold Spec.sizeB; linarith [abs_nonneg c.b0, abs_nonneg c.b1]
            have s1 := size _ _ hA1 hB1
            have s2 := size _ _ hA2 hB2
            have Aη : 0 ≤ Spec.sizeA c * η := by positivity
            obtain ⟨t, ht⟩ : ∃ t, t = regsR rnd (0, 0) xs m := ⟨_, rfl⟩
            obtain ⟨t', ht'⟩ : ∃ t', t' = regsR rnd (0, 0) xs (m + 1) := ⟨_, rfl⟩
            rw [← ht] at er1 er2 ⊢
            rw [← ht'] at step ⊢
            dsimp only
            constructor
            · have e : t'.1 - (-c.a1 * t.1 + t.2) = (t'.1 - q.2.1) + (q.2.1 - (xs[m].2.1 * (c.b1 - c.a1 * c.b0) - c.a1 * t.1 + t.2)) +
                  xs[m].2.1 * (c.b1 - c.a1 * c.b0) := by ring
              rw [e]
              refine (abs_add_three _ _ _).trans ?_
              rw [hD0]
              linarith [step.1]
            · have e : t'.2 - -c.a2 * t.1 = (t'.2 - q.2.2) + (q.2.2 - (xs[m].2.1 * (c.b2 - c.a2 * c.b0) - c.a2 * t.1)) +
                  xs[m].2.1 * (c.b2 - c.a2 * c.b0) := by ring
              rw [e]
              refine (abs_add_three _ _ _).trans ?_
              rw [hD0]
              linarith [step.2]) D1 (by simp [regsR, D1])
      have fin : Spec.gain c r * (D0 + Spec.slack c u δ * Z) ≤ Z := by
        have := mul_le_mul_of_nonneg_right hsmall Z0
        have e : Spec.gain c r * (D0 + Spec.slack c u δ * Z) = Z / 2 + 2 * Spec.gain c r * Spec.slack c u δ * Z / 2 := by rw [hZ]; ring
        rw [e]; linarith
      intro m hm
      exact ⟨((sb m hm).1).trans fin, ((sb m hm).2).trans fin⟩
  intro y hy
  obtain ⟨n, hn⟩ := List.mem_iff_getElem?.mp hy
  have hnx : n < xs.length := by
    by_contra hc
    rw [List.getElem?_eq_none (by omega)] at hn
    simp at hn
  rw [hg n hnx] at hn
  obtain ⟨i1, i2⟩ := key n hnx.le n le_rfl
  obtain ⟨hk, hxm⟩ := hx xs[n] (List.getElem_mem hnx)
  have er := (chanR_err hr u0 u1 η0 hk δ0 δ1 hxm i1 i2).1
  rw [← Option.some.inj hn, ← hD0, ← hZ]
  exact er

/-! ## A case that meets the hypotheses -/

/-- Rounding to nearest with the precision and the smallest exponent of `f64` (no overflow). -/
noncomputable def rnd64 (x : ℝ) : ℝ :=
  round (x / (2 : ℝ) ^ max (Int.log 2 |x| - 52) (-1074)) * (2 : ℝ) ^ max (Int.log 2 |x| - 52) (-1074)

theorem rnd64_rounding : Spec.Rounding rnd64 (1 / 2 ^ 53) 1e-30 := by
  intro x
  rcases eq_or_ne x 0 with rfl | hx
  · norm_num [rnd64]
  unfold rnd64
  obtain ⟨e, he⟩ : ∃ e, e = max (Int.log 2 |x| - 52) (-1074) := ⟨_, rfl⟩
  rw [← he]
  have q0 : (0 : ℝ) < (2 : ℝ) ^ e := by positivity
  have h1 : |round (x / (2 : ℝ) ^ e) * (2 : ℝ) ^ e - x| ≤ (2 : ℝ) ^ e / 2 := by
    have e1 : (round (x / (2 : ℝ) ^ e) : ℝ) * (2 : ℝ) ^ e - x = -(x / (2 : ℝ) ^ e - round (x / (2 : ℝ) ^ e)) * (2 : ℝ) ^ e := by
      field_simp; ring
    rw [e1, abs_mul, abs_neg, abs_of_pos q0]
    have := mul_le_mul_of_nonneg_right (abs_sub_round (x / (2 : ℝ) ^ e)) q0.le
    linarith
  refine h1.trans ?_
  rcases le_total (Int.log 2 |x| - 52) (-1074) with h | h
  · rw [max_eq_right h] at he
    have : (2 : ℝ) ^ e / 2 ≤ 1e-30 := by
      rw [he, show (-1074 : ℤ) = -((1074 : ℕ) : ℤ) from rfl, zpow_neg, zpow_natCast]
      have h4 : (2 : ℝ) ^ 100 ≤ 2 ^ 1074 := pow_le_pow_right₀ (by norm_num) (by norm_num)
      have h5 : ((2 : ℝ) ^ 1074)⁻¹ ≤ (2 ^ 100)⁻¹ := inv_anti₀ (by positivity) h4
      have h6 : ((2 : ℝ) ^ 100)⁻¹ ≤ 1e-30 := by norm_num
      linarith [show (0 : ℝ) < (2 ^ 1074)⁻¹ by positivity]
    have h3 : (0 : ℝ) ≤ 1 / 2 ^ 53 * |x| := by positivity
    linarith
  · rw [max_eq_left h] at he
    have l := Int.zpow_log_le_self (b := 2) (by norm_num) (abs_pos.2 hx)
    have : (2 : ℝ) ^ e / 2 = 1 / 2 ^ 53 * (2 : ℝ) ^ Int.log 2 |x| := by
      rw [he, zpow_sub₀ (by norm_num)]
      norm_num
      ring
    rw [this]
    have l' : (1 : ℝ) / 2 ^ 53 * (2 : ℝ) ^ Int.log 2 |x| ≤ 1 / 2 ^ 53 * |x| := mul_le_mul_of_nonneg_left (by exact_mod_cast l) (by positivity)
    linarith [show (0 : ℝ) ≤ 1e-30 by norm_num]

/-- A low-pass of the kind the filters of an instance get, computed in `f64`, with every coefficient off by up to a millionth of the way: two
samples, the second with other coefficients and a flush. -/
example : ∀ y ∈ runR rnd64 (0, 0) [(⟨-1.8, 0.82, 0.005, 0.01, 0.005⟩, 1, false), (⟨-1.8000005, 0.82, 0.0050003, 0.01, 0.005⟩, -0.5, true)],
    |y| ≤ 3000000 := by
  have hc : Spec.gain ⟨-1.8, 0.82, 0.005, 0.01, 0.005⟩ 0.95 ≤ 23000 := by
    unfold Spec.gain
    norm_num [abs_of_pos, abs_of_neg]
  have hg : 0 ≤ Spec.gain ⟨-1.8, 0.82, 0.005, 0.01, 0.005⟩ 0.95 := by
    unfold Spec.gain
    norm_num [abs_of_pos, abs_of_neg]
  have hs : Spec.slack ⟨-1.8, 0.82, 0.005, 0.01, 0.005⟩ (1 / 2 ^ 53) 1e-6 ≤ 1e-5 := by
    unfold Spec.slack Spec.sizeA Spec.sizeB
    norm_num [abs_of_pos, abs_of_neg]
  have hs0 : 0 ≤ Spec.slack ⟨-1.8, 0.82, 0.005, 0.01, 0.005⟩ (1 / 2 ^ 53) 1e-6 := by
    unfold Spec.slack Spec.sizeA Spec.sizeB
    norm_num [abs_of_pos, abs_of_neg]
  have hA : Spec.sizeA ⟨-1.8, 0.82, 0.005, 0.01, 0.005⟩ = 4.62 := by
    unfold Spec.sizeA
    norm_num [abs_of_pos, abs_of_neg]
  have hB : Spec.sizeB ⟨-1.8, 0.82, 0.005, 0.01, 0.005⟩ = 3.02 := by
    unfold Spec.sizeB
    norm_num [abs_of_pos, abs_of_neg]
  have key := (C96_rounded_bounded (c := ⟨-1.8, 0.82, 0.005, 0.01, 0.005⟩) (r := 0.95) (by norm_num) (by norm_num)
    (by norm_num [abs_of_pos]) (by norm_num [abs_of_neg]) (u := 1 / 2 ^ 53) (η := 1e-30) (δ := 1e-6) (by norm_num) (by norm_num) le_rfl (by norm_num) (by norm_num)
    (by have := mul_le_mul hc hs hs0 (by norm_num); linarith) rnd64_rounding (M := 1) (by norm_num)
    [(⟨-1.8, 0.82, 0.005, 0.01, 0.005⟩, 1, false), (⟨-1.8000005, 0.82, 0.0050003, 0.01, 0.005⟩, -0.5, true)] (by
      intro x hx
      simp only [List.mem_cons, List.not_mem_nil, or_false] at hx
      rcases hx with rfl | rfl
      · exact ⟨⟨by norm_num, by norm_num, by norm_num, by norm_num, by norm_num⟩, by norm_num⟩
      · exact ⟨⟨by norm_num [abs_of_neg], by norm_num, by norm_num [abs_of_pos], by norm_num, by norm_num⟩, by norm_num [abs_of_neg, abs_of_pos]⟩)).2
  intro y hy
  refine (key y hy).trans ?_
  rw [hA, hB]
  generalize Spec.gain _ _ = G at hc hg ⊢
  generalize Spec.slack _ _ _ = S at hs hs0 ⊢
  have : G * ((1 + 4.62) * 3.02 * 1 + S * 1 + 7 * (1 + 4.62) * 1e-30) ≤ 23000 * 18 := mul_le_mul hc (by norm_num at hs ⊢; linarith) (by positivity) (by norm_num)
  norm_num at this ⊢
  linarith

end Verif.Biquad
