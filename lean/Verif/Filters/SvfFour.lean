import Verif.Filters.SvfResonant
import Mathlib.Tactic.Linarith
/-!
# The four-pole state-variable filter with the resonance turned up (C105)

Two sections in series share one clip gain, which looks at the band of the second.  If that band stays small for four samples the whole
state is small (the sections are observable through it); if it does not, the gain drops to its floor and so does the state.
-/
namespace Verif.Filters

/-- The state of both sections. -/
structure P4 where
  l1 : ℝ
  b1 : ℝ
  l2 : ℝ
  b2 : ℝ

def P4.dot (φ w : P4) : ℝ := φ.l1 * w.l1 + φ.b1 * w.b1 + φ.l2 * w.l2 + φ.b2 * w.b2
def P4.scale (g : ℝ) (w : P4) : P4 := ⟨g * w.l1, g * w.b1, g * w.l2, g * w.b2⟩

/-- One sample of both sections before the clip gain; `p1 l + p2 b + p3 x` is what the first hands to the second. -/
def next4 (f T p1 p2 p3 x : ℝ) (w : P4) : P4 :=
  ⟨(1 - f ^ 2) * w.l1 + f * T * w.b1 + f ^ 2 * x, -(f * T) * w.l1 + ((T - 1) ^ 2 - f ^ 2) * w.b1 + f * T * x,
   (1 - f ^ 2) * w.l2 + f * T * w.b2 + f ^ 2 * (p1 * w.l1 + p2 * w.b1 + p3 * x),
   -(f * T) * w.l2 + ((T - 1) ^ 2 - f ^ 2) * w.b2 + f * T * (p1 * w.l1 + p2 * w.b1 + p3 * x)⟩

/-- A reading of the next state as a reading of this one. -/
def pull4 (f T p1 p2 : ℝ) (φ : P4) : P4 :=
  ⟨φ.l1 * (1 - f ^ 2) - φ.b1 * (f * T) + (φ.l2 * f ^ 2 + φ.b2 * (f * T)) * p1,
   φ.l1 * (f * T) + φ.b1 * ((T - 1) ^ 2 - f ^ 2) + (φ.l2 * f ^ 2 + φ.b2 * (f * T)) * p2,
   φ.l2 * (1 - f ^ 2) - φ.b2 * (f * T), φ.l2 * (f * T) + φ.b2 * ((T - 1) ^ 2 - f ^ 2)⟩

theorem dot_next (f T p1 p2 p3 g x : ℝ) (φ w : P4) :
    φ.dot (next4 f T p1 p2 p3 x (w.scale g)) = g * (pull4 f T p1 p2 φ).dot w + x * φ.dot ⟨f ^ 2, f * T, f ^ 2 * p3, f * T * p3⟩ := by
  simp only [P4.dot, next4, P4.scale, pull4]; ring

theorem dot_back {f T p1 p2 p3 g x a N M : ℝ} {φ w : P4} (g0 : 0.1 ≤ g) (hx : |x| ≤ M) (hM : M ≤ N)
    (h : |φ.dot (next4 f T p1 p2 p3 x (w.scale g))| ≤ a * N) :
    |(pull4 f T p1 p2 φ).dot w| ≤ 10 * (a + |φ.dot ⟨f ^ 2, f * T, f ^ 2 * p3, f * T * p3⟩|) * N := by
  rw [dot_next] at h
  obtain ⟨c, hc⟩ : ∃ c, c = φ.dot ⟨f ^ 2, f * T, f ^ 2 * p3, f * T * p3⟩ := ⟨_, rfl⟩
  obtain ⟨v, hv⟩ : ∃ c, c = (pull4 f T p1 p2 φ).dot w := ⟨_, rfl⟩
  rw [← hc, ← hv] at h ⊢
  have h1 : |x * c| ≤ N * |c| := by rw [abs_mul]; exact mul_le_mul_of_nonneg_right (hx.trans hM) (abs_nonneg _)
  have h2 : |g * v| ≤ a * N + N * |c| := by
    have : g * v = (g * v + x * c) - x * c := by ring
    rw [this]
    exact (abs_sub _ _).trans (by linarith)
  rw [abs_mul, abs_of_pos (by linarith)] at h2
  have := mul_le_mul_of_nonneg_right g0 (abs_nonneg v)
  linarith

/-- The reading of the clip gain. -/
def e4 : P4 := ⟨0, 0, 0, 1⟩

theorem cramer {a b c d x y s t K : ℝ} (hD : a * d - b * c ≠ 0) (h1 : a * x + b * y = s) (h2 : c * x + d * y = t) (hs : |s| ≤ K) (ht : |t| ≤ K) :
    |x| ≤ (|d| + |b|) / |a * d - b * c| * K ∧ |y| ≤ (|a| + |c|) / |a * d - b * c| * K := by
  have D0 : 0 < |a * d - b * c| := abs_pos.2 hD
  have ex : (a * d - b * c) * x = d * s - b * t := by rw [← h1, ← h2]; ring
  have ey : (a * d - b * c) * y = a * t - c * s := by rw [← h1, ← h2]; ring
  constructor
  · rw [div_mul_eq_mul_div, le_div_iff₀ D0, mul_comm |x|, ← abs_mul, ex]
    refine (abs_sub _ _).trans ?_
    rw [abs_mul, abs_mul]
    have := mul_le_mul_of_nonneg_left hs (abs_nonneg d)
    have := mul_le_mul_of_nonneg_left ht (abs_nonneg b)
    linarith
  · rw [div_mul_eq_mul_div, le_div_iff₀ D0, mul_comm |y|, ← abs_mul, ey]
    refine (abs_sub _ _).trans ?_
    rw [abs_mul, abs_mul]
    have := mul_le_mul_of_nonneg_left ht (abs_nonneg a)
    have := mul_le_mul_of_nonneg_left hs (abs_nonneg c)
    linarith

/-- For the band: the reading is `f T` times what the first section hands on, now minus then. -/
theorem cayley_e (f T p1 p2 : ℝ) (w : P4) :
    let τ := (1 - f ^ 2) + ((T - 1) ^ 2 - f ^ 2)
    let δ := (1 - f ^ 2) * ((T - 1) ^ 2 - f ^ 2) + (f * T) ^ 2
    (pull4 f T p1 p2 (pull4 f T p1 p2 e4)).dot w - τ * (pull4 f T p1 p2 e4).dot w + δ * e4.dot w =
      f * T * ((p1 * -f ^ 2 - p2 * (f * T)) * w.l1 + (p1 * (f * T) + p2 * ((T - 1) ^ 2 - f ^ 2 - 1)) * w.b1) := by
  intro τ δ
  simp only [P4.dot, pull4, e4, τ, δ]; ring

theorem cayley_e2 (f T p1 p2 : ℝ) (w : P4) :
    let τ := (1 - f ^ 2) + ((T - 1) ^ 2 - f ^ 2)
    let δ := (1 - f ^ 2) * ((T - 1) ^ 2 - f ^ 2) + (f * T) ^ 2
    let r1 := p1 * -f ^ 2 - p2 * (f * T)
    let r2 := p1 * (f * T) + p2 * ((T - 1) ^ 2 - f ^ 2 - 1)
    (pull4 f T p1 p2 (pull4 f T p1 p2 (pull4 f T p1 p2 e4))).dot w - τ * (pull4 f T p1 p2 (pull4 f T p1 p2 e4)).dot w + δ * (pull4 f T p1 p2 e4).dot w =
      f * T * ((r1 * (1 - f ^ 2) - r2 * (f * T)) * w.l1 + (r1 * (f * T) + r2 * ((T - 1) ^ 2 - f ^ 2)) * w.b1) := by
  intro τ δ r1 r2
  simp only [P4.dot, pull4, e4, τ, δ, r1, r2]; ring

/-- **Observability**: if the band of the second section stays within `N` for four samples, the whole state is within `κ N`. -/
theorem observed4 (f T p1 p2 p3 : ℝ) (hf : 0 < f) (hT : 0 < T) (hπ : p1 * (p1 * (f * T) + p2 * ((T - 1) ^ 2 - f ^ 2)) - p2 * (p1 * (1 - f ^ 2) - p2 * (f * T)) ≠ 0) :
    ∃ κ : ℝ, 0 ≤ κ ∧ ∀ (M N g0 g1 g2 x1 x2 x3 : ℝ) (w0 w1 w2 w3 : P4), M ≤ N → 0.1 ≤ g0 → 0.1 ≤ g1 → 0.1 ≤ g2 → |x1| ≤ M → |x2| ≤ M → |x3| ≤ M →
      w1 = next4 f T p1 p2 p3 x1 (w0.scale g0) → w2 = next4 f T p1 p2 p3 x2 (w1.scale g1) → w3 = next4 f T p1 p2 p3 x3 (w2.scale g2) →
      |w0.b2| ≤ N → |w1.b2| ≤ N → |w2.b2| ≤ N → |w3.b2| ≤ N →
      |w0.l1| ≤ κ * N ∧ |w0.b1| ≤ κ * N ∧ |w0.l2| ≤ κ * N ∧ |w0.b2| ≤ κ * N := by
  obtain ⟨ψ1, hψ1⟩ : ∃ p, p = pull4 f T p1 p2 e4 := ⟨_, rfl⟩
  obtain ⟨ψ2, hψ2⟩ : ∃ p, p = pull4 f T p1 p2 ψ1 := ⟨_, rfl⟩
  obtain ⟨ψ3, hψ3⟩ : ∃ p, p = pull4 f T p1 p2 ψ2 := ⟨_, rfl⟩
  obtain ⟨c0, hc0⟩ : ∃ c, c = |e4.dot ⟨f ^ 2, f * T, f ^ 2 * p3, f * T * p3⟩| := ⟨_, rfl⟩
  obtain ⟨c1, hc1⟩ : ∃ c, c = |ψ1.dot ⟨f ^ 2, f * T, f ^ 2 * p3, f * T * p3⟩| := ⟨_, rfl⟩
  obtain ⟨c2, hc2⟩ : ∃ c, c = |ψ2.dot ⟨f ^ 2, f * T, f ^ 2 * p3, f * T * p3⟩| := ⟨_, rfl⟩
  have c00 : 0 ≤ c0 := by rw [hc0]; exact abs_nonneg _
  have c10 : 0 ≤ c1 := by rw [hc1]; exact abs_nonneg _
  have c20 : 0 ≤ c2 := by rw [hc2]; exact abs_nonneg _
  obtain ⟨τ, hτ⟩ : ∃ t, t = (1 - f ^ 2) + ((T - 1) ^ 2 - f ^ 2) := ⟨_, rfl⟩
  obtain ⟨δ, hδ⟩ : ∃ t, t = (1 - f ^ 2) * ((T - 1) ^ 2 - f ^ 2) + (f * T) ^ 2 := ⟨_, rfl⟩
  obtain ⟨r1, hr1⟩ : ∃ t, t = p1 * -f ^ 2 - p2 * (f * T) := ⟨_, rfl⟩
  obtain ⟨r2, hr2⟩ : ∃ t, t = p1 * (f * T) + p2 * ((T - 1) ^ 2 - f ^ 2 - 1) := ⟨_, rfl⟩
  obtain ⟨r3, hr3⟩ : ∃ t, t = r1 * (1 - f ^ 2) - r2 * (f * T) := ⟨_, rfl⟩
  obtain ⟨r4, hr4⟩ : ∃ t, t = r1 * (f * T) + r2 * ((T - 1) ^ 2 - f ^ 2) := ⟨_, rfl⟩
  have hD : f * T * r1 * (f * T * r4) - f * T * r2 * (f * T * r3) ≠ 0 := by
    have : f * T * r1 * (f * T * r4) - f * T * r2 * (f * T * r3) = (f * T) ^ 2 * (f ^ 2 * (2 * T + f ^ 2)) *
        (p1 * (p1 * (f * T) + p2 * ((T - 1) ^ 2 - f ^ 2)) - p2 * (p1 * (1 - f ^ 2) - p2 * (f * T))) := by
      rw [hr4, hr3, hr1, hr2]; ring
    rw [this]
    exact mul_ne_zero (by positivity) hπ
  -- the four readings
  obtain ⟨k1, hk1⟩ : ∃ k, k = 10 * (1 + c0) := ⟨_, rfl⟩
  obtain ⟨k2, hk2⟩ : ∃ k, k = 10 * (k1 + c1) := ⟨_, rfl⟩
  obtain ⟨k3, hk3⟩ : ∃ k, k = 10 * (k2 + c2) := ⟨_, rfl⟩
  have k10 : 1 ≤ k1 := by rw [hk1]; linarith
  have k21 : k1 ≤ k2 := by rw [hk2]; linarith
  have k32 : k2 ≤ k3 := by rw [hk3]; linarith
  have k1p : 0 ≤ k1 := by linarith
  have k3p : 0 ≤ k3 := by linarith
  obtain ⟨K, hK⟩ : ∃ K, K = (1 + |τ| + |δ|) * k3 := ⟨_, rfl⟩
  have K0 : 0 ≤ K := by rw [hK]; positivity
  obtain ⟨m, hm⟩ : ∃ m, m = (|f * T * r4| + |f * T * r2|) / |f * T * r1 * (f * T * r4) - f * T * r2 * (f * T * r3)| * K +
      (|f * T * r1| + |f * T * r3|) / |f * T * r1 * (f * T * r4) - f * T * r2 * (f * T * r3)| * K := ⟨_, rfl⟩
  have m0 : 0 ≤ m := by rw [hm]; positivity
  obtain ⟨n, hn⟩ : ∃ n, n = (k1 + |(T - 1) ^ 2 - f ^ 2| + f * T * ((|p1| + |p2|) * m)) / (f * T) := ⟨_, rfl⟩
  have n0 : 0 ≤ n := by rw [hn]; positivity
  refine ⟨m + n + 1, by positivity, ?_⟩
  intro M N g0 g1 g2 x1 x2 x3 w0 w1 w2 w3 hMN hg0 hg1 hg2 hx1 hx2 hx3 e1 e2 e3 o0 o1 o2 o3
  have N0 : 0 ≤ N := (abs_nonneg _).trans o0
  have ed : ∀ w : P4, e4.dot w = w.b2 := fun w => by simp [P4.dot, e4]
  have a1 : ∀ (w w' : P4) (g x : ℝ), 0.1 ≤ g → |x| ≤ M → w' = next4 f T p1 p2 p3 x (w.scale g) → |w'.b2| ≤ N → |ψ1.dot w| ≤ k1 * N := by
    intro w w' g x hg hx e o
    have := dot_back (φ := e4) (a := 1) hg hx hMN (by rw [← e, ed]; linarith)
    rw [hψ1, hk1, hc0]; exact this
  have a2 : ∀ (w w' : P4) (g x : ℝ), 0.1 ≤ g → |x| ≤ M → w' = next4 f T p1 p2 p3 x (w.scale g) → |ψ1.dot w'| ≤ k1 * N → |ψ2.dot w| ≤ k2 * N := by
    intro w w' g x hg hx e o
    have := dot_back (φ := ψ1) (a := k1) hg hx hMN (by rw [← e]; exact o)
    rw [hψ2, hk2, hc1]; exact this
  have a3 : ∀ (w w' : P4) (g x : ℝ), 0.1 ≤ g → |x| ≤ M → w' = next4 f T p1 p2 p3 x (w.scale g) → |ψ2.dot w'| ≤ k2 * N → |ψ3.dot w| ≤ k3 * N := by
    intro w w' g x hg hx e o
    have := dot_back (φ := ψ2) (a := k2) hg hx hMN (by rw [← e]; exact o)
    rw [hψ3, hk3, hc2]; exact this
  have b1 := a1 w0 w1 g0 x1 hg0 hx1 e1 o1
  have b2 := a2 w0 w1 g0 x1 hg0 hx1 e1 (a1 w1 w2 g1 x2 hg1 hx2 e2 o2)
  have b3 := a3 w0 w1 g0 x1 hg0 hx1 e1 (a2 w1 w2 g1 x2 hg1 hx2 e2 (a1 w2 w3 g2 x3 hg2 hx3 e3 o3))
  have q0 : |e4.dot w0| ≤ k3 * N := by
    rw [ed]; exact o0.trans (by nlinarith)
  have q1 : |ψ1.dot w0| ≤ k3 * N := b1.trans (mul_le_mul_of_nonneg_right (k21.trans k32) N0)
  have q2 : |ψ2.dot w0| ≤ k3 * N := b2.trans (mul_le_mul_of_nonneg_right k32 N0)
  have comb : ∀ a b c : ℝ, |a| ≤ k3 * N → |b| ≤ k3 * N → |c| ≤ k3 * N → |a - τ * b + δ * c| ≤ K * N := by
    intro a b c ha hb hc
    have := (abs_add_le (a - τ * b) (δ * c)).trans (add_le_add_left (abs_sub a (τ * b)) _)
    rw [abs_mul, abs_mul] at this
    have t1 := mul_le_mul_of_nonneg_left hb (abs_nonneg τ)
    have t2 := mul_le_mul_of_nonneg_left hc (abs_nonneg δ)
    rw [hK]
    linarith
  have i1 := cayley_e f T p1 p2 w0
  have i2 := cayley_e2 f T p1 p2 w0
  simp only [← hψ1, ← hψ2, ← hψ3, ← hτ, ← hδ, ← hr1, ← hr2, ← hr3, ← hr4] at i1 i2
  obtain ⟨z1, z2⟩ := cramer (a := f * T * r1) (b := f * T * r2) (c := f * T * r3) (d := f * T * r4) (x := w0.l1) (y := w0.b1) hD
    (by rw [i1]; ring) (by rw [i2]; ring) (comb _ _ _ q2 q1 q0) (comb _ _ _ b3 q2 q1)
  have z1' : |w0.l1| ≤ m * N := by
    refine z1.trans ?_
    rw [hm, add_mul, ← mul_assoc]
    have : 0 ≤ (|f * T * r1| + |f * T * r3|) / |f * T * r1 * (f * T * r4) - f * T * r2 * (f * T * r3)| * K * N := by positivity
    linarith
  have z2' : |w0.b1| ≤ m * N := by
    refine z2.trans ?_
    rw [hm, add_mul, ← mul_assoc]
    have : 0 ≤ (|f * T * r4| + |f * T * r2|) / |f * T * r1 * (f * T * r4) - f * T * r2 * (f * T * r3)| * K * N := by positivity
    linarith
  have z3 : |w0.l2| ≤ n * N := by
    have fT : 0 < f * T := by positivity
    have e : f * T * w0.l2 = ((T - 1) ^ 2 - f ^ 2) * w0.b2 + f * T * (p1 * w0.l1 + p2 * w0.b1) - ψ1.dot w0 := by
      rw [hψ1]; simp only [P4.dot, pull4, e4]; ring
    rw [hn, div_mul_eq_mul_div, le_div_iff₀ fT, mul_comm |w0.l2|]
    nth_rw 1 [← abs_of_pos fT]
    rw [← abs_mul, e]
    have := (abs_sub (((T - 1) ^ 2 - f ^ 2) * w0.b2 + f * T * (p1 * w0.l1 + p2 * w0.b1)) (ψ1.dot w0)).trans (add_le_add_left (abs_add_le _ _) _)
    rw [abs_mul, abs_mul, abs_of_pos fT] at this
    have t0 := (abs_add_le (p1 * w0.l1) (p2 * w0.b1))
    rw [abs_mul, abs_mul] at t0
    have t1 := mul_le_mul_of_nonneg_left z1' (abs_nonneg p1)
    have t2 := mul_le_mul_of_nonneg_left z2' (abs_nonneg p2)
    have t3 : f * T * |p1 * w0.l1 + p2 * w0.b1| ≤ f * T * ((|p1| + |p2|) * m * N) := mul_le_mul_of_nonneg_left (by linarith) fT.le
    have t4 := mul_le_mul_of_nonneg_left o0 (abs_nonneg ((T - 1) ^ 2 - f ^ 2))
    linarith
  have mN : 0 ≤ m * N := by positivity
  have nN : 0 ≤ n * N := by positivity
  refine ⟨?_, ?_, ?_, ?_⟩ <;> linarith

/-! ## Energy -/

theorem energy_add2 {f q : ℝ} (h0 : -2 ≤ f + q) (h1 : f + q ≤ 2) (l b u v : ℝ) : energy f q (l + u, b + v) ≤ 1.5 * energy f q (l, b) + 3 * energy f q (u, v) := by
  have := energy_nonneg h0 h1 (l - 2 * u, b - 2 * v)
  simp only [energy] at this ⊢
  linarith

theorem energy_act {f q T : ℝ} (hT : T = 2 - f ^ 2 - f * q) (l b : ℝ) :
    energy f q ((1 - f ^ 2) * l + f * T * b, -(f * T) * l + ((T - 1) ^ 2 - f ^ 2) * b) = (1 - f * q) ^ 2 * energy f q (l, b) := by
  subst hT; simp only [energy]; ring

/-- The weighted energy of both sections. -/
def energy4 (f q W : ℝ) (w : P4) : ℝ := W * energy f q (w.l1, w.b1) + energy f q (w.l2, w.b2)

/-- With a suitable weight a sample at most doubles the energy, input apart. -/
theorem energy4_sample {f q T : ℝ} (hT : T = 2 - f ^ 2 - f * q) (p1 p2 p3 : ℝ) (h0 : -2 < f + q) (h1 : f + q < 2) (d1 : (1 - f * q) ^ 2 ≤ 1.24) :
    ∃ W C : ℝ, 1 ≤ W ∧ 0 ≤ C ∧ ∀ (x M : ℝ) (w : P4), |x| ≤ M → energy4 f q W (next4 f T p1 p2 p3 x w) ≤ 2 * energy4 f q W w + C * M ^ 2 := by
  obtain ⟨β, hβ⟩ : ∃ b, b = energy f q (f ^ 2, f * T) := ⟨_, rfl⟩
  have β0 : 0 ≤ β := by rw [hβ]; exact energy_nonneg h0.le h1.le _
  obtain ⟨D, hD⟩ : ∃ d, d = 4 - (f + q) ^ 2 := ⟨_, rfl⟩
  have D0 : 0 < D := by
    have : 0 < (2 - (f + q)) * (2 + (f + q)) := mul_pos (by linarith) (by linarith)
    rw [hD]; linarith [this, show (2 - (f + q)) * (2 + (f + q)) = 4 - (f + q) ^ 2 by ring]
  obtain ⟨k, hk⟩ : ∃ k, k = 3 * β * (3 * ((p1 ^ 2 + p2 ^ 2) * (4 / D))) := ⟨_, rfl⟩
  have k0 : 0 ≤ k := by rw [hk]; positivity
  refine ⟨1 + 10 * k, 3 * β * (1 + 10 * k) + 9 * β * p3 ^ 2, by linarith, by positivity, fun x M w hx => ?_⟩
  have hx2 : x ^ 2 ≤ M ^ 2 := by rw [← sq_abs]; exact pow_le_pow_left₀ (abs_nonneg _) hx 2
  have Q1 := energy_nonneg h0.le h1.le (w.l1, w.b1)
  have Q2 := energy_nonneg h0.le h1.le (w.l2, w.b2)
  have sec : ∀ l b v : ℝ, energy f q ((1 - f ^ 2) * l + f * T * b + f ^ 2 * v, -(f * T) * l + ((T - 1) ^ 2 - f ^ 2) * b + f * T * v) ≤
      1.86 * energy f q (l, b) + 3 * β * v ^ 2 := by
    intro l b v
    have a := energy_add2 h0.le h1.le ((1 - f ^ 2) * l + f * T * b) (-(f * T) * l + ((T - 1) ^ 2 - f ^ 2) * b) (f ^ 2 * v) (f * T * v)
    rw [energy_act hT, energy_scale, ← hβ] at a
    have := mul_le_mul_of_nonneg_right d1 (energy_nonneg h0.le h1.le (l, b))
    linarith
  obtain ⟨pa, pb⟩ := energy_parts (f := f) (q := q) w.l1 w.b1
  rw [← hD] at pa pb
  obtain ⟨E, hE⟩ : ∃ E, E = energy f q (w.l1, w.b1) := ⟨_, rfl⟩
  rw [← hE] at pa pb Q1
  have la : w.l1 ^ 2 ≤ 4 / D * E := by rw [div_mul_eq_mul_div, le_div_iff₀ D0]; linarith
  have lb : w.b1 ^ 2 ≤ 4 / D * E := by rw [div_mul_eq_mul_div, le_div_iff₀ D0]; linarith
  have P2 : (p1 * w.l1 + p2 * w.b1 + p3 * x) ^ 2 ≤ 3 * ((p1 ^ 2 + p2 ^ 2) * (4 / D)) * E + 3 * p3 ^ 2 * M ^ 2 := by
    have t : (p1 * w.l1 + p2 * w.b1 + p3 * x) ^ 2 ≤ 3 * (p1 ^ 2 * w.l1 ^ 2 + p2 ^ 2 * w.b1 ^ 2 + p3 ^ 2 * x ^ 2) := by
      nlinarith [sq_nonneg (p1 * w.l1 - p2 * w.b1), sq_nonneg (p1 * w.l1 - p3 * x), sq_nonneg (p2 * w.b1 - p3 * x)]
    have t1 := mul_le_mul_of_nonneg_left la (sq_nonneg p1)
    have t2 := mul_le_mul_of_nonneg_left lb (sq_nonneg p2)
    have t3 := mul_le_mul_of_nonneg_left hx2 (sq_nonneg p3)
    linarith
  have s1 := sec w.l1 w.b1 x
  have s2 := sec w.l2 w.b2 (p1 * w.l1 + p2 * w.b1 + p3 * x)
  rw [← hE] at s1
  have s3 := mul_le_mul_of_nonneg_left P2 (show 0 ≤ 3 * β by positivity)
  have s4 := mul_le_mul_of_nonneg_left hx2 (show 0 ≤ 3 * β by positivity)
  have s5 := mul_le_mul_of_nonneg_left (s1.trans (add_le_add_right s4 _)) (show 0 ≤ 1 + 10 * k by positivity)
  have s6 : 3 * β * (3 * ((p1 ^ 2 + p2 ^ 2) * (4 / D)) * E + 3 * p3 ^ 2 * M ^ 2) = k * E + 9 * β * p3 ^ 2 * M ^ 2 := by rw [hk]; ring
  rw [s6] at s3
  simp only [energy4, next4]
  rw [← hE]
  have kE : 0 ≤ k * E := mul_nonneg k0 Q1
  linarith

theorem energy4_scale (f q W g : ℝ) (w : P4) : energy4 f q W (w.scale g) = g ^ 2 * energy4 f q W w := by
  simp only [energy4, P4.scale, energy]; ring

/-! ## Six samples -/

/-- One sample of the state and the gain. -/
noncomputable def clip4 (f T p1 p2 p3 c x : ℝ) (s : P4 × ℝ) : P4 × ℝ :=
  ((next4 f T p1 p2 p3 x s.1).scale s.2, clipReg c (next4 f T p1 p2 p3 x s.1).b2)

/-- The state after the inputs `x 0 .. x (n - 1)`. -/
noncomputable def orbit4 (f T p1 p2 p3 c : ℝ) (x : ℕ → ℝ) (s : P4 × ℝ) : ℕ → P4 × ℝ
  | 0 => s
  | n + 1 => clip4 f T p1 p2 p3 c (x n) (orbit4 f T p1 p2 p3 c x s n)

set_option maxHeartbeats 1000000 in
/-- Every calm state is calm again within six samples, and never far from it in between. -/
theorem returns4 {f q T : ℝ} (hT : T = 2 - f ^ 2 - f * q) (p1 p2 p3 : ℝ) (hf0 : 0 < f) (hT0 : 0 < T) (h0 : -2 < f + q) (h1 : f + q < 2) (d1 : (1 - f * q) ^ 2 ≤ 1.24)
    (hπ : p1 * (p1 * (f * T) + p2 * ((T - 1) ^ 2 - f ^ 2)) - p2 * (p1 * (1 - f ^ 2) - p2 * (f * T)) ≠ 0) {c : ℝ} (hc : 0 < c) :
    ∃ W K : ℝ, 1 ≤ W ∧ 0 ≤ K ∧ ∀ M : ℝ, 0 ≤ M → ∃ R : ℝ, 0 ≤ R ∧ 100 * R ≤ K * (1 + M) ^ 2 ∧ ∀ (x : ℕ → ℝ) (s : P4 × ℝ), (∀ n, |x n| ≤ M) →
      energy4 f q W s.1 ≤ R → 0 ≤ s.2 → s.2 ≤ 1 →
      (∀ n ≤ 6, energy4 f q W (orbit4 f T p1 p2 p3 c x s n).1 ≤ 100 * R) ∧
      ∃ n, 1 ≤ n ∧ n ≤ 6 ∧ energy4 f q W (orbit4 f T p1 p2 p3 c x s n).1 ≤ R ∧ 0 ≤ (orbit4 f T p1 p2 p3 c x s n).2 ∧ (orbit4 f T p1 p2 p3 c x s n).2 ≤ 1 := by
  obtain ⟨κ, κ0, obs⟩ := observed4 f T p1 p2 p3 hf0 hT0 hπ
  obtain ⟨W, C, W1, C0, step⟩ := energy4_sample hT p1 p2 p3 h0 h1 d1
  obtain ⟨S, hS⟩ : ∃ S, S = 1 / Real.sqrt c := ⟨_, rfl⟩
  have S0 : 0 ≤ S := by rw [hS]; positivity
  obtain ⟨e, he⟩ : ∃ e, e = 4 * (W + 1) * κ ^ 2 + 63 * C := ⟨_, rfl⟩
  have e0 : 0 ≤ e := by rw [he]; positivity
  refine ⟨W, 100 * e * (S + 1) ^ 2, W1, by positivity, fun M M0 => ⟨e * (S + M) ^ 2, by positivity, ?_, fun x s hx hE g0 g1 => ?_⟩⟩
  · have : (S + M) ^ 2 ≤ (S + 1) ^ 2 * (1 + M) ^ 2 := by
      rw [← mul_pow]; exact pow_le_pow_left₀ (by positivity) (by nlinarith) 2
    have := mul_le_mul_of_nonneg_left this (show 0 ≤ 100 * e by positivity)
    linarith
  obtain ⟨R, hR⟩ : ∃ R, R = e * (S + M) ^ 2 := ⟨_, rfl⟩
  rw [← hR] at hE ⊢
  have MS : M ^ 2 ≤ (S + M) ^ 2 := pow_le_pow_left₀ M0 (by linarith) 2
  have CR : 63 * (C * M ^ 2) ≤ R := by
    rw [hR, he]
    have : 0 ≤ 4 * (W + 1) * κ ^ 2 * (S + M) ^ 2 := by positivity
    have := mul_le_mul_of_nonneg_left MS C0
    linarith
  have CM0 : 0 ≤ C * M ^ 2 := by positivity
  have R0 : 0 ≤ R := by rw [hR]; positivity
  obtain ⟨o, ho⟩ : ∃ o : ℕ → P4 × ℝ, o = orbit4 f T p1 p2 p3 c x s := ⟨_, rfl⟩
  obtain ⟨w, hw⟩ : ∃ w : ℕ → P4, w = fun n => next4 f T p1 p2 p3 (x n) (o n).1 := ⟨_, rfl⟩
  have oS : ∀ n, o (n + 1) = ((w n).scale (o n).2, clipReg c (w n).b2) := fun n => by rw [hw, ho]; rfl
  have o1 : ∀ n, (o (n + 1)).1 = (w n).scale (o n).2 := fun n => by rw [oS]
  have o2 : ∀ n, (o (n + 1)).2 = clipReg c (w n).b2 := fun n => by rw [oS]
  have gr : ∀ n, 0 ≤ (o n).2 ∧ (o n).2 ≤ 1 := by
    intro n
    cases n with
    | zero => rw [ho]; exact ⟨g0, g1⟩
    | succ n => rw [o2]; exact clip_unit hc.le
  have gl : ∀ n, 0.1 ≤ (o (n + 1)).2 := fun n => by rw [o2]; exact le_max_left _ _
  have nn : ∀ v : P4, 0 ≤ energy4 f q W v := fun v =>
    add_nonneg (mul_nonneg (by linarith) (energy_nonneg h0.le h1.le _)) (energy_nonneg h0.le h1.le _)
  have wE : ∀ n, energy4 f q W (w n) ≤ 2 * energy4 f q W (o n).1 + C * M ^ 2 := fun n => by rw [hw]; exact step _ _ _ (hx n)
  have oE : ∀ n, energy4 f q W (o (n + 1)).1 ≤ energy4 f q W (w n) := by
    intro n
    rw [o1, energy4_scale]
    have := mul_le_mul_of_nonneg_right (pow_le_one₀ (gr n).1 (gr n).2 : (o n).2 ^ 2 ≤ 1) (nn (w n))
    linarith
  have z0 : energy4 f q W (o 0).1 ≤ R := by rw [ho]; exact hE
  have E : ∀ n ≤ 6, energy4 f q W (o n).1 ≤ 2 ^ n * R + (2 ^ n - 1) * (C * M ^ 2) := by
    intro n
    induction n with
    | zero => intro _; simpa using z0
    | succ n ih =>
      intro h
      have := ih (by omega)
      have := (oE n).trans (wE n)
      rw [pow_succ]
      linarith
  have E100 : ∀ n ≤ 6, energy4 f q W (o n).1 ≤ 65 * R := by
    intro n hn
    have a := E n hn
    have p1 : (2 : ℝ) ^ n ≤ 64 := by
      calc (2 : ℝ) ^ n ≤ 2 ^ 6 := pow_le_pow_right₀ (by norm_num) hn
        _ = 64 := by norm_num
    have := mul_le_mul_of_nonneg_right p1 R0
    have := mul_le_mul_of_nonneg_right p1 CM0
    linarith
  rw [← ho]
  refine ⟨fun n hn => (E100 n hn).trans (by linarith), ?_⟩
  -- a large band brings the state down two samples later
  have big : ∀ n, n + 2 ≤ 6 → S < |(w n).b2| → energy4 f q W (o (n + 2)).1 ≤ R := by
    intro n hn hb
    have g : (o (n + 1)).2 = 0.1 := by rw [o2]; exact clip_floor hc (by rw [← hS]; exact hb)
    rw [o1, energy4_scale, g]
    have a := (wE (n + 1)).trans (add_le_add_left (mul_le_mul_of_nonneg_left (E100 (n + 1) (by omega)) (by norm_num)) _)
    have b : energy4 f q W (w (n + 1)) ≤ 65 * R := by
      have := E (n + 1) (by omega)
      have p1 : (2 : ℝ) ^ (n + 1) ≤ 32 := by
        calc (2 : ℝ) ^ (n + 1) ≤ 2 ^ 5 := pow_le_pow_right₀ (by norm_num) (by omega)
          _ = 32 := by norm_num
      have := mul_le_mul_of_nonneg_right p1 R0
      have := mul_le_mul_of_nonneg_right p1 CM0
      have := wE (n + 1)
      linarith
    norm_num
    linarith
  by_cases b1 : S < |(w 1).b2|
  · exact ⟨3, by norm_num, by norm_num, big 1 (by norm_num) b1, gr 3⟩
  by_cases b2 : S < |(w 2).b2|
  · exact ⟨4, by norm_num, by norm_num, big 2 (by norm_num) b2, gr 4⟩
  by_cases b3 : S < |(w 3).b2|
  · exact ⟨5, by norm_num, by norm_num, big 3 (by norm_num) b3, gr 5⟩
  by_cases b4 : S < |(w 4).b2|
  · exact ⟨6, by norm_num, by norm_num, big 4 (by norm_num) b4, gr 6⟩
  have nxt : ∀ n, w (n + 1) = next4 f T p1 p2 p3 (x (n + 1)) ((w n).scale (o n).2) := by
    intro n
    rw [← o1, hw]
  have SN : ∀ {y : ℝ}, ¬ S < y → y ≤ S + M := fun h => (not_lt.1 h).trans (by linarith)
  obtain ⟨v1, v2, v3, v4⟩ := obs M (S + M) (o 1).2 (o 2).2 (o 3).2 (x 2) (x 3) (x 4) (w 1) (w 2) (w 3) (w 4) (by linarith) (gl 0) (gl 1) (gl 2) (hx 2) (hx 3) (hx 4)
    (nxt 1) (nxt 2) (nxt 3) (SN b1) (SN b2) (SN b3) (SN b4)
  refine ⟨2, by norm_num, by norm_num, (oE 1).trans ?_, gr 2⟩
  have two : ∀ l b : ℝ, |l| ≤ κ * (S + M) → |b| ≤ κ * (S + M) → energy f q (l, b) ≤ 4 * (κ ^ 2 * (S + M) ^ 2) := by
    intro l b hl hb
    have := energy_nonneg (f := f) (q := -(2 * f) - q) (by linarith) (by linarith) (l, b)
    have q1 : l ^ 2 ≤ (κ * (S + M)) ^ 2 := by rw [← sq_abs]; exact pow_le_pow_left₀ (abs_nonneg _) hl 2
    have q2 : b ^ 2 ≤ (κ * (S + M)) ^ 2 := by rw [← sq_abs]; exact pow_le_pow_left₀ (abs_nonneg _) hb 2
    rw [mul_pow] at q1 q2
    simp only [energy] at this ⊢
    linarith
  have t1 := mul_le_mul_of_nonneg_left (two _ _ v1 v2) (show 0 ≤ W by linarith)
  have t2 := two _ _ v3 v4
  rw [hR, he]
  simp only [energy4]
  have : 0 ≤ C * (S + M) ^ 2 := by positivity
  linarith

theorem orbit_shift (f T p1 p2 p3 c : ℝ) (x : ℕ → ℝ) (s : P4 × ℝ) (k n : ℕ) :
    orbit4 f T p1 p2 p3 c (fun i => x (k + i)) (orbit4 f T p1 p2 p3 c x s k) n = orbit4 f T p1 p2 p3 c x s (k + n) := by
  induction n with
  | zero => rfl
  | succ n ih => rw [orbit4, ih]; rfl

/-- What holds up to the next calm state holds for ever. -/
theorem always4 {f T p1 p2 p3 c : ℝ} {I J : P4 × ℝ → Prop} {A : ℝ → Prop}
    (h : ∀ (x : ℕ → ℝ) (s : P4 × ℝ), (∀ n, A (x n)) → I s → (∀ n ≤ 6, J (orbit4 f T p1 p2 p3 c x s n)) ∧ ∃ n, 1 ≤ n ∧ n ≤ 6 ∧ I (orbit4 f T p1 p2 p3 c x s n))
    (n : ℕ) : ∀ (x : ℕ → ℝ) (s : P4 × ℝ), (∀ n, A (x n)) → I s → J (orbit4 f T p1 p2 p3 c x s n) := by
  induction n using Nat.strong_induction_on with
  | _ n ih =>
    intro x s hx hs
    obtain ⟨a, k, k1, k6, hk⟩ := h x s hx hs
    by_cases hn : n ≤ 6
    · exact a n hn
    · have := ih (n - k) (by omega) (fun i => x (k + i)) _ (fun i => hx _) hk
      rw [orbit_shift, show k + (n - k) = n by omega] at this
      exact this

/-- The registers hold the state of both sections and the gain. -/
def Holds4 (k : ℕ → ℝ) (u : FU) (s : P4 × ℝ) : Prop :=
  u.coeff = k ∧ (u.dcoeff = fun _ => 0) ∧ u.reg 1 = s.1.l1 ∧ u.reg 0 = s.1.b1 ∧ u.reg 4 = s.1.l2 ∧ u.reg 3 = s.1.b2 ∧ u.reg 2 = s.2

theorem sim4 (ty : IirType) (k : ℕ → ℝ) {T p1 p2 p3 : ℝ} (hT : T = 2 - k 0 ^ 2 - k 0 * k 1)
    (hp : ∀ x b l : ℝ, svfPick ty (chamberlin (k 0) (k 1) x (chamberlin (k 0) (k 1) x b l).2.2 (chamberlin (k 0) (k 1) x b l).1) = p1 * l + p2 * b + p3 * x)
    (xs : List ℝ) : ∀ (u : FU) (s : P4 × ℝ), Holds4 k u s → ∀ y ∈ (run (svf24 (svfPick ty)) u xs).2,
      ∃ n, y = (p1 * (orbit4 (k 0) T p1 p2 p3 (k 2) (fun n => xs.getD n 0) s n).1.l2 + p2 * (orbit4 (k 0) T p1 p2 p3 (k 2) (fun n => xs.getD n 0) s n).1.b2 +
        p3 * (p1 * (orbit4 (k 0) T p1 p2 p3 (k 2) (fun n => xs.getD n 0) s n).1.l1 + p2 * (orbit4 (k 0) T p1 p2 p3 (k 2) (fun n => xs.getD n 0) s n).1.b1 + p3 * xs.getD n 0)) * k 3 := by
  induction xs with
  | nil => intro u s _ y hy; simp [run] at hy
  | cons x xs ih =>
    rintro u s ⟨uc, ud, r1, r0, r4, r3, r2⟩ y hy
    obtain ⟨q1, q2, q3, q4, q5, q6, q7, q8⟩ := svf24_const ty u uc ud x
    have two : ∀ v b l : ℝ, (chamberlin (k 0) (k 1) v (chamberlin (k 0) (k 1) v b l).2.2 (chamberlin (k 0) (k 1) v b l).1).1 =
        (1 - k 0 ^ 2) * l + k 0 * T * b + k 0 ^ 2 * v ∧
        (chamberlin (k 0) (k 1) v (chamberlin (k 0) (k 1) v b l).2.2 (chamberlin (k 0) (k 1) v b l).1).2.2 =
        -(k 0 * T) * l + ((T - 1) ^ 2 - k 0 ^ 2) * b + k 0 * T * v := by
      intro v b l
      subst hT
      simp only [chamberlin]
      constructor <;> ring
    rw [hp] at q5 q6 q7 q8
    rw [hp] at q8
    rw [(two _ _ _).2] at q3 q5 q7
    rw [(two _ _ _).1] at q4 q6
    rw [r0, r1] at q3 q4 q5 q6 q7 q8
    rw [r3, r4] at q5 q6 q7 q8
    rcases List.mem_cons.1 hy with rfl | hy
    · exact ⟨0, by rw [q8]; simp [orbit4]⟩
    · have hh : Holds4 k (svf24 (svfPick ty) u x).1 (clip4 (k 0) T p1 p2 p3 (k 2) x s) := by
        refine ⟨q1, q2, ?_, ?_, ?_, ?_, ?_⟩
        · rw [q4, r2]; simp only [clip4, next4, P4.scale]; ring
        · rw [q3, r2]; simp only [clip4, next4, P4.scale]; ring
        · rw [q6, r2]; simp only [clip4, next4, P4.scale]; ring
        · rw [q5, r2]; simp only [clip4, next4, P4.scale]; ring
        · rw [q7]; simp only [clip4, next4]
      obtain ⟨n, hn⟩ := ih _ _ hh y hy
      refine ⟨n + 1, ?_⟩
      have os := orbit_shift (k 0) T p1 p2 p3 (k 2) (fun n => (x :: xs).getD n 0) s 1 n
      rw [Nat.add_comm 1 n] at os
      rw [← os]
      have e1 : (fun i => (x :: xs).getD (1 + i) 0) = fun i => xs.getD i 0 := by
        funext i; rw [Nat.add_comm]; simp
      rw [e1]
      simpa [orbit4] using hn

/-- What each output takes from the state can be told apart by two samples. -/
theorem svf_out_seen (ty : IirType) {f q T : ℝ} (hT : T = 2 - f ^ 2 - f * q) (f0 : 0 < f) (T0 : 0 < T) (D0 : 0 < 1 - f * q) : ∃ p1 p2 p3 : ℝ,
    (∀ x b l : ℝ, svfPick ty (chamberlin f q x (chamberlin f q x b l).2.2 (chamberlin f q x b l).1) = p1 * l + p2 * b + p3 * x) ∧
    p1 * (p1 * (f * T) + p2 * ((T - 1) ^ 2 - f ^ 2)) - p2 * (p1 * (1 - f ^ 2) - p2 * (f * T)) ≠ 0 := by
  cases ty
  · refine ⟨1 - f ^ 2, f * T, f ^ 2, fun x b l => ?_, ?_⟩
    · subst hT; simp only [chamberlin, svfPick]; ring
    · have : (1 - f ^ 2) * ((1 - f ^ 2) * (f * T) + f * T * ((T - 1) ^ 2 - f ^ 2)) - f * T * ((1 - f ^ 2) * (1 - f ^ 2) - f * T * (f * T)) = f * T * (1 - f * q) ^ 2 := by
        subst hT; ring
      rw [this]; positivity
  · refine ⟨-(f * T), (T - 1) ^ 2 - f ^ 2, f * T, fun x b l => ?_, ?_⟩
    · subst hT; simp only [chamberlin, svfPick]; ring
    · have : -(f * T) * (-(f * T) * (f * T) + ((T - 1) ^ 2 - f ^ 2) * ((T - 1) ^ 2 - f ^ 2)) - ((T - 1) ^ 2 - f ^ 2) * (-(f * T) * (1 - f ^ 2) - ((T - 1) ^ 2 - f ^ 2) * (f * T)) =
          f * T * (1 - f * q) ^ 2 := by
        subst hT; ring
      rw [this]; positivity
  · refine ⟨-(1 - f ^ 2) + q * f, -(f * T) - q * (T - 1), 1 - f ^ 2 - q * f, fun x b l => ?_, ?_⟩
    · subst hT; simp only [chamberlin, svfPick]; ring
    · have : (-(1 - f ^ 2) + q * f) * ((-(1 - f ^ 2) + q * f) * (f * T) + (-(f * T) - q * (T - 1)) * ((T - 1) ^ 2 - f ^ 2)) -
          (-(f * T) - q * (T - 1)) * ((-(1 - f ^ 2) + q * f) * (1 - f ^ 2) - (-(f * T) - q * (T - 1)) * (f * T)) = f * T * (1 - f * q) := by
        subst hT; ring
      rw [this]; positivity

set_option maxHeartbeats 1000000 in
/-- C105: **bounded although it oscillates, four poles**: the same for the four-pole filter, whose two sections share one clip gain. -/
theorem C105_bounded_resonant_four (ty : IirType) (k : ℕ → ℝ) (hf0 : 0 < k 0) (hf : k 0 ≤ 0.7) (hq0 : -0.15 ≤ k 1) (hq : k 1 ≤ 2.00 - 1.52 * k 0) (hc : 0 < k 2) :
    ∃ K : ℝ, ∀ (M : ℝ) (xs : List ℝ), 0 ≤ M → (∀ x ∈ xs, |x| ≤ M) →
      ∀ y ∈ (run (svfProcess ty .four) ⟨k, fun _ => 0, fun _ => 0, 0⟩ xs).2, |y| ≤ K * (1 + M) := by
  obtain ⟨f, hfe⟩ : ∃ f, f = k 0 := ⟨_, rfl⟩
  obtain ⟨q, hqe⟩ : ∃ q, q = k 1 := ⟨_, rfl⟩
  obtain ⟨T, hT⟩ : ∃ T, T = 2 - f ^ 2 - f * q := ⟨_, rfl⟩
  rw [← hfe] at hf0 hf hq
  rw [← hqe] at hq0 hq
  norm_num at hq hq0
  have h0 : -2 < f + q := by linarith
  have h1 : f + q < 2 := by linarith
  have fq0 : f * q ≤ 0.7 := by
    have := mul_le_mul_of_nonneg_left hq hf0.le
    nlinarith [sq_nonneg (f - 0.65)]
  have fq1 : -0.105 ≤ f * q := by
    have := mul_le_mul_of_nonneg_left hq0 hf0.le
    linarith
  have d0 : 0 < 1 - f * q := by linarith
  have d1 : (1 - f * q) ^ 2 ≤ 1.24 := by
    have := pow_le_pow_left₀ d0.le (show 1 - f * q ≤ 1.105 by linarith) 2
    exact this.trans (by norm_num)
  have T0 : 0 < T := by
    have : f ^ 2 ≤ 1 := pow_le_one₀ hf0.le (by linarith)
    rw [hT]; linarith
  obtain ⟨D, hD⟩ : ∃ D, D = 4 - (f + q) ^ 2 := ⟨_, rfl⟩
  have D0 : 0 < D := by
    have : 0 < (2 - (f + q)) * (2 + (f + q)) := mul_pos (by linarith) (by linarith)
    rw [hD]; linarith [this, show (2 - (f + q)) * (2 + (f + q)) = 4 - (f + q) ^ 2 by ring]
  obtain ⟨p1, p2, p3, hp, hπ⟩ := svf_out_seen ty hT hf0 T0 d0
  obtain ⟨W, K, W1, K0, ret⟩ := returns4 hT p1 p2 p3 hf0 T0 h0 h1 d1 hπ hc
  obtain ⟨B, hB⟩ : ∃ B, B = Real.sqrt (4 * K / D) := ⟨_, rfl⟩
  have B0 : 0 ≤ B := by rw [hB]; exact Real.sqrt_nonneg _
  have B2 : D * B ^ 2 = 4 * K := by
    rw [hB, Real.sq_sqrt (by positivity)]
    field_simp
  obtain ⟨G, hG⟩ : ∃ G, G = |p1| * B + |p2| * B + |p3| := ⟨_, rfl⟩
  have G0 : 0 ≤ G := by rw [hG]; positivity
  have e : svfProcess ty .four = svf24 (svfPick ty) := by cases ty <;> rfl
  rw [e]
  refine ⟨(|p1| * B + |p2| * B + |p3| * G) * |k 3|, fun M xs M0 hx y hy => ?_⟩
  obtain ⟨R, R0, hR, back⟩ := ret M M0
  obtain ⟨n, hn⟩ := sim4 ty k (T := T) (by rw [hT, hfe, hqe]) (by rw [← hfe, ← hqe]; exact hp) xs ⟨k, fun _ => 0, fun _ => 0, 0⟩ (⟨0, 0, 0, 0⟩, 0)
    ⟨rfl, rfl, rfl, rfl, rfl, rfl, rfl⟩ y hy
  rw [← hfe] at hn
  have hxs : ∀ n, |xs.getD n 0| ≤ M := by
    intro n
    by_cases h : n < xs.length
    · rw [List.getD_eq_getElem?_getD, List.getElem?_eq_getElem h]; exact hx _ (List.getElem_mem h)
    · rw [List.getD_eq_getElem?_getD, List.getElem?_eq_none (not_lt.1 h)]; simpa using M0
  have en := always4 (f := f) (T := T) (p1 := p1) (p2 := p2) (p3 := p3) (c := k 2) (A := fun x => |x| ≤ M)
    (I := fun s => energy4 f q W s.1 ≤ R ∧ 0 ≤ s.2 ∧ s.2 ≤ 1) (J := fun s => energy4 f q W s.1 ≤ 100 * R)
    (fun x s hx hs => back x s hx hs.1 hs.2.1 hs.2.2) n (fun n => xs.getD n 0) (⟨0, 0, 0, 0⟩, 0) hxs ⟨by simpa [energy4, energy] using R0, le_rfl, zero_le_one⟩
  obtain ⟨w, hw⟩ : ∃ w, w = (orbit4 f T p1 p2 p3 (k 2) (fun n => xs.getD n 0) (⟨0, 0, 0, 0⟩, 0) n).1 := ⟨_, rfl⟩
  rw [← hw] at hn
  rw [← hw] at en
  have en2 := en.trans hR
  have Q1 := energy_nonneg h0.le h1.le (w.l1, w.b1)
  have Q2 := energy_nonneg h0.le h1.le (w.l2, w.b2)
  simp only [energy4] at en2
  have WQ : energy f q (w.l1, w.b1) ≤ W * energy f q (w.l1, w.b1) := le_mul_of_one_le_left Q1 W1
  have part : ∀ l b : ℝ, energy f q (l, b) ≤ K * (1 + M) ^ 2 → |l| ≤ B * (1 + M) ∧ |b| ≤ B * (1 + M) := by
    intro l b hE
    obtain ⟨pa, pb⟩ := energy_parts (f := f) (q := q) l b
    rw [← hD] at pa pb
    have en3 : 4 * energy f q (l, b) ≤ D * (B * (1 + M)) ^ 2 := by
      rw [mul_pow, ← mul_assoc, B2]; linarith
    have BS : 0 ≤ B * (1 + M) := by positivity
    exact ⟨abs_le_of_sq_le_sq (le_of_mul_le_mul_left (pa.trans en3) D0) BS, abs_le_of_sq_le_sq (le_of_mul_le_mul_left (pb.trans en3) D0) BS⟩
  obtain ⟨a1, a2⟩ := part w.l1 w.b1 (by linarith)
  have WQ0 : 0 ≤ W * energy f q (w.l1, w.b1) := le_trans Q1 WQ
  obtain ⟨a3, a4⟩ := part w.l2 w.b2 (by linarith)
  have c1 := comb_bound (p1 := p1) (p2 := p2) (p3 := p3) a1 a2 ((hxs n).trans (show M ≤ 1 + M by linarith))
  rw [← hG] at c1
  have c2 := comb_bound (p1 := p1) (p2 := p2) (p3 := p3 * G) (x := 1 + M) a3 a4 (by rw [abs_of_nonneg (by linarith)])
  rw [hn, abs_mul]
  have c3 : |p1 * w.l2 + p2 * w.b2 + p3 * (p1 * w.l1 + p2 * w.b1 + p3 * xs.getD n 0)| ≤ (|p1| * B + |p2| * B + |p3| * G) * (1 + M) := by
    refine (abs_add_le _ _).trans ?_
    have t1 := comb_bound (p1 := p1) (p2 := p2) (p3 := 0) (x := 0) a3 a4 (by rw [abs_zero]; linarith)
    have t2 : |p3 * (p1 * w.l1 + p2 * w.b1 + p3 * xs.getD n 0)| ≤ |p3| * (G * (1 + M)) := by
      rw [abs_mul]; exact mul_le_mul_of_nonneg_left c1 (abs_nonneg _)
    rw [mul_zero, add_zero, abs_zero, add_zero] at t1
    linarith
  have := mul_le_mul_of_nonneg_right c3 (abs_nonneg (k 3))
  linarith

/-- C105: **bounded at every setting**: the filter of every type and order, with the coefficients made at any cutoff and any resonance -
self-oscillation included - has a bounded output for every bounded input, however long. -/
theorem C105_bounded_settings {f srInv : ℝ} (hf : 0 < f) (hs : 0 < srInv) (ty : IirType) (p : PoleType) (reso : ℝ) :
    ∃ K : ℝ, ∀ (M : ℝ) (xs : List ℝ), 0 ≤ M → (∀ x ∈ xs, |x| ≤ M) →
      ∀ y ∈ (run (svfProcess ty p) ⟨svfCoeffMake f srInv p reso, fun _ => 0, fun _ => 0, 0⟩ xs).2, |y| ≤ K * (1 + M) := by
  cases p
  · exact C105_bounded_two_pole hf hs ty reso
  obtain ⟨f0, f1⟩ := svf_freq hf hs .four reso
  by_cases hr : reso ≤ 0
  · have hst := (C105_design_stability hf hs ty .four reso).1.2 ((C105_design_stability hf hs ty .four reso).2.1 (hr.trans (by norm_num)))
    obtain ⟨K, hK⟩ := C105_bounded_partial ty .four (svfCoeffMake f srInv .four reso) (by
      have : svfCoeffMake f srInv .four reso 2 = 0.1 * Real.sqrt (limit reso 0 1) * svfCoeffMake f srInv .four reso 0 := rfl
      rw [this]
      have := Real.sqrt_nonneg (limit reso 0 1)
      positivity) hst
    refine ⟨|K|, fun M xs M0 hx y hy => (hK M xs M0 hx y hy).trans ?_⟩
    have := mul_le_mul_of_nonneg_right (le_abs_self K) M0
    linarith [abs_nonneg K]
  · have l0 : 0 < limit reso 0 1 := by
      unfold limit
      exact lt_max_of_lt_right (lt_min (not_le.1 hr) one_pos)
    have l1 : limit reso 0 1 ≤ 1 := max_le zero_le_one (min_le_right _ _)
    have r0 := Real.sqrt_pos.2 l0
    have r1 : Real.sqrt (limit reso 0 1) ≤ 1 := Real.sqrt_le_one.2 l1
    refine C105_bounded_resonant_four ty _ f0 f1.le ?_ ?_ ?_
    · have fe : svfCoeffMake f srInv .four reso 0 = 2.0 * Real.sin (Real.pi * min 0.11 (f * (0.25 * srInv))) := rfl
      simp only [svfCoeffMake]
      rw [← fe]
      refine le_min ?_ (le_min (by norm_num) (by norm_num at f1 ⊢; linarith))
      norm_num
      nlinarith [mul_self_nonneg (svfCoeffMake f srInv .four reso 0)]
    · simp only [svfCoeffMake]; exact (min_le_right _ _).trans (min_le_right _ _)
    · have : svfCoeffMake f srInv .four reso 2 = 0.1 * Real.sqrt (limit reso 0 1) * svfCoeffMake f srInv .four reso 0 := rfl
      rw [this]
      positivity

/-- At full resonance the damping is negative, and the output is bounded all the same. -/
example : svfCoeffMake 1000 (1 / 48000) .four 1 1 < 0 ∧ ∃ K : ℝ, ∀ (M : ℝ) (xs : List ℝ), 0 ≤ M → (∀ x ∈ xs, |x| ≤ M) →
    ∀ y ∈ (run (svfProcess .bandPass .four) ⟨svfCoeffMake 1000 (1 / 48000) .four 1, fun _ => 0, fun _ => 0, 0⟩ xs).2, |y| ≤ K * (1 + M) :=
  ⟨(C105_design_stability (by norm_num) (by norm_num) .bandPass .four 1).2.2 le_rfl, C105_bounded_settings (by norm_num) (by norm_num) .bandPass .four 1⟩

end Verif.Filters
