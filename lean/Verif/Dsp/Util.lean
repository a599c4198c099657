import Verif.Effects.FreqShift
import Mathlib.Analysis.SpecialFunctions.Pow.Real
import Mathlib.Analysis.SpecialFunctions.Log.Base
import Mathlib.Analysis.SpecialFunctions.Trigonometric.Basic
/-!
# Helpers of surge-math (C238-C243): the all-pass, interpolation, windows, conversions, byte order, 15-bit samples

Exact real arithmetic for the floating-point ones, bit vectors for the byte order.
-/
namespace Verif.Dsp.Util
open Verif.Effects.FreqShift (toI32 toI32_of)

/-! ## C238: the all-pass filter -/

/-- allpass.rs 3-8 `AllpassFilter<N>`. -/
structure Ap where
  buf : ℕ → ℝ
  a : ℝ
  wpos : ℕ

/-- allpass.rs 10-19 `default`. -/
noncomputable def Ap.default : Ap := ⟨fun _ => 0, 0.3, 0⟩

/-- allpass.rs 23-43 `update_wpos`, `process` (a remainder by `N = 0` panics: `N` is positive below). -/
noncomputable def Ap.process (N : ℕ) (f : Ap) (x : ℝ) : Ap × ℝ :=
  let w := (f.wpos + 1) % N
  let y := f.buf w
  let b := fun i => if i = w then y * -f.a + x else f.buf i
  (⟨b, f.a, w⟩, y + b w * f.a)

/-- One sample after the other: the filter then, and the output so far. -/
noncomputable def Ap.run (N : ℕ) (f : Ap) (x : ℕ → ℝ) : ℕ → Ap × (ℕ → ℝ)
  | 0 => (f, fun _ => 0)
  | n + 1 =>
    let p := Ap.run N f x n
    let q := p.1.process N (x n)
    (q.1, fun i => if i = n then q.2 else p.2 i)

/-- A signal, silent before its start. -/
def Spec.before (x : ℕ → ℝ) (n d : ℕ) : ℝ := if d ≤ n then x (n - d) else 0

/-- The signal inside the delay line, `v n = x n - a v (n - N)`. -/
def Spec.Line (N : ℕ) (a : ℝ) (x v : ℕ → ℝ) : Prop := ∀ n, v n = x n - a * Spec.before v n N

/-- The signal inside exists (by recursion on the last `n` samples). -/
noncomputable def line (N : ℕ) (a : ℝ) (x : ℕ → ℝ) (n : ℕ) : ℝ :=
  if h : 0 < N ∧ N ≤ n then x n - a * line N a x (n - N) else x n
termination_by n
decreasing_by omega

theorem line_spec {N : ℕ} (hN : 0 < N) (a : ℝ) (x : ℕ → ℝ) : Spec.Line N a x (line N a x) := fun n => by
  rw [line]
  unfold Spec.before
  by_cases h : N ≤ n
  · rw [dif_pos ⟨hN, h⟩, if_pos h]
  · rw [dif_neg (fun hh => h hh.2), if_neg h]; ring

theorem run_eq {N : ℕ} (hN : 0 < N) (a : ℝ) (x : ℕ → ℝ) (n : ℕ) : ((Ap.run N ⟨fun _ => 0, a, 0⟩ x n).1.a = a ∧ (Ap.run N ⟨fun _ => 0, a, 0⟩ x n).1.wpos = n % N ∧
    ∀ d, d < N → (Ap.run N ⟨fun _ => 0, a, 0⟩ x n).1.buf ((n + N - d) % N) = Spec.before (line N a x) n (d + 1)) ∧
    ∀ i < n, (Ap.run N ⟨fun _ => 0, a, 0⟩ x n).2 i = Spec.before (line N a x) i N + a * line N a x i := by
  induction n with
  | zero =>
    refine ⟨⟨rfl, by simp [Ap.run], fun d hd => ?_⟩, fun i hi => absurd hi (by omega)⟩
    unfold Spec.before
    rw [if_neg (by omega)]; rfl
  | succ n ih =>
    obtain ⟨⟨h1, h2, h3⟩, h4⟩ := ih
    have ew : ((Ap.run N ⟨fun _ => 0, a, 0⟩ x n).1.wpos + 1) % N = (n + 1) % N := by rw [h2, Nat.mod_add_mod]
    have ey : (Ap.run N ⟨fun _ => 0, a, 0⟩ x n).1.buf ((n + 1) % N) = Spec.before (line N a x) n N := by
      have := h3 (N - 1) (by omega)
      rwa [show n + N - (N - 1) = n + 1 by omega, show N - 1 + 1 = N by omega] at this
    have el : line N a x n = x n - a * Spec.before (line N a x) n N := line_spec hN a x n
    have eb : Spec.before (line N a x) n N * -(Ap.run N ⟨fun _ => 0, a, 0⟩ x n).1.a + x n = line N a x n := by rw [h1, el]; ring
    refine ⟨⟨h1, ?_, fun d hd => ?_⟩, fun i hi => ?_⟩
    · simp only [Ap.run, Ap.process]; exact ew
    · simp only [Ap.run, Ap.process, ew, ey, eb]
      by_cases hd0 : d = 0
      · subst hd0
        rw [if_pos (by rw [Nat.sub_zero, Nat.add_mod_right])]
        unfold Spec.before
        rw [if_pos (by omega)]; rfl
      · have hne : (n + 1 + N - d) % N ≠ (n + 1) % N := fun hh => by
          have h5 : n + 1 + N - d ≡ n + 1 + N [MOD N] := by
            show _ % N = _ % N
            rw [hh, Nat.add_mod_right]
          have h6 := (Nat.modEq_iff_dvd' (by omega)).1 h5
          rw [show n + 1 + N - (n + 1 + N - d) = d by omega] at h6
          exact absurd (Nat.le_of_dvd (by omega) h6) (by omega)
        rw [if_neg hne]
        have := h3 (d - 1) (by omega)
        rw [show n + N - (d - 1) = n + 1 + N - d by omega, show d - 1 + 1 = d by omega] at this
        rw [this]
        unfold Spec.before
        by_cases h : d ≤ n
        · rw [if_pos h, if_pos (by omega)]; congr 1; omega
        · rw [if_neg h, if_neg (by omega)]
    · simp only [Ap.run]
      by_cases h : i = n
      · subst h
        rw [if_pos rfl]
        simp only [Ap.process, ew, ey, eb, if_true]
        rw [h1]
        ring
      · rw [if_neg h]
        exact h4 i (by omega)

/-- **C238.**  For every positive length `N`, every coefficient and every input, the all-pass filter obeys `y n + a y (n - N) = a x n + x (n - N)`, and its energy is that of its input but for what is still
in the line: it never outputs more energy than it has got, if `|a| ≤ 1`. -/
theorem C238_allpass {N : ℕ} (hN : 0 < N) (a : ℝ) (x : ℕ → ℝ) (M : ℕ) : let y := (Ap.run N ⟨fun _ => 0, a, 0⟩ x M).2
    (∀ n < M, y n + a * Spec.before y n N = a * x n + Spec.before x n N) ∧
    (∃ v, Spec.Line N a x v ∧ ∑ n ∈ Finset.range M, y n ^ 2 + (1 - a ^ 2) * ∑ n ∈ Finset.range M, (v n ^ 2 - Spec.before v n N ^ 2) = ∑ n ∈ Finset.range M, x n ^ 2) ∧
    (|a| ≤ 1 → ∑ n ∈ Finset.range M, y n ^ 2 ≤ ∑ n ∈ Finset.range M, x n ^ 2) := by
  intro y
  have hy : ∀ i < M, y i = Spec.before (line N a x) i N + a * line N a x i := (run_eq hN a x M).2
  have hl := line_spec hN a x
  generalize line N a x = v at hy hl
  have en : ∑ n ∈ Finset.range M, y n ^ 2 + (1 - a ^ 2) * ∑ n ∈ Finset.range M, (v n ^ 2 - Spec.before v n N ^ 2) = ∑ n ∈ Finset.range M, x n ^ 2 := by
    rw [Finset.mul_sum, ← Finset.sum_add_distrib]
    refine Finset.sum_congr rfl fun n hn => ?_
    rw [hy n (Finset.mem_range.1 hn), show x n = v n + a * Spec.before v n N by rw [hl n]; ring]
    ring
  refine ⟨fun n hn => ?_, ⟨v, hl, en⟩, fun ha => ?_⟩
  · rw [hy n hn]
    unfold Spec.before
    by_cases h : N ≤ n
    · rw [if_pos h, if_pos h, if_pos h, hy _ (by omega), hl n]
      have h1 := hl (n - N)
      unfold Spec.before at h1 ⊢
      rw [if_pos h, h1]; ring
    · rw [if_neg h, if_neg h, if_neg h, hl n]
      unfold Spec.before
      rw [if_neg h]; ring
  · have a2 : 0 ≤ 1 - a ^ 2 := by
      have := (sq_le_one_iff_abs_le_one a).2 ha
      linarith
    have key : ∀ M, ∑ n ∈ Finset.range M, Spec.before v n N ^ 2 = ∑ n ∈ Finset.range (M - N), v n ^ 2 := fun M => by
      induction M with
      | zero => simp
      | succ M ih =>
        rw [Finset.sum_range_succ, ih]
        unfold Spec.before
        by_cases h : N ≤ M
        · rw [if_pos h, show M + 1 - N = M - N + 1 by omega, Finset.sum_range_succ]
        · rw [if_neg h, show M + 1 - N = 0 by omega, show M - N = 0 by omega]; simp
    have s0 : 0 ≤ ∑ n ∈ Finset.range M, (v n ^ 2 - Spec.before v n N ^ 2) := by
      rw [Finset.sum_sub_distrib, key, sub_nonneg]
      exact Finset.sum_le_sum_of_subset_of_nonneg (Finset.range_mono (Nat.sub_le _ _)) fun i _ _ => sq_nonneg _
    have := mul_nonneg a2 s0
    linarith

/-- The default filter, its coefficient being 0.3, is one of these. -/
example : Ap.default = ⟨fun _ => 0, 0.3, 0⟩ ∧ |(0.3 : ℝ)| ≤ 1 := ⟨rfl, by rw [abs_of_pos] <;> norm_num⟩

/-! ## C239: interpolation -/

/-- interp.rs 3-17 `cubic_interpolate`. -/
def cubic (y0 y1 y2 y3 mu : ℝ) : ℝ :=
  let mu2 := mu * mu
  let a0 := y3 - y2 - y0 + y1
  let a1 := y0 - y1 - a0
  let a2 := y2 - y0
  let a3 := y1
  a0 * mu * mu2 + a1 * mu2 + a2 * mu + a3

/-- **C239.**  The curve passes through the two middle points, reversing the points reverses it, it is linear in the points, and neighbouring pieces join smoothly: at the ends the slope is the difference of the
two points around. -/
theorem C239_cubic_joins (y0 y1 y2 y3 : ℝ) : cubic y0 y1 y2 y3 0 = y1 ∧ cubic y0 y1 y2 y3 1 = y2 ∧ (∀ mu, cubic y3 y2 y1 y0 (1 - mu) = cubic y0 y1 y2 y3 mu) ∧
    HasDerivAt (cubic y0 y1 y2 y3) (y2 - y0) 0 ∧ HasDerivAt (cubic y0 y1 y2 y3) (y3 - y1) 1 ∧
    ∀ a b z0 z1 z2 z3 mu, cubic (a * y0 + b * z0) (a * y1 + b * z1) (a * y2 + b * z2) (a * y3 + b * z3) mu = a * cubic y0 y1 y2 y3 mu + b * cubic z0 z1 z2 z3 mu := by
  have d : ∀ mu, HasDerivAt (cubic y0 y1 y2 y3) (3 * (y3 - y2 - y0 + y1) * mu ^ 2 + 2 * (y0 - y1 - (y3 - y2 - y0 + y1)) * mu + (y2 - y0)) mu := fun mu => by
    have e : cubic y0 y1 y2 y3 = fun mu => (y3 - y2 - y0 + y1) * mu ^ 3 + (y0 - y1 - (y3 - y2 - y0 + y1)) * mu ^ 2 + (y2 - y0) * mu + y1 := by
      funext mu; simp only [cubic]; ring
    rw [e]
    have h := ((((hasDerivAt_pow 3 mu).const_mul (y3 - y2 - y0 + y1)).add ((hasDerivAt_pow 2 mu).const_mul (y0 - y1 - (y3 - y2 - y0 + y1)))).add
      ((hasDerivAt_id mu).const_mul (y2 - y0))).add_const y1
    refine h.congr_deriv ?_
    push_cast
    ring
  refine ⟨by simp [cubic], by simp only [cubic]; ring, fun mu => by simp only [cubic]; ring, ?_, ?_, fun a b z0 z1 z2 z3 mu => by simp only [cubic]; ring⟩
  · exact (d 0).congr_deriv (by ring)
  · exact (d 1).congr_deriv (by ring)

/-- **C239** (refuted: interpolation reproduces a straight line).  The slopes at the points are twice too steep: on a line the curve is off it everywhere but at the ends and in the middle, by up to a tenth of
a step. -/
theorem C239_lines_refuted (a b mu : ℝ) : cubic (a - b) a (a + b) (a + 2 * b) mu - (a + b * mu) = b * (mu * (1 - mu) * (1 - 2 * mu)) := by simp only [cubic]; ring

/-! ## C240: windows -/

/-- window.rs 11-20 `blackman`. -/
noncomputable def blackman (i : ℝ) (n : ℕ) : ℝ := 0.42 - 0.5 * Real.cos (2 * Real.pi * i / (n - 1)) + 0.08 * Real.cos (4 * Real.pi * i / (n - 1))
/-- window.rs 22-32 `symmetric_blackman`. -/
noncomputable def symBlackman (i : ℝ) (n : ℕ) : ℝ :=
  let i := i - n / 2
  0.42 - 0.5 * Real.cos (2 * Real.pi * i / n) + 0.08 * Real.cos (4 * Real.pi * i / n)
/-- window.rs 34-44 `blackman_harris`. -/
noncomputable def blackmanHarris (i : ℝ) (n : ℕ) : ℝ :=
  0.35875 - 0.48829 * Real.cos (2 * Real.pi * i / (n - 1)) + 0.14128 * Real.cos (4 * Real.pi * i / (n - 1)) - 0.01168 * Real.cos (6 * Real.pi * i / (n - 1))
/-- window.rs 46-57 `symmetric_blackman_harris`: one of the three denominators is `n - 1`. -/
noncomputable def symBlackmanHarris (i : ℝ) (n : ℕ) : ℝ :=
  let i := i - n / 2
  0.35875 - 0.48829 * Real.cos (2 * Real.pi * i / n) + 0.14128 * Real.cos (4 * Real.pi * i / (n - 1)) - 0.01168 * Real.cos (6 * Real.pi * i / n)
/-- window.rs 59-70 `hamming`. -/
noncomputable def hamming (i : ℝ) (n : ℕ) : ℝ := open Classical in if i ≥ n then 0 else 0.54 - 0.46 * Real.cos (2 * Real.pi * i / (n - 1))
/-- window.rs 72-81 `hanning`. -/
noncomputable def hanning (i : ℝ) (n : ℕ) : ℝ := open Classical in if i ≥ n then 0 else 0.5 * (1 - Real.cos (2 * Real.pi * i / (n - 1)))

/-- `w` is a window on the places from 0 to `L`: the same from both ends, from its least value `lo` at the ends to 1 in the middle. -/
structure Spec.Window (w : ℝ → ℝ) (L lo : ℝ) : Prop where
  mirror : ∀ i, 0 ≤ i → i ≤ L → w (L - i) = w i
  ends : w 0 = lo ∧ w L = lo
  middle : w (L / 2) = 1
  range : ∀ i, 0 ≤ i → i ≤ L → lo ≤ w i ∧ w i ≤ 1

/-- A window that is a polynomial `p` in the cosine, which falls from 1 at -1 to `lo` at 1. -/
theorem window_of {w : ℝ → ℝ} {L lo : ℝ} (hL : 0 < L) (p : ℝ → ℝ) (h : ∀ i, 0 ≤ i → i ≤ L → w i = p (Real.cos (2 * Real.pi * i / L))) (p1 : p 1 = lo) (pm : p (-1) = 1)
    (pr : ∀ c, -1 ≤ c → c ≤ 1 → lo ≤ p c ∧ p c ≤ 1) : Spec.Window w L lo := by
  have hc : ∀ i, Real.cos (2 * Real.pi * (L - i) / L) = Real.cos (2 * Real.pi * i / L) := fun i => by
    rw [show 2 * Real.pi * (L - i) / L = 2 * Real.pi - 2 * Real.pi * i / L by field_simp, Real.cos_two_pi_sub]
  have hm : Real.cos (2 * Real.pi * (L / 2) / L) = -1 := by
    rw [show 2 * Real.pi * (L / 2) / L = Real.pi by field_simp, Real.cos_pi]
  have h0 : w 0 = lo := by rw [h 0 le_rfl hL.le]; simp [p1]
  refine ⟨fun i i0 i1 => ?_, ⟨h0, ?_⟩, ?_, fun i i0 i1 => ?_⟩
  · rw [h _ (by linarith) (by linarith), h _ i0 i1, hc]
  · have := h L hL.le le_rfl
    have hh := hc 0
    rw [sub_zero] at hh
    rw [this, hh]; simp [p1]
  · rw [h _ (by linarith) (by linarith), hm, pm]
  · rw [h i i0 i1]
    exact pr _ (Real.neg_one_le_cos _) (Real.cos_le_one _)

theorem cos_double (L i : ℝ) : Real.cos (4 * Real.pi * i / L) = 2 * Real.cos (2 * Real.pi * i / L) ^ 2 - 1 := by
  rw [show 4 * Real.pi * i / L = 2 * (2 * Real.pi * i / L) by ring, Real.cos_two_mul]
theorem cos_triple (L i : ℝ) : Real.cos (6 * Real.pi * i / L) = 4 * Real.cos (2 * Real.pi * i / L) ^ 3 - 3 * Real.cos (2 * Real.pi * i / L) := by
  rw [show 6 * Real.pi * i / L = 3 * (2 * Real.pi * i / L) by ring, Real.cos_three_mul]

/-- **C240.**  For every length from 2 on the four plain windows are windows, from their first to their last place; and the symmetric Blackman window, which the interpolation kernels use, is one around the
origin: 1 there, 0 at half the length to both sides. -/
theorem C240_windows {n : ℕ} (hn : 2 ≤ n) : Spec.Window (fun i => blackman i n) (n - 1) 0 ∧ Spec.Window (fun i => blackmanHarris i n) (n - 1) 0.00006 ∧
    Spec.Window (fun i => hamming i n) (n - 1) 0.08 ∧ Spec.Window (fun i => hanning i n) (n - 1) 0 ∧ Spec.Window (fun i => symBlackman (i - n / 2) n) n 0 ∧
    ∀ t, symBlackman (-t) n = symBlackman t n := by
  have h2 : (2 : ℝ) ≤ n := by exact_mod_cast hn
  have hL : (0 : ℝ) < n - 1 := by linarith
  have hn0 : (0 : ℝ) < n := by linarith
  have bl : ∀ c : ℝ, 0.42 - 0.5 * c + 0.08 * (2 * c ^ 2 - 1) = 0.34 - 0.5 * c + 0.16 * c ^ 2 := fun c => by ring
  refine ⟨?_, ?_, ?_, ?_, ?_, fun t => ?_⟩
  · refine window_of hL (fun c => 0.42 - 0.5 * c + 0.08 * (2 * c ^ 2 - 1)) (fun i _ _ => ?_) (by norm_num) (by norm_num) fun c c0 c1 => ?_
    · rw [blackman, cos_double]
    · simp only [bl]
      constructor <;> nlinarith
  · refine window_of hL (fun c => 0.35875 - 0.48829 * c + 0.14128 * (2 * c ^ 2 - 1) - 0.01168 * (4 * c ^ 3 - 3 * c)) (fun i _ _ => ?_) (by norm_num) (by norm_num) fun c c0 c1 => ?_
    · rw [blackmanHarris, cos_double, cos_triple]
    · have e : 0.35875 - 0.48829 * c + 0.14128 * (2 * c ^ 2 - 1) - 0.01168 * (4 * c ^ 3 - 3 * c) = 0.00006 + (1 - c) * (0.21741 - 0.23584 * c + 0.04672 * c ^ 2) := by ring
      have e' : 0.35875 - 0.48829 * c + 0.14128 * (2 * c ^ 2 - 1) - 0.01168 * (4 * c ^ 3 - 3 * c) = 1 - (1 + c) * (0.78253 - 0.32928 * c + 0.04672 * c ^ 2) := by ring
      constructor
      · rw [e]
        have : 0 ≤ 0.21741 - 0.23584 * c + 0.04672 * c ^ 2 := by nlinarith
        nlinarith [mul_nonneg (by linarith : 0 ≤ 1 - c) this]
      · rw [e']
        have : 0 ≤ 0.78253 - 0.32928 * c + 0.04672 * c ^ 2 := by nlinarith
        nlinarith [mul_nonneg (by linarith : 0 ≤ 1 + c) this]
  · refine window_of hL (fun c => 0.54 - 0.46 * c) (fun i _ i1 => ?_) (by norm_num) (by norm_num) fun c c0 c1 => ?_
    · rw [hamming, if_neg (by push Not; linarith)]
    · constructor <;> norm_num <;> linarith
  · refine window_of hL (fun c => 0.5 * (1 - c)) (fun i _ i1 => ?_) (by norm_num) (by norm_num) fun c c0 c1 => ?_
    · rw [hanning, if_neg (by push Not; linarith)]
    · constructor <;> norm_num <;> linarith
  · have sh : ∀ i : ℝ, Real.cos (2 * Real.pi * (i - n / 2 - n / 2) / n) = Real.cos (2 * Real.pi * i / n) := fun i => by
      rw [show 2 * Real.pi * (i - n / 2 - n / 2) / n = 2 * Real.pi * i / n - 2 * Real.pi by field_simp; ring, Real.cos_sub_two_pi]
    refine window_of hn0 (fun c => 0.42 - 0.5 * c + 0.08 * (2 * c ^ 2 - 1)) (fun i _ _ => ?_) (by norm_num) (by norm_num) fun c c0 c1 => ?_
    · simp only [symBlackman]
      rw [cos_double, sh]
    · simp only [bl]
      constructor <;> nlinarith
  · have sh : Real.cos (2 * Real.pi * (-t - n / 2) / n) = Real.cos (2 * Real.pi * (t - n / 2) / n) := by
      rw [show 2 * Real.pi * (-t - n / 2) / n = -(2 * Real.pi * (t - n / 2) / n) - 2 * Real.pi by field_simp; ring, Real.cos_sub_two_pi, Real.cos_neg]
    simp only [symBlackman]
    rw [cos_double, cos_double, sh]

/-- **C240** (refuted: so is the symmetric Blackman-Harris window).  One of its terms has another period: it is not symmetric.  For length 4, a place to the left and one to the right of the origin differ. -/
theorem C240_sym_harris_refuted : symBlackmanHarris (-1) 4 ≠ symBlackmanHarris 1 4 := by
  have e : ∀ a b : ℝ, 2 * Real.pi * (-1 - 4 / 2) / 4 = a → 2 * Real.pi * (1 - 4 / 2) / 4 = b → Real.cos a = 0 ∧ Real.cos b = 0 := fun a b ha hb => by
    subst ha; subst hb
    constructor
    · rw [show 2 * Real.pi * (-1 - 4 / 2) / 4 = Real.pi / 2 - 2 * Real.pi by ring, Real.cos_sub_two_pi, Real.cos_pi_div_two]
    · rw [show 2 * Real.pi * (1 - 4 / 2) / 4 = -(Real.pi / 2) by ring, Real.cos_neg, Real.cos_pi_div_two]
  obtain ⟨a, b⟩ := e _ _ rfl rfl
  have h1 : Real.cos (4 * Real.pi * (-1 - 4 / 2) / (4 - 1)) = 1 := by
    rw [show 4 * Real.pi * (-1 - 4 / 2) / (4 - 1) = -(2 * (2 * Real.pi)) by ring, Real.cos_neg]
    have := Real.cos_nat_mul_two_pi 2
    exact_mod_cast this
  have h2 : Real.cos (4 * Real.pi * (1 - 4 / 2) / (4 - 1)) = -1 / 2 := by
    rw [show 4 * Real.pi * (1 - 4 / 2) / (4 - 1) = -(Real.pi / 3 + Real.pi) by ring, Real.cos_neg, Real.cos_add_pi, Real.cos_pi_div_three]; ring
  have h3 := cos_triple 4 (-1 - 4 / 2)
  have h4 := cos_triple 4 (1 - 4 / 2)
  rw [a] at h3
  rw [b] at h4
  simp only [symBlackmanHarris]
  push_cast
  rw [a, b, h1, h2, h3, h4]
  norm_num

/-! ## C241: levels -/

/-- limit_range.rs 28-44. -/
noncomputable def limit (x lo hi : ℝ) : ℝ := min (max x lo) hi
/-- convert.rs 3-6 `amp_to_linear`. -/
noncomputable def ampToLinear (x : ℝ) : ℝ := max x 0 * max x 0 * max x 0
/-- convert.rs 8-10 `linear_to_amp`. -/
noncomputable def linearToAmp (x : ℝ) : ℝ := limit x 0.0000000001 1 ^ (1 / 3 : ℝ)
/-- convert.rs 12-15 `amp_to_db`. -/
noncomputable def ampToDb (x : ℝ) : ℝ := limit (6 * 3 * Real.logb 2 x) (-192) 96
/-- convert.rs 17-21 `db_to_amp`. -/
noncomputable def dbToAmp (x : ℝ) : ℝ := limit ((10 / 3 : ℝ) ^ (0.05 * x)) 0 1
/-- convert.rs 23-27 `db_to_scamp`. -/
noncomputable def dbToScamp (x : ℝ) : ℝ := limit ((10 : ℝ) ^ (-0.05 * x)) 0 1
/-- convert.rs 29-32 `linear_to_db`. -/
noncomputable def linearToDb (x : ℝ) : ℝ := 20 * Real.logb 10 x
/-- convert.rs 34-37 `db_to_linear`. -/
noncomputable def dbToLinear (x : ℝ) : ℝ := (10 : ℝ) ^ (0.05 * x)
/-- convert.rs 39-42 `timecent_to_seconds`. -/
noncomputable def timecentToSeconds (x : ℝ) : ℝ := (2 : ℝ) ^ (x / 1200)
/-- convert.rs 44-49 `seconds_to_envtime`. -/
noncomputable def secondsToEnvtime (x : ℝ) : ℝ := limit ((x / 30) ^ (1 / 3 : ℝ)) 0 1

theorem limit_id {x lo hi : ℝ} (h0 : lo ≤ x) (h1 : x ≤ hi) : limit x lo hi = x := by unfold limit; rw [max_eq_left h0, min_eq_left h1]

theorem cube_root {x : ℝ} (h : 0 ≤ x) : (x ^ (1 / 3 : ℝ)) ^ 3 = x := by
  rw [← Real.rpow_natCast, ← Real.rpow_mul h]; norm_num

/-- **C241.**  Decibels and gain are inverse to each other at every level; so are level and gain (a cube) from -200 dB to full level; 20 dB are a factor of ten, 1200 timecents of two. -/
theorem C241_levels : (∀ x, linearToDb (dbToLinear x) = x) ∧ (∀ g, 0 < g → dbToLinear (linearToDb g) = g) ∧ (∀ x, dbToLinear (x + 20) = 10 * dbToLinear x) ∧
    (∀ g, 0.0000000001 ≤ g → g ≤ 1 → ampToLinear (linearToAmp g) = g) ∧ (∀ a, 0.0000000001 ≤ a ^ 3 → 0 ≤ a → a ≤ 1 → linearToAmp (ampToLinear a) = a) ∧
    (∀ x, timecentToSeconds (x + 1200) = 2 * timecentToSeconds x) ∧ (∀ x y, 0 ≤ x → x ≤ y → secondsToEnvtime x ≤ secondsToEnvtime y) ∧ (∀ e, 0 ≤ e → e ≤ 1 → secondsToEnvtime (30 * e ^ 3) = e) := by
  have cube : ∀ a : ℝ, 0 ≤ a → (a ^ 3) ^ (1 / 3 : ℝ) = a := fun a ha => by
    rw [← Real.rpow_natCast, ← Real.rpow_mul ha]; norm_num
  refine ⟨fun x => ?_, fun g hg => ?_, fun x => ?_, fun g g0 g1 => ?_, fun a a0 a1 a2 => ?_, fun x => ?_, fun x y x0 xy => ?_, fun e e0 e1 => ?_⟩
  · unfold linearToDb dbToLinear
    rw [Real.logb_rpow (by norm_num) (by norm_num)]; norm_num; ring
  · unfold linearToDb dbToLinear
    rw [show 0.05 * (20 * Real.logb 10 g) = Real.logb 10 g by norm_num; ring, Real.rpow_logb (by norm_num) (by norm_num) hg]
  · unfold dbToLinear
    rw [show 0.05 * (x + 20) = 1 + 0.05 * x by norm_num; ring, Real.rpow_add (by norm_num), Real.rpow_one]
  · have g0' : 0 ≤ g := le_trans (by norm_num) g0
    unfold ampToLinear linearToAmp
    rw [limit_id g0 g1, max_eq_left (Real.rpow_nonneg g0' _)]
    have := cube_root g0'
    generalize g ^ (1 / 3 : ℝ) = z at this
    rw [← this]; ring
  · unfold ampToLinear linearToAmp
    rw [max_eq_left a1, show a * a * a = a ^ 3 by ring, limit_id a0 (pow_le_one₀ a1 a2), cube a a1]
  · unfold timecentToSeconds
    rw [show (x + 1200) / 1200 = 1 + x / 1200 by ring, Real.rpow_add (by norm_num), Real.rpow_one]
  · unfold secondsToEnvtime limit
    have : (x / 30) ^ (1 / 3 : ℝ) ≤ (y / 30) ^ (1 / 3 : ℝ) := Real.rpow_le_rpow (by positivity) (by linarith) (by norm_num)
    exact min_le_min_right _ (max_le_max_right _ this)
  · unfold secondsToEnvtime
    rw [show 30 * e ^ 3 / 30 = e ^ 3 by ring, cube e e0, limit_id e0 e1]

/-- **C241** (refuted: the level set in decibels is the level shown).  `db_to_amp` takes a third of ten to a power instead of ten to a third of it: at -60 dB, whose level is a tenth, it gives 0.027, which
`amp_to_db` shows as -94 dB: below -93. -/
theorem C241_db_to_amp_refuted : ampToLinear 0.1 = dbToLinear (-60) ∧ dbToAmp (-60) = 0.027 ∧ ampToDb (dbToAmp (-60)) < -93 := by
  have h : dbToAmp (-60) = 0.027 := by
    unfold dbToAmp
    rw [show 0.05 * (-60 : ℝ) = -((3 : ℕ) : ℝ) by norm_num, Real.rpow_neg (by norm_num), Real.rpow_natCast]
    unfold limit
    norm_num
  refine ⟨?_, h, ?_⟩
  · unfold ampToLinear dbToLinear
    rw [show 0.05 * (-60 : ℝ) = -((3 : ℕ) : ℝ) by norm_num, Real.rpow_neg (by norm_num), Real.rpow_natCast]
    norm_num
  · rw [h]
    unfold ampToDb limit
    have : Real.logb 2 0.027 < -(31 / 6) := by
      rw [Real.logb_lt_iff_lt_rpow (by norm_num) (by norm_num)]
      rw [Real.rpow_neg (by norm_num), show (31 / 6 : ℝ) = (31 : ℕ) * (6 : ℝ)⁻¹ by norm_num, Real.rpow_mul (by norm_num), Real.rpow_natCast]
      rw [lt_inv_comm₀ (by norm_num) (Real.rpow_pos_of_pos (by norm_num) _)]
      refine lt_of_pow_lt_pow_left₀ 6 (by norm_num) ?_
      rw [← Real.rpow_natCast (_ ^ _), ← Real.rpow_mul (by norm_num)]
      norm_num
    refine lt_of_le_of_lt (min_le_left _ _) (max_lt ?_ (by norm_num))
    linarith

/-! ## C242: byte order -/

/-- utility.rs 67-71 `vt_write_int32_be` (and `vt_read_int32_be`). -/
def swap32 (t : BitVec 32) : BitVec 32 := ((t <<< 24) &&& 0xff000000#32) ||| ((t <<< 8) &&& 0x00ff0000#32) ||| ((t >>> 8) &&& 0x0000ff00#32) ||| ((t >>> 24) &&& 0x000000ff#32)
/-- utility.rs 75-78 `vt_write_int16_be` (and `vt_read_int16_be`). -/
def swap16 (t : BitVec 16) : BitVec 16 := ((t <<< 8) &&& 0xff00#16) ||| ((t >>> 8) &&& 0x00ff#16)

/-- Byte `k` of a word. -/
def Spec.byte {w : ℕ} (t : BitVec w) (k : ℕ) : BitVec 8 := t.extractLsb' (8 * k) 8

/-- **C242.**  The big-endian forms have the bytes in the reverse order, for every word; so what is written is read back. -/
theorem C242_byte_order : (∀ t : BitVec 32, (∀ k < 4, Spec.byte (swap32 t) k = Spec.byte t (3 - k)) ∧ swap32 (swap32 t) = t) ∧
    ∀ t : BitVec 16, (∀ k < 2, Spec.byte (swap16 t) k = Spec.byte t (1 - k)) ∧ swap16 (swap16 t) = t := by
  have b32 : ∀ t : BitVec 32, ∀ i < 32, (swap32 t).getLsbD i = t.getLsbD (8 * (3 - i / 8) + i % 8) := fun t i hi => by
    unfold swap32
    simp only [BitVec.getLsbD_or, BitVec.getLsbD_and, BitVec.getLsbD_shiftLeft, BitVec.getLsbD_ushiftRight]
    interval_cases i <;> simp
  have b16 : ∀ t : BitVec 16, ∀ i < 16, (swap16 t).getLsbD i = t.getLsbD (8 * (1 - i / 8) + i % 8) := fun t i hi => by
    unfold swap16
    simp only [BitVec.getLsbD_or, BitVec.getLsbD_and, BitVec.getLsbD_shiftLeft, BitVec.getLsbD_ushiftRight]
    interval_cases i <;> simp
  refine ⟨fun t => ⟨fun k hk => ?_, ?_⟩, fun t => ⟨fun k hk => ?_, ?_⟩⟩
  · apply BitVec.eq_of_getLsbD_eq
    intro i hi
    simp only [Spec.byte, BitVec.getLsbD_extractLsb']
    rw [b32 t _ (by omega)]
    congr 2
    omega
  · apply BitVec.eq_of_getLsbD_eq
    intro i hi
    rw [b32 _ i hi, b32 t _ (by omega)]
    congr 1
    omega
  · apply BitVec.eq_of_getLsbD_eq
    intro i hi
    simp only [Spec.byte, BitVec.getLsbD_extractLsb']
    rw [b16 t _ (by omega)]
    congr 2
    omega
  · apply BitVec.eq_of_getLsbD_eq
    intro i hi
    rw [b16 _ i hi, b16 t _ (by omega)]
    congr 1
    omega

/-! ## C243: 15-bit samples -/

/-- value_cast.rs 10-15 `float2i15_block`, one sample; the result fits the `i16`. -/
noncomputable def toI15 (f : ℝ) : ℤ := max (-16384) (min (toI32 (f * 16384)) 16383)
/-- value_cast.rs 17-24 `i152float_block`, one sample. -/
noncomputable def ofI15 (s : ℤ) : ℝ := (s : ℝ) * (1 / 16384)

/-- **C243.**  A 15-bit sample survives the way to a float and back; a float within range comes back with an error below one step, towards zero; beyond the range it is clipped; order is kept. -/
theorem C243_samples : (∀ s : ℤ, -16384 ≤ s → s ≤ 16383 → toI15 (ofI15 s) = s) ∧ (∀ f : ℝ, -1 ≤ f → f < 1 → |ofI15 (toI15 f) - f| < 1 / 16384 ∧ |ofI15 (toI15 f)| ≤ |f|) ∧
    (∀ f : ℝ, 1 ≤ f → toI15 f = 16383) ∧ (∀ f : ℝ, f ≤ -1 → toI15 f = -16384) := by
  have big : ∀ f : ℝ, 1 ≤ f → (16384 : ℤ) ≤ toI32 (f * 16384) := fun f hf => by
    have h1 : (16384 : ℤ) ≤ ⌊f * 16384⌋ := Int.le_floor.2 (by push_cast; linarith)
    unfold toI32
    rw [if_pos (by linarith)]
    omega
  have small : ∀ f : ℝ, f ≤ -1 → toI32 (f * 16384) ≤ (-16384 : ℤ) := fun f hf => by
    have h1 : ⌈f * 16384⌉ ≤ (-16384 : ℤ) := Int.ceil_le.2 (by push_cast; linarith)
    unfold toI32
    rw [if_neg (by push Not; linarith)]
    omega
  refine ⟨fun s s0 s1 => ?_, fun f f0 f1 => ?_, fun f hf => ?_, fun f hf => ?_⟩
  · have e : ofI15 s * 16384 = ((s : ℤ) : ℝ) := by unfold ofI15; ring
    unfold toI15
    rw [e, toI32_of (by
      have a : (-16384 : ℝ) ≤ s := by exact_mod_cast s0
      have b : (s : ℝ) ≤ 16383 := by exact_mod_cast s1
      rw [abs_lt]; constructor <;> norm_num <;> linarith)]
    simp only [Int.floor_intCast, Int.ceil_intCast, ite_self]
    omega
  · unfold toI15
    rw [toI32_of (by rw [abs_lt]; constructor <;> norm_num <;> linarith)]
    by_cases h : 0 ≤ f * 16384
    · rw [if_pos h]
      have a : 0 ≤ ⌊f * 16384⌋ := Int.floor_nonneg.2 h
      have b : ⌊f * 16384⌋ < 16384 := Int.floor_lt.2 (by push_cast; linarith)
      rw [min_eq_left (by omega), max_eq_right (by omega)]
      have l := Int.floor_le (f * 16384)
      have u := Int.lt_floor_add_one (f * 16384)
      have z : (0 : ℝ) ≤ (⌊f * 16384⌋ : ℤ) := by exact_mod_cast a
      unfold ofI15
      generalize ((⌊f * 16384⌋ : ℤ) : ℝ) = w at l u z
      constructor
      · rw [abs_lt]; constructor <;> linarith
      · rw [abs_of_nonneg (by linarith), abs_of_nonneg (by linarith)]; linarith
    · rw [if_neg h]
      push Not at h
      have a : ⌈f * 16384⌉ ≤ 0 := Int.ceil_le.2 (by push_cast; linarith)
      have b : (-16384 : ℤ) ≤ ⌈f * 16384⌉ := by
        have : ((-16384 : ℤ) : ℝ) ≤ (⌈f * 16384⌉ : ℤ) := le_trans (by push_cast; linarith) (Int.le_ceil _)
        exact_mod_cast this
      rw [min_eq_left (by omega), max_eq_right (by omega)]
      have l := Int.le_ceil (f * 16384)
      have u := Int.ceil_lt_add_one (f * 16384)
      have z : ((⌈f * 16384⌉ : ℤ) : ℝ) ≤ 0 := by exact_mod_cast a
      unfold ofI15
      generalize ((⌈f * 16384⌉ : ℤ) : ℝ) = w at l u z
      constructor
      · rw [abs_lt]; constructor <;> linarith
      · rw [abs_of_nonpos (by linarith), abs_of_nonpos (by linarith)]; linarith
  · have := big f hf
    unfold toI15
    omega
  · have := small f hf
    unfold toI15
    omega

end Verif.Dsp.Util
