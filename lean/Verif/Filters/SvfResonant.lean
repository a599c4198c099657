import Verif.Filters.Svf
import Mathlib.Tactic.Linarith
/-!
# The state-variable filter with the resonance turned up (C105)

Above a resonance of about 0.86 the damping is negative: the linear filter is unstable and only the clip gain, which looks at the band
output one sample late, holds it back.  Here: with two poles the output is bounded all the same, at every setting.
-/
namespace Verif.Filters

/-- One Chamberlin step without input: from (low, band) to (low, band). -/
def oneStep (f q : ℝ) (z : ℝ × ℝ) : ℝ × ℝ := (z.1 + f * z.2, (1 - f ^ 2 - f * q) * z.2 - f * z.1)

/-- The energy that every undriven step multiplies by `1 - f q`. -/
def energy (f q : ℝ) (z : ℝ × ℝ) : ℝ := z.1 ^ 2 + (f + q) * z.1 * z.2 + z.2 ^ 2

theorem energy_step (f q : ℝ) (z : ℝ × ℝ) : energy f q (oneStep f q z) = (1 - f * q) * energy f q z := by
  simp only [energy, oneStep]; ring

theorem energy_nonneg {f q : ℝ} (h0 : -2 ≤ f + q) (h1 : f + q ≤ 2) (z : ℝ × ℝ) : 0 ≤ energy f q z := by
  unfold energy
  nlinarith [sq_nonneg (z.1 + z.2), sq_nonneg (z.1 - z.2), mul_nonneg (show 0 ≤ 2 - (f + q) by linarith) (sq_nonneg (z.1 - z.2)), mul_nonneg (show 0 ≤ 2 + (f + q) by linarith) (sq_nonneg (z.1 + z.2))]

theorem energy_add {f q : ℝ} (h0 : -2 ≤ f + q) (h1 : f + q ≤ 2) (l b v : ℝ) : energy f q (l, b + v) ≤ 1.5 * energy f q (l, b) + 3 * v ^ 2 := by
  have := energy_nonneg h0 h1 (l, b - 2 * v)
  simp only [energy] at this ⊢
  nlinarith

/-- Both parts of the state are bounded by the energy. -/
theorem energy_parts {f q : ℝ} (l b : ℝ) : (4 - (f + q) ^ 2) * l ^ 2 ≤ 4 * energy f q (l, b) ∧ (4 - (f + q) ^ 2) * b ^ 2 ≤ 4 * energy f q (l, b) := by
  simp only [energy]
  constructor
  · nlinarith [sq_nonneg ((f + q) * l + 2 * b)]
  · nlinarith [sq_nonneg ((f + q) * b + 2 * l)]

theorem chamberlin_eq (f q x b l : ℝ) : (chamberlin f q x b l).1 = (oneStep f q (l, b)).1 ∧ (chamberlin f q x b l).2.2 = (oneStep f q (l, b)).2 + f * x := by
  simp only [chamberlin, oneStep]
  exact ⟨trivial, by ring⟩

/-- What a sample adds to the energy. -/
theorem energy_sample {f q x b l M : ℝ} (h0 : -2 ≤ f + q) (h1 : f + q ≤ 2) (d0 : 0 < 1 - f * q) (d1 : (1 - f * q) ^ 2 ≤ 1.24) (hf0 : 0 < f) (hf : f ≤ 1) (hx : |x| ≤ M) :
    let s := chamberlin f q x b l
    let t := chamberlin f q x s.2.2 s.1
    energy f q (t.1, t.2.2) ≤ 3 * energy f q (l, b) + 9 * M ^ 2 := by
  intro s t
  have one : ∀ b l, energy f q ((chamberlin f q x b l).1, (chamberlin f q x b l).2.2) ≤ 1.5 * ((1 - f * q) * energy f q (l, b)) + 3 * M ^ 2 := by
    intro b l
    obtain ⟨e1, e2⟩ := chamberlin_eq f q x b l
    rw [e1, e2]
    have := energy_add h0 h1 (oneStep f q (l, b)).1 (oneStep f q (l, b)).2 (f * x)
    rw [show ((oneStep f q (l, b)).1, (oneStep f q (l, b)).2) = oneStep f q (l, b) from rfl, energy_step] at this
    have hx2 : x ^ 2 ≤ M ^ 2 := by rw [← sq_abs]; exact pow_le_pow_left₀ (abs_nonneg _) hx 2
    have f2 : f ^ 2 ≤ 1 := by nlinarith
    have : (f * x) ^ 2 ≤ M ^ 2 := by rw [mul_pow]; nlinarith [sq_nonneg x, sq_nonneg M]
    linarith
  have a := one b l
  have c := one s.2.2 s.1
  have d2 : 1 - f * q ≤ 1.2 := by nlinarith
  have n := energy_nonneg h0 h1 (l, b)
  have m := mul_le_mul_of_nonneg_left a (show 0 ≤ 1.5 * (1 - f * q) by linarith)
  have p := mul_le_mul_of_nonneg_right d1 n
  have q1 := mul_le_mul_of_nonneg_right d2 (sq_nonneg M)
  change energy f q (t.1, t.2.2) ≤ 1.5 * ((1 - f * q) * energy f q (s.1, s.2.2)) + 3 * M ^ 2 at c
  change 1.5 * (1 - f * q) * energy f q (s.1, s.2.2) ≤ _ at m
  nlinarith [sq_nonneg M]

theorem energy_scale (f q g l b : ℝ) : energy f q (l * g, b * g) = g ^ 2 * energy f q (l, b) := by
  simp only [energy]; ring

/-- What the clip gain sees: the band after the first step of a sample, input apart. -/
def seen (f q : ℝ) (z : ℝ × ℝ) : ℝ := (oneStep f q z).2

set_option maxHeartbeats 1000000 in
/-- A state with a small band now and at the next sample is small. -/
theorem observed {f q x b l g S M : ℝ} (h0 : -2 ≤ f + q) (h1 : f + q ≤ 2) (d0 : 0 < 1 - f * q) (d1 : (1 - f * q) ^ 2 ≤ 1.24) (hf0 : 0 < f) (hf : f ≤ 0.7) (hx : |x| ≤ M) (hS : 0 ≤ S) (g0 : 0.1 ≤ g)
    (hs : |(chamberlin f q x b l).2.2| ≤ S) :
    let s := chamberlin f q x b l
    let t := chamberlin f q x s.2.2 s.1
    |seen f q (t.1 * g, t.2.2 * g)| ≤ S + M → (1 - f * q) * energy f q (l, b) ≤ 2 * (S + M) ^ 2 * ((20 / (f * (2 - f ^ 2 - f * q))) ^ 2 + 1) := by
  intro s t h2
  have hM : 0 ≤ M := (abs_nonneg _).trans hx
  obtain ⟨d, hd⟩ : ∃ d, d = 1 - f ^ 2 - f * q := ⟨_, rfl⟩
  obtain ⟨lam, hlam⟩ : ∃ v, v = l + f * b := ⟨_, rfl⟩
  obtain ⟨bet, hbet⟩ : ∃ v, v = d * b - f * l := ⟨_, rfl⟩
  have dT : 1 + d = 2 - f ^ 2 - f * q := by rw [hd]; ring
  have D2 : 1 - f * q ≤ 1.12 := by nlinarith
  have f2 : f ^ 2 ≤ 0.49 := by nlinarith
  have T0 : 0 < 1 + d := by rw [dT]; linarith
  have dl : d ≤ 1.12 := by rw [hd]; linarith [sq_nonneg f]
  have s2 : (chamberlin f q x b l).2.2 = bet + f * x := by simp only [chamberlin, hbet, hd]; ring
  have fx : |f * x| ≤ M := by
    rw [abs_mul, abs_of_pos hf0]
    have := mul_le_mul_of_nonneg_right (show f ≤ 1 by linarith) (abs_nonneg x)
    linarith
  have hb : |bet| ≤ S + M := by
    rw [s2] at hs
    have : bet = (bet + f * x) - f * x := by ring
    rw [this]
    exact (abs_sub _ _).trans (by linarith)
  have hv : seen f q (t.1 * g, t.2.2 * g) = g * (-(f * (1 + d)) * lam + (d ^ 2 - f ^ 2) * bet + x * (d * f * (d + 1) - f ^ 3)) := by
    simp only [seen, oneStep, t, s, chamberlin, hlam, hbet, hd]; ring
  obtain ⟨w, hw⟩ : ∃ w, w = -(f * (1 + d)) * lam + (d ^ 2 - f ^ 2) * bet + x * (d * f * (d + 1) - f ^ 3) := ⟨_, rfl⟩
  rw [← hw] at hv
  have hw10 : |w| ≤ 10 * (S + M) := by
    rw [hv, abs_mul, abs_of_pos (by linarith)] at h2
    have := mul_le_mul_of_nonneg_right g0 (abs_nonneg w)
    linarith
  have dl0 : -0.49 ≤ d := by rw [hd]; linarith
  have a1 : |d| ≤ 1.12 := by rw [abs_le]; constructor <;> linarith
  have dd : d ^ 2 ≤ 1.2544 := by
    have := pow_le_pow_left₀ (abs_nonneg d) a1 2
    rw [sq_abs] at this
    exact this.trans (by norm_num)
  have c1 : |d ^ 2 - f ^ 2| ≤ 2 := by rw [abs_le]; constructor <;> linarith [sq_nonneg d, sq_nonneg f]
  have c2 : |d * f * (d + 1) - f ^ 3| ≤ 4 := by
    have a2 : |d * f| ≤ 1 := by
      rw [abs_mul, abs_of_pos hf0]
      have := mul_le_mul a1 hf hf0.le (by norm_num)
      linarith
    have a3 : |d + 1| ≤ 3 := by rw [abs_le]; constructor <;> linarith
    have a4 : |d * f * (d + 1)| ≤ 3 := by 
      rw [abs_mul]
      have := mul_le_mul a2 a3 (abs_nonneg _) (by norm_num)
      linarith
    have a5 : |f ^ 3| ≤ 1 := by rw [abs_of_pos (by positivity)]; exact pow_le_one₀ hf0.le (by linarith)
    exact (abs_sub _ _).trans (by linarith)
  have hl : f * (1 + d) * |lam| ≤ 20 * (S + M) := by
    have e : f * (1 + d) * lam = (d ^ 2 - f ^ 2) * bet + x * (d * f * (d + 1) - f ^ 3) - w := by rw [hw]; ring
    have p : 0 ≤ f * (1 + d) := by positivity
    rw [← abs_of_nonneg p, ← abs_mul, e]
    have b1 : |(d ^ 2 - f ^ 2) * bet| ≤ 2 * (S + M) := by rw [abs_mul]; exact mul_le_mul c1 hb (abs_nonneg _) (by norm_num)
    have b2 : |x * (d * f * (d + 1) - f ^ 3)| ≤ M * 4 := by rw [abs_mul]; exact mul_le_mul hx c2 (abs_nonneg _) hM
    have := (abs_sub ((d ^ 2 - f ^ 2) * bet + x * (d * f * (d + 1) - f ^ 3)) w).trans (add_le_add_left (abs_add_le _ _) _)
    linarith
  have hl2 : |lam| ≤ 20 / (f * (1 + d)) * (S + M) := by
    rw [div_mul_eq_mul_div, le_div_iff₀ (by positivity)]
    linarith
  have key : (1 - f * q) * energy f q (l, b) = energy f q (lam, bet) := by
    rw [← energy_step]; simp only [oneStep, hlam, hbet, hd]
  rw [key, ← dT]
  have e2 : energy f q (lam, bet) ≤ 2 * (lam ^ 2 + bet ^ 2) := by
    have := energy_nonneg (f := f) (q := -(2 * f) - q) (by linarith) (by linarith) (lam, bet)
    simp only [energy] at this ⊢
    nlinarith
  have q1 : lam ^ 2 ≤ (20 / (f * (1 + d)) * (S + M)) ^ 2 := by rw [← sq_abs]; exact pow_le_pow_left₀ (abs_nonneg _) hl2 2
  have q2 : bet ^ 2 ≤ (S + M) ^ 2 := by rw [← sq_abs]; exact pow_le_pow_left₀ (abs_nonneg _) hb 2
  rw [mul_pow] at q1
  linarith

/-- A band above `1/√c` brings the clip gain to its floor. -/
theorem clip_floor {c y : ℝ} (hc : 0 < c) (h : 1 / Real.sqrt c < |y|) : clipReg c y = 0.1 := by
  have sc := Real.sqrt_pos.2 hc
  have h2 : 1 < c * y ^ 2 := by
    rw [div_lt_iff₀ sc] at h
    have := pow_lt_pow_left₀ h zero_le_one (show 2 ≠ 0 by norm_num)
    rw [mul_pow, sq_abs, Real.sq_sqrt hc.le] at this
    linarith
  unfold clipReg
  refine max_eq_left ?_
  norm_num
  nlinarith

/-- The four situations of the clipped filter: calm, rising, about to be clipped, clipped. -/
def Calm (f q S M R C : ℝ) (l b g : ℝ) : Prop :=
  (energy f q (l, b) ≤ R ∧ 0 ≤ g ∧ g ≤ 1) ∨ (energy f q (l, b) ≤ 3 * R + C ∧ 0.1 ≤ g ∧ g ≤ 1) ∨
  (energy f q (l, b) ≤ 9 * R + 4 * C ∧ 0.1 ≤ g ∧ g ≤ 1 ∧ S + M < |seen f q (l, b)|) ∨ (energy f q (l, b) ≤ 27 * R + 13 * C ∧ g = 0.1)

theorem calm_step {f q c x b l g M E : ℝ} (h0 : -2 ≤ f + q) (h1 : f + q ≤ 2) (d0 : 0 < 1 - f * q) (d1 : (1 - f * q) ^ 2 ≤ 1.24) (hf0 : 0 < f) (hf : f ≤ 0.7)
    (hc : 0 < c) (hx : |x| ≤ M) (hE : 2 * (1 / Real.sqrt c + M) ^ 2 * ((20 / (f * (2 - f ^ 2 - f * q))) ^ 2 + 1) ≤ (1 - f * q) * E)
    (h : Calm f q (1 / Real.sqrt c) M (3 * E + 27 * M ^ 2) (9 * M ^ 2) l b g) :
    let s := chamberlin f q x b l
    let t := chamberlin f q x s.2.2 s.1
    Calm f q (1 / Real.sqrt c) M (3 * E + 27 * M ^ 2) (9 * M ^ 2) (t.1 * g) (t.2.2 * g) (clipReg c s.2.2) := by
  intro s t
  have E0 : 0 ≤ E := by
    have : 0 ≤ (1 - f * q) * E := le_trans (by positivity) hE
    exact nonneg_of_mul_nonneg_right this d0
  have S0 : 0 ≤ 1 / Real.sqrt c := by positivity
  obtain ⟨S, hS⟩ : ∃ S, S = 1 / Real.sqrt c := ⟨_, rfl⟩
  obtain ⟨C, hC⟩ : ∃ C, C = 9 * M ^ 2 := ⟨_, rfl⟩
  have C0 : 0 ≤ C := by rw [hC]; positivity
  have c27 : 27 * M ^ 2 = 3 * C := by rw [hC]; ring
  rw [c27, ← hC, ← hS] at h ⊢
  rw [← hS] at hE S0
  have cu := clip_unit (y := s.2.2) hc.le
  have cl : (0.1 : ℝ) ≤ clipReg c s.2.2 := le_max_left _ _
  have tE : energy f q (t.1, t.2.2) ≤ 3 * energy f q (l, b) + C := by
    rw [hC]; exact energy_sample h0 h1 d0 d1 hf0 (by linarith) hx
  have tn := energy_nonneg h0 h1 (t.1, t.2.2)
  have gE : ∀ R, 0 ≤ g → g ≤ 1 → energy f q (l, b) ≤ R → energy f q (t.1 * g, t.2.2 * g) ≤ 3 * R + C := by
    intro R g0 g1 hR
    rw [energy_scale]
    have := mul_le_mul_of_nonneg_right (pow_le_one₀ g0 g1 : g ^ 2 ≤ 1) tn
    linarith
  rcases h with ⟨e, g0, g1⟩ | ⟨e, g0, g1⟩ | ⟨e, g0, g1, hs⟩ | ⟨e, rfl⟩
  · exact .inr (.inl ⟨gE _ g0 g1 e, cl, cu.2⟩)
  · have e' := gE _ (by linarith) g1 e
    by_cases hs : S < |s.2.2|
    · exact .inr (.inr (.inr ⟨by linarith, clip_floor hc (by rw [← hS]; exact hs)⟩))
    · by_cases hn : S + M < |seen f q (t.1 * g, t.2.2 * g)|
      · exact .inr (.inr (.inl ⟨by linarith, cl, cu.2, hn⟩))
      · have := observed h0 h1 d0 d1 hf0 hf hx S0 g0 (not_lt.1 hs) (not_lt.1 hn)
        have eE : energy f q (l, b) ≤ E := le_of_mul_le_mul_left (this.trans hE) d0
        exact .inl ⟨by have := gE _ (by linarith) g1 eE; linarith, cu.1, cu.2⟩
  · have e' := gE _ (by linarith) g1 e
    have big : S < |s.2.2| := by
      have e2 : s.2.2 = seen f q (l, b) + f * x := (chamberlin_eq f q x b l).2
      have fx : |f * x| ≤ M := by
        rw [abs_mul, abs_of_pos hf0]
        have := mul_le_mul_of_nonneg_right (show f ≤ 1 by linarith) (abs_nonneg x)
        linarith
      have := abs_sub_abs_le_abs_sub (seen f q (l, b)) (-(f * x))
      rw [abs_neg, sub_neg_eq_add, ← e2] at this
      linarith
    exact .inr (.inr (.inr ⟨by linarith, clip_floor hc (by rw [← hS]; exact big)⟩))
  · refine .inl ⟨?_, cu.1, cu.2⟩
    rw [energy_scale]
    norm_num
    linarith

theorem calm_energy {f q S M R C l b g : ℝ} (hR : 0 ≤ R) (hC : 0 ≤ C) (h : Calm f q S M R C l b g) : energy f q (l, b) ≤ 27 * R + 13 * C := by
  rcases h with ⟨e, -⟩ | ⟨e, -⟩ | ⟨e, -⟩ | ⟨e, -⟩ <;> linarith

set_option maxHeartbeats 1000000 in
/-- C105: **bounded although it oscillates**: the two-pole filter of every type with frequency coefficient `0 < f ≤ 0.7`, damping
`-0.15 ≤ q ≤ 2 - 1.52 f` (negative damping included, where the linear filter is unstable) and any positive clip gain has an output of at
most `K (1 + M)` for inputs of at most `M`, however long the input. -/
theorem C105_bounded_resonant (ty : IirType) (k : ℕ → ℝ) (hf0 : 0 < k 0) (hf : k 0 ≤ 0.7) (hq0 : -0.15 ≤ k 1) (hq : k 1 ≤ 2.00 - 1.52 * k 0) (hc : 0 < k 2) :
    ∃ K : ℝ, ∀ (M : ℝ) (xs : List ℝ), 0 ≤ M → (∀ x ∈ xs, |x| ≤ M) →
      ∀ y ∈ (run (svfProcess ty .two) ⟨k, fun _ => 0, fun _ => 0, 0⟩ xs).2, |y| ≤ K * (1 + M) := by
  obtain ⟨f, hfe⟩ : ∃ f, f = k 0 := ⟨_, rfl⟩
  obtain ⟨q, hqe⟩ : ∃ q, q = k 1 := ⟨_, rfl⟩
  rw [← hfe] at hf0 hf hq
  rw [← hqe] at hq0 hq
  norm_num at hq
  have h0 : -2 ≤ f + q := by norm_num at hq0; linarith
  have h1 : f + q < 2 := by linarith
  have fq0 : f * q ≤ 0.7 := by
    have := mul_le_mul_of_nonneg_left hq hf0.le
    nlinarith [sq_nonneg (f - 0.65)]
  have fq1 : -0.105 ≤ f * q := by
    have := mul_le_mul_of_nonneg_left hq0 hf0.le
    linarith
  have d0 : 0 < 1 - f * q := by linarith
  have d1 : (1 - f * q) ^ 2 ≤ 1.24 := by
    have := pow_le_pow_left₀ d0.le (show 1 - f * q ≤ 1.105 by linarith) 2
    exact this.trans (by norm_num)
  have D0 : 0 < 4 - (f + q) ^ 2 := by
    have : 0 < (2 - (f + q)) * (2 + (f + q)) := mul_pos (by linarith) (by norm_num at hq0; linarith)
    linarith [this, show (2 - (f + q)) * (2 + (f + q)) = 4 - (f + q) ^ 2 by ring]
  obtain ⟨S, hS⟩ : ∃ S, S = 1 / Real.sqrt (k 2) := ⟨_, rfl⟩
  have S0 : 0 ≤ S := by rw [hS]; positivity
  obtain ⟨ε, hε⟩ : ∃ e, e = 2 * ((20 / (f * (2 - f ^ 2 - f * q))) ^ 2 + 1) / (1 - f * q) := ⟨_, rfl⟩
  have ε0 : 0 ≤ ε := by rw [hε]; positivity
  obtain ⟨B, hB⟩ : ∃ B, B = Real.sqrt (4 * (81 * ε + 846) / (4 - (f + q) ^ 2)) := ⟨_, rfl⟩
  have B0 : 0 ≤ B := by rw [hB]; exact Real.sqrt_nonneg _
  have B2 : (4 - (f + q) ^ 2) * B ^ 2 = 4 * (81 * ε + 846) := by
    rw [hB, Real.sq_sqrt (by positivity)]
    field_simp
  obtain ⟨p1, p2, p3, hp⟩ := svf_out ty f q
  have G0 : 0 ≤ |p1| * B + |p2| * B + |p3| := by positivity
  have e : svfProcess ty .two = svf12 (svfPick ty) := by cases ty <;> rfl
  rw [e]
  refine ⟨(|p1| * B + |p2| * B + |p3|) * |k 3| * (S + 1), fun M xs M0 hx y hy => ?_⟩
  obtain ⟨E, hE⟩ : ∃ E, E = ε * (S + M) ^ 2 := ⟨_, rfl⟩
  have E0 : 0 ≤ E := by rw [hE]; positivity
  have hE' : 2 * (1 / Real.sqrt (k 2) + M) ^ 2 * ((20 / (f * (2 - f ^ 2 - f * q))) ^ 2 + 1) ≤ (1 - f * q) * E := by
    rw [hE, hε, ← hS]
    apply le_of_eq
    rw [div_mul_eq_mul_div, mul_div_assoc', mul_div_cancel_left₀ _ d0.ne']
    ring
  have MS : M ^ 2 ≤ (S + M) ^ 2 := pow_le_pow_left₀ M0 (by linarith) 2
  refine (run_out (step := svf12 (svfPick ty)) (A := fun x => |x| ≤ M) (Q := fun y => |y| ≤ (|p1| * B + |p2| * B + |p3|) * |k 3| * (S + 1) * (1 + M))
    (I := fun u => u.coeff = k ∧ (u.dcoeff = fun _ => 0) ∧ Calm f q (1 / Real.sqrt (k 2)) M (3 * E + 27 * M ^ 2) (9 * M ^ 2) (u.reg 1) (u.reg 0) (u.reg 2)) ?_ xs _ hx
    ⟨rfl, rfl, .inl ⟨by simp only [energy]; norm_num; positivity, le_rfl, zero_le_one⟩⟩).2 y hy
  rintro u x ax ⟨uc, ud, hP⟩
  obtain ⟨q1, q2, q3, q4, q5, q6⟩ := svf12_const ty u uc ud x
  rw [← hfe, ← hqe] at q3 q4 q5 q6
  refine ⟨⟨q1, q2, ?_⟩, ?_⟩
  · rw [q3, q4, q5]
    exact calm_step h0 h1.le d0 d1 hf0 hf hc ax hE' hP
  · have en := calm_energy (by positivity) (by positivity) hP
    have en2 : 4 * energy f q (u.reg 1, u.reg 0) ≤ (4 - (f + q) ^ 2) * (B * (S + M)) ^ 2 := by
      rw [mul_pow, ← mul_assoc, B2]
      rw [hE] at en
      linarith
    obtain ⟨pa, pb⟩ := energy_parts (f := f) (q := q) (u.reg 1) (u.reg 0)
    have BS : 0 ≤ B * (S + M) := by positivity
    have la : |u.reg 1| ≤ B * (S + M) := abs_le_of_sq_le_sq (le_of_mul_le_mul_left (pa.trans en2) D0) BS
    have lb : |u.reg 0| ≤ B * (S + M) := abs_le_of_sq_le_sq (le_of_mul_le_mul_left (pb.trans en2) D0) BS
    have hpx := hp x (u.reg 0) (u.reg 1)
    simp only at hpx
    rw [q6, hpx, abs_mul]
    have cb := comb_bound (p1 := p1) (p2 := p2) (p3 := p3) la lb (ax.trans (show M ≤ S + M by linarith))
    have SM : S + M ≤ (S + 1) * (1 + M) := by nlinarith
    have t1 := mul_le_mul_of_nonneg_left SM G0
    have t2 := mul_le_mul_of_nonneg_right (cb.trans t1) (abs_nonneg (k 3))
    linarith

/-- C105: **bounded at every setting**: the two-pole filter of every type, with the coefficients made at any cutoff and any resonance - self
oscillation included - has a bounded output for every bounded input, however long. -/
theorem C105_bounded_two_pole {f srInv : ℝ} (hf : 0 < f) (hs : 0 < srInv) (ty : IirType) (reso : ℝ) :
    ∃ K : ℝ, ∀ (M : ℝ) (xs : List ℝ), 0 ≤ M → (∀ x ∈ xs, |x| ≤ M) →
      ∀ y ∈ (run (svfProcess ty .two) ⟨svfCoeffMake f srInv .two reso, fun _ => 0, fun _ => 0, 0⟩ xs).2, |y| ≤ K * (1 + M) := by
  obtain ⟨f0, f1⟩ := svf_freq hf hs .two reso
  by_cases hr : reso ≤ 0
  · have hst := (C105_design_stability hf hs ty .two reso).1.2 ((C105_design_stability hf hs ty .two reso).2.1 (hr.trans (by norm_num)))
    obtain ⟨K, hK⟩ := C105_bounded_partial ty .two (svfCoeffMake f srInv .two reso) (by
      have : svfCoeffMake f srInv .two reso 2 = 0.1 * Real.sqrt (limit reso 0 1) * svfCoeffMake f srInv .two reso 0 := rfl
      rw [this]
      have := Real.sqrt_nonneg (limit reso 0 1)
      positivity) hst
    refine ⟨|K|, fun M xs M0 hx y hy => (hK M xs M0 hx y hy).trans ?_⟩
    have := mul_le_mul_of_nonneg_right (le_abs_self K) M0
    linarith [abs_nonneg K]
  · have l0 : 0 < limit reso 0 1 := by
      unfold limit
      exact lt_max_of_lt_right (lt_min (not_le.1 hr) one_pos)
    have l1 : limit reso 0 1 ≤ 1 := max_le zero_le_one (min_le_right _ _)
    have r0 := Real.sqrt_pos.2 l0
    have r1 : Real.sqrt (limit reso 0 1) ≤ 1 := Real.sqrt_le_one.2 l1
    refine C105_bounded_resonant ty _ f0 f1.le ?_ ?_ ?_
    · have fe : svfCoeffMake f srInv .two reso 0 = 2.0 * Real.sin (Real.pi * min 0.11 (f * (0.25 * srInv))) := rfl
      simp only [svfCoeffMake]
      rw [← fe]
      refine le_min ?_ (le_min (by norm_num) (by norm_num at f1 ⊢; linarith))
      norm_num
      nlinarith [mul_self_nonneg (svfCoeffMake f srInv .two reso 0)]
    · simp only [svfCoeffMake]; exact (min_le_right _ _).trans (min_le_right _ _)
    · have : svfCoeffMake f srInv .two reso 2 = 0.1 * Real.sqrt (limit reso 0 1) * svfCoeffMake f srInv .two reso 0 := rfl
      rw [this]
      positivity

/-- At full resonance the damping is negative, and the output is bounded all the same. -/
example : svfCoeffMake 1000 (1 / 48000) .two 1 1 < 0 ∧ ∃ K : ℝ, ∀ (M : ℝ) (xs : List ℝ), 0 ≤ M → (∀ x ∈ xs, |x| ≤ M) →
    ∀ y ∈ (run (svfProcess .lowPass .two) ⟨svfCoeffMake 1000 (1 / 48000) .two 1, fun _ => 0, fun _ => 0, 0⟩ xs).2, |y| ≤ K * (1 + M) :=
  ⟨(C105_design_stability (by norm_num) (by norm_num) .lowPass .two 1).2.2 le_rfl, C105_bounded_two_pole (by norm_num) (by norm_num) .lowPass 1⟩

end Verif.Filters
