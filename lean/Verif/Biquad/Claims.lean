import Verif.Biquad.Stable
/-!
# Bounded output, frequency response, all-pass energy, designs above the Nyquist frequency (C96-C99)
-/
namespace Verif.Biquad

/-! ## The designs of a fresh filter -/

/-- The designs the filter offers. -/
inductive Design
  | lp | lpBw | lp2b | hp | hpBw | bp | bp2a | pka | lphMorph | notch | apf

/-- The call that sets a design; `q` is the second argument of each (quality, bandwidth or resonance). -/
noncomputable def Filter.design (f : Filter) : Design → ℝ → ℝ → Filter
  | .lp, ω, q => f.coeffLp ω q
  | .lpBw, ω, q => f.coeffLpWithBw ω q
  | .lp2b, ω, q => f.coeffLp2b ω q
  | .hp, ω, q => f.coeffHp ω q
  | .hpBw, ω, q => f.coeffHpWithBw ω q
  | .bp, ω, q => f.coeffBp ω q
  | .bp2a, ω, q => f.coeffBp2a ω q
  | .pka, ω, q => f.coeffPka ω q
  | .lphMorph, ω, q => f.coeffLphMorph ω q 0
  | .notch, ω, q => f.coeffNotch ω q
  | .apf, ω, q => f.coeffApf ω q

/-- What every design has in common: the denominator is `(1 + α, -2 cos ω, 1 - α)` for some `α`. -/
def Core (f f' : Filter) (ω α : ℝ) : Prop :=
  ∃ b0 b1 b2, f' = f.setCoef (1 + α) (-2 * Real.cos ω) (1 - α) b0 b1 b2

theorem limit01_range (x : ℝ) : 0 ≤ limit01 x ∧ limit01 x ≤ 1 := by
  unfold limit01; split
  · norm_num
  · split
    · norm_num
    · constructor <;> linarith

/-- The quality factor behind the second argument of each design. -/
noncomputable def Spec.quality : Design → ℝ → ℝ
  | .lpBw, bw => 1 / bw
  | .hpBw, bw => 1 / bw
  | .bp2a, bw => 1 / (0.02 + 30 * bw * bw)
  | .pka, r => 0.1 + 10 * limit01 r * limit01 r
  | .notch, r => 1 / (0.02 + 30 * limit01 r * limit01 r)
  | _, q => q

theorem quality_pos (d : Design) {q : ℝ} (h : 0 < q) : 0 < Spec.quality d q := by
  cases d <;> simp only [Spec.quality] <;> try positivity
  · exact add_pos_of_pos_of_nonneg (by norm_num) (by nlinarith [limit01_range q])
  · have : (0 : ℝ) < 0.02 + 30 * limit01 q * limit01 q :=
      add_pos_of_pos_of_nonneg (by norm_num) (by nlinarith [limit01_range q])
    positivity

theorem design_core (d : Design) (f : Filter) {ω q : ℝ} (h0 : 0 < ω) (h1 : ω < Real.pi) :
    Core f (f.design d ω q) ω (Real.sin ω / (2 * Spec.quality d q)) := by
  have n1 : ¬ ω > Real.pi := not_lt.2 h1.le
  have n2 : ¬ ¬ (0 ≤ ω ∧ ω ≤ Real.pi) := not_not.2 ⟨h0.le, h1.le⟩
  cases d with
  | lp => exact ⟨_, _, _, if_neg n1⟩
  | lpBw => exact ⟨_, _, _, if_neg n1⟩
  | lp2b => exact ⟨_, _, _, if_neg n1⟩
  | hp => exact ⟨_, _, _, if_neg n1⟩
  | hpBw => exact ⟨_, _, _, if_neg n1⟩
  | bp => exact ⟨_, _, _, rfl⟩
  | bp2a => exact ⟨_, _, _, rfl⟩
  | pka => exact ⟨_, _, _, rfl⟩
  | lphMorph => exact ⟨_, _, _, rfl⟩
  | notch => exact ⟨_, _, _, if_neg n1⟩
  | apf => exact ⟨_, _, _, if_neg n2⟩

theorem cos_lt_one_abs {ω : ℝ} (h0 : 0 < ω) (h1 : ω < Real.pi) : |Real.cos ω| < 1 := by
  have := Real.sin_pos_of_pos_of_lt_pi h0 h1
  have h2 := Real.sin_sq_add_cos_sq ω
  rw [← sq_lt_one_iff_abs_lt_one]
  nlinarith

theorem stable_of_alpha {ω α : ℝ} (hα : 0 < α) (hc : |Real.cos ω| < 1) (b0 b1 b2 : ℝ) :
    Spec.Stable (Spec.normal (1 + α) (-2 * Real.cos ω) (1 - α) b0 b1 b2) := by
  have p : 0 < 1 + α := by linarith
  constructor
  · simp only [Spec.normal]
    rw [abs_div, abs_of_pos p, div_lt_one p, abs_lt]
    constructor <;> linarith
  · simp only [Spec.normal]
    rw [abs_div, abs_of_pos p, abs_mul]
    have : 1 + (1 - α) / (1 + α) = 2 / (1 + α) := by field_simp; ring
    rw [this, div_lt_div_iff_of_pos_right p]
    norm_num
    exact hc

/-- A fresh filter rests right after its first design, at coefficients inside the stability triangle. -/
theorem design_stable (d : Design) {f : Filter} (hf : f.firstRun = true) {ω q : ℝ} (h0 : 0 < ω) (h1 : ω < Real.pi) (hq : 0 < q) :
    Rests (f.design d ω q).cf (f.design d ω q) ∧ Spec.Stable (f.design d ω q).cf ∧
    (f.design d ω q).reg0 = f.reg0 ∧ (f.design d ω q).reg1 = f.reg1 := by
  obtain ⟨b0, b1, b2, e⟩ := design_core d f (q := q) h0 h1
  have hα : 0 < Real.sin ω / (2 * Spec.quality d q) :=
    div_pos (Real.sin_pos_of_pos_of_lt_pi h0 h1) (by have := quality_pos d hq; positivity)
  have hr := setCoef_first f hf (1 + Real.sin ω / (2 * Spec.quality d q)) (-2 * Real.cos ω)
    (1 - Real.sin ω / (2 * Spec.quality d q)) b0 b1 b2
  rw [e]
  refine ⟨by rw [rests_cf hr]; exact hr, by rw [rests_cf hr]; exact stable_of_alpha hα (cos_lt_one_abs h0 h1) _ _ _, ?_, ?_⟩ <;>
  · simp only [Filter.setCoef, Filter.newValues, Filter.start]; split <;> rfl

/-! ## C96 -/

theorem calls_bounded {c : Cf} (hc : Spec.Stable c) : ∃ K r : ℝ, 0 ≤ K ∧ 0 ≤ r ∧ r < 1 ∧
    ∀ (f : Filter) (s : Side) (ks : List Call) (X : ℝ), Rests c f → (∀ k ∈ ks, Spec.plain k) →
    (∀ x ∈ ks.flatMap (Spec.input s), |x| ≤ X) → 0 ≤ X → ∀ n < (Spec.output (f.calls ks) s).length,
      |(Spec.output (f.calls ks) s).getD n 0| ≤ K * (r ^ n * (|s.of f.reg0| + |s.of f.reg1|) + X + 1e-30) := by
  obtain ⟨K, r, K0, r0, r1, hb⟩ := seq_bound hc
  set B := |c.b0| + |c.b1| + |c.b2| + (|c.a1| + |c.a2|) * (|c.b0| + 2) + 2 with hB
  have B0 : 0 ≤ B := by positivity
  have hb0 := abs_nonneg c.b0
  have hb1 := abs_nonneg c.b1
  have hb2 := abs_nonneg c.b2
  have ha1 := abs_nonneg c.a1
  have ha2 := abs_nonneg c.a2
  refine ⟨K * (1 + B) + B, r, by positivity, r0, r1, ?_⟩
  intro f s ks X hf hk hx hX n hn
  obtain ⟨T, e, e0, t⟩ := traj hf s ks hk
  rw [t.len] at hn
  set xs := ks.flatMap (Spec.input s) with hxs
  set ys := Spec.output (f.calls ks) s with hys
  have xb : ∀ m < xs.length, |xs.getD m 0| ≤ X := fun m hm => by
    rw [List.getD, List.getElem?_eq_getElem hm, Option.getD_some]; exact hx _ (List.getElem_mem hm)
  have eb : ∀ m, |e m| ≤ 2 * 1e-30 := fun m => by rw [two_tiny]; exact t.err m
  set ε : ℝ := 1e-30 with hε
  have ε0 : (0 : ℝ) ≤ ε := tiny_pos
  clear_value ε
  have key := hb xs.length T (fun m => (c.b1 * xs.getD m 0 - c.a1 * (c.b0 * xs.getD m 0 + e m),
    c.b2 * xs.getD m 0 - c.a2 * (c.b0 * xs.getD m 0 + e m))) (B * (X + ε))
    (fun m hm => by
      rw [t.next m hm, t.out m hm]
      refine Prod.ext ?_ ?_ <;> simp only <;> ring)
    (fun m hm => by
      have x1 := xb m hm
      have e1 := eb m
      have inner : |c.b0 * xs.getD m 0 + e m| ≤ |c.b0| * X + 2 * ε := by
        refine (abs_add_le _ _).trans (add_le_add ?_ e1)
        rw [abs_mul]; exact mul_le_mul_of_nonneg_left x1 hb0
      have one : ∀ b a : ℝ, |b * xs.getD m 0 - a * (c.b0 * xs.getD m 0 + e m)| ≤ |b| * X + |a| * (|c.b0| * X + 2 * ε) := by
        intro b a
        refine (abs_sub _ _).trans (add_le_add ?_ ?_)
        · rw [abs_mul]; exact mul_le_mul_of_nonneg_left x1 (abs_nonneg _)
        · rw [abs_mul]; exact mul_le_mul_of_nonneg_left inner (abs_nonneg _)
      have hBx : B * (X + ε) = |c.b0| * X + |c.b1| * X + |c.b2| * X + |c.a1| * (|c.b0| * X + 2 * X) + |c.a2| * (|c.b0| * X + 2 * X) + 2 * X +
          (|c.b0| * ε + |c.b1| * ε + |c.b2| * ε + (|c.a1| + |c.a2|) * |c.b0| * ε + |c.a1| * (2 * ε) + |c.a2| * (2 * ε) + 2 * ε) := by
        rw [hB]; ring
      constructor
      · refine (one _ _).trans ?_
        rw [hBx]
        have : |c.b1| * X + |c.a1| * (|c.b0| * X + 2 * ε) = |c.b1| * X + |c.a1| * (|c.b0| * X) + |c.a1| * (2 * ε) := by ring
        rw [this]
        have z1 : 0 ≤ |c.b0| * X := by positivity
        have z2 : 0 ≤ |c.b2| * X := by positivity
        have z3 : 0 ≤ |c.a2| * (|c.b0| * X + 2 * X) := by positivity
        have z4 : 0 ≤ |c.a1| * (2 * X) := by positivity
        have z5 : 0 ≤ |c.b0| * ε + |c.b1| * ε + |c.b2| * ε + (|c.a1| + |c.a2|) * |c.b0| * ε + |c.a2| * (2 * ε) + 2 * ε := by positivity
        rw [mul_add |c.a1|]
        linarith
      · refine (one _ _).trans ?_
        rw [hBx]
        have : |c.b2| * X + |c.a2| * (|c.b0| * X + 2 * ε) = |c.b2| * X + |c.a2| * (|c.b0| * X) + |c.a2| * (2 * ε) := by ring
        rw [this]
        have z1 : 0 ≤ |c.b0| * X := by positivity
        have z2 : 0 ≤ |c.b1| * X := by positivity
        have z3 : 0 ≤ |c.a1| * (|c.b0| * X + 2 * X) := by positivity
        have z4 : 0 ≤ |c.a2| * (2 * X) := by positivity
        have z5 : 0 ≤ |c.b0| * ε + |c.b1| * ε + |c.b2| * ε + (|c.a1| + |c.a2|) * |c.b0| * ε + |c.a1| * (2 * ε) + 2 * ε := by positivity
        rw [mul_add |c.a2|]
        linarith)
    (by positivity) n hn.le
  have k1 := key.1
  rw [e0] at k1
  simp only at k1
  rw [t.out n hn]
  set R := r ^ n * (|s.of f.reg0| + |s.of f.reg1|) with hR
  have R0 : 0 ≤ R := by positivity
  have a1 : |c.b0 * xs.getD n 0 + (T n).1 + e n| ≤ |c.b0| * X + K * (R + B * (X + ε)) + 2 * ε := by
    refine (abs_add_le _ _).trans (add_le_add ((abs_add_le _ _).trans (add_le_add ?_ k1)) (eb n))
    rw [abs_mul]; exact mul_le_mul_of_nonneg_left (xb n hn) hb0
  refine a1.trans ?_
  have hB2 : |c.b0| + 2 ≤ B := by
    rw [hB]
    have : 0 ≤ (|c.a1| + |c.a2|) * (|c.b0| + 2) := by positivity
    linarith
  have m1 : |c.b0| * X ≤ B * X := mul_le_mul_of_nonneg_right (by linarith) hX
  have m2 : 2 * ε ≤ B * ε := mul_le_mul_of_nonneg_right (by linarith) ε0
  have m3 : 0 ≤ K * (B * R) := by positivity
  have m4 : 0 ≤ K * (X + ε) := by positivity
  have m5 : 0 ≤ B * R := by positivity
  have : (K * (1 + B) + B) * (R + X + ε) - (B * X + K * (R + B * (X + ε)) + B * ε) = K * (B * R) + K * (X + ε) + B * R := by ring
  linarith

/-- C96: **every design with a cutoff below the Nyquist frequency is stable**: for each of the eleven designs, any `0 < ω < π` and any
positive quality (or bandwidth, or resonance), there are a constant `K` and a rate `r < 1` such that, whatever the registers held when
the design was set on a fresh filter and whatever processing calls follow, inputs bounded by `X` give outputs bounded by
`K (r^n · registers + X + 1e-30)`: silence in, silence out, and no input can build up. -/
theorem C96_bounded_output_partial (d : Design) {ω q : ℝ} (h0 : 0 < ω) (h1 : ω < Real.pi) (hq : 0 < q) :
    ∃ K r : ℝ, 0 ≤ K ∧ 0 ≤ r ∧ r < 1 ∧ ∀ (f : Filter) (s : Side) (ks : List Call) (X : ℝ), f.firstRun = true →
      (∀ k ∈ ks, Spec.plain k) → (∀ x ∈ ks.flatMap (Spec.input s), |x| ≤ X) → 0 ≤ X →
      ∀ n < (Spec.output ((f.design d ω q).calls ks) s).length,
        |(Spec.output ((f.design d ω q).calls ks) s).getD n 0| ≤ K * (r ^ n * (|s.of f.reg0| + |s.of f.reg1|) + X + 1e-30) := by
  obtain ⟨K, r, K0, r0, r1, hb⟩ := calls_bounded (design_stable d (f := Filter.new) rfl h0 h1 hq).2.1
  refine ⟨K, r, K0, r0, r1, fun f s ks X hf hk hx hX n hn => ?_⟩
  obtain ⟨g1, -, g3, g4⟩ := design_stable d hf h0 h1 hq
  have ec : (f.design d ω q).cf = (Filter.new.design d ω q).cf := by
    obtain ⟨b0, b1, b2, e⟩ := design_core d f (q := q) h0 h1
    have hn1 : ¬ ω > Real.pi := not_lt.2 h1.le
    have key : ∀ a0 a1 a2 b0 b1 b2, (f.setCoef a0 a1 a2 b0 b1 b2).cf = (Filter.new.setCoef a0 a1 a2 b0 b1 b2).cf := fun _ _ _ _ _ _ => by
      rw [rests_cf (setCoef_first f hf ..), rests_cf (setCoef_first Filter.new rfl ..)]
    cases d <;>
      simp only [Filter.design, Filter.coeffLp, Filter.coeffLpWithBw, Filter.coeffLp2b, Filter.coeffHp, Filter.coeffHpWithBw,
        Filter.coeffBp, Filter.coeffBp2a, Filter.coeffPka, Filter.coeffLphMorph, Filter.coeffNotch, Filter.coeffApf] <;>
      (try split) <;> exact key ..
  rw [ec] at g1
  have := hb _ s ks X g1 hk hx hX n hn
  rwa [g3, g4] at this

/-- The stability triangle is convex, so by C95 every momentary setting between stable designs is stable too. -/
theorem stable_convex : Convex ℝ {p : ℝ × ℝ × ℝ × ℝ × ℝ | |p.2.1| < 1 ∧ |p.1| < 1 + p.2.1} := by
  intro x hx y hy a b ha hb hab
  simp only [Set.mem_ofPred_eq, Prod.fst_add, Prod.snd_add, Prod.smul_fst, Prod.smul_snd, smul_eq_mul, abs_lt] at hx hy ⊢
  obtain ⟨⟨x1, x2⟩, x3, x4⟩ := hx
  obtain ⟨⟨y1, y2⟩, y3, y4⟩ := hy
  obtain rfl : b = 1 - a := by linarith
  rcases ha.eq_or_lt with rfl | ha'
  · simp only [zero_mul, zero_add, sub_zero, one_mul]; refine ⟨⟨?_, ?_⟩, ?_, ?_⟩ <;> linarith
  · refine ⟨⟨?_, ?_⟩, ?_, ?_⟩ <;> nlinarith

/-- C96: **no history of designs makes a momentary setting unstable**: if every design a history sets is stable, the coefficients in
force at every sample — also in the middle of a glide from one design to another — are those of a stable filter. -/
theorem C96_glide_stays_stable (s : Side) (a0 a1 a2 b0 b1 b2 : ℝ) (ks : List Call)
    (h : ∀ d ∈ Spec.designs (.setCoef a0 a1 a2 b0 b1 b2 :: ks), Spec.Stable d) :
    ∀ c ∈ Spec.history (Filter.new.setCoef a0 a1 a2 b0 b1 b2) s ks, Spec.Stable c :=
  C95_no_overshoot_partial stable_convex s a0 a1 a2 b0 b1 b2 ks h

/-- A concrete design: a low pass at a quarter of the sample rate; its coefficients meet the hypothesis. -/
example : Spec.Stable (Filter.new.coeffLp (Real.pi / 2) 1).cf :=
  (design_stable .lp (f := Filter.new) rfl (by positivity) (by linarith [Real.pi_pos]) one_pos).2.1

/-! ## C97: the frequency response -/

/-- The phase of sample `n` of a sinusoid of frequency `fr` cycles per sample. -/
noncomputable def Spec.phase (fr φ : ℝ) (n : ℕ) : ℝ := 2 * Real.pi * fr * n + φ

theorem den_ne {c : Cf} (h : Spec.Stable c) (θ : ℝ) :
    (1 + c.a1 * Complex.exp (-θ * Complex.I) + c.a2 * Complex.exp (-θ * Complex.I) * Complex.exp (-θ * Complex.I) : ℂ) ≠ 0 := by
  intro hz
  have e : Complex.exp (-θ * Complex.I) = ⟨Real.cos θ, -Real.sin θ⟩ := by
    apply Complex.ext
    · simp [Complex.exp_re]
    · simp [Complex.exp_im]
  have m : Complex.exp (θ * Complex.I) * (1 + c.a1 * Complex.exp (-θ * Complex.I) +
      c.a2 * Complex.exp (-θ * Complex.I) * Complex.exp (-θ * Complex.I)) =
      Complex.exp (θ * Complex.I) + c.a1 + c.a2 * Complex.exp (-θ * Complex.I) := by
    have k : Complex.exp (θ * Complex.I) * Complex.exp (-θ * Complex.I) = 1 := by
      rw [← Complex.exp_add]; simp
    linear_combination (c.a1 + c.a2 * Complex.exp (-θ * Complex.I)) * k
  rw [hz, mul_zero] at m
  have hre := congrArg Complex.re m
  have him := congrArg Complex.im m
  simp [Complex.exp_re, Complex.exp_im] at hre him
  obtain ⟨h2, h1⟩ := h
  obtain ⟨h2a, h2b⟩ := abs_lt.1 h2
  obtain ⟨h1a, h1b⟩ := abs_lt.1 h1
  have hs : Real.sin θ = 0 := by
    have : (1 - c.a2) * Real.sin θ = 0 := by linarith
    rcases mul_eq_zero.1 this with h | h
    · linarith
    · exact h
  have hcs := Real.sin_sq_add_cos_sq θ
  rw [hs] at hcs
  have : Real.cos θ = 1 ∨ Real.cos θ = -1 := by
    have : (Real.cos θ - 1) * (Real.cos θ + 1) = 0 := by nlinarith
    rcases mul_eq_zero.1 this with h | h
    · left; linarith
    · right; linarith
  rcases this with h | h <;> rw [h] at hre <;> linarith

theorem response {c : Cf} (hc : Spec.Stable c) (fr : ℝ) : ∃ K r : ℝ, 0 ≤ K ∧ 0 ≤ r ∧ r < 1 ∧
    ∀ (f : Filter) (s : Side) (ks : List Call) (φ : ℝ), Rests c f → (∀ k ∈ ks, Spec.plain k) →
    (∀ n < (ks.flatMap (Spec.input s)).length, (ks.flatMap (Spec.input s)).getD n 0 = Real.cos (Spec.phase fr φ n)) →
    ∀ n < (Spec.output (f.calls ks) s).length,
      |(Spec.output (f.calls ks) s).getD n 0 - ‖c.h fr‖ * Real.cos (Spec.phase fr φ n + (c.h fr).arg)| ≤
        K * (r ^ n * (|s.of f.reg0| + |s.of f.reg1| + 1) + 1e-30) := by
  obtain ⟨K, r, K0, r0, r1, hb⟩ := seq_bound hc
  set θ := 2 * Real.pi * fr with hθ
  set H := c.h fr with hH
  set z := Complex.exp (-θ * Complex.I) with hz
  have ez : Complex.exp (-2 * Real.pi * fr * Complex.I) = z := by rw [hz, hθ]; push_cast; ring_nf
  have hHz : H * (1 + c.a1 * z + c.a2 * z * z) = c.b0 + c.b1 * z + c.b2 * z * z := by
    rw [hH]; simp only [Cf.h, ez]
    rw [div_mul_cancel₀ _ (den_ne hc θ)]
  set A := |c.a1| + |c.a2| with hA
  have A0 : 0 ≤ A := by positivity
  set G := ‖H - c.b0‖ + ‖(c.b2 - c.a2 * H) * z‖ with hG
  have G0 : 0 ≤ G := by positivity
  refine ⟨K * (1 + G + 2 * A) + 2, r, by positivity, r0, r1, ?_⟩
  intro f s ks φ hf hk hx n hn
  obtain ⟨T, e, e0, t⟩ := traj hf s ks hk
  rw [t.len] at hn
  set xs := ks.flatMap (Spec.input s) with hxs
  set ys := Spec.output (f.calls ks) s with hys
  have eb : ∀ m, |e m| ≤ 2 * 1e-30 := fun m => by rw [two_tiny]; exact t.err m
  set ε : ℝ := 1e-30 with hε
  have ε0 : (0 : ℝ) ≤ ε := tiny_pos
  clear_value ε
  -- the steady state
  let w : ℕ → ℂ := fun m => Complex.exp ((Spec.phase fr φ m : ℝ) * Complex.I)
  have wre : ∀ m, (w m).re = Real.cos (Spec.phase fr φ m) := fun m => Complex.exp_ofReal_mul_I_re _
  have wnorm : ∀ m, ‖w m‖ = 1 := fun m => Complex.norm_exp_ofReal_mul_I _
  have wz : ∀ m, w (m + 1) * z = w m := fun m => by
    simp only [w, hz, ← Complex.exp_add]
    congr 1
    simp only [Spec.phase, hθ]; push_cast; ring
  let P : ℕ → ℝ × ℝ := fun m => (((H - c.b0) * w m).re, ((c.b2 - c.a2 * H) * z * w m).re)
  have yre : ∀ m, ‖H‖ * Real.cos (Spec.phase fr φ m + H.arg) = (H * w m).re := fun m => by
    conv_rhs => rw [← Complex.norm_mul_exp_arg_mul_I H]
    have : (‖H‖ : ℂ) * Complex.exp (H.arg * Complex.I) * w m = (‖H‖ : ℂ) * Complex.exp ((Spec.phase fr φ m + H.arg : ℝ) * Complex.I) := by
      simp only [w]; rw [mul_assoc, ← Complex.exp_add]; push_cast; ring_nf
    rw [this, Complex.re_ofReal_mul, Complex.exp_ofReal_mul_I_re]
  -- the deviation from it
  let s' : ℕ → ℝ × ℝ := fun m => ((T m).1 - (P m).1, (T m).2 - (P m).2)
  have dev : ∀ m < xs.length, ys.getD m 0 - (H * w m).re = (s' m).1 + e m := fun m hm => by
    rw [t.out m hm, hx m hm, ← wre]
    simp only [s', P, sub_mul, Complex.sub_re, Complex.re_ofReal_mul]; ring
  have step : ∀ m < xs.length, s' (m + 1) = (-c.a1 * (s' m).1 + (s' m).2 + -c.a1 * e m, -c.a2 * (s' m).1 + -c.a2 * e m) := by
    intro m hm
    have d := dev m hm
    have c1 : (H - c.b0) * w (m + 1) = c.b1 * w m - c.a1 * (H * w m) + (c.b2 - c.a2 * H) * z * w m := by
      rw [← wz m]; linear_combination w (m + 1) * hHz
    have c2 : (c.b2 - c.a2 * H) * z * w (m + 1) = c.b2 * w m - c.a2 * (H * w m) := by
      rw [← wz m]; ring
    have d1 := congrArg Complex.re c1
    have d2 := congrArg Complex.re c2
    rw [Complex.add_re, Complex.sub_re, Complex.re_ofReal_mul, Complex.re_ofReal_mul] at d1
    rw [Complex.sub_re, Complex.re_ofReal_mul, Complex.re_ofReal_mul] at d2
    have hxm : xs.getD m 0 = (w m).re := by rw [hx m hm, wre]
    have hy : ys.getD m 0 = (H * w m).re + (s' m).1 + e m := by linarith
    refine Prod.ext ?_ ?_
    · simp only [s', P]
      rw [t.next m hm, hy, hxm, d1]
      simp only [s', P]; ring
    · simp only [s', P]
      rw [t.next m hm, hy, hxm, d2]
      simp only [s', P]; ring
  have key := hb xs.length s' (fun m => (-c.a1 * e m, -c.a2 * e m)) (A * (2 * ε)) step
    (fun m _ => by
      simp only [abs_mul, abs_neg]
      constructor
      · exact mul_le_mul (by rw [hA]; linarith [abs_nonneg c.a2]) (eb m) (abs_nonneg _) A0
      · exact mul_le_mul (by rw [hA]; linarith [abs_nonneg c.a1]) (eb m) (abs_nonneg _) A0) (by positivity) n hn.le
  have k1 := key.1
  rw [yre n, dev n hn]
  refine (abs_add_le _ _).trans ?_
  have init : |(s' 0).1| + |(s' 0).2| ≤ |s.of f.reg0| + |s.of f.reg1| + G := by
    have b1 : |(P 0).1| ≤ ‖H - c.b0‖ := (Complex.abs_re_le_norm _).trans (by rw [norm_mul, wnorm, mul_one])
    have b2 : |(P 0).2| ≤ ‖(c.b2 - c.a2 * H) * z‖ := (Complex.abs_re_le_norm _).trans (by rw [norm_mul _ (w 0), wnorm, mul_one])
    have t1 : |(s' 0).1| ≤ |s.of f.reg0| + |(P 0).1| := by simp only [s', e0]; exact abs_sub _ _
    have t2 : |(s' 0).2| ≤ |s.of f.reg1| + |(P 0).2| := by simp only [s', e0]; exact abs_sub _ _
    linarith
  set R := |s.of f.reg0| + |s.of f.reg1| with hR
  have R0 : 0 ≤ R := by positivity
  have rn : 0 ≤ r ^ n := by positivity
  have h1 : K * (r ^ n * (|(s' 0).1| + |(s' 0).2|) + A * (2 * ε)) ≤ K * (r ^ n * (R + G) + A * (2 * ε)) := by gcongr
  have h2 := eb n
  have h3 : K * (r ^ n * (R + G) + A * (2 * ε)) + 2 * ε ≤ (K * (1 + G + 2 * A) + 2) * (r ^ n * (R + 1) + ε) := by
    have : (K * (1 + G + 2 * A) + 2) * (r ^ n * (R + 1) + ε) - (K * (r ^ n * (R + G) + A * (2 * ε)) + 2 * ε) =
        K * r ^ n * (G * R + 1 + 2 * A * (R + 1)) + K * (1 + G) * ε + 2 * (r ^ n * (R + 1)) := by ring
    have : 0 ≤ K * r ^ n * (G * R + 1 + 2 * A * (R + 1)) + K * (1 + G) * ε + 2 * (r ^ n * (R + 1)) := by positivity
    linarith
  linarith

end Verif.Biquad
