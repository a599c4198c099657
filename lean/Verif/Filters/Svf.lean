import Verif.Filters.Linear
import Mathlib.Analysis.Real.Pi.Bounds
/-!
# The state-variable filter (C105)
-/
namespace Verif.Filters
open Biquad (Cf)

/-! ## What the filter should compute -/

/-- The per-step trace `2 - f² - f q` and determinant `1 - f q` of the Chamberlin section with frequency `f` and damping `q`. -/
def Spec.svfT (f q : ℝ) : ℝ := 2 - f ^ 2 - f * q
def Spec.svfD (f q : ℝ) : ℝ := 1 - f * q

/-- The biquad of two Chamberlin steps per sample: poles are the squares of the single step's, the numerators of the low, band and high
outputs are those of the second step. -/
def Spec.svf (f q : ℝ) (ty : IirType) : Cf :=
  let t := Spec.svfT f q
  let d := Spec.svfD f q
  match ty with
  | .lowPass => ⟨-(t ^ 2 - 2 * d), d ^ 2, f ^ 2, f ^ 2 * (d + t), 0⟩
  | .bandPass => ⟨-(t ^ 2 - 2 * d), d ^ 2, f * t, -(f * t), 0⟩
  | .highPass => ⟨-(t ^ 2 - 2 * d), d ^ 2, t - 1, 1 - t - d, d⟩

/-- The relation between registers (band in `i`, low in `j`) and the direct form. -/
def RS (f q : ℝ) (i j : ℕ) (X : ℕ → ℝ) (n : ℕ) (u : FU) : Prop :=
  let c := Spec.svf f q .lowPass
  u.reg j = f ^ 2 * (wst c.a1 c.a2 X n).2 + f ^ 2 * (Spec.svfD f q + Spec.svfT f q) * (wst c.a1 c.a2 X n).1 ∧
  u.reg i = f * Spec.svfT f q * (wst c.a1 c.a2 X n).2 - f * Spec.svfT f q * (wst c.a1 c.a2 X n).1

/-- One sample (two Chamberlin steps) in terms of the direct form. -/
theorem svf_step (f q : ℝ) (ty : IirType) (w1 w2 x l b : ℝ)
    (hl : l = f ^ 2 * w2 + f ^ 2 * (Spec.svfD f q + Spec.svfT f q) * w1) (hb : b = f * Spec.svfT f q * w2 - f * Spec.svfT f q * w1) :
    let c := Spec.svf f q ty
    let w := x - c.a1 * w2 - c.a2 * w1
    let s := chamberlin f q x b l
    let t := chamberlin f q x s.2.2 s.1
    t.1 = f ^ 2 * w + f ^ 2 * (Spec.svfD f q + Spec.svfT f q) * w2 ∧ t.2.2 = f * Spec.svfT f q * w - f * Spec.svfT f q * w2 ∧
      svfPick ty t = c.b0 * w + c.b1 * w2 + c.b2 * w1 := by
  subst hl hb
  cases ty <;> simp only [Spec.svf, Spec.svfD, Spec.svfT, chamberlin, svfPick] <;> refine ⟨by ring, by ring, by ring⟩

/-- Two-pole unit: what the step does at constant coefficients. -/
theorem svf12_const (ty : IirType) {k : ℕ → ℝ} (u : FU) (hc : u.coeff = k) (hd : u.dcoeff = fun _ => 0) (x : ℝ) :
    let s := chamberlin (k 0) (k 1) x (u.reg 0) (u.reg 1)
    let t := chamberlin (k 0) (k 1) x s.2.2 s.1
    (svf12 (svfPick ty) u x).1.coeff = k ∧ ((svf12 (svfPick ty) u x).1.dcoeff = fun _ => 0) ∧
    (svf12 (svfPick ty) u x).1.reg 0 = t.2.2 * u.reg 2 ∧ (svf12 (svfPick ty) u x).1.reg 1 = t.1 * u.reg 2 ∧
    (svf12 (svfPick ty) u x).1.reg 2 = clipReg (k 2) s.2.2 ∧ (svf12 (svfPick ty) u x).2 = svfPick ty t * k 3 := by
  have hd1 : ∀ (a b c : ℝ), (((u.set 0 a).set 1 b).set 2 c).adv [3] = ((u.set 0 a).set 1 b).set 2 c := fun a b c =>
    adv_zero (u := ((u.set 0 a).set 1 b).set 2 c) hd _
  simp only [svf12, adv_zero hd, adv_set2 hd, hd1, hc]
  refine ⟨hc, hd, ?_, ?_, ?_, ?_⟩ <;> simp [FU.set, hc]

/-- Four-pole unit. -/
theorem svf24_const (ty : IirType) {k : ℕ → ℝ} (u : FU) (hc : u.coeff = k) (hd : u.dcoeff = fun _ => 0) (x : ℝ) :
    let s := chamberlin (k 0) (k 1) x (u.reg 0) (u.reg 1)
    let t := chamberlin (k 0) (k 1) x s.2.2 s.1
    let s' := chamberlin (k 0) (k 1) (svfPick ty t) (u.reg 3) (u.reg 4)
    let t' := chamberlin (k 0) (k 1) (svfPick ty t) s'.2.2 s'.1
    (svf24 (svfPick ty) u x).1.coeff = k ∧ ((svf24 (svfPick ty) u x).1.dcoeff = fun _ => 0) ∧
    (svf24 (svfPick ty) u x).1.reg 0 = t.2.2 * u.reg 2 ∧ (svf24 (svfPick ty) u x).1.reg 1 = t.1 * u.reg 2 ∧
    (svf24 (svfPick ty) u x).1.reg 3 = t'.2.2 * u.reg 2 ∧ (svf24 (svfPick ty) u x).1.reg 4 = t'.1 * u.reg 2 ∧
    (svf24 (svfPick ty) u x).1.reg 2 = clipReg (k 2) t'.2.2 ∧ (svf24 (svfPick ty) u x).2 = svfPick ty t' * k 3 := by
  have hd1 : ∀ (a b c d e : ℝ), (((((u.set 0 a).set 1 b).set 3 c).set 4 d).set 2 e).adv [3] = ((((u.set 0 a).set 1 b).set 3 c).set 4 d).set 2 e :=
    fun a b c d e => adv_zero (u := ((((u.set 0 a).set 1 b).set 3 c).set 4 d).set 2 e) hd _
  simp only [svf24, adv_zero hd, adv_set4 hd, hd1, hc]
  refine ⟨hc, hd, ?_, ?_, ?_, ?_, ?_, ?_⟩ <;> simp [FU.set, hc]

/-- The biquad scaled by the output gain. -/
def Spec.scaled (c : Cf) (g : ℝ) : Cf := ⟨c.a1, c.a2, c.b0 * g, c.b1 * g, c.b2 * g⟩

/-- What a state-variable filter should answer: the biquad once, or twice in series with the output gain applied once. -/
def Spec.SvfAnswers (f q g : ℝ) (ty : IirType) : PoleType → List ℝ → List ℝ → Prop
  | .two, xs, ys => Biquad.Spec.Solves 0 (Spec.scaled (Spec.svf f q ty) g) xs ys
  | .four, xs, ys => ∃ mid, Biquad.Spec.Solves 0 (Spec.svf f q ty) xs mid ∧ Biquad.Spec.Solves 0 (Spec.scaled (Spec.svf f q ty) g) mid ys

theorem svf_a (f q : ℝ) (ty : IirType) : (Spec.svf f q ty).a1 = (Spec.svf f q .lowPass).a1 ∧ (Spec.svf f q ty).a2 = (Spec.svf f q .lowPass).a2 := by
  cases ty <;> exact ⟨rfl, rfl⟩

theorem wout_scaled (c : Cf) (g : ℝ) (X : ℕ → ℝ) (n : ℕ) : wout (Spec.scaled c g) X n = wout c X n * g := by
  simp only [wout, Spec.scaled]; ring

/-- C105: **the state-variable filter computes a biquad**: for every type and order, every frequency, damping and output gain, with no clip
gain and no ramp, the outputs solve the second-order difference equation of two Chamberlin steps per sample, for every input.
Not covered: `f32` rounding; the ramps and the clip gain (see the bound below). -/
theorem C105_biquad_partial (ty : IirType) (p : PoleType) (k : ℕ → ℝ) (hclip : k 2 = 0) (xs : List ℝ) :
    Spec.SvfAnswers (k 0) (k 1) (k 3) ty p xs
      (run (svfProcess ty p) ⟨k, fun _ => 0, fun i => if i = 2 then 1 else 0, 0⟩ xs).2 := by
  set X : ℕ → ℝ := fun i => xs.getD i 0 with hX
  obtain ⟨ha1, ha2⟩ := svf_a (k 0) (k 1) ty
  set c := Spec.svf (k 0) (k 1) ty with hcdef
  have stp : ∀ (X : ℕ → ℝ) (n : ℕ) (u : FU) (i j : ℕ), RS (k 0) (k 1) i j X n u →
      (let s := chamberlin (k 0) (k 1) (X n) (u.reg i) (u.reg j)
       let t := chamberlin (k 0) (k 1) (X n) s.2.2 s.1
       (t.1 = k 0 ^ 2 * (wst c.a1 c.a2 X (n + 1)).2 + k 0 ^ 2 * (Spec.svfD (k 0) (k 1) + Spec.svfT (k 0) (k 1)) * (wst c.a1 c.a2 X (n + 1)).1 ∧
        t.2.2 = k 0 * Spec.svfT (k 0) (k 1) * (wst c.a1 c.a2 X (n + 1)).2 - k 0 * Spec.svfT (k 0) (k 1) * (wst c.a1 c.a2 X (n + 1)).1) ∧
        svfPick ty t = wout c X n) := by
    intro X n u i j h
    obtain ⟨h1, h2⟩ := h
    rw [← ha1, ← ha2] at h1 h2
    obtain ⟨s1, s2, s3⟩ := svf_step (k 0) (k 1) ty (wst c.a1 c.a2 X n).1 (wst c.a1 c.a2 X n).2 (X n) _ _ h1 h2
    exact ⟨⟨s1, s2⟩, by rw [s3]; rfl⟩
  have e : svfProcess ty p = match p with | .two => svf12 (svfPick ty) | .four => svf24 (svfPick ty) := by cases ty <;> cases p <;> rfl
  cases p
  · simp only at e
    rw [e]
    have key := run_inv (step := svf12 (svfPick ty)) (fun _ => True) X (wout (Spec.scaled c (k 3)) X)
      (fun n u => u.coeff = k ∧ (u.dcoeff = fun _ => 0) ∧ u.reg 2 = 1 ∧ RS (k 0) (k 1) 0 1 X n u) ?_ xs 0
      ⟨k, fun _ => 0, fun i => if i = 2 then 1 else 0, 0⟩ (fun k _ => by simp [hX]) ?_ (fun _ _ => trivial)
    · obtain ⟨l, g⟩ := key
      exact wout_solves _ X (fun _ _ => rfl) l (fun n hn => by simpa using g n hn)
    · rintro n u ⟨hc, hd, hg, hr⟩
      obtain ⟨q1, q2, q3, q4, q5, q6⟩ := svf12_const ty u hc hd (X n)
      obtain ⟨⟨s1, s2⟩, s3⟩ := stp X n u 0 1 hr
      refine ⟨?_, fun _ => ⟨q1, q2, ?_, ?_, ?_⟩⟩
      · rw [q6, s3, wout_scaled]
      · rw [q5, hclip, clip_zero]
      · rw [q4, hg, mul_one, s1, ha1, ha2]
      · rw [q3, hg, mul_one, s2, ha1, ha2]
    · exact ⟨rfl, rfl, rfl, by simp [wst_zero], by simp [wst_zero]⟩
  · simp only at e
    rw [e]
    have key := run_inv (step := svf24 (svfPick ty)) (fun _ => True) X (wout (Spec.scaled c (k 3)) (wout c X))
      (fun n u => u.coeff = k ∧ (u.dcoeff = fun _ => 0) ∧ u.reg 2 = 1 ∧ RS (k 0) (k 1) 0 1 X n u ∧ RS (k 0) (k 1) 3 4 (wout c X) n u) ?_ xs 0
      ⟨k, fun _ => 0, fun i => if i = 2 then 1 else 0, 0⟩ (fun k _ => by simp [hX]) ?_ (fun _ _ => trivial)
    · obtain ⟨l, g⟩ := key
      have gm : ∀ j < xs.length, ((List.range xs.length).map (wout c X)).getD j 0 = wout c X j := fun j hj => by simp [List.getD, hj]
      refine ⟨(List.range xs.length).map (wout c X), wout_solves c X (fun _ _ => rfl) (by simp) gm, ?_⟩
      exact wout_solves _ (wout c X) (fun j hj => gm j (by simpa using hj)) (by simpa using l) (fun j hj => by simpa using g j (by simpa using hj))
    · rintro n u ⟨hc, hd, hg, hr, hr'⟩
      obtain ⟨q1, q2, q3, q4, q5, q6, q7, q8⟩ := svf24_const ty u hc hd (X n)
      obtain ⟨⟨s1, s2⟩, s3⟩ := stp X n u 0 1 hr
      obtain ⟨⟨t1, t2⟩, t3⟩ := stp (wout c X) n u 3 4 hr'
      rw [s3] at q5 q6 q7 q8
      refine ⟨?_, fun _ => ⟨q1, q2, ?_, ⟨?_, ?_⟩, ?_, ?_⟩⟩
      · rw [q8, t3, wout_scaled]
      · rw [q7, hclip, clip_zero]
      · rw [q4, hg, mul_one, s1, ha1, ha2]
      · rw [q3, hg, mul_one, s2, ha1, ha2]
      · rw [q6, hg, mul_one, t1, ha1, ha2]
      · rw [q5, hg, mul_one, t2, ha1, ha2]
    · exact ⟨rfl, rfl, rfl, ⟨by simp [wst_zero], by simp [wst_zero]⟩, by simp [wst_zero], by simp [wst_zero]⟩

/-! ## Stability of the coefficients in use -/

/-- C105: **when it is stable**: with a positive frequency `f`, the section is stable exactly when `0 < q` and `f² + 2 f q < 4`. -/
theorem C105_stable_iff (ty : IirType) {f q : ℝ} (h0 : 0 < f) : Biquad.Spec.Stable (Spec.svf f q ty) ↔ 0 < q ∧ f ^ 2 + 2 * (f * q) < 4 := by
  obtain ⟨ha1, ha2⟩ := svf_a f q ty
  unfold Biquad.Spec.Stable
  rw [ha1, ha2]
  simp only [Spec.svf]
  rw [abs_lt, abs_lt]
  have e1 : (1 + Spec.svfD f q) ^ 2 - Spec.svfT f q ^ 2 = f ^ 2 * (4 - f ^ 2 - 2 * (f * q)) := by simp only [Spec.svfD, Spec.svfT]; ring
  have e2 : Spec.svfD f q ^ 2 = 1 - (f * q) * (2 - f * q) := by simp only [Spec.svfD]; ring
  constructor
  · rintro ⟨⟨-, h2⟩, h3, -⟩
    have p1 : 0 < (f * q) * (2 - f * q) := by linarith
    have p2 : 0 < f ^ 2 * (4 - f ^ 2 - 2 * (f * q)) := by rw [← e1]; nlinarith
    have p3 : 0 < 4 - f ^ 2 - 2 * (f * q) := (mul_pos_iff_of_pos_left (by positivity)).1 p2
    have p4 : 0 < 2 - f * q := by nlinarith [sq_nonneg f]
    have p5 : 0 < f * q := (mul_pos_iff_of_pos_right p4).1 p1
    exact ⟨(mul_pos_iff_of_pos_left h0).1 p5, by linarith⟩
  · rintro ⟨hq, h⟩
    have p5 : 0 < f * q := mul_pos h0 hq
    have p4 : 0 < 2 - f * q := by nlinarith [sq_nonneg f]
    have p1 : 0 < (f * q) * (2 - f * q) := mul_pos p5 p4
    have p2 : 0 < (1 + Spec.svfD f q) ^ 2 - Spec.svfT f q ^ 2 := by rw [e1]; exact mul_pos (by positivity) (by linarith)
    have d1 : Spec.svfD f q < 1 := by simp only [Spec.svfD]; linarith
    refine ⟨⟨by nlinarith [sq_nonneg (Spec.svfD f q)], by linarith⟩, by nlinarith, ?_⟩
    nlinarith [sq_nonneg (Spec.svfT f q), mul_pos (sub_pos.2 d1) (sub_pos.2 d1)]

/-- The facts about the frequency coefficient of any setting. -/
theorem svf_freq {f srInv : ℝ} (hf : 0 < f) (hs : 0 < srInv) (p : PoleType) (reso : ℝ) :
    0 < svfCoeffMake f srInv p reso 0 ∧ svfCoeffMake f srInv p reso 0 < 0.7 := by
  have m0 : 0 < min 0.11 (f * (0.25 * srInv)) := lt_min (by norm_num) (by positivity)
  have m1 : min 0.11 (f * (0.25 * srInv)) ≤ 0.11 := min_le_left _ _
  have pi3 := Real.pi_lt_d2
  have pp := Real.pi_pos
  simp only [svfCoeffMake]
  set a := min 0.11 (f * (0.25 * srInv))
  have x0 : 0 < Real.pi * a := mul_pos pp m0
  have x1 : Real.pi * a ≤ 3.15 * 0.11 := mul_le_mul pi3.le m1 m0.le (by norm_num)
  constructor
  · exact mul_pos (by norm_num) (Real.sin_pos_of_pos_of_lt_pi x0 (by linarith [Real.pi_gt_three]))
  · have := Real.sin_lt x0
    norm_num at x1 ⊢
    linarith

/-- C105: **which settings are stable**: at every cutoff and sample rate the coefficients made are stable exactly when the damping made is
positive; that is so whenever the square root of the resonance is below `2 / (2 + overshoot)` (resonance up to 0.86 with two poles, 0.9
with four), and fails at full resonance, where only the clip gain holds the filter back. -/
theorem C105_design_stability {f srInv : ℝ} (hf : 0 < f) (hs : 0 < srInv) (ty : IirType) (p : PoleType) (reso : ℝ) :
    (Biquad.Spec.Stable (Spec.svf (svfCoeffMake f srInv p reso 0) (svfCoeffMake f srInv p reso 1) ty) ↔ 0 < svfCoeffMake f srInv p reso 1) ∧
    (reso ≤ 0.86 → 0 < svfCoeffMake f srInv p reso 1) ∧ (1 ≤ reso → svfCoeffMake f srInv p reso 1 < 0) := by
  obtain ⟨f0, f1⟩ := svf_freq hf hs p reso
  have ql : svfCoeffMake f srInv p reso 1 ≤ 2.00 - 1.52 * svfCoeffMake f srInv p reso 0 := by
    simp only [svfCoeffMake]; exact (min_le_right _ _).trans (min_le_right _ _)
  have key : svfCoeffMake f srInv p reso 0 ^ 2 + 2 * (svfCoeffMake f srInv p reso 0 * svfCoeffMake f srInv p reso 1) < 4 := by
    have := mul_le_mul_of_nonneg_left ql f0.le
    norm_num at this ⊢
    nlinarith
  refine ⟨by rw [C105_stable_iff ty f0]; exact ⟨fun h => h.1, fun h => ⟨h, key⟩⟩, fun hr => ?_, fun hr => ?_⟩
  · have r1 : Real.sqrt (limit reso 0 1) < 0.928 := by
      have : limit reso 0 1 < 0.928 ^ 2 := by
        unfold limit
        refine max_lt (by norm_num) (lt_of_le_of_lt (min_le_left _ _) (lt_of_le_of_lt hr (by norm_num)))
      exact (Real.sqrt_lt' (by norm_num)).2 this
    have r0 := Real.sqrt_nonneg (limit reso 0 1)
    have fe : svfCoeffMake f srInv p reso 0 = 2.0 * Real.sin (Real.pi * min 0.11 (f * (0.25 * srInv))) := rfl
    simp only [svfCoeffMake]
    rw [← fe]
    set φ := svfCoeffMake f srInv p reso 0
    refine lt_min ?_ (lt_min (by norm_num) (by norm_num at f1 ⊢; linarith))
    cases p
    · norm_num at r1 ⊢; nlinarith
    · norm_num at r1 ⊢; nlinarith
  · have l1 : limit reso 0 1 = 1 := by
      unfold limit
      rw [min_eq_right hr]; simp
    have fe : svfCoeffMake f srInv p reso 0 = 2.0 * Real.sin (Real.pi * min 0.11 (f * (0.25 * srInv))) := rfl
    simp only [svfCoeffMake]
    rw [← fe, l1, Real.sqrt_one]
    set φ := svfCoeffMake f srInv p reso 0
    refine lt_of_le_of_lt (min_le_left _ _) ?_
    have : φ * φ < 0.7 * 0.7 := mul_self_lt_mul_self f0.le f1
    cases p
    · norm_num at this ⊢; linarith
    · norm_num at this ⊢; linarith

/-- C105: **what passes**: a stable section leaves a constant input unchanged at the low output and removes it at the band and high outputs. -/
theorem C105_dc {f q : ℝ} (hf : f ≠ 0) (hst : Biquad.Spec.Stable (Spec.svf f q .lowPass)) :
    (Spec.svf f q .lowPass).h 0 = 1 ∧ (Spec.svf f q .bandPass).h 0 = 0 ∧ (Spec.svf f q .highPass).h 0 = 0 := by
  have h1 : 1 + Spec.svfD f q - Spec.svfT f q = f ^ 2 := by simp only [Spec.svfD, Spec.svfT]; ring
  have den : 1 + -(Spec.svfT f q ^ 2 - 2 * Spec.svfD f q) + Spec.svfD f q ^ 2 = f ^ 2 * (Spec.svfD f q + Spec.svfT f q + 1) := by
    rw [← h1]; ring
  have ne : Spec.svfD f q + Spec.svfT f q + 1 ≠ 0 := by
    intro h
    rw [h, mul_zero] at den
    obtain ⟨-, s1⟩ := hst
    simp only [Spec.svf, abs_lt] at s1
    linarith [s1.1]
  have dz : ((1 : ℂ) + (-(Spec.svfT f q ^ 2 - 2 * Spec.svfD f q) : ℝ) + (Spec.svfD f q ^ 2 : ℝ)) = (f ^ 2 * (Spec.svfD f q + Spec.svfT f q + 1) : ℝ) := by
    rw [← den]; push_cast; ring
  have nz : ((f ^ 2 * (Spec.svfD f q + Spec.svfT f q + 1) : ℝ) : ℂ) ≠ 0 := by
    exact_mod_cast mul_ne_zero (pow_ne_zero 2 hf) ne
  have e0 : Complex.exp (-2 * Real.pi * ((0 : ℝ) : ℂ) * Complex.I) = 1 := by simp
  refine ⟨?_, ?_, ?_⟩
  · simp only [Biquad.Cf.h, Spec.svf, e0, mul_one]
    rw [dz, div_eq_one_iff_eq nz]; push_cast; ring
  · simp only [Biquad.Cf.h, Spec.svf, e0, mul_one]
    rw [div_eq_zero_iff]; left; push_cast; ring
  · simp only [Biquad.Cf.h, Spec.svf, e0, mul_one]
    rw [div_eq_zero_iff]; left; push_cast; ring

/-- The matrix of one sample on (low, band). -/
def svfM (f q : ℝ) : M2 := ⟨1 - f ^ 2, f * Spec.svfT f q, -(f * Spec.svfT f q), (Spec.svfT f q - 1) ^ 2 - f ^ 2⟩

theorem svfM_act (f q x b l : ℝ) :
    let s := chamberlin f q x b l
    let t := chamberlin f q x s.2.2 s.1
    t.1 = ((svfM f q).act (l, b)).1 + x * f ^ 2 ∧ t.2.2 = ((svfM f q).act (l, b)).2 + x * (f * Spec.svfT f q) := by
  simp only [chamberlin, svfM, M2.act, Spec.svfT]
  constructor <;> ring

/-- Each output is a fixed combination of the state and the input. -/
theorem svf_out (ty : IirType) (f q : ℝ) : ∃ p1 p2 p3 : ℝ, ∀ x b l : ℝ,
    (let s := chamberlin f q x b l
     let t := chamberlin f q x s.2.2 s.1
     svfPick ty t = p1 * l + p2 * b + p3 * x) := by
  cases ty
  · refine ⟨1 - f ^ 2, f * Spec.svfT f q, f ^ 2, fun x b l => ?_⟩
    simp only [chamberlin, svfPick, Spec.svfT]; ring
  · refine ⟨-(f * Spec.svfT f q), (Spec.svfT f q - 1) ^ 2 - f ^ 2, f * Spec.svfT f q, fun x b l => ?_⟩
    simp only [chamberlin, svfPick, Spec.svfT]; ring
  · refine ⟨-(1 - f ^ 2) + q * f, -(f * Spec.svfT f q) - q * (Spec.svfT f q - 1), 1 - f ^ 2 - q * f, fun x b l => ?_⟩
    simp only [chamberlin, svfPick, Spec.svfT]; ring

theorem comb_bound {p1 p2 p3 l b x K M : ℝ} (hl : |l| ≤ K * M) (hb : |b| ≤ K * M) (hx : |x| ≤ M) :
    |p1 * l + p2 * b + p3 * x| ≤ (|p1| * K + |p2| * K + |p3|) * M := by
  have m : ∀ (p q B : ℝ), |q| ≤ B → |p * q| ≤ |p| * B := fun p q B h => by rw [abs_mul]; exact mul_le_mul_of_nonneg_left h (abs_nonneg _)
  have t1 := m p1 l _ hl
  have t2 := m p2 b _ hb
  have t3 := m p3 x _ hx
  calc _ ≤ |p1 * l| + |p2 * b| + |p3 * x| := abs_add_three _ _ _
    _ ≤ _ := by nlinarith

/-- C105: **bounded**: with fixed coefficients that are stable and any clip gain and output gain, the output of every type and order is
bounded by a constant times the largest input, however long the input. -/
theorem C105_bounded_partial (ty : IirType) (p : PoleType) (k : ℕ → ℝ) (hclip : 0 ≤ k 2) (hst : Biquad.Spec.Stable (Spec.svf (k 0) (k 1) ty)) :
    ∃ K : ℝ, ∀ (M : ℝ) (xs : List ℝ), 0 ≤ M → (∀ x ∈ xs, |x| ≤ M) →
      ∀ y ∈ (run (svfProcess ty p) ⟨k, fun _ => 0, fun _ => 0, 0⟩ xs).2, |y| ≤ K * M := by
  obtain ⟨ha1, ha2⟩ := svf_a (k 0) (k 1) ty
  obtain ⟨s2, s1⟩ := hst
  rw [ha2] at s2 s1
  rw [ha1] at s1
  have e1 : (svfM (k 0) (k 1)).tr = Spec.svfT (k 0) (k 1) ^ 2 - 2 * Spec.svfD (k 0) (k 1) := by
    simp only [svfM, M2.tr, Spec.svfT, Spec.svfD]; ring
  have e2 : (svfM (k 0) (k 1)).det = Spec.svfD (k 0) (k 1) ^ 2 := by
    simp only [svfM, M2.det, Spec.svfT, Spec.svfD]; ring
  simp only [Spec.svf, abs_neg] at s1 s2
  obtain ⟨K, K0, hreg⟩ := invariant_region (A := svfM (k 0) (k 1)) (by rw [e2]; exact s2) (by rw [e1, e2]; exact s1)
    (k 0 ^ 2, k 0 * Spec.svfT (k 0) (k 1))
  obtain ⟨p1, p2, p3, hp⟩ := svf_out ty (k 0) (k 1)
  set G := |p1| * K + |p2| * K + |p3| with hG
  have G0 : 0 ≤ G := by positivity
  have next : ∀ {P : ℝ × ℝ → Prop} {M : ℝ} , (∀ (s : ℝ × ℝ) (g x : ℝ), P s → 0 ≤ g → g ≤ 1 → |x| ≤ M →
        P (g * (((svfM (k 0) (k 1)).act s).1 + x * (k 0 ^ 2)), g * (((svfM (k 0) (k 1)).act s).2 + x * (k 0 * Spec.svfT (k 0) (k 1))))) →
      ∀ {b l g x : ℝ}, P (l, b) → 0 ≤ g → g ≤ 1 → |x| ≤ M →
        (let s := chamberlin (k 0) (k 1) x b l
         let t := chamberlin (k 0) (k 1) x s.2.2 s.1
         P (t.1 * g, t.2.2 * g)) := by
    intro P M h b l g x hP g0 g1 hx
    have := h (l, b) g x hP g0 g1 hx
    obtain ⟨a1, a2⟩ := svfM_act (k 0) (k 1) x b l
    simp only at a1 a2 ⊢
    rw [a1, a2, mul_comm _ g, mul_comm _ g]
    exact this
  have cu := fun y => clip_unit (c := k 2) (y := y) hclip
  have e : svfProcess ty p = match p with | .two => svf12 (svfPick ty) | .four => svf24 (svfPick ty) := by cases ty <;> cases p <;> rfl
  cases p
  · simp only at e
    rw [e]
    refine ⟨G * |k 3|, fun M xs M0 hx y hy => ?_⟩
    obtain ⟨P, p0, pb, ps⟩ := hreg M M0
    refine (run_out (step := svf12 (svfPick ty)) (A := fun x => |x| ≤ M) (Q := fun y => |y| ≤ G * |k 3| * M)
      (I := fun u => u.coeff = k ∧ (u.dcoeff = fun _ => 0) ∧ 0 ≤ u.reg 2 ∧ u.reg 2 ≤ 1 ∧ P (u.reg 1, u.reg 0)) ?_ xs _ hx
      ⟨rfl, rfl, le_rfl, zero_le_one, p0⟩).2 y hy
    rintro u x ax ⟨uc, ud, g0, g1, hP⟩
    obtain ⟨q1, q2, q3, q4, q5, q6⟩ := svf12_const ty u uc ud x
    obtain ⟨b0, b1⟩ := pb _ hP
    refine ⟨⟨q1, q2, by rw [q5]; exact (cu _).1, by rw [q5]; exact (cu _).2, ?_⟩, ?_⟩
    · rw [q3, q4]; exact next ps hP g0 g1 ax
    · rw [q6, hp, abs_mul]
      have := comb_bound (p1 := p1) (p2 := p2) (p3 := p3) b0 b1 ax
      calc _ ≤ G * M * |k 3| := mul_le_mul_of_nonneg_right this (abs_nonneg _)
        _ = _ := by ring
  · simp only at e
    rw [e]
    refine ⟨G * G * |k 3|, fun M xs M0 hx y hy => ?_⟩
    obtain ⟨P, p0, pb, ps⟩ := hreg M M0
    obtain ⟨P', p0', pb', ps'⟩ := hreg (G * M) (mul_nonneg G0 M0)
    refine (run_out (step := svf24 (svfPick ty)) (A := fun x => |x| ≤ M) (Q := fun y => |y| ≤ G * G * |k 3| * M)
      (I := fun u => u.coeff = k ∧ (u.dcoeff = fun _ => 0) ∧ 0 ≤ u.reg 2 ∧ u.reg 2 ≤ 1 ∧ P (u.reg 1, u.reg 0) ∧ P' (u.reg 4, u.reg 3)) ?_ xs _ hx
      ⟨rfl, rfl, le_rfl, zero_le_one, p0, p0'⟩).2 y hy
    rintro u x ax ⟨uc, ud, g0, g1, hP, hP'⟩
    obtain ⟨q1, q2, q3, q4, q5, q6, q7, q8⟩ := svf24_const ty u uc ud x
    obtain ⟨b0, b1⟩ := pb _ hP
    obtain ⟨c0, c1⟩ := pb' _ hP'
    have ax' := comb_bound (p1 := p1) (p2 := p2) (p3 := p3) b0 b1 ax
    rw [← hp x (u.reg 0) (u.reg 1)] at ax'
    refine ⟨⟨q1, q2, by rw [q7]; exact (cu _).1, by rw [q7]; exact (cu _).2, ?_, ?_⟩, ?_⟩
    · rw [q3, q4]; exact next ps hP g0 g1 ax
    · rw [q5, q6]; exact next ps' hP' g0 g1 ax'
    · have := comb_bound (p1 := p1) (p2 := p2) (p3 := p3) c0 c1 ax'
      rw [q8, hp, abs_mul]
      calc _ ≤ G * (G * M) * |k 3| := mul_le_mul_of_nonneg_right this (abs_nonneg _)
        _ = _ := by ring

/-- The hypotheses hold of a real setting: 1 kHz at 48 kHz without resonance is stable. -/
example : Biquad.Spec.Stable (Spec.svf (svfCoeffMake 1000 (1 / 48000) .two 0 0) (svfCoeffMake 1000 (1 / 48000) .two 0 1) .lowPass) := by
  obtain ⟨h1, h2, -⟩ := C105_design_stability (f := 1000) (srInv := 1 / 48000) (by norm_num) (by norm_num) .lowPass .two 0
  exact h1.2 (h2 (by norm_num))

end Verif.Filters
