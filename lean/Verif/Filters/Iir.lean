import Verif.Filters.Model
import Verif.Biquad.Designs
/-!
# The filter topologies realise their design (C100)
-/
namespace Verif.Filters
open Verif.Biquad (Cf)

/-! ## Runs -/

theorem adv_zero {u : FU} (h : u.dcoeff = fun _ => 0) (is : List ℕ) : u.adv is = u := by
  unfold FU.adv
  rw [h]
  have : (fun i => if i ∈ is then u.coeff i + 0 else u.coeff i) = u.coeff := by funext i; split <;> simp
  rw [this, ← h]

theorem run_inv {step : FU → ℝ → FU × ℝ} (P : ℝ → Prop) (X Y : ℕ → ℝ) (R : ℕ → FU → Prop)
    (hstep : ∀ n u, R n u → (step u (X n)).2 = Y n ∧ (P (Y n) → R (n + 1) (step u (X n)).1)) :
    ∀ (xs : List ℝ) (n : ℕ) (u : FU), (∀ k < xs.length, xs.getD k 0 = X (n + k)) → R n u → (∀ y ∈ (run step u xs).2, P y) →
      (run step u xs).2.length = xs.length ∧ ∀ k < xs.length, (run step u xs).2.getD k 0 = Y (n + k)
  | [], _, _, _, _, _ => ⟨rfl, fun k hk => absurd hk (by simp)⟩
  | x :: xs, n, u, hx, hR, hP => by
    have e : x = X n := by simpa using hx 0 (by simp)
    subst e
    obtain ⟨g1, g2⟩ := hstep n u hR
    have hy : P (Y n) := by rw [← g1]; exact hP _ (by simp [run])
    have ih := run_inv P X Y R hstep xs (n + 1) (step u (X n)).1
      (fun k hk => by have := hx (k + 1) (by simpa using hk); simpa [Nat.add_comm, Nat.add_left_comm, Nat.add_assoc] using this)
      (g2 hy) (fun y hy => hP y (by simp [run, hy]))
    refine ⟨by simp [run, ih.1], fun k hk => ?_⟩
    cases k with
    | zero => simp [run, g1]
    | succ k =>
      have := ih.2 k (by simpa using hk)
      simp only [run, List.getD_cons_succ, this]
      congr 1; omega

/-! ## The second direct form -/

/-- The two delayed values of the direct form: after `n` samples of `X`. -/
def wst (a1 a2 : ℝ) (X : ℕ → ℝ) : ℕ → ℝ × ℝ
  | 0 => (0, 0)
  | n + 1 => ((wst a1 a2 X n).2, X n - a1 * (wst a1 a2 X n).2 - a2 * (wst a1 a2 X n).1)

/-- The output of the direct form. -/
def wout (c : Cf) (X : ℕ → ℝ) (n : ℕ) : ℝ :=
  c.b0 * (wst c.a1 c.a2 X (n + 1)).2 + c.b1 * (wst c.a1 c.a2 X n).2 + c.b2 * (wst c.a1 c.a2 X n).1

theorem wout_solves (c : Cf) (X : ℕ → ℝ) {xs ys : List ℝ} (hx : ∀ k < xs.length, xs.getD k 0 = X k) (hl : ys.length = xs.length)
    (hy : ∀ k < xs.length, ys.getD k 0 = wout c X k) : Biquad.Spec.Solves 0 c xs ys := by
  refine ⟨hl, fun n hn => ?_⟩
  simp only [Biquad.Spec.past]
  rw [hy n hn, hx n hn]
  rcases n with _ | _ | n
  · simp [wout, wst]
  · have e1 : ys.getD (0 + 1 - 1) 0 = wout c X 0 := hy 0 (by omega)
    have e2 : xs.getD (0 + 1 - 1) 0 = X 0 := hx 0 (by omega)
    rw [if_pos (by omega), if_neg (by omega), if_pos (by omega), if_neg (by omega), e1, e2]
    simp [wout, wst]
    ring_nf
  · have e1 : ys.getD (n + 1 + 1 - 1) 0 = wout c X (n + 1) := hy (n + 1) (by omega)
    have e2 : xs.getD (n + 1 + 1 - 1) 0 = X (n + 1) := hx (n + 1) (by omega)
    have e3 : ys.getD (n + 1 + 1 - 2) 0 = wout c X n := hy n (by omega)
    have e4 : xs.getD (n + 1 + 1 - 2) 0 = X n := hx n (by omega)
    rw [if_pos (by omega), if_pos (by omega), if_pos (by omega), if_pos (by omega), e1, e2, e3, e4]
    rw [abs_nonpos_iff]
    simp only [wout, wst]
    ring

/-! ## Lattice -/

section
variable {u : FU} {x : ℝ}

/-- The facts about the lattice coefficients the realisation needs. -/
structure IsLattice (c : Cf) (k : ℕ → ℝ) : Prop where
  a1 : k 0 * (1 + k 1) = c.a1
  a2 : k 1 = c.a2
  q1 : k 2 ^ 2 = 1 - k 0 ^ 2
  q2 : k 3 ^ 2 = 1 - k 1 ^ 2
  p1 : 0 < k 2
  p2 : 0 < k 3
  v3 : k 6 = c.b2
  v2 : k 5 * k 3 = c.b1 - c.a1 * c.b2
  v1 : k 4 * (k 2 * k 3) = c.b0 - k 0 * k 5 * k 3 - k 1 * c.b2

/-- One step of the lattice, in terms of the direct form. -/
theorem lattice_step {c : Cf} {k : ℕ → ℝ} (h : IsLattice c k) (w1 w2 x : ℝ) :
    let w := x - c.a1 * w2 - c.a2 * w1
    let r0 := k 2 * k 3 * w2
    let r1 := k 3 * (k 0 * w2 + w1)
    let f2 := k 3 * x - k 1 * r1
    let g2 := k 1 * x + k 3 * r1
    let f1 := k 2 * f2 - k 0 * r0
    let g1 := k 0 * f2 + k 2 * r0
    f1 = k 2 * k 3 * w ∧ g1 = k 3 * (k 0 * w + w2) ∧ k 6 * g2 + k 5 * g1 + k 4 * f1 = c.b0 * w + c.b1 * w2 + c.b2 * w1 := by
  obtain ⟨ha1, ha2, hq1, hq2, hp1, hp2, hv3, hv2, hv1⟩ := h
  intro w r0 r1 f2 g2 f1 g1
  have hf2 : f2 = k 3 * (w + k 0 * w2) := by
    simp only [f2, r1, w, ← ha1, ← ha2]; ring
  have hf1 : f1 = k 2 * k 3 * w := by simp only [f1, hf2, r0]; ring
  have hg1 : g1 = k 3 * (k 0 * w + w2) := by
    simp only [g1, hf2, r0]
    linear_combination (k 3 * w2) * hq1
  have hx : x = w + c.a1 * w2 + c.a2 * w1 := by simp only [w]; ring
  have hg2 : g2 = k 1 * w + c.a1 * w2 + w1 := by
    simp only [g2, r1]
    rw [hx, ← ha1, ← ha2]
    linear_combination (k 0 * w2 + w1) * hq2
  refine ⟨hf1, hg1, ?_⟩
  rw [hg2, hg1, hf1, hv3]
  linear_combination w2 * hv2 + w * hv1

/-- The biquad a design stands for, with a gain: the coefficients normalised by `a0`. -/
noncomputable def Spec.biquad (f : Fc) (gain : ℝ) : Cf :=
  Biquad.Spec.normal f.a0 f.a1 f.a2 (f.b0 * gain) (f.b1 * gain) (f.b2 * gain)

theorem lattice_ok {f : Fc} {gain clip : ℝ} (hs : Biquad.Spec.Stable (Spec.biquad f gain)) :
    IsLattice (Spec.biquad f gain) (f.lattice gain clip) := by
  obtain ⟨h2, h1⟩ := hs
  simp only [Spec.biquad, Biquad.Spec.normal] at h1 h2
  set a1 := f.a1 / f.a0 with e1
  set a2 := f.a2 / f.a0 with e2
  have p : 0 < 1 + a2 := by have := (abs_lt.mp h2).1; linarith
  have k1 : |a1 / (1 + a2)| < 1 := by rw [abs_div, abs_of_pos p, div_lt_one p]; exact h1
  have z1 : 0 < 1 - (a1 / (1 + a2)) * (a1 / (1 + a2)) := by
    have := abs_lt.mp k1
    nlinarith [this.1, this.2]
  have z2 : 0 < 1 - a2 * a2 := by
    have := abs_lt.mp h2
    nlinarith [this.1, this.2]
  have i1 : f.a1 * (1 / f.a0) = a1 := by rw [e1]; ring
  have i2 : f.a2 * (1 / f.a0) = a2 := by rw [e2]; ring
  have one : (1.0 : ℝ) = 1 := by norm_num
  have s1 : Real.sqrt |1 - a1 / (1 + a2) * (a1 / (1 + a2))| ^ 2 = 1 - (a1 / (1 + a2)) ^ 2 := by
    rw [abs_of_pos z1, Real.sq_sqrt z1.le]; ring
  have s2 : Real.sqrt |1 - a2 * a2| ^ 2 = 1 - a2 ^ 2 := by
    rw [abs_of_pos z2, Real.sq_sqrt z2.le]; ring
  have p1 : 0 < Real.sqrt |1 - a1 / (1 + a2) * (a1 / (1 + a2))| := Real.sqrt_pos.2 (abs_pos.2 z1.ne')
  have p2 : 0 < Real.sqrt |1 - a2 * a2| := Real.sqrt_pos.2 (abs_pos.2 z2.ne')
  constructor
  all_goals simp only [Fc.lattice, Spec.biquad, Biquad.Spec.normal, i1, i2, one, ← e1, ← e2]
  · field_simp
  · exact s1
  · exact s2
  · exact p1
  · exact p2
  · ring
  · rw [div_mul_cancel₀ _ p2.ne']; ring
  · rw [div_mul_cancel₀ _ (mul_pos p1 p2).ne']
    ring

/-- The facts about the coupled-form coefficients. -/
structure IsCoupled (c : Cf) (k : ℕ → ℝ) : Prop where
  ar : 2 * k 0 = -c.a1
  ai : k 1 ^ 2 = c.a2 - k 0 ^ 2
  b : k 2 = 1
  c1 : k 4 = c.b1 - c.a1 * c.b0
  c2 : k 5 * k 1 = k 4 * k 0 + (c.b2 - c.a2 * c.b0)
  d : k 6 = c.b0

theorem coupled_step {c : Cf} {k : ℕ → ℝ} (h : IsCoupled c k) (w1 w2 x : ℝ) :
    let w := x - c.a1 * w2 - c.a2 * w1
    let r0 := w2 - k 0 * w1
    let r1 := k 1 * w1
    k 4 * r0 + k 6 * x + k 5 * r1 = c.b0 * w + c.b1 * w2 + c.b2 * w1 ∧
    x * k 2 + (k 0 * r0 - k 1 * r1) = w - k 0 * w2 ∧ k 1 * r0 + k 0 * r1 = k 1 * w2 := by
  obtain ⟨h1, h2, h3, h4, h5, h6⟩ := h
  intro w r0 r1
  refine ⟨?_, ?_, ?_⟩
  · simp only [r0, r1, w, h6]
    linear_combination w1 * h5 + w2 * h4
  · simp only [r0, r1, w, h3]
    linear_combination (-w1) * h2 + (w2) * h1
  · simp only [r0, r1]; ring

/-- Complex poles, far enough apart for the floor on their imaginary part. -/
def Spec.Complex (c : Cf) : Prop := (8.0 * 1.192092896e-07) ^ 2 ≤ c.a2 - (c.a1 / 2) ^ 2

theorem coupled_ok {f : Fc} {gain clip : ℝ} (hc : Spec.Complex (Spec.biquad f gain)) :
    IsCoupled (Spec.biquad f gain) (f.coupled gain clip) := by
  simp only [Spec.Complex, Spec.biquad, Biquad.Spec.normal] at hc
  set a1 := f.a1 / f.a0 with e1
  set a2 := f.a2 / f.a0 with e2
  have one : (1.0 : ℝ) = 1 := by norm_num
  have four : (4.0 : ℝ) = 4 := by norm_num
  have half : (0.5 : ℝ) = 1 / 2 := by norm_num
  have i1 : f.a1 * (1 / f.a0) = a1 := by rw [e1]; ring
  have i2 : f.a2 * (1 / f.a0) = a2 := by rw [e2]; ring
  have fl : (0 : ℝ) < 8.0 * 1.192092896e-07 := by norm_num
  have d0 : 0 < a2 - (a1 / 2) ^ 2 := lt_of_lt_of_le (pow_pos fl 2) hc
  have m : min 0 (a1 * a1 - 4 * a2) = a1 * a1 - 4 * a2 := min_eq_right (by nlinarith)
  have s : 1 / 2 * Real.sqrt (-(a1 * a1 - 4 * a2)) = Real.sqrt (a2 - (a1 / 2) ^ 2) := by
    have : -(a1 * a1 - 4 * a2) = 2 ^ 2 * (a2 - (a1 / 2) ^ 2)   := by ring
    rw [this, Real.sqrt_mul (by norm_num), Real.sqrt_sq (by norm_num)]; ring
  have mx : max (Real.sqrt (a2 - (a1 / 2) ^ 2)) (8.0 * 1.192092896e-07) = Real.sqrt (a2 - (a1 / 2) ^ 2) :=
    max_eq_left (Real.le_sqrt_of_sq_le hc)
  have sq : Real.sqrt (a2 - (a1 / 2) ^ 2) ^ 2 = a2 - (a1 / 2) ^ 2 := Real.sq_sqrt d0.le
  have sp : 0 < Real.sqrt (a2 - (a1 / 2) ^ 2) := Real.sqrt_pos.2 d0
  constructor
  all_goals simp only [Fc.coupled, Spec.biquad, Biquad.Spec.normal, one, four, half, i1, i2, m, s, mx, ← e1, ← e2]
  · ring
  · rw [sq]; ring
  · ring
  · rw [div_mul_cancel₀ _ sp.ne']; ring
  · ring

end

/-! ## The processing functions at constant coefficients -/

theorem adv_set {u : FU} (h : u.dcoeff = fun _ => 0) (i : ℕ) (v : ℝ) (is : List ℕ) : (u.set i v).adv is = u.set i v :=
  adv_zero (u := u.set i v) h is

theorem adv_set2 {u : FU} (h : u.dcoeff = fun _ => 0) (i j : ℕ) (v w : ℝ) (is : List ℕ) :
    ((u.set i v).set j w).adv is = (u.set i v).set j w := adv_zero (u := (u.set i v).set j w) h is

theorem adv_set4 {u : FU} (h : u.dcoeff = fun _ => 0) (i j k l : ℕ) (v w p q : ℝ) (is : List ℕ) :
    ((((u.set i v).set j w).set k p).set l q).adv is = (((u.set i v).set j w).set k p).set l q :=
  adv_zero (u := (((u.set i v).set j w).set k p).set l q) h is

theorem clip_zero (y : ℝ) : clipReg 0 y = 1 := by
  unfold clipReg
  rw [zero_mul]; norm_num

/-- The lattice relation: unit `u` after `n` samples of `X`, registers `i` and `j`. -/
def RL (c : Cf) (k : ℕ → ℝ) (i j : ℕ) (X : ℕ → ℝ) (n : ℕ) (u : FU) : Prop :=
  u.reg i = k 2 * k 3 * (wst c.a1 c.a2 X n).2 ∧ u.reg j = k 3 * (k 0 * (wst c.a1 c.a2 X n).2 + (wst c.a1 c.a2 X n).1)

/-- The coupled-form relation. -/
def RC (c : Cf) (k : ℕ → ℝ) (i j : ℕ) (X : ℕ → ℝ) (n : ℕ) (u : FU) : Prop :=
  u.reg i = (wst c.a1 c.a2 X n).2 - k 0 * (wst c.a1 c.a2 X n).1 ∧ u.reg j = k 1 * (wst c.a1 c.a2 X n).1

/-- Constant coefficients, and a gain register at one. -/
def Const (k : ℕ → ℝ) (g : ℕ) (u : FU) : Prop := u.coeff = k ∧ (u.dcoeff = fun _ => 0) ∧ u.reg g = 1

theorem step12a {c : Cf} {k : ℕ → ℝ} (hk : IsLattice c k) (X : ℕ → ℝ) (n : ℕ) (u : FU)
    (h : (u.coeff = k ∧ u.dcoeff = fun _ => 0) ∧ RL c k 0 1 X n u) :
    (iir12a u (X n)).2 = wout c X n ∧
      (((iir12a u (X n)).1.coeff = k ∧ (iir12a u (X n)).1.dcoeff = fun _ => 0) ∧ RL c k 0 1 X (n + 1) (iir12a u (X n)).1) := by
  obtain ⟨⟨hc, hd⟩, h0, h1⟩ := h
  obtain ⟨s1, s2, s3⟩ := lattice_step hk (wst c.a1 c.a2 X n).1 (wst c.a1 c.a2 X n).2 (X n)
  rw [← h0, ← h1] at s1 s2 s3
  simp only [iir12a, adv_zero hd, hc]
  refine ⟨by rw [s3]; simp only [wout, wst], ⟨hc, hd⟩, ?_, ?_⟩
  · simp [FU.set, s1, wst]
  · simp [FU.set, s2, wst]

theorem step12b {c : Cf} {k : ℕ → ℝ} (hk : IsLattice c k) (h7 : k 7 = 0) (X : ℕ → ℝ) (n : ℕ) (u : FU)
    (h : Const k 2 u ∧ RL c k 0 1 X n u) :
    (iir12b u (X n)).2 = wout c X n ∧ (Const k 2 (iir12b u (X n)).1 ∧ RL c k 0 1 X (n + 1) (iir12b u (X n)).1) := by
  obtain ⟨⟨hc, hd, hg⟩, h0, h1⟩ := h
  obtain ⟨s1, s2, s3⟩ := lattice_step hk (wst c.a1 c.a2 X n).1 (wst c.a1 c.a2 X n).2 (X n)
  rw [← h0, ← h1] at s1 s2 s3
  simp only [iir12b, adv_zero hd, adv_set2 hd, hc]
  refine ⟨by rw [s3]; simp only [wout, wst], ⟨hc, hd, ?_⟩, ?_, ?_⟩
  · simp [FU.set, hc, h7, clip_zero]
  · simp [FU.set, s1, wst, hg]
  · simp [FU.set, s2, wst, hg]

theorem step12cfc {c : Cf} {k : ℕ → ℝ} (hk : IsCoupled c k) (h7 : k 7 = 0) (X : ℕ → ℝ) (n : ℕ) (u : FU)
    (h : Const k 2 u ∧ RC c k 0 1 X n u) :
    (iir12cfc u (X n)).2 = wout c X n ∧ (Const k 2 (iir12cfc u (X n)).1 ∧ RC c k 0 1 X (n + 1) (iir12cfc u (X n)).1) := by
  obtain ⟨⟨hc, hd, hg⟩, h0, h1⟩ := h
  obtain ⟨s1, s2, s3⟩ := coupled_step hk (wst c.a1 c.a2 X n).1 (wst c.a1 c.a2 X n).2 (X n)
  rw [← h0, ← h1] at s1 s2 s3
  simp only [iir12cfc, adv_zero hd, adv_set2 hd, hc]
  refine ⟨by rw [s1]; simp only [wout, wst], ⟨hc, hd, ?_⟩, ?_, ?_⟩
  · simp [FU.set, hc, h7, clip_zero]
  · simp [FU.set, s2, wst, hg]
  · simp [FU.set, s3, wst, hg]

theorem limit_one {rs : ℝ → ℝ} (h : rs 1 = 1) {y : ℝ} (hy : |y| ≤ 1 / 2) : limitReg rs 1 y = 1 := by
  unfold limitReg
  have : max 1.0 (2.0 * |y|) = (1 : ℝ) := by norm_num; linarith
  rw [this, h]; norm_num

theorem step12cfl {c : Cf} {k : ℕ → ℝ} (hk : IsCoupled c k) {rs : ℝ → ℝ} (hrs : rs 1 = 1) (X : ℕ → ℝ) (n : ℕ) (u : FU)
    (h : Const k 2 u ∧ RC c k 0 1 X n u) :
    (iir12cfl rs u (X n)).2 = wout c X n ∧ (|wout c X n| ≤ 1 / 2 →
      Const k 2 (iir12cfl rs u (X n)).1 ∧ RC c k 0 1 X (n + 1) (iir12cfl rs u (X n)).1) := by
  obtain ⟨⟨hc, hd, hg⟩, h0, h1⟩ := h
  obtain ⟨s1, s2, s3⟩ := coupled_step hk (wst c.a1 c.a2 X n).1 (wst c.a1 c.a2 X n).2 (X n)
  rw [← h0, ← h1] at s1 s2 s3
  have hy : c.b0 * (X n - c.a1 * (wst c.a1 c.a2 X n).2 - c.a2 * (wst c.a1 c.a2 X n).1) + c.b1 * (wst c.a1 c.a2 X n).2
      + c.b2 * (wst c.a1 c.a2 X n).1 = wout c X n := by simp only [wout, wst]
  simp only [iir12cfl, adv_zero hd, hc, hg, mul_one]
  rw [s1, s2, s3, hy]
  refine ⟨rfl, fun hl => ⟨⟨hc, hd, ?_⟩, ?_, ?_⟩⟩
  · simp [FU.set, hg, limit_one hrs hl]
  · simp [FU.set, wst]
  · simp [FU.set, wst]

theorem woutE (c : Cf) (X : ℕ → ℝ) (n : ℕ) : c.b0 * (X n - c.a1 * (wst c.a1 c.a2 X n).2 - c.a2 * (wst c.a1 c.a2 X n).1) +
    c.b1 * (wst c.a1 c.a2 X n).2 + c.b2 * (wst c.a1 c.a2 X n).1 = wout c X n := rfl

theorem step24b {c : Cf} {k : ℕ → ℝ} (hk : IsLattice c k) (h7 : k 7 = 0) (X : ℕ → ℝ) (n : ℕ) (u : FU)
    (h : Const k 4 u ∧ RL c k 0 1 X n u ∧ RL c k 2 3 (wout c X) n u) :
    (iir24b u (X n)).2 = wout c (wout c X) n ∧ (Const k 4 (iir24b u (X n)).1 ∧ RL c k 0 1 X (n + 1) (iir24b u (X n)).1 ∧
      RL c k 2 3 (wout c X) (n + 1) (iir24b u (X n)).1) := by
  obtain ⟨⟨hc, hd, hg⟩, ⟨h0, h1⟩, h2, h3⟩ := h
  obtain ⟨s1, s2, s3⟩ := lattice_step hk (wst c.a1 c.a2 X n).1 (wst c.a1 c.a2 X n).2 (X n)
  obtain ⟨t1, t2, t3⟩ := lattice_step hk (wst c.a1 c.a2 (wout c X) n).1 (wst c.a1 c.a2 (wout c X) n).2 (wout c X n)
  rw [← h0, ← h1] at s1 s2 s3
  rw [← h2, ← h3] at t1 t2 t3
  have hy : c.b0 * (X n - c.a1 * (wst c.a1 c.a2 X n).2 - c.a2 * (wst c.a1 c.a2 X n).1) + c.b1 * (wst c.a1 c.a2 X n).2
      + c.b2 * (wst c.a1 c.a2 X n).1 = wout c X n := by simp only [wout, wst]
  have hy2 : c.b0 * (wout c X n - c.a1 * (wst c.a1 c.a2 (wout c X) n).2 - c.a2 * (wst c.a1 c.a2 (wout c X) n).1) +
      c.b1 * (wst c.a1 c.a2 (wout c X) n).2 + c.b2 * (wst c.a1 c.a2 (wout c X) n).1 = wout c (wout c X) n := woutE c (wout c X) n
  rw [hy] at s3
  rw [hy2] at t3
  simp only [iir24b, adv_zero hd, adv_set4 hd, hc]
  simp only [FU.set, Function.update_apply, Const, RL, hc, hd, hg, h7, clip_zero, mul_one, s3]
  simp [hg, t3, wst]
  simp [s1, s2, t1, t2]

theorem step24cfc {c : Cf} {k : ℕ → ℝ} (hk : IsCoupled c k) (h7 : k 7 = 0) (X : ℕ → ℝ) (n : ℕ) (u : FU)
    (h : Const k 2 u ∧ RC c k 0 1 X n u ∧ RC c k 3 4 (wout c X) n u) :
    (iir24cfc u (X n)).2 = wout c (wout c X) n ∧ (Const k 2 (iir24cfc u (X n)).1 ∧ RC c k 0 1 X (n + 1) (iir24cfc u (X n)).1 ∧
      RC c k 3 4 (wout c X) (n + 1) (iir24cfc u (X n)).1) := by
  obtain ⟨⟨hc, hd, hg⟩, ⟨h0, h1⟩, h2, h3⟩ := h
  obtain ⟨s1, s2, s3⟩ := coupled_step hk (wst c.a1 c.a2 X n).1 (wst c.a1 c.a2 X n).2 (X n)
  obtain ⟨t1, t2, t3⟩ := coupled_step hk (wst c.a1 c.a2 (wout c X) n).1 (wst c.a1 c.a2 (wout c X) n).2 (wout c X n)
  rw [← h0, ← h1] at s1 s2 s3
  rw [← h2, ← h3] at t1 t2 t3
  have hy : c.b0 * (X n - c.a1 * (wst c.a1 c.a2 X n).2 - c.a2 * (wst c.a1 c.a2 X n).1) + c.b1 * (wst c.a1 c.a2 X n).2
      + c.b2 * (wst c.a1 c.a2 X n).1 = wout c X n := by simp only [wout, wst]
  have hy2 : c.b0 * (wout c X n - c.a1 * (wst c.a1 c.a2 (wout c X) n).2 - c.a2 * (wst c.a1 c.a2 (wout c X) n).1) +
      c.b1 * (wst c.a1 c.a2 (wout c X) n).2 + c.b2 * (wst c.a1 c.a2 (wout c X) n).1 = wout c (wout c X) n := woutE c (wout c X) n
  rw [hy] at s1
  rw [hy2] at t1
  simp only [iir24cfc, adv_zero hd, adv_set4 hd, hc]
  simp only [FU.set, Function.update_apply, Const, RC, hc, hd, hg, h7, clip_zero, mul_one, s1, s2, s3]
  simp [hg, t1, wst]
  simp [s2, s3, t2, t3]

theorem step24cfl {c : Cf} {k : ℕ → ℝ} (hk : IsCoupled c k) {rs : ℝ → ℝ} (hrs : rs 1 = 1) (X : ℕ → ℝ) (n : ℕ) (u : FU)
    (h : Const k 2 u ∧ RC c k 0 1 X n u ∧ RC c k 3 4 (wout c X) n u) :
    (iir24cfl rs u (X n)).2 = wout c (wout c X) n ∧ (|wout c (wout c X) n| ≤ 1 / 2 →
      Const k 2 (iir24cfl rs u (X n)).1 ∧ RC c k 0 1 X (n + 1) (iir24cfl rs u (X n)).1 ∧
      RC c k 3 4 (wout c X) (n + 1) (iir24cfl rs u (X n)).1) := by
  obtain ⟨⟨hc, hd, hg⟩, ⟨h0, h1⟩, h2, h3⟩ := h
  obtain ⟨s1, s2, s3⟩ := coupled_step hk (wst c.a1 c.a2 X n).1 (wst c.a1 c.a2 X n).2 (X n)
  obtain ⟨t1, t2, t3⟩ := coupled_step hk (wst c.a1 c.a2 (wout c X) n).1 (wst c.a1 c.a2 (wout c X) n).2 (wout c X n)
  rw [← h0, ← h1] at s1 s2 s3
  rw [← h2, ← h3] at t1 t2 t3
  have hy : c.b0 * (X n - c.a1 * (wst c.a1 c.a2 X n).2 - c.a2 * (wst c.a1 c.a2 X n).1) + c.b1 * (wst c.a1 c.a2 X n).2
      + c.b2 * (wst c.a1 c.a2 X n).1 = wout c X n := by simp only [wout, wst]
  have hy2 : c.b0 * (wout c X n - c.a1 * (wst c.a1 c.a2 (wout c X) n).2 - c.a2 * (wst c.a1 c.a2 (wout c X) n).1) +
      c.b1 * (wst c.a1 c.a2 (wout c X) n).2 + c.b2 * (wst c.a1 c.a2 (wout c X) n).1 = wout c (wout c X) n := woutE c (wout c X) n
  rw [hy] at s1
  rw [hy2] at t1
  simp only [iir24cfl, adv_zero hd, adv_set4 hd, hc]
  simp only [FU.set, Function.update_apply, Const, RC, hc, hd, hg, mul_one, s1, s2, s3]
  simp [hg, s1, s2, s3, t1, t2, t3, wst]
  intro hl
  have := limit_one hrs (by simpa using hl)
  simpa using this

/-! ## C100 -/

/-- The register that holds the clip (or limiter) gain. -/
def Spec.gainReg : SubType → PoleType → ℕ
  | .smooth, .four => 4
  | _, _ => 2

/-- A unit with the given coefficients, no ramp, empty registers and the gain at one. -/
def Spec.ready (k : ℕ → ℝ) (s : SubType) (p : PoleType) : FU :=
  ⟨k, fun _ => 0, fun i => if i = Spec.gainReg s p then 1 else 0, 0⟩

/-- What a two-pole and a four-pole filter should do: solve the biquad's difference equation, once or twice in series. -/
def Spec.Answers (c : Cf) : PoleType → List ℝ → List ℝ → Prop
  | .two, xs, ys => Biquad.Spec.Solves 0 c xs ys
  | .four, xs, ys => ∃ mid, Biquad.Spec.Solves 0 c xs mid ∧ Biquad.Spec.Solves 0 c mid ys

theorem answers2 {c : Cf} {step : FU → ℝ → FU × ℝ} {u : FU} (xs : List ℝ) (P : ℝ → Prop) (R : (ℕ → ℝ) → ℕ → FU → Prop)
    (h0 : ∀ X, R X 0 u) (hstep : ∀ X n u, R X n u → (step u (X n)).2 = wout c X n ∧ (P (wout c X n) → R X (n + 1) (step u (X n)).1))
    (hP : ∀ y ∈ (run step u xs).2, P y) : Spec.Answers c .two xs (run step u xs).2 := by
  obtain ⟨l, g⟩ := run_inv P (fun k => xs.getD k 0) (wout c fun k => xs.getD k 0) (R _) (fun n u h => hstep _ n u h) xs 0 u
    (fun k _ => by simp) (h0 _) hP
  exact wout_solves c _ (fun _ _ => rfl) l (fun k hk => by simpa using g k hk)

theorem answers4 {c : Cf} {step : FU → ℝ → FU × ℝ} {u : FU} (xs : List ℝ) (P : ℝ → Prop) (R : (ℕ → ℝ) → ℕ → FU → Prop)
    (h0 : ∀ X, R X 0 u) (hstep : ∀ X n u, R X n u → (step u (X n)).2 = wout c (wout c X) n ∧
      (P (wout c (wout c X) n) → R X (n + 1) (step u (X n)).1))
    (hP : ∀ y ∈ (run step u xs).2, P y) : Spec.Answers c .four xs (run step u xs).2 := by
  obtain ⟨l, g⟩ := run_inv P (fun k => xs.getD k 0) (wout c (wout c fun k => xs.getD k 0)) (R _) (fun n u h => hstep _ n u h) xs 0 u
    (fun k _ => by simp) (h0 _) hP
  have gm : ∀ k < xs.length, ((List.range xs.length).map (wout c fun k => xs.getD k 0)).getD k 0 = wout c (fun k => xs.getD k 0) k :=
    fun k hk => by simp [List.getD, hk]
  refine ⟨(List.range xs.length).map (wout c fun k => xs.getD k 0), wout_solves c _ (fun _ _ => rfl) (by simp) gm, ?_⟩
  exact wout_solves c (wout c fun k => xs.getD k 0) (fun k hk => gm k (by simpa using hk)) (by simpa using l)
    (fun k hk => by simpa using g k (by simpa using hk))

theorem wst_zero (a1 a2 : ℝ) (X : ℕ → ℝ) : wst a1 a2 X 0 = (0, 0) := rfl

theorem lattice7 (f : Fc) (gain clip : ℝ) : f.lattice gain clip 7 = clip := rfl
theorem coupled7 (f : Fc) (gain clip : ℝ) : f.coupled gain clip 7 = clip := rfl

/-- C100: **every IIR filter computes its design**: for every type, subtype and number of poles the dispatch picks a routine which, with
the coefficients of any design, no clip gain and no ramp, solves the design's second-order difference equation (in series twice for
four poles) for every input. Smooth needs a stable design and rough and medium complex poles; medium needs the output to stay
within one half, below which its limiter is idle. Not covered: `f32` rounding. -/
theorem C100_biquad_partial (ty : IirType) (s : SubType) (p : PoleType) (hs : s ≠ .svf) (f : Fc) (gain : ℝ)
    (hst : s = .smooth → Biquad.Spec.Stable (Spec.biquad f gain)) (hcx : s ≠ .smooth → Spec.Complex (Spec.biquad f gain))
    {rs : ℝ → ℝ} (hrs : rs 1 = 1) :
    ∃ step, iirProcess rs ty s p = some step ∧ ∀ xs : List ℝ,
      (s = .medium → ∀ y ∈ (run step (Spec.ready (realise f gain 0 s) s p) xs).2, |y| ≤ 1 / 2) →
      Spec.Answers (Spec.biquad f gain) p xs (run step (Spec.ready (realise f gain 0 s) s p) xs).2 := by
  cases s
  · exact (hs rfl).elim
  · have k := coupled_ok (clip := 0) (hcx (by decide))
    cases p
    · refine ⟨iir12cfc, by cases ty <;> rfl, fun xs _ => ?_⟩
      refine answers2 xs (fun _ => True) (fun X n u => Const (f.coupled gain 0) 2 u ∧ RC (Spec.biquad f gain) (f.coupled gain 0) 0 1 X n u) (fun X => ⟨⟨rfl, rfl, rfl⟩, ?_⟩)
        (fun X n u h => ?_) (fun _ _ => trivial)
      · simp [RC, wst_zero, Spec.ready, Spec.gainReg]
      · have := step12cfc k rfl X n u h
        exact ⟨this.1, fun _ => this.2⟩
    · refine ⟨iir24cfc, by cases ty <;> rfl, fun xs _ => ?_⟩
      refine answers4 xs (fun _ => True) (fun X n u => Const (f.coupled gain 0) 2 u ∧ RC (Spec.biquad f gain) (f.coupled gain 0) 0 1 X n u ∧ RC (Spec.biquad f gain) (f.coupled gain 0) 3 4 (wout (Spec.biquad f gain) X) n u)
        (fun X => ⟨⟨rfl, rfl, rfl⟩, ?_⟩) (fun X n u h => ?_) (fun _ _ => trivial)
      · simp [RC, wst_zero, Spec.ready, Spec.gainReg]
      · have := step24cfc k rfl X n u h
        exact ⟨this.1, fun _ => this.2⟩
  · have k := lattice_ok (clip := 0) (hst rfl)
    cases p
    · refine ⟨iir12b, by cases ty <;> rfl, fun xs _ => ?_⟩
      refine answers2 xs (fun _ => True) (fun X n u => Const (f.lattice gain 0) 2 u ∧ RL (Spec.biquad f gain) (f.lattice gain 0) 0 1 X n u) (fun X => ⟨⟨rfl, rfl, rfl⟩, ?_⟩)
        (fun X n u h => ?_) (fun _ _ => trivial)
      · simp [RL, wst_zero, Spec.ready, Spec.gainReg]
      · have := step12b k rfl X n u h
        exact ⟨this.1, fun _ => this.2⟩
    · refine ⟨iir24b, by cases ty <;> rfl, fun xs _ => ?_⟩
      refine answers4 xs (fun _ => True) (fun X n u => Const (f.lattice gain 0) 4 u ∧ RL (Spec.biquad f gain) (f.lattice gain 0) 0 1 X n u ∧ RL (Spec.biquad f gain) (f.lattice gain 0) 2 3 (wout (Spec.biquad f gain) X) n u)
        (fun X => ⟨⟨rfl, rfl, rfl⟩, ?_⟩) (fun X n u h => ?_) (fun _ _ => trivial)
      · simp [RL, wst_zero, Spec.ready, Spec.gainReg]
      · have := step24b k rfl X n u h
        exact ⟨this.1, fun _ => this.2⟩
  · have k := coupled_ok (clip := 0) (hcx (by decide))
    cases p
    · refine ⟨iir12cfl rs, by cases ty <;> rfl, fun xs hy => ?_⟩
      refine answers2 xs (fun y => |y| ≤ 1 / 2) (fun X n u => Const (f.coupled gain 0) 2 u ∧ RC (Spec.biquad f gain) (f.coupled gain 0) 0 1 X n u) (fun X => ⟨⟨rfl, rfl, rfl⟩, ?_⟩)
        (fun X n u h => step12cfl k hrs X n u h) (hy rfl)
      simp [RC, wst_zero, Spec.ready, Spec.gainReg]
    · refine ⟨iir24cfl rs, by cases ty <;> rfl, fun xs hy => ?_⟩
      refine answers4 xs (fun y => |y| ≤ 1 / 2) (fun X n u => Const (f.coupled gain 0) 2 u ∧ RC (Spec.biquad f gain) (f.coupled gain 0) 0 1 X n u ∧ RC (Spec.biquad f gain) (f.coupled gain 0) 3 4 (wout (Spec.biquad f gain) X) n u)
        (fun X => ⟨⟨rfl, rfl, rfl⟩, ?_⟩) (fun X n u h => step24cfl k hrs X n u h) (hy rfl)
      simp [RC, wst_zero, Spec.ready, Spec.gainReg]

/-- C100: an IIR filter given the state-variable subtype (the default of `FilterSubType`'s other users) reaches `unreachable!()`. -/
theorem C100_svf_panics (rs : ℝ → ℝ) (ty : IirType) (p : PoleType) : iirProcess rs ty .svf p = none := by
  cases ty <;> cases p <;> rfl

/-- C100: **a fresh filter forgets its first sample** (rough and smooth, two poles): a unit with empty registers, gain register included,
answers the first sample with `b0 · x` and the rest as if nothing had been played. -/
theorem C100_fresh_forgets (f : Fc) (gain x : ℝ) (xs : List ℝ) :
    (run iir12cfc ⟨f.coupled gain 0, fun _ => 0, fun _ => 0, 0⟩ (x :: xs)).2 =
        (f.coupled gain 0 6 * x) :: (run iir12cfc (Spec.ready (f.coupled gain 0) .rough .two) xs).2 ∧
      ∃ y, (run iir12b ⟨f.lattice gain 0, fun _ => 0, fun _ => 0, 0⟩ (x :: xs)).2 =
        y :: (run iir12b (Spec.ready (f.lattice gain 0) .smooth .two) xs).2 := by
  have e1 : (iir12cfc ⟨f.coupled gain 0, fun _ => 0, fun _ => 0, 0⟩ x) = (Spec.ready (f.coupled gain 0) .rough .two, f.coupled gain 0 6 * x) := by
    simp only [iir12cfc, adv_zero, adv_set2]
    refine Prod.ext ?_ (by simp)
    simp only [Spec.ready, FU.set, Spec.gainReg, coupled7, clip_zero]
    congr 1
    funext i
    by_cases h2 : i = 2
    · subst h2; simp
    · by_cases h1 : i = 1
      · subst h1; simp
      · by_cases h0 : i = 0
        · subst h0; simp
        · simp [h2]
  have e2 : (iir12b ⟨f.lattice gain 0, fun _ => 0, fun _ => 0, 0⟩ x).1 = Spec.ready (f.lattice gain 0) .smooth .two := by
    simp only [iir12b, adv_zero, adv_set2]
    simp only [Spec.ready, FU.set, Spec.gainReg, lattice7, clip_zero]
    congr 1
    funext i
    by_cases h2 : i = 2
    · subst h2; simp
    · by_cases h1 : i = 1
      · subst h1; simp
      · by_cases h0 : i = 0
        · subst h0; simp
        · simp [h2]
  constructor
  · simp only [run, e1]
  · exact ⟨(iir12b ⟨f.lattice gain 0, fun _ => 0, fun _ => 0, 0⟩ x).2, by simp only [run, e2]⟩

/-- C100: **a fresh medium filter starts without its poles**: the gain register, which multiplies the poles, climbs from zero by a thousandth
per sample, so after `n` quiet samples it is `1 - 0.999ⁿ` (after a 64-sample block about 0.06). -/
theorem C100_fresh_medium {rs : ℝ → ℝ} (hrs : rs 1 = 1) (xs : List ℝ) : ∀ (u : FU) (n : ℕ), u.reg 2 = 1 - 0.999 ^ n →
    (∀ y ∈ (run (iir12cfl rs) u xs).2, |y| ≤ 1 / 2) → (run (iir12cfl rs) u xs).1.reg 2 = 1 - 0.999 ^ (n + xs.length) := by
  induction xs with
  | nil => intro u n h _; simpa [run] using h
  | cons x xs ih =>
    intro u n h hy
    have hy0 : |(iir12cfl rs u x).2| ≤ 1 / 2 := hy _ (by simp [run])
    have := ih (iir12cfl rs u x).1 (n + 1) ?_ (fun y hy' => hy y (by simp [run, hy']))
    · simp only [run, List.length_cons, this]
      congr 2; omega
    · have e : (iir12cfl rs u x).1.reg 2 = limitReg rs (u.reg 2) (iir12cfl rs u x).2 := by
        simp [iir12cfl, FU.set, FU.adv]
      rw [e, limitReg, h]
      have : max 1.0 (2.0 * |(iir12cfl rs u x).2|) = (1 : ℝ) := by norm_num; linarith
      rw [this, hrs, pow_succ]
      have : (0.001 : ℝ) = 1 - 0.999 := by norm_num
      rw [this]; ring

/-- The hypotheses of C100 hold of a real design: a low-pass with `α = 1/2` and `c = 0`. -/
example : Biquad.Spec.Stable (Spec.biquad (Fc.lowpass 0.5 0) 1) ∧ Spec.Complex (Spec.biquad (Fc.lowpass 0.5 0) 1) := by
  norm_num [Biquad.Spec.Stable, Spec.Complex, Spec.biquad, Biquad.Spec.normal, Fc.lowpass, abs_lt]

end Verif.Filters
