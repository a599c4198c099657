import Verif.Filters.Maker
/-!
# Rough and medium filters stay bounded under any modulation (C101)
-/
namespace Verif.Filters

theorem always_out {step : FU → ℝ → FU × ℝ} {P : FU → ℝ → Prop} {Inv : (ℕ → ℝ) → Prop} {A Q : ℝ → Prop}
    (hs : ∀ u x, P u x → A x → Inv u.reg → Inv (step u x).1.reg ∧ Q (step u x).2) (xs : List ℝ) : ∀ u : FU,
    Spec.Always step P u xs → (∀ x ∈ xs, A x) → Inv u.reg → Inv (run step u xs).1.reg ∧ ∀ y ∈ (run step u xs).2, Q y := by
  induction xs with
  | nil => intro u _ _ hi; exact ⟨hi, by simp [run]⟩
  | cons x xs ih =>
    intro u ha hx hi
    obtain ⟨g1, g2⟩ := hs u x ha.1 (hx x (by simp)) hi
    obtain ⟨i1, i2⟩ := ih _ ha.2 (fun y hy => hx y (by simp [hy])) g1
    refine ⟨i1, fun y hy => ?_⟩
    rcases List.mem_cons.1 hy with rfl | hy
    · exact g2
    · exact i2 y hy

theorem life_out {step : FU → ℝ → FU × ℝ} {P : FU → ℝ → Prop} {Inv : (ℕ → ℝ) → Prop} {A Q : ℝ → Prop}
    (hs : ∀ u x, P u x → A x → Inv u.reg → Inv (step u x).1.reg ∧ Q (step u x).2) (stage : ℤ) (bs : List ((ℕ → ℝ) × List ℝ)) :
    ∀ (m : Maker) (reg : ℕ → ℝ), Spec.LifeAlways step P stage m reg bs → (∀ b ∈ bs, ∀ x ∈ b.2, A x) → Inv reg →
      Inv (life step stage m reg bs).2.1 ∧ ∀ y ∈ (life step stage m reg bs).2.2, Q y := by
  induction bs with
  | nil => intro m reg _ _ hi; exact ⟨hi, by simp [life]⟩
  | cons b bs ih =>
    intro m reg ha hx hi
    obtain ⟨g1, g2⟩ := always_out hs b.2 _ ha.1 (hx b (by simp)) hi
    obtain ⟨i1, i2⟩ := ih _ _ ha.2 (fun c hc => hx c (by simp [hc])) g1
    refine ⟨i1, fun y hy => ?_⟩
    simp only [life, List.mem_append] at hy
    rcases hy with hy | hy
    · exact g2 y hy
    · exact i2 y hy

/-- The coefficient sets under consideration: poles of radius at most `ρ`, other gains at most `G`, input gain at most one, clip gain
not negative. -/
def Spec.tame (ρ G : ℝ) : Set (ℕ → ℝ) :=
  {v | v 0 ^ 2 + v 1 ^ 2 ≤ ρ ^ 2 ∧ |v 2| ≤ 1 ∧ |v 4| ≤ G ∧ |v 5| ≤ G ∧ |v 6| ≤ G ∧ 0 ≤ v 7}

theorem abs_mix {a b x y G : ℝ} (ha : 0 ≤ a) (hb : 0 ≤ b) (hab : a + b = 1) (hx : |x| ≤ G) (hy : |y| ≤ G) : |a * x + b * y| ≤ G := by
  rw [abs_le] at *
  constructor <;> nlinarith [mul_le_mul_of_nonneg_left hx.1 ha, mul_le_mul_of_nonneg_left hy.1 hb, mul_le_mul_of_nonneg_left hx.2 ha,
    mul_le_mul_of_nonneg_left hy.2 hb]

theorem disc_mix {a b x y u v r : ℝ} (ha : 0 ≤ a) (hb : 0 ≤ b) (hab : a + b = 1) (hx : x ^ 2 + y ^ 2 ≤ r) (hy : u ^ 2 + v ^ 2 ≤ r) :
    (a * x + b * u) ^ 2 + (a * y + b * v) ^ 2 ≤ r := by
  have e : b = 1 - a := by linarith
  subst e
  nlinarith [mul_nonneg (mul_nonneg ha hb) (add_nonneg (sq_nonneg (x - u)) (sq_nonneg (y - v))), mul_le_mul_of_nonneg_left hx ha,
    mul_le_mul_of_nonneg_left hy hb]

theorem tame_convex (ρ G : ℝ) : Convex ℝ (Spec.tame ρ G) := by
  intro v hv w hw a b ha hb hab
  obtain ⟨h1, h2, h3, h4, h5, h6⟩ := hv
  obtain ⟨k1, k2, k3, k4, k5, k6⟩ := hw
  exact ⟨disc_mix ha hb hab h1 k1, abs_mix ha hb hab h2 k2, abs_mix ha hb hab h3 k3, abs_mix ha hb hab h4 k4, abs_mix ha hb hab h5 k5,
    add_nonneg (mul_nonneg ha h6) (mul_nonneg hb k6)⟩

theorem tame_zero (ρ : ℝ) {G : ℝ} (hG : 0 ≤ G) : (fun _ => 0) ∈ Spec.tame ρ G := by
  refine ⟨?_, ?_, ?_, ?_, ?_, le_rfl⟩ <;> simp [hG]
  positivity

theorem clip_unit {c y : ℝ} (h : 0 ≤ c) : 0 ≤ clipReg c y ∧ clipReg c y ≤ 1 := by
  unfold clipReg
  have := mul_nonneg h (mul_self_nonneg y)
  constructor
  · exact le_max_of_le_left (by norm_num)
  · refine max_le (by norm_num) ?_
    norm_num
    exact this

/-- The state of a section has norm at most `B`. -/
def Bd (i j : ℕ) (B : ℝ) (r : ℕ → ℝ) : Prop := r i ^ 2 + r j ^ 2 ≤ B ^ 2

theorem section_bound {ar ai b x r0 r1 g ρ M B : ℝ} (hρ : 0 ≤ ρ) (hp : ar ^ 2 + ai ^ 2 ≤ ρ ^ 2) (hb : |b| ≤ 1) (hx : |x| ≤ M) (hB : 0 ≤ B)
    (hr : r0 ^ 2 + r1 ^ 2 ≤ B ^ 2) (hg0 : 0 ≤ g) (hg1 : g ≤ 1) (hM : ρ * B + M ≤ B) :
    ((x * b + (ar * r0 - ai * r1)) * g) ^ 2 + ((ai * r0 + ar * r1) * g) ^ 2 ≤ B ^ 2 := by
  have M0 : 0 ≤ M := (abs_nonneg x).trans hx
  have xb : |x * b| ≤ M := by
    rw [abs_mul]; calc _ ≤ M * 1 := mul_le_mul hx hb (abs_nonneg _) M0
      _ = M := mul_one M
  set p := ar * r0 - ai * r1 with hp'
  set q := ai * r0 + ar * r1 with hq'
  have e : p ^ 2 + q ^ 2 = (ar ^ 2 + ai ^ 2) * (r0 ^ 2 + r1 ^ 2) := by rw [hp', hq']; ring
  have n1 : p ^ 2 + q ^ 2 ≤ (ρ * B) ^ 2 := by
    rw [e, mul_pow]; exact mul_le_mul hp hr (by positivity) (by positivity)
  have hpB : |p| ≤ ρ * B := abs_le_of_sq_le_sq (by nlinarith [sq_nonneg q]) (by positivity)
  have cross : 2 * (x * b) * p ≤ 2 * M * (ρ * B) := by
    have : (x * b) * p ≤ |x * b| * |p| := by rw [← abs_mul]; exact le_abs_self _
    have h2 := mul_le_mul xb hpB (abs_nonneg _) M0
    linarith
  have xb2 : (x * b) ^ 2 ≤ M ^ 2 := by
    rw [← sq_abs]; exact pow_le_pow_left₀ (abs_nonneg _) xb 2
  have tot : (x * b + p) ^ 2 + q ^ 2 ≤ B ^ 2 := by
    have : (ρ * B + M) ^ 2 ≤ B ^ 2 := pow_le_pow_left₀ (by positivity) hM 2
    nlinarith
  have g2 : g ^ 2 ≤ 1 := pow_le_one₀ hg0 hg1
  calc _ = g ^ 2 * ((x * b + p) ^ 2 + q ^ 2) := by ring
    _ ≤ 1 * ((x * b + p) ^ 2 + q ^ 2) := mul_le_mul_of_nonneg_right g2 (by positivity)
    _ ≤ B ^ 2 := by linarith

theorem out_bound {c4 c5 c6 x r0 r1 M B G : ℝ} (h4 : |c4| ≤ G) (h5 : |c5| ≤ G) (h6 : |c6| ≤ G) (hx : |x| ≤ M) (hB : 0 ≤ B)
    (hr : r0 ^ 2 + r1 ^ 2 ≤ B ^ 2) : |c4 * r0 + c6 * x + c5 * r1| ≤ G * (2 * B + M) := by
  have G0 : 0 ≤ G := (abs_nonneg _).trans h4
  have a0 : |r0| ≤ B := abs_le_of_sq_le_sq (by nlinarith [sq_nonneg r1]) hB
  have a1 : |r1| ≤ B := abs_le_of_sq_le_sq (by nlinarith [sq_nonneg r0]) hB
  have k1 : |c4 * r0| ≤ G * B := by rw [abs_mul]; exact mul_le_mul h4 a0 (abs_nonneg _) G0
  have k2 : |c5 * r1| ≤ G * B := by rw [abs_mul]; exact mul_le_mul h5 a1 (abs_nonneg _) G0
  have k3 : |c6 * x| ≤ G * M := by rw [abs_mul]; exact mul_le_mul h6 hx (abs_nonneg _) G0
  have := abs_add_le (c4 * r0 + c6 * x) (c5 * r1)
  have := abs_add_le (c4 * r0) (c6 * x)
  linarith

/-- The bound on the state, and on the output of a section. -/
noncomputable def Spec.stateBound (ρ M : ℝ) : ℝ := M / (1 - ρ)
noncomputable def Spec.outBound (ρ G M : ℝ) : ℝ := G * (2 * Spec.stateBound ρ M + M)

theorem state_fix {ρ M : ℝ} (h : ρ < 1) : ρ * Spec.stateBound ρ M + M ≤ Spec.stateBound ρ M := by
  unfold Spec.stateBound
  have : 0 < 1 - ρ := by linarith
  have e : M / (1 - ρ) - ρ * (M / (1 - ρ)) = M := by field_simp
  linarith

theorem state_nonneg {ρ M : ℝ} (h : ρ < 1) (hM : 0 ≤ M) : 0 ≤ Spec.stateBound ρ M := div_nonneg hM (by linarith)

theorem tame_within {ρ G : ℝ} {is : List ℕ} {c : ℕ → ℝ} (h : Spec.Within (Spec.tame ρ G) is c)
    (h0 : 0 ∈ is) (h1 : 1 ∈ is) (h2 : 2 ∈ is) (h4 : 4 ∈ is) (h5 : 5 ∈ is) (h6 : 6 ∈ is) :
    c 0 ^ 2 + c 1 ^ 2 ≤ ρ ^ 2 ∧ |c 2| ≤ 1 ∧ |c 4| ≤ G ∧ |c 5| ≤ G ∧ |c 6| ≤ G ∧ (7 ∈ is → 0 ≤ c 7) := by
  obtain ⟨v, hv, ev⟩ := h
  rw [ev 0 h0, ev 1 h1, ev 2 h2, ev 4 h4, ev 5 h5, ev 6 h6]
  obtain ⟨a, b, c, d, e, f⟩ := hv
  exact ⟨a, b, c, d, e, fun h7 => by rw [ev 7 h7]; exact f⟩

section
variable {ρ G M : ℝ} (hρ : 0 ≤ ρ) (hρ1 : ρ < 1)
include hρ hρ1

theorem bound12cfc (u : FU) (x : ℝ) (hP : Spec.Within (Spec.tame ρ G) [0, 1, 2, 4, 5, 6, 7] (iir12cfc u x).1.coeff) (hx : |x| ≤ M)
    (hi : Bd 0 1 (Spec.stateBound ρ M) u.reg ∧ 0 ≤ u.reg 2 ∧ u.reg 2 ≤ 1) :
    (Bd 0 1 (Spec.stateBound ρ M) (iir12cfc u x).1.reg ∧ 0 ≤ (iir12cfc u x).1.reg 2 ∧ (iir12cfc u x).1.reg 2 ≤ 1) ∧
      |(iir12cfc u x).2| ≤ Spec.outBound ρ G M := by
  have M0 : 0 ≤ M := (abs_nonneg x).trans hx
  obtain ⟨t1, t2, t4, t5, t6, t7⟩ := tame_within hP (by simp) (by simp) (by simp) (by simp) (by simp) (by simp)
  have t7 := t7 (by simp)
  obtain ⟨hb, g0, g1⟩ := hi
  have B0 := state_nonneg hρ1 M0
  have s := section_bound hρ t1 t2 hx B0 hb g0 g1 (state_fix hρ1)
  have o := out_bound t4 t5 t6 hx B0 hb
  have c := fun y => clip_unit (c := (iir12cfc u x).1.coeff 7) (y := y) t7
  simp only [iir12cfc, FU.set, FU.adv, List.mem_cons, List.not_mem_nil, or_false] at s o c ⊢
  norm_num at s o c ⊢
  refine ⟨⟨?_, ?_, ?_⟩, ?_⟩
  · simpa [Bd, Function.update_apply] using s
  · simpa using (c _).1
  · simpa using (c _).2
  · exact o

theorem bound12cfl {rs : ℝ → ℝ} (hrs : ∀ z, 1 ≤ z → 0 ≤ rs z ∧ rs z ≤ 1) (u : FU) (x : ℝ)
    (hP : Spec.Within (Spec.tame ρ G) [0, 1, 2, 4, 5, 6] (iir12cfl rs u x).1.coeff) (hx : |x| ≤ M)
    (hi : Bd 0 1 (Spec.stateBound ρ M) u.reg ∧ 0 ≤ u.reg 2 ∧ u.reg 2 ≤ 1) :
    (Bd 0 1 (Spec.stateBound ρ M) (iir12cfl rs u x).1.reg ∧ 0 ≤ (iir12cfl rs u x).1.reg 2 ∧ (iir12cfl rs u x).1.reg 2 ≤ 1) ∧
      |(iir12cfl rs u x).2| ≤ Spec.outBound ρ G M := by
  have M0 : 0 ≤ M := (abs_nonneg x).trans hx
  obtain ⟨t1, t2, t4, t5, t6, -⟩ := tame_within hP (by simp) (by simp) (by simp) (by simp) (by simp) (by simp)
  obtain ⟨hb, g0, g1⟩ := hi
  have B0 := state_nonneg hρ1 M0
  have t1' : ((iir12cfl rs u x).1.coeff 0 * u.reg 2) ^ 2 + ((iir12cfl rs u x).1.coeff 1 * u.reg 2) ^ 2 ≤ ρ ^ 2 := by
    have g2 : u.reg 2 ^ 2 ≤ 1 := pow_le_one₀ g0 g1
    calc _ = u.reg 2 ^ 2 * ((iir12cfl rs u x).1.coeff 0 ^ 2 + (iir12cfl rs u x).1.coeff 1 ^ 2) := by ring
      _ ≤ 1 * ((iir12cfl rs u x).1.coeff 0 ^ 2 + (iir12cfl rs u x).1.coeff 1 ^ 2) := mul_le_mul_of_nonneg_right g2 (by positivity)
      _ ≤ _ := by linarith
  have s := section_bound hρ t1' t2 hx B0 hb zero_le_one le_rfl (state_fix hρ1)
  have o := out_bound t4 t5 t6 hx B0 hb
  have l : ∀ y, 0 ≤ limitReg rs (u.reg 2) y ∧ limitReg rs (u.reg 2) y ≤ 1 := by
    intro y
    unfold limitReg
    obtain ⟨r0, r1⟩ := hrs (max 1.0 (2.0 * |y|)) (le_trans (by norm_num) (le_max_left _ _))
    constructor
    · positivity
    · linarith
  simp only [iir12cfl, FU.set, FU.adv, List.mem_cons, List.not_mem_nil, or_false] at s o ⊢
  norm_num at s o ⊢
  refine ⟨⟨?_, ?_, ?_⟩, ?_⟩
  · simpa [Bd, Function.update_apply] using s
  · simpa using (l _).1
  · simpa using (l _).2
  · exact o

theorem bound24cfc (u : FU) (x : ℝ) (hP : Spec.Within (Spec.tame ρ G) [0, 1, 2, 4, 5, 6, 7] (iir24cfc u x).1.coeff) (hx : |x| ≤ M)
    (hi : Bd 0 1 (Spec.stateBound ρ M) u.reg ∧ Bd 3 4 (Spec.stateBound ρ (Spec.outBound ρ G M)) u.reg ∧ 0 ≤ u.reg 2 ∧ u.reg 2 ≤ 1) :
    (Bd 0 1 (Spec.stateBound ρ M) (iir24cfc u x).1.reg ∧ Bd 3 4 (Spec.stateBound ρ (Spec.outBound ρ G M)) (iir24cfc u x).1.reg ∧
      0 ≤ (iir24cfc u x).1.reg 2 ∧ (iir24cfc u x).1.reg 2 ≤ 1) ∧ |(iir24cfc u x).2| ≤ Spec.outBound ρ G (Spec.outBound ρ G M) := by
  have M0 : 0 ≤ M := (abs_nonneg x).trans hx
  obtain ⟨t1, t2, t4, t5, t6, t7⟩ := tame_within hP (by simp) (by simp) (by simp) (by simp) (by simp) (by simp)
  have t7 := t7 (by simp)
  obtain ⟨hb, hb2, g0, g1⟩ := hi
  have B0 := state_nonneg hρ1 M0
  have s := section_bound hρ t1 t2 hx B0 hb g0 g1 (state_fix hρ1)
  have o := out_bound t4 t5 t6 hx B0 hb
  have M20 := (abs_nonneg _).trans o
  have B20 := state_nonneg hρ1 M20
  have s2 := section_bound hρ t1 t2 o B20 hb2 g0 g1 (state_fix hρ1)
  have o2 := out_bound t4 t5 t6 o B20 hb2
  have c := fun y => clip_unit (c := (iir24cfc u x).1.coeff 7) (y := y) t7
  simp only [iir24cfc, FU.set, FU.adv, List.mem_cons, List.not_mem_nil, or_false] at s o s2 o2 c ⊢
  norm_num at s o s2 o2 c ⊢
  refine ⟨⟨?_, ?_, ?_, ?_⟩, ?_⟩
  · simpa [Bd, Function.update_apply] using s
  · simpa [Bd, Function.update_apply, Spec.outBound] using s2
  · simpa using (c _).1
  · simpa using (c _).2
  · simpa [Spec.outBound] using o2

theorem bound24cfl {rs : ℝ → ℝ} (hrs : ∀ z, 1 ≤ z → 0 ≤ rs z ∧ rs z ≤ 1) (u : FU) (x : ℝ)
    (hP : Spec.Within (Spec.tame ρ G) [0, 1, 2, 4, 5, 6] (iir24cfl rs u x).1.coeff) (hx : |x| ≤ M)
    (hi : Bd 0 1 (Spec.stateBound ρ M) u.reg ∧ Bd 3 4 (Spec.stateBound ρ (Spec.outBound ρ G M)) u.reg ∧ 0 ≤ u.reg 2 ∧ u.reg 2 ≤ 1) :
    (Bd 0 1 (Spec.stateBound ρ M) (iir24cfl rs u x).1.reg ∧ Bd 3 4 (Spec.stateBound ρ (Spec.outBound ρ G M)) (iir24cfl rs u x).1.reg ∧
      0 ≤ (iir24cfl rs u x).1.reg 2 ∧ (iir24cfl rs u x).1.reg 2 ≤ 1) ∧
      |(iir24cfl rs u x).2| ≤ Spec.outBound ρ G (Spec.outBound ρ G M) := by
  have M0 : 0 ≤ M := (abs_nonneg x).trans hx
  obtain ⟨t1, t2, t4, t5, t6, -⟩ := tame_within hP (by simp) (by simp) (by simp) (by simp) (by simp) (by simp)
  obtain ⟨hb, hb2, g0, g1⟩ := hi
  have B0 := state_nonneg hρ1 M0
  have t1' : ((iir24cfl rs u x).1.coeff 0 * u.reg 2) ^ 2 + ((iir24cfl rs u x).1.coeff 1 * u.reg 2) ^ 2 ≤ ρ ^ 2 := by
    have g2 : u.reg 2 ^ 2 ≤ 1 := pow_le_one₀ g0 g1
    calc _ = u.reg 2 ^ 2 * ((iir24cfl rs u x).1.coeff 0 ^ 2 + (iir24cfl rs u x).1.coeff 1 ^ 2) := by ring
      _ ≤ 1 * ((iir24cfl rs u x).1.coeff 0 ^ 2 + (iir24cfl rs u x).1.coeff 1 ^ 2) := mul_le_mul_of_nonneg_right g2 (by positivity)
      _ ≤ _ := by linarith
  have s := section_bound hρ t1' t2 hx B0 hb zero_le_one le_rfl (state_fix hρ1)
  have o := out_bound t4 t5 t6 hx B0 hb
  have M20 := (abs_nonneg _).trans o
  have B20 := state_nonneg hρ1 M20
  have s2 := section_bound hρ t1' t2 o B20 hb2 zero_le_one le_rfl (state_fix hρ1)
  have o2 := out_bound t4 t5 t6 o B20 hb2
  have l : ∀ y, 0 ≤ limitReg rs (u.reg 2) y ∧ limitReg rs (u.reg 2) y ≤ 1 := by
    intro y
    unfold limitReg
    obtain ⟨r0, r1⟩ := hrs (max 1.0 (2.0 * |y|)) (le_trans (by norm_num) (le_max_left _ _))
    constructor
    · positivity
    · linarith
  simp only [iir24cfl, FU.set, FU.adv, List.mem_cons, List.not_mem_nil, or_false] at s o s2 o2 ⊢
  norm_num at s o s2 o2 ⊢
  refine ⟨⟨?_, ?_, ?_, ?_⟩, ?_⟩
  · simpa [Bd, Function.update_apply] using s
  · simpa [Bd, Function.update_apply, Spec.outBound] using s2
  · simpa using (l _).1
  · simpa using (l _).2
  · simpa [Spec.outBound] using o2

end

/-- The bound on a whole filter's output. -/
noncomputable def Spec.filterBound (ρ G M : ℝ) : PoleType → ℝ
  | .two => Spec.outBound ρ G M
  | .four => Spec.outBound ρ G (Spec.outBound ρ G M)

/-- C101: **bounded under any modulation**: a rough or medium filter of any type and order, over a whole life of blocks with wanted
coefficients changing arbitrarily from block to block, never exceeds a bound that depends only on the largest input `M`, the largest
pole radius `ρ < 1` and the largest output gain `G` wanted; however many blocks. `rs` is the reciprocal square root instruction.
Not covered: smooth filters, designs with poles on or outside the unit circle, `f32` rounding. -/
theorem C101_bounded_partial (ty : IirType) (s : SubType) (p : PoleType) (hs : s = .rough ∨ s = .medium) {rs : ℝ → ℝ}
    (hrs : ∀ z, 1 ≤ z → 0 ≤ rs z ∧ rs z ≤ 1) {ρ G M : ℝ} (hρ : 0 ≤ ρ) (hρ1 : ρ < 1) (hG : 0 ≤ G) (hM : 0 ≤ M) (stage : ℤ)
    (bs : List ((ℕ → ℝ) × List ℝ)) (hb : ∀ b ∈ bs, b.1 ∈ Spec.tame ρ G ∧ b.2.length = 64 ∧ ∀ x ∈ b.2, |x| ≤ M) :
    ∃ step, iirProcess rs ty s p = some step ∧
      ∀ y ∈ (life step stage Maker.new (fun _ => 0) bs).2.2, |y| ≤ Spec.filterBound ρ G M p := by
  obtain ⟨a1, -, a3, a4, -, a6⟩ := C104_advances
  have B0 := state_nonneg hρ1 hM
  have i1 : Bd 0 1 (Spec.stateBound ρ M) (fun _ => 0) := by unfold Bd; norm_num; positivity
  have i2 : Bd 3 4 (Spec.stateBound ρ (Spec.outBound ρ G M)) (fun _ => 0) := by unfold Bd; norm_num; positivity
  have hul := fun {step is} (h : Spec.Advances step is) => C104_hull h (tame_convex ρ G) (tame_zero ρ hG) stage (fun _ => 0) bs
    (fun b h => ⟨(hb b h).1, (hb b h).2.1⟩)
  have hx : ∀ b ∈ bs, ∀ x ∈ b.2, |x| ≤ M := fun b h => (hb b h).2.2
  rcases hs with rfl | rfl <;> cases p
  · refine ⟨iir12cfc, by cases ty <;> rfl, ?_⟩
    exact (life_out (A := fun x => |x| ≤ M) (Q := fun y => |y| ≤ Spec.filterBound ρ G M .two)
      (Inv := (fun r => Bd 0 1 (Spec.stateBound ρ M) r ∧ 0 ≤ r 2 ∧ r 2 ≤ 1))
      (fun u x hP hx hi => bound12cfc hρ hρ1 u x hP.2 hx hi) stage bs _ _ (hul a1) hx
      ⟨i1, le_rfl, zero_le_one⟩).2
  · refine ⟨iir24cfc, by cases ty <;> rfl, ?_⟩
    exact (life_out (A := fun x => |x| ≤ M) (Q := fun y => |y| ≤ Spec.filterBound ρ G M .four)
      (Inv := (fun r => Bd 0 1 (Spec.stateBound ρ M) r ∧ Bd 3 4 (Spec.stateBound ρ (Spec.outBound ρ G M)) r ∧ 0 ≤ r 2 ∧ r 2 ≤ 1))
      (fun u x hP hx hi => bound24cfc hρ hρ1 u x hP.2 hx hi) stage bs _ _ (hul a4) hx
      ⟨i1, i2, le_rfl, zero_le_one⟩).2
  · refine ⟨iir12cfl rs, by cases ty <;> rfl, ?_⟩
    exact (life_out (A := fun x => |x| ≤ M) (Q := fun y => |y| ≤ Spec.filterBound ρ G M .two)
      (Inv := (fun r => Bd 0 1 (Spec.stateBound ρ M) r ∧ 0 ≤ r 2 ∧ r 2 ≤ 1))
      (fun u x hP hx hi => bound12cfl hρ hρ1 hrs u x hP.2 hx hi) stage bs _ _ (hul (a3 rs)) hx
      ⟨i1, le_rfl, zero_le_one⟩).2
  · refine ⟨iir24cfl rs, by cases ty <;> rfl, ?_⟩
    exact (life_out (A := fun x => |x| ≤ M) (Q := fun y => |y| ≤ Spec.filterBound ρ G M .four)
      (Inv := (fun r => Bd 0 1 (Spec.stateBound ρ M) r ∧ Bd 3 4 (Spec.stateBound ρ (Spec.outBound ρ G M)) r ∧ 0 ≤ r 2 ∧ r 2 ≤ 1))
      (fun u x hP hx hi => bound24cfl hρ hρ1 hrs u x hP.2 hx hi) stage bs _ _ (hul (a6 rs)) hx
      ⟨i1, i2, le_rfl, zero_le_one⟩).2

/-! ### Small signals -/

theorem norm_pair {a b B : ℝ} (hB : 0 ≤ B) (h : a ^ 2 + b ^ 2 ≤ B ^ 2) : ‖(⟨a, b⟩ : ℂ)‖ ≤ B := by
  refine abs_le_of_sq_le_sq' ?_ hB |>.2
  rw [← Complex.normSq_eq_norm_sq, Complex.normSq_apply]; simpa [sq] using h

/-- The two states as complex numbers, and how far apart they are. -/
theorem diff_step {ar ai b x r0 r1 q0 q1 g ρ B D E : ℝ} (hB : 0 ≤ B) (hp : ar ^ 2 + ai ^ 2 ≤ ρ ^ 2) (hρ : 0 ≤ ρ)
    (hs : (x * b + (ar * r0 - ai * r1)) ^ 2 + (ai * r0 + ar * r1) ^ 2 ≤ B ^ 2) (hg : |1 - g| ≤ D) (hd : ‖(⟨r0 - q0, r1 - q1⟩ : ℂ)‖ ≤ E)
    (hE : ρ * E + D * B ≤ E) :
    ‖(⟨(x * b + (ar * r0 - ai * r1)) * g - (x * b + (ar * q0 - ai * q1)), (ai * r0 + ar * r1) * g - (ai * q0 + ar * q1)⟩ : ℂ)‖ ≤ E := by
  have e : (⟨(x * b + (ar * r0 - ai * r1)) * g - (x * b + (ar * q0 - ai * q1)), (ai * r0 + ar * r1) * g - (ai * q0 + ar * q1)⟩ : ℂ) =
      ⟨ar, ai⟩ * ⟨r0 - q0, r1 - q1⟩ - ((1 - g : ℝ) : ℂ) * ⟨x * b + (ar * r0 - ai * r1), ai * r0 + ar * r1⟩ := by
    apply Complex.ext
    · simp; ring
    · simp; ring
  rw [e]
  refine (norm_sub_le _ _).trans ?_
  rw [norm_mul, norm_mul, Complex.norm_real, Real.norm_eq_abs]
  have h1 := norm_pair hρ hp
  have h2 := norm_pair hB hs
  have D0 : 0 ≤ D := (abs_nonneg _).trans hg
  have := mul_le_mul h1 hd (norm_nonneg _) hρ
  have := mul_le_mul hg h2 (norm_nonneg _) D0
  linarith

theorem small_run {c : ℕ → ℝ} {ρ G M : ℝ} (hρ : 0 ≤ ρ) (hρ1 : ρ < 1) (hM : 0 ≤ M) (hc : c ∈ Spec.tame ρ G) (xs : List ℝ) :
    ∀ (u v : FU), (∀ x ∈ xs, |x| ≤ M) → u.coeff = c → u.dcoeff = (fun _ => 0) → v.coeff = (fun i => if i = 7 then 0 else c i) →
      v.dcoeff = (fun _ => 0) → v.reg 2 = 1 → Bd 0 1 (Spec.stateBound ρ M) u.reg →
      1 - c 7 * Spec.outBound ρ G M ^ 2 ≤ u.reg 2 → 0 ≤ u.reg 2 → u.reg 2 ≤ 1 →
      ‖(⟨u.reg 0 - v.reg 0, u.reg 1 - v.reg 1⟩ : ℂ)‖ ≤ Spec.stateBound ρ (c 7 * Spec.outBound ρ G M ^ 2 * Spec.stateBound ρ M) →
      ∀ n < xs.length, |(run iir12cfc u xs).2.getD n 0 - (run iir12cfc v xs).2.getD n 0| ≤
        2 * G * Spec.stateBound ρ (c 7 * Spec.outBound ρ G M ^ 2 * Spec.stateBound ρ M) := by
  induction xs with
  | nil => intro u v _ _ _ _ _ _ _ _ _ _ _ n hn; exact absurd hn (by simp)
  | cons x xs ih =>
    intro u v hx uc ud vc vd v2 hb g0 g1 g2 hd n hn
    have hcc := hc
    obtain ⟨t1, t2, t4, t5, t6, t7⟩ := hcc
    have B0 := state_nonneg hρ1 hM
    have x0 := hx x (by simp)
    have s := section_bound hρ t1 t2 x0 B0 hb zero_le_one le_rfl (state_fix hρ1)
    simp only [mul_one] at s
    have y := out_bound t4 t5 t6 x0 B0 hb
    have hg : |1 - u.reg 2| ≤ c 7 * Spec.outBound ρ G M ^ 2 := by rw [abs_le]; constructor <;> nlinarith [sq_nonneg (Spec.outBound ρ G M)]
    have dn := diff_step (b := c 2) (x := x) (q0 := v.reg 0) (q1 := v.reg 1) B0 t1 hρ s hg hd (state_fix hρ1)
    set E := Spec.stateBound ρ (c 7 * Spec.outBound ρ G M ^ 2 * Spec.stateBound ρ M) with hE
    have eu : iir12cfc u x = ((((u.set 0 ((x * c 2 + (c 0 * u.reg 0 - c 1 * u.reg 1)) * u.reg 2)).set 1
        ((c 1 * u.reg 0 + c 0 * u.reg 1) * u.reg 2)).set 2 (clipReg (c 7) (c 4 * u.reg 0 + c 6 * x + c 5 * u.reg 1))),
        c 4 * u.reg 0 + c 6 * x + c 5 * u.reg 1) := by
      simp only [iir12cfc, adv_zero ud, adv_set2 ud, uc]
      simp [FU.set, uc]
    have ev : iir12cfc v x = ((((v.set 0 (x * c 2 + (c 0 * v.reg 0 - c 1 * v.reg 1))).set 1
        (c 1 * v.reg 0 + c 0 * v.reg 1)).set 2 1), c 4 * v.reg 0 + c 6 * x + c 5 * v.reg 1) := by
      simp only [iir12cfc, adv_zero vd, adv_set2 vd, vc]
      simp [FU.set, v2, vc, clip_zero]
    have hy : |c 4 * u.reg 0 + c 6 * x + c 5 * u.reg 1| ≤ Spec.outBound ρ G M := y
    cases n with
    | zero =>
      simp only [run, eu, ev, List.getD_cons_zero]
      have G0 : 0 ≤ G := (abs_nonneg _).trans t4
      have d0 := (Complex.abs_re_le_norm (⟨u.reg 0 - v.reg 0, u.reg 1 - v.reg 1⟩ : ℂ)).trans hd
      have d1 := (Complex.abs_im_le_norm (⟨u.reg 0 - v.reg 0, u.reg 1 - v.reg 1⟩ : ℂ)).trans hd
      simp only at d0 d1
      have e : c 4 * u.reg 0 + c 6 * x + c 5 * u.reg 1 - (c 4 * v.reg 0 + c 6 * x + c 5 * v.reg 1) =
          c 4 * (u.reg 0 - v.reg 0) + c 5 * (u.reg 1 - v.reg 1) := by ring
      rw [e]
      refine (abs_add_le _ _).trans ?_
      rw [abs_mul, abs_mul]
      have := mul_le_mul t4 d0 (abs_nonneg _) G0
      have := mul_le_mul t5 d1 (abs_nonneg _) G0
      linarith
    | succ n =>
      simp only [run, List.getD_cons_succ]
      have cu := clip_unit (y := c 4 * u.reg 0 + c 6 * x + c 5 * u.reg 1) t7
      refine ih _ _ (fun z hz => hx z (by simp [hz])) ?_ ?_ ?_ ?_ ?_ ?_ ?_ ?_ ?_ ?_ n (by simpa using hn)
      · rw [eu]; exact uc
      · rw [eu]; exact ud
      · rw [ev]; exact vc
      · rw [ev]; exact vd
      · rw [ev]; simp [FU.set]
      · have := section_bound hρ t1 t2 x0 B0 hb g1 g2 (state_fix hρ1)
        rw [eu]; simpa [Bd, FU.set, Function.update_apply] using this
      · rw [eu]
        simp only [FU.set, Function.update_self]
        refine le_trans ?_ (le_max_right _ _)
        have : (c 4 * u.reg 0 + c 6 * x + c 5 * u.reg 1) * (c 4 * u.reg 0 + c 6 * x + c 5 * u.reg 1) ≤ Spec.outBound ρ G M ^ 2 := by
          rw [← sq, ← sq_abs]; exact pow_le_pow_left₀ (abs_nonneg _) hy 2
        have := mul_le_mul_of_nonneg_left this t7
        norm_num
        linarith
      · rw [eu]; simpa [FU.set] using cu.1
      · rw [eu]; simpa [FU.set] using cu.2
      · rw [eu, ev]
        simpa [FU.set, Function.update_apply] using dn

/-- C101: **the clip gain is a third-order effect** (rough, two poles): with input at most `M`, the output of a filter with clip gain
`clip` differs from that of the exact biquad by at most a constant times `clip · M³`. -/
theorem C101_small_signal_partial {f : Fc} {gain clip ρ G : ℝ} (hρ : 0 ≤ ρ) (hρ1 : ρ < 1) (hc : f.coupled gain clip ∈ Spec.tame ρ G)
    {M : ℝ} (hM : 0 ≤ M) (xs : List ℝ) (hx : ∀ x ∈ xs, |x| ≤ M) : ∀ n < xs.length,
    |(run iir12cfc (Spec.ready (f.coupled gain clip) .rough .two) xs).2.getD n 0 -
      (run iir12cfc (Spec.ready (f.coupled gain 0) .rough .two) xs).2.getD n 0| ≤
        2 * G ^ 3 * (3 - ρ) ^ 2 / (1 - ρ) ^ 4 * clip * M ^ 3 := by
  intro n hn
  have h := small_run hρ hρ1 hM hc xs (Spec.ready (f.coupled gain clip) .rough .two) (Spec.ready (f.coupled gain 0) .rough .two) hx rfl rfl
    ?_ rfl rfl ?_ ?_ ?_ ?_ ?_ n hn
  · refine h.trans (le_of_eq ?_)
    have : 1 - ρ ≠ 0 := by linarith
    rw [coupled7]
    simp only [Spec.stateBound, Spec.outBound]
    field_simp
    ring
  · funext i
    by_cases h7 : i = 7
    · subst h7; rfl
    · simp only [h7, if_false, Spec.ready, Fc.coupled]
      match i with
      | 0 | 1 | 2 | 3 | 4 | 5 | 6 => rfl
      | 7 => exact absurd rfl h7
      | n + 8 => rfl
  · have := state_nonneg hρ1 hM
    simp [Bd, Spec.ready, Spec.gainReg]; positivity
  · have := hc.2.2.2.2.2
    have := mul_nonneg this (sq_nonneg (Spec.outBound ρ G M))
    simp [Spec.ready, Spec.gainReg]; linarith
  · simp [Spec.ready, Spec.gainReg]
  · simp [Spec.ready, Spec.gainReg]
  · have z : (⟨(Spec.ready (f.coupled gain clip) .rough .two).reg 0 - (Spec.ready (f.coupled gain 0) .rough .two).reg 0,
      (Spec.ready (f.coupled gain clip) .rough .two).reg 1 - (Spec.ready (f.coupled gain 0) .rough .two).reg 1⟩ : ℂ) = 0 := by
      apply Complex.ext <;> simp [Spec.ready, Spec.gainReg]
    rw [z, norm_zero]
    refine state_nonneg hρ1 ?_
    have := state_nonneg hρ1 hM
    have h7 := hc.2.2.2.2.2
    positivity

/-- The pole radius of the coupled form of a design with complex poles: `ρ² = a2 / a0`. -/
theorem C101_radius {f : Fc} {gain clip : ℝ} (hc : Spec.Complex (Spec.biquad f gain)) :
    f.coupled gain clip 0 ^ 2 + f.coupled gain clip 1 ^ 2 = f.a2 / f.a0 := by
  have := (coupled_ok (clip := clip) hc).ai
  have e : (Spec.biquad f gain).a2 = f.a2 / f.a0 := rfl
  rw [e] at this; linarith

/-- A real design that meets the hypotheses of C101: the low-pass with `α = 1/2`, `c = 0`. -/
example : (Fc.lowpass 0.5 0).coupled 1 0.01 ∈ Spec.tame 0.9 2 := by
  have hc : Spec.Complex (Spec.biquad (Fc.lowpass 0.5 0) 1) := by
    norm_num [Spec.Complex, Spec.biquad, Biquad.Spec.normal, Fc.lowpass]
  have k := coupled_ok (clip := 0.01) hc
  have r := C101_radius (clip := 0.01) hc
  have e0 : (Fc.lowpass 0.5 0).a2 / (Fc.lowpass 0.5 0).a0 = 1 / 3 := by norm_num [Fc.lowpass]
  have k1 : (Fc.lowpass 0.5 0).coupled 1 0.01 1 ^ 2 = 1 / 3 := by
    have := k.ai; have := k.ar
    norm_num [Spec.biquad, Biquad.Spec.normal, Fc.lowpass] at *
    nlinarith
  have k0 : (Fc.lowpass 0.5 0).coupled 1 0.01 0 = 0 := by
    have := k.ar
    norm_num [Spec.biquad, Biquad.Spec.normal, Fc.lowpass] at *
    linarith
  have p1 : 1 / 2 < (Fc.lowpass 0.5 0).coupled 1 0.01 1 := by
    have : 0 ≤ (Fc.lowpass 0.5 0).coupled 1 0.01 1 := le_trans (by norm_num : (0 : ℝ) ≤ 8.0 * 1.192092896e-07) (le_max_right _ _)
    nlinarith
  have c1 := k.c1
  have c2 := k.c2
  have d := k.d
  refine ⟨?_, ?_, ?_, ?_, ?_, ?_⟩
  · rw [r, e0]; norm_num
  · rw [k.b]; norm_num
  · rw [c1]; norm_num [Spec.biquad, Biquad.Spec.normal, Fc.lowpass]
  · rw [k0] at c2
    norm_num [Spec.biquad, Biquad.Spec.normal, Fc.lowpass] at c2
    rw [abs_le]
    constructor <;> norm_num [Fc.lowpass] at * <;> nlinarith
  · rw [d]; norm_num [Spec.biquad, Biquad.Spec.normal, Fc.lowpass]
  · rw [coupled7]; norm_num

end Verif.Filters
