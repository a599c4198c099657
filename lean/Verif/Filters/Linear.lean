import Verif.Filters.Bounded
/-!
# Two-dimensional linear sections with a gain below one (used by C101, C105)
-/
namespace Verif.Filters
open Biquad (Cf)

/-- A two-by-two matrix acting on pairs. -/
structure M2 where
  a : ℝ
  b : ℝ
  c : ℝ
  d : ℝ

def M2.act (A : M2) (s : ℝ × ℝ) : ℝ × ℝ := (A.a * s.1 + A.b * s.2, A.c * s.1 + A.d * s.2)
def M2.tr (A : M2) : ℝ := A.a + A.d
def M2.det (A : M2) : ℝ := A.a * A.d - A.b * A.c

theorem act_add (A : M2) (s t : ℝ × ℝ) : A.act (s.1 + t.1, s.2 + t.2) = ((A.act s).1 + (A.act t).1, (A.act s).2 + (A.act t).2) := by
  ext <;> simp [M2.act] <;> ring

theorem act_smul (A : M2) (g : ℝ) (s : ℝ × ℝ) : A.act (g * s.1, g * s.2) = (g * (A.act s).1, g * (A.act s).2) := by
  ext <;> simp [M2.act] <;> ring

theorem iter_add (A : M2) (k : ℕ) : ∀ s t : ℝ × ℝ, A.act^[k] (s.1 + t.1, s.2 + t.2) = ((A.act^[k] s).1 + (A.act^[k] t).1, (A.act^[k] s).2 + (A.act^[k] t).2) := by
  induction k with
  | zero => intro s t; rfl
  | succ k ih => intro s t; rw [Function.iterate_succ_apply, Function.iterate_succ_apply, Function.iterate_succ_apply, act_add, ih]

theorem iter_smul (A : M2) (g : ℝ) (k : ℕ) : ∀ s : ℝ × ℝ, A.act^[k] (g * s.1, g * s.2) = (g * (A.act^[k] s).1, g * (A.act^[k] s).2) := by
  induction k with
  | zero => intro s; rfl
  | succ k ih => intro s; rw [Function.iterate_succ_apply, Function.iterate_succ_apply, act_smul, ih]

/-- Powers of a stable matrix decay. -/
theorem power_decay {A : M2} (h2 : |A.det| < 1) (h1 : |A.tr| < 1 + A.det) :
    ∃ K r : ℝ, 0 ≤ K ∧ 0 < r ∧ r < 1 ∧ ∀ (s : ℝ × ℝ) (k : ℕ),
      |(A.act^[k] s).1| + |(A.act^[k] s).2| ≤ K * (|s.1| + |s.2|) * r ^ k := by
  have st : Biquad.Spec.Stable ⟨-A.tr, A.det, 0, 0, 0⟩ := ⟨h2, by simpa using h1⟩
  obtain ⟨K, r, K0, r0, r1, hb⟩ := Biquad.seq_bound st
  set L := |A.a| + |A.b| + |A.c| + |A.d| + |A.tr| + 1 with hL
  have L0 : 0 ≤ L := by positivity
  refine ⟨4 * K * L, max r (1 / 2), by positivity, lt_max_of_lt_right (by norm_num), max_lt r1 (by norm_num), fun s k => ?_⟩
  have ch : ∀ t : ℝ × ℝ, A.act (A.act t) = (A.tr * (A.act t).1 - A.det * t.1, A.tr * (A.act t).2 - A.det * t.2) := by
    intro t; ext <;> simp [M2.act, M2.tr, M2.det] <;> ring
  have it : ∀ n, A.act^[n + 1] s = A.act (A.act^[n] s) := fun n => Function.iterate_succ_apply' _ _ _
  have first : ∀ n, |(A.act^[n] s).1| ≤ K * (r ^ n * (|s.1| + |(A.act s).1 - A.tr * s.1|)) := by
    intro n
    have := hb n (fun n => ((A.act^[n] s).1, (A.act^[n + 1] s).1 - A.tr * (A.act^[n] s).1)) (fun _ => (0, 0)) 0 ?_ (by simp) le_rfl n le_rfl
    · simpa using this.1
    · intro m _
      ext
      · simp
      · simp only [it, ch]; ring
  have second : ∀ n, |(A.act^[n] s).2| ≤ K * (r ^ n * (|s.2| + |(A.act s).2 - A.tr * s.2|)) := by
    intro n
    have := hb n (fun n => ((A.act^[n] s).2, (A.act^[n + 1] s).2 - A.tr * (A.act^[n] s).2)) (fun _ => (0, 0)) 0 ?_ (by simp) le_rfl n le_rfl
    · simpa using this.1
    · intro m _
      ext
      · simp
      · simp only [it, ch]; ring
  have rp : r ^ k ≤ max r (1 / 2) ^ k := pow_le_pow_left₀ r0 (le_max_left _ _) k
  set S := |s.1| + |s.2| with hS
  have S0 : 0 ≤ S := by positivity
  have s1 : |s.1| ≤ S := by rw [hS]; linarith [abs_nonneg s.2]
  have s2 : |s.2| ≤ S := by rw [hS]; linarith [abs_nonneg s.1]
  have m : ∀ p q : ℝ, |p| ≤ L → |q| ≤ S → |p * q| ≤ L * S := fun p q hp hq => by
    rw [abs_mul]; exact mul_le_mul hp hq (abs_nonneg _) L0
  have la : |A.a| ≤ L := by rw [hL]; linarith [abs_nonneg A.b, abs_nonneg A.c, abs_nonneg A.d, abs_nonneg A.tr]
  have lb : |A.b| ≤ L := by rw [hL]; linarith [abs_nonneg A.a, abs_nonneg A.c, abs_nonneg A.d, abs_nonneg A.tr]
  have lc : |A.c| ≤ L := by rw [hL]; linarith [abs_nonneg A.b, abs_nonneg A.a, abs_nonneg A.d, abs_nonneg A.tr]
  have ld : |A.d| ≤ L := by rw [hL]; linarith [abs_nonneg A.b, abs_nonneg A.c, abs_nonneg A.a, abs_nonneg A.tr]
  have l1 : (1 : ℝ) ≤ L := by rw [hL]; linarith [abs_nonneg A.a, abs_nonneg A.b, abs_nonneg A.c, abs_nonneg A.d, abs_nonneg A.tr]
  have p1 : |(A.act s).1 - A.tr * s.1| ≤ |A.b * s.2| + |A.d * s.1| := by
    have e : (A.act s).1 - A.tr * s.1 = A.b * s.2 - A.d * s.1 := by simp [M2.act, M2.tr]; ring
    rw [e]; exact abs_sub _ _
  have p2 : |(A.act s).2 - A.tr * s.2| ≤ |A.c * s.1| + |A.a * s.2| := by
    have e : (A.act s).2 - A.tr * s.2 = A.c * s.1 - A.a * s.2 := by simp [M2.act, M2.tr]; ring
    rw [e]; exact abs_sub _ _
  have q1 : |s.1| + |(A.act s).1 - A.tr * s.1| + (|s.2| + |(A.act s).2 - A.tr * s.2|) ≤ 4 * (L * S) + S := by
    have := m A.b s.2 lb s2; have := m A.d s.1 ld s1; have := m A.c s.1 lc s1; have := m A.a s.2 la s2
    linarith
  have q1' : |s.1| + |(A.act s).1 - A.tr * s.1| + (|s.2| + |(A.act s).2 - A.tr * s.2|) ≤ 4 * (L * S) := by
    have e1 : |A.b * s.2| + |A.a * s.2| ≤ (L - 1) * |s.2| := by
      rw [abs_mul, abs_mul, ← add_mul]
      refine mul_le_mul_of_nonneg_right ?_ (abs_nonneg _)
      rw [hL]; linarith [abs_nonneg A.c, abs_nonneg A.d, abs_nonneg A.tr]
    have e2 : |A.d * s.1| + |A.c * s.1| ≤ (L - 1) * |s.1| := by
      rw [abs_mul, abs_mul, ← add_mul]
      refine mul_le_mul_of_nonneg_right ?_ (abs_nonneg _)
      rw [hL]; linarith [abs_nonneg A.a, abs_nonneg A.b, abs_nonneg A.tr]
    have : (L - 1) * |s.2| + (L - 1) * |s.1| = L * S - S := by rw [hS]; ring
    have : 0 ≤ L * S := mul_nonneg L0 S0
    linarith
  calc |(A.act^[k] s).1| + |(A.act^[k] s).2|
      ≤ K * (r ^ k * (|s.1| + |(A.act s).1 - A.tr * s.1|)) + K * (r ^ k * (|s.2| + |(A.act s).2 - A.tr * s.2|)) := add_le_add (first k) (second k)
    _ = K * r ^ k * (|s.1| + |(A.act s).1 - A.tr * s.1| + (|s.2| + |(A.act s).2 - A.tr * s.2|)) := by ring
    _ ≤ K * r ^ k * (4 * (L * S)) := mul_le_mul_of_nonneg_left q1' (by positivity)
    _ ≤ K * max r (1 / 2) ^ k * (4 * (L * S)) := mul_le_mul_of_nonneg_right (mul_le_mul_of_nonneg_left rp K0) (by positivity)
    _ = _ := by ring

/-- Around a stable section with a gain in `[0, 1]` and input at most `M` there is an invariant region of a size proportional to `M`. -/
theorem invariant_region {A : M2} (h2 : |A.det| < 1) (h1 : |A.tr| < 1 + A.det) (E : ℝ × ℝ) :
    ∃ K : ℝ, 0 ≤ K ∧ ∀ M : ℝ, 0 ≤ M → ∃ P : ℝ × ℝ → Prop, P (0, 0) ∧ (∀ s, P s → |s.1| ≤ K * M ∧ |s.2| ≤ K * M) ∧
      ∀ (s : ℝ × ℝ) (g x : ℝ), P s → 0 ≤ g → g ≤ 1 → |x| ≤ M →
        P (g * ((A.act s).1 + x * E.1), g * ((A.act s).2 + x * E.2)) := by
  obtain ⟨K, r, K0, r0, r1, hb⟩ := power_decay h2 h1
  set C := |E.1| + |E.2| with hC
  have C0 : 0 ≤ C := by positivity
  refine ⟨K * C / (1 - r), div_nonneg (by positivity) (by linarith), fun M M0 => ?_⟩
  set B := K * C / (1 - r) * M with hB
  have B0 : 0 ≤ B := mul_nonneg (div_nonneg (by positivity) (by linarith)) M0
  have fix : r * B + K * (C * M) = B := by rw [hB]; have : 1 - r ≠ 0 := by linarith
                                           field_simp; ring
  refine ⟨fun s => ∀ k, |(A.act^[k] s).1| + |(A.act^[k] s).2| ≤ B * r ^ k, ?_, ?_, ?_⟩
  · intro k
    have := hb (0, 0) k
    have z : K * (|((0 : ℝ), (0 : ℝ)).1| + |((0 : ℝ), (0 : ℝ)).2|) * r ^ k = 0 := by simp
    rw [z] at this
    exact this.trans (by positivity)
  · intro s hs
    have := hs 0
    simp only [Function.iterate_zero, id, pow_zero, mul_one] at this
    constructor <;> linarith [abs_nonneg s.1, abs_nonneg s.2]
  · intro s g x hs g0 g1 hx k
    rw [iter_smul A g k (((A.act s).1 + x * E.1), ((A.act s).2 + x * E.2)),
      iter_add A k (A.act s) (x * E.1, x * E.2), iter_smul A x k E]
    have e := hs (k + 1)
    rw [Function.iterate_succ_apply] at e
    have eE := hb E k
    set u := A.act^[k] (A.act s)
    set v := A.act^[k] E
    simp only [abs_mul, abs_of_nonneg g0]
    have a1 := abs_add_le u.1 (x * v.1)
    have a2 := abs_add_le u.2 (x * v.2)
    rw [abs_mul] at a1 a2
    have rk : 0 ≤ r ^ k := by positivity
    have xv : |x| * (|v.1| + |v.2|) ≤ M * (K * C * r ^ k) := mul_le_mul hx eE (by positivity) M0
    have tot : |u.1 + x * v.1| + |u.2 + x * v.2| ≤ B * r ^ k := by
      calc _ ≤ (|u.1| + |u.2|) + |x| * (|v.1| + |v.2|) := by linarith
        _ ≤ B * r ^ (k + 1) + M * (K * C * r ^ k) := add_le_add e xv
        _ = (r * B + K * (C * M)) * r ^ k := by rw [pow_succ]; ring
        _ = _ := by rw [fix]
    calc g * |u.1 + x * v.1| + g * |u.2 + x * v.2| = g * (|u.1 + x * v.1| + |u.2 + x * v.2|) := by ring
      _ ≤ 1 * (|u.1 + x * v.1| + |u.2 + x * v.2|) := mul_le_mul_of_nonneg_right g1 (by positivity)
      _ ≤ _ := by linarith

/-- Running a step function that keeps an invariant. -/
theorem run_out {step : FU → ℝ → FU × ℝ} {I : FU → Prop} {A Q : ℝ → Prop}
    (hs : ∀ u x, A x → I u → I (step u x).1 ∧ Q (step u x).2) (xs : List ℝ) : ∀ u : FU, (∀ x ∈ xs, A x) → I u →
    I (run step u xs).1 ∧ ∀ y ∈ (run step u xs).2, Q y := by
  induction xs with
  | nil => intro u _ hi; exact ⟨hi, by simp [run]⟩
  | cons x xs ih =>
    intro u hx hi
    obtain ⟨g1, g2⟩ := hs u x (hx x (by simp)) hi
    obtain ⟨i1, i2⟩ := ih _ (fun y hy => hx y (by simp [hy])) g1
    refine ⟨i1, fun y hy => ?_⟩
    rcases List.mem_cons.1 hy with rfl | hy
    · exact g2
    · exact i2 y hy

/-! ## Smooth filters at constant coefficients -/

theorem lattice_matrix {c : Cf} {k : ℕ → ℝ} (h : IsLattice c k) :
    (M2.mk (-k 0) (-(k 1 * k 2)) (k 2) (-(k 0 * k 1))).tr = -c.a1 ∧ (M2.mk (-k 0) (-(k 1 * k 2)) (k 2) (-(k 0 * k 1))).det = c.a2 := by
  obtain ⟨h1, h2, h3, -⟩ := h
  constructor
  · simp only [M2.tr]; rw [← h1]; ring
  · simp only [M2.det]; rw [← h2]; linear_combination k 1 * h3

/-- The output of a lattice from its state. -/
theorem lattice_out {k : ℕ → ℝ} {x r0 r1 K M : ℝ} (hx : |x| ≤ M) (h0 : |r0| ≤ K * M) (h1 : |r1| ≤ K * M) :
    |k 6 * (k 1 * x + k 3 * r1) + k 5 * (k 0 * (k 3 * x - k 1 * r1) + k 2 * r0) + k 4 * (k 2 * (k 3 * x - k 1 * r1) - k 0 * r0)| ≤
      ((|k 6 * k 1| + |k 5 * k 0 * k 3| + |k 4 * k 2 * k 3|) +
        (|k 6 * k 3| + |k 5 * k 0 * k 1| + |k 4 * k 2 * k 1| + |k 5 * k 2| + |k 4 * k 0|) * K) * M := by
  have m : ∀ (p q B : ℝ), |q| ≤ B → |p * q| ≤ |p| * B := fun p q B h => by rw [abs_mul]; exact mul_le_mul_of_nonneg_left h (abs_nonneg _)
  have t1 := m (k 6 * k 1) x M hx
  have t2 := m (k 5 * k 0 * k 3) x M hx
  have t3 := m (k 4 * k 2 * k 3) x M hx
  have t4 := m (k 6 * k 3) r1 _ h1
  have t5 := m (k 5 * k 0 * k 1) r1 _ h1
  have t6 := m (k 4 * k 2 * k 1) r1 _ h1
  have t7 := m (k 5 * k 2) r0 _ h0
  have t8 := m (k 4 * k 0) r0 _ h0
  rw [abs_le] at *
  constructor <;> nlinarith [t1.1, t1.2, t2.1, t2.2, t3.1, t3.2, t4.1, t4.2, t5.1, t5.2, t6.1, t6.2, t7.1, t7.2, t8.1, t8.2]

/-- C101, smooth filters: with fixed coefficients of a stable design and any clip gain, the output of the two-pole and of the four-pole
filter is bounded by a constant times the largest input, for inputs of any length. -/
theorem C101_smooth_partial (f : Fc) (gain : ℝ) {clip : ℝ} (hclip : 0 ≤ clip) (hst : Biquad.Spec.Stable (Spec.biquad f gain)) :
    ∃ K : ℝ, ∀ (M : ℝ) (xs : List ℝ), 0 ≤ M → (∀ x ∈ xs, |x| ≤ M) →
      (∀ y ∈ (run iir12b ⟨f.lattice gain clip, fun _ => 0, fun _ => 0, 0⟩ xs).2, |y| ≤ K * M) ∧
      (∀ y ∈ (run iir24b ⟨f.lattice gain clip, fun _ => 0, fun _ => 0, 0⟩ xs).2, |y| ≤ K * M) := by
  have hk := lattice_ok (clip := clip) hst
  have h7 : f.lattice gain clip 7 = clip := rfl
  generalize f.lattice gain clip = k at hk h7
  obtain ⟨e1, e2⟩ := lattice_matrix hk
  obtain ⟨s2, s1⟩ := hst
  obtain ⟨K, K0, hreg⟩ := invariant_region (A := ⟨-k 0, -(k 1 * k 2), k 2, -(k 0 * k 1)⟩) (by rw [e2]; exact s2)
    (by rw [e1, e2, abs_neg]; exact s1) (k 2 * k 3, k 0 * k 3)
  set G := (|k 6 * k 1| + |k 5 * k 0 * k 3| + |k 4 * k 2 * k 3|) +
        (|k 6 * k 3| + |k 5 * k 0 * k 1| + |k 4 * k 2 * k 1| + |k 5 * k 2| + |k 4 * k 0|) * K with hG
  have G0 : 0 ≤ G := by positivity
  refine ⟨max G (G * G), fun M xs M0 hx => ⟨fun y hy => ?_, fun y hy => ?_⟩⟩
  · obtain ⟨P, p0, pb, ps⟩ := hreg M M0
    have := (run_out (step := iir12b) (A := fun x => |x| ≤ M) (Q := fun y => |y| ≤ G * M)
      (I := fun u => u.coeff = k ∧ u.dcoeff = (fun _ => 0) ∧ 0 ≤ u.reg 2 ∧ u.reg 2 ≤ 1 ∧ P (u.reg 0, u.reg 1)) ?_ xs
      ⟨k, fun _ => 0, fun _ => 0, 0⟩ hx ⟨rfl, rfl, le_rfl, zero_le_one, p0⟩).2 y hy
    · exact this.trans (mul_le_mul_of_nonneg_right (le_max_left _ _) M0)
    · rintro u x ax ⟨uc, ud, g0, g1, hp⟩
      obtain ⟨b0, b1⟩ := pb _ hp
      have o := lattice_out (k := k) ax b0 b1
      have nx := ps _ (u.reg 2) x hp g0 g1 ax
      have cu := fun y => clip_unit (c := k 7) (y := y) (by rw [h7]; exact hclip)
      simp only [M2.act] at nx
      simp only [iir12b, adv_zero ud, adv_set2 ud, uc]
      refine ⟨⟨uc, ud, ?_, ?_, ?_⟩, o⟩
      · simpa [FU.set, uc] using (cu _).1
      · simpa [FU.set, uc] using (cu _).2
      · simp only [FU.set, Function.update_apply]
        norm_num
        convert nx using 2
        · ring
        · ring
  · obtain ⟨P, p0, pb, ps⟩ := hreg M M0
    have GM : 0 ≤ G * M := mul_nonneg G0 M0
    obtain ⟨P', p0', pb', ps'⟩ := hreg (G * M) GM
    have := (run_out (step := iir24b) (A := fun x => |x| ≤ M) (Q := fun y => |y| ≤ G * (G * M))
      (I := fun u => u.coeff = k ∧ u.dcoeff = (fun _ => 0) ∧ 0 ≤ u.reg 4 ∧ u.reg 4 ≤ 1 ∧ P (u.reg 0, u.reg 1) ∧ P' (u.reg 2, u.reg 3)) ?_ xs
      ⟨k, fun _ => 0, fun _ => 0, 0⟩ hx ⟨rfl, rfl, le_rfl, zero_le_one, p0, p0'⟩).2 y hy
    · rw [← mul_assoc] at this
      exact this.trans (mul_le_mul_of_nonneg_right (le_max_right _ _) M0)
    · rintro u x ax ⟨uc, ud, g0, g1, hp, hp'⟩
      obtain ⟨b0, b1⟩ := pb _ hp
      obtain ⟨b0', b1'⟩ := pb' _ hp'
      have o := lattice_out (k := k) ax b0 b1
      have nx := ps _ (u.reg 4) x hp g0 g1 ax
      have o' := lattice_out (k := k) o b0' b1'
      have nx' := ps' _ (u.reg 4) _ hp' g0 g1 o
      have cu := fun y => clip_unit (c := k 7) (y := y) (by rw [h7]; exact hclip)
      simp only [M2.act] at nx nx'
      simp only [iir24b, adv_zero ud, adv_set4 ud, uc]
      refine ⟨⟨uc, ud, ?_, ?_, ?_, ?_⟩, ?_⟩
      · simpa [FU.set, uc] using (cu _).1
      · simpa [FU.set, uc] using (cu _).2
      · simp only [FU.set, Function.update_apply]
        norm_num
        convert nx using 2
        · ring
        · ring
      · simp only [FU.set, Function.update_apply]
        norm_num
        convert nx' using 2
        · ring
        · ring
      · simpa [FU.set, Function.update_apply, -abs_mul] using o'

end Verif.Filters
