import Verif.Delay.Reverb
import Mathlib.Data.Real.Basic
import Mathlib.Algebra.BigOperators.Ring.Finset
import Mathlib.Algebra.Order.BigOperators.Ring.Finset
import Mathlib.Algebra.Order.Chebyshev
import Mathlib.Tactic.Ring
import Mathlib.Tactic.FieldSimp
import Mathlib.Tactic.Linarith
import Mathlib.Tactic.Positivity
/-!
# The reverb does not blow up

The loop of `Reverb` over the real numbers (no rounding): an energy that the feedback matrix does not increase.
-/
namespace Verif.Reverb
open Verif Finset

/-- The literals as real numbers. -/
noncomputable instance : Lits ℝ := ⟨1 / 2, -2 / 16⟩

theorem sum16_eq (o : Nat → ℝ) : Spec.sum16 o = ∑ t ∈ range 16, o t := by
  unfold Spec.sum16 sumPs
  simp only [sum_range_succ, sum_range_zero]
  norm_num
  ring

theorem mixdown_eq (o p : Nat → ℝ) : mixdown o p = ∑ t ∈ range 16, o t * p t := by
  unfold mixdown sumPs
  simp only [sum_range_succ, sum_range_zero]
  norm_num
  ring

/-- The weight of a tap's own state. -/
noncomputable def wa (d ρ : ℝ) : ℝ := d / (ρ - d)
/-- How much the damping filter amplifies at the decay rate `ρ`. -/
noncomputable def mu (d ρ : ℝ) : ℝ := ρ * (1 - d) / (ρ - d)

theorem damp_le {d ρ : ℝ} (h0 : 0 ≤ d) (h1 : d < ρ) (o x : ℝ) :
    (wa d ρ + 1) * (o * d + x * (1 - d)) ^ 2 ≤ ρ ^ 2 * (wa d ρ * o ^ 2) + mu d ρ ^ 2 * x ^ 2 := by
  have hr : 0 < ρ - d := by linarith
  have hne : ρ - d ≠ 0 := hr.ne'
  have e : ρ ^ 2 * (wa d ρ * o ^ 2) + mu d ρ ^ 2 * x ^ 2 - (wa d ρ + 1) * (o * d + x * (1 - d)) ^ 2
      = ρ / (ρ - d) ^ 2 * (d * ((ρ - d) * o - (1 - d) * x) ^ 2) := by
    unfold wa mu
    field_simp
    ring
  have : 0 ≤ ρ / (ρ - d) ^ 2 * (d * ((ρ - d) * o - (1 - d) * x) ^ 2) := by
    have : 0 < ρ := by linarith
    positivity
  linarith

/-- The energy of one line of `D + 1` samples, younger samples weighted by what they will have lost when they are read. -/
noncomputable def lineEnergy (d ρ : ℝ) (D : Nat) (xs : List ℝ) : ℝ :=
  mu d ρ ^ 2 / (ρ ^ 2) ^ (D + 1) * ∑ i ∈ range (D + 1), (ρ ^ 2) ^ i * Spec.back xs i ^ 2

theorem lineEnergy_append {d ρ : ℝ} (h0 : 0 < ρ) (D : Nat) (xs : List ℝ) (v : ℝ) :
    lineEnergy d ρ D (xs ++ [v]) =
      mu d ρ ^ 2 / (ρ ^ 2) ^ (D + 1) * v ^ 2 + ρ ^ 2 * lineEnergy d ρ D xs - mu d ρ ^ 2 * Spec.back xs D ^ 2 := by
  have hk : (ρ ^ 2) ^ D ≠ 0 := by positivity
  have hk1 : ρ ^ 2 ≠ 0 := by positivity
  unfold lineEnergy
  rw [sum_range_succ', sum_range_succ (fun i => (ρ ^ 2) ^ i * Spec.back xs i ^ 2)]
  have : ∀ i, Spec.back (xs ++ [v]) (i + 1) = Spec.back xs i := fun i => (back_append xs v i).2
  simp only [this, (back_append xs v 0).1, pow_succ (ρ ^ 2)]
  have e : ∑ i ∈ range D, (ρ ^ 2) ^ i * ρ ^ 2 * Spec.back xs i ^ 2 = ρ ^ 2 * ∑ i ∈ range D, (ρ ^ 2) ^ i * Spec.back xs i ^ 2 := by
    rw [mul_sum]; apply sum_congr rfl; intro i _; ring
  rw [e]
  field_simp
  ring

theorem lineEnergy_last {d ρ : ℝ} (h0 : 0 < ρ) (D : Nat) (xs : List ℝ) :
    mu d ρ ^ 2 * Spec.back xs D ^ 2 ≤ ρ ^ 2 * lineEnergy d ρ D xs := by
  have hk : (ρ ^ 2) ^ D ≠ 0 := by positivity
  have hk1 : ρ ^ 2 ≠ 0 := by positivity
  unfold lineEnergy
  rw [sum_range_succ]
  have : 0 ≤ ∑ i ∈ range D, (ρ ^ 2) ^ i * Spec.back xs i ^ 2 := sum_nonneg fun i _ => by positivity
  have e : ρ ^ 2 * (mu d ρ ^ 2 / (ρ ^ 2) ^ (D + 1) * (∑ i ∈ range D, (ρ ^ 2) ^ i * Spec.back xs i ^ 2 + (ρ ^ 2) ^ D * Spec.back xs D ^ 2))
      = mu d ρ ^ 2 / (ρ ^ 2) ^ D * (∑ i ∈ range D, (ρ ^ 2) ^ i * Spec.back xs i ^ 2) + mu d ρ ^ 2 * Spec.back xs D ^ 2 := by
    rw [pow_succ (ρ ^ 2) D]; field_simp
  rw [e]
  have : 0 ≤ mu d ρ ^ 2 / (ρ ^ 2) ^ D * (∑ i ∈ range D, (ρ ^ 2) ^ i * Spec.back xs i ^ 2) := by positivity
  linarith

/-- The energy of the network after writing `ws`, with taps `out`. -/
noncomputable def energy (c : Ctl ℝ) (ρ : ℝ) (ws : List (Nat → ℝ)) (out : Nat → ℝ) : ℝ :=
  ∑ t ∈ range 16, (wa c.damp ρ * out t ^ 2 + lineEnergy c.damp ρ (c.time t / 256) (ws.map (· t)))

/-- The settings of the network allow decay by the factor `ρ` per sample: the damping is below `ρ` and each line's feedback is at most
`ρ` to the power of its length, less what the damping filter adds. -/
structure Spec.Decays (c : Ctl ℝ) (ρ : ℝ) : Prop where
  d0 : 0 ≤ c.damp
  dr : c.damp < ρ
  r1 : ρ ≤ 1
  fb : ∀ t < 16, |c.fb t| * (1 - c.damp) ≤ (ρ - c.damp) * ρ ^ (c.time t / 256)

theorem fb_le {c : Ctl ℝ} {ρ : ℝ} (h : Spec.Decays c ρ) {t : Nat} (ht : t < 16) :
    mu c.damp ρ ^ 2 / (ρ ^ 2) ^ (c.time t / 256 + 1) * c.fb t ^ 2 ≤ 1 := by
  obtain ⟨d0, dr, r1, hf⟩ := h
  have hf := hf t ht
  have hr : 0 < ρ - c.damp := by linarith
  have hp : 0 < ρ := by linarith
  have e : (ρ ^ 2) ^ (c.time t / 256 + 1) = (ρ ^ (c.time t / 256) * ρ) ^ 2 := by rw [← pow_succ, ← pow_mul, ← pow_mul, mul_comm]
  rw [e, ← sq_abs (c.fb t), ← div_pow, ← mul_pow]
  have hq : 0 < ρ ^ (c.time t / 256) := pow_pos hp _
  have : mu c.damp ρ / (ρ ^ (c.time t / 256) * ρ) * |c.fb t| = (|c.fb t| * (1 - c.damp)) / ((ρ - c.damp) * ρ ^ (c.time t / 256)) := by
    unfold mu; field_simp
  rw [this]
  apply pow_le_one₀
  · apply div_nonneg
    · apply mul_nonneg (abs_nonneg _); linarith
    · positivity
  · rw [div_le_one (by positivity)]; exact hf

/-- One sample: with `o` the new taps and `p` the predelayed input. -/
theorem energy_step {c : Ctl ℝ} {ρ : ℝ} (h : Spec.Decays c ρ) (ws : List (Nat → ℝ)) (out : Nat → ℝ) (p : ℝ) {M : ℝ} (hM : 0 ≤ M)
    (hV : energy c ρ ws out ≤ M ^ 2) :
    let o := Spec.taps ws c out
    let g := Lits.ca * Spec.sum16 o + p
    (∑ t ∈ range 16, o t ^ 2 ≤ (ρ * M) ^ 2) ∧
    energy c ρ (ws ++ [fun t => c.fb t * (g + o t)]) o ≤ (ρ * M + 4 * |p|) ^ 2 := by
  intro o g
  have hρ : 0 < ρ := by linarith [h.d0, h.dr]
  have hwa : 0 ≤ wa c.damp ρ := div_nonneg h.d0 (by linarith [h.dr])
  set x : Nat → ℝ := fun t => Spec.back (ws.map (· t)) (c.time t / 256) with hx
  set E : Nat → ℝ := fun t => lineEnergy c.damp ρ (c.time t / 256) (ws.map (· t)) with hE
  have ho : ∀ t ∈ range 16, o t = out t * c.damp + x t * (1 - c.damp) := fun t ht => if_pos (mem_range.mp ht)
  have hS : Spec.sum16 o = ∑ t ∈ range 16, o t := sum16_eq o
  have hpt : ∀ t ∈ range 16, (wa c.damp ρ + 1) * o t ^ 2 ≤ ρ ^ 2 * (wa c.damp ρ * out t ^ 2) + mu c.damp ρ ^ 2 * x t ^ 2 := by
    intro t ht; rw [ho t ht]; exact damp_le h.d0 h.dr _ _
  have hsum := sum_le_sum hpt
  rw [sum_add_distrib, ← mul_sum, ← mul_sum, ← mul_sum] at hsum
  have hx2 : mu c.damp ρ ^ 2 * ∑ t ∈ range 16, x t ^ 2 ≤ ρ ^ 2 * ∑ t ∈ range 16, E t := by
    rw [mul_sum, mul_sum]
    exact sum_le_sum fun t _ => lineEnergy_last hρ _ _
  have hV' : energy c ρ ws out = wa c.damp ρ * ∑ t ∈ range 16, out t ^ 2 + ∑ t ∈ range 16, E t := by
    unfold energy; rw [sum_add_distrib, mul_sum]
  rw [hV'] at hV
  rw [← mul_sum] at hsum
  set A := ∑ t ∈ range 16, out t ^ 2
  set O := ∑ t ∈ range 16, o t ^ 2
  set X := ∑ t ∈ range 16, x t ^ 2
  set ET := ∑ t ∈ range 16, E t
  have hO0 : 0 ≤ O := sum_nonneg fun t _ => sq_nonneg _
  have hρV : ρ ^ 2 * (wa c.damp ρ * A + ET) ≤ ρ ^ 2 * M ^ 2 := mul_le_mul_of_nonneg_left hV (by positivity)
  have hOM : O ≤ (ρ * M) ^ 2 := by
    have : O ≤ (wa c.damp ρ + 1) * O := by nlinarith
    nlinarith
  refine ⟨hOM, ?_⟩
  -- the new energy
  have hnew : energy c ρ (ws ++ [fun t => c.fb t * (g + o t)]) o
      ≤ wa c.damp ρ * O + ∑ t ∈ range 16, (g + o t) ^ 2 + ρ ^ 2 * ET - mu c.damp ρ ^ 2 * X := by
    unfold energy
    rw [sum_add_distrib, ← mul_sum]
    have : ∑ t ∈ range 16, lineEnergy c.damp ρ (c.time t / 256) ((ws ++ [fun t => c.fb t * (g + o t)]).map (· t))
        ≤ ∑ t ∈ range 16, ((g + o t) ^ 2 + ρ ^ 2 * E t - mu c.damp ρ ^ 2 * x t ^ 2) := by
      apply sum_le_sum
      intro t ht
      rw [List.map_append, List.map_cons, List.map_nil, lineEnergy_append hρ]
      have := mul_le_mul_of_nonneg_right (fb_le h (mem_range.mp ht)) (sq_nonneg (g + o t))
      rw [one_mul] at this
      have e : mu c.damp ρ ^ 2 / (ρ ^ 2) ^ (c.time t / 256 + 1) * (c.fb t * (g + o t)) ^ 2
          = mu c.damp ρ ^ 2 / (ρ ^ 2) ^ (c.time t / 256 + 1) * c.fb t ^ 2 * (g + o t) ^ 2 := by ring
      rw [e]
      linarith
    rw [sum_sub_distrib, sum_add_distrib, ← mul_sum, ← mul_sum] at this
    linarith
  have hh : ∑ t ∈ range 16, (g + o t) ^ 2 = O - 2 * p * (∑ t ∈ range 16, o t) + 16 * p ^ 2 := by
    have : ∀ t ∈ range 16, (g + o t) ^ 2 = g ^ 2 + 2 * g * o t + o t ^ 2 := fun t _ => by ring
    rw [sum_congr rfl this, sum_add_distrib, sum_add_distrib, ← mul_sum, sum_const, card_range]
    have hg : g = -(∑ t ∈ range 16, o t) / 8 + p := by
      show Lits.ca * Spec.sum16 o + p = _
      rw [hS]; show (-2 / 16 : ℝ) * _ + p = _; ring
    rw [hg, nsmul_eq_mul]
    push_cast
    ring
  have hcs : (∑ t ∈ range 16, o t) ^ 2 ≤ 16 * O := by
    have := sq_sum_le_card_mul_sum_sq (s := range 16) (f := o)
    simpa using this
  have habs : |∑ t ∈ range 16, o t| ≤ 4 * (ρ * M) := by
    apply abs_le_of_sq_le_sq _ (by positivity)
    nlinarith
  have hps : -2 * p * (∑ t ∈ range 16, o t) ≤ 2 * |p| * (4 * (ρ * M)) := by
    calc -2 * p * (∑ t ∈ range 16, o t) ≤ |-2 * p * (∑ t ∈ range 16, o t)| := le_abs_self _
      _ = 2 * |p| * |∑ t ∈ range 16, o t| := by rw [abs_mul, abs_mul]; norm_num
      _ ≤ _ := mul_le_mul_of_nonneg_left habs (by positivity)
  have hp2 : |p| ^ 2 = p ^ 2 := sq_abs p
  rw [hh] at hnew
  nlinarith

end Verif.Reverb
