import Verif.Halfrate.Claims
import Mathlib.Algebra.BigOperators.Intervals
import Mathlib.Algebra.Order.BigOperators.Ring.Finset
import Mathlib.Algebra.BigOperators.Field
import Mathlib.Tactic.Positivity
/-!
# The half-band filter never adds energy, and forgets (C109)
-/
namespace Verif.Halfrate

open Finset

/-- The energy of the first `N` samples of a signal. -/
def Spec.energy (x : ℕ → ℝ) (N : ℕ) : ℝ := ∑ n ∈ range N, x n ^ 2

/-- The internal state of an all-pass in direct form. -/
def inner (a : ℝ) (x : ℕ → ℝ) : ℕ → ℝ
  | 0 => x 0
  | 1 => x 1
  | n + 2 => x (n + 2) - a * inner a x n

theorem inner_eq (a : ℝ) (x : ℕ → ℝ) (n : ℕ) : x n = inner a x n + a * Spec.ago (inner a x) n 2 := by
  match n with
  | 0 => simp [inner, Spec.ago]
  | 1 => simp [inner, Spec.ago]
  | n + 2 => simp [inner, Spec.ago]

theorem allpass_inner (a : ℝ) (x : ℕ → ℝ) (n : ℕ) : Spec.allpass a x n = a * inner a x n + Spec.ago (inner a x) n 2 := by
  induction n using Nat.strongRecOn with
  | _ n ih =>
    match n, ih with
    | 0, _ => simp [Spec.allpass, inner, Spec.ago]
    | 1, _ => simp [Spec.allpass, inner, Spec.ago]
    | n + 2, ih =>
      have h := ih n (by omega)
      have e := inner_eq a x n
      simp only [Spec.allpass, inner]
      rw [h]
      have e2 : Spec.ago (inner a x) (n + 2) 2 = inner a x n := by simp [Spec.ago]
      rw [e2]
      nlinarith

theorem allpass_energy (a : ℝ) (x : ℕ → ℝ) (N : ℕ) :
    Spec.energy x N = Spec.energy (Spec.allpass a x) N + (1 - a ^ 2) * (Spec.ago (inner a x) N 1 ^ 2 + Spec.ago (inner a x) N 2 ^ 2) := by
  induction N with
  | zero => simp [Spec.energy, Spec.ago]
  | succ N ih =>
    simp only [Spec.energy] at ih ⊢
    rw [sum_range_succ, sum_range_succ, ih, ago_succ, ago_succ, ago_zero, allpass_inner]
    have e := inner_eq a x N
    rw [e]; ring

theorem allpass_energy_le {a : ℝ} (h : |a| < 1) (x : ℕ → ℝ) (N : ℕ) : Spec.energy (Spec.allpass a x) N ≤ Spec.energy x N := by
  have := allpass_energy a x N
  have h2 : a ^ 2 ≤ 1 := by have := sq_abs a; nlinarith [abs_nonneg a]
  have : 0 ≤ (1 - a ^ 2) * (Spec.ago (inner a x) N 1 ^ 2 + Spec.ago (inner a x) N 2 ^ 2) :=
    mul_nonneg (by linarith) (by positivity)
  linarith

theorem cascade_energy_le {as : List ℝ} (h : ∀ a ∈ as, |a| < 1) (x : ℕ → ℝ) (N : ℕ) :
    Spec.energy (Spec.cascade as x) N ≤ Spec.energy x N := by
  induction as generalizing x with
  | nil => exact le_rfl
  | cons a as ih =>
    exact (ih (fun b hb => h b (by simp [hb])) _).trans (allpass_energy_le (h a (by simp)) x N)

theorem energy_ago (x : ℕ → ℝ) (N : ℕ) : Spec.energy (fun n => Spec.ago x n 1) N ≤ Spec.energy x N := by
  cases N with
  | zero => exact le_rfl
  | succ N =>
    simp only [Spec.energy]
    rw [sum_range_succ', sum_range_succ]
    simp only [ago_succ, ago_zero]
    have : Spec.ago x 0 1 = 0 := rfl
    rw [this]
    nlinarith [sq_nonneg (x N)]

theorem halfband_energy {as bs : List ℝ} (ha : ∀ a ∈ as, |a| < 1) (hb : ∀ b ∈ bs, |b| < 1) (x : ℕ → ℝ) (N : ℕ) :
    Spec.energy (Spec.halfband as bs x) N ≤ Spec.energy x N := by
  have h1 := cascade_energy_le ha x N
  have h2 := (energy_ago (Spec.cascade bs x) N).trans (cascade_energy_le hb x N)
  have h3 : Spec.energy (Spec.halfband as bs x) N ≤
      (Spec.energy (Spec.cascade as x) N + Spec.energy (fun n => Spec.ago (Spec.cascade bs x) n 1) N) / 2 := by
    simp only [Spec.energy]
    rw [← sum_add_distrib, sum_div]
    refine sum_le_sum fun n _ => ?_
    unfold Spec.halfband
    nlinarith [sq_nonneg (Spec.cascade as x n - Spec.ago (Spec.cascade bs x) n 1)]
  linarith

theorem energy_odd (x : ℕ → ℝ) (M : ℕ) : Spec.energy (fun n => x (2 * n + 1)) M ≤ Spec.energy x (2 * M) := by
  induction M with
  | zero => exact le_rfl
  | succ M ih =>
    simp only [Spec.energy] at ih ⊢
    rw [sum_range_succ, show 2 * (M + 1) = 2 * M + 1 + 1 by ring, sum_range_succ, sum_range_succ]
    nlinarith [sq_nonneg (x (2 * M))]

theorem energy_stuff (x : ℕ → ℝ) (M : ℕ) : Spec.energy (Spec.stuff x) (2 * M) = Spec.energy x M := by
  induction M with
  | zero => rfl
  | succ M ih =>
    simp only [Spec.energy] at ih ⊢
    rw [show 2 * (M + 1) = 2 * M + 1 + 1 by ring, sum_range_succ, sum_range_succ, sum_range_succ, ih]
    have e1 : Spec.stuff x (2 * M) = x M := by simp [Spec.stuff]
    have e2 : Spec.stuff x (2 * M + 1) = 0 := by
      unfold Spec.stuff; rw [if_neg (by omega)]
    rw [e1, e2]; ring

/-! ## The coefficient tables are stable -/

theorem table_stable {st : Bool} {m : ℕ} {a b : List ℚ} (h : table st (m * 2) = some (a, b)) :
    (∀ q ∈ a, 0 < asF32 q ∧ asF32 q < 1) ∧ ∀ q ∈ b, 0 < asF32 q ∧ asF32 q < 1 := by
  obtain ⟨-, -, h0, h6⟩ := table_length h
  have key : ∀ l : List ℚ, (l.all fun q => decide (0 < asF32 q ∧ asF32 q < 1)) = true → ∀ q ∈ l, 0 < asF32 q ∧ asF32 q < 1 := fun l hl q hq => by
    simpa using List.all_eq_true.1 hl q hq
  cases st <;> interval_cases m <;> simp only [table, Option.some.injEq, Prod.mk.injEq, Nat.one_mul, Nat.reduceMul] at h <;>
    (obtain ⟨rfl, rfl⟩ := h; exact ⟨key _ (by decide +kernel), key _ (by decide +kernel)⟩)

theorem rounded_stable {st : Bool} {m : ℕ} {a b : List ℚ} (h : table st (m * 2) = some (a, b)) :
    (∀ c ∈ Spec.rounded a, |c| < 1) ∧ ∀ c ∈ Spec.rounded b, |c| < 1 := by
  have key : ∀ l : List ℚ, (∀ q ∈ l, 0 < asF32 q ∧ asF32 q < 1) → ∀ c ∈ Spec.rounded l, |c| < 1 := fun l hl c hc => by
    obtain ⟨q, hq, rfl⟩ := List.mem_map.1 hc
    obtain ⟨h0, h1⟩ := hl q hq
    have h0' : (0 : ℝ) < (asF32 q : ℚ) := by exact_mod_cast h0
    have h1' : ((asF32 q : ℚ) : ℝ) < 1 := by exact_mod_cast h1
    rw [abs_of_pos h0']; exact h1'
  exact ⟨key a (table_stable h).1, key b (table_stable h).2⟩

/-! ## Energy of recordings -/

/-- The energy of a recording, one channel at a time. -/
def Spec.energyL (xs : List (ℝ × ℝ)) : ℝ := (xs.map fun p => p.1 ^ 2).sum
def Spec.energyR (xs : List (ℝ × ℝ)) : ℝ := (xs.map fun p => p.2 ^ 2).sum

theorem energyL_eq (xs : List (ℝ × ℝ)) : Spec.energyL xs = Spec.energy (Spec.left xs) xs.length := by
  induction xs with
  | nil => rfl
  | cons p xs ih =>
    rw [Spec.energy, List.length_cons, sum_range_succ']
    rw [Spec.energy] at ih
    have : ∀ n, Spec.left (p :: xs) (n + 1) = Spec.left xs n := fun n => by simp [Spec.left]
    simp only [this, ← ih]
    have : Spec.left (p :: xs) 0 = p.1 := by simp [Spec.left]
    rw [this, add_comm]; simp [Spec.energyL]

theorem energyR_eq (xs : List (ℝ × ℝ)) : Spec.energyR xs = Spec.energy (Spec.right xs) xs.length := by
  induction xs with
  | nil => rfl
  | cons p xs ih =>
    rw [Spec.energy, List.length_cons, sum_range_succ']
    rw [Spec.energy] at ih
    have : ∀ n, Spec.right (p :: xs) (n + 1) = Spec.right xs n := fun n => by simp [Spec.right]
    simp only [this, ← ih]
    have : Spec.right (p :: xs) 0 = p.2 := by simp [Spec.right]
    rw [this, add_comm]; simp [Spec.energyR]

theorem energy_congr {x y : ℕ → ℝ} {N : ℕ} (h : ∀ n < N, x n = y n) : Spec.energy x N = Spec.energy y N :=
  sum_congr rfl fun n hn => by rw [h n (mem_range.1 hn)]

theorem left_eq {ys : List (ℝ × ℝ)} {f g : ℕ → ℝ} (h : ∀ n < ys.length, ys.getD n 0 = (f n, g n)) :
    Spec.energyL ys = Spec.energy f ys.length ∧ Spec.energyR ys = Spec.energy g ys.length := by
  rw [energyL_eq, energyR_eq]
  exact ⟨energy_congr fun n hn => by rw [Spec.left, h n hn], energy_congr fun n hn => by rw [Spec.right, h n hn]⟩

/-- **C109.**  None of the block functions ever outputs more energy than it was given, on either channel, for any input and any sequence of calls. -/
theorem C109_no_energy_gain {st : Bool} {m : ℕ} {s : St} (hs : St.new m st = .ok s) (bs : List (List (ℝ × ℝ))) :
    (∀ s' ys, Spec.Blocks 4 256 bs → runWith St.process s bs = .ok (s', ys) →
      Spec.energyL ys ≤ Spec.energyL bs.flatten ∧ Spec.energyR ys ≤ Spec.energyR bs.flatten) ∧
    (∀ out s' ys, Spec.Blocks 8 256 bs → runWith (St.down out) s bs = .ok (s', ys) →
      Spec.energyL ys ≤ Spec.energyL bs.flatten ∧ Spec.energyR ys ≤ Spec.energyR bs.flatten) ∧
    (∀ out s' ys, Spec.Blocks 4 128 bs → runWith (St.up out) s bs = .ok (s', ys) →
      Spec.energyL ys ≤ Spec.energyL bs.flatten ∧ Spec.energyR ys ≤ Spec.energyR bs.flatten) := by
  have hm := (C108_new_iff m st).1 (by rw [hs]; rfl)
  obtain ⟨a, b, h⟩ := table_some st hm.1 hm.2
  obtain ⟨ha, hb⟩ := rounded_stable h
  obtain ⟨s0, e0, f1, f2, f3⟩ := C108_one_filter h
  rw [hs] at e0
  cases e0
  refine ⟨fun s' ys hk hr => ?_, fun out s' ys hk hr => ?_, fun out s' ys hk hr => ?_⟩
  · obtain ⟨s1, zs, e, l, k⟩ := f1 bs hk
    rw [hr] at e; cases e
    obtain ⟨p, q⟩ := left_eq k
    rw [p, q, energyL_eq, energyR_eq, l]
    exact ⟨halfband_energy ha hb _ _, halfband_energy ha hb _ _⟩
  · obtain ⟨s1, zs, e, l, k⟩ := f2 out bs hk
    rw [hr] at e; cases e
    obtain ⟨p, q⟩ := left_eq k
    rw [p, q, energyL_eq, energyR_eq, ← l]
    exact ⟨(energy_odd _ _).trans (halfband_energy ha hb _ _), (energy_odd _ _).trans (halfband_energy ha hb _ _)⟩
  · obtain ⟨s1, zs, e, l, k⟩ := f3 out bs hk
    rw [hr] at e; cases e
    obtain ⟨p, q⟩ := left_eq k
    rw [p, q, energyL_eq, energyR_eq, l, ← energy_stuff (Spec.left _), ← energy_stuff (Spec.right _)]
    exact ⟨halfband_energy ha hb _ _, halfband_energy ha hb _ _⟩

/-- The hypotheses are met: a steep six-section filter exists, and any eight-sample block is admissible. -/
example : (∃ s, St.new 6 true = .ok s) ∧ Spec.Blocks 8 256 [List.replicate 8 (1, 2)] :=
  ⟨⟨_, new_ok (a := _) (b := _) rfl⟩, fun b hb => by simp at hb; subst hb; simp⟩

end Verif.Halfrate
