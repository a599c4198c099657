import Mathlib.Analysis.SpecialFunctions.Trigonometric.Basic
import Mathlib.Tactic.Ring
import Mathlib.Tactic.Linarith
/-!
# The quadrature oscillator (C113)

`surge-quadrosc/src/lib.rs`, read as exact real arithmetic (simplification: `f64` rounding is not modelled).  A not-a-number is `none`.
-/
namespace Verif.Units

/-- surge-quadrosc/src/lib.rs 1-7, `QuadrOsc`. -/
@[ext] structure Quad where
  r : ℝ
  i : ℝ
  dr : ℝ
  di : ℝ

/-- lib.rs 21-31, `default`. -/
def Quad.default : Quad := ⟨0, -1, 0, 0⟩

/-- lib.rs 33-47, `set_rate`; `none` when the vector is zero: the factor is then infinite and both components become NaN. -/
noncomputable def Quad.setRate (q : Quad) (w : ℝ) : Option Quad :=
  if q.r * q.r + q.i * q.i = 0 then none
  else
    let n := 1 / Real.sqrt (q.r * q.r + q.i * q.i)
    some ⟨q.r * n, q.i * n, Real.cos w, Real.sin w⟩

/-- lib.rs 49-55, `set_phase`. -/
noncomputable def Quad.setPhase (q : Quad) (w : ℝ) : Quad := { q with r := Real.sin w, i := -Real.cos w }

/-- lib.rs 57-65, `process`. -/
def Quad.process (q : Quad) : Quad := { q with r := q.dr * q.r - q.di * q.i, i := q.dr * q.i + q.di * q.r }

/-- The calls a user can make. -/
inductive Quad.Op where
  | rate (w : ℝ)
  | phase (w : ℝ)
  | process

/-- One call. -/
noncomputable def Quad.call (q : Quad) : Quad.Op → Option Quad
  | .rate w => q.setRate w
  | .phase w => some (q.setPhase w)
  | .process => some q.process

/-- A history of calls. -/
noncomputable def Quad.run (q : Quad) (h : List Quad.Op) : Option Quad := h.foldlM Quad.call q

/-! ## Specification: a phase that advances by the rate at each step -/

/-- The phase and the rate after a history: setting the rate leaves the phase, setting the phase leaves the rate, processing adds the
rate to the phase. -/
def Spec.turn (p : ℝ × ℝ) : Quad.Op → ℝ × ℝ
  | .rate w => (p.1, w)
  | .phase φ => (φ, p.2)
  | .process => (p.1 + p.2, p.2)

/-- The phase after a history of calls on a fresh oscillator. -/
def Spec.phase (h : List Quad.Op) : ℝ := (h.foldl Spec.turn (0, 0)).1

/-- Nothing is processed before a rate has been set. -/
def Spec.Tuned (h : List Quad.Op) : Prop := ∀ pre post, h = pre ++ Quad.Op.process :: post → ∃ w, Quad.Op.rate w ∈ pre

theorem setRate_unit {q : Quad} {θ : ℝ} (hr : q.r = Real.sin θ) (hi : q.i = -Real.cos θ) (w : ℝ) :
    q.setRate w = some ⟨Real.sin θ, -Real.cos θ, Real.cos w, Real.sin w⟩ := by
  have e : q.r * q.r + q.i * q.i = 1 := by rw [hr, hi]; nlinarith [Real.sin_sq_add_cos_sq θ]
  unfold Quad.setRate
  rw [if_neg (by rw [e]; norm_num), e]
  simp [hr, hi]

theorem run_unit (h : List Quad.Op) : ∀ (q : Quad) (p : ℝ × ℝ), q.r = Real.sin p.1 → q.i = -Real.cos p.1 →
    ((q.dr = Real.cos p.2 ∧ q.di = Real.sin p.2) ∨ Spec.Tuned h) →
    ∃ q', q.run h = some q' ∧ q'.r = Real.sin (h.foldl Spec.turn p).1 ∧ q'.i = -Real.cos (h.foldl Spec.turn p).1 := by
  induction h with
  | nil => intro q p hr hi _; exact ⟨q, rfl, hr, hi⟩
  | cons o h ih =>
    intro q p hr hi ht
    have tail : (∀ w, o ≠ .rate w) → Spec.Tuned (o :: h) → Spec.Tuned h := by
      intro ho hT pre post e
      obtain ⟨w, hw⟩ := hT (o :: pre) post (by rw [e]; rfl)
      rcases List.mem_cons.1 hw with hw | hw
      · exact absurd hw.symm (ho w)
      · exact ⟨w, hw⟩
    have step : ∀ q1, q.call o = some q1 → q.run (o :: h) = q1.run h := by
      intro q1 e
      show (q.call o).bind _ = _
      rw [e]; rfl
    cases o with
    | rate w =>
      obtain ⟨q', e, k⟩ := ih ⟨Real.sin p.1, -Real.cos p.1, Real.cos w, Real.sin w⟩ (p.1, w) rfl rfl (.inl ⟨rfl, rfl⟩)
      exact ⟨q', by rw [step _ (setRate_unit hr hi w)]; exact e, k⟩
    | phase φ =>
      obtain ⟨q', e, k⟩ := ih (q.setPhase φ) (φ, p.2) rfl rfl (ht.imp (fun a => a) (tail (fun w => by simp)))
      exact ⟨q', by rw [step _ rfl]; exact e, k⟩
    | process =>
      have ht' : q.dr = Real.cos p.2 ∧ q.di = Real.sin p.2 := by
        rcases ht with ht | ht
        · exact ht
        · obtain ⟨w, hw⟩ := ht [] h rfl; simp at hw
      obtain ⟨q', e, k⟩ := ih q.process (p.1 + p.2, p.2)
        (by show q.dr * q.r - q.di * q.i = _; rw [hr, hi, ht'.1, ht'.2, Real.sin_add]; ring)
        (by show q.dr * q.i + q.di * q.r = _; rw [hr, hi, ht'.1, ht'.2, Real.cos_add]; ring) (.inl ht')
      exact ⟨q', by rw [step _ rfl]; exact e, k⟩

/-- **C113.**  Whatever calls are made, as long as a rate is set before anything is processed, the oscillator holds the sine and minus the
cosine of the accumulated phase: it never leaves the unit circle and never becomes NaN. -/
theorem C113_phase {h : List Quad.Op} (ht : Spec.Tuned h) :
    ∃ q, Quad.default.run h = some q ∧ q.r = Real.sin (Spec.phase h) ∧ q.i = -Real.cos (Spec.phase h) :=
  run_unit h Quad.default (0, 0) (by simp [Quad.default]) (by simp [Quad.default]) (.inr ht)

/-- **C113.**  In particular a rate and `n` steps give a sampled sine. -/
theorem C113_sine (w φ : ℝ) (n : ℕ) :
    ∃ q, Quad.default.run ([.rate w, .phase φ] ++ List.replicate n .process) = some q ∧
      q.r = Real.sin (φ + n * w) ∧ q.i = -Real.cos (φ + n * w) := by
  have e : Spec.phase ([.rate w, .phase φ] ++ List.replicate n .process) = φ + n * w := by
    have : ∀ (n : ℕ) (p : ℝ × ℝ), ((List.replicate n Quad.Op.process).foldl Spec.turn p).1 = p.1 + n * p.2 := by
      intro n
      induction n with
      | zero => intro p; simp
      | succ n ih => intro p; rw [List.replicate_succ, List.foldl_cons, ih]; simp only [Spec.turn]; push_cast; ring
    rw [Spec.phase, List.foldl_append, this]; rfl
  have := C113_phase (h := [.rate w, .phase φ] ++ List.replicate n .process) (by
    intro pre post hp
    rcases pre with _ | ⟨a, pre⟩
    · simp at hp
    · simp only [List.cons_append, List.cons.injEq] at hp
      exact ⟨w, by rw [← hp.1]; simp⟩)
  rw [e] at this
  exact this

/-- **C113**, the hypothesis is needed: a step before the first `set_rate` collapses the oscillator to zero, it stays silent, and setting a
rate then makes it NaN. -/
theorem C113_untuned (n : ℕ) (w : ℝ) : (∃ q, Quad.default.run (List.replicate (n + 1) .process) = some q ∧ q.r = 0 ∧ q.i = 0) ∧
    Quad.default.run (List.replicate (n + 1) .process ++ [.rate w]) = none := by
  have key : ∀ n, Quad.default.run (List.replicate (n + 1) .process) = some ⟨0, 0, 0, 0⟩ := by
    intro n
    have z : ∀ n, (⟨0, 0, 0, 0⟩ : Quad).run (List.replicate n .process) = some ⟨0, 0, 0, 0⟩ := by
      intro n
      induction n with
      | zero => rfl
      | succ n ih =>
        rw [List.replicate_succ]
        show ((⟨0, 0, 0, 0⟩ : Quad).process).run _ = _
        rw [show (⟨0, 0, 0, 0⟩ : Quad).process = ⟨0, 0, 0, 0⟩ by simp [Quad.process]]
        exact ih
    rw [List.replicate_succ]
    show (Quad.default.process).run _ = _
    rw [show Quad.default.process = ⟨0, 0, 0, 0⟩ by simp [Quad.process, Quad.default]]
    exact z n
  refine ⟨⟨_, key n, rfl, rfl⟩, ?_⟩
  have e : ∀ a b (q : Quad), q.run (a ++ b) = (q.run a).bind fun q => q.run b := fun a b q => by
    unfold Quad.run; rw [List.foldlM_append]; rfl
  rw [e, key]
  show ((⟨0, 0, 0, 0⟩ : Quad).setRate w).bind _ = _
  rw [Quad.setRate, if_pos (by norm_num)]; rfl

/-- A history the claim speaks about: re-tuning and re-phasing on the way. -/
example : Spec.Tuned [.rate 1, .process, .phase 3, .rate 2, .process] ∧ Spec.phase [.rate 1, .process, .phase 3, .rate 2, .process] = 5 := by
  refine ⟨fun pre post e => ?_, by norm_num [Spec.phase, Spec.turn]⟩
  rcases pre with _ | ⟨a, pre⟩
  · simp at e
  · simp only [List.cons_append, List.cons.injEq] at e
    exact ⟨1, by rw [← e.1]; simp⟩

end Verif.Units
