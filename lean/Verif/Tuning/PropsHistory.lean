import Verif.Tuning.PropsParse
/-!
# C42: tuning state across histories of retune / remap / reset
-/
namespace Verif.Tuning
open Spec

/-- What a user can do to a tuner. -/
inductive TuneOp
  | retune (sc : Scale)     -- retune_to_scale
  | remap (m : Mapping)     -- remap_to_keyboard
  | reset                   -- retune_to_standard_tuning / init

noncomputable def step (tv : List Char → P ℚ) (t : Tuner) : TuneOp → P Tuner
  | .retune sc => do let r ← t.retune sc; pure r.2
  | .remap m => t.remap tv m
  | .reset => .ok t.init

noncomputable def run (tv : List Char → P ℚ) : Tuner → List TuneOp → P Tuner
  | t, [] => .ok t
  | t, o :: os => do let t' ← step tv t o; run tv t' os

/-- What is always true: a tuner flagged standard holds the equal-tempered table; one that is not has a scale. -/
structure Inv (t : Tuner) : Prop where
  std : t.isStdTuning = true → t.table = stdTable ∧ t.tableInv = (fun i => 1 / stdTable i) ∧ t.scale.isValid = false
  non : t.isStdTuning = false → t.scale.isValid = true

theorem inv_fresh : Inv Tuner.fresh := ⟨fun _ => ⟨rfl, rfl, rfl⟩, fun h => by cases h⟩

theorem inv_init (t : Tuner) : Inv t.init := ⟨fun _ => ⟨rfl, rfl, rfl⟩, fun h => by cases h⟩

theorem retune_cases {t t' : Tuner} {sc : Scale} {b : Bool} (h : t.retune sc = .ok (b, t')) :
    (b = false ∧ t' = t ∧ sc.isValid = false) ∨
    (b = true ∧ t'.isStdTuning = false ∧ t'.scale = sc ∧ sc.isValid = true ∧ t'.pitch = t.pitch ∧
      t'.mapping = t.mapping) := by
  unfold Tuner.retune at h
  cases hv : sc.isValid with
  | false =>
    simp only [hv, Bool.not_false, if_true] at h
    injection h with h; injection h with h1 h2
    exact Or.inl ⟨h1.symm, h2.symm, rfl⟩
  | true =>
    simp only [hv, Bool.not_true, Bool.false_eq_true, if_false] at h
    cases hp : allPitches sc t.mapping with
    | err e => cases e
    | panic w => rw [hp] at h; cases h
    | ok ps =>
      rw [hp] at h
      simp only [Res.ok_bind, Res.pure_eq] at h
      injection h with h; injection h with h1 h2
      subst h2
      exact Or.inr ⟨h1.symm, rfl, rfl, rfl, rfl, rfl⟩

theorem bind_ok {α β : Type} {x : P α} {f : α → P β} {b : β} (h : (x >>= f) = .ok b) : ∃ a, x = .ok a ∧ f a = .ok b := by
  cases x with
  | ok a => exact ⟨a, rfl, h⟩
  | err e => cases e
  | panic w => cases h

/-- `remap`, case by case. -/
theorem remap_cases {tv : List Char → P ℚ} {t t' : Tuner} {m : Mapping} (h : t.remap tv m = .ok t') :
    let c : ℝ := if m.isStandard then 32 else m.tuningFreq / 8.175798915
    (m.isStandard = true ∧ t.isStdTuning = true ∧ t' = Tuner.init { t with mapping := m, pitch := c }) ∨
    (m.isStandard = false ∧ t.scale.isValid = false ∧ t' = { t with mapping := m, pitch := c }) ∨
    (∃ b, Tuner.retune { t with mapping := m, pitch := c } t.scale = .ok (b, t')) := by
  intro c
  unfold Tuner.remap Tuner.remapWith at h
  rw [C24_builtin_scale_is_empty] at h
  dsimp only at h
  split at h
  · rename_i hc
    simp only [Bool.and_eq_true] at hc
    injection h with h
    exact Or.inl ⟨hc.1, hc.2, h.symm⟩
  · split at h
    · rename_i hc
      simp only [Bool.and_eq_true, Bool.not_eq_true'] at hc
      right; left
      refine ⟨hc.1, hc.2, ?_⟩
      have : Tuner.retune { t with mapping := m, pitch := c } Scale.empty = .ok (false, { t with mapping := m, pitch := c }) := rfl
      rw [Res.ok_bind, this] at h
      injection h with h
      exact h.symm
    · right; right
      obtain ⟨⟨b, t2⟩, h1, h2⟩ := bind_ok h
      injection h2 with h2
      subst h2
      exact ⟨b, h1⟩

theorem inv_step (tv : List Char → P ℚ) (t t' : Tuner) (o : TuneOp) (hi : Inv t) (h : step tv t o = .ok t') : Inv t' := by
  cases o with
  | reset => injection h with h; subst h; exact inv_init t
  | retune sc =>
    obtain ⟨⟨b, t2⟩, h1, h2⟩ := bind_ok h
    injection h2 with h2; subst h2
    rcases retune_cases h1 with ⟨_, e, _⟩ | ⟨_, e1, e2, e3, _⟩
    · rw [e]; exact hi
    · exact ⟨fun hc => by simp [e1] at hc, fun _ => by rw [e2]; exact e3⟩
  | remap m =>
    rcases remap_cases h with ⟨_, _, e⟩ | ⟨_, _, e⟩ | ⟨b, e⟩
    · rw [e]; exact inv_init _
    · rw [e]; exact ⟨hi.std, hi.non⟩
    · rcases retune_cases e with ⟨_, e, _⟩ | ⟨_, e1, e2, e3, _⟩
      · rw [e]; exact ⟨hi.std, hi.non⟩
      · exact ⟨fun hc => by simp [e1] at hc, fun _ => by rw [e2]; exact e3⟩

theorem inv_run (tv : List Char → P ℚ) (os : List TuneOp) (t t' : Tuner) (hi : Inv t) (h : run tv t os = .ok t') :
    Inv t' := by
  induction os generalizing t with
  | nil => injection h with h; subst h; exact hi
  | cons o os ih =>
    obtain ⟨t2, h1, h2⟩ := bind_ok h
    exact ih t2 (inv_step tv t t2 o hi h1) h2

/-- **C42 (flag and tables agree)**: after any history of retuning, remapping and resetting, a tuner that reports
standard tuning holds exactly the equal-tempered tables, and one that does not has a scale in force. -/
theorem C42_standard_flag_means_standard_tables (tv : List Char → P ℚ) (os : List TuneOp) (t : Tuner)
    (h : run tv Tuner.fresh os = .ok t) :
    (t.isStdTuning = true → t.table = stdTable ∧ t.tableInv = fun i => 1 / stdTable i) ∧
    (t.isStdTuning = false → t.scale.isValid = true) := by
  have hi := inv_run tv os _ _ inv_fresh h
  exact ⟨fun hs => ⟨(hi.std hs).1, (hi.std hs).2.1⟩, hi.non⟩

/-- **C42 (standard keyboard)**: after any history, going back to the standard keyboard leaves the tables of the scale in
force at the standard reference pitch — nothing else of the history matters; with no scale in force they are the
equal-tempered tables. -/
theorem C42_standard_keyboard_forgets_history_partial (tv : List Char → P ℚ) (os : List TuneOp) (t : Tuner)
    (h : run tv Tuner.fresh os = .ok t) (hw : t.scale.isValid = true → WellFormed t.scale) :
    ∃ t', t.remap tv Mapping.default = .ok t' ∧
      (t.scale.isValid = false → t'.table = stdTable) ∧
      (t.scale.isValid = true → ∀ i < 512, t'.table i =
        32 * (2 : ℝ) ^ (((degree t.scale ((i : ℤ) - 316) - 1 : ℚ)) : ℝ)) := by
  have hi := inv_run tv os _ _ inv_fresh h
  have hstd : Mapping.default.isStandard = true := rfl
  cases hs : t.isStdTuning with
  | true =>
    obtain ⟨_, _, hv⟩ := hi.std hs
    refine ⟨Tuner.init { t with mapping := Mapping.default, pitch := 32 }, ?_, fun _ => rfl, fun hc => by simp [hv] at hc⟩
    unfold Tuner.remap Tuner.remapWith
    simp only [hstd, hs, Bool.and_self, if_true]
  | false =>
    have hv := hi.non hs
    obtain ⟨t', r, _, ht⟩ := C25_table_contents { t with mapping := Mapping.default, pitch := 32 } t.scale (hw hv)
      default_linear (by norm_num)
    refine ⟨t', ?_, fun hc => by simp [hv] at hc, fun _ i h5 => ?_⟩
    · unfold Tuner.remap Tuner.remapWith
      simp only [hstd, hs, Bool.and_false, Bool.false_eq_true, if_false, if_true, Bool.not_true, Bool.false_and]
      rw [hs] at r
      rw [r]; rfl
    · have e0 : (Mapping.default.tuningNote - Mapping.default.middle) = 0 := rfl
      have := (ht i h5).1
      dsimp only at this
      rw [this, e0, degree_zero]
      have e1 : (i : ℤ) - 256 - Mapping.default.middle = (i : ℤ) - 316 := by
        show (i : ℤ) - 256 - 60 = _; ring
      rw [e1]

/-- **C42 fails**: resetting to standard tuning does not restore the reference pitch.  After mapping a keyboard with
reference frequency `f` and resetting, a scale is tuned to reference `f / 8.175798915` on note 60 instead of 32 — for
every scale and every such `f`. -/
theorem C42_reset_keeps_reference_pitch (tv : List Char → P ℚ) (sc : Scale) (h : WellFormed sc) (m : Mapping)
    (hstd : m.isStandard = false) (hf : 0 < m.tuningFreq) :
    ∃ t1 t3, run tv Tuner.fresh [.remap m, .reset] = .ok t1 ∧ t1.table = stdTable ∧ t1.mapping = Mapping.default ∧
      t1.retune sc = .ok (true, t3) ∧ t3.table 316 = m.tuningFreq / 8.175798915 := by
  have hr : Tuner.fresh.remap tv m = .ok { Tuner.fresh with mapping := m, pitch := m.tuningFreq / 8.175798915 } := by
    unfold Tuner.remap Tuner.remapWith
    rw [C24_builtin_scale_is_empty]
    have hv : Tuner.fresh.scale.isValid = false := rfl
    simp only [hstd, hv, Bool.false_and, Bool.false_eq_true, if_false, Bool.not_false, Bool.and_self, if_true]
    rfl
  have e1 : run tv Tuner.fresh [.remap m, .reset] =
      .ok (Tuner.init { Tuner.fresh with mapping := m, pitch := m.tuningFreq / 8.175798915 }) := by
    simp only [run, step, hr, Res.ok_bind]
  obtain ⟨t3, r3, hp⟩ := C26_reference_pitch
    (Tuner.init { Tuner.fresh with mapping := m, pitch := m.tuningFreq / 8.175798915 }) sc h default_linear
    (div_pos hf (by norm_num))
  exact ⟨_, t3, e1, rfl, rfl, r3, hp⟩

/-- Non-vacuity: 440 Hz on note 69 with no key list gives reference 53.8…, not 32. -/
noncomputable example : ∃ m : Mapping, m.isStandard = false ∧ 0 < m.tuningFreq ∧ m.tuningFreq / 8.175798915 ≠ 32 :=
  ⟨{ Mapping.default with isStandard := false, count := 0, tuningNote := 69, tuningFreq := 440 }, rfl,
    by norm_num, by norm_num⟩

/-- A tuner that was created but never initialised has all-zero tables although it reports standard tuning. -/
theorem C42_uninitialised_tables_are_zero :
    Tuner.new.isStdTuning = true ∧ (∀ i, Tuner.new.table i = 0) ∧ Tuner.new.init = Tuner.fresh :=
  ⟨rfl, fun _ => rfl, rfl⟩

end Verif.Tuning
