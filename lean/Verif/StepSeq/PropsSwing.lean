import Verif.StepSeq.PropsNext
/-!
# C23: swing and mutation
-/
namespace Verif
open StepSeq Float

/-- A finite number in the unit interval. -/
def Unit01 (x : F32) : Prop := ∃ r, x = .fin r ∧ 0 ≤ r ∧ r ≤ 1

/-- The exact rational `x` forced into the unit interval. -/
def clampQ (x : ℚ) : ℚ := if x < 0 then 0 else if 1 < x then 1 else x

theorem clamp_fin (q : ℚ) : ((F32.fin q).max (.fin 0)).min (.fin 1) = .fin (clampQ q) := by
  unfold clampQ
  rcases lt_or_ge q 0 with h | h
  · simp [F32.max, F32.min, F32.lt, h]
  · rcases lt_or_ge 1 q with h1 | h1
    · simp [F32.max, F32.min, F32.lt, not_lt.mpr h, h1]
    · simp [F32.max, F32.min, F32.lt, not_lt.mpr h, not_lt.mpr h1]

theorem swingLoop_spec (k : Int) (n i : Nat) (s : Seq) (hin : i + 2 * n ≤ 17) :
    ∃ s', swingLoop k n i s = .ok s' ∧ s' = { s with steps := s'.steps } ∧
      ∀ j : Fin 16, s'.steps j =
        if i ≤ j.1 ∧ j.1 < i + 2 * n ∧ (j.1 - i) % 2 = 0 then swungValue (s.steps j) k else s.steps j := by
  induction n generalizing i s with
  | zero => exact ⟨s, rfl, rfl, fun j => by rw [if_neg (by omega)]⟩
  | succ n ih =>
    have hi : i < 16 := by omega
    obtain ⟨s', h1, h2, h3⟩ := ih (i + 2)
      { s with steps := setCell s.steps i (swungValue (s.steps ⟨i, hi⟩) k) } (by omega)
    refine ⟨s', by simp [swingLoop, hi, h1], by rw [h2], fun j => ?_⟩
    rw [h3 j]
    obtain ⟨j, hj⟩ := j
    simp only [setCell_get]
    by_cases hij : i = j
    · subst hij
      rw [if_neg (by omega), if_pos rfl, if_pos (by omega)]
    · rw [if_neg hij]
      by_cases hc : i + 2 ≤ j ∧ j < i + 2 + 2 * n ∧ (j - (i + 2)) % 2 = 0
      · rw [if_pos hc, if_pos (by omega)]
      · rw [if_neg hc, if_neg (by omega)]

/-- Is step `j` one of every second steps of the loop, counted from the loop start? -/
def Swung (s : Seq) (j : Nat) : Prop :=
  s.loopStart ≤ j ∧ j ≤ s.loopEnd ∧ (j - s.loopStart) % 2 = 0

instance (s : Seq) (j : Nat) : Decidable (Swung s j) := by unfold Swung; infer_instance

theorem applySwing_spec (s : Seq) (hv : ValidLoop s) (amount : F32) :
    ∃ k s', swingSteps s amount = .ok k ∧ s.applySwing amount = .ok s' ∧ s' = { s with steps := s'.steps } ∧
      ∀ j : Fin 16, s'.steps j = if Swung s j.1 then swungValue (s.steps j) k else s.steps j := by
  obtain ⟨h1, h2⟩ := id hv
  have hk : swingSteps s amount =
      .ok ((amount.mul (.fin ((s.loopEnd - s.loopStart + 1 : Nat) : ℚ))).round.toI32) := by
    unfold swingSteps; rw [loopLen_ok hv]; simp only [Res.ok_bind, Res.pure_eq]
  obtain ⟨s', e, hsame, hj⟩ := swingLoop_spec
    ((amount.mul (.fin ((s.loopEnd - s.loopStart + 1 : Nat) : ℚ))).round.toI32)
    ((s.loopEnd - s.loopStart) / 2 + 1) s.loopStart s (by omega)
  refine ⟨_, s', hk, ?_, hsame, fun j => ?_⟩
  · unfold Seq.applySwing; rw [hk, Res.ok_bind, e]
  · rw [hj j]
    by_cases hc : Swung s j.1
    · rw [if_pos hc, if_pos (by unfold Swung at hc; omega)]
    · rw [if_neg hc, if_neg (by unfold Swung at hc; omega)]

/-- C23, swing: for every loop inside the sixteen steps and every amount (NaN and infinities included)
`apply_swing` returns; every second step of the loop ends up in `[0,1]` whatever it was before, every other
step and every other field is unchanged. -/
theorem C23_swing_range (s : Seq) (hv : ValidLoop s) (amount : F32) :
    ∃ s', s.applySwing amount = .ok s' ∧ s' = { s with steps := s'.steps } ∧
      ∀ j : Fin 16, (Swung s j.1 → Unit01 (s'.steps j)) ∧ (¬ Swung s j.1 → s'.steps j = s.steps j) := by
  obtain ⟨k, s', _, e, hsame, hj⟩ := applySwing_spec s hv amount
  refine ⟨s', e, hsame, fun j => ⟨fun h => ?_, fun h => ?_⟩⟩
  · rw [hj j, if_pos h]; exact F32.clamp01 _
  · rw [hj j, if_neg h]

theorem swungValue_small (q : ℚ) (hq0 : 0 ≤ q) (hq1 : q ≤ 1) (k : Int) (hk : |k| ≤ 2 ^ 20) :
    swungValue (.fin q) k = .fin (clampQ (rne (q + k / 16))) := by
  unfold swungValue
  rw [F32.ofInt_eq (by omega)]
  have hkq : -(2 ^ 20 : ℚ) ≤ k ∧ (k : ℚ) ≤ 2 ^ 20 := by
    have := abs_le.mp hk
    constructor
    · exact_mod_cast this.1
    · exact_mod_cast this.2
  have h16 : rne ((k : ℚ) / 16) = k / 16 := by
    have := rne_mul_zpow k (-4) (by omega) (by norm_num)
    rw [show (k:ℚ) * 2 ^ (-4 : ℤ) = k / 16 by norm_num; ring] at this
    exact this
  have e1 : (F32.fin (k:ℚ)).divC 16 = .fin (k / 16) := by
    show F32.ofQ _ = _
    rw [F32.ofQ_fin (by norm_num at *; linarith) (by norm_num at *; linarith), h16]
  rw [e1, add_fin, F32.ofQ_fin (by norm_num at *; linarith) (by norm_num at *; linarith), clamp_fin]

/-- C23, swing, what the swung steps become: with an amount in `[0,1]` a swung step holding a number in `[0,1]`
is moved by `k/16` and forced into `[0,1]`, where `k` is the nearest integer to amount times loop length. -/
theorem C23_swing_value (s : Seq) (hv : ValidLoop s) (a : ℚ) (ha0 : 0 ≤ a) (ha1 : a ≤ 1) (j : Fin 16)
    (hj : Swung s j.1) (q : ℚ) (hq : s.steps j = .fin q) (hq0 : 0 ≤ q) (hq1 : q ≤ 1) :
    ∃ (s' : Seq) (k : ℤ), s.applySwing (.fin a) = .ok s' ∧
      |(k : ℚ) - rne (a * (s.loopEnd - s.loopStart + 1 : Nat))| ≤ 1 / 2 ∧
      s'.steps j = .fin (clampQ (rne (q + k / 16))) := by
  obtain ⟨k, s', hk, e, _, hst⟩ := applySwing_spec s hv (.fin a)
  obtain ⟨h1, h2⟩ := id hv
  have hL : ((s.loopEnd - s.loopStart + 1 : Nat) : ℚ) ≤ 16 := by
    have : s.loopEnd - s.loopStart + 1 ≤ 16 := by omega
    exact_mod_cast this
  have hL0 : (0:ℚ) ≤ ((s.loopEnd - s.loopStart + 1 : Nat) : ℚ) := by positivity
  set L : ℚ := ((s.loopEnd - s.loopStart + 1 : Nat) : ℚ)
  have hp0 : 0 ≤ a * L := mul_nonneg ha0 hL0
  have hp1 : a * L ≤ 16 := by nlinarith
  obtain ⟨r, er, ra, rb⟩ := F32.ofQ_between (q := a * L) (a := 0) (b := 16) (by push_cast; exact hp0)
    (by push_cast; exact hp1) (by norm_num) (by norm_num)
  push_cast at ra rb
  have hr : r = rne (a * L) := by
    rw [F32.ofQ_fin (by norm_num at *; linarith) (by norm_num at *; linarith)] at er
    injection er with er; exact er.symm
  have hfl : (0:ℤ) ≤ ⌊r + 1 / 2⌋ ∧ ⌊r + 1 / 2⌋ ≤ 16 := by
    constructor
    · exact Int.floor_nonneg.mpr (by linarith)
    · have h3 : ⌊r + 1 / 2⌋ < 17 := Int.floor_lt.mpr (by push_cast; linarith)
      omega
  have hkk : k = ⌊r + 1 / 2⌋ := by
    unfold swingSteps at hk
    rw [loopLen_ok hv] at hk
    simp only [Res.ok_bind, Res.pure_eq] at hk
    injection hk with hk
    rw [← hk]
    show ((F32.ofQ (a * L)).round).toI32 = _
    rw [er]
    simp only [F32.round, if_pos ra, F32.toI32, F32.toIntSat, F32.truncQ]
    have hnn : (0:ℚ) ≤ ((⌊r + 1 / 2⌋ : ℤ) : ℚ) := by exact_mod_cast hfl.1
    rw [if_pos hnn, Int.floor_intCast]
    omega
  refine ⟨s', k, e, ?_, ?_⟩
  · rw [← hr, hkk, abs_le]
    have f1 := Int.floor_le (r + 1 / 2)
    have f2 := Int.lt_floor_add_one (r + 1 / 2)
    constructor <;> linarith
  · rw [hst j, if_pos hj, hq]
    exact swungValue_small q hq0 hq1 k (by rw [abs_le]; omega)

example : ValidLoop demoSeq ∧ Swung demoSeq 4 ∧ ¬ Swung demoSeq 5 ∧ demoSeq.steps 4 = .fin 0 := by
  refine ⟨by decide, by decide, by decide, rfl⟩

/-- C23, the excluded loops: a loop end below the loop start always panics. -/
theorem C23_swing_bad_loop_panics (s : Seq) (h : s.loopEnd < s.loopStart) (amount : F32) :
    (s.applySwing amount).isPanic = true := by
  have : loopLen s = .panic "usize subtract overflow" := by
    unfold loopLen; rw [if_neg (by omega)]
  simp [Seq.applySwing, swingSteps, this, Res.isPanic]

/-! ## mutation -/

theorem mutate_fold (rate range : F32) (hr : range.neg.lt range = true) (rnd : Fin 16 → F32 × F32)
    (l : List (Fin 16)) (hnd : l.Nodup) (s : Seq) :
    ∃ s', l.foldlM (fun s i => mutateOne rate range (rnd i).1 (rnd i).2 i s) s = .ok s' ∧
      s' = { s with steps := s'.steps } ∧
      ∀ j, s'.steps j = if j ∈ l ∧ (rnd j).1.lt rate = true
        then (((s.steps j).add (rnd j).2).max (.fin 0)).min (.fin 1) else s.steps j := by
  induction l generalizing s with
  | nil => exact ⟨s, rfl, rfl, fun j => by simp⟩
  | cons i l ih =>
    have hnd' := List.nodup_cons.mp hnd
    by_cases hu : (rnd i).1.lt rate = true
    · have e : mutateOne rate range (rnd i).1 (rnd i).2 i s = .ok
          { s with steps := setCell s.steps i.1 ((((s.steps i).add (rnd i).2).max (.fin 0)).min (.fin 1)) } := by
        simp [mutateOne, hu, hr]
      obtain ⟨s', h1, h2, h3⟩ := ih hnd'.2
        { s with steps := setCell s.steps i.1 ((((s.steps i).add (rnd i).2).max (.fin 0)).min (.fin 1)) }
      refine ⟨s', by rw [List.foldlM_cons, e, Res.ok_bind, h1], by rw [h2], fun j => ?_⟩
      rw [h3 j]
      by_cases hji : j = i
      · subst hji
        simp [hnd'.1, hu, setCell]
      · have hne : j.1 ≠ i.1 := fun h => hji (Fin.ext h)
        simp [hji, setCell, hne]
    · have e : mutateOne rate range (rnd i).1 (rnd i).2 i s = .ok s := by simp [mutateOne, hu]
      obtain ⟨s', h1, h2, h3⟩ := ih hnd'.2 s
      refine ⟨s', by rw [List.foldlM_cons, e, Res.ok_bind, h1], by rw [h2], fun j => ?_⟩
      rw [h3 j]
      by_cases hji : j = i
      · subst hji; simp [hu]
      · simp [hji]

/-- C23, mutation: for every non-empty mutation range and every outcome of the generator `mutate_sequence`
returns, the steps selected by the generator end up in `[0,1]`, and nothing else changes. -/
theorem C23_mutate_range (s : Seq) (rate range : F32) (hr : range.neg.lt range = true)
    (rnd : Fin 16 → F32 × F32) :
    ∃ s', s.mutate rate range rnd = .ok s' ∧ s' = { s with steps := s'.steps } ∧
      ∀ j : Fin 16, ((rnd j).1.lt rate = true → Unit01 (s'.steps j)) ∧
        ((rnd j).1.lt rate = false → s'.steps j = s.steps j) := by
  obtain ⟨s', h1, h2, h3⟩ := mutate_fold rate range hr rnd (List.finRange 16) (List.nodup_finRange 16) s
  refine ⟨s', h1, h2, fun j => ⟨fun h => ?_, fun h => ?_⟩⟩
  · rw [h3 j, if_pos ⟨List.mem_finRange j, h⟩]; exact F32.clamp01 _
  · rw [h3 j, if_neg (by simp [h])]

example : (F32.fin (1 / 10)).neg.lt (.fin (1 / 10)) = true := by
  simp only [F32.neg, lt_fin]; norm_num

/-- C23, the excluded ranges: if some step is selected and the range is empty (zero, negative, NaN), it panics. -/
theorem C23_mutate_empty_range_panics (s : Seq) (rate range : F32) (hr : range.neg.lt range = false)
    (rnd : Fin 16 → F32 × F32) (h0 : ∃ j, (rnd j).1.lt rate = true) :
    (s.mutate rate range rnd).isPanic = true := by
  have key : ∀ (l : List (Fin 16)) (s : Seq), (∃ j ∈ l, (rnd j).1.lt rate = true) →
      (l.foldlM (fun s i => mutateOne rate range (rnd i).1 (rnd i).2 i s) s).isPanic = true := by
    intro l
    induction l with
    | nil => intro s h; simp at h
    | cons i l ih =>
      intro s h
      rw [List.foldlM_cons]
      by_cases hu : (rnd i).1.lt rate = true
      · simp [mutateOne, hu, hr, Res.isPanic]
      · have e : mutateOne rate range (rnd i).1 (rnd i).2 i s = .ok s := by simp [mutateOne, hu]
        rw [e, Res.ok_bind]
        apply ih
        obtain ⟨j, hj, hj2⟩ := h
        rcases List.mem_cons.mp hj with rfl | hj
        · exact absurd hj2 hu
        · exact ⟨j, hj, hj2⟩
  obtain ⟨j, hj⟩ := h0
  exact key _ s ⟨j, List.mem_finRange j, hj⟩

end Verif
