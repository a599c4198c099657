import Mathlib.Analysis.SpecialFunctions.Pow.Real
import Mathlib.Analysis.SpecificLimits.Basic
/-!
# Noise and drift (C236, C237), in exact real arithmetic

surge-math/src/correlated_noise.rs and its callers.  The random draws are any sequence of numbers between -1 and 1.  The functions take the last values *by value* and return one number; what they assign to
their arguments is lost.  Not modelled: rounding; `_mm_rsqrt_ss` is any function within a relative error of the reciprocal root.
-/
namespace Verif.Dsp.Noise

/-! ## Model -/

/-- correlated_noise.rs 20-32 `correlated_noise`; `r` is the draw. -/
noncomputable def correlated (r last correlation : ℝ) : ℝ :=
  let wf := correlation * 0.9
  r * (1 - |wf|) - wf * last

/-- correlated_noise.rs 36-46 `correlated_noise_mk2`. -/
noncomputable def correlatedMk2 (r last correlation : ℝ) : ℝ :=
  let wf := correlation * 0.9
  (r * (1 - |wf|) - wf * last) * (1 / Real.sqrt (1 - |wf|))

/-- correlated_noise.rs 51-60 `drift_noise`. -/
noncomputable def driftNoise (r last : ℝ) : ℝ :=
  let filter : ℝ := 0.00001
  (last * (1 - filter) + r * filter) * (1 / Real.sqrt filter)

/-- correlated_noise.rs 64-74 `correlated_noise_o2`. -/
noncomputable def correlatedO2 (r last last2 correlation : ℝ) : ℝ :=
  let wf := correlation * 0.9
  let randt := r * (1 - |wf|) - wf * last2
  randt * (1 - |wf|) - wf * last

/-- correlated_noise.rs 83-94: the weight, signed. -/
noncomputable def weight (correlation : ℝ) : ℝ × ℝ :=
  let a := |correlation| * 0.8
  let a := 2 * a - a * a
  (open Classical in if correlation > 0 then a else -a, a)

/-- correlated_noise.rs 80-125 `correlated_noise_o2mk2`; `rs` is the reciprocal root. -/
noncomputable def correlatedO2mk2 (rs : ℝ → ℝ) (r last last2 correlation : ℝ) : ℝ :=
  let w := weight correlation
  let last2 := r * (1 - w.2) - w.1 * last2
  let last := last2 * (1 - w.2) - w.1 * last
  last * rs (1 - w.2)

/-- surge-voice/src/do_noise.rs 12-37: `n` blocks' worth of pairs of samples of one channel, with the generator's two values `gen`; the generator as it is afterwards, and the samples. -/
noncomputable def voiceNoise (rs : ℝ → ℝ) (gen : ℝ × ℝ) (colour : ℕ → ℝ) (r : ℕ → ℝ) : ℕ → (ℝ × ℝ) × (ℕ → ℝ)
  | 0 => (gen, fun _ => 0)
  | n + 1 =>
    let p := voiceNoise rs gen colour r n
    let z := correlatedO2mk2 rs (r n) p.1.1 p.1.2 (colour n)
    (p.1, fun i => if i = 2 * n ∨ i = 2 * n + 1 then z else p.2 i)

/-- The oscillators' use of the drift, once a block (for example surgeosc-super/src/process/no_fm.rs 12): the value kept, `driftlfo2`, afterwards, and the drift. -/
noncomputable def drifted (kept : ℝ) (r : ℕ → ℝ) : ℕ → ℝ × ℝ
  | 0 => (kept, 0)
  | n + 1 => ((drifted kept r n).1, driftNoise (r n) (drifted kept r n).1)

/-! ## C236: the generators -/

/-- The caller feeds the last value back. -/
noncomputable def Spec.chain (r c : ℕ → ℝ) (v : ℝ) : ℕ → ℝ
  | 0 => v
  | n + 1 => correlated (r n) (Spec.chain r c v n) (c n)

/-- **C236.**  Correlated noise fed back stays between -1 and 1 for ever, whatever the draws and however the correlation is moved between -1 and 1; without correlation it is the draws; and the memory of
where it began fades: two runs with the same draws come together by a tenth at each step. -/
theorem C236_bounded {r c : ℕ → ℝ} (hr : ∀ n, |r n| ≤ 1) (hc : ∀ n, |c n| ≤ 1) {v w : ℝ} (hv : |v| ≤ 1) (hw : |w| ≤ 1) (n : ℕ) :
    |Spec.chain r c v n| ≤ 1 ∧ (∀ x, correlated (r n) x 0 = r n) ∧ |Spec.chain r c v n - Spec.chain r c w n| ≤ 2 * (9 / 10) ^ n := by
  have wa : ∀ n, |c n * 0.9| ≤ 9 / 10 := fun n => by
    rw [abs_mul, abs_of_pos (by norm_num : (0 : ℝ) < 0.9)]
    linarith [hc n]
  have bd : ∀ v, |v| ≤ 1 → ∀ n, |Spec.chain r c v n| ≤ 1 := fun v hv n => by
    induction n with
    | zero => exact hv
    | succ n ih =>
      show |r n * (1 - |c n * 0.9|) - c n * 0.9 * Spec.chain r c v n| ≤ 1
      have a0 := abs_nonneg (c n * 0.9)
      have a1 := wa n
      calc _ ≤ |r n * (1 - |c n * 0.9|)| + |c n * 0.9 * Spec.chain r c v n| := abs_sub _ _
        _ = |r n| * (1 - |c n * 0.9|) + |c n * 0.9| * |Spec.chain r c v n| := by rw [abs_mul, abs_mul (c n * 0.9), abs_of_nonneg (by linarith : 0 ≤ 1 - |c n * 0.9|)]
        _ ≤ 1 * (1 - |c n * 0.9|) + |c n * 0.9| * 1 := add_le_add (mul_le_mul_of_nonneg_right (hr n) (by linarith)) (mul_le_mul_of_nonneg_left ih a0)
        _ = 1 := by ring
  refine ⟨bd v hv n, fun x => by simp [correlated], ?_⟩
  induction n with
  | zero =>
    have := abs_sub v w
    simp only [Spec.chain, pow_zero]
    linarith
  | succ n ih =>
    have e : Spec.chain r c v (n + 1) - Spec.chain r c w (n + 1) = -(c n * 0.9) * (Spec.chain r c v n - Spec.chain r c w n) := by
      simp only [Spec.chain, correlated]; ring
    rw [e, abs_mul, abs_neg, pow_succ]
    calc _ ≤ 9 / 10 * (2 * (9 / 10) ^ n) := mul_le_mul (wa n) ih (abs_nonneg _) (by norm_num)
      _ = _ := by ring

/-- **C236.**  Positive correlation really makes the noise bright and negative dark: on draws that are all 1 the value settles at `(1 - 0.9 |c|) / (1 + 0.9 c)`, on alternating draws at that of `-c`, alternating. -/
theorem C236_tilt {c : ℝ} (hc : |c| ≤ 1) : let g := fun c : ℝ => (1 - |c * 0.9|) / (1 + c * 0.9)
    (∀ s, s = g c → correlated 1 s c = s) ∧ (∀ s, s = g (-c) → correlated (-1) s c = -s) ∧ (0 < c → g c < g (-c)) := by
  obtain ⟨c0, c1⟩ := abs_le.1 hc
  have p : (0 : ℝ) < 1 + c * 0.9 := by norm_num; linarith
  have q : (0 : ℝ) < 1 + -c * 0.9 := by norm_num; linarith
  refine ⟨fun s hs => ?_, fun s hs => ?_, fun h => ?_⟩
  · rw [eq_div_iff p.ne'] at hs
    simp only [correlated]
    linarith
  · rw [eq_div_iff q.ne'] at hs
    simp only [correlated]
    rw [show |c * 0.9| = |-c * 0.9| by rw [neg_mul, abs_neg]]
    linarith
  · have h9 : 0 < c * 0.9 := by positivity
    simp only [neg_mul, abs_neg, abs_of_pos h9]
    rw [neg_mul] at q
    refine div_lt_div_of_pos_left ?_ q ?_
    · linarith
    · linarith

/-! ## C237: what the callers get -/

/-- A reciprocal root within a relative error of `ε`. -/
def Spec.Root (rs : ℝ → ℝ) (ε : ℝ) : Prop := ∀ x, 0 < x → |rs x * Real.sqrt x - 1| ≤ ε

/-- **C237** (refuted: the noise colour changes the spectrum).  Colour is only volume: whatever the draws and the automation of the colour, each sample of a voice's noise is its own draw times a number
that depends on the colour alone and is `(1 - 0.8 |c|) ^ 3` up to the error of the reciprocal root; so noise stays white, and 42 dB quieter at both ends of the colour's range. -/
theorem C237_colour_is_volume_refuted (rs : ℝ → ℝ) : ∃ g : ℝ → ℝ, (∀ ε, Spec.Root rs ε → ∀ c, |c| ≤ 1 → |g c - (1 - 0.8 * |c|) ^ 3| ≤ ε * (1 - 0.8 * |c|) ^ 3) ∧
    ∀ (colour r : ℕ → ℝ) (n i : ℕ), i < 2 * n → (voiceNoise rs (0, 0) colour r n).2 i = g (colour (i / 2)) * r (i / 2) := by
  refine ⟨fun c => (1 - (weight c).2) * (1 - (weight c).2) * rs (1 - (weight c).2), fun ε hε c hc => ?_, fun colour r n => ?_⟩
  · obtain ⟨a, ha⟩ : ∃ a, a = 1 - 0.8 * |c| := ⟨_, rfl⟩
    have a0 : 0 < a := by rw [ha]; norm_num; linarith
    have ew : 1 - (weight c).2 = a ^ 2 := by
      simp only [weight]
      rw [ha]; ring
    rw [← ha]
    simp only [ew]
    have h := hε (a ^ 2) (by positivity)
    rw [Real.sqrt_sq a0.le] at h
    have e : a ^ 2 * a ^ 2 * rs (a ^ 2) - a ^ 3 = (rs (a ^ 2) * a - 1) * a ^ 3 := by ring
    rw [e, abs_mul, abs_of_pos (by positivity : 0 < a ^ 3)]
    exact mul_le_mul_of_nonneg_right h (by positivity)
  · have hg : ∀ n, (voiceNoise rs (0, 0) colour r n).1 = (0, 0) := fun n => by
      induction n with
      | zero => rfl
      | succ n ih => exact ih
    induction n with
    | zero => intro i hi; omega
    | succ n ih =>
      intro i hi
      simp only [voiceNoise, hg]
      by_cases h : i = 2 * n ∨ i = 2 * n + 1
      · rw [if_pos h, show i / 2 = n by omega]
        simp only [correlatedO2mk2]
        ring
      · rw [if_neg h]
        exact ih i (by omega)

/-- The true reciprocal root qualifies. -/
example : Spec.Root (fun x => 1 / Real.sqrt x) 0 := fun x hx => by
  have := Real.sqrt_pos.2 hx
  field_simp
  simp
/-- At the end of the range the gain is 0.008. -/
example : (1 - 0.8 * |(1 : ℝ)|) ^ 3 = 0.008 := by norm_num

/-- What the drift is meant to be: the value kept moves. -/
noncomputable def Spec.wanders (kept : ℝ) (r : ℕ → ℝ) : ℕ → ℝ
  | 0 => kept
  | n + 1 => Spec.wanders kept r n * (1 - 0.00001) + r n * 0.00001

/-- **C237** (refuted: the pitch of an oscillator drifts).  The drift does not wander: for all draws each block's drift is its own draw times `√0.00001` around a value fixed when the note began, so any two
blocks' drifts differ by at most 0.0064, for ever, and neighbouring blocks jump as far as distant ones; while the value that was to be kept would, under the draws that are all 1, come as near as one likes to
`1 / √0.00001`, over 316. -/
theorem C237_drift_stays_refuted (kept : ℝ) : (∀ r : ℕ → ℝ, ∀ n, (drifted kept r (n + 1)).2 = kept * (1 - 0.00001) / Real.sqrt 0.00001 + r n * Real.sqrt 0.00001) ∧
    (∀ r : ℕ → ℝ, (∀ n, |r n| ≤ 1) → ∀ n m, |(drifted kept r (n + 1)).2 - (drifted kept r (m + 1)).2| ≤ 0.0064) ∧
    Filter.Tendsto (fun n => Spec.wanders kept (fun _ => 1) n * (1 / Real.sqrt 0.00001)) Filter.atTop (nhds (1 / Real.sqrt 0.00001)) ∧ (316 : ℝ) < 1 / Real.sqrt 0.00001 := by
  have s0 : 0 < Real.sqrt (0.00001 : ℝ) := Real.sqrt_pos.2 (by norm_num)
  have sq : Real.sqrt (0.00001 : ℝ) * Real.sqrt 0.00001 = 0.00001 := Real.mul_self_sqrt (by norm_num)
  have hk : ∀ r : ℕ → ℝ, ∀ n, (drifted kept r n).1 = kept := fun r n => by
    induction n with
    | zero => rfl
    | succ n ih => exact ih
  have e : ∀ r : ℕ → ℝ, ∀ n, (drifted kept r (n + 1)).2 = kept * (1 - 0.00001) / Real.sqrt 0.00001 + r n * Real.sqrt 0.00001 := fun r n => by
    simp only [drifted, hk, driftNoise]
    generalize Real.sqrt (0.00001 : ℝ) = s at s0 sq
    rw [← sq]
    field_simp
  refine ⟨e, fun r hr n m => ?_, ?_, ?_⟩
  · rw [e, e]
    have h1 : Real.sqrt (0.00001 : ℝ) ≤ 0.0032 := by
      rw [Real.sqrt_le_left (by norm_num)]; norm_num
    have : kept * (1 - 0.00001) / Real.sqrt 0.00001 + r n * Real.sqrt 0.00001 - (kept * (1 - 0.00001) / Real.sqrt 0.00001 + r m * Real.sqrt 0.00001) = (r n - r m) * Real.sqrt 0.00001 := by ring
    rw [this, abs_mul, abs_of_pos s0]
    have h2 : |r n - r m| ≤ 2 := (abs_sub _ _).trans (by linarith [hr n, hr m])
    calc _ ≤ 2 * 0.0032 := mul_le_mul h2 h1 s0.le (by norm_num)
      _ = _ := by norm_num
  · have k : ∀ n, Spec.wanders kept (fun _ => 1) n = 1 + (1 - 0.00001) ^ n * (kept - 1) := fun n => by
      induction n with
      | zero => simp [Spec.wanders]
      | succ n ih => rw [Spec.wanders, ih, pow_succ]; ring
    have t := (tendsto_pow_atTop_nhds_zero_of_lt_one (show (0 : ℝ) ≤ 1 - 0.00001 by norm_num) (by norm_num)).mul_const (kept - 1)
    rw [zero_mul] at t
    have t := (t.const_add 1).mul_const (1 / Real.sqrt 0.00001)
    rw [add_zero, one_mul] at t
    exact t.congr fun n => by rw [k]
  · rw [lt_div_iff₀ s0, mul_comm, ← lt_div_iff₀ (by norm_num)]
    rw [Real.sqrt_lt' (by norm_num)]; norm_num

end Verif.Dsp.Noise
