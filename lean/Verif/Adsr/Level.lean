import Verif.Adsr.Model
import Verif.Param.Props
/-!
# The capacitor voltage of the analog envelope, one block
-/
namespace Verif.Adsr
open Verif.Float Verif.Dsp Verif.Param

theorem minSs_nonneg {x : ℚ} (h : 0 ≤ x) : minSs (.fin 0) (.fin x) = .fin 0 := by
  unfold minSs
  rcases lt_or_eq_of_le h with h | h
  · simp [F32.lt, h]
  · simp [F32.lt, ← h]

theorem minSs_nonpos {x : ℚ} (h : x ≤ 0) : minSs (.fin 0) (.fin x) = .fin x := by
  unfold minSs; simp [F32.lt, not_lt.mpr h]

theorem maxSs_nonneg {x : ℚ} (h : 0 ≤ x) : maxSs (.fin 0) (.fin x) = .fin x := by
  unfold maxSs; simp [F32.lt, not_lt.mpr h]

theorem maxSs_nonpos {x : ℚ} (h : x ≤ 0) : maxSs (.fin 0) (.fin x) = .fin 0 := by
  unfold maxSs
  rcases lt_or_eq_of_le h with h | h
  · simp [F32.lt, h]
  · simp [F32.lt, h]

theorem mul_zero_fin (c : ℚ) : F32.mul (.fin 0) (.fin c) = .fin 0 := by
  rw [mul_fin (by rw [zero_mul]; norm_num), zero_mul, rne_zero]

theorem add_zero_fin {v : ℚ} (hv : Spec.IsF32 v) (hb : |v| ≤ 2 ^ 100) : F32.add (.fin v) (.fin 0) = .fin v := by
  rw [add_fin (by rw [add_zero]; exact hb), add_zero, hv]

/-- Adding a fraction of a difference. -/
theorem step_fin {v w c : ℚ} (hv : |v| ≤ 16) (hw : |w| ≤ 16) (hc0 : 0 ≤ c) (hc1 : c ≤ 8) :
    F32.add (.fin v) (F32.mul (.fin w) (.fin c)) = .fin (rne (v + rne (w * c))) := by
  have h1 : |w * c| ≤ 2 ^ 7 := by
    rw [abs_mul, abs_of_nonneg hc0]
    have := mul_le_mul hw hc1 hc0 (by norm_num)
    linarith
  rw [mul_fin (le_trans h1 (by norm_num))]
  have h2 := abs_le.mp (rne_abs h1)
  have h3 := abs_le.mp hv
  rw [add_fin (by rw [abs_le]; norm_num at *; constructor <;> linarith)]

theorem ulp_small {x : ℚ} (h : |x| < 2) : |rne x - x| ≤ 1 / 2 ^ 24 := by
  rcases eq_or_ne x 0 with rfl | hx
  · rw [rne_zero]; norm_num
  refine (abs_rne_sub_le x).trans ?_
  have hp : 0 < |x| := abs_pos.mpr hx
  have hle : ulpExp x ≤ -23 := by
    unfold ulpExp
    have : Int.log 2 |x| < 1 := by
      by_contra hc
      have h1 : (1:ℤ) ≤ Int.log 2 |x| := by omega
      have := (Int.zpow_le_iff_le_log (b := 2) (by norm_num) hp).mpr h1
      norm_num at this
      linarith
    omega
  calc (2:ℚ) ^ ulpExp x / 2 ≤ 2 ^ (-23:ℤ) / 2 := by
        exact div_le_div_of_nonneg_right (zpow_le_zpow_right₀ (show (1:ℚ) ≤ 2 by norm_num) hle) (by norm_num)
    _ ≤ _ := by norm_num

theorem isF32_half3 : Spec.IsF32 (3 / 2) := by unfold Spec.IsF32; decide +kernel

/-- Charging: `v` rises towards 1.5 and does not pass it. -/
theorem charge {v c : ℚ} (hv : Spec.IsF32 v) (h1 : v ≤ 3 / 2) (n0 : 0 ≤ v) (c0 : 0 ≤ c) (c1 : c ≤ 1) :
    v ≤ rne (v + rne (rne (3 / 2 - v) * c)) ∧ rne (v + rne (rne (3 / 2 - v) * c)) ≤ 3 / 2 := by
  have d0 : 0 ≤ rne (3 / 2 - v) := rne_nonneg (by linarith)
  have p0 : 0 ≤ rne (rne (3 / 2 - v) * c) := rne_nonneg (mul_nonneg d0 c0)
  have p1 : rne (rne (3 / 2 - v) * c) ≤ rne (3 / 2 - v) := by
    have := rne_mono (show rne (3 / 2 - v) * c ≤ rne (3 / 2 - v) by nlinarith)
    rwa [rne_idem] at this
  constructor
  · have := rne_mono (show v ≤ v + rne (rne (3 / 2 - v) * c) by linarith)
    rwa [show rne v = v from hv] at this
  · have e := (abs_le.mp (ulp_small (x := 3 / 2 - v) (by rw [abs_of_nonneg (by linarith)]; linarith))).2
    have := rne_mono (show v + rne (rne (3 / 2 - v) * c) ≤ 3 / 2 + 1 / 2 ^ 24 by linarith)
    have t : rne (3 / 2 + 1 / 2 ^ 24) = 3 / 2 := by decide +kernel
    rwa [t] at this

/-- Discharging towards 0 (release). -/
theorem release_down {v c : ℚ} (hv : Spec.IsF32 v) (n0 : 0 ≤ v) (c0 : 0 ≤ c) (c1 : c ≤ 1) :
    0 ≤ rne (v + rne (rne (0 - v) * c)) ∧ rne (v + rne (rne (0 - v) * c)) ≤ v ∧ rne (0 - v) = -v := by
  have e : rne (0 - v) = -v := by rw [zero_sub, rne_neg, hv]
  rw [e, neg_mul, rne_neg]
  have p0 : 0 ≤ rne (v * c) := rne_nonneg (mul_nonneg n0 c0)
  have p1 : rne (v * c) ≤ v := by
    have := rne_mono (show v * c ≤ v by nlinarith)
    rwa [show rne v = v from hv] at this
  refine ⟨rne_nonneg (by linarith), ?_, rfl⟩
  have := rne_mono (show v + -rne (v * c) ≤ v by linarith)
  rwa [show rne v = v from hv] at this

/-- Moving towards the sustain level. -/
theorem decay_move {v s c : ℚ} (hv : Spec.IsF32 v) (n0 : 0 ≤ v) (h1 : v ≤ 3 / 2) (s0 : 0 ≤ s) (s1 : s ≤ 1)
    (c0 : 0 ≤ c) (c1 : c ≤ 1) :
    0 ≤ rne (v + rne (rne (s - v) * c)) ∧ rne (v + rne (rne (s - v) * c)) ≤ 3 / 2 ∧
    (v ≤ s → v ≤ rne (v + rne (rne (s - v) * c)) ∧ rne (v + rne (rne (s - v) * c)) ≤ s + 1 / 2 ^ 22) ∧
    (s ≤ v → rne (v + rne (rne (s - v) * c)) ≤ v ∧ s - 1 / 2 ^ 22 ≤ rne (v + rne (rne (s - v) * c))) := by
  have e := abs_le.mp (ulp_small (x := s - v) (by rw [abs_lt]; constructor <;> linarith))
  rcases le_total v s with h | h
  · have d0 : 0 ≤ rne (s - v) := rne_nonneg (by linarith)
    have p0 : 0 ≤ rne (rne (s - v) * c) := rne_nonneg (mul_nonneg d0 c0)
    have p1 : rne (rne (s - v) * c) ≤ rne (s - v) := by
      have := rne_mono (show rne (s - v) * c ≤ rne (s - v) by nlinarith)
      rwa [rne_idem] at this
    have lo : v ≤ rne (v + rne (rne (s - v) * c)) := by
      have := rne_mono (show v ≤ v + rne (rne (s - v) * c) by linarith)
      rwa [show rne v = v from hv] at this
    have hi : rne (v + rne (rne (s - v) * c)) ≤ s + 1 / 2 ^ 22 := by
      have b : v + rne (rne (s - v) * c) ≤ s + 1 / 2 ^ 24 := by linarith
      have e2 := abs_le.mp (ulp_small (x := v + rne (rne (s - v) * c)) (by
        rw [abs_lt]; norm_num at b ⊢; constructor <;> linarith))
      norm_num at e2 b ⊢; linarith
    refine ⟨by linarith, by norm_num at hi ⊢; linarith, fun _ => ⟨lo, hi⟩, fun h' => ?_⟩
    have : s = v := le_antisymm h' h
    subst this
    rw [sub_self, rne_zero, zero_mul, rne_zero, add_zero, hv]
    exact ⟨le_rfl, by norm_num⟩
  · have d0 : rne (s - v) ≤ 0 := by
      have := rne_nonneg (show 0 ≤ v - s by linarith)
      rw [show s - v = -(v - s) by ring, rne_neg]; linarith
    have p0 : rne (rne (s - v) * c) ≤ 0 := by
      have := rne_nonneg (mul_nonneg (show 0 ≤ -rne (s - v) by linarith) c0)
      rw [neg_mul, rne_neg] at this; linarith
    have p1 : rne (s - v) ≤ rne (rne (s - v) * c) := by
      have := rne_mono (show rne (s - v) ≤ rne (s - v) * c by nlinarith)
      rwa [rne_idem] at this
    have hi : rne (v + rne (rne (s - v) * c)) ≤ v := by
      have := rne_mono (show v + rne (rne (s - v) * c) ≤ v by linarith)
      rwa [show rne v = v from hv] at this
    have ge : -v ≤ rne (s - v) := by
      have := rne_mono (show -v ≤ s - v by linarith)
      rwa [rne_neg, hv] at this
    have lo : s - 1 / 2 ^ 22 ≤ rne (v + rne (rne (s - v) * c)) := by
      have b : s - 1 / 2 ^ 24 ≤ v + rne (rne (s - v) * c) := by linarith
      have e2 := abs_le.mp (ulp_small (x := v + rne (rne (s - v) * c)) (by
        rw [abs_lt]; constructor <;> linarith))
      norm_num at e2 b ⊢; linarith
    refine ⟨rne_nonneg (by linarith), by linarith, fun h' => ?_, fun _ => ⟨hi, lo⟩⟩
    have : s = v := le_antisymm h h'
    subst this
    rw [sub_self, rne_zero, zero_mul, rne_zero, add_zero, hv]
    exact ⟨le_rfl, by norm_num⟩

/-- A finite coefficient in [0, 1]. -/
def Spec.Unit (c : F32) : Prop := ∃ q, c = .fin q ∧ 0 ≤ q ∧ q ≤ 1

/-- Gate open, not yet at the peak. -/
theorem analog_attack {v a d r : ℚ} {s delayed : F32} (hv : Spec.IsF32 v) (n0 : 0 ≤ v) (h1 : v ≤ 3 / 2)
    (a0 : 0 ≤ a) (a1 : a ≤ 1) (hd : F32.lt (.fin 1) delayed = false) :
    ∃ v', analogStep true (.fin a) (.fin d) (.fin r) s (.fin v) delayed false = (.fin v', .fin v, false) ∧ Spec.IsF32 v' ∧
      v ≤ v' ∧ v' ≤ 3 / 2 := by
  obtain ⟨l, u⟩ := charge hv h1 n0 a0 a1
  have av : |v| ≤ 16 := by rw [abs_of_nonneg n0]; linarith
  have w0 : 0 ≤ rne (3 / 2 - v) := rne_nonneg (by linarith)
  have w1 : rne (3 / 2 - v) ≤ 3 / 2 := by
    have := rne_mono (show 3 / 2 - v ≤ 3 / 2 by linarith); rwa [show rne (3 / 2) = 3 / 2 from isF32_half3] at this
  have es : F32.sub (.fin (3 / 2)) (.fin v) = .fin (rne (3 / 2 - v)) := sub_fin (by norm_num) (le_trans av (by norm_num))
  have hg : F32.lt (.fin 0) (.fin (3 / 2)) = true := by simp [F32.lt]
  refine ⟨rne (v + rne (rne (3 / 2 - v) * a)), ?_, rne_idem _, l, u⟩
  have i' : Spec.IsF32 (rne (v + rne (rne (3 / 2 - v) * a))) := rne_idem _
  have b' : |rne (v + rne (rne (3 / 2 - v) * a))| ≤ 2 ^ 100 := by rw [abs_of_nonneg (by linarith)]; norm_num at *; linarith
  unfold analogStep
  simp only [if_true, hg, hd, Bool.or_false, Bool.false_and, Bool.false_eq_true, if_false, es, maxSs_nonneg w0,
    minSs_nonneg w0, mul_zero_fin, step_fin av (show |rne (3 / 2 - v)| ≤ 16 by rw [abs_of_nonneg w0]; linarith) a0 (by linarith)]
  rw [add_zero_fin i' b', add_zero_fin i' b']

/-- Gate open, past the peak: towards the sustain level `s²`. -/
theorem analog_decay {v a d r s : ℚ} {delayed : F32} {dis : Bool} (hv : Spec.IsF32 v) (n0 : 0 ≤ v) (h1 : v ≤ 3 / 2)
    (s0 : 0 ≤ s) (s1 : s ≤ 1) (d0 : 0 ≤ d) (d1 : d ≤ 1) (hd : (F32.lt (.fin 1) delayed || dis) = true) :
    ∃ v', analogStep true (.fin a) (.fin d) (.fin r) (.fin s) (.fin v) delayed dis = (.fin v', .fin v, true) ∧ Spec.IsF32 v' ∧
      0 ≤ v' ∧ v' ≤ 3 / 2 ∧
      (v ≤ rne (s * s) → v ≤ v' ∧ v' ≤ rne (s * s) + 1 / 2 ^ 22) ∧ (rne (s * s) ≤ v → v' ≤ v ∧ rne (s * s) - 1 / 2 ^ 22 ≤ v') := by
  have q0 : 0 ≤ s * s := mul_nonneg s0 s0
  have q1 : s * s ≤ 1 := by nlinarith
  have m0 : 0 ≤ rne (s * s) := rne_nonneg q0
  have m1 : rne (s * s) ≤ 1 := by
    have := rne_mono q1; rwa [show (1:ℚ) = ((1:ℤ):ℚ) by norm_num, rne_intCast 1 (by norm_num)] at this
  obtain ⟨g0, g1, g2, g3⟩ := decay_move hv n0 h1 m0 m1 d0 d1
  have av : |v| ≤ 16 := by rw [abs_of_nonneg n0]; linarith
  have em : F32.mul (.fin s) (.fin s) = .fin (rne (s * s)) := mul_fin (by rw [abs_of_nonneg q0]; norm_num; linarith)
  have es : F32.sub (.fin (3 / 2)) (.fin v) = .fin (rne (3 / 2 - v)) := sub_fin (by norm_num) (le_trans av (by norm_num))
  have ez : F32.sub (.fin 0) (.fin v) = .fin (rne (0 - v)) := sub_fin (by norm_num) (le_trans av (by norm_num))
  have ek : F32.sub (.fin (rne (s * s))) (.fin v) = .fin (rne (rne (s * s) - v)) :=
    sub_fin (by rw [abs_of_nonneg m0]; norm_num; linarith) (le_trans av (by norm_num))
  have wk : |rne (rne (s * s) - v)| ≤ 2 ^ 1 := rne_abs (by rw [abs_le]; constructor <;> linarith)
  have z0 : rne (0 - v) ≤ 0 := by rw [zero_sub, rne_neg, hv]; linarith
  have w0 : 0 ≤ rne (3 / 2 - v) := rne_nonneg (by linarith)
  have hg : F32.lt (.fin 0) (.fin (3 / 2)) = true := by simp [F32.lt]
  refine ⟨rne (v + rne (rne (rne (s * s) - v) * d)), ?_, rne_idem _, g0, g1, g2, g3⟩
  have i' : Spec.IsF32 (rne (v + rne (rne (rne (s * s) - v) * d))) := rne_idem _
  have b' : |rne (v + rne (rne (rne (s * s) - v) * d))| ≤ 2 ^ 100 := by rw [abs_of_nonneg g0]; norm_num at *; linarith
  unfold analogStep
  simp only [if_true, hg, hd, Bool.and_true, es, ez, em, ek, maxSs_nonpos z0, minSs_nonneg w0, mul_zero_fin]
  rw [add_zero_fin hv (le_trans av (by norm_num)), step_fin av (le_trans wk (by norm_num)) d0 (by linarith), add_zero_fin i' b']

/-- Gate closed, a coefficient in [0, 1]: down towards 0. -/
theorem analog_release {v a d r : ℚ} {s delayed : F32} {dis : Bool} (hv : Spec.IsF32 v) (n0 : 0 ≤ v) (h1 : v ≤ 3 / 2)
    (r0 : 0 ≤ r) (r1 : r ≤ 1) :
    ∃ v', analogStep false (.fin a) (.fin d) (.fin r) s (.fin v) delayed dis = (.fin v', .fin v, false) ∧ Spec.IsF32 v' ∧
      0 ≤ v' ∧ v' ≤ v ∧ v' = rne (v - rne (v * r)) := by
  obtain ⟨l, u, e⟩ := release_down hv n0 r0 r1
  have av : |v| ≤ 16 := by rw [abs_of_nonneg n0]; linarith
  have ez : F32.sub (.fin 0) (.fin v) = .fin (rne (0 - v)) := sub_fin (by norm_num) (le_trans av (by norm_num))
  have es : F32.sub (.fin (3 / 2)) (.fin v) = .fin (rne (3 / 2 - v)) := sub_fin (by norm_num) (le_trans av (by norm_num))
  have w0 : 0 ≤ rne (3 / 2 - v) := rne_nonneg (by linarith)
  have z0 : rne (0 - v) ≤ 0 := by rw [e]; linarith
  have hg : F32.lt (.fin 0) (.fin 0) = false := by simp [F32.lt]
  refine ⟨rne (v + rne (rne (0 - v) * r)), ?_, rne_idem _, l, u, ?_⟩
  · unfold analogStep
    simp only [Bool.false_eq_true, if_false, hg, Bool.and_false, ez, es, maxSs_nonpos z0, minSs_nonneg w0, minSs_nonpos z0,
      mul_zero_fin, add_zero_fin hv (le_trans av (show (16:ℚ) ≤ 2 ^ 100 by norm_num))]
    rw [step_fin av (by rw [e, abs_neg]; exact av) r0 (by linarith)]
  · rw [e, neg_mul, rne_neg]; ring_nf

/-- Gate closed, negative voltage (after an uber-release): up towards 0. -/
theorem analog_negative {v a d r : ℚ} {s delayed : F32} {dis : Bool} (hv : Spec.IsF32 v) (n0 : -8 ≤ v) (h1 : v ≤ 0)
    (a0 : 0 ≤ a) (a1 : a ≤ 1) :
    ∃ v', analogStep false (.fin a) (.fin d) (.fin r) s (.fin v) delayed dis = (.fin v', .fin v, false) ∧ Spec.IsF32 v' ∧
      v ≤ v' ∧ v' ≤ 0 := by
  have e : rne (0 - v) = -v := by rw [zero_sub, rne_neg, hv]
  have av : |v| ≤ 16 := by rw [abs_of_nonpos h1]; linarith
  have ez : F32.sub (.fin 0) (.fin v) = .fin (-v) := by rw [sub_fin (by norm_num) (le_trans av (by norm_num)), e]
  have es : F32.sub (.fin (3 / 2)) (.fin v) = .fin (rne (3 / 2 - v)) := sub_fin (by norm_num) (le_trans av (by norm_num))
  have w0 : 0 ≤ rne (3 / 2 - v) := rne_nonneg (by linarith)
  have z0 : 0 ≤ -v := by linarith
  have p0 : 0 ≤ rne (-v * a) := rne_nonneg (mul_nonneg z0 a0)
  have p1 : rne (-v * a) ≤ -v := by
    have := rne_mono (show -v * a ≤ -v by nlinarith)
    rwa [rne_neg, show rne v = v from hv] at this
  have hg : F32.lt (.fin 0) (.fin 0) = false := by simp [F32.lt]
  have l : v ≤ rne (v + rne (-v * a)) := by
    have := rne_mono (show v ≤ v + rne (-v * a) by linarith)
    rwa [show rne v = v from hv] at this
  have u : rne (v + rne (-v * a)) ≤ 0 := by
    have := rne_mono (show v + rne (-v * a) ≤ 0 by linarith)
    rwa [rne_zero] at this
  refine ⟨rne (v + rne (-v * a)), ?_, rne_idem _, l, u⟩
  have i' : Spec.IsF32 (rne (v + rne (-v * a))) := rne_idem _
  have b' : |rne (v + rne (-v * a))| ≤ 2 ^ 100 := by rw [abs_of_nonpos u]; norm_num at *; linarith
  unfold analogStep
  simp only [Bool.false_eq_true, if_false, hg, Bool.and_false, ez, es, maxSs_nonneg z0, minSs_nonneg w0, minSs_nonneg z0,
    mul_zero_fin, step_fin av (show |(-v)| ≤ 16 by rw [abs_neg]; exact av) a0 (show a ≤ 8 by linarith)]
  rw [add_zero_fin i' b', add_zero_fin i' b']

/-- Gate closed in uber-release: the voltage jumps below zero. -/
theorem analog_uber {v a d : ℚ} {s delayed : F32} {dis : Bool} (hv : Spec.IsF32 v) (n0 : 0 ≤ v) (h1 : v ≤ 3 / 2) :
    ∃ v', analogStep false (.fin a) (.fin d) (.fin 6) s (.fin v) delayed dis = (.fin v', .fin v, false) ∧ Spec.IsF32 v' ∧
      -8 ≤ v' ∧ v' ≤ 0 := by
  have e : rne (0 - v) = -v := by rw [zero_sub, rne_neg, hv]
  have av : |v| ≤ 16 := by rw [abs_of_nonneg n0]; linarith
  have ez : F32.sub (.fin 0) (.fin v) = .fin (-v) := by rw [sub_fin (by norm_num) (le_trans av (by norm_num)), e]
  have es : F32.sub (.fin (3 / 2)) (.fin v) = .fin (rne (3 / 2 - v)) := sub_fin (by norm_num) (le_trans av (by norm_num))
  have w0 : 0 ≤ rne (3 / 2 - v) := rne_nonneg (by linarith)
  have z0 : -v ≤ 0 := by linarith
  have hg : F32.lt (.fin 0) (.fin 0) = false := by simp [F32.lt]
  have p0 : rne (-v * 6) ≤ -v := by
    have := rne_mono (show -v * 6 ≤ -v by linarith)
    rwa [rne_neg, show rne v = v from hv] at this
  have p1 : -9 ≤ rne (-v * 6) := by
    have := rne_mono (show -9 ≤ -v * 6 by linarith)
    rwa [show (-9:ℚ) = ((-9:ℤ):ℚ) by norm_num, rne_intCast (-9) (by norm_num)] at this
  have l : -8 ≤ rne (v + rne (-v * 6)) := by
    have d := abs_le.mp (rne_dist (q := -v * 6) (b := 9) (by rw [abs_of_nonpos (by linarith)]; linarith))
    have := rne_mono (show -8 ≤ v + rne (-v * 6) by norm_num at d ⊢; linarith)
    rwa [show (-8:ℚ) = ((-8:ℤ):ℚ) by norm_num, rne_intCast (-8) (by norm_num)] at this
  have u : rne (v + rne (-v * 6)) ≤ 0 := by
    have := rne_mono (show v + rne (-v * 6) ≤ 0 by linarith)
    rwa [rne_zero] at this
  refine ⟨rne (v + rne (-v * 6)), ?_, rne_idem _, l, u⟩
  unfold analogStep
  simp only [Bool.false_eq_true, if_false, hg, Bool.and_false, ez, es, maxSs_nonpos z0, minSs_nonneg w0, minSs_nonpos z0,
    mul_zero_fin, add_zero_fin hv (le_trans av (show (16:ℚ) ≤ 2 ^ 100 by norm_num))]
  rw [step_fin av (by rw [abs_neg]; exact av) (by norm_num) (by norm_num)]

end Verif.Adsr
