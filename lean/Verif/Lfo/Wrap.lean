import Verif.Lfo.Model
import Verif.Param.Props
import Verif.Adsr.Level
/-!
# The start phase (C70)
-/
namespace Verif.Lfo
open Verif.Float Verif.Dsp Verif.Param Verif.Adsr

/-- Stepping an `f32` of at least 1 (and not huge) towards zero by 1 is exact. -/
theorem sub_one_exact {x : ℚ} (hx : Spec.IsF32 x) (h1 : 1 ≤ x) (h2 : x ≤ 2 ^ 24) : rne (x - 1) = x - 1 := by
  obtain ⟨n, e, hn, he, hv⟩ := rne_form x
  rw [show rne x = x from hx] at hv
  have hpos := two_zpow_pos e
  rcases le_or_gt e 0 with h0 | h0
  · obtain ⟨k, hk⟩ := Int.eq_ofNat_of_zero_le (show 0 ≤ -e by omega)
    have e1 : (1:ℚ) = ((2 ^ k : ℤ) : ℚ) * 2 ^ e := by
      rw [show e = -(k:ℤ) by omega]; push_cast
      rw [zpow_neg, zpow_natCast, mul_inv_cancel₀]; positivity
    have e2 : x - 1 = ((n - 2 ^ k : ℤ) : ℚ) * 2 ^ e := by
      conv_lhs => rw [hv, e1]
      push_cast; ring
    have p1 : (0:ℚ) < n := by
      by_contra hc; push Not at hc
      have := mul_nonpos_of_nonpos_of_nonneg hc hpos.le; rw [← hv] at this; linarith
    have p2 : (0:ℚ) ≤ ((n - 2 ^ k : ℤ) : ℚ) := by
      by_contra hc; push Not at hc
      have := mul_neg_of_neg_of_pos hc hpos
      rw [← e2] at this; linarith
    have p3 : (0:ℤ) ≤ n - 2 ^ k := by exact_mod_cast p2
    rw [e2]
    refine rne_mul_zpow _ _ ?_ he
    have p4 : (0:ℤ) ≤ n := by exact_mod_cast p1.le
    rw [abs_of_nonneg p4] at hn
    rw [abs_of_nonneg p3]
    have : (0:ℤ) ≤ 2 ^ k := by positivity
    omega
  · obtain ⟨k, hk⟩ := Int.eq_ofNat_of_zero_le h0.le
    have e1 : x = ((n * 2 ^ k : ℤ) : ℚ) := by rw [hv, hk]; push_cast; rw [zpow_natCast]
    have e2 : x - 1 = ((n * 2 ^ k - 1 : ℤ) : ℚ) := by rw [e1]; push_cast; ring
    rw [e2]
    refine rne_intCast _ ?_
    have a1 : (1:ℤ) ≤ n * 2 ^ k := by rw [e1] at h1; exact_mod_cast h1
    have a2 : n * 2 ^ k ≤ 2 ^ 24 := by rw [e1] at h2; exact_mod_cast h2
    rw [abs_of_nonneg (by omega)]; omega

theorem isF32_neg {x : ℚ} (h : Spec.IsF32 x) : Spec.IsF32 (-x) := by
  unfold Spec.IsF32 at *; rw [rne_neg, h]

theorem add_one_exact {x : ℚ} (hx : Spec.IsF32 x) (h1 : x ≤ -1) (h2 : -2 ^ 24 ≤ x) : rne (x + 1) = x + 1 := by
  have := sub_one_exact (isF32_neg hx) (by linarith) (by linarith)
  rw [show -x - 1 = -(x + 1) by ring, rne_neg] at this
  linarith

theorem isF32_rne (x : ℚ) : Spec.IsF32 (rne x) := rne_idem x

theorem wrapDown_spec : ∀ (n : ℕ) (x : ℚ), Spec.IsF32 x → 0 ≤ x → x ≤ n + 1 → (n:ℚ) + 1 ≤ 2 ^ 24 → ∀ m, n + 1 ≤ m →
    ∃ k : ℕ, wrapDown m (.fin x) = .ok (.fin (x - k)) ∧ 0 ≤ x - k ∧ x - k ≤ 1 ∧ Spec.IsF32 (x - k) ∧ (x ≤ 1 → k = 0) := by
  intro n
  induction n with
  | zero =>
    intro x hx h0 h1 hb m hm
    obtain ⟨m, rfl⟩ := Nat.exists_eq_add_of_le' (show 1 ≤ m by omega)
    refine ⟨0, ?_, by simpa using h0, by simpa using h1, by simpa using hx, fun _ => rfl⟩
    unfold wrapDown
    rw [if_neg (by simp [F32.lt]; simpa using h1)]; simp
  | succ n ih =>
    intro x hx h0 h1 hb m hm
    push_cast at h1 hb
    obtain ⟨m, rfl⟩ := Nat.exists_eq_add_of_le' (show 1 ≤ m by omega)
    rcases le_or_gt x 1 with hc | hc
    · refine ⟨0, ?_, by simpa using h0, by simpa using hc, by simpa using hx, fun _ => rfl⟩
      unfold wrapDown
      rw [if_neg (by simp [F32.lt, hc])]; simp
    · have ex := sub_one_exact hx hc.le (by linarith)
      obtain ⟨k, e, a, b, c, _⟩ := ih (x - 1) ex (by linarith) (by linarith) (by linarith) m (by omega)
      have e' : x - 1 - (k:ℚ) = x - ((k + 1 : ℕ) : ℚ) := by push_cast; ring
      rw [e'] at e a b c
      refine ⟨k + 1, ?_, a, b, c, fun h => absurd h (not_le.mpr hc)⟩
      unfold wrapDown
      rw [if_pos (by simp [F32.lt, hc]), sub_fin (by rw [abs_of_nonneg h0]; linarith) (by norm_num), ex]
      exact e

theorem wrapUp_spec : ∀ (n : ℕ) (x : ℚ), Spec.IsF32 x → -(n:ℚ) ≤ x → x ≤ 2 ^ 24 → (n:ℚ) ≤ 2 ^ 24 → ∀ m, n + 1 ≤ m →
    ∃ y, wrapUp m (.fin x) = .ok (.fin y) ∧ Spec.IsF32 y ∧ 0 ≤ y ∧ (0 ≤ x → y = x) ∧
      (x < 0 → y ≤ 1 ∧ ∃ k : ℕ, |y - (x + k)| ≤ 1 / 2 ^ 24) := by
  intro n
  induction n with
  | zero =>
    intro x hx h0 h1 hb m hm
    obtain ⟨m, rfl⟩ := Nat.exists_eq_add_of_le' (show 1 ≤ m by omega)
    have h0 : 0 ≤ x := by simpa using h0
    refine ⟨x, ?_, hx, h0, fun _ => rfl, fun h => absurd h (not_lt.mpr h0)⟩
    unfold wrapUp
    rw [if_neg (by simp [F32.lt, h0])]
  | succ n ih =>
    intro x hx h0 h1 hb m hm
    push_cast at h0 hb
    obtain ⟨m, rfl⟩ := Nat.exists_eq_add_of_le' (show 1 ≤ m by omega)
    rcases le_or_gt 0 x with hc | hc
    · refine ⟨x, ?_, hx, hc, fun _ => rfl, fun h => absurd h (not_lt.mpr hc)⟩
      unfold wrapUp
      rw [if_neg (by simp [F32.lt, hc])]
    · have step : wrapUp (m + 1) (.fin x) = wrapUp m (.fin (rne (x + 1))) := by
        rw [wrapUp, if_pos (by simp [F32.lt, hc]), add_fin (by rw [abs_le]; constructor <;> linarith)]
      rcases le_or_gt x (-1) with h3 | h3
      · have ex := add_one_exact hx h3 (by linarith)
        rw [ex] at step
        obtain ⟨y, e, i, y0, z, w⟩ := ih (x + 1) ex (by linarith) (by linarith) (by linarith) m (by omega)
        refine ⟨y, by rw [step, e], i, y0, fun h => absurd h (not_le.mpr hc), fun _ => ?_⟩
        rcases lt_or_ge (x + 1) 0 with h4 | h4
        · obtain ⟨w1, k, w2⟩ := w h4
          refine ⟨w1, k + 1, ?_⟩
          push_cast; rwa [show x + ((k:ℚ) + 1) = x + 1 + k by ring]
        · rw [z h4]
          exact ⟨by linarith, 1, by simp⟩
      · have r0 : 0 ≤ rne (x + 1) := rne_nonneg (by linarith)
        have r1 : rne (x + 1) ≤ 1 := by
          have := rne_mono (show x + 1 ≤ ((1:ℤ):ℚ) by push_cast; linarith)
          rw [rne_intCast 1 (by norm_num)] at this; simpa using this
        obtain ⟨y, e, i, y0, z, w⟩ := ih (rne (x + 1)) (isF32_rne _) (by have : (0:ℚ) ≤ n := Nat.cast_nonneg n; linarith) (by linarith) (by linarith) m (by omega)
        rw [z r0] at e
        refine ⟨rne (x + 1), by rw [step, e], isF32_rne _, r0, fun h => absurd h (not_le.mpr hc), fun _ => ⟨r1, 1, ?_⟩⟩
        have := ulp_small (x := x + 1) (by rw [abs_lt]; constructor <;> linarith)
        push_cast
        exact this

/-- An `f32` beyond `2^24` is at least 4 beyond. -/
theorem next_f32 {x : ℚ} (hx : Spec.IsF32 x) (h : 2 ^ 24 + 2 < x) : 2 ^ 24 + 4 ≤ x := by
  by_contra hc
  push Not at hc
  have hu : ulpExp x = 1 := by
    unfold ulpExp
    rw [abs_of_pos (by norm_num at h; linarith)]
    have : Int.log 2 x = 24 := by
      apply le_antisymm
      · have h1 : x < ((2:ℕ):ℚ) ^ (25:ℤ) := by
          have e : (((2:ℕ):ℚ) ^ (25:ℤ)) = 33554432 := by norm_num
          rw [e]; norm_num at hc; linarith
        have := (Int.lt_zpow_iff_log_lt (b := 2) (by norm_num) (by norm_num at h; linarith)).mp h1
        omega
      · have h1 : ((2:ℕ):ℚ) ^ (24:ℤ) ≤ x := by
          have e : (((2:ℕ):ℚ) ^ (24:ℤ)) = 16777216 := by norm_num
          rw [e]; norm_num at h; linarith
        exact (Int.zpow_le_iff_le_log (b := 2) (by norm_num) (by norm_num at h; linarith)).mp h1
    rw [this]; norm_num
  have e : x = rhe (x / 2 ^ (1:ℤ)) * 2 ^ (1:ℤ) := by
    conv_lhs => rw [← show rne x = x from hx]
    unfold rne; rw [hu]
  generalize rhe (x / 2 ^ (1:ℤ)) = n at e
  rw [zpow_one] at e
  rw [e] at h hc
  have h1 : ((2 ^ 24 + 2 : ℤ) : ℚ) < ((n * 2 : ℤ) : ℚ) := by push_cast; norm_num at h ⊢; linarith
  have h2 : ((n * 2 : ℤ) : ℚ) < ((2 ^ 24 + 4 : ℤ) : ℚ) := by push_cast; norm_num at hc ⊢; linarith
  have h1 := Int.cast_lt.mp h1
  have h2 := Int.cast_lt.mp h2
  omega

/-- Far from zero a step of 1 never brings an `f32` below `2^24 + 4`. -/
theorem sub_one_stuck {x : ℚ} (hx : Spec.IsF32 x) (h : 2 ^ 24 + 4 ≤ x) : 2 ^ 24 + 4 ≤ rne (x - 1) ∧ rne (x - 1) ≤ x := by
  constructor
  · have e : rne (2 ^ 24 + 3) = 2 ^ 24 + 4 := by decide +kernel
    rw [← e]
    exact rne_mono (by linarith)
  · have := rne_mono (show x - 1 ≤ x by linarith)
    rwa [show rne x = x from hx] at this

theorem sub_one_f32 {x : ℚ} (hx : Spec.IsF32 x) (h : 2 ^ 24 + 4 ≤ x) (h2 : x < 2 ^ 128) : F32.sub (.fin x) (.fin 1) = .fin (rne (x - 1)) := by
  obtain ⟨a, b⟩ := sub_one_stuck hx h
  have : F32.sub (.fin x) (.fin 1) = F32.ofQ (x + -1) := rfl
  rw [this, ← sub_eq_add_neg]
  unfold F32.ofQ
  rw [if_neg (by linarith), if_neg (by norm_num at a ⊢; linarith)]

theorem add_one_f32 {x : ℚ} (hx : Spec.IsF32 x) (h : x ≤ -(2 ^ 24 + 4)) (h2 : -2 ^ 128 < x) : F32.add (.fin x) (.fin 1) = .fin (rne (x + 1)) ∧ x ≤ rne (x + 1) ∧ rne (x + 1) ≤ -(2 ^ 24 + 4) := by
  obtain ⟨a, b⟩ := sub_one_stuck (isF32_neg hx) (by linarith)
  rw [show -x - 1 = -(x + 1) by ring, rne_neg] at a b
  refine ⟨?_, by linarith, by linarith⟩
  have : F32.add (.fin x) (.fin 1) = F32.ofQ (x + 1) := rfl
  rw [this]
  unfold F32.ofQ
  rw [if_neg (by norm_num at a ⊢; linarith), if_neg (by linarith)]

theorem wrapDown_stuck : ∀ (n : ℕ) {x : ℚ} (_ : Spec.IsF32 x) (_ : 2 ^ 24 + 4 ≤ x) (_ : x < 2 ^ 128), wrapDown n (.fin x) = .panic outOfFuel := by
  intro n
  induction n with
  | zero => intro x _ _ _; rfl
  | succ n ih =>
    intro x hx h h2
    obtain ⟨a, b⟩ := sub_one_stuck hx h
    rw [wrapDown, if_pos (by simp only [F32.lt, decide_eq_true_eq]; norm_num at h; linarith), sub_one_f32 hx h h2]
    exact ih (isF32_rne _) a (by linarith)

theorem wrapUp_stuck : ∀ (n : ℕ) {x : ℚ} (_ : Spec.IsF32 x) (_ : x ≤ -(2 ^ 24 + 4)) (_ : -2 ^ 128 < x), wrapUp n (.fin x) = .panic outOfFuel := by
  intro n
  induction n with
  | zero => intro x _ _ _; rfl
  | succ n ih =>
    intro x hx h h2
    obtain ⟨e, a, b⟩ := add_one_f32 hx h h2
    rw [wrapUp, if_pos (by simp only [F32.lt, decide_eq_true_eq]; norm_num at h; linarith), e]
    exact ih (isF32_rne _) b (by linarith)

theorem wrapDown_inf : ∀ n, wrapDown n .pinf = .panic outOfFuel := by
  intro n
  induction n with
  | zero => rfl
  | succ n ih => rw [wrapDown, if_pos (by rfl)]; exact ih

theorem wrapUp_inf : ∀ n, wrapUp n .ninf = .panic outOfFuel := by
  intro n
  induction n with
  | zero => rfl
  | succ n ih => rw [wrapUp, if_pos (by rfl)]; exact ih

theorem wrap_spec24 {x : ℚ} (hx : Spec.IsF32 x) (hb : |x| ≤ 2 ^ 24) : ∀ m, 2 ^ 24 + 2 ≤ m →
    ∃ y, wrap m (.fin x) = .ok (.fin y) ∧ Spec.IsF32 y ∧ 0 ≤ y ∧ y ≤ 1 ∧ (0 ≤ x → x ≤ 1 → y = x) ∧
      ∃ k : ℤ, |y - (x + k)| ≤ 1 / 2 ^ 24 ∧ (0 ≤ x → y = x + k) := by
  intro m hm
  have hb' := abs_le.mp hb
  obtain ⟨z, e, i, z0, zp, zn⟩ := wrapUp_spec (2 ^ 24) x hx (by push_cast; linarith) hb'.2 (by push_cast; norm_num) m (by omega)
  have zb : z ≤ 2 ^ 24 := by
    rcases le_or_gt 0 x with h | h
    · rw [zp h]; exact hb'.2
    · have := (zn h).1; norm_num; linarith
  obtain ⟨k, e', a, b, c, d⟩ := wrapDown_spec (2 ^ 24 - 1) z i z0 (by push_cast; norm_num at zb ⊢; linarith) (by push_cast; norm_num) m (by omega)
  refine ⟨z - k, by unfold wrap; rw [e]; exact e', c, a, b, fun h h1 => ?_, ?_⟩
  · rw [zp h] at d ⊢; rw [d h1]; simp
  · rcases le_or_gt 0 x with h | h
    · rw [zp h] at *
      exact ⟨-k, by push_cast; rw [show x - (k:ℚ) - (x + -k) = 0 by ring]; norm_num, fun _ => by push_cast; ring⟩
    · obtain ⟨z1, k', hk⟩ := zn h
      rw [d z1] at *
      refine ⟨k', by push_cast; simpa using hk, fun h' => absurd h' (not_le.mpr h)⟩

theorem f32_beyond {x : ℚ} (hx : Spec.IsF32 x) (h : 2 ^ 24 < x) (h2 : x ≤ 2 ^ 24 + 2) : x = 2 ^ 24 + 2 := by
  by_contra hc
  have h3 : x < 2 ^ 24 + 2 := lt_of_le_of_ne h2 hc
  have hu : ulpExp x = 1 := by
    unfold ulpExp
    rw [abs_of_pos (by norm_num at h; linarith)]
    have : Int.log 2 x = 24 := by
      apply le_antisymm
      · have h1 : x < ((2:ℕ):ℚ) ^ (25:ℤ) := by
          have e : (((2:ℕ):ℚ) ^ (25:ℤ)) = 33554432 := by norm_num
          rw [e]; norm_num at h3; linarith
        have := (Int.lt_zpow_iff_log_lt (b := 2) (by norm_num) (by norm_num at h; linarith)).mp h1
        omega
      · have h1 : ((2:ℕ):ℚ) ^ (24:ℤ) ≤ x := by
          have e : (((2:ℕ):ℚ) ^ (24:ℤ)) = 16777216 := by norm_num
          rw [e]; norm_num at h; linarith
        exact (Int.zpow_le_iff_le_log (b := 2) (by norm_num) (by norm_num at h; linarith)).mp h1
    rw [this]; norm_num
  have e : x = rhe (x / 2 ^ (1:ℤ)) * 2 ^ (1:ℤ) := by
    conv_lhs => rw [← show rne x = x from hx]
    unfold rne; rw [hu]
  generalize rhe (x / 2 ^ (1:ℤ)) = n at e
  rw [zpow_one] at e
  rw [e] at h h3
  have h1 : ((2 ^ 24 : ℤ) : ℚ) < ((n * 2 : ℤ) : ℚ) := by push_cast; norm_num at h ⊢; linarith
  have h2 : ((n * 2 : ℤ) : ℚ) < ((2 ^ 24 + 2 : ℤ) : ℚ) := by push_cast; norm_num at h3 ⊢; linarith
  have h1 := Int.cast_lt.mp h1
  have h2 := Int.cast_lt.mp h2
  omega

theorem wrap_spec {x : ℚ} (hx : Spec.IsF32 x) (hb : |x| ≤ 2 ^ 24 + 2) : ∀ m, 2 ^ 24 + 3 ≤ m →
    ∃ y, wrap m (.fin x) = .ok (.fin y) ∧ Spec.IsF32 y ∧ 0 ≤ y ∧ y ≤ 1 ∧ (0 ≤ x → x ≤ 1 → y = x) ∧
      ∃ k : ℤ, |y - (x + k)| ≤ 1 / 2 ^ 24 ∧ (0 ≤ x → y = x + k) := by
  intro m hm
  rcases le_or_gt |x| (2 ^ 24) with h | h
  · exact wrap_spec24 hx h m (by omega)
  obtain ⟨m, rfl⟩ := Nat.exists_eq_add_of_le' (show 1 ≤ m by omega)
  have i24 : Spec.IsF32 (2 ^ 24) := by unfold Spec.IsF32; decide +kernel
  rcases le_total 0 x with h0 | h0
  · rw [abs_of_nonneg h0] at h hb
    have e := f32_beyond hx h hb
    subst e
    obtain ⟨k, e', a, b, c, d⟩ := wrapDown_spec (2 ^ 24 - 1) (2 ^ 24) i24 (by norm_num) (by push_cast; norm_num) (by push_cast; norm_num) m (by omega)
    have r : rne (2 ^ 24 + 2 - 1) = 2 ^ 24 := by decide +kernel
    refine ⟨2 ^ 24 - k, ?_, c, a, b, fun _ h1 => absurd h1 (by norm_num), -(k + 2), ?_, fun _ => by push_cast; ring⟩
    · unfold wrap
      rw [wrapUp, if_neg (by simp only [F32.lt, decide_eq_true_eq]; norm_num), Res.ok_bind, wrapDown,
        if_pos (by simp only [F32.lt, decide_eq_true_eq]; norm_num), sub_fin (by rw [abs_of_nonneg (by norm_num)]; norm_num) (by norm_num), r]
      exact e'
    · push_cast
      rw [show (2:ℚ) ^ 24 - k - (2 ^ 24 + 2 + -((k:ℚ) + 2)) = 0 by ring]; norm_num
  · rw [abs_of_nonpos h0] at h hb
    have e := f32_beyond (isF32_neg hx) h hb
    have e : x = -(2 ^ 24 + 2) := by linarith
    subst e
    have r : rne (-(2 ^ 24 + 2) + 1) = -2 ^ 24 := by decide +kernel
    obtain ⟨y, e1, i, y0, _, yn⟩ := wrapUp_spec (2 ^ 24) (-2 ^ 24) (isF32_neg i24) (by push_cast; norm_num) (by norm_num) (by push_cast; norm_num) m (by omega)
    obtain ⟨y1, k, hk⟩ := yn (by norm_num)
    refine ⟨y, ?_, i, y0, y1, fun h1 _ => absurd h1 (by norm_num), k + 2, ?_, fun h1 => absurd h1 (by norm_num)⟩
    · unfold wrap
      rw [wrapUp, if_pos (by simp only [F32.lt, decide_eq_true_eq]; norm_num), add_fin (by rw [abs_le]; norm_num), r, e1, Res.ok_bind, wrapDown,
        if_neg (by simp only [F32.lt, decide_eq_true_eq]; linarith)]
    · push_cast
      rw [show y - (-(2 ^ 24 + 2) + ((k:ℚ) + 2)) = y - (-2 ^ 24 + k) by ring]; exact hk

theorem wrap_stuck {x : ℚ} (hx : Spec.IsF32 x) (h : 2 ^ 24 + 2 < |x|) (h2 : |x| < 2 ^ 128) (fuel : ℕ) : wrap fuel (.fin x) = .panic outOfFuel := by
  unfold wrap
  rcases le_total 0 x with h0 | h0
  · rw [abs_of_nonneg h0] at h h2
    cases fuel with
    | zero => rfl
    | succ n => rw [wrapUp, if_neg (by simp [F32.lt, h0])]; exact wrapDown_stuck _ hx (next_f32 hx h) h2
  · rw [abs_of_nonpos h0] at h h2
    rw [wrapUp_stuck _ hx (by linarith [next_f32 (isF32_neg hx) h]) (by linarith)]; rfl

/-- The finite `f32` values (with the infinities and NaN: all of them). -/
def Spec.Single : F32 → Prop
  | .fin x => Spec.IsF32 x ∧ |x| < 2 ^ 128
  | _ => True

/-- C70: for every start phase that is an `f32` of size at most `2^24 + 2`, the first use of the oscillator ends and sets the phase
to a value in 0..1: the start phase itself when it already lies there, and otherwise the start phase plus a whole number (exactly for a
positive one, to within `2^-24` for a negative one). -/
theorem C70_start_phase (s : St) {x : ℚ} (hv : s.p.val .startPhase = .float (.fin x)) (hx : Spec.IsF32 x) (hb : |x| ≤ 2 ^ 24 + 2)
    (hi : s.phaseInit = false) : ∃ N, ∀ fuel, N ≤ fuel → ∃ y : ℚ, ensurePhase fuel s = .ok { s with phase := .fin y, phaseInit := true } ∧
      0 ≤ y ∧ y ≤ 1 ∧ (0 ≤ x → x ≤ 1 → y = x) ∧ ∃ k : ℤ, |y - (x + k)| ≤ 1 / 2 ^ 24 ∧ (0 ≤ x → y = x + k) := by
  refine ⟨2 ^ 24 + 3, fun fuel hf => ?_⟩
  obtain ⟨y, e, _, a, b, c, d⟩ := wrap_spec hx hb fuel hf
  refine ⟨y, ?_, a, b, c, d⟩
  unfold ensurePhase initPhase
  rw [hi, hv]
  simp only [Bool.false_eq_true, if_false, pvalf, Res.ok_bind, e]

/-- C70 (exact range; refuted beyond it): over all `f32` values, the first use of the oscillator ends exactly for NaN and for start phases of size
at most `2^24 + 2`; for every other one, infinities included, no number of loop rounds is enough. -/
theorem C70_ends_iff_refuted (s : St) (v : F32) (hv : s.p.val .startPhase = .float v) (hs : Spec.Single v) (hi : s.phaseInit = false) :
    ((∃ fuel t, ensurePhase fuel s = .ok t) ↔ v = .nan ∨ ∃ x, v = .fin x ∧ |x| ≤ 2 ^ 24 + 2) ∧
    ((¬∃ fuel t, ensurePhase fuel s = .ok t) → ∀ fuel, ensurePhase fuel s = .panic outOfFuel) := by
  have stuck : (∀ fuel, wrap fuel v = .panic outOfFuel) → ∀ fuel, ensurePhase fuel s = .panic outOfFuel := by
    intro h fuel
    unfold ensurePhase initPhase
    rw [hi, hv]
    simp only [Bool.false_eq_true, if_false, pvalf, Res.ok_bind, h fuel]
    rfl
  have no : (∀ fuel, ensurePhase fuel s = .panic outOfFuel) → ¬∃ fuel t, ensurePhase fuel s = .ok t := by
    rintro h ⟨f, t, e⟩; rw [h f] at e; cases e
  cases v with
  | nan =>
    have : ∃ fuel t, ensurePhase fuel s = .ok t := ⟨1, _, by
      unfold ensurePhase initPhase
      rw [hi, hv]
      rfl⟩
    exact ⟨⟨fun _ => Or.inl rfl, fun _ => this⟩, fun h => absurd this h⟩
  | pinf =>
    have h := stuck (fun fuel => by
      unfold wrap
      cases fuel with
      | zero => rfl
      | succ n => rw [wrapUp, if_neg (by simp [F32.lt])]; exact wrapDown_inf _)
    exact ⟨⟨fun e => absurd e (no h), fun e => by rcases e with e | ⟨x, e, _⟩ <;> cases e⟩, fun _ => h⟩
  | ninf =>
    have h := stuck (fun fuel => by unfold wrap; rw [wrapUp_inf]; rfl)
    exact ⟨⟨fun e => absurd e (no h), fun e => by rcases e with e | ⟨x, e, _⟩ <;> cases e⟩, fun _ => h⟩
  | fin x =>
    obtain ⟨hx, h2⟩ := hs
    rcases le_or_gt |x| (2 ^ 24 + 2) with h | h
    · obtain ⟨N, hN⟩ := C70_start_phase s hv hx h hi
      obtain ⟨y, e, _⟩ := hN N le_rfl
      exact ⟨⟨fun _ => Or.inr ⟨x, rfl, h⟩, fun _ => ⟨N, _, e⟩⟩, fun hc => absurd ⟨N, _, e⟩ hc⟩
    · have h' := stuck (fun fuel => wrap_stuck hx h h2 fuel)
      refine ⟨⟨fun e => absurd e (no h'), fun e => ?_⟩, fun _ => h'⟩
      rcases e with e | ⟨y, e, hy⟩
      · cases e
      · cases e; exact absurd hy (not_le.mpr h)

/-- C70: the phase is taken from the start phase once only: a phase that has been set stays. -/
theorem C70_once (fuel : Nat) (s : St) (hi : s.phaseInit = true) : ensurePhase fuel s = .ok s := by
  unfold ensurePhase; rw [if_pos hi]

/-- The hypotheses of C70 are met, by a start phase that needs unwinding. -/
example : ∃ s : St, s.p.val .startPhase = .float (.fin (-5 / 2)) ∧ Spec.IsF32 (-5 / 2) ∧ |(-5 / 2 : ℚ)| ≤ 2 ^ 24 + 2 ∧ s.phaseInit = false :=
  ⟨new ⟨fun _ => .float (.fin (-5 / 2)), fun _ => .int 0, fun _ => .int 0, fun _ => false⟩, rfl, by unfold Spec.IsF32; decide +kernel, by rw [abs_le]; norm_num, rfl⟩

/-- Both sides of the boundary are met. -/
example : Spec.IsF32 (2 ^ 24 + 2) ∧ |(2 ^ 24 + 2 : ℚ)| ≤ 2 ^ 24 + 2 ∧ Spec.Single (.fin (2 ^ 24 + 4)) ∧ ¬|(2 ^ 24 + 4 : ℚ)| ≤ 2 ^ 24 + 2 := by
  refine ⟨by unfold Spec.IsF32; decide +kernel, by rw [abs_of_pos (by norm_num)], ⟨by unfold Spec.IsF32; decide +kernel, by rw [abs_of_pos (by norm_num)]; norm_num⟩, ?_⟩
  rw [abs_of_pos (by norm_num)]; norm_num

end Verif.Lfo
