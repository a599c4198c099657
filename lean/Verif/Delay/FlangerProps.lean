import Verif.Delay.Flanger
/-!
# The flanger: history, bounds, weights (C88, C89, C90)
-/
namespace Verif.Flanger
open Verif Verif.Float Verif.Tables Verif.Dsp

/-! ## Specification -/

/-- The sample pushed `n` pushes before the last one (0: the last one); silence before the first. -/
def Spec.back (xs : List F32) (n : Nat) : F32 := (xs.reverse[n]?).getD (.fin 0)

/-- Pushing a list, oldest first. -/
def Ring.pushAll : List F32 → Ring → Res Empty Ring
  | [], r => .ok r
  | x :: xs, r => r.push x >>= fun r => Ring.pushAll xs r

/-! ## The ring -/

/-- The ring holds the last 8192 pushes. -/
def Ring.Holds (xs : List F32) (r : Ring) : Prop :=
  r.k = ((xs.length % 8192 : Nat) : Int) ∧
  ∀ n : Nat, n < 8192 → r.line (((xs.length : Int) - n) % 8192).toNat = Spec.back xs n

theorem back_append (xs : List F32) (x : F32) (n : Nat) :
    Spec.back (xs ++ [x]) 0 = x ∧ Spec.back (xs ++ [x]) (n + 1) = Spec.back xs n := by
  unfold Spec.back
  rw [List.reverse_append]
  simp

theorem new_holds : Ring.Holds [] Ring.new := ⟨rfl, fun _ _ => rfl⟩

theorem push_holds {xs : List F32} {r : Ring} (h : r.Holds xs) (x : F32) :
    ∃ r', r.push x = .ok r' ∧ r'.Holds (xs ++ [x]) := by
  obtain ⟨hk, hl⟩ := h
  have hlt : xs.length % 8192 < 8192 := Nat.mod_lt _ (by norm_num)
  have ec : (chkI32 (r.k + 1) : Res Empty Int) = .ok (((xs.length % 8192 + 1 : Nat)) : Int) := by
    unfold chkI32; rw [if_pos (by omega), hk]; push_cast; rfl
  have ei : index (((xs.length % 8192 + 1 : Nat)) : Int) (ringSize - 1) = (xs.length + 1) % 8192 := by
    rw [show ringSize - 1 = 2 ^ 13 - 1 from rfl, index_eq _ 13 (by norm_num)]; omega
  unfold Ring.push
  rw [ec]
  simp only [Res.ok_bind]
  rw [ei]
  refine ⟨_, rfl, ?_, ?_⟩
  · dsimp only; rw [List.length_append, List.length_singleton]
  · intro n hn
    dsimp only
    rw [List.length_append, List.length_singleton]
    cases n with
    | zero =>
      rw [if_pos (by omega), (back_append xs x 0).1]
    | succ n =>
      rw [if_neg (by omega), (back_append xs x n).2, ← hl n (by omega)]
      have e : ((((xs.length + 1 : Nat) : Int)) - ((n + 1 : Nat) : Int)) = (xs.length : Int) - n := by push_cast; ring
      rw [e]

theorem pushAll_holds : ∀ (ys xs : List F32) {r : Ring}, r.Holds xs → ∃ r', Ring.pushAll ys r = .ok r' ∧ r'.Holds (xs ++ ys) := by
  intro ys
  induction ys with
  | nil => intro xs r h; exact ⟨r, rfl, by simpa using h⟩
  | cons y ys ih =>
    intro xs r h
    obtain ⟨r1, e1, h1⟩ := push_holds h y
    obtain ⟨r2, e2, h2⟩ := ih (xs ++ [y]) h1
    refine ⟨r2, ?_, by simpa using h2⟩
    unfold Ring.pushAll; rw [e1]; exact e2

theorem value_holds {xs : List F32} {r : Ring} (h : r.Holds xs) (d : F32) (h0 : 0 ≤ d.toI32) (h1 : d.toI32 < 8191) :
    r.value d = .ok (F32.add (F32.mul (Spec.back xs (d.toI32.toNat + 1)) (F32.sub d (F32.ofInt d.toI32)))
      (F32.mul (Spec.back xs d.toI32.toNat) (F32.sub (.fin 1) (F32.sub d (F32.ofInt d.toI32))))) := by
  obtain ⟨hk, hl⟩ := h
  have hlt : xs.length % 8192 < 8192 := Nat.mod_lt _ (by norm_num)
  generalize hi : d.toI32 = it at *
  have er : (ringSize : Int) = 8192 := rfl
  have c1 : (chkI32 (r.k + (ringSize : Int)) : Res Empty Int) = .ok (r.k + ringSize) := by
    unfold chkI32; rw [if_pos (by omega)]
  have c2 : (chkI32 (r.k + (ringSize : Int) - it) : Res Empty Int) = .ok (r.k + ringSize - it) := by
    unfold chkI32; rw [if_pos (by omega)]
  have c3 : (chkI32 (r.k + (ringSize : Int) - it - 1) : Res Empty Int) = .ok (r.k + ringSize - it - 1) := by
    unfold chkI32; rw [if_pos (by omega)]
  unfold Ring.value
  simp only [hi]
  rw [c1]; simp only [Res.ok_bind]
  rw [c2]; simp only [Res.ok_bind]
  rw [c3]; simp only [Res.ok_bind]
  rw [show ringSize - 1 = 2 ^ 13 - 1 from rfl, index_eq _ 13 (by norm_num), index_eq _ 13 (by norm_num)]
  have a0 : ((r.k + (ringSize : Int) - it - 1) % 2 ^ 13).toNat = (((xs.length : Int) - ((it.toNat + 1 : Nat) : Int)) % 8192).toNat := by
    rw [hk, er]; omega
  have a1 : ((r.k + (ringSize : Int) - it) % 2 ^ 13).toNat = (((xs.length : Int) - (it.toNat : Int)) % 8192).toNat := by
    rw [hk, er]; omega
  rw [a0, a1, hl _ (by omega), hl _ (by omega)]

theorem frac_exact {d : ℚ} (hd : Param.Spec.IsF32 d) (h0 : 0 ≤ d) (h1 : d < 8191) :
    F32.sub (.fin d) (F32.ofInt ⌊d⌋) = .fin (d - ⌊d⌋) := by
  have f0 : 0 ≤ ⌊d⌋ := Int.floor_nonneg.mpr h0
  have f1 : ⌊d⌋ < 8191 := Int.floor_lt.mpr (by exact_mod_cast h1)
  have fl := Int.floor_le d
  have fl' := Int.lt_floor_add_one d
  rw [F32.ofInt_eq (by rw [abs_of_nonneg f0]; omega), Param.sub_fin]
  · have t := (F32.rne_trunc d).2
    rw [show rne d = d from hd, show F32.truncQ d = ⌊d⌋ by unfold F32.truncQ; rw [if_pos h0]] at t
    rw [t]
  · rw [abs_of_nonneg h0]; norm_num; linarith
  · have : (0:ℚ) ≤ ⌊d⌋ := by exact_mod_cast f0
    rw [abs_of_nonneg this]; norm_num; linarith

/-- C88. Whatever was pushed since the ring was new, reading with a delay of 0 up to (not including) 8191 samples
interpolates linearly between the two pushes around that delay; the fraction is exact. -/
theorem C88_interp_delay (xs : List F32) {d : ℚ} (hd : Param.Spec.IsF32 d) (h0 : 0 ≤ d) (h1 : d < 8191) :
    ∃ r, Ring.pushAll xs Ring.new = .ok r ∧
      r.value (.fin d) = .ok (F32.add (F32.mul (Spec.back xs (⌊d⌋.toNat + 1)) (.fin (d - ⌊d⌋)))
        (F32.mul (Spec.back xs ⌊d⌋.toNat) (F32.sub (.fin 1) (.fin (d - ⌊d⌋))))) := by
  obtain ⟨r, e, h⟩ := pushAll_holds xs [] new_holds
  rw [List.nil_append] at h
  refine ⟨r, e, ?_⟩
  have ei : (F32.fin d).toI32 = ⌊d⌋ := Delay.toI32_fin h0 (lt_trans h1 (by norm_num))
  have f0 : 0 ≤ ⌊d⌋ := Int.floor_nonneg.mpr h0
  have f1 : ⌊d⌋ < 8191 := Int.floor_lt.mpr (by exact_mod_cast h1)
  have ef := frac_exact hd h0 h1
  rw [value_holds h (.fin d) (by omega) (by omega), ei, ef]

/-- Not every delay the parameters allow fits: from 8191 samples on the ring has wrapped. The sample "8192 back" is the
newest one. -/
theorem C88_long_delay_wraps (xs : List F32) {d : ℚ} (h0 : 8192 ≤ d) (h1 : d < 8193) :
    ∃ r a b, Ring.pushAll xs Ring.new = .ok r ∧
      r.value (.fin d) = .ok (F32.add (F32.mul (Spec.back xs 1) a) (F32.mul (Spec.back xs 0) b)) := by
  obtain ⟨r, e, h⟩ := pushAll_holds xs [] new_holds
  rw [List.nil_append] at h
  obtain ⟨hk, hl⟩ := h
  have ei : (F32.fin d).toI32 = 8192 := by
    rw [Delay.toI32_fin (by linarith) (lt_trans h1 (by norm_num))]
    exact Int.floor_eq_iff.mpr ⟨by push_cast; exact h0, by push_cast; linarith⟩
  have hlt : xs.length % 8192 < 8192 := Nat.mod_lt _ (by norm_num)
  have er : (ringSize : Int) = 8192 := rfl
  have c1 : (chkI32 (r.k + (ringSize : Int)) : Res Empty Int) = .ok (r.k + ringSize) := by
    unfold chkI32; rw [if_pos (by omega)]
  have c2 : (chkI32 (r.k + (ringSize : Int) - 8192) : Res Empty Int) = .ok (r.k + ringSize - 8192) := by
    unfold chkI32; rw [if_pos (by omega)]
  have c3 : (chkI32 (r.k + (ringSize : Int) - 8192 - 1) : Res Empty Int) = .ok (r.k + ringSize - 8192 - 1) := by
    unfold chkI32; rw [if_pos (by omega)]
  refine ⟨r, F32.sub (.fin d) (F32.ofInt 8192), F32.sub (.fin 1) (F32.sub (.fin d) (F32.ofInt 8192)), e, ?_⟩
  unfold Ring.value
  simp only [ei]
  rw [c1]; simp only [Res.ok_bind]
  rw [c2]; simp only [Res.ok_bind]
  rw [c3]; simp only [Res.ok_bind]
  rw [show ringSize - 1 = 2 ^ 13 - 1 from rfl, index_eq _ 13 (by norm_num), index_eq _ 13 (by norm_num)]
  have a0 : ((r.k + (ringSize : Int) - 8192 - 1) % 2 ^ 13).toNat = (((xs.length : Int) - ((1 : Nat) : Int)) % 8192).toNat := by
    rw [hk, er]; omega
  have a1 : ((r.k + (ringSize : Int) - 8192) % 2 ^ 13).toNat = (((xs.length : Int) - ((0 : Nat) : Int)) % 8192).toNat := by
    have : r.k + (ringSize : Int) - 8192 = r.k := by rw [er]; ring
    rw [this, hk]; omega
  rw [a0, a1, hl _ (by omega), hl _ (by omega)]

/-- C88. Reading never panics for delays above -2^30 (NaN reads the two newest pushes), and does for minus infinity. -/
theorem C88_read_returns (xs : List F32) (d : F32) :
    ∃ r, Ring.pushAll xs Ring.new = .ok r ∧ (-2 ^ 30 ≤ d.toI32 → ∃ y, r.value d = .ok y) ∧
      r.value .ninf = .panic "i32 overflow" := by
  obtain ⟨r, e, h⟩ := pushAll_holds xs [] new_holds
  rw [List.nil_append] at h
  obtain ⟨hk, -⟩ := h
  have hlt : xs.length % 8192 < 8192 := Nat.mod_lt _ (by norm_num)
  have er : (ringSize : Int) = 8192 := rfl
  have tr := (toI32_range d).2
  have c1 : (chkI32 (r.k + (ringSize : Int)) : Res Empty Int) = .ok (r.k + ringSize) := by
    unfold chkI32; rw [if_pos (by omega)]
  refine ⟨r, e, fun hd => ?_, ?_⟩
  · unfold Ring.value
    dsimp only
    rw [c1]; simp only [Res.ok_bind]
    have c2 : (chkI32 (r.k + (ringSize : Int) - d.toI32) : Res Empty Int) = .ok (r.k + ringSize - d.toI32) := by
      unfold chkI32; rw [if_pos (by omega)]
    have c3 : (chkI32 (r.k + (ringSize : Int) - d.toI32 - 1) : Res Empty Int) = .ok (r.k + ringSize - d.toI32 - 1) := by
      unfold chkI32; rw [if_pos (by omega)]
    rw [c2]; simp only [Res.ok_bind]
    rw [c3]; simp only [Res.ok_bind]
    exact ⟨_, rfl⟩
  · unfold Ring.value
    have en : F32.ninf.toI32 = -2147483648 := by decide +kernel
    simp only [en]
    rw [c1]; simp only [Res.ok_bind]
    have c2 : (chkI32 (r.k + (ringSize : Int) - -2147483648) : Res Empty Int) = .panic "i32 overflow" := by
      unfold chkI32; rw [if_neg (by omega)]
    rw [c2]; rfl

/-- Delay 2.5 after pushing 1, 2, 3, 4: half of the second, half of the first. -/
example : ∃ r, Ring.pushAll [.fin 1, .fin 2, .fin 3, .fin 4] Ring.new = .ok r ∧
    r.value (.fin (5 / 2)) = .ok (.fin (3 / 2)) := by
  obtain ⟨r, h, e⟩ := C88_interp_delay [.fin 1, .fin 2, .fin 3, .fin 4] (d := 5 / 2) (by unfold Param.Spec.IsF32; decide +kernel) (by norm_num) (by norm_num)
  refine ⟨r, h, ?_⟩
  rw [e]
  decide +kernel

/-! ## The soft clip -/

/-- A number of `[1/2, 1]` is a multiple of `2^-24`. -/
theorem upper_form {x : ℚ} (hx : Param.Spec.IsF32 x) (h0 : 1 / 2 ≤ x) (h1 : x ≤ 1) :
    ∃ n : ℤ, x = n * 2 ^ (-24 : ℤ) ∧ 2 ^ 23 ≤ n ∧ n ≤ 2 ^ 24 := by
  have key : ∃ n : ℤ, x = n * 2 ^ (-24 : ℤ) := by
    obtain ⟨n, e, hn, he, hv⟩ := rne_form x
    rw [show rne x = x from hx] at hv
    rcases le_or_gt (-24) e with h | h
    · obtain ⟨m, hm⟩ := Int.eq_ofNat_of_zero_le (show 0 ≤ e + 24 by omega)
      refine ⟨n * 2 ^ m, ?_⟩
      have : e = (m : ℤ) + (-24) := by omega
      rw [hv, this, zpow_add₀ (by norm_num), zpow_natCast]; push_cast; ring
    · have hz : (2:ℚ) ^ e ≤ 2 ^ (-25 : ℤ) := zpow_le_zpow_right₀ (by norm_num) (by omega)
      have hp : (0:ℚ) < 2 ^ e := zpow_pos (by norm_num) _
      have hn' : (n : ℚ) ≤ 2 ^ 24 := by have := (abs_le.mp hn).2; exact_mod_cast this
      have : x ≤ 1 / 2 := by
        rw [hv]
        calc (n : ℚ) * 2 ^ e ≤ 2 ^ 24 * 2 ^ e := mul_le_mul_of_nonneg_right hn' hp.le
          _ ≤ 2 ^ 24 * 2 ^ (-25 : ℤ) := mul_le_mul_of_nonneg_left hz (by norm_num)
          _ = 1 / 2 := by norm_num
      exact ⟨2 ^ 23, by rw [le_antisymm this h0]; norm_num⟩
  obtain ⟨n, hn⟩ := key
  refine ⟨n, hn, ?_, ?_⟩
  · have : ((2 ^ 23 : ℤ) : ℚ) ≤ n := by push_cast; rw [hn] at h0; norm_num at h0 ⊢; linarith
    exact_mod_cast this
  · have : (n : ℚ) ≤ ((2 ^ 24 : ℤ) : ℚ) := by push_cast; rw [hn] at h1; norm_num at h1 ⊢; linarith
    exact_mod_cast this

/-- `1.5 x - 0.5 x^3` computed in `f32` stays in the unit interval. -/
theorem cubicQ_unit {x : ℚ} (hx : Param.Spec.IsF32 x) (h0 : 0 ≤ x) (h1 : x ≤ 1) :
    0 ≤ rne (rne (3 / 2 * x) - rne (rne (rne (1 / 2 * x) * x) * x)) ∧
    rne (rne (3 / 2 * x) - rne (rne (rne (1 / 2 * x) * x) * x)) ≤ 1 := by
  have hx' : rne x = x := hx
  have a0 : 0 ≤ rne (1 / 2 * x) := rne_nonneg (by linarith)
  have a1 : rne (1 / 2 * x) ≤ x := by have := rne_mono (show 1 / 2 * x ≤ x by linarith); rwa [hx'] at this
  have b0 : 0 ≤ rne (rne (1 / 2 * x) * x) := rne_nonneg (mul_nonneg a0 h0)
  have b1 : rne (rne (1 / 2 * x) * x) ≤ x := by
    have := rne_mono (show rne (1 / 2 * x) * x ≤ x by nlinarith); rwa [hx'] at this
  have c0 : 0 ≤ rne (rne (rne (1 / 2 * x) * x) * x) := rne_nonneg (mul_nonneg b0 h0)
  have c1 : rne (rne (rne (1 / 2 * x) * x) * x) ≤ x := by
    have := rne_mono (show rne (rne (1 / 2 * x) * x) * x ≤ x by nlinarith); rwa [hx'] at this
  have d0 : x ≤ rne (3 / 2 * x) := by have := rne_mono (show x ≤ 3 / 2 * x by linarith); rwa [hx'] at this
  refine ⟨rne_nonneg (by linarith), ?_⟩
  rcases le_or_gt (1 / 2) x with hh | hh
  · obtain ⟨n, hn, n0, n1⟩ := upper_form hx hh h1
    have e1 : rne (1 / 2 * x) = 1 / 2 * x := by
      have := rne_mul_zpow n (-25) (by rw [abs_of_nonneg (by omega)]; exact n1) (by norm_num)
      have e : (n : ℚ) * 2 ^ (-25 : ℤ) = 1 / 2 * x := by rw [hn]; norm_num; ring
      rwa [e] at this
    have e2 : x - 1 / 2 ≤ rne (rne (1 / 2 * x) * x) := by
      have r := rne_mul_zpow (n - 2 ^ 23) (-24) (by rw [abs_of_nonneg (by omega)]; omega) (by norm_num)
      have e : ((n - 2 ^ 23 : ℤ) : ℚ) * 2 ^ (-24 : ℤ) = x - 1 / 2 := by rw [hn]; push_cast; norm_num; ring
      rw [e] at r
      have := rne_mono (show x - 1 / 2 ≤ rne (1 / 2 * x) * x by rw [e1]; nlinarith [sq_nonneg (x - 1)])
      rwa [r] at this
    have e3 : 3 / 2 * x - 1 ≤ rne (rne (rne (1 / 2 * x) * x) * x) := by
      have r := rne_mul_zpow (3 * n - 2 ^ 25) (-25) (by rw [abs_le]; constructor <;> omega) (by norm_num)
      have e : ((3 * n - 2 ^ 25 : ℤ) : ℚ) * 2 ^ (-25 : ℤ) = 3 / 2 * x - 1 := by rw [hn]; push_cast; norm_num; ring
      rw [e] at r
      have := rne_mono (show 3 / 2 * x - 1 ≤ rne (rne (1 / 2 * x) * x) * x by nlinarith [sq_nonneg (x - 1)])
      rwa [r] at this
    have e4 := (abs_le.mp (Adsr.ulp_small (x := 3 / 2 * x) (by rw [abs_of_nonneg (by linarith)]; linarith))).2
    have := rne_mono (show rne (3 / 2 * x) - rne (rne (rne (1 / 2 * x) * x) * x) ≤ 1 + 1 / 2 ^ 24 by linarith)
    have t : rne (1 + 1 / 2 ^ 24) = 1 := by decide +kernel
    rwa [t] at this
  · have e4 := (abs_le.mp (Adsr.ulp_small (x := 3 / 2 * x) (by rw [abs_of_nonneg (by linarith)]; linarith))).2
    have := rne_mono (show rne (3 / 2 * x) - rne (rne (rne (1 / 2 * x) * x) * x) ≤ 1 by norm_num at e4 ⊢; linarith)
    have t : rne 1 = 1 := by decide +kernel
    rwa [t] at this

theorem cubic_unit {x : ℚ} (hx : Param.Spec.IsF32 x) (h : |x| ≤ 1) :
    ∃ y, cubic (.fin x) = .fin y ∧ Param.Spec.IsF32 y ∧ |y| ≤ 1 := by
  have u : ∀ {a b : ℚ}, |a| ≤ 2 → |b| ≤ 2 → |a * b| ≤ 2 ^ 100 := by
    intro a b ha hb
    rw [abs_mul]
    calc |a| * |b| ≤ 2 * 2 := mul_le_mul ha hb (abs_nonneg _) (by norm_num)
      _ ≤ 2 ^ 100 := by norm_num
  have h2 : |x| ≤ 2 ^ 0 := by simpa using h
  have hh : |1 / 2 * x| ≤ 2 ^ 0 := by rw [abs_mul]; norm_num; linarith
  have q1 := Param.rne_abs hh
  have m2 : |rne (1 / 2 * x) * x| ≤ 2 ^ 0 := by
    rw [abs_mul]; have := mul_le_mul q1 h2 (abs_nonneg _) (by norm_num); norm_num at this ⊢; linarith
  have q2 := Param.rne_abs m2
  have m3 : |rne (rne (1 / 2 * x) * x) * x| ≤ 2 ^ 0 := by
    rw [abs_mul]; have := mul_le_mul q2 h2 (abs_nonneg _) (by norm_num); norm_num at this ⊢; linarith
  have q3 := Param.rne_abs m3
  have m4 : |3 / 2 * x| ≤ 2 ^ 1 := by rw [abs_mul]; norm_num; linarith
  have q4 := Param.rne_abs m4
  have e : cubic (.fin x) = .fin (rne (rne (3 / 2 * x) - rne (rne (rne (1 / 2 * x) * x) * x))) := by
    unfold cubic
    rw [Param.mul_fin (le_trans m4 (by norm_num)), Param.mul_fin (le_trans hh (by norm_num)),
      Param.mul_fin (le_trans m2 (by norm_num)), Param.mul_fin (le_trans m3 (by norm_num)),
      Param.sub_fin (le_trans q4 (by norm_num)) (le_trans q3 (by norm_num))]
  refine ⟨_, e, rne_idem _, ?_⟩
  rcases le_total 0 x with h0 | h0
  · have := cubicQ_unit hx h0 (abs_le.mp h).2
    rw [abs_of_nonneg this.1]; exact this.2
  · have hx' : Param.Spec.IsF32 (-x) := by unfold Param.Spec.IsF32; rw [rne_neg, show rne x = x from hx]
    have := cubicQ_unit hx' (by linarith) (by linarith [(abs_le.mp h).1])
    have en : rne (rne (3 / 2 * -x) - rne (rne (rne (1 / 2 * -x) * -x) * -x)) =
        - rne (rne (3 / 2 * x) - rne (rne (rne (1 / 2 * x) * x) * x)) := by
      rw [← rne_neg]
      congr 1
      simp only [mul_neg, rne_neg, neg_mul, neg_neg]; ring
    rw [en] at this
    rw [abs_of_nonpos (by linarith)]; exact this.2

end Verif.Flanger
