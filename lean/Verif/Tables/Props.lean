import Verif.Tables.Model
import Verif.Lfo.Phase
import Mathlib.Tactic.Linarith
import Mathlib.Tactic.Ring
import Mathlib.Tactic.NormNum
import Mathlib.Tactic.Positivity
/-!
# C74–C77: table lookups
-/
namespace Verif.Tables
open Verif Verif.Float Verif.Param Verif.Float.F32

theorem index_eq (e : Int) (k : Nat) (hk : k ≤ 32) : index e (2 ^ k - 1) = (e % 2 ^ k).toNat := by
  unfold index
  rw [BitVec.toNat_and, BitVec.toNat_ofInt, BitVec.toNat_ofNat]
  have h1 : (2 ^ k - 1) % 2 ^ 32 = 2 ^ k - 1 := by
    apply Nat.mod_eq_of_lt
    have : 2 ^ k ≤ 2 ^ 32 := Nat.pow_le_pow_right (by norm_num) hk
    have : 0 < 2 ^ k := by positivity
    omega
  rw [h1, Nat.and_two_pow_sub_one_eq_mod]
  have d : (2:Int) ^ k ∣ 2 ^ 32 := pow_dvd_pow 2 hk
  have h2 : e % 2 ^ k = (e % 2 ^ 32) % 2 ^ k := (Int.emod_emod_of_dvd e d).symm
  have h3 : (0:Int) ≤ e % 2 ^ 32 := Int.emod_nonneg _ (by norm_num)
  rw [h2]
  obtain ⟨m, hm⟩ := Int.eq_ofNat_of_zero_le h3
  have : ((2 ^ 32 : Nat) : Int) = 2 ^ 32 := by norm_num
  rw [this, hm]
  simp only [Int.ofNat_toNat, Int.toNat_natCast]
  have : ((m : Int) % 2 ^ k) = ((m % 2 ^ k : Nat) : Int) := by push_cast; rfl
  rw [this]; rfl

theorem get_ok {α : Type} {t : List α} {i : Nat} (h : i < t.length) : get t i = .ok t[i] := by
  unfold get; rw [List.getElem?_eq_getElem h]

theorem index_lt (e : Int) (k : Nat) (hk : k ≤ 32) : index e (2 ^ k - 1) < 2 ^ k := by
  rw [index_eq e k hk]
  have := Int.emod_lt_of_pos e (show (0:Int) < 2 ^ k by positivity)
  have h0 : (0:Int) ≤ e % 2 ^ k := Int.emod_nonneg _ (by positivity)
  have : ((e % 2 ^ k).toNat : Int) < ((2 ^ k : Nat) : Int) := by rw [Int.toNat_of_nonneg h0]; push_cast; exact this
  exact_mod_cast this

theorem toI32_range (x : F32) : -2147483648 ≤ x.toI32 ∧ x.toI32 ≤ 2147483647 := by
  unfold F32.toI32 F32.toIntSat
  cases x <;> simp

/-- The interpolation returns unless the position is too large for an `i32`. -/
theorem interp_total (t : List F32) (k : Nat) (hk : k ≤ 32) (ht : t.length = 2 ^ k) (x : F32) :
    (x.toI32 < 2147483647 → ∃ v, interp t (2 ^ k - 1) x = .ok v) ∧
    (x.toI32 = 2147483647 → interp t (2 ^ k - 1) x = .panic "i32 overflow") := by
  have r := toI32_range x
  have l0 : index x.toI32 (2 ^ k - 1) < t.length := by rw [ht]; exact index_lt _ k hk
  have l1 : index (x.toI32 + 1) (2 ^ k - 1) < t.length := by rw [ht]; exact index_lt _ k hk
  unfold interp
  constructor
  · intro h
    have c : (chkI32 (x.toI32 + 1) : Res Empty Int) = .ok (x.toI32 + 1) := by unfold chkI32; rw [if_pos (by omega)]
    dsimp only
    rw [get_ok l0, Res.ok_bind, c, Res.ok_bind, get_ok l1, Res.ok_bind]
    exact ⟨_, rfl⟩
  · intro h
    have c : (chkI32 (x.toI32 + 1) : Res Empty Int) = .panic "i32 overflow" := by unfold chkI32; rw [if_neg (by omega)]
    dsimp only
    rw [get_ok l0, Res.ok_bind, c]; rfl

/-- The exact linear interpolation of a table at `p`. -/
def Spec.between (t0 t1 p : ℚ) : ℚ := (1 - (p - ⌊p⌋)) * t0 + (p - ⌊p⌋) * t1

/-- A table of finite values of size at most `M`. -/
def Spec.Tab (M : ℚ) (t : List F32) : Prop := ∀ v ∈ t, ∃ q, v = .fin q ∧ Spec.IsF32 q ∧ |q| ≤ M

/-- One interpolation in floating point. -/
theorem lerp_err {a t0 t1 M : ℚ} (ha0 : 0 ≤ a) (ha1 : a ≤ 1) (h0 : |t0| ≤ M) (h1 : |t1| ≤ M) (hM : M ≤ 2 ^ 90) :
    ∃ r, F32.add (F32.mul (F32.sub (.fin 1) (.fin a)) (.fin t0)) (F32.mul (.fin a) (.fin t1)) = .fin r ∧
      |r - ((1 - a) * t0 + a * t1)| ≤ M / 2 ^ 21 + 1 / 2 ^ 147 ∧ Spec.IsF32 r := by
  have M0 : 0 ≤ M := (abs_nonneg t0).trans h0
  have hb : |1 - a| ≤ 1 := by rw [abs_le]; constructor <;> linarith
  have eb := rne_dist hb
  have ub : |rne (1 - a)| ≤ 2 ^ 0 := rne_abs (by simpa using hb)
  rw [sub_fin (by norm_num) (by rw [abs_of_nonneg ha0]; linarith [show (1:ℚ) ≤ 2 ^ 99 by norm_num])]
  set b := rne (1 - a) with hbdef
  have ub' : |b| ≤ 1 := by simpa using ub
  have ha : |a| ≤ 1 := by rw [abs_of_nonneg ha0]; exact ha1
  have p0 : |b * t0| ≤ M := by rw [abs_mul]; calc _ ≤ 1 * M := mul_le_mul ub' h0 (abs_nonneg _) (by norm_num)
                                _ = M := one_mul M
  have p1 : |a * t1| ≤ M := by rw [abs_mul]; calc _ ≤ 1 * M := mul_le_mul ha h1 (abs_nonneg _) (by norm_num)
                                _ = M := one_mul M
  have big : (2:ℚ) ^ 90 ≤ 2 ^ 100 := by norm_num
  rw [mul_fin (p0.trans (hM.trans big)), mul_fin (p1.trans (hM.trans big))]
  have e0 := rne_dist p0
  have e1 := rne_dist p1
  set u := rne (b * t0)
  set w := rne (a * t1)
  have eb2 : |(b - (1 - a)) * t0| ≤ (1 / 2 ^ 24 + 1 / 2 ^ 150) * M := by
    rw [abs_mul]; exact mul_le_mul eb h0 (abs_nonneg _) (by positivity)
  have s : |u + w - ((1 - a) * t0 + a * t1)| ≤ (1 / 2 ^ 24 + 1 / 2 ^ 150) * M + 2 * (M / 2 ^ 24 + 1 / 2 ^ 150) := by
    have : u + w - ((1 - a) * t0 + a * t1) = (u - b * t0) + (w - a * t1) + (b - (1 - a)) * t0 := by ring
    rw [this]
    refine (abs_add_le _ _).trans ((add_le_add (abs_add_le _ _) le_rfl).trans ?_)
    linarith
  have ex : |(1 - a) * t0 + a * t1| ≤ M := by
    rw [abs_le] at h0 h1 ⊢
    constructor <;> nlinarith
  have bs : |u + w| ≤ 2 * M + 1 := by
    have : u + w = (u + w - ((1 - a) * t0 + a * t1)) + ((1 - a) * t0 + a * t1) := by ring
    rw [this]
    refine (abs_add_le _ _).trans ((add_le_add s ex).trans ?_)
    have : (1 / 2 ^ 24 + 1 / 2 ^ 150 : ℚ) * M ≤ M / 2 := by
      calc _ ≤ (1 / 2 : ℚ) * M := mul_le_mul_of_nonneg_right (by norm_num) M0
        _ = M / 2 := by ring
    have h3 : (1 / 2 ^ 150 : ℚ) ≤ 1 / 2 := by norm_num
    linarith
  rw [add_fin (bs.trans (by linarith [show (2:ℚ) * 2 ^ 90 + 1 ≤ 2 ^ 100 by norm_num]))]
  refine ⟨_, rfl, ?_, rne_idem _⟩
  have e2 := rne_dist (q := u + w) (b := M + ((1 / 2 ^ 24 + 1 / 2 ^ 150) * M + 2 * (M / 2 ^ 24 + 1 / 2 ^ 150))) (by
    have : u + w = (u + w - ((1 - a) * t0 + a * t1)) + ((1 - a) * t0 + a * t1) := by ring
    rw [this]
    refine (abs_add_le _ _).trans ?_
    linarith)
  have : rne (u + w) - ((1 - a) * t0 + a * t1) = (rne (u + w) - (u + w)) + (u + w - ((1 - a) * t0 + a * t1)) := by ring
  rw [this]
  refine (abs_add_le _ _).trans ((add_le_add e2 s).trans ?_)
  have i1 : (1 / 2 ^ 150 : ℚ) * M ≤ M / 2 ^ 30 := by
    calc _ ≤ (1 / 2 ^ 30 : ℚ) * M := mul_le_mul_of_nonneg_right (by norm_num) M0
      _ = M / 2 ^ 30 := by ring
  have i2 : (1 / 2 ^ 24 + 1 / 2 ^ 150 : ℚ) * M = M / 2 ^ 24 + 1 / 2 ^ 150 * M := by ring
  rw [i2]
  have i3 : (M + (M / 2 ^ 24 + 1 / 2 ^ 150 * M + 2 * (M / 2 ^ 24 + 1 / 2 ^ 150))) / 2 ^ 24 ≤ M / 2 ^ 23 + 1 / 2 ^ 150 := by
    norm_num at i1 ⊢; linarith
  norm_num at i1 i3 ⊢
  linarith

/-- Mixing values between -1 and 1 gives one between -1 and 1, exactly. -/
theorem lerp_unit {a t0 t1 : ℚ} (ha0 : 0 ≤ a) (ha1 : a ≤ 1) (ia : Spec.IsF32 a) (h0 : |t0| ≤ 1) (h1 : |t1| ≤ 1) {r : ℚ}
    (hr : F32.add (F32.mul (F32.sub (.fin 1) (.fin a)) (.fin t0)) (F32.mul (.fin a) (.fin t1)) = .fin r) : |r| ≤ 1 := by
  have hb : |1 - a| ≤ 1 := by rw [abs_le]; constructor <;> linarith
  have ub : |rne (1 - a)| ≤ 2 ^ 0 := rne_abs (by simpa using hb)
  have eb : |rne (1 - a) - (1 - a)| ≤ 1 / 2 ^ 24 := Adsr.ulp_small (by rw [abs_lt]; rw [abs_le] at hb; constructor <;> linarith)
  rw [sub_fin (by norm_num) (by rw [abs_of_nonneg ha0]; linarith [show (1:ℚ) ≤ 2 ^ 99 by norm_num])] at hr
  have b0 : 0 ≤ rne (1 - a) := rne_nonneg (by linarith)
  set b := rne (1 - a) with hbdef
  have ub' : b ≤ 1 := by rw [abs_of_nonneg b0] at ub; simpa using ub
  have ib : rne b = b := rne_idem _
  have p0 : |b * t0| ≤ b := by rw [abs_mul, abs_of_nonneg b0]; exact mul_le_of_le_one_right b0 h0
  have p1 : |a * t1| ≤ a := by rw [abs_mul, abs_of_nonneg ha0]; exact mul_le_of_le_one_right ha0 h1
  have big : (1:ℚ) ≤ 2 ^ 100 := by norm_num
  rw [mul_fin ((p0.trans ub').trans big), mul_fin ((p1.trans ha1).trans big)] at hr
  have q0 : |rne (b * t0)| ≤ b := by
    rw [abs_le] at p0 ⊢
    have := rne_mono p0.1; have h2 := rne_mono p0.2
    rw [rne_neg] at this; rw [ib] at this h2; exact ⟨this, h2⟩
  have q1 : |rne (a * t1)| ≤ a := by
    rw [abs_le] at p1 ⊢
    have := rne_mono p1.1; have h2 := rne_mono p1.2
    rw [rne_neg] at this; rw [ia] at this h2; exact ⟨this, h2⟩
  have s : |rne (b * t0) + rne (a * t1)| ≤ 1 + 1 / 2 ^ 24 := by
    refine (abs_add_le _ _).trans ?_
    rw [abs_le] at eb; linarith
  rw [add_fin (s.trans (by norm_num))] at hr
  cases hr
  have r1 : rne (1 + 1 / 2 ^ 24 : ℚ) = 1 := by decide +kernel
  rw [abs_le] at s ⊢
  have u1 := rne_mono s.1; have u2 := rne_mono s.2
  rw [rne_neg, r1] at u1; rw [r1] at u2
  exact ⟨u1, u2⟩

theorem pos_split {p : ℚ} (ip : Spec.IsF32 p) (h0 : 0 ≤ p) (h1 : p < 2 ^ 20) :
    (F32.fin p).toI32 = ⌊p⌋ ∧ F32.sub (.fin p) (F32.ofInt (F32.fin p).toI32) = .fin (p - ⌊p⌋) ∧ Spec.IsF32 (p - ⌊p⌋) ∧ 0 ≤ p - ⌊p⌋ ∧ p - ⌊p⌋ < 1 := by
  have f0 : 0 ≤ ⌊p⌋ := Int.floor_nonneg.mpr h0
  have f1 : ⌊p⌋ < 2 ^ 20 := by rw [Int.floor_lt]; push_cast; exact h1
  have tq : F32.truncQ p = ⌊p⌋ := by unfold F32.truncQ; rw [if_pos h0]
  have e : (F32.fin p).toI32 = ⌊p⌋ := by
    unfold F32.toI32 F32.toIntSat; dsimp only; rw [tq]; omega
  have rt := rne_trunc p
  rw [show rne p = p from ip, tq] at rt
  have a0 := Int.floor_le p
  have a1 := Int.lt_floor_add_one p
  refine ⟨e, ?_, rt.2, by linarith, by linarith⟩
  rw [e, F32.ofInt_eq (by rw [abs_of_nonneg f0]; omega), sub_fin, rt.2]
  · rw [abs_of_nonneg h0]; linarith [show (2:ℚ) ^ 20 ≤ 2 ^ 99 by norm_num]
  · rw [abs_of_nonneg (by exact_mod_cast f0)]; linarith [show (2:ℚ) ^ 20 ≤ 2 ^ 99 by norm_num]

/-- The interpolation at a position in the table. -/
theorem interp_spec {t : List F32} {M p : ℚ} {k : Nat} (hk : k ≤ 20) (ht : t.length = 2 ^ k) (hT : Spec.Tab M t) (hM : M ≤ 2 ^ 90)
    (ip : Spec.IsF32 p) (h0 : 0 ≤ p) (h1 : p < 2 ^ k) :
    ∃ t0 t1 r, t[⌊p⌋.toNat]? = some (.fin t0) ∧ t[(⌊p⌋.toNat + 1) % 2 ^ k]? = some (.fin t1) ∧ interp t (2 ^ k - 1) (.fin p) = .ok (.fin r) ∧
      |r - Spec.between t0 t1 p| ≤ M / 2 ^ 21 + 1 / 2 ^ 147 ∧ Spec.IsF32 r ∧ (p = ⌊p⌋ → r = t0) ∧ (|t0| ≤ 1 → |t1| ≤ 1 → |r| ≤ 1) := by
  have kk : (2:ℚ) ^ k ≤ 2 ^ 20 := pow_le_pow_right₀ (by norm_num) hk
  obtain ⟨e, ea, ia, a0, a1⟩ := pos_split ip h0 (h1.trans_le kk)
  have f0 : 0 ≤ ⌊p⌋ := Int.floor_nonneg.mpr h0
  have f1 : ⌊p⌋ < 2 ^ k := by rw [Int.floor_lt]; push_cast; exact h1
  have f2 : (2:Int) ^ k ≤ 2 ^ 20 := pow_le_pow_right₀ (by norm_num) hk
  have i0 : index ⌊p⌋ (2 ^ k - 1) = ⌊p⌋.toNat := by rw [index_eq _ k (by omega), Int.emod_eq_of_lt f0 f1]
  have i1 : index (⌊p⌋ + 1) (2 ^ k - 1) = (⌊p⌋.toNat + 1) % 2 ^ k := by
    rw [index_eq _ k (by omega)]
    obtain ⟨m, hm⟩ := Int.eq_ofNat_of_zero_le f0
    rw [hm]
    have : ((m : Int) + 1) % 2 ^ k = (((m + 1) % 2 ^ k : Nat) : Int) := by push_cast; rfl
    rw [this]; rfl
  have l0 : ⌊p⌋.toNat < t.length := by rw [ht, ← i0]; exact index_lt _ k (by omega)
  have l1 : (⌊p⌋.toNat + 1) % 2 ^ k < t.length := by rw [ht]; exact Nat.mod_lt _ (by positivity)
  obtain ⟨t0, e0, it0, b0⟩ := hT _ (List.getElem_mem l0)
  obtain ⟨t1, e1, _, b1⟩ := hT _ (List.getElem_mem l1)
  obtain ⟨r, er, err, ir⟩ := lerp_err a0 a1.le b0 b1 hM
  refine ⟨t0, t1, r, by rw [List.getElem?_eq_getElem l0, e0], by rw [List.getElem?_eq_getElem l1, e1], ?_, err, ir, ?_, fun u0 u1 => lerp_unit a0 a1.le ia u0 u1 er⟩
  · have c : (chkI32 (⌊p⌋ + 1) : Res Empty Int) = .ok (⌊p⌋ + 1) := by unfold chkI32; rw [if_pos (by omega)]
    unfold interp
    dsimp only
    rw [ea, e, i0, get_ok l0, Res.ok_bind, c, Res.ok_bind, i1, get_ok l1, Res.ok_bind, e0, e1, er]
  · intro hp
    rw [← hp, sub_self] at er
    have M0 : 0 ≤ M := (abs_nonneg t0).trans b0
    have big : |t0| ≤ 2 ^ 100 := b0.trans (hM.trans (by norm_num))
    rw [sub_fin (by norm_num) (by norm_num), show rne (1 - 0 : ℚ) = 1 by decide +kernel, mul_fin (by simpa using big), one_mul, show rne t0 = t0 from it0,
      mul_fin (by simp), zero_mul, show rne (0:ℚ) = 0 from rne_zero, add_fin (by simpa using big), add_zero, show rne t0 = t0 from it0] at er
    cases er; rfl
