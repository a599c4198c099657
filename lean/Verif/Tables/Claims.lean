import Verif.Tables.Props
import Mathlib.Analysis.SpecialFunctions.ExpDeriv
import Mathlib.Analysis.Complex.ExponentialBounds
/-!
# C74–C77: table lookups
-/
namespace Verif.Tables
open Verif Verif.Float Verif.Param Verif.Float.F32

/-- A table holding `v 0 … v (n-1)`. -/
def Spec.table (v : Nat → ℚ) (n : Nat) : List F32 := (List.range n).map fun i => .fin (v i)
/-- Linear interpolation between the entries around position `p`. -/
def Spec.at (v : Nat → ℚ) (p : ℚ) : ℚ := (1 - (p - ⌊p⌋)) * v ⌊p⌋.toNat + (p - ⌊p⌋) * v (⌊p⌋.toNat + 1)
/-- The first `n` entries are floats of size at most `M`. -/
def Spec.Fits (v : Nat → ℚ) (n : Nat) (M : ℚ) : Prop := ∀ i, i < n → Spec.IsF32 (v i) ∧ |v i| ≤ M

theorem table_length (v : Nat → ℚ) (n : Nat) : (Spec.table v n).length = n := by simp [Spec.table]
theorem table_get (v : Nat → ℚ) {n i : Nat} (h : i < n) : (Spec.table v n)[i]? = some (.fin (v i)) := by simp [Spec.table, h]
theorem table_tab {v : Nat → ℚ} {n : Nat} {M : ℚ} (h : Spec.Fits v n M) : Spec.Tab M (Spec.table v n) := by
  intro x hx
  simp only [Spec.table, List.mem_map, List.mem_range] at hx
  obtain ⟨i, hi, rfl⟩ := hx
  exact ⟨_, rfl, (h i hi).1, (h i hi).2⟩

/-! ## C74: which inputs can be looked up -/

/-- At most `c`, or below every number, or not a number. -/
def Upper (c : ℚ) (x : F32) : Prop := x = .nan ∨ x = .ninf ∨ ∃ q, q ≤ c ∧ x = .fin q
/-- At least `c`. -/
def Lower (c : ℚ) (x : F32) : Prop := x = .pinf ∨ ∃ q, c ≤ q ∧ x = .fin q

theorem rne_int_le {q : ℚ} {n : ℕ} (h : q ≤ 2 ^ n) : rne q ≤ 2 ^ n := by
  have := rne_mono h
  have e : rne ((2:ℚ) ^ n) = 2 ^ n := by
    have := rne_zpow (e := (n:ℤ)) (by omega)
    simpa using this
  rwa [e] at this
theorem rne_int_ge {q : ℚ} {n : ℕ} (h : 2 ^ n ≤ q) : 2 ^ n ≤ rne q := by
  have := rne_mono h
  have e : rne ((2:ℚ) ^ n) = 2 ^ n := by
    have := rne_zpow (e := (n:ℤ)) (by omega)
    simpa using this
  rwa [e] at this

theorem ofQ_upper {q : ℚ} {n : ℕ} (hn : n ≤ 127) (h : q ≤ 2 ^ n) : Upper (2 ^ n) (F32.ofQ q) := by
  have r := rne_int_le h
  have b : (2:ℚ) ^ n ≤ 2 ^ 127 := pow_le_pow_right₀ (by norm_num) hn
  unfold F32.ofQ
  rw [if_neg (by have : (2:ℚ) ^ 127 < 2 ^ 128 := by norm_num
                 linarith)]
  split
  · exact .inr (.inl rfl)
  · exact .inr (.inr ⟨_, r, rfl⟩)

theorem ofQ_lower {q : ℚ} {n : ℕ} (h : 2 ^ n ≤ q) : Lower (2 ^ n) (F32.ofQ q) := by
  have r := rne_int_ge h
  unfold F32.ofQ
  split
  · exact .inl rfl
  · rw [if_neg (by have : (0:ℚ) < 2 ^ n := by positivity
                   linarith [show (0:ℚ) < 2 ^ 128 by norm_num])]
    exact .inr ⟨_, r, rfl⟩

theorem toI32_upper {x : F32} (h : Upper (2 ^ 30) x) : x.toI32 < 2147483647 := by
  rcases h with rfl | rfl | ⟨q, hq, rfl⟩
  · simp [F32.toI32, F32.toIntSat]
  · simp [F32.toI32, F32.toIntSat]
  · have : F32.truncQ q ≤ 2 ^ 30 := by
      unfold F32.truncQ
      split
      · have : ((⌊q⌋ : ℤ) : ℚ) ≤ ((2 ^ 30 : ℤ) : ℚ) := by push_cast; exact (Int.floor_le q).trans hq
        exact_mod_cast this
      · rw [Int.ceil_le]; push_cast; exact hq
    unfold F32.toI32 F32.toIntSat
    dsimp only
    omega

theorem toI32_lower {x : F32} (h : Lower (2 ^ 31) x) : x.toI32 = 2147483647 := by
  rcases h with rfl | ⟨q, hq, rfl⟩
  · simp [F32.toI32, F32.toIntSat]
  · have h0 : (0:ℚ) ≤ q := le_trans (by norm_num) hq
    have : 2 ^ 31 ≤ F32.truncQ q := by
      unfold F32.truncQ
      rw [if_pos h0, Int.le_floor]; push_cast; exact hq
    unfold F32.toI32 F32.toIntSat
    dsimp only
    omega

/-- `x * c + d` for an input that is not too large. -/
theorem scaled_upper {x : F32} {c d : ℚ} {n : ℕ} (hc : 0 < c) (hx : Upper (2 ^ n) x) (hn : n ≤ 28) (hcb : 2 ^ n * c ≤ 2 ^ 28) (hd : d ≤ 2 ^ 28) :
    Upper (2 ^ 30) (F32.add (F32.mul x (.fin c)) (.fin d)) := by
  rcases hx with rfl | rfl | ⟨q, hq, rfl⟩
  · left; simp [F32.mul, F32.add]
  · right; left
    simp [F32.mul, F32.infOf, hc, F32.add, hc.not_gt]
  · have h1 : q * c ≤ 2 ^ 28 := le_trans (mul_le_mul_of_nonneg_right hq hc.le) hcb
    have : Upper (2 ^ 28) (F32.mul (.fin q) (.fin c)) := ofQ_upper (by norm_num) h1
    rcases this with e | e | ⟨y, hy, e⟩
    · left; rw [e]; rfl
    · right; left; rw [e]; rfl
    · rw [e]
      have hs : y + d ≤ 2 ^ 29 := by
        have : (2:ℚ) ^ 28 + 2 ^ 28 = 2 ^ 29 := by norm_num
        linarith
      rcases ofQ_upper (q := y + d) (by norm_num) hs with e | e | ⟨z, hz, e⟩
      · left; exact e
      · right; left; exact e
      · right; right; exact ⟨z, hz.trans (by norm_num), e⟩

theorem scaled_lower {x : F32} {c d : ℚ} {n : ℕ} (hc : 0 < c) (hx : Lower (2 ^ n) x) (hcb : 2 ^ n * c = 2 ^ 31) (hd : 0 ≤ d) :
    Lower (2 ^ 31) (F32.add (F32.mul x (.fin c)) (.fin d)) := by
  rcases hx with rfl | ⟨q, hq, rfl⟩
  · left; simp [F32.mul, F32.infOf, hc, F32.add]
  · have h1 : 2 ^ 31 ≤ q * c := by rw [← hcb]; exact mul_le_mul_of_nonneg_right hq hc.le
    have : Lower (2 ^ 31) (F32.mul (.fin q) (.fin c)) := ofQ_lower h1
    rcases this with e | ⟨y, hy, e⟩
    · left; rw [e]; rfl
    · rw [e]; exact ofQ_lower (q := y + d) (by linarith)

theorem add_upper {x : F32} {d : ℚ} (hx : Upper (2 ^ 28) x) (hd : d ≤ 2 ^ 28) : Upper (2 ^ 30) (F32.add x (.fin d)) := by
  rcases hx with rfl | rfl | ⟨q, hq, rfl⟩
  · left; rfl
  · right; left; rfl
  · have hs : q + d ≤ 2 ^ 29 := by
      have : (2:ℚ) ^ 28 + 2 ^ 28 = 2 ^ 29 := by norm_num
      linarith
    rcases ofQ_upper (q := q + d) (by norm_num) hs with e | e | ⟨z, hz, e⟩
    · left; exact e
    · right; left; exact e
    · right; right; exact ⟨z, hz.trans (by norm_num), e⟩

theorem add_lower {x : F32} {d : ℚ} (hx : Lower (2 ^ 31) x) (hd : 0 ≤ d) : Lower (2 ^ 31) (F32.add x (.fin d)) := by
  rcases hx with rfl | ⟨q, hq, rfl⟩
  · left; rfl
  · exact ofQ_lower (q := q + d) (by linarith)

/-- C74. The envelope rate, the decibel conversion and the shaped sine return for every input up to 2^20, infinitely negative and
not-a-number included: no read is outside the table. -/
theorem C74_lookups_return_partial (t : List F32) (ts : List (List F32)) (ht : t.length = 512) (hts : ts.length = 8) (hl : ∀ t ∈ ts, t.length = 1024)
    (x : F32) (hx : Upper (2 ^ 20) x) (entry : Nat) (he : entry < 8) (sub : SubType) :
    (∃ v, envelopeRate t x = .ok v) ∧ (∃ v, dbToLinear t x = .ok v) ∧ (∃ v, clipscale t x sub = .ok v) ∧ (∃ v, lookupWarp ts entry x = .ok v) := by
  have m9 : (0x1ff : Nat) = 2 ^ 9 - 1 := by norm_num
  have m10 : (0x3ff : Nat) = 2 ^ 10 - 1 := by norm_num
  have up : ∀ y, Upper (2 ^ 20) y → ∃ v, dbToLinear t y = .ok v := by
    intro y hy
    unfold dbToLinear
    rw [m9]
    refine (interp_total t 9 (by norm_num) (by rw [ht]; rfl) _).1 (toI32_upper (add_upper ?_ (by norm_num)))
    rcases hy with e | e | ⟨q, hq, e⟩
    · left; exact e
    · right; left; exact e
    · right; right; exact ⟨q, hq.trans (by norm_num), e⟩
  refine ⟨?_, up x hx, ?_, ?_⟩
  · unfold envelopeRate
    rw [m9]
    exact (interp_total t 9 (by norm_num) (by rw [ht]; rfl) _).1 (toI32_upper (scaled_upper (by norm_num) hx (by norm_num) (by norm_num) (by norm_num)))
  · cases sub with
    | rough =>
      have hm : Upper (2 ^ 20) (F32.mul x (flit (55 / 100))) := by
        have fe : flit (55 / 100) = .fin (rne (55 / 100)) := by decide +kernel
        rw [fe]
        have f0 : (0:ℚ) < rne (55 / 100) ∧ rne (55 / 100) ≤ 1 := by decide +kernel
        generalize rne (55 / 100) = c at f0
        rcases hx with rfl | rfl | ⟨q, hq, rfl⟩
        · left; rfl
        · right; left; simp [F32.mul, F32.infOf, f0.1, f0.1.not_gt]
        · refine ofQ_upper (by norm_num) ?_
          rcases le_or_gt 0 q with h | h
          · exact (mul_le_of_le_one_right h f0.2).trans hq
          · have : q * c ≤ 0 := mul_nonpos_of_nonpos_of_nonneg h.le f0.1.le
            exact this.trans (by norm_num)
      obtain ⟨v, e⟩ := up _ hm
      unfold clipscale
      rw [e]; exact ⟨_, rfl⟩
    | smooth => exact ⟨_, rfl⟩
    | other => exact ⟨_, rfl⟩
  · have l : entry < ts.length := by omega
    unfold lookupWarp
    rw [get_ok l, Res.ok_bind, m10]
    exact (interp_total _ 10 (by norm_num) (by rw [hl _ (List.getElem_mem l)]; rfl) _).1 (toI32_upper (scaled_upper (by norm_num) hx (by norm_num) (by norm_num) (by norm_num)))

/-- C74. The wave shaper returns for every input and every one of the eight tables, for no other. -/
theorem C74_waveshaper_returns (ts : List (List F32)) (hts : ts.length = 8) (hl : ∀ t ∈ ts, t.length = 1024) (x : F32) (entry : Nat) (he : entry < 8) :
    ∃ v, lookupWaveshape ts entry x = .ok v := by
  unfold lookupWaveshape
  generalize F32.add (F32.mul x (.fin 32)) (.fin 512) = y
  dsimp only
  split
  · exact ⟨_, rfl⟩
  · rename_i h1
    split
    · exact ⟨_, rfl⟩
    · have l : entry < ts.length := by omega
      rw [get_ok l, Res.ok_bind, show (0x3ff : Nat) = 2 ^ 10 - 1 by norm_num]
      exact (interp_total _ 10 (by norm_num) (by rw [hl _ (List.getElem_mem l)]; rfl) _).1 (by omega)

/-- C74 fails: larger inputs panic in the envelope rate, the decibel conversion and the shaped sine. -/
theorem C74_large_inputs_panic (t : List F32) (ts : List (List F32)) (ht : t.length = 512) (hts : ts.length = 8) (hl : ∀ t ∈ ts, t.length = 1024) (x : F32)
    (entry : Nat) (he : entry < 8) :
    (Lower (2 ^ 27) x → envelopeRate t x = .panic "i32 overflow") ∧ (Lower (2 ^ 31) x → dbToLinear t x = .panic "i32 overflow") ∧
    (Lower (2 ^ 23) x → lookupWarp ts entry x = .panic "i32 overflow") := by
  have m9 : (0x1ff : Nat) = 2 ^ 9 - 1 := by norm_num
  have m10 : (0x3ff : Nat) = 2 ^ 10 - 1 := by norm_num
  refine ⟨fun hx => ?_, fun hx => ?_, fun hx => ?_⟩
  · unfold envelopeRate
    rw [m9]
    exact (interp_total t 9 (by norm_num) (by rw [ht]; rfl) _).2 (toI32_lower (scaled_lower (by norm_num) hx (by norm_num) (by norm_num)))
  · unfold dbToLinear
    rw [m9]
    exact (interp_total t 9 (by norm_num) (by rw [ht]; rfl) _).2 (toI32_lower (add_lower hx (by norm_num)))
  · have l : entry < ts.length := by omega
    unfold lookupWarp
    rw [get_ok l, Res.ok_bind, m10]
    exact (interp_total _ 10 (by norm_num) (by rw [hl _ (List.getElem_mem l)]; rfl) _).2 (toI32_lower (scaled_lower (by norm_num) hx (by norm_num) (by norm_num)))

/-! ## C75: interpolation and wrap-around -/

theorem rne_scale {q : ℚ} (hq : Spec.IsF32 q) (k : ℕ) : Spec.IsF32 (q * 2 ^ k) := by
  obtain ⟨n, e, hn, he, hv⟩ := rne_form q
  have : q * 2 ^ k = n * 2 ^ (e + k) := by
    rw [← show rne q = q from hq, hv, zpow_add₀ (by norm_num), zpow_natCast]; ring
  unfold Spec.IsF32
  rw [this]
  exact rne_mul_zpow n (e + k) hn (by omega)

theorem small_err {x : ℚ} {n : ℕ} (h : |x| < 2 ^ (n + 1)) : |rne x - x| ≤ 2 ^ n / 2 ^ 24 := by
  have h1 := abs_rne_sub_le x
  rcases eq_or_ne x 0 with rfl | hx
  · rw [show rne (0:ℚ) = 0 from rne_zero]; simp; positivity
  have hu : ulpExp x ≤ (n : ℤ) - 23 := by
    unfold ulpExp
    have : Int.log 2 |x| ≤ n := by
      have := Int.lt_zpow_iff_log_lt (R := ℚ) (b := 2) (by norm_num) (x := (n : ℤ) + 1) (r := |x|) (by positivity)
      have h2 := this.mp (by
        have e : ((2:ℕ):ℚ) ^ ((n:ℤ) + 1) = 2 ^ (n + 1) := by
          rw [show ((n:ℤ) + 1) = ((n + 1 : ℕ) : ℤ) by push_cast; ring, zpow_natCast]; norm_num
        rw [e]; exact h)
      omega
    omega
  refine h1.trans ?_
  have : (2:ℚ) ^ ulpExp x ≤ 2 ^ ((n:ℤ) - 23) := zpow_le_zpow_right₀ (by norm_num) hu
  have e : (2:ℚ) ^ ((n:ℤ) - 23) = 2 ^ n / 2 ^ 23 := by
    rw [zpow_sub₀ (by norm_num), zpow_natCast]; norm_num
  rw [e] at this
  have : (2:ℚ) ^ n / 2 ^ 23 / 2 = 2 ^ n / 2 ^ 24 := by rw [div_div]; norm_num
  linarith

/-- The position looked up for `y + d`. -/
theorem position {y d : ℚ} {n : ℕ} (hn : n ≤ 12) (hd0 : 0 ≤ y + d) (hd1 : y + d ≤ 2 ^ n - 1) :
    F32.add (.fin y) (.fin d) = .fin (rne (y + d)) ∧ 0 ≤ rne (y + d) ∧ rne (y + d) ≤ 2 ^ n - 1 ∧ |rne (y + d) - (y + d)| ≤ 2 ^ n / 2 ^ 25 := by
  have b12 : (2:ℚ) ^ n ≤ 2 ^ 12 := pow_le_pow_right₀ (by norm_num) hn
  have ab : |y + d| ≤ 2 ^ 12 := by rw [abs_of_nonneg hd0]; linarith
  have one : (1:ℚ) ≤ 2 ^ n := one_le_pow₀ (by norm_num)
  refine ⟨add_fin (ab.trans (by norm_num)), rne_nonneg hd0, ?_, ?_⟩
  · have h1 := rne_mono hd1
    have e : rne ((2:ℚ) ^ n - 1) = 2 ^ n - 1 := by
      have := rne_intCast (2 ^ n - 1) (by
        have a : (2:ℤ) ^ n ≤ 2 ^ 12 := pow_le_pow_right₀ (by norm_num) hn
        have b : (1:ℤ) ≤ 2 ^ n := one_le_pow₀ (by norm_num)
        rw [abs_of_nonneg (by omega)]
        have : (2:ℤ) ^ 12 ≤ 2 ^ 24 := by norm_num
        omega)
      push_cast at this; exact this
    rwa [e] at h1
  · rcases n with _ | n
    · have : y + d = 0 := by norm_num at hd1; linarith
      rw [this, show rne (0:ℚ) = 0 from rne_zero]; norm_num
    · have := small_err (x := y + d) (n := n) (by rw [abs_of_nonneg hd0]; linarith)
      refine this.trans (le_of_eq ?_)
      rw [pow_succ]; ring

/-- Interpolation in a table, at a position. -/
theorem interp_table {v : Nat → ℚ} {k : ℕ} {M p : ℚ} (hk : k ≤ 12) (hv : Spec.Fits v (2 ^ k) M) (hM : M ≤ 2 ^ 90) (ip : Spec.IsF32 p) (h0 : 0 ≤ p) (h1 : p ≤ 2 ^ k - 1) :
    ∃ r, interp (Spec.table v (2 ^ k)) (2 ^ k - 1) (.fin p) = .ok (.fin r) ∧ |r - Spec.at v p| ≤ M / 2 ^ 21 + 1 / 2 ^ 147 ∧ Spec.IsF32 r ∧
      (∀ i : Nat, p = i → r = v i) ∧ (M ≤ 1 → |r| ≤ 1) := by
  obtain ⟨t0, t1, r, e0, e1, er, err, ir, grid, unit⟩ := interp_spec (k := k) (by omega) (table_length v _) (table_tab hv) hM ip h0 (by linarith)
  have f0 : 0 ≤ ⌊p⌋ := Int.floor_nonneg.mpr h0
  have kk : ((2 ^ k : ℕ) : ℤ) = 2 ^ k := by push_cast; rfl
  have f1 : ⌊p⌋ ≤ 2 ^ k - 1 := by
    have : ((⌊p⌋ : ℤ) : ℚ) ≤ ((2 ^ k - 1 : ℤ) : ℚ) := by push_cast; exact (Int.floor_le p).trans h1
    exact_mod_cast this
  have b0 : ⌊p⌋.toNat < 2 ^ k := by
    have : ((⌊p⌋.toNat : ℕ) : ℤ) < ((2 ^ k : ℕ) : ℤ) := by rw [Int.toNat_of_nonneg f0, kk]; omega
    exact_mod_cast this
  rw [table_get v b0] at e0
  cases e0
  have hr : |r - Spec.at v p| ≤ M / 2 ^ 21 + 1 / 2 ^ 147 ∧ (M ≤ 1 → |r| ≤ 1) := by
    rcases Nat.lt_or_ge (⌊p⌋.toNat + 1) (2 ^ k) with h | h
    · rw [Nat.mod_eq_of_lt h, table_get v h] at e1
      cases e1
      exact ⟨err, fun h' => unit ((hv _ b0).2.trans h') ((hv _ h).2.trans h')⟩
    · have ep : ⌊p⌋ = 2 ^ k - 1 := by
        have : ((⌊p⌋.toNat : ℕ) : ℤ) + 1 ≥ ((2 ^ k : ℕ) : ℤ) := by exact_mod_cast h
        rw [Int.toNat_of_nonneg f0, kk] at this
        omega
      have pe : p = ⌊p⌋ := by
        have : (2 ^ k - 1 : ℚ) = ((⌊p⌋ : ℤ) : ℚ) := by rw [ep]; push_cast; ring
        have h2 := Int.floor_le p
        linarith
      rw [grid pe]
      constructor
      · unfold Spec.at
        have : p - ⌊p⌋ = 0 := by linarith
        rw [this]
        have M0 : 0 ≤ M := (abs_nonneg _).trans (hv _ b0).2
        simp only [sub_zero, one_mul, zero_mul, add_zero, sub_self, abs_zero]
        positivity
      · intro h'; exact (hv _ b0).2.trans h'
  refine ⟨r, er, hr.1, ir, ?_, hr.2⟩
  intro i hi
  have : ⌊p⌋ = i := by rw [hi]; simp
  rw [grid (by rw [this]; exact_mod_cast hi), this]; simp

/-- C75. Within the range of the table the envelope rate is the straight line between the two neighbouring entries, up to the rounding of the position and of the
result, and exactly the entry at a grid point. -/
theorem C75_rate_partial {v : Nat → ℚ} {M q : ℚ} (hv : Spec.Fits v 512 M) (hM : M ≤ 2 ^ 90) (hq : Spec.IsF32 q) (h0 : -16 ≤ q) (h1 : q ≤ 16 - 1 / 16) :
    ∃ p r, envelopeRate (Spec.table v 512) (.fin q) = .ok (.fin r) ∧ |p - (16 * q + 256)| ≤ 1 / 2 ^ 16 ∧ 0 ≤ p ∧ p ≤ 511 ∧
      |r - Spec.at v p| ≤ M / 2 ^ 21 + 1 / 2 ^ 147 ∧ (∀ i : Nat, q = (i - 256) / 16 → r = v i) := by
  have sc : F32.mul (.fin q) (.fin 16) = .fin (q * 16) := by
    have : Spec.IsF32 (q * 2 ^ 4) := rne_scale hq 4
    norm_num at this
    rw [mul_fin (by rw [abs_le]; constructor <;> norm_num <;> linarith), show rne (q * 16) = q * 16 from this]
  obtain ⟨e, p0, p1, pe⟩ := position (y := q * 16) (d := 256) (n := 9) (by norm_num) (by linarith) (by norm_num; linarith)
  obtain ⟨r, er, err, _, grid, _⟩ := interp_table (k := 9) (by norm_num) hv hM (rne_idem (q * 16 + 256)) p0 p1
  refine ⟨rne (q * 16 + 256), r, ?_, ?_, p0, ?_, err, ?_⟩
  · unfold envelopeRate
    rw [sc, e, show (0x1ff : Nat) = 2 ^ 9 - 1 by norm_num, show (512 : Nat) = 2 ^ 9 by norm_num]; exact er
  · rw [show 16 * q + 256 = q * 16 + 256 by ring]; refine pe.trans (by norm_num)
  · norm_num at p1 ⊢; exact p1
  · intro i hi
    refine grid i ?_
    have : q * 16 + 256 = ((i : ℤ) : ℚ) := by rw [hi]; push_cast; ring
    have hb : ((i : ℤ) : ℚ) ≤ 511 := by rw [← this]; linarith
    rw [this, rne_intCast _ (by
      have : (i : ℤ) ≤ 511 := by exact_mod_cast hb
      rw [abs_of_nonneg (by omega)]; norm_num; omega)]
    exact Int.cast_natCast i

/-- C75. The same for the gain of `q` decibels, between -384 and 127. -/
theorem C75_gain_partial {v : Nat → ℚ} {M q : ℚ} (hv : Spec.Fits v 512 M) (hM : M ≤ 2 ^ 90) (h0 : -384 ≤ q) (h1 : q ≤ 127) :
    ∃ p r, dbToLinear (Spec.table v 512) (.fin q) = .ok (.fin r) ∧ |p - (q + 384)| ≤ 1 / 2 ^ 16 ∧ 0 ≤ p ∧ p ≤ 511 ∧
      |r - Spec.at v p| ≤ M / 2 ^ 21 + 1 / 2 ^ 147 ∧ (∀ i : Nat, q = i - 384 → r = v i) := by
  obtain ⟨e, p0, p1, pe⟩ := position (y := q) (d := 384) (n := 9) (by norm_num) (by linarith) (by norm_num; linarith)
  obtain ⟨r, er, err, _, grid, _⟩ := interp_table (k := 9) (by norm_num) hv hM (rne_idem (q + 384)) p0 p1
  refine ⟨rne (q + 384), r, ?_, pe.trans (by norm_num), p0, ?_, err, ?_⟩
  · unfold dbToLinear
    rw [e, show (0x1ff : Nat) = 2 ^ 9 - 1 by norm_num, show (512 : Nat) = 2 ^ 9 by norm_num]; exact er
  · norm_num at p1 ⊢; exact p1
  · intro i hi
    refine grid i ?_
    have : q + 384 = ((i : ℤ) : ℚ) := by rw [hi]; push_cast; ring
    have hb : ((i : ℤ) : ℚ) ≤ 511 := by rw [← this]; linarith
    rw [this, rne_intCast _ (by
      have : (i : ℤ) ≤ 511 := by exact_mod_cast hb
      rw [abs_of_nonneg (by omega)]; norm_num; omega)]
    exact Int.cast_natCast i

theorem index_int {n : ℤ} {k : ℕ} : ((n % 2 ^ k).toNat : ℕ) < 2 ^ k := by
  have h0 : (0:Int) ≤ n % 2 ^ k := Int.emod_nonneg _ (by positivity)
  have := Int.emod_lt_of_pos n (show (0:Int) < 2 ^ k by positivity)
  have : ((n % 2 ^ k).toNat : Int) < ((2 ^ k : Nat) : Int) := by rw [Int.toNat_of_nonneg h0]; push_cast; exact this
  exact_mod_cast this

/-- At an integer position, whatever its size or sign, the entry read is the one at the position modulo the table size. -/
theorem interp_int {v : Nat → ℚ} {k : ℕ} {M : ℚ} (hk : k ≤ 12) (hv : Spec.Fits v (2 ^ k) M) (hM : M ≤ 2 ^ 90) (n : ℤ) (hn : |n| ≤ 2 ^ 24) :
    interp (Spec.table v (2 ^ k)) (2 ^ k - 1) (.fin n) = .ok (.fin (v (n % 2 ^ k).toNat)) := by
  have e : (F32.fin (n : ℚ)).toI32 = n := by
    unfold F32.toI32 F32.toIntSat; dsimp only; rw [F32.truncQ_intCast]
    rw [abs_le] at hn; norm_num at hn; omega
  have c : (chkI32 (n + 1) : Res Empty Int) = .ok (n + 1) := by
    unfold chkI32; rw [abs_le] at hn; norm_num at hn; rw [if_pos (by omega)]
  have a0 : F32.sub (.fin (n : ℚ)) (F32.ofInt n) = .fin 0 := by
    have hq : |(n : ℚ)| ≤ 2 ^ 24 := by exact_mod_cast hn
    rw [F32.ofInt_eq hn, sub_fin (hq.trans (by norm_num)) (hq.trans (by norm_num)), sub_self, show rne (0:ℚ) = 0 from rne_zero]
  have b0 : (n % 2 ^ k).toNat < 2 ^ k := index_int
  have b1 : ((n + 1) % 2 ^ k).toNat < 2 ^ k := index_int
  have v0 := hv _ b0
  have v1 := hv _ b1
  have big : ∀ i, |v i| ≤ M → |v i| ≤ 2 ^ 100 := fun i h => h.trans (hM.trans (by norm_num))
  unfold interp
  dsimp only
  rw [e, a0, index_eq _ k (by omega), get, table_get v b0, Res.ok_bind, c, Res.ok_bind, index_eq _ k (by omega), get, table_get v b1, Res.ok_bind]
  rw [sub_fin (by norm_num) (by norm_num), show rne (1 - 0 : ℚ) = 1 by decide +kernel, mul_fin (by simpa using big _ v0.2), one_mul, show rne (v _) = v _ from v0.1,
      mul_fin (by simp), zero_mul, show rne (0:ℚ) = 0 from rne_zero, add_fin (by simpa using big _ v0.2), add_zero, show rne (v _) = v _ from v0.1]

/-- C75 fails: outside its range the table is read round the corner. A gain of 128 dB is the one of -384 dB, and every 512 dB the gains come again; the envelope
rate comes again every 32 units. -/
theorem C75_wraps_around {v : Nat → ℚ} {M : ℚ} (hv : Spec.Fits v 512 M) (hM : M ≤ 2 ^ 90) (n : ℤ) (hn : |n| ≤ 2 ^ 20) :
    dbToLinear (Spec.table v 512) (.fin n) = .ok (.fin (v ((n + 384) % 512).toNat)) ∧
    dbToLinear (Spec.table v 512) (.fin 128) = .ok (.fin (v 0)) ∧ dbToLinear (Spec.table v 512) (.fin (-384)) = .ok (.fin (v 0)) ∧
    envelopeRate (Spec.table v 512) (.fin 16) = .ok (.fin (v 0)) ∧ envelopeRate (Spec.table v 512) (.fin (-16)) = .ok (.fin (v 0)) := by
  have key : ∀ m : ℤ, |m| ≤ 2 ^ 20 → dbToLinear (Spec.table v 512) (.fin m) = .ok (.fin (v ((m + 384) % 512).toNat)) := by
    intro m hm
    rw [abs_le] at hm
    have hb : |m + 384| ≤ 2 ^ 24 := by rw [abs_le]; norm_num at hm ⊢; omega
    unfold dbToLinear
    have hmq : |((m + 384 : ℤ) : ℚ)| ≤ 2 ^ 24 := by exact_mod_cast hb
    push_cast at hmq
    rw [add_fin (hmq.trans (by norm_num))]
    have := rne_intCast (m + 384) hb
    push_cast at this
    rw [this]
    have h2 := interp_int (k := 9) (by norm_num) hv hM (m + 384) hb
    push_cast at h2
    exact h2
  have i0 := interp_int (k := 9) (by norm_num) hv hM 512 (by norm_num)
  have i1 := interp_int (k := 9) (by norm_num) hv hM 0 (by norm_num)
  have z : ∀ m : ℤ, m = 512 ∨ m = 0 → (m % 2 ^ 9).toNat = 0 := by rintro m (rfl | rfl) <;> rfl
  rw [z _ (.inl rfl)] at i0
  rw [z _ (.inr rfl)] at i1
  refine ⟨key n hn, ?_, ?_, ?_, ?_⟩
  · have := key 128 (by norm_num); push_cast at this; exact this
  · have := key (-384) (by norm_num); push_cast at this; exact this
  · have e : F32.add (F32.mul (.fin 16) (.fin 16)) (.fin 256) = .fin 512 := by decide +kernel
    unfold envelopeRate
    rw [e]; push_cast at i0; exact i0
  · have e : F32.add (F32.mul (.fin (-16)) (.fin 16)) (.fin 256) = .fin 0 := by decide +kernel
    unfold envelopeRate
    rw [e]; push_cast at i1; exact i1

/-- C75 fails: just below the range the line through the first two entries is continued the wrong way round: half a step below the first entry is read as one and a half of
the first less half of the second, since the position is rounded towards zero. -/
theorem C75_below_extrapolates (t0 t1 : F32) (t : List F32) (ht : t.length = 510) :
    envelopeRate (t0 :: t1 :: t) (.fin (-16 - 1 / 32)) = .ok (F32.add (F32.mul (.fin (3 / 2)) t0) (F32.mul (.fin (-(1 / 2))) t1)) := by
  have e : F32.add (F32.mul (.fin (-16 - 1 / 32)) (.fin 16)) (.fin 256) = .fin (-(1 / 2)) := by decide +kernel
  have e1 : (F32.fin (-(1 / 2))).toI32 = 0 := by decide +kernel
  have e2 : F32.sub (.fin (-(1 / 2))) (F32.ofInt 0) = .fin (-(1 / 2)) := by decide +kernel
  have e3 : F32.sub (.fin 1) (.fin (-(1 / 2))) = .fin (3 / 2) := by decide +kernel
  unfold envelopeRate
  rw [e]
  unfold interp
  dsimp only
  rw [e1, e2, e3]
  rfl

/-! ## C76: the wave shaper stays between -1 and 1 -/

/-- C76. Whatever the input, not-a-number and infinities included, a wave shaper whose table is between -1 and 1 answers between -1 and 1. -/
theorem C76_waveshaper_bounded {v : Nat → ℚ} (hv : Spec.Fits v 1024 1) (ts : List (List F32)) (entry : Nat) (ht : ts[entry]? = some (Spec.table v 1024)) (x : F32) :
    ∃ r, lookupWaveshape ts entry x = .ok (.fin r) ∧ -1 ≤ r ∧ r ≤ 1 := by
  unfold lookupWaveshape
  have shape : ∀ a b : F32, (∃ q, F32.add a b = .fin q ∧ Spec.IsF32 q) ∨ F32.add a b = .nan ∨ F32.add a b = .pinf ∨ F32.add a b = .ninf := by
    intro a b
    have key : ∀ z : ℚ, (∃ q, F32.ofQ z = .fin q ∧ Spec.IsF32 q) ∨ F32.ofQ z = .nan ∨ F32.ofQ z = .pinf ∨ F32.ofQ z = .ninf := by
      intro z
      unfold F32.ofQ
      split
      · simp
      · split
        · simp
        · exact .inl ⟨_, rfl, rne_idem z⟩
    cases a <;> cases b <;> first | exact key _ | simp [F32.add]
  generalize hy : F32.add (F32.mul x (.fin 32)) (.fin 512) = y
  have sy := shape (F32.mul x (.fin 32)) (.fin 512)
  rw [hy] at sy
  dsimp only
  split
  · exact ⟨1, rfl, by norm_num, by norm_num⟩
  · rename_i h1
    split
    · exact ⟨-1, rfl, by norm_num, by norm_num⟩
    · rename_i h2
      rcases sy with ⟨p, rfl, ip⟩ | rfl | rfl | rfl
      · have bnd : 0 ≤ p ∧ p ≤ 2 ^ 10 - 1 := by
          have t1 : F32.truncQ p ≤ 0x3fd := by
            unfold F32.toI32 F32.toIntSat at h1; dsimp only at h1; omega
          have t2 : 1 ≤ F32.truncQ p := by
            unfold F32.toI32 F32.toIntSat at h2; dsimp only at h2; omega
          have p0 : 0 ≤ p := by
            by_contra hc
            have := ((F32.truncQ_bounds p).2 (not_le.mp hc)).2.2
            omega
          refine ⟨p0, ?_⟩
          have := ((F32.truncQ_bounds p).1 p0).2.1
          have : ((F32.truncQ p : ℤ) : ℚ) ≤ ((0x3fd : ℤ) : ℚ) := by exact_mod_cast t1
          push_cast at this
          norm_num
          linarith
        obtain ⟨r, er, _, _, _, u⟩ := interp_table (k := 10) (by norm_num) hv (by norm_num) ip bnd.1 bnd.2
        have := u le_rfl
        rw [abs_le] at this
        refine ⟨r, ?_, this.1, this.2⟩
        unfold get
        rw [ht, Res.ok_bind]; exact er
      · simp [F32.toI32, F32.toIntSat] at h2
      · simp [F32.toI32, F32.toIntSat] at h1
      · simp [F32.toI32, F32.toIntSat] at h2

/-- C76. The shaped sine of the LFO, of an input between -2 and 2, is between -1 and 1 for a table between -1 and 1. -/
theorem C76_warp_bounded {v : Nat → ℚ} (hv : Spec.Fits v 1024 1) (ts : List (List F32)) (entry : Nat) (ht : ts[entry]? = some (Spec.table v 1024)) {q : ℚ}
    (hq : Spec.IsF32 q) (h0 : -2 ≤ q) (h1 : q ≤ 2) :
    ∃ r, lookupWarp ts entry (.fin q) = .ok (.fin r) ∧ Spec.IsF32 r ∧ -1 ≤ r ∧ r ≤ 1 := by
  have sc : F32.mul (.fin q) (.fin 256) = .fin (q * 256) := by
    have : Spec.IsF32 (q * 2 ^ 8) := rne_scale hq 8
    norm_num at this
    rw [mul_fin (by rw [abs_le]; constructor <;> norm_num <;> linarith), show rne (q * 256) = q * 256 from this]
  have e : F32.add (.fin (q * 256)) (.fin 512) = .fin (rne (q * 256 + 512)) := add_fin (by rw [abs_le]; constructor <;> norm_num <;> linarith)
  have p0 : 0 ≤ rne (q * 256 + 512) := rne_nonneg (by linarith)
  have p1 : rne (q * 256 + 512) ≤ 2 ^ 10 := rne_int_le (by norm_num; linarith)
  have fin' : ∀ z : ℚ, interp (Spec.table v 1024) 0x3ff (.fin (rne (q * 256 + 512))) = .ok (.fin z) → Spec.IsF32 z → |z| ≤ 1 →
      ∃ r, lookupWarp ts entry (.fin q) = .ok (.fin r) ∧ Spec.IsF32 r ∧ -1 ≤ r ∧ r ≤ 1 := by
    intro z hz iz bz
    rw [abs_le] at bz
    refine ⟨z, ?_, iz, bz.1, bz.2⟩
    unfold lookupWarp get
    rw [ht, Res.ok_bind, sc, e]; exact hz
  rcases lt_or_eq_of_le p1 with h | h
  · obtain ⟨t0, t1, r, e0, e1, er, _, ir, _, u⟩ := interp_spec (k := 10) (by norm_num) (table_length v _) (table_tab hv) (by norm_num) (rne_idem _) p0 h
    have m : ∀ {i : Nat} {z : ℚ}, (Spec.table v 1024)[i]? = some (.fin z) → |z| ≤ 1 := by
      intro i z hz
      obtain ⟨q', hq', _, hb⟩ := table_tab hv _ (List.mem_of_getElem? hz)
      cases hq'; exact hb
    exact fin' r er ir (u (m e0) (m e1))
  · have h' : rne (q * 256 + 512) = ((1024 : ℤ) : ℚ) := by rw [h]; norm_num
    have := interp_int (k := 10) (by norm_num) hv (by norm_num) 1024 (by norm_num)
    rw [← h'] at this
    exact fin' _ this (hv _ index_int).1 (hv _ index_int).2

/-- C72. The assumption made there on the shaped sine is met by the table lookup. -/
theorem C72_sine_table {v : Nat → ℚ} (hv : Spec.Fits v 1024 1) (ts : List (List F32)) (ht : ts[3]? = some (Spec.table v 1024)) (x : F32) (hx : Lfo.Spec.Between (-2) 2 x) :
    ∃ y, lookupWarp ts 3 x = .ok y ∧ Lfo.Spec.Between (-1) 1 y := by
  obtain ⟨q, rfl, iq, a, b⟩ := hx
  obtain ⟨r, e, ir, c, d⟩ := C76_warp_bounded hv ts 3 ht iq a b
  exact ⟨_, e, r, rfl, ir, c, d⟩

/-- surge-math/src/tanh.rs 186-190 `shafted_tanh`, in exact arithmetic. -/
noncomputable def shaftedTanh (x : ℝ) : ℝ := (Real.exp x - Real.exp (-x * (12 / 10))) / (Real.exp x + Real.exp (-x))

/-- waveshape.rs 98-99: entry `i` of the asymmetric table, in exact arithmetic. -/
noncomputable def asymEntry (i : ℕ) : ℝ := shaftedTanh (((i : ℝ) - 512) * (1 / 32) + 1 / 2) - shaftedTanh (1 / 2)

/-- C76 fails for the asymmetric shaper: the first entry of its table is below -19 (in exact arithmetic), so its answers are not between -1 and 1, and they jump
to -1 where the table ends. -/
theorem C76_asym_exceeds : asymEntry 0 < -19 := by
  have h1 : shaftedTanh (1 / 2) ≥ -1 := by
    unfold shaftedTanh
    rw [ge_iff_le, le_div_iff₀ (by positivity)]
    have a := Real.exp_pos (1 / 2)
    have b : Real.exp (-(1 / 2) * (12 / 10)) ≤ Real.exp (-(1 / 2)) := Real.exp_le_exp.mpr (by norm_num)
    nlinarith
  have h2 : shaftedTanh (((0 : ℕ) : ℝ) - 512) * 1 = shaftedTanh (-512) := by simp
  have key : shaftedTanh (-(31 / 2)) < -20 := by
    unfold shaftedTanh
    rw [div_lt_iff₀ (by positivity)]
    have e1 : Real.exp (- -(31 / 2) * (12 / 10)) = Real.exp (31 / 10) * Real.exp (31 / 2) := by rw [← Real.exp_add]; norm_num
    have e2 : Real.exp (-(31 / 2)) ≤ Real.exp 0 := Real.exp_le_exp.mpr (by norm_num)
    rw [Real.exp_zero] at e2
    have e3 : (22:ℝ) ≤ Real.exp (31 / 10) := by
      have : Real.exp (31 / 10) = Real.exp 1 ^ 3 * Real.exp (1 / 10) := by rw [← Real.exp_nat_mul, ← Real.exp_add]; norm_num
      rw [this]
      have g := Real.exp_one_gt_d9
      have g2 : (11 / 10 : ℝ) ≤ Real.exp (1 / 10) := by have := Real.add_one_le_exp (1 / 10 : ℝ); linarith
      have g3 : (20.07:ℝ) ≤ Real.exp 1 ^ 3 := by
        have : (2.718 : ℝ) ^ 3 ≤ Real.exp 1 ^ 3 := pow_le_pow_left₀ (by norm_num) (by linarith) 3
        refine le_trans ?_ this; norm_num
      nlinarith
    have e4 : (16:ℝ) ≤ Real.exp (31 / 2) := by have := Real.add_one_le_exp (31 / 2 : ℝ); linarith
    have e5 : Real.exp (- -(31 / 2)) = Real.exp (31 / 2) := by norm_num
    rw [e1, e5]
    nlinarith
  unfold asymEntry
  have : (((0 : ℕ) : ℝ) - 512) * (1 / 32) + 1 / 2 = -(31 / 2) := by norm_num
  rw [this]; linarith

/-! ## C77: the offset is ignored -/

/-- C77 fails: the pointer into a shaping table does not depend on the offset asked for: it points at the element whose number is the table's. -/
theorem C77_offset_ignored (idx : Nat) (h : idx < 8) (offset : Int) : waveshaperPtr idx offset = .ok (idx, idx) := by
  have : ∀ i, i < 8 → i &&& 0x3ff = i := by decide
  unfold waveshaperPtr
  rw [if_neg (by simpa using h), if_neg (by simpa using this idx h)]

/-- C77. The table number is checked, and what is pointed at lies in the table. -/
theorem C77_pointer_in_table_partial (idx : Nat) (offset : Int) (p : Nat × Int) (h : waveshaperPtr idx offset = .ok p) : p.1 = idx ∧ p.1 < 8 ∧ 0 ≤ p.2 ∧ p.2 < 1024 := by
  unfold waveshaperPtr at h
  split at h
  · cases h
  · split at h
    · cases h
    · cases h; dsimp only; omega

/-! ## Non-vacuity -/

example : Spec.Fits (fun i => (i : ℚ) / 1024) 1024 1 := by
  intro i hi
  constructor
  · have := rne_mul_zpow (i : ℤ) (-10) (by rw [abs_of_nonneg (by omega)]; omega) (by norm_num)
    unfold Spec.IsF32
    dsimp only
    have e : (i : ℚ) / 1024 = ((i : ℤ) : ℚ) * 2 ^ (-10 : ℤ) := by norm_num; ring
    rw [e]; exact this
  · have : (i : ℚ) < 1024 := by exact_mod_cast hi
    dsimp only
    rw [abs_of_nonneg (by positivity), div_le_one (by norm_num)]; linarith
example : ∃ q : ℚ, Spec.IsF32 q ∧ -16 ≤ q ∧ q ≤ 16 - 1 / 16 := ⟨3 / 8, by unfold Spec.IsF32; decide +kernel, by norm_num, by norm_num⟩
example : Upper (2 ^ 20) (.fin 5) ∧ Lower (2 ^ 27) .pinf := ⟨.inr (.inr ⟨5, by norm_num, rfl⟩), .inl rfl⟩
example : ∃ ts : List (List F32), ts.length = 8 ∧ ∀ t ∈ ts, t.length = 1024 :=
  ⟨List.replicate 8 (List.replicate 1024 (.fin 0)), List.length_replicate, fun t ht => by rw [List.eq_of_mem_replicate ht, List.length_replicate]⟩

end Verif.Tables
