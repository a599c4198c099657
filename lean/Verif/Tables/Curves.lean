import Verif.Tables.Claims
import Mathlib.Analysis.SpecialFunctions.Trigonometric.DerivHyp
import Mathlib.Analysis.SpecialFunctions.Trigonometric.Deriv
import Mathlib.Analysis.Calculus.Deriv.MeanValue
import Mathlib.Analysis.Real.Pi.Bounds
/-!
# C260: the wave shaping tables give the curves they are filled with

`lookup_waveshape` in the table of tanh, and `lookup_waveshape_warp` in the table of the sine, in f32, against the curves in exact real arithmetic.
-/
namespace Verif.Tables
open Verif Verif.Float Verif.Param Verif.Float.F32

/-- surge-tables/src/waveshape.rs 77-106, `wst_tanh` (and `wst_digi`): entry `i` before it is rounded to f32. -/
noncomputable def tanhEntry (i : ℕ) : ℝ := Real.tanh (((i : ℝ) - 512) * (1 / 32))

/-- surge-tables/src/waveshape.rs 77-106, `wst_sine`: entry `i` before it is rounded to f32. -/
noncomputable def sineEntry (i : ℕ) : ℝ := Real.sin (((i : ℝ) - 512) * Real.pi / 512)

/-- The table holds these values as floats between -1 and 1, each within one part in 2^23 (the program computes them in f64 and rounds them to f32). -/
def Spec.Stored (v : ℕ → ℚ) (e : ℕ → ℝ) : Prop := Spec.Fits v 1024 1 ∧ ∀ i, i < 1024 → |((v i : ℚ) : ℝ) - e i| ≤ 1 / 2 ^ 23

/-- Linear interpolation of a curve with a Lipschitz slope. -/
theorem chord_err {f f' : ℝ → ℝ} (hf : ∀ x, HasDerivAt f (f' x) x) {L : ℝ} (hL : ∀ a b, |f' a - f' b| ≤ L * |a - b|) (h0 : 0 ≤ L) (a h s : ℝ) (hh : 0 < h) (s0 : 0 ≤ s) (s1 : s ≤ 1) :
    |(1 - s) * f a + s * f (a + h) - f (a + s * h)| ≤ L * h ^ 2 / 4 := by
  have mv : ∀ x y, x < y → ∃ c, x < c ∧ c < y ∧ f y - f x = f' c * (y - x) := by
    intro x y hxy
    obtain ⟨c, hc, e⟩ := exists_hasDerivAt_eq_slope f f' hxy (fun z _ => (hf z).continuousAt.continuousWithinAt) (fun z _ => hf z)
    refine ⟨c, hc.1, hc.2, ?_⟩
    have : y - x ≠ 0 := by linarith
    rw [e]; field_simp
  rcases eq_or_lt_of_le s0 with rfl | s0
  · simp; positivity
  rcases eq_or_lt_of_le s1 with rfl | s1
  · simp; positivity
  have p1 : 0 < s * h := mul_pos s0 hh
  have p2 : 0 < (1 - s) * h := mul_pos (by linarith) hh
  obtain ⟨c, c1, c2, e1⟩ := mv a (a + s * h) (by linarith)
  obtain ⟨d, d1, d2, e2⟩ := mv (a + s * h) (a + h) (by nlinarith)
  have e : (1 - s) * f a + s * f (a + h) - f (a + s * h) = s * (1 - s) * h * (f' d - f' c) := by
    have r1 : f a = f (a + s * h) - f' c * (a + s * h - a) := by linarith
    have r2 : f (a + h) = f (a + s * h) + f' d * (a + h - (a + s * h)) := by linarith
    rw [r1, r2]; ring
  rw [e, abs_mul, abs_of_nonneg (by positivity [show 0 ≤ 1 - s by linarith] : 0 ≤ s * (1 - s) * h)]
  have q : |d - c| ≤ h := by rw [abs_le]; constructor <;> linarith
  have q2 : |f' d - f' c| ≤ L * h := (hL d c).trans (mul_le_mul_of_nonneg_left q h0)
  have q3 : s * (1 - s) ≤ 1 / 4 := by nlinarith [sq_nonneg (s - 1 / 2)]
  have q4 : 0 ≤ s * (1 - s) := by nlinarith
  calc s * (1 - s) * h * |f' d - f' c| ≤ s * (1 - s) * h * (L * h) := mul_le_mul_of_nonneg_left q2 (by positivity)
    _ ≤ 1 / 4 * h * (L * h) := by
      have : 0 ≤ h * (L * h) := by positivity
      nlinarith
    _ = L * h ^ 2 / 4 := by ring

theorem at_curve {f f' : ℝ → ℝ} (hf : ∀ x, HasDerivAt f (f' x) x) {L : ℝ} (hL : ∀ a b, |f' a - f' b| ≤ L * |a - b|) (h0 : 0 ≤ L) (h : ℝ) (hh : 0 < h) {v : ℕ → ℚ}
    {ε : ℝ} (hv : ∀ i, i < 1024 → |((v i : ℚ) : ℝ) - f (((i : ℝ) - 512) * h)| ≤ ε) {p : ℚ} (p0 : 0 ≤ p) (p1 : p ≤ 1023) :
    |((Spec.at v p : ℚ) : ℝ) - f (((p : ℝ) - 512) * h)| ≤ ε + L * h ^ 2 / 4 := by
  have f0 : 0 ≤ ⌊p⌋ := Int.floor_nonneg.mpr p0
  obtain ⟨n, hn⟩ := Int.eq_ofNat_of_zero_le f0
  have hn1 : (n : ℚ) ≤ p := by have := Int.floor_le p; rw [hn] at this; simpa using this
  have hn2 : p < n + 1 := by have := Int.lt_floor_add_one p; rw [hn] at this; simpa using this
  have hn3 : n ≤ 1023 := by have : (n : ℚ) ≤ 1023 := hn1.trans p1; exact_mod_cast this
  obtain ⟨s, hs⟩ : ∃ s : ℚ, s = p - n := ⟨_, rfl⟩
  have e : Spec.at v p = (1 - s) * v n + s * v (n + 1) := by
    unfold Spec.at; rw [hn, hs]; simp
  have s0 : 0 ≤ s := by linarith
  have s1 : s ≤ 1 := by linarith
  have s0' : (0:ℝ) ≤ s := by exact_mod_cast s0
  have s1' : (s:ℝ) ≤ 1 := by exact_mod_cast s1
  have a := chord_err hf hL h0 (((n : ℝ) - 512) * h) h s hh s0' s1'
  have ep : ((n : ℝ) - 512) * h + s * h = ((p : ℝ) - 512) * h := by rw [hs]; push_cast; ring
  have en : ((n : ℝ) - 512) * h + h = (((n + 1 : ℕ) : ℝ) - 512) * h := by push_cast; ring
  rw [ep, en] at a
  have b1 := hv n (by omega)
  have b : |(1 - (s : ℝ)) * (v n : ℝ) + s * (v (n + 1) : ℝ) - ((1 - (s : ℝ)) * f (((n : ℝ) - 512) * h) + s * f ((((n + 1 : ℕ) : ℝ) - 512) * h))| ≤ ε := by
    by_cases h3 : n = 1023
    · have : s = 0 := by rw [h3] at hs hn1; have : p = 1023 := le_antisymm p1 (by exact_mod_cast hn1); rw [hs, this]; norm_num
      rw [this]; simpa using b1
    · have b2 := hv (n + 1) (by omega)
      rw [abs_le] at b1 b2 ⊢
      constructor <;> nlinarith
  rw [e]
  push_cast
  rw [abs_le] at a b ⊢
  push_cast at a b
  constructor <;> linarith

theorem tanh_deriv (x : ℝ) : HasDerivAt Real.tanh (1 - Real.tanh x ^ 2) x := by
  have h : Real.tanh = fun y => Real.sinh y / Real.cosh y := by funext y; exact Real.tanh_eq_sinh_div_cosh y
  have c := (Real.cosh_pos x).ne'
  rw [h]
  refine ((Real.hasDerivAt_sinh x).div (Real.hasDerivAt_cosh x) c).congr_deriv ?_
  field_simp

theorem tanh_lipschitz (a b : ℝ) : |Real.tanh a - Real.tanh b| ≤ |a - b| := by
  wlog h : b < a
  · rcases eq_or_lt_of_le (not_lt.mp h) with rfl | h
    · simp
    · rw [abs_sub_comm, abs_sub_comm a]; exact this b a h
  obtain ⟨c, -, e⟩ := exists_hasDerivAt_eq_slope Real.tanh _ h (fun z _ => (tanh_deriv z).continuousAt.continuousWithinAt) (fun z _ => tanh_deriv z)
  have : Real.tanh a - Real.tanh b = (1 - Real.tanh c ^ 2) * (a - b) := by
    rw [e]; have : a - b ≠ 0 := by linarith
    field_simp
  rw [this, abs_mul]
  have t := Real.abs_tanh_lt_one c
  have : |1 - Real.tanh c ^ 2| ≤ 1 := by
    rw [abs_lt] at t; rw [abs_le]; constructor <;> nlinarith
  exact mul_le_of_le_one_left (abs_nonneg _) this

theorem slope_lipschitz (a b : ℝ) : |(1 - Real.tanh a ^ 2) - (1 - Real.tanh b ^ 2)| ≤ 2 * |a - b| := by
  have e : (1 - Real.tanh a ^ 2) - (1 - Real.tanh b ^ 2) = -((Real.tanh a + Real.tanh b) * (Real.tanh a - Real.tanh b)) := by ring
  rw [e, abs_neg, abs_mul]
  have ta := (Real.abs_tanh_lt_one a).le
  have tb := (Real.abs_tanh_lt_one b).le
  exact mul_le_mul ((abs_add_le _ _).trans (by linarith)) (tanh_lipschitz a b) (abs_nonneg _) (by norm_num)

/-- Beyond 15 the tanh is 1 within a ten thousandth. -/
theorem tanh_rail {x : ℝ} (h : 15 ≤ x) : 1 - 1 / 10 ^ 4 ≤ Real.tanh x := by
  rw [Real.tanh_eq_sinh_div_cosh, le_div_iff₀ (Real.cosh_pos x), Real.sinh_eq, Real.cosh_eq]
  have e : Real.exp (-x) * Real.exp x = 1 := by rw [← Real.exp_add]; simp
  have b : (1 + x) ≤ Real.exp x := by linarith [Real.add_one_le_exp x]
  have b2 : 10 ^ 5 ≤ Real.exp x := by
    have : Real.exp x = Real.exp (x / 15) ^ 15 := by rw [← Real.exp_nat_mul]; congr 1; push_cast; ring
    have t : 2 ≤ Real.exp (x / 15) := by
      have := Real.add_one_le_exp (x / 15)
      have : 1 ≤ x / 15 := by linarith
      linarith
    have q : (27 / 10 : ℝ) ≤ Real.exp (x / 15) := by
      have h1 : (1:ℝ) ≤ x / 15 := by linarith
      have := Real.exp_le_exp.mpr h1
      have := Real.exp_one_gt_d9
      linarith
    rw [this]
    calc (10:ℝ) ^ 5 ≤ (27 / 10) ^ 15 := by norm_num
      _ ≤ _ := pow_le_pow_left₀ (by norm_num) q 15
  have p : 0 < Real.exp (-x) := Real.exp_pos _
  have : Real.exp (-x) ≤ 1 / 10 ^ 5 := by
    rw [le_div_iff₀ (by norm_num)]
    nlinarith
  linarith

theorem cast_abs {a b c : ℚ} (h : |a - b| ≤ c) : |(a : ℝ) - (b : ℚ)| ≤ (c : ℚ) := by
  have := (Rat.cast_le (K := ℝ)).mpr h
  rwa [Rat.cast_abs, Rat.cast_sub] at this

theorem ofQ_ge {z : ℚ} {n : ℤ} (hn : |n| ≤ 2 ^ 24) (h : (n : ℚ) ≤ z) : F32.ofQ z = .pinf ∨ ∃ q, F32.ofQ z = .fin q ∧ (n : ℚ) ≤ q := by
  have m := rne_mono h
  rw [rne_intCast n hn] at m
  have hb : (-2 ^ 24 : ℚ) ≤ n := by have := (abs_le.mp hn).1; exact_mod_cast this
  unfold F32.ofQ
  split
  · exact .inl rfl
  · rw [if_neg (by norm_num at hb ⊢; linarith)]; exact .inr ⟨_, rfl, m⟩

theorem ofQ_le {z : ℚ} {n : ℤ} (hn : |n| ≤ 2 ^ 24) (h : z ≤ (n : ℚ)) : F32.ofQ z = .ninf ∨ ∃ q, F32.ofQ z = .fin q ∧ q ≤ (n : ℚ) := by
  have m := rne_mono h
  rw [rne_intCast n hn] at m
  have hb : (n : ℚ) ≤ 2 ^ 24 := by have := (abs_le.mp hn).2; exact_mod_cast this
  unfold F32.ofQ
  rw [if_neg (by norm_num at hb ⊢; linarith)]
  split
  · exact .inl rfl
  · exact .inr ⟨_, rfl, m⟩

/-- Where an input beyond the table is looked up. -/
theorem pos_high {q : ℚ} (h : 16 ≤ q) : 0x3fd < (F32.add (F32.mul (.fin q) (.fin 32)) (.fin 512)).toI32 := by
  have e : F32.mul (.fin q) (.fin 32) = F32.ofQ (q * 32) := rfl
  rw [e]
  rcases ofQ_ge (z := q * 32) (n := 512) (by norm_num) (by push_cast; linarith) with e | ⟨z, e, hz⟩
  · rw [e]; simp [F32.add, F32.toI32, F32.toIntSat]
  · rw [e]
    have e2 : F32.add (.fin z) (.fin 512) = F32.ofQ (z + 512) := rfl
    rw [e2]
    rcases ofQ_ge (z := z + 512) (n := 1024) (by norm_num) (by push_cast at hz ⊢; linarith) with e | ⟨w, e, hw⟩
    · rw [e]; simp [F32.toI32, F32.toIntSat]
    · rw [e]
      have w0 : 0 ≤ w := by push_cast at hw; linarith
      have tb := (F32.truncQ_bounds w).1 w0
      have : 1023 < F32.truncQ w := by
        have : ((1023 : ℤ) : ℚ) < (F32.truncQ w : ℚ) := by push_cast at hw ⊢; linarith [tb.1, tb.2.1]
        exact_mod_cast this
      unfold F32.toI32 F32.toIntSat; dsimp only
      omega

theorem pos_low {q : ℚ} (h : q ≤ -16) : (F32.add (F32.mul (.fin q) (.fin 32)) (.fin 512)).toI32 < 1 := by
  have e : F32.mul (.fin q) (.fin 32) = F32.ofQ (q * 32) := rfl
  rw [e]
  rcases ofQ_le (z := q * 32) (n := -512) (by norm_num) (by push_cast; linarith) with e | ⟨z, e, hz⟩
  · rw [e]; simp [F32.add, F32.toI32, F32.toIntSat]
  · rw [e]
    have e2 : F32.add (.fin z) (.fin 512) = F32.ofQ (z + 512) := rfl
    rw [e2]
    rcases ofQ_le (z := z + 512) (n := 0) (by norm_num) (by push_cast at hz ⊢; linarith) with e | ⟨w, e, hw⟩
    · rw [e]; simp [F32.toI32, F32.toIntSat]
    · rw [e]
      have : F32.truncQ w ≤ 0 := by
        push_cast at hw
        rcases eq_or_lt_of_le hw with rfl | hw
        · decide +kernel
        · have := ((F32.truncQ_bounds w).2 hw).2.2
          omega
      unfold F32.toI32 F32.toIntSat; dsimp only
      omega

/-- C260. The tanh shaper: for every finite float the value is within 1/2000 of the hyperbolic tangent. -/
theorem C260_tanh {v : ℕ → ℚ} (hv : Spec.Stored v tanhEntry) (ts : List (List F32)) (entry : ℕ) (ht : ts[entry]? = some (Spec.table v 1024)) {q : ℚ} (hq : Spec.IsF32 q) :
    ∃ r : ℚ, lookupWaveshape ts entry (.fin q) = .ok (.fin r) ∧ |(r : ℝ) - Real.tanh q| ≤ 1 / 2000 := by
  have t1 := Real.tanh_lt_one (q : ℝ)
  have t2 := Real.neg_one_lt_tanh (q : ℝ)
  unfold lookupWaveshape
  dsimp only
  by_cases hi : 16 ≤ q
  · rw [if_pos (pos_high hi)]
    refine ⟨1, rfl, ?_⟩
    have : (16:ℝ) ≤ q := by exact_mod_cast hi
    have := tanh_rail (x := q) (by linarith)
    rw [abs_le]; constructor <;> norm_num at * <;> linarith
  by_cases lo : q ≤ -16
  · have := pos_low lo
    rw [if_neg (by omega), if_pos this]
    refine ⟨-1, rfl, ?_⟩
    have : (q:ℝ) ≤ -16 := by exact_mod_cast lo
    have := tanh_rail (x := -q) (by linarith)
    rw [Real.tanh_neg] at this
    rw [abs_le]; constructor <;> norm_num at * <;> linarith
  rw [not_le] at hi lo
  have sc : F32.mul (.fin q) (.fin 32) = .fin (q * 32) := by
    have : Spec.IsF32 (q * 2 ^ 5) := rne_scale hq 5
    norm_num at this
    rw [mul_fin (by rw [abs_le]; constructor <;> norm_num <;> linarith), show rne (q * 32) = q * 32 from this]
  have e : F32.add (.fin (q * 32)) (.fin 512) = .fin (rne (q * 32 + 512)) := add_fin (by rw [abs_le]; constructor <;> norm_num <;> linarith)
  rw [sc, e]
  obtain ⟨p, hp⟩ : ∃ p, p = rne (q * 32 + 512) := ⟨_, rfl⟩
  have ip : Spec.IsF32 p := by rw [hp]; exact rne_idem _
  have p0 : 0 ≤ p := by rw [hp]; exact rne_nonneg (by linarith)
  have near : |p - (q * 32 + 512)| ≤ 1 / 2 ^ 13 := by
    have := abs_rne_sub_le' (q * 32 + 512)
    rw [← hp, abs_of_nonneg (by linarith : 0 ≤ q * 32 + 512)] at this
    refine this.trans ?_
    have : (2:ℚ) ^ (-24 : ℤ) = 1 / 2 ^ 24 := by norm_num
    rw [this]
    have : (2:ℚ) ^ (-150 : ℤ) ≤ 1 / 2 ^ 20 := by norm_num
    norm_num at *
    linarith
  rw [← hp]
  have tr := (F32.truncQ_bounds p).1 p0
  have ti : (F32.fin p).toI32 = F32.truncQ p := by
    have : F32.truncQ p ≤ 1024 := by
      have a : p ≤ 1024 := by rw [hp]; exact (rne_int_le (n := 10) (by norm_num; linarith)).trans (by norm_num)
      have : ((F32.truncQ p : ℤ) : ℚ) ≤ ((1024 : ℤ) : ℚ) := by push_cast; linarith [tr.2.1]
      exact_mod_cast this
    have := tr.1
    unfold F32.toI32 F32.toIntSat; dsimp only
    omega
  rw [ti]
  have nearR : |(p : ℝ) - (q * 32 + 512)| ≤ 1 / 2 ^ 13 := by have := cast_abs near; push_cast at this; exact this
  rw [abs_le] at nearR
  split
  · rename_i h
    refine ⟨1, rfl, ?_⟩
    have : ((1022 : ℤ) : ℚ) ≤ (F32.truncQ p : ℚ) := by exact_mod_cast h
    have : (1022:ℚ) ≤ p := by push_cast at this; linarith [tr.2.1]
    have : (1022:ℝ) ≤ p := by exact_mod_cast this
    have := tanh_rail (x := q) (by norm_num at nearR; linarith)
    rw [abs_le]; constructor <;> norm_num at * <;> linarith
  rename_i h1
  split
  · rename_i h
    refine ⟨-1, rfl, ?_⟩
    have : p < 1 := by
      have : ((F32.truncQ p : ℤ) : ℚ) ≤ ((0 : ℤ) : ℚ) := by exact_mod_cast (by omega : F32.truncQ p ≤ 0)
      push_cast at this; linarith [tr.2.2]
    have : (p:ℝ) < 1 := by exact_mod_cast this
    have := tanh_rail (x := -q) (by norm_num at nearR; linarith)
    rw [Real.tanh_neg] at this
    rw [abs_le]; constructor <;> norm_num at * <;> linarith
  have p1 : p ≤ 1023 := by
    have : ((F32.truncQ p : ℤ) : ℚ) ≤ ((1021 : ℤ) : ℚ) := by exact_mod_cast (by omega : F32.truncQ p ≤ 1021)
    push_cast at this; linarith [tr.2.2]
  obtain ⟨r, er, err, -⟩ := interp_table (k := 10) (by norm_num) hv.1 (by norm_num) ip p0 (by norm_num; exact p1)
  refine ⟨r, ?_, ?_⟩
  · unfold get; rw [ht, Res.ok_bind]; exact er
  have errR : |(r : ℝ) - (Spec.at v p : ℚ)| ≤ 1 / 2 ^ 21 + 1 / 2 ^ 147 := by have := cast_abs err; push_cast at this; exact this
  have c := at_curve tanh_deriv slope_lipschitz (by norm_num) (1 / 32) (by norm_num) hv.2 p0 p1
  have l := tanh_lipschitz (((p : ℝ) - 512) * (1 / 32)) q
  have l2 : |((p : ℝ) - 512) * (1 / 32) - q| ≤ 1 / 2 ^ 18 := by
    norm_num at nearR
    rw [abs_le]; constructor <;> norm_num <;> linarith
  have l3 := l.trans l2
  rw [abs_le] at errR c l3 ⊢
  norm_num at errR c l3 ⊢
  constructor <;> linarith

/-- C260. The sine of the LFO and the ring modulator: for every float from -2 to 2 - 1/256 the value is within 1/90000 of `sin (π x / 2)`. -/
theorem C260_sine {v : ℕ → ℚ} (hv : Spec.Stored v sineEntry) (ts : List (List F32)) (entry : ℕ) (ht : ts[entry]? = some (Spec.table v 1024)) {q : ℚ} (hq : Spec.IsF32 q)
    (h0 : -2 ≤ q) (h1 : q ≤ 2 - 1 / 256) :
    ∃ r : ℚ, lookupWarp ts entry (.fin q) = .ok (.fin r) ∧ |(r : ℝ) - Real.sin (Real.pi * q / 2)| ≤ 1 / 90000 := by
  have sc : F32.mul (.fin q) (.fin 256) = .fin (q * 256) := by
    have : Spec.IsF32 (q * 2 ^ 8) := rne_scale hq 8
    norm_num at this
    rw [mul_fin (by rw [abs_le]; constructor <;> norm_num <;> linarith), show rne (q * 256) = q * 256 from this]
  obtain ⟨e, p0, p1, pe⟩ := position (y := q * 256) (d := 512) (n := 10) (by norm_num) (by linarith) (by norm_num; linarith)
  obtain ⟨p, hp⟩ : ∃ p, p = rne (q * 256 + 512) := ⟨_, rfl⟩
  have ip : Spec.IsF32 p := by rw [hp]; exact rne_idem _
  rw [← hp] at e p0 p1 pe
  obtain ⟨r, er, err, -⟩ := interp_table (k := 10) (by norm_num) hv.1 (by norm_num) ip p0 p1
  refine ⟨r, ?_, ?_⟩
  · unfold lookupWarp get; rw [ht, Res.ok_bind, sc, e]; exact er
  have errR : |(r : ℝ) - (Spec.at v p : ℚ)| ≤ 1 / 2 ^ 21 + 1 / 2 ^ 147 := by have := cast_abs err; push_cast at this; exact this
  have pi1 := Real.pi_gt_d2
  have pi2 := Real.pi_lt_d2
  have c := at_curve (f := Real.sin) (f' := Real.cos) Real.hasDerivAt_sin (L := 1) (fun a b => by
      rw [one_mul]; exact Real.abs_cos_sub_cos_le a b) (by norm_num) (Real.pi / 512) (by positivity) (v := v) (ε := 1 / 2 ^ 23)
      (fun i hi => by have := hv.2 i hi; unfold sineEntry at this; rwa [mul_div_assoc] at this) p0 (by norm_num at p1; exact p1)
  have l := Real.abs_sin_sub_sin_le (((p : ℝ) - 512) * (Real.pi / 512)) (Real.pi * q / 2)
  have peR : |(p : ℝ) - (q * 256 + 512)| ≤ 1 / 2 ^ 15 := by
    have : |p - (q * 256 + 512)| ≤ 1 / 2 ^ 15 := by norm_num at pe ⊢; exact pe
    have := cast_abs this; push_cast at this; exact this
  have l2 : |((p : ℝ) - 512) * (Real.pi / 512) - Real.pi * q / 2| ≤ 1 / 2 ^ 22 := by
    have : ((p : ℝ) - 512) * (Real.pi / 512) - Real.pi * q / 2 = (p - (q * 256 + 512)) * (Real.pi / 512) := by ring
    rw [this, abs_mul, abs_of_nonneg (by positivity : 0 ≤ Real.pi / 512)]
    calc _ ≤ 1 / 2 ^ 15 * (Real.pi / 512) := mul_le_mul_of_nonneg_right peR (by positivity)
      _ ≤ _ := by norm_num; linarith
  have l3 := l.trans l2
  have sq : 1 * (Real.pi / 512) ^ 2 / 4 ≤ 9.43 / 10 ^ 6 := by
    have : Real.pi ^ 2 ≤ 3.1416 ^ 2 := pow_le_pow_left₀ (by positivity) (by linarith [Real.pi_lt_d4]) 2
    norm_num at this ⊢
    linarith
  rw [abs_le] at errR c l3 ⊢
  norm_num at errR l3 sq ⊢
  norm_num at c
  constructor <;> linarith

/-- Such tables exist. -/
theorem stored_exists (e : ℕ → ℝ) (he : ∀ i, |e i| ≤ 1) : ∃ v, Spec.Stored v e := by
  have key : ∀ i, ∃ q : ℚ, Spec.IsF32 q ∧ |q| ≤ 1 ∧ |((q : ℚ) : ℝ) - e i| ≤ 1 / 2 ^ 23 := by
    intro i
    obtain ⟨h1, h2⟩ := abs_le.mp (he i)
    have hx : max (-1) (e i - 1 / 2 ^ 26) < min 1 (e i + 1 / 2 ^ 26) := by
      rw [max_lt_iff, lt_min_iff, lt_min_iff]; norm_num; refine ⟨?_, ?_, ?_⟩ <;> linarith
    obtain ⟨q, q1, q2⟩ := exists_rat_btwn hx
    rw [max_lt_iff] at q1
    rw [lt_min_iff] at q2
    have a1 : (-1 : ℚ) < q := by exact_mod_cast q1.1
    have a2 : q < 1 := by exact_mod_cast q2.1
    refine ⟨rne q, rne_idem q, ?_, ?_⟩
    · have m1 := rne_mono a1.le
      have m2 := rne_mono a2.le
      rw [show rne (-1 : ℚ) = -1 by decide +kernel] at m1
      rw [show rne (1 : ℚ) = 1 by decide +kernel] at m2
      exact abs_le.mpr ⟨m1, m2⟩
    · have u := cast_abs (abs_rne_sub_le' q)
      have hl : |q| ≤ 1 := abs_le.mpr ⟨a1.le, a2.le⟩
      have w : |q| * 2 ^ (-24 : ℤ) + 2 ^ (-150 : ℤ) ≤ 3 / 2 ^ 25 := by norm_num at *; linarith
      have u' := u.trans ((Rat.cast_le (K := ℝ)).mpr w)
      push_cast at u'
      obtain ⟨u1, u2⟩ := abs_le.mp u'
      have q1 := q1.2
      have q2 := q2.2
      rw [abs_le]
      norm_num at u1 u2 q1 q2 ⊢
      constructor <;> linarith
  choose v h1 h2 h3 using key
  exact ⟨v, fun i _ => ⟨h1 i, h2 i⟩, fun i _ => h3 i⟩

/-- Tables of both curves exist, so the claims are about something: one lists both, and the shaper is asked for 3/4. -/
example : ∃ (v w : ℕ → ℚ) (r s : ℚ), Spec.Stored v tanhEntry ∧ Spec.Stored w sineEntry ∧
    lookupWaveshape [Spec.table v 1024, Spec.table w 1024] 0 (.fin (3 / 4)) = .ok (.fin r) ∧ |(r : ℝ) - Real.tanh (3 / 4)| ≤ 1 / 2000 ∧
    lookupWarp [Spec.table v 1024, Spec.table w 1024] 1 (.fin (3 / 4)) = .ok (.fin s) ∧ |(s : ℝ) - Real.sin (Real.pi * (3 / 4) / 2)| ≤ 1 / 90000 := by
  obtain ⟨v, hv⟩ := stored_exists tanhEntry fun i => (Real.abs_tanh_lt_one _).le
  obtain ⟨w, hw⟩ := stored_exists sineEntry fun i => Real.abs_sin_le_one _
  have h : Spec.IsF32 (3 / 4) := by unfold Spec.IsF32; decide +kernel
  obtain ⟨r, r1, r2⟩ := C260_tanh hv [Spec.table v 1024, Spec.table w 1024] 0 rfl h
  obtain ⟨s, s1, s2⟩ := C260_sine hw [Spec.table v 1024, Spec.table w 1024] 1 rfl h (by norm_num) (by norm_num)
  push_cast at r2 s2
  exact ⟨v, w, r, s, hv, hw, r1, r2, s1, s2⟩

end Verif.Tables
