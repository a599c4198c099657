import Verif.Filters.Obxd
/-!
# The wave digital section (C266)

surgefilter-iir/src/quad_iir_12_WDF.rs `iir_12_wdf_quad`, one SIMD lane, exact real arithmetic.  The crate exports it, but no filter type of `iir_process_quad.rs` uses it, and nothing in the workspace makes its coefficients; the coefficients are described by
the comments beside them (lines 20-26).
-/
namespace Verif.Filters
open Verif

/-! ## Model -/

/-- quad_iir_12_WDF.rs 16-81 `iir_12_wdf_quad`. Coefficients `E1*sc, E2*sc, -E1/sc, -E2/sc, C1, C2, D, Clipgain` are 0 to 7; the registers are 0 and 1, the clip gain of the sample before is register 2. -/
noncomputable def iir12wdf (u : FU) (x : ℝ) : FU × ℝ :=
  let u := u.adv [0, 1, 2, 3, 4, 5, 6]
  let y := (u.coeff 4 * u.reg 0 + u.coeff 6 * x) + u.coeff 5 * u.reg 1
  let t := x + (u.coeff 2 * u.reg 0 + u.coeff 3 * u.reg 1)
  let s1 := t * u.coeff 0 + u.reg 0
  let s2 := 0 - (t * u.coeff 1 + u.reg 1)
  let u := (u.set 0 (s1 * u.reg 2)).set 1 (s2 * u.reg 2)
  let u := u.adv [7]
  (u.set 2 (clipReg (u.coeff 7) y), y)

/-! ## Specification -/

/-- The coefficients of the comments: the section of `e1`, `e2` in the scale `sc`. It dissipates if `e1 ^ 2 + e2 ^ 2` is at most 2. -/
structure Spec.Wdf (e1 e2 sc : ℝ) (c : ℕ → ℝ) : Prop where
  scale : sc ≠ 0
  passive : e1 ^ 2 + e2 ^ 2 ≤ 2
  c0 : c 0 = e1 * sc
  c1 : c 1 = e2 * sc
  c2 : c 2 = -e1 / sc
  c3 : c 3 = -e2 / sc
  clip : 0 ≤ c 7

/-! ## Theorems -/

theorem wdf_now (u : FU) {i : ℕ} (hi : i < 7) : (u.adv [0, 1, 2, 3, 4, 5, 6]).coeff i = Spec.now u i := by
  unfold FU.adv Spec.now
  have : i ∈ [0, 1, 2, 3, 4, 5, 6] := by interval_cases i <;> simp
  simp only [this, if_true]

theorem wdf_step (u : FU) (x : ℝ) :
    let c := Spec.now u
    let t := x + (c 2 * u.reg 0 + c 3 * u.reg 1)
    (iir12wdf u x).1.reg 0 = (t * c 0 + u.reg 0) * u.reg 2 ∧ (iir12wdf u x).1.reg 1 = -(t * c 1 + u.reg 1) * u.reg 2 ∧
    (iir12wdf u x).2 = c 4 * u.reg 0 + c 6 * x + c 5 * u.reg 1 ∧ (iir12wdf u x).1.reg 2 = clipReg (c 7) (iir12wdf u x).2 := by
  have a := fun i hi => wdf_now u (i := i) hi
  have r : ∀ l, (u.adv l).reg = u.reg := fun _ => rfl
  refine ⟨?_, ?_, ?_, ?_⟩
  · simp only [iir12wdf, FU.set, FU.adv]
    simp [Function.update, Spec.now]
  · simp only [iir12wdf, FU.set, FU.adv]
    simp [Function.update, Spec.now]
  · simp only [iir12wdf, a 4 (by norm_num), a 5 (by norm_num), a 6 (by norm_num), r]
  · simp only [iir12wdf, FU.set, FU.adv, Function.update_self]
    simp [Spec.now]

theorem clipReg_range {c y : ℝ} (h : 0 ≤ c) : 0.1 ≤ clipReg c y ∧ clipReg c y ≤ 1 := by
  unfold clipReg
  refine ⟨le_max_left _ _, max_le (by norm_num) ?_⟩
  have := mul_nonneg h (mul_self_nonneg y)
  norm_num; exact this

/-- Left alone, a sample takes `(2 - e1² - e2²)` times the square of `e1 r0 + e2 r1` from the energy, and the clip gain the rest. -/
theorem wdf_energy {e1 e2 sc : ℝ} {u : FU} (h : Spec.Wdf e1 e2 sc (Spec.now u)) :
    (iir12wdf u 0).1.reg 0 = (u.reg 0 - e1 * (e1 * u.reg 0 + e2 * u.reg 1)) * u.reg 2 ∧ (iir12wdf u 0).1.reg 1 = -(u.reg 1 - e2 * (e1 * u.reg 0 + e2 * u.reg 1)) * u.reg 2 ∧
    (iir12wdf u 0).1.reg 0 ^ 2 + (iir12wdf u 0).1.reg 1 ^ 2 = (u.reg 0 ^ 2 + u.reg 1 ^ 2 - (2 - (e1 ^ 2 + e2 ^ 2)) * (e1 * u.reg 0 + e2 * u.reg 1) ^ 2) * u.reg 2 ^ 2 := by
  obtain ⟨s0, s1, -, -⟩ := wdf_step u 0
  have hs := h.scale
  have E0 : (iir12wdf u 0).1.reg 0 = (u.reg 0 - e1 * (e1 * u.reg 0 + e2 * u.reg 1)) * u.reg 2 := by
    rw [s0, h.c0, h.c2, h.c3]; field_simp; ring
  have E1 : (iir12wdf u 0).1.reg 1 = -(u.reg 1 - e2 * (e1 * u.reg 0 + e2 * u.reg 1)) * u.reg 2 := by
    rw [s1, h.c1, h.c2, h.c3]; field_simp; ring
  refine ⟨E0, E1, ?_⟩
  rw [E0, E1]; ring

/-- **C266.** Passivity: with no input, the energy in the section never grows, from every state with a clip gain between 0 and 1, however the section and its scale are modulated from sample to sample; and the clip gain stays in range. -/
theorem C266_passive {U : ℕ → FU} {e1 e2 sc : ℕ → ℝ} (h : Spec.Played iir12wdf U fun _ => 0) (hc : ∀ n, Spec.Wdf (e1 n) (e2 n) (sc n) (Spec.now (U n))) (h0 : 0 ≤ (U 0).reg 2 ∧ (U 0).reg 2 ≤ 1) :
    (Antitone fun n => (U n).reg 0 ^ 2 + (U n).reg 1 ^ 2) ∧ ∀ n, 0.1 ≤ (U (n + 1)).reg 2 ∧ (U (n + 1)).reg 2 ≤ 1 := by
  have cl : ∀ n, 0.1 ≤ (U (n + 1)).reg 2 ∧ (U (n + 1)).reg 2 ≤ 1 := fun n => by
    rw [h n, (wdf_step (U n) 0).2.2.2]; exact clipReg_range (hc n).clip
  have cl' : ∀ n, 0 ≤ (U n).reg 2 ∧ (U n).reg 2 ≤ 1 := fun n => by
    cases n with
    | zero => exact h0
    | succ n => exact ⟨(by norm_num : (0:ℝ) ≤ 0.1).trans (cl n).1, (cl n).2⟩
  refine ⟨antitone_nat_of_succ_le fun n => ?_, cl⟩
  rw [h n, (wdf_energy (hc n)).2.2]
  have p := (hc n).passive
  have a := mul_nonneg (sub_nonneg.2 p) (sq_nonneg (e1 n * (U n).reg 0 + e2 n * (U n).reg 1))
  have b : (U n).reg 2 ^ 2 ≤ 1 := pow_le_one₀ (cl' n).1 (cl' n).2
  have c := sq_nonneg ((U n).reg 2)
  have d : 0 ≤ (U n).reg 0 ^ 2 + (U n).reg 1 ^ 2 := by positivity
  nlinarith

/-- **C266.** With a fixed, strictly dissipating section, and no input, it falls silent from every state. -/
theorem C266_rings_off {U : ℕ → FU} {e1 e2 sc : ℝ} (h : Spec.Played iir12wdf U fun _ => 0) (hc : ∀ n, Spec.Wdf e1 e2 sc (Spec.now (U n))) (hk : ∀ n i, Spec.now (U n) i = Spec.now (U 0) i)
    (h0 : 0 ≤ (U 0).reg 2 ∧ (U 0).reg 2 ≤ 1) (hs : e1 ^ 2 + e2 ^ 2 < 2) (n1 : e1 ≠ 0) (n2 : e2 ≠ 0) : Filter.Tendsto (fun n => (iir12wdf (U n) 0).2) Filter.atTop (nhds 0) := by
  obtain ⟨anti, cl⟩ := C266_passive h hc h0
  obtain ⟨E, hE⟩ : ∃ E : ℕ → ℝ, E = fun n => (U (n + 1)).reg 0 ^ 2 + (U (n + 1)).reg 1 ^ 2 := ⟨_, rfl⟩
  have anti' : Antitone E := by rw [hE]; exact fun a b hab => anti (by omega)
  obtain ⟨w, hw⟩ : ∃ w : ℕ → ℝ, w = fun n => e1 * (U (n + 1)).reg 0 + e2 * (U (n + 1)).reg 1 := ⟨_, rfl⟩
  have d0 : 0 < 2 - (e1 ^ 2 + e2 ^ 2) := by linarith
  have drop : ∀ n, 0.01 * (2 - (e1 ^ 2 + e2 ^ 2)) * w n ^ 2 ≤ E n - E (n + 1) := fun n => by
    have e := (wdf_energy (hc (n + 1))).2.2
    obtain ⟨c1, c2⟩ := cl n
    simp only [hE, hw]
    rw [h (n + 1), e, mul_assoc]
    have b : (U (n + 1)).reg 2 ^ 2 ≤ 1 := pow_le_one₀ (le_trans (by norm_num) c1) c2
    have b' : 0.01 ≤ (U (n + 1)).reg 2 ^ 2 := by norm_num at c1 ⊢; nlinarith
    have d : 0 ≤ (U (n + 1)).reg 0 ^ 2 + (U (n + 1)).reg 1 ^ 2 := by positivity
    have f := mul_nonneg d0.le (sq_nonneg (e1 * (U (n + 1)).reg 0 + e2 * (U (n + 1)).reg 1))
    generalize (2 - (e1 ^ 2 + e2 ^ 2)) * (e1 * (U (n + 1)).reg 0 + e2 * (U (n + 1)).reg 1) ^ 2 = Q at *
    generalize (U (n + 1)).reg 0 ^ 2 + (U (n + 1)).reg 1 ^ 2 = P at *
    generalize (U (n + 1)).reg 2 ^ 2 = g at *
    norm_num at b' ⊢
    nlinarith [mul_nonneg d (sub_nonneg.2 b), mul_nonneg f (sub_nonneg.2 b')]
  have low : ∀ n, 0 ≤ E n := fun n => by rw [hE]; positivity
  obtain ⟨L, hL⟩ : ∃ L, Filter.Tendsto E Filter.atTop (nhds L) := ⟨_, tendsto_atTop_ciInf anti' ⟨0, by rintro _ ⟨n, rfl⟩; exact low n⟩⟩
  have gap : Filter.Tendsto (fun n => E n - E (n + 1)) Filter.atTop (nhds 0) := by
    have := hL.sub ((Filter.tendsto_add_atTop_iff_nat 1).2 hL)
    rwa [sub_self] at this
  have wsq : Filter.Tendsto (fun n => w n ^ 2) Filter.atTop (nhds 0) := by
    have := gap.div_const (0.01 * (2 - (e1 ^ 2 + e2 ^ 2)))
    rw [zero_div] at this
    refine squeeze_zero (fun n => sq_nonneg _) (fun n => ?_) this
    rw [le_div_iff₀ (by positivity)]
    linarith [drop n]
  have w0 : Filter.Tendsto w Filter.atTop (nhds 0) := by
    have := (Real.continuous_sqrt.tendsto 0).comp wsq
    rw [Real.sqrt_zero] at this
    refine (tendsto_zero_iff_abs_tendsto_zero _).2 (this.congr fun n => ?_)
    simp [Real.sqrt_sq_eq_abs]
  -- the mirror image follows
  have m0 : Filter.Tendsto (fun n => e1 * (U (n + 1)).reg 0 - e2 * (U (n + 1)).reg 1) Filter.atTop (nhds 0) := by
    have b : Filter.Tendsto (fun n => 10 * |w (n + 1)| + |e1 ^ 2 - e2 ^ 2| * |w n|) Filter.atTop (nhds 0) := by
      have a1 := ((tendsto_zero_iff_abs_tendsto_zero _).1 ((Filter.tendsto_add_atTop_iff_nat 1).2 w0)).const_mul 10
      have a2 := ((tendsto_zero_iff_abs_tendsto_zero _).1 w0).const_mul |e1 ^ 2 - e2 ^ 2|
      have := a1.add a2
      simpa using this
    refine (tendsto_zero_iff_abs_tendsto_zero _).2 (squeeze_zero (fun n => abs_nonneg _) (fun n => ?_) b)
    obtain ⟨E0, E1, -⟩ := wdf_energy (hc (n + 1))
    obtain ⟨c1, c2⟩ := cl n
    have k : w (n + 1) = (e1 * (U (n + 1)).reg 0 - e2 * (U (n + 1)).reg 1 - (e1 ^ 2 - e2 ^ 2) * w n) * (U (n + 1)).reg 2 := by
      simp only [hw]
      rw [h (n + 1), E0, E1]; ring
    have g0 : 0 < (U (n + 1)).reg 2 := lt_of_lt_of_le (by norm_num) c1
    have k' : e1 * (U (n + 1)).reg 0 - e2 * (U (n + 1)).reg 1 = w (n + 1) / (U (n + 1)).reg 2 + (e1 ^ 2 - e2 ^ 2) * w n := by rw [k]; field_simp; ring
    simp only [Function.comp]
    rw [k']
    refine (abs_add_le _ _).trans (add_le_add ?_ (abs_mul _ _).le)
    rw [abs_div, abs_of_pos g0, div_le_iff₀ g0]
    norm_num at c1
    nlinarith [abs_nonneg (w (n + 1))]
  have r0 : Filter.Tendsto (fun n => (U (n + 1)).reg 0) Filter.atTop (nhds 0) := by
    have := (w0.add m0).div_const (2 * e1)
    simp only [add_zero, zero_div] at this
    refine this.congr fun n => ?_
    simp only [hw]; field_simp; ring
  have r1 : Filter.Tendsto (fun n => (U (n + 1)).reg 1) Filter.atTop (nhds 0) := by
    have := (w0.sub m0).div_const (2 * e2)
    simp only [sub_zero, zero_div] at this
    refine this.congr fun n => ?_
    simp only [hw]; field_simp; ring
  refine (Filter.tendsto_add_atTop_iff_nat 1).1 ?_
  have := (r0.const_mul (Spec.now (U 0) 4)).add (r1.const_mul (Spec.now (U 0) 5))
  simp only [mul_zero, add_zero] at this
  refine this.congr fun n => ?_
  rw [(wdf_step (U (n + 1)) 0).2.2.1, hk (n + 1)]
  simp only [hk (n + 1) 5]; ring

/-- **C266.** Below the clip, the section is a resonator of the second order: poles by `e1`, `e2` alone, zeros by the taps `t1`, `t2` and the direct path `d`. -/
theorem C266_response {U : ℕ → FU} {x : ℕ → ℝ} {e1 e2 sc t1 t2 d : ℝ} (h : Spec.Played iir12wdf U x) (hc : ∀ n, Spec.Wdf e1 e2 sc (Spec.now (U n)))
    (ht : ∀ n, Spec.now (U n) 4 = t1 ∧ Spec.now (U n) 5 = t2 ∧ Spec.now (U n) 6 = d) (h0 : ∀ n, (U n).reg 2 = 1) (n : ℕ) :
    (iir12wdf (U (n + 2)) (x (n + 2))).2 = (e2 ^ 2 - e1 ^ 2) * (iir12wdf (U (n + 1)) (x (n + 1))).2 + (1 - e1 ^ 2 - e2 ^ 2) * (iir12wdf (U n) (x n)).2 +
      d * x (n + 2) + (sc * (t1 * e1 - t2 * e2) - d * (e2 ^ 2 - e1 ^ 2)) * x (n + 1) + (sc * (t1 * e1 + t2 * e2) - d * (1 - e1 ^ 2 - e2 ^ 2)) * x n := by
  have hs := (hc 0).scale
  have st : ∀ m, (U (m + 1)).reg 0 = (U m).reg 0 - e1 * (e1 * (U m).reg 0 + e2 * (U m).reg 1) + e1 * sc * x m ∧
      (U (m + 1)).reg 1 = -((U m).reg 1 - e2 * (e1 * (U m).reg 0 + e2 * (U m).reg 1)) - e2 * sc * x m := fun m => by
    obtain ⟨a, b, -, -⟩ := wdf_step (U m) (x m)
    rw [h m, a, b, h0 m, (hc m).c0, (hc m).c1, (hc m).c2, (hc m).c3]
    constructor <;> field_simp <;> ring
  have out : ∀ m, (iir12wdf (U m) (x m)).2 = t1 * (U m).reg 0 + d * x m + t2 * (U m).reg 1 := fun m => by
    rw [(wdf_step (U m) (x m)).2.2.1, (ht m).1, (ht m).2.1, (ht m).2.2]
  rw [out, out, out, (st (n + 1)).1, (st (n + 1)).2, (st n).1, (st n).2]
  ring

/-- The hypotheses are met: a held section with `e1 = 1/2`, `e2 = 1/3`, from any charge. -/
example (a b : ℝ) : ∃ U : ℕ → FU, (U 0).reg 0 = a ∧ (U 0).reg 1 = b ∧ Spec.Played iir12wdf U (fun _ => 0) ∧ (∀ n, Spec.Wdf (1 / 2) (1 / 3) 2 (Spec.now (U n))) ∧ (0 ≤ (U 0).reg 2 ∧ (U 0).reg 2 ≤ 1) := by
  obtain ⟨c, hc⟩ : ∃ c : ℕ → ℝ, c = fun i => if i = 0 then 1 else if i = 1 then 2 / 3 else if i = 2 then -1 / 4 else if i = 3 then -1 / 6 else 0 := ⟨_, rfl⟩
  let step : (ℕ → ℝ) → (ℕ → ℝ) := fun r => (iir12wdf ⟨c, fun _ => 0, r, 0⟩ 0).1.reg
  refine ⟨fun n => ⟨c, fun _ => 0, step^[n] fun i => if i = 0 then a else if i = 1 then b else 0, 0⟩, by simp, by simp, fun n => ?_, fun n => ?_, by simp⟩
  · simp only [Function.iterate_succ_apply', step]
  · constructor <;> (try simp only [Spec.now, add_zero, hc]) <;> norm_num

end Verif.Filters
