import Verif.Filters.Smooth
import Verif.Filters.Wdf
import Verif.Filters.K35
import Verif.Filters.Comb
import Verif.Filters.Svf
import Verif.Filters.RungeKutta
import Verif.Filters.Obxd4
import Verif.Filters.Huovilainen
import Verif.Filters.NonlinearClaims
/-!
# Cases: the filters of a voice

Concrete cases that meet the hypotheses of theorems of these modules, by applying the theorems to them.
-/
namespace Verif.Cases.Filters
open Verif Verif.Filters

/-- A block of input samples, and the blocks of a short life with one setting. -/
noncomputable def noiseBlock : List ℝ := (List.range 64).map fun (n : ℕ) => ((-1 : ℝ)) ^ n / 2

theorem noise_length : noiseBlock.length = 64 := by simp [noiseBlock]

theorem noise_small : ∀ x ∈ noiseBlock, |x| ≤ 1 / 2 := by
  intro x hx
  obtain ⟨n, -, rfl⟩ := List.mem_map.1 hx
  rw [abs_div, abs_pow, abs_neg, abs_one, one_pow]; norm_num

/-- Two settings in turn, three blocks. -/
noncomputable def someLife (a b : ℕ → ℝ) : List ((ℕ → ℝ) × List ℝ) := [(a, noiseBlock), (b, noiseBlock), (a, noiseBlock)]

theorem someLife_ok {a b : ℕ → ℝ} {P : (ℕ → ℝ) → Prop} (ha : P a) (hb : P b) : ∀ x ∈ someLife a b, P x.1 ∧ x.2.length = 64 := by
  intro x hx
  simp only [someLife, List.mem_cons, List.not_mem_nil, or_false] at hx
  rcases hx with rfl | rfl | rfl
  · exact ⟨ha, noise_length⟩
  · exact ⟨hb, noise_length⟩
  · exact ⟨ha, noise_length⟩

theorem someLife_small {a b : ℕ → ℝ} : ∀ x ∈ someLife a b, ∀ y ∈ x.2, |y| ≤ 1 / 2 := by
  intro x hx
  simp only [someLife, List.mem_cons, List.not_mem_nil, or_false] at hx
  rcases hx with rfl | rfl | rfl <;> exact noise_small

theorem someLife_all {a b : ℕ → ℝ} {P : (ℕ → ℝ) → Prop} (ha : P a) (hb : P b) : ∀ x ∈ someLife a b, P x.1 ∧ x.2.length = 64 ∧ ∀ y ∈ x.2, |y| ≤ 1 / 2 :=
  fun x hx => ⟨(someLife_ok ha hb x hx).1, (someLife_ok ha hb x hx).2, someLife_small x hx⟩

/-! ## C104: the coefficient ramps -/

example := C104_ramp_lands C104_advances.1 ⟨fun _ => 1, fun _ => 0, fun _ => 1, false⟩ rfl (fun _ => 0) 0 (fun _ => 3) noiseBlock noise_length
example := C104_first_block_silent C104_advances.2.1 (fun _ => 0) 0 (fun _ => 3) noiseBlock
example := C104_converges C104_advances.2.1 (fun _ => 0) 0 (fun _ => 1) (fun i => i) noiseBlock (List.replicate 5 noiseBlock)
  (fun _ h => by rw [List.eq_of_mem_replicate h]; exact noise_length)
example := C104_hull C104_advances.2.1 (S := Spec.mild 0.9 1 2) (mild_convex zero_le_one _ _) (mild_zero _ (by norm_num) (by norm_num)) 0 (fun _ => 0)
  (someLife (fun _ => 0) fun i => if i = 2 then 1 / 2 else if i = 0 then 1 / 4 else 0)
  (someLife_ok (P := (· ∈ Spec.mild 0.9 1 2)) (mild_zero _ (by norm_num) (by norm_num)) (by norm_num [Spec.mild, abs_of_pos]))

/-! ## C100, C101: the biquad filters -/

theorem low_stable : Biquad.Spec.Stable (Spec.biquad (Fc.lowpass 0.5 0) 1) := by
  norm_num [Biquad.Spec.Stable, Spec.biquad, Biquad.Spec.normal, Fc.lowpass, abs_lt]

theorem low_complex : Spec.Complex (Spec.biquad (Fc.lowpass 0.5 0) 1) := by
  norm_num [Spec.Complex, Spec.biquad, Biquad.Spec.normal, Fc.lowpass]

example (ty : IirType) (p : PoleType) := C100_biquad_partial ty .smooth p (by decide) (Fc.lowpass 0.5 0) 1 (fun _ => low_stable) (fun h => absurd rfl h) (rs := fun z => 1 / z) (by norm_num)
example (ty : IirType) (p : PoleType) := C100_biquad_partial ty .rough p (by decide) (Fc.lowpass 0.5 0) 1 (fun h => by cases h) (fun _ => low_complex) (rs := fun z => 1 / z) (by norm_num)
example := C101_smooth_partial (Fc.lowpass 0.5 0) 1 (clip := 0.01) (by norm_num) low_stable

/-- C101: the smooth filters, modulated between two settings. -/
example : ∃ K : ℝ, ∀ y ∈ (life iir24b 0 Maker.new (fun _ => 0) (someLife (fun _ => 0) fun i => if i = 2 then 1 / 2 else if i = 0 then 1 / 4 else 0)).2.2, |y| ≤ K * (1 / 2) := by
  obtain ⟨K, h⟩ := C101_smooth_four_modulated_partial (ρ := 0.9) (κ := 1) (G := 2) (by norm_num) (by norm_num) one_pos (by norm_num)
  exact ⟨K, h _ 0 _ (by norm_num) (someLife_all (P := (· ∈ Spec.mild 0.9 1 2)) (mild_zero _ (by norm_num) (by norm_num)) (by norm_num [Spec.mild, abs_of_pos]))⟩

/-! ## C201, C203, C206, C209, C215: the analogue models -/

example := C201_memoryless_refuted (sat := .tanh) (by intro h; cases h) noiseBlock ⟨fun _ => 1, fun _ => 0, fun _ => 0, 0⟩ (fun _ => rfl)
example := C203_bounded (stage := 1) (by decide) (M := 1 / 2) (by norm_num) (someLife (nlfCoeffMake .lowPass 0 1000 48000 0.5) (nlfCoeffMake .highPass 2 3000 48000 1))
  (someLife_all (P := Spec.nlfSetting) ⟨_, _, _, _, _, by norm_num, rfl⟩ ⟨_, _, _, _, _, by norm_num, rfl⟩)
example := C206_bounded (sr := 96000) (by norm_num) 0 (someLife (rkCoeffMake 1000 96000 1 (some 0.666)) (rkCoeffMake 200 96000 0 none))
  (someLife_ok (P := Spec.rkSetting 96000) ⟨_, _, _, rfl⟩ ⟨_, _, _, rfl⟩)
example := C209_bounded (si := 1 / 96000) (X := 1 / 2) (by norm_num) (by norm_num) 0 (someLife (obxdCoeff4 3 1000 (1 / 96000) 1) (obxdCoeff4 1 200 (1 / 96000) 0))
  (someLife_all (P := Spec.obxd4Setting (1 / 96000)) ⟨3, 1000, 1, by norm_num, by norm_num, le_rfl, rfl⟩ ⟨1, 200, 0, by norm_num, by norm_num, by norm_num, rfl⟩)
example := C215_gain_partial (sros := 96000) (by norm_num) (ρ := 0.2) (X := 1 / 2) (by norm_num) le_rfl (by norm_num) (by norm_num) 0
  (someLife (huoCoeffMake 1000 96000 0.1 (some 0.5)) (huoCoeffMake 3000 96000 0.2 (some 0.25)))
  (someLife_ok (P := Spec.huoSetting 96000 0.2) ⟨1000, 0.1, some 0.5, by norm_num, fun g h => by cases h; norm_num, rfl⟩ ⟨3000, 0.2, some 0.25, by norm_num, fun g h => by cases h; norm_num, rfl⟩)
  someLife_small

/-! ## C218: the comb filter -/

example (sinc : ℕ → ℝ) := Comb.C218_feedback_delay (rnd := fun x => round x) (fun x => by rw [abs_sub_comm]; exact abs_sub_round x) sinc
  ⟨fun n => 100 + (n % 7 : ℕ), fun _ => 0.9, fun _ => 0, fun _ => 1, fun n => if n = 0 then 1 else 0⟩
  (fun n => by
    have : ((n % 7 : ℕ) : ℝ) ≤ 7 := by exact_mod_cast (Nat.mod_lt n (by norm_num)).le
    have : (0 : ℝ) ≤ (n % 7 : ℕ) := Nat.cast_nonneg _
    constructor <;> simp only <;> linarith)

/-! ## C261, C262: the K35 -/

/-- A filter playing the constant `c` with fixed coefficients `k`. -/
noncomputable def playing (step : FU → ℝ → FU × ℝ) (k : ℕ → ℝ) (c : ℝ) (n : ℕ) : FU :=
  ⟨k, fun _ => 0, (fun r => (step ⟨k, fun _ => 0, r, 0⟩ c).1.reg)^[n] fun _ => 0, 0⟩

theorem playing_played (step : FU → ℝ → FU × ℝ) (k : ℕ → ℝ) (c : ℝ) : Spec.Played step (playing step k c) fun _ => c := by
  intro n
  simp only [playing, Function.iterate_succ_apply']

theorem playing_now (step : FU → ℝ → FU × ℝ) (k : ℕ → ℝ) (c : ℝ) (n : ℕ) : Spec.now (playing step k c n) = k := by
  funext i; simp [Spec.now, playing]

theorem playing_clean (lowpass : Bool) (step : FU → ℝ → FU × ℝ) (n : ℕ) :
    Spec.Clean lowpass (k35G 1000 96000 (1 / 96000)) (max 0.01 (min (0.5 * 1.96) 1.96)) (Spec.now (playing step (k35Coeff lowpass 0 1000 96000 (1 / 96000) 0.5) 1 n)) := by
  rw [playing_now]; exact clean_made lowpass 1000 96000 0.5 (by norm_num)

example := C261_lowpass _ (playing_clean true k35lp 3) 1
example := C261_highpass _ (playing_clean false k35hp 3) 1
example := C261_lowpass_driven ⟨k35Coeff true 2 1000 96000 (1 / 96000) 0.5, fun _ => 0, fun _ => 1, 0⟩
  (by rw [show ∀ k r, Spec.now ⟨k, fun _ => 0, r, 0⟩ = k from fun k r => by funext i; simp [Spec.now]]; exact driven_made true 2 1000 96000 0.5 (by norm_num)) 1
example := C261_highpass_driven ⟨k35Coeff false 2 1000 96000 (1 / 96000) 0.5, fun _ => 0, fun _ => 1, 0⟩
  (by rw [show ∀ k r, Spec.now ⟨k, fun _ => 0, r, 0⟩ = k from fun k r => by funext i; simp [Spec.now]]; exact driven_made false 2 1000 96000 0.5 (by norm_num)) 1
example := C262_lowpass_settles (playing_played k35lp _ 1) (fun n => playing_clean true k35lp n) (playing_clean true k35lp 0).g0 (fun _ => le_rfl) (fun _ => le_rfl)
example := C262_highpass_settles (playing_played k35hp _ 1) (fun n => playing_clean false k35hp n) (playing_clean false k35hp 0).g0 (fun _ => le_rfl) (fun _ => le_rfl)

/-! ## C105: the state variable filter -/

theorem svf_stable (ty : IirType) : Biquad.Spec.Stable (Spec.svf (1 / 4) (1 / 2) ty) := (C105_stable_iff ty (by norm_num)).2 (by norm_num)

example := C105_dc (f := 1 / 4) (q := 1 / 2) (by norm_num) (svf_stable .lowPass)
example (ty : IirType) (p : PoleType) := C105_bounded_partial ty p (fun i => if i = 0 then 1 / 4 else if i = 1 then 1 / 2 else 0.01) (by norm_num) (by simpa using svf_stable ty)

/-! ## C106, C204, C266 -/

example := C106_holds_partial (k := fun i => if i = 0 then 1 / 3 else 1 / 2) (by norm_num) (by norm_num) 0 noiseBlock
example := C106_rate (r := 1 / 3) (by norm_num) (by norm_num) 10
example := C204_no_feedback_refuted (c := fun i => if i = 5 then 1 else 1 / 4) (x := fun _ => 0) (N := 100)
  (fun n _ => by simp only [Spec.feedforward, Spec.before]; split_ifs <;> first | contradiction | norm_num at *)

end Verif.Cases.Filters
