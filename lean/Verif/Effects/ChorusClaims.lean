import Verif.Effects.Chorus
/-!
# Claims about the chorus (C232-C235)
-/
namespace Verif.Effects.Chorus
open Verif.Smooth Verif.Biquad Verif.Tables
open Verif.Effects.FreqShift (toI32 splice blockOf idx)
open Verif.Effects.DualDelay (delayOf rpOf sincOf lp_shape hp_shape lp_stable hp_stable Fixed fixed_new fixed_inst Empty' empty_block empty_lp empty_hp)

/-! ## C232: the signal flow -/

theorem set_twice (a0 a1 a2 b0 b1 b2 : ℝ) : (Filter.new.setCoef a0 a1 a2 b0 b1 b2).setCoef a0 a1 a2 b0 b1 b2 = Filter.new.setCoef a0 a1 a2 b0 b1 b2 := by
  simp [Filter.setCoef, Filter.start, Filter.new, Filter.newValues, Biquad.VLag.newValue, Biquad.VLag.startValue]

/-- **C232.**  Whatever the input and however the parameters are automated, the effect is this: four voices read one stored signal, each at its own smoothed delay, and are spread from left to right by
`Spec.gain`; the sum goes through the high cut and the low cut; both channels of it, times the smoothed feedback and clipped to 1, plus both channels of the input, are stored; the output fades between
the input and the wet signal of adjusted width. -/
theorem C232_flow (P : ℕ → Params) (x : Bool → ℕ → ℝ) (N : ℕ) : ∃ σ, Spec.Flow P x (play P x N).2 σ N := by
  suffices h : ∃ σ, Inv P x (play P x N).2 σ (play P x N).1 N from h.imp fun σ h => h.flow
  induction N with
  | zero =>
    obtain ⟨a0, a1, a2, b0, b1, b2, e⟩ := lp_shape (P 0).lpω
    obtain ⟨d0, d1, d2, f0, f1, f2, e'⟩ := hp_shape (P 0).hpω
    refine ⟨⟨fun _ _ => 0, fun _ _ => 0, fun _ => 0, fun _ => Filter.new.coeffLp2b (P 0).lpω 0.707, fun _ => Filter.new.coeffHp (P 0).hpω 0.707⟩,
      ⟨fun _ _ h => absurd h (by omega), rfl, rfl, fun _ h => absurd h (by omega), fun _ h => absurd h (by omega), fun _ h => absurd h (by omega),
        fun _ h => absurd h (by omega), fun _ _ h => absurd h (by omega)⟩, ctl_start P, ⟨rfl, fun m _ _ => ?_, fun m _ _ _ => ?_⟩, fun _ => ⟨?_, ?_⟩, fun n h => absurd h (by omega)⟩
    · simp [FreqShift.Spec.past]; rfl
    · simp [FreqShift.Spec.past]; rfl
    · show (Filter.new.coeffLp2b (P 0).lpω 0.707).coeffLp2b (P 0).lpω 0.707 = _
      rw [e, e, set_twice]
    · show ((Filter.new.coeffHp (P 0).hpω 0.707).coeffHp (P 0).hpω 0.707).coeffHp (P 0).hpω 0.707 = _
      rw [e', e', e', set_twice, set_twice]
  | succ N ih =>
    obtain ⟨σ, h⟩ := ih
    exact step h

theorem play_wpos (P : ℕ → Params) (x : Bool → ℕ → ℝ) (N : ℕ) : (play P x N).1.wpos = ((32 * N : ℕ) : ℤ) % 2 ^ 18 := by
  induction N with
  | zero => rfl
  | succ N ih =>
    have e : (play P x (N + 1)).1.wpos = ((index ((play P x N).1.wpos + 32) (2 ^ 18 - 1) : ℕ) : ℤ) := rfl
    rw [e, idx, ih]
    push_cast
    omega

/-- **C232.**  No access is out of bounds, however far the delays are swept: for every smoothed delay `v`, the twelve samples read lie in the buffer of `2 ^ 18 + 12`, the twelve weights in the kernel of
`257 * 12`, and the block is written inside the first `2 ^ 18`. -/
theorem C232_in_bounds (P : ℕ → Params) (x : Bool → ℕ → ℝ) (N : ℕ) (v : ℝ) (k : ℕ) :
    (∀ j < 12, rpOf (play P x N).1.wpos (delayOf v) k + j < 2 ^ 18 + 12) ∧ (0 ≤ sincOf (delayOf v) v ∧ ∀ j < 12, (sincOf (delayOf v) v).toNat + j < 257 * 12) ∧
      0 ≤ (play P x N).1.wpos ∧ (play P x N).1.wpos + 32 ≤ 2 ^ 18 := by
  have h := play_wpos P x N
  obtain ⟨s1, s2⟩ := DualDelay.sincOf_eq v
  refine ⟨fun j hj => ?_, ⟨by rw [s1]; omega, fun j hj => by rw [s1]; omega⟩, by omega, by push_cast at h; omega⟩
  unfold rpOf
  rw [idx]
  omega

theorem reached_const {u : ℕ → ℝ} {a : ℝ} (h : ∀ n, u n = a) (n : ℕ) : Spec.reached u n = a := by
  induction n with
  | zero => simp [Spec.reached, h]
  | succ n ih => rw [reached_succ, ih, h]; ring

theorem ramp_const {u : ℕ → ℝ} {a : ℝ} (h : ∀ n, u n = a) (L : ℝ) (m : ℕ) : Spec.ramp u L m = a := by
  rw [Spec.ramp, reached_const h, reached_const h]; simp

/-- **C232.**  With the mix at zero throughout, the output is the input; with the mix at one and the width at one, it is the wet signal of `C232_flow`, from the first sample on. -/
theorem C232_mix (P : ℕ → Params) (x : Bool → ℕ → ℝ) (N : ℕ) : ((∀ n, (P n).mix = 0) → ∀ c, ∀ m < 32 * N, (play P x N).2 c m = x c m) ∧
    ((∀ n, (P n).mix = 1 ∧ (P n).width = 1) → ∃ σ, Spec.Flow P x (play P x N).2 σ N ∧ ∀ c, ∀ m < 32 * N, (play P x N).2 c m = σ.wet c m) := by
  obtain ⟨σ, hf⟩ := C232_flow P x N
  refine ⟨fun h c m hm => ?_, fun h => ⟨σ, hf, fun c m hm => ?_⟩⟩
  · rw [hf.out c m hm, ramp_const h]; ring
  · rw [hf.out c m hm, ramp_const (fun n => (h n).1), Spec.widened, ramp_const (fun n => (h n).2)]
    cases c
    · simp only [Bool.false_eq_true, if_false]; ring
    · simp only [if_true]; ring

/-- **C232.**  Silence in, silence out, from the start. -/
theorem C232_silence (P : ℕ → Params) {x : Bool → ℕ → ℝ} (hx : ∀ c m, x c m = 0) (N : ℕ) (c : Bool) {m : ℕ} (hm : m < 32 * N) : (play P x N).2 c m = 0 := by
  obtain ⟨σ, hf⟩ := C232_flow P x N
  have key : ∀ n ≤ N, (∀ c m, m < 32 * n → σ.wet c m = 0 ∧ σ.stored m = 0) ∧ (n < N → Empty' (σ.lp n) ∧ Empty' (σ.hp n)) := by
    intro n
    induction n with
    | zero =>
      intro _
      refine ⟨fun c m h => absurd h (by omega), fun h => ?_⟩
      rw [hf.lp0, hf.hp0]
      exact ⟨empty_lp _ ⟨rfl, rfl⟩, empty_hp _ ⟨rfl, rfl⟩⟩
    | succ n ih =>
      intro hn
      obtain ⟨i1, i2⟩ := ih (by omega)
      obtain ⟨j1, j2⟩ := i2 (by omega)
      have rz : ∀ c, ∀ k < 32, σ.read c (32 * n + k) = 0 := fun c k hk => by
        rw [hf.read c _ (by omega)]
        refine Finset.sum_eq_zero fun i _ => ?_
        rw [mul_eq_zero]; right
        refine Finset.sum_eq_zero fun j hj => ?_
        have hj := Finset.mem_range.1 hj
        obtain ⟨d1, -⟩ := DualDelay.delayOf_range (Spec.lag P i (32 * n + k + 1))
        show _ * FreqShift.Spec.past _ _ = _
        unfold FreqShift.Spec.past
        split
        · rw [(i1 c _ (by omega)).2, mul_zero]
        · rw [mul_zero]
      have cz : Spec.voices σ n = List.replicate 32 (0, 0) := by
        unfold Spec.voices
        rw [List.eq_replicate_iff]
        refine ⟨by simp, fun b hb => ?_⟩
        obtain ⟨k, hk, rfl⟩ := List.mem_map.1 hb
        rw [rz _ k (List.mem_range.1 hk), rz _ k (List.mem_range.1 hk)]
      obtain ⟨l1, l2⟩ := empty_block j1 32
      obtain ⟨h1, h2⟩ := empty_block j2 32
      have ez := hf.wet n (by omega)
      rw [cz, l2, h2, List.eq_replicate_iff] at ez
      have ez' : ∀ c, ∀ k < 32, σ.wet c (32 * n + k) = 0 := fun c k hk => by
        have := ez.2 _ (List.mem_map.2 ⟨k, List.mem_range.2 hk, rfl⟩)
        simp only [Prod.mk.injEq] at this
        cases c
        · exact this.1
        · exact this.2
      refine ⟨fun c m hm => ?_, fun hN => ?_⟩
      · by_cases h : m < 32 * n
        · exact i1 c m h
        · obtain ⟨k, hk, rfl⟩ : ∃ k < 32, m = 32 * n + k := ⟨m - 32 * n, by omega, by omega⟩
          refine ⟨ez' c k hk, ?_⟩
          rw [hf.stored _ (by omega), hx, hx, ez' _ k hk, ez' _ k hk]; norm_num
      · rw [hf.lp n hN, hf.hp n hN, cz, l2]
        exact ⟨empty_lp _ l1, empty_hp _ h1⟩
  obtain ⟨h, -⟩ := key N le_rfl
  rw [hf.out c m hm, hx, Spec.widened, (h false m hm).1, (h true m hm).1]
  ring

/-! ## C233: the voices -/

/-- The four voices have the same power, spread from the left to the right, and together the power of one signal. -/
theorem C233_equal_power : (∀ i < 4, Spec.gain i false ^ 2 + Spec.gain i true ^ 2 = 1 / 4) ∧ (∑ i ∈ Finset.range 4, Spec.gain i false ^ 2 = 1 / 2) ∧
    (∑ i ∈ Finset.range 4, Spec.gain i true ^ 2 = 1 / 2) ∧ (∀ i < 3, Spec.gain (i + 1) false < Spec.gain i false ∧ Spec.gain i true < Spec.gain (i + 1) true) ∧
    Spec.gain 3 false = 0 ∧ Spec.gain 0 true = 0 := by
  have l : ∀ i < 4, Spec.gain i false ^ 2 = (1 - (i : ℝ) / 3) / 4 := fun i hi => by
    have : (i : ℝ) ≤ 3 := by exact_mod_cast Nat.le_of_lt_succ hi
    unfold Spec.gain
    rw [if_neg (by simp), div_pow, Real.sq_sqrt (by linarith)]; norm_num
  have r : ∀ i : ℕ, Spec.gain i true ^ 2 = ((i : ℝ) / 3) / 4 := fun i => by
    unfold Spec.gain
    rw [if_pos rfl, div_pow, Real.sq_sqrt (by positivity)]; norm_num
  refine ⟨fun i hi => by rw [l i hi, r i]; ring, ?_, ?_, fun i hi => ⟨?_, ?_⟩, ?_, ?_⟩
  · rw [Finset.sum_congr rfl fun i hi => l i (Finset.mem_range.1 hi)]
    simp [Finset.sum_range_succ]; norm_num
  · rw [Finset.sum_congr rfl fun i _ => r i]
    simp [Finset.sum_range_succ]; norm_num
  · have : (i : ℝ) ≤ 2 := by exact_mod_cast Nat.le_of_lt_succ hi
    unfold Spec.gain
    rw [if_neg (by simp), if_neg (by simp)]
    have := Real.sqrt_lt_sqrt (x := 1 - ((i + 1 : ℕ) : ℝ) / 3) (y := 1 - (i : ℝ) / 3) (by push_cast; linarith) (by push_cast; linarith)
    linarith
  · unfold Spec.gain
    rw [if_pos rfl, if_pos rfl]
    have := Real.sqrt_lt_sqrt (x := (i : ℝ) / 3) (y := ((i + 1 : ℕ) : ℝ) / 3) (by positivity) (by push_cast; linarith)
    linarith
  · simp [Spec.gain]
  · simp [Spec.gain]

theorem phase_succ' (P : ℕ → Params) (i n : ℕ) : Spec.phase P i (n + 1) = if Spec.phase P i n + (P n).rate ≤ 1 then Spec.phase P i n + (P n).rate else Spec.phase P i n + (P n).rate - 1 := rfl

/-- **C233.**  While the rate stays below one cycle per block, every phase stays in the cycle; and, with a depth of at most 1, every voice's delay stays between zero and twice the longest set time, whatever
the automation. -/
theorem C233_delays_in_range (P : ℕ → Params) (hr : ∀ n, 0 ≤ (P n).rate ∧ (P n).rate ≤ 1) {T : ℝ} (ht : ∀ n, 0 ≤ (P n).time ∧ (P n).time ≤ T) {d : ℝ} (hd : ∀ n, |(P n).depth| ≤ d) {i : ℕ} (hi : i < 4) :
    (∀ n, 0 ≤ Spec.phase P i n ∧ Spec.phase P i n ≤ 1) ∧ (d ≤ 1 → ∀ m, 0 ≤ Spec.lag P i m ∧ Spec.lag P i m ≤ (1 + d) * T) := by
  have h1 : ∀ n, 0 ≤ Spec.phase P i n ∧ Spec.phase P i n ≤ 1 := by
    intro n
    induction n with
    | zero =>
      have : (i : ℝ) ≤ 3 := by exact_mod_cast Nat.le_of_lt_succ hi
      simp only [Spec.phase]
      exact ⟨by positivity, by linarith⟩
    | succ n ih =>
      obtain ⟨r0, r1⟩ := hr n
      rw [phase_succ']
      split
      · exact ⟨by linarith, by assumption⟩
      · exact ⟨by linarith, by linarith⟩
  refine ⟨h1, fun d1 => ?_⟩
  have d0 : 0 ≤ d := (abs_nonneg _).trans (hd 0)
  have g : ∀ n, 0 ≤ Spec.goal P i n ∧ Spec.goal P i n ≤ (1 + d) * T := fun n => by
    obtain ⟨p0, p1⟩ := h1 (n + 1)
    obtain ⟨t0, t1⟩ := ht n
    have tri : |2 * |2 * Spec.phase P i (n + 1) - 1| - 1| ≤ 1 := by
      have a : |2 * Spec.phase P i (n + 1) - 1| ≤ 1 := abs_le.2 ⟨by linarith, by linarith⟩
      exact abs_le.2 ⟨by linarith [abs_nonneg (2 * Spec.phase P i (n + 1) - 1)], by linarith⟩
    have b : |(P n).depth * (2 * |2 * Spec.phase P i (n + 1) - 1| - 1)| ≤ d := by
      rw [abs_mul]
      calc _ ≤ d * 1 := mul_le_mul (hd n) tri (abs_nonneg _) d0
        _ = d := mul_one d
    obtain ⟨b0, b1⟩ := abs_le.1 b
    unfold Spec.goal
    generalize (P n).depth * (2 * |2 * Spec.phase P i (n + 1) - 1| - 1) = z at b0 b1
    constructor
    · exact mul_nonneg t0 (by linarith)
    · nlinarith
  intro m
  induction m with
  | zero => exact g 0
  | succ m ih =>
    obtain ⟨a, b⟩ := g (m / 32)
    simp only [Spec.lag]
    constructor <;> linarith [ih.1, ih.2]

/-- **C233** (refuted: the four voices are spread over the cycle).  The first and the last begin a whole cycle apart, that is together, and stay so: their delays are the same at every sample, whatever the
automation; so the chorus has three voices, the outermost left and right ones being one voice in the middle. -/
theorem C233_three_voices_refuted (P : ℕ → Params) (hr : ∀ n, 0 ≤ (P n).rate ∧ (P n).rate ≤ 1) :
    (∀ m, Spec.lag P 0 m = Spec.lag P 3 m) ∧ ∀ (x : Bool → ℕ → ℝ) (N : ℕ), ∃ σ, Spec.Flow P x (play P x N).2 σ N ∧ ∀ m < 32 * N,
      let tap := fun i => Spec.tap (P (m / 32)).sinc σ.stored (Spec.lag P i (m + 1)) m
      σ.read false m = tap 0 / 2 + Spec.gain 1 false * tap 1 + Spec.gain 2 false * tap 2 ∧ σ.read true m = tap 0 / 2 + Spec.gain 1 true * tap 1 + Spec.gain 2 true * tap 2 := by
  have ph : ∀ n, Spec.phase P 3 n = Spec.phase P 0 n ∨ (Spec.phase P 3 n = 1 ∧ Spec.phase P 0 n = 0) := by
    intro n
    induction n with
    | zero => right; simp [Spec.phase]
    | succ n ih =>
      rcases ih with h | ⟨h3, h0⟩
      · left; rw [phase_succ', phase_succ', h]
      · obtain ⟨r0, r1⟩ := hr n
        rw [phase_succ', phase_succ', h3, h0]
        rcases eq_or_lt_of_le r0 with e | e
        · right; rw [← e]; norm_num
        · left
          rw [if_neg (by linarith), if_pos (by linarith)]; ring
  have lag : ∀ m, Spec.lag P 0 m = Spec.lag P 3 m := by
    have g : ∀ n, Spec.goal P 0 n = Spec.goal P 3 n := fun n => by
      unfold Spec.goal
      rcases ph (n + 1) with h | ⟨h3, h0⟩
      · rw [h]
      · rw [h3, h0]; norm_num
    intro m
    induction m with
    | zero => exact g 0
    | succ m ih => simp only [Spec.lag, ih, g]
  refine ⟨lag, fun x N => ?_⟩
  obtain ⟨σ, hf⟩ := C232_flow P x N
  refine ⟨σ, hf, fun m hm => ?_⟩
  have g0 : Spec.gain 0 false = 1 / 2 ∧ Spec.gain 0 true = 0 ∧ Spec.gain 3 false = 0 ∧ Spec.gain 3 true = 1 / 2 := by simp [Spec.gain]
  obtain ⟨a, b, c, d⟩ := g0
  constructor
  · rw [hf.read _ m hm]
    simp only [Finset.sum_range_succ, Finset.sum_range_zero, a, c]; ring
  · rw [hf.read _ m hm]
    simp only [Finset.sum_range_succ, Finset.sum_range_zero, b, d, lag]; ring

/-- The hypotheses are met by a rate of a hundredth of a cycle per block, a delay of 500 samples and a depth of a half; then the second voice is elsewhere than the first. -/
example : let P : ℕ → Params := fun _ => ⟨0, 0.01, 500, 0.5, 1, 1, 1, 1, fun _ => 1⟩
    (∀ n, 0 ≤ (P n).rate ∧ (P n).rate ≤ 1) ∧ (∀ n, 0 ≤ (P n).time ∧ (P n).time ≤ 500) ∧ (∀ n, |(P n).depth| ≤ 0.5) ∧ Spec.lag P 0 0 ≠ Spec.lag P 1 0 := by
  refine ⟨fun n => ?_, fun n => ?_, fun n => ?_, ?_⟩
  · norm_num
  · norm_num
  · show |(0.5 : ℝ)| ≤ 0.5
    rw [abs_of_pos (by norm_num)]
  · simp only [Spec.lag, Spec.goal, Spec.phase]
    norm_num [abs_of_neg, abs_of_pos]

/-! ## C234: boundedness -/

theorem reached_between {u : ℕ → ℝ} {b : ℝ} (h : ∀ n, 0 ≤ u n ∧ u n ≤ b) (n : ℕ) : 0 ≤ Spec.reached u n ∧ Spec.reached u n ≤ b := by
  induction n with
  | zero => exact h 0
  | succ n ih =>
    obtain ⟨a, c⟩ := h n
    rw [reached_succ]
    constructor <;> linarith

theorem ramp_between {u : ℕ → ℝ} {b L : ℝ} (hL : 8 ≤ L) (h : ∀ n, 0 ≤ u n ∧ u n ≤ b) (m : ℕ) : 0 ≤ Spec.ramp u L m ∧ Spec.ramp u L m ≤ b := by
  obtain ⟨a1, a2⟩ := reached_between h (m / 32 + 1)
  obtain ⟨c1, c2⟩ := reached_between h (m / 32)
  unfold Spec.ramp
  have t0 : 0 ≤ (((m % 32 % 8 : ℕ) : ℝ) + 1) / L := by positivity
  have t1 : (((m % 32 % 8 : ℕ) : ℝ) + 1) / L ≤ 1 := by
    rw [div_le_one (by linarith)]
    have : m % 32 % 8 ≤ 7 := by omega
    have : ((m % 32 % 8 : ℕ) : ℝ) ≤ 7 := by exact_mod_cast this
    linarith
  rw [mul_div_assoc]
  generalize (((m % 32 % 8 : ℕ) : ℝ) + 1) / L = t at t0 t1 ⊢
  generalize Spec.reached u (m / 32) = p at c1 c2 ⊢
  generalize Spec.reached u (m / 32 + 1) = q at a1 a2 ⊢
  constructor <;> nlinarith

theorem tap_bound {sinc b : ℕ → ℝ} {S B : ℝ} (B0 : 0 ≤ B) (hs : ∀ r ≤ 255, ∑ j ∈ Finset.range 12, |sinc (12 * r + j)| ≤ S) {M : ℕ} (hb : ∀ m < M, |b m| ≤ B) (v : ℝ) {m : ℕ} (hm : m < M + 32) :
    |Spec.tap sinc b v m| ≤ S * B := by
  obtain ⟨d1, -⟩ := DualDelay.delayOf_range v
  show |∑ j ∈ Finset.range 12, _| ≤ _
  refine (Finset.abs_sum_le_sum_abs _ _).trans ?_
  calc _ ≤ ∑ j ∈ Finset.range 12, |sinc (12 * DualDelay.Spec.row v + j)| * B := Finset.sum_le_sum fun j hj => by
        have hj := Finset.mem_range.1 hj
        rw [abs_mul]
        refine mul_le_mul_of_nonneg_left ?_ (abs_nonneg _)
        show |FreqShift.Spec.past _ _| ≤ B
        unfold FreqShift.Spec.past
        split
        · exact hb _ (by omega)
        · simpa using B0
    _ = (∑ j ∈ Finset.range 12, |sinc (12 * DualDelay.Spec.row v + j)|) * B := by rw [Finset.sum_mul]
    _ ≤ S * B := mul_le_mul_of_nonneg_right (hs _ (DualDelay.sincOf_eq v).2) B0

theorem gain_le (i : ℕ) (hi : i < 4) (c : Bool) : 0 ≤ Spec.gain i c ∧ Spec.gain i c ≤ 1 / 2 := by
  have : (i : ℝ) ≤ 3 := by exact_mod_cast Nat.le_of_lt_succ hi
  have i0 : (0 : ℝ) ≤ i := by positivity
  unfold Spec.gain
  split
  · have : Real.sqrt ((i : ℝ) / 3) ≤ 1 := Real.sqrt_le_one.2 (by linarith)
    exact ⟨by positivity, by linarith⟩
  · have : Real.sqrt (1 - (i : ℝ) / 3) ≤ 1 := Real.sqrt_le_one.2 (by linarith)
    exact ⟨by positivity, by linarith⟩

/-- **C234.**  The chorus cannot blow up: with the two cuts left where they are there is a `K` that depends on them alone, such that, for every input within `X`, every automation of the rate, the depth, the
delay and the feedback (however large), with the mix between 0 and 1, the width up to `W` and a kernel whose rows weigh at most `S`, the output stays within `X + K (1 + W) (1 + S (1 + 2 X))`. -/
theorem C234_bounded {lpω hpω : ℝ} (hu : DualDelay.Spec.Usable lpω hpω) : ∃ K : ℝ, 0 ≤ K ∧ ∀ (P : ℕ → Params) (S W X : ℝ), (∀ n, (P n).lpω = lpω ∧ (P n).hpω = hpω) →
    (∀ n, 0 ≤ (P n).mix ∧ (P n).mix ≤ 1) → (∀ n, 0 ≤ (P n).width ∧ (P n).width ≤ W) → (∀ n, ∀ r ≤ 255, ∑ j ∈ Finset.range 12, |(P n).sinc (12 * r + j)| ≤ S) →
    ∀ x : Bool → ℕ → ℝ, (∀ c m, |x c m| ≤ X) → ∀ (N : ℕ) (c : Bool) (m : ℕ), m < 32 * N → |(play P x N).2 c m| ≤ X + K * (1 + W) * (1 + S * (1 + 2 * X)) := by
  obtain ⟨a0, a1, a2, b0, b1, b2, el, sl⟩ := lp_stable hu.lp
  obtain ⟨d0, d1, d2, f0, f1, f2, eh, sh⟩ := hp_stable hu.hp
  obtain ⟨M1, m1, H1⟩ := Eq.holds sl le_rfl
  obtain ⟨M2, m2, H2⟩ := Eq.holds sh le_rfl
  refine ⟨M2 * (2 * M1 + 1), by positivity, fun P S W X hω hmix hw hs x hx N c m hm => ?_⟩
  have X0 : 0 ≤ X := (abs_nonneg _).trans (hx false 0)
  have S0 : 0 ≤ S := (Finset.sum_nonneg fun j _ => abs_nonneg _).trans (hs 0 0 (by omega))
  obtain ⟨A, hA⟩ : ∃ A, A = S * (1 + 2 * X) := ⟨_, rfl⟩
  have A0 : 0 ≤ A := by rw [hA]; positivity
  obtain ⟨Y, hY⟩ : ∃ Y, Y = M1 * (2 * A + 1e-30) := ⟨_, rfl⟩
  have Y0 : 0 ≤ Y := by rw [hY]; positivity
  obtain ⟨K, hK⟩ : ∃ K, K = M2 * (Y + 1e-30) := ⟨_, rfl⟩
  have K0 : 0 ≤ K := by rw [hK]; positivity
  have hKK : K ≤ M2 * (2 * M1 + 1) * (1 + A) := by
    rw [hK, hY]
    have e30 : (1e-30 : ℝ) ≤ 1 := by norm_num
    have p30 : (0 : ℝ) ≤ 1e-30 := by norm_num
    generalize (1e-30 : ℝ) = t at e30 p30
    rw [mul_assoc M2]
    refine mul_le_mul_of_nonneg_left ?_ m2
    nlinarith [mul_nonneg m1 A0]
  obtain ⟨σ, hf⟩ := C232_flow P x N
  have hst : ∀ m < 32 * N, |σ.stored m| ≤ 1 + 2 * X := fun m hm => by
    rw [hf.stored m hm]
    obtain ⟨p, q⟩ := abs_le.1 (hx false m)
    obtain ⟨p', q'⟩ := abs_le.1 (hx true m)
    generalize (σ.wet false m + σ.wet true m) * Spec.ramp (fun n => (P n).feedback) 32 m = z
    have z0 : -1 ≤ max (-1) (min 1 z) := le_max_left _ _
    have z1 : max (-1) (min 1 z) ≤ 1 := max_le (by norm_num) (min_le_left _ _)
    exact abs_le.2 ⟨by linarith, by linarith⟩
  have hrd : ∀ c, ∀ m < 32 * N, |σ.read c m| ≤ 2 * A := fun c m hm => by
    rw [hf.read c m hm]
    refine (Finset.abs_sum_le_sum_abs _ _).trans ?_
    calc _ ≤ ∑ i ∈ Finset.range 4, 1 / 2 * A := Finset.sum_le_sum fun i hi => by
          obtain ⟨g0, g1⟩ := gain_le i (Finset.mem_range.1 hi) c
          rw [abs_mul, abs_of_nonneg g0]
          refine mul_le_mul g1 ?_ (abs_nonneg _) (by norm_num)
          rw [hA]
          exact tap_bound (by positivity) (hs _) hst _ (by omega)
      _ = 2 * A := by simp; ring
  have vo : ∀ n < N, ∀ z ∈ Spec.voices σ n, |z.1| ≤ 2 * A ∧ |z.2| ≤ 2 * A := fun n hn z hz => by
    obtain ⟨k, hk, rfl⟩ := List.mem_map.1 hz
    have := List.mem_range.1 hk
    exact ⟨hrd _ _ (by omega), hrd _ _ (by omega)⟩
  have A20 : 0 ≤ 2 * A := by positivity
  have fix : ∀ n < N, Fixed (Spec.normal a0 a1 a2 b0 b1 b2) (2 * A) (σ.lp n) ∧ Fixed (Spec.normal d0 d1 d2 f0 f1 f2) Y (σ.hp n) := by
    intro n
    induction n with
    | zero =>
      intro _
      rw [hf.lp0, hf.hp0, (hω 0).1, (hω 0).2, el, eh]
      exact ⟨fixed_new .., fixed_new ..⟩
    | succ n ih =>
      intro hn
      obtain ⟨i1, i2⟩ := ih (by omega)
      obtain ⟨p1, -, p3⟩ := H1 (2 * A) _ _ A20 i1 (vo n (by omega))
      rw [← hY] at p3
      obtain ⟨q1, -, -⟩ := H2 Y _ _ Y0 i2 p3
      rw [hf.lp n hn, hf.hp n hn, (hω _).1, (hω _).2, el, eh, Eq.setCoef_bound_again (fixed_inst p1).2 p1.first, Eq.setCoef_bound_again (fixed_inst q1).2 q1.first]
      exact ⟨p1, q1⟩
  have echo : ∀ c, |σ.wet c m| ≤ K := fun c => by
    obtain ⟨i1, i2⟩ := fix (m / 32) (by omega)
    obtain ⟨-, -, p3⟩ := H1 (2 * A) _ _ A20 i1 (vo (m / 32) (by omega))
    rw [← hY] at p3
    obtain ⟨-, -, q3⟩ := H2 Y _ _ Y0 i2 p3
    rw [← hf.wet _ (by omega), ← hK] at q3
    have := q3 _ (List.mem_map.2 ⟨m % 32, List.mem_range.2 (by omega), rfl⟩)
    rw [show 32 * (m / 32) + m % 32 = m by omega] at this
    cases c
    · exact this.1
    · exact this.2
  obtain ⟨g0, g1⟩ := ramp_between (L := 32) (by norm_num) hmix m
  obtain ⟨w0, w1⟩ := ramp_between (L := 64) (by norm_num) hw m
  have W0 : 0 ≤ W := w0.trans w1
  have fin : |(play P x N).2 c m| ≤ X + K * (1 + W) := by
    rw [hf.out c m hm, Spec.widened]
    have e1 := echo false
    have e2 := echo true
    have hxm := hx c m
    generalize Spec.ramp (fun n => (P n).mix) 32 m = g at g0 g1 ⊢
    generalize Spec.ramp (fun n => (P n).width) 64 m = w at w0 w1 ⊢
    generalize σ.wet false m = l at e1 ⊢
    generalize σ.wet true m = r at e2 ⊢
    obtain ⟨a, b⟩ := abs_le.1 e1
    obtain ⟨a', b'⟩ := abs_le.1 e2
    have hmid : |(l + r) / 2| ≤ K := by rw [abs_le]; constructor <;> linarith
    have hside : |(l - r) / 2| ≤ K := by rw [abs_le]; constructor <;> linarith
    have hwid : |(l + r) / 2 + (if c then -1 else 1) * ((l - r) / 2 * w)| ≤ K * (1 + W) := by
      have s : |(if c then (-1 : ℝ) else 1) * ((l - r) / 2 * w)| ≤ K * W := by
        rw [abs_mul, abs_mul, abs_of_nonneg w0]
        have : |(if c then (-1 : ℝ) else 1)| = 1 := by cases c <;> simp
        rw [this, one_mul]
        exact mul_le_mul hside w1 w0 K0
      have := abs_add_le ((l + r) / 2) ((if c then (-1 : ℝ) else 1) * ((l - r) / 2 * w))
      linarith
    generalize (l + r) / 2 + (if c then -1 else 1) * ((l - r) / 2 * w) = q at hwid ⊢
    calc |x c m * (1 - g) + q * g| ≤ |x c m * (1 - g)| + |q * g| := abs_add_le _ _
      _ = |x c m| * (1 - g) + |q| * g := by rw [abs_mul, abs_mul, abs_of_nonneg g0, abs_of_nonneg (by linarith : 0 ≤ 1 - g)]
      _ ≤ X * 1 + K * (1 + W) * 1 := add_le_add (mul_le_mul hxm (by linarith) (by linarith) X0) (mul_le_mul hwid g1 g0 (by positivity))
      _ = _ := by ring
  rw [← hA]
  calc _ ≤ X + K * (1 + W) := fin
    _ ≤ X + M2 * (2 * M1 + 1) * (1 + A) * (1 + W) := by linarith [mul_le_mul_of_nonneg_right hKK (by linarith : 0 ≤ 1 + W)]
    _ = _ := by ring

/-! ## C235: in the effect chain -/

/-- The chorus in a slot of the effect chain: `process_only_control` does nothing (chorus.rs 39). -/
noncomputable def slot : Fx.Dsp State Empty (Params × (Bool → ℕ → ℝ)) where
  stereo := fun s r b => .ok ((process b.1 b.2 s).1, r, (b.1, (process b.1 b.2 s).2))
  control := fun s => s

/-- The blocks that have input. -/
def Spec.heard {B : Type} (bs : List (B × Bool)) : List B := (bs.filter (·.2)).map (·.1)

/-- One block after the other, all of them processed. -/
noncomputable def Spec.after (s : State) : List (Params × (Bool → ℕ → ℝ)) → State
  | [] => s
  | b :: bs => Spec.after (process b.1 b.2 s).1 bs

theorem after_run (n : ℕ) (bs : List ((Params × (Bool → ℕ → ℝ)) × Bool)) : ∀ (s : State) (c : ℕ), c + bs.length < 2 ^ 64 →
    ∃ r o, Fx.runBlocks slot s (.on c n) bs = .ok (Spec.after s (Spec.heard bs), r, o) := by
  induction bs with
  | nil => exact fun s c _ => ⟨_, _, rfl⟩
  | cons b bs ih =>
    intro s c hc
    obtain ⟨b, p⟩ := b
    rw [List.length_cons] at hc
    cases p with
    | true =>
      obtain ⟨r, o, e⟩ := ih (process b.1 b.2 s).1 0 (by omega)
      refine ⟨r, true :: o, ?_⟩
      rw [Fx.runBlocks, Fx.C37_input_processed_partial]
      simp only [slot, Res.ok_bind] at e ⊢
      rw [e]
      simp [Spec.heard, Spec.after]
    | false =>
      obtain ⟨r, o, e⟩ := ih s (c + 1) (by omega)
      refine ⟨r, false :: o, ?_⟩
      have h : Fx.processRingout slot s (.on c n) b false = .ok (s, .on (c + 1) n, b, false) := by
        simp [Fx.processRingout, Fx.ringoutHead, Fx.Ringout.incr, show c + 1 < 18446744073709551616 by omega, Fx.Ringout.counter, slot]
      rw [Fx.runBlocks, h]
      simp only [Res.ok_bind]
      rw [e]
      simp [Spec.heard]

/-- **C235** (refuted: the chorus rings out when the input ends, and is silent when the next sound begins).  In the chain a block without input passes through unchanged, however much is still stored, and time
stands still for the chorus: after any history of blocks with and without input its state is the one it would have if the blocks without had never been; so the tail that was cut off is heard when the next
sound begins, however much later. -/
theorem C235_tail_waits_refuted (n : ℕ) (s : State) (bs : List ((Params × (Bool → ℕ → ℝ)) × Bool)) (hl : bs.length + 1 < 2 ^ 64) :
    ∃ r o, Fx.runBlocks slot s (.blocks n) bs = .ok (Spec.after s (Spec.heard bs), r, o) ∧
      (∀ b, ∃ r', Fx.processRingout slot (Spec.after s (Spec.heard bs)) r b false = .ok (Spec.after s (Spec.heard bs), r', b, false)) := by
  obtain ⟨r, o, e⟩ := after_run n bs s 0 (by omega)
  refine ⟨r, o, e, fun b => ?_⟩
  have hk : slot.KeepsRingout := fun st r b st' r' b' h => by
    simp only [slot, Res.ok.injEq, Prod.mk.injEq] at h
    exact h.2.1.symm
  obtain ⟨-, hr⟩ := Fx.C37_history_partial slot hk n bs s e
  have hle : Fx.Spec.silent (bs.map Prod.snd) ≤ bs.length := by
    unfold Fx.Spec.silent
    split
    · omega
    · have := (List.takeWhile_sublist (· == false) (l := (bs.map Prod.snd).reverse)).length_le
      simpa using this
  refine ⟨.on (Fx.Spec.silent (bs.map Prod.snd) + 1) n, ?_⟩
  rw [hr]
  simp [Fx.processRingout, Fx.ringoutHead, Fx.Ringout.incr, show Fx.Spec.silent (bs.map Prod.snd) + 1 < 18446744073709551616 by omega, Fx.Ringout.counter, slot]

/-- A block, any number of silent ones, a block: as if the two had followed each other. -/
example (n : ℕ) (P : Params) (x : Bool → ℕ → ℝ) : Spec.heard ((((P, x), true) :: List.replicate n ((P, fun _ _ => 0), false)) ++ [((P, x), true)]) = [(P, x), (P, x)] := by
  simp [Spec.heard, List.filter_replicate]

end Verif.Effects.Chorus
