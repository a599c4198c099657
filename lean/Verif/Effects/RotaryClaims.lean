import Verif.Effects.Rotary
/-! # The rotary speaker: the claims C225-C230 -/
namespace Verif.Effects.Rotary
open Verif.Smooth Verif.Biquad Verif.Tables
open Verif.Effects.FreqShift (Osc toI32 splice blockOf splice_new splice_old past_splice idx toI32_of)
open Verif.Effects.DualDelay (delayOf delayOf_range written written_eq Empty' lp_stable)

/-! ## C225: indices, mono, silence -/

/-- **C225.**  Whatever the delays, reading stays inside the buffer of `2 ^ 18` samples and the kernel table of `257 * 12` coefficients, and writing inside the buffer. -/
theorem C225_in_bounds (wpos : ℤ) (k i : ℕ) (hi : i < 12) (v : ℝ) :
    index (wpos - delayOf v + k - (i : ℕ)) (2 ^ 18 - 1) < 2 ^ 18 ∧ index (wpos + k) (2 ^ 18 - 1) < 2 ^ 18 ∧
    0 ≤ sincOf (delayOf v) v + 12 - (i : ℕ) ∧ sincOf (delayOf v) v + 12 - (i : ℕ) < 257 * 12 := by
  obtain ⟨h1, h2⟩ := sincOf_eq v
  rw [idx, idx, h1]
  omega

theorem process_sum (P : Params) {x x' : Bool → ℕ → ℝ} (h : ∀ m, x false m + x true m = x' false m + x' true m) (s : State) : process P x s = process P x' s := by
  unfold process
  simp only [h]

/-- **C225.**  The effect is mono in: two inputs with the same sum of channels sound the same. -/
theorem C225_mono (ωx ωb : ℝ) (P : ℕ → Params) {x x' : Bool → ℕ → ℝ} (h : ∀ m, x false m + x true m = x' false m + x' true m) (N : ℕ) : play ωx ωb P x N = play ωx ωb P x' N := by
  induction N with
  | zero => rfl
  | succ N ih =>
    unfold play at *
    unfold playFrom
    rw [ih]
    simp only []
    rw [process_sum (P N) (x := blockOf x N) (x' := blockOf x' N) fun m => h _]

theorem empty_mono (n : ℕ) : ∀ f : Filter, Empty' f → Empty' (f.monoLoop (List.replicate n 0)).1 ∧ (f.monoLoop (List.replicate n 0)).2 = List.replicate n 0 := by
  induction n with
  | zero => exact fun f h => ⟨h, rfl⟩
  | succ n ih =>
    intro f h
    rw [List.replicate_succ]
    simp only [Filter.monoLoop]
    obtain ⟨h0, h1⟩ := h
    have e : Empty' (f.coeffProcess.left 0).1 ∧ (f.coeffProcess.left 0).2 = 0 := by simp [Empty', Filter.left, Filter.coeffProcess, chan, h0, h1]
    obtain ⟨a, b⟩ := ih _ e.1
    rw [b, e.2]
    exact ⟨a, rfl⟩

theorem empty_mono_block {f : Filter} (h : Empty' f) (n : ℕ) : Empty' (f.processBlockMono (List.replicate n 0)).1 ∧ (f.processBlockMono (List.replicate n 0)).2 = List.replicate n 0 := by
  obtain ⟨⟨a, a'⟩, b⟩ := empty_mono n f h
  have z : flush 0 = 0 := by unfold flush; simp
  refine ⟨?_, b⟩
  simp only [Filter.processBlockMono, Filter.flushLeft, Empty', a, a', z, and_self]

theorem tap_zero (sinc : ℕ → ℝ) {b : ℕ → ℝ} (v : ℝ) {m : ℕ} (h : ∀ j < m, b j = 0) : Spec.tap sinc b v m = 0 := by
  rw [tap_congr sinc v (g := fun _ => 0) h]
  unfold Spec.tap FreqShift.Spec.past
  simp

/-- **C225.**  Channels in opposite phase (silence among them) give exact silence, from the start. -/
theorem C225_silence (ωx ωb : ℝ) (P : ℕ → Params) {x : Bool → ℕ → ℝ} (hx : ∀ m, x true m = -x false m) (N : ℕ) (c : Bool) {m : ℕ} (hm : m < 32 * N) : (play ωx ωb P x N).2 c m = 0 := by
  obtain ⟨σ, hf⟩ := C225_flow ωx ωb P x N
  have mz : ∀ m, Spec.mono x m = 0 := fun m => by unfold Spec.mono; rw [hx]; ring
  have e0 : ∀ ω, Empty' (Filter.new.coeffLp2b ω 0.707) := fun ω => DualDelay.empty_lp _ ⟨rfl, rfl⟩
  have zr : ∀ u : ℕ → ℝ, ∀ n, ((List.range 32).map fun k => u (32 * n + k)) = List.replicate 32 0 ↔ ∀ k < 32, u (32 * n + k) = 0 := fun u n => by
    rw [List.eq_replicate_iff]
    constructor
    · intro h k hk
      exact h.2 _ (List.mem_map.2 ⟨k, List.mem_range.2 hk, rfl⟩)
    · intro h
      refine ⟨by simp, fun b hb => ?_⟩
      obtain ⟨k, hk, rfl⟩ := List.mem_map.1 hb
      exact h k (List.mem_range.1 hk)
  have key : ∀ n ≤ N, (Empty' (σ.xover n) ∧ Empty' (σ.lowbass n)) ∧ ∀ m < 32 * n, σ.low m = 0 ∧ σ.sub m = 0 := by
    intro n
    induction n with
    | zero => exact fun _ => ⟨⟨by rw [hf.x0]; exact e0 _, by rw [hf.b0]; exact e0 _⟩, fun m h => absurd h (by omega)⟩
    | succ n ih =>
      intro hn
      obtain ⟨⟨i1, i2⟩, i3⟩ := ih (by omega)
      have l := hf.low n (by omega)
      rw [(zr (Spec.mono x) n).2 fun k _ => mz _] at l
      obtain ⟨a, b⟩ := empty_mono_block i1 32
      rw [l] at a b
      have lz := (zr σ.low n).1 b
      have q := hf.sub n (by omega)
      rw [(zr σ.low n).2 lz] at q
      obtain ⟨a', b'⟩ := empty_mono_block i2 32
      rw [q] at a' b'
      have qz := (zr σ.sub n).1 b'
      refine ⟨⟨a, a'⟩, fun m hm => ?_⟩
      by_cases h : m < 32 * n
      · exact i3 m h
      · obtain ⟨k, rfl⟩ : ∃ k, m = 32 * n + k := ⟨m - 32 * n, by omega⟩
        exact ⟨lz k (by omega), qz k (by omega)⟩
  obtain ⟨-, kz⟩ := key N le_rfl
  rw [hf.out c m hm, tap_zero _ _ fun j hj => ?_, (kz m hm).1, (kz m hm).2]
  · ring
  · unfold Spec.high; rw [mz, (kz j (by omega)).1]; ring

/-- The hypothesis is met by a loud input. -/
example : ∃ x : Bool → ℕ → ℝ, (∀ m, x true m = -x false m) ∧ x false 3 = 1 := ⟨fun c _ => if c then -1 else 1, fun _ => by simp, by simp⟩

/-! ## C226: delay and gain of the horn -/

/-- The scalar product of the direction of the microphone and that of the horn. -/
noncomputable def inner (θ : ℝ) (c : Bool) : ℝ := (if c then 1 else -1) * Real.sin θ + 2 * Real.cos θ

theorem dist_sq (θ : ℝ) (c : Bool) : Spec.dist θ c = Real.sqrt (6 - 2 * inner θ c) := by
  unfold Spec.dist Spec.mic Spec.tip inner
  congr 1
  have := Real.sin_sq_add_cos_sq θ
  cases c <;> simp <;> nlinarith

theorem inner_le (θ : ℝ) (c : Bool) : |inner θ c| ≤ Real.sqrt 5 := by
  refine Real.abs_le_sqrt ?_
  have := Real.sin_sq_add_cos_sq θ
  unfold inner
  cases c <;> simp <;> nlinarith [sq_nonneg (2 * Real.sin θ - Real.cos θ), sq_nonneg (2 * Real.sin θ + Real.cos θ)]

theorem sqrt5 : Real.sqrt 5 ^ 2 = 5 ∧ 2 < Real.sqrt 5 ∧ Real.sqrt 5 < 3 := by
  refine ⟨Real.sq_sqrt (by norm_num), ?_, ?_⟩
  · rw [Real.lt_sqrt (by norm_num)]; norm_num
  · rw [Real.sqrt_lt' (by norm_num)]; norm_num

theorem dist_range (θ : ℝ) (c : Bool) : Real.sqrt 5 - 1 ≤ Spec.dist θ c ∧ Spec.dist θ c ≤ Real.sqrt 5 + 1 := by
  obtain ⟨h1, h2⟩ := abs_le.1 (inner_le θ c)
  obtain ⟨s, s2, s3⟩ := sqrt5
  rw [dist_sq]
  constructor
  · exact Real.le_sqrt_of_sq_le (by nlinarith)
  · rw [Real.sqrt_le_left (by linarith)]; nlinarith

theorem facing_eq (θ : ℝ) (c : Bool) : Spec.facing θ c = (inner θ c - 1) / Spec.dist θ c := by
  unfold Spec.facing
  congr 1
  unfold Spec.mic Spec.tip inner
  have := Real.sin_sq_add_cos_sq θ
  cases c <;> simp <;> nlinarith

theorem facing_range (θ : ℝ) (c : Bool) : -1 ≤ Spec.facing θ c ∧ Spec.facing θ c ≤ 1 := by
  obtain ⟨d1, d2⟩ := dist_range θ c
  obtain ⟨s, s2, s3⟩ := sqrt5
  obtain ⟨h1, h2⟩ := abs_le.1 (inner_le θ c)
  have dp : 0 < Spec.dist θ c := by linarith
  have dq : Spec.dist θ c ^ 2 = 6 - 2 * inner θ c := by rw [dist_sq, Real.sq_sqrt (by linarith)]
  rw [facing_eq, le_div_iff₀ dp, div_le_iff₀ dp]
  have : |inner θ c - 1| ≤ Spec.dist θ c := abs_le_of_sq_le_sq (by rw [dq]; nlinarith) dp.le
  obtain ⟨a, b⟩ := abs_le.1 this
  constructor <;> linarith

theorem glide_mem {u : ℕ → ℝ} {lo hi : ℝ} (h : ∀ n, lo ≤ u n ∧ u n ≤ hi) (m : ℕ) : lo ≤ Spec.glide u m ∧ Spec.glide u m ≤ hi := by
  unfold Spec.glide
  obtain ⟨a, b⟩ := h (m / 32)
  obtain ⟨a', b'⟩ := h (m / 32 - 1)
  have t0 : (0 : ℝ) ≤ ((m % 32 : ℕ) : ℝ) / 32 := by positivity
  have t1 : ((m % 32 : ℕ) : ℝ) / 32 ≤ 1 := by
    rw [div_le_one (by norm_num)]
    exact_mod_cast (Nat.mod_lt m (by norm_num)).le
  generalize ((m % 32 : ℕ) : ℝ) / 32 = t at *
  constructor <;> nlinarith

/-- **C226.**  While the Doppler delay stays between `lo` and `hi` (samples per unit of distance), the horn is at every sample of every run delayed by between `lo (√5 - 1)` and `hi (√5 + 1)`
samples, on both channels, at every rate. -/
theorem C226_delay (P : ℕ → Params) {lo hi : ℝ} (h0 : 0 ≤ lo) (h : ∀ n, lo ≤ (P n).delay ∧ (P n).delay ≤ hi) (c : Bool) (m : ℕ) :
    lo * (Real.sqrt 5 - 1) ≤ Spec.glide (Spec.delay P c) m ∧ Spec.glide (Spec.delay P c) m ≤ hi * (Real.sqrt 5 + 1) := by
  refine glide_mem (fun n => ?_) m
  obtain ⟨d1, d2⟩ := dist_range (Spec.angle P n) c
  obtain ⟨-, s2, -⟩ := sqrt5
  obtain ⟨a, b⟩ := h n
  unfold Spec.delay
  constructor
  · exact mul_le_mul a d1 (by linarith) (by linarith)
  · exact mul_le_mul b d2 (by linarith) (by linarith)

/-- **C226.**  While the amplitude modulation stays between 0 and `A`, the horn's gain is at every sample of every run between `1 - 1.2 A` and 1. -/
theorem C226_gain (P : ℕ → Params) {A : ℝ} (h : ∀ n, 0 ≤ (P n).amp ∧ (P n).amp ≤ A) (c : Bool) (m : ℕ) :
    1 - 1.2 * A ≤ Spec.glide (Spec.gain P c) m ∧ Spec.glide (Spec.gain P c) m ≤ 1 := by
  refine glide_mem (fun n => ?_) m
  obtain ⟨d1, d2⟩ := facing_range (Spec.angle P n) c
  obtain ⟨a, b⟩ := h n
  unfold Spec.gain
  constructor <;> nlinarith

/-- Parameters that never change. -/
def still (t d a : ℝ) (sinc : ℕ → ℝ) : ℕ → Params := fun _ => ⟨t, d, a, 1, sinc⟩

theorem exists_angle (c : Bool) : ∃ θ : ℝ, inner θ c = -Real.sqrt 5 := by
  obtain ⟨s, s2, s3⟩ := sqrt5
  have key : ∀ a b : ℝ, a ^ 2 + b ^ 2 = 1 → ∃ θ : ℝ, Real.sin θ = a ∧ Real.cos θ = b := fun a b h => by
    have ne : (⟨b, a⟩ : ℂ) ≠ 0 := fun h0 => by
      have := congrArg Complex.re h0; have := congrArg Complex.im h0
      simp at *; simp_all
    have n1 : ‖(⟨b, a⟩ : ℂ)‖ = 1 := by
      rw [Complex.norm_def, Complex.normSq_mk, show b * b + a * a = 1 by nlinarith, Real.sqrt_one]
    refine ⟨Complex.arg ⟨b, a⟩, ?_, ?_⟩
    · rw [Complex.sin_arg, n1, div_one]
    · rw [Complex.cos_arg ne, n1, div_one]
  have p : (0 : ℝ) < Real.sqrt 5 := by linarith
  obtain ⟨θ, h1, h2⟩ := key (-(if c then 1 else -1) / Real.sqrt 5) (-2 / Real.sqrt 5) (by
    rw [div_pow, div_pow, s]; cases c <;> norm_num)
  refine ⟨θ, ?_⟩
  unfold inner
  rw [h1, h2]
  cases c <;> · simp; field_simp; nlinarith

/-- **C226, refuted in part.**  The gain of a horn should not turn negative; at full modulation, there is a rate at which it reaches exactly `-0.2` on the channel we like: the treble comes
back inverted. -/
theorem C226_never_inverts_refuted (c : Bool) (d : ℝ) (sinc : ℕ → ℝ) : ∃ t : ℝ, Spec.glide (Spec.gain (still t d 1 sinc) c) 64 = -0.2 := by
  obtain ⟨θ, hθ⟩ := exists_angle c
  obtain ⟨s, s2, s3⟩ := sqrt5
  refine ⟨θ / 32, ?_⟩
  have ha : Spec.angle (still (θ / 32) d 1 sinc) 1 = θ := by simp [Spec.angle, still]; ring
  have hd : Spec.dist θ c = Real.sqrt 5 + 1 := by
    rw [dist_sq, hθ, show (6 : ℝ) - 2 * -Real.sqrt 5 = (Real.sqrt 5 + 1) ^ 2 by nlinarith, Real.sqrt_sq (by linarith)]
  have hf : Spec.facing θ c = -1 := by
    rw [facing_eq, hθ, hd, div_eq_iff (by linarith)]; ring
  unfold Spec.glide
  norm_num
  unfold Spec.gain
  rw [ha, hf]
  norm_num [still]

/-- The delay reaches its upper end, too. -/
example (c : Bool) : ∃ θ, Spec.dist θ c = Real.sqrt 5 + 1 := by
  obtain ⟨θ, hθ⟩ := exists_angle c
  obtain ⟨s, s2, s3⟩ := sqrt5
  exact ⟨θ, by rw [dist_sq, hθ, show (6 : ℝ) - 2 * -Real.sqrt 5 = (Real.sqrt 5 + 1) ^ 2 by nlinarith, Real.sqrt_sq (by linarith)]⟩

/-! ## C227: the bass rotor -/

/-- **C227, refuted.**  The bass rotor is meant to turn at 0.7 of the speed of the horn.  In `process` it turns 32 times as fast as that, whatever the automation; where only the controls run
(`process_only_control`) it turns at 0.7. -/
theorem C227_seven_tenths_refuted (P : ℕ → Params) (N : ℕ) : Spec.bassAngle P (32 * N) = 32 * (0.7 * Spec.angle P N) ∧
    (∀ (s : State) (θ φ : ℝ) (p : Params), At θ s.lfo → At φ s.lf → At (θ + 32 * p.turn) (control p s).lfo ∧ At (φ + 0.7 * (32 * p.turn)) (control p s).lf) ∧
    ∃ t : ℝ, 0 < t ∧ Spec.bassAngle (still t 0 0 fun _ => 0) 32 ≠ 0.7 * Spec.angle (still t 0 0 fun _ => 0) 1 := by
  have key : ∀ P : ℕ → Params, ∀ N, Spec.bassAngle P (32 * N) = 32 * (0.7 * Spec.angle P N) := fun P N => by
    induction N with
    | zero => simp [Spec.bassAngle, Spec.angle]
    | succ N ih =>
      have : Spec.angle P (N + 1) = Spec.angle P N + 32 * (P N).turn := by unfold Spec.angle; rw [Finset.sum_range_succ]
      rw [show 32 * (N + 1) = 32 * N + 32 by ring, bassAngle_block P N le_rfl, ih, this]
      push_cast; ring
  refine ⟨key P N, fun s θ φ p h1 h2 => ?_, 1, one_pos, ?_⟩
  · unfold control
    simp only []
    rw [at_rate h1, at_rate h2, at_step, at_step, show φ + 0.7 * p.turn * 32 = φ + 0.7 * (32 * p.turn) by ring, show θ + p.turn * 32 = θ + 32 * p.turn by ring]
    exact ⟨⟨rfl, rfl⟩, rfl, rfl⟩
  · have := key (still 1 0 0 fun _ => 0) 1
    rw [mul_one] at this
    rw [this]
    norm_num [Spec.angle, still]

/-! ## C228: boundedness, and the end of the sound -/

/-- A filter fed block after block. -/
def Chain (f : ℕ → Filter) (u v : ℕ → ℝ) (N : ℕ) : Prop :=
  ∀ n < N, (f n).processBlockMono ((List.range 32).map fun k => u (32 * n + k)) = (f (n + 1), (List.range 32).map fun k => v (32 * n + k))

theorem chain_calls {f : ℕ → Filter} {u v : ℕ → ℝ} {N : ℕ} (h : Chain f u v N) (M : ℕ) : ∀ j, M + j ≤ N →
    Spec.output ((f M).calls ((List.range' M j).map fun n => .mono ((List.range 32).map fun k => u (32 * n + k)))) .left = (List.range (32 * j)).map fun i => v (32 * M + i) := by
  intro j
  induction j generalizing M with
  | zero => intro _; rfl
  | succ j ih =>
    intro hj
    rw [List.range'_succ, List.map_cons, output_cons]
    simp only [Filter.call]
    rw [h M (by omega), show Spec.output (f (M + 1), (List.range 32).map fun k => v (32 * M + k), []) .left = (List.range 32).map fun k => v (32 * M + k) from rfl]
    simp only []
    rw [ih (M + 1) (by omega), show 32 * (j + 1) = 32 + 32 * j by ring, List.range_add, List.map_append, List.map_map]
    congr 1
    refine List.map_congr_left fun i _ => ?_
    simp only [Function.comp]
    exact congrArg v (by omega)

theorem chain_bound {c : Cf} (hc : Spec.Stable c) : ∃ K r : ℝ, 0 ≤ K ∧ 0 ≤ r ∧ r < 1 ∧ ∀ (f : ℕ → Filter) (u v : ℕ → ℝ) (M N : ℕ) (X : ℝ), Chain f u v N → Rests c (f M) → 0 ≤ X →
    (∀ m, 32 * M ≤ m → m < 32 * N → |u m| ≤ X) → ∀ m, 32 * M ≤ m → m < 32 * N → |v m| ≤ K * (r ^ (m - 32 * M) * (|(f M).reg0.1| + |(f M).reg1.1|) + X + 1e-30) := by
  obtain ⟨K, r, K0, r0, r1, hb⟩ := calls_bounded hc
  refine ⟨K, r, K0, r0, r1, fun f u v M N X h hr X0 hu m m0 m1 => ?_⟩
  have hM : M ≤ N := by omega
  have e := chain_calls h M (N - M) (by omega)
  have := hb (f M) .left ((List.range' M (N - M)).map fun n => .mono ((List.range 32).map fun k => u (32 * n + k))) X hr
    (fun k hk => by obtain ⟨n, -, rfl⟩ := List.mem_map.1 hk; trivial)
    (fun y hy => by
      obtain ⟨k, hk, hy⟩ := List.mem_flatMap.1 hy
      obtain ⟨n, hn, rfl⟩ := List.mem_map.1 hk
      simp only [Spec.input] at hy
      obtain ⟨i, hi, rfl⟩ := List.mem_map.1 hy
      have := List.mem_range.1 hi
      obtain ⟨n1, n2⟩ := List.mem_range'_1.1 hn
      exact hu _ (by omega) (by omega)) X0 (m - 32 * M) (by rw [e]; simp; omega)
  rw [e] at this
  simp only [List.getD_eq_getElem?_getD] at this
  rw [List.getElem?_eq_getElem (by simp; omega)] at this
  simp only [List.getElem_map, List.getElem_range, Option.getD_some] at this
  rwa [show 32 * M + (m - 32 * M) = m by omega] at this

theorem chain_rests {c : Cf} {f : ℕ → Filter} {u v : ℕ → ℝ} {N : ℕ} (h : Chain f u v N) (h0 : Rests c (f 0)) : ∀ n ≤ N, Rests c (f n) := by
  intro n
  induction n with
  | zero => exact fun _ => h0
  | succ n ih =>
    intro hn
    have := rests_call (ih (by omega)) (k := .mono ((List.range 32).map fun k => u (32 * n + k))) trivial
    simp only [Filter.call] at this
    rwa [h n (by omega)] at this

theorem tap_le {sinc b : ℕ → ℝ} {S B : ℝ} (S0 : 0 ≤ S) (B0 : 0 ≤ B) (hS : ∀ i, |sinc i| ≤ S) (v : ℝ) {n : ℕ} (h : ∀ m < n, n ≤ m + 2 ^ 18 → |b m| ≤ B) : |Spec.tap sinc b v n| ≤ 12 * (S * B) := by
  unfold Spec.tap
  obtain ⟨d1, d2⟩ := delayOf_range v
  refine (Finset.abs_sum_le_sum_abs _ _).trans ?_
  have : ∀ i ∈ Finset.range 12, |sinc (Spec.offset v + 12 - i) * FreqShift.Spec.past b ((n : ℤ) - delayOf v - (i : ℕ))| ≤ S * B := fun i hi => by
    have := Finset.mem_range.1 hi
    rw [abs_mul]
    refine mul_le_mul (hS _) ?_ (abs_nonneg _) S0
    unfold FreqShift.Spec.past
    split
    · exact h _ (by omega) (by omega)
    · simpa using B0
  refine (Finset.sum_le_sum this).trans ?_
  simp

theorem out_le {g t l q z G T L Q : ℝ} (hg : |g| ≤ G) (ht : |t| ≤ T) (hl : |l| ≤ L) (hq : |q| ≤ Q) : |g * t + (q + (l - q) * (0.6 * Real.sin z + 0.3))| ≤ G * T + (Q + (L + Q)) := by
  have s1 := Real.neg_one_le_sin z
  have s2 := Real.sin_le_one z
  have a : |0.6 * Real.sin z + 0.3| ≤ 1 := by rw [abs_le]; constructor <;> linarith
  have G0 := (abs_nonneg g).trans hg
  have b : |g * t| ≤ G * T := by rw [abs_mul]; exact mul_le_mul hg ht (abs_nonneg _) G0
  have d : |l - q| ≤ L + Q := (abs_sub _ _).trans (add_le_add hl hq)
  have e : |(l - q) * (0.6 * Real.sin z + 0.3)| ≤ L + Q := by
    rw [abs_mul]
    calc _ ≤ |l - q| * 1 := mul_le_mul_of_nonneg_left a (abs_nonneg _)
      _ ≤ L + Q := by linarith
  exact (abs_add_le _ _).trans (add_le_add b ((abs_add_le _ _).trans (add_le_add hq e)))

theorem flow_chains {ωx ωb : ℝ} {P : ℕ → Params} {x y : Bool → ℕ → ℝ} {σ : Signals} {N : ℕ} (h : Spec.Flow ωx ωb P x y σ N) : Chain σ.xover (Spec.mono x) σ.low N ∧ Chain σ.lowbass σ.low σ.sub N :=
  ⟨h.low, h.sub⟩

/-- The parameters are in their usual range and the kernel is bounded by `S`. -/
def Spec.Usual (P : ℕ → Params) (S : ℝ) : Prop := ∀ n, (0 ≤ (P n).amp ∧ (P n).amp ≤ 1) ∧ ∀ i, |(P n).sinc i| ≤ S

theorem lp_rests {ω : ℝ} (h : 0 < ω ∧ ω ≠ Real.pi) : ∃ c, Spec.Stable c ∧ Rests c (Filter.new.coeffLp2b ω 0.707) ∧ (Filter.new.coeffLp2b ω 0.707).reg0 = (0, 0) ∧ (Filter.new.coeffLp2b ω 0.707).reg1 = (0, 0) := by
  obtain ⟨a0, a1, a2, b0, b1, b2, e, hs⟩ := lp_stable h
  refine ⟨_, hs, ?_⟩
  rw [e]
  obtain ⟨r0, r1, -⟩ := Distortion.setCoef_regs Filter.new a0 a1 a2 b0 b1 b2
  exact ⟨setCoef_first Filter.new rfl .., r0, r1⟩

theorem mono_le {x : Bool → ℕ → ℝ} {X : ℝ} {m : ℕ} (h : ∀ c, |x c m| ≤ X) : |Spec.mono x m| ≤ X := by
  unfold Spec.mono
  have := abs_add_le (x false m) (x true m)
  have a := h false; have b := h true
  rw [abs_div, abs_two]; linarith

/-- **C228.**  For crossover frequencies below half the sample rate the output is bounded: by a constant times the loudest input (and a speck of `1e-30`, the filters' rounding to zero), for every
automation, every rate, for ever. -/
theorem C228_bounded {ωx ωb : ℝ} (hx : 0 < ωx ∧ ωx ≠ Real.pi) (hb : 0 < ωb ∧ ωb ≠ Real.pi) {S : ℝ} (S0 : 0 ≤ S) : ∃ K : ℝ, 0 ≤ K ∧ ∀ (P : ℕ → Params), Spec.Usual P S → ∀ (x : Bool → ℕ → ℝ) (X : ℝ) (N : ℕ),
    (∀ c m, |x c m| ≤ X) → ∀ c m, m < 32 * N → |(play ωx ωb P x N).2 c m| ≤ K * (X + 1e-30) := by
  obtain ⟨c1, s1, r1, z1, w1⟩ := lp_rests hx
  obtain ⟨c2, s2, r2, z2, w2⟩ := lp_rests hb
  obtain ⟨K1, ρ1, k1, p1, q1, h1⟩ := chain_bound s1
  obtain ⟨K2, ρ2, k2, p2, q2, h2⟩ := chain_bound s2
  refine ⟨12 * (S * (1 + K1)) + (K2 * (K1 + 1) + (K1 + K2 * (K1 + 1))), by positivity, fun P hP x X N hX c m hm => ?_⟩
  have X0 : 0 ≤ X := (abs_nonneg _).trans (hX false 0)
  have t0 : (0 : ℝ) ≤ 1e-30 := by norm_num
  obtain ⟨σ, hf⟩ := C225_flow ωx ωb P x N
  have low : ∀ m < 32 * N, |σ.low m| ≤ K1 * (X + 1e-30) := fun m hm => by
    have := h1 σ.xover _ σ.low 0 N X hf.low (by rw [hf.x0]; exact r1) X0 (fun m _ _ => mono_le fun c => hX c m) m (by omega) hm
    rw [hf.x0, z1, w1] at this
    simpa using this
  have sub : ∀ m < 32 * N, |σ.sub m| ≤ K2 * (K1 * (X + 1e-30) + 1e-30) := fun m hm => by
    have := h2 σ.lowbass _ σ.sub 0 N (K1 * (X + 1e-30)) hf.sub (by rw [hf.b0]; exact r2) (by positivity) (fun m _ h => low m h) m (by omega) hm
    rw [hf.b0, z2, w2] at this
    simpa using this
  have high : ∀ j < m, |Spec.high x σ j| ≤ X + K1 * (X + 1e-30) := fun j hj =>
    (abs_sub _ _).trans (add_le_add (mono_le fun c => hX c j) (low j (by omega)))
  have tap := tap_le S0 (by positivity : 0 ≤ X + K1 * (X + 1e-30)) (hP (m / 32)).2 (Spec.glide (Spec.delay P c) m) (fun j hj _ => high j hj)
  have gain : |Spec.glide (Spec.gain P c) m| ≤ 1 := by
    obtain ⟨a, b⟩ := C226_gain P (fun n => (hP n).1) c m
    rw [abs_le]; constructor <;> linarith
  rw [hf.out c m hm]
  refine (out_le gain tap (low m hm) (sub m hm)).trans ?_
  have e1 : S * 1e-30 ≥ 0 := by positivity
  have e2 : K2 * (K1 * (X + 1e-30) + 1e-30) ≤ K2 * (K1 + 1) * (X + 1e-30) := by nlinarith [mul_nonneg k2 X0]
  nlinarith

/-- Usual parameters exist. -/
example : Spec.Usual (still 1 20 1 fun i => if i = 7 then 1 else 0) 1 := fun n => ⟨by norm_num [still], fun i => by simp only [still]; split <;> simp⟩

theorem block_inj {u v : ℕ → ℝ} {n : ℕ} (h : ((List.range 32).map fun k => u (32 * n + k)) = (List.range 32).map fun k => v (32 * n + k)) : ∀ k < 32, u (32 * n + k) = v (32 * n + k) := fun k hk => by
  have := congrArg (fun l => l[k]?) h
  simpa [hk] using this

theorem flow_unique {ωx ωb : ℝ} {P : ℕ → Params} {x y y' : Bool → ℕ → ℝ} {σ σ' : Signals} {N N' : ℕ} (h : Spec.Flow ωx ωb P x y σ N) (h' : Spec.Flow ωx ωb P x y' σ' N') :
    ∀ n, n ≤ N → n ≤ N' → σ.xover n = σ'.xover n ∧ σ.lowbass n = σ'.lowbass n := by
  intro n
  induction n with
  | zero => exact fun _ _ => ⟨h.x0.trans h'.x0.symm, h.b0.trans h'.b0.symm⟩
  | succ n ih =>
    intro hn hn'
    obtain ⟨i1, i2⟩ := ih (by omega) (by omega)
    have a := h.low n (by omega)
    have a' := h'.low n (by omega)
    rw [i1, a'] at a
    have b := h.sub n (by omega)
    have b' := h'.sub n (by omega)
    have e := congrArg Prod.snd a
    simp only [] at e
    rw [i2, ← e, b'] at b
    exact ⟨(congrArg Prod.fst a).symm, (congrArg Prod.fst b).symm⟩

theorem small_pow {r : ℝ} (r0 : 0 ≤ r) (r1 : r < 1) (C : ℝ) (C0 : 0 ≤ C) {ε : ℝ} (hε : 0 < ε) : ∃ n : ℕ, ∀ m ≥ n, C * r ^ m ≤ ε := by
  obtain ⟨n, hn⟩ := exists_pow_lt_of_lt_one (show 0 < ε / (C + 1) by positivity) r1
  refine ⟨n, fun m hm => ?_⟩
  have h1 : r ^ m ≤ r ^ n := pow_le_pow_of_le_one r0 r1.le hm
  have h2 : r ^ m ≤ ε / (C + 1) := h1.trans hn.le
  calc C * r ^ m ≤ C * (ε / (C + 1)) := mul_le_mul_of_nonneg_left h2 C0
    _ = ε * (C / (C + 1)) := by ring
    _ ≤ ε * 1 := mul_le_mul_of_nonneg_left ((div_le_one (by linarith)).2 (by linarith)) hε.le
    _ = ε := mul_one _

/-- **C228.**  Once the input has ended the sound ends: whatever was played, under every automation, the output falls to a level of the order of `1e-30`. -/
theorem C228_fades {ωx ωb : ℝ} (hx : 0 < ωx ∧ ωx ≠ Real.pi) (hb : 0 < ωb ∧ ωb ≠ Real.pi) {S : ℝ} (S0 : 0 ≤ S) : ∃ K : ℝ, 0 ≤ K ∧ ∀ (P : ℕ → Params), Spec.Usual P S → ∀ (x : Bool → ℕ → ℝ) (M : ℕ),
    (∀ c m, M ≤ m → x c m = 0) → ∀ ε > 0, ∃ M', ∀ N c m, M' ≤ m → m < 32 * N → |(play ωx ωb P x N).2 c m| ≤ K * 1e-30 + ε := by
  obtain ⟨c1, s1, r1, z1, w1⟩ := lp_rests hx
  obtain ⟨c2, s2, r2, z2, w2⟩ := lp_rests hb
  obtain ⟨K1, ρ1, k1, p1, q1, h1⟩ := chain_bound s1
  obtain ⟨K2, ρ2, k2, p2, q2, h2⟩ := chain_bound s2
  have t0 : (0 : ℝ) ≤ 1e-30 := by norm_num
  refine ⟨12 * (S * K1) + (K2 * (K1 + 1) + (K1 + K2 * (K1 + 1))), by positivity, fun P hP x M hM ε hε => ?_⟩
  obtain ⟨ε1, he1⟩ : ∃ ε1, ε1 = ε / (2 * (12 * S + 2 * K2 + 1)) := ⟨_, rfl⟩
  have D0 : 0 < 12 * S + 2 * K2 + 1 := by positivity
  have e1 : 0 < ε1 := by rw [he1]; positivity
  have e1' : (12 * S + 2 * K2 + 1) * ε1 = ε / 2 := by rw [he1]; field_simp
  -- the crossover from block `M` on
  obtain ⟨σ0, f0⟩ := C225_flow ωx ωb P x M
  obtain ⟨n1, hn1⟩ := small_pow p1 q1 (K1 * (|(σ0.xover M).reg0.1| + |(σ0.xover M).reg1.1|)) (by positivity) e1
  obtain ⟨M2, hM2⟩ : ∃ M2, M2 = M + n1 := ⟨_, rfl⟩
  have low : ∀ (σ : Signals) (y : Bool → ℕ → ℝ) (N : ℕ), Spec.Flow ωx ωb P x y σ N → ∀ m, 32 * M2 ≤ m → m < 32 * N → |σ.low m| ≤ K1 * 1e-30 + ε1 := fun σ y N hf m m0 m1 => by
    have := h1 σ.xover _ σ.low M N 0 hf.low (chain_rests hf.low (by rw [hf.x0]; exact r1) M (by omega)) le_rfl
      (fun m a _ => mono_le fun c => by rw [hM c m (by omega), abs_zero]) m (by omega) m1
    rw [(flow_unique hf f0 M (by omega) le_rfl).1] at this
    have := hn1 (m - 32 * M) (by omega)
    linarith
  obtain ⟨σ2, f2⟩ := C225_flow ωx ωb P x M2
  obtain ⟨n2, hn2⟩ := small_pow p2 q2 (K2 * (|(σ2.lowbass M2).reg0.1| + |(σ2.lowbass M2).reg1.1|)) (by positivity) (show 0 < ε / 4 by positivity)
  have sub : ∀ (σ : Signals) (y : Bool → ℕ → ℝ) (N : ℕ), Spec.Flow ωx ωb P x y σ N → ∀ m, 32 * M2 + n2 ≤ m → m < 32 * N → |σ.sub m| ≤ K2 * (K1 + 1) * 1e-30 + K2 * ε1 + ε / 4 := fun σ y N hf m m0 m1 => by
    have := h2 σ.lowbass _ σ.sub M2 N (K1 * 1e-30 + ε1) hf.sub (chain_rests hf.sub (by rw [hf.b0]; exact r2) M2 (by omega)) (by positivity)
      (fun m a b => low σ y N hf m a b) m (by omega) m1
    rw [(flow_unique hf f2 M2 (by omega) le_rfl).2] at this
    have := hn2 (m - 32 * M2) (by omega)
    linarith
  refine ⟨32 * M2 + n2 + 2 ^ 18, fun N c m m0 m1 => ?_⟩
  obtain ⟨σ, hf⟩ := C225_flow ωx ωb P x N
  have tap := tap_le S0 (by positivity : 0 ≤ K1 * 1e-30 + ε1) (hP (m / 32)).2 (Spec.glide (Spec.delay P c) m) (b := Spec.high x σ) (n := m) (fun j hj hj' => by
    have : Spec.mono x j = 0 := by unfold Spec.mono; rw [hM false j (by omega), hM true j (by omega)]; ring
    unfold Spec.high
    rw [this, zero_sub, abs_neg]
    exact low σ _ N hf j (by omega) (by omega))
  have gain : |Spec.glide (Spec.gain P c) m| ≤ 1 := by
    obtain ⟨a, b⟩ := C226_gain P (fun n => (hP n).1) c m
    rw [abs_le]; constructor <;> linarith
  rw [hf.out c m m1]
  refine (out_le gain tap (low σ _ N hf m (by omega) m1) (sub σ _ N hf m (by omega) m1)).trans ?_
  nlinarith

/-! ## C229: what the controls do not do -/

/-- **C229, refuted in part.**  The return level has no effect: the output is the same, at every sample, whatever it is set to. -/
theorem C229_return_level_scales_refuted (ωx ωb : ℝ) (P : ℕ → Params) (r : ℕ → ℝ) (x : Bool → ℕ → ℝ) (N : ℕ) :
    play ωx ωb (fun n => ⟨(P n).turn, (P n).delay, (P n).amp, r n, (P n).sinc⟩) x N = play ωx ωb P x N := by
  unfold play
  induction N with
  | zero => rfl
  | succ N ih => unfold playFrom; rw [ih]; rfl

theorem delay_zero : delayOf 0 = 32 ∧ Spec.offset 0 = 12 * 255 := by
  have a : toI32 0 = 0 := by unfold toI32; simp
  have d : delayOf 0 = 32 := by unfold delayOf; rw [a]; norm_num
  refine ⟨d, ?_⟩
  unfold Spec.offset
  rw [d]
  norm_num

/-- **C229, refuted in part.**  The horn is never heard earlier than 32 samples after the bass, not even with the Doppler effect turned off: in the first block there is bass only, and with the
Doppler control at zero the horn is the treble of 32 to 43 samples ago. -/
theorem C229_no_doppler_no_delay_refuted (ωx ωb : ℝ) (P : ℕ → Params) (x : Bool → ℕ → ℝ) (N : ℕ) : ∃ σ, Spec.Flow ωx ωb P x (play ωx ωb P x N).2 σ N ∧
    (∀ c m, m < 32 → m < 32 * N → (play ωx ωb P x N).2 c m = σ.sub m + (σ.low m - σ.sub m) * (0.6 * Real.sin (Spec.bassAngle P m) + 0.3)) ∧
    ((∀ n, (P n).delay = 0 ∧ (P n).amp = 0) → ∀ c m, m < 32 * N → (play ωx ωb P x N).2 c m =
      (∑ i ∈ Finset.range 12, (P (m / 32)).sinc (3072 - i) * FreqShift.Spec.past (Spec.high x σ) ((m : ℤ) - 32 - (i : ℕ))) +
      (σ.sub m + (σ.low m - σ.sub m) * (0.6 * Real.sin (Spec.bassAngle P m) + 0.3))) := by
  obtain ⟨σ, hf⟩ := C225_flow ωx ωb P x N
  refine ⟨σ, hf, fun c m hm hN => ?_, fun hP c m hN => ?_⟩
  · rw [hf.out c m hN]
    have : Spec.tap (P (m / 32)).sinc (Spec.high x σ) (Spec.glide (Spec.delay P c) m) m = 0 := by
      unfold Spec.tap
      obtain ⟨d1, -⟩ := delayOf_range (Spec.glide (Spec.delay P c) m)
      refine Finset.sum_eq_zero fun i _ => ?_
      unfold FreqShift.Spec.past
      rw [if_neg (by omega), mul_zero]
    rw [this, mul_zero, zero_add]
  · rw [hf.out c m hN]
    have e1 : Spec.glide (Spec.gain P c) m = 1 := by
      have : ∀ n, Spec.gain P c n = 1 := fun n => by unfold Spec.gain; rw [(hP n).2]; ring
      unfold Spec.glide; rw [this, this]; ring
    have e2 : Spec.glide (Spec.delay P c) m = 0 := by
      have : ∀ n, Spec.delay P c n = 0 := fun n => by unfold Spec.delay; rw [(hP n).1]; ring
      unfold Spec.glide; rw [this, this]; ring
    rw [e1, e2, one_mul]
    congr 1
    unfold Spec.tap
    rw [delay_zero.1, delay_zero.2]

/-! ## C230: the kernel -/

/-- **C230, refuted.**  The kernel table has one row of twelve coefficients per fraction of a sample, so reading should begin at the beginning of a row.  There is a Doppler setting within the
range (at 48 kHz) with which the coefficients of the first block, on both channels, straddle two rows. -/
theorem C230_one_row_refuted : ∃ d : ℝ, 0 ≤ d ∧ d ≤ 48000 * 0.0018 ∧ ∀ c m, m < 32 → Spec.offset (Spec.glide (Spec.delay (still 0 d 0 fun _ => 0) c) m) % 12 = 3 := by
  have hs : Real.sqrt 2 ^ 2 = 2 := Real.sq_sqrt (by norm_num)
  have s1 : 1 < Real.sqrt 2 := by rw [Real.lt_sqrt (by norm_num)]; norm_num
  have s0 : 0 < Real.sqrt 2 := by linarith
  refine ⟨(50 + 511 / 1024) / Real.sqrt 2, by positivity, ?_, fun c m hm => ?_⟩
  · rw [div_le_iff₀ s0]; nlinarith
  · have hd : ∀ n, Spec.delay (still 0 ((50 + 511 / 1024) / Real.sqrt 2) 0 fun _ => 0) c n = 50 + 511 / 1024 := fun n => by
      have ha : Spec.angle (still 0 ((50 + 511 / 1024) / Real.sqrt 2) 0 fun _ => 0) n = 0 := by simp [Spec.angle, still]
      unfold Spec.delay
      rw [ha, dist_sq]
      have : inner 0 c = 2 := by simp [inner]
      rw [this, show (6 : ℝ) - 2 * 2 = 2 by norm_num]
      simp only [still]
      field_simp
    have hg : Spec.glide (Spec.delay (still 0 ((50 + 511 / 1024) / Real.sqrt 2) 0 fun _ => 0) c) m = 50 + 511 / 1024 := by
      unfold Spec.glide; rw [hd, hd]; ring
    rw [hg]
    have ht : toI32 (50 + 511 / 1024) = 50 := by
      rw [toI32_of (by rw [abs_of_nonneg (by norm_num)]; norm_num), if_pos (by norm_num), Int.floor_eq_iff]
      norm_num
    have hdl : delayOf (50 + 511 / 1024) = 50 := by unfold delayOf; rw [ht]; norm_num
    have ho : Spec.offset (50 + 511 / 1024) = 1539 := by
      unfold Spec.offset
      rw [hdl, Nat.floor_eq_iff (by positivity)]
      norm_num
    rw [ho]

/-! ## C231: suspending -/

theorem b1_pos {ω : ℝ} (h0 : 0 < ω) (h1 : ω ≤ Real.pi / 2) : 0 ≤ lp2bG1 ω 0.707 ∧ lp2bG1 ω 0.707 * (1 + Real.cos ω) < 1 - Real.cos ω := by
  have hp := Real.pi_gt_three
  have g0 : 0 ≤ lp2bG1 ω 0.707 := le_min zero_le_one (by positivity)
  refine ⟨g0, ?_⟩
  have c0 : 0 ≤ Real.cos ω := Real.cos_nonneg_of_mem_Icc ⟨by linarith, h1⟩
  -- the filter's `g1` is small
  have den : (ω * ω) * (ω * ω) / lp2bDen ω 0.707 ≤ (ω * ω / 5) ^ 2 := by
    have d : 25 ≤ lp2bDen ω 0.707 := by
      unfold lp2bDen
      generalize hw : ω * ω = w
      generalize hq : Real.pi * Real.pi = q
      have w0 : 0 ≤ w := by rw [← hw]; positivity
      have q9 : 9 < q := by rw [← hq]; nlinarith
      rw [show q * Real.pi * Real.pi = q * q by rw [← hq]; ring]
      have k : (1 / 0.707 - 2 : ℝ) ≥ -1 := by norm_num
      nlinarith [mul_nonneg w0 (by linarith : (0 : ℝ) ≤ q), sq_nonneg (2 * w - q)]
    rw [div_le_iff₀ (by linarith)]
    have : 0 ≤ (ω * ω) * (ω * ω) := by positivity
    nlinarith
  have g1 : lp2bG1 ω 0.707 ≤ ω ^ 2 / 10 := by
    refine (min_le_right _ _).trans ?_
    have := Real.sqrt_le_sqrt den
    rw [Real.sqrt_sq (by positivity)] at this
    nlinarith
  -- the cosine is small enough
  have cu : Real.cos ω ≤ 1 - 2 / Real.pi ^ 2 * ω ^ 2 := Real.cos_le_one_sub_mul_cos_sq (by rw [abs_of_pos h0]; linarith)
  have pi10 : Real.pi ^ 2 < 10 := by nlinarith [Real.pi_lt_d2]
  have c2 : ω ^ 2 / 5 < 2 / Real.pi ^ 2 * ω ^ 2 := by
    have : (1 : ℝ) / 5 < 2 / Real.pi ^ 2 := by rw [div_lt_div_iff₀ (by norm_num) (by positivity)]; linarith
    nlinarith [sq_pos_of_pos h0]
  have : lp2bG1 ω 0.707 * (1 + Real.cos ω) ≤ ω ^ 2 / 10 * 2 := mul_le_mul g1 (by linarith [Real.cos_le_one ω]) (by linarith) (by positivity)
  linarith

theorem lp_coef {ω : ℝ} (h0 : 0 < ω) (h1 : ω ≤ Real.pi / 2) : ∃ c, Rests c (Filter.new.coeffLp2b ω 0.707) ∧ Empty' (Filter.new.coeffLp2b ω 0.707) ∧ 0 ≤ c.b0 ∧ 0 < c.b1 ∧ c.a1 ≤ 0 := by
  obtain ⟨g0, g1⟩ := b1_pos h0 h1
  have hp := Real.pi_pos
  have c0 : 0 ≤ Real.cos ω := Real.cos_nonneg_of_mem_Icc ⟨by linarith, h1⟩
  have c1 := Real.cos_le_one ω
  have s0 : 0 ≤ Real.sin ω := Real.sin_nonneg_of_nonneg_of_le_pi h0.le (by linarith)
  refine ⟨(Filter.new.coeffLp2b ω 0.707).cf, ?_, DualDelay.empty_lp _ ⟨rfl, rfl⟩, ?_⟩
  · obtain ⟨a0, a1, a2, b0, b1, b2, e⟩ := DualDelay.lp_shape ω
    rw [e, rests_cf (setCoef_first Filter.new rfl ..)]
    exact setCoef_first Filter.new rfl ..
  · unfold Filter.coeffLp2b
    rw [if_neg (by linarith)]
    simp only []
    rw [rests_cf (setCoef_first Filter.new rfl ..)]
    simp only [Spec.normal]
    generalize lp2bG1 ω 0.707 = g at *
    have al : 0 < 1 + Real.sin ω / (2 * 0.707) := by positivity
    generalize 1 + Real.sin ω / (2 * 0.707) = a at *
    refine ⟨div_nonneg ?_ al.le, div_pos (by linarith) al, div_nonpos_of_nonpos_of_nonneg (by linarith) al.le⟩
    have : 0 ≤ 2 * Real.sqrt g * Real.sqrt (2 - g) * Real.sin ω := by positivity
    have : 0 ≤ g * (1 + Real.cos ω) := mul_nonneg g0 (by linarith)
    linarith

theorem loop_append (xs ys : List ℝ) : ∀ f : Filter, f.monoLoop (xs ++ ys) = (((f.monoLoop xs).1.monoLoop ys).1, (f.monoLoop xs).2 ++ ((f.monoLoop xs).1.monoLoop ys).2) := by
  induction xs with
  | nil => exact fun f => rfl
  | cons x xs ih => intro f; simp only [List.cons_append, Filter.monoLoop]; rw [ih]

theorem loop_rests {c : Cf} {f : Filter} (h : Rests c f) (xs : List ℝ) : Rests c (f.monoLoop xs).1 := by
  have := rests_call h (k := .mono xs) trivial
  exact this

/-- A filter at rest and empty, after a block that is silent but for its last sample. -/
theorem impulse {c : Cf} {f : Filter} (h : Rests c f) (he : Empty' f) (T : ℝ) :
    (f.processBlockMono (List.replicate 31 0 ++ [T])).1.reg0.1 = flush (T * c.b1 - c.a1 * (T * c.b0)) ∧ (f.processBlockMono (List.replicate 31 0 ++ [T])).2 = List.replicate 31 0 ++ [T * c.b0] ∧
    Rests c (f.processBlockMono (List.replicate 31 0 ++ [T])).1 := by
  obtain ⟨⟨e0, e1⟩, eo⟩ := empty_mono 31 f he
  have hr := rests_cf (rests_process (loop_rests h (List.replicate 31 0)))
  have hb : f.processBlockMono (List.replicate 31 0 ++ [T]) = (((f.monoLoop (List.replicate 31 0)).1.coeffProcess.left T).1.flushLeft,
      List.replicate 31 0 ++ [((f.monoLoop (List.replicate 31 0)).1.coeffProcess.left T).2]) := by
    unfold Filter.processBlockMono
    rw [loop_append, eo]
    rfl
  refine ⟨?_, ?_, rests_call h (k := .mono _) trivial⟩
  · rw [hb]
    simp only [Filter.flushLeft, Filter.left, hr, chan]
    simp only [Filter.coeffProcess, e0, e1]
    congr 1; ring
  · rw [hb]
    simp only [Filter.left, hr, chan]
    simp only [Filter.coeffProcess, e0, e1]
    simp

theorem first_out {f : Filter} (x : ℝ) (xs : List ℝ) : (f.processBlockMono (x :: xs)).2.getD 0 0 = x * f.coeffProcess.cf.b0 + f.reg0.1 := by
  simp [Filter.processBlockMono, Filter.monoLoop, Filter.left, chan, Filter.coeffProcess]

theorem range_tail (g : ℕ → ℝ) : (List.range 32).map g = g 0 :: (List.range 31).map fun k => g (k + 1) := by
  rw [List.range_succ_eq_map, List.map_cons, List.map_map]; rfl

/-- **C231, refuted.**  Suspending the effect should silence it.  It empties the delay line and leaves the crossovers as they are: after a click, and `suspend`, an input of silence comes out
as a sound. -/
theorem C231_suspend_silences_refuted {ωx ωb : ℝ} (x0 : 0 < ωx) (x1 : ωx ≤ Real.pi / 2) (b0 : 0 < ωb) (b1 : ωb ≤ Real.pi / 2) (d a : ℝ) (sinc : ℕ → ℝ) (c : Bool) :
    ∃ x : Bool → ℕ → ℝ, 0 < (process (still 0 d a sinc 1) (fun _ _ => 0) (suspend (play ωx ωb (still 0 d a sinc) x 1).1)).2 c 0 := by
  obtain ⟨cx, rx, ex, bx0, bx1, ax⟩ := lp_coef x0 x1
  obtain ⟨cb, rb, eb, bb0, bb1, ab⟩ := lp_coef b0 b1
  have r0 : 0 < cx.b1 - cx.a1 * cx.b0 := by nlinarith
  obtain ⟨T, hT⟩ : ∃ T, T = 1 / (cx.b1 - cx.a1 * cx.b0) := ⟨_, rfl⟩
  have T0 : 0 < T := by rw [hT]; positivity
  obtain ⟨s, hs⟩ : ∃ s, s = (play ωx ωb (still 0 d a sinc) (fun _ m => if m = 31 then T else 0) 1).1 := ⟨_, rfl⟩
  refine ⟨fun _ m => if m = 31 then T else 0, ?_⟩
  rw [← hs]
  have em : ((List.range 32).map fun k => (0.5 : ℝ) * (blockOf (fun _ m => if m = 31 then T else 0) 0 false k + blockOf (fun _ m => if m = 31 then T else 0) 0 true k)) = List.replicate 31 0 ++ [T] := by
    rw [List.range_succ, List.map_append]
    congr 1
    · rw [List.eq_replicate_iff]
      refine ⟨by simp, fun b hb => ?_⟩
      obtain ⟨k, hk, rfl⟩ := List.mem_map.1 hb
      have := List.mem_range.1 hk
      simp only [blockOf]
      rw [if_neg (by omega)]; norm_num
    · simp [blockOf]; ring
  obtain ⟨i1, i2, i3⟩ := impulse rx ex T
  obtain ⟨j1, -, j3⟩ := impulse rb eb (T * cx.b0)
  have hp : play ωx ωb (still 0 d a sinc) (fun _ m => if m = 31 then T else 0) 1 =
      ((process (still 0 d a sinc 0) (blockOf (fun _ m => if m = 31 then T else 0) 0) (init ωx ωb .new)).1,
        fun c => splice 0 (fun _ => 0) ((process (still 0 d a sinc 0) (blockOf (fun _ m => if m = 31 then T else 0) 0) (init ωx ωb .new)).2 c)) := rfl
  have sx : s.xover = ((Filter.new.coeffLp2b ωx 0.707).processBlockMono (List.replicate 31 0 ++ [T])).1 := by
    rw [hs, hp]
    unfold process init State.new
    simp only [em]
  have sb : s.lowbass = ((Filter.new.coeffLp2b ωb 0.707).processBlockMono (List.replicate 31 0 ++ [T * cx.b0])).1 := by
    rw [hs, hp]
    unfold process init State.new
    simp only [em, i2]
  have sl : At 0 s.lf := by
    rw [hs, hp]
    unfold process init State.new
    have h0 : At 0 Osc.default := by simp [At, Osc.default]
    simp only [still]
    rw [at_rate h0, at_steps]
    simp [At]
  have hx1 : s.xover.reg0.1 = 1 := by
    rw [sx, i1, show T * cx.b1 - cx.a1 * (T * cx.b0) = T * (cx.b1 - cx.a1 * cx.b0) by ring, hT, one_div_mul_cancel r0.ne']
    unfold flush; rw [if_neg (by norm_num)]
  have hb1 : 0 ≤ s.lowbass.reg0.1 := by
    rw [sb, j1]
    have : 0 ≤ T * cx.b0 * cb.b1 - cb.a1 * (T * cx.b0 * cb.b0) := by
      have e1 : 0 ≤ T * cx.b0 * cb.b1 := by positivity
      have e2 : 0 ≤ T * cx.b0 * cb.b0 := by positivity
      nlinarith
    unfold flush
    split
    · exact le_rfl
    · exact this
  have hb0 : s.lowbass.coeffProcess.cf = cb := by
    rw [sb]; exact rests_cf (rests_process j3)
  obtain ⟨p, hpp⟩ : ∃ p, p = s.xover.processBlockMono ((List.range 32).map fun k => (0.5 : ℝ) * (0 + 0)) := ⟨_, rfl⟩
  have low : p.2.getD 0 0 = 1 := by
    rw [hpp, range_tail, first_out, hx1]; ring
  have pl : p.2.length = 32 := by rw [hpp, mono_len]; simp
  obtain ⟨q, hq⟩ : ∃ q, q = s.lowbass.processBlockMono p.2 := ⟨_, rfl⟩
  have sub : 0 ≤ q.2.getD 0 0 := by
    rw [hq]
    rcases hl : p.2 with _ | ⟨y, ys⟩
    · rw [hl] at pl; simp at pl
    · have : y = 1 := by rw [hl] at low; simpa using low
      rw [first_out, this, hb0]; linarith
  have hl : Loop 0 (fun _ => 0) (fun _ => 0) (32 * 0) := ⟨rfl, fun m _ _ => by simp [FreqShift.Spec.past]⟩
  have rd : ∀ (dl : LiPol ℝ) (w : ℕ → ℝ), readAt (still 0 d a sinc 1) (suspend s) dl w 0 = 0 := fun dl w => by
    have := read_eq (w := w) hl (show 0 < 32 by norm_num) sinc (dl.steps 0).v
    unfold readAt suspend
    exact this.trans (tap_zero _ _ fun _ _ => rfl)
  unfold process
  simp only [rd]
  simp only [suspend, ← hpp, ← hq, low]
  simp only [still]
  rw [at_rate sl, Function.iterate_zero, id]
  simp only [Real.sin_zero, mul_zero, zero_mul, zero_add]
  linarith

/-- Frequencies as at 48 kHz are in the range. -/
example : (0 : ℝ) < 2 * Real.pi * 800 / 48000 ∧ 2 * Real.pi * 800 / 48000 ≤ Real.pi / 2 := ⟨by positivity, by linarith [Real.pi_pos]⟩

end Verif.Effects.Rotary
