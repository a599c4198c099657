import Verif.Effects.FreqShift
/-!
# Claims about the frequency shifter (C196-C199)
-/
namespace Verif.Effects.FreqShift
open Verif.Smooth Verif.Halfrate Verif.Tables Verif.Dsp

/-! ## Constant parameters -/

/-- By how much a channel is shifted. -/
noncomputable def Spec.shift (P : Params) (c : Bool) : ℝ :=
  if c then (if |P.mult - 1| < 1 / 2 ^ 23 then P.omega else P.omega * P.mult ^ 2) else P.omega

noncomputable def rate1 (P : Params) (c : Bool) : ℝ := Real.pi * 0.5 - min 0 (Spec.shift P c)
noncomputable def rate2 (P : Params) (c : Bool) : ℝ := Real.pi * 0.5 + max 0 (Spec.shift P c)

theorem shift_right (P : Params) : Spec.shift P true = omegaR P := by
  unfold Spec.shift omegaR
  simp only [if_true]
  by_cases h : Locked P
  · rw [if_pos h]; exact if_pos h
  · rw [if_neg h]; refine (if_neg h).trans (by ring)

theorem rates_differ (P : Params) (c : Bool) : rate2 P c - rate1 P c = Spec.shift P c := by
  unfold rate1 rate2
  rcases le_total 0 (Spec.shift P c) with h | h
  · rw [min_eq_left h, max_eq_right h]; ring
  · rw [min_eq_right h, max_eq_left h]; ring

/-- An oscillator of rate `w` after `n` samples from phase 0. -/
noncomputable def at' (w : ℝ) (n : ℕ) : Osc := ⟨Real.sin (w * n), -Real.cos (w * n), Real.cos w, Real.sin w⟩

theorem at_process (w : ℝ) (n : ℕ) : (at' w n).process = at' w (n + 1) := by
  unfold at' Osc.process
  have e : w * ((n + 1 : ℕ) : ℝ) = w * n + w := by push_cast; ring
  rw [e, Real.sin_add, Real.cos_add]
  simp only [Osc.mk.injEq, and_true]
  constructor <;> ring

theorem at_iter (w : ℝ) (n k : ℕ) : Osc.process^[k] (at' w n) = at' w (n + k) := by
  induction k with
  | zero => rfl
  | succ k ih => rw [Function.iterate_succ_apply', ih, at_process]; rfl

theorem at_set {w : ℝ} {n : ℕ} {o : Osc} (h1 : o.r = Real.sin (w * n)) (h2 : o.i = -Real.cos (w * n)) : o.setRate w = at' w n := by
  unfold Osc.setRate at'
  have : Real.sin (w * n) * Real.sin (w * n) + -Real.cos (w * n) * -Real.cos (w * n) = 1 := by nlinarith [Real.sin_sq_add_cos_sq (w * n)]
  simp only [h1, h2, this, Real.sqrt_one, div_one, mul_one]

theorem tune1_at {P : Params} {o : Bool → Osc} {n : ℕ} (h : ∀ c, (o c).r = Real.sin (rate1 P c * n) ∧ (o c).i = -Real.cos (rate1 P c * n)) (c : Bool) :
    tune1 P o c = at' (rate1 P c) n := by
  have l : (o false).setRate (Real.pi * 0.5 - min 0 P.omega) = at' (rate1 P false) n := at_set (h false).1 (h false).2
  cases c with
  | false => exact l
  | true =>
    unfold tune1
    simp only [if_true]
    rw [l, ← shift_right]
    by_cases hl : Locked P
    · have e : rate1 P true = rate1 P false := by
        unfold rate1; rw [shift_right]; unfold omegaR; rw [if_pos hl]; rfl
      rw [if_pos hl]
      refine at_set ?_ ?_
      · show 0.01 * Real.sin (rate1 P false * n) + (1 - 0.01) * (o true).r = Real.sin (rate1 P true * n)
        rw [(h true).1, e]; norm_num; ring
      · show 0.01 * -Real.cos (rate1 P false * n) + (1 - 0.01) * (o true).i = -Real.cos (rate1 P true * n)
        rw [(h true).2, e]; norm_num; ring
    · rw [if_neg hl]
      exact at_set (h true).1 (h true).2

theorem tune2_at {P : Params} {o : Bool → Osc} {n : ℕ} (h : ∀ c, (o c).r = Real.sin (rate2 P c * n) ∧ (o c).i = -Real.cos (rate2 P c * n)) (c : Bool) :
    tune2 P o c = at' (rate2 P c) n := by
  have l : (o false).setRate (Real.pi * 0.5 + max 0 P.omega) = at' (rate2 P false) n := at_set (h false).1 (h false).2
  cases c with
  | false => exact l
  | true =>
    unfold tune2
    simp only [if_true]
    rw [l, ← shift_right]
    by_cases hl : Locked P
    · have e : rate2 P true = rate2 P false := by
        unfold rate2; rw [shift_right]; unfold omegaR; rw [if_pos hl]; rfl
      rw [if_pos hl]
      refine at_set ?_ ?_
      · show 0.01 * Real.sin (rate2 P false * n) + (1 - 0.01) * (o true).r = Real.sin (rate2 P true * n)
        rw [(h true).1, e]; norm_num; ring
      · show 0.01 * -Real.cos (rate2 P false * n) + (1 - 0.01) * (o true).i = -Real.cos (rate2 P true * n)
        rw [(h true).2, e]; norm_num; ring
    · rw [if_neg hl]
      exact at_set (h true).1 (h true).2

/-- The lagged delay after `n` samples. -/
noncomputable def tau (T : ℝ) (n : ℕ) : ℝ := T / 40 + 39 / 40 * T * 0.996 ^ n

/-- The lag with that value. -/
noncomputable def lagAt (T : ℝ) (n : ℕ) : Lag ℝ := ⟨tau T n, T, false, 0.0001, 1 - 4 / 1000⟩

theorem lag_iter (T : ℝ) (n k : ℕ) : Lag.process^[k] (lagAt T n) = lagAt T (n + k) := by
  induction k with
  | zero => rfl
  | succ k ih =>
    rw [Function.iterate_succ_apply', ih]
    unfold lagAt Lag.process tau
    simp only [Lag.mk.injEq, and_true]
    rw [show n + (k + 1) = n + k + 1 by omega, pow_succ]
    generalize (0.996 : ℝ) ^ (n + k) = z
    norm_num
    ring

theorem tau_le {T : ℝ} (n : ℕ) : |tau T n| ≤ |T| := by
  unfold tau
  have z1 : (0.996 : ℝ) ^ n ≤ 1 := pow_le_one₀ (by norm_num) (by norm_num)
  have z0 : (0 : ℝ) ≤ 0.996 ^ n := by positivity
  rw [show T / 40 + 39 / 40 * T * 0.996 ^ n = T * (1 / 40 + 39 / 40 * 0.996 ^ n) by ring, abs_mul]
  refine mul_le_of_le_one_right (abs_nonneg _) ?_
  rw [abs_le]; constructor <;> linarith

/-- The controls after `N` blocks of constant parameters. -/
structure Steady (P : Params) (N : ℕ) (s : State) : Prop where
  o1 : ∀ c, s.o1 c = at' (rate1 P c) (32 * N)
  o2 : ∀ c, s.o2 c = at' (rate2 P c) (32 * N)
  fb : s.feedback.newV = P.feedback ∧ s.feedback.first = false
  time : s.time = lagAt P.time (32 * N)
  mix : s.mix.target = P.mix * (1 - (3 / 4) ^ (N + 1)) ∧ s.mix.blockSize = 64

/-- What sample `n` sees. -/
structure Spec.Steady (P : Params) (n : ℕ) (k : Ctl) : Prop where
  delay : k.delay = tau P.time (n + 1)
  fb : k.fb = P.feedback
  gain : |k.gain - P.mix| ≤ |P.mix| * (3 / 4) ^ (n / 32 + 1)
  p : ∀ c, k.p c = (Real.sin (rate1 P c * ((n : ℝ) + 1)), -Real.cos (rate1 P c * ((n : ℝ) + 1)))
  q : ∀ c, k.q c = (Real.sin (rate2 P c * ((n : ℝ) + 1)), -Real.cos (rate2 P c * ((n : ℝ) + 1)))

theorem steady_start {P : Params} {s : State} (h : start P = .ok s) : Steady P 0 s := by
  obtain ⟨s', e, -, -, -, h1, h2, h3, h4, h5⟩ := start_ok P
  rw [h] at e
  cases e
  refine ⟨fun c => ?_, fun c => ?_, ?_, ?_, ?_⟩
  · rw [h4]; exact tune1_at (fun c => by simp [Osc.default]) c
  · rw [h5]; exact tune2_at (fun c => by simp [Osc.default]) c
  · rw [h2]; exact ⟨rfl, rfl⟩
  · rw [h3]
    simp only [Lag.newValue, Lag.new, Lag.default, if_true, lagAt, tau, Lag.mk.injEq, and_true]
    norm_num
    ring
  · rw [h1]
    refine ⟨?_, rfl⟩
    simp only [LipolPs.setTargetSmoothed, LipolPs.default]
    norm_num
    ring

theorem steady_update {P : Params} {N : ℕ} {s : State} (h : Steady P N s) :
    (∀ c, (update P s).o1 c = at' (rate1 P c) (32 * N)) ∧ (∀ c, (update P s).o2 c = at' (rate2 P c) (32 * N)) ∧ (update P s).time = lagAt P.time (32 * N) ∧
    (update P s).mix = ⟨P.mix * (1 - (3 / 4) ^ (N + 2)), P.mix * (1 - (3 / 4) ^ (N + 1)), 64⟩ ∧
    ∀ k, ((update P s).feedback.steps k).v = P.feedback ∧ ((update P s).feedback.steps k).newV = P.feedback ∧ ((update P s).feedback.steps k).first = false := by
  obtain ⟨h1, h2, h3, h4, h5⟩ := h
  refine ⟨fun c => tune1_at (fun c => by rw [h1 c]; exact ⟨rfl, rfl⟩) c, fun c => tune2_at (fun c => by rw [h2 c]; exact ⟨rfl, rfl⟩) c, ?_, ?_, fun k => ?_⟩
  · show s.time.newValue P.time = _
    rw [h4]; rfl
  · show s.mix.setTargetSmoothed P.mix = _
    simp only [LipolPs.setTargetSmoothed, h5.1, h5.2, LipolPs.mk.injEq, and_true]
    rw [pow_succ (3 / 4 : ℝ) (N + 1)]
    ring
  · have key : ∀ k, ((update P s).feedback.steps k).v = P.feedback ∧ ((update P s).feedback.steps k).newV = P.feedback ∧ ((update P s).feedback.steps k).first = false ∧
        ((update P s).feedback.steps k).dv = 0 := by
      intro k
      induction k with
      | zero =>
        show (s.feedback.newValue P.feedback).v = _ ∧ _
        simp only [LiPol.newValue, h3.1, h3.2]
        simp [LiPol.steps, update, LiPol.newValue, h3.1, h3.2]
      | succ k ih =>
        obtain ⟨a, b, c, d⟩ := ih
        simp only [LiPol.steps, LiPol.process]
        exact ⟨by rw [a, d, add_zero], b, c, d⟩
    exact ⟨(key k).1, (key k).2.1, (key k).2.2.1⟩

theorem steady_step {P : Params} {N : ℕ} {s s' : State} (h : Steady P N s) (ha : Advanced P s s') : Steady P (N + 1) s' := by
  obtain ⟨a1, a2, a3, a4, a5⟩ := steady_update h
  refine ⟨fun c => ?_, fun c => ?_, ?_, ?_, ?_⟩
  · rw [ha.o1]; show Osc.process^[32] _ = _; rw [a1 c, at_iter]; rfl
  · rw [ha.o2]; show Osc.process^[32] _ = _; rw [a2 c, at_iter]; rfl
  · rw [ha.feedback]; exact (a5 32).2
  · rw [ha.time, a3, lag_iter]; rfl
  · rw [ha.mix, a4]; exact ⟨rfl, rfl⟩

theorem steady_ctl {P : Params} {N : ℕ} {s : State} (h : Steady P N s) {k : ℕ} (hk : k < 32) : Spec.Steady P (32 * N + k) (ctl P s k) := by
  obtain ⟨a1, a2, a3, a4, a5⟩ := steady_update h
  refine ⟨?_, (a5 (k + 1)).1, ?_, fun c => ?_, fun c => ?_⟩
  · show (Lag.process^[k + 1] (update P s).time).v = _
    rw [a3, lag_iter]; rfl
  · show |(update P s).mix.gain k - P.mix| ≤ _
    rw [a4, show (32 * N + k) / 32 = N by omega]
    simp only [LipolPs.gain]
    have f0 : (0 : ℝ) ≤ ((k % 8 : ℕ) : ℝ) := Nat.cast_nonneg _
    have f1 : ((k % 8 : ℕ) : ℝ) ≤ 7 := by
      have : k % 8 ≤ 7 := by omega
      exact_mod_cast this
    have e : P.mix * (1 - (3 / 4) ^ (N + 1)) + (P.mix * (1 - (3 / 4) ^ (N + 2)) - P.mix * (1 - (3 / 4) ^ (N + 1))) * (((k % 8 : ℕ) : ℝ) + 1) / 64 - P.mix =
        P.mix * (3 / 4) ^ (N + 1) * -(1 - (((k % 8 : ℕ) : ℝ) + 1) / 256) := by
      rw [pow_succ (3 / 4 : ℝ) (N + 1)]; ring
    rw [e, abs_mul, abs_mul, abs_of_nonneg (show (0 : ℝ) ≤ (3 / 4) ^ (N + 1) by positivity)]
    refine mul_le_of_le_one_right (by positivity) ?_
    rw [abs_neg, abs_le]
    constructor <;> linarith
  · show ((Osc.process^[k + 1] ((update P s).o1 c)).r, (Osc.process^[k + 1] ((update P s).o1 c)).i) = _
    rw [a1 c, at_iter]
    unfold at'
    have : ((32 * N + (k + 1) : ℕ) : ℝ) = ((32 * N + k : ℕ) : ℝ) + 1 := by push_cast; ring
    rw [this]
  · show ((Osc.process^[k + 1] ((update P s).o2 c)).r, (Osc.process^[k + 1] ((update P s).o2 c)).i) = _
    rw [a2 c, at_iter]
    unfold at'
    have : ((32 * N + (k + 1) : ℕ) : ℝ) = ((32 * N + k : ℕ) : ℝ) + 1 := by push_cast; ring
    rw [this]

/-- The flow of a run with constant parameters. -/
theorem steady_flow {P : Params} (hT : |P.time| < 2 ^ 22) (x : Bool → ℕ → ℝ) (N : ℕ) :
    ∃ s y σ, play (fun _ => P) x N = .ok (s, y) ∧ Spec.Flow (fun _ => P) x y σ (32 * N) ∧ ∀ n < 32 * N, Spec.Steady P n (σ.ctl n) := by
  obtain ⟨s, y, σ, e, -, hI, hR⟩ := flow (P := fun _ => P) x (Steady P) (Spec.Steady P) (fun s h => steady_start h) (fun N s s' h ha => steady_step h ha)
    (fun N s k h hk => ⟨steady_ctl h hk, by rw [(steady_ctl h hk).delay]; exact (tau_le _).trans_lt hT⟩) N
  exact ⟨s, y, σ, e, hI.flow, hR⟩

/-! ## The delay (C198) -/

/-- The delay the effect settles on, in whole samples, and the part of the kernel it then uses. -/
noncomputable def Spec.settled (T : ℝ) : ℤ := max 44 (min ⌊T / 40⌋ (2 ^ 18 - 13))
noncomputable def Spec.row (T : ℝ) : ℕ := if T / 40 < 44 then 12 * 255 else 0

theorem tau_tends (T : ℝ) : Filter.Tendsto (tau T) Filter.atTop (nhds (T / 40)) := by
  have := (tendsto_pow_atTop_nhds_zero_of_lt_one (show (0 : ℝ) ≤ 0.996 by norm_num) (by norm_num)).const_mul (39 / 40 * T)
  rw [mul_zero] at this
  have := this.const_add (T / 40)
  rw [add_zero] at this
  exact this

theorem tau_gt {T : ℝ} (h : 0 < T) (n : ℕ) : T / 40 < tau T n := by
  unfold tau
  have : (0 : ℝ) < 39 / 40 * T * 0.996 ^ n := by positivity
  linarith

theorem settles {T : ℝ} (h0 : 0 < T) (h1 : T < 2 ^ 22) : ∃ n0, ∀ n ≥ n0, delayOf (tau T n) = Spec.settled T ∧ Spec.offset (tau T n) = Spec.row T := by
  have fl : T / 40 < ⌊T / 40⌋ + 1 := Int.lt_floor_add_one _
  obtain ⟨m1, k1⟩ := Filter.eventually_atTop.1 ((tau_tends T).eventually (gt_mem_nhds fl))
  obtain ⟨m2, k2⟩ : ∃ m2, ∀ n ≥ m2, T / 40 < 44 → tau T n < 44 := by
    by_cases h : T / 40 < 44
    · obtain ⟨m, k⟩ := Filter.eventually_atTop.1 ((tau_tends T).eventually (gt_mem_nhds h))
      exact ⟨m, fun n hn _ => k n hn⟩
    · exact ⟨0, fun n _ hh => absurd hh h⟩
  refine ⟨max m1 m2, fun n hn => ?_⟩
  have lo := tau_gt h0 n
  have hi := k1 n ((le_max_left ..).trans hn)
  have bd : |tau T n| < 2 ^ 24 := (tau_le n).trans_lt (by rw [abs_of_pos h0]; linarith)
  have f0 : 0 ≤ tau T n := by linarith
  have fe : ⌊tau T n⌋ = ⌊T / 40⌋ := Int.floor_eq_iff.2 ⟨(Int.floor_le _).trans lo.le, hi⟩
  have de : delayOf (tau T n) = Spec.settled T := by
    unfold delayOf Spec.settled
    rw [toI32_of bd, if_pos f0, fe]
  refine ⟨de, ?_⟩
  unfold Spec.offset Spec.row
  rw [de]
  by_cases h : T / 40 < 44
  · rw [if_pos h, if_pos]
    have : (44 : ℤ) ≤ Spec.settled T := le_max_left ..
    have : (44 : ℝ) ≤ Spec.settled T := by exact_mod_cast this
    have := k2 n ((le_max_right ..).trans hn) h
    linarith
  · rw [if_neg h, if_neg]
    push Not at h ⊢
    refine lt_of_le_of_lt ?_ lo
    have : Spec.settled T ≤ ⌊T / 40⌋ := by
      unfold Spec.settled
      have : (44 : ℤ) ≤ ⌊T / 40⌋ := Int.le_floor.2 (by exact_mod_cast h)
      omega
    exact Int.le_floor.1 this

/-- **C198.**  The delay.  With constant parameters and a delay parameter of `T` samples, whatever the input and the other parameters: after a while every sample is read at a delay of
`T / 40` samples, cut to a whole number (and held between 44 and 2^18 - 13), not of `T`. -/
theorem C198_delay_is_a_fortieth {P : Params} (h0 : 0 < P.time) (h1 : P.time < 2 ^ 22) : ∃ n0, ∀ (x : Bool → ℕ → ℝ) (N : ℕ),
    ∃ s y σ, play (fun _ => P) x N = .ok (s, y) ∧ Spec.Flow (fun _ => P) x y σ (32 * N) ∧
      ∀ c n, n0 ≤ n → n < 32 * N → σ.read c n = ∑ i ∈ Finset.range 12, Spec.past (σ.stored c) ((n : ℤ) - Spec.settled P.time - (i : ℕ)) * P.sinc (Spec.row P.time + 12 - i) := by
  obtain ⟨n0, hn⟩ := settles h0 h1
  refine ⟨n0, fun x N => ?_⟩
  obtain ⟨s, y, σ, e, hf, hr⟩ := steady_flow (P := P) (by rw [abs_of_pos h0]; exact h1) x N
  refine ⟨s, y, σ, e, hf, fun c n h h' => ?_⟩
  rw [hf.read c n h', (hr n h').delay]
  obtain ⟨d, o⟩ := hn (n + 1) (by omega)
  unfold Spec.tap
  rw [d, o]

/-- **C198.**  The fraction of the delay is ignored: two delays between the same whole numbers are the same delay, for every buffer. -/
theorem C198_fraction_ignored (P : Params) (s : State) (t t' : Lag ℝ) {d : ℤ} (hd : 44 ≤ d) (hd' : d ≤ 2 ^ 18 - 13) (k : ℕ)
    (h : (d : ℝ) < (Lag.process^[k + 1] t).v ∧ (Lag.process^[k + 1] t).v < d + 1) (h' : (d : ℝ) < (Lag.process^[k + 1] t').v ∧ (Lag.process^[k + 1] t').v < d + 1) :
    readAt P { s with time := t } k = readAt P { s with time := t' } k ∧ (readAt P { s with time := t } k).isOk := by
  have d1 : (44 : ℝ) ≤ d := by exact_mod_cast hd
  have d2 : (d : ℝ) ≤ 2 ^ 18 - 13 := by exact_mod_cast hd'
  have key : ∀ v : ℝ, (d : ℝ) < v → v < d + 1 → delayOf v = d ∧ sincOf (delayOf v) v = .ok 0 := fun v a b => by
    have bd : |v| < 2 ^ 22 := by rw [abs_lt]; constructor <;> norm_num at * <;> linarith
    have de : delayOf v = d := by
      unfold delayOf
      rw [toI32_of (bd.trans (by norm_num)), if_pos (by linarith), Int.floor_eq_iff.2 ⟨a.le, b⟩]
      omega
    refine ⟨de, ?_⟩
    rw [sinc_ok bd]
    unfold Spec.offset
    rw [de, if_neg (not_le.2 a)]; rfl
  obtain ⟨a, b⟩ := key _ h.1 h.2
  rw [a] at b
  obtain ⟨a', b'⟩ := key _ h'.1 h'.2
  rw [a'] at b'
  have e : readAt P { s with time := t } k = .ok (fir P.sinc (s.buf false) (s.wpos - d + k) 0, fir P.sinc (s.buf true) (s.wpos - d + k) 0) := by
    simp only [readAt, a, b, Res.ok_bind]
  have e' : readAt P { s with time := t' } k = .ok (fir P.sinc (s.buf false) (s.wpos - d + k) 0, fir P.sinc (s.buf true) (s.wpos - d + k) 0) := by
    simp only [readAt, a', b', Res.ok_bind]
  exact ⟨e.trans e'.symm, by rw [e]; rfl⟩

/-- A delay of 40000 samples (most of a second) becomes one of a thousand. -/
example : Spec.settled 40000 = 1000 ∧ Spec.row 40000 = 0 := by
  constructor
  · unfold Spec.settled; norm_num
  · unfold Spec.row; norm_num

/-! ## Tones (C196, C197) -/

/-- The gain of the interpolator for a tone, delay included. -/
noncomputable def Spec.kernel (P : Params) (θ : ℝ) : ℂ :=
  ∑ i ∈ Finset.range 12, (P.sinc (Spec.row P.time + 12 - i) : ℂ) * Complex.exp ((-(θ * ((Spec.settled P.time : ℝ) + (i : ℕ))) : ℝ) * Complex.I)

/-- What it means that channel `c` shifts a tone of frequency `θ` by `ω`: the output is the dry tone at the dry level plus, at the wet level, the tone moved to `θ + ω` at almost exactly the gain
of the interpolator, plus the wrong sideband at `θ - ω`, at least 103 decibels below, up to a transient that dies out geometrically. -/
def Spec.ShiftsTone (P : Params) (c : Bool) (ω θ : ℝ) : Prop :=
  ∀ φ : ℝ, ∃ A B κ κ' K r : ℝ, 0 ≤ A ∧ A ≤ ‖Spec.kernel P θ‖ ∧ (1 - Spec.down 103 ^ 2) * ‖Spec.kernel P θ‖ ^ 2 ≤ A ^ 2 ∧
    0 ≤ B ∧ B ≤ Spec.down 103 * ‖Spec.kernel P θ‖ ∧ 0 ≤ K ∧ 0 < r ∧ r < 1 ∧
    ∀ x : Bool → ℕ → ℝ, (∀ n : ℕ, x c n = Real.cos (θ * n + φ)) → ∀ N, ∃ s y, play (fun _ => P) x N = .ok (s, y) ∧
      ∀ n < 32 * N, |y c n - ((1 - P.mix) * Real.cos (θ * n + φ) + P.mix * (A * Real.cos ((θ + ω) * n + κ) + B * Real.cos ((θ - ω) * n + κ')))| ≤ K * r ^ n

theorem past_congr {f g : ℕ → ℝ} {n : ℕ} (h : ∀ m < n, f m = g m) {m : ℤ} (hm : m < n) : Spec.past f m = Spec.past g m := by
  unfold Spec.past
  split
  · exact h _ (by omega)
  · rfl

theorem tap_congr {f g : ℕ → ℝ} {n : ℕ} (h : ∀ m < n, f m = g m) (sinc : ℕ → ℝ) (v : ℝ) : Spec.tap sinc f v n = Spec.tap sinc g v n := by
  obtain ⟨d1, -⟩ := delayOf_range v
  unfold Spec.tap
  exact Finset.sum_congr rfl fun i _ => by rw [past_congr h (by omega)]

/-- The reading of a tone is a tone, once the delay has settled and the tone has come through. -/
theorem tone_read {P : Params} (h0 : 0 < P.time) (h1 : P.time < 2 ^ 22) (θ φ : ℝ) : ∃ K r : ℝ, 0 ≤ K ∧ 0 < r ∧ r < 1 ∧ ∀ n : ℕ,
    |Spec.tap P.sinc (fun n : ℕ => Real.cos (θ * n + φ)) (tau P.time (n + 1)) n - ‖Spec.kernel P θ‖ * Real.cos (θ * n + (φ + (Spec.kernel P θ).arg))| ≤ K * r ^ n := by
  obtain ⟨n0, hn⟩ := settles h0 h1
  set D := Spec.settled P.time with hD
  have D0 : 44 ≤ D := le_max_left ..
  have exact' : ∀ n : ℕ, n0 ≤ n → D.toNat + 12 ≤ n →
      Spec.tap P.sinc (fun n : ℕ => Real.cos (θ * n + φ)) (tau P.time (n + 1)) n = ‖Spec.kernel P θ‖ * Real.cos (θ * n + (φ + (Spec.kernel P θ).arg)) := by
    intro n hn0 hnD
    obtain ⟨d, o⟩ := hn (n + 1) (by omega)
    have e : (‖Spec.kernel P θ‖ * Real.cos (θ * n + (φ + (Spec.kernel P θ).arg)) : ℝ) = (Spec.kernel P θ * Complex.exp (((θ * n + φ : ℝ) : ℂ) * Complex.I)).re := by
      have : Spec.kernel P θ * Complex.exp (((θ * n + φ : ℝ) : ℂ) * Complex.I) = (‖Spec.kernel P θ‖ : ℂ) * Complex.exp (((θ * n + (φ + (Spec.kernel P θ).arg) : ℝ) : ℂ) * Complex.I) := by
        conv_lhs => rw [← Complex.norm_mul_exp_arg_mul_I (Spec.kernel P θ)]
        rw [mul_assoc, ← Complex.exp_add]
        congr 2
        push_cast; ring
      rw [this, Complex.re_ofReal_mul, Complex.exp_ofReal_mul_I_re]
    rw [e]
    unfold Spec.kernel Spec.tap
    rw [d, o, Finset.sum_mul, Complex.re_sum]
    refine Finset.sum_congr rfl fun i hi => ?_
    have hi := Finset.mem_range.1 hi
    rw [mul_assoc, ← Complex.exp_add, Complex.re_ofReal_mul]
    have : ((-(θ * ((D : ℝ) + (i : ℕ))) : ℝ) : ℂ) * Complex.I + ((θ * n + φ : ℝ) : ℂ) * Complex.I = ((θ * ((n : ℝ) - D - i) + φ : ℝ) : ℂ) * Complex.I := by push_cast; ring
    have z : (((n : ℤ) - D - (i : ℕ)).toNat : ℤ) = (n : ℤ) - D - (i : ℕ) := Int.toNat_of_nonneg (by omega)
    have z' : ((((n : ℤ) - D - (i : ℕ)).toNat : ℕ) : ℝ) = (n : ℝ) - D - i := by
      have := congrArg (Int.cast : ℤ → ℝ) z
      push_cast at this
      exact_mod_cast this
    have p : Spec.past (fun n : ℕ => Real.cos (θ * n + φ)) ((n : ℤ) - D - (i : ℕ)) = Real.cos (θ * ((n : ℝ) - D - i) + φ) := by
      unfold Spec.past
      rw [if_pos (by omega)]
      show Real.cos (θ * ((((n : ℤ) - D - (i : ℕ)).toNat : ℕ) : ℝ) + φ) = _
      rw [z']
    rw [this, Complex.exp_ofReal_mul_I_re, p]
    exact mul_comm _ _
  set E : ℕ → ℝ := fun n => |Spec.tap P.sinc (fun n : ℕ => Real.cos (θ * n + φ)) (tau P.time (n + 1)) n - ‖Spec.kernel P θ‖ * Real.cos (θ * n + (φ + (Spec.kernel P θ).arg))| with hE
  set M := max n0 (D.toNat + 12) with hM
  refine ⟨∑ m ∈ Finset.range M, E m * 2 ^ m, 1 / 2, Finset.sum_nonneg fun m _ => by positivity, by norm_num, by norm_num, fun n => ?_⟩
  show E n ≤ _
  by_cases h : n < M
  · have := Finset.single_le_sum (f := fun m => E m * 2 ^ m) (fun m _ => by positivity) (Finset.mem_range.2 h)
    rw [one_div, inv_pow, ← div_eq_mul_inv, le_div_iff₀ (by positivity)]
    exact this
  · have : E n = 0 := by
      simp only [hE]
      rw [exact' n ((le_max_left ..).trans (not_lt.1 h)) ((le_max_right ..).trans (not_lt.1 h)), sub_self, abs_zero]
    rw [this]
    exact mul_nonneg (Finset.sum_nonneg fun m _ => mul_nonneg (abs_nonneg _) (by positivity)) (pow_nonneg (by norm_num) n)

theorem fade_geom (n : ℕ) : (3 / 4 : ℝ) ^ (n / 32 + 1) ≤ 0.992 ^ n := by
  calc (3 / 4 : ℝ) ^ (n / 32 + 1) ≤ (0.992 ^ 32) ^ (n / 32 + 1) := pow_le_pow_left₀ (by norm_num) (by norm_num) _
    _ = 0.992 ^ (32 * (n / 32 + 1)) := (pow_mul ..).symm
    _ ≤ 0.992 ^ n := pow_le_pow_of_le_one (by norm_num) (by norm_num) (by omega)

/-- **C196.**  The frequency shifter shifts.  Without feedback and with constant parameters, every tone in the band comes out of each channel shifted by that channel's shift, from the first sample
to any later one, whatever the other channel carries, for every mix. -/
theorem C196_frequency_shift_partial {P : Params} (hfb : P.feedback = 0) (hs : P.shape 0 = 0) (h0 : 0 < P.time) (h1 : P.time < 2 ^ 22) (c : Bool) {θ : ℝ} (hb : Spec.Band (Spec.shift P c) θ) :
    Spec.ShiftsTone P c (Spec.shift P c) θ := by
  intro φ
  obtain ⟨K1, r1, a1, a2, a3, hread⟩ := tone_read h0 h1 θ φ
  set G := ‖Spec.kernel P θ‖ with hG
  have G0 : 0 ≤ G := norm_nonneg _
  obtain ⟨K2, r2, b1, b2, b3, hside⟩ := sideband θ (rate1 P c) (rate2 P c) G G0 a1 a2 a3
  obtain ⟨s1, s2, s3⟩ := separated hb
  set H1 := ‖Spec.resp (rate1 P c - θ)‖ with hH1
  set H2 := ‖Spec.resp (rate1 P c + θ)‖ with hH2
  replace s1 : 1 - Spec.down 103 ^ 2 ≤ H1 ^ 2 := s1
  replace s2 : H1 ≤ 1 := s2
  replace s3 : H2 ≤ Spec.down 103 := s3
  have H10 : 0 ≤ H1 := norm_nonneg _
  have H20 : 0 ≤ H2 := norm_nonneg _
  have H21 : H2 ≤ 1 := by
    obtain ⟨a, b, ht, ea, eb⟩ := table_eq
    have := (C110_shape ht).2.2.1 (rate1 P c + θ)
    rw [hH2]; unfold Spec.resp; rw [ea, eb]; exact this
  set ψ := φ + (Spec.kernel P θ).arg with hψ
  set ω := Spec.shift P c with hω
  have hd : rate2 P c - rate1 P c = ω := rates_differ P c
  rw [hd] at hside
  set ρ := max r2 0.992 with hρ
  refine ⟨G * H1, G * H2, ω + ψ - (Spec.resp (rate1 P c - θ)).arg, -ω + ψ + (Spec.resp (rate1 P c + θ)).arg,
    |P.mix| * K2 + |P.mix| * (2 * G + K2 + 1), ρ, by positivity, mul_le_of_le_one_right G0 s2, ?_, by positivity, ?_, by positivity, lt_max_of_lt_left b2, max_lt b3 (by norm_num), ?_⟩
  · have := mul_le_mul_of_nonneg_left s1 (sq_nonneg G)
    nlinarith
  · have := mul_le_mul_of_nonneg_left s3 G0
    linarith
  intro x hx N
  obtain ⟨s, y, σ, e, hf, hr⟩ := steady_flow (P := P) (by rw [abs_of_pos h0]; exact h1) x N
  refine ⟨s, y, e, fun n hn => ?_⟩
  have hst : ∀ m < 32 * N, σ.stored c m = Real.cos (θ * m + φ) := fun m hm => by
    rw [hf.stored c m hm, (hr m hm).fb, hfb, mul_zero, hs, add_zero, hx]
  have hrd : ∀ m < 32 * N, σ.read c m = Spec.tap P.sinc (fun n : ℕ => Real.cos (θ * n + φ)) (tau P.time (m + 1)) m := fun m hm => by
    rw [hf.read c m hm, (hr m hm).delay]
    exact tap_congr (fun k hk => hst k (by omega)) _ _
  set a : ℕ → ℝ := fun m => Spec.tap P.sinc (fun n : ℕ => Real.cos (θ * n + φ)) (tau P.time (m + 1)) m with ha
  have hw := hf.wet c n hn
  rw [halfband_causal Spec.coefA Spec.coefB (x := fun m => σ.read c m * ((σ.ctl m).p c).1) (y := fun m : ℕ => a m * Real.sin (rate1 P c * ((m : ℝ) + 1))) (fun m hm => by
      rw [hrd m (by omega), (hr m (by omega)).p c]),
    halfband_causal Spec.coefA Spec.coefB (x := fun m => σ.read c m * ((σ.ctl m).p c).2) (y := fun m : ℕ => a m * -Real.cos (rate1 P c * ((m : ℝ) + 1))) (fun m hm => by
      rw [hrd m (by omega), (hr m (by omega)).p c]), (hr n hn).q c] at hw
  have hn1 := hside ψ a hread n
  rw [← hw] at hn1
  rw [hf.out c n hn, hx]
  have hg := (hr n hn).gain
  set g := (σ.ctl n).gain
  set w := σ.wet c n
  set C1 := Real.cos ((θ + ω) * n + (ω + ψ - (Spec.resp (rate1 P c - θ)).arg)) with hC1
  set C2 := Real.cos ((θ - ω) * n + (-ω + ψ + (Spec.resp (rate1 P c + θ)).arg)) with hC2
  set X := Real.cos (θ * n + φ) with hX
  have c1 : |C1| ≤ 1 := Real.abs_cos_le_one _
  have c2 : |C2| ≤ 1 := Real.abs_cos_le_one _
  have cx : |X| ≤ 1 := Real.abs_cos_le_one _
  have W : |G * (H1 * C1 + H2 * C2)| ≤ 2 * G := by
    rw [abs_mul, abs_of_nonneg G0]
    have t := abs_add_le (H1 * C1) (H2 * C2)
    rw [abs_mul, abs_mul, abs_of_nonneg H10, abs_of_nonneg H20] at t
    have : H1 * |C1| + H2 * |C2| ≤ 2 := by nlinarith [abs_nonneg C1, abs_nonneg C2]
    nlinarith
  have r2n : r2 ^ n ≤ 1 := pow_le_one₀ b2.le b3.le
  have wb : |w| ≤ 2 * G + K2 := by
    have t := abs_add_le (w - G * (H1 * C1 + H2 * C2)) (G * (H1 * C1 + H2 * C2))
    rw [sub_add_cancel] at t
    have : K2 * r2 ^ n ≤ K2 := mul_le_of_le_one_right b1 r2n
    linarith
  have key : X * (1 - g) + w * g - ((1 - P.mix) * X + P.mix * (G * H1 * C1 + G * H2 * C2)) = (g - P.mix) * (w - X) + P.mix * (w - G * (H1 * C1 + H2 * C2)) := by ring
  rw [key]
  refine (abs_add_le _ _).trans ?_
  rw [abs_mul, abs_mul]
  have z1 : |g - P.mix| ≤ |P.mix| * ρ ^ n :=
    hg.trans (mul_le_mul_of_nonneg_left ((fade_geom n).trans (pow_le_pow_left₀ (by norm_num) (le_max_right ..) n)) (abs_nonneg _))
  have z2 : |w - X| ≤ 2 * G + K2 + 1 := by
    have := abs_sub w X
    linarith
  have z3 := mul_le_mul z1 z2 (abs_nonneg _) ((abs_nonneg _).trans z1)
  have z4 := mul_le_mul_of_nonneg_left (hn1.trans (le_geom b1 b2 (le_max_left r2 0.992) n)) (abs_nonneg P.mix)
  rw [← hρ] at z4
  linarith

/-- The band is most of the spectrum: a shift of `π / 6` moves a tone of `π / 2`. -/
example : Spec.Band (Real.pi / 6) (Real.pi / 2) ∧ Spec.Band (-(Real.pi / 6)) (Real.pi / 2) := by
  have := Real.pi_pos
  constructor
  · unfold Spec.Band
    rw [max_eq_left (by linarith)]
    constructor <;> linarith
  · unfold Spec.Band
    rw [neg_neg, max_eq_right (by linarith)]
    constructor <;> linarith

/-! ### The sign of the multiplier (C197) -/

theorem down_small : Spec.down 103 ^ 2 < 1 / 4 := by
  have h0 : 0 < Spec.down 103 := by unfold Spec.down; positivity
  have h1 : Spec.down 103 ≤ (10 : ℝ) ^ (-1 : ℝ) := by
    unfold Spec.down
    exact Real.rpow_le_rpow_of_exponent_le (by norm_num) (by norm_num)
  rw [Real.rpow_neg_one] at h1
  nlinarith

theorem third (a : ℝ) : Real.cos a + Real.cos (a + Real.pi / 3) + Real.cos (a + Real.pi / 3 + Real.pi / 3) = 2 * Real.cos (a + Real.pi / 3) := by
  set b := a + Real.pi / 3 with hb
  have e : a = b - Real.pi / 3 := by rw [hb]; ring
  rw [e, Real.cos_sub, Real.cos_add b, Real.cos_pi_div_three]
  ring

theorem two_thirds (a : ℝ) : Real.cos a + Real.cos (a + 2 * Real.pi / 3) + Real.cos (a + 2 * Real.pi / 3 + 2 * Real.pi / 3) = 0 := by
  set b := a + 2 * Real.pi / 3 with hb
  have e : a = b - 2 * Real.pi / 3 := by rw [hb]; ring
  have c : Real.cos (2 * Real.pi / 3) = -(1 / 2) := by
    rw [show 2 * Real.pi / 3 = Real.pi - Real.pi / 3 by ring, Real.cos_pi_sub, Real.cos_pi_div_three]
  rw [e, Real.cos_sub, Real.cos_add b, c]
  ring

theorem squares (a : ℝ) : Real.cos a ^ 2 + Real.cos (a + Real.pi / 3) ^ 2 + Real.cos (a + Real.pi / 3 + Real.pi / 3) ^ 2 = 3 / 2 := by
  set b := a + Real.pi / 3 with hb
  have e : a = b - Real.pi / 3 := by rw [hb]; ring
  rw [e, Real.cos_sub, Real.cos_add b, Real.cos_pi_div_three, Real.sin_pi_div_three]
  have s3 : Real.sqrt 3 ^ 2 = 3 := Real.sq_sqrt (by norm_num)
  have := Real.sin_sq_add_cos_sq b
  nlinarith

/-- A signal that repeats and dies out is silent. -/
theorem silent {D : ℕ → ℝ} {p : ℕ} (hp : 0 < p) (hper : ∀ n, D (n + p) = D n) {K r : ℝ} (h0 : 0 < r) (h1 : r < 1) (hD : ∀ n, |D n| ≤ K * r ^ n) (n : ℕ) : D n = 0 := by
  have rep : ∀ k, D (n + p * k) = D n := fun k => by
    induction k with
    | zero => rfl
    | succ k ih => rw [show n + p * (k + 1) = n + p * k + p by ring, hper, ih]
  have lim : Filter.Tendsto (fun k : ℕ => K * r ^ (n + p * k)) Filter.atTop (nhds 0) := by
    have a := (tendsto_pow_atTop_nhds_zero_of_lt_one h0.le h1).const_mul K
    rw [mul_zero] at a
    refine a.comp (Filter.tendsto_atTop_mono (fun k => ?_) Filter.tendsto_id)
    show k ≤ n + p * k
    nlinarith
  have : |D n| ≤ 0 := ge_of_tendsto lim (Filter.Eventually.of_forall fun k => by rw [← rep k]; exact hD _)
  exact abs_nonpos_iff.1 this

/-- The two directions of a shift are different things. -/
theorem one_way {P : Params} {c : Bool} (hm : P.mix ≠ 0) (hk : Spec.kernel P (Real.pi / 2) ≠ 0) (h : Spec.ShiftsTone P c (Real.pi / 6) (Real.pi / 2)) :
    ¬ Spec.ShiftsTone P c (-(Real.pi / 6)) (Real.pi / 2) := by
  intro h'
  obtain ⟨A, B, κ, κ', K, r, a1, a2, a3, b1, b2, k0, r0, r1, hy⟩ := h 0
  obtain ⟨A', B', l, l', K', r', a1', a2', a3', b1', b2', k0', r0', r1', hy'⟩ := h' 0
  set θ := Real.pi / 2 with hθ
  set G := ‖Spec.kernel P θ‖ with hG
  have G0 : 0 < G := norm_pos_iff.2 hk
  set u : ℕ → ℝ := fun n => A * Real.cos ((θ + Real.pi / 6) * n + κ) + B * Real.cos ((θ - Real.pi / 6) * n + κ') with hu
  set u' : ℕ → ℝ := fun n => A' * Real.cos ((θ + -(Real.pi / 6)) * n + l) + B' * Real.cos ((θ - -(Real.pi / 6)) * n + l') with hu'
  set ρ := max r r' with hρ
  have ρ0 : 0 < ρ := lt_max_of_lt_left r0
  have near : ∀ n, |P.mix * (u n - u' n)| ≤ (K + K') * ρ ^ n := fun n => by
    obtain ⟨s, y, e, b⟩ := hy (fun _ n => Real.cos (θ * n + 0)) (fun n => rfl) (n + 1)
    obtain ⟨s', y', e', b'⟩ := hy' (fun _ n => Real.cos (θ * n + 0)) (fun n => rfl) (n + 1)
    rw [e] at e'
    cases e'
    have b := b n (by omega)
    have b' := b' n (by omega)
    have p1 := mul_le_mul_of_nonneg_left (pow_le_pow_left₀ r0.le (le_max_left r r') n) k0
    have p2 := mul_le_mul_of_nonneg_left (pow_le_pow_left₀ r0'.le (le_max_right r r') n) k0'
    have t := abs_sub (y c n - ((1 - P.mix) * Real.cos (θ * n + 0) + P.mix * u' n)) (y c n - ((1 - P.mix) * Real.cos (θ * n + 0) + P.mix * u n))
    rw [show y c n - ((1 - P.mix) * Real.cos (θ * n + 0) + P.mix * u' n) - (y c n - ((1 - P.mix) * Real.cos (θ * n + 0) + P.mix * u n)) = P.mix * (u n - u' n) by ring] at t
    calc _ ≤ _ := t
      _ ≤ K' * r' ^ n + K * r ^ n := add_le_add b' b
      _ ≤ (K + K') * ρ ^ n := by rw [← hρ] at p1 p2; linarith
  have e1 : ∀ n : ℕ, (θ + Real.pi / 6) * ((n + 1 : ℕ) : ℝ) = (θ + Real.pi / 6) * n + 2 * Real.pi / 3 := fun n => by rw [hθ]; push_cast; ring
  have e2 : ∀ n : ℕ, (θ - Real.pi / 6) * ((n + 1 : ℕ) : ℝ) = (θ - Real.pi / 6) * n + Real.pi / 3 := fun n => by rw [hθ]; push_cast; ring
  have uf : ∀ n, u n = A * Real.cos (2 * Real.pi / 3 * n + κ) + B * Real.cos (Real.pi / 3 * n + κ') := fun n => by
    simp only [hu]
    rw [show θ + Real.pi / 6 = 2 * Real.pi / 3 by rw [hθ]; ring, show θ - Real.pi / 6 = Real.pi / 3 by rw [hθ]; ring]
  have uf' : ∀ n, u' n = A' * Real.cos (Real.pi / 3 * n + l) + B' * Real.cos (2 * Real.pi / 3 * n + l') := fun n => by
    simp only [hu']
    rw [show θ + -(Real.pi / 6) = Real.pi / 3 by rw [hθ]; ring, show θ - -(Real.pi / 6) = 2 * Real.pi / 3 by rw [hθ]; ring]
  have per : ∀ n, P.mix * (u (n + 6) - u' (n + 6)) = P.mix * (u n - u' n) := fun n => by
    have p3 : ∀ z : ℝ, Real.cos (Real.pi / 3 * ((n + 6 : ℕ) : ℝ) + z) = Real.cos (Real.pi / 3 * n + z) := fun z => by
      rw [show Real.pi / 3 * ((n + 6 : ℕ) : ℝ) + z = Real.pi / 3 * n + z + 2 * Real.pi by push_cast; ring, Real.cos_add_two_pi]
    have p6 : ∀ z : ℝ, Real.cos (2 * Real.pi / 3 * ((n + 6 : ℕ) : ℝ) + z) = Real.cos (2 * Real.pi / 3 * n + z) := fun z => by
      rw [show 2 * Real.pi / 3 * ((n + 6 : ℕ) : ℝ) + z = 2 * Real.pi / 3 * n + z + 2 * Real.pi + 2 * Real.pi by push_cast; ring, Real.cos_add_two_pi, Real.cos_add_two_pi]
    rw [uf, uf, uf', uf', p3, p3, p6, p6]
  have zero : ∀ n, u n = u' n := fun n => by
    have := silent (D := fun n => P.mix * (u n - u' n)) (by norm_num) per ρ0 (max_lt r1 r1') near n
    have := (mul_eq_zero.1 this).resolve_left hm
    linarith
  have step3 : ∀ (n : ℕ) (z : ℝ), Real.pi / 3 * ((n + 1 : ℕ) : ℝ) + z = Real.pi / 3 * n + z + Real.pi / 3 := fun n z => by push_cast; ring
  have step6 : ∀ (n : ℕ) (z : ℝ), 2 * Real.pi / 3 * ((n + 1 : ℕ) : ℝ) + z = 2 * Real.pi / 3 * n + z + 2 * Real.pi / 3 := fun n z => by push_cast; ring
  have only : ∀ n : ℕ, B * Real.cos (Real.pi / 3 * n + κ' + Real.pi / 3) = A' * Real.cos (Real.pi / 3 * n + l + Real.pi / 3) := fun n => by
    have z0 := zero n
    have z1 := zero (n + 1)
    have z2 := zero (n + 1 + 1)
    rw [uf, uf'] at z0 z1 z2
    rw [step3, step3, step6, step6] at z1
    rw [step3, step3, step6, step6, step3, step3, step6, step6] at z2
    have t1 := third (Real.pi / 3 * n + κ')
    have t2 := third (Real.pi / 3 * n + l)
    have t3 := two_thirds (2 * Real.pi / 3 * n + κ)
    have t4 := two_thirds (2 * Real.pi / 3 * n + l')
    linear_combination (z0 + z1 + z2) / 2 - A / 2 * t3 - B / 2 * t1 + A' / 2 * t2 + B' / 2 * t4
  have q0 := only 0
  have q1 := only (0 + 1)
  have q2 := only (0 + 1 + 1)
  rw [step3, step3] at q1
  rw [step3, step3, step3, step3] at q2
  have s1 := squares (Real.pi / 3 * (0 : ℕ) + κ' + Real.pi / 3)
  have s2 := squares (Real.pi / 3 * (0 : ℕ) + l + Real.pi / 3)
  set w0 := Real.cos (Real.pi / 3 * (0 : ℕ) + κ' + Real.pi / 3)
  set w1 := Real.cos (Real.pi / 3 * (0 : ℕ) + κ' + Real.pi / 3 + Real.pi / 3)
  set w2 := Real.cos (Real.pi / 3 * (0 : ℕ) + κ' + Real.pi / 3 + Real.pi / 3 + Real.pi / 3)
  set v0 := Real.cos (Real.pi / 3 * (0 : ℕ) + l + Real.pi / 3)
  set v1 := Real.cos (Real.pi / 3 * (0 : ℕ) + l + Real.pi / 3 + Real.pi / 3)
  set v2 := Real.cos (Real.pi / 3 * (0 : ℕ) + l + Real.pi / 3 + Real.pi / 3 + Real.pi / 3)
  have eq : B ^ 2 * (3 / 2) = A' ^ 2 * (3 / 2) := by
    linear_combination A' ^ 2 * s2 - B ^ 2 * s1 + (B * w0 + A' * v0) * q0 + (B * w1 + A' * v1) * q1 + (B * w2 + A' * v2) * q2
  have d := down_small
  have d0 : 0 ≤ Spec.down 103 := by unfold Spec.down; positivity
  have bb : B ^ 2 ≤ Spec.down 103 ^ 2 * G ^ 2 := by rw [← mul_pow]; exact pow_le_pow_left₀ b1 b2 2
  have G2 : 0 < G ^ 2 := by positivity
  nlinarith

/-- **C197.**  The shift of the right channel is the left one times the square of the ratio, so that it never goes the other way. -/
theorem C197_squared_partial {P : Params} (hfb : P.feedback = 0) (hs : P.shape 0 = 0) (h0 : 0 < P.time) (h1 : P.time < 2 ^ 22) (hm : 1 / 2 ^ 23 ≤ |P.mult - 1|) {θ : ℝ}
    (hb : Spec.Band (P.omega * P.mult ^ 2) θ) : Spec.ShiftsTone P true (P.omega * P.mult ^ 2) θ := by
  have e : Spec.shift P true = P.omega * P.mult ^ 2 := by
    unfold Spec.shift
    rw [if_pos rfl, if_neg (not_lt.2 hm)]
  rw [← e] at hb ⊢
  exact C196_frequency_shift_partial hfb hs h0 h1 true hb

/-- A shifter whose right channel is to go down by as much as the left one goes up. -/
noncomputable def opposite : Params := ⟨Real.pi / 6, -1, 0, 4000, 1, fun x => x, fun j => if j = 12 then 1 else 0⟩

theorem opposite_kernel : Spec.kernel opposite (Real.pi / 2) ≠ 0 := by
  have e : Spec.row opposite.time = 0 := by
    unfold Spec.row opposite
    exact if_neg (by norm_num)
  unfold Spec.kernel
  rw [e, Finset.sum_eq_single 0]
  · have : opposite.sinc (0 + 12 - 0) = 1 := rfl
    rw [this, Complex.ofReal_one, one_mul]
    exact Complex.exp_ne_zero _
  · intro i hi h
    have hi := Finset.mem_range.1 hi
    have : opposite.sinc (0 + 12 - i) = 0 := if_neg (by omega)
    rw [this, Complex.ofReal_zero, zero_mul]
  · intro h; exact absurd (Finset.mem_range.2 (by norm_num)) h

/-- **C197 refuted.**  A right channel set to minus the left shift is shifted by plus the left shift, and not by minus it. -/
theorem C197_refuted : Spec.ShiftsTone opposite true opposite.omega (Real.pi / 2) ∧ ¬ Spec.ShiftsTone opposite true (opposite.omega * opposite.mult) (Real.pi / 2) := by
  have pp := Real.pi_pos
  have h : Spec.ShiftsTone opposite true (opposite.omega * opposite.mult ^ 2) (Real.pi / 2) := by
    refine C197_squared_partial rfl rfl ?_ ?_ ?_ ?_
    · show (0 : ℝ) < 4000; norm_num
    · show (4000 : ℝ) < 2 ^ 22; norm_num
    · show (1 / 2 ^ 23 : ℝ) ≤ |(-1) - 1|; norm_num
    · show Spec.Band (Real.pi / 6 * (-1) ^ 2) _
      unfold Spec.Band
      rw [max_eq_left (by linarith)]
      constructor <;> linarith
  have e : opposite.omega * opposite.mult ^ 2 = Real.pi / 6 := by
    show Real.pi / 6 * (-1) ^ 2 = _
    ring
  have e' : opposite.omega * opposite.mult = -(Real.pi / 6) := by
    show Real.pi / 6 * (-1) = _
    ring
  rw [e] at h
  rw [e']
  exact ⟨h, one_way (by show (1 : ℝ) ≠ 0; norm_num) opposite_kernel h⟩

/-! ## Automation (C199) -/

/-- An oscillator on the unit circle, and one that also turns. -/
def Osc.Unit (o : Osc) : Prop := o.r ^ 2 + o.i ^ 2 = 1
def Osc.Turns (o : Osc) : Prop := o.Unit ∧ o.dr ^ 2 + o.di ^ 2 = 1

theorem set_turns {o : Osc} (h : 0 < o.r ^ 2 + o.i ^ 2) (w : ℝ) : (o.setRate w).Turns := by
  refine ⟨?_, by show Real.cos w ^ 2 + Real.sin w ^ 2 = 1; exact Real.cos_sq_add_sin_sq w⟩
  show (o.r * (1 / Real.sqrt (o.r * o.r + o.i * o.i))) ^ 2 + (o.i * (1 / Real.sqrt (o.r * o.r + o.i * o.i))) ^ 2 = 1
  rw [show o.r * o.r + o.i * o.i = o.r ^ 2 + o.i ^ 2 by ring]
  have q := Real.sq_sqrt h.le
  have q0 : Real.sqrt (o.r ^ 2 + o.i ^ 2) ≠ 0 := (Real.sqrt_pos.2 h).ne'
  set t := Real.sqrt (o.r ^ 2 + o.i ^ 2)
  field_simp
  linarith

theorem turn_iter {o : Osc} (h : o.Turns) (k : ℕ) : (Osc.process^[k] o).Turns := by
  induction k with
  | zero => exact h
  | succ k ih =>
    rw [Function.iterate_succ_apply']
    obtain ⟨a, b⟩ := ih
    refine ⟨?_, b⟩
    unfold Osc.Unit at a
    show ((Osc.process^[k] o).dr * (Osc.process^[k] o).r - (Osc.process^[k] o).di * (Osc.process^[k] o).i) ^ 2 +
      ((Osc.process^[k] o).dr * (Osc.process^[k] o).i + (Osc.process^[k] o).di * (Osc.process^[k] o).r) ^ 2 = 1
    linear_combination ((Osc.process^[k] o).r ^ 2 + (Osc.process^[k] o).i ^ 2) * b + a

theorem lock_pos {a b : Osc} (ha : a.Unit) (hb : b.Unit) : 0 < (lock a b).r ^ 2 + (lock a b).i ^ 2 := by
  unfold Osc.Unit at ha hb
  simp only [lock]
  norm_num
  nlinarith [sq_nonneg (a.r + b.r), sq_nonneg (a.i + b.i)]

theorem tune1_turns {P : Params} {o : Bool → Osc} (h : ∀ c, (o c).Unit) (c : Bool) : (tune1 P o c).Turns := by
  have u : ∀ c, 0 < (o c).r ^ 2 + (o c).i ^ 2 := fun c => by rw [h c]; norm_num
  have l := set_turns (u false) (Real.pi * 0.5 - min 0 P.omega)
  cases c with
  | false => exact l
  | true =>
    unfold tune1
    simp only [if_true]
    by_cases hl : Locked P
    · rw [if_pos hl]; exact set_turns (lock_pos l.1 (h true)) _
    · rw [if_neg hl]; exact set_turns (u true) _

theorem tune2_turns {P : Params} {o : Bool → Osc} (h : ∀ c, (o c).Unit) (c : Bool) : (tune2 P o c).Turns := by
  have u : ∀ c, 0 < (o c).r ^ 2 + (o c).i ^ 2 := fun c => by rw [h c]; norm_num
  have l := set_turns (u false) (Real.pi * 0.5 + max 0 P.omega)
  cases c with
  | false => exact l
  | true =>
    unfold tune2
    simp only [if_true]
    by_cases hl : Locked P
    · rw [if_pos hl]; exact set_turns (lock_pos l.1 (h true)) _
    · rw [if_neg hl]; exact set_turns (u true) _

/-- The lag of the delay within `T`. -/
structure Within (T : ℝ) (l : Lag ℝ) : Prop where
  v : |l.v| ≤ T
  target : |l.target| ≤ T
  rate : l.lp = 0.0001 ∧ l.lpinv = 1 - 4 / 1000

theorem within_iter {T : ℝ} {l : Lag ℝ} (h : Within T l) (k : ℕ) : Within T (Lag.process^[k] l) := by
  induction k with
  | zero => exact h
  | succ k ih =>
    rw [Function.iterate_succ_apply']
    refine ⟨?_, ih.target, ih.rate⟩
    show |(Lag.process^[k] l).v * (Lag.process^[k] l).lpinv + (Lag.process^[k] l).target * (Lag.process^[k] l).lp| ≤ T
    rw [ih.rate.1, ih.rate.2]
    have a := abs_le.1 ih.v
    have b := abs_le.1 ih.target
    rw [abs_le]
    constructor <;> norm_num <;> linarith

/-- The controls of a run whose parameters keep within bounds. -/
structure Tame (T : ℝ) (s : State) : Prop where
  o1 : ∀ c, (s.o1 c).Unit
  o2 : ∀ c, (s.o2 c).Unit
  time : Within T s.time
  mix : 0 ≤ s.mix.target ∧ s.mix.target ≤ 1 ∧ s.mix.blockSize = 64

/-- What a sample then sees. -/
structure Spec.Tame (k : Ctl) : Prop where
  gain : 0 ≤ k.gain ∧ k.gain ≤ 1
  p : ∀ c, |(k.p c).1| ≤ 1 ∧ |(k.p c).2| ≤ 1
  q : ∀ c, |(k.q c).1| ≤ 1 ∧ |(k.q c).2| ≤ 1

theorem unit_le {o : Osc} (h : o.Unit) : |o.r| ≤ 1 ∧ |o.i| ≤ 1 := by
  unfold Osc.Unit at h
  constructor <;> rw [abs_le] <;> constructor <;> nlinarith [sq_nonneg o.r, sq_nonneg o.i]

theorem tame_start {T : ℝ} {P : Params} {s : State} (hT : |P.time| ≤ T) (hm : 0 ≤ P.mix ∧ P.mix ≤ 1) (h : start P = .ok s) : Tame T s := by
  obtain ⟨s', e, -, -, -, h1, -, h3, h4, h5⟩ := start_ok P
  rw [h] at e
  cases e
  have u : ∀ c : Bool, ((fun _ => Osc.default) c : Osc).Unit := fun c => by unfold Osc.Unit Osc.default; norm_num
  refine ⟨fun c => ?_, fun c => ?_, ?_, ?_⟩
  · rw [h4]; exact (tune1_turns u c).1
  · rw [h5]; exact (tune2_turns u c).1
  · rw [h3]; exact ⟨hT, hT, rfl, rfl⟩
  · rw [h1]
    simp only [LipolPs.setTargetSmoothed, LipolPs.default]
    refine ⟨by linarith, by linarith, trivial⟩

theorem tame_update {T : ℝ} {P : Params} {s : State} (hT : |P.time| ≤ T) (h : Tame T s) : Within T (update P s).time := by
  show Within T (s.time.newValue P.time)
  unfold Lag.newValue
  split
  · exact ⟨hT, hT, h.time.rate⟩
  · exact ⟨h.time.v, hT, h.time.rate⟩

theorem tame_step {T : ℝ} {P : Params} {s s' : State} (hT : |P.time| ≤ T) (hm : 0 ≤ P.mix ∧ P.mix ≤ 1) (h : Tame T s) (ha : Advanced P s s') : Tame T s' := by
  refine ⟨fun c => ?_, fun c => ?_, ?_, ?_⟩
  · rw [ha.o1]; exact (turn_iter (tune1_turns h.o1 c) 32).1
  · rw [ha.o2]; exact (turn_iter (tune2_turns h.o2 c) 32).1
  · rw [ha.time]; exact within_iter (tame_update hT h) 32
  · rw [ha.mix]
    obtain ⟨m1, m2, m3⟩ := h.mix
    show 0 ≤ (s.mix.setTargetSmoothed P.mix).target ∧ _
    simp only [LipolPs.setTargetSmoothed]
    refine ⟨by linarith, ?_, m3⟩
    show 1 / 4 * P.mix + (1 - 1 / 4) * s.mix.target ≤ 1
    linarith

theorem tame_ctl {T : ℝ} {P : Params} {s : State} (hm : 0 ≤ P.mix ∧ P.mix ≤ 1) (h : Tame T s) {k : ℕ} : Spec.Tame (ctl P s k) := by
  refine ⟨?_, fun c => unit_le (turn_iter (tune1_turns h.o1 c) (k + 1)).1, fun c => unit_le (turn_iter (tune2_turns h.o2 c) (k + 1)).1⟩
  show 0 ≤ (s.mix.setTargetSmoothed P.mix).gain k ∧ (s.mix.setTargetSmoothed P.mix).gain k ≤ 1
  obtain ⟨m1, m2, m3⟩ := h.mix
  simp only [LipolPs.setTargetSmoothed, LipolPs.gain, m3]
  have f0 : (0 : ℝ) ≤ ((k % 8 : ℕ) : ℝ) := Nat.cast_nonneg _
  have f1 : ((k % 8 : ℕ) : ℝ) ≤ 7 := by
    have : k % 8 ≤ 7 := by omega
    exact_mod_cast this
  set f := ((k % 8 : ℕ) : ℝ)
  set t := s.mix.target
  have e : t + (1 / 4 * P.mix + (1 - 1 / 4) * t - t) * (f + 1) / 64 = t * (1 - (f + 1) / 256) + P.mix * ((f + 1) / 256) := by ring
  rw [e]
  have g0 : 0 ≤ (f + 1) / 256 := by positivity
  have g1 : (f + 1) / 256 ≤ 1 := by linarith
  set g := (f + 1) / 256
  constructor
  · exact add_nonneg (mul_nonneg m1 (by linarith)) (mul_nonneg hm.1 g0)
  · nlinarith

/-- **C199.**  Whatever the automation does to the shift, its ratio, the delay, the mix and the feedback, however large, the shifter never panics and its output is bounded by the input, through a
wave shaper that is bounded by `W` and kernels whose rows add up to `S` at most; the constant depends on neither. -/
theorem C199_bounded_under_automation : ∃ G : ℝ, 0 ≤ G ∧ ∀ (S W X T : ℝ) (P : ℕ → Params) (x : Bool → ℕ → ℝ), T < 2 ^ 22 →
    (∀ n, |(P n).time| ≤ T ∧ 0 ≤ (P n).mix ∧ (P n).mix ≤ 1 ∧ (∀ z, |(P n).shape z| ≤ W) ∧ ∀ o, ∑ i ∈ Finset.range 12, |(P n).sinc (o + 12 - i)| ≤ S) →
    (∀ c n, |x c n| ≤ X) → ∀ N, ∃ s y, play P x N = .ok (s, y) ∧ ∀ c n, n < 32 * N → |y c n| ≤ X + G * S * (X + W) := by
  obtain ⟨G, G0, hG⟩ := halfband_bounded stable.1 stable.2
  refine ⟨4 * G, by positivity, fun S W X T P x hT hP hx N => ?_⟩
  obtain ⟨s, y, σ, e, -, hI, hR⟩ := flow (P := P) x (fun _ => Tame T) (fun _ => Spec.Tame) (fun s h => tame_start (hP 0).1 ⟨(hP 0).2.1, (hP 0).2.2.1⟩ h)
    (fun N s s' h ha => tame_step (hP N).1 ⟨(hP N).2.1, (hP N).2.2.1⟩ h ha)
    (fun N s k h hk => ⟨tame_ctl ⟨(hP N).2.1, (hP N).2.2.1⟩ h, (within_iter (tame_update (hP N).1 h) (k + 1)).v.trans_lt hT⟩) N
  refine ⟨s, y, e, fun c n hn => ?_⟩
  have hf := hI.flow
  have X0 : 0 ≤ X := (abs_nonneg _).trans (hx false 0)
  have W0 : 0 ≤ W := (abs_nonneg _).trans ((hP 0).2.2.2.1 0)
  have S0 : 0 ≤ S := (Finset.sum_nonneg fun i _ => abs_nonneg _).trans ((hP 0).2.2.2.2 0)
  have st : ∀ m < 32 * N, |σ.stored c m| ≤ X + W := fun m hm => by
    rw [hf.stored c m hm]
    exact (abs_add_le _ _).trans (add_le_add (hx c m) ((hP (m / 32)).2.2.2.1 _))
  have rd : ∀ m < 32 * N, |σ.read c m| ≤ S * (X + W) := fun m hm => by
    rw [hf.read c m hm]
    obtain ⟨d1, -⟩ := delayOf_range (σ.ctl m).delay
    unfold Spec.tap
    refine (Finset.abs_sum_le_sum_abs _ _).trans ?_
    refine le_trans ?_ (mul_le_mul_of_nonneg_right ((hP (m / 32)).2.2.2.2 (Spec.offset (σ.ctl m).delay)) (by positivity))
    rw [Finset.sum_mul]
    refine Finset.sum_le_sum fun i _ => ?_
    rw [abs_mul, mul_comm]
    refine mul_le_mul_of_nonneg_left ?_ (abs_nonneg _)
    unfold Spec.past
    split
    · exact st _ (by omega)
    · rw [abs_zero]; positivity
  have B0 : 0 ≤ S * (X + W) := by positivity
  have h1 := hG (fun m => σ.read c m * ((σ.ctl m).p c).1) (S * (X + W)) (32 * N) B0 (fun m hm => by
    show |σ.read c m * ((σ.ctl m).p c).1| ≤ _
    rw [abs_mul]
    exact (mul_le_of_le_one_right (abs_nonneg _) ((hR m hm).p c).1).trans (rd m hm)) n hn
  have h2 := hG (fun m => σ.read c m * ((σ.ctl m).p c).2) (S * (X + W)) (32 * N) B0 (fun m hm => by
    show |σ.read c m * ((σ.ctl m).p c).2| ≤ _
    rw [abs_mul]
    exact (mul_le_of_le_one_right (abs_nonneg _) ((hR m hm).p c).2).trans (rd m hm)) n hn
  have wb : |σ.wet c n| ≤ 4 * G * S * (X + W) := by
    rw [hf.wet c n hn]
    have q := (hR n hn).q c
    set u := Spec.halfband Spec.coefA Spec.coefB (fun m => σ.read c m * ((σ.ctl m).p c).1) n
    set v := Spec.halfband Spec.coefA Spec.coefB (fun m => σ.read c m * ((σ.ctl m).p c).2) n
    have t := abs_add_le (u * ((σ.ctl n).q c).1) (v * ((σ.ctl n).q c).2)
    have t1 : |u * ((σ.ctl n).q c).1| ≤ G * (S * (X + W)) := by
      rw [abs_mul]; exact (mul_le_of_le_one_right (abs_nonneg _) q.1).trans h1
    have t2 : |v * ((σ.ctl n).q c).2| ≤ G * (S * (X + W)) := by
      rw [abs_mul]; exact (mul_le_of_le_one_right (abs_nonneg _) q.2).trans h2
    rw [abs_mul 2, abs_two]
    linarith
  obtain ⟨g0, g1⟩ := (hR n hn).gain
  rw [hf.out c n hn]
  set g := (σ.ctl n).gain
  have t := abs_add_le (x c n * (1 - g)) (σ.wet c n * g)
  rw [abs_mul, abs_mul, abs_of_nonneg g0, abs_of_nonneg (show 0 ≤ 1 - g by linarith)] at t
  have a1 : |x c n| * (1 - g) ≤ X := (mul_le_of_le_one_right (abs_nonneg _) (by linarith)).trans (hx c n)
  have a2 : |σ.wet c n| * g ≤ |σ.wet c n| := mul_le_of_le_one_right (abs_nonneg _) g1
  linarith

/-- Such parameters exist, with feedback far above 1. -/
example : ∃ P : ℕ → Params, (∀ n, |(P n).time| ≤ 40000 ∧ 0 ≤ (P n).mix ∧ (P n).mix ≤ 1 ∧ (∀ z, |(P n).shape z| ≤ 1) ∧ ∀ o, ∑ i ∈ Finset.range 12, |(P n).sinc (o + 12 - i)| ≤ 12) ∧
    ∀ n, (P n).feedback = n :=
  ⟨fun n => ⟨n, -1, n, 40000, 1, Real.sin, fun _ => 1⟩, fun n => ⟨by norm_num, by norm_num, by norm_num, Real.abs_sin_le_one, fun o => by norm_num⟩, fun n => rfl⟩
