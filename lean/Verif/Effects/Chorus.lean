import Verif.Effects.DualDelayClaims
/-!
# The chorus (C232-C235), in exact real arithmetic

surgefx-chorus, at its block size of 32 samples, with any automation of its parameters.  Parameters arrive converted (`Params`); the interpolation kernel is any function.
The reading position, the kernel row, the twelve products and the writing of the ring are the dual delay's, line for line (`delayOf`, `rpOf`, `sincOf`, `fir`, `setBuffer` there).
Channel `false` is the left one, `true` the right one.  Not modelled: rounding, pointer alignment.
-/
namespace Verif.Effects.Chorus
open Verif.Smooth Verif.Biquad Verif.Tables
open Verif.Effects.FreqShift (toI32 splice blockOf splice_new splice_old past_splice idx)
open Verif.Effects.DualDelay (delayOf rpOf sincOf fir setBuffer chanOf)

/-! ## Model -/

/-- chorus.rs 3-30. -/
structure State where
  feedback : LipolPs ℝ
  mix : LipolPs ℝ
  width : LipolPs ℝ
  pan : ℕ → Bool → ℝ
  time : ℕ → Lag ℝ
  phase : ℕ → ℝ
  lp : Filter
  hp : Filter
  buf : ℕ → ℝ
  wpos : ℤ

/-- The parameters as `update` converts them: `rate` per block, `time` in samples; the kernel. -/
structure Params where
  feedback : ℝ
  rate : ℝ
  time : ℝ
  depth : ℝ
  mix : ℝ
  width : ℝ
  hpω : ℝ
  lpω : ℝ
  sinc : ℕ → ℝ

/-- update.rs 58-62: the phase of a voice. -/
noncomputable def advance (rate p : ℝ) : ℝ := open Classical in if p + rate > 1 then p + rate - 1 else p + rate

/-- update.rs 64-65: the triangle. -/
noncomputable def lfoOut (p depth : ℝ) : ℝ := (2 * |2 * p - 1| - 1) * depth

/-- update.rs 36-81 `update`. -/
noncomputable def update (P : Params) (s : State) : State :=
  ⟨s.feedback.setTargetSmoothed P.feedback, s.mix.setTargetSmoothed P.mix, s.width.setTargetSmoothed P.width, s.pan,
    fun i => (s.time i).newValue (P.time * (1 + lfoOut (advance P.rate (s.phase i)) P.depth)), fun i => advance P.rate (s.phase i),
    s.lp.coeffLp2b P.lpω 0.707, s.hp.coeffHp P.hpω 0.707, s.buf, s.wpos⟩

/-- new.rs 25-61 `new`. -/
noncomputable def State.new : State :=
  ⟨LipolPs.default.setBlocksize 32, LipolPs.default.setBlocksize 32, LipolPs.default, fun _ _ => 0, fun _ => Lag.default, fun _ => 0, .new, .new, fun _ => 0, 0⟩

/-- init.rs 18-24: the position of voice `i` of four in the cycle. -/
noncomputable def place (i : ℕ) : ℝ := (i : ℝ) / (4 - 1)

/-- init.rs 12 and 26-29: the gain of voice `i` in a channel. -/
noncomputable def panOf (i : ℕ) (c : Bool) : ℝ :=
  (if c then Real.sqrt (0.5 + 0.5 * (2 * place i - 1)) else Real.sqrt (0.5 - 0.5 * (2 * place i - 1))) * (1 / Real.sqrt 4)

/-- init.rs 5-38 `init` and update.rs 5-31 `initial_update`, which sets the low cut twice. -/
noncomputable def init (P : Params) (s : State) : State :=
  ⟨s.feedback.setTarget P.feedback, s.mix.setTarget P.mix, s.width.setTarget P.width, panOf, fun i => (s.time i).setRate 0.001, place,
    s.lp.coeffLp2b P.lpω 0.707, (s.hp.coeffHp P.hpω 0.707).coeffHp P.hpω 0.707, fun _ => 0, 0⟩

/-- block.rs 16-63, what voice `i` reads for sample `k`. -/
noncomputable def voiceAt (P : Params) (s : State) (i k : ℕ) : ℝ :=
  let v := (Lag.process^[k + 1] (s.time i)).v
  fir P.sinc s.buf (rpOf s.wpos (delayOf v) k) (sincOf (delayOf v) v)

/-- block.rs 5-71 `do_chorus_block`. -/
noncomputable def readAt (P : Params) (s : State) (c : Bool) (k : ℕ) : ℝ := ∑ i ∈ Finset.range 4, voiceAt P s i k * s.pan i c

/-- process.rs 14-34: the voices through the two filters. -/
noncomputable def wetOf (P : Params) (s : State) : Filter × Filter × List (ℝ × ℝ) :=
  let p := s.lp.processBlockStereo ((List.range 32).map fun k => (readAt P s false k, readAt P s true k))
  let q := s.hp.processBlockStereo p.2
  (p.1, q.1, q.2)

/-- process.rs 36-60: what is stored: the clipped feedback and the input. -/
noncomputable def storeOf (s : State) (x e : Bool → ℕ → ℝ) (k : ℕ) : ℝ :=
  max (min (s.feedback.multiply 8 (fun k => e false k + e true k) k) 1) (-1) + x false k + x true k

/-- process.rs 64-85: the width. -/
noncomputable def widen (s : State) (e : Bool → ℕ → ℝ) (c : Bool) (k : ℕ) : ℝ :=
  let m := (e false k + e true k) * (1 / 2)
  let sd := s.width.multiply 8 (fun k => (e false k - e true k) * (1 / 2)) k
  if c then m - sd else m + sd

/-- process.rs 5-115 `stereo_process`. -/
noncomputable def process (P : Params) (x : Bool → ℕ → ℝ) (s : State) : State × (Bool → ℕ → ℝ) :=
  let s := update P s
  let q := wetOf P s
  let e := chanOf q.2.2
  (⟨s.feedback, s.mix, s.width, s.pan, fun i => Lag.process^[32] (s.time i), s.phase, q.1, q.2.1,
      setBuffer s.wpos (storeOf s x e) s.buf, ((index (s.wpos + 32) (2 ^ 18 - 1) : ℕ) : ℤ)⟩,
    fun c => s.mix.fadeTo 8 (x c) (widen s e c) (x c))

/-- `init`, then `N` blocks of `x`, block `n` with parameters `P n` (`P 0` also at `init`): the state then, and the output so far. -/
noncomputable def play (P : ℕ → Params) (x : Bool → ℕ → ℝ) : ℕ → State × (Bool → ℕ → ℝ)
  | 0 => (init (P 0) .new, fun _ _ => 0)
  | n + 1 =>
    let p := play P x n
    let q := process (P n) (blockOf x n) p.1
    (q.1, fun c => splice n (p.2 c) (q.2 c))

/-! ## Specification -/

/-- A smoothed control after `n` blocks: each moves it a quarter of the way; it begins where it is set. -/
noncomputable def Spec.reached (u : ℕ → ℝ) : ℕ → ℝ
  | 0 => u 0
  | n + 1 => u n / 4 + 3 / 4 * Spec.reached u n

/-- The control at sample `m`, on its ramp of `L` samples, of which only the first eight are used, over and over. -/
noncomputable def Spec.ramp (u : ℕ → ℝ) (L : ℝ) (m : ℕ) : ℝ :=
  Spec.reached u (m / 32) + (Spec.reached u (m / 32 + 1) - Spec.reached u (m / 32)) * (((m % 32 % 8 : ℕ) : ℝ) + 1) / L

/-- The phase of voice `i` after `n` blocks: the voices begin at thirds of the cycle. -/
noncomputable def Spec.phase (P : ℕ → Params) (i : ℕ) : ℕ → ℝ
  | 0 => (i : ℝ) / 3
  | n + 1 => if Spec.phase P i n + (P n).rate ≤ 1 then Spec.phase P i n + (P n).rate else Spec.phase P i n + (P n).rate - 1

/-- The delay voice `i` aims at in block `n`, in samples: the set one, modulated by a triangle. -/
noncomputable def Spec.goal (P : ℕ → Params) (i n : ℕ) : ℝ := (P n).time * (1 + (P n).depth * (2 * |2 * Spec.phase P i (n + 1) - 1| - 1))

/-- The smoothed delay of voice `i` after `m` samples; it begins at the first goal. -/
noncomputable def Spec.lag (P : ℕ → Params) (i : ℕ) : ℕ → ℝ
  | 0 => Spec.goal P i 0
  | m + 1 => Spec.lag P i m + (Spec.goal P i (m / 32) - Spec.lag P i m) / 1000

/-- The gain of voice `i` in a channel: from the left (0) to the right (3). -/
noncomputable def Spec.gain (i : ℕ) (c : Bool) : ℝ := if c then Real.sqrt ((i : ℝ) / 3) / 2 else Real.sqrt (1 - (i : ℝ) / 3) / 2

/-- The interpolated reading of the stored signal. -/
noncomputable abbrev Spec.tap := DualDelay.Spec.tap

/-- The signals inside the effect: the sum of the voices, the same filtered, and what is stored; and the two filters before each block. -/
structure Signals where
  read : Bool → ℕ → ℝ
  wet : Bool → ℕ → ℝ
  stored : ℕ → ℝ
  lp : ℕ → Filter
  hp : ℕ → Filter

/-- Block `n` of the sum of the voices. -/
def Spec.voices (σ : Signals) (n : ℕ) : List (ℝ × ℝ) := (List.range 32).map fun k => (σ.read false (32 * n + k), σ.read true (32 * n + k))

/-- The wet signal, of adjusted width. -/
noncomputable def Spec.widened (P : ℕ → Params) (σ : Signals) (c : Bool) (m : ℕ) : ℝ :=
  (σ.wet false m + σ.wet true m) / 2 + (if c then -1 else 1) * ((σ.wet false m - σ.wet true m) / 2 * Spec.ramp (fun n => (P n).width) 64 m)

/-- The flow of the signals in the first `N` blocks. -/
structure Spec.Flow (P : ℕ → Params) (x y : Bool → ℕ → ℝ) (σ : Signals) (N : ℕ) : Prop where
  read : ∀ c m, m < 32 * N → σ.read c m = ∑ i ∈ Finset.range 4, Spec.gain i c * Spec.tap (P (m / 32)).sinc σ.stored (Spec.lag P i (m + 1)) m
  lp0 : σ.lp 0 = Filter.new.coeffLp2b (P 0).lpω 0.707
  hp0 : σ.hp 0 = Filter.new.coeffHp (P 0).hpω 0.707
  lp : ∀ n, n + 1 < N → σ.lp (n + 1) = ((σ.lp n).processBlockStereo (Spec.voices σ n)).1.coeffLp2b (P (n + 1)).lpω 0.707
  hp : ∀ n, n + 1 < N → σ.hp (n + 1) = ((σ.hp n).processBlockStereo ((σ.lp n).processBlockStereo (Spec.voices σ n)).2).1.coeffHp (P (n + 1)).hpω 0.707
  wet : ∀ n < N, ((List.range 32).map fun k => (σ.wet false (32 * n + k), σ.wet true (32 * n + k))) =
    ((σ.hp n).processBlockStereo ((σ.lp n).processBlockStereo (Spec.voices σ n)).2).2
  stored : ∀ m, m < 32 * N → σ.stored m = x false m + x true m + max (-1) (min 1 ((σ.wet false m + σ.wet true m) * Spec.ramp (fun n => (P n).feedback) 32 m))
  out : ∀ c m, m < 32 * N → y c m = x c m * (1 - Spec.ramp (fun n => (P n).mix) 32 m) + Spec.widened P σ c m * Spec.ramp (fun n => (P n).mix) 32 m

/-! ## The controls -/

theorem reached_succ (u : ℕ → ℝ) (n : ℕ) : Spec.reached u (n + 1) = u n / 4 + 3 / 4 * Spec.reached u n := rfl

theorem pan_gain (i : ℕ) (c : Bool) : panOf i c = Spec.gain i c := by
  have h4 : Real.sqrt 4 = 2 := by rw [show (4 : ℝ) = 2 ^ 2 by norm_num]; exact Real.sqrt_sq (by norm_num)
  unfold panOf Spec.gain place
  rw [h4, show (0.5 : ℝ) + 0.5 * (2 * ((i : ℝ) / (4 - 1)) - 1) = (i : ℝ) / 3 by norm_num; ring, show (0.5 : ℝ) - 0.5 * (2 * ((i : ℝ) / (4 - 1)) - 1) = 1 - (i : ℝ) / 3 by norm_num; ring]
  cases c <;> simp <;> ring

theorem phase_succ (P : ℕ → Params) (i n : ℕ) : advance (P n).rate (Spec.phase P i n) = Spec.phase P i (n + 1) := by
  unfold advance
  rw [Spec.phase]
  by_cases h : Spec.phase P i n + (P n).rate ≤ 1
  · rw [if_pos h, if_neg (not_lt.2 h)]
  · rw [if_neg h, if_pos (not_le.1 h)]

/-- The controls after `N` blocks. -/
structure Ctl (P : ℕ → Params) (N : ℕ) (s : State) : Prop where
  fb : s.feedback.target = Spec.reached (fun n => (P n).feedback) N ∧ s.feedback.blockSize = 32
  mix : s.mix.target = Spec.reached (fun n => (P n).mix) N ∧ s.mix.blockSize = 32
  width : s.width.target = Spec.reached (fun n => (P n).width) N ∧ s.width.blockSize = 64
  pan : s.pan = panOf
  phase : ∀ i, s.phase i = Spec.phase P i N
  time : ∀ i, (s.time i).first = decide (N = 0) ∧ (N ≠ 0 → (s.time i).v = Spec.lag P i (32 * N)) ∧ (s.time i).lp = 0.001 ∧ (s.time i).lpinv = 1 - 0.001

theorem smoothed {l : LipolPs ℝ} {u : ℕ → ℝ} {N : ℕ} {B : ℝ} (h : l.target = Spec.reached u N ∧ l.blockSize = B) :
    l.setTargetSmoothed (u N) = ⟨Spec.reached u (N + 1), Spec.reached u N, B⟩ := by
  unfold LipolPs.setTargetSmoothed
  rw [h.1, h.2, reached_succ]
  congr 1
  ring

theorem ready_of {P : ℕ → Params} {N : ℕ} {s : State} (h : Ctl P N s) :
    (update (P N) s).feedback = ⟨Spec.reached (fun n => (P n).feedback) (N + 1), Spec.reached (fun n => (P n).feedback) N, 32⟩ ∧
    (update (P N) s).mix = ⟨Spec.reached (fun n => (P n).mix) (N + 1), Spec.reached (fun n => (P n).mix) N, 32⟩ ∧
    (update (P N) s).width = ⟨Spec.reached (fun n => (P n).width) (N + 1), Spec.reached (fun n => (P n).width) N, 64⟩ ∧
    (update (P N) s).pan = panOf ∧ (∀ i, (update (P N) s).phase i = Spec.phase P i (N + 1)) ∧
    (∀ i, (update (P N) s).time i = ⟨Spec.lag P i (32 * N), Spec.goal P i N, false, 0.001, 1 - 0.001⟩) := by
  have hp : ∀ i, advance (P N).rate (s.phase i) = Spec.phase P i (N + 1) := fun i => by rw [h.phase, phase_succ]
  refine ⟨smoothed h.fb, smoothed h.mix, smoothed h.width, h.pan, hp, fun i => ?_⟩
  show (s.time i).newValue _ = _
  rw [hp]
  obtain ⟨t1, t2, t3, t4⟩ := h.time i
  have g : (P N).time * (1 + lfoOut (Spec.phase P i (N + 1)) (P N).depth) = Spec.goal P i N := by unfold lfoOut Spec.goal; ring
  rw [g]
  rcases hs : s.time i with ⟨a, b, d, e, f⟩
  rw [hs] at t1 t2 t3 t4
  simp only at t1 t2 t3 t4
  subst t1; subst t3; subst t4
  unfold Lag.newValue
  by_cases hN : N = 0
  · subst hN
    rfl
  · rw [if_neg (by simpa using hN), t2 hN]
    simp [hN]

theorem lag_run {P : ℕ → Params} {N i : ℕ} {l : Lag ℝ} (h : l = ⟨Spec.lag P i (32 * N), Spec.goal P i N, false, 0.001, 1 - 0.001⟩) :
    ∀ k ≤ 32, Lag.process^[k] l = ⟨Spec.lag P i (32 * N + k), Spec.goal P i N, false, 0.001, 1 - 0.001⟩ := by
  intro k
  induction k with
  | zero => intro _; rw [h]; rfl
  | succ k ih =>
    intro hk
    rw [Function.iterate_succ_apply', ih (by omega)]
    unfold Lag.process
    simp only [Lag.mk.injEq, and_true]
    rw [show 32 * N + (k + 1) = (32 * N + k) + 1 by omega, Spec.lag, show (32 * N + k) / 32 = N by omega]
    generalize Spec.lag P i (32 * N + k) = a
    generalize Spec.goal P i N = g
    norm_num
    ring

theorem ctl_start (P : ℕ → Params) : Ctl P 0 (init (P 0) .new) := by
  refine ⟨⟨rfl, ?_⟩, ⟨rfl, ?_⟩, ⟨rfl, rfl⟩, rfl, fun i => ?_, fun i => ⟨rfl, fun h => absurd rfl h, rfl, rfl⟩⟩
  · simp [init, State.new, LipolPs.setTarget, LipolPs.setBlocksize]
  · simp [init, State.new, LipolPs.setTarget, LipolPs.setBlocksize]
  · show place i = _
    unfold place Spec.phase
    norm_num

/-! ## One block -/

theorem gain_ramp (u : ℕ → ℝ) (B : ℝ) (N : ℕ) {k : ℕ} (hk : k < 32) :
    (⟨Spec.reached u (N + 1), Spec.reached u N, B⟩ : LipolPs ℝ).gain k = Spec.ramp u B (32 * N + k) := by
  unfold LipolPs.gain Spec.ramp
  rw [show (32 * N + k) / 32 = N by omega, show (32 * N + k) % 32 = k by omega]

/-- The state after `N` blocks, with the signals up to there. -/
structure Inv (P : ℕ → Params) (x y : Bool → ℕ → ℝ) (σ : Signals) (s : State) (N : ℕ) : Prop where
  flow : Spec.Flow P x y σ N
  ctl : Ctl P N s
  ring : DualDelay.Loop s.wpos s.buf σ.stored (32 * N)
  first : N = 0 → s.lp.coeffLp2b (P 0).lpω 0.707 = Filter.new.coeffLp2b (P 0).lpω 0.707 ∧ s.hp.coeffHp (P 0).hpω 0.707 = Filter.new.coeffHp (P 0).hpω 0.707
  later : ∀ n, N = n + 1 → s.lp = ((σ.lp n).processBlockStereo (Spec.voices σ n)).1 ∧
    s.hp = ((σ.hp n).processBlockStereo ((σ.lp n).processBlockStereo (Spec.voices σ n)).2).1

set_option maxHeartbeats 1000000 in
theorem step {P : ℕ → Params} {x y : Bool → ℕ → ℝ} {σ : Signals} {s : State} {N : ℕ} (h : Inv P x y σ s N) :
    ∃ σ', Inv P x (fun c => splice N (y c) ((process (P N) (blockOf x N) s).2 c)) σ' (process (P N) (blockOf x N) s).1 (N + 1) := by
  obtain ⟨hf, hc, hr, h0, hl⟩ := h
  obtain ⟨t, ht⟩ : ∃ t, t = update (P N) s := ⟨_, rfl⟩
  obtain ⟨e1, e2, e3, e4, e5, e6⟩ := ready_of hc
  rw [← ht] at e1 e2 e3 e4 e5 e6
  have e7 : t.lp = s.lp.coeffLp2b (P N).lpω 0.707 := by rw [ht]; rfl
  have e8 : t.hp = s.hp.coeffHp (P N).hpω 0.707 := by rw [ht]; rfl
  have e9 : t.buf = s.buf := by rw [ht]; rfl
  have e10 : t.wpos = s.wpos := by rw [ht]; rfl
  have run := fun i => lag_run (e6 i)
  obtain ⟨U, hU⟩ : ∃ U : Bool → ℕ → ℝ, U = fun c k => ∑ i ∈ Finset.range 4, Spec.gain i c * Spec.tap (P N).sinc σ.stored (Spec.lag P i (32 * N + (k + 1))) (32 * N + k) := ⟨_, rfl⟩
  have rd : ∀ c, ∀ k < 32, readAt (P N) t c k = U c k := fun c k hk => by
    unfold readAt
    rw [hU]
    refine Finset.sum_congr rfl fun i _ => ?_
    unfold voiceAt
    rw [run i (k + 1) (by omega), e9, e10, e4, pan_gain, mul_comm]
    exact congrArg _ (DualDelay.fir_eq hr hk _ _)
  obtain ⟨cl, hcl⟩ : ∃ cl : List (ℝ × ℝ), cl = (List.range 32).map fun k => (U false k, U true k) := ⟨_, rfl⟩
  have ec : wetOf (P N) t = ((t.lp.processBlockStereo cl).1, (t.hp.processBlockStereo (t.lp.processBlockStereo cl).2).1, (t.hp.processBlockStereo (t.lp.processBlockStereo cl).2).2) := by
    unfold wetOf
    rw [hcl, show ((List.range 32).map fun k => (readAt (P N) t false k, readAt (P N) t true k)) =
      (List.range 32).map fun k => (U false k, U true k) from List.map_congr_left fun k hk => by
        rw [rd _ k (List.mem_range.1 hk), rd _ k (List.mem_range.1 hk)]]
  obtain ⟨u, hu⟩ : ∃ u, u = (t.hp.processBlockStereo (t.lp.processBlockStereo cl).2).2 := ⟨_, rfl⟩
  have ul : u.length = 32 := by rw [hu, DualDelay.block_len, DualDelay.block_len, hcl]; simp
  obtain ⟨e, he⟩ : ∃ e, e = chanOf u := ⟨_, rfl⟩
  obtain ⟨w, hw⟩ : ∃ w, w = storeOf t (blockOf x N) e := ⟨_, rfl⟩
  have ep : process (P N) (blockOf x N) s = (⟨t.feedback, t.mix, t.width, t.pan, fun i => Lag.process^[32] (t.time i), t.phase,
      (t.lp.processBlockStereo cl).1, (t.hp.processBlockStereo (t.lp.processBlockStereo cl).2).1,
      setBuffer t.wpos w t.buf, ((index (t.wpos + 32) (2 ^ 18 - 1) : ℕ) : ℤ)⟩,
      fun c => t.mix.fadeTo 8 (blockOf x N c) (widen t e c) (blockOf x N c)) := by
    have e0 : update (P N) s = t := ht.symm
    simp only [process, e0, ec]
    rw [hw, he, hu]
  rw [ep]
  obtain ⟨σ', hσ⟩ : ∃ σ' : Signals, σ' = ⟨fun c => splice N (σ.read c) (U c), fun c => splice N (σ.wet c) (e c), splice N σ.stored w,
    Function.update σ.lp N t.lp, Function.update σ.hp N t.hp⟩ := ⟨_, rfl⟩
  have r_new : ∀ c, ∀ k < 32, σ'.read c (32 * N + k) = U c k := fun c k hk => by rw [hσ]; exact splice_new _ _ _ hk
  have r_old : ∀ c, ∀ m < 32 * N, σ'.read c m = σ.read c m := fun c m hm => by rw [hσ]; exact splice_old _ _ hm
  have q_new : ∀ c, ∀ k < 32, σ'.wet c (32 * N + k) = e c k := fun c k hk => by rw [hσ]; exact splice_new _ _ _ hk
  have q_old : ∀ c, ∀ m < 32 * N, σ'.wet c m = σ.wet c m := fun c m hm => by rw [hσ]; exact splice_old _ _ hm
  have s_new : ∀ k < 32, σ'.stored (32 * N + k) = w k := fun k hk => by rw [hσ]; exact splice_new _ _ _ hk
  have s_old : ∀ m < 32 * N, σ'.stored m = σ.stored m := fun m hm => by rw [hσ]; exact splice_old _ _ hm
  have s_tap : ∀ (f : ℕ → ℝ) v m, m < 32 * N + 32 → Spec.tap f σ'.stored v m = Spec.tap f σ.stored v m := fun f v m hm => by rw [hσ]; exact DualDelay.tap_splice _ _ _ _ hm
  have l_new : σ'.lp N = t.lp ∧ σ'.hp N = t.hp := by rw [hσ]; exact ⟨Function.update_self .., Function.update_self ..⟩
  have l_old : ∀ n, n ≠ N → σ'.lp n = σ.lp n ∧ σ'.hp n = σ.hp n := fun n hn => by rw [hσ]; exact ⟨Function.update_of_ne hn .., Function.update_of_ne hn ..⟩
  have c_old : ∀ n < N, Spec.voices σ' n = Spec.voices σ n := fun n hn => List.map_congr_left fun k hk => by
    have := List.mem_range.1 hk
    rw [r_old _ _ (by omega), r_old _ _ (by omega)]
  have c_new : Spec.voices σ' N = cl := by
    rw [hcl]
    exact List.map_congr_left fun k hk => by rw [r_new _ _ (List.mem_range.1 hk), r_new _ _ (List.mem_range.1 hk)]
  have split : ∀ n < 32 * (N + 1), n < 32 * N ∨ ∃ k < 32, n = 32 * N + k := fun n hn => by
    by_cases hh : n < 32 * N
    · exact .inl hh
    · exact .inr ⟨n - 32 * N, by omega, by omega⟩
  refine ⟨σ', ⟨?_, ?_, ?_, ?_, ?_, ?_, ?_, ?_⟩, ⟨?_, ?_, ?_, ?_, ?_, ?_⟩, ?_, ?_, ?_⟩
  · intro c m hm
    rcases split m hm with hm | ⟨k, hk, rfl⟩
    · rw [r_old c m hm, hf.read c m hm]
      exact Finset.sum_congr rfl fun i _ => by rw [s_tap _ _ _ (by omega)]
    · rw [r_new c k hk, show (32 * N + k) / 32 = N by omega, hU]
      exact Finset.sum_congr rfl fun i _ => by rw [s_tap _ _ _ (by omega)]; rfl
  · by_cases hN : N = 0
    · subst hN
      rw [l_new.1, e7]
      exact (h0 rfl).1
    · rw [(l_old 0 (Ne.symm hN)).1]; exact hf.lp0
  · by_cases hN : N = 0
    · subst hN
      rw [l_new.2, e8]
      exact (h0 rfl).2
    · rw [(l_old 0 (Ne.symm hN)).2]; exact hf.hp0
  · intro n hn
    rw [(l_old n (by omega)).1, c_old n (by omega)]
    by_cases hN : n + 1 = N
    · rw [hN, l_new.1, e7, (hl n hN.symm).1]
    · rw [(l_old _ hN).1]; exact hf.lp n (by omega)
  · intro n hn
    rw [(l_old n (by omega)).1, (l_old n (by omega)).2, c_old n (by omega)]
    by_cases hN : n + 1 = N
    · rw [hN, l_new.2, e8, (hl n hN.symm).2]
    · rw [(l_old _ hN).2]; exact hf.hp n (by omega)
  · intro n hn
    by_cases hN : n = N
    · subst hN
      rw [l_new.1, l_new.2, c_new, ← hu, ← DualDelay.chanOf_list ul]
      exact List.map_congr_left fun k hk => by rw [q_new _ _ (List.mem_range.1 hk), q_new _ _ (List.mem_range.1 hk), he]
    · rw [(l_old n hN).1, (l_old n hN).2, c_old n (by omega), ← hf.wet n (by omega)]
      exact List.map_congr_left fun k hk => by
        have := List.mem_range.1 hk
        rw [q_old _ _ (by omega), q_old _ _ (by omega)]
  · intro m hm
    rcases split m hm with hm | ⟨k, hk, rfl⟩
    · rw [s_old m hm, q_old _ m hm, q_old _ m hm, hf.stored m hm]
    · rw [s_new k hk, q_new _ k hk, q_new _ k hk, hw]
      have g := gain_ramp (fun n => (P n).feedback) 32 N hk
      rw [← e1] at g
      unfold storeOf
      rw [DualDelay.mul_eq' _ _ hk, g, max_comm, min_comm]
      simp only [blockOf]
      ring
  · intro c m hm
    rcases split m hm with hm | ⟨k, hk, rfl⟩
    · rw [splice_old _ _ hm, hf.out c m hm]
      unfold Spec.widened
      rw [q_old _ m hm, q_old _ m hm]
    · rw [splice_new _ _ _ hk]
      have g := gain_ramp (fun n => (P n).mix) 32 N hk
      rw [← e2] at g
      have g' := gain_ramp (fun n => (P n).width) 64 N hk
      rw [← e3] at g'
      show t.mix.fadeTo 8 (blockOf x N c) (widen t e c) (blockOf x N c) k = _
      rw [DualDelay.fade_eq _ _ _ _ hk, g]
      congr 2
      unfold widen Spec.widened
      rw [DualDelay.mul_eq' _ _ hk, g', q_new _ k hk, q_new _ k hk]
      cases c
      · simp only [Bool.false_eq_true, if_false]; ring
      · simp only [if_true]; ring
  · rw [e1]; exact ⟨rfl, rfl⟩
  · rw [e2]; exact ⟨rfl, rfl⟩
  · rw [e3]; exact ⟨rfl, rfl⟩
  · exact e4
  · exact e5
  · intro i
    have := run i 32 le_rfl
    refine ⟨(congrArg Lag.first this).trans (by simp), fun _ => congrArg Lag.v this, congrArg Lag.lp this, congrArg Lag.lpinv this⟩
  · have := DualDelay.ring_step (w := w) hr
    rw [hσ, e9, e10]
    exact this
  · intro hh; omega
  · intro n hn
    have : n = N := by omega
    subst this
    rw [l_new.1, l_new.2, c_new]
    exact ⟨rfl, rfl⟩

end Verif.Effects.Chorus
