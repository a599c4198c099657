import Verif.Effects.DualDelayClaims
/-!
# The rotary speaker (C225-C231), in exact real arithmetic

surgefx-rotary with surge-quadrosc, at its block size of 32 samples, with any automation of its parameters.  Parameters arrive converted (`Params`); the interpolation kernel is any function.
Channel `false` is the left one, `true` the right one.  Not modelled: rounding, the ring-out counter, `drive` (a ramp that is advanced and read nowhere).
-/
namespace Verif.Effects.Rotary
open Verif.Smooth Verif.Biquad Verif.Tables
open Verif.Effects.FreqShift (Osc toI32 splice blockOf splice_new splice_old past_splice idx toI32_of)
open Verif.Effects.DualDelay (delayOf delayOf_range written written_eq Empty')

/-! ## Model -/

/-- rotary_speaker.rs 9-26. -/
structure State where
  buf : ℕ → ℝ
  wpos : ℤ
  xover : Filter
  lowbass : Filter
  lfo : Osc
  lf : Osc
  delay : Bool → LiPol ℝ
  horn : Bool → LiPol ℝ

/-- The parameters as converted: `turn` is `2π 2^rate / samplerate`, the horn's angle per sample; `delay` is `samplerate * 0.0018 * doppler`; `amp` the amplitude modulation; `ret` the return
level, which nothing reads; the kernel. -/
structure Params where
  turn : ℝ
  delay : ℝ
  amp : ℝ
  ret : ℝ
  sinc : ℕ → ℝ

/-- new.rs 5-33 `new`. -/
noncomputable def State.new : State := ⟨fun _ => 0, 0, .new, .new, .default, .default, fun _ => .new 32, fun _ => .new 32⟩

/-- init.rs 5-12 `suspend`: suspending a biquad does nothing (surge-biquad/src/biquad.rs). -/
def suspend (s : State) : State := ⟨fun _ => 0, 0, s.xover, s.lowbass, s.lfo, s.lf, s.delay, s.horn⟩

/-- init.rs 16-25 `init`; `ωx`, `ωb` are the two fixed frequencies as `calc_omega` gives them. -/
noncomputable def init (ωx ωb : ℝ) (s : State) : State :=
  ⟨fun _ => 0, 0, s.xover.coeffLp2b ωx 0.707, s.lowbass.coeffLp2b ωb 0.707, s.lfo, s.lf, s.delay, s.horn⟩

/-- process.rs 14-18: from the horn to the microphone of channel `c`, distance `len`. -/
noncomputable def toMic (o : Osc) (c : Bool) : ℝ × ℝ := ((if c then 1 else -1) - o.r, -2 - o.i)
/-- process.rs 17-18. -/
noncomputable def len (o : Osc) (c : Bool) : ℝ := Real.sqrt ((toMic o c).2 * (toMic o c).2 + (toMic o c).1 * (toMic o c).1)
/-- process.rs 28-29. -/
noncomputable def dotp (o : Osc) (c : Bool) : ℝ := ((toMic o c).1 * o.r + (toMic o c).2 * o.i) / len o c

/-- block.rs 24-35: the offset into the kernel. -/
noncomputable def sincOf (d : ℤ) (v : ℝ) : ℤ := toI32 (12 * max 0 (min (256 * (((d + 1 : ℤ) : ℝ) - v)) 255))

/-- block.rs 41-51: twelve products. -/
noncomputable def fir (sinc : ℕ → ℝ) (buf : ℕ → ℝ) (rp o : ℤ) : ℝ := ∑ i ∈ Finset.range 12, buf (index (rp - (i : ℕ)) (2 ^ 18 - 1)) * sinc (o + 12 - (i : ℕ)).toNat

/-- block.rs 5-53: sample `k`; `w` is what the block writes into the buffer. -/
noncomputable def readAt (P : Params) (s : State) (dl : LiPol ℝ) (w : ℕ → ℝ) (k : ℕ) : ℝ :=
  let v := (dl.steps k).v
  fir P.sinc (written s.wpos w s.buf (k + 1)) (s.wpos - delayOf v + k) (sincOf (delayOf v) v)

/-- process.rs 5-88 `stereo_process`, with set.rs, pre_block.rs, block.rs and post_block.rs. -/
noncomputable def process (P : Params) (x : Bool → ℕ → ℝ) (s : State) : State × (Bool → ℕ → ℝ) :=
  let lfo := s.lfo.setRate (P.turn * 32)
  let lf := s.lf.setRate (0.7 * P.turn * 32)
  let dl := fun c => (s.delay c).newValue (P.delay * len lfo c)
  let a := P.amp * 0.6
  let horn := fun c => (s.horn c).newValue ((1 - a) + a * dotp lfo c)
  let mono : ℕ → ℝ := fun k => 0.5 * (x false k + x true k)
  let p := s.xover.processBlockMono ((List.range 32).map mono)
  let w : ℕ → ℝ := fun k => mono k - p.2.getD k 0
  let q := s.lowbass.processBlockMono p.2
  let bass : ℕ → ℝ := fun k => q.2.getD k 0 + (p.2.getD k 0 - q.2.getD k 0) * ((Osc.process^[k] lf).r * 0.6 + 0.3)
  (⟨written s.wpos w s.buf 32, ((index (s.wpos + 32) (2 ^ 18 - 1) : ℕ) : ℤ), p.1, q.1, lfo.process, Osc.process^[32] lf, fun c => (dl c).steps 32, fun c => (horn c).steps 32⟩,
    fun c k => ((horn c).steps k).v * readAt P s (dl c) w k + bass k)

/-- process.rs 91-101 `process_only_control`. -/
noncomputable def control (P : Params) (s : State) : State :=
  ⟨s.buf, s.wpos, s.xover, s.lowbass, (s.lfo.setRate (P.turn * 32)).process, (s.lf.setRate (0.7 * P.turn * 32)).process, s.delay, s.horn⟩

/-- `N` blocks of `x` from state `s`, block `n` with parameters `P n`: the state then, and the output so far. -/
noncomputable def playFrom (s : State) (P : ℕ → Params) (x : Bool → ℕ → ℝ) : ℕ → State × (Bool → ℕ → ℝ)
  | 0 => (s, fun _ _ => 0)
  | n + 1 =>
    let p := playFrom s P x n
    let q := process (P n) (blockOf x n) p.1
    (q.1, fun c => splice n (p.2 c) (q.2 c))

/-- `new`, `init`, then `N` blocks. -/
noncomputable def play (ωx ωb : ℝ) (P : ℕ → Params) (x : Bool → ℕ → ℝ) (N : ℕ) : State × (Bool → ℕ → ℝ) := playFrom (init ωx ωb .new) P x N

/-! ## Specification -/

/-- The horn's angle at the beginning of block `n`. -/
noncomputable def Spec.angle (P : ℕ → Params) (n : ℕ) : ℝ := ∑ j ∈ Finset.range n, 32 * (P j).turn
/-- The bass rotor's angle at sample `m`. -/
noncomputable def Spec.bassAngle (P : ℕ → Params) (m : ℕ) : ℝ := ∑ j ∈ Finset.range m, 0.7 * (32 * (P (j / 32)).turn)

/-- The tip of the horn, on the unit circle, and the microphone of channel `c`. -/
noncomputable def Spec.tip (θ : ℝ) : ℝ × ℝ := (Real.sin θ, -Real.cos θ)
def Spec.mic (c : Bool) : ℝ × ℝ := (if c then 1 else -1, -2)
/-- Their distance, and the cosine of the angle between the direction of the horn and that towards the microphone. -/
noncomputable def Spec.dist (θ : ℝ) (c : Bool) : ℝ := Real.sqrt (((Spec.mic c).1 - (Spec.tip θ).1) ^ 2 + ((Spec.mic c).2 - (Spec.tip θ).2) ^ 2)
noncomputable def Spec.facing (θ : ℝ) (c : Bool) : ℝ :=
  (((Spec.mic c).1 - (Spec.tip θ).1) * (Spec.tip θ).1 + ((Spec.mic c).2 - (Spec.tip θ).2) * (Spec.tip θ).2) / Spec.dist θ c

/-- A control that aims at `u n` in block `n`: it moves there in a straight line; the first block starts on its own value. -/
noncomputable def Spec.glide (u : ℕ → ℝ) (m : ℕ) : ℝ := u (m / 32 - 1) + (u (m / 32) - u (m / 32 - 1)) * (((m % 32 : ℕ) : ℝ) / 32)

/-- What the delay and the gain of the horn aim at in block `n`. -/
noncomputable def Spec.delay (P : ℕ → Params) (c : Bool) (n : ℕ) : ℝ := (P n).delay * Spec.dist (Spec.angle P n) c
noncomputable def Spec.gain (P : ℕ → Params) (c : Bool) (n : ℕ) : ℝ := 1 - 0.6 * (P n).amp * (1 - Spec.facing (Spec.angle P n) c)

/-- Where the twelve coefficients begin. -/
noncomputable def Spec.offset (v : ℝ) : ℕ := ⌊12 * max 0 (min (256 * (((delayOf v + 1 : ℤ) : ℝ) - v)) 255)⌋₊

/-- The interpolated reading, at sample `n`, of a signal at a delay of `v` samples. -/
noncomputable def Spec.tap (sinc : ℕ → ℝ) (b : ℕ → ℝ) (v : ℝ) (n : ℕ) : ℝ :=
  ∑ i ∈ Finset.range 12, sinc (Spec.offset v + 12 - i) * FreqShift.Spec.past b ((n : ℤ) - delayOf v - (i : ℕ))

/-- The signals inside the effect: what the crossover keeps, what the second filter keeps of that; and the two filters before each block. -/
structure Signals where
  low : ℕ → ℝ
  sub : ℕ → ℝ
  xover : ℕ → Filter
  lowbass : ℕ → Filter

/-- The input, in mono, and what the crossover takes away. -/
noncomputable def Spec.mono (x : Bool → ℕ → ℝ) (m : ℕ) : ℝ := (x false m + x true m) / 2
noncomputable def Spec.high (x : Bool → ℕ → ℝ) (σ : Signals) (m : ℕ) : ℝ := Spec.mono x m - σ.low m

/-- The flow of the signals in the first `N` blocks. -/
structure Spec.Flow (ωx ωb : ℝ) (P : ℕ → Params) (x y : Bool → ℕ → ℝ) (σ : Signals) (N : ℕ) : Prop where
  x0 : σ.xover 0 = Filter.new.coeffLp2b ωx 0.707
  b0 : σ.lowbass 0 = Filter.new.coeffLp2b ωb 0.707
  low : ∀ n < N, (σ.xover n).processBlockMono ((List.range 32).map fun k => Spec.mono x (32 * n + k)) = (σ.xover (n + 1), (List.range 32).map fun k => σ.low (32 * n + k))
  sub : ∀ n < N, (σ.lowbass n).processBlockMono ((List.range 32).map fun k => σ.low (32 * n + k)) = (σ.lowbass (n + 1), (List.range 32).map fun k => σ.sub (32 * n + k))
  out : ∀ c m, m < 32 * N → y c m = Spec.glide (Spec.gain P c) m * Spec.tap (P (m / 32)).sinc (Spec.high x σ) (Spec.glide (Spec.delay P c) m) m +
    (σ.sub m + (σ.low m - σ.sub m) * (0.6 * Real.sin (Spec.bassAngle P m) + 0.3))

/-! ## Oscillators and ramps -/

/-- An oscillator at angle `θ`. -/
def At (θ : ℝ) (o : Osc) : Prop := o.r = Real.sin θ ∧ o.i = -Real.cos θ

theorem at_rate {θ : ℝ} {o : Osc} (h : At θ o) (w : ℝ) : o.setRate w = ⟨Real.sin θ, -Real.cos θ, Real.cos w, Real.sin w⟩ := by
  unfold Osc.setRate
  have : Real.sin θ * Real.sin θ + -Real.cos θ * -Real.cos θ = 1 := by nlinarith [Real.sin_sq_add_cos_sq θ]
  simp only [h.1, h.2, this, Real.sqrt_one, div_one, mul_one]

theorem at_step (θ w : ℝ) : (⟨Real.sin θ, -Real.cos θ, Real.cos w, Real.sin w⟩ : Osc).process = ⟨Real.sin (θ + w), -Real.cos (θ + w), Real.cos w, Real.sin w⟩ := by
  unfold Osc.process
  rw [Real.sin_add, Real.cos_add]
  simp only [Osc.mk.injEq, and_true]
  constructor <;> ring

theorem at_steps (θ w : ℝ) (k : ℕ) : Osc.process^[k] (⟨Real.sin θ, -Real.cos θ, Real.cos w, Real.sin w⟩ : Osc) = ⟨Real.sin (θ + k * w), -Real.cos (θ + k * w), Real.cos w, Real.sin w⟩ := by
  induction k with
  | zero => simp
  | succ k ih => rw [Function.iterate_succ_apply', ih, at_step]; push_cast; rw [show θ + k * w + w = θ + (k + 1) * w by ring]

theorem bassAngle_block (P : ℕ → Params) (N : ℕ) {k : ℕ} (hk : k ≤ 32) : Spec.bassAngle P (32 * N + k) = Spec.bassAngle P (32 * N) + k * (0.7 * (P N).turn * 32) := by
  induction k with
  | zero => simp
  | succ k ih =>
    have := ih (by omega)
    unfold Spec.bassAngle at *
    rw [← add_assoc, Finset.sum_range_succ, this, show (32 * N + k) / 32 = N by omega]
    push_cast; ring

theorem len_at {θ : ℝ} {o : Osc} (h : At θ o) (c : Bool) : len o c = Spec.dist θ c ∧ dotp o c = Spec.facing θ c := by
  have e : len o c = Spec.dist θ c := by
    unfold len Spec.dist toMic Spec.mic Spec.tip
    rw [h.1, h.2]
    congr 1; ring
  refine ⟨e, ?_⟩
  unfold dotp Spec.facing
  rw [e]
  unfold toMic Spec.mic Spec.tip
  rw [h.1, h.2]

/-- A ramp before block `n`. -/
def Ramps (u : ℕ → ℝ) (n : ℕ) (l : LiPol ℝ) : Prop := l.bsInv = 1 / (32 : ℕ) ∧ if n = 0 then l.first = true else l.first = false ∧ l.newV = u (n - 1)

theorem ramps_step {u : ℕ → ℝ} {n : ℕ} {l : LiPol ℝ} (h : Ramps u n l) : Ramps u (n + 1) ((l.newValue (u n)).steps 32) ∧ ∀ k < 32, ((l.newValue (u n)).steps k).v = Spec.glide u (32 * n + k) := by
  obtain ⟨hb, hf⟩ := h
  refine ⟨⟨?_, ?_⟩, fun k hk => ?_⟩
  · rw [LiPol.steps_eq]; exact hb
  · rw [if_neg (by omega), LiPol.steps_eq]
    exact ⟨rfl, rfl⟩
  · rw [(C52_line l (u n) (by norm_num) hb k).1]
    unfold Spec.glide
    rw [show (32 * n + k) / 32 = n by omega, show (32 * n + k) % 32 = k by omega]
    split_ifs at hf with h0
    · subst h0; rw [hf]; simp
    · rw [hf.1, hf.2]; simp

/-! ## The buffer -/

/-- The ring holds the last `2 ^ 18` stored samples. -/
structure Loop (wpos : ℤ) (buf : ℕ → ℝ) (b : ℕ → ℝ) (n : ℕ) : Prop where
  wp : wpos = (n : ℤ) % 2 ^ 18
  buf : ∀ m : ℤ, (n : ℤ) - 2 ^ 18 ≤ m → m < n → buf (m % 2 ^ 18).toNat = FreqShift.Spec.past b m

theorem sincOf_eq (v : ℝ) : sincOf (delayOf v) v = (Spec.offset v : ℤ) ∧ Spec.offset v ≤ 12 * 255 := by
  obtain ⟨y, hy⟩ : ∃ y, y = 12 * max 0 (min (256 * (((delayOf v + 1 : ℤ) : ℝ) - v)) 255) := ⟨_, rfl⟩
  have y0 : 0 ≤ y := by rw [hy]; positivity
  have y1 : y ≤ 12 * 255 := by
    rw [hy]
    have : max 0 (min (256 * (((delayOf v + 1 : ℤ) : ℝ) - v)) 255) ≤ 255 := max_le (by norm_num) (min_le_right _ _)
    linarith
  unfold sincOf Spec.offset
  rw [← hy, toI32_of (by rw [abs_of_nonneg y0]; linarith), if_pos y0]
  refine ⟨(Int.natCast_floor_eq_floor y0).symm, ?_⟩
  have := Nat.floor_le_floor y1
  rwa [show (12 * 255 : ℝ) = ((12 * 255 : ℕ) : ℝ) by norm_num, Nat.floor_natCast] at this

theorem wpos_range {wpos : ℤ} {buf b : ℕ → ℝ} {n : ℕ} (h : Loop wpos buf b (32 * n)) : 0 ≤ wpos ∧ wpos + 32 ≤ 2 ^ 18 := by
  have := h.wp
  push_cast at this
  omega

theorem read_eq {wpos : ℤ} {buf b w : ℕ → ℝ} {n k : ℕ} (h : Loop wpos buf b (32 * n)) (hk : k < 32) (sinc : ℕ → ℝ) (v : ℝ) :
    fir sinc (written wpos w buf (k + 1)) (wpos - delayOf v + k) (sincOf (delayOf v) v) = Spec.tap sinc b v (32 * n + k) := by
  obtain ⟨d1, d2⟩ := delayOf_range v
  obtain ⟨w0, w1⟩ := wpos_range h
  unfold fir Spec.tap
  rw [(sincOf_eq v).1]
  refine Finset.sum_congr rfl fun i hi => ?_
  have hi := Finset.mem_range.1 hi
  have hw := h.wp
  generalize delayOf v = d at *
  rw [mul_comm]
  congr 1
  · congr 1; omega
  · have e : (wpos - d + k - (i : ℤ)) % 2 ^ 18 = (((32 * n + k : ℕ) : ℤ) - d - i) % 2 ^ 18 := by
      rw [hw]; push_cast; omega
    rw [idx, e, written_eq _ _ _ w0 w1 _ (by omega), if_neg, h.buf _ (by push_cast; omega) (by push_cast; omega)]
    push_cast at *
    omega

theorem ring_step {wpos : ℤ} {buf b w : ℕ → ℝ} {n : ℕ} (h : Loop wpos buf b (32 * n)) :
    Loop ((index (wpos + 32) (2 ^ 18 - 1) : ℕ) : ℤ) (written wpos w buf 32) (splice n b w) (32 * (n + 1)) := by
  have hw := h.wp
  obtain ⟨w0, w1⟩ := wpos_range h
  refine ⟨?_, fun m m0 m1 => ?_⟩
  · rw [idx, hw]; push_cast; omega
  · rw [written_eq _ _ _ w0 w1 _ le_rfl]
    by_cases hn : ((32 * n : ℕ) : ℤ) ≤ m
    · obtain ⟨k, hk⟩ : ∃ k : ℕ, m = ((32 * n + k : ℕ) : ℤ) := ⟨(m - (32 * n : ℕ)).toNat, by push_cast at *; omega⟩
      rw [show FreqShift.Spec.past (splice n b w) m = splice n b w m.toNat from if_pos (by omega), hk, Int.toNat_natCast, splice_new _ _ _ (by push_cast at *; omega),
        if_pos (by push_cast at *; omega)]
      exact congrArg w (by push_cast at *; omega)
    · rw [if_neg (by push_cast at *; omega), h.buf m (by push_cast at *; omega) (by omega)]
      exact (past_splice b w (by omega)).symm

theorem tap_splice (sinc : ℕ → ℝ) (v : ℝ) {n m : ℕ} (f g : ℕ → ℝ) (h : m < 32 * n + 32) : Spec.tap sinc (splice n f g) v m = Spec.tap sinc f v m := by
  obtain ⟨d1, -⟩ := delayOf_range v
  unfold Spec.tap
  refine Finset.sum_congr rfl fun j hj => ?_
  have hj := Finset.mem_range.1 hj
  rw [show FreqShift.Spec.past (splice n f g) _ = FreqShift.Spec.past f _ from past_splice f g (by push_cast; omega)]

theorem tap_congr (sinc : ℕ → ℝ) (v : ℝ) {f g : ℕ → ℝ} {m : ℕ} (h : ∀ j < m, f j = g j) : Spec.tap sinc f v m = Spec.tap sinc g v m := by
  obtain ⟨d1, -⟩ := delayOf_range v
  unfold Spec.tap
  refine Finset.sum_congr rfl fun j hj => ?_
  congr 1
  unfold FreqShift.Spec.past
  split
  · exact h _ (by omega)
  · rfl

/-! ## The flow -/

theorem mono_len (f : Filter) (xs : List ℝ) : (f.processBlockMono xs).2.length = xs.length := by
  unfold Filter.processBlockMono
  induction xs generalizing f with
  | nil => rfl
  | cons x xs ih => simp only [Filter.monoLoop, List.length_cons]; rw [ih]

theorem list_of_getD {ys : List ℝ} (h : ys.length = 32) : ys = (List.range 32).map fun k => ys.getD k 0 := by
  refine List.ext_getElem (by simp [h]) fun k h1 h2 => ?_
  simp [h1]

/-- What holds before block `N`. -/
structure Inv (ωx ωb : ℝ) (P : ℕ → Params) (x : Bool → ℕ → ℝ) (σ : Signals) (N : ℕ) (s : State) : Prop where
  lfo : At (Spec.angle P N) s.lfo
  lf : At (Spec.bassAngle P (32 * N)) s.lf
  delay : ∀ c, Ramps (Spec.delay P c) N (s.delay c)
  horn : ∀ c, Ramps (Spec.gain P c) N (s.horn c)
  loop : ∃ b, Loop s.wpos s.buf b (32 * N) ∧ ∀ m < 32 * N, b m = Spec.high x σ m
  xover : s.xover = σ.xover N
  lowbass : s.lowbass = σ.lowbass N

theorem flow_aux (ωx ωb : ℝ) (P : ℕ → Params) (x : Bool → ℕ → ℝ) (N : ℕ) :
    ∃ σ, Spec.Flow ωx ωb P x (play ωx ωb P x N).2 σ N ∧ Inv ωx ωb P x σ N (play ωx ωb P x N).1 := by
  induction N with
  | zero =>
    refine ⟨⟨fun _ => 0, fun _ => 0, fun _ => Filter.new.coeffLp2b ωx 0.707, fun _ => Filter.new.coeffLp2b ωb 0.707⟩,
      ⟨rfl, rfl, fun _ h => absurd h (by omega), fun _ h => absurd h (by omega), fun _ _ h => absurd h (by omega)⟩,
      ⟨?_, ?_, fun c => ⟨rfl, rfl⟩, fun c => ⟨rfl, rfl⟩, ⟨fun _ => 0, ⟨rfl, fun m _ _ => ?_⟩, fun m h => absurd h (by omega)⟩, rfl, rfl⟩⟩
    · simp [At, Spec.angle, play, playFrom, init, State.new, Osc.default]
    · simp [At, Spec.bassAngle, play, playFrom, init, State.new, Osc.default]
    · simp [FreqShift.Spec.past]; rfl
  | succ N ih =>
    obtain ⟨σ, hf, hi⟩ := ih
    obtain ⟨s, hs⟩ : ∃ s, s = (play ωx ωb P x N).1 := ⟨_, rfl⟩
    obtain ⟨y, hy⟩ : ∃ y, y = (play ωx ωb P x N).2 := ⟨_, rfl⟩
    have hplay : play ωx ωb P x (N + 1) = ((process (P N) (blockOf x N) s).1, fun c => splice N (y c) ((process (P N) (blockOf x N) s).2 c)) := by rw [hs, hy]; rfl
    rw [← hs] at hi
    rw [← hy] at hf
    rw [hplay]
    obtain ⟨b, hl, hb⟩ := hi.loop
    obtain ⟨p, hp⟩ : ∃ p, p = s.xover.processBlockMono ((List.range 32).map fun k => (0.5 : ℝ) * (blockOf x N false k + blockOf x N true k)) := ⟨_, rfl⟩
    obtain ⟨q, hq⟩ : ∃ q, q = s.lowbass.processBlockMono p.2 := ⟨_, rfl⟩
    have pl : p.2.length = 32 := by rw [hp, mono_len]; simp
    have ql : q.2.length = 32 := by rw [hq, mono_len, pl]
    have em : ((List.range 32).map fun k => (0.5 : ℝ) * (blockOf x N false k + blockOf x N true k)) = (List.range 32).map fun k => Spec.mono x (32 * N + k) :=
      List.map_congr_left fun k _ => by unfold Spec.mono blockOf; ring
    let σ' : Signals := ⟨splice N σ.low (fun k => p.2.getD k 0), splice N σ.sub (fun k => q.2.getD k 0),
      fun n => if n = N + 1 then p.1 else σ.xover n, fun n => if n = N + 1 then q.1 else σ.lowbass n⟩
    have lown : ∀ k < 32, σ'.low (32 * N + k) = p.2.getD k 0 := fun k hk => splice_new N σ.low (fun k => p.2.getD k 0) hk
    have subn : ∀ k < 32, σ'.sub (32 * N + k) = q.2.getD k 0 := fun k hk => splice_new N σ.sub (fun k => q.2.getD k 0) hk
    have lowo : ∀ m < 32 * N, σ'.low m = σ.low m := fun m hm => splice_old σ.low (fun k => p.2.getD k 0) hm
    have subo : ∀ m < 32 * N, σ'.sub m = σ.sub m := fun m hm => splice_old σ.sub (fun k => q.2.getD k 0) hm
    have xo : ∀ n ≤ N, σ'.xover n = σ.xover n := fun n hn => if_neg (by omega)
    have bo : ∀ n ≤ N, σ'.lowbass n = σ.lowbass n := fun n hn => if_neg (by omega)
    have xn : σ'.xover (N + 1) = p.1 := if_pos rfl
    have bn : σ'.lowbass (N + 1) = q.1 := if_pos rfl
    have lowl : ((List.range 32).map fun k => σ'.low (32 * N + k)) = p.2 := by
      refine Eq.trans ?_ (list_of_getD pl).symm
      exact List.map_congr_left fun k hk => by exact lown k (List.mem_range.1 hk)
    have subl : ((List.range 32).map fun k => σ'.sub (32 * N + k)) = q.2 := by
      refine Eq.trans ?_ (list_of_getD ql).symm
      exact List.map_congr_left fun k hk => by exact subn k (List.mem_range.1 hk)
    have hlfo := at_rate hi.lfo ((P N).turn * 32)
    have hlf := at_rate hi.lf (0.7 * (P N).turn * 32)
    have ho : At (Spec.angle P N) (s.lfo.setRate ((P N).turn * 32)) := by rw [hlfo]; exact ⟨rfl, rfl⟩
    have ed : ∀ c, (P N).delay * len (s.lfo.setRate ((P N).turn * 32)) c = Spec.delay P c N := fun c => by rw [(len_at ho c).1]; rfl
    have eg : ∀ c, (1 - (P N).amp * 0.6) + (P N).amp * 0.6 * dotp (s.lfo.setRate ((P N).turn * 32)) c = Spec.gain P c N := fun c => by
      rw [(len_at ho c).2]; unfold Spec.gain; ring
    have hpx : s.xover.processBlockMono ((List.range 32).map fun k => (0.5 : ℝ) * (blockOf x N false k + blockOf x N true k)) = p := hp.symm
    have e1 : (process (P N) (blockOf x N) s).1 = ⟨written s.wpos (fun k => 0.5 * (blockOf x N false k + blockOf x N true k) - p.2.getD k 0) s.buf 32,
        ((index (s.wpos + 32) (2 ^ 18 - 1) : ℕ) : ℤ), p.1, q.1, (s.lfo.setRate ((P N).turn * 32)).process, Osc.process^[32] (s.lf.setRate (0.7 * (P N).turn * 32)),
        fun c => ((s.delay c).newValue (Spec.delay P c N)).steps 32, fun c => ((s.horn c).newValue (Spec.gain P c N)).steps 32⟩ := by
      unfold process
      simp only [hpx, ← hq, ed, eg]
    have e2 : ∀ c k, (process (P N) (blockOf x N) s).2 c k = (((s.horn c).newValue (Spec.gain P c N)).steps k).v *
        readAt (P N) s ((s.delay c).newValue (Spec.delay P c N)) (fun k => 0.5 * (blockOf x N false k + blockOf x N true k) - p.2.getD k 0) k +
        (q.2.getD k 0 + (p.2.getD k 0 - q.2.getD k 0) * ((Osc.process^[k] (s.lf.setRate (0.7 * (P N).turn * 32))).r * 0.6 + 0.3)) := by
      intro c k
      unfold process
      simp only [hpx, ← hq, ed, eg]
    refine ⟨σ', ⟨?_, ?_, fun n hn => ?_, fun n hn => ?_, fun c m hm => ?_⟩, ?_⟩
    · rw [xo 0 (by omega)]; exact hf.x0
    · rw [bo 0 (by omega)]; exact hf.b0
    · by_cases h : n = N
      · subst h
        rw [xn, xo n le_rfl, lowl, ← hi.xover, ← em, hpx]
      · rw [xo n (by omega), xo (n + 1) (by omega), hf.low n (by omega)]
        congr 1
        exact List.map_congr_left fun k hk => (lowo _ (by have := List.mem_range.1 hk; omega)).symm
    · by_cases h : n = N
      · subst h
        rw [bn, bo n le_rfl, lowl, subl, ← hi.lowbass, ← hq]
      · rw [bo n (by omega), bo (n + 1) (by omega), show ((List.range 32).map fun k => σ'.low (32 * n + k)) = (List.range 32).map fun k => σ.low (32 * n + k) from
          List.map_congr_left fun k hk => lowo _ (by have := List.mem_range.1 hk; omega), hf.sub n (by omega)]
        congr 1
        exact List.map_congr_left fun k hk => (subo _ (by have := List.mem_range.1 hk; omega)).symm
    · by_cases h : m < 32 * N
      · simp only []
        rw [splice_old _ _ h, hf.out c m h, lowo m h, subo m h]
        congr 2
        exact tap_congr _ _ fun j hj => by unfold Spec.high; rw [lowo j (by omega)]
      · obtain ⟨k, rfl⟩ : ∃ k, m = 32 * N + k := ⟨m - 32 * N, by omega⟩
        have hk : k < 32 := by omega
        simp only []
        rw [splice_new _ _ _ hk, e2, (ramps_step (hi.horn c)).2 k hk, lown k hk, subn k hk]
        congr 1
        · congr 1
          unfold readAt
          simp only []
          rw [(ramps_step (hi.delay c)).2 k hk, read_eq hl hk, show (32 * N + k) / 32 = N by omega, ← tap_splice _ _ b (fun k => Spec.high x σ' (32 * N + k)) (by omega : 32 * N + k < 32 * N + 32)]
          refine tap_congr _ _ fun j hj => ?_
          by_cases h : j < 32 * N
          · rw [splice_old _ _ h, hb j h]; unfold Spec.high; rw [lowo j h]
          · obtain ⟨i, rfl⟩ : ∃ i, j = 32 * N + i := ⟨j - 32 * N, by omega⟩
            exact splice_new _ _ _ (by omega)
        · rw [hlf, at_steps, bassAngle_block P N (by omega)]
          ring
    · rw [e1]
      refine ⟨?_, ?_, fun c => (ramps_step (hi.delay c)).1, fun c => (ramps_step (hi.horn c)).1, ⟨_, ring_step hl, fun m hm => ?_⟩, xn.symm, bn.symm⟩
      · simp only []
        rw [hlfo, at_step]
        have : Spec.angle P (N + 1) = Spec.angle P N + (P N).turn * 32 := by unfold Spec.angle; rw [Finset.sum_range_succ]; ring
        rw [this]; exact ⟨rfl, rfl⟩
      · simp only []
        rw [hlf, at_steps]
        have := bassAngle_block P N (k := 32) le_rfl
        rw [show 32 * (N + 1) = 32 * N + 32 by ring, this]
        exact ⟨rfl, rfl⟩
      · by_cases h : m < 32 * N
        · rw [splice_old _ _ h, hb m h]; unfold Spec.high; rw [lowo m h]
        · obtain ⟨i, rfl⟩ : ∃ i, m = 32 * N + i := ⟨m - 32 * N, by omega⟩
          rw [splice_new _ _ _ (by omega)]
          unfold Spec.high Spec.mono
          rw [lown i (by omega)]
          unfold blockOf
          ring

/-- **C225.**  For every input and automation, at every sample, the output is the horn (the treble of the mono input, read at the Doppler delay of the channel, times the gain of the channel)
plus the bass (its lowest part untouched, the rest modulated by the bass rotor), the two filters being the ones `init` sets up. -/
theorem C225_flow (ωx ωb : ℝ) (P : ℕ → Params) (x : Bool → ℕ → ℝ) (N : ℕ) : ∃ σ, Spec.Flow ωx ωb P x (play ωx ωb P x N).2 σ N :=
  let ⟨σ, h, _⟩ := flow_aux ωx ωb P x N
  ⟨σ, h⟩

end Verif.Effects.Rotary
