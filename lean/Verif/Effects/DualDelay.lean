import Verif.Effects.FreqShift
import Verif.Effects.Eq
import Verif.Filters.Ladder
import Verif.Fx.Ringout
/-!
# The dual delay (C220-C224), in exact real arithmetic

surgefx-dualdelay, at its block size of 32 samples, with any automation of its parameters.  Parameters arrive converted (`Params`); the interpolation kernel is any function.
Channel `false` is the left one, `true` the right one.  Not modelled: rounding, the length of the ring-out.
-/
namespace Verif.Effects.DualDelay
open Verif.Smooth Verif.Biquad Verif.Tables
open Verif.Dsp (limitRangeI)
open Verif.Effects.FreqShift (toI32 splice blockOf splice_new splice_old past_splice idx)

/-! ## Model -/

/-- dual_delay.rs 7-36. -/
structure State where
  feedback : LipolPs ℝ
  crossfeed : LipolPs ℝ
  pan : LipolPs ℝ
  mix : LipolPs ℝ
  width : LipolPs ℝ
  time : Bool → Lag ℝ
  phase : ℝ
  dir : Bool
  lfo : ℝ
  lp : Filter
  hp : Filter
  buf : Bool → ℕ → ℝ
  wpos : ℤ
  had : Bool

/-- The parameters as `update` converts them (`time` in samples, `inc` the step of the modulation), whether a tempo is known, the kernel. -/
structure Params where
  feedback : ℝ
  crossfeed : ℝ
  rate : ℝ
  inc : ℝ
  time : Bool → ℝ
  mix : ℝ
  width : ℝ
  pan : ℝ
  hpω : ℝ
  lpω : ℝ
  tempo : Bool
  sinc : ℕ → ℝ

/-- update.rs 17-44: phase, direction and value of the triangle modulating the delay. -/
noncomputable def lfoStep (P : Params) (q : ℝ × Bool × ℝ) : ℝ × Bool × ℝ :=
  let ph := q.1 + P.rate
  let (ph, dir) := open Classical in if ph > 0.5 then (ph - 1, !q.2.1) else (ph, q.2.1)
  (ph, dir, if dir then 0.99 * q.2.2 + P.inc else 0.99 * q.2.2 - P.inc)

/-- update.rs 5-106 `update`, without the ring-out. -/
noncomputable def update (P : Params) (s : State) : State :=
  let q := lfoStep P (s.phase, s.dir, s.lfo)
  ⟨s.feedback.setTargetSmoothed P.feedback, s.crossfeed.setTargetSmoothed P.crossfeed, s.pan.setTargetSmoothed (max (-1) (min P.pan 1)),
    s.mix.setTargetSmoothed P.mix, s.width.setTargetSmoothed P.width, fun c => (s.time c).newValue (P.time c + q.2.2 - 6), q.1, q.2.1, q.2.2,
    s.lp.coeffLp2b P.lpω 0.707, s.hp.coeffHp P.hpω 0.707, s.buf, s.wpos, s.had⟩

/-- init.rs 5-15 `instantize_all`. -/
def instantize (s : State) : State :=
  ⟨s.feedback.instantize, s.crossfeed.instantize, s.pan.instantize, s.mix.instantize, s.width.instantize, fun c => (s.time c).instantize, s.phase, s.dir, s.lfo,
    s.lp.coeffInstantize, s.hp.coeffInstantize, s.buf, s.wpos, s.had⟩

/-- init.rs 52-87 `new`. -/
noncomputable def State.new : State :=
  ⟨LipolPs.default.setBlocksize 32, LipolPs.default.setBlocksize 32, LipolPs.default.setBlocksize 32, LipolPs.default.setBlocksize 32, LipolPs.default, fun _ => Lag.new 0.0001,
    0, false, 0, .new, .new, fun _ _ => 0, 0, false⟩

/-- init.rs 22-49 `init` (suspending a biquad does nothing). -/
noncomputable def init (P : Params) (s : State) : State :=
  let s := instantize (update P ⟨s.feedback, s.crossfeed, s.pan, s.mix, s.width, s.time, 0, true, 0, s.lp, s.hp, fun _ _ => 0, 0, s.had⟩)
  ⟨s.feedback, s.crossfeed, s.pan, s.mix, s.width, s.time, s.phase, s.dir, s.lfo, s.lp, s.hp, s.buf, s.wpos, P.tempo⟩

/-- process.rs 154-162 `maybe_instantize_all`. -/
def maybeInstantize (P : Params) (s : State) : State :=
  if s.had = false ∧ P.tempo = true then
    let s := instantize s
    ⟨s.feedback, s.crossfeed, s.pan, s.mix, s.width, s.time, s.phase, s.dir, s.lfo, s.lp, s.hp, s.buf, s.wpos, true⟩
  else s

/-- block.rs 12-22: the delay in whole samples. -/
noncomputable def delayOf (v : ℝ) : ℤ := max 32 (min (toI32 v) (2 ^ 18 - 12 - 1))

/-- block.rs 24-29: where reading begins, `& (2 ^ 18 - 1)`. -/
noncomputable def rpOf (wpos : ℤ) (d : ℤ) (k : ℕ) : ℕ := index (wpos - d + k - 12) (2 ^ 18 - 1)

/-- block.rs 31-40: the offset into the kernel. -/
noncomputable def sincOf (d : ℤ) (v : ℝ) : ℤ := 12 * limitRangeI (toI32 (256 * (((d + 1 : ℤ) : ℝ) - v))) 0 255

/-- block.rs 42-54 and 75-88: twelve products. -/
noncomputable def fir (sinc : ℕ → ℝ) (buf : ℕ → ℝ) (rp : ℕ) (o : ℤ) : ℝ := ∑ j ∈ Finset.range 12, sinc (o.toNat + j) * buf (rp + j)

/-- block.rs 10-105 `do_dualdelay_block`: what channel `c` reads for sample `k`. -/
noncomputable def readAt (P : Params) (s : State) (c : Bool) (k : ℕ) : ℝ :=
  let v := (Lag.process^[k + 1] (s.time c)).v
  fir P.sinc (s.buf c) (rpOf s.wpos (delayOf v) k) (sincOf (delayOf v) v)

/-- process.rs 51-77 `do_softclip` and `do_filters`. -/
noncomputable def echoes (P : Params) (s : State) : Filter × Filter × List (ℝ × ℝ) :=
  let p := s.lp.processBlockStereo ((List.range 32).map fun k => (Dsp.softclip (readAt P s false k), Dsp.softclip (readAt P s true k)))
  let q := s.hp.processBlockStereo p.2
  (p.1, q.1, q.2)

/-- The channels of a list of stereo samples as arrays. -/
def chanOf (u : List (ℝ × ℝ)) (c : Bool) (k : ℕ) : ℝ := if c then (u.getD k 0).2 else (u.getD k 0).1

/-- process.rs 79-107 `do_pan`, `do_feedback`, `do_crossfeed`: both additions use `feedback`. -/
noncomputable def wetOf (s : State) (x e : Bool → ℕ → ℝ) (c : Bool) : ℕ → ℝ :=
  let w := s.pan.trixpan 8 (x false) (x true) (fun _ => 0, fun _ => 0)
  let wl := s.feedback.macTo 8 (e true) (s.feedback.macTo 8 (e false) w.1)
  let wr := s.feedback.macTo 8 (e false) (s.feedback.macTo 8 (e true) w.2)
  if c then wr else wl

/-- set_buffer.rs 9-19: the loop of the first branch, `n` samples of it. -/
def written (wpos : ℤ) (w b : ℕ → ℝ) : ℕ → ℕ → ℝ
  | 0 => b
  | k + 1 => fun j => if j = index (wpos + k) (2 ^ 18 - 1) then w k else written wpos w b k j

/-- set_buffer.rs 5-39 `dualdelay_set_buffer`, one channel. -/
def setBuffer (wpos : ℤ) (w b : ℕ → ℝ) : ℕ → ℝ :=
  let b := if wpos + 32 ≥ 2 ^ 18 then written wpos w b 32 else fun j => if wpos ≤ j ∧ (j : ℤ) < wpos + 32 then w ((j : ℤ) - wpos).toNat else b j
  if wpos = 0 then fun j => if 2 ^ 18 ≤ j ∧ j < 2 ^ 18 + 12 then b (j - 2 ^ 18) else b j else b

/-- process.rs 109-132 `do_mid_side`. -/
noncomputable def widen (s : State) (e : Bool → ℕ → ℝ) (c : Bool) (k : ℕ) : ℝ :=
  let m := (e false k + e true k) * (1 / 2)
  let sd := s.width.multiply 8 (fun k => (e false k - e true k) * (1 / 2)) k
  if c then m - sd else m + sd

/-- process.rs 5-46 `stereo_process`. -/
noncomputable def process (P : Params) (x : Bool → ℕ → ℝ) (s : State) : State × (Bool → ℕ → ℝ) :=
  let s := maybeInstantize P (update P s)
  let q := echoes P s
  let e := chanOf q.2.2
  (⟨s.feedback, s.crossfeed, s.pan, s.mix, s.width, fun c => Lag.process^[32] (s.time c), s.phase, s.dir, s.lfo, q.1, q.2.1,
      fun c => setBuffer s.wpos (wetOf s x e c) (s.buf c), ((index (s.wpos + 32) (2 ^ 18 - 1) : ℕ) : ℤ), s.had⟩,
    fun c => s.mix.fadeTo 8 (x c) (widen s e c) (x c))

/-- `init`, then `N` blocks of `x`, block `n` with parameters `P n` (`P 0` also at `init`): the state then, and the output so far. -/
noncomputable def play (P : ℕ → Params) (x : Bool → ℕ → ℝ) : ℕ → State × (Bool → ℕ → ℝ)
  | 0 => (init (P 0) .new, fun _ _ => 0)
  | n + 1 =>
    let p := play P x n
    let q := process (P n) (blockOf x n) p.1
    (q.1, fun c => splice n (p.2 c) (q.2 c))

/-! ## Specification -/

/-- The tempo becomes known at block `n`: then the smoothed controls jump. -/
def Spec.jump (P : ℕ → Params) (n : ℕ) : Prop := n ≠ 0 ∧ (P n).tempo = true ∧ ∀ m < n, (P m).tempo = false
noncomputable instance (P : ℕ → Params) (n : ℕ) : Decidable (Spec.jump P n) := Classical.dec _

/-- What a smoothed control has reached after `n` blocks: each moves it a quarter of the way. -/
noncomputable def Spec.reached (u : ℕ → ℝ) : ℕ → ℝ
  | 0 => u 0 / 4
  | n + 1 => u n / 4 + 3 / 4 * Spec.reached u n

/-- The value of the control at the beginning of block `n`. -/
noncomputable def Spec.before (P : ℕ → Params) (u : ℕ → ℝ) (n : ℕ) : ℝ := if Spec.jump P n then Spec.reached u (n + 1) else Spec.reached u n

/-- The control at sample `m`, on its ramp of `L` samples, of which only the first eight are used, over and over. -/
noncomputable def Spec.ramp (P : ℕ → Params) (u : ℕ → ℝ) (L : ℝ) (m : ℕ) : ℝ :=
  Spec.before P u (m / 32) + (Spec.reached u (m / 32 + 1) - Spec.before P u (m / 32)) * (((m % 32 % 8 : ℕ) : ℝ) + 1) / L

/-- The panning at sample `m`, whose ramp runs through. -/
noncomputable def Spec.pan (P : ℕ → Params) (m : ℕ) : ℝ :=
  let u : ℕ → ℝ := fun n => max (-1) (min (P n).pan 1)
  Spec.before P u (m / 32) + (Spec.reached u (m / 32 + 1) - Spec.before P u (m / 32)) * ((((m % 32 : ℕ) : ℝ) + 1) / 32)

/-- The modulation after `n` blocks. -/
noncomputable def Spec.lfo (P : ℕ → Params) : ℕ → ℝ × Bool × ℝ
  | 0 => lfoStep (P 0) (0, true, 0)
  | n + 1 => lfoStep (P n) (Spec.lfo P n)

/-- The delay block `n` aims at, in samples. -/
noncomputable def Spec.goal (P : ℕ → Params) (c : Bool) (n : ℕ) : ℝ := (P n).time c + (Spec.lfo P (n + 1)).2.2 - 6

/-- The smoothed delay after `m` samples (`0.996` of the old value, `0.0001` of the goal). -/
noncomputable def Spec.lag (P : ℕ → Params) (c : Bool) : ℕ → ℝ
  | 0 => (P 0).time c + (Spec.lfo P 0).2.2 - 6
  | m + 1 => (if Spec.jump P (m / 32) ∧ m % 32 = 0 then Spec.goal P c (m / 32) else Spec.lag P c m) * (1 - 4 / 1000) + Spec.goal P c (m / 32) * 0.0001

/-- A signal at an integer time: silence before the start. -/
abbrev Spec.past := FreqShift.Spec.past

/-- The row of the kernel: 256 rows for the fraction of a sample. -/
noncomputable def Spec.row (v : ℝ) : ℕ := (max 0 (min (toI32 (256 * (((delayOf v + 1 : ℤ) : ℝ) - v))) 255)).toNat

/-- The interpolated reading, at sample `n`, of a stored signal at a delay of `v` samples. -/
noncomputable def Spec.tap (sinc : ℕ → ℝ) (b : ℕ → ℝ) (v : ℝ) (n : ℕ) : ℝ :=
  ∑ j ∈ Finset.range 12, sinc (12 * Spec.row v + j) * Spec.past b ((n : ℤ) - delayOf v - 12 + (j : ℕ))

/-- The signals inside the effect: what is read, what comes out of the filters, what is stored; and the two filters before each block. -/
structure Signals where
  read : Bool → ℕ → ℝ
  echo : Bool → ℕ → ℝ
  stored : Bool → ℕ → ℝ
  lp : ℕ → Filter
  hp : ℕ → Filter

/-- Block `n` of the soft-clipped reading. -/
noncomputable def Spec.clipped (σ : Signals) (n : ℕ) : List (ℝ × ℝ) :=
  (List.range 32).map fun k => (Dsp.softclip (σ.read false (32 * n + k)), Dsp.softclip (σ.read true (32 * n + k)))

/-- The panned input. -/
noncomputable def Spec.panned (P : ℕ → Params) (x : Bool → ℕ → ℝ) (c : Bool) (m : ℕ) : ℝ :=
  if c then max 0 (Spec.pan P m) * x false m + (1 + min 0 (Spec.pan P m)) * x true m
  else (1 - max 0 (Spec.pan P m)) * x false m - min 0 (Spec.pan P m) * x true m

/-- The widened echo. -/
noncomputable def Spec.widened (P : ℕ → Params) (σ : Signals) (c : Bool) (m : ℕ) : ℝ :=
  (σ.echo false m + σ.echo true m) / 2 + (if c then -1 else 1) * ((σ.echo false m - σ.echo true m) / 2 * Spec.ramp P (fun n => (P n).width) 64 m)

/-- A filter set, and made to jump when the tempo becomes known. -/
noncomputable def Spec.tuned (P : ℕ → Params) (n : ℕ) (f : Filter) : Filter := if Spec.jump P n then f.coeffInstantize else f

/-- The flow of the signals in the first `N` blocks. -/
structure Spec.Flow (P : ℕ → Params) (x y : Bool → ℕ → ℝ) (σ : Signals) (N : ℕ) : Prop where
  read : ∀ c m, m < 32 * N → σ.read c m = Spec.tap (P (m / 32)).sinc (σ.stored c) (Spec.lag P c (m + 1)) m
  lp0 : σ.lp 0 = Filter.new.coeffLp2b (P 0).lpω 0.707
  hp0 : σ.hp 0 = Filter.new.coeffHp (P 0).hpω 0.707
  lp : ∀ n, n + 1 < N → σ.lp (n + 1) = Spec.tuned P (n + 1) (((σ.lp n).processBlockStereo (Spec.clipped σ n)).1.coeffLp2b (P (n + 1)).lpω 0.707)
  hp : ∀ n, n + 1 < N → σ.hp (n + 1) =
    Spec.tuned P (n + 1) (((σ.hp n).processBlockStereo ((σ.lp n).processBlockStereo (Spec.clipped σ n)).2).1.coeffHp (P (n + 1)).hpω 0.707)
  echo : ∀ n < N, ((List.range 32).map fun k => (σ.echo false (32 * n + k), σ.echo true (32 * n + k))) =
    ((σ.hp n).processBlockStereo ((σ.lp n).processBlockStereo (Spec.clipped σ n)).2).2
  stored : ∀ c m, m < 32 * N → σ.stored c m = Spec.panned P x c m + (σ.echo false m + σ.echo true m) * Spec.ramp P (fun n => (P n).feedback) 32 m
  out : ∀ c m, m < 32 * N → y c m = x c m * (1 - Spec.ramp P (fun n => (P n).mix) 32 m) + Spec.widened P σ c m * Spec.ramp P (fun n => (P n).mix) 32 m

/-! ## The controls -/

theorem reached_succ (u : ℕ → ℝ) (n : ℕ) : Spec.reached u (n + 1) = u n / 4 + 3 / 4 * Spec.reached u n := rfl

/-- Which blocks find the tempo known already. -/
def Had (P : ℕ → Params) (N : ℕ) (h : Bool) : Prop := h = true ↔ ∃ m < max N 1, (P m).tempo = true

theorem had_jump {P : ℕ → Params} {N : ℕ} {h : Bool} (hh : Had P N h) : (h = false ∧ (P N).tempo = true) ↔ Spec.jump P N := by
  unfold Had at hh
  unfold Spec.jump
  constructor
  · rintro ⟨rfl, ht⟩
    have no : ∀ m < max N 1, (P m).tempo = false := fun m hm => by
      by_contra hc
      have := hh.2 ⟨m, hm, by simpa using hc⟩
      simp at this
    refine ⟨fun h0 => ?_, ht, fun m hm => no m (by omega)⟩
    subst h0
    rw [no 0 (by omega)] at ht; simp at ht
  · rintro ⟨h0, ht, hm⟩
    refine ⟨?_, ht⟩
    by_contra hc
    obtain ⟨m, h1, h2⟩ := hh.1 (by simpa using hc)
    rw [hm m (by omega)] at h2
    simp at h2

theorem had_step {P : ℕ → Params} {N : ℕ} {h : Bool} (hh : Had P N h) : Had P (N + 1) (if h = false ∧ (P N).tempo = true then true else h) := by
  unfold Had at *
  constructor
  · intro e
    by_cases hc : h = false ∧ (P N).tempo = true
    · exact ⟨N, by omega, hc.2⟩
    · rw [if_neg hc] at e
      obtain ⟨m, h1, h2⟩ := hh.1 e
      exact ⟨m, by omega, h2⟩
  · rintro ⟨m, h1, h2⟩
    by_cases hc : h = false ∧ (P N).tempo = true
    · rw [if_pos hc]
    · rw [if_neg hc]
      by_contra hn
      have hf : h = false := by simpa using hn
      by_cases hm : m = N
      · subst hm; exact hc ⟨hf, h2⟩
      · exact hn (hh.2 ⟨m, by omega, h2⟩)

/-- The controls after `N` blocks. -/
structure Ctl (P : ℕ → Params) (N : ℕ) (s : State) : Prop where
  fb : s.feedback.target = Spec.reached (fun n => (P n).feedback) N ∧ s.feedback.blockSize = 32
  pan : s.pan.target = Spec.reached (fun n => max (-1) (min (P n).pan 1)) N ∧ s.pan.blockSize = 32
  mix : s.mix.target = Spec.reached (fun n => (P n).mix) N ∧ s.mix.blockSize = 32
  width : s.width.target = Spec.reached (fun n => (P n).width) N ∧ s.width.blockSize = 64
  time : ∀ c, (s.time c).v = Spec.lag P c (32 * N) ∧ (s.time c).first = false ∧ (s.time c).lp = 0.0001 ∧ (s.time c).lpinv = 1 - 4 / 1000
  lfo : (s.phase, s.dir, s.lfo) = Spec.lfo P N
  had : Had P N s.had

/-- The state a block is processed with. -/
noncomputable def ready (P : Params) (s : State) : State := maybeInstantize P (update P s)

theorem smoothed {l : LipolPs ℝ} {u : ℕ → ℝ} {N : ℕ} {B : ℝ} (h : l.target = Spec.reached u N ∧ l.blockSize = B) :
    l.setTargetSmoothed (u N) = ⟨Spec.reached u (N + 1), Spec.reached u N, B⟩ := by
  unfold LipolPs.setTargetSmoothed
  rw [h.1, h.2, reached_succ]
  congr 1
  ring

theorem ready_jump {P : ℕ → Params} {N : ℕ} {s : State} (h : Had P N s.had) : ready (P N) s =
    if Spec.jump P N then
      let s := instantize (update (P N) s)
      ⟨s.feedback, s.crossfeed, s.pan, s.mix, s.width, s.time, s.phase, s.dir, s.lfo, s.lp, s.hp, s.buf, s.wpos, true⟩
    else update (P N) s := by
  unfold ready maybeInstantize
  by_cases hj : Spec.jump P N
  · rw [if_pos hj, if_pos]
    exact (had_jump h).2 hj
  · rw [if_neg hj, if_neg]
    exact fun hc => hj ((had_jump h).1 hc)

theorem ready_of {P : ℕ → Params} {N : ℕ} {s : State} (h : Ctl P N s) :
    (ready (P N) s).feedback = ⟨Spec.reached (fun n => (P n).feedback) (N + 1), Spec.before P (fun n => (P n).feedback) N, 32⟩ ∧
    (ready (P N) s).pan = ⟨Spec.reached (fun n => max (-1) (min (P n).pan 1)) (N + 1), Spec.before P (fun n => max (-1) (min (P n).pan 1)) N, 32⟩ ∧
    (ready (P N) s).mix = ⟨Spec.reached (fun n => (P n).mix) (N + 1), Spec.before P (fun n => (P n).mix) N, 32⟩ ∧
    (ready (P N) s).width = ⟨Spec.reached (fun n => (P n).width) (N + 1), Spec.before P (fun n => (P n).width) N, 64⟩ ∧
    (∀ c, (ready (P N) s).time c = ⟨if Spec.jump P N then Spec.goal P c N else Spec.lag P c (32 * N), Spec.goal P c N, false, 0.0001, 1 - 4 / 1000⟩) ∧
    ((ready (P N) s).phase, (ready (P N) s).dir, (ready (P N) s).lfo) = Spec.lfo P (N + 1) ∧
    (ready (P N) s).lp = Spec.tuned P N (s.lp.coeffLp2b (P N).lpω 0.707) ∧ (ready (P N) s).hp = Spec.tuned P N (s.hp.coeffHp (P N).hpω 0.707) ∧
    (ready (P N) s).buf = s.buf ∧ (ready (P N) s).wpos = s.wpos ∧ Had P (N + 1) (ready (P N) s).had := by
  have e1 := smoothed h.fb
  have e2 := smoothed h.pan
  have e3 := smoothed h.mix
  have e4 := smoothed h.width
  have el : lfoStep (P N) (s.phase, s.dir, s.lfo) = Spec.lfo P (N + 1) := by rw [h.lfo]; rfl
  have et : ∀ c, (s.time c).newValue ((P N).time c + (lfoStep (P N) (s.phase, s.dir, s.lfo)).2.2 - 6) = ⟨Spec.lag P c (32 * N), Spec.goal P c N, false, 0.0001, 1 - 4 / 1000⟩ := fun c => by
    obtain ⟨t1, t2, t3, t4⟩ := h.time c
    unfold Lag.newValue
    rw [if_neg (by rw [t2]; simp), el]
    rcases hs : s.time c with ⟨a, b, d, e, f⟩
    rw [hs] at t1 t2 t3 t4
    simp only at t1 t2 t3 t4
    subst t1; subst t2; subst t3; subst t4
    rfl
  have hh := had_step h.had
  rw [ready_jump h.had]
  unfold Spec.tuned Spec.before
  by_cases hj : Spec.jump P N
  · simp only [if_pos hj, instantize, update, e1, e2, e3, e4, et, LipolPs.instantize, Lag.instantize]
    rw [el]
    rw [if_pos ((had_jump h.had).2 hj)] at hh
    refine ⟨?_, ?_, ?_, ?_, ?_, ?_, ?_, ?_, ?_, ?_, hh⟩ <;> first | trivial | rfl | (intro; rfl)
  · simp only [if_neg hj, update, e1, e2, e3, e4, et]
    rw [el]
    rw [if_neg (fun hc => hj ((had_jump h.had).1 hc))] at hh
    refine ⟨?_, ?_, ?_, ?_, ?_, ?_, ?_, ?_, ?_, ?_, hh⟩ <;> first | trivial | rfl | (intro; rfl)

theorem lag_run {P : ℕ → Params} {N : ℕ} {c : Bool} {l : Lag ℝ} (h : l = ⟨if Spec.jump P N then Spec.goal P c N else Spec.lag P c (32 * N), Spec.goal P c N, false, 0.0001, 1 - 4 / 1000⟩) :
    ∀ k < 32, Lag.process^[k + 1] l = ⟨Spec.lag P c (32 * N + (k + 1)), Spec.goal P c N, false, 0.0001, 1 - 4 / 1000⟩ := by
  intro k
  induction k with
  | zero =>
    intro _
    rw [h]
    show Lag.process _ = _
    unfold Lag.process
    simp only [zero_add, Spec.lag, Lag.mk.injEq, and_true]
    rw [show 32 * N / 32 = N by omega]
    congr 2
    by_cases hj : Spec.jump P N
    · rw [if_pos hj, if_pos ⟨hj, by omega⟩]
    · rw [if_neg hj, if_neg (fun hc => hj hc.1)]
  | succ k ih =>
    intro hk
    rw [Function.iterate_succ_apply', ih (by omega)]
    unfold Lag.process
    simp only [Lag.mk.injEq, and_true]
    rw [show 32 * N + (k + 1 + 1) = 32 * N + (k + 1) + 1 by omega, Spec.lag]
    rw [show (32 * N + (k + 1)) / 32 = N by omega, if_neg (fun hc => by omega)]

theorem ctl_start (P : ℕ → Params) : Ctl P 0 (init (P 0) .new) := by
  refine ⟨?_, ?_, ?_, ?_, fun c => ?_, rfl, ?_⟩
  · simp only [init, instantize, update, State.new, LipolPs.setTargetSmoothed, LipolPs.instantize, LipolPs.default, LipolPs.setBlocksize, Spec.reached]
    constructor
    · ring
    · norm_num
  · simp only [init, instantize, update, State.new, LipolPs.setTargetSmoothed, LipolPs.instantize, LipolPs.default, LipolPs.setBlocksize, Spec.reached]
    constructor
    · ring
    · norm_num
  · simp only [init, instantize, update, State.new, LipolPs.setTargetSmoothed, LipolPs.instantize, LipolPs.default, LipolPs.setBlocksize, Spec.reached]
    constructor
    · ring
    · norm_num
  · simp only [init, instantize, update, State.new, LipolPs.setTargetSmoothed, LipolPs.instantize, LipolPs.default, LipolPs.setBlocksize, Spec.reached]
    constructor
    · ring
    · trivial
  · exact ⟨rfl, rfl, rfl, rfl⟩
  · show Had P 0 (P 0).tempo
    unfold Had
    constructor
    · exact fun h => ⟨0, by omega, h⟩
    · rintro ⟨m, h1, h2⟩
      rwa [show m = 0 by omega] at h2

/-! ## The ring buffer -/

theorem delayOf_range (v : ℝ) : 32 ≤ delayOf v ∧ delayOf v ≤ 2 ^ 18 - 13 := by
  unfold delayOf
  generalize toI32 v = t
  omega

theorem sincOf_eq (v : ℝ) : sincOf (delayOf v) v = 12 * (Spec.row v : ℤ) ∧ Spec.row v ≤ 255 := by
  unfold sincOf Spec.row limitRangeI
  generalize toI32 (256 * (((delayOf v + 1 : ℤ) : ℝ) - v)) = t
  omega

/-- The ring holds the last `2 ^ 18` stored samples, the first twelve places once more after the end. -/
structure Loop (wpos : ℤ) (mem : ℕ → ℝ) (b : ℕ → ℝ) (n : ℕ) : Prop where
  wp : wpos = (n : ℤ) % 2 ^ 18
  buf : ∀ m : ℤ, (n : ℤ) - 2 ^ 18 ≤ m → m < n → mem (m % 2 ^ 18).toNat = Spec.past b m
  copy : ∀ m : ℤ, (n : ℤ) - 2 ^ 18 ≤ m → m < n → m % 2 ^ 18 < 12 → mem (m % 2 ^ 18 + 2 ^ 18).toNat = Spec.past b m

theorem fir_eq {wpos : ℤ} {buf b : ℕ → ℝ} {n k : ℕ} (h : Loop wpos buf b n) (hk : k < 32) (sinc : ℕ → ℝ) (v : ℝ) :
    fir sinc buf (rpOf wpos (delayOf v) k) (sincOf (delayOf v) v) = Spec.tap sinc b v (n + k) := by
  obtain ⟨d1, d2⟩ := delayOf_range v
  unfold fir Spec.tap rpOf
  rw [(sincOf_eq v).1, idx]
  refine Finset.sum_congr rfl fun j hj => ?_
  have hj := Finset.mem_range.1 hj
  have hw := h.wp
  congr 1
  generalize delayOf v = d at *
  obtain ⟨m, hm⟩ : ∃ m : ℤ, m = ((n + k : ℕ) : ℤ) - d - 12 + (j : ℕ) := ⟨_, rfl⟩
  rw [← hm]
  have r0 : (wpos - d + k - 12) % 2 ^ 18 = (m - j) % 2 ^ 18 := by rw [hw, hm]; push_cast; omega
  rw [r0]
  by_cases hc : (m - j) % 2 ^ 18 + j < 2 ^ 18
  · rw [← h.buf m (by push_cast at *; omega) (by push_cast at *; omega)]
    congr 1
    omega
  · rw [← h.copy m (by push_cast at *; omega) (by push_cast at *; omega) (by omega)]
    congr 1
    omega

theorem written_eq (wpos : ℤ) (w b : ℕ → ℝ) (h0 : 0 ≤ wpos) (h1 : wpos + 32 ≤ 2 ^ 18) : ∀ n ≤ 32, ∀ j,
    written wpos w b n j = if wpos ≤ j ∧ (j : ℤ) < wpos + n then w ((j : ℤ) - wpos).toNat else b j := by
  intro n
  induction n with
  | zero => intro _ j; rw [if_neg (by push_cast; omega)]; rfl
  | succ n ih =>
    intro hn j
    simp only [written]
    rw [idx, ih (by omega) j, show (wpos + n) % 2 ^ 18 = wpos + n by omega]
    by_cases e : j = (wpos + n).toNat
    · rw [if_pos e, if_pos (by push_cast; omega)]
      congr 1; omega
    · rw [if_neg e]
      by_cases hc : wpos ≤ j ∧ (j : ℤ) < wpos + n
      · rw [if_pos hc, if_pos (by push_cast; omega)]
      · rw [if_neg hc, if_neg (by push_cast; omega)]

theorem setBuffer_eq (wpos : ℤ) (w b : ℕ → ℝ) (h0 : 0 ≤ wpos) (h1 : wpos + 32 ≤ 2 ^ 18) (j : ℕ) :
    setBuffer wpos w b j = if wpos ≤ j ∧ (j : ℤ) < wpos + 32 then w ((j : ℤ) - wpos).toNat else
      if wpos = 0 ∧ 2 ^ 18 ≤ j ∧ j < 2 ^ 18 + 12 then w (j - 2 ^ 18) else b j := by
  unfold setBuffer
  have e : (if wpos + 32 ≥ 2 ^ 18 then written wpos w b 32 else fun (j : ℕ) => if wpos ≤ j ∧ (j : ℤ) < wpos + 32 then w ((j : ℤ) - wpos).toNat else b j) =
      fun (j : ℕ) => if wpos ≤ j ∧ (j : ℤ) < wpos + 32 then w ((j : ℤ) - wpos).toNat else b j := by
    split
    · funext j; exact written_eq wpos w b h0 h1 32 le_rfl j
    · rfl
  simp only [e]
  by_cases hw : wpos = 0
  · subst hw
    rw [if_pos rfl]
    by_cases hj : 2 ^ 18 ≤ j ∧ j < 2 ^ 18 + 12
    · simp only [if_pos hj]
      rw [if_pos (by omega), if_neg (by omega), if_pos ⟨trivial, hj⟩]
      exact congrArg w (by omega)
    · simp only [if_neg hj]
      by_cases hc : (0 : ℤ) ≤ j ∧ (j : ℤ) < 0 + 32
      · rw [if_pos hc, if_pos hc]
      · rw [if_neg hc, if_neg hc, if_neg (fun hh => hj hh.2)]
  · rw [if_neg hw]
    by_cases hc : wpos ≤ j ∧ (j : ℤ) < wpos + 32
    · rw [if_pos hc, if_pos hc]
    · rw [if_neg hc, if_neg hc, if_neg (fun hh => hw hh.1)]

theorem ring_step {wpos : ℤ} {buf b w : ℕ → ℝ} {n : ℕ} (h : Loop wpos buf b (32 * n)) :
    Loop ((index (wpos + 32) (2 ^ 18 - 1) : ℕ) : ℤ) (setBuffer wpos w buf) (splice n b w) (32 * (n + 1)) := by
  have hw := h.wp
  have w0 : 0 ≤ wpos := by omega
  have w1 : wpos + 32 ≤ 2 ^ 18 := by push_cast at hw; omega
  have new : ∀ m : ℤ, ((32 * n : ℕ) : ℤ) ≤ m → m < (32 * (n + 1) : ℕ) → Spec.past (splice n b w) m = w (m - (32 * n : ℕ)).toNat := fun m m0 m1 => by
    obtain ⟨k, hk⟩ : ∃ k : ℕ, m = ((32 * n + k : ℕ) : ℤ) := ⟨(m - (32 * n : ℕ)).toNat, by push_cast at *; omega⟩
    rw [show Spec.past (splice n b w) m = splice n b w m.toNat from if_pos (by omega), hk, Int.toNat_natCast, splice_new _ _ _ (by push_cast at *; omega)]
    congr 1; omega
  refine ⟨?_, fun m m0 m1 => ?_, fun m m0 m1 m2 => ?_⟩
  · rw [idx, hw]; push_cast; omega
  · rw [setBuffer_eq _ _ _ w0 w1]
    by_cases hn : ((32 * n : ℕ) : ℤ) ≤ m
    · rw [new m hn m1, if_pos (by push_cast at *; omega)]
      exact congrArg w (by push_cast at *; omega)
    · rw [if_neg (by push_cast at *; omega), if_neg (by push_cast at *; omega), h.buf m (by push_cast at *; omega) (by omega)]
      exact (past_splice b w (by omega)).symm
  · rw [setBuffer_eq _ _ _ w0 w1]
    by_cases hn : ((32 * n : ℕ) : ℤ) ≤ m
    · rw [new m hn m1, if_neg (by push_cast at *; omega), if_pos (by push_cast at *; omega)]
      exact congrArg w (by push_cast at *; omega)
    · rw [if_neg (by push_cast at *; omega), if_neg (by push_cast at *; omega), h.copy m (by push_cast at *; omega) (by omega) m2]
      exact (past_splice b w (by omega)).symm

theorem tap_splice (sinc : ℕ → ℝ) (v : ℝ) {n m : ℕ} (f g : ℕ → ℝ) (h : m < 32 * n + 32) : Spec.tap sinc (splice n f g) v m = Spec.tap sinc f v m := by
  obtain ⟨d1, -⟩ := delayOf_range v
  unfold Spec.tap
  refine Finset.sum_congr rfl fun j hj => ?_
  have hj := Finset.mem_range.1 hj
  rw [show Spec.past (splice n f g) _ = Spec.past f _ from past_splice f g (by push_cast; omega)]

/-! ## One block -/

theorem gain_ramp (P : ℕ → Params) (u : ℕ → ℝ) (B : ℝ) (N : ℕ) {k : ℕ} (hk : k < 32) :
    (⟨Spec.reached u (N + 1), Spec.before P u N, B⟩ : LipolPs ℝ).gain k = Spec.ramp P u B (32 * N + k) := by
  unfold LipolPs.gain Spec.ramp
  rw [show (32 * N + k) / 32 = N by omega, show (32 * N + k) % 32 = k by omega]

theorem mac_eq (l : LipolPs ℝ) (a b : ℕ → ℝ) {k : ℕ} (hk : k < 32) : l.macTo 8 a b k = b k + a k * l.gain k :=
  ((C53_block_repeats_first_segment l (n := 8) rfl a a b k).2 (by omega)).2.2.2.2.2.2.1
theorem mul_eq' (l : LipolPs ℝ) (a : ℕ → ℝ) {k : ℕ} (hk : k < 32) : l.multiply 8 a k = a k * l.gain k :=
  ((C53_block_repeats_first_segment l (n := 8) rfl a a a k).2 (by omega)).2.2.2.1
theorem fade_eq (l : LipolPs ℝ) (a b d : ℕ → ℝ) {k : ℕ} (hk : k < 32) : l.fadeTo 8 a b d k = a k * (1 - l.gain k) + b k * l.gain k :=
  ((C53_block_repeats_first_segment l (n := 8) rfl a b d k).2 (by omega)).2.2.2.2.2.2.2

theorem pan_eq {P : ℕ → Params} {N : ℕ} {l : LipolPs ℝ} (h : l = ⟨Spec.reached (fun n => max (-1) (min (P n).pan 1)) (N + 1), Spec.before P (fun n => max (-1) (min (P n).pan 1)) N, 32⟩)
    (x : Bool → ℕ → ℝ) {k : ℕ} (hk : k < 32) :
    (l.trixpan 8 (blockOf x N false) (blockOf x N true) (fun _ => 0, fun _ => 0)).1 k = Spec.panned P x false (32 * N + k) ∧
    (l.trixpan 8 (blockOf x N false) (blockOf x N true) (fun _ => 0, fun _ => 0)).2 k = Spec.panned P x true (32 * N + k) := by
  have e : panAt l k = Spec.pan P (32 * N + k) := by
    unfold Spec.pan panAt
    rw [show (32 * N + k) / 32 = N by omega, show (32 * N + k) % 32 = k by omega, h]
  have t := ((C54_pan l 8 (blockOf x N false) (blockOf x N true) (fun _ => 0, fun _ => 0) k).2.1 (by omega))
  rw [e] at t
  unfold Spec.panned
  simp only [if_true, Bool.false_eq_true, if_false]
  generalize Spec.pan P (32 * N + k) = p at t ⊢
  rcases le_total 0 p with hp | hp
  · obtain ⟨a, b⟩ := t.1 hp
    rw [a, b, max_eq_right hp, min_eq_left hp]
    simp only [blockOf]
    constructor <;> ring
  · obtain ⟨a, b⟩ := t.2 hp
    rw [a, b, max_eq_left hp, min_eq_right hp]
    simp only [blockOf]
    constructor <;> ring

theorem chanOf_list {u : List (ℝ × ℝ)} (h : u.length = 32) : ((List.range 32).map fun k => (chanOf u false k, chanOf u true k)) = u := by
  apply List.ext_getElem
  · simp [h]
  · intro i h1 h2
    simp only [chanOf, List.getD, List.getElem_map, List.getElem_range, if_true, Bool.false_eq_true, if_false]
    rw [List.getElem?_eq_getElem h2]; rfl

theorem block_len (f : Filter) (xs : List (ℝ × ℝ)) : (f.processBlockStereo xs).2.length = xs.length := Eq.stereo_len xs f

/-- The state after `N` blocks, with the signals up to there. -/
structure Inv (P : ℕ → Params) (x y : Bool → ℕ → ℝ) (σ : Signals) (s : State) (N : ℕ) : Prop where
  flow : Spec.Flow P x y σ N
  ctl : Ctl P N s
  ring : ∀ c, Loop s.wpos (s.buf c) (σ.stored c) (32 * N)
  first : N = 0 → s.lp.coeffLp2b (P 0).lpω 0.707 = Filter.new.coeffLp2b (P 0).lpω 0.707 ∧ s.hp.coeffHp (P 0).hpω 0.707 = Filter.new.coeffHp (P 0).hpω 0.707
  later : ∀ n, N = n + 1 → s.lp = ((σ.lp n).processBlockStereo (Spec.clipped σ n)).1 ∧
    s.hp = ((σ.hp n).processBlockStereo ((σ.lp n).processBlockStereo (Spec.clipped σ n)).2).1

theorem jump_zero (P : ℕ → Params) : ¬ Spec.jump P 0 := fun h => h.1 rfl

set_option maxHeartbeats 1000000 in
theorem step {P : ℕ → Params} {x y : Bool → ℕ → ℝ} {σ : Signals} {s : State} {N : ℕ} (h : Inv P x y σ s N) :
    ∃ σ', Inv P x (fun c => splice N (y c) ((process (P N) (blockOf x N) s).2 c)) σ' (process (P N) (blockOf x N) s).1 (N + 1) := by
  obtain ⟨hf, hc, hr, h0, hl⟩ := h
  obtain ⟨t, ht⟩ : ∃ t, t = ready (P N) s := ⟨_, rfl⟩
  obtain ⟨e1, e2, e3, e4, e5, e6, e7, e8, e9, e10, e11⟩ := ready_of hc
  rw [← ht] at e1 e2 e3 e4 e5 e6 e7 e8 e9 e10 e11
  have run := fun c => lag_run (e5 c)
  obtain ⟨U, hU⟩ : ∃ U : Bool → ℕ → ℝ, U = fun c k => Spec.tap (P N).sinc (σ.stored c) (Spec.lag P c (32 * N + (k + 1))) (32 * N + k) := ⟨_, rfl⟩
  have rd : ∀ c, ∀ k < 32, readAt (P N) t c k = U c k := fun c k hk => by
    unfold readAt
    rw [run c k hk, e9, e10, hU]
    exact fir_eq (hr c) hk _ _
  obtain ⟨cl, hcl⟩ : ∃ cl : List (ℝ × ℝ), cl = (List.range 32).map fun k => (Dsp.softclip (U false k), Dsp.softclip (U true k)) := ⟨_, rfl⟩
  have ec : echoes (P N) t = ((t.lp.processBlockStereo cl).1, (t.hp.processBlockStereo (t.lp.processBlockStereo cl).2).1, (t.hp.processBlockStereo (t.lp.processBlockStereo cl).2).2) := by
    unfold echoes
    rw [hcl, show ((List.range 32).map fun k => (Dsp.softclip (readAt (P N) t false k), Dsp.softclip (readAt (P N) t true k))) =
      (List.range 32).map fun k => (Dsp.softclip (U false k), Dsp.softclip (U true k)) from List.map_congr_left fun k hk => by
        rw [rd _ k (List.mem_range.1 hk), rd _ k (List.mem_range.1 hk)]]
  obtain ⟨u, hu⟩ : ∃ u, u = (t.hp.processBlockStereo (t.lp.processBlockStereo cl).2).2 := ⟨_, rfl⟩
  have ul : u.length = 32 := by rw [hu, block_len, block_len, hcl]; simp
  obtain ⟨e, he⟩ : ∃ e, e = chanOf u := ⟨_, rfl⟩
  obtain ⟨w, hw⟩ : ∃ w, w = wetOf t (blockOf x N) e := ⟨_, rfl⟩
  have ep : process (P N) (blockOf x N) s = (⟨t.feedback, t.crossfeed, t.pan, t.mix, t.width, fun c => Lag.process^[32] (t.time c), t.phase, t.dir, t.lfo,
      (t.lp.processBlockStereo cl).1, (t.hp.processBlockStereo (t.lp.processBlockStereo cl).2).1,
      fun c => setBuffer t.wpos (w c) (t.buf c), ((index (t.wpos + 32) (2 ^ 18 - 1) : ℕ) : ℤ), t.had⟩,
      fun c => t.mix.fadeTo 8 (blockOf x N c) (widen t e c) (blockOf x N c)) := by
    have e0 : maybeInstantize (P N) (update (P N) s) = t := ht.symm
    simp only [process, e0, ec]
    rw [hw, he, hu]
  rw [ep]
  obtain ⟨σ', hσ⟩ : ∃ σ' : Signals, σ' = ⟨fun c => splice N (σ.read c) (U c), fun c => splice N (σ.echo c) (e c), fun c => splice N (σ.stored c) (w c),
    Function.update σ.lp N t.lp, Function.update σ.hp N t.hp⟩ := ⟨_, rfl⟩
  have r_new : ∀ c, ∀ k < 32, σ'.read c (32 * N + k) = U c k := fun c k hk => by rw [hσ]; exact splice_new _ _ _ hk
  have r_old : ∀ c, ∀ m < 32 * N, σ'.read c m = σ.read c m := fun c m hm => by rw [hσ]; exact splice_old _ _ hm
  have q_new : ∀ c, ∀ k < 32, σ'.echo c (32 * N + k) = e c k := fun c k hk => by rw [hσ]; exact splice_new _ _ _ hk
  have q_old : ∀ c, ∀ m < 32 * N, σ'.echo c m = σ.echo c m := fun c m hm => by rw [hσ]; exact splice_old _ _ hm
  have s_new : ∀ c, ∀ k < 32, σ'.stored c (32 * N + k) = w c k := fun c k hk => by rw [hσ]; exact splice_new _ _ _ hk
  have s_old : ∀ c, ∀ m < 32 * N, σ'.stored c m = σ.stored c m := fun c m hm => by rw [hσ]; exact splice_old _ _ hm
  have s_tap : ∀ c (f : ℕ → ℝ) v m, m < 32 * N + 32 → Spec.tap f (σ'.stored c) v m = Spec.tap f (σ.stored c) v m := fun c f v m hm => by rw [hσ]; exact tap_splice _ _ _ _ hm
  have l_new : σ'.lp N = t.lp ∧ σ'.hp N = t.hp := by rw [hσ]; exact ⟨Function.update_self .., Function.update_self ..⟩
  have l_old : ∀ n, n ≠ N → σ'.lp n = σ.lp n ∧ σ'.hp n = σ.hp n := fun n hn => by rw [hσ]; exact ⟨Function.update_of_ne hn .., Function.update_of_ne hn ..⟩
  have c_old : ∀ n < N, Spec.clipped σ' n = Spec.clipped σ n := fun n hn => List.map_congr_left fun k hk => by
    have := List.mem_range.1 hk
    rw [r_old _ _ (by omega), r_old _ _ (by omega)]
  have c_new : Spec.clipped σ' N = cl := by
    rw [hcl]
    exact List.map_congr_left fun k hk => by rw [r_new _ _ (List.mem_range.1 hk), r_new _ _ (List.mem_range.1 hk)]
  have split : ∀ n < 32 * (N + 1), n < 32 * N ∨ ∃ k < 32, n = 32 * N + k := fun n hn => by
    by_cases hh : n < 32 * N
    · exact .inl hh
    · exact .inr ⟨n - 32 * N, by omega, by omega⟩
  refine ⟨σ', ⟨?_, ?_, ?_, ?_, ?_, ?_, ?_, ?_⟩, ⟨?_, ?_, ?_, ?_, ?_, ?_, ?_⟩, ?_, ?_, ?_⟩
  · intro c m hm
    rcases split m hm with hm | ⟨k, hk, rfl⟩
    · rw [r_old c m hm, s_tap _ _ _ _ (by omega), hf.read c m hm]
    · rw [r_new c k hk, s_tap _ _ _ _ (by omega), show (32 * N + k) / 32 = N by omega, hU]
      rfl
  · by_cases hN : N = 0
    · subst hN
      rw [l_new.1, e7, Spec.tuned, if_neg (jump_zero P)]
      exact (h0 rfl).1
    · rw [(l_old 0 (Ne.symm hN)).1]; exact hf.lp0
  · by_cases hN : N = 0
    · subst hN
      rw [l_new.2, e8, Spec.tuned, if_neg (jump_zero P)]
      exact (h0 rfl).2
    · rw [(l_old 0 (Ne.symm hN)).2]; exact hf.hp0
  · intro n hn
    rw [(l_old n (by omega)).1, c_old n (by omega)]
    by_cases hN : n + 1 = N
    · rw [hN, l_new.1, e7, (hl n hN.symm).1]
    · rw [(l_old _ hN).1]; exact hf.lp n (by omega)
  · intro n hn
    rw [(l_old n (by omega)).1, (l_old n (by omega)).2, c_old n (by omega)]
    by_cases hN : n + 1 = N
    · rw [hN, l_new.2, e8, (hl n hN.symm).2]
    · rw [(l_old _ hN).2]; exact hf.hp n (by omega)
  · intro n hn
    by_cases hN : n = N
    · subst hN
      rw [l_new.1, l_new.2, c_new, ← hu, ← chanOf_list ul]
      exact List.map_congr_left fun k hk => by rw [q_new _ _ (List.mem_range.1 hk), q_new _ _ (List.mem_range.1 hk), he]
    · rw [(l_old n hN).1, (l_old n hN).2, c_old n (by omega), ← hf.echo n (by omega)]
      exact List.map_congr_left fun k hk => by
        have := List.mem_range.1 hk
        rw [q_old _ _ (by omega), q_old _ _ (by omega)]
  · intro c m hm
    rcases split m hm with hm | ⟨k, hk, rfl⟩
    · rw [s_old c m hm, q_old _ m hm, q_old _ m hm, hf.stored c m hm]
    · rw [s_new c k hk, q_new _ k hk, q_new _ k hk, hw]
      obtain ⟨p1, p2⟩ := pan_eq e2 x hk
      have g := gain_ramp P (fun n => (P n).feedback) 32 N hk
      rw [← e1] at g
      unfold wetOf
      cases c
      · simp only [Bool.false_eq_true, if_false]
        rw [mac_eq _ _ _ hk, mac_eq _ _ _ hk, p1, g]; ring
      · simp only [if_true]
        rw [mac_eq _ _ _ hk, mac_eq _ _ _ hk, p2, g]; ring
  · intro c m hm
    rcases split m hm with hm | ⟨k, hk, rfl⟩
    · rw [splice_old _ _ hm, hf.out c m hm]
      unfold Spec.widened
      rw [q_old _ m hm, q_old _ m hm]
    · rw [splice_new _ _ _ hk]
      have g := gain_ramp P (fun n => (P n).mix) 32 N hk
      rw [← e3] at g
      have g' := gain_ramp P (fun n => (P n).width) 64 N hk
      rw [← e4] at g'
      show t.mix.fadeTo 8 (blockOf x N c) (widen t e c) (blockOf x N c) k = _
      rw [fade_eq _ _ _ _ hk, g]
      congr 2
      unfold widen Spec.widened
      rw [mul_eq' _ _ hk, g', q_new _ k hk, q_new _ k hk]
      cases c
      · simp only [Bool.false_eq_true, if_false]; ring
      · simp only [if_true]; ring
  · rw [e1]; exact ⟨rfl, rfl⟩
  · rw [e2]; exact ⟨rfl, rfl⟩
  · rw [e3]; exact ⟨rfl, rfl⟩
  · rw [e4]; exact ⟨rfl, rfl⟩
  · intro c
    have := run c 31 (by omega)
    exact ⟨congrArg Lag.v this, congrArg Lag.first this, congrArg Lag.lp this, congrArg Lag.lpinv this⟩
  · exact e6
  · exact e11
  · intro c
    have := ring_step (w := w c) (hr c)
    rw [hσ, e9, e10]
    exact this
  · intro hh; omega
  · intro n hn
    have : n = N := by omega
    subst this
    rw [l_new.1, l_new.2, c_new]
    exact ⟨rfl, rfl⟩

end Verif.Effects.DualDelay
