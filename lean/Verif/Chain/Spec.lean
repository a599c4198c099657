import Verif.Chain.Model
/-!
# One voice's signal path, the specification of the quad filter chain

What each filter-block configuration does to one voice, written without lanes.  A voice has four filter states (A and B for the left signal, A and B for the right
one of `wide`), its ramped settings, the shaper's one-pole memory and the feedback lines.
-/
namespace Verif.Chain.Spec

/-- The state of one voice in the chain. -/
@[ext] structure Voice (L : Type) where
  a : L
  b : L
  a2 : L
  b2 : L
  active : Bool
  gain : ℝ
  feedback : ℝ
  mix1 : ℝ
  mix2 : ℝ
  drive : ℝ
  dGain : ℝ
  dFeedback : ℝ
  dMix1 : ℝ
  dMix2 : ℝ
  dDrive : ℝ
  lp : ℝ
  fbL : ℝ
  fbR : ℝ
  outL : ℝ
  outR : ℝ
  doutL : ℝ
  doutR : ℝ
  out2L : ℝ
  out2R : ℝ
  dout2L : ℝ
  dout2R : ℝ

/-- The units of the chain: filter A, filter B and the shaper (signal, drive), each possibly absent. -/
structure Units (L : Type) where
  fa : Option (L → ℝ → L × ℝ)
  fb : Option (L → ℝ → L × ℝ)
  ws : Option (ℝ → ℝ → ℝ)

variable {L : Type}

/-- A filter, or a wire if there is none. -/
def run (f : Option (L → ℝ → L × ℝ)) (u : L) (x : ℝ) : L × ℝ := (f.map fun f => f u x).getD (u, x)

/-- `m` of the wet signal, the rest dry. -/
def blend (m dry wet : ℝ) : ℝ := dry * (1 - m) + wet * m

/-- The signal if the voice is active, else silence. -/
def gate (on : Bool) (x : ℝ) : ℝ := if on then x else 0

/-- What returns from a feedback line: at most 1 in absolute value (`softclip` is the cubic soft clipper of C62). -/
noncomputable def returned (amount line : ℝ) : ℝ := Dsp.softclip (amount * line)

/-- Advance the drive, if there is a shaper. -/
noncomputable def driveOf (p : Units L) (v : Voice L) : ℝ := if p.ws.isSome then v.drive + v.dDrive else v.drive

/-- The shaper's memory after a sample: the mean of it and the sample, if there is a shaper. -/
noncomputable def lpOf (p : Units L) (v : Voice L) (x : ℝ) : ℝ := if p.ws.isSome then (v.lp + x) / 2 else v.lp

/-- The shaper behind its memory. -/
noncomputable def shapedLp (p : Units L) (v : Voice L) (x : ℝ) : ℝ := (p.ws.map fun w => w (lpOf p v x) (driveOf p v)).getD x

/-- The shaper alone. -/
noncomputable def shaped (p : Units L) (v : Voice L) (x : ℝ) : ℝ := (p.ws.map fun w => w x (driveOf p v)).getD x

/-- Filter A or the shaper is there. -/
def frontOn (p : Units L) : Bool := p.fa.isSome || p.ws.isSome

/-- The first mix advances only if there is something to mix. -/
noncomputable def mix1Of (p : Units L) (v : Voice L) : ℝ := if frontOn p then v.mix1 + v.dMix1 else v.mix1

/-- Dry input and filtered, shaped signal, blended by the first mix. -/
noncomputable def front (p : Units L) (v : Voice L) (input x : ℝ) : ℝ := if frontOn p then blend (mix1Of p v) input x else x

/-- What a mono path puts out: one signal to both channels, each at its level. -/
def heardMono (v : Voice L) (x : ℝ) : ℝ × ℝ := (x * (v.outL + v.doutL), x * (v.outR + v.doutR))

/-- Filter 1, shaper, then filter 2; no feedback. -/
noncomputable def serial1 (p : Units L) (v : Voice L) (dl dr : ℝ) : Voice L × (ℝ × ℝ) :=
  let ra := run p.fa v.a dl
  let x := front p v dl (shapedLp p v ra.2)
  let rb := run p.fb v.b (x + dr)
  let out := gate v.active (blend (v.mix2 + v.dMix2) x rb.2 * (v.gain + v.dGain))
  ({ v with a := ra.1, b := rb.1, lp := lpOf p v ra.2, drive := driveOf p v, mix1 := mix1Of p v, mix2 := v.mix2 + v.dMix2, gain := v.gain + v.dGain,
            outL := v.outL + v.doutL, outR := v.outR + v.doutR }, heardMono v out)

/-- The same with the output fed back to the input. -/
noncomputable def serial2 (p : Units L) (v : Voice L) (dl dr : ℝ) : Voice L × (ℝ × ℝ) :=
  let input := dl + returned (v.feedback + v.dFeedback) v.fbL
  let ra := run p.fa v.a input
  let x := front p v input (shapedLp p v ra.2)
  let rb := run p.fb v.b (x + dr)
  let out := gate v.active (blend (v.mix2 + v.dMix2) x rb.2 * (v.gain + v.dGain))
  ({ v with a := ra.1, b := rb.1, lp := lpOf p v ra.2, drive := driveOf p v, mix1 := mix1Of p v, mix2 := v.mix2 + v.dMix2, gain := v.gain + v.dGain,
            feedback := v.feedback + v.dFeedback, fbL := out, outL := v.outL + v.doutL, outR := v.outR + v.doutR }, heardMono v out)

/-- Filter 2 only in the feedback path. -/
noncomputable def serial3 (p : Units L) (v : Voice L) (dl dr : ℝ) : Voice L × (ℝ × ℝ) :=
  let input := dl + returned (v.feedback + v.dFeedback) v.fbL
  let ra := run p.fa v.a input
  let out := gate v.active (front p v input (shapedLp p v ra.2) * (v.gain + v.dGain))
  let rb := run p.fb v.b (out + dr)
  ({ v with a := ra.1, b := rb.1, lp := lpOf p v ra.2, drive := driveOf p v, mix1 := mix1Of p v, mix2 := v.mix2 + v.dMix2, gain := v.gain + v.dGain,
            feedback := v.feedback + v.dFeedback, fbL := rb.2, outL := v.outL + v.doutL, outR := v.outR + v.doutR }, heardMono v out)

/-- Two filters side by side, mixed, then shaped. -/
noncomputable def dual1 (p : Units L) (v : Voice L) (dl dr : ℝ) : Voice L × (ℝ × ℝ) :=
  let e := returned (v.feedback + v.dFeedback) v.fbL
  let ra := run p.fa v.a (dl + e)
  let rb := run p.fb v.b (dr + e)
  let x := ra.2 * (v.mix1 + v.dMix1) + rb.2 * (v.mix2 + v.dMix2)
  let out := gate v.active (shapedLp p v x * (v.gain + v.dGain))
  ({ v with a := ra.1, b := rb.1, lp := lpOf p v x, drive := driveOf p v, mix1 := v.mix1 + v.dMix1, mix2 := v.mix2 + v.dMix2, gain := v.gain + v.dGain,
            feedback := v.feedback + v.dFeedback, fbL := out, outL := v.outL + v.doutL, outR := v.outR + v.doutR }, heardMono v out)

/-- Filter 1 shaped, filter 2 not, mixed. -/
noncomputable def dual2 (p : Units L) (v : Voice L) (dl dr : ℝ) : Voice L × (ℝ × ℝ) :=
  let e := returned (v.feedback + v.dFeedback) v.fbL
  let ra := run p.fa v.a (dl + e)
  let rb := run p.fb v.b (dr + e)
  let x := shapedLp p v ra.2 * (v.mix1 + v.dMix1) + rb.2 * (v.mix2 + v.dMix2)
  let out := gate v.active (x * (v.gain + v.dGain))
  ({ v with a := ra.1, b := rb.1, lp := lpOf p v ra.2, drive := driveOf p v, mix1 := v.mix1 + v.dMix1, mix2 := v.mix2 + v.dMix2, gain := v.gain + v.dGain,
            feedback := v.feedback + v.dFeedback, fbL := out, outL := v.outL + v.doutL, outR := v.outR + v.doutR }, heardMono v out)

/-- The two filters' outputs, cross-blended by the two mixes and multiplied, then shaped. -/
noncomputable def ring (p : Units L) (v : Voice L) (dl dr : ℝ) : Voice L × (ℝ × ℝ) :=
  let e := returned (v.feedback + v.dFeedback) v.fbL
  let ra := run p.fa v.a (dl + e)
  let rb := run p.fb v.b (dr + e)
  let x := blend (v.mix1 + v.dMix1) rb.2 ra.2 * blend (v.mix2 + v.dMix2) ra.2 rb.2
  let out := gate v.active (shapedLp p v x * (v.gain + v.dGain))
  ({ v with a := ra.1, b := rb.1, lp := lpOf p v x, drive := driveOf p v, mix1 := v.mix1 + v.dMix1, mix2 := v.mix2 + v.dMix2, gain := v.gain + v.dGain,
            feedback := v.feedback + v.dFeedback, fbL := out, outL := v.outL + v.doutL, outR := v.outR + v.doutR }, heardMono v out)

/-- What a two-channel path puts out.  The first signal's left level advances twice (as the code has it). -/
def heardTwo (v : Voice L) (x y : ℝ) : ℝ × ℝ :=
  (x * (v.outL + 2 * v.doutL) + y * (v.out2L + v.dout2L), x * (v.outR + v.doutR) + y * (v.out2R + v.dout2R))

/-- Two filters, two signals, a common feedback of their sum. -/
noncomputable def stereo (p : Units L) (v : Voice L) (dl dr : ℝ) : Voice L × (ℝ × ℝ) :=
  let e := returned (v.feedback + v.dFeedback) v.fbL
  let ra := run p.fa v.a (dl + e)
  let rb := run p.fb v.b (dr + e)
  let x := gate v.active (shaped p v ra.2 * (v.mix1 + v.dMix1) * (v.gain + v.dGain))
  let y := gate v.active (shaped p v rb.2 * (v.mix2 + v.dMix2) * (v.gain + v.dGain))
  ({ v with a := ra.1, b := rb.1, drive := driveOf p v, mix1 := v.mix1 + v.dMix1, mix2 := v.mix2 + v.dMix2, gain := v.gain + v.dGain,
            feedback := v.feedback + v.dFeedback, fbL := x + y, outL := v.outL + 2 * v.doutL, outR := v.outR + v.doutR,
            out2L := v.out2L + v.dout2L, out2R := v.out2R + v.dout2R }, heardTwo v x y)

/-- One channel of `wide`: filter A, shaper, blend, filter B, blend; the new states and the signal. -/
noncomputable def wideChannel (p : Units L) (v : Voice L) (ua ub : L) (input : ℝ) : L × L × ℝ :=
  let ra := run p.fa ua input
  let x := front p v input (shaped p v ra.2)
  let rb := run p.fb ub x
  (ra.1, rb.1, gate v.active ((if p.fb.isSome then blend (v.mix2 + v.dMix2) x rb.2 else x) * (v.gain + v.dGain)))

/-- The same serial path twice, once per channel, each with its own feedback. -/
noncomputable def wide (p : Units L) (v : Voice L) (dl dr : ℝ) : Voice L × (ℝ × ℝ) :=
  let x := wideChannel p v v.a v.b (dl + returned (v.feedback + v.dFeedback) v.fbL)
  let y := wideChannel p v v.a2 v.b2 (dr + returned (v.feedback + v.dFeedback) v.fbR)
  ({ v with a := x.1, b := x.2.1, a2 := y.1, b2 := y.2.1, drive := driveOf p v, mix1 := mix1Of p v,
            mix2 := if p.fb.isSome then v.mix2 + v.dMix2 else v.mix2, gain := v.gain + v.dGain,
            feedback := v.feedback + v.dFeedback, fbL := x.2.2, fbR := y.2.2, outL := v.outL + 2 * v.doutL, outR := v.outR + v.doutR,
            out2L := v.out2L + v.dout2L, out2R := v.out2R + v.dout2R }, heardTwo v x.2.2 y.2.2)

/-- One sample of one voice: its next state, and what it adds to the left and right outputs. -/
noncomputable def voice (cfg : Config) (p : Units L) (v : Voice L) (dl dr : ℝ) : Voice L × (ℝ × ℝ) :=
  match cfg with
  | .serial1 => serial1 p v dl dr
  | .serial2 => serial2 p v dl dr
  | .serial3 => serial3 p v dl dr
  | .dual1 => dual1 p v dl dr
  | .dual2 => dual2 p v dl dr
  | .stereo => stereo p v dl dr
  | .ring => ring p v dl dr
  | .wide => wide p v dl dr

/-- The voice's state before sample `k`. -/
noncomputable def state (cfg : Config) (p : Units L) (v : Voice L) (dl dr : ℕ → ℝ) : ℕ → Voice L
  | 0 => v
  | k + 1 => (voice cfg p (state cfg p v dl dr k) (dl k) (dr k)).1

/-- What the voice adds to the outputs at sample `k`. -/
noncomputable def heard (cfg : Config) (p : Units L) (v : Voice L) (dl dr : ℕ → ℝ) (k : ℕ) : ℝ × ℝ :=
  (voice cfg p (state cfg p v dl dr k) (dl k) (dr k)).2

end Verif.Chain.Spec
