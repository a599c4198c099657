import Verif.Adsr.Model
import Verif.StepSeq.Model
/-!
# The low-frequency oscillator

Models the crate `surge-lfo`: `attack`, `release` and `process` with everything they call. The wave shape table, the
envelope rate table, `2^x` and the random numbers are arbitrary inputs. `LfoParam` is the enum of param.rs 23-37.
`output` is an `f64` that always holds an `f32` value.
-/
namespace Verif.Lfo
open Verif.Float Verif.Dsp Verif.Param Verif.Adsr Verif.StepSeq

/-- surge-types/src/modsource.rs 12-21 `LfoShape`. -/
inductive Shape where
  | sine | tri | square | ramp | noise | snh | envelope | stepseq
  deriving DecidableEq, Repr

/-- surge-types/src/modsource.rs 4-8 `LfoMode`. -/
inductive Mode where
  | freeRun | keyTrigger | random
  deriving DecidableEq, Repr

/-- lfo.rs 48-56 `LfoEnvState`. -/
inductive EnvState where
  | off | delay | attack | hold | decay | release | stuck
  deriving DecidableEq, Repr

/-- param.rs 23-37 `LfoParam`. -/
inductive LP where
  | rate | shape | startPhase | magnitude | deform | trigmode | unipolar | delay | hold | attack | decay | sustain | release
  deriving DecidableEq, Repr

/-- The runtime parameters: value, limits and tempo-sync flag of each. -/
structure Params where
  val : LP → PData
  min : LP → PData
  max : LP → PData
  sync : LP → Bool

/-- What the oscillator asks of its surroundings: the rate table (surge-tables), table 3 of the wave shapes, `2^x`, the
tempo ratio and the song position. -/
structure Env where
  rateLinear : F32 → F32
  warp3 : F32 → F32
  pow2 : F32 → F32
  tempoRatio : F32
  songpos : F32

/-- Results of the random generator used by one call: `rand01()` for the phase and the values of
`correlated_noise_o2mk2` in order of use. -/
structure Rand where
  phase : F32
  noise : Nat → F32

/-- lfo.rs 62-172 `Lfo` (without handles, `noise`, `sine`). `wf` is `wf_history`. -/
structure St where
  p : Params
  output : F32
  seq : Seq
  phaseInit : Bool
  envVal : F32
  envState : EnvState
  retriggerFeg : Bool
  retriggerAeg : Bool
  phase : F32
  envPhase : F32
  ratemult : F32
  releaseStart : F32
  iout : F32
  wf0 : F32
  wf1 : F32
  wf2 : F32
  wf3 : F32
  step : Nat
  shuffle : Nat

/-- init.rs 36-62 `new`. -/
def new (p : Params) : St :=
  ⟨p, .fin 0, Seq.default, false, .fin 0, .delay, false, false, .fin 0, .fin 0, .fin 1, .fin 0, .fin 0, .fin 0, .fin 0, .fin 0, .fin 0, 0, 0⟩

/-- param.rs 45-65: every trait is defaulted, so every parameter is `Float(0.5)` in 0..1. -/
def defaultParams : Params :=
  ⟨fun _ => .float (.fin (1 / 2)), fun _ => .float (.fin 0), fun _ => .float (.fin 1), fun _ => false⟩

/-- `LfoShape::try_from(n as usize).unwrap()`. -/
def shapeOf (i : Int) : Res Empty Shape :=
  match i with
  | 0 => .ok .sine | 1 => .ok .tri | 2 => .ok .square | 3 => .ok .ramp | 4 => .ok .noise | 5 => .ok .snh
  | 6 => .ok .envelope | 7 => .ok .stepseq | _ => .panic "unwrap of Err: TryFromPrimitiveError"

/-- `LfoMode::try_from(n as usize).unwrap()`. -/
def modeOf (i : Int) : Res Empty Mode :=
  match i with
  | 0 => .ok .freeRun | 1 => .ok .keyTrigger | 2 => .ok .random | _ => .panic "unwrap of Err: TryFromPrimitiveError"

/-- get.rs 14-18 `get_shape`. -/
def getShape (s : St) : Res Empty Shape := pvali (s.p.val .shape) >>= shapeOf

/-- The model's outcome of a loop that has not finished within the fuel. -/
def outOfFuel : String := "model: out of fuel"

/-- `while x < 0.0 { x += 1.0 }`. -/
def wrapUp : Nat → F32 → Res Empty F32
  | 0, _ => .panic outOfFuel
  | n + 1, x => if F32.lt x (.fin 0) = true then wrapUp n (F32.add x (.fin 1)) else .ok x

/-- `while x > 1.0 { x -= 1.0 }`. -/
def wrapDown : Nat → F32 → Res Empty F32
  | 0, _ => .panic outOfFuel
  | n + 1, x => if F32.lt (.fin 1) x = true then wrapDown n (F32.sub x (.fin 1)) else .ok x

/-- init.rs 76-77, phaseslider.rs 27-33: the two loops. -/
def wrap (fuel : Nat) (x : F32) : Res Empty F32 := wrapUp fuel x >>= wrapDown fuel

/-- init.rs 68-78 `init_phase_from_start_phase`. -/
def initPhase (fuel : Nat) (s : St) : Res Empty St :=
  pvalf (s.p.val .startPhase) >>= fun x => wrap fuel x >>= fun y => .ok { s with phase := y, phaseInit := true }

/-- `if ! self.phase_initialized { self.init_phase_from_start_phase() }`. -/
def ensurePhase (fuel : Nat) (s : St) : Res Empty St := if s.phaseInit = true then .ok s else initPhase fuel s

/-- phaseslider.rs 13-36 `get_phaseslider`. -/
def phaseslider (fuel : Nat) (sh : Shape) (start : F32) : Res Empty F32 :=
  wrap fuel (if sh = .stepseq then .fin 0 else start)

/-- `(a - b).abs() < f32::EPSILON`. -/
def near (a b : F32) : Bool :=
  match F32.sub a b with
  | .fin q => decide (|q| < 1 / 2 ^ 23)
  | _ => false

/-- update.rs 25-48 `maybe_update_env_state_for_attack`. -/
def envForAttack (s : St) (delay attack hold : F32) : Res Empty St :=
  pvalf (s.p.min .delay) >>= fun dm =>
  if near delay dm = true then
    pvalf (s.p.min .attack) >>= fun am =>
    if near attack am = true then
      pvalf (s.p.min .hold) >>= fun hm =>
      if near hold hm = true then .ok { s with envState := .decay, envVal := .fin 1 }
      else .ok { s with envState := .hold, envVal := .fin 1 }
    else .ok { s with envState := .attack }
  else .ok s

/-- update.rs 57-60 `update_phase_and_step_for_lfo_mode_keytrigger`. -/
def keyTrigger (s : St) (slider : F32) : St := { s with phase := slider, step := 0 }

/-- update.rs 65-78 `update_phase_and_step_for_lfo_mode_random`. `rand01() as usize` is `0`, as `rand01` is below 1. -/
def randomMode (s : St) (r : Rand) : Res Empty St :=
  if s.seq.loopEnd = 0 then .panic "remainder by zero"
  else .ok { s with phase := r.phase, step := (0 % s.seq.loopEnd) &&& 15 }

/-- update.rs 88-115 `update_phase_and_step_for_lfo_mode_free_run`. -/
def freeRun (E : Env) (s : St) (slider rate : F32) : Res Empty St :=
  let x := F32.add slider (F32.mul (F32.mul (flit (1 / 2)) E.songpos) (E.pow2 rate))
  splitFloat x >>= fun (ip, _) =>
  if s.seq.loopEnd < s.seq.loopStart then .panic "usize subtract overflow"
  else .ok { s with step := ip.toUsize % (Max.max 1 (s.seq.loopEnd - s.seq.loopStart)) + s.seq.loopStart }

/-- update.rs 132-152 `maybe_update_phase_and_step_for_attack`. -/
def phaseForAttack (fuel : Nat) (E : Env) (r : Rand) (s : St) (sh : Shape) (m : Mode) (start rate : F32) : Res Empty St :=
  phaseslider fuel sh start >>= fun slider =>
  match m with
  | .keyTrigger => .ok (keyTrigger s slider)
  | .random => randomMode s r
  | .freeRun => freeRun E s slider rate

/-- attack_shape_stepseq.rs 7-67 `attack_shape_stepseq`. `maxf` orders a NaN below or above everything; here it is replaced
by the other operand (only for a NaN start phase). -/
def attackStepseq (s : St) (start : F32) : St :=
  let w1 := s.seq.step (s.step &&& 15)
  let step := s.step + 1
  let step := if s.seq.loopEnd < step then s.seq.loopStart else step
  let sh := (s.shuffle + 1) % 2
  let mult := if sh ≠ 0 then divF (.fin 1) (maxSs (flit (1 / 100)) (F32.sub (.fin 1) (F32.mul (flit (1 / 2)) start)))
    else divF (.fin 1) (F32.add (.fin 1) (F32.mul (flit (1 / 2)) start))
  { s with wf1 := w1, step := step, shuffle := sh, ratemult := mult, wf0 := s.seq.step (step &&& 15) }

/-- attack_shape_sine.rs 32-41 `attack_shape_sine`. -/
def attackSine (s : St) : Res Empty St :=
  pvalb (s.p.val .unipolar) >>= fun u =>
  let ph := if u = true then F32.add s.phase (flit (3 / 4)) else s.phase
  .ok { s with phase := if F32.lt (.fin 1) ph = true then F32.sub ph (.fin 1) else ph }

/-- attack_shape_tri.rs 68-80 `attack_shape_tri`. -/
def attackTri (s : St) : Res Empty St :=
  pvalb (s.p.val .unipolar) >>= fun u =>
  if u = true then .ok s
  else
    let ph := F32.add s.phase (flit (1 / 4))
    .ok { s with phase := if F32.lt (.fin 1) ph = true then F32.sub ph (.fin 1) else ph }

/-- attack_shapes.rs 5-44 `attack_shape` and attack_shape_noise.rs 31-64, attack_shape_snh.rs 42-53. -/
def attackShape (r : Rand) (s : St) (sh : Shape) (start : F32) : Res Empty St :=
  match sh with
  | .sine => attackSine s
  | .tri => attackTri s
  | .square => .ok { s with output := if F32.lt s.phase (flit (1 / 2)) = true then .fin 1 else .fin (-1) }
  | .ramp => .ok { s with output := F32.sub (F32.mul s.phase (.fin 2)) (.fin 1) }
  | .noise => pvalf (s.p.val .deform) >>= fun _ =>
    .ok { s with wf3 := F32.mul (r.noise 0) s.phase, wf2 := F32.mul (r.noise 1) s.phase, wf1 := F32.mul (r.noise 2) s.phase, wf0 := F32.mul (r.noise 3) s.phase, phase := .fin 0 }
  | .snh => pvalf (s.p.val .deform) >>= fun _ => .ok { s with iout := r.noise 0 }
  | .envelope => .ok { s with output := s.envVal }
  | .stepseq => .ok (attackStepseq s start)

/-- attack.rs 37-93 `attack`. -/
def attack (fuel : Nat) (E : Env) (r : Rand) (s : St) : Res Empty St :=
  ensurePhase fuel s >>= fun s =>
  let s := { s with envState := .delay, envVal := .fin 0, envPhase := .fin 0 }
  pvalf (s.p.val .startPhase) >>= fun start => getShape s >>= fun sh =>
  pvali (s.p.val .trigmode) >>= fun mi => modeOf mi >>= fun m =>
  pvalf (s.p.val .delay) >>= fun d => pvalf (s.p.val .attack) >>= fun a => pvalf (s.p.val .hold) >>= fun h =>
  pvalf (s.p.val .rate) >>= fun rate =>
  envForAttack s d a h >>= fun s =>
  phaseForAttack fuel E r s sh m start rate >>= fun s => attackShape r s sh start

/-- release.rs 20-43 `release`. -/
def release (s : St) : Res Empty St :=
  pvalf (s.p.val .release) >>= fun x => pvalf (s.p.max .release) >>= fun m =>
  .ok (if F32.lt x m = true then { s with envState := .release, releaseStart := s.envVal, envPhase := .fin 0 } else s)

/-! ## process -/

/-- get.rs 49-59 `get_rate` and update_envelope.rs 13-27 `calculate_envrate_with_lfo_param`. -/
def rateOf (E : Env) (p : Params) (k : LP) : Res Empty F32 :=
  pvalf (p.val k) >>= fun x =>
  .ok (if p.sync k = true then F32.mul (E.rateLinear x) E.tempoRatio else E.rateLinear x)

/-- set.rs 13-18 `set_phase_for_process`. -/
def setPhase (E : Env) (s : St) : Res Empty St :=
  rateOf E s.p .rate >>= fun r => .ok { s with phase := F32.add s.phase (F32.mul r s.ratemult) }

/-- update_envelope.rs 75-84 `calculate_envrate`. -/
def envrate (E : Env) (s : St) : Res Empty F32 :=
  match s.envState with
  | .delay => rateOf E s.p .delay
  | .attack => rateOf E s.p .attack
  | .hold => rateOf E s.p .hold
  | .decay => rateOf E s.p .decay
  | .release => rateOf E s.p .release
  | _ => .ok (.fin 0)

/-- update_envelope.rs 36-66 `next_env_state`. -/
def nextEnv (s : St) (sus : F32) : St :=
  match s.envState with
  | .delay => { s with envState := .attack, envPhase := .fin 0 }
  | .attack => { s with envState := .hold, envPhase := .fin 0 }
  | .hold => { s with envState := .decay, envPhase := .fin 0 }
  | .decay => { s with envState := .stuck, envPhase := .fin 0, envVal := sus }
  | .release => { s with envState := .stuck, envPhase := .fin 0, envVal := .fin 0 }
  | _ => s

/-- update_envelope.rs 94-104 `update_envelope_value`. -/
def envValue (s : St) (sus : F32) : St :=
  match s.envState with
  | .delay => { s with envVal := .fin 0 }
  | .attack => { s with envVal := s.envPhase }
  | .hold => { s with envVal := .fin 1 }
  | .decay => { s with envVal := F32.add (F32.sub (.fin 1) s.envPhase) (F32.mul s.envPhase sus) }
  | .release => { s with envVal := F32.add (F32.sub (.fin 1) s.envPhase) s.releaseStart }
  | _ => s

/-- update_envelope.rs 113-127 `update_envelope_for_process`. -/
def updateEnv (E : Env) (s : St) : Res Empty St :=
  envrate E s >>= fun r =>
  let s := { s with envPhase := F32.add s.envPhase r }
  pvali (s.p.val .sustain) >>= fun i =>
  let sus := F32.ofInt i
  .ok (envValue (if F32.lt (.fin 1) s.envPhase = true then nextEnv s sus else s) sus)

/-- `trigmask & (1 << n) != 0`. -/
def trigBit (s : St) (n : Nat) : Res Empty Bool := shl1 n >>= fun b => .ok (s.seq.trigmask &&& b != 0)

/-- phase_over_one.rs 63-77: the speed of the next step. Note the minimum. -/
def stepMult (sh : Nat) (start : F32) : F32 :=
  if sh ≠ 0 then divF (.fin 1) (minSs (flit (1 / 100)) (F32.sub (.fin 1) (F32.mul (flit (1 / 2)) start)))
  else divF (.fin 1) (F32.add (.fin 1) (F32.mul (flit (1 / 2)) start))

/-- phase_over_one.rs 38-87 `update_step_sequencer_for_phase_over_one`. -/
def overStepseq (s : St) : Res Empty St :=
  trigBit s s.step >>= fun t0 => trigBit s (16 + s.step) >>= fun t1 => trigBit s (32 + s.step) >>= fun t2 =>
  pvalf (s.p.val .startPhase) >>= fun start =>
  let sh := (s.shuffle + 1) % 2
  let step := if s.seq.loopEnd < s.step + 1 then s.seq.loopStart else s.step + 1
  .ok { s with retriggerFeg := s.retriggerFeg || t0 || t1, retriggerAeg := s.retriggerAeg || t0 || t2, step := step, shuffle := sh, ratemult := stepMult sh start, wf3 := s.wf2, wf2 := s.wf1, wf1 := s.wf0, wf0 := s.seq.step (step &&& 15) }

/-- phase_over_one.rs 98-117 `update_for_phase_over_one`, 10-33 the noise shapes. -/
def overOne (r : Rand) (s : St) (sh : Shape) : Res Empty St :=
  let s := { s with phase := F32.sub s.phase (.fin 1) }
  match sh with
  | .snh => pvalf (s.p.val .deform) >>= fun _ => .ok { s with iout := r.noise 0 }
  | .noise => pvalf (s.p.val .deform) >>= fun _ => .ok { s with wf3 := s.wf2, wf2 := s.wf1, wf1 := s.wf0, wf0 := r.noise 0 }
  | .stepseq => overStepseq s
  | _ => .ok s

/-- bend.rs 104-113 `lfo_bend3`, one half. -/
def bendHalf (a x : F32) : F32 := F32.add (F32.sub x (F32.mul (F32.mul a x) x)) a

/-- bend.rs 104-113 `lfo_bend3` with 125-127 `deform`, which reads the parameter as an integer. -/
def bend3 (s : St) (x : F32) : Res Empty F32 :=
  pvali (s.p.val .deform) >>= fun d =>
  let a := F32.mul (flit (1 / 2)) (F32.ofInt d)
  .ok (bendHalf a (bendHalf a x))

/-- surge-math/src/interp.rs 5-19 `cubic_interpolate`. -/
def cubic (y0 y1 y2 y3 mu : F32) : F32 :=
  let mu2 := F32.mul mu mu
  let a0 := F32.add (F32.sub (F32.sub y3 y2) y0) y1
  let a1 := F32.sub (F32.sub y0 y1) a0
  let a2 := F32.sub y2 y0
  F32.add (F32.add (F32.add (F32.mul (F32.mul a0 mu) mu2) (F32.mul a1 mu2)) (F32.mul a2 mu)) y1

/-- `num::clamp(x, 0.0, 1.0)`. -/
def clampN (x : F32) : F32 := if F32.lt x (.fin 0) = true then .fin 0 else if F32.lt (.fin 1) x = true then .fin 1 else x

/-- process_shape_stepseq.rs 15-119 `process_shape_stepseq`. -/
def shapeStepseq (s : St) (deform : F32) : F32 :=
  let ph := s.phase
  if F32.lt (flit (1 / 2)) deform = true then
    let linear := F32.add (F32.mul (F32.sub (.fin 1) ph) s.wf2) (F32.mul ph s.wf1)
    let cub := cubic s.wf3 s.wf2 s.wf1 s.wf0 ph
    let d2 := F32.mul (.fin 2) deform
    F32.add (F32.mul (F32.sub (.fin 2) d2) linear) (F32.mul (F32.sub d2 (.fin 1)) cub)
  else if F32.lt (flit (-1 / 10000)) deform = true then
    let cf := clampN (divF ph (F32.add (F32.mul (.fin 2) deform) (flit (1 / 100000))))
    F32.add (F32.mul (F32.sub (.fin 1) cf) s.wf2) (F32.mul cf s.wf1)
  else if F32.lt (flit (-1 / 2)) deform = true then
    let cf := clampN (divF (F32.sub (.fin 1) ph) (F32.add (F32.mul (.fin (-2)) deform) (flit (1 / 100000))))
    F32.add (F32.mul (F32.sub (.fin 1) cf) (.fin 0)) (F32.mul cf s.wf1)
  else
    let cf := clampN (divF ph (F32.add (F32.add (.fin 2) (F32.mul (.fin 2) deform)) (flit (1 / 100000))))
    F32.add (F32.mul (F32.sub (.fin 1) cf) s.wf1) (F32.mul cf (.fin 0))

/-- process_shapes.rs 8-95 `process_shape`: the new `iout`. -/
def shapeOut (E : Env) (s : St) (sh : Shape) : Res Empty F32 :=
  match sh with
  | .sine => bend3 s (E.warp3 (F32.sub (.fin 2) (F32.mul (.fin 4) s.phase)))
  | .tri => bend3 s (F32.add (.fin (-1)) (F32.mul (.fin 4) (if F32.lt (flit (1 / 2)) s.phase = true then F32.sub (.fin 1) s.phase else s.phase)))
  | .square => pvalf (s.p.val .deform) >>= fun d =>
    .ok (if F32.lt (F32.add (flit (1 / 2)) (F32.mul (flit (1 / 2)) d)) s.phase = true then .fin (-1) else .fin 1)
  | .ramp => bend3 s (F32.sub (.fin 1) (F32.mul (.fin 2) s.phase))
  | .noise => .ok (cubic s.wf3 s.wf2 s.wf1 s.wf0 s.phase)
  | .snh => .ok s.iout
  | .envelope => pvalf (s.p.val .deform) >>= fun d => .ok (F32.add (F32.sub (.fin 1) d) (F32.mul d s.envVal))
  | .stepseq => pvalf (s.p.val .deform) >>= fun d => .ok (shapeStepseq s d)

/-- process.rs 44-62: scale to the output. -/
def finish (s : St) (sh : Shape) (iout : F32) : Res Empty St :=
  pvalb (s.p.val .unipolar) >>= fun u => pvalf (s.p.val .magnitude) >>= fun m =>
  let io2 := if u = true ∧ sh ≠ .stepseq then F32.add (flit (1 / 2)) (F32.mul (flit (1 / 2)) iout) else iout
  .ok { s with iout := iout, output := F32.mul (F32.mul s.envVal m) io2 }

/-- process.rs 16-62 `process`, up to the shape. -/
def advance (fuel : Nat) (E : Env) (r : Rand) (s : St) : Res Empty (St × Shape) :=
  ensurePhase fuel s >>= fun s =>
  let s := { s with retriggerFeg := false, retriggerAeg := false }
  getShape s >>= fun sh => setPhase E s >>= fun s =>
  (if s.envState ≠ .stuck then updateEnv E s else .ok s) >>= fun s =>
  (if F32.lt (.fin 1) s.phase = true then overOne r s sh else .ok s) >>= fun s => .ok (s, sh)

/-- process.rs 16-62 `process`. -/
def process (fuel : Nat) (E : Env) (r : Rand) (s : St) : Res Empty St :=
  advance fuel E r s >>= fun (s, sh) => shapeOut E s sh >>= fun o => finish s sh o

/-- modsource.rs 47-61 `get_output`, `get_output01`: `0.0` (marked TODO). -/
def getOutput (_ : St) : F32 := .fin 0

end Verif.Lfo
