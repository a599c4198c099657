import Verif.Param.Model
/-!
# The ADSR envelope

Models the crate `surge-adsr`. The vector registers hold one number (`_ss` intrinsics, lane 0); the mask registers are
`Bool`. The platform's `sqrt`, `powf`, `log2` and the envelope rate table are arbitrary functions.
-/
namespace Verif.Adsr
open Verif.Float Verif.Dsp Verif.Param

/-- state.rs 6-14 `AdsrState`, in declaration order (the derived order). -/
inductive Stage where
  | attack | decay | sustain | release | uberRelease | idleWait1 | idle
  deriving DecidableEq, Repr

/-- The derived `PartialOrd`. -/
def Stage.rank : Stage → Nat
  | .attack => 0 | .decay => 1 | .sustain => 2 | .release => 3 | .uberRelease => 4 | .idleWait1 => 5 | .idle => 6

/-- param.rs 5-14: the values of the eight parameters, and the lower limit of the attack time. -/
structure Params where
  attack : PData
  attackMin : PData
  decay : PData
  sustain : PData
  release : PData
  attackShape : PData
  decayShape : PData
  releaseShape : PData
  mode : PData
  syncA : Bool
  syncD : Bool
  syncR : Bool

/-- What the envelope asks of its surroundings. -/
structure Env where
  fns : Fns
  sqrt : F32 → F32
  pow3rd : F32 → F32
  rateLinear : F32 → F32
  samplerate : F32
  tempoRatio : F32

/-- adsr.rs 14-66 `AdsrEnvelope`. `_discharge` is `0.0` or all ones (a NaN): a `Bool`. -/
structure St where
  p : Params
  output : F32
  phase : F32
  sustain : F32
  scalestage : F32
  idlecount : Int
  stage : Stage
  vC1 : F32
  vC1Delayed : F32
  discharge : Bool

/-- surge-param pval.rs 9-14, pdata.rs 17-23: `pvalf!`. -/
def pvalf : PData → Res Empty F32
  | .float f => .ok f
  | _ => .panic "explicit panic"
/-- `pvali!`. -/
def pvali : PData → Res Empty Int
  | .int i => .ok i
  | _ => .panic "explicit panic"
/-- `pvalb!`. -/
def pvalb : PData → Res Empty Bool
  | .bool b => .ok b
  | _ => .panic "explicit panic"

/-- init.rs 5-14 `init`. -/
def init (s : St) : St :=
  { s with stage := .attack, phase := .fin 0, output := .fin 0, idlecount := 0, scalestage := .fin 1, vC1 := .fin 0, vC1Delayed := .fin 0, discharge := false }

/-- param.rs: no trait is overridden, so every parameter is `Float(0.5)` in 0..1 (surge-param default_value.rs,
minmax.rs) and not tempo-synced. -/
def defaultParams : Params :=
  let h : PData := .float (.fin (1 / 2))
  ⟨h, .float (.fin 0), h, h, h, h, h, h, h, false, false, false⟩

/-- adsr.rs 70-97 `new`. -/
def new : St := init ⟨defaultParams, .fin 0, .fin 0, .fin 0, .fin 0, 0, .idle, .fin 0, .fin 0, false⟩

/-- attack.rs 5-44 `attack`. -/
def attack (s : St) : Res Empty St :=
  let s := { s with phase := .fin 0, output := .fin 0, idlecount := 0, scalestage := .fin 1, vC1 := .fin 0, vC1Delayed := .fin 0, discharge := false, stage := Stage.attack }
  pvalf s.p.attack >>= fun v1 => pvalf s.p.attackMin >>= fun v2 =>
  if F32.lt (F32.sub v1 v2) (flit (1 / 100)) = true then .ok { s with stage := .decay, output := .fin 1, phase := .fin 1 }
  else .ok s

/-- retrigger.rs 13-19 `retrigger`. -/
def retrigger (s : St) : Res Empty St :=
  if s.stage.rank < Stage.release.rank then attack s else .ok s

/-- adsr.rs 325-327 `get_output`: `todo!()`. -/
def getOutput (_ : St) : Res Empty F32 := .panic "not yet implemented"

/-- release.rs 11-19 `release`. -/
def release (s : St) : Res Empty St :=
  getOutput s >>= fun o => .ok { s with scalestage := o, phase := .fin 1, stage := .release }

/-- uber_release.rs 16-25 `uber_release`. -/
def uberRelease (s : St) : Res Empty St :=
  getOutput s >>= fun o => .ok { s with scalestage := o, phase := .fin 1, stage := .uberRelease }

/-- adsr.rs 254-256 `set_envstate` (public). -/
def setEnvstate (s : St) (x : Stage) : St := { s with stage := x }

/-- adsr.rs 368-375 (`is_idle`). -/
def isIdle (s : St) : Bool := decide (s.stage = .idle ∧ 0 < s.idlecount)

/-- `std::cmp::min(FloatOrd(0.0), FloatOrd(x))`: `x` if it is below zero. The NaN an SSE operation produces has its sign
bit set, and `FloatOrd` orders it below everything. -/
def min0 (x : F32) : F32 :=
  match x with
  | .nan => .nan
  | x => if F32.lt x (.fin 0) = true then x else .fin 0

/-- process_block_analog.rs 176: `2.0 - (samplerate / 32).log2()`. -/
def coeffOffset (E : Env) : F32 := F32.sub (.fin 2) (E.fns.log2 (F32.divC E.samplerate 32))

/-- adsr.rs 135-141 `tsyncratio`. -/
def tsync (E : Env) (sync : Bool) : F32 := if sync = true then E.tempoRatio else .fin 1

/-- process_block_analog.rs 195-211: `2^(min(0, coeff_offset - lc * ratio))`. -/
def coef (E : Env) (lc : F32) (sync : Bool) : F32 :=
  E.fns.pow2 (min0 (F32.sub (coeffOffset E) (F32.mul lc (tsync E sync))))

/-- process_block_analog.rs 21-220, the arithmetic: from `(v_c1, v_c1_delayed, discharge)` and the gate to the new ones. -/
def analogStep (gate : Bool) (coefA coefD coefR lcS : F32) (vC1 delayed : F32) (dis : Bool) : F32 × F32 × Bool :=
  let vGate : F32 := if gate = true then .fin (3 / 2) else .fin 0
  let isGate := F32.lt (.fin 0) vGate
  let discharge := (F32.lt (.fin 1) delayed || dis) && isGate
  let sus := F32.mul lcS lcS
  let vAttack := if discharge = true then .fin 0 else vGate
  let vDecay : F32 := if discharge = true then sus else .fin (3 / 2)
  let diffA := maxSs (.fin 0) (F32.sub vAttack vC1)
  let kernel := F32.sub vDecay vC1
  let diffD := if (discharge && isGate) = true then kernel else minSs (.fin 0) kernel
  let diffR := minSs (.fin 0) (F32.sub vGate vC1)
  let v1 := F32.add vC1 (F32.mul diffA coefA)
  let v2 := F32.add v1 (F32.mul diffD coefD)
  let v3 := F32.add v2 (F32.mul diffR coefR)
  (v3, vC1, discharge)

/-- adsr.rs 270-277. -/
def isGate (s : St) : Bool := decide (s.stage = .attack ∨ s.stage = .decay)

/-- process_block_analog.rs 203-210: the release coefficient, 6 in uber-release. -/
def coefRelease (E : Env) (s : St) (r : F32) : F32 := if s.stage = .uberRelease then .fin 6 else coef E r s.p.syncR

/-- process_block_analog.rs 11-246 `process_block_analog`. -/
def processAnalog (E : Env) (s : St) : Res Empty St :=
  pvalf s.p.attack >>= fun a => pvalf s.p.decay >>= fun d => pvalf s.p.sustain >>= fun su => pvalf s.p.release >>= fun r =>
  let gate := isGate s
  let x := analogStep gate (coef E a s.p.syncA) (coef E d s.p.syncD) (coefRelease E s r) su s.vC1 s.vC1Delayed s.discharge
  let s1 := { s with vC1 := x.1, vC1Delayed := x.2.1, discharge := x.2.2, output := x.1 }
  if gate = false ∧ s1.discharge = false ∧ F32.lt s1.vC1 (flit (1 / 1000000)) = true then
    chkI32 (s1.idlecount + 1) >>= fun n => .ok { s1 with stage := .idle, output := .fin 0, idlecount := n }
  else .ok s1

/-! ## The digital blocks -/

/-- digital_attack.rs 37-43, attack_shape.rs 21-28. -/
def shapeAttack (E : Env) (s : St) : Res Empty St :=
  pvali s.p.attackShape >>= fun k =>
  if k = 0 then .ok { s with output := E.sqrt s.phase }
  else if k = 1 then .ok { s with output := s.phase }
  else if k = 2 then .ok { s with output := F32.mul s.phase s.phase }
  else .panic "for the AdsrEnvelope, the AttackShape paramter should be a member of the set: [0,1,2]"

/-- digital_attack.rs 13-45 `digital_attack`. -/
def digitalAttack (E : Env) (s : St) : Res Empty St :=
  pvalf s.p.attack >>= fun a =>
  let ph := F32.add s.phase (F32.mul (E.rateLinear a) (tsync E s.p.syncA))
  if F32.lt ph (.fin 1) = true ∨ ph = .nan then shapeAttack E { s with phase := ph }
  else pvalf s.p.sustain >>= fun su => shapeAttack E { s with phase := .fin 1, stage := .decay, sustain := su }

/-- decay_shape_bounds.rs 24-34, 60-86, 103-107: the bounds of a decay step. -/
def decayBounds (E : Env) (k : Int) (phase rate sustain : F32) : F32 × F32 :=
  if k = 1 then
    let sx := E.sqrt phase
    let c := F32.mul (F32.mul (.fin 2) sx) rate
    let lo := F32.add (F32.sub phase c) (F32.mul rate rate)
    let hi := F32.add (F32.add phase c) (F32.mul rate rate)
    (if F32.lt sustain (flit (1 / 1000)) = true ∧ F32.lt phase (flit (1 / 10000)) = true then .fin 0 else lo, hi)
  else if k = 2 then
    let sx := E.pow3rd phase
    let a := F32.mul (F32.mul (F32.mul (.fin 3) sx) sx) rate
    let b := F32.mul (F32.mul (F32.mul (.fin 3) sx) rate) rate
    let c := F32.mul (F32.mul rate rate) rate
    (F32.sub (F32.add (F32.sub phase a) b) c, F32.add (F32.add (F32.add phase a) b) c)
  else (F32.sub phase rate, F32.add phase rate)

/-- digital_decay.rs 33-41 `digital_decay`. -/
def digitalDecay (E : Env) (s : St) : Res Empty St :=
  pvalf s.p.sustain >>= fun su => pvalf s.p.decay >>= fun d =>
  let rate := F32.mul (E.rateLinear d) (tsync E s.p.syncD)
  pvali s.p.decayShape >>= fun k =>
  let b := decayBounds E k s.phase rate su
  let ph := limitRange su b.1 b.2
  .ok { s with phase := ph, output := ph }

/-- `for _ in 0..n { output *= phase }`. -/
def scaleN (x phase : F32) : Nat → F32
  | 0 => x
  | n + 1 => scaleN (F32.mul x phase) phase n

/-- digital_release.rs 22-67, digital_uberrelease.rs 20-67: one step with a rate. -/
def releaseStep (s : St) (rate : F32) : Res Empty St :=
  let ph := F32.sub s.phase rate
  pvali s.p.releaseShape >>= fun n =>
  let out := scaleN ph ph n.toNat
  let s1 := { s with phase := ph, output := out }
  let s2 := if F32.lt ph (.fin 0) = true then { s1 with stage := .idle, output := .fin 0 } else s1
  .ok { s2 with output := F32.mul s2.output s2.scalestage }

/-- digital_release.rs 22-67 `digital_release`. -/
def digitalRelease (E : Env) (s : St) : Res Empty St :=
  pvalf s.p.release >>= fun r => releaseStep s (F32.mul (E.rateLinear r) (tsync E s.p.syncR))

/-- digital_uberrelease.rs 20-67 `digital_uberrelease`. -/
def digitalUber (E : Env) (s : St) : Res Empty St := releaseStep s (E.rateLinear (flit (-13 / 2)))

/-- process_block_digital.rs 12-21. -/
def digitalStage (E : Env) (s : St) : Res Empty St :=
  match s.stage with
  | .attack => digitalAttack E s
  | .decay => digitalDecay E s
  | .release => digitalRelease E s
  | .uberRelease => digitalUber E s
  | .idle => chkI32 (s.idlecount + 1) >>= fun n => .ok { s with idlecount := n }
  | _ => .ok s

/-- process_block_digital.rs 10-24 with clamp.rs 5-10 `clamp01`, which asks `get_output`. -/
def processDigital (E : Env) (s : St) : Res Empty St :=
  digitalStage E s >>= fun s => getOutput s >>= fun o => .ok { s with output := clamp01f o }

/-- process_block.rs 10-16 `process_block`. -/
def processBlock (E : Env) (s : St) : Res Empty St :=
  pvalb s.p.mode >>= fun m => if m = true then processAnalog E s else processDigital E s

end Verif.Adsr
