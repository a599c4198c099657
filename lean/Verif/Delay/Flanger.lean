import Verif.Delay.Props
import Verif.Adsr.Level
import Verif.Lfo.Phase
/-!
# The flanger (surgefx-flanger)

The interpolating ring (`interp_delay.rs`), the sample loop, the oscillators and the voice weights.
-/
namespace Verif.Flanger
open Verif Verif.Float Verif.Tables Verif.Dsp

/-! ## Model -/

/-- `a <= b` of `f32`: false when either is NaN. -/
def leF (a b : F32) : Bool := F32.lt a b || decide (a = b ∧ a ≠ .nan)

/-- `f32::abs`. -/
def absF : F32 → F32
  | .nan => .nan
  | .pinf => .pinf
  | .ninf => .pinf
  | .fin q => .fin |q|

/-- constants.rs 3 `FLANGER_DELAY_SIZE`. -/
def ringSize : Nat := 8192

/-- interp_delay.rs 3-7 `InterpDelay`. -/
structure Ring where
  line : Nat → F32
  k : Int

/-- interp_delay.rs 9-16 `default`, 26-29 `reset`. -/
def Ring.new : Ring := ⟨fun _ => .fin 0, 0⟩

/-- interp_delay.rs 46-49 `push`. The index is masked, so it is in bounds. -/
def Ring.push (r : Ring) (nv : F32) : Res Empty Ring :=
  chkI32 (r.k + 1) >>= fun e =>
  let k := index e (ringSize - 1)
  .ok ⟨fun j => if j = k then nv else r.line j, k⟩

/-- interp_delay.rs 31-44 `value`. -/
def Ring.value (r : Ring) (d : F32) : Res Empty F32 :=
  let itap := d.toI32
  let frac := F32.sub d (F32.ofInt itap)
  chkI32 (r.k + (ringSize : Int)) >>= fun a => chkI32 (a - itap) >>= fun b => chkI32 (b - 1) >>= fun c =>
  let k0 := index c (ringSize - 1)
  let k1 := index b (ringSize - 1)
  .ok (F32.add (F32.mul (r.line k0) frac) (F32.mul (r.line k1) (F32.sub (.fin 1) frac)))

/-- softclip_feedback.rs 18-19, block.rs 57-58: `1.5 * x - 0.5 * x * x * x`. -/
def cubic (x : F32) : F32 :=
  F32.sub (F32.mul (.fin (3 / 2)) x) (F32.mul (F32.mul (F32.mul (.fin (1 / 2)) x) x) x)

/-- What is the same for every sample of the loop in one channel: the weights and taps of the combs (block_comb_process.rs
21-27; the tap is `delaybase * (1 + lfoval * depth) + 1`), feedback, damping, the weight of the dry signal, mix and gain at this
sample. The two channels are independent, so one is modelled. -/
structure Ctl where
  combs : List (F32 × F32)
  feedback : F32
  damping : F32
  dry : F32
  mix : F32
  gain : F32

/-- block_comb_process.rs 23. -/
def tapPos (base lfo depth : F32) : F32 := F32.add (F32.mul base (F32.add (.fin 1) (F32.mul lfo depth))) (.fin 1)

/-- block_comb_process.rs 12-30: combs without a positive weight are skipped. -/
def combSum (r : Ring) : List (F32 × F32) → F32 → Res Empty F32
  | [], acc => .ok acc
  | (w, tap) :: rest, acc =>
    if F32.lt (.fin 0) w = true then
      r.value tap >>= fun v => combSum r rest (F32.add acc (F32.mul w v))
    else combSum r rest acc

/-- A channel: its ring and the state of the damping filter. -/
structure Chan where
  ring : Ring
  lpa : F32

/-- flanger.rs, init.rs 34-63 `new`. -/
def Chan.new : Chan := ⟨Ring.new, .fin 0⟩

/-- softclip_feedback.rs 5-36, one channel: the new filter state and the feedback signal. -/
def feedbackOf (c : Ctl) (lpa comb : F32) : F32 × F32 :=
  if F32.lt (.fin 0) c.feedback = true then
    let fb := cubic (limitRange (F32.mul c.feedback comb) (.fin (-1)) (.fin 1))
    let lpa := F32.add (F32.mul lpa (F32.sub (.fin 1) c.damping)) (F32.mul fb c.damping)
    (lpa, F32.sub fb lpa)
  else (lpa, .fin 0)

/-- block.rs 26-58: the output sample. -/
def outputOf (c : Ctl) (x comb : F32) : F32 :=
  cubic (limitRange (F32.mul (F32.add (.fin 1) c.gain) (F32.add (F32.mul c.dry x) (F32.mul c.mix comb))) (.fin (-1)) (.fin 1))

/-- block.rs 5-68 `do_flanger_block`, one channel and one sample: the new channel, the sample pushed into the ring and the
output. -/
def Chan.sample (s : Chan) (c : Ctl) (x : F32) : Res Empty (Chan × F32 × F32) :=
  combSum s.ring c.combs (.fin 0) >>= fun comb =>
  let f := feedbackOf c s.lpa comb
  let v := F32.sub x f.2
  s.ring.push v >>= fun ring => .ok (⟨ring, f.1⟩, v, outputOf c x comb)

/-- The sample loop. -/
def Chan.run : List (Ctl × F32) → Chan → Res Empty (Chan × List (F32 × F32))
  | [], s => .ok (s, [])
  | (c, x) :: rest, s => s.sample c x >>= fun (s', v, y) => Chan.run rest s' >>= fun (s'', ys) => .ok (s'', (v, y) :: ys)

/-- process.rs 5-13 `adjust_longphase`. -/
def adjustLong (p rate : F32) : F32 :=
  let p := F32.add p rate
  if leF (.fin 4) p = true then F32.sub p (.fin 4) else p

/-- init_comb.rs 13-22: the phase of a comb and whether it wrapped. -/
def advance (p rate : F32) : F32 × Bool :=
  let p := F32.add p rate
  if F32.lt (.fin 1) p = true then (F32.sub p (.fin 1), true) else (p, false)

/-- surge-types effect.rs: the four waves. -/
inductive Wave where | tri | sin | saw | snh
  deriving DecidableEq

/-- init_comb.rs 27-61: the oscillator. `sinTable` has 8192 entries (init.rs 23-28); `prev` is the previous value, `rnd` the
result of `rand01`. -/
def lfoOut (sinTable : Nat → F32) (w : Wave) (phase : F32) (reset : Bool) (prev rnd : F32) : Res Empty F32 :=
  match w with
  | .tri => .ok (F32.sub (F32.mul (.fin 2) (absF (F32.sub (F32.mul (.fin 2) phase) (.fin 1)))) (.fin 1))
  | .sin =>
    let ps := F32.mul phase (.fin 8192)
    let psi := ps.toI32
    let psf := F32.sub ps (F32.ofInt psi)
    chkI32 (psi + 1) >>= fun e =>
    let psn := index e 8191
    if 0 ≤ psi ∧ psi < 8192 then
      .ok (F32.add (F32.mul (sinTable psi.toNat) (F32.sub (.fin 1) psf)) (F32.mul psf (sinTable psn)))
    else .panic "index out of bounds"
  | .saw => .ok (F32.sub (F32.mul phase (.fin 2)) (.fin 1))
  | .snh => .ok (if reset then rnd else prev)

/-- `vweights.buf[channel][i] = v` on four weights. -/
def setW (w : Nat → F32) (i : Nat) (v : F32) : Res Empty (Nat → F32) :=
  if i < 4 then .ok (fun j => if j = i then v else w j) else .panic "index out of bounds"

/-- weights.rs 13-39: arpeggio weights. `sqrt` is the platform's square root. -/
def arpWeights (sqrt : F32 → F32) (longphase : F32) : Res Empty (Nat → F32) :=
  let ilp := longphase.toI32
  let flp := F32.sub longphase (F32.ofInt ilp)
  let ilp := if ilp = 4 then 0 else ilp
  if F32.lt (F32.ofQ (9 / 10)) flp = true then
    let dt := F32.mul (F32.sub flp (F32.ofQ (9 / 10))) (.fin 10)
    let nxt := sqrt dt
    let prr := sqrt (F32.sub (.fin 1) dt)
    (if 0 ≤ ilp then setW (fun _ => .fin 0) ilp.toNat prr else .panic "index out of bounds") >>= fun w =>
    setW w (if ilp = 3 then 0 else (ilp + 1).toNat) nxt
  else (if 0 ≤ ilp then setW (fun _ => .fin 0) ilp.toNat (.fin 1) else .panic "index out of bounds")

/-- weights.rs 46-51: the loop over the voices. -/
def voiceLoop : Nat → (Nat → F32) → Res Empty (Nat → F32)
  | 0, w => .ok w
  | n + 1, w => voiceLoop n w >>= fun w => setW w n (.fin 1)

/-- weights.rs 40-59: the weights of the other modes. The loop stops at 4; `fi = voices - voices` is 0. -/
def voiceWeights (voices : Int) : Res Empty (Nat → F32) :=
  setW (fun _ => .fin 0) 0 (.fin 1) >>= fun w =>
  voiceLoop (min voices.toNat 4) w >>= fun w =>
  if voices < 4 then
    (if 0 ≤ voices then setW w voices.toNat (F32.sub (F32.ofInt voices) (F32.ofInt voices)) else .panic "index out of bounds")
  else .ok w

end Verif.Flanger
