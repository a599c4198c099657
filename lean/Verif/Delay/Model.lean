import Verif.Tables.Props
import Verif.Dsp.Blocks
/-!
# Delay lines (surgefx-dualdelay, surgefx-chorus, surgefx-flanger, surgefx-reverb, surgefx-rotary, surgefx-freqshift)

Memory is a function from float index to value together with its length; a read outside the length (a panic for indexed
reads, undefined behaviour for the pointer reads of the effects) is `.panic`. Signed arithmetic panics on overflow, as in
debug builds.
-/
namespace Verif.Delay
open Verif Verif.Float Verif.Tables Verif.Dsp

/-- `DUAL_DELAY_MAX_DELAY_LENGTH`, `CHORUS_MAX_DELAY_LENGTH`, `ROTARY_SPEAKER_MAX_DELAY_LENGTH`, `FREQSHIFT_MAX_DELAY_LENGTH`:
dual_delay.rs 3, chorus/constants.rs 1, rotary_speaker.rs 4, freq_shift.rs 4. All `1 << 18`. -/
def maxDelay : Nat := 2 ^ 18

/-- surge-constants/src/lib.rs 66-90 `FIR_IPOL_N`. -/
def firN : Nat := 12

/-- One channel of a delay effect: `buffer[channel]` and `wpos`. -/
structure Line (α : Type) where
  buf : Nat → α
  wpos : Int

/-- dual_delay `new_delay_buffer` (init.rs 91-93) and `init` (init.rs 27-53), chorus new.rs 21-23 and init.rs 7-10: zeros, `wpos` = 0. -/
def Line.init {α : Type} (zero : α) : Line α := ⟨fun _ => zero, 0⟩

/-- Length of the buffer: the maximal delay and `FIR_IPOL_N` floats of padding. -/
def lineLen : Nat := maxDelay + firN

/-- `buffer[i] = v`. -/
def upd {α : Type} (m : Nat → α) (i : Nat) (v : α) : Nat → α := fun j => if j = i then v else m j

/-- A pointer or index read. -/
def load {α : Type} (len : Nat) (m : Nat → α) (i : Nat) : Res Empty α :=
  if i < len then .ok (m i) else .panic "read out of bounds"

/-- set_buffer.rs 9-19 of the dual delay, 7-12 of the chorus: the loop near the end of the buffer. -/
def wrapLoop {α : Type} (N : Nat) (wet : Nat → α) (wpos : Int) (m : Nat → α) : Nat → α :=
  (List.range N).foldl (fun m (k : Nat) => upd m (index (wpos + (k : Int)) (maxDelay - 1)) (wet k)) m

/-- set_buffer.rs 27-36 of the dual delay, 24-29 of the chorus: copy the first floats behind the end. -/
def mirrorLoop {α : Type} (m : Nat → α) : Nat → α :=
  (List.range firN).foldl (fun m k => upd m (k + maxDelay) (m k)) m

/-- `dualdelay_set_buffer` (set_buffer.rs 5-37, block size 32) and `chorus_set_buffer` (set_buffer.rs 5-30, block size `N`),
followed by the advance of `wpos` (dual delay process.rs 146-149, chorus process.rs 110-111). `wet` is the block of the
channel that is written. Simplification: the target of `copy_block` is a pointer; the copy is taken to stay in the buffer,
which `C86_write_in_bounds` justifies. -/
def Line.write {α : Type} (N : Nat) (wet : Nat → α) (s : Line α) : Res Empty (Line α) :=
  chkI32 (s.wpos + N) >>= fun e =>
  let m := if (maxDelay : Int) ≤ e then wrapLoop N wet s.wpos s.buf else atBase s.wpos.toNat (copyBlock wet (N / 4)) s.buf
  let m := if s.wpos = 0 then mirrorLoop m else m
  .ok ⟨m, index e (maxDelay - 1)⟩

/-- block.rs 12-22 of the dual delay (`get_dtime`, block size 32), 22-29 of the chorus (block size `N`). -/
def delayTime (N : Nat) (v : F32) : Int := max (N : Int) (min v.toI32 ((maxDelay - firN - 1 : Nat) : Int))

/-- block.rs 24-29 of the dual delay, `get_rp`: `i32` arithmetic. -/
def dualReadPos (wpos dt : Int) (k : Nat) : Res Empty Nat :=
  chkI32 (wpos - dt) >>= fun a => chkI32 (a + k) >>= fun b => chkI32 (b - firN) >>= fun c => .ok (index c (maxDelay - 1))

/-- `x & mask` for `isize`, then `try_into().unwrap()`: the result is non-negative. -/
def index64 (e : Int) (mask : Nat) : Nat := (BitVec.ofInt 64 e &&& BitVec.ofNat 64 mask).toNat

/-- block.rs 31-33 of the chorus: `isize` arithmetic, which cannot overflow on `i32` operands. -/
def chorusReadPos (wpos dt : Int) (k : Nat) : Res Empty Nat := .ok (index64 (wpos - dt + k - firN) (maxDelay - 1))

/-- `FIR_IPOL_M as f32 * ((dtime + 1) as f32 - v)`. -/
def fracPos (dt : Int) (v : F32) : F32 := F32.mul (.fin 256) (F32.sub (F32.ofInt (dt + 1)) v)

/-- block.rs 31-40 of the dual delay, `get_sinc`. -/
def dualSinc (dt : Int) (v : F32) : Nat := (12 * limitRangeI (fracPos dt v).toI32 0 255).toNat

/-- block.rs 35-40 of the chorus: the limiter works on floats here. -/
def chorusSinc (dt : Int) (v : F32) : Nat := 12 * (limitRange (F32.ofInt (fracPos dt v).toI32) (.fin 0) (.fin 255)).toUsize

/-- The kernel table `sinctable_1x` (`FIR_IPOL_M + 1` rows of `FIR_IPOL_N`) has this many floats: surge-tables/src/sinc.rs 4. -/
def kernelLen : Nat := (256 + 1) * 12

/-- Four consecutive floats: `_mm_load_ps`, `_mm_loadu_ps`. -/
def load4 (len : Nat) (m : Nat → F32) (i : Nat) : Res Empty (Nat → F32) :=
  load len m i >>= fun a => load len m (i + 1) >>= fun b => load len m (i + 2) >>= fun c => load len m (i + 3) >>= fun d =>
  .ok (fun j => match j with | 0 => a | 1 => b | 2 => c | _ => d)

/-- `_mm_mul_ps`, `_mm_add_ps`. -/
def mul4 (a b : Nat → F32) : Nat → F32 := fun j => F32.mul (a j) (b j)
def add4 (a b : Nat → F32) : Nat → F32 := fun j => F32.add (a j) (b j)

/-- surge-math/src/utility.rs 26-31 `sum_ps_to_ss`: the lowest lane. -/
def sumPs (x : Nat → F32) : F32 := F32.add (F32.add (x 0) (x 2)) (F32.add (x 1) (x 3))

/-- block.rs 42-53 of the dual delay (`sinc_product`): kernel floats at `s` times buffer floats at `r`. -/
def sincProduct (kern buf : Nat → F32) (s r : Nat) : Res Empty (Nat → F32) :=
  load4 kernelLen kern s >>= fun a => load4 lineLen buf r >>= fun b => .ok (mul4 a b)

/-- block.rs 71-81, 86-98 of the dual delay, 43-58 of the chorus: the twelve-tap product, still as four lanes. -/
def firLanes (kern buf : Nat → F32) (s r : Nat) : Res Empty (Nat → F32) :=
  sincProduct kern buf s r >>= fun a => sincProduct kern buf (s + 4) (r + 4) >>= fun b =>
  sincProduct kern buf (s + 8) (r + 8) >>= fun c => .ok (add4 (add4 a b) c)

/-- block.rs 10-100 `do_dualdelay_block`, one channel: the sample stored at `scratch[k]`; `v` is the smoothed delay after
`process_time`. -/
def dualRead (kern : Nat → F32) (s : Line F32) (v : F32) (k : Nat) : Res Empty F32 :=
  let dt := delayTime 32 v
  dualReadPos s.wpos dt k >>= fun rp => firLanes kern s.buf (dualSinc dt v) rp >>= fun l => .ok (sumPs l)

/-- block.rs 17-61 of the chorus, one of the four voices: its lanes `vo`, before panning. -/
def chorusVoice (N : Nat) (kern : Nat → F32) (s : Line F32) (v : F32) (k : Nat) : Res Empty (Nat → F32) :=
  let dt := delayTime N v
  chorusReadPos s.wpos dt k >>= fun rp => firLanes kern s.buf (chorusSinc dt v) rp

/-- block.rs 5-70 `do_chorus_block`: `vs` are the smoothed times of the voices (after `process`), `pan` the pan gain of
one output channel per voice. -/
def chorusLoop (N : Nat) (kern : Nat → F32) (s : Line F32) (k : Nat) : List (F32 × F32) → (Nat → F32) → Res Empty (Nat → F32)
  | [], acc => .ok acc
  | (v, pan) :: vs, acc => chorusVoice N kern s v k >>= fun vo => chorusLoop N kern s k vs (add4 acc (mul4 vo (fun _ => pan)))

def chorusRead (N : Nat) (kern : Nat → F32) (s : Line F32) (k : Nat) (vs : List (F32 × F32)) : Res Empty F32 :=
  chorusLoop N kern s k vs (fun _ => .fin 0) >>= fun l => .ok (sumPs l)

end Verif.Delay
