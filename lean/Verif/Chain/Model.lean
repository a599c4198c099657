import Verif.Dsp.Clip
import Mathlib.Data.Real.Basic
import Mathlib.Algebra.BigOperators.Fin
/-!
# Model of the quad filter chain (`surge-qfunit`) and of how a voice fills it (`surge-voice`), in exact real arithmetic

A chain filters four voices at once, one per lane of its 128-bit registers.  Filters and shapers are arbitrary functions of the whole register.
Rounding to `f32` is not modelled.  `none` is a panic.
-/
namespace Verif.Chain

/-- A 128-bit register: four lanes. -/
abbrev V4 := Fin 4 → ℝ

/-- surge-qfunit/src/dispatch.rs 6-7: `FilterUnitQFPtr`; `U` is the state of a filter unit. -/
abbrev FilterFn (U : Type) := U → V4 → U × V4
/-- dispatch.rs 3-4: `WaveshaperQFPtr` (the shaper's state is only the tables). -/
abbrev ShaperFn := V4 → V4 → V4

/-- dispatch.rs 9-13. -/
structure FbqGlobal (U : Type) where
  fu1 : Option (FilterFn U)
  fu2 : Option (FilterFn U)
  ws : Option ShaperFn

/-- surge-qfunit/src/qf_chain_state.rs 24-58 (`dl`, `dr` are passed apart).  `active` is the mask of unit 0, all ones or all zeros in each lane. -/
structure ChainState (U : Type) where
  u0 : U
  u1 : U
  u2 : U
  u3 : U
  active : Fin 4 → Bool
  gain : V4
  feedback : V4
  mix1 : V4
  mix2 : V4
  drive : V4
  dGain : V4
  dFeedback : V4
  dMix1 : V4
  dMix2 : V4
  dDrive : V4
  wsLpf : V4
  fbL : V4
  fbR : V4
  outL : V4
  outR : V4
  doutL : V4
  doutR : V4
  out2L : V4
  out2R : V4
  dout2L : V4
  dout2R : V4

variable {U : Type}

/-- surge-math/src/utility.rs 26-31: `sum_ps_to_ss`, lane 0. -/
def sumPs (x : V4) : ℝ := (x 0 + x 2) + (x 1 + x 3)

/-- `_mm_and_ps(mask, x)`, the mask loaded from `unit_state[0].active`. -/
def mask (active : Fin 4 → Bool) (x : V4) : V4 := fun i => if active i then x i else 0

/-- surge-math/src/softclip.rs 25-41: `softclip_ps`. -/
noncomputable def softclipPs (x : V4) : V4 := fun i => Dsp.softclip (x i)

/-- The two output buffers. -/
abbrev Bufs := (ℕ → ℝ) × (ℕ → ℝ)

/-- surge-qfunit/src/write_outputs.rs 9-25: `qfc_write_outputs`. -/
def writeOutputs (c : ChainState U) (x : V4) (k : ℕ) (o : Bufs) : ChainState U × Bufs :=
  let c := { c with outL := c.outL + c.doutL }
  let c := { c with outR := c.outR + c.doutR }
  let newL := x * c.outL
  let newR := x * c.outR
  (c, (Function.update o.1 k (o.1 k + sumPs newL), Function.update o.2 k (o.2 k + sumPs newR)))

/-- write_outputs.rs 33-52: `qfc_write_outputs_dual`, which adds `dout_l` twice. -/
def writeOutputsDual (c : ChainState U) (x y : V4) (k : ℕ) (o : Bufs) : ChainState U × Bufs :=
  let c := { c with outL := c.outL + c.doutL }
  let c := { c with outL := c.outL + c.doutL }
  let c := { c with outR := c.outR + c.doutR }
  let c := { c with out2L := c.out2L + c.dout2L }
  let c := { c with out2R := c.out2R + c.dout2R }
  let newL := x * c.outL + y * c.out2L
  let newR := x * c.outR + y * c.out2R
  (c, (Function.update o.1 k (o.1 k + sumPs newL), Function.update o.2 k (o.2 k + sumPs newR)))

/-- surge-qfunit/src/macros.rs 3-9: the assertion, only in builds with debug assertions; `none` when it fails. -/
noncomputable def assertReasonable (debug : Bool) (x : ℝ) : Option Unit := if debug then (if x < 32 ∧ -32 < x then some () else none) else some ()

/-- do_serial1.rs 35-53 (the same in serial2, serial3, dual1, dual2 and ring): the shaper behind its one-pole filter. -/
noncomputable def shapeLp (on : Bool) (g : FbqGlobal U) (c : ChainState U) (x : V4) : Option (ChainState U × V4) :=
  if on then do
    let waveshaper ← g.ws
    let c := { c with wsLpf := (fun _ => 0.5) * (c.wsLpf + x) }
    let c := { c with drive := c.drive + c.dDrive }
    pure (c, waveshaper c.wsLpf c.drive)
  else some (c, x)

/-- do_serial1.rs 55-66 (the same in serial2 and serial3): blend the filtered and shaped signal with the input. -/
def blend1 (on : Bool) (c : ChainState U) (input x : V4) : ChainState U × V4 :=
  if on then
    let c := { c with mix1 := c.mix1 + c.dMix1 }
    (c, input * (1 - c.mix1) + x * c.mix1)
  else (c, x)

/-- do_serial1.rs 30-33: filter A on unit 0. -/
def filterA (on : Bool) (g : FbqGlobal U) (c : ChainState U) (x : V4) : Option (ChainState U × V4) :=
  if on then do
    let f ← g.fu1
    let r := f c.u0 x
    pure ({ c with u0 := r.1 }, r.2)
  else some (c, x)

/-- do_serial1.rs 70-73: filter B on unit 1. -/
def filterB (on : Bool) (g : FbqGlobal U) (c : ChainState U) (y : V4) : Option (ChainState U × V4) :=
  if on then do
    let f ← g.fu2
    let r := f c.u1 y
    pure ({ c with u1 := r.1 }, r.2)
  else some (c, y)

/-- do_serial1.rs 23-92: one sample. -/
noncomputable def serial1 (a w b : Bool) (g : FbqGlobal U) (dl dr : V4) (k : ℕ) (s : ChainState U × Bufs) : Option (ChainState U × Bufs) := do
  let input := dl
  let y := dr
  let (c, x) ← filterA a g s.1 input
  let (c, x) ← shapeLp w g c x
  let (c, x) := blend1 (a || w) c input x
  let y := x + y
  let (c, y) ← filterB b g c y
  let c := { c with mix2 := c.mix2 + c.dMix2 }
  let x := x * (1 - c.mix2) + y * c.mix2
  let c := { c with gain := c.gain + c.dGain }
  let out := mask c.active (x * c.gain)
  pure (writeOutputs c out k s.2)

/-- do_serial2.rs 22-106: one sample. -/
noncomputable def serial2 (a w b : Bool) (g : FbqGlobal U) (dl dr : V4) (k : ℕ) (s : ChainState U × Bufs) : Option (ChainState U × Bufs) := do
  let c := { s.1 with feedback := s.1.feedback + s.1.dFeedback }
  let input := c.feedback * c.fbL
  let input := dl + softclipPs input
  let y := dr
  let (c, x) ← filterA a g c input
  let (c, x) ← shapeLp w g c x
  let (c, x) := blend1 (a || w) c input x
  let y := x + y
  let (c, y) ← filterB b g c y
  let c := { c with mix2 := c.mix2 + c.dMix2 }
  let x := x * (1 - c.mix2) + y * c.mix2
  let c := { c with gain := c.gain + c.dGain }
  let out := mask c.active (x * c.gain)
  let c := { c with fbL := out }
  pure (writeOutputs c out k s.2)

/-- do_serial3.rs 25-116: one sample. -/
noncomputable def serial3 (a w b : Bool) (g : FbqGlobal U) (dl dr : V4) (k : ℕ) (s : ChainState U × Bufs) : Option (ChainState U × Bufs) := do
  let c := { s.1 with feedback := s.1.feedback + s.1.dFeedback }
  let input := c.feedback * c.fbL
  let input := dl + softclipPs input
  let y := dr
  let (c, x) ← filterA a g c input
  let (c, x) ← shapeLp w g c x
  let (c, x) := blend1 (a || w) c input x
  let c := { c with gain := c.gain + c.dGain }
  let x := mask c.active (x * c.gain)
  let (c, o) := writeOutputs c x k s.2
  let y := x + y
  let (c, y) ← filterB b g c y
  let c := { c with mix2 := c.mix2 + c.dMix2 }
  pure ({ c with fbL := y }, o)

/-- do_dual1.rs 21-87: one sample. -/
noncomputable def dual1 (a w b : Bool) (g : FbqGlobal U) (dl dr : V4) (k : ℕ) (s : ChainState U × Bufs) : Option (ChainState U × Bufs) := do
  let c := { s.1 with feedback := s.1.feedback + s.1.dFeedback }
  let fb := softclipPs (c.feedback * c.fbL)
  let x := dl + fb
  let y := dr + fb
  let (c, x) ← filterA a g c x
  let (c, y) ← filterB b g c y
  let c := { c with mix1 := c.mix1 + c.dMix1 }
  let c := { c with mix2 := c.mix2 + c.dMix2 }
  let x := x * c.mix1 + y * c.mix2
  let (c, x) ← shapeLp w g c x
  let c := { c with gain := c.gain + c.dGain }
  let out := mask c.active (x * c.gain)
  let c := { c with fbL := out }
  pure (writeOutputs c out k s.2)

/-- do_dual2.rs 21-92: one sample. -/
noncomputable def dual2 (a w b : Bool) (g : FbqGlobal U) (dl dr : V4) (k : ℕ) (s : ChainState U × Bufs) : Option (ChainState U × Bufs) := do
  let c := { s.1 with feedback := s.1.feedback + s.1.dFeedback }
  let fb := softclipPs (c.feedback * c.fbL)
  let x := dl + fb
  let y := dr + fb
  let (c, x) ← filterA a g c x
  let (c, x) ← shapeLp w g c x
  let (c, y) ← filterB b g c y
  let c := { c with mix1 := c.mix1 + c.dMix1 }
  let c := { c with mix2 := c.mix2 + c.dMix2 }
  let x := x * c.mix1 + y * c.mix2
  let c := { c with gain := c.gain + c.dGain }
  let out := mask c.active (x * c.gain)
  let c := { c with fbL := out }
  pure (writeOutputs c out k s.2)

/-- do_ring.rs 22-82: one sample. -/
noncomputable def ring (a w b : Bool) (g : FbqGlobal U) (dl dr : V4) (k : ℕ) (s : ChainState U × Bufs) : Option (ChainState U × Bufs) := do
  let c := { s.1 with feedback := s.1.feedback + s.1.dFeedback }
  let fb := softclipPs (c.feedback * c.fbL)
  let x := dl + fb
  let y := dr + fb
  let (c, x) ← filterA a g c x
  let (c, y) ← filterB b g c y
  let c := { c with mix1 := c.mix1 + c.dMix1 }
  let c := { c with mix2 := c.mix2 + c.dMix2 }
  let x := ((1 - c.mix1) * y + x * c.mix1) * ((1 - c.mix2) * x + y * c.mix2)
  let (c, x) ← shapeLp w g c x
  let c := { c with gain := c.gain + c.dGain }
  let out := mask c.active (x * c.gain)
  let c := { c with fbL := out }
  pure (writeOutputs c out k s.2)

/-- do_stereo.rs 47-59 and do_wide.rs 38-43: the shaper on both signals. -/
def shapeTwo (on : Bool) (g : FbqGlobal U) (c : ChainState U) (x y : V4) : Option (ChainState U × V4 × V4) :=
  if on then do
    let waveshaper ← g.ws
    let c := { c with drive := c.drive + c.dDrive }
    pure (c, waveshaper x c.drive, waveshaper y c.drive)
  else some (c, x, y)

/-- do_stereo.rs 19-83: one sample; `debug` says whether debug assertions are on. -/
noncomputable def stereo (debug : Bool) (a w b : Bool) (g : FbqGlobal U) (dl dr : V4) (k : ℕ) (s : ChainState U × Bufs) : Option (ChainState U × Bufs) := do
  let c := { s.1 with feedback := s.1.feedback + s.1.dFeedback }
  let fb := softclipPs (c.feedback * c.fbL)
  let x := dl + fb
  let y := dr + fb
  let (c, x) ← filterA a g c x
  let (c, y) ← filterB b g c y
  let (c, x, y) ← shapeTwo w g c x y
  let c := { c with mix1 := c.mix1 + c.dMix1 }
  let c := { c with mix2 := c.mix2 + c.dMix2 }
  let x := x * c.mix1
  let y := y * c.mix2
  let c := { c with gain := c.gain + c.dGain }
  let x := mask c.active (x * c.gain)
  let y := mask c.active (y * c.gain)
  let c := { c with fbL := x + y }
  let (c, o) := writeOutputsDual c x y k s.2
  assertReasonable debug (o.1 k)
  assertReasonable debug (o.2 k)
  pure (c, o)

/-- do_wide.rs 32-36: filter A on units 0 and 2. -/
def filterAA (on : Bool) (g : FbqGlobal U) (c : ChainState U) (x y : V4) : Option (ChainState U × V4 × V4) :=
  if on then do
    let f ← g.fu1
    let r := f c.u0 x
    let c := { c with u0 := r.1 }
    let r' := f c.u2 y
    let c := { c with u2 := r'.1 }
    pure (c, r.2, r'.2)
  else some (c, x, y)

/-- do_wide.rs 45-60: both signals blended with their inputs. -/
def blendTwo (on : Bool) (c : ChainState U) (xin yin x y : V4) : ChainState U × V4 × V4 :=
  if on then
    let c := { c with mix1 := c.mix1 + c.dMix1 }
    (c, xin * (1 - c.mix1) + x * c.mix1, yin * (1 - c.mix1) + y * c.mix1)
  else (c, x, y)

/-- do_wide.rs 62-82: filter B on units 1 and 3, blended. -/
def filterBB (on : Bool) (g : FbqGlobal U) (c : ChainState U) (x y : V4) : Option (ChainState U × V4 × V4) :=
  if on then do
    let f ← g.fu2
    let r := f c.u1 x
    let c := { c with u1 := r.1 }
    let r' := f c.u3 y
    let c := { c with u3 := r'.1 }
    let c := { c with mix2 := c.mix2 + c.dMix2 }
    pure (c, x * (1 - c.mix2) + r.2 * c.mix2, y * (1 - c.mix2) + r'.2 * c.mix2)
  else some (c, x, y)

/-- do_wide.rs 21-100: one sample. -/
noncomputable def wide (debug : Bool) (a w b : Bool) (g : FbqGlobal U) (dl dr : V4) (k : ℕ) (s : ChainState U × Bufs) : Option (ChainState U × Bufs) := do
  let c := { s.1 with feedback := s.1.feedback + s.1.dFeedback }
  let fbl := c.feedback * c.fbL
  let fbr := c.feedback * c.fbR
  let xin := dl + softclipPs fbl
  let yin := dr + softclipPs fbr
  let (c, x, y) ← filterAA a g c xin yin
  let (c, x, y) ← shapeTwo w g c x y
  let (c, x, y) := blendTwo (a || w) c xin yin x y
  let (c, x, y) ← filterBB b g c x y
  let c := { c with gain := c.gain + c.dGain }
  let x := mask c.active (x * c.gain)
  let y := mask c.active (y * c.gain)
  let c := { c with fbL := x }
  let c := { c with fbR := y }
  let (c, o) := writeOutputsDual c x y k s.2
  assertReasonable debug (o.1 k)
  assertReasonable debug (o.2 k)
  pure (c, o)

/-- surge-types/src/filter.rs: `FilterBlockConfiguration`. -/
inductive Config
  | serial1 | serial2 | serial3 | dual1 | dual2 | stereo | ring | wide
  deriving DecidableEq

/-- One sample of the configuration, with the three flags. -/
noncomputable def sampleOf (debug : Bool) (cfg : Config) (a w b : Bool) (g : FbqGlobal U) (dl dr : V4) (k : ℕ) (s : ChainState U × Bufs) :
    Option (ChainState U × Bufs) :=
  match cfg with
  | .serial1 => serial1 a w b g dl dr k s
  | .serial2 => serial2 a w b g dl dr k s
  | .serial3 => serial3 a w b g dl dr k s
  | .dual1 => dual1 a w b g dl dr k s
  | .dual2 => dual2 a w b g dl dr k s
  | .stereo => stereo debug a w b g dl dr k s
  | .ring => ring a w b g dl dr k s
  | .wide => wide debug a w b g dl dr k s

/-- The loop `for k in 0..BLOCK_SIZE_OS` of each; `BLOCK_SIZE_OS = 64` in the code, any length here. -/
noncomputable def block (debug : Bool) (cfg : Config) (a w b : Bool) (g : FbqGlobal U) (dl dr : ℕ → V4) (n : ℕ) (s : ChainState U × Bufs) :
    Option (ChainState U × Bufs) :=
  (List.range n).foldlM (fun s k => sampleOf debug cfg a w b g (dl k) (dr k) k s) s

/-- surge-qfunit/src/config.rs 3-47: `get_fn_process_quad`, its function called with the globals `g'`. -/
noncomputable def processQuad (debug : Bool) (cfg : Config) (g g' : FbqGlobal U) (dl dr : ℕ → V4) (n : ℕ) (s : ChainState U × Bufs) :
    Option (ChainState U × Bufs) :=
  block debug cfg g.fu1.isSome g.ws.isSome g.fu2.isSome g' dl dr n s

end Verif.Chain
