import Mathlib.Analysis.SpecialFunctions.Pow.Real
import Mathlib.Analysis.SpecialFunctions.Trigonometric.Basic
import Mathlib.Analysis.SpecialFunctions.Sqrt
import Mathlib.Algebra.BigOperators.Group.Finset.Basic
/-!
# The vocoder (surge-svf, surgefx-vocoder), in exact real arithmetic

One record per band; in the code four bands share a vector register, all operations being lane-wise until the sum, whose order is immaterial in exact arithmetic.  Rounding to `f32` is not modelled.
-/
namespace Verif.Vocoder

/-- surge-svf/src/svf.rs 6-10: the registers of a band filter. -/
structure Band where
  l1 : ℝ
  b1 : ℝ
  l2 : ℝ
  b2 : ℝ

/-- svf.rs 12-16: its coefficients. -/
structure Coef where
  f1 : ℝ
  f2 : ℝ
  q : ℝ

/-- svf.rs 54-57: `calc_f`. -/
noncomputable def calcF (omega : ℝ) : ℝ := 2 * Real.sin (Real.pi * omega)

/-- svf.rs 59-62: `calc_q`. -/
noncomputable def calcQ (quality : ℝ) : ℝ := 1 / quality

/-- svf.rs 64-86: `set_coeff` (one lane). -/
noncomputable def setCoeff (omega quality spread : ℝ) : Coef := ⟨calcF (omega * (1 - spread)), calcF (omega * (1 + spread)), calcQ quality⟩

/-- svf.rs 94-160: `calc_bpf` (one lane). -/
def calcBpf (c : Coef) (s : Band) (x : ℝ) : Band × ℝ :=
  let l1 := c.f1 * s.b1 + s.l1
  let h1 := x * c.q - l1 - c.q * s.b1
  let b1 := c.f1 * h1 + s.b1
  let l2 := c.f2 * s.b2 + s.l2
  let h2 := b1 * c.q - l2 - c.q * s.b2
  let b2 := c.f2 * h2 + s.b2
  (⟨l1, b1, l2, b2⟩, b2)

/-- surgefx-vocoder/src/cfg.rs 3-8: the settings of a block: rate and gate level (squared); the maximum level is 6. -/
structure BlockCfg where
  rate : ℝ
  gate : ℝ

/-- cfg.rs 12-28: `VocoderBlockCfg::new`; `level` is `db_to_linear` of the gate level plus the gain. -/
noncomputable def BlockCfg.new (rate level : ℝ) : BlockCfg := ⟨0.001 * (2 : ℝ) ^ (4 * rate), level * level⟩

/-- surgefx-vocoder/src/vocoder.rs 5-24: the filters and envelopes per band, and the number of active bands. -/
structure Voc where
  carL : ℕ → Band
  carR : ℕ → Band
  mod : ℕ → Band
  env : ℕ → ℝ
  cCar : ℕ → Coef
  cMod : ℕ → Coef
  active : ℕ

/-- Silence. -/
def Band.zero : Band := ⟨0, 0, 0, 0⟩

/-- init.rs 5-38: `new`, before the first `update`. -/
def Voc.new : Voc := ⟨fun _ => .zero, fun _ => .zero, fun _ => .zero, fun _ => 0, fun _ => ⟨0, 0, 0⟩, fun _ => ⟨0, 0, 0⟩, 20⟩

/-- block.rs 34-40: what a modulator sample does to the envelope of a band: `max_level`, gate, one-pole filter. -/
noncomputable def follow (c : BlockCfg) (env y : ℝ) : ℝ :=
  let m := min (y * y) 6
  let m := if m ≥ c.gate then m else 0
  env * (1 - c.rate) + c.rate * m

/-- block.rs 24-58: one turn of the loop over the bands; `root` is `v_sqrt_fast`. -/
noncomputable def bandStep (root : ℝ → ℝ) (c : BlockCfg) (input left right : ℝ) (s : Voc × ℝ × ℝ) (j : ℕ) : Voc × ℝ × ℝ :=
  let v := s.1
  let m := calcBpf (v.cMod j) (v.mod j) input
  let e := follow c (v.env j) m.2
  let g := root e
  let l := calcBpf (v.cCar j) (v.carL j) (left * g)
  let r := calcBpf (v.cCar j) (v.carR j) (right * g)
  ({ v with mod := Function.update v.mod j m.1, env := Function.update v.env j e, carL := Function.update v.carL j l.1, carR := Function.update v.carR j r.1 }, s.2.1 + l.2, s.2.2 + r.2)

/-- block.rs 5-63: `do_vocoder_block`, one sample. -/
noncomputable def sample (root : ℝ → ℝ) (c : BlockCfg) (v : Voc) (input left right : ℝ) : Voc × ℝ × ℝ :=
  let r := (List.range (4 * (v.active / 4))).foldl (bandStep root c input left right) (v, 0, 0)
  (r.1, r.2.1 * 4, r.2.2 * 4)

/-- The parameters `update` reads (param.rs 4-17), and the inverse sample rate. -/
structure Settings where
  quality : ℝ
  lo : ℝ
  hi : ℝ
  center : ℝ
  expand : ℝ
  bands : ℕ
  srInv : ℝ

/-- update.rs 31-35: the limits in order. -/
noncomputable def order (lo hi : ℝ) : ℝ × ℝ := if lo > hi then (hi, lo) else (lo, hi)

/-- update.rs 55-88: first note and step of the modulator bands, `n` the number of bands. -/
noncomputable def modRange (flo fhi c x n : ℝ) : ℝ × ℝ :=
  let half := (fhi - flo) / 2
  let mid := half + flo + 0.3 * c * half
  let lo := mid - half * (1 + 0.7 * x)
  let d := half * 2 * (1 + 0.7 * x) / (n - 1)
  let hi := lo + d * (n - 1)
  (lo, if hi > 60 then (60 - lo) / (n - 1) else d)

/-- update.rs 37-60, 90-92: first frequency and ratio of the carriers, of the modulators, and whether these are set separately. -/
noncomputable def plan (p : Settings) (n : ℝ) : (ℝ × ℝ) × (ℝ × ℝ) × Bool :=
  let (flo, fhi) := order p.lo p.hi
  let df := (fhi - flo) / (n - 1)
  let hzlo := 440 * (2 : ℝ) ^ (flo / 12)
  let dhz := (2 : ℝ) ^ (df / 12)
  if p.center ≠ 0 ∨ p.expand ≠ 0 then
    let r := modRange flo fhi p.center p.expand n
    ((hzlo, dhz), (440 * (2 : ℝ) ^ (r.1 / 12), (2 : ℝ) ^ (r.2 / 12)), true)
  else ((hzlo, dhz), (hzlo, dhz), false)

/-- update.rs 94-124: one turn of the loop: the coefficients of band `i`, and the next frequencies.  (The code collects four bands before it writes them: same effect, the number being a multiple of 4.) -/
noncomputable def place (p : Settings) (dhz mdhz : ℝ) (sep : Bool) (s : Voc × ℝ × ℝ) (i : ℕ) : Voc × ℝ × ℝ :=
  let Q := 20 * (1 + 0.5 * p.quality)
  let spread := 0.4 / Q
  let (v, fb, mb) := s
  let c := setCoeff (fb * p.srInv) Q spread
  let v := { v with cCar := Function.update v.cCar i c }
  let v := { v with cMod := Function.update v.cMod i (if sep then setCoeff (mb * p.srInv) Q spread else c) }
  (v, fb * dhz, mb * mdhz)

/-- update.rs 5-126: `update`. -/
noncomputable def Voc.update (v : Voc) (p : Settings) : Voc :=
  let n := p.bands - p.bands % 4
  let q := plan p n
  ((List.range n).foldl (place p q.1.2 q.2.1.2 q.2.2) ({ v with active := n }, q.1.1, q.2.1.1)).1

end Verif.Vocoder
