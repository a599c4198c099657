import Verif.Dsp.Blocks
import Verif.Smooth.Lipol
import Verif.Rust
import Mathlib.Data.Real.Basic
import Mathlib.Tactic.FinCases
/-!
# What a voice plays in a block (surge-voice `process_block`), in exact real arithmetic (C130, C131)

Oscillators are arbitrary state machines; the noise is an arbitrary sequence.  Rounding to `f32` is not modelled.
-/
namespace Verif.Voice
open Verif.Smooth Verif.Dsp

/-- surge-types/src/oscillator.rs 30-44: `FmConfiguration`. -/
inductive Fm
  | off | oneToZero | twoToOneToZero | oneAndTwoToZero
  deriving DecidableEq

/-- surge-voice/src/toggle_solo.rs 3-17: `VoiceToggleSoloCfg`; the sources in the order oscillators 0, 1, 2, rings 0, 1, noise. -/
structure Solo where
  solo : Fin 6 → Bool
  mute : Fin 6 → Bool

/-- The configuration of a block: what is enabled, the routes, the levels (ramps), whether the path is `Wide`. -/
structure MixCfg where
  enable : Fin 6 → Bool
  fm : Fm
  wide : Bool
  route : Fin 6 → ℤ
  lvl : Fin 6 → LipolPs ℝ
  pfg : LipolPs ℝ

/-- toggle_solo.rs 19-32: `solo`. -/
def Solo.any (c : Solo) : Bool := c.solo 0 || c.solo 1 || c.solo 2 || c.solo 5 || c.solo 3 || c.solo 4

/-- toggle_solo.rs 34-81: `set_path`, `maybe_toggle_solo`. -/
def Solo.enable (c : Solo) : Fin 6 → Bool := if c.any then c.solo else fun i => !c.mute i

/-- surge-voice/src/calc_route.rs 9-30: the route of a source; `serial` says that the path is one of the three serial ones. -/
def routeOf (serial : Bool) (route : ℤ) : ℤ := if serial && route = 1 then 0 else route

/-- The oscillators: `step i fm` processes a block of oscillator `i`, `fm` being the modulating block if any; `outL`, `outR` are its output buffers.  The noise. -/
structure Env (O : Type) where
  step : Fin 3 → Option (ℕ → ℝ) → O → O
  outL : O → ℕ → ℝ
  outR : O → ℕ → ℝ
  noiseL : ℕ → ℝ
  noiseR : ℕ → ℝ

/-- The state of a block: oscillators, the two outputs, the two scratch blocks, the FM buffer. -/
structure Run (O : Type) where
  osc : Fin 3 → Option O
  outL : ℕ → ℝ
  outR : ℕ → ℝ
  tL : ℕ → ℝ
  tR : ℕ → ℝ
  fmbuf : ℕ → ℝ

variable {O : Type}

/-- The unwrapping of an oscillator. -/
def get (r : Run O) (i : Fin 3) : Res Empty O :=
  match r.osc i with
  | some o => .ok o
  | none => .panic "where is the oscillator!?"

/-- `if route < 2 { accumulate into output 0 }  if route > 0 { accumulate into output 1 }`. -/
def mixIn (route : ℤ) (a b : ℕ → ℝ) (r : Run O) : Run O :=
  let r := if route < 2 then { r with outL := accumulateBlock (· + ·) a 16 r.outL } else r
  if route > 0 then { r with outR := accumulateBlock (· + ·) b 16 r.outR } else r

/-- surge-voice/src/do_osc.rs 12-93: `process_osc`. -/
noncomputable def processOsc (env : Env O) (c : MixCfg) (i : Fin 3) (fm : Option (ℕ → ℝ)) (r : Run O) : Res Empty (Run O) := do
  let o ← get r i
  let o := env.step i fm o
  let r := { r with osc := Function.update r.osc i (some o) }
  if c.enable (i.castLE (by omega)) then
    let l := c.lvl (i.castLE (by omega))
    let r := if c.wide then { r with tL := l.multiplyTo 16 (env.outL o) r.tL, tR := l.multiplyTo 16 (env.outR o) r.tR } else { r with tL := l.multiplyTo 16 (env.outL o) r.tL }
    pure (mixIn (c.route (i.castLE (by omega))) r.tL r.tR r)
  else pure r

/-- surge-voice/src/do_ring.rs 5-95: `process_ring`, of ring `s = 3, 4` between the oscillators `i` and `j`. -/
noncomputable def processRing (env : Env O) (c : MixCfg) (s : Fin 6) (i j : Fin 3) (r : Run O) : Res Empty (Run O) := do
  let o1 ← get r i
  let o2 ← get r j
  if c.wide then
    let r := { r with tL := binaryBlock (· * ·) (env.outL o1) (env.outL o2) 16 r.tL }
    let r := { r with tR := binaryBlock (· * ·) (env.outR o1) (env.outR o2) 16 r.tR }
    let r := { r with tL := (c.lvl s).multiply 16 r.tL, tR := (c.lvl s).multiply 16 r.tR }
    pure (mixIn (c.route s) r.tL r.tR r)
  else
    let r := { r with tL := binaryBlock (· * ·) (env.outL o1) (env.outL o2) 16 r.tL }
    let r := { r with tL := (c.lvl s).multiply 16 r.tL }
    pure (mixIn (c.route s) r.tL r.tL r)

/-- surge-voice/src/do_noise.rs 5-64: `process_noise`; each noise value is written twice. -/
noncomputable def processNoise (env : Env O) (c : MixCfg) (r : Run O) : Run O :=
  let r := { r with tL := fun s => if s < 64 then env.noiseL (s / 2) else r.tL s }
  let r := if c.wide then { r with tR := fun s => if s < 64 then env.noiseR (s / 2) else r.tR s } else r
  let r := if c.wide then { r with tL := (c.lvl 5).multiply 16 r.tL, tR := (c.lvl 5).multiply 16 r.tR } else { r with tL := (c.lvl 5).multiply 16 r.tL }
  mixIn (c.route 5) r.tL r.tR r

/-- surge-voice/src/process.rs 27-47: which of oscillators 2 and 1 run. -/
def gate2 (c : MixCfg) : Bool :=
  (c.enable 2 || c.enable 4) || ((c.enable 0 || c.enable 1) && c.fm = .twoToOneToZero) || (c.enable 0 && c.fm = .oneAndTwoToZero)
/-- process.rs 41-47. -/
def gate1 (c : MixCfg) : Bool := c.enable 1 || c.enable 3 || c.enable 4 || (c.fm ≠ .off && c.enable 0)

/-- toggle_fm.rs 5-61 and do_osc.rs 18-36: the block that modulates oscillator 1: the (possibly old) left output of oscillator 2. -/
def fmFor1 (env : Env O) (c : MixCfg) (r : Run O) : Option (ℕ → ℝ) := if c.fm = .twoToOneToZero then (r.osc 2).map env.outL else none

/-- toggle_fm.rs 5-61 and do_osc.rs 16-22: the block that modulates oscillator 0. -/
def fmFor0 (env : Env O) (c : MixCfg) (r : Run O) : Option (ℕ → ℝ) :=
  match c.fm with
  | .off => none
  | .oneToZero | .twoToOneToZero => (r.osc 1).map env.outL
  | .oneAndTwoToZero => some r.fmbuf

/-- process.rs 59-76: oscillator 0, after the sum of oscillators 1 and 2. -/
noncomputable def zeroth (env : Env O) (c : MixCfg) (r : Run O) : Res Empty (Run O) := do
  let o1 ← get r 1
  let o2 ← get r 2
  let r := if c.fm = .oneAndTwoToZero then { r with fmbuf := binaryBlock (· + ·) (env.outL o1) (env.outL o2) 16 r.fmbuf } else r
  processOsc env c 0 (fmFor0 env c r) r

/-- A stage that runs only if its gate is open. -/
def stage (g : Bool) (f : Run O → Res Empty (Run O)) (r : Run O) : Res Empty (Run O) := if g then f r else .ok r

/-- process.rs 16-98: `process_block` from the clearing of the outputs to the pre-filter gain, which multiplies both. -/
noncomputable def process (env : Env O) (c : MixCfg) (r : Run O) : Res Empty (Run O) := do
  let r := { r with outL := clearBlock 0 16 r.outL, outR := clearBlock 0 16 r.outR }
  let r := { r with tL := fun _ => 0, tR := fun _ => 0 }
  let r ← stage (gate2 c) (processOsc env c 2 none) r
  let r ← stage (gate1 c) (fun r => processOsc env c 1 (fmFor1 env c r) r) r
  let r ← stage (c.enable 0 || c.enable 3) (zeroth env c) r
  let r ← stage (c.enable 3) (processRing env c 3 0 1) r
  let r ← stage (c.enable 4) (processRing env c 4 1 2) r
  let r ← stage (c.enable 5) (fun r => .ok (processNoise env c r)) r
  pure { r with outL := c.pfg.multiply 16 r.outL, outR := c.pfg.multiply 16 r.outR }

namespace Spec

/-- The oscillators after the block, each modulated by the others' new output as the FM configuration says. -/
def fresh2 (env : Env O) (o : Fin 3 → O) : O := env.step 2 none (o 2)
/-- Oscillator 1. -/
def fresh1 (env : Env O) (fm : Fm) (o : Fin 3 → O) : O := env.step 1 (if fm = .twoToOneToZero then some (env.outL (fresh2 env o)) else none) (o 1)

/-- The left output of the sources.  Rings are products, each noise value lasts two samples. -/
noncomputable def left (env : Env O) (x0 x1 x2 : O) (s : ℕ) : Fin 6 → ℝ
  | 0 => env.outL x0 s
  | 1 => env.outL x1 s
  | 2 => env.outL x2 s
  | 3 => env.outL x0 s * env.outL x1 s
  | 4 => env.outL x1 s * env.outL x2 s
  | 5 => env.noiseL (s / 2)

/-- The right output of the sources (of the stereo path, `Wide`). -/
noncomputable def right (env : Env O) (x0 x1 x2 : O) (s : ℕ) : Fin 6 → ℝ
  | 0 => env.outR x0 s
  | 1 => env.outR x1 s
  | 2 => env.outR x2 s
  | 3 => env.outR x0 s * env.outR x1 s
  | 4 => env.outR x1 s * env.outR x2 s
  | 5 => env.noiseR (s / 2)

/-- The mix: pre-filter gain times the sum of the enabled sources routed here, each at its level. -/
noncomputable def mix (c : MixCfg) (here : ℤ → Prop) [DecidablePred here] (x : Fin 6 → ℝ) (s : ℕ) : ℝ :=
  c.pfg.gain s * ∑ i, if c.enable i = true ∧ here (c.route i) then (c.lvl i).gain s * x i else 0

/-- The oscillator that modulates is not processed: only ring 0 is on (besides noise), and oscillator 2 modulates. -/
def Stale (c : MixCfg) : Prop :=
  c.enable 3 = true ∧ c.enable 0 = false ∧ c.enable 2 = false ∧ c.enable 4 = false ∧ ((c.enable 1 = false ∧ c.fm = .twoToOneToZero) ∨ c.fm = .oneAndTwoToZero)

end Spec

/-- The modulator of oscillator 0: a block that agrees on its 64 samples with the left output of oscillator 1 or the sum of 1 and 2. -/
def Spec.Modulates (env : Env O) (fm : Fm) (x1 x2 : O) (b : Option (ℕ → ℝ)) : Prop :=
  match fm with
  | .off => b = none
  | .oneToZero | .twoToOneToZero => b = some (env.outL x1)
  | .oneAndTwoToZero => ∃ m, b = some m ∧ ∀ s, s < 64 → m s = env.outL x1 s + env.outL x2 s

/-! ## Stages -/

theorem mul_to (l : LipolPs ℝ) (src dst : ℕ → ℝ) {s : ℕ} (h : s < 64) : l.multiplyTo 16 src dst s = l.gain s * src s := by
  have := ((C53_block_repeats_first_segment l (n := 16) rfl src src dst s).2 (by omega)).2.2.2.2.2.1
  rw [this, mul_comm]

theorem mul_in (l : LipolPs ℝ) (src : ℕ → ℝ) {s : ℕ} (h : s < 64) : l.multiply 16 src s = l.gain s * src s := by
  have := ((C53_block_repeats_first_segment l (n := 16) rfl src src src s).2 (by omega)).2.2.2.1
  rw [this, mul_comm]

theorem acc_in (src dst : ℕ → ℝ) {s : ℕ} (h : s < 64) : accumulateBlock (· + ·) src 16 dst s = dst s + src s :=
  (C58_accumulate _ src 16 dst s).1 (by omega)

theorem bin_in (op : ℝ → ℝ → ℝ) (a b dst : ℕ → ℝ) {s : ℕ} (h : s < 64) : binaryBlock op a b 16 dst s = op (a s) (b s) :=
  ((C58_unrolled_partial 16 dst).2.1 rfl op a b s).1 (by omega)

/-- What is known of the outputs at each stage: their value on the 64 samples; and off the stereo path the right scratch block is still silent, and the FM buffer is `f`. -/
structure Inv (c : MixCfg) (f a b : ℕ → ℝ) (r : Run O) : Prop where
  left : ∀ s, s < 64 → r.outL s = a s
  right : ∀ s, s < 64 → r.outR s = b s
  quiet : c.wide = false → ∀ s, r.tR s = 0
  buf : r.fmbuf = f

theorem mixIn_inv {c : MixCfg} {f a b : ℕ → ℝ} {r : Run O} (h : Inv c f a b r) (route : ℤ) {x y : ℕ → ℝ} :
    Inv c f (fun s => a s + if route < 2 then x s else 0) (fun s => b s + if route > 0 then y s else 0) (mixIn route x y r) ∧ (mixIn route x y r).osc = r.osc := by
  unfold mixIn
  by_cases h1 : route < 2 <;> by_cases h2 : route > 0 <;> simp only [h1, h2, if_true, if_false, and_true, add_zero]
  · exact ⟨fun s hs => by rw [← h.left s hs]; exact acc_in _ _ hs, fun s hs => by rw [← h.right s hs]; exact acc_in _ _ hs, h.quiet, h.buf⟩
  · exact ⟨fun s hs => by rw [← h.left s hs]; exact acc_in _ _ hs, h.right, h.quiet, h.buf⟩
  · exact ⟨h.left, fun s hs => by rw [← h.right s hs]; exact acc_in _ _ hs, h.quiet, h.buf⟩
  · exact h

theorem Inv.congr {c : MixCfg} {f a b a' b' : ℕ → ℝ} {r : Run O} (h : Inv c f a b r) (ha : ∀ s, s < 64 → a s = a' s) (hb : ∀ s, s < 64 → b s = b' s) : Inv c f a' b' r :=
  ⟨fun s hs => (h.left s hs).trans (ha s hs), fun s hs => (h.right s hs).trans (hb s hs), h.quiet, h.buf⟩

/-- The contribution of source `i` to the left. -/
noncomputable def conL (c : MixCfg) (i : Fin 6) (x : ℕ → ℝ) (s : ℕ) : ℝ := if c.enable i = true ∧ c.route i < 2 then (c.lvl i).gain s * x s else 0
/-- The contribution of source `i` to the right. -/
noncomputable def conR (c : MixCfg) (i : Fin 6) (x : ℕ → ℝ) (s : ℕ) : ℝ := if c.enable i = true ∧ 0 < c.route i then (c.lvl i).gain s * x s else 0

theorem osc_stage (env : Env O) {c : MixCfg} {f a b : ℕ → ℝ} {r : Run O} (h : Inv c f a b r) (i : Fin 3) (fm : Option (ℕ → ℝ)) {o : O} (ho : r.osc i = some o) :
    ∃ r', processOsc env c i fm r = .ok r' ∧ r'.osc = Function.update r.osc i (some (env.step i fm o)) ∧
      Inv c f (fun s => a s + conL c (i.castLE (by omega)) (env.outL (env.step i fm o)) s)
        (fun s => b s + conR c (i.castLE (by omega)) (if c.wide then env.outR (env.step i fm o) else fun _ => 0) s) r' := by
  unfold processOsc get
  simp only [ho, Res.ok_bind]
  by_cases he : c.enable (i.castLE (by omega)) = true
  · rw [if_pos he]
    set o' := env.step i fm o
    by_cases hw : c.wide = true
    · simp only [hw, if_true]
      obtain ⟨h1, h2⟩ := mixIn_inv (c := c) (f := f) (a := a) (b := b)
        (r := (⟨(Function.update r.osc i (some o')), r.outL, r.outR, ((c.lvl (i.castLE (by omega))).multiplyTo 16 (env.outL o') r.tL), ((c.lvl (i.castLE (by omega))).multiplyTo 16 (env.outR o') r.tR), r.fmbuf⟩ : Run O)) ⟨h.left, h.right, fun hf => absurd hf (by simp [hw]), h.buf⟩
          (c.route (i.castLE (by omega))) (x := (c.lvl (i.castLE (by omega))).multiplyTo 16 (env.outL o') r.tL) (y := (c.lvl (i.castLE (by omega))).multiplyTo 16 (env.outR o') r.tR)
      refine ⟨_, rfl, h2, h1.congr (fun s hs => ?_) (fun s hs => ?_)⟩
      · simp only [conL, he, true_and, mul_to _ _ _ hs]
      · simp only [conR, he, true_and, mul_to _ _ _ hs, gt_iff_lt]
    · simp only [hw, if_false, Bool.false_eq_true]
      obtain ⟨h1, h2⟩ := mixIn_inv (c := c) (f := f) (a := a) (b := b)
        (r := (⟨(Function.update r.osc i (some o')), r.outL, r.outR, ((c.lvl (i.castLE (by omega))).multiplyTo 16 (env.outL o') r.tL), r.tR, r.fmbuf⟩ : Run O)) ⟨h.left, h.right, h.quiet, h.buf⟩
          (c.route (i.castLE (by omega))) (x := (c.lvl (i.castLE (by omega))).multiplyTo 16 (env.outL o') r.tL) (y := r.tR)
      refine ⟨_, rfl, h2, h1.congr (fun s hs => ?_) (fun s hs => ?_)⟩
      · simp only [conL, he, true_and, mul_to _ _ _ hs]
      · simp only [conR, h.quiet (by simpa using hw) s, mul_zero, ite_self]
  · rw [if_neg he]
    refine ⟨_, rfl, rfl, Inv.congr (f := f) (a := a) (b := b) ⟨h.left, h.right, h.quiet, h.buf⟩ (fun s _ => ?_) (fun s _ => ?_)⟩
    · simp only [conL, he, false_and, if_false, add_zero, Bool.false_eq_true]
    · simp only [conR, he, false_and, if_false, add_zero, Bool.false_eq_true]

theorem ring_stage (env : Env O) {c : MixCfg} {f a b : ℕ → ℝ} {r : Run O} (h : Inv c f a b r) (k : Fin 6) (i j : Fin 3) {o1 o2 : O} (h1 : r.osc i = some o1) (h2 : r.osc j = some o2) :
    ∃ r', stage (c.enable k) (processRing env c k i j) r = .ok r' ∧ r'.osc = r.osc ∧
      Inv c f (fun s => a s + conL c k (fun s => env.outL o1 s * env.outL o2 s) s)
        (fun s => b s + conR c k (fun s => if c.wide then env.outR o1 s * env.outR o2 s else env.outL o1 s * env.outL o2 s) s) r' := by
  unfold stage
  by_cases he : c.enable k = true
  · rw [if_pos he]
    unfold processRing get
    simp only [h1, h2, Res.ok_bind]
    by_cases hw : c.wide = true
    · simp only [hw, if_true]
      obtain ⟨g1, g2⟩ := mixIn_inv (c := c) (f := f) (a := a) (b := b)
        (r := (⟨r.osc, r.outL, r.outR, ((c.lvl k).multiply 16 (binaryBlock (· * ·) (env.outL o1) (env.outL o2) 16 r.tL)), ((c.lvl k).multiply 16 (binaryBlock (· * ·) (env.outR o1) (env.outR o2) 16 r.tR)), r.fmbuf⟩ : Run O)) ⟨h.left, h.right, fun hf => absurd hf (by simp [hw]), h.buf⟩
          (c.route k) (x := (c.lvl k).multiply 16 (binaryBlock (· * ·) (env.outL o1) (env.outL o2) 16 r.tL))
          (y := (c.lvl k).multiply 16 (binaryBlock (· * ·) (env.outR o1) (env.outR o2) 16 r.tR))
      refine ⟨_, rfl, g2, g1.congr (fun s hs => ?_) (fun s hs => ?_)⟩
      · simp only [conL, he, true_and, mul_in _ _ hs, bin_in _ _ _ _ hs]
      · simp only [conR, he, true_and, mul_in _ _ hs, bin_in _ _ _ _ hs, gt_iff_lt]
    · simp only [hw, if_false, Bool.false_eq_true]
      obtain ⟨g1, g2⟩ := mixIn_inv (c := c) (f := f) (a := a) (b := b)
        (r := (⟨r.osc, r.outL, r.outR, ((c.lvl k).multiply 16 (binaryBlock (· * ·) (env.outL o1) (env.outL o2) 16 r.tL)), r.tR, r.fmbuf⟩ : Run O)) ⟨h.left, h.right, h.quiet, h.buf⟩
          (c.route k) (x := (c.lvl k).multiply 16 (binaryBlock (· * ·) (env.outL o1) (env.outL o2) 16 r.tL))
          (y := (c.lvl k).multiply 16 (binaryBlock (· * ·) (env.outL o1) (env.outL o2) 16 r.tL))
      refine ⟨_, rfl, g2, g1.congr (fun s hs => ?_) (fun s hs => ?_)⟩
      · simp only [conL, he, true_and, mul_in _ _ hs, bin_in _ _ _ _ hs]
      · simp only [conR, he, true_and, mul_in _ _ hs, bin_in _ _ _ _ hs, gt_iff_lt]
  · rw [if_neg he]
    refine ⟨r, rfl, rfl, h.congr (fun s _ => ?_) (fun s _ => ?_)⟩
    · simp only [conL, he, false_and, if_false, add_zero, Bool.false_eq_true]
    · simp only [conR, he, false_and, if_false, add_zero, Bool.false_eq_true]

theorem noise_stage (env : Env O) {c : MixCfg} {f a b : ℕ → ℝ} {r : Run O} (h : Inv c f a b r) :
    ∃ r', stage (c.enable 5) (fun r => .ok (processNoise env c r)) r = .ok r' ∧ r'.osc = r.osc ∧
      Inv c f (fun s => a s + conL c 5 (fun s => env.noiseL (s / 2)) s) (fun s => b s + conR c 5 (fun s => if c.wide then env.noiseR (s / 2) else 0) s) r' := by
  unfold stage
  by_cases he : c.enable 5 = true
  · rw [if_pos he]
    unfold processNoise
    by_cases hw : c.wide = true
    · simp only [hw, if_true]
      obtain ⟨g1, g2⟩ := mixIn_inv (c := c) (f := f) (a := a) (b := b)
        (r := (⟨r.osc, r.outL, r.outR, ((c.lvl 5).multiply 16 (fun s => if s < 64 then env.noiseL (s / 2) else r.tL s)), ((c.lvl 5).multiply 16 (fun s => if s < 64 then env.noiseR (s / 2) else r.tR s)), r.fmbuf⟩ : Run O)) ⟨h.left, h.right, fun hf => absurd hf (by simp [hw]), h.buf⟩
          (c.route 5) (x := (c.lvl 5).multiply 16 (fun s => if s < 64 then env.noiseL (s / 2) else r.tL s))
          (y := (c.lvl 5).multiply 16 (fun s => if s < 64 then env.noiseR (s / 2) else r.tR s))
      refine ⟨_, rfl, g2, g1.congr (fun s hs => ?_) (fun s hs => ?_)⟩
      · simp only [conL, he, true_and, mul_in _ _ hs, hs, if_true]
      · simp only [conR, he, true_and, mul_in _ _ hs, hs, if_true, gt_iff_lt]
    · simp only [hw, if_false, Bool.false_eq_true]
      obtain ⟨g1, g2⟩ := mixIn_inv (c := c) (f := f) (a := a) (b := b)
        (r := (⟨r.osc, r.outL, r.outR, ((c.lvl 5).multiply 16 (fun s => if s < 64 then env.noiseL (s / 2) else r.tL s)), r.tR, r.fmbuf⟩ : Run O)) ⟨h.left, h.right, h.quiet, h.buf⟩
          (c.route 5) (x := (c.lvl 5).multiply 16 (fun s => if s < 64 then env.noiseL (s / 2) else r.tL s)) (y := r.tR)
      refine ⟨_, rfl, g2, g1.congr (fun s hs => ?_) (fun s hs => ?_)⟩
      · simp only [conL, he, true_and, mul_in _ _ hs, hs, if_true]
      · simp only [conR, h.quiet (by simpa using hw) s, mul_zero, ite_self]
  · rw [if_neg he]
    refine ⟨r, rfl, rfl, h.congr (fun s _ => ?_) (fun s _ => ?_)⟩
    · simp only [conL, he, false_and, if_false, add_zero, Bool.false_eq_true]
    · simp only [conR, he, false_and, if_false, add_zero, Bool.false_eq_true]

end Verif.Voice
