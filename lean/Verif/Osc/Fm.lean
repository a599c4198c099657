import Verif.Rust
import Verif.Smooth.Lag
import Verif.Units.QuadrOsc
import Verif.Effects.RingMod
import Mathlib.Analysis.SpecialFunctions.Trigonometric.Bounds
import Mathlib.Analysis.SpecificLimits.Basic
/-!
# The FM, FM2, sine and audio-input oscillators (C156–C160), in exact real arithmetic

surgeosc-fm, surgeosc-fm2, surgeosc-sine, surgeosc-audioin.  Not modelled: rounding (`f32`, `f64`) and the tuning table: the angular frequency a block is played at is an input, so that the pitch and the
drift noise may do anything.  A read through a null pointer is a panic; `err ()` is a not-a-number in a quadrature oscillator.
-/
namespace Verif.Osc
open Verif Verif.Smooth Verif.Units

/-- A Rust computation of an oscillator. -/
abbrev R := Res Unit

/-- `QuadrOsc::set_rate` in this setting. -/
noncomputable def setRate (q : Quad) (w : ℝ) : R Quad :=
  match q.setRate w with
  | some q => .ok q
  | none => .err ()

/-- `*self.master_osc.add(k)`. -/
def load (master : Option (ℕ → ℝ)) (k : ℕ) : R ℝ :=
  match master with
  | some m => .ok (m k)
  | none => .panic "null pointer read"

/-- A loop over `k in 0 .. n`, with the values it writes to `out.l`. -/
def loop {σ : Type} (f : ℕ → σ → R (σ × ℝ)) : ℕ → σ → R (σ × List ℝ)
  | 0, s => .ok (s, [])
  | n + 1, s => do
    let (s, ys) ← loop f n s
    let (s, y) ← f n s
    pure (s, ys ++ [y])

/-! ## FM2 -/

namespace Fm2

/-- surgeosc-fm2/src/fm2.rs 5-23. -/
structure State where
  phase : ℝ
  last : ℝ
  rm1 : Quad
  rm2 : Quad
  fmDepth : Lag ℝ
  rel1 : Lag ℝ
  rel2 : Lag ℝ
  feedback : Lag ℝ
  offset : Lag ℝ
  master : Option (ℕ → ℝ)

/-- new.rs 5-27. -/
noncomputable def new : State := ⟨0, 0, .default, .default, .new 0, .new 0, .new 0, .new 0, .new 0, none⟩

/-- surge-traits/src/misc.rs 11-13: `assign_fm`, whose body is commented out. -/
def assignFm (s : State) (_ : ℕ → ℝ) : State := s

/-- What the parameters, the pitch and the modulation routing are for one block; `omega` is `pitch2omega` of the drifted pitch, `shift` is in cycles per sample. -/
structure Params where
  omega : ℝ
  ratio1 : ℝ
  ratio2 : ℝ
  amount1 : ℝ
  amount2 : ℝ
  shift : ℝ
  startPhase : ℝ
  feedback : ℝ
  fm : Bool
  fmDepth : ℝ

/-- init.rs 3-6: `fm2_calcmd`. -/
noncomputable def calcmd (x : ℝ) : ℝ := x * x * x * 8 * Real.pi

/-- init.rs 10-24: `init`. -/
noncomputable def init (P : Params) (s : State) : State :=
  let ph := 2 * Real.pi * P.startPhase
  { s with last := 0, rm1 := s.rm1.setPhase ph, rm2 := s.rm2.setPhase ph, phase := Real.sin (-ph) * (calcmd P.amount1 + calcmd P.amount2) - ph }

/-- block.rs 5-35: `do_fm2_block`. -/
noncomputable def sample (omega : ℝ) (fm : Bool) (k : ℕ) (s : State) : R (State × ℝ) := do
  let rm1 := s.rm1.process
  let rm2 := s.rm2.process
  let x := s.phase + s.rel1.v * rm1.r + s.rel2.v * rm2.r + s.last + s.offset.v
  let x ← if fm then (do let m ← load s.master k; pure (x + s.fmDepth.v * m)) else pure x
  let y := Real.sin x
  pure (⟨s.phase + omega, y * s.feedback.v, rm1, rm2, if fm then s.fmDepth.process else s.fmDepth, s.rel1.process, s.rel2.process, s.feedback.process, s.offset.process, s.master⟩, y)

/-- process.rs 5-50: `process_block`, up to the copy to the right channel. -/
noncomputable def block (P : Params) (s : State) : R (State × List ℝ) := do
  let rm1 ← setRate s.rm1 (min Real.pi (P.omega * P.ratio1 + P.shift))
  let rm2 ← setRate s.rm2 (min Real.pi (P.omega * P.ratio2 - P.shift))
  let fd := if P.fm then s.fmDepth.newValue (32 * Real.pi * P.fmDepth * P.fmDepth * P.fmDepth) else s.fmDepth
  let s : State := ⟨s.phase, s.last, rm1, rm2, fd, s.rel1.newValue (calcmd P.amount1), s.rel2.newValue (calcmd P.amount2), s.feedback.newValue P.feedback,
    s.offset.newValue (2 * Real.pi * P.startPhase), s.master⟩
  loop (sample (min Real.pi P.omega) P.fm) 64 s

end Fm2

/-! ## FM -/

namespace Fm

/-- surgeosc-fm/src/fm.rs 5-22. -/
structure State where
  phase : ℝ
  last : ℝ
  rm1 : Quad
  rm2 : Quad
  am : Quad
  fmDepth : Lag ℝ
  rel1 : Lag ℝ
  rel2 : Lag ℝ
  abs : Lag ℝ
  feedback : Lag ℝ
  master : Option (ℕ → ℝ)

/-- new.rs 5-25. -/
noncomputable def new : State := ⟨0, 0, .default, .default, .default, .new 0, .new 0, .new 0, .new 0, .new 0, none⟩
/-- `assign_fm` as above. -/
def assignFm (s : State) (_ : ℕ → ℝ) : State := s
/-- init.rs 5-17. -/
noncomputable def init (s : State) : State := { s with phase := 0, last := 0, am := s.am.setPhase 0, rm1 := s.rm1.setPhase 0, rm2 := s.rm2.setPhase 0 }

/-- The inputs of one block; `omega3` is `pitch2omega` of the third modulator. -/
structure Params where
  omega : ℝ
  ratio1 : ℝ
  ratio2 : ℝ
  omega3 : ℝ
  amount1 : ℝ
  amount2 : ℝ
  amount3 : ℝ
  feedback : ℝ
  fm : Bool
  fmDepth : ℝ

/-- block.rs 5-40: `do_fm_block`. -/
noncomputable def sample (omega : ℝ) (fm : Bool) (k : ℕ) (s : State) : R (State × ℝ) := do
  let m ← load s.master k
  let rm1 := s.rm1.process
  let rm2 := s.rm2.process
  let am := s.am.process
  let x := s.phase + s.rel1.v * rm1.r + s.rel2.v * rm2.r + s.abs.v * am.r + s.last
  let x := if fm then x + s.fmDepth.v * m else x
  let y := Real.sin x
  pure (⟨s.phase + omega, y * s.feedback.v, rm1, rm2, am, if fm then s.fmDepth.process else s.fmDepth, s.rel1.process, s.rel2.process, s.abs.process, s.feedback.process, s.master⟩, y)

/-- process.rs 5-68: `process_block`. -/
noncomputable def block (P : Params) (s : State) : R (State × List ℝ) := do
  let rm1 ← setRate s.rm1 (min Real.pi (P.omega * P.ratio1))
  let rm2 ← setRate s.rm2 (min Real.pi (P.omega * P.ratio2))
  let am ← setRate s.am (min Real.pi P.omega3)
  let fd := if P.fm then s.fmDepth.newValue (32 * Real.pi * P.fmDepth * P.fmDepth * P.fmDepth) else s.fmDepth
  let s : State := ⟨s.phase, s.last, rm1, rm2, am, fd, s.rel1.newValue (32 * Real.pi * P.amount1 * P.amount1 * P.amount1), s.rel2.newValue (32 * Real.pi * P.amount2 * P.amount2 * P.amount2),
    s.abs.newValue (32 * Real.pi * P.amount3 * P.amount3 * P.amount3), s.feedback.newValue P.feedback, s.master⟩
  loop (sample (min Real.pi P.omega) P.fm) 64 s

end Fm

/-! ## Sine -/

namespace Sine
open Verif.Effects.RingMod (carrier)

/-- surgeosc-sine/src/sine.rs 5-18. -/
structure State where
  sine : Quad
  phase : ℝ
  fmDepth : Lag ℝ
  feedback : Lag ℝ
  last : ℝ
  master : Option (ℕ → ℝ)

/-- new.rs 5-21. -/
noncomputable def new : State := ⟨.default, 0, .new 0, .new 0, 0, none⟩
/-- `assign_fm` as above. -/
def assignFm (s : State) (_ : ℕ → ℝ) : State := s
/-- init.rs 5-13. -/
noncomputable def init (s : State) : State := { s with phase := 0, sine := s.sine.setPhase 0, last := 0 }

/-- The inputs of one block. -/
structure Params where
  omega : ℝ
  shape : ℤ
  feedback : ℝ
  behavior : ℤ
  fm : Bool
  fmDepth : ℝ

/-- param.rs 50-58: the default parameters. -/
def defaults (omega : ℝ) : Params := ⟨omega, 0, 0, 1, false, 0⟩

/-- block.rs 5-28: `do_sine_block`. -/
noncomputable def sample (omega : ℝ) (shape : ℤ) (fm : Bool) (k : ℕ) (s : State) : R (State × ℝ) := do
  let m ← load s.master k
  let p := s.phase + s.last
  let p := if fm then p + s.fmDepth.v * m else p
  let y := carrier (Real.sin p) (Real.cos p) shape
  pure (⟨s.sine, s.phase + omega, s.fmDepth.process, s.feedback.process, y * s.feedback.v, s.master⟩, y)

/-- legacy.rs 28-48: one sample of the legacy oscillator under FM. -/
noncomputable def legacyFm (omega : ℝ) (shape : ℤ) (k : ℕ) (s : State) : R (State × ℝ) := do
  let m ← load s.master k
  let y := carrier (Real.sin s.phase) (Real.cos s.phase) shape
  pure (⟨s.sine, s.phase + (omega + m * s.fmDepth.v), s.fmDepth.process, s.feedback, s.last, s.master⟩, y)

/-- legacy.rs 61-73: one sample of the legacy oscillator without FM. -/
noncomputable def legacy (shape : ℤ) (_ : ℕ) (s : State) : R (State × ℝ) :=
  let q := s.sine.process
  .ok (⟨q, s.phase, s.fmDepth, s.feedback, s.last, s.master⟩, carrier q.r q.i shape)

/-- process.rs 5-56: `process_block`; legacy.rs 5-75: `process_block_legacy`. -/
noncomputable def block (P : Params) (s : State) : R (State × List ℝ) :=
  if P.behavior = 0 then
    if P.fm then loop (legacyFm (min Real.pi P.omega) P.shape) 64 { s with fmDepth := s.fmDepth.newValue P.fmDepth }
    else do
      let q ← setRate s.sine (min Real.pi P.omega)
      loop (legacy P.shape) 64 { s with sine := q }
  else
    loop (sample (min Real.pi P.omega) P.shape P.fm) 64
      { s with fmDepth := s.fmDepth.newValue (32 * Real.pi * P.fmDepth * P.fmDepth * P.fmDepth), feedback := s.feedback.newValue P.feedback }

end Sine

/-! ## Audio input -/

/-- surgeosc-audioin/src/process.rs 17-41: a sample of `process_block_mono`; `g` is the gain as a factor. -/
noncomputable def audioMono (g input in0 in1 : ℝ) : ℝ :=
  let inp := min (max input (-1)) 1
  let a := g * (1 - inp)
  let b := g * (1 + inp)
  a * in0 + b * in1

/-- process.rs 43-66: a sample of `process_block_stereo`. -/
noncomputable def audioStereo (g input in0 in1 : ℝ) : ℝ × ℝ :=
  let inp := min (max input (-1)) 1
  let a := g * (1 - inp)
  let b := g * (1 + inp)
  (a * in0, b * in1)

/-! ## Specification -/

/-- A run of FM2: `init` on a new oscillator with the parameters of the first block, then the blocks. -/
structure Spec.Fm2Run (P : ℕ → Fm2.Params) (S : ℕ → Fm2.State) (out : ℕ → List ℝ) : Prop where
  start : S 0 = Fm2.init (P 0) Fm2.new
  step : ∀ t, Fm2.block (P t) (S t) = .ok (S (t + 1), out t)

/-- Sum of a rate that is constant over blocks of 64 samples, over the samples before number `n`. -/
noncomputable def Spec.turned (rate : ℕ → ℝ) (n : ℕ) : ℝ := ∑ m ∈ Finset.range n, rate (m / 64)

/-- The phase of the carrier at sample `n`: the start value chosen so that the sound begins at a zero crossing, and the frequencies since, limited to half the sample rate. -/
noncomputable def Spec.carrierPhase (P : ℕ → Fm2.Params) (n : ℕ) : ℝ :=
  Spec.turned (fun t => min Real.pi (P t).omega) n - Real.sin (2 * Real.pi * (P 0).startPhase) * ((P 0).amount1 ^ 3 * (8 * Real.pi) + (P 0).amount2 ^ 3 * (8 * Real.pi)) - 2 * Real.pi * (P 0).startPhase

/-- The two modulators and the phase offset at sample `n`, at full depth. -/
noncomputable def Spec.modulation (P : ℕ → Fm2.Params) (n : ℕ) : ℝ :=
  (P 0).amount1 ^ 3 * (8 * Real.pi) * Real.sin (2 * Real.pi * (P 0).startPhase + Spec.turned (fun t => min Real.pi ((P t).omega * (P t).ratio1 + (P t).shift)) (n + 1)) +
  (P 0).amount2 ^ 3 * (8 * Real.pi) * Real.sin (2 * Real.pi * (P 0).startPhase + Spec.turned (fun t => min Real.pi ((P t).omega * (P t).ratio2 - (P t).shift)) (n + 1)) +
  2 * Real.pi * (P 0).startPhase

/-- What is in the parentheses of the FM formula, the feedback apart, for sample `n`. The factor 0.996 is the loss of the smoothers. -/
noncomputable def Spec.inner (P : ℕ → Fm2.Params) (n : ℕ) : ℝ := Spec.carrierPhase P n + 0.996 ^ n * Spec.modulation P n

/-- The output of FM2. -/
noncomputable def Spec.fm2 (P : ℕ → Fm2.Params) : ℕ → ℝ
  | 0 => Real.sin (Spec.inner P 0)
  | n + 1 => Real.sin (Spec.inner P (n + 1) + 0.996 ^ n * (P 0).feedback * Spec.fm2 P n)

/-! ## C156: FM2 plays the FM formula -/

/-- A smoother made by `Lag::new(0)`, after its first value and `n` steps. -/
def Fading (l : Lag ℝ) (x : ℝ) (n : ℕ) : Prop := l.first = false ∧ l.lp = 0 ∧ l.lpinv = 0.996 ∧ l.v = 0.996 ^ n * x

theorem fading_new (x : ℝ) : Fading ((Lag.new 0 : Lag ℝ).newValue x) x 0 := by
  refine ⟨rfl, rfl, ?_, by simp [Lag.newValue, Lag.new, Lag.default]⟩
  show (1 : ℝ) - 4 / 1000 = 0.996; norm_num

theorem fading_value {l : Lag ℝ} {x : ℝ} {n : ℕ} (h : Fading l x n) (y : ℝ) : Fading (l.newValue y) x n := by
  unfold Lag.newValue; rw [if_neg (by rw [h.1]; decide)]; exact h

theorem fading_step {l : Lag ℝ} {x : ℝ} {n : ℕ} (h : Fading l x n) : Fading l.process x (n + 1) := by
  refine ⟨h.1, h.2.1, h.2.2.1, ?_⟩
  show l.v * l.lpinv + l.target * l.lp = _
  rw [h.2.1, h.2.2.1, h.2.2.2, pow_succ]; ring

/-- A quadrature oscillator at phase `θ`. -/
def At (q : Quad) (θ : ℝ) : Prop := q.r = Real.sin θ ∧ q.i = -Real.cos θ

theorem at_rate {q : Quad} {θ : ℝ} (h : At q θ) (w : ℝ) : ∃ q', setRate q w = .ok q' ∧ At q' θ ∧ q'.dr = Real.cos w ∧ q'.di = Real.sin w := by
  refine ⟨_, by unfold setRate; rw [setRate_unit h.1 h.2], ⟨rfl, rfl⟩, rfl, rfl⟩

theorem at_step {q : Quad} {θ w : ℝ} (h : At q θ) (h1 : q.dr = Real.cos w) (h2 : q.di = Real.sin w) : At q.process (θ + w) ∧ q.process.dr = Real.cos w ∧ q.process.di = Real.sin w := by
  refine ⟨⟨?_, ?_⟩, h1, h2⟩
  · show q.dr * q.r - q.di * q.i = _; rw [h.1, h.2, h1, h2, Real.sin_add]; ring
  · show q.dr * q.i + q.di * q.r = _; rw [h.1, h.2, h1, h2, Real.cos_add]; ring

theorem turned_succ (rate : ℕ → ℝ) (t k : ℕ) (hk : k < 64) : Spec.turned rate (64 * t + k + 1) = Spec.turned rate (64 * t + k) + rate t := by
  unfold Spec.turned
  rw [Finset.sum_range_succ]
  congr 2
  omega

/-- The feedback that goes into sample `n`. -/
noncomputable def echo (P : ℕ → Fm2.Params) : ℕ → ℝ
  | 0 => 0
  | n + 1 => 0.996 ^ n * (P 0).feedback * Spec.fm2 P n

/-- The oscillator before sample `n`, in terms of the formula. -/
structure Inv (P : ℕ → Fm2.Params) (n : ℕ) (s : Fm2.State) : Prop where
  phase : s.phase = Spec.carrierPhase P n
  last : s.last = echo P n
  rm1 : At s.rm1 (2 * Real.pi * (P 0).startPhase + Spec.turned (fun t => min Real.pi ((P t).omega * (P t).ratio1 + (P t).shift)) n)
  rm2 : At s.rm2 (2 * Real.pi * (P 0).startPhase + Spec.turned (fun t => min Real.pi ((P t).omega * (P t).ratio2 - (P t).shift)) n)

/-- The smoothers before sample `n`. -/
structure Inv2 (P : ℕ → Fm2.Params) (n : ℕ) (s : Fm2.State) : Prop where
  rel1 : Fading s.rel1 ((P 0).amount1 ^ 3 * (8 * Real.pi)) n
  rel2 : Fading s.rel2 ((P 0).amount2 ^ 3 * (8 * Real.pi)) n
  feedback : Fading s.feedback (P 0).feedback n
  offset : Fading s.offset (2 * Real.pi * (P 0).startPhase) n

theorem sample_inv {P : ℕ → Fm2.Params} {t k : ℕ} {s : Fm2.State} (hk : k < 64) (h : Inv P (64 * t + k) s) (h2 : Inv2 P (64 * t + k) s)
    (r1 : s.rm1.dr = Real.cos (min Real.pi ((P t).omega * (P t).ratio1 + (P t).shift)) ∧ s.rm1.di = Real.sin (min Real.pi ((P t).omega * (P t).ratio1 + (P t).shift)))
    (r2 : s.rm2.dr = Real.cos (min Real.pi ((P t).omega * (P t).ratio2 - (P t).shift)) ∧ s.rm2.di = Real.sin (min Real.pi ((P t).omega * (P t).ratio2 - (P t).shift))) :
    ∃ s', Fm2.sample (min Real.pi (P t).omega) false k s = .ok (s', Spec.fm2 P (64 * t + k)) ∧ Inv P (64 * t + k + 1) s' ∧ Inv2 P (64 * t + k + 1) s' ∧
    (s'.rm1.dr = s.rm1.dr ∧ s'.rm1.di = s.rm1.di) ∧ (s'.rm2.dr = s.rm2.dr ∧ s'.rm2.di = s.rm2.di) := by
  obtain ⟨a1, -, -⟩ := at_step h.rm1 r1.1 r1.2
  obtain ⟨a2, -, -⟩ := at_step h.rm2 r2.1 r2.2
  have e : Real.sin (s.phase + s.rel1.v * s.rm1.process.r + s.rel2.v * s.rm2.process.r + s.last + s.offset.v) = Spec.fm2 P (64 * t + k) := by
    rw [a1.1, a2.1, h.phase, h.last, h2.rel1.2.2.2, h2.rel2.2.2.2, h2.offset.2.2.2]
    have t1 := turned_succ (fun t => min Real.pi ((P t).omega * (P t).ratio1 + (P t).shift)) t k hk
    have t2 := turned_succ (fun t => min Real.pi ((P t).omega * (P t).ratio2 - (P t).shift)) t k hk
    have e : Spec.fm2 P (64 * t + k) = Real.sin (Spec.inner P (64 * t + k) + echo P (64 * t + k)) := by
      cases 64 * t + k with
      | zero => simp [Spec.fm2, echo]
      | succ n => rfl
    rw [e]
    congr 1
    unfold Spec.inner Spec.modulation
    rw [t1, t2]
    simp only [← add_assoc]
    ring
  refine ⟨⟨s.phase + min Real.pi (P t).omega, Spec.fm2 P (64 * t + k) * s.feedback.v, s.rm1.process, s.rm2.process, s.fmDepth, s.rel1.process, s.rel2.process, s.feedback.process, s.offset.process, s.master⟩,
    ?_, ⟨?_, ?_, ?_, ?_⟩, ⟨fading_step h2.rel1, fading_step h2.rel2, fading_step h2.feedback, fading_step h2.offset⟩, ⟨rfl, rfl⟩, ⟨rfl, rfl⟩⟩
  · simp only [Fm2.sample, Bool.false_eq_true, if_false, Res.pure_eq, Res.ok_bind, e]
  · show s.phase + _ = _
    rw [h.phase]; unfold Spec.carrierPhase; rw [turned_succ _ t k hk]; ring
  · show _ * s.feedback.v = 0.996 ^ (64 * t + k) * (P 0).feedback * _
    rw [h2.feedback.2.2.2]; ring
  · rw [turned_succ _ t k hk, ← add_assoc]; exact a1
  · rw [turned_succ _ t k hk, ← add_assoc]; exact a2

theorem loop_inv {P : ℕ → Fm2.Params} {t : ℕ} {s : Fm2.State} (h : Inv P (64 * t) s) (h2 : Inv2 P (64 * t) s)
    (r1 : s.rm1.dr = Real.cos (min Real.pi ((P t).omega * (P t).ratio1 + (P t).shift)) ∧ s.rm1.di = Real.sin (min Real.pi ((P t).omega * (P t).ratio1 + (P t).shift)))
    (r2 : s.rm2.dr = Real.cos (min Real.pi ((P t).omega * (P t).ratio2 - (P t).shift)) ∧ s.rm2.di = Real.sin (min Real.pi ((P t).omega * (P t).ratio2 - (P t).shift))) (k : ℕ) (hk : k ≤ 64) :
    ∃ s', loop (Fm2.sample (min Real.pi (P t).omega) false) k s = .ok (s', (List.range k).map fun j => Spec.fm2 P (64 * t + j)) ∧ Inv P (64 * t + k) s' ∧ Inv2 P (64 * t + k) s' ∧
      (s'.rm1.dr = s.rm1.dr ∧ s'.rm1.di = s.rm1.di) ∧ (s'.rm2.dr = s.rm2.dr ∧ s'.rm2.di = s.rm2.di) := by
  induction k with
  | zero => exact ⟨s, rfl, h, h2, ⟨rfl, rfl⟩, ⟨rfl, rfl⟩⟩
  | succ k ih =>
    obtain ⟨s1, e1, i1, j1, p1, q1⟩ := ih (by omega)
    obtain ⟨s2, e2, i2, j2, p2, q2⟩ := sample_inv (t := t) (k := k) (by omega) i1 j1 ⟨p1.1.trans r1.1, p1.2.trans r1.2⟩ ⟨q1.1.trans r2.1, q1.2.trans r2.2⟩
    refine ⟨s2, ?_, i2, j2, ⟨p2.1.trans p1.1, p2.2.trans p1.2⟩, ⟨q2.1.trans q1.1, q2.2.trans q1.2⟩⟩
    simp only [loop, e1, e2, Res.ok_bind, Res.pure_eq, List.range_succ, List.map_append, List.map_cons, List.map_nil]

theorem calcmd_eq (x : ℝ) : Fm2.calcmd x = x ^ 3 * (8 * Real.pi) := by unfold Fm2.calcmd; ring

theorem block_inv {P : ℕ → Fm2.Params} {t : ℕ} {s : Fm2.State} (hf : (P t).fm = false) (h : Inv P (64 * t) s)
    (h2 : Inv2 P (64 * t) s ∨ t = 0 ∧ s.rel1 = .new 0 ∧ s.rel2 = .new 0 ∧ s.feedback = .new 0 ∧ s.offset = .new 0) :
    ∃ s', Fm2.block (P t) s = .ok (s', (List.range 64).map fun j => Spec.fm2 P (64 * t + j)) ∧ Inv P (64 * (t + 1)) s' ∧ Inv2 P (64 * (t + 1)) s' := by
  obtain ⟨m1, e1, a1, r1⟩ := at_rate h.rm1 (min Real.pi ((P t).omega * (P t).ratio1 + (P t).shift))
  obtain ⟨m2, e2, a2, r2⟩ := at_rate h.rm2 (min Real.pi ((P t).omega * (P t).ratio2 - (P t).shift))
  set s1 : Fm2.State := ⟨s.phase, s.last, m1, m2, s.fmDepth, s.rel1.newValue (Fm2.calcmd (P t).amount1), s.rel2.newValue (Fm2.calcmd (P t).amount2), s.feedback.newValue (P t).feedback,
    s.offset.newValue (2 * Real.pi * (P t).startPhase), s.master⟩ with hs1
  have i1 : Inv P (64 * t) s1 := ⟨h.phase, h.last, a1, a2⟩
  have i2 : Inv2 P (64 * t) s1 := by
    rcases h2 with h2 | ⟨rfl, b1, b2, b3, b4⟩
    · exact ⟨fading_value h2.rel1 _, fading_value h2.rel2 _, fading_value h2.feedback _, fading_value h2.offset _⟩
    · refine ⟨?_, ?_, ?_, ?_⟩
      · show Fading (s.rel1.newValue _) _ 0; rw [b1, calcmd_eq]; exact fading_new _
      · show Fading (s.rel2.newValue _) _ 0; rw [b2, calcmd_eq]; exact fading_new _
      · show Fading (s.feedback.newValue _) _ 0; rw [b3]; exact fading_new _
      · show Fading (s.offset.newValue _) _ 0; rw [b4]; exact fading_new _
  obtain ⟨s', e, j1, j2, -⟩ := loop_inv i1 i2 r1 r2 64 le_rfl
  refine ⟨s', ?_, j1, j2⟩
  simp only [Fm2.block, e1, e2, Res.ok_bind, hf, Bool.false_eq_true, if_false]
  exact e

theorem init_inv (P : ℕ → Fm2.Params) : Inv P 0 (Fm2.init (P 0) Fm2.new) := by
  refine ⟨?_, rfl, ⟨?_, ?_⟩, ⟨?_, ?_⟩⟩
  · simp only [Fm2.init, calcmd_eq, Real.sin_neg, Spec.carrierPhase, Spec.turned, Finset.range_zero, Finset.sum_empty]; ring
  all_goals simp [Fm2.init, Quad.setPhase, Spec.turned]

/-- **C156.** As long as it is not modulated from outside, FM2 plays the FM formula — a carrier and two modulators whose phases are the sums of their frequencies sample for sample, through every change of
pitch, ratio and shift from block to block — and it never fails.  The depths of the modulators, the feedback and the phase offset come in with the values of the first block times 0.996ⁿ (see C157). -/
theorem C156_formula (P : ℕ → Fm2.Params) (hf : ∀ t, (P t).fm = false) : ∃ S out, Spec.Fm2Run P S out ∧ ∀ t, out t = (List.range 64).map fun k => Spec.fm2 P (64 * t + k) := by
  have ex : ∀ t s, ∃ s', Inv P (64 * t) s → (Inv2 P (64 * t) s ∨ t = 0 ∧ s.rel1 = .new 0 ∧ s.rel2 = .new 0 ∧ s.feedback = .new 0 ∧ s.offset = .new 0) →
      Fm2.block (P t) s = .ok (s', (List.range 64).map fun j => Spec.fm2 P (64 * t + j)) ∧ Inv P (64 * (t + 1)) s' ∧ Inv2 P (64 * (t + 1)) s' := fun t s => by
    by_cases h : Inv P (64 * t) s
    · by_cases h2 : Inv2 P (64 * t) s ∨ t = 0 ∧ s.rel1 = .new 0 ∧ s.rel2 = .new 0 ∧ s.feedback = .new 0 ∧ s.offset = .new 0
      · obtain ⟨s', e⟩ := block_inv (hf t) h h2
        exact ⟨s', fun _ _ => e⟩
      · exact ⟨s, fun _ h => absurd h h2⟩
    · exact ⟨s, fun h' => absurd h' h⟩
  choose f hfs using ex
  let S : ℕ → Fm2.State := fun t => Nat.rec (Fm2.init (P 0) Fm2.new) (fun t s => f t s) t
  have inv : ∀ t, Inv P (64 * t) (S t) ∧ (Inv2 P (64 * t) (S t) ∨ t = 0 ∧ (S t).rel1 = .new 0 ∧ (S t).rel2 = .new 0 ∧ (S t).feedback = .new 0 ∧ (S t).offset = .new 0) := fun t => by
    induction t with
    | zero => exact ⟨init_inv P, .inr ⟨rfl, rfl, rfl, rfl, rfl⟩⟩
    | succ t ih =>
      obtain ⟨-, a, b⟩ := hfs t (S t) ih.1 ih.2
      exact ⟨a, .inl b⟩
  exact ⟨S, fun t => (List.range 64).map fun k => Spec.fm2 P (64 * t + k), ⟨rfl, fun t => (hfs t (S t) (inv t).1 (inv t).2).1⟩, fun t => rfl⟩

/-- Two runs of the same blocks are the same. -/
theorem run_unique {P : ℕ → Fm2.Params} {S S' : ℕ → Fm2.State} {out out' : ℕ → List ℝ} (h : Spec.Fm2Run P S out) (h' : Spec.Fm2Run P S' out') : ∀ t, S t = S' t ∧ out t = out' t := by
  have key : ∀ t, S t = S' t := fun t => by
    induction t with
    | zero => rw [h.start, h'.start]
    | succ t ih =>
      have e := h.step t
      rw [ih, h'.step t] at e
      injection e with e
      injection e with e _
      exact e.symm
  refine fun t => ⟨key t, ?_⟩
  have e := h.step t
  rw [key t, h'.step t] at e
  injection e with e
  injection e with _ e
  exact e.symm

/-- **C156.** Every sample lies between −1 and 1. -/
theorem C156_bounded {P : ℕ → Fm2.Params} (hf : ∀ t, (P t).fm = false) {S : ℕ → Fm2.State} {out : ℕ → List ℝ} (h : Spec.Fm2Run P S out) (t : ℕ) : ∀ y ∈ out t, |y| ≤ 1 := by
  obtain ⟨S', out', h', e⟩ := C156_formula P hf
  intro y hy
  rw [(run_unique h h' t).2, e] at hy
  obtain ⟨k, -, rfl⟩ := List.mem_map.1 hy
  cases 64 * t + k <;> exact Real.abs_sin_le_one _

/-- **C156.** With the modulators and the feedback at nothing and the start phase at zero a pure sine comes out whose phase is continuous over any changes of pitch: it starts at 0 and advances by the
frequency of the block, limited to half the sample rate, at each sample. -/
theorem C156_pure (P : ℕ → Fm2.Params) (h1 : (P 0).amount1 = 0) (h2 : (P 0).amount2 = 0) (h3 : (P 0).feedback = 0) (h4 : (P 0).startPhase = 0) (n : ℕ) :
    Spec.fm2 P n = Real.sin (∑ m ∈ Finset.range n, min Real.pi (P (m / 64)).omega) := by
  cases n with
  | zero => simp [Spec.fm2, Spec.inner, Spec.carrierPhase, Spec.modulation, h1, h2, h4, Spec.turned]
  | succ n => simp [Spec.fm2, Spec.inner, Spec.carrierPhase, Spec.modulation, h1, h2, h3, h4, Spec.turned]

/-! ## C157: the depths -/

/-- **C157 (refutation).** The depths, the feedback and the start phase set after the first block have no effect: runs which agree in the first block and in the frequencies put out the same. -/
theorem C157_deaf_refuted {P Q : ℕ → Fm2.Params} (hP : ∀ t, (P t).fm = false) (hQ : ∀ t, (Q t).fm = false) (h0 : P 0 = Q 0)
    (hr : ∀ t, (P t).omega = (Q t).omega ∧ (P t).ratio1 = (Q t).ratio1 ∧ (P t).ratio2 = (Q t).ratio2 ∧ (P t).shift = (Q t).shift)
    {S S' : ℕ → Fm2.State} {out out' : ℕ → List ℝ} (h : Spec.Fm2Run P S out) (h' : Spec.Fm2Run Q S' out') (t : ℕ) : out t = out' t := by
  obtain ⟨T, o, r, e⟩ := C156_formula P hP
  obtain ⟨T', o', r', e'⟩ := C156_formula Q hQ
  rw [(run_unique h r t).2, (run_unique h' r' t).2, e, e']
  have i : ∀ n, Spec.inner P n = Spec.inner Q n := fun n => by
    unfold Spec.inner Spec.carrierPhase Spec.modulation Spec.turned
    simp only [h0, fun t => (hr t).1, fun t => (hr t).2.1, fun t => (hr t).2.2.1, fun t => (hr t).2.2.2]
  have k : ∀ n, Spec.fm2 P n = Spec.fm2 Q n := fun n => by
    induction n with
    | zero => simp only [Spec.fm2, i]
    | succ n ih => simp only [Spec.fm2, i, ih, h0]
  simp only [k]


theorem abs_sin_sub (a b : ℝ) : |Real.sin a - Real.sin b| ≤ |a - b| := by
  rw [Real.sin_sub_sin, abs_mul, abs_mul]
  have h1 : |Real.sin ((a - b) / 2)| ≤ |(a - b) / 2| := Real.abs_sin_le_abs
  have h2 := Real.abs_cos_le_one ((a + b) / 2)
  have e : |(a - b) / 2| = |a - b| / 2 := by rw [abs_div, abs_of_pos (show (0 : ℝ) < 2 by norm_num)]
  rw [e] at h1
  have h3 := abs_nonneg (Real.cos ((a + b) / 2))
  have h4 := abs_nonneg (Real.sin ((a - b) / 2))
  rw [abs_of_pos (show (0 : ℝ) < 2 by norm_num)]
  nlinarith

/-- **C157 (refutation).** The modulation dies away, however the parameters are set: sample `n + 1` differs from the bare carrier by no more than a constant times 0.996ⁿ. -/
theorem C157_dies_refuted (P : ℕ → Fm2.Params) (n : ℕ) : |Spec.fm2 P (n + 1) - Real.sin (Spec.carrierPhase P (n + 1))| ≤
    0.996 ^ n * (8 * Real.pi * (|(P 0).amount1| ^ 3 + |(P 0).amount2| ^ 3) + 2 * Real.pi * |(P 0).startPhase| + |(P 0).feedback|) := by
  refine (abs_sin_sub _ _).trans ?_
  unfold Spec.inner
  rw [show Spec.carrierPhase P (n + 1) + 0.996 ^ (n + 1) * Spec.modulation P (n + 1) + 0.996 ^ n * (P 0).feedback * Spec.fm2 P n - Spec.carrierPhase P (n + 1) =
    0.996 ^ n * (0.996 * Spec.modulation P (n + 1) + (P 0).feedback * Spec.fm2 P n) by rw [pow_succ]; ring, abs_mul, abs_of_nonneg (show (0 : ℝ) ≤ 0.996 ^ n by positivity)]
  refine mul_le_mul_of_nonneg_left ?_ (by positivity)
  have y1 : |Spec.fm2 P n| ≤ 1 := by cases n <;> exact Real.abs_sin_le_one _
  have m1 : |Spec.modulation P (n + 1)| ≤ 8 * Real.pi * (|(P 0).amount1| ^ 3 + |(P 0).amount2| ^ 3) + 2 * Real.pi * |(P 0).startPhase| := by
    unfold Spec.modulation
    refine (abs_add_le _ _).trans (add_le_add ((abs_add_le _ _).trans ?_) ?_)
    · rw [mul_add]
      refine add_le_add ?_ ?_
      all_goals
        rw [abs_mul, abs_mul, abs_pow, abs_of_pos (show 0 < 8 * Real.pi by positivity), mul_comm (8 * Real.pi)]
        exact mul_le_of_le_one_right (by positivity) (Real.abs_sin_le_one _)
    · rw [abs_mul, abs_of_pos (show 0 < 2 * Real.pi by positivity)]
  refine (abs_add_le _ _).trans (add_le_add ?_ ?_)
  · rw [abs_mul, abs_of_pos (show (0 : ℝ) < 0.996 by norm_num)]
    have := abs_nonneg (Spec.modulation P (n + 1))
    norm_num; linarith
  · rw [abs_mul]; exact mul_le_of_le_one_right (abs_nonneg _) y1

/-! ## C158: the sine oscillator in its legacy mode -/

namespace Sine
open Verif.Effects.RingMod (carrier)

/-- A run of the sine oscillator after `init`. -/
structure Run (P : ℕ → Params) (S : ℕ → State) (out : ℕ → List ℝ) : Prop where
  start : S 0 = init new
  step : ∀ t, block (P t) (S t) = .ok (S (t + 1), out t)

theorem legacy_loop {P : ℕ → Params} {t : ℕ} {s : State} (h : At s.sine (Spec.turned (fun t => min Real.pi (P t).omega) (64 * t)))
    (r : s.sine.dr = Real.cos (min Real.pi (P t).omega) ∧ s.sine.di = Real.sin (min Real.pi (P t).omega)) (k : ℕ) (hk : k ≤ 64) :
    ∃ s', loop (legacy (P t).shape) k s = .ok (s', (List.range k).map fun j => carrier (Real.sin (Spec.turned (fun t => min Real.pi (P t).omega) (64 * t + j + 1)))
      (-Real.cos (Spec.turned (fun t => min Real.pi (P t).omega) (64 * t + j + 1))) (P t).shape) ∧ At s'.sine (Spec.turned (fun t => min Real.pi (P t).omega) (64 * t + k)) ∧
      s'.sine.dr = s.sine.dr ∧ s'.sine.di = s.sine.di := by
  induction k with
  | zero => exact ⟨s, rfl, h, rfl, rfl⟩
  | succ k ih =>
    obtain ⟨s1, e1, a1, b1, c1⟩ := ih (by omega)
    obtain ⟨a2, -, -⟩ := at_step a1 (b1.trans r.1) (c1.trans r.2)
    rw [← turned_succ (fun t => min Real.pi (P t).omega) t k (by omega)] at a2
    refine ⟨⟨s1.sine.process, s1.phase, s1.fmDepth, s1.feedback, s1.last, s1.master⟩, ?_, a2, b1, c1⟩
    simp only [loop, e1, Res.ok_bind, Res.pure_eq, legacy, List.range_succ, List.map_append, List.map_cons, List.map_nil, ← a2.1, ← a2.2]

end Sine

open Verif.Effects.RingMod (carrier) in
/-- **C158.** In its legacy mode and without FM the sine oscillator never fails; at each sample it plays the chosen shape at a phase that advances by the frequency of the block, limited to half the sample rate,
through every change of pitch and shape — the shape being given the sine and *minus* the cosine of the phase. -/
theorem C158_legacy (P : ℕ → Sine.Params) (hb : ∀ t, (P t).behavior = 0) (hf : ∀ t, (P t).fm = false) : ∃ S out, Sine.Run P S out ∧ ∀ t, out t = (List.range 64).map fun k =>
    carrier (Real.sin (∑ m ∈ Finset.range (64 * t + k + 1), min Real.pi (P (m / 64)).omega)) (-Real.cos (∑ m ∈ Finset.range (64 * t + k + 1), min Real.pi (P (m / 64)).omega)) (P t).shape := by
  have ex : ∀ t s, ∃ s', At s.sine (Spec.turned (fun t => min Real.pi (P t).omega) (64 * t)) →
      Sine.block (P t) s = .ok (s', (List.range 64).map fun k => carrier (Real.sin (Spec.turned (fun t => min Real.pi (P t).omega) (64 * t + k + 1)))
        (-Real.cos (Spec.turned (fun t => min Real.pi (P t).omega) (64 * t + k + 1))) (P t).shape) ∧ At s'.sine (Spec.turned (fun t => min Real.pi (P t).omega) (64 * (t + 1))) := fun t s => by
    by_cases h : At s.sine (Spec.turned (fun t => min Real.pi (P t).omega) (64 * t))
    · obtain ⟨q, e, a, r⟩ := at_rate h (min Real.pi (P t).omega)
      obtain ⟨s', e', a', -⟩ := Sine.legacy_loop (P := P) (t := t) (s := { s with sine := q }) a r 64 le_rfl
      refine ⟨s', fun _ => ⟨?_, a'⟩⟩
      simp only [Sine.block, hb, hf, Bool.false_eq_true, if_true, if_false, e, Res.ok_bind]
      exact e'
    · exact ⟨s, fun h' => absurd h' h⟩
  choose f hfs using ex
  let S : ℕ → Sine.State := fun t => Nat.rec (Sine.init Sine.new) (fun t s => f t s) t
  have inv : ∀ t, At (S t).sine (Spec.turned (fun t => min Real.pi (P t).omega) (64 * t)) := fun t => by
    induction t with
    | zero => exact ⟨by simp [S, Sine.init, Quad.setPhase, Spec.turned], by simp [S, Sine.init, Quad.setPhase, Spec.turned]⟩
    | succ t ih => exact (hfs t (S t) ih).2
  exact ⟨S, _, ⟨rfl, fun t => (hfs t (S t) (inv t)).1⟩, fun t => rfl⟩

open Verif.Effects.RingMod (carrier) in
/-- **C158.** Every shape keeps the samples between −1 and 1. -/
theorem C158_bounded (θ : ℝ) (shape : ℤ) : |carrier (Real.sin θ) (-Real.cos θ) shape| ≤ 1 ∧ |carrier (Real.sin θ) (Real.cos θ) shape| ≤ 1 := by
  have key : ∀ s c : ℝ, s ^ 2 + c ^ 2 = 1 → |carrier s c shape| ≤ 1 := fun s c h => by
    have p1 : 2 * s * c ≤ 1 := by nlinarith [sq_nonneg (s - c)]
    have p2 : -1 ≤ 2 * s * c := by nlinarith [sq_nonneg (s + c)]
    have b1 : -1 ≤ s := by nlinarith [sq_nonneg c]
    have b2 : s ≤ 1 := by nlinarith [sq_nonneg c]
    have b3 : -1 ≤ c := by nlinarith [sq_nonneg s]
    have b4 : c ≤ 1 := by nlinarith [sq_nonneg s]
    rw [abs_le]
    generalize hp : 2 * s * c = p at *
    unfold carrier
    rw [hp]
    by_cases hs0 : 0 < s <;> by_cases hc0 : 0 < c <;> simp only [hs0, hc0, if_true, if_false, Nat.reduceEqDiff, or_true, or_false, false_or, true_or, Nat.reduceLeDiff] <;>
      (split_ifs <;> constructor <;> linarith)
  exact ⟨key _ _ (by rw [neg_sq]; exact Real.sin_sq_add_cos_sq θ), key _ _ (Real.sin_sq_add_cos_sq θ)⟩

open Verif.Effects.RingMod (carrier) in
/-- **C158 (refutation).** The legacy mode with FM and the newer mode give the shape plus the cosine: what the legacy mode without FM plays for shape 2 is what the others play for shape 3, and the other way
round, except where the cosine is zero. -/
theorem C158_swapped_refuted {θ : ℝ} (h : Real.cos θ ≠ 0) : carrier (Real.sin θ) (-Real.cos θ) 2 = carrier (Real.sin θ) (Real.cos θ) 3 ∧
    carrier (Real.sin θ) (-Real.cos θ) 3 = carrier (Real.sin θ) (Real.cos θ) 2 := by
  rcases lt_or_gt_of_ne h with h | h
  · have a : 0 < -Real.cos θ := by linarith
    have b : ¬ 0 < Real.cos θ := by linarith
    constructor <;> unfold carrier <;> simp only [a, b, if_true, if_false] <;> by_cases hs : 0 < Real.sin θ <;> simp [hs]
  · have a : ¬ 0 < -Real.cos θ := by linarith
    constructor <;> unfold carrier <;> simp only [a, h, if_true, if_false] <;> by_cases hs : 0 < Real.sin θ <;> simp [hs]

/-! ## C159: the null pointer -/

theorem loop_panic {σ : Type} {f : ℕ → σ → R (σ × ℝ)} {s : σ} {w : String} (h : f 0 s = .panic w) (n : ℕ) : loop f (n + 1) s = .panic w := by
  induction n with
  | zero => simp only [loop, h, Res.ok_bind, Res.panic_bind]
  | succ n ih => rw [loop, ih]; rfl

theorem loop_keeps {σ : Type} {f : ℕ → σ → R (σ × ℝ)} {p : σ → Prop} (h : ∀ k s s' y, p s → f k s = .ok (s', y) → p s') (n : ℕ) {s s' : σ} {ys : List ℝ} (hs : p s) (e : loop f n s = .ok (s', ys)) : p s' := by
  induction n generalizing s' ys with
  | zero => simp only [loop] at e; injection e with e; injection e with e _; exact e ▸ hs
  | succ n ih =>
    simp only [loop] at e
    cases e1 : loop f n s with
    | ok a =>
      rw [e1] at e
      obtain ⟨s1, y1⟩ := a
      simp only [Res.ok_bind] at e
      cases e2 : f n s1 with
      | ok b =>
        rw [e2] at e
        obtain ⟨s2, y2⟩ := b
        simp only [Res.ok_bind, Res.pure_eq] at e
        injection e with e
        injection e with e _
        exact e ▸ h _ _ _ _ (ih e1) e2
      | err _ => rw [e2] at e; cases e
      | panic _ => rw [e2] at e; cases e
    | err _ => rw [e1] at e; cases e
    | panic _ => rw [e1] at e; cases e

/-- The states a caller can bring a sine oscillator into. -/
inductive Spec.SineReach : Sine.State → Prop
  | new : Spec.SineReach Sine.new
  | init {s} : Spec.SineReach s → Spec.SineReach (Sine.init s)
  | assign {s} (m : ℕ → ℝ) : Spec.SineReach s → Spec.SineReach (Sine.assignFm s m)
  | block {s s' ys} (P : Sine.Params) : Spec.SineReach s → Sine.block P s = .ok (s', ys) → Spec.SineReach s'

theorem sine_master {s : Sine.State} (h : Spec.SineReach s) : s.master = none := by
  induction h with
  | new => rfl
  | init _ ih => exact ih
  | assign _ _ ih => exact ih
  | @block s s' ys P _ e ih =>
    unfold Sine.block at e
    have np : ∀ (f : ℕ → Sine.State → R (Sine.State × ℝ)) (s : Sine.State) (w : String), f 0 s = .panic w → loop f 64 s = .ok (s', ys) → s'.master = none := fun f s w h e => by
      rw [loop_panic h 63] at e; cases e
    by_cases hb : P.behavior = 0
    · rw [if_pos hb] at e
      by_cases hf : P.fm
      · rw [if_pos hf] at e
        exact np _ _ "null pointer read" (by simp [Sine.legacyFm, load, ih]) e
      · rw [if_neg hf] at e
        cases hq : setRate s.sine (min Real.pi P.omega) with
        | ok q =>
          rw [hq, Res.ok_bind] at e
          exact loop_keeps (p := fun s : Sine.State => s.master = none) (fun k s s' y hs e => by
            simp only [Sine.legacy] at e; injection e with e; injection e with e _; rw [← e]; exact hs) 64 (by exact ih) e
        | err _ => rw [hq] at e; cases e
        | panic _ => rw [hq] at e; cases e
    · rw [if_neg hb] at e
      exact np _ _ "null pointer read" (by simp [Sine.sample, load, ih]) e

/-- **C159 (refutation).** `assign_fm` does nothing, so the pointer to the modulating oscillator is never set.  In its default mode the sine oscillator reads through it at the first sample of every block, FM or
not; in legacy mode it does so under FM. -/
theorem C159_sine_refuted {s : Sine.State} (h : Spec.SineReach s) (P : Sine.Params) (hP : P.behavior ≠ 0 ∨ P.fm = true) : ∃ w, Sine.block P s = .panic w := by
  have m := sine_master h
  unfold Sine.block
  by_cases hb : P.behavior = 0
  · rw [if_pos hb, if_pos (hP.resolve_left (by simpa using hb))]
    exact ⟨_, loop_panic (w := "null pointer read") (by simp [Sine.legacyFm, load, m]) 63⟩
  · rw [if_neg hb]
    exact ⟨_, loop_panic (w := "null pointer read") (by simp [Sine.sample, load, m]) 63⟩

/-- The default parameters are such. -/
example (omega : ℝ) : (Sine.defaults omega).behavior ≠ 0 ∧ (Sine.defaults omega).fm = false := by simp [Sine.defaults]

/-- A quadrature oscillator on the unit circle. -/
def Unit1 (q : Quad) : Prop := q.r * q.r + q.i * q.i = 1

theorem unit_rate {q : Quad} (h : Unit1 q) (w : ℝ) : ∃ q', setRate q w = .ok q' ∧ Unit1 q' ∧ q'.dr * q'.dr + q'.di * q'.di = 1 := by
  unfold setRate Quad.setRate
  have h' : q.r * q.r + q.i * q.i = 1 := h
  rw [if_neg (by rw [h']; norm_num), h']
  refine ⟨_, rfl, ?_, ?_⟩
  · unfold Unit1; simp [h']
  · show Real.cos w * Real.cos w + Real.sin w * Real.sin w = 1
    nlinarith [Real.sin_sq_add_cos_sq w]

theorem unit_phase (q : Quad) (w : ℝ) : Unit1 (q.setPhase w) := by
  show Real.sin w * Real.sin w + -Real.cos w * -Real.cos w = 1
  nlinarith [Real.sin_sq_add_cos_sq w]

theorem unit_default : Unit1 Quad.default := by simp [Unit1, Quad.default]

theorem unit_step {q : Quad} (h : Unit1 q) (h2 : q.dr * q.dr + q.di * q.di = 1) : Unit1 q.process := by
  show (q.dr * q.r - q.di * q.i) * (q.dr * q.r - q.di * q.i) + (q.dr * q.i + q.di * q.r) * (q.dr * q.i + q.di * q.r) = 1
  have : (q.dr * q.r - q.di * q.i) * (q.dr * q.r - q.di * q.i) + (q.dr * q.i + q.di * q.r) * (q.dr * q.i + q.di * q.r) = (q.dr * q.dr + q.di * q.di) * (q.r * q.r + q.i * q.i) := by ring
  rw [this, h2, show q.r * q.r + q.i * q.i = 1 from h]; norm_num

/-- The states a caller can bring an FM oscillator into. -/
inductive Spec.FmReach : Fm.State → Prop
  | new : Spec.FmReach Fm.new
  | init {s} : Spec.FmReach s → Spec.FmReach (Fm.init s)
  | assign {s} (m : ℕ → ℝ) : Spec.FmReach s → Spec.FmReach (Fm.assignFm s m)
  | block {s s' ys} (P : Fm.Params) : Spec.FmReach s → Fm.block P s = .ok (s', ys) → Spec.FmReach s'

theorem fm_panics {s : Fm.State} (P : Fm.Params) (h : s.master = none) (h1 : Unit1 s.rm1) (h2 : Unit1 s.rm2) (h3 : Unit1 s.am) : ∃ w, Fm.block P s = .panic w := by
  obtain ⟨q1, e1, -⟩ := unit_rate h1 (min Real.pi (P.omega * P.ratio1))
  obtain ⟨q2, e2, -⟩ := unit_rate h2 (min Real.pi (P.omega * P.ratio2))
  obtain ⟨q3, e3, -⟩ := unit_rate h3 (min Real.pi P.omega3)
  simp only [Fm.block, e1, e2, e3, Res.ok_bind]
  exact ⟨_, loop_panic (w := "null pointer read") (by simp [Fm.sample, load, h]) 63⟩

/-- **C159 (refutation).** The FM oscillator reads through the null pointer at the first sample of every block, whatever its parameters, whether or not it is modulated. -/
theorem C159_fm_refuted {s : Fm.State} (h : Spec.FmReach s) (P : Fm.Params) : ∃ w, Fm.block P s = .panic w := by
  have inv : s.master = none ∧ Unit1 s.rm1 ∧ Unit1 s.rm2 ∧ Unit1 s.am := by
    induction h with
    | new => exact ⟨rfl, unit_default, unit_default, unit_default⟩
    | init _ ih => exact ⟨ih.1, unit_phase _ _, unit_phase _ _, unit_phase _ _⟩
    | assign _ _ ih => exact ih
    | block P _ e ih => obtain ⟨w, e'⟩ := fm_panics P ih.1 ih.2.1 ih.2.2.1 ih.2.2.2; rw [e'] at e; cases e
  exact fm_panics P inv.1 inv.2.1 inv.2.2.1 inv.2.2.2

/-- The states a caller can bring an FM2 oscillator into. -/
inductive Spec.Fm2Reach : Fm2.State → Prop
  | new : Spec.Fm2Reach Fm2.new
  | init {s} (P : Fm2.Params) : Spec.Fm2Reach s → Spec.Fm2Reach (Fm2.init P s)
  | assign {s} (m : ℕ → ℝ) : Spec.Fm2Reach s → Spec.Fm2Reach (Fm2.assignFm s m)
  | block {s s' ys} (P : Fm2.Params) : Spec.Fm2Reach s → Fm2.block P s = .ok (s', ys) → Spec.Fm2Reach s'

theorem fm2_total {s : Fm2.State} (P : Fm2.Params) (h : s.master = none) (h1 : Unit1 s.rm1) (h2 : Unit1 s.rm2) :
    (P.fm = true → ∃ w, Fm2.block P s = .panic w) ∧ (P.fm = false → ∃ s' ys, Fm2.block P s = .ok (s', ys) ∧ s'.master = none ∧ Unit1 s'.rm1 ∧ Unit1 s'.rm2) := by
  obtain ⟨q1, e1, a1, b1⟩ := unit_rate h1 (min Real.pi (P.omega * P.ratio1 + P.shift))
  obtain ⟨q2, e2, a2, b2⟩ := unit_rate h2 (min Real.pi (P.omega * P.ratio2 - P.shift))
  simp only [Fm2.block, e1, e2, Res.ok_bind]
  constructor
  · intro hf
    rw [hf]
    exact ⟨_, loop_panic (w := "null pointer read") (by simp [Fm2.sample, load, h]) 63⟩
  · intro hf
    rw [hf]
    simp only [Bool.false_eq_true, if_false]
    have key : ∀ (n : ℕ) (s : Fm2.State), s.master = none → Unit1 s.rm1 → Unit1 s.rm2 → s.rm1.dr * s.rm1.dr + s.rm1.di * s.rm1.di = 1 → s.rm2.dr * s.rm2.dr + s.rm2.di * s.rm2.di = 1 →
        ∃ s' ys, loop (Fm2.sample (min Real.pi P.omega) false) n s = .ok (s', ys) ∧ s'.master = none ∧ Unit1 s'.rm1 ∧ Unit1 s'.rm2 ∧ s'.rm1.dr * s'.rm1.dr + s'.rm1.di * s'.rm1.di = 1 ∧
          s'.rm2.dr * s'.rm2.dr + s'.rm2.di * s'.rm2.di = 1 := by
      intro n s c1 c2 c3 c4 c5
      induction n with
      | zero => exact ⟨s, [], rfl, c1, c2, c3, c4, c5⟩
      | succ n ih =>
        obtain ⟨s', ys, e, d1, d2, d3, d4, d5⟩ := ih
        simp only [loop, e, Res.ok_bind, Fm2.sample, Bool.false_eq_true, if_false, Res.pure_eq]
        exact ⟨_, _, rfl, d1, unit_step d2 d4, unit_step d3 d5, d4, d5⟩
    obtain ⟨s', ys, e, d1, d2, d3, -⟩ := key 64 ⟨s.phase, s.last, q1, q2, s.fmDepth, s.rel1.newValue (Fm2.calcmd P.amount1), s.rel2.newValue (Fm2.calcmd P.amount2), s.feedback.newValue P.feedback,
      s.offset.newValue (2 * Real.pi * P.startPhase), s.master⟩ h a1 a2 b1 b2
    exact ⟨s', ys, e, d1, d2, d3⟩

/-- **C159.** In every state a caller can reach, FM2 plays a block when it is not modulated, and (refuting the rest) reads through the null pointer when it is. -/
theorem C159_fm2_partial {s : Fm2.State} (h : Spec.Fm2Reach s) (P : Fm2.Params) : (P.fm = true → ∃ w, Fm2.block P s = .panic w) ∧ (P.fm = false → ∃ s' ys, Fm2.block P s = .ok (s', ys)) := by
  have inv : s.master = none ∧ Unit1 s.rm1 ∧ Unit1 s.rm2 := by
    induction h with
    | new => exact ⟨rfl, unit_default, unit_default⟩
    | init P _ ih => exact ⟨ih.1, unit_phase _ _, unit_phase _ _⟩
    | assign _ _ ih => exact ih
    | @block s s' ys P _ e ih =>
      cases hf : P.fm with
      | true => obtain ⟨w, e'⟩ := (fm2_total P ih.1 ih.2.1 ih.2.2).1 hf; rw [e'] at e; cases e
      | false =>
        obtain ⟨s2, y2, e', k⟩ := (fm2_total P ih.1 ih.2.1 ih.2.2).2 hf
        rw [e'] at e
        injection e with e
        injection e with e _
        rw [← e]; exact k
  have := fm2_total P inv.1 inv.2.1 inv.2.2
  exact ⟨this.1, fun hf => by obtain ⟨s', ys, e, -⟩ := this.2 hf; exact ⟨s', ys, e⟩⟩

/-! ## C160: the audio input -/

/-- **C160.** The balance of the audio input: at −1 only the left channel is heard, at 1 only the right, with twice the gain; in the middle both with the gain as set; in between and beyond (where it is held at the
ends) the two gains are non-negative and add up to twice the gain.  In mono the two are added up, in stereo each stays on its side. -/
theorem C160_balance (g input x y : ℝ) (hg : 0 ≤ g) : ∃ a b, 0 ≤ a ∧ 0 ≤ b ∧ a + b = 2 * g ∧ audioMono g input x y = a * x + b * y ∧ audioStereo g input x y = (a * x, b * y) ∧
    (input ≤ -1 → a = 2 * g ∧ b = 0) ∧ (1 ≤ input → a = 0 ∧ b = 2 * g) ∧ (input = 0 → a = g ∧ b = g) ∧ (-1 ≤ input → input ≤ 1 → b - a = 2 * g * input) := by
  have l : -1 ≤ min (max input (-1)) 1 := le_min (le_max_right _ _) (by norm_num)
  have u : min (max input (-1)) 1 ≤ 1 := min_le_right _ _
  refine ⟨g * (1 - min (max input (-1)) 1), g * (1 + min (max input (-1)) 1), mul_nonneg hg (by linarith), mul_nonneg hg (by linarith), by ring, rfl, rfl, fun h => ?_, fun h => ?_, fun h => ?_, fun h h' => ?_⟩
  · rw [max_eq_right h, min_eq_left (by norm_num)]; constructor <;> ring
  · rw [max_eq_left (by linarith), min_eq_right h]; constructor <;> ring
  · rw [h]; norm_num
  · rw [max_eq_left h, min_eq_left h']; ring

/-- A run C156 speaks about, with everything moving: two modulators, feedback, start phase, changing pitch. -/
example : ∃ P : ℕ → Fm2.Params, (∀ t, (P t).fm = false) ∧ (P 0).amount1 = 0.5 ∧ (P 0).feedback = 0.3 ∧ (P 0).startPhase = 0.25 ∧ ∀ t, (P t).omega ≠ (P (t + 1)).omega :=
  ⟨fun t => ⟨1 / (t + 1), 2, 3, 0.5, 0.4, 0.001, 0.25, 0.3, false, 0⟩, fun _ => rfl, rfl, rfl, rfl, fun t h => by
    have h : (1 : ℝ) / (t + 1) = 1 / ((t + 1 : ℕ) + 1) := h
    push_cast at h
    have p : (0 : ℝ) < t + 1 := by positivity
    rw [div_eq_div_iff (by linarith) (by linarith)] at h
    linarith⟩

end Verif.Osc
