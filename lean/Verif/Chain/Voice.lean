import Verif.Chain.Lanes
import Mathlib.Algebra.Order.Archimedean.Real.Basic
/-!
# How a voice sets up its lane (surge-voice), and the ramps of a block (C124), and where its samples go (C127)
-/
namespace Verif.Chain

variable {L : Type}

/-- surge-voice/src/filter.rs 3-19: what a voice remembers of its lane from block to block (not the filter registers and delay lines). -/
structure Fbp where
  gain : ℝ
  fb : ℝ
  mix1 : ℝ
  mix2 : ℝ
  outL : ℝ
  outR : ℝ
  out2L : ℝ
  out2R : ℝ
  drive : ℝ
  wsLpf : ℝ
  fbL : ℝ
  fbR : ℝ

/-- surge-types/src/filter.rs 112-129. -/
def Config.isDual (c : Config) : Bool := c = .dual1 || c = .dual2
/-- surge-types/src/filter.rs 123-125. -/
def Config.isStereo (c : Config) : Bool := c = .stereo
/-- surge-types/src/filter.rs 127-129. -/
def Config.isWide (c : Config) : Bool := c = .wide

/-- surge-voice/src/set_qfb.rs 43-54: the two mixes from the filter balance. -/
noncomputable def mixes (cfg : Config) (balance : ℝ) : ℝ × ℝ :=
  if cfg.isDual || cfg.isStereo then (0.5 - 0.5 * balance, 0.5 + 0.5 * balance) else (min 1 (1 - balance), min 1 (1 + balance))

/-- The targets a voice computes for a block: gain (level times envelope), drive, feedback and filter balance. -/
structure Targets where
  gain : ℝ
  drive : ℝ
  feedback : ℝ
  balance : ℝ

/-- The four output levels of `calc_pan`. -/
structure Levels where
  l : ℝ
  r : ℝ
  l2 : ℝ
  r2 : ℝ

/-- surge-voice/src/set_qfb.rs 23-163: `set_quad_filterblock` with a chain, for lane `e`; the coefficients and registers of the filter units are left out. `set1f` writes one lane;
`BLOCK_SIZE_OS_INV = 1/64`. -/
noncomputable def setQuadFilterblock (cfg : Config) (t : Targets) (f : Fbp) (c : ChainState (Fin 4 → L)) (e : Fin 4) : Fbp × ChainState (Fin 4 → L) :=
  let m := mixes cfg t.balance
  let c := { c with gain := Function.update c.gain e f.gain, dGain := Function.update c.dGain e ((t.gain - f.gain) * (1 / 64)) }
  let c := { c with drive := Function.update c.drive e f.drive, dDrive := Function.update c.dDrive e ((t.drive - f.drive) * (1 / 64)) }
  let c := { c with feedback := Function.update c.feedback e f.fb, dFeedback := Function.update c.dFeedback e ((t.feedback - f.fb) * (1 / 64)) }
  let c := { c with mix1 := Function.update c.mix1 e f.mix1, dMix1 := Function.update c.dMix1 e ((m.1 - f.mix1) * (1 / 64)) }
  let c := { c with mix2 := Function.update c.mix2 e f.mix2, dMix2 := Function.update c.dMix2 e ((m.2 - f.mix2) * (1 / 64)) }
  let f := { f with gain := t.gain, drive := t.drive, fb := t.feedback, mix1 := m.1, mix2 := m.2 }
  let c := { c with wsLpf := Function.update c.wsLpf e f.wsLpf, fbL := Function.update c.fbL e f.fbL, fbR := Function.update c.fbR e f.fbR }
  (f, { c with active := Function.update c.active e true })

/-- surge-voice/src/calc_pan.rs 41-75: the levels of lane `e`. -/
noncomputable def calcPan (cfg : Config) (a : Levels) (f : Fbp) (c : ChainState (Fin 4 → L)) (e : Fin 4) : Fbp × ChainState (Fin 4 → L) :=
  let (f, c) :=
    if cfg.isWide || cfg.isStereo then
      let c := { c with out2L := Function.update c.out2L e f.out2L, dout2L := Function.update c.dout2L e ((a.l2 - f.out2L) * (1 / 64)) }
      let c := { c with out2R := Function.update c.out2R e f.out2R, dout2R := Function.update c.dout2R e ((a.r2 - f.out2R) * (1 / 64)) }
      ({ f with out2L := a.l2, out2R := a.r2 }, c)
    else (f, c)
  let c := { c with outL := Function.update c.outL e f.outL, doutL := Function.update c.doutL e ((a.l - f.outL) * (1 / 64)) }
  let c := { c with outR := Function.update c.outR e f.outR, doutR := Function.update c.doutR e ((a.r - f.outR) * (1 / 64)) }
  ({ f with outL := a.l, outR := a.r }, c)

/-- surge-voice/src/process.rs 23 (`calc_ctrldata`, which ends in `calc_pan`) and 111: the voice's settings of a block. -/
noncomputable def setUp (cfg : Config) (t : Targets) (a : Levels) (f : Fbp) (c : ChainState (Fin 4 → L)) (e : Fin 4) : Fbp × ChainState (Fin 4 → L) :=
  let r := calcPan cfg a f c e
  setQuadFilterblock cfg t r.1 r.2 e

/-! ## Ramps -/

/-- What a block of `k` samples does to the ramped settings of a voice. -/
theorem state_ramps (cfg : Config) (p : Spec.Units L) (v : Spec.Voice L) (dl dr : ℕ → ℝ) (k : ℕ) :
    ((Spec.state cfg p v dl dr k).gain = v.gain + k * v.dGain ∧ (Spec.state cfg p v dl dr k).dGain = v.dGain) ∧
    ((Spec.state cfg p v dl dr k).feedback = (if cfg = .serial1 then v.feedback else v.feedback + k * v.dFeedback) ∧
      (Spec.state cfg p v dl dr k).dFeedback = v.dFeedback) ∧
    ((Spec.state cfg p v dl dr k).mix1 = (if (cfg = .serial1 ∨ cfg = .serial2 ∨ cfg = .serial3 ∨ cfg = .wide) ∧ Spec.frontOn p = false then v.mix1 else v.mix1 + k * v.dMix1) ∧
      (Spec.state cfg p v dl dr k).dMix1 = v.dMix1) ∧
    ((Spec.state cfg p v dl dr k).mix2 = (if cfg = .wide ∧ p.fb.isSome = false then v.mix2 else v.mix2 + k * v.dMix2) ∧
      (Spec.state cfg p v dl dr k).dMix2 = v.dMix2) ∧
    ((Spec.state cfg p v dl dr k).drive = (if p.ws.isSome then v.drive + k * v.dDrive else v.drive) ∧ (Spec.state cfg p v dl dr k).dDrive = v.dDrive) ∧
    ((Spec.state cfg p v dl dr k).outL = (if cfg = .stereo ∨ cfg = .wide then v.outL + 2 * k * v.doutL else v.outL + k * v.doutL) ∧
      (Spec.state cfg p v dl dr k).doutL = v.doutL) ∧
    ((Spec.state cfg p v dl dr k).outR = v.outR + k * v.doutR ∧ (Spec.state cfg p v dl dr k).doutR = v.doutR) ∧
    ((Spec.state cfg p v dl dr k).out2L = (if cfg = .stereo ∨ cfg = .wide then v.out2L + k * v.dout2L else v.out2L) ∧
      (Spec.state cfg p v dl dr k).dout2L = v.dout2L) ∧
    ((Spec.state cfg p v dl dr k).out2R = (if cfg = .stereo ∨ cfg = .wide then v.out2R + k * v.dout2R else v.out2R) ∧
      (Spec.state cfg p v dl dr k).dout2R = v.dout2R) := by
  induction k with
  | zero => simp [Spec.state]
  | succ k ih =>
    obtain ⟨⟨a1, a2⟩, ⟨b1, b2⟩, ⟨c1, c2⟩, ⟨d1, d2⟩, ⟨e1, e2⟩, ⟨f1, f2⟩, ⟨g1, g2⟩, ⟨h1, h2⟩, ⟨i1, i2⟩⟩ := ih
    have hf : Spec.frontOn p = true ∨ Spec.frontOn p = false := by cases Spec.frontOn p <;> simp
    have hb : p.fb.isSome = true ∨ p.fb.isSome = false := by cases p.fb <;> simp
    have hw : p.ws.isSome = true ∨ p.ws.isSome = false := by cases p.ws <;> simp
    simp only [Spec.state]
    set s := Spec.state cfg p v dl dr k
    cases cfg <;> rcases hf with hf | hf <;> rcases hb with hb | hb <;> rcases hw with hw | hw <;>
      simp only [hf, hb, hw, reduceCtorEq, or_false, false_or, or_true, true_or, if_true, if_false, false_and, and_false, and_self, and_true, true_and,
        Bool.false_eq_true, Bool.true_eq_false] at b1 c1 d1 e1 f1 h1 i1 <;>
      simp only [Spec.voice, Spec.serial1, Spec.serial2, Spec.serial3, Spec.dual1, Spec.dual2, Spec.ring, Spec.stereo, Spec.wide, Spec.mix1Of, Spec.driveOf,
        hf, hb, hw, reduceCtorEq, or_false, false_or, or_true, true_or, if_true, if_false, false_and, and_false, and_self, and_true, true_and,
        Bool.false_eq_true, Bool.true_eq_false, a1, a2, b1, b2, c1, c2, d1, d2, e1, e2, f1, f2, g1, g2, h1, h2, i1, i2] <;>
      push_cast <;> (and_intros <;> ring)

/-- **C124 (first part).** A voice sets up its lane and the block of 64 samples is played.  At its end the gain and the right level are exactly at the targets the voice computed; so are the
feedback (serial1 has none), the two mixes and the drive wherever the path uses them, the left level of the six one-signal paths, and the second pair of levels of the two others. -/
theorem C124_targets_partial (cfg : Config) (p : Spec.Units L) (t : Targets) (a : Levels) (f : Fbp) (c : ChainState (Fin 4 → L)) (e : Fin 4) (dl dr : ℕ → ℝ) :
    let v := Spec.state cfg p ((setUp cfg t a f c e).2.lane e) dl dr 64
    v.gain = t.gain ∧ v.outR = a.r ∧
    (cfg ≠ .serial1 → v.feedback = t.feedback) ∧
    (Spec.frontOn p = true ∨ cfg = .dual1 ∨ cfg = .dual2 ∨ cfg = .stereo ∨ cfg = .ring → v.mix1 = (mixes cfg t.balance).1) ∧
    (p.fb.isSome = true ∨ cfg ≠ .wide → v.mix2 = (mixes cfg t.balance).2) ∧
    (p.ws.isSome = true → v.drive = t.drive) ∧
    (cfg ≠ .stereo → cfg ≠ .wide → v.outL = a.l) ∧
    (cfg = .stereo ∨ cfg = .wide → v.out2L = a.l2 ∧ v.out2R = a.r2) := by
  intro v
  obtain ⟨⟨a1, -⟩, ⟨b1, -⟩, ⟨c1, -⟩, ⟨d1, -⟩, ⟨e1, -⟩, ⟨f1, -⟩, ⟨g1, -⟩, ⟨h1, -⟩, ⟨i1, -⟩⟩ := state_ramps cfg p ((setUp cfg t a f c e).2.lane e) dl dr 64
  refine ⟨?_, ?_, fun h => ?_, fun h => ?_, fun h => ?_, fun h => ?_, fun h h' => ?_, fun h => ?_⟩
  · rw [a1]; cases cfg <;> simp [setUp, calcPan, setQuadFilterblock, ChainState.lane, Config.isWide, Config.isStereo] <;> ring
  · rw [g1]; cases cfg <;> simp [setUp, calcPan, setQuadFilterblock, ChainState.lane, Config.isWide, Config.isStereo] <;> ring
  · rw [b1, if_neg h]; cases cfg <;> simp [setUp, calcPan, setQuadFilterblock, ChainState.lane, Config.isWide, Config.isStereo] <;> ring
  · rw [c1, if_neg]
    · cases cfg <;> simp [setUp, calcPan, setQuadFilterblock, ChainState.lane, Config.isWide, Config.isStereo] <;> ring
    · rintro ⟨h1, h2⟩
      rw [h2] at h
      rcases h1 with rfl | rfl | rfl | rfl <;> simp at h
  · rw [d1, if_neg]
    · cases cfg <;> simp [setUp, calcPan, setQuadFilterblock, ChainState.lane, Config.isWide, Config.isStereo] <;> ring
    · rintro ⟨rfl, h2⟩
      rw [h2] at h
      simp at h
  · rw [e1, if_pos h]; cases cfg <;> simp [setUp, calcPan, setQuadFilterblock, ChainState.lane, Config.isWide, Config.isStereo] <;> ring
  · rw [f1, if_neg (by simp [h, h'])]; cases cfg <;> simp [setUp, calcPan, setQuadFilterblock, ChainState.lane, Config.isWide, Config.isStereo] <;> ring
  · rw [h1, i1, if_pos h, if_pos h]
    rcases h with rfl | rfl <;> simp [setUp, calcPan, setQuadFilterblock, ChainState.lane, Config.isWide, Config.isStereo] <;> constructor <;> ring

/-- Setting up a lane leaves the other lanes alone. -/
theorem C124_other_lanes (cfg : Config) (t : Targets) (a : Levels) (f : Fbp) (c : ChainState (Fin 4 → L)) (e i : Fin 4) (h : i ≠ e) :
    (setUp cfg t a f c e).2.lane i = c.lane i := by
  cases cfg <;> simp [setUp, calcPan, setQuadFilterblock, ChainState.lane, Config.isWide, Config.isStereo, Function.update_of_ne h]

/-- The next block starts from the targets of this one: what the voice remembers. -/
theorem C124_continues (cfg : Config) (t t' : Targets) (a a' : Levels) (f : Fbp) (c c' : ChainState (Fin 4 → L)) (e e' : Fin 4) :
    let v := (setUp cfg t' a' (setUp cfg t a f c e).1 c' e').2.lane e'
    v.gain = t.gain ∧ v.feedback = t.feedback ∧ v.drive = t.drive ∧ (v.mix1, v.mix2) = mixes cfg t.balance ∧ v.outL = a.l ∧ v.outR = a.r ∧ v.active = true := by
  cases cfg <;> simp [setUp, calcPan, setQuadFilterblock, ChainState.lane, Config.isWide, Config.isStereo]

/-- **C124 (refutation).** In `stereo` and `wide` the first signal's left level overshoots: it moves twice as far as it should, ends the block at `2 · target - start`, and jumps back to the target
at the first sample of the next block. -/
theorem C124_left_overshoots_refuted (cfg : Config) (h : cfg = .stereo ∨ cfg = .wide) (p : Spec.Units L) (t : Targets) (a : Levels) (f : Fbp) (c : ChainState (Fin 4 → L)) (e : Fin 4)
    (dl dr : ℕ → ℝ) : (Spec.state cfg p ((setUp cfg t a f c e).2.lane e) dl dr 64).outL = 2 * a.l - f.outL := by
  obtain ⟨-, -, -, -, -, ⟨f1, -⟩, -⟩ := state_ramps cfg p ((setUp cfg t a f c e).2.lane e) dl dr 64
  rw [f1, if_pos h]
  rcases h with rfl | rfl <;> simp [setUp, calcPan, setQuadFilterblock, ChainState.lane, Config.isWide, Config.isStereo] <;> ring

/-- The mixes of a balance in range: both in [0, 1]; complementary in the dual and stereo paths; elsewhere the path the balance favours is full. -/
theorem C124_mixes (cfg : Config) {b : ℝ} (hb : |b| ≤ 1) :
    (0 ≤ (mixes cfg b).1 ∧ (mixes cfg b).1 ≤ 1) ∧ (0 ≤ (mixes cfg b).2 ∧ (mixes cfg b).2 ≤ 1) ∧
    (cfg = .dual1 ∨ cfg = .dual2 ∨ cfg = .stereo → (mixes cfg b).1 + (mixes cfg b).2 = 1) ∧
    (¬(cfg = .dual1 ∨ cfg = .dual2 ∨ cfg = .stereo) → max (mixes cfg b).1 (mixes cfg b).2 = 1 ∧ (mixes cfg b).1 + (mixes cfg b).2 = 2 - |b|) := by
  obtain ⟨h1, h2⟩ := abs_le.mp hb
  have hs : (cfg.isDual || cfg.isStereo) = true ↔ (cfg = .dual1 ∨ cfg = .dual2 ∨ cfg = .stereo) := by
    cases cfg <;> simp [Config.isDual, Config.isStereo]
  by_cases h : cfg = .dual1 ∨ cfg = .dual2 ∨ cfg = .stereo
  · have e : mixes cfg b = (0.5 - 0.5 * b, 0.5 + 0.5 * b) := if_pos (hs.mpr h)
    rw [e]
    refine ⟨⟨?_, ?_⟩, ⟨?_, ?_⟩, fun _ => ?_, fun hn => absurd h hn⟩ <;> norm_num <;> linarith
  · have e : mixes cfg b = (min 1 (1 - b), min 1 (1 + b)) := if_neg fun hh => h (hs.mp hh)
    rw [e]
    refine ⟨⟨le_min (by norm_num) (by linarith), min_le_left _ _⟩, ⟨le_min (by norm_num) (by linarith), min_le_left _ _⟩, fun hn => absurd hn h, fun _ => ?_⟩
    rcases le_total 0 b with h0 | h0
    · rw [abs_of_nonneg h0, min_eq_right (by linarith : 1 - b ≤ 1), min_eq_left (by linarith : (1 : ℝ) ≤ 1 + b)]
      exact ⟨max_eq_right (by linarith), by ring⟩
    · rw [abs_of_nonpos h0, min_eq_left (by linarith : (1 : ℝ) ≤ 1 - b), min_eq_right (by linarith : 1 + b ≤ 1)]
      exact ⟨max_eq_left (by linarith), by ring⟩

/-! ## Where the samples go -/

/-- surge-voice/src/process.rs 94-107: the 64 samples of the voice are stored at `dl.as_mut_ptr().offset(i + e)`, a pointer to a register, as one float: in lane 0 of register `i + e`.
The memory is registers by lane, the first 64 of which are `dl`; what follows them is not `dl`. -/
noncomputable def storeSamples (x : ℕ → ℝ) (e : ℕ) (mem : ℕ → V4) : ℕ → V4 :=
  (List.range 64).foldl (fun mem i => Function.update mem (i + e) (Function.update (mem (i + e)) 0 (x i))) mem

theorem store_eq (x : ℕ → ℝ) (e : ℕ) (mem : ℕ → V4) (n : ℕ) (k : ℕ) :
    ((List.range n).foldl (fun mem i => Function.update mem (i + e) (Function.update (mem (i + e)) 0 (x i))) mem) k =
      if e ≤ k ∧ k < n + e then Function.update (mem k) 0 (x (k - e)) else mem k := by
  induction n with
  | zero => simp
  | succ n ih =>
    rw [List.range_succ, List.foldl_append, List.foldl_cons, List.foldl_nil]
    by_cases hk : k = n + e
    · subst hk
      rw [Function.update_self, ih, if_neg (by omega), if_pos (by omega)]
      congr 2
      omega
    · rw [Function.update_of_ne hk, ih]
      by_cases h : e ≤ k ∧ k < n + e
      · rw [if_pos h, if_pos (by omega)]
      · rw [if_neg h, if_neg (by omega)]

/-- **C127 (what holds).** The first voice of a quad finds its samples in its lane, and touches nothing else. -/
theorem C127_first_voice_partial (x : ℕ → ℝ) (mem : ℕ → V4) (k : ℕ) :
    (k < 64 → storeSamples x 0 mem k 0 = x k) ∧ (∀ i : Fin 4, i ≠ 0 → storeSamples x 0 mem k i = mem k i) ∧ (64 ≤ k → storeSamples x 0 mem k = mem k) := by
  unfold storeSamples
  rw [store_eq]
  refine ⟨fun h => ?_, fun i hi => ?_, fun h => ?_⟩
  · rw [if_pos (by omega)]; simp
  · split
    · rw [Function.update_of_ne hi]
    · rfl
  · rw [if_neg (by omega)]

/-- **C127 (refutation).** No other voice does.  Whatever the four voices of a quad play: lanes 1, 2 and 3 keep what they held; lane 0 holds the samples of the last voice, three samples late, in place of the first
voice's; and the second, third and fourth voices write one, two and three registers past the end of the block. -/
theorem C127_lanes_refuted (x : Fin 4 → ℕ → ℝ) (mem : ℕ → V4) (k : ℕ) :
    let after := storeSamples (x 3) 3 (storeSamples (x 2) 2 (storeSamples (x 1) 1 (storeSamples (x 0) 0 mem)))
    (∀ i : Fin 4, i ≠ 0 → after k i = mem k i) ∧ (3 ≤ k → k < 67 → after k 0 = x 3 (k - 3)) ∧
    (∀ e : ℕ, 0 < e → e ≤ 3 → storeSamples (x 0) e mem 64 0 = x 0 (64 - e)) := by
  have h1 : ∀ (y : ℕ → ℝ) (e : ℕ) (m : ℕ → V4) (i : Fin 4), i ≠ 0 → storeSamples y e m k i = m k i := by
    intro y e m i hi
    unfold storeSamples
    rw [store_eq]
    split
    · rw [Function.update_of_ne hi]
    · rfl
  refine ⟨fun i hi => by simp only [h1 _ _ _ i hi], fun h3 h67 => ?_, fun e h0 h3 => ?_⟩
  · simp only [storeSamples]
    rw [store_eq, if_pos (by omega), Function.update_self]
  · unfold storeSamples
    rw [store_eq, if_pos (by omega), Function.update_self]

end Verif.Chain
