import Verif.Chain.Voice
import Verif.Rust
import Mathlib.Data.Real.Basic
import Mathlib.Tactic.Ring
import Mathlib.Tactic.Linarith
import Mathlib.Tactic.NormNum
/-!
# Pan, pitch, key tracking, filter switching and life time of a voice (surge-voice), in exact real arithmetic (C132-C136)

Rounding to `f32`/`f64` is not modelled.
-/
namespace Verif.Voice
open Verif.Chain

/-! ## Pan (C132) -/

/-- surge-math/src/pan.rs 4-15: `megapan_left`. -/
noncomputable def megapanLeft (pos : ℝ) : ℝ :=
  let pos := if pos > 2 then 2 else pos
  let pos := if pos < -2 then -2 else pos
  1 - 0.75 * pos - 0.25 * pos * pos

/-- surge-math/src/pan.rs 17-28: `megapan_right`. -/
noncomputable def megapanRight (pos : ℝ) : ℝ :=
  let pos := if pos > 2 then 2 else pos
  let pos := if pos < -2 then -2 else pos
  1 + 0.75 * pos - 0.25 * pos * pos

/-- surge-math/src/convert.rs 7-10: `amp_to_linear`. -/
noncomputable def ampToLinear (x : ℝ) : ℝ := max x 0 * max x 0 * max x 0

/-- The pan of the scene, its width and volume, and the pans of the two MIDI channels a voice listens to. -/
structure PanCfg where
  pan : ℝ
  width : ℝ
  volume : ℝ
  voicePan : ℝ
  mainPan : ℝ

/-- surge-voice/src/calc_pan.rs 24-40: the amplitude before panning. -/
noncomputable def panAmp (cfg : Config) (volume : ℝ) : ℝ :=
  let amp := 0.5 * ampToLinear volume
  if cfg.isWide then amp * 0.6666666 else if cfg.isStereo then amp * 1.3333333 else amp

/-- surge-voice/src/calc_pan.rs 14-72: the four output levels `calc_pan` asks for (the ramps to them are `Chain.calcPan`); the second pair is only used in the stereo and wide paths (elsewhere: left out of
the model, 0). -/
noncomputable def panLevels (cfg : Config) (p : PanCfg) : Levels :=
  let pan1 := max (-1) (min 1 (p.pan + p.voicePan + p.mainPan))
  let amp := panAmp cfg p.volume
  if cfg.isWide || cfg.isStereo then
    let pan1 := pan1 - p.width
    let pan2 := p.pan + p.width
    ⟨amp * megapanLeft pan1, amp * megapanRight pan1, amp * megapanLeft pan2, amp * megapanRight pan2⟩
  else ⟨amp * megapanLeft pan1, amp * megapanRight pan1, 0, 0⟩

/-- The pan the listener asks for: the sum of the three pans, limited to the range from left to right. -/
noncomputable def Spec.pan (p : PanCfg) : ℝ := max (-1) (min 1 (p.pan + p.voicePan + p.mainPan))

theorem pan_mem (p : PanCfg) : -1 ≤ Spec.pan p ∧ Spec.pan p ≤ 1 := ⟨le_max_left _ _, max_le (by norm_num) (min_le_left _ _)⟩

theorem left_eq {x : ℝ} (h1 : -2 ≤ x) (h2 : x ≤ 2) : megapanLeft x = 1 - 0.75 * x - 0.25 * x * x := by
  simp only [megapanLeft, if_neg (not_lt.mpr h2), if_neg (not_lt.mpr h1)]

theorem right_eq {x : ℝ} (h1 : -2 ≤ x) (h2 : x ≤ 2) : megapanRight x = 1 + 0.75 * x - 0.25 * x * x := by
  simp only [megapanRight, if_neg (not_lt.mpr h2), if_neg (not_lt.mpr h1)]

theorem left_neg (x : ℝ) : megapanLeft (-x) = megapanRight x := by
  unfold megapanLeft megapanRight
  by_cases h1 : x > 2
  · have a : ¬ -x > 2 := by linarith
    have b : -x < -2 := by linarith
    simp only [h1, a, b, if_true, if_false]
    norm_num
  · by_cases h2 : x < -2
    · have a : -x > 2 := by linarith
      simp only [h1, h2, a, if_true, if_false]
      norm_num
    · have a : ¬ -x > 2 := by linarith
      have b : ¬ -x < -2 := by linarith
      simp only [h1, h2, a, b, if_false]
      ring

theorem amp_nonneg (x : ℝ) : 0 ≤ ampToLinear x := by unfold ampToLinear; positivity

/-- **C132 (one signal).** In the paths with one output signal, the level on the left falls and the level on the right rises with the pan; in the middle they are equal; at the ends one of them is 0 and
the other 3/2 of the middle; the power of the two together is constant within 1/8. -/
theorem C132_mono (cfg : Config) (h : cfg ≠ .wide ∧ cfg ≠ .stereo) (p : PanCfg) :
    let o := panLevels cfg p
    let a := 0.5 * max p.volume 0 ^ 3
    (0 ≤ o.l ∧ o.l ≤ 1.5 * a) ∧ (0 ≤ o.r ∧ o.r ≤ 1.5 * a) ∧ (2 * a ^ 2 ≤ o.l ^ 2 + o.r ^ 2 ∧ o.l ^ 2 + o.r ^ 2 ≤ 2.25 * a ^ 2) ∧
    (Spec.pan p = 0 → o.l = a ∧ o.r = a) ∧ (Spec.pan p = -1 → o.l = 1.5 * a ∧ o.r = 0) ∧ (Spec.pan p = 1 → o.l = 0 ∧ o.r = 1.5 * a) := by
  have hw : cfg.isWide = false := by simp [Config.isWide, h.1]
  have hs : cfg.isStereo = false := by simp [Config.isStereo, h.2]
  obtain ⟨m1, m2⟩ := pan_mem p
  have hl : (panLevels cfg p).l = 0.5 * max p.volume 0 ^ 3 * (1 - 0.75 * Spec.pan p - 0.25 * Spec.pan p * Spec.pan p) := by
    simp only [panLevels, panAmp, hw, hs, Bool.or_false, Bool.false_eq_true, if_false]
    change 0.5 * ampToLinear p.volume * megapanLeft (Spec.pan p) = _
    rw [left_eq (by linarith [m1] : -2 ≤ Spec.pan p) (by linarith : Spec.pan p ≤ 2)]
    unfold ampToLinear; ring
  have hr : (panLevels cfg p).r = 0.5 * max p.volume 0 ^ 3 * (1 + 0.75 * Spec.pan p - 0.25 * Spec.pan p * Spec.pan p) := by
    simp only [panLevels, panAmp, hw, hs, Bool.or_false, Bool.false_eq_true, if_false]
    change 0.5 * ampToLinear p.volume * megapanRight (Spec.pan p) = _
    rw [right_eq (by linarith [m1] : -2 ≤ Spec.pan p) (by linarith : Spec.pan p ≤ 2)]
    unfold ampToLinear; ring
  have ha : 0 ≤ 0.5 * max p.volume 0 ^ 3 := by positivity
  intro o a
  change 0 ≤ a at ha
  have hl' : o.l = a * (1 - 0.75 * Spec.pan p - 0.25 * Spec.pan p * Spec.pan p) := hl
  have hr' : o.r = a * (1 + 0.75 * Spec.pan p - 0.25 * Spec.pan p * Spec.pan p) := hr
  generalize Spec.pan p = x at m1 m2 hl' hr'
  have l0 : 0 ≤ 1 - 0.75 * x - 0.25 * x * x := by nlinarith
  have l1 : 1 - 0.75 * x - 0.25 * x * x ≤ 1.5 := by nlinarith
  have r0 : 0 ≤ 1 + 0.75 * x - 0.25 * x * x := by nlinarith
  have r1 : 1 + 0.75 * x - 0.25 * x * x ≤ 1.5 := by nlinarith
  have hx2 : x ^ 2 ≤ 1 := by nlinarith
  have e : o.l ^ 2 + o.r ^ 2 = a ^ 2 * (2 + x ^ 2 / 8 + x ^ 2 * x ^ 2 / 8) := by rw [hl', hr']; ring
  have hxx : x ^ 2 * x ^ 2 ≤ 1 := by nlinarith [sq_nonneg x]
  refine ⟨⟨?_, ?_⟩, ⟨?_, ?_⟩, ⟨?_, ?_⟩, ?_, ?_, ?_⟩
  · rw [hl']; positivity
  · rw [hl']; nlinarith
  · rw [hr']; positivity
  · rw [hr']; nlinarith
  · rw [e]; nlinarith [sq_nonneg a, mul_nonneg (sq_nonneg a) (sq_nonneg x), mul_nonneg (sq_nonneg a) (mul_nonneg (sq_nonneg x) (sq_nonneg x))]
  · rw [e]; nlinarith [mul_le_mul_of_nonneg_left hx2 (sq_nonneg a), mul_le_mul_of_nonneg_left hxx (sq_nonneg a)]
  · rintro rfl; rw [hl', hr']; constructor <;> ring
  · rintro rfl; rw [hl', hr']; constructor <;> norm_num <;> ring
  · rintro rfl; rw [hl', hr']; constructor <;> norm_num <;> ring

/-- **C132 (one signal, direction).** Panning to the right never raises the left level and never lowers the right one. -/
theorem C132_direction (cfg : Config) (h : cfg ≠ .wide ∧ cfg ≠ .stereo) (p q : PanCfg) (hv : p.volume = q.volume) (hpq : Spec.pan p ≤ Spec.pan q) :
    (panLevels cfg q).l ≤ (panLevels cfg p).l ∧ (panLevels cfg p).r ≤ (panLevels cfg q).r := by
  have hw : cfg.isWide = false := by simp [Config.isWide, h.1]
  have hs : cfg.isStereo = false := by simp [Config.isStereo, h.2]
  obtain ⟨m1, m2⟩ := pan_mem p
  obtain ⟨n1, n2⟩ := pan_mem q
  have ha : 0 ≤ 0.5 * ampToLinear q.volume := mul_nonneg (by norm_num) (amp_nonneg _)
  simp only [panLevels, panAmp, hw, hs, Bool.or_false, Bool.false_eq_true, if_false, hv]
  change _ * megapanLeft (Spec.pan q) ≤ _ * megapanLeft (Spec.pan p) ∧ _ * megapanRight (Spec.pan p) ≤ _ * megapanRight (Spec.pan q)
  rw [left_eq (by linarith) (by linarith), left_eq (by linarith) (by linarith), right_eq (by linarith) (by linarith), right_eq (by linarith) (by linarith)]
  exact ⟨mul_le_mul_of_nonneg_left (by nlinarith) ha, mul_le_mul_of_nonneg_left (by nlinarith) ha⟩

/-- **C132 (mirror).** In every path, reversing the pans and the width exchanges left and right; in particular, with all pans in the middle, the two signals of the stereo and wide paths are panned to
opposite sides by the width. -/
theorem C132_mirror (cfg : Config) (p : PanCfg) :
    (panLevels cfg ⟨-p.pan, -p.width, p.volume, -p.voicePan, -p.mainPan⟩).l = (panLevels cfg p).r ∧
    (panLevels cfg ⟨-p.pan, -p.width, p.volume, -p.voicePan, -p.mainPan⟩).r = (panLevels cfg p).l ∧
    (panLevels cfg ⟨-p.pan, -p.width, p.volume, -p.voicePan, -p.mainPan⟩).l2 = (panLevels cfg p).r2 ∧
    (panLevels cfg ⟨-p.pan, -p.width, p.volume, -p.voicePan, -p.mainPan⟩).r2 = (panLevels cfg p).l2 := by
  have e : max (-1 : ℝ) (min 1 (-p.pan + -p.voicePan + -p.mainPan)) = -max (-1) (min 1 (p.pan + p.voicePan + p.mainPan)) := by
    rcases le_total (p.pan + p.voicePan + p.mainPan) 1 with h | h <;> rcases le_total (-1) (p.pan + p.voicePan + p.mainPan) with h' | h'
    · rw [min_eq_right h, max_eq_right h', min_eq_right (by linarith), max_eq_right (by linarith)]; ring
    · rw [min_eq_right h, max_eq_left h', min_eq_left (by linarith)]; norm_num
    · rw [min_eq_left h, min_eq_right (by linarith), max_eq_left (by linarith)]; norm_num
    · exfalso; linarith
  have rn : ∀ x, megapanRight (-x) = megapanLeft x := fun x => by rw [← left_neg (-x), neg_neg]
  unfold panLevels
  simp only [e]
  split
  · rw [show -max (-1 : ℝ) (min 1 (p.pan + p.voicePan + p.mainPan)) - -p.width = -(max (-1 : ℝ) (min 1 (p.pan + p.voicePan + p.mainPan)) - p.width) by ring,
      show -p.pan + -p.width = -(p.pan + p.width) by ring]
    simp only [left_neg, rn, and_self]
  · simp only [left_neg, rn, and_self]

/-- **C132 (stereo and wide, what holds).** With the channel pans in the middle and the scene pan within range, width 0 puts both signals on the same place. -/
theorem C132_two_signals_partial (cfg : Config) (p : PanCfg) (hp : |p.pan| ≤ 1) (hv : p.voicePan = 0) (hm : p.mainPan = 0) (hw : p.width = 0) (h : cfg = .wide ∨ cfg = .stereo) :
    (panLevels cfg p).l = (panLevels cfg p).l2 ∧ (panLevels cfg p).r = (panLevels cfg p).r2 := by
  have e : (cfg.isWide || cfg.isStereo) = true := by rcases h with rfl | rfl <;> rfl
  rw [abs_le] at hp
  simp only [panLevels, e, if_true, hv, hm, hw, add_zero, sub_zero, min_eq_right hp.2, max_eq_right hp.1, and_self]

/-- **C132 (refutation).** The MIDI pan of the channel moves only the first of the two signals of the stereo and wide paths: the second is the same whatever the channel pans.  So a channel panned hard
left still plays the second signal in the middle. -/
theorem C132_channel_pan_refuted (cfg : Config) (p : PanCfg) (v m : ℝ) :
    (panLevels cfg ⟨p.pan, p.width, p.volume, v, m⟩).l2 = (panLevels cfg p).l2 ∧ (panLevels cfg ⟨p.pan, p.width, p.volume, v, m⟩).r2 = (panLevels cfg p).r2 ∧
    (panLevels .wide ⟨0, 0, 1, -1, 0⟩).r = 0 ∧ 0 < (panLevels .wide ⟨0, 0, 1, -1, 0⟩).r2 := by
  refine ⟨?_, ?_, ?_, ?_⟩
  · unfold panLevels; simp only; split <;> rfl
  · unfold panLevels; simp only; split <;> rfl
  all_goals norm_num [panLevels, panAmp, megapanRight, Config.isWide, ampToLinear]

/-! ## Pitch (C133) -/

/-- What the pitch of a voice depends on: the glide (`pkey`), the bend source (absent or its output), the bend ranges, the pitch and octave parameters, the number of notes in the scale. -/
structure PitchCfg where
  pkey : ℝ
  bend : Option ℝ
  up : ℝ
  down : ℝ
  pitch : ℝ
  extend : Bool
  octave : ℝ
  standard : Bool
  scale : ℝ

/-- surge-voice/src/calc_pitch.rs 5-17: `get_pitchbend`. -/
noncomputable def pitchbend (c : PitchCfg) : Res Empty ℝ :=
  match c.bend with
  | none => .panic "called `Option::unwrap()` on a `None` value"
  | some pb => .ok (pb * (if pb > 0 then c.up else c.down))

/-- calc_pitch.rs 19-33: `update_octave_size_and_return`; surge-tuning/src/tuner: the default scale has 12 notes. -/
noncomputable def octaveSize (c : PitchCfg) : ℝ := if c.standard then 12 else c.scale

/-- calc_pitch.rs 35-56: `calc_pitch`. -/
noncomputable def calcPitch (c : PitchCfg) : Res Empty ℝ := do
  let b ← pitchbend c
  let e := if c.extend then 12 else 1
  pure (c.pkey + b + c.pitch * e + octaveSize c * c.octave)

/-- surge-voice/src/create.rs 48-72: the sources a voice is created with have no pitch bend; nothing else adds one. -/
def createdBend : Option ℝ := none

/-- calc_keytrack.rs 12: the output of the key tracking source, in octaves. -/
noncomputable def keytrack (pitch root : ℝ) : ℝ := (pitch - root) * (1 / 12)

/-- toggle.rs 16-22: the same source when a switch of the patch is toggled. -/
noncomputable def keytrackToggled (pitch root : ℝ) : ℝ := pitch - root * (1 / 12)

/-- What the cutoff of a filter depends on besides the pitch. -/
structure CutoffCfg where
  cutoff : ℝ
  track : ℝ
  envmod : ℝ

/-- surge-voice/src/get.rs 10-24: `get_cutoff`. -/
def cutoffOf (c : CutoffCfg) (pitch root env : ℝ) : ℝ := c.cutoff + c.track * (pitch - root) + c.envmod * env

/-- get.rs 32-42: `get_cutoff_pair`. -/
def cutoffPair (a b : CutoffCfg) (offset : Bool) (pitch root env : ℝ) : ℝ × ℝ :=
  let x := cutoffOf a pitch root env
  let y := cutoffOf b pitch root env
  (x, if offset then y + x else y)

/-- **C133 (pitch bend, what holds).** With a bend source: a centred wheel leaves the pitch alone, a wheel fully up or down moves it by exactly the range of that side, and the pitch follows the wheel
monotonically and without jumps. -/
theorem C133_bend_partial (c : PitchCfg) :
    (∃ p, calcPitch { c with bend := some 0 } = .ok p ∧ calcPitch { c with bend := some 1 } = .ok (p + c.up) ∧ calcPitch { c with bend := some (-1) } = .ok (p - c.down)) ∧
    (∀ x y : ℝ, 0 ≤ c.up → 0 ≤ c.down → x ≤ y → ∃ p q, calcPitch { c with bend := some x } = .ok p ∧ calcPitch { c with bend := some y } = .ok q ∧ p ≤ q ∧
      q - p ≤ max c.up c.down * (y - x)) := by
  refine ⟨⟨_, rfl, ?_, ?_⟩, ?_⟩
  · simp only [calcPitch, pitchbend, octaveSize, Res.ok_bind, Res.pure_eq]
    norm_num; ring
  · simp only [calcPitch, pitchbend, octaveSize, Res.ok_bind, Res.pure_eq]
    norm_num; ring
  · intro x y hu hd hxy
    refine ⟨_, _, rfl, rfl, ?_, ?_⟩
    · simp only [octaveSize]
      have : x * (if x > 0 then c.up else c.down) ≤ y * (if y > 0 then c.up else c.down) := by
        split_ifs with h1 h2 h2
        · exact mul_le_mul_of_nonneg_right hxy hu
        · linarith
        · nlinarith
        · exact mul_le_mul_of_nonneg_right hxy hd
      linarith
    · simp only [octaveSize]
      have : y * (if y > 0 then c.up else c.down) - x * (if x > 0 then c.up else c.down) ≤ max c.up c.down * (y - x) := by
        have a1 := le_max_left c.up c.down
        have a2 := le_max_right c.up c.down
        split_ifs with h1 h2 h2
        · nlinarith
        · nlinarith
        · nlinarith
        · nlinarith
      linarith

/-- **C133 (octave).** An octave step moves the pitch by the length of the scale: 12 in the standard tuning; the pitch parameter moves it by semitones, or octaves in the extended range. -/
theorem C133_octave_partial (c : PitchCfg) {p : ℝ} (h : calcPitch c = .ok p) (d : ℝ) :
    calcPitch { c with octave := c.octave + d } = .ok (p + d * (if c.standard then 12 else c.scale)) ∧
    calcPitch { c with pitch := c.pitch + d } = .ok (p + d * (if c.extend then 12 else 1)) ∧
    calcPitch { c with pkey := c.pkey + d } = .ok (p + d) := by
  cases hb : c.bend with
  | none => simp [calcPitch, pitchbend, hb] at h
  | some b =>
    simp only [calcPitch, pitchbend, hb, octaveSize, Res.ok_bind, Res.pure_eq, Res.ok.injEq] at h ⊢
    subst h
    refine ⟨by ring, by ring, by ring⟩

/-- **C133 (refutation).** No voice has the bend source: its pitch cannot be computed, and the block panics. -/
theorem C133_no_bend_source_refuted (c : PitchCfg) (h : c.bend = createdBend) : (calcPitch c).isPanic := by
  simp only [calcPitch, pitchbend, h, createdBend]; rfl

/-- **C133 (key tracking).** In a block: 0 at the root, and 1 more per octave. -/
theorem C133_keytrack (pitch root : ℝ) : keytrack root root = 0 ∧ keytrack (pitch + 12) root = keytrack pitch root + 1 ∧ (root < pitch → 0 < keytrack pitch root) ∧ (pitch < root → keytrack pitch root < 0) := by
  unfold keytrack
  exact ⟨by ring, by ring, fun h => by nlinarith, fun h => by nlinarith⟩

/-- **C133 (refutation).** When a switch is toggled the same source is computed with a misplaced parenthesis: at the root key it reads 11/12 of the key number instead of 0 (55 for middle C). -/
theorem C133_keytrack_toggled_refuted (pitch root : ℝ) : keytrackToggled root root = root * (11 / 12) ∧ keytrackToggled 60 60 = 55 ∧
    (keytrackToggled pitch root = keytrack pitch root ↔ pitch = 0) := by
  unfold keytrackToggled keytrack
  refine ⟨by ring, by norm_num, ?_⟩
  constructor
  · intro h; linarith
  · rintro rfl; ring

/-- **C133 (cutoff).** Full key tracking moves the cutoff by as many semitones as the pitch, none leaves it alone; at the root and with the envelope at 0 it is the parameter.  With the offset switch the
second cutoff follows the first at the distance set by its own parameters. -/
theorem C133_cutoff (a b : CutoffCfg) (pitch root env d : ℝ) :
    cutoffOf a root root 0 = a.cutoff ∧ cutoffOf a (pitch + d) root env = cutoffOf a pitch root env + a.track * d ∧ cutoffOf a pitch root (env + d) = cutoffOf a pitch root env + a.envmod * d ∧
    (cutoffPair a b true pitch root env).2 - (cutoffPair a b true pitch root env).1 = cutoffOf b pitch root env ∧ (cutoffPair a b false pitch root env).2 = cutoffOf b pitch root env := by
  unfold cutoffPair cutoffOf
  refine ⟨by ring, by ring, by ring, ?_, rfl⟩
  simp

/-! ## Switching filters (C134) -/

/-- surge-voice/src/set_qfb... filterblock.rs: a filter unit of a voice (`FU`): its type, subtype and registers (coefficients and delay position left out: they are reset in the same places). -/
structure Unit4 where
  ty : ℕ
  subty : ℕ
  reg : ℕ → ℝ

/-- `FU::default`/`FU::init`: type `Off`, subtype 0, cleared registers. -/
def Unit4.fresh : Unit4 := ⟨0, 0, fun _ => 0⟩

/-- The units of a voice and, per coefficient maker, whether it starts afresh. -/
structure Units4 where
  fu : ℕ → Unit4
  first : ℕ → Bool

/-- A new voice. -/
def Units4.new : Units4 := ⟨fun _ => .fresh, fun _ => true⟩

/-- The wanted types of the two filters, and whether the path is `Wide`. -/
structure TypeCfg where
  ty : ℕ → ℕ
  subty : ℕ → ℕ
  wide : Bool

/-- surge-voice/src/toggle_filter.rs 10-34: one turn of the loop. -/
def Units4.toggle1 (c : TypeCfg) (u : ℕ) (s : Units4) : Units4 :=
  if c.ty u ≠ (s.fu u).ty ∨ c.subty u ≠ (s.fu u).subty then
    let fu := Function.update s.fu u ⟨c.ty u, c.subty u, Unit4.fresh.reg⟩
    let fu := if c.wide then Function.update fu (u + 2) ⟨c.ty u, c.subty u, Unit4.fresh.reg⟩ else fu
    ⟨fu, Function.update s.first u true⟩
  else s

/-- toggle_filter.rs 5-38: `maybe_toggle_filter`. -/
def Units4.toggle (c : TypeCfg) (s : Units4) : Units4 := (s.toggle1 c 0).toggle1 c 1

/-- What happens to the units of a voice: a toggle, or a block with any new contents of the registers (sync_from_qfb.rs 10-66), which also runs the coefficient makers. -/
inductive UEv where
  | toggle (c : TypeCfg)
  | block (reg : ℕ → ℕ → ℝ)

/-- The units after an event. -/
def Units4.ev (s : Units4) : UEv → Units4
  | .toggle c => s.toggle c
  | .block reg => ⟨fun u => { s.fu u with reg := reg u }, fun _ => false⟩

/-- The units after a history. -/
def Units4.run (s : Units4) (es : List UEv) : Units4 := es.foldl Units4.ev s

/-- **C134 (what holds).** After any history, a toggle leaves the two filters with the wanted types; a filter whose type changed starts from silence with a fresh coefficient maker, one whose type did not
change keeps its registers.  In the wide path the twin of a filter that changed is switched with it. -/
theorem C134_switch_partial (es : List UEv) (c : TypeCfg) (u : ℕ) (hu : u < 2) :
    let s := Units4.new.run es
    let s' := s.toggle c
    ((s'.fu u).ty = c.ty u ∧ (s'.fu u).subty = c.subty u) ∧
    (¬((s.fu u).ty = c.ty u ∧ (s.fu u).subty = c.subty u) → (∀ i, (s'.fu u).reg i = 0) ∧ s'.first u = true ∧
      (c.wide = true → (s'.fu (u + 2)).ty = c.ty u ∧ (s'.fu (u + 2)).subty = c.subty u ∧ ∀ i, (s'.fu (u + 2)).reg i = 0)) ∧
    ((s.fu u).ty = c.ty u ∧ (s.fu u).subty = c.subty u → s'.fu u = s.fu u ∧ s'.first u = s.first u ∧ s'.fu (u + 2) = s.fu (u + 2)) := by
  intro s s'
  have key : ∀ s : Units4, ∀ u v : ℕ, u < 2 → v < 2 → u ≠ v → ((s.toggle1 c v).fu u = s.fu u ∧ (s.toggle1 c v).fu (u + 2) = s.fu (u + 2) ∧ (s.toggle1 c v).first u = s.first u) := by
    intro s u v h1 h2 h3
    unfold Units4.toggle1
    split
    · simp only
      refine ⟨?_, ?_, Function.update_of_ne h3 _ _⟩
      · split
        · rw [Function.update_of_ne (by omega), Function.update_of_ne h3]
        · rw [Function.update_of_ne h3]
      · split
        · rw [Function.update_of_ne (by omega), Function.update_of_ne (by omega)]
        · rw [Function.update_of_ne (by omega)]
    · exact ⟨rfl, rfl, rfl⟩
  have red : s'.fu u = (s.toggle1 c u).fu u ∧ s'.fu (u + 2) = (s.toggle1 c u).fu (u + 2) ∧ s'.first u = (s.toggle1 c u).first u := by
    rcases (by omega : u = 0 ∨ u = 1) with rfl | rfl
    · exact key (s.toggle1 c 0) 0 1 (by omega) (by omega) (by omega)
    · obtain ⟨k1, k2, k3⟩ := key s 1 0 (by omega) (by omega) (by omega)
      change ((s.toggle1 c 0).toggle1 c 1).fu 1 = _ ∧ ((s.toggle1 c 0).toggle1 c 1).fu 3 = _ ∧ ((s.toggle1 c 0).toggle1 c 1).first 1 = _
      change (s.toggle1 c 0).fu 3 = s.fu 3 at k2
      generalize s.toggle1 c 0 = q at k1 k2 k3
      unfold Units4.toggle1
      rw [k1]
      split
      · simp only
        refine ⟨?_, ?_, ?_⟩
        · split <;> simp
        · split <;> simp [k2]
        · simp
      · exact ⟨k1, k2, k3⟩
  rw [red.1, red.2.1, red.2.2]
  unfold Units4.toggle1
  by_cases h : c.ty u ≠ (s.fu u).ty ∨ c.subty u ≠ (s.fu u).subty
  · rw [if_pos h]
    have n1 : u ≠ u + 2 := by omega
    have f1 : ∀ x : Unit4, (if c.wide = true then Function.update (Function.update s.fu u x) (u + 2) x else Function.update s.fu u x) u = x := by
      intro x; split
      · rw [Function.update_of_ne n1, Function.update_self]
      · rw [Function.update_self]
    simp only [f1]
    refine ⟨⟨trivial, trivial⟩, fun _ => ⟨fun _ => rfl, Function.update_self _ _ _, fun hw => ?_⟩, fun h' => ?_⟩
    · rw [if_pos hw, Function.update_self]; exact ⟨rfl, rfl, fun _ => rfl⟩
    · rcases h with h | h
      · exact absurd h'.1.symm h
      · exact absurd h'.2.symm h
  · rw [if_neg h]
    push Not at h
    exact ⟨⟨h.1.symm, h.2.symm⟩, fun h' => absurd ⟨h.1.symm, h.2.symm⟩ h', fun _ => ⟨rfl, rfl, rfl⟩⟩

/-- **C134 (refutation).** Switching the path to `Wide` without changing the filter types does nothing: the twin filters keep whatever type and registers they had, for example the ringing state of
another filter from the last time the path was wide. -/
theorem C134_wide_stale_refuted (s : Units4) (c : TypeCfg) (h : ∀ u, u < 2 → (s.fu u).ty = c.ty u ∧ (s.fu u).subty = c.subty u) :
    (s.toggle ⟨c.ty, c.subty, true⟩).fu = s.fu ∧
    (Units4.new.run [.toggle ⟨fun _ => 1, fun _ => 0, true⟩, .block fun _ _ => 1, .toggle ⟨fun _ => 2, fun _ => 0, false⟩, .toggle ⟨fun _ => 2, fun _ => 0, true⟩]).fu 2 = ⟨1, 0, fun _ => 1⟩ := by
  have t : ∀ u, u < 2 → s.toggle1 ⟨c.ty, c.subty, true⟩ u = s := by
    intro u hu
    unfold Units4.toggle1
    rw [if_neg]
    push Not
    exact ⟨(h u hu).1.symm, (h u hu).2.symm⟩
  refine ⟨?_, ?_⟩
  · unfold Units4.toggle
    rw [t 0 (by omega), t 1 (by omega)]
  · simp [Units4.run, Units4.ev, Units4.toggle, Units4.toggle1, Units4.new, Unit4.fresh, Function.update]

/-! ## Life time (C135) -/

/-- surge-voice/src/state.rs 5-8, voice.rs 40-41: the fields the life time of a voice depends on. -/
structure Life where
  gate : Bool
  keep : Bool
  age : ℤ
  ageRelease : ℤ

/-- init.rs 28-76: a new voice. -/
def Life.new : Life := ⟨true, true, 0, 0⟩

/-- calc_modsources.rs 29-33 and process.rs 112-119: a block, `idle` saying whether the amplitude envelope is idle after this block; the ages are `i32`. -/
def Life.block (idle : Bool) (s : Life) : Res Empty (Life × Bool) := do
  let s := if idle then { s with keep := false } else s
  let age ← chkI32 (s.age + 1)
  let s := { s with age := age }
  let ar ← (if ¬s.gate then chkI32 (s.ageRelease + 1) else .ok s.ageRelease)
  let s := { s with ageRelease := ar }
  pure (s, s.keep)

/-- release.rs 30, 52: the effect of `release` and `uber_release` on the life time (the envelope calls inside are `todo!()` in surge-adsr: see C35; this models the voice's own part). -/
def Life.release (s : Life) : Life := { s with gate := false }

/-- What happens to a voice. -/
inductive LEv where
  | block (idle : Bool)
  | release

/-- A history: the state and what the blocks returned. -/
def Life.run (s : Life) : List LEv → Res Empty (Life × List Bool)
  | [] => .ok (s, [])
  | .block idle :: es => do
    let r ← s.block idle
    let q ← r.1.run es
    pure (q.1, r.2 :: q.2)
  | .release :: es => s.release.run es

/-- The number of blocks of a history. -/
def Spec.blocks : List LEv → ℕ
  | [] => 0
  | .block _ :: es => Spec.blocks es + 1
  | .release :: es => Spec.blocks es

/-- The number of blocks after the first release. -/
def Spec.released : List LEv → ℕ
  | [] => 0
  | .block _ :: es => Spec.released es
  | .release :: es => Spec.blocks es

/-- For each block: has no block so far found the envelope idle? -/
def Spec.playing : Bool → List LEv → List Bool
  | _, [] => []
  | k, .block idle :: es => (k && !idle) :: Spec.playing (k && !idle) es
  | k, .release :: es => Spec.playing k es

theorem released_le (es : List LEv) : Spec.released es ≤ Spec.blocks es := by
  induction es with
  | nil => exact le_rfl
  | cons e es ih =>
    cases e with
    | block i => simp only [Spec.released, Spec.blocks]; omega
    | release => exact le_rfl

theorem run_eq (es : List LEv) : ∀ s : Life, 0 ≤ s.age → s.age + Spec.blocks es < 2 ^ 31 → 0 ≤ s.ageRelease → s.ageRelease ≤ s.age →
    ∃ s', s.run es = .ok (s', Spec.playing s.keep es) ∧ s'.age = s.age + Spec.blocks es ∧
      s'.ageRelease = s.ageRelease + (if s.gate then Spec.released es else Spec.blocks es : ℕ) := by
  induction es with
  | nil => intro s _ _ _ _; exact ⟨s, rfl, by simp [Spec.blocks], by cases s.gate <;> simp [Spec.blocks, Spec.released]⟩
  | cons e es ih =>
    intro s h0 h1 h2 h3
    cases e with
    | release =>
      obtain ⟨s', e', a, b⟩ := ih s.release h0 h1 h2 h3
      refine ⟨s', e', a, ?_⟩
      rw [b]
      cases hg : s.gate <;> simp [Life.release, Spec.blocks, Spec.released]
    | block idle =>
      simp only [Spec.blocks] at h1
      push_cast at h1
      have hb : s.block idle = .ok (⟨s.gate, s.keep && !idle, s.age + 1, s.ageRelease + (if s.gate then 0 else 1)⟩, s.keep && !idle) := by
        unfold Life.block
        have c1 : chkI32 (ε := Empty) (s.age + 1) = .ok (s.age + 1) := if_pos ⟨by omega, by omega⟩
        have c2 : chkI32 (ε := Empty) (s.ageRelease + 1) = .ok (s.ageRelease + 1) := if_pos ⟨by omega, by omega⟩
        obtain ⟨g, k, a, r⟩ := s
        simp only at c1 c2
        cases idle <;> cases g <;> cases k <;> simp [c1, c2]
      obtain ⟨s', e', a, b⟩ := ih ⟨s.gate, s.keep && !idle, s.age + 1, s.ageRelease + (if s.gate then 0 else 1)⟩ (by simp only; omega) (by simp only; omega)
        (by simp only; split <;> omega) (by simp only; split <;> omega)
      refine ⟨s', ?_, ?_, ?_⟩
      · simp only [Life.run, hb, Res.ok_bind, e', Res.pure_eq, Spec.playing]
      · rw [a]; simp only [Spec.blocks]; push_cast; ring
      · rw [b]
        cases s.gate <;> simp [Spec.blocks, Spec.released]
        ring

/-- **C135 (what holds).** For every history of fewer than 2³¹ blocks: the age is the number of blocks, the release age the number of blocks since the first release (so at most the age), and a block
returns "keep playing" until the first block that finds the amplitude envelope idle, and never again. -/
theorem C135_life_partial (es : List LEv) (h : Spec.blocks es < 2 ^ 31) :
    ∃ s, Life.new.run es = .ok (s, Spec.playing true es) ∧ s.age = Spec.blocks es ∧ s.ageRelease = Spec.released es ∧ s.ageRelease ≤ s.age := by
  obtain ⟨s, e, a, b⟩ := run_eq es Life.new (by decide) (by simp only [Life.new]; omega) (by decide) (by decide)
  have ha : s.age = Spec.blocks es := by rw [a]; simp [Life.new]
  have hb : s.ageRelease = Spec.released es := by rw [b]; simp [Life.new]
  exact ⟨s, e, ha, hb, by rw [ha, hb]; exact_mod_cast released_le es⟩

/-- Once a voice has said it stops, it says so for ever. -/
theorem C135_stops_for_good (es es' : List LEv) : Spec.playing true (es ++ LEv.block true :: es') =
    Spec.playing true es ++ List.replicate (Spec.blocks es' + 1) false := by
  have key : ∀ es, Spec.playing false es = List.replicate (Spec.blocks es) false := by
    intro es
    induction es with
    | nil => rfl
    | cons e es ih => cases e <;> simp [Spec.playing, Spec.blocks, ih, List.replicate_succ]
  have gen : ∀ (es : List LEv) (k : Bool), Spec.playing k (es ++ LEv.block true :: es') = Spec.playing k es ++ List.replicate (Spec.blocks es' + 1) false := by
    intro es
    induction es with
    | nil => intro k; simp [Spec.playing, key, List.replicate_succ]
    | cons e es ih => intro k; cases e <;> simp [Spec.playing, ih]
  exact gen es true

/-- **C135 (refutation).** A voice cannot be held for ever: the block with number 2³¹ panics on the overflow of the age. -/
theorem C135_overflow_refuted (es : List LEv) (h : Spec.blocks es = 2 ^ 31 - 1) (idle : Bool) :
    ∃ s r, Life.new.run es = .ok (s, r) ∧ (s.block idle).isPanic := by
  obtain ⟨s, e, a, -⟩ := C135_life_partial es (by omega)
  refine ⟨s, _, e, ?_⟩
  have : chkI32 (ε := Empty) (s.age + 1) = .panic "i32 overflow" := if_neg (by rw [a, h]; norm_num)
  unfold Life.block
  cases idle <;> simp only [this, Bool.false_eq_true, if_false, if_true] <;> rfl

/-! ## Aftertouch (C136) -/

/-- The two aftertouch sources of a voice. -/
structure Touch where
  poly : ℝ
  channel : ℝ

/-- init_modsource.rs 20-31, 92-102: at the start the channel source has the channel pressure; the poly source stays at 0 (`init_aftertouch` looks for a controller in the slot of the amplitude envelope). -/
def Touch.new (pressure : ℝ) : Touch := ⟨0, pressure⟩

/-- calc_modsources.rs 9-13: in a block without polyphonic aftertouch (calc_poly_aftertouch.rs 10 not taken). -/
def Touch.block (t : Touch) (pressure : ℝ) : Touch := { t with poly := pressure }

/-- **C136 (refutation).** Channel aftertouch does not reach the notes it is played on: after any blocks, the channel source still has the pressure at the start of the note; the current pressure is in the
polyphonic source instead. -/
theorem C136_channel_pressure_refuted (p0 : ℝ) (ps : List ℝ) (p : ℝ) :
    ((ps ++ [p]).foldl Touch.block (Touch.new p0)).channel = p0 ∧ ((ps ++ [p]).foldl Touch.block (Touch.new p0)).poly = p := by
  have : ∀ (ps : List ℝ) (t : Touch), (ps.foldl Touch.block t).channel = t.channel := by
    intro ps
    induction ps with
    | nil => intro t; rfl
    | cons q ps ih => intro t; rw [List.foldl_cons, ih]; rfl
  exact ⟨by rw [this]; rfl, by rw [List.foldl_append]; rfl⟩

/-- The hypotheses can be met: a serial path; two pans in order; a bend source; a scene with the wanted types; a history with 2 blocks, one after the release. -/
example : (Config.serial1 ≠ .wide ∧ Config.serial1 ≠ .stereo) ∧ Spec.pan ⟨0.25, 0, 1, 0, 0⟩ ≤ Spec.pan ⟨0.25, 0, 1, 0.5, 0⟩ ∧
    calcPitch ⟨60, some 0.5, 2, 12, 0, false, -1, true, 12⟩ = .ok 49 ∧ (∀ u, u < 2 → (Units4.new.fu u).ty = 0 ∧ (Units4.new.fu u).subty = 0) ∧
    Spec.blocks [.block false, .release, .block true] = 2 ∧ Spec.released [.block false, .release, .block true] = 1 := by
  refine ⟨⟨by decide, by decide⟩, ?_, ?_, fun _ _ => ⟨rfl, rfl⟩, rfl, rfl⟩
  · norm_num [Spec.pan]
  · norm_num [calcPitch, pitchbend, octaveSize]

end Verif.Voice
