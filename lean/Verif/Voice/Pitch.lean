import Verif.Voice.Absolute
import Verif.Voice.Control
import Verif.Voice.Mix
/-!
# What each oscillator of a voice is told (C264)

surge-voice/src/gen_runtime.rs and runtime.rs, with what the scene passes in (surge-scene/src/scene/process.rs 5-35, 117-165), in exact real arithmetic.  The pitch of the voice is `calcPitch` of `Voice/Control`, the transposition `noteShift` of
`Voice/Absolute`.
-/
namespace Verif.Voice
open Verif

/-! ## Model -/

/-- The parameters of the scene's three oscillators, and those of the scene, that the runtime of a voice is made of (process.rs 5-35, 120-130). -/
structure OscParams where
  octave : Fin 3 → ℝ
  pitch : Fin 3 → ℝ
  absolute : Fin 3 → Bool
  extend : Fin 3 → Bool
  keytrack : Fin 3 → Bool
  wide : Bool
  drift : ℝ
  fmDepth : ℝ
  noiseColour : ℝ

/-- runtime.rs 3-15: `OscillatorRuntime`, without the two buffers. -/
structure OscRuntime where
  wide : Bool
  drift : ℝ
  fmDepth : ℝ
  noiseColour : ℝ
  octave : Fin 3 → ℝ
  pitch : Fin 3 → ℝ

/-- gen_runtime.rs 28-45 and alike: the note of oscillator `i`. `scale` is `octave_size`, `tracked` what `oscillator_keytrack2` was set to. -/
noncomputable def oscNote (T : ℕ → ℝ) (scale pitch : ℝ) (p : OscParams) (tracked : Bool) (i : Fin 3) : Res Empty ℝ :=
  noteShift T ⟨(if tracked then pitch else 60) + scale * p.octave i, p.pitch i, p.absolute i, p.extend i⟩

/-- gen_runtime.rs 5-84: `gen_oscillator_runtime`; the scene sets `oscillator_keytrack2` from its third oscillator (process.rs 130). `db` is the table of `db_to_linear`. -/
noncomputable def genRuntime (T : ℕ → ℝ) (db : ℝ → ℝ) (scale pitch : ℝ) (p : OscParams) : Res Empty OscRuntime := do
  let p0 ← oscNote T scale pitch p (p.keytrack 2) 0
  let p1 ← oscNote T scale pitch p (p.keytrack 2) 1
  let p2 ← oscNote T scale pitch p (p.keytrack 2) 2
  .ok ⟨p.wide, p.drift, db p.fmDepth, min (max p.noiseColour (-1)) 1, ![p.octave 0, p.octave 1, p.octave 2], ![p0, p1, p2]⟩

/-- surge-traits/src/oscillator.rs 14-34: `OscillatorProcessBlockCfg`. -/
structure BlockCfg where
  pitch : ℝ
  drift : ℝ
  stereo : Bool
  fm : Bool
  fmDepth : ℝ

/-- runtime.rs 17-40: `gen_process_cfg`. -/
def OscRuntime.cfg (r : OscRuntime) (fm : Bool) (i : Fin 3) : BlockCfg := ⟨r.pitch i, r.drift, r.wide, fm, if fm then r.fmDepth else 0⟩

/-- surge-voice/src/do_osc.rs 15-36: which oscillators are told to expect a modulator. -/
def hearsFm (m : Fm) (i : Fin 3) : Bool :=
  if i = 0 then decide (m ≠ .off) else if i = 1 then decide (m = .twoToOneToZero) else false

/-- process.rs 43 and do_osc.rs 15-36: what oscillator `i` is told in a block. -/
noncomputable def oscTold (T : ℕ → ℝ) (db : ℝ → ℝ) (scale pitch : ℝ) (p : OscParams) (m : Fm) (i : Fin 3) : Res Empty BlockCfg := do
  let r ← genRuntime T db scale pitch p
  .ok (r.cfg (hearsFm m i) i)

/-! ## Specification -/

/-- The key an oscillator starts from: the pitch of the voice if it tracks the keyboard, middle C if not, and its own octave. -/
noncomputable def Spec.base (scale pitch : ℝ) (p : OscParams) (i : Fin 3) : ℝ := (if p.keytrack i then pitch else 60) + scale * p.octave i

/-- Its own pitch parameter in semitones: octaves in the extended range. -/
noncomputable def Spec.detune (p : OscParams) (i : Fin 3) : ℝ := p.pitch i * (if p.extend i then 12 else 1)

/-! ## Theorems -/

theorem shift_ok {T : ℕ → ℝ} (hT : Spec.Rises T) {note : ℝ} (hn : -257 < note) (x : ℝ) (a e : Bool) : ∃ r, noteShift T ⟨note, x, a, e⟩ = .ok r := by
  cases a with
  | true => obtain ⟨r, h, -⟩ := C129_absolute_partial hT hn x e; exact ⟨r, h⟩
  | false => exact ⟨_, rfl⟩

theorem told_of {T : ℕ → ℝ} {db : ℝ → ℝ} {scale pitch : ℝ} {p : OscParams} {m : Fm} {i : Fin 3} {c : BlockCfg} (h : oscTold T db scale pitch p m i = .ok c) :
    oscNote T scale pitch p (p.keytrack 2) i = .ok c.pitch := by
  unfold oscTold genRuntime at h
  cases h0 : oscNote T scale pitch p (p.keytrack 2) 0 with
  | ok p0 =>
    cases h1 : oscNote T scale pitch p (p.keytrack 2) 1 with
    | ok p1 =>
      cases h2 : oscNote T scale pitch p (p.keytrack 2) 2 with
      | ok p2 =>
        simp only [h0, h1, h2, Res.ok_bind, Res.ok.injEq] at h
        subst h
        fin_cases i
        · exact h0
        · exact h1
        · exact h2
      | err e => exact e.elim
      | panic w => simp only [h0, h1, h2, Res.ok_bind, Res.panic_bind] at h; cases h
    | err e => exact e.elim
    | panic w => simp only [h0, h1, Res.ok_bind, Res.panic_bind] at h; cases h
  | err e => exact e.elim
  | panic w => simp only [h0, Res.panic_bind] at h; cases h

/-- **C264 (what holds).** If its keyboard switch is set as that of the third oscillator, an oscillator plays its own note: from the voice's pitch or middle C by its octaves, and on by its own detuning (in semitones, or octaves in the extended range; in absolute
mode by a shift in hertz, taken from the semitone below the note). And everyone is told of a modulator exactly where the routing has one, with the depth in decibels made linear. -/
theorem C264_note_partial {T : ℕ → ℝ} (hT : Spec.Rises T) (db : ℝ → ℝ) {scale pitch : ℝ} (p : OscParams) (m : Fm) (i : Fin 3)
    (hk : p.keytrack i = p.keytrack 2) (hn : ∀ j, -257 < (if p.keytrack 2 then pitch else 60) + scale * p.octave j) :
    ∃ c, oscTold T db scale pitch p m i = .ok c ∧ c.stereo = p.wide ∧ c.drift = p.drift ∧
      (p.absolute i = false → c.pitch = Spec.base scale pitch p i + Spec.detune p i) ∧
      (p.absolute i = true → Spec.tableAt T c.pitch = T (start (Spec.base scale pitch p i)) + 10 * Spec.detune p i * 32 / 261.626) ∧
      (c.fm = true ↔ (i = 0 ∧ m ≠ .off) ∨ (i = 1 ∧ m = .twoToOneToZero)) ∧ (c.fm = true → c.fmDepth = db p.fmDepth) ∧ (c.fm = false → c.fmDepth = 0) := by
  obtain ⟨p0, h0⟩ := shift_ok hT (hn 0) (p.pitch 0) (p.absolute 0) (p.extend 0)
  obtain ⟨p1, h1⟩ := shift_ok hT (hn 1) (p.pitch 1) (p.absolute 1) (p.extend 1)
  obtain ⟨p2, h2⟩ := shift_ok hT (hn 2) (p.pitch 2) (p.absolute 2) (p.extend 2)
  have e : ∃ c, oscTold T db scale pitch p m i = .ok c ∧ c.stereo = p.wide ∧ c.drift = p.drift ∧ c.fm = hearsFm m i ∧ c.fmDepth = if hearsFm m i then db p.fmDepth else 0 := by
    refine ⟨OscRuntime.cfg ⟨p.wide, p.drift, db p.fmDepth, min (max p.noiseColour (-1)) 1, ![p.octave 0, p.octave 1, p.octave 2], ![p0, p1, p2]⟩ (hearsFm m i) i, ?_, rfl, rfl, rfl, rfl⟩
    unfold oscTold genRuntime oscNote
    rw [h0, Res.ok_bind, h1, Res.ok_bind, h2, Res.ok_bind, Res.ok_bind]
  obtain ⟨c, hc, hs, hd, hf, hfd⟩ := e
  refine ⟨c, hc, hs, hd, ?_, ?_, ?_, ?_, ?_⟩
  · intro ha
    have := told_of hc
    unfold oscNote noteShift at this
    simp only [ha, Res.ok.injEq, Bool.false_eq_true, if_false] at this
    rw [← this, Spec.base, Spec.detune, hk]
  · intro ha
    have := told_of hc
    obtain ⟨r, hr, hT'⟩ := C129_absolute_partial hT (hn i) (p.pitch i) (p.extend i)
    unfold oscNote at this
    rw [ha, hr, Res.ok.injEq] at this
    rw [← this, hT', Spec.base, Spec.detune, hk, mul_assoc 10]
  · rw [hf]; unfold hearsFm; fin_cases i <;> simp
  · intro h; rw [hfd, ← hf, h]; rfl
  · intro h; rw [hfd, ← hf, h]; rfl

/-- **C264 (refutation).** The keyboard switches of the first two oscillators do nothing: only that of the third is read, for all. -/
theorem C264_switch_refuted (T : ℕ → ℝ) (db : ℝ → ℝ) (scale pitch : ℝ) (p : OscParams) (m : Fm) (i : Fin 3) (k : Fin 3 → Bool) (h : k 2 = p.keytrack 2) :
    oscTold T db scale pitch { p with keytrack := k } m i = oscTold T db scale pitch p m i := by
  unfold oscTold genRuntime oscNote
  simp only [h]

/-- So an oscillator set to a fixed pitch follows the keyboard: two notes an octave apart sound an octave apart. -/
theorem C264_fixed_follows_refuted {T : ℕ → ℝ} (db : ℝ → ℝ) : ∃ p : OscParams, p.keytrack 0 = false ∧ ∃ c d,
    oscTold T db 12 60 p .off 0 = .ok c ∧ oscTold T db 12 72 p .off 0 = .ok d ∧ d.pitch = c.pitch + 12 := by
  refine ⟨⟨fun _ => 0, fun _ => 0, fun _ => false, fun _ => false, fun i => decide (i = 2), false, 0, 0, 0⟩, rfl, _, _, rfl, rfl, ?_⟩
  simp [OscRuntime.cfg]
  norm_num

/-- **C264.** Played with the keyboard switch on, transposition by any interval transposes the note of every non-absolute oscillator by that interval; with it off, by nothing. -/
theorem C264_transposes_partial (T : ℕ → ℝ) (db : ℝ → ℝ) (scale pitch d : ℝ) (p : OscParams) (m : Fm) (i : Fin 3) {a b : BlockCfg} (ha : oscTold T db scale pitch p m i = .ok a)
    (hb : oscTold T db scale (pitch + d) p m i = .ok b) (hr : p.absolute i = false) : b.pitch = a.pitch + if p.keytrack 2 then d else 0 := by
  have e1 := told_of ha
  have e2 := told_of hb
  unfold oscNote noteShift at e1 e2
  simp only [hr, Res.ok.injEq, Bool.false_eq_true, if_false] at e1 e2
  rw [← e1, ← e2]
  cases p.keytrack 2 <;> simp; ring

/-- **C264.** The noise colour is kept in its range for every setting and modulation, and passed on as it is inside. -/
theorem C264_colour {T : ℕ → ℝ} {db : ℝ → ℝ} {scale pitch : ℝ} {p : OscParams} {r : OscRuntime} (h : genRuntime T db scale pitch p = .ok r) :
    -1 ≤ r.noiseColour ∧ r.noiseColour ≤ 1 ∧ (-1 ≤ p.noiseColour → p.noiseColour ≤ 1 → r.noiseColour = p.noiseColour) := by
  unfold genRuntime at h
  cases h0 : oscNote T scale pitch p (p.keytrack 2) 0 with
  | ok p0 =>
    cases h1 : oscNote T scale pitch p (p.keytrack 2) 1 with
    | ok p1 =>
      cases h2 : oscNote T scale pitch p (p.keytrack 2) 2 with
      | ok p2 =>
        simp only [h0, h1, h2, Res.ok_bind, Res.ok.injEq] at h
        subst h
        refine ⟨le_min (le_max_right _ _) (by norm_num), min_le_right _ _, fun a b => ?_⟩
        simp only
        rw [max_eq_left a, min_eq_left b]
      | err e => exact e.elim
      | panic w => simp only [h0, h1, h2, Res.ok_bind, Res.panic_bind] at h; cases h
    | err e => exact e.elim
    | panic w => simp only [h0, h1, Res.ok_bind, Res.panic_bind] at h; cases h
  | err e => exact e.elim
  | panic w => simp only [h0, Res.panic_bind] at h; cases h

/-- The whole way from the key: a voice with a bend source, its first oscillator an octave up and 7 semitones on, all keyboard switches on. -/
example {T : ℕ → ℝ} (hT : Spec.Rises T) (db : ℝ → ℝ) : ∃ pitch c, calcPitch ⟨64, some (1 / 2), 2, 12, 0, false, -1, true, 19⟩ = .ok pitch ∧
    oscTold T db 12 pitch ⟨![1, 0, 0], ![7, 0, 0], fun _ => false, fun _ => false, fun _ => true, true, 0, 0, 0⟩ .oneToZero 0 = .ok c ∧ c.pitch = 72 ∧ c.fm = true := by
  obtain ⟨c, h1, -, -, h2, -, h3, -⟩ := C264_note_partial hT db (scale := 12) (pitch := 53) ⟨![1, 0, 0], ![7, 0, 0], fun _ => false, fun _ => false, fun _ => true, true, 0, 0, 0⟩ .oneToZero 0 rfl (by
    intro j; fin_cases j <;> norm_num)
  refine ⟨53, c, ?_, h1, ?_, ?_⟩
  · simp only [calcPitch, pitchbend, octaveSize, Res.ok_bind, Res.pure_eq, Res.ok.injEq]; norm_num
  · rw [h2 rfl]; simp [Spec.base, Spec.detune]; norm_num
  · exact h3.2 (Or.inl ⟨rfl, by decide⟩)

end Verif.Voice
