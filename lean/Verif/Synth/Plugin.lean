import Verif.Rust
import Mathlib.Analysis.SpecialFunctions.Trigonometric.Basic
import Mathlib.Analysis.SpecialFunctions.Pow.Real
/-!
# The VST plugin

Models surge-synthesizer/src/vst_host.rs (`SpencaPlugin`) and freq.rs (`midi_pitch_to_freq`), in exact real arithmetic (the code
computes in `f64` and rounds the result to `f32`).
-/
namespace Verif.Synth.Plugin
open Verif

/-- freq.rs 11-16 `midi_pitch_to_freq`; `A4_MIDI_NOTE` is 69, `A4_FREQ` is `CONCERT_A_HZ`, 432 (surge-constants/src/lib.rs 353-363). The `i8`
difference is between -69 and 58. -/
noncomputable def midiFreq (note : Nat) : Res Empty ℝ :=
  if note ≤ 127 then .ok ((2 : ℝ) ^ (((note : ℝ) - 69) / 12) * 432) else .panic "assertion failed: note <= 127"

/-- vst_host.rs 3-8 `SpencaPlugin`. -/
structure Plug where
  rate : ℝ
  time : ℝ
  dur : ℝ
  note : Option Nat

/-- vst_host.rs 57-66 `default`. -/
noncomputable def Plug.fresh : Plug := ⟨44100, 0, 0, some 59⟩

/-- vst_host.rs 44-47 `note_on`. -/
noncomputable def Plug.noteOn (p : Plug) (n : Nat) : Plug := { p with dur := 0, note := some n }
/-- vst_host.rs 49-53 `note_off`. -/
def Plug.noteOff (p : Plug) (n : Nat) : Plug := if p.note = some n then { p with note := none } else p
/-- vst_host.rs 36-42 `process_midi_event`. -/
noncomputable def Plug.event (p : Plug) (d0 d1 _d2 : Nat) : Plug :=
  if d0 = 128 then p.noteOff d1 else if d0 = 144 then p.noteOn d1 else p

/-- vst_host.rs 117-131: the level. -/
noncomputable def Plug.alpha (p : Plug) : ℝ := if p.dur < 1 / 2 then p.dur / (1 / 2) else 1

/-- vst_host.rs 110-140: `n` samples of one channel, from time `t`. -/
noncomputable def Plug.channel (p : Plug) : Nat → ℝ → Res Empty (List ℝ)
  | 0, _ => .ok []
  | n + 1, t =>
    match p.note with
    | some k => do
      let f ← midiFreq k
      let rest ← p.channel n (t + 1 / p.rate)
      .ok (Real.sin (t * f * (Real.pi * 2)) * p.alpha :: rest)
    | none => do
      let rest ← p.channel n t
      .ok (0 :: rest)

/-- vst_host.rs 110-142: `c` channels. -/
noncomputable def Plug.channels (p : Plug) (n : Nat) : Nat → Res Empty (List (List ℝ))
  | 0 => .ok []
  | c + 1 => do
    let x ← p.channel n p.time
    let xs ← p.channels n c
    .ok (x :: xs)

/-- vst_host.rs 104-145 `process` of a buffer of `c` channels and `n` samples. -/
noncomputable def Plug.process (p : Plug) (c n : Nat) : Res Empty (Plug × List (List ℝ)) := do
  let out ← p.channels n c
  .ok ({ p with time := p.time + n * (1 / p.rate), dur := p.dur + n * (1 / p.rate) }, out)

/-! ## Specification -/

/-- `n` samples of a sine of frequency `f` and level `a`, the first at time `t`, `dt` apart. -/
noncomputable def Spec.sine (f a t dt : ℝ) (n : Nat) : List ℝ := (List.range n).map fun (i : Nat) => a * Real.sin (2 * Real.pi * f * (t + (i : ℝ) * dt))

/-! ## Lemmas -/

theorem channel_none (p : Plug) (h : p.note = none) (n : Nat) (t : ℝ) : p.channel n t = .ok (List.replicate n 0) := by
  induction n generalizing t with
  | zero => rfl
  | succ n ih =>
    unfold Plug.channel
    rw [h]
    simp only [ih, Res.ok_bind, List.replicate_succ]

theorem channel_some (p : Plug) (k : Nat) (h : p.note = some k) (hk : k ≤ 127) (n : Nat) (t : ℝ) :
    p.channel n t = .ok (Spec.sine ((2 : ℝ) ^ (((k : ℝ) - 69) / 12) * 432) p.alpha t (1 / p.rate) n) := by
  induction n generalizing t with
  | zero => rfl
  | succ n ih =>
    unfold Plug.channel
    rw [h]
    simp only [ih, midiFreq, if_pos hk, Res.ok_bind]
    congr 1
    unfold Spec.sine
    rw [List.range_succ_eq_map, List.map_cons, List.map_map]
    congr 1
    · rw [mul_comm]; congr 2; push_cast; ring
    · apply List.map_congr_left
      intro i _
      simp only [Function.comp]
      congr 2; push_cast; ring

theorem channels_ok (p : Plug) (n : Nat) (x : List ℝ) (h : p.channel n p.time = .ok x) (c : Nat) : p.channels n c = .ok (List.replicate c x) := by
  induction c with
  | zero => rfl
  | succ c ih => unfold Plug.channels; rw [h, Res.ok_bind, ih, Res.ok_bind, List.replicate_succ]

theorem alpha_range (p : Plug) (h : 0 ≤ p.dur) : 0 ≤ p.alpha ∧ p.alpha ≤ 1 := by
  unfold Plug.alpha
  split_ifs with c
  · constructor
    · positivity
    · rw [div_le_one (by norm_num)]; exact c.le
  · exact ⟨zero_le_one, le_refl _⟩

/-! ## C190 -/

/-- C190. In every state, for every buffer: without a note the plugin delivers silence; with a note of the keyboard a sine of
that key's frequency, continuing in phase from the plugin's clock, the same on all channels, within [-1, 1]. -/
theorem C190_sound (p : Plug) (c n : Nat) (hd : 0 ≤ p.dur) :
    (p.note = none → ∃ p', p.process c n = .ok (p', List.replicate c (List.replicate n 0))) ∧
    (∀ k, p.note = some k → k ≤ 127 → ∃ p' a, 0 ≤ a ∧ a ≤ 1 ∧
      p.process c n = .ok (p', List.replicate c (Spec.sine ((2 : ℝ) ^ (((k : ℝ) - 69) / 12) * 432) a p.time (1 / p.rate) n)) ∧
      p'.time = p.time + n * (1 / p.rate) ∧ p'.note = some k ∧
      ∀ y ∈ Spec.sine ((2 : ℝ) ^ (((k : ℝ) - 69) / 12) * 432) a p.time (1 / p.rate) n, |y| ≤ 1) := by
  constructor
  · intro h
    exact ⟨_, by unfold Plug.process; rw [channels_ok p n _ (channel_none p h n _), Res.ok_bind]⟩
  · intro k h hk
    have ha := alpha_range p hd
    refine ⟨⟨p.rate, p.time + n * (1 / p.rate), p.dur + n * (1 / p.rate), p.note⟩, p.alpha, ha.1, ha.2, by unfold Plug.process; rw [channels_ok p n _ (channel_some p k h hk n _), Res.ok_bind], rfl, h, ?_⟩
    intro y hy
    obtain ⟨i, -, rfl⟩ := List.mem_map.mp hy
    simp only [abs_mul, abs_of_nonneg ha.1]
    exact mul_le_one₀ ha.2 (abs_nonneg _) (Real.abs_sin_le_one _)

/-- Blocks of the lengths given, one after the other, with nothing but audio in between. -/
noncomputable def Plug.blocks (p : Plug) (c : Nat) : List Nat → Res Empty (Plug × List (List (List ℝ)))
  | [] => .ok (p, [])
  | n :: ns => do
    let r ← p.process c n
    let rs ← r.1.blocks c ns
    .ok (rs.1, r.2 :: rs.2)

/-- What is heard of a key after its note-on: `d` the samples already played of it, `t` the phase origin. In each block the level is that reached at its start, growing to 1 over half a second. -/
noncomputable def Spec.attack (f t rate : ℝ) (c : Nat) : Nat → List Nat → List (List (List ℝ))
  | _, [] => []
  | d, n :: ns => List.replicate c (Spec.sine f (min 1 (2 * (d / rate))) (t + d / rate) (1 / rate) n) :: Spec.attack f t rate c (d + n) ns

theorem blocks_from (c : Nat) {f : ℝ} {k : Nat} (hk : k ≤ 127) (hf : f = (2 : ℝ) ^ (((k : ℝ) - 69) / 12) * 432) (t rate : ℝ) :
    ∀ (ns : List Nat) (d : Nat), ∃ p', Plug.blocks ⟨rate, t + d / rate, d / rate, some k⟩ c ns = .ok (p', Spec.attack f t rate c d ns) := by
  intro ns
  induction ns with
  | nil => intro d; exact ⟨_, rfl⟩
  | cons n ns ih =>
    intro d
    have e : Plug.process ⟨rate, t + d / rate, d / rate, some k⟩ c n =
        .ok (⟨rate, t + (d + n : Nat) / rate, (d + n : Nat) / rate, some k⟩, List.replicate c (Spec.sine f (min 1 (2 * (d / rate))) (t + d / rate) (1 / rate) n)) := by
      unfold Plug.process
      rw [channels_ok _ n _ (channel_some ⟨rate, t + d / rate, d / rate, some k⟩ k rfl hk n _), Res.ok_bind, ← hf]
      have a : Plug.alpha ⟨rate, t + d / rate, d / rate, some k⟩ = min 1 (2 * (d / rate)) := by
        unfold Plug.alpha
        simp only
        split_ifs with h
        · rw [min_eq_right (by linarith)]; ring
        · rw [min_eq_left (by push Not at h; linarith)]
      rw [a]
      have e1 : t + (d : ℝ) / rate + n * (1 / rate) = t + (d + n : Nat) / rate := by push_cast; ring
      have e2 : (d : ℝ) / rate + n * (1 / rate) = (d + n : Nat) / rate := by push_cast; ring
      simp only [e1, e2]
    obtain ⟨p', h'⟩ := ih (d + n)
    refine ⟨p', ?_⟩
    rw [Plug.blocks, e, Res.ok_bind]
    dsimp only
    rw [h', Res.ok_bind]
    rfl

/-- **C190.** The attack: a note-on starts the level again from 0, whatever was sounding before, and over blocks of any lengths it rises to 1 in half a second of samples, in a staircase of one step a block; the sine goes on without a
jump of phase. -/
theorem C190_attack (p : Plug) (c k : Nat) (hk : k ≤ 127) (ns : List Nat) :
    ∃ p', (p.noteOn k).blocks c ns = .ok (p', Spec.attack ((2 : ℝ) ^ (((k : ℝ) - 69) / 12) * 432) p.time p.rate c 0 ns) := by
  have := blocks_from c hk rfl p.time p.rate ns 0
  have e : p.noteOn k = ⟨p.rate, p.time + (0 : Nat) / p.rate, (0 : Nat) / p.rate, some k⟩ := by
    unfold Plug.noteOn; simp
  rw [e]; exact this

/-- A note number past the keyboard, as no MIDI note-on can carry, takes the plugin down at the next non-empty buffer. -/
theorem C190_bad_key (p : Plug) (k c n : Nat) (hk : 127 < k) (hc : 0 < c) (hn : 0 < n) :
    (p.noteOn k).process c n = .panic "assertion failed: note <= 127" := by
  obtain ⟨c, rfl⟩ : ∃ m, c = m + 1 := ⟨c - 1, by omega⟩
  obtain ⟨n, rfl⟩ : ∃ m, n = m + 1 := ⟨n - 1, by omega⟩
  unfold Plug.process Plug.channels Plug.channel Plug.noteOn
  simp only [midiFreq, if_neg (show ¬ k ≤ 127 by omega), Res.panic_bind]

/-! ## C191 -/

/-- C191, the part that holds: twelve keys up is twice the frequency, and each key is above the one before by the same ratio. -/
theorem C191_scale_partial (k : Nat) (hk : k + 12 ≤ 127) : ∃ f g h : ℝ, midiFreq k = .ok f ∧ midiFreq (k + 12) = .ok g ∧ midiFreq (k + 1) = .ok h ∧
    0 < f ∧ g = 2 * f ∧ h = 2 ^ ((1:ℝ) / 12) * f := by
  refine ⟨_, _, _, if_pos (by omega), if_pos (by omega), if_pos (by omega), by positivity, ?_, ?_⟩
  · rw [show (((k + 12 : Nat) : ℝ) - 69) / 12 = ((k : ℝ) - 69) / 12 + 1 by push_cast; ring, Real.rpow_add (by norm_num), Real.rpow_one]
    ring
  · rw [show (((k + 1 : Nat) : ℝ) - 69) / 12 = 1 / 12 + ((k : ℝ) - 69) / 12 by push_cast; ring, Real.rpow_add (by norm_num)]
    ring

/-- C191 is false of the code: the documentation says that A4 is 440 Hz; the key A4 sounds at 432 Hz, and no key sounds at 440. -/
theorem C191_concert_pitch_refuted : midiFreq 69 = .ok 432 ∧ ∀ k, midiFreq k ≠ .ok 440 := by
  constructor
  · unfold midiFreq
    rw [if_pos (by norm_num)]
    norm_num
  · intro k h
    unfold midiFreq at h
    split_ifs at h with hk
    have h1 : (2 : ℝ) ^ (((k : ℝ) - 69) / 12) * 432 = 440 := by injection h
    by_cases c : k ≤ 69
    · have : (2 : ℝ) ^ (((k : ℝ) - 69) / 12) ≤ 2 ^ (0:ℝ) := Real.rpow_le_rpow_of_exponent_le (by norm_num) (by
        have : (k:ℝ) ≤ 69 := by exact_mod_cast c
        linarith)
      rw [Real.rpow_zero] at this
      linarith
    · have h70 : (70:ℝ) ≤ k := by exact_mod_cast (show 70 ≤ k by omega)
      have hle : (2 : ℝ) ^ ((1:ℝ) / 12) ≤ (2 : ℝ) ^ (((k : ℝ) - 69) / 12) := Real.rpow_le_rpow_of_exponent_le (by norm_num) (by linarith)
      have h12 : ((2 : ℝ) ^ ((1:ℝ) / 12)) ^ 12 = 2 := by
        rw [← Real.rpow_natCast, ← Real.rpow_mul (by norm_num)]; norm_num
      have hb : (2 : ℝ) ^ ((1:ℝ) / 12) ≤ 55 / 54 := by linarith
      have hp : ((2 : ℝ) ^ ((1:ℝ) / 12)) ^ 12 ≤ (55 / 54) ^ 12 := pow_le_pow_left₀ (by positivity) hb 12
      rw [h12] at hp
      norm_num at hp

/-! ## C192 -/

theorem sine_append (f a t dt : ℝ) (m n : Nat) : Spec.sine f a t dt (m + n) = Spec.sine f a t dt m ++ Spec.sine f a (t + m * dt) dt n := by
  unfold Spec.sine
  rw [List.range_add, List.map_append, List.map_map]
  congr 1
  apply List.map_congr_left
  intro i _
  simp only [Function.comp]
  congr 3; push_cast; ring

/-- C192, the part that holds: half a second after the note began the sound does not depend on how the host cuts it into buffers -
two buffers deliver what one buffer of their joint length delivers. -/
theorem C192_cut_partial (p : Plug) (m n k : Nat) (hd : 1 / 2 ≤ p.dur) (hr : 0 < p.rate) (hk : k ≤ 127) (hn : p.note = some k) :
    ∃ p1 p2 x y, p.process 1 m = .ok (p1, [x]) ∧ p1.process 1 n = .ok (p2, [y]) ∧ p.process 1 (m + n) = .ok (p2, [x ++ y]) := by
  have e : ∀ (q : Plug) (j : Nat), q.note = some k → q.process 1 j = .ok (⟨q.rate, q.time + j * (1 / q.rate), q.dur + j * (1 / q.rate), q.note⟩,
      [Spec.sine ((2 : ℝ) ^ (((k : ℝ) - 69) / 12) * 432) q.alpha q.time (1 / q.rate) j]) := by
    intro q j hq
    unfold Plug.process
    rw [channels_ok q j _ (channel_some q k hq hk j _), Res.ok_bind]; rfl
  have a1 : p.alpha = 1 := if_neg (not_lt.mpr hd)
  have hpos : 0 ≤ (m:ℝ) * (1 / p.rate) := by positivity
  have a2 : Plug.alpha ⟨p.rate, p.time + m * (1 / p.rate), p.dur + m * (1 / p.rate), p.note⟩ = 1 :=
    if_neg (not_lt.mpr (show 1 / 2 ≤ p.dur + m * (1 / p.rate) by linarith))
  refine ⟨_, _, _, _, e p m hn, e _ n hn, ?_⟩
  rw [e p (m + n) hn, a1, a2, sine_append]
  congr 2
  congr 1 <;> (push_cast; ring)

/-- C192 is false of the code during the attack: the level is fixed for a whole buffer. Two hosts that play the same note from
its beginning, one in a buffer of two, one in two buffers of one sample, get different sound: the second sample is silent
in the one and not in the other, at a sample rate of 44100 and key 69. And the level of the first buffer of every note is zero, however
long the buffer is. -/
theorem C192_cut_refuted : ∃ p : Plug, p.rate = 44100 ∧ p.time = 0 ∧
    (∃ p' x, (p.noteOn 69).process 1 2 = .ok (p', [[x, 0]])) ∧
    ∃ p1 p2 x y, (p.noteOn 69).process 1 1 = .ok (p1, [[x]]) ∧ p1.process 1 1 = .ok (p2, [[y]]) ∧ y ≠ 0 := by
  refine ⟨⟨44100, 0, 0, none⟩, rfl, rfl, ?_, ?_⟩
  · refine ⟨⟨44100, 0 + ((2:ℕ):ℝ) * (1 / 44100), 0 + ((2:ℕ):ℝ) * (1 / 44100), some 69⟩, 0, ?_⟩
    · unfold Plug.process
      rw [channels_ok _ 2 _ (channel_some _ 69 rfl (by norm_num) 2 _), Res.ok_bind]
      have ha : ((⟨44100, 0, 0, none⟩ : Plug).noteOn 69).alpha = 0 := by
        unfold Plug.alpha Plug.noteOn; norm_num
      simp [Spec.sine, List.range_succ, Plug.noteOn]
      left; exact ha
  · have e1 : ((⟨44100, 0, 0, none⟩ : Plug).noteOn 69).process 1 1 = .ok (⟨44100, 0 + ((1:ℕ):ℝ) * (1 / 44100), 0 + ((1:ℕ):ℝ) * (1 / 44100), some 69⟩,
        List.replicate 1 (Spec.sine ((2 : ℝ) ^ ((((69:ℕ) : ℝ) - 69) / 12) * 432) ((⟨44100, 0, 0, none⟩ : Plug).noteOn 69).alpha 0 (1 / 44100) 1)) := by
      unfold Plug.process
      rw [channels_ok _ 1 _ (channel_some _ 69 rfl (by norm_num) 1 _), Res.ok_bind]
      rfl
    have e2 : (⟨44100, 0 + ((1:ℕ):ℝ) * (1 / 44100), 0 + ((1:ℕ):ℝ) * (1 / 44100), some 69⟩ : Plug).process 1 1 = .ok (⟨44100, 0 + ((1:ℕ):ℝ) * (1 / 44100) + ((1:ℕ):ℝ) * (1 / 44100), 0 + ((1:ℕ):ℝ) * (1 / 44100) + ((1:ℕ):ℝ) * (1 / 44100), some 69⟩,
        List.replicate 1 (Spec.sine ((2 : ℝ) ^ ((((69:ℕ) : ℝ) - 69) / 12) * 432)
          (⟨44100, 0 + ((1:ℕ):ℝ) * (1 / 44100), 0 + ((1:ℕ):ℝ) * (1 / 44100), some 69⟩ : Plug).alpha (0 + ((1:ℕ):ℝ) * (1 / 44100)) (1 / 44100) 1)) := by
      unfold Plug.process
      rw [channels_ok _ 1 _ (channel_some _ 69 rfl (by norm_num) 1 _), Res.ok_bind]
    refine ⟨_, _, _, _, e1, e2, ?_⟩
    have hal : (⟨44100, 0 + ((1:ℕ):ℝ) * (1 / 44100), 0 + ((1:ℕ):ℝ) * (1 / 44100), some 69⟩ : Plug).alpha = 1 / 22050 := by
      unfold Plug.alpha; norm_num
    simp only [hal]
    apply mul_ne_zero (by norm_num)
    apply ne_of_gt
    apply Real.sin_pos_of_pos_of_lt_pi
    · have := Real.pi_pos
      norm_num
      positivity
    · have := Real.pi_pos
      norm_num
      nlinarith

/-- Non-vacuity of C192_cut_partial: a note half a second old. -/
example : ∃ p : Plug, 1 / 2 ≤ p.dur ∧ 0 < p.rate ∧ p.note = some 60 := ⟨⟨48000, 1, 1 / 2, some 60⟩, by norm_num, by norm_num, rfl⟩

/-! ## C193 -/

/-- A list of MIDI messages. -/
noncomputable def Plug.events (p : Plug) : List (Nat × Nat × Nat) → Plug
  | [] => p
  | (a, b, c) :: es => (p.event a b c).events es

theorem events_append (xs ys : List (Nat × Nat × Nat)) : ∀ p : Plug, p.events (xs ++ ys) = (p.events xs).events ys := by
  induction xs with
  | nil => intro p; rfl
  | cons x xs ih => intro p; exact ih _

/-- C193, the part that holds: on MIDI channel 1 a note-on sounds its key at once; the note-off of the key that sounds silences it, the
note-off of any other key changes nothing; after any history of messages ending with the note-off of every key that could sound there
is silence. -/
theorem C193_notes_partial (p : Plug) (k j v : Nat) :
    (p.event 144 k v).note = some k ∧ ((p.event 144 k v).event 128 k 0).note = none ∧
    (j ≠ k → (p.event 144 k v).event 128 j 0 = p.event 144 k v) ∧
    (∀ es : List (Nat × Nat × Nat), (∀ e ∈ es, e.2.1 ≤ 127) → (∀ k, p.note = some k → k ≤ 127) →
      (p.events (es ++ (List.range 128).map fun k => (128, k, 0))).note = none) := by
  refine ⟨rfl, ?_, ?_, ?_⟩
  · simp [Plug.event, Plug.noteOn, Plug.noteOff]
  · intro h
    simp only [Plug.event, Plug.noteOn, Plug.noteOff]
    norm_num
    intro c; exact absurd c.symm h
  · intro es hes hp
    rw [events_append]
    have h1 : ∀ (es : List (Nat × Nat × Nat)) (p : Plug), (∀ e ∈ es, e.2.1 ≤ 127) → (∀ k, p.note = some k → k ≤ 127) →
        ∀ k, (p.events es).note = some k → k ≤ 127 := by
      intro es
      induction es with
      | nil => intro p _ h; exact h
      | cons e es ih =>
        intro p he h
        refine ih _ (fun x hx => he x (List.mem_cons_of_mem _ hx)) ?_
        intro k hk
        unfold Plug.event at hk
        split_ifs at hk
        · unfold Plug.noteOff at hk
          split_ifs at hk with c
          exact h k hk
        · have : k = e.2.1 := by simpa [Plug.noteOn] using hk.symm
          rw [this]; exact he e (List.mem_cons_self ..)
        · exact h k hk
    have h2 : ∀ (n : Nat) (p : Plug), (p.events ((List.range n).map fun k => (128, k, 0))).note = none ∨
        ((p.events ((List.range n).map fun k => (128, k, 0))).note = p.note ∧ ∀ k, p.note = some k → n ≤ k) := by
      intro n
      induction n with
      | zero => intro p; exact Or.inr ⟨rfl, fun _ _ => Nat.zero_le _⟩
      | succ n ih =>
        intro p
        rw [List.range_succ, List.map_append, events_append]
        generalize hq : p.events ((List.range n).map fun k => (128, k, 0)) = q
        have hi := ih p
        rw [hq] at hi
        show (q.noteOff n).note = none ∨ ((q.noteOff n).note = p.note ∧ _)
        unfold Plug.noteOff
        split_ifs with c
        · left; rfl
        · rcases hi with hi | ⟨hi, hk⟩
          · left; exact hi
          · right; refine ⟨hi, fun k h => ?_⟩
            rcases Nat.lt_or_ge n k with h' | h'
            · exact h'
            · have := hk k h
              have : k = n := by omega
              subst this
              exact absurd (hi.trans h) c
    rcases h2 128 (p.events es) with h | ⟨h, hk⟩
    · exact h
    · cases hn : (p.events es).note with
      | none => rw [h, hn]
      | some k => exact absurd (hk k hn) (by have := h1 es p hes hp k hn; omega)

/-- C193 is false of the code: a fresh plugin plays a note, key 59, that nobody pressed; messages on the other 15 MIDI channels
are ignored; a note-on with velocity zero, which MIDI defines as a note-off, starts the note. -/
theorem C193_notes_refuted : Plug.fresh.note = some 59 ∧
    (∀ (p : Plug) (c k v : Nat), 0 < c → c < 16 → p.event (144 + c) k v = p ∧ p.event (128 + c) k v = p) ∧
    ∀ (p : Plug) (k : Nat), (p.event 144 k 0).note = some k := by
  refine ⟨rfl, ?_, fun p k => rfl⟩
  intro p c k v h0 h1
  unfold Plug.event
  constructor
  · rw [if_neg (by omega), if_neg (by omega)]
  · rw [if_neg (by omega), if_neg (by omega)]

end Verif.Synth.Plugin
