import Verif.Tuning.Lemmas
import Mathlib.Tactic.IntervalCases
/-!
# C25, C26, C40: what retuning writes into the pitch table
-/
namespace Verif.Tuning
open Spec

/-- The two mappings under which keys run straight through the scale: the built-in standard one and a mapping file
that maps no keys (`count = 0`, the "linear" mapping), with any middle and reference note of the table. -/
structure Linear (m : Mapping) : Prop where
  kind : m = Mapping.default ∨ m.count = 0
  lo : -256 ≤ m.tuningNote
  hi : m.tuningNote ≤ 255

theorem Linear.refPosition {m : Mapping} (h : Linear m) : refPosition m = .ok (m.tuningNote - m.middle) := by
  unfold Tuning.refPosition
  rcases h.kind with rfl | hc
  · simp [Mapping.default, idxI32]
  · rw [if_neg (by omega)]

theorem Linear.keyPosition {m : Mapping} (h : Linear m) (ds : Int) : keyPosition m ds = .ok (false, ds - 1) := by
  unfold Tuning.keyPosition
  rw [if_pos]
  rcases h.kind with rfl | hc
  · rfl
  · simp [hc]

/-- The entry written for pitch `p` (in octaves, one more than the height above the reference). -/
theorem entry_eq (c : ℝ) (hc : 0 < c) (p : ℚ) :
    (2 : ℝ) ^ ((p : ℝ) + (Real.logb 2 c - 1)) = c * (2 : ℝ) ^ ((p : ℝ) - 1) := by
  have : (p : ℝ) + (Real.logb 2 c - 1) = Real.logb 2 c + ((p : ℝ) - 1) := by ring
  rw [this, Real.rpow_add (by norm_num), Real.rpow_logb (by norm_num) (by norm_num) hc]

theorem retune_of_pitches {t : Tuner} {sc : Scale} (h : WellFormed sc) (hc : 0 < t.pitch) (g : Nat → ℚ)
    (hp : allPitches sc t.mapping = .ok ((List.range 512).map g)) :
    ∃ t', t.retune sc = .ok (true, t') ∧ t'.scale = sc ∧ t'.mapping = t.mapping ∧ t'.pitch = t.pitch ∧
      t'.isStdTuning = false ∧
      (∀ i < 512, t'.table i = t.pitch * (2 : ℝ) ^ ((g i : ℝ) - 1)) ∧
      (∀ i < 512, t'.tableInv i = 1 / t'.table i) := by
  have hv : sc.isValid = true := by have := h.pos; simp [Scale.isValid]; omega
  unfold Tuner.retune
  rw [hv]
  simp only [Bool.not_true, Bool.false_eq_true, if_false, hp, Res.ok_bind, Res.pure_eq]
  refine ⟨_, rfl, rfl, rfl, rfl, rfl, fun i hi => ?_, fun i _ => rfl⟩
  show (2 : ℝ) ^ _ = _
  rw [entry_eq _ hc]
  simp [hi]

/-- **C25 (table contents)**: after retuning any tuner to a well-formed scale under a linear mapping, the entry of note
`i - 256` is the reference pitch times `2^(degree of that note − degree of the reference note)`, for all 512 entries;
and the inverse table holds the reciprocals. -/
theorem C25_table_contents (t : Tuner) (sc : Scale) (h : WellFormed sc) (hm : Linear t.mapping)
    (hc : 0 < t.pitch) :
    ∃ t', t.retune sc = .ok (true, t') ∧ t'.pitch = t.pitch ∧
      ∀ i < 512,
        t'.table i = t.pitch * (2 : ℝ) ^
          (((degree sc ((i : ℤ) - 256 - t.mapping.middle)
            - degree sc (t.mapping.tuningNote - t.mapping.middle) : ℚ)) : ℝ) ∧
        t'.tableInv i = 1 / t'.table i := by
  set m := t.mapping with hmm
  have e1 := centerOffset_eq h m _ hm.refPosition
  have hg : ∀ i < 512, pitchAt sc m (degree sc (m.tuningNote - m.middle) - 1) i =
      .ok (degree sc ((i : ℤ) - 256 - m.middle) - (degree sc (m.tuningNote - m.middle) - 1)) := by
    intro i _
    by_cases hi : (i : Int) - (256 + m.tuningNote) = 0
    · unfold pitchAt
      rw [if_pos hi]
      have : (i : ℤ) - 256 - m.middle = m.tuningNote - m.middle := by omega
      rw [this]; congr 1; ring
    · rw [pitchAt_eq h m _ i _ hi (hm.keyPosition _)]
      have : (i : ℤ) - (256 + m.middle) - 1 + 1 = (i : ℤ) - 256 - m.middle := by ring
      rw [this]
  obtain ⟨t', r, _, _, hp, _, ht, hi⟩ := retune_of_pitches h hc _ (allPitches_eq sc m _ _ e1 ⟨hm.lo, hm.hi⟩ hg)
  refine ⟨t', r, hp, fun i h5 => ⟨?_, hi i h5⟩⟩
  rw [ht i h5]
  congr 2
  push_cast; ring

/-- **C25**: moving up by one scale length multiplies the pitch by exactly two to the scale's period, everywhere in
the table (below the scale's origin too). -/
theorem C25_retune_periodic (t : Tuner) (sc : Scale) (h : WellFormed sc) (hm : Linear t.mapping)
    (hc : 0 < t.pitch) :
    ∃ t', t.retune sc = .ok (true, t') ∧
      ∀ i, i + sc.count < 512 → t'.table (i + sc.count) = t'.table i * (2 : ℝ) ^ ((period sc : ℚ) : ℝ) := by
  obtain ⟨t', r, _, ht⟩ := C25_table_contents t sc h hm hc
  refine ⟨t', r, fun i hi => ?_⟩
  rw [(ht _ hi).1, (ht i (by omega)).1, mul_assoc, ← Real.rpow_add (by norm_num)]
  congr 2
  have : ((i + sc.count : ℕ) : ℤ) - 256 - t.mapping.middle = ((i : ℤ) - 256 - t.mapping.middle) + sc.count := by
    push_cast; ring
  rw [this, degree_add_count h]
  push_cast; ring

/-- **C26**: the reference note's entry is exactly the reference pitch. -/
theorem C26_reference_pitch (t : Tuner) (sc : Scale) (h : WellFormed sc) (hm : Linear t.mapping)
    (hc : 0 < t.pitch) :
    ∃ t', t.retune sc = .ok (true, t') ∧ t'.table (256 + t.mapping.tuningNote).toNat = t.pitch := by
  obtain ⟨t', r, _, ht⟩ := C25_table_contents t sc h hm hc
  have hl := hm.lo; have hh := hm.hi
  refine ⟨t', r, ?_⟩
  rw [(ht _ (by omega)).1]
  have : ((256 + t.mapping.tuningNote).toNat : ℤ) - 256 - t.mapping.middle = t.mapping.tuningNote - t.mapping.middle := by
    omega
  rw [this, sub_self]; simp

/-- The 12-tone equal scale: tones at 100-cent steps, one octave period. -/
def edo12 : Scale := ⟨12, [13/12, 14/12, 15/12, 16/12, 17/12, 18/12, 19/12, 20/12, 21/12, 22/12, 23/12, 2]⟩

theorem edo12_wf : WellFormed edo12 := ⟨by decide, by decide⟩

theorem edo12_degree (d : ℤ) : degree edo12 d = 1 + d / 12 := by
  have hp : period edo12 = 1 := by simp [period, edo12]; norm_num
  have hr0 := Int.emod_nonneg d (by norm_num : (12:ℤ) ≠ 0)
  have hr1 := Int.emod_lt_of_pos d (by norm_num : (0:ℤ) < 12)
  have hd := Int.emod_add_mul_ediv d 12
  have e : (d : ℚ) = (d % 12 : ℤ) + 12 * (d / 12 : ℤ) := by exact_mod_cast hd.symm
  unfold degree
  rw [hp]
  show ((d / 12 : ℤ) : ℚ) * 1 + (if d % 12 = 0 then 1 else edo12.tones.getD ((d % 12).toNat - 1) 1) = _
  rw [e]
  generalize d % 12 = r at *
  generalize d / 12 = k at *
  interval_cases r <;> simp [edo12] <;> ring

theorem default_linear : Linear Mapping.default := ⟨Or.inl rfl, by simp [Mapping.default], by simp [Mapping.default]⟩

/-- **C25 (agreement)**: retuning a fresh tuner to the 12-tone equal scale reproduces the standard table exactly. -/
theorem C25_twelve_tone_is_standard :
    ∃ t', Tuner.fresh.retune edo12 = .ok (true, t') ∧ ∀ i < 512, t'.table i = stdTable i := by
  obtain ⟨t', r, _, ht⟩ := C25_table_contents Tuner.fresh edo12 edo12_wf default_linear (by simp [Tuner.fresh])
  refine ⟨t', r, fun i hi => ?_⟩
  rw [(ht i hi).1, edo12_degree, edo12_degree]
  unfold stdTable
  have h32 : (Tuner.fresh.pitch : ℝ) = (2 : ℝ) ^ (5 : ℝ) := by
    show (32 : ℝ) = _
    norm_num
  rw [h32, ← Real.rpow_add (by norm_num)]
  have e1 : Tuner.fresh.mapping.middle = 60 := rfl
  have e2 : Tuner.fresh.mapping.tuningNote = 60 := rfl
  rw [e1, e2]
  refine congrArg (fun x : ℝ => (2 : ℝ) ^ x) ?_
  push_cast; ring

/-! ## Mapped keyboards -/

/-- A usable mapping file: `count` keys listed, and a reference note that is one of the keys of the first octave above
the middle note and is not disabled. -/
structure Mapped (m : Mapping) : Prop where
  std : m.isStandard = false
  pos : 0 < m.count
  len : (m.keys.length : ℤ) = m.count
  lo : -256 ≤ m.tuningNote
  hi : m.tuningNote ≤ 255
  ref0 : 0 ≤ m.tuningNote - m.middle
  ref1 : m.tuningNote - m.middle < m.count

/-- The listed key number of the key at distance `ds` from the middle note; the pattern repeats every `count` keys. -/
def keyOf (m : Mapping) (ds : ℤ) : ℤ := m.keys.getD (ds % m.count).toNat 0

/-- The scale degree it plays: key number plus `count` for every pattern length away from the middle note. -/
def keyDegree (m : Mapping) (ds : ℤ) : ℤ := m.count * (ds / m.count) + keyOf m ds

theorem Mapped.keyPosition {m : Mapping} (h : Mapped m) (ds : ℤ) :
    keyPosition m ds = if keyOf m ds < 0 then .ok (true, ds - 1) else .ok (false, keyDegree m ds - 1) := by
  unfold Tuning.keyPosition
  have hp := h.pos
  rw [if_neg (by simp [h.std]; omega)]
  have hf := (floor_fixup ds m.count.toNat (by omega)).1
  have hcn : (m.count.toNat : ℤ) = m.count := by omega
  rw [hcn] at hf
  have h0 := Int.emod_nonneg ds hp.ne'
  have h1 := Int.emod_lt_of_pos ds hp
  have hd := Int.emod_add_mul_ediv ds m.count
  dsimp only
  rw [hf, idxI32_ok _ _ h0 (by rw [h.len]; exact h1) 0]
  simp only [Res.ok_bind, Res.pure_eq]
  show (if keyOf m ds < 0 then _ else _) = _
  by_cases hk : keyOf m ds < 0
  · rw [if_pos hk, if_pos hk]
  · rw [if_neg hk, if_neg hk]
    unfold keyDegree
    show Res.ok (false, ds - (ds % m.count - keyOf m ds) - 1) = _
    congr 2
    linarith

theorem Mapped.refPosition {m : Mapping} (h : Mapped m) :
    refPosition m = .ok (keyDegree m (m.tuningNote - m.middle)) := by
  unfold Tuning.refPosition
  have hp := h.pos
  rw [if_pos hp, idxI32_ok _ _ h.ref0 (by rw [h.len]; exact h.ref1) 0]
  unfold keyDegree keyOf
  rw [Int.ediv_eq_zero_of_lt h.ref0 h.ref1, Int.emod_eq_of_lt h.ref0 h.ref1]
  simp

/-- **C40**: with a mapping file, every enabled key plays its listed degree, transposed by `count` degrees per pattern
length, relative to the reference note's degree; every disabled key gets half the reference pitch. -/
theorem C40_mapped_table_partial (t : Tuner) (sc : Scale) (h : WellFormed sc) (hm : Mapped t.mapping)
    (href : 0 ≤ keyOf t.mapping (t.mapping.tuningNote - t.mapping.middle))
    (hc : 0 < t.pitch) :
    ∃ t', t.retune sc = .ok (true, t') ∧
      ∀ i : ℕ, i < 512 → ∀ ds : ℤ, ds = (i : ℤ) - 256 - t.mapping.middle →
        (0 ≤ keyOf t.mapping ds → t'.table i = t.pitch * (2 : ℝ) ^
          (((degree sc (keyDegree t.mapping ds)
            - degree sc (keyDegree t.mapping (t.mapping.tuningNote - t.mapping.middle)) : ℚ)) : ℝ)) ∧
        (keyOf t.mapping ds < 0 → t'.table i = t.pitch / 2) := by
  set m := t.mapping with hmm
  have e1 := centerOffset_eq h m _ hm.refPosition
  set off := degree sc (keyDegree m (m.tuningNote - m.middle)) - 1 with hoff
  have hg : ∀ i < 512, pitchAt sc m off i =
      .ok (if keyOf m ((i : ℤ) - (256 + m.middle)) < 0 then 0
           else degree sc (keyDegree m ((i : ℤ) - (256 + m.middle))) - off) := by
    intro i _
    have hk := hm.keyPosition ((i : ℤ) - (256 + m.middle))
    by_cases hi : (i : Int) - (256 + m.tuningNote) = 0
    · unfold pitchAt
      have : (i : ℤ) - (256 + m.middle) = m.tuningNote - m.middle := by omega
      rw [if_pos hi, this, if_neg (by omega)]; congr 1; rw [hoff]; ring
    · by_cases hd : keyOf m ((i : ℤ) - (256 + m.middle)) < 0
      · rw [if_pos hd] at hk ⊢
        exact pitchAt_disabled h m off i _ hi hk
      · rw [if_neg hd] at hk ⊢
        rw [pitchAt_eq h m off i _ hi hk, sub_add_cancel]
  obtain ⟨t', r, _, _, _, _, ht, _⟩ := retune_of_pitches h hc _ (allPitches_eq sc m _ _ e1 ⟨hm.lo, hm.hi⟩ hg)
  refine ⟨t', r, fun i h5 ds hds => ?_⟩
  have hds' : (i : ℤ) - (256 + m.middle) = ds := by omega
  have ht' := ht i h5
  rw [hds'] at ht'
  constructor
  · intro hk
    rw [ht', if_neg (by omega), hoff]
    congr 2
    push_cast; ring
  · intro hk
    rw [ht', if_pos hk]
    rw [show (((0:ℚ) : ℝ) - 1) = (-1 : ℝ) by norm_num, Real.rpow_neg_one]
    ring

/-- **C40 (reference outside the first pattern)**: the reference key is looked up without reducing it to the pattern,
so any mapping whose reference note lies below the middle note, or a whole pattern or more above it, makes retuning
panic — for every scale. -/
theorem C40_reference_outside_pattern_panics (t : Tuner) (sc : Scale) (h : sc.isValid = true)
    (hpos : 0 < t.mapping.count)
    (hout : t.mapping.tuningNote - t.mapping.middle < 0 ∨
      (t.mapping.keys.length : ℤ) ≤ t.mapping.tuningNote - t.mapping.middle) :
    (t.retune sc).isPanic = true := by
  have : refPosition t.mapping = .panic "index out of bounds" := by
    unfold refPosition
    rw [if_pos hpos]
    unfold idxI32
    rcases hout with h1 | h1
    · rw [if_pos h1]
    · rw [if_neg (by omega), List.getElem?_eq_none (by omega)]
  unfold Tuner.retune allPitches centerOffset
  simp [h, this, Res.isPanic]

/-- Non-vacuity: a fresh tuner and the 12-tone scale, and white keys only with middle C = C and A as reference. -/
example : WellFormed edo12 ∧ Linear Tuner.fresh.mapping ∧ 0 < Tuner.fresh.pitch :=
  ⟨edo12_wf, default_linear, by simp [Tuner.fresh]⟩
noncomputable example :
    let m : Mapping := { Mapping.default with isStandard := false, count := 12, tuningNote := 69, keys := [0, -1, 1, -1, 2, 3, -1, 4, -1, 5, -1, 6] }
    Mapped m ∧ 0 ≤ keyOf m (m.tuningNote - m.middle) ∧ keyOf m 1 < 0 :=
  ⟨⟨rfl, by decide, rfl, by decide, by decide, by decide, by decide⟩, by decide, by decide⟩

end Verif.Tuning
