import Verif.Rust
import Mathlib.Data.Real.Basic
import Mathlib.Algebra.Order.Archimedean.Real.Basic
import Mathlib.Analysis.SpecialFunctions.Pow.Real
import Mathlib.Tactic.Ring
import Mathlib.Tactic.Linarith
import Mathlib.Tactic.NormNum
import Mathlib.Tactic.FieldSimp
import Mathlib.Tactic.IntervalCases
/-!
# The note an oscillator plays (surge-voice `note_shift_from_pitch_param`), in exact real arithmetic (C129)

The pitch table is any function on its 512 indices.  Rounding to `f32`, and the saturation of `as i32` beyond 2^31, are not modelled.
-/
namespace Verif.Voice

/-- `x as i32`. -/
noncomputable def trunc (x : ℝ) : ℤ := if 0 ≤ x then ⌊x⌋ else ⌈x⌉

/-- surge-voice/src/get.rs 5-8 and surge-tuning/src/handle.rs 171-178: `get_table_pitch`. -/
def tablePitch (T : ℕ → ℝ) (i : ℤ) : Res Empty ℝ := if 0 ≤ i ∧ i < 512 then .ok (T i.toNat) else .panic "get_tablepitch"

/-- surge-voice/src/note_shift.rs 71-88: the search upwards, `fuel` being the distance to 0x1fe. -/
noncomputable def searchUp (T : ℕ → ℝ) (target : ℝ) : ℕ → ℝ → ℤ → Res Empty ℤ
  | 0, _, i => .ok i
  | fuel + 1, p0, i => do
    let p1 ← tablePitch T (i + 1)
    if p0 ≤ target ∧ target < p1 then pure i else searchUp T target fuel p1 (i + 1)

/-- note_shift.rs 90-105: the search downwards, `fuel` being the distance to 0. -/
noncomputable def searchDown (T : ℕ → ℝ) (target : ℝ) : ℕ → ℝ → ℤ → Res Empty ℤ
  | 0, _, i => .ok i
  | fuel + 1, p0, i => do
    let p1 ← tablePitch T (i - 1)
    if target ≤ p0 ∧ p1 < target then pure (i - 1) else searchDown T target fuel p1 (i - 1)

/-- note_shift.rs 5-13 `VoiceNoteShiftCfg`. -/
structure ShiftCfg where
  note : ℝ
  pitch : ℝ
  absolute : Bool
  extend : Bool

/-- note_shift.rs 69-106: the search, up or down. -/
noncomputable def search (T : ℕ → ℝ) (freqShift target p0 : ℝ) (i : ℤ) : Res Empty ℤ :=
  if freqShift > 0 then searchUp T target (0x1fe - i).toNat p0 i else searchDown T target i.toNat p0 i

/-- note_shift.rs 50-120: the absolute branch. -/
noncomputable def absoluteShift (T : ℕ → ℝ) (note freqShift : ℝ) : Res Empty ℝ := do
  let i := min (trunc (note + 256)) 0x1fe
  let p0 ← tablePitch T i
  let target := p0 + freqShift * 32 / 261.626
  let j ← search T freqShift target p0 i
  let a ← tablePitch T j
  let b ← tablePitch T (j + 1)
  let a' ← tablePitch T j
  let frac := (target - a) / (b - a')
  pure ((j : ℝ) + frac - 256)

/-- note_shift.rs 27-128: `note_shift_from_pitch_param`. -/
noncomputable def noteShift (T : ℕ → ℝ) (c : ShiftCfg) : Res Empty ℝ :=
  let r : ℝ := if c.extend then 12 else 1
  if c.absolute then absoluteShift T c.note (10 * c.pitch * r) else .ok (c.note + c.pitch * r)

namespace Spec

/-- The table as a function of the note: straight lines between the entries, the first and the last line prolonged. -/
noncomputable def tableAt (T : ℕ → ℝ) (note : ℝ) : ℝ :=
  let i := (max 0 (min 510 ⌊note + 256⌋)).toNat
  T i + (note + 256 - i) * (T (i + 1) - T i)

/-- The table rises. -/
def Rises (T : ℕ → ℝ) : Prop := ∀ i, i < 511 → T i < T (i + 1)

end Spec

theorem rises_le {T : ℕ → ℝ} (h : Spec.Rises T) {i j : ℕ} (hij : i ≤ j) (hj : j ≤ 511) : T i ≤ T j := by
  induction j with
  | zero => rw [show i = 0 by omega]
  | succ j ih =>
    rcases Nat.eq_or_lt_of_le hij with e | e
    · rw [e]
    · exact (ih (by omega) (by omega)).trans (h j (by omega)).le

theorem searchUp_ok {T : ℕ → ℝ} (_ : Spec.Rises T) (target : ℝ) (fuel : ℕ) (i : ℕ) (hi : i + fuel = 510) (hp : T i ≤ target) :
    ∃ j : ℕ, searchUp T target fuel (T i) i = .ok (j : ℤ) ∧ j ≤ 510 ∧ T j ≤ target ∧ (target < T (j + 1) ∨ j = 510) := by
  induction fuel generalizing i with
  | zero => exact ⟨i, rfl, by omega, hp, .inr (by omega)⟩
  | succ fuel ih =>
    have e : tablePitch T ((i : ℤ) + 1) = .ok (T (i + 1)) := by
      unfold tablePitch; rw [if_pos (by omega)]; congr 2
    unfold searchUp
    rw [e, Res.ok_bind]
    by_cases hc : T i ≤ target ∧ target < T (i + 1)
    · rw [if_pos hc]
      exact ⟨i, rfl, by omega, hp, .inl hc.2⟩
    · rw [if_neg hc]
      have : T (i + 1) ≤ target := by
        by_contra hn
        exact hc ⟨hp, not_le.mp hn⟩
      obtain ⟨j, h1, h2⟩ := ih (i + 1) (by omega) this
      exact ⟨j, by rw [← h1]; push_cast; rfl, h2⟩

theorem searchDown_ok {T : ℕ → ℝ} (hT : Spec.Rises T) (target : ℝ) (i : ℕ) (hi : i ≤ 510) (hp : target ≤ T i) :
    ∃ j : ℕ, searchDown T target i (T i) i = .ok (j : ℤ) ∧ j ≤ 510 ∧ target ≤ T (j + 1) ∧ (T j < target ∨ j = 0) := by
  induction i with
  | zero => exact ⟨0, rfl, by omega, hp.trans (hT 0 (by omega)).le, .inr rfl⟩
  | succ i ih =>
    have e : tablePitch T (((i + 1 : ℕ) : ℤ) - 1) = .ok (T i) := by
      unfold tablePitch; rw [if_pos (by omega)]; congr 2; omega
    unfold searchDown
    rw [e, Res.ok_bind]
    by_cases hc : target ≤ T (i + 1) ∧ T i < target
    · rw [if_pos hc]
      refine ⟨i, ?_, by omega, hp, .inl hc.2⟩
      simp
    · rw [if_neg hc]
      have : target ≤ T i := by
        by_contra hn
        exact hc ⟨hp, not_le.mp hn⟩
      obtain ⟨j, h1, h2⟩ := ih (by omega) this
      exact ⟨j, by rw [← h1]; congr 1; push_cast; ring, h2⟩

/-- **C129, relative.** The note is the key plus the oscillator's pitch, in semitones or, extended, in octaves. -/
theorem C129_relative (T : ℕ → ℝ) (note pitch : ℝ) :
    noteShift T ⟨note, pitch, false, false⟩ = .ok (note + pitch) ∧ noteShift T ⟨note, pitch, false, true⟩ = .ok (note + 12 * pitch) := by
  simp [noteShift, mul_comm]

/-- The index the search starts from. -/
noncomputable def start (note : ℝ) : ℕ := (min (trunc (note + 256)) 0x1fe).toNat

/-- **C129, absolute (what holds).** For every note above the bottom of the table and every rising table: the call returns a note, and the table there is the table at the note's semitone plus
the requested shift in hertz (scaled by 32 / 261.626). -/
theorem C129_absolute_partial {T : ℕ → ℝ} (hT : Spec.Rises T) {note : ℝ} (hn : -257 < note) (pitch : ℝ) (extend : Bool) :
    ∃ r, noteShift T ⟨note, pitch, true, extend⟩ = .ok r ∧ Spec.tableAt T r = T (start note) + 10 * pitch * (if extend then 12 else 1) * 32 / 261.626 := by
  have h0 : 0 ≤ min (trunc (note + 256)) 0x1fe := by
    refine le_min ?_ (by norm_num)
    unfold trunc
    split
    · exact Int.floor_nonneg.mpr (by assumption)
    · refine Int.le_ceil_iff.mpr ?_
      push_cast; linarith
  have h1 : min (trunc (note + 256)) 0x1fe ≤ 510 := min_le_right _ _
  obtain ⟨i, hi⟩ : ∃ i : ℕ, min (trunc (note + 256)) 0x1fe = (i : ℤ) := ⟨_, (Int.toNat_of_nonneg h0).symm⟩
  have hstart : start note = i := by unfold start; rw [hi]; simp
  have hi510 : i ≤ 510 := by omega
  set f : ℝ := 10 * pitch * (if extend then 12 else 1) with hf
  set target := T i + f * 32 / 261.626 with htarget
  have ep : ∀ k : ℕ, k ≤ 511 → tablePitch T (k : ℤ) = .ok (T k) := by
    intro k hk
    unfold tablePitch; rw [if_pos (by omega)]; congr 2
  have key : ∃ j : ℕ, search T f target (T i) i = .ok (j : ℤ) ∧ j ≤ 510 ∧
      (T j ≤ target ∨ j = 0) ∧ (target < T (j + 1) ∨ j = 510 ∨ target = T (j + 1)) := by
    unfold search
    by_cases h : f > 0
    · rw [if_pos h]
      have hle : T i ≤ target := by
        rw [htarget]
        have : 0 ≤ f * 32 / 261.626 := by positivity
        linarith
      obtain ⟨j, h1, h2, h3, h4⟩ := searchUp_ok hT target (0x1fe - (i : ℤ)).toNat i (by omega) hle
      exact ⟨j, h1, h2, .inl h3, h4.imp id .inl⟩
    · rw [if_neg h, Int.toNat_natCast]
      have hle : target ≤ T i := by
        rw [htarget]
        have : f * 32 / 261.626 ≤ 0 := by
          have : 0 ≤ -f * 32 / 261.626 := div_nonneg (mul_nonneg (by linarith) (by norm_num)) (by norm_num)
          have e : -f * 32 / 261.626 = -(f * 32 / 261.626) := by ring
          linarith
        linarith
      obtain ⟨j, h1, h2, h3, h4⟩ := searchDown_ok hT target i hi510 hle
      refine ⟨j, h1, h2, h4.imp le_of_lt id, ?_⟩
      rcases lt_or_eq_of_le h3 with h5 | h5
      · exact .inl h5
      · exact .inr (.inr h5)
  obtain ⟨j, hj, hj510, hlo, hhi⟩ := key
  have hd : 0 < T (j + 1) - T j := sub_pos.mpr (hT j (by omega))
  refine ⟨(j : ℝ) + (target - T j) / (T (j + 1) - T j) - 256, ?_, ?_⟩
  · unfold noteShift absoluteShift
    simp only [if_true, hi, ep i (by omega), Res.ok_bind]
    rw [← hf, ← htarget, hj]
    simp only [Res.ok_bind, ep j (by omega)]
    rw [show ((j : ℤ) + 1) = ((j + 1 : ℕ) : ℤ) by push_cast; rfl, ep (j + 1) (by omega)]
    simp
  · rw [hstart]
    change _ = target
    set x := (target - T j) / (T (j + 1) - T j) with hx
    have hxT : T j + x * (T (j + 1) - T j) = target := by rw [hx]; field_simp; ring
    unfold Spec.tableAt
    have e : (j : ℝ) + x - 256 + 256 = j + x := by ring
    rw [e]
    have hfl : ⌊(j : ℝ) + x⌋ = j + ⌊x⌋ := by
      rw [show (j : ℝ) = ((j : ℤ) : ℝ) by push_cast; rfl, Int.floor_intCast_add]
    rcases hhi with h | h | h
    · -- below the next entry
      have hx1 : x < 1 := by rw [hx, div_lt_one hd]; linarith
      rcases hlo with h' | h'
      · have hx0 : 0 ≤ x := div_nonneg (by linarith) hd.le
        have : ⌊x⌋ = 0 := Int.floor_eq_zero_iff.mpr ⟨hx0, hx1⟩
        rw [hfl, this]
        have : (max 0 (min 510 ((j : ℤ) + 0))).toNat = j := by omega
        rw [this, ← hxT]; ring
      · subst h'
        have : ⌊x⌋ ≤ 0 := by
          have := Int.floor_lt (z := 1) (a := x) |>.mpr (by push_cast; exact hx1)
          omega
        rw [hfl]
        have : (max 0 (min 510 (((0 : ℕ) : ℤ) + ⌊x⌋))).toNat = 0 := by omega
        rw [this, ← hxT]; push_cast; ring
    · subst h
      have hx0 : 0 ≤ x := by
        rcases hlo with h' | h'
        · exact div_nonneg (by linarith) hd.le
        · omega
      have : 0 ≤ ⌊x⌋ := Int.floor_nonneg.mpr hx0
      rw [hfl]
      have : (max 0 (min 510 (((510 : ℕ) : ℤ) + ⌊x⌋))).toNat = 510 := by omega
      rw [this, ← hxT]; push_cast; ring
    · -- exactly at the next entry
      have hx1 : x = 1 := by rw [hx, h]; exact div_self hd.ne'
      have hf1 : ⌊x⌋ = 1 := by rw [hx1]; simp
      rw [hfl, hf1]
      rcases Nat.lt_or_ge j 510 with h5 | h5
      · have : (max 0 (min 510 ((j : ℤ) + 1))).toNat = j + 1 := by omega
        rw [this, hx1, h]; push_cast; ring
      · have : (max 0 (min 510 ((j : ℤ) + 1))).toNat = j := by omega
        rw [this, hx1, h]; ring

/-- Within the table the semitone is the note's, rounded down. -/
theorem start_eq {m : ℤ} (h1 : -256 ≤ m) (h2 : m ≤ 254) {x : ℝ} (hx0 : 0 ≤ x) (hx1 : x < 1) : start (m + x) = (m + 256).toNat := by
  unfold start trunc
  have h : (-256 : ℝ) ≤ m := by exact_mod_cast h1
  rw [if_pos (by linarith)]
  have : ⌊(m : ℝ) + x + 256⌋ = m + 256 := by
    rw [show (m : ℝ) + x + 256 = ((m + 256 : ℤ) : ℝ) + x by push_cast; ring, Int.floor_intCast_add, Int.floor_eq_zero_iff.mpr ⟨hx0, hx1⟩]
    simp
  rw [this, min_eq_left (by omega)]

/-- At a whole note the shift is exact: a shift of nothing gives the note, and in general the table at the result is the table at the note plus the shift. -/
theorem C129_whole_notes {T : ℕ → ℝ} (hT : Spec.Rises T) {m : ℤ} (h1 : -256 ≤ m) (h2 : m ≤ 254) (pitch : ℝ) :
    ∃ r, noteShift T ⟨m, pitch, true, false⟩ = .ok r ∧ Spec.tableAt T r = Spec.tableAt T m + 10 * pitch * 32 / 261.626 := by
  have h : (-256 : ℝ) ≤ m := by exact_mod_cast h1
  obtain ⟨r, e1, e2⟩ := C129_absolute_partial hT (note := m) (by linarith) pitch false
  refine ⟨r, e1, ?_⟩
  rw [e2]
  have e := start_eq h1 h2 (x := 0) le_rfl (by norm_num)
  rw [add_zero] at e
  rw [e]
  unfold Spec.tableAt
  have hfl : ⌊(m : ℝ) + 256⌋ = m + 256 := by
    rw [show (m : ℝ) + 256 = ((m + 256 : ℤ) : ℝ) by push_cast; ring, Int.floor_intCast]
  rw [hfl, show max 0 (min 510 (m + 256)) = m + 256 by omega]
  have e3 : (((m + 256).toNat : ℕ) : ℝ) = m + 256 := by
    have : (((m + 256).toNat : ℤ) : ℝ) = ((m + 256 : ℤ) : ℝ) := by rw [Int.toNat_of_nonneg (by omega)]
    push_cast at this; exact this
  simp only [e3]
  norm_num

/-- **C129 (refutation).** The fraction of the note is lost: in absolute mode detune, bend and portamento between two keys do not move the oscillator at all. -/
theorem C129_fraction_lost_refuted (T : ℕ → ℝ) (m : ℤ) (h1 : -256 ≤ m) (h2 : m ≤ 254) {x : ℝ} (hx0 : 0 ≤ x) (hx1 : x < 1) (pitch : ℝ) (extend : Bool) :
    noteShift T ⟨m + x, pitch, true, extend⟩ = noteShift T ⟨m, pitch, true, extend⟩ := by
  have h : (-256 : ℝ) ≤ m := by exact_mod_cast h1
  have ht : ∀ y : ℝ, 0 ≤ y → y < 1 → trunc ((m : ℝ) + y + 256) = m + 256 := by
    intro y hy0 hy1
    unfold trunc
    rw [if_pos (by linarith), show (m : ℝ) + y + 256 = ((m + 256 : ℤ) : ℝ) + y by push_cast; ring, Int.floor_intCast_add, Int.floor_eq_zero_iff.mpr ⟨hy0, hy1⟩]
    simp
  have e := ht 0 le_rfl (by norm_num)
  rw [add_zero] at e
  unfold noteShift absoluteShift
  simp only [ht x hx0 hx1, e, if_true]

/-- **C129 (refutation).** A note an octave and a bit below the table panics. -/
theorem C129_low_panics_refuted (T : ℕ → ℝ) {note : ℝ} (h : note ≤ -257) (pitch : ℝ) (extend : Bool) : (noteShift T ⟨note, pitch, true, extend⟩).isPanic := by
  have ht : trunc (note + 256) ≤ -1 := by
    unfold trunc
    rw [if_neg (by linarith)]
    exact Int.ceil_le.mpr (by push_cast; linarith)
  have : tablePitch T (min (trunc (note + 256)) 0x1fe) = .panic "get_tablepitch" := by
    unfold tablePitch
    rw [if_neg]
    rintro ⟨h0, -⟩
    have := h0.trans (min_le_left _ _)
    omega
  unfold noteShift absoluteShift
  simp only [if_true, this]
  rfl

/-- Non-vacuous: the equal-tempered table rises. -/
example : Spec.Rises fun i => (2 : ℝ) ^ (((i : ℝ) - 256) / 12) := by
  intro i _
  refine Real.rpow_lt_rpow_of_exponent_lt (by norm_num) ?_
  push_cast; linarith

end Verif.Voice
