import Verif.Float.F32
import Verif.Dsp.Blocks
import Mathlib.Tactic.Zify
/-!
# Peak meters

Models `surge-math/src/absmax.rs`, the masks of `surge-math/src/m128.rs` 3-7 and `max_ps_to_ss` (`utility.rs` 12-24), at
the level of bit patterns: an `f32` is a number below 2^32.
-/
namespace Verif.Dsp

/-- m128.rs 6-7 `m128_mask_absval!`: `0x7fffffff as f32`, a numeric conversion: 2147483648.0, bit pattern 0x4f000000. -/
def maskAbsval : Nat := 0x4f000000
/-- absmax.rs 57-58, the mask of `get_absmax_2`. -/
def maskAbsval2 : Nat := 0x7fffffff
/-- absmax.rs 3-6 `abs_ps`, a lane. -/
def absPs (bits : Nat) : Nat := bits &&& maskAbsval

/-- Maximum of two patterns whose sign bit is clear and that are not NaN: `maxps` is the maximum of the patterns. -/
def maxBits (a b : Nat) : Nat := max a b

/-- absmax.rs 20-45: lane `j` of `mx1` after the loop, quads `0, 2, 4, ..`; start zero. -/
def laneMax (mask : Nat) (mem : Nat → Nat) (j : Nat) (quads : List Nat) : Nat :=
  quads.foldl (fun m q => maxBits m (mem (q * 4 + j) &&& mask)) 0

/-- absmax.rs 20-45 `get_absmax`: even quads in `mx1`, odd quads in `mx2`, then the maximum over the lanes
(utility.rs 12-24: `max(max(x0, x1), max(x2, x3))`). -/
def getAbsmax (mem : Nat → Nat) (nquads : Nat) : Nat :=
  let lane := fun j => maxBits (laneMax maskAbsval mem j (stepBy nquads 2))
    (laneMax maskAbsval mem j ((stepBy nquads 2).map (· + 1)))
  maxBits (maxBits (lane 0) (lane 1)) (maxBits (lane 2) (lane 3))

/-- absmax.rs 52-87 `get_absmax_2`: maximum of both blocks per lane, then a horizontal maximum. -/
def getAbsmax2 (d1 d2 : Nat → Nat) (nblocks : Nat) : Nat :=
  let lane := fun j => (List.range nblocks).foldl
    (fun m q => maxBits m (maxBits (d1 (q * 4 + j) &&& maskAbsval2) (d2 (q * 4 + j) &&& maskAbsval2))) 0
  let t1 := fun j => maxBits (lane j) (lane (if j % 2 = 0 then j + 1 else j - 1))
  maxBits (t1 0) (t1 2)

/-! ## Specification -/

/-- The exact value of a finite `f32` bit pattern. -/
def Spec.value (bits : Nat) : ℚ :=
  let e : Nat := bits / 2 ^ 23 % 256
  let m : Nat := bits % 2 ^ 23
  (if bits / 2 ^ 31 % 2 = 1 then -1 else 1) *
    (if e = 0 then (m : ℚ) / 2 ^ 149 else ((2 ^ 23 + m : Nat) : ℚ) * 2 ^ e / 2 ^ 150)

/-- Finite. -/
def Spec.finite (bits : Nat) : Prop := bits < 2 ^ 32 ∧ bits / 2 ^ 23 % 256 ≠ 255

/-- `r` is the largest absolute value in the block of `n` floats at `mem`, if it has any. -/
def Spec.IsPeak (mem : Nat → Nat) (n : Nat) (r : Nat) : Prop :=
  (∀ s, s < n → |Spec.value (mem s)| ≤ Spec.value r) ∧ (0 < n → ∃ s, s < n ∧ |Spec.value (mem s)| = Spec.value r)

/-! ## Lemmas on patterns -/

theorem and_mask31 (b : Nat) : b &&& maskAbsval2 = b % 2 ^ 31 := by
  unfold maskAbsval2
  exact Nat.and_two_pow_sub_one_eq_mod b 31

/-- Value of a pattern with the sign bit clear. -/
def posValue (b : Nat) : ℚ :=
  let e : Nat := b / 2 ^ 23
  let m : Nat := b % 2 ^ 23
  if e = 0 then (m : ℚ) / 2 ^ 149 else ((2 ^ 23 + m : Nat) : ℚ) * 2 ^ e / 2 ^ 150

theorem posValue_nonneg (b : Nat) : 0 ≤ posValue b := by
  unfold posValue; dsimp only; split_ifs <;> positivity

theorem value_of_lt {b : Nat} (h : b < 2 ^ 31) : Spec.value b = posValue b := by
  have h1 : b / 2 ^ 31 = 0 := Nat.div_eq_of_lt h
  have h2 : b / 2 ^ 23 < 256 := by omega
  simp only [Spec.value, posValue, h1, Nat.zero_mod, Nat.zero_ne_one, if_false, one_mul, Nat.mod_eq_of_lt h2]

theorem abs_value (b : Nat) : |Spec.value b| = posValue (b % 2 ^ 31) := by
  have h1 : b % 2 ^ 31 / 2 ^ 23 = b / 2 ^ 23 % 256 := by omega
  have h2 : b % 2 ^ 31 % 2 ^ 23 = b % 2 ^ 23 := by omega
  unfold Spec.value posValue
  dsimp only
  rw [h1, h2, abs_mul]
  have hs : |(if b / 2 ^ 31 % 2 = 1 then (-1 : ℚ) else 1)| = 1 := by split_ifs <;> simp
  rw [hs, one_mul, abs_of_nonneg]
  split_ifs <;> positivity

theorem posValue_mono {a b : Nat} (h : a ≤ b) : posValue a ≤ posValue b := by
  have ha := Nat.div_add_mod a (2 ^ 23)
  have hb := Nat.div_add_mod b (2 ^ 23)
  have hma := Nat.mod_lt a (show 0 < 2 ^ 23 by norm_num)
  have hmb := Nat.mod_lt b (show 0 < 2 ^ 23 by norm_num)
  have he : a / 2 ^ 23 ≤ b / 2 ^ 23 := Nat.div_le_div_right h
  unfold posValue
  dsimp only
  generalize a / 2 ^ 23 = ea at *
  generalize b / 2 ^ 23 = eb at *
  generalize a % 2 ^ 23 = ma at *
  generalize b % 2 ^ 23 = mb at *
  by_cases h0 : ea = 0
  · subst h0
    rw [if_pos rfl]
    by_cases h1 : eb = 0
    · subst h1
      rw [if_pos rfl]
      have : (ma : ℚ) ≤ mb := by exact_mod_cast (by omega)
      exact div_le_div_of_nonneg_right this (by positivity)
    · rw [if_neg h1]
      have h2 : (ma : ℚ) ≤ ((2 ^ 23 + mb : Nat) : ℚ) := by exact_mod_cast (by omega)
      have h3 : (2 : ℚ) ≤ 2 ^ eb := by
        calc (2 : ℚ) = 2 ^ 1 := by norm_num
          _ ≤ 2 ^ eb := pow_le_pow_right₀ (by norm_num) (by omega)
      rw [div_le_div_iff₀ (by positivity) (by positivity)]
      have : (ma : ℚ) * 2 ≤ ((2 ^ 23 + mb : Nat) : ℚ) * 2 ^ eb := mul_le_mul h2 h3 (by norm_num) (by positivity)
      calc (ma : ℚ) * 2 ^ 150 = (ma * 2) * 2 ^ 149 := by ring
        _ ≤ _ := mul_le_mul_of_nonneg_right this (by positivity)
  · have h1 : eb ≠ 0 := by omega
    rw [if_neg h0, if_neg h1]
    apply div_le_div_of_nonneg_right _ (by positivity)
    rcases Nat.lt_or_ge ea eb with hlt | hge
    · have h3 : (2 : ℚ) ^ ea * 2 ≤ 2 ^ eb := by
        rw [← pow_succ]; exact pow_le_pow_right₀ (by norm_num) hlt
      have h4 : ((2 ^ 23 + ma : Nat) : ℚ) ≤ ((2 ^ 23 + mb : Nat) : ℚ) * 2 := by exact_mod_cast (by omega)
      have p : (0:ℚ) < 2 ^ ea := by positivity
      have hp : (0:ℚ) ≤ ((2 ^ 23 + mb : Nat) : ℚ) := by positivity
      calc ((2 ^ 23 + ma : Nat) : ℚ) * 2 ^ ea ≤ (((2 ^ 23 + mb : Nat) : ℚ) * 2) * 2 ^ ea :=
            mul_le_mul_of_nonneg_right h4 p.le
        _ = ((2 ^ 23 + mb : Nat) : ℚ) * (2 ^ ea * 2) := by ring
        _ ≤ _ := mul_le_mul_of_nonneg_left h3 hp
    · have : ea = eb := by omega
      subst this
      have : ((2 ^ 23 + ma : Nat) : ℚ) ≤ ((2 ^ 23 + mb : Nat) : ℚ) := by exact_mod_cast (by omega)
      exact mul_le_mul_of_nonneg_right this (by positivity)

theorem foldl_max_ge (f : Nat → Nat) (l : List Nat) (m : Nat) :
    m ≤ l.foldl (fun m q => maxBits m (f q)) m ∧ (∀ q ∈ l, f q ≤ l.foldl (fun m q => maxBits m (f q)) m) ∧
    (l.foldl (fun m q => maxBits m (f q)) m = m ∨ ∃ q ∈ l, l.foldl (fun m q => maxBits m (f q)) m = f q) := by
  induction l generalizing m with
  | nil => simp
  | cons a l ih =>
    obtain ⟨h1, h2, h3⟩ := ih (maxBits m (f a))
    simp only [List.foldl_cons]
    refine ⟨le_trans (le_max_left _ _) h1, ?_, ?_⟩
    · intro q hq
      rcases List.mem_cons.mp hq with rfl | hq
      · exact le_trans (le_max_right _ _) h1
      · exact h2 q hq
    · rcases h3 with h3 | ⟨q, hq, h3⟩
      · rw [h3]
        rcases max_choice m (f a) with h | h
        · exact Or.inl h
        · exact Or.inr ⟨a, by simp, h⟩
      · exact Or.inr ⟨q, by simp [hq], h3⟩

/-! ## C60 -/

/-- C60, the function that works: `get_absmax_2` is the largest absolute value in the two blocks of `n` quads (finite
samples; for an empty block it is 0). -/
theorem C60_absmax2_partial (d1 d2 : Nat → Nat) (n : Nat)
    (h : ∀ s, s < n * 4 → Spec.finite (d1 s) ∧ Spec.finite (d2 s)) :
    (∀ s, s < n * 4 → |Spec.value (d1 s)| ≤ Spec.value (getAbsmax2 d1 d2 n) ∧
      |Spec.value (d2 s)| ≤ Spec.value (getAbsmax2 d1 d2 n)) ∧
    (0 < n → ∃ s, s < n * 4 ∧ (|Spec.value (d1 s)| = Spec.value (getAbsmax2 d1 d2 n) ∨
      |Spec.value (d2 s)| = Spec.value (getAbsmax2 d1 d2 n))) := by
  let f : Nat → Nat → Nat := fun j q => maxBits (d1 (q * 4 + j) &&& maskAbsval2) (d2 (q * 4 + j) &&& maskAbsval2)
  let lane := fun j => (List.range n).foldl (fun m q => maxBits m (f j q)) 0
  have hr : getAbsmax2 d1 d2 n = max (max (lane 0) (lane 1)) (max (lane 2) (lane 3)) := rfl
  have hf : ∀ j q, f j q = max (d1 (q * 4 + j) % 2 ^ 31) (d2 (q * 4 + j) % 2 ^ 31) := by
    intro j q; simp only [f, and_mask31, maxBits]
  have hl : ∀ j, j < 4 → lane j ≤ getAbsmax2 d1 d2 n := by
    intro j hj
    rw [hr]
    rcases (by omega : j = 0 ∨ j = 1 ∨ j = 2 ∨ j = 3) with rfl | rfl | rfl | rfl <;> simp
  have hle : ∀ s, s < n * 4 → f (s % 4) (s / 4) ≤ getAbsmax2 d1 d2 n := by
    intro s hs
    exact le_trans ((foldl_max_ge (f (s % 4)) (List.range n) 0).2.1 (s / 4) (List.mem_range.mpr (by omega)))
      (hl _ (Nat.mod_lt _ (by decide)))
  have hlane : ∀ j, j < 4 → lane j < 2 ^ 31 ∧ (lane j = 0 ∨ ∃ q, q < n ∧ lane j = f j q) := by
    intro j hj
    rcases (foldl_max_ge (f j) (List.range n) 0).2.2 with e | ⟨q, hq, e⟩
    · exact ⟨by simp only [lane]; rw [e]; norm_num, Or.inl e⟩
    · refine ⟨?_, Or.inr ⟨q, List.mem_range.mp hq, e⟩⟩
      simp only [lane]; rw [e, hf]; omega
  have hlt : getAbsmax2 d1 d2 n < 2 ^ 31 := by
    have a0 := (hlane 0 (by decide)).1; have a1 := (hlane 1 (by decide)).1
    have a2 := (hlane 2 (by decide)).1; have a3 := (hlane 3 (by decide)).1
    rw [hr]; simp only [max_lt_iff]; exact ⟨⟨a0, a1⟩, a2, a3⟩
  rw [value_of_lt hlt]
  constructor
  · intro s hs
    have e := hle s hs
    rw [hf] at e
    have es : s / 4 * 4 + s % 4 = s := by omega
    rw [es] at e
    rw [abs_value, abs_value]
    exact ⟨posValue_mono (le_trans (le_max_left _ _) e), posValue_mono (le_trans (le_max_right _ _) e)⟩
  · intro hn
    have : ∃ s, s < n * 4 ∧ f (s % 4) (s / 4) = getAbsmax2 d1 d2 n := by
      have hch : ∃ j, j < 4 ∧ getAbsmax2 d1 d2 n = lane j := by
        rw [hr]
        rcases max_choice (max (lane 0) (lane 1)) (max (lane 2) (lane 3)) with e | e <;> rw [e]
        · rcases max_choice (lane 0) (lane 1) with e | e
          · exact ⟨0, by decide, e⟩
          · exact ⟨1, by decide, e⟩
        · rcases max_choice (lane 2) (lane 3) with e | e
          · exact ⟨2, by decide, e⟩
          · exact ⟨3, by decide, e⟩
      obtain ⟨j, hj, e⟩ := hch
      rcases (hlane j hj).2 with z | ⟨q, hq, z⟩
      · refine ⟨j, by omega, ?_⟩
        have := hle j (by omega)
        rw [e, z] at this ⊢
        omega
      · refine ⟨q * 4 + j, by omega, ?_⟩
        rw [e, z]
        congr 1 <;> omega
    obtain ⟨s, hs, e⟩ := this
    refine ⟨s, hs, ?_⟩
    rw [hf, show s / 4 * 4 + s % 4 = s by omega] at e
    rw [abs_value, abs_value, ← e]
    rcases max_choice (d1 s % 2 ^ 31) (d2 s % 2 ^ 31) with c | c <;> rw [c] <;> simp

theorem and_mask_le {b : Nat} (h : b % 2 ^ 31 < 2 ^ 30) : b &&& maskAbsval ≤ 0x0f000000 := by
  have h1 : b &&& maskAbsval = (b % 2 ^ 31 % 2 ^ 30) &&& maskAbsval := by
    apply Nat.eq_of_testBit_eq
    intro i
    simp only [Nat.testBit_and, Nat.testBit_mod_two_pow]
    by_cases hi : i < 30
    · simp [hi, (by omega : i < 31)]
    · by_cases h30 : i = 30
      · subst h30
        have : b.testBit 30 = false := by
          have h2 : (b % 2 ^ 31).testBit 30 = false := Nat.testBit_lt_two_pow h
          rw [Nat.testBit_mod_two_pow] at h2; simpa using h2
        simp [this]
      · have : maskAbsval.testBit i = false := Nat.testBit_lt_two_pow (lt_of_lt_of_le (by decide : maskAbsval < 2 ^ 31)
          (Nat.pow_le_pow_right (by decide) (by omega)))
        simp [this]
  have h2 : (b % 2 ^ 31 % 2 ^ 30) &&& maskAbsval = (b % 2 ^ 31 % 2 ^ 30) &&& 0x0f000000 := by
    apply Nat.eq_of_testBit_eq
    intro i
    simp only [Nat.testBit_and, Nat.testBit_mod_two_pow]
    by_cases hi : i < 30
    · have : maskAbsval.testBit i = Nat.testBit 0x0f000000 i := by
        have key : ∀ i, i < 30 → maskAbsval.testBit i = Nat.testBit 0x0f000000 i := by decide
        exact key i hi
      rw [this]
    · simp [hi]
  rw [h1, h2]
  exact Nat.and_le_right

theorem absmax_le {mem : Nat → Nat} {n B : Nat} (h : ∀ s, s < Spec.roundUp n 2 * 4 → mem s &&& maskAbsval ≤ B) :
    getAbsmax mem n ≤ B := by
  have key : ∀ (l : List Nat) (j : Nat), (∀ q ∈ l, mem (q * 4 + j) &&& maskAbsval ≤ B) → laneMax maskAbsval mem j l ≤ B := by
    intro l j hl
    unfold laneMax
    rcases (foldl_max_ge (fun q => mem (q * 4 + j) &&& maskAbsval) l 0).2.2 with e | ⟨q, hq, e⟩
    · rw [e]; omega
    · rw [e]; exact hl q hq
  have q1 : ∀ q ∈ stepBy n 2, q + 1 < Spec.roundUp n 2 := by
    intro q hq
    unfold stepBy at hq
    obtain ⟨i, hi, rfl⟩ := List.mem_map.mp hq
    have := List.mem_range.mp hi
    unfold Spec.roundUp
    omega
  have lane : ∀ j, j < 4 → laneMax maskAbsval mem j (stepBy n 2) ≤ B ∧
      laneMax maskAbsval mem j ((stepBy n 2).map (· + 1)) ≤ B := by
    intro j hj
    constructor
    · exact key _ _ fun q hq => h _ (by have := q1 q hq; omega)
    · refine key _ _ fun q hq => h _ ?_
      obtain ⟨i, hi, rfl⟩ := List.mem_map.mp hq
      have := q1 i hi; omega
  have l0 := lane 0 (by decide); have l1 := lane 1 (by decide); have l2 := lane 2 (by decide); have l3 := lane 3 (by decide)
  unfold getAbsmax maxBits
  simp only [max_le_iff]
  exact ⟨⟨⟨l0.1, l0.2⟩, l1.1, l1.2⟩, ⟨l2.1, l2.2⟩, l3.1, l3.2⟩

theorem posValue_lt_two {b : Nat} (h : posValue (b % 2 ^ 31) < 2) : b % 2 ^ 31 < 2 ^ 30 := by
  by_contra hc
  have h1 : 2 ^ 30 ≤ b % 2 ^ 31 := not_lt.mp hc
  have h2 := posValue_mono h1
  have h3 : posValue (2 ^ 30) = 2 := by norm_num [posValue]
  linarith

/-- C60 is false of the code: `get_absmax`, the meter of the output and of the conditioner, masks with the bit pattern of
the *number* 2147483648. As long as all samples are within (-2, 2) - all audio in range - it never reports more than
2^-97, however loud the block. -/
theorem C60_meter_is_blind (mem : Nat → Nat) (n : Nat) (h : ∀ s, s < Spec.roundUp n 2 * 4 → |Spec.value (mem s)| < 2) :
    Spec.value (getAbsmax mem n) ≤ 1 / 2 ^ 97 := by
  have h1 : getAbsmax mem n ≤ 0x0f000000 := absmax_le fun s hs => and_mask_le (posValue_lt_two (by
    have := h s hs; rwa [abs_value] at this))
  rw [value_of_lt (by omega)]
  refine le_trans (posValue_mono h1) ?_
  norm_num [posValue]

/-- Non-vacuity: a full-scale block (all samples 1.0) reads 2^-97 instead of 1; `get_absmax_2` reads 1. -/
example : getAbsmax (fun _ => 0x3f800000) 8 = 0x0f000000 ∧ getAbsmax2 (fun _ => 0x3f800000) (fun _ => 0) 8 = 0x3f800000 := by
  decide +kernel
example : Spec.value 0x3f800000 = 1 ∧ Spec.value 0xbf800000 = -1 ∧ Spec.value 0x0f000000 = 1 / 2 ^ 97 := by
  refine ⟨?_, ?_, ?_⟩ <;> norm_num [Spec.value]

end Verif.Dsp
