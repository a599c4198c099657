import Verif.Float.Round
/-!
# `f32` values

IEEE-754 binary32 as Rust uses it.  Simplifications: one NaN, and no sign on zero (so division by zero is
not modelled).  Finite values are rationals; every operation rounds its exact result with `rne` and
overflows to infinity.
-/
namespace Verif.Float

/-- An `f32`. -/
inductive F32 where
  | nan
  | pinf
  | ninf
  | fin (q : ℚ)
  deriving DecidableEq

namespace F32

/-- Round an exact result (overflow goes to an infinity). -/
def ofQ (q : ℚ) : F32 :=
  if 2 ^ 128 ≤ rne q then .pinf else if rne q ≤ -2 ^ 128 then .ninf else .fin (rne q)

/-- `x as f32` for an integer. -/
def ofInt (n : ℤ) : F32 := ofQ n

def neg : F32 → F32
  | nan => nan
  | pinf => ninf
  | ninf => pinf
  | fin q => fin (-q)

def add : F32 → F32 → F32
  | nan, _ => nan
  | _, nan => nan
  | pinf, ninf => nan
  | ninf, pinf => nan
  | pinf, _ => pinf
  | _, pinf => pinf
  | ninf, _ => ninf
  | _, ninf => ninf
  | fin a, fin b => ofQ (a + b)

def sub (a b : F32) : F32 := add a (neg b)

/-- sign-directed infinity -/
def infOf (s : ℚ) : F32 := if 0 < s then pinf else if s < 0 then ninf else nan

def mul : F32 → F32 → F32
  | nan, _ => nan
  | _, nan => nan
  | pinf, pinf => pinf
  | pinf, ninf => ninf
  | ninf, pinf => ninf
  | ninf, ninf => pinf
  | pinf, fin b => infOf b
  | ninf, fin b => infOf (-b)
  | fin a, pinf => infOf a
  | fin a, ninf => infOf (-a)
  | fin a, fin b => ofQ (a * b)

/-- `x / c` for a finite non-zero constant `c`. -/
def divC : F32 → ℚ → F32
  | nan, _ => nan
  | pinf, c => infOf c
  | ninf, c => infOf (-c)
  | fin a, c => ofQ (a / c)

/-- `a < b` (false when unordered). -/
def lt : F32 → F32 → Bool
  | nan, _ => false
  | _, nan => false
  | fin a, fin b => decide (a < b)
  | ninf, ninf => false
  | ninf, _ => true
  | _, ninf => false
  | pinf, _ => false
  | fin _, pinf => true

/-- `f32::max`: the other operand if one is NaN. -/
def max (a b : F32) : F32 :=
  match a, b with
  | nan, _ => b
  | _, nan => a
  | _, _ => if lt a b then b else a

/-- `f32::min`. -/
def min (a b : F32) : F32 :=
  match a, b with
  | nan, _ => b
  | _, nan => a
  | _, _ => if lt b a then b else a

/-- Truncation towards zero. -/
def truncQ (q : ℚ) : ℤ := if 0 ≤ q then ⌊q⌋ else ⌈q⌉

/-- Saturating float-to-integer `as` cast into `[lo, hi]`. -/
def toIntSat (lo hi : ℤ) : F32 → ℤ
  | nan => 0
  | pinf => hi
  | ninf => lo
  | fin q => Max.max lo (Min.min hi (truncQ q))

/-- `x as usize` / `x as u64` (64-bit target). -/
def toUsize (x : F32) : ℕ := (toIntSat 0 (2 ^ 64 - 1) x).toNat
/-- `x as i32`. -/
def toI32 (x : F32) : ℤ := toIntSat (-2 ^ 31) (2 ^ 31 - 1) x

/-- `f32::round`: half away from zero (integral values need no further rounding). -/
def round : F32 → F32
  | fin q => fin (if 0 ≤ q then ⌊q + 1 / 2⌋ else ⌈q - 1 / 2⌉)
  | x => x

/-! ## lemmas -/

theorem ofQ_fin {q : ℚ} (h1 : -2 ^ 100 ≤ q) (h2 : q ≤ 2 ^ 100) : ofQ q = .fin (rne q) := by
  have a : rne q ≤ 2 ^ 100 := by
    have h := rne_mono h2
    rwa [show (2:ℚ) ^ 100 = 2 ^ (100:ℤ) by norm_cast, rne_zpow (by norm_num)] at h
  have b : -2 ^ 100 ≤ rne q := by
    have h := rne_mono h1
    rwa [show (2:ℚ) ^ 100 = 2 ^ (100:ℤ) by norm_cast, rne_neg, rne_zpow (by norm_num)] at h
  unfold ofQ
  rw [if_neg (by norm_num at *; linarith), if_neg (by norm_num at *; linarith)]

/-- Rounding a number between two small integers stays between them. -/
theorem ofQ_between {q : ℚ} {a b : ℤ} (ha : (a:ℚ) ≤ q) (hb : q ≤ b) (ha' : |a| ≤ 2 ^ 24)
    (hb' : |b| ≤ 2 ^ 24) : ∃ r, ofQ q = .fin r ∧ (a:ℚ) ≤ r ∧ r ≤ b := by
  refine ⟨rne q, ofQ_fin ?_ ?_, ?_, ?_⟩
  · have : -(2 ^ 24 : ℤ) ≤ a := by have := abs_le.mp ha'; omega
    have : ((-(2 ^ 24) : ℤ) : ℚ) ≤ a := by exact_mod_cast this
    push_cast at this; norm_num at *; linarith
  · have : b ≤ (2 ^ 24 : ℤ) := by have := abs_le.mp hb'; omega
    have : (b : ℚ) ≤ ((2 ^ 24 : ℤ) : ℚ) := by exact_mod_cast this
    push_cast at this; norm_num at *; linarith
  · rw [← rne_intCast a ha']; exact rne_mono ha
  · rw [← rne_intCast b hb']; exact rne_mono hb

theorem ofInt_eq {n : ℤ} (h : |n| ≤ 2 ^ 24) : ofInt n = .fin n := by
  obtain ⟨r, h1, h2, h3⟩ := ofQ_between (q := n) le_rfl le_rfl h h
  unfold ofInt
  rw [h1, le_antisymm h3 h2]

/-- Clamping any `f32` (NaN and infinities included) into the unit interval works. -/
theorem clamp01 (x : F32) : ∃ r, (x.max (fin 0)).min (fin 1) = fin r ∧ 0 ≤ r ∧ r ≤ 1 := by
  cases x with
  | nan => exact ⟨0, by simp [max, min, lt], by norm_num, by norm_num⟩
  | pinf => exact ⟨1, by simp [max, min, lt], by norm_num, by norm_num⟩
  | ninf => exact ⟨0, by simp [max, min, lt], by norm_num, by norm_num⟩
  | fin q =>
    rcases lt_or_ge q 0 with h | h
    · exact ⟨0, by simp [max, min, lt, h], by norm_num, by norm_num⟩
    · rcases lt_or_ge 1 q with h1 | h1
      · exact ⟨1, by simp [max, min, lt, not_lt.mpr h, h1], by norm_num, by norm_num⟩
      · exact ⟨q, by simp [max, min, lt, not_lt.mpr h, not_lt.mpr h1], h, h1⟩

end F32
end Verif.Float
