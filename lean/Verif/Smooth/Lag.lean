import Mathlib.Algebra.Order.Field.Basic
import Mathlib.Algebra.Order.Archimedean.Basic
import Mathlib.Tactic.Ring
import Mathlib.Tactic.Linarith
import Mathlib.Tactic.LinearCombination
import Mathlib.Tactic.FieldSimp
import Mathlib.Tactic.NormNum
import Mathlib.Tactic.Positivity
/-!
# The one-pole smoother

Models `surge-lag/src/lag.rs` and `vlag.rs`.  `Lag<T>` is generic in its number type; this file takes `T` to be any
ordered field, so arithmetic is exact.  `Verif.Smooth.LagF32` has the same code at `T = f32` with rounding.
-/
namespace Verif.Smooth

/-- lag.rs 20-41 `Lag<T>`. -/
structure Lag (K : Type) where
  v : K
  target : K
  first : Bool
  lp : K
  lpinv : K

variable {K : Type} [Field K] [LinearOrder K] [IsStrictOrderedRing K]

/-- lag.rs 44-63 `default`: the constant 0.004 (`T::from(0.004f32)`; taken exactly). -/
def Lag.default : Lag K := ⟨0, 0, true, 4 / 1000, 1 - 4 / 1000⟩

/-- lag.rs 72-77 `new`: only `lp` is replaced. -/
def Lag.new (lp : K) : Lag K := { (Lag.default : Lag K) with lp := lp }

/-- lag.rs 82-85 `set_rate`. -/
def Lag.setRate (l : Lag K) (lp : K) : Lag K := { l with lp := lp, lpinv := 1 - lp }

/-- lag.rs 93-101 `new_value`. -/
def Lag.newValue (l : Lag K) (x : K) : Lag K :=
  if l.first then { l with target := x, v := x, first := false } else { l with target := x }

/-- lag.rs 110-118 `start_value`. -/
def Lag.startValue (l : Lag K) (x : K) : Lag K := { l with target := x, v := x, first := false }

/-- lag.rs 123-125 `instantize`. -/
def Lag.instantize (l : Lag K) : Lag K := { l with v := l.target }

/-- lag.rs 131-134 `process`. -/
def Lag.process (l : Lag K) : Lag K := { l with v := l.v * l.lpinv + l.target * l.lp }

/-- The public operations, for histories. -/
inductive LagOp (K : Type) where
  | setRate (lp : K)
  | newValue (x : K)
  | startValue (x : K)
  | instantize
  | process

/-- One call. -/
def Lag.step (l : Lag K) : LagOp K → Lag K
  | .setRate r => l.setRate r
  | .newValue x => l.newValue x
  | .startValue x => l.startValue x
  | .instantize => l.instantize
  | .process => l.process

/-- A history of calls. -/
def Lag.run (l : Lag K) : List (LagOp K) → Lag K
  | [] => l
  | o :: os => (l.step o).run os

/-- `n` calls of `process`. -/
def Lag.steps (l : Lag K) : Nat → Lag K
  | 0 => l
  | n + 1 => (l.steps n).process

/-- vlag.rs 47-55 `VLag`; the second component of the two arrays is only ever zeroed or copied. -/
structure VLag (K : Type) where
  v : K
  target : K

/-- vlag.rs 74-79 `new_x87`. -/
def VLag.new : VLag K := ⟨0, 0⟩
/-- vlag.rs 118-120 `process`, with `VLAG_D_LP` = 0.004 and `VLAG_D_LPINV` = 1 - 0.004 (6, 12, 18). -/
def VLag.process (l : VLag K) : VLag K := { l with v := l.v * (1 - 4 / 1000) + l.target * (4 / 1000) }
/-- vlag.rs 126-128 `new_value`: no first-run rule here. -/
def VLag.newValue (l : VLag K) (x : K) : VLag K := { l with target := x }
/-- vlag.rs 134-136 `instantize`. -/
def VLag.instantize (l : VLag K) : VLag K := { l with v := l.target }
/-- vlag.rs 142-145 `start_value`. -/
def VLag.startValue (_ : VLag K) (x : K) : VLag K := ⟨x, x⟩

/-- `n` calls of `process`. -/
def VLag.steps (l : VLag K) : Nat → VLag K
  | 0 => l
  | n + 1 => (l.steps n).process

/-! ## C33 -/

/-- A smoother whose two coefficients belong together. -/
def Lag.Sound (l : Lag K) : Prop := 0 ≤ l.lp ∧ l.lp ≤ 1 ∧ l.lpinv = 1 - l.lp

omit [LinearOrder K] [IsStrictOrderedRing K] in
theorem Lag.steps_frame (l : Lag K) (n : Nat) :
    (l.steps n).lp = l.lp ∧ (l.steps n).lpinv = l.lpinv ∧ (l.steps n).target = l.target ∧
      (l.steps n).first = l.first := by
  induction n with
  | zero => exact ⟨rfl, rfl, rfl, rfl⟩
  | succ n ih => exact ⟨ih.1, ih.2.1, ih.2.2.1, ih.2.2.2⟩

omit [LinearOrder K] [IsStrictOrderedRing K] in
/-- The distance to the target after `n` steps. -/
theorem Lag.steps_dist (l : Lag K) (h : l.lpinv = 1 - l.lp) (n : Nat) :
    (l.steps n).v - l.target = (1 - l.lp) ^ n * (l.v - l.target) := by
  induction n with
  | zero => simp [Lag.steps]
  | succ n ih =>
    obtain ⟨a, b, c, _⟩ := l.steps_frame n
    simp only [Lag.steps, Lag.process, a, b, c]
    rw [h, pow_succ]
    linear_combination (1 - l.lp) * ih

/-- C33. With a rate in [0,1] set by `default` or `set_rate`, after any number of steps the distance to the target is
the old distance times (1-rate)^n: it shrinks geometrically, the value moves monotonically and never passes the
target. -/
theorem C33_lag_monotone (l : Lag K) (h : l.Sound) (n : Nat) :
    |(l.steps n).v - l.target| = (1 - l.lp) ^ n * |l.v - l.target| ∧
    (l.v ≤ l.target → (l.steps n).v ≤ (l.steps (n + 1)).v ∧ (l.steps (n + 1)).v ≤ l.target) ∧
    (l.target ≤ l.v → (l.steps (n + 1)).v ≤ (l.steps n).v ∧ l.target ≤ (l.steps (n + 1)).v) := by
  obtain ⟨h0, h1, hi⟩ := h
  have hn := l.steps_dist hi n
  have hn1 := l.steps_dist hi (n + 1)
  have hq : 0 ≤ 1 - l.lp := by linarith
  have hp : 0 ≤ (1 - l.lp) ^ n := pow_nonneg hq n
  have hle : (1 - l.lp) ^ (n + 1) ≤ (1 - l.lp) ^ n := by
    rw [pow_succ]; exact mul_le_of_le_one_right hp (by linarith)
  have hp1 : 0 ≤ (1 - l.lp) ^ (n + 1) := pow_nonneg hq _
  refine ⟨?_, fun hv => ?_, fun hv => ?_⟩
  · rw [hn, abs_mul, abs_of_nonneg hp]
  · have : l.v - l.target ≤ 0 := by linarith
    have e1 := mul_le_mul_of_nonpos_right hle this
    have e2 := mul_nonpos_of_nonneg_of_nonpos hp1 this
    constructor <;> linarith
  · have : 0 ≤ l.v - l.target := by linarith
    have e1 := mul_le_mul_of_nonneg_right hle this
    have e2 := mul_nonneg hp1 this
    constructor <;> linarith

/-- C33. With a positive rate the value gets, and stays, as close to the target as wanted. -/
theorem C33_lag_converges [Archimedean K] (l : Lag K) (h : l.Sound) (hp : 0 < l.lp) {ε : K} (he : 0 < ε) :
    ∃ N, ∀ n, N ≤ n → |(l.steps n).v - l.target| < ε := by
  obtain ⟨h0, h1, hi⟩ := h
  have hq : 0 ≤ 1 - l.lp := by linarith
  have hq1 : 1 - l.lp < 1 := by linarith
  have hd : 0 < |l.v - l.target| + 1 := by positivity
  obtain ⟨N, hN⟩ := exists_pow_lt_of_lt_one (show 0 < ε / (|l.v - l.target| + 1) by positivity) hq1
  refine ⟨N, fun n hn => ?_⟩
  rw [(C33_lag_monotone l ⟨h0, h1, hi⟩ n).1]
  have hle : (1 - l.lp) ^ n ≤ (1 - l.lp) ^ N := pow_le_pow_of_le_one hq (by linarith) hn
  rw [lt_div_iff₀ hd] at hN
  have h2 : 0 ≤ |l.v - l.target| := abs_nonneg _
  have h3 : (1 - l.lp) ^ n * |l.v - l.target| ≤ (1 - l.lp) ^ N * |l.v - l.target| :=
    mul_le_mul_of_nonneg_right hle h2
  have h4 : 0 ≤ (1 - l.lp) ^ N := pow_nonneg hq N
  nlinarith

/-- The values a history feeds in lie in `[a, b]`, its rates in `[0, 1]`. -/
def LagOp.Within (a b : K) : LagOp K → Prop
  | .setRate r => 0 ≤ r ∧ r ≤ 1
  | .newValue x => a ≤ x ∧ x ≤ b
  | .startValue x => a ≤ x ∧ x ≤ b
  | .instantize => True
  | .process => True

theorem Lag.run_within {a b : K} {l : Lag K} (hs : l.Sound) (hv : a ≤ l.v ∧ l.v ≤ b)
    (ht : a ≤ l.target ∧ l.target ≤ b) (ops : List (LagOp K)) (ho : ∀ o ∈ ops, o.Within a b) :
    (l.run ops).Sound ∧ a ≤ (l.run ops).v ∧ (l.run ops).v ≤ b := by
  induction ops generalizing l with
  | nil => exact ⟨hs, hv⟩
  | cons o os ih =>
    have hw := ho o List.mem_cons_self
    have hrest : ∀ o ∈ os, o.Within a b := fun o h => ho o (List.mem_cons_of_mem _ h)
    simp only [Lag.run]
    cases o with
    | setRate r => exact ih (l := l.setRate r) ⟨hw.1, hw.2, rfl⟩ hv ht hrest
    | newValue x =>
      simp only [Lag.step, Lag.newValue]
      split
      · exact ih ⟨hs.1, hs.2.1, hs.2.2⟩ hw hw hrest
      · exact ih ⟨hs.1, hs.2.1, hs.2.2⟩ hv hw hrest
    | startValue x => exact ih (l := l.startValue x) hs hw hw hrest
    | instantize => exact ih (l := l.instantize) hs ht ht hrest
    | process =>
      refine ih (l := l.process) hs ?_ ht hrest
      obtain ⟨h0, h1, hi⟩ := hs
      simp only [Lag.process, hi]
      have hq : 0 ≤ 1 - l.lp := by linarith
      constructor
      · have e1 := mul_le_mul_of_nonneg_right hv.1 hq
        have e2 := mul_le_mul_of_nonneg_right ht.1 h0
        linarith
      · have e1 := mul_le_mul_of_nonneg_right hv.2 hq
        have e2 := mul_le_mul_of_nonneg_right ht.2 h0
        linarith

/-- C33. Whatever is done with a fresh smoother after its first value, the smoothed value stays between the least and
the greatest value it was ever given. -/
theorem C33_lag_history {a b x : K} (start : Bool) (hx : a ≤ x ∧ x ≤ b) (ops : List (LagOp K))
    (ho : ∀ o ∈ ops, o.Within a b) :
    a ≤ ((Lag.default : Lag K).run ((if start then .startValue x else .newValue x) :: ops)).v ∧
    ((Lag.default : Lag K).run ((if start then .startValue x else .newValue x) :: ops)).v ≤ b := by
  have hd : (Lag.default : Lag K).Sound := ⟨by norm_num [Lag.default], by norm_num [Lag.default], rfl⟩
  have : (if start = true then LagOp.startValue x else LagOp.newValue x) = LagOp.startValue x ∨
      (if start = true then LagOp.startValue x else LagOp.newValue x) = LagOp.newValue x := by
    cases start <;> simp
  rcases this with e | e
  · rw [e]
    exact (Lag.run_within (l := (Lag.default : Lag K).startValue x) hd hx hx ops ho).2
  · rw [e]
    exact (Lag.run_within (l := (Lag.default : Lag K).newValue x) hd hx hx ops ho).2

/-- C33 fails for a smoother built with `new(rate)`: its two coefficients do not belong together, and the value heads
for target·rate/0.004 instead of the target. -/
theorem C33_lag_new_misses_target (rate x : K) (n : Nat) :
    (((Lag.new rate).startValue x).steps n).v - x * rate / (4 / 1000) =
      (1 - 4 / 1000) ^ n * (x - x * rate / (4 / 1000)) := by
  induction n with
  | zero => simp [Lag.steps, Lag.startValue]
  | succ n ih =>
    obtain ⟨a, b, c, _⟩ := ((Lag.new rate).startValue x).steps_frame n
    simp only [Lag.steps, Lag.process, a, b, c]
    rw [pow_succ]
    simp only [Lag.startValue, Lag.new, Lag.default] at ih ⊢
    have hq : x * rate / (4 / 1000) * (4 / 1000) = x * rate := div_mul_cancel₀ _ (by norm_num)
    linear_combination (1 - 4 / 1000) * ih - hq

/-- C33. The double-precision variant: same behaviour, with the fixed rate 0.004. -/
theorem C33_vlag (l : VLag K) (n : Nat) :
    (l.steps n).target = l.target ∧
    |(l.steps n).v - l.target| = (1 - 4 / 1000) ^ n * |l.v - l.target| ∧
    (l.v ≤ l.target → (l.steps n).v ≤ (l.steps (n + 1)).v ∧ (l.steps (n + 1)).v ≤ l.target) ∧
    (l.target ≤ l.v → (l.steps (n + 1)).v ≤ (l.steps n).v ∧ l.target ≤ (l.steps (n + 1)).v) := by
  have key : ∀ n, l.steps n =
      ⟨((⟨l.v, l.target, false, 4 / 1000, 1 - 4 / 1000⟩ : Lag K).steps n).v, l.target⟩ := by
    intro n
    induction n with
    | zero => rfl
    | succ n ih =>
      obtain ⟨a, b, c, _⟩ := (⟨l.v, l.target, false, 4 / 1000, 1 - 4 / 1000⟩ : Lag K).steps_frame n
      simp only [VLag.steps, ih, VLag.process, Lag.steps, Lag.process, a, b, c]
  have := C33_lag_monotone (⟨l.v, l.target, false, 4 / 1000, 1 - 4 / 1000⟩ : Lag K)
    ⟨by norm_num, by norm_num, rfl⟩ n
  rw [key n, key (n + 1)]
  exact ⟨rfl, this⟩

/-- Non-vacuity: from 0 to 10 at rate 1/2, three steps. -/
example : ((((Lag.default : Lag ℚ).setRate (1 / 2)).startValue 0).newValue 10).Sound ∧
    (((((Lag.default : Lag ℚ).setRate (1 / 2)).startValue 0).newValue 10).steps 3).v = 35 / 4 := by
  constructor
  · exact ⟨by norm_num [Lag.newValue, Lag.setRate, Lag.startValue], by
      norm_num [Lag.newValue, Lag.setRate, Lag.startValue], rfl⟩
  · norm_num [Lag.newValue, Lag.setRate, Lag.startValue, Lag.steps, Lag.process]

/-- C33. Setting values: a start value takes effect at once, a first new value too, later ones only move the target; `instantize` jumps to the target. -/
theorem C33_lag_setting (l : Lag K) (x y : K) :
    ((l.startValue x).v = x ∧ (l.startValue x).target = x) ∧
    (((l.startValue x).newValue y).v = x ∧ ((l.startValue x).newValue y).target = y) ∧
    ((Lag.default : Lag K).newValue x).v = x ∧
    ((((Lag.default : Lag K).newValue x).newValue y).v = x ∧ (((Lag.default : Lag K).newValue x).newValue y).target = y) ∧
    (l.instantize.v = l.target ∧ l.instantize.target = l.target) ∧ (l.newValue y).target = y := by
  refine ⟨⟨rfl, rfl⟩, ⟨rfl, rfl⟩, rfl, ⟨rfl, rfl⟩, ⟨rfl, rfl⟩, ?_⟩
  unfold Lag.newValue; split <;> rfl

/-- C33. The same for the vector lag, whose first new value does not take effect at once. -/
theorem C33_vlag_setting (l : VLag K) (x : K) :
    ((l.startValue x).v = x ∧ (l.startValue x).target = x) ∧ ((l.newValue x).v = l.v ∧ (l.newValue x).target = x) ∧
    (l.instantize.v = l.target ∧ l.instantize.target = l.target) := ⟨⟨rfl, rfl⟩, ⟨rfl, rfl⟩, rfl, rfl⟩

end Verif.Smooth
