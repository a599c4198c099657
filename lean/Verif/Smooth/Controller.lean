import Mathlib.Algebra.Order.Field.Basic
import Mathlib.Algebra.Order.Archimedean.Basic
import Mathlib.Tactic.Ring
import Mathlib.Tactic.Linarith
import Mathlib.Tactic.LinearCombination
import Mathlib.Tactic.FieldSimp
import Mathlib.Tactic.NormNum
import Mathlib.Tactic.Positivity
/-!
# The controller modulation source

Models `surge-modulation/src/controller.rs`.  Its `f64` arithmetic is taken exactly, over any ordered field.
`k` is `0.9 * 44100.0 * dsamplerate_inv` (lines 84, 129): 0.9 at 44.1 kHz, less above.
-/
namespace Verif.Smooth

set_option linter.unusedSectionVars false

variable {K : Type} [Field K] [LinearOrder K] [IsStrictOrderedRing K]

/-- controller.rs 3-17 (without `enabled`, `id`). -/
structure Ctl (K : Type) where
  output : K
  target : K
  bipolar : Bool
  changed : Bool

/-- controller.rs 102-112 `new`. -/
def Ctl.new : Ctl K := ⟨0, 0, false, true⟩

/-- controller.rs 79-86 `process_block`. -/
def Ctl.processBlock (c : Ctl K) (k : K) : Ctl K :=
  let b := |c.target - c.output|
  let a := k * b
  { c with output := (1 - a) * c.output + a * c.target }

/-- controller.rs 114-133 `process_block_until_close`. -/
def Ctl.untilClose (c : Ctl K) (k sigma : K) : Ctl K × Bool :=
  let b := |c.target - c.output|
  if b < sigma then ({ c with output := c.target }, false)
  else
    let a := k * b
    ({ c with output := (1 - a) * c.output + a * c.target }, true)

/-- controller.rs 135-139 `init`. -/
def Ctl.init (c : Ctl K) (f : K) : Ctl K := { c with target := f, output := f, changed := true }

/-- controller.rs 141-144 `set_target`. -/
def Ctl.setTarget (c : Ctl K) (f : K) : Ctl K := { c with target := f, changed := true }

/-- controller.rs 146-155 `set_target01`. -/
def Ctl.setTarget01 (c : Ctl K) (f : K) (upd : Bool) : Ctl K :=
  { c with target := if c.bipolar then 2 * f - 1 else f, changed := upd || c.changed }

/-- controller.rs 157-162 `get_target01`. -/
def Ctl.getTarget01 (c : Ctl K) : K := if c.bipolar then 1 / 2 + 1 / 2 * c.target else c.target

/-- controller.rs 37-42 `get_output01`. -/
def Ctl.getOutput01 (c : Ctl K) : K := if c.bipolar then 1 / 2 + 1 / 2 * c.output else c.output

/-- controller.rs 164-174 `has_changed`. -/
def Ctl.hasChanged (c : Ctl K) (reset : Bool) : Ctl K × Bool :=
  if c.changed then (if reset then { c with changed := false } else c, true) else (c, false)

/-- controller.rs 58-62 `set_bipolar`. -/
def Ctl.setBipolar (c : Ctl K) (b : Bool) : Ctl K := { c with bipolar := b }

/-- controller.rs 88-94 `reset`. -/
def Ctl.reset (c : Ctl K) : Ctl K := { c with target := 0, output := 0, bipolar := false }

/-- `n` blocks. -/
def Ctl.blocks (c : Ctl K) (k : K) : Nat → Ctl K
  | 0 => c
  | n + 1 => (c.blocks k n).processBlock k

/-- Block after block with `process_block_until_close` until it says it is done. -/
def Ctl.closeSteps (c : Ctl K) (k sigma : K) : Nat → Ctl K × Bool
  | 0 => (c, true)
  | n + 1 => if (c.closeSteps k sigma n).2 then (c.closeSteps k sigma n).1.untilClose k sigma
    else c.closeSteps k sigma n

/-! ## C34 -/

theorem Ctl.blocks_target (c : Ctl K) (k : K) (n : Nat) : (c.blocks k n).target = c.target := by
  induction n with
  | zero => rfl
  | succ n ih => exact ih

theorem Ctl.process_dist (c : Ctl K) (k : K) :
    (c.processBlock k).output - c.target = (c.output - c.target) * (1 - k * |c.output - c.target|) := by
  simp only [Ctl.processBlock, abs_sub_comm c.target c.output]
  ring

/-- C34. The normalised target round-trips in both modes, and the normalised output is read the same way. -/
theorem C34_target01_roundtrip (c : Ctl K) (f : K) (upd : Bool) :
    (c.setTarget01 f upd).getTarget01 = f ∧
    (c.setTarget01 c.getTarget01 upd).target = c.target ∧
    (c.setTarget01 f upd).output = c.output ∧
    (0 ≤ f → f ≤ 1 → (if c.bipolar then -1 else 0) ≤ (c.setTarget01 f upd).target ∧
      (c.setTarget01 f upd).target ≤ 1) ∧
    ((c.init ((c.setTarget01 f upd).target)).getOutput01 = f) := by
  cases hb : c.bipolar <;>
    simp only [Ctl.setTarget01, Ctl.getTarget01, Ctl.getOutput01, Ctl.init, hb, Bool.false_eq_true, if_true, if_false]
  · exact ⟨trivial, trivial, trivial, fun a b => ⟨a, b⟩, trivial⟩
  · refine ⟨by ring, by ring, trivial, fun a b => ⟨by linarith, by linarith⟩, by ring⟩

/-- C34. A pending change is reported exactly once when the reader clears it, and setting a target raises it (unless
asked not to). -/
theorem C34_changed_flag (c : Ctl K) (f : K) :
    (c.setTarget f).changed = true ∧ (c.init f).changed = true ∧ (c.setTarget01 f true).changed = true ∧
    (c.setTarget01 f false).changed = c.changed ∧
    (∀ r, (c.hasChanged r).2 = c.changed) ∧ (c.hasChanged true).1.changed = false ∧
    (c.hasChanged false).1 = c ∧ (c.hasChanged true).1.target = c.target := by
  refine ⟨rfl, rfl, rfl, rfl, fun r => ?_, ?_, ?_, ?_⟩ <;> cases h : c.changed <;>
    simp [Ctl.hasChanged, h]

/-- C34 (part). If the distance is at most `1/k` (at 44.1 kHz about 1.11), the output moves monotonically to the target
and never passes it.  Missing: larger distances (`C34_overshoot`). -/
theorem C34_monotone_partial (c : Ctl K) {k : K} (hk : 0 ≤ k) (hd : k * |c.output - c.target| ≤ 1) (n : Nat) :
    (c.output ≤ c.target → (c.blocks k n).output ≤ (c.blocks k (n + 1)).output ∧
      (c.blocks k (n + 1)).output ≤ c.target) ∧
    (c.target ≤ c.output → (c.blocks k (n + 1)).output ≤ (c.blocks k n).output ∧
      c.target ≤ (c.blocks k (n + 1)).output) ∧
    |(c.blocks k (n + 1)).output - c.target| ≤ |(c.blocks k n).output - c.target| := by
  have key : ∀ n, ∃ q : K, 0 ≤ q ∧ q ≤ 1 ∧ (c.blocks k n).output - c.target = q * (c.output - c.target) := by
    intro n
    induction n with
    | zero => exact ⟨1, by norm_num, le_rfl, by simp [Ctl.blocks]⟩
    | succ n ih =>
      obtain ⟨q, q0, q1, e⟩ := ih
      have hp := (c.blocks k n).process_dist k
      rw [c.blocks_target k n, e, abs_mul, abs_of_nonneg q0] at hp
      have hx : k * (q * |c.output - c.target|) ≤ 1 := by
        have : k * (q * |c.output - c.target|) = q * (k * |c.output - c.target|) := by ring
        rw [this]
        calc _ ≤ 1 * (k * |c.output - c.target|) := mul_le_mul_of_nonneg_right q1 (by positivity)
          _ ≤ 1 := by rw [one_mul]; exact hd
      have hx0 : 0 ≤ k * (q * |c.output - c.target|) := by positivity
      refine ⟨q * (1 - k * (q * |c.output - c.target|)), mul_nonneg q0 (by linarith), ?_, ?_⟩
      · exact mul_le_one₀ q1 (by linarith) (by linarith)
      · show (Ctl.processBlock _ k).output - c.target = _
        rw [hp]; ring
  obtain ⟨q, q0, q1, e⟩ := key n
  have hp := (c.blocks k n).process_dist k
  rw [c.blocks_target k n, e, abs_mul, abs_of_nonneg q0] at hp
  have hx : k * (q * |c.output - c.target|) ≤ 1 := by
    have : k * (q * |c.output - c.target|) = q * (k * |c.output - c.target|) := by ring
    rw [this]
    calc _ ≤ 1 * (k * |c.output - c.target|) := mul_le_mul_of_nonneg_right q1 (by positivity)
      _ ≤ 1 := by rw [one_mul]; exact hd
  have hx0 : 0 ≤ k * (q * |c.output - c.target|) := by positivity
  generalize k * (q * |c.output - c.target|) = x at *
  have hp' : (c.blocks k (n + 1)).output - c.target = q * (c.output - c.target) * (1 - x) := hp
  refine ⟨fun h => ?_, fun h => ?_, ?_⟩
  · have hd' : q * (c.output - c.target) ≤ 0 := mul_nonpos_of_nonneg_of_nonpos q0 (by linarith)
    constructor <;> nlinarith
  · have hd' : 0 ≤ q * (c.output - c.target) := mul_nonneg q0 (by linarith)
    constructor <;> nlinarith
  · rw [hp', e, abs_mul, abs_of_nonneg (by linarith : 0 ≤ 1 - x)]
    exact mul_le_of_le_one_right (abs_nonneg _) (by linarith)

/-- C34 (part). From within `1/k` the distance after `n` blocks is at most `1/(k·(n+1))`: the output converges. -/
theorem C34_converges_partial (c : Ctl K) {k : K} (hk : 0 < k) (hd : k * |c.output - c.target| ≤ 1) (n : Nat) :
    k * |(c.blocks k n).output - c.target| ≤ 1 / (n + 1) := by
  induction n with
  | zero => simpa [Ctl.blocks] using hd
  | succ n ih =>
    have hp := (c.blocks k n).process_dist k
    rw [c.blocks_target k n] at hp
    show k * |(Ctl.processBlock _ k).output - c.target| ≤ _
    rw [hp, abs_mul]
    have hx0 : 0 ≤ k * |(c.blocks k n).output - c.target| := by positivity
    have hn : (0:K) < (n:K) + 1 := by positivity
    have hx1 : k * |(c.blocks k n).output - c.target| ≤ 1 := ih.trans (by
      rw [div_le_one hn]
      have : (0:K) ≤ n := Nat.cast_nonneg n
      linarith)
    rw [abs_of_nonneg (by linarith : 0 ≤ 1 - k * |(c.blocks k n).output - c.target|), ← mul_assoc]
    generalize k * |(c.blocks k n).output - c.target| = x at *
    push_cast
    rw [le_div_iff₀ (by positivity)]
    rw [le_div_iff₀ hn] at ih
    -- x(1-x)(m+1) ≤ 1 where m = n+1 and m x ≤ 1
    have h1 : (n:K) + 1 + 1 = (n + 1) + 1 := rfl
    generalize hm : (n:K) + 1 = m at *
    have : x * (1 - x) * (m + 1) = x * m + x - x * x * m - x * x := by ring
    nlinarith [mul_nonneg hx0 (sub_nonneg.mpr ih), mul_self_nonneg (1 - x), mul_self_nonneg x]

/-- C34. `process_block_until_close` reports completion exactly when the distance was below sigma, and then the output
is the target. -/
theorem C34_until_close (c : Ctl K) (k sigma : K) :
    ((c.untilClose k sigma).2 = false ↔ |c.target - c.output| < sigma) ∧
    ((c.untilClose k sigma).2 = false → (c.untilClose k sigma).1.output = c.target) ∧
    ((c.untilClose k sigma).2 = true → (c.untilClose k sigma).1 = c.processBlock k) ∧
    (c.untilClose k sigma).1.target = c.target := by
  unfold Ctl.untilClose
  simp only
  split
  · rename_i h; simp [h]
  · rename_i h; simp [h, Ctl.processBlock]

theorem Ctl.closeSteps_spec (c : Ctl K) (k sigma : K) (n : Nat) :
    (c.closeSteps k sigma n).1.target = c.target ∧
    ((c.closeSteps k sigma n).2 = true → (c.closeSteps k sigma n).1 = c.blocks k n) ∧
    ((c.closeSteps k sigma n).2 = false → (c.closeSteps k sigma n).1.output = c.target) := by
  induction n with
  | zero => exact ⟨rfl, fun _ => rfl, fun h => by cases h⟩
  | succ n ih =>
    simp only [Ctl.closeSteps]
    cases h : (c.closeSteps k sigma n).2 with
    | true =>
      rw [if_pos rfl]
      obtain ⟨a, b, d, e⟩ := C34_until_close (c.closeSteps k sigma n).1 k sigma
      refine ⟨e.trans ih.1, fun hh => ?_, fun hh => (b hh).trans ih.1⟩
      rw [d hh, ih.2.1 h]; rfl
    | false =>
      rw [if_neg (by simp)]
      refine ⟨ih.1, fun hh => ?_, fun _ => ih.2.2 h⟩
      rw [hh] at h; cases h

/-- C34 (part). From within `1/k` of the target, the interpolation finishes: after finitely many blocks it reports
completion with the output on the target. -/
theorem C34_until_close_finishes_partial [Archimedean K] (c : Ctl K) {k sigma : K} (hk : 0 < k) (hs : 0 < sigma)
    (hd : k * |c.output - c.target| ≤ 1) :
    ∃ n, (c.closeSteps k sigma n).2 = false ∧ (c.closeSteps k sigma n).1.output = c.target := by
  obtain ⟨N, hN⟩ := exists_nat_gt (1 / (k * sigma))
  by_cases h : (c.closeSteps k sigma N).2 = false
  · exact ⟨N, h, (c.closeSteps_spec k sigma N).2.2 h⟩
  · have h' : (c.closeSteps k sigma N).2 = true := by simpa using h
    have e := (c.closeSteps_spec k sigma N).2.1 h'
    have hb := C34_converges_partial c hk hd N
    have hks : 0 < k * sigma := mul_pos hk hs
    rw [div_lt_iff₀ hks] at hN
    have hpos : (0:K) < (N:K) + 1 := by positivity
    rw [le_div_iff₀ hpos] at hb
    have hlt : |(c.blocks k N).output - c.target| < sigma := by
      by_contra hc
      have hc := not_lt.mp hc
      have h1 : k * sigma * (N + 1) ≤ k * |(c.blocks k N).output - c.target| * (N + 1) :=
        mul_le_mul_of_nonneg_right (mul_le_mul_of_nonneg_left hc hk.le) hpos.le
      nlinarith
    refine ⟨N + 1, ?_, ?_⟩
    · simp only [Ctl.closeSteps, h', if_true]
      rw [(C34_until_close _ k sigma).1, e, c.blocks_target k N, abs_sub_comm]
      exact hlt
    · have := (c.closeSteps_spec k sigma (N + 1)).2.2 (by
        simp only [Ctl.closeSteps, h', if_true]
        rw [(C34_until_close _ k sigma).1, e, c.blocks_target k N, abs_sub_comm]
        exact hlt)
      exact this

/-- C34 fails (1): from farther away than `1/k` the very next block passes the target. -/
theorem C34_overshoot (c : Ctl K) {k : K} (hd : 1 < k * |c.output - c.target|) :
    (c.output < c.target → c.target < (c.processBlock k).output) ∧
    (c.target < c.output → (c.processBlock k).output < c.target) := by
  have hp := c.process_dist k
  generalize k * |c.output - c.target| = x at *
  constructor
  · intro h
    have := mul_pos_of_neg_of_neg (show c.output - c.target < 0 by linarith) (show 1 - x < 0 by linarith)
    linarith
  · intro h
    have := mul_neg_of_pos_of_neg (show 0 < c.output - c.target by linarith) (show 1 - x < 0 by linarith)
    linarith

/-- C34 fails (2): from farther away than `2/k` the distance grows with every block. -/
theorem C34_diverges (c : Ctl K) {k : K} (hk : 0 < k) (hd : 2 < k * |c.output - c.target|) (n : Nat) :
    |c.output - c.target| ≤ |(c.blocks k n).output - c.target| ∧
    |(c.blocks k n).output - c.target| < |(c.blocks k (n + 1)).output - c.target| := by
  have step : ∀ d : Ctl K, 2 < k * |d.output - d.target| →
      |d.output - d.target| < |(d.processBlock k).output - d.target| := by
    intro d h
    rw [d.process_dist k, abs_mul]
    have hpos : 0 < |d.output - d.target| := by
      by_contra hc
      have : |d.output - d.target| = 0 := le_antisymm (not_lt.mp hc) (abs_nonneg _)
      rw [this] at h; linarith
    rw [abs_of_neg (by linarith : 1 - k * |d.output - d.target| < 0)]
    nlinarith
  have all : ∀ n, |c.output - c.target| ≤ |(c.blocks k n).output - c.target| := by
    intro n
    induction n with
    | zero => exact le_rfl
    | succ n ih =>
      have h := step (c.blocks k n) (by
        rw [c.blocks_target k n]
        exact lt_of_lt_of_le hd (mul_le_mul_of_nonneg_left ih hk.le))
      rw [c.blocks_target k n] at h
      exact ih.trans h.le
  refine ⟨all n, ?_⟩
  have h := step (c.blocks k n) (by
    rw [c.blocks_target k n]
    exact lt_of_lt_of_le hd (mul_le_mul_of_nonneg_left (all n) hk.le))
  rwa [c.blocks_target k n] at h

/-- Non-vacuity of both sides: at 44.1 kHz (k = 0.9) a unipolar swing meets the hypothesis, a bipolar swing from -1 to
1 jumps to 2.6 in one block. -/
example : (9 / 10 : ℚ) * |(⟨0, 1, false, true⟩ : Ctl ℚ).output - (⟨0, 1, false, true⟩ : Ctl ℚ).target| ≤ 1 ∧
    ((⟨-1, 1, true, true⟩ : Ctl ℚ).processBlock (9 / 10)).output = 13 / 5 := by
  constructor <;> norm_num [Ctl.processBlock]

/-- C34. After a reset the source is at rest at 0, unipolar, and blocks keep it there. -/
theorem C34_reset_at_rest (c : Ctl K) (k : K) (n : Nat) : (c.reset.blocks k n).output = 0 ∧ (c.reset.blocks k n).target = 0 ∧ c.reset.getOutput01 = 0 := by
  have key : ∀ n, (c.reset.blocks k n).output = 0 ∧ (c.reset.blocks k n).target = 0 := by
    intro n
    induction n with
    | zero => exact ⟨rfl, rfl⟩
    | succ n ih => simp [Ctl.blocks, Ctl.processBlock, ih.1, ih.2]
  exact ⟨(key n).1, (key n).2, by simp [Ctl.reset, Ctl.getOutput01]⟩

end Verif.Smooth
