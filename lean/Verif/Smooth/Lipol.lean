import Mathlib.Algebra.Order.Field.Basic
import Mathlib.Tactic.Ring
import Mathlib.Tactic.Linarith
import Mathlib.Tactic.LinearCombination
import Mathlib.Tactic.FieldSimp
import Mathlib.Tactic.NormNum
import Mathlib.Tactic.Positivity
/-!
# Linear interpolators

Models `surge-lipol/src/{lipol,lipol_ps,sse_block,add,multiply,mac,fade,trixpan}.rs`.  Arithmetic is exact, over any
ordered field.  Buffers are functions from sample index to value; an SSE register is its four lanes; source and
destination buffers of one call do not overlap unless they are the same.
-/
set_option linter.unusedSectionVars false
namespace Verif.Smooth

variable {K : Type} [Field K] [LinearOrder K] [IsStrictOrderedRing K]

/-! ## The scalar interpolator -/

/-- lipol.rs 14-41 `LiPol<T>`. -/
structure LiPol (K : Type) where
  v : K
  newV : K
  dv : K
  bsInv : K
  first : Bool

/-- lipol.rs 54-65, 69-71 `new` and `set_blocksize`. -/
def LiPol.new (n : Nat) : LiPol K := ⟨0, 0, 0, 1 / n, true⟩
/-- lipol.rs 69-71. -/
def LiPol.setBlocksize (l : LiPol K) (n : Nat) : LiPol K := { l with bsInv := 1 / n }
/-- lipol.rs 77-80 `instantize`. -/
def LiPol.instantize (l : LiPol K) : LiPol K := { l with v := l.newV, dv := 0 }
/-- lipol.rs 85-87 `process`. -/
def LiPol.process (l : LiPol K) : LiPol K := { l with v := l.v + l.dv }
/-- lipol.rs 98-107 `reset`. -/
def LiPol.reset (_ : LiPol K) (n : Nat) : LiPol K := LiPol.new n
/-- lipol.rs 112-123 `new_value`. -/
def LiPol.newValue (l : LiPol K) (x : K) : LiPol K :=
  let v := if l.first then x else l.newV
  { l with v := v, newV := x, first := false, dv := (x - v) * l.bsInv }

/-- `n` samples. -/
def LiPol.steps (l : LiPol K) : Nat → LiPol K
  | 0 => l
  | n + 1 => (l.steps n).process

/-! ## The block interpolator -/

/-- lipol_ps.rs 28-82 `LipolPs`: lane 0 of `target`, `currentval`, and the block size. -/
structure LipolPs (K : Type) where
  target : K
  current : K
  blockSize : K

/-- lipol_ps.rs 84-103 `default`. -/
def LipolPs.default : LipolPs K := ⟨0, 0, 64⟩
/-- lipol_ps.rs 127-132 `set_blocksize`. -/
def LipolPs.setBlocksize (l : LipolPs K) (n : Nat) : LipolPs K := { l with blockSize := n }
/-- lipol_ps.rs 138-143 `set_target`. -/
def LipolPs.setTarget (l : LipolPs K) (t : K) : LipolPs K := { l with current := l.target, target := t }
/-- lipol_ps.rs 158-162 `set_target_instantize`. -/
def LipolPs.setTargetInstantize (l : LipolPs K) (t : K) : LipolPs K := { l with target := t, current := t }
/-- lipol_ps.rs 169-177 `set_target_smoothed`: `coef` = 0.25, `coef_m1` = 0.75 (lane 0). -/
def LipolPs.setTargetSmoothed (l : LipolPs K) (t : K) : LipolPs K :=
  { l with current := l.target, target := 1 / 4 * t + (1 - 1 / 4) * l.target }
/-- lipol_ps.rs 182-184 `instantize`. -/
def LipolPs.instantize (l : LipolPs K) : LipolPs K := { l with current := l.target }

/-- lipol_ps.rs 200-232 `initblock`: `dy` in all lanes; `m128_bs4_inv` = 4 / block size. -/
def LipolPs.dy (l : LipolPs K) : K := (l.target - l.current) * (4 / l.blockSize)
/-- lipol_ps.rs 200-232 `initblock`: lane `j` of `y`, starter lanes 0.25, 0.5, 0.75, 1. -/
def LipolPs.y (l : LipolPs K) (j : Nat) : K := l.current + l.dy * ((j + 1) / 4)

/-- One SSE operation on quad `i` of the destination: `g sample old gain`. -/
def quad (g : Nat → K → K → K) (i : Nat) (y : Nat → K) (mem : Nat → K) : Nat → K :=
  fun s => if s / 4 = i then g s (mem s) (y (s % 4)) else mem s

/-- sse_block.rs 74-90: the closure gets `y1`, `y2`, `dy` by value each time, so its updates of them are lost. -/
def pairs (g : Nat → K → K → K) (y1 y2 : Nat → K) : List Nat → (Nat → K) → Nat → K
  | [], mem => mem
  | i :: is, mem => pairs g y1 y2 is (quad g (i + 1) y2 (quad g i y1 mem))

/-- `(0..n).step_by(2)`. -/
def evens (n : Nat) : List Nat := (List.range ((n + 1) / 2)).map (2 * ·)

/-- sse_block.rs 17-92 `lipol_ps_sse_block!` (both strides visit the same quads). -/
def LipolPs.block (l : LipolPs K) (g : Nat → K → K → K) (nquads : Nat) (mem : Nat → K) : Nat → K :=
  pairs g l.y (fun j => l.y j + l.dy) (evens nquads) mem

/-- lipol_ps.rs 257-273 `store_block`. -/
def LipolPs.store (l : LipolPs K) (n : Nat) (dst : Nat → K) : Nat → K := l.block (fun _ _ y => y) n dst
/-- add.rs 56-78 `add_block`. -/
def LipolPs.add (l : LipolPs K) (n : Nat) (src : Nat → K) : Nat → K := l.block (fun _ d y => d + y) n src
/-- add.rs 112-144 `subtract_block`. -/
def LipolPs.subtract (l : LipolPs K) (n : Nat) (src : Nat → K) : Nat → K := l.block (fun _ d y => d - y) n src
/-- multiply.rs 109-141 `multiply_block` (and each channel of `multiply_2_blocks`, 77-102). -/
def LipolPs.multiply (l : LipolPs K) (n : Nat) (src : Nat → K) : Nat → K := l.block (fun _ d y => d * y) n src
/-- multiply.rs 9-34 `multiply_block_to` (and each channel of `multiply_2_blocks_to`, 41-71). -/
def LipolPs.multiplyTo (l : LipolPs K) (n : Nat) (src dst : Nat → K) : Nat → K :=
  l.block (fun s _ y => src s * y) n dst
/-- multiply.rs 150-188 `multiply_block_sat1`: the saturated values are the lost updates. -/
def LipolPs.multiplySat1 (l : LipolPs K) (n : Nat) (src : Nat → K) : Nat → K := l.block (fun _ d y => d * y) n src
/-- mac.rs 10-43 `mac_block_to` (and each channel of `mac_2_blocks_to`, 51-98). -/
def LipolPs.macTo (l : LipolPs K) (n : Nat) (src dst : Nat → K) : Nat → K :=
  l.block (fun s d y => d + src s * y) n dst
/-- fade.rs 66-112 `fade_block_to` (and each channel of `fade_2_blocks_to`, 141-218). -/
def LipolPs.fadeTo (l : LipolPs K) (n : Nat) (src1 src2 dst : Nat → K) : Nat → K :=
  l.block (fun s _ y => src1 s * (1 - y) + src2 s * y) n dst

/-- trixpan.rs 9-25 `trixpan_left`. -/
def trixpanLeft (a b left right : K) : K := (1 - a) * left - b * right
/-- trixpan.rs 31-47 `trixpan_right`. -/
def trixpanRight (a b left right : K) : K := a * left + (1 + b) * right

/-- trixpan.rs 76-111 `trixpan_blocks`: its own loop, in which `y` does advance. Returns (d_l, d_r). -/
def LipolPs.trixpanLoop (left right : Nat → K) (dy : K) :
    Nat → Nat → (Nat → K) → (Nat → K) × (Nat → K) → (Nat → K) × (Nat → K)
  | _, 0, _, out => out
  | i, n + 1, y, out =>
    let dl := quad (fun s _ y => trixpanLeft (max 0 y) (min 0 y) (left s) (right s)) i y out.1
    let dr := quad (fun s _ y => trixpanRight (max 0 y) (min 0 y) (left s) (right s)) i y out.2
    trixpanLoop left right dy (i + 1) n (fun j => y j + dy) (dl, dr)

/-- trixpan.rs 76-111. -/
def LipolPs.trixpan (l : LipolPs K) (n : Nat) (left right : Nat → K) (out : (Nat → K) × (Nat → K)) :
    (Nat → K) × (Nat → K) :=
  trixpanLoop left right l.dy 0 n l.y out

/-! ## C52: the scalar interpolator -/

theorem LiPol.steps_eq (l : LiPol K) (n : Nat) : l.steps n = { l with v := l.v + n * l.dv } := by
  induction n with
  | zero => simp [LiPol.steps]
  | succ n ih => simp only [LiPol.steps, ih, LiPol.process]; congr 1; push_cast; ring

/-- C52. After `new_value x` with block size `n`, sample `i` of the block is on the straight line from the previous
target (from `x` itself the first time) to `x`, sample `n` is exactly `x`, and in between the value stays between the
two. -/
theorem C52_line (l : LiPol K) (x : K) {n : Nat} (hn : 0 < n) (hb : l.bsInv = 1 / n) (i : Nat) :
    ((l.newValue x).steps i).v =
      (if l.first then x else l.newV) + (x - (if l.first then x else l.newV)) * (i / n) ∧
    ((l.newValue x).steps n).v = x ∧ (l.newValue x).newV = x ∧ (l.newValue x).first = false ∧
    (i ≤ n → min (if l.first then x else l.newV) x ≤ ((l.newValue x).steps i).v ∧
      ((l.newValue x).steps i).v ≤ max (if l.first then x else l.newV) x) := by
  have hn' : (n : K) ≠ 0 := by positivity
  have hpos : (0 : K) < n := by positivity
  simp only [LiPol.steps_eq, LiPol.newValue, hb]
  generalize (if l.first then x else l.newV) = s
  have e1 : s + i * ((x - s) * (1 / (n : K))) = s + (x - s) * (i / n) := by ring
  refine ⟨e1, by field_simp; ring, trivial, trivial, fun hi => ?_⟩
  rw [e1]
  have h0 : (0 : K) ≤ i / n := by positivity
  have h1 : (i : K) / n ≤ 1 := by rw [div_le_one hpos]; exact_mod_cast hi
  generalize (i : K) / n = q at *
  rcases le_total s x with h | h
  · rw [min_eq_left h, max_eq_right h]
    constructor <;> nlinarith
  · rw [min_eq_right h, max_eq_left h]
    constructor <;> nlinarith

/-- A history of blocks: each sets a new value and then produces `n` samples. -/
def LiPol.blocks (l : LiPol K) (n : Nat) : List K → LiPol K
  | [] => l
  | x :: xs => ((l.newValue x).steps n).blocks n xs

/-- C52. Over any number of blocks every block ends exactly on its value, so consecutive blocks join without a jump. -/
theorem C52_blocks_join {n : Nat} (hn : 0 < n) (xs : List K) (x y : K) :
    let l := ((LiPol.new n : LiPol K).blocks n (xs ++ [x]))
    l.v = x ∧ (l.newValue y).v = x ∧ (l.newValue y).newV = y := by
  have key : ∀ (xs : List K) (l : LiPol K), l.bsInv = 1 / n →
      (l.blocks n (xs ++ [x])).v = x ∧ (l.blocks n (xs ++ [x])).newV = x ∧
        (l.blocks n (xs ++ [x])).first = false := by
    intro xs
    induction xs with
    | nil =>
      intro l hb
      obtain ⟨_, h2, h3, h4, _⟩ := C52_line l x hn hb n
      refine ⟨h2, ?_, ?_⟩
      · simp only [List.nil_append, LiPol.blocks]; rw [LiPol.steps_eq]; exact h3
      · simp only [List.nil_append, LiPol.blocks]; rw [LiPol.steps_eq]; exact h4
    | cons z zs ih =>
      intro l hb
      simp only [List.cons_append, LiPol.blocks]
      refine ih _ ?_
      rw [LiPol.steps_eq]; exact hb
  obtain ⟨a, b, c⟩ := key xs (LiPol.new n) rfl
  refine ⟨a, ?_, rfl⟩
  show (if _ then y else _) = x
  rw [c]
  simpa using b

/-- Non-vacuity: two blocks of 32 samples, 1 then 5; sample 8 of the second is 2. -/
example : (((LiPol.new 32 : LiPol ℚ).blocks 32 [1]).newValue 5 |>.steps 8).v = 2 := by
  norm_num [LiPol.new, LiPol.blocks, LiPol.newValue, LiPol.steps_eq]

/-! ## C53: the block interpolator -/

theorem pairs_get (g : Nat → K → K → K) (y1 y2 : Nat → K) (ms : List Nat) (hd : ms.Nodup) (mem : Nat → K) (s : Nat) :
    pairs g y1 y2 (ms.map (2 * ·)) mem s =
      if s / 8 ∈ ms then g s (mem s) (if s / 4 % 2 = 0 then y1 (s % 4) else y2 (s % 4)) else mem s := by
  induction ms generalizing mem with
  | nil => simp [pairs]
  | cons m ms ih =>
    obtain ⟨hm, hd'⟩ := List.nodup_cons.mp hd
    simp only [List.map_cons, pairs]
    rw [ih hd']
    by_cases hs : s / 8 = m
    · have hnot : s / 8 ∉ ms := by rw [hs]; exact hm
      rw [if_neg hnot, if_pos (by rw [hs]; exact List.mem_cons_self)]
      unfold quad
      by_cases hp : s / 4 % 2 = 0
      · have e1 : s / 4 = 2 * m := by omega
        rw [if_neg (by omega), if_pos e1, if_pos hp]
      · have e1 : s / 4 = 2 * m + 1 := by omega
        rw [if_pos e1, if_neg (by omega), if_neg hp]
    · have e : quad g (2 * m + 1) y2 (quad g (2 * m) y1 mem) s = mem s := by
        unfold quad
        rw [if_neg (by omega), if_neg (by omega)]
      rw [e]
      by_cases hmem : s / 8 ∈ ms
      · rw [if_pos hmem, if_pos (List.mem_cons_of_mem _ hmem)]
      · rw [if_neg hmem, if_neg]
        intro hc
        rcases List.mem_cons.mp hc with r | r
        · exact hs r
        · exact hmem r

/-- The gain the block interpolator applies at sample `s`. -/
def LipolPs.gain (l : LipolPs K) (s : Nat) : K := l.current + (l.target - l.current) * (((s % 8 : Nat) : K) + 1) / l.blockSize

theorem LipolPs.block_get (l : LipolPs K) (g : Nat → K → K → K) (n : Nat) (mem : Nat → K) (s : Nat) :
    l.block g n mem s = if s / 8 < (n + 1) / 2 then g s (mem s) (l.gain s) else mem s := by
  unfold LipolPs.block evens
  rw [pairs_get _ _ _ _ List.nodup_range]
  simp only [List.mem_range]
  by_cases h : s / 8 < (n + 1) / 2
  · rw [if_pos h, if_pos h]
    congr 1
    unfold LipolPs.gain LipolPs.y LipolPs.dy
    by_cases hp : s / 4 % 2 = 0
    · have e : s % 8 = s % 4 := by omega
      rw [if_pos hp, e]; ring
    · have e : s % 8 = s % 4 + 4 := by omega
      rw [if_neg hp, e]; push_cast; ring
  · rw [if_neg h, if_neg h]

/-- C53 fails: every function that applies the interpolator to a block of `n` (even) quads uses the same eight gains
over and over: sample `s` gets the gain of sample `s % 8`.  Samples past the block are untouched. -/
theorem C53_block_repeats_first_segment (l : LipolPs K) {n : Nat} (hn : n % 2 = 0) (src src2 dst : Nat → K) (s : Nat) :
    (4 * n ≤ s → l.store n dst s = dst s ∧ l.add n src s = src s ∧ l.subtract n src s = src s ∧
      l.multiply n src s = src s ∧ l.multiplySat1 n src s = src s ∧ l.multiplyTo n src dst s = dst s ∧
      l.macTo n src dst s = dst s ∧ l.fadeTo n src src2 dst s = dst s) ∧
    (s < 4 * n → l.store n dst s = l.gain s ∧ l.add n src s = src s + l.gain s ∧
      l.subtract n src s = src s - l.gain s ∧ l.multiply n src s = src s * l.gain s ∧
      l.multiplySat1 n src s = src s * l.gain s ∧
      l.multiplyTo n src dst s = src s * l.gain s ∧ l.macTo n src dst s = dst s + src s * l.gain s ∧
      l.fadeTo n src src2 dst s = src s * (1 - l.gain s) + src2 s * l.gain s) := by
  simp only [LipolPs.store, LipolPs.add, LipolPs.subtract, LipolPs.multiply, LipolPs.multiplySat1, LipolPs.multiplyTo,
    LipolPs.macTo, LipolPs.fadeTo, LipolPs.block_get]
  constructor
  · intro h
    simp only [if_neg (show ¬ s / 8 < (n + 1) / 2 by omega), and_self]
  · intro h
    simp only [if_pos (show s / 8 < (n + 1) / 2 by omega), and_self]

/-- C53 fails: over a block of more than eight samples the gain never reaches the target. -/
theorem C53_target_not_reached (l : LipolPs K) (h8 : 8 < l.blockSize) (hne : l.target ≠ l.current) (s : Nat) :
    l.gain s ≠ l.target := by
  intro h
  unfold LipolPs.gain at h
  have hb : l.blockSize ≠ 0 := by positivity
  have hlt : (((s % 8 : Nat) : K) + 1) < l.blockSize := by
    have : s % 8 + 1 ≤ 8 := by omega
    have : (((s % 8 + 1 : Nat)) : K) ≤ ((8 : Nat) : K) := by exact_mod_cast this
    push_cast at this; linarith
  rw [eq_comm, ← sub_eq_iff_eq_add', eq_div_iff hb] at h
  have : (l.target - l.current) * (l.blockSize - (((s % 8 : Nat) : K) + 1)) = 0 := by linear_combination h
  rcases mul_eq_zero.mp this with e | e
  · exact hne (by linarith)
  · linarith

/-- C53 (part). For blocks of eight samples the gain is the straight line from the previous target to the new one, ends
exactly on it, and the next block starts from there.  Missing: longer blocks. -/
theorem C53_ramp_partial (l : LipolPs K) (t : K) (s : Nat) (hs : s < 8) (hb : l.blockSize = 8) :
    (l.setTarget t).gain s = l.target + (t - l.target) * ((s + 1) / 8) ∧ (l.setTarget t).gain 7 = t ∧
    ((l.setTarget t).setTarget t).gain s = t := by
  have e : s % 8 = s := Nat.mod_eq_of_lt hs
  refine ⟨?_, ?_, ?_⟩
  · simp only [LipolPs.gain, LipolPs.setTarget, hb, e]; ring
  · simp only [LipolPs.gain, LipolPs.setTarget, hb]; norm_num
  · simp only [LipolPs.gain, LipolPs.setTarget]; ring

/-- `n` calls of `set_target_smoothed t`. -/
def LipolPs.smoothN (l : LipolPs K) (t : K) : Nat → LipolPs K
  | 0 => l
  | n + 1 => (l.smoothN t n).setTargetSmoothed t

/-- C53. Smoothed targets approach the requested value geometrically, and each ramp starts where the last one aimed. -/
theorem C53_smoothed_target (l : LipolPs K) (t : K) (n : Nat) :
    (l.smoothN t n).target - t = (3 / 4) ^ n * (l.target - t) ∧
    (l.smoothN t (n + 1)).current = (l.smoothN t n).target := by
  refine ⟨?_, rfl⟩
  induction n with
  | zero => simp [LipolPs.smoothN]
  | succ n ih =>
    simp only [LipolPs.smoothN, LipolPs.setTargetSmoothed]
    rw [pow_succ]
    linear_combination (3 / 4) * ih

/-- Non-vacuity: block size 64, ramp from 0 to 1 over 16 quads; sample 63 has gain 1/8. -/
example : ((LipolPs.default : LipolPs ℚ).setTarget 1).store 16 (fun _ => 0) 63 = 1 / 8 := by
  have h := (C53_block_repeats_first_segment ((LipolPs.default : LipolPs ℚ).setTarget 1) (n := 16) rfl
    (fun _ => 0) (fun _ => 0) (fun _ => 0) 63).2 (by norm_num)
  rw [h.1]
  norm_num [LipolPs.gain, LipolPs.default, LipolPs.setTarget]

/-! ## C54: panning -/

theorem trixpanLoop_get (left right : Nat → K) (dy : K) (i n : Nat) (y : Nat → K) (out : (Nat → K) × (Nat → K)) (s : Nat) :
    let p := y (s % 4) + ((s / 4 : Nat) - (i : K)) * dy
    (LipolPs.trixpanLoop left right dy i n y out).1 s =
      (if i ≤ s / 4 ∧ s / 4 < i + n then trixpanLeft (max 0 p) (min 0 p) (left s) (right s) else out.1 s) ∧
    (LipolPs.trixpanLoop left right dy i n y out).2 s =
      (if i ≤ s / 4 ∧ s / 4 < i + n then trixpanRight (max 0 p) (min 0 p) (left s) (right s) else out.2 s) := by
  induction n generalizing i y out with
  | zero =>
    intro p
    simp only [LipolPs.trixpanLoop]
    rw [if_neg (by omega), if_neg (by omega)]
    exact ⟨rfl, rfl⟩
  | succ n ih =>
    intro p
    simp only [LipolPs.trixpanLoop]
    obtain ⟨h1, h2⟩ := ih (i + 1) (fun j => y j + dy)
      (quad (fun s _ y => trixpanLeft (max 0 y) (min 0 y) (left s) (right s)) i y out.1,
        quad (fun s _ y => trixpanRight (max 0 y) (min 0 y) (left s) (right s)) i y out.2)
    rw [h1, h2]
    by_cases hi : s / 4 = i
    · have hp : p = y (s % 4) := by
        simp only [p]; rw [hi]; ring
      have c1 : ¬(i + 1 ≤ s / 4 ∧ s / 4 < i + 1 + n) := by omega
      have c2 : i ≤ s / 4 ∧ s / 4 < i + (n + 1) := by omega
      rw [hp]
      simp only [if_neg c1, if_pos c2, quad, if_pos hi]
      exact ⟨trivial, trivial⟩
    · have hp : y (s % 4) + dy + (((s / 4 : Nat) : K) - ((i + 1 : Nat) : K)) * dy = p := by
        simp only [p]; push_cast; ring
      rw [hp]
      simp only [quad, if_neg hi]
      by_cases hc : i + 1 ≤ s / 4 ∧ s / 4 < i + 1 + n
      · rw [if_pos hc, if_pos hc, if_pos (by omega), if_pos (by omega)]
        exact ⟨rfl, rfl⟩
      · rw [if_neg hc, if_neg hc, if_neg (by omega), if_neg (by omega)]
        exact ⟨rfl, rfl⟩

/-- The pan position at sample `s` of a block. -/
def panAt (l : LipolPs K) (s : Nat) : K := l.current + (l.target - l.current) * (((s : K) + 1) / l.blockSize)

/-- C54. Panning a block of `n` quads: the pan position follows the straight line from the previous target to the new
one, reaching it with the last sample if the block size is `4 n`; at position `p ≥ 0` the left channel is scaled by
`1 - p` and its rest moved to the right, at `p ≤ 0` the other way round; nothing outside the block changes. -/
theorem C54_pan (l : LipolPs K) (n : Nat) (left right : Nat → K) (out : (Nat → K) × (Nat → K)) (s : Nat) :
    (4 * n ≤ s → (l.trixpan n left right out).1 s = out.1 s ∧ (l.trixpan n left right out).2 s = out.2 s) ∧
    (s < 4 * n →
      (0 ≤ panAt l s → (l.trixpan n left right out).1 s = (1 - panAt l s) * left s ∧
        (l.trixpan n left right out).2 s = panAt l s * left s + right s) ∧
      (panAt l s ≤ 0 → (l.trixpan n left right out).1 s = left s + (-panAt l s) * right s ∧
        (l.trixpan n left right out).2 s = (1 - (-panAt l s)) * right s)) ∧
    (s + 1 = 4 * n → l.blockSize = ((4 * n : Nat) : K) → panAt l s = l.target) := by
  obtain ⟨h1, h2⟩ := trixpanLoop_get left right l.dy 0 n l.y out s
  have hp : l.y (s % 4) + ((s / 4 : Nat) - ((0 : Nat) : K)) * l.dy = panAt l s := by
    unfold LipolPs.y LipolPs.dy panAt
    have : (s : K) = 4 * ((s / 4 : Nat) : K) + ((s % 4 : Nat) : K) := by exact_mod_cast (Nat.div_add_mod s 4).symm
    rw [this]; push_cast; ring
  rw [hp] at h1 h2
  unfold LipolPs.trixpan
  refine ⟨fun h => ?_, fun h => ?_, fun h hb => ?_⟩
  · rw [h1, h2, if_neg (by omega), if_neg (by omega)]; exact ⟨rfl, rfl⟩
  · rw [h1, h2, if_pos (by omega), if_pos (by omega)]
    refine ⟨fun hp => ?_, fun hp => ?_⟩
    · rw [max_eq_right hp, min_eq_left hp]; unfold trixpanLeft trixpanRight; constructor <;> ring
    · rw [max_eq_left hp, min_eq_right hp]; unfold trixpanLeft trixpanRight; constructor <;> ring
  · unfold panAt
    have h1 : (s : K) + 1 = ((4 * n : Nat) : K) := by exact_mod_cast h
    have h2 : ((4 * n : Nat) : K) ≠ 0 := by
      have : 4 * n ≠ 0 := by omega
      exact_mod_cast this
    rw [h1, hb, div_self h2]; ring

/-- C54. Panning never loses signal: at every sample the two output channels add up to the two input channels. -/
theorem C54_pan_preserves_sum (l : LipolPs K) (n : Nat) (left right : Nat → K) (out : (Nat → K) × (Nat → K)) (s : Nat)
    (hs : s < 4 * n) :
    (l.trixpan n left right out).1 s + (l.trixpan n left right out).2 s = left s + right s := by
  obtain ⟨h1, h2⟩ := (C54_pan l n left right out s).2.1 hs
  rcases le_total 0 (panAt l s) with h | h
  · obtain ⟨a, b⟩ := h1 h; rw [a, b]; ring
  · obtain ⟨a, b⟩ := h2 h; rw [a, b]; ring

/-- Non-vacuity: pan moving from 0 to 1 over 64 samples; the last sample is hard right. -/
example : let l := (LipolPs.default : LipolPs ℚ).setTarget 1
    (l.trixpan 16 (fun _ => 3) (fun _ => 5) (fun _ => 0, fun _ => 0)).1 63 = 0 ∧
    (l.trixpan 16 (fun _ => 3) (fun _ => 5) (fun _ => 0, fun _ => 0)).2 63 = 8 := by
  intro l
  have hp : panAt l 63 = 1 := by norm_num [panAt, l, LipolPs.default, LipolPs.setTarget]
  obtain ⟨a, b⟩ := ((C54_pan l 16 (fun _ => 3) (fun _ => 5) (fun _ => 0, fun _ => 0) 63).2.1 (by norm_num)).1
    (by rw [hp]; norm_num)
  rw [a, b, hp]; norm_num

/-- C52. A new block size takes effect with the next value: after `n` samples the value is reached, whatever the history. -/
theorem C52_blocksize (l : LiPol K) (x : K) {n : Nat} (hn : 0 < n) : (((l.setBlocksize n).newValue x).steps n).v = x ∧ (((l.reset n).newValue x).steps n).v = x :=
  ⟨(C52_line (l.setBlocksize n) x hn rfl 0).2.1, (C52_line (l.reset n) x hn rfl 0).2.1⟩

/-- C52. `instantize` jumps to the pending value and stays there. -/
theorem C52_instantize (l : LiPol K) (n : Nat) : (l.instantize.steps n).v = l.newV := by
  rw [LiPol.steps_eq]; simp [LiPol.instantize]

/-- C53. Setting the gain at once: every sample of the next blocks has exactly that gain; `instantize` gives the target. -/
theorem C53_instant (l : LipolPs K) (t : K) (s : Nat) : (l.setTargetInstantize t).gain s = t ∧ l.instantize.gain s = l.target := by
  simp [LipolPs.gain, LipolPs.setTargetInstantize, LipolPs.instantize]

end Verif.Smooth
