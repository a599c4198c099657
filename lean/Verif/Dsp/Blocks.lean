import Mathlib.Algebra.Order.Field.Basic
import Mathlib.Tactic.Ring
import Mathlib.Tactic.Linarith
import Mathlib.Tactic.NormNum
/-!
# Block operations of surge-math

Models `surge-math/src/{clear,copy,accum,add,sub,mul,encode,hardclip,softclip}.rs` and
`surge-synthesizer/src/synth/process.rs` 3-35 (`TwoByTwoBlock`).

Memory is a function from float index to value, relative to the pointer the function gets; `α` is the type of a float,
so a lane operation is any function on `α` and nothing is idealised.  Sources are read as they were before the call: they
are either disjoint from the destination or equal to it (every quad is read before it is written, and only once).
Alignment errors and asserts are not modelled: pointers are 16-byte aligned.
-/
namespace Verif.Dsp

variable {α : Type}

/-- `(0..n).step_by(k)`. -/
def stepBy (n k : Nat) : List Nat := (List.range ((n + k - 1) / k)).map (k * ·)

/-- Store the four lanes `g s old` at float offset `o`. -/
def store4 (g : Nat → α → α) (o : Nat) (mem : Nat → α) : Nat → α :=
  fun s => if o ≤ s ∧ s < o + 4 then g s (mem s) else mem s

/-- A sequence of stores. -/
def stores (g : Nat → α → α) : List Nat → (Nat → α) → Nat → α
  | [], mem => mem
  | o :: os, mem => stores g os (store4 g o mem)

/-- clear.rs 12-30 `clear_block`: offsets 0, 4, ... below `4 * nquads`. -/
def clearBlock (zero : α) (nquads : Nat) (mem : Nat → α) : Nat → α :=
  stores (fun _ _ => zero) (stepBy (nquads * 4) 4) mem

/-- clear.rs 41-73 `clear_block_antidenormalnoise`: in steps of 8 floats, two stores each. `pos`, `neg` are ±1e-15;
`_mm_set_ps` lists lane 3 first. -/
def clearNoise (pos neg : α) (nquads : Nat) (mem : Nat → α) : Nat → α :=
  stores (fun s _ => if s % 8 = 0 ∨ s % 8 = 1 ∨ s % 8 = 6 ∨ s % 8 = 7 then pos else neg)
    ((stepBy (nquads * 4) 8).flatMap fun i => [i, i + 4]) mem

/-- copy.rs 28-62 `copy_block` (and its three unaligned variants, 64-203): in steps of 32 floats, eight stores each. -/
def copyBlock (src : Nat → α) (nquads : Nat) (dst : Nat → α) : Nat → α :=
  stores (fun s _ => src s)
    ((stepBy (nquads * 4) 32).flatMap fun i => [i, i + 4, i + 8, i + 12, i + 16, i + 20, i + 24, i + 28]) dst

/-- accum.rs 15-27 `accumulate_block`: one quad at a time. -/
def accumulateBlock (add : α → α → α) (src : Nat → α) (nquads : Nat) (dst : Nat → α) : Nat → α :=
  stores (fun s d => add d (src s)) ((List.range nquads).map (· * 4)) dst

/-- add.rs 15-62 `add_block`, sub.rs 17-50 `subtract_block`, mul.rs 29-56 `mul_block`: quads in steps of four. -/
def binaryBlock (op : α → α → α) (src1 src2 : Nat → α) (nquads : Nat) (dst : Nat → α) : Nat → α :=
  stores (fun s _ => op (src1 s) (src2 s))
    ((stepBy nquads 4).flatMap fun i => [i * 4, (i + 1) * 4, (i + 2) * 4, (i + 3) * 4]) dst

/-- hardclip.rs 37-57 `hardclip_block`, 63-91 `hardclip_block8`: in steps of 8 floats; `clip` is the lane function. -/
def clipBlock (clip : α → α) (nquads : Nat) (mem : Nat → α) : Nat → α :=
  stores (fun _ x => clip x) ((stepBy (nquads * 4) 8).flatMap fun i => [i, i + 4]) mem

/-- softclip.rs 110-151 `softclip_block`: quads in steps of two. -/
def softclipBlock (clip : α → α) (nquads : Nat) (mem : Nat → α) : Nat → α :=
  stores (fun _ x => clip x) ((stepBy nquads 2).flatMap fun i => [i * 4, (i + 1) * 4]) mem

/-- encode.rs 40-74 `encode_mid_side` (first output) and 98-128 `decode_mid_side`: same loop as `add_block`. -/
def encodeMid [Add α] [Mul α] (half : α) (l r : Nat → α) (nquads : Nat) (m : Nat → α) : Nat → α :=
  binaryBlock (fun a b => (a + b) * half) l r nquads m
/-- encode.rs 40-74, second output. -/
def encodeSide [Sub α] [Mul α] (half : α) (l r : Nat → α) (nquads : Nat) (s : Nat → α) : Nat → α :=
  binaryBlock (fun a b => (a - b) * half) l r nquads s
/-- encode.rs 98-128 `decode_mid_side`, left. -/
def decodeLeft [Add α] (m s : Nat → α) (nquads : Nat) (l : Nat → α) : Nat → α :=
  binaryBlock (fun a b => a + b) m s nquads l
/-- encode.rs 98-128 `decode_mid_side`, right. -/
def decodeRight [Sub α] (m s : Nat → α) (nquads : Nat) (r : Nat → α) : Nat → α :=
  binaryBlock (fun a b => a - b) m s nquads r

/-- A pointer into a memory: run `f` on the memory as seen from float index `base`. -/
def atBase (base : Nat) (f : (Nat → α) → Nat → α) (mem : Nat → α) : Nat → α :=
  fun s => if base ≤ s then f (fun t => mem (base + t)) (s - base) else mem s

/-- process.rs 9-20 `TwoByTwoBlock::<LEN>::clear`: the four buffers of `LEN` floats lie behind each other; each is cleared
with `LEN` *quads*. `base` is where the block starts in memory. -/
def twoByTwoClear (pos neg : α) (len base : Nat) (mem : Nat → α) : Nat → α :=
  let m1 := atBase base (clearNoise pos neg len) mem
  let m2 := atBase (base + len) (clearNoise pos neg len) m1
  let m3 := atBase (base + 2 * len) (clearNoise pos neg len) m2
  atBase (base + 3 * len) (clearNoise pos neg len) m3

/-! ## Specification -/

/-- `n` rounded up to a multiple of `k`. -/
def Spec.roundUp (n k : Nat) : Nat := (n + k - 1) / k * k

/-- A block function writes `g s old` to exactly the first `n` floats. -/
def Spec.WritesExactly (res mem : Nat → α) (n : Nat) (g : Nat → α → α) : Prop :=
  ∀ s, (s < n → res s = g s (mem s)) ∧ (n ≤ s → res s = mem s)

/-! ## Lemmas -/

theorem stores_get (g : Nat → α → α) : ∀ (os : List Nat) (mem : Nat → α) (s : Nat),
    (os.Pairwise fun a b => ∀ s, ¬ ((a ≤ s ∧ s < a + 4) ∧ (b ≤ s ∧ s < b + 4))) →
    stores g os mem s = if ∃ o ∈ os, o ≤ s ∧ s < o + 4 then g s (mem s) else mem s := by
  intro os
  induction os with
  | nil => intro mem s _; simp [stores]
  | cons o os ih =>
    intro mem s h
    rw [List.pairwise_cons] at h
    rw [stores, ih _ _ h.2]
    by_cases hc : o ≤ s ∧ s < o + 4
    · have hn : ¬ ∃ o' ∈ os, o' ≤ s ∧ s < o' + 4 := by
        rintro ⟨o', ho', hs⟩
        exact h.1 o' ho' s ⟨hc, hs⟩
      rw [if_neg hn, if_pos ⟨o, by simp, hc⟩]
      simp [store4, hc]
    · by_cases hn : ∃ o' ∈ os, o' ≤ s ∧ s < o' + 4
      · obtain ⟨o', ho', hs⟩ := hn
        rw [if_pos ⟨o', ho', hs⟩, if_pos ⟨o', by simp [ho'], hs⟩]
        simp [store4, hc]
      · rw [if_neg hn, if_neg (by
          rintro ⟨o', ho', hs⟩
          rcases List.mem_cons.mp ho' with rfl | ho'
          · exact hc hs
          · exact hn ⟨o', ho', hs⟩)]
        simp [store4, hc]

/-- Disjointness of stores at different multiples of four. -/
theorem disjoint_of_mul {a b : Nat} (h : a ≠ b) : ∀ s, ¬ ((a * 4 ≤ s ∧ s < a * 4 + 4) ∧ (b * 4 ≤ s ∧ s < b * 4 + 4)) := by
  intro s; omega

theorem stores_range (g : Nat → α → α) (n : Nat) (mem : Nat → α) :
    Spec.WritesExactly (stores g ((List.range n).map (· * 4)) mem) mem (n * 4) g := by
  intro s
  rw [stores_get]
  · constructor
    · intro h
      rw [if_pos ⟨s / 4 * 4, List.mem_map.mpr ⟨s / 4, List.mem_range.mpr (by omega), rfl⟩, by omega⟩]
    · intro h
      rw [if_neg]
      rintro ⟨o, ho, hs⟩
      obtain ⟨q, hq, rfl⟩ := List.mem_map.mp ho
      have := List.mem_range.mp hq
      omega
  · rw [List.pairwise_map]
    exact List.nodup_range.imp fun h => disjoint_of_mul h

/-- An unrolled loop visits the quads `0 .. roundUp` in order. -/
theorem unrolled (k m : Nat) (hk : 0 < k) :
    ((List.range m).map (k * ·)).flatMap (fun i => (List.range k).map fun j => (i + j) * 4)
      = (List.range (m * k)).map (· * 4) := by
  induction m with
  | zero => simp
  | succ m ih =>
    rw [List.range_succ, List.map_append, List.flatMap_append, ih, Nat.succ_mul, List.range_add, List.map_append]
    congr 1
    simp [Nat.mul_comm]

theorem stepBy_scale (n k c : Nat) (hk : 0 < k) (hc : 0 < c) :
    stepBy (n * c) (k * c) = (stepBy n k).map (· * c) := by
  unfold stepBy
  have : (n * c + k * c - 1) / (k * c) = (n + k - 1) / k := by
    have h1 : n * c + k * c - 1 = (n + k - 1) * c + (c - 1) := by
      have : 1 ≤ n + k := by omega
      zify [this, hc, show 1 ≤ n * c + k * c by nlinarith]
      ring
    rw [h1, Nat.mul_comm k c, ← Nat.div_div_eq_div_mul]
    congr 1
    rw [Nat.mul_comm, Nat.mul_add_div hc]
    simp [Nat.div_eq_of_lt (by omega : c - 1 < c)]
  rw [this, List.map_map]
  apply List.map_congr_left
  intro a _
  simp [Nat.mul_comm, Nat.mul_left_comm]

theorem quads_unrolled (n k : Nat) (hk : 0 < k) :
    (stepBy n k).flatMap (fun i => (List.range k).map fun j => (i + j) * 4)
      = (List.range ((n + k - 1) / k * k)).map (· * 4) := by
  unfold stepBy
  exact unrolled k _ hk

theorem offsets_unrolled (n k : Nat) (hk : 0 < k) :
    (stepBy (n * 4) (k * 4)).flatMap (fun i => (List.range k).map fun j => i + j * 4)
      = (List.range ((n + k - 1) / k * k)).map (· * 4) := by
  rw [stepBy_scale n k 4 hk (by decide), List.flatMap_map, ← quads_unrolled n k hk]
  congr 1
  funext i
  congr 1
  funext j
  omega

/-! ## C58: what the block functions write -/

/-- C58. `clear_block` zeroes exactly `nquads * 4` floats, for every `nquads`. -/
theorem C58_clear (zero : α) (n : Nat) (mem : Nat → α) :
    Spec.WritesExactly (clearBlock zero n mem) mem (n * 4) (fun _ _ => zero) := by
  have h := offsets_unrolled n 1 (by decide)
  simp only [List.range_one, List.map_cons, List.map_nil, Nat.zero_mul, Nat.add_zero, Nat.add_sub_cancel, Nat.div_one,
    Nat.mul_one, Nat.one_mul] at h
  have e : stepBy (n * 4) 4 = (List.range n).map (· * 4) := by
    rw [← h]
    induction stepBy (n * 4) 4 <;> simp_all
  unfold clearBlock
  rw [e]
  exact stores_range _ _ _

/-- C58. `accumulate_block` adds exactly `nquads * 4` floats, for every `nquads`. -/
theorem C58_accumulate (add : α → α → α) (src : Nat → α) (n : Nat) (dst : Nat → α) :
    Spec.WritesExactly (accumulateBlock add src n dst) dst (n * 4) (fun s d => add d (src s)) := stores_range _ _ _

/-- What the unrolled functions write for every `nquads`: the count rounded up to their unrolling factor. -/
theorem copy_writes (src : Nat → α) (n : Nat) (dst : Nat → α) :
    Spec.WritesExactly (copyBlock src n dst) dst (Spec.roundUp n 8 * 4) (fun s _ => src s) := by
  have h := offsets_unrolled n 8 (by decide)
  unfold copyBlock
  rw [show (fun i : Nat => [i, i + 4, i + 8, i + 12, i + 16, i + 20, i + 24, i + 28])
    = (fun i => (List.range 8).map fun j => i + j * 4) from by funext i; simp [List.range_succ]]
  rw [show stepBy (n * 4) 32 = stepBy (n * 4) (8 * 4) from rfl, h]
  exact stores_range _ _ _

theorem binary_writes (op : α → α → α) (s1 s2 : Nat → α) (n : Nat) (dst : Nat → α) :
    Spec.WritesExactly (binaryBlock op s1 s2 n dst) dst (Spec.roundUp n 4 * 4) (fun s _ => op (s1 s) (s2 s)) := by
  have h := quads_unrolled n 4 (by decide)
  unfold binaryBlock
  rw [show (fun i : Nat => [i * 4, (i + 1) * 4, (i + 2) * 4, (i + 3) * 4])
    = (fun i => (List.range 4).map fun j => (i + j) * 4) from by funext i; simp [List.range_succ], h]
  exact stores_range _ _ _

theorem pair_writes (g : Nat → α → α) (n : Nat) (mem : Nat → α) :
    Spec.WritesExactly (stores g ((stepBy (n * 4) 8).flatMap fun i => [i, i + 4]) mem) mem (Spec.roundUp n 2 * 4) g := by
  have h := offsets_unrolled n 2 (by decide)
  rw [show (fun i : Nat => [i, i + 4])
    = (fun i => (List.range 2).map fun j => i + j * 4) from by funext i; simp [List.range_succ]]
  rw [show stepBy (n * 4) 8 = stepBy (n * 4) (2 * 4) from rfl, h]
  exact stores_range _ _ _

theorem softclip_writes (clip : α → α) (n : Nat) (mem : Nat → α) :
    Spec.WritesExactly (softclipBlock clip n mem) mem (Spec.roundUp n 2 * 4) (fun _ x => clip x) := by
  have h := quads_unrolled n 2 (by decide)
  unfold softclipBlock
  rw [show (fun i : Nat => [i * 4, (i + 1) * 4])
    = (fun i => (List.range 2).map fun j => (i + j) * 4) from by funext i; simp [List.range_succ], h]
  exact stores_range _ _ _

theorem roundUp_of_dvd {n k : Nat} (hk : 0 < k) (h : n % k = 0) : Spec.roundUp n k = n := by
  unfold Spec.roundUp
  obtain ⟨m, rfl⟩ := Nat.dvd_of_mod_eq_zero h
  have : (k * m + k - 1) / k = m := by
    rw [Nat.add_sub_assoc (by omega), Nat.mul_add_div hk, Nat.div_eq_of_lt (by omega)]; rfl
  rw [this, Nat.mul_comm]

theorem lt_roundUp_of_not_dvd {n k : Nat} (hk : 0 < k) (h : n % k ≠ 0) : n < Spec.roundUp n k := by
  unfold Spec.roundUp
  have h1 := Nat.div_add_mod n k
  have : n + k - 1 = k * (n / k + 1) + (n % k - 1) := by
    rw [Nat.mul_add]; omega
  have h2 : (n + k - 1) / k = n / k + 1 := by
    have h3 : (n % k - 1) / k = 0 := Nat.div_eq_of_lt (by have := Nat.mod_lt n hk; omega)
    rw [this, Nat.mul_add_div hk, h3, Nat.add_zero]
  rw [h2, Nat.add_mul, Nat.mul_comm]
  have := Nat.mod_lt n hk
  omega

/-- C58. The unrolled functions write exactly `nquads * 4` floats if `nquads` is a multiple of their unrolling factor:
8 for copies, 4 for add, subtract, multiply and mid/side, 2 for clearing to noise and clipping. -/
theorem C58_unrolled_partial (n : Nat) (mem : Nat → α) :
    (n % 8 = 0 → ∀ src, Spec.WritesExactly (copyBlock src n mem) mem (n * 4) (fun s _ => src s)) ∧
    (n % 4 = 0 → ∀ op s1 s2, Spec.WritesExactly (binaryBlock op s1 s2 n mem) mem (n * 4) (fun s _ => op (s1 s) (s2 s))) ∧
    (n % 2 = 0 → ∀ clip, Spec.WritesExactly (clipBlock clip n mem) mem (n * 4) (fun _ x => clip x)) ∧
    (n % 2 = 0 → ∀ clip, Spec.WritesExactly (softclipBlock clip n mem) mem (n * 4) (fun _ x => clip x)) ∧
    (n % 2 = 0 → ∀ pos neg s, (n * 4 ≤ s → clearNoise pos neg n mem s = mem s) ∧
      (s < n * 4 → clearNoise pos neg n mem s = pos ∨ clearNoise pos neg n mem s = neg)) := by
  refine ⟨fun h src => ?_, fun h op s1 s2 => ?_, fun h clip => ?_, fun h clip => ?_, fun h pos neg s => ?_⟩
  · have := copy_writes src n mem
    rwa [roundUp_of_dvd (by decide) h] at this
  · have := binary_writes op s1 s2 n mem
    rwa [roundUp_of_dvd (by decide) h] at this
  · have := pair_writes (fun _ x => clip x) n mem
    rwa [roundUp_of_dvd (by decide) h] at this
  · have := softclip_writes clip n mem
    rwa [roundUp_of_dvd (by decide) h] at this
  · have := pair_writes (fun s _ => if s % 8 = 0 ∨ s % 8 = 1 ∨ s % 8 = 6 ∨ s % 8 = 7 then pos else neg) n mem s
    rw [roundUp_of_dvd (by decide) h] at this
    refine ⟨this.2, fun hs => ?_⟩
    have e := this.1 hs
    unfold clearNoise
    rw [e]
    dsimp only
    split
    · exact Or.inl rfl
    · exact Or.inr rfl

/-- C58 is false of the code for other counts: every copy whose quad count is not a multiple of 8 overwrites the float
right behind the block (documented as `nquads * 4` floats), and so do the others for their factors. -/
theorem C58_writes_past_the_end (n : Nat) (mem : Nat → α) :
    (n % 8 ≠ 0 → ∀ src, copyBlock src n mem (n * 4) = src (n * 4)) ∧
    (n % 4 ≠ 0 → ∀ op s1 s2, binaryBlock op s1 s2 n mem (n * 4) = op (s1 (n * 4)) (s2 (n * 4))) ∧
    (n % 2 ≠ 0 → ∀ clip, clipBlock clip n mem (n * 4) = clip (mem (n * 4)) ∧
      softclipBlock clip n mem (n * 4) = clip (mem (n * 4))) := by
  refine ⟨fun h src => ?_, fun h op s1 s2 => ?_, fun h clip => ⟨?_, ?_⟩⟩
  · exact (copy_writes src n mem _).1 (by have := lt_roundUp_of_not_dvd (by decide : 0 < 8) h; omega)
  · exact (binary_writes op s1 s2 n mem _).1 (by have := lt_roundUp_of_not_dvd (by decide : 0 < 4) h; omega)
  · exact (pair_writes (fun _ x => clip x) n mem _).1 (by have := lt_roundUp_of_not_dvd (by decide : 0 < 2) h; omega)
  · exact (softclip_writes clip n mem _).1 (by have := lt_roundUp_of_not_dvd (by decide : 0 < 2) h; omega)

theorem clearNoise_get (pos neg : α) (n : Nat) (mem : Nat → α) (s : Nat) :
    (s < Spec.roundUp n 2 * 4 → clearNoise pos neg n mem s = pos ∨ clearNoise pos neg n mem s = neg) ∧
    (Spec.roundUp n 2 * 4 ≤ s → clearNoise pos neg n mem s = mem s) := by
  have := pair_writes (fun s _ => if s % 8 = 0 ∨ s % 8 = 1 ∨ s % 8 = 6 ∨ s % 8 = 7 then pos else neg) n mem s
  refine ⟨fun hs => ?_, this.2⟩
  have e := this.1 hs
  unfold clearNoise
  rw [e]
  dsimp only
  split
  · exact Or.inl rfl
  · exact Or.inr rfl

/-- C58 is false of the code: creating the scratch blocks of `process` (`TwoByTwoBlock::<LEN>::new`, `4 * LEN` floats)
overwrites all `3 * LEN` floats behind them. -/
theorem C58_scratch_block_overflows (pos neg : α) (len base : Nat) (mem : Nat → α) (s : Nat)
    (h1 : base + 4 * len ≤ s) (h2 : s < base + 7 * len) :
    twoByTwoClear pos neg len base mem s = pos ∨ twoByTwoClear pos neg len base mem s = neg := by
  unfold twoByTwoClear atBase
  rw [if_pos (by omega)]
  have hr : len ≤ Spec.roundUp len 2 := by unfold Spec.roundUp; omega
  exact (clearNoise_get pos neg len _ _).1 (by omega)

/-- Non-vacuity: a copy of one quad (4 floats) writes 32 floats; index 31 is overwritten. -/
example : copyBlock (fun _ => 7) 1 (fun _ => 0) 31 = 7 ∧ copyBlock (fun _ => 7) 1 (fun _ => 0) 32 = 0 := by decide
example : binaryBlock (· + ·) (fun s => s) (fun s => 10 * s) 4 (fun _ => 0) 15 = 165 := by decide
example : twoByTwoClear (1 : Int) (-1) 8 100 (fun _ => 0) 155 = 1 ∧ twoByTwoClear (1 : Int) (-1) 8 100 (fun _ => 0) 156 = 0 := by decide

/-! ## C59: mid/side -/

/-- C59. Encoding a block to mid/side and decoding it gives back both channels, for every quad count (exact
arithmetic; `nquads` rounded up to four is what is written). -/
theorem C59_mid_side_roundtrip {K : Type} [Field K] [CharZero K] (l r m s l' r' : Nat → K) (n : Nat) (i : Nat)
    (hi : i < n * 4) :
    let mid := encodeMid (1 / 2) l r n m
    let side := encodeSide (1 / 2) l r n s
    decodeLeft mid side n l' i = l i ∧ decodeRight mid side n r' i = r i := by
  have hr : n ≤ Spec.roundUp n 4 := by unfold Spec.roundUp; omega
  have hi' : i < Spec.roundUp n 4 * 4 := by omega
  intro mid side
  have hm : mid i = (l i + r i) * (1 / 2) := (binary_writes _ l r n m i).1 hi'
  have hs : side i = (l i - r i) * (1 / 2) := (binary_writes _ l r n s i).1 hi'
  have h1 : decodeLeft mid side n l' i = mid i + side i := (binary_writes _ mid side n l' i).1 hi'
  have h2 : decodeRight mid side n r' i = mid i - side i := (binary_writes _ mid side n r' i).1 hi'
  rw [h1, h2, hm, hs]
  constructor <;> ring

/-- C59. A mono block has no side signal, and opposite channels have no mid signal. -/
theorem C59_mono_has_no_side {K : Type} [Field K] (l r m s : Nat → K) (n i : Nat) (hi : i < n * 4) :
    (l i = r i → encodeSide (1 / 2) l r n s i = 0) ∧ (l i = -r i → encodeMid (1 / 2) l r n m i = 0) := by
  have hr : n ≤ Spec.roundUp n 4 := by unfold Spec.roundUp; omega
  have hi' : i < Spec.roundUp n 4 * 4 := by omega
  have hm : encodeMid (1 / 2) l r n m i = (l i + r i) * (1 / 2) := (binary_writes _ l r n m i).1 hi'
  have hs : encodeSide (1 / 2) l r n s i = (l i - r i) * (1 / 2) := (binary_writes _ l r n s i).1 hi'
  rw [hm, hs]
  exact ⟨fun h => by rw [h]; ring, fun h => by rw [h]; ring⟩

example : encodeMid (1 / 2 : ℚ) (fun s => s) (fun _ => 3) 8 (fun _ => 0) 5 = 4 := by
  rw [encodeMid, (binary_writes _ _ _ _ _ 5).1 (by decide)]; norm_num

end Verif.Dsp
