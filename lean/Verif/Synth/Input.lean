import Verif.Rust
import Verif.Dsp.Blocks
import Mathlib.Tactic.Ring
import Mathlib.Tactic.Linarith
import Mathlib.Algebra.Order.Field.Basic
import Mathlib.Algebra.Field.Rat
/-!
# The audio inputs of the synthesizer

Models surge-input/src/handle.rs (layout and pointers), `do_process_inputs` and `clear_inputs`
(surge-synthesizer/src/synth/process.rs 329-375, 391-394), the alignment checks of surge-math/src/clear.rs and the audio
input oscillator (surgeosc-audioin/src/process.rs).

Memory is an array of `f32` cells; the address of a cell is its byte address divided by four, so that an address is
16-byte aligned iff it is divisible by four.  (Rust aligns the storage of an `Array2<f32>`, a `Vec<f32>`, only to four bytes:
`Align16` aligns the header.  The base addresses below are therefore arbitrary.)
-/
namespace Verif.Synth
open Verif Verif.Dsp

/-- An `A2d<f32>`: base address and shape, in standard (row-major) layout. -/
structure Arr where
  base : Nat
  rows : Nat
  cols : Nat

/-- `index_axis_mut(Axis(0), i).as_mut_ptr()`: the address of row `i`; indexing past the end panics. -/
def Arr.row {ε : Type} (a : Arr) (i : Nat) : Res ε Nat :=
  if i < a.rows then .ok (a.base + i * a.cols) else .panic "ndarray: could not slice"

/-- Why a block function did not return `Ok`. -/
inductive SurgeErr where
  | alignment (addr : Nat)
  deriving DecidableEq, Repr

/-- surge-input/src/handle.rs 18-26 `default`: three arrays of shape (32, 2), (64, 2), (32, 2), wherever they are allocated. -/
structure Input where
  buffer : Arr
  audioIn : Arr
  nonOs : Arr

/-- handle.rs 18-26; `N_INPUTS` is 2, `BLOCK_SIZE` 32, `BLOCK_SIZE_OS` 64. -/
def Input.alloc (b1 b2 b3 : Nat) : Input := ⟨⟨b1, 32, 2⟩, ⟨b2, 64, 2⟩, ⟨b3, 32, 2⟩⟩

section
variable {K : Type}

/-- clear.rs 41-74 `clear_block_antidenormalnoise`. (The checks inside the loop are implied by the first one.) -/
def clearNoiseAt (pos neg : K) (nquads p : Nat) (mem : Nat → K) : Res SurgeErr (Nat → K) :=
  if p % 4 ≠ 0 then .err (.alignment p) else .ok (atBase p (clearNoise pos neg nquads) mem)

/-- clear.rs 11-30 `clear_block`. -/
def clearAt (zero : K) (nquads p : Nat) (mem : Nat → K) : Res SurgeErr (Nat → K) :=
  if p % 4 ≠ 0 then .err (.alignment p) else .ok (atBase p (clearBlock zero nquads) mem)

/-- process.rs 366-375 `clear_inputs`: 16 quads of both rows of `audio_in`, 8 quads of the right row of `audio_in_non_os`, twice. -/
def clearInputs (pos neg : K) (i : Input) (mem : Nat → K) : Res SurgeErr (Nat → K) := do
  let l ← i.audioIn.row 0
  let mem ← clearNoiseAt pos neg 16 l mem
  let r ← i.audioIn.row 1
  let mem ← clearNoiseAt pos neg 16 r mem
  let n ← i.nonOs.row 1
  let mem ← clearNoiseAt pos neg 8 n mem
  clearNoiseAt pos neg 8 n mem

/-- A function that reads with `_mm_load_ps`: at an address that is not a multiple of 16 bytes the load faults (with debug
assertions: "misaligned pointer dereference"). -/
def aligned {α : Type} (p : Nat) (k : Res SurgeErr α) : Res SurgeErr α :=
  if p % 4 ≠ 0 then .panic "misaligned _mm_load_ps" else k

/-- process.rs 329-364 `do_process_inputs`: clip both rows of `buffer`, copy them, upsample (arbitrary). -/
def processInputs (clip : K → K) (up : (Nat → K) → Nat → K) (i : Input) (mem : Nat → K) : Res SurgeErr (Nat → K) := do
  let l ← i.buffer.row 0
  let mem ← aligned l (.ok (atBase l (clipBlock clip 8) mem))
  let r ← i.buffer.row 1
  let mem ← aligned r (.ok (atBase r (clipBlock clip 8) mem))
  let nl ← i.nonOs.row 0
  let mem ← aligned l (aligned nl (.ok (atBase nl (copyBlock (fun s => mem (l + s)) 8) mem)))
  let nr ← i.nonOs.row 1
  let mem ← aligned r (aligned nr (.ok (atBase nr (copyBlock (fun s => mem (r + s)) 8) mem)))
  .ok (up mem)

/-- process.rs 378-488 `process` of an engine that is not halted and has no patch change pending: the inputs, then the rest of
the block (`rest`, arbitrary). -/
def process (pos neg : K) (clip : K → K) (up : (Nat → K) → Nat → K) (rest : (Nat → K) → Res SurgeErr (Nat → K))
    (processInput : Bool) (i : Input) (mem : Nat → K) : Res SurgeErr (Nat → K) := do
  let mem ← (if processInput then processInputs clip up i mem else clearInputs pos neg i mem)
  rest mem

/-- handle.rs 181-204 `audio_in0(k)`, `audio_in1(k)`: the cell `k` behind the start of row 0 or 1 of `audio_in`. -/
def Input.sample (i : Input) (mem : Nat → K) (ch k : Nat) : Res SurgeErr K := do
  let p ← i.audioIn.row ch
  .ok (mem (p + k))

/-- surge-output/src/handle.rs 12-23: the output buffer, shape (2, 32). -/
def outAlloc (b : Nat) : Arr := ⟨b, 2, 32⟩

/-- process.rs 319-327 `do_halt`. -/
def halt (zero : K) (o : Arr) (mem : Nat → K) : Res SurgeErr (Nat → K) := do
  let l ← o.row 0
  let mem ← clearAt zero 8 l mem
  let r ← o.row 1
  clearAt zero 8 r mem
end

/-! ## The audio input oscillator -/
section
variable {K : Type} [Field K] [LinearOrder K]

/-- process.rs 27-30: `limit_range(input, -1, 1)`, exact. -/
def balance (x : K) : K := min (max x (-1)) 1

/-- surgeosc-audioin/src/process.rs 17-46 `process_block_mono`: sample `k` of the left output; `g` is the linear gain. -/
def audioMono (g inp : K) (i : Input) (mem : Nat → K) (k : Nat) : Res SurgeErr K := do
  let in0 ← i.sample mem 0 k
  let in1 ← i.sample mem 1 k
  .ok (g * (1 - balance inp) * in0 + g * (1 + balance inp) * in1)

/-- process.rs 48-73 `process_block_stereo`: sample `k` of both outputs. -/
def audioStereo (g inp : K) (i : Input) (mem : Nat → K) (k : Nat) : Res SurgeErr (K × K) := do
  let in0 ← i.sample mem 0 k
  let in1 ← i.sample mem 1 k
  .ok (g * (1 - balance inp) * in0, g * (1 + balance inp) * in1)
end

theorem row_eq {ε : Type} (a : Arr) (i : Nat) (h : i < a.rows) : (a.row i : Res ε Nat) = .ok (a.base + i * a.cols) := if_pos h

theorem sample_eq {K : Type} (b1 b2 b3 : Nat) (mem : Nat → K) (ch k : Nat) (h : ch < 64) :
    (Input.alloc b1 b2 b3).sample mem ch k = .ok (mem (b2 + ch * 2 + k)) := by
  unfold Input.sample
  rw [row_eq _ _ (show ch < (Input.alloc b1 b2 b3).audioIn.rows from h)]
  rfl

theorem clearAt_ok {K : Type} (zero : K) (n p : Nat) (mem : Nat → K) (h : p % 4 = 0) :
    clearAt zero n p mem = .ok (atBase p (clearBlock zero n) mem) := if_neg (by omega)

/-! ## C185 -/

/-- C185 is false of the code: no block is ever rendered. Wherever the input arrays are allocated, whatever memory holds and
whatever the rest of the engine does, with `process_input` off (the default) `process` returns an alignment error, with
`process_input` on it performs an aligned load at an address that is not aligned: the rows of the (32, 2) and (64, 2)
arrays are eight bytes apart. -/
theorem C185_never_renders_refuted {K : Type} (pos neg : K) (clip : K → K) (up : (Nat → K) → Nat → K)
    (rest : (Nat → K) → Res SurgeErr (Nat → K)) (b1 b2 b3 : Nat) (mem : Nat → K) :
    (∃ a, process pos neg clip up rest false (Input.alloc b1 b2 b3) mem = .err (.alignment a)) ∧
    process pos neg clip up rest true (Input.alloc b1 b2 b3) mem = .panic "misaligned _mm_load_ps" := by
  constructor
  · by_cases h : b2 % 4 = 0
    · refine ⟨b2 + 2, ?_⟩
      have h1 : (b2 + 0 * 2) % 4 = 0 := by omega
      have h2 : (b2 + 1 * 2) % 4 ≠ 0 := by omega
      simp [process, clearInputs, Input.alloc, Arr.row, clearNoiseAt, h, show (b2 + 2) % 4 ≠ 0 by omega]
    · refine ⟨b2, ?_⟩
      simp [process, clearInputs, Input.alloc, Arr.row, clearNoiseAt, h]
  · by_cases h : b1 % 4 = 0
    · simp [process, processInputs, Input.alloc, Arr.row, aligned, h, show (b1 + 2) % 4 ≠ 0 by omega]
    · simp [process, processInputs, Input.alloc, Arr.row, aligned, h]

/-- C185, the part that holds: the output rows are 128 bytes apart, so a halted engine clears both of them, and nothing else,
iff the buffer happens to be allocated at a multiple of 16 bytes; otherwise it returns an error. -/
theorem C185_halt_partial {K : Type} (zero : K) (b : Nat) (mem : Nat → K) :
    (b % 4 = 0 → ∃ m, halt zero (outAlloc b) mem = .ok m ∧ (∀ s, s < 64 → m (b + s) = zero) ∧ ∀ c, c < b ∨ b + 64 ≤ c → m c = mem c) ∧
    (b % 4 ≠ 0 → halt zero (outAlloc b) mem = .err (.alignment b)) := by
  constructor
  · intro h
    refine ⟨_, by
        unfold halt
        have r0 : ((outAlloc b).row 0 : Res SurgeErr Nat) = .ok (b + 0 * 32) := row_eq _ _ (show 0 < 2 by decide)
        have r1 : ((outAlloc b).row 1 : Res SurgeErr Nat) = .ok (b + 1 * 32) := row_eq _ _ (show 1 < 2 by decide)
        rw [r0, Res.ok_bind, clearAt_ok _ _ _ _ (show (b + 0 * 32) % 4 = 0 by omega), Res.ok_bind,
          r1, Res.ok_bind, clearAt_ok _ _ _ _ (show (b + 1 * 32) % 4 = 0 by omega)], ?_, ?_⟩
    · intro s hs
      have w := fun m s => (C58_clear zero 8 m s)
      simp only [atBase]
      by_cases h1 : s < 32
      · rw [if_neg (by omega), if_pos (by omega)]
        exact (w _ _).1 (by omega)
      · rw [if_pos (by omega)]
        exact (w _ _).1 (by omega)
    · intro c hc
      have w := fun m s => (C58_clear zero 8 m s)
      simp only [atBase]
      rcases hc with hc | hc
      · rw [if_neg (by omega), if_neg (by omega)]
      · rw [if_pos (by omega), (w _ _).2 (by omega)]
        rw [if_pos (by omega), (w _ _).2 (by omega)]
        congr 1; omega
  · intro h
    simp [halt, outAlloc, Arr.row, clearAt, h]

/-- Non-vacuity: a buffer at address 64 is aligned. -/
example : (64 : Nat) % 4 = 0 := rfl

/-! ## C186 -/

/-- C186 is false of the code: the two input channels are not independent. Whatever memory holds - whatever was written through
whichever pointer, in whatever order - sample `k` of the right channel is sample `k + 2` of the left channel. -/
theorem C186_channels_alias_refuted {K : Type} (b1 b2 b3 : Nat) (mem : Nat → K) (k : Nat) :
    (Input.alloc b1 b2 b3).sample mem 1 k = (Input.alloc b1 b2 b3).sample mem 0 (k + 2) := by
  rw [sample_eq _ _ _ _ _ _ (by omega), sample_eq _ _ _ _ _ _ (by omega)]
  congr 2; omega

variable {K : Type} [Field K] [LinearOrder K] [IsStrictOrderedRing K]

/-- C186, the part that holds: what the audio input oscillator makes of the two channels it is given. In mono it delivers
their balanced sum, in stereo the balanced channels; the gains of the two channels are between 0 and twice the gain and add up to
twice the gain; fully to one side only that side is heard, in the middle both at the gain itself; beyond the range nothing changes. -/
theorem C186_oscillator_partial (g inp : K) (i : Input) (mem : Nat → K) (k : Nat) (x y : K)
    (hx : i.sample mem 0 k = .ok x) (hy : i.sample mem 1 k = .ok y) :
    ∃ a b : K, audioMono g inp i mem k = .ok (a * x + b * y) ∧ audioStereo g inp i mem k = .ok (a * x, b * y) ∧ a + b = 2 * g ∧
      (0 ≤ g → 0 ≤ a ∧ 0 ≤ b ∧ a ≤ 2 * g ∧ b ≤ 2 * g) ∧ (inp ≤ -1 → a = 2 * g ∧ b = 0) ∧ (1 ≤ inp → a = 0 ∧ b = 2 * g) ∧
      (inp = 0 → a = g ∧ b = g) := by
  refine ⟨g * (1 - balance inp), g * (1 + balance inp), ?_, ?_, by ring, ?_, ?_, ?_, ?_⟩
  · simp only [audioMono, hx, hy, Res.ok_bind]
  · simp only [audioStereo, hx, hy, Res.ok_bind]
  · intro hg
    have h1 : balance inp ≤ 1 := min_le_right _ _
    have h2 : -1 ≤ balance inp := le_min (le_max_right _ _) (by linarith [show (0:K) ≤ 1 from zero_le_one])
    refine ⟨?_, ?_, ?_, ?_⟩ <;> nlinarith
  · intro h
    have : balance inp = -1 := by
      unfold balance
      rw [max_eq_right h, min_eq_left (by linarith [show (0:K) ≤ 1 from zero_le_one])]
    rw [this]; constructor <;> ring
  · intro h
    have : balance inp = 1 := by
      unfold balance
      exact min_eq_right (le_trans h (le_max_left _ _))
    rw [this]; constructor <;> ring
  · rintro rfl
    have : balance (0:K) = 0 := by
      unfold balance
      rw [max_eq_left (by linarith [show (0:K) ≤ 1 from zero_le_one]), min_eq_left zero_le_one]
    rw [this]; constructor <;> ring

/-- What a user hears of C186: the stereo output of the audio input oscillator is, on the right, the left input two samples ahead. -/
theorem C186_stereo_refuted (g : K) (b1 b2 b3 : Nat) (mem : Nat → K) (k : Nat) :
    ∃ l r l' r' : K, audioStereo g 0 (Input.alloc b1 b2 b3) mem k = .ok (l, r) ∧
      audioStereo g 0 (Input.alloc b1 b2 b3) mem (k + 2) = .ok (l', r') ∧ r = l' := by
  have s := fun ch k => sample_eq b1 b2 b3 mem ch k
  have e : ∀ k, audioStereo g 0 (Input.alloc b1 b2 b3) mem k =
      .ok (g * (1 - balance 0) * mem (b2 + 0 * 2 + k), g * (1 + balance 0) * mem (b2 + 1 * 2 + k)) := by
    intro k
    simp only [audioStereo, s 0 k (by omega), s 1 k (by omega), Res.ok_bind]
  refine ⟨_, _, _, _, e k, e (k + 2), ?_⟩
  have hb : balance (0:K) = 0 := by
    unfold balance
    rw [max_eq_left (by linarith [show (0:K) ≤ 1 from zero_le_one]), min_eq_left zero_le_one]
  rw [hb, show b2 + 1 * 2 + k = b2 + 0 * 2 + (k + 2) by omega]
  ring

/-- Non-vacuity: at address 0 in a memory of distinct values. -/
example : (Input.alloc 0 100 300).sample (fun c => (c : Rat)) 0 0 = .ok 100 ∧ (Input.alloc 0 100 300).sample (fun c => (c : Rat)) 1 0 = .ok 102 := by
  constructor <;> (simp [Input.sample, Input.alloc, Arr.row])

end Verif.Synth
