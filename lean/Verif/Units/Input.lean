import Verif.Halfrate.Claims
import Verif.Dsp.Blocks
/-!
# The synth's audio inputs and outputs (C117)

`surge-input`, `surge-output` and `do_process_inputs` of `surge-synthesizer`.  A buffer is its memory, a function of the offset; pointers
into it are offsets.
-/
namespace Verif.Units
open Verif.Halfrate (St V Buf)
open Verif.Dsp (atBase clipBlock copyBlock)

/-- surge-input/src/handle.rs 3-30, `SynthInput`: `buffer` and `audio_in_non_os` have shape `(BLOCK_SIZE, 2) = (32, 2)`, `audio_in` has shape
`(BLOCK_SIZE_OS, 2) = (64, 2)`, all stored row by row. -/
structure Inputs where
  buffer : ℕ → ℝ
  nonOs : ℕ → ℝ
  audioIn : ℕ → ℝ

/-- The offset of `index_axis_mut(Axis(0), row).as_mut_ptr()` in a row-major array with `cols` columns. -/
def rowPtr (cols row : ℕ) : ℕ := cols * row

/-- handle.rs 86-109: `in_left`, `non_os_audio_in_left`, `audio_in_left`: row 0 of an array with two columns. -/
def leftPtr : ℕ := rowPtr 2 0
/-- handle.rs 90-113: `in_right`, `non_os_audio_in_right`, `audio_in_right`: row 1 of an array with two columns. -/
def rightPtr : ℕ := rowPtr 2 1

/-- Writing `n` samples through a pointer. -/
def writeAt (base n : ℕ) (block : ℕ → ℝ) (mem : ℕ → ℝ) : ℕ → ℝ := fun s => if base ≤ s ∧ s < base + n then block (s - base) else mem s

/-- `process_block_upsample_by_two` (surge-halfrate/src/process_block_u2.rs 236-260) writing both channels into one array, at offsets
`leftPtr` and `rightPtr`; one turn of the loop, as `Halfrate.emit`. -/
noncomputable def emitShared (o : Buf) (c : V × V × V × (ℕ → ℝ)) (k : ℕ) : Res Empty (V × V × V × (ℕ → ℝ)) := do
  let x ← o.get k
  let mem := Function.update c.2.2.2 (leftPtr + k) (Halfrate.mulSs (Halfrate.addSs x c.1) Halfrate.half 0)
  let fa := Halfrate.movehl c.2.1 x
  let fb := Halfrate.movehl c.2.2.1 c.1
  let mem := Function.update mem (rightPtr + k) (Halfrate.mulSs (Halfrate.addSs fa fb) Halfrate.half 0)
  pure (Halfrate.shuffle x x 3 3 1 1, fa, fb, mem)

/-- process_block_u2.rs 214-261 on the shared array. -/
noncomputable def upsampleShared (s : St) (lIn rIn : ℕ → ℝ) (mem : ℕ → ℝ) (n : ℕ) : Res Empty (St × (ℕ → ℝ)) := do
  let o ← Halfrate.createWork n lIn rIn
  let (s, o) ← Halfrate.processFilters n s o
  let c ← (List.range n).foldlM (emitShared o) (s.oldout, 0, 0, mem)
  pure ({ s with oldout := c.1 }, c.2.2.2)

/-- surge-synthesizer/src/synth/process.rs 350-379, `do_process_inputs`: the inputs are hard-clipped (`clip`), copied and up-sampled; the last
argument of the up-sampler is `BLOCK_SIZE_QUAD = 8`. -/
noncomputable def doProcessInputs (clip : ℝ → ℝ) (s : St) (m : Inputs) : Res Empty (St × Inputs) := do
  let b := atBase leftPtr (clipBlock clip 8) m.buffer
  let b := atBase rightPtr (clipBlock clip 8) b
  let c := atBase leftPtr (copyBlock (fun t => b (leftPtr + t)) 8) m.nonOs
  let c := atBase rightPtr (copyBlock (fun t => b (rightPtr + t)) 8) c
  let (s, a) ← upsampleShared s (fun t => b (leftPtr + t)) (fun t => b (rightPtr + t)) m.audioIn 8
  pure (s, ⟨b, c, a⟩)

/-- **C117**, refuted: the two input pointers are two samples apart.  After a host has written a block to the left and a block to the right
input, the left input holds the right one from its third sample on. -/
theorem C117_inputs_overlap (l r mem : ℕ → ℝ) {n : ℕ} (hn : n < 32) :
    writeAt rightPtr 32 r (writeAt leftPtr 32 l mem) (leftPtr + n) = if n < 2 then l n else r (n - 2) := by
  simp only [writeAt, leftPtr, rightPtr, rowPtr, Nat.mul_zero, Nat.mul_one, Nat.zero_add]
  by_cases h : n < 2
  · rw [if_neg (by omega), if_pos (by omega), if_pos h]; rfl
  · rw [if_pos (by omega), if_neg h]

theorem emitShared_loop (o : Buf) : ∀ (n : ℕ), n ≤ 256 → ∀ c, ∃ c', (List.range n).foldlM (emitShared o) c = .ok c' ∧
    ∀ k, n + 2 ≤ k → c'.2.2.2 k = c.2.2.2 k := by
  intro n
  induction n with
  | zero => intro _ c; exact ⟨c, rfl, fun _ _ => rfl⟩
  | succ n ih =>
    intro hn c
    obtain ⟨c1, e, k1⟩ := ih (by omega) c
    rw [List.range_succ, List.foldlM_append, e]
    refine ⟨(Halfrate.shuffle (o n) (o n) 3 3 1 1, Halfrate.movehl c1.2.1 (o n), Halfrate.movehl c1.2.2.1 c1.1,
      Function.update (Function.update c1.2.2.2 (leftPtr + n) (Halfrate.mulSs (Halfrate.addSs (o n) c1.1) Halfrate.half 0)) (rightPtr + n)
        (Halfrate.mulSs (Halfrate.addSs (Halfrate.movehl c1.2.1 (o n)) (Halfrate.movehl c1.2.2.1 c1.1)) Halfrate.half 0)), ?_, ?_⟩
    · show List.foldlM (emitShared o) c1 [n] = _
      simp only [List.foldlM_cons, List.foldlM_nil, emitShared, Halfrate.get_ok (show n < 256 by omega)]
      rfl
    · intro k hk
      dsimp only
      rw [Function.update_of_ne (by simp only [rightPtr, rowPtr]; omega), Function.update_of_ne (by simp only [leftPtr, rowPtr]; omega)]
      exact k1 k (by omega)

/-- **C117**, refuted: `do_process_inputs` renews only ten of the 128 up-sampled samples: every left sample from the tenth and every right one
from the eighth on keeps its old value, so an audio-input oscillator hears a frozen block. -/
theorem C117_inputs_stale (clip : ℝ → ℝ) (m : Inputs) :
    ∃ s' m', doProcessInputs clip St.default m = .ok (s', m') ∧
      (∀ k, 10 ≤ k → m'.audioIn (leftPtr + k) = m.audioIn (leftPtr + k)) ∧ ∀ k, 8 ≤ k → m'.audioIn (rightPtr + k) = m.audioIn (rightPtr + k) := by
  unfold doProcessInputs upsampleShared
  dsimp only
  generalize atBase rightPtr (clipBlock clip 8) (atBase leftPtr (clipBlock clip 8) m.buffer) = b
  obtain ⟨o, e, -⟩ := Halfrate.work_ok (fun t => b (leftPtr + t)) (fun t => b (rightPtr + t)) 1 (by norm_num)
  rw [show 1 * 8 = 8 by rfl] at e
  have ef : Halfrate.processFilters 8 St.default o = .ok (St.default, o) := rfl
  obtain ⟨c, ec, kc⟩ := emitShared_loop o 8 (by norm_num) (St.default.oldout, 0, 0, m.audioIn)
  refine ⟨{ St.default with oldout := c.1 }, ⟨b, atBase rightPtr (copyBlock (fun t => b (rightPtr + t)) 8)
    (atBase leftPtr (copyBlock (fun t => b (leftPtr + t)) 8) m.nonOs), c.2.2.2⟩, ?_, fun k hk => kc _ (by simp only [leftPtr, rowPtr]; omega),
    fun k hk => kc _ (by simp only [rightPtr, rowPtr]; omega)⟩
  rw [e]
  show ((List.foldlM (emitShared o) (St.default.oldout, 0, 0, m.audioIn) (List.range 8) >>= fun c => Res.ok ({ St.default with oldout := c.1 }, c.2.2.2)) >>= _) = _
  rw [ec]
  rfl

/-- surge-output/src/handle.rs 12-23 and 33-43: the output buffer has shape `(2, n)`, so `out_l` is row 0 and `out_r` row 1 of an array with
`n` columns. -/
def outPtr (n row : ℕ) : ℕ := rowPtr n row

/-- **C117**, part: the two output channels are disjoint: a block written to one leaves the other, and reads back. -/
theorem C117_outputs_distinct_partial (n : ℕ) (x mem : ℕ → ℝ) {i j k : ℕ} (hij : i ≠ j) (hk : k < n) :
    writeAt (outPtr n i) n x mem (outPtr n j + k) = mem (outPtr n j + k) ∧ writeAt (outPtr n i) n x mem (outPtr n i + k) = x k := by
  simp only [writeAt, outPtr, rowPtr]
  refine ⟨?_, ?_⟩
  · refine if_neg ?_
    rintro ⟨h1, h2⟩
    rcases Nat.lt_or_gt_of_ne hij with h | h
    · have := Nat.mul_le_mul_left n (show i + 1 ≤ j by omega)
      rw [Nat.mul_add, Nat.mul_one] at this; omega
    · have := Nat.mul_le_mul_left n (show j + 1 ≤ i by omega)
      rw [Nat.mul_add, Nat.mul_one] at this; omega
  · refine (if_pos ⟨by omega, by omega⟩).trans ?_; congr 1; omega

end Verif.Units
