import Verif.Rust
/-!
# Ring-out of effects

Models `surge-traits/src/ringout.rs`, `surge-types/src/effect.rs` 3-18 and the accessors generated by
`surge-macros/src/lib.rs` 89-118.  An effect is any state `σ` with its `stereo_process` and `process_only_control`;
the theorems hold for every effect.
-/
namespace Verif.Fx

/-- surge-types/src/effect.rs 3-7 `Ringout`. -/
inductive Ringout where
  | on (counter decay : Nat)
  | off
  deriving DecidableEq, Repr

/-- surge-types/src/effect.rs 9-16 `Ringout::blocks`. -/
def Ringout.blocks (decay : Nat) : Ringout := .on 0 decay

/-- What an effect does with a stereo block `B`. `stereo` (surge-traits/src/process.rs `stereo_process`) may replace the
ring-out (the delays do, e.g. surgefx-dualdelay/src/update.rs 71); `control` is `process_only_control`. -/
structure Dsp (σ ε B : Type) where
  stereo : σ → Ringout → B → Res ε (σ × Ringout × B)
  control : σ → σ

variable {σ ε B : Type}

/-- surge-macros/src/lib.rs 94-99 `get_ringout_counter`. -/
def Ringout.counter : Ringout → Nat
  | .on c _ => c
  | .off => 0
/-- surge-macros/src/lib.rs 102-107 `ringout_counter_incr` (`usize`, debug overflow check). -/
def Ringout.incr : Ringout → Res ε Ringout
  | .on c d => if c + 1 < 2 ^ 64 then .ok (.on (c + 1) d) else .panic "usize add overflow"
  | .off => .ok .off
/-- surge-macros/src/lib.rs 108-113 `ringout_counter_reset`. -/
def Ringout.reset : Ringout → Ringout
  | .on _ d => .on 0 d
  | .off => .off

/-- ringout.rs 35-54: the new ring-out, `do_process`, `decay_max`. -/
def ringoutHead (r : Ringout) (present : Bool) : Res ε (Ringout × Bool × Nat) :=
  match r with
  | .on _ decay =>
    if present then .ok (r.reset, true, decay)
    else r.incr >>= fun r' => .ok (r', false, 0)
  | .off => .ok (.off, true, 0)

/-- ringout.rs 20-65 `process_ringout`: new state, new ring-out, block, output present. -/
def processRingout (d : Dsp σ ε B) (st : σ) (r : Ringout) (b : B) (present : Bool) :
    Res ε (σ × Ringout × B × Bool) :=
  ringoutHead r present >>= fun (r', doProcess, decayMax) =>
    if r'.counter < decayMax ∨ doProcess = true then
      d.stereo st r' b >>= fun (st', r'', b') => .ok (st', r'', b', true)
    else .ok (d.control st, r', b, false)

/-- A history: one block and input flag after the other; the output is the list of "was processed" answers. -/
def runBlocks (d : Dsp σ ε B) : σ → Ringout → List (B × Bool) → Res ε (σ × Ringout × List Bool)
  | st, r, [] => .ok (st, r, [])
  | st, r, (b, p) :: rest =>
    processRingout d st r b p >>= fun (st', r', _, out) =>
      runBlocks d st' r' rest >>= fun (st'', r'', outs) => .ok (st'', r'', out :: outs)

/-! ## Specification -/

/-- What C37 asks of an effect whose ring-out is `n` blocks: a block is processed iff it has input, or fewer than `n`
blocks have passed since the last one that had (`since = none`: no input yet). -/
def Spec.shouldProcess (n : Nat) (present : Bool) (since : Option Nat) : Bool :=
  present || (match since with | some k => decide (k < n) | none => false)

/-- Number of blocks without input at the end of a history. -/
def Spec.silent : List Bool → Nat
  | [] => 0
  | hist => (hist.reverse.takeWhile (· == false)).length

/-- An effect that never switches its ring-out from on to off or changes its length. -/
def Dsp.KeepsRingout (d : Dsp σ ε B) : Prop :=
  ∀ st r b st' r' b', d.stereo st r b = .ok (st', r', b') → r' = r

/-! ## C37 -/

/-- C37, the half that holds: a block with input is processed, by `stereo_process`, with the counter back at zero. -/
theorem C37_input_processed_partial (d : Dsp σ ε B) (st : σ) (c n : Nat) (b : B) :
    processRingout d st (.on c n) b true =
      (d.stereo st (.on 0 n) b >>= fun (st', r, b') => .ok (st', r, b', true)) := by
  simp [processRingout, ringoutHead, Ringout.reset]

/-- C37, the other half that holds: with no input and the ring-out over, the effect is skipped: the block is unchanged
and only its control part runs. -/
theorem C37_finished_skipped_partial (d : Dsp σ ε B) (st : σ) (c n : Nat) (b : B) (_hc : n ≤ c) (h : c + 1 < 2 ^ 64) :
    processRingout d st (.on c n) b false = .ok (d.control st, .on (c + 1) n, b, false) := by
  simp [processRingout, ringoutHead, Ringout.incr, h, Ringout.counter]

/-- C37 is false of the code: whatever the length `n` of the ring-out, the first block without input is already not
processed; the tail is always cut off at once. -/
theorem C37_tail_always_cut (d : Dsp σ ε B) (st : σ) (n : Nat) (b : B) :
    processRingout d st (.blocks n) b false = .ok (d.control st, .on 1 n, b, false) ∧
    (0 < n → Spec.shouldProcess n false (some 0) = true) := by
  constructor
  · simp [processRingout, ringoutHead, Ringout.blocks, Ringout.incr, Ringout.counter]
  · intro h; simp [Spec.shouldProcess, h]

/-- An effect without ring-out is processed in every block. -/
theorem C37_off_always_processed_partial (d : Dsp σ ε B) (st : σ) (b : B) (p : Bool) :
    processRingout d st .off b p = (d.stereo st .off b >>= fun (st', r, b') => .ok (st', r, b', true)) := by
  simp [processRingout, ringoutHead]

theorem silent_append_true (h : List Bool) : Spec.silent (h ++ [true]) = 0 := by
  cases h <;> simp [Spec.silent]

theorem silent_append_false (h : List Bool) : Spec.silent (h ++ [false]) = Spec.silent h + 1 := by
  cases h <;> simp [Spec.silent]

/-- Whole histories: if the run completes, a block is processed exactly if it had input - whatever the ring-out
length -, and at the end the counter is the number of blocks since the last input. -/
theorem runBlocks_spec (d : Dsp σ ε B) (hk : d.KeepsRingout) (n : Nat) :
    ∀ (hist : List (B × Bool)) (pre : List Bool) (st : σ) {st' : σ} {r' : Ringout} {outs : List Bool},
      runBlocks d st (.on (Spec.silent pre) n) hist = .ok (st', r', outs) →
      outs = hist.map Prod.snd ∧ r' = .on (Spec.silent (pre ++ hist.map Prod.snd)) n := by
  intro hist
  induction hist with
  | nil =>
    intro pre st st' r' outs h
    simp only [runBlocks, Res.ok.injEq, Prod.mk.injEq] at h
    obtain ⟨_, rfl, rfl⟩ := h
    simp
  | cons x rest ih =>
    intro pre st st' r' outs h
    obtain ⟨b, p⟩ := x
    rw [runBlocks] at h
    cases p with
    | true =>
      rw [C37_input_processed_partial] at h
      cases hs : d.stereo st (.on 0 n) b with
      | err e => simp [hs] at h
      | panic w => simp [hs] at h
      | ok v =>
        obtain ⟨s1, r1, b1⟩ := v
        have := hk _ _ _ _ _ _ hs
        subst this
        simp only [hs, Res.ok_bind] at h
        cases hr : runBlocks d s1 (.on 0 n) rest with
        | err e => simp [hr] at h
        | panic w => simp [hr] at h
        | ok v =>
          obtain ⟨s2, r2, o2⟩ := v
          simp only [hr, Res.ok_bind, Res.ok.injEq, Prod.mk.injEq] at h
          obtain ⟨rfl, rfl, rfl⟩ := h
          rw [← silent_append_true pre] at hr
          obtain ⟨h1, h2⟩ := ih _ _ hr
          subst h1
          refine ⟨rfl, ?_⟩
          simpa using h2
    | false =>
      by_cases hov : Spec.silent pre + 1 < 2 ^ 64
      · have hp : processRingout d st (.on (Spec.silent pre) n) b false
            = .ok (d.control st, .on (Spec.silent pre + 1) n, b, false) := by
          simp [processRingout, ringoutHead, Ringout.incr, hov, Ringout.counter]
        rw [hp] at h
        simp only [Res.ok_bind] at h
        rw [← silent_append_false] at h
        cases hr : runBlocks d (d.control st) (.on (Spec.silent (pre ++ [false])) n) rest with
        | err e => simp [hr] at h
        | panic w => simp [hr] at h
        | ok v =>
          obtain ⟨s2, r2, o2⟩ := v
          simp only [hr, Res.ok_bind, Res.ok.injEq, Prod.mk.injEq] at h
          obtain ⟨rfl, rfl, rfl⟩ := h
          obtain ⟨h1, h2⟩ := ih _ _ hr
          subst h1
          refine ⟨rfl, ?_⟩
          simpa using h2
      · exfalso
        simp [processRingout, ringoutHead, Ringout.incr, hov] at h

/-- C37 over whole histories, starting with a fresh ring-out of `n` blocks: the effect is processed in exactly the
blocks that have input, and the counter counts the blocks since the last input. -/
theorem C37_history_partial (d : Dsp σ ε B) (hk : d.KeepsRingout) (n : Nat) (hist : List (B × Bool)) (st : σ)
    {st' : σ} {r' : Ringout} {outs : List Bool}
    (h : runBlocks d st (.blocks n) hist = .ok (st', r', outs)) :
    outs = hist.map Prod.snd ∧ r' = .on (Spec.silent (hist.map Prod.snd)) n := by
  have := runBlocks_spec d hk n hist [] st (st' := st') (r' := r') (outs := outs) (by simpa [Spec.silent, Ringout.blocks] using h)
  simpa using this

/-- A gain of two, for the non-vacuity examples. -/
def double : Dsp Unit Empty Int where
  stereo := fun _ r b => .ok ((), r, 2 * b)
  control := id

example : double.KeepsRingout := by
  intro st r b st' r' b' h
  simp only [double, Res.ok.injEq, Prod.mk.injEq] at h
  exact h.2.1.symm

/-- Ring-out of 500 blocks (as in eq3band); input in blocks 0 and 1, then silence: blocks 2 and 3 are not processed. -/
example : runBlocks double () (.blocks 500) [(1, true), (1, true), (0, false), (0, false)]
    = .ok ((), .on 2 500, [true, true, false, false]) := by decide +kernel

end Verif.Fx
