import Verif.StepSeq.Model
/-!
# C20: mute mask; C38: step and probability stores
-/
namespace Verif
open StepSeq Float

/-! ## C20 specification: what an operation says about one step -/

/-- The mute operations of the API. -/
inductive MuteOp where
  | mute (step : Nat)
  | unmute (step : Nat)
  | muteAll
  | unmuteAll
  | muteGroup (mask : BitVec 64)
  | unmuteGroup (mask : BitVec 64)

/-- What an operation decides about mask bit `i`: muted, unmuted, or nothing. There are 16 steps; "mute all" mutes
exactly those, and leaves no bit beyond them set. -/
def MuteOp.verdict (i : Nat) : MuteOp → Option Bool
  | .mute s => if s = i then some true else none
  | .unmute s => if s = i then some false else none
  | .muteAll => some (decide (i < 16))
  | .unmuteAll => some false
  | .muteGroup m => if m.getLsbD i then some true else none
  | .unmuteGroup m => if m.getLsbD i then some false else none

/-- The verdict of the last operation that says something about step `i`. -/
def lastVerdict (i : Nat) (before : Bool) (ops : List MuteOp) : Bool :=
  (ops.reverse.findSome? (MuteOp.verdict i)).getD before

/-- Call the API. -/
def MuteOp.apply (s : Seq) : MuteOp → P Seq
  | .mute n => s.muteStep n
  | .unmute n => s.unmuteStep n
  | .muteAll => .ok s.muteAll
  | .unmuteAll => .ok s.unmuteAll
  | .muteGroup m => .ok (s.muteGroup m)
  | .unmuteGroup m => .ok (s.unmuteGroup m)

/-- Call the API for a whole history. -/
def MuteOp.applyAll : Seq → List MuteOp → P Seq
  | s, [] => .ok s
  | s, o :: os => do let s' ← MuteOp.apply s o; MuteOp.applyAll s' os

/-- The step numbers named are below 64 (the shift does not overflow). -/
def MuteOp.Legal : MuteOp → Prop
  | .mute n => n < 64
  | .unmute n => n < 64
  | _ => True

theorem shl1_ok {n : Nat} (h : n < 64) : shl1 n = .ok (1#64 <<< n) := by simp [shl1, h]

theorem bit_getLsbD (n i : Nat) (hi : i < 64) : (1#64 <<< n).getLsbD i = decide (n = i) := by
  rw [BitVec.getLsbD_shiftLeft]
  by_cases h : i < n
  · simp [h, hi]; omega
  · simp only [hi, h, decide_true, decide_false, Bool.not_false, Bool.true_and]
    rw [BitVec.getLsbD_one]
    by_cases h2 : n = i
    · simp [h2]
    · have : i - n ≠ 0 := by omega
      simp [h2, this]

theorem and_bit_ne_zero (m : BitVec 64) (i : Nat) (hi : i < 64) :
    ((m &&& (1#64 <<< i)) != 0) = m.getLsbD i := by
  rw [Bool.eq_iff_iff]
  simp only [bne_iff_ne, ne_eq]
  constructor
  · intro h
    by_contra hc
    apply h
    apply BitVec.eq_of_getLsbD_eq
    intro j hj
    rw [BitVec.getLsbD_and, bit_getLsbD i j hj]
    by_cases hij : i = j
    · subst hij; simp at hc; simp [hc]
    · simp [hij]
  · intro h h0
    have h1 := congrArg (fun b => b.getLsbD i) h0
    simp only [BitVec.getLsbD_and, bit_getLsbD i i hi, h] at h1
    simp at h1

theorem isStepMuted_eq (s : Seq) (i : Nat) (hi : i < 64) :
    s.isStepMuted i = .ok (s.muteMask.getLsbD i) := by
  simp only [Seq.isStepMuted, shl1_ok hi, Res.ok_bind, Res.pure_eq, and_bit_ne_zero _ _ hi]

theorem apply_getLsbD (s : Seq) (o : MuteOp) (hl : o.Legal) (i : Nat) (hi64 : i < 64) :
    ∃ s', MuteOp.apply s o = .ok s' ∧
      s'.muteMask.getLsbD i = ((MuteOp.verdict i o).getD (s.muteMask.getLsbD i)) := by
  cases o with
  | mute n =>
    refine ⟨_, by simp [MuteOp.apply, Seq.muteStep, shl1_ok (show n < 64 from hl)]; rfl, ?_⟩
    simp only [BitVec.getLsbD_or, bit_getLsbD n i hi64, MuteOp.verdict]
    by_cases h : n = i <;> simp [h]
  | unmute n =>
    refine ⟨_, by simp [MuteOp.apply, Seq.unmuteStep, shl1_ok (show n < 64 from hl)]; rfl, ?_⟩
    simp only [BitVec.getLsbD_and, BitVec.getLsbD_not, bit_getLsbD n i hi64, MuteOp.verdict]
    by_cases h : n = i <;> simp [h, hi64]
  | muteAll =>
    refine ⟨_, rfl, ?_⟩
    simp only [Seq.muteAll, MuteOp.verdict, nSteps, BitVec.getLsbD_ushiftRight, BitVec.getLsbD_allOnes]
    by_cases h : i < 16 <;> simp [h] <;> omega
  | unmuteAll => exact ⟨_, rfl, by simp [Seq.unmuteAll, MuteOp.verdict]⟩
  | muteGroup m =>
    refine ⟨_, rfl, ?_⟩
    simp only [Seq.muteGroup, BitVec.getLsbD_or, MuteOp.verdict]
    cases m.getLsbD i <;> simp
  | unmuteGroup m =>
    refine ⟨_, rfl, ?_⟩
    simp only [Seq.unmuteGroup, BitVec.getLsbD_and, BitVec.getLsbD_not, MuteOp.verdict]
    cases m.getLsbD i <;> simp [hi64]

theorem lastVerdict_cons (i : Nat) (b : Bool) (o : MuteOp) (os : List MuteOp) :
    lastVerdict i b (o :: os) = lastVerdict i ((MuteOp.verdict i o).getD b) os := by
  unfold lastVerdict
  rw [List.reverse_cons, List.findSome?_append]
  cases h : os.reverse.findSome? (MuteOp.verdict i) with
  | some v => simp
  | none => simp

/-- C20: after any history of mute and unmute calls, on any sequencer, each step (and each bit of the mask beyond
the 16 steps) is muted exactly when the last call that concerned it was a mute (and as before if none did). -/
theorem C20_mute_last_op (s : Seq) (ops : List MuteOp) (hl : ∀ o ∈ ops, o.Legal) (i : Nat) (hi64 : i < 64)
    (before : Bool) (hb : s.isStepMuted i = .ok before) :
    ∃ s', MuteOp.applyAll s ops = .ok s' ∧ s'.isStepMuted i = .ok (lastVerdict i before ops) := by
  rw [isStepMuted_eq s i hi64] at hb
  injection hb with hb
  subst hb
  induction ops generalizing s with
  | nil => exact ⟨s, rfl, by simp [lastVerdict, isStepMuted_eq s i hi64]⟩
  | cons o os ih =>
    obtain ⟨s1, h1, h2⟩ := apply_getLsbD s o (hl o (by simp)) i hi64
    obtain ⟨s', h3, h4⟩ := ih s1 (fun o ho => hl o (by simp [ho]))
    refine ⟨s', by simp [MuteOp.applyAll, h1, h3], ?_⟩
    rw [h4, lastVerdict_cons, h2]

example : ∃ s', MuteOp.applyAll Seq.default [.muteAll, .unmute 3, .muteGroup 0xF0#64, .unmute 5] = .ok s' ∧
    s'.isStepMuted 3 = .ok false ∧ s'.isStepMuted 4 = .ok true ∧ s'.isStepMuted 5 = .ok false := by
  exact ⟨_, rfl, by decide +kernel, by decide +kernel, by decide +kernel⟩

/-- C20: mute operations touch nothing but the mute mask. -/
theorem C20_mute_only_mask (s s' : Seq) (ops : List MuteOp) (h : MuteOp.applyAll s ops = .ok s') :
    s' = { s with muteMask := s'.muteMask } := by
  induction ops generalizing s with
  | nil => cases h; rfl
  | cons o os ih =>
    have key : ∀ s1, MuteOp.apply s o = .ok s1 → s1 = { s with muteMask := s1.muteMask } := by
      intro s1 h1
      cases o with
      | mute n =>
        simp only [MuteOp.apply, Seq.muteStep, shl1] at h1
        split at h1 <;> simp at h1; subst h1; rfl
      | unmute n =>
        simp only [MuteOp.apply, Seq.unmuteStep, shl1] at h1
        split at h1 <;> simp at h1; subst h1; rfl
      | muteAll => cases h1; rfl
      | unmuteAll => cases h1; rfl
      | muteGroup m => cases h1; rfl
      | unmuteGroup m => cases h1; rfl
    simp only [MuteOp.applyAll] at h
    cases h1 : MuteOp.apply s o with
    | ok s1 =>
      rw [h1, Res.ok_bind] at h
      have := ih s1 h
      rw [this, key s1 h1]
    | err e => exact e.elim
    | panic w => rw [h1] at h; simp at h

/-- C20, the excluded calls: naming a step of 64 or more panics, always. -/
theorem C20_mute_bad_step_panics (s : Seq) (n : Nat) (h : 64 ≤ n) :
    (s.muteStep n).isPanic ∧ (s.unmuteStep n).isPanic ∧ (s.isStepMuted n).isPanic := by
  have : shl1 n = .panic "shift left with overflow" := by simp [shl1]; omega
  simp [Seq.muteStep, Seq.unmuteStep, Seq.isStepMuted, this, Res.isPanic]

/-! ## C38 -/

/-- The calls that store step values and probabilities. -/
inductive StoreOp where
  | setStep (i : Nat) (v : F32)
  | setProb (i : Nat) (v : F32)
  | setProbs (vs : List F32)

def StoreOp.apply (s : Seq) : StoreOp → Seq
  | .setStep i v => s.setStep i v
  | .setProb i v => s.setProbability i v
  | .setProbs vs => s.setProbabilities vs

/-- What a call stores in step `i`, if anything. -/
def StoreOp.stepWrite (i : Nat) : StoreOp → Option F32
  | .setStep j v => if j = i then some v else none
  | _ => none
/-- What a call stores in probability `i`, if anything. -/
def StoreOp.probWrite (i : Nat) : StoreOp → Option F32
  | .setProb j v => if j = i then some v else none
  | .setProbs vs => vs[i]?
  | _ => none

theorem setCell_get (a : Fin 16 → F32) (i j : Nat) (v : F32) (h : j < 16) :
    setCell a i v ⟨j, h⟩ = if i = j then v else a ⟨j, h⟩ := by
  unfold setCell
  by_cases hij : i = j
  · simp [hij]
  · simp [hij, Ne.symm hij]

theorem setStep_steps (s : Seq) (i : Nat) (v : F32) (j : Nat) (h : j < 16) :
    (s.setStep i v).steps ⟨j, h⟩ = if i = j then v else s.steps ⟨j, h⟩ := by
  unfold Seq.setStep nSteps
  by_cases hi : i < 16
  · rw [if_pos hi]; exact setCell_get _ _ _ _ _
  · rw [if_neg hi, if_neg (by omega)]

theorem setProb_probs (s : Seq) (i : Nat) (v : F32) (j : Nat) (h : j < 16) :
    (s.setProbability i v).probabilities ⟨j, h⟩ = if i = j then v else s.probabilities ⟨j, h⟩ := by
  unfold Seq.setProbability nSteps
  by_cases hi : i < 16
  · rw [if_pos hi]; exact setCell_get _ _ _ _ _
  · rw [if_neg hi, if_neg (by omega)]

theorem stepWrite_eq (s : Seq) (o : StoreOp) (i : Nat) (hi : i < 16) :
    (StoreOp.apply s o).step i = (StoreOp.stepWrite i o).getD (s.step i) := by
  unfold Seq.step
  rw [dif_pos hi, dif_pos hi]
  cases o with
  | setStep j v =>
    simp only [StoreOp.apply, StoreOp.stepWrite, setStep_steps]
    split <;> simp
  | setProb j v =>
    simp only [StoreOp.apply, StoreOp.stepWrite, Seq.setProbability]
    split <;> rfl
  | setProbs vs => rfl

theorem probWrite_eq (s : Seq) (o : StoreOp) (i : Nat) (hi : i < 16) :
    (StoreOp.apply s o).getProbability i = (StoreOp.probWrite i o).getD (s.getProbability i) := by
  unfold Seq.getProbability
  rw [dif_pos hi, dif_pos hi]
  cases o with
  | setProb j v =>
    simp only [StoreOp.apply, StoreOp.probWrite, setProb_probs]
    split <;> simp
  | setStep j v =>
    simp only [StoreOp.apply, StoreOp.probWrite, Seq.setStep]
    split <;> rfl
  | setProbs vs =>
    simp only [StoreOp.apply, Seq.setProbabilities, StoreOp.probWrite]
    by_cases hv : i < vs.length <;> simp [hv]

/-- C38: reading a step or probability gives the value of the last call that stored one there, for every
history and every index below 16; at 16 and above reads give 0 and writes are ignored, without a panic. -/
theorem C38_store_last_write (s : Seq) (ops : List StoreOp) (i : Nat) :
    let s' := ops.foldl StoreOp.apply s
    s'.step i = (if i < 16 then (ops.reverse.findSome? (StoreOp.stepWrite i)).getD (s.step i) else .fin 0) ∧
    s'.getProbability i =
      (if i < 16 then (ops.reverse.findSome? (StoreOp.probWrite i)).getD (s.getProbability i) else .fin 0) := by
  by_cases hi : i < 16
  · simp only [hi, if_true]
    induction ops generalizing s with
    | nil => simp
    | cons o os ih =>
      simp only [List.foldl_cons, List.reverse_cons, List.findSome?_append]
      obtain ⟨h1, h2⟩ := ih (StoreOp.apply s o)
      rw [h1, h2]
      have k1 := stepWrite_eq s o i hi
      have k2 := probWrite_eq s o i hi
      constructor
      · rw [k1]; cases (os.reverse.findSome? (StoreOp.stepWrite i)) <;> simp
      · rw [k2]; cases (os.reverse.findSome? (StoreOp.probWrite i)) <;> simp
  · simp [Seq.step, Seq.getProbability, hi]

example : (([.setStep 3 (.fin 1), .setProbs [.fin 0, .fin 2], .setStep 99 .nan] : List StoreOp).foldl
    StoreOp.apply Seq.default).step 3 = .fin 1 := by
  simp [StoreOp.apply, Seq.setStep, Seq.setProbabilities, Seq.step, nSteps, setCell]

end Verif
