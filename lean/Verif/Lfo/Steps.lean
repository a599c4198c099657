import Verif.Lfo.Phase
import Verif.StepSeq.PropsMute
/-!
# The step sequence shape (C73)
-/
namespace Verif.Lfo
open Verif.Float Verif.Dsp Verif.Param Verif.Adsr Verif.StepSeq
open Verif.Fx (bind_ok)

/-- The step after `k` in a loop from `a` to `e`. -/
def Spec.nextStep (a e k : Nat) : Nat := if e ≤ k then a else k + 1

/-- The steps played after `k`. -/
def Spec.nthStep (a e k : Nat) : Nat → Nat
  | 0 => k
  | j + 1 => Spec.nextStep a e (Spec.nthStep a e k j)

/-- Loop points are step numbers. -/
def Spec.LoopOk (q : Seq) : Prop := q.loopStart ≤ 15 ∧ q.loopEnd ≤ 15

theorem next_eq (q : Seq) (k : Nat) : (if q.loopEnd < k + 1 then q.loopStart else k + 1) = Spec.nextStep q.loopStart q.loopEnd k := by
  unfold Spec.nextStep
  by_cases h : q.loopEnd < k + 1
  · rw [if_pos h, if_pos (by omega)]
  · rw [if_neg h, if_neg (by omega)]

theorem nextStep_le {q : Seq} (h : Spec.LoopOk q) (k : Nat) : Spec.nextStep q.loopStart q.loopEnd k ≤ 15 := by
  unfold Spec.nextStep
  have := h.1; have := h.2
  split <;> omega

/-- The step counter and the pattern through a block. -/
theorem process_steps {f : Nat} {E : Env} {r : Rand} {s t : St} (h : process f E r s = .ok t) : t.seq = s.seq ∧
    (t.step = s.step ∨ t.step = Spec.nextStep s.seq.loopStart s.seq.loopEnd s.step) := by
  obtain ⟨s0, s1, s2, s3, sh, q, o, h0, hsh, hq, e1, h2, h3, ho, hf⟩ := process_ok h
  have a0 : s0.seq = s.seq ∧ s0.step = s.step := by
    unfold ensurePhase initPhase at h0
    split at h0
    · cases h0; simp
    · simp only [bind_ok] at h0
      obtain ⟨_, _, _, _, h0⟩ := h0
      cases h0; simp
  have a1 : s1.seq = s.seq ∧ s1.step = s.step := by rw [e1]; exact a0
  have a2 : s2.seq = s.seq ∧ s2.step = s.step := by
    rcases h2 with ⟨_, rfl⟩ | ⟨_, h2⟩
    · exact a1
    · have fr := updateEnv_frame h2
      rw [fr.2.2.2.2.2.1, fr.2.2.2.2.1]; exact a1
  have a3 : s3.seq = s.seq ∧ (s3.step = s.step ∨ s3.step = Spec.nextStep s.seq.loopStart s.seq.loopEnd s.step) := by
    rcases h3 with ⟨_, h3⟩ | ⟨_, rfl⟩
    · unfold overOne at h3
      cases sh <;> dsimp only at h3
      case stepseq =>
        obtain ⟨_, _, _, _, _, _, _, _, rfl⟩ := overStepseq_ok h3
        dsimp only
        rw [next_eq, a2.1, a2.2]
        exact ⟨rfl, .inr rfl⟩
      case snh => rw [bind_ok] at h3; obtain ⟨_, _, h3⟩ := h3; cases h3; exact ⟨a2.1, .inl a2.2⟩
      case noise => rw [bind_ok] at h3; obtain ⟨_, _, h3⟩ := h3; cases h3; exact ⟨a2.1, .inl a2.2⟩
      all_goals cases h3; exact ⟨a2.1, .inl a2.2⟩
    · exact ⟨a2.1, .inl a2.2⟩
  obtain ⟨_, _, _, _, rfl⟩ := finish_ok hf
  exact a3

theorem and15_le (n : Nat) : n &&& 15 ≤ 15 := Nat.and_le_right

theorem attack_steps {f : Nat} {E : Env} {r : Rand} {s t : St} (hl : Spec.LoopOk s.seq) (hs : s.step ≤ 15) (h : attack f E r s = .ok t) :
    t.seq = s.seq ∧ t.step ≤ 15 := by
  obtain ⟨s0, s1, s2, sh, m, start, rate, d, a, hh, h0, hsh, hst, _, _, h1, h2, h3⟩ := attack_ok h
  have a0 : s0.seq = s.seq ∧ s0.step = s.step := by
    unfold ensurePhase initPhase at h0
    split at h0
    · cases h0; simp
    · simp only [bind_ok] at h0
      obtain ⟨_, _, _, _, h0⟩ := h0
      cases h0; simp
  have a1 : s1.seq = s.seq ∧ s1.step = s.step := by
    rcases envForAttack_ok h1 with rfl | rfl | rfl | rfl <;> exact a0
  have a2 : s2.seq = s.seq ∧ s2.step ≤ 15 := by
    unfold phaseForAttack at h2
    rw [bind_ok] at h2
    obtain ⟨sl, hsl, h2⟩ := h2
    cases m <;> dsimp only at h2
    · unfold freeRun at h2
      simp only [bind_ok] at h2
      obtain ⟨x, _, h2⟩ := h2
      split at h2
      · cases h2
      · rename_i hc
        cases h2
        refine ⟨a1.1, ?_⟩
        dsimp only
        rw [a1.1] at hc ⊢
        have l1 := hl.1; have l2 := hl.2
        have := Nat.mod_lt x.1.toUsize (show 0 < Max.max 1 (s.seq.loopEnd - s.seq.loopStart) by omega)
        omega
    · cases h2; exact ⟨a1.1, by simp [keyTrigger]⟩
    · unfold randomMode at h2
      split at h2
      · cases h2
      · cases h2; exact ⟨a1.1, and15_le _⟩
  unfold attackShape at h3
  cases sh <;> dsimp only at h3
  case sine => unfold attackSine at h3; rw [bind_ok] at h3; obtain ⟨_, _, h3⟩ := h3; cases h3; exact a2
  case tri =>
    unfold attackTri at h3; rw [bind_ok] at h3; obtain ⟨_, _, h3⟩ := h3
    split at h3 <;> cases h3 <;> exact a2
  case snh => rw [bind_ok] at h3; obtain ⟨_, _, h3⟩ := h3; cases h3; exact a2
  case noise => rw [bind_ok] at h3; obtain ⟨_, _, h3⟩ := h3; cases h3; exact a2
  case stepseq =>
    cases h3
    refine ⟨a2.1, ?_⟩
    unfold attackStepseq
    dsimp only
    rw [next_eq, a2.1]
    exact nextStep_le hl _
  all_goals cases h3; exact a2

/-- Every pattern set in a history has its loop points among the 16 steps. -/
def Spec.Patterns : List Op → Prop
  | [] => True
  | .pattern q :: os => Spec.LoopOk q ∧ Spec.Patterns os
  | _ :: os => Spec.Patterns os

theorem runs_steps : ∀ (os : List Op) {s t : St}, Spec.LoopOk s.seq → s.step ≤ 15 → Spec.Patterns os → runs os s = .ok t → Spec.LoopOk t.seq ∧ t.step ≤ 15 := by
  intro os
  induction os with
  | nil => intro s t hl hs _ h; cases h; exact ⟨hl, hs⟩
  | cons o os ih =>
    intro s t hl hs hh h
    rw [runs, bind_ok] at h
    obtain ⟨u, hu, h⟩ := h
    cases o with
    | attack f E' r =>
      have := attack_steps hl hs hu
      exact ih (by rw [this.1]; exact hl) this.2 hh h
    | block f E' r =>
      have := process_steps hu
      refine ih (by rw [this.1]; exact hl) ?_ hh h
      rcases this.2 with e | e <;> rw [e]
      · exact hs
      · exact nextStep_le hl _
    | edit p => cases hu; exact ih (s := { s with p := p }) hl hs hh h
    | pattern q => cases hu; exact ih (s := { s with seq := q }) hh.1 hs hh.2 h

theorem loopOk_default : Spec.LoopOk Seq.default := by unfold Spec.LoopOk Seq.default nSteps; simp

/-- C73: in every history of attacks, blocks, parameter changes and pattern changes with loop points among the 16 steps, the step counter
stays among the 16 steps (so no trigger bit outside the 64-bit mask is ever asked for). -/
theorem C73_step_in_range (p : Params) (os : List Op) (s : St) (hp : Spec.Patterns os) (h : runs os (new p) = .ok s) : s.step < 16 := by
  have := (runs_steps os loopOk_default (by simp [new]) hp h).2
  omega

theorem trigBit_spec (s : St) (n : Nat) (h : n < 64) : trigBit s n = .ok (s.seq.trigmask.getLsbD n) := by
  unfold trigBit shl1
  rw [if_pos h]
  simp only [Res.ok_bind, Res.ok.injEq]
  exact and_bit_ne_zero _ _ h

theorem ensurePhase_ready {f : Nat} {s t : St} (hi : s.phaseInit = true) (h : ensurePhase f s = .ok t) : t = s := by
  rw [C70_once f s hi] at h; cases h; rfl

/-- Does the block take the phase past 1? -/
def Spec.Crosses (s : St) (q : F32) : Prop := F32.lt (.fin 1) (F32.add s.phase (F32.mul q s.ratemult)) = true

/-- A block of the step sequence shape: everything it does to the step, the two retrigger flags and the four remembered values. -/
theorem process_stepseq {f : Nat} {E : Env} {r : Rand} {s t : St} {q : F32} (hi : s.phaseInit = true) (hsh : getShape s = .ok .stepseq)
    (hq : rateOf E s.p .rate = .ok q) (hs : s.step < 16) (h : process f E r s = .ok t) :
    t.seq = s.seq ∧ t.phaseInit = true ∧
    (Spec.Crosses s q → t.step = Spec.nextStep s.seq.loopStart s.seq.loopEnd s.step ∧ t.wf1 = s.wf0 ∧ t.wf2 = s.wf1 ∧ t.wf0 = s.seq.step (t.step &&& 15) ∧
      t.retriggerFeg = (s.seq.trigmask.getLsbD s.step || s.seq.trigmask.getLsbD (16 + s.step)) ∧
      t.retriggerAeg = (s.seq.trigmask.getLsbD s.step || s.seq.trigmask.getLsbD (32 + s.step)) ∧ t.phase = F32.sub (F32.add s.phase (F32.mul q s.ratemult)) (.fin 1)) ∧
    (¬ Spec.Crosses s q → t.step = s.step ∧ t.wf1 = s.wf1 ∧ t.wf2 = s.wf2 ∧ t.wf0 = s.wf0 ∧ t.retriggerFeg = false ∧ t.retriggerAeg = false ∧
      t.phase = F32.add s.phase (F32.mul q s.ratemult)) := by
  obtain ⟨s0, s1, s2, s3, sh, q', o, h0, hsh', hq', e1, h2, h3, ho, hf⟩ := process_ok h
  have := ensurePhase_ready hi h0
  subst this
  rw [hsh] at hsh'; cases hsh'
  rw [hq] at hq'; cases hq'
  have a2 : s2.phase = F32.add s0.phase (F32.mul q s0.ratemult) ∧ s2.step = s0.step ∧ s2.seq = s0.seq ∧ s2.wf0 = s0.wf0 ∧ s2.wf1 = s0.wf1 ∧
      s2.retriggerFeg = false ∧ s2.retriggerAeg = false ∧ s2.wf2 = s0.wf2 ∧ s2.phaseInit = true := by
    rcases h2 with ⟨_, rfl⟩ | ⟨_, h2⟩
    · rw [e1]; simp [hi]
    · have fr := updateEnv_frame h2
      have pi : s2.phaseInit = s1.phaseInit := by
        obtain ⟨r, i, _, _, rfl⟩ := updateEnv_ok h2
        have k1 : ∀ (u : St) (x : F32), (envValue u x).phaseInit = u.phaseInit := by intro u x; unfold envValue; split <;> rfl
        have k2 : ∀ (u : St) (x : F32), (nextEnv u x).phaseInit = u.phaseInit := by intro u x; unfold nextEnv; split <;> rfl
        rw [k1]; split
        · rw [k2]
        · rfl
      rw [fr.1, fr.2.2.2.2.1, fr.2.2.2.2.2.1, fr.2.2.2.2.2.2.1, fr.2.2.2.2.2.2.2.1, fr.2.2.2.2.2.2.2.2.1, fr.2.2.2.2.2.2.2.2.2.1, fr.2.2.2.2.2.2.2.2.2.2.2, pi, e1]
      simp [hi]
  obtain ⟨_, _, _, _, rfl⟩ := finish_ok hf
  rcases h3 with ⟨hc, h3⟩ | ⟨hc, rfl⟩
  · have cr : Spec.Crosses s0 q := by unfold Spec.Crosses; rw [← a2.1]; exact hc
    unfold overOne at h3
    dsimp only at h3
    obtain ⟨t0, t1, t2, st, b0, b1, b2, _, rfl⟩ := overStepseq_ok h3
    dsimp only at b0 b1 b2 ⊢
    have hs' : s2.step < 16 := by rw [a2.2.1]; exact hs
    rw [trigBit_spec _ _ (by omega)] at b0 b1 b2
    cases b0; cases b1; cases b2
    dsimp only
    rw [a2.1, a2.2.1, a2.2.2.1, a2.2.2.2.1, a2.2.2.2.2.1, a2.2.2.2.2.2.1, a2.2.2.2.2.2.2.1, next_eq]
    refine ⟨rfl, a2.2.2.2.2.2.2.2.2, fun _ => ⟨rfl, rfl, rfl, rfl, by simp, by simp, rfl⟩, fun hn => absurd cr hn⟩
  · have cr : ¬ Spec.Crosses s0 q := by unfold Spec.Crosses; rw [← a2.1, hc]; simp
    dsimp only
    rw [a2.1, a2.2.1, a2.2.2.1, a2.2.2.2.1, a2.2.2.2.2.1, a2.2.2.2.2.2.1, a2.2.2.2.2.2.2.1, a2.2.2.2.2.2.2.2.1]
    exact ⟨rfl, a2.2.2.2.2.2.2.2.2, fun hn => absurd hn cr, fun _ => ⟨rfl, rfl, rfl, rfl, rfl, rfl, rfl⟩⟩

/-- C73: a block of the step sequence shape asks for a retrigger only when it moves on to the next step, and then exactly as the trigger mask of the step
that ends says: bits 0-15 retrigger both envelopes, bits 16-31 the filter envelope, bits 32-47 the amplifier envelope. -/
theorem C73_retriggers (f : Nat) (E : Env) (r : Rand) (s t : St) (q : F32) (hi : s.phaseInit = true) (hsh : getShape s = .ok .stepseq)
    (hq : rateOf E s.p .rate = .ok q) (hs : s.step < 16) (h : process f E r s = .ok t) :
    (t.retriggerFeg = true ↔ Spec.Crosses s q ∧ (s.seq.trigmask.getLsbD s.step = true ∨ s.seq.trigmask.getLsbD (16 + s.step) = true)) ∧
    (t.retriggerAeg = true ↔ Spec.Crosses s q ∧ (s.seq.trigmask.getLsbD s.step = true ∨ s.seq.trigmask.getLsbD (32 + s.step) = true)) := by
  obtain ⟨_, _, a, b⟩ := process_stepseq hi hsh hq hs h
  by_cases c : Spec.Crosses s q
  · obtain ⟨_, _, _, _, e1, e2, _⟩ := a c
    rw [e1, e2]; simp [c]
  · obtain ⟨_, _, _, _, e1, e2, _⟩ := b c
    rw [e1, e2]; simp [c]

/-- The oscillator is playing the `j`-th step after the first, of the loop of `s.seq` that starts at step `k`. -/
structure Spec.Plays (s : St) (k j : Nat) : Prop where
  now : s.wf1 = s.seq.step (Spec.nthStep s.seq.loopStart s.seq.loopEnd k j)
  next : s.wf0 = s.seq.step (Spec.nthStep s.seq.loopStart s.seq.loopEnd k (j + 1))
  step : s.step = Spec.nthStep s.seq.loopStart s.seq.loopEnd k (j + 1)

theorem nthStep_le {q : Seq} (h : Spec.LoopOk q) {k : Nat} (hk : k ≤ 15) : ∀ j, Spec.nthStep q.loopStart q.loopEnd k j ≤ 15 := by
  intro j
  cases j with
  | zero => exact hk
  | succ j => exact nextStep_le h _

theorem and15 {n : Nat} (h : n ≤ 15) : n &&& 15 = n := by
  have := Nat.and_two_pow_sub_one_eq_mod n 4
  norm_num at this
  rw [this, Nat.mod_eq_of_lt (by omega)]

/-- C73: a key-triggered attack starts playing at step 0. -/
theorem C73_attack_plays_first (f : Nat) (E : Env) (r : Rand) (s t : St) (hl : Spec.LoopOk s.seq) (hsh : getShape s = .ok .stepseq)
    (ht : s.p.val .trigmode = .int 1) (h : attack f E r s = .ok t) : t.seq = s.seq ∧ Spec.Plays t 0 0 := by
  obtain ⟨s0, s1, s2, sh, m, start, rate, d, a, hh, h0, hsh', hst, _, hm, h1, h2, h3⟩ := attack_ok h
  have ep := (ensurePhase_env h0).p
  have a0 : s0.seq = s.seq := by
    unfold ensurePhase initPhase at h0
    split at h0
    · cases h0; simp
    · simp only [bind_ok] at h0
      obtain ⟨_, _, _, _, h0⟩ := h0
      cases h0; simp
  have : sh = .stepseq := by
    unfold getShape at hsh hsh'
    rw [ep, hsh] at hsh'; cases hsh'; rfl
  subst this
  have : m = .keyTrigger := by
    rw [ep, ht] at hm
    simp [pvali, modeOf] at hm; exact hm.symm
  subst this
  have a1 : s1.seq = s.seq := by rcases envForAttack_ok h1 with rfl | rfl | rfl | rfl <;> exact a0
  unfold phaseForAttack at h2
  rw [bind_ok] at h2
  obtain ⟨sl, hsl, h2⟩ := h2
  cases h2
  unfold attackShape at h3
  cases h3
  unfold attackStepseq keyTrigger
  dsimp only
  rw [next_eq, a1, and15 (nextStep_le hl _)]
  refine ⟨rfl, ⟨?_, ?_, ?_⟩⟩
  · simp [Spec.nthStep]
  · simp [Spec.nthStep]
  · simp [Spec.nthStep]

/-- C73: an attack in any trigger mode that returns starts playing at some step of the 16, whose value is sounded first and whose successor in the loop
comes next; in key-trigger mode and in random mode (whose random number is cut to 0) that is step 0, in free-running mode a step of the loop. -/
theorem C73_attack_plays (f : Nat) (E : Env) (r : Rand) (s t : St) (hl : Spec.LoopOk s.seq) (hsh : getShape s = .ok .stepseq)
    (h : attack f E r s = .ok t) : t.seq = s.seq ∧ ∃ k ≤ 15, Spec.Plays t k 0 ∧ ((s.p.val .trigmode = .int 1 ∨ s.p.val .trigmode = .int 2) → k = 0) ∧
      (s.p.val .trigmode = .int 0 → s.seq.loopStart ≤ k ∧ k ≤ Max.max s.seq.loopStart s.seq.loopEnd) := by
  obtain ⟨s0, s1, s2, sh, m, start, rate, d, a, hh, h0, hsh', hst, _, hm, h1, h2, h3⟩ := attack_ok h
  have ep := (ensurePhase_env h0).p
  have a0 : s0.seq = s.seq := by
    unfold ensurePhase initPhase at h0
    split at h0
    · cases h0; simp
    · simp only [bind_ok] at h0
      obtain ⟨_, _, _, _, h0⟩ := h0
      cases h0; simp
  have : sh = .stepseq := by
    unfold getShape at hsh hsh'
    rw [ep, hsh] at hsh'; cases hsh'; rfl
  subst this
  have a1 : s1.seq = s.seq := by rcases envForAttack_ok h1 with rfl | rfl | rfl | rfl <;> exact a0
  unfold phaseForAttack at h2
  rw [bind_ok] at h2
  obtain ⟨sl, hsl, h2⟩ := h2
  have key : s2.seq = s.seq ∧ s2.step ≤ 15 ∧ ((s.p.val .trigmode = .int 1 ∨ s.p.val .trigmode = .int 2) → s2.step = 0) ∧
      (s.p.val .trigmode = .int 0 → s.seq.loopStart ≤ s2.step ∧ s2.step ≤ Max.max s.seq.loopStart s.seq.loopEnd) := by
    rw [ep] at hm
    cases m with
    | keyTrigger =>
      cases h2
      refine ⟨a1, by simp [keyTrigger], fun _ => rfl, ?_⟩
      intro h; rw [h] at hm; simp [pvali, modeOf] at hm
    | random =>
      dsimp only at h2
      unfold randomMode at h2
      split at h2
      · simp at h2
      · cases h2
        refine ⟨a1, by simp, fun _ => by simp, ?_⟩
        intro h; rw [h] at hm; simp [pvali, modeOf] at hm
    | freeRun =>
      dsimp only at h2
      unfold freeRun at h2
      dsimp only at h2
      rw [bind_ok] at h2
      obtain ⟨x, _, h2⟩ := h2
      split at h2
      · simp at h2
      · cases h2
        rw [a1] at *
        dsimp only
        have hmod : x.1.toUsize % (Max.max 1 (s.seq.loopEnd - s.seq.loopStart)) < Max.max 1 (s.seq.loopEnd - s.seq.loopStart) := Nat.mod_lt _ (by omega)
        obtain ⟨l1, l2⟩ := hl
        refine ⟨rfl, by omega, ?_, fun _ => ⟨by omega, by omega⟩⟩
        intro h
        rcases h with h | h <;> rw [h] at hm <;> simp [pvali, modeOf] at hm
  obtain ⟨k1, k2, k3, k4⟩ := key
  unfold attackShape at h3
  cases h3
  refine ⟨k1, s2.step, k2, ?_, k3, k4⟩
  unfold attackStepseq
  dsimp only
  rw [next_eq, k1, and15 (nextStep_le hl _), and15 k2]
  exact ⟨rfl, rfl, rfl⟩

/-- C73: how long a step lasts: until the phase passes 1, each block adds the table rate of the rate parameter, times the tempo ratio when the parameter
is synced, times the speed of the step. -/
theorem C73_step_speed (f : Nat) (E : Env) (r : Rand) (s t : St) (x : F32) (hi : s.phaseInit = true) (hsh : getShape s = .ok .stepseq)
    (hx : s.p.val .rate = .float x) (hs : s.step < 16) (h : process f E r s = .ok t) :
    let q := if s.p.sync .rate = true then F32.mul (E.rateLinear x) E.tempoRatio else E.rateLinear x
    let ph := F32.add s.phase (F32.mul q s.ratemult)
    (F32.lt (.fin 1) ph = true → t.phase = F32.sub ph (.fin 1) ∧ t.step = Spec.nextStep s.seq.loopStart s.seq.loopEnd s.step) ∧
    (F32.lt (.fin 1) ph = false → t.phase = ph ∧ t.step = s.step) := by
  intro q ph
  have hq : rateOf E s.p .rate = .ok q := by unfold rateOf; rw [hx]; rfl
  obtain ⟨_, _, a, b⟩ := process_stepseq hi hsh hq hs h
  constructor
  · intro hc
    obtain ⟨e, _, _, _, _, _, e2⟩ := a hc
    exact ⟨e2, e⟩
  · intro hc
    obtain ⟨e, _, _, _, _, _, e2⟩ := b (by unfold Spec.Crosses; show ¬ F32.lt _ ph = true; rw [hc]; simp)
    exact ⟨e2, e⟩

/-- The number of blocks of a run that end a step. -/
inductive Spec.Counted (E : Env) : List (Nat × Rand) → St → St → Nat → Prop
  | nil (s : St) : Spec.Counted E [] s s 0
  | cross {f r os s u t n q} : rateOf E s.p .rate = .ok q → Spec.Crosses s q → process f E r s = .ok u → Spec.Counted E os u t n → Spec.Counted E ((f, r) :: os) s t (n + 1)
  | stay {f r os s u t n q} : rateOf E s.p .rate = .ok q → ¬ Spec.Crosses s q → process f E r s = .ok u → Spec.Counted E os u t n → Spec.Counted E ((f, r) :: os) s t n

/-- C73: the steps are played in order, once around the loop after another: after blocks of which `n` took the phase past 1, the oscillator plays
the `n`-th step after the one it played. -/
theorem C73_plays_in_order (E : Env) (os : List (Nat × Rand)) (s t : St) (k j n : Nat) (hl : Spec.LoopOk s.seq) (hk : k ≤ 15) (hi : s.phaseInit = true) (hsh : getShape s = .ok .stepseq)
    (hp : Spec.Plays s k j) (hc : Spec.Counted E os s t n) : t.seq = s.seq ∧ Spec.Plays t k (j + n) := by
  induction hc generalizing j with
  | nil s => exact ⟨rfl, hp⟩
  | cross hq cr hb _ ih =>
    rename_i f r os s u t n q _
    have hstep : s.step < 16 := by rw [hp.step]; have := nthStep_le hl hk (j + 1); omega
    obtain ⟨e1, e2, a, _⟩ := process_stepseq hi hsh hq hstep hb
    obtain ⟨b1, b2, _, b4, _⟩ := a cr
    have hpl : Spec.Plays u k (j + 1) := by
      have e3 : u.step = Spec.nthStep u.seq.loopStart u.seq.loopEnd k (j + 1 + 1) := by rw [b1, hp.step, e1]; rfl
      refine ⟨by rw [b2, e1]; exact hp.next, ?_, e3⟩
      rw [b4, e3, e1, and15 (nthStep_le hl hk _)]
    have := ih (j := j + 1) (by rw [e1]; exact hl) e2 (by unfold getShape at hsh ⊢; rw [process_p hb]; exact hsh) hpl
    refine ⟨this.1.trans e1, ?_⟩
    rw [show j + (n + 1) = j + 1 + n by omega]; exact this.2
  | stay hq cr hb _ ih =>
    rename_i f r os s u t n q _
    have hstep : s.step < 16 := by rw [hp.step]; have := nthStep_le hl hk (j + 1); omega
    obtain ⟨e1, e2, _, a⟩ := process_stepseq hi hsh hq hstep hb
    obtain ⟨b1, b2, _, b4, _⟩ := a cr
    have hpl : Spec.Plays u k j := by
      refine ⟨by rw [b2, e1]; exact hp.now, by rw [b4, e1]; exact hp.next, by rw [b1, e1]; exact hp.step⟩
    have := ih (j := j) (by rw [e1]; exact hl) e2 (by unfold getShape at hsh ⊢; rw [process_p hb]; exact hsh) hpl
    exact ⟨this.1.trans e1, this.2⟩

/-- C73: with deform 0 the wave is exactly the value of the step being played, apart from a short glide at the start of the step. -/
theorem C73_holds_step (E : Env) (s : St) {w1 w2 ph : ℚ} (hd : s.p.val .deform = .float (.fin 0)) (h1 : s.wf1 = .fin w1) (i1 : Spec.IsF32 w1) (b1 : |w1| ≤ 2 ^ 99)
    (h2 : s.wf2 = .fin w2) (hp : s.phase = .fin ph) (p0 : 1 / 50000 ≤ ph) (p1 : ph ≤ 2 ^ 60) : shapeOut E s .stepseq = .ok (.fin w1) := by
  unfold shapeOut
  dsimp only
  rw [hd]
  simp only [pvalf, Res.ok_bind, Res.ok.injEq]
  unfold shapeStepseq
  dsimp only
  have c1 : F32.lt (flit (1 / 2)) (.fin 0) = false := by decide +kernel
  have c2 : F32.lt (flit (-1 / 10000)) (.fin 0) = true := by decide +kernel
  have c3 : F32.add (F32.mul (.fin 2) (.fin 0)) (flit (1 / 100000)) = .fin (rne (1 / 100000)) := by decide +kernel
  have l1 : rne (1 / 100000) < 1 / 50000 := by decide +kernel
  have l2 : (1 / 2 ^ 20 : ℚ) < rne (1 / 100000) := by decide +kernel
  rw [c1, c2, c3, h1, h2, hp]
  simp only [Bool.false_eq_true, if_false, if_true]
  generalize rne (1 / 100000) = k at *
  have kpos : 0 < k := lt_trans (by norm_num) l2
  have hk : 1 ≤ ph / k := by rw [le_div_iff₀ kpos]; linarith
  have hk2 : ph / k ≤ 2 ^ 80 := by
    rw [div_le_iff₀ kpos]
    have : (2:ℚ) ^ 80 * (1 / 2 ^ 20) ≤ 2 ^ 80 * k := by gcongr
    norm_num at this p1 ⊢; linarith
  rw [div_fin kpos.ne' (by rw [abs_of_nonneg (by linarith)]; refine hk2.trans (by norm_num))]
  have hr : 1 ≤ rne (ph / k) := by
    have := rne_mono hk
    have t : rne 1 = 1 := by decide +kernel
    rwa [t] at this
  have cl : clampN (.fin (rne (ph / k))) = .fin 1 := by
    unfold clampN
    have a : F32.lt (.fin (rne (ph / k))) (.fin 0) = false := by simp [F32.lt]; linarith
    rw [a]
    by_cases c : F32.lt (.fin 1) (.fin (rne (ph / k))) = true
    · simp [c]
    · rw [if_neg (by simp), if_neg c]
      have : rne (ph / k) ≤ 1 := by simpa [F32.lt] using c
      rw [le_antisymm this hr]
  rw [cl]
  have z : F32.sub (.fin 1) (.fin 1) = .fin 0 := by decide +kernel
  rw [z, mul_zero_fin, mul_fin (by rw [one_mul]; refine b1.trans (by norm_num)), one_mul, show rne w1 = w1 from i1,
    add_fin (by rw [zero_add]; refine b1.trans (by norm_num)), zero_add, show rne w1 = w1 from i1]

/-- C73 (refuted): every second step runs at about 100 times the set rate instead of being shortened by the shuffle: the speed factor of an odd step
is `1 / 0.01` for every start phase from 0 to 1. -/
theorem C73_odd_steps_race (start : ℚ) (h0 : 0 ≤ start) (h1 : start ≤ 1) : ∃ m, stepMult 1 (.fin start) = .fin m ∧ 99 < m := by
  unfold stepMult
  rw [if_pos (by norm_num), flit_half, mul_fin (by rw [abs_of_nonneg (by linarith)]; norm_num; linarith)]
  have r0 : 0 ≤ rne (1 / 2 * start) := rne_nonneg (by linarith)
  have r1 : rne (1 / 2 * start) ≤ 1 / 2 := by
    have := rne_mono (show 1 / 2 * start ≤ 1 / 2 by linarith)
    have t : rne (1 / 2) = 1 / 2 := by decide +kernel
    rwa [t] at this
  rw [sub_fin (by norm_num) (by rw [abs_of_nonneg r0]; norm_num; linarith)]
  have r2 : 1 / 2 ≤ rne (1 - rne (1 / 2 * start)) := by
    have := rne_mono (show 1 / 2 ≤ 1 - rne (1 / 2 * start) by linarith)
    have t : rne (1 / 2) = 1 / 2 := by decide +kernel
    rwa [t] at this
  have e : minSs (flit (1 / 100)) (.fin (rne (1 - rne (1 / 2 * start)))) = flit (1 / 100) := by
    have f : flit (1 / 100) = .fin (rne (1 / 100)) := flit_eq (by norm_num)
    have l : rne (1 / 100) < 1 / 2 := by decide +kernel
    rw [f]
    unfold minSs
    simp [F32.lt]; intros; linarith
  rw [e]
  exact ⟨rne (1 / rne (1 / 100)), by decide +kernel, by decide +kernel⟩

/-- C73 (refuted for some loop points): an attack with trigger mode random panics when the loop ends at step 0, and one with free run
panics when the loop ends before it starts. -/
theorem C73_loop_panics (E : Env) (s : St) (r : Rand) (slider rate : F32) :
    (s.seq.loopEnd = 0 → randomMode s r = .panic "remainder by zero") ∧
    (s.seq.loopEnd < s.seq.loopStart → ∃ w, freeRun E s slider rate = .panic w) := by
  constructor
  · intro h; unfold randomMode; rw [if_pos h]
  · intro h
    unfold freeRun
    dsimp only
    generalize splitFloat _ = x
    cases x with
    | ok a => exact ⟨"usize subtract overflow", by rw [Res.ok_bind, if_pos h]⟩
    | err e => exact e.elim
    | panic w => exact ⟨w, rfl⟩

/-! ## The hypotheses are met -/

def demoSeq : Seq := { Seq.default with loopEnd := 2, trigmask := 0x100000005#64, steps := fun i => .fin (i.1 / 16) }

def demoSt : St := { new (demoParams (.int 7) (.float (.fin 0)) false) with seq := demoSeq }

/-- C73_attack_plays_first, C73_plays_in_order, C73_retriggers: a note followed by blocks that end a step. -/
example : ∃ t u, getShape demoSt = .ok .stepseq ∧ Spec.LoopOk demoSt.seq ∧ attack 9 demoEnv ⟨.fin 0, fun _ => .fin 0⟩ demoSt = .ok t ∧ Spec.Plays t 0 0 ∧ t.phaseInit = true ∧
    Spec.Crosses { t with phase := .fin 1 } (.fin (1 / 4)) ∧ process 9 demoEnv ⟨.fin 0, fun _ => .fin 0⟩ { t with phase := .fin 1 } = .ok u := by
  have h : (attack 9 demoEnv ⟨.fin 0, fun _ => .fin 0⟩ demoSt >>= fun t => process 9 demoEnv ⟨.fin 0, fun _ => .fin 0⟩ { t with phase := .fin 1 }).isOk = true := by decide +kernel
  obtain ⟨u, hu⟩ := exists_of_isOk h
  rw [bind_ok] at hu
  obtain ⟨t, ht, hu⟩ := hu
  have hl : Spec.LoopOk demoSt.seq := by unfold Spec.LoopOk demoSt demoSeq Seq.default; simp
  have hp : (attack 9 demoEnv ⟨.fin 0, fun _ => .fin 0⟩ demoSt >>= fun t => Res.ok (ε := Empty) (t.phaseInit, decide (F32.lt (.fin 1) (F32.add (.fin 1) (F32.mul (.fin (1 / 4)) t.ratemult)) = true))) = .ok (true, true) := by
    decide +kernel
  rw [ht] at hp
  simp only [Res.ok_bind, Res.ok.injEq, Prod.mk.injEq, decide_eq_true_eq] at hp
  exact ⟨t, u, rfl, hl, ht, (C73_attack_plays_first _ _ _ _ _ hl rfl rfl ht).2, hp.1, hp.2, hu⟩

/-- C73_step_in_range: histories with pattern changes. -/
example : ∃ s, Spec.Patterns [.pattern demoSeq, .attack 9 demoEnv ⟨.fin 0, fun _ => .fin 0⟩] ∧
    runs [.pattern demoSeq, .attack 9 demoEnv ⟨.fin 0, fun _ => .fin 0⟩] (new (demoParams (.int 7) (.float (.fin 0)) false)) = .ok s := by
  have h : (runs [.pattern demoSeq, .attack 9 demoEnv ⟨.fin 0, fun _ => .fin 0⟩] (new (demoParams (.int 7) (.float (.fin 0)) false))).isOk = true := by decide +kernel
  obtain ⟨s, hs⟩ := exists_of_isOk h
  exact ⟨s, ⟨by unfold Spec.LoopOk demoSeq Seq.default; simp, trivial⟩, hs⟩

/-- C73_holds_step. -/
example : ∃ s : St, s.p.val .deform = .float (.fin 0) ∧ s.wf1 = .fin 1 ∧ s.wf2 = .fin 0 ∧ s.phase = .fin (1 / 2) :=
  ⟨{ demoSt with wf1 := .fin 1, phase := .fin (1 / 2) }, rfl, rfl, rfl, rfl⟩

end Verif.Lfo
