import Verif.Adsr.Level
import Mathlib.Algebra.Order.Archimedean.Basic
/-!
# The envelope (C35, C69, C70)
-/
namespace Verif.Adsr
open Verif.Float Verif.Dsp Verif.Param

/-! ## C35: stage order -/

/-- The calls that do not start the envelope again. -/
inductive Call where
  | release | uberRelease | block

/-- A call. -/
def Call.run (E : Env) (s : St) : Call → Res Empty St
  | .release => Adsr.release s
  | .uberRelease => Adsr.uberRelease s
  | .block => processBlock E s

/-- A history of calls: every state it passes through. -/
inductive Passes (E : Env) : St → List St → Prop where
  | done (s : St) : Passes E s []
  | step {s s' : St} (c : Call) {l : List St} : c.run E s = .ok s' → Passes E s' l → Passes E s (s' :: l)

theorem processAnalog_stage {E : Env} {s s' : St} (h : processAnalog E s = .ok s') :
    s'.stage = s.stage ∨ s'.stage = .idle := by
  unfold processAnalog at h
  cases ha : pvalf s.p.attack with
  | err e => exact e.elim
  | panic w => simp [ha] at h
  | ok a =>
  cases hd : pvalf s.p.decay with
  | err e => exact e.elim
  | panic w => simp [ha, hd] at h
  | ok d =>
  cases hs : pvalf s.p.sustain with
  | err e => exact e.elim
  | panic w => simp [ha, hd, hs] at h
  | ok su =>
  cases hr : pvalf s.p.release with
  | err e => exact e.elim
  | panic w => simp [ha, hd, hs, hr] at h
  | ok r =>
  simp only [ha, hd, hs, hr, Res.ok_bind] at h
  split at h
  · unfold chkI32 at h
    split at h
    · simp only [Res.ok_bind, Res.ok.injEq] at h; right; rw [← h]
    · simp at h
  · simp only [Res.ok.injEq] at h; left; rw [← h]

theorem processDigital_panics (E : Env) (s : St) : ∀ s', processDigital E s ≠ .ok s' := by
  intro s' h
  unfold processDigital at h
  cases hx : digitalStage E s with
  | err e => exact e.elim
  | panic w => simp [hx] at h
  | ok a => simp [hx, getOutput] at h

theorem call_stage {E : Env} {s s' : St} (c : Call) (h : c.run E s = .ok s') : s'.stage = s.stage ∨ s'.stage = .idle := by
  cases c with
  | release => simp [Call.run, Adsr.release, getOutput] at h
  | uberRelease => simp [Call.run, Adsr.uberRelease, getOutput] at h
  | block =>
    simp only [Call.run, processBlock] at h
    cases hm : pvalb s.p.mode with
    | err e => exact e.elim
    | panic w => simp [hm] at h
    | ok m =>
      simp only [hm, Res.ok_bind] at h
      split at h
      · exact processAnalog_stage h
      · exact absurd h (processDigital_panics E s s')

/-- C35. Along every history of calls that return, without an attack or a retrigger, the stage only moves forward; more
precisely it stays or becomes idle - for every parameter setting. -/
theorem C35_stage_only_forward_partial {E : Env} {s : St} {l : List St} (h : Passes E s l) :
    (∀ s' ∈ l, s.stage.rank ≤ s'.stage.rank ∧ (s'.stage = s.stage ∨ s'.stage = .idle)) ∧
    l.Pairwise (fun a b => a.stage.rank ≤ b.stage.rank) := by
  induction h with
  | done => exact ⟨by simp, List.Pairwise.nil⟩
  | @step s s' c l hc hp ih =>
    have top : ∀ x : Stage, x.rank ≤ Stage.idle.rank := by intro x; cases x <;> decide
    have h1 := call_stage c hc
    have h2 : s.stage.rank ≤ s'.stage.rank := by
      rcases h1 with h1 | h1
      · rw [h1]
      · rw [h1]; exact top _
    refine ⟨?_, List.Pairwise.cons (fun x hx => (ih.1 x hx).1) ih.2⟩
    intro x hx
    rcases List.mem_cons.mp hx with rfl | hx
    · exact ⟨h2, h1⟩
    · obtain ⟨a, b⟩ := ih.1 x hx
      refine ⟨le_trans h2 a, ?_⟩
      rcases b with b | b
      · rcases h1 with h1 | h1
        · left; rw [b, h1]
        · right; rw [b, h1]
      · exact Or.inr b

/-- C35, the digital stages (whose block function never returns, see below): called in its stage, each goes on or one
step forward, and the phase never leaves the attack above 1. -/
theorem C35_digital_stages_partial (E : Env) (s s' : St) :
    (s.stage = .attack → digitalAttack E s = .ok s' → s'.stage = .attack ∨ (s'.stage = .decay ∧ s'.phase = .fin 1)) ∧
    (digitalDecay E s = .ok s' → s'.stage = s.stage) ∧
    (digitalRelease E s = .ok s' → s'.stage = s.stage ∨ s'.stage = .idle) ∧
    (digitalUber E s = .ok s' → s'.stage = s.stage ∨ s'.stage = .idle) := by
  have rel : ∀ rate, releaseStep s rate = .ok s' → s'.stage = s.stage ∨ s'.stage = .idle := by
    intro rate h
    unfold releaseStep at h
    cases hp : pvali s.p.releaseShape with
    | err e => exact e.elim
    | panic w => simp [hp] at h
    | ok n =>
      simp only [hp, Res.ok_bind, Res.ok.injEq] at h
      rw [← h]
      split <;> simp
  refine ⟨?_, ?_, ?_, fun h => rel _ h⟩
  · intro hs h
    unfold digitalAttack at h
    cases ha : pvalf s.p.attack with
    | err e => exact e.elim
    | panic w => simp [ha] at h
    | ok a =>
    simp only [ha, Res.ok_bind] at h
    have shape : ∀ t : St, shapeAttack E t = .ok s' → s'.stage = t.stage ∧ s'.phase = t.phase := by
      intro t ht
      unfold shapeAttack at ht
      cases hk : pvali t.p.attackShape with
      | err e => exact e.elim
      | panic w => simp [hk] at ht
      | ok k =>
        simp only [hk, Res.ok_bind] at ht
        split_ifs at ht <;> first
          | (simp only [Res.ok.injEq] at ht; rw [← ht]; exact ⟨rfl, rfl⟩)
    split at h
    · obtain ⟨h1, _⟩ := shape _ h
      left; rw [h1]; exact hs
    · cases hsu : pvalf s.p.sustain with
      | err e => exact e.elim
      | panic w => simp [hsu] at h
      | ok su =>
        simp only [hsu, Res.ok_bind] at h
        obtain ⟨h1, h2⟩ := shape _ h
        right; exact ⟨h1, h2⟩
  · intro h
    unfold digitalDecay at h
    cases ha : pvalf s.p.sustain with
    | err e => exact e.elim
    | panic w => simp [ha] at h
    | ok a =>
    cases hd : pvalf s.p.decay with
    | err e => exact e.elim
    | panic w => simp [ha, hd] at h
    | ok d =>
    cases hk : pvali s.p.decayShape with
    | err e => exact e.elim
    | panic w => simp [ha, hd, hk] at h
    | ok k =>
    simp only [ha, hd, hk, Res.ok_bind, Res.ok.injEq] at h
    rw [← h]
  · intro h
    unfold digitalRelease at h
    cases ha : pvalf s.p.release with
    | err e => exact e.elim
    | panic w => simp [ha] at h
    | ok a => simp only [ha, Res.ok_bind] at h; exact rel _ h

/-- C35 is false of the code in that the later stages cannot be reached by the calls meant for it: `release` and
`uber_release` always panic (they ask the unwritten `get_output`), a block in digital mode always panics, and a block of
a new envelope panics because its mode is not a switch. -/
theorem C35_release_and_blocks_panic (E : Env) (s : St) :
    release s = .panic "not yet implemented" ∧ uberRelease s = .panic "not yet implemented" ∧
    (s.p.mode = .bool false → ∀ s', processBlock E s ≠ .ok s') ∧
    processBlock E new = .panic "explicit panic" := by
  refine ⟨rfl, rfl, fun h s' hs => ?_, rfl⟩
  simp only [processBlock, h, pvalb, Res.ok_bind, Bool.false_eq_true, if_false] at hs
  exact processDigital_panics E s s' hs

/-- C35. A retrigger starts again exactly from the attack, decay and sustain stages (the gate is still held) and does nothing to a
released or idle envelope; an attack always starts at level 0 in the attack stage, or, when the attack time is within 0.01
of its minimum, at level 1 in the decay stage. -/
theorem C35_retrigger_partial (s : St) {v m : F32} (hv : s.p.attack = .float v) (hm : s.p.attackMin = .float m) :
    (s.stage ≠ .attack ∧ s.stage ≠ .decay ∧ s.stage ≠ .sustain → retrigger s = .ok s) ∧
    (s.stage = .attack ∨ s.stage = .decay ∨ s.stage = .sustain → ∃ s', retrigger s = .ok s' ∧ attack s = .ok s') ∧
    (∃ s', attack s = .ok s' ∧ s'.p = s.p ∧ s'.idlecount = 0 ∧
      (F32.lt (F32.sub v m) (flit (1 / 100)) = false → s'.stage = .attack ∧ s'.output = .fin 0 ∧ s'.phase = .fin 0) ∧
      (F32.lt (F32.sub v m) (flit (1 / 100)) = true → s'.stage = .decay ∧ s'.output = .fin 1 ∧ s'.phase = .fin 1)) := by
  have ha : ∃ s', attack s = .ok s' ∧ s'.p = s.p ∧ s'.idlecount = 0 ∧
      (F32.lt (F32.sub v m) (flit (1 / 100)) = false → s'.stage = .attack ∧ s'.output = .fin 0 ∧ s'.phase = .fin 0) ∧
      (F32.lt (F32.sub v m) (flit (1 / 100)) = true → s'.stage = .decay ∧ s'.output = .fin 1 ∧ s'.phase = .fin 1) := by
    unfold attack
    simp only [hv, hm, pvalf, Res.ok_bind]
    cases h : F32.lt (F32.sub v m) (flit (1 / 100)) <;> simp
  refine ⟨?_, ?_, ha⟩
  · rintro ⟨h1, h2, h3⟩
    cases h : s.stage <;> simp_all [retrigger, Stage.rank]
  · obtain ⟨s', hs', -⟩ := ha
    rintro (h | h | h) <;> exact ⟨s', by simp [retrigger, h, Stage.rank, hs'], hs'⟩

/-! ## C69: the level of the analog envelope -/

/-- The parameters are numbers, the sustain level is between 0 and 1, and the three speeds are between 0 and 1. -/
structure Sane (E : Env) (p : Params) : Prop where
  attack : ∃ a c, p.attack = .float a ∧ coef E a p.syncA = .fin c ∧ 0 ≤ c ∧ c ≤ 1
  attackMin : ∃ a, p.attackMin = .float a
  decay : ∃ a c, p.decay = .float a ∧ coef E a p.syncD = .fin c ∧ 0 ≤ c ∧ c ≤ 1
  release : ∃ a c, p.release = .float a ∧ coef E a p.syncR = .fin c ∧ 0 ≤ c ∧ c ≤ 1
  sustain : ∃ q, p.sustain = .float (.fin q) ∧ 0 ≤ q ∧ q ≤ 1

/-- Speeds are between 0 and 1 for all finite settings if the platform's `2^x` is for `x ≤ 0`. -/
theorem coef_unit (E : Env) (hpow : ∀ q : ℚ, q ≤ 0 → ∃ y, E.fns.pow2 (.fin q) = .fin y ∧ 0 ≤ y ∧ y ≤ 1)
    {o l t : ℚ} (sync : Bool) (ho : coeffOffset E = .fin o) (ht : tsync E sync = .fin t) (bo : |o| ≤ 2 ^ 20) (bl : |l| ≤ 2 ^ 20)
    (bt : |t| ≤ 2 ^ 20) : ∃ c, coef E (.fin l) sync = .fin c ∧ 0 ≤ c ∧ c ≤ 1 := by
  unfold coef
  have bm : |l * t| ≤ 2 ^ 40 := by
    rw [abs_mul]; have := mul_le_mul bl bt (abs_nonneg _) (by norm_num); norm_num at this ⊢; linarith
  rw [ho, ht, mul_fin (le_trans bm (by norm_num)),
    sub_fin (le_trans bo (by norm_num)) (le_trans (rne_abs bm) (by norm_num))]
  generalize rne (o - rne (l * t)) = x
  have : ∃ q : ℚ, min0 (.fin x) = .fin q ∧ q ≤ 0 := by
    unfold min0
    dsimp only
    by_cases h : x < 0
    · exact ⟨x, by simp [F32.lt, h], h.le⟩
    · exact ⟨0, by simp [F32.lt, h], le_rfl⟩
  obtain ⟨q, hq, h0⟩ := this
  rw [hq]
  exact hpow q h0

/-- What a host can do to an analog envelope. The stages of the release are set directly, because `release` and
`uber_release` do not work. -/
inductive Op where
  | attack | retrigger | setRelease | setUber | params (p : Params) | block

/-- One of these calls. -/
def Op.run (E : Env) (s : St) : Op → Res Empty St
  | .attack => Adsr.attack s
  | .retrigger => Adsr.retrigger s
  | .setRelease => .ok (setEnvstate s .release)
  | .setUber => .ok (setEnvstate s .uberRelease)
  | .params p => .ok { s with p := p }
  | .block => processAnalog E s

/-- A history. -/
def runOps (E : Env) : St → List Op → Res Empty St
  | s, [] => .ok s
  | s, o :: os => o.run E s >>= fun s' => runOps E s' os

/-- The invariant of the analog envelope. -/
structure Inv (E : Env) (s : St) : Prop where
  sane : Sane E s.p
  level : ∃ v, s.vC1 = .fin v ∧ Spec.IsF32 v ∧ -8 ≤ v ∧ v ≤ 3 / 2 ∧ (isGate s = true → 0 ≤ v)
  out : ∃ o, s.output = .fin o ∧ 0 ≤ o ∧ o ≤ 3 / 2
  idle : 0 ≤ s.idlecount

theorem silence_lit : ∃ t : ℚ, flit (1 / 1000000) = .fin t ∧ 1 / 2 ^ 20 < t ∧ t ≤ 1 / 900000 := by
  refine ⟨rne (1 / 1000000), flit_eq (by norm_num), ?_, ?_⟩ <;> decide +kernel

/-- What a block does, by cases; everything else follows from this. -/
theorem block_cases {E : Env} {s : St} (h : Inv E s) :
    ∃ v v' : ℚ, s.vC1 = .fin v ∧ Spec.IsF32 v ∧ Spec.IsF32 v' ∧ -8 ≤ v' ∧ v' ≤ 3 / 2 ∧
      ((isGate s = true ∧ 0 ≤ v ∧ 0 ≤ v' ∧ (s.discharge = true ∨ F32.lt (.fin 1) s.vC1Delayed = true ∨ v ≤ v') ∧
          processAnalog E s = .ok { s with vC1 := .fin v', vC1Delayed := .fin v, discharge := (F32.lt (.fin 1) s.vC1Delayed || s.discharge), output := .fin v' }) ∨
       (isGate s = false ∧ 0 ≤ v' ∧ v' ≤ v ∧ s.stage ≠ .uberRelease ∧ ¬ F32.lt (.fin v') (flit (1 / 1000000)) = true ∧
          processAnalog E s = .ok { s with vC1 := .fin v', vC1Delayed := .fin v, discharge := false, output := .fin v' }) ∨
       (isGate s = false ∧ F32.lt (.fin v') (flit (1 / 1000000)) = true ∧
          processAnalog E s = (chkI32 (s.idlecount + 1) >>= fun n =>
            .ok { s with vC1 := .fin v', vC1Delayed := .fin v, discharge := false, stage := .idle, output := .fin 0, idlecount := n }))) ∧
      (isGate s = false → s.stage ≠ .uberRelease → 0 ≤ v → ∃ a r, s.p.release = .float a ∧ coef E a s.p.syncR = .fin r ∧
        v' = rne (v - rne (v * r))) ∧
      (isGate s = false → s.stage = .uberRelease ∨ v ≤ 0 → v' ≤ 0) := by
  obtain ⟨⟨⟨pa, ca, ea, eca, a0, a1⟩, _, ⟨pd, cd, ed, ecd, d0, d1⟩, ⟨pr, cr, er, ecr, r0, r1⟩, ⟨su, es, s0, s1⟩⟩,
    ⟨v, hv, iv, v0, v1, vg⟩, _, _⟩ := h
  obtain ⟨t, ht, t0, t1⟩ := silence_lit
  have tpos : 0 < t := lt_trans (by norm_num) t0
  have main : processAnalog E s =
      (let x := analogStep (isGate s) (.fin ca) (.fin cd) (coefRelease E s pr) (.fin su) (.fin v) s.vC1Delayed s.discharge
       let s1 := { s with vC1 := x.1, vC1Delayed := x.2.1, discharge := x.2.2, output := x.1 }
       if isGate s = false ∧ s1.discharge = false ∧ F32.lt s1.vC1 (flit (1 / 1000000)) = true then
         chkI32 (s1.idlecount + 1) >>= fun n => .ok { s1 with stage := .idle, output := .fin 0, idlecount := n }
       else .ok s1) := by
    unfold processAnalog
    rw [ea, ed, es, er]
    simp only [pvalf, Res.ok_bind, eca, ecd, hv]
  rw [main]
  have neg0 : ∀ x : ℚ, x ≤ 0 → F32.lt (.fin x) (flit (1 / 1000000)) = true := by
    intro x hx; rw [ht]; simp only [F32.lt, decide_eq_true_eq]; linarith
  cases hg : isGate s with
  | true =>
    have n0 := vg hg
    have hns : s.stage ≠ .uberRelease := by
      intro hs; rw [isGate, hs] at hg; simp at hg
    rw [show coefRelease E s pr = .fin cr by unfold coefRelease; rw [if_neg hns, ecr]]
    by_cases hd : (F32.lt (.fin 1) s.vC1Delayed || s.discharge) = true
    · obtain ⟨v', hx, iv', w0, w1, _, _⟩ := analog_decay (a := ca) (r := cr) iv n0 v1 s0 s1 d0 d1 hd
      refine ⟨v, v', hv, iv, iv', by linarith, w1, Or.inl ⟨rfl, n0, w0, ?_, ?_⟩, by simp, by simp⟩
      · rw [Bool.or_eq_true] at hd; tauto
      · simp only [hx, Bool.true_eq_false, false_and, if_false, hd]
    · have hd1 : F32.lt (.fin 1) s.vC1Delayed = false ∧ s.discharge = false := by
        rw [Bool.or_eq_true] at hd; push Not at hd
        exact ⟨Bool.eq_false_iff.mpr hd.1, Bool.eq_false_iff.mpr hd.2⟩
      obtain ⟨v', hx, iv', w0, w1⟩ := analog_attack (d := cd) (r := cr) (s := .fin su) iv n0 v1 a0 a1 hd1.1
      refine ⟨v, v', hv, iv, iv', by linarith, w1, Or.inl ⟨rfl, n0, by linarith, Or.inr (Or.inr w0), ?_⟩, by simp, by simp⟩
      rw [hd1.1, hd1.2]
      simp only [hx, Bool.true_eq_false, false_and, if_false, Bool.or_self]
  | false =>
    -- the idle branch, from a step to a small voltage
    have fin : ∀ v' : ℚ, analogStep false (.fin ca) (.fin cd) (coefRelease E s pr) (.fin su) (.fin v) s.vC1Delayed s.discharge
          = (.fin v', .fin v, false) → F32.lt (.fin v') (flit (1 / 1000000)) = true →
        (let x := analogStep false (.fin ca) (.fin cd) (coefRelease E s pr) (.fin su) (.fin v) s.vC1Delayed s.discharge
         let s1 := { s with vC1 := x.1, vC1Delayed := x.2.1, discharge := x.2.2, output := x.1 }
         if false = false ∧ s1.discharge = false ∧ F32.lt s1.vC1 (flit (1 / 1000000)) = true then
           chkI32 (s1.idlecount + 1) >>= fun n => .ok { s1 with stage := .idle, output := .fin 0, idlecount := n }
         else .ok s1 : Res Empty St) = (chkI32 (s.idlecount + 1) >>= fun n =>
            .ok { s with vC1 := .fin v', vC1Delayed := .fin v, discharge := false, stage := .idle, output := .fin 0, idlecount := n }) := by
      intro v' hx hl
      simp only [hx, hl, and_self, if_true]
    rcases le_or_gt v 0 with hn | hp
    · -- nonpositive voltage
      have hr : ∃ r : ℚ, coefRelease E s pr = .fin r := by
        unfold coefRelease; split_ifs
        · exact ⟨6, rfl⟩
        · exact ⟨cr, ecr⟩
      obtain ⟨r, hr⟩ := hr
      obtain ⟨v', hx, iv', w0, w1⟩ := analog_negative (d := cd) (r := r) (s := .fin su) (delayed := s.vC1Delayed)
        (dis := s.discharge) iv v0 hn a0 a1
      rw [← hr] at hx
      refine ⟨v, v', hv, iv, iv', by linarith, by linarith, Or.inr (Or.inr ⟨rfl, neg0 v' w1, fin v' hx (neg0 v' w1)⟩), ?_,
        fun _ _ => w1⟩
      intro _ _ h0
      refine ⟨pr, cr, er, ecr, ?_⟩
      have : v = 0 := le_antisymm hn h0
      have h1 : v' = 0 := le_antisymm w1 (by linarith)
      rw [h1, this]; simp
    · by_cases hu : s.stage = .uberRelease
      · obtain ⟨v', hx, iv', w0, w1⟩ := analog_uber (a := ca) (d := cd) (s := .fin su) (delayed := s.vC1Delayed)
          (dis := s.discharge) iv hp.le v1
        rw [show (F32.fin 6) = coefRelease E s pr by unfold coefRelease; rw [if_pos hu]] at hx
        exact ⟨v, v', hv, iv, iv', w0, by linarith, Or.inr (Or.inr ⟨rfl, neg0 v' w1, fin v' hx (neg0 v' w1)⟩),
          fun _ h => absurd hu h, fun _ _ => w1⟩
      · obtain ⟨v', hx, iv', w0, w1, w2⟩ := analog_release (a := ca) (d := cd) (s := .fin su) (delayed := s.vC1Delayed)
          (dis := s.discharge) iv hp.le v1 r0 r1
        rw [show (F32.fin cr) = coefRelease E s pr by unfold coefRelease; rw [if_neg hu, ecr]] at hx
        refine ⟨v, v', hv, iv, iv', by linarith, by linarith, ?_, fun _ _ _ => ⟨pr, cr, er, ecr, w2⟩, ?_⟩
        · by_cases hl : F32.lt (.fin v') (flit (1 / 1000000)) = true
          · exact Or.inr (Or.inr ⟨rfl, hl, fin v' hx hl⟩)
          · refine Or.inr (Or.inl ⟨rfl, w0, w1, hu, hl, ?_⟩)
            have hl' := Bool.eq_false_iff.mpr hl
            simp only [hx, hl', Bool.false_eq_true, and_false, if_false]
        · rintro _ (h | h)
          · exact absurd h hu
          · linarith

theorem block_inv {E : Env} {s s' : St} (h : Inv E s) (hb : processAnalog E s = .ok s') : Inv E s' := by
  obtain ⟨v, v', hv, iv, iv', w0, w1, hc, _⟩ := block_cases h
  rcases hc with ⟨hg, n0, n1, _, e⟩ | ⟨hg, n0, _, _, _, e⟩ | ⟨hg, _, e⟩
  · rw [e] at hb; simp only [Res.ok.injEq] at hb; subst hb
    exact ⟨h.sane, ⟨v', rfl, iv', w0, w1, fun _ => n1⟩, ⟨v', rfl, n1, w1⟩, h.idle⟩
  · rw [e] at hb; simp only [Res.ok.injEq] at hb; subst hb
    exact ⟨h.sane, ⟨v', rfl, iv', w0, w1, fun _ => n0⟩, ⟨v', rfl, n0, w1⟩, h.idle⟩
  · rw [e] at hb
    unfold chkI32 at hb
    split at hb
    · simp only [Res.ok_bind, Res.ok.injEq] at hb; subst hb
      exact ⟨h.sane, ⟨v', rfl, iv', w0, w1, fun hh => absurd hh (by simp [isGate])⟩, ⟨0, rfl, le_rfl, by norm_num⟩, by have := h.idle; simp only; omega⟩
    · simp at hb

theorem isF32_zero : Spec.IsF32 0 := rne_zero

theorem attack_inv {E : Env} {s s' : St} (h : Inv E s) (ha : attack s = .ok s') : Inv E s' := by
  unfold attack at ha
  obtain ⟨a, _, e1, _⟩ := h.sane.attack
  obtain ⟨b, e2⟩ := h.sane.attackMin
  simp only [e1, e2, pvalf, Res.ok_bind] at ha
  split at ha
  · simp only [Res.ok.injEq] at ha; subst ha
    exact ⟨h.sane, ⟨0, rfl, isF32_zero, by norm_num, by norm_num, fun _ => le_rfl⟩, ⟨1, rfl, by norm_num, by norm_num⟩, le_rfl⟩
  · simp only [Res.ok.injEq] at ha; subst ha
    exact ⟨h.sane, ⟨0, rfl, isF32_zero, by norm_num, by norm_num, fun _ => le_rfl⟩, ⟨0, rfl, by norm_num, by norm_num⟩, le_rfl⟩

theorem op_inv {E : Env} {s s' : St} (h : Inv E s) (o : Op) (ho : ∀ p, o = .params p → Sane E p) (hr : o.run E s = .ok s') :
    Inv E s' := by
  cases o with
  | attack => exact attack_inv h hr
  | retrigger =>
    simp only [Op.run, retrigger] at hr
    split at hr
    · exact attack_inv h hr
    · simp only [Res.ok.injEq] at hr; subst hr; exact h
  | setRelease =>
    simp only [Op.run, Res.ok.injEq] at hr; subst hr
    obtain ⟨v, a, b, c, d, _⟩ := h.level
    exact ⟨h.sane, ⟨v, a, b, c, d, fun hh => absurd hh (by simp [isGate, setEnvstate])⟩, h.out, h.idle⟩
  | setUber =>
    simp only [Op.run, Res.ok.injEq] at hr; subst hr
    obtain ⟨v, a, b, c, d, _⟩ := h.level
    exact ⟨h.sane, ⟨v, a, b, c, d, fun hh => absurd hh (by simp [isGate, setEnvstate])⟩, h.out, h.idle⟩
  | params p =>
    simp only [Op.run, Res.ok.injEq] at hr; subst hr
    exact ⟨ho p rfl, h.level, h.out, h.idle⟩
  | block => exact block_inv h hr

theorem runOps_inv {E : Env} : ∀ (os : List Op) {s s' : St}, Inv E s → (∀ p, Op.params p ∈ os → Sane E p) →
    runOps E s os = .ok s' → Inv E s' := by
  intro os
  induction os with
  | nil => intro s s' h _ hr; simp only [runOps, Res.ok.injEq] at hr; exact hr ▸ h
  | cons o os ih =>
    intro s s' h hp hr
    unfold runOps at hr
    cases ho : o.run E s with
    | err e => exact e.elim
    | panic w => simp [ho] at hr
    | ok t =>
      simp only [ho, Res.ok_bind] at hr
      exact ih (op_inv h o (fun p e => hp p (by simp [e])) ho) (fun p hm => hp p (by simp [hm])) hr

theorem new_inv {E : Env} (hE : Sane E defaultParams) : Inv E new :=
  ⟨hE, ⟨0, rfl, isF32_zero, by norm_num, by norm_num, fun _ => le_rfl⟩, ⟨0, rfl, le_rfl, by norm_num⟩, le_rfl⟩

/-- Every such history returns, as long as the envelope has not been idle for 2^31 blocks: nothing but the idle
counter can fail. -/
theorem block_returns_inv {E : Env} {s : St} (h : Inv E s) (hc : s.idlecount < 2 ^ 31 - 1) :
    ∃ s', processAnalog E s = .ok s' ∧ s.idlecount ≤ s'.idlecount ∧ s'.idlecount ≤ s.idlecount + 1 := by
  have hi := h.idle
  obtain ⟨v, v', hv, iv, iv', w0, w1, hcs, _⟩ := block_cases h
  rcases hcs with ⟨_, _, _, _, e⟩ | ⟨_, _, _, _, _, e⟩ | ⟨_, _, e⟩
  · exact ⟨_, e, le_rfl, by simp⟩
  · exact ⟨_, e, le_rfl, by simp⟩
  · refine ⟨_, by rw [e, chkI32, if_pos (by omega), Res.ok_bind], ?_, ?_⟩ <;> simp

/-- While the gate is open and the peak has not been reached, the level does not fall. -/
theorem attack_rises_inv {E : Env} {s s' : St} (h : Inv E s) (hg : isGate s = true) (hd : s.discharge = false)
    (hp : F32.lt (.fin 1) s.vC1Delayed = false) (hb : processAnalog E s = .ok s') :
    ∃ v v', s.vC1 = .fin v ∧ s'.output = .fin v' ∧ v ≤ v' ∧ s'.stage = s.stage := by
  obtain ⟨v, v', hv, iv, iv', w0, w1, hcs, _⟩ := block_cases h
  rcases hcs with ⟨_, _, _, m, e⟩ | ⟨hg', _⟩ | ⟨hg', _⟩
  · rw [e] at hb; simp only [Res.ok.injEq] at hb; subst hb
    rcases m with m | m | m
    · rw [hd] at m; simp at m
    · rw [hp] at m; simp at m
    · exact ⟨v, v', hv, rfl, m, rfl⟩
  · rw [hg] at hg'; simp at hg'
  · rw [hg] at hg'; simp at hg'

/-- With the gate open, decay starts only after the level has passed 1, and goes on until the gate closes. -/
theorem decay_latched_inv {E : Env} {s s' : St} (h : Inv E s) (hg : isGate s = true) (hb : processAnalog E s = .ok s') :
    (s'.discharge = true ↔ s.discharge = true ∨ F32.lt (.fin 1) s.vC1Delayed = true) ∧ s'.vC1Delayed = s.vC1 := by
  obtain ⟨v, v', hv, iv, iv', w0, w1, hcs, _⟩ := block_cases h
  rcases hcs with ⟨_, _, _, m, e⟩ | ⟨hg', _⟩ | ⟨hg', _⟩
  · rw [e] at hb; simp only [Res.ok.injEq] at hb; subst hb
    exact ⟨by simp [or_comm], hv.symm⟩
  · rw [hg] at hg'; simp at hg'
  · rw [hg] at hg'; simp at hg'

/-- After the gate has closed the level falls or stays, and the output is the level or silence. -/
theorem release_falls_inv {E : Env} {s s' : St} (h : Inv E s) (hg : isGate s = false) {v : ℚ} (hv : s.vC1 = .fin v) (h0 : 0 ≤ v)
    (hb : processAnalog E s = .ok s') :
    ∃ v' o, s'.vC1 = .fin v' ∧ v' ≤ v ∧ s'.output = .fin o ∧ 0 ≤ o ∧ o ≤ v ∧ (s'.stage = s.stage ∨ s'.stage = .idle ∧ o = 0) := by
  obtain ⟨w, v', hw, iv, iv', w0, w1, hcs, hrel, hub⟩ := block_cases h
  have hwv : w = v := by rw [hv] at hw; simp only [F32.fin.injEq] at hw; exact hw.symm
  subst hwv
  have hle : v' ≤ w := by
    by_cases hu : s.stage = .uberRelease
    · exact le_trans (hub hg (Or.inl hu)) h0
    · obtain ⟨a, r, e1, e2, e3⟩ := hrel hg hu h0
      obtain ⟨a', r', f1, f2, r0, r1⟩ := h.sane.release
      rw [e1] at f1
      simp only [PData.float.injEq] at f1
      rw [← f1, e2] at f2
      simp only [F32.fin.injEq] at f2
      subst f2
      have p0 : 0 ≤ rne (w * r) := rne_nonneg (mul_nonneg h0 r0)
      have := rne_mono (show w - rne (w * r) ≤ w by linarith)
      rw [show rne w = w from iv] at this
      rw [e3]; exact this
  rcases hcs with ⟨hg', _⟩ | ⟨_, n0, _, _, _, e⟩ | ⟨_, _, e⟩
  · rw [hg] at hg'; simp at hg'
  · rw [e] at hb; simp only [Res.ok.injEq] at hb; subst hb
    exact ⟨v', v', rfl, hle, rfl, n0, hle, Or.inl rfl⟩
  · rw [e] at hb
    unfold chkI32 at hb
    split at hb
    · simp only [Res.ok_bind, Res.ok.injEq] at hb; subst hb
      exact ⟨v', 0, rfl, hle, rfl, le_rfl, h0, Or.inr ⟨rfl, rfl⟩⟩
    · simp at hb

/-- An uber-release silences the envelope in one block. -/
theorem uber_release_stops_inv {E : Env} {s : St} (h : Inv E s) (hu : s.stage = .uberRelease)
    (hc : s.idlecount < 2 ^ 31 - 1) :
    ∃ s', processAnalog E s = .ok s' ∧ s'.stage = .idle ∧ s'.output = .fin 0 ∧ isIdle s' = true := by
  obtain ⟨v, v', hv, iv, iv', w0, w1, hcs, _, hub⟩ := block_cases h
  have hi := h.idle
  have hg : isGate s = false := by simp [isGate, hu]
  have hneg := hub hg (Or.inl hu)
  obtain ⟨t, ht, t0, _⟩ := silence_lit
  rcases hcs with ⟨hg', _⟩ | ⟨_, _, _, hu', _⟩ | ⟨_, _, e⟩
  · rw [hg] at hg'; simp at hg'
  · exact absurd hu hu'
  · refine ⟨_, by rw [e, chkI32, if_pos (by omega), Res.ok_bind], rfl, rfl, ?_⟩
    simp [isIdle]; omega

/-- The idle envelope: silent level. -/
def Quiet (s : St) : Prop := s.stage = .idle ∧ ∃ v, s.vC1 = .fin v ∧ F32.lt (.fin v) (flit (1 / 1000000)) = true

/-- An idle envelope stays idle and silent, block after block, until the next attack. -/
theorem idle_stays_inv {E : Env} {s s' : St} (h : Inv E s) (hq : Quiet s) (hb : processAnalog E s = .ok s') :
    Quiet s' ∧ s'.output = .fin 0 ∧ s'.idlecount = s.idlecount + 1 := by
  obtain ⟨v, v', hv, iv, iv', w0, w1, hcs, hrel, hub⟩ := block_cases h
  obtain ⟨hs, u, hu, hlt⟩ := hq
  have huv : u = v := by rw [hu] at hv; simpa using hv
  subst huv
  have hg : isGate s = false := by simp [isGate, hs]
  obtain ⟨t, ht, t0, _⟩ := silence_lit
  have hsmall : F32.lt (.fin v') (flit (1 / 1000000)) = true := by
    rcases hcs with ⟨hg', _⟩ | ⟨_, _, hle, _, hn, _⟩ | ⟨_, hl, _⟩
    · rw [hg] at hg'; simp at hg'
    · rw [ht] at hlt ⊢
      simp only [F32.lt, decide_eq_true_eq] at hlt ⊢
      linarith
    · exact hl
  rcases hcs with ⟨hg', _⟩ | ⟨_, _, _, _, hn, _⟩ | ⟨_, hl, e⟩
  · rw [hg] at hg'; simp at hg'
  · exact absurd hsmall hn
  · rw [e] at hb
    unfold chkI32 at hb
    split at hb
    · simp only [Res.ok_bind, Res.ok.injEq] at hb; subst hb
      exact ⟨⟨rfl, v', rfl, hsmall⟩, rfl, rfl⟩
    · simp at hb

end Verif.Adsr
