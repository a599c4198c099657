import Verif.Lfo.Wrap
import Verif.Fx.ChainProps
/-!
# The envelope of the oscillator (C71)
-/
namespace Verif.Lfo
open Verif.Float Verif.Dsp Verif.Param Verif.Adsr Verif.StepSeq
open Verif.Fx (bind_ok)

/-! ## What each call does to the envelope -/

/-- Same parameters and same envelope. -/
structure EnvSame (s t : St) : Prop where
  p : t.p = s.p
  st : t.envState = s.envState
  val : t.envVal = s.envVal
  ph : t.envPhase = s.envPhase
  rs : t.releaseStart = s.releaseStart

theorem EnvSame.refl (s : St) : EnvSame s s := ⟨rfl, rfl, rfl, rfl, rfl⟩
theorem EnvSame.trans {a b c : St} (h : EnvSame a b) (g : EnvSame b c) : EnvSame a c :=
  ⟨g.p.trans h.p, g.st.trans h.st, g.val.trans h.val, g.ph.trans h.ph, g.rs.trans h.rs⟩

theorem ensurePhase_env {f : Nat} {s t : St} (h : ensurePhase f s = .ok t) : EnvSame s t := by
  unfold ensurePhase initPhase at h
  split at h
  · cases h; exact .refl _
  · simp only [bind_ok] at h
    obtain ⟨_, _, _, _, h⟩ := h
    cases h; exact ⟨rfl, rfl, rfl, rfl, rfl⟩

theorem overStepseq_ok {s t : St} (h : overStepseq s = .ok t) : ∃ t0 t1 t2 start, trigBit s s.step = .ok t0 ∧ trigBit s (16 + s.step) = .ok t1 ∧
    trigBit s (32 + s.step) = .ok t2 ∧ pvalf (s.p.val .startPhase) = .ok start ∧
    t = { s with retriggerFeg := s.retriggerFeg || t0 || t1, retriggerAeg := s.retriggerAeg || t0 || t2, step := if s.seq.loopEnd < s.step + 1 then s.seq.loopStart else s.step + 1, shuffle := (s.shuffle + 1) % 2, ratemult := stepMult ((s.shuffle + 1) % 2) start, wf3 := s.wf2, wf2 := s.wf1, wf1 := s.wf0, wf0 := s.seq.step ((if s.seq.loopEnd < s.step + 1 then s.seq.loopStart else s.step + 1) &&& 15) } := by
  unfold overStepseq at h
  simp only [bind_ok] at h
  obtain ⟨a, ha, b, hb, c, hc, st, hs, h⟩ := h
  cases h
  exact ⟨a, b, c, st, ha, hb, hc, hs, rfl⟩

theorem overOne_env {r : Rand} {s t : St} {sh : Shape} (h : overOne r s sh = .ok t) : EnvSame s t := by
  unfold overOne at h
  dsimp only at h
  cases sh
  case snh => simp only [bind_ok] at h; obtain ⟨_, _, h⟩ := h; cases h; exact ⟨rfl, rfl, rfl, rfl, rfl⟩
  case noise => simp only [bind_ok] at h; obtain ⟨_, _, h⟩ := h; cases h; exact ⟨rfl, rfl, rfl, rfl, rfl⟩
  case stepseq => obtain ⟨_, _, _, _, _, _, _, _, rfl⟩ := overStepseq_ok h; exact ⟨rfl, rfl, rfl, rfl, rfl⟩
  all_goals cases h; exact ⟨rfl, rfl, rfl, rfl, rfl⟩

theorem finish_ok {s t : St} {sh : Shape} {o : F32} (h : finish s sh o = .ok t) : ∃ u m, pvalb (s.p.val .unipolar) = .ok u ∧
    pvalf (s.p.val .magnitude) = .ok m ∧ t = { s with iout := o, output := F32.mul (F32.mul s.envVal m) (if u = true ∧ sh ≠ .stepseq then F32.add (flit (1 / 2)) (F32.mul (flit (1 / 2)) o) else o) } := by
  unfold finish at h
  simp only [bind_ok] at h
  obtain ⟨u, hu, m, hm, h⟩ := h
  cases h
  exact ⟨u, m, hu, hm, rfl⟩

theorem updateEnv_ok {E : Env} {s t : St} (h : updateEnv E s = .ok t) : ∃ r i, envrate E s = .ok r ∧ pvali (s.p.val .sustain) = .ok i ∧
    t = envValue (if F32.lt (.fin 1) (F32.add s.envPhase r) = true then nextEnv { s with envPhase := F32.add s.envPhase r } (F32.ofInt i) else { s with envPhase := F32.add s.envPhase r }) (F32.ofInt i) := by
  unfold updateEnv at h
  simp only [bind_ok] at h
  obtain ⟨r, hr, i, hi, h⟩ := h
  cases h
  exact ⟨r, i, hr, hi, rfl⟩

/-- One block advances the phase, updates the envelope unless it has come to rest, handles the end of a cycle, and computes the output. -/
theorem process_ok {f : Nat} {E : Env} {r : Rand} {s t : St} (h : process f E r s = .ok t) :
    ∃ (s0 s1 s2 s3 : St) (sh : Shape) (q o : F32), ensurePhase f s = .ok s0 ∧ getShape s0 = .ok sh ∧ rateOf E s0.p .rate = .ok q ∧
      s1 = { s0 with retriggerFeg := false, retriggerAeg := false, phase := F32.add s0.phase (F32.mul q s0.ratemult) } ∧
      ((s1.envState = .stuck ∧ s2 = s1) ∨ (s1.envState ≠ .stuck ∧ updateEnv E s1 = .ok s2)) ∧
      ((F32.lt (.fin 1) s2.phase = true ∧ overOne r s2 sh = .ok s3) ∨ (F32.lt (.fin 1) s2.phase = false ∧ s3 = s2)) ∧
      shapeOut E s3 sh = .ok o ∧ finish s3 sh o = .ok t := by
  unfold process advance at h
  simp only [bind_ok] at h
  obtain ⟨⟨s3, sh⟩, ⟨s0, h0, sh', hsh, s1, h1, s2, h2, s3', h3, e⟩, o, ho, hf⟩ := h
  cases e
  unfold setPhase at h1
  simp only [bind_ok] at h1
  obtain ⟨q, hq, h1⟩ := h1
  cases h1
  refine ⟨s0, _, s2, s3, sh, q, o, h0, hsh, hq, rfl, ?_, ?_, ho, hf⟩
  · by_cases c : s0.envState = .stuck
    · rw [if_neg (by simpa using c)] at h2; cases h2; exact .inl ⟨c, rfl⟩
    · rw [if_pos (by simpa using c)] at h2; exact .inr ⟨c, h2⟩
  · cases c : F32.lt (.fin 1) s2.phase
    · rw [if_neg (by simp [c])] at h3; cases h3; exact .inr ⟨rfl, rfl⟩
    · rw [if_pos c] at h3; exact .inl ⟨rfl, h3⟩

/-- The envelope after one block. -/
theorem process_env {f : Nat} {E : Env} {r : Rand} {s t : St} (h : process f E r s = .ok t) :
    (s.envState = .stuck ∧ EnvSame s t) ∨
    (s.envState ≠ .stuck ∧ ∃ a b, EnvSame s a ∧ updateEnv E a = .ok b ∧ EnvSame b t) := by
  obtain ⟨s0, s1, s2, s3, sh, q, o, h0, _, _, e1, h2, h3, _, hf⟩ := process_ok h
  have a0 := ensurePhase_env h0
  have a1 : EnvSame s s1 := a0.trans (by rw [e1]; exact ⟨rfl, rfl, rfl, rfl, rfl⟩)
  have a3 : EnvSame s2 s3 := by
    rcases h3 with ⟨_, h3⟩ | ⟨_, h3⟩
    · exact overOne_env h3
    · rw [h3]; exact .refl _
  have a4 : EnvSame s3 t := by
    obtain ⟨u, m, _, _, e⟩ := finish_ok hf
    rw [e]; exact ⟨rfl, rfl, rfl, rfl, rfl⟩
  rcases h2 with ⟨c, h2⟩ | ⟨c, h2⟩
  · rw [a1.st] at c
    refine .inl ⟨c, ?_⟩
    rw [h2] at a3
    exact (a1.trans a3).trans a4
  · rw [a1.st] at c
    exact .inr ⟨c, s1, s2, a1, h2, a3.trans a4⟩

theorem nextEnv_p (s : St) (x : F32) : (nextEnv s x).p = s.p := by unfold nextEnv; split <;> rfl
theorem envValue_p (s : St) (x : F32) : (envValue s x).p = s.p := by unfold envValue; split <;> rfl
theorem updateEnv_p {E : Env} {s t : St} (h : updateEnv E s = .ok t) : t.p = s.p := by
  obtain ⟨r, i, _, _, rfl⟩ := updateEnv_ok h
  rw [envValue_p]; split
  · rw [nextEnv_p]
  · rfl

theorem process_p {f : Nat} {E : Env} {r : Rand} {s t : St} (h : process f E r s = .ok t) : t.p = s.p := by
  rcases process_env h with ⟨_, h⟩ | ⟨_, a, b, h1, h2, h3⟩
  · exact h.p
  · rw [h3.p, updateEnv_p h2, h1.p]

theorem phaseForAttack_env {f : Nat} {E : Env} {r : Rand} {s t : St} {sh : Shape} {m : Mode} {st rate : F32}
    (h : phaseForAttack f E r s sh m st rate = .ok t) : EnvSame s t := by
  unfold phaseForAttack at h
  simp only [bind_ok] at h
  obtain ⟨sl, _, h⟩ := h
  cases m <;> dsimp only at h
  · unfold freeRun at h
    simp only [bind_ok] at h
    obtain ⟨_, _, h⟩ := h
    split at h
    · cases h
    · cases h; exact ⟨rfl, rfl, rfl, rfl, rfl⟩
  · cases h; exact ⟨rfl, rfl, rfl, rfl, rfl⟩
  · unfold randomMode at h
    split at h
    · cases h
    · cases h; exact ⟨rfl, rfl, rfl, rfl, rfl⟩

theorem attackShape_env {r : Rand} {s t : St} {sh : Shape} {st : F32} (h : attackShape r s sh st = .ok t) : EnvSame s t := by
  unfold attackShape at h
  cases sh
  case sine =>
    dsimp only [attackSine] at h; simp only [bind_ok] at h; obtain ⟨_, _, h⟩ := h; cases h; exact ⟨rfl, rfl, rfl, rfl, rfl⟩
  case tri =>
    dsimp only [attackTri] at h; simp only [bind_ok] at h; obtain ⟨_, _, h⟩ := h
    split at h
    · cases h; exact .refl _
    · cases h; exact ⟨rfl, rfl, rfl, rfl, rfl⟩
  case snh => simp only [bind_ok] at h; obtain ⟨_, _, h⟩ := h; cases h; exact ⟨rfl, rfl, rfl, rfl, rfl⟩
  case noise => simp only [bind_ok] at h; obtain ⟨_, _, h⟩ := h; cases h; exact ⟨rfl, rfl, rfl, rfl, rfl⟩
  case stepseq => cases h; exact ⟨rfl, rfl, rfl, rfl, rfl⟩
  all_goals cases h; exact ⟨rfl, rfl, rfl, rfl, rfl⟩

/-- `attack`, step by step. -/
theorem attack_ok {f : Nat} {E : Env} {r : Rand} {s t : St} (h : attack f E r s = .ok t) :
    ∃ (s0 s1 s2 : St) (sh : Shape) (m : Mode) (start rate d a hh : F32), ensurePhase f s = .ok s0 ∧ getShape s0 = .ok sh ∧
      pvalf (s0.p.val .startPhase) = .ok start ∧ pvalf (s0.p.val .rate) = .ok rate ∧ (pvali (s0.p.val .trigmode) >>= modeOf) = .ok m ∧
      envForAttack { s0 with envState := .delay, envVal := .fin 0, envPhase := .fin 0 } d a hh = .ok s1 ∧
      phaseForAttack f E r s1 sh m start rate = .ok s2 ∧ attackShape r s2 sh start = .ok t := by
  unfold attack at h
  simp only [bind_ok] at h
  obtain ⟨s0, h0, start, hs, sh, hsh, mi, hmi, m, hm, d, _, a, _, hh, _, rate, hr, s1, h1, s2, h2, h3⟩ := h
  exact ⟨s0, s1, s2, sh, m, start, rate, d, a, hh, h0, hsh, hs, hr, by rw [bind_ok]; exact ⟨mi, hmi, hm⟩, h1, h2, h3⟩

theorem envForAttack_ok {s t : St} {d a hh : F32} (h : envForAttack s d a hh = .ok t) :
    t = { s with envState := .decay, envVal := .fin 1 } ∨ t = { s with envState := .hold, envVal := .fin 1 } ∨
      t = { s with envState := .attack } ∨ t = s := by
  unfold envForAttack at h
  simp only [bind_ok] at h
  obtain ⟨dm, _, h⟩ := h
  split at h
  · simp only [bind_ok] at h
    obtain ⟨am, _, h⟩ := h
    split at h
    · simp only [bind_ok] at h
      obtain ⟨hm, _, h⟩ := h
      split at h <;> cases h <;> simp
    · cases h; simp
  · cases h; simp

/-- The envelope after an attack. -/
theorem attack_env {f : Nat} {E : Env} {r : Rand} {s t : St} (h : attack f E r s = .ok t) : t.p = s.p ∧ t.envPhase = .fin 0 ∧
    ((t.envState = .delay ∧ t.envVal = .fin 0) ∨ (t.envState = .attack ∧ t.envVal = .fin 0) ∨
      (t.envState = .hold ∧ t.envVal = .fin 1) ∨ (t.envState = .decay ∧ t.envVal = .fin 1)) := by
  obtain ⟨s0, s1, s2, sh, m, start, rate, d, a, hh, h0, _, _, _, _, h1, h2, h3⟩ := attack_ok h
  have e := (phaseForAttack_env h2).trans (attackShape_env h3)
  have e0 := ensurePhase_env h0
  have ep := e.p; have es := e.st; have ev := e.val; have eh := e.ph
  rcases envForAttack_ok h1 with rfl | rfl | rfl | rfl <;> dsimp only at ep es ev eh <;> rw [ep, es, ev, eh, e0.p] <;> simp

theorem release_env {s t : St} (h : release s = .ok t) : t.p = s.p ∧
    (t = s ∨ t = { s with envState := .release, releaseStart := s.envVal, envPhase := .fin 0 }) := by
  unfold release at h
  simp only [bind_ok] at h
  obtain ⟨x, _, m, _, h⟩ := h
  cases h
  split
  · exact ⟨rfl, .inr rfl⟩
  · exact ⟨rfl, .inl rfl⟩

/-! ## Histories -/

/-- One thing that can happen to an oscillator: a note starts, a block is computed, or the parameters or the step pattern are changed (by the user;
not code of the crate). The surroundings and the random numbers may differ from call to call. -/
inductive Op where
  | attack (fuel : Nat) (E : Env) (r : Rand)
  | block (fuel : Nat) (E : Env) (r : Rand)
  | edit (p : Params)
  | pattern (q : Seq)

def Op.run (s : St) : Op → Res Empty St
  | .attack f E r => Lfo.attack f E r s
  | .block f E r => process f E r s
  | .edit p => .ok { s with p := p }
  | .pattern q => .ok { s with seq := q }

def runs : List Op → St → Res Empty St
  | [], s => .ok s
  | o :: os, s => o.run s >>= runs os

/-- A rate between 0 and `B`. -/
def Spec.RateIn (B : ℚ) (c : Res Empty F32) : Prop := ∀ v, c = .ok v → ∃ q, v = .fin q ∧ 0 ≤ q ∧ q ≤ B

/-- The parameters are in their ranges, as far as the envelope is concerned: the rates of the stages are between 0 and `2^99`,
and the sustain level is 0 or 1. -/
structure Spec.EnvParams (E : Env) (p : Params) : Prop where
  delay : Spec.RateIn (2 ^ 99) (rateOf E p .delay)
  attack : Spec.RateIn (2 ^ 99) (rateOf E p .attack)
  hold : Spec.RateIn (2 ^ 99) (rateOf E p .hold)
  decay : Spec.RateIn (2 ^ 99) (rateOf E p .decay)
  release : Spec.RateIn (2 ^ 99) (rateOf E p .release)
  sustain : ∀ i, p.val .sustain = .int i → i = 0 ∨ i = 1

/-- All blocks of a history find the parameters in range. -/
def Spec.EnvHistory (E : Env) (p : Params) : List Op → Prop
  | [] => True
  | .attack _ _ _ :: os => Spec.EnvHistory E p os
  | .block _ E' _ :: os => E' = E ∧ Spec.EnvParams E p ∧ Spec.EnvHistory E p os
  | .edit p' :: os => Spec.EnvHistory E p' os
  | .pattern _ :: os => Spec.EnvHistory E p os

/-- The stages in order. -/
def Spec.follows : EnvState → EnvState → Prop
  | .delay, .attack => True
  | .attack, .hold => True
  | .hold, .decay => True
  | .decay, .stuck => True
  | .release, .stuck => True
  | a, b => a = b

structure EInv (s : St) : Prop where
  st : s.envState ≠ .release ∧ s.envState ≠ .off
  val : ∃ v, s.envVal = .fin v ∧ 0 ≤ v ∧ v ≤ 1
  ph : ∃ v, s.envPhase = .fin v ∧ Spec.IsF32 v ∧ 0 ≤ v ∧ v ≤ 1

theorem rne_unit {x : ℚ} (h0 : 0 ≤ x) (h1 : x ≤ 1) : 0 ≤ rne x ∧ rne x ≤ 1 := by
  refine ⟨rne_nonneg h0, ?_⟩
  have := rne_mono (show x ≤ ((1:ℤ):ℚ) by push_cast; exact h1)
  rw [rne_intCast 1 (by norm_num)] at this; simpa using this

/-- The decay line stays in the unit interval. -/
theorem decay_unit {v : ℚ} (hv : Spec.IsF32 v) (h0 : 0 ≤ v) (h1 : v ≤ 1) {i : ℤ} (hi : i = 0 ∨ i = 1) :
    ∃ w, F32.add (F32.sub (.fin 1) (.fin v)) (F32.mul (.fin v) (F32.ofInt i)) = .fin w ∧ 0 ≤ w ∧ w ≤ 1 := by
  have b1 := rne_unit (x := 1 - v) (by linarith) (by linarith)
  rw [sub_fin (by norm_num) (by rw [abs_of_nonneg h0]; norm_num; linarith), F32.ofInt_eq (by rcases hi with rfl | rfl <;> norm_num)]
  rcases hi with rfl | rfl
  · rw [mul_fin (by norm_num), show v * ((0:ℤ):ℚ) = 0 by norm_num, rne_zero, add_fin (by rw [abs_of_nonneg (by linarith)]; norm_num; linarith), add_zero, rne_idem]
    exact ⟨_, rfl, b1⟩
  · rw [mul_fin (by rw [abs_of_nonneg (by push_cast; linarith)]; norm_num; linarith), show v * ((1:ℤ):ℚ) = v by norm_num, show rne v = v from hv,
      add_fin (by rw [abs_of_nonneg (by linarith)]; norm_num; linarith)]
    refine ⟨_, rfl, rne_nonneg (by linarith), ?_⟩
    have e := (abs_le.mp (ulp_small (x := 1 - v) (by rw [abs_of_nonneg (by linarith)]; linarith))).2
    have := rne_mono (show rne (1 - v) + v ≤ 1 + 1 / 2 ^ 24 by linarith)
    have t : rne (1 + 1 / 2 ^ 24) = 1 := by decide +kernel
    rwa [t] at this

/-- One update of the envelope before a release. -/
theorem updateEnv_inv {E : Env} {s t : St} (hi : EInv s) (hn : s.envState ≠ .stuck) (hp : Spec.EnvParams E s.p) (h : updateEnv E s = .ok t) :
    EInv t ∧ Spec.follows s.envState t.envState := by
  obtain ⟨r, i, hr, hs, rfl⟩ := updateEnv_ok h
  obtain ⟨v, ev, hv, v0, v1⟩ := hi.ph
  obtain ⟨w, ew, w0, w1⟩ := hi.val
  have hs' : s.p.val .sustain = .int i := by
    cases hc : s.p.val .sustain <;> rw [hc] at hs <;> simp [pvali] at hs
    rw [hs]
  have i01 := hp.sustain i hs'
  obtain ⟨q, rfl, q0, q1⟩ : ∃ q, r = .fin q ∧ 0 ≤ q ∧ q ≤ 2 ^ 99 := by
    unfold envrate at hr
    cases hc : s.envState <;> rw [hc] at hr <;> dsimp only at hr
    · cases hr; exact ⟨0, rfl, le_rfl, by norm_num⟩
    · exact hp.delay _ hr
    · exact hp.attack _ hr
    · exact hp.hold _ hr
    · exact hp.decay _ hr
    · exact hp.release _ hr
    · cases hr; exact ⟨0, rfl, le_rfl, by norm_num⟩
  have add : F32.add (.fin v) (.fin q) = .fin (rne (v + q)) := add_fin (by rw [abs_of_nonneg (by linarith)]; norm_num at q1 ⊢; linarith)
  rw [ev, add]
  have p0 : 0 ≤ rne (v + q) := rne_nonneg (by linarith)
  have pi := isF32_rne (v + q)
  have susU : ∃ v, F32.ofInt i = .fin v ∧ 0 ≤ v ∧ v ≤ 1 := by
    rcases i01 with rfl | rfl
    · exact ⟨0, by rw [F32.ofInt_eq (by norm_num)]; norm_num, by norm_num, by norm_num⟩
    · exact ⟨1, by rw [F32.ofInt_eq (by norm_num)]; norm_num, by norm_num, by norm_num⟩
  have dec0 : F32.add (F32.sub (.fin 1) (.fin 0)) (F32.mul (.fin 0) (F32.ofInt i)) = .fin 1 := by
    rcases i01 with rfl | rfl <;> decide +kernel
  have z : Spec.IsF32 0 := rne_zero
  generalize rne (v + q) = ph at *
  by_cases c : F32.lt (.fin 1) (.fin ph) = true
  · rw [if_pos c]
    cases hc : s.envState <;> simp only [hc, ne_eq, not_true_eq_false] at hn
    · exact absurd hc hi.st.2
    · simp only [nextEnv, hc, envValue, Spec.follows, and_true]
      exact ⟨by simp, ⟨0, rfl, by norm_num, by norm_num⟩, ⟨0, rfl, z, by norm_num, by norm_num⟩⟩
    · simp only [nextEnv, hc, envValue, Spec.follows, and_true]
      exact ⟨by simp, ⟨1, rfl, by norm_num, by norm_num⟩, ⟨0, rfl, z, by norm_num, by norm_num⟩⟩
    · simp only [nextEnv, hc, envValue, Spec.follows, and_true]
      exact ⟨by simp, ⟨1, dec0, by norm_num, by norm_num⟩, ⟨0, rfl, z, by norm_num, by norm_num⟩⟩
    · simp only [nextEnv, hc, envValue, Spec.follows, and_true]
      exact ⟨by simp, susU, ⟨0, rfl, z, by norm_num, by norm_num⟩⟩
    · exact absurd hc hi.st.1
  · rw [if_neg c]
    have p1 : ph ≤ 1 := by simpa [F32.lt] using c
    cases hc : s.envState <;> simp only [hc, ne_eq, not_true_eq_false] at hn
    · exact absurd hc hi.st.2
    · simp only [hc, envValue, Spec.follows]
      exact ⟨⟨by simp [hc], ⟨0, rfl, by norm_num, by norm_num⟩, ⟨ph, rfl, pi, p0, p1⟩⟩, trivial⟩
    · simp only [hc, envValue, Spec.follows]
      exact ⟨⟨by simp [hc], ⟨ph, rfl, p0, p1⟩, ⟨ph, rfl, pi, p0, p1⟩⟩, trivial⟩
    · simp only [hc, envValue, Spec.follows]
      exact ⟨⟨by simp [hc], ⟨1, rfl, by norm_num, by norm_num⟩, ⟨ph, rfl, pi, p0, p1⟩⟩, trivial⟩
    · simp only [hc, envValue, Spec.follows]
      exact ⟨⟨by simp [hc], decay_unit pi p0 p1 i01, ⟨ph, rfl, pi, p0, p1⟩⟩, trivial⟩
    · exact absurd hc hi.st.1

theorem EInv.same {s t : St} (h : EInv s) (e : EnvSame s t) : EInv t :=
  ⟨by rw [e.st]; exact h.st, by rw [e.val]; exact h.val, by rw [e.ph]; exact h.ph⟩

theorem process_inv {f : Nat} {E : Env} {r : Rand} {s t : St} (hi : EInv s) (hp : Spec.EnvParams E s.p) (h : process f E r s = .ok t) :
    EInv t ∧ Spec.follows s.envState t.envState := by
  rcases process_env h with ⟨hs, e⟩ | ⟨hs, a, b, e1, h2, e3⟩
  · refine ⟨hi.same e, ?_⟩
    rw [e.st, hs]; trivial
  · obtain ⟨i, f⟩ := updateEnv_inv (hi.same e1) (by rw [e1.st]; exact hs) (by rw [e1.p]; exact hp) h2
    refine ⟨i.same e3, ?_⟩
    rw [e3.st]; rw [e1.st] at f; exact f

theorem attack_inv {f : Nat} {E : Env} {r : Rand} {s t : St} (h : attack f E r s = .ok t) : EInv t := by
  obtain ⟨_, e2, h⟩ := attack_env h
  have z : Spec.IsF32 0 := rne_zero
  have hz : ∃ v, t.envPhase = .fin v ∧ Spec.IsF32 v ∧ 0 ≤ v ∧ v ≤ 1 := ⟨0, e2, z, by norm_num, by norm_num⟩
  rcases h with ⟨a, b⟩ | ⟨a, b⟩ | ⟨a, b⟩ | ⟨a, b⟩
  · exact ⟨by rw [a]; simp, ⟨0, b, by norm_num, by norm_num⟩, hz⟩
  · exact ⟨by rw [a]; simp, ⟨0, b, by norm_num, by norm_num⟩, hz⟩
  · exact ⟨by rw [a]; simp, ⟨1, b, by norm_num, by norm_num⟩, hz⟩
  · exact ⟨by rw [a]; simp, ⟨1, b, by norm_num, by norm_num⟩, hz⟩

theorem runs_inv {E : Env} : ∀ (os : List Op) {s t : St}, EInv s → Spec.EnvHistory E s.p os → runs os s = .ok t → EInv t := by
  intro os
  induction os with
  | nil => intro s t hi _ h; cases h; exact hi
  | cons o os ih =>
    intro s t hi hh h
    rw [runs, bind_ok] at h
    obtain ⟨u, hu, h⟩ := h
    cases o with
    | attack f E' r =>
      refine ih (attack_inv hu) ?_ h
      rw [(attack_env hu).1]; exact hh
    | block f E' r =>
      obtain ⟨rfl, hp, hh⟩ := hh
      refine ih (process_inv hi hp hu).1 ?_ h
      rw [process_p hu]; exact hh
    | edit p =>
      cases hu
      exact ih (s := { s with p := p }) ⟨hi.st, hi.val, hi.ph⟩ hh h
    | pattern q =>
      cases hu
      exact ih (s := { s with seq := q }) ⟨hi.st, hi.val, hi.ph⟩ hh h

/-- C71: in every history of attacks, blocks and parameter changes from a new oscillator (no release), as long as the stage rates are not negative
and the sustain level is 0 or 1, the envelope level and the position in the stage stay between 0 and 1. -/
theorem C71_level_unit_partial (E : Env) (p : Params) (os : List Op) (s : St) (hp : Spec.EnvHistory E p os) (h : runs os (new p) = .ok s) :
    (∃ v, s.envVal = .fin v ∧ 0 ≤ v ∧ v ≤ 1) ∧ ∃ v, s.envPhase = .fin v ∧ 0 ≤ v ∧ v ≤ 1 := by
  have z : Spec.IsF32 0 := rne_zero
  have := runs_inv os (s := new p) ⟨by simp [new], ⟨0, rfl, by norm_num, by norm_num⟩, ⟨0, rfl, z, by norm_num, by norm_num⟩⟩ hp h
  obtain ⟨v, a, _, b⟩ := this.ph
  exact ⟨this.val, v, a, b⟩

/-- C71: and a block either leaves the stage as it is or moves to the next one in the order delay, attack, hold, decay, rest. -/
theorem C71_stage_order (E : Env) (p : Params) (os : List Op) (s t : St) (hp : Spec.EnvHistory E p os) (h : runs os (new p) = .ok s)
    (f : Nat) (r : Rand) (hq : Spec.EnvParams E s.p) (hb : process f E r s = .ok t) : Spec.follows s.envState t.envState := by
  have z : Spec.IsF32 0 := rne_zero
  have := runs_inv os (s := new p) ⟨by simp [new], ⟨0, rfl, by norm_num, by norm_num⟩, ⟨0, rfl, z, by norm_num, by norm_num⟩⟩ hp h
  exact (process_inv this hq hb).2

/-! ## The envelope comes to rest -/

/-- A number of blocks with given random numbers. -/
def blocks (E : Env) : List (Nat × Rand) → St → Res Empty St
  | [], s => .ok s
  | (f, r) :: os, s => process f E r s >>= blocks E os

/-- A usable rate: not so small that it is lost when added to the position. -/
def Spec.Usable (c : Res Empty F32) : Prop := ∀ v, c = .ok v → ∃ q, v = .fin q ∧ 1 / 2 ^ 20 ≤ q ∧ q ≤ 1

/-- All stage rates are usable. -/
structure Spec.UsableParams (E : Env) (p : Params) : Prop where
  delay : Spec.Usable (rateOf E p .delay)
  attack : Spec.Usable (rateOf E p .attack)
  hold : Spec.Usable (rateOf E p .hold)
  decay : Spec.Usable (rateOf E p .decay)
  release : Spec.Usable (rateOf E p .release)

/-- Stages left. -/
def rank : EnvState → ℕ
  | .delay => 4
  | .attack => 3
  | .hold => 2
  | .decay => 1
  | .release => 1
  | _ => 0

/-- Potential: falls by at least `2^-21` per block until the envelope rests. -/
def PInv (s : St) (c : ℚ) (fin : F32) : Prop :=
  (s.envState = .stuck ∧ s.envVal = fin) ∨ (s.envState ≠ .stuck ∧ s.envState ≠ .off ∧ ∃ v, s.envPhase = .fin v ∧ 0 ≤ v ∧ v ≤ 1 ∧ 2 * (rank s.envState : ℚ) - v ≤ c ∧
    (s.envState = .release → fin = .fin 0) ∧ (s.envState ≠ .release → ∃ i, pvali (s.p.val .sustain) = .ok i ∧ fin = F32.ofInt i))

theorem PInv.same {s t : St} {c : ℚ} {fin : F32} (h : PInv s c fin) (e : EnvSame s t) : PInv t c fin := by
  unfold PInv at h ⊢
  rw [e.st, e.val, e.ph, e.p]; exact h

theorem step_gain {v q : ℚ} (v0 : 0 ≤ v) (v1 : v ≤ 1) (q0 : 1 / 2 ^ 20 ≤ q) (q1 : q ≤ 1) (h : rne (v + q) ≤ 1) : v + 1 / 2 ^ 21 ≤ rne (v + q) := by
  have hlt : v + q < 2 := by
    by_contra hc
    have := rne_mono (not_lt.mp hc)
    have t : rne 2 = 2 := by decide +kernel
    rw [t] at this; linarith
  have := (abs_le.mp (ulp_small (x := v + q) (by rw [abs_of_nonneg (by linarith [show (0:ℚ) < 1 / 2 ^ 20 by norm_num])]; exact hlt))).1
  have n1 : (1:ℚ) / 2 ^ 24 + 1 / 2 ^ 21 ≤ 1 / 2 ^ 20 := by norm_num
  linarith

theorem process_pinv {f : Nat} {E : Env} {r : Rand} {s t : St} {c : ℚ} {fin : F32} (hi : PInv s c fin) (hp : Spec.UsableParams E s.p) (h : process f E r s = .ok t) :
    PInv t (c - 1 / 2 ^ 21) fin := by
  rcases process_env h with ⟨hs, e⟩ | ⟨hs, a, b, e1, h2, e3⟩
  · rcases hi with hi | ⟨hi, _⟩
    · exact .inl (by rw [e.st, e.val]; exact hi)
    · exact absurd hs hi
  · refine PInv.same ?_ e3
    have hi := hi.same e1
    rw [← e1.st] at hs
    rw [← e1.p] at hp
    rcases hi with ⟨hi, _⟩ | ⟨_, ho, v, ev, v0, v1, hc, hr, hn⟩
    · exact absurd hi hs
    obtain ⟨q', i, hq, hsu, rfl⟩ := updateEnv_ok h2
    obtain ⟨q, rfl, q0, q1⟩ : ∃ q, q' = .fin q ∧ 1 / 2 ^ 20 ≤ q ∧ q ≤ 1 := by
      unfold envrate at hq
      cases hc : a.envState <;> rw [hc] at hq hs ho <;> dsimp only at hq
      · exact absurd rfl ho
      · exact hp.delay _ hq
      · exact hp.attack _ hq
      · exact hp.hold _ hq
      · exact hp.decay _ hq
      · exact hp.release _ hq
      · exact absurd rfl hs
    have hq0 : (0:ℚ) < 1 / 2 ^ 20 := by norm_num
    have add : F32.add (.fin v) (.fin q) = .fin (rne (v + q)) := add_fin (by rw [abs_of_nonneg (by linarith)]; norm_num; linarith)
    rw [ev, add]
    have p0 : 0 ≤ rne (v + q) := rne_nonneg (by linarith)
    have gain := step_gain v0 v1 q0 q1
    generalize rne (v + q) = ph at *
    have n1 : (1:ℚ) / 2 ^ 21 ≤ 1 := by norm_num
    by_cases cc : F32.lt (.fin 1) (.fin ph) = true
    · rw [if_pos cc]
      cases hst : a.envState <;> simp only [hst, rank] at hs ho hc hn hr
      · exact absurd rfl ho
      · refine .inr ?_
        simp only [nextEnv, hst, envValue, rank]
        refine ⟨by simp, by simp, 0, rfl, by norm_num, by norm_num, ?_, by simp, fun _ => hn (by simp)⟩
        push_cast at hc ⊢; linarith
      · refine .inr ?_
        simp only [nextEnv, hst, envValue, rank]
        refine ⟨by simp, by simp, 0, rfl, by norm_num, by norm_num, ?_, by simp, fun _ => hn (by simp)⟩
        push_cast at hc ⊢; linarith
      · refine .inr ?_
        simp only [nextEnv, hst, envValue, rank]
        refine ⟨by simp, by simp, 0, rfl, by norm_num, by norm_num, ?_, by simp, fun _ => hn (by simp)⟩
        push_cast at hc ⊢; linarith
      · refine .inl ?_
        simp only [nextEnv, hst, envValue, true_and]
        obtain ⟨j, hj, e⟩ := hn (by simp)
        rw [hsu] at hj; cases hj; exact e.symm
      · refine .inl ?_
        simp only [nextEnv, hst, envValue, true_and]
        exact (hr trivial).symm
      · exact absurd rfl hs
    · rw [if_neg cc]
      have p1 : ph ≤ 1 := by simpa [F32.lt] using cc
      have g := gain p1
      refine .inr ?_
      have key : ∀ u : St, u.envState = a.envState → u.envPhase = .fin ph → u.p = a.p → u.envState ≠ .stuck ∧ u.envState ≠ .off ∧ ∃ v, u.envPhase = .fin v ∧ 0 ≤ v ∧ v ≤ 1 ∧ 2 * (rank u.envState : ℚ) - v ≤ c - 1 / 2 ^ 21 ∧
          (u.envState = .release → fin = .fin 0) ∧ (u.envState ≠ .release → ∃ i, pvali (u.p.val .sustain) = .ok i ∧ fin = F32.ofInt i) := by
        intro u e1 e2 e3
        rw [e1, e2, e3]
        exact ⟨hs, ho, ph, rfl, p0, p1, by linarith, hr, hn⟩
      apply key
      · unfold envValue; dsimp only; cases hst : a.envState <;> simp [hst]
      · unfold envValue; dsimp only; cases hst : a.envState <;> rfl
      · rw [envValue_p]

theorem blocks_pinv {E : Env} : ∀ (os : List (Nat × Rand)) {s t : St} {c : ℚ} {fin : F32}, PInv s c fin → Spec.UsableParams E s.p →
    blocks E os s = .ok t → PInv t (c - os.length / 2 ^ 21) fin := by
  intro os
  induction os with
  | nil => intro s t c fin hi _ h; cases h; simpa using hi
  | cons o os ih =>
    intro s t c fin hi hp h
    obtain ⟨f, r⟩ := o
    rw [blocks, bind_ok] at h
    obtain ⟨u, hu, h⟩ := h
    have := ih (process_pinv hi hp hu) (by rw [process_p hu]; exact hp) h
    have e : c - 1 / 2 ^ 21 - (os.length : ℚ) / 2 ^ 21 = c - (((f, r) :: os).length : ℚ) / 2 ^ 21 := by
      rw [List.length_cons]; push_cast; ring
    rwa [e] at this

theorem pinv_rest {s : St} {c : ℚ} {fin : F32} (h : PInv s c fin) (hc : c < 0) : s.envState = .stuck ∧ s.envVal = fin := by
  rcases h with h | ⟨hs, ho, v, _, _, v1, h, _⟩
  · exact h
  · exfalso
    have : 1 ≤ rank s.envState := by
      cases e : s.envState <;> simp [e, rank] at hs ho ⊢
    have : (1:ℚ) ≤ rank s.envState := by exact_mod_cast this
    linarith

/-- C71: after an attack with usable stage rates the envelope reaches its resting stage within a bounded number of blocks,
at the sustain level, and stays there. -/
theorem C71_rests_at_sustain_partial (E : Env) (fuel : Nat) (r : Rand) (s s0 : St) (i : ℤ) (ha : attack fuel E r s = .ok s0) (hp : Spec.UsableParams E s.p)
    (hs : s.p.val .sustain = .int i) : ∃ N : Nat, ∀ os t, N ≤ os.length → blocks E os s0 = .ok t → t.envState = .stuck ∧ t.envVal = F32.ofInt i := by
  refine ⟨2 ^ 25, fun os t hl h => ?_⟩
  obtain ⟨e1, e2, e3⟩ := attack_env ha
  have hpi : PInv s0 8 (F32.ofInt i) := by
    refine .inr ⟨?_, ?_, 0, e2, le_rfl, by norm_num, ?_, ?_, fun _ => ⟨i, by rw [e1, hs]; rfl, rfl⟩⟩
    all_goals rcases e3 with ⟨h, _⟩ | ⟨h, _⟩ | ⟨h, _⟩ | ⟨h, _⟩ <;> rw [h] <;> simp [rank] <;> norm_num
  refine pinv_rest (blocks_pinv os hpi (by rw [e1]; exact hp) h) ?_
  have : ((2 ^ 25 : ℕ) : ℚ) ≤ os.length := by exact_mod_cast hl
  have h2 : ((2 ^ 25 : ℕ) : ℚ) / 2 ^ 21 ≤ (os.length : ℚ) / 2 ^ 21 := by gcongr
  norm_num at h2 ⊢; linarith

/-- C71: after a release that takes effect (release time below its maximum) with usable stage rates the envelope comes to rest at 0. -/
theorem C71_release_rests_at_zero_partial (E : Env) (s s0 : St) (x m : F32) (hr : s.p.val .release = .float x) (hm : s.p.max .release = .float m)
    (hx : F32.lt x m = true) (ha : release s = .ok s0) (hp : Spec.UsableParams E s.p) :
    ∃ N : Nat, ∀ os t, N ≤ os.length → blocks E os s0 = .ok t → t.envState = .stuck ∧ t.envVal = .fin 0 := by
  refine ⟨2 ^ 25, fun os t hl h => ?_⟩
  unfold release at ha
  rw [hr, hm] at ha
  simp only [pvalf, Res.ok_bind, hx, if_true] at ha
  cases ha
  have hpi : PInv { s with envState := .release, releaseStart := s.envVal, envPhase := .fin 0 } 8 (.fin 0) :=
    .inr ⟨by simp, by simp, 0, rfl, le_rfl, by norm_num, by simp [rank]; norm_num, fun _ => rfl, fun h => absurd rfl h⟩
  refine pinv_rest (blocks_pinv os hpi hp h) ?_
  have : ((2 ^ 25 : ℕ) : ℚ) ≤ os.length := by exact_mod_cast hl
  have h2 : ((2 ^ 25 : ℕ) : ℚ) / 2 ^ 21 ≤ (os.length : ℚ) / 2 ^ 21 := by gcongr
  norm_num at h2 ⊢; linarith

/-- C71: a release whose time is at its maximum does nothing. -/
theorem C71_release_at_max_ignored (s : St) (x m : F32) (hr : s.p.val .release = .float x) (hm : s.p.max .release = .float m)
    (hx : F32.lt x m = false) : release s = .ok s := by
  unfold release
  rw [hr, hm]
  simp [pvalf, hx]

/-- C71 (refuted for a release): the first block after a release from level `v` with stage rate `q` makes the level jump UP, to `1 - q + v`
rather than down to `(1 - q) v`: above 1 when `q < v`. -/
theorem C71_release_jumps_up (E : Env) (s s0 s1 : St) (fuel : Nat) (r : Rand) (x m : F32) (v q : ℚ) (hr : s.p.val .release = .float x)
    (hm : s.p.max .release = .float m) (hx : F32.lt x m = true) (hv : s.envVal = .fin v) (v0 : 0 ≤ v) (v1 : v ≤ 1) (hq : rateOf E s.p .release = .ok (.fin q)) (fq : Spec.IsF32 q)
    (q0 : 0 ≤ q) (q1 : q ≤ 1) (ha : release s = .ok s0) (hb : process fuel E r s0 = .ok s1) :
    ∃ w, s1.envVal = .fin w ∧ |w - (1 - q + v)| ≤ 1 / 2 ^ 22 := by
  unfold release at ha
  rw [hr, hm] at ha
  simp only [pvalf, Res.ok_bind, hx, if_true] at ha
  cases ha
  rcases process_env hb with ⟨hs, _⟩ | ⟨_, a, b, e1, h2, e3⟩
  · simp at hs
  · obtain ⟨q', i, hq', _, rfl⟩ := updateEnv_ok h2
    unfold envrate at hq'
    have es := e1.st; have ep := e1.p; have eh := e1.ph; have er := e1.rs
    dsimp only at es ep eh er
    rw [es] at hq'
    dsimp only at hq'
    rw [ep, hq] at hq'
    cases hq'
    have add : F32.add (.fin 0) (.fin q) = .fin q := by
      rw [add_fin (by rw [zero_add, abs_of_nonneg q0]; norm_num; linarith), zero_add, fq]
    rw [eh, add, if_neg (by simp [F32.lt, q1])] at e3
    have ev := e3.val
    unfold envValue at ev
    dsimp only at ev
    rw [es] at ev
    dsimp only at ev
    have b1 := rne_unit (x := 1 - q) (by linarith) (by linarith)
    rw [er, hv, sub_fin (by norm_num) (by rw [abs_of_nonneg q0]; norm_num; linarith), add_fin (by rw [abs_of_nonneg (by linarith)]; norm_num; linarith)] at ev
    refine ⟨_, ev, ?_⟩
    have d1 := ulp_small (x := 1 - q) (by rw [abs_of_nonneg (by linarith)]; linarith)
    have d2 := rne_dist (q := rne (1 - q) + v) (b := 2) (by rw [abs_of_nonneg (by linarith)]; linarith)
    rw [abs_le] at d1 d2 ⊢
    norm_num at d1 d2 ⊢
    constructor <;> linarith

/-- C71 (refuted for the default parameters): with the parameters every oscillator is created with, both `attack` and `process` panic. -/
theorem C71_default_panics (fuel : Nat) (E : Env) (r : Rand) (hf : 2 ≤ fuel) :
    attack fuel E r (new defaultParams) = .panic "explicit panic" ∧ process fuel E r (new defaultParams) = .panic "explicit panic" := by
  obtain ⟨n, rfl⟩ := Nat.exists_eq_add_of_le' hf
  have e : ensurePhase (n + 2) (new defaultParams) = .ok { new defaultParams with phase := .fin (1 / 2), phaseInit := true } := by
    unfold ensurePhase initPhase
    simp only [new, Bool.false_eq_true, if_false, defaultParams, pvalf, Res.ok_bind, wrap]
    rw [wrapUp, if_neg (by simp [F32.lt])]
    simp only [Res.ok_bind]
    rw [wrapDown, if_neg (by simp [F32.lt]; norm_num)]
    rfl
  constructor
  · unfold attack
    rw [e]; rfl
  · unfold process advance
    rw [e]; rfl

/-! ## The hypotheses are met -/

/-- A sample set of parameters with integers, booleans and floats where the code expects them. -/
def demoParams (shape deform : PData) (unipolar : Bool) : Params where
  val k := match k with
    | .shape => shape
    | .trigmode => .int 1
    | .unipolar => .bool unipolar
    | .sustain => .int 1
    | .deform => deform
    | .startPhase => .float (.fin (-5 / 2))
    | _ => .float (.fin (1 / 2))
  min _ := .float (.fin 0)
  max _ := .float (.fin 1)
  sync _ := false

def demoEnv : Env := ⟨fun _ => .fin (1 / 4), fun x => F32.mul x (.fin (1 / 2)), fun _ => .fin 1, .fin 1, .fin 0⟩

theorem exists_of_isOk {α : Type} {x : Res Empty α} (h : x.isOk = true) : ∃ a, x = .ok a := by
  cases x with
  | ok a => exact ⟨a, rfl⟩
  | err e => exact e.elim
  | panic w => cases h

theorem demo_rate (k : LP) (sh df : PData) (u : Bool) (v : F32) (h : rateOf demoEnv (demoParams sh df u) k = .ok v) : v = .fin (1 / 4) := by
  unfold rateOf at h
  rw [bind_ok] at h
  obtain ⟨x, _, h⟩ := h
  cases h
  rfl

theorem demo_env (sh df : PData) (u : Bool) : Spec.EnvParams demoEnv (demoParams sh df u) := by
  have key : ∀ k, Spec.RateIn (2 ^ 99) (rateOf demoEnv (demoParams sh df u) k) :=
    fun k v hv => ⟨1 / 4, demo_rate k sh df u v hv, by norm_num, by norm_num⟩
  refine ⟨key _, key _, key _, key _, key _, fun i h => ?_⟩
  simp only [demoParams, PData.int.injEq] at h
  exact .inr h.symm

theorem demo_usable (sh df : PData) (u : Bool) : Spec.UsableParams demoEnv (demoParams sh df u) := by
  have key : ∀ k, Spec.Usable (rateOf demoEnv (demoParams sh df u) k) :=
    fun k v hv => ⟨1 / 4, demo_rate k sh df u v hv, by norm_num, by norm_num⟩
  exact ⟨key _, key _, key _, key _, key _⟩

/-- C71_level_unit_partial, C71_stage_order: a history with a note and three blocks returns and has its parameters in range. -/
example : ∃ os s t, Spec.EnvHistory demoEnv (demoParams (.int 1) (.int 1) true) os ∧ runs os (new (demoParams (.int 1) (.int 1) true)) = .ok s ∧
    Spec.EnvParams demoEnv s.p ∧ process 9 demoEnv ⟨.fin 0, fun _ => .fin 0⟩ s = .ok t ∧ os.length = 4 := by
  have h : (runs [.attack 9 demoEnv ⟨.fin 0, fun _ => .fin 0⟩, .block 9 demoEnv ⟨.fin 0, fun _ => .fin 0⟩, .block 9 demoEnv ⟨.fin 0, fun _ => .fin 0⟩, .block 9 demoEnv ⟨.fin 0, fun _ => .fin 0⟩] (new (demoParams (.int 1) (.int 1) true)) >>= process 9 demoEnv ⟨.fin 0, fun _ => .fin 0⟩).isOk = true := by
    decide +kernel
  obtain ⟨t, ht⟩ := exists_of_isOk h
  rw [bind_ok] at ht
  obtain ⟨s, hs, ht⟩ := ht
  have d := demo_env (.int 1) (.int 1) true
  refine ⟨_, s, t, ?_, hs, ?_, ht, rfl⟩
  · exact ⟨rfl, d, rfl, d, rfl, d, trivial⟩
  have hp : s.p = demoParams (.int 1) (.int 1) true := by
    simp only [runs, bind_ok, Op.run] at hs
    obtain ⟨a, ha, b, hb, c, hc, e, he, hs⟩ := hs
    cases hs
    rw [process_p he, process_p hc, process_p hb, (attack_env ha).1]; rfl
  rw [hp]; exact d

/-- C71_rests_at_sustain_partial: an attack with usable rates returns, and so do blocks after it. -/
example : ∃ s s0 t os, attack 9 demoEnv ⟨.fin 0, fun _ => .fin 0⟩ s = .ok s0 ∧ Spec.UsableParams demoEnv s.p ∧ s.p.val .sustain = .int 1 ∧ blocks demoEnv os s0 = .ok t ∧ os.length = 8 := by
  have h : (attack 9 demoEnv ⟨.fin 0, fun _ => .fin 0⟩ (new (demoParams (.int 1) (.int 1) true)) >>= blocks demoEnv (List.replicate 8 (9, ⟨.fin 0, fun _ => .fin 0⟩))).isOk = true := by
    decide +kernel
  obtain ⟨t, ht⟩ := exists_of_isOk h
  rw [bind_ok] at ht
  obtain ⟨s, hs, ht⟩ := ht
  exact ⟨_, s, t, _, hs, demo_usable _ _ _, rfl, ht, rfl⟩

/-- C71_release_rests_at_zero_partial, C71_release_jumps_up: a release below the maximum from level 1 with rate 1/4. -/
example : ∃ s s0 s1, s.p.val .release = .float (.fin (1 / 2)) ∧ s.p.max .release = .float (.fin 1) ∧ F32.lt (.fin (1 / 2)) (.fin 1) = true ∧ s.envVal = .fin 1 ∧
    rateOf demoEnv s.p .release = .ok (.fin (1 / 4)) ∧ Spec.IsF32 (1 / 4) ∧ release s = .ok s0 ∧ Spec.UsableParams demoEnv s.p ∧
    process 9 demoEnv ⟨.fin 0, fun _ => .fin 0⟩ s0 = .ok s1 := by
  have h : (release { new (demoParams (.int 1) (.int 1) true) with envVal := .fin 1, envState := .stuck } >>= process 9 demoEnv ⟨.fin 0, fun _ => .fin 0⟩).isOk = true := by
    decide +kernel
  obtain ⟨t, ht⟩ := exists_of_isOk h
  rw [bind_ok] at ht
  obtain ⟨s, hs, ht⟩ := ht
  exact ⟨_, s, t, rfl, rfl, by decide +kernel, rfl, rfl, by unfold Spec.IsF32; decide +kernel, hs, demo_usable _ _ _, ht⟩

/-- C71_release_at_max_ignored. -/
example : ∃ s : St, ∃ x, s.p.val .release = .float x ∧ s.p.max .release = .float x ∧ F32.lt x x = false :=
  ⟨new ⟨fun _ => .float (.fin 1), fun _ => .float (.fin 0), fun _ => .float (.fin 1), fun _ => false⟩, .fin 1, rfl, rfl, by decide⟩

end Verif.Lfo
