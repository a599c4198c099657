import Verif.Voice.Mix
import Mathlib.Algebra.BigOperators.Fin
import Mathlib.Data.Fin.VecNotation
/-!
# What a voice plays in a block: the claims (C130, C131)
-/
namespace Verif.Voice
open Verif.Smooth Verif.Dsp

variable {O : Type}

theorem gated_osc (env : Env O) {c : MixCfg} {f a b : ℕ → ℝ} {r : Run O} (h : Inv c f a b r) (i : Fin 3) (g : Bool) (hg : c.enable (i.castLE (by omega)) = true → g = true)
    (fm : Option (ℕ → ℝ)) {o : O} (ho : r.osc i = some o) :
    ∃ r', stage g (processOsc env c i fm) r = .ok r' ∧ r'.osc = Function.update r.osc i (some (if g then env.step i fm o else o)) ∧
      Inv c f (fun s => a s + conL c (i.castLE (by omega)) (env.outL (if g then env.step i fm o else o)) s)
        (fun s => b s + conR c (i.castLE (by omega)) (if c.wide then env.outR (if g then env.step i fm o else o) else fun _ => 0) s) r' := by
  unfold stage
  cases g with
  | true => simpa using osc_stage env h i fm ho
  | false =>
    have he : c.enable (i.castLE (by omega)) = false := by
      cases hc : c.enable (i.castLE (by omega)) with
      | false => rfl
      | true => exact absurd (hg hc) (by simp)
    refine ⟨r, by simp, ?_, h.congr (fun s _ => ?_) (fun s _ => ?_)⟩
    · simp only [Bool.false_eq_true, if_false, ← ho, Function.update_eq_self]
    · simp [conL, he]
    · simp [conR, he]

/-- The block that modulates oscillator 0. -/
noncomputable def modulator (env : Env O) (c : MixCfg) (x1 x2 : O) (buf : ℕ → ℝ) : Option (ℕ → ℝ) :=
  match c.fm with
  | .off => none
  | .oneToZero | .twoToOneToZero => some (env.outL x1)
  | .oneAndTwoToZero => some (binaryBlock (· + ·) (env.outL x1) (env.outL x2) 16 buf)

theorem modulator_modulates (env : Env O) (c : MixCfg) (x1 x2 : O) (buf : ℕ → ℝ) : Spec.Modulates env c.fm x1 x2 (modulator env c x1 x2 buf) := by
  unfold modulator Spec.Modulates
  cases c.fm with
  | off => rfl
  | oneToZero => rfl
  | twoToOneToZero => rfl
  | oneAndTwoToZero => exact ⟨_, rfl, fun s hs => bin_in _ _ _ _ hs⟩

/-- What `process` does, whatever the configuration: the sources as the gates leave them. -/
theorem process_eq (env : Env O) (c : MixCfg) (r : Run O) (o : Fin 3 → O) (ho : ∀ i, r.osc i = some (o i)) :
    ∃ (x0 x1 x2 : O) (m : Option (ℕ → ℝ)) (r' : Run O), process env c r = .ok r' ∧
      x2 = (if gate2 c then env.step 2 none (o 2) else o 2) ∧
      x1 = (if gate1 c then env.step 1 (if c.fm = .twoToOneToZero then some (env.outL x2) else none) (o 1) else o 1) ∧
      x0 = (if c.enable 0 || c.enable 3 then env.step 0 m (o 0) else o 0) ∧ m = modulator env c x1 x2 r.fmbuf ∧
      (∀ i, r'.osc i = some (![x0, x1, x2] i)) ∧
      ∀ s, s < 64 → r'.outL s = Spec.mix c (· < 2) (Spec.left env x0 x1 x2 s) s ∧
        r'.outR s = Spec.mix c (0 < ·) (fun i => if c.wide then Spec.right env x0 x1 x2 s i else if i = 3 ∨ i = 4 then Spec.left env x0 x1 x2 s i else 0) s := by
  unfold process
  have h0 : Inv c r.fmbuf (fun _ => 0) (fun _ => 0) (⟨r.osc, clearBlock 0 16 r.outL, clearBlock 0 16 r.outR, fun _ => 0, fun _ => 0, r.fmbuf⟩ : Run O) :=
    ⟨fun s hs => (C58_clear 0 16 r.outL s).1 (by omega), fun s hs => (C58_clear 0 16 r.outR s).1 (by omega), fun _ _ => rfl, rfl⟩
  obtain ⟨r2, e2, k2, i2⟩ := gated_osc env h0 2 (gate2 c) (by intro h; simp [gate2, show c.enable 2 = true from h]) none (ho 2)
  simp only [e2, Res.ok_bind]
  set x2 := (if gate2 c then env.step 2 none (o 2) else o 2) with hx2
  have k22 : r2.osc 2 = some x2 := by rw [k2]; simp
  have k21 : r2.osc 1 = some (o 1) := by rw [k2, ← ho 1]; rfl
  have k20 : r2.osc 0 = some (o 0) := by rw [k2, ← ho 0]; rfl
  obtain ⟨r1, e1, k1, i1⟩ := gated_osc env i2 1 (gate1 c) (by intro h; simp [gate1, show c.enable 1 = true from h]) (fmFor1 env c r2) k21
  have e1' : stage (gate1 c) (fun r => processOsc env c 1 (fmFor1 env c r) r) r2 = .ok r1 := by rw [← e1]; rfl
  simp only [e1', Res.ok_bind]
  have hfm : fmFor1 env c r2 = if c.fm = .twoToOneToZero then some (env.outL x2) else none := by unfold fmFor1; rw [k22]; rfl
  rw [hfm] at k1 i1
  set x1 := (if gate1 c then env.step 1 (if c.fm = .twoToOneToZero then some (env.outL x2) else none) (o 1) else o 1) with hx1
  have k12 : r1.osc 2 = some x2 := by rw [k1, ← k22]; rfl
  have k11 : r1.osc 1 = some x1 := by rw [k1]; simp
  have k10 : r1.osc 0 = some (o 0) := by rw [k1, ← k20]; rfl
  -- oscillator 0
  set m := modulator env c x1 x2 r.fmbuf with hm
  set x0 := (if c.enable 0 || c.enable 3 then env.step 0 m (o 0) else o 0) with hx0
  set q : Run O := if c.fm = .oneAndTwoToZero then ⟨r1.osc, r1.outL, r1.outR, r1.tL, r1.tR, binaryBlock (· + ·) (env.outL x1) (env.outL x2) 16 r1.fmbuf⟩ else r1 with hq
  have hqo : q.osc = r1.osc := by rw [hq]; split <;> rfl
  have iq : Inv c q.fmbuf (fun s => 0 + conL c 2 (env.outL x2) s + conL c 1 (env.outL x1) s)
      (fun s => 0 + conR c 2 (if c.wide then env.outR x2 else fun _ => 0) s + conR c 1 (if c.wide then env.outR x1 else fun _ => 0) s) q := by
    have key : q.outL = r1.outL ∧ q.outR = r1.outR ∧ q.tR = r1.tR := by rw [hq]; split <;> exact ⟨rfl, rfl, rfl⟩
    exact ⟨by rw [key.1]; exact i1.left, by rw [key.2.1]; exact i1.right, by rw [key.2.2]; exact i1.quiet, rfl⟩
  have hfm0 : fmFor0 env c q = m := by
    rw [hm]
    unfold fmFor0 modulator
    cases hc : c.fm with
    | off => rfl
    | oneToZero => simp only [hqo, k11, Option.map_some]
    | twoToOneToZero => simp only [hqo, k11, Option.map_some]
    | oneAndTwoToZero => rw [hq, if_pos hc, i1.buf]
  obtain ⟨r0, e0, k0, f0, i0⟩ : ∃ r0, stage (c.enable 0 || c.enable 3) (zeroth env c) r1 = .ok r0 ∧ r0.osc = Function.update r1.osc 0 (some x0) ∧ ∃ f0,
      Inv c f0 (fun s => 0 + conL c 2 (env.outL x2) s + conL c 1 (env.outL x1) s + conL c 0 (env.outL x0) s)
        (fun s => 0 + conR c 2 (if c.wide then env.outR x2 else fun _ => 0) s + conR c 1 (if c.wide then env.outR x1 else fun _ => 0) s +
          conR c 0 (if c.wide then env.outR x0 else fun _ => 0) s) r0 := by
    obtain ⟨r0, e0, k0, i0⟩ := gated_osc env iq 0 (c.enable 0 || c.enable 3) (by intro h; simp [show c.enable 0 = true from h]) (fmFor0 env c q) (by rw [hqo]; exact k10)
    rw [hfm0] at e0 k0 i0
    rw [← hx0] at k0 i0
    cases hg : (c.enable 0 || c.enable 3) with
    | false =>
      have hen : c.enable 0 = false := by
        cases h : c.enable 0 with
        | false => rfl
        | true => simp [h] at hg
      refine ⟨r1, by simp [stage], ?_, r.fmbuf, ?_⟩
      · rw [hx0, hg]
        simp only [Bool.false_eq_true, if_false, ← k10, Function.update_eq_self]
      · refine i1.congr (fun s _ => ?_) (fun s _ => ?_)
        · rw [show conL c 0 _ s = 0 by simp [conL, hen], add_zero]; rfl
        · rw [show conR c 0 _ s = 0 by simp [conR, hen], add_zero]; rfl
    | true =>
      rw [hg] at e0
      refine ⟨r0, ?_, ?_, _, i0⟩
      · rw [← e0]
        simp only [stage, if_true, zeroth, get, k11, k12, Res.ok_bind]
        rw [← hfm0]
      · rw [k0, hqo]
  simp only [e0, Res.ok_bind]
  have k02 : r0.osc 2 = some x2 := by rw [k0, ← k12]; rfl
  have k01 : r0.osc 1 = some x1 := by rw [k0, ← k11]; rfl
  have k00 : r0.osc 0 = some x0 := by rw [k0]; simp
  obtain ⟨r3, e3, k3, i3⟩ := ring_stage env i0 3 0 1 k00 k01
  simp only [e3, Res.ok_bind]
  obtain ⟨r4, e4, k4, i4⟩ := ring_stage env i3 4 1 2 (by rw [k3]; exact k01) (by rw [k3]; exact k02)
  simp only [e4, Res.ok_bind]
  obtain ⟨r5, e5, k5, i5⟩ := noise_stage env i4
  simp only [e5, Res.ok_bind]
  refine ⟨x0, x1, x2, m, _, rfl, rfl, rfl, rfl, rfl, ?_, fun s hs => ⟨?_, ?_⟩⟩
  · intro i
    simp only [k5, k4, k3]
    fin_cases i
    · exact k00
    · exact k01
    · exact k02
  · change c.pfg.multiply 16 r5.outL s = _
    rw [mul_in _ _ hs, i5.left s hs]
    unfold Spec.mix
    congr 1
    rw [Fin.sum_univ_six]
    simp only [conL, Spec.left]
    ring
  · change c.pfg.multiply 16 r5.outR s = _
    rw [mul_in _ _ hs, i5.right s hs]
    unfold Spec.mix
    congr 1
    rw [Fin.sum_univ_six]
    simp only [conR]
    cases hw : c.wide
    · simp [Spec.left]
    · simp [Spec.right]
      ring

theorem mix_congr (c : MixCfg) (here : ℤ → Prop) [DecidablePred here] {x y : Fin 6 → ℝ} (s : ℕ) (h : ∀ i, c.enable i = true → x i = y i) : Spec.mix c here x s = Spec.mix c here y s := by
  unfold Spec.mix
  congr 1
  refine Finset.sum_congr rfl fun i _ => ?_
  by_cases hi : c.enable i = true ∧ here (c.route i)
  · rw [if_pos hi, if_pos hi, h i hi.1]
  · rw [if_neg hi, if_neg hi]

/-- The gated oscillators are the fresh ones wherever they are needed. -/
theorem needed (env : Env O) (c : MixCfg) (o : Fin 3 → O) (hstale : ¬Spec.Stale c) {x0 x1 x2 : O} {m : Option (ℕ → ℝ)}
    (h2 : x2 = (if gate2 c then env.step 2 none (o 2) else o 2))
    (h1 : x1 = (if gate1 c then env.step 1 (if c.fm = .twoToOneToZero then some (env.outL x2) else none) (o 1) else o 1))
    (h0 : x0 = (if c.enable 0 || c.enable 3 then env.step 0 m (o 0) else o 0)) (hm : Spec.Modulates env c.fm x1 x2 m) :
    (c.enable 2 = true ∨ c.enable 4 = true → x2 = Spec.fresh2 env o) ∧ (c.enable 1 = true ∨ c.enable 3 = true ∨ c.enable 4 = true → x1 = Spec.fresh1 env c.fm o) ∧
    (c.enable 0 = true ∨ c.enable 3 = true → x0 = env.step 0 m (o 0) ∧ Spec.Modulates env c.fm (Spec.fresh1 env c.fm o) (Spec.fresh2 env o) m) := by
  have g2 : gate2 c = true → x2 = Spec.fresh2 env o := fun h => by rw [h2, if_pos h]; rfl
  have g1 : gate1 c = true → (c.fm = .twoToOneToZero → gate2 c = true) → x1 = Spec.fresh1 env c.fm o := by
    intro h h'
    rw [h1, if_pos h]
    unfold Spec.fresh1
    by_cases hf : c.fm = .twoToOneToZero
    · rw [if_pos hf, if_pos hf, g2 (h' hf)]
    · rw [if_neg hf, if_neg hf]
  have hg2a : c.enable 2 = true ∨ c.enable 4 = true → gate2 c = true := by rintro (h | h) <;> simp [gate2, h]
  have hg1a : c.enable 1 = true ∨ c.enable 3 = true ∨ c.enable 4 = true → gate1 c = true := by rintro (h | h | h) <;> simp [gate1, h]
  have hst : c.enable 3 = true → c.fm = .twoToOneToZero → gate2 c = true := by
    intro h hf
    by_contra hn
    refine hstale ⟨h, ?_⟩
    simp only [gate2, hf, decide_true, Bool.and_true, Bool.or_eq_true, not_or, Bool.not_eq_true] at hn
    exact ⟨hn.1.2.1, hn.1.1.1, hn.1.1.2, .inl ⟨hn.1.2.2, hf⟩⟩
  have hst' : c.enable 3 = true → c.fm = .oneAndTwoToZero → gate2 c = true := by
    intro h hf
    by_contra hn
    refine hstale ⟨h, ?_⟩
    simp only [gate2, hf, decide_true, Bool.and_true, Bool.or_eq_true, not_or, Bool.not_eq_true] at hn
    exact ⟨hn.2, hn.1.1.1, hn.1.1.2, .inr hf⟩
  refine ⟨fun h => g2 (hg2a h), fun h => g1 (hg1a h) fun hf => ?_, fun h => ⟨?_, ?_⟩⟩
  · rcases h with h | h | h
    · simp [gate2, h, hf]
    · exact hst h hf
    · exact hg2a (.inr h)
  · rw [h0, if_pos (by rcases h with h | h <;> simp [h])]
  · have k1 : c.fm ≠ .off → gate1 c = true := fun hf => by rcases h with h | h <;> simp [gate1, h, hf]
    have k2 : c.fm = .twoToOneToZero ∨ c.fm = .oneAndTwoToZero → gate2 c = true := by
      rintro (hf | hf)
      · rcases h with h | h
        · simp [gate2, h, hf]
        · exact hst h hf
      · rcases h with h | h
        · simp [gate2, h, hf]
        · exact hst' h hf
    have kx1 : c.fm ≠ .off → x1 = Spec.fresh1 env c.fm o := fun hf => g1 (k1 hf) fun hf' => k2 (.inl hf')
    unfold Spec.Modulates at hm ⊢
    cases hf : c.fm with
    | off => rw [hf] at hm; exact hm
    | oneToZero => rw [hf] at hm kx1; rw [← kx1 (by simp)]; exact hm
    | twoToOneToZero => rw [hf] at hm kx1; rw [← kx1 (by simp)]; exact hm
    | oneAndTwoToZero => rw [hf] at hm kx1; rw [← kx1 (by simp), ← g2 (k2 (.inr hf))]; exact hm

/-- **C130 (what holds).** With three oscillators loaded, and unless the path is stale (below): a block of a voice succeeds, and its left output is the pre-filter gain times the sum, over the enabled
sources routed to the left, of the level times the source: the three oscillators, the two ring products, the noise, where the oscillators have been processed in this block, each with the modulator the
FM configuration gives it, also of this block.  In the stereo path the right output is the same with the right outputs of the sources. -/
theorem C130_mix_partial (env : Env O) (c : MixCfg) (hstale : ¬Spec.Stale c) (r : Run O) (o : Fin 3 → O) (ho : ∀ i, r.osc i = some (o i)) :
    ∃ (r' : Run O) (m : Option (ℕ → ℝ)), process env c r = .ok r' ∧
      (c.enable 0 = true ∨ c.enable 3 = true → Spec.Modulates env c.fm (Spec.fresh1 env c.fm o) (Spec.fresh2 env o) m) ∧
      ∀ s, s < 64 →
        r'.outL s = Spec.mix c (· < 2) (Spec.left env (env.step 0 m (o 0)) (Spec.fresh1 env c.fm o) (Spec.fresh2 env o) s) s ∧
        (c.wide = true → r'.outR s = Spec.mix c (0 < ·) (Spec.right env (env.step 0 m (o 0)) (Spec.fresh1 env c.fm o) (Spec.fresh2 env o) s) s) := by
  obtain ⟨x0, x1, x2, m, r', e, h2, h1, h0, hm, -, hs⟩ := process_eq env c r o ho
  obtain ⟨n2, n1, n0⟩ := needed env c o hstale h2 h1 h0 (by rw [hm]; exact modulator_modulates env c x1 x2 r.fmbuf)
  refine ⟨r', m, e, fun h => (n0 h).2, fun s h64 => ⟨?_, fun hw => ?_⟩⟩
  · rw [(hs s h64).1]
    refine mix_congr c _ s fun i hi => ?_
    fin_cases i
    · simp only [Spec.left]; rw [(n0 (.inl hi)).1]
    · simp only [Spec.left]; rw [n1 (.inl hi)]
    · simp only [Spec.left]; rw [n2 (.inl hi)]
    · simp only [Spec.left]; rw [(n0 (.inr hi)).1, n1 (.inr (.inl hi))]
    · simp only [Spec.left]; rw [n1 (.inr (.inr hi)), n2 (.inr hi)]
    · rfl
  · rw [(hs s h64).2]
    refine mix_congr c _ s fun i hi => ?_
    rw [if_pos hw]
    fin_cases i
    · simp only [Spec.right]; rw [(n0 (.inl hi)).1]
    · simp only [Spec.right]; rw [n1 (.inl hi)]
    · simp only [Spec.right]; rw [n2 (.inl hi)]
    · simp only [Spec.right]; rw [(n0 (.inr hi)).1, n1 (.inr (.inl hi))]
    · simp only [Spec.right]; rw [n1 (.inr (.inr hi)), n2 (.inr hi)]
    · rfl

/-- **C130 (refutation).** In every path but `Wide`, oscillators and noise never reach the right input (the second filter of the dual, ring and stereo paths): whatever they play and however they are
routed, the right output depends on the rings alone. -/
theorem C130_right_silent_refuted (env : Env O) (c : MixCfg) (hw : c.wide = false) (hr : c.enable 3 = false ∧ c.enable 4 = false) (r : Run O) (o : Fin 3 → O) (ho : ∀ i, r.osc i = some (o i)) :
    ∃ r', process env c r = .ok r' ∧ ∀ s, s < 64 → r'.outR s = 0 := by
  obtain ⟨x0, x1, x2, m, r', e, -, -, -, -, -, hs⟩ := process_eq env c r o ho
  refine ⟨r', e, fun s h64 => ?_⟩
  rw [(hs s h64).2]
  unfold Spec.mix
  rw [Fin.sum_univ_six]
  simp [hw, hr.1, hr.2]

/-- **C130 (refutation).** The stale path: oscillators 0, 1 (and 2) are off, ring 0 plays, and oscillator 2 modulates.  Oscillator 2 is not processed: its modulation is the same block over and over, whatever
its settings. -/
theorem C130_stale_modulator_refuted (env : Env O) (c : MixCfg) (h : Spec.Stale c) (r : Run O) (o : Fin 3 → O) (ho : ∀ i, r.osc i = some (o i)) :
    ∃ r', process env c r = .ok r' ∧ r'.osc 2 = some (o 2) := by
  obtain ⟨x0, x1, x2, m, r', e, h2, -, -, -, hosc, -⟩ := process_eq env c r o ho
  refine ⟨r', e, ?_⟩
  have hg : gate2 c = false := by
    obtain ⟨h3, he0, he2, he4, h' | h'⟩ := h
    · simp [gate2, he0, he2, he4, h'.1]
    · simp [gate2, he0, he2, he4, h']
  have := hosc 2
  rw [hg] at h2
  simp only [Bool.false_eq_true, if_false] at h2
  rw [this, ← h2]
  rfl

/-- **C130 (refutation).** An oscillator of type `Off` is not silence: with oscillator 1 or 2 off, every block in which oscillator 0 or ring 0 plays panics, even though neither oscillator is enabled
and nothing modulates. -/
theorem C130_off_panics_refuted (env : Env O) (c : MixCfg) (h0 : c.enable 0 = true) (h : ∀ i, i ≠ 0 → c.enable i = false) (hfm : c.fm = .off) (r : Run O)
    (ho : r.osc 1 = none ∨ r.osc 2 = none) : (process env c r).isPanic := by
  have g2 : gate2 c = false := by simp [gate2, h 1, h 2, h 4, hfm]
  have g1 : gate1 c = false := by simp [gate1, h 1, h 3, h 4, hfm]
  unfold process
  simp only [g2, g1, h0, stage, Bool.false_eq_true, if_false, Res.ok_bind, Bool.true_or, if_true, zeroth, get]
  rcases ho with ho | ho
  · simp only [ho]; rfl
  · cases h1 : r.osc 1 with
    | none => rfl
    | some o1 => simp only [ho, Res.ok_bind]; rfl

/-- **C131.** Solo and mute.  Exactly these sources are enabled: if any source is soloed, the soloed ones, muted or not; otherwise the ones not muted.  A source that is not enabled does not reach the
output directly: the block sounds the same at any level, on any route. -/
theorem C131_solo_mute (q : Solo) (i : Fin 6) :
    q.enable i = true ↔ if ∃ j, q.solo j = true then q.solo i = true else q.mute i = false := by
  have hany : q.any = true ↔ ∃ j, q.solo j = true := by
    constructor
    · intro h
      simp only [Solo.any, Bool.or_eq_true] at h
      rcases h with ((((h | h) | h) | h) | h) | h <;> exact ⟨_, h⟩
    · rintro ⟨j, hj⟩
      fin_cases j <;> simp_all [Solo.any]
  unfold Solo.enable
  by_cases h : ∃ j, q.solo j = true
  · rw [if_pos (hany.mpr h), if_pos h]
  · rw [if_neg (fun h' => h (hany.mp h')), if_neg h]
    simp

/-- **C131 (second part).** Changing the level and the route of a source that is not enabled changes nothing in the block: neither output, nor any oscillator. -/
theorem C131_disabled_inaudible (env : Env O) (c : MixCfg) (r : Run O) (o : Fin 3 → O) (ho : ∀ i, r.osc i = some (o i)) (k : Fin 6) (hk : c.enable k = false) (l : LipolPs ℝ) (ro : ℤ) :
    ∃ r1 r2, process env c r = .ok r1 ∧ process env ⟨c.enable, c.fm, c.wide, Function.update c.route k ro, Function.update c.lvl k l, c.pfg⟩ r = .ok r2 ∧
      ∀ s, s < 64 → r1.outL s = r2.outL s ∧ r1.outR s = r2.outR s := by
  obtain ⟨x0, x1, x2, m, r1, e, h2, h1, h0, hm, hosc, hs⟩ := process_eq env c r o ho
  obtain ⟨y0, y1, y2, m', r2, e', h2', h1', h0', hm', hosc', hs'⟩ := process_eq env ⟨c.enable, c.fm, c.wide, Function.update c.route k ro, Function.update c.lvl k l, c.pfg⟩ r o ho
  refine ⟨r1, r2, e, e', ?_⟩
  have a2 : y2 = x2 := by rw [h2, h2']; rfl
  have a1 : y1 = x1 := by rw [h1, h1', a2]; rfl
  have am : m' = m := by rw [hm, hm', a1, a2]; rfl
  have a0 : y0 = x0 := by rw [h0, h0', am]
  subst a0 a1 a2
  have key : ∀ (here : ℤ → Prop) [DecidablePred here] (x : Fin 6 → ℝ) (s : ℕ),
      Spec.mix c here x s = Spec.mix ⟨c.enable, c.fm, c.wide, Function.update c.route k ro, Function.update c.lvl k l, c.pfg⟩ here x s := by
    intro here _ x s
    unfold Spec.mix
    congr 1
    refine Finset.sum_congr rfl fun i _ => ?_
    by_cases hi : i = k
    · subst hi; simp [hk]
    · simp only [Function.update_of_ne hi]
  exact fun s h64 => ⟨by rw [(hs s h64).1, (hs' s h64).1]; exact key _ _ s, by rw [(hs s h64).2, (hs' s h64).2]; exact key _ _ s⟩

/-- **C130 (routes).** In the serial paths a source routed to both filters goes to the first alone (it reaches the second through the first); every other route, and every route of the other paths, is kept. -/
theorem C130_routes (route : ℤ) : routeOf true 1 = 0 ∧ (route ≠ 1 → routeOf true route = route) ∧ routeOf false route = route :=
  ⟨rfl, fun h => by simp [routeOf, h], rfl⟩

/-- The hypotheses can be met: a configuration that is not stale (oscillator 0 modulated by the two others), one that is (ring 0 alone, with a modulator), and a state with three oscillators. -/
example (l : LipolPs ℝ) : ¬Spec.Stale ⟨fun i => i = 0, .oneAndTwoToZero, false, fun _ => 0, fun _ => l, l⟩ ∧
    Spec.Stale ⟨fun i => i = 3, .oneAndTwoToZero, false, fun _ => 0, fun _ => l, l⟩ ∧
    ∀ i, (⟨fun i => some i, 0, 0, 0, 0, 0⟩ : Run (Fin 3)).osc i = some i := by
  refine ⟨?_, ?_, fun _ => rfl⟩
  · simp [Spec.Stale]
  · simp [Spec.Stale]

end Verif.Voice
