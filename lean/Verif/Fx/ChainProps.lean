import Verif.Fx.Chain
/-!
# Properties of the effect chain (C55, C56, C57)
-/
set_option linter.unusedSectionVars false
namespace Verif.Fx
open Verif.Smooth

variable {K : Type} [Field K] [LinearOrder K] [IsStrictOrderedRing K] {σ ε : Type}

/-! ## Specification -/

/-- The effect slot went through one call of its own processing function (with some block and flag). -/
def Ran (d : Dsp σ ε (Stereo K)) (before after : σ × Ringout) : Prop :=
  ∃ b p b' p', processRingout d before.1 before.2 b p = .ok (after.1, after.2, b', p')

/-- Which slots a bypass mode lets run: 0-3 are scene inserts, 4-5 sends, 6-7 global. -/
def Spec.allowed : Bypass → Nat → Bool
  | .allFX, _ => true
  | .noSendFX, i => i < 4 || 6 ≤ i
  | .sceneFXOnly, i => i < 4
  | .allFXOff, _ => false

/-- Which slots really run. -/
def Spec.actual : Bypass → Nat → Bool
  | .allFX, _ => true
  | .noSendFX, i => 6 ≤ i
  | .sceneFXOnly, i => i < 4
  | .allFXOff, i => i < 4

theorem bind_ok {α β : Type} {x : Res ε α} {f : α → Res ε β} {v : β} :
    (x >>= f) = .ok v ↔ ∃ a, x = .ok a ∧ f a = .ok v := by
  cases x <;> simp

/-! ## Single slots -/

theorem slot_frame {d : Dsp σ ε (Stereo K)} {dis : Int} {i : Nat} {fx fx' : Nat → σ × Ringout} {b b' : Stereo K}
    {p p' : Bool} (h : slot d dis i fx b p = .ok (fx', b', p')) :
    (∀ j, j ≠ i → fx' j = fx j) ∧ (bitClear dis i = true → Ran d (fx i) (fx' i)) ∧
    (bitClear dis i = false → fx' = fx ∧ b' = b ∧ p' = p) := by
  unfold slot at h
  by_cases hb : bitClear dis i = true
  · rw [if_pos hb, bind_ok] at h
    obtain ⟨⟨st, r, b1, f1⟩, h1, h2⟩ := h
    simp only [Res.ok.injEq, Prod.mk.injEq] at h2
    obtain ⟨rfl, rfl, rfl⟩ := h2
    refine ⟨fun j hj => by simp [setFx, hj], fun _ => ⟨b, p, b1, f1, ?_⟩, fun h => by simp [hb] at h⟩
    simpa [setFx] using h1
  · rw [if_neg hb] at h
    simp only [Res.ok.injEq, Prod.mk.injEq] at h
    obtain ⟨rfl, rfl, rfl⟩ := h
    exact ⟨fun _ _ => rfl, fun h => absurd h hb, fun _ => ⟨rfl, rfl, rfl⟩⟩

/-- What happened to slot `i` between two slot tables. -/
def Outcome (d : Dsp σ ε (Stereo K)) (runs : Bool) (x y : σ × Ringout) : Prop :=
  if runs = true then Ran d x y else y = x

theorem slot_outcome {d : Dsp σ ε (Stereo K)} {dis : Int} {i : Nat} {fx fx' : Nat → σ × Ringout} {b b' : Stereo K}
    {p p' : Bool} (h : slot d dis i fx b p = .ok (fx', b', p')) (j : Nat) :
    Outcome d (decide (j = i) && bitClear dis j) (fx j) (fx' j) := by
  obtain ⟨h1, h2, h3⟩ := slot_frame h
  unfold Outcome
  by_cases hj : j = i
  · subst hj
    cases hb : bitClear dis j with
    | true => simpa [hb] using h2 hb
    | false => simpa [hb] using by rw [(h3 hb).1]
  · simpa [hj] using h1 j hj

theorem Outcome.trans {d : Dsp σ ε (Stereo K)} {r1 r2 : Bool} {x y z : σ × Ringout} (h1 : Outcome d r1 x y)
    (h2 : Outcome d r2 y z) (h : (r1 && r2) = false) : Outcome d (r1 || r2) x z := by
  unfold Outcome at *
  cases r1 <;> cases r2 <;> simp_all

theorem addSend_outcome {d : Dsp σ ε (Stereo K)} {i : Nat} {send : LipolPs K × LipolPs K} {ret : LipolPs K}
    {so : Stereo K × Stereo K} {fs : Stereo K} {c c' : Chain K σ} {scA scB a : Bool}
    (h : addSend d i send ret so fs c scA scB = .ok (c', a)) :
    (∀ j, Outcome d (decide (j = i) && bitClear c.disable j) (c.fx j) (c'.fx j)) ∧
    c'.disable = c.disable ∧ c'.bypass = c.bypass ∧ c'.sendA = c.sendA ∧ c'.sendB = c.sendB ∧ c'.returnA = c.returnA ∧
    c'.returnB = c.returnB := by
  unfold addSend at h
  by_cases hb : bitClear c.disable i = true
  · rw [if_pos hb, bind_ok] at h
    obtain ⟨⟨st, r, b1, f1⟩, h1, h2⟩ := h
    simp only [Res.ok.injEq, Prod.mk.injEq] at h2
    obtain ⟨rfl, rfl⟩ := h2
    refine ⟨fun j => ?_, rfl, rfl, rfl, rfl, rfl, rfl⟩
    unfold Outcome
    by_cases hj : j = i
    · subst hj
      simp only [hb, decide_true, Bool.and_self, if_true, setFx]
      exact ⟨_, _, b1, f1, h1⟩
    · simp [hj, setFx]
  · rw [if_neg hb] at h
    simp only [Res.ok.injEq, Prod.mk.injEq] at h
    obtain ⟨rfl, rfl⟩ := h
    refine ⟨fun j => ?_, rfl, rfl, rfl, rfl, rfl, rfl⟩
    unfold Outcome
    by_cases hj : j = i
    · subst hj; simp [hb]
    · simp [hj]

/-! ## C55: bypass modes and disable bits -/

theorem applyInserts_outcome {d : Dsp σ ε (Stereo K)} {c c' : Chain K σ} {pA pB sA sB : Bool} {byp : Bypass}
    (hb : bypassOf (ε := ε) c.bypass = .ok byp) (h : applyInserts d c pA pB = .ok (c', sA, sB)) :
    (∀ j, Outcome d (decide (byp ≠ .noSendFX) && decide (j < 4) && bitClear c.disable j) (c.fx j) (c'.fx j)) ∧
    c'.disable = c.disable ∧ c'.bypass = c.bypass := by
  unfold applyInserts at h
  rw [hb, Res.ok_bind] at h
  by_cases hn : byp ≠ .noSendFX
  · rw [if_pos hn] at h
    simp only [bind_ok] at h
    obtain ⟨⟨f0, a0, x0⟩, h0, ⟨f1, a1, x1⟩, h1, ⟨f2, b2, x2⟩, h2, ⟨f3, b3, x3⟩, h3, h⟩ := h
    simp only [Res.ok.injEq, Prod.mk.injEq] at h
    obtain ⟨rfl, _, _⟩ := h
    refine ⟨fun j => ?_, rfl, rfl⟩
    have o0 := slot_outcome h0 j
    have o1 := slot_outcome h1 j
    have o2 := slot_outcome h2 j
    have o3 := slot_outcome h3 j
    have o := ((o0.trans o1 (by simp; omega)).trans o2 (by simp; omega)).trans o3 (by simp; omega)
    have e : (((decide (j = 0) && bitClear c.disable j || decide (j = 1) && bitClear c.disable j) ||
        decide (j = 2) && bitClear c.disable j) || decide (j = 3) && bitClear c.disable j)
        = (decide (byp ≠ .noSendFX) && decide (j < 4) && bitClear c.disable j) := by
      cases bitClear c.disable j
      · simp
      · simp [hn]
        rw [Bool.eq_iff_iff]; simp; omega
    rw [← e]
    exact o
  · rw [if_neg hn] at h
    simp only [Res.ok.injEq, Prod.mk.injEq] at h
    obtain ⟨rfl, _, _⟩ := h
    refine ⟨fun j => ?_, rfl, rfl⟩
    simp [Outcome, hn]

theorem applyEffects_outcome {d : Dsp σ ε (Stereo K)} {c c' : Chain K σ} {pA pB : Bool} {so fs : Stereo K × Stereo K}
    {byp : Bypass} (hb : bypassOf (ε := ε) c.bypass = .ok byp) (h : applyEffects d c pA pB so fs = .ok c') (j : Nat)
    (hj : j < 8) :
    Outcome d ((decide (byp = .allFX) && decide (4 ≤ j ∧ j < 6) ||
      decide (byp = .allFX ∨ byp = .noSendFX) && decide (6 ≤ j)) && bitClear c.disable j) (c.fx j) (c'.fx j) := by
  unfold applyEffects at h
  rw [hb, Res.ok_bind, bind_ok] at h
  obtain ⟨⟨c1, aA, aB⟩, h1, h2⟩ := h
  have s1 : Outcome d (decide (byp = .allFX) && decide (4 ≤ j ∧ j < 6) && bitClear c.disable j) (c.fx j) (c1.fx j) ∧
      c1.disable = c.disable := by
    by_cases ha : byp = .allFX
    · rw [if_pos ha] at h1
      simp only [bind_ok] at h1
      obtain ⟨⟨c4, x4⟩, h4, ⟨c5, x5⟩, h5, h⟩ := h1
      simp only [Res.ok.injEq, Prod.mk.injEq] at h
      obtain ⟨rfl, _, _⟩ := h
      obtain ⟨o4, d4, _⟩ := addSend_outcome h4
      obtain ⟨o5, d5, _⟩ := addSend_outcome h5
      have o := (o4 j).trans (o5 j) (by simp; omega)
      rw [d4] at o
      refine ⟨?_, by rw [d5, d4]⟩
      have e : (decide (j = 4) && bitClear c.disable j || decide (j = 5) && bitClear c.disable j)
          = (decide (byp = .allFX) && decide (4 ≤ j ∧ j < 6) && bitClear c.disable j) := by
        cases bitClear c.disable j
        · simp
        · simp [ha]
          rw [Bool.eq_iff_iff]; simp; omega
      rw [← e]; exact o
    · rw [if_neg ha] at h1
      simp only [Res.ok.injEq, Prod.mk.injEq] at h1
      obtain ⟨rfl, _, _⟩ := h1
      exact ⟨by simp [Outcome, ha], rfl⟩
  obtain ⟨s1, sd⟩ := s1
  dsimp only at h2
  by_cases hg : byp = .allFX ∨ byp = .noSendFX
  · rw [if_pos hg] at h2
    simp only [bind_ok] at h2
    obtain ⟨⟨f6, o6, x6⟩, h6, ⟨f7, o7, x7⟩, h7, h⟩ := h2
    simp only [Res.ok.injEq] at h
    subst h
    have q6 := slot_outcome h6 j
    have q7 := slot_outcome h7 j
    rw [sd] at q6 q7
    have o := (s1.trans q6 (by simp; omega)).trans q7 (by simp; omega)
    have e : ((decide (byp = .allFX) && decide (4 ≤ j ∧ j < 6) && bitClear c.disable j || decide (j = 6) && bitClear c.disable j)
        || decide (j = 7) && bitClear c.disable j)
        = ((decide (byp = .allFX) && decide (4 ≤ j ∧ j < 6) ||
      decide (byp = .allFX ∨ byp = .noSendFX) && decide (6 ≤ j)) && bitClear c.disable j) := by
      cases bitClear c.disable j
      · simp
      · rcases hg with rfl | rfl
        · simp
          rw [Bool.eq_iff_iff]; simp; omega
        · simp
          rw [Bool.eq_iff_iff]; simp; omega
    rw [← e]; exact o
  · rw [if_neg hg] at h2
    simp only [Res.ok.injEq] at h2
    subst h2
    simpa [hg] using s1

/-- C55, exactly: in a completed block, effect slot `j` is processed once if the bypass mode runs it (`Spec.actual`) and
its disable bit is clear, and otherwise its state is untouched. -/
theorem C55_slots_run_partial {d : Dsp σ ε (Stereo K)} {eps : K} {c c' : Chain K σ} {pA pB : Bool} {byp : Bypass}
    (hb : bypassOf (ε := ε) c.bypass = .ok byp) (h : runChain d eps c pA pB = .ok c') (j : Nat) (hj : j < 8) :
    if Spec.actual byp j = true ∧ bitClear c.disable j = true then Ran d (c.fx j) (c'.fx j) else c'.fx j = c.fx j := by
  unfold runChain at h
  rw [bind_ok] at h
  obtain ⟨⟨c1, sA, sB⟩, h1, h2⟩ := h
  obtain ⟨o1, d1, b1⟩ := applyInserts_outcome hb h1
  have hb2 : bypassOf (ε := ε) (sumScenes c1).bypass = .ok byp := by
    simp only [sumScenes, b1]; exact hb
  have o2 := applyEffects_outcome hb2 h2 j hj
  have e2 : (sumScenes c1).disable = c.disable := by simp only [sumScenes, d1]
  have e3 : (sumScenes c1).fx = c1.fx := rfl
  rw [e2, e3] at o2
  have o := (o1 j).trans o2 (by cases byp <;> simp <;> omega)
  unfold Outcome at o
  have e : (decide (byp ≠ .noSendFX) && decide (j < 4) && bitClear c.disable j ||
      (decide (byp = .allFX) && decide (4 ≤ j ∧ j < 6) ||
      decide (byp = .allFX ∨ byp = .noSendFX) && decide (6 ≤ j)) && bitClear c.disable j)
      = (Spec.actual byp j && bitClear c.disable j) := by
    cases bitClear c.disable j
    · simp
    · cases byp <;> simp [Spec.actual] <;> omega
  rw [e] at o
  simpa using o

/-- C55, where it holds: with all effects on or only the scene effects, the slots that run are those the mode promises. -/
theorem C55_bypass_partial {d : Dsp σ ε (Stereo K)} {eps : K} {c c' : Chain K σ} {pA pB : Bool} {byp : Bypass}
    (hb : bypassOf (ε := ε) c.bypass = .ok byp) (hm : byp = .allFX ∨ byp = .sceneFXOnly)
    (h : runChain d eps c pA pB = .ok c') (j : Nat) (hj : j < 8) :
    if Spec.allowed byp j = true ∧ bitClear c.disable j = true then Ran d (c.fx j) (c'.fx j) else c'.fx j = c.fx j := by
  have := C55_slots_run_partial hb h j hj
  rcases hm with rfl | rfl <;> simpa [Spec.allowed, Spec.actual] using this

/-- A slot whose disable bit is set is never touched, in any mode. -/
theorem C55_disabled_slot_untouched {d : Dsp σ ε (Stereo K)} {eps : K} {c c' : Chain K σ} {pA pB : Bool} {byp : Bypass}
    (hb : bypassOf (ε := ε) c.bypass = .ok byp) (h : runChain d eps c pA pB = .ok c') (j : Nat) (hj : j < 8)
    (hd : bitClear c.disable j = false) : c'.fx j = c.fx j := by
  simpa [hd] using C55_slots_run_partial hb h j hj

/-- C55 is false of the code: with all effects off, the enabled scene inserts (slots 0-3) still run. -/
theorem C55_all_off_still_runs_inserts {d : Dsp σ ε (Stereo K)} {eps : K} {c c' : Chain K σ} {pA pB : Bool}
    (hb : bypassOf (ε := ε) c.bypass = .ok .allFXOff) (h : runChain d eps c pA pB = .ok c') (j : Nat) (hj : j < 4)
    (hd : bitClear c.disable j = true) : Ran d (c.fx j) (c'.fx j) ∧ Spec.allowed .allFXOff j = false := by
  have := C55_slots_run_partial hb h j (by omega)
  simp only [Spec.actual, hj, decide_true, hd, and_self, if_true] at this
  exact ⟨this, rfl⟩

/-- C55 is false of the code: switching the sends off also switches the scene inserts off. -/
theorem C55_no_send_skips_inserts {d : Dsp σ ε (Stereo K)} {eps : K} {c c' : Chain K σ} {pA pB : Bool}
    (hb : bypassOf (ε := ε) c.bypass = .ok .noSendFX) (h : runChain d eps c pA pB = .ok c') (j : Nat) (hj : j < 4) :
    c'.fx j = c.fx j ∧ Spec.allowed .noSendFX j = true := by
  have := C55_slots_run_partial hb h j (by omega)
  have e : ¬ (6 ≤ j) := by omega
  simp only [Spec.actual, e, decide_false, Bool.false_eq_true, false_and, if_false] at this
  exact ⟨this, by simp [Spec.allowed, hj]⟩

/-! ## C56: what the send effects hear -/

/-- The block that reaches a send effect: the cleared send bus plus the two cleared scene copies, scaled. -/
def Spec.silentBus (eps : K) (send : LipolPs K × LipolPs K) : Stereo K :=
  mac2 send.2 (noise eps, noise eps) (mac2 send.1 (noise eps, noise eps) (noise eps, noise eps))

theorem addSend_input {d : Dsp σ ε (Stereo K)} {i : Nat} {send : LipolPs K × LipolPs K} {ret : LipolPs K}
    {so : Stereo K × Stereo K} {fs : Stereo K} {c c' : Chain K σ} {scA scB a : Bool} (hb : bitClear c.disable i = true)
    (h : addSend d i send ret so fs c scA scB = .ok (c', a)) :
    ∃ b', processRingout d (c.fx i).1 (c.fx i).2 (mac2 send.2 so.2 (mac2 send.1 so.1 fs)) (scA || scB)
      = .ok ((c'.fx i).1, (c'.fx i).2, b', a) := by
  unfold addSend at h
  rw [if_pos hb, bind_ok] at h
  obtain ⟨⟨st, r, b1, f1⟩, h1, h2⟩ := h
  simp only [Res.ok.injEq, Prod.mk.injEq] at h2
  obtain ⟨rfl, rfl⟩ := h2
  refine ⟨b1, ?_⟩
  simpa [setFx] using h1

/-- C56 is false of the code: whatever the two scenes play, the block handed to the send effects is the anti-denormal
pattern; nothing of the scenes is in it. -/
theorem C56_sends_hear_nothing {d : Dsp σ ε (Stereo K)} {eps : K} {c c' : Chain K σ} {pA pB : Bool}
    (hb : bypassOf (ε := ε) c.bypass = .ok .allFX) (h : runChain d eps c pA pB = .ok c') :
    (bitClear c.disable 4 = true → ∃ flag b' out, processRingout d (c.fx 4).1 (c.fx 4).2 (Spec.silentBus eps c.sendA) flag
      = .ok ((c'.fx 4).1, (c'.fx 4).2, b', out)) ∧
    (bitClear c.disable 5 = true → ∃ flag b' out, processRingout d (c.fx 5).1 (c.fx 5).2 (Spec.silentBus eps c.sendB) flag
      = .ok ((c'.fx 5).1, (c'.fx 5).2, b', out)) := by
  unfold runChain at h
  rw [bind_ok] at h
  obtain ⟨⟨c1, sA, sB⟩, h1, h2⟩ := h
  obtain ⟨o1, d1, b1⟩ := applyInserts_outcome hb h1
  have e1 : c1.sendA = c.sendA ∧ c1.sendB = c.sendB := by
    unfold applyInserts at h1
    rw [hb, Res.ok_bind, if_pos (by simp)] at h1
    simp only [bind_ok] at h1
    obtain ⟨_, _, _, _, _, _, _, _, h1⟩ := h1
    simp only [Res.ok.injEq, Prod.mk.injEq] at h1
    obtain ⟨rfl, _, _⟩ := h1
    exact ⟨rfl, rfl⟩
  have f4 : c1.fx 4 = c.fx 4 := by simpa [Outcome] using o1 4
  have f5 : c1.fx 5 = c.fx 5 := by simpa [Outcome] using o1 5
  have hb2 : bypassOf (ε := ε) (sumScenes c1).bypass = .ok .allFX := by
    simp only [sumScenes, b1]; exact hb
  unfold applyEffects at h2
  dsimp only at h2
  rw [hb2, Res.ok_bind] at h2
  simp only [bind_ok, if_true, true_or] at h2
  obtain ⟨⟨cc, aA, aB⟩, ⟨⟨c4, x4⟩, h4, ⟨c5, x5⟩, h5, he⟩, ⟨f6, o6, x6⟩, h6, ⟨f7, o7, x7⟩, h7, hz⟩ := h2
  simp only [Res.ok.injEq, Prod.mk.injEq] at he hz
  obtain ⟨rfl, rfl, rfl⟩ := he
  subst hz
  obtain ⟨q4, d4, _, sA4, sB4, _⟩ := addSend_outcome h4
  obtain ⟨q5, d5, _⟩ := addSend_outcome h5
  have g6 := slot_frame h6
  have g7 := slot_frame h7
  have dis : (sumScenes c1).disable = c.disable := d1
  constructor
  · intro hc
    obtain ⟨b', hp⟩ := addSend_input (by rw [dis]; exact hc) h4
    have z : f7 4 = c4.fx 4 := by
      rw [g7.1 4 (by decide)]
      dsimp only
      rw [g6.1 4 (by decide)]
      simpa [Outcome] using q5 4
    refine ⟨sA || sB, b', x4, ?_⟩
    dsimp only
    rw [z, ← hp]
    simp only [sumScenes, f4, Spec.silentBus, noiseBlock, e1.1]
  · intro hc
    obtain ⟨b', hp⟩ := addSend_input (by rw [d4, dis]; exact hc) h5
    have z : f7 5 = c5.fx 5 := by
      rw [g7.1 5 (by decide)]
      dsimp only
      rw [g6.1 5 (by decide)]
    have y : c4.fx 5 = c.fx 5 := by
      have : c4.fx 5 = (sumScenes c1).fx 5 := by simpa [Outcome] using q4 5
      rw [this]; exact f5
    refine ⟨sA || sB, b', x5, ?_⟩
    dsimp only
    rw [z, ← hp, y]
    simp only [Spec.silentBus, noiseBlock, sB4, sumScenes, e1.2]

/-! ## C57: inserts and the sum -/

/-- C57. The insert effects of one scene do not touch the other: the audio, flag and effect states of scene B after the
inserts are the same whatever scene A plays and whatever its two effects are, and the other way round. -/
theorem C57_inserts_isolated {d : Dsp σ ε (Stereo K)} {c₁ c₂ c₁' c₂' : Chain K σ} {pA₁ pB₁ pA₂ pB₂ sA₁ sB₁ sA₂ sB₂ : Bool}
    (h₁ : applyInserts d c₁ pA₁ pB₁ = .ok (c₁', sA₁, sB₁)) (h₂ : applyInserts d c₂ pA₂ pB₂ = .ok (c₂', sA₂, sB₂))
    (hb : c₁.bypass = c₂.bypass) (hd : c₁.disable = c₂.disable) :
    (c₁.sceneB = c₂.sceneB → pB₁ = pB₂ → c₁.fx 2 = c₂.fx 2 → c₁.fx 3 = c₂.fx 3 →
      c₁'.sceneB = c₂'.sceneB ∧ sB₁ = sB₂ ∧ c₁'.fx 2 = c₂'.fx 2 ∧ c₁'.fx 3 = c₂'.fx 3) ∧
    (c₁.sceneA = c₂.sceneA → pA₁ = pA₂ → c₁.fx 0 = c₂.fx 0 → c₁.fx 1 = c₂.fx 1 →
      c₁'.sceneA = c₂'.sceneA ∧ sA₁ = sA₂ ∧ c₁'.fx 0 = c₂'.fx 0 ∧ c₁'.fx 1 = c₂'.fx 1) := by
  have key : ∀ {i : Nat} {fx₁ fx₂ f₁ f₂ : Nat → σ × Ringout} {b b₁ b₂ : Stereo K} {p q₁ q₂ : Bool},
      slot d c₁.disable i fx₁ b p = .ok (f₁, b₁, q₁) → slot d c₂.disable i fx₂ b p = .ok (f₂, b₂, q₂) →
      fx₁ i = fx₂ i → b₁ = b₂ ∧ q₁ = q₂ ∧ f₁ i = f₂ i := by
    intro i fx₁ fx₂ f₁ f₂ b b₁ b₂ p q₁ q₂ s₁ s₂ he
    rw [← hd] at s₂
    unfold slot at s₁ s₂
    by_cases hc : bitClear c₁.disable i = true
    · rw [if_pos hc, bind_ok] at s₁ s₂
      obtain ⟨⟨st1, r1, x1, y1⟩, t1, u1⟩ := s₁
      obtain ⟨⟨st2, r2, x2, y2⟩, t2, u2⟩ := s₂
      rw [he, t2] at t1
      simp only [Res.ok.injEq, Prod.mk.injEq] at t1 u1 u2
      obtain ⟨rfl, rfl, rfl, rfl⟩ := t1
      obtain ⟨rfl, rfl, rfl⟩ := u1
      obtain ⟨rfl, rfl, rfl⟩ := u2
      simp [setFx]
    · rw [if_neg hc] at s₁ s₂
      simp only [Res.ok.injEq, Prod.mk.injEq] at s₁ s₂
      obtain ⟨rfl, rfl, rfl⟩ := s₁
      obtain ⟨rfl, rfl, rfl⟩ := s₂
      exact ⟨rfl, rfl, he⟩
  unfold applyInserts at h₁ h₂
  rw [← hb] at h₂
  cases hby : bypassOf (ε := ε) c₁.bypass with
  | err e => simp [hby] at h₁
  | panic w => simp [hby] at h₁
  | ok byp =>
    rw [hby, Res.ok_bind] at h₁ h₂
    by_cases hn : byp ≠ .noSendFX
    · rw [if_pos hn] at h₁ h₂
      simp only [bind_ok] at h₁ h₂
      obtain ⟨⟨f0, a0, x0⟩, u0, ⟨f1, a1, x1⟩, u1, ⟨f2, b2, x2⟩, u2, ⟨f3, b3, x3⟩, u3, h₁⟩ := h₁
      obtain ⟨⟨f0', a0', x0'⟩, v0, ⟨f1', a1', x1'⟩, v1, ⟨f2', b2', x2'⟩, v2, ⟨f3', b3', x3'⟩, v3, h₂⟩ := h₂
      simp only [Res.ok.injEq, Prod.mk.injEq] at h₁ h₂
      obtain ⟨rfl, rfl, rfl⟩ := h₁
      obtain ⟨rfl, rfl, rfl⟩ := h₂
      dsimp only at *
      have U0 := slot_frame u0; have U1 := slot_frame u1; have U2 := slot_frame u2; have U3 := slot_frame u3
      have V0 := slot_frame v0; have V1 := slot_frame v1; have V2 := slot_frame v2; have V3 := slot_frame v3
      constructor
      · intro eB eP e2 e3
        rw [eB, eP] at u2
        obtain ⟨rfl, rfl, g2⟩ := key u2 v2 (by
          rw [U1.1 2 (by decide), U0.1 2 (by decide), V1.1 2 (by decide), V0.1 2 (by decide), e2])
        obtain ⟨rfl, rfl, g3⟩ := key u3 v3 (by
          rw [U2.1 3 (by decide), U1.1 3 (by decide), U0.1 3 (by decide), V2.1 3 (by decide), V1.1 3 (by decide),
            V0.1 3 (by decide), e3])
        exact ⟨rfl, rfl, by rw [U3.1 2 (by decide), V3.1 2 (by decide), g2], g3⟩
      · intro eA eP e0 e1
        rw [eA, eP] at u0
        obtain ⟨rfl, rfl, g0⟩ := key u0 v0 e0
        obtain ⟨rfl, rfl, g1⟩ := key u1 v1 (by rw [U0.1 1 (by decide), V0.1 1 (by decide), e1])
        refine ⟨rfl, rfl, ?_, ?_⟩
        · rw [U3.1 0 (by decide), U2.1 0 (by decide), U1.1 0 (by decide), V3.1 0 (by decide), V2.1 0 (by decide),
            V1.1 0 (by decide), g0]
        · rw [U3.1 1 (by decide), U2.1 1 (by decide), V3.1 1 (by decide), V2.1 1 (by decide), g1]
    · rw [if_neg hn] at h₁ h₂
      simp only [Res.ok.injEq, Prod.mk.injEq] at h₁ h₂
      obtain ⟨rfl, rfl, rfl⟩ := h₁
      obtain ⟨rfl, rfl, rfl⟩ := h₂
      exact ⟨fun a b c d => ⟨a, b, c, d⟩, fun a b c d => ⟨a, b, c, d⟩⟩

theorem slot_disabled (d : Dsp σ ε (Stereo K)) {dis : Int} {i : Nat} (h : bitClear dis i = false)
    (fx : Nat → σ × Ringout) (b : Stereo K) (p : Bool) : slot d dis i fx b p = .ok (fx, b, p) := by
  unfold slot
  rw [if_neg (by simp [h])]

/-- With every slot off the chain only sums the scenes. -/
theorem runChain_dry (d : Dsp σ ε (Stereo K)) (eps : K) (c : Chain K σ) (pA pB : Bool) {byp : Bypass}
    (hb : bypassOf (ε := ε) c.bypass = .ok byp) (hd : ∀ i, i < 8 → bitClear c.disable i = false) :
    runChain d eps c pA pB = .ok (sumScenes c) := by
  have hi : applyInserts d c pA pB = .ok (c, pA, pB) := by
    unfold applyInserts
    rw [hb, Res.ok_bind]
    by_cases hn : byp ≠ .noSendFX
    · rw [if_pos hn]
      simp only [slot_disabled d (hd 0 (by decide)), slot_disabled d (hd 1 (by decide)), slot_disabled d (hd 2 (by decide)),
        slot_disabled d (hd 3 (by decide)), Res.ok_bind]
    · rw [if_neg hn]
  unfold runChain
  rw [hi, Res.ok_bind]
  unfold applyEffects
  dsimp only
  have hb2 : bypassOf (ε := ε) (sumScenes c).bypass = .ok byp := hb
  have hs : ∀ i, i < 8 → bitClear (sumScenes c).disable i = false := hd
  rw [hb2, Res.ok_bind]
  have ha : ∀ i send ret so fs, i < 8 →
      addSend d i send ret so fs (sumScenes c) pA pB = .ok (sumScenes c, false) := by
    intro i send ret so fs h
    unfold addSend
    rw [if_neg (by simp [hs i h])]
  by_cases h1 : byp = .allFX
  · have h1' : byp = .allFX ∨ byp = .noSendFX := Or.inl h1
    simp only [if_pos h1, if_pos h1', ha 4 _ _ _ _ (by decide), ha 5 _ _ _ _ (by decide), Res.ok_bind, slot_disabled d (hs 6 (by decide)),
      slot_disabled d (hs 7 (by decide))]
  · rw [if_neg h1]
    simp only [Res.ok_bind, slot_disabled d (hs 6 (by decide)), slot_disabled d (hs 7 (by decide)), ite_self]

/-- C57. With every effect disabled the chain always completes, in every bypass mode: the output block is the sample-wise
sum of the two scenes, nothing outside the block changes, and the scenes and effects are as before. -/
theorem C57_dry_sum (d : Dsp σ ε (Stereo K)) (eps : K) (c : Chain K σ) (pA pB : Bool) {byp : Bypass}
    (hb : bypassOf (ε := ε) c.bypass = .ok byp) (hd : ∀ i, i < 8 → bitClear c.disable i = false) :
    ∃ c', runChain d eps c pA pB = .ok c' ∧ c'.sceneA = c.sceneA ∧ c'.sceneB = c.sceneB ∧ c'.fx = c.fx ∧
      (∀ s, s < 32 → c'.out.1 s = c.sceneA.1 s + c.sceneB.1 s ∧ c'.out.2 s = c.sceneA.2 s + c.sceneB.2 s) ∧
      (∀ s, 32 ≤ s → c'.out.1 s = c.out.1 s ∧ c'.out.2 s = c.out.2 s) := by
  have he := runChain_dry d eps c pA pB hb hd
  refine ⟨sumScenes c, he, rfl, rfl, rfl, fun s h => ?_, fun s h => ?_⟩
  · simp [sumScenes, inBlock, h]
  · have : ¬ s < 32 := by omega
    simp [sumScenes, inBlock, this]

/-- C57. With the sends off, the effects work in series: each scene goes through its two inserts, the sum of the scenes
through the two global effects, each taking the output of the one before. For effects that always answer with a function
of their input. -/
theorem C57_series {d : Dsp σ ε (Stereo K)} {F : σ → Stereo K → Stereo K} (hF : ∀ st r b, ∃ st' r', d.stereo st r b = .ok (st', r', F st b))
    (eps : K) (c : Chain K σ) (hb : bypassOf (ε := ε) c.bypass = .ok .allFX) (hon : ∀ i, i < 8 → i ≠ 4 → i ≠ 5 → bitClear c.disable i = true)
    (hoff : bitClear c.disable 4 = false ∧ bitClear c.disable 5 = false) :
    ∃ c', runChain d eps c true true = .ok c' ∧ c'.sceneA = F (c.fx 1).1 (F (c.fx 0).1 c.sceneA) ∧ c'.sceneB = F (c.fx 3).1 (F (c.fx 2).1 c.sceneB) ∧
      c'.out = F (c.fx 7).1 (F (c.fx 6).1 (fun s => if s < 32 then c'.sceneA.1 s + c'.sceneB.1 s else c.out.1 s,
        fun s => if s < 32 then c'.sceneA.2 s + c'.sceneB.2 s else c.out.2 s)) := by
  have pr : ∀ st r b, ∃ st' r', processRingout d st r b true = .ok (st', r', F st b, true) := by
    intro st r b
    unfold processRingout ringoutHead
    cases r with
    | on cc dd =>
      obtain ⟨st', r', e⟩ := hF st (Ringout.reset (.on cc dd)) b
      exact ⟨st', r', by simp [e]⟩
    | off =>
      obtain ⟨st', r', e⟩ := hF st .off b
      exact ⟨st', r', by simp [e]⟩
  have sl : ∀ (dis : Int) (i : Nat) (fx : Nat → σ × Ringout) (b : Stereo K), bitClear dis i = true →
      ∃ v, slot d dis i fx b true = .ok (setFx fx i v, F (fx i).1 b, true) := by
    intro dis i fx b h
    obtain ⟨st', r', e⟩ := pr (fx i).1 (fx i).2 b
    exact ⟨(st', r'), by unfold slot; rw [if_pos h, e]; rfl⟩
  obtain ⟨v0, e0⟩ := sl c.disable 0 c.fx c.sceneA (hon 0 (by decide) (by decide) (by decide))
  obtain ⟨v1, e1⟩ := sl c.disable 1 (setFx c.fx 0 v0) (F (c.fx 0).1 c.sceneA) (hon 1 (by decide) (by decide) (by decide))
  obtain ⟨v2, e2⟩ := sl c.disable 2 (setFx (setFx c.fx 0 v0) 1 v1) c.sceneB (hon 2 (by decide) (by decide) (by decide))
  obtain ⟨v3, e3⟩ := sl c.disable 3 (setFx (setFx (setFx c.fx 0 v0) 1 v1) 2 v2) (F (setFx (setFx c.fx 0 v0) 1 v1 2).1 c.sceneB) (hon 3 (by decide) (by decide) (by decide))
  have ins : applyInserts d c true true = .ok ({ c with fx := setFx (setFx (setFx (setFx c.fx 0 v0) 1 v1) 2 v2) 3 v3, sceneA := F (setFx c.fx 0 v0 1).1 (F (c.fx 0).1 c.sceneA), sceneB := F (setFx (setFx (setFx c.fx 0 v0) 1 v1) 2 v2 3).1 (F (setFx (setFx c.fx 0 v0) 1 v1 2).1 c.sceneB) }, true, true) := by
    unfold applyInserts
    rw [hb, Res.ok_bind, if_pos (by decide)]
    simp only [e0, Res.ok_bind, e1, e2, e3]
  have s1 : setFx c.fx 0 v0 1 = c.fx 1 := by simp [setFx]
  have s2 : setFx (setFx c.fx 0 v0) 1 v1 2 = c.fx 2 := by simp [setFx]
  have s3 : setFx (setFx (setFx c.fx 0 v0) 1 v1) 2 v2 3 = c.fx 3 := by simp [setFx]
  rw [s1, s2, s3] at ins
  generalize hc1 : ({ c with fx := setFx (setFx (setFx (setFx c.fx 0 v0) 1 v1) 2 v2) 3 v3, sceneA := F (c.fx 1).1 (F (c.fx 0).1 c.sceneA), sceneB := F (c.fx 3).1 (F (c.fx 2).1 c.sceneB) } : Chain K σ) = c1 at ins
  have f6 : c1.fx 6 = c.fx 6 := by rw [← hc1]; simp [setFx]
  have f7 : c1.fx 7 = c.fx 7 := by rw [← hc1]; simp [setFx]
  have dis : c1.disable = c.disable := by rw [← hc1]
  have byp : c1.bypass = c.bypass := by rw [← hc1]
  have oo : c1.out = c.out := by rw [← hc1]
  have sa : c1.sceneA = F (c.fx 1).1 (F (c.fx 0).1 c.sceneA) := by rw [← hc1]
  have sb : c1.sceneB = F (c.fx 3).1 (F (c.fx 2).1 c.sceneB) := by rw [← hc1]
  have hsum : (sumScenes c1).fx = c1.fx ∧ (sumScenes c1).disable = c1.disable ∧ (sumScenes c1).bypass = c1.bypass ∧ (sumScenes c1).sceneA = c1.sceneA ∧ (sumScenes c1).sceneB = c1.sceneB := ⟨rfl, rfl, rfl, rfl, rfl⟩
  obtain ⟨v6, e6⟩ := sl (sumScenes c1).disable 6 (sumScenes c1).fx (sumScenes c1).out (by rw [hsum.2.1, dis]; exact hon 6 (by decide) (by decide) (by decide))
  obtain ⟨v7, e7⟩ := sl (sumScenes c1).disable 7 (setFx (sumScenes c1).fx 6 v6) (F ((sumScenes c1).fx 6).1 (sumScenes c1).out) (by rw [hsum.2.1, dis]; exact hon 7 (by decide) (by decide) (by decide))
  have ad : ∀ i send ret so fs, i = 4 ∨ i = 5 → addSend d i send ret so fs (sumScenes c1) true true = .ok (sumScenes c1, false) := by
    intro i send ret so fs h
    unfold addSend
    rw [if_neg (by rw [hsum.2.1, dis]; rcases h with rfl | rfl <;> simp [hoff.1, hoff.2])]
  refine ⟨{ sumScenes c1 with fx := setFx (setFx (sumScenes c1).fx 6 v6) 7 v7, out := F (setFx (sumScenes c1).fx 6 v6 7).1 (F ((sumScenes c1).fx 6).1 (sumScenes c1).out) }, ?_, ?_, ?_, ?_⟩
  · unfold runChain
    rw [ins, Res.ok_bind]
    dsimp only
    unfold applyEffects
    rw [hsum.2.2.1, byp, hb, Res.ok_bind, if_pos rfl]
    simp only [ad 4 _ _ _ _ (.inl rfl), ad 5 _ _ _ _ (.inr rfl), Res.ok_bind, Bool.or_false, Bool.or_self]
    simp only [true_or, if_true, e6, Res.ok_bind, e7, hsum.2.2.1, byp]
  · exact sa
  · exact sb
  · dsimp only
    have s7 : setFx (sumScenes c1).fx 6 v6 7 = c.fx 7 := by simp [setFx, hsum.1, f7]
    rw [s7, hsum.1, f6]
    congr 2
    simp only [sumScenes, inBlock, oo, decide_eq_true_eq]

/-! ## Non-vacuity -/

/-- An effect that doubles both channels and counts its calls. -/
def demoDsp : Dsp Nat Empty (Stereo ℚ) where
  stereo := fun n r b => .ok (n + 1, r, (fun s => 2 * b.1 s, fun s => 2 * b.2 s))
  control := id

/-- Constant scenes 1 and 3, all slots with a ring-out of 1000 blocks. -/
def demoChain (bypass disable : Int) : Chain ℚ Nat :=
  { fx := fun _ => (0, .blocks 1000), sceneA := (fun _ => 1, fun _ => 1), sceneB := (fun _ => 3, fun _ => 3),
    out := (fun _ => 0, fun _ => 0), bypass, disable, sendA := (.default, .default), sendB := (.default, .default),
    returnA := .default, returnB := .default }

def Res.getFx (r : Res Empty (Chain ℚ Nat)) (i : Nat) : Option Nat :=
  match r with
  | .ok c => some (c.fx i).1
  | _ => none

example : (List.range 8).map (Res.getFx (runChain demoDsp 0 (demoChain 0 0) true true))
    = [some 1, some 1, some 1, some 1, some 1, some 1, some 1, some 1] := by decide +kernel
/-- All effects off: the four inserts ran all the same. -/
example : (List.range 8).map (Res.getFx (runChain demoDsp 0 (demoChain 3 0) true true))
    = [some 1, some 1, some 1, some 1, some 0, some 0, some 0, some 0] := by decide +kernel
example : (List.range 8).map (Res.getFx (runChain demoDsp 0 (demoChain 1 0) true true))
    = [some 0, some 0, some 0, some 0, some 0, some 0, some 1, some 1] := by decide +kernel
/-- Slots 0 and 7 disabled. -/
example : (List.range 8).map (Res.getFx (runChain demoDsp 0 (demoChain 0 129) true true))
    = [some 0, some 1, some 1, some 1, some 1, some 1, some 1, some 0] := by decide +kernel
example : ∀ i, i < 8 → bitClear 255 i = false := by decide +kernel
example : (bypassOf (demoChain 0 48).bypass : Res Empty Bypass) = .ok .allFX ∧ (∀ i, i < 8 → i ≠ 4 → i ≠ 5 → bitClear (demoChain 0 48).disable i = true) ∧
    bitClear (demoChain 0 48).disable 4 = false ∧ bitClear (demoChain 0 48).disable 5 = false ∧
    ∀ st r b, ∃ st' r', demoDsp.stereo st r b = .ok (st', r', (fun s => 2 * b.1 s, fun s => 2 * b.2 s)) :=
  ⟨rfl, by decide +kernel, by decide +kernel, by decide +kernel, fun st r _ => ⟨st + 1, r, rfl⟩⟩

end Verif.Fx
