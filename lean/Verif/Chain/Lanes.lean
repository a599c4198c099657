import Verif.Chain.Spec
/-!
# Voices in a quad are independent (C123)
-/
namespace Verif.Chain

set_option linter.unusedSimpArgs false

variable {L : Type}

/-- The voice in lane `i` of a chain whose unit states are four lane states. -/
def ChainState.lane (c : ChainState (Fin 4 → L)) (i : Fin 4) : Spec.Voice L :=
  ⟨c.u0 i, c.u1 i, c.u2 i, c.u3 i, c.active i, c.gain i, c.feedback i, c.mix1 i, c.mix2 i, c.drive i, c.dGain i, c.dFeedback i, c.dMix1 i, c.dMix2 i,
    c.dDrive i, c.wsLpf i, c.fbL i, c.fbR i, c.outL i, c.outR i, c.doutL i, c.doutR i, c.out2L i, c.out2R i, c.dout2L i, c.dout2R i⟩

/-- A filter that treats each lane by itself, as all the quad filters do. -/
def eachLane (f : L → ℝ → L × ℝ) : FilterFn (Fin 4 → L) := fun u x => (fun i => (f (u i) (x i)).1, fun i => (f (u i) (x i)).2)

/-- The units of a chain, each lane by itself. -/
def globals (p : Spec.Units L) : FbqGlobal (Fin 4 → L) :=
  ⟨p.fa.map eachLane, p.fb.map eachLane, p.ws.map fun w => fun x d i => w (x i) (d i)⟩

/-- What the four voices add up to. -/
noncomputable def total (h : Fin 4 → ℝ × ℝ) : ℝ × ℝ := (∑ i, (h i).1, ∑ i, (h i).2)

theorem sumPs_eq (x : V4) : sumPs x = ∑ i, x i := by
  rw [Fin.sum_univ_four, sumPs]; ring

/-- A chain from its four voices. -/
def ofLanes (v : Fin 4 → Spec.Voice L) : ChainState (Fin 4 → L) :=
  ⟨fun i => (v i).a, fun i => (v i).b, fun i => (v i).a2, fun i => (v i).b2, fun i => (v i).active, fun i => (v i).gain, fun i => (v i).feedback,
    fun i => (v i).mix1, fun i => (v i).mix2, fun i => (v i).drive, fun i => (v i).dGain, fun i => (v i).dFeedback, fun i => (v i).dMix1, fun i => (v i).dMix2,
    fun i => (v i).dDrive, fun i => (v i).lp, fun i => (v i).fbL, fun i => (v i).fbR, fun i => (v i).outL, fun i => (v i).outR, fun i => (v i).doutL,
    fun i => (v i).doutR, fun i => (v i).out2L, fun i => (v i).out2R, fun i => (v i).dout2L, fun i => (v i).dout2R⟩

theorem lane_ofLanes (v : Fin 4 → Spec.Voice L) (i : Fin 4) : (ofLanes v).lane i = v i := rfl

/-- What a sample should leave: every voice advanced by itself, the outputs raised by the sum of what the voices put out. -/
noncomputable def Expected (cfg : Config) (p : Spec.Units L) (dl dr : V4) (k : ℕ) (c : ChainState (Fin 4 → L)) (o : Bufs) : ChainState (Fin 4 → L) × Bufs :=
  (ofLanes fun i => (Spec.voice cfg p (c.lane i) (dl i) (dr i)).1,
    (Function.update o.1 k (o.1 k + ∑ i, (Spec.voice cfg p (c.lane i) (dl i) (dr i)).2.1),
        Function.update o.2 k (o.2 k + ∑ i, (Spec.voice cfg p (c.lane i) (dl i) (dr i)).2.2)))

/-- The sample is as expected. -/
def Good (cfg : Config) : Prop := ∀ {L : Type} (p : Spec.Units L) (dl dr : V4) (k : ℕ) (c : ChainState (Fin 4 → L)) (o : Bufs),
  sampleOf false cfg (globals p).fu1.isSome (globals p).ws.isSome (globals p).fu2.isSome (globals p) dl dr k (c, o) = some (Expected cfg p dl dr k c o)

theorem half_mul (x : ℝ) : (0.5 : ℝ) * x = x / 2 := by norm_num; ring

theorem two_step (x y : ℝ) : x + y + y = x + 2 * y := by ring

set_option maxHeartbeats 2000000 in
theorem good_serial1 : Good .serial1 := by
  intro L p dl dr k c o
  obtain ⟨fa, fb, ws⟩ := p
  cases fa <;> cases fb <;> cases ws <;>
    (simp [sampleOf, Chain.serial1, globals, filterA, filterB, shapeLp, blend1, writeOutputs, sumPs_eq, mask, eachLane, half_mul, Expected, ofLanes, ChainState.lane, softclipPs,
        Spec.voice, Spec.serial1, Spec.run, Spec.blend, Spec.gate, Spec.driveOf, Spec.lpOf, Spec.shapedLp, Spec.frontOn, Spec.mix1Of, Spec.front, Spec.heardMono, Spec.returned]
     and_intros <;> (funext i; simp [half_mul, mask, eachLane, softclipPs]))

set_option maxHeartbeats 2000000 in
theorem good_serial2 : Good .serial2 := by
  intro L p dl dr k c o
  obtain ⟨fa, fb, ws⟩ := p
  cases fa <;> cases fb <;> cases ws <;>
    (simp [sampleOf, Chain.serial2, globals, filterA, filterB, shapeLp, blend1, writeOutputs, sumPs_eq, mask, eachLane, half_mul, Expected, ofLanes, ChainState.lane, softclipPs,
        Spec.voice, Spec.serial2, Spec.run, Spec.blend, Spec.gate, Spec.driveOf, Spec.lpOf, Spec.shapedLp, Spec.frontOn, Spec.mix1Of, Spec.front, Spec.heardMono, Spec.returned]
     and_intros <;> (funext i; simp [half_mul, mask, eachLane, softclipPs]))

set_option maxHeartbeats 2000000 in
theorem good_serial3 : Good .serial3 := by
  intro L p dl dr k c o
  obtain ⟨fa, fb, ws⟩ := p
  cases fa <;> cases fb <;> cases ws <;>
    (simp [sampleOf, Chain.serial3, globals, filterA, filterB, shapeLp, blend1, writeOutputs, sumPs_eq, mask, eachLane, half_mul, Expected, ofLanes, ChainState.lane, softclipPs,
        Spec.voice, Spec.serial3, Spec.run, Spec.blend, Spec.gate, Spec.driveOf, Spec.lpOf, Spec.shapedLp, Spec.frontOn, Spec.mix1Of, Spec.front, Spec.heardMono, Spec.returned]
     and_intros <;> (funext i; simp [half_mul, mask, eachLane, softclipPs]))

set_option maxHeartbeats 2000000 in
theorem good_dual1 : Good .dual1 := by
  intro L p dl dr k c o
  obtain ⟨fa, fb, ws⟩ := p
  cases fa <;> cases fb <;> cases ws <;>
    (simp [sampleOf, Chain.dual1, globals, filterA, filterB, shapeLp, blend1, writeOutputs, sumPs_eq, mask, eachLane, half_mul, Expected, ofLanes, ChainState.lane, softclipPs,
        Spec.voice, Spec.dual1, Spec.run, Spec.blend, Spec.gate, Spec.driveOf, Spec.lpOf, Spec.shapedLp, Spec.frontOn, Spec.mix1Of, Spec.front, Spec.heardMono, Spec.returned]
     and_intros <;> (funext i; simp [half_mul, mask, eachLane, softclipPs]))

set_option maxHeartbeats 2000000 in
theorem good_dual2 : Good .dual2 := by
  intro L p dl dr k c o
  obtain ⟨fa, fb, ws⟩ := p
  cases fa <;> cases fb <;> cases ws <;>
    (simp [sampleOf, Chain.dual2, globals, filterA, filterB, shapeLp, blend1, writeOutputs, sumPs_eq, mask, eachLane, half_mul, Expected, ofLanes, ChainState.lane, softclipPs,
        Spec.voice, Spec.dual2, Spec.run, Spec.blend, Spec.gate, Spec.driveOf, Spec.lpOf, Spec.shapedLp, Spec.frontOn, Spec.mix1Of, Spec.front, Spec.heardMono, Spec.returned]
     and_intros <;> (funext i; simp [half_mul, mask, eachLane, softclipPs]))

set_option maxHeartbeats 2000000 in
theorem good_ring : Good .ring := by
  intro L p dl dr k c o
  have cm : ∀ m y : ℝ, (1 - m) * y = y * (1 - m) := fun m y => mul_comm _ _
  obtain ⟨fa, fb, ws⟩ := p
  cases fa <;> cases fb <;> cases ws <;>
    (simp [sampleOf, Chain.ring, globals, filterA, filterB, shapeLp, blend1, writeOutputs, sumPs_eq, mask, eachLane, half_mul, Expected, ofLanes, ChainState.lane, softclipPs,
        Spec.voice, Spec.ring, Spec.run, Spec.blend, Spec.gate, Spec.driveOf, Spec.lpOf, Spec.shapedLp, Spec.frontOn, Spec.mix1Of, Spec.front, Spec.heardMono, Spec.returned, cm]
     and_intros <;> (funext i; simp [half_mul, mask, eachLane, softclipPs, cm]))

set_option maxHeartbeats 4000000 in
theorem good_stereo : Good .stereo := by
  intro L p dl dr k c o
  obtain ⟨fa, fb, ws⟩ := p
  cases fa <;> cases fb <;> cases ws <;>
    (simp [sampleOf, Chain.stereo, globals, filterA, filterB, filterAA, filterBB, shapeTwo, blendTwo, writeOutputsDual, assertReasonable, sumPs_eq, mask, eachLane, two_step, Expected, ofLanes,
        ChainState.lane, softclipPs, Spec.voice, Spec.stereo, Spec.wideChannel, Spec.run, Spec.blend, Spec.gate, Spec.driveOf, Spec.shaped, Spec.frontOn, Spec.mix1Of, Spec.front,
        Spec.heardTwo, Spec.returned]
     and_intros <;> (funext i; simp [two_step, mask, eachLane, softclipPs]))

set_option maxHeartbeats 4000000 in
theorem good_wide : Good .wide := by
  intro L p dl dr k c o
  obtain ⟨fa, fb, ws⟩ := p
  cases fa <;> cases fb <;> cases ws <;>
    (simp [sampleOf, Chain.wide, globals, filterA, filterB, filterAA, filterBB, shapeTwo, blendTwo, writeOutputsDual, assertReasonable, sumPs_eq, mask, eachLane, two_step, Expected, ofLanes,
        ChainState.lane, softclipPs, Spec.voice, Spec.wide, Spec.wideChannel, Spec.run, Spec.blend, Spec.gate, Spec.driveOf, Spec.shaped, Spec.frontOn, Spec.mix1Of, Spec.front,
        Spec.heardTwo, Spec.returned]
     and_intros <;> (funext i; simp [two_step, mask, eachLane, softclipPs]))

theorem good (cfg : Config) : Good cfg := by
  cases cfg
  · exact good_serial1
  · exact good_serial2
  · exact good_serial3
  · exact good_dual1
  · exact good_dual2
  · exact good_stereo
  · exact good_ring
  · exact good_wide

/-- **C123.** Whatever the configuration, whichever of the units are present, and whatever the four voices hold and play: processing a block (of any length) with the units it was
made for does not panic (in a build without debug assertions); it leaves every lane as that voice would be had it been processed alone; and it adds to each output sample the sum of
what the four voices would each have put out alone, and nothing else. -/
theorem C123_voices_independent (cfg : Config) (p : Spec.Units L) (dl dr : ℕ → V4) (n : ℕ) (c : ChainState (Fin 4 → L)) (o : Bufs) :
    ∃ c' o', processQuad false cfg (globals p) (globals p) dl dr n (c, o) = some (c', o') ∧
      (∀ i, c'.lane i = Spec.state cfg p (c.lane i) (fun k => dl k i) (fun k => dr k i) n) ∧
      (∀ k, o'.1 k = if k < n then o.1 k + ∑ i, (Spec.heard cfg p (c.lane i) (fun k => dl k i) (fun k => dr k i) k).1 else o.1 k) ∧
      (∀ k, o'.2 k = if k < n then o.2 k + ∑ i, (Spec.heard cfg p (c.lane i) (fun k => dl k i) (fun k => dr k i) k).2 else o.2 k) := by
  induction n with
  | zero => exact ⟨c, o, rfl, fun _ => rfl, fun k => by simp, fun k => by simp⟩
  | succ n ih =>
    obtain ⟨c1, o1, h1, h2, h3, h4⟩ := ih
    have hg := good cfg p (dl n) (dr n) n c1 o1
    refine ⟨(Expected cfg p (dl n) (dr n) n c1 o1).1, (Expected cfg p (dl n) (dr n) n c1 o1).2, ?_, fun i => ?_, fun k => ?_, fun k => ?_⟩
    · unfold processQuad block at h1 ⊢
      rw [List.range_succ, List.foldlM_append, h1]
      simp only [Option.bind_eq_bind, Option.bind_some, List.foldlM_cons, List.foldlM_nil, hg]
      rfl
    · rw [Expected, lane_ofLanes, h2]
      rfl
    · simp only [Expected, h2]
      by_cases hk : k = n
      · subst hk
        rw [Function.update_self, h3, if_neg (lt_irrefl _), if_pos (Nat.lt_succ_self _)]
        rfl
      · rw [Function.update_of_ne hk, h3]
        by_cases hl : k < n
        · rw [if_pos hl, if_pos (by omega)]
        · rw [if_neg hl, if_neg (by omega)]
    · simp only [Expected, h2]
      by_cases hk : k = n
      · subst hk
        rw [Function.update_self, h4, if_neg (lt_irrefl _), if_pos (Nat.lt_succ_self _)]
        rfl
      · rw [Function.update_of_ne hk, h4]
        by_cases hl : k < n
        · rw [if_pos hl, if_pos (by omega)]
        · rw [if_neg hl, if_neg (by omega)]

theorem state_active (cfg : Config) (p : Spec.Units L) (v : Spec.Voice L) (dl dr : ℕ → ℝ) (k : ℕ) : (Spec.state cfg p v dl dr k).active = v.active := by
  induction k with
  | zero => rfl
  | succ k ih => rw [← ih]; cases cfg <;> rfl

/-- **C123 (silent lanes).** A lane whose mask is off puts nothing out, whatever is left in it. -/
theorem C123_inactive_silent (cfg : Config) (p : Spec.Units L) (v : Spec.Voice L) (h : v.active = false) (dl dr : ℕ → ℝ) (k : ℕ) :
    Spec.heard cfg p v dl dr k = (0, 0) := by
  have ha : (Spec.state cfg p v dl dr k).active = false := by rw [state_active, h]
  unfold Spec.heard
  cases cfg <;> simp [Spec.voice, Spec.serial1, Spec.serial2, Spec.serial3, Spec.dual1, Spec.dual2, Spec.ring, Spec.stereo, Spec.wide, Spec.wideChannel, Spec.gate, ha,
    Spec.heardMono, Spec.heardTwo]

/-- **C123 (debug builds).** With debug assertions on, the six configurations with one output signal behave the same, -/
theorem C123_debug_mono (cfg : Config) (h : cfg ≠ .stereo ∧ cfg ≠ .wide) {U : Type} (g g' : FbqGlobal U) (dl dr : ℕ → V4) (n : ℕ) (s : ChainState U × Bufs) :
    processQuad true cfg g g' dl dr n s = processQuad false cfg g g' dl dr n s := by
  cases cfg <;> first | rfl | simp at h

/-- but `stereo` and `wide` panic once a sample of the *sum* of all voices so far reaches 32 — even if this quad is silent. -/
theorem C123_debug_refuted (cfg : Config) (h : cfg = .stereo ∨ cfg = .wide) (n : ℕ) (c : ChainState (Fin 4 → L)) (hc : ∀ i, c.active i = false) (o : Bufs) (ho : 32 ≤ o.1 0) :
    processQuad true cfg (globals (⟨none, none, none⟩ : Spec.Units L)) (globals ⟨none, none, none⟩) (fun _ _ => 0) (fun _ _ => 0) (n + 1) (c, o) = none := by
  unfold processQuad block
  rw [List.range_succ_eq_map, List.foldlM_cons]
  have hn : ¬ o.1 0 < 32 := not_lt.mpr ho
  rcases h with rfl | rfl
  · simp [sampleOf, stereo, globals, filterA, filterB, shapeTwo, writeOutputsDual, assertReasonable, sumPs, mask, hc, hn]
  · simp [sampleOf, wide, globals, filterAA, filterBB, blendTwo, shapeTwo, writeOutputsDual, assertReasonable, sumPs, mask, hc, hn]

end Verif.Chain
