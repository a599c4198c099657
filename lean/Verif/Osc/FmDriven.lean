import Verif.Osc.Fm
/-!
# The FM and sine oscillators with a modulator buffer (C200)

`assign_fm` does nothing (C159), but `master_osc` is a public field of both oscillators: a caller can set it before a block.  Here the buffer may hold anything, and may change from block to block.
-/
namespace Verif.Osc
open Verif Verif.Smooth Verif.Units Verif.Effects.RingMod

/-- `osc.master_osc = m`, on the public field (fm.rs 8, sine.rs 7). -/
def Fm.State.attach (s : Fm.State) (m : ℕ → ℝ) : Fm.State := { s with master := some m }
/-- The same for the sine oscillator. -/
def Sine.State.attach (s : Sine.State) (m : ℕ → ℝ) : Sine.State := { s with master := some m }

/-- A run: `init` on a new oscillator, then blocks, before each of which the modulator is set. -/
structure Spec.FmRun (P : ℕ → Fm.Params) (M : ℕ → ℕ → ℝ) (S : ℕ → Fm.State) (out : ℕ → List ℝ) : Prop where
  start : S 0 = Fm.init Fm.new
  step : ∀ t, Fm.block (P t) ((S t).attach (M t)) = .ok (S (t + 1), out t)

/-- The same for the sine oscillator. -/
structure Spec.SineRun (P : ℕ → Sine.Params) (M : ℕ → ℕ → ℝ) (S : ℕ → Sine.State) (out : ℕ → List ℝ) : Prop where
  start : S 0 = Sine.init Sine.new
  step : ∀ t, Sine.block (P t) ((S t).attach (M t)) = .ok (S (t + 1), out t)

/-- A modulation depth: a cube law, at `32π` for full. -/
noncomputable def Spec.depth (a : ℝ) : ℝ := 32 * Real.pi * a ^ 3

/-- The three sine modulators at sample `n`; the third has a frequency of its own. -/
noncomputable def Spec.three (P : ℕ → Fm.Params) (n : ℕ) : ℝ :=
  Spec.depth (P 0).amount1 * Real.sin (Spec.turned (fun t => min Real.pi ((P t).omega * (P t).ratio1)) (n + 1)) +
  Spec.depth (P 0).amount2 * Real.sin (Spec.turned (fun t => min Real.pi ((P t).omega * (P t).ratio2)) (n + 1)) +
  Spec.depth (P 0).amount3 * Real.sin (Spec.turned (fun t => min Real.pi (P t).omega3) (n + 1))

/-- The external modulator at sample `n`, if FM is routed. -/
noncomputable def Spec.external (on : Bool) (d : ℝ) (M : ℕ → ℕ → ℝ) (n : ℕ) : ℝ := if on then Spec.depth d * M (n / 64) (n % 64) else 0

/-- What sample `n` of the FM oscillator is the sine of, feedback apart. -/
noncomputable def Spec.fmInner (on : Bool) (P : ℕ → Fm.Params) (M : ℕ → ℕ → ℝ) (n : ℕ) : ℝ :=
  Spec.turned (fun t => min Real.pi (P t).omega) n + 0.996 ^ n * (Spec.three P n + Spec.external on (P 0).fmDepth M n)

/-- The output of the FM oscillator. -/
noncomputable def Spec.fm (on : Bool) (P : ℕ → Fm.Params) (M : ℕ → ℕ → ℝ) : ℕ → ℝ
  | 0 => Real.sin (Spec.fmInner on P M 0)
  | n + 1 => Real.sin (Spec.fmInner on P M (n + 1) + 0.996 ^ n * (P 0).feedback * Spec.fm on P M n)

/-- What sample `n` of the sine oscillator is the phase of, feedback apart. -/
noncomputable def Spec.sineInner (P : ℕ → Sine.Params) (M : ℕ → ℕ → ℝ) (n : ℕ) : ℝ :=
  Spec.turned (fun t => min Real.pi (P t).omega) n + 0.996 ^ n * Spec.external (P (n / 64)).fm (P 0).fmDepth M n

/-- The output of the sine oscillator, not in legacy mode: the shape of the block applied to the phase. -/
noncomputable def Spec.sine (P : ℕ → Sine.Params) (M : ℕ → ℕ → ℝ) : ℕ → ℝ
  | 0 => carrier (Real.sin (Spec.sineInner P M 0)) (Real.cos (Spec.sineInner P M 0)) (P 0).shape
  | n + 1 =>
    let p := Spec.sineInner P M (n + 1) + 0.996 ^ n * (P 0).feedback * Spec.sine P M n
    carrier (Real.sin p) (Real.cos p) (P ((n + 1) / 64)).shape

/-- The phase of the sine oscillator in legacy mode under FM: the frequency is modulated, not the phase. -/
noncomputable def Spec.legacyPhase (P : ℕ → Sine.Params) (M : ℕ → ℕ → ℝ) (n : ℕ) : ℝ :=
  ∑ m ∈ Finset.range n, (min Real.pi (P (m / 64)).omega + M (m / 64) (m % 64) * (0.996 ^ m * (P 0).fmDepth))

/-! ## Proofs -/

/-- A deterministic run exists, and is unique, when every block works out. -/
theorem run_of_inv {σ : Type} {f : ℕ → σ → R (σ × List ℝ)} {o : ℕ → List ℝ} {I : ℕ → σ → Prop} {s0 : σ} (h0 : I 0 s0)
    (h : ∀ t s, I t s → ∃ s', f t s = .ok (s', o t) ∧ I (t + 1) s') : (∃ S : ℕ → σ, S 0 = s0 ∧ ∀ t, f t (S t) = .ok (S (t + 1), o t)) ∧
    ∀ (S : ℕ → σ) (out : ℕ → List ℝ), S 0 = s0 → (∀ t, f t (S t) = .ok (S (t + 1), out t)) → ∀ t, I t (S t) ∧ out t = o t := by
  constructor
  · have ex : ∀ t s, ∃ s', I t s → f t s = .ok (s', o t) ∧ I (t + 1) s' := fun t s => by
      by_cases hi : I t s
      · obtain ⟨s', e⟩ := h t s hi; exact ⟨s', fun _ => e⟩
      · exact ⟨s, fun h => absurd h hi⟩
    choose g hg using ex
    let S : ℕ → σ := fun t => Nat.rec s0 (fun t s => g t s) t
    have inv : ∀ t, I t (S t) := fun t => by
      induction t with
      | zero => exact h0
      | succ t ih => exact (hg t (S t) ih).2
    exact ⟨S, rfl, fun t => (hg t (S t) (inv t)).1⟩
  · intro S out e0 e
    have inv : ∀ t, I t (S t) := fun t => by
      induction t with
      | zero => rw [e0]; exact h0
      | succ t ih =>
        obtain ⟨s', e1, i⟩ := h t (S t) ih
        rw [e t] at e1
        injection e1 with e1
        rw [(Prod.mk.inj e1).1]; exact i
    intro t
    obtain ⟨s', e1, i⟩ := h t (S t) (inv t)
    rw [e t] at e1
    injection e1 with e1
    exact ⟨inv t, (Prod.mk.inj e1).2⟩

theorem loop_along {σ : Type} {f : ℕ → σ → R (σ × ℝ)} {I : ℕ → σ → Prop} {y : ℕ → ℝ} (h : ∀ k < 64, ∀ s, I k s → ∃ s', f k s = .ok (s', y k) ∧ I (k + 1) s') {s : σ} (h0 : I 0 s) :
    ∀ n ≤ 64, ∃ s', loop f n s = .ok (s', (List.range n).map y) ∧ I n s' := by
  intro n hn
  induction n with
  | zero => exact ⟨s, rfl, h0⟩
  | succ n ih =>
    obtain ⟨s1, e1, i1⟩ := ih (by omega)
    obtain ⟨s2, e2, i2⟩ := h n (by omega) s1 i1
    refine ⟨s2, ?_, i2⟩
    simp only [loop, e1, Res.ok_bind, e2, List.range_succ, List.map_append, List.map_cons, List.map_nil]
    rfl

/-- The feedback that goes into sample `n`. -/
noncomputable def Fm.echo (on : Bool) (P : ℕ → Fm.Params) (M : ℕ → ℕ → ℝ) : ℕ → ℝ
  | 0 => 0
  | n + 1 => 0.996 ^ n * (P 0).feedback * Spec.fm on P M n

/-- The oscillator before sample `n`. -/
structure Fm.Inv (on : Bool) (P : ℕ → Fm.Params) (M : ℕ → ℕ → ℝ) (n : ℕ) (s : Fm.State) : Prop where
  phase : s.phase = Spec.turned (fun t => min Real.pi (P t).omega) n
  last : s.last = Fm.echo on P M n
  rm1 : At s.rm1 (Spec.turned (fun t => min Real.pi ((P t).omega * (P t).ratio1)) n)
  rm2 : At s.rm2 (Spec.turned (fun t => min Real.pi ((P t).omega * (P t).ratio2)) n)
  am : At s.am (Spec.turned (fun t => min Real.pi (P t).omega3) n)

/-- Its smoothers. -/
structure Fm.Inv2 (on : Bool) (P : ℕ → Fm.Params) (n : ℕ) (s : Fm.State) : Prop where
  rel1 : Fading s.rel1 (Spec.depth (P 0).amount1) n
  rel2 : Fading s.rel2 (Spec.depth (P 0).amount2) n
  abs : Fading s.abs (Spec.depth (P 0).amount3) n
  feedback : Fading s.feedback (P 0).feedback n
  fm : on = true → Fading s.fmDepth (Spec.depth (P 0).fmDepth) n

/-- The rates within block `t`, and the modulator. -/
structure Fm.Rates (P : ℕ → Fm.Params) (M : ℕ → ℕ → ℝ) (t : ℕ) (s : Fm.State) : Prop where
  r1 : s.rm1.dr = Real.cos (min Real.pi ((P t).omega * (P t).ratio1)) ∧ s.rm1.di = Real.sin (min Real.pi ((P t).omega * (P t).ratio1))
  r2 : s.rm2.dr = Real.cos (min Real.pi ((P t).omega * (P t).ratio2)) ∧ s.rm2.di = Real.sin (min Real.pi ((P t).omega * (P t).ratio2))
  r3 : s.am.dr = Real.cos (min Real.pi (P t).omega3) ∧ s.am.di = Real.sin (min Real.pi (P t).omega3)
  master : s.master = some (M t)

theorem Fm.fm_eq (on : Bool) (P : ℕ → Fm.Params) (M : ℕ → ℕ → ℝ) (n : ℕ) : Spec.fm on P M n = Real.sin (Spec.fmInner on P M n + Fm.echo on P M n) := by
  cases n with
  | zero => simp [Spec.fm, Fm.echo]
  | succ n => rfl

theorem div_block {t k : ℕ} (hk : k < 64) : (64 * t + k) / 64 = t ∧ (64 * t + k) % 64 = k := by omega

theorem depth_eq (a : ℝ) : 32 * Real.pi * a * a * a = Spec.depth a := by unfold Spec.depth; ring

theorem Fm.sample_inv {on : Bool} {P : ℕ → Fm.Params} {M : ℕ → ℕ → ℝ} {t k : ℕ} {s : Fm.State} (hk : k < 64) (h : Fm.Inv on P M (64 * t + k) s) (h2 : Fm.Inv2 on P (64 * t + k) s)
    (hr : Fm.Rates P M t s) : ∃ s', Fm.sample (min Real.pi (P t).omega) on k s = .ok (s', Spec.fm on P M (64 * t + k)) ∧ Fm.Inv on P M (64 * t + k + 1) s' ∧
    Fm.Inv2 on P (64 * t + k + 1) s' ∧ Fm.Rates P M t s' := by
  obtain ⟨a1, b1⟩ := at_step h.rm1 hr.r1.1 hr.r1.2
  obtain ⟨a2, b2⟩ := at_step h.rm2 hr.r2.1 hr.r2.2
  obtain ⟨a3, b3⟩ := at_step h.am hr.r3.1 hr.r3.2
  rw [← turned_succ (fun t => min Real.pi ((P t).omega * (P t).ratio1)) t k hk] at a1
  rw [← turned_succ (fun t => min Real.pi ((P t).omega * (P t).ratio2)) t k hk] at a2
  rw [← turned_succ (fun t => min Real.pi (P t).omega3) t k hk] at a3
  have y : Real.sin ((if on = true then s.phase + s.rel1.v * s.rm1.process.r + s.rel2.v * s.rm2.process.r + s.abs.v * s.am.process.r + s.last + s.fmDepth.v * M t k
      else s.phase + s.rel1.v * s.rm1.process.r + s.rel2.v * s.rm2.process.r + s.abs.v * s.am.process.r + s.last)) = Spec.fm on P M (64 * t + k) := by
    rw [Fm.fm_eq]
    congr 1
    rw [h.phase, h.last, a1.1, a2.1, a3.1, h2.rel1.2.2.2, h2.rel2.2.2.2, h2.abs.2.2.2]
    unfold Spec.fmInner Spec.three Spec.external
    rw [(div_block hk).1, (div_block hk).2]
    cases on with
    | false => simp only [Bool.false_eq_true, if_false]; ring
    | true => simp only [if_true]; rw [(h2.fm rfl).2.2.2]; ring
  refine ⟨⟨s.phase + min Real.pi (P t).omega, Spec.fm on P M (64 * t + k) * s.feedback.v, s.rm1.process, s.rm2.process, s.am.process, if on then s.fmDepth.process else s.fmDepth,
    s.rel1.process, s.rel2.process, s.abs.process, s.feedback.process, s.master⟩, ?_, ⟨?_, ?_, a1, a2, a3⟩, ?_, ?_⟩
  · simp only [Fm.sample, hr.master, load, Res.ok_bind, y]
    rfl
  · show s.phase + min Real.pi (P t).omega = _
    rw [h.phase, turned_succ _ t k hk]
  · show Spec.fm on P M (64 * t + k) * s.feedback.v = 0.996 ^ (64 * t + k) * (P 0).feedback * Spec.fm on P M (64 * t + k)
    rw [h2.feedback.2.2.2]; ring
  · exact ⟨fading_step h2.rel1, fading_step h2.rel2, fading_step h2.abs, fading_step h2.feedback, fun e => by simp only [e, if_true]; exact fading_step (h2.fm e)⟩
  · exact ⟨b1, b2, b3, hr.master⟩

theorem Fm.block_inv {on : Bool} {P : ℕ → Fm.Params} (hon : ∀ t, (P t).fm = on) {M : ℕ → ℕ → ℝ} (t : ℕ) {s : Fm.State} (h : Fm.Inv on P M (64 * t) s)
    (h2 : Fm.Inv2 on P (64 * t) s ∨ t = 0 ∧ s.rel1 = .new 0 ∧ s.rel2 = .new 0 ∧ s.abs = .new 0 ∧ s.feedback = .new 0 ∧ s.fmDepth = .new 0) :
    ∃ s', Fm.block (P t) (s.attach (M t)) = .ok (s', (List.range 64).map fun k => Spec.fm on P M (64 * t + k)) ∧ Fm.Inv on P M (64 * (t + 1)) s' ∧ Fm.Inv2 on P (64 * (t + 1)) s' := by
  obtain ⟨q1, e1, c1, r1⟩ := at_rate h.rm1 (min Real.pi ((P t).omega * (P t).ratio1))
  obtain ⟨q2, e2, c2, r2⟩ := at_rate h.rm2 (min Real.pi ((P t).omega * (P t).ratio2))
  obtain ⟨q3, e3, c3, r3⟩ := at_rate h.am (min Real.pi (P t).omega3)
  have e1' : setRate (s.attach (M t)).rm1 (min Real.pi ((P t).omega * (P t).ratio1)) = .ok q1 := e1
  have e2' : setRate (s.attach (M t)).rm2 (min Real.pi ((P t).omega * (P t).ratio2)) = .ok q2 := e2
  have e3' : setRate (s.attach (M t)).am (min Real.pi (P t).omega3) = .ok q3 := e3
  simp only [Fm.block, e1', e2', e3', Res.ok_bind, hon]
  generalize hs : Fm.State.mk (s.attach (M t)).phase (s.attach (M t)).last q1 q2 q3 _ _ _ _ _ _ = s1
  have i1 : Fm.Inv on P M (64 * t) s1 := by
    subst hs; exact ⟨h.phase, h.last, c1, c2, c3⟩
  have i2 : Fm.Inv2 on P (64 * t) s1 := by
    subst hs
    rcases h2 with h2 | ⟨rfl, d1, d2, d3, d4, d5⟩
    · refine ⟨fading_value h2.rel1 _, fading_value h2.rel2 _, fading_value h2.abs _, fading_value h2.feedback _, fun e => ?_⟩
      simp only [e, if_true]; exact fading_value (h2.fm e) _
    · refine ⟨?_, ?_, ?_, ?_, fun e => ?_⟩
      · show Fading (s.rel1.newValue _) _ _; rw [d1, depth_eq]; exact fading_new _
      · show Fading (s.rel2.newValue _) _ _; rw [d2, depth_eq]; exact fading_new _
      · show Fading (s.abs.newValue _) _ _; rw [d3, depth_eq]; exact fading_new _
      · show Fading (s.feedback.newValue _) _ _; rw [d4]; exact fading_new _
      · simp only [e, if_true]
        show Fading (s.fmDepth.newValue _) _ _; rw [d5, depth_eq]; exact fading_new _
  have i3 : Fm.Rates P M t s1 := by subst hs; exact ⟨r1, r2, r3, rfl⟩
  obtain ⟨s', e, j⟩ := loop_along (I := fun k s => Fm.Inv on P M (64 * t + k) s ∧ Fm.Inv2 on P (64 * t + k) s ∧ Fm.Rates P M t s) (f := Fm.sample (min Real.pi (P t).omega) on)
    (y := fun k => Spec.fm on P M (64 * t + k)) (fun k hk s hs => Fm.sample_inv hk hs.1 hs.2.1 hs.2.2) (s := s1) ⟨i1, i2, i3⟩ 64 le_rfl
  exact ⟨s', e, j.1, j.2.1⟩

/-- **C200.** With a modulator set before each block the FM oscillator runs, and sample `n` is the sine of the accumulated carrier phase plus the three sine modulators, the external modulator when FM is routed,
and the fed back previous sample; the depths are those of the first block and fade by 0.996 a sample. -/
theorem C200_fm (on : Bool) (P : ℕ → Fm.Params) (hon : ∀ t, (P t).fm = on) (M : ℕ → ℕ → ℝ) : (∃ S out, Spec.FmRun P M S out) ∧
    ∀ S out, Spec.FmRun P M S out → ∀ t, out t = (List.range 64).map fun k => Spec.fm on P M (64 * t + k) := by
  obtain ⟨⟨S, e0, e⟩, u⟩ := run_of_inv (f := fun t s => Fm.block (P t) (Fm.State.attach s (M t))) (o := fun t => (List.range 64).map fun k => Spec.fm on P M (64 * t + k))
    (I := fun t s => Fm.Inv on P M (64 * t) s ∧ (Fm.Inv2 on P (64 * t) s ∨ t = 0 ∧ s.rel1 = .new 0 ∧ s.rel2 = .new 0 ∧ s.abs = .new 0 ∧ s.feedback = .new 0 ∧ s.fmDepth = .new 0))
    (s0 := Fm.init Fm.new) ⟨⟨by simp [Fm.init, Spec.turned], rfl, by simp [Fm.init, Spec.turned, At, Quad.setPhase], by simp [Fm.init, Spec.turned, At, Quad.setPhase],
      by simp [Fm.init, Spec.turned, At, Quad.setPhase]⟩, .inr ⟨rfl, rfl, rfl, rfl, rfl, rfl⟩⟩
    (fun t s h => by obtain ⟨s', e, i, j⟩ := Fm.block_inv hon t h.1 h.2; exact ⟨s', e, i, .inl j⟩)
  exact ⟨⟨S, _, e0, e⟩, fun S out h t => (u S out h.start h.step t).2⟩

/-- **C200.** It stays within `[-1, 1]`, whatever the modulator. -/
theorem C200_fm_bounded (on : Bool) (P : ℕ → Fm.Params) (hon : ∀ t, (P t).fm = on) (M : ℕ → ℕ → ℝ) {S : ℕ → Fm.State} {out : ℕ → List ℝ} (h : Spec.FmRun P M S out) (t : ℕ) :
    ∀ y ∈ out t, |y| ≤ 1 := by
  intro y hy
  rw [(C200_fm on P hon M).2 S out h t] at hy
  obtain ⟨k, -, rfl⟩ := List.mem_map.1 hy
  rw [Fm.fm_eq]; exact Real.abs_sin_le_one _

/-! ### Sine -/

/-- The feedback that goes into sample `n`. -/
noncomputable def Sine.echo (P : ℕ → Sine.Params) (M : ℕ → ℕ → ℝ) : ℕ → ℝ
  | 0 => 0
  | n + 1 => 0.996 ^ n * (P 0).feedback * Spec.sine P M n

theorem Sine.sine_eq (P : ℕ → Sine.Params) (M : ℕ → ℕ → ℝ) (n : ℕ) : Spec.sine P M n = carrier (Real.sin (Spec.sineInner P M n + Sine.echo P M n))
    (Real.cos (Spec.sineInner P M n + Sine.echo P M n)) (P (n / 64)).shape := by
  cases n with
  | zero => simp [Spec.sine, Sine.echo]
  | succ n => rfl

/-- The oscillator before sample `n` of a run outside legacy mode. -/
structure Sine.Inv (P : ℕ → Sine.Params) (M : ℕ → ℕ → ℝ) (n : ℕ) (s : Sine.State) : Prop where
  phase : s.phase = Spec.turned (fun t => min Real.pi (P t).omega) n
  last : s.last = Sine.echo P M n

/-- Its smoothers. -/
structure Sine.Inv2 (P : ℕ → Sine.Params) (n : ℕ) (s : Sine.State) : Prop where
  fm : Fading s.fmDepth (Spec.depth (P 0).fmDepth) n
  feedback : Fading s.feedback (P 0).feedback n

theorem Sine.sample_inv {P : ℕ → Sine.Params} {M : ℕ → ℕ → ℝ} {t k : ℕ} {s : Sine.State} (hk : k < 64) (h : Sine.Inv P M (64 * t + k) s) (h2 : Sine.Inv2 P (64 * t + k) s)
    (hm : s.master = some (M t)) : ∃ s', Sine.sample (min Real.pi (P t).omega) (P t).shape (P t).fm k s = .ok (s', Spec.sine P M (64 * t + k)) ∧ Sine.Inv P M (64 * t + k + 1) s' ∧
    Sine.Inv2 P (64 * t + k + 1) s' ∧ s'.master = some (M t) := by
  have p : (if (P t).fm = true then s.phase + s.last + s.fmDepth.v * M t k else s.phase + s.last) = Spec.sineInner P M (64 * t + k) + Sine.echo P M (64 * t + k) := by
    rw [h.phase, h.last, h2.fm.2.2.2]
    unfold Spec.sineInner Spec.external
    rw [(div_block hk).1, (div_block hk).2]
    split_ifs <;> ring
  have y : carrier (Real.sin (if (P t).fm = true then s.phase + s.last + s.fmDepth.v * M t k else s.phase + s.last))
      (Real.cos (if (P t).fm = true then s.phase + s.last + s.fmDepth.v * M t k else s.phase + s.last)) (P t).shape = Spec.sine P M (64 * t + k) := by
    rw [p, Sine.sine_eq, (div_block hk).1]
  refine ⟨⟨s.sine, s.phase + min Real.pi (P t).omega, s.fmDepth.process, s.feedback.process, Spec.sine P M (64 * t + k) * s.feedback.v, s.master⟩, ?_, ⟨?_, ?_⟩,
    ⟨fading_step h2.fm, fading_step h2.feedback⟩, hm⟩
  · simp only [Sine.sample, hm, load, Res.ok_bind, y]; rfl
  · show s.phase + min Real.pi (P t).omega = _
    rw [h.phase, turned_succ _ t k hk]
  · show Spec.sine P M (64 * t + k) * s.feedback.v = 0.996 ^ (64 * t + k) * (P 0).feedback * Spec.sine P M (64 * t + k)
    rw [h2.feedback.2.2.2]; ring

/-- **C200.** With a modulator set before each block the sine oscillator runs outside legacy mode, and sample `n` is the shape of the block applied to the accumulated phase plus the fed back
previous sample plus the external modulator when FM is routed. -/
theorem C200_sine (P : ℕ → Sine.Params) (hb : ∀ t, (P t).behavior ≠ 0) (M : ℕ → ℕ → ℝ) : (∃ S out, Spec.SineRun P M S out) ∧
    ∀ S out, Spec.SineRun P M S out → ∀ t, out t = (List.range 64).map fun k => Spec.sine P M (64 * t + k) := by
  obtain ⟨⟨S, e0, e⟩, u⟩ := run_of_inv (f := fun t s => Sine.block (P t) (Sine.State.attach s (M t))) (o := fun t => (List.range 64).map fun k => Spec.sine P M (64 * t + k))
    (I := fun t s => Sine.Inv P M (64 * t) s ∧ (Sine.Inv2 P (64 * t) s ∨ t = 0 ∧ s.fmDepth = .new 0 ∧ s.feedback = .new 0))
    (s0 := Sine.init Sine.new) ⟨⟨by simp [Sine.init, Spec.turned], rfl⟩, .inr ⟨rfl, rfl, rfl⟩⟩
    (fun t s ⟨h, h2⟩ => by
      obtain ⟨s', e, j⟩ := loop_along (I := fun k s => Sine.Inv P M (64 * t + k) s ∧ Sine.Inv2 P (64 * t + k) s ∧ s.master = some (M t))
        (f := Sine.sample (min Real.pi (P t).omega) (P t).shape (P t).fm) (y := fun k => Spec.sine P M (64 * t + k)) (fun k hk s hs => Sine.sample_inv hk hs.1 hs.2.1 hs.2.2)
        (s := { s.attach (M t) with fmDepth := s.fmDepth.newValue (32 * Real.pi * (P t).fmDepth * (P t).fmDepth * (P t).fmDepth), feedback := s.feedback.newValue (P t).feedback })
        ⟨⟨h.phase, h.last⟩, by
          rcases h2 with h2 | ⟨rfl, d1, d2⟩
          · exact ⟨fading_value h2.fm _, fading_value h2.feedback _⟩
          · refine ⟨?_, ?_⟩
            · show Fading (s.fmDepth.newValue _) _ _; rw [d1, depth_eq]; exact fading_new _
            · show Fading (s.feedback.newValue _) _ _; rw [d2]; exact fading_new _, rfl⟩ 64 le_rfl
      refine ⟨s', ?_, j.1, .inl j.2.1⟩
      show Sine.block (P t) (s.attach (M t)) = _
      unfold Sine.block
      rw [if_neg (hb t)]
      exact e)
  exact ⟨⟨S, _, e0, e⟩, fun S out h t => (u S out h.start h.step t).2⟩

theorem Sine.legacyPhase_succ (P : ℕ → Sine.Params) (M : ℕ → ℕ → ℝ) (t k : ℕ) (hk : k < 64) : Spec.legacyPhase P M (64 * t + k + 1) =
    Spec.legacyPhase P M (64 * t + k) + (min Real.pi (P t).omega + M t k * (0.996 ^ (64 * t + k) * (P 0).fmDepth)) := by
  unfold Spec.legacyPhase
  rw [Finset.sum_range_succ, (div_block hk).1, (div_block hk).2]

/-- **C200.** In legacy mode with FM routed the sine oscillator shapes a phase that advances by the frequency plus the modulator at the depth. -/
theorem C200_legacy (P : ℕ → Sine.Params) (hb : ∀ t, (P t).behavior = 0) (hf : ∀ t, (P t).fm = true) (M : ℕ → ℕ → ℝ) : (∃ S out, Spec.SineRun P M S out) ∧
    ∀ S out, Spec.SineRun P M S out → ∀ t, out t = (List.range 64).map fun k => carrier (Real.sin (Spec.legacyPhase P M (64 * t + k))) (Real.cos (Spec.legacyPhase P M (64 * t + k))) (P t).shape := by
  obtain ⟨⟨S, e0, e⟩, u⟩ := run_of_inv (f := fun t s => Sine.block (P t) (Sine.State.attach s (M t)))
    (o := fun t => (List.range 64).map fun k => carrier (Real.sin (Spec.legacyPhase P M (64 * t + k))) (Real.cos (Spec.legacyPhase P M (64 * t + k))) (P t).shape)
    (I := fun t s => s.phase = Spec.legacyPhase P M (64 * t) ∧ (Fading s.fmDepth (P 0).fmDepth (64 * t) ∨ t = 0 ∧ s.fmDepth = .new 0))
    (s0 := Sine.init Sine.new) ⟨by simp [Sine.init, Spec.legacyPhase], .inr ⟨rfl, rfl⟩⟩
    (fun t s ⟨h, h2⟩ => by
      obtain ⟨s', e, j⟩ := loop_along (I := fun k s => s.phase = Spec.legacyPhase P M (64 * t + k) ∧ Fading s.fmDepth (P 0).fmDepth (64 * t + k) ∧ s.master = some (M t))
        (f := Sine.legacyFm (min Real.pi (P t).omega) (P t).shape)
        (y := fun k => carrier (Real.sin (Spec.legacyPhase P M (64 * t + k))) (Real.cos (Spec.legacyPhase P M (64 * t + k))) (P t).shape)
        (fun k hk s ⟨a, b, c⟩ => by
          refine ⟨⟨s.sine, s.phase + (min Real.pi (P t).omega + M t k * s.fmDepth.v), s.fmDepth.process, s.feedback, s.last, s.master⟩, ?_, ?_, fading_step b, c⟩
          · simp only [Sine.legacyFm, c, load, Res.ok_bind, a]; rfl
          · show s.phase + _ = _
            rw [a, b.2.2.2]; exact (Sine.legacyPhase_succ P M t k hk).symm)
        (s := { s.attach (M t) with fmDepth := s.fmDepth.newValue (P t).fmDepth })
        ⟨h, by
          rcases h2 with h2 | ⟨rfl, d1⟩
          · exact fading_value h2 _
          · show Fading (s.fmDepth.newValue _) _ _; rw [d1]; exact fading_new _, rfl⟩ 64 le_rfl
      refine ⟨s', ?_, j.1, .inl j.2.1⟩
      show Sine.block (P t) (s.attach (M t)) = _
      unfold Sine.block
      rw [if_pos (hb t), if_pos (hf t)]
      exact e)
  exact ⟨⟨S, _, e0, e⟩, fun S out h t => (u S out h.start h.step t).2⟩

/-- The runs the theorems speak of exist for, say, the sine oscillator's default parameters and a modulator that is not silent. -/
example : ∃ S out, Spec.SineRun (fun _ => Sine.defaults 0.1) (fun _ k => (k : ℝ)) S out := (C200_sine _ (fun _ => by simp [Sine.defaults]) _).1

end Verif.Osc
