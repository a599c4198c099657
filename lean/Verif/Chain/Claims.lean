import Verif.Chain.Voice
/-!
# Feedback cannot run away (C125); the paths are what their names say (C126)
-/
namespace Verif.Chain

variable {L : Type}

namespace Spec

/-- The state of a filter after some inputs. -/
def fed (f : L → ℝ → L × ℝ) (u : L) (xs : List ℝ) : L := xs.foldl (fun u x => (f u x).1) u

/-- From `u`, the filter's output never exceeds `G` times the largest input so far, or `G` if that is larger (a filter that rings by itself is allowed). -/
def PeakGain (f : L → ℝ → L × ℝ) (u : L) (G : ℝ) : Prop := ∀ (B : ℝ) (xs : List ℝ) (x : ℝ), 1 ≤ B → (∀ y ∈ xs, |y| ≤ B) → |x| ≤ B → |(f (fed f u xs) x).2| ≤ G * B

/-- What may change from sample to sample in a life of a voice: everything but its filter states, shaper memory and feedback lines. -/
structure Settings where
  active : Bool
  gain : ℝ
  dGain : ℝ
  feedback : ℝ
  dFeedback : ℝ
  mix1 : ℝ
  dMix1 : ℝ
  mix2 : ℝ
  dMix2 : ℝ
  drive : ℝ
  dDrive : ℝ
  dl : ℝ
  dr : ℝ

/-- The voice with these settings, at unit output levels (so that what is heard is the signal itself, twice the two signals' sum if there are two). -/
def Voice.set (v : Voice L) (s : Settings) : Voice L :=
  ⟨v.a, v.b, v.a2, v.b2, s.active, s.gain, s.feedback, s.mix1, s.mix2, s.drive, s.dGain, s.dFeedback, s.dMix1, s.dMix2, s.dDrive, v.lp, v.fbL, v.fbR, 1, 1, 0, 0, 1, 1, 0, 0⟩

/-- The state after a life. -/
noncomputable def lived (cfg : Config) (p : Units L) (v : Voice L) (life : List Settings) : Voice L :=
  life.foldl (fun v s => (voice cfg p (v.set s) s.dl s.dr).1) v

/-- Settings within bounds: inputs at most `M`, gain at most `Γ`, mixes between 0 and 1 — and *any* feedback, any drive. -/
def Settings.Ok (M Γ : ℝ) (s : Settings) : Prop :=
  |s.dl| ≤ M ∧ |s.dr| ≤ M ∧ |s.gain + s.dGain| ≤ Γ ∧ (0 ≤ s.mix1 + s.dMix1 ∧ s.mix1 + s.dMix1 ≤ 1) ∧ (0 ≤ s.mix2 + s.dMix2 ∧ s.mix2 + s.dMix2 ≤ 1)

end Spec

open Spec

/-! ## Bounds -/

/-- A unit's state has only seen inputs within `B`. -/
def Seen (f : Option (L → ℝ → L × ℝ)) (u0 : L) (B : ℝ) (u : L) : Prop := ∀ g, f = some g → ∃ xs : List ℝ, (∀ y ∈ xs, |y| ≤ B) ∧ u = fed g u0 xs

theorem seen_run {f : Option (L → ℝ → L × ℝ)} {u0 u : L} {B G x : ℝ} (hG : ∀ g, f = some g → PeakGain g u0 G) (h1 : 1 ≤ G) (h : Seen f u0 B u) (hx : |x| ≤ B) :
    Seen f u0 B (run f u x).1 ∧ (1 ≤ B → |(run f u x).2| ≤ G * B) := by
  have hB : 0 ≤ B := (abs_nonneg x).trans hx
  cases f with
  | none =>
    refine ⟨fun g hg => by simp at hg, ?_⟩
    intro _
    simp only [run, Option.map_none, Option.getD_none]
    nlinarith
  | some g =>
    obtain ⟨xs, h2, rfl⟩ := h g rfl
    refine ⟨fun g' hg => ?_, fun hB1 => hG g rfl B xs x hB1 h2 hx⟩
    obtain rfl : g = g' := by simpa using hg
    refine ⟨xs ++ [x], fun y hy => ?_, by simp [run, fed]⟩
    rcases List.mem_append.mp hy with hy | hy
    · exact h2 y hy
    · rw [List.mem_singleton.mp hy]; exact hx

theorem returned_le (m l : ℝ) : |returned m l| ≤ 1 := (Dsp.C62_softclip_partial (K := ℝ)).1.bound _

theorem blend_le {m a b B : ℝ} (h0 : 0 ≤ m) (h1 : m ≤ 1) (ha : |a| ≤ B) (hb : |b| ≤ B) : |blend m a b| ≤ B := by
  obtain ⟨a1, a2⟩ := abs_le.mp ha
  obtain ⟨b1, b2⟩ := abs_le.mp hb
  rw [abs_le, blend]
  constructor <;> nlinarith [mul_nonneg h0 (sub_nonneg.2 a1), mul_nonneg h0 (sub_nonneg.2 b1)]

theorem gate_le {on : Bool} {x B : ℝ} (hB : 0 ≤ B) (h : |x| ≤ B) : |gate on x| ≤ B := by
  unfold gate; split
  · exact h
  · simpa using hB

theorem mul_le' {x g X Γ : ℝ} (hx : |x| ≤ X) (hg : |g| ≤ Γ) : |x * g| ≤ X * Γ := by
  rw [abs_mul]; exact mul_le_mul hx hg (abs_nonneg _) ((abs_nonneg _).trans hx)

/-- A shaper bounded by `S`. -/
def ShaperLe (p : Units L) (S : ℝ) : Prop := ∀ w, p.ws = some w → ∀ x d, |w x d| ≤ S

theorem shapedLp_le {p : Units L} {S B x : ℝ} (hS : ShaperLe p S) (v : Voice L) (hx : |x| ≤ B) : |shapedLp p v x| ≤ max B S := by
  unfold shapedLp
  cases h : p.ws with
  | none => exact hx.trans (le_max_left _ _)
  | some w => exact (hS w h _ _).trans (le_max_right _ _)

theorem shaped_le {p : Units L} {S B x : ℝ} (hS : ShaperLe p S) (v : Voice L) (hx : |x| ≤ B) : |shaped p v x| ≤ max B S := by
  unfold shaped
  cases h : p.ws with
  | none => exact hx.trans (le_max_left _ _)
  | some w => exact (hS w h _ _).trans (le_max_right _ _)

theorem front_le {p : Units L} {v : Voice L} {B i x : ℝ} (h0 : 0 ≤ v.mix1 + v.dMix1) (h1 : v.mix1 + v.dMix1 ≤ 1) (hi : |i| ≤ B) (hx : |x| ≤ B) : |front p v i x| ≤ B := by
  unfold front mix1Of
  split
  · exact blend_le h0 h1 hi hx
  · exact hx

/-- The bounds a life keeps: what the units have seen. -/
structure Safe (cfg : Config) (p : Units L) (v0 : Voice L) (M Γ GA S : ℝ) (v : Voice L) : Prop where
  a : Seen p.fa v0.a (M + 1) v.a
  a2 : Seen p.fa v0.a2 (M + 1) v.a2
  b : Seen p.fb v0.b (match cfg with
    | .serial1 | .serial2 => max (GA * (M + 1)) S + M
    | .serial3 => max (GA * (M + 1)) S * Γ + M
    | .wide => max (GA * (M + 1)) S
    | _ => M + 1) v.b
  b2 : Seen p.fb v0.b2 (max (GA * (M + 1)) S) v.b2

variable {cfg : Config} {p : Units L} {v0 v : Voice L} {M Γ GA GB S : ℝ}

theorem add_abs {x y X Y : ℝ} (hx : |x| ≤ X) (hy : |y| ≤ Y) : |x + y| ≤ X + Y := (abs_add_le x y).trans (add_le_add hx hy)

/-- The final bound. -/
noncomputable def top (M Γ GA GB S : ℝ) : ℝ := 2 * (GA * GB * (M + 1 + S)) ^ 2 * Γ

theorem top_facts (hM : 0 ≤ M) (hGA : 1 ≤ GA) (hGB : 1 ≤ GB) (hS : 0 ≤ S) :
    GB * (max (GA * (M + 1)) S + M) ≤ 2 * (GA * GB * (M + 1 + S)) ^ 2 ∧ max (GA * (M + 1)) S ≤ 2 * (GA * GB * (M + 1 + S)) ^ 2 ∧
    max (GA * (M + 1) + GB * (M + 1)) S ≤ 2 * (GA * GB * (M + 1 + S)) ^ 2 ∧ max (GA * (M + 1)) S + GB * (M + 1) ≤ 2 * (GA * GB * (M + 1 + S)) ^ 2 ∧
    max (max (GA * (M + 1)) (GB * (M + 1)) * max (GA * (M + 1)) (GB * (M + 1))) S ≤ 2 * (GA * GB * (M + 1 + S)) ^ 2 ∧
    max (GA * (M + 1)) S + max (GB * (M + 1)) S ≤ 2 * (GA * GB * (M + 1 + S)) ^ 2 ∧ GB * max (GA * (M + 1)) S ≤ (GA * GB * (M + 1 + S)) ^ 2 := by
  set Q := GA * GB * (M + 1 + S) with hQ
  have hA0 : 0 < GA := by linarith
  have hB0 : 0 < GB := by linarith
  have hAB : GA ≤ GA * GB := le_mul_of_one_le_right hA0.le hGB
  have hBA : GB ≤ GA * GB := le_mul_of_one_le_left hB0.le hGA
  have hm : 0 ≤ M + 1 + S := by linarith
  have hAB1 : 1 ≤ GA * GB := hGA.trans hAB
  have e1 : GA * (M + 1) ≤ Q := (mul_le_mul_of_nonneg_left (by linarith) hA0.le).trans (mul_le_mul_of_nonneg_right hAB hm)
  have e2 : GB * (M + 1) ≤ Q := (mul_le_mul_of_nonneg_left (by linarith) hB0.le).trans (mul_le_mul_of_nonneg_right hBA hm)
  have e3 : S ≤ Q := le_trans (by linarith) (le_mul_of_one_le_left hm hAB1)
  have e4 : 1 ≤ Q := le_trans (by linarith : 1 ≤ M + 1 + S) (le_mul_of_one_le_left hm hAB1)
  have e5 : Q ≤ Q ^ 2 := by nlinarith
  have e6 : GB * max (GA * (M + 1)) S ≤ Q := by
    have : max (GA * (M + 1)) S ≤ GA * (M + 1 + S) := max_le (mul_le_mul_of_nonneg_left (by linarith) hA0.le) (by nlinarith)
    calc GB * max (GA * (M + 1)) S ≤ GB * (GA * (M + 1 + S)) := mul_le_mul_of_nonneg_left this hB0.le
      _ = Q := by rw [hQ]; ring
  have e7 : GB * M ≤ Q := by nlinarith
  have e8 : max (GA * (M + 1)) S ≤ Q := max_le e1 e3
  have e9 : max (GA * (M + 1)) (GB * (M + 1)) ≤ Q := max_le e1 e2
  have e10 : 0 ≤ max (GA * (M + 1)) (GB * (M + 1)) := le_max_of_le_left (by positivity)
  refine ⟨?_, ?_, max_le ?_ ?_, ?_, max_le ?_ ?_, ?_, ?_⟩
  · nlinarith
  · nlinarith
  · nlinarith
  · nlinarith
  · nlinarith
  · nlinarith [mul_le_mul e9 e9 e10 (by linarith : (0 : ℝ) ≤ Q)]
  · nlinarith
  · have : max (GB * (M + 1)) S ≤ Q := max_le e2 e3
    nlinarith
  · nlinarith

/-- One sample keeps the bounds, and what is heard is within the final bound. -/
theorem safe_step (hM : 0 ≤ M) (hΓ : 0 ≤ Γ) (hGA : 1 ≤ GA) (hGB : 1 ≤ GB) (hS0 : 0 ≤ S) (hS : ShaperLe p S)
    (ha : ∀ g, p.fa = some g → PeakGain g v0.a GA) (ha2 : ∀ g, p.fa = some g → PeakGain g v0.a2 GA)
    (hb : ∀ g, p.fb = some g → PeakGain g v0.b GB) (hb2 : ∀ g, p.fb = some g → PeakGain g v0.b2 GB)
    (h : Safe cfg p v0 M Γ GA S v) (s : Settings) (hs : s.Ok M Γ) :
    Safe cfg p v0 M Γ GA S (voice cfg p (v.set s) s.dl s.dr).1 ∧
      |(voice cfg p (v.set s) s.dl s.dr).2.1| ≤ top M Γ GA GB S ∧ |(voice cfg p (v.set s) s.dl s.dr).2.2| ≤ top M Γ GA GB S := by
  obtain ⟨h1, h2, h3, ⟨m1, m1'⟩, ⟨m2, m2'⟩⟩ := hs
  obtain ⟨A, A2, B, B2⟩ := h
  obtain ⟨t1, t2, t3, t4, t5, t6, t7⟩ := top_facts hM hGA hGB hS0
  have hA0 : 0 ≤ GA * (M + 1) := by positivity
  have hI : ∀ f l, |s.dl + returned f l| ≤ M + 1 := fun f l => add_abs h1 (returned_le _ _)
  have hI' : ∀ f l, |s.dr + returned f l| ≤ M + 1 := fun f l => add_abs h2 (returned_le _ _)
  have hIA : M + 1 ≤ GA * (M + 1) := le_mul_of_one_le_left (by linarith) hGA
  have hM1 : 1 ≤ M + 1 := by linarith
  have hX1 : 1 ≤ max (GA * (M + 1)) S := hM1.trans (hIA.trans (le_max_left _ _))
  have hS' := fun x => hS x
  have fin : ∀ (on : Bool) (x X : ℝ), |x| ≤ X → X ≤ 2 * (GA * GB * (M + 1 + S)) ^ 2 → |gate on (x * (s.gain + s.dGain))| ≤ top M Γ GA GB S := fun on x X hx hX => by
    unfold top
    exact gate_le (by positivity) ((mul_le' hx h3).trans (mul_le_mul_of_nonneg_right hX hΓ))
  have mono : ∀ x : ℝ, |x| ≤ top M Γ GA GB S → |(heardMono (v.set s) x).1| ≤ top M Γ GA GB S ∧ |(heardMono (v.set s) x).2| ≤ top M Γ GA GB S := fun x hx => by
    simpa [heardMono, Voice.set] using hx
  cases cfg with
  | serial1 =>
    obtain ⟨a1, a2⟩ := seen_run ha hGA A (h1.trans (by linarith : M ≤ M + 1))
    replace a2 := a2 hM1
    have f1 : |front p (v.set s) s.dl (shapedLp p (v.set s) (run p.fa v.a s.dl).2)| ≤ max (GA * (M + 1)) S :=
      front_le m1 m1' (h1.trans ((by linarith : M ≤ M + 1).trans (hIA.trans (le_max_left _ _)))) (shapedLp_le hS _ a2)
    obtain ⟨b1, b2⟩ := seen_run hb hGB B (add_abs f1 h2)
    replace b2 := b2 (hX1.trans (by linarith))
    refine ⟨⟨a1, A2, b1, B2⟩, mono _ (fin _ _ _ (blend_le m2 m2' (f1.trans ?_) b2) t1)⟩
    exact le_trans (by linarith) (le_mul_of_one_le_left (by have := le_max_left (GA * (M + 1)) S; linarith) hGB)
  | serial2 =>
    obtain ⟨a1, a2⟩ := seen_run ha hGA A (hI (s.feedback + s.dFeedback) v.fbL)
    replace a2 := a2 hM1
    have f1 := front_le (p := p) (v := v.set s) m1 m1' ((hI (s.feedback + s.dFeedback) v.fbL).trans (hIA.trans (le_max_left _ S))) (shapedLp_le hS (v.set s) a2)
    obtain ⟨b1, b2⟩ := seen_run hb hGB B (add_abs f1 h2)
    replace b2 := b2 (hX1.trans (by linarith))
    refine ⟨⟨a1, A2, b1, B2⟩, mono _ (fin _ _ _ (blend_le m2 m2' (f1.trans ?_) b2) t1)⟩
    exact le_trans (by linarith) (le_mul_of_one_le_left (by have := le_max_left (GA * (M + 1)) S; linarith) hGB)
  | serial3 =>
    obtain ⟨a1, a2⟩ := seen_run ha hGA A (hI (s.feedback + s.dFeedback) v.fbL)
    replace a2 := a2 hM1
    have f1 := front_le (p := p) (v := v.set s) m1 m1' ((hI (s.feedback + s.dFeedback) v.fbL).trans (hIA.trans (le_max_left _ S))) (shapedLp_le hS (v.set s) a2)
    have g1 := gate_le (on := s.active) (mul_nonneg (hA0.trans (le_max_left _ S)) hΓ) (mul_le' f1 h3)
    obtain ⟨b1, -⟩ := seen_run hb hGB B (add_abs g1 h2)
    exact ⟨⟨a1, A2, b1, B2⟩, mono _ (fin _ _ _ f1 t2)⟩
  | dual1 =>
    obtain ⟨a1, a2⟩ := seen_run ha hGA A (hI (s.feedback + s.dFeedback) v.fbL)
    replace a2 := a2 hM1
    obtain ⟨b1, b2⟩ := seen_run hb hGB B (hI' (s.feedback + s.dFeedback) v.fbL)
    replace b2 := b2 hM1
    have x1 := add_abs ((mul_le' a2 (abs_le.mpr ⟨by linarith, m1'⟩)).trans_eq (mul_one _)) ((mul_le' b2 (abs_le.mpr ⟨by linarith, m2'⟩)).trans_eq (mul_one _))
    exact ⟨⟨a1, A2, b1, B2⟩, mono _ (fin _ _ _ (shapedLp_le hS (v.set s) x1) t3)⟩
  | dual2 =>
    obtain ⟨a1, a2⟩ := seen_run ha hGA A (hI (s.feedback + s.dFeedback) v.fbL)
    replace a2 := a2 hM1
    obtain ⟨b1, b2⟩ := seen_run hb hGB B (hI' (s.feedback + s.dFeedback) v.fbL)
    replace b2 := b2 hM1
    have x1 := add_abs ((mul_le' (shapedLp_le hS (v.set s) a2) (abs_le.mpr ⟨by linarith, m1'⟩)).trans_eq (mul_one _))
      ((mul_le' b2 (abs_le.mpr ⟨by linarith, m2'⟩)).trans_eq (mul_one _))
    exact ⟨⟨a1, A2, b1, B2⟩, mono _ (fin _ _ _ x1 t4)⟩
  | ring =>
    obtain ⟨a1, a2⟩ := seen_run ha hGA A (hI (s.feedback + s.dFeedback) v.fbL)
    replace a2 := a2 hM1
    obtain ⟨b1, b2⟩ := seen_run hb hGB B (hI' (s.feedback + s.dFeedback) v.fbL)
    replace b2 := b2 hM1
    have ma := a2.trans (le_max_left _ (GB * (M + 1)))
    have mb := b2.trans (le_max_right (GA * (M + 1)) _)
    have x1 := mul_le' (blend_le m1 m1' mb ma) (blend_le m2 m2' ma mb)
    exact ⟨⟨a1, A2, b1, B2⟩, mono _ (fin _ _ _ (shapedLp_le hS (v.set s) x1) t5)⟩
  | stereo =>
    obtain ⟨a1, a2⟩ := seen_run ha hGA A (hI (s.feedback + s.dFeedback) v.fbL)
    replace a2 := a2 hM1
    obtain ⟨b1, b2⟩ := seen_run hb hGB B (hI' (s.feedback + s.dFeedback) v.fbL)
    replace b2 := b2 hM1
    have x1 := gate_le (on := s.active) (by positivity) (mul_le' ((mul_le' (shaped_le hS (v.set s) a2) (abs_le.mpr ⟨by linarith, m1'⟩)).trans_eq (mul_one _)) h3)
    have y1 := gate_le (on := s.active) (by positivity) (mul_le' ((mul_le' (shaped_le hS (v.set s) b2) (abs_le.mpr ⟨by linarith, m2'⟩)).trans_eq (mul_one _)) h3)
    have z := (add_abs x1 y1).trans ((by rw [← add_mul]; exact mul_le_mul_of_nonneg_right t6 hΓ : _ ≤ top M Γ GA GB S))
    refine ⟨⟨a1, A2, b1, B2⟩, ?_, ?_⟩ <;> simpa [voice, Spec.stereo, heardTwo, Voice.set] using z
  | wide =>
    obtain ⟨a1, a2⟩ := seen_run ha hGA A (hI (s.feedback + s.dFeedback) v.fbL)
    replace a2 := a2 hM1
    obtain ⟨a1', a2'⟩ := seen_run ha2 hGA A2 (hI' (s.feedback + s.dFeedback) v.fbR)
    replace a2' := a2' hM1
    have f1 := front_le (p := p) (v := v.set s) m1 m1' ((hI (s.feedback + s.dFeedback) v.fbL).trans (hIA.trans (le_max_left _ S))) (shaped_le hS (v.set s) a2)
    have f2 := front_le (p := p) (v := v.set s) m1 m1' ((hI' (s.feedback + s.dFeedback) v.fbR).trans (hIA.trans (le_max_left _ S))) (shaped_le hS (v.set s) a2')
    obtain ⟨b1, b2⟩ := seen_run hb hGB B f1
    replace b2 := b2 hX1
    obtain ⟨b1', b2'⟩ := seen_run hb2 hGB B2 f2
    replace b2' := b2' hX1
    have hF : max (GA * (M + 1)) S ≤ GB * max (GA * (M + 1)) S := le_mul_of_one_le_left (hA0.trans (le_max_left _ S)) hGB
    have ch : ∀ (x y : ℝ), |x| ≤ max (GA * (M + 1)) S → |y| ≤ GB * max (GA * (M + 1)) S →
        |gate s.active ((if p.fb.isSome then blend (s.mix2 + s.dMix2) x y else x) * (s.gain + s.dGain))| ≤ (GA * GB * (M + 1 + S)) ^ 2 * Γ := by
      intro x y hx hy
      refine gate_le (by positivity) (mul_le' ?_ h3)
      split
      · exact (blend_le m2 m2' (hx.trans hF) hy).trans t7
      · exact (hx.trans hF).trans t7
    have z := (add_abs (ch _ _ f1 b2) (ch _ _ f2 b2')).trans_eq (by unfold top; ring : _ = top M Γ GA GB S)
    refine ⟨⟨a1, a1', b1, b1'⟩, ?_, ?_⟩ <;> simpa [voice, Spec.wide, wideChannel, heardTwo, Voice.set] using z

/-- **C125.** Feedback cannot run away.  Take any configuration and any units whose filters, from their initial states, have peak gain at most `GA` and `GB` and whose shaper is bounded by `S`.  Whatever the life
of the voice — inputs within `M`, gains within `Γ`, mixes between 0 and 1, the *feedback anything at all* and changing at will — every sample of what it puts out is within
`2 (GA GB (M + 1 + S))² Γ`, a bound in which the feedback does not occur. -/
theorem C125_feedback_bounded (hM : 0 ≤ M) (hΓ : 0 ≤ Γ) (hGA : 1 ≤ GA) (hGB : 1 ≤ GB) (hS0 : 0 ≤ S) (hS : ∀ w, p.ws = some w → ∀ x d, |w x d| ≤ S)
    (ha : ∀ g, p.fa = some g → PeakGain g v0.a GA ∧ PeakGain g v0.a2 GA) (hb : ∀ g, p.fb = some g → PeakGain g v0.b GB ∧ PeakGain g v0.b2 GB)
    (life : List Settings) (hl : ∀ s ∈ life, s.Ok M Γ) (s : Settings) (hs : s.Ok M Γ) :
    |(voice cfg p ((lived cfg p v0 life).set s) s.dl s.dr).2.1| ≤ 2 * (GA * GB * (M + 1 + S)) ^ 2 * Γ ∧
      |(voice cfg p ((lived cfg p v0 life).set s) s.dl s.dr).2.2| ≤ 2 * (GA * GB * (M + 1 + S)) ^ 2 * Γ := by
  have key : ∀ (life : List Settings) (v : Voice L), Safe cfg p v0 M Γ GA S v → (∀ s ∈ life, s.Ok M Γ) → Safe cfg p v0 M Γ GA S (lived cfg p v life) := by
    intro life
    induction life with
    | nil => intro v h _; exact h
    | cons t life ih =>
      intro v h ht
      exact ih _ (safe_step hM hΓ hGA hGB hS0 hS (fun g e => (ha g e).1) (fun g e => (ha g e).2) (fun g e => (hb g e).1) (fun g e => (hb g e).2) h t (ht t (by simp))).1
        fun u hu => ht u (by simp [hu])
  have h0 : Safe cfg p v0 M Γ GA S v0 := by
    constructor <;> exact fun g _ => ⟨[], by simp, rfl⟩
  exact (safe_step hM hΓ hGA hGB hS0 hS (fun g e => (ha g e).1) (fun g e => (ha g e).2) (fun g e => (hb g e).1) (fun g e => (hb g e).2) (key life v0 h0 hl) s hs).2

/-- A filter that meets the hypothesis with gain 1: the mean of the last two samples. -/
example : PeakGain (fun (u x : ℝ) => (x, (u + x) / 2)) 0 1 := by
  intro B xs x _ hxs hx
  have hu : |fed (fun (u x : ℝ) => (x, (u + x) / 2)) 0 xs| ≤ B := by
    rcases List.eq_nil_or_concat xs with rfl | ⟨ys, y, rfl⟩
    · simpa [fed] using (abs_nonneg x).trans hx
    · simpa [fed] using hxs y (by simp)
  have := add_abs hu hx
  simp only [abs_div, abs_two]
  linarith

example : (⟨true, 1, 0, 10 ^ 9, 5, 1 / 2, 0, 1, 0, 3, 0, 1, -1⟩ : Settings).Ok 1 1 := by
  norm_num [Settings.Ok]

/-! ## The paths -/

/-- If related states stay related and sound the same, they sound the same for ever. -/
theorem same_heard {p p' : Units L} (R : Voice L → Voice L → Prop) {dl dr dl' dr' : ℕ → ℝ}
    (hR : ∀ v v' k, R v v' → R (voice cfg p v (dl k) (dr k)).1 (voice cfg p' v' (dl' k) (dr' k)).1 ∧ (voice cfg p v (dl k) (dr k)).2 = (voice cfg p' v' (dl' k) (dr' k)).2)
    {v v' : Voice L} (h : R v v') (k : ℕ) : heard cfg p v dl dr k = heard cfg p' v' dl' dr' k := by
  have key : ∀ k, R (state cfg p v dl dr k) (state cfg p' v' dl' dr' k) := by
    intro k
    induction k with
    | zero => exact h
    | succ k ih => exact (hR _ _ k ih).1
  exact (hR _ _ k (key k)).2

/-- **C126 (serial1).** There is no feedback: its amount and its lines make no difference. -/
theorem C126_serial1_no_feedback (p : Units L) (v : Voice L) (f df l r : ℝ) (dl dr : ℕ → ℝ) (k : ℕ) :
    heard .serial1 p v dl dr k = heard .serial1 p { v with feedback := f, dFeedback := df, fbL := l, fbR := r } dl dr k := by
  refine same_heard (fun v v' => v' = { v with feedback := v'.feedback, dFeedback := v'.dFeedback, fbL := v'.fbL, fbR := v'.fbR }) (fun v v' k h => ?_) rfl k
  rw [h]; exact ⟨rfl, rfl⟩

/-- **C126 (serial3).** Filter 2 and the second input are heard only through the feedback: with none, they make no difference, whatever they are. -/
theorem C126_serial3_filter2_in_loop (p : Units L) (fb' : Option (L → ℝ → L × ℝ)) (v : Voice L) (h1 : v.feedback = 0) (h2 : v.dFeedback = 0) (b' : L) (l : ℝ) (dl dr dr' : ℕ → ℝ)
    (k : ℕ) : heard .serial3 p v dl dr k = heard .serial3 { p with fb := fb' } { v with b := b', fbL := l } dl dr' k := by
  refine same_heard (fun v v' => v.feedback = 0 ∧ v.dFeedback = 0 ∧ v' = { v with b := v'.b, fbL := v'.fbL }) (fun v v' k h => ?_) ⟨h1, h2, rfl⟩ k
  obtain ⟨e1, e2, e3⟩ := h
  rw [e3]
  have hz : ∀ l, returned (v.feedback + v.dFeedback) l = 0 := fun l => by
    have e : max (min (0 : ℝ) (3 / 2)) (-(3 / 2)) = 0 := by rw [min_eq_left (by norm_num), max_eq_left (by norm_num)]
    rw [e1, e2]; simp [returned, Dsp.softclip, e]
  refine ⟨⟨?_, e2, ?_⟩, ?_⟩
  · simp [voice, Spec.serial3, e1, e2]
  · simp only [voice, Spec.serial3, hz]
    rfl
  · simp only [voice, Spec.serial3, hz]
    rfl

/-- **C126 (bypass).** In the serial paths without feedback through it, a first mix of 0 removes filter 1 and the shaper from the sound. -/
theorem C126_bypass_front (cfg : Config) (hc : cfg = .serial1 ∨ cfg = .serial2 ∨ cfg = .serial3) (p : Units L) (v : Voice L) (h1 : v.mix1 = 0) (h2 : v.dMix1 = 0) (dl dr : ℕ → ℝ) (k : ℕ) :
    heard cfg p v dl dr k = heard cfg { p with fa := none, ws := none } v dl dr k := by
  refine same_heard (fun v v' => v.mix1 = 0 ∧ v.dMix1 = 0 ∧ v' = { v with a := v'.a, lp := v'.lp, drive := v'.drive }) (fun v v' k h => ?_) ⟨h1, h2, rfl⟩ k
  obtain ⟨e1, e2, e3⟩ := h
  have hm : mix1Of p v = 0 := by unfold mix1Of; split <;> simp [e1, e2]
  have hm' : ∀ v : Voice L, mix1Of (⟨none, p.fb, none⟩ : Units L) v = v.mix1 := fun v => by simp [mix1Of, frontOn]
  have hf : ∀ i : ℝ, front p v i (shapedLp p v (run p.fa v.a i).2) = i := fun i => by
    unfold front
    by_cases h : frontOn p = true
    · rw [if_pos h, hm]; simp [blend]
    · rw [if_neg h]
      have : p.fa = none ∧ p.ws = none := by
        simpa [frontOn] using h
      simp [shapedLp, run, this.1, this.2]
  have hf' : ∀ (v : Voice L) (i : ℝ), front (⟨none, p.fb, none⟩ : Units L) v i (shapedLp ⟨none, p.fb, none⟩ v (run none v.a i).2) = i := fun v i => by
    simp [front, frontOn, shapedLp, run]
  rcases hc with rfl | rfl | rfl
  · refine ⟨⟨hm, e2, ?_⟩, ?_⟩
    · rw [e3]; simp only [voice, Spec.serial1, hf, hf', hm, hm', e1]
    · rw [e3]; simp only [voice, Spec.serial1, hf, hf']; rfl
  · refine ⟨⟨hm, e2, ?_⟩, ?_⟩
    · rw [e3]; simp only [voice, Spec.serial2, hf, hf', hm, hm', e1]
    · rw [e3]; simp only [voice, Spec.serial2, hf, hf']; rfl
  · refine ⟨⟨hm, e2, ?_⟩, ?_⟩
    · rw [e3]; simp only [voice, Spec.serial3, hf, hf', hm, hm', e1]
    · rw [e3]; simp only [voice, Spec.serial3, hf, hf']; rfl

/-- **C126 (bypass).** In serial1 and serial2 a second mix of 0 removes filter 2 and the second input. -/
theorem C126_bypass_back (cfg : Config) (hc : cfg = .serial1 ∨ cfg = .serial2) (p : Units L) (fb' : Option (L → ℝ → L × ℝ)) (v : Voice L) (h1 : v.mix2 = 0) (h2 : v.dMix2 = 0)
    (dl dr dr' : ℕ → ℝ) (k : ℕ) : heard cfg p v dl dr k = heard cfg { p with fb := fb' } v dl dr' k := by
  refine same_heard (fun v v' => v.mix2 = 0 ∧ v.dMix2 = 0 ∧ v' = { v with b := v'.b }) (fun v v' k h => ?_) ⟨h1, h2, rfl⟩ k
  obtain ⟨e1, e2, e3⟩ := h
  have hb : ∀ x y : ℝ, blend (v.mix2 + v.dMix2) x y = x := fun x y => by simp [blend, e1, e2]
  rcases hc with rfl | rfl
  · rw [e3]
    refine ⟨⟨by simp [voice, Spec.serial1, e1, e2], e2, ?_⟩, ?_⟩ <;> simp only [voice, Spec.serial1, hb] <;> rfl
  · rw [e3]
    refine ⟨⟨by simp [voice, Spec.serial2, e1, e2], e2, ?_⟩, ?_⟩ <;> simp only [voice, Spec.serial2, hb] <;> rfl

/-- **C126 (wide).** The two channels never mix: with the second signal's levels at 0, nothing of the second input, its filters and its feedback line is heard. -/
theorem C126_wide_channels (p : Units L) (v : Voice L) (h : v.out2L = 0 ∧ v.dout2L = 0 ∧ v.out2R = 0 ∧ v.dout2R = 0) (a' b' : L) (r : ℝ) (dl dr dr' : ℕ → ℝ) (k : ℕ) :
    heard .wide p v dl dr k = heard .wide p { v with a2 := a', b2 := b', fbR := r } dl dr' k := by
  refine same_heard (fun v v' => (v.out2L = 0 ∧ v.dout2L = 0 ∧ v.out2R = 0 ∧ v.dout2R = 0) ∧ v' = { v with a2 := v'.a2, b2 := v'.b2, fbR := v'.fbR })
    (fun v v' k h => ?_) ⟨h, rfl⟩ k
  obtain ⟨⟨z1, z2, z3, z4⟩, e⟩ := h
  rw [e]
  refine ⟨⟨⟨?_, z2, ?_, z4⟩, ?_⟩, ?_⟩
  · simp [voice, Spec.wide, z1, z2]
  · simp [voice, Spec.wide, z3, z4]
  · simp only [voice, Spec.wide]; rfl
  · simp only [voice, Spec.wide, heardTwo, z1, z2, z3, z4, add_zero, mul_zero]
    rfl

/-- **C126 (dual, ring, stereo).** With equal units, states, inputs and mixes, exchanging the two branches makes no difference in `dual1` and `ring`. -/
theorem C126_symmetric (cfg : Config) (hc : cfg = .dual1 ∨ cfg = .ring) (p : Units L) (v : Voice L) (dl dr : ℕ → ℝ) (k : ℕ) :
    heard cfg p v dl dr k = heard cfg { p with fa := p.fb, fb := p.fa } { v with a := v.b, b := v.a, mix1 := v.mix2, mix2 := v.mix1, dMix1 := v.dMix2, dMix2 := v.dMix1 } dr dl k := by
  refine same_heard (fun v v' => v' = { v with a := v.b, b := v.a, mix1 := v.mix2, mix2 := v.mix1, dMix1 := v.dMix2, dMix2 := v.dMix1 })
    (fun v v' k h => ?_) rfl k
  subst h
  rcases hc with rfl | rfl
  · have e : ∀ x y a b : ℝ, x * a + y * b = y * b + x * a := fun x y a b => by ring
    constructor
    · simp only [voice, Spec.dual1]
      rw [e]; rfl
    · simp only [voice, Spec.dual1]
      rw [e]; rfl
  · constructor
    · simp only [voice, Spec.ring]
      rw [mul_comm (blend (v.mix2 + v.dMix2) _ _)]; rfl
    · simp only [voice, Spec.ring]
      rw [mul_comm (blend (v.mix2 + v.dMix2) _ _)]; rfl

end Verif.Chain
