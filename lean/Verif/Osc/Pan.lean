import Verif.Osc.Snh
/-!
# The gains and the correlation of impulses (C172, C250), in exact real arithmetic

For the models of `Verif.Osc.Snh` (surgeosc-snh/src/convolute.rs) and `Verif.Osc.Wt` (surgeosc-wavetable/src/convolute).
-/
namespace Verif.Osc
open Verif

/-- The gains of an impulse: the step of the level times the attenuation; in stereo times the panning of its voice. -/
def Spec.Panned (att panL panR : ℝ) (stereo : Bool) (x : Hit) : Prop :=
  x.pulse.gl = (if stereo then x.g * att * panL else x.g * att) ∧ (stereo = true → x.pulse.gr = x.g * att * panR)

theorem snh_fill_panned {rand : ℕ → ℝ} {c : SupCfg} {P : SnhPar} {stereo : Bool} : ∀ {n : ℕ} {v w : SnhVoice} {hs : List Hit}, v.fill rand c P stereo n = some (w, hs) →
    ∀ x ∈ hs, Spec.Panned P.att P.panL P.panR stereo x
  | 0, v, w, hs, e => by simp [SnhVoice.fill] at e
  | n + 1, v, w, hs, e => by
    rw [SnhVoice.fill] at e
    split at e
    · obtain ⟨⟨w', hs'⟩, e1, e2⟩ := Option.map_eq_some_iff.1 e
      obtain ⟨rfl, rfl⟩ := Prod.mk.inj e2
      intro x hx
      rcases List.mem_cons.1 hx with rfl | hx
      · refine ⟨?_, fun hs => ?_⟩
        · show (if stereo = true then _ else _) = _
          rfl
        · show (if stereo = true then _ else (0 : ℝ)) = _
          rw [if_pos hs]; rfl
      · exact snh_fill_panned e1 x hx
    · injection e with e
      obtain ⟨rfl, rfl⟩ := Prod.mk.inj e
      simp

/-- **C250.**  The sample-and-hold oscillator pans its unison voices: every impulse of every voice goes to the left and right with the panning of the voice, for every history of parameters and random numbers. -/
theorem C250_snh {rand : ℕ → ℝ} {c : ℕ → SupCfg} {P : ℕ → SnhPar} {stereo : Bool} {V : ℕ → SnhVoice} {H : ℕ → List Hit} (h : Spec.SnhRun rand c P stereo V H) (t : ℕ) :
    ∀ x ∈ H t, Spec.Panned (P t).att (P t).panL (P t).panR stereo x := by
  obtain ⟨n, w, e, _⟩ := h.step t
  exact snh_fill_panned e

theorem wconvolute_gain {ctr : ℝ → ℝ} {W : WTab} {c : SupCfg} {P : WPar} {stereo isSample : Bool} {s0 s : WShare} {v0 v : WVoice} {x : Hit} (h : wconvolute ctr W c P stereo isSample s0 v0 = .ok (s, v, x)) :
    x.pulse.gl = (if stereo then x.g * P.att * P.panL else x.g * P.att) ∧ x.pulse.gr = x.pulse.gl := by
  unfold wconvolute at h
  simp only at h
  generalize (if v0.state = 0 then cycleStart W c P isSample s0 v0 else (s0, v0)) = q at h
  obtain ⟨s1, v1⟩ := q
  simp only at h
  cases h1 : lerpR (v0.osc * (1 / 64) * c.inv) s1.formantLast P.formant with
  | err e => rw [h1] at h; cases h
  | panic m => rw [h1] at h; cases h
  | ok ft =>
    rw [h1] at h
    simp only [Res.ok_bind] at h
    cases h2 : newLevel W P s1 v1.mip (v1.state &&& (W.len / 2 ^ v1.mip - 1)) (v0.osc * (1 / 64) * c.inv) with
    | err e => rw [h2] at h; cases h
    | panic m => rw [h2] at h; cases h
    | ok level =>
      rw [h2] at h
      simp only [Res.ok_bind, Res.pure_eq, Res.ok.injEq, Prod.mk.injEq] at h
      obtain ⟨-, -, rfl⟩ := h
      exact ⟨rfl, rfl⟩

theorem wfill_gain {ctr : ℝ → ℝ} {W : WTab} {c : SupCfg} {P : WPar} {stereo isSample : Bool} : ∀ {n : ℕ} {s s' : WShare} {v v' : WVoice} {hs : List Hit}, wfill ctr W c P stereo isSample n s v = some (.ok (s', v', hs)) →
    ∀ x ∈ hs, x.pulse.gl = (if stereo then x.g * P.att * P.panL else x.g * P.att) ∧ x.pulse.gr = x.pulse.gl
  | 0, s, s', v, v', hs, e => by simp [wfill] at e
  | n + 1, s, s', v, v', hs, e => by
    rw [wfill] at e
    split at e
    · cases hcv : wconvolute ctr W c P stereo isSample s v with
      | err x => rw [hcv] at e; simp at e
      | panic x => rw [hcv] at e; simp at e
      | ok q =>
        obtain ⟨s1, v1, h1⟩ := q
        rw [hcv] at e
        simp only at e
        obtain ⟨r, e1, e2⟩ := Option.map_eq_some_iff.1 e
        cases r with
        | err x => cases e2
        | panic x => cases e2
        | ok q =>
          obtain ⟨s2, v2, hs2⟩ := q
          simp only [Res.ok_bind, Res.pure_eq, Res.ok.injEq, Prod.mk.injEq] at e2
          obtain ⟨-, -, rfl⟩ := e2
          intro x hx
          rcases List.mem_cons.1 hx with rfl | hx
          · exact wconvolute_gain hcv
          · exact wfill_gain e1 x hx
    · simp only [Option.some.injEq, Res.ok.injEq, Prod.mk.injEq] at e
      obtain ⟨-, -, rfl⟩ := e
      simp

/-- **C250** (refuted for the wavetable oscillator).  Its impulses have the same gain on both sides, that of the left: whatever the panning to the right, its unison voices are not spread, and a voice panned hard
right is silent. -/
theorem C250_wavetable_refuted {ctr : ℝ → ℝ} {W : WTab} {c : ℕ → SupCfg} {P : ℕ → WPar} {stereo : Bool} {shape : ℕ → ℝ} {S : ℕ → WShare} {V : ℕ → WVoice} {H : ℕ → List Hit}
    (h : Spec.WRun ctr W c P stereo shape S V H) (t : ℕ) : ∀ x ∈ H t, x.pulse.gl = (if stereo then x.g * (P t).att * (P t).panL else x.g * (P t).att) ∧ x.pulse.gr = x.pulse.gl ∧
      (stereo = true → (P t).panL = 0 → x.pulse.gr = 0) := by
  intro x hx
  obtain ⟨n, e⟩ := h.step t
  obtain ⟨a, b⟩ := wfill_gain e x hx
  refine ⟨a, b, fun hs h0 => ?_⟩
  rw [b, a, if_pos hs, h0, mul_zero]

/-- **C172 (correlation).**  A positive shape makes neighbouring levels unlike, a negative one alike: as long as nothing is clipped the next level is the draw less `0.8 s / (1 - 0.8 |s|)` times the last level;
the level never falls when the draw rises. -/
theorem C172_correlation {shape : ℝ} (hs : |shape| ≤ 1) : (∀ last r, |r - 0.8 * shape / (1 - 0.8 * |shape|) * last| ≤ 0.5 → draw shape 1 last r = r - 0.8 * shape / (1 - 0.8 * |shape|) * last) ∧
    (∀ i last r r', i = 1 ∨ i = -1 → r ≤ r' → draw shape i last r ≤ draw shape i last r') ∧ (∀ last last' r, 0 ≤ shape → last ≤ last' → draw shape 1 last' r ≤ draw shape 1 last r) ∧
    (∀ last last' r, shape ≤ 0 → last ≤ last' → draw shape 1 last r ≤ draw shape 1 last' r) := by
  have hpos : 0 < 1 - 0.8 * |shape| := by linarith
  have hform : ∀ i last r : ℝ, (i = 1 ∨ i = -1) → draw shape i last r = min 0.5 (max (-0.5) (r - 0.8 * (shape * i) / (1 - 0.8 * |shape|) * last)) := by
    intro i last r hi
    have habs : |shape * 0.8 * i| = 0.8 * |shape| := by
      rcases hi with rfl | rfl
      · rw [mul_one, abs_mul, abs_of_pos (by norm_num : (0 : ℝ) < 0.8)]; ring
      · rw [mul_neg, mul_one, abs_neg, abs_mul, abs_of_pos (by norm_num : (0 : ℝ) < 0.8)]; ring
    unfold draw
    simp only [habs]
    have : (r * (1 - 0.8 * |shape|) - shape * 0.8 * i * last) * (1 / (1 - 0.8 * |shape|)) = r - 0.8 * (shape * i) / (1 - 0.8 * |shape|) * last := by
      field_simp
    rw [this]
  have hmono : ∀ x y : ℝ, x ≤ y → min (0.5 : ℝ) (max (-0.5) x) ≤ min 0.5 (max (-0.5) y) := fun x y h => min_le_min_left _ (max_le_max_left _ h)
  refine ⟨fun last r h => ?_, fun i last r r' hi h => ?_, fun last last' r h0 h => ?_, fun last last' r h0 h => ?_⟩
  · rw [hform 1 last r (Or.inl rfl), mul_one]
    obtain ⟨h1, h2⟩ := abs_le.mp h
    rw [max_eq_right h1, min_eq_right h2]
  · rw [hform i last r hi, hform i last r' hi]; exact hmono _ _ (by linarith)
  · rw [hform 1 last r (Or.inl rfl), hform 1 last' r (Or.inl rfl)]
    refine hmono _ _ ?_
    have : 0 ≤ 0.8 * (shape * 1) / (1 - 0.8 * |shape|) := div_nonneg (by linarith) hpos.le
    linarith [mul_le_mul_of_nonneg_left h this]
  · rw [hform 1 last r (Or.inl rfl), hform 1 last' r (Or.inl rfl)]
    refine hmono _ _ ?_
    have : 0.8 * (shape * 1) / (1 - 0.8 * |shape|) ≤ 0 := div_nonpos_of_nonpos_of_nonneg (by linarith) hpos.le
    linarith [mul_le_mul_of_nonpos_left h this]

/-- **C172 (sync).**  The correlation changes its sign exactly when the sync cuts the second level of a cycle short; otherwise the level is drawn as `C172_correlation` says, from the level before. -/
theorem C172_sync (rand : ℕ → ℝ) (c : SupCfg) (P : SnhPar) (stereo : Bool) (v : SnhVoice) :
    ((v.convolute rand c P stereo).1.last = if v.sync < v.osc ∧ v.state = 1 then draw (-P.shape) 1 v.last (rand v.draws) else draw P.shape 1 v.last (rand v.draws)) ∧
    v.last + (v.convolute rand c P stereo).2.g = (v.convolute rand c P stereo).1.last := by
  constructor
  · show draw P.shape v.invert v.last (rand v.draws) = _
    unfold SnhVoice.invert
    by_cases hc : v.sync < v.osc ∧ v.state = 1
    · rw [if_pos hc, if_pos hc]; unfold draw; simp
    · rw [if_neg hc, if_neg hc]
  · show v.last + ((v.convolute rand c P stereo).1.last - v.last) = _
    ring

/-- Non-vacuity: a run of the sample-and-hold oscillator exists (`C171_ends`), from the start shown there. -/
example : ∃ V H, Spec.SnhRun (fun _ => 0.3) (fun _ => ⟨64 * (1 / 200), 200⟩) (fun _ => ⟨0.5, 0.7, 0, 1, 1, 1, 0.5, 0.25⟩) true V H := by
  obtain ⟨V, H, -, h⟩ := C171_ends (fun _ => 0.3) (c := fun _ => ⟨64 * (1 / 200), 200⟩) (P := fun _ => ⟨0.5, 0.7, 0, 1, 1, 1, 0.5, 0.25⟩) true (fun _ => ⟨by norm_num, by norm_num⟩)
    (fun _ => ⟨by norm_num, by norm_num, by norm_num⟩) (v := ⟨0, 0.1, 0.1, 0, 0.5, 0⟩) ⟨rfl, by norm_num, rfl, rfl, by norm_num⟩
  exact ⟨V, H, h⟩

end Verif.Osc
