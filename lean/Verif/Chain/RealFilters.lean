import Verif.Chain.Claims
import Verif.Filters.SvfFour
import Verif.Filters.Ladder
/-!
# The feedback paths with the voice filters themselves (C125)

The hypothesis of `C125_feedback_bounded`, a bounded peak gain, is met by filters of the code: the state-variable filter at every cutoff and
resonance (also where it oscillates by itself), the ladder at every setting, sample-and-hold at every rate and feedback, and the smooth
lattice filters at every stable design.  Coefficients are held; everything else about the voice may change from sample to sample.
-/
namespace Verif.Chain
open Spec Filters

/-- A voice filter and its held settings. -/
inductive Spec.VoiceFilter where
  /-- type, order, cutoff in hertz, sample period, resonance -/
  | stateVariable (ty : IirType) (p : PoleType) (f srInv reso : ℝ)
  /-- stage heard, pitch, sample period, resonance -/
  | ladder (stage : ℤ) (pitch srosInv reso : ℝ)
  /-- pitch, sample rate, feedback -/
  | sampleHold (pitch sros reso : ℝ)
  /-- order, biquad design, gain, clip gain -/
  | smooth (p : PoleType) (f : Fc) (gain clip : ℝ)

/-- Settings that make sense: positive frequencies; a stable design and no negative clip gain. -/
def Spec.VoiceFilter.Ok : Spec.VoiceFilter → Prop
  | .stateVariable _ _ f srInv _ => 0 < f ∧ 0 < srInv
  | .ladder _ _ _ _ => True
  | .sampleHold _ _ _ => True
  | .smooth _ f gain clip => 0 ≤ clip ∧ Biquad.Spec.Stable (Filters.Spec.biquad f gain)

/-- surgefilter/src process functions: what the filter does with a sample. -/
noncomputable def Spec.VoiceFilter.step : Spec.VoiceFilter → FU → ℝ → FU × ℝ
  | .stateVariable ty p _ _ _ => svfProcess ty p
  | .ladder _ _ _ _ => moog
  | .sampleHold _ _ _ => snh
  | .smooth .two _ _ _ => iir12b
  | .smooth .four _ _ _ => iir24b

/-- A fresh unit with the coefficients the designer makes. -/
noncomputable def Spec.VoiceFilter.fresh : Spec.VoiceFilter → FU
  | .stateVariable _ p f srInv reso => ⟨svfCoeffMake f srInv p reso, fun _ => 0, fun _ => 0, 0⟩
  | .ladder stage pitch srosInv reso => ⟨moogCoeffMake pitch srosInv reso, fun _ => 0, fun _ => 0, stage⟩
  | .sampleHold pitch sros reso => ⟨snhCoeffMake pitch sros reso, fun _ => 0, fun _ => 0, 0⟩
  | .smooth _ f gain clip => ⟨f.lattice gain clip, fun _ => 0, fun _ => 0, 0⟩

theorem fed_mem (f : FU → ℝ → FU × ℝ) (xs : List ℝ) (x : ℝ) : ∀ u, (f (fed f u xs) x).2 ∈ (Filters.run f u (xs ++ [x])).2 := by
  induction xs with
  | nil => intro u; simp [fed, Filters.run]
  | cons y xs ih =>
    intro u
    have := ih (f u y).1
    simp only [fed, List.foldl_cons, List.cons_append, Filters.run] at this ⊢
    exact List.mem_cons_of_mem _ this

theorem peak_of {f : FU → ℝ → FU × ℝ} {u : FU} {K : ℝ} (h : ∀ (M : ℝ) (xs : List ℝ), 0 ≤ M → (∀ x ∈ xs, |x| ≤ M) → ∀ y ∈ (Filters.run f u xs).2, |y| ≤ K * (1 + M)) :
    PeakGain f u (1 + 2 * |K|) := by
  intro B xs x hB hxs hx
  have := h B (xs ++ [x]) (by linarith) (fun y hy => by
    rcases List.mem_append.1 hy with hy | hy
    · exact hxs y hy
    · rw [List.mem_singleton.1 hy]; exact hx) _ (fed_mem f xs x u)
  refine this.trans ?_
  have k0 := abs_nonneg K
  have := mul_le_mul_of_nonneg_right (le_abs_self K) (show 0 ≤ 1 + B by linarith)
  nlinarith

/-- **Every one of these filters has a bounded peak gain.** -/
theorem C125_filters_have_peak_gain (F : Spec.VoiceFilter) (h : F.Ok) : ∃ G : ℝ, 1 ≤ G ∧ PeakGain F.step F.fresh G := by
  have fin : ∀ {K : ℝ}, (∀ (M : ℝ) (xs : List ℝ), 0 ≤ M → (∀ x ∈ xs, |x| ≤ M) → ∀ y ∈ (Filters.run F.step F.fresh xs).2, |y| ≤ K * (1 + M)) →
      ∃ G : ℝ, 1 ≤ G ∧ PeakGain F.step F.fresh G := fun {K} hK => ⟨1 + 2 * |K|, by linarith [abs_nonneg K], peak_of hK⟩
  have lin : ∀ {K M y : ℝ}, 0 ≤ M → |y| ≤ K * M → |y| ≤ |K| * (1 + M) := by
    intro K M y M0 hy
    have := mul_le_mul_of_nonneg_right (le_abs_self K) M0
    linarith [abs_nonneg K]
  cases F with
  | stateVariable ty p f srInv reso =>
    obtain ⟨K, hK⟩ := C105_bounded_settings h.1 h.2 ty p reso
    exact fin hK
  | ladder stage pitch srosInv reso =>
    obtain ⟨b0, b1⟩ := moog_b pitch srosInv reso
    refine fin (K := 11.50001) fun M xs M0 _ y hy => ?_
    have := (run_out (step := moog) (A := fun _ => True) (Q := fun y => |y| ≤ 11.50001)
      (I := fun u => u.coeff = moogCoeffMake pitch srosInv reso ∧ (u.dcoeff = fun _ => 0) ∧ ∀ i < 5, |u.reg i| ≤ 11.50001) ?_ xs _ (fun _ _ => trivial)
      ⟨rfl, rfl, fun i _ => by simp [Spec.VoiceFilter.fresh]; norm_num⟩).2 y hy
    · refine this.trans ?_
      linarith
    · rintro u x - ⟨c, d, hi⟩
      have c1 : (moog u x).1.coeff = moogCoeffMake pitch srosInv reso := by
        rw [← c]
        funext i
        simp [moog, FU.set, FU.adv, d]
      have d1 : (moog u x).1.dcoeff = fun _ => 0 := by
        rw [← d]; rfl
      obtain ⟨r, o⟩ := moog_step (u := u) (x := x) le_rfl (by rw [c1]; exact b0) (by rw [c1]; exact b1.le) hi
      exact ⟨⟨c1, d1, r⟩, o⟩
  | sampleHold pitch sros reso =>
    refine fin (K := 1) fun M xs M0 _ y hy => ?_
    have := C106_bounded _ (by simp [Spec.VoiceFilter.fresh]) xs y hy
    linarith
  | smooth p f gain clip =>
    obtain ⟨K, hK⟩ := C101_smooth_partial f gain h.1 h.2
    cases p
    · exact fin (K := |K|) fun M xs M0 hx y hy => lin M0 ((hK M xs M0 hx).1 y hy)
    · exact fin (K := |K|) fun M xs M0 hx y hy => lin M0 ((hK M xs M0 hx).2 y hy)

/-- **C125 with the filters of the code.** In every configuration, with each filter off or any of the above at any settings and any shaper
bounded by `S`, there is a bound for what a voice puts out: whatever its life - inputs within `M`, gains within `Γ`, mixes between 0 and 1,
feedback and drive anything at all and changing at will - no sample exceeds it. -/
theorem C125_voice_bounded (cfg : Config) (F1 F2 : Option Spec.VoiceFilter) (h1 : ∀ F, F1 = some F → F.Ok) (h2 : ∀ F, F2 = some F → F.Ok)
    (ws : Option (ℝ → ℝ → ℝ)) {M Γ S : ℝ} (hM : 0 ≤ M) (hΓ : 0 ≤ Γ) (hS0 : 0 ≤ S) (hS : ∀ w, ws = some w → ∀ x d, |w x d| ≤ S)
    (v : Spec.Voice FU) (ha : ∀ F, F1 = some F → v.a = F.fresh ∧ v.a2 = F.fresh) (hb : ∀ F, F2 = some F → v.b = F.fresh ∧ v.b2 = F.fresh) :
    ∃ K : ℝ, ∀ life : List Settings, (∀ s ∈ life, s.Ok M Γ) → ∀ s : Settings, s.Ok M Γ →
      |(Spec.voice cfg ⟨F1.map (·.step), F2.map (·.step), ws⟩ ((lived cfg ⟨F1.map (·.step), F2.map (·.step), ws⟩ v life).set s) s.dl s.dr).2.1| ≤ K ∧
      |(Spec.voice cfg ⟨F1.map (·.step), F2.map (·.step), ws⟩ ((lived cfg ⟨F1.map (·.step), F2.map (·.step), ws⟩ v life).set s) s.dl s.dr).2.2| ≤ K := by
  have get : ∀ (F : Option Spec.VoiceFilter) (u u2 : FU), (∀ G, F = some G → G.Ok) → (∀ G, F = some G → u = G.fresh ∧ u2 = G.fresh) →
      ∃ G : ℝ, 1 ≤ G ∧ ∀ g, F.map (·.step) = some g → PeakGain g u G ∧ PeakGain g u2 G := by
    intro F u u2 ok hu
    cases F with
    | none => exact ⟨1, le_rfl, fun g hg => by simp at hg⟩
    | some F =>
      obtain ⟨G, G1, hG⟩ := C125_filters_have_peak_gain F (ok F rfl)
      obtain ⟨e1, e2⟩ := hu F rfl
      refine ⟨G, G1, fun g hg => ?_⟩
      obtain rfl : F.step = g := by simpa using hg
      rw [e1, e2]
      exact ⟨hG, hG⟩
  obtain ⟨GA, GA1, hA⟩ := get F1 v.a v.a2 h1 ha
  obtain ⟨GB, GB1, hB⟩ := get F2 v.b v.b2 h2 hb
  exact ⟨2 * (GA * GB * (M + 1 + S)) ^ 2 * Γ, fun life hl s hs => C125_feedback_bounded hM hΓ GA1 GB1 hS0 hS hA hB life hl s hs⟩

/-- A self-oscillating four-pole filter into a ladder at full resonance. -/
example : (Spec.VoiceFilter.stateVariable .lowPass .four 1000 (1 / 96000) 1).Ok ∧ (Spec.VoiceFilter.ladder 3 4 (1 / 96000) 1).Ok := by
  simp only [Spec.VoiceFilter.Ok]; norm_num

end Verif.Chain
