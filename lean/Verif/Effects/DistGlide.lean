import Verif.Effects.Distortion
import Verif.Biquad.Glide
/-!
# The distortion after its settings have been moved (C151), in exact real arithmetic

`C151_bounded_partial` starts from silence with the settings behind the shaper fixed.  Here the run starts in any state whatever — any registers, any coefficients, left there by any
automation of any parameter — at the block that takes up the settings; from then on the coefficients behind the shaper glide.
-/
namespace Verif.Effects.Distortion
open Verif.Biquad Verif.Smooth Verif.Halfrate

/-- The states that blocks with allowed parameters lead to from `s0`. -/
inductive Spec.From (ok : Params → Prop) (s0 : State) : State → Prop
  | start : Spec.From ok s0 s0
  | block {s s' : State} {P : Params} {l r ol or_ : ℕ → ℝ} : Spec.From ok s0 s → ok P → process P l r s = .ok (s', ol, or_) → Spec.From ok s0 s'

/-- A filter at rest at `c`, `n` samples after its registers held `t0`. -/
structure Still (c : Cf) (X : ℝ) (t0 : ℝ × ℝ) (s : Side) (f : Filter) : Prop where
  rests : Rests c f
  reg : ∃ n, Gliding c 0 (shove c 0 X) t0 n (s.of f.reg0, s.of f.reg1)

theorem still_under {c : Cf} {X : ℝ} {t0 : ℝ × ℝ} {s : Side} {f : Filter} (h : Still c X t0 s f) : Under c 0 X t0 s f := by
  obtain ⟨h1, n, h2⟩ := h
  refine ⟨n, n, le_rfl, ⟨?_, ?_⟩, h2⟩
  · obtain ⟨e1, e2, e3, e4, e5⟩ := h1
    simp only [Filter.goal, e1, e2, e3, e4, e5]
  · rw [rests_cf h1]; constructor <;> simp

theorem rests_still {c : Cf} {f : Filter} (h : Rests c f) : f.coeffProcess = f := by
  obtain ⟨h1, h2, h3, h4, h5⟩ := h
  cases f
  simp only [Filter.coeffProcess] at *
  simp only [h1, h2, h3, h4, h5, vlag_rest]

theorem still_nolag {c : Cf} {K X : ℝ} (hK : Caps c 0 K) {t0 : ℝ × ℝ} {s : Side} {f : Filter} (h : Still c X t0 s f) {l r : ℝ} (hx : |s.of (l, r)| ≤ X) :
    Still c X t0 s (f.processSampleNolag l r).1 ∧ |s.of (f.processSampleNolag l r).2| ≤ cap c 0 K X t0 := by
  have e : f.processSampleNolag l r = f.processSampleStereo l r := by
    unfold Filter.processSampleNolag Filter.processSampleStereo
    rw [rests_still h.rests]
  obtain ⟨u1, u2⟩ := under_stereo le_rfl hK (still_under h) (l := l) (r := r) hx
  rw [← e] at u1 u2
  obtain ⟨m, n, -, -, g⟩ := u1.h
  exact ⟨⟨h.rests, n, g⟩, u2⟩

theorem setCoef_target (f : Filter) (hf : f.firstRun = false) (a0 a1 a2 b0 b1 b2 : ℝ) : (f.setCoef a0 a1 a2 b0 b1 b2).cf = f.cf ∧
    (f.setCoef a0 a1 a2 b0 b1 b2).goal = Spec.normal a0 a1 a2 b0 b1 b2 := by
  simp only [Filter.setCoef, Filter.start, hf, Bool.false_eq_true, if_false, Filter.newValues, Filter.cf, Filter.goal, VLag.newValue, Spec.normal, mul_one_div, and_self]

/-- After the settings have been taken up. -/
structure Settled (c cb : Cf) (R X Y G : ℝ) (t u : Side → ℝ × ℝ) (s : State) : Prop where
  lp : ∀ d, Still c X (t d) d s.core.lp2
  first : s.band2.firstRun = false
  band : ∀ d, Under cb R Y (u d) d s.band2
  out : |s.outgain.target| ≤ G ∧ s.outgain.blockSize = 32

/-- What the registers of a filter hold on one side. -/
def Spec.regs (f : Filter) (d : Side) : ℝ × ℝ := (d.of f.reg0, d.of f.reg1)

theorem settle {lin : ℝ → ℝ} {post : Band} {ω W G R X Y : ℝ} (hR : 0 ≤ R) {P : Params} (hP : Spec.Tame lin post ω W G P) {s0 s : State} (h0 : s0.bi = 0)
    (hb : s0.band2.firstRun = true ∨ Near (peakCf lin post) R s0.band2.cf)
    {G' : ℝ} (hG : |s0.outgain.target| ≤ G' ∧ s0.outgain.blockSize = 32)
    (h : s = s0 ∨ Settled (lpCf ω) (peakCf lin post) R X Y G' (Spec.regs s0.core.lp2) (Spec.regs s0.band2) s) :
    Settled (lpCf ω) (peakCf lin post) R X Y G' (Spec.regs s0.core.lp2) (Spec.regs s0.band2) (maybeUpdate P s) := by
  obtain ⟨p1, p2, p3, -, -⟩ := hP
  obtain ⟨a0, a1, a2, b0, b1, b2, e, -⟩ := lp_shape ω
  obtain ⟨c0, c1, c2, d0, d1, d2, e'⟩ := peak_shape lin post
  have ec : lpCf ω = Spec.normal a0 a1 a2 b0 b1 b2 := by unfold lpCf; rw [e]; exact rests_cf (setCoef_first Filter.new rfl ..)
  have ec' : peakCf lin post = Spec.normal c0 c1 c2 d0 d1 d2 := by unfold peakCf; rw [e']; exact rests_cf (setCoef_first Filter.new rfl ..)
  by_cases hb0 : s.bi = 0
  · have l : (maybeUpdate P s).core.lp2 = (s.core.lp2.setCoef a0 a1 a2 b0 b1 b2).coeffInstantize := by
      simp only [maybeUpdate, if_pos hb0, update, p3, e]
    have b : (maybeUpdate P s).band2 = s.band2.setCoef c0 c1 c2 d0 d1 d2 := by
      simp only [maybeUpdate, if_pos hb0, update, p1, p2, e']
    have o : (maybeUpdate P s).outgain = s.outgain := by simp only [maybeUpdate, if_pos hb0, update]
    obtain ⟨q0, q1, -⟩ := setCoef_regs s.core.lp2 a0 a1 a2 b0 b1 b2
    obtain ⟨t0, t1, t2⟩ := setCoef_regs s.band2 c0 c1 c2 d0 d1 d2
    have lr : ∀ d : Side, (d.of (maybeUpdate P s).core.lp2.reg0, d.of (maybeUpdate P s).core.lp2.reg1) = Spec.regs s.core.lp2 d := by
      intro d
      rw [l]
      show (d.of (s.core.lp2.setCoef a0 a1 a2 b0 b1 b2).reg0, d.of (s.core.lp2.setCoef a0 a1 a2 b0 b1 b2).reg1) = _
      rw [q0, q1]; rfl
    have rr : Rests (lpCf ω) (maybeUpdate P s).core.lp2 := by rw [l, ec]; exact instant_rests ..
    rcases h with rfl | ⟨h1, h2, h3, h4⟩
    · refine ⟨fun d => ⟨rr, 0, ?_⟩, by rw [b]; exact t2, fun d => ⟨0, 0, le_rfl, ?_, ?_⟩, by rw [o]; exact hG⟩
      · rw [lr]; exact ⟨_, .zero, .inl rfl⟩
      · rw [b, ec']; exact (setCoef_bound _ _ _ _ _ _ _ hR (ec' ▸ hb)).1
      · rw [b, t0, t1]; exact ⟨_, .zero, .inl rfl⟩
    · refine ⟨fun d => ⟨rr, ?_⟩, by rw [b]; exact t2, fun d => ?_, by rw [o]; exact h4⟩
      · rw [lr]; exact (h1 d).reg
      · obtain ⟨m, n, hm, hbd, hg⟩ := (h3 d).h
        obtain ⟨v1, v2⟩ := setCoef_target s.band2 h2 c0 c1 c2 d0 d1 d2
        refine ⟨m, n, hm, ⟨?_, ?_⟩, ?_⟩
        · rw [b, v2, ec']
        · rw [b, v1]; exact hbd.near
        · rw [b, t0, t1]; exact hg
  · have u : (maybeUpdate P s).core = s.core ∧ (maybeUpdate P s).band2 = s.band2 ∧ (maybeUpdate P s).outgain = s.outgain := by
      simp only [maybeUpdate, if_neg hb0, and_self]
    rcases h with rfl | ⟨h1, h2, h3, h4⟩
    · exact absurd h0 hb0
    · exact ⟨by rw [u.1]; exact h1, by rw [u.2.1]; exact h2, by rw [u.2.1]; exact h3, by rw [u.2.2]; exact h4⟩

/-- The largest output of the low-pass on either side. -/
noncomputable def top (c : Cf) (R K X : ℝ) (t : Side → ℝ × ℝ) : ℝ := max (cap c R K X (t .left)) (cap c R K X (t .right))

theorem core_still {c : Cf} {W K : ℝ} (hK : Caps c 0 K) {P : Params} {t : Side → ℝ × ℝ}
    (hs : ∀ x, |P.shape x| ≤ W) (l r : ℕ → ℝ) {k : Core} (h : ∀ d, Still c (W + 1) (t d) d k.lp2) : ∀ n, (∀ d, Still c (W + 1) (t d) d (coreAt P l r k n).lp2) ∧
      (0 < n → |(coreAt P l r k n).left| ≤ top c 0 K (W + 1) t ∧ |(coreAt P l r k n).right| ≤ top c 0 K (W + 1) t)
  | 0 => ⟨h, fun h => absurd h (by omega)⟩
  | n + 1 => by
    obtain ⟨ih, -⟩ := core_still hK hs l r h n
    have b : ∀ x, |P.shape x + denormalizer (n / 4)| ≤ W + 1 := fun x => (abs_add_le _ _).trans (add_le_add (hs x) (denorm_small _))
    simp only [coreAt, substep]
    have g := fun x y d => still_nolag hK (ih d) (l := P.shape x + denormalizer (n / 4)) (r := P.shape y + denormalizer (n / 4)) (by cases d <;> exact b _)
    exact ⟨fun d => (g _ _ d).1, fun _ => ⟨(g _ _ .left).2.trans (le_max_left _ _), (g _ _ .right).2.trans (le_max_right _ _)⟩⟩

theorem settled_block {lin : ℝ → ℝ} {post : Band} {ω W G G' R K L : ℝ} (hR : 0 ≤ R)
    (hK : Caps (lpCf ω) 0 K) (hL : Caps (peakCf lin post) R L) {t u : Side → ℝ × ℝ}
    {P : Params} (hP : Spec.Tame lin post ω W G P) (hGG : G ≤ G') (l r : ℕ → ℝ) {s : State}
    (h : Settled (lpCf ω) (peakCf lin post) R (W + 1) (top (lpCf ω) 0 K (W + 1) t * G') G' t u (maybeUpdate P s)) :
    ∃ (s' : State) (ol or_ : ℕ → ℝ), process P l r s = .ok (s', ol, or_) ∧
      Settled (lpCf ω) (peakCf lin post) R (W + 1) (top (lpCf ω) 0 K (W + 1) t * G') G' t u s' ∧
      ∀ k < 32, |ol k| ≤ top (peakCf lin post) R L (top (lpCf ω) 0 K (W + 1) t * G') u ∧ |or_ k| ≤ top (peakCf lin post) R L (top (lpCf ω) 0 K (W + 1) t * G') u := by
  obtain ⟨T, hT⟩ : ∃ T, T = top (lpCf ω) 0 K (W + 1) t := ⟨_, rfl⟩
  rw [← hT] at h ⊢
  obtain ⟨s', a, b, -, e, e1, e2, e3, e4⟩ := process_eq P l r s
  have cc := core_still hK hP.shape (before P l r s).2.1 (before P l r s).2.2 (k := (before P l r s).1.core) h.lp
  have hw : ∀ k, |wetL P l r s k| ≤ T ∧ |wetR P l r s k| ≤ T := fun k => by rw [hT]; exact (cc (k + 1)).2 (by omega)
  have T0 : 0 ≤ T := (abs_nonneg _).trans (hw 0).1
  have eo : (before P l r s).1.outgain = (maybeUpdate P s).outgain.setTargetSmoothed P.outgain := rfl
  obtain ⟨o1, o2⟩ := h.out
  have ot : |((maybeUpdate P s).outgain.setTargetSmoothed P.outgain).target| ≤ G' := by
    have := hP.gain.trans hGG
    simp only [LipolPs.setTargetSmoothed]
    obtain ⟨a, b⟩ := abs_le.1 o1
    obtain ⟨c, d⟩ := abs_le.1 this
    rw [abs_le]; constructor <;> linarith
  have hg : ∀ k, |(before P l r s).1.outgain.gain k| ≤ G' := fun k => by
    rw [eo]; exact gain_small ot o1 o2 k
  have hx : ∀ d : Side, ∀ x ∈ block (fun k => wetL P l r s k * (before P l r s).1.outgain.gain k) (fun k => wetR P l r s k * (before P l r s).1.outgain.gain k),
      |d.of x| ≤ T * G' := by
    intro d x hx
    obtain ⟨k, -, rfl⟩ := List.mem_map.1 hx
    cases d
    · simp only [Side.of, abs_mul]; exact mul_le_mul (hw k).1 (hg k) (abs_nonneg _) T0
    · simp only [Side.of, abs_mul]; exact mul_le_mul (hw k).2 (hg k) (abs_nonneg _) T0
  have lb := fun d => under_block hR hL _ (f := (before P l r s).1.band2) (h.band d) (hx d)
  have fr : ∀ (xs : List (ℝ × ℝ)) (f : Filter), (f.stereoLoop xs).1.firstRun = f.firstRun := by
    intro xs
    induction xs with
    | nil => intro f; rfl
    | cons x xs ih => intro f; obtain ⟨x, y⟩ := x; simp only [Filter.stereoLoop, ih]; rfl
  refine ⟨s', _, _, e, ⟨fun d => ?_, ?_, fun d => ?_, ?_⟩, fun k hk => ?_⟩
  · rw [e1]; exact (cc 128).1 d
  · rw [e3]; exact (fr _ _).trans h.first
  · rw [e3]; exact (lb d).1
  · rw [e4, eo]; exact ⟨ot, o2⟩
  · have len : ∀ (xs : List (ℝ × ℝ)) (f : Filter), (f.stereoLoop xs).2.length = xs.length := by
      intro xs
      induction xs with
      | nil => intro f; rfl
      | cons x xs ih => intro f; obtain ⟨x, y⟩ := x; simp only [Filter.stereoLoop, List.length_cons, ih]
    have hlen : k < ((before P l r s).1.band2.stereoLoop (block (fun k => wetL P l r s k * (before P l r s).1.outgain.gain k) (fun k => wetR P l r s k * (before P l r s).1.outgain.gain k))).2.length := by
      rw [len]; simpa [block] using hk
    have m1 := (lb .left).2 _ (List.getElem_mem hlen)
    have m2 := (lb .right).2 _ (List.getElem_mem hlen)
    simp only [Side.of] at m1 m2
    have w1 := m1.trans (show cap (peakCf lin post) R L (T * G') (u .left) ≤ top (peakCf lin post) R L (T * G') u from le_max_left _ _)
    have w2 := m2.trans (show cap (peakCf lin post) R L (T * G') (u .right) ≤ top (peakCf lin post) R L (T * G') u from le_max_right _ _)
    simp only [over, if_pos hk, Filter.processBlockStereo]
    rw [List.getD, List.getElem?_eq_getElem (by simpa using hlen), List.getD, List.getElem?_eq_getElem (by simpa using hlen)]
    exact ⟨by simpa using w1, by simpa using w2⟩

/-- **C151 (part).** After any past — any registers, any coefficients of the filters behind the shaper, any output gain, left by moving any of the settings in any way — there is a bound such that
once the settings behind the shaper stay, the output never exceeds it, however long the run and however input, drive, feedback, the filters before the shaper, the bounded shape and the output
gain move, and no block panics. -/
theorem C151_bounded_after_automation_partial (lin : ℝ → ℝ) (post : Band) {ω : ℝ} (h0 : 0 < ω) (h1 : ω ≠ Real.pi)
    (hs : Spec.Stable (Filter.new.coeffPeakEq lin post.ω post.bw post.gain).cf) (s0 : State) (hbi : s0.bi = 0) (hout : s0.outgain.blockSize = 32) (W G : ℝ) :
    ∃ M, ∀ s, Spec.From (Spec.Tame lin post ω W G) s0 s → ∀ P, Spec.Tame lin post ω W G P → ∀ l r,
      ∃ (s' : State) (ol or_ : ℕ → ℝ), process P l r s = .ok (s', ol, or_) ∧ ∀ k < 32, |ol k| ≤ M ∧ |or_ k| ≤ M := by
  obtain ⟨a0, a1, a2, b0, b1, b2, e, hst⟩ := lp_shape ω
  have ec : lpCf ω = Spec.normal a0 a1 a2 b0 b1 b2 := by unfold lpCf; rw [e]; exact rests_cf (setCoef_first Filter.new rfl ..)
  obtain ⟨R, R0, hR⟩ : ∃ R, 0 ≤ R ∧ Near (peakCf lin post) R s0.band2.cf := by
    refine ⟨|s0.band2.cf.a1 - (peakCf lin post).a1| + |s0.band2.cf.a2 - (peakCf lin post).a2| + |s0.band2.cf.b0 - (peakCf lin post).b0|
      + |s0.band2.cf.b1 - (peakCf lin post).b1| + |s0.band2.cf.b2 - (peakCf lin post).b2|, by positivity, ?_⟩
    have z1 := abs_nonneg (s0.band2.cf.a1 - (peakCf lin post).a1)
    have z2 := abs_nonneg (s0.band2.cf.a2 - (peakCf lin post).a2)
    have z3 := abs_nonneg (s0.band2.cf.b0 - (peakCf lin post).b0)
    have z4 := abs_nonneg (s0.band2.cf.b1 - (peakCf lin post).b1)
    have z5 := abs_nonneg (s0.band2.cf.b2 - (peakCf lin post).b2)
    constructor <;> linarith
  obtain ⟨K, -, hK⟩ := glide_bound (ec ▸ hst h0 h1 : Spec.Stable (lpCf ω)) le_rfl
  obtain ⟨L, -, hL⟩ := glide_bound (show Spec.Stable (peakCf lin post) from hs) R0
  obtain ⟨G', hG'⟩ : ∃ G', G' = max G |s0.outgain.target| := ⟨_, rfl⟩
  have g1 : G ≤ G' := by rw [hG']; exact le_max_left _ _
  have g2 : |s0.outgain.target| ≤ G' := by rw [hG']; exact le_max_right _ _
  refine ⟨top (peakCf lin post) R L (top (lpCf ω) 0 K (W + 1) (Spec.regs s0.core.lp2) * G') (Spec.regs s0.band2), fun s hr P hP l r => ?_⟩
  have inv : s = s0 ∨ Settled (lpCf ω) (peakCf lin post) R (W + 1) (top (lpCf ω) 0 K (W + 1) (Spec.regs s0.core.lp2) * G') G' (Spec.regs s0.core.lp2) (Spec.regs s0.band2) s := by
    induction hr with
    | start => exact .inl rfl
    | block _ ok ep ih =>
      obtain ⟨s1, ol, or_, e1, h, -⟩ := settled_block R0 hK hL ok g1 _ _ (settle R0 ok hbi (.inr hR) ⟨g2, hout⟩ ih)
      rw [ep] at e1
      injection e1 with e1
      injection e1 with e1
      rw [e1]; exact .inr h
  obtain ⟨s', ol, or_, e1, -, hb⟩ := settled_block R0 hK hL hP g1 l r (settle R0 hP hbi (.inr hR) ⟨g2, hout⟩ inv)
  exact ⟨s', ol, or_, e1, hb⟩

/-- A case: the state is that of a filter ringing at full tilt with other coefficients; the post equaliser is at 0 dB, the shape a hard clipper. -/
example (st : St) : ∃ M, ∀ s, Spec.From (Spec.Tame (fun _ => 1) ⟨1, 2, 0⟩ 1 1 1)
      ⟨⟨5, -5, .new, { Filter.new with reg0 := (100, -100), reg1 := (7, 7) }⟩, .new, (Filter.new.setCoef 1 (-1.8) 0.82 0.005 0.01 0.005),
        LipolPs.default.setBlocksize 32, LipolPs.default.setBlocksize 32, st, st, 0⟩ s →
      ∀ P, Spec.Tame (fun _ => 1) ⟨1, 2, 0⟩ 1 1 1 P → ∀ l r,
      ∃ (s' : State) (ol or_ : ℕ → ℝ), process P l r s = .ok (s', ol, or_) ∧ ∀ k < 32, |ol k| ≤ M ∧ |or_ k| ≤ M := by
  have hpi : (1 : ℝ) ≠ Real.pi := by have := Real.pi_gt_three; linarith
  refine C151_bounded_after_automation_partial (fun _ => 1) ⟨1, 2, 0⟩ one_pos hpi ?_ _ rfl (by simp [LipolPs.setBlocksize]) 1 1
  have e : Filter.new.coeffPeakEq (fun _ => 1) 1 2 0 = Filter.new.setCoef 1 0 0 1 0 0 := by
    simp only [Filter.coeffPeakEq]; rw [if_neg (by norm_num)]
  show Spec.Stable (Filter.new.coeffPeakEq (fun _ => 1) 1 2 0).cf
  rw [e, rests_cf (setCoef_first Filter.new rfl ..)]
  simp [Spec.Stable, Spec.normal]

end Verif.Effects.Distortion
