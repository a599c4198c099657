import Verif.Effects.Eq
/-!
# The equaliser after its bands have been moved (C195), in exact real arithmetic

`C195_bounded_partial` starts from a freshly initialised effect at constant parameters.  Here the run starts in any state whatever — any registers, any coefficients, left by any automation — at the
update that takes up the settings of the bands; the output gain keeps moving.
-/
namespace Verif.Effects.Eq
open Verif.Biquad Verif.Smooth Verif.Effects.Distortion

/-- Parameters with the bands of `P` and an output gain of at most `G`. -/
structure Spec.Like (P : Params) (G : ℝ) (Q : Params) : Prop where
  lin : Q.lin = P.lin
  b1 : Q.b1 = P.b1
  b2 : Q.b2 = P.b2
  b3 : Q.b3 = P.b3
  gain : |Q.lin Q.gain| ≤ G

/-- A run whose parameters change with each block. -/
noncomputable def Spec.runBy (s : State) : List (Params × (ℕ → ℝ) × (ℕ → ℝ)) → State
  | [] => s
  | b :: bs => Spec.runBy (process b.1 b.2.1 b.2.2 s).1 bs

/-- A band on its way from the registers `u`. -/
structure Bound' (c : Cf) (R X : ℝ) (u : Side → ℝ × ℝ) (f : Filter) : Prop where
  first : f.firstRun = false
  under : ∀ d, Under c R X (u d) d f

noncomputable def regsOf (f : Filter) (d : Side) : ℝ × ℝ := (d.of f.reg0, d.of f.reg1)

noncomputable def most (c : Cf) (R K X : ℝ) (u : Side → ℝ × ℝ) : ℝ := max (cap c R K X (u .left)) (cap c R K X (u .right))

theorem bound_block {c : Cf} {R K X : ℝ} (hR : 0 ≤ R) (hK : Caps c R K) {u : Side → ℝ × ℝ} {f : Filter} (h : Bound' c R X u f) (xs : List (ℝ × ℝ)) (hx : ∀ x ∈ xs, |x.1| ≤ X ∧ |x.2| ≤ X) :
    Bound' c R X u (f.processBlockStereo xs).1 ∧ (f.processBlockStereo xs).2.length = xs.length ∧
      ∀ y ∈ (f.processBlockStereo xs).2, |y.1| ≤ most c R K X u ∧ |y.2| ≤ most c R K X u := by
  have a := fun d => under_block hR hK xs (h.under d) (fun x m => by cases d <;> [exact (hx x m).1; exact (hx x m).2])
  have fr : ∀ (xs : List (ℝ × ℝ)) (f : Filter), (f.stereoLoop xs).1.firstRun = f.firstRun := by
    intro xs
    induction xs with
    | nil => intro f; rfl
    | cons x xs ih => intro f; exact ih _
  exact ⟨⟨(fr xs f).trans h.first, fun d => (a d).1⟩, stereo_len xs f, fun y hy => ⟨((a .left).2 y hy).trans (le_max_left _ _), ((a .right).2 y hy).trans (le_max_right _ _)⟩⟩

theorem bound_again {lin : ℝ → ℝ} {b : Band} {R X : ℝ} {u : Side → ℝ × ℝ} {f : Filter} (h : Bound' (bandCf lin b) R X u f) : updateBand lin b none f = f := by
  obtain ⟨a0, a1, a2, b0, b1, b2, e, ec⟩ := band_shape lin b
  obtain ⟨m, n, -, hb, -⟩ := (h.under .left).h
  rw [e]
  exact setCoef_bound_again (by rw [hb.goal, ec]) h.first

theorem bound_first {lin : ℝ → ℝ} {b : Band} (X : ℝ) (f : Filter) : Bound' (bandCf lin b) (gap (bandCf lin b) f.cf) X (regsOf f) (updateBand lin b none f) := by
  obtain ⟨a0, a1, a2, b0, b1, b2, e, ec⟩ := band_shape lin b
  obtain ⟨g1, g2⟩ := gap_near (bandCf lin b) f.cf
  rw [e]
  rw [ec] at g1 g2 ⊢
  obtain ⟨u1, u2, u3, u4⟩ := setCoef_bound f a0 a1 a2 b0 b1 b2 g2 (.inr g1)
  refine ⟨u4, fun d => ⟨0, 0, le_rfl, u1, ?_⟩⟩
  rw [u2, u3]; exact ⟨_, .zero, .inl rfl⟩

/-- **C195 (part).** After any past — whatever the registers and coefficients are that moving the bands has left — the output stays bounded once the bands stay at stable settings, for every input
bounded by `X`, however long the run and however the output gain moves. -/
theorem C195_bounded_after_automation_partial (P : Params) (h1 : Spec.Stable (bandCf P.lin P.b1)) (h2 : Spec.Stable (bandCf P.lin P.b2)) (h3 : Spec.Stable (bandCf P.lin P.b3))
    (s0 : State) (hbi : s0.bi = 0) (hsz : s0.gain.blockSize = 32) (G X : ℝ) :
    ∃ M : ℝ, ∀ (bs : List (Params × (ℕ → ℝ) × (ℕ → ℝ))) (Q : Params) (l r : ℕ → ℝ),
      (∀ b ∈ bs ++ [(Q, l, r)], Spec.Like P G b.1 ∧ ∀ k < 32, |b.2.1 k| ≤ X ∧ |b.2.2 k| ≤ X) →
      ∀ k < 32, |(process Q l r (Spec.runBy s0 bs)).2.1 k| ≤ M ∧ |(process Q l r (Spec.runBy s0 bs)).2.2 k| ≤ M := by
  obtain ⟨R1, e1⟩ : ∃ R, R = gap (bandCf P.lin P.b1) s0.band1.cf := ⟨_, rfl⟩
  obtain ⟨R2, e2⟩ : ∃ R, R = gap (bandCf P.lin P.b2) s0.band2.cf := ⟨_, rfl⟩
  obtain ⟨R3, e3⟩ : ∃ R, R = gap (bandCf P.lin P.b3) s0.band3.cf := ⟨_, rfl⟩
  have r1 : 0 ≤ R1 := by rw [e1]; exact (gap_near _ _).2
  have r2 : 0 ≤ R2 := by rw [e2]; exact (gap_near _ _).2
  have r3 : 0 ≤ R3 := by rw [e3]; exact (gap_near _ _).2
  obtain ⟨K1, -, k1⟩ := glide_bound h1 r1
  obtain ⟨K2, -, k2⟩ := glide_bound h2 r2
  obtain ⟨K3, -, k3⟩ := glide_bound h3 r3
  obtain ⟨Y, hY⟩ : ∃ Y, Y = most (bandCf P.lin P.b1) R1 K1 X (regsOf s0.band1) := ⟨_, rfl⟩
  obtain ⟨Z, hZ⟩ : ∃ Z, Z = most (bandCf P.lin P.b2) R2 K2 Y (regsOf s0.band2) := ⟨_, rfl⟩
  obtain ⟨T, hT⟩ : ∃ T, T = most (bandCf P.lin P.b3) R3 K3 Z (regsOf s0.band3) := ⟨_, rfl⟩
  obtain ⟨H, hH⟩ : ∃ H, H = max G |s0.gain.target| := ⟨_, rfl⟩
  have g1 : G ≤ H := by rw [hH]; exact le_max_left _ _
  have g2 : |s0.gain.target| ≤ H := by rw [hH]; exact le_max_right _ _
  -- what holds of the bands in a block
  let Ok (s : State) : Prop := Bound' (bandCf P.lin P.b1) R1 X (regsOf s0.band1) s.band1 ∧ Bound' (bandCf P.lin P.b2) R2 Y (regsOf s0.band2) s.band2 ∧
    Bound' (bandCf P.lin P.b3) R3 Z (regsOf s0.band3) s.band3
  have keep : ∀ (Q : Params) (s : State), Spec.Like P G Q → (s = s0 ∨ Ok s) → Ok (maybeUpdate Q s) := by
    intro Q s hq h
    obtain ⟨q1, q2, q3, q4, -⟩ := hq
    unfold maybeUpdate
    rcases h with rfl | ⟨w1, w2, w3⟩
    · simp only [if_pos hbi, updateAll, q1, q2, q3, q4]
      refine ⟨?_, ?_, ?_⟩
      · rw [e1]; exact bound_first _ _
      · rw [e2]; exact bound_first _ _
      · rw [e3]; exact bound_first _ _
    · by_cases hb : s.bi = 0
      · simp only [if_pos hb, updateAll, q1, q2, q3, q4]
        refine ⟨?_, ?_, ?_⟩
        · rw [bound_again w1]; exact w1
        · rw [bound_again w2]; exact w2
        · rw [bound_again w3]; exact w3
      · simp only [if_neg hb]; exact ⟨w1, w2, w3⟩
  have step : ∀ (Q : Params) (l r : ℕ → ℝ) (s : State), Spec.Like P G Q → (∀ k < 32, |l k| ≤ X ∧ |r k| ≤ X) → (s = s0 ∨ Ok s) → |s.gain.target| ≤ H ∧ s.gain.blockSize = 32 →
      Ok (process Q l r s).1 ∧ (|(process Q l r s).1.gain.target| ≤ H ∧ (process Q l r s).1.gain.blockSize = 32) ∧
      ∀ k < 32, |(process Q l r s).2.1 k| ≤ T * H ∧ |(process Q l r s).2.2 k| ≤ T * H := by
    intro Q l r s hq hx h hg
    obtain ⟨w1, w2, w3⟩ := keep Q s hq h
    obtain ⟨a1, a2, a3⟩ := bound_block r1 k1 w1 (block l r) (block_mem hx)
    rw [← hY] at a3
    obtain ⟨b1, b2, b3⟩ := bound_block r2 k2 w2 _ a3
    rw [← hZ] at b3
    obtain ⟨c1, c2, c3⟩ := bound_block r3 k3 w3 _ b3
    rw [← hT] at c3
    have len : (bands (maybeUpdate Q s) (block l r)).2.length = 32 := by
      have : (bands (maybeUpdate Q s) (block l r)).2.length = (block l r).length := c2.trans (b2.trans a2)
      rw [this]; simp [block]
    have gq : |Q.lin Q.gain| ≤ H := hq.gain.trans g1
    have eg : (process Q l r s).1.gain = s.gain.setTargetSmoothed (Q.lin Q.gain) := by
      show (bands (maybeUpdate Q s) (block l r)).1.gain.setTargetSmoothed _ = _
      rw [show (bands (maybeUpdate Q s) (block l r)).1.gain = s.gain from maybe_gain Q s]
    refine ⟨⟨a1, b1, c1⟩, ?_, fun k hk => ?_⟩
    · rw [eg]; exact ⟨smooth_target hg.1 gq, hg.2⟩
    · obtain ⟨o1, o2⟩ := process_out Q l r s k hk
      have gk : |(s.gain.setTargetSmoothed (Q.lin Q.gain)).gain k| ≤ H := gain_small (smooth_target hg.1 gq) hg.1 hg.2 k
      obtain ⟨d1, d2⟩ := c3 _ (getD_mem (k := k) (by have := len; simp only [bands] at this; omega))
      rw [o1, o2, abs_mul, abs_mul]
      have T0 : 0 ≤ T := (abs_nonneg _).trans d1
      exact ⟨mul_le_mul d1 gk (abs_nonneg _) T0, mul_le_mul d2 gk (abs_nonneg _) T0⟩
  have all : ∀ (bs : List (Params × (ℕ → ℝ) × (ℕ → ℝ))) (s : State), (∀ b ∈ bs, Spec.Like P G b.1 ∧ ∀ k < 32, |b.2.1 k| ≤ X ∧ |b.2.2 k| ≤ X) →
      (s = s0 ∨ Ok s) → |s.gain.target| ≤ H ∧ s.gain.blockSize = 32 →
      (Spec.runBy s bs = s0 ∨ Ok (Spec.runBy s bs)) ∧ |(Spec.runBy s bs).gain.target| ≤ H ∧ (Spec.runBy s bs).gain.blockSize = 32 := by
    intro bs
    induction bs with
    | nil => exact fun s _ h g => ⟨h, g⟩
    | cons b bs ih =>
      intro s hb h g
      obtain ⟨hq, hx⟩ := hb b (by simp)
      obtain ⟨i1, i2, -⟩ := step b.1 b.2.1 b.2.2 s hq hx h g
      exact ih _ (fun b' hb' => hb b' (by simp [hb'])) (.inr i1) i2
  refine ⟨T * H, fun bs Q l r hall => ?_⟩
  obtain ⟨i, g⟩ := all bs s0 (fun b hb => hall b (by simp [hb])) (.inl rfl) ⟨g2, hsz⟩
  obtain ⟨hq, hx⟩ := hall (Q, l, r) (by simp)
  exact (step Q l r _ hq hx i g).2.2

/-- A case: one band was left loaded and at coefficients that are not even stable; now all bands stand in the middle of their ranges. -/
example : ∃ M : ℝ, ∀ (bs : List (Params × (ℕ → ℝ) × (ℕ → ℝ))) (Q : Params) (l r : ℕ → ℝ),
    (∀ b ∈ bs ++ [(Q, l, r)], Spec.Like ⟨fun db => (10 : ℝ) ^ (db / 20), ⟨1, 2, 12⟩, ⟨1 / 2, 3, 0⟩, ⟨1, 2, -18⟩, 0⟩ 2 b.1 ∧ ∀ k < 32, |b.2.1 k| ≤ 1 ∧ |b.2.2 k| ≤ 1) →
    ∀ k < 32, |(process Q l r (Spec.runBy ⟨LipolPs.default.setBlocksize 32, { (Filter.new.setCoef 1 (-3) 2 1 1 1) with reg0 := (9, 5) }, .new, .new, 0⟩ bs)).2.1 k| ≤ M ∧
      |(process Q l r (Spec.runBy ⟨LipolPs.default.setBlocksize 32, { (Filter.new.setCoef 1 (-3) 2 1 1 1) with reg0 := (9, 5) }, .new, .new, 0⟩ bs)).2.2 k| ≤ M := by
  have := Real.pi_gt_three
  refine C195_bounded_after_automation_partial ⟨fun db => (10 : ℝ) ^ (db / 20), ⟨1, 2, 12⟩, ⟨1 / 2, 3, 0⟩, ⟨1, 2, -18⟩, 0⟩ (usual_stable ?_) (usual_stable ?_) (usual_stable ?_) _ rfl
    (by simp [LipolPs.setBlocksize]) 2 1
  · refine ⟨?_, ?_, ?_, ?_, ?_, ?_⟩ <;> first | (norm_num; done) | (norm_num; linarith)
  · refine ⟨?_, ?_, ?_, ?_, ?_, .inr rfl⟩ <;> first | (norm_num; done) | (norm_num; linarith)
  · refine ⟨?_, ?_, ?_, ?_, ?_, ?_⟩ <;> first | (norm_num; done) | (norm_num; linarith)

end Verif.Effects.Eq
