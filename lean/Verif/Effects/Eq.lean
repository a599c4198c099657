import Verif.Effects.Distortion
import Verif.Biquad.Glide
/-!
# The three-band equaliser (C194, C195), in exact real arithmetic

surgefx-eq3band at its block size of 32 samples.  Frequencies arrive as angular frequencies (`calc_omega` of the frequency parameter over 12), gains in decibels with their conversion `lin`.
Not modelled: rounding, `ReturnLevel` (read nowhere).
-/
namespace Verif.Effects.Eq
open Verif.Biquad Verif.Smooth Verif.Effects.Distortion

/-- eq3band.rs 5-19. -/
structure State where
  gain : LipolPs ℝ
  band1 : Filter
  band2 : Filter
  band3 : Filter
  bi : ℕ

/-- The parameters of param.rs, frequencies as angular frequencies. -/
structure Params where
  lin : ℝ → ℝ
  b1 : Band
  b2 : Band
  b3 : Band
  gain : ℝ

/-- init.rs 27-48: `new`.  `set_blocksize` of a biquad filter does nothing. -/
noncomputable def State.new : State := ⟨LipolPs.default.setBlocksize 32, .new, .new, .new, 0⟩

/-- update.rs 58-69: `band_gain`. -/
def bandGain (b : Band) : Option ℝ → ℝ
  | some g => g
  | none => b.gain

/-- update.rs 71-101: `update_band1` and its two copies. -/
noncomputable def updateBand (lin : ℝ → ℝ) (b : Band) (o : Option ℝ) (f : Filter) : Filter := f.coeffPeakEq lin b.ω b.bw (bandGain b o)

/-- update.rs 25-32: `update_all_bands`. -/
noncomputable def updateAll (P : Params) (o : Option ℝ) (s : State) : State :=
  ⟨s.gain, updateBand P.lin P.b1 o s.band1, updateBand P.lin P.b2 o s.band2, updateBand P.lin P.b3 o s.band3, s.bi⟩

/-- update.rs 14-23: `maybe_update`; `SLOWRATE_M1` is 7. -/
noncomputable def maybeUpdate (P : Params) (s : State) : State :=
  let s := if s.bi = 0 then updateAll P none s else s
  ⟨s.gain, s.band1, s.band2, s.band3, (s.bi + 1) % 8⟩

/-- init.rs 5-22, update.rs 34-45: `init`.  `suspend` of a biquad filter is the empty default: the registers stay. -/
noncomputable def init (P : Params) (s : State) : State :=
  let s : State := ⟨(s.gain.setTarget 1).instantize, s.band1, s.band2, s.band3, s.bi⟩
  let s := updateAll P (some 1) s
  ⟨s.gain, s.band1.coeffInstantize, s.band2.coeffInstantize, s.band3.coeffInstantize, 0⟩

/-- process.rs 26-46: `process_bands`. -/
noncomputable def bands (s : State) (xs : List (ℝ × ℝ)) : State × List (ℝ × ℝ) :=
  let p := s.band1.processBlockStereo xs
  let q := s.band2.processBlockStereo p.2
  let t := s.band3.processBlockStereo q.2
  (⟨s.gain, p.1, q.1, t.1, s.bi⟩, t.2)

/-- process.rs 5-23, 48-58; update.rs 47-54. -/
noncomputable def process (P : Params) (l r : ℕ → ℝ) (s : State) : State × (ℕ → ℝ) × (ℕ → ℝ) :=
  let p := bands (maybeUpdate P s) (block l r)
  let g := p.1.gain.setTargetSmoothed (P.lin P.gain)
  (⟨g, p.1.band1, p.1.band2, p.1.band3, p.1.bi⟩, g.multiply 8 (over (p.2.map (·.1)) l), g.multiply 8 (over (p.2.map (·.2)) r))

/-- A run: one block after the other at constant parameters. -/
noncomputable def run (P : Params) (s : State) : List ((ℕ → ℝ) × (ℕ → ℝ)) → State
  | [] => s
  | b :: bs => run P (process P b.1 b.2 s).1 bs

/-- The effect as the chain uses it: made, initialised, played. -/
noncomputable def fresh (P : Params) : State := init P .new

/-- The coefficients a band is set to. -/
noncomputable def bandCf (lin : ℝ → ℝ) (b : Band) : Cf := (Filter.new.coeffPeakEq lin b.ω b.bw b.gain).cf

theorem band_shape (lin : ℝ → ℝ) (b : Band) : ∃ a0 a1 a2 b0 b1 b2, (∀ f : Filter, updateBand lin b none f = f.setCoef a0 a1 a2 b0 b1 b2) ∧ bandCf lin b = Spec.normal a0 a1 a2 b0 b1 b2 := by
  obtain ⟨a0, a1, a2, b0, b1, b2, h⟩ := peak_shape lin b
  exact ⟨a0, a1, a2, b0, b1, b2, h, by unfold bandCf; rw [h]; exact rests_cf (setCoef_first Filter.new rfl ..)⟩

/-- Distance of two settings. -/
noncomputable def gap (c k : Cf) : ℝ := |k.a1 - c.a1| + |k.a2 - c.a2| + |k.b0 - c.b0| + |k.b1 - c.b1| + |k.b2 - c.b2|

theorem gap_near (c k : Cf) : Near c (gap c k) k ∧ 0 ≤ gap c k := by
  have a := abs_nonneg (k.a1 - c.a1); have b := abs_nonneg (k.a2 - c.a2); have d := abs_nonneg (k.b0 - c.b0); have e := abs_nonneg (k.b1 - c.b1); have f := abs_nonneg (k.b2 - c.b2)
  unfold gap
  refine ⟨⟨?_, ?_, ?_, ?_, ?_⟩, ?_⟩ <;> linarith

/-- Setting a filter to what it is bound for already changes nothing. -/
theorem setCoef_bound_again {f : Filter} {a0 a1 a2 b0 b1 b2 : ℝ} (hg : f.goal = Spec.normal a0 a1 a2 b0 b1 b2) (hf : f.firstRun = false) : f.setCoef a0 a1 a2 b0 b1 b2 = f := by
  simp only [Filter.setCoef, Filter.start, hf, Bool.false_eq_true, if_false, Filter.newValues]
  obtain ⟨⟨v1, t1⟩, ⟨v2, t2⟩, ⟨v3, t3⟩, ⟨v4, t4⟩, ⟨v5, t5⟩, r0, r1, fr⟩ := f
  simp only [Filter.goal, Spec.normal, Cf.mk.injEq] at hg
  obtain ⟨rfl, rfl, rfl, rfl, rfl⟩ := hg
  obtain rfl : fr = false := hf
  simp only [VLag.newValue, mul_one_div]

/-! ## Boundedness -/

/-- A band during a run: about to be set for the first time, or on its way to `c` with both channels within reach from empty registers. -/
structure Way (c : Cf) (R X : ℝ) (f : Filter) : Prop where
  first : f.firstRun = false
  left : Under c R X (0, 0) .left f
  right : Under c R X (0, 0) .right f

theorem way_block {c : Cf} {R K X : ℝ} (hR : 0 ≤ R) (hK : Caps c R K) {f : Filter} (h : Way c R X f) (xs : List (ℝ × ℝ)) (hx : ∀ x ∈ xs, |x.1| ≤ X ∧ |x.2| ≤ X) :
    Way c R X (f.processBlockStereo xs).1 ∧ ∀ y ∈ (f.processBlockStereo xs).2, |y.1| ≤ cap c R K X (0, 0) ∧ |y.2| ≤ cap c R K X (0, 0) := by
  have a := under_block hR hK xs h.left (fun x m => (hx x m).1)
  have b := under_block hR hK xs h.right (fun x m => (hx x m).2)
  have fr : ∀ (xs : List (ℝ × ℝ)) (f : Filter), (f.stereoLoop xs).1.firstRun = f.firstRun := by
    intro xs
    induction xs with
    | nil => intro f; rfl
    | cons x xs ih => intro f; exact ih _
  exact ⟨⟨(fr xs f).trans h.first, a.1, b.1⟩, fun y hy => ⟨a.2 y hy, b.2 y hy⟩⟩

theorem way_again {lin : ℝ → ℝ} {b : Band} {R X : ℝ} {f : Filter} (h : Way (bandCf lin b) R X f) : updateBand lin b none f = f := by
  obtain ⟨a0, a1, a2, b0, b1, b2, e, ec⟩ := band_shape lin b
  obtain ⟨m, n, -, hb, -⟩ := h.left.h
  rw [e]
  exact setCoef_bound_again (by rw [hb.goal, ec]) h.first

theorem way_first {lin : ℝ → ℝ} {b : Band} (X : ℝ) {f : Filter} (h0 : f.reg0 = (0, 0)) (h1 : f.reg1 = (0, 0)) :
    Way (bandCf lin b) (gap (bandCf lin b) f.cf) X (updateBand lin b none f) := by
  obtain ⟨a0, a1, a2, b0, b1, b2, e, ec⟩ := band_shape lin b
  obtain ⟨g1, g2⟩ := gap_near (bandCf lin b) f.cf
  rw [e]
  rw [ec] at g1 g2 ⊢
  obtain ⟨u1, u2, u3, u4⟩ := setCoef_bound f a0 a1 a2 b0 b1 b2 g2 (.inr g1)
  refine ⟨u4, ⟨0, 0, le_rfl, u1, ?_⟩, ⟨0, 0, le_rfl, u1, ?_⟩⟩
  · rw [u2, u3, h0, h1]; exact ⟨_, .zero, .inl rfl⟩
  · rw [u2, u3, h0, h1]; exact ⟨_, .zero, .inl rfl⟩

/-- `cap` from empty registers is at most a constant times the input. -/
theorem cap_le {c : Cf} {R K : ℝ} (hR : 0 ≤ R) (hK : 0 ≤ K) : ∃ M, 0 ≤ M ∧ ∀ X, 0 ≤ X → cap c R K X (0, 0) ≤ M * (X + 1e-30) := by
  have z0 := abs_nonneg c.b0; have z1 := abs_nonneg c.b1; have z2 := abs_nonneg c.b2; have z3 := abs_nonneg c.a1; have z4 := abs_nonneg c.a2
  refine ⟨|c.b0| + R + K * (|c.b1| + |c.b2| + 2 * R + (|c.a1| + |c.a2| + 2 * R) * (|c.b0| + R + 1) + 1), by positivity, fun X X0 => ?_⟩
  unfold cap shove
  simp only [abs_zero, add_zero, zero_add]
  have : (0 : ℝ) ≤ (|c.b0| + R) * 1e-30 := by positivity
  nlinarith

theorem stereo_len (xs : List (ℝ × ℝ)) : ∀ f : Filter, (f.stereoLoop xs).2.length = xs.length := by
  induction xs with
  | nil => intro f; rfl
  | cons x xs ih => intro f; obtain ⟨x, y⟩ := x; simp only [Filter.stereoLoop, List.length_cons, ih]

/-- A bound for one band: whatever is put in, put out at most `M` times as much. -/
def Holds (c : Cf) (R M : ℝ) : Prop := 0 ≤ M ∧ ∀ (X : ℝ) (f : Filter) (xs : List (ℝ × ℝ)), 0 ≤ X → Way c R X f → (∀ x ∈ xs, |x.1| ≤ X ∧ |x.2| ≤ X) →
    Way c R X (f.processBlockStereo xs).1 ∧ (f.processBlockStereo xs).2.length = xs.length ∧ ∀ y ∈ (f.processBlockStereo xs).2, |y.1| ≤ M * (X + 1e-30) ∧ |y.2| ≤ M * (X + 1e-30)

theorem holds {c : Cf} (hc : Spec.Stable c) {R : ℝ} (hR : 0 ≤ R) : ∃ M, Holds c R M := by
  obtain ⟨K, K0, hK⟩ := glide_bound hc hR
  obtain ⟨M, M0, hM⟩ := cap_le (c := c) hR K0
  refine ⟨M, M0, fun X f xs X0 h hx => ?_⟩
  obtain ⟨a, b⟩ := way_block hR hK h xs hx
  exact ⟨a, stereo_len xs f, fun y hy => ⟨(b y hy).1.trans (hM X X0), (b y hy).2.trans (hM X X0)⟩⟩

/-- What holds before each block, for inputs up to `X`. -/
structure Inv (P : Params) (R1 R2 R3 M1 M2 X G : ℝ) (s : State) : Prop where
  w1 : Way (bandCf P.lin P.b1) R1 X (maybeUpdate P s).band1
  w2 : Way (bandCf P.lin P.b2) R2 (M1 * (X + 1e-30)) (maybeUpdate P s).band2
  w3 : Way (bandCf P.lin P.b3) R3 (M2 * (M1 * (X + 1e-30) + 1e-30)) (maybeUpdate P s).band3
  gain : |s.gain.target| ≤ G
  size : s.gain.blockSize = 32

theorem block_mem {l r : ℕ → ℝ} {X : ℝ} (hx : ∀ k < 32, |l k| ≤ X ∧ |r k| ≤ X) : ∀ x ∈ block l r, |x.1| ≤ X ∧ |x.2| ≤ X := by
  intro x h
  obtain ⟨k, hk, rfl⟩ := List.mem_map.1 h
  exact hx k (List.mem_range.1 hk)

theorem maybe_way {P : Params} {R1 R2 R3 X1 X2 X3 : ℝ} {s : State} (h1 : Way (bandCf P.lin P.b1) R1 X1 s.band1) (h2 : Way (bandCf P.lin P.b2) R2 X2 s.band2) (h3 : Way (bandCf P.lin P.b3) R3 X3 s.band3) :
    (maybeUpdate P s).band1 = s.band1 ∧ (maybeUpdate P s).band2 = s.band2 ∧ (maybeUpdate P s).band3 = s.band3 := by
  unfold maybeUpdate
  by_cases hb : s.bi = 0
  · simp only [if_pos hb, updateAll, way_again h1, way_again h2, way_again h3, and_self]
  · simp only [if_neg hb, and_self]

theorem maybe_gain (P : Params) (s : State) : (maybeUpdate P s).gain = s.gain := by
  unfold maybeUpdate; by_cases hb : s.bi = 0
  · simp only [if_pos hb, updateAll]
  · simp only [if_neg hb]

/-- The output of a block in terms of what the bands put out. -/
theorem process_out (P : Params) (l r : ℕ → ℝ) (s : State) (k : ℕ) (hk : k < 32) :
    (process P l r s).2.1 k = ((bands (maybeUpdate P s) (block l r)).2.getD k 0).1 * (s.gain.setTargetSmoothed (P.lin P.gain)).gain k ∧
    (process P l r s).2.2 k = ((bands (maybeUpdate P s) (block l r)).2.getD k 0).2 * (s.gain.setTargetSmoothed (P.lin P.gain)).gain k := by
  have m : ∀ (g : LipolPs ℝ) (d : ℕ → ℝ), g.multiply 8 d k = d k * g.gain k := fun g d =>
    ((C53_block_repeats_first_segment g (n := 8) rfl d d d k).2 (by omega)).2.2.2.1
  have g : ∀ (xs : List (ℝ × ℝ)), (xs.map (·.1)).getD k 0 = (xs.getD k 0).1 ∧ (xs.map (·.2)).getD k 0 = (xs.getD k 0).2 := by
    intro xs
    simp only [List.getD, List.getElem?_map]
    cases xs[k]? <;> exact ⟨rfl, rfl⟩
  have e : (bands (maybeUpdate P s) (block l r)).1.gain = s.gain := maybe_gain P s
  simp only [process, m, over, if_pos hk, g, e, and_self]

theorem getD_mem {xs : List (ℝ × ℝ)} {k : ℕ} (h : k < xs.length) : xs.getD k 0 ∈ xs := by
  rw [List.getD, List.getElem?_eq_getElem h]; exact List.getElem_mem h

theorem smooth_target {g : LipolPs ℝ} {G t : ℝ} (h1 : |g.target| ≤ G) (h2 : |t| ≤ G) : |(g.setTargetSmoothed t).target| ≤ G := by
  simp only [LipolPs.setTargetSmoothed]
  obtain ⟨a, b⟩ := abs_le.1 h1
  obtain ⟨c, d⟩ := abs_le.1 h2
  rw [abs_le]; constructor <;> linarith

theorem inv_block {P : Params} {R1 R2 R3 M1 M2 M3 X G : ℝ} (H1 : Holds (bandCf P.lin P.b1) R1 M1) (H2 : Holds (bandCf P.lin P.b2) R2 M2) (H3 : Holds (bandCf P.lin P.b3) R3 M3)
    (X0 : 0 ≤ X) (hG : |P.lin P.gain| ≤ G) {l r : ℕ → ℝ} (hx : ∀ k < 32, |l k| ≤ X ∧ |r k| ≤ X) {s : State} (h : Inv P R1 R2 R3 M1 M2 X G s) :
    Inv P R1 R2 R3 M1 M2 X G (process P l r s).1 ∧
    ∀ k < 32, |(process P l r s).2.1 k| ≤ M3 * (M2 * (M1 * (X + 1e-30) + 1e-30) + 1e-30) * G ∧ |(process P l r s).2.2 k| ≤ M3 * (M2 * (M1 * (X + 1e-30) + 1e-30) + 1e-30) * G := by
  have t0 : (0 : ℝ) ≤ 1e-30 := by norm_num
  obtain ⟨m1, H1⟩ := H1
  obtain ⟨m2, H2⟩ := H2
  obtain ⟨m3, H3⟩ := H3
  have Y0 : 0 ≤ M1 * (X + 1e-30) := by positivity
  have Z0 : 0 ≤ M2 * (M1 * (X + 1e-30) + 1e-30) := by positivity
  obtain ⟨a1, a2, a3⟩ := H1 X _ (block l r) X0 h.w1 (block_mem hx)
  obtain ⟨b1, b2, b3⟩ := H2 _ _ _ Y0 h.w2 a3
  obtain ⟨c1, c2, c3⟩ := H3 _ _ _ Z0 h.w3 b3
  have len : (bands (maybeUpdate P s) (block l r)).2.length = 32 := by
    have : (bands (maybeUpdate P s) (block l r)).2.length = (block l r).length := c2.trans (b2.trans a2)
    rw [this]; simp [block]
  refine ⟨?_, fun k hk => ?_⟩
  · obtain ⟨q1, q2, q3⟩ := maybe_way (P := P) (s := (process P l r s).1) a1 b1 c1
    have eg : (process P l r s).1.gain = s.gain.setTargetSmoothed (P.lin P.gain) := by
      show (bands (maybeUpdate P s) (block l r)).1.gain.setTargetSmoothed _ = _
      rw [show (bands (maybeUpdate P s) (block l r)).1.gain = s.gain from maybe_gain P s]
    exact ⟨q1 ▸ a1, q2 ▸ b1, q3 ▸ c1, by rw [eg]; exact smooth_target h.gain hG, by rw [eg]; exact h.size⟩
  · obtain ⟨o1, o2⟩ := process_out P l r s k hk
    have hg : |(s.gain.setTargetSmoothed (P.lin P.gain)).gain k| ≤ G := gain_small (smooth_target h.gain hG) h.gain h.size k
    obtain ⟨d1, d2⟩ := c3 _ (getD_mem (k := k) (by have := len; simp only [bands] at this; omega))
    rw [o1, o2, abs_mul, abs_mul]
    have e0 : 0 ≤ M3 * (M2 * (M1 * (X + 1e-30) + 1e-30) + 1e-30) := by positivity
    exact ⟨mul_le_mul d1 hg (abs_nonneg _) e0, mul_le_mul d2 hg (abs_nonneg _) e0⟩

theorem fresh_regs (P : Params) : (fresh P).bi = 0 ∧ (fresh P).gain = ⟨1, 1, 32⟩ ∧ ((fresh P).band1.reg0 = (0, 0) ∧ (fresh P).band1.reg1 = (0, 0)) ∧
    ((fresh P).band2.reg0 = (0, 0) ∧ (fresh P).band2.reg1 = (0, 0)) ∧ ((fresh P).band3.reg0 = (0, 0) ∧ (fresh P).band3.reg1 = (0, 0)) := by
  have one : ∀ b : Band, (updateBand P.lin b (some 1) .new).coeffInstantize.reg0 = (0, 0) ∧ (updateBand P.lin b (some 1) .new).coeffInstantize.reg1 = (0, 0) := by
    intro b
    obtain ⟨a0, a1, a2, b0, b1, b2, h⟩ := peak_shape P.lin ⟨b.ω, b.bw, 1⟩
    have e : updateBand P.lin b (some 1) .new = Filter.new.setCoef a0 a1 a2 b0 b1 b2 := h Filter.new
    obtain ⟨r0, r1, -⟩ := setCoef_regs Filter.new a0 a1 a2 b0 b1 b2
    rw [e]
    exact ⟨r0, r1⟩
  refine ⟨rfl, ?_, one P.b1, one P.b2, one P.b3⟩
  simp only [fresh, init, updateAll, State.new, LipolPs.setTarget, LipolPs.instantize, LipolPs.setBlocksize, LipolPs.default]
  norm_num

/-- **C195 (part).** At settings whose three designs are stable, a freshly initialised equaliser keeps the output within a fixed multiple of the largest input, however long it runs: although it starts
from other coefficients and glides to the settings. -/
theorem C195_bounded_partial (P : Params) (h1 : Spec.Stable (bandCf P.lin P.b1)) (h2 : Spec.Stable (bandCf P.lin P.b2)) (h3 : Spec.Stable (bandCf P.lin P.b3)) :
    ∃ K : ℝ, 0 ≤ K ∧ ∀ (bs : List ((ℕ → ℝ) × (ℕ → ℝ))) (l r : ℕ → ℝ) (X : ℝ), 0 ≤ X → (∀ b ∈ bs ++ [(l, r)], ∀ k < 32, |b.1 k| ≤ X ∧ |b.2 k| ≤ X) →
      ∀ k < 32, |(process P l r (run P (fresh P) bs)).2.1 k| ≤ K * (X + 1e-30) ∧ |(process P l r (run P (fresh P) bs)).2.2 k| ≤ K * (X + 1e-30) := by
  obtain ⟨f0, fg, ⟨f1, f2⟩, ⟨f3, f4⟩, f5, f6⟩ := fresh_regs P
  obtain ⟨M1, H1⟩ := holds h1 (gap_near (bandCf P.lin P.b1) (fresh P).band1.cf).2
  obtain ⟨M2, H2⟩ := holds h2 (gap_near (bandCf P.lin P.b2) (fresh P).band2.cf).2
  obtain ⟨M3, H3⟩ := holds h3 (gap_near (bandCf P.lin P.b3) (fresh P).band3.cf).2
  have m1 := H1.1; have m2 := H2.1; have m3 := H3.1
  set G := max 1 |P.lin P.gain| with hG
  have G1 : 1 ≤ G := le_max_left _ _
  have t0 : (0 : ℝ) ≤ 1e-30 := by norm_num
  refine ⟨M3 * (M2 * (M1 + 1) + 1) * G, by positivity, fun bs l r X X0 hx k hk => ?_⟩
  have start : Inv P (gap (bandCf P.lin P.b1) (fresh P).band1.cf) (gap (bandCf P.lin P.b2) (fresh P).band2.cf) (gap (bandCf P.lin P.b3) (fresh P).band3.cf) M1 M2 X G (fresh P) := by
    refine ⟨?_, ?_, ?_, by rw [fg]; simpa using G1, by rw [fg]⟩
    · simp only [maybeUpdate, if_pos f0, updateAll]; exact way_first X f1 f2
    · simp only [maybeUpdate, if_pos f0, updateAll]; exact way_first _ f3 f4
    · simp only [maybeUpdate, if_pos f0, updateAll]; exact way_first _ f5 f6
  have all : ∀ (bs : List ((ℕ → ℝ) × (ℕ → ℝ))) (s : State), (∀ b ∈ bs, ∀ k < 32, |b.1 k| ≤ X ∧ |b.2 k| ≤ X) → Inv P (gap (bandCf P.lin P.b1) (fresh P).band1.cf) (gap (bandCf P.lin P.b2) (fresh P).band2.cf) (gap (bandCf P.lin P.b3) (fresh P).band3.cf) M1 M2 X G s → Inv P (gap (bandCf P.lin P.b1) (fresh P).band1.cf) (gap (bandCf P.lin P.b2) (fresh P).band2.cf) (gap (bandCf P.lin P.b3) (fresh P).band3.cf) M1 M2 X G (run P s bs) := by
    intro bs
    induction bs with
    | nil => exact fun s _ h => h
    | cons b bs ih => exact fun s hb h => ih _ (fun b' hb' => hb b' (by simp [hb'])) (inv_block H1 H2 H3 X0 (le_max_right _ _) (hb b (by simp)) h).1
  obtain ⟨o1, o2⟩ := (inv_block H1 H2 H3 X0 (le_max_right _ _) (hx (l, r) (by simp)) (all bs _ (fun b hb => hx b (by simp [hb])) start)).2 k hk
  have le : M3 * (M2 * (M1 * (X + 1e-30) + 1e-30) + 1e-30) * G ≤ M3 * (M2 * (M1 + 1) + 1) * G * (X + 1e-30) := by
    generalize (1e-30 : ℝ) = τ at *
    have u : M1 * (X + τ) + τ ≤ (M1 + 1) * (X + τ) := by nlinarith
    have v : M2 * (M1 * (X + τ) + τ) + τ ≤ (M2 * (M1 + 1) + 1) * (X + τ) := by
      have := mul_le_mul_of_nonneg_left u m2
      nlinarith
    have w := mul_le_mul_of_nonneg_left v m3
    have := mul_le_mul_of_nonneg_right w (show 0 ≤ G by linarith)
    linarith
  exact ⟨o1.trans le, o2.trans le⟩

/-- A band anywhere in the middle of its range, or at 0 dB. -/
def Spec.Usual (b : Band) : Prop := 0 < b.ω ∧ b.ω ≤ Real.pi / 2 ∧ 2 ≤ b.bw ∧ b.bw ≤ 4 ∧ -18 ≤ b.gain ∧ (0.001 ≤ |b.gain| ∨ b.gain = 0)

theorem usual_stable {b : Band} (h : Spec.Usual b) : Spec.Stable (bandCf (fun db => (10 : ℝ) ^ (db / 20)) b) := by
  obtain ⟨h1, h2, h3, h4, h5, h6⟩ := h
  rcases h6 with h6 | h6
  · exact (C147_peak_settings_partial h1 h2 h3 h4 h5 h6).1
  · unfold bandCf
    rw [(C147_flat (fun db => (10 : ℝ) ^ (db / 20)) b.ω b.bw b.gain (by simp [h6]; norm_num) 0).1, rests_cf (setCoef_first Filter.new rfl ..)]
    simp [Spec.Stable, Spec.normal]

/-- **C195** for settings in the middle of their ranges. -/
theorem C195_usual_settings_partial (b1 b2 b3 : Band) (gain : ℝ) (h1 : Spec.Usual b1) (h2 : Spec.Usual b2) (h3 : Spec.Usual b3) :
    let P : Params := ⟨fun db => (10 : ℝ) ^ (db / 20), b1, b2, b3, gain⟩
    ∃ K : ℝ, 0 ≤ K ∧ ∀ (bs : List ((ℕ → ℝ) × (ℕ → ℝ))) (l r : ℕ → ℝ) (X : ℝ), 0 ≤ X → (∀ b ∈ bs ++ [(l, r)], ∀ k < 32, |b.1 k| ≤ X ∧ |b.2 k| ≤ X) →
      ∀ k < 32, |(process P l r (run P (fresh P) bs)).2.1 k| ≤ K * (X + 1e-30) ∧ |(process P l r (run P (fresh P) bs)).2.2 k| ≤ K * (X + 1e-30) :=
  C195_bounded_partial _ (usual_stable h1) (usual_stable h2) (usual_stable h3)

example : Spec.Usual ⟨1, 2, 12⟩ ∧ Spec.Usual ⟨1 / 2, 3, 0⟩ ∧ Spec.Usual ⟨1.5, 4, -18⟩ := by
  have := Real.pi_gt_three
  refine ⟨⟨?_, ?_, ?_, ?_, ?_, ?_⟩, ⟨?_, ?_, ?_, ?_, ?_, .inr rfl⟩, ⟨?_, ?_, ?_, ?_, ?_, ?_⟩⟩ <;> first | (norm_num; done) | (norm_num; linarith)

/-! ## Flat settings -/

/-- The setting that lets everything pass. -/
def pass : Cf := ⟨0, 0, 1, 0, 0⟩

theorem pass_stable : Spec.Stable pass := by simp [Spec.Stable, pass]

theorem flat_pass {lin : ℝ → ℝ} {b : Band} (h : |lin b.gain - 1| ≤ 0.00001) : bandCf lin b = pass := by
  unfold bandCf
  rw [(C147_flat lin b.ω b.bw b.gain h 0).1, rests_cf (setCoef_first Filter.new rfl ..)]
  simp [Spec.normal, pass]

/-- One channel of a filter `m` samples after it was set to pass: the registers are about to be empty. -/
structure Dim (R F : ℝ) (s : Side) (m : ℕ) (f : Filter) : Prop where
  bound : Bound pass R m f
  reg0 : |s.of f.reg0| ≤ 3 * F * rho ^ m
  reg1 : |s.of f.reg1| ≤ F * rho ^ m

theorem rho_big : 1 ≤ 2 * rho := by unfold rho; norm_num

theorem dim_chan {R A X : ℝ} (hR : 0 ≤ R) {m : ℕ} {k : Cf} (hk : Near pass (R * rho ^ (m + 1)) k) {x r0 r1 : ℝ} (hx : |x| ≤ X) (ho : |(chan k x r0 r1).1| ≤ A)
    (h0 : |r0| ≤ 3 * (R * (X + A)) * rho ^ m) (h1 : |r1| ≤ R * (X + A) * rho ^ m) :
    |(chan k x r0 r1).2.1| ≤ 3 * (R * (X + A)) * rho ^ (m + 1) ∧ |(chan k x r0 r1).2.2| ≤ R * (X + A) * rho ^ (m + 1) ∧ |(chan k x r0 r1).1 - x| ≤ (R * X + 3 * (R * (X + A))) * rho ^ m := by
  have X0 : 0 ≤ X := (abs_nonneg _).trans hx
  have A0 : 0 ≤ A := (abs_nonneg _).trans ho
  have p := pow_pos rho_pos m
  obtain ⟨n1, n2, n3, n4, n5⟩ := hk
  simp only [pass, sub_zero] at n1 n2 n3 n4 n5
  simp only [chan] at ho ⊢
  have q : 0 ≤ R * rho ^ (m + 1) := mul_nonneg hR (pow_nonneg rho_pos.le _)
  have mul : ∀ u v V : ℝ, |u| ≤ V → |v| ≤ R * rho ^ (m + 1) → |u * v| ≤ V * (R * rho ^ (m + 1)) := fun u v V hu hv => by
    rw [abs_mul]; exact mul_le_mul hu hv (abs_nonneg _) ((abs_nonneg _).trans hu)
  have w1 := mul x _ X hx n4
  have w2 := mul x _ X hx n5
  have w3 := mul _ _ A ho n1
  have w4 := mul _ _ A ho n2
  have w5 := mul x _ X hx n3
  set op := x * k.b0 + r0 with hop
  have grow : R * (X + A) * rho ^ m ≤ 2 * (R * (X + A)) * rho ^ (m + 1) := by
    rw [pow_succ]
    have : 0 ≤ R * (X + A) * rho ^ m := by positivity
    nlinarith [rho_big]
  have shrink : R * X * rho ^ (m + 1) ≤ R * X * rho ^ m := mul_le_mul_of_nonneg_left (rho_anti (by omega)) (by positivity)
  refine ⟨?_, ?_, ?_⟩
  · have a := abs_add_le (x * k.b1 - k.a1 * op) r1
    have b := abs_sub (x * k.b1) (k.a1 * op)
    rw [mul_comm k.a1] at a b ⊢
    nlinarith
  · have b := abs_sub (x * k.b2) (k.a2 * op)
    rw [mul_comm k.a2] at b ⊢
    nlinarith
  · have e : op - x = x * (k.b0 - 1) + r0 := by rw [hop]; ring
    rw [e]
    have a := abs_add_le (x * (k.b0 - 1)) r0
    nlinarith

theorem dim_loop {R K X : ℝ} (hR : 0 ≤ R) (hK : Caps pass R K) {s : Side} (xs : List (ℝ × ℝ)) : ∀ {m : ℕ} {f : Filter}, Under pass R X (0, 0) s f → Dim R (R * (X + cap pass R K X (0, 0))) s m f →
    (∀ x ∈ xs, |s.of x| ≤ X) → Dim R (R * (X + cap pass R K X (0, 0))) s (m + xs.length) (f.stereoLoop xs).1 ∧
    ∀ j < xs.length, |s.of ((f.stereoLoop xs).2.getD j 0) - s.of (xs.getD j 0)| ≤ (R * X + 3 * (R * (X + cap pass R K X (0, 0)))) * rho ^ m := by
  induction xs with
  | nil => exact fun h d _ => ⟨d, fun j hj => absurd hj (by simp)⟩
  | cons x xs ih =>
    intro m f h d hx
    obtain ⟨l, r⟩ := x
    have hx0 := hx (l, r) (by simp)
    obtain ⟨u1, u2⟩ := under_stereo hR hK h hx0
    have hb := bound_process d.bound
    have X0 : 0 ≤ X := (abs_nonneg _).trans hx0
    have A0 : 0 ≤ cap pass R K X (0, 0) := (abs_nonneg _).trans u2
    have step : Dim R (R * (X + cap pass R K X (0, 0))) s (m + 1) (f.processSampleStereo l r).1 ∧
        |s.of (f.processSampleStereo l r).2 - s.of (l, r)| ≤ (R * X + 3 * (R * (X + cap pass R K X (0, 0)))) * rho ^ m := by
      cases s
      · obtain ⟨c1, c2, c3⟩ := dim_chan hR hb.near (r0 := f.reg0.1) (r1 := f.reg1.1) hx0 u2 d.reg0 d.reg1
        exact ⟨⟨⟨hb.goal, hb.near⟩, c1, c2⟩, c3⟩
      · obtain ⟨c1, c2, c3⟩ := dim_chan hR hb.near (r0 := f.reg0.2) (r1 := f.reg1.2) hx0 u2 d.reg0 d.reg1
        exact ⟨⟨⟨hb.goal, hb.near⟩, c1, c2⟩, c3⟩
    obtain ⟨i1, i2⟩ := ih u1 step.1 (fun x hx' => hx x (by simp [hx']))
    refine ⟨?_, fun j hj => ?_⟩
    · rw [show m + ((l, r) :: xs).length = m + 1 + xs.length by simp; omega]; exact i1
    · rcases j with _ | j
      · exact step.2
      · have := i2 j (by simpa using hj)
        refine this.trans (mul_le_mul_of_nonneg_left (rho_anti (by omega)) (by positivity))

theorem dim_block {R K X : ℝ} (hR : 0 ≤ R) (hK : Caps pass R K) {s : Side} {xs : List (ℝ × ℝ)} {m : ℕ} {f : Filter} (h : Under pass R X (0, 0) s f) (d : Dim R (R * (X + cap pass R K X (0, 0))) s m f)
    (hx : ∀ x ∈ xs, |s.of x| ≤ X) : Dim R (R * (X + cap pass R K X (0, 0))) s (m + xs.length) (f.processBlockStereo xs).1 ∧
    ∀ j < xs.length, |s.of ((f.processBlockStereo xs).2.getD j 0) - s.of (xs.getD j 0)| ≤ (R * X + 3 * (R * (X + cap pass R K X (0, 0)))) * rho ^ m := by
  obtain ⟨a, b⟩ := dim_loop hR hK xs h d hx
  refine ⟨⟨⟨a.bound.goal, a.bound.near⟩, ?_, ?_⟩, b⟩
  · cases s <;> exact (flush_le _).trans a.reg0
  · cases s <;> exact (flush_le _).trans a.reg1

/-- Both channels of a band that was set to pass `m` samples ago. -/
structure Fades (R F X : ℝ) (m : ℕ) (f : Filter) : Prop where
  way : Way pass R X f
  left : Dim R F .left m f
  right : Dim R F .right m f

/-- Bounds for one band at a flat setting. -/
def Settles (R M : ℝ) : Prop := 0 ≤ M ∧ ∀ (X : ℝ), 0 ≤ X → ∃ F, 0 ≤ F ∧ ∀ (m : ℕ) (f : Filter) (xs : List (ℝ × ℝ)), Fades R F X m f → (∀ x ∈ xs, |x.1| ≤ X ∧ |x.2| ≤ X) →
    Fades R F X (m + xs.length) (f.processBlockStereo xs).1 ∧ (f.processBlockStereo xs).2.length = xs.length ∧ (∀ y ∈ (f.processBlockStereo xs).2, |y.1| ≤ M * (X + 1e-30) ∧ |y.2| ≤ M * (X + 1e-30)) ∧
    ∀ j < xs.length, |((f.processBlockStereo xs).2.getD j 0).1 - (xs.getD j 0).1| ≤ M * (X + 1e-30) * rho ^ m ∧ |((f.processBlockStereo xs).2.getD j 0).2 - (xs.getD j 0).2| ≤ M * (X + 1e-30) * rho ^ m

theorem settles {R : ℝ} (hR : 0 ≤ R) : ∃ M, Settles R M := by
  obtain ⟨K, K0, hK⟩ := glide_bound pass_stable hR
  obtain ⟨M, M0, hM⟩ := cap_le (c := pass) hR K0
  refine ⟨M + 4 * R + 3 * R * M, by positivity, fun X X0 => ?_⟩
  have c0 : 0 ≤ cap pass R K X (0, 0) := by
    have := shove_nonneg pass hR X0
    unfold cap; positivity
  have t0 : (0 : ℝ) ≤ 1e-30 := by norm_num
  have hM := hM X X0
  have mono : M * (X + 1e-30) ≤ (M + 4 * R + 3 * R * M) * (X + 1e-30) := by
    apply mul_le_mul_of_nonneg_right _ (by positivity)
    have : 0 ≤ R * M := by positivity
    linarith
  have key : R * X + 3 * (R * (X + cap pass R K X (0, 0))) ≤ (M + 4 * R + 3 * R * M) * (X + 1e-30) := by
    have a := mul_le_mul_of_nonneg_left hM (show 0 ≤ 3 * R by linarith)
    generalize (1e-30 : ℝ) = τ at *
    have : 0 ≤ M * (X + τ) := by positivity
    have : 0 ≤ R * τ := by positivity
    nlinarith
  refine ⟨R * (X + cap pass R K X (0, 0)), by positivity, fun m f xs h hx => ?_⟩
  obtain ⟨w1, w2⟩ := way_block hR hK h.way xs hx
  obtain ⟨l1, l2⟩ := dim_block hR hK h.way.left h.left (fun x hx' => (hx x hx').1)
  obtain ⟨r1, r2⟩ := dim_block hR hK h.way.right h.right (fun x hx' => (hx x hx').2)
  refine ⟨⟨w1, l1, r1⟩, stereo_len xs f, fun y hy => ⟨((w2 y hy).1.trans hM).trans mono, ((w2 y hy).2.trans hM).trans mono⟩, fun j hj => ⟨?_, ?_⟩⟩
  · exact (l2 j hj).trans (mul_le_mul_of_nonneg_right key (pow_nonneg rho_pos.le _))
  · exact (r2 j hj).trans (mul_le_mul_of_nonneg_right key (pow_nonneg rho_pos.le _))

/-- All gains are 0 dB (up to the threshold the code uses for the bands). -/
structure Spec.Flat (P : Params) : Prop where
  b1 : |P.lin P.b1.gain - 1| ≤ 0.00001
  b2 : |P.lin P.b2.gain - 1| ≤ 0.00001
  b3 : |P.lin P.b3.gain - 1| ≤ 0.00001
  gain : P.lin P.gain = 1

theorem fades_first {lin : ℝ → ℝ} {b : Band} (hb : bandCf lin b = pass) (X : ℝ) {F : ℝ} (hF : 0 ≤ F) {f : Filter} (h0 : f.reg0 = (0, 0)) (h1 : f.reg1 = (0, 0)) :
    Fades (gap pass f.cf) F X 0 (updateBand lin b none f) := by
  have w := way_first (lin := lin) (b := b) X h0 h1
  obtain ⟨a0, a1, a2, b0, b1, b2, e, ec⟩ := band_shape lin b
  obtain ⟨g1, g2⟩ := gap_near (bandCf lin b) f.cf
  rw [hb] at w
  have u := setCoef_bound f a0 a1 a2 b0 b1 b2 g2 (.inr (ec ▸ g1))
  rw [← ec, hb] at u
  rw [e] at w ⊢
  obtain ⟨u1, u2, u3, -⟩ := u
  refine ⟨w, ⟨u1, ?_, ?_⟩, ⟨u1, ?_, ?_⟩⟩ <;> simp only [u2, u3, h0, h1, Side.of, abs_zero] <;> positivity

/-- What holds before the block that starts at sample `m`. -/
structure FInv (P : Params) (R1 R2 R3 F1 F2 F3 M1 M2 X : ℝ) (m : ℕ) (s : State) : Prop where
  w1 : Fades R1 F1 X m (maybeUpdate P s).band1
  w2 : Fades R2 F2 (M1 * (X + 1e-30)) m (maybeUpdate P s).band2
  w3 : Fades R3 F3 (M2 * (M1 * (X + 1e-30) + 1e-30)) m (maybeUpdate P s).band3
  gain : s.gain = ⟨1, 1, 32⟩

theorem finv_block {P : Params} (hP : Spec.Flat P) {R1 R2 R3 F1 F2 F3 M1 M2 M3 X : ℝ} (m1 : 0 ≤ M1) (m2 : 0 ≤ M2) (m3 : 0 ≤ M3) (X0 : 0 ≤ X)
    (H1 : ∀ (m : ℕ) (f : Filter) (xs : List (ℝ × ℝ)), Fades R1 F1 X m f → (∀ x ∈ xs, |x.1| ≤ X ∧ |x.2| ≤ X) →
      Fades R1 F1 X (m + xs.length) (f.processBlockStereo xs).1 ∧ (f.processBlockStereo xs).2.length = xs.length ∧ (∀ y ∈ (f.processBlockStereo xs).2, |y.1| ≤ M1 * (X + 1e-30) ∧ |y.2| ≤ M1 * (X + 1e-30)) ∧
      ∀ j < xs.length, |((f.processBlockStereo xs).2.getD j 0).1 - (xs.getD j 0).1| ≤ M1 * (X + 1e-30) * rho ^ m ∧ |((f.processBlockStereo xs).2.getD j 0).2 - (xs.getD j 0).2| ≤ M1 * (X + 1e-30) * rho ^ m)
    (H2 : ∀ (m : ℕ) (f : Filter) (xs : List (ℝ × ℝ)), Fades R2 F2 (M1 * (X + 1e-30)) m f → (∀ x ∈ xs, |x.1| ≤ M1 * (X + 1e-30) ∧ |x.2| ≤ M1 * (X + 1e-30)) →
      Fades R2 F2 (M1 * (X + 1e-30)) (m + xs.length) (f.processBlockStereo xs).1 ∧ (f.processBlockStereo xs).2.length = xs.length ∧
      (∀ y ∈ (f.processBlockStereo xs).2, |y.1| ≤ M2 * (M1 * (X + 1e-30) + 1e-30) ∧ |y.2| ≤ M2 * (M1 * (X + 1e-30) + 1e-30)) ∧
      ∀ j < xs.length, |((f.processBlockStereo xs).2.getD j 0).1 - (xs.getD j 0).1| ≤ M2 * (M1 * (X + 1e-30) + 1e-30) * rho ^ m ∧
        |((f.processBlockStereo xs).2.getD j 0).2 - (xs.getD j 0).2| ≤ M2 * (M1 * (X + 1e-30) + 1e-30) * rho ^ m)
    (H3 : ∀ (m : ℕ) (f : Filter) (xs : List (ℝ × ℝ)), Fades R3 F3 (M2 * (M1 * (X + 1e-30) + 1e-30)) m f →
      (∀ x ∈ xs, |x.1| ≤ M2 * (M1 * (X + 1e-30) + 1e-30) ∧ |x.2| ≤ M2 * (M1 * (X + 1e-30) + 1e-30)) →
      Fades R3 F3 (M2 * (M1 * (X + 1e-30) + 1e-30)) (m + xs.length) (f.processBlockStereo xs).1 ∧ (f.processBlockStereo xs).2.length = xs.length ∧
      (∀ y ∈ (f.processBlockStereo xs).2, |y.1| ≤ M3 * (M2 * (M1 * (X + 1e-30) + 1e-30) + 1e-30) ∧ |y.2| ≤ M3 * (M2 * (M1 * (X + 1e-30) + 1e-30) + 1e-30)) ∧
      ∀ j < xs.length, |((f.processBlockStereo xs).2.getD j 0).1 - (xs.getD j 0).1| ≤ M3 * (M2 * (M1 * (X + 1e-30) + 1e-30) + 1e-30) * rho ^ m ∧
        |((f.processBlockStereo xs).2.getD j 0).2 - (xs.getD j 0).2| ≤ M3 * (M2 * (M1 * (X + 1e-30) + 1e-30) + 1e-30) * rho ^ m)
    {l r : ℕ → ℝ} (hx : ∀ k < 32, |l k| ≤ X ∧ |r k| ≤ X) {m : ℕ} {s : State} (h : FInv P R1 R2 R3 F1 F2 F3 M1 M2 X m s) :
    FInv P R1 R2 R3 F1 F2 F3 M1 M2 X (m + 32) (process P l r s).1 ∧
    ∀ k < 32, |(process P l r s).2.1 k - l k| ≤ (M1 * (X + 1e-30) + M2 * (M1 * (X + 1e-30) + 1e-30) + M3 * (M2 * (M1 * (X + 1e-30) + 1e-30) + 1e-30)) * rho ^ m ∧
      |(process P l r s).2.2 k - r k| ≤ (M1 * (X + 1e-30) + M2 * (M1 * (X + 1e-30) + 1e-30) + M3 * (M2 * (M1 * (X + 1e-30) + 1e-30) + 1e-30)) * rho ^ m := by
  obtain ⟨a1, a2, a3, a4⟩ := H1 m _ (block l r) h.w1 (block_mem hx)
  obtain ⟨b1, b2, b3, b4⟩ := H2 m _ _ h.w2 a3
  obtain ⟨c1, c2, c3, c4⟩ := H3 m _ _ h.w3 b3
  have len : (block l r).length = 32 := by simp [block]
  rw [b2] at c4 c1
  rw [a2] at b4 b1 c4 c1
  rw [len] at a4 b4 c4 a1 b1 c1
  have eg : (process P l r s).1.gain = ⟨1, 1, 32⟩ := by
    show (bands (maybeUpdate P s) (block l r)).1.gain.setTargetSmoothed _ = _
    rw [show (bands (maybeUpdate P s) (block l r)).1.gain = s.gain from maybe_gain P s, h.gain, hP.gain]
    simp only [LipolPs.setTargetSmoothed]; norm_num
  have e1 := flat_pass hP.b1
  have e2 := flat_pass hP.b2
  have e3 := flat_pass hP.b3
  obtain ⟨q1, q2, q3⟩ := maybe_way (P := P) (s := (process P l r s).1) (e1 ▸ a1.way) (e2 ▸ b1.way) (e3 ▸ c1.way)
  refine ⟨⟨q1 ▸ a1, q2 ▸ b1, q3 ▸ c1, eg⟩, fun k hk => ?_⟩
  obtain ⟨o1, o2⟩ := process_out P l r s k hk
  have g1 : (s.gain.setTargetSmoothed (P.lin P.gain)).gain k = 1 := by
    rw [h.gain, hP.gain]; simp only [LipolPs.setTargetSmoothed, LipolPs.gain]; norm_num
  rw [g1, mul_one] at o1 o2
  have bl : (block l r).getD k 0 = (l k, r k) := by
    rw [List.getD, List.getElem?_eq_getElem (by rw [len]; exact hk)]; simp [block]
  obtain ⟨x1, x2⟩ := a4 k hk
  obtain ⟨y1, y2⟩ := b4 k hk
  obtain ⟨z1, z2⟩ := c4 k hk
  rw [bl] at x1 x2
  rw [o1, o2]
  have tri : ∀ u v w x : ℝ, |u - x| ≤ |u - v| + |v - w| + |w - x| := fun u v w x => by
    have := abs_add_le (u - v) (v - w); have := abs_add_le (u - v + (v - w)) (w - x)
    rw [show u - x = u - v + (v - w) + (w - x) by ring]; linarith
  constructor
  · refine (tri _ _ _ _).trans ((add_le_add (add_le_add z1 y1) x1).trans (le_of_eq ?_)); ring
  · refine (tri _ _ _ _).trans ((add_le_add (add_le_add z2 y2) x2).trans (le_of_eq ?_)); ring

/-- **C194 (part).** At 0 dB everywhere, what the equaliser changes in the sound dies away: by the factor `0.996` per sample, whatever is played. -/
theorem C194_flat_settles_partial (P : Params) (hP : Spec.Flat P) : ∃ K : ℝ, 0 ≤ K ∧ ∀ (bs : List ((ℕ → ℝ) × (ℕ → ℝ))) (l r : ℕ → ℝ) (X : ℝ), 0 ≤ X →
    (∀ b ∈ bs ++ [(l, r)], ∀ k < 32, |b.1 k| ≤ X ∧ |b.2 k| ≤ X) → ∀ k < 32,
      |(process P l r (run P (fresh P) bs)).2.1 k - l k| ≤ K * (X + 1e-30) * 0.996 ^ (32 * bs.length) ∧ |(process P l r (run P (fresh P) bs)).2.2 k - r k| ≤ K * (X + 1e-30) * 0.996 ^ (32 * bs.length) := by
  obtain ⟨f0, fg, ⟨f1, f2⟩, ⟨f3, f4⟩, f5, f6⟩ := fresh_regs P
  obtain ⟨M1, m1, H1⟩ := settles (gap_near pass (fresh P).band1.cf).2
  obtain ⟨M2, m2, H2⟩ := settles (gap_near pass (fresh P).band2.cf).2
  obtain ⟨M3, m3, H3⟩ := settles (gap_near pass (fresh P).band3.cf).2
  have t0 : (0 : ℝ) ≤ 1e-30 := by norm_num
  refine ⟨M1 + M2 * (M1 + 1) + M3 * (M2 * (M1 + 1) + 1), by positivity, fun bs l r X X0 hx k hk => ?_⟩
  obtain ⟨F1, F10, G1⟩ := H1 X X0
  obtain ⟨F2, F20, G2⟩ := H2 (M1 * (X + 1e-30)) (by positivity)
  obtain ⟨F3, F30, G3⟩ := H3 (M2 * (M1 * (X + 1e-30) + 1e-30)) (by positivity)
  have start : FInv P (gap pass (fresh P).band1.cf) (gap pass (fresh P).band2.cf) (gap pass (fresh P).band3.cf) F1 F2 F3 M1 M2 X 0 (fresh P) := by
    refine ⟨?_, ?_, ?_, fg⟩
    · simp only [maybeUpdate, if_pos f0, updateAll]; exact fades_first (flat_pass hP.b1) X F10 f1 f2
    · simp only [maybeUpdate, if_pos f0, updateAll]; exact fades_first (flat_pass hP.b2) _ F20 f3 f4
    · simp only [maybeUpdate, if_pos f0, updateAll]; exact fades_first (flat_pass hP.b3) _ F30 f5 f6
  have all : ∀ (bs : List ((ℕ → ℝ) × (ℕ → ℝ))) (m : ℕ) (s : State), (∀ b ∈ bs, ∀ k < 32, |b.1 k| ≤ X ∧ |b.2 k| ≤ X) →
      FInv P (gap pass (fresh P).band1.cf) (gap pass (fresh P).band2.cf) (gap pass (fresh P).band3.cf) F1 F2 F3 M1 M2 X m s →
      FInv P (gap pass (fresh P).band1.cf) (gap pass (fresh P).band2.cf) (gap pass (fresh P).band3.cf) F1 F2 F3 M1 M2 X (m + 32 * bs.length) (run P s bs) := by
    intro bs
    induction bs with
    | nil => exact fun m s _ h => h
    | cons b bs ih =>
      intro m s hb h
      have := ih _ _ (fun b' hb' => hb b' (by simp [hb'])) (finv_block hP m1 m2 m3 X0 G1 G2 G3 (hb b (by simp)) h).1
      rw [show m + 32 * (b :: bs).length = m + 32 + 32 * bs.length by simp; ring]
      exact this
  have fin := all bs 0 _ (fun b hb => hx b (by simp [hb])) start
  rw [zero_add] at fin
  obtain ⟨o1, o2⟩ := (finv_block hP m1 m2 m3 X0 G1 G2 G3 (hx (l, r) (by simp)) fin).2 k hk
  have le : M1 * (X + 1e-30) + M2 * (M1 * (X + 1e-30) + 1e-30) + M3 * (M2 * (M1 * (X + 1e-30) + 1e-30) + 1e-30) ≤ (M1 + M2 * (M1 + 1) + M3 * (M2 * (M1 + 1) + 1)) * (X + 1e-30) := by
    generalize (1e-30 : ℝ) = τ at *
    have u : M1 * (X + τ) + τ ≤ (M1 + 1) * (X + τ) := by nlinarith
    have u' := mul_le_mul_of_nonneg_left u m2
    have v : M2 * (M1 * (X + τ) + τ) + τ ≤ (M2 * (M1 + 1) + 1) * (X + τ) := by nlinarith
    have w := mul_le_mul_of_nonneg_left v m3
    nlinarith
  have er : rho = 0.996 := by unfold rho; norm_num
  rw [← er]
  have p := pow_nonneg rho_pos.le (32 * bs.length)
  exact ⟨o1.trans (mul_le_mul_of_nonneg_right le p), o2.trans (mul_le_mul_of_nonneg_right le p)⟩

/-- The design `init` starts every band from, 1 dB, makes the first sample louder. -/
theorem one_db_louder {ω bw : ℝ} (h0 : 0 < ω) (h1 : ω ≤ Real.pi / 2) (hb0 : 2 ≤ bw) (hb1 : bw ≤ 4) :
    1 < (Filter.new.coeffPeakEq (fun db => (10 : ℝ) ^ (db / 20)) ω bw 1).coeffInstantize.b0.v := by
  have hpi := Real.pi_pos
  set lin : ℝ → ℝ := fun db => (10 : ℝ) ^ (db / 20) with hl
  have sq : lin (1 * 0.5) * lin (1 * 0.5) = lin 1 := by
    simp only [hl]
    rw [← Real.rpow_add (by norm_num)]; congr 1; norm_num
  have big : ∀ x, 0 < x → 1 < lin x := fun x h => Real.one_lt_rpow (by norm_num) (by positivity)
  have gb1 := big (1 * 0.5) (by norm_num)
  have g1 := big 1 (by norm_num)
  have hp : Spec.Proper (lin 1) (lin (1 * 0.5)) := .inl ⟨gb1, by nlinarith⟩
  have far : |lin 1 - 1| > 0.00001 := by
    have e : (1.01 : ℝ) ≤ lin 1 := by
      simp only [hl]
      have : (1.01 : ℝ) ^ (20 : ℕ) ≤ ((10 : ℝ) ^ ((1 : ℝ) / 20)) ^ (20 : ℕ) := by
        rw [← Real.rpow_natCast ((10 : ℝ) ^ ((1 : ℝ) / 20)), ← Real.rpow_mul (by norm_num)]; norm_num
      exact le_of_pow_le_pow_left₀ (by norm_num) (by positivity) this
    rw [abs_of_pos (by linarith)]; norm_num at e ⊢; linarith
  have hc := c_nonneg h0 h1 hb0 hb1 hp sq (by linarith)
  obtain ⟨p1, p2, -⟩ := peakG1_between (bw := bw) h0 (by linarith) hp
  have good := parts_good (bw := bw) h0 (by linarith) hp p1 p2 (fun h => absurd h (by linarith))
  have hmax : max 0.0001 bw = bw := max_eq_right (by norm_num; linarith)
  have hn : ¬ ω > Real.pi := by linarith
  simp only [Filter.coeffPeakEq, if_pos far, hmax, if_neg hn]
  have dpos : 0 < |lin 1 * lin 1 - lin (1 * 0.5) * lin (1 * 0.5)| := abs_pos.2 (by rw [sq]; nlinarith)
  set d := |lin 1 * lin 1 - lin (1 * 0.5) * lin (1 * 0.5)| with hd
  have eA : ∀ g1 g00 f00 : ℝ, (peakParts (lin 1) (lin (1 * 0.5)) g1 d g00 f00 ω bw).A = Real.sqrt (((peakParts (lin 1) (lin (1 * 0.5)) g1 d g00 f00 ω bw).c + (peakParts (lin 1) (lin (1 * 0.5)) g1 d g00 f00 ω bw).d) / d) :=
    fun _ _ _ => rfl
  have eB : ∀ g1 g00 f00 : ℝ, (peakParts (lin 1) (lin (1 * 0.5)) g1 d g00 f00 ω bw).B = Real.sqrt ((lin 1 * lin 1 * (peakParts (lin 1) (lin (1 * 0.5)) g1 d g00 f00 ω bw).c +
      lin (1 * 0.5) * lin (1 * 0.5) * (peakParts (lin 1) (lin (1 * 0.5)) g1 d g00 f00 ω bw).d) / d) := fun _ _ _ => rfl
  have hAB : (peakParts (lin 1) (lin (1 * 0.5)) (peakG1 (lin 1) (lin (1 * 0.5)) ω bw) d |lin 1 * lin 1 - 1 * 1| |lin (1 * 0.5) * lin (1 * 0.5) - 1 * 1| ω bw).A <
      (peakParts (lin 1) (lin (1 * 0.5)) (peakG1 (lin 1) (lin (1 * 0.5)) ω bw) d |lin 1 * lin 1 - 1 * 1| |lin (1 * 0.5) * lin (1 * 0.5) - 1 * 1| ω bw).B := by
    rw [eA, eB]
    have gd := good.d
    have gg : 1 < lin 1 * lin 1 := by nlinarith
    have gbb : 1 < lin (1 * 0.5) * lin (1 * 0.5) := by nlinarith
    apply Real.sqrt_lt_sqrt
    · apply div_nonneg _ dpos.le; linarith
    · apply div_lt_div_of_pos_right _ dpos
      nlinarith
  have w := good.w2
  have pA := good.A (by have := good.d; linarith)
  have g1g := (p2 g1).1
  generalize peakParts (lin 1) (lin (1 * 0.5)) (peakG1 (lin 1) (lin (1 * 0.5)) ω bw) d |lin 1 * lin 1 - 1 * 1| |lin (1 * 0.5) * lin (1 * 0.5) - 1 * 1| ω bw = p at *
  generalize peakG1 (lin 1) (lin (1 * 0.5)) ω bw = G at *
  simp only [Filter.setPeak, Filter.setCoef, Filter.newValues, VLag.newValue, Filter.coeffInstantize, VLag.instantize]
  rw [mul_one_div, lt_div_iff₀ (by linarith)]
  linarith

/-- **C194 refuted**: right after initialisation, with every gain at 0 dB, the first sample comes out louder than it went in: `init` starts the bands at 1 dB, not 0 dB, and `process` only glides from there. -/
theorem C194_flat_is_transparent_refuted (b1 b2 b3 : Band) (h1 : Spec.Usual b1) (h2 : Spec.Usual b2) (h3 : Spec.Usual b3) (z1 : b1.gain = 0) (z2 : b2.gain = 0) (z3 : b3.gain = 0)
    (l r : ℕ → ℝ) (hl : 0 < l 0) :
    let P : Params := ⟨fun db => (10 : ℝ) ^ (db / 20), b1, b2, b3, 0⟩
    Spec.Flat P ∧ l 0 < (process P l r (fresh P)).2.1 0 := by
  intro P
  have flat : Spec.Flat P := by
    refine ⟨?_, ?_, ?_, ?_⟩ <;> simp only [P, z1, z2, z3] <;> norm_num
  refine ⟨flat, ?_⟩
  obtain ⟨f0, fg, ⟨q1, -⟩, ⟨q2, -⟩, q3, -⟩ := fresh_regs P
  have gain1 : ((fresh P).gain.setTargetSmoothed (P.lin P.gain)).gain 0 = 1 := by
    rw [fg, flat.gain]; simp only [LipolPs.setTargetSmoothed, LipolPs.gain]; norm_num
  rw [(process_out P l r (fresh P) 0 (by norm_num)).1, gain1, mul_one]
  -- the first sample of a block through one band that was at 1 dB and is now set flat
  have one : ∀ (b : Band) (f : Filter) (xs : List (ℝ × ℝ)), Spec.Usual b → b.gain = 0 → f.reg0 = (0, 0) → f.firstRun = false → 1 < f.b0.v → 0 < (xs.getD 0 0).1 →
      (xs.getD 0 0).1 < (((updateBand P.lin b none f).processBlockStereo xs).2.getD 0 0).1 := by
    intro b f xs hb hz h0 hf hv hx
    rcases xs with _ | ⟨⟨x, y⟩, xs⟩
    · simp at hx
    have e : updateBand P.lin b none f = f.setCoef 1 0 0 1 0 0 := by
      simp only [updateBand, bandGain, Filter.coeffPeakEq, P, hz]
      rw [if_neg (by norm_num)]
    rw [e]
    simp only [List.getD_cons_zero] at hx ⊢
    simp only [Filter.processBlockStereo, Filter.stereoLoop, List.getD_cons_zero, Filter.left, chan, Filter.cf, Filter.coeffProcess, Filter.setCoef, Filter.start, hf, Bool.false_eq_true, if_false,
      Filter.newValues, VLag.newValue, VLag.process, vlagLp, vlagLpInv, h0]
    norm_num
    nlinarith
  have louder : ∀ b : Band, Spec.Usual b → (updateBand P.lin b (some 1) .new).coeffInstantize.firstRun = false ∧ 1 < (updateBand P.lin b (some 1) .new).coeffInstantize.b0.v := by
    intro b hb
    obtain ⟨a0, a1, a2, c0, c1, c2, h⟩ := peak_shape P.lin ⟨b.ω, b.bw, 1⟩
    have e : updateBand P.lin b (some 1) .new = Filter.new.setCoef a0 a1 a2 c0 c1 c2 := h Filter.new
    refine ⟨by rw [e]; exact (setCoef_regs Filter.new a0 a1 a2 c0 c1 c2).2.2, one_db_louder hb.1 hb.2.1 hb.2.2.1 hb.2.2.2.1⟩
  have bl : ((block l r).getD 0 0).1 = l 0 := rfl
  have m1 : (maybeUpdate P (fresh P)).band1 = updateBand P.lin b1 none (fresh P).band1 := by simp only [maybeUpdate, if_pos f0, updateAll]; rfl
  have m2 : (maybeUpdate P (fresh P)).band2 = updateBand P.lin b2 none (fresh P).band2 := by simp only [maybeUpdate, if_pos f0, updateAll]; rfl
  have m3 : (maybeUpdate P (fresh P)).band3 = updateBand P.lin b3 none (fresh P).band3 := by simp only [maybeUpdate, if_pos f0, updateAll]; rfl
  simp only [bands, m1, m2, m3]
  have s1 := one b1 (fresh P).band1 (block l r) h1 z1 q1 (louder b1 h1).1 (louder b1 h1).2 (by rw [bl]; exact hl)
  rw [bl] at s1
  have s2 := one b2 (fresh P).band2 _ h2 z2 q2 (louder b2 h2).1 (louder b2 h2).2 (hl.trans s1)
  have s3 := one b3 (fresh P).band3 _ h3 z3 q3 (louder b3 h3).1 (louder b3 h3).2 ((hl.trans s1).trans s2)
  exact (s1.trans s2).trans s3

end Verif.Effects.Eq
