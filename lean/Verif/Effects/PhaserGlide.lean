import Verif.Effects.Phaser
import Verif.Biquad.Glide
import Mathlib.Analysis.Real.Pi.Bounds
/-!
# The phaser after it has been swept (C148), in exact real arithmetic

`C148_bounded_partial` starts from silence with the sweep off.  Here the run starts in any state whatever — any registers, any coefficients, any number of cycles into any sweep — at the update that
turns the sweep off; from then on the coefficients of the eight filters glide to their places, while feedback, mix and input keep moving.
-/
namespace Verif.Effects.Phaser
open Verif.Biquad Verif.Smooth

/-- The phaser before block `t` of the sequence `B`, when it was in state `s0` before block 0. -/
noncomputable def Spec.stateFrom (omega : ℝ → ℝ) (s0 : State) (B : ℕ → Blk) : ℕ → State
  | 0 => s0
  | t + 1 => (process omega (B t).par (B t).l (B t).r (Spec.stateFrom omega s0 B t)).1

/-- The wet signal of both channels, sample `k` of block `t`. -/
noncomputable def Spec.wetFrom (omega : ℝ → ℝ) (s0 : State) (B : ℕ → Blk) (t k : ℕ) : ℝ × ℝ :=
  ((after (B t).l (B t).r (enter omega (B t).par (Spec.stateFrom omega s0 B t)) (k + 1)).left.d,
   (after (B t).l (B t).r (enter omega (B t).par (Spec.stateFrom omega s0 B t)) (k + 1)).right.d)

/-- One filter's goal, distance from it, bound constant and first registers. -/
structure Way where
  c : Cf
  R : ℝ
  K : ℝ
  s0 : ℝ × ℝ

/-- What is left of an input of at most `X` behind all filters. -/
noncomputable def Way.last : ℝ → List Way → ℝ
  | X, [] => X
  | X, p :: ps => Way.last (cap p.c p.R p.K X p.s0) ps

/-- Filters on their ways. -/
def OnWay : ℝ → List Way → List Filter → Prop
  | _, [], [] => True
  | X, p :: ps, f :: fs => f.firstRun = false ∧ Under p.c p.R X p.s0 .left f ∧ OnWay (cap p.c p.R p.K X p.s0) ps fs
  | _, _, _ => False

theorem cascade_way : ∀ (ps : List Way) (fs : List Filter) (X x : ℝ), (∀ p ∈ ps, 0 ≤ p.R ∧ Caps p.c p.R p.K) → OnWay X ps fs → |x| ≤ X →
    OnWay X ps (cascade fs x).1 ∧ |(cascade fs x).2| ≤ Way.last X ps
  | [], [], _, _, _, _, hx => ⟨trivial, hx⟩
  | [], _ :: _, _, _, _, h, _ => h.elim
  | _ :: _, [], _, _, _, h, _ => h.elim
  | p :: ps, f :: fs, X, x, hp, h, hx => by
    obtain ⟨h1, h2, h3⟩ := h
    obtain ⟨hR, hK⟩ := hp p (by simp)
    obtain ⟨u1, u2⟩ := under_left hR hK h2 hx
    obtain ⟨i1, i2⟩ := cascade_way ps fs _ (f.processSample x).2 (fun q hq => hp q (by simp [hq])) h3 u2
    exact ⟨⟨h1, u1, i1⟩, i2⟩

theorem apf_stable {ω q : ℝ} (h0 : ω ≠ 0) (h1 : ω ≠ Real.pi) (hq : 0 < q) : ∃ a0 a1 a2 b0 b1 b2, (∀ f : Filter, f.coeffApf ω q = f.setCoef a0 a1 a2 b0 b1 b2) ∧
    Spec.Stable (Spec.normal a0 a1 a2 b0 b1 b2) := by
  by_cases h : 0 ≤ ω ∧ ω ≤ Real.pi
  · refine ⟨1 + Real.sin ω / (2 * q), -2 * Real.cos ω, 1 - Real.sin ω / (2 * q), 1 - Real.sin ω / (2 * q), -2 * Real.cos ω, 1 + Real.sin ω / (2 * q),
      fun f => if_neg (not_not.2 h), ?_⟩
    have p0 : 0 < ω := lt_of_le_of_ne h.1 h0.symm
    have p1 : ω < Real.pi := lt_of_le_of_ne h.2 h1
    exact stable_of_alpha (alpha_pos p0 p1 hq) (cos_lt_one_abs p0 p1) _ _ _
  · refine ⟨1, 0, 0, 1, 0, 0, fun f => if_pos h, ?_⟩
    simp [Spec.Stable, Spec.normal]

theorem set_target (f : Filter) (hf : f.firstRun = false) (a0 a1 a2 b0 b1 b2 : ℝ) : (f.setCoef a0 a1 a2 b0 b1 b2).cf = f.cf ∧
    (f.setCoef a0 a1 a2 b0 b1 b2).goal = Spec.normal a0 a1 a2 b0 b1 b2 ∧ (f.setCoef a0 a1 a2 b0 b1 b2).reg0 = f.reg0 ∧ (f.setCoef a0 a1 a2 b0 b1 b2).reg1 = f.reg1 ∧
    (f.setCoef a0 a1 a2 b0 b1 b2).firstRun = false := by
  simp only [Filter.setCoef, Filter.start, hf, Bool.false_eq_true, if_false, Filter.newValues, Filter.cf, Filter.goal, VLag.newValue, Spec.normal, mul_one_div, and_self]

theorem near_any (c k : Cf) : ∃ R, 0 ≤ R ∧ Near c R k := by
  refine ⟨|k.a1 - c.a1| + |k.a2 - c.a2| + |k.b0 - c.b0| + |k.b1 - c.b1| + |k.b2 - c.b2|, by positivity, ?_⟩
  have z1 := abs_nonneg (k.a1 - c.a1)
  have z2 := abs_nonneg (k.a2 - c.a2)
  have z3 := abs_nonneg (k.b0 - c.b0)
  have z4 := abs_nonneg (k.b1 - c.b1)
  have z5 := abs_nonneg (k.b2 - c.b2)
  constructor <;> linarith

/-- The tuning of any bank with the sweep off. -/
noncomputable def tuned (omega : ℝ → ℝ) (base quality : ℝ) (ts : List (ℝ × ℝ)) (bank : List Filter) : List Filter :=
  List.zipWith (fun t f => f.coeffApf (omega (2 * base + t.1)) (1 + 0.8 * quality)) ts bank

theorem retune_tuned (omega : ℝ → ℝ) {P : Params} {base quality : ℝ} (hb : P.base = base) (hq : P.quality = quality) (hd : P.depth = 0) (lfo : ℝ) (bank : List Filter) :
    retune omega P lfo bank = tuned omega base quality table bank := by
  simp only [retune, tuned, hb, hq, hd, mul_zero, add_zero]

theorem way_start (omega : ℝ → ℝ) {base quality : ℝ} (q0 : 0 < 1 + 0.8 * quality) : ∀ (ts : List (ℝ × ℝ)) (bank : List Filter), ts.length = bank.length →
    (∀ t ∈ ts, omega (2 * base + t.1) ≠ 0 ∧ omega (2 * base + t.1) ≠ Real.pi) →
    ∃ ps : List Way, (∀ p ∈ ps, 0 ≤ p.R ∧ Caps p.c p.R p.K) ∧ (ps.map Way.c) = ts.map (fun t => apfCf (omega (2 * base + t.1)) (1 + 0.8 * quality)) ∧
      ∀ X, OnWay X ps (tuned omega base quality ts bank)
  | [], [], _, _ => ⟨[], by simp, rfl, fun _ => trivial⟩
  | [], _ :: _, h, _ => by simp at h
  | _ :: _, [], h, _ => by simp at h
  | t :: ts, f :: fs, h, hs => by
    obtain ⟨ps, i1, i2, i3⟩ := way_start omega q0 ts fs (by simpa using h) (fun t ht => hs t (by simp [ht]))
    obtain ⟨h0, h1⟩ := hs t (by simp)
    obtain ⟨a0, a1, a2, b0, b1, b2, e, st⟩ := apf_stable h0 h1 q0
    have ec : apfCf (omega (2 * base + t.1)) (1 + 0.8 * quality) = Spec.normal a0 a1 a2 b0 b1 b2 := by
      unfold apfCf; rw [e]; exact rests_cf (setCoef_first Filter.new rfl ..)
    obtain ⟨R, R0, hR⟩ := near_any (Spec.normal a0 a1 a2 b0 b1 b2) f.cf
    obtain ⟨K, -, hK⟩ := glide_bound st R0
    obtain ⟨v1, v2, v3, v4⟩ := setCoef_bound f a0 a1 a2 b0 b1 b2 R0 (.inr hR)
    refine ⟨⟨Spec.normal a0 a1 a2 b0 b1 b2, R, K, (f.reg0.1, f.reg1.1)⟩ :: ps, ?_, ?_, fun X => ?_⟩
    · intro p hp
      rcases List.mem_cons.1 hp with rfl | hp
      · exact ⟨R0, hK⟩
      · exact i1 p hp
    · simp only [List.map_cons, i2, ec]
    · show OnWay X (_ :: ps) (f.coeffApf _ _ :: tuned omega base quality ts fs)
      rw [e]
      refine ⟨v4, ⟨0, 0, le_rfl, v1, ?_⟩, i3 _⟩
      rw [v2, v3]; exact ⟨_, .zero, .inl rfl⟩

theorem way_again (omega : ℝ → ℝ) {base quality : ℝ} (q0 : 0 < 1 + 0.8 * quality) : ∀ (ts : List (ℝ × ℝ)) (bank : List Filter) (ps : List Way) (X : ℝ),
    (∀ t ∈ ts, omega (2 * base + t.1) ≠ 0 ∧ omega (2 * base + t.1) ≠ Real.pi) →
    (ps.map Way.c) = ts.map (fun t => apfCf (omega (2 * base + t.1)) (1 + 0.8 * quality)) → OnWay X ps bank → OnWay X ps (tuned omega base quality ts bank)
  | [], [], [], _, _, _, _ => trivial
  | [], _ :: _, [], _, _, _, h => h.elim
  | _ :: _, _, [], _, _, e, _ => by simp at e
  | [], _, _ :: _, _, _, e, _ => by simp at e
  | _ :: _, [], _ :: _, _, _, _, h => h.elim
  | t :: ts, f :: fs, p :: ps, X, hs, e', h => by
    obtain ⟨h1, h2, h3⟩ := h
    simp only [List.map_cons, List.cons.injEq] at e'
    obtain ⟨e1, e2⟩ := e'
    obtain ⟨n0, n1⟩ := hs t (by simp)
    obtain ⟨a0, a1, a2, b0, b1, b2, e, -⟩ := apf_stable n0 n1 q0
    have ec : apfCf (omega (2 * base + t.1)) (1 + 0.8 * quality) = Spec.normal a0 a1 a2 b0 b1 b2 := by
      unfold apfCf; rw [e]; exact rests_cf (setCoef_first Filter.new rfl ..)
    obtain ⟨v1, v2, v3, v4, v5⟩ := set_target f h1 a0 a1 a2 b0 b1 b2
    obtain ⟨m, n, hm, hb, hg⟩ := h2.h
    show OnWay X (p :: ps) (f.coeffApf _ _ :: tuned omega base quality ts fs)
    rw [e]
    refine ⟨v5, ⟨m, n, hm, ⟨?_, ?_⟩, ?_⟩, way_again omega q0 ts fs ps _ (fun t ht => hs t (by simp [ht])) e2 h3⟩
    · rw [v2, e1, ec]
    · rw [v1]; exact hb.near
    · rw [v3, v4]; exact hg

/-- **C148 (part).** After any past — any registers, any coefficients, any sweep — there is a bound such that once the sweep is off and base and quality stay, the wet signal never exceeds it, however
long the run and however input, feedback and mix move.  Needed: the four filters are not tuned to exactly 0 or half the sample rate. -/
theorem C148_bounded_after_sweep_partial (omega : ℝ → ℝ) {base quality : ℝ} (hp : |quality| ≤ 1)
    (hs : ∀ t ∈ table, omega (2 * base + t.1) ≠ 0 ∧ omega (2 * base + t.1) ≠ Real.pi)
    (s0 : State) (hbi : s0.bi = 0) (hl : s0.left.bank.length = 4) (hr : s0.right.bank.length = 4) : ∃ M, ∀ B : ℕ → Blk,
    (∀ t, (B t).par.base = base ∧ (B t).par.quality = quality ∧ (B t).par.depth = 0) →
    ∀ t k, k < 32 → |(Spec.wetFrom omega s0 B t k).1| ≤ M ∧ |(Spec.wetFrom omega s0 B t k).2| ≤ M := by
  have q0 : 0 < 1 + 0.8 * quality := by have := (abs_le.1 hp).1; norm_num; linarith
  have tl : table.length = 4 := rfl
  obtain ⟨ps, p1, p2, p3⟩ := way_start omega q0 table s0.left.bank (by rw [tl, hl]) hs
  obtain ⟨qs, q1, q2, q3⟩ := way_start omega q0 table s0.right.bank (by rw [tl, hr]) hs
  refine ⟨max (Way.last 32 ps) (Way.last 32 qs), fun B hB => ?_⟩
  -- within a block
  have inner : ∀ (s : State) (l r : ℕ → ℝ), OnWay 32 ps s.left.bank → OnWay 32 qs s.right.bank → ∀ k,
      OnWay 32 ps (after l r s k).left.bank ∧ OnWay 32 qs (after l r s k).right.bank := by
    intro s l r h1 h2 k
    induction k with
    | zero => exact ⟨h1, h2⟩
    | succ k ih => exact ⟨(cascade_way ps _ 32 _ p1 ih.1 (limit_abs _)).1, (cascade_way qs _ 32 _ q1 ih.2 (limit_abs _)).1⟩
  have entry : ∀ t, OnWay 32 ps (enter omega (B t).par (Spec.stateFrom omega s0 B t)).left.bank ∧
      OnWay 32 qs (enter omega (B t).par (Spec.stateFrom omega s0 B t)).right.bank := by
    intro t
    induction t with
    | zero =>
      obtain ⟨h1, h2, h3⟩ := hB 0
      obtain ⟨x, y, e1, e2, -⟩ := enter_bank omega (B 0).par (Spec.stateFrom omega s0 B 0)
      rw [e1, e2, if_pos (show (Spec.stateFrom omega s0 B 0).bi = 0 from hbi), if_pos (show (Spec.stateFrom omega s0 B 0).bi = 0 from hbi),
        retune_tuned omega h1 h2 h3, retune_tuned omega h1 h2 h3]
      exact ⟨p3 32, q3 32⟩
    | succ t ih =>
      obtain ⟨h1, h2, h3⟩ := hB (t + 1)
      obtain ⟨x, y, e1, e2, -⟩ := enter_bank omega (B (t + 1)).par (Spec.stateFrom omega s0 B (t + 1))
      have i := inner _ (B t).l (B t).r ih.1 ih.2 32
      have j1 : OnWay 32 ps (Spec.stateFrom omega s0 B (t + 1)).left.bank := i.1
      have j2 : OnWay 32 qs (Spec.stateFrom omega s0 B (t + 1)).right.bank := i.2
      rw [e1, e2]
      split
      · rw [retune_tuned omega h1 h2 h3, retune_tuned omega h1 h2 h3]
        exact ⟨way_again omega q0 table _ ps 32 hs p2 j1, way_again omega q0 table _ qs 32 hs q2 j2⟩
      · exact ⟨j1, j2⟩
  intro t k _
  obtain ⟨i1, i2⟩ := inner _ (B t).l (B t).r (entry t).1 (entry t).2 k
  exact ⟨(cascade_way ps _ 32 _ p1 i1 (limit_abs _)).2.trans (le_max_left _ _), (cascade_way qs _ 32 _ q1 i2 (limit_abs _)).2.trans (le_max_right _ _)⟩

/-- A case: the filters are all loaded and sit at some unstable coefficients when the sweep stops. -/
example : ∃ M, ∀ B : ℕ → Blk, (∀ t, (B t).par.base = 0 ∧ (B t).par.quality = 1 ∧ (B t).par.depth = 0) →
    ∀ t k, k < 32 → |(Spec.wetFrom (fun x => 1 / 10 + x ^ 2 / 100) ⟨0.25, 0, LiPol.new 256,
      ⟨32, List.replicate 4 { (Filter.new.setCoef 1 (-3) 2 1 1 1) with reg0 := (9, 0), reg1 := (-9, 0) }⟩, ⟨0, List.replicate 4 Filter.new⟩, LipolPs.default⟩ B t k).1| ≤ M ∧
      |(Spec.wetFrom (fun x => 1 / 10 + x ^ 2 / 100) ⟨0.25, 0, LiPol.new 256,
      ⟨32, List.replicate 4 { (Filter.new.setCoef 1 (-3) 2 1 1 1) with reg0 := (9, 0), reg1 := (-9, 0) }⟩, ⟨0, List.replicate 4 Filter.new⟩, LipolPs.default⟩ B t k).2| ≤ M := by
  refine C148_bounded_after_sweep_partial _ (by norm_num) (fun t ht => ?_) _ rfl rfl rfl
  have := Real.pi_gt_three
  simp only [table, List.mem_cons, List.not_mem_nil, or_false] at ht
  rcases ht with rfl | rfl | rfl | rfl <;> norm_num <;> intro h <;> linarith

end Verif.Effects.Phaser
