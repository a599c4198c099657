import Verif.Lfo.Env
/-!
# Phase and output of the oscillator (C72)
-/
namespace Verif.Lfo
open Verif.Float Verif.Dsp Verif.Param Verif.Adsr Verif.StepSeq
open Verif.Fx (bind_ok)

/-! ## Shaping keeps the unit range -/

/-- A finite `f32` between `a` and `b`. -/
def Spec.Between (a b : ℚ) (x : F32) : Prop := ∃ q, x = .fin q ∧ Spec.IsF32 q ∧ a ≤ q ∧ q ≤ b

theorem half_err {x : ℚ} (hx : Spec.IsF32 x) : |rne (x / 2) - x / 2| ≤ 1 / 2 ^ 140 := by
  obtain ⟨n, e, hn, he, hv⟩ := rne_form x
  rw [show rne x = x from hx] at hv
  rcases le_or_gt (-148) e with h | h
  · have e2 : x / 2 = (n:ℚ) * 2 ^ (e - 1) := by
      rw [hv, zpow_sub₀ (by norm_num)]; ring
    rw [e2, rne_mul_zpow n (e - 1) hn (by omega), sub_self, abs_zero]; positivity
  · have hb : |x / 2| ≤ 1 / 2 ^ 126 := by
      have e1 : e = -149 := by omega
      rw [hv, e1, abs_div, abs_mul, abs_of_pos (show (0:ℚ) < 2 ^ (-149:ℤ) by positivity)]
      have : |(n:ℚ)| ≤ 2 ^ 24 := by exact_mod_cast hn
      calc |(n:ℚ)| * 2 ^ (-149:ℤ) / |2| ≤ 2 ^ 24 * 2 ^ (-149:ℤ) / |2| := by gcongr
        _ = 1 / 2 ^ 126 := by norm_num
    refine (rne_dist hb).trans ?_
    norm_num

theorem bend_up {x : ℚ} (hx : Spec.IsF32 x) (h0 : -1 ≤ x) (h1 : x ≤ 1) :
    ∃ z, bendHalf (.fin (1 / 2)) (.fin x) = .fin z ∧ Spec.IsF32 z ∧ -1 ≤ z ∧ z ≤ 1 := by
  have hax : |x| ≤ 1 := abs_le.mpr ⟨h0, h1⟩
  have a1 := half_err hx
  have p1 : |rne (x / 2)| ≤ 1 := by
    have := rne_abs (q := x / 2) (k := 0) (by rw [abs_div]; norm_num; linarith)
    simpa using this
  have n140 : (1:ℚ) / 2 ^ 140 ≤ 1 / 2 ^ 100 := by norm_num
  have prod : |rne (x / 2) * x - x ^ 2 / 2| ≤ 1 / 2 ^ 140 := by
    have : rne (x / 2) * x - x ^ 2 / 2 = (rne (x / 2) - x / 2) * x := by ring
    rw [this, abs_mul]
    calc |rne (x / 2) - x / 2| * |x| ≤ 1 / 2 ^ 140 * 1 := by gcongr
      _ = 1 / 2 ^ 140 := by ring
  have x2 : x ^ 2 ≤ 1 := by nlinarith
  have pb : |rne (x / 2) * x| ≤ 1 / 2 + 1 / 2 ^ 100 := by
    have := abs_le.mp prod
    rw [abs_le]; constructor <;> nlinarith [sq_nonneg x]
  have d2 := rne_dist pb
  have tot : |rne (rne (x / 2) * x) - x ^ 2 / 2| ≤ 9 / 8 / 2 ^ 25 := by
    have t1 := abs_le.mp d2
    have t2 := abs_le.mp prod
    rw [abs_le]; norm_num at t1 t2 ⊢; constructor <;> linarith
  have hp2 : |rne (rne (x / 2) * x)| ≤ 1 := by
    have t := abs_le.mp tot
    rw [abs_le]; norm_num at t ⊢; constructor <;> nlinarith [sq_nonneg x]
  generalize hq2 : rne (rne (x / 2) * x) = p2 at *
  have t := abs_le.mp tot
  have up : x - p2 ≤ 1 / 2 + 9 / 8 / 2 ^ 25 := by nlinarith [sq_nonneg (x - 1)]
  have lo : -(3 / 2) - 9 / 8 / 2 ^ 25 ≤ x - p2 := by nlinarith [sq_nonneg (x + 1)]
  have yu := rne_mono up
  have yl := rne_mono lo
  have c1 : rne (1 / 2 + 9 / 8 / 2 ^ 25) = 1 / 2 + 1 / 2 ^ 24 := by decide +kernel
  have c2 : rne (-(3 / 2) - 9 / 8 / 2 ^ 25) = -(3 / 2) := by decide +kernel
  rw [c1] at yu; rw [c2] at yl
  have zu := rne_mono (show rne (x - p2) + 1 / 2 ≤ 1 + 1 / 2 ^ 24 by linarith)
  have zl := rne_mono (show (-1:ℚ) ≤ rne (x - p2) + 1 / 2 by linarith)
  have c3 : rne (1 + 1 / 2 ^ 24) = 1 := by decide +kernel
  have c4 : rne (-1) = -1 := by decide +kernel
  rw [c3] at zu; rw [c4] at zl
  refine ⟨rne (rne (x - p2) + 1 / 2), ?_, isF32_rne _, zl, zu⟩
  have n24 : (1:ℚ) / 2 ^ 24 ≤ 1 := by norm_num
  unfold bendHalf
  rw [mul_fin (a := 1 / 2) (b := x) (by rw [abs_mul]; norm_num; linarith), show 1 / 2 * x = x / 2 by ring,
    mul_fin (by rw [abs_mul]; have : |rne (x / 2)| * |x| ≤ 1 * 1 := by gcongr
                norm_num at this ⊢; linarith), hq2,
    sub_fin (hax.trans (by norm_num)) (hp2.trans (by norm_num)), add_fin (by rw [abs_le]; norm_num at *; constructor <;> linarith)]

theorem bend_neg (a x : ℚ) (ha : |a| ≤ 1) (hx : |x| ≤ 1) (z : ℚ) (h : bendHalf (.fin a) (.fin x) = .fin z) : bendHalf (.fin (-a)) (.fin (-x)) = .fin (-z) := by
  have m1 : |a * x| ≤ 1 := by rw [abs_mul]; nlinarith [abs_nonneg a, abs_nonneg x]
  have r1 : |rne (a * x)| ≤ 1 := by simpa using rne_abs (q := a * x) (k := 0) (by simpa using m1)
  have m2 : |rne (a * x) * x| ≤ 1 := by rw [abs_mul]; nlinarith [abs_nonneg (rne (a * x)), abs_nonneg x]
  have r2 : |rne (rne (a * x) * x)| ≤ 1 := by simpa using rne_abs (q := rne (a * x) * x) (k := 0) (by simpa using m2)
  have m3 : |x - rne (rne (a * x) * x)| ≤ 2 ^ 1 := by rw [abs_le] at *; constructor <;> linarith
  have r3 := rne_abs m3
  have big : (2:ℚ) ^ 99 ≥ 4 := by norm_num
  have big' : (2:ℚ) ^ 100 ≥ 4 := by norm_num
  unfold bendHalf at h ⊢
  rw [mul_fin (by linarith), mul_fin (by linarith), sub_fin (by linarith) (by linarith),
    add_fin (by rw [abs_le] at *; constructor <;> linarith)] at h
  have e1 : -a * -x = a * x := by ring
  have e2 : rne (a * x) * -x = -(rne (a * x) * x) := by ring
  have e3 : -x - -rne (rne (a * x) * x) = -(x - rne (rne (a * x) * x)) := by ring
  have e4 : -rne (x - rne (rne (a * x) * x)) + -a = -(rne (x - rne (rne (a * x) * x)) + a) := by ring
  rw [mul_fin (by rw [e1]; linarith), e1, mul_fin (by rw [e2, abs_neg]; linarith), e2, rne_neg,
    sub_fin (by rw [abs_neg]; linarith) (by rw [abs_neg]; linarith), e3, rne_neg, add_fin (by rw [e4, abs_neg]; rw [abs_le] at *; constructor <;> linarith), e4, rne_neg]
  cases h; rfl

theorem bend_zero {x : ℚ} (hx : Spec.IsF32 x) (h : |x| ≤ 1) : bendHalf (.fin 0) (.fin x) = .fin x := by
  unfold bendHalf
  have big : (2:ℚ) ^ 99 ≥ 4 := by norm_num
  have big' : (2:ℚ) ^ 100 ≥ 4 := by norm_num
  rw [mul_zero_fin, mul_zero_fin, sub_fin (by linarith) (by norm_num), sub_zero, show rne x = x from hx, add_fin (by rw [add_zero]; linarith), add_zero, show rne x = x from hx]

/-- The bending function maps -1..1 into itself for the integer deforms -1, 0 and 1. -/
theorem bendHalf_unit {x : F32} (hx : Spec.Between (-1) 1 x) {a : ℚ} (ha : a = 1 / 2 ∨ a = 0 ∨ a = -(1 / 2)) :
    Spec.Between (-1) 1 (bendHalf (.fin a) x) := by
  obtain ⟨q, rfl, hq, h0, h1⟩ := hx
  rcases ha with rfl | rfl | rfl
  · exact bend_up hq h0 h1
  · exact ⟨q, bend_zero hq (abs_le.mpr ⟨h0, h1⟩), hq, h0, h1⟩
  · obtain ⟨z, e, i, a, b⟩ := bend_up (isF32_neg hq) (by linarith) (by linarith)
    have := bend_neg (1 / 2) (-q) (by rw [abs_of_pos] <;> norm_num) (abs_le.mpr ⟨by linarith, by linarith⟩) z e
    rw [neg_neg] at this
    exact ⟨-z, this, isF32_neg i, by linarith, by linarith⟩

theorem bend3_unit {s : St} {x y : F32} (hx : Spec.Between (-1) 1 x) (hd : ∀ i, s.p.val .deform = .int i → i = -1 ∨ i = 0 ∨ i = 1)
    (h : bend3 s x = .ok y) : Spec.Between (-1) 1 y := by
  unfold bend3 at h
  rw [bind_ok] at h
  obtain ⟨i, hi, h⟩ := h
  have hi' : s.p.val .deform = .int i := by
    cases hc : s.p.val .deform <;> rw [hc] at hi <;> simp [pvali] at hi
    rw [hi]
  cases h
  obtain ⟨a, e, ha⟩ : ∃ a, F32.mul (flit (1 / 2)) (F32.ofInt i) = .fin a ∧ (a = 1 / 2 ∨ a = 0 ∨ a = -(1 / 2)) := by
    rcases hd i hi' with rfl | rfl | rfl
    · exact ⟨-(1 / 2), by decide +kernel, by simp⟩
    · exact ⟨0, by decide +kernel, by simp⟩
    · exact ⟨1 / 2, by decide +kernel, by simp⟩
  rw [e]
  exact bendHalf_unit (bendHalf_unit hx ha) ha

/-! ## Histories -/

/-- Parameters, surroundings and random numbers in the range the output bound needs: the rate between 0 and 1 per block, deform one of the
integers -1, 0, 1 or a float in 0..1, magnitude in 0..1, a start phase of ordinary size, a wave shape other than noise and step sequence,
a wave table and random numbers bounded by 1. -/
structure Spec.OutGood (E : Env) (r : Rand) (p : Params) : Prop where
  env : Spec.EnvParams E p
  rate : Spec.RateIn 1 (rateOf E p .rate)
  magnitude : ∀ m, p.val .magnitude = .float m → ∃ q, m = .fin q ∧ 0 ≤ q ∧ q ≤ 1
  deformInt : ∀ i, p.val .deform = .int i → i = -1 ∨ i = 0 ∨ i = 1
  deformFloat : ∀ d, p.val .deform = .float d → Spec.Between 0 1 d
  start : ∀ x, p.val .startPhase = .float x → ∃ q, x = .fin q ∧ Spec.IsF32 q ∧ |q| < 2 ^ 128
  shape : ∀ i, p.val .shape = .int i → i ≠ 4 ∧ i ≠ 7
  table : ∀ x, Spec.Between (-2) 2 x → Spec.Between (-1) 1 (E.warp3 x)
  randPhase : Spec.Between 0 1 r.phase
  noise : Spec.Between (-1) 1 (r.noise 0)

/-- Every attack and every block of a history finds its parameters good. -/
def Spec.Good (G : Env → Rand → Params → Prop) (p : Params) : List Op → Prop
  | [] => True
  | .attack _ E r :: os => G E r p ∧ Spec.Good G p os
  | .block _ E r :: os => G E r p ∧ Spec.Good G p os
  | .edit p' :: os => Spec.Good G p' os
  | .pattern _ :: os => Spec.Good G p os

structure OInv (s : St) : Prop where
  env : EInv s
  phase : Spec.Between 0 1 s.phase
  mult : s.ratemult = .fin 1
  iout : Spec.Between (-1) 1 s.iout
  out : Spec.Between (-1) 1 s.output

theorem pvalf_ok {d : PData} {x : F32} (h : pvalf d = .ok x) : d = .float x := by
  cases d <;> simp [pvalf] at h
  rw [h]
theorem pvali_ok {d : PData} {x : Int} (h : pvali d = .ok x) : d = .int x := by
  cases d <;> simp [pvali] at h
  rw [h]
theorem pvalb_ok {d : PData} {x : Bool} (h : pvalb d = .ok x) : d = .bool x := by
  cases d <;> simp [pvalb] at h
  rw [h]

theorem rne_in {a b : ℤ} {x : ℚ} (ha : |a| ≤ 2 ^ 24) (hb : |b| ≤ 2 ^ 24) (h0 : (a:ℚ) ≤ x) (h1 : x ≤ b) : (a:ℚ) ≤ rne x ∧ rne x ≤ b := by
  constructor
  · rw [← rne_intCast a ha]; exact rne_mono h0
  · rw [← rne_intCast b hb]; exact rne_mono h1

theorem add_between {x y : ℚ} (a b : ℤ) (ha : |a| ≤ 2 ^ 24) (hb : |b| ≤ 2 ^ 24) (h0 : (a:ℚ) ≤ x + y) (h1 : x + y ≤ b) :
    Spec.Between a b (F32.add (.fin x) (.fin y)) := by
  have := rne_in ha hb h0 h1
  refine ⟨rne (x + y), add_fin ?_, isF32_rne _, this⟩
  have ha' : |(a:ℚ)| ≤ 2 ^ 24 := by exact_mod_cast ha
  have hb' : |(b:ℚ)| ≤ 2 ^ 24 := by exact_mod_cast hb
  rw [abs_le] at ha' hb' ⊢
  norm_num at ha' hb' ⊢
  constructor <;> linarith

theorem sub_between {x y : ℚ} (a b : ℤ) (ha : |a| ≤ 2 ^ 24) (hb : |b| ≤ 2 ^ 24) (h0 : (a:ℚ) ≤ x - y) (h1 : x - y ≤ b) :
    Spec.Between a b (F32.sub (.fin x) (.fin y)) := by
  unfold F32.sub F32.neg
  exact add_between a b ha hb (by linarith) (by linarith)

theorem mul_between {x y : ℚ} (a b : ℤ) (ha : |a| ≤ 2 ^ 24) (hb : |b| ≤ 2 ^ 24) (h0 : (a:ℚ) ≤ x * y) (h1 : x * y ≤ b) :
    Spec.Between a b (F32.mul (.fin x) (.fin y)) := by
  have := rne_in ha hb h0 h1
  refine ⟨rne (x * y), mul_fin ?_, isF32_rne _, this⟩
  have ha' : |(a:ℚ)| ≤ 2 ^ 24 := by exact_mod_cast ha
  have hb' : |(b:ℚ)| ≤ 2 ^ 24 := by exact_mod_cast hb
  rw [abs_le] at ha' hb' ⊢
  norm_num at ha' hb' ⊢
  constructor <;> linarith

theorem between_int {a b : ℤ} {a' b' : ℚ} {x : F32} (h : Spec.Between a b x) (ha : (a:ℚ) = a') (hb : (b:ℚ) = b') : Spec.Between a' b' x := by
  rw [← ha, ← hb]; exact h

theorem wrap_between {f : Nat} {x : ℚ} {y : F32} (hx : Spec.IsF32 x) (hb : |x| < 2 ^ 128) (h : wrap f (.fin x) = .ok y) : Spec.Between 0 1 y := by
  -- more fuel does not change a result
  have mUp : ∀ n (z y : F32), wrapUp n z = .ok y → ∀ m, n ≤ m → wrapUp m z = .ok y := by
    intro n
    induction n with
    | zero => intro z y h; cases h
    | succ n ih =>
      intro z y h m hm
      obtain ⟨m, rfl⟩ := Nat.exists_eq_add_of_le' (show 1 ≤ m by omega)
      rw [wrapUp] at h ⊢
      split
      · rename_i c; rw [if_pos c] at h; exact ih _ _ h m (by omega)
      · rename_i c; rw [if_neg c] at h; exact h
  have mDown : ∀ n (z y : F32), wrapDown n z = .ok y → ∀ m, n ≤ m → wrapDown m z = .ok y := by
    intro n
    induction n with
    | zero => intro z y h; cases h
    | succ n ih =>
      intro z y h m hm
      obtain ⟨m, rfl⟩ := Nat.exists_eq_add_of_le' (show 1 ≤ m by omega)
      rw [wrapDown] at h ⊢
      split
      · rename_i c; rw [if_pos c] at h; exact ih _ _ h m (by omega)
      · rename_i c; rw [if_neg c] at h; exact h
  have hb' : |x| ≤ 2 ^ 24 + 2 := by
    by_contra hc
    rw [wrap_stuck hx (not_le.mp hc) hb] at h; cases h
  unfold wrap at h
  rw [bind_ok] at h
  obtain ⟨z, h1, h2⟩ := h
  obtain ⟨w, e, i, a, b, _⟩ := wrap_spec hx hb' (f + 2 ^ 24 + 3) (by omega)
  unfold wrap at e
  rw [mUp _ _ _ h1 _ (by omega), Res.ok_bind, mDown _ _ _ h2 _ (by omega)] at e
  cases e
  exact ⟨w, rfl, i, a, b⟩

theorem ensurePhase_inv {f : Nat} {E : Env} {r : Rand} {s t : St} (hi : OInv s) (hg : Spec.OutGood E r s.p) (h : ensurePhase f s = .ok t) : OInv t := by
  have he := ensurePhase_env h
  unfold ensurePhase initPhase at h
  split at h
  · cases h; exact hi
  · simp only [bind_ok] at h
    obtain ⟨x, hx, y, hy, h⟩ := h
    cases h
    obtain ⟨q, rfl, a, b⟩ := hg.start x (pvalf_ok hx)
    exact ⟨hi.env.same he, wrap_between a b hy, hi.mult, hi.iout, hi.out⟩

theorem getShape_ok {s : St} {E : Env} {r : Rand} {sh : Shape} (hg : Spec.OutGood E r s.p) (h : getShape s = .ok sh) : sh ≠ .noise ∧ sh ≠ .stepseq := by
  unfold getShape at h
  rw [bind_ok] at h
  obtain ⟨i, hi, h⟩ := h
  obtain ⟨a, b⟩ := hg.shape i (pvali_ok hi)
  constructor
  · rintro rfl; apply a
    unfold shapeOf at h; split at h <;> simp at h ⊢
  · rintro rfl; apply b
    unfold shapeOf at h; split at h <;> simp at h ⊢

theorem flit_half : flit (1 / 2) = .fin (1 / 2) := by decide +kernel

/-- The wave before scaling. -/
theorem shapeOut_unit {E : Env} {r : Rand} {s : St} {sh : Shape} {o : F32} (hi : OInv s) (hg : Spec.OutGood E r s.p) (hs : sh ≠ .noise ∧ sh ≠ .stepseq)
    (h : shapeOut E s sh = .ok o) : Spec.Between (-1) 1 o := by
  obtain ⟨ph, ep, ip, p0, p1⟩ := hi.phase
  unfold shapeOut at h
  cases sh <;> dsimp only at h
  · -- sine
    refine bend3_unit (hg.table _ ?_) hg.deformInt h
    rw [ep]
    obtain ⟨q, e, _, q0, q1⟩ := mul_between (x := 4) (y := ph) 0 4 (by norm_num) (by norm_num) (by push_cast; linarith) (by push_cast; linarith)
    rw [e]
    push_cast at q0 q1
    exact between_int (sub_between (-2) 2 (by norm_num) (by norm_num) (by push_cast; linarith) (by push_cast; linarith)) (by norm_num) (by norm_num)
  · -- triangle
    refine bend3_unit ?_ hg.deformInt h
    rw [ep, flit_half]
    obtain ⟨w, e, w0, w1⟩ : ∃ w, (if F32.lt (.fin (1 / 2)) (.fin ph) = true then F32.sub (.fin 1) (.fin ph) else .fin ph) = .fin w ∧ 0 ≤ w ∧ w ≤ 1 / 2 := by
      by_cases c : F32.lt (.fin (1 / 2)) (.fin ph) = true
      · rw [if_pos c, sub_fin (by norm_num) (by rw [abs_of_nonneg p0]; norm_num; linarith)]
        have c' : 1 / 2 < ph := by simpa [F32.lt] using c
        refine ⟨_, rfl, rne_nonneg (by linarith), ?_⟩
        have := rne_mono (show 1 - ph ≤ 1 / 2 by linarith)
        have t : rne (1 / 2) = 1 / 2 := by decide +kernel
        rwa [t] at this
      · rw [if_neg c]
        have c' : ph ≤ 1 / 2 := by simpa [F32.lt] using c
        exact ⟨ph, rfl, p0, c'⟩
    rw [e]
    obtain ⟨q, e, _, q0, q1⟩ := mul_between (x := 4) (y := w) 0 2 (by norm_num) (by norm_num) (by push_cast; linarith) (by push_cast; linarith)
    rw [e]
    push_cast at q0 q1
    exact between_int (add_between (-1) 1 (by norm_num) (by norm_num) (by push_cast; linarith) (by push_cast; linarith)) (by norm_num) (by norm_num)
  · -- square
    rw [bind_ok] at h
    obtain ⟨d, hd, h⟩ := h
    cases h
    split
    · exact ⟨-1, rfl, by unfold Spec.IsF32; decide +kernel, by norm_num, by norm_num⟩
    · exact ⟨1, rfl, by unfold Spec.IsF32; decide +kernel, by norm_num, by norm_num⟩
  · -- ramp
    refine bend3_unit ?_ hg.deformInt h
    rw [ep]
    obtain ⟨q, e, _, q0, q1⟩ := mul_between (x := 2) (y := ph) 0 2 (by norm_num) (by norm_num) (by push_cast; linarith) (by push_cast; linarith)
    rw [e]
    push_cast at q0 q1
    exact between_int (sub_between (-1) 1 (by norm_num) (by norm_num) (by push_cast; linarith) (by push_cast; linarith)) (by norm_num) (by norm_num)
  · exact absurd rfl hs.1
  · cases h; exact hi.iout
  · -- envelope
    rw [bind_ok] at h
    obtain ⟨d, hd, h⟩ := h
    cases h
    obtain ⟨d, rfl, id, d0, d1⟩ := hg.deformFloat _ (pvalf_ok hd)
    obtain ⟨v, ev, v0, v1⟩ := hi.env.val
    rw [ev, sub_fin (by norm_num) (by rw [abs_of_nonneg d0]; norm_num; linarith), mul_fin (by rw [abs_of_nonneg (mul_nonneg d0 v0)]; norm_num; nlinarith)]
    have b1 := rne_unit (x := 1 - d) (by linarith) (by linarith)
    have m0 : 0 ≤ rne (d * v) := rne_nonneg (mul_nonneg d0 v0)
    have m1 : rne (d * v) ≤ d := by
      have := rne_mono (show d * v ≤ d by nlinarith)
      rwa [show rne d = d from id] at this
    have e := (abs_le.mp (ulp_small (x := 1 - d) (by rw [abs_of_nonneg (by linarith)]; linarith))).2
    have z0 : 0 ≤ rne (rne (1 - d) + rne (d * v)) := rne_nonneg (by linarith)
    have z1 := rne_mono (show rne (1 - d) + rne (d * v) ≤ 1 + 1 / 2 ^ 24 by linarith)
    have t : rne (1 + 1 / 2 ^ 24) = 1 := by decide +kernel
    rw [t] at z1
    exact ⟨_, add_fin (by rw [abs_of_nonneg (by linarith)]; norm_num; linarith), isF32_rne _, by linarith, z1⟩
  · exact absurd rfl hs.2

/-- Scaling to the output. -/
theorem finish_inv {E : Env} {r : Rand} {s t : St} {sh : Shape} {o : F32} (hi : OInv s) (hg : Spec.OutGood E r s.p) (hs : sh ≠ .stepseq) (ho : Spec.Between (-1) 1 o)
    (h : finish s sh o = .ok t) : OInv t ∧ (s.p.val .unipolar = .bool true → Spec.Between 0 1 t.output) := by
  obtain ⟨u, m, hu, hm, rfl⟩ := finish_ok h
  obtain ⟨m, rfl, m0, m1⟩ := hg.magnitude _ (pvalf_ok hm)
  obtain ⟨v, ev, v0, v1⟩ := hi.env.val
  obtain ⟨q, e1, _, q0, q1⟩ := mul_between (x := v) (y := m) 0 1 (by norm_num) (by norm_num) (by push_cast; positivity) (by push_cast; nlinarith)
  push_cast at q0 q1
  obtain ⟨o, rfl, io, o0, o1⟩ := ho
  have uni : Spec.Between 0 1 (F32.mul (.fin q) (F32.add (flit (1 / 2)) (F32.mul (flit (1 / 2)) (.fin o)))) := by
    rw [flit_half]
    have hh : |1 / 2 * o| ≤ 1 / 2 := by rw [abs_le]; constructor <;> linarith
    have r1 : -(1 / 2) ≤ rne (1 / 2 * o) := by
      have := rne_mono (show -(1 / 2) ≤ 1 / 2 * o by linarith)
      have t : rne (-(1 / 2)) = -(1 / 2) := by decide +kernel
      rwa [t] at this
    have r2 : rne (1 / 2 * o) ≤ 1 / 2 := by
      have := rne_mono (show 1 / 2 * o ≤ 1 / 2 by linarith)
      have t : rne (1 / 2) = 1 / 2 := by decide +kernel
      rwa [t] at this
    rw [mul_fin (hh.trans (by norm_num))]
    obtain ⟨w, e, _, w0, w1⟩ := add_between (x := 1 / 2) (y := rne (1 / 2 * o)) 0 1 (by norm_num) (by norm_num) (by push_cast; linarith) (by push_cast; linarith)
    rw [e]
    push_cast at w0 w1
    exact between_int (mul_between 0 1 (by norm_num) (by norm_num) (by push_cast; positivity) (by push_cast; nlinarith)) (by norm_num) (by norm_num)
  have bi : Spec.Between (-1) 1 (F32.mul (.fin q) (.fin o)) :=
    between_int (mul_between (-1) 1 (by norm_num) (by norm_num) (by push_cast; nlinarith) (by push_cast; nlinarith)) (by norm_num) (by norm_num)
  have wk : ∀ x, Spec.Between 0 1 x → Spec.Between (-1) 1 x := fun x ⟨q, a, b, c, d⟩ => ⟨q, a, b, by linarith, d⟩
  refine ⟨⟨⟨hi.env.st, hi.env.val, hi.env.ph⟩, hi.phase, hi.mult, ⟨o, rfl, io, o0, o1⟩, ?_⟩, ?_⟩
  · dsimp only
    rw [ev, e1]
    split
    · exact wk _ uni
    · exact bi
  · intro hb
    dsimp only
    have := pvalb_ok hu
    rw [hb] at this
    cases this
    rw [ev, e1, if_pos ⟨rfl, hs⟩]
    exact uni

theorem between_of_eq {a b : ℚ} {x y : F32} (h : Spec.Between a b x) (e : y = x) : Spec.Between a b y := by rw [e]; exact h

/-- Fields the envelope update leaves alone. -/
theorem updateEnv_frame {E : Env} {s t : St} (h : updateEnv E s = .ok t) : t.phase = s.phase ∧ t.ratemult = s.ratemult ∧ t.iout = s.iout ∧
    t.output = s.output ∧ t.step = s.step ∧ t.seq = s.seq ∧ t.wf0 = s.wf0 ∧ t.wf1 = s.wf1 ∧ t.retriggerFeg = s.retriggerFeg ∧ t.retriggerAeg = s.retriggerAeg ∧ t.shuffle = s.shuffle ∧
    t.wf2 = s.wf2 := by
  obtain ⟨r, i, _, _, rfl⟩ := updateEnv_ok h
  have k1 : ∀ (u : St) (x : F32), (envValue u x).phase = u.phase ∧ (envValue u x).ratemult = u.ratemult ∧ (envValue u x).iout = u.iout ∧
      (envValue u x).output = u.output ∧ (envValue u x).step = u.step ∧ (envValue u x).seq = u.seq ∧ (envValue u x).wf0 = u.wf0 ∧ (envValue u x).wf1 = u.wf1 ∧ (envValue u x).retriggerFeg = u.retriggerFeg ∧ (envValue u x).retriggerAeg = u.retriggerAeg ∧ (envValue u x).shuffle = u.shuffle ∧ (envValue u x).wf2 = u.wf2 := by
    intro u x; unfold envValue; split <;> simp
  have k2 : ∀ (u : St) (x : F32), (nextEnv u x).phase = u.phase ∧ (nextEnv u x).ratemult = u.ratemult ∧ (nextEnv u x).iout = u.iout ∧
      (nextEnv u x).output = u.output ∧ (nextEnv u x).step = u.step ∧ (nextEnv u x).seq = u.seq ∧ (nextEnv u x).wf0 = u.wf0 ∧ (nextEnv u x).wf1 = u.wf1 ∧ (nextEnv u x).retriggerFeg = u.retriggerFeg ∧ (nextEnv u x).retriggerAeg = u.retriggerAeg ∧ (nextEnv u x).shuffle = u.shuffle ∧ (nextEnv u x).wf2 = u.wf2 := by
    intro u x; unfold nextEnv; split <;> simp
  have := k1 (if F32.lt (.fin 1) (F32.add s.envPhase r) = true then nextEnv { s with envPhase := F32.add s.envPhase r } (F32.ofInt i) else { s with envPhase := F32.add s.envPhase r }) (F32.ofInt i)
  have g : ∀ u, u = (if F32.lt (.fin 1) (F32.add s.envPhase r) = true then nextEnv { s with envPhase := F32.add s.envPhase r } (F32.ofInt i) else { s with envPhase := F32.add s.envPhase r }) → u.phase = s.phase ∧ u.ratemult = s.ratemult ∧ u.iout = s.iout ∧ u.output = s.output ∧ u.step = s.step ∧ u.seq = s.seq ∧ u.wf0 = s.wf0 ∧ u.wf1 = s.wf1 ∧ u.retriggerFeg = s.retriggerFeg ∧ u.retriggerAeg = s.retriggerAeg ∧ u.shuffle = s.shuffle ∧ u.wf2 = s.wf2 := by
    intro u hu; subst hu
    split
    · have := k2 { s with envPhase := F32.add s.envPhase r } (F32.ofInt i); exact this
    · simp
  have := g _ rfl
  rw [(k1 _ _).1, (k1 _ _).2.1, (k1 _ _).2.2.1, (k1 _ _).2.2.2.1, (k1 _ _).2.2.2.2.1, (k1 _ _).2.2.2.2.2.1, (k1 _ _).2.2.2.2.2.2.1, (k1 _ _).2.2.2.2.2.2.2.1,
    (k1 _ _).2.2.2.2.2.2.2.2.1, (k1 _ _).2.2.2.2.2.2.2.2.2.1, (k1 _ _).2.2.2.2.2.2.2.2.2.2.1, (k1 _ _).2.2.2.2.2.2.2.2.2.2.2]
  exact this

theorem process_oinv {f : Nat} {E : Env} {r : Rand} {s t : St} (hi : OInv s) (hg : Spec.OutGood E r s.p) (h : process f E r s = .ok t) :
    OInv t ∧ (s.p.val .unipolar = .bool true → Spec.Between 0 1 t.output) := by
  obtain ⟨s0, s1, s2, s3, sh, q, o, h0, hsh, hq, e1, h2, h3, ho, hf⟩ := process_ok h
  have a0 := ensurePhase_inv hi hg h0
  have ep0 := (ensurePhase_env h0).p
  rw [← ep0] at hg ⊢
  have hs := getShape_ok hg hsh
  obtain ⟨q, rfl, q0, q1⟩ := hg.rate _ hq
  obtain ⟨ph, eph, iph, p0, p1⟩ := a0.phase
  -- phase advanced, in 0..2
  have b1 : EInv s1 := by rw [e1]; exact ⟨a0.env.st, a0.env.val, a0.env.ph⟩
  have b2 : Spec.Between 0 2 s1.phase := by
    rw [e1]; dsimp only
    rw [a0.mult, eph]
    obtain ⟨w, e, _, w0, w1⟩ := mul_between (x := q) (y := 1) 0 1 (by norm_num) (by norm_num) (by push_cast; linarith) (by push_cast; linarith)
    rw [e]
    push_cast at w0 w1
    exact between_int (add_between 0 2 (by norm_num) (by norm_num) (by push_cast; linarith) (by push_cast; linarith)) (by norm_num) (by norm_num)
  have b3 : s1.ratemult = .fin 1 := by rw [e1]; exact a0.mult
  have b4 : Spec.Between (-1) 1 s1.iout := by rw [e1]; exact a0.iout
  have b5 : Spec.Between (-1) 1 s1.output := by rw [e1]; exact a0.out
  have b6 : s1.p = s0.p := by rw [e1]
  have c : EInv s2 ∧ Spec.Between 0 2 s2.phase ∧ s2.ratemult = .fin 1 ∧ Spec.Between (-1) 1 s2.iout ∧ Spec.Between (-1) 1 s2.output ∧ s2.p = s0.p := by
    rcases h2 with ⟨_, rfl⟩ | ⟨hn, h2⟩
    · exact ⟨b1, b2, b3, b4, b5, b6⟩
    · have fr := updateEnv_frame h2
      refine ⟨(updateEnv_inv b1 hn (by rw [b6]; exact hg.env) h2).1, ?_, ?_, ?_, ?_, ?_⟩
      · rw [fr.1]; exact b2
      · rw [fr.2.1]; exact b3
      · rw [fr.2.2.1]; exact b4
      · rw [fr.2.2.2.1]; exact b5
      · rw [updateEnv_p h2]; exact b6
  obtain ⟨c1, c2, c3, c4, c5, c6⟩ := c
  have d : OInv s3 ∧ s3.p = s0.p := by
    obtain ⟨w, ew, iw, w0, w1⟩ := c2
    rcases h3 with ⟨hc, h3⟩ | ⟨hc, rfl⟩
    · have he := overOne_env h3
      have hw : 1 < w := by rw [ew] at hc; simpa [F32.lt] using hc
      have np : Spec.Between 0 1 (F32.sub s2.phase (.fin 1)) := by
        rw [ew]
        exact between_int (sub_between 0 1 (by norm_num) (by norm_num) (by push_cast; linarith) (by push_cast; linarith)) (by norm_num) (by norm_num)
      refine ⟨?_, he.p.trans c6⟩
      have ee := c1.same he
      unfold overOne at h3
      cases sh <;> dsimp only at h3
      case noise => exact absurd rfl hs.1
      case stepseq => exact absurd rfl hs.2
      case snh =>
        rw [bind_ok] at h3
        obtain ⟨_, _, h3⟩ := h3
        cases h3
        exact ⟨ee, np, c3, hg.noise, c5⟩
      all_goals cases h3; exact ⟨ee, np, c3, c4, c5⟩
    · refine ⟨⟨c1, ⟨w, ew, iw, w0, ?_⟩, c3, c4, c5⟩, c6⟩
      rw [ew] at hc
      simpa [F32.lt] using hc
  rw [← d.2] at hg ⊢
  exact finish_inv d.1 hg hs.2 (shapeOut_unit d.1 hg hs ho) hf

theorem attack_oinv {f : Nat} {E : Env} {r : Rand} {s t : St} (hi : OInv s) (hg : Spec.OutGood E r s.p) (h : attack f E r s = .ok t) : OInv t := by
  have ei := attack_inv h
  obtain ⟨s0, s1, s2, sh, m, start, rate, d, a, hh, h0, hsh, hst, _, _, h1, h2, h3⟩ := attack_ok h
  have a0 := ensurePhase_inv hi hg h0
  rw [← (ensurePhase_env h0).p] at hg
  have hs := getShape_ok hg hsh
  have b : EInv s1 ∧ Spec.Between 0 1 s1.phase ∧ s1.ratemult = .fin 1 ∧ Spec.Between (-1) 1 s1.iout ∧ Spec.Between (-1) 1 s1.output ∧ s1.p = s0.p := by
    have z : Spec.IsF32 0 := rne_zero
    have hz : ∃ v, F32.fin 0 = .fin v ∧ Spec.IsF32 v ∧ 0 ≤ v ∧ v ≤ 1 := ⟨0, rfl, z, by norm_num, by norm_num⟩
    have hz' : ∃ v, F32.fin 0 = .fin v ∧ 0 ≤ v ∧ v ≤ 1 := ⟨0, rfl, by norm_num, by norm_num⟩
    have ho' : ∃ v, F32.fin 1 = .fin v ∧ 0 ≤ v ∧ v ≤ 1 := ⟨1, rfl, by norm_num, by norm_num⟩
    rcases envForAttack_ok h1 with rfl | rfl | rfl | rfl
    · exact ⟨⟨by simp, ho', hz⟩, a0.phase, a0.mult, a0.iout, a0.out, rfl⟩
    · exact ⟨⟨by simp, ho', hz⟩, a0.phase, a0.mult, a0.iout, a0.out, rfl⟩
    · exact ⟨⟨by simp, hz', hz⟩, a0.phase, a0.mult, a0.iout, a0.out, rfl⟩
    · exact ⟨⟨by simp, hz', hz⟩, a0.phase, a0.mult, a0.iout, a0.out, rfl⟩
  obtain ⟨b0, b1, b2, b3, b4, b5⟩ := b
  have c : Spec.Between 0 1 s2.phase ∧ s2.ratemult = .fin 1 ∧ Spec.Between (-1) 1 s2.iout ∧ Spec.Between (-1) 1 s2.output := by
    unfold phaseForAttack at h2
    rw [bind_ok] at h2
    obtain ⟨sl, hsl, h2⟩ := h2
    have hsl' : Spec.Between 0 1 sl := by
      unfold phaseslider at hsl
      rw [if_neg hs.2] at hsl
      obtain ⟨q, rfl, i1, i2⟩ := hg.start _ (pvalf_ok hst)
      exact wrap_between i1 i2 hsl
    cases m <;> dsimp only at h2
    · unfold freeRun at h2
      simp only [bind_ok] at h2
      obtain ⟨_, _, h2⟩ := h2
      split at h2
      · cases h2
      · cases h2; exact ⟨b1, b2, b3, b4⟩
    · cases h2; exact ⟨hsl', b2, b3, b4⟩
    · unfold randomMode at h2
      split at h2
      · cases h2
      · cases h2; exact ⟨hg.randPhase, b2, b3, b4⟩
  obtain ⟨c1, c2, c3, c4⟩ := c
  obtain ⟨ph, ep, ip, p0, p1⟩ := c1
  have i2 : EInv s2 := b0.same (phaseForAttack_env h2)
  unfold attackShape at h3
  have f34 : flit (3 / 4) = .fin (3 / 4) := by decide +kernel
  have f14 : flit (1 / 4) = .fin (1 / 4) := by decide +kernel
  have shift : ∀ k : ℚ, 0 ≤ k → k ≤ 1 → Spec.Between 0 1 (if F32.lt (.fin 1) (F32.add (.fin ph) (.fin k)) = true then F32.sub (F32.add (.fin ph) (.fin k)) (.fin 1) else F32.add (.fin ph) (.fin k)) := by
    intro k k0 k1
    obtain ⟨w, ew, iw, w0, w1⟩ := add_between (x := ph) (y := k) 0 2 (by norm_num) (by norm_num) (by push_cast; linarith) (by push_cast; linarith)
    rw [ew]
    push_cast at w0 w1
    by_cases cc : F32.lt (.fin 1) (.fin w) = true
    · rw [if_pos cc]
      have : 1 < w := by simpa [F32.lt] using cc
      exact between_int (sub_between 0 1 (by norm_num) (by norm_num) (by push_cast; linarith) (by push_cast; linarith)) (by norm_num) (by norm_num)
    · rw [if_neg cc]
      have : w ≤ 1 := by simpa [F32.lt] using cc
      exact ⟨w, rfl, iw, w0, this⟩
  have one : Spec.IsF32 1 := by unfold Spec.IsF32; decide +kernel
  have mone : Spec.IsF32 (-1) := by unfold Spec.IsF32; decide +kernel
  cases sh <;> dsimp only at h3
  · unfold attackSine at h3
    rw [bind_ok] at h3
    obtain ⟨u, _, h3⟩ := h3
    cases h3
    refine ⟨ei, ?_, c2, c3, c4⟩
    dsimp only
    rw [ep]
    by_cases cu : u = true
    · rw [if_pos cu, f34]; exact shift _ (by norm_num) (by norm_num)
    · rw [if_neg cu]
      rw [if_neg (by simp [F32.lt, p1])]
      exact ⟨ph, rfl, ip, p0, p1⟩
  · unfold attackTri at h3
    rw [bind_ok] at h3
    obtain ⟨u, _, h3⟩ := h3
    split at h3
    · cases h3; exact ⟨ei, ⟨ph, ep, ip, p0, p1⟩, c2, c3, c4⟩
    · cases h3
      refine ⟨ei, ?_, c2, c3, c4⟩
      dsimp only
      rw [ep, f14]; exact shift _ (by norm_num) (by norm_num)
  · cases h3
    refine ⟨ei, ⟨ph, ep, ip, p0, p1⟩, c2, c3, ?_⟩
    dsimp only
    split
    · exact ⟨1, rfl, one, by norm_num, by norm_num⟩
    · exact ⟨-1, rfl, mone, by norm_num, by norm_num⟩
  · cases h3
    refine ⟨ei, ⟨ph, ep, ip, p0, p1⟩, c2, c3, ?_⟩
    dsimp only
    rw [ep]
    obtain ⟨q, e, _, q0, q1⟩ := mul_between (x := ph) (y := 2) 0 2 (by norm_num) (by norm_num) (by push_cast; linarith) (by push_cast; linarith)
    rw [e]
    push_cast at q0 q1
    exact between_int (sub_between (-1) 1 (by norm_num) (by norm_num) (by push_cast; linarith) (by push_cast; linarith)) (by norm_num) (by norm_num)
  · exact absurd rfl hs.1
  · rw [bind_ok] at h3
    obtain ⟨_, _, h3⟩ := h3
    cases h3
    exact ⟨ei, ⟨ph, ep, ip, p0, p1⟩, c2, hg.noise, c4⟩
  · cases h3
    refine ⟨ei, ⟨ph, ep, ip, p0, p1⟩, c2, c3, ?_⟩
    dsimp only
    -- the envelope level is 0 or 1 here
    obtain ⟨_, _, e3⟩ := attack_env h
    dsimp only at e3
    rcases e3 with ⟨_, e⟩ | ⟨_, e⟩ | ⟨_, e⟩ | ⟨_, e⟩ <;> rw [e]
    · exact ⟨0, rfl, rne_zero, by norm_num, by norm_num⟩
    · exact ⟨0, rfl, rne_zero, by norm_num, by norm_num⟩
    · exact ⟨1, rfl, one, by norm_num, by norm_num⟩
    · exact ⟨1, rfl, one, by norm_num, by norm_num⟩
  · exact absurd rfl hs.2

theorem runs_oinv : ∀ (os : List Op) {s t : St}, OInv s → Spec.Good Spec.OutGood s.p os → runs os s = .ok t → OInv t := by
  intro os
  induction os with
  | nil => intro s t hi _ h; cases h; exact hi
  | cons o os ih =>
    intro s t hi hh h
    rw [runs, bind_ok] at h
    obtain ⟨u, hu, h⟩ := h
    cases o with
    | attack f E' r =>
      refine ih (attack_oinv hi hh.1 hu) ?_ h
      rw [(attack_env hu).1]; exact hh.2
    | block f E' r =>
      refine ih (process_oinv hi hh.1 hu).1 ?_ h
      rw [process_p hu]; exact hh.2
    | edit p =>
      cases hu
      exact ih (s := { s with p := p }) ⟨⟨hi.env.st, hi.env.val, hi.env.ph⟩, hi.phase, hi.mult, hi.iout, hi.out⟩ hh h
    | pattern q =>
      cases hu
      exact ih (s := { s with seq := q }) ⟨⟨hi.env.st, hi.env.val, hi.env.ph⟩, hi.phase, hi.mult, hi.iout, hi.out⟩ hh h

theorem oinv_new (p : Params) : OInv (new p) := by
  have z : Spec.IsF32 0 := rne_zero
  exact ⟨⟨by simp [new], ⟨0, rfl, by norm_num, by norm_num⟩, ⟨0, rfl, z, by norm_num, by norm_num⟩⟩, ⟨0, rfl, z, by norm_num, by norm_num⟩, rfl,
    ⟨0, rfl, z, by norm_num, by norm_num⟩, ⟨0, rfl, z, by norm_num, by norm_num⟩⟩

/-- C72: in every history of attacks, blocks and parameter changes (no release; shapes other than noise and step sequence; parameters in range)
the phase stays in 0..1 and the output in -1..1. -/
theorem C72_phase_and_output_partial (p : Params) (os : List Op) (s : St) (hp : Spec.Good Spec.OutGood p os) (h : runs os (new p) = .ok s) :
    (∃ q, s.phase = .fin q ∧ 0 ≤ q ∧ q ≤ 1) ∧ ∃ q, s.output = .fin q ∧ -1 ≤ q ∧ q ≤ 1 := by
  have i := runs_oinv os (oinv_new p) hp h
  obtain ⟨a, b, _, c⟩ := i.phase
  obtain ⟨a', b', _, c'⟩ := i.out
  exact ⟨⟨a, b, c⟩, a', b', c'⟩

/-- C72: and the output of a block in unipolar mode is not negative. -/
theorem C72_unipolar_partial (p : Params) (os : List Op) (s t : St) (hp : Spec.Good Spec.OutGood p os) (h : runs os (new p) = .ok s) (fuel : Nat) (E : Env) (r : Rand)
    (hg : Spec.OutGood E r s.p) (hu : s.p.val .unipolar = .bool true) (hb : process fuel E r s = .ok t) : ∃ q, t.output = .fin q ∧ 0 ≤ q ∧ q ≤ 1 := by
  have i := runs_oinv os (oinv_new p) hp h
  obtain ⟨a, b, _, c⟩ := (process_oinv i hg hb).2 hu
  exact ⟨a, b, c⟩

/-- C72 (refuted): what the oscillator delivers to the modulation system is always 0, whatever it has computed. -/
theorem C72_delivers_zero (s : St) : getOutput s = .fin 0 := rfl

/-- C72 (refuted for a negative deform of the envelope shape): with deform -1 the wave is `2 - level`, above 1 for every level below 1. -/
theorem C72_envelope_exceeds_one (E : Env) (s : St) {v : ℚ} (hd : s.p.val .deform = .float (.fin (-1))) (hv : s.envVal = .fin v) (iv : Spec.IsF32 v)
    (v0 : 0 ≤ v) (v1 : v ≤ 15 / 16) : ∃ w, shapeOut E s .envelope = .ok (.fin w) ∧ 1 < w := by
  have c : F32.sub (.fin 1) (.fin (-1)) = .fin 2 := by decide +kernel
  refine ⟨rne (2 + -v), ?_, ?_⟩
  · unfold shapeOut
    dsimp only
    rw [hd, hv]
    simp only [pvalf, Res.ok_bind]
    rw [c, mul_fin (by rw [abs_mul, abs_of_nonneg v0]; norm_num; linarith), show -1 * v = -v by ring, rne_neg, show rne v = v from iv,
      add_fin (by rw [abs_of_nonneg (by linarith)]; norm_num; linarith)]
  · have := rne_mono (show (17 / 16 : ℚ) ≤ 2 + -v by linarith)
    have t : rne (17 / 16) = 17 / 16 := by decide +kernel
    rw [t] at this; linarith

/-! ## The noise shape -/

/-- Full magnitude, start phase 1, noise shape, envelope at full level from the second block on. -/
def noiseParams : Params where
  val k := match k with
    | .shape => .int 4
    | .trigmode => .int 1
    | .unipolar => .bool false
    | .sustain => .int 1
    | .deform => .float (.fin 0)
    | .startPhase => .float (.fin 1)
    | .magnitude => .float (.fin 1)
    | .rate => .float (.fin (1 / 4))
    | _ => .float (.fin 0)
  min _ := .float (.fin 0)
  max _ := .float (.fin 1)
  sync _ := false

/-- Rates are taken as they are. -/
def noiseEnv : Env := ⟨fun x => x, fun x => F32.mul x (.fin (1 / 2)), fun _ => .fin 1, .fin 1, .fin 0⟩

/-- Four random values, all of size 1. -/
def noiseRand : Rand := ⟨.fin 0, fun i => if i = 0 ∨ i = 3 then .fin (-1) else .fin 1⟩

/-- C72 (refuted for the noise shape): a key press and two blocks with every parameter in range and every random value of size at most 1 give an
output of 1.5, because the curve through the random values overshoots them. -/
theorem C72_noise_overshoots_refuted : (∀ i, Spec.Between (-1) 1 (noiseRand.noise i)) ∧
    ∃ s, runs [.attack 3 noiseEnv noiseRand, .block 3 noiseEnv noiseRand, .block 3 noiseEnv noiseRand] (new noiseParams) = .ok s ∧ s.output = .fin (3 / 2) := by
  refine ⟨fun i => ?_, ?_⟩
  · unfold noiseRand
    by_cases h : i = 0 ∨ i = 3
    · exact ⟨-1, by simp only [if_pos h], by unfold Spec.IsF32; decide +kernel, by norm_num, by norm_num⟩
    · exact ⟨1, by simp only [if_neg h], by unfold Spec.IsF32; decide +kernel, by norm_num, by norm_num⟩
  · have h : (match runs [.attack 3 noiseEnv noiseRand, .block 3 noiseEnv noiseRand, .block 3 noiseEnv noiseRand] (new noiseParams) with
      | .ok s => s.output
      | _ => F32.nan) = .fin (3 / 2) := by decide +kernel
    split at h
    · rename_i s e
      exact ⟨s, e, h⟩
    · cases h

/-! ## The hypotheses are met -/

theorem demo_out (i : Int) (d : PData) (u : Bool) (hi : i ≠ 4 ∧ i ≠ 7) (hd : d = .int (-1) ∨ d = .float (.fin (1 / 2))) :
    Spec.OutGood demoEnv ⟨.fin (1 / 2), fun _ => .fin (1 / 4)⟩ (demoParams (.int i) d u) where
  env := demo_env _ _ _
  rate := fun v hv => ⟨1 / 4, demo_rate _ _ _ _ v hv, by norm_num, by norm_num⟩
  magnitude := fun m h => by simp only [demoParams, PData.float.injEq] at h; exact ⟨1 / 2, h.symm, by norm_num, by norm_num⟩
  deformInt := fun i h => by
    rcases hd with rfl | rfl <;> simp [demoParams] at h
    simp [← h]
  deformFloat := fun i h => by
    rcases hd with rfl | rfl <;> simp [demoParams] at h
    exact ⟨1 / 2, by rw [← h]; norm_num, by unfold Spec.IsF32; decide +kernel, by norm_num, by norm_num⟩
  start := fun x h => by
    simp only [demoParams, PData.float.injEq] at h
    exact ⟨-5 / 2, h.symm, by unfold Spec.IsF32; decide +kernel, by rw [abs_lt]; norm_num⟩
  shape := fun j h => by simp only [demoParams, PData.int.injEq] at h; rw [← h]; exact hi
  table := fun x ⟨q, e, iq, a, b⟩ => by
    rw [e]
    exact between_int (mul_between (x := q) (y := 1 / 2) (-1) 1 (by norm_num) (by norm_num) (by push_cast; linarith) (by push_cast; linarith)) (by norm_num) (by norm_num)
  randPhase := ⟨1 / 2, rfl, by unfold Spec.IsF32; decide +kernel, by norm_num, by norm_num⟩
  noise := ⟨1 / 4, rfl, by unfold Spec.IsF32; decide +kernel, by norm_num, by norm_num⟩

/-- C72_phase_and_output_partial, C72_unipolar_partial: a history with a note and several blocks, ending with a non-zero unipolar output. -/
example : ∃ p os s t, Spec.Good Spec.OutGood p os ∧ runs os (new p) = .ok s ∧ Spec.OutGood demoEnv ⟨.fin (1 / 2), fun _ => .fin (1 / 4)⟩ s.p ∧
    s.p.val .unipolar = .bool true ∧ process 9 demoEnv ⟨.fin (1 / 2), fun _ => .fin (1 / 4)⟩ s = .ok t ∧ os.length = 8 := by
  have h : (runs (.attack 9 demoEnv ⟨.fin (1 / 2), fun _ => .fin (1 / 4)⟩ :: List.replicate 7 (.block 9 demoEnv ⟨.fin (1 / 2), fun _ => .fin (1 / 4)⟩)) (new (demoParams (.int 1) (.int (-1)) true)) >>= process 9 demoEnv ⟨.fin (1 / 2), fun _ => .fin (1 / 4)⟩).isOk = true := by
    decide +kernel
  obtain ⟨t, ht⟩ := exists_of_isOk h
  rw [bind_ok] at ht
  obtain ⟨s, hs, ht⟩ := ht
  have d := demo_out 1 (.int (-1)) true (by norm_num) (.inl rfl)
  have hp : s.p = demoParams (.int 1) (.int (-1)) true := by
    simp only [runs, bind_ok, Op.run, List.replicate] at hs
    obtain ⟨a, ha, b, hb, c, hc, e, he, f, hf, g, hg, i, hi, j, hj, hs⟩ := hs
    cases hs
    rw [process_p hj, process_p hi, process_p hg, process_p hf, process_p he, process_p hc, process_p hb, (attack_env ha).1]; rfl
  refine ⟨_, _, s, t, ?_, hs, by rw [hp]; exact d, by rw [hp]; rfl, ht, rfl⟩
  exact ⟨d, d, d, d, d, d, d, d, trivial⟩

/-- C72_envelope_exceeds_one. -/
example : ∃ s : St, s.p.val .deform = .float (.fin (-1)) ∧ s.envVal = .fin 0 ∧ Spec.IsF32 0 :=
  ⟨new (demoParams (.int 6) (.float (.fin (-1))) false), rfl, rfl, rne_zero⟩

end Verif.Lfo
