import Verif.Halfrate.Poly
import Verif.Halfrate.Response
import Mathlib.Analysis.SpecialFunctions.Pow.Real
import Mathlib.Analysis.SpecialFunctions.Trigonometric.Inverse
import Mathlib.Analysis.Real.Pi.Bounds
/-!
# Stop-band rejection of the coefficient tables (C111)
-/
namespace Verif.Halfrate

open Poly (P Pair ev nonnegOn nonnegOn_sound)
open Complex (exp I)

/-! ## The response as polynomials in `cos ω` -/

/-- A coefficient as an integer multiple of `2⁻⁴⁰`. -/
def scaled (q : ℚ) : ℤ := (asF32 q * 2 ^ 40).num

def exactScaled (l : List ℚ) : Bool := l.all fun q => decide ((scaled q : ℚ) = asF32 q * 2 ^ 40)

def numPair (A : ℤ) : Pair := ⟨[A - 2 ^ 40, 0, 2 * 2 ^ 40], [0, 2 * 2 ^ 40]⟩
def denPair (A : ℤ) : Pair := ⟨[2 ^ 40 - A, 0, 2 * A], [0, 2 * A]⟩
def onePair : Pair := ⟨[1], []⟩
def delayPair : Pair := ⟨[0, 1], [1]⟩

def numChain (l : List ℤ) : Pair := l.foldr (fun A p => (numPair A).mul p) onePair
def denChain (l : List ℤ) : Pair := l.foldr (fun A p => (denPair A).mul p) onePair

def numAll (a b : List ℤ) : Pair := ((numChain a).mul (denChain b)).add (delayPair.mul ((numChain b).mul (denChain a)))
def denAll (a b : List ℤ) : Pair := (denChain a).mul (denChain b)

theorem delay_val (ω : ℝ) : Spec.delay ω = ⟨Real.cos ω, -Real.sin ω⟩ := by
  have : Spec.delay ω = exp (((-ω : ℝ) : ℂ) * I) := by rw [Spec.delay]; congr 1; push_cast; ring
  rw [this]
  apply Complex.ext
  · rw [Complex.exp_ofReal_mul_I_re, Real.cos_neg]
  · rw [Complex.exp_ofReal_mul_I_im, Real.sin_neg]

theorem delay_sq (ω : ℝ) : Spec.delay ω ^ 2 = ⟨2 * Real.cos ω ^ 2 - 1, -(2 * Real.sin ω * Real.cos ω)⟩ := by
  have h := Real.sin_sq_add_cos_sq ω
  rw [delay_val, sq]
  apply Complex.ext
  · simp only [Complex.mul_re]; nlinarith
  · simp only [Complex.mul_im]; ring

theorem num_val {a : ℝ} {A : ℤ} (h : (A : ℝ) = 2 ^ 40 * a) (ω : ℝ) :
    (numPair A).val (Real.cos ω) (Real.sin ω) = 2 ^ 40 * (Spec.delay ω ^ 2 + (a : ℂ)) := by
  rw [delay_sq]
  have two : (2 : ℂ) ^ 40 = (((2 : ℝ) ^ 40 : ℝ) : ℂ) := by push_cast; rfl
  rw [two]
  apply Complex.ext
  · simp only [Pair.val, numPair, Poly.ev_cons, Poly.ev_nil, Complex.re_ofReal_mul, Complex.add_re, Complex.ofReal_re]
    push_cast; rw [h]; ring
  · simp only [Pair.val, numPair, Poly.ev_cons, Poly.ev_nil, Complex.im_ofReal_mul, Complex.add_im, Complex.ofReal_im]
    push_cast; ring

theorem den_val {a : ℝ} {A : ℤ} (h : (A : ℝ) = 2 ^ 40 * a) (ω : ℝ) :
    (denPair A).val (Real.cos ω) (Real.sin ω) = 2 ^ 40 * (1 + (a : ℂ) * Spec.delay ω ^ 2) := by
  rw [delay_sq]
  have two : (2 : ℂ) ^ 40 = (((2 : ℝ) ^ 40 : ℝ) : ℂ) := by push_cast; rfl
  rw [two]
  apply Complex.ext
  · simp only [Pair.val, denPair, Poly.ev_cons, Poly.ev_nil, Complex.re_ofReal_mul, Complex.add_re, Complex.one_re]
    push_cast; rw [h]; ring
  · simp only [Pair.val, denPair, Poly.ev_cons, Poly.ev_nil, Complex.im_ofReal_mul, Complex.add_im, Complex.one_im]
    push_cast; rw [h]; ring

theorem one_val (c s : ℝ) : onePair.val c s = 1 := by
  apply Complex.ext <;> simp [onePair, Pair.val]

theorem chain_val {l : List ℚ} (hs : exactScaled l = true) (hl : ∀ c ∈ Spec.rounded l, |c| < 1) (ω : ℝ) :
    (denChain (l.map scaled)).val (Real.cos ω) (Real.sin ω) ≠ 0 ∧
    (numChain (l.map scaled)).val (Real.cos ω) (Real.sin ω) =
      Spec.chainResponse (Spec.rounded l) ω * (denChain (l.map scaled)).val (Real.cos ω) (Real.sin ω) := by
  have hcs := Real.sin_sq_add_cos_sq ω
  induction l with
  | nil =>
    have e1 : numChain (([] : List ℚ).map scaled) = onePair := rfl
    have e2 : denChain (([] : List ℚ).map scaled) = onePair := rfl
    rw [e1, e2, one_val]
    exact ⟨one_ne_zero, by simp [Spec.chainResponse, Spec.rounded]⟩
  | cons q l ih =>
    rw [exactScaled, List.all_cons, Bool.and_eq_true] at hs
    obtain ⟨i1, i2⟩ := ih hs.2 (fun c hc => hl c (List.mem_cons_of_mem _ hc))
    have hq : ((scaled q : ℤ) : ℝ) = 2 ^ 40 * ((asF32 q : ℚ) : ℝ) := by
      have := of_decide_eq_true hs.1
      have := congrArg (fun x : ℚ => (x : ℝ)) this
      push_cast at this
      linarith
    have e1 : numChain ((q :: l).map scaled) = (numPair (scaled q)).mul (numChain (l.map scaled)) := rfl
    have e2 : denChain ((q :: l).map scaled) = (denPair (scaled q)).mul (denChain (l.map scaled)) := rfl
    have e3 : Spec.chainResponse (Spec.rounded (q :: l)) ω =
      (Spec.delay ω ^ 2 + (((asF32 q : ℚ) : ℝ) : ℂ)) / (1 + (((asF32 q : ℚ) : ℝ) : ℂ) * Spec.delay ω ^ 2) * Spec.chainResponse (Spec.rounded l) ω := rfl
    have hne := den_ne (hl _ (List.mem_cons_self ..)) ω
    rw [e1, e2, e3, Pair.val_mul _ _ hcs, Pair.val_mul _ _ hcs, num_val hq, den_val hq, i2]
    refine ⟨mul_ne_zero (mul_ne_zero (by norm_num) hne) i1, ?_⟩
    have key := div_mul_cancel₀ (Spec.delay ω ^ 2 + (((asF32 q : ℚ) : ℝ) : ℂ)) hne
    linear_combination (-(2 ^ 40 * Spec.chainResponse (Spec.rounded l) ω * (denChain (l.map scaled)).val (Real.cos ω) (Real.sin ω))) * key

theorem response_val {a b : List ℚ} (ha : exactScaled a = true) (hb : exactScaled b = true) (ha1 : ∀ c ∈ Spec.rounded a, |c| < 1)
    (hb1 : ∀ c ∈ Spec.rounded b, |c| < 1) (ω : ℝ) :
    0 < ev (denAll (a.map scaled) (b.map scaled)).nsq (Real.cos ω) ∧
    ‖Spec.response (Spec.rounded a) (Spec.rounded b) ω‖ ^ 2 * (4 * ev (denAll (a.map scaled) (b.map scaled)).nsq (Real.cos ω)) =
      ev (numAll (a.map scaled) (b.map scaled)).nsq (Real.cos ω) := by
  have hcs := Real.sin_sq_add_cos_sq ω
  obtain ⟨a1, a2⟩ := chain_val ha ha1 ω
  obtain ⟨b1, b2⟩ := chain_val hb hb1 ω
  rw [Pair.val_nsq _ hcs, Pair.val_nsq _ hcs]
  have hD : (denAll (a.map scaled) (b.map scaled)).val (Real.cos ω) (Real.sin ω) =
    (denChain (a.map scaled)).val (Real.cos ω) (Real.sin ω) * (denChain (b.map scaled)).val (Real.cos ω) (Real.sin ω) := Pair.val_mul _ _ hcs
  have hz : delayPair.val (Real.cos ω) (Real.sin ω) = Spec.delay ω := by
    rw [delay_val]; apply Complex.ext <;> simp [delayPair, Pair.val]
  have hN : (numAll (a.map scaled) (b.map scaled)).val (Real.cos ω) (Real.sin ω) =
      2 * Spec.response (Spec.rounded a) (Spec.rounded b) ω * (denAll (a.map scaled) (b.map scaled)).val (Real.cos ω) (Real.sin ω) := by
    rw [hD, numAll, Pair.val_add, Pair.val_mul _ _ hcs, Pair.val_mul _ _ hcs, Pair.val_mul _ _ hcs, a2, b2, hz, Spec.response]
    ring
  refine ⟨?_, ?_⟩
  · rw [hD]; exact Complex.normSq_pos.2 (mul_ne_zero a1 b1)
  · rw [hN, Complex.normSq_mul, Complex.normSq_mul, Complex.normSq_eq_norm_sq (Spec.response ..)]
    have : Complex.normSq 2 = 4 := by
      rw [Complex.normSq_ofNat]; norm_num
    rw [this]; ring

/-- `4 e |D|² - 10²⁰ |N|²`: nonnegative where the squared response is at most `e / 10²⁰`. -/
def margin (e : ℤ) (a b : List ℚ) : P :=
  Poly.add (Poly.smul (4 * e) (denAll (a.map scaled) (b.map scaled)).nsq) (Poly.smul (-10 ^ 20) (numAll (a.map scaled) (b.map scaled)).nsq)

/-- The kernel computation: the margin is nonnegative for `cos ω` up to `-lo / 2²⁰`. -/
def certified (lo e : ℤ) (a b : List ℚ) : Bool :=
  exactScaled a && exactScaled b && nonnegOn 12 (-2 ^ 20 - 1) (-lo) (2 ^ 20) (margin e a b)

theorem certified_sound {lo e : ℤ} {a b : List ℚ} (h : certified lo e a b = true) (hlo : lo < 2 ^ 20) (ha1 : ∀ c ∈ Spec.rounded a, |c| < 1)
    (hb1 : ∀ c ∈ Spec.rounded b, |c| < 1) {ω : ℝ} (hω : Real.cos ω ≤ -(lo : ℝ) / 2 ^ 20) :
    ‖Spec.response (Spec.rounded a) (Spec.rounded b) ω‖ ^ 2 ≤ e / 10 ^ 20 := by
  rw [certified, Bool.and_eq_true, Bool.and_eq_true] at h
  obtain ⟨⟨ha, hb⟩, hc⟩ := h
  obtain ⟨hp, he⟩ := response_val ha hb ha1 hb1 ω
  have hm := nonnegOn_sound hc (by norm_num) (by linarith) (c := Real.cos ω) (by
    have := Real.neg_one_le_cos ω
    push_cast
    rw [div_lt_iff₀ (by norm_num)]; linarith) (by push_cast; norm_num at hω ⊢; exact hω)
  rw [margin, Poly.ev_add, Poly.ev_smul, Poly.ev_smul, ← he] at hm
  push_cast at hm
  rw [le_div_iff₀ (by norm_num)]
  set D := ev (denAll (a.map scaled) (b.map scaled)).nsq (Real.cos ω)
  by_contra hn
  push Not at hn
  nlinarith [mul_lt_mul_of_pos_right hn hp]

/-- The kernel computation for a lower bound: the margin is nonpositive for `cos ω` in `(-hi, -lo] / 2²⁰`. -/
def exceeded (lo hi e : ℤ) (a b : List ℚ) : Bool :=
  exactScaled a && exactScaled b && nonnegOn 12 (-hi) (-lo) (2 ^ 20) (Poly.smul (-1) (margin e a b))

theorem exceeded_sound {lo hi e : ℤ} {a b : List ℚ} (h : exceeded lo hi e a b = true) (hlo : lo < hi) (ha1 : ∀ c ∈ Spec.rounded a, |c| < 1)
    (hb1 : ∀ c ∈ Spec.rounded b, |c| < 1) {ω : ℝ} (h1 : -(hi : ℝ) / 2 ^ 20 < Real.cos ω) (h2 : Real.cos ω ≤ -(lo : ℝ) / 2 ^ 20) :
    e / 10 ^ 20 ≤ ‖Spec.response (Spec.rounded a) (Spec.rounded b) ω‖ ^ 2 := by
  rw [exceeded, Bool.and_eq_true, Bool.and_eq_true] at h
  obtain ⟨⟨ha, hb⟩, hc⟩ := h
  obtain ⟨hp, he⟩ := response_val ha hb ha1 hb1 ω
  have hm := nonnegOn_sound hc (by norm_num) (by linarith) (c := Real.cos ω) (by push_cast; norm_num at h1 ⊢; exact h1)
    (by push_cast; norm_num at h2 ⊢; exact h2)
  rw [Poly.ev_smul, margin, Poly.ev_add, Poly.ev_smul, Poly.ev_smul, ← he] at hm
  push_cast at hm
  rw [div_le_iff₀ (by norm_num)]
  set D := ev (denAll (a.map scaled) (b.map scaled)).nsq (Real.cos ω)
  by_contra hn
  push Not at hn
  nlinarith [mul_lt_mul_of_pos_right hn hp]

/-! ## Specification -/

/-- What the names of the loader functions in softer.rs and steep.rs promise: rejection in dB, and the width of the transition band as
a fraction of the sample rate. -/
def Spec.advertised : Bool → ℕ → ℕ × ℚ
  | false, 1 => (36, 0.1)
  | false, 2 => (70, 0.1)
  | false, 3 => (80, 0.05)
  | false, 4 => (106, 0.05)
  | false, 5 => (133, 0.05)
  | false, 6 => (150, 0.05)
  | true, 1 => (36, 0.1)
  | true, 2 => (53, 0.05)
  | true, 3 => (51, 0.01)
  | true, 4 => (69, 0.01)
  | true, 5 => (86, 0.01)
  | true, 6 => (104, 0.01)
  | _, _ => (0, 0)

/-- The stop band of a half-band filter: from half a transition band above a quarter of the sample rate, up to half the sample rate. -/
def Spec.StopBand (width : ℚ) (ω : ℝ) : Prop := Real.pi / 2 + Real.pi * width ≤ ω ∧ ω ≤ Real.pi

/-- A gain of `-dB` decibels. -/
noncomputable def Spec.down (dB : ℕ) : ℝ := (10 : ℝ) ^ (-(dB : ℝ) / 20)

/-- The rejection the tables really reach, in whole dB. -/
def Spec.reached : Bool → ℕ → ℕ
  | false, 2 => 68
  | false, 5 => 97
  | false, 6 => 139
  | true, 6 => 103
  | st, m => (Spec.advertised st m).1

/-! ## From squares to decibels -/

theorem down_pow (dB : ℕ) : Spec.down dB ^ 20 = ((10 : ℝ) ^ dB)⁻¹ := by
  rw [Spec.down, ← Real.rpow_natCast, ← Real.rpow_mul (by norm_num)]
  have : -(dB : ℝ) / 20 * ((20 : ℕ) : ℝ) = -(dB : ℝ) := by push_cast; ring
  rw [this, Real.rpow_neg (by norm_num), Real.rpow_natCast]

theorem down_pos (dB : ℕ) : 0 < Spec.down dB := Real.rpow_pos_of_pos (by norm_num) _

theorem le_down {h e : ℝ} {dB : ℕ} (he : h ^ 2 ≤ e) (h10 : e ^ 10 * 10 ^ dB ≤ 1) : h ≤ Spec.down dB := by
  refine le_of_pow_le_pow_left₀ (n := 20) (by norm_num) (down_pos dB).le ?_
  have p : (0 : ℝ) < 10 ^ dB := by positivity
  have h20 : h ^ 20 = (h ^ 2) ^ 10 := by ring
  have : (h ^ 2) ^ 10 ≤ e ^ 10 := pow_le_pow_left₀ (sq_nonneg h) he 10
  rw [down_pow, h20, ← one_div, le_div_iff₀ p]
  nlinarith

theorem down_lt {h e : ℝ} {dB : ℕ} (h0 : 0 ≤ h) (he : e ≤ h ^ 2) (e0 : 0 ≤ e) (h10 : 1 < e ^ 10 * 10 ^ dB) : Spec.down dB < h := by
  refine lt_of_pow_lt_pow_left₀ 20 h0 ?_
  rw [down_pow]
  have h20 : h ^ 20 = (h ^ 2) ^ 10 := by ring
  have : e ^ 10 ≤ (h ^ 2) ^ 10 := pow_le_pow_left₀ e0 he 10
  rw [h20]
  have p : (0 : ℝ) < 10 ^ dB := by positivity
  rw [inv_lt_iff_one_lt_mul₀ p]
  nlinarith

/-! ## The edge of the stop band -/

theorem sin_lower {x y : ℝ} (h0 : 0 ≤ x) (hxy : x ≤ y) (h1 : x ≤ 1) (hy : y ≤ Real.pi / 2) : x - x ^ 3 / 6 - x ^ 5 / 100 ≤ Real.sin y := by
  have a := (abs_le.1 (Real.sin_bound (x := x) (by rw [abs_of_nonneg h0]; exact h1))).1
  rw [abs_of_nonneg h0] at a
  have := Real.sin_le_sin_of_le_of_le_pi_div_two (by linarith [Real.pi_pos]) hy hxy
  linarith

theorem sin_upper {x y : ℝ} (h0 : 0 ≤ y) (hxy : y ≤ x) (h1 : x ≤ 1) : Real.sin y ≤ x - x ^ 3 / 6 + x ^ 5 / 100 := by
  have a := (abs_le.1 (Real.sin_bound (x := x) (by rw [abs_of_nonneg (h0.trans hxy)]; exact h1))).2
  rw [abs_of_nonneg (h0.trans hxy)] at a
  have := Real.sin_le_sin_of_le_of_le_pi_div_two (by linarith [Real.pi_pos]) (h1.trans (by linarith [Real.pi_gt_d2])) hxy
  linarith

theorem stop_cos {w : ℚ} {ω x : ℝ} {lo : ℤ} (h : Spec.StopBand w ω) (x0 : 0 ≤ x) (x1 : x ≤ 1) (hx : x ≤ Real.pi * w) (hw : (w : ℝ) ≤ 1 / 2)
    (hlo : (lo : ℝ) / 2 ^ 20 ≤ x - x ^ 3 / 6 - x ^ 5 / 100) : Real.cos ω ≤ -(lo : ℝ) / 2 ^ 20 := by
  have hpi := Real.pi_pos
  have e : Real.cos ω ≤ Real.cos (Real.pi / 2 + Real.pi * w) := Real.cos_le_cos_of_nonneg_of_le_pi (by nlinarith) h.2 h.1
  rw [add_comm, Real.cos_add_pi_div_two] at e
  have := sin_lower x0 hx x1 (by nlinarith)
  rw [neg_div]; linarith

/-! ## The certificates -/

theorem cert_softer1 : (table false (1 * 2)).any (fun p => certified 323459 25118864315095801 p.1 p.2) = true := by decide +kernel
theorem cert_softer2 : (table false (2 * 2)).any (fun p => certified 323459 15848931924611 p.1 p.2) = true := by decide +kernel
theorem cert_softer3 : (table false (3 * 2)).any (fun p => certified 163994 1000000000000 p.1 p.2) = true := by decide +kernel
theorem cert_softer4 : (table false (4 * 2)).any (fun p => certified 163994 2511886431 p.1 p.2) = true := by decide +kernel
theorem cert_softer5 : (table false (5 * 2)).any (fun p => certified 163994 19952623149 p.1 p.2) = true := by decide +kernel
theorem cert_softer6 : (table false (6 * 2)).any (fun p => certified 163994 1258925 p.1 p.2) = true := by decide +kernel
theorem cert_steep1 : (table true (1 * 2)).any (fun p => certified 323459 25118864315095801 p.1 p.2) = true := by decide +kernel
theorem cert_steep2 : (table true (2 * 2)).any (fun p => certified 163994 501187233627272 p.1 p.2) = true := by decide +kernel
theorem cert_steep3 : (table true (3 * 2)).any (fun p => certified 32935 794328234724281 p.1 p.2) = true := by decide +kernel
theorem cert_steep4 : (table true (4 * 2)).any (fun p => certified 32935 12589254117941 p.1 p.2) = true := by decide +kernel
theorem cert_steep5 : (table true (5 * 2)).any (fun p => certified 32935 251188643150 p.1 p.2) = true := by decide +kernel
theorem cert_steep6 : (table true (6 * 2)).any (fun p => certified 32935 5011872336 p.1 p.2) = true := by decide +kernel

theorem any_some {o : Option (List ℚ × List ℚ)} {f : List ℚ × List ℚ → Bool} {a b : List ℚ} (h : o.any f = true) (e : o = some (a, b)) : f (a, b) = true := by
  subst e; exact h

/-! ## Claims -/

/-- **C111.**  Every coefficient table rejects every frequency of its stop band by the stated number of dB; these are the advertised numbers
except for four tables (see `C111_shortfall`). -/
theorem C111_reached {st : Bool} {m : ℕ} {a b : List ℚ} (h : table st (m * 2) = some (a, b)) {ω : ℝ}
    (hω : Spec.StopBand (Spec.advertised st m).2 ω) :
    ‖Spec.response (Spec.rounded a) (Spec.rounded b) ω‖ ≤ Spec.down (Spec.reached st m) := by
  obtain ⟨-, -, h0, h6⟩ := table_length h
  obtain ⟨ha, hb⟩ := rounded_stable h
  have c10 : Spec.StopBand 0.1 ω → Real.cos ω ≤ -((323459 : ℤ) : ℝ) / 2 ^ 20 := fun h =>
    stop_cos (x := 0.31415) h (by norm_num) (by norm_num) (by push_cast; linarith [Real.pi_gt_d4]) (by norm_num) (by norm_num)
  have c05 : Spec.StopBand 0.05 ω → Real.cos ω ≤ -((163994 : ℤ) : ℝ) / 2 ^ 20 := fun h =>
    stop_cos (x := 0.157075) h (by norm_num) (by norm_num) (by push_cast; linarith [Real.pi_gt_d4]) (by norm_num) (by norm_num)
  have c01 : Spec.StopBand 0.01 ω → Real.cos ω ≤ -((32935 : ℤ) : ℝ) / 2 ^ 20 := fun h =>
    stop_cos (x := 0.031415) h (by norm_num) (by norm_num) (by push_cast; linarith [Real.pi_gt_d4]) (by norm_num) (by norm_num)
  have key : ∀ (lo e : ℤ) (dB : ℕ), (table st (m * 2)).any (fun p => certified lo e p.1 p.2) = true → lo < 2 ^ 20 →
      Real.cos ω ≤ -(lo : ℝ) / 2 ^ 20 → ((e : ℝ) / 10 ^ 20) ^ 10 * 10 ^ dB ≤ 1 → ‖Spec.response (Spec.rounded a) (Spec.rounded b) ω‖ ≤ Spec.down dB :=
    fun lo e dB hc hlo hcos h10 => le_down (certified_sound (any_some hc h) hlo ha hb hcos) h10
  clear h
  cases st <;> interval_cases m
  · exact key _ _ 36 cert_softer1 (by norm_num) (c10 hω) (by norm_num)
  · exact key _ _ 68 cert_softer2 (by norm_num) (c10 hω) (by norm_num)
  · exact key _ _ 80 cert_softer3 (by norm_num) (c05 hω) (by norm_num)
  · exact key _ _ 106 cert_softer4 (by norm_num) (c05 hω) (by norm_num)
  · exact key _ _ 97 cert_softer5 (by norm_num) (c05 hω) (by norm_num)
  · exact key _ _ 139 cert_softer6 (by norm_num) (c05 hω) (by norm_num)
  · exact key _ _ 36 cert_steep1 (by norm_num) (c10 hω) (by norm_num)
  · exact key _ _ 53 cert_steep2 (by norm_num) (c05 hω) (by norm_num)
  · exact key _ _ 51 cert_steep3 (by norm_num) (c01 hω) (by norm_num)
  · exact key _ _ 69 cert_steep4 (by norm_num) (c01 hω) (by norm_num)
  · exact key _ _ 86 cert_steep5 (by norm_num) (c01 hω) (by norm_num)
  · exact key _ _ 103 cert_steep6 (by norm_num) (c01 hω) (by norm_num)

/-- **C111.**  With the numbers reached, in terms of the output: whatever the phase and the division into blocks, a sinusoid in the stop band
comes out at most at that level, after an exponentially short transient. -/
theorem C111_output {st : Bool} {m : ℕ} {a b : List ℚ} (h : table st (m * 2) = some (a, b)) {ω : ℝ}
    (hω : Spec.StopBand (Spec.advertised st m).2 ω) :
    ∃ K r : ℝ, 0 ≤ K ∧ 0 < r ∧ r < 1 ∧ ∀ (φ : ℝ) (bs : List (List (ℝ × ℝ))) (s s' : St) (ys : List (ℝ × ℝ)), St.new m st = .ok s →
      Spec.Blocks 4 256 bs → runWith St.process s bs = .ok (s', ys) →
      ((∀ n < bs.flatten.length, Spec.left bs.flatten n = Real.cos (ω * n + φ)) →
        ∀ n < ys.length, |Spec.left ys n| ≤ Spec.down (Spec.reached st m) + K * r ^ n) ∧
      ((∀ n < bs.flatten.length, Spec.right bs.flatten n = Real.cos (ω * n + φ)) →
        ∀ n < ys.length, |Spec.right ys n| ≤ Spec.down (Spec.reached st m) + K * r ^ n) := by
  obtain ⟨K, r, K0, r0, r1, t⟩ := C110_sinusoid h ω
  have hd := C111_reached h hω
  have step : ∀ y c B : ℝ, |y - ‖Spec.response (Spec.rounded a) (Spec.rounded b) ω‖ * Real.cos c| ≤ B → |y| ≤ Spec.down (Spec.reached st m) + B :=
    fun y c B hy => by
    have h1 : |‖Spec.response (Spec.rounded a) (Spec.rounded b) ω‖ * Real.cos c| ≤ Spec.down (Spec.reached st m) := by
      rw [abs_mul, abs_of_nonneg (norm_nonneg _)]
      nlinarith [Real.abs_cos_le_one c, norm_nonneg (Spec.response (Spec.rounded a) (Spec.rounded b) ω), abs_nonneg (Real.cos c)]
    have := abs_sub_abs_le_abs_sub y (‖Spec.response (Spec.rounded a) (Spec.rounded b) ω‖ * Real.cos c)
    linarith
  refine ⟨K, r, K0, r0, r1, fun φ bs s s' ys hs hk hr => ?_⟩
  obtain ⟨t1, t2⟩ := t φ bs s s' ys hs hk hr
  exact ⟨fun hx n hn => step _ _ _ (t1 hx n hn), fun hx n hn => step _ _ _ (t2 hx n hn)⟩

/-- **C111.**  The pass band is flat: up to half a transition band below a quarter of the sample rate the squared gain is within the squared
rejection of one. -/
theorem C111_passband {st : Bool} {m : ℕ} {a b : List ℚ} (h : table st (m * 2) = some (a, b)) {ω : ℝ}
    (h0 : 0 ≤ ω) (h1 : ω ≤ Real.pi / 2 - Real.pi * (Spec.advertised st m).2) :
    1 - Spec.down (Spec.reached st m) ^ 2 ≤ ‖Spec.response (Spec.rounded a) (Spec.rounded b) ω‖ ^ 2 ∧
    ‖Spec.response (Spec.rounded a) (Spec.rounded b) ω‖ ^ 2 ≤ 1 := by
  have hs := C111_reached h (ω := Real.pi - ω) ⟨by linarith, by linarith⟩
  have hp := (C110_shape h).2.2.2 ω
  have h2 := pow_le_pow_left₀ (norm_nonneg _) hs 2
  refine ⟨by linarith, by nlinarith [sq_nonneg ‖Spec.response (Spec.rounded a) (Spec.rounded b) (Real.pi - ω)‖]⟩

theorem above_softer2 : (table false (2 * 2)).any (fun p => exceeded 324638 324640 11220184543019 p.1 p.2) = true := by decide +kernel
theorem above_softer5 : (table false (5 * 2)).any (fun p => exceeded 166228 166230 10000000000 p.1 p.2) = true := by decide +kernel
theorem above_softer6 : (table false (6 * 2)).any (fun p => exceeded 169082 169084 125892 p.1 p.2) = true := by decide +kernel
theorem above_steep6 : (table true (6 * 2)).any (fun p => exceeded 35437 35439 4168693834 p.1 p.2) = true := by decide +kernel

/-- **C111**, refuted: four tables fall short of the rejection in their name somewhere in the stop band: the softer sets named 70, 133 and
150 dB, and the steep one named 104 dB. -/
theorem C111_shortfall {st : Bool} {m : ℕ} {a b : List ℚ} (h : table st (m * 2) = some (a, b))
    (hm : (st, m) ∈ [(false, 2), (false, 5), (false, 6), (true, 6)]) :
    ∃ ω, Spec.StopBand (Spec.advertised st m).2 ω ∧
      Spec.down (Spec.advertised st m).1 < ‖Spec.response (Spec.rounded a) (Spec.rounded b) ω‖ := by
  obtain ⟨ha, hb⟩ := rounded_stable h
  have key : ∀ (lo : ℤ) (e : ℤ) (dB : ℕ) (w : ℚ) (x : ℝ), (table st (m * 2)).any (fun p => exceeded lo (lo + 2) e p.1 p.2) = true →
      0 ≤ (lo : ℝ) → (lo : ℝ) + 1 ≤ 2 ^ 20 → 0 ≤ (w : ℝ) → Real.pi * w ≤ x → x ≤ 1 → x - x ^ 3 / 6 + x ^ 5 / 100 ≤ ((lo : ℝ) + 1) / 2 ^ 20 → 0 ≤ (e : ℝ) →
      1 < ((e : ℝ) / 10 ^ 20) ^ 10 * 10 ^ dB →
      ∃ ω, Spec.StopBand w ω ∧ Spec.down dB < ‖Spec.response (Spec.rounded a) (Spec.rounded b) ω‖ := by
    intro lo e dB w x hc hl0 hl1 hw hx x1 hsin he h10
    have hpi := Real.pi_pos
    have c0 : -1 ≤ -((lo : ℝ) + 1) / 2 ^ 20 := by rw [le_div_iff₀ (by norm_num)]; linarith
    have c1 : -((lo : ℝ) + 1) / 2 ^ 20 ≤ 1 := by rw [div_le_iff₀ (by norm_num)]; linarith
    have hcos := Real.cos_arccos c0 c1
    refine ⟨Real.arccos (-((lo : ℝ) + 1) / 2 ^ 20), ⟨?_, Real.arccos_le_pi _⟩, ?_⟩
    · by_contra hn
      push Not at hn
      have hs := sin_upper (y := Real.pi * w) (by positivity) hx x1
      have hlt := Real.cos_lt_cos_of_nonneg_of_le_pi (Real.arccos_nonneg _) (y := Real.pi / 2 + Real.pi * w)
        (by linarith [Real.pi_gt_d2]) hn
      rw [hcos, add_comm, Real.cos_add_pi_div_two] at hlt
      rw [neg_div] at hlt
      linarith
    · refine down_lt (norm_nonneg _) (exceeded_sound (any_some hc h) (by linarith) ha hb ?_ ?_) (by positivity) h10
      · rw [hcos]; push_cast; rw [div_lt_div_iff_of_pos_right (by norm_num)]; linarith
      · rw [hcos, div_le_div_iff_of_pos_right (by norm_num)]; linarith
  clear h
  simp only [List.mem_cons, Prod.mk.injEq, List.not_mem_nil, or_false] at hm
  rcases hm with ⟨rfl, rfl⟩ | ⟨rfl, rfl⟩ | ⟨rfl, rfl⟩ | ⟨rfl, rfl⟩
  · exact key _ _ 70 0.1 0.31416 above_softer2 (by norm_num) (by norm_num) (by norm_num) (by push_cast; linarith [Real.pi_lt_d4]) (by norm_num) (by norm_num) (by norm_num) (by norm_num)
  · exact key _ _ 133 0.05 0.15708 above_softer5 (by norm_num) (by norm_num) (by norm_num) (by push_cast; linarith [Real.pi_lt_d4]) (by norm_num) (by norm_num) (by norm_num) (by norm_num)
  · exact key _ _ 150 0.05 0.15708 above_softer6 (by norm_num) (by norm_num) (by norm_num) (by push_cast; linarith [Real.pi_lt_d4]) (by norm_num) (by norm_num) (by norm_num) (by norm_num)
  · exact key _ _ 104 0.01 0.031416 above_steep6 (by norm_num) (by norm_num) (by norm_num) (by push_cast; linarith [Real.pi_lt_d4]) (by norm_num) (by norm_num) (by norm_num) (by norm_num)

/-- The stop bands are not empty: half the sample rate is in all of them. -/
example : Spec.StopBand (Spec.advertised true 6).2 Real.pi := ⟨by
  simp only [Spec.advertised]; push_cast; linarith [Real.pi_pos], le_rfl⟩

end Verif.Halfrate
