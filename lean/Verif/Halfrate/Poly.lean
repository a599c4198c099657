import Mathlib.Data.Real.Basic
import Mathlib.Data.Complex.Basic
import Mathlib.Algebra.Order.Field.Basic
import Mathlib.Tactic.Ring
import Mathlib.Tactic.Linarith
import Mathlib.Tactic.FieldSimp
import Mathlib.Tactic.Positivity
import Mathlib.Tactic.LinearCombination
/-!
# Integer polynomials and a positivity certificate on an interval

Proof machinery for C111: polynomials as lists of integer coefficients (constant first), and `nonneg01`, a sound test that a
polynomial is nonnegative on `[0, 1]` by bisection, evaluated by the kernel.
-/
namespace Verif.Halfrate.Poly

abbrev P := List ℤ

/-- The value at a real point. -/
def ev (p : P) (c : ℝ) : ℝ := p.foldr (fun (a : ℤ) v => (a : ℝ) + c * v) 0

@[simp] theorem ev_nil (c : ℝ) : ev [] c = 0 := rfl
@[simp] theorem ev_cons (a : ℤ) (p : P) (c : ℝ) : ev (a :: p) c = a + c * ev p c := rfl

def add : P → P → P
  | [], q => q
  | p, [] => p
  | a :: p, b :: q => (a + b) :: add p q

theorem ev_add (p q : P) (c : ℝ) : ev (add p q) c = ev p c + ev q c := by
  fun_induction add p q with
  | case1 q => simp
  | case2 p => simp
  | case3 a p b q ih => simp [ih]; ring

def smul (k : ℤ) (p : P) : P := p.map (k * ·)

theorem ev_smul (k : ℤ) (p : P) (c : ℝ) : ev (smul k p) c = k * ev p c := by
  induction p with
  | nil => simp [smul]
  | cons a p ih => simp only [smul, List.map_cons, ev_cons] at ih ⊢; rw [ih]; push_cast; ring

def mul : P → P → P
  | [], _ => []
  | a :: p, q => add (smul a q) (0 :: mul p q)

theorem ev_mul (p q : P) (c : ℝ) : ev (mul p q) c = ev p c * ev q c := by
  induction p with
  | nil => simp [mul]
  | cons a p ih => simp [mul, ev_add, ev_smul, ih]; ring

/-- `p (x + 1)`. -/
def shift1 : P → P
  | [] => []
  | a :: p => let q := shift1 p; add [a] (add q (0 :: q))

theorem ev_shift1 (p : P) (c : ℝ) : ev (shift1 p) c = ev p (c + 1) := by
  induction p with
  | nil => rfl
  | cons a p ih => simp [shift1, ev_add, ih]; ring

/-- `2 ^ (length - 1) * p (x / 2)` (up to one more factor 2). -/
def halve : P → P
  | [] => []
  | a :: p => a * 2 ^ p.length :: halve p

theorem ev_halve (p : P) (c : ℝ) : 2 * ev (halve p) c = 2 ^ p.length * ev p (c / 2) := by
  induction p with
  | nil => simp [halve]
  | cons a p ih =>
    simp only [halve, ev_cons, List.length_cons, pow_succ]
    push_cast
    linear_combination c * ih

theorem ev_append (p q : P) (c : ℝ) : ev (p ++ q) c = ev p c + c ^ p.length * ev q c := by
  induction p with
  | nil => simp
  | cons a p ih => simp [ih, pow_succ]; ring

theorem ev_reverse (p : P) {c : ℝ} (h : c ≠ 0) : c * ev p.reverse c = c ^ p.length * ev p (1 / c) := by
  induction p with
  | nil => simp
  | cons a p ih =>
    simp only [List.reverse_cons, ev_append, ev_cons, ev_nil, List.length_reverse, List.length_cons, pow_succ]
    rw [mul_add, ih]
    field_simp
    ring

theorem ev_nonneg {p : P} (h : p.all (fun a => decide (0 ≤ a)) = true) {c : ℝ} (hc : 0 ≤ c) : 0 ≤ ev p c := by
  induction p with
  | nil => exact le_rfl
  | cons a p ih =>
    simp only [List.all_cons, Bool.and_eq_true, decide_eq_true_eq] at h
    have : (0 : ℝ) ≤ a := by exact_mod_cast h.1
    have := ih h.2
    rw [ev_cons]; positivity

/-- Bisection: nonnegative on `(0, 1]` when all coefficients of `(1+t)^n p(1/(1+t))` are, else try the two halves. -/
def nonneg01 : ℕ → P → Bool
  | 0, p => (shift1 p.reverse).all fun a => decide (0 ≤ a)
  | d + 1, p => ((shift1 p.reverse).all fun a => decide (0 ≤ a)) || (nonneg01 d (halve p) && nonneg01 d (shift1 (halve p)))

theorem leaf_sound {p : P} (h : (shift1 p.reverse).all (fun a => decide (0 ≤ a)) = true) {t : ℝ} (h0 : 0 < t) (h1 : t ≤ 1) : 0 ≤ ev p t := by
  have e := ev_nonneg h (c := 1 / t - 1) (by rw [sub_nonneg, le_div_iff₀ h0]; linarith)
  rw [ev_shift1, sub_add_cancel] at e
  have r := ev_reverse p (c := 1 / t) (by positivity)
  rw [one_div_one_div] at r
  have : 0 ≤ (1 / t) ^ p.length * ev p t := by rw [← r]; positivity
  exact nonneg_of_mul_nonneg_right this (by positivity)

theorem nonneg01_sound (d : ℕ) {p : P} (h : nonneg01 d p = true) {t : ℝ} (h0 : 0 < t) (h1 : t ≤ 1) : 0 ≤ ev p t := by
  induction d generalizing p t with
  | zero => exact leaf_sound h h0 h1
  | succ d ih =>
    rw [nonneg01, Bool.or_eq_true, Bool.and_eq_true] at h
    rcases h with h | ⟨hl, hr⟩
    · exact leaf_sound h h0 h1
    · rcases le_or_gt t (1 / 2) with ht | ht
      · have := ih hl (t := 2 * t) (by linarith) (by linarith)
        have e := ev_halve p (2 * t)
        rw [mul_div_cancel_left₀ t two_ne_zero] at e
        have : 0 ≤ (2 : ℝ) ^ p.length * ev p t := by rw [← e]; positivity
        exact nonneg_of_mul_nonneg_right this (by positivity)
      · have := ih hr (t := 2 * t - 1) (by linarith) (by linarith)
        rw [ev_shift1, sub_add_cancel] at this
        have e := ev_halve p (2 * t)
        rw [mul_div_cancel_left₀ t two_ne_zero] at e
        have : 0 ≤ (2 : ℝ) ^ p.length * ev p t := by rw [← e]; positivity
        exact nonneg_of_mul_nonneg_right this (by positivity)

/-- `den ^ (length - 1) * p ((lo + w t) / den)`, coefficients in `t` (up to one more factor `den`). -/
def compose (lo w den : ℤ) : P → P
  | [] => []
  | a :: p => add [a * den ^ p.length] (mul [lo, w] (compose lo w den p))

theorem ev_compose (lo w : ℤ) {den : ℤ} (hd : den ≠ 0) (p : P) (t : ℝ) :
    den * ev (compose lo w den p) t = den ^ p.length * ev p ((lo + w * t) / den) := by
  have hd' : (den : ℝ) ≠ 0 := by exact_mod_cast hd
  induction p with
  | nil => simp [compose]
  | cons a p ih =>
    simp only [compose, ev_add, ev_mul, ev_cons, ev_nil, List.length_cons, pow_succ]
    push_cast
    have : (den : ℝ) * ev (compose lo w den p) t = den ^ p.length * ev p ((lo + w * t) / den) := ih
    have e : (den : ℝ) * ((lo + w * t) / den) = lo + w * t := mul_div_cancel₀ _ hd'
    linear_combination (lo + w * t) * this - (den : ℝ) ^ p.length * ev p ((lo + w * t) / den) * e

/-- Drop leading zero coefficients. -/
def trim : P → P
  | [] => []
  | a :: p => match trim p with
    | [] => if a = 0 then [] else [a]
    | q => a :: q

theorem ev_trim (p : P) (c : ℝ) : ev (trim p) c = ev p c := by
  induction p with
  | nil => rfl
  | cons a p ih =>
    rw [trim, ev_cons, ← ih]
    split
    · rename_i e; rw [e]
      split
      · rename_i h; simp [h]
      · rfl
    · rfl

/-- Nonnegative on `(lo/den, hi/den]`. -/
def nonnegOn (d : ℕ) (lo hi den : ℤ) (p : P) : Bool := nonneg01 d (compose lo (hi - lo) den (trim p))

theorem nonnegOn_sound {d : ℕ} {lo hi den : ℤ} {p : P} (h : nonnegOn d lo hi den p = true) (hd : 0 < den) (hw : lo < hi) {c : ℝ}
    (h0 : (lo : ℝ) / den < c) (h1 : c ≤ (hi : ℝ) / den) : 0 ≤ ev p c := by
  have hd' : (0 : ℝ) < den := by exact_mod_cast hd
  have hw' : (0 : ℝ) < (hi : ℝ) - lo := by have : (lo : ℝ) < hi := by exact_mod_cast hw
                                           linarith
  set t := (c * den - lo) / ((hi : ℝ) - lo) with ht
  rw [div_lt_iff₀ hd'] at h0
  rw [le_div_iff₀ hd'] at h1
  have t0 : 0 < t := div_pos (by linarith) hw'
  have t1 : t ≤ 1 := (div_le_one hw').2 (by linarith)
  have e := ev_compose lo (hi - lo) hd.ne' (trim p) t
  have s := nonneg01_sound d h t0 t1
  have ec : ((lo : ℝ) + ((hi - lo : ℤ) : ℝ) * t) / den = c := by
    rw [ht]; push_cast; field_simp; ring
  rw [ec, ev_trim] at e
  have : 0 ≤ (den : ℝ) ^ (trim p).length * ev p c := by rw [← e]; positivity
  exact nonneg_of_mul_nonneg_right this (by positivity)

/-! ## Pairs: `re(c) - i s im(c)` with `c = cos ω`, `s = sin ω` -/

structure Pair where
  re : P
  im : P

noncomputable def Pair.val (p : Pair) (c s : ℝ) : ℂ := ⟨ev p.re c, -(s * ev p.im c)⟩

def Pair.mul (p q : Pair) : Pair :=
  ⟨add (Poly.mul p.re q.re) (Poly.mul [-1, 0, 1] (Poly.mul p.im q.im)), add (Poly.mul p.re q.im) (Poly.mul p.im q.re)⟩

def Pair.add (p q : Pair) : Pair := ⟨Poly.add p.re q.re, Poly.add p.im q.im⟩

theorem Pair.val_mul (p q : Pair) {c s : ℝ} (h : s ^ 2 + c ^ 2 = 1) : (p.mul q).val c s = p.val c s * q.val c s := by
  apply Complex.ext
  · simp only [Pair.val, Pair.mul, ev_add, ev_mul, ev_cons, ev_nil, Complex.mul_re]
    push_cast
    linear_combination (ev p.im c * ev q.im c) * h
  · simp only [Pair.val, Pair.mul, ev_add, ev_mul, Complex.mul_im]
    ring

theorem Pair.val_add (p q : Pair) (c s : ℝ) : (p.add q).val c s = p.val c s + q.val c s := by
  apply Complex.ext <;> simp [Pair.val, Pair.add, ev_add]; ring

/-- `|p|²`. -/
def Pair.nsq (p : Pair) : P := Poly.add (Poly.mul p.re p.re) (Poly.mul [1, 0, -1] (Poly.mul p.im p.im))

theorem Pair.val_nsq (p : Pair) {c s : ℝ} (h : s ^ 2 + c ^ 2 = 1) : ev p.nsq c = Complex.normSq (p.val c s) := by
  simp only [Pair.nsq, Pair.val, ev_add, ev_mul, ev_cons, ev_nil, Complex.normSq_mk]
  push_cast
  linear_combination (-(ev p.im c) ^ 2) * h

end Verif.Halfrate.Poly
