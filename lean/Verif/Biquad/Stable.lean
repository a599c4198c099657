import Verif.Biquad.Diff
import Mathlib.Topology.Order.LeftRightNhds
import Mathlib.Analysis.SpecificLimits.Basic
/-!
# Stability of the biquad (C96), and the unguarded designs (C99)
-/
namespace Verif.Biquad

/-! ## The state-space form of a channel at rest -/

/-- The registers the difference equation predicts from a newest-first history. -/
def regs (h : List Rec) : ℝ × ℝ := (p1 (h.headD zr) + q1 (h.tail.headD zr), q1 (h.headD zr))

/-- For any registers there is a history that would have led to them. -/
theorem exists_history (r0 r1 ε : ℝ) (hε : 0 ≤ ε) : ∃ h, Fresh ε h r0 r1 ∧ regs h = (r0, r1) := by
  refine ⟨[(⟨0, 0, 0, 0, 1⟩, r1, 0), (⟨0, 0, 0, 0, 1⟩, r0, 0)], ⟨?_, ?_, ?_, ?_, trivial⟩, ?_⟩
  · simp [p1, q1, hε]
  · simp [q1]
  · simp [p1, q1, zr, z0, hε]
  · simp [p1, q1, zr, z0, hε]
  · simp [regs, p1, q1]

/-- The trajectory of a channel. -/
structure Traj (c : Cf) (δ : ℝ) (xs ys : List ℝ) (T : ℕ → ℝ × ℝ) (e : ℕ → ℝ) : Prop where
  len : ys.length = xs.length
  out : ∀ n < xs.length, ys.getD n 0 = c.b0 * xs.getD n 0 + (T n).1 + e n
  next : ∀ n < xs.length, T (n + 1) =
    (c.b1 * xs.getD n 0 - c.a1 * ys.getD n 0 + (T n).2, c.b2 * xs.getD n 0 - c.a2 * ys.getD n 0)
  err : ∀ n, |e n| ≤ δ

theorem rev_suffix {ε : ℝ} : ∀ (m h : List Rec), Rev ε (m ++ h) → Rev ε h
  | [], _, hr => hr
  | _ :: m, h, hr => rev_suffix m h hr.2

theorem traj_of_rev {ε : ℝ} (hε : 0 ≤ ε) (c : Cf) (h : List Rec) (xs ys : List ℝ) (hl : ys.length = xs.length)
    (hr : Rev ε ((recs (List.replicate xs.length c) xs ys).reverse ++ h)) :
    ∃ T e, T 0 = regs h ∧ T xs.length = regs ((recs (List.replicate xs.length c) xs ys).reverse ++ h) ∧ Traj c (2 * ε) xs ys T e := by
  let R := recs (List.replicate xs.length c) xs ys
  have hR : R.length = xs.length := by simp [R, recs, hl]
  have hget : ∀ n (hn : n < xs.length), R[n]'(by omega) = (c, xs.getD n 0, ys.getD n 0) := by
    intro n hn
    simp only [R, recs, List.getElem_zip, List.getElem_replicate, List.getD,
      List.getElem?_eq_getElem hn, List.getElem?_eq_getElem (show n < ys.length by omega), Option.getD_some]
  let L : ℕ → List Rec := fun n => (R.take n).reverse ++ h
  have hL : ∀ n (hn : n < xs.length), L (n + 1) = (c, xs.getD n 0, ys.getD n 0) :: L n := by
    intro n hn
    simp only [L]
    rw [List.take_add_one, List.getElem?_eq_getElem (by omega), hget n hn]
    simp
  have hrev : ∀ n ≤ xs.length, Rev ε (L n) := by
    intro n hn
    have : R.reverse ++ h = (R.drop n).reverse ++ L n := by
      simp only [L]
      rw [← List.append_assoc, ← List.reverse_append, List.take_append_drop]
    refine rev_suffix (R.drop n).reverse _ ?_
    rw [← this]; exact hr
  refine ⟨fun n => regs (L n), fun n => if n < xs.length then ys.getD n 0 - (c.b0 * xs.getD n 0 + (regs (L n)).1) else 0, ?_, ?_,
    ⟨hl, ?_, ?_, ?_⟩⟩
  · simp [L]
  · simp only [L]; rw [List.take_of_length_le (by omega)]
  · intro n hn; simp only [if_pos hn]; ring
  · intro n hn
    simp only [hL n hn, regs, List.headD_cons, List.tail_cons, p1, q1]
  · intro n
    split
    · rename_i hn
      have := hrev (n + 1) hn
      rw [hL n hn] at this
      have := this.1
      simp only [regs]
      rw [← add_assoc]
      exact this
    · simpa using hε

theorem history_rest {c : Cf} (s : Side) (ks : List Call) (hk : ∀ k ∈ ks, Spec.plain k) {f : Filter} (hf : Rests c f) :
    Spec.history f s ks = List.replicate (ks.flatMap (Spec.input s)).length c := by
  rw [← history_len s ks f]
  exact List.eq_replicate_of_mem (rests_history s ks hk hf)

/-- A filter at rest, with any registers, under any processing calls. -/
theorem traj {c : Cf} {f : Filter} (hf : Rests c f) (s : Side) (ks : List Call) (hk : ∀ k ∈ ks, Spec.plain k) :
    ∃ T e, T 0 = (s.of f.reg0, s.of f.reg1) ∧ Traj c 2e-30 (ks.flatMap (Spec.input s)) (Spec.output (f.calls ks) s) T e := by
  obtain ⟨h, h1, h2⟩ := exists_history (s.of f.reg0) (s.of f.reg1) 1e-30 tiny_pos
  obtain ⟨i1, i2⟩ := calls_ok tiny_pos s ks (fun _ _ _ => le_rfl) f h (.inl h1)
  have hr := (ok_inv tiny_pos i2).2.2
  rw [history_rest s ks hk hf] at hr
  obtain ⟨T, e, e0, -, t⟩ := traj_of_rev tiny_pos c h _ _ i1 hr
  rw [two_tiny] at t
  exact ⟨T, e, e0.trans h2, t⟩

theorem traj_exact {c : Cf} {f : Filter} (hf : Rests c f) (s : Side) (ks : List Call) (hk : ∀ k ∈ ks, Spec.plain k)
    (hn : ∀ k ∈ ks, ¬ Spec.flushes k) :
    ∃ T, T 0 = (s.of f.reg0, s.of f.reg1) ∧
      T (ks.flatMap (Spec.input s)).length = (s.of (f.calls ks).1.reg0, s.of (f.calls ks).1.reg1) ∧ Traj c 0 (ks.flatMap (Spec.input s)) (Spec.output (f.calls ks) s) T (fun _ => 0) := by
  obtain ⟨h, h1, h2⟩ := exists_history (s.of f.reg0) (s.of f.reg1) 0 le_rfl
  obtain ⟨i1, i2⟩ := calls_ok le_rfl s ks (fun k hk' h' => absurd h' (hn k hk')) f h (.inl h1)
  have hr := (ok_inv le_rfl i2).2.2
  rw [history_rest s ks hk hf] at hr i2
  obtain ⟨T, e, e0, e1, t⟩ := traj_of_rev le_rfl c h _ _ i1 hr
  have hreg : ¬ (1e-30 : ℝ) ≤ 0 := not_le.2 (by norm_num)
  have e2 : regs ((recs (List.replicate (ks.flatMap (Spec.input s)).length c) (ks.flatMap (Spec.input s)) (Spec.output (f.calls ks) s)).reverse ++ h) =
      (s.of (f.calls ks).1.reg0, s.of (f.calls ks).1.reg1) := by
    rcases i2 with i2 | ⟨bad, -⟩
    · refine Prod.ext ?_ i2.2.1.symm
      have := abs_eq_zero.1 (le_antisymm i2.1 (abs_nonneg _))
      simp only [regs]; linarith
    · exact (hreg bad).elim
  have : e = fun _ => 0 := by
    funext n
    have := t.err n
    rw [mul_zero] at this
    exact abs_eq_zero.1 (le_antisymm this (abs_nonneg _))
  rw [mul_zero, this] at t
  exact ⟨T, e0.trans h2, e1.trans e2, t⟩

/-! ## Stability -/

/-- The stability triangle: both poles are inside the unit circle. -/
def Spec.Stable (c : Cf) : Prop := |c.a2| < 1 ∧ |c.a1| < 1 + c.a2

open Topology in
theorem exists_radius {a1 a2 : ℝ} (h2 : |a2| < 1) (h1 : |a1| < 1 + a2) :
    ∃ r : ℝ, 0 < r ∧ r < 1 ∧ |a2 / r ^ 2| < 1 ∧ |a1 / r| < 1 + a2 / r ^ 2 := by
  have k1 : ContinuousAt (fun r : ℝ => |a2 / r ^ 2|) 1 := by
    refine (ContinuousAt.div continuousAt_const (by fun_prop) (by norm_num)).abs
  have k2 : ContinuousAt (fun r : ℝ => |a1 / r|) 1 := (ContinuousAt.div continuousAt_const continuousAt_id (by norm_num)).abs
  have k3 : ContinuousAt (fun r : ℝ => 1 + a2 / r ^ 2) 1 :=
    continuousAt_const.add (ContinuousAt.div continuousAt_const (by fun_prop) (by norm_num))
  have e1 : ∀ᶠ r in 𝓝 (1 : ℝ), |a2 / r ^ 2| < 1 := k1.eventually_lt continuousAt_const (by simpa using h2)
  have e2 : ∀ᶠ r in 𝓝 (1 : ℝ), |a1 / r| < 1 + a2 / r ^ 2 := k2.eventually_lt k3 (by simpa using h1)
  have e3 : ∀ᶠ r in 𝓝 (1 : ℝ), (0 : ℝ) < r := lt_mem_nhds (by norm_num)
  have e4 : ∀ᶠ r in 𝓝[<] (1 : ℝ), r < 1 := self_mem_nhdsWithin
  have all := ((e1.and (e2.and e3)).filter_mono nhdsWithin_le_nhds).and e4
  obtain ⟨r, ⟨a, b, c⟩, d⟩ := all.exists
  exact ⟨r, c, d, a, b⟩

/-- The norm in which the scaled system contracts. -/
noncomputable def phi (p q r : ℝ) (t : ℝ × ℝ) : ℂ := ⟨Real.sqrt p * (t.1 + t.2 / r), Real.sqrt q * (t.1 - t.2 / r)⟩

theorem phi_add (p q r : ℝ) (t u : ℝ × ℝ) : phi p q r (t.1 + u.1, t.2 + u.2) = phi p q r t + phi p q r u := by
  apply Complex.ext <;> simp [phi] <;> ring

theorem phi_sq {p q : ℝ} (hp : 0 ≤ p) (hq : 0 ≤ q) (r : ℝ) (t : ℝ × ℝ) :
    ‖phi p q r t‖ ^ 2 = p * (t.1 + t.2 / r) ^ 2 + q * (t.1 - t.2 / r) ^ 2 := by
  rw [← Complex.normSq_eq_norm_sq, Complex.normSq_apply]
  simp only [phi]
  calc _ = (Real.sqrt p ^ 2) * (t.1 + t.2 / r) ^ 2 + (Real.sqrt q ^ 2) * (t.1 - t.2 / r) ^ 2 := by ring
    _ = _ := by rw [Real.sq_sqrt hp, Real.sq_sqrt hq]

/-- A stable recursion with bounded disturbances: what it started with decays geometrically, the disturbances stay bounded. -/
theorem seq_bound {c : Cf} (h : Spec.Stable c) : ∃ K r : ℝ, 0 ≤ K ∧ 0 ≤ r ∧ r < 1 ∧ ∀ (N : ℕ) (s d : ℕ → ℝ × ℝ) (D : ℝ),
    (∀ n < N, s (n + 1) = (-c.a1 * (s n).1 + (s n).2 + (d n).1, -c.a2 * (s n).1 + (d n).2)) →
    (∀ n < N, |(d n).1| ≤ D ∧ |(d n).2| ≤ D) → 0 ≤ D →
    ∀ n ≤ N, |(s n).1| ≤ K * (r ^ n * (|(s 0).1| + |(s 0).2|) + D) ∧ |(s n).2| ≤ K * (r ^ n * (|(s 0).1| + |(s 0).2|) + D) := by
  obtain ⟨h2, h1⟩ := h
  obtain ⟨r, r0, r1, g2, g1⟩ := exists_radius h2 h1
  generalize hα1 : c.a1 / r = α1 at g1
  generalize hα2 : c.a2 / r ^ 2 = α2 at g1 g2
  have ea1 : c.a1 = α1 * r := by rw [← hα1]; field_simp
  have ea2 : c.a2 = α2 * r ^ 2 := by rw [← hα2]; field_simp
  obtain ⟨g1a, g1b⟩ := abs_lt.1 g1
  obtain ⟨g2a, g2b⟩ := abs_lt.1 g2
  set p := (1 + α2 - α1) / 2 with hp
  set q := (1 + α2 + α1) / 2 with hq
  have pp : 0 < p := by rw [hp]; linarith
  have pq : 0 < q := by rw [hq]; linarith
  have sp : 0 < Real.sqrt p := Real.sqrt_pos.2 pp
  have sq : 0 < Real.sqrt q := Real.sqrt_pos.2 pq
  -- contraction
  have con : ∀ t : ℝ × ℝ, ‖phi p q r (-c.a1 * t.1 + t.2, -c.a2 * t.1)‖ ≤ r * ‖phi p q r t‖ := by
    intro t
    have : ‖phi p q r (-c.a1 * t.1 + t.2, -c.a2 * t.1)‖ ^ 2 ≤ (r * ‖phi p q r t‖) ^ 2 := by
      rw [mul_pow, phi_sq pp.le pq.le, phi_sq pp.le pq.le]
      obtain ⟨x, y⟩ := t
      have ey : y = (y / r) * r := by field_simp
      generalize y / r = w at ey ⊢
      subst ey
      simp only [ea1, ea2]
      have e1 : -(α2 * r ^ 2) * x / r = -α2 * r * x := by field_simp
      rw [e1, hp, hq]
      have : 0 ≤ (1 - α2) * ((1 + α2 - α1) * (1 + α2 + α1)) * (x * r) ^ 2 := by
        have := mul_pos (show 0 < 1 + α2 - α1 by linarith) (show 0 < 1 + α2 + α1 by linarith)
        have h3 : 0 < 1 - α2 := by linarith
        positivity
      nlinarith [this]
    exact le_of_sq_le_sq this (by positivity) |> fun h => h
  -- comparison with absolute values
  set U := Real.sqrt p * (1 + 1 / r) + Real.sqrt q * (1 + 1 / r) with hU
  have U0 : 0 ≤ U := by positivity
  have up : ∀ (t : ℝ × ℝ) (M : ℝ), |t.1| ≤ M → |t.2| ≤ M → ‖phi p q r t‖ ≤ U * M := by
    intro t M m1 m2
    have M0 : 0 ≤ M := (abs_nonneg _).trans m1
    have q2 : |t.2 / r| ≤ M / r := by rw [abs_div, abs_of_pos r0]; exact div_le_div_of_nonneg_right m2 r0.le
    refine (Complex.norm_le_abs_re_add_abs_im _).trans ?_
    simp only [phi, abs_mul, abs_of_pos sp, abs_of_pos sq]
    have a := abs_add_le t.1 (t.2 / r)
    have b := abs_sub t.1 (t.2 / r)
    have : U * M = Real.sqrt p * (M + M / r) + Real.sqrt q * (M + M / r) := by rw [hU]; ring
    rw [this]
    gcongr
    · linarith
    · linarith
  have lo1 : ∀ t : ℝ × ℝ, |t.1| ≤ (1 / Real.sqrt p + 1 / Real.sqrt q) * ‖phi p q r t‖ := by
    intro t
    have a : Real.sqrt p * |t.1 + t.2 / r| ≤ ‖phi p q r t‖ := by
      have := Complex.abs_re_le_norm (phi p q r t); simpa [phi, abs_mul, abs_of_pos sp] using this
    have b : Real.sqrt q * |t.1 - t.2 / r| ≤ ‖phi p q r t‖ := by
      have := Complex.abs_im_le_norm (phi p q r t); simpa [phi, abs_mul, abs_of_pos sq] using this
    have a' : |t.1 + t.2 / r| ≤ 1 / Real.sqrt p * ‖phi p q r t‖ := by rw [one_div, ← div_eq_inv_mul, le_div_iff₀ sp]; linarith
    have b' : |t.1 - t.2 / r| ≤ 1 / Real.sqrt q * ‖phi p q r t‖ := by rw [one_div, ← div_eq_inv_mul, le_div_iff₀ sq]; linarith
    have : |t.1 + t.1| ≤ |t.1 + t.2 / r| + |t.1 - t.2 / r| := by
      have := abs_add_le (t.1 + t.2 / r) (t.1 - t.2 / r); ring_nf at this ⊢; exact this
    have k : |t.1 + t.1| = 2 * |t.1| := by rw [← two_mul, abs_mul]; norm_num
    have := abs_nonneg t.1
    rw [add_mul]; linarith
  have lo2 : ∀ t : ℝ × ℝ, |t.2| ≤ (1 / Real.sqrt p + 1 / Real.sqrt q) * ‖phi p q r t‖ := by
    intro t
    have a : Real.sqrt p * |t.1 + t.2 / r| ≤ ‖phi p q r t‖ := by
      have := Complex.abs_re_le_norm (phi p q r t); simpa [phi, abs_mul, abs_of_pos sp] using this
    have b : Real.sqrt q * |t.1 - t.2 / r| ≤ ‖phi p q r t‖ := by
      have := Complex.abs_im_le_norm (phi p q r t); simpa [phi, abs_mul, abs_of_pos sq] using this
    have a' : |t.1 + t.2 / r| ≤ 1 / Real.sqrt p * ‖phi p q r t‖ := by rw [one_div, ← div_eq_inv_mul, le_div_iff₀ sp]; linarith
    have b' : |t.1 - t.2 / r| ≤ 1 / Real.sqrt q * ‖phi p q r t‖ := by rw [one_div, ← div_eq_inv_mul, le_div_iff₀ sq]; linarith
    have : |t.2 / r + t.2 / r| ≤ |t.1 + t.2 / r| + |t.1 - t.2 / r| := by
      have := abs_sub (t.1 + t.2 / r) (t.1 - t.2 / r); ring_nf at this ⊢; exact this
    have k : |t.2 / r + t.2 / r| = 2 * (|t.2| / r) := by
      rw [← two_mul, abs_mul, abs_div, abs_of_pos r0]; norm_num
    have k2 : |t.2| ≤ |t.2| / r := by
      rw [le_div_iff₀ r0]; nlinarith [abs_nonneg t.2]
    have := abs_nonneg t.2
    rw [add_mul]; linarith
  set W := 1 / Real.sqrt p + 1 / Real.sqrt q with hW
  have W0 : 0 ≤ W := by positivity
  have main : ∀ (N : ℕ) (s d : ℕ → ℝ × ℝ) (D : ℝ),
      (∀ n < N, s (n + 1) = (-c.a1 * (s n).1 + (s n).2 + (d n).1, -c.a2 * (s n).1 + (d n).2)) →
      (∀ n < N, |(d n).1| ≤ D ∧ |(d n).2| ≤ D) → 0 ≤ D →
      ∀ n ≤ N, ‖phi p q r (s n)‖ ≤ r ^ n * (U * (|(s 0).1| + |(s 0).2|)) + U * D / (1 - r) := by
    intro N s d D hs hd hD n
    induction n with
    | zero =>
      intro _
      have := up (s 0) (|(s 0).1| + |(s 0).2|) (by linarith [abs_nonneg (s 0).2]) (by linarith [abs_nonneg (s 0).1])
      have hz : 0 ≤ U * D / (1 - r) := div_nonneg (mul_nonneg U0 hD) (by linarith)
      rw [pow_zero, one_mul]; linarith
    | succ n ih =>
      intro hn
      have i := ih (by omega)
      rw [hs n (by omega)]
      have e := phi_add p q r (-c.a1 * (s n).1 + (s n).2, -c.a2 * (s n).1) (d n)
      simp only at e
      rw [e]
      refine (norm_add_le _ _).trans ?_
      have dd := up (d n) D (hd n (by omega)).1 (hd n (by omega)).2
      have cc := con (s n)
      have hm := mul_le_mul_of_nonneg_left i r0.le
      have e2 : r * (r ^ n * (U * (|(s 0).1| + |(s 0).2|)) + U * D / (1 - r)) + U * D =
          r ^ (n + 1) * (U * (|(s 0).1| + |(s 0).2|)) + U * D / (1 - r) := by
        have : (1 - r) ≠ 0 := by linarith
        field_simp; ring
      linarith
  refine ⟨W * U * (1 + 1 / (1 - r)), r, ?_, r0.le, r1, ?_⟩
  · have : 0 < 1 - r := by linarith
    positivity
  intro N s d D hs hd hD n hn
  have m := main N s d D hs hd hD n hn
  have fin : W * (r ^ n * (U * (|(s 0).1| + |(s 0).2|)) + U * D / (1 - r)) ≤
      W * U * (1 + 1 / (1 - r)) * (r ^ n * (|(s 0).1| + |(s 0).2|) + D) := by
    have k : 0 < 1 - r := by linarith
    have a0 : 0 ≤ r ^ n * (|(s 0).1| + |(s 0).2|) := by positivity
    have : W * U * (1 + 1 / (1 - r)) * (r ^ n * (|(s 0).1| + |(s 0).2|) + D) -
        W * (r ^ n * (U * (|(s 0).1| + |(s 0).2|)) + U * D / (1 - r)) =
        W * U * (1 / (1 - r) * (r ^ n * (|(s 0).1| + |(s 0).2|)) + D) := by
      field_simp; ring
    have : 0 ≤ W * U * (1 / (1 - r) * (r ^ n * (|(s 0).1| + |(s 0).2|)) + D) := by positivity
    linarith
  exact ⟨(lo1 _).trans ((mul_le_mul_of_nonneg_left m W0).trans fin), (lo2 _).trans ((mul_le_mul_of_nonneg_left m W0).trans fin)⟩

end Verif.Biquad
