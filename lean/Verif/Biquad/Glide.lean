import Verif.Biquad.Claims
/-!
# Biquad filters while their coefficients glide (C96)

After a new design the coefficients approach it by the factor `0.996` per sample.  The filter is then not time-invariant, and stability of every momentary setting does not bound its output.
Here: if the design aimed at is stable, the output stays bounded whatever the coefficients and registers were before, uniformly in the number of samples.
-/
namespace Verif.Biquad

/-- The factor by which the distance to the target shrinks per sample. -/
noncomputable def rho : ℝ := 249 / 250

theorem rho_pos : 0 < rho := by unfold rho; norm_num
theorem rho_lt : rho < 1 := by unfold rho; norm_num
theorem rho_pow_le (n : ℕ) : rho ^ n ≤ 1 := pow_le_one₀ rho_pos.le rho_lt.le
theorem rho_anti {m n : ℕ} (h : m ≤ n) : rho ^ n ≤ rho ^ m := pow_le_pow_of_le_one rho_pos.le rho_lt.le h

/-- The register pairs of one channel within reach from `s0` after `n` samples, when the recursion's coefficients are within `R * rho ^ n` of `c` and each step adds at most `D`. -/
inductive Glide (c : Cf) (R D : ℝ) (s0 : ℝ × ℝ) : ℕ → ℝ × ℝ → Prop
  | zero : Glide c R D s0 0 s0
  | step {n : ℕ} {s : ℝ × ℝ} {a1 a2 d e : ℝ} : Glide c R D s0 n s → |a1 - c.a1| ≤ R * rho ^ n → |a2 - c.a2| ≤ R * rho ^ n → |d| ≤ D → |e| ≤ D →
      Glide c R D s0 (n + 1) (-a1 * s.1 + s.2 + d, -a2 * s.1 + e)

theorem glide_seq {c : Cf} {R D : ℝ} {s0 s : ℝ × ℝ} {N : ℕ} (h : Glide c R D s0 N s) : ∃ (σ α d : ℕ → ℝ × ℝ), σ 0 = s0 ∧ σ N = s ∧
    ∀ n < N, σ (n + 1) = (-(α n).1 * (σ n).1 + (σ n).2 + (d n).1, -(α n).2 * (σ n).1 + (d n).2) ∧ |(d n).1| ≤ D ∧ |(d n).2| ≤ D ∧
      |(α n).1 - c.a1| ≤ R * rho ^ n ∧ |(α n).2 - c.a2| ≤ R * rho ^ n := by
  induction h with
  | zero => exact ⟨fun _ => s0, fun _ => (0, 0), fun _ => (0, 0), rfl, rfl, fun n hn => absurd hn (by omega)⟩
  | @step N s a1 a2 x y _ h1 h2 hx hy ih =>
    obtain ⟨σ, α, d, h0, hN, hr⟩ := ih
    refine ⟨fun n => if n ≤ N then σ n else (-a1 * s.1 + s.2 + x, -a2 * s.1 + y), fun n => if n < N then α n else (a1, a2), fun n => if n < N then d n else (x, y), ?_, ?_, ?_⟩
    · simp [h0]
    · simp
    · intro n hn
      by_cases h : n < N
      · simp only [if_pos (show n + 1 ≤ N by omega), if_pos (show n ≤ N by omega), if_pos h]; exact hr n h
      · have e : n = N := by omega
        subst e
        simp only [lt_irrefl, if_false, show ¬ n + 1 ≤ n by omega, le_refl, if_true, hN]
        exact ⟨trivial, hx, hy, h1, h2⟩

/-- The recursion with gliding coefficients stays bounded. -/
theorem glide_bound {c : Cf} (hc : Spec.Stable c) {R : ℝ} (hR : 0 ≤ R) : ∃ K : ℝ, 0 ≤ K ∧ ∀ (D : ℝ) (s0 s : ℝ × ℝ) (n : ℕ), 0 ≤ D → Glide c R D s0 n s →
    |s.1| ≤ K * (|s0.1| + |s0.2| + D) ∧ |s.2| ≤ K * (|s0.1| + |s0.2| + D) := by
  obtain ⟨K', r, K0', r0, r1, hb⟩ := seq_bound hc
  set K := max K' 1 with hK
  have K1 : 1 ≤ K := le_max_right _ _
  have K0 : 0 < K := by linarith
  obtain ⟨N, hN⟩ : ∃ N : ℕ, R * rho ^ N ≤ 1 / (2 * K) := by
    obtain ⟨N, hN⟩ := exists_pow_lt_of_lt_one (show 0 < 1 / (2 * K * (R + 1)) by positivity) rho_lt
    refine ⟨N, ?_⟩
    have h1 : R * rho ^ N ≤ (R + 1) * (1 / (2 * K * (R + 1))) := by
      apply mul_le_mul (by linarith) hN.le (pow_nonneg rho_pos.le _) (by linarith)
    refine h1.trans (le_of_eq ?_)
    have : (R + 1) ≠ 0 := by positivity
    field_simp
  set L := |c.a1| + |c.a2| + 2 * R + 2 with hL
  have b1 := abs_nonneg c.a1
  have b2 := abs_nonneg c.a2
  have L1 : 1 ≤ L := by linarith
  -- what happens during the first `N` samples
  have early : ∀ (D : ℝ) (s0 s : ℝ × ℝ) (n : ℕ), 0 ≤ D → Glide c R D s0 n s → |s.1| + |s.2| + 2 * D ≤ L ^ n * (|s0.1| + |s0.2| + 2 * D) := by
    intro D s0 s n D0 h
    induction h with
    | zero => simp
    | @step n s a1 a2 x y _ h1 h2 hx hy ih =>
      have t : R * rho ^ n ≤ R := by have := mul_le_mul_of_nonneg_left (rho_pow_le n) hR; linarith
      have u1 : |a1| ≤ |c.a1| + R := by have := abs_sub_abs_le_abs_sub a1 c.a1; linarith
      have u2 : |a2| ≤ |c.a2| + R := by have := abs_sub_abs_le_abs_sub a2 c.a2; linarith
      have v1 : |-a1 * s.1 + s.2 + x| ≤ |a1| * |s.1| + |s.2| + D := by
        have e1 := abs_add_le (-a1 * s.1 + s.2) x
        have e2 := abs_add_le (-a1 * s.1) s.2
        rw [abs_mul, abs_neg] at e2; linarith
      have v2 : |-a2 * s.1 + y| ≤ |a2| * |s.1| + D := by
        have e2 := abs_add_le (-a2 * s.1) y
        rw [abs_mul, abs_neg] at e2; linarith
      have w1 := mul_le_mul_of_nonneg_right u1 (abs_nonneg s.1)
      have w2 := mul_le_mul_of_nonneg_right u2 (abs_nonneg s.1)
      have z : |-a1 * s.1 + s.2 + x| + |-a2 * s.1 + y| + 2 * D ≤ L * (|s.1| + |s.2| + 2 * D) := by
        have q1 := abs_nonneg s.1
        have q2 := abs_nonneg s.2
        have : 0 ≤ (|c.a1| + |c.a2| + 2 * R) * |s.2| := by positivity
        have : 0 ≤ (|c.a1| + |c.a2| + 2 * R) * D := by positivity
        rw [hL]; nlinarith
      calc _ ≤ L * (|s.1| + |s.2| + 2 * D) := z
        _ ≤ L * (L ^ n * (|s0.1| + |s0.2| + 2 * D)) := mul_le_mul_of_nonneg_left ih (by linarith)
        _ = _ := by ring
  refine ⟨2 * K * (2 * L ^ N + 1), by positivity, fun D s0 s n D0 h => ?_⟩
  have a0 := abs_nonneg s0.1
  have a1 := abs_nonneg s0.2
  have LN : 1 ≤ L ^ N := one_le_pow₀ L1
  by_cases hn : n ≤ N
  · have e := early D s0 s n D0 h
    have p : L ^ n ≤ L ^ N := pow_le_pow_right₀ L1 hn
    have q := mul_le_mul_of_nonneg_right p (show 0 ≤ |s0.1| + |s0.2| + 2 * D by linarith)
    have m : L ^ N * (|s0.1| + |s0.2| + 2 * D) ≤ 2 * K * (2 * L ^ N + 1) * (|s0.1| + |s0.2| + D) := by
      have : L ^ N * (|s0.1| + |s0.2| + 2 * D) ≤ 2 * L ^ N * (|s0.1| + |s0.2| + D) := by nlinarith
      refine this.trans (mul_le_mul_of_nonneg_right ?_ (by linarith))
      nlinarith
    have := abs_nonneg s.1
    have := abs_nonneg s.2
    constructor <;> linarith
  · push Not at hn
    obtain ⟨σ, α, d, e0, en, hr⟩ := glide_seq h
    -- the state after `N` samples
    have gl : ∀ m ≤ n, Glide c R D s0 m (σ m) := by
      intro m
      induction m with
      | zero => intro _; rw [e0]; exact .zero
      | succ m ih =>
        intro hm
        obtain ⟨q, q1, q2, q3, q4⟩ := hr m (by omega)
        rw [q]
        exact .step (ih (by omega)) q3 q4 q1 q2
    have hN' := early D s0 _ N D0 (gl N hn.le)
    set S := |(σ N).1| + |(σ N).2| with hS
    have S0 : 0 ≤ S := by positivity
    have late : ∀ m, N + m ≤ n → |(σ (N + m)).1| ≤ 2 * K * (S + D) ∧ |(σ (N + m)).2| ≤ 2 * K * (S + D) := by
      intro m
      induction m using Nat.strong_induction_on with
      | _ m ih =>
        intro hm
        have key := hb m (fun k => σ (N + k)) (fun k => ((d (N + k)).1 - ((α (N + k)).1 - c.a1) * (σ (N + k)).1, (d (N + k)).2 - ((α (N + k)).2 - c.a2) * (σ (N + k)).1)) (D + (S + D))
          (fun k hk => by
            have := (hr (N + k) (by omega)).1
            simp only [← add_assoc]
            rw [this]
            refine Prod.ext ?_ ?_ <;> simp only <;> ring)
          (fun k hk => by
            obtain ⟨-, q1, q2, q3, q4⟩ := hr (N + k) (by omega)
            have i := (ih k hk (by omega)).1
            have p : R * rho ^ (N + k) ≤ 1 / (2 * K) := (mul_le_mul_of_nonneg_left (rho_anti (by omega)) hR).trans hN
            have one : ∀ u v : ℝ, |u| ≤ D → |v| ≤ R * rho ^ (N + k) → |u - v * (σ (N + k)).1| ≤ D + (S + D) := by
              intro u v hu hv
              have e := abs_sub u (v * (σ (N + k)).1)
              rw [abs_mul] at e
              have f : |v| * |(σ (N + k)).1| ≤ 1 / (2 * K) * (2 * K * (S + D)) := mul_le_mul (hv.trans p) i (abs_nonneg _) (by positivity)
              have g : 1 / (2 * K) * (2 * K * (S + D)) = S + D := by field_simp
              linarith
            exact ⟨one _ _ q1 q3, one _ _ q2 q4⟩)
          (by linarith) m le_rfl
        simp only [add_zero] at key
        have fin : K' * (r ^ m * (|(σ N).1| + |(σ N).2|) + (D + (S + D))) ≤ 2 * K * (S + D) := by
          have p : r ^ m * (|(σ N).1| + |(σ N).2|) ≤ S := by
            have := mul_le_mul_of_nonneg_right (pow_le_one₀ r0 r1.le : r ^ m ≤ 1) S0
            linarith
          have q : K' * (r ^ m * (|(σ N).1| + |(σ N).2|) + (D + (S + D))) ≤ K * (S + (D + (S + D))) := by
            apply mul_le_mul (le_max_left _ _) (by linarith) _ K0.le
            have : 0 ≤ r ^ m := pow_nonneg r0 _
            positivity
          refine q.trans (le_of_eq ?_); ring
        exact ⟨key.1.trans fin, key.2.trans fin⟩
    have l := late (n - N) (by omega)
    rw [show N + (n - N) = n by omega, en] at l
    have m : 2 * K * (S + D) ≤ 2 * K * (2 * L ^ N + 1) * (|s0.1| + |s0.2| + D) := by
      rw [mul_assoc (2 * K)]
      apply mul_le_mul_of_nonneg_left _ (by positivity)
      nlinarith
    exact ⟨l.1.trans m, l.2.trans m⟩

/-- Coefficients within `d` of `c`. -/
structure Near (c : Cf) (d : ℝ) (k : Cf) : Prop where
  a1 : |k.a1 - c.a1| ≤ d
  a2 : |k.a2 - c.a2| ≤ d
  b0 : |k.b0 - c.b0| ≤ d
  b1 : |k.b1 - c.b1| ≤ d
  b2 : |k.b2 - c.b2| ≤ d

theorem near_mono {c k : Cf} {d e : ℝ} (h : Near c d k) (hd : d ≤ e) : Near c e k := ⟨h.1.trans hd, h.2.trans hd, h.3.trans hd, h.4.trans hd, h.5.trans hd⟩

/-- How much an input of at most `X` moves the registers while the coefficients are within `R` of `c`, plus what flushing changes. -/
noncomputable def shove (c : Cf) (R X : ℝ) : ℝ := (|c.b1| + |c.b2| + 2 * R + (|c.a1| + |c.a2| + 2 * R) * (|c.b0| + R + 1) + 1) * (X + 1e-30)

theorem shove_nonneg (c : Cf) {R X : ℝ} (hR : 0 ≤ R) (hX : 0 ≤ X) : 0 ≤ shove c R X := by
  have := abs_nonneg c.b0; have := abs_nonneg c.b1; have := abs_nonneg c.b2; have := abs_nonneg c.a1; have := abs_nonneg c.a2
  unfold shove; positivity

/-- Within reach, up to flushing. -/
def Gliding (c : Cf) (R D : ℝ) (s0 : ℝ × ℝ) (n : ℕ) (s : ℝ × ℝ) : Prop := ∃ t, Glide c R D s0 n t ∧ (s = t ∨ s = (flush t.1, flush t.2))

theorem flush_le (x : ℝ) : |flush x| ≤ |x| := by unfold flush; split <;> simp

theorem gliding_flush {c : Cf} {R D : ℝ} {s0 s : ℝ × ℝ} {n : ℕ} (h : Gliding c R D s0 n s) : Gliding c R D s0 n (flush s.1, flush s.2) := by
  obtain ⟨t, h1, rfl | rfl⟩ := h
  · exact ⟨s, h1, .inr rfl⟩
  · exact ⟨t, h1, .inr (by simp only [flush_flush])⟩

theorem near_abs {x y d : ℝ} (h : |x - y| ≤ d) : |x| ≤ |y| + d := by have := abs_sub_abs_le_abs_sub x y; linarith

/-- One sample of one channel. -/
theorem gliding_step {c : Cf} {R X : ℝ} (hR : 0 ≤ R) {s0 s : ℝ × ℝ} {n m : ℕ} (h : Gliding c R (shove c R X) s0 n s) {k : Cf} (hk : Near c (R * rho ^ m) k) (hm : n ≤ m)
    {x : ℝ} (hx : |x| ≤ X) : Gliding c R (shove c R X) s0 (n + 1) (chan k x s.1 s.2).2 := by
  have X0 : 0 ≤ X := (abs_nonneg _).trans hx
  have hk' := near_mono hk (mul_le_mul_of_nonneg_left (rho_anti hm) hR)
  have hkR : Near c R k := near_mono hk (by have := mul_le_mul_of_nonneg_left (rho_pow_le m) hR; linarith)
  obtain ⟨t, ht, hs⟩ := h
  obtain ⟨δ, ε, e1, e2, hδ, hε⟩ : ∃ δ ε : ℝ, s.1 = t.1 + δ ∧ s.2 = t.2 + ε ∧ |δ| ≤ 1e-30 ∧ |ε| ≤ 1e-30 := by
    rcases hs with rfl | rfl
    · exact ⟨0, 0, by ring, by ring, by norm_num, by norm_num⟩
    · exact ⟨_, _, by simp only; ring, by simp only; ring, flush_err _, flush_err _⟩
  have n1 := near_abs hkR.a1; have n2 := near_abs hkR.a2; have n3 := near_abs hkR.b0; have n4 := near_abs hkR.b1; have n5 := near_abs hkR.b2
  have z0 := abs_nonneg c.b0; have z1 := abs_nonneg c.b1; have z2 := abs_nonneg c.b2; have z3 := abs_nonneg c.a1; have z4 := abs_nonneg c.a2
  have t0 : (0 : ℝ) ≤ 1e-30 := by norm_num
  unfold shove
  unfold shove at ht
  generalize (1e-30 : ℝ) = τ at *
  have one : ∀ b a ζ : ℝ, |b| ≤ |c.b1| + |c.b2| + 2 * R → |a| ≤ |c.a1| + |c.a2| + 2 * R → |ζ| ≤ τ →
      |(b - a * k.b0) * x - a * δ + ζ| ≤ (|c.b1| + |c.b2| + 2 * R + (|c.a1| + |c.a2| + 2 * R) * (|c.b0| + R + 1) + 1) * (X + τ) := by
    intro b a ζ hb ha hζ
    have p1 := abs_add_le ((b - a * k.b0) * x - a * δ) ζ
    have p2 := abs_sub ((b - a * k.b0) * x) (a * δ)
    rw [abs_mul, abs_mul] at p2
    have p3 : |b - a * k.b0| ≤ |b| + |a| * |k.b0| := by rw [← abs_mul]; exact abs_sub _ _
    have p4 : |a| * |k.b0| ≤ (|c.a1| + |c.a2| + 2 * R) * (|c.b0| + R) := mul_le_mul ha n3 (abs_nonneg _) (by linarith)
    have p5 : |b - a * k.b0| * |x| ≤ (|c.b1| + |c.b2| + 2 * R + (|c.a1| + |c.a2| + 2 * R) * (|c.b0| + R)) * X :=
      mul_le_mul (by linarith) hx (abs_nonneg _) (by positivity)
    have p6 : |a| * |δ| ≤ (|c.a1| + |c.a2| + 2 * R) * τ := mul_le_mul ha hδ (abs_nonneg _) (by linarith)
    have q1 : 0 ≤ (|c.a1| + |c.a2| + 2 * R) * X := by positivity
    have q2 : 0 ≤ (|c.b1| + |c.b2| + 2 * R + (|c.a1| + |c.a2| + 2 * R) * (|c.b0| + R)) * τ := by positivity
    nlinarith
  refine ⟨_, .step ht hk'.a1 hk'.a2 (one k.b1 k.a1 ε (by linarith) (by linarith) hε) (one k.b2 k.a2 0 (by linarith) (by linarith) (by simpa using t0)), .inl ?_⟩
  refine Prod.ext ?_ ?_
  · simp only [chan, e1, e2]; ring
  · simp only [chan, e1, e2]; ring

/-- A filter on its way to `c`: `m` samples after the design. -/
structure Bound (c : Cf) (R : ℝ) (m : ℕ) (f : Filter) : Prop where
  goal : f.goal = c
  near : Near c (R * rho ^ m) f.cf

theorem bound_process {c : Cf} {R : ℝ} {m : ℕ} {f : Filter} (h : Bound c R m f) : Bound c R (m + 1) f.coeffProcess := by
  obtain ⟨h1, h2⟩ := h
  have e : ∀ l : VLag, |l.v - l.target| ≤ R * rho ^ m → |l.process.v - l.target| ≤ R * rho ^ (m + 1) := by
    intro l hl
    have : l.process.v - l.target = rho * (l.v - l.target) := by simp only [VLag.process, vlagLp, vlagLpInv, rho]; norm_num; linarith
    rw [this, abs_mul, abs_of_pos rho_pos, pow_succ]
    have := mul_le_mul_of_nonneg_left hl rho_pos.le
    linarith
  subst h1
  exact ⟨rfl, e _ h2.a1, e _ h2.a2, e _ h2.b0, e _ h2.b1, e _ h2.b2⟩

/-- A bound on what one sample puts out. -/
def Caps (c : Cf) (R K : ℝ) : Prop := ∀ (D : ℝ) (s0 s : ℝ × ℝ) (n : ℕ), 0 ≤ D → Glide c R D s0 n s → |s.1| ≤ K * (|s0.1| + |s0.2| + D) ∧ |s.2| ≤ K * (|s0.1| + |s0.2| + D)

/-- What an input of at most `X` can come to. -/
noncomputable def cap (c : Cf) (R K X : ℝ) (s0 : ℝ × ℝ) : ℝ := (|c.b0| + R) * X + K * (|s0.1| + |s0.2| + shove c R X)

theorem gliding_out {c : Cf} {R K X : ℝ} (hR : 0 ≤ R) (hK : Caps c R K) {s0 s : ℝ × ℝ} {n m : ℕ} (h : Gliding c R (shove c R X) s0 n s) {k : Cf} (hk : Near c (R * rho ^ m) k)
    {x : ℝ} (hx : |x| ≤ X) : |(chan k x s.1 s.2).1| ≤ cap c R K X s0 := by
  have X0 : 0 ≤ X := (abs_nonneg _).trans hx
  have hkR : Near c R k := near_mono hk (by have := mul_le_mul_of_nonneg_left (rho_pow_le m) hR; linarith)
  obtain ⟨t, ht, hs⟩ := h
  have u : |s.1| ≤ |t.1| := by
    rcases hs with rfl | rfl
    · exact le_rfl
    · exact flush_le _
  have v := (hK _ _ _ _ (shove_nonneg c hR X0) ht).1
  have w : |x * k.b0| ≤ (|c.b0| + R) * X := by
    rw [abs_mul, mul_comm]; exact mul_le_mul (near_abs hkR.b0) hx (abs_nonneg _) (by have := abs_nonneg c.b0; linarith)
  simp only [chan]
  exact (abs_add_le _ _).trans (add_le_add w (u.trans v))

/-- One channel of a filter on its way to `c`. -/
structure Under (c : Cf) (R X : ℝ) (s0 : ℝ × ℝ) (s : Side) (f : Filter) : Prop where
  h : ∃ m n, n ≤ m ∧ Bound c R m f ∧ Gliding c R (shove c R X) s0 n (s.of f.reg0, s.of f.reg1)

theorem under_left {c : Cf} {R K X : ℝ} (hR : 0 ≤ R) (hK : Caps c R K) {s0 : ℝ × ℝ} {f : Filter} (h : Under c R X s0 .left f) {x : ℝ} (hx : |x| ≤ X) :
    Under c R X s0 .left (f.coeffProcess.left x).1 ∧ |(f.coeffProcess.left x).2| ≤ cap c R K X s0 := by
  obtain ⟨m, n, hm, hb, hg⟩ := h.h
  have hb' := bound_process hb
  have hg' : Gliding c R (shove c R X) s0 n (f.coeffProcess.reg0.1, f.coeffProcess.reg1.1) := hg
  exact ⟨⟨m + 1, n + 1, by omega, ⟨hb'.goal, hb'.near⟩, gliding_step hR hg' hb'.near (by omega) hx⟩, gliding_out hR hK hg' hb'.near hx⟩

theorem under_skip {c : Cf} {R X : ℝ} {s0 : ℝ × ℝ} {f : Filter} (h : Under c R X s0 .right f) (x : ℝ) : Under c R X s0 .right (f.coeffProcess.left x).1 := by
  obtain ⟨m, n, hm, hb, hg⟩ := h.h
  exact ⟨m + 1, n, by omega, ⟨(bound_process hb).goal, (bound_process hb).near⟩, hg⟩

/-- One stereo sample. -/
theorem under_stereo {c : Cf} {R K X : ℝ} (hR : 0 ≤ R) (hK : Caps c R K) {s0 : ℝ × ℝ} {s : Side} {f : Filter} (h : Under c R X s0 s f) {l r : ℝ} (hx : |s.of (l, r)| ≤ X) :
    Under c R X s0 s (f.processSampleStereo l r).1 ∧ |s.of (f.processSampleStereo l r).2| ≤ cap c R K X s0 := by
  obtain ⟨m, n, hm, hb, hg⟩ := h.h
  have hb' := bound_process hb
  cases s
  · have hg' : Gliding c R (shove c R X) s0 n (f.coeffProcess.reg0.1, f.coeffProcess.reg1.1) := hg
    exact ⟨⟨m + 1, n + 1, by omega, ⟨hb'.goal, hb'.near⟩, gliding_step hR hg' hb'.near (by omega) hx⟩, gliding_out hR hK hg' hb'.near hx⟩
  · have hg' : Gliding c R (shove c R X) s0 n (f.coeffProcess.reg0.2, f.coeffProcess.reg1.2) := hg
    exact ⟨⟨m + 1, n + 1, by omega, ⟨hb'.goal, hb'.near⟩, gliding_step hR hg' hb'.near (by omega) hx⟩, gliding_out hR hK hg' hb'.near hx⟩

theorem under_loop {c : Cf} {R K X : ℝ} (hR : 0 ≤ R) (hK : Caps c R K) {s0 : ℝ × ℝ} {s : Side} (xs : List (ℝ × ℝ)) : ∀ {f : Filter}, Under c R X s0 s f → (∀ x ∈ xs, |s.of x| ≤ X) →
    Under c R X s0 s (f.stereoLoop xs).1 ∧ ∀ y ∈ (f.stereoLoop xs).2, |s.of y| ≤ cap c R K X s0 := by
  induction xs with
  | nil => exact fun h _ => ⟨h, by simp [Filter.stereoLoop]⟩
  | cons x xs ih =>
    intro f h hx
    obtain ⟨l, r⟩ := x
    obtain ⟨u1, u2⟩ := under_stereo hR hK h (hx (l, r) (by simp))
    obtain ⟨i1, i2⟩ := ih u1 (fun x hx' => hx x (by simp [hx']))
    refine ⟨i1, fun y hy => ?_⟩
    simp only [Filter.stereoLoop, List.mem_cons] at hy
    rcases hy with rfl | hy
    · exact u2
    · exact i2 y hy

theorem under_flush {c : Cf} {R X : ℝ} {s0 : ℝ × ℝ} {s : Side} {f : Filter} (h : Under c R X s0 s f) : Under c R X s0 s f.flushBoth := by
  obtain ⟨m, n, hm, hb, hg⟩ := h.h
  cases s
  · exact ⟨m, n, hm, ⟨hb.goal, hb.near⟩, gliding_flush hg⟩
  · exact ⟨m, n, hm, ⟨hb.goal, hb.near⟩, gliding_flush hg⟩

theorem under_flushLeft {c : Cf} {R X : ℝ} {s0 : ℝ × ℝ} {s : Side} {f : Filter} (h : Under c R X s0 s f) : Under c R X s0 s f.flushLeft := by
  obtain ⟨m, n, hm, hb, hg⟩ := h.h
  cases s
  · exact ⟨m, n, hm, ⟨hb.goal, hb.near⟩, gliding_flush hg⟩
  · exact ⟨m, n, hm, ⟨hb.goal, hb.near⟩, hg⟩

/-- A block. -/
theorem under_block {c : Cf} {R K X : ℝ} (hR : 0 ≤ R) (hK : Caps c R K) {s0 : ℝ × ℝ} {s : Side} (xs : List (ℝ × ℝ)) {f : Filter} (h : Under c R X s0 s f) (hx : ∀ x ∈ xs, |s.of x| ≤ X) :
    Under c R X s0 s (f.processBlockStereo xs).1 ∧ ∀ y ∈ (f.processBlockStereo xs).2, |s.of y| ≤ cap c R K X s0 :=
  ⟨under_flush (under_loop hR hK xs h hx).1, (under_loop hR hK xs h hx).2⟩

theorem under_mono_left {c : Cf} {R K X : ℝ} (hR : 0 ≤ R) (hK : Caps c R K) {s0 : ℝ × ℝ} (xs : List ℝ) : ∀ {f : Filter}, Under c R X s0 .left f → (∀ x ∈ xs, |x| ≤ X) →
    Under c R X s0 .left (f.monoLoop xs).1 ∧ ∀ y ∈ (f.monoLoop xs).2, |y| ≤ cap c R K X s0 := by
  induction xs with
  | nil => exact fun h _ => ⟨h, by simp [Filter.monoLoop]⟩
  | cons x xs ih =>
    intro f h hx
    obtain ⟨u1, u2⟩ := under_left hR hK h (hx x (by simp))
    obtain ⟨i1, i2⟩ := ih u1 (fun x hx' => hx x (by simp [hx']))
    refine ⟨i1, fun y hy => ?_⟩
    simp only [Filter.monoLoop, List.mem_cons] at hy
    rcases hy with rfl | hy
    · exact u2
    · exact i2 y hy

theorem under_mono_right {c : Cf} {R X : ℝ} {s0 : ℝ × ℝ} (xs : List ℝ) : ∀ {f : Filter}, Under c R X s0 .right f → Under c R X s0 .right (f.monoLoop xs).1 := by
  induction xs with
  | nil => exact fun h => h
  | cons x xs ih => exact fun h => ih (under_skip h x)

/-- The calls that move the coefficients along with every sample. -/
def Spec.gliding : Call → Prop
  | .sample _ => True
  | .stereo .. => True
  | .mono _ => True
  | .block _ => True
  | _ => False

theorem under_call {c : Cf} {R K X : ℝ} (hR : 0 ≤ R) (hK : Caps c R K) {s0 : ℝ × ℝ} {s : Side} {f : Filter} (h : Under c R X s0 s f) {k : Call} (hk : Spec.gliding k)
    (hx : ∀ x ∈ Spec.input s k, |x| ≤ X) : Under c R X s0 s (f.call k).1 ∧ ∀ y ∈ Spec.output (f.call k) s, |y| ≤ cap c R K X s0 := by
  cases k with
  | setCoef => exact hk.elim
  | instantize => exact hk.elim
  | nolag => exact hk.elim
  | noinput => exact hk.elim
  | slowlag => exact hk.elim
  | sample x =>
    cases s
    · have := under_left hR hK h (hx x (by simp [Spec.input]))
      exact ⟨this.1, fun y hy => by simp only [Spec.output, Filter.call, List.mem_singleton] at hy; rw [hy]; exact this.2⟩
    · exact ⟨under_skip h x, fun y hy => by simp [Spec.output, Filter.call] at hy⟩
  | stereo l r =>
    have := under_stereo hR hK h (l := l) (r := r) (by cases s <;> exact hx _ (by simp [Spec.input, Side.of]))
    refine ⟨this.1, fun y hy => ?_⟩
    cases s <;> · simp only [Spec.output, Filter.call, List.mem_singleton] at hy; rw [hy]; exact this.2
  | mono xs =>
    cases s
    · have := under_mono_left hR hK xs h (fun x h => hx x h)
      exact ⟨under_flushLeft this.1, this.2⟩
    · exact ⟨under_flushLeft (under_mono_right xs h), fun y hy => by simp [Spec.output, Filter.call] at hy⟩
  | block xs =>
    have := under_block hR hK xs h (fun x hm => by cases s <;> exact hx _ (List.mem_map.2 ⟨x, hm, rfl⟩))
    refine ⟨this.1, fun y hy => ?_⟩
    cases s <;> · obtain ⟨p, hp, rfl⟩ := List.mem_map.1 hy
                  exact this.2 p hp

theorem under_calls {c : Cf} {R K X : ℝ} (hR : 0 ≤ R) (hK : Caps c R K) {s0 : ℝ × ℝ} {s : Side} (ks : List Call) : ∀ {f : Filter}, Under c R X s0 s f → (∀ k ∈ ks, Spec.gliding k) →
    (∀ x ∈ ks.flatMap (Spec.input s), |x| ≤ X) → ∀ y ∈ Spec.output (f.calls ks) s, |y| ≤ cap c R K X s0 := by
  induction ks with
  | nil => intro f _ _ _ y hy; cases s <;> simp [Spec.output, Filter.calls] at hy
  | cons k ks ih =>
    intro f h hk hx y hy
    obtain ⟨u1, u2⟩ := under_call hR hK h (hk k (by simp)) (fun x hx' => hx x (by simp [hx']))
    have e : Spec.output (f.calls (k :: ks)) s = Spec.output (f.call k) s ++ Spec.output ((f.call k).1.calls ks) s := by cases s <;> rfl
    rw [e, List.mem_append] at hy
    rcases hy with hy | hy
    · exact u2 y hy
    · exact ih u1 (fun k' hk' => hk k' (by simp [hk'])) (fun x hx' => hx x (by simp only [List.flatMap_cons, List.mem_append]; exact .inr hx')) y hy

theorem setCoef_bound (f : Filter) (a0 a1 a2 b0 b1 b2 : ℝ) {R : ℝ} (hR : 0 ≤ R) (h : f.firstRun = true ∨ Near (Spec.normal a0 a1 a2 b0 b1 b2) R f.cf) :
    Bound (Spec.normal a0 a1 a2 b0 b1 b2) R 0 (f.setCoef a0 a1 a2 b0 b1 b2) ∧ (f.setCoef a0 a1 a2 b0 b1 b2).reg0 = f.reg0 ∧ (f.setCoef a0 a1 a2 b0 b1 b2).reg1 = f.reg1
      ∧ (f.setCoef a0 a1 a2 b0 b1 b2).firstRun = false := by
  simp only [Filter.setCoef, Filter.start]
  cases hf : f.firstRun
  · have h' := h.resolve_left (by simp [hf])
    simp only [Bool.false_eq_true, if_false]
    refine ⟨⟨?_, ?_⟩, rfl, rfl, by simp [Filter.newValues, hf]⟩
    · simp only [Filter.goal, Filter.newValues, VLag.newValue, Spec.normal, mul_one_div]
    · rw [pow_zero, mul_one]; exact h'
  · simp only [if_true]
    refine ⟨⟨?_, ?_⟩, rfl, rfl, rfl⟩
    · simp only [Filter.goal, Filter.newValues, VLag.newValue, Spec.normal, mul_one_div]
    · rw [pow_zero, mul_one]
      simp only [Filter.newValues, VLag.newValue, VLag.startValue, Spec.normal, Filter.cf, mul_one_div]
      constructor <;> simpa using hR

/-- **C96** while the coefficients glide: for every stable design and every distance `R` there is one constant, such that whatever the registers are and whatever coefficients within `R` of the new ones
the filter had before, after the new design every history of smoothed calls puts out at most that constant times what is in the registers and the input. -/
theorem C96_bounded_while_gliding_partial {a0 a1 a2 b0 b1 b2 : ℝ} (hs : Spec.Stable (Spec.normal a0 a1 a2 b0 b1 b2)) {R : ℝ} (hR : 0 ≤ R) :
    ∃ K : ℝ, 0 ≤ K ∧ ∀ (f : Filter) (s : Side) (ks : List Call) (X : ℝ), f.firstRun = true ∨ Near (Spec.normal a0 a1 a2 b0 b1 b2) R f.cf →
      (∀ k ∈ ks, Spec.gliding k) → (∀ x ∈ ks.flatMap (Spec.input s), |x| ≤ X) → 0 ≤ X →
      ∀ y ∈ Spec.output ((f.setCoef a0 a1 a2 b0 b1 b2).calls ks) s, |y| ≤ K * (|s.of f.reg0| + |s.of f.reg1| + X + 1e-30) := by
  obtain ⟨K, K0, hK⟩ := glide_bound hs hR
  set c := Spec.normal a0 a1 a2 b0 b1 b2 with hc
  set P := |c.b1| + |c.b2| + 2 * R + (|c.a1| + |c.a2| + 2 * R) * (|c.b0| + R + 1) + 1 with hP
  have z0 := abs_nonneg c.b0; have z1 := abs_nonneg c.b1; have z2 := abs_nonneg c.b2; have z3 := abs_nonneg c.a1; have z4 := abs_nonneg c.a2
  have P1 : 1 ≤ P := by
    have : 0 ≤ (|c.a1| + |c.a2| + 2 * R) * (|c.b0| + R + 1) := by positivity
    linarith
  refine ⟨|c.b0| + R + K * P, by positivity, fun f s ks X hf hk hx X0 y hy => ?_⟩
  obtain ⟨u1, u2, u3, -⟩ := setCoef_bound f a0 a1 a2 b0 b1 b2 hR hf
  have u : Under c R X (s.of f.reg0, s.of f.reg1) s (f.setCoef a0 a1 a2 b0 b1 b2) := ⟨0, 0, le_rfl, u1, by rw [u2, u3]; exact ⟨_, .zero, .inl rfl⟩⟩
  have := under_calls hR hK ks u hk hx y hy
  refine this.trans ?_
  unfold cap shove
  rw [← hP]
  have q0 := abs_nonneg (s.of f.reg0)
  have q1 := abs_nonneg (s.of f.reg1)
  have t0 : (0 : ℝ) ≤ 1e-30 := by norm_num
  simp only
  generalize (1e-30 : ℝ) = τ at *
  generalize |s.of f.reg0| = ra at *
  generalize |s.of f.reg1| = rb at *
  have w1 : 0 ≤ (|c.b0| + R) * (ra + rb + τ) := by positivity
  have w2 : 0 ≤ K * ((P - 1) * (ra + rb)) := mul_nonneg K0 (mul_nonneg (by linarith) (by linarith))
  nlinarith

/-- A case: a filter that had just been given one design gets another and plays four samples while it glides. -/
example : ∃ K : ℝ, 0 ≤ K ∧ ∀ y ∈ Spec.output (((Filter.new.setCoef 1 (-1.8) 0.82 0.005 0.01 0.005).setCoef 2 1 1 1 1 1).calls
      [.stereo 1 0.5, .mono [1, -1, 0.25]]) .left, |y| ≤ K * (0 + 0 + 1 + 1e-30) := by
  obtain ⟨K, K0, h⟩ := C96_bounded_while_gliding_partial (a0 := 2) (a1 := 1) (a2 := 1) (b0 := 1) (b1 := 1) (b2 := 1)
    (by norm_num [Spec.Stable, Spec.normal, abs_of_pos]) (R := 3) (by norm_num)
  refine ⟨K, K0, ?_⟩
  have e := h (Filter.new.setCoef 1 (-1.8) 0.82 0.005 0.01 0.005) .left [.stereo 1 0.5, .mono [1, -1, 0.25]] 1 (.inr ?_) ?_ ?_ (by norm_num)
  · simpa [Filter.setCoef, Filter.start, Filter.newValues, Filter.new, Side.of] using e
  · constructor <;> norm_num [Filter.setCoef, Filter.start, Filter.newValues, Filter.new, Filter.cf, Spec.normal, VLag.new, VLag.newValue, VLag.startValue, abs_le]
  · simp [Spec.gliding]
  · norm_num [Spec.input, abs_of_pos]

end Verif.Biquad
