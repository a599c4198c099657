import Verif.Biquad.Rounded
/-!
# The biquad in floating point, gliding (C96)

`Biquad/Rounded` bounds a filter whose coefficients stay near a stable design. Here the smoothers that bring the coefficients there are part of the
run, and are rounded as well: from whatever coefficients, stable or not, to a new design.
-/
namespace Verif.Biquad

/-- The same bound from registers of any size `S`. -/
theorem rounded_from {c : Cf} {r : ℝ} (r0 : 0 < r) (r1 : r < 1) (h2 : |c.a2| < r ^ 2) (h1 : r * |c.a1| < r ^ 2 + c.a2)
    {u η δ : ℝ} (u0 : 0 ≤ u) (u1 : u ≤ 1 / 16) (hη : 1e-30 ≤ η) (δ0 : 0 ≤ δ) (δ1 : δ ≤ 1)
    (hsmall : 2 * Spec.gain c r * Spec.slack c u δ ≤ 1) {rnd : ℝ → ℝ} (hr : Spec.Rounding rnd u η) {M S : ℝ} (M0 : 0 ≤ M)
    {s : ℝ × ℝ} (hs : |s.1| ≤ S ∧ |s.2| ≤ S) (xs : List (Cf × ℝ × Bool)) (hx : ∀ x ∈ xs, Spec.Near c δ x.1 ∧ |x.2.1| ≤ M) :
    (runR rnd s xs).length = xs.length ∧ ∀ y ∈ runR rnd s xs, |y| ≤
      2 * (Spec.sizeB c * M + 2 * Spec.gain c r * ((1 + Spec.sizeA c) * Spec.sizeB c * M + Spec.slack c u δ * M + 7 * (1 + Spec.sizeA c) * η + S)) + 3 * η := by
  obtain ⟨hl, hg⟩ := runR_get rnd xs s
  refine ⟨hl, ?_⟩
  have η0 : 0 ≤ η := le_trans (by norm_num) hη
  have A0 : 0 ≤ Spec.sizeA c := by unfold Spec.sizeA; positivity
  have B0 : 0 ≤ Spec.sizeB c := by unfold Spec.sizeB; positivity
  have K0 : 0 ≤ Spec.slack c u δ := by unfold Spec.slack; positivity
  have G0 : 0 ≤ Spec.gain c r := by
    unfold Spec.gain
    have q1 : 0 < r ^ 2 + c.a2 - r * |c.a1| := by linarith
    have q2 : 0 < r ^ 2 + c.a2 := by linarith [mul_nonneg r0.le (abs_nonneg c.a1)]
    have q3 : 0 < 1 - r := by linarith
    positivity
  obtain ⟨D0, hD0⟩ : ∃ D0, D0 = (1 + Spec.sizeA c) * Spec.sizeB c * M + Spec.slack c u δ * M + 7 * (1 + Spec.sizeA c) * η + S := ⟨_, rfl⟩
  have S0 : 0 ≤ S := (abs_nonneg _).trans hs.1
  have D00 : 0 ≤ D0 := by rw [hD0]; positivity
  have hSD : S ≤ D0 := by
    rw [hD0]
    have : 0 ≤ (1 + Spec.sizeA c) * Spec.sizeB c * M + Spec.slack c u δ * M + 7 * (1 + Spec.sizeA c) * η := by positivity
    linarith
  obtain ⟨Z, hZ⟩ : ∃ Z, Z = 2 * Spec.gain c r * D0 := ⟨_, rfl⟩
  have Z0 : 0 ≤ Z := by rw [hZ]; positivity
  have key : ∀ n ≤ xs.length, ∀ m ≤ n, |(regsR rnd s xs m).1| ≤ Z ∧ |(regsR rnd s xs m).2| ≤ Z := by
    intro n
    induction n with
    | zero =>
      intro _ m hm
      rw [Nat.le_zero.mp hm]
      have sb := seq_bound_at r0 r1 h2 h1 0 (fun _ => s) (fun _ => (0, 0)) D0 (by omega) (by omega) D00 ⟨hs.1.trans hSD, hs.2.trans hSD⟩ 0 le_rfl
      have : Spec.gain c r * D0 ≤ Z := by rw [hZ]; nlinarith [mul_nonneg G0 D00]
      exact ⟨sb.1.trans this, sb.2.trans this⟩
    | succ n ih =>
      intro hn
      have i := ih (by omega)
      have D1 : 0 ≤ D0 + Spec.slack c u δ * Z := by positivity
      have sb := seq_bound_at r0 r1 h2 h1 (n + 1) (regsR rnd s xs)
        (fun m => ((regsR rnd s xs (m + 1)).1 - (-c.a1 * (regsR rnd s xs m).1 + (regsR rnd s xs m).2),
          (regsR rnd s xs (m + 1)).2 - -c.a2 * (regsR rnd s xs m).1)) (D0 + Spec.slack c u δ * Z) (by
            intro m hm
            ext <;> simp) (by
            intro m hm
            obtain ⟨i1, i2⟩ := i m (by omega)
            have hmx : m < xs.length := by omega
            obtain ⟨hk, hxm⟩ := hx xs[m] (List.getElem_mem hmx)
            have er := chanR_err hr u0 u1 η0 hk δ0 δ1 hxm i1 i2
            obtain ⟨q, hq⟩ : ∃ q, q = chanR rnd xs[m].1 xs[m].2.1 (regsR rnd s xs m).1 (regsR rnd s xs m).2 := ⟨_, rfl⟩
            rw [← hq] at er
            obtain ⟨-, er1, er2⟩ := er
            have step : |(regsR rnd s xs (m + 1)).1 - q.2.1| ≤ η ∧ |(regsR rnd s xs (m + 1)).2 - q.2.2| ≤ η := by
              have e : regsR rnd s xs (m + 1) = if xs[m].2.2 then (flush q.2.1, flush q.2.2) else q.2 := by
                rw [hq]
                simp only [regsR, List.getD_eq_getElem?_getD, List.getElem?_eq_getElem hmx, Option.getD_some]
              rw [e]
              split_ifs
              · exact ⟨(flush_err _).trans hη, (flush_err _).trans hη⟩
              · simp [η0]
            have size : ∀ a b : ℝ, |a| ≤ Spec.sizeA c → |b| ≤ Spec.sizeB c → |xs[m].2.1 * (b - a * c.b0)| ≤ (1 + Spec.sizeA c) * Spec.sizeB c * M := by
              intro a b ha hb
              have hb0 : |c.b0| ≤ Spec.sizeB c := by unfold Spec.sizeB; linarith [abs_nonneg c.b1, abs_nonneg c.b2]
              have t1 := abs_sub b (a * c.b0)
              have t2 : |a * c.b0| ≤ Spec.sizeA c * Spec.sizeB c := by rw [abs_mul]; exact mul_le_mul ha hb0 (abs_nonneg _) A0
              rw [abs_mul]
              have := mul_le_mul hxm (show |b - a * c.b0| ≤ (1 + Spec.sizeA c) * Spec.sizeB c by linarith) (abs_nonneg _) M0
              linarith
            have hA1 : |c.a1| ≤ Spec.sizeA c := by unfold Spec.sizeA; linarith [abs_nonneg c.a2]
            have hA2 : |c.a2| ≤ Spec.sizeA c := by unfold Spec.sizeA; linarith [abs_nonneg c.a1]
            have hB1 : |c.b1| ≤ Spec.sizeB c := by unfold Spec.sizeB; linarith [abs_nonneg c.b0, abs_nonneg c.b2]
            have hB2 : |c.b2| ≤ Spec.sizeB c := by unfold Spec.sizeB; linarith [abs_nonneg c.b0, abs_nonneg c.b1]
            have s1 := size _ _ hA1 hB1
            have s2 := size _ _ hA2 hB2
            have Aη : 0 ≤ Spec.sizeA c * η := by positivity
            obtain ⟨t, ht⟩ : ∃ t, t = regsR rnd s xs m := ⟨_, rfl⟩
            obtain ⟨t', ht'⟩ : ∃ t', t' = regsR rnd s xs (m + 1) := ⟨_, rfl⟩
            rw [← ht] at er1 er2 ⊢
            rw [← ht'] at step ⊢
            dsimp only
            constructor
            · have e : t'.1 - (-c.a1 * t.1 + t.2) = (t'.1 - q.2.1) + (q.2.1 - (xs[m].2.1 * (c.b1 - c.a1 * c.b0) - c.a1 * t.1 + t.2)) +
                  xs[m].2.1 * (c.b1 - c.a1 * c.b0) := by ring
              rw [e]
              refine (abs_add_three _ _ _).trans ?_
              rw [hD0]
              linarith [step.1]
            · have e : t'.2 - -c.a2 * t.1 = (t'.2 - q.2.2) + (q.2.2 - (xs[m].2.1 * (c.b2 - c.a2 * c.b0) - c.a2 * t.1)) +
                  xs[m].2.1 * (c.b2 - c.a2 * c.b0) := by ring
              rw [e]
              refine (abs_add_three _ _ _).trans ?_
              rw [hD0]
              linarith [step.2]) D1 (by
            have t : 0 ≤ Spec.slack c u δ * Z := by positivity
            exact ⟨hs.1.trans (by linarith), hs.2.trans (by linarith)⟩)
      have fin : Spec.gain c r * (D0 + Spec.slack c u δ * Z) ≤ Z := by
        have := mul_le_mul_of_nonneg_right hsmall Z0
        have e : Spec.gain c r * (D0 + Spec.slack c u δ * Z) = Z / 2 + 2 * Spec.gain c r * Spec.slack c u δ * Z / 2 := by rw [hZ]; ring
        rw [e]; linarith
      intro m hm
      exact ⟨((sb m hm).1).trans fin, ((sb m hm).2).trans fin⟩
  intro y hy
  obtain ⟨n, hn⟩ := List.mem_iff_getElem?.mp hy
  have hnx : n < xs.length := by
    by_contra hc
    rw [List.getElem?_eq_none (by omega)] at hn
    simp at hn
  rw [hg n hnx] at hn
  obtain ⟨i1, i2⟩ := key n hnx.le n le_rfl
  obtain ⟨hk, hxm⟩ := hx xs[n] (List.getElem_mem hnx)
  have er := (chanR_err hr u0 u1 η0 hk δ0 δ1 hxm i1 i2).1
  rw [← Option.some.inj hn, ← hD0, ← hZ]
  exact er

/-- vlag.rs 127-129 `process` with the rounding `rnd` after each of its three operations (the constants 0.004 and 0.996 are exact here). -/
noncomputable def lagR (rnd : ℝ → ℝ) (v t : ℝ) : ℝ := rnd (rnd (v * vlagLpInv) + rnd (t * vlagLp))

/-- biquad.rs 22-28 `coeff_process`, rounded: the coefficients `k` make one step towards the design `c`. -/
noncomputable def stepR (rnd : ℝ → ℝ) (c k : Cf) : Cf :=
  ⟨lagR rnd k.a1 c.a1, lagR rnd k.a2 c.a2, lagR rnd k.b0 c.b0, lagR rnd k.b1 c.b1, lagR rnd k.b2 c.b2⟩

/-- process_sample.rs, process_mono.rs, process_stereo.rs: a channel while its coefficients glide from `k` to the design `c`, one step before
every sample, with every operation rounded and the registers flushed after any of the samples. -/
noncomputable def glideR (rnd : ℝ → ℝ) (c : Cf) : Cf → ℝ × ℝ → List (ℝ × Bool) → List ℝ
  | _, _, [] => []
  | k, s, (x, fl) :: rest =>
    let q := chanR rnd (stepR rnd c k) x s.1 s.2
    q.1 :: glideR rnd c (stepR rnd c k) (if fl then (flush q.2.1, flush q.2.2) else q.2) rest

/-! ## Proofs -/

theorem lagR_err {rnd : ℝ → ℝ} {u η : ℝ} (h : Spec.Rounding rnd u η) (u0 : 0 ≤ u) (u1 : u ≤ 1 / 3000) (η0 : 0 ≤ η) {v t e T : ℝ}
    (he : |v - t| ≤ e) (hT : |t| ≤ T) : |lagR rnd v t - t| ≤ 0.997 * e + (3 * u * T + 4 * η) := by
  have s : ∀ p q : ℝ, |rnd (rnd p + rnd q) - (p + q)| ≤ 3 * u * (|p| + |q|) + 4 * η := by
    intro p q
    have e1 := h p
    have e1' := h q
    have e2 := h (rnd p + rnd q)
    have e3 := abs_add_le (rnd p) (rnd q)
    have e4 := rnd_le h p
    have e4' := rnd_le h q
    have e5 : |rnd (rnd p + rnd q) - (p + q)| ≤ |rnd (rnd p + rnd q) - (rnd p + rnd q)| + |rnd p - p| + |rnd q - q| := by
      have := abs_add_three (rnd (rnd p + rnd q) - (rnd p + rnd q)) (rnd p - p) (rnd q - q)
      have e : rnd (rnd p + rnd q) - (rnd p + rnd q) + (rnd p - p) + (rnd q - q) = rnd (rnd p + rnd q) - (p + q) := by ring
      rwa [e] at this
    have e6 : u * |rnd p + rnd q| ≤ u * ((1 + u) * (|p| + |q|) + 2 * η) := mul_le_mul_of_nonneg_left (by linarith) u0
    have e7 : u * (u * (|p| + |q|)) ≤ u * (|p| + |q|) := by
      have : u * (|p| + |q|) ≤ 1 * (|p| + |q|) := mul_le_mul_of_nonneg_right (by linarith) (by positivity)
      exact mul_le_mul_of_nonneg_left (by linarith) u0
    have e8 : u * η ≤ η / 16 := by nlinarith
    nlinarith
  have hs := s (v * vlagLpInv) (t * vlagLp)
  have l1 : vlagLpInv = 0.996 := by norm_num [vlagLpInv]
  have l2 : vlagLp = 0.004 := rfl
  rw [l1, l2] at hs
  unfold lagR
  rw [l1, l2]
  obtain ⟨z, hz⟩ : ∃ z, z = rnd (rnd (v * 0.996) + rnd (t * 0.004)) := ⟨_, rfl⟩
  rw [← hz] at hs ⊢
  have b : |v| ≤ e + T := by
    have := abs_add_le (v - t) t
    rw [sub_add_cancel] at this; linarith
  have c1 : |v * 0.996| = 0.996 * |v| := by rw [abs_mul, abs_of_pos (by norm_num : (0 : ℝ) < 0.996), mul_comm]
  have c2 : |t * 0.004| = 0.004 * |t| := by rw [abs_mul, abs_of_pos (by norm_num : (0 : ℝ) < 0.004), mul_comm]
  have d : |z - t| ≤ |z - (v * 0.996 + t * 0.004)| + 0.996 * |v - t| := by
    have := abs_add_le (z - (v * 0.996 + t * 0.004)) (0.996 * (v - t))
    rw [abs_mul, abs_of_pos (by norm_num : (0 : ℝ) < 0.996)] at this
    have e : z - (v * 0.996 + t * 0.004) + 0.996 * (v - t) = z - t := by ring
    rwa [e] at this
  rw [c1, c2] at hs
  have e0 : 0 ≤ e := (abs_nonneg _).trans he
  have f : u * (0.996 * |v| + 0.004 * |t|) ≤ u * (e + T) := mul_le_mul_of_nonneg_left (by linarith [abs_nonneg v, abs_nonneg t]) u0
  have g : u * e ≤ 1 / 3000 * e := mul_le_mul_of_nonneg_right u1 e0
  linarith

theorem stepR_near {rnd : ℝ → ℝ} {u η : ℝ} (h : Spec.Rounding rnd u η) (u0 : 0 ≤ u) (u1 : u ≤ 1 / 3000) (η0 : 0 ≤ η) {c k : Cf} {e : ℝ}
    (hk : Spec.Near c e k) : Spec.Near c (0.997 * e + (3 * u * (Spec.sizeA c + Spec.sizeB c) + 4 * η)) (stepR rnd c k) := by
  have := abs_nonneg c.a1
  have := abs_nonneg c.a2
  have := abs_nonneg c.b0
  have := abs_nonneg c.b1
  have := abs_nonneg c.b2
  constructor
  · exact lagR_err h u0 u1 η0 hk.a1 (by unfold Spec.sizeA Spec.sizeB; linarith)
  · exact lagR_err h u0 u1 η0 hk.a2 (by unfold Spec.sizeA Spec.sizeB; linarith)
  · exact lagR_err h u0 u1 η0 hk.b0 (by unfold Spec.sizeA Spec.sizeB; linarith)
  · exact lagR_err h u0 u1 η0 hk.b1 (by unfold Spec.sizeA Spec.sizeB; linarith)
  · exact lagR_err h u0 u1 η0 hk.b2 (by unfold Spec.sizeA Spec.sizeB; linarith)

theorem near_le {c k : Cf} {d e : ℝ} (h : Spec.Near c d k) (hd : d ≤ e) : Spec.Near c e k := ⟨h.1.trans hd, h.2.trans hd, h.3.trans hd, h.4.trans hd, h.5.trans hd⟩

/-- Once near, always near: the glide is a run with coefficients within `δ` of the design. -/
theorem glide_near {rnd : ℝ → ℝ} {u η : ℝ} (h : Spec.Rounding rnd u η) (u0 : 0 ≤ u) (u1 : u ≤ 1 / 3000) (η0 : 0 ≤ η) {c : Cf} {δ : ℝ}
    (hδ : 1000 * u * (Spec.sizeA c + Spec.sizeB c) + 1334 * η ≤ δ) {M : ℝ} :
    ∀ (xs : List (ℝ × Bool)) (k : Cf) (s : ℝ × ℝ), Spec.Near c δ k → (∀ x ∈ xs, |x.1| ≤ M) →
      ∃ l : List (Cf × ℝ × Bool), (∀ x ∈ l, Spec.Near c δ x.1 ∧ |x.2.1| ≤ M) ∧ glideR rnd c k s xs = runR rnd s l := by
  intro xs
  induction xs with
  | nil => exact fun k s _ _ => ⟨[], by simp, rfl⟩
  | cons x xs ih =>
    intro k s hk hx
    have n := near_le (stepR_near h u0 u1 η0 hk) (show 0.997 * δ + (3 * u * (Spec.sizeA c + Spec.sizeB c) + 4 * η) ≤ δ by linarith)
    obtain ⟨l, l1, l2⟩ := ih (stepR rnd c k) (if x.2 then (flush (chanR rnd (stepR rnd c k) x.1 s.1 s.2).2.1, flush (chanR rnd (stepR rnd c k) x.1 s.1 s.2).2.2)
      else (chanR rnd (stepR rnd c k) x.1 s.1 s.2).2) n (fun y hy => hx y (List.mem_cons_of_mem _ hy))
    refine ⟨(stepR rnd c k, x) :: l, ?_, ?_⟩
    · intro y hy
      rcases List.mem_cons.1 hy with rfl | hy
      · exact ⟨n, hx x List.mem_cons_self⟩
      · exact l1 y hy
    · obtain ⟨x, fl⟩ := x
      simp only [glideR, runR]
      rw [l2]

theorem flush_le (x : ℝ) : |flush x| ≤ |x| := by
  unfold flush
  split_ifs <;> simp

/-- One rounded sample, whatever the coefficients: nothing grows by more than a factor that depends on their size. -/
theorem chanR_growth {rnd : ℝ → ℝ} {u η : ℝ} (h : Spec.Rounding rnd u η) (u0 : 0 ≤ u) (u1 : u ≤ 1 / 16) (η0 : 0 ≤ η) {A B : ℝ} {k : Cf}
    (hA : Spec.sizeA k ≤ A) (hB : Spec.sizeB k ≤ B) {x s1 s2 X S : ℝ} (hx : |x| ≤ X) (h1 : |s1| ≤ S) (h2 : |s2| ≤ S) :
    |(chanR rnd k x s1 s2).1| ≤ 12 * (1 + A) * (1 + B) * (S + X + η) ∧
    |(chanR rnd k x s1 s2).2.1| ≤ 12 * (1 + A) * (1 + B) * (S + X + η) ∧ |(chanR rnd k x s1 s2).2.2| ≤ 12 * (1 + A) * (1 + B) * (S + X + η) := by
  have e := chanR_err (δ := 0) h u0 u1 η0 (c := k) (k := k) ⟨by simp, by simp, by simp, by simp, by simp⟩ le_rfl zero_le_one hx h1 h2
  have X0 : 0 ≤ X := (abs_nonneg _).trans hx
  have S0 : 0 ≤ S := (abs_nonneg _).trans h1
  have z1 := abs_nonneg k.a1
  have z2 := abs_nonneg k.a2
  have z3 := abs_nonneg k.b0
  have z4 := abs_nonneg k.b1
  have z5 := abs_nonneg k.b2
  have A0 : 0 ≤ Spec.sizeA k := by unfold Spec.sizeA; positivity
  have B0 : 0 ≤ Spec.sizeB k := by unfold Spec.sizeB; positivity
  have g : 12 * (1 + Spec.sizeA k) * (1 + Spec.sizeB k) * (S + X + η) ≤ 12 * (1 + A) * (1 + B) * (S + X + η) := by
    have : 0 ≤ A := A0.trans hA
    have : 0 ≤ B := B0.trans hB
    gcongr
  have hA1 : |k.a1| ≤ Spec.sizeA k := by unfold Spec.sizeA; linarith
  have hA2 : |k.a2| ≤ Spec.sizeA k := by unfold Spec.sizeA; linarith
  have hB0 : |k.b0| ≤ Spec.sizeB k := by unfold Spec.sizeB; linarith
  have hB1 : |k.b1| ≤ Spec.sizeB k := by unfold Spec.sizeB; linarith
  have hB2 : |k.b2| ≤ Spec.sizeB k := by unfold Spec.sizeB; linarith
  obtain ⟨a, ha⟩ : ∃ a, a = Spec.sizeA k := ⟨_, rfl⟩
  obtain ⟨b, hb⟩ : ∃ b, b = Spec.sizeB k := ⟨_, rfl⟩
  rw [← ha] at A0 hA1 hA2 g
  rw [← hb] at B0 hB0 hB1 hB2 g
  have sl : Spec.slack k u 0 ≤ 0.75 * ((1 + a) * (1 + b)) := by
    unfold Spec.slack
    rw [← ha, ← hb]
    have : 0 ≤ (1 + a) * (1 + b) := by positivity
    nlinarith
  have sl' : Spec.slack k u 0 * (S + X) ≤ 0.75 * ((1 + a) * (1 + b)) * (S + X) := mul_le_mul_of_nonneg_right sl (by positivity)
  have P : 0 ≤ a * b := by positivity
  have sz : ∀ p q : ℝ, |p| ≤ a → |q| ≤ b → |x * (q - p * k.b0)| ≤ (1 + a) * b * X := by
    intro p q hp hq
    have t1 := abs_sub q (p * k.b0)
    have t2 : |p * k.b0| ≤ a * b := by rw [abs_mul]; exact mul_le_mul hp hB0 (abs_nonneg _) A0
    rw [abs_mul]
    have := mul_le_mul hx (show |q - p * k.b0| ≤ (1 + a) * b by linarith) (abs_nonneg _) X0
    linarith
  have sa : ∀ p : ℝ, |p| ≤ a → |p * s1| ≤ a * S := fun p hp => by rw [abs_mul]; exact mul_le_mul hp h1 (abs_nonneg _) A0
  have e1 := sz _ _ hA1 hB1
  have e2 := sz _ _ hA2 hB2
  have f1 := sa _ hA1
  have f2 := sa _ hA2
  obtain ⟨w1, w2, w3⟩ := e
  rw [← ha] at w2 w3
  rw [← hb] at w1
  have aS : 0 ≤ a * S := by positivity
  have bS : 0 ≤ b * S := by positivity
  have aX : 0 ≤ a * X := by positivity
  have bX : 0 ≤ b * X := by positivity
  have aη : 0 ≤ a * η := by positivity
  have bη : 0 ≤ b * η := by positivity
  have pS : 0 ≤ a * b * S := by positivity
  have pX : 0 ≤ a * b * X := by positivity
  have pη : 0 ≤ a * b * η := by positivity
  have ex : 12 * (1 + a) * (1 + b) * (S + X + η) = 12 * (S + X + η + a * S + a * X + a * η + b * S + b * X + b * η + a * b * S + a * b * X + a * b * η) := by ring
  rw [ex] at g
  have ex2 : 0.75 * ((1 + a) * (1 + b)) * (S + X) = 0.75 * (S + X + a * S + a * X + b * S + b * X + a * b * S + a * b * X) := by ring
  rw [ex2] at sl'
  have ex3 : (1 + a) * b * X = b * X + a * b * X := by ring
  rw [ex3] at e1 e2
  refine ⟨?_, ?_, ?_⟩
  · linarith
  · have t := abs_add_le ((chanR rnd k x s1 s2).2.1 - (x * (k.b1 - k.a1 * k.b0) - k.a1 * s1 + s2)) (x * (k.b1 - k.a1 * k.b0) - k.a1 * s1 + s2)
    rw [sub_add_cancel] at t
    have t2 := abs_add_le (x * (k.b1 - k.a1 * k.b0) - k.a1 * s1) s2
    have t3 := abs_sub (x * (k.b1 - k.a1 * k.b0)) (k.a1 * s1)
    linarith
  · have t := abs_add_le ((chanR rnd k x s1 s2).2.2 - (x * (k.b2 - k.a2 * k.b0) - k.a2 * s1)) (x * (k.b2 - k.a2 * k.b0) - k.a2 * s1)
    rw [sub_add_cancel] at t
    have t3 := abs_sub (x * (k.b2 - k.a2 * k.b0)) (k.a2 * s1)
    linarith

/-- C96: **bounded in floating point while gliding.** Let the poles of a design `c` lie inside the radius `r < 1`, and let every operation, those of
the coefficient smoothers included, be rounded by a relative error of at most `u` and an absolute one of at most `η`. The smoothers end up within
`1000 u · size + 1334 η` of the design; if some `δ` above that leaves the filter stable (`2 · gain · slack ≤ 1`), then for every distance `R` there is
one constant such that a filter gliding from any coefficients at most `R` away, stable or not, with any registers, never answers by more than that
constant times the registers and the largest input (and `η`) - for runs of any length and registers flushed after any samples. -/
theorem C96_rounded_while_gliding {c : Cf} {r : ℝ} (r0 : 0 < r) (r1 : r < 1) (h2 : |c.a2| < r ^ 2) (h1 : r * |c.a1| < r ^ 2 + c.a2)
    {u η δ : ℝ} (u0 : 0 ≤ u) (u1 : u ≤ 1 / 3000) (hη : 1e-30 ≤ η) (hδ : 1000 * u * (Spec.sizeA c + Spec.sizeB c) + 1334 * η < δ) (δ1 : δ ≤ 1)
    (hsmall : 2 * Spec.gain c r * Spec.slack c u δ ≤ 1) {R : ℝ} (hR : 0 ≤ R) :
    ∃ K : ℝ, 0 ≤ K ∧ ∀ (rnd : ℝ → ℝ), Spec.Rounding rnd u η → ∀ (k : Cf) (s : ℝ × ℝ) (M : ℝ) (xs : List (ℝ × Bool)), Spec.Near c R k → 0 ≤ M →
      (∀ x ∈ xs, |x.1| ≤ M) → ∀ y ∈ glideR rnd c k s xs, |y| ≤ K * (|s.1| + |s.2| + M + η) := by
  have η0 : 0 ≤ η := le_trans (by norm_num) hη
  have A0 : 0 ≤ Spec.sizeA c := by unfold Spec.sizeA; positivity
  have B0 : 0 ≤ Spec.sizeB c := by unfold Spec.sizeB; positivity
  obtain ⟨b, hb⟩ : ∃ b, b = 3 * u * (Spec.sizeA c + Spec.sizeB c) + 4 * η := ⟨_, rfl⟩
  have b0 : 0 ≤ b := by rw [hb]; positivity
  have bδ : 0 < δ - b / 0.003 := by
    have : b / 0.003 ≤ 1000 * u * (Spec.sizeA c + Spec.sizeB c) + 1334 * η := by
      rw [hb, div_le_iff₀ (by norm_num)]; linarith
    linarith
  have δ0 : 0 ≤ δ := by
    have : 0 ≤ b / 0.003 := by positivity
    linarith
  have b1 : b ≤ 0.003 := by
    have : b / 0.003 < 1 := by linarith
    rw [div_lt_one (by norm_num)] at this; exact this.le
  have K0 : 0 ≤ Spec.slack c u δ := by unfold Spec.slack; positivity
  have G0 : 0 ≤ Spec.gain c r := by
    unfold Spec.gain
    have q1 : 0 < r ^ 2 + c.a2 - r * |c.a1| := by linarith
    have q2 : 0 < r ^ 2 + c.a2 := by linarith [mul_nonneg r0.le (abs_nonneg c.a1)]
    have q3 : 0 < 1 - r := by linarith
    positivity
  -- the growth per sample on the way
  obtain ⟨G, hG⟩ : ∃ G, G = 12 * (1 + (Spec.sizeA c + 2 * (R + 1))) * (1 + (Spec.sizeB c + 3 * (R + 1))) := ⟨_, rfl⟩
  have G1 : 12 ≤ G := by
    rw [hG]
    have p : 1 ≤ 1 + (Spec.sizeA c + 2 * (R + 1)) := by linarith
    have q : 1 ≤ 1 + (Spec.sizeB c + 3 * (R + 1)) := by linarith
    nlinarith
  -- after `n` more samples the coefficients are near
  have key : ∀ n : ℕ, ∃ K : ℝ, 0 ≤ K ∧ ∀ (rnd : ℝ → ℝ), Spec.Rounding rnd u η → ∀ (e : ℝ) (k : Cf) (s : ℝ × ℝ) (M : ℝ) (xs : List (ℝ × Bool)), 0 ≤ e → e ≤ R + 1 →
      0.997 ^ n * (e - b / 0.003) + b / 0.003 ≤ δ → Spec.Near c e k → 0 ≤ M → (∀ x ∈ xs, |x.1| ≤ M) → ∀ y ∈ glideR rnd c k s xs, |y| ≤ K * (|s.1| + |s.2| + M + η) := by
    intro n
    induction n with
    | zero =>
      obtain ⟨L, hL⟩ : ∃ L, L = 2 * (Spec.sizeB c + 2 * Spec.gain c r * ((1 + Spec.sizeA c) * Spec.sizeB c + Spec.slack c u δ + 7 * (1 + Spec.sizeA c) + 1)) + 3 := ⟨_, rfl⟩
      refine ⟨L, by rw [hL]; positivity, fun rnd hr e k s M xs e0 _ he hk M0 hx y hy => ?_⟩
      have hk' : Spec.Near c δ k := near_le hk (by simp only [pow_zero, one_mul] at he; linarith)
      obtain ⟨l, l1, l2⟩ := glide_near hr u0 u1 η0 hδ.le xs k s hk' hx
      rw [l2] at hy
      have S1 : |s.1| ≤ |s.1| + |s.2| ∧ |s.2| ≤ |s.1| + |s.2| := ⟨by linarith [abs_nonneg s.2], by linarith [abs_nonneg s.1]⟩
      refine ((rounded_from r0 r1 h2 h1 u0 (by linarith) hη δ0 δ1 hsmall hr M0 S1 l l1).2 y hy).trans ?_
      have S0 : 0 ≤ |s.1| + |s.2| := by positivity
      obtain ⟨S, hS⟩ : ∃ S, S = |s.1| + |s.2| := ⟨_, rfl⟩
      rw [← hS] at S0 ⊢
      obtain ⟨T, hT⟩ : ∃ T, T = S + M + η := ⟨_, rfl⟩
      have T1 : M ≤ T := by linarith
      have T2 : η ≤ T := by linarith
      have T3 : S ≤ T := by linarith
      rw [← hT, hL]
      have hh : 2 * (Spec.sizeB c * M + 2 * Spec.gain c r * ((1 + Spec.sizeA c) * Spec.sizeB c * M + Spec.slack c u δ * M + 7 * (1 + Spec.sizeA c) * η + S)) + 3 * η ≤
          2 * (Spec.sizeB c * T + 2 * Spec.gain c r * ((1 + Spec.sizeA c) * Spec.sizeB c * T + Spec.slack c u δ * T + 7 * (1 + Spec.sizeA c) * T + T)) + 3 * T := by gcongr
      refine hh.trans (le_of_eq (by ring))
    | succ n ih =>
      obtain ⟨K, K0, ih⟩ := ih
      refine ⟨G + K * (3 * G), by positivity, fun rnd hr e k s M xs e0 e1 he hk M0 hx y hy => ?_⟩
      cases xs with
      | nil => simp [glideR] at hy
      | cons x xs =>
        obtain ⟨x, fl⟩ := x
        have hk' := stepR_near hr u0 u1 η0 hk
        rw [← hb] at hk'
        have ee : 0.997 * e + b ≤ R + 1 := by linarith
        have hs := near_le hk' ee
        have sz : Spec.sizeA (stepR rnd c k) ≤ Spec.sizeA c + 2 * (R + 1) ∧ Spec.sizeB (stepR rnd c k) ≤ Spec.sizeB c + 3 * (R + 1) := by
          have g : ∀ p q : ℝ, |p - q| ≤ R + 1 → |p| ≤ |q| + (R + 1) := by
            intro p q h
            have := abs_add_le (p - q) q
            rw [sub_add_cancel] at this; linarith
          have g1 := g _ _ hs.a1
          have g2 := g _ _ hs.a2
          have g3 := g _ _ hs.b0
          have g4 := g _ _ hs.b1
          have g5 := g _ _ hs.b2
          unfold Spec.sizeA Spec.sizeB
          constructor <;> linarith
        have S1 : |s.1| ≤ |s.1| + |s.2| ∧ |s.2| ≤ |s.1| + |s.2| := ⟨by linarith [abs_nonneg s.2], by linarith [abs_nonneg s.1]⟩
        have gr := chanR_growth hr u0 (by linarith) η0 sz.1 sz.2 (hx (x, fl) List.mem_cons_self) S1.1 S1.2
        rw [← hG] at gr
        dsimp only at gr
        obtain ⟨T, hT⟩ : ∃ T, T = |s.1| + |s.2| + M + η := ⟨_, rfl⟩
        have T0 : 0 ≤ T := by rw [hT]; positivity
        rw [← hT] at gr ⊢
        simp only [glideR] at hy
        rcases List.mem_cons.1 hy with rfl | hy
        · refine gr.1.trans ?_
          have : 0 ≤ K * (3 * G) * T := by positivity
          linarith
        · have he' : 0.997 ^ n * ((0.997 * e + b) - b / 0.003) + b / 0.003 ≤ δ := by
            have : (0.997 * e + b) - b / 0.003 = 0.997 * (e - b / 0.003) := by ring
            rw [this, ← mul_assoc, ← pow_succ]; exact he
          obtain ⟨t, ht⟩ : ∃ t, t = (if fl then (flush (chanR rnd (stepR rnd c k) x s.1 s.2).2.1, flush (chanR rnd (stepR rnd c k) x s.1 s.2).2.2)
            else (chanR rnd (stepR rnd c k) x s.1 s.2).2) := ⟨_, rfl⟩
          rw [← ht] at hy
          have tt : |t.1| ≤ G * T ∧ |t.2| ≤ G * T := by
            rw [ht]
            split_ifs
            · exact ⟨(flush_le _).trans gr.2.1, (flush_le _).trans gr.2.2⟩
            · exact gr.2
          refine (ih rnd hr _ _ t M xs (by positivity) ee he' hk' M0 (fun z hz => hx z (List.mem_cons_of_mem _ hz)) y hy).trans ?_
          have MT : M + η ≤ T := by rw [hT]; linarith [abs_nonneg s.1, abs_nonneg s.2]
          have GT : T ≤ G * T := by nlinarith
          have : K * (|t.1| + |t.2| + M + η) ≤ K * (3 * (G * T)) := mul_le_mul_of_nonneg_left (by linarith) K0
          have : 0 ≤ G * T := by positivity
          linarith
  obtain ⟨N, hN⟩ := exists_pow_lt_of_lt_one (show 0 < (δ - b / 0.003) / (R + 1) by positivity) (show (0.997 : ℝ) < 1 by norm_num)
  obtain ⟨K, K0', hK⟩ := key N
  refine ⟨K, K0', fun rnd hr k s M xs hk M0 hx y hy => hK rnd hr R k s M xs hR (by linarith) ?_ hk M0 hx y hy⟩
  rw [lt_div_iff₀ (by linarith)] at hN
  have p0 : (0 : ℝ) ≤ 0.997 ^ N := by positivity
  have p1 : 0 ≤ (0.997 : ℝ) ^ N * (b / 0.003) := by positivity
  linarith

/-! ## A case that meets the hypotheses -/

/-- The low-pass of the case above, approached in `f64` from coefficients that are not stable. -/
example : ∃ K : ℝ, ∀ (s : ℝ × ℝ) (xs : List (ℝ × Bool)), (∀ x ∈ xs, |x.1| ≤ 1) →
    ∀ y ∈ glideR rnd64 ⟨-1.8, 0.82, 0.005, 0.01, 0.005⟩ ⟨-2.5, 1.5, 1, 0, 0⟩ s xs, |y| ≤ K * (|s.1| + |s.2| + 1 + 1e-30) := by
  have hc : Spec.gain ⟨-1.8, 0.82, 0.005, 0.01, 0.005⟩ 0.95 ≤ 23000 := by
    unfold Spec.gain
    norm_num [abs_of_pos, abs_of_neg]
  have hs : Spec.slack ⟨-1.8, 0.82, 0.005, 0.01, 0.005⟩ (1 / 2 ^ 53) 1e-6 ≤ 1e-5 := by
    unfold Spec.slack Spec.sizeA Spec.sizeB
    norm_num [abs_of_pos, abs_of_neg]
  have hs0 : 0 ≤ Spec.slack ⟨-1.8, 0.82, 0.005, 0.01, 0.005⟩ (1 / 2 ^ 53) 1e-6 := by
    unfold Spec.slack Spec.sizeA Spec.sizeB
    norm_num [abs_of_pos, abs_of_neg]
  obtain ⟨K, -, h⟩ := C96_rounded_while_gliding (c := ⟨-1.8, 0.82, 0.005, 0.01, 0.005⟩) (r := 0.95) (by norm_num) (by norm_num)
    (by norm_num [abs_of_pos]) (by norm_num [abs_of_neg]) (u := 1 / 2 ^ 53) (η := 1e-30) (δ := 1e-6) (by norm_num) (by norm_num) le_rfl
    (by unfold Spec.sizeA Spec.sizeB; norm_num [abs_of_pos, abs_of_neg]) (by norm_num)
    (by have := mul_le_mul hc hs hs0 (by norm_num); linarith) (R := 1) (by norm_num)
  exact ⟨K, fun s xs hx => h rnd64 rnd64_rounding _ s 1 xs ⟨by norm_num [abs_of_neg], by norm_num [abs_of_pos], by norm_num [abs_of_pos], by norm_num [abs_of_neg, abs_of_pos], by norm_num [abs_of_neg, abs_of_pos]⟩ (by norm_num) hx⟩

end Verif.Biquad
