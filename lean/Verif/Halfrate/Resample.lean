import Verif.Halfrate.Rejection
/-!
# Tones through the two-times up- and down-sampler (C112)
-/
namespace Verif.Halfrate
open Complex

theorem allpass_lin (a : ℝ) (c : ℝ) (x y : ℕ → ℝ) : ∀ n, Spec.allpass a (fun n => c * (x n + y n)) n = c * (Spec.allpass a x n + Spec.allpass a y n)
  | 0 => by simp only [Spec.allpass]; ring
  | 1 => by simp only [Spec.allpass]; ring
  | n + 2 => by simp only [Spec.allpass]; rw [allpass_lin a c x y n]; ring

theorem cascade_lin (as : List ℝ) (c : ℝ) (x y : ℕ → ℝ) (n : ℕ) :
    Spec.cascade as (fun n => c * (x n + y n)) n = c * (Spec.cascade as x n + Spec.cascade as y n) := by
  induction as generalizing x y with
  | nil => rfl
  | cons a as ih =>
    show Spec.cascade as (Spec.allpass a fun n => c * (x n + y n)) n = _
    rw [show (Spec.allpass a fun n => c * (x n + y n)) = fun n => c * (Spec.allpass a x n + Spec.allpass a y n) from funext (allpass_lin a c x y)]
    exact ih _ _

theorem halfband_lin (as bs : List ℝ) (c : ℝ) (x y : ℕ → ℝ) (n : ℕ) :
    Spec.halfband as bs (fun n => c * (x n + y n)) n = c * (Spec.halfband as bs x n + Spec.halfband as bs y n) := by
  simp only [Spec.halfband, cascade_lin]
  unfold Spec.ago
  split_ifs
  · rw [cascade_lin]; ring
  · ring

/-- A tone with a zero after each sample is the sum of a tone an octave down and of its image. -/
theorem stuff_cos (ω φ : ℝ) (n : ℕ) : Spec.stuff (fun n => Real.cos (ω * n + φ)) n =
    1 / 2 * (Real.cos (ω / 2 * n + φ) + Real.cos ((Real.pi - ω / 2) * n + -φ)) := by
  have e : (Real.pi - ω / 2) * n + -φ = n * Real.pi - (ω / 2 * n + φ) := by ring
  rw [e, Real.cos_nat_mul_pi_sub]
  unfold Spec.stuff
  split_ifs with h
  · obtain ⟨k, rfl⟩ : ∃ k, n = 2 * k := ⟨n / 2, by omega⟩
    rw [show 2 * k / 2 = k by omega, Even.neg_one_pow ⟨k, by ring⟩]
    push_cast
    rw [show ω / 2 * (2 * (k : ℝ)) = ω * k by ring]
    ring
  · rw [Odd.neg_one_pow (Nat.odd_iff.2 (by omega))]; ring

/-- **C112.**  Up-sampling a tone of frequency `ω` gives the same tone (at half the frequency per sample) at half the level times the
filter's gain, plus its mirror image about a quarter of the new rate at half the level times the gain there, up to a term that dies out
geometrically; the same in both channels, whatever the other channel carries and the output buffers held. -/
theorem C112_upsample {st : Bool} {m : ℕ} {a b : List ℚ} (h : table st (m * 2) = some (a, b)) (ω : ℝ) :
    ∃ K r : ℝ, 0 ≤ K ∧ 0 < r ∧ r < 1 ∧ ∀ (φ : ℝ) (out : (ℕ → ℝ) × (ℕ → ℝ)) (bs : List (List (ℝ × ℝ))) (s s' : St) (ys : List (ℝ × ℝ)),
      St.new m st = .ok s → Spec.Blocks 4 128 bs → runWith (St.up out) s bs = .ok (s', ys) →
      ∀ side ∈ [Spec.left, Spec.right], (∀ n < bs.flatten.length, side bs.flatten n = Real.cos (ω * n + φ)) →
        ∀ n < ys.length, |side ys n -
          (1 / 2 * (‖Spec.response (Spec.rounded a) (Spec.rounded b) (ω / 2)‖ *
            Real.cos (ω / 2 * n + φ + (Spec.response (Spec.rounded a) (Spec.rounded b) (ω / 2)).arg)) +
           1 / 2 * (‖Spec.response (Spec.rounded a) (Spec.rounded b) (Real.pi - ω / 2)‖ *
            Real.cos ((Real.pi - ω / 2) * n - φ + (Spec.response (Spec.rounded a) (Spec.rounded b) (Real.pi - ω / 2)).arg)))| ≤ K * r ^ n := by
  obtain ⟨ha, hb⟩ := rounded_stable h
  obtain ⟨K, r, K0, r0, r1, t⟩ := halfband_response ha hb (ω / 2)
  obtain ⟨K', r', K0', r0', r1', t'⟩ := halfband_response ha hb (Real.pi - ω / 2)
  refine ⟨K + K', max r r', by positivity, lt_max_of_lt_left r0, max_lt r1 r1', fun φ out bs s s' ys hs hk hr => ?_⟩
  obtain ⟨s0, e0, -, -, f3⟩ := C108_one_filter h
  rw [hs] at e0; cases e0
  obtain ⟨s1, zs, e, l, k⟩ := f3 out bs hk
  rw [hr] at e; cases e
  have key : ∀ (x : ℕ → ℝ) (n : ℕ), n < ys.length → (∀ n < bs.flatten.length, x n = Real.cos (ω * n + φ)) →
      |Spec.halfband (Spec.rounded a) (Spec.rounded b) (Spec.stuff x) n -
          (1 / 2 * (‖Spec.response (Spec.rounded a) (Spec.rounded b) (ω / 2)‖ *
            Real.cos (ω / 2 * n + φ + (Spec.response (Spec.rounded a) (Spec.rounded b) (ω / 2)).arg)) +
           1 / 2 * (‖Spec.response (Spec.rounded a) (Spec.rounded b) (Real.pi - ω / 2)‖ *
            Real.cos ((Real.pi - ω / 2) * n - φ + (Spec.response (Spec.rounded a) (Spec.rounded b) (Real.pi - ω / 2)).arg)))| ≤
        (K + K') * max r r' ^ n := by
    intro x n hn hx
    rw [halfband_causal (y := fun n => 1 / 2 * (Real.cos (ω / 2 * n + φ) + Real.cos ((Real.pi - ω / 2) * n + -φ))), halfband_lin]
    · have h1 := t φ n
      have h2 := t' (-φ) n
      have p1 : r ^ n ≤ max r r' ^ n := pow_le_pow_left₀ r0.le (le_max_left _ _) n
      have p2 : r' ^ n ≤ max r r' ^ n := pow_le_pow_left₀ r0'.le (le_max_right _ _) n
      rw [abs_le] at h1 h2 ⊢
      have q1 := mul_le_mul_of_nonneg_left p1 K0
      have q2 := mul_le_mul_of_nonneg_left p2 K0'
      have q0 : 0 ≤ (K + K') * max r r' ^ n := by positivity
      constructor <;> (rw [sub_eq_add_neg _ φ]) <;> linarith [h1.1, h1.2, h2.1, h2.2]
    · intro j hj
      rw [← stuff_cos]
      unfold Spec.stuff
      split_ifs
      · exact hx _ (by omega)
      · rfl
  intro side hside hx n hn
  simp only [List.mem_cons, List.not_mem_nil, or_false] at hside
  rcases hside with rfl | rfl
  · rw [Spec.left, k n hn]; exact key _ n hn hx
  · rw [Spec.right, k n hn]; exact key _ n hn hx

/-- **C112.**  A constant comes out of the up-sampler at half its level: the inserted zeros are not made up for. -/
theorem C112_halved {st : Bool} {m : ℕ} {a b : List ℚ} (h : table st (m * 2) = some (a, b)) :
    ∃ K r : ℝ, 0 ≤ K ∧ 0 < r ∧ r < 1 ∧ ∀ (out : (ℕ → ℝ) × (ℕ → ℝ)) (bs : List (List (ℝ × ℝ))) (s s' : St) (ys : List (ℝ × ℝ)),
      St.new m st = .ok s → Spec.Blocks 4 128 bs → runWith (St.up out) s bs = .ok (s', ys) →
      ∀ side ∈ [Spec.left, Spec.right], (∀ n < bs.flatten.length, side bs.flatten n = 1) →
        ∀ n < ys.length, |side ys n - 1 / 2| ≤ K * r ^ n := by
  obtain ⟨K, r, K0, r0, r1, t⟩ := C112_upsample h 0
  refine ⟨K, r, K0, r0, r1, fun out bs s s' ys hs hk hr side hside hx n hn => ?_⟩
  have := t 0 out bs s s' ys hs hk hr side hside (fun j hj => by rw [hx j hj]; simp) n hn
  rw [show (0 : ℝ) / 2 = 0 by norm_num, sub_zero, (C110_shape h).1, (C110_shape h).2.1] at this
  simpa using this

/-- **C112.**  Images: up-sampling a tone that lies outside the transition band gives the tone at half level and filtered, and nothing else
above half the rejection reached. -/
theorem C112_image {st : Bool} {m : ℕ} {a b : List ℚ} (h : table st (m * 2) = some (a, b)) {ω : ℝ} (h0 : 0 ≤ ω)
    (h1 : ω ≤ Real.pi - 2 * Real.pi * (Spec.advertised st m).2) :
    ‖Spec.response (Spec.rounded a) (Spec.rounded b) (Real.pi - ω / 2)‖ ≤ Spec.down (Spec.reached st m) ∧
    1 - Spec.down (Spec.reached st m) ^ 2 ≤ ‖Spec.response (Spec.rounded a) (Spec.rounded b) (ω / 2)‖ ^ 2 :=
  ⟨C111_reached h ⟨by linarith, by linarith⟩, (C111_passband h (ω := ω / 2) (by linarith) (by linarith)).1⟩

/-- **C112.**  Down-sampling a tone of frequency `ω` gives a tone of twice that frequency per sample at the filter's gain, up to a term that
dies out geometrically; so a tone in the stop band, which would fold back, is reduced by the rejection reached. -/
theorem C112_downsample {st : Bool} {m : ℕ} {a b : List ℚ} (h : table st (m * 2) = some (a, b)) (ω : ℝ) :
    ∃ K r : ℝ, 0 ≤ K ∧ 0 < r ∧ r < 1 ∧ ∀ (φ : ℝ) (out : Option ((ℕ → ℝ) × (ℕ → ℝ))) (bs : List (List (ℝ × ℝ))) (s s' : St) (ys : List (ℝ × ℝ)),
      St.new m st = .ok s → Spec.Blocks 8 256 bs → runWith (St.down out) s bs = .ok (s', ys) →
      ∀ side ∈ [Spec.left, Spec.right], (∀ n < bs.flatten.length, side bs.flatten n = Real.cos (ω * n + φ)) →
        (∀ n < ys.length, |side ys n - ‖Spec.response (Spec.rounded a) (Spec.rounded b) ω‖ *
            Real.cos (2 * ω * n + (ω + φ + (Spec.response (Spec.rounded a) (Spec.rounded b) ω).arg))| ≤ K * r ^ n) ∧
        (Spec.StopBand (Spec.advertised st m).2 ω → ∀ n < ys.length, |side ys n| ≤ Spec.down (Spec.reached st m) + K * r ^ n) := by
  obtain ⟨ha, hb⟩ := rounded_stable h
  obtain ⟨K, r, K0, r0, r1, t⟩ := halfband_response ha hb ω
  refine ⟨K, r, K0, r0, r1, fun φ out bs s s' ys hs hk hr => ?_⟩
  obtain ⟨s0, e0, -, f2, -⟩ := C108_one_filter h
  rw [hs] at e0; cases e0
  obtain ⟨s1, zs, e, l, k⟩ := f2 out bs hk
  rw [hr] at e; cases e
  have key : ∀ (x : ℕ → ℝ) (n : ℕ), n < ys.length → (∀ n < bs.flatten.length, x n = Real.cos (ω * n + φ)) →
      |Spec.halfband (Spec.rounded a) (Spec.rounded b) x (2 * n + 1) - ‖Spec.response (Spec.rounded a) (Spec.rounded b) ω‖ *
            Real.cos (2 * ω * n + (ω + φ + (Spec.response (Spec.rounded a) (Spec.rounded b) ω).arg))| ≤ K * r ^ n := by
    intro x n hn hx
    rw [halfband_causal _ _ (fun j hj => hx j (by omega))]
    have := t φ (2 * n + 1)
    push_cast at this
    rw [show ω * (2 * (n : ℝ) + 1) + φ + (Spec.response (Spec.rounded a) (Spec.rounded b) ω).arg =
      2 * ω * n + (ω + φ + (Spec.response (Spec.rounded a) (Spec.rounded b) ω).arg) by ring] at this
    exact this.trans (mul_le_mul_of_nonneg_left (pow_le_pow_of_le_one r0.le r1.le (by omega)) K0)
  have both : ∀ side ∈ [Spec.left, Spec.right], (∀ n < bs.flatten.length, side bs.flatten n = Real.cos (ω * n + φ)) →
      ∀ n < ys.length, |side ys n - ‖Spec.response (Spec.rounded a) (Spec.rounded b) ω‖ *
            Real.cos (2 * ω * n + (ω + φ + (Spec.response (Spec.rounded a) (Spec.rounded b) ω).arg))| ≤ K * r ^ n := by
    intro side hside hx n hn
    simp only [List.mem_cons, List.not_mem_nil, or_false] at hside
    rcases hside with rfl | rfl
    · rw [Spec.left, k n hn]; exact key _ n hn hx
    · rw [Spec.right, k n hn]; exact key _ n hn hx
  refine fun side hside hx => ⟨both side hside hx, fun hω n hn => ?_⟩
  have hy := both side hside hx n hn
  have hd := C111_reached h hω
  generalize 2 * ω * n + (ω + φ + (Spec.response (Spec.rounded a) (Spec.rounded b) ω).arg) = c at hy
  have h1 : |‖Spec.response (Spec.rounded a) (Spec.rounded b) ω‖ * Real.cos c| ≤ Spec.down (Spec.reached st m) := by
    rw [abs_mul, abs_of_nonneg (norm_nonneg _)]
    nlinarith [Real.abs_cos_le_one c, norm_nonneg (Spec.response (Spec.rounded a) (Spec.rounded b) ω), abs_nonneg (Real.cos c)]
  have := abs_sub_abs_le_abs_sub (side ys n) (‖Spec.response (Spec.rounded a) (Spec.rounded b) ω‖ * Real.cos c)
  linarith

/-- A run the claims speak about: two stereo blocks of four samples, up-sampled by the six-section steep filter. -/
example : ∃ (s s' : St) (ys : List (ℝ × ℝ)), St.new 6 true = .ok s ∧
    runWith (St.up (fun _ => 7, fun _ => 9)) s [List.replicate 4 (1, 0), List.replicate 4 (1, 0)] = .ok (s', ys) ∧ ys.length = 16 := by
  obtain ⟨s, e, -, -, f⟩ := C108_one_filter (st := true) (m := 6) rfl
  obtain ⟨s', ys, r, l, -⟩ := f (fun _ => 7, fun _ => 9) [List.replicate 4 (1, 0), List.replicate 4 (1, 0)] (by
    intro b hb; simp only [List.mem_cons, List.not_mem_nil, or_false, or_self] at hb; subst hb; simp)
  exact ⟨s, s', ys, e, r, by rw [l]; simp⟩

end Verif.Halfrate
