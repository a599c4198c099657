import Verif.Vocoder.Run
/-!
# The vocoder while rate and gate are automated (C140)

`Run.lean` holds the configuration of the envelope followers fixed.  Here it may be another one at every sample (the code changes it
only between blocks); the band filters stay as they are.
-/
namespace Verif.Vocoder
open Verif.Filters

/-- Successive samples, each with a configuration of its own; the input is modulator, left, right. -/
noncomputable def runV (root : ℝ → ℝ) (c : ℕ → BlockCfg) (v : Voc) (x : ℕ → ℝ × ℝ × ℝ) : ℕ → Voc
  | 0 => v
  | n + 1 => (sample root (c n) (runV root c v x n) (x n).1 (x n).2.1 (x n).2.2).1

/-- What is put out for sample `n`. -/
noncomputable def outV (root : ℝ → ℝ) (c : ℕ → BlockCfg) (v : Voc) (x : ℕ → ℝ × ℝ × ℝ) (n : ℕ) : ℝ × ℝ := (sample root (c n) (runV root c v x n) (x n).1 (x n).2.1 (x n).2.2).2

theorem runV_const (root : ℝ → ℝ) (c : ℕ → BlockCfg) (v : Voc) (x : ℕ → ℝ × ℝ × ℝ) (n : ℕ) : (runV root c v x n).cCar = v.cCar ∧ (runV root c v x n).cMod = v.cMod ∧ (runV root c v x n).active = v.active := by
  induction n with
  | zero => exact ⟨rfl, rfl, rfl⟩
  | succ n ih =>
    have := (band_loop root (c n) (x n).1 (x n).2.1 (x n).2.2 (runV root c v x n) (4 * ((runV root c v x n).active / 4))).1
    simp only [runV, sample]
    rw [this]
    exact ih

/-- The gain of band `j` at sample `n`. -/
noncomputable def gainV (root : ℝ → ℝ) (c : ℕ → BlockCfg) (v : Voc) (x : ℕ → ℝ × ℝ × ℝ) (j n : ℕ) : ℝ := root ((runV root c v x (n + 1)).env j)

theorem runV_band (root : ℝ → ℝ) (c : ℕ → BlockCfg) (v : Voc) (x : ℕ → ℝ × ℝ × ℝ) (j : ℕ) (hj : j < 4 * (v.active / 4)) (n : ℕ) :
    (runV root c v x n).mod j = bandRun (v.cMod j) (v.mod j) (fun k => (x k).1) n ∧
    (runV root c v x (n + 1)).env j = follow (c n) ((runV root c v x n).env j) (bandOut (v.cMod j) (v.mod j) (fun k => (x k).1) n) ∧
    (runV root c v x n).carL j = bandRun (v.cCar j) (v.carL j) (fun k => (x k).2.1 * gainV root c v x j k) n ∧
    (runV root c v x n).carR j = bandRun (v.cCar j) (v.carR j) (fun k => (x k).2.2 * gainV root c v x j k) n := by
  have step : ∀ n, (runV root c v x (n + 1)).mod j = (calcBpf (v.cMod j) ((runV root c v x n).mod j) (x n).1).1 ∧
      (runV root c v x (n + 1)).env j = follow (c n) ((runV root c v x n).env j) (calcBpf (v.cMod j) ((runV root c v x n).mod j) (x n).1).2 ∧
      (runV root c v x (n + 1)).carL j = (calcBpf (v.cCar j) ((runV root c v x n).carL j) ((x n).2.1 * gainV root c v x j n)).1 ∧
      (runV root c v x (n + 1)).carR j = (calcBpf (v.cCar j) ((runV root c v x n).carR j) ((x n).2.2 * gainV root c v x j n)).1 := by
    intro n
    obtain ⟨k1, k2, k3⟩ := runV_const root c v x n
    have e := (band_loop root (c n) (x n).1 (x n).2.1 (x n).2.2 (runV root c v x n) (4 * ((runV root c v x n).active / 4))).1
    change runV root c v x (n + 1) = _ at e
    rw [k3] at e
    have he : (runV root c v x (n + 1)).env j = follow (c n) ((runV root c v x n).env j) (calcBpf (v.cMod j) ((runV root c v x n).mod j) (x n).1).2 := by
      rw [e]; simp only [if_pos hj, k2]
    refine ⟨by rw [e]; simp only [if_pos hj, k2], he, ?_, ?_⟩
    · unfold gainV; rw [he, e]; simp only [if_pos hj, k1, k2]
    · unfold gainV; rw [he, e]; simp only [if_pos hj, k1, k2]
  have hm : ∀ n, (runV root c v x n).mod j = bandRun (v.cMod j) (v.mod j) (fun k => (x k).1) n := by
    intro n
    induction n with
    | zero => rfl
    | succ n ih => rw [(step n).1, ih]; rfl
  refine ⟨hm n, by rw [(step n).2.1, hm n]; rfl, ?_, ?_⟩
  · induction n with
    | zero => rfl
    | succ n ih => rw [(step n).2.2.1, ih]; rfl
  · induction n with
    | zero => rfl
    | succ n ih => rw [(step n).2.2.2, ih]; rfl

/-- **C140 (automated).** With rate and gate changing at any time, what comes out is still this: the sum over the active bands of the carrier, multiplied by the band's gain and passed through the band's filter, four times. -/
theorem C140_output_automated (root : ℝ → ℝ) (c : ℕ → BlockCfg) (v : Voc) (x : ℕ → ℝ × ℝ × ℝ) (n : ℕ) :
    outV root c v x n = (4 * ∑ j ∈ Finset.range (4 * (v.active / 4)), bandOut (v.cCar j) (v.carL j) (fun k => (x k).2.1 * gainV root c v x j k) n,
      4 * ∑ j ∈ Finset.range (4 * (v.active / 4)), bandOut (v.cCar j) (v.carR j) (fun k => (x k).2.2 * gainV root c v x j k) n) := by
  obtain ⟨k1, k2, k3⟩ := runV_const root c v x n
  obtain ⟨b1, b2, b3⟩ := band_loop root (c n) (x n).1 (x n).2.1 (x n).2.2 (runV root c v x n) (4 * ((runV root c v x n).active / 4))
  unfold outV sample
  simp only
  rw [b2, b3, k3]
  ext
  · simp only
    rw [mul_comm]
    congr 1
    refine Finset.sum_congr rfl fun j hj => ?_
    obtain ⟨h1, h2, h3, h4⟩ := runV_band root c v x j (Finset.mem_range.mp hj) n
    unfold bandOut
    rw [← h3, k1, k2]
    unfold gainV
    simp only
    rw [h2, h1]; rfl
  · simp only
    rw [mul_comm]
    congr 1
    refine Finset.sum_congr rfl fun j hj => ?_
    obtain ⟨h1, h2, h3, h4⟩ := runV_band root c v x j (Finset.mem_range.mp hj) n
    unfold bandOut
    rw [← h4, k1, k2]
    unfold gainV
    simp only
    rw [h2, h1]; rfl

theorem gainV_carrier (root : ℝ → ℝ) (c : ℕ → BlockCfg) (v w : Voc) (hw : w.mod = v.mod ∧ w.env = v.env ∧ w.cMod = v.cMod ∧ w.active = v.active) (x y : ℕ → ℝ × ℝ × ℝ) (h : ∀ k, (y k).1 = (x k).1)
    (j : ℕ) (hj : j < 4 * (v.active / 4)) (n : ℕ) : gainV root c w y j n = gainV root c v x j n := by
  obtain ⟨a1, a2, a3, a4⟩ := hw
  have : ∀ n, (runV root c w y n).env j = (runV root c v x n).env j := by
    intro n
    induction n with
    | zero => simp only [runV, a2]
    | succ n ih => rw [(runV_band root c v x j hj n).2.1, (runV_band root c w y j (by rw [a4]; exact hj) n).2.1, ih, a1, a3, funext h]
  unfold gainV
  rw [this]

/-- **C140 (automated).** With one modulator signal and any changes of rate and gate, the vocoder is linear in the carrier: the output for a mixture of two carriers (starting from filters holding nothing) is the mixture of the outputs. -/
theorem C140_linear_automated (root : ℝ → ℝ) (c : ℕ → BlockCfg) (v : Voc) (hv : ∀ j, v.carL j = .zero ∧ v.carR j = .zero) (m l r l' r' : ℕ → ℝ) (a b : ℝ) (n : ℕ) :
    outV root c v (fun k => (m k, a * l k + b * l' k, a * r k + b * r' k)) n =
      (a * (outV root c v (fun k => (m k, l k, r k)) n).1 + b * (outV root c v (fun k => (m k, l' k, r' k)) n).1,
       a * (outV root c v (fun k => (m k, l k, r k)) n).2 + b * (outV root c v (fun k => (m k, l' k, r' k)) n).2) := by
  rw [C140_output_automated, C140_output_automated, C140_output_automated]
  have hz : ∀ s : Band, s = .zero → s.l1 = a * s.l1 + b * s.l1 ∧ s.b1 = a * s.b1 + b * s.b1 ∧ s.l2 = a * s.l2 + b * s.l2 ∧ s.b2 = a * s.b2 + b * s.b2 := by
    rintro s rfl; simp [Band.zero]
  have g1 : ∀ j, j < 4 * (v.active / 4) → ∀ k, gainV root c v (fun k => (m k, a * l k + b * l' k, a * r k + b * r' k)) j k = gainV root c v (fun k => (m k, l k, r k)) j k :=
    fun j hj k => gainV_carrier root c v v ⟨rfl, rfl, rfl, rfl⟩ _ _ (by intro k; rfl) j hj k
  have g2 : ∀ j, j < 4 * (v.active / 4) → ∀ k, gainV root c v (fun k => (m k, l' k, r' k)) j k = gainV root c v (fun k => (m k, l k, r k)) j k :=
    fun j hj k => gainV_carrier root c v v ⟨rfl, rfl, rfl, rfl⟩ _ _ (by intro k; rfl) j hj k
  have main : ∀ (car : ℕ → Band) (p q : ℕ → ℝ), (∀ j, car j = .zero) →
      4 * ∑ j ∈ Finset.range (4 * (v.active / 4)), bandOut (v.cCar j) (car j) (fun k => (a * p k + b * q k) * gainV root c v (fun k => (m k, a * l k + b * l' k, a * r k + b * r' k)) j k) n =
      a * (4 * ∑ j ∈ Finset.range (4 * (v.active / 4)), bandOut (v.cCar j) (car j) (fun k => p k * gainV root c v (fun k => (m k, l k, r k)) j k) n) +
      b * (4 * ∑ j ∈ Finset.range (4 * (v.active / 4)), bandOut (v.cCar j) (car j) (fun k => q k * gainV root c v (fun k => (m k, l' k, r' k)) j k) n) := by
    intro car p q hcar
    rw [mul_left_comm a, mul_left_comm b, ← mul_add, Finset.mul_sum _ _ a, Finset.mul_sum _ _ b, ← Finset.sum_add_distrib]
    congr 1
    refine Finset.sum_congr rfl fun j hj => ?_
    have hj' := Finset.mem_range.mp hj
    rw [← bandOut_linear (v.cCar j) (car j) (car j) (car j) a b (hz _ (hcar j))]
    congr 1
    funext k
    rw [g1 j hj', g2 j hj']
    ring
  ext
  · exact main v.carL l l' fun j => (hv j).1
  · exact main v.carR r r' fun j => (hv j).2


/-- A configuration made from parameters in their ranges. -/
def Spec.Made (c : BlockCfg) : Prop := ∃ rate level : ℝ, 0 ≤ rate ∧ rate ≤ 1 ∧ c = BlockCfg.new rate level

theorem env_rangeV {root : ℝ → ℝ} {c : ℕ → BlockCfg} (hc : ∀ n, Spec.Made (c n)) {v : Voc} {j : ℕ} (hj : j < 4 * (v.active / 4)) (hv : 0 ≤ v.env j ∧ v.env j ≤ 6)
    (x : ℕ → ℝ × ℝ × ℝ) (n : ℕ) : 0 ≤ (runV root c v x n).env j ∧ (runV root c v x n).env j ≤ 6 := by
  induction n with
  | zero => exact hv
  | succ n ih =>
    rw [(runV_band root _ v x j hj n).2.1]
    obtain ⟨rate, level, h0, h1, e⟩ := hc n
    rw [e]
    exact (C139_step rate level _ _ h0 h1 ih.1 ih.2).2.2.2

/-- **C140 (automated).** Whatever the modulator does and however rate and gate are moved, a bounded carrier comes out bounded. -/
theorem C140_bounded_automated {ε : ℝ} (hε : 0 ≤ ε) {root : ℝ → ℝ} (hr : Spec.Root ε root) (v : Voc)
    (hv : ∀ j, 0 ≤ v.env j ∧ v.env j ≤ 6) (hs : ∀ j, j < v.active → Spec.StableBand (v.cCar j)) :
    ∃ K, 0 < K ∧ ∀ (c : ℕ → BlockCfg), (∀ n, Spec.Made (c n)) → ∀ (x : ℕ → ℝ × ℝ × ℝ) (B : ℝ), (∀ k, |(x k).2.1| ≤ B ∧ |(x k).2.2| ≤ B) →
      ∀ n, |(outV root c v x n).1| ≤ K * (1 + B) ∧ |(outV root c v x n).2| ≤ K * (1 + B) := by
  have hk : ∀ j, ∃ K, 0 ≤ K ∧ (j < 4 * (v.active / 4) → ∀ (c : ℕ → BlockCfg), (∀ n, Spec.Made (c n)) → ∀ (x : ℕ → ℝ × ℝ × ℝ) (B : ℝ), (∀ k, |(x k).2.1| ≤ B ∧ |(x k).2.2| ≤ B) → ∀ n,
      |bandOut (v.cCar j) (v.carL j) (fun k => (x k).2.1 * gainV root c v x j k) n| ≤ K * (1 + B) ∧
      |bandOut (v.cCar j) (v.carR j) (fun k => (x k).2.2 * gainV root c v x j k) n| ≤ K * (1 + B)) := by
    intro j
    by_cases hj : j < 4 * (v.active / 4)
    · obtain ⟨K, K0, hK⟩ := C138_bounded (hs j (by omega))
      have s1 : 0 ≤ (v.carL j).size := by simp only [Band.size]; positivity
      have s2 : 0 ≤ (v.carR j).size := by simp only [Band.size]; positivity
      refine ⟨K * ((v.carL j).size + (v.carR j).size + (1 + ε) * 3), by positivity, fun _ c hc x B hx n => ?_⟩
      have hB : 0 ≤ B := (abs_nonneg _).trans (hx 0).1
      have hg : ∀ k, |gainV root c v x j k| ≤ (1 + ε) * 3 := by
        intro k
        have := env_rangeV (root := root) hc hj (hv j) x (k + 1)
        exact root_le hr this.1 (by linarith) (by norm_num) hε
      have hm : ∀ a g : ℝ, |a| ≤ B → |g| ≤ (1 + ε) * 3 → |a * g| ≤ (1 + ε) * 3 * B := by
        intro a g ha hg
        rw [abs_mul, mul_comm]
        exact mul_le_mul hg ha (abs_nonneg _) (by positivity)
      constructor
      · refine (hK _ _ ((1 + ε) * 3 * B) n (fun k _ => hm _ _ (hx k).1 (hg k))).trans ?_
        rw [mul_assoc K]
        refine mul_le_mul_of_nonneg_left ?_ K0.le
        nlinarith [mul_nonneg s1 hB, mul_nonneg s2 hB]
      · refine (hK _ _ ((1 + ε) * 3 * B) n (fun k _ => hm _ _ (hx k).2 (hg k))).trans ?_
        rw [mul_assoc K]
        refine mul_le_mul_of_nonneg_left ?_ K0.le
        nlinarith [mul_nonneg s1 hB, mul_nonneg s2 hB]
    · exact ⟨0, le_refl _, fun h => absurd h hj⟩
  choose K K0 hK using hk
  have hS : 0 ≤ ∑ j ∈ Finset.range (4 * (v.active / 4)), K j := Finset.sum_nonneg fun j _ => K0 j
  refine ⟨4 * (∑ j ∈ Finset.range (4 * (v.active / 4)), K j) + 1, by positivity, fun c hc x B hx n => ?_⟩
  have hB : 0 ≤ B := (abs_nonneg _).trans (hx 0).1
  have fin : ∀ y : ℕ → ℝ, (∀ j, j < 4 * (v.active / 4) → |y j| ≤ K j * (1 + B)) →
      |4 * ∑ j ∈ Finset.range (4 * (v.active / 4)), y j| ≤ (4 * (∑ j ∈ Finset.range (4 * (v.active / 4)), K j) + 1) * (1 + B) := by
    intro y hy
    rw [abs_mul, abs_of_pos (by norm_num : (0 : ℝ) < 4)]
    have a1 := Finset.abs_sum_le_sum_abs y (Finset.range (4 * (v.active / 4)))
    have a2 : ∑ j ∈ Finset.range (4 * (v.active / 4)), |y j| ≤ ∑ j ∈ Finset.range (4 * (v.active / 4)), K j * (1 + B) :=
      Finset.sum_le_sum fun j hj => hy j (Finset.mem_range.mp hj)
    rw [← Finset.sum_mul] at a2
    nlinarith
  rw [C140_output_automated]
  exact ⟨fin _ fun j hj => (hK j hj c hc x B hx n).1, fin _ fun j hj => (hK j hj c hc x B hx n).2⟩

theorem dies_of_le {y z : ℕ → ℝ} (hz : Spec.Dies z) (h : ∀ n, |y n| ≤ |z n|) : Spec.Dies y := fun ε hε => by
  obtain ⟨N, hN⟩ := hz ε hε
  exact ⟨N, fun n hn => (h n).trans (hN n hn)⟩

theorem dies_sum (m : ℕ) : ∀ (y : ℕ → ℕ → ℝ), (∀ j, j < m → Spec.Dies (y j)) → Spec.Dies (fun n => 4 * ∑ j ∈ Finset.range m, y j n) := by
  induction m with
  | zero => intro y _ δ hδ; exact ⟨0, fun n _ => by simpa using hδ.le⟩
  | succ m ih =>
    intro y hy δ hδ
    obtain ⟨N1, a1⟩ := ih y (fun j hj => hy j (by omega)) (δ / 2) (by positivity)
    obtain ⟨N2, a2⟩ := hy m (by omega) (δ / 8) (by positivity)
    refine ⟨max N1 N2, fun n hn => ?_⟩
    have b1 := a1 n ((le_max_left _ _).trans hn)
    have b2 := a2 n ((le_max_right _ _).trans hn)
    simp only [Finset.sum_range_succ, mul_add]
    refine (abs_add_le _ _).trans ?_
    have : |4 * y m n| = 4 * |y m n| := by rw [abs_mul, abs_of_pos (by norm_num : (0 : ℝ) < 4)]
    rw [this]; linarith

/-- A follower that is pulled towards levels dying away, at rates that change but stay at 0.001 or above, dies away. -/
theorem follower_dies {e r l : ℕ → ℝ} (he0 : ∀ n, 0 ≤ e n) (he6 : ∀ n, e n ≤ 6) (hr : ∀ n, 0.001 ≤ r n ∧ r n ≤ 0.016) (hl0 : ∀ n, 0 ≤ l n) (hl : Spec.Dies l) (h : ∀ n, e (n + 1) = e n + r n * (l n - e n)) : Spec.Dies e := by
  intro δ hδ
  obtain ⟨N, hN⟩ := hl (δ / 2) (by positivity)
  have key : ∀ k, e (N + k) ≤ δ / 2 + 6 * 0.999 ^ k := by
    intro k
    induction k with
    | zero => simp; linarith [he6 N]
    | succ k ih =>
      rw [← add_assoc, h]
      have l1 := hN (N + k) (by omega)
      rw [abs_of_nonneg (hl0 _)] at l1
      obtain ⟨r1, r2⟩ := hr (N + k)
      have p : (0 : ℝ) ≤ 6 * 0.999 ^ k := by positivity
      have e1 : e (N + k) + r (N + k) * (l (N + k) - e (N + k)) = (1 - r (N + k)) * e (N + k) + r (N + k) * l (N + k) := by ring
      have a1 := mul_le_mul_of_nonneg_left ih (show 0 ≤ 1 - r (N + k) by linarith)
      have a2 := mul_le_mul_of_nonneg_left l1 (show 0 ≤ r (N + k) by linarith)
      have a3 := mul_le_mul_of_nonneg_right r1 p
      rw [e1, pow_succ]
      nlinarith
  obtain ⟨M, hM⟩ := exists_pow_lt_of_lt_one (show 0 < δ / 12 by positivity) (show (0.999 : ℝ) < 1 by norm_num)
  refine ⟨N + M, fun n hn => ?_⟩
  obtain ⟨k, rfl⟩ := Nat.exists_eq_add_of_le (show N ≤ n by omega)
  rw [abs_of_nonneg (he0 _)]
  have : (0.999 : ℝ) ^ k ≤ 0.999 ^ M := pow_le_pow_of_le_one (by norm_num) (by norm_num) (by omega)
  linarith [key k]

/-- **C140 (automated).** When the modulator dies away, so does the output, however long the carrier goes on and however rate and gate are moved. -/
theorem C140_silent_modulator_automated {ε : ℝ} (hε : 0 ≤ ε) {root : ℝ → ℝ} (hr : Spec.Root ε root) {c : ℕ → BlockCfg} (hc : ∀ n, Spec.Made (c n)) (v : Voc)
    (hv : ∀ j, 0 ≤ v.env j ∧ v.env j ≤ 6) (hs : ∀ j, j < v.active → Spec.StableBand (v.cCar j) ∧ Spec.StableBand (v.cMod j))
    (x : ℕ → ℝ × ℝ × ℝ) {B : ℝ} (hx : ∀ k, |(x k).2.1| ≤ B ∧ |(x k).2.2| ≤ B) (hm : Spec.Dies fun k => (x k).1) :
    Spec.Dies (fun n => (outV root c v x n).1) ∧ Spec.Dies (fun n => (outV root c v x n).2) := by
  have hB : 0 ≤ B := (abs_nonneg _).trans (hx 0).1
  have hrate : ∀ n, 0.001 ≤ (c n).rate ∧ (c n).rate ≤ 0.016 := by
    intro n
    obtain ⟨rate, level, h0, h1, e⟩ := hc n
    rw [e]; exact rate_range h0 h1
  have gain : ∀ j, j < 4 * (v.active / 4) → Spec.Dies (gainV root c v x j) := by
    intro j hj δ hδ
    have dm := C138_dies (hs j (by omega)).2 (v.mod j) hm
    have lev : Spec.Dies fun n => Spec.level (c n).gate (bandOut (v.cMod j) (v.mod j) (fun k => (x k).1) n) := by
      intro η hη
      obtain ⟨N, hN⟩ := dm (min 1 η) (lt_min one_pos hη)
      refine ⟨N, fun n hn => ?_⟩
      have := hN n hn
      set y := bandOut (v.cMod j) (v.mod j) (fun k => (x k).1) n
      have hy : y ^ 2 ≤ η := by
        have h1 := le_min_iff.mp this
        rw [← sq_abs]
        nlinarith [abs_nonneg y]
      rw [abs_of_nonneg (level_range _ _).1]
      unfold Spec.level
      split
      · exact hη.le
      · exact (min_le_left _ _).trans hy
    have dies := follower_dies (e := fun n => (runV root c v x n).env j) (fun n => (env_rangeV hc hj (hv j) x n).1) (fun n => (env_rangeV hc hj (hv j) x n).2) hrate (fun n => (level_range _ _).1) lev
      (fun n => by rw [(runV_band root c v x j hj n).2.1, follow_eq])
    obtain ⟨N, hN⟩ := dies ((δ / (1 + ε)) ^ 2) (by positivity)
    refine ⟨N, fun n hn => ?_⟩
    have := hN (n + 1) (by omega)
    have := root_le hr (env_rangeV hc hj (hv j) x (n + 1)).1 ((le_abs_self _).trans this) (by positivity) hε
    refine this.trans (le_of_eq ?_)
    field_simp
  have prod : ∀ j, j < 4 * (v.active / 4) → Spec.Dies (fun k => (x k).2.1 * gainV root c v x j k) ∧ Spec.Dies (fun k => (x k).2.2 * gainV root c v x j k) := by
    intro j hj
    have hh : ∀ δ > 0, ∃ N, ∀ n ≥ N, ∀ a : ℝ, |a| ≤ B → |a * gainV root c v x j n| ≤ δ := by
      intro δ hδ
      obtain ⟨N, hN⟩ := gain j hj (δ / (B + 1)) (by positivity)
      refine ⟨N, fun n hn a ha => ?_⟩
      rw [abs_mul]
      calc |a| * |gainV root c v x j n| ≤ (B + 1) * (δ / (B + 1)) := mul_le_mul (by linarith) (hN n hn) (abs_nonneg _) (by linarith)
        _ = δ := by field_simp
    constructor
    · intro δ hδ
      obtain ⟨N, hN⟩ := hh δ hδ
      exact ⟨N, fun n hn => hN n hn _ (hx n).1⟩
    · intro δ hδ
      obtain ⟨N, hN⟩ := hh δ hδ
      exact ⟨N, fun n hn => hN n hn _ (hx n).2⟩
  constructor
  · refine dies_of_le (dies_sum (4 * (v.active / 4)) (fun j n => bandOut (v.cCar j) (v.carL j) (fun k => (x k).2.1 * gainV root c v x j k) n)
      (fun j hj => C138_dies (hs j (by omega)).1 _ (prod j hj).1)) fun n => ?_
    rw [C140_output_automated]
  · refine dies_of_le (dies_sum (4 * (v.active / 4)) (fun j n => bandOut (v.cCar j) (v.carR j) (fun k => (x k).2.2 * gainV root c v x j k) n)
      (fun j hj => C138_dies (hs j (by omega)).1 _ (prod j hj).2)) fun n => ?_
    rw [C140_output_automated]

/-- Beside C140: rate and gate swept up and down, block by block, are configurations of this kind. -/
example : ∀ n, Spec.Made ((fun n : ℕ => if n / 32 % 2 = 0 then BlockCfg.new 0 0.1 else BlockCfg.new 1 0.5) n) := by
  intro n
  simp only
  split
  · exact ⟨0, 0.1, by norm_num, by norm_num, rfl⟩
  · exact ⟨1, 0.5, by norm_num, by norm_num, rfl⟩

end Verif.Vocoder
