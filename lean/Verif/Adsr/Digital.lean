import Verif.Adsr.Props
/-!
# The digital stages of the envelope, one step at a time (C35)

`process_block_digital` ends in the unwritten `get_output` and always panics (`C35_release_and_blocks_panic`); what its stage functions
compute before that is stated here.
-/
namespace Verif.Adsr
open Verif.Float Verif.Dsp Verif.Param

/-- C35. A step of the linear digital decay moves the level towards the sustain level by at most the rate and never past it: it reaches the sustain level
exactly when that is within the (rounded) step, and otherwise moves by the whole rounded step. -/
theorem C35_digital_decay_partial (E : Env) (s : St) {su d : F32} {ph q r : ℚ} (hsu : s.p.sustain = .float su) (hd : s.p.decay = .float d)
    (hk : s.p.decayShape = .int 0) (hp : s.phase = .fin ph) (ip : Spec.IsF32 ph) (p0 : 0 ≤ ph) (p1 : ph ≤ 1) (hq : su = .fin q)
    (hr : F32.mul (E.rateLinear d) (tsync E s.p.syncD) = .fin r) (r0 : 0 ≤ r) (r1 : r ≤ 1) :
    ∃ y, digitalDecay E s = .ok { s with phase := .fin y, output := .fin y } ∧
      ((y = q ∧ rne (ph - r) ≤ q ∧ q ≤ rne (ph + r)) ∨ (y = rne (ph - r) ∧ q < y ∧ y ≤ ph) ∨ (y = rne (ph + r) ∧ y < q ∧ ph ≤ y)) := by
  subst hq
  have b1 : rne (ph - r) ≤ ph := by
    have := rne_mono (show ph - r ≤ ph by linarith)
    rwa [show rne ph = ph from ip] at this
  have b2 : ph ≤ rne (ph + r) := by
    have := rne_mono (show ph ≤ ph + r by linarith)
    rwa [show rne ph = ph from ip] at this
  have e1 : F32.sub (.fin ph) (.fin r) = .fin (rne (ph - r)) := sub_fin (by rw [abs_of_nonneg p0]; norm_num; linarith) (by rw [abs_of_nonneg r0]; norm_num; linarith)
  have e2 : F32.add (.fin ph) (.fin r) = .fin (rne (ph + r)) := add_fin (by rw [abs_of_nonneg (by linarith)]; norm_num; linarith)
  refine ⟨Dsp.Spec.clamp (rne (ph - r)) (rne (ph + r)) q, ?_, ?_⟩
  · unfold digitalDecay
    rw [hsu, hd, hk]
    simp only [pvalf, pvali, Res.ok_bind, hr, hp]
    unfold decayBounds
    simp only [show ¬ (0 : Int) = 1 by norm_num, show ¬ (0 : Int) = 2 by norm_num, if_false, e1, e2]
    rw [(C61_limit_range (.fin q) (b1.trans b2)).2.1 q rfl]
  · unfold Dsp.Spec.clamp
    split_ifs with h1 h2
    · right; left; exact ⟨rfl, h1, b1⟩
    · right; right; exact ⟨rfl, h2, b2⟩
    · left; exact ⟨rfl, by linarith, by linarith⟩

/-- Floats are multiples of the smallest one, so different floats differ by at least that. -/
theorem sub_grid {a b : ℚ} (ia : Spec.IsF32 a) (ib : Spec.IsF32 b) (h : a < b) : a - b ≤ - 2 ^ (-149 : ℤ) := by
  have form : ∀ {x : ℚ}, Spec.IsF32 x → ∃ m : ℤ, x = m * 2 ^ (-149 : ℤ) := by
    intro x ix
    obtain ⟨n, e, _, he, hv⟩ := rne_form x
    obtain ⟨k, hk⟩ := Int.eq_ofNat_of_zero_le (show 0 ≤ e - (-149) by omega)
    refine ⟨n * 2 ^ k, ?_⟩
    rw [show rne x = x from ix] at hv
    rw [hv, show e = (k : ℤ) + (-149) by omega, zpow_add₀ (by norm_num)]
    push_cast
    rw [zpow_natCast]
    ring
  obtain ⟨m, rfl⟩ := form ia
  obtain ⟨n, rfl⟩ := form ib
  have h2 : (0 : ℚ) < 2 ^ (-149 : ℤ) := zpow_pos (by norm_num) _
  have : (m : ℚ) < n := lt_of_mul_lt_mul_right h h2.le
  have : m < n := by exact_mod_cast this
  have : (m : ℚ) + 1 ≤ n := by exact_mod_cast this
  nlinarith

/-- `n` more factors of `ph` in 0..1 keep a number in 0..1. -/
theorem scaleN_unit (n : Nat) {x ph : F32} (hx : ∃ a, x = .fin a ∧ 0 ≤ a ∧ a ≤ 1) (hp : ∃ a, ph = .fin a ∧ 0 ≤ a ∧ a ≤ 1) :
    ∃ a, scaleN x ph n = .fin a ∧ 0 ≤ a ∧ a ≤ 1 := by
  induction n generalizing x with
  | zero => exact hx
  | succ n ih =>
    obtain ⟨a, rfl, a0, a1⟩ := hx
    obtain ⟨b, rfl, b0, b1⟩ := hp
    have m1 : a * b ≤ 1 := mul_le_one₀ a1 b0 b1
    have m0 := mul_nonneg a0 b0
    apply ih ⟨rne (a * b), mul_fin (by rw [abs_of_nonneg m0]; exact m1.trans (by norm_num)), rne_nonneg m0, ?_⟩
    have := rne_mono m1
    rwa [show rne 1 = 1 by decide +kernel] at this

/-- C35. A step of the digital release lowers the phase by the rate; once that is below 0 the envelope is idle at level 0, and until then the level is
the phase raised by the release shape (between 0 and 1) times the level the release started from. -/
theorem C35_digital_release_partial (E : Env) (s : St) {v : F32} {n : Int} {ph r sc : ℚ} (hv : s.p.release = .float v) (hn : s.p.releaseShape = .int n)
    (hp : s.phase = .fin ph) (p0 : 0 ≤ ph) (ip : Spec.IsF32 ph) (p1 : ph ≤ 1) (hr : F32.mul (E.rateLinear v) (tsync E s.p.syncR) = .fin r) (ir : Spec.IsF32 r) (r0 : 0 ≤ r) (r1 : r ≤ 1)
    (hs : s.scalestage = .fin sc) (s0 : 0 ≤ sc) (s1 : sc ≤ 1) (isc : Spec.IsF32 sc) :
    ∃ s', digitalRelease E s = .ok s' ∧ s'.phase = .fin (rne (ph - r)) ∧ rne (ph - r) ≤ ph ∧
      (ph < r → s'.stage = .idle ∧ s'.output = .fin 0) ∧
      (r ≤ ph → s'.stage = s.stage ∧ ∃ a, scaleN (.fin (rne (ph - r))) (.fin (rne (ph - r))) n.toNat = .fin a ∧ 0 ≤ a ∧ a ≤ 1 ∧ s'.output = .fin (rne (a * sc)) ∧
        0 ≤ rne (a * sc) ∧ rne (a * sc) ≤ sc ∧ (n ≤ 0 → a = rne (ph - r))) := by
  have e1 : F32.sub (.fin ph) (.fin r) = .fin (rne (ph - r)) := sub_fin (by rw [abs_of_nonneg p0]; norm_num; linarith) (by rw [abs_of_nonneg r0]; norm_num; linarith)
  have b1 : rne (ph - r) ≤ ph := by
    have := rne_mono (show ph - r ≤ ph by linarith)
    rwa [show rne ph = ph from ip] at this
  refine ⟨_, by unfold digitalRelease releaseStep; rw [hv, hn]; simp only [pvalf, pvali, Res.ok_bind, hr, hp, e1]; rfl, ?_, b1, ?_, ?_⟩
  · split <;> rfl
  · intro h
    have hneg : rne (ph - r) < 0 := by
      have := rne_mono (sub_grid ip ir h)
      rw [rne_neg, rne_zpow (by norm_num)] at this
      have h2 : (0 : ℚ) < 2 ^ (-149 : ℤ) := zpow_pos (by norm_num) _
      linarith
    rw [if_pos (by simp [F32.lt, hneg])]
    refine ⟨rfl, ?_⟩
    dsimp only
    rw [hs, mul_fin (by rw [zero_mul]; norm_num), zero_mul, rne_zero]
  · intro h
    have hnn : 0 ≤ rne (ph - r) := rne_nonneg (by linarith)
    rw [if_neg (by simp [F32.lt]; exact hnn)]
    obtain ⟨a, ea, a0, a1⟩ := scaleN_unit n.toNat (x := .fin (rne (ph - r))) (ph := .fin (rne (ph - r))) ⟨_, rfl, hnn, b1.trans p1⟩ ⟨_, rfl, hnn, b1.trans p1⟩
    have m0 := mul_nonneg a0 s0
    have m1 : a * sc ≤ sc := by nlinarith
    refine ⟨rfl, a, ea, a0, a1, ?_, rne_nonneg m0, ?_, ?_⟩
    · dsimp only
      rw [ea, hs, mul_fin (by rw [abs_of_nonneg m0]; exact (m1.trans s1).trans (by norm_num))]
    · have := rne_mono m1
      rwa [show rne sc = sc from isc] at this
    · intro hn0
      rw [Int.toNat_of_nonpos hn0] at ea
      cases ea; rfl

end Verif.Adsr
