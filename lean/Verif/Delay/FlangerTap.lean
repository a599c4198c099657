import Verif.Delay.Flanger
import Verif.Param.Props

/-! # Where a flanger comb reads

C88, C90 and C91 say that the flanger never reads outside its line; this says where it reads. -/
namespace Verif.Flanger
open Verif.Float Verif.Param

/-- C90: for a base delay of up to 8192 samples, a modulator value between −1 and 1 and a depth between 0 and 1, the comb
reads `base · (1 + lfo · depth) + 1` samples back, to within 1/128 of a sample. -/
theorem C90_tap_place {base l d : ℚ} (hb0 : 0 ≤ base) (hb : base ≤ 8192) (hl : |l| ≤ 1) (hd0 : 0 ≤ d) (hd : d ≤ 1) :
    ∃ r : ℚ, tapPos (.fin base) (.fin l) (.fin d) = .fin r ∧ |r - (base * (1 + l * d) + 1)| ≤ 1 / 128 := by
  have hbig : (2:ℚ) ^ 20 ≤ 2 ^ 100 := by norm_num
  have h1 : |l * d| ≤ 1 := by
    rw [abs_mul, abs_of_nonneg hd0]
    calc |l| * d ≤ 1 * 1 := mul_le_mul hl hd hd0 (by norm_num)
      _ = 1 := by norm_num
  have e1 := rne_dist h1
  have u1 : |rne (l * d)| ≤ 2 ^ 0 := rne_abs (by simpa using h1)
  obtain ⟨p, hp⟩ : ∃ p, p = rne (l * d) := ⟨_, rfl⟩
  rw [← hp] at e1 u1
  have h2 : |1 + p| ≤ 2 := by
    obtain ⟨a, b⟩ := abs_le.mp u1
    rw [abs_le]; constructor <;> norm_num at a b <;> linarith
  have e2 := rne_dist h2
  have u2 : |rne (1 + p)| ≤ 2 ^ 1 := rne_abs (by simpa using h2)
  obtain ⟨s, hs⟩ : ∃ s, s = rne (1 + p) := ⟨_, rfl⟩
  rw [← hs] at e2 u2
  have h3 : |base * s| ≤ 16384 := by
    rw [abs_mul, abs_of_nonneg hb0]
    calc base * |s| ≤ 8192 * 2 := mul_le_mul hb (by simpa using u2) (abs_nonneg _) (by norm_num)
      _ = 16384 := by norm_num
  have e3 := rne_dist h3
  have u3 : |rne (base * s)| ≤ 2 ^ 14 := rne_abs (h3.trans (by norm_num))
  obtain ⟨v, hv⟩ : ∃ v, v = rne (base * s) := ⟨_, rfl⟩
  rw [← hv] at e3 u3
  have h4 : |v + 1| ≤ 16385 := by
    obtain ⟨a, b⟩ := abs_le.mp u3
    rw [abs_le]; constructor <;> norm_num at a b <;> linarith
  have e4 := rne_dist h4
  refine ⟨rne (v + 1), ?_, ?_⟩
  · unfold tapPos
    rw [mul_fin (h1.trans (by norm_num)), ← hp, add_fin (h2.trans (by norm_num)), ← hs, mul_fin (h3.trans (by norm_num)), ← hv,
      add_fin (h4.trans (by norm_num))]
  · have k : |base * (s - (1 + l * d))| ≤ 8192 * (4 / 2 ^ 24) := by
      rw [abs_mul, abs_of_nonneg hb0]
      refine mul_le_mul hb ?_ (abs_nonneg _) (by norm_num)
      have : s - (1 + l * d) = (s - (1 + p)) + (p - l * d) := by ring
      rw [this]
      refine (abs_add_le _ _).trans ?_
      norm_num at e1 e2 ⊢
      linarith
    have : rne (v + 1) - (base * (1 + l * d) + 1) = (rne (v + 1) - (v + 1)) + (v - base * s) + base * (s - (1 + l * d)) := by ring
    rw [this]
    refine (abs_add_le _ _).trans ?_
    have := abs_add_le (rne (v + 1) - (v + 1)) (v - base * s)
    norm_num at e3 e4 k ⊢
    linarith

/-- A base of 100 samples with the modulator at its lowest and full depth reads one sample back; at its highest, 201. -/
example : tapPos (.fin 100) (.fin (-1)) (.fin 1) = .fin 1 ∧ tapPos (.fin 100) (.fin 1) (.fin 1) = .fin 201 := by
  decide +kernel

end Verif.Flanger
