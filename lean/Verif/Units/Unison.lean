import Verif.Rust
import Mathlib.Algebra.BigOperators.Intervals
import Mathlib.Algebra.BigOperators.Field
import Mathlib.Data.Real.Basic
import Mathlib.Tactic.Ring
import Mathlib.Tactic.Linarith
import Mathlib.Tactic.FieldSimp
import Mathlib.Tactic.Positivity
/-!
# Unison voices (C114)

`surge-blitter/src/prepare_unison.rs`, read as exact real arithmetic (simplification: `f32` rounding is not modelled).
-/
namespace Verif.Units
open Finset

/-- The fields of `AbstractBlitter` (surge-blitter/src/blitter.rs 24-124) that `prepare_unison` touches; the arrays have `MAX_UNISON = 16`
entries, and indexing is checked. -/
structure Blit where
  nUnison : ℤ
  outAtten : ℝ
  outAttenInv : ℝ
  detuneBias : ℝ
  detuneOffset : ℝ
  panL : ℕ → ℝ
  panR : ℕ → ℝ

/-- prepare_unison.rs 17-22, `update_out_attenuation`. -/
noncomputable def Blit.updateOutAtten (b : Blit) : Blit := { b with outAttenInv := b.nUnison, outAtten := 1 / (b.nUnison : ℝ) }

/-- prepare_unison.rs 25-34, `prepare_single_voice`. -/
noncomputable def Blit.single (b : Blit) : Blit :=
  { b with detuneBias := 1, detuneOffset := 0, panL := Function.update b.panL 0 1, panR := Function.update b.panR 0 1 }

/-- prepare_unison.rs 84-104: the panning `d` of voice `i`. -/
noncomputable def voiceD (voices i : ℕ) : ℝ :=
  let odd := voices % 2 ≠ 0
  let mid := (voices : ℝ) * 0.5 - 0.5
  let half := voices / 2
  let d := |(i : ℝ) - mid| / mid
  let d := if odd ∧ half ≤ i then -d else d
  if i % 2 ≠ 0 then -d else d

/-- prepare_unison.rs 87-111: the loop body. -/
noncomputable def Blit.pan (voices : ℕ) (b : Blit) (i : ℕ) : Res Empty Blit :=
  if i < 16 then
    .ok { b with panL := Function.update b.panL i (1 - voiceD voices i), panR := Function.update b.panR i (1 + voiceD voices i) }
  else .panic "ndarray: index out of bounds"

/-- prepare_unison.rs 70-112, `prepare_multi_voice`. -/
noncomputable def Blit.multi (b : Blit) (voices : ℕ) : Res Empty Blit :=
  (List.range voices).foldlM (Blit.pan voices) { b with detuneBias := 2 / ((b.nUnison : ℝ) - 1), detuneOffset := -1 }

/-- prepare_unison.rs 144-157, `prepare_unison`. -/
noncomputable def Blit.prepare (b : Blit) (voices : ℕ) : Res Empty Blit :=
  let b := b.updateOutAtten
  if voices = 1 then .ok b.single else b.multi voices

/-- The way every oscillator calls it (e.g. surgeosc-super/src/init.rs 22-24): `n_unison` limited to 1..16, then `prepare_unison` with it. -/
noncomputable def Blit.setVoices (b : Blit) (count : ℤ) : Res Empty Blit :=
  let n := max 1 (min 16 count)
  { b with nUnison := n }.prepare n.toNat

/-- The detuning of voice `i` in units of the detune amount, as the oscillators use it (`detune_bias * i + detune_offset`, e.g.
surgeosc-super/src/set_pitch.rs 27, surgeosc-snh/src/convolute.rs 20). -/
def Blit.detune (b : Blit) (i : ℕ) : ℝ := b.detuneBias * i + b.detuneOffset

theorem pan_loop (v : ℕ) : ∀ (n : ℕ), n ≤ 16 → ∀ b : Blit, ∃ b', (List.range n).foldlM (Blit.pan v) b = .ok b' ∧
    b'.nUnison = b.nUnison ∧ b'.outAtten = b.outAtten ∧ b'.outAttenInv = b.outAttenInv ∧ b'.detuneBias = b.detuneBias ∧ b'.detuneOffset = b.detuneOffset ∧
    ∀ i < n, b'.panL i = 1 - voiceD v i ∧ b'.panR i = 1 + voiceD v i := by
  intro n
  induction n with
  | zero => intro _ b; exact ⟨b, rfl, rfl, rfl, rfl, rfl, rfl, by simp⟩
  | succ n ih =>
    intro hn b
    obtain ⟨b1, e, k1, k2, k3, k4, k5, k6⟩ := ih (by omega) b
    refine ⟨{ b1 with panL := Function.update b1.panL n (1 - voiceD v n), panR := Function.update b1.panR n (1 + voiceD v n) }, ?_, k1, k2, k3, k4, k5, ?_⟩
    · rw [List.range_succ, List.foldlM_append, e]
      show (List.foldlM (Blit.pan v) b1 [n]) = _
      simp only [List.foldlM_cons, List.foldlM_nil, Blit.pan, if_pos (show n < 16 by omega)]
      rfl
    · intro i hi
      by_cases h : i = n
      · subst h; simp
      · simp only [Function.update_of_ne h]; exact k6 i (by omega)

/-- `d` by cases. -/
theorem voiceD_abs {v i : ℕ} (hv : 2 ≤ v) (hi : i < v) : |voiceD v i| ≤ 1 := by
  have hm : (0 : ℝ) < (v : ℝ) * 0.5 - 0.5 := by have : (2 : ℝ) ≤ v := by exact_mod_cast hv
                                                linarith
  have e : |voiceD v i| = |(i : ℝ) - ((v : ℝ) * 0.5 - 0.5)| / ((v : ℝ) * 0.5 - 0.5) := by
    have h0 : 0 ≤ |(i : ℝ) - ((v : ℝ) * 0.5 - 0.5)| / ((v : ℝ) * 0.5 - 0.5) := by positivity
    simp only [voiceD]
    split_ifs <;> simp only [abs_neg, abs_of_nonneg h0]
  rw [e, div_le_one hm, abs_le]
  have : (i : ℝ) + 1 ≤ v := by exact_mod_cast hi
  have : (0 : ℝ) ≤ i := Nat.cast_nonneg i
  constructor <;> linarith

/-- Voices that mirror each other about the middle pan to opposite sides. -/
theorem voiceD_mirror {v i : ℕ} (hv : 2 ≤ v) (hi : i < v) : voiceD v (v - 1 - i) = -voiceD v i := by
  have c : ((v - 1 - i : ℕ) : ℝ) = v - 1 - i := by rw [Nat.cast_sub (by omega), Nat.cast_sub (by omega)]; simp
  have ea : |((v - 1 - i : ℕ) : ℝ) - ((v : ℝ) * 0.5 - 0.5)| = |(i : ℝ) - ((v : ℝ) * 0.5 - 0.5)| := by
    rw [c, ← abs_neg]; congr 1; ring
  simp only [voiceD, ea]
  rcases Nat.even_or_odd v with ⟨k, hk⟩ | ⟨k, hk⟩
  · have h1 : ¬ v % 2 ≠ 0 := by omega
    simp only [h1, false_and, if_false]
    by_cases h : i % 2 ≠ 0
    · have : ¬ (v - 1 - i) % 2 ≠ 0 := by omega
      rw [if_pos h, if_neg this, neg_neg]
    · have : (v - 1 - i) % 2 ≠ 0 := by omega
      rw [if_neg h, if_pos this]
  · have h1 : v % 2 ≠ 0 := by omega
    have hp : ((v - 1 - i) % 2 ≠ 0) = (i % 2 ≠ 0) := by rw [eq_iff_iff]; omega
    simp only [h1, true_and, hp, ne_eq, not_false_eq_true]
    rcases Nat.lt_trichotomy i k with h | h | h
    · rw [if_pos (show v / 2 ≤ v - 1 - i by omega), if_neg (show ¬ v / 2 ≤ i by omega)]
      split_ifs <;> simp
    · have z : |(i : ℝ) - ((v : ℝ) * 0.5 - 0.5)| = 0 := by
        rw [abs_eq_zero, h, hk]; push_cast; ring
      rw [z]; simp
    · rw [if_neg (show ¬ v / 2 ≤ v - 1 - i by omega), if_pos (show v / 2 ≤ i by omega)]
      split_ifs <;> simp

/-- **C114.**  Whatever count is asked for, preparing the voices succeeds and, with `n` the count limited to 1..16: every voice's two gains
add up to two and lie between zero and two, so none is out of phase or lost; the voices together are balanced between left and right; the
detunings are equally spaced, symmetric about zero and reach from -1 to 1 (a single voice is not detuned); and the attenuation is one over
the count. -/
theorem C114_balanced (b : Blit) (count : ℤ) :
    ∃ (b' : Blit) (n : ℕ), b.setVoices count = .ok b' ∧ (n : ℤ) = max 1 (min 16 count) ∧ b'.outAtten = 1 / n ∧
      (∀ i < n, b'.panL i + b'.panR i = 2 ∧ 0 ≤ b'.panL i ∧ 0 ≤ b'.panR i) ∧
      ∑ i ∈ range n, b'.panL i = n ∧ ∑ i ∈ range n, b'.panR i = n ∧
      (∀ i < n, b'.detune (n - 1 - i) = -b'.detune i) ∧
      (n = 1 → b'.detune 0 = 0) ∧ (2 ≤ n → b'.detune 0 = -1 ∧ b'.detune (n - 1) = 1 ∧ ∀ i, b'.detune (i + 1) - b'.detune i = 2 / (n - 1)) := by
  obtain ⟨n, hn⟩ : ∃ n : ℕ, (n : ℤ) = max 1 (min 16 count) := ⟨(max 1 (min 16 count)).toNat, Int.toNat_of_nonneg (by omega)⟩
  have h1 : 1 ≤ n := by omega
  have h16 : n ≤ 16 := by omega
  unfold Blit.setVoices
  simp only [← hn, Int.toNat_natCast, Blit.prepare]
  by_cases h : n = 1
  · subst h
    rw [if_pos rfl]
    refine ⟨_, 1, rfl, rfl, ?_, ?_, ?_, ?_, ?_, ?_, by omega⟩
    · simp [Blit.single, Blit.updateOutAtten]
    · intro i hi
      have : i = 0 := by omega
      subst this
      simp [Blit.single]; norm_num
    · simp [Blit.single]
    · simp [Blit.single]
    · intro i hi
      have : i = 0 := by omega
      subst this
      simp [Blit.single, Blit.detune]
    · intro _; simp [Blit.single, Blit.detune]
  · rw [if_neg h]
    have h2 : 2 ≤ n := by omega
    have hr : (2 : ℝ) ≤ n := by exact_mod_cast h2
    obtain ⟨b', e, -, ka, -, kb, ko, kp⟩ := pan_loop n n h16
      { (({ b with nUnison := n } : Blit).updateOutAtten) with detuneBias := 2 / (((n : ℤ) : ℝ) - 1), detuneOffset := -1 }
    have kb' : b'.detuneBias = 2 / ((n : ℝ) - 1) := by rw [kb]; simp
    have ko' : b'.detuneOffset = -1 := ko
    have hz : ∑ i ∈ range n, voiceD n i = 0 := by
      have := Finset.sum_range_reflect (fun i => voiceD n i) n
      rw [Finset.sum_congr rfl (fun i hi => voiceD_mirror h2 (Finset.mem_range.1 hi)), Finset.sum_neg_distrib] at this
      linarith
    refine ⟨b', n, e, rfl, ?_, ?_, ?_, ?_, ?_, fun h' => absurd h' h, fun _ => ⟨?_, ?_, ?_⟩⟩
    · rw [ka]; simp [Blit.updateOutAtten]
    · intro i hi
      rw [(kp i hi).1, (kp i hi).2]
      have := abs_le.1 (voiceD_abs h2 hi)
      exact ⟨by ring, by linarith, by linarith⟩
    · rw [Finset.sum_congr rfl (fun i hi => (kp i (Finset.mem_range.1 hi)).1), Finset.sum_sub_distrib, hz]; simp
    · rw [Finset.sum_congr rfl (fun i hi => (kp i (Finset.mem_range.1 hi)).2), Finset.sum_add_distrib, hz]; simp
    · intro i hi
      have c : ((n - 1 - i : ℕ) : ℝ) = n - 1 - i := by rw [Nat.cast_sub (by omega), Nat.cast_sub (by omega)]; simp
      simp only [Blit.detune, kb', ko', c]
      have : (n : ℝ) - 1 ≠ 0 := by linarith
      field_simp; ring
    · simp [Blit.detune, ko']
    · have c : ((n - 1 : ℕ) : ℝ) = n - 1 := by rw [Nat.cast_sub (by omega)]; simp
      simp only [Blit.detune, kb', ko', c]
      have : (n : ℝ) - 1 ≠ 0 := by linarith
      field_simp; ring
    · intro i
      simp only [Blit.detune, kb']
      push_cast; ring

/-- **C114.**  With two or more voices no two share a place: different voices have different detunings. -/
theorem C114_distinct (b : Blit) (count : ℤ) (h : 2 ≤ count) {b' : Blit} (e : b.setVoices count = .ok b') {i j : ℕ} (hij : i ≠ j) :
    b'.detune i ≠ b'.detune j := by
  obtain ⟨b1, n, e1, hn, -, -, -, -, -, -, hd⟩ := C114_balanced b count
  rw [e] at e1; cases e1
  obtain ⟨-, -, hs⟩ := hd (by omega)
  have hr : (2 : ℝ) ≤ n := by have : 2 ≤ n := by omega
                              exact_mod_cast this
  have hb : b'.detuneBias = 2 / (n - 1) := by
    have := hs 0
    simp only [Blit.detune] at this
    rw [← this]; push_cast; ring
  have hb0 : b'.detuneBias ≠ 0 := by rw [hb]; apply ne_of_gt; apply div_pos <;> linarith
  intro hc
  simp only [Blit.detune, add_left_inj, mul_eq_mul_left_iff, hb0, or_false, Nat.cast_inj] at hc
  exact hij hc

/-- **C114.**  Calling `prepare_unison` directly with more than sixteen voices panics. -/
theorem C114_too_many (b : Blit) {v : ℕ} (h : 16 < v) : (b.prepare v).isPanic := by
  unfold Blit.prepare Blit.multi
  simp only [if_neg (show v ≠ 1 by omega)]
  obtain ⟨k, rfl⟩ : ∃ k, v = 17 + k := ⟨v - 17, by omega⟩
  have e : List.range (17 + k) = List.range 16 ++ (16 :: (List.range k).map (17 + ·)) := by
    rw [List.range_add, show List.range 17 = List.range 16 ++ [16] from rfl, List.append_assoc]; rfl
  obtain ⟨b1, e1, -⟩ := pan_loop (17 + k) 16 le_rfl { b.updateOutAtten with detuneBias := 2 / ((b.updateOutAtten.nUnison : ℝ) - 1), detuneOffset := -1 }
  rw [e, List.foldlM_append, e1]
  rfl

/-- A case the claim speaks about: three voices pan hard one way, centre and hard the other way. -/
example : voiceD 3 0 = 1 ∧ voiceD 3 1 = 0 ∧ voiceD 3 2 = -1 := by
  refine ⟨?_, ?_, ?_⟩ <;> norm_num [voiceD]

end Verif.Units
