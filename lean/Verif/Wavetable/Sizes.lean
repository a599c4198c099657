import Verif.Wavetable.Model
/-! # Sizes and positions in a mip-mapped wavetable (C80, C81) -/
namespace Verif.Wavetable
open Verif

namespace Spec

/-- Where mip level `m` starts when every level before it takes `waves·len` samples, halved as often as its number
says, plus `pad` per wave. -/
def levelStart (len waves pad : Nat) : Nat → Nat
  | 0 => 0
  | m + 1 => levelStart len waves pad m + (waves * len / 2 ^ m + pad * waves)

/-- The space `[i, i + n)` lies before, or after, `[j, j + k)`. -/
def Apart (i n j k : Nat) : Prop := i + n ≤ j ∨ j + k ≤ i

end Spec
open Spec

theorem forN_zero {σ : Type} (f : Nat → σ → Res Empty σ) (s : σ) : forN 0 f s = .ok s := rfl

theorem forN_succ {σ : Type} (n : Nat) (f : Nat → σ → Res Empty σ) (s : σ) :
    forN (n + 1) f s = forN n f s >>= f n := by
  unfold forN
  rw [List.range_succ, List.foldl_append]; rfl

theorem forN_inv {σ : Type} (P : Nat → σ → Prop) (f : Nat → σ → Res Empty σ) (n : Nat) (s : σ) (h0 : P 0 s)
    (h : ∀ i, i < n → ∀ s, P i s → ∃ s', f i s = .ok s' ∧ P (i + 1) s') :
    ∃ s', forN n f s = .ok s' ∧ P n s' := by
  induction n with
  | zero => exact ⟨s, rfl, h0⟩
  | succ n ih =>
    obtain ⟨s1, e1, p1⟩ := ih (fun i hi => h i (by omega))
    obtain ⟨s2, e2, p2⟩ := h n (by omega) s1 p1
    exact ⟨s2, by rw [forN_succ, e1]; exact e2, p2⟩

/-- What holds after a loop that returned. -/
theorem forN_ok {σ : Type} (P : Nat → σ → Prop) (f : Nat → σ → Res Empty σ) (n : Nat) (s s' : σ) (h0 : P 0 s)
    (h : ∀ i, i < n → ∀ s s', P i s → f i s = .ok s' → P (i + 1) s') (e : forN n f s = .ok s') : P n s' := by
  induction n generalizing s' with
  | zero => cases e; exact h0
  | succ n ih =>
    rw [forN_succ] at e
    cases hn : forN n f s with
    | ok s1 => rw [hn] at e; exact h n (by omega) s1 s' (ih _ (fun i hi => h i (by omega)) hn) e
    | err x => exact x.elim
    | panic w => rw [hn] at e; cases e

theorem addUs_ok {a b c : Nat} (h : addUs a b = .ok c) : c = a + b ∧ a + b < 2 ^ 64 := by
  unfold addUs at h; split at h
  · cases h; exact ⟨rfl, ‹_›⟩
  · cases h
theorem mulUs_ok {a b c : Nat} (h : mulUs a b = .ok c) : c = a * b ∧ a * b < 2 ^ 64 := by
  unfold mulUs at h; split at h
  · cases h; exact ⟨rfl, ‹_›⟩
  · cases h
theorem shrUs_ok {a b c : Nat} (h : shrUs a b = .ok c) : c = a / 2 ^ b ∧ b < 64 := by
  unfold shrUs at h; split at h
  · cases h; exact ⟨rfl, ‹_›⟩
  · cases h
theorem addUs_eq {a b : Nat} (h : a + b < 2 ^ 64) : addUs a b = .ok (a + b) := by unfold addUs; rw [if_pos h]
theorem mulUs_eq {a b : Nat} (h : a * b < 2 ^ 64) : mulUs a b = .ok (a * b) := by unfold mulUs; rw [if_pos h]
theorem shrUs_eq {a b : Nat} (h : b < 64) : shrUs a b = .ok (a / 2 ^ b) := by unfold shrUs; rw [if_pos h]

theorem bindE {α β : Type} {r : Res Empty α} {f : α → Res Empty β} {b : β} (h : (r >>= f) = .ok b) :
    ∃ a, r = .ok a ∧ f a = .ok b := by
  cases r with
  | ok a => exact ⟨a, rfl, h⟩
  | err e => exact e.elim
  | panic w => cases h

/-! ## C80 -/

/-- The position handed out, in closed form. -/
theorem index_spec {w len waves m : Nat} {p : Padding} {i : Nat} (h : getWtIndex w len waves m p = .ok i) :
    i = w * (len / 2 ^ m + p.num) + levelStart len waves p.num m ∧ i + len ≤ 2097152 ∧ 0 < i + len := by
  unfold getWtIndex at h
  obtain ⟨sz, h1, h⟩ := bindE h
  obtain ⟨w1, h2, h⟩ := bindE h
  obtain ⟨i0, h3, h⟩ := bindE h
  obtain ⟨off, h4, h⟩ := bindE h
  obtain ⟨i1, h5, h⟩ := bindE h
  obtain ⟨e, h6, h⟩ := bindE h
  obtain ⟨rfl, -⟩ := shrUs_ok h1
  obtain ⟨rfl, -⟩ := addUs_ok h2
  obtain ⟨rfl, -⟩ := mulUs_ok h3
  obtain ⟨rfl, -⟩ := mulUs_ok h4
  obtain ⟨rfl, -⟩ := addUs_ok h6
  have h5' := forN_ok (fun k j => j = w * (len / 2 ^ m + p.num) + levelStart len waves p.num k) _ m _ _
    (by simp [levelStart]) (by
      intro k hk s s' hs hstep
      obtain ⟨o, g1, hstep⟩ := bindE hstep
      obtain ⟨j, g2, hstep⟩ := bindE hstep
      obtain ⟨q, g3, hstep⟩ := bindE hstep
      obtain ⟨rfl, -⟩ := shrUs_ok g1
      obtain ⟨rfl, -⟩ := addUs_ok g2
      obtain ⟨rfl, -⟩ := mulUs_ok g3
      obtain ⟨rfl, -⟩ := addUs_ok hstep
      rw [hs]; simp only [levelStart]; omega) h5
  by_cases hz : i1 + len = 0
  · rw [if_pos hz] at h; cases h
  · rw [if_neg hz] at h
    by_cases hb : i1 + len - 1 < maxWavetableSamples
    · rw [if_pos hb] at h; unfold maxWavetableSamples at hb; cases h; exact ⟨h5', by omega, by omega⟩
    · rw [if_neg hb] at h; cases h

theorem level_room (len waves m : Nat) : waves * (len / 2 ^ m) ≤ waves * len / 2 ^ m := by
  rw [Nat.le_div_iff_mul_le (by positivity), Nat.mul_assoc]
  exact Nat.mul_le_mul_left _ (Nat.div_mul_le_self _ _)

theorem levelStart_mono (len waves pad : Nat) {m m' : Nat} (h : m ≤ m') :
    levelStart len waves pad m ≤ levelStart len waves pad m' := by
  induction h with
  | refl => exact Nat.le_refl _
  | step _ ih => exact Nat.le_trans ih (Nat.le_add_right _ _)

theorem wave_room {w waves : Nat} (h : w < waves) (b : Nat) : w * b + b ≤ waves * b := by
  have := Nat.mul_le_mul_right b (show w + 1 ≤ waves from h)
  rw [Nat.add_mul] at this; omega

theorem region_end {w len waves m pad : Nat} (h : w < waves) :
    w * (len / 2 ^ m + pad) + levelStart len waves pad m + (len / 2 ^ m + pad) ≤ levelStart len waves pad (m + 1) := by
  have h1 := wave_room h (len / 2 ^ m + pad)
  have h2 := level_room len waves m
  have h3 : waves * (len / 2 ^ m + pad) = waves * (len / 2 ^ m) + waves * pad := Nat.mul_add _ _ _
  have h4 := Nat.mul_comm waves pad
  simp only [levelStart]; omega

/-- **C80**: for every table size (a power of two or not), number of waves and padding, the positions handed out for two
different (mip level, wave) pairs are far enough apart that the samples and padding of one never touch those of the
other. -/
theorem C80_regions_disjoint (len waves : Nat) (p : Padding) (w m w' m' i i' : Nat) (hw : w < waves) (hw' : w' < waves)
    (hne : (m, w) ≠ (m', w')) (h : getWtIndex w len waves m p = .ok i) (h' : getWtIndex w' len waves m' p = .ok i') :
    Apart i (len / 2 ^ m + p.num) i' (len / 2 ^ m' + p.num) := by
  obtain ⟨e, -, -⟩ := index_spec h
  obtain ⟨e', -, -⟩ := index_spec h'
  unfold Apart
  rcases Nat.lt_trichotomy m m' with hm | hm | hm
  · have h1 := region_end (len := len) (m := m) (pad := p.num) hw
    have h2 := levelStart_mono len waves p.num (show m + 1 ≤ m' from hm)
    left; omega
  · subst hm
    rcases Nat.lt_trichotomy w w' with hh | hh | hh
    · have := wave_room hh (len / 2 ^ m + p.num); left; omega
    · subst hh; exact absurd rfl hne
    · have := wave_room hh (len / 2 ^ m + p.num); right; omega
  · have h1 := region_end (len := len) (m := m') (pad := p.num) hw'
    have h2 := levelStart_mono len waves p.num (show m' + 1 ≤ m from hm)
    right; omega

example : ∃ i i', getWtIndex 2 100 5 1 (.units 7) = .ok i ∧ getWtIndex 1 100 5 2 (.units 7) = .ok i' ∧ i = 649 ∧ i' = 852 := by
  refine ⟨649, 852, by decide +kernel, by decide +kernel, rfl, rfl⟩

/-- What the size estimate must cover: the first `m` levels. -/
def need (count len : Nat) : Nat → Nat
  | 0 => 0
  | m + 1 => need count len m + count * (len / 2 ^ m + 12)

theorem need_shift (count len m : Nat) : need count len (m + 1) = count * (len + 12) + need count (len / 2) m := by
  induction m with
  | zero => simp [need]
  | succ m ih =>
    rw [need, ih, need, Nat.div_div_eq_div_mul, show 2 * 2 ^ m = 2 ^ (m + 1) by rw [Nat.pow_succ, Nat.mul_comm]]; omega

theorem sizeLoop_ge (count : Nat) (fuel : Nat) : ∀ (len acc n m : Nat), wtSizeLoop count fuel len acc = .ok n →
    m < fuel → 0 < len / 2 ^ m → acc + need count len (m + 1) ≤ n ∧ len < 2 ^ 64 := by
  induction fuel with
  | zero => intro len acc n m _ h; omega
  | succ fuel ih =>
    intro len acc n m h hm hpos
    have hl : len ≠ 0 := by rintro rfl; simp at hpos
    unfold wtSizeLoop at h
    rw [if_neg hl] at h
    obtain ⟨a, h1, h⟩ := bindE h
    obtain ⟨b, h2, h⟩ := bindE h
    obtain ⟨c, h3, h⟩ := bindE h
    obtain ⟨acc', h4, h⟩ := bindE h
    obtain ⟨rfl, h1'⟩ := addUs_ok h1
    obtain ⟨rfl, -⟩ := addUs_ok h2
    obtain ⟨rfl, -⟩ := mulUs_ok h3
    obtain ⟨rfl, -⟩ := addUs_ok h4
    refine ⟨?_, by omega⟩
    rw [need_shift]
    cases m with
    | zero =>
      have : ∀ (fuel s acc n : Nat), wtSizeLoop count fuel s acc = .ok n → acc ≤ n := by
        intro fuel
        induction fuel with
        | zero => intro s acc n h; unfold wtSizeLoop at h; cases h; exact Nat.le_refl _
        | succ fuel ih =>
          intro s acc n h
          unfold wtSizeLoop at h
          split at h
          · cases h; exact Nat.le_refl _
          · obtain ⟨a, h1, h⟩ := bindE h
            obtain ⟨b, h2, h⟩ := bindE h
            obtain ⟨c, h3, h⟩ := bindE h
            obtain ⟨acc', h4, h⟩ := bindE h
            obtain ⟨rfl, -⟩ := addUs_ok h4
            have := ih _ _ _ h
            omega
      have := this _ _ _ _ h
      simp only [need]; have e : len + 4 + 8 = len + 12 := rfl
      rw [e] at this; omega
    | succ m =>
      have hd : len / 2 / 2 ^ m = len / 2 ^ (m + 1) := by rw [Nat.div_div_eq_div_mul, Nat.pow_succ, Nat.mul_comm]
      have := (ih _ _ _ m h (by omega) (by rw [hd]; exact hpos)).1
      have e : len + 4 + 8 = len + 12 := rfl
      rw [e] at this; omega

theorem start_le_need {len waves pad : Nat} (hp : pad ≤ 11 ∨ (pad ≤ 12 ∧ ∃ k, len = 2 ^ k)) (m : Nat)
    (hm : 0 < len / 2 ^ m) :
    levelStart len waves pad (m + 1) + 3 * len ≤ need (waves + 3) len (m + 1) := by
  have key : ∀ j, 0 < len / 2 ^ j → waves * len / 2 ^ j + pad * waves ≤ waves * (len / 2 ^ j + 12) := by
    intro j hj
    rcases hp with hp | ⟨hp, k, rfl⟩
    · have h1 : waves * len / 2 ^ j ≤ waves * (len / 2 ^ j) + waves := by
        have h2 : len ≤ 2 ^ j * (len / 2 ^ j + 1) := by
          have := Nat.div_add_mod len (2 ^ j)
          have := Nat.mod_lt len (show 0 < 2 ^ j by positivity)
          rw [Nat.mul_add]; omega
        calc waves * len / 2 ^ j ≤ waves * (2 ^ j * (len / 2 ^ j + 1)) / 2 ^ j :=
              Nat.div_le_div_right (Nat.mul_le_mul_left _ h2)
          _ = waves * (len / 2 ^ j + 1) := by
              rw [Nat.mul_left_comm]; exact Nat.mul_div_cancel_left _ (by positivity)
          _ = _ := by rw [Nat.mul_add, Nat.mul_one]
      have h3 := Nat.mul_le_mul_right waves hp
      rw [Nat.mul_add]; omega
    · have hjk : j ≤ k := by
        by_contra hc
        rw [Nat.div_eq_of_lt (Nat.pow_lt_pow_right (by omega) (by omega))] at hj; omega
      have : waves * 2 ^ k / 2 ^ j = waves * (2 ^ k / 2 ^ j) := Nat.mul_div_assoc _ (Nat.pow_dvd_pow 2 hjk)
      have h3 := Nat.mul_le_mul_right waves hp
      rw [Nat.mul_add]; omega
  induction m with
  | zero =>
    have h0 := key 0 hm
    simp only [levelStart, need, Nat.pow_zero, Nat.div_one, Nat.zero_add] at *
    rw [Nat.add_mul]; omega
  | succ m ih =>
    have hm' : 0 < len / 2 ^ m := by
      have : len / 2 ^ (m + 1) ≤ len / 2 ^ m := Nat.div_le_div_left (Nat.pow_le_pow_right (by omega) (by omega)) (by positivity)
      omega
    have h0 := key (m + 1) hm
    have h1 := ih hm'
    rw [levelStart, need, Nat.add_mul]; omega

/-- **C80**: the size estimate is enough. For every table length and count, every non-empty mip level and every wave, with
up to eleven samples of padding per wave (twelve when the length is a power of two): the position is handed out without a
failure whenever the estimate is within the limit, and the wave's samples and padding end within the estimate. -/
theorem C80_size_estimate_covers (len waves n : Nat) (p : Padding) (hp : p.num ≤ 11 ∨ (p.num ≤ 12 ∧ ∃ k, len = 2 ^ k))
    (hn : requiredWtSize len waves = .ok n) (hmax : n ≤ 2097152) (w m : Nat) (hw : w < waves) (hm : 0 < len / 2 ^ m) :
    ∃ i, getWtIndex w len waves m p = .ok i ∧ i + (len / 2 ^ m + p.num) ≤ n := by
  unfold requiredWtSize at hn
  obtain ⟨c, hc, hn⟩ := bindE hn
  obtain ⟨rfl, -⟩ := addUs_ok hc
  have hlt : len < 2 ^ 64 := by
    have := (sizeLoop_ge (waves + 3) 64 len 0 n 0 hn (by omega) (by
      have : len / 2 ^ m ≤ len := Nat.div_le_self _ _
      simpa using (by omega : 0 < len))).2
    exact this
  have hm64 : m < 64 := by
    by_contra hc
    rw [Nat.div_eq_of_lt (Nat.lt_of_lt_of_le hlt (Nat.pow_le_pow_right (by omega) (by omega)))] at hm
    omega
  have hneed := (sizeLoop_ge (waves + 3) 64 len 0 n m hn hm64 hm).1
  have hst := start_le_need (waves := waves) hp m hm
  have hend := region_end (len := len) (m := m) (pad := p.num) hw
  have hpos : 0 < len := by have : len / 2 ^ m ≤ len := Nat.div_le_self _ _; omega
  have hoff : waves * len < 2 ^ 64 := by
    have h1 := (sizeLoop_ge (waves + 3) 64 len 0 n 0 hn (by omega) (by simpa using hpos)).1
    simp only [need, Nat.pow_zero, Nat.div_one, Nat.zero_add, Nat.add_mul, Nat.mul_add] at h1
    omega
  have hsl : len / 2 ^ m ≤ len := Nat.div_le_self _ _
  refine ⟨w * (len / 2 ^ m + p.num) + levelStart len waves p.num m, ?_, by omega⟩
  unfold getWtIndex
  rw [shrUs_eq hm64, Res.ok_bind, addUs_eq (by omega), Res.ok_bind, mulUs_eq (by omega), Res.ok_bind,
    mulUs_eq hoff, Res.ok_bind]
  obtain ⟨i', e, rfl⟩ := forN_inv (fun k j => j = w * (len / 2 ^ m + p.num) + levelStart len waves p.num k)
    (fun i index => do
      let o ← shrUs (waves * len) i
      let index ← addUs index o
      let p ← mulUs p.num waves
      addUs index p) m (w * (len / 2 ^ m + p.num)) (by simp [levelStart]) (by
      intro k hk s hs
      have hle := levelStart_mono len waves p.num (show k + 1 ≤ m from hk)
      simp only [levelStart] at hle
      refine ⟨_, ?_, rfl⟩
      subst hs
      have hpw : p.num * waves < 2 ^ 64 := by generalize waves * len / 2 ^ k = q at hle; omega
      rw [shrUs_eq (by omega), Res.ok_bind, addUs_eq (by omega), Res.ok_bind, mulUs_eq hpw, Res.ok_bind,
        addUs_eq (by omega)]
      simp only [levelStart]; congr 1; omega)
  rw [e, Res.ok_bind, addUs_eq (by omega), Res.ok_bind, if_neg (by omega), if_pos (by unfold maxWavetableSamples; omega)]

example : requiredWtSize 2048 100 = .ok 436617 ∧ 0 < 2048 / 2 ^ 11 := by decide +kernel

/-- **C80**: a table without samples has no position at all: the call panics for its first wave. -/
theorem C80_empty_wave_panics (waves : Nat) :
    getWtIndex 0 0 waves 0 .noPadding = .panic "usize subtract overflow" := by
  unfold getWtIndex
  rw [shrUs_eq (by omega), Res.ok_bind, addUs_eq (by simp [Padding.num]), Res.ok_bind, mulUs_eq (by simp), Res.ok_bind,
    mulUs_eq (by simp), Res.ok_bind, forN_zero, Res.ok_bind, addUs_eq (by simp), Res.ok_bind, if_pos (by simp)]

/-! ## C81 -/

theorem levelsLoop_spec (len : Nat) (fuel : Nat) : ∀ l, 1 ≤ l → l ≤ 16 → 16 ≤ l + fuel → (∀ k, 1 ≤ k → k < l → 2 ^ k < len) →
    l ≤ levelsLoop len fuel l ∧ levelsLoop len fuel l ≤ 16 ∧ (len ≤ 2 ^ levelsLoop len fuel l ∨ levelsLoop len fuel l = 16) ∧
      ∀ k, 1 ≤ k → k < levelsLoop len fuel l → 2 ^ k < len := by
  induction fuel with
  | zero => intro l h1 h2 h3 h4; unfold levelsLoop; exact ⟨Nat.le_refl _, h2, Or.inr (by omega), h4⟩
  | succ fuel ih =>
    intro l h1 h2 h3 h4
    unfold levelsLoop
    split
    · rename_i hc
      obtain ⟨a, b, c, d⟩ := ih (l + 1) (by omega) (by have := hc.2; unfold maxMipmapLevels at this; omega) (by omega) (by
        intro k hk1 hk2
        rcases Nat.lt_or_ge k l with h | h
        · exact h4 k hk1 h
        · have : k = l := by omega
          subst this; exact hc.1)
      exact ⟨by omega, b, c, d⟩
    · rename_i hc
      refine ⟨Nat.le_refl _, h2, ?_, h4⟩
      by_cases hlt : 2 ^ l < len
      · right; unfold maxMipmapLevels at hc; omega
      · left; omega

/-- **C81**: for every table length the number of mip levels is the least number from 1 to 16 whose power of two reaches
the length, or 16 when none does. -/
theorem C81_levels_least (len : Nat) :
    1 ≤ requiredMipmapLevels len ∧ requiredMipmapLevels len ≤ 16 ∧
    (len ≤ 2 ^ requiredMipmapLevels len ∨ requiredMipmapLevels len = 16) ∧
    ∀ k, 1 ≤ k → k < requiredMipmapLevels len → 2 ^ k < len :=
  levelsLoop_spec len 16 1 (by omega) (by omega) (by omega) (by omega)

/-- **C81**: every mip level the table is given has at least one sample, for every non-empty table. -/
theorem C81_levels_nonempty (len : Nat) (h : 0 < len) (l : Nat) (hl : l < requiredMipmapLevels len) : 0 < len / 2 ^ l := by
  obtain ⟨-, -, -, h4⟩ := C81_levels_least len
  apply Nat.div_pos _ (by positivity)
  rcases Nat.eq_zero_or_pos l with rfl | hp
  · simpa using (show 1 ≤ len from h)
  · exact Nat.le_of_lt (h4 l hp hl)

/-- **C81**: a table of `2^k` samples has `k` levels; the coarsest has two samples. -/
theorem C81_levels_pow2 (k : Nat) (h1 : 1 ≤ k) (h2 : k ≤ 16) : requiredMipmapLevels (2 ^ k) = k := by
  obtain ⟨a, b, c, d⟩ := C81_levels_least (2 ^ k)
  rcases Nat.lt_trichotomy (requiredMipmapLevels (2 ^ k)) k with h | h | h
  · rcases c with c | c
    · have := Nat.pow_lt_pow_right (show 1 < 2 by omega) h; omega
    · omega
  · exact h
  · have := d k h1 h; omega

example : requiredMipmapLevels 1000 = 10 ∧ requiredMipmapLevels 100000 = 16 ∧ requiredMipmapLevels 0 = 1 := by decide +kernel

end Verif.Wavetable
