import Verif.Wavetable.Mip
import Verif.Param.Props
import Verif.Hound.Spec
/-! # Building a wavetable from samples (C82, C83) -/
namespace Verif.Wavetable
open Verif Verif.Float Verif.Hound Verif.Wavetable.Spec Verif.Param
variable {α : Type}

/-- Dimensions a table can be built with: at least three waves, at least one mip level, non-empty waves, and sizes a
program can hold (fewer than `2^29` waves of fewer than `2^30` samples, an addressable total). -/
structure Spec.Buildable (dim : Dim) : Prop where
  waves : 3 ≤ dim.numTables
  levels : 1 ≤ dim.mipmapLevels
  len : 1 ≤ dim.tableLen
  levels_le : dim.mipmapLevels ≤ 64
  len_lt : dim.tableLen < 2 ^ 30
  waves_lt : dim.numTables < 2 ^ 29
  total : dim.mipmapLevels * dim.numTables * dim.tableLen < 2 ^ 63

theorem Spec.Buildable.small {dim : Dim} (h : Buildable dim) : dim.numTables * dim.tableLen < 2 ^ 64 := by
  have h1 := h.total
  have h2 : 1 * (dim.numTables * dim.tableLen) ≤ dim.mipmapLevels * (dim.numTables * dim.tableLen) :=
    Nat.mul_le_mul_right _ h.levels
  rw [Nat.mul_assoc] at h1
  omega

theorem zeros_ok {z : α} {dim : Dim} (h : Buildable dim) :
    A3.zeros z dim.mipmapLevels dim.numTables dim.tableLen =
      .ok ⟨dim.mipmapLevels, dim.numTables, dim.tableLen, fun _ _ _ => z⟩ := by
  unfold A3.zeros
  have e1 : max dim.mipmapLevels 1 = dim.mipmapLevels := Nat.max_eq_left h.levels
  have e2 : max dim.numTables 1 = dim.numTables := Nat.max_eq_left (by have := h.waves; omega)
  have e3 : max dim.tableLen 1 = dim.tableLen := Nat.max_eq_left h.len
  rw [e1, e2, e3, if_pos h.total]

/-- Everything `new` does on buildable dimensions and the right number of samples. -/
theorem new_spec (o : Ops α) (ho : o.hrfilter.length = 64) (f : Bool) (dim : Dim) (h : Buildable dim) (xs : List α)
    (hx : xs.length = dim.numTables * dim.tableLen) :
    ∃ b, Base.new o f dim xs = .ok b ∧ b.dim = dim ∧ b.isSample = f ∧ b.data.d0 = dim.mipmapLevels ∧
      b.data.d1 = dim.numTables ∧ b.data.d2 = dim.tableLen ∧
      (∀ t s, t < dim.numTables → s < dim.tableLen → xs[t * dim.tableLen + s]? = some (b.data.at' 0 t s)) ∧
      (∀ l t s, 1 ≤ l → l < dim.mipmapLevels → t < dim.numTables → s < dim.tableLen / 2 ^ l → ∃ a f,
        LastTap dim.numTables (dim.tableLen / 2 ^ (l - 1)) t s a ∧ o.hrfilter[a]? = some f ∧ b.data.at' l t s =
          o.mul f (b.data.at' (l - 1) (tapWave (dim.tableLen / 2 ^ (l - 1)) t s a).toNat
            (tapSample (dim.tableLen / 2 ^ (l - 1)) s a))) ∧
      (∀ l t s, 1 ≤ l → dim.tableLen / 2 ^ l ≤ s → b.data.at' l t s = o.zero) := by
  unfold Base.new
  rw [if_neg (by have := h.waves; omega), zeros_ok h, Res.ok_bind]
  obtain ⟨d1, e1, a0, a1, a2, a3, a4⟩ := populateBase_spec
    (⟨dim.mipmapLevels, dim.numTables, dim.tableLen, fun _ _ _ => o.zero⟩ : A3 α) dim xs h.levels rfl rfl hx h.small
  rw [e1, Res.ok_bind]
  obtain ⟨d2, e2, m⟩ := populateMipmaps_spec o ho d1 dim a0 a1 a2 h.levels_le h.len_lt h.waves_lt
  rw [e2, Res.ok_bind]
  refine ⟨_, rfl, rfl, rfl, by rw [m.e0, a0], by rw [m.e1, a1], by rw [m.e2, a2], ?_, ?_, ?_⟩
  · intro t s ht hs
    rw [m.old 0 t s (Or.inl rfl)]; exact a3 t s ht hs
  · intro l t s hl1 hl2 ht hs
    exact m.new l t s hl1 (by omega) ht hs
  · intro l t s hl hs
    dsimp only
    rw [m.old l t s (Or.inr (Or.inr (by omega))), a4 l t s (by omega)]

theorem filterI16_length : opsI16.hrfilter.length = 64 := by decide +kernel
theorem filterF32_length : opsF32.hrfilter.length = 64 := by
  show (filterLits.map Param.flit).length = 64
  rw [List.length_map]; rfl

/-! ## C83 -/

/-- **C83**: a table built from the right number of samples (at least three waves) is built without a failure, has the
dimensions asked for, and its finest level holds exactly the samples given: sample `s` of wave `t` is the one at
`t·len + s`. For every sample type, all dimensions and all samples. -/
theorem C83_base_level_exact (o : Ops α) (ho : o.hrfilter.length = 64) (f : Bool) (dim : Dim) (h : Buildable dim)
    (xs : List α) (hx : xs.length = dim.numTables * dim.tableLen) :
    ∃ b, Base.new o f dim xs = .ok b ∧ b.numTables = .ok dim.numTables ∧ b.numMipmapLevels = .ok dim.mipmapLevels ∧
      b.numSamplesPerTable = .ok dim.tableLen ∧
      ∀ t s, t < dim.numTables → s < dim.tableLen → ∀ x, xs[t * dim.tableLen + s]? = some x → b.data.get 0 t s = .ok x := by
  obtain ⟨b, e, b1, b2, b3, b4, b5, b6, -, -⟩ := new_spec o ho f dim h xs hx
  refine ⟨b, e, ?_, ?_, ?_, ?_⟩
  · unfold Base.numTables; rw [if_pos (by rw [b1, b4]), b1]
  · unfold Base.numMipmapLevels; rw [if_pos (by rw [b1, b3]), b1]
  · unfold Base.numSamplesPerTable; rw [if_pos (by rw [b1, b5]), b1]
  · intro t s ht hs x hxx
    rw [b6 t s ht hs] at hxx
    cases hxx
    unfold A3.get
    rw [if_pos ⟨by rw [b3]; exact h.levels, by rw [b4]; exact ht, by rw [b5]; exact hs⟩]

example : Buildable ⟨11, 100, 2048⟩ := ⟨by decide, by decide, by decide, by decide, by decide, by decide, by decide⟩

/-- **C83**: the samples of a coarser level past its length are silence. -/
theorem C83_tail_silent (o : Ops α) (ho : o.hrfilter.length = 64) (f : Bool) (dim : Dim) (h : Buildable dim)
    (xs : List α) (hx : xs.length = dim.numTables * dim.tableLen) (b : Base α) (hb : Base.new o f dim xs = .ok b)
    (l t s : Nat) (hl : 1 ≤ l) (hl2 : l < dim.mipmapLevels) (ht : t < dim.numTables) (hs : s < dim.tableLen)
    (hs2 : dim.tableLen / 2 ^ l ≤ s) : b.data.get l t s = .ok o.zero := by
  obtain ⟨b', e, b1, b2, b3, b4, b5, -, -, b8⟩ := new_spec o ho f dim h xs hx
  rw [e] at hb; cases hb
  unfold A3.get
  rw [if_pos ⟨by rw [b3]; exact hl2, by rw [b4]; exact ht, by rw [b5]; exact hs⟩, b8 l t s hl hs2]

/-- **C83**: with any other number of samples the program panics, whatever the samples. -/
theorem C83_wrong_count_panics (o : Ops α) (f : Bool) (dim : Dim) (h : Buildable dim) (xs : List α)
    (hx : xs.length ≠ dim.numTables * dim.tableLen) : (Base.new o f dim xs).isPanic := by
  unfold Base.new
  rw [if_neg (by have := h.waves; omega), zeros_ok h, Res.ok_bind]
  unfold populateBase
  rw [mulUs_eq h.small, Res.ok_bind, if_pos hx]; rfl

/-- **C83**: with fewer than three waves the program panics, whatever the samples. -/
theorem C83_few_waves_panics (o : Ops α) (f : Bool) (dim : Dim) (h : dim.numTables < 3) (xs : List α) :
    Base.new o f dim xs = .panic "WaveTable need at least 3 tables to work properly" := by
  unfold Base.new
  rw [if_pos (by omega)]

/-! ## C82 -/

/-- **C82** (partial: this is what the code computes, not a filter). For waves of `2^k` samples, sample `s` of a coarser
level is the product of ONE filter coefficient with ONE sample of the level above: the last of the 64 taps that falls
inside the table. The other 63 products are overwritten. For every sample type and all samples. -/
theorem C82_one_tap_partial (o : Ops α) (ho : o.hrfilter.length = 64) (f : Bool) (dim : Dim) (h : Buildable dim)
    (k : Nat) (hk : dim.tableLen = 2 ^ k)
    (xs : List α) (hx : xs.length = dim.numTables * dim.tableLen) (b : Base α) (hb : Base.new o f dim xs = .ok b)
    (l t s : Nat) (hl : 1 ≤ l) (hlk : l ≤ k) (hl2 : l < dim.mipmapLevels) (ht : t < dim.numTables) (hs : s < 2 ^ (k - l)) :
    ∃ a c, LastTap dim.numTables (2 ^ (k - l + 1)) t s a ∧ o.hrfilter[a]? = some c ∧ ∃ v v',
      b.data.get (l - 1) (tapWave (2 ^ (k - l + 1)) t s a).toNat (tapPos s a % (2 ^ (k - l + 1) : Nat)).toNat = .ok v ∧
      b.data.get l t s = .ok v' ∧ v' = o.mul c v := by
  obtain ⟨b', e, b1, b2, b3, b4, b5, -, b7, -⟩ := new_spec o ho f dim h xs hx
  rw [e] at hb; cases hb
  have hk30 : k < 30 := by
    have := h.len_lt; rw [hk] at this; exact (Nat.pow_lt_pow_iff_right (by omega)).mp this
  have hpar : dim.tableLen / 2 ^ (l - 1) = 2 ^ (k - l + 1) := by
    rw [hk, Nat.pow_div (by omega) (by omega)]; congr 1; omega
  have hsz : dim.tableLen / 2 ^ l = 2 ^ (k - l) := by rw [hk, Nat.pow_div (by omega) (by omega)]
  obtain ⟨a, c, h1, h2, h3⟩ := b7 l t s hl hl2 ht (by rw [hsz]; exact hs)
  rw [hpar] at h1 h3
  have hts : tapSample (2 ^ (k - l + 1)) s a = (tapPos s a % (2 ^ (k - l + 1) : Nat)).toNat := by
    unfold tapSample; rw [andI32_pow2 _ (by omega)]
  have hlt : tapSample (2 ^ (k - l + 1)) s a < 2 ^ (k - l + 1) :=
    tapSample_lt _ _ _ (by positivity) (Nat.pow_lt_pow_right (by omega) (by omega))
  have hle : 2 ^ (k - l + 1) ≤ 2 ^ k := Nat.pow_le_pow_right (by omega) (by omega)
  rw [hts] at h3 hlt
  refine ⟨a, c, h1, h2, _, _, ?_, ?_, h3⟩
  · unfold A3.get
    have h0 : 0 ≤ tapWave (2 ^ (k - l + 1)) t s a := by unfold tapWave; omega
    have h4 := h1.2.1
    rw [if_pos ⟨by omega, by omega, by rw [b5, hk]; exact Nat.lt_of_lt_of_le hlt hle⟩]
  · unfold A3.get
    have hle2 : 2 ^ (k - l) ≤ 2 ^ k := Nat.pow_le_pow_right (by omega) (by omega)
    rw [if_pos ⟨by omega, by omega, by rw [b5, hk]; exact Nat.lt_of_lt_of_le hs hle2⟩]

/-- Away from the last wave, the last tap is tap 63, as long as the wave has 64 samples or more. -/
theorem last_tap_63 {nt k' t s a : Nat} (hk : 6 ≤ k') (hs : 2 * s < 2 ^ k') (ht : t + 1 < nt)
    (h : LastTap nt (2 ^ k') t s a) : a = 63 := by
  by_contra hne
  have h63 : tapWave (2 ^ k') t s 63 < nt := by
    unfold tapWave tapPos
    have hp : 2 ^ 6 ≤ 2 ^ k' := Nat.pow_le_pow_right (by omega) hk
    have h1 : (2 * (s : Int) + (63 : Nat) - 31).tdiv ((2 ^ k' : Nat) : Int) ≤ 1 := by
      rw [Int.tdiv_eq_ediv_of_nonneg (by omega)]
      have : (2 * (s : Int) + (63 : Nat) - 31) / ((2 ^ k' : Nat) : Int) < 2 :=
        Int.ediv_lt_of_lt_mul (by omega) (by omega)
      omega
    omega
  exact h.2.2 63 (by have := h.1; omega) (by omega) h63

/-- **C82 is false of the code** (16-bit tables): a coarser level is not low-passed at all. Away from the last wave, and
while waves have 64 samples or more, its sample `s` is simply the sample `2s + 32` places into the level above,
unchanged. -/
theorem C82_i16_is_decimation (f : Bool) (dim : Dim) (h : Buildable dim) (k : Nat) (hk : dim.tableLen = 2 ^ k)
    (xs : List Int) (hx : xs.length = dim.numTables * dim.tableLen) (hr : ∀ x ∈ xs, Verif.Hound.Spec.Fits 16 x)
    (b : Base Int) (hb : Base.new opsI16 f dim xs = .ok b)
    (l t s : Nat) (hl : 1 ≤ l) (hlk : l + 5 ≤ k) (hl2 : l < dim.mipmapLevels) (ht : t + 1 < dim.numTables)
    (hs : s < 2 ^ (k - l)) :
    ∃ v, b.data.get l t s = .ok v ∧
      b.data.get (l - 1) (t + (2 * s + 32) / 2 ^ (k - l + 1)) ((2 * s + 32) % 2 ^ (k - l + 1)) = .ok v := by
  have hs2 : 2 * s < 2 ^ (k - l + 1) := by rw [Nat.pow_succ]; omega
  have fit : ∀ m t' s' v, m < dim.mipmapLevels → b.data.get m t' s' = .ok v → s' < 2 ^ (k - m) → m ≤ k →
      t' < dim.numTables → Verif.Hound.Spec.Fits 16 v := by
    intro m t' s' v hm hv hs' hmk ht'
    rcases Nat.eq_zero_or_pos m with rfl | hpos
    · obtain ⟨b', e, -, -, -, b4⟩ := C83_base_level_exact opsI16 filterI16_length f dim h xs hx
      rw [e] at hb; cases hb
      have hlt : t' * dim.tableLen + s' < xs.length := by
        rw [hx]; have := wave_room ht' dim.tableLen; rw [Nat.sub_zero, ← hk] at hs'; omega
      have := b4 t' s' ht' (by rw [hk]; simpa using hs') _ (List.getElem?_eq_getElem hlt)
      rw [this] at hv; cases hv
      exact hr _ (List.getElem_mem hlt)
    · obtain ⟨a, c, -, -, v1, v2, -, h2, h3⟩ := C82_one_tap_partial opsI16 filterI16_length f dim h k hk xs hx b hb m t' s' hpos hmk hm ht' hs'
      rw [h2] at hv; cases hv
      rw [h3]
      show Verif.Hound.Spec.Fits 16 (satMul16 _ _)
      unfold satMul16 Verif.Hound.Spec.Fits
      have : (2 : Int) ^ (16 - 1) = 32768 := by norm_num
      rw [this]
      exact ⟨le_max_left _ _, max_lt (by norm_num) (lt_of_le_of_lt (min_le_left _ _) (by norm_num))⟩
  obtain ⟨a, c, h1, h2, v, v', h3, h4, h5⟩ :=
    C82_one_tap_partial opsI16 filterI16_length f dim h k hk xs hx b hb l t s hl (by omega) hl2 (by omega) hs
  have ha : a = 63 := last_tap_63 (by omega) hs2 ht h1
  subst ha
  have hc : c = 1 := by
    have : opsI16.hrfilter[63]? = some 1 := by decide +kernel
    rw [this] at h2; cases h2; rfl
  subst hc
  have hpos : tapPos s 63 = ((2 * s + 32 : Nat) : Int) := by unfold tapPos; push_cast; omega
  have hw : (tapWave (2 ^ (k - l + 1)) t s 63).toNat = t + (2 * s + 32) / 2 ^ (k - l + 1) := by
    unfold tapWave
    rw [hpos, Int.tdiv_eq_ediv_of_nonneg (by omega), ← Int.natCast_div]
    generalize (2 * s + 32) / 2 ^ (k - l + 1) = q
    omega
  have hm : (tapPos s 63 % (2 ^ (k - l + 1) : Nat)).toNat = (2 * s + 32) % 2 ^ (k - l + 1) := by
    rw [hpos, ← Int.natCast_mod]; rfl
  rw [hw, hm] at h3
  have hwlt : t + (2 * s + 32) / 2 ^ (k - l + 1) < dim.numTables := by
    have := h1.2.1; rw [← hw]
    have h0 : 0 ≤ tapWave (2 ^ (k - l + 1)) t s 63 := by unfold tapWave; omega
    omega
  have hf := fit (l - 1) _ _ v (by omega) h3 (by
    rw [show k - (l - 1) = k - l + 1 by omega]; exact Nat.mod_lt _ (by positivity)) (by omega) hwlt
  refine ⟨v', h4, ?_⟩
  rw [h3, h5]
  show _ = Res.ok (satMul16 1 v)
  unfold Verif.Hound.Spec.Fits at hf
  have e15 : (2 : Int) ^ (16 - 1) = 32768 := by norm_num
  rw [e15] at hf
  have : satMul16 1 v = v := by
    unfold satMul16
    rw [one_mul, min_eq_right (by omega), max_eq_right (by omega)]
  rw [this]

/-- **C82 is false of the code** (floating point tables): the next level of a table that is 1 everywhere is not 1 but
about a millionth, and negative (away from the last wave). -/
theorem C82_constant_lost (f : Bool) (dim : Dim) (h : Buildable dim) (k : Nat) (hk : dim.tableLen = 2 ^ k) (hk6 : 6 ≤ k)
    (hl : 2 ≤ dim.mipmapLevels) (b : Base F32)
    (hb : Base.new opsF32 f dim (List.replicate (dim.numTables * dim.tableLen) (.fin 1)) = .ok b)
    (t s : Nat) (ht : t + 1 < dim.numTables) (hs : s < 2 ^ (k - 1)) :
    ∃ q : ℚ, b.data.get 1 t s = .ok (.fin q) ∧ q < 0 ∧ |q| < 2 / 10 ^ 6 := by
  have hx := List.length_replicate (n := dim.numTables * dim.tableLen) (a := F32.fin 1)
  obtain ⟨a, c, h1, h2, v, v', h3, h4, h5⟩ :=
    C82_one_tap_partial opsF32 filterF32_length f dim h k hk _ hx b hb 1 t s (by omega) (by omega) (by omega) (by omega) hs
  have hs2 : 2 * s < 2 ^ (k - 1 + 1) := by rw [Nat.pow_succ]; omega
  have ha : a = 63 := last_tap_63 (by omega) hs2 ht h1
  subst ha
  have hc : c = Param.flit (-12005091 / 10 ^ 13) := by
    have : opsF32.hrfilter[63]? = some (Param.flit (-12005091 / 10 ^ 13)) := by
      show (filterLits.map Param.flit)[63]? = _
      rw [List.getElem?_map]; rfl
    rw [this] at h2; cases h2; rfl
  have hv : v = .fin 1 := by
    obtain ⟨b', e, -, -, -, b4⟩ := C83_base_level_exact opsF32 filterF32_length f dim h _ hx
    rw [e] at hb; cases hb
    have h0 : 0 ≤ tapWave (2 ^ (k - 1 + 1)) t s 63 := by unfold tapWave; omega
    have hw := h1.2.1
    have hm : (tapPos s 63 % (2 ^ (k - 1 + 1) : Nat)).toNat < dim.tableLen := by
      rw [hk, show k - 1 + 1 = k by omega]
      have := Int.emod_lt_of_pos (tapPos s 63) (show (0 : Int) < (2 ^ k : Nat) by positivity)
      have := Int.emod_nonneg (tapPos s 63) (show ((2 ^ k : Nat) : Int) ≠ 0 by positivity)
      omega
    have hwl : (tapWave (2 ^ (k - 1 + 1)) t s 63).toNat < dim.numTables := by omega
    have hlt : (tapWave (2 ^ (k - 1 + 1)) t s 63).toNat * dim.tableLen +
        (tapPos s 63 % (2 ^ (k - 1 + 1) : Nat)).toNat < dim.numTables * dim.tableLen := by
      have := wave_room hwl dim.tableLen; omega
    have := b4 _ _ hwl hm (.fin 1) (by rw [List.getElem?_replicate, if_pos hlt])
    rw [show 1 - 1 = 0 from rfl, this] at h3
    cases h3; rfl
  rw [hv, hc] at h5
  have hq := rne_err (-12005091 / 10 ^ 13)
  have hqa : |(-12005091 / 10 ^ 13 : ℚ)| = 12005091 / 10 ^ 13 := by rw [abs_of_neg (by norm_num)]; norm_num
  rw [hqa] at hq
  have e1 : Param.flit (-12005091 / 10 ^ 13) = .fin (rne (-12005091 / 10 ^ 13)) := flit_eq (by rw [hqa]; norm_num)
  generalize hr : rne (-12005091 / 10 ^ 13 : ℚ) = r at hq e1
  have hb1 : r < 0 ∧ |r| < 2 / 10 ^ 6 := by
    have hb := abs_le.mp hq
    norm_num at hb
    refine ⟨by linarith [hb.2], ?_⟩
    rw [abs_lt]; constructor <;> norm_num <;> linarith [hb.1, hb.2]
  refine ⟨r, ?_, hb1⟩
  rw [h4, h5, e1]
  show Res.ok (F32.ofQ (r * 1)) = _
  rw [mul_one, F32.ofQ_fin (by have := (abs_lt.mp hb1.2).1; norm_num at this ⊢; linarith)
    (by have := (abs_lt.mp hb1.2).2; norm_num at this ⊢; linarith), ← hr, rne_idem]

/-- The filter coefficients really do add up to about one, so a filtered constant would stay. -/
example : |filterLits.foldl (· + ·) 0 - 1| < 1 / 10 ^ 4 := by norm_num [filterLits, List.foldl, abs_lt]

end Verif.Wavetable
