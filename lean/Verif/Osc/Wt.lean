import Verif.Osc.Super
import Verif.Wavetable.Sizes
import Mathlib.Analysis.SpecialFunctions.Sqrt
/-!
# The wavetable oscillator (C165–C170), in exact real arithmetic

surgeosc-wavetable/src/{convolute/{convolute,blitstate_zero,get},process/{process,nofm,update_tables},set_pitch,update,new}.rs.  The smoothed skews and clip, the formant and the period factor `n2pinv_tuningctr(detune)` are given
block by block and voice by voice (drift may do anything); `ctr` is `n2p_tuningctr`.
Not modelled: rounding; the convolution kernel, which mono.rs 45-52 loads from a temporary of one float (the impulses are modelled up to their place and height); fm (a null read, C159).
-/
namespace Verif.Osc
open Verif

/-- surge-wavetable base.rs 5-16: the dimensions and the samples (mip level, table, sample), 16-bit integers. -/
structure WTab where
  levels : ℕ
  tables : ℕ
  len : ℕ
  val : ℕ → ℕ → ℕ → ℤ

/-- What a voice sees in one block: `l_hskew.v`, `l_vskew.v`, `l_clip.v`, `formant_t`, the period factor `tempt`, `out_attenuation`, `pan_l`, `pan_r`. -/
structure WPar where
  hskew : ℝ
  vskew : ℝ
  clip : ℝ
  formant : ℝ
  period : ℝ
  att : ℝ
  panL : ℝ
  panR : ℝ

/-- What the voices share: `hskew`, `formant_last`, `tableid`, `last_tableid`, `tableipol`, `last_tableipol`, `sampleloop`. -/
structure WShare where
  hskew : ℝ
  formantLast : ℝ
  tid : ℤ
  lastTid : ℤ
  ipol : ℝ
  lastIpol : ℝ
  loops : ℤ

/-- One voice: `state`, `mipmap`, `oscstate`, `last_level`. -/
structure WVoice where
  state : ℕ
  mip : ℕ
  osc : ℝ
  last : ℝ

/-- surge-math interp.rs 21-28 `lerp`, with its assertion. -/
noncomputable def lerpR (x a b : ℝ) : R ℝ := if 0 ≤ x ∧ x < 1 then .ok ((1 - x) * a + x * b) else .panic "assertion failed: valid_range.contains(&Some(x))"

/-- update.rs 5-12 `distort_level`. -/
noncomputable def distort (vskew clip x : ℝ) : ℝ :=
  let a := vskew * 0.5
  let y := x - a * x * x + a
  min (max (y * (1 - clip) + clip * y * y * y) (-1)) 1

/-- blitstate_zero.rs 42-51: the mip level. -/
noncomputable def mipFor (a : ℝ) (ts : ℕ) : ℕ :=
  if a < 0.015625 * 1.80 ∧ ts ≥ 128 then 6
  else if a < 0.03125 * 1.80 ∧ ts ≥ 64 then 5
  else if a < 0.0625 * 1.80 ∧ ts ≥ 32 then 4
  else if a < 0.125 * 1.80 ∧ ts ≥ 16 then 3
  else if a < 0.25 * 1.80 ∧ ts ≥ 8 then 2
  else if a < 0.5 * 1.80 ∧ ts ≥ 4 then 1
  else 0

/-- blitstate_zero.rs 13-34: the next table of a one-shot sample: table, loops left, and whether it is over. -/
def sampleNext (tables : ℕ) (tid loops : ℤ) : ℤ × ℤ × Bool :=
  if tid + 1 > (tables : ℤ) - 3 then
    let loops := if loops < 7 then loops - 1 else loops
    if loops > 0 then (0, loops, false) else ((tables : ℤ) - 2, loops, true)
  else (tid + 1, loops, false)

/-- blitstate_zero.rs 5-57 `do_blitstate_zero_for_convolute`. -/
noncomputable def cycleStart (W : WTab) (c : SupCfg) (P : WPar) (isSample : Bool) (s : WShare) (v : WVoice) : WShare × WVoice :=
  let mip := mipFor (1 / (W.len : ℝ) * c.inv) W.len
  if isSample then
    match sampleNext W.tables s.tid s.loops with
    | (tid, loops, true) => (⟨P.hskew, P.formant, tid, s.lastTid, s.ipol, s.lastIpol, loops⟩, ⟨v.state, v.mip, 100000000000, v.last⟩)
    | (tid, loops, false) => (⟨P.hskew, P.formant, tid, s.lastTid, s.ipol, s.lastIpol, loops⟩, ⟨v.state, mip, v.osc, v.last⟩)
  else (⟨P.hskew, P.formant, s.tid, s.lastTid, s.ipol, s.lastIpol, s.loops⟩, ⟨v.state, mip, v.osc, v.last⟩)

/-- convolute.rs 59-69 `xt`, with `x` the middle of the sample in the cycle. -/
noncomputable def skewed (hskew x : ℝ) : ℝ := 1 + hskew * 4 * x * (x - 1) * (2 * x - 1) * Real.sqrt (27 / 4)

/-- get.rs 33-43: the sample of a table, as an ndarray index. -/
noncomputable def WTab.get (W : WTab) (mip : ℕ) (tid : ℤ) (i : ℕ) : R ℝ :=
  if mip < W.levels ∧ 0 ≤ tid ∧ tid < W.tables ∧ i < W.len then .ok (W.val mip tid.toNat i : ℝ) else .panic "index out of bounds"

/-- get.rs 27-46 `get_newlevel`. -/
noncomputable def newLevel (W : WTab) (P : WPar) (s : WShare) (mip state : ℕ) (bp : ℝ) : R ℝ := do
  let x ← lerpR bp s.lastIpol s.ipol
  let a ← W.get mip s.tid state
  let b ← W.get mip (s.tid + 1) state
  let y ← lerpR x a b
  pure (distort P.vskew P.clip y)

/-- convolute.rs 45-82: the time to the next impulse, as a part of the period; `f` is the formant factor. -/
noncomputable def stepLen (W : WTab) (hskew f : ℝ) (mip state : ℕ) : ℝ :=
  let dt : ℝ := 1 / (W.len : ℝ) * 2 ^ mip
  dt * (f * skewed hskew ((state + 0.50) * dt)) + if state ≥ W.len / 2 ^ mip - 1 then 1 - f else 0

/-- convolute.rs 5-109 `convolute` (without fm). -/
noncomputable def wconvolute (ctr : ℝ → ℝ) (W : WTab) (c : SupCfg) (P : WPar) (stereo isSample : Bool) (s0 : WShare) (v0 : WVoice) : R (WShare × WVoice × Hit) := do
  let bp := v0.osc * (1 / 64) * c.inv
  let ipos := toU32 (2 ^ 24 * (v0.osc * c.inv))
  let (s, v) := if v0.state = 0 then cycleStart W c P isSample s0 v0 else (s0, v0)
  let ft ← lerpR bp s.formantLast P.formant
  let t := stepLen W s.hskew (ctr (-ft)) v.mip v.state * P.period
  let mask := W.len / 2 ^ v.mip - 1
  let st := v.state &&& mask
  let level ← newLevel W P s v.mip st bp
  let g := (level - v.last) * P.att
  let g := if stereo then g * P.panL else g
  pure (s, ⟨(st + 1) &&& mask, v.mip, max 0 (v.osc + t), level⟩, ⟨v0.osc, level - v.last, 0, ⟨ipos / 2 ^ 24 % 64, ipos / 2 ^ 16 % 256 * 24, (ipos % 2 ^ 16 : ℕ), g, g, 0⟩⟩)

/-- nofm.rs 13-16: the loop of one voice; `none` is a loop that has not ended within the given number of rounds. -/
noncomputable def wfill (ctr : ℝ → ℝ) (W : WTab) (c : SupCfg) (P : WPar) (stereo isSample : Bool) : ℕ → WShare → WVoice → Option (R (WShare × WVoice × List Hit))
  | 0, _, _ => none
  | n + 1, s, v =>
    if v.osc < c.a then
      match wconvolute ctr W c P stereo isSample s v with
      | .panic m => some (.panic m)
      | .err e => some (.err e)
      | .ok (s, v, h) => (wfill ctr W c P stereo isSample n s v).map fun r => do
        let (s, v, hs) ← r
        pure (s, v, h :: hs)
    else some (.ok (s, ⟨v.state, v.mip, v.osc - c.a, v.last⟩, []))

/-- surge-math flops.rs 12-22 `split_float` of a value in `[0, 2^31)`: whole and fractional part. -/
noncomputable def split (x : ℝ) : ℤ × ℝ := (⌊x⌋, x - ⌊x⌋)

/-- `f32::EPSILON`. -/
noncomputable def eps : ℝ := 1 / 2 ^ 23

/-- update_tables.rs 5-62 `update_tables`; `shape` is `l_shape.v`. -/
noncomputable def updateTables (W : WTab) (isSample : Bool) (shape : ℝ) (s : WShare) : WShare :=
  if W.tables = 1 ∨ s.tid ≥ W.tables then ⟨s.hskew, s.formantLast, 0, 0, 0, 0, s.loops⟩
  else if isSample then ⟨s.hskew, s.formantLast, s.tid, s.lastTid, 0, 0, s.loops⟩
  else
    let (i, f) := split (shape * (((W.tables : ℝ) - 1) * 0.999990))
    let tid := max (min i ((W.tables : ℤ) - 2)) 0
    if tid > s.tid then
      if |s.ipol - 1| < eps then ⟨s.hskew, s.formantLast, s.tid, s.tid, 1, s.ipol, s.loops⟩ else ⟨s.hskew, s.formantLast, tid, s.tid, f, 0, s.loops⟩
    else if tid < s.tid then
      if |s.ipol - 0| < eps then ⟨s.hskew, s.formantLast, s.tid, s.tid, 0, s.ipol, s.loops⟩ else ⟨s.hskew, s.formantLast, tid, s.tid, f, 1, s.loops⟩
    else ⟨s.hskew, s.formantLast, tid, s.tid, f, s.ipol, s.loops⟩

/-- set_pitch.rs 20-42: the table at the start of a note.  `n_tables - 2` is a subtraction of `usize`. -/
noncomputable def setTable (W : WTab) (isSample : Bool) (morph formant : ℝ) (loops : ℤ) : R WShare := do
  let (i, f) := split (morph * ((W.tables : ℝ) - 1) * 0.999990)
  if W.tables < 2 then .panic "attempt to subtract with overflow" else
    let tid := max (min i ((W.tables : ℤ) - 2)) 0
    pure (if isSample then ⟨0, formant, tid - 1, tid, 0, f, loops⟩ else ⟨0, formant, tid, tid, f, f, loops⟩)

/-- surge-wavetable base.rs 19-26, dim.rs 10-18: the table of a new oscillator (new.rs 51). -/
def WTab.default : WTab := ⟨1, 1, 1024, fun _ _ _ => 0⟩

/-- new.rs 5-60, 58: creation ends with `set_pitch`, on the default table. -/
noncomputable def wtNew (isSample : Bool) (morph formant : ℝ) (loops : ℤ) : R WShare := setTable WTab.default isSample morph formant loops

/-! ## Specification -/

/-- A loaded table: a power of two of samples, all mip levels, at least two tables. -/
structure Spec.TabOk (W : WTab) (k : ℕ) : Prop where
  len : W.len = 2 ^ k
  k1 : 1 ≤ k
  k2 : k ≤ 16
  levels : W.levels = Wavetable.requiredMipmapLevels W.len
  tables : 2 ≤ W.tables

/-- The ranges of update.rs 28-36 and a positive period. -/
structure Spec.WParOk (P : WPar) : Prop where
  hskew : -1 ≤ P.hskew ∧ P.hskew ≤ 1
  formant : 0 ≤ P.formant
  period : 0 < P.period

/-- A tuning for the formants: positive, rising, 1 at the centre. -/
structure Spec.Tuned (ctr : ℝ → ℝ) : Prop where
  pos : ∀ x, 0 < ctr x
  mono : Monotone ctr
  one : ctr 0 = 1

/-! ## The step of a cycle -/

theorem skewed_reflect (h x : ℝ) : skewed h x + skewed h (1 - x) = 2 := by unfold skewed; ring

set_option maxHeartbeats 1000000 in
/-- The middles of the samples stay away from the two places where a full skew stops time. -/
theorem skewed_lower {h : ℝ} (h1 : -1 ≤ h) (h2 : h ≤ 1) {N i : ℕ} (hN : 0 < N) (hi : i < N) : 1 / (8 * (N : ℝ) ^ 4) ≤ skewed h (((i : ℝ) + 0.50) * (1 / N)) := by
  have n0 : (0 : ℝ) < N := by exact_mod_cast hN
  set x : ℝ := ((i : ℝ) + 0.50) * (1 / N) with hx
  set u : ℝ := x * (1 - x) with hu
  set y : ℝ := 4 * x * (1 - x) * (2 * x - 1) * Real.sqrt (27 / 4) with hy
  have es : skewed h x = 1 - h * y := by rw [hy]; unfold skewed; ring
  have sq : Real.sqrt (27 / 4) ^ 2 = 27 / 4 := Real.sq_sqrt (by norm_num)
  have y2 : y ^ 2 = 1 - (6 * u - 1) ^ 2 * (12 * u + 1) := by
    have : y ^ 2 = (4 * x * (1 - x) * (2 * x - 1)) ^ 2 * Real.sqrt (27 / 4) ^ 2 := by rw [hy]; ring
    rw [this, sq, hu]; ring
  have xn : x * N = i + 1 / 2 := by rw [hx, mul_assoc, one_div, inv_mul_cancel₀ n0.ne']; norm_num
  have x0 : 0 < x := by rw [hx]; positivity
  have x1 : x < 1 := by
    have : (i : ℝ) + 1 ≤ N := by exact_mod_cast hi
    by_contra hc
    push Not at hc
    nlinarith
  have u0 : 0 < u := mul_pos x0 (by linarith)
  -- parity
  have num : (6 * u - 1) * (4 * (N : ℝ) ^ 2) = ((6 * (2 * (i : ℤ) + 1) * (2 * N - 2 * i - 1) - 4 * N ^ 2 : ℤ) : ℝ) := by
    have : u * (N : ℝ) ^ 2 = (x * N) * (N - x * N) := by rw [hu]; ring
    push_cast
    have e : (6 * u - 1) * (4 * (N : ℝ) ^ 2) = 24 * (u * (N : ℝ) ^ 2) - 4 * (N : ℝ) ^ 2 := by ring
    rw [e, this, xn]; ring
  have nz : (2 : ℤ) ≤ |6 * (2 * (i : ℤ) + 1) * (2 * N - 2 * i - 1) - 4 * N ^ 2| := by
    have e : 6 * (2 * (i : ℤ) + 1) * (2 * N - 2 * i - 1) - 4 * N ^ 2 = 4 * (6 * i * (N - i - 1) + 3 * (N - 1) - N ^ 2) + 6 := by ring
    rw [e, le_abs]
    generalize 6 * (i : ℤ) * (N - i - 1) + 3 * (N - 1) - N ^ 2 = z
    omega
  have q : (2 : ℝ) ≤ |6 * u - 1| * (4 * (N : ℝ) ^ 2) := by
    rw [← abs_of_pos (show (0 : ℝ) < 4 * (N : ℝ) ^ 2 by positivity), ← abs_mul, num]
    exact_mod_cast nz
  have q2 : (1 : ℝ) / (4 * (N : ℝ) ^ 4) ≤ (6 * u - 1) ^ 2 := by
    rw [div_le_iff₀ (by positivity), ← sq_abs]
    have : (2 : ℝ) ^ 2 ≤ (|6 * u - 1| * (4 * (N : ℝ) ^ 2)) ^ 2 := pow_le_pow_left₀ (by norm_num) q 2
    have e : (|6 * u - 1| * (4 * (N : ℝ) ^ 2)) ^ 2 = 4 * (|6 * u - 1| ^ 2 * (4 * (N : ℝ) ^ 4)) := by ring
    rw [e] at this
    linarith
  have q3 : (1 : ℝ) / (4 * (N : ℝ) ^ 4) ≤ (6 * u - 1) ^ 2 * (12 * u + 1) := le_trans q2 (by nlinarith [sq_nonneg (6 * u - 1)])
  have ya : |y| ≤ 1 - 1 / (8 * (N : ℝ) ^ 4) := by
    have p : (1 : ℝ) / (8 * (N : ℝ) ^ 4) = (1 / (4 * (N : ℝ) ^ 4)) / 2 := by field_simp; norm_num
    have s1 : |y| ^ 2 ≤ 1 - 1 / (4 * (N : ℝ) ^ 4) := by rw [sq_abs, y2]; linarith
    rw [p]
    have s2 := sq_nonneg (1 - |y|)
    generalize |y| = Y at s1 s2 ⊢
    generalize (1 : ℝ) / (4 * (N : ℝ) ^ 4) = D at s1 ⊢
    linarith [show (1 - Y) ^ 2 = 1 - 2 * Y + Y ^ 2 by ring]
  have hy1 : h * y ≤ |y| := le_trans (le_abs_self _) (by rw [abs_mul]; exact mul_le_of_le_one_left (abs_nonneg y) (abs_le.2 ⟨h1, h2⟩))
  rw [es]; linarith

/-- A step of the cycle at mip level `mip`: the formant part and, at the end, the rest. -/
theorem stepLen_eq {W : WTab} {k mip : ℕ} (hl : W.len = 2 ^ k) (hm : mip ≤ k) (h f : ℝ) {i : ℕ} (hi : i < 2 ^ (k - mip)) :
    stepLen W h f mip i = 1 / (2 ^ (k - mip) : ℕ) * (f * skewed h (((i : ℝ) + 0.50) * (1 / (2 ^ (k - mip) : ℕ)))) + if i = 2 ^ (k - mip) - 1 then 1 - f else 0 := by
  have d : W.len / 2 ^ mip = 2 ^ (k - mip) := by rw [hl]; exact Nat.pow_div hm (by decide)
  have e : (1 : ℝ) / W.len * 2 ^ mip = 1 / (2 ^ (k - mip) : ℕ) := by
    rw [hl]
    push_cast
    have : (2 : ℝ) ^ k = 2 ^ (k - mip) * 2 ^ mip := by rw [← pow_add]; congr 1; omega
    rw [this]; field_simp
  have p : 0 < 2 ^ (k - mip) := Nat.two_pow_pos _
  unfold stepLen
  simp only
  rw [d, e]
  congr 1
  by_cases c : i = 2 ^ (k - mip) - 1
  · rw [if_pos c, if_pos (by omega)]
  · rw [if_neg c, if_neg (by omega)]

theorem stepLen_lower {W : WTab} {k mip : ℕ} (hl : W.len = 2 ^ k) (hm : mip ≤ k) {h f F : ℝ} (h1 : -1 ≤ h) (h2 : h ≤ 1) (hF : 0 < F) (f0 : F ≤ f) (f1 : f ≤ 1) {i : ℕ} (hi : i < 2 ^ (k - mip)) :
    F / (8 * (2 ^ k : ℝ) ^ 5) ≤ stepLen W h f mip i := by
  rw [stepLen_eq hl hm h f hi]
  have p : 0 < 2 ^ (k - mip) := Nat.two_pow_pos _
  have s := skewed_lower h1 h2 p hi
  set N := 2 ^ (k - mip) with hN
  have n0 : (0 : ℝ) < N := by exact_mod_cast p
  have nk : (N : ℝ) ≤ 2 ^ k := by
    have : N ≤ 2 ^ k := Nat.pow_le_pow_right (by decide) (by omega)
    exact_mod_cast this
  have r : (0 : ℝ) ≤ if i = N - 1 then 1 - f else 0 := by split <;> linarith
  have a : F / (8 * (2 ^ k : ℝ) ^ 5) ≤ F / (8 * (N : ℝ) ^ 5) := by
    apply div_le_div_of_nonneg_left hF.le (by positivity)
    have := pow_le_pow_left₀ n0.le nk 5
    linarith
  have b : F / (8 * (N : ℝ) ^ 5) = 1 / N * (F * (1 / (8 * (N : ℝ) ^ 4))) := by field_simp
  have s0 : 0 < 1 / (8 * (N : ℝ) ^ 4) := by positivity
  have d : 1 / (N : ℝ) * (F * (1 / (8 * (N : ℝ) ^ 4))) ≤ 1 / N * (f * skewed h (((i : ℝ) + 0.50) * (1 / N))) := by
    apply mul_le_mul_of_nonneg_left _ (by positivity)
    exact mul_le_mul f0 s s0.le (by linarith)
  linarith

/-- The part of the period that has passed before sample `i`. -/
noncomputable def phaseAt (W : WTab) (h f : ℝ) (mip i : ℕ) : ℝ := ∑ j ∈ Finset.range i, stepLen W h f mip j

/-- A cycle takes exactly one period, whatever the skew and the formant. -/
theorem phaseAt_full {W : WTab} {k mip : ℕ} (hl : W.len = 2 ^ k) (hm : mip ≤ k) (h f : ℝ) : phaseAt W h f mip (2 ^ (k - mip)) = 1 := by
  have p : 0 < 2 ^ (k - mip) := Nat.two_pow_pos _
  unfold phaseAt
  rw [Finset.sum_congr rfl fun j hj => stepLen_eq hl hm h f (Finset.mem_range.1 hj), Finset.sum_add_distrib, Finset.sum_ite_eq' (Finset.range _), if_pos (Finset.mem_range.2 (by omega)), ← Finset.mul_sum, ← Finset.mul_sum]
  set N := 2 ^ (k - mip) with hN
  have n0 : (0 : ℝ) < N := by exact_mod_cast p
  have S : ∑ j ∈ Finset.range N, skewed h (((j : ℝ) + 0.50) * (1 / N)) = N := by
    have r := Finset.sum_range_reflect (fun j : ℕ => skewed h (((j : ℝ) + 0.50) * (1 / N))) N
    have t : ∑ j ∈ Finset.range N, (skewed h (((j : ℝ) + 0.50) * (1 / N)) + skewed h ((((N - 1 - j : ℕ) : ℝ) + 0.50) * (1 / N))) = ∑ j ∈ Finset.range N, (2 : ℝ) := by
      refine Finset.sum_congr rfl fun j hj => ?_
      have hj := Finset.mem_range.1 hj
      have e : (((N - 1 - j : ℕ) : ℝ) + 0.50) * (1 / N) = 1 - ((j : ℝ) + 0.50) * (1 / N) := by
        rw [Nat.sub_sub, Nat.cast_sub (by omega)]
        push_cast
        field_simp
        ring
      rw [e, skewed_reflect]
    rw [Finset.sum_add_distrib, r, Finset.sum_const, Finset.card_range, nsmul_eq_mul] at t
    linarith
  rw [S]
  field_simp
  ring

/-! ## One impulse -/

/-- The shared part between blocks. -/
structure ShareOk (W : WTab) (M : ℝ) (s : WShare) : Prop where
  hskew : -1 ≤ s.hskew ∧ s.hskew ≤ 1
  formant : 0 ≤ s.formantLast ∧ s.formantLast ≤ M
  tid : 0 ≤ s.tid ∧ s.tid + 2 ≤ W.tables
  ipol : 0 ≤ s.ipol ∧ s.ipol < 1
  lastIpol : 0 ≤ s.lastIpol ∧ s.lastIpol ≤ 1

/-- A voice between impulses. -/
structure VoiceOk (k : ℕ) (v : WVoice) : Prop where
  mip : v.mip + 1 ≤ k
  state : v.state < 2 ^ (k - v.mip)
  osc : 0 ≤ v.osc

/-- The mip level is one the table has, at every pitch. -/
theorem mipFor_lt {a : ℝ} {k : ℕ} (hk : 1 ≤ k) : mipFor a (2 ^ k) + 1 ≤ k := by
  have m : ∀ j, 2 ^ k ≥ 2 ^ j → j ≤ k := fun j h => (Nat.pow_le_pow_iff_right (by decide)).1 h
  unfold mipFor
  split
  · rename_i h; exact m 7 h.2
  split
  · rename_i h; exact m 6 h.2
  split
  · rename_i h; exact m 5 h.2
  split
  · rename_i h; exact m 4 h.2
  split
  · rename_i h; exact m 3 h.2
  split
  · rename_i h; exact m 2 h.2
  · exact hk

/-- What `convolute` works on: at the start of a cycle the skew, the formant and the mip level are taken over. -/
noncomputable def latch (W : WTab) (c : SupCfg) (P : WPar) (s : WShare) (v : WVoice) : WShare × WVoice := if v.state = 0 then cycleStart W c P false s v else (s, v)

theorem latch_ok {W : WTab} {k : ℕ} (hW : Spec.TabOk W k) (c : SupCfg) {P : WPar} (hP : Spec.WParOk P) {M : ℝ} (hM : P.formant ≤ M) {s : WShare} {v : WVoice} (hs : ShareOk W M s) (hv : VoiceOk k v) :
    ShareOk W M (latch W c P s v).1 ∧ VoiceOk k (latch W c P s v).2 ∧ (latch W c P s v).2.osc = v.osc ∧ (latch W c P s v).2.state = v.state ∧ (latch W c P s v).2.last = v.last ∧
    (latch W c P s v).1.tid = s.tid ∧ (latch W c P s v).1.ipol = s.ipol ∧ (latch W c P s v).1.lastIpol = s.lastIpol := by
  unfold latch
  split
  · rename_i h0
    refine ⟨⟨hP.hskew, ⟨hP.formant, hM⟩, hs.tid, hs.ipol, hs.lastIpol⟩, ⟨?_, ?_, hv.osc⟩, rfl, rfl, rfl, rfl, rfl, rfl⟩
    · show mipFor _ W.len + 1 ≤ k
      rw [hW.len]; exact mipFor_lt hW.k1
    · show v.state < _
      rw [h0]; exact Nat.two_pow_pos _
  · exact ⟨hs, hv, rfl, rfl, rfl, rfl, rfl, rfl⟩

theorem get_ok {W : WTab} {k : ℕ} (hW : Spec.TabOk W k) {mip i : ℕ} {tid : ℤ} (hm : mip + 1 ≤ k) (h0 : 0 ≤ tid) (h1 : tid < W.tables) (hi : i < 2 ^ (k - mip)) : W.get mip tid i = .ok (W.val mip tid.toNat i : ℝ) := by
  unfold WTab.get
  rw [if_pos]
  refine ⟨?_, h0, h1, ?_⟩
  · rw [hW.levels, hW.len, Wavetable.C81_levels_pow2 k hW.k1 hW.k2]; omega
  · rw [hW.len]
    exact lt_of_lt_of_le hi (Nat.pow_le_pow_right (by decide) (by omega))

/-- The place in the block, as a fraction. -/
noncomputable def frac (c : SupCfg) (osc : ℝ) : ℝ := osc * (1 / 64) * c.inv

theorem frac_range {c : SupCfg} (hc : Spec.CfgOk c) {x : ℝ} (h0 : 0 ≤ x) (h1 : x < c.a) : 0 ≤ frac c x ∧ frac c x < 1 ∧ (0 < x → 0 < frac c x) := by
  obtain ⟨a0, ai⟩ := hc
  have i0 : 0 < c.inv := by
    by_contra n
    push Not at n
    nlinarith
  unfold frac
  refine ⟨by positivity, ?_, fun h => by positivity⟩
  nlinarith [mul_lt_mul_of_pos_right h1 i0]

/-- The place between the two tables at a place in the block. -/
noncomputable def morphAt (c : SupCfg) (s : WShare) (osc : ℝ) : ℝ := (1 - frac c osc) * s.lastIpol + frac c osc * s.ipol

theorem morphAt_range {c : SupCfg} (hc : Spec.CfgOk c) {W : WTab} {M : ℝ} {s : WShare} (hs : ShareOk W M s) {x : ℝ} (h0 : 0 ≤ x) (h1 : x < c.a) (hl : s.lastIpol < 1 ∨ 0 < x) : 0 ≤ morphAt c s x ∧ morphAt c s x < 1 := by
  obtain ⟨f0, f1, f2⟩ := frac_range hc h0 h1
  obtain ⟨i0, i1⟩ := hs.ipol
  obtain ⟨l0, l1⟩ := hs.lastIpol
  unfold morphAt
  have a := mul_nonneg f0 i0
  have b := mul_nonneg (sub_nonneg.2 f1.le) l0
  refine ⟨by linarith, ?_⟩
  rcases hl with h | h
  · have q : (1 - frac c x) * s.lastIpol < (1 - frac c x) * 1 := mul_lt_mul_of_pos_left h (by linarith)
    have q' : frac c x * s.ipol ≤ frac c x * 1 := mul_le_mul_of_nonneg_left i1.le f0
    linarith
  · have q : (1 - frac c x) * s.lastIpol ≤ (1 - frac c x) * 1 := mul_le_mul_of_nonneg_left l1 (by linarith)
    have q' : frac c x * s.ipol < frac c x * 1 := mul_lt_mul_of_pos_left i1 (f2 h)
    linarith

/-- The sample played: morphed between two tables, then bent. -/
noncomputable def Spec.sample (W : WTab) (vskew clip : ℝ) (tid : ℤ) (x : ℝ) (mip i : ℕ) : ℝ :=
  distort vskew clip ((1 - x) * (W.val mip tid.toNat i) + x * (W.val mip (tid + 1).toNat i))

theorem newLevel_ok {W : WTab} {k : ℕ} (hW : Spec.TabOk W k) {c : SupCfg} (hc : Spec.CfgOk c) (P : WPar) {M : ℝ} {s : WShare} (hs : ShareOk W M s) {mip i : ℕ} (hm : mip + 1 ≤ k) (hi : i < 2 ^ (k - mip)) {x : ℝ}
    (h0 : 0 ≤ x) (h1 : x < c.a) (hl : s.lastIpol < 1 ∨ 0 < x) : newLevel W P s mip i (frac c x) = .ok (Spec.sample W P.vskew P.clip s.tid (morphAt c s x) mip i) := by
  obtain ⟨f0, f1, _⟩ := frac_range hc h0 h1
  have m := morphAt_range hc hs h0 h1 hl
  obtain ⟨t0, t1⟩ := hs.tid
  unfold newLevel lerpR
  rw [if_pos ⟨f0, f1⟩]
  show (do
    let a ← W.get mip s.tid i
    let b ← W.get mip (s.tid + 1) i
    let y ← lerpR (morphAt c s x) a b
    pure (distort P.vskew P.clip y) : R ℝ) = _
  rw [get_ok hW hm t0 (by omega) hi, get_ok hW hm (by omega) (by omega) hi]
  show (do
    let y ← lerpR (morphAt c s x) (W.val mip s.tid.toNat i : ℝ) (W.val mip (s.tid + 1).toNat i : ℝ)
    pure (distort P.vskew P.clip y) : R ℝ) = _
  unfold lerpR
  rw [if_pos m]
  rfl

/-- The formant factor at a place in the block. -/
noncomputable def formantAt (ctr : ℝ → ℝ) (c : SupCfg) (P : WPar) (s : WShare) (osc : ℝ) : ℝ := ctr (-((1 - frac c osc) * s.formantLast + frac c osc * P.formant))

theorem formantAt_range {ctr : ℝ → ℝ} (hC : Spec.Tuned ctr) {c : SupCfg} (hc : Spec.CfgOk c) {P : WPar} (hP : Spec.WParOk P) {W : WTab} {M : ℝ} (hM : P.formant ≤ M) {s : WShare} (hs : ShareOk W M s) {x : ℝ} (h0 : 0 ≤ x)
    (h1 : x < c.a) : ctr (-M) ≤ formantAt ctr c P s x ∧ formantAt ctr c P s x ≤ 1 := by
  obtain ⟨f0, f1, _⟩ := frac_range hc h0 h1
  have a := mul_nonneg f0 hP.formant
  have b := mul_nonneg (sub_nonneg.2 f1.le) hs.formant.1
  have a' := mul_le_mul_of_nonneg_left hM f0
  have b' := mul_le_mul_of_nonneg_left hs.formant.2 (sub_nonneg.2 f1.le)
  constructor
  · apply hC.mono; linarith
  · rw [← hC.one]; apply hC.mono; linarith

/-- The pulse of an impulse. -/
noncomputable def pulseAt (c : SupCfg) (P : WPar) (stereo : Bool) (osc g : ℝ) : Pulse :=
  let ipos := toU32 (2 ^ 24 * (osc * c.inv))
  let g := g * P.att
  let g := if stereo then g * P.panL else g
  ⟨ipos / 2 ^ 24 % 64, ipos / 2 ^ 16 % 256 * 24, (ipos % 2 ^ 16 : ℕ), g, g, 0⟩

/-- The level reached by an impulse. -/
noncomputable def levelAt (W : WTab) (c : SupCfg) (P : WPar) (s : WShare) (v : WVoice) : ℝ := Spec.sample W P.vskew P.clip s.tid (morphAt c s v.osc) (latch W c P s v).2.mip v.state

/-- The time to the next impulse. -/
noncomputable def gapAt (ctr : ℝ → ℝ) (W : WTab) (c : SupCfg) (P : WPar) (s : WShare) (v : WVoice) : ℝ :=
  stepLen W (latch W c P s v).1.hskew (formantAt ctr c P (latch W c P s v).1 v.osc) (latch W c P s v).2.mip v.state * P.period

theorem wconvolute_ok {ctr : ℝ → ℝ} (hC : Spec.Tuned ctr) {W : WTab} {k : ℕ} (hW : Spec.TabOk W k) {c : SupCfg} (hc : Spec.CfgOk c) {P : WPar} (hP : Spec.WParOk P) (stereo : Bool) {M : ℝ} (hM : P.formant ≤ M) {s : WShare} {v : WVoice}
    (hs : ShareOk W M s) (hv : VoiceOk k v) (h1 : v.osc < c.a) (hl : s.lastIpol < 1 ∨ 0 < v.osc) :
    wconvolute ctr W c P stereo false s v = .ok ((latch W c P s v).1,
      ⟨(v.state + 1) % 2 ^ (k - (latch W c P s v).2.mip), (latch W c P s v).2.mip, v.osc + gapAt ctr W c P s v, levelAt W c P s v⟩,
      ⟨v.osc, levelAt W c P s v - v.last, 0, pulseAt c P stereo v.osc (levelAt W c P s v - v.last)⟩) ∧
    P.period * (ctr (-M) / (8 * (2 ^ k : ℝ) ^ 5)) ≤ gapAt ctr W c P s v := by
  obtain ⟨f0, f1, _⟩ := frac_range hc hv.osc h1
  obtain ⟨l1, l2, l3, l4, l5, l6, l7, l8⟩ := latch_ok hW c hP hM hs hv
  have fr := formantAt_range hC hc hP hM l1 hv.osc h1
  have lev := newLevel_ok hW hc P l1 l2.mip l2.state (x := v.osc) hv.osc h1 (by rw [l8]; exact hl)
  have lo := stepLen_lower hW.len (by have := l2.mip; omega) l1.hskew.1 l1.hskew.2 (hC.pos (-M)) fr.1 fr.2 l2.state
  rw [l4] at lo lev
  have gap : P.period * (ctr (-M) / (8 * (2 ^ k : ℝ) ^ 5)) ≤ gapAt ctr W c P s v := by
    unfold gapAt
    rw [mul_comm]
    exact mul_le_mul_of_nonneg_right lo hP.period.le
  refine ⟨?_, gap⟩
  have gp : 0 ≤ gapAt ctr W c P s v := le_trans (mul_nonneg hP.period.le (div_nonneg (hC.pos _).le (by positivity))) gap
  have mo : morphAt c (latch W c P s v).1 v.osc = morphAt c s v.osc := by unfold morphAt; rw [l7, l8]
  rw [mo, l6] at lev
  have d : W.len / 2 ^ (latch W c P s v).2.mip = 2 ^ (k - (latch W c P s v).2.mip) := by rw [hW.len]; exact Nat.pow_div (by have := l2.mip; omega) (by decide)
  have la : (if v.state = 0 then cycleStart W c P false s v else (s, v)) = latch W c P s v := rfl
  have fe : v.osc * (1 / 64) * c.inv = frac c v.osc := rfl
  unfold wconvolute
  simp only [la, fe]
  rw [show lerpR (frac c v.osc) (latch W c P s v).1.formantLast P.formant = .ok ((1 - frac c v.osc) * (latch W c P s v).1.formantLast + frac c v.osc * P.formant) from if_pos ⟨f0, f1⟩]
  simp only [d, l4, Nat.and_two_pow_sub_one_eq_mod, Nat.mod_eq_of_lt (l4 ▸ l2.state)]
  simp only [bind, Res.bind, lev, l3, l5]
  have mx : max 0 (v.osc + gapAt ctr W c P s v) = v.osc + gapAt ctr W c P s v := max_eq_right (by linarith [hv.osc])
  have ge : stepLen W (latch W c P s v).1.hskew (ctr (-((1 - frac c v.osc) * (latch W c P s v).1.formantLast + frac c v.osc * P.formant))) (latch W c P s v).2.mip v.state * P.period = gapAt ctr W c P s v := rfl
  rw [ge, mx]
  rfl

/-! ## One block -/

/-- The loop of one voice ends, without abort. -/
theorem wfill_ends {ctr : ℝ → ℝ} (hC : Spec.Tuned ctr) {W : WTab} {k : ℕ} (hW : Spec.TabOk W k) {c : SupCfg} (hc : Spec.CfgOk c) {P : WPar} (hP : Spec.WParOk P) (stereo : Bool) {M : ℝ} (hM : P.formant ≤ M) :
    ∀ (n : ℕ) (s : WShare) (v : WVoice), ShareOk W M s → VoiceOk k v → (s.lastIpol < 1 ∨ 0 < v.osc) → c.a - v.osc ≤ n * (P.period * (ctr (-M) / (8 * (2 ^ k : ℝ) ^ 5))) →
    ∃ s' v' hs, (∀ m, n < m → wfill ctr W c P stereo false m s v = some (.ok (s', v', hs))) ∧ ShareOk W M s' ∧ VoiceOk k v' ∧ s'.tid = s.tid ∧ s'.ipol = s.ipol ∧ s'.lastIpol = s.lastIpol
  | n, s, v, hs, hv, hl, hn => by
    by_cases h : v.osc < c.a
    · obtain ⟨e, lo⟩ := wconvolute_ok hC hW hc hP stereo hM hs hv h hl
      obtain ⟨l1, l2, l3, l4, l5, l6, l7, l8⟩ := latch_ok hW c hP hM hs hv
      have δ : 0 < P.period * (ctr (-M) / (8 * (2 ^ k : ℝ) ^ 5)) := mul_pos hP.period (div_pos (hC.pos _) (by positivity))
      cases n with
      | zero => push_cast at hn; linarith
      | succ n =>
        have g : 0 < v.osc + gapAt ctr W c P s v := by linarith [hv.osc]
        obtain ⟨s', v', t, a1, a2, a3, a4, a5, a6⟩ := wfill_ends hC hW hc hP stereo hM n (latch W c P s v).1
          ⟨(v.state + 1) % 2 ^ (k - (latch W c P s v).2.mip), (latch W c P s v).2.mip, v.osc + gapAt ctr W c P s v, levelAt W c P s v⟩ l1
          ⟨l2.mip, Nat.mod_lt _ (Nat.two_pow_pos _), g.le⟩ (Or.inr g) (by
            show c.a - (v.osc + gapAt ctr W c P s v) ≤ _
            push_cast at hn; linarith)
        refine ⟨s', v', ⟨v.osc, levelAt W c P s v - v.last, 0, pulseAt c P stereo v.osc (levelAt W c P s v - v.last)⟩ :: t, fun m hm => ?_, a2, a3, by rw [a4, l6], by rw [a5, l7], by rw [a6, l8]⟩
        obtain ⟨m, rfl⟩ : ∃ m', m = m' + 1 := ⟨m - 1, by omega⟩
        rw [wfill, if_pos h, e]
        simp only
        rw [a1 m (by omega)]
        rfl
    · refine ⟨s, ⟨v.state, v.mip, v.osc - c.a, v.last⟩, [], fun m hm => ?_, hs, ⟨hv.mip, hv.state, by show 0 ≤ v.osc - c.a; linarith⟩, rfl, rfl, rfl⟩
      obtain ⟨m, rfl⟩ : ∃ m', m = m' + 1 := ⟨m - 1, by omega⟩
      rw [wfill, if_neg h]

/-- nofm.rs 9-19: the voices, one after the other, each with what it sees. -/
noncomputable def wvoices (ctr : ℝ → ℝ) (W : WTab) (c : SupCfg) (stereo isSample : Bool) (n : ℕ) : WShare → List (WPar × WVoice) → Option (R (WShare × List (WVoice × List Hit)))
  | s, [] => some (.ok (s, []))
  | s, (P, v) :: r =>
    match wfill ctr W c P stereo isSample n s v with
    | none => none
    | some (.panic m) => some (.panic m)
    | some (.err e) => some (.err e)
    | some (.ok (s, v, h)) => (wvoices ctr W c stereo isSample n s r).map fun x => do
      let (s, l) ← x
      pure (s, (v, h) :: l)

/-- **C165 (every block ends)**: with any number of voices, at every pitch, skew, formant, clip, and at every place between two tables, a block ends and does not abort, provided it does not begin, exactly at an impulse,
at the upper of the two tables; and the next block starts from a state of the same kind. -/
theorem C165_ends {ctr : ℝ → ℝ} (hC : Spec.Tuned ctr) {W : WTab} {k : ℕ} (hW : Spec.TabOk W k) {c : SupCfg} (hc : Spec.CfgOk c) (stereo : Bool) {M : ℝ} :
    ∀ (l : List (WPar × WVoice)) (s : WShare), ShareOk W M s → (∀ x ∈ l, Spec.WParOk x.1 ∧ x.1.formant ≤ M ∧ VoiceOk k x.2 ∧ (s.lastIpol < 1 ∨ 0 < x.2.osc)) →
    ∃ s' l', (∃ n, ∀ m, n < m → wvoices ctr W c stereo false m s l = some (.ok (s', l'))) ∧ ShareOk W M s' ∧ (∀ x ∈ l', VoiceOk k x.1) ∧ l'.length = l.length
  | [], s, hs, _ => ⟨s, [], ⟨0, fun _ _ => rfl⟩, hs, by simp, rfl⟩
  | (P, v) :: r, s, hs, hl => by
    obtain ⟨hP, hM, hv, ho⟩ := hl (P, v) List.mem_cons_self
    obtain ⟨n, hn⟩ := exists_nat_gt ((c.a - v.osc) / (P.period * (ctr (-M) / (8 * (2 ^ k : ℝ) ^ 5))))
    have δ : 0 < P.period * (ctr (-M) / (8 * (2 ^ k : ℝ) ^ 5)) := mul_pos hP.period (div_pos (hC.pos _) (by positivity))
    rw [div_lt_iff₀ δ] at hn
    obtain ⟨s1, v1, h1, a1, a2, a3, a4, a5, a6⟩ := wfill_ends hC hW hc hP stereo hM n s v hs hv ho hn.le
    obtain ⟨s2, l2, ⟨n2, b1⟩, b2, b3, b4⟩ := C165_ends hC hW hc stereo r s1 a2 (fun x hx => by rw [a6]; exact hl x (List.mem_cons_of_mem _ hx))
    refine ⟨s2, (v1, h1) :: l2, ⟨max n n2, fun m hm => ?_⟩, b2, ?_, by simp [b4]⟩
    · rw [wvoices, a1 m (by omega)]
      simp only
      rw [b1 m (by omega)]
      rfl
    · intro x hx
      rcases List.mem_cons.1 hx with rfl | hx
      · exact a3
      · exact b3 x hx

/-! ## Runs -/

/-- The life of a note on one voice: `shape` is the smoothed morph of each block. -/
structure Spec.WRun (ctr : ℝ → ℝ) (W : WTab) (c : ℕ → SupCfg) (P : ℕ → WPar) (stereo : Bool) (shape : ℕ → ℝ) (S : ℕ → WShare) (V : ℕ → WVoice) (H : ℕ → List Hit) : Prop where
  start : setTable W false (shape 0) (P 0).formant 0 = .ok (S 0)
  state : (V 0).state = 0 ∧ (V 0).mip = 0 ∧ (V 0).last = 0
  osc : 0 ≤ (V 0).osc
  step : ∀ t, ∃ n, wfill ctr W (c t) (P t) stereo false n (updateTables W false (shape t) (S t)) (V t) = some (.ok (S (t + 1), V (t + 1), H t))

/-- The levels the heights of the impulses add up to. -/
noncomputable def Spec.heights (cur : ℝ) : List (ℝ × ℝ × ℝ) → List ℝ
  | [] => []
  | (_, g, _) :: r => (cur + g) :: Spec.heights (cur + g) r

theorem distort_range (a b x : ℝ) : -1 ≤ distort a b x ∧ distort a b x ≤ 1 :=
  ⟨le_min (le_max_right _ _) (by norm_num), min_le_right _ _⟩

theorem bind_ok' {α β : Type} {x : R α} {f : α → R β} {y : β} (h : (x >>= f) = .ok y) : ∃ a, x = .ok a ∧ f a = .ok y := by
  cases x with
  | ok a => exact ⟨a, rfl, h⟩
  | err e => cases h
  | panic m => cases h

/-- Whatever happens, an impulse that is made goes from the last level to the new one, which is in range. -/
theorem wconvolute_level {ctr : ℝ → ℝ} {W : WTab} {c : SupCfg} {P : WPar} {stereo b : Bool} {s s' : WShare} {v v' : WVoice} {h : Hit} (e : wconvolute ctr W c P stereo b s v = .ok (s', v', h)) :
    v'.last = v.last + h.g ∧ -1 ≤ v'.last ∧ v'.last ≤ 1 ∧ h.pulse.gl = h.pulse.gr := by
  have la : (if v.state = 0 then cycleStart W c P b s v else (s, v)).2.last = v.last := by
    split
    · unfold cycleStart
      cases b
      · rfl
      · simp only [if_true]
        rcases sampleNext W.tables s.tid s.loops with ⟨x, y, z⟩
        cases z <;> rfl
    · rfl
  unfold wconvolute at e
  generalize (if v.state = 0 then cycleStart W c P b s v else (s, v)) = q at e la
  obtain ⟨s1, v1⟩ := q
  simp only at e la
  obtain ⟨ft, _, e⟩ := bind_ok' e
  obtain ⟨lev, e1, e⟩ := bind_ok' e
  injection e with e
  obtain ⟨_, e⟩ := Prod.mk.inj e
  obtain ⟨rfl, rfl⟩ := Prod.mk.inj e
  unfold newLevel at e1
  obtain ⟨_, _, e1⟩ := bind_ok' e1
  obtain ⟨_, _, e1⟩ := bind_ok' e1
  obtain ⟨_, _, e1⟩ := bind_ok' e1
  obtain ⟨y, _, e1⟩ := bind_ok' e1
  injection e1 with e1
  have r := distort_range P.vskew P.clip y
  rw [e1] at r
  refine ⟨?_, r.1, r.2, rfl⟩
  show lev = v.last + (lev - v1.last)
  rw [la]; ring

theorem wfill_level {ctr : ℝ → ℝ} {W : WTab} {c : SupCfg} {P : WPar} {stereo b : Bool} : ∀ {n : ℕ} {s s' : WShare} {v v' : WVoice} {hs : List Hit}, wfill ctr W c P stereo b n s v = some (.ok (s', v', hs)) →
    (∀ h ∈ hs, h.pulse.gl = h.pulse.gr) ∧ (-1 ≤ v.last ∧ v.last ≤ 1 → -1 ≤ v'.last ∧ v'.last ≤ 1) ∧
    ∀ A rest, Spec.heights v.last (hs.map (fun h => (A + h.pos, h.g, h.slope)) ++ rest) = Spec.heights v.last (hs.map (fun h => (A + h.pos, h.g, h.slope))) ++ Spec.heights v'.last rest ∧
      ∀ x ∈ Spec.heights v.last (hs.map (fun h => (A + h.pos, h.g, h.slope))), -1 ≤ x ∧ x ≤ 1
  | 0, s, s', v, v', hs, e => by simp [wfill] at e
  | n + 1, s, s', v, v', hs, e => by
    rw [wfill] at e
    split at e
    · generalize ec : wconvolute ctr W c P stereo b s v = r at e
      cases r with
      | panic m => simp at e
      | err m => simp at e
      | ok x =>
        obtain ⟨s1, v1, h⟩ := x
        simp only at e
        obtain ⟨y, e1, e2⟩ := Option.map_eq_some_iff.1 e
        obtain ⟨⟨s2, v2, hs2⟩, rfl, e3⟩ := bind_ok' e2
        cases e3
        obtain ⟨l1, l2, l3, l4⟩ := wconvolute_level ec
        obtain ⟨a1, a2, a3⟩ := wfill_level e1
        refine ⟨?_, fun _ => a2 ⟨l2, l3⟩, fun A rest => ?_⟩
        · intro x hx
          rcases List.mem_cons.1 hx with rfl | hx
          · exact l4
          · exact a1 x hx
        · simp only [List.map_cons, List.cons_append, Spec.heights, ← l1]
          refine ⟨?_, ?_⟩
          · rw [(a3 A rest).1]
          · intro x hx
            rcases List.mem_cons.1 hx with rfl | hx
            · exact ⟨l2, l3⟩
            · exact (a3 A rest).2 x hx
    · cases e
      exact ⟨by simp, fun h => h, fun A rest => ⟨rfl, by simp [Spec.heights]⟩⟩

theorem trace_level {ctr : ℝ → ℝ} {W : WTab} {c : ℕ → SupCfg} {P : ℕ → WPar} {stereo : Bool} {shape : ℕ → ℝ} {S : ℕ → WShare} {V : ℕ → WVoice} {H : ℕ → List Hit} (h : Spec.WRun ctr W c P stereo shape S V H) :
    ∀ (N t : ℕ) (A : ℝ), ∀ x ∈ Spec.heights (V t).last (Spec.traceFrom c H t A N), -1 ≤ x ∧ x ≤ 1
  | 0, t, A => by simp [Spec.traceFrom, Spec.heights]
  | N + 1, t, A => by
    obtain ⟨n, e⟩ := h.step t
    obtain ⟨a1, a2, a3⟩ := wfill_level e
    rw [Spec.traceFrom, (a3 A _).1]
    intro x hx
    rcases List.mem_append.1 hx with hx | hx
    · exact (a3 A []).2 x hx
    · exact trace_level h N (t + 1) _ x hx

/-- **C166 (no drift)**: whatever the pitch, morph, skews, formant and clip do, the heights of the impulses of a voice always add up to a level within [-1, 1]. -/
theorem C166_no_drift {ctr : ℝ → ℝ} {W : WTab} {c : ℕ → SupCfg} {P : ℕ → WPar} {stereo : Bool} {shape : ℕ → ℝ} {S : ℕ → WShare} {V : ℕ → WVoice} {H : ℕ → List Hit} (h : Spec.WRun ctr W c P stereo shape S V H) (N : ℕ) :
    ∀ x ∈ Spec.heights 0 (Spec.trace c H N), -1 ≤ x ∧ x ≤ 1 := by
  have := trace_level h N 0 0
  rw [h.state.2.2] at this
  exact this

/-! ## The period and the wave -/

/-- Where a morph value stands: between which tables, and how far. -/
noncomputable def Spec.morph (W : WTab) (m : ℝ) : ℝ := m * (((W.tables : ℝ) - 1) * 0.999990)

theorem morph_range {W : WTab} (h : 2 ≤ W.tables) {m : ℝ} (h0 : 0 ≤ m) (h1 : m ≤ 1) : 0 ≤ ⌊Spec.morph W m⌋ ∧ ⌊Spec.morph W m⌋ + 2 ≤ W.tables ∧ 0 ≤ Int.fract (Spec.morph W m) ∧ Int.fract (Spec.morph W m) < 1 := by
  have t : (2 : ℝ) ≤ W.tables := by exact_mod_cast h
  have p : 0 ≤ ((W.tables : ℝ) - 1) * 0.999990 := by nlinarith
  refine ⟨Int.floor_nonneg.2 (mul_nonneg h0 p), ?_, Int.fract_nonneg _, Int.fract_lt_one _⟩
  have : Spec.morph W m < (W.tables : ℝ) - 1 := by
    have := mul_le_mul_of_nonneg_right h1 p
    unfold Spec.morph
    nlinarith
  have f : ⌊Spec.morph W m⌋ < (W.tables : ℤ) - 1 := by
    rw [Int.floor_lt]
    push_cast; exact this
  omega

theorem tid_eq {W : WTab} (h : 2 ≤ W.tables) {m : ℝ} (h0 : 0 ≤ m) (h1 : m ≤ 1) : max (min ⌊Spec.morph W m⌋ ((W.tables : ℤ) - 2)) 0 = ⌊Spec.morph W m⌋ := by
  obtain ⟨a, b, _⟩ := morph_range h h0 h1
  omega

/-- A steady morph keeps its place. -/
theorem update_steady {W : WTab} (h : 2 ≤ W.tables) {m : ℝ} (h0 : 0 ≤ m) (h1 : m ≤ 1) {s : WShare} (ht : s.tid = ⌊Spec.morph W m⌋) (hi : s.ipol = Int.fract (Spec.morph W m)) :
    updateTables W false m s = ⟨s.hskew, s.formantLast, s.tid, s.tid, s.ipol, s.ipol, s.loops⟩ := by
  obtain ⟨a, b, _⟩ := morph_range h h0 h1
  have e := tid_eq h h0 h1
  unfold updateTables split
  simp only
  rw [show m * (((W.tables : ℝ) - 1) * 0.999990) = Spec.morph W m from rfl, e, if_neg (by omega), if_neg (by decide), ht, if_neg (lt_irrefl _), if_neg (lt_irrefl _), hi]
  rfl

/-- The cycle of a voice with a steady pitch and formant, after `i` impulses. -/
structure WClock (W : WTab) (k mip : ℕ) (f T φ x0 A : ℝ) (i : ℕ) (s : WShare) (v : WVoice) : Prop where
  state : v.state = i % 2 ^ (k - mip)
  level : v.state ≠ 0 → v.mip = mip
  formant : s.formantLast = φ
  time : A + v.osc = x0 + T * ((i / 2 ^ (k - mip) : ℕ) + phaseAt W s.hskew f mip (i % 2 ^ (k - mip)))

theorem clock_next {ctr : ℝ → ℝ} {W : WTab} {k mip : ℕ} (hW : W.len = 2 ^ k) (hm : mip ≤ k) {c : SupCfg} (hmip : mipFor (1 / (W.len : ℝ) * c.inv) W.len = mip) {P : WPar} {x0 A : ℝ} {i : ℕ} {s : WShare} {v : WVoice}
    (h : WClock W k mip (ctr (-P.formant)) P.period P.formant x0 A i s v) (lev : ℝ) : WClock W k mip (ctr (-P.formant)) P.period P.formant x0 A (i + 1) (latch W c P s v).1
      ⟨(v.state + 1) % 2 ^ (k - (latch W c P s v).2.mip), (latch W c P s v).2.mip, v.osc + gapAt ctr W c P s v, lev⟩ ∧ (latch W c P s v).2.mip = mip := by
  obtain ⟨h1, h2, h3, h4⟩ := h
  have p : 0 < 2 ^ (k - mip) := Nat.two_pow_pos _
  have lm : (latch W c P s v).2.mip = mip := by
    unfold latch
    split
    · exact hmip
    · rename_i n; exact h2 n
  have lf : (latch W c P s v).1.formantLast = P.formant := by
    unfold latch
    split
    · rfl
    · exact h3
  have fa : formantAt ctr c P (latch W c P s v).1 v.osc = ctr (-P.formant) := by
    unfold formantAt
    rw [lf]; congr 1; ring
  have ph : phaseAt W s.hskew (ctr (-P.formant)) mip (i % 2 ^ (k - mip)) = phaseAt W (latch W c P s v).1.hskew (ctr (-P.formant)) mip (i % 2 ^ (k - mip)) := by
    by_cases z : v.state = 0
    · rw [← h1, z]; simp [phaseAt]
    · unfold latch; rw [if_neg z]
  refine ⟨⟨?_, fun _ => lm, lf, ?_⟩, lm⟩
  · show (v.state + 1) % 2 ^ (k - (latch W c P s v).2.mip) = (i + 1) % 2 ^ (k - mip)
    rw [lm, h1, Nat.mod_add_mod]
  · show A + (v.osc + gapAt ctr W c P s v) = _
    rw [← add_assoc, h4, ph]
    unfold gapAt
    rw [fa, lm, h1]
    generalize (latch W c P s v).1.hskew = η
    generalize ctr (-P.formant) = f
    have sc : phaseAt W η f mip (i % 2 ^ (k - mip)) + stepLen W η f mip (i % 2 ^ (k - mip)) = phaseAt W η f mip (i % 2 ^ (k - mip) + 1) := (Finset.sum_range_succ _ _).symm
    have full := phaseAt_full hW hm η f
    generalize 2 ^ (k - mip) = N at *
    have dm := Nat.div_add_mod i N
    have lt := Nat.mod_lt i p
    by_cases z : i % N + 1 = N
    · have e1 : (i + 1) % N = 0 := by
        rw [← Nat.mod_add_mod, z, Nat.mod_self]
      have e2 : (i + 1) / N = i / N + 1 := by
        have : i + 1 = (i / N + 1) * N := by rw [Nat.add_mul, Nat.one_mul, Nat.mul_comm]; omega
        rw [this, Nat.mul_div_cancel _ p]
      rw [z, full] at sc
      rw [e1, e2]
      have z0 : phaseAt W η f mip 0 = 0 := by simp [phaseAt]
      rw [z0]
      push_cast
      linear_combination P.period * sc
    · have e1 : (i + 1) % N = i % N + 1 := by
        rw [← Nat.mod_add_mod]; exact Nat.mod_eq_of_lt (by omega)
      have e2 : (i + 1) / N = i / N := by
        have : i + 1 = i / N * N + (i % N + 1) := by rw [Nat.mul_comm]; omega
        rw [this, Nat.add_comm, Nat.add_mul_div_right _ _ p, Nat.div_eq_of_lt (by omega)]; omega
      rw [e1, e2]
      linear_combination P.period * sc

/-- The impulses from number `i` on: the levels they reach are those of `wave`, and the cycles begin `T` apart. -/
def Plays (x0 T : ℝ) (N : ℕ) (wave : ℕ → ℝ) (i : ℕ) (cur : ℝ) (l : List (ℝ × ℝ × ℝ)) : Prop :=
  (∀ j h, (i + j) % N = 0 → (l[j]'h).1 = x0 + T * ((i + j) / N : ℕ)) ∧ ∀ j h, ((Spec.heights cur l)[j]'h) = wave ((i + j) % N)

theorem plays_cons {x0 T : ℝ} {N : ℕ} {wave : ℕ → ℝ} {i : ℕ} {cur : ℝ} {x : ℝ × ℝ × ℝ} {l : List (ℝ × ℝ × ℝ)} (h1 : i % N = 0 → x.1 = x0 + T * (i / N : ℕ)) (h2 : cur + x.2.1 = wave (i % N))
    (hl : Plays x0 T N wave (i + 1) (cur + x.2.1) l) : Plays x0 T N wave i cur (x :: l) := by
  constructor
  · intro j hj hm
    cases j with
    | zero => exact h1 hm
    | succ j =>
      have e : i + (j + 1) = i + 1 + j := by omega
      rw [e] at hm ⊢
      simpa using hl.1 j (by simpa using hj) hm
  · intro j hj
    cases j with
    | zero => exact h2
    | succ j =>
      have e : i + (j + 1) = i + 1 + j := by omega
      rw [e]
      simpa [Spec.heights] using hl.2 j (by simpa [Spec.heights] using hj)

theorem wfill_plays {ctr : ℝ → ℝ} (hC : Spec.Tuned ctr) {W : WTab} {k mip : ℕ} (hW : Spec.TabOk W k) {c : SupCfg} (hc : Spec.CfgOk c) (hmip : mipFor (1 / (W.len : ℝ) * c.inv) W.len = mip) {P : WPar} (hP : Spec.WParOk P)
    {stereo : Bool} {x0 A : ℝ} : ∀ {n : ℕ} {s s' : WShare} {v v' : WVoice} {l : List Hit} {i : ℕ}, ShareOk W P.formant s → VoiceOk k v → s.lastIpol = s.ipol → WClock W k mip (ctr (-P.formant)) P.period P.formant x0 A i s v →
    wfill ctr W c P stereo false n s v = some (.ok (s', v', l)) → WClock W k mip (ctr (-P.formant)) P.period P.formant x0 (A + c.a) (i + l.length) s' v' ∧ ShareOk W P.formant s' ∧ VoiceOk k v' ∧ s'.tid = s.tid ∧ s'.ipol = s.ipol ∧
    ∀ rest, Plays x0 P.period (2 ^ (k - mip)) (Spec.sample W P.vskew P.clip s.tid s.ipol mip) (i + l.length) v'.last rest →
      Plays x0 P.period (2 ^ (k - mip)) (Spec.sample W P.vskew P.clip s.tid s.ipol mip) i v.last (l.map (fun h => (A + h.pos, h.g, h.slope)) ++ rest)
  | 0, s, s', v, v', l, i, _, _, _, _, e => by simp [wfill] at e
  | n + 1, s, s', v, v', l, i, hs, hv, hl, k1, e => by
    have mk : mip ≤ k := by
      rw [← hmip, hW.len]
      have := mipFor_lt (a := 1 / ((2 ^ k : ℕ) : ℝ) * c.inv) hW.k1
      omega
    rw [wfill] at e
    by_cases h : v.osc < c.a
    · rw [if_pos h] at e
      have ip : s.lastIpol < 1 := by rw [hl]; exact hs.ipol.2
      obtain ⟨ec, lo⟩ := wconvolute_ok hC hW hc hP stereo le_rfl hs hv h (Or.inl ip)
      obtain ⟨l1, l2, l3, l4, l5, l6, l7, l8⟩ := latch_ok hW c hP le_rfl hs hv
      obtain ⟨k2, k3⟩ := clock_next (ctr := ctr) hW.len mk hmip k1 (levelAt W c P s v)
      have δ : 0 < P.period * (ctr (-P.formant) / (8 * (2 ^ k : ℝ) ^ 5)) := mul_pos hP.period (div_pos (hC.pos _) (by positivity))
      rw [ec] at e
      simp only at e
      obtain ⟨y, e1, e2⟩ := Option.map_eq_some_iff.1 e
      obtain ⟨⟨s2, v2, l2'⟩, rfl, e3⟩ := bind_ok' e2
      cases e3
      obtain ⟨a1, a2, a3, a4, a5, a6⟩ := wfill_plays (v := ⟨(v.state + 1) % 2 ^ (k - (latch W c P s v).2.mip), (latch W c P s v).2.mip, v.osc + gapAt ctr W c P s v, levelAt W c P s v⟩) hC hW hc hmip hP l1 ⟨l2.mip, Nat.mod_lt _ (Nat.two_pow_pos _), by show 0 ≤ v.osc + _; linarith [hv.osc]⟩ (by rw [l7, l8, hl]) k2 e1
      rw [l6] at a4 a6
      rw [l7] at a5 a6
      have le : i + (({ pos := v.osc, g := levelAt W c P s v - v.last, slope := 0, pulse := pulseAt c P stereo v.osc (levelAt W c P s v - v.last) } : Hit) :: l2').length = i + 1 + l2'.length := by simp; omega
      rw [le]
      have lev : v.last + (levelAt W c P s v - v.last) = Spec.sample W P.vskew P.clip s.tid s.ipol mip (i % 2 ^ (k - mip)) := by
        have mo : morphAt c s v.osc = s.ipol := by unfold morphAt; rw [hl]; ring
        unfold levelAt
        rw [k3, mo, k1.state]; ring
      refine ⟨a1, a2, a3, a4, a5, fun rest hr => plays_cons ?_ lev ?_⟩
      · intro z
        show A + v.osc = _
        rw [k1.time, z]; simp [phaseAt]
      · have q : v.last + (levelAt W c P s v - v.last) = levelAt W c P s v := by ring
        show Plays _ _ _ _ _ (v.last + (levelAt W c P s v - v.last)) _
        rw [q]
        exact a6 rest hr
    · rw [if_neg h] at e
      cases e
      refine ⟨⟨k1.state, k1.level, k1.formant, ?_⟩, hs, ⟨hv.mip, hv.state, by show 0 ≤ v.osc - c.a; linarith⟩, rfl, rfl, fun rest hr => hr⟩
      show A + c.a + (v.osc - c.a) = _
      have := k1.time
      simp only [List.length_nil, Nat.add_zero]
      linarith

/-- What holds before each block of a note with a steady morph, pitch and formant. -/
theorem trace_plays {ctr : ℝ → ℝ} (hC : Spec.Tuned ctr) {W : WTab} {k mip : ℕ} (hW : Spec.TabOk W k) {c : SupCfg} (hc : Spec.CfgOk c) (hmip : mipFor (1 / (W.len : ℝ) * c.inv) W.len = mip) {P : ℕ → WPar} (hP : ∀ t, Spec.WParOk (P t))
    {stereo : Bool} {m T φ vs cl : ℝ} (h0 : 0 ≤ m) (h1 : m ≤ 1) (hT : ∀ t, (P t).period = T) (hφ : ∀ t, (P t).formant = φ) (hvs : ∀ t, (P t).vskew = vs) (hcl : ∀ t, (P t).clip = cl) {S : ℕ → WShare} {V : ℕ → WVoice} {H : ℕ → List Hit}
    (h : Spec.WRun ctr W (fun _ => c) P stereo (fun _ => m) S V H) {x0 : ℝ} : ∀ (N t : ℕ) {A : ℝ} {i : ℕ}, ShareOk W φ (S t) → VoiceOk k (V t) → (S t).tid = ⌊Spec.morph W m⌋ → (S t).ipol = Int.fract (Spec.morph W m) →
      WClock W k mip (ctr (-φ)) T φ x0 A i (S t) (V t) → Plays x0 T (2 ^ (k - mip)) (Spec.sample W vs cl ⌊Spec.morph W m⌋ (Int.fract (Spec.morph W m)) mip) i (V t).last (Spec.traceFrom (fun _ => c) H t A N)
  | 0, t, A, i, _, _, _, _, _ => ⟨by intro j hj; simp [Spec.traceFrom] at hj, by intro j hj; simp [Spec.traceFrom, Spec.heights] at hj⟩
  | N + 1, t, A, i, g1, g2, g3, g4, k1 => by
    obtain ⟨n, e⟩ := h.step t
    rw [update_steady hW.tables h0 h1 g3 g4] at e
    have sok : ShareOk W (P t).formant ⟨(S t).hskew, (S t).formantLast, (S t).tid, (S t).tid, (S t).ipol, (S t).ipol, (S t).loops⟩ :=
      ⟨g1.hskew, by rw [hφ]; exact g1.formant, g1.tid, g1.ipol, ⟨g1.ipol.1, g1.ipol.2.le⟩⟩
    have k1' : WClock W k mip (ctr (-(P t).formant)) (P t).period (P t).formant x0 A i ⟨(S t).hskew, (S t).formantLast, (S t).tid, (S t).tid, (S t).ipol, (S t).ipol, (S t).loops⟩ (V t) := by
      rw [hφ, hT]; exact ⟨k1.state, k1.level, k1.formant, k1.time⟩
    obtain ⟨a1, a2, a3, a4, a5, a6⟩ := wfill_plays hC hW hc hmip (hP t) sok g2 rfl k1' e
    rw [hφ, hT] at a1
    rw [hφ] at a2
    rw [hT, hvs, hcl] at a6
    simp only at a4 a5 a6
    rw [g3] at a4 a6
    rw [g4] at a5 a6
    rw [Spec.traceFrom]
    exact a6 _ (trace_plays hC hW hc hmip hP h0 h1 hT hφ hvs hcl h N (t + 1) a2 a3 a4 a5 a1)

theorem start_ok {W : WTab} {k : ℕ} (hW : Spec.TabOk W k) {m φ : ℝ} (h0 : 0 ≤ m) (h1 : m ≤ 1) : setTable W false m φ 0 = .ok ⟨0, φ, ⌊Spec.morph W m⌋, ⌊Spec.morph W m⌋, Int.fract (Spec.morph W m), Int.fract (Spec.morph W m), 0⟩ := by
  have e := tid_eq hW.tables h0 h1
  unfold setTable split
  simp only
  rw [show m * ((W.tables : ℝ) - 1) * 0.999990 = Spec.morph W m from mul_assoc _ _ _, e, if_neg (by have := hW.tables; omega)]
  rfl

theorem run_start {ctr : ℝ → ℝ} {W : WTab} {k mip : ℕ} (hW : Spec.TabOk W k) {c : SupCfg} {P : ℕ → WPar} (hP : ∀ t, Spec.WParOk (P t)) {stereo : Bool} {m T φ : ℝ} (h0 : 0 ≤ m) (h1 : m ≤ 1) (hφ : ∀ t, (P t).formant = φ)
    {S : ℕ → WShare} {V : ℕ → WVoice} {H : ℕ → List Hit} (h : Spec.WRun ctr W (fun _ => c) P stereo (fun _ => m) S V H) : ShareOk W φ (S 0) ∧ VoiceOk k (V 0) ∧ (S 0).tid = ⌊Spec.morph W m⌋ ∧ (S 0).ipol = Int.fract (Spec.morph W m) ∧
      WClock W k mip (ctr (-φ)) T φ (V 0).osc 0 0 (S 0) (V 0) := by
  have st := h.start
  rw [start_ok hW h0 h1] at st
  injection st with st
  obtain ⟨a, b, d, e⟩ := morph_range hW.tables h0 h1
  have f0 := (hP 0).formant
  rw [← st, hφ 0]
  rw [hφ 0] at f0
  refine ⟨⟨⟨by norm_num, by norm_num⟩, ⟨f0, le_rfl⟩, ⟨a, b⟩, ⟨d, e⟩, ⟨d, e.le⟩⟩, ⟨by rw [h.state.2.1]; exact hW.k1, by rw [h.state.1]; exact Nat.two_pow_pos _, h.osc⟩, rfl, rfl, ⟨by rw [h.state.1, Nat.zero_mod], fun n => absurd h.state.1 n, rfl, ?_⟩⟩
  simp [phaseAt]

/-- **C165 (the pitch)**: at a steady pitch, period and formant, cycle number `n` of the voice begins exactly `T n` after the first, whatever the skew of the wave does meanwhile and whatever the formant is: neither detunes. -/
theorem C165_period {ctr : ℝ → ℝ} (hC : Spec.Tuned ctr) {W : WTab} {k mip : ℕ} (hW : Spec.TabOk W k) {c : SupCfg} (hc : Spec.CfgOk c) (hmip : mipFor (1 / (W.len : ℝ) * c.inv) W.len = mip) {P : ℕ → WPar} (hP : ∀ t, Spec.WParOk (P t))
    {stereo : Bool} {m T φ vs cl : ℝ} (h0 : 0 ≤ m) (h1 : m ≤ 1) (hT : ∀ t, (P t).period = T) (hφ : ∀ t, (P t).formant = φ) (hvs : ∀ t, (P t).vskew = vs) (hcl : ∀ t, (P t).clip = cl) {S : ℕ → WShare} {V : ℕ → WVoice} {H : ℕ → List Hit}
    (h : Spec.WRun ctr W (fun _ => c) P stereo (fun _ => m) S V H) (B n : ℕ) (hn : 2 ^ (k - mip) * n < (Spec.trace (fun _ => c) H B).length) :
    ((Spec.trace (fun _ => c) H B)[2 ^ (k - mip) * n]).1 = (V 0).osc + T * n := by
  obtain ⟨a1, a2, a3, a4, a5⟩ := run_start (ctr := ctr) (mip := mip) (T := T) hW hP h0 h1 hφ h
  have := (trace_plays hC hW hc hmip hP h0 h1 hT hφ hvs hcl h B 0 a1 a2 a3 a4 a5).1 (2 ^ (k - mip) * n) hn (by simp)
  rw [Nat.zero_add, Nat.mul_div_cancel_left _ (Nat.two_pow_pos _)] at this
  exact this

/-- **C166 (the wave)**: at steady settings the level after impulse `n` is sample `n` modulo the length of the (mip-mapped) table, morphed and bent, for ever, whatever the horizontal skew does. -/
theorem C166_wave {ctr : ℝ → ℝ} (hC : Spec.Tuned ctr) {W : WTab} {k mip : ℕ} (hW : Spec.TabOk W k) {c : SupCfg} (hc : Spec.CfgOk c) (hmip : mipFor (1 / (W.len : ℝ) * c.inv) W.len = mip) {P : ℕ → WPar} (hP : ∀ t, Spec.WParOk (P t))
    {stereo : Bool} {m T φ vs cl : ℝ} (h0 : 0 ≤ m) (h1 : m ≤ 1) (hT : ∀ t, (P t).period = T) (hφ : ∀ t, (P t).formant = φ) (hvs : ∀ t, (P t).vskew = vs) (hcl : ∀ t, (P t).clip = cl) {S : ℕ → WShare} {V : ℕ → WVoice} {H : ℕ → List Hit}
    (h : Spec.WRun ctr W (fun _ => c) P stereo (fun _ => m) S V H) (B n : ℕ) (hn : n < (Spec.heights 0 (Spec.trace (fun _ => c) H B)).length) :
    (Spec.heights 0 (Spec.trace (fun _ => c) H B))[n] = Spec.sample W vs cl ⌊Spec.morph W m⌋ (Int.fract (Spec.morph W m)) mip (n % 2 ^ (k - mip)) := by
  obtain ⟨a1, a2, a3, a4, a5⟩ := run_start (ctr := ctr) (mip := mip) (T := T) hW hP h0 h1 hφ h
  have := (trace_plays hC hW hc hmip hP h0 h1 hT hφ hvs hcl h B 0 a1 a2 a3 a4 a5).2
  rw [h.state.2.2] at this
  have := this n hn
  rw [Nat.zero_add] at this
  exact this

/-- **C165 (a steady note plays for ever)**: from every start of a note with a steady morph and formant, every block ends and none aborts, at every history of pitches, skews, clips and periods. -/
theorem C165_plays {ctr : ℝ → ℝ} (hC : Spec.Tuned ctr) {W : WTab} {k : ℕ} (hW : Spec.TabOk W k) {c : ℕ → SupCfg} (hc : ∀ t, Spec.CfgOk (c t)) {P : ℕ → WPar} (hP : ∀ t, Spec.WParOk (P t)) (stereo : Bool) {m φ : ℝ} (h0 : 0 ≤ m)
    (h1 : m ≤ 1) (hφ : ∀ t, (P t).formant = φ) {x : ℝ} (hx : 0 ≤ x) : ∃ S V H, (V 0).osc = x ∧ Spec.WRun ctr W c P stereo (fun _ => m) S V H := by
  classical
  let Inv : WShare × WVoice → Prop := fun q => ShareOk W φ q.1 ∧ VoiceOk k q.2 ∧ q.1.tid = ⌊Spec.morph W m⌋ ∧ q.1.ipol = Int.fract (Spec.morph W m)
  have one : ∀ t q, Inv q → ∃ r : WShare × WVoice × List Hit, (∃ n, wfill ctr W (c t) (P t) stereo false n (updateTables W false m q.1) q.2 = some (.ok r)) ∧ Inv (r.1, r.2.1) := by
    rintro t ⟨s, v⟩ ⟨g1, g2, g3, g4⟩
    simp only at g1 g2 g3 g4 ⊢
    rw [update_steady hW.tables h0 h1 g3 g4]
    obtain ⟨n, hn⟩ := exists_nat_gt (((c t).a - v.osc) / ((P t).period * (ctr (-φ) / (8 * (2 ^ k : ℝ) ^ 5))))
    have δ : 0 < (P t).period * (ctr (-φ) / (8 * (2 ^ k : ℝ) ^ 5)) := mul_pos (hP t).period (div_pos (hC.pos _) (by positivity))
    rw [div_lt_iff₀ δ] at hn
    obtain ⟨s', v', hs, a1, a2, a3, a4, a5, a6⟩ := wfill_ends hC hW (hc t) (hP t) stereo (hφ t).le n ⟨s.hskew, s.formantLast, s.tid, s.tid, s.ipol, s.ipol, s.loops⟩ v
      ⟨g1.hskew, g1.formant, g1.tid, g1.ipol, ⟨g1.ipol.1, g1.ipol.2.le⟩⟩ g2 (Or.inl g1.ipol.2) hn.le
    exact ⟨(s', v', hs), ⟨n + 1, a1 (n + 1) (by omega)⟩, a2, a3, by rw [a4]; exact g3, by rw [a5]; exact g4⟩
  let s0 : WShare := ⟨0, φ, ⌊Spec.morph W m⌋, ⌊Spec.morph W m⌋, Int.fract (Spec.morph W m), Int.fract (Spec.morph W m), 0⟩
  let v0 : WVoice := ⟨0, 0, x, 0⟩
  obtain ⟨a, b, d, e⟩ := morph_range hW.tables h0 h1
  have f0 := (hP 0).formant
  rw [hφ 0] at f0
  have i0 : Inv (s0, v0) := ⟨⟨⟨by show (-1 : ℝ) ≤ 0; norm_num, by show (0 : ℝ) ≤ 1; norm_num⟩, ⟨f0, le_rfl⟩, ⟨a, b⟩, ⟨d, e⟩, ⟨d, e.le⟩⟩, ⟨by show 0 + 1 ≤ k; have := hW.k1; omega, Nat.two_pow_pos _, hx⟩, rfl, rfl⟩
  let res : ℕ → WShare × WVoice → WShare × WVoice × List Hit := fun t q => if h : Inv q then (one t q h).choose else (q.1, q.2, [])
  have rs : ∀ t q, Inv q → (∃ n, wfill ctr W (c t) (P t) stereo false n (updateTables W false m q.1) q.2 = some (.ok (res t q))) ∧ Inv ((res t q).1, (res t q).2.1) := by
    intro t q hq
    have e : res t q = (one t q hq).choose := dif_pos hq
    rw [e]
    exact (one t q hq).choose_spec
  let Q : ℕ → WShare × WVoice := fun t => Nat.rec (s0, v0) (fun t q => ((res t q).1, (res t q).2.1)) t
  have gQ : ∀ t, Inv (Q t) := by
    intro t
    induction t with
    | zero => exact i0
    | succ t ih => exact (rs t (Q t) ih).2
  refine ⟨fun t => (Q t).1, fun t => (Q t).2, fun t => (res t (Q t)).2.2, rfl, ?_, ⟨rfl, rfl, rfl⟩, hx, fun t => (rs t (Q t) (gQ t)).1⟩
  rw [hφ 0]
  exact start_ok hW h0 h1

/-- **C166 (refuted: the samples)**: the 16-bit samples are used as they are, not as fractions of full scale, and clipped to ±1: at neutral settings all that is left of a table is the signs of its samples. -/
theorem C166_scale_refuted (W : WTab) (tid : ℤ) (mip i : ℕ) : Spec.sample W 0 0 tid 0 mip i = ((W.val mip tid.toNat i).sign : ℝ) := by
  unfold Spec.sample distort
  simp only [sub_zero, one_mul, zero_mul, mul_zero, add_zero, mul_one]
  generalize W.val mip tid.toNat i = z
  rcases lt_trichotomy z 0 with h | h | h
  · have : (z : ℝ) ≤ -1 := by exact_mod_cast (by omega : z ≤ -1)
    rw [Int.sign_eq_neg_one_of_neg h, max_eq_right this]; norm_num
  · subst h; norm_num
  · have : (1 : ℝ) ≤ z := by exact_mod_cast h
    rw [Int.sign_eq_one_of_pos h, max_eq_left (by linarith), min_eq_right this]; norm_num

/-- In particular a sine and a square with the same signs cannot be told apart. -/
theorem C166_same_refuted {W W' : WTab} (h : ∀ m t i, (W.val m t i).sign = (W'.val m t i).sign) (tid : ℤ) (mip i : ℕ) : Spec.sample W 0 0 tid 0 mip i = Spec.sample W' 0 0 tid 0 mip i := by
  rw [C166_scale_refuted, C166_scale_refuted, h]

/-! ## Morphing -/

/-- **C167 (in range)**: for every history of morphs the two tables exist and the place between them is in [0, 1]. -/
theorem C167_in_range {W : WTab} (h : 2 ≤ W.tables) {shape : ℝ} (h0 : 0 ≤ shape) (h1 : shape ≤ 1) {s : WShare} (ht : 0 ≤ s.tid ∧ s.tid + 2 ≤ W.tables) (hi : 0 ≤ s.ipol ∧ s.ipol ≤ 1) :
    (0 ≤ (updateTables W false shape s).tid ∧ (updateTables W false shape s).tid + 2 ≤ W.tables) ∧ (0 ≤ (updateTables W false shape s).ipol ∧ (updateTables W false shape s).ipol ≤ 1) ∧
    0 ≤ (updateTables W false shape s).lastIpol ∧ (updateTables W false shape s).lastIpol ≤ 1 := by
  obtain ⟨a, b, d, e⟩ := morph_range h h0 h1
  have t := tid_eq h h0 h1
  unfold updateTables split
  simp only
  rw [show shape * (((W.tables : ℝ) - 1) * 0.999990) = Spec.morph W shape from rfl, t, if_neg (by omega), if_neg (by decide)]
  have f : Spec.morph W shape - ⌊Spec.morph W shape⌋ = Int.fract (Spec.morph W shape) := rfl
  rw [f]
  split
  · split
    · exact ⟨ht, ⟨by norm_num, le_rfl⟩, hi⟩
    · exact ⟨⟨a, b⟩, ⟨d, e.le⟩, le_rfl, by norm_num⟩
  · split
    · split
      · exact ⟨ht, ⟨le_rfl, by norm_num⟩, hi⟩
      · exact ⟨⟨a, b⟩, ⟨d, e.le⟩, by norm_num, le_rfl⟩
    · exact ⟨⟨a, b⟩, ⟨d, e.le⟩, hi⟩

/-- Where the sound stands among the tables at the end of a block. -/
noncomputable def Spec.endPlace (s : WShare) : ℝ := s.tid + s.ipol

/-- Where it stands at the beginning. -/
noncomputable def Spec.startPlace (s : WShare) : ℝ := s.tid + s.lastIpol

/-- **C167 (no click within a table)**: while the morph stays between the same two tables, a block begins where the last one ended and ends at the place asked for. -/
theorem C167_smooth_partial {W : WTab} (h : 2 ≤ W.tables) {shape : ℝ} (h0 : 0 ≤ shape) (h1 : shape ≤ 1) {s : WShare} (ht : s.tid = ⌊Spec.morph W shape⌋) :
    Spec.startPlace (updateTables W false shape s) = Spec.endPlace s ∧ Spec.endPlace (updateTables W false shape s) = Spec.morph W shape := by
  obtain ⟨a, b, d, e⟩ := morph_range h h0 h1
  have t := tid_eq h h0 h1
  unfold updateTables split
  simp only
  rw [show shape * (((W.tables : ℝ) - 1) * 0.999990) = Spec.morph W shape from rfl, t, if_neg (by omega), if_neg (by decide), ht, if_neg (lt_irrefl _), if_neg (lt_irrefl _)]
  unfold Spec.startPlace Spec.endPlace
  rw [ht]
  exact ⟨rfl, by ring⟩

/-- **C167 (refuted: clicks)**: whenever the morph rises into another pair of tables, the block begins at the lower of the new tables and not where the last one ended; when it falls, at the upper one.  (The comparisons with 1 and 0 in
update_tables.rs 38 and 49 are the wrong way round.) -/
theorem C167_clicks_refuted {W : WTab} (h : 2 ≤ W.tables) {shape : ℝ} (h0 : 0 ≤ shape) (h1 : shape ≤ 1) {s : WShare} (ht : 0 ≤ s.tid ∧ s.tid + 2 ≤ W.tables) (hi : eps ≤ s.ipol ∧ s.ipol ≤ 1 - eps) :
    (s.tid < ⌊Spec.morph W shape⌋ → Spec.startPlace (updateTables W false shape s) = ⌊Spec.morph W shape⌋ ∧ Spec.endPlace s + eps ≤ Spec.startPlace (updateTables W false shape s)) ∧
    (⌊Spec.morph W shape⌋ < s.tid → Spec.startPlace (updateTables W false shape s) = ⌊Spec.morph W shape⌋ + 1 ∧ Spec.startPlace (updateTables W false shape s) + eps ≤ Spec.endPlace s) := by
  obtain ⟨a, b, d, e⟩ := morph_range h h0 h1
  have t := tid_eq h h0 h1
  have ep : 0 < eps := by unfold eps; norm_num
  have n1 : ¬|s.ipol - 1| < eps := by rw [abs_lt]; rintro ⟨x, _⟩; linarith [hi.2]
  have n2 : ¬|s.ipol - 0| < eps := by rw [abs_lt]; rintro ⟨_, x⟩; linarith [hi.1]
  constructor <;> intro l
  · have u : (s.tid : ℝ) + 1 ≤ ⌊Spec.morph W shape⌋ := by exact_mod_cast l
    unfold updateTables split
    simp only
    rw [show shape * (((W.tables : ℝ) - 1) * 0.999990) = Spec.morph W shape from rfl, t, if_neg (by omega), if_neg (by decide), if_pos l, if_neg n1]
    unfold Spec.startPlace Spec.endPlace
    simp only [add_zero, true_and]
    linarith [hi.2]
  · have u : ((⌊Spec.morph W shape⌋ : ℤ) : ℝ) + 1 ≤ s.tid := by exact_mod_cast l
    unfold updateTables split
    simp only
    rw [show shape * (((W.tables : ℝ) - 1) * 0.999990) = Spec.morph W shape from rfl, t, if_neg (by omega), if_neg (by decide), if_neg (by omega), if_pos l, if_neg n2]
    unfold Spec.startPlace Spec.endPlace
    simp only [true_and]
    linarith [hi.1]

/-- **C167 (refuted: aborts)**: and if a voice has an impulse at the very beginning of the block in which the morph falls into another pair of tables, the block aborts (`lerp` does not accept 1). -/
theorem C167_abort_refuted {ctr : ℝ → ℝ} {W : WTab} {k : ℕ} (hW : Spec.TabOk W k) {c : SupCfg} (hc : Spec.CfgOk c) {P : WPar} (hP : Spec.WParOk P) (stereo : Bool) {shape : ℝ} (h0 : 0 ≤ shape) (h1 : shape ≤ 1) {M : ℝ}
    (hM : P.formant ≤ M) {s : WShare} (hs : ShareOk W M s) (hi : eps ≤ s.ipol) (hf : ⌊Spec.morph W shape⌋ < s.tid) {v : WVoice} (hv : VoiceOk k v) (ho : v.osc = 0) (n : ℕ) :
    wfill ctr W c P stereo false (n + 1) (updateTables W false shape s) v = some (.panic "assertion failed: valid_range.contains(&Some(x))") := by
  obtain ⟨a, b, d, e⟩ := morph_range hW.tables h0 h1
  have t := tid_eq hW.tables h0 h1
  have n2 : ¬|s.ipol - 0| < eps := by rw [abs_lt]; rintro ⟨_, x⟩; linarith
  have up : updateTables W false shape s = ⟨s.hskew, s.formantLast, ⌊Spec.morph W shape⌋, s.tid, Int.fract (Spec.morph W shape), 1, s.loops⟩ := by
    have := hs.tid
    unfold updateTables split
    simp only
    rw [show shape * (((W.tables : ℝ) - 1) * 0.999990) = Spec.morph W shape from rfl, t, if_neg (by omega), if_neg (by decide), if_neg (by omega), if_pos hf, if_neg n2]
    rfl
  rw [up]
  set s' : WShare := ⟨s.hskew, s.formantLast, ⌊Spec.morph W shape⌋, s.tid, Int.fract (Spec.morph W shape), 1, s.loops⟩ with hs'
  have sok : ShareOk W M s' := ⟨hs.hskew, hs.formant, ⟨a, b⟩, ⟨d, e⟩, ⟨by show (0 : ℝ) ≤ 1; norm_num, le_rfl⟩⟩
  obtain ⟨l1, l2, l3, l4, l5, l6, l7, l8⟩ := latch_ok hW c hP hM sok hv
  have la : (if v.state = 0 then cycleStart W c P false s' v else (s', v)) = latch W c P s' v := rfl
  have fz : v.osc * (1 / 64) * c.inv = 0 := by rw [ho]; ring
  have d' : W.len / 2 ^ (latch W c P s' v).2.mip = 2 ^ (k - (latch W c P s' v).2.mip) := by rw [hW.len]; exact Nat.pow_div (by have := l2.mip; omega) (by decide)
  have nl : newLevel W P (latch W c P s' v).1 (latch W c P s' v).2.mip v.state 0 = .panic "assertion failed: valid_range.contains(&Some(x))" := by
    unfold newLevel
    rw [show lerpR 0 (latch W c P s' v).1.lastIpol (latch W c P s' v).1.ipol = .ok 1 by unfold lerpR; rw [if_pos (by norm_num), l8]; simp [hs']]
    have ti := l1.tid
    rw [← l4]
    simp only [bind, Res.bind]
    rw [get_ok hW l2.mip ti.1 (by omega) l2.state, get_ok hW l2.mip (by omega) (by omega) l2.state]
    simp only
    unfold lerpR
    rw [if_neg (by norm_num)]
  rw [wfill, if_pos (by rw [ho]; exact hc.1)]
  have ec : wconvolute ctr W c P stereo false s' v = .panic "assertion failed: valid_range.contains(&Some(x))" := by
    unfold wconvolute
    simp only [la, fz]
    rw [show ∀ x y, lerpR 0 x y = .ok x by intro x y; unfold lerpR; rw [if_pos (by norm_num)]; simp]
    simp only [d', l4, Nat.and_two_pow_sub_one_eq_mod, Nat.mod_eq_of_lt (l4 ▸ l2.state)]
    simp only [bind, Res.bind, nl]
  rw [ec]

/-- **C168 (refuted)**: a wavetable oscillator cannot be created: its first table is a single one, and `n_tables - 2` underflows. -/
theorem C168_create_refuted (isSample : Bool) (morph formant : ℝ) (loops : ℤ) : wtNew isSample morph formant loops = .panic "attempt to subtract with overflow" := by
  unfold wtNew setTable split
  simp only
  rw [if_pos (by show 1 < 2; decide)]

/-- **C168 (refuted, playing)**: and when a file with a single table is loaded while a note plays, the next impulse looks for a second table and aborts. -/
theorem C168_one_table_refuted {ctr : ℝ → ℝ} {W : WTab} {k : ℕ} (hl : W.len = 2 ^ k) (hk : 1 ≤ k ∧ k ≤ 16) (hv1 : W.levels = Wavetable.requiredMipmapLevels W.len) (h : W.tables = 1) {c : SupCfg} (hc : Spec.CfgOk c) {P : WPar} (stereo : Bool) (shape : ℝ)
    (s : WShare) {v : WVoice} (hv : VoiceOk k v) (h1 : v.osc < c.a) (n : ℕ) : wfill ctr W c P stereo false (n + 1) (updateTables W false shape s) v = some (.panic "index out of bounds") := by
  have up : updateTables W false shape s = ⟨s.hskew, s.formantLast, 0, 0, 0, 0, s.loops⟩ := by unfold updateTables; rw [if_pos (Or.inl h)]
  rw [up, wfill, if_pos h1]
  obtain ⟨f0, f1, _⟩ := frac_range hc hv.osc h1
  have nl : ∀ (s' : WShare) (mip i : ℕ), s'.tid = 0 → mip < W.levels → i < W.len → newLevel W P s' mip i (frac c v.osc) = .panic "index out of bounds" := by
    intro s' mip i e hm hi
    unfold newLevel lerpR
    rw [if_pos ⟨f0, f1⟩]
    simp only [bind, Res.bind, e]
    unfold WTab.get
    rw [if_pos ⟨hm, le_rfl, by rw [h]; decide, hi⟩]
    simp only
    rw [if_neg (by rw [h]; rintro ⟨_, _, x, _⟩; norm_num at x)]
  have lv : W.levels = k := by rw [hv1, hl, Wavetable.C81_levels_pow2 k hk.1 hk.2]
  have key : ∀ q : WShare × WVoice, q.1.tid = 0 → q.2.mip + 1 ≤ k → (if v.state = 0 then cycleStart W c P false ⟨s.hskew, s.formantLast, 0, 0, 0, 0, s.loops⟩ v else (⟨s.hskew, s.formantLast, 0, 0, 0, 0, s.loops⟩, v)) = q →
      wconvolute ctr W c P stereo false ⟨s.hskew, s.formantLast, 0, 0, 0, 0, s.loops⟩ v = .panic "index out of bounds" := by
    intro q q1 q2 e
    unfold wconvolute
    rw [e]
    simp only
    rw [show lerpR (v.osc * (1 / 64) * c.inv) q.1.formantLast P.formant = .ok ((1 - frac c v.osc) * q.1.formantLast + frac c v.osc * P.formant) from if_pos ⟨f0, f1⟩]
    simp only [bind, Res.bind]
    have dd : W.len / 2 ^ q.2.mip = 2 ^ (k - q.2.mip) := by rw [hl]; exact Nat.pow_div (by omega) (by decide)
    rw [dd, Nat.and_two_pow_sub_one_eq_mod, show v.osc * (1 / 64) * c.inv = frac c v.osc from rfl, nl q.1 _ _ q1 (by rw [lv]; omega) (by
      rw [hl]; exact lt_of_lt_of_le (Nat.mod_lt _ (Nat.two_pow_pos _)) (Nat.pow_le_pow_right (by decide) (by omega)))]
  have mf := mipFor_lt (a := 1 / (W.len : ℝ) * c.inv) hk.1
  rw [← hl] at mf
  by_cases z : v.state = 0
  · rw [key _ (by rw [if_pos z]; rfl) (by rw [if_pos z]; exact mf) rfl]
  · rw [key _ (by rw [if_neg z]) (by rw [if_neg z]; exact hv.mip) rfl]

/-! ## One-shot samples -/

/-- The cycles of a one-shot sample: the tables played, until it is over. -/
def Spec.played (tables : ℕ) : ℕ → ℤ → ℤ → List ℤ
  | 0, _, _ => []
  | n + 1, tid, loops =>
    match sampleNext tables tid loops with
    | (_, _, true) => []
    | (t, l, false) => t :: Spec.played tables n t l

theorem played_loop {m : ℕ} (hm : 0 < m) {L : ℤ} (hL : 0 < L) : ∀ (n i : ℕ), i ≤ m → 
    (L < 7 → Spec.played (m + 2) n ((i : ℤ) - 1) L = (List.range (min n (m * (L.toNat - 1) + (m - i)))).map (fun j => (((i + j) % m : ℕ) : ℤ))) ∧
    (7 ≤ L → Spec.played (m + 2) n ((i : ℤ) - 1) L = (List.range n).map (fun j => (((i + j) % m : ℕ) : ℤ)))
  | 0, i, _ => by simp [Spec.played]
  | n + 1, i, hi => by
    have shift : ∀ (i' n' : ℕ), (i' % m = (i + 1) % m) → (List.range (n' + 1)).map (fun j => (((i + j) % m : ℕ) : ℤ)) = ((i % m : ℕ) : ℤ) :: (List.range n').map (fun j => (((i' + j) % m : ℕ) : ℤ)) := by
      intro i' n' e
      rw [List.range_succ_eq_map, List.map_cons, List.map_map]
      congr 1
      refine List.map_congr_left fun j _ => ?_
      show (((i + (j + 1)) % m : ℕ) : ℤ) = (((i' + j) % m : ℕ) : ℤ)
      have : (i + (j + 1)) % m = (i' + j) % m := by rw [show i + (j + 1) = i + 1 + j by omega, Nat.add_mod, ← e, ← Nat.add_mod]
      rw [this]
    by_cases c : i = m
    · subst c
      have cond : (i : ℤ) - 1 + 1 > ((i + 2 : ℕ) : ℤ) - 3 := by push_cast; omega
      constructor
      · intro hL7
        by_cases one : L = 1
        · subst one
          have e : sampleNext (i + 2) ((i : ℤ) - 1) 1 = (((i + 2 : ℕ) : ℤ) - 2, 0, true) := by unfold sampleNext; rw [if_pos cond]; rfl
          rw [Spec.played, e]
          simp
        · have e : sampleNext (i + 2) ((i : ℤ) - 1) L = (0, L - 1, false) := by
            unfold sampleNext
            rw [if_pos cond]
            simp only
            rw [if_pos hL7, if_pos (by omega)]
          have r := (played_loop hm (L := L - 1) (by omega) n 1 (by omega)).1 (by omega)
          simp only [Nat.cast_one, sub_self] at r
          rw [Spec.played, e]
          simp only
          rw [r]
          have q : min (n + 1) (i * (L.toNat - 1) + (i - i)) = min n (i * ((L - 1).toNat - 1) + (i - 1)) + 1 := by
            obtain ⟨l, hl⟩ : ∃ l : ℕ, L = l + 2 := ⟨(L - 2).toNat, by omega⟩
            subst hl
            have e1 : ((l : ℤ) + 2).toNat - 1 = l + 1 := by omega
            have e2 : ((l : ℤ) + 2 - 1).toNat - 1 = l := by omega
            rw [e1, e2, Nat.mul_succ]
            omega
          rw [q, shift 1 _ (by rw [Nat.add_mod_left])]
          rw [Nat.mod_self]
          rfl
      · intro hL7
        have e : sampleNext (i + 2) ((i : ℤ) - 1) L = (0, L, false) := by
          unfold sampleNext
          rw [if_pos cond]
          simp only
          rw [if_neg (show ¬L < 7 by omega), if_pos hL]
        have r := (played_loop hm hL n 1 (by omega)).2 hL7
        simp only [Nat.cast_one, sub_self] at r
        rw [Spec.played, e]
        simp only
        rw [r, shift 1 _ (by rw [Nat.add_mod_left]), Nat.mod_self]
        rfl
    · have cond : ¬(i : ℤ) - 1 + 1 > ((m + 2 : ℕ) : ℤ) - 3 := by push_cast; omega
      have e : sampleNext (m + 2) ((i : ℤ) - 1) L = ((i : ℤ), L, false) := by unfold sampleNext; rw [if_neg cond, sub_add_cancel]
      have r := played_loop hm hL n (i + 1) (by omega)
      have ei : ((i + 1 : ℕ) : ℤ) - 1 = i := by push_cast; ring
      rw [ei] at r
      have im : i % m = i := Nat.mod_eq_of_lt (by omega)
      constructor
      · intro hL7
        rw [Spec.played, e]
        simp only
        rw [r.1 hL7]
        have q : min (n + 1) (m * (L.toNat - 1) + (m - i)) = min n (m * (L.toNat - 1) + (m - (i + 1))) + 1 := by omega
        rw [q, shift (i + 1) _ rfl, im]
      · intro hL7
        rw [Spec.played, e]
        simp only
        rw [r.2 hL7, shift (i + 1) _ rfl, im]

/-- **C169**: a one-shot sample started from its beginning plays its tables (all but the last two) in order, as many times as the unison count says, and is then over; from 7 on it loops for ever. -/
theorem C169_loops {m : ℕ} (hm : 0 < m) {L : ℤ} (hL : 0 < L) (n : ℕ) :
    (L < 7 → Spec.played (m + 2) n (-1) L = (List.range (min n (m * L.toNat))).map (fun j => ((j % m : ℕ) : ℤ))) ∧ (7 ≤ L → Spec.played (m + 2) n (-1) L = (List.range n).map (fun j => ((j % m : ℕ) : ℤ))) := by
  have r := played_loop hm hL n 0 (by omega)
  have e : ((0 : ℕ) : ℤ) - 1 = -1 := rfl
  rw [e] at r
  refine ⟨fun h => ?_, fun h => by simpa using r.2 h⟩
  have q : m * (L.toNat - 1) + (m - 0) = m * L.toNat := by
    obtain ⟨l, hl⟩ : ∃ l : ℕ, L = l + 1 := ⟨(L - 1).toNat, by omega⟩
    subst hl
    have e1 : ((l : ℤ) + 1).toNat - 1 = l := by omega
    have e2 : ((l : ℤ) + 1).toNat = l + 1 := by omega
    rw [e1, e2, Nat.mul_succ]; rfl
  rw [r.1 h, q]
  simp

/-! ## Stereo -/

/-- **C170 (refuted)**: whatever the panning of the voices, left and right are the same: the height for the right channel is computed from the left panning (convolute.rs 92-98, stereo.rs 19-23), and so with any
kernel all impulses of all voices, and all samples of the sound, agree. -/
theorem C170_mono_refuted {ctr : ℝ → ℝ} {W : WTab} {nv : ℕ} {c : ℕ → SupCfg} {P : Fin nv → ℕ → WPar} {shape : ℕ → ℝ} {S : Fin nv → ℕ → WShare} {V : Fin nv → ℕ → WVoice} {H : Fin nv → ℕ → List Hit}
    (h : ∀ i, Spec.WRun ctr W c (P i) true shape (S i) (V i) (H i)) {table : ℕ → ℝ} {k : ℕ → Coef} {B : ℕ → Blit} {out : ℕ → List (ℝ × ℝ)}
    (hd : ∀ t, ∀ p ∈ (List.finRange nv).flatMap (fun i => (H i t).map Hit.pulse), p.delay < 64) (hB : Spec.BlitRun table true k (fun t => (List.finRange nv).flatMap fun i => (H i t).map Hit.pulse) B out) (t : ℕ) :
    (out t).map Prod.fst = (out t).map Prod.snd := by
  obtain ⟨a, b⟩ := C161_superposition hd hB t
  rw [a, b rfl]
  have eq : ∀ t, ∀ p ∈ (List.finRange nv).flatMap (fun i => (H i t).map Hit.pulse), p.gl = p.gr := by
    intro t p hp
    obtain ⟨i, _, hp⟩ := List.mem_flatMap.1 hp
    obtain ⟨x, hx, rfl⟩ := List.mem_map.1 hp
    obtain ⟨n, e⟩ := (h i).step t
    exact (wfill_level e).1 x hx
  have pu : ∀ T n, Spec.pulses table (fun t => (List.finRange nv).flatMap fun i => (H i t).map Hit.pulse) Pulse.gl T n = Spec.pulses table (fun t => (List.finRange nv).flatMap fun i => (H i t).map Hit.pulse) Pulse.gr T n := by
    intro T n
    unfold Spec.pulses
    refine Finset.sum_congr rfl fun t _ => ?_
    congr 1
    exact List.map_congr_left fun p hp => by rw [eq t p hp]
  have lv : ∀ n, Spec.level table k (fun t => (List.finRange nv).flatMap fun i => (H i t).map Hit.pulse) Pulse.gl n = Spec.level table k (fun t => (List.finRange nv).flatMap fun i => (H i t).map Hit.pulse) Pulse.gr n := by
    intro n
    induction n with
    | zero => rfl
    | succ n ih => rw [Spec.level, Spec.level, ih, pu]
  have sd : ∀ n, Spec.sound table k (fun t => (List.finRange nv).flatMap fun i => (H i t).map Hit.pulse) Pulse.gl n = Spec.sound table k (fun t => (List.finRange nv).flatMap fun i => (H i t).map Hit.pulse) Pulse.gr n := by
    intro n
    induction n with
    | zero => rfl
    | succ n ih => rw [Spec.sound, Spec.sound, ih, lv, lv]
  exact List.map_congr_left fun j _ => sd _

/-! ## Examples -/

/-- Standard tuning's formant factor. -/
theorem tuned_standard : Spec.Tuned fun x => (2 : ℝ) ^ (x / 12) := by
  refine ⟨fun x => by positivity, fun x y h => ?_, by norm_num⟩
  exact Real.rpow_le_rpow_of_exponent_le (by norm_num) (by linarith)

/-- Non-vacuity: a table of 5 waves with 1024 samples, with full skew and formant. -/
example : Spec.TabOk ⟨10, 5, 1024, fun _ t i => (i : ℤ) * t - 512⟩ 10 ∧ Spec.WParOk ⟨-1, 0.5, -8, 24, 1, 1, 0.3, 0.7⟩ ∧ Spec.CfgOk ⟨64 * (1 / 200), 200⟩ ∧ mipFor (1 / ((1024 : ℕ) : ℝ) * 200) 1024 = 3 := by
  refine ⟨⟨rfl, by decide, by decide, by decide +kernel, by decide⟩, ⟨by norm_num, by norm_num, by norm_num⟩, ⟨by norm_num, by norm_num⟩, ?_⟩
  unfold mipFor
  norm_num

/-- Non-vacuity of the clicks: from halfway between tables 0 and 1 to halfway between tables 2 and 3 of 5. -/
example : ⌊Spec.morph ⟨10, 5, 1024, fun _ _ _ => 0⟩ 0.6⌋ = 2 := by
  rw [Int.floor_eq_iff]
  unfold Spec.morph
  norm_num

/-- A sample of 4 tables, played twice: tables 0, 1, 0, 1. -/
example : Spec.played 4 10 (-1) 2 = [0, 1, 0, 1] := by decide +kernel

end Verif.Osc
