import Verif.Wavetable.Load
import Mathlib.Data.Nat.ModEq
import Mathlib.Algebra.BigOperators.Group.Finset.Basic
import Mathlib.Algebra.BigOperators.Ring.Finset
import Mathlib.Tactic.Ring
import Mathlib.Tactic.IntervalCases
/-!
# The window oscillator (C175–C182), in the machine's integers

surgeosc-window/src/{init,access,formant,suboscs,subosc,process_block,process}.rs, surge-math/src/{mul,scan,limit_range}.rs.  The ratio (the phase step, process.rs 40-47, made from the pitch in floating point),
the truncated table number and the formant factor are given block by block.  A Rust panic is `.panic`.
Not modelled: the values of the reads (they come from a wild address, C178), fm (a null read comes first, as in C159), drift.
-/
namespace Verif.Osc
open Verif

/-- `T t`: the result of a call that may panic. -/
abbrev W := Res Empty

/-- The dimensions of the two wave tables (window.rs 29-30): the samples per table, the number of tables and the mip-map levels of the wave and of the window. -/
structure WinTabs where
  waveLen : ℕ
  waveTables : ℕ
  waveLevels : ℕ
  winLen : ℕ
  winTables : ℕ
  winLevels : ℕ

/-- new.rs 29-30, dim.rs 11-18: the tables of a new oscillator (which nothing replaces). -/
def WinTabs.default : WinTabs := ⟨1024, 1, 1, 1024, 1, 1⟩

/-- What the sub-oscillator sees in one block: `ratio[so]`, the table and `formant_mul` of this block, and the window. -/
structure WinPar where
  ratio : ℕ
  table : ℕ
  formant : ℕ
  window : ℕ

/-- One sub-oscillator: `pos`, `table`, `formant_mul`. -/
structure WinVoice where
  pos : ℕ
  table : ℕ
  formant : ℕ
deriving DecidableEq

/-- What one sample reads: the phase, the position and sub-sample position in the window and in the wave, the wave table read and the formant used. -/
structure WinRead where
  pos : ℕ
  winPos : ℕ
  winSub : ℕ
  wavePos : ℕ
  waveSub : ℕ
  table : ℕ
  formant : ℕ
deriving DecidableEq

/-- access.rs 5-14 `get_table`, given the truncation of `num_tables * morph`. -/
def getTable (num : ℕ) (t : ℤ) : ℤ := max (min t ((num : ℤ) - 1)) 0

/-- access.rs 16-24 `get_size_mask`, `get_size_mask_win`. -/
def sizeMask (len : ℕ) : W ℕ := subU32 (len * 2 ^ 16 % 2 ^ 32) 1

/-- mul.rs 7-11 `big_mul_r16`. -/
def bigMulR16 (a b : ℕ) : ℕ := a * b / 2 ^ 16 % 2 ^ 32

/-- limit_range.rs 49-52 for the mip-map level: `limit_range(msb - 17, 0, po2 - 1)`. -/
def mipLevel (msb po2 : ℕ) : W ℕ :=
  if po2 = 0 then .panic "usize subtract overflow" else .ok (max (min ((msb : ℤ) - 17) ((po2 : ℤ) - 1)) 0).toNat

/-- subosc.rs 52-65: the level of the window. -/
def mipWin (po2 ratio : ℕ) : W ℕ := do
  let x ← mulU32 3 ratio
  mipLevel (Wavetable.bitscanReverse x) po2

/-- subosc.rs 31-50: the level of the wave. -/
def mipWave (po2 ratio formant : ℕ) : W ℕ := do
  let t0 ← (chkI32 (3 * (formant : ℤ)) : W ℤ)
  mipLevel (Wavetable.bitscanReverse (bigMulR16 ratio t0.toNat)) po2

/-- process_block.rs 12-44: one sample.  `blk` is the table whose address was taken at the start of the block: the new address is kept for this sample only. -/
def WinVoice.step (maskWave maskWin mipA mipB blk : ℕ) (P : WinPar) (v : WinVoice) : W (WinVoice × WinRead) := do
  let p ← addU32 v.pos P.ratio
  let wraps := p &&& (2 ^ 32 - 1 - maskWin) ≠ 0
  let pos := if wraps then p &&& maskWin else p
  let formant := if wraps then P.formant else v.formant
  let table := if wraps then P.table else v.table
  let heard := if wraps then P.table else blk
  let f := bigMulR16 formant pos &&& maskWave
  .ok (⟨pos, table, formant⟩, ⟨pos, pos / 2 ^ (16 + mipA), pos / 2 ^ (8 + mipA) % 256, f / 2 ^ (16 + mipB), f / 2 ^ (8 + mipB) % 256, heard, formant⟩)

/-- process_block.rs, subosc.rs 99-103: the samples of a block, one after the other. -/
def WinVoice.steps (maskWave maskWin mipA mipB blk : ℕ) (P : WinPar) : ℕ → WinVoice → W (WinVoice × List WinRead)
  | 0, v => .ok (v, [])
  | n + 1, v => do
    let a ← v.step maskWave maskWin mipA mipB blk P
    let b ← a.1.steps maskWave maskWin mipA mipB blk P n
    .ok (b.1, a.2 :: b.2)

/-- subosc.rs 5-107 `process_sub_osc`: the table is replaced if it is gone, the levels are chosen, the addresses taken (out of range they panic), and the 64 samples of the block made. -/
def WinVoice.block (T : WinTabs) (P : WinPar) (v : WinVoice) : W (WinVoice × List WinRead) := do
  let maskWave ← sizeMask T.waveLen
  let maskWin ← sizeMask T.winLen
  let table := if v.table ≥ T.waveTables then P.table else v.table
  let mipB ← mipWave (Wavetable.bitscanReverse T.waveLen) P.ratio P.formant
  let mipA ← mipWin (Wavetable.bitscanReverse T.winLen) P.ratio
  if ¬ (mipB < T.waveLevels ∧ table < T.waveTables ∧ mipA < T.winLevels ∧ P.window < T.winTables) then .panic "ndarray: index out of bounds" else
  WinVoice.steps maskWave maskWin mipA mipB table P 64 ⟨v.pos, table, v.formant⟩

/-- init.rs 11-14: the number of sub-oscillators for a unison count (WINDOW_OSCILLATOR_NUM_SUBOSCS is 2). -/
def activeSubOscs (count : ℤ) : ℤ := max (min count (2 - 1)) 1

/-- formant.rs 5-24 `get_formant_mul`, given the truncation of `65536 * n2p_tuningctr(formant)` and the logarithms of the two lengths: their difference is taken as a `usize`. -/
def formantMul (m : ℤ) (po2Win po2Wave : ℕ) : W ℤ :=
  if po2Win < po2Wave then .panic "usize subtract overflow" else .ok (max (m / 2 ^ (po2Win - po2Wave)) 1)

/-- access.rs 31-46, 48-63: the address read, for a table whose first sample is `first`: the sample, as an address, plus 16 bytes a position. -/
def readAddress (first : ℤ) (pos : ℕ) : ℤ := first + 16 * pos

/-- process.rs 90-137: the conversion loop.  `cvt` is the conversion of one float's bits, as an integer, and its scaling; every turn reads the first four samples. -/
def convertLoop {α : Type} (cvt : α → α) : ℕ → ℕ → (ℕ → α) → (ℕ → α)
  | 0, _, out => out
  | n + 1, i, out => convertLoop cvt n (i + 4) (fun j => if i ≤ j ∧ j < i + 4 then cvt (out (j - i)) else out j)

/-! ## Specification -/
namespace Spec

/-- The oscillator plays block after block: `V t` is the state before block `t` and `R t` what it reads in it. -/
structure WinRun (T : WinTabs) (P : ℕ → WinPar) (V : ℕ → WinVoice) (R : ℕ → List WinRead) : Prop where
  next : ∀ t, (V t).block T (P t) = .ok (V (t + 1), R t)

/-- Tables of `2 ^ kw` samples (wave) and `2 ^ k` (window), with all their levels. -/
structure WinTabsOk (T : WinTabs) (kw k : ℕ) : Prop where
  wave : T.waveLen = 2 ^ kw
  win : T.winLen = 2 ^ k
  wave1 : 1 ≤ kw
  wave2 : kw ≤ 14
  win1 : 1 ≤ k
  win2 : k ≤ 14
  waveLevels : kw ≤ T.waveLevels
  winLevels : k ≤ T.winLevels

/-- A block's parameters within their ranges. -/
structure WinParOk (T : WinTabs) (P : WinPar) : Prop where
  ratio : P.ratio < 2 ^ 30
  table : P.table < T.waveTables
  formant1 : 1 ≤ P.formant
  formant2 : P.formant < 2 ^ 29
  window : P.window < T.winTables

/-- The phase before sample `i` of block `t`, never reduced: the start, and one ratio for each sample since. -/
def winPhase (P : ℕ → WinPar) (start t i : ℕ) : ℕ := start + 64 * (∑ s ∈ Finset.range t, (P s).ratio) + i * (P t).ratio

/-- The phase before sample `i` of a block, as it was read by the sample before. -/
def before (v : WinVoice) (r : List WinRead) (i : ℕ) : ℕ := if i = 0 then v.pos else (r.getD (i - 1) ⟨0, 0, 0, 0, 0, 0, 0⟩).pos

/-- The formant of the sample before. -/
def formantBefore (v : WinVoice) (r : List WinRead) (i : ℕ) : ℕ := if i = 0 then v.formant else (r.getD (i - 1) ⟨0, 0, 0, 0, 0, 0, 0⟩).formant

end Spec

/-! ## Lemmas -/

theorem land_mask (x k : ℕ) : x &&& (2 ^ k - 1) = x % 2 ^ k := Nat.and_two_pow_sub_one_eq_mod x k

/-- The bits outside the mask are zero exactly if the number is below the size. -/
theorem outside_mask {x k : ℕ} (hx : x < 2 ^ 32) (hk : k ≤ 32) : x &&& (2 ^ 32 - 1 - (2 ^ k - 1)) = 0 ↔ x < 2 ^ k := by
  have e : 2 ^ 32 - 1 - (2 ^ k - 1) = 2 ^ k * (2 ^ (32 - k) - 1) := by
    rw [Nat.mul_sub, ← pow_add, Nat.add_sub_cancel' hk]
    have := Nat.one_le_two_pow (n := k)
    omega
  rw [e]
  constructor
  · intro h
    by_contra hn
    push Not at hn
    have hq : 0 < x / 2 ^ k := Nat.div_pos hn (by positivity)
    have : (x &&& 2 ^ k * (2 ^ (32 - k) - 1)) / 2 ^ k = x / 2 ^ k := by
      rw [← Nat.shiftRight_eq_div_pow, Nat.shiftRight_and_distrib, Nat.shiftRight_eq_div_pow, Nat.shiftRight_eq_div_pow, Nat.mul_div_cancel_left _ (by positivity), land_mask]
      exact Nat.mod_eq_of_lt (by
        rw [Nat.div_lt_iff_lt_mul (by positivity), ← pow_add, Nat.sub_add_cancel hk]
        exact hx)
    rw [h] at this
    simp at this
    omega
  · intro h
    apply Nat.eq_of_testBit_eq
    intro i
    rw [Nat.testBit_and, Nat.zero_testBit]
    by_cases hi : i < k
    · rw [Nat.testBit_two_pow_mul]
      simp [hi]
    · rw [Nat.testBit_lt_two_pow (lt_of_lt_of_le h (Nat.pow_le_pow_right (by norm_num) (by omega)))]
      simp

theorem sizeMask_ok {len k : ℕ} (h : len = 2 ^ k) (hk : k ≤ 14) : sizeMask len = .ok (2 ^ (k + 16) - 1) := by
  unfold sizeMask subU32
  have h1 : len * 2 ^ 16 = 2 ^ (k + 16) := by rw [h, pow_add]
  have h2 : (2 : ℕ) ^ (k + 16) < 2 ^ 32 := Nat.pow_lt_pow_right (by norm_num) (by omega)
  rw [h1, Nat.mod_eq_of_lt h2, if_pos (Nat.one_le_two_pow)]

theorem mipLevel_lt {msb po2 m : ℕ} (h : mipLevel msb po2 = .ok m) : m < po2 := by
  unfold mipLevel at h
  split at h
  · cases h
  · cases h
    omega

theorem mipLevel_total {msb po2 : ℕ} (h : 1 ≤ po2) : ∃ m, mipLevel msb po2 = .ok m := ⟨_, if_neg (by omega)⟩

theorem mipWin_total {po2 ratio : ℕ} (h : 1 ≤ po2) (hr : ratio < 2 ^ 30) : ∃ m, mipWin po2 ratio = .ok m := by
  unfold mipWin mulU32
  rw [if_pos (by omega)]
  exact mipLevel_total h

theorem mipWave_total {po2 ratio formant : ℕ} (h : 1 ≤ po2) (hf : formant < 2 ^ 29) : ∃ m, mipWave po2 ratio formant = .ok m := by
  unfold mipWave chkI32
  rw [if_pos (by omega)]
  exact mipLevel_total h

/-- What a sample reads, given the phase and the formant of the sample before. -/
structure ReadOk (kw k mipA mipB blk : ℕ) (P : WinPar) (p0 f0 : ℕ) (r : WinRead) : Prop where
  pos : r.pos = (p0 + P.ratio) % 2 ^ (k + 16)
  table : r.table = if 2 ^ (k + 16) ≤ p0 + P.ratio then P.table else blk
  formant : r.formant = if 2 ^ (k + 16) ≤ p0 + P.ratio then P.formant else f0
  winPos : r.winPos = r.pos / 2 ^ (16 + mipA)
  winSub : r.winSub = r.pos / 2 ^ (8 + mipA) % 256
  wavePos : r.wavePos = bigMulR16 r.formant r.pos % 2 ^ (kw + 16) / 2 ^ (16 + mipB)
  waveSub : r.waveSub = bigMulR16 r.formant r.pos % 2 ^ (kw + 16) / 2 ^ (8 + mipB) % 256

/-- One sample, the masks being those of powers of two. -/
theorem step_eq {kw k mipA mipB blk : ℕ} {P : WinPar} {v : WinVoice} (hk : k ≤ 14) (hp : v.pos ≤ 2 ^ 31) (hr : P.ratio < 2 ^ 30) :
    ∃ w r, v.step (2 ^ (kw + 16) - 1) (2 ^ (k + 16) - 1) mipA mipB blk P = .ok (w, r) ∧ ReadOk kw k mipA mipB blk P v.pos v.formant r ∧ r.pos = w.pos ∧ r.formant = w.formant ∧ (w.table = v.table ∨ w.table = P.table) := by
  have h32 : v.pos + P.ratio < 2 ^ 32 := by omega
  unfold WinVoice.step addU32
  rw [if_pos h32, Res.ok_bind]
  have ho := outside_mask (x := v.pos + P.ratio) (k := k + 16) h32 (by omega)
  by_cases hw : 2 ^ (k + 16) ≤ v.pos + P.ratio
  · have h1 : ¬ (v.pos + P.ratio) &&& (2 ^ 32 - 1 - (2 ^ (k + 16) - 1)) = 0 := by rw [ho]; omega
    simp only [ne_eq, h1, not_false_eq_true, if_true, land_mask]
    refine ⟨_, _, rfl, ?_, rfl, rfl, Or.inr rfl⟩
    constructor <;> simp only [hw, if_true]
  · have h1 : (v.pos + P.ratio) &&& (2 ^ 32 - 1 - (2 ^ (k + 16) - 1)) = 0 := by rw [ho]; omega
    simp only [ne_eq, h1, not_true_eq_false, if_false, land_mask]
    refine ⟨_, _, rfl, ?_, rfl, rfl, Or.inl rfl⟩
    constructor <;> simp only [hw, if_false]
    exact (Nat.mod_eq_of_lt (a := v.pos + P.ratio) (b := 2 ^ (k + 16)) (by omega)).symm

open Spec in
theorem steps_spec {kw k mipA mipB blk : ℕ} {P : WinPar} (hk : k ≤ 14) (hr : P.ratio < 2 ^ 30) (n : ℕ) {v : WinVoice} (hp : v.pos ≤ 2 ^ 31) :
    ∃ w l, v.steps (2 ^ (kw + 16) - 1) (2 ^ (k + 16) - 1) mipA mipB blk P n = .ok (w, l) ∧ l.length = n ∧ w.pos = before v l n ∧ w.formant = formantBefore v l n ∧
      (w.table = v.table ∨ w.table = P.table) ∧ w.pos ≤ 2 ^ 31 ∧ ∀ i (hi : i < l.length), ReadOk kw k mipA mipB blk P (before v l i) (formantBefore v l i) l[i] := by
  induction n generalizing v with
  | zero => exact ⟨v, [], rfl, rfl, rfl, rfl, Or.inl rfl, hp, by simp⟩
  | succ n ih =>
    obtain ⟨a, x, hx, hxr, hxp, hxf, hxt⟩ := step_eq (kw := kw) (mipA := mipA) (mipB := mipB) (blk := blk) (P := P) (v := v) hk hp hr
    have h30 : (2 : ℕ) ^ (k + 16) ≤ 2 ^ 30 := Nat.pow_le_pow_right (by norm_num) (by omega)
    have hap : a.pos ≤ 2 ^ 31 := by
      have := Nat.mod_lt (v.pos + P.ratio) (show 0 < 2 ^ (k + 16) by positivity)
      rw [← hxp, hxr.pos]
      omega
    obtain ⟨w, l, e, el, ep, ef, et, eb, er⟩ := ih hap
    have hcons : ∀ (x : WinRead), x.pos = a.pos → x.formant = a.formant → ∀ i, before v (x :: l) (i + 1) = before a l i ∧ formantBefore v (x :: l) (i + 1) = formantBefore a l i := by
      intro x hx1 hx2 i
      unfold before formantBefore
      rcases i with _ | i
      · simp [hx1, hx2]
      · simp
    refine ⟨w, x :: l, ?_, by simp [el], ?_, ?_, ?_, eb, ?_⟩
    · unfold WinVoice.steps
      rw [hx, Res.ok_bind, e, Res.ok_bind]
    · exact ep.trans (hcons x hxp hxf n).1.symm
    · exact ef.trans (hcons x hxp hxf n).2.symm
    · rcases et with et | et
      · rw [et]
        exact hxt
      · exact Or.inr et
    · intro i hi
      rcases i with _ | i
      · exact hxr
      · rw [(hcons x hxp hxf i).1, (hcons x hxp hxf i).2]
        exact er i (by simpa using hi)

open Spec in
theorem block_spec {T : WinTabs} {kw k : ℕ} (hT : WinTabsOk T kw k) {P : WinPar} (hP : WinParOk T P) {v : WinVoice} (hp : v.pos ≤ 2 ^ 31) :
    ∃ w l mipA mipB, v.block T P = .ok (w, l) ∧ l.length = 64 ∧ w.pos = before v l 64 ∧ w.formant = formantBefore v l 64 ∧ w.table < T.waveTables ∧ w.pos ≤ 2 ^ 31 ∧
      mipWin k P.ratio = .ok mipA ∧ mipWave kw P.ratio P.formant = .ok mipB ∧
      ∀ i (hi : i < l.length), ReadOk kw k mipA mipB (if v.table ≥ T.waveTables then P.table else v.table) P (before v l i) (formantBefore v l i) l[i] := by
  obtain ⟨mA, hA⟩ := mipWin_total (po2 := k) (ratio := P.ratio) hT.win1 hP.ratio
  obtain ⟨mB, hB⟩ := mipWave_total (po2 := kw) (ratio := P.ratio) (formant := P.formant) hT.wave1 hP.formant2
  have htab : (if v.table ≥ T.waveTables then P.table else v.table) < T.waveTables := by
    split
    · exact hP.table
    · omega
  obtain ⟨w, l, e, el, ep, ef, et, eb, er⟩ := steps_spec (kw := kw) (mipA := mA) (mipB := mB) (blk := if v.table ≥ T.waveTables then P.table else v.table) hT.win2 hP.ratio 64
    (v := ⟨v.pos, if v.table ≥ T.waveTables then P.table else v.table, v.formant⟩) hp
  refine ⟨w, l, mA, mB, ?_, el, ep, ef, ?_, eb, hA, hB, er⟩
  · unfold WinVoice.block
    rw [sizeMask_ok hT.wave hT.wave2, Res.ok_bind, sizeMask_ok hT.win hT.win2, Res.ok_bind, hT.wave, hT.win, Wavetable.bitscan_pow2 kw (by have := hT.wave2; omega), Wavetable.bitscan_pow2 k (by have := hT.win2; omega), hB,
      Res.ok_bind, hA, Res.ok_bind]
    have h1 := mipLevel_lt (po2 := kw) (m := mB) (msb := Wavetable.bitscanReverse (bigMulR16 P.ratio (3 * P.formant))) (by
      have := hB
      unfold mipWave chkI32 at this
      rw [if_pos (by have := hP.formant2; omega), Res.ok_bind] at this
      exact this)
    have h2 := mipLevel_lt (po2 := k) (m := mA) (msb := Wavetable.bitscanReverse (3 * P.ratio)) (by
      have := hA
      unfold mipWin mulU32 at this
      rw [if_pos (by have := hP.ratio; omega), Res.ok_bind] at this
      exact this)
    rw [if_neg (not_not.mpr ⟨lt_of_lt_of_le h1 hT.waveLevels, htab, lt_of_lt_of_le h2 hT.winLevels, hP.window⟩)]
    exact e
  · rcases et with et | et
    · rw [et]
      exact htab
    · rw [et]
      exact hP.table

/-! ## C175: the phase -/

open Spec in
/-- **C175 (every block can be played)**: no panic, whatever the pitch, the formant, the table and the window do within their ranges. -/
theorem C175_plays {T : WinTabs} {kw k : ℕ} (hT : WinTabsOk T kw k) {P : ℕ → WinPar} (hP : ∀ t, WinParOk T (P t)) {v : WinVoice} (hv : v.pos ≤ 2 ^ 31) : ∃ V R, V 0 = v ∧ WinRun T P V R := by
  have hb := fun t (w : {w : WinVoice // w.pos ≤ 2 ^ 31}) => block_spec hT (hP t) w.2
  choose W' L A B h using hb
  let S : ℕ → {w : WinVoice // w.pos ≤ 2 ^ 31} := fun t => Nat.rec ⟨v, hv⟩ (fun t w => ⟨W' t w, (h t w).2.2.2.2.2.1⟩) t
  exact ⟨fun t => (S t).1, fun t => L t (S t), rfl, ⟨fun t => (h t (S t)).1⟩⟩

open Spec in
theorem run_pos {T : WinTabs} {kw k : ℕ} (hT : WinTabsOk T kw k) {P : ℕ → WinPar} (hP : ∀ t, WinParOk T (P t)) {V : ℕ → WinVoice} {R : ℕ → List WinRead} (h : WinRun T P V R) (hv : (V 0).pos ≤ 2 ^ 31) (t : ℕ) :
    (V t).pos ≤ 2 ^ 31 := by
  induction t with
  | zero => exact hv
  | succ t ih =>
    obtain ⟨w, l, A, B, e, el, ep, ef, et, eb, -⟩ := block_spec hT (hP t) ih
    rw [h.next t] at e
    cases e
    exact eb

open Spec in
theorem run_block {T : WinTabs} {kw k : ℕ} (hT : WinTabsOk T kw k) {P : ℕ → WinPar} (hP : ∀ t, WinParOk T (P t)) {V : ℕ → WinVoice} {R : ℕ → List WinRead} (h : WinRun T P V R) (hv : (V 0).pos ≤ 2 ^ 31) (t : ℕ) :
    ∃ mipA mipB, (R t).length = 64 ∧ (V (t + 1)).pos = before (V t) (R t) 64 ∧ (V (t + 1)).formant = formantBefore (V t) (R t) 64 ∧ (V (t + 1)).table < T.waveTables ∧
      mipWin k (P t).ratio = .ok mipA ∧ mipWave kw (P t).ratio (P t).formant = .ok mipB ∧
      ∀ i (hi : i < (R t).length), ReadOk kw k mipA mipB (if (V t).table ≥ T.waveTables then (P t).table else (V t).table) (P t) (before (V t) (R t) i) (formantBefore (V t) (R t) i) (R t)[i] := by
  obtain ⟨w, l, A, B, e, el, ep, ef, et, eb, hA, hB, er⟩ := block_spec hT (hP t) (run_pos hT hP h hv t)
  rw [h.next t] at e
  cases e
  exact ⟨A, B, el, ep, ef, et, hA, hB, er⟩

open Spec in
theorem before_succ {v : WinVoice} {r : List WinRead} {i : ℕ} (h : i < r.length) : before v r (i + 1) = (r[i]).pos := by
  unfold before
  simp [List.getD, h]

open Spec in
theorem formantBefore_succ {v : WinVoice} {r : List WinRead} {i : ℕ} (h : i < r.length) : formantBefore v r (i + 1) = (r[i]).formant := by
  unfold formantBefore
  simp [List.getD, h]

open Spec in
theorem phase_mod {T : WinTabs} {kw k : ℕ} (hT : WinTabsOk T kw k) {P : ℕ → WinPar} (hP : ∀ t, WinParOk T (P t)) {V : ℕ → WinVoice} {R : ℕ → List WinRead} (h : WinRun T P V R) (hv : (V 0).pos ≤ 2 ^ 31) (t : ℕ) :
    ∀ i, i ≤ 64 → before (V t) (R t) i ≡ winPhase P (V 0).pos t i [MOD 2 ^ (k + 16)] := by
  have key : ∀ t, (V t).pos ≡ winPhase P (V 0).pos t 0 [MOD 2 ^ (k + 16)] → ∀ i, i ≤ 64 → before (V t) (R t) i ≡ winPhase P (V 0).pos t i [MOD 2 ^ (k + 16)] := by
    intro t h0 i
    obtain ⟨A, B, el, ep, ef, et, hA, hB, er⟩ := run_block hT hP h hv t
    induction i with
    | zero => intro _; simpa [before] using h0
    | succ i ih =>
      intro hi
      have hl : i < (R t).length := by omega
      rw [before_succ hl, (er i hl).pos]
      refine (Nat.mod_modEq _ _).trans ?_
      have := (ih (by omega)).add_right (P t).ratio
      have e : winPhase P (V 0).pos t i + (P t).ratio = winPhase P (V 0).pos t (i + 1) := by
        unfold winPhase
        ring
      rw [e] at this
      exact this
  induction t with
  | zero => exact key 0 (by simp [winPhase]; exact Nat.ModEq.refl _)
  | succ t ih =>
    refine key (t + 1) ?_
    obtain ⟨A, B, el, ep, ef, et, hA, hB, er⟩ := run_block hT hP h hv t
    rw [ep]
    have e : winPhase P (V 0).pos t 64 = winPhase P (V 0).pos (t + 1) 0 := by
      unfold winPhase
      rw [Finset.sum_range_succ]
      ring
    rw [← e]
    exact ih 64 le_rfl

open Spec in
/-- **C175 (exact pitch)**: sample `i` of block `t` is played at the starting phase plus one ratio for every sample so far, modulo the window, for ever: nothing is lost at the window's end, and the phase is always inside the window. -/
theorem C175_phase {T : WinTabs} {kw k : ℕ} (hT : WinTabsOk T kw k) {P : ℕ → WinPar} (hP : ∀ t, WinParOk T (P t)) {V : ℕ → WinVoice} {R : ℕ → List WinRead} (h : WinRun T P V R) (hv : (V 0).pos ≤ 2 ^ 31) (t : ℕ) :
    (R t).length = 64 ∧ ∀ i (hi : i < (R t).length), ((R t)[i]).pos = winPhase P (V 0).pos t (i + 1) % 2 ^ (k + 16) := by
  obtain ⟨A, B, el, ep, ef, et, hA, hB, er⟩ := run_block hT hP h hv t
  refine ⟨el, fun i hi => ?_⟩
  have h1 := phase_mod hT hP h hv t (i + 1) (by omega)
  rw [before_succ hi] at h1
  have h2 : ((R t)[i]).pos < 2 ^ (k + 16) := by
    rw [(er i hi).pos]
    exact Nat.mod_lt _ (by positivity)
  rw [← h1, Nat.mod_eq_of_lt h2]

/-! ## C176: formant and table change at the window's start -/

open Spec in
/-- **C176 (the formant)**: a sample that starts a window takes the block's formant; every other sample keeps the formant of the sample before. -/
theorem C176_formant {T : WinTabs} {kw k : ℕ} (hT : WinTabsOk T kw k) {P : ℕ → WinPar} (hP : ∀ t, WinParOk T (P t)) {V : ℕ → WinVoice} {R : ℕ → List WinRead} (h : WinRun T P V R) (hv : (V 0).pos ≤ 2 ^ 31) (t : ℕ) :
    (V (t + 1)).formant = formantBefore (V t) (R t) 64 ∧ ∀ i (hi : i < (R t).length),
      (2 ^ (k + 16) ≤ before (V t) (R t) i + (P t).ratio → ((R t)[i]).formant = (P t).formant) ∧ (before (V t) (R t) i + (P t).ratio < 2 ^ (k + 16) → ((R t)[i]).formant = formantBefore (V t) (R t) i) := by
  obtain ⟨A, B, el, ep, ef, et, hA, hB, er⟩ := run_block hT hP h hv t
  refine ⟨ef, fun i hi => ⟨fun hw => ?_, fun hw => ?_⟩⟩
  · rw [(er i hi).formant, if_pos hw]
  · rw [(er i hi).formant, if_neg (by omega)]

open Spec in
/-- **C176 (refuted: the table)**: a window that starts inside a block, with a new table, plays its first sample from the new table and its second from the old one again. -/
theorem C176_table_refuted {T : WinTabs} {kw k : ℕ} (hT : WinTabsOk T kw k) {P : ℕ → WinPar} (hP : ∀ t, WinParOk T (P t)) {V : ℕ → WinVoice} {R : ℕ → List WinRead} (h : WinRun T P V R) (hv : (V 0).pos ≤ 2 ^ 31) {t i : ℕ}
    (hi : i + 1 < (R t).length) (hold : (V t).table < T.waveTables) (hnew : (P t).table ≠ (V t).table) (hw : 2 ^ (k + 16) ≤ before (V t) (R t) i + (P t).ratio) (hn : ((R t)[i]'(Nat.lt_of_succ_lt hi)).pos + (P t).ratio < 2 ^ (k + 16)) :
    ((R t)[i]'(Nat.lt_of_succ_lt hi)).table = (P t).table ∧ ((R t)[i + 1]).table = (V t).table := by
  obtain ⟨A, B, el, ep, ef, et, hA, hB, er⟩ := run_block hT hP h hv t
  refine ⟨?_, ?_⟩
  · rw [(er i (Nat.lt_of_succ_lt hi)).table, if_pos hw]
  · rw [(er (i + 1) hi).table, before_succ (Nat.lt_of_succ_lt hi), if_neg (not_le.mpr hn), if_neg (not_le.mpr hold)]

/-! ## C177: the positions read -/

open Spec in
/-- **C177**: every position read is inside its table at the chosen level, and every sub-sample position is one of the 256 of the kernel; the table is one of the tables. -/
theorem C177_inside {T : WinTabs} {kw k : ℕ} (hT : WinTabsOk T kw k) {P : ℕ → WinPar} (hP : ∀ t, WinParOk T (P t)) {V : ℕ → WinVoice} {R : ℕ → List WinRead} (h : WinRun T P V R) (hv : (V 0).pos ≤ 2 ^ 31) (t : ℕ) :
    ∃ mipA mipB, mipWin k (P t).ratio = .ok mipA ∧ mipWave kw (P t).ratio (P t).formant = .ok mipB ∧ mipA < T.winLevels ∧ mipB < T.waveLevels ∧
      ∀ r ∈ R t, r.winPos < T.winLen / 2 ^ mipA ∧ r.wavePos < T.waveLen / 2 ^ mipB ∧ r.winSub < 256 ∧ r.waveSub < 256 ∧ r.table < T.waveTables := by
  obtain ⟨A, B, el, ep, ef, et, hA, hB, er⟩ := run_block hT hP h hv t
  have hA' : A < k := by
    have := hA
    unfold mipWin mulU32 at this
    rw [if_pos (by have := (hP t).ratio; omega), Res.ok_bind] at this
    exact mipLevel_lt this
  have hB' : B < kw := by
    have := hB
    unfold mipWave chkI32 at this
    rw [if_pos (by have := (hP t).formant2; omega), Res.ok_bind] at this
    exact mipLevel_lt this
  refine ⟨A, B, hA, hB, lt_of_lt_of_le hA' hT.winLevels, lt_of_lt_of_le hB' hT.waveLevels, fun r hr => ?_⟩
  obtain ⟨i, hi, rfl⟩ := List.mem_iff_getElem.mp hr
  have e := er i hi
  refine ⟨?_, ?_, ?_, ?_, ?_⟩
  · rw [e.winPos, e.pos, hT.win, Nat.pow_div hA'.le (by norm_num), Nat.div_lt_iff_lt_mul (by positivity), ← pow_add]
    have : k - A + (16 + A) = k + 16 := by omega
    rw [this]
    exact Nat.mod_lt _ (by positivity)
  · rw [e.wavePos, hT.wave, Nat.pow_div hB'.le (by norm_num), Nat.div_lt_iff_lt_mul (by positivity), ← pow_add]
    have : kw - B + (16 + B) = kw + 16 := by omega
    rw [this]
    exact Nat.mod_lt _ (by positivity)
  · rw [e.winSub]; omega
  · rw [e.waveSub]; omega
  · rw [e.table]
    split
    · exact (hP t).table
    · split
      · exact (hP t).table
      · omega

/-! ## C178: only the tables are read -/

/-- **C178 (refuted)**: the address read does not depend on where the table is: it is the table's first sample, taken as an address, plus 16 bytes a position.  So nothing is read from a table anywhere above the first 2 ^ 19 bytes. -/
theorem C178_wild_refuted {first : ℤ} (h1 : -32768 ≤ first) (h2 : first ≤ 32767) {pos : ℕ} (hp : pos < 2 ^ 14) {base : ℤ} (hb : 2 ^ 19 ≤ base) : readAddress first pos < base := by
  unfold readAddress
  omega

/-- **C178 (refuted)**: a new oscillator, whose tables are silent, reads its first sample through the null pointer. -/
theorem C178_null_refuted : readAddress 0 0 = 0 := rfl

/-! ## C179: the mip-map level follows the pitch -/

theorem bitscan_odd {n : ℕ} (h : n % 2 = 1) : Wavetable.bitscanReverse n = 0 := by
  unfold Wavetable.bitscanReverse
  have : List.range 32 = 0 :: (List.range 31).map (· + 1) := by decide
  rw [this, List.find?_cons]
  simp [Nat.testBit_zero, h]

theorem bitscan_dvd {n : ℕ} (h0 : n ≠ 0) (h1 : n < 2 ^ 32) : 2 ^ Wavetable.bitscanReverse n ∣ n := by
  have key : ∀ m, m ≤ Wavetable.bitscanReverse n → m ≤ 32 → 2 ^ m ∣ n := by
    intro m hm hm2
    rw [Nat.dvd_iff_mod_eq_zero, ← Nat.and_two_pow_sub_one_eq_mod]
    apply Nat.eq_of_testBit_eq
    intro i
    rw [Nat.testBit_and, Nat.zero_testBit, Nat.testBit_two_pow_sub_one]
    by_cases hi : i < m
    · simp only [hi, decide_true, Bool.and_true]
      by_contra hc
      have hc : n.testBit i = true := by simpa using hc
      unfold Wavetable.bitscanReverse at hm
      have hs : ((List.range 32).find? (fun i => n.testBit i)).isSome := by
        rw [List.find?_isSome]
        exact ⟨i, List.mem_range.mpr (by omega), hc⟩
      obtain ⟨j, hj⟩ := Option.isSome_iff_exists.mp hs
      rw [hj] at hm
      simp only [Option.getD_some] at hm
      have := List.find?_range_eq_some.mp hj
      have h2 := this.2.2 i (by omega)
      simp [hc] at h2
    · simp [hi]
  rcases le_or_gt (Wavetable.bitscanReverse n) 32 with h | h
  · exact key _ le_rfl h
  · have := Nat.le_of_dvd (by omega) (key 32 h.le le_rfl)
    omega

/-- **C179 (what holds)**: as long as the window is stepped by less than 4/3 of a sample, it is read from its full level. -/
theorem C179_low_partial {po2 ratio : ℕ} (hp : 1 ≤ po2) (h0 : 0 < ratio) (h : 3 * ratio < 2 ^ 18) : mipWin po2 ratio = .ok 0 := by
  unfold mipWin mulU32
  rw [if_pos (by omega), Res.ok_bind]
  unfold mipLevel
  rw [if_neg (by omega)]
  have h1 : Wavetable.bitscanReverse (3 * ratio) < 18 := by
    by_contra hc
    push Not at hc
    have h2 := Nat.le_of_dvd (by omega) (bitscan_dvd (n := 3 * ratio) (by omega) (by omega))
    have h3 : (2 : ℕ) ^ 18 ≤ 2 ^ Wavetable.bitscanReverse (3 * ratio) := Nat.pow_le_pow_right (by norm_num) hc
    omega
  congr 1
  omega

/-- **C179 (refuted)**: every odd ratio plays the full level, however high the pitch: `bitscan_reverse` counts the trailing zeros instead of finding the highest bit. -/
theorem C179_odd_refuted {po2 ratio : ℕ} (hp : 1 ≤ po2) (hr : ratio < 2 ^ 30) (h : ratio % 2 = 1) : mipWin po2 ratio = .ok 0 := by
  unfold mipWin mulU32
  rw [if_pos (by omega), Res.ok_bind, bitscan_odd (by omega)]
  unfold mipLevel
  rw [if_neg (by omega)]
  congr 1
  omega

/-- The consequence, at a hundred samples a step. -/
example : mipWin 10 (100 * 65536 + 1) = .ok 0 := C179_odd_refuted (by norm_num) (by norm_num) (by norm_num)

theorem block_panics {T : WinTabs} {P : WinPar} {k kw mW m A B : ℕ} (h1 : sizeMask T.waveLen = .ok mW) (h2 : sizeMask T.winLen = .ok m) (h3 : Wavetable.bitscanReverse T.waveLen = kw) (h4 : Wavetable.bitscanReverse T.winLen = k)
    (hB : mipWave kw P.ratio P.formant = .ok B) (hA : mipWin k P.ratio = .ok A) (h : ¬ (A < T.winLevels ∧ P.window < T.winTables)) (v : WinVoice) : (v.block T P).isPanic = true := by
  unfold WinVoice.block
  rw [h1, Res.ok_bind, h2, Res.ok_bind, h3, h4, hB, Res.ok_bind, hA, Res.ok_bind]
  rw [if_pos (fun hh => h ⟨hh.2.2.1, hh.2.2.2⟩)]
  rfl

/-- **C179 (refuted: the levels of a new oscillator)**: with the tables of a new oscillator, of one level and one window, a step of four samples panics, and so does every window but the first. -/
theorem C179_level_refuted (v : WinVoice) (f : ℕ) (hf : f < 2 ^ 29) : (v.block WinTabs.default ⟨2 ^ 18, 0, f, 0⟩).isPanic = true ∧ ∀ ratio w, ratio < 2 ^ 30 → 1 ≤ w → (v.block WinTabs.default ⟨ratio, 0, f, w⟩).isPanic = true := by
  have hb : Wavetable.bitscanReverse 1024 = 10 := Wavetable.bitscan_pow2 10 (by norm_num)
  have hm : sizeMask 1024 = .ok (2 ^ (10 + 16) - 1) := sizeMask_ok (k := 10) (by norm_num) (by norm_num)
  have l1 : WinTabs.default.waveLen = 1024 := rfl
  have l2 : WinTabs.default.winLen = 1024 := rfl
  constructor
  · obtain ⟨B, hB⟩ := mipWave_total (po2 := 10) (ratio := 2 ^ 18) (formant := f) (by norm_num) hf
    have hA : mipWin 10 (2 ^ 18) = .ok 1 := by decide +kernel
    exact block_panics (by rw [l1]; exact hm) (by rw [l2]; exact hm) (by rw [l1]; exact hb) (by rw [l2]; exact hb) hB hA (fun h => absurd h.1 (by decide)) v
  · intro ratio w hr hw
    obtain ⟨B, hB⟩ := mipWave_total (po2 := 10) (ratio := ratio) (formant := f) (by norm_num) hf
    obtain ⟨A, hA⟩ := mipWin_total (po2 := 10) (ratio := ratio) (by norm_num) hr
    exact block_panics (by rw [l1]; exact hm) (by rw [l2]; exact hm) (by rw [l1]; exact hb) (by rw [l2]; exact hb) hB hA (fun h => absurd h.2 (by simp only [WinTabs.default]; omega)) v

/-! ## C180: unison -/

/-- **C180 (refuted)**: every unison count plays one voice. -/
theorem C180_unison_refuted (count : ℤ) : activeSubOscs count = 1 := by
  unfold activeSubOscs
  omega

/-! ## C181: every sample is heard -/

theorem convertLoop_eq {α : Type} (cvt : α → α) (n i : ℕ) (out : ℕ → α) (hi : 4 ≤ i) (j : ℕ) :
    convertLoop cvt n i out j = if i ≤ j ∧ j < i + 4 * n then cvt (out ((j - i) % 4)) else out j := by
  induction n generalizing i out with
  | zero => simp [convertLoop]
  | succ n ih =>
    unfold convertLoop
    rw [ih (i + 4) _ (by omega)]
    by_cases h1 : i ≤ j ∧ j < i + 4
    · rw [if_neg (by omega), if_pos h1, if_pos (by omega), Nat.mod_eq_of_lt (by omega)]
    · by_cases h2 : i + 4 ≤ j ∧ j < i + 4 + 4 * n
      · rw [if_pos h2, if_neg (by omega), if_pos (by omega)]
        congr 2
        omega
      · rw [if_neg h2, if_neg h1, if_neg (by omega)]

/-- **C181 (refuted)**: after the conversion loop over the 64 samples of a block, the first four are converted once, and all others are the first four again, converted twice. -/
theorem C181_first_four_refuted {α : Type} (cvt : α → α) (out : ℕ → α) (j : ℕ) (hj : j < 64) :
    convertLoop cvt 16 0 out j = if j < 4 then cvt (out j) else cvt (cvt (out (j % 4))) := by
  have e : convertLoop cvt 16 0 out = convertLoop cvt 15 4 (fun j => if 0 ≤ j ∧ j < 0 + 4 then cvt (out (j - 0)) else out j) := convertLoop.eq_2 cvt 0 out 15
  rw [e, convertLoop_eq _ _ _ _ (by omega)]
  by_cases h : j < 4
  · rw [if_neg (by omega), if_pos h, if_pos (by omega)]
    rfl
  · rw [if_neg h, if_pos (by omega), if_pos (by omega)]
    congr 3
    omega

/-- So the 60 other samples are not heard. -/
theorem C181_unheard_refuted {α : Type} (cvt : α → α) {a b : ℕ → α} (h : ∀ j, j < 4 → a j = b j) (j : ℕ) (hj : j < 64) : convertLoop cvt 16 0 a j = convertLoop cvt 16 0 b j := by
  rw [C181_first_four_refuted _ _ _ hj, C181_first_four_refuted _ _ _ hj]
  split
  · rw [h _ (by assumption)]
  · rw [h _ (by omega)]

/-! ## C182: the formant -/

/-- **C182 (what holds)**: with the formant at its centre, and a wave not longer than the window, wave and window run in step: the position in the wave is the same part of the wave as the position in the window is of the window. -/
theorem C182_step_partial {k d : ℕ} (hd : d ≤ 16) (hk : d ≤ k) (hk2 : k ≤ 14) : ∃ m : ℕ, formantMul 65536 k (k - d) = .ok m ∧ ∀ pos, pos < 2 ^ (k + 16) → bigMulR16 m pos % 2 ^ (k - d + 16) = pos / 2 ^ d := by
  have hp : (0 : ℕ) < 2 ^ d := by positivity
  refine ⟨2 ^ (16 - d), ?_, fun pos h => ?_⟩
  · unfold formantMul
    rw [if_neg (by omega)]
    have e : k - (k - d) = d := by omega
    have h1 : (65536 : ℤ) / 2 ^ d = 2 ^ (16 - d) := by
      rw [show (65536 : ℤ) = 2 ^ (16 - d) * 2 ^ d by rw [← pow_add, Nat.sub_add_cancel hd]; norm_num]
      exact Int.mul_ediv_cancel _ (by positivity)
    rw [e, h1]
    congr 1
    push_cast
    exact max_eq_left (by exact_mod_cast Nat.one_le_two_pow)
  · unfold bigMulR16
    have h1 : 2 ^ (16 - d) * pos / 2 ^ 16 = pos / 2 ^ d := by
      rw [show (2 : ℕ) ^ 16 = 2 ^ (16 - d) * 2 ^ d by rw [← pow_add, Nat.sub_add_cancel hd]]
      exact Nat.mul_div_mul_left _ _ (by positivity)
    have h2 : pos / 2 ^ d < 2 ^ (k - d + 16) := by
      rw [Nat.div_lt_iff_lt_mul hp, ← pow_add]
      have : k - d + 16 + d = k + 16 := by omega
      rw [this]
      exact h
    have h3 : pos / 2 ^ d < 2 ^ 32 := lt_of_lt_of_le h2 (Nat.pow_le_pow_right (by norm_num) (by omega))
    rw [h1, Nat.mod_eq_of_lt h3, Nat.mod_eq_of_lt h2]

/-- **C182 (refuted)**: with a wave longer than the window, the block panics, whatever the formant. -/
theorem C182_longer_refuted (m : ℤ) {po2Win po2Wave : ℕ} (h : po2Win < po2Wave) : (formantMul m po2Win po2Wave).isPanic = true := by
  unfold formantMul
  rw [if_pos h]
  rfl

/-! ## Non-vacuity -/

/-- Full tables of 1024 samples, four waves and nine windows. -/
def winTabs9 : WinTabs := ⟨1024, 4, 10, 1024, 9, 10⟩

example : Spec.WinTabsOk winTabs9 10 10 ∧ Spec.WinParOk winTabs9 ⟨70000, 3, 131072, 8⟩ ∧ activeSubOscs 7 = 1 :=
  ⟨⟨by decide, by decide, by decide, by decide, by decide, by decide, by decide, by decide⟩, ⟨by decide, by decide, by decide, by decide, by decide⟩, by decide⟩

/-- The table at the start of a window inside a block: new, then old again. -/
example : ∃ w l, (⟨2 ^ 26 - 5 * 70000, 0, 65536⟩ : WinVoice).block winTabs9 ⟨70000, 3, 131072, 8⟩ = .ok (w, l) ∧ (l.map (·.table)).take 8 = [0, 0, 0, 0, 3, 0, 0, 0] ∧ w.table = 3 := by
  have h : (match (⟨2 ^ 26 - 5 * 70000, 0, 65536⟩ : WinVoice).block winTabs9 ⟨70000, 3, 131072, 8⟩ with | .ok (w, l) => decide ((l.map (·.table)).take 8 = [0, 0, 0, 0, 3, 0, 0, 0] ∧ w.table = 3) | _ => false) = true := by decide +kernel
  revert h
  cases (⟨2 ^ 26 - 5 * 70000, 0, 65536⟩ : WinVoice).block winTabs9 ⟨70000, 3, 131072, 8⟩ with
  | ok x => exact fun h => ⟨x.1, x.2, rfl, of_decide_eq_true h⟩
  | err e => cases e
  | panic => exact fun h => absurd h (by simp)

end Verif.Osc
