import Verif.StepSeq.PropsMute
/-!
# C21: advancing the sequencer
-/
namespace Verif
open StepSeq Float

theorem sub_fin (a b : ℚ) : (F32.fin a).sub (.fin b) = F32.ofQ (a - b) := by
  simp [F32.sub, F32.neg, F32.add, sub_eq_add_neg]
theorem add_fin (a b : ℚ) : (F32.fin a).add (.fin b) = F32.ofQ (a + b) := rfl
theorem lt_fin (a b : ℚ) : (F32.fin a).lt (.fin b) = decide (a < b) := rfl

theorem ofInt_nat {n : Nat} (h : n ≤ 2 ^ 24) : F32.ofInt (n : ℤ) = .fin n := by
  rw [F32.ofInt_eq (by rw [abs_of_nonneg (by positivity)]; exact_mod_cast h)]; simp

/-- A loop inside the sixteen steps. -/
def ValidLoop (s : Seq) : Prop := s.loopStart ≤ s.loopEnd ∧ s.loopEnd ≤ 15

instance (s : Seq) : Decidable (ValidLoop s) := by unfold ValidLoop; infer_instance

theorem loopLen_ok {s : Seq} (h : ValidLoop s) :
    loopLen s = .ok (.fin ((s.loopEnd - s.loopStart + 1 : Nat) : ℚ)) := by
  obtain ⟨h1, h2⟩ := h
  unfold loopLen
  rw [if_pos h1, ofInt_nat (by omega)]

theorem wrapDown_ok {s : Seq} (h : ValidLoop s) (fuel : Nat) (w : ℚ) (m : ℕ)
    (hlo : (s.loopStart : ℚ) - 1 ≤ w) (hm : w ≤ ((s.loopEnd + m : ℕ) : ℚ)) (hfuel : m < fuel) (hm2 : m ≤ 1000) :
    ∃ r, wrapDown s fuel (.fin w) = .ok (.fin r) ∧ (s.loopStart : ℚ) - 1 ≤ r ∧ r ≤ s.loopEnd := by
  obtain ⟨h1, h2⟩ := id h
  induction fuel generalizing w m with
  | zero => omega
  | succ n ih =>
    unfold wrapDown
    rw [ofInt_nat (by omega), lt_fin]
    by_cases hw : (s.loopEnd : ℚ) < w
    · simp only [hw, decide_true, if_true, loopLen_ok h, Res.ok_bind, sub_fin]
      have hmpos : 0 < m := by
        rcases Nat.eq_zero_or_pos m with rfl | hp
        · simp at hm; exact absurd hw (not_lt.mpr hm)
        · exact hp
      have hq : (((s.loopEnd - s.loopStart + 1 : ℕ)) : ℚ) = s.loopEnd - s.loopStart + 1 := by
        push_cast [Nat.cast_sub h1]; ring
      have hse : (s.loopStart : ℚ) ≤ s.loopEnd := by exact_mod_cast h1
      push_cast at hm
      obtain ⟨r, hr, ra, rb⟩ := F32.ofQ_between
        (q := w - ((s.loopEnd - s.loopStart + 1 : ℕ) : ℚ)) (a := (s.loopStart : ℤ) - 1)
        (b := ((s.loopEnd + (m - 1) : ℕ) : ℤ))
        (by rw [hq]; push_cast; linarith)
        (by rw [hq]; push_cast [Nat.cast_sub (show 1 ≤ m from hmpos)]; linarith)
        (by rw [abs_le]; constructor <;> omega)
        (by rw [abs_le]; constructor <;> omega)
      rw [hr]
      exact ih r (m - 1) (by push_cast at ra; linarith) (by exact_mod_cast rb) (by omega) (by omega)
    · simp only [hw, decide_false]
      exact ⟨w, by simp, hlo, not_lt.mp hw⟩

theorem wrapUp_ok {s : Seq} (h : ValidLoop s) (fuel : Nat) (w : ℚ)
    (hlo : (s.loopStart : ℚ) - 1 ≤ w) (hhi : w ≤ s.loopEnd) (hfuel : 2 ≤ fuel) :
    ∃ r, wrapUp s fuel (.fin w) = .ok (.fin r) ∧ (s.loopStart : ℚ) ≤ r ∧ r ≤ (s.loopEnd : ℚ) + 1 ∧
      ((s.loopStart : ℚ) ≤ w → r = w) := by
  obtain ⟨h1, h2⟩ := id h
  obtain ⟨n, rfl⟩ : ∃ n, fuel = n + 2 := ⟨fuel - 2, by omega⟩
  unfold wrapUp
  rw [ofInt_nat (by omega), lt_fin]
  by_cases hw : w < (s.loopStart : ℚ)
  · simp only [hw, decide_true, if_true, loopLen_ok h, Res.ok_bind, add_fin]
    have hq : (((s.loopEnd - s.loopStart + 1 : ℕ)) : ℚ) = s.loopEnd - s.loopStart + 1 := by
      push_cast [Nat.cast_sub h1]; ring
    have hse : (s.loopStart : ℚ) ≤ s.loopEnd := by exact_mod_cast h1
    obtain ⟨r, hr, ra, rb⟩ := F32.ofQ_between
      (q := w + ((s.loopEnd - s.loopStart + 1 : ℕ) : ℚ)) (a := (s.loopEnd : ℤ))
      (b := (s.loopEnd : ℤ) + 1)
      (by rw [hq]; push_cast; linarith) (by rw [hq]; push_cast; linarith)
      (by rw [abs_le]; constructor <;> omega)
      (by rw [abs_le]; constructor <;> omega)
    rw [hr]
    push_cast at ra rb
    have : ¬ r < (s.loopStart : ℚ) := by linarith
    unfold wrapUp
    rw [ofInt_nat (by omega), lt_fin]
    exact ⟨r, by simp [this], by linarith, rb, fun hc => absurd hw (not_lt.mpr hc)⟩
  · simp only [hw, decide_false]
    exact ⟨w, by simp, not_lt.mp hw, by linarith, fun _ => rfl⟩

theorem toUsize_between {r : ℚ} {a b : ℕ} (ha : (a:ℚ) ≤ r) (hb : r ≤ b) (hb' : b < 2 ^ 63) :
    a ≤ (F32.fin r).toUsize ∧ (F32.fin r).toUsize ≤ b := by
  have h0 : 0 ≤ r := le_trans (by positivity) ha
  have f1 : (a:ℤ) ≤ ⌊r⌋ := Int.le_floor.mpr (by exact_mod_cast ha)
  have f2 : ⌊r⌋ ≤ (b:ℤ) := by
    have h := Int.floor_mono hb
    simpa using h
  simp only [F32.toUsize, F32.toIntSat, F32.truncQ]
  rw [if_pos h0]
  have hbz : ((b:ℤ)) < 2 ^ 63 := by exact_mod_cast hb'
  rw [min_eq_right (by omega), max_eq_right (by omega)]
  omega

/-- What the random generator may return for this sequencer: a number in the half-open shuffle range. -/
def ShuffleDraw (s : Seq) (off : ℚ) : Prop :=
  ∃ q, s.shuffle = .fin q ∧ -(q / 2) ≤ off ∧ off < q / 2

/-- The documented range of the shuffle amount, zero excluded. -/
def ShuffleOn (s : Seq) : Prop := ∃ q, s.shuffle = .fin q ∧ 2 ^ (-100 : ℤ) ≤ q ∧ q ≤ 1

theorem shuffleAmount_ok {s : Seq} (h : ShuffleOn s) :
    s.shuffleAmount.neg.lt s.shuffleAmount = true := by
  obtain ⟨q, hq, h1, h2⟩ := h
  unfold Seq.shuffleAmount
  rw [hq]
  have e : (F32.fin q).mul (.fin (1 / 2)) = F32.ofQ (q * (1 / 2)) := rfl
  rw [e, F32.ofQ_fin (by have := two_zpow_pos (-100); norm_num at *; linarith) (by norm_num; linarith)]
  have hp : 0 < rne (q * (1 / 2)) := by
    have hm : rne (2 ^ (-101 : ℤ)) ≤ rne (q * (1 / 2)) := by
      apply rne_mono
      have : (2:ℚ) ^ (-101 : ℤ) = 2 ^ (-100 : ℤ) * (1 / 2) := by norm_num
      rw [this]; exact mul_le_mul_of_nonneg_right h1 (by norm_num)
    rw [rne_zpow (by norm_num)] at hm
    exact lt_of_lt_of_le (two_zpow_pos _) hm
  simp only [F32.neg, lt_fin, decide_eq_true_eq]
  linarith

theorem nextStep_ok (s : Seq) (hv : ValidLoop s) (hs : ShuffleOn s) (hc : s.currentStep < 16)
    (off : ℚ) (hd : ShuffleDraw s off) (fuel : Nat) (hf : 40 ≤ fuel) :
    ∃ s', s.nextStep fuel (.fin off) = .ok (s.steps ⟨s.currentStep, hc⟩, s') ∧
      s' = { s with currentStep := s'.currentStep } ∧
      (s'.currentStep = (s.currentStep + 1) % 16 ∨
        (s.loopStart ≤ s'.currentStep ∧ s'.currentStep ≤ s.loopEnd + 1 ∧
          s.trigmask.getLsbD s'.currentStep = true)) := by
  obtain ⟨h1, h2⟩ := id hv
  obtain ⟨q, hq, hq1, hq2⟩ := id hs
  obtain ⟨q', hq', d1, d2⟩ := hd
  rw [hq] at hq'; cases hq'
  have hqpos : 0 < q := lt_of_lt_of_le (two_zpow_pos _) hq1
  have hn16 : (s.currentStep + 1) % 16 < 16 := Nat.mod_lt _ (by norm_num)
  have hnq : (((s.currentStep + 1) % 16 : ℕ) : ℚ) ≤ 15 := by
    have : (s.currentStep + 1) % 16 ≤ 15 := by omega
    exact_mod_cast this
  have hn0 : (0:ℚ) ≤ (((s.currentStep + 1) % 16 : ℕ) : ℚ) := by positivity
  obtain ⟨r1, e1, a1, b1⟩ := F32.ofQ_between (q := (((s.currentStep + 1) % 16 : ℕ) : ℚ) + off)
    (a := -1) (b := 16) (by push_cast; linarith) (by push_cast; linarith) (by norm_num) (by norm_num)
  push_cast at a1 b1
  obtain ⟨r2, e2, a2, b2⟩ := F32.ofQ_between (q := r1 + s.loopStart)
    (a := (s.loopStart : ℤ) - 1) (b := (s.loopStart : ℤ) + 16) (by push_cast; linarith)
    (by push_cast; linarith) (by rw [abs_le]; constructor <;> omega) (by rw [abs_le]; constructor <;> omega)
  push_cast at a2 b2
  have hse : (s.loopStart : ℚ) ≤ s.loopEnd := by exact_mod_cast h1
  obtain ⟨w1, e3, a3, b3⟩ := wrapDown_ok hv fuel r2 16 a2 (by push_cast; linarith) (by omega) (by omega)
  obtain ⟨w2, e4, a4, b4, _⟩ := wrapUp_ok hv fuel w1 a3 b3 (by omega)
  obtain ⟨u1, u2⟩ := toUsize_between (r := w2) (a := s.loopStart) (b := s.loopEnd + 1) a4
    (by push_cast; exact b4) (by omega)
  have hbit : shl1 (F32.fin w2).toUsize = .ok (1#64 <<< (F32.fin w2).toUsize) := shl1_ok (by omega)
  have e5 : ((F32.ofInt (((s.currentStep + 1) % nSteps : Nat) : ℤ)).add (.fin off)).add
        (F32.ofInt (s.loopStart : ℤ)) = .fin r2 := by
    rw [show nSteps = 16 from rfl, ofInt_nat (by omega), ofInt_nat (by omega), add_fin, e1, add_fin, e2]
  unfold Seq.nextStep
  rw [dif_pos hc]
  simp only [shuffleAmount_ok hs, e5, e3, e4, hbit, Res.ok_bind, Bool.not_true]
  simp only [Bool.false_eq_true, if_false, Res.pure_eq]
  by_cases ht : s.trigmask &&& 1#64 <<< (F32.fin w2).toUsize = 0
  · rw [if_pos ht]
    exact ⟨_, rfl, rfl, Or.inl rfl⟩
  · rw [if_neg ht]
    refine ⟨_, rfl, rfl, Or.inr ⟨u1, u2, ?_⟩⟩
    show s.trigmask.getLsbD (F32.fin w2).toUsize = true
    rw [← and_bit_ne_zero s.trigmask _ (by omega)]
    simpa using ht

/-- C21 (part): one call.  For every loop inside the sixteen steps, every shuffle amount in `(0, 1]` and every
draw of the generator, `next_step` returns (40 loop iterations always suffice), its value is the value of
the step that was current, nothing but the position changes, and the new position is either the next step
or a triggered step between the loop start and one past the loop end.
Missing for the full claim: shuffle 0 (panics, `C21_no_shuffle_panics`) and the step past the loop end
(reached, `C21_rounding_escapes`). -/
theorem C21_next_step_partial (s : Seq) (hv : ValidLoop s) (hs : ShuffleOn s) (hc : s.currentStep < 16)
    (off : ℚ) (hd : ShuffleDraw s off) (fuel : Nat) (hf : 40 ≤ fuel) :
    ∃ s', s.nextStep fuel (.fin off) = .ok (s.step s.currentStep, s') ∧
      s' = { s with currentStep := s'.currentStep } ∧
      (s'.currentStep = (s.currentStep + 1) % 16 ∨
        (s.loopStart ≤ s'.currentStep ∧ s'.currentStep ≤ s.loopEnd + 1 ∧
          s.trigmask.getLsbD s'.currentStep = true)) := by
  have : s.step s.currentStep = s.steps ⟨s.currentStep, hc⟩ := by simp [Seq.step, hc]
  rw [this]
  exact nextStep_ok s hv hs hc off hd fuel hf

/-- `n` calls with given draws. -/
def runNext (fuel : Nat) : Seq → List F32 → P (List F32 × Seq)
  | s, [] => .ok ([], s)
  | s, d :: ds => do
    let (v, s') ← s.nextStep fuel d
    let (vs, s'') ← runNext fuel s' ds
    pure (v :: vs, s'')

/-- C21 (part): any number of calls.  If no trigger bit lies above the sixteen steps, the sequencer runs for
ever without panicking, and its position stays inside the sixteen steps. -/
theorem C21_runs_forever_partial (s : Seq) (hv : ValidLoop s) (hs : ShuffleOn s) (hc : s.currentStep < 16)
    (ht : ∀ i, 16 ≤ i → s.trigmask.getLsbD i = false)
    (offs : List ℚ) (hd : ∀ off ∈ offs, ShuffleDraw s off) (fuel : Nat) (hf : 40 ≤ fuel) :
    ∃ vs s', runNext fuel s (offs.map .fin) = .ok (vs, s') ∧ vs.length = offs.length ∧
      s'.currentStep < 16 ∧ (∀ v ∈ vs, ∃ i, v = s.steps i) ∧ s' = { s with currentStep := s'.currentStep } := by
  induction offs generalizing s with
  | nil => exact ⟨[], s, rfl, rfl, hc, by simp, rfl⟩
  | cons d ds ih =>
    obtain ⟨s1, e1, hsame, hpos⟩ := nextStep_ok s hv hs hc d (hd d (by simp)) fuel hf
    have hc1 : s1.currentStep < 16 := by
      rcases hpos with h | ⟨_, _, h⟩
      · rw [h]; exact Nat.mod_lt _ (by norm_num)
      · by_contra hge
        rw [ht _ (by omega)] at h; exact absurd h (by simp)
    have hst : s1.steps = s.steps := by rw [hsame]
    have hsh : s1.shuffle = s.shuffle := by rw [hsame]
    have hls : s1.loopStart = s.loopStart := by rw [hsame]
    have hle : s1.loopEnd = s.loopEnd := by rw [hsame]
    have htm : s1.trigmask = s.trigmask := by rw [hsame]
    obtain ⟨vs, s', e2, hl, hcf, hvals, hs'⟩ := ih s1 (by unfold ValidLoop; rw [hls, hle]; exact hv)
      (by unfold ShuffleOn; rw [hsh]; exact hs) hc1 (by rw [htm]; exact ht)
      (by intro o ho; unfold ShuffleDraw; rw [hsh]; exact hd o (by simp [ho]))
    refine ⟨s.steps ⟨s.currentStep, hc⟩ :: vs, s', ?_, by simp [hl], hcf, ?_, ?_⟩
    · simp [runNext, e1, e2]
    · intro v hv'
      rcases List.mem_cons.mp hv' with rfl | hv'
      · exact ⟨_, rfl⟩
      · obtain ⟨i, hi⟩ := hvals v hv'; exact ⟨i, by rw [hi, hst]⟩
    · rw [hs', hsame]

/-- A sequencer the two theorems above apply to. -/
def demoSeq : Seq :=
  { Seq.default with loopStart := 2, loopEnd := 9, shuffle := .fin (1 / 4), trigmask := 0xFFFF#64 }

example : ValidLoop demoSeq ∧ ShuffleOn demoSeq ∧ demoSeq.currentStep < 16 ∧
    (∀ i, 16 ≤ i → demoSeq.trigmask.getLsbD i = false) ∧ ShuffleDraw demoSeq (1 / 10) := by
  refine ⟨by decide, ⟨1 / 4, rfl, by norm_num, by norm_num⟩, by decide, ?_, ⟨1 / 4, rfl, by norm_num, by norm_num⟩⟩
  intro i hi
  show (BitVec.ofNat 64 0xFFFF).getLsbD i = false
  rw [BitVec.getLsbD_ofNat]
  have : Nat.testBit 65535 i = false :=
    Nat.testBit_lt_two_pow (lt_of_lt_of_le (by norm_num : 65535 < 2 ^ 16) (Nat.pow_le_pow_right (by norm_num) hi))
  simp [this]

/-- C21 is false of the code, first way: with no shuffle (the default, and any amount `≤ 0` or NaN) every call
panics, because the random range is empty. -/
theorem C21_no_shuffle_panics (s : Seq) (hc : s.currentStep < 16)
    (hs : s.shuffle = .nan ∨ ∃ q, s.shuffle = .fin q ∧ q ≤ 0 ∧ -2 ^ 100 ≤ q) (off : F32) (fuel : Nat) :
    s.nextStep fuel off = .panic "cannot sample empty range" := by
  have : s.shuffleAmount.neg.lt s.shuffleAmount = false := by
    unfold Seq.shuffleAmount
    rcases hs with h | ⟨q, h, hq, hq2⟩
    · rw [h]; rfl
    · rw [h]
      have e : (F32.fin q).mul (.fin (1 / 2)) = F32.ofQ (q * (1 / 2)) := rfl
      rw [e, F32.ofQ_fin (by norm_num at *; linarith) (by norm_num; linarith)]
      have : rne (q * (1 / 2)) ≤ 0 := by
        have h := rne_mono (show q * (1 / 2) ≤ 0 by linarith); simpa using h
      simp only [F32.neg, lt_fin, decide_eq_false_iff_not, not_lt]; linarith
  unfold Seq.nextStep
  rw [dif_pos hc]
  simp [this]

example : Seq.default.currentStep < 16 ∧ (∃ q, Seq.default.shuffle = .fin q ∧ q ≤ 0 ∧ -2 ^ 100 ≤ q) :=
  ⟨by decide, 0, rfl, le_refl _, by norm_num⟩

/-- Full-size loop, all trigger bits set, just before wrapping around. -/
def edgeSeq : Seq :=
  { Seq.default with shuffle := .fin 1, trigmask := BitVec.allOnes 64, currentStep := 15 }

theorem rne_edge : rne (16 - 2 ^ (-30 : ℤ)) = 16 := by
  have hlog : Int.log 2 |(16 - 2 ^ (-30 : ℤ) : ℚ)| = 3 := by
    have hp : (0:ℚ) < |16 - 2 ^ (-30 : ℤ)| := by norm_num
    apply le_antisymm
    · have := (Int.lt_zpow_iff_log_lt (R := ℚ) (b := 2) (x := 4) (by norm_num) hp).mp (by norm_num [abs_of_pos])
      omega
    · exact (Int.zpow_le_iff_le_log (R := ℚ) (b := 2) (x := 3) (by norm_num) hp).mp (by norm_num [abs_of_pos])
  have hu : ulpExp (16 - 2 ^ (-30 : ℤ)) = -20 := by unfold ulpExp; rw [hlog]; norm_num
  unfold rne
  rw [hu]
  have hfl : ⌊(16 - 2 ^ (-30 : ℤ)) / (2:ℚ) ^ (-20 : ℤ)⌋ = 16777215 := by
    rw [Int.floor_eq_iff]; constructor <;> norm_num
  have : rhe ((16 - 2 ^ (-30 : ℤ)) / (2:ℚ) ^ (-20 : ℤ)) = 16777216 := by
    unfold rhe; rw [hfl]; norm_num
  rw [this]; norm_num

/-- C21 is false of the code, second way: with all trigger bits set (or just bit 16) a draw just below zero is
rounded up to a full loop length, the position becomes 16, and the next call panics. -/
theorem C21_rounding_escapes :
    ShuffleDraw edgeSeq (-2 ^ (-30 : ℤ)) ∧ ValidLoop edgeSeq ∧
    ∃ s', edgeSeq.nextStep 40 (.fin (-2 ^ (-30 : ℤ))) = .ok (.fin 0, s') ∧ s'.currentStep = 16 ∧
      ∀ fuel off, (s'.nextStep fuel off).isPanic = true := by
  refine ⟨⟨1, rfl, by norm_num, by norm_num⟩, by decide, ?_⟩
  have e0 : F32.ofInt (((edgeSeq.currentStep + 1) % nSteps : Nat) : ℤ) = .fin 0 := by
    have : (edgeSeq.currentStep + 1) % nSteps = 0 := by decide
    rw [this]
    have h := ofInt_nat (n := 0) (by norm_num); simpa using h
  have e0' : F32.ofInt ((edgeSeq.loopStart : Nat) : ℤ) = .fin 0 := by
    show F32.ofInt ((0 : Nat) : ℤ) = .fin 0
    have h := ofInt_nat (n := 0) (by norm_num); simpa using h
  have e15 : F32.ofInt ((edgeSeq.loopEnd : Nat) : ℤ) = .fin 15 := by
    show F32.ofInt ((15 : Nat) : ℤ) = .fin 15
    have h := ofInt_nat (n := 15) (by norm_num); simpa using h
  have hr : rne (-2 ^ (-30 : ℤ)) = -2 ^ (-30 : ℤ) := by rw [rne_neg, rne_zpow (by norm_num)]
  have e1 : F32.ofQ (0 + -2 ^ (-30 : ℤ)) = .fin (-2 ^ (-30 : ℤ)) := by
    rw [zero_add, F32.ofQ_fin (by norm_num) (by norm_num), hr]
  have e2 : F32.ofQ (-2 ^ (-30 : ℤ) + 0) = .fin (-2 ^ (-30 : ℤ)) := by
    rw [add_zero, F32.ofQ_fin (by norm_num) (by norm_num), hr]
  have hv : ValidLoop edgeSeq := by decide
  have e3 : wrapDown edgeSeq 40 (.fin (-2 ^ (-30 : ℤ))) = .ok (.fin (-2 ^ (-30 : ℤ))) := by
    unfold wrapDown
    rw [e15, lt_fin]
    norm_num
  have e4 : wrapUp edgeSeq 40 (.fin (-2 ^ (-30 : ℤ))) = .ok (.fin 16) := by
    unfold wrapUp
    have hlt : (F32.fin (-2 ^ (-30 : ℤ))).lt (.fin 0) = true := by rw [lt_fin]; norm_num
    have hlen : (((edgeSeq.loopEnd - edgeSeq.loopStart + 1 : Nat)) : ℚ) = 16 := by
      have : edgeSeq.loopEnd - edgeSeq.loopStart + 1 = 16 := by decide
      rw [this]; norm_num
    have hadd : (F32.fin (-2 ^ (-30 : ℤ))).add (.fin 16) = .fin 16 := by
      rw [add_fin, F32.ofQ_fin (by norm_num) (by norm_num)]
      rw [show (-2 ^ (-30 : ℤ) + 16 : ℚ) = 16 - 2 ^ (-30 : ℤ) by ring, rne_edge]
    rw [e0', hlt]
    simp only [if_true, loopLen_ok hv, Res.ok_bind, hlen, hadd]
    unfold wrapUp
    rw [e0', lt_fin]
    norm_num
  have hu : (F32.fin 16).toUsize = 16 := by
    have := toUsize_between (r := 16) (a := 16) (b := 16) (by norm_num) (by norm_num) (by norm_num)
    omega
  have hsh : edgeSeq.shuffleAmount.neg.lt edgeSeq.shuffleAmount = true :=
    shuffleAmount_ok ⟨1, rfl, by norm_num, le_refl _⟩
  have hc : edgeSeq.currentStep < 16 := by decide
  refine ⟨{ edgeSeq with currentStep := 16 }, ?_, rfl, ?_⟩
  · unfold Seq.nextStep
    rw [dif_pos hc]
    simp only [hsh, e0, e0', add_fin, e1, e2, e3, e4, Res.ok_bind, hu, shl1_ok (show 16 < 64 by norm_num)]
    rfl
  · intro fuel off
    unfold Seq.nextStep
    rw [dif_neg (by simp)]
    rfl

end Verif
