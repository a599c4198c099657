import Verif.Param.TableProps
import Mathlib.Tactic.IntervalCases
/-!
# Modulation depth, morphing, note names, extended ranges and tempo sync (C64-C68)
-/
namespace Verif.Param
open Verif.Float Verif.Dsp

/-! ## C64: the modulation handle -/

/-- C64. The position of the modulation handle is a number in [-1, 1] for every depth - NaN and infinities included -
and every parameter whose limits are floats. -/
theorem C64_handle_in_range_partial (d : Delegate) (m lo hi : F32) (hmin : d.min = .float lo) (hmax : d.max = .float hi) :
    ∃ q, getModulationF01 d m = .ok (.fin q) ∧ -1 ≤ q ∧ q ≤ 1 := by
  unfold getModulationF01
  by_cases h : d.ctype = .nil ∨ d.vtype ≠ .vtFloat
  · rw [if_pos h]; exact ⟨0, rfl, by norm_num, by norm_num⟩
  · rw [if_neg h, hmin, hmax]
    dsimp only
    obtain ⟨q, hq, h1, h2⟩ := limit_in (divF m (F32.sub hi lo)) (lo := -1) (hi := 1) (by norm_num)
    exact ⟨q, by rw [hq], h1, h2⟩

/-- C64. Setting the handle and reading it back gives the same position up to a rounding error below a millionth. -/
theorem C64_handle_roundtrip_partial (d : Delegate) {v lo hi : ℚ} (hc : d.ctype ≠ .nil) (ht : d.vtype = .vtFloat)
    (hmin : d.min = .float (.fin lo)) (hmax : d.max = .float (.fin hi)) (bl : |lo| ≤ 2 ^ 14) (bh : |hi| ≤ 2 ^ 14)
    (hw : lo + 1 / 1000 ≤ hi) (hv : |v| ≤ 1) :
    ∃ m r, setModulationF01 d (.fin v) = .ok m ∧ getModulationF01 d m = .ok (.fin r) ∧ |r - v| ≤ 1 / 2 ^ 20 := by
  have hn : ¬ (d.ctype = .nil ∨ d.vtype ≠ .vtFloat) := by rintro (h | h); exacts [hc h, h ht]
  have bl' := abs_le.mp bl
  have bh' := abs_le.mp bh
  have hv' := abs_le.mp hv
  have W0 : (1:ℚ) / 2000 ≤ rne (hi - lo) := by
    have := abs_le.mp (rne_err (hi - lo))
    rw [abs_of_nonneg (by linarith)] at this
    have t : (1:ℚ) / 2 ^ 150 ≤ 1 / 10000000 := by norm_num
    have : (hi - lo) / 2 ^ 24 ≤ (hi - lo) / 10 := by gcongr <;> linarith
    linarith
  have W1 : |rne (hi - lo)| ≤ 2 ^ 15 := rne_abs (by rw [abs_le]; constructor <;> linarith)
  have hs : F32.sub (.fin hi) (.fin lo) = .fin (rne (hi - lo)) :=
    sub_fin (le_trans bh (by norm_num)) (le_trans bl (by norm_num))
  generalize rne (hi - lo) = W at *
  have W1' : W ≤ 2 ^ 15 := (abs_le.mp W1).2
  have Wpos : 0 < W := by linarith
  have bm : |v * W| ≤ 2 ^ 15 := by
    rw [abs_mul]; have := mul_le_mul hv W1 (abs_nonneg _) (by norm_num); linarith
  have hm : F32.mul (.fin v) (.fin W) = .fin (rne (v * W)) := mul_fin (le_trans bm (by norm_num))
  have dm := abs_le.mp (rne_err (v * W))
  have e1 : |v * W| ≤ W := by
    rw [abs_mul, abs_of_pos Wpos]; have := mul_le_mul_of_nonneg_right hv Wpos.le; linarith
  have e2 : |v * W| / 2 ^ 24 ≤ W / 2 ^ 24 := by gcongr
  have t : (1:ℚ) / 2 ^ 150 ≤ W / 2 ^ 130 := by
    rw [div_le_div_iff₀ (by positivity) (by positivity)]
    have : (1:ℚ) / 2000 * 2 ^ 150 ≤ W * 2 ^ 150 := by gcongr
    norm_num at this ⊢; linarith
  generalize hP : rne (v * W) = P at *
  have q1 : P / W ≤ v + 1 / 2 ^ 24 + 1 / 2 ^ 130 := by
    rw [div_le_iff₀ Wpos]
    have : (v + 1 / 2 ^ 24 + 1 / 2 ^ 130) * W = v * W + W / 2 ^ 24 + W / 2 ^ 130 := by ring
    rw [this]; linarith
  have q2 : v - 1 / 2 ^ 24 - 1 / 2 ^ 130 ≤ P / W := by
    rw [le_div_iff₀ Wpos]
    have : (v - 1 / 2 ^ 24 - 1 / 2 ^ 130) * W = v * W - W / 2 ^ 24 - W / 2 ^ 130 := by ring
    rw [this]; linarith
  have qb : |P / W| ≤ 2 := by rw [abs_le]; norm_num at q1 q2 ⊢; constructor <;> linarith
  have hd : divF (.fin P) (.fin W) = .fin (rne (P / W)) := div_fin (ne_of_gt Wpos) (le_trans qb (by norm_num))
  have dd := abs_le.mp (rne_dist qb)
  refine ⟨.fin P, Spec.clamp (-1) 1 (rne (P / W)), ?_, ?_, ?_⟩
  · unfold setModulationF01; rw [if_neg hn, hmin, hmax]; dsimp only; rw [hs, hm]
  · unfold getModulationF01; rw [if_neg hn, hmin, hmax]; dsimp only
    rw [hs, hd, (C61_limit_range (.fin (rne (P / W))) (lo := -1) (hi := 1) (by norm_num)).2.1 _ rfl]
  · refine le_trans (clamp_dist hv'.1 hv'.2) ?_
    generalize P / W = r at *
    rw [abs_le]; norm_num at q1 q2 dd ⊢; constructor <;> linarith

/-- Non-vacuity: a parameter from -60 to 70 and the position 1/3 meet the hypotheses. -/
example : ∃ m r, setModulationF01 ⟨.freqHpf, .float (.fin 0), .float (.fin (-60)), .float (.fin 70), .vtFloat, false, true⟩
    (.fin (1 / 3)) = .ok m ∧ getModulationF01 ⟨.freqHpf, .float (.fin 0), .float (.fin (-60)), .float (.fin 70), .vtFloat, false, true⟩
    m = .ok (.fin r) ∧ |r - 1 / 3| ≤ 1 / 2 ^ 20 :=
  C64_handle_roundtrip_partial _ (by decide) rfl rfl rfl (by norm_num) (by norm_num) (by norm_num) (by norm_num)

set_option maxRecDepth 100000 in
theorem table_vtype : ∀ e ∈ allParams, e.ctype ≠ .nil → e.vtype = .vtFloat →
    (match e.min, e.max with | .float _, .float _ => true | _, _ => false) = true ∨
      (e.key = ("FilterParam", "Type") ∨ e.key = ("FilterParam", "SubType")) := by
  decide +kernel

/-- C64. For every parameter of the synthesizer except the filter's type and subtype the handle position is a number in
[-1, 1], whatever the depth. -/
theorem C64_every_handle_partial (e : Entry) (he : e ∈ allParams) (h1 : e.key ≠ ("FilterParam", "Type"))
    (h2 : e.key ≠ ("FilterParam", "SubType")) (m : F32) :
    ∃ q, getModulationF01 e.delegate m = .ok (.fin q) ∧ -1 ≤ q ∧ q ≤ 1 := by
  by_cases h : e.ctype = .nil ∨ e.vtype ≠ .vtFloat
  · unfold getModulationF01
    rw [if_pos (show e.delegate.ctype = .nil ∨ e.delegate.vtype ≠ .vtFloat from h)]
    exact ⟨0, rfl, by norm_num, by norm_num⟩
  · push Not at h
    rcases table_vtype e he h.1 h.2 with h3 | h3 | h3
    · split at h3
      · rename_i lo hi e1 e2
        exact C64_handle_in_range_partial e.delegate m (flit lo) (flit hi) (by simp [Entry.delegate, e1, Lit.toPData])
          (by simp [Entry.delegate, e2, Lit.toPData])
      · exact absurd h3 (by simp)
    · exact absurd h3 h1
    · exact absurd h3 h2

/-- C64 is false of the code for the filter's type and subtype, which claim to be floats and have integer limits: reading
or setting their modulation panics. -/
theorem C64_filter_type_panics (e : Entry) (he : e ∈ allParams)
    (hk : e.key = ("FilterParam", "Type") ∨ e.key = ("FilterParam", "SubType")) (m : F32) :
    getModulationF01 e.delegate m = .panic "unreachable" ∧ setModulationF01 e.delegate m = .panic "unreachable" := by
  have h : ∀ e ∈ allParams, (e.key = ("FilterParam", "Type") ∨ e.key = ("FilterParam", "SubType")) →
      e.ctype ≠ .nil ∧ e.vtype = .vtFloat ∧ e.min = .int 0 := by decide +kernel
  obtain ⟨h1, h2, h3⟩ := h e he hk
  have hn : ¬ (e.delegate.ctype = .nil ∨ e.delegate.vtype ≠ .vtFloat) := by rintro (h | h); exacts [h1 h, h h2]
  have hm : e.delegate.min = .int 0 := by simp [Entry.delegate, h3, Lit.toPData]
  unfold getModulationF01 setModulationF01
  rw [if_neg hn, if_neg hn, hm]
  exact ⟨rfl, rfl⟩

/-! ## C65: morphing -/

theorem rne_one : rne 1 = 1 := by simpa using rne_intCast 1 (by norm_num)
theorem rne_zero : rne 0 = 0 := by simpa using rne_intCast 0 (by norm_num)

/-- The exact mix of two numbers. -/
def Spec.mix (x a b : ℚ) : ℚ := (1 - x) * a + x * b

/-- C65. Morphing between two parameters of one control type: position 0 is exactly the first value, position 1 exactly
the second, and in between the result is the exact mix up to an explicit rounding error. -/
theorem C65_morph_float (p q : Param) {x a b M : ℚ} (hp : p.val = .float (.fin a)) (hq : q.val = .float (.fin b))
    (ha : Spec.IsF32 a) (hb : Spec.IsF32 b) (hc : p.d.ctype = q.d.ctype) (bM : M ≤ 2 ^ 90) (ba : |a| ≤ M) (bb : |b| ≤ M)
    (x0 : 0 ≤ x) (x1 : x ≤ 1) :
    ∃ r, morph p q (.fin x) = .float (.fin r) ∧ |r - Spec.mix x a b| ≤ M / 2 ^ 21 + 1 / 2 ^ 147 ∧
      (x = 0 → r = a) ∧ (x = 1 → r = b) := by
  have M0 : 0 ≤ M := le_trans (abs_nonneg _) ba
  have ba' := abs_le.mp ba
  have bb' := abs_le.mp bb
  have hy : F32.sub (.fin 1) (.fin x) = .fin (rne (1 - x)) :=
    sub_fin (by norm_num) (by rw [abs_of_nonneg x0]; linarith)
  have y0 : 0 ≤ rne (1 - x) := rne_nonneg (by linarith)
  have y1 : rne (1 - x) ≤ 1 := by have := rne_mono (show 1 - x ≤ 1 by linarith); rwa [rne_one] at this
  have dy := abs_le.mp (rne_dist (q := 1 - x) (b := 1) (by rw [abs_of_nonneg (by linarith)]; linarith))
  have bya : |rne (1 - x) * a| ≤ M := by
    rw [abs_mul, abs_of_nonneg y0]
    have := mul_le_mul y1 ba (abs_nonneg _) (by norm_num); linarith
  have bxb : |x * b| ≤ M := by
    rw [abs_mul, abs_of_nonneg x0]
    have := mul_le_mul x1 bb (abs_nonneg _) (by norm_num); linarith
  have h1 := mul_fin (a := rne (1 - x)) (b := a) (le_trans bya (le_trans bM (by norm_num)))
  have h2 := mul_fin (a := x) (b := b) (le_trans bxb (le_trans bM (by norm_num)))
  have d1 := abs_le.mp (rne_dist bya)
  have d2 := abs_le.mp (rne_dist bxb)
  have bya' := abs_le.mp bya
  have bxb' := abs_le.mp bxb
  have tiny : (1:ℚ) / 2 ^ 150 ≤ 1 := by norm_num
  have bs : |rne (rne (1 - x) * a) + rne (x * b)| ≤ 3 * M + 1 / 2 ^ 148 := by
    have : M / 2 ^ 24 ≤ M / 4 := by gcongr <;> norm_num
    rw [abs_le]; norm_num at d1 d2 ⊢; constructor <;> linarith
  have h3 := add_fin (a := rne (rne (1 - x) * a)) (b := rne (x * b)) (by
    refine le_trans bs ?_
    have : (3:ℚ) * 2 ^ 90 + 1 / 2 ^ 148 ≤ 2 ^ 100 := by norm_num
    linarith)
  have d3 := abs_le.mp (rne_dist bs)
  refine ⟨rne (rne (rne (1 - x) * a) + rne (x * b)), ?_, ?_, ?_, ?_⟩
  · unfold morph; rw [hp, hq]; dsimp only; rw [if_pos hc]; unfold morphF; rw [hy, h1, h2, h3]
  · have e : |rne (1 - x) * a - (1 - x) * a| ≤ (1 / 2 ^ 24 + 1 / 2 ^ 150) * M := by
      rw [← sub_mul, abs_mul]
      exact mul_le_mul (abs_le.mpr ⟨dy.1, dy.2⟩) ba (abs_nonneg _) (by norm_num)
    have e' := abs_le.mp e
    unfold Spec.mix
    generalize rne (rne (rne (1 - x) * a) + rne (x * b)) = r at *
    generalize rne (rne (1 - x) * a) = s at *
    generalize rne (1 - x) * a = s' at *
    generalize rne (x * b) = u at *
    generalize x * b = u' at *
    generalize (1 - x) * a = w at *
    rw [abs_le]; norm_num at d1 d2 d3 e' ⊢; constructor <;> linarith
  · rintro rfl
    rw [sub_zero, rne_one, one_mul, zero_mul, rne_zero, add_zero, rne_idem]; exact ha
  · rintro rfl
    rw [sub_self, rne_zero, zero_mul, one_mul, rne_zero, zero_add, rne_idem]; exact hb

/-- Non-vacuity: two parameters of the same type, a third of the way. -/
example (d : Delegate) : ∃ r, morph ⟨d, .float (.fin 3), .int 0, false, false, false, false⟩
    ⟨d, .float (.fin 5), .int 0, false, false, false, false⟩ (.fin (1 / 4)) = .float (.fin r) ∧
    |r - Spec.mix (1 / 4) 3 5| ≤ 5 / 2 ^ 21 + 1 / 2 ^ 147 := by
  have h3 : Spec.IsF32 3 := by unfold Spec.IsF32; simpa using rne_intCast 3 (by norm_num)
  have h5 : Spec.IsF32 5 := by unfold Spec.IsF32; simpa using rne_intCast 5 (by norm_num)
  obtain ⟨r, h1, h2, _⟩ := C65_morph_float ⟨d, .float (.fin 3), .int 0, false, false, false, false⟩
    ⟨d, .float (.fin 5), .int 0, false, false, false, false⟩ (x := 1 / 4) (M := 5) rfl rfl h3 h5 rfl (by norm_num) (by norm_num)
    (by norm_num) (by norm_num) (by norm_num)
  exact ⟨r, h1, h2⟩

/-- C65. Anything else - integers, switches, or different control types - is not mixed: the result is the first value up
to and including the middle, and the second beyond it. -/
theorem C65_morph_other (p q : Param) (x : ℚ) (h : (∀ a b, p.val = .float a → q.val = .float b → p.d.ctype ≠ q.d.ctype)) :
    morph p q (.fin x) = if 1 / 2 < x then q.val else p.val := by
  have hh : flit (1 / 2) = .fin (1 / 2) := by
    rw [flit_eq (by norm_num)]
    have := rne_zpow (e := -1) (by norm_num)
    norm_num at this
    rw [show (1:ℚ) / 2 = 2⁻¹ by norm_num]; simpa using this
  unfold morph
  dsimp only
  split
  · rename_i f1 f2 h1 h2
    rw [if_neg (h f1 f2 h1 h2), hh]
    simp [F32.lt]
  · rw [hh]; simp [F32.lt]

/-- C65. The in-place variant gives the same value, and everything else of the parameter comes from one of the two. -/
theorem C65_morph_alt (p q : Param) (x : F32) :
    (morphAlt p q x).val = morph p q x ∧ ((morphAlt p q x).d = p.d ∨ morphAlt p q x = q) := by
  unfold morphAlt morph
  dsimp only
  split
  · split_ifs <;> simp
  · split_ifs <;> simp

theorem morph_eval : morphF (.fin (5368709 / 268435456)) (.fin 60) (.fin 60) = .fin (15728641 / 262144) := by
  decide +kernel

/-- C65 is false of the code in one respect: the mix of two values inside the range can lie outside it. Two parameters
at their upper limit 60, morphed by the `f32` 0.02, give 60.000004. -/
theorem C65_leaves_range (d : Delegate) (hmin : d.min = .float (.fin 0)) (hmax : d.max = .float (.fin 60)) :
    ∃ x : ℚ, Spec.IsF32 x ∧ 0 ≤ x ∧ x ≤ 1 ∧
      ¬ Spec.InRange d.min d.max (morph ⟨d, .float (.fin 60), .float (.fin 0), false, false, false, false⟩
        ⟨d, .float (.fin 60), .float (.fin 0), false, false, false, false⟩ (.fin x)) := by
  refine ⟨5368709 / 268435456, by unfold Spec.IsF32; decide +kernel, by norm_num, by norm_num, ?_⟩
  simp only [morph, if_true, morph_eval, hmin, hmax]
  rintro ⟨l, h, q, e1, e2, e3, h1, h2⟩
  simp only [F32.fin.injEq] at e1 e2 e3
  subst e1 e2 e3
  norm_num at h2

/-! ## C66: note names -/

/-- The decimal numeral of an integer determines it. -/
theorem int_repr_inj {a b : Int} (h : toString a = toString b) : a = b := by
  have nat : ∀ m n : Nat, m.repr = n.repr → m = n := by
    intro m n h
    have h := congrArg String.toList h
    rw [Nat.toList_repr, Nat.toList_repr] at h
    have := congrArg (fun l => Nat.ofDigitChars 10 l 0) h
    simpa using this
  have sep : ∀ m n : Nat, m.repr ≠ "-" ++ n.repr := by
    intro m n h
    have h := congrArg String.toList h
    rw [Nat.toList_repr, String.toList_append] at h
    have hm : '-' ∈ Nat.toDigits 10 m := by rw [h]; simp
    have := Nat.isDigit_of_mem_toDigits (by norm_num) (by norm_num) hm
    simp at this
  rw [Int.toString_eq_repr, Int.toString_eq_repr, Int.repr_eq_if, Int.repr_eq_if] at h
  split_ifs at h with h1 h2 h2
  · have := nat _ _ h; omega
  · exact absurd h (sep _ _)
  · exact absurd h.symm (sep _ _)
  · have h := congrArg String.toList h
    rw [String.toList_append, String.toList_append] at h
    have := nat _ _ (String.toList_inj.mp (List.append_cancel_left h))
    omega

/-- The twelve note names. -/
def Spec.noteName (k : Nat) : String :=
  (["C ", "C#", "D ", "D#", "E ", "F ", "F#", "G ", "G#", "A ", "A#", "B "] : List String).getD k ""

/-- C66. The name of a note number from 0 upward is its name in the octave followed by the octave number (note 60 is
`C 3`), and no two notes have the same name. -/
theorem C66_note_names_partial (i : Int) (hi : 0 ≤ i) :
    getNotename i = .ok (Spec.noteName (i % 12).toNat ++ toString (i / 12 - 2)) ∧
    (∀ j : Int, 0 ≤ j → getNotename j = getNotename i → j = i) := by
  have eq : ∀ i : Int, 0 ≤ i → getNotename i = .ok (Spec.noteName (i % 12).toNat ++ toString (i / 12 - 2)) := by
    intro i hi
    have h0 := Int.emod_nonneg i (show (12:Int) ≠ 0 by norm_num)
    have h1 := Int.emod_lt_of_pos i (show (0:Int) < 12 by norm_num)
    unfold getNotename
    rw [Int.tmod_eq_emod_of_nonneg hi, Int.tdiv_eq_ediv_of_nonneg hi, if_neg (by omega)]
    have hk : (i % 12).toNat < 12 := by omega
    generalize (i % 12).toNat = k at *
    interval_cases k <;> rfl
  refine ⟨eq i hi, fun j hj h => ?_⟩
  rw [eq i hi, eq j hj] at h
  simp only [Res.ok.injEq] at h
  have h0 := Int.emod_nonneg i (show (12:Int) ≠ 0 by norm_num)
  have h1 := Int.emod_lt_of_pos i (show (0:Int) < 12 by norm_num)
  have g0 := Int.emod_nonneg j (show (12:Int) ≠ 0 by norm_num)
  have g1 := Int.emod_lt_of_pos j (show (0:Int) < 12 by norm_num)
  have hl := congrArg String.toList h
  rw [String.toList_append, String.toList_append] at hl
  have len : ∀ k, k < 12 → (Spec.noteName k).toList.length = 2 := by decide
  have inj : ∀ k, k < 12 → ∀ l, l < 12 → (Spec.noteName k).toList = (Spec.noteName l).toList → k = l := by decide
  have hlen := (len (j % 12).toNat (by omega)).trans (len (i % 12).toNat (by omega)).symm
  obtain ⟨a1, a2⟩ := List.append_inj hl hlen
  have m := inj _ (by omega) _ (by omega) a1
  have d := int_repr_inj (String.toList_inj.mp a2)
  omega

example : getNotename 60 = .ok "C 3" := by decide +kernel

/-- C66 is false of the code below 0 (a tuning or a transposition can get there): the name of a negative note that is
not a C panics. -/
theorem C66_negative_notes (i : Int) (hi : i < 0) :
    (i % 12 ≠ 0 → getNotename i = .panic "unwrap of Err: TryFromIntError") ∧
    (i % 12 = 0 → getNotename i = .ok ("C " ++ toString (i / 12 - 2))) := by
  constructor
  · intro h
    unfold getNotename
    rw [if_pos]
    rw [Int.tmod_eq_emod, if_neg]
    · have := Int.emod_lt_of_pos i (show (0:Int) < 12 by norm_num)
      have e : ((Int.natAbs 12 : Nat) : Int) = 12 := rfl
      rw [e]; omega
    · rintro (h1 | h1)
      · omega
      · exact h (Int.emod_eq_zero_of_dvd h1)
  · intro h
    obtain ⟨k, rfl⟩ := Int.dvd_of_emod_eq_zero h
    unfold getNotename
    rw [Int.mul_tmod_right, Int.mul_tdiv_cancel_left _ (by norm_num), Int.mul_ediv_cancel_left _ (by norm_num)]
    rfl

/-! ## C67: extended ranges, flags -/

/-- C67. A control type can extend its range exactly if extending multiplies its value, by a factor of at least three. -/
theorem C67_can_extend (c : CType) :
    (canExtendRange c = true ↔ ∃ k, extendFactor c = some k) ∧ (∀ k, extendFactor c = some k → 3 ≤ k) := by
  cases c <;> simp [canExtendRange, extendFactor] <;> norm_num

/-- C67 is false of the code: no parameter of the synthesizer can ever be extended, and the snap flag cannot be changed
either - the setters write fields that the getters do not read. -/
theorem C67_flags_have_no_effect (p : Param) (x : Bool) (f : F32) :
    getExtendRange (setExtendRange p x) = getExtendRange p ∧ getExtended (setExtendRange p x) f = getExtended p f ∧
    getSnap (setSnap p x) = getSnap p ∧ getSnap (clearFlags p) = getSnap p ∧
    (∀ e ∈ allParams, p.d = e.delegate → getExtended (setExtendRange p true) f = f) := by
  refine ⟨rfl, rfl, rfl, rfl, fun e _ h => ?_⟩
  unfold getExtended setExtendRange
  dsimp only
  rw [h]
  rfl

/-! ## C68: tempo sync -/

theorem half_lit : flit (1 / 2) = .fin (1 / 2) := by decide +kernel

/-- The fraction of a number, as the code rounds it. -/
theorem syncValue_spec (F : Fns) {q : ℚ} (hq : Spec.IsF32 q) (h : |q| ≤ 2 ^ 20) :
    ∃ b : ℚ, syncValue F (.fin q) = .ok (F32.add (.fin ⌊q⌋) (snapFraction F (.fin b))) ∧ |b - Int.fract q| ≤ 1 / 2 ^ 20 := by
  have hb := abs_le.mp h
  by_cases h0 : q = 0
  · refine ⟨0, ?_, by rw [h0]; norm_num⟩
    subst h0
    simp [syncValue, splitFloat, F32.lt]
  -- the integral part and its bounds
  have tb : |F32.truncQ q| ≤ 2 ^ 20 ∧ |q - F32.truncQ q| ≤ 1 ∧
      ((q < F32.truncQ q ∧ (⌊q⌋ : ℤ) = F32.truncQ q - 1) ∨ ((F32.truncQ q : ℚ) ≤ q ∧ ⌊q⌋ = F32.truncQ q)) := by
    unfold F32.truncQ
    have f1 := Int.floor_le q
    have f2 := Int.lt_floor_add_one q
    have c1 := Int.le_ceil q
    have c2 := Int.ceil_lt_add_one q
    split_ifs with c
    · have h1 : 0 ≤ ⌊q⌋ := Int.floor_nonneg.mpr c
      have h2 : ⌊q⌋ ≤ 2 ^ 20 := by
        have : (⌊q⌋:ℚ) ≤ ((2 ^ 20 : ℤ) : ℚ) := by push_cast; linarith
        exact_mod_cast this
      refine ⟨by rw [abs_of_nonneg h1]; exact h2, by rw [abs_le]; constructor <;> linarith, Or.inr ⟨f1, rfl⟩⟩
    · have h1 : ⌈q⌉ ≤ 0 := Int.ceil_le.mpr (by push_cast; linarith)
      have h2 : -2 ^ 20 ≤ ⌈q⌉ := by
        have : ((-2 ^ 20 : ℤ) : ℚ) ≤ (⌈q⌉:ℚ) := by push_cast; linarith
        exact_mod_cast this
      refine ⟨by rw [abs_le]; constructor <;> omega, by rw [abs_le]; constructor <;> linarith, ?_⟩
      rcases lt_or_eq_of_le c1 with h3 | h3
      · refine Or.inl ⟨h3, ?_⟩
        rw [Int.floor_eq_iff]
        push_cast
        constructor <;> linarith
      · refine Or.inr ⟨h3.symm.le, ?_⟩
        rw [Int.floor_eq_iff]
        constructor <;> linarith
  obtain ⟨t1, t2, t3⟩ := tb
  have hint : Spec.IsF32 (F32.truncQ q : ℚ) := rne_intCast _ (le_trans t1 (by norm_num))
  have ei : F32.ofInt (F32.truncQ q) = .fin (F32.truncQ q) := F32.ofInt_eq (le_trans t1 (by norm_num))
  have tq : |((F32.truncQ q : ℤ) : ℚ)| ≤ 2 ^ 20 := by
    have := Int.cast_le (R := ℚ) |>.mpr t1
    rw [Int.cast_abs] at this
    push_cast at this; exact this
  have es : F32.sub (.fin q) (.fin (F32.truncQ q)) = .fin (rne (q - F32.truncQ q)) :=
    sub_fin (le_trans h (by norm_num)) (le_trans tq (by norm_num))
  have dr := abs_le.mp (rne_dist t2)
  have split : splitFloat (.fin q) = .ok (.fin (F32.truncQ q), .fin (rne (q - F32.truncQ q))) := by
    unfold splitFloat
    dsimp only
    rw [if_neg h0, if_pos (by rw [abs_le] at t1; omega), ei, es]
  unfold syncValue
  rw [split, Res.ok_bind]
  dsimp only
  rcases t3 with ⟨g1, g2⟩ | ⟨g1, g2⟩
  · have neg : rne (q - F32.truncQ q) < 0 := by
      have := rne_sub_pos hq hint g1
      rw [show q - (F32.truncQ q : ℚ) = -((F32.truncQ q : ℚ) - q) by ring, rne_neg]; linarith
    have hn : F32.lt (.fin (rne (q - F32.truncQ q))) (.fin 0) = true := by simp [F32.lt, neg]
    rw [if_pos hn, if_pos hn]
    have nb : -1 - 1 / 2 ^ 23 ≤ rne (q - F32.truncQ q) := by
      have := abs_le.mp t2; norm_num at dr ⊢; linarith
    have b1 : |rne (q - F32.truncQ q) + 1| ≤ 1 := by
      rw [abs_le]; norm_num at nb ⊢; constructor <;> linarith
    rw [add_fin (le_trans b1 (by norm_num)), sub_fin (le_trans tq (by norm_num)) (by norm_num)]
    refine ⟨rne (rne (q - F32.truncQ q) + 1), ?_, ?_⟩
    · congr 2
      rw [g2]; push_cast
      have := rne_intCast (F32.truncQ q - 1) (by rw [abs_le] at t1 ⊢; constructor <;> omega)
      push_cast at this
      rw [this]
    · have d2 := abs_le.mp (rne_dist b1)
      have hf : Int.fract q = q - F32.truncQ q + 1 := by unfold Int.fract; rw [g2]; push_cast; ring
      rw [hf, abs_le]
      generalize rne (rne (q - F32.truncQ q) + 1) = u at *
      generalize rne (q - F32.truncQ q) = w at *
      norm_num at dr d2 ⊢
      constructor <;> linarith
  · have nn : 0 ≤ rne (q - F32.truncQ q) := rne_nonneg (by linarith)
    have hn : ¬ F32.lt (.fin (rne (q - F32.truncQ q))) (.fin 0) = true := by simp [F32.lt, nn]
    rw [if_neg hn, if_neg hn]
    refine ⟨_, by rw [g2], ?_⟩
    have hf : Int.fract q = q - F32.truncQ q := by unfold Int.fract; rw [g2]
    rw [hf, abs_le]
    norm_num at dr ⊢
    constructor <;> linarith

/-- The three positions inside an octave of note lengths: a plain, a triplet and a dotted note. -/
def Spec.fractions (F : Fns) : List F32 := [.fin 0, F.log2 (flit (13333334 / 10000000)), F.log2 (flit (3 / 2))]

/-- C68. A tempo-synced value always lands on a whole number of octaves plus a plain, triplet or dotted note, unless it is
cut off at a limit of the range: the only values a synced parameter takes. -/
theorem C68_sync_lands (F : Fns) (p : Param) {q lo hi : ℚ} (hv : p.val = .float (.fin q)) (hq : Spec.IsF32 q) (h : |q| ≤ 2 ^ 20)
    (hmin : p.d.min = .float (.fin lo)) (hmax : p.d.max = .float (.fin hi)) (ht : p.temposync = true) :
    ∃ s ∈ Spec.fractions F, boundValue F p false =
      .ok { p with val := .float (limitRange (F32.add (.fin ⌊q⌋) s) (.fin lo) (.fin hi)) } := by
  obtain ⟨b, hb, _⟩ := syncValue_spec F hq h
  refine ⟨snapFraction F (.fin b), ?_, ?_⟩
  · unfold snapFraction Spec.fractions
    dsimp only
    split_ifs <;> simp
  · simp [boundValue, hv, ht, hb, limitParameterRange, hmin, hmax]

/-- C68. Without tempo sync the value is only cut off at the limits. -/
theorem C68_no_sync (F : Fns) (p : Param) {q lo hi : ℚ} (hv : p.val = .float (.fin q)) (hle : lo ≤ hi)
    (hmin : p.d.min = .float (.fin lo)) (hmax : p.d.max = .float (.fin hi)) (ht : p.temposync = false) :
    boundValue F p false = .ok { p with val := .float (.fin (Spec.clamp lo hi q)) } := by
  have := (C61_limit_range (.fin q) hle).2.1 q rfl
  simp [boundValue, hv, ht, limitParameterRange, hmin, hmax, this]

/-- What is needed of the platform's `powf` and `log2`: a few per cent of accuracy at three places. -/
structure Fns.Accurate (F : Fns) : Prop where
  dotted : ∃ l, F.log2 (flit (3 / 2)) = .fin l ∧ 58 / 100 ≤ l ∧ l ≤ 59 / 100
  triplet : ∃ l, F.log2 (flit (13333334 / 10000000)) = .fin l ∧ 41 / 100 ≤ l ∧ l ≤ 42 / 100
  pow_dotted : ∀ b : ℚ, 57 / 100 ≤ b → b ≤ 60 / 100 → ∃ y, F.pow2 (.fin b) = .fin y ∧ 145 / 100 ≤ y
  pow_triplet : ∀ b : ℚ, 40 / 100 ≤ b → b ≤ 43 / 100 → ∃ y, F.pow2 (.fin b) = .fin y ∧ 12 / 10 ≤ y ∧ y ≤ 14 / 10
  pow_plain : ∀ b : ℚ, |b| ≤ 1 / 100 → ∃ y, F.pow2 (.fin b) = .fin y ∧ y ≤ 11 / 10

theorem lit141 : flit (141 / 100) = .fin (rne (141 / 100)) ∧ |rne (141 / 100) - 141 / 100| ≤ 1 / 1000000 := by
  refine ⟨flit_eq (by norm_num), le_trans (rne_dist (b := 2) (by norm_num)) (by norm_num)⟩

theorem lit1167 : flit (1167 / 1000) = .fin (rne (1167 / 1000)) ∧ |rne (1167 / 1000) - 1167 / 1000| ≤ 1 / 1000000 := by
  refine ⟨flit_eq (by norm_num), le_trans (rne_dist (b := 2) (by norm_num)) (by norm_num)⟩

theorem snap_plain {F : Fns} (hF : F.Accurate) {b : ℚ} (h : |b| ≤ 1 / 100) : snapFraction F (.fin b) = .fin 0 := by
  obtain ⟨y, hy, h1⟩ := hF.pow_plain b h
  obtain ⟨e1, d1⟩ := lit141
  obtain ⟨e2, d2⟩ := lit1167
  have d1 := abs_le.mp d1
  have d2 := abs_le.mp d2
  unfold snapFraction
  dsimp only
  rw [hy, e1, e2, if_neg, if_neg]
  · simp only [F32.lt, decide_eq_true_eq, not_lt]; linarith
  · simp only [F32.lt, decide_eq_true_eq, not_lt]; linarith

theorem snap_triplet {F : Fns} (hF : F.Accurate) {b : ℚ} (h1 : 40 / 100 ≤ b) (h2 : b ≤ 43 / 100) :
    snapFraction F (.fin b) = F.log2 (flit (13333334 / 10000000)) := by
  obtain ⟨y, hy, h1, h2⟩ := hF.pow_triplet b h1 h2
  obtain ⟨e1, d1⟩ := lit141
  obtain ⟨e2, d2⟩ := lit1167
  have d1 := abs_le.mp d1
  have d2 := abs_le.mp d2
  unfold snapFraction
  dsimp only
  rw [hy, e1, e2, if_neg, if_pos]
  · simp only [F32.lt, decide_eq_true_eq]; linarith
  · simp only [F32.lt, decide_eq_true_eq, not_lt]; linarith

theorem snap_dotted {F : Fns} (hF : F.Accurate) {b : ℚ} (h1 : 57 / 100 ≤ b) (h2 : b ≤ 60 / 100) :
    snapFraction F (.fin b) = F.log2 (flit (3 / 2)) := by
  obtain ⟨y, hy, h1⟩ := hF.pow_dotted b h1 h2
  obtain ⟨e1, d1⟩ := lit141
  have d1 := abs_le.mp d1
  unfold snapFraction
  dsimp only
  rw [hy, e1, if_pos]
  simp only [F32.lt, decide_eq_true_eq]; linarith

/-- A synced number stays where it is. -/
theorem sync_fixed {F : Fns} (hF : F.Accurate) {n : ℤ} (hn : |n| ≤ 2 ^ 11) {s : F32} (hs : s ∈ Spec.fractions F) :
    ∃ r, F32.add (.fin n) s = .fin r ∧ Spec.IsF32 r ∧ |r| ≤ 2 ^ 12 ∧ syncValue F (.fin r) = .ok (.fin r) := by
  have nq : |(n : ℚ)| ≤ 2 ^ 11 := by
    have := Int.cast_le (R := ℚ) |>.mpr hn
    rw [Int.cast_abs] at this; push_cast at this; exact this
  have nq' := abs_le.mp nq
  -- all three cases: a fraction `l` in [0, 6/10] and the code choosing it again
  have gen : ∀ l : ℚ, s = .fin l → 0 ≤ l → l ≤ 59 / 100 → (l = 0 ∨ 41 / 100 ≤ l) →
      (∀ b : ℚ, |b - l| ≤ 1 / 1000 → snapFraction F (.fin b) = s) →
      ∃ r, F32.add (.fin n) s = .fin r ∧ Spec.IsF32 r ∧ |r| ≤ 2 ^ 12 ∧ syncValue F (.fin r) = .ok (.fin r) := by
    intro l hl l0 l1 l2 hsnap
    have bs : |(n:ℚ) + l| ≤ 2 ^ 12 := by rw [abs_le]; constructor <;> linarith
    have ea := add_fin (a := (n:ℚ)) (b := l) (le_trans bs (by norm_num))
    have dr := abs_le.mp (rne_dist bs)
    have idr : Spec.IsF32 (rne (n + l)) := rne_idem _
    have br := rne_abs bs
    have hfl : ⌊rne ((n:ℚ) + l)⌋ = n := by
      rw [Int.floor_eq_iff]
      rcases l2 with rfl | l2
      · rw [add_zero, rne_intCast n (le_trans hn (by norm_num))]
        exact ⟨le_refl _, by linarith⟩
      · norm_num at dr
        constructor <;> linarith
    refine ⟨rne (n + l), by rw [hl, ea], idr, br, ?_⟩
    obtain ⟨b, hb, db⟩ := syncValue_spec F idr (le_trans br (by norm_num))
    rw [hb, hfl, hsnap b ?_, hl, ea]
    have : Int.fract (rne ((n:ℚ) + l)) = rne (n + l) - n := by unfold Int.fract; rw [hfl]
    rw [this] at db
    have db := abs_le.mp db
    norm_num at db dr
    rw [abs_le]; constructor <;> linarith
  unfold Spec.fractions at hs
  simp only [List.mem_cons, List.not_mem_nil, or_false] at hs
  rcases hs with rfl | rfl | rfl
  · exact gen 0 rfl le_rfl (by norm_num) (Or.inl rfl) fun b hb => snap_plain hF (by
      rw [sub_zero] at hb; linarith)
  · obtain ⟨l, hl, a1, a2⟩ := hF.triplet
    exact gen l hl (by linarith) (by linarith) (Or.inr a1) fun b hb => by
      have := abs_le.mp hb
      exact snap_triplet hF (by linarith) (by linarith)
  · obtain ⟨l, hl, a1, a2⟩ := hF.dotted
    exact gen l hl (by linarith) (by linarith) (Or.inr (by linarith)) fun b hb => by
      have := abs_le.mp hb
      exact snap_dotted hF (by linarith) (by linarith)

/-- C68. Sync is stable: a value that has been synced is not moved by syncing it again, for integer limits up to 1024 and
a platform whose `powf` and `log2` are accurate to a few per cent. -/
theorem C68_sync_idempotent_partial {F : Fns} (hF : F.Accurate) (p : Param) {q : ℚ} {lo hi : ℤ} (hv : p.val = .float (.fin q))
    (hq : Spec.IsF32 q) (h : |q| ≤ 2 ^ 11) (hmin : p.d.min = .float (.fin lo)) (hmax : p.d.max = .float (.fin hi))
    (hle : lo ≤ hi) (bl : |lo| ≤ 2 ^ 10) (bh : |hi| ≤ 2 ^ 10) (ht : p.temposync = true) :
    ∃ p', boundValue F p false = .ok p' ∧ boundValue F p' false = .ok p' := by
  have hleq : (lo:ℚ) ≤ hi := by exact_mod_cast hle
  obtain ⟨s, hs, e⟩ := C68_sync_lands F p hv hq (le_trans h (by norm_num)) hmin hmax ht
  have hfl : |⌊q⌋| ≤ 2 ^ 11 := by
    have hb := abs_le.mp h
    rw [abs_le]
    constructor
    · exact Int.le_floor.mpr (by push_cast; linarith)
    · have := Int.floor_le q
      have : (⌊q⌋:ℚ) ≤ ((2 ^ 11 : ℤ) : ℚ) := by push_cast; linarith
      exact_mod_cast this
  obtain ⟨r, hr, ir, br, fr⟩ := sync_fixed hF hfl hs
  have lim := (C61_limit_range (.fin r) hleq).2.1 r rfl
  rw [hr, lim] at e
  refine ⟨_, e, ?_⟩
  -- the clamped number is again fixed
  have fixed : syncValue F (.fin (Spec.clamp lo hi r)) = .ok (.fin (Spec.clamp lo hi r)) ∧
      Spec.clamp lo hi (Spec.clamp lo hi r) = Spec.clamp lo hi r := by
    have int : ∀ m : ℤ, |m| ≤ 2 ^ 10 → syncValue F (.fin m) = .ok (.fin m) := by
      intro m hm
      obtain ⟨r', e1, _, _, e4⟩ := sync_fixed hF (n := m) (le_trans hm (by norm_num)) (s := .fin 0) (by simp [Spec.fractions])
      have : F32.add (.fin (m:ℚ)) (.fin 0) = .fin m := by
        have hm' : |(m:ℚ)| ≤ 2 ^ 10 := by
          have := Int.cast_le (R := ℚ) |>.mpr hm
          rw [Int.cast_abs] at this; push_cast at this; exact this
        rw [add_fin (by rw [add_zero]; exact le_trans hm' (by norm_num)), add_zero, rne_intCast m (le_trans hm (by norm_num))]
      rw [this] at e1
      simp only [F32.fin.injEq] at e1
      rw [e1]; exact e4
    unfold Spec.clamp
    split_ifs with c1 c2 <;> first
      | exact ⟨int lo bl, rfl⟩
      | exact ⟨int hi bh, rfl⟩
      | exact ⟨fr, rfl⟩
      | (exfalso; linarith)
  have lim2 := (C61_limit_range (.fin (Spec.clamp lo hi r)) hleq).2.1 _ rfl
  rw [fixed.2] at lim2
  simp [boundValue, ht, fixed.1, limitParameterRange, hmin, hmax, lim2]

/-- Non-vacuity: an accurate platform exists (coarsely: correct at the places that matter). -/
example : ∃ F : Fns, F.Accurate := by
  have ne : flit (3 / 2) ≠ flit (13333334 / 10000000) := by decide +kernel
  refine ⟨⟨fun x => match x with
      | .fin b => if b < 1 / 10 then .fin 1 else if b < 1 / 2 then .fin (133 / 100) else .fin (3 / 2)
      | _ => .nan, fun x => if x = flit (3 / 2) then .fin (585 / 1000) else .fin (415 / 1000)⟩, ?_⟩
  refine ⟨⟨585 / 1000, by simp, by norm_num, by norm_num⟩, ⟨415 / 1000, by simp [ne.symm], by norm_num, by norm_num⟩, ?_, ?_, ?_⟩
  · intro b h1 h2
    have a1 : ¬ b < 1 / 10 := by linarith
    have a2 : ¬ b < 1 / 2 := by linarith
    refine ⟨3 / 2, ?_, by norm_num⟩
    dsimp only
    rw [if_neg a1, if_neg a2]
  · intro b h1 h2
    have a1 : ¬ b < 1 / 10 := by linarith
    have a2 : b < 1 / 2 := by linarith
    refine ⟨133 / 100, ?_, by norm_num, by norm_num⟩
    dsimp only
    rw [if_neg a1, if_pos a2]
  · intro b h
    have a1 : b < 1 / 10 := by have := (abs_le.mp h).2; linarith
    refine ⟨1, ?_, by norm_num⟩
    dsimp only
    rw [if_pos a1]

/-- C68. `force_integer` overrides tempo sync: the result is the nearest integer, cut off at the limits. -/
theorem C68_force_integer_wins (F : Fns) (p p' : Param) {q lo hi : ℚ} (hv : p.val = .float (.fin q))
    (hmin : p.d.min = .float (.fin lo)) (hmax : p.d.max = .float (.fin hi)) (hle : lo ≤ hi) (h : |q| ≤ 2 ^ 20)
    (hb : boundValue F p true = .ok p') :
    p'.val = .float (.fin (Spec.clamp lo hi ⌊rne (q + 1 / 2)⌋)) := by
  have bq := abs_le.mp h
  have ea : F32.add (.fin q) (flit (1 / 2)) = .fin (rne (q + 1 / 2)) := by
    rw [half_lit, add_fin (by rw [abs_le]; norm_num at bq ⊢; constructor <;> linarith)]
  unfold boundValue at hb
  rw [hv] at hb
  dsimp only at hb
  have key : ∀ g : Res Empty F32, (g >>= fun g => (.ok (limitParameterRange { p with val := .float (if true = true then floorF (F32.add (.fin q) (flit (1 / 2))) else g) }) : Res Empty Param)) = .ok p' →
      p'.val = .float (.fin (Spec.clamp lo hi ⌊rne (q + 1 / 2)⌋)) := by
    intro g hg
    cases g with
    | err e => exact e.elim
    | panic w => simp at hg
    | ok g =>
      simp only [Res.ok_bind, if_true, Res.ok.injEq, ea, floorF, limitParameterRange, hmin, hmax] at hg
      rw [← hg, (C61_limit_range (.fin (⌊rne (q + 1 / 2)⌋ : ℚ)) hle).2.1 _ rfl]
  exact key _ hb

end Verif.Param
