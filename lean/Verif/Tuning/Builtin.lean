import Verif.Tuning.BuiltinData
import Verif.Tuning.PropsParse
import Mathlib.Analysis.SpecialFunctions.Log.Base
/-!
# The scales shipped with surge-tuning (C268)

The texts are data of the crate; what they say is read here by a reader of the Scala format written for this purpose, independent of the crate's own reader, which loads none of them (C24).
-/
namespace Verif.Tuning.Builtin
open Verif.Tuning

/-! ## The format -/

/-- A pitch of a Scala file: cents, or a ratio. -/
inductive Pitch where
  | cents (c : ℚ)
  | ratio (num den : ℕ)

/-- Its height above the first note of the scale, in octaves. -/
noncomputable def Pitch.octaves : Pitch → ℝ
  | .cents c => c / 1200
  | .ratio n d => Real.logb 2 (n / d)

/-- A decimal number: one or more digits. -/
def Spec.number (l : List Char) : Option ℕ :=
  if l ≠ [] ∧ l.all (fun c => '0' ≤ c ∧ c ≤ '9') then some (l.foldl (fun n c => 10 * n + (c.toNat - '0'.toNat)) 0) else none

/-- `a.b` is cents, `a/b` a ratio, and `a` the ratio `a/1`. -/
def Spec.pitch (l : List Char) : Option Pitch :=
  match l.splitOn '.' with
  | [a, b] => do
    let i ← Spec.number a
    let f ← Spec.number b
    some (.cents (i + f / 10 ^ b.length))
  | _ => match l.splitOn '/' with
    | [a, b] => do
      let n ← Spec.number a
      let d ← Spec.number b
      some (.ratio n d)
    | [a] => do
      let n ← Spec.number a
      some (.ratio n 1)
    | _ => none

/-- A Scala scale file: lines that begin with `!` are comments; the first other line is the title, the second the number of pitches, and that many lines of pitches follow. -/
def Spec.scl (lines : List (List Char)) : Option (List Pitch) :=
  match lines.filter fun l => l.head? ≠ some '!' with
  | _ :: count :: rest => do
    let n ← Spec.number count
    if n ≤ rest.length then (rest.take n).mapM Spec.pitch else none
  | _ => none

/-- The note `k` keys above the first, in octaves: the last pitch is the interval of repetition, the others fill it. -/
noncomputable def Spec.note (ps : List Pitch) (k : ℤ) : ℝ :=
  ((k / ps.length : ℤ) : ℝ) * ((ps.getLast?.map Pitch.octaves).getD 0) + (if k % ps.length = 0 then 0 else ((ps[(k % ps.length).toNat - 1]?).map Pitch.octaves).getD 0)

/-- The texts that are damaged: ED2_11 begins with stray characters, SD4_48_12 has no title line. -/
def Spec.damaged : List (List Char) := [['E', 'D', '2', '_', '1', '1'], ['S', 'D', '4', '_', '4', '8', '_', '1', '2']]

/-! ## Checking the data -/

/-- The pitches of an entry; none if the text cannot be read. -/
def Entry.pitches (e : Entry) : List Pitch := (Spec.scl e.lines).getD []

def Pitch.isRatio (n d : ℕ) : Pitch → Bool
  | .cents _ => false
  | .ratio a b => decide (0 < b ∧ a * d = n * b)

def Pitch.isCents (lo hi : ℚ) : Pitch → Bool
  | .cents c => decide (hi - 0.000006 ≤ c ∧ c ≤ lo + 0.000006)
  | .ratio _ _ => false

/-- An equal division, for an interval between `lo` and `hi` cents. -/
def checkEqual (lo hi : ℚ) (e : Entry) : Bool :=
  let ps := e.pitches
  decide (ps.length = e.first ∧ 0 < e.first) &&
    (List.range ps.length).all fun i => match ps[i]? with
      | some p => if i + 1 = ps.length then p.isRatio e.interval 1 else p.isCents (lo * (i + 1) / e.first) (hi * (i + 1) / e.first)
      | none => false

def checkHarmonic (e : Entry) : Bool :=
  let ps := e.pitches
  decide (ps.length + e.first = e.second ∧ 0 < e.first ∧ e.second = e.interval * e.first ∧ 2 ≤ e.interval) &&
    (List.range ps.length).all fun i => match ps[i]? with
      | some p => p.isRatio (e.first + (i + 1)) e.first
      | none => false

def checkSub (e : Entry) : Bool :=
  let ps := e.pitches
  decide (ps.length + e.second = e.first ∧ 0 < e.second ∧ e.first = e.interval * e.second ∧ 2 ≤ e.interval) &&
    (List.range ps.length).all fun i => match ps[i]? with
      | some p => p.isRatio e.first (e.first - (i + 1))
      | none => false

def sound (l : List Entry) : List Entry := l.filter fun e => e.name ∉ Spec.damaged

theorem check_ed2 : (sound ed2).all (checkEqual 1200 1200) = true := by decide +kernel
theorem check_ed3 : (sound ed3).all (checkEqual 1901.955 1901.955001) = true := by decide +kernel
theorem check_ed4 : (sound ed4).all (checkEqual 2400 2400) = true := by decide +kernel
theorem check_hd : (sound (hd2 ++ hd3 ++ hd4)).all checkHarmonic = true := by decide +kernel
theorem check_sd : (sound (sd2 ++ sd3 ++ sd4)).all checkSub = true := by decide +kernel

theorem interval_ed : (ed2.all fun e => e.interval == 2) = true ∧ (ed3.all fun e => e.interval == 3) = true ∧ (ed4.all fun e => e.interval == 4) = true := by decide +kernel

theorem three_bits : 2 ^ 126797 ≤ 3 ^ 80000 ∧ 3 ^ 79335 ≤ 2 ^ 125743 := by decide +kernel
theorem log3 : (1901.955 : ℝ) ≤ 1200 * Real.logb 2 3 ∧ 1200 * Real.logb 2 3 ≤ 1901.955001 := by
  have h2 : (0:ℝ) < Real.log 2 := Real.log_pos (by norm_num)
  have e : Real.logb 2 3 = Real.log 3 / Real.log 2 := rfl
  have key : ∀ a b : ℕ, (2:ℕ) ^ a ≤ 3 ^ b → a * Real.log 2 ≤ b * Real.log 3 := fun a b h => by
    rw [← Real.log_pow, ← Real.log_pow]
    exact Real.log_le_log (by positivity) (by exact_mod_cast h)
  have key2 : ∀ a b : ℕ, (3:ℕ) ^ b ≤ 2 ^ a → b * Real.log 3 ≤ a * Real.log 2 := fun a b h => by
    rw [← Real.log_pow, ← Real.log_pow]
    exact Real.log_le_log (by positivity) (by exact_mod_cast h)
  have a := key _ _ three_bits.1
  have b := key2 _ _ three_bits.2
  push_cast at a b
  rw [e]
  constructor
  · rw [← mul_div_assoc, le_div_iff₀ h2]; norm_num; linarith
  · rw [← mul_div_assoc, div_le_iff₀ h2]; norm_num; linarith

/-! ## From the data to the notes -/

noncomputable def oct (ps : List Pitch) (i : ℕ) : ℝ := ((ps[i]?).map Pitch.octaves).getD 0

theorem note_eq (ps : List Pitch) (k : ℤ) : Spec.note ps k = ((k / ps.length : ℤ) : ℝ) * oct ps (ps.length - 1) + if k % ps.length = 0 then 0 else oct ps ((k % ps.length).toNat - 1) := by
  unfold Spec.note oct
  rw [List.getLast?_eq_getElem?]

theorem read_of {e : Entry} {n : ℕ} (h : e.pitches.length = n) (n0 : 0 < n) : Spec.scl e.lines = some e.pitches := by
  unfold Entry.pitches at *
  cases hs : Spec.scl e.lines with
  | none => rw [hs] at h; simp at h; omega
  | some ps => rfl

/-- Where key `k` lies: in which repetition, and on which degree of it. -/
theorem place {n : ℕ} (n0 : 0 < n) (k : ℤ) : (k % n = 0 ∧ (k : ℝ) = n * ((k / n : ℤ) : ℝ)) ∨ (∃ i, i + 1 < n ∧ (k % n).toNat - 1 = i ∧ k % n ≠ 0 ∧ k % n = (i : ℤ) + 1 ∧ (k : ℝ) = n * ((k / n : ℤ) : ℝ) + (i + 1)) := by
  have n1 : (0 : ℤ) < n := by exact_mod_cast n0
  have a := Int.emod_nonneg k n1.ne'
  have b := Int.emod_lt_of_pos k n1
  have c := Int.mul_ediv_add_emod k n
  by_cases h : k % n = 0
  · left
    refine ⟨h, ?_⟩
    rw [h, add_zero] at c
    exact_mod_cast c.symm
  · right
    refine ⟨(k % n).toNat - 1, by omega, rfl, h, by omega, ?_⟩
    have d : (((k % n).toNat - 1 : ℕ) : ℤ) + 1 = k % n := by omega
    have e : (k : ℤ) = n * (k / n) + ((((k % n).toNat - 1 : ℕ) : ℤ) + 1) := by rw [d]; exact c.symm
    exact_mod_cast e

theorem ratio_octaves {p : Pitch} {n d : ℕ} (h : p.isRatio n d = true) (d0 : 0 < d) : p.octaves = Real.logb 2 (n / d) := by
  cases p with
  | cents c => simp [Pitch.isRatio] at h
  | ratio a b =>
    simp only [Pitch.isRatio, decide_eq_true_eq] at h
    have b0 : (b : ℝ) ≠ 0 := by have := h.1; positivity
    have d0' : (d : ℝ) ≠ 0 := by positivity
    have : (a : ℝ) / b = n / d := by rw [div_eq_div_iff b0 d0']; exact_mod_cast h.2
    simp only [Pitch.octaves, this]

/-- An equal division, once the data is checked. -/
theorem equal_of {lo hi : ℚ} {e : Entry} (h : checkEqual lo hi e = true) (hl : (lo : ℝ) ≤ 1200 * Real.logb 2 e.interval) (hh : 1200 * Real.logb 2 e.interval ≤ hi) :
    ∃ ps, Spec.scl e.lines = some ps ∧ ps.length = e.first ∧ 0 < e.first ∧ ∀ k : ℤ, |1200 * Spec.note ps k - 1200 * Real.logb 2 e.interval * k / e.first| ≤ 0.000006 := by
  unfold checkEqual at h
  simp only [Bool.and_eq_true, decide_eq_true_eq, List.all_eq_true, List.mem_range] at h
  obtain ⟨⟨hn, n0⟩, hp⟩ := h
  refine ⟨e.pitches, read_of hn n0, hn, n0, fun k => ?_⟩
  generalize e.pitches = ps at *
  rw [note_eq, hn]
  have n1 : (0 : ℝ) < e.first := by exact_mod_cast n0
  obtain ⟨L, hL⟩ : ∃ L, L = 1200 * Real.logb 2 e.interval := ⟨_, rfl⟩
  have last : 1200 * oct ps (e.first - 1) = L := by
    have := hp (e.first - 1) (by omega)
    unfold oct
    cases hq : ps[e.first - 1]? with
    | none => rw [hq] at this; simp at this
    | some p =>
      rw [hq] at this
      simp only [hn, (by omega : e.first - 1 + 1 = e.first), if_true] at this
      have := ratio_octaves this (by norm_num)
      simp only [Option.map_some, Option.getD_some, this, hL]; norm_num
  have mid : ∀ i, i + 1 < e.first → |1200 * oct ps i - L * (i + 1) / e.first| ≤ 0.000006 := fun i hi' => by
    have := hp i (by omega)
    unfold oct
    cases hq : ps[i]? with
    | none => rw [hq] at this; simp at this
    | some p =>
      rw [hq] at this
      simp only [if_neg (show ¬ (i + 1 = ps.length) by omega)] at this
      cases p with
      | ratio a b => simp [Pitch.isCents] at this
      | cents c =>
        simp only [Pitch.isCents, decide_eq_true_eq] at this
        obtain ⟨c1, c2⟩ := this
        have c1 : ((hi * (i + 1) / e.first - 0.000006 : ℚ) : ℝ) ≤ c := by exact_mod_cast c1
        have c2 : (c : ℝ) ≤ ((lo * (i + 1) / e.first + 0.000006 : ℚ) : ℝ) := by exact_mod_cast c2
        push_cast at c1 c2
        have i1 : (0 : ℝ) ≤ (i + 1) / e.first := by positivity
        have m1 := mul_le_mul_of_nonneg_right hl i1
        have m2 := mul_le_mul_of_nonneg_right hh i1
        rw [← hL] at m1 m2
        simp only [Option.map_some, Option.getD_some, Pitch.octaves]
        rw [abs_le]
        have e1 : (1200 : ℝ) * (c / 1200) = c := by ring
        have e2 : ∀ y : ℝ, y * ((i + 1) / e.first) = y * (i + 1) / e.first := fun y => by ring
        rw [e2, e2] at m1 m2
        rw [e1]
        norm_num at c1 c2 ⊢
        constructor <;> linarith
  rw [← hL]
  rcases place n0 k with ⟨z, w⟩ | ⟨i, i1, i2, z, -, w⟩
  · rw [if_pos z, w]
    have : 1200 * (((k / e.first : ℤ) : ℝ) * oct ps (e.first - 1) + 0) - L * (e.first * ((k / e.first : ℤ) : ℝ)) / e.first = 0 := by
      rw [← last]; field_simp; ring
    rw [this]; norm_num
  · rw [if_neg z, i2, w]
    have : 1200 * (((k / e.first : ℤ) : ℝ) * oct ps (e.first - 1) + oct ps i) - L * (e.first * ((k / e.first : ℤ) : ℝ) + (i + 1)) / e.first =
        1200 * oct ps i - L * (i + 1) / e.first := by
      rw [← last]; field_simp; ring
    rw [this]; exact mid i i1

/-- **C268.** Every shipped equal division but ED2_11: the text is a scale of the number of notes in its name, and every key, however far up or down, lies within 0.000006 cents of its place. -/
theorem C268_equal_division_partial {e : Entry} (he : e ∈ ed2 ++ ed3 ++ ed4) (hd : e.name ∉ Spec.damaged) :
    ∃ ps, Spec.scl e.lines = some ps ∧ ps.length = e.first ∧ 0 < e.first ∧ ∀ k : ℤ, |1200 * Spec.note ps k - 1200 * Real.logb 2 e.interval * k / e.first| ≤ 0.000006 := by
  have pick : ∀ {l : List Entry} {f : Entry → Bool}, (sound l).all f = true → e ∈ l → f e = true := fun h m =>
    List.all_eq_true.1 h e (List.mem_filter.2 ⟨m, by simpa using hd⟩)
  have iv : ∀ {l : List Entry} {n : ℕ}, (l.all fun e => e.interval == n) = true → e ∈ l → e.interval = n := fun h m => by
    simpa using List.all_eq_true.1 h e m
  simp only [List.mem_append] at he
  rcases he with (m | m) | m
  · have := iv interval_ed.1 m
    have e2 : Real.logb 2 2 = 1 := Real.logb_self_eq_one (by norm_num)
    refine equal_of (pick check_ed2 m) ?_ ?_ <;> rw [this] <;> push_cast <;> rw [e2] <;> norm_num
  · have := iv interval_ed.2.1 m
    refine equal_of (pick check_ed3 m) ?_ ?_ <;> rw [this] <;> have := log3 <;> push_cast <;> norm_num at this ⊢ <;> linarith
  · have := iv interval_ed.2.2 m
    have e4 : Real.logb 2 4 = 2 := by
      rw [show (4 : ℝ) = 2 ^ (2 : ℕ) by norm_num, Real.logb_pow, Real.logb_self_eq_one (by norm_num)]; norm_num
    refine equal_of (pick check_ed4 m) ?_ ?_ <;> rw [this] <;> push_cast <;> rw [e4] <;> norm_num

/-- Scales of ratios, once the data is checked: degree `i` is `t i`, and degree `n` the interval of repetition. -/
theorem ratios_of {ps : List Pitch} {n : ℕ} {N D : ℕ → ℕ} (hn : ps.length = n) (n0 : 0 < n) (hN : ∀ i < n, 0 < N i) (hD : ∀ i < n, 0 < D i)
    (hp : ∀ i < n, (match ps[i]? with | some p => p.isRatio (N i) (D i) | none => false) = true) (k : ℤ) :
    (2 : ℝ) ^ Spec.note ps k = ((N (n - 1) : ℝ) / D (n - 1)) ^ (k / n) * (if k % n = 0 then 1 else (N ((k % n).toNat - 1) : ℝ) / D ((k % n).toNat - 1)) := by
  have o : ∀ i < n, (2 : ℝ) ^ oct ps i = (N i : ℝ) / D i := fun i hi => by
    have := hp i hi
    unfold oct
    cases hq : ps[i]? with
    | none => rw [hq] at this; simp at this
    | some p =>
      rw [hq] at this
      have a : (0 : ℝ) < N i := by exact_mod_cast hN i hi
      have b : (0 : ℝ) < D i := by exact_mod_cast hD i hi
      simp only [Option.map_some, Option.getD_some, ratio_octaves this (hD i hi)]
      exact Real.rpow_logb (by norm_num) (by norm_num) (by positivity)
  rw [note_eq, hn, Real.rpow_add (by norm_num), mul_comm ((k / n : ℤ) : ℝ), Real.rpow_mul (by norm_num), o _ (by omega), Real.rpow_intCast]
  congr 1
  rcases place n0 k with ⟨z, -⟩ | ⟨i, i1, i2, z, -, -⟩
  · rw [if_pos z, if_pos z, Real.rpow_zero]
  · rw [if_neg z, if_neg z, i2, o i (by omega)]

/-- **C268.** Every shipped harmonic division: the text is the scale of the harmonics from the first to the second number in its name, exactly, repeating at the interval; for every key. -/
theorem C268_harmonic_division {e : Entry} (he : e ∈ hd2 ++ hd3 ++ hd4) :
    ∃ ps, Spec.scl e.lines = some ps ∧ ps.length + e.first = e.second ∧ 0 < e.first ∧ e.second = e.interval * e.first ∧
      ∀ k : ℤ, (2 : ℝ) ^ Spec.note ps k = (e.interval : ℝ) ^ (k / ps.length) * ((e.first + (k % ps.length : ℤ)) / e.first) := by
  have fine : ((hd2 ++ hd3 ++ hd4).all fun e => decide (e.name ∉ Spec.damaged)) = true := by decide +kernel
  have h := List.all_eq_true.1 check_hd e (List.mem_filter.2 ⟨he, List.all_eq_true.1 fine e he⟩)
  unfold checkHarmonic at h
  simp only [Bool.and_eq_true, decide_eq_true_eq, List.all_eq_true, List.mem_range] at h
  obtain ⟨⟨hn, f0, hi, i2⟩, hp⟩ := h
  have n0 : 0 < e.pitches.length := by
    have : 2 * e.first ≤ e.interval * e.first := Nat.mul_le_mul_right _ i2
    omega
  refine ⟨e.pitches, read_of rfl n0, hn, f0, hi, fun k => ?_⟩
  rw [ratios_of (N := fun i => e.first + (i + 1)) (D := fun _ => e.first) rfl n0 (fun _ _ => by omega) (fun _ _ => f0) hp k]
  have f1 : (e.first : ℝ) ≠ 0 := by positivity
  congr 1
  · congr 1
    rw [(by omega : e.first + (e.pitches.length - 1 + 1) = e.second), hi]
    push_cast; field_simp
  · rcases place n0 k with ⟨z, -⟩ | ⟨i, i1, i2, z, w, -⟩
    · rw [if_pos z, z]; push_cast; rw [add_zero, div_self f1]
    · rw [if_neg z, i2, w]; push_cast; rfl

/-- **C268.** Every shipped subharmonic division but SD4_48_12 likewise. -/
theorem C268_subharmonic_division_partial {e : Entry} (he : e ∈ sd2 ++ sd3 ++ sd4) (hd : e.name ∉ Spec.damaged) :
    ∃ ps, Spec.scl e.lines = some ps ∧ ps.length + e.second = e.first ∧ 0 < e.second ∧ e.first = e.interval * e.second ∧
      ∀ k : ℤ, (2 : ℝ) ^ Spec.note ps k = (e.interval : ℝ) ^ (k / ps.length) * (e.first / (e.first - (k % ps.length : ℤ))) := by
  have h := List.all_eq_true.1 check_sd e (List.mem_filter.2 ⟨he, by simpa using hd⟩)
  unfold checkSub at h
  simp only [Bool.and_eq_true, decide_eq_true_eq, List.all_eq_true, List.mem_range] at h
  obtain ⟨⟨hn, f0, hi, i2⟩, hp⟩ := h
  have two : 2 * e.second ≤ e.interval * e.second := Nat.mul_le_mul_right _ i2
  have n0 : 0 < e.pitches.length := by omega
  refine ⟨e.pitches, read_of rfl n0, hn, f0, hi, fun k => ?_⟩
  rw [ratios_of (N := fun _ => e.first) (D := fun i => e.first - (i + 1)) rfl n0 (fun _ _ => by omega) (fun _ _ => by omega) hp k]
  have f1 : (e.first : ℝ) ≠ 0 := by have : 0 < e.first := by omega
                                    positivity
  congr 1
  · congr 1
    rw [(by omega : e.first - (e.pitches.length - 1 + 1) = e.second)]
    have f2 : (e.second : ℝ) ≠ 0 := by positivity
    have : (e.first : ℝ) = e.interval * e.second := by exact_mod_cast hi
    rw [this, mul_div_cancel_right₀ _ f2]
  · rcases place n0 k with ⟨z, -⟩ | ⟨i, i1, i2, z, w, -⟩
    · rw [if_pos z, z]; push_cast; rw [sub_zero, div_self f1]
    · rw [if_neg z, i2, w, Nat.cast_sub (by omega)]; push_cast; rfl

/-- **C268 fails** for two of the 143 texts: they are not scale files. -/
theorem C268_damaged_refuted : (ed2 ++ ed3 ++ ed4 ++ hd2 ++ hd3 ++ hd4 ++ sd2 ++ sd3 ++ sd4).length = 143 ∧
    ((ed2 ++ ed3 ++ ed4 ++ hd2 ++ hd3 ++ hd4 ++ sd2 ++ sd3 ++ sd4).filter fun e => (Spec.scl e.lines).isNone).map Entry.name = Spec.damaged := by
  decide +kernel

/-- The texts by name: the interval and the numbers of an entry are those in its name. -/
theorem C268_names : let two := fun n => [Nat.digitChar (n / 10), Nat.digitChar (n % 10)]
    (∀ e ∈ ed2 ++ ed3 ++ ed4, e.name = 'E' :: 'D' :: Nat.digitChar e.interval :: '_' :: two e.first) ∧
    (∀ e ∈ hd2 ++ hd3 ++ hd4, e.name = 'H' :: 'D' :: Nat.digitChar e.interval :: '_' :: two e.first ++ '_' :: two e.second) ∧
    (∀ e ∈ sd2 ++ sd3 ++ sd4, e.name = 'S' :: 'D' :: Nat.digitChar e.interval :: '_' :: two e.first ++ '_' :: two e.second) := by
  decide +kernel

/-- scale.rs 193-198 `Scale::scale_432`: the scale of the text ED2_25. -/
noncomputable def scale432 (tv : List Char → P ℚ) : P Scale := parseScale tv (['\n'].intercalate ((ed2.map Entry.lines).headD []))

/-- **C268 fails**: `scale_432` names the equal division of the octave into 25 parts (and, read by the crate, is empty). -/
theorem C268_scale_432_refuted (tv : List Char → P ℚ) : (ed2.map Entry.name).head? = some ['E', 'D', '2', '_', '2', '5'] ∧ scale432 tv = .ok Scale.empty := by
  refine ⟨by decide +kernel, (C24_scale_reader_exact tv _).1 (Or.inr (Or.inl ?_))⟩
  decide +kernel

/-- There are sound texts in each family: 25 parts of the octave, harmonics 4 to 8, subharmonics 8 to 4. -/
example : (∃ e ∈ ed2 ++ ed3 ++ ed4, e.name ∉ Spec.damaged ∧ e.interval = 2 ∧ e.first = 25) ∧ (∃ e ∈ hd2 ++ hd3 ++ hd4, e.name ∉ Spec.damaged ∧ e.first = 4 ∧ e.second = 8) ∧
    (∃ e ∈ sd2 ++ sd3 ++ sd4, e.name ∉ Spec.damaged ∧ e.first = 8 ∧ e.second = 4) := by
  decide +kernel

end Verif.Tuning.Builtin
