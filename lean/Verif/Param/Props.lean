import Verif.Param.Model
import Verif.Float.Trunc
import Mathlib.Tactic.Linarith
import Mathlib.Tactic.NormNum
import Mathlib.Tactic.Positivity
import Mathlib.Tactic.GCongr
/-!
# Parameter values (C36)
-/
namespace Verif.Param
open Verif.Float Verif.Dsp

/-! ## Specification -/

/-- The value lies in the closed range between two limits of the same kind. -/
def Spec.InRange (lo hi v : PData) : Prop :=
  match lo, hi, v with
  | .float a, .float b, .float x => ∃ l h q, a = .fin l ∧ b = .fin h ∧ x = .fin q ∧ l ≤ q ∧ q ≤ h
  | .int a, .int b, .int x => a ≤ x ∧ x ≤ b
  | _, _, _ => False

/-- A finite `f32` number. -/
def Spec.IsF32 (q : ℚ) : Prop := rne q = q

/-! ## Rounding lemmas -/

theorem rne_abs {q : ℚ} {k : ℕ} (h : |q| ≤ 2 ^ k) : |rne q| ≤ 2 ^ k := by
  have e : rne ((2:ℚ) ^ k) = 2 ^ k := by
    have := rne_zpow (e := (k:ℤ)) (by omega)
    rwa [zpow_natCast] at this
  obtain ⟨h1, h2⟩ := abs_le.mp h
  rw [abs_le]
  constructor
  · have := rne_mono h1; rwa [rne_neg, e] at this
  · have := rne_mono h2; rwa [e] at this

theorem ofQ_abs {q : ℚ} {k : ℕ} (hk : k ≤ 100) (h : |q| ≤ 2 ^ k) : F32.ofQ q = .fin (rne q) ∧ |rne q| ≤ 2 ^ k := by
  refine ⟨?_, rne_abs h⟩
  have hk' : (2:ℚ) ^ k ≤ 2 ^ 100 := pow_le_pow_right₀ (by norm_num) hk
  obtain ⟨h1, h2⟩ := abs_le.mp h
  exact F32.ofQ_fin (by linarith) (by linarith)

theorem flit_eq {q : ℚ} (h : |q| ≤ 2 ^ 100) : flit q = .fin (rne q) := (ofQ_abs (by norm_num) h).1

/-- Relative error form of rounding. -/
theorem rne_err (q : ℚ) : |rne q - q| ≤ |q| / 2 ^ 24 + 1 / 2 ^ 150 := by
  have h := abs_rne_sub_le' q
  have e1 : (2:ℚ) ^ (-24:ℤ) = 1 / 2 ^ 24 := by norm_num
  have e2 : (2:ℚ) ^ (-150:ℤ) = 1 / 2 ^ 150 := by rw [zpow_neg]; norm_num
  rw [e1, e2] at h
  calc |rne q - q| ≤ |q| * (1 / 2 ^ 24) + 1 / 2 ^ 150 := h
    _ = _ := by ring

theorem rne_dist {q : ℚ} {b : ℚ} (h : |q| ≤ b) : |rne q - q| ≤ b / 2 ^ 24 + 1 / 2 ^ 150 := by
  have h1 := rne_err q
  have h2 : |q| / 2 ^ 24 ≤ b / 2 ^ 24 := by gcongr
  linarith

theorem sub_fin {a b : ℚ} (ha : |a| ≤ 2 ^ 99) (hb : |b| ≤ 2 ^ 99) : F32.sub (.fin a) (.fin b) = .fin (rne (a - b)) := by
  have h : |a - b| ≤ 2 ^ 100 := by
    calc |a - b| ≤ |a| + |b| := abs_sub a b
      _ ≤ 2 ^ 99 + 2 ^ 99 := by linarith
      _ = 2 ^ 100 := by norm_num
  have : F32.sub (.fin a) (.fin b) = F32.ofQ (a + -b) := rfl
  rw [this, ← sub_eq_add_neg]
  exact (ofQ_abs (by norm_num) h).1

theorem add_fin {a b : ℚ} (h : |a + b| ≤ 2 ^ 100) : F32.add (.fin a) (.fin b) = .fin (rne (a + b)) :=
  (ofQ_abs (by norm_num) h).1

theorem mul_fin {a b : ℚ} (h : |a * b| ≤ 2 ^ 100) : F32.mul (.fin a) (.fin b) = .fin (rne (a * b)) :=
  (ofQ_abs (by norm_num) h).1

theorem div_fin {a b : ℚ} (hb : b ≠ 0) (h : |a / b| ≤ 2 ^ 100) : divF (.fin a) (.fin b) = .fin (rne (a / b)) := by
  have : divF (.fin a) (.fin b) = F32.ofQ (a / b) := by simp [divF, hb]
  rw [this]; exact (ofQ_abs (by norm_num) h).1

/-- The difference of two different `f32` numbers does not round to zero. -/
theorem rne_sub_pos {a b : ℚ} (ha : Spec.IsF32 a) (hb : Spec.IsF32 b) (h : a < b) : 0 < rne (b - a) := by
  obtain ⟨n, e, _, he, hn⟩ := rne_form a
  obtain ⟨m, f, _, hf, hm⟩ := rne_form b
  have key : ∀ (n e : ℤ), -149 ≤ e → ∃ k : ℤ, (n : ℚ) * 2 ^ e = k * 2 ^ (-149 : ℤ) := by
    intro n e he
    refine ⟨n * 2 ^ (e + 149).toNat, ?_⟩
    have h1 : (2:ℚ) ^ e = 2 ^ (e + 149) * 2 ^ (-149:ℤ) := by
      rw [← zpow_add₀ (by norm_num)]; congr 1; omega
    have h2 : (2:ℚ) ^ (e + 149) = ((2 ^ (e + 149).toNat : ℤ) : ℚ) := by
      push_cast
      rw [← zpow_natCast, Int.toNat_of_nonneg (by omega)]
    rw [h1, h2]; push_cast; ring
  obtain ⟨k, hk⟩ := key n e he
  obtain ⟨l, hl⟩ := key m f hf
  have ea : a = k * 2 ^ (-149:ℤ) := by rw [← ha, hn, hk]
  have eb : b = l * 2 ^ (-149:ℤ) := by rw [← hb, hm, hl]
  have hp : (0:ℚ) < 2 ^ (-149:ℤ) := two_zpow_pos _
  have hkl : k < l := by
    have : (k:ℚ) * 2 ^ (-149:ℤ) < l * 2 ^ (-149:ℤ) := by rw [← ea, ← eb]; exact h
    have := lt_of_mul_lt_mul_right this hp.le
    exact_mod_cast this
  have h1 : (2:ℚ) ^ (-149:ℤ) ≤ b - a := by
    rw [ea, eb, ← sub_mul]
    have : (1:ℚ) ≤ (l:ℚ) - k := by
      have : ((k + 1 : ℤ) : ℚ) ≤ l := by exact_mod_cast hkl
      push_cast at this; linarith
    calc (2:ℚ) ^ (-149:ℤ) = 1 * 2 ^ (-149:ℤ) := by ring
      _ ≤ _ := mul_le_mul_of_nonneg_right this hp.le
  have := rne_mono h1
  rw [rne_zpow (by norm_num)] at this
  linarith

/-! ## C36: values stay in range -/

theorem limit_in (x : F32) {lo hi : ℚ} (h : lo ≤ hi) : ∃ q, limitRange x (.fin lo) (.fin hi) = .fin q ∧ lo ≤ q ∧ q ≤ hi :=
  (C61_limit_range x h).1

theorem boundValue_float {F : Fns} {p p' : Param} {f : F32} {force : Bool} {lo hi : ℚ} (hv : p.val = .float f)
    (hmin : p.d.min = .float (.fin lo)) (hmax : p.d.max = .float (.fin hi)) (hle : lo ≤ hi)
    (h : boundValue F p force = .ok p') :
    p'.d = p.d ∧ ∃ q, p'.val = .float (.fin q) ∧ lo ≤ q ∧ q ≤ hi := by
  unfold boundValue at h
  rw [hv] at h
  dsimp only at h
  have key : ∀ g, limitParameterRange { p with val := .float g }
      = { p with val := .float (limitRange g (.fin lo) (.fin hi)) } := by
    intro g; simp [limitParameterRange, hmin, hmax]
  have fin : ∀ g, Res.ok (limitParameterRange { p with val := .float g }) = (Res.ok p' : Res Empty Param) →
      p'.d = p.d ∧ ∃ q, p'.val = .float (.fin q) ∧ lo ≤ q ∧ q ≤ hi := by
    intro g hg
    rw [key] at hg
    simp only [Res.ok.injEq] at hg
    subst hg
    obtain ⟨q, hq, h1, h2⟩ := limit_in g hle
    exact ⟨rfl, q, by simp [hq], h1, h2⟩
  by_cases ht : p.temposync = true
  · rw [if_pos ht] at h
    cases hs : syncValue F f with
    | err e => exact e.elim
    | panic w => simp [hs] at h
    | ok g => simp only [hs, Res.ok_bind] at h; exact fin _ h
  · rw [if_neg ht] at h
    simp only [Res.ok_bind] at h
    exact fin _ h

theorem boundValue_total {F : Fns} {p : Param} {f : F32} {force : Bool} (hv : p.val = .float f) (ht : p.temposync = false) :
    ∃ p', boundValue F p force = .ok p' := by
  unfold boundValue
  rw [hv]
  simp [ht]

/-- C36, range, float parameters: whatever is set - out of range, infinite, NaN, forced to an integer or tempo-synced -
the value is a number inside the parameter's range whenever the call returns, and it returns unless the parameter is
tempo-synced. -/
theorem C36_set_float_in_range_partial (F : Fns) (p : Param) (v f : F32) (force : Bool) {lo hi : ℚ} (hv : p.val = .float f)
    (hmin : p.d.min = .float (.fin lo)) (hmax : p.d.max = .float (.fin hi)) (hle : lo ≤ hi) :
    (∀ p', setValueF01 F p v force = .ok p' → Spec.InRange p'.d.min p'.d.max p'.val ∧ p'.d = p.d) ∧
    (p.temposync = false → ∃ p', setValueF01 F p v force = .ok p') := by
  have e : setValueF01 F p v force
      = boundValue F { p with val := .float (F32.add (F32.mul v (F32.sub (.fin hi) (.fin lo))) (.fin lo)) } force := by
    unfold setValueF01; rw [hv, hmin, hmax]
  rw [e]
  refine ⟨fun p' h => ?_, fun ht => boundValue_total rfl ht⟩
  obtain ⟨hd, q, hq, h1, h2⟩ := boundValue_float (p := { p with val := _ }) rfl hmin hmax hle h
  refine ⟨?_, hd⟩
  rw [hd, hq]
  dsimp only
  rw [hmin, hmax]
  exact ⟨lo, hi, q, rfl, rfl, rfl, h1, h2⟩

/-- C36 is false of the code for tempo-synced parameters: setting them to NaN (or anything that scales beyond the `i32`
range) is undefined behaviour (`to_int_unchecked`). -/
theorem C36_temposync_nan_undefined (F : Fns) (p : Param) (f : F32) (force : Bool) {lo hi : F32} (hv : p.val = .float f)
    (hmin : p.d.min = .float lo) (hmax : p.d.max = .float hi) (ht : p.temposync = true) :
    setValueF01 F p .nan force = .panic "undefined behaviour: to_int_unchecked out of range" := by
  have e : F32.add (F32.mul .nan (F32.sub hi lo)) lo = .nan := by simp [F32.mul, F32.add]
  simp [setValueF01, hv, hmin, hmax, boundValue, ht, syncValue, splitFloat, e]

/-- C36 is false of the code for switches: constructing a boolean parameter or setting one always panics. -/
theorem C36_bool_panics (F : Fns) :
    (∀ (d : Delegate) (b : Bool), d.default = .bool b → Param.new F d = .panic "unreachable") ∧
    (∀ (p : Param) (b : Bool) (v : F32) (force : Bool), p.val = .bool b → setValueF01 F p v force = .panic "unreachable") := by
  refine ⟨fun d b h => by simp [Param.new, boundValue, h], fun p b v force h => ?_⟩
  simp [setValueF01, h, boundValue]

/-- C36 is false of the code for integer parameters: the value that is set is ignored. -/
theorem C36_int_ignores_input (F : Fns) (p : Param) (i : Int) (v v' : F32) (force force' : Bool) (h : p.val = .int i) :
    setValueF01 F p v force = setValueF01 F p v' force' := by
  unfold setValueF01
  rw [h]
  cases p.d.min <;> cases p.d.max <;> simp [boundValue]


theorem lit_close (q : ℚ) (h : |q| ≤ 1) : |rne q - q| ≤ 1 / 10000000 := by
  refine le_trans (rne_dist h) ?_
  norm_num

theorem inv99_bounds : (101 / 100 : ℚ) ≤ rne (1 / rne (99 / 100)) ∧ rne (1 / rne (99 / 100)) ≤ 102 / 100 ∧
    (0:ℚ) < rne (99 / 100) := by
  have d := abs_le.mp (lit_close (99 / 100) (by rw [abs_of_pos] <;> norm_num))
  have pos : (0:ℚ) < rne (99 / 100) := by linarith
  have u : 1 / rne (99 / 100) ≤ 1011 / 1000 := by rw [div_le_iff₀ pos]; linarith
  have l : 10101 / 10000 ≤ 1 / rne (99 / 100) := by rw [le_div_iff₀ pos]; linarith
  have e := abs_le.mp (rne_dist (q := 1 / rne (99 / 100)) (b := 2) (by rw [abs_le]; constructor <;> linarith))
  generalize 1 / rne (99 / 100) = z at *
  norm_num at e
  refine ⟨?_, ?_, pos⟩ <;> linarith

/-- What `set_value_f01` computes for an integer, in exact terms: bounds for ranges and values up to 2^12. -/
theorem setIntValue_spec {i lo hi : Int} (hi0 : |i| ≤ 2 ^ 12) (hlo : |lo| ≤ 2 ^ 12) (hhi : |hi| ≤ 2 ^ 12) :
    ∃ y : ℚ, setIntValue i lo hi = .ok (F32.truncQ y + lo) ∧ |y| ≤ 2 ^ 29 ∧
      y = rne (rne (rne (rne (1 / rne (99 / 100)) * rne ((i:ℚ) - rne (5 / 1000))) * ((hi - lo : ℤ) : ℚ)) + 1 / 2) := by
  have bl := abs_le.mp hlo
  have bh := abs_le.mp hhi
  have hw : |hi - lo| ≤ 2 ^ 13 := by rw [abs_le]; constructor <;> omega
  unfold setIntValue
  have c1 : chkI32 (ε := Empty) (hi - lo) = .ok (hi - lo) := by
    unfold chkI32; rw [if_pos (by have := abs_le.mp hw; omega)]
  rw [c1]
  simp only [Res.ok_bind]
  have hq : ((|i| : ℤ) : ℚ) ≤ 2 ^ 12 := by exact_mod_cast hi0
  have hwq : ((|hi - lo| : ℤ) : ℚ) ≤ 2 ^ 13 := by exact_mod_cast hw
  push_cast at hq hwq
  obtain ⟨v1, v2, pos⟩ := inv99_bounds
  have e99 : flit (99 / 100) = .fin (rne (99 / 100)) := flit_eq (by norm_num)
  have d99' := abs_le.mp (lit_close (99 / 100) (by rw [abs_of_pos] <;> norm_num))
  have e5 : flit (5 / 1000) = .fin (rne (5 / 1000)) := flit_eq (by norm_num)
  have d5' := abs_le.mp (lit_close (5 / 1000) (by rw [abs_of_pos] <;> norm_num))
  have e12 : flit (1 / 2) = .fin (1 / 2) := by
    rw [flit_eq (by norm_num)]
    have : rne (2 ^ (-1:ℤ)) = 2 ^ (-1:ℤ) := rne_zpow (by norm_num)
    norm_num at this ⊢
    exact this
  have ei : F32.ofInt i = .fin i := F32.ofInt_eq (by linarith)
  have ew : F32.ofInt (hi - lo) = .fin ((hi - lo : ℤ) : ℚ) := F32.ofInt_eq (by linarith)
  rw [e99, e5, e12, ei, ew]
  have q1 : |1 / rne (99 / 100)| ≤ 2 ^ 1 := by
    rw [abs_of_pos (by positivity), div_le_iff₀ pos]; linarith
  rw [div_fin (ne_of_gt pos) (le_trans q1 (by norm_num))]
  have r1 := rne_abs q1
  have hi14 := abs_le.mp hq
  rw [sub_fin (le_trans hq (by norm_num)) (by rw [abs_le]; constructor <;> linarith)]
  have q2 : |(i:ℚ) - rne (5 / 1000)| ≤ 2 ^ 13 := by rw [abs_le]; constructor <;> linarith
  have r2 := rne_abs q2
  generalize rne (1 / rne (99 / 100)) = a at *
  generalize rne ((i:ℚ) - rne (5 / 1000)) = b at *
  have q3 : |a * b| ≤ 2 ^ 14 := by
    rw [abs_mul]; calc |a| * |b| ≤ 2 ^ 1 * 2 ^ 13 := mul_le_mul r1 r2 (abs_nonneg _) (by norm_num)
      _ = 2 ^ 14 := by norm_num
  rw [mul_fin (le_trans q3 (by norm_num))]
  have r3 := rne_abs q3
  generalize rne (a * b) = c at *
  have q4 : |c * ((hi - lo : ℤ) : ℚ)| ≤ 2 ^ 27 := by
    rw [abs_mul]; push_cast
    calc |c| * |(hi:ℚ) - lo| ≤ 2 ^ 14 * 2 ^ 13 := mul_le_mul r3 hwq (abs_nonneg _) (by norm_num)
      _ = 2 ^ 27 := by norm_num
  rw [mul_fin (le_trans q4 (by norm_num))]
  have r4 := rne_abs q4
  generalize rne (c * ((hi - lo : ℤ) : ℚ)) = d at *
  have q5 : |d + 1 / 2| ≤ 2 ^ 29 := by
    have := abs_le.mp r4
    rw [abs_le]; constructor <;> linarith
  rw [add_fin (le_trans q5 (by norm_num))]
  have r5 := rne_abs q5
  refine ⟨rne (d + 1 / 2), ?_, r5, rfl⟩
  generalize rne (d + 1 / 2) = y at *
  have ht : |F32.truncQ y| ≤ 2 ^ 29 := by
    have := le_trans (F32.abs_truncQ_le y) r5
    exact_mod_cast this
  have ht' := abs_le.mp ht
  have : F32.toI32 (.fin y) = F32.truncQ y := by
    unfold F32.toI32 F32.toIntSat
    dsimp only
    rw [min_eq_right (by omega), max_eq_right (by omega)]
  rw [this]
  unfold chkI32
  rw [if_pos (by omega)]

theorem boundValue_int {F : Fns} {p : Param} {i lo hi : Int} {force : Bool} (hv : p.val = .int i)
    (hmin : p.d.min = .int lo) (hmax : p.d.max = .int hi) :
    boundValue F p force = .ok { p with val := .int (limitRangeI (if p.d.ctype = .vocoderBandcount then i - Int.tmod i 4 else i)
      lo hi) } := by
  unfold boundValue
  rw [hv]
  dsimp only
  split_ifs <;> simp [limitParameterRange, hmin, hmax]

/-- C36, range, integer parameters (values and limits up to 4096, which covers every parameter of the synthesizer): the
call returns and the value is inside the range, whatever is set. -/
theorem C36_set_int_in_range_partial (F : Fns) (p : Param) (v : F32) (i lo hi : Int) (force : Bool) (hv : p.val = .int i)
    (hmin : p.d.min = .int lo) (hmax : p.d.max = .int hi) (hle : lo ≤ hi)
    (hi0 : |i| ≤ 2 ^ 12) (hlo : |lo| ≤ 2 ^ 12) (hhi : |hi| ≤ 2 ^ 12) :
    ∃ p', setValueF01 F p v force = .ok p' ∧ Spec.InRange p'.d.min p'.d.max p'.val ∧ p'.d = p.d := by
  obtain ⟨y, hy, _, _⟩ := setIntValue_spec hi0 hlo hhi
  have e : setValueF01 F p v force = boundValue F { p with val := .int (F32.truncQ y + lo) } force := by
    unfold setValueF01; rw [hv, hmin, hmax]; dsimp only; rw [hy, Res.ok_bind]
  rw [e, boundValue_int (p := { p with val := _ }) rfl hmin hmax]
  refine ⟨_, rfl, ?_, rfl⟩
  dsimp only
  rw [hmin, hmax]
  have := (C61_limit_range_int (if p.d.ctype = .vocoderBandcount then F32.truncQ y + lo - Int.tmod (F32.truncQ y + lo) 4
    else F32.truncQ y + lo) lo hi).1 hle
  exact ⟨this.1, this.2.1⟩

theorem truncQ_ge {n : ℤ} {q : ℚ} (hn : 0 ≤ n) (h : (n:ℚ) ≤ q) : n ≤ F32.truncQ q := by
  have : (0:ℚ) ≤ q := le_trans (by exact_mod_cast hn) h
  unfold F32.truncQ
  rw [if_pos this]
  exact Int.le_floor.mpr h

/-- C36 is false of the code for integer parameters: setting one that is not at its minimum moves it to its maximum,
whatever value is set (minimum 0, as for most of them). -/
theorem C36_int_jumps_to_max (F : Fns) (p : Param) (v : F32) (i hi : Int) (force : Bool) (hv : p.val = .int i)
    (hmin : p.d.min = .int 0) (hmax : p.d.max = .int hi) (h1 : 1 ≤ i) (h2 : i ≤ hi) (hhi : hi ≤ 2 ^ 12)
    (hc : p.d.ctype ≠ .vocoderBandcount) :
    setValueF01 F p v force = .ok { p with val := .int hi } := by
  obtain ⟨y, hy, _, ey⟩ := setIntValue_spec (i := i) (lo := 0) (hi := hi) (by rw [abs_le]; constructor <;> omega) (by norm_num)
    (by rw [abs_le]; constructor <;> omega)
  have e : setValueF01 F p v force = boundValue F { p with val := .int (F32.truncQ y + 0) } force := by
    unfold setValueF01; rw [hv, hmin, hmax]; dsimp only; rw [hy, Res.ok_bind]
  rw [e, boundValue_int (p := { p with val := _ }) rfl hmin hmax]
  dsimp only
  rw [if_neg hc, Int.add_zero]
  have d5 := abs_le.mp (lit_close (5 / 1000) (by rw [abs_of_pos] <;> norm_num))
  obtain ⟨v1, v2, _⟩ := inv99_bounds
  have hiq : (1:ℚ) ≤ i := by exact_mod_cast h1
  have hhq : (1:ℚ) ≤ hi := by exact_mod_cast (le_trans h1 h2)
  have s1 : (994 / 1000 : ℚ) ≤ rne ((i:ℚ) - rne (5 / 1000)) := by
    have := rne_mono (show (9949 / 10000 : ℚ) ≤ (i:ℚ) - rne (5 / 1000) by linarith)
    have d := abs_le.mp (lit_close (9949 / 10000) (by rw [abs_of_pos] <;> norm_num))
    linarith
  generalize rne ((i:ℚ) - rne (5 / 1000)) = s at *
  generalize rne (1 / rne (99 / 100)) = a at *
  have m1 : (1:ℚ) ≤ rne (a * s) := by
    have : (1:ℚ) ≤ a * s := by nlinarith
    have := rne_mono this
    rwa [show (1:ℚ) = ((1:ℤ):ℚ) by norm_num, rne_intCast 1 (by norm_num)] at this
  generalize rne (a * s) = m at *
  have hrep : rne ((hi:ℤ):ℚ) = hi := rne_intCast hi (by rw [abs_le]; constructor <;> omega)
  have m2 : (hi:ℚ) ≤ rne (m * ((hi - 0 : ℤ) : ℚ)) := by
    rw [Int.sub_zero]
    have : (hi:ℚ) ≤ m * hi := by nlinarith
    have := rne_mono this
    rwa [hrep] at this
  have m3 : (hi:ℚ) ≤ y := by
    rw [ey]
    have := rne_mono (show (hi:ℚ) ≤ rne (m * ((hi - 0 : ℤ) : ℚ)) + 1 / 2 by linarith)
    rwa [hrep] at this
  have ht := truncQ_ge (by omega) m3
  have : limitRangeI (F32.truncQ y) 0 hi = hi := by unfold limitRangeI; omega
  rw [this]

/-- C36: construction leaves a float parameter inside its range, and does not change a default inside it. -/
theorem C36_new_in_range_partial (F : Fns) (d : Delegate) (f : F32) {lo hi : ℚ} (hd : d.default = .float f)
    (hmin : d.min = .float (.fin lo)) (hmax : d.max = .float (.fin hi)) (hle : lo ≤ hi) :
    ∃ p, Param.new F d = .ok p ∧ p.d = d ∧ Spec.InRange d.min d.max p.val ∧
      (Spec.InRange d.min d.max d.default → p.val = d.default) := by
  have e : Param.new F d = .ok { d := d, val := .float (limitRange f (.fin lo) (.fin hi)), modulationDelta := .float (.fin 0), temposync := false, extendRange := false, absolute := false, snap := false } := by
    simp [Param.new, boundValue, hd, limitParameterRange, hmin, hmax, defaultModulationDelta]
  refine ⟨_, e, rfl, ?_, ?_⟩
  · obtain ⟨q, hq, h1, h2⟩ := limit_in f hle
    rw [hmin, hmax]; dsimp only; rw [hq]
    exact ⟨lo, hi, q, rfl, rfl, rfl, h1, h2⟩
  · rw [hmin, hmax, hd]
    rintro ⟨l, h, q, e1, e2, rfl, h1, h2⟩
    simp only [F32.fin.injEq] at e1 e2
    subst e1 e2
    dsimp only
    rw [(C61_limit_range (.fin q) hle).2.1 q rfl]
    simp [Spec.clamp, not_lt.mpr h1, not_lt.mpr h2]

/-! ## C36: the normalised value -/

/-- C36: the normalised value of a float parameter inside its range lies in [0, 1], in rounded arithmetic. -/
theorem normFloat_unit {v lo hi : ℚ} (hlo : Spec.IsF32 lo) (hhi : Spec.IsF32 hi) (hlt : lo < hi) (h1 : lo ≤ v) (h2 : v ≤ hi)
    (bl : |lo| ≤ 2 ^ 99) (bh : |hi| ≤ 2 ^ 99) :
    ∃ n, normFloat (.fin v) (.fin lo) (.fin hi) = .fin n ∧ 0 ≤ n ∧ n ≤ 1 ∧ n = rne (rne (v - lo) / rne (hi - lo)) := by
  have bl' := abs_le.mp bl
  have bh' := abs_le.mp bh
  have bv : |v| ≤ 2 ^ 99 := by rw [abs_le]; constructor <;> linarith
  have w := rne_sub_pos hlo hhi hlt
  have d0 : 0 ≤ rne (v - lo) := rne_nonneg (by linarith)
  have d1 : rne (v - lo) ≤ rne (hi - lo) := rne_mono (by linarith)
  have r0 : 0 ≤ rne (v - lo) / rne (hi - lo) := div_nonneg d0 w.le
  have r1 : rne (v - lo) / rne (hi - lo) ≤ 1 := (div_le_one w).mpr d1
  unfold normFloat
  rw [sub_fin bv bl, sub_fin bh bl, div_fin (ne_of_gt w) (by rw [abs_of_nonneg r0]; linarith)]
  refine ⟨_, rfl, rne_nonneg r0, ?_, rfl⟩
  have := rne_mono r1
  rwa [show (1:ℚ) = ((1:ℤ):ℚ) by norm_num, rne_intCast 1 (by norm_num)] at this

/-- C36: the normalised value is in [0, 1] for a float parameter inside its range ... -/
theorem C36_normalised_float_partial (p : Param) {v lo hi : ℚ} (hv : p.val = .float (.fin v))
    (hmin : p.d.min = .float (.fin lo)) (hmax : p.d.max = .float (.fin hi)) (hlo : Spec.IsF32 lo) (hhi : Spec.IsF32 hi)
    (hlt : lo < hi) (h1 : lo ≤ v) (h2 : v ≤ hi) (bl : |lo| ≤ 2 ^ 99) (bh : |hi| ≤ 2 ^ 99) :
    ∃ n, getValueF01 p = .ok (.fin n) ∧ 0 ≤ n ∧ n ≤ 1 := by
  unfold getValueF01
  by_cases hc : p.d.ctype = .nil
  · rw [if_pos hc]; exact ⟨0, rfl, le_refl _, by norm_num⟩
  · rw [if_neg hc, hv, hmin, hmax]
    obtain ⟨n, hn, h3, h4, _⟩ := normFloat_unit hlo hhi hlt h1 h2 bl bh
    exact ⟨n, by dsimp only; rw [hn], h3, h4⟩

/-- ... and for an integer parameter inside its range. -/
theorem C36_normalised_int_partial (p : Param) {v lo hi : Int} (hv : p.val = .int v)
    (hmin : p.d.min = .int lo) (hmax : p.d.max = .int hi) (hlt : lo < hi) (h1 : lo ≤ v) (h2 : v ≤ hi)
    (bw : hi - lo ≤ 2 ^ 24) :
    ∃ n, getValueF01 p = .ok (.fin n) ∧ 0 ≤ n ∧ n ≤ 1 := by
  unfold getValueF01
  by_cases hc : p.d.ctype = .nil
  · rw [if_pos hc]; exact ⟨0, rfl, le_refl _, by norm_num⟩
  · rw [if_neg hc, hv, hmin, hmax]
    dsimp only
    unfold normInt
    have c1 : chkI32 (ε := Empty) (v - lo) = .ok (v - lo) := by unfold chkI32; rw [if_pos (by omega)]
    have c2 : chkI32 (ε := Empty) (hi - lo) = .ok (hi - lo) := by unfold chkI32; rw [if_pos (by omega)]
    rw [c1, c2]
    simp only [Res.ok_bind]
    have e99 : flit (99 / 100) = .fin (rne (99 / 100)) := flit_eq (by norm_num)
    have d99 := abs_le.mp (lit_close (99 / 100) (by rw [abs_of_pos] <;> norm_num))
    have e5 : flit (5 / 1000) = .fin (rne (5 / 1000)) := flit_eq (by norm_num)
    have d5 := abs_le.mp (lit_close (5 / 1000) (by rw [abs_of_pos] <;> norm_num))
    rw [e99, e5, F32.ofInt_eq (by rw [abs_le]; constructor <;> omega), F32.ofInt_eq (by rw [abs_le]; constructor <;> omega)]
    have a0 : (0:ℚ) ≤ ((v - lo : ℤ) : ℚ) := by exact_mod_cast (by omega : 0 ≤ v - lo)
    have ab : ((v - lo : ℤ) : ℚ) ≤ ((hi - lo : ℤ) : ℚ) := by exact_mod_cast (by omega : v - lo ≤ hi - lo)
    have b1 : (1:ℚ) ≤ ((hi - lo : ℤ) : ℚ) := by exact_mod_cast (by omega : 1 ≤ hi - lo)
    have bb : ((hi - lo : ℤ) : ℚ) ≤ 2 ^ 24 := by exact_mod_cast bw
    generalize ((v - lo : ℤ) : ℚ) = a at *
    generalize ((hi - lo : ℤ) : ℚ) = b at *
    generalize rne (99 / 100) = k at *
    have p0 : 0 ≤ k * a := mul_nonneg (by linarith) a0
    have p1 : k * a ≤ 991 / 1000 * b := by nlinarith
    have pb : |k * a| ≤ b := by rw [abs_of_nonneg p0]; linarith
    rw [mul_fin (le_trans pb (by linarith))]
    have m0 : 0 ≤ rne (k * a) := rne_nonneg p0
    have m1 : rne (k * a) ≤ 992 / 1000 * b := by
      have := abs_le.mp (rne_dist pb)
      norm_num at this
      nlinarith
    generalize rne (k * a) = m at *
    have bpos : 0 < b := by linarith
    have q0 : 0 ≤ m / b := div_nonneg m0 bpos.le
    have q1 : m / b ≤ 992 / 1000 := by rw [div_le_iff₀ bpos]; exact m1
    rw [div_fin (ne_of_gt bpos) (by rw [abs_of_nonneg q0]; linarith)]
    have n0 : 0 ≤ rne (m / b) := rne_nonneg q0
    have n1 : rne (m / b) ≤ 993 / 1000 := by
      have := abs_le.mp (lit_close (m / b) (by rw [abs_of_nonneg q0]; linarith))
      linarith
    generalize rne (m / b) = n at *
    generalize rne (5 / 1000) = t at *
    rw [add_fin (by rw [abs_le]; constructor <;> linarith)]
    refine ⟨_, rfl, rne_nonneg (by linarith), ?_⟩
    have := rne_mono (show t + n ≤ 1 by linarith)
    rwa [show (1:ℚ) = ((1:ℤ):ℚ) by norm_num, rne_intCast 1 (by norm_num)] at this

theorem clamp_dist {lo hi v r : ℚ} (h1 : lo ≤ v) (h2 : v ≤ hi) : |Spec.clamp lo hi r - v| ≤ |r - v| := by
  unfold Spec.clamp
  split_ifs with c1 c2
  · rw [abs_of_nonpos (by linarith), abs_of_nonpos (by linarith)]; linarith
  · rw [abs_of_nonneg (by linarith), abs_of_nonneg (by linarith)]; linarith
  · exact le_refl _

/-- Normalising a number and scaling it back: error bound in rounded arithmetic. -/
theorem roundtrip_err {v lo hi M : ℚ} (hlo : Spec.IsF32 lo) (hhi : Spec.IsF32 hi) (hlt : lo < hi) (h1 : lo ≤ v) (h2 : v ≤ hi)
    (bl : |lo| ≤ M) (bh : |hi| ≤ M) (bM : M ≤ 2 ^ 97) :
    ∃ n r, normFloat (.fin v) (.fin lo) (.fin hi) = .fin n ∧
      F32.add (F32.mul (.fin n) (F32.sub (.fin hi) (.fin lo))) (.fin lo) = .fin r ∧ |r - v| ≤ M / 2 ^ 20 + 1 / 2 ^ 146 := by
  have M99 : M ≤ 2 ^ 99 := le_trans bM (by norm_num)
  obtain ⟨n, hn, n0, n1, en⟩ := normFloat_unit hlo hhi hlt h1 h2 (le_trans bl M99) (le_trans bh M99)
  have bl' := abs_le.mp bl
  have bh' := abs_le.mp bh
  have M0 : 0 ≤ M := le_trans (abs_nonneg _) bl
  have w := rne_sub_pos hlo hhi hlt
  have dW := abs_le.mp (rne_dist (q := hi - lo) (b := 2 * M) (by rw [abs_le]; constructor <;> linarith))
  have dD := abs_le.mp (rne_dist (q := v - lo) (b := 2 * M) (by rw [abs_le]; constructor <;> linarith))
  have d0 : 0 ≤ rne (v - lo) := rne_nonneg (by linarith)
  have d1 : rne (v - lo) ≤ rne (hi - lo) := rne_mono (by linarith)
  have idw : rne (rne (hi - lo)) = rne (hi - lo) := rne_idem _
  rw [sub_fin (le_trans bh M99) (le_trans bl M99)]
  generalize hW : rne (hi - lo) = W at *
  generalize hD : rne (v - lo) = D at *
  have r0 : 0 ≤ D / W := div_nonneg d0 w.le
  have r1 : D / W ≤ 1 := (div_le_one w).mpr d1
  have dn := abs_le.mp (rne_dist (q := D / W) (b := 1) (by rw [abs_of_nonneg r0]; exact r1))
  rw [← en] at dn
  have eW : D / W * W = D := div_mul_cancel₀ D (ne_of_gt w)
  have nW0 : 0 ≤ n * W := mul_nonneg n0 w.le
  have nW1 : n * W ≤ W := by nlinarith
  have Wb : W ≤ 3 * M + 1 / 2 ^ 150 := by
    have : 2 * M / 2 ^ 24 ≤ M := by rw [div_le_iff₀ (by norm_num)]; linarith
    linarith [dW.2]
  have tiny : (1:ℚ) / 2 ^ 150 ≤ 1 := by norm_num
  have W100 : W ≤ 2 ^ 99 := by
    have : (3:ℚ) * 2 ^ 97 + 1 ≤ 2 ^ 99 := by norm_num
    linarith
  have hm : F32.mul (.fin n) (.fin W) = .fin (rne (n * W)) :=
    mul_fin (by rw [abs_of_nonneg nW0]; linarith [show (2:ℚ) ^ 99 ≤ 2 ^ 100 by norm_num])
  have p0 : 0 ≤ rne (n * W) := rne_nonneg nW0
  have p1 : rne (n * W) ≤ W := by have := rne_mono nW1; rwa [idw] at this
  have dp := abs_le.mp (rne_dist (q := n * W) (b := 3 * M + 1 / 2 ^ 150) (by rw [abs_of_nonneg nW0]; linarith))
  have e1 : n * W ≤ D + (1 / 2 ^ 24 + 1 / 2 ^ 150) * (3 * M + 1 / 2 ^ 150) := by
    have : n * W ≤ (D / W + (1 / 2 ^ 24 + 1 / 2 ^ 150)) * W := mul_le_mul_of_nonneg_right (by linarith [dn.2]) w.le
    have h3 : (1 / 2 ^ 24 + 1 / 2 ^ 150) * W ≤ (1 / 2 ^ 24 + 1 / 2 ^ 150) * (3 * M + 1 / 2 ^ 150 : ℚ) :=
      mul_le_mul_of_nonneg_left Wb (by norm_num)
    rw [add_mul, eW] at this
    linarith
  have e2 : D - (1 / 2 ^ 24 + 1 / 2 ^ 150) * (3 * M + 1 / 2 ^ 150) ≤ n * W := by
    have : (D / W - (1 / 2 ^ 24 + 1 / 2 ^ 150)) * W ≤ n * W := mul_le_mul_of_nonneg_right (by linarith [dn.1]) w.le
    have h3 : (1 / 2 ^ 24 + 1 / 2 ^ 150) * W ≤ (1 / 2 ^ 24 + 1 / 2 ^ 150) * (3 * M + 1 / 2 ^ 150 : ℚ) :=
      mul_le_mul_of_nonneg_left Wb (by norm_num)
    rw [sub_mul, eW] at this
    linarith
  generalize n * W = nW at *
  generalize rne nW = P at *
  have pb : |P + lo| ≤ 4 * M + 1 / 2 ^ 150 := by rw [abs_le]; constructor <;> linarith
  have dr := abs_le.mp (rne_dist pb)
  have p100 : |P + lo| ≤ 2 ^ 100 := by
    refine le_trans pb ?_
    have : (4:ℚ) * 2 ^ 97 + 1 ≤ 2 ^ 100 := by norm_num
    linarith
  have ha := add_fin p100
  refine ⟨n, _, hn, by rw [hm, ha], ?_⟩
  clear ha hm hn
  generalize rne (P + lo) = r at *
  rw [abs_le]
  norm_num at *
  constructor <;> linarith

/-- C36, round trip of float parameters: setting the normalised value that was read leaves the value where it was, up to
an explicit rounding error (a millionth of the largest limit). -/
theorem C36_roundtrip_float_partial (F : Fns) (p : Param) {v lo hi M : ℚ} (hv : p.val = .float (.fin v))
    (hmin : p.d.min = .float (.fin lo)) (hmax : p.d.max = .float (.fin hi)) (hlo : Spec.IsF32 lo) (hhi : Spec.IsF32 hi)
    (hlt : lo < hi) (h1 : lo ≤ v) (h2 : v ≤ hi) (bl : |lo| ≤ M) (bh : |hi| ≤ M) (bM : M ≤ 2 ^ 97)
    (hc : p.d.ctype ≠ .nil) (ht : p.temposync = false) :
    ∃ n p' v', getValueF01 p = .ok n ∧ setValueF01 F p n false = .ok p' ∧ p'.val = .float (.fin v') ∧
      |v' - v| ≤ M / 2 ^ 20 + 1 / 2 ^ 146 := by
  obtain ⟨n, r, hn, hr, he⟩ := roundtrip_err hlo hhi hlt h1 h2 bl bh bM
  have e1 : getValueF01 p = .ok (.fin n) := by
    unfold getValueF01; rw [if_neg hc, hv, hmin, hmax]; dsimp only; rw [hn]
  have e2 : setValueF01 F p (.fin n) false = .ok { p with val := .float (limitRange (.fin r) (.fin lo) (.fin hi)) } := by
    unfold setValueF01
    rw [hv, hmin, hmax]
    dsimp only
    rw [hr]
    simp [boundValue, ht, limitParameterRange, hmin, hmax]
  refine ⟨_, _, _, e1, e2, ?_, le_trans (clamp_dist h1 h2 (r := r)) he⟩
  dsimp only
  rw [(C61_limit_range (.fin r) hlt.le).2.1 r rfl]

/-- C36: `value2normalized` and `normalized2value` are inverse to each other up to the same error. -/
theorem C36_convert_roundtrip_partial (p : Param) {v lo hi M : ℚ}
    (hmin : p.d.min = .float (.fin lo)) (hmax : p.d.max = .float (.fin hi)) (hlo : Spec.IsF32 lo) (hhi : Spec.IsF32 hi)
    (hlt : lo < hi) (h1 : lo ≤ v) (h2 : v ≤ hi) (bl : |lo| ≤ M) (bh : |hi| ≤ M) (bM : M ≤ 2 ^ 97) :
    ∃ v', normalized2value p (value2normalized p (.fin v)) = .fin v' ∧ |v' - v| ≤ M / 2 ^ 20 + 1 / 2 ^ 146 := by
  obtain ⟨n, r, hn, hr, he⟩ := roundtrip_err hlo hhi hlt h1 h2 bl bh bM
  refine ⟨r, ?_, he⟩
  have e1 : value2normalized p (.fin v) = .fin n := by
    unfold value2normalized; rw [hmin, hmax]; dsimp only; rw [hn]
  rw [e1]
  unfold normalized2value
  rw [hmin, hmax]
  exact hr

/-- C36: ... also for integer parameters (limits up to 2^24): the limits normalise to 0 and 1, everything between them
to [0, 1], and converting back returns the value up to the same error. -/
theorem C36_convert_int_partial (p : Param) {lo hi : Int} {v : ℚ} (hmin : p.d.min = .int lo) (hmax : p.d.max = .int hi)
    (hlt : lo < hi) {M : Nat} (bM : M ≤ 2 ^ 24) (blM : |lo| ≤ M) (bhM : |hi| ≤ M) (h1 : (lo : ℚ) ≤ v) (h2 : v ≤ hi) :
    value2normalized p (.fin lo) = .fin 0 ∧ value2normalized p (.fin hi) = .fin 1 ∧
    (∃ n, value2normalized p (.fin v) = .fin n ∧ 0 ≤ n ∧ n ≤ 1) ∧
    ∃ v', normalized2value p (value2normalized p (.fin v)) = .fin v' ∧ |v' - v| ≤ M / 2 ^ 20 + 1 / 2 ^ 146 := by
  have bl : |lo| ≤ 2 ^ 24 := le_trans blM (by exact_mod_cast bM)
  have bh : |hi| ≤ 2 ^ 24 := le_trans bhM (by exact_mod_cast bM)
  have fl : Spec.IsF32 (lo : ℚ) := rne_intCast lo bl
  have fh : Spec.IsF32 (hi : ℚ) := rne_intCast hi bh
  have ql : |(lo : ℚ)| ≤ 2 ^ 24 := by exact_mod_cast bl
  have qh : |(hi : ℚ)| ≤ 2 ^ 24 := by exact_mod_cast bh
  have qlt : (lo : ℚ) < hi := by exact_mod_cast hlt
  have el : F32.ofInt lo = .fin lo := F32.ofInt_eq bl
  have eh : F32.ofInt hi = .fin hi := F32.ofInt_eq bh
  have ev : ∀ w, value2normalized p (.fin w) = normFloat (.fin w) (.fin lo) (.fin hi) := by
    intro w; unfold value2normalized; rw [hmin, hmax]; dsimp only; rw [el, eh]
  have w := rne_sub_pos fl fh qlt
  have b99 : ∀ x : ℚ, |x| ≤ 2 ^ 24 → |x| ≤ 2 ^ 99 := fun x h => le_trans h (by norm_num)
  refine ⟨?_, ?_, ?_, ?_⟩
  · obtain ⟨n, hn, _, _, e⟩ := normFloat_unit fl fh qlt (le_refl _) qlt.le (b99 _ ql) (b99 _ qh)
    rw [ev, hn, e]
    simp [rne_zero]
  · obtain ⟨n, hn, _, _, e⟩ := normFloat_unit fl fh qlt qlt.le (le_refl _) (b99 _ ql) (b99 _ qh)
    rw [ev, hn, e, div_self (ne_of_gt w), show (1:ℚ) = ((1:ℤ):ℚ) by norm_num, rne_intCast 1 (by norm_num)]
  · obtain ⟨n, hn, h3, h4, _⟩ := normFloat_unit fl fh qlt h1 h2 (b99 _ ql) (b99 _ qh)
    exact ⟨n, by rw [ev, hn], h3, h4⟩
  · obtain ⟨n, r, hn, hr, he⟩ := roundtrip_err (M := (M : ℚ)) fl fh qlt h1 h2 (by exact_mod_cast blM) (by exact_mod_cast bhM)
      (le_trans (by exact_mod_cast bM : (M : ℚ) ≤ 2 ^ 24) (by norm_num))
    refine ⟨r, ?_, he⟩
    rw [ev, hn]
    unfold normalized2value
    rw [hmin, hmax]
    dsimp only
    rw [el, eh]
    exact hr

/-- C36: the normalised default is what a parameter at its default reads. -/
theorem C36_default_reads (p : Param) (h : p.val = p.d.default) : getDefaultValueF01 p.d = getValueF01 p := by
  unfold getDefaultValueF01 getValueF01
  rw [h]
  split
  · rfl
  · cases p.d.default <;> cases p.d.min <;> cases p.d.max <;> rfl

/-- Non-vacuity: a parameter between -60 and 70 at 8 meets the hypotheses of the range, reading and round-trip theorems. -/
example (F : Fns) : ∃ n p' v', getValueF01 ⟨⟨.freqHpf, .float (.fin 0), .float (.fin (-60)), .float (.fin 70), .vtFloat, false, true⟩, .float (.fin 8), .float (.fin 0), false, false, false, false⟩ = .ok n ∧
    setValueF01 F ⟨⟨.freqHpf, .float (.fin 0), .float (.fin (-60)), .float (.fin 70), .vtFloat, false, true⟩, .float (.fin 8), .float (.fin 0), false, false, false, false⟩ n false = .ok p' ∧
    p'.val = .float (.fin v') ∧ |v' - 8| ≤ 70 / 2 ^ 20 + 1 / 2 ^ 146 :=
  C36_roundtrip_float_partial F _ rfl rfl rfl (by unfold Spec.IsF32; simpa using rne_intCast (-60) (by norm_num))
    (by unfold Spec.IsF32; simpa using rne_intCast 70 (by norm_num)) (by norm_num) (by norm_num) (by norm_num) (by norm_num)
    (by norm_num) (by norm_num) (by decide) rfl

/-- C36 is false of the code for parameters of control type `Nil` (all scene, patch, envelope and LFO parameters): their
normalised value reads 0 whatever their value is, so it cannot be converted back. -/
theorem C36_nil_reads_zero (p : Param) (h : p.d.ctype = .nil) : getValueF01 p = .ok (.fin 0) := by
  simp [getValueF01, h]

end Verif.Param
