import Verif.Param.Table
import Verif.Param.Props
/-!
# The parameter table (C63)

What holds of each of the 271 parameters of the synthesizer, for every history of changes.
-/
namespace Verif.Param
open Verif.Float Verif.Dsp

/-! ## Specification -/

/-- What a user can do to a parameter. -/
inductive Op where
  | set01 (v : F32) (force : Bool)
  | setVal (x : PData)
  | temposync (b : Bool)
  | extendRange (b : Bool)
  | absolute (b : Bool)
  | snap (b : Bool)
  | clearFlags

/-- One change, by the calls of the API. -/
def Op.run (F : Fns) (p : Param) : Op → Res Empty Param
  | .set01 v force => setValueF01 F p v force
  | .setVal x => setParamVal F p x
  | .temposync b => .ok (setTemposync p b)
  | .extendRange b => .ok (setExtendRange p b)
  | .absolute b => .ok (setAbsolute p b)
  | .snap b => .ok (setSnap p b)
  | .clearFlags => .ok (Param.clearFlags p)

/-- A history of changes. -/
def runOps (F : Fns) : Param → List Op → Res Empty Param
  | p, [] => .ok p
  | p, o :: os => o.run F p >>= fun p' => runOps F p' os

/-- The change sets a number between -1 and 1 (if it sets one at all). -/
def Op.Normalised : Op → Prop
  | .set01 v _ => ∃ q, v = .fin q ∧ |q| ≤ 1
  | .setVal (.float v) => ∃ q, v = .fin q ∧ |q| ≤ 1
  | .setVal (.int i) => |i| ≤ 1
  | _ => True

/-- Parameters whose default is of another kind than their limits. -/
def mixedKinds : List (String × String) :=
  [("FM2OscillatorParam", "M1Ratio"), ("FM2OscillatorParam", "M2Ratio"), ("SampleAndHoldOscillatorParam", "Smooth"),
   ("SampleAndHoldOscillatorParam", "Sub"), ("SampleAndHoldOscillatorParam", "UniCount"), ("WTOscillatorParam", "UniCount")]

/-- Parameters whose lower limit is above their upper limit. -/
def crossedLimits : List (String × String) := [("RingModulatorParam", "CarrierFreq"), ("RingModulatorParam", "UnisonDetune")]

/-- Parameters whose limits are equal. -/
def emptyRange : List (String × String) :=
  [("RingModulatorParam", "CarrierShape"), ("RingModulatorParam", "LowCut"), ("RingModulatorParam", "HighCut")]

/-- The parameter whose default is above its upper limit. -/
def defaultOutside : List (String × String) := [("ReverbParam", "HighCut")]

/-- The full name of a parameter. -/
def Entry.key (e : Entry) : String × String := (e.family, e.name)

/-! ## Reading the table -/

/-- Kinds agree and the limits are in order, on the source literals. -/
def regularB (e : Entry) : Bool :=
  match e.default, e.min, e.max with
  | .float d, .float lo, .float hi =>
    decide (lo ≤ hi) && decide (-2 ^ 14 ≤ lo) && decide (hi ≤ 2 ^ 14) &&
      (decide (e.key ∈ defaultOutside) || (decide (lo ≤ d) && decide (d ≤ hi))) &&
      (decide (e.key ∈ emptyRange) || decide (lo + 1 / 100 ≤ hi))
  | .int d, .int lo, .int hi => decide (-4096 ≤ lo) && decide (hi ≤ 4096) && decide (lo ≤ d) && decide (d ≤ hi) &&
      (decide (e.key ∈ emptyRange) || decide (lo < hi)) &&
      (decide (e.ctype ≠ .vocoderBandcount) || decide (Int.tmod d 4 = 0))
  | _, _, _ => false

set_option maxRecDepth 100000 in
theorem table_regular : ∀ e ∈ allParams, e.key ∉ mixedKinds → e.key ∉ crossedLimits → regularB e = true := by
  decide +kernel

/-- Float limits in order. -/
def RegF (d : Delegate) (lo hi : ℚ) : Prop :=
  d.min = .float (.fin lo) ∧ d.max = .float (.fin hi) ∧ lo ≤ hi ∧ |lo| ≤ 2 ^ 14 ∧ |hi| ≤ 2 ^ 14 ∧ Spec.IsF32 lo ∧ Spec.IsF32 hi

/-- Integer limits in order. -/
def RegI (d : Delegate) (lo hi : Int) : Prop :=
  d.min = .int lo ∧ d.max = .int hi ∧ lo ≤ hi ∧ |lo| ≤ 2 ^ 12 ∧ |hi| ≤ 2 ^ 12

/-- The parameter is in its range. -/
def Inv (p : Param) : Prop :=
  (∃ lo hi q, RegF p.d lo hi ∧ p.val = .float (.fin q) ∧ lo ≤ q ∧ q ≤ hi) ∨
  (∃ lo hi i, RegI p.d lo hi ∧ p.val = .int i ∧ lo ≤ i ∧ i ≤ hi)

theorem Inv.inRange {p : Param} (h : Inv p) : Spec.InRange p.d.min p.d.max p.val := by
  rcases h with ⟨lo, hi, q, ⟨h1, h2, _⟩, hv, l, u⟩ | ⟨lo, hi, i, ⟨h1, h2, _⟩, hv, l, u⟩
  · rw [h1, h2, hv]; exact ⟨lo, hi, q, rfl, rfl, rfl, l, u⟩
  · rw [h1, h2, hv]; exact ⟨l, u⟩

theorem syncValue_total (F : Fns) {q : ℚ} (h : |q| ≤ 2 ^ 20) : ∃ g, syncValue F (.fin q) = .ok g := by
  unfold syncValue splitFloat
  dsimp only
  by_cases h0 : q = 0
  · simp [h0]
  · rw [if_neg h0]
    have hb := abs_le.mp h
    have h1 : -2 ^ 31 ≤ F32.truncQ q ∧ F32.truncQ q ≤ 2 ^ 31 - 1 := by
      unfold F32.truncQ
      have hf : ⌊q⌋ ≤ 2 ^ 20 := by
        have := Int.floor_le q
        have : (⌊q⌋:ℚ) ≤ ((2 ^ 20 : ℤ) : ℚ) := by push_cast; linarith
        exact_mod_cast this
      have hc : -2 ^ 20 ≤ ⌈q⌉ := by
        have := Int.le_ceil q
        have : ((-2 ^ 20 : ℤ) : ℚ) ≤ (⌈q⌉:ℚ) := by push_cast; linarith
        exact_mod_cast this
      have hfl : 0 ≤ q → 0 ≤ ⌊q⌋ := fun h => Int.floor_nonneg.mpr h
      have hcl : q ≤ 0 → ⌈q⌉ ≤ 0 := fun h => by
        have := Int.ceil_le (z := 0) (a := q) |>.mpr (by exact_mod_cast h); exact this
      split_ifs with c
      · have := hfl (by linarith); omega
      · have := hcl (by linarith); omega
    rw [if_pos h1]
    simp

theorem boundValue_sync_total {F : Fns} {p : Param} {q : ℚ} {force : Bool} (hv : p.val = .float (.fin q)) (h : |q| ≤ 2 ^ 20) :
    ∃ p', boundValue F p force = .ok p' := by
  obtain ⟨g, hg⟩ := syncValue_total F h
  unfold boundValue
  rw [hv]
  dsimp only
  by_cases ht : p.temposync = true
  · rw [if_pos ht, hg]; simp
  · rw [if_neg ht]; simp

theorem scaled_bound {q lo hi : ℚ} (hq : |q| ≤ 1) (bl : |lo| ≤ 2 ^ 14) (bh : |hi| ≤ 2 ^ 14) :
    ∃ r, F32.add (F32.mul (.fin q) (F32.sub (.fin hi) (.fin lo))) (.fin lo) = .fin r ∧ |r| ≤ 2 ^ 20 := by
  have bl' := abs_le.mp bl
  have bh' := abs_le.mp bh
  have e99 : (2:ℚ) ^ 14 ≤ 2 ^ 99 := by norm_num
  rw [sub_fin (le_trans bh e99) (le_trans bl e99)]
  have hw : |rne (hi - lo)| ≤ 2 ^ 15 := rne_abs (by rw [abs_le]; constructor <;> linarith)
  have hm : |q * rne (hi - lo)| ≤ 2 ^ 15 := by
    rw [abs_mul]
    have := mul_le_mul hq hw (abs_nonneg _) (by norm_num)
    linarith
  rw [mul_fin (le_trans hm (by norm_num))]
  have hp := abs_le.mp (rne_abs hm)
  have ha : |rne (q * rne (hi - lo)) + lo| ≤ 2 ^ 20 := by rw [abs_le]; constructor <;> linarith
  exact ⟨_, add_fin (le_trans ha (by norm_num)), rne_abs ha⟩

theorem setValueF01_keeps_sync {F : Fns} {p p' : Param} {v : F32} {force : Bool} (h : setValueF01 F p v force = .ok p') :
    p'.temposync = p.temposync := by
  have lim : ∀ x : Param, (limitParameterRange x).temposync = x.temposync := by
    intro x; unfold limitParameterRange; split <;> rfl
  have bnd : ∀ x x' : Param, ∀ f, boundValue F x f = .ok x' → x'.temposync = x.temposync := by
    intro x x' f hx
    unfold boundValue at hx
    split at hx
    · rename_i g _
      by_cases ht : x.temposync = true
      · rw [if_pos ht] at hx
        cases hs : syncValue F g with
        | err e => exact e.elim
        | panic w => simp [hs] at hx
        | ok g => simp only [hs, Res.ok_bind, Res.ok.injEq] at hx; rw [← hx, lim]
      · rw [if_neg ht] at hx
        simp only [Res.ok_bind, Res.ok.injEq] at hx; rw [← hx, lim]
    · simp only [Res.ok.injEq] at hx; rw [← hx, lim]
    · simp at hx
  unfold setValueF01 at h
  split at h
  · have := bnd _ _ _ h; exact this
  · rename_i i lo hi _ _ _
    cases hs : setIntValue i lo hi with
    | err e => exact e.elim
    | panic w => simp [hs] at h
    | ok j => simp only [hs, Res.ok_bind] at h; have := bnd _ _ _ h; exact this
  · have := bnd _ _ _ h; exact this
  · simp at h

theorem set01_inv {F : Fns} {p : Param} (hp : Inv p) (v : F32) (force : Bool)
    (hs : p.temposync = false ∨ ∃ q, v = .fin q ∧ |q| ≤ 1) :
    ∃ p', setValueF01 F p v force = .ok p' ∧ Inv p' ∧ p'.d = p.d ∧ p'.temposync = p.temposync := by
  rcases hp with ⟨lo, hi, q, ⟨h1, h2, hle, bl, bh, il, ih⟩, hv, l, u⟩ | ⟨lo, hi, i, ⟨h1, h2, hle, bl, bh⟩, hv, l, u⟩
  · obtain ⟨hr, ht⟩ := C36_set_float_in_range_partial F p v _ force hv h1 h2 hle
    have hex : ∃ p', setValueF01 F p v force = .ok p' := by
      rcases hs with hs | ⟨r, rfl, hr1⟩
      · exact ht hs
      · obtain ⟨s, hs1, hs2⟩ := scaled_bound hr1 bl bh
        have e : setValueF01 F p (.fin r) force = boundValue F { p with val := .float (.fin s) } force := by
          unfold setValueF01; rw [hv, h1, h2]; dsimp only; rw [hs1]
        rw [e]
        exact boundValue_sync_total rfl hs2
    obtain ⟨p', hp'⟩ := hex
    obtain ⟨hin, hd⟩ := hr p' hp'
    refine ⟨p', hp', Or.inl ?_, hd, setValueF01_keeps_sync hp'⟩
    rw [hd, h1, h2] at hin
    unfold Spec.InRange at hin
    split at hin
    · rename_i a b x e1 e2 e3
      obtain ⟨l', h', q', rfl, rfl, rfl, a1, a2⟩ := hin
      simp only [PData.float.injEq, F32.fin.injEq] at e1 e2
      subst e1 e2
      exact ⟨lo, hi, q', ⟨hd ▸ h1, hd ▸ h2, hle, bl, bh, il, ih⟩, e3, a1, a2⟩
    · rename_i e1 _ _; exact absurd e1 (by simp)
    · exact hin.elim
  · obtain ⟨p', hp', hin, hd⟩ := C36_set_int_in_range_partial F p v i lo hi force hv h1 h2 hle
      (by rw [abs_le] at *; constructor <;> omega) bl bh
    refine ⟨p', hp', Or.inr ?_, hd, setValueF01_keeps_sync hp'⟩
    rw [hd, h1, h2] at hin
    unfold Spec.InRange at hin
    split at hin
    · rename_i e1 _ _; exact absurd e1 (by simp)
    · rename_i a b x e1 e2 e3
      simp only [PData.int.injEq] at e1 e2
      subst e1 e2
      exact ⟨lo, hi, x, ⟨hd ▸ h1, hd ▸ h2, hle, bl, bh⟩, e3, hin.1, hin.2⟩
    · exact hin.elim

theorem step_inv {F : Fns} {p : Param} (hp : Inv p) (o : Op) (hs : p.temposync = false ∨ o.Normalised) :
    ∃ p', o.run F p = .ok p' ∧ Inv p' ∧ p'.d = p.d ∧ (o ≠ .temposync true → p.temposync = false → p'.temposync = false) := by
  cases o with
  | set01 v force =>
    obtain ⟨p', h1, h2, h3, h4⟩ := set01_inv (F := F) hp v force hs
    exact ⟨p', h1, h2, h3, fun _ h => h4.trans h⟩
  | setVal x =>
    have go : ∀ v force, (p.temposync = false ∨ ∃ q, v = .fin q ∧ |q| ≤ 1) → setParamVal F p x = setValueF01 F p v force →
        ∃ p', (Op.setVal x).run F p = .ok p' ∧ Inv p' ∧ p'.d = p.d ∧
          (Op.setVal x ≠ .temposync true → p.temposync = false → p'.temposync = false) := by
      intro v force hv he
      obtain ⟨p', h1, h2, h3, h4⟩ := set01_inv (F := F) hp v force hv
      exact ⟨p', he.trans h1, h2, h3, fun _ h => h4.trans h⟩
    cases x with
    | float v => exact go v false hs rfl
    | bool b =>
      cases b
      · exact go (.fin 0) false (Or.inr ⟨0, rfl, by norm_num⟩) rfl
      · exact go (.fin 1) false (Or.inr ⟨1, rfl, by norm_num⟩) rfl
    | int i =>
      refine go (F32.ofInt i) true ?_ rfl
      rcases hs with hs | hs
      · exact Or.inl hs
      · have hi : |i| ≤ 1 := hs
        have : |i| ≤ 2 ^ 24 := le_trans hi (by norm_num)
        rw [F32.ofInt_eq this]
        refine Or.inr ⟨_, rfl, ?_⟩
        have := Int.cast_le (R := ℚ) |>.mpr hi
        rwa [Int.cast_abs, Int.cast_one] at this
  | temposync b => exact ⟨_, rfl, hp, rfl, fun h _ => by cases b <;> simp_all [setTemposync]⟩
  | extendRange b => exact ⟨_, rfl, hp, rfl, fun _ h => h⟩
  | absolute b => exact ⟨_, rfl, hp, rfl, fun _ h => h⟩
  | snap b => exact ⟨_, rfl, hp, rfl, fun _ h => h⟩
  | clearFlags => exact ⟨_, rfl, hp, rfl, fun _ _ => rfl⟩

theorem run_inv {F : Fns} : ∀ (os : List Op) {p : Param}, Inv p →
    ((∀ o ∈ os, o.Normalised) ∨ (p.temposync = false ∧ ∀ o ∈ os, o ≠ .temposync true)) →
    ∃ p', runOps F p os = .ok p' ∧ Inv p' ∧ p'.d = p.d := by
  intro os
  induction os with
  | nil => intro p hp _; exact ⟨p, rfl, hp, rfl⟩
  | cons o os ih =>
    intro p hp hs
    obtain ⟨p', h1, h2, h3, h4⟩ := step_inv (F := F) hp o (by
      rcases hs with hs | hs
      · exact Or.inr (hs o (by simp))
      · exact Or.inl hs.1)
    obtain ⟨p'', g1, g2, g3⟩ := ih h2 (by
      rcases hs with hs | hs
      · exact Or.inl fun o' ho' => hs o' (by simp [ho'])
      · exact Or.inr ⟨h4 (hs.2 o (by simp)) hs.1, fun o' ho' => hs.2 o' (by simp [ho'])⟩)
    exact ⟨p'', by unfold runOps; rw [h1, Res.ok_bind, g1], g2, g3.trans h3⟩

/-! ## From the literals to the delegate -/

theorem flit_isF32 {q : ℚ} (h : |q| ≤ 2 ^ 14) : flit q = .fin (rne q) ∧ |rne q| ≤ 2 ^ 14 ∧ Spec.IsF32 (rne q) :=
  ⟨flit_eq (le_trans h (by norm_num)), rne_abs h, rne_idem q⟩

/-- A regular row: a new parameter exists, is in range and equals the default (unless that is outside). -/
theorem new_inv (F : Fns) {e : Entry} (h : regularB e = true) :
    ∃ p, Param.new F e.delegate = .ok p ∧ Inv p ∧ p.d = e.delegate ∧ p.temposync = false ∧
      (e.key ∉ defaultOutside → p.val = e.default.toPData) := by
  unfold regularB at h
  split at h
  · rename_i d lo hi e1 e2 e3
    simp only [Bool.and_eq_true, Bool.or_eq_true, decide_eq_true_eq] at h
    obtain ⟨⟨⟨⟨h1, h2⟩, h3⟩, h4⟩, _⟩ := h
    obtain ⟨fl, bl, il⟩ := flit_isF32 (q := lo) (by rw [abs_le]; constructor <;> linarith)
    obtain ⟨fh, bh, ih⟩ := flit_isF32 (q := hi) (by rw [abs_le]; constructor <;> linarith)
    have hle : rne lo ≤ rne hi := rne_mono h1
    have hmin : e.delegate.min = .float (.fin (rne lo)) := by simp [Entry.delegate, e2, Lit.toPData, fl]
    have hmax : e.delegate.max = .float (.fin (rne hi)) := by simp [Entry.delegate, e3, Lit.toPData, fh]
    have hd : e.delegate.default = .float (flit d) := by simp [Entry.delegate, e1, Lit.toPData]
    obtain ⟨p, hp, hpd, hin, heq⟩ := C36_new_in_range_partial F e.delegate _ hd hmin hmax hle
    have hsync : p.temposync = false := by
      unfold Param.new at hp
      simp only [boundValue, hd, Res.ok_bind, Bool.false_eq_true, if_false, Res.ok.injEq, limitParameterRange, hmin, hmax] at hp
      rw [← hp]
    refine ⟨p, hp, Or.inl ?_, hpd, hsync, fun hk => ?_⟩
    · rw [hmin, hmax] at hin
      unfold Spec.InRange at hin
      split at hin
      · rename_i a b x c1 c2 c3
        obtain ⟨l', h', q', rfl, rfl, rfl, a1, a2⟩ := hin
        simp only [PData.float.injEq, F32.fin.injEq] at c1 c2
        subst c1 c2
        exact ⟨_, _, q', ⟨hpd ▸ hmin, hpd ▸ hmax, hle, bl, bh, il, ih⟩, c3, a1, a2⟩
      · rename_i c1 _ _; exact absurd c1 (by simp)
      · exact hin.elim
    · rcases h4 with h4 | ⟨h4, h5⟩
      · exact absurd h4 hk
      · rw [heq ?_]; · rfl
        rw [hmin, hmax, hd, flit_eq (by rw [abs_le]; constructor <;> norm_num at * <;> linarith)]
        exact ⟨_, _, _, rfl, rfl, rfl, rne_mono h4, rne_mono h5⟩
  · rename_i d lo hi e1 e2 e3
    simp only [Bool.and_eq_true, Bool.or_eq_true, decide_eq_true_eq] at h
    obtain ⟨⟨⟨⟨⟨h1, h2⟩, h3⟩, h4⟩, _⟩, h5⟩ := h
    have hmin : e.delegate.min = .int lo := by simp [Entry.delegate, e2, Lit.toPData]
    have hmax : e.delegate.max = .int hi := by simp [Entry.delegate, e3, Lit.toPData]
    have hd : e.delegate.default = .int d := by simp [Entry.delegate, e1, Lit.toPData]
    have hb := boundValue_int (F := F) (force := false)
      (p := ⟨e.delegate, e.delegate.default, defaultModulationDelta e.delegate.default, false, false, false, false⟩) hd hmin hmax
    refine ⟨_, hb, Or.inr ⟨lo, hi, _, ⟨hmin, hmax, by omega, ?_, ?_⟩, rfl, ?_, ?_⟩, rfl, rfl, fun _ => ?_⟩
    · rw [abs_le]; constructor <;> omega
    · rw [abs_le]; constructor <;> omega
    · exact ((C61_limit_range_int _ lo hi).1 (by omega)).1
    · exact ((C61_limit_range_int _ lo hi).1 (by omega)).2.1
    · dsimp only
      have he : (if e.delegate.ctype = .vocoderBandcount then d - Int.tmod d 4 else d) = d := by
        split_ifs with c
        · rcases h5 with h5 | h5
          · exact absurd c h5
          · omega
        · rfl
      rw [he, ((C61_limit_range_int d lo hi).1 (by omega)).2.2.1 h3 h4, e1]
      rfl
  · exact absurd h (by simp)

/-! ## C63 -/

/-- C63. Every parameter of the synthesizer except the eight named ones can be constructed, starts at its default (the
reverb's high cut: at its upper limit), and after any history of value and flag changes it is still inside its range.
The history may contain any numbers, infinities and NaN while the parameter is not tempo-synced, and normalised numbers
when it is. -/
theorem C63_every_parameter_stays_in_range_partial (F : Fns) (e : Entry) (he : e ∈ allParams)
    (h1 : e.key ∉ mixedKinds) (h2 : e.key ∉ crossedLimits) (os : List Op)
    (hs : (∀ o ∈ os, o.Normalised) ∨ (∀ o ∈ os, o ≠ .temposync true)) :
    ∃ p p', Param.new F e.delegate = .ok p ∧ (e.key ∉ defaultOutside → p.val = e.default.toPData) ∧
      Spec.InRange e.min.toPData e.max.toPData p.val ∧
      runOps F p os = .ok p' ∧ Spec.InRange e.min.toPData e.max.toPData p'.val := by
  obtain ⟨p, hp, hi, hd, ht, hv⟩ := new_inv F (table_regular e he h1 h2)
  obtain ⟨p', hr, hi', hd'⟩ := run_inv (F := F) os hi (hs.imp id fun h => ⟨ht, h⟩)
  have a := hi.inRange
  have b := hi'.inRange
  rw [hd] at a
  rw [hd', hd] at b
  exact ⟨p, p', hp, hv, a, hr, b⟩

/-- Non-vacuity: the flanger's voice count and the chorus' rate are such parameters, under a history with NaN. -/
example : ∃ e ∈ allParams, e.key = ("FlangerParam", "Voices") ∧ e.key ∉ mixedKinds ∧ e.key ∉ crossedLimits ∧
    ∀ o ∈ [Op.set01 .nan true, Op.setVal (.int 7), Op.clearFlags], o ≠ Op.temposync true := by
  refine ⟨⟨"FlangerParam", "Voices", .flangerVoices, .int 4, .int 1, .int 4, .vtInt, true, true⟩, ?_⟩
  refine ⟨by decide +kernel, by decide, by decide, by decide, ?_⟩
  simp

/-- C63. The normalised reading after any such history is in [0, 1], for every parameter with a nonempty range (and
rounded arithmetic). -/
theorem C63_every_reading_normalised_partial (F : Fns) (e : Entry) (he : e ∈ allParams)
    (h1 : e.key ∉ mixedKinds) (h2 : e.key ∉ crossedLimits) (h3 : e.key ∉ emptyRange) (os : List Op)
    (hs : (∀ o ∈ os, o.Normalised) ∨ (∀ o ∈ os, o ≠ .temposync true)) :
    ∃ p p' n, Param.new F e.delegate = .ok p ∧ runOps F p os = .ok p' ∧ getValueF01 p' = .ok (.fin n) ∧ 0 ≤ n ∧ n ≤ 1 := by
  have hreg := table_regular e he h1 h2
  obtain ⟨p, hp, hi, hd, ht, hv⟩ := new_inv F hreg
  obtain ⟨p', hr, hi', hd'⟩ := run_inv (F := F) os hi (hs.imp id fun h => ⟨ht, h⟩)
  have hdd : p'.d = e.delegate := hd'.trans hd
  have fin : ∃ n, getValueF01 p' = .ok (.fin n) ∧ 0 ≤ n ∧ n ≤ 1 := by
    rcases hi' with ⟨lo, hi, q, ⟨a1, a2, hle, bl, bh, il, ih⟩, hv, l, u⟩ | ⟨lo, hi, i, ⟨a1, a2, hle, bl, bh⟩, hv, l, u⟩
    · have hlt : lo < hi := by
        unfold regularB at hreg
        rw [hdd] at a1 a2
        split at hreg
        · rename_i d lo' hi' e1 e2 e3
          simp only [Bool.and_eq_true, Bool.or_eq_true, decide_eq_true_eq] at hreg
          obtain ⟨⟨⟨⟨g1, g2⟩, g3⟩, _⟩, g4⟩ := hreg
          rcases g4 with g4 | g4
          · exact absurd g4 h3
          have c1 : |lo'| ≤ 2 ^ 14 := by rw [abs_le]; constructor <;> linarith
          have c2 : |hi'| ≤ 2 ^ 14 := by rw [abs_le]; constructor <;> linarith
          simp only [Entry.delegate, e2, e3, Lit.toPData, (flit_isF32 c1).1, (flit_isF32 c2).1, PData.float.injEq,
            F32.fin.injEq] at a1 a2
          have d1 := abs_le.mp (rne_dist c1)
          have d2 := abs_le.mp (rne_dist c2)
          rw [← a1, ← a2]
          norm_num at d1 d2 g4
          linarith
        · rename_i e1 e2 e3
          simp [Entry.delegate, e2, Lit.toPData] at a1
        · exact absurd hreg (by simp)
      exact C36_normalised_float_partial p' hv a1 a2 il ih hlt l u (le_trans bl (by norm_num)) (le_trans bh (by norm_num))
    · have hlt : lo < hi := by
        unfold regularB at hreg
        rw [hdd] at a1 a2
        split at hreg
        · rename_i e1 e2 e3
          simp [Entry.delegate, e2, Lit.toPData] at a1
        · rename_i d lo' hi' e1 e2 e3
          simp only [Bool.and_eq_true, Bool.or_eq_true, decide_eq_true_eq] at hreg
          obtain ⟨⟨_, g4⟩, _⟩ := hreg
          rcases g4 with g4 | g4
          · exact absurd g4 h3
          simp only [Entry.delegate, e2, e3, Lit.toPData, PData.int.injEq] at a1 a2
          omega
        · exact absurd hreg (by simp)
      refine C36_normalised_int_partial p' hv a1 a2 hlt l u ?_
      rw [abs_le] at bl bh; omega
  obtain ⟨n, g1, g2, g3⟩ := fin
  exact ⟨p, p', n, hp, hr, g1, g2, g3⟩

theorem limitRange_crossed (x : F32) {lo hi : ℚ} (h : hi < lo) : limitRange x (.fin lo) (.fin hi) = .fin hi := by
  unfold limitRange maxSs
  split_ifs with c
  · cases x with
    | fin q =>
      simp only [F32.lt, decide_eq_true_eq] at c
      unfold minSs
      rw [if_neg]
      simp only [F32.lt, decide_eq_true_eq]; linarith
    | nan => simp [minSs, F32.lt]
    | pinf => simp [minSs, F32.lt]
    | ninf => simp [F32.lt] at c
  · unfold minSs
    rw [if_neg]
    simp only [F32.lt, decide_eq_true_eq]; linarith

set_option maxRecDepth 100000 in
theorem table_crossed : ∀ e ∈ allParams, e.key ∈ crossedLimits →
    (match e.min, e.max with | .float lo, .float hi => decide (hi = 0 ∧ (lo = 1 ∨ lo = 1 / 100)) | _, _ => false) = true := by
  decide +kernel

/-- C63 is false of the code for the two parameters with crossed limits: whatever is set, the value is the upper limit,
which is below the lower limit. -/
theorem C63_crossed_limits_stuck (F : Fns) (e : Entry) (he : e ∈ allParams) (hk : e.key ∈ crossedLimits) (p : Param)
    (hp : p.d = e.delegate) (f v : F32) (force : Bool) (hv : p.val = .float f) (ht : p.temposync = false) :
    ∃ p', setValueF01 F p v force = .ok p' ∧ p'.val = .float (.fin 0) ∧
      ¬ Spec.InRange e.min.toPData e.max.toPData p'.val := by
  have h := table_crossed e he hk
  split at h
  · rename_i lo hi e1 e2
    simp only [decide_eq_true_eq] at h
    obtain ⟨rfl, hlo⟩ := h
    have blo : |lo| ≤ 2 ^ 14 := by rcases hlo with rfl | rfl <;> norm_num
    have hz : rne 0 = 0 := by simpa using rne_intCast 0 (by norm_num)
    have hpos : 0 < rne lo := by
      have := rne_dist blo
      rcases hlo with rfl | rfl
      · rw [show (1:ℚ) = ((1:ℤ):ℚ) by norm_num, rne_intCast 1 (by norm_num)]; norm_num
      · have := abs_le.mp (lit_close (1 / 100) (by norm_num))
        norm_num at this ⊢; linarith
    have hmin : p.d.min = .float (.fin (rne lo)) := by rw [hp]; simp [Entry.delegate, e1, Lit.toPData, (flit_isF32 blo).1]
    have hmax : p.d.max = .float (.fin 0) := by
      rw [hp]; simp [Entry.delegate, e2, Lit.toPData, (flit_isF32 (q := 0) (by norm_num)).1, hz]
    have hm1 : e.min.toPData = .float (.fin (rne lo)) := by rw [← hmin, hp]; rfl
    have hm2 : e.max.toPData = .float (.fin 0) := by rw [← hmax, hp]; rfl
    refine ⟨{ p with val := .float (.fin 0) }, ?_, rfl, ?_⟩
    · simp only [setValueF01, hv, hmin, hmax, boundValue, ht, Bool.false_eq_true, if_false, Res.ok_bind,
        limitParameterRange, limitRange_crossed _ hpos]
    · rw [hm1, hm2]
      rintro ⟨l, h, q, c1, c2, c3, c4, c5⟩
      simp only [F32.fin.injEq] at c1 c2
      linarith
  · exact absurd h (by simp)

set_option maxRecDepth 100000 in
theorem table_mixed : ∀ e ∈ allParams, e.key ∈ mixedKinds →
    (match e.default, e.min, e.max with
      | .float _, .int _, .int _ => true
      | .int _, .float _, .float _ => true
      | _, _, _ => false) = true := by
  decide +kernel

/-- C63 is false of the code for the six parameters whose default and limits are of different kinds: a new one has its
default, and setting it to anything panics. -/
theorem C63_mixed_kinds_panic (F : Fns) (e : Entry) (he : e ∈ allParams) (hk : e.key ∈ mixedKinds)
    (hc : e.ctype ≠ .vocoderBandcount) :
    ∃ p, Param.new F e.delegate = .ok p ∧ p.val = e.default.toPData ∧
      ¬ Spec.InRange e.min.toPData e.max.toPData p.val ∧
      ∀ v force, setValueF01 F p v force = .panic "unreachable" := by
  have h := table_mixed e he hk
  split at h
  · rename_i d lo hi e1 e2 e3
    have e1' : e.delegate.default = .float (flit d) := by simp [Entry.delegate, e1, Lit.toPData]
    have e2' : e.delegate.min = .int lo := by simp [Entry.delegate, e2, Lit.toPData]
    have e3' : e.delegate.max = .int hi := by simp [Entry.delegate, e3, Lit.toPData]
    refine ⟨⟨e.delegate, .float (flit d), .float (.fin 0), false, false, false, false⟩, ?_, ?_, ?_, ?_⟩
    · simp [Param.new, boundValue, e1', e2', e3', limitParameterRange, defaultModulationDelta]
    · rw [e1]; rfl
    · rw [e2, e3]; exact id
    · intro v force; simp [setValueF01, e2', e3']
  · rename_i d lo hi e1 e2 e3
    have e1' : e.delegate.default = .int d := by simp [Entry.delegate, e1, Lit.toPData]
    have e2' : e.delegate.min = .float (flit lo) := by simp [Entry.delegate, e2, Lit.toPData]
    have e3' : e.delegate.max = .float (flit hi) := by simp [Entry.delegate, e3, Lit.toPData]
    have hc' : e.delegate.ctype ≠ .vocoderBandcount := hc
    refine ⟨⟨e.delegate, .int d, .int 0, false, false, false, false⟩, ?_, ?_, ?_, ?_⟩
    · simp [Param.new, boundValue, e1', e2', e3', limitParameterRange, defaultModulationDelta, hc']
    · rw [e1]; rfl
    · rw [e2, e3]; exact id
    · intro v force; simp [setValueF01, e2', e3']
  · exact absurd h (by simp)

/-- Non-vacuity of the two refutations. -/
example : (∃ e ∈ allParams, e.key ∈ crossedLimits) ∧ (∃ e ∈ allParams, e.key ∈ mixedKinds ∧ e.ctype ≠ .vocoderBandcount) := by
  constructor <;> decide +kernel

set_option maxRecDepth 100000 in
theorem table_empty : ∀ e ∈ allParams, e.key ∈ emptyRange → e.ctype ≠ .nil ∧ e.ctype ≠ .vocoderBandcount ∧
    ((e.default = .float 0 ∧ e.min = .float 0 ∧ e.max = .float 0) ∨ (e.default = .int 0 ∧ e.min = .int 0 ∧ e.max = .int 0)) := by
  decide +kernel

/-- C63: the reading of the three parameters with an empty range is not a number. -/
theorem C63_empty_range_reads_nan (F : Fns) (e : Entry) (he : e ∈ allParams) (hk : e.key ∈ emptyRange) :
    ∃ p, Param.new F e.delegate = .ok p ∧ getValueF01 p = .ok .nan := by
  obtain ⟨h0, h0', h⟩ := table_empty e he hk
  have hz : rne 0 = 0 := by simpa using rne_intCast 0 (by norm_num)
  have fz : flit 0 = .fin 0 := by rw [(flit_isF32 (q := 0) (by norm_num)).1, hz]
  have iz : F32.ofInt 0 = .fin 0 := by rw [F32.ofInt_eq (by norm_num)]; simp
  have hc : e.delegate.ctype ≠ .nil := h0
  have hc' : e.delegate.ctype ≠ .vocoderBandcount := h0'
  rcases h with ⟨e1, e2, e3⟩ | ⟨e1, e2, e3⟩
  · have e1' : e.delegate.default = .float (.fin 0) := by simp [Entry.delegate, e1, Lit.toPData, fz]
    have e2' : e.delegate.min = .float (.fin 0) := by simp [Entry.delegate, e2, Lit.toPData, fz]
    have e3' : e.delegate.max = .float (.fin 0) := by simp [Entry.delegate, e3, Lit.toPData, fz]
    refine ⟨⟨e.delegate, .float (.fin 0), .float (.fin 0), false, false, false, false⟩, ?_, ?_⟩
    · simp [Param.new, boundValue, e1', e2', e3', limitParameterRange, defaultModulationDelta, limitRange, minSs, maxSs]
    · have hs : F32.sub (.fin 0) (.fin 0) = .fin 0 := by rw [sub_fin (by norm_num) (by norm_num), sub_zero, hz]
      simp [getValueF01, hc, e2', e3', normFloat, hs, divF, F32.infOf]
  · have e1' : e.delegate.default = .int 0 := by simp [Entry.delegate, e1, Lit.toPData]
    have e2' : e.delegate.min = .int 0 := by simp [Entry.delegate, e2, Lit.toPData]
    have e3' : e.delegate.max = .int 0 := by simp [Entry.delegate, e3, Lit.toPData]
    refine ⟨⟨e.delegate, .int 0, .int 0, false, false, false, false⟩, ?_, ?_⟩
    · simp [Param.new, boundValue, e1', e2', e3', limitParameterRange, defaultModulationDelta, limitRangeI, hc']
    · have hm : F32.mul (flit (99 / 100)) (.fin 0) = .fin 0 := by
        rw [flit_eq (by norm_num), mul_fin (by norm_num), mul_zero, hz]
      have hd : divF (.fin 0) (.fin 0) = .nan := by simp [divF, F32.infOf]
      simp [getValueF01, hc, e2', e3', normInt, chkI32, iz, hm, hd]
      rw [flit_eq (by norm_num)]
      rfl

end Verif.Param
