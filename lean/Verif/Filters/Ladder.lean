import Verif.Filters.Linear
import Mathlib.Tactic.IntervalCases
/-!
# Sample-and-hold (C106) and ladder (C107) filters
-/
namespace Verif.Filters

/-! ## Sample and hold -/

/-- Sample `n` (counted from zero) takes a new value: the phase `r · n` passes an integer during it. -/
def Spec.fires (r : ℝ) (n : ℕ) : Prop := ⌈(n : ℝ) * r⌉ < ⌈((n + 1 : ℕ) : ℝ) * r⌉

/-- What is held after `n` samples of `X`: nothing at first; a firing sample replaces it by the soft-clipped input minus feedback. -/
noncomputable def Spec.held (r fb : ℝ) (X : ℕ → ℝ) : ℕ → ℝ
  | 0 => 0
  | n + 1 => open Classical in if Spec.fires r n then Dsp.softclip (X n - fb * Spec.held r fb X n) else Spec.held r fb X n

theorem softclip_le (x : ℝ) : |Dsp.softclip x| ≤ 1 := by
  have h := (Dsp.C62_softclip_partial (K := ℝ)).1
  exact h.bound x

theorem fires_iff {r : ℝ} (r0 : 0 ≤ r) (r1 : r ≤ 1) (n : ℕ) :
    (Spec.fires r n ↔ 0 < (n : ℝ) * r - ⌈(n : ℝ) * r⌉ + r) ∧
    ⌈((n + 1 : ℕ) : ℝ) * r⌉ = ⌈(n : ℝ) * r⌉ + (open Classical in if Spec.fires r n then 1 else 0) := by
  have e : ((n + 1 : ℕ) : ℝ) * r = n * r + r := by push_cast; ring
  have c1 := Int.le_ceil ((n : ℝ) * r)
  have c2 := Int.ceil_lt_add_one ((n : ℝ) * r)
  unfold Spec.fires
  rw [e]
  by_cases h : 0 < (n : ℝ) * r - ⌈(n : ℝ) * r⌉ + r
  · have hc : ⌈(n : ℝ) * r + r⌉ = ⌈(n : ℝ) * r⌉ + 1 := by
      rw [Int.ceil_eq_iff]; push_cast; constructor <;> linarith
    rw [hc]
    refine ⟨⟨fun _ => h, fun _ => by omega⟩, by simp⟩
  · have hc : ⌈(n : ℝ) * r + r⌉ = ⌈(n : ℝ) * r⌉ := by
      rw [Int.ceil_eq_iff]; constructor <;> linarith
    rw [hc]
    refine ⟨⟨fun h' => absurd h' (lt_irrefl _), fun h' => absurd h' h⟩, by simp⟩

/-- C106: **the sample-and-hold filter holds**: with a fixed rate `r` in `[0, 1]` and fixed feedback, a fresh unit answers every input of
any length with exactly the held values of the specification. Not covered: `f32` rounding (the phase accumulates). -/
theorem C106_holds_partial {k : ℕ → ℝ} (r0 : 0 ≤ k 0) (r1 : k 0 ≤ 1) (stage : ℤ) (xs : List ℝ) :
    (run snh ⟨k, fun _ => 0, fun _ => 0, stage⟩ xs).2 = (List.range xs.length).map fun n => Spec.held (k 0) (k 1) (fun i => xs.getD i 0) (n + 1) := by
  classical
  have key := run_inv (step := snh) (fun _ => True) (fun i => xs.getD i 0) (fun n => Spec.held (k 0) (k 1) (fun i => xs.getD i 0) (n + 1))
    (fun n u => u.coeff = k ∧ (u.dcoeff = fun _ => 0) ∧ u.reg 0 = n * k 0 - ⌈(n : ℝ) * k 0⌉ ∧
      u.reg 1 = Spec.held (k 0) (k 1) (fun i => xs.getD i 0) n) ?_ xs 0 ⟨k, fun _ => 0, fun _ => 0, stage⟩ (fun k _ => by simp) ?_
      (fun _ _ => trivial)
  · obtain ⟨l, g⟩ := key
    apply List.ext_getElem
    · simp [l]
    · intro n h1 h2
      have := g n (by rw [l] at h1; exact h1)
      rw [List.getD, List.getElem?_eq_getElem h1, Option.getD_some] at this
      rw [this]; simp
  · rintro n u ⟨hc, hd, h0, h1⟩
    obtain ⟨f1, f2⟩ := fires_iff r0 r1 n
    have hm : (0 < u.reg 0 + k 0) ↔ Spec.fires (k 0) n := by rw [f1, h0]
    have e : ((n + 1 : ℕ) : ℝ) * k 0 = n * k 0 + k 0 := by push_cast; ring
    by_cases hf : Spec.fires (k 0) n
    · have hm' := hm.2 hf
      rw [if_pos hf] at f2
      simp only [snh, adv_zero hd, FU.set, Function.update_apply, hc]
      refine ⟨?_, fun _ => ⟨trivial, hd, ?_, ?_⟩⟩
      · norm_num [hm', Spec.held, hf, h1]
      · norm_num [hm']
        rw [h0]; push_cast at f2 e ⊢; rw [f2]; push_cast; linarith
      · norm_num [hm', Spec.held, hf, h1]
    · have hm' : ¬ 0 < u.reg 0 + k 0 := fun h => hf (hm.1 h)
      rw [if_neg hf] at f2
      simp only [snh, adv_zero hd, FU.set, Function.update_apply, hc]
      refine ⟨?_, fun _ => ⟨trivial, hd, ?_, ?_⟩⟩
      · norm_num [hm', Spec.held, hf, h1]
      · norm_num [hm']
        rw [h0]; push_cast at f2 e ⊢; rw [f2]; push_cast; linarith
      · norm_num [hm', Spec.held, hf, h1]
  · refine ⟨rfl, rfl, by simp, rfl⟩

/-- C106: **at the note's rate**: in any `n` samples the value is renewed exactly `⌈n · r⌉` times. -/
theorem C106_rate {r : ℝ} (r0 : 0 ≤ r) (r1 : r ≤ 1) (n : ℕ) :
    (((open Classical in (Finset.range n).filter (Spec.fires r)).card : ℕ) : ℤ) = ⌈(n : ℝ) * r⌉ := by
  classical
  induction n with
  | zero => simp
  | succ n ih =>
    rw [Finset.range_add_one, Finset.filter_insert, (fires_iff r0 r1 n).2, ← ih]
    split
    · rw [Finset.card_insert_of_notMem (by simp)]; push_cast; rfl
    · simp

/-- The rate made is the pitch over the (oversampled) sample rate: with `pitch = n2p(-freq)` the reciprocal pitch. -/
theorem C106_rate_made {p sros : ℝ} (hp : 0 < p) (hs : 0 < sros) (reso : ℝ) : snhCoeffMake (1 / p) sros reso 0 = 440 * p / sros := by
  simp only [snhCoeffMake]
  have one : (1.0 : ℝ) = 1 := by norm_num
  have a : (440.0 : ℝ) = 440 := by norm_num
  rw [one, a]
  field_simp

/-- C106: **never above full scale**: whatever the inputs, the coefficients and their ramps, every output lies in `[-1, 1]`. -/
theorem C106_bounded (u : FU) (h : |u.reg 1| ≤ 1) (xs : List ℝ) : ∀ y ∈ (run snh u xs).2, |y| ≤ 1 := by
  classical
  refine (run_out (step := snh) (A := fun _ => True) (Q := fun y => |y| ≤ 1) (I := fun u => |u.reg 1| ≤ 1) ?_ xs u (fun _ _ => trivial) h).2
  intro u x _ hu
  have : (snh u x).1.reg 1 = (snh u x).2 := rfl
  rw [this]
  suffices |(snh u x).2| ≤ 1 from ⟨this, this⟩
  simp only [snh, FU.set, FU.adv, Function.update_apply]
  norm_num
  split
  · exact softclip_le _
  · exact hu

/-! ## Ladder -/

theorem softclip8ps_le (x : ℝ) : |softclip8ps x| ≤ 11.50001 := by
  unfold softclip8ps
  set z := max (min x 12) (-12)
  have z1 : -12 ≤ z := le_max_right _ _
  have z2 : z ≤ 12 := max_le (min_le_right _ _) (by norm_num)
  have a := Dsp.cubic_mono (c := (0.00028935185 : ℝ)) (m := 12) (x := z) (y := 12) (by norm_num) (by norm_num) z1 z2 le_rfl
  have b := Dsp.cubic_mono (c := (0.00028935185 : ℝ)) (m := 12) (x := -12) (y := z) (by norm_num) (by norm_num) le_rfl z1 z2
  have e : z * -0.00028935185 * (z * z) + z = z - 0.00028935185 * z ^ 3 := by ring
  rw [abs_le]
  simp only
  rw [e]
  norm_num at a b ⊢
  constructor <;> linarith

theorem softclip8ps_neg (x : ℝ) : softclip8ps (-x) = -softclip8ps x := by
  unfold softclip8ps
  have e : max (min (-x) 12) (-12) = -(max (min x 12) (-12)) := by
    rcases le_total x 12 with h | h <;> rcases le_total (-12) x with h' | h' <;> simp [min_def, max_def] <;> split_ifs <;> linarith
  simp only [e]; ring

theorem moog_advances : Spec.Advances moog [0, 1, 2] := fun _ _ => ⟨rfl, rfl⟩

/-- A mixture of two numbers is no larger than both. -/
theorem mix_le {b x y B : ℝ} (h0 : 0 ≤ b) (h1 : b ≤ 1) (hx : |x| ≤ B) (hy : |y| ≤ B) : |x + b * (y - x)| ≤ B := by
  have := abs_mix (a := 1 - b) (b := b) (by linarith) h0 (by ring) hx hy
  have e : (1 - b) * x + b * y = x + b * (y - x) := by ring
  rwa [e] at this

theorem moog_step {u : FU} {x B : ℝ} (hB : 11.50001 ≤ B) (h0 : 0 ≤ (moog u x).1.coeff 1) (h1 : (moog u x).1.coeff 1 ≤ 1)
    (hi : ∀ i < 5, |u.reg i| ≤ B) : (∀ i < 5, |(moog u x).1.reg i| ≤ B) ∧ |(moog u x).2| ≤ B := by
  have hc : (moog u x).1.coeff 1 = u.coeff 1 + u.dcoeff 1 := by simp [moog, FU.set, FU.adv]
  rw [hc] at h0 h1
  set c := u.coeff 1 + u.dcoeff 1
  have r0 : |softclip8ps (u.reg 0 + c * (x * (u.coeff 0 + u.dcoeff 0) - (u.coeff 2 + u.dcoeff 2) * (u.reg 3 + u.reg 4) - u.reg 0))| ≤ B :=
    (softclip8ps_le _).trans hB
  set a0 := softclip8ps (u.reg 0 + c * (x * (u.coeff 0 + u.dcoeff 0) - (u.coeff 2 + u.dcoeff 2) * (u.reg 3 + u.reg 4) - u.reg 0)) with ha0
  have r1 := mix_le h0 h1 (hi 1 (by norm_num)) r0
  have r2 := mix_le h0 h1 (hi 2 (by norm_num)) r1
  have r3 := mix_le h0 h1 (hi 3 (by norm_num)) r2
  have regs : ∀ i < 5, |(moog u x).1.reg i| ≤ B := by
    intro i hi5
    interval_cases i
    · simpa [moog, FU.set, FU.adv, Function.update_apply] using r0
    · simpa [moog, FU.set, FU.adv, Function.update_apply] using r1
    · simpa [moog, FU.set, FU.adv, Function.update_apply] using r2
    · simpa [moog, FU.set, FU.adv, Function.update_apply] using r3
    · simpa [moog, FU.set, FU.adv, Function.update_apply] using hi 3 (by norm_num)
  refine ⟨regs, ?_⟩
  have : (moog u x).2 = (moog u x).1.reg (u.stage % 4).toNat := rfl
  rw [this]
  exact regs _ (by omega)

/-- Settings of the ladder filter: pitch, sample period, resonance. -/
def Spec.moogSetting (v : ℕ → ℝ) : Prop := ∃ pitch srosInv reso : ℝ, v = moogCoeffMake pitch srosInv reso

theorem moog_b (pitch srosInv reso : ℝ) : 0 ≤ moogCoeffMake pitch srosInv reso 1 ∧ moogCoeffMake pitch srosInv reso 1 < 1 := by
  simp only [moogCoeffMake]
  have g0 : 0 ≤ limit (440.0 * pitch * srosInv) 0 0.187 := le_max_left _ _
  have e := Real.exp_pos (-2.0 * Real.pi * limit (440.0 * pitch * srosInv) 0 0.187)
  have e1 : Real.exp (-2.0 * Real.pi * limit (440.0 * pitch * srosInv) 0 0.187) ≤ 1 := by
    rw [Real.exp_le_one_iff]
    have := mul_nonneg Real.pi_pos.le g0
    norm_num
    nlinarith
  norm_num at e e1 ⊢
  exact ⟨e1, e⟩

/-- C107: **the ladder cannot blow up**: over a whole life of 64-sample blocks, with any settings in each block, any resonance and any
inputs whatever, no output of any stage exceeds 11.50001. -/
theorem C107_bounded (stage : ℤ) (bs : List ((ℕ → ℝ) × List ℝ)) (hb : ∀ b ∈ bs, Spec.moogSetting b.1 ∧ b.2.length = 64) :
    ∀ y ∈ (life moog stage Maker.new (fun _ => 0) bs).2.2, |y| ≤ 11.50001 := by
  have cv : Convex ℝ {v : ℕ → ℝ | 0 ≤ v 1 ∧ v 1 ≤ 1} := by
    intro v hv w hw a b ha hb hab
    obtain ⟨h1, h2⟩ := hv
    obtain ⟨k1, k2⟩ := hw
    exact ⟨add_nonneg (mul_nonneg ha h1) (mul_nonneg hb k1), by
      show a * v 1 + b * w 1 ≤ 1
      nlinarith⟩
  have hul := C104_hull moog_advances cv (by simp) stage (fun _ => 0) bs (fun b h => ⟨by
    obtain ⟨⟨p, s, r, e⟩, -⟩ := hb b h
    rw [e]
    exact ⟨(moog_b p s r).1, (moog_b p s r).2.le⟩, (hb b h).2⟩)
  refine (life_out (A := fun _ => True) (Q := fun y => |y| ≤ 11.50001) (Inv := fun r => ∀ i < 5, |r i| ≤ 11.50001) ?_ stage bs _ _ hul
    (fun _ _ _ _ => trivial) (fun i _ => by norm_num)).2
  rintro u x ⟨-, v, ⟨v0, v1⟩, ev⟩ - hi
  have e1 := ev 1 (by simp)
  exact moog_step le_rfl (by rw [e1]; exact v0) (by rw [e1]; exact v1) hi

/-- A unit with all registers negated. -/
def Spec.flip (u : FU) : FU := { u with reg := fun i => -u.reg i }

/-- C107: **the ladder treats both polarities alike**: negating the registers and the input negates the outputs. -/
theorem C107_odd (xs : List ℝ) : ∀ u : FU, (run moog (Spec.flip u) (xs.map (-·))).2 = (run moog u xs).2.map (-·) := by
  have stp : ∀ (u : FU) (x : ℝ), moog (Spec.flip u) (-x) = (Spec.flip (moog u x).1, -(moog u x).2) := by
    intro u x
    have a : softclip8ps (-u.reg 0 + (u.coeff 1 + u.dcoeff 1) * (-x * (u.coeff 0 + u.dcoeff 0) -
        (u.coeff 2 + u.dcoeff 2) * (-u.reg 3 + -u.reg 4) - -u.reg 0)) =
        -softclip8ps (u.reg 0 + (u.coeff 1 + u.dcoeff 1) * (x * (u.coeff 0 + u.dcoeff 0) -
        (u.coeff 2 + u.dcoeff 2) * (u.reg 3 + u.reg 4) - u.reg 0)) := by
      rw [← softclip8ps_neg]; congr 1; ring
    have hr : (moog (Spec.flip u) (-x)).1.reg = fun i => -(moog u x).1.reg i := by
      funext i
      simp only [moog, Spec.flip, FU.set, FU.adv, Function.update_apply]
      by_cases h3 : i = 3
      · subst h3; simp (decide := true) only [if_true, if_false, a]; ring
      · by_cases h4 : i = 4
        · subst h4; norm_num
        · by_cases h2 : i = 2
          · subst h2; simp (decide := true) only [if_true, if_false, a]; ring
          · by_cases h1 : i = 1
            · subst h1; simp (decide := true) only [if_true, if_false, a]; ring
            · by_cases h0 : i = 0
              · subst h0; simp (decide := true) only [if_true, if_false, a]
              · simp [h0, h1, h2, h3, h4]
    have ho : (moog (Spec.flip u) (-x)).2 = -(moog u x).2 := by
      have e1 : (moog (Spec.flip u) (-x)).2 = (moog (Spec.flip u) (-x)).1.reg (u.stage % 4).toNat := rfl
      have e2 : (moog u x).2 = (moog u x).1.reg (u.stage % 4).toNat := rfl
      rw [e1, e2, hr]
    refine Prod.ext ?_ ho
    have : (moog (Spec.flip u) (-x)).1 = ⟨(moog (Spec.flip u) (-x)).1.coeff, (moog (Spec.flip u) (-x)).1.dcoeff,
      (moog (Spec.flip u) (-x)).1.reg, (moog (Spec.flip u) (-x)).1.stage⟩ := rfl
    rw [this, hr]; rfl
  induction xs with
  | nil => intro u; rfl
  | cons x xs ih =>
    intro u
    simp only [List.map_cons, run, stp, ih]

/-- C107: at every setting the resonance coefficient is in `[0, 2.15]` and the input gain in `[1, 3.54]`: no division by zero. -/
theorem C107_coefficients (pitch srosInv reso : ℝ) : 0 ≤ moogCoeffMake pitch srosInv reso 2 ∧ moogCoeffMake pitch srosInv reso 2 ≤ 2.15 ∧
    1 ≤ moogCoeffMake pitch srosInv reso 0 ∧ moogCoeffMake pitch srosInv reso 0 ≤ 3.54 := by
  have b0 := (moog_b pitch srosInv reso).1
  have q0 : 0 ≤ moogCoeffMake pitch srosInv reso 2 := by
    simp only [moogCoeffMake] at b0 ⊢
    refine le_min (mul_nonneg (by norm_num) (le_max_left _ _)) (div_nonneg (by norm_num) ?_)
    positivity
  have q1 : moogCoeffMake pitch srosInv reso 2 ≤ 2.15 := by
    simp only [moogCoeffMake]
    refine (min_le_left _ _).trans ?_
    have : limit reso 0 1 ≤ 1 := max_le (by norm_num) (min_le_right _ _)
    norm_num; linarith
  have e : moogCoeffMake pitch srosInv reso 0 = 3.0 / (3.0 - moogCoeffMake pitch srosInv reso 2) := rfl
  have p : 0 < (3.0 : ℝ) - moogCoeffMake pitch srosInv reso 2 := by norm_num at q1 ⊢; linarith
  refine ⟨q0, q1, ?_, ?_⟩
  · rw [e, le_div_iff₀ p]; norm_num; linarith
  · rw [e, div_le_iff₀ p]; norm_num at q1 ⊢; linarith

/-- The hypotheses hold: a block at A4, half resonance, 96 kHz. -/
example : Spec.moogSetting (moogCoeffMake 1 (1 / 96000) 0.5) ∧ (List.replicate 64 (0.3 : ℝ)).length = 64 := ⟨⟨1, _, _, rfl⟩, by simp⟩

end Verif.Filters
