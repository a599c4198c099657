import Verif.Wavetable.SineData
import Mathlib.Analysis.SpecialFunctions.Trigonometric.Basic
import Mathlib.Tactic.IntervalCases
/-!
# The built-in wavetable (C270)

The bytes are data of the crate (`load_initial_wavetable`, which should read them, is `todo!()`); they are read here by a reader of the file format written for this purpose: a header of twelve bytes and samples of sixteen bits.
-/
namespace Verif.Wavetable.Sine

/-! ## Reading the bytes -/

/-- A byte of the file. -/
def byte (i : ℕ) : ℕ := bytes.getD i 0

/-- Two bytes, low byte first. -/
def u16 (i : ℕ) : ℕ := byte i + 256 * byte (i + 1)

/-- A sixteen-bit sample in two's complement. -/
def i16 (i : ℕ) : ℤ := if u16 i < 32768 then u16 i else (u16 i : ℤ) - 65536

/-- Sample `i` of table `n`: the tables follow the 12 bytes of the header, 64 samples of two bytes each. -/
def Spec.sample (n i : ℕ) : ℤ := i16 (12 + 2 * (64 * n + i))

/-! ## The sine -/

theorem sqrt_in {x l h : ℝ} (h0 : 0 ≤ h) (a : l ^ 2 ≤ x) (b : x ≤ h ^ 2) : l ≤ Real.sqrt x ∧ Real.sqrt x ≤ h :=
  ⟨Real.le_sqrt_of_sq_le a, Real.sqrt_le_iff.2 ⟨h0, b⟩⟩

theorem first : |Real.sin (Real.pi / 32) - 0.0980171403295606| ≤ 2e-16 ∧ |Real.cos (Real.pi / 32) - 0.9951847266721969| ≤ 2e-16 := by
  rw [Real.sin_pi_div_thirty_two, Real.cos_pi_div_thirty_two]
  obtain ⟨al, ah⟩ : 1.41421356237309504880168872 ≤ Real.sqrt (2) ∧ Real.sqrt (2) ≤ 1.41421356237309504880168873 :=
    sqrt_in (by norm_num) (by norm_num) (by norm_num)
  obtain ⟨bl, bh⟩ : 1.8477590650225735122563663 ≤ Real.sqrt (2 + Real.sqrt 2) ∧ Real.sqrt (2 + Real.sqrt 2) ≤ 1.8477590650225735122563664 :=
    sqrt_in (by norm_num) (by norm_num at al ah ⊢; linarith) (by norm_num at al ah ⊢; linarith)
  obtain ⟨cl, ch⟩ : 1.961570560806460898252364 ≤ Real.sqrt (2 + Real.sqrt (2 + Real.sqrt 2)) ∧ Real.sqrt (2 + Real.sqrt (2 + Real.sqrt 2)) ≤ 1.961570560806460898252365 :=
    sqrt_in (by norm_num) (by norm_num at bl bh ⊢; linarith) (by norm_num at bl bh ⊢; linarith)
  obtain ⟨dl, dh⟩ : 1.9903694533443937724896 ≤ Real.sqrt (2 + Real.sqrt (2 + Real.sqrt (2 + Real.sqrt 2))) ∧ Real.sqrt (2 + Real.sqrt (2 + Real.sqrt (2 + Real.sqrt 2))) ≤ 1.9903694533443937724897 :=
    sqrt_in (by norm_num) (by norm_num at cl ch ⊢; linarith) (by norm_num at cl ch ⊢; linarith)
  obtain ⟨sl, sh⟩ : 0.19603428065912120398 ≤ Real.sqrt (2 - Real.sqrt (2 + Real.sqrt (2 + Real.sqrt 2))) ∧ Real.sqrt (2 - Real.sqrt (2 + Real.sqrt (2 + Real.sqrt 2))) ≤ 0.19603428065912120399 :=
    sqrt_in (by norm_num) (by norm_num at cl ch ⊢; linarith) (by norm_num at cl ch ⊢; linarith)
  constructor <;> rw [abs_le] <;> constructor <;> norm_num at * <;> linarith

theorem step {c c0 s1 q1 s0 q0 q2 δ e1 e0 : ℝ} (hc : |c - c0| ≤ δ) (c1 : |c0| ≤ 1) (h1 : |Real.sin s1 - q1| ≤ e1) (h0 : |Real.sin s0 - q0| ≤ e0) (h2 : |q2 - (2 * c0 * q1 - q0)| ≤ δ) :
    |2 * c * Real.sin s1 - Real.sin s0 - q2| ≤ 2 * e1 + e0 + 3 * δ := by
  have e : 2 * c * Real.sin s1 - Real.sin s0 - q2 = 2 * ((c - c0) * Real.sin s1) + 2 * (c0 * (Real.sin s1 - q1)) - (Real.sin s0 - q0) - (q2 - (2 * c0 * q1 - q0)) := by ring
  have a : |(c - c0) * Real.sin s1| ≤ δ := by
    rw [abs_mul]
    have := mul_le_mul hc (Real.abs_sin_le_one s1) (abs_nonneg _) ((abs_nonneg _).trans hc)
    linarith
  have b : |c0 * (Real.sin s1 - q1)| ≤ e1 := by
    rw [abs_mul]
    have := mul_le_mul c1 h1 (abs_nonneg _) (by norm_num)
    linarith
  rw [e]
  rw [abs_le] at *
  constructor <;> linarith

/-- The sine at the first seventeen points of a cycle of 64, to nine places. -/
def quarter : List ℚ := [0, 0.0980171403295606, 0.1950903220161283, 0.2902846772544624, 0.3826834323650898, 0.4713967368259976, 0.5555702330196022, 0.6343932841636455, 0.7071067811865475, 0.7730104533627370, 0.8314696123025452, 0.8819212643483550, 0.9238795325112868, 0.9569403357322089, 0.9807852804032304, 0.9951847266721969, 1.0000000000000000]

theorem quarter_near (k : ℕ) (hk : k ≤ 16) : |Real.sin (k * (Real.pi / 32)) - (quarter.getD k 0 : ℚ)| ≤ 3e-10 := by
  obtain ⟨θ, hθ⟩ : ∃ θ, θ = Real.pi / 32 := ⟨_, rfl⟩
  have F := first
  rw [← hθ] at F
  obtain ⟨h1', hc⟩ := F
  have cheb : ∀ x : ℝ, Real.sin (2 * θ + x * θ) = 2 * Real.cos θ * Real.sin ((x + 1) * θ) - Real.sin (x * θ) := fun x => by
    rw [show (x + 1) * θ = θ + x * θ by ring, show 2 * θ + x * θ = θ + (θ + x * θ) by ring, Real.sin_add θ (θ + x * θ), Real.sin_add θ (x * θ), Real.cos_add θ (x * θ)]
    have := Real.sin_sq_add_cos_sq θ
    linear_combination (-Real.sin (x * θ)) * this
  have h0 : |Real.sin (0 * θ) - 0| ≤ 0 := by norm_num
  have h1 : |Real.sin (1 * θ) - 0.0980171403295606| ≤ 2e-16 := by rw [one_mul]; exact h1'
  have h2 : |Real.sin (2 * θ) - 0.1950903220161283| ≤ 1.001E-15 := by
    have t := step hc (by norm_num) h1 h0 (show |(0.1950903220161283 : ℝ) - (2 * 0.9951847266721969 * 0.0980171403295606 - 0)| ≤ 2e-16 by rw [abs_le]; constructor <;> norm_num)
    rw [show (2 : ℝ) * θ = 2 * θ + 0 * θ by ring]
    rw [cheb 0]
    norm_num at t ⊢
    linarith
  have h3 : |Real.sin (3 * θ) - 0.2902846772544624| ≤ 2.803E-15 := by
    have t := step hc (by norm_num) h2 h1 (show |(0.2902846772544624 : ℝ) - (2 * 0.9951847266721969 * 0.1950903220161283 - 0.0980171403295606)| ≤ 2e-16 by rw [abs_le]; constructor <;> norm_num)
    rw [show (3 : ℝ) * θ = 2 * θ + 1 * θ by ring]
    rw [cheb 1]
    norm_num at t ⊢
    linarith
  have h4 : |Real.sin (4 * θ) - 0.3826834323650898| ≤ 7.208E-15 := by
    have t := step hc (by norm_num) h3 h2 (show |(0.3826834323650898 : ℝ) - (2 * 0.9951847266721969 * 0.2902846772544624 - 0.1950903220161283)| ≤ 2e-16 by rw [abs_le]; constructor <;> norm_num)
    rw [show (4 : ℝ) * θ = 2 * θ + 2 * θ by ring]
    rw [cheb 2]
    norm_num at t ⊢
    linarith
  have h5 : |Real.sin (5 * θ) - 0.4713967368259976| ≤ 1.7820E-14 := by
    have t := step hc (by norm_num) h4 h3 (show |(0.4713967368259976 : ℝ) - (2 * 0.9951847266721969 * 0.3826834323650898 - 0.2902846772544624)| ≤ 2e-16 by rw [abs_le]; constructor <;> norm_num)
    rw [show (5 : ℝ) * θ = 2 * θ + 3 * θ by ring]
    rw [cheb 3]
    norm_num at t ⊢
    linarith
  have h6 : |Real.sin (6 * θ) - 0.5555702330196022| ≤ 4.3449E-14 := by
    have t := step hc (by norm_num) h5 h4 (show |(0.5555702330196022 : ℝ) - (2 * 0.9951847266721969 * 0.4713967368259976 - 0.3826834323650898)| ≤ 2e-16 by rw [abs_le]; constructor <;> norm_num)
    rw [show (6 : ℝ) * θ = 2 * θ + 4 * θ by ring]
    rw [cheb 4]
    norm_num at t ⊢
    linarith
  have h7 : |Real.sin (7 * θ) - 0.6343932841636455| ≤ 1.05319E-13 := by
    have t := step hc (by norm_num) h6 h5 (show |(0.6343932841636455 : ℝ) - (2 * 0.9951847266721969 * 0.5555702330196022 - 0.4713967368259976)| ≤ 2e-16 by rw [abs_le]; constructor <;> norm_num)
    rw [show (7 : ℝ) * θ = 2 * θ + 5 * θ by ring]
    rw [cheb 5]
    norm_num at t ⊢
    linarith
  have h8 : |Real.sin (8 * θ) - 0.7071067811865475| ≤ 2.54688E-13 := by
    have t := step hc (by norm_num) h7 h6 (show |(0.7071067811865475 : ℝ) - (2 * 0.9951847266721969 * 0.6343932841636455 - 0.5555702330196022)| ≤ 2e-16 by rw [abs_le]; constructor <;> norm_num)
    rw [show (8 : ℝ) * θ = 2 * θ + 6 * θ by ring]
    rw [cheb 6]
    norm_num at t ⊢
    linarith
  have h9 : |Real.sin (9 * θ) - 0.7730104533627370| ≤ 6.15296E-13 := by
    have t := step hc (by norm_num) h8 h7 (show |(0.7730104533627370 : ℝ) - (2 * 0.9951847266721969 * 0.7071067811865475 - 0.6343932841636455)| ≤ 2e-16 by rw [abs_le]; constructor <;> norm_num)
    rw [show (9 : ℝ) * θ = 2 * θ + 7 * θ by ring]
    rw [cheb 7]
    norm_num at t ⊢
    linarith
  have h10 : |Real.sin (10 * θ) - 0.8314696123025452| ≤ 1.485881E-12 := by
    have t := step hc (by norm_num) h9 h8 (show |(0.8314696123025452 : ℝ) - (2 * 0.9951847266721969 * 0.7730104533627370 - 0.7071067811865475)| ≤ 2e-16 by rw [abs_le]; constructor <;> norm_num)
    rw [show (10 : ℝ) * θ = 2 * θ + 8 * θ by ring]
    rw [cheb 8]
    norm_num at t ⊢
    linarith
  have h11 : |Real.sin (11 * θ) - 0.8819212643483550| ≤ 3.587659E-12 := by
    have t := step hc (by norm_num) h10 h9 (show |(0.8819212643483550 : ℝ) - (2 * 0.9951847266721969 * 0.8314696123025452 - 0.7730104533627370)| ≤ 2e-16 by rw [abs_le]; constructor <;> norm_num)
    rw [show (11 : ℝ) * θ = 2 * θ + 9 * θ by ring]
    rw [cheb 9]
    norm_num at t ⊢
    linarith
  have h12 : |Real.sin (12 * θ) - 0.9238795325112868| ≤ 8.661800E-12 := by
    have t := step hc (by norm_num) h11 h10 (show |(0.9238795325112868 : ℝ) - (2 * 0.9951847266721969 * 0.8819212643483550 - 0.8314696123025452)| ≤ 2e-16 by rw [abs_le]; constructor <;> norm_num)
    rw [show (12 : ℝ) * θ = 2 * θ + 10 * θ by ring]
    rw [cheb 10]
    norm_num at t ⊢
    linarith
  have h13 : |Real.sin (13 * θ) - 0.9569403357322089| ≤ 2.0911860E-11 := by
    have t := step hc (by norm_num) h12 h11 (show |(0.9569403357322089 : ℝ) - (2 * 0.9951847266721969 * 0.9238795325112868 - 0.8819212643483550)| ≤ 2e-16 by rw [abs_le]; constructor <;> norm_num)
    rw [show (13 : ℝ) * θ = 2 * θ + 11 * θ by ring]
    rw [cheb 11]
    norm_num at t ⊢
    linarith
  have h14 : |Real.sin (14 * θ) - 0.9807852804032304| ≤ 5.0486121E-11 := by
    have t := step hc (by norm_num) h13 h12 (show |(0.9807852804032304 : ℝ) - (2 * 0.9951847266721969 * 0.9569403357322089 - 0.9238795325112868)| ≤ 2e-16 by rw [abs_le]; constructor <;> norm_num)
    rw [show (14 : ℝ) * θ = 2 * θ + 12 * θ by ring]
    rw [cheb 12]
    norm_num at t ⊢
    linarith
  have h15 : |Real.sin (15 * θ) - 0.9951847266721969| ≤ 1.21884703E-10 := by
    have t := step hc (by norm_num) h14 h13 (show |(0.9951847266721969 : ℝ) - (2 * 0.9951847266721969 * 0.9807852804032304 - 0.9569403357322089)| ≤ 2e-16 by rw [abs_le]; constructor <;> norm_num)
    rw [show (15 : ℝ) * θ = 2 * θ + 13 * θ by ring]
    rw [cheb 13]
    norm_num at t ⊢
    linarith
  have h16 : |Real.sin (16 * θ) - 1.0000000000000000| ≤ 2.94256128E-10 := by
    have t := step hc (by norm_num) h15 h14 (show |(1.0000000000000000 : ℝ) - (2 * 0.9951847266721969 * 0.9951847266721969 - 0.9807852804032304)| ≤ 2e-16 by rw [abs_le]; constructor <;> norm_num)
    rw [show (16 : ℝ) * θ = 2 * θ + 14 * θ by ring]
    rw [cheb 14]
    norm_num at t ⊢
    linarith
  rw [← hθ]
  interval_cases k
  · refine le_trans (le_of_eq ?_) (h0.trans (by norm_num)); norm_num [quarter]
  · refine le_trans (le_of_eq ?_) (h1.trans (by norm_num)); norm_num [quarter]
  · refine le_trans (le_of_eq ?_) (h2.trans (by norm_num)); norm_num [quarter]
  · refine le_trans (le_of_eq ?_) (h3.trans (by norm_num)); norm_num [quarter]
  · refine le_trans (le_of_eq ?_) (h4.trans (by norm_num)); norm_num [quarter]
  · refine le_trans (le_of_eq ?_) (h5.trans (by norm_num)); norm_num [quarter]
  · refine le_trans (le_of_eq ?_) (h6.trans (by norm_num)); norm_num [quarter]
  · refine le_trans (le_of_eq ?_) (h7.trans (by norm_num)); norm_num [quarter]
  · refine le_trans (le_of_eq ?_) (h8.trans (by norm_num)); norm_num [quarter]
  · refine le_trans (le_of_eq ?_) (h9.trans (by norm_num)); norm_num [quarter]
  · refine le_trans (le_of_eq ?_) (h10.trans (by norm_num)); norm_num [quarter]
  · refine le_trans (le_of_eq ?_) (h11.trans (by norm_num)); norm_num [quarter]
  · refine le_trans (le_of_eq ?_) (h12.trans (by norm_num)); norm_num [quarter]
  · refine le_trans (le_of_eq ?_) (h13.trans (by norm_num)); norm_num [quarter]
  · refine le_trans (le_of_eq ?_) (h14.trans (by norm_num)); norm_num [quarter]
  · refine le_trans (le_of_eq ?_) (h15.trans (by norm_num)); norm_num [quarter]
  · refine le_trans (le_of_eq ?_) (h16.trans (by norm_num)); norm_num [quarter]

/-- The sine at any of the 64 points, folded into the first quarter. -/
def wave (m : ℕ) : ℚ :=
  let r := m % 64
  if r ≤ 16 then quarter.getD r 0 else if r ≤ 32 then quarter.getD (32 - r) 0 else if r ≤ 48 then -quarter.getD (r - 32) 0 else -quarter.getD (64 - r) 0

theorem wave_near (m : ℕ) : |Real.sin (m * (Real.pi / 32)) - (wave m : ℚ)| ≤ 3e-10 := by
  have fold : (m : ℝ) * (Real.pi / 32) = ((m % 64 : ℕ) : ℝ) * (Real.pi / 32) + ((m / 64 : ℕ) : ℝ) * (2 * Real.pi) := by
    have : (m : ℝ) = ((64 * (m / 64) + m % 64 : ℕ) : ℝ) := by rw [Nat.div_add_mod]
    rw [this]; push_cast; ring
  rw [fold, Real.sin_add_nat_mul_two_pi]
  have r64 : m % 64 < 64 := Nat.mod_lt _ (by norm_num)
  unfold wave
  simp only
  generalize m % 64 = r at *
  split_ifs with a b c
  · exact quarter_near r a
  · have := quarter_near (32 - r) (by omega)
    rwa [Nat.cast_sub b, show (((32 : ℕ) : ℝ) - r) * (Real.pi / 32) = Real.pi - r * (Real.pi / 32) by push_cast; ring, Real.sin_pi_sub] at this
  · have := quarter_near (r - 32) (by omega)
    rw [Nat.cast_sub (by omega), show ((r : ℝ) - (32 : ℕ)) * (Real.pi / 32) = r * (Real.pi / 32) - Real.pi by push_cast; ring, Real.sin_sub_pi, ← abs_neg] at this
    push_cast
    convert this using 2
    ring
  · have := quarter_near (64 - r) (by omega)
    rw [Nat.cast_sub (by omega), show (((64 : ℕ) : ℝ) - r) * (Real.pi / 32) = 2 * Real.pi - r * (Real.pi / 32) by push_cast; ring, Real.sin_two_pi_sub, ← abs_neg] at this
    push_cast
    convert this using 2
    ring

/-- Whether one sample, of value `u` before its sign, is within 0.49 of the sine. -/
def near (u k : ℕ) : Bool :=
  let s : ℤ := if u < 32768 then u else (u : ℤ) - 65536
  let d := (s : ℚ) - 16384 * wave ((k / 64 + 1) * (k % 64))
  decide (-0.49 ≤ d ∧ d ≤ 0.49)

/-- Every sample of a list of bytes, the first being the `k`-th. -/
def good : List ℕ → ℕ → Bool
  | lo :: hi :: r, k => near (lo + 256 * hi) k && good r (k + 1)
  | _, _ => true

theorem good_spec (j : ℕ) : ∀ (l : List ℕ) (k : ℕ), good l k = true → 2 * j + 1 < l.length → near (l.getD (2 * j) 0 + 256 * l.getD (2 * j + 1) 0) (k + j) = true := by
  induction j with
  | zero =>
    intro l k g h
    match l, g, h with
    | lo :: hi :: r, g, _ =>
      simp only [good, Bool.and_eq_true] at g
      simpa using g.1
  | succ j ih =>
    intro l k g h
    match l, g, h with
    | lo :: hi :: r, g, h =>
      simp only [good, Bool.and_eq_true] at g
      have := ih r (k + 1) g.2 (by simp at h; omega)
      rw [show k + (j + 1) = k + 1 + j by omega, show 2 * (j + 1) = 2 * j + 1 + 1 by omega, show 2 * j + 1 + 1 + 1 = 2 * j + 1 + 1 + 1 by rfl]
      simpa [List.getD_cons_succ] using this

theorem all_good : good (bytes.drop 12) 0 = true := by decide +kernel

theorem bytes_length : bytes.length = 2060 := by decide +kernel

theorem check (n i : ℕ) (hn : n < 16) (hi : i < 64) : -0.49 ≤ (Spec.sample n i : ℚ) - 16384 * wave ((n + 1) * i) ∧ (Spec.sample n i : ℚ) - 16384 * wave ((n + 1) * i) ≤ 0.49 := by
  have g := good_spec (64 * n + i) _ 0 all_good (by rw [List.length_drop, bytes_length]; omega)
  simp only [near, decide_eq_true_eq, zero_add] at g
  rw [show (64 * n + i) / 64 = n by omega, show (64 * n + i) % 64 = i by omega] at g
  simp only [List.getD_eq_getElem?_getD, List.getElem?_drop] at g
  simp only [Spec.sample, i16, u16, byte, List.getD_eq_getElem?_getD]
  rw [show 12 + 2 * (64 * n + i) + 1 = 12 + (2 * (64 * n + i) + 1) by omega]
  exact g

/-- **C270.** The header of the built-in wavetable: its mark (`vawt`), tables of 64 samples, sixteen of them, of sixteen bits; and the file is as long as it says. -/
theorem C270_header : bytes.take 4 = [118, 97, 119, 116] ∧ u16 4 + 65536 * u16 6 = 64 ∧ u16 8 = 16 ∧ u16 10 = 4 ∧ bytes.length = 12 + 2 * (64 * 16) ∧ ∀ b ∈ bytes, b < 256 := by
  decide +kernel

/-- **C270.** Table `n` is one cycle of the harmonic `n + 1`: every sample is the whole number nearest to the sine, at an amplitude of 16384. -/
theorem C270_harmonics (n i : ℕ) (hn : n < 16) (hi : i < 64) : |(Spec.sample n i : ℝ) - 16384 * Real.sin (2 * Real.pi * (n + 1) * i / 64)| < 1 / 2 := by
  have c := check n i hn hi
  obtain ⟨c1, c2⟩ := c
  have c1 : ((-0.49 : ℚ) : ℝ) ≤ (((Spec.sample n i : ℚ) - 16384 * wave ((n + 1) * i) : ℚ) : ℝ) := by exact_mod_cast c1
  have c2 : (((Spec.sample n i : ℚ) - 16384 * wave ((n + 1) * i) : ℚ) : ℝ) ≤ ((0.49 : ℚ) : ℝ) := by exact_mod_cast c2
  have w := wave_near ((n + 1) * i)
  rw [show (((n + 1) * i : ℕ) : ℝ) * (Real.pi / 32) = 2 * Real.pi * (n + 1) * i / 64 by push_cast; ring, abs_le] at w
  push_cast at c1 c2
  norm_num at c1 c2 w
  rw [abs_lt]
  constructor <;> linarith

example : Spec.sample 0 16 = 16384 ∧ Spec.sample 1 40 = 16384 ∧ Spec.sample 15 3 = -16384 := by decide +kernel

end Verif.Wavetable.Sine
