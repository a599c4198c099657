import Verif.Filters.NonlinearClaims
/-!
# The Runge-Kutta ladder filter (C206, C207)

surgefilter-rungekutta, one SIMD lane, exact real arithmetic.
-/
namespace Verif.Filters
open Verif

/-! ## Model -/

/-- runge_kutta.rs 44-88 `clip`, with the saturation 3 of 14-15. -/
noncomputable def rkClip (x : ℝ) : ℝ :=
  let v := min 1 (max (-1) (x * (1 / 3)))
  3 * (v - (1 / 3) * (v * (v * v)))

/-- derivatives.rs 16-92 `calculate_derivatives`: input `x`, cutoff `c`, resonance `r`, gain compensation `g`, state `s`. -/
noncomputable def rkDeriv (x c r g : ℝ) (s : ℕ → ℝ) : ℕ → ℝ
  | 0 => c * (rkClip (x - r * (s 3 - g * x)) - rkClip (s 0))
  | i + 1 => c * (rkClip (s i) - rkClip (s (i + 1)))

/-- runge_kutta_process.rs 82-207: one of the four steps within a sample: the increments by a quarter, the four derivatives (all of them a *half* step away), the update of the four registers. `h` is the step. -/
noncomputable def rkSub (h : ℝ) (u : FU) (x : ℝ) : FU :=
  let c := fun i => if i ∈ [0, 1, 2] then u.coeff i + (1 / 4) * u.dcoeff i else u.coeff i
  let d := rkDeriv x (c 0) (c 1) (c 2)
  let k1 := d u.reg
  let k2 := d fun i => u.reg i + 0.5 * h * k1 i
  let k3 := d fun i => u.reg i + 0.5 * h * k2 i
  let k4 := d fun i => u.reg i + 0.5 * h * k3 i
  ⟨c, u.dcoeff, fun i => if i < 4 then u.reg i + (1 / 6) * (h * (k1 i + (2 * k2 i + (2 * k3 i + k4 i)))) else u.reg i, u.stage⟩

/-- runge_kutta_process.rs 53-241 `process_quad`: the input in the first step, zeros in the others, and the window on the four outputs. -/
noncomputable def rk (srosInv : ℝ) (u : FU) (x : ℝ) : FU × ℝ :=
  let h := srosInv * (1 / 4)
  let u1 := rkSub h u x
  let u2 := rkSub h u1 0
  let u3 := rkSub h u2 0
  let u4 := rkSub h u3 0
  (u4, 1.5 * (u1.reg 3 * -0.0636844 + u2.reg 3 * 0 + u3.reg 3 * 0.57315916 + u4.reg 3 * 1))

/-- runge_kutta_coeff.rs 5-24 `coeff_make`, runge_kutta.rs 37-41 `clamped_frequency`. -/
noncomputable def rkCoeffMake (f sr reso : ℝ) (gc : Option ℝ) : ℕ → ℝ := fun i => match i with
  | 0 => limit f 5 (sr * 0.3) * 2 * Real.pi
  | 1 => limit reso 0 1 * 4.5
  | 2 => gc.getD 0
  | _ => 0

/-! ## C206: it cannot blow up -/

theorem rkClip_le (x : ℝ) : |rkClip x| ≤ 2 := by
  unfold rkClip
  have h1 : min 1 (max (-1) (x * (1 / 3))) ≤ 1 := min_le_left _ _
  have h2 : -1 ≤ min 1 (max (-1) (x * (1 / 3))) := le_min (by norm_num) (le_max_left _ _)
  generalize min 1 (max (-1) (x * (1 / 3))) = v at *
  rw [abs_le]
  constructor <;> nlinarith [mul_nonneg (sub_nonneg.2 h1) (sub_nonneg.2 h1), mul_nonneg (sub_nonneg.2 h2) (sub_nonneg.2 h2), sq_nonneg (v - 1), sq_nonneg (v + 1)]

theorem rkClip_high {x : ℝ} (h : 3 ≤ x) : rkClip x = 2 := by
  unfold rkClip
  rw [max_eq_right (by linarith), min_eq_left (by linarith)]; norm_num

theorem rkClip_low {x : ℝ} (h : x ≤ -3) : rkClip x = -2 := by
  unfold rkClip
  rw [max_eq_left (by linarith), min_eq_right (by norm_num)]; norm_num

theorem rkClip_neg (x : ℝ) : rkClip (-x) = -rkClip x := by
  unfold rkClip
  have e : min 1 (max (-1) (-x * (1 / 3))) = -min 1 (max (-1) (x * (1 / 3))) := by
    rcases le_total (x * (1 / 3)) 1 with h | h <;> rcases le_total (-1) (x * (1 / 3)) with h' | h' <;> simp [min_def, max_def] <;> split_ifs <;> linarith
  rw [e]; ring

/-- One component: a derivative is the cutoff times a difference of two clipped values, the second of which is clipped from the component itself. -/
theorem rkDeriv_form (x c r g : ℝ) (s : ℕ → ℝ) (i : ℕ) : ∃ p : ℝ, |p| ≤ 2 ∧ rkDeriv x c r g s i = c * (p - rkClip (s i)) := by
  cases i with
  | zero => exact ⟨_, rkClip_le _, rfl⟩
  | succ i => exact ⟨_, rkClip_le _, rfl⟩

theorem rkSub_bound {h : ℝ} (h0 : 0 ≤ h) (u : FU) (x : ℝ) (c0 : 0 ≤ (rkSub h u x).coeff 0) (c1 : h * (rkSub h u x).coeff 0 ≤ 1 / 2) (hr : ∀ i < 4, |u.reg i| ≤ 6) :
    ∀ i < 4, |(rkSub h u x).reg i| ≤ 6 := by
  intro i hi
  simp only [rkSub] at c0 c1 ⊢
  rw [if_pos hi]
  generalize (if (0 : ℕ) ∈ [0, 1, 2] then u.coeff 0 + (1 / 4) * u.dcoeff 0 else u.coeff 0) = c at *
  generalize (if (1 : ℕ) ∈ [0, 1, 2] then u.coeff 1 + (1 / 4) * u.dcoeff 1 else u.coeff 1) = r
  generalize (if (2 : ℕ) ∈ [0, 1, 2] then u.coeff 2 + (1 / 4) * u.dcoeff 2 else u.coeff 2) = g
  set k1 := rkDeriv x c r g u.reg with hk1
  set k2 := rkDeriv x c r g (fun i => u.reg i + 0.5 * h * k1 i) with hk2
  set k3 := rkDeriv x c r g (fun i => u.reg i + 0.5 * h * k2 i) with hk3
  set k4 := rkDeriv x c r g (fun i => u.reg i + 0.5 * h * k3 i) with hk4
  obtain ⟨p1, b1, e1⟩ := rkDeriv_form x c r g u.reg i
  obtain ⟨p2, b2, e2⟩ := rkDeriv_form x c r g (fun i => u.reg i + 0.5 * h * k1 i) i
  obtain ⟨p3, b3, e3⟩ := rkDeriv_form x c r g (fun i => u.reg i + 0.5 * h * k2 i) i
  obtain ⟨p4, b4, e4⟩ := rkDeriv_form x c r g (fun i => u.reg i + 0.5 * h * k3 i) i
  rw [← hk1] at e1
  rw [← hk2] at e2
  rw [← hk3] at e3
  rw [← hk4] at e4
  have step : ∀ {p q : ℝ}, |p| ≤ 2 → |q| ≤ 2 → -2 ≤ h * (c * (p - q)) ∧ h * (c * (p - q)) ≤ 2 := fun {p q} hp hq => by
    rw [abs_le] at hp hq
    have z : 0 ≤ h * c := mul_nonneg h0 c0
    rw [← mul_assoc]
    constructor <;> nlinarith
  have s1 := step b1 (rkClip_le (u.reg i))
  have s2 := step b2 (rkClip_le (u.reg i + 0.5 * h * k1 i))
  have s3 := step b3 (rkClip_le (u.reg i + 0.5 * h * k2 i))
  have s4 := step b4 (rkClip_le (u.reg i + 0.5 * h * k3 i))
  rw [← e1] at s1
  rw [← e2] at s2
  rw [← e3] at s3
  rw [← e4] at s4
  have six := abs_le.1 (hr i hi)
  rw [abs_le]
  have hh : (0.5 : ℝ) = 1 / 2 := by norm_num
  rw [hh] at e2 e3 e4
  -- near the limit every derivative points inwards
  have inward : ∀ {p q : ℝ}, |p| ≤ 2 → q = 2 → h * (c * (p - q)) ≤ 0 := fun {p q} hp hq => by
    rw [abs_le] at hp
    have := mul_nonneg h0 c0
    rw [hq, ← mul_assoc]; nlinarith
  have outward : ∀ {p q : ℝ}, |p| ≤ 2 → q = -2 → 0 ≤ h * (c * (p - q)) := fun {p q} hp hq => by
    rw [abs_le] at hp
    have := mul_nonneg h0 c0
    rw [hq, ← mul_assoc]; nlinarith
  constructor
  · rcases le_total (-4) (u.reg i) with l | l
    · linarith
    · have t1 := outward b1 (rkClip_low (x := u.reg i) (by linarith))
      have t2 := outward b2 (rkClip_low (x := u.reg i + 1 / 2 * h * k1 i) (by linarith))
      have t3 := outward b3 (rkClip_low (x := u.reg i + 1 / 2 * h * k2 i) (by linarith))
      have t4 := outward b4 (rkClip_low (x := u.reg i + 1 / 2 * h * k3 i) (by linarith))
      rw [← e1] at t1
      rw [← e2] at t2
      rw [← e3] at t3
      rw [← e4] at t4
      linarith
  · rcases le_total (u.reg i) 4 with l | l
    · linarith
    · have t1 := inward b1 (rkClip_high (x := u.reg i) (by linarith))
      have t2 := inward b2 (rkClip_high (x := u.reg i + 1 / 2 * h * k1 i) (by linarith))
      have t3 := inward b3 (rkClip_high (x := u.reg i + 1 / 2 * h * k2 i) (by linarith))
      have t4 := inward b4 (rkClip_high (x := u.reg i + 1 / 2 * h * k3 i) (by linarith))
      rw [← e1] at t1
      rw [← e2] at t2
      rw [← e3] at t3
      rw [← e4] at t4
      linarith

theorem rk_advances (srosInv : ℝ) : Spec.Advances (rk srosInv) [0, 1, 2] := fun u x => by
  refine ⟨?_, rfl⟩
  funext i
  simp only [rk, rkSub, FU.adv]
  split_ifs <;> ring

/-- Settings of the Runge-Kutta ladder at the sample rate `sr`. -/
def Spec.rkSetting (sr : ℝ) (v : ℕ → ℝ) : Prop := ∃ f reso gc, v = rkCoeffMake f sr reso gc

theorem rk_step {srosInv : ℝ} (h0 : 0 ≤ srosInv) (u : FU) (x : ℝ) (c0 : 0 ≤ u.coeff 0 ∧ srosInv * u.coeff 0 ≤ 2) (c1 : 0 ≤ (rk srosInv u x).1.coeff 0 ∧ srosInv * (rk srosInv u x).1.coeff 0 ≤ 2)
    (hr : ∀ i < 4, |u.reg i| ≤ 6) : (∀ i < 4, |(rk srosInv u x).1.reg i| ≤ 6) ∧ |(rk srosInv u x).2| ≤ 14.74 := by
  have e : (rk srosInv u x).1.coeff 0 = u.coeff 0 + u.dcoeff 0 := by rw [(rk_advances srosInv u x).1]; simp [FU.adv]
  rw [e] at c1
  set h := srosInv * (1 / 4) with hh
  have hp : 0 ≤ h := by positivity
  have q : ∀ t : ℝ, 0 ≤ t → t ≤ 1 → 0 ≤ u.coeff 0 + t * u.dcoeff 0 ∧ h * (u.coeff 0 + t * u.dcoeff 0) ≤ 1 / 2 := fun t t0 t1 => by
    constructor
    · nlinarith
    · rw [hh]; nlinarith
  have k1 : (rkSub h u x).coeff 0 = u.coeff 0 + 1 / 4 * u.dcoeff 0 := by simp [rkSub]
  have d1 : (rkSub h u x).dcoeff = u.dcoeff := rfl
  have k2 : (rkSub h (rkSub h u x) 0).coeff 0 = u.coeff 0 + 1 / 2 * u.dcoeff 0 := by
    have : (rkSub h (rkSub h u x) 0).coeff 0 = (rkSub h u x).coeff 0 + 1 / 4 * (rkSub h u x).dcoeff 0 := by simp [rkSub]
    rw [this, k1, d1]; ring
  have k3 : (rkSub h (rkSub h (rkSub h u x) 0) 0).coeff 0 = u.coeff 0 + 3 / 4 * u.dcoeff 0 := by
    have : (rkSub h (rkSub h (rkSub h u x) 0) 0).coeff 0 = (rkSub h (rkSub h u x) 0).coeff 0 + 1 / 4 * u.dcoeff 0 := by simp [rkSub]
    rw [this, k2]; ring
  have k4 : (rkSub h (rkSub h (rkSub h (rkSub h u x) 0) 0) 0).coeff 0 = u.coeff 0 + 1 * u.dcoeff 0 := by
    have : (rkSub h (rkSub h (rkSub h (rkSub h u x) 0) 0) 0).coeff 0 = (rkSub h (rkSub h (rkSub h u x) 0) 0).coeff 0 + 1 / 4 * u.dcoeff 0 := by simp [rkSub]
    rw [this, k3]; ring
  have r1 := rkSub_bound hp u x (by rw [k1]; exact (q _ (by norm_num) (by norm_num)).1) (by rw [k1]; exact (q _ (by norm_num) (by norm_num)).2) hr
  have r2 := rkSub_bound hp (rkSub h u x) 0 (by rw [k2]; exact (q _ (by norm_num) (by norm_num)).1) (by rw [k2]; exact (q _ (by norm_num) (by norm_num)).2) r1
  have r3 := rkSub_bound hp (rkSub h (rkSub h u x) 0) 0 (by rw [k3]; exact (q _ (by norm_num) (by norm_num)).1) (by rw [k3]; exact (q _ (by norm_num) (by norm_num)).2) r2
  have r4 := rkSub_bound hp (rkSub h (rkSub h (rkSub h u x) 0) 0) 0 (by rw [k4]; exact (q _ (by norm_num) (by norm_num)).1) (by rw [k4]; exact (q _ (by norm_num) (by norm_num)).2) r3
  refine ⟨r4, ?_⟩
  have a1 := abs_le.1 (r1 3 (by norm_num))
  have a3 := abs_le.1 (r3 3 (by norm_num))
  have a4 := abs_le.1 (r4 3 (by norm_num))
  simp only [rk]
  rw [← hh, abs_le]
  norm_num
  constructor <;> linarith

/-- **C206.** The Runge-Kutta ladder cannot blow up: over a whole life of 64-sample blocks, with any settings in each block, any resonance, any gain compensation and any inputs whatever, no output exceeds 14.74. -/
theorem C206_bounded {sr : ℝ} (hsr : 17 ≤ sr) (stage : ℤ) (bs : List ((ℕ → ℝ) × List ℝ)) (hb : ∀ b ∈ bs, Spec.rkSetting sr b.1 ∧ b.2.length = 64) :
    ∀ y ∈ (life (rk (1 / sr)) stage Maker.new (fun _ => 0) bs).2.2, |y| ≤ 14.74 := by
  have s0 : 0 < sr := by linarith
  have cv : Convex ℝ {v : ℕ → ℝ | 0 ≤ v 0 ∧ 1 / sr * v 0 ≤ 2} := by
    intro v hv w hw a b ha hb hab
    obtain ⟨h1, h2⟩ := hv
    obtain ⟨k1, k2⟩ := hw
    refine ⟨add_nonneg (mul_nonneg ha h1) (mul_nonneg hb k1), ?_⟩
    show 1 / sr * (a * v 0 + b * w 0) ≤ 2
    nlinarith
  have hul := C104_hull (rk_advances (1 / sr)) cv (by simp) stage (fun _ => 0) bs (fun b h => ⟨by
    obtain ⟨⟨f, r, g, e⟩, -⟩ := hb b h
    rw [e]
    have l : 5 ≤ limit f 5 (sr * 0.3) := le_max_left _ _
    have u : limit f 5 (sr * 0.3) ≤ sr * 0.3 := max_le (by norm_num; linarith) (min_le_right _ _)
    have p0 := Real.pi_pos
    have p1 := Real.pi_lt_d4
    refine ⟨?_, ?_⟩
    · show 0 ≤ limit f 5 (sr * 0.3) * 2 * Real.pi
      positivity
    · show 1 / sr * (limit f 5 (sr * 0.3) * 2 * Real.pi) ≤ 2
      rw [one_div_mul_eq_div, div_le_iff₀ s0]
      norm_num at u p1 ⊢
      nlinarith, (hb b h).2⟩)
  refine (life_out (A := fun _ => True) (Q := fun y => |y| ≤ 14.74) (Inv := fun r => ∀ i < 4, |r i| ≤ 6) ?_ stage bs _ _ hul (fun _ _ _ _ => trivial) (fun i _ => by norm_num)).2
  rintro u x ⟨⟨v, ⟨v0, v1⟩, ev⟩, ⟨w, ⟨w0, w1⟩, ew⟩⟩ - hi
  have e1 := ev 0 (by simp)
  have e2 := ew 0 (by simp)
  exact rk_step (by positivity) u x (by rw [e1]; exact ⟨v0, v1⟩) (by rw [e2]; exact ⟨w0, w1⟩) hi

/-- The hypotheses hold: a block at 1 kHz, 96 kHz, full resonance, with a very loud input. -/
example : Spec.rkSetting 96000 (rkCoeffMake 1000 96000 1 (some 0.666)) ∧ (List.replicate 64 (1000 : ℝ)).length = 64 := ⟨⟨_, _, _, rfl⟩, by simp⟩

theorem rkDeriv_neg (x c r g : ℝ) (s : ℕ → ℝ) (i : ℕ) : rkDeriv (-x) c r g (fun i => -s i) i = -rkDeriv x c r g s i := by
  cases i with
  | zero =>
    simp only [rkDeriv]
    rw [show -x - r * (-s 3 - g * -x) = -(x - r * (s 3 - g * x)) by ring, rkClip_neg, rkClip_neg]; ring
  | succ i => simp only [rkDeriv, rkClip_neg]; ring

theorem rkSub_flip (h : ℝ) (u : FU) (x : ℝ) : rkSub h (Spec.flip u) (-x) = Spec.flip (rkSub h u x) := by
  have e : ∀ (c r g : ℝ) (s : ℕ → ℝ), rkDeriv (-x) c r g (fun i => -s i) = fun i => -rkDeriv x c r g s i := fun c r g s => funext fun i => rkDeriv_neg x c r g s i
  have a : ∀ (k : ℕ → ℝ), (fun i => -u.reg i + 0.5 * h * -k i) = fun i => -(u.reg i + 0.5 * h * k i) := fun k => funext fun i => by ring
  simp only [rkSub, Spec.flip, e, a, FU.mk.injEq, true_and, and_true]
  funext i
  split_ifs <;> ring

/-- **C206.** Both polarities are treated alike. -/
theorem C206_odd (srosInv : ℝ) (xs : List ℝ) : ∀ u : FU, (run (rk srosInv) (Spec.flip u) (xs.map (-·))).2 = (run (rk srosInv) u xs).2.map (-·) := by
  induction xs with
  | nil => intro u; rfl
  | cons x xs ih =>
    intro u
    have z : ∀ h v, rkSub h (Spec.flip v) 0 = Spec.flip (rkSub h v 0) := fun h v => by
      have := rkSub_flip h v 0
      rwa [neg_zero] at this
    have st : rk srosInv (Spec.flip u) (-x) = (Spec.flip (rk srosInv u x).1, -(rk srosInv u x).2) := by
      simp only [rk, rkSub_flip, z]
      refine Prod.ext rfl ?_
      simp only [Spec.flip]; ring
    simp only [List.map_cons, run, st, ih]

/-- **C206.** Silence in, silence out, from rest. -/
theorem C206_silence (srosInv : ℝ) (n : ℕ) : ∀ u : FU, (∀ i, u.reg i = 0) → (run (rk srosInv) u (List.replicate n 0)).2 = List.replicate n 0 := by
  have c0 : rkClip 0 = 0 := by have := rkClip_neg 0; rw [neg_zero] at this; linarith
  have sub : ∀ (h : ℝ) (u : FU), (∀ i, u.reg i = 0) → ∀ i, (rkSub h u 0).reg i = 0 := by
    intro h u hu i
    have e : u.reg = fun _ => 0 := funext hu
    have d : ∀ c r g : ℝ, rkDeriv 0 c r g (fun _ => 0) = fun _ => 0 := fun c r g => funext fun i => by cases i <;> simp [rkDeriv, c0]
    simp only [rkSub, e, d, mul_zero, add_zero, ite_self]
  induction n with
  | zero => intros; rfl
  | succ n ih =>
    intro u hu
    have r1 := sub (srosInv * (1 / 4)) u hu
    have r2 := sub (srosInv * (1 / 4)) _ r1
    have r3 := sub (srosInv * (1 / 4)) _ r2
    have r4 := sub (srosInv * (1 / 4)) _ r3
    simp only [List.replicate_succ, run]
    rw [ih (rk srosInv u 0).1 r4]
    have e : (rk srosInv u 0).2 = 0 := by
      simp only [rk]
      rw [r1 3, r2 3, r3 3, r4 3]; norm_num
    rw [e]

/-! ## C207: it is not a fourth-order integrator -/

/-- A filter holding the cutoff `c`, no resonance, charged with `ε` on the first capacitor only. -/
noncomputable def Spec.charged (c ε : ℝ) : FU := ⟨fun i => if i = 0 then c else 0, fun _ => 0, fun i => if i = 0 then ε else 0, 0⟩

theorem rkClip_deriv : HasDerivAt rkClip 1 0 := by
  have e : rkClip =ᶠ[nhds 0] fun x => x - x ^ 3 / 27 := by
    filter_upwards [Ioo_mem_nhds (show (-3 : ℝ) < 0 by norm_num) (show (0 : ℝ) < 3 by norm_num)] with x hx
    unfold rkClip
    rw [max_eq_right (by linarith [hx.1]), min_eq_right (by linarith [hx.2])]; ring
  have h : HasDerivAt (fun x : ℝ => x - x ^ 3 / 27) 1 0 := by
    have := (hasDerivAt_id (0 : ℝ)).sub (((hasDerivAt_id (0 : ℝ)).pow 3).div_const 27)
    have v : (1 : ℝ) = 1 - ((3 : ℕ) : ℝ) * id (0 : ℝ) ^ (3 - 1) * 1 / 27 := by norm_num
    rw [v]; exact this
  exact h.congr_of_eventuallyEq e

theorem rkClip_zero : rkClip 0 = 0 := by have := rkClip_neg 0; rw [neg_zero] at this; linarith

/-- What one step does to the charge: `exp (-z)` would be exact. -/
theorem rk_gain (h c : ℝ) : HasDerivAt (fun ε => (rkSub h (Spec.charged c ε) 0).reg 0)
    (1 - h * c + 5 / 12 * (h * c) ^ 2 - (h * c) ^ 3 / 8 + (h * c) ^ 4 / 48) 0 := by
  have e : (fun ε => (rkSub h (Spec.charged c ε) 0).reg 0) = fun ε =>
      let k1 := c * (0 - rkClip ε)
      let k2 := c * (0 - rkClip (ε + 1 / 2 * h * k1))
      let k3 := c * (0 - rkClip (ε + 1 / 2 * h * k2))
      let k4 := c * (0 - rkClip (ε + 1 / 2 * h * k3))
      ε + (1 / 6) * (h * (k1 + (2 * k2 + (2 * k3 + k4)))) := by
    funext ε
    have hh : (0.5 : ℝ) = 1 / 2 := by norm_num
    simp [rkSub, Spec.charged, rkDeriv, rkClip_zero, hh]
  rw [e]
  have link : ∀ {k : ℝ → ℝ} {k' : ℝ}, HasDerivAt k k' 0 → k 0 = 0 →
      HasDerivAt (fun ε => c * (0 - rkClip (ε + 1 / 2 * h * k ε))) (c * (0 - 1 * (1 + 1 / 2 * h * k'))) 0 ∧ c * (0 - rkClip (0 + 1 / 2 * h * k 0)) = 0 := by
    intro k k' hk h0
    constructor
    · have a : HasDerivAt (fun ε : ℝ => ε + 1 / 2 * h * k ε) (1 + 1 / 2 * h * k') 0 := (hasDerivAt_id 0).add (hk.const_mul _)
      have b : HasDerivAt rkClip 1 (0 + 1 / 2 * h * k 0) := by rw [h0, mul_zero, add_zero]; exact rkClip_deriv
      have := (((hasDerivAt_const (0 : ℝ) (0 : ℝ)).sub (HasDerivAt.comp (0 : ℝ) b a))).const_mul c
      exact this
    · rw [h0]; simp [rkClip_zero]
  have d1 : HasDerivAt (fun ε => c * (0 - rkClip ε)) (c * (0 - 1)) 0 := ((hasDerivAt_const (0 : ℝ) (0 : ℝ)).sub rkClip_deriv).const_mul c
  obtain ⟨d2, z2⟩ := link d1 (by simp [rkClip_zero])
  obtain ⟨d3, z3⟩ := link d2 z2
  obtain ⟨d4, z4⟩ := link d3 z3
  have := (hasDerivAt_id (0 : ℝ)).add (((d1.add ((d2.const_mul 2).add ((d3.const_mul 2).add d4))).const_mul h).const_mul (1 / 6))
  refine HasDerivAt.congr_deriv this ?_
  ring

/-- **C207.** The integrator is only of first order: with no input and no feedback a small charge obeys `y' = -c y`, so an integrator of order four would leave `exp (-h c)` of it after a step of length `h`, up to `(h c) ^ 5`; this one is always below that by between one twenty-fourth and one twelfth of `(h c) ^ 2` (the last derivative is taken half a step away instead of a whole one). -/
theorem C207_order_refuted (h c : ℝ) (z0 : 0 < h * c) (z1 : h * c ≤ 1 / 2) :
    ∃ gain, HasDerivAt (fun ε => (rkSub h (Spec.charged c ε) 0).reg 0) gain 0 ∧
      (h * c) ^ 2 / 24 ≤ Real.exp (-(h * c)) - gain ∧ Real.exp (-(h * c)) - gain ≤ (h * c) ^ 2 / 12 := by
  refine ⟨_, rk_gain h c, ?_⟩
  generalize h * c = z at *
  have b := Real.exp_bound (x := -z) (by rw [abs_neg, abs_of_pos z0]; linarith) (n := 5) (by norm_num)
  rw [abs_le, abs_neg, abs_of_pos z0] at b
  norm_num [Finset.sum_range_succ, Nat.factorial] at b
  obtain ⟨b1, b2⟩ := b
  have p2 : 0 < z ^ 2 := by positivity
  have p3 : z ^ 3 ≤ z ^ 2 / 2 := by nlinarith
  have p3' : 0 < z ^ 3 := by positivity
  have p4 : z ^ 4 ≤ z ^ 3 / 2 := by nlinarith
  have p4' : 0 < z ^ 4 := by positivity
  have p5 : z ^ 5 ≤ z ^ 4 / 2 := by nlinarith
  constructor <;> nlinarith

/-- The hypotheses hold for the step and the cutoff the filter really uses: 1 kHz at 96 kHz. -/
example : 0 < (1 / 96000 * (1 / 4) : ℝ) * rkCoeffMake 1000 96000 0 none 0 ∧ (1 / 96000 * (1 / 4) : ℝ) * rkCoeffMake 1000 96000 0 none 0 ≤ 1 / 2 := by
  have e : limit (1000 : ℝ) 5 (96000 * 0.3) = 1000 := by norm_num [limit]
  simp only [rkCoeffMake, e]
  constructor
  · positivity
  · linarith [Real.pi_lt_four]

end Verif.Filters
