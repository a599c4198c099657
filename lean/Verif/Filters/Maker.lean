import Verif.Filters.Iir
import Mathlib.Analysis.Convex.Basic
/-!
# The coefficient maker (C104) and bounded outputs under modulation (C101)
-/
namespace Verif.Filters

/-- A processing routine that moves the coefficients `is` along their ramps by one step per sample and leaves the others alone. -/
def Spec.Advances (step : FU → ℝ → FU × ℝ) (is : List ℕ) : Prop :=
  ∀ u x, (step u x).1.coeff = (u.adv is).coeff ∧ (step u x).1.dcoeff = u.dcoeff

/-- One filter of a voice over many blocks: each block has its wanted coefficients and its input samples. -/
noncomputable def life (step : FU → ℝ → FU × ℝ) (stage : ℤ) (m : Maker) (reg : ℕ → ℝ) : List ((ℕ → ℝ) × List ℝ) → Maker × (ℕ → ℝ) × List ℝ
  | [] => (m, reg, [])
  | b :: bs =>
    let r := block step m reg stage b.1 b.2
    let q := life step stage r.1 r.2.1 bs
    (q.1, q.2.1, r.2.2 ++ q.2.2)

section
variable {step : FU → ℝ → FU × ℝ} {is : List ℕ}

theorem run_coeff (h : Spec.Advances step is) (xs : List ℝ) : ∀ u : FU,
    (run step u xs).1.coeff = (fun i => if i ∈ is then u.coeff i + xs.length * u.dcoeff i else u.coeff i) ∧
    (run step u xs).1.dcoeff = u.dcoeff := by
  induction xs with
  | nil => intro u; simp [run]
  | cons x xs ih =>
    intro u
    obtain ⟨h1, h2⟩ := h u x
    obtain ⟨i1, i2⟩ := ih (step u x).1
    refine ⟨?_, by simp only [run, i2, h2]⟩
    simp only [run, i1, h1, h2, FU.adv, List.length_cons]
    funext i
    by_cases hi : i ∈ is
    · simp only [hi, if_true]; push_cast; ring
    · simp only [hi, if_false]

/-- The routines of the dispatch, and the coefficients they ramp. -/
theorem C104_advances : Spec.Advances iir12cfc [0, 1, 2, 4, 5, 6, 7] ∧ Spec.Advances iir12b [0, 1, 2, 3, 4, 5, 6, 7] ∧
    (∀ rs, Spec.Advances (iir12cfl rs) [0, 1, 2, 4, 5, 6]) ∧ Spec.Advances iir24cfc [0, 1, 2, 4, 5, 6, 7] ∧
    Spec.Advances iir24b [0, 1, 2, 3, 4, 5, 6, 7] ∧ (∀ rs, Spec.Advances (iir24cfl rs) [0, 1, 2, 4, 5, 6]) := by
  refine ⟨?_, ?_, ?_, ?_, ?_, ?_⟩
  · intro u x
    refine ⟨?_, rfl⟩
    funext i
    simp only [iir12cfc, FU.set, FU.adv, List.mem_cons, List.not_mem_nil, or_false]
    split_ifs <;> first | rfl | omega
  · intro u x
    refine ⟨?_, rfl⟩
    funext i
    simp only [iir12b, FU.set, FU.adv, List.mem_cons, List.not_mem_nil, or_false]
    split_ifs <;> first | rfl | omega
  · intro rs u x
    exact ⟨rfl, rfl⟩
  · intro u x
    refine ⟨?_, rfl⟩
    funext i
    simp only [iir24cfc, FU.set, FU.adv, List.mem_cons, List.not_mem_nil, or_false]
    split_ifs <;> first | rfl | omega
  · intro u x
    refine ⟨?_, rfl⟩
    funext i
    simp only [iir24b, FU.set, FU.adv, List.mem_cons, List.not_mem_nil, or_false]
    split_ifs <;> first | rfl | omega
  · intro rs u x
    exact ⟨rfl, rfl⟩

/-! ## C104 -/

/-- C104: **a ramp lands**: after the first block, a block of 64 samples takes every ramped coefficient exactly from where it was to the
smoothed target `0.8 · previous target + 0.2 · wanted`. -/
theorem C104_ramp_lands (h : Spec.Advances step is) (m : Maker) (hm : m.firstRun = false) (reg : ℕ → ℝ) (stage : ℤ) (n : ℕ → ℝ)
    (xs : List ℝ) (hx : xs.length = 64) :
    ∀ i ∈ is, (block step m reg stage n xs).1.coeff i = 0.8 * m.tcoeff i + 0.2 * n i ∧
      (block step m reg stage n xs).1.tcoeff i = 0.8 * m.tcoeff i + 0.2 * n i := by
  intro i hi
  simp only [block, Maker.fromDirect, hm, Bool.false_eq_true, if_false, run_coeff h, hi, if_true, hx, SMOOTH]
  have e1 : (1.0 : ℝ) = 1 := by norm_num
  have e2 : (0.8 : ℝ) = 1 - 0.2 := by norm_num
  rw [e1, e2]
  constructor
  · push_cast; ring
  · trivial

theorem block_first (h : Spec.Advances step is) (m : Maker) (hm : m.firstRun = true) (reg : ℕ → ℝ) (stage : ℤ) (n : ℕ → ℝ)
    (xs : List ℝ) : (block step m reg stage n xs).1 = ⟨fun _ => 0, fun _ => 0, fun _ => 0, false⟩ := by
  simp only [block, Maker.fromDirect, hm, if_true]
  have := (run_coeff h xs ⟨fun _ => 0, fun _ => 0, reg, stage⟩).1
  simp only [this]
  simp

/-- C104: **the first settings are dropped**: whatever is wanted in the first block, that block runs with all coefficients zero. -/
theorem C104_first_block_silent (h : Spec.Advances step is) (reg : ℕ → ℝ) (stage : ℤ) (n : ℕ → ℝ) (xs : List ℝ) :
    (block step Maker.new reg stage n xs).1 = ⟨fun _ => 0, fun _ => 0, fun _ => 0, false⟩ ∧
      block step Maker.new reg stage n xs = block step Maker.new reg stage (fun _ => 0) xs := by
  exact ⟨block_first h _ rfl _ _ _ _, rfl⟩

theorem block_first_run (m : Maker) (reg : ℕ → ℝ) (stage : ℤ) (n : ℕ → ℝ) (xs : List ℝ) :
    (block step m reg stage n xs).1.firstRun = false := by
  simp only [block, Maker.fromDirect]
  split <;> rfl

theorem block_tcoeff (m : Maker) (hm : m.firstRun = false) (reg : ℕ → ℝ) (stage : ℤ) (n : ℕ → ℝ) (xs : List ℝ) :
    (block step m reg stage n xs).1.tcoeff = fun i => (1.0 - SMOOTH) * m.tcoeff i + SMOOTH * n i := by
  simp only [block, Maker.fromDirect, hm, Bool.false_eq_true, if_false]

theorem block_coeff (h : Spec.Advances step is) (m : Maker) (hm : m.firstRun = false) (reg : ℕ → ℝ) (stage : ℤ) (n : ℕ → ℝ)
    (xs : List ℝ) (hx : xs.length = 64) : ∀ i ∈ is, (block step m reg stage n xs).1.coeff i = (block step m reg stage n xs).1.tcoeff i := by
  intro i hi
  obtain ⟨a, b⟩ := C104_ramp_lands h m hm reg stage n xs hx i hi
  rw [a, b]

/-- C104: **fixed settings are approached geometrically, from silence**: `k` blocks after the first, every ramped coefficient is
`1 - 0.8ᵏ` of what is wanted. -/
theorem C104_converges (h : Spec.Advances step is) (reg : ℕ → ℝ) (stage : ℤ) (n0 n : ℕ → ℝ) (xs0 : List ℝ) (bs : List (List ℝ))
    (hx : ∀ xs ∈ bs, xs.length = 64) :
    ∀ i ∈ is, (life step stage Maker.new reg ((n0, xs0) :: bs.map fun xs => (n, xs))).1.coeff i = (1 - 0.8 ^ bs.length) * n i := by
  intro i hi
  have key : ∀ (bs : List (List ℝ)) (m : Maker) (reg : ℕ → ℝ) (k : ℕ), (∀ xs ∈ bs, xs.length = 64) → m.firstRun = false →
      m.coeff i = (1 - 0.8 ^ k) * n i → m.tcoeff i = (1 - 0.8 ^ k) * n i →
      (life step stage m reg (bs.map fun xs => (n, xs))).1.coeff i = (1 - 0.8 ^ (k + bs.length)) * n i := by
    intro bs
    induction bs with
    | nil => intro m reg k _ _ hc _; simpa [life] using hc
    | cons xs bs ih =>
      intro m reg k hl hm hc ht
      obtain ⟨g1, g2⟩ := C104_ramp_lands h m hm reg stage n xs (hl xs (by simp)) i hi
      have e : (0.8 : ℝ) * ((1 - 0.8 ^ k) * n i) + 0.2 * n i = (1 - 0.8 ^ (k + 1)) * n i := by
        have : (0.2 : ℝ) = 1 - 0.8 := by norm_num
        rw [this, pow_succ]; ring
      rw [ht, e] at g1 g2
      have := ih (block step m reg stage n xs).1 (block step m reg stage n xs).2.1 (k + 1) (fun y hy => hl y (by simp [hy]))
        (block_first_run ..) g1 g2
      simp only [List.map_cons, life, List.length_cons, this]
      congr 3; omega
  have b0 := block_first h Maker.new rfl reg stage n0 xs0
  have := key bs (block step Maker.new reg stage n0 xs0).1 (block step Maker.new reg stage n0 xs0).2.1 0 hx (block_first_run ..)
    (by rw [b0]; simp) (by rw [b0]; simp)
  simpa [life] using this

/-! ### Every coefficient used is a mixture of the wanted ones -/

/-- `P u x` holds at every sample of a run. -/
def Spec.Always (step : FU → ℝ → FU × ℝ) (P : FU → ℝ → Prop) (u : FU) : List ℝ → Prop
  | [] => True
  | x :: xs => P u x ∧ Spec.Always step P (step u x).1 xs

/-- `P u x` holds at every sample of a life. -/
def Spec.LifeAlways (step : FU → ℝ → FU × ℝ) (P : FU → ℝ → Prop) (stage : ℤ) (m : Maker) (reg : ℕ → ℝ) : List ((ℕ → ℝ) × List ℝ) → Prop
  | [] => True
  | b :: bs => Spec.Always step P ⟨(m.fromDirect b.1).coeff, (m.fromDirect b.1).dcoeff, reg, stage⟩ b.2 ∧
      Spec.LifeAlways step P stage (block step m reg stage b.1 b.2).1 (block step m reg stage b.1 b.2).2.1 bs

/-- On the coefficients `is`, `c` agrees with a member of `S`. -/
def Spec.Within (S : Set (ℕ → ℝ)) (is : List ℕ) (c : ℕ → ℝ) : Prop := ∃ v ∈ S, ∀ i ∈ is, c i = v i

theorem within_mix {S : Set (ℕ → ℝ)} (hS : Convex ℝ S) {a b : ℕ → ℝ} (ha : Spec.Within S is a) (hb : Spec.Within S is b) {t : ℝ}
    (h0 : 0 ≤ t) (h1 : t ≤ 1) {c : ℕ → ℝ} (hc : ∀ i ∈ is, c i = (1 - t) * a i + t * b i) : Spec.Within S is c := by
  obtain ⟨v, hv, ev⟩ := ha
  obtain ⟨w, hw, ew⟩ := hb
  refine ⟨(1 - t) • v + t • w, hS hv hw (by linarith) h0 (by ring), fun i hi => ?_⟩
  rw [hc i hi, ev i hi, ew i hi]; rfl

theorem always_ramp (h : Spec.Advances step is) {S : Set (ℕ → ℝ)} (hS : Convex ℝ S) (xs : List ℝ) : ∀ (u : FU) (k N : ℕ) (a b : ℕ → ℝ),
    0 < N → k + xs.length ≤ N → Spec.Within S is a → Spec.Within S is b →
    (∀ i ∈ is, u.coeff i = a i + k * u.dcoeff i ∧ u.dcoeff i = (b i - a i) / N) →
    Spec.Always step (fun u x => Spec.Within S is u.coeff ∧ Spec.Within S is (step u x).1.coeff) u xs := by
  induction xs with
  | nil => intros; trivial
  | cons x xs ih =>
    intro u k N a b hN hk ha hb hu
    simp only [List.length_cons] at hk
    have nz : (N : ℝ) ≠ 0 := by exact_mod_cast hN.ne'
    have np : (0 : ℝ) < N := by exact_mod_cast hN
    have mix : ∀ (j : ℕ) (c : ℕ → ℝ), j ≤ N → (∀ i ∈ is, c i = a i + j * u.dcoeff i) → Spec.Within S is c := by
      intro j c hj hc
      refine within_mix hS ha hb (t := j / N) (by positivity) (by rw [div_le_one np]; exact_mod_cast hj) (fun i hi => ?_)
      rw [hc i hi, (hu i hi).2]; field_simp; ring
    obtain ⟨g1, g2⟩ := h u x
    have next : ∀ i ∈ is, (step u x).1.coeff i = a i + ((k + 1 : ℕ) : ℝ) * u.dcoeff i := by
      intro i hi
      rw [g1]
      simp only [FU.adv, hi, if_true, (hu i hi).1]
      push_cast; ring
    refine ⟨⟨mix k _ (by omega) (fun i hi => (hu i hi).1), mix (k + 1) _ (by omega) next⟩, ?_⟩
    refine ih (step u x).1 (k + 1) N a b hN (by omega) ha hb (fun i hi => ?_)
    rw [g2]
    exact ⟨next i hi, (hu i hi).2⟩

theorem life_within (h : Spec.Advances step is) {S : Set (ℕ → ℝ)} (hS : Convex ℝ S) (h0 : (fun _ => 0) ∈ S) (stage : ℤ)
    (bs : List ((ℕ → ℝ) × List ℝ)) : ∀ (m : Maker) (reg : ℕ → ℝ), (∀ b ∈ bs, b.1 ∈ S ∧ b.2.length = 64) →
    (m.firstRun = true ∨ Spec.Within S is m.coeff ∧ Spec.Within S is m.tcoeff) →
    Spec.LifeAlways step (fun u x => Spec.Within S is u.coeff ∧ Spec.Within S is (step u x).1.coeff) stage m reg bs := by
  induction bs with
  | nil => intros; trivial
  | cons b bs ih =>
    intro m reg hb hm
    obtain ⟨hb1, hb2⟩ := hb b (by simp)
    have wz : Spec.Within S is (fun _ => 0) := ⟨_, h0, fun _ _ => rfl⟩
    have wb : Spec.Within S is b.1 := ⟨_, hb1, fun _ _ => rfl⟩
    by_cases hf : m.firstRun = true
    · have e : m.fromDirect b.1 = ⟨fun _ => 0, fun _ => 0, fun _ => 0, false⟩ := by simp [Maker.fromDirect, hf]
      have e' := block_first h m hf reg stage b.1 b.2
      refine ⟨?_, ih _ _ (fun c hc => hb c (by simp [hc])) (.inr ⟨by rw [e']; exact wz, by rw [e']; exact wz⟩)⟩
      rw [e]
      refine always_ramp h hS b.2 _ 0 64 (fun _ => 0) (fun _ => 0) (by norm_num) (by omega) wz wz (fun i _ => ?_)
      simp
    · have hf' : m.firstRun = false := by simpa using hf
      obtain ⟨wc, wt⟩ := hm.resolve_left hf
      have wt' : Spec.Within S is (m.fromDirect b.1).tcoeff := by
        refine within_mix hS wt wb (t := 0.2) (by norm_num) (by norm_num) (fun i _ => ?_)
        simp only [Maker.fromDirect, hf', Bool.false_eq_true, if_false, SMOOTH]
        norm_num
      have ec : (m.fromDirect b.1).coeff = m.coeff := by simp [Maker.fromDirect, hf']
      have ed : ∀ i, (m.fromDirect b.1).dcoeff i = ((m.fromDirect b.1).tcoeff i - m.coeff i) / (64 : ℕ) := by
        intro i
        simp only [Maker.fromDirect, hf', Bool.false_eq_true, if_false]
        norm_num
        ring
      refine ⟨?_, ih _ _ (fun c hc => hb c (by simp [hc])) (.inr ?_)⟩
      · refine always_ramp h hS b.2 _ 0 64 m.coeff (m.fromDirect b.1).tcoeff (by norm_num) (by omega) wc wt' (fun i _ => ⟨?_, ed i⟩)
        simp [ec]
      · have et : (block step m reg stage b.1 b.2).1.tcoeff = (m.fromDirect b.1).tcoeff := rfl
        refine ⟨?_, by rw [et]; exact wt'⟩
        obtain ⟨v, hv, ev⟩ := wt'
        refine ⟨v, hv, fun i hi => ?_⟩
        rw [block_coeff h m hf' reg stage b.1 b.2 hb2 i hi, et, ev i hi]

/-- C104: **no coefficient strays**: over a whole life of 64-sample blocks with any wanted coefficients, the coefficients in use at every
sample, before and after it, are a mixture of zero and wanted ones: they lie in every convex set that contains those. -/
theorem C104_hull (h : Spec.Advances step is) {S : Set (ℕ → ℝ)} (hS : Convex ℝ S) (h0 : (fun _ => 0) ∈ S) (stage : ℤ) (reg : ℕ → ℝ)
    (bs : List ((ℕ → ℝ) × List ℝ)) (hb : ∀ b ∈ bs, b.1 ∈ S ∧ b.2.length = 64) :
    Spec.LifeAlways step (fun u x => Spec.Within S is u.coeff ∧ Spec.Within S is (step u x).1.coeff) stage Maker.new reg bs :=
  life_within h hS h0 stage bs _ _ hb (.inl rfl)

end

end Verif.Filters
