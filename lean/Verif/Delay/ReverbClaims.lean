import Verif.Delay.ReverbEnergy
import Verif.Delay.FlangerProps
import Mathlib.Analysis.SpecialFunctions.Pow.Real
import Mathlib.Analysis.SpecialFunctions.Sqrt
/-!
# Claims about the reverb: C91 (stability), C92 (history), C93 (predelay, presets)
-/
namespace Verif.Reverb
open Verif Finset

section generic
variable {K : Type} [Add K] [Mul K] [Sub K] [Zero K] [One K] [Lits K]

/-- C92. From the initial state every run whose settings have delay times below 2^23 and predelays of 0..32767 samples returns (in a
build with wrapping subtraction), gives one pair of samples per input, and ends with rings holding one vector per sample and the
means of the inputs. -/
theorem C92_reverb_run (xs : List (Ctl K × K × K))
    (h : ∀ x ∈ xs, (∀ t < 16, x.1.time t < 2 ^ 23) ∧ 0 ≤ x.1.predelay ∧ x.1.predelay < 32768 ∧ x.1.checked = false) :
    ∃ s ys ws, run xs Rev.new = .ok (s, ys) ∧ ys.length = xs.length ∧ ws.length = xs.length ∧
      s.Holds ws (xs.map fun x => Lits.half * (x.2.1 + x.2.2)) := by
  have key : ∀ (xs : List (Ctl K × K × K)), (∀ x ∈ xs, (∀ t < 16, x.1.time t < 2 ^ 23) ∧ 0 ≤ x.1.predelay ∧ x.1.predelay < 32768 ∧ x.1.checked = false) →
      ∀ (s : Rev K) (ws : List (Nat → K)) (ps : List K), s.Holds ws ps →
      ∃ s' ys ws', run xs s = .ok (s', ys) ∧ ys.length = xs.length ∧ ws'.length = ws.length + xs.length ∧
        s'.Holds ws' (ps ++ xs.map fun x => Lits.half * (x.2.1 + x.2.2)) := by
    intro xs
    induction xs with
    | nil => intro _ s ws ps hs; exact ⟨s, [], ws, rfl, rfl, rfl, by simpa using hs⟩
    | cons x xs ih =>
      intro hx s ws ps hs
      obtain ⟨c, l, r⟩ := x
      obtain ⟨h1, h2, h3, h4⟩ := hx _ (List.mem_cons_self ..)
      obtain ⟨s1, e1, _, hs1⟩ := C92_reverb_sample hs c h1 h2 h3 (.inl h4) l r
      obtain ⟨s', ys, ws', e2, hy, hw, hs'⟩ := ih (fun x hx' => hx x (List.mem_cons_of_mem _ hx')) s1 _ _ hs1
      refine ⟨s', (mixdown (Spec.taps ws c s.out) c.panL, mixdown (Spec.taps ws c s.out) c.panR) :: ys, ws', ?_, ?_, ?_, by simpa [List.append_assoc] using hs'⟩
      · show (step c s l r >>= fun q => run xs q.1 >>= fun q' => .ok (q'.1, q.2 :: q'.2)) = _
        rw [e1, Res.ok_bind, e2, Res.ok_bind]
      · simp [hy]
      · rw [hw]; simp; omega
  obtain ⟨s, ys, ws, e, hy, hw, hs⟩ := key xs h Rev.new [] [] new_holds
  exact ⟨s, ys, ws, e, hy, by simpa using hw, by simpa using hs⟩

/-- C93. In a build that checks overflow, a sample panics whenever the predelay exceeds the current ring position: in particular
every predelay above one sample panics on the first sample. -/
theorem C93_predelay_panics {ws : List (Nat → K)} {ps : List K} {s : Rev K} (h : s.Holds ws ps) (c : Ctl K)
    (ht : ∀ t < 16, c.time t < 2 ^ 23) (hc : c.checked = true) (h1 : c.predelay < 2 ^ 31)
    (hp : ((ws.length + 1) % 32768 : Nat) < c.predelay) (l r : K) :
    step c s l r = .panic "attempt to subtract with overflow" := by
  have e0 := preTaps_ok h c ht 16 le_rfl
  have epos : Delay.index64 ((s.pos : Int) + 1) (maxDelay - 1) = (ws.length + 1) % 32768 := by
    rw [show maxDelay - 1 = 2 ^ 15 - 1 from rfl, Delay.index64_eq _ 15 (by norm_num), h.2.1]
    norm_num
    omega
  unfold step
  rw [show taps = 16 from rfl, e0, Res.ok_bind]
  dsimp only
  rw [epos]
  unfold getFb preIdx
  dsimp only
  have hu : (BitVec.ofInt 64 c.predelay).toNat = c.predelay.toNat := by
    rw [BitVec.toNat_ofInt]; omega
  rw [if_pos]
  · rfl
  · simp only [hc, hu, Bool.true_and, decide_eq_true_eq]; omega

end generic

theorem run_append {K : Type} [Add K] [Mul K] [Sub K] [Zero K] [One K] [Lits K] (xs ys : List (Ctl K × K × K)) (s : Rev K) :
    run (xs ++ ys) s = run xs s >>= fun q => run ys q.1 >>= fun q' => .ok (q'.1, q.2 ++ q'.2) := by
  induction xs generalizing s with
  | nil =>
    show run ys s = run ys s >>= fun q' => .ok (q'.1, [] ++ q'.2)
    cases run ys s <;> simp
  | cons x xs ih =>
    obtain ⟨c, l, r⟩ := x
    show (step c s l r >>= fun q => run (xs ++ ys) q.1 >>= fun q' => .ok (q'.1, q.2 :: q'.2)) =
      ((step c s l r >>= fun q => run xs q.1 >>= fun q' => .ok (q'.1, q.2 :: q'.2)) >>= _)
    cases step c s l r with
    | ok q =>
      simp only [Res.ok_bind]
      rw [ih]
      cases run xs q.1 with
      | ok q1 =>
        simp only [Res.ok_bind]
        cases run ys q1.1 <;> rfl
      | err e => rfl
      | panic w => rfl
    | err e => rfl
    | panic w => rfl

/-! ## C91 -/

/-- The predelayed input: the mean of the two channels `pd` samples before sample `i`, silence before the start. -/
noncomputable def Spec.delayed (xs : List (ℝ × ℝ)) (pd i : Nat) : ℝ :=
  if pd ≤ i then ((xs.getD (i - pd) (0, 0)).1 + (xs.getD (i - pd) (0, 0)).2) / 2 else 0

/-- What the reverb can hold at sample `n`: every earlier predelayed input, decayed by `ρ` per sample since. -/
noncomputable def Spec.envelope (ρ : ℝ) (xs : List (ℝ × ℝ)) (pd n : Nat) : ℝ :=
  4 * ∑ i ∈ range n, ρ ^ (n - i) * |Spec.delayed xs pd i|

/-- The same with the newest input undecayed. -/
noncomputable def held (ρ : ℝ) (xs : List (ℝ × ℝ)) (pd n : Nat) : ℝ :=
  4 * ∑ i ∈ range n, ρ ^ (n - 1 - i) * |Spec.delayed xs pd i|

theorem held_nonneg {ρ : ℝ} (h : 0 ≤ ρ) (xs : List (ℝ × ℝ)) (pd n : Nat) : 0 ≤ held ρ xs pd n :=
  mul_nonneg (by norm_num) (sum_nonneg fun i _ => mul_nonneg (pow_nonneg h _) (abs_nonneg _))

theorem rho_held (ρ : ℝ) (xs : List (ℝ × ℝ)) (pd n : Nat) : ρ * held ρ xs pd n = Spec.envelope ρ xs pd n := by
  unfold held Spec.envelope
  rw [mul_left_comm, mul_sum]
  congr 1
  apply sum_congr rfl
  intro i hi
  have := mem_range.mp hi
  rw [← mul_assoc, ← pow_succ', show n - 1 - i + 1 = n - i by omega]

theorem held_succ (ρ : ℝ) (xs : List (ℝ × ℝ)) (pd n : Nat) :
    held ρ xs pd (n + 1) = ρ * held ρ xs pd n + 4 * |Spec.delayed xs pd n| := by
  rw [rho_held]
  unfold held Spec.envelope
  rw [sum_range_succ, Nat.add_sub_cancel, Nat.sub_self, pow_zero, one_mul, mul_add]

theorem delayed_append (xs : List (ℝ × ℝ)) (x : ℝ × ℝ) (pd : Nat) {i : Nat} (hi : i < xs.length) :
    Spec.delayed (xs ++ [x]) pd i = Spec.delayed xs pd i := by
  unfold Spec.delayed
  by_cases h : pd ≤ i
  · rw [if_pos h, if_pos h, List.getD_eq_getElem?_getD, List.getD_eq_getElem?_getD, List.getElem?_append_left (by omega)]
  · rw [if_neg h, if_neg h]

theorem held_append (ρ : ℝ) (xs : List (ℝ × ℝ)) (x : ℝ × ℝ) (pd : Nat) {n : Nat} (hn : n ≤ xs.length) :
    held ρ (xs ++ [x]) pd n = held ρ xs pd n := by
  unfold held
  congr 1
  apply sum_congr rfl
  intro i hi
  rw [delayed_append xs x pd (by have := mem_range.mp hi; omega)]

theorem back_mean (xs : List (ℝ × ℝ)) (x : ℝ × ℝ) (pd : Nat) :
    Spec.back ((xs.map fun y => (Lits.half * (y.1 + y.2) : ℝ)) ++ [Lits.half * (x.1 + x.2)]) pd = Spec.delayed (xs ++ [x]) pd xs.length := by
  have e : (xs.map fun y => (Lits.half * (y.1 + y.2) : ℝ)) ++ [Lits.half * (x.1 + x.2)]
      = (xs ++ [x]).map fun y => (Lits.half * (y.1 + y.2) : ℝ) := by simp
  rw [e]
  unfold Spec.back Spec.delayed
  rw [← List.map_reverse, List.getElem?_map]
  by_cases h : pd ≤ xs.length
  · rw [if_pos h, List.getElem?_reverse (by simp; try omega)]
    have e2 : (xs ++ [x]).length - 1 - pd = xs.length - pd := by simp
    rw [e2, List.getD_eq_getElem?_getD]
    have hlt : xs.length - pd < (xs ++ [x]).length := by simp; try omega
    rw [List.getElem?_eq_getElem hlt]
    show (1 / 2 : ℝ) * _ = _
    simp only [Option.getD_some]
    ring
  · rw [if_neg h, List.getElem?_eq_none (by simp; omega)]
    rfl

/-- C91. Over the reals, with settings that decay by `ρ` per sample (`Spec.Decays`), each output sample of the reverb is bounded by the
root sum of squares of its pan gains times four times the sum of all earlier (predelayed) inputs, each decayed by `ρ` per sample since
it was fed in — for every input signal of any length. -/
theorem C91_output_envelope (c : Ctl ℝ) {ρ : ℝ} (hc : Spec.Decays c ρ) (ht : ∀ t < 16, c.time t < 2 ^ 23) (h0 : 0 ≤ c.predelay)
    (h1 : c.predelay < 32768) (hw : c.checked = false) (xs : List (ℝ × ℝ)) :
    ∃ s ys, run (xs.map fun x => (c, x.1, x.2)) Rev.new = .ok (s, ys) ∧ ys.length = xs.length ∧
      ∀ (n : Nat) (y : ℝ × ℝ), ys[n]? = some y →
        y.1 ^ 2 ≤ (∑ t ∈ range 16, c.panL t ^ 2) * Spec.envelope ρ xs c.predelay.toNat n ^ 2 ∧
        y.2 ^ 2 ≤ (∑ t ∈ range 16, c.panR t ^ 2) * Spec.envelope ρ xs c.predelay.toNat n ^ 2 := by
  have hρ : 0 ≤ ρ := by linarith [hc.d0, hc.dr]
  suffices H : ∃ s ys ws, run (xs.map fun x => (c, x.1, x.2)) Rev.new = .ok (s, ys) ∧ ys.length = xs.length ∧ ws.length = xs.length ∧
      s.Holds ws (xs.map fun x => Lits.half * (x.1 + x.2)) ∧ energy c ρ ws s.out ≤ held ρ xs c.predelay.toNat xs.length ^ 2 ∧
      ∀ (n : Nat) (y : ℝ × ℝ), ys[n]? = some y →
        y.1 ^ 2 ≤ (∑ t ∈ range 16, c.panL t ^ 2) * (ρ * held ρ xs c.predelay.toNat n) ^ 2 ∧
        y.2 ^ 2 ≤ (∑ t ∈ range 16, c.panR t ^ 2) * (ρ * held ρ xs c.predelay.toNat n) ^ 2 by
    obtain ⟨s, ys, ws, a, b, _, _, _, f⟩ := H
    refine ⟨s, ys, a, b, ?_⟩
    intro n y hy
    have := f n y hy
    rwa [rho_held] at this
  induction xs using List.reverseRecOn with
  | nil =>
    refine ⟨Rev.new, [], [], rfl, rfl, rfl, new_holds, ?_, ?_⟩
    · unfold energy held lineEnergy
      simp [Rev.new, back_nil]
    · intro n y hy; simp at hy
  | append_singleton xs x ih =>
    obtain ⟨s, ys, ws, e, hy, hwl, hs, hE, hb⟩ := ih
    obtain ⟨l, r⟩ := x
    obtain ⟨s1, e1, ho, hs1⟩ := C92_reverb_sample hs c ht h0 h1 (.inl hw) l r
    have hM := held_nonneg hρ xs c.predelay.toNat xs.length
    have := energy_step hc ws s.out (Spec.back ((xs.map fun x => (Lits.half * (x.1 + x.2) : ℝ)) ++ [Lits.half * (l + r)]) c.predelay.toNat) hM hE
    dsimp only at this
    obtain ⟨hO, hE'⟩ := this
    have hpan : ∀ pan : Nat → ℝ, mixdown (Spec.taps ws c s.out) pan ^ 2 ≤
        (∑ t ∈ range 16, pan t ^ 2) * (ρ * held ρ xs c.predelay.toNat xs.length) ^ 2 := by
      intro pan
      rw [mixdown_eq]
      have h2 := sum_mul_sq_le_sq_mul_sq (range 16) (Spec.taps ws c s.out) pan
      have h3 : 0 ≤ ∑ t ∈ range 16, pan t ^ 2 := sum_nonneg fun t _ => sq_nonneg _
      nlinarith
    refine ⟨s1, ys ++ [(mixdown (Spec.taps ws c s.out) c.panL, mixdown (Spec.taps ws c s.out) c.panR)],
      ws ++ [fun t => c.fb t * (Lits.ca * Spec.sum16 (Spec.taps ws c s.out) +
        Spec.back ((xs.map fun x => (Lits.half * (x.1 + x.2) : ℝ)) ++ [Lits.half * (l + r)]) c.predelay.toNat + Spec.taps ws c s.out t)],
      ?_, by simp [hy], ?_, ?_, ?_, ?_⟩
    · rw [List.map_append, run_append, e, Res.ok_bind]
      show ((step c s l r >>= fun q => Res.ok (q.1, [q.2])) >>= _) = _
      rw [e1]
      rfl
    · simp [hwl]
    · simpa using hs1
    · rw [ho, List.length_append, List.length_singleton, held_succ, held_append ρ xs (l, r) _ le_rfl, ← back_mean xs (l, r)]
      exact hE'
    · intro n y hn
      rcases Nat.lt_or_ge n ys.length with hlt | hge
      · rw [List.getElem?_append_left hlt] at hn
        have hle : n ≤ xs.length := by omega
        rw [held_append ρ xs (l, r) _ hle]
        exact hb n y hn
      · rw [List.getElem?_append_right hge] at hn
        have hn0 : n - ys.length = 0 := by
          by_contra hne
          rw [List.getElem?_eq_none (by simp; omega)] at hn
          simp at hn
        rw [hn0] at hn
        simp only [List.getElem?_cons_zero, Option.some.injEq] at hn
        have hn' : n = xs.length := by omega
        subst hn
        rw [hn', held_append ρ xs (l, r) _ le_rfl]
        exact ⟨hpan _, hpan _⟩

/-- Any input below `P` keeps the envelope below `4 P ρ / (1 - ρ)`. -/
theorem envelope_le {ρ P : ℝ} (h0 : 0 ≤ ρ) (h1 : ρ < 1) (xs : List (ℝ × ℝ)) (hP0 : 0 ≤ P)
    (hx : ∀ x ∈ xs, |x.1| ≤ P ∧ |x.2| ≤ P) (pd n : Nat) : Spec.envelope ρ xs pd n ≤ 4 * P * ρ / (1 - ρ) := by
  have hd : ∀ i, |Spec.delayed xs pd i| ≤ P := by
    intro i
    unfold Spec.delayed
    by_cases h : pd ≤ i
    · rw [if_pos h, List.getD_eq_getElem?_getD]
      rcases hq : xs[i - pd]? with _ | q
      · simpa using hP0
      · have := hx q (List.mem_of_getElem? hq)
        simp only [Option.getD_some]
        rw [abs_div, abs_two, div_le_iff₀ (by norm_num)]
        linarith [abs_add_le q.1 q.2, this.1, this.2]
    · rw [if_neg h, abs_zero]; exact hP0
  have hp : 0 < 1 - ρ := by linarith
  induction n with
  | zero =>
    unfold Spec.envelope
    simp only [range_zero, sum_empty, mul_zero]
    positivity
  | succ n ih =>
    rw [← rho_held, held_succ, rho_held]
    have h4 : Spec.envelope ρ xs pd n + 4 * |Spec.delayed xs pd n| ≤ 4 * P * ρ / (1 - ρ) + 4 * P := by linarith [hd n]
    calc ρ * (Spec.envelope ρ xs pd n + 4 * |Spec.delayed xs pd n|) ≤ ρ * (4 * P * ρ / (1 - ρ) + 4 * P) := mul_le_mul_of_nonneg_left h4 h0
      _ = 4 * P * ρ / (1 - ρ) := by field_simp; ring

/-- C91. Bounded input gives bounded output, with a bound that does not depend on the length of the input. -/
theorem C91_bounded (c : Ctl ℝ) {ρ : ℝ} (hc : Spec.Decays c ρ) (hρ1 : ρ < 1) (ht : ∀ t < 16, c.time t < 2 ^ 23) (h0 : 0 ≤ c.predelay)
    (h1 : c.predelay < 32768) (hw : c.checked = false) (xs : List (ℝ × ℝ)) {P : ℝ} (hx : ∀ x ∈ xs, |x.1| ≤ P ∧ |x.2| ≤ P) (hP : 0 ≤ P) :
    ∃ s ys, run (xs.map fun x => (c, x.1, x.2)) Rev.new = .ok (s, ys) ∧ ys.length = xs.length ∧
      ∀ y ∈ ys, y.1 ^ 2 ≤ (∑ t ∈ range 16, c.panL t ^ 2) * (4 * P * ρ / (1 - ρ)) ^ 2 ∧
        y.2 ^ 2 ≤ (∑ t ∈ range 16, c.panR t ^ 2) * (4 * P * ρ / (1 - ρ)) ^ 2 := by
  obtain ⟨s, ys, e, hl, h⟩ := C91_output_envelope c hc ht h0 h1 hw xs
  refine ⟨s, ys, e, hl, ?_⟩
  intro y hy
  obtain ⟨n, hn⟩ := List.mem_iff_getElem?.mp hy
  have := h n y hn
  have hρ : 0 ≤ ρ := by linarith [hc.d0, hc.dr]
  have he := envelope_le hρ hρ1 xs hP hx c.predelay.toNat n
  have he0 : 0 ≤ Spec.envelope ρ xs c.predelay.toNat n := by
    rw [← rho_held]; exact mul_nonneg hρ (held_nonneg hρ ..)
  have hsq : Spec.envelope ρ xs c.predelay.toNat n ^ 2 ≤ (4 * P * ρ / (1 - ρ)) ^ 2 := pow_le_pow_left₀ he0 he 2
  exact ⟨this.1.trans (mul_le_mul_of_nonneg_left hsq (sum_nonneg fun t _ => sq_nonneg _)),
    this.2.trans (mul_le_mul_of_nonneg_left hsq (sum_nonneg fun t _ => sq_nonneg _))⟩

theorem envelope_silence {ρ : ℝ} (xs : List (ℝ × ℝ)) (m pd k : Nat) (hk : xs.length + pd + k ≤ xs.length + m + pd) :
    Spec.envelope ρ (xs ++ List.replicate m (0, 0)) pd (xs.length + pd + k) = ρ ^ k * Spec.envelope ρ (xs ++ List.replicate m (0, 0)) pd (xs.length + pd) := by
  have hz : ∀ i, xs.length + pd ≤ i → Spec.delayed (xs ++ List.replicate m (0, 0)) pd i = 0 := by
    intro i hi
    unfold Spec.delayed
    rw [if_pos (by omega), List.getD_eq_getElem?_getD, List.getElem?_append_right (by omega), List.getElem?_replicate]
    split_ifs <;> simp
  induction k with
  | zero => simp
  | succ k ih =>
    rw [show xs.length + pd + (k + 1) = xs.length + pd + k + 1 by omega, ← rho_held, held_succ, rho_held, ih (by omega), hz _ (by omega), abs_zero, mul_zero, add_zero, pow_succ]
    ring

/-- C91. Once the input has stopped and the predelay has run out, the output decays by the factor `ρ` per sample. -/
theorem C91_tail_decays (c : Ctl ℝ) {ρ : ℝ} (hc : Spec.Decays c ρ) (hρ1 : ρ < 1) (ht : ∀ t < 16, c.time t < 2 ^ 23) (h0 : 0 ≤ c.predelay)
    (h1 : c.predelay < 32768) (hw : c.checked = false) (xs : List (ℝ × ℝ)) {P : ℝ} (hx : ∀ x ∈ xs, |x.1| ≤ P ∧ |x.2| ≤ P) (hP : 0 ≤ P)
    (m : Nat) :
    ∃ s ys, run ((xs ++ List.replicate m ((0 : ℝ), (0 : ℝ))).map fun x => (c, x.1, x.2)) Rev.new = .ok (s, ys) ∧ ys.length = xs.length + m ∧
      ∀ (k : Nat) (y : ℝ × ℝ), ys[xs.length + c.predelay.toNat + k]? = some y →
        y.1 ^ 2 ≤ (∑ t ∈ range 16, c.panL t ^ 2) * (ρ ^ k * (4 * P * ρ / (1 - ρ))) ^ 2 ∧
        y.2 ^ 2 ≤ (∑ t ∈ range 16, c.panR t ^ 2) * (ρ ^ k * (4 * P * ρ / (1 - ρ))) ^ 2 := by
  obtain ⟨s, ys, e, hl, h⟩ := C91_output_envelope c hc ht h0 h1 hw (xs ++ List.replicate m (0, 0))
  refine ⟨s, ys, e, by simpa using hl, ?_⟩
  intro k y hy
  have hk : xs.length + c.predelay.toNat + k < ys.length := by
    by_contra hne
    rw [List.getElem?_eq_none (by omega)] at hy
    simp at hy
  have hl' : ys.length = xs.length + m := by simpa using hl
  have := h _ y hy
  rw [envelope_silence xs m _ k (by omega)] at this
  have hρ : 0 ≤ ρ := by linarith [hc.d0, hc.dr]
  have he := envelope_le hρ hρ1 (xs ++ List.replicate m (0, 0)) hP (by
    intro x hx'
    rcases List.mem_append.mp hx' with hx' | hx'
    · exact hx x hx'
    · have := List.eq_of_mem_replicate hx'
      subst this
      simpa using hP) c.predelay.toNat (xs.length + c.predelay.toNat)
  have he0 : 0 ≤ Spec.envelope ρ (xs ++ List.replicate m (0, 0)) c.predelay.toNat (xs.length + c.predelay.toNat) := by
    rw [← rho_held]; exact mul_nonneg hρ (held_nonneg hρ ..)
  have hsq : (ρ ^ k * Spec.envelope ρ (xs ++ List.replicate m (0, 0)) c.predelay.toNat (xs.length + c.predelay.toNat)) ^ 2
      ≤ (ρ ^ k * (4 * P * ρ / (1 - ρ))) ^ 2 :=
    pow_le_pow_left₀ (by positivity) (mul_le_mul_of_nonneg_left he (by positivity)) 2
  exact ⟨this.1.trans (mul_le_mul_of_nonneg_left hsq (sum_nonneg fun t _ => sq_nonneg _)),
    this.2.trans (mul_le_mul_of_nonneg_left hsq (sum_nonneg fun t _ => sq_nonneg _))⟩

/-- C91. Whenever the damping is below 1 and all feedback gains are at most some `γ < 1`, a decay factor below 1 exists. -/
theorem C91_decays (c : Ctl ℝ) (d0 : 0 ≤ c.damp) (d1 : c.damp < 1) {γ : ℝ} (g0 : 0 ≤ γ) (g1 : γ < 1) (hf : ∀ t < 16, |c.fb t| ≤ γ)
    {L : Nat} (hL : ∀ t < 16, c.time t / 256 ≤ L) :
    Spec.Decays c (1 - (1 - γ) * (1 - c.damp) / (2 + L)) ∧ 1 - (1 - γ) * (1 - c.damp) / (2 + L) < 1 := by
  set ε := (1 - γ) * (1 - c.damp) / (2 + L) with hε
  have hLp : (0 : ℝ) < 2 + L := by positivity
  have hεL : ε * (2 + L) = (1 - γ) * (1 - c.damp) := by rw [hε]; field_simp
  have hε0 : 0 < ε := div_pos (mul_pos (by linarith) (by linarith)) hLp
  have hL0 : (0 : ℝ) ≤ L := Nat.cast_nonneg L
  have h2 : ε * 2 ≤ 1 - c.damp := by nlinarith
  refine ⟨⟨d0, by linarith, by linarith, ?_⟩, by linarith⟩
  intro t ht
  have hD : ((c.time t / 256 : Nat) : ℝ) ≤ L := by exact_mod_cast hL t ht
  have hb : 1 + ((c.time t / 256 : Nat) : ℝ) * (-ε) ≤ (1 + -ε) ^ (c.time t / 256) := one_add_mul_le_pow (by linarith) _
  rw [← sub_eq_add_neg] at hb
  have hp : 0 ≤ 1 - ε - c.damp := by linarith
  have hk := mul_le_mul_of_nonneg_left hb hp
  have hg := mul_le_mul_of_nonneg_right (hf t ht) (show 0 ≤ 1 - c.damp by linarith)
  have hd : ((c.time t / 256 : Nat) : ℝ) * ε ≤ L * ε := mul_le_mul_of_nonneg_right hD hε0.le
  have hD0 : (0 : ℝ) ≤ ((c.time t / 256 : Nat) : ℝ) := Nat.cast_nonneg _
  nlinarith [mul_nonneg hD0 (mul_nonneg hε0.le hε0.le), mul_nonneg (mul_nonneg hD0 hε0.le) d0]

/-! ## The settings the parameters produce -/

/-- preset.rs 15-51 `delay_time_buffer`. -/
def presetTimes : List (List Nat) := [
  [1339934, 962710, 1004427, 1103966, 1198575, 1743348, 1033425, 933313, 949407, 1402754, 1379894, 1225304, 1135598, 1402107, 956152, 1137737],
  [1265607, 844703, 856159, 1406425, 786608, 1163557, 1091206, 1129434, 1270379, 896997, 1415393, 782808, 868582, 1234463, 1000336, 968299],
  [1293101, 1334867, 1178781, 1850949, 1663760, 1982922, 1211021, 1824481, 1520266, 1351822, 1102711, 1513696, 1057618, 1671799, 1406360, 1170468],
  [1833435, 2462309, 2711583, 2219764, 1664194, 2109157, 1626137, 1434473, 2271242, 1621375, 1831218, 2640903, 1577737, 1871624, 2439164, 1427343]]

open Verif.Float in
/-- preset.rs 70-76: `(2.0_f32 * room_size * (delay_time as f32)) as usize`. -/
def delayTime (room : F32) (p : Nat) : Nat := (F32.mul (F32.mul (.fin 2) room) (F32.ofInt p)).toUsize

/-- update.rs 59-61 `delay_fb` (`db60!` is surge-math utility.rs 99-104), over the reals. -/
noncomputable def fbOf (sr decay : ℝ) (time : Nat) : ℝ := ((10 : ℝ) ^ (0.05 * -60 : ℝ)) ^ ((time : ℝ) / (256 * sr * 2 ^ decay))

/-- init.rs 44-45 `x`, `xbp`. -/
noncomputable def xbp (t : Nat) : ℝ := -1 + 2 * ((t : ℝ) / (16 - 1))

/-- init.rs 36-52 and update.rs 52-72: the settings for delay times `time`, over the reals. -/
noncomputable def settings (time : Nat → Nat) (sr decay damp : ℝ) (predelay : Int) (checked : Bool) : Ctl ℝ :=
  ⟨time, fun t => fbOf sr decay (time t), fun t => Real.sqrt (0.5 - 0.495 * xbp t), fun t => Real.sqrt (0.5 + 0.495 * xbp t), damp, predelay, checked⟩

open Verif.Float in
/-- C93. For every room size from 0 to 1 all delay times of all presets fit the lines. -/
theorem C93_presets_fit {room : F32} (h : Lfo.Spec.Between 0 1 room) {ps : List Nat} (hps : ps ∈ presetTimes) {p : Nat} (hp : p ∈ ps) :
    delayTime room p < 2 ^ 23 := by
  have hb : p ≤ 2711583 := by
    have : ∀ ps ∈ presetTimes, ∀ p ∈ ps, p ≤ 2711583 := by decide +kernel
    exact this ps hps p hp
  obtain ⟨q, rfl, iq, q0, q1⟩ := h
  have hc : (F32.ofInt (p : Int)) = .fin (p : ℚ) := by
    rw [F32.ofInt_eq (by rw [abs_of_nonneg (by positivity)]; omega)]
    simp
  have q2 : |(2 : ℚ) * q| ≤ 2 := by rw [abs_of_nonneg (by linarith)]; linarith
  have e1 : F32.mul (.fin 2) (.fin q) = .fin (rne (2 * q)) := Param.mul_fin (q2.trans (by norm_num))
  have a0 : 0 ≤ rne (2 * q) := rne_nonneg (by linarith)
  have a2 : rne (2 * q) ≤ 2 := by
    have := rne_mono (show 2 * q ≤ 2 by linarith)
    rwa [show rne 2 = 2 by decide +kernel] at this
  have hpq : (p : ℚ) ≤ 2711583 := by exact_mod_cast hb
  have hp0 : (0 : ℚ) ≤ p := Nat.cast_nonneg p
  have h3 : rne (2 * q) * p ≤ 5423168 := by nlinarith
  have h30 : 0 ≤ rne (2 * q) * p := mul_nonneg a0 hp0
  have e2 : F32.mul (.fin (rne (2 * q))) (.fin (p : ℚ)) = .fin (rne (rne (2 * q) * p)) := Param.mul_fin (by
    rw [abs_of_nonneg h30]; exact h3.trans (by norm_num))
  have b0 := rne_nonneg h30
  have b1 := rne_mono h3
  rw [show rne 5423168 = 5423168 by decide +kernel] at b1
  unfold delayTime
  rw [hc, e1, e2]
  unfold F32.toUsize F32.toIntSat
  dsimp only
  have ht := (F32.truncQ_bounds (rne (rne (2 * q) * p))).1 b0
  have : (F32.truncQ (rne (rne (2 * q) * p)) : ℚ) ≤ 5423168 := ht.1.trans b1
  have : F32.truncQ (rne (rne (2 * q) * p)) ≤ 5423168 := by exact_mod_cast this
  omega

/-- C91. For every decay time, sample rate and damping below 1, and delay times of at least one unit (a 256th sample), the settings
decay by some factor below 1 per sample. -/
theorem C91_settings_decay (time : Nat → Nat) (ht : ∀ t < 16, 1 ≤ time t) {sr : ℝ} (hs : 0 < sr) (decay : ℝ) {damp : ℝ} (d0 : 0 ≤ damp) (d1 : damp < 1)
    (predelay : Int) (checked : Bool) : ∃ ρ < 1, Spec.Decays (settings time sr decay damp predelay checked) ρ := by
  set b : ℝ := (10 : ℝ) ^ (0.05 * -60 : ℝ) with hb
  have hb0 : 0 < b := Real.rpow_pos_of_pos (by norm_num) _
  have hb1 : b < 1 := Real.rpow_lt_one_of_one_lt_of_neg (by norm_num) (by norm_num)
  have hk : 0 < 256 * sr * (2 : ℝ) ^ decay := by
    have := Real.rpow_pos_of_pos (show (0:ℝ) < 2 by norm_num) decay
    positivity
  have := C91_decays (settings time sr decay damp predelay checked) d0 d1 (γ := b ^ (1 / (256 * sr * (2 : ℝ) ^ decay)))
    (Real.rpow_nonneg hb0.le _) (Real.rpow_lt_one hb0.le hb1 (by positivity)) (by
      intro t h16
      show |fbOf sr decay (time t)| ≤ _
      unfold fbOf
      rw [← hb, abs_of_pos (Real.rpow_pos_of_pos hb0 _)]
      apply Real.rpow_le_rpow_of_exponent_ge hb0 hb1.le
      apply div_le_div_of_nonneg_right _ hk.le
      exact_mod_cast ht t h16) (L := ∑ t ∈ range 16, time t) (by
      intro t h16
      have h2 : time t ≤ ∑ t ∈ range 16, time t := single_le_sum (f := time) (fun i _ => Nat.zero_le _) (mem_range.mpr h16)
      show time t / 256 ≤ _
      omega)
  exact ⟨_, this.2, this.1⟩

/-- C91. The pan gains are power complementary, and on each side their squares sum to 8. -/
theorem C91_pan_power (time : Nat → Nat) (sr decay damp : ℝ) (predelay : Int) (checked : Bool) :
    (∀ t < 16, (settings time sr decay damp predelay checked).panL t ^ 2 + (settings time sr decay damp predelay checked).panR t ^ 2 = 1) ∧
    ∑ t ∈ range 16, (settings time sr decay damp predelay checked).panL t ^ 2 = 8 ∧
    ∑ t ∈ range 16, (settings time sr decay damp predelay checked).panR t ^ 2 = 8 := by
  have hx : ∀ t < 16, -1 ≤ xbp t ∧ xbp t ≤ 1 := by
    intro t ht
    have : (t : ℝ) ≤ 15 := by exact_mod_cast (by omega : t ≤ 15)
    have h0 : (0 : ℝ) ≤ t := Nat.cast_nonneg t
    unfold xbp
    constructor
    · have : (0:ℝ) ≤ 2 * (t / (16 - 1)) := by norm_num; positivity
      linarith
    · have : (t : ℝ) / (16 - 1) ≤ 1 := by rw [div_le_one (by norm_num)]; linarith
      linarith
  have hl : ∀ t < 16, (settings time sr decay damp predelay checked).panL t ^ 2 = 0.5 - 0.495 * xbp t := by
    intro t ht
    exact Real.sq_sqrt (by have := hx t ht; norm_num; linarith)
  have hr : ∀ t < 16, (settings time sr decay damp predelay checked).panR t ^ 2 = 0.5 + 0.495 * xbp t := by
    intro t ht
    exact Real.sq_sqrt (by have := hx t ht; norm_num; linarith)
  refine ⟨fun t ht => by rw [hl t ht, hr t ht]; norm_num, ?_, ?_⟩
  · rw [sum_congr rfl fun t ht => hl t (mem_range.mp ht)]
    simp only [sum_range_succ, sum_range_zero, xbp]
    norm_num
  · rw [sum_congr rfl fun t ht => hr t (mem_range.mp ht)]
    simp only [sum_range_succ, sum_range_zero, xbp]
    norm_num

/-- C91, the exception: at room size 0 (all delay times 0, hence feedback 1) with damping 0, the alternating full-scale input makes
tap `n` reach `n`: the output is not bounded. -/
theorem C91_room_zero_unbounded (sr decay : ℝ) (n : Nat) :
    ∃ s ys, run ((List.range n).map fun i => (settings (fun _ => 0) sr decay 0 0 false, ((-1 : ℝ) ^ i), ((-1 : ℝ) ^ i))) Rev.new = .ok (s, ys) ∧
      ∀ y, ys.getLast? = some y → |y.1| ^ 2 = ((n : ℝ) - 1) ^ 2 * (∑ t ∈ range 16, (settings (fun _ => 0) sr decay 0 0 false).panL t) ^ 2 := by
  set c := settings (fun _ => 0) sr decay 0 0 false with hc
  have hfb : ∀ t, c.fb t = 1 := by intro t; show fbOf sr decay 0 = 1; unfold fbOf; simp
  suffices H : ∃ s ys ws, run ((List.range n).map fun i => (c, ((-1 : ℝ) ^ i), ((-1 : ℝ) ^ i))) Rev.new = .ok (s, ys) ∧
      s.Holds ws ((List.range n).map fun i => Lits.half * ((-1 : ℝ) ^ i + (-1 : ℝ) ^ i)) ∧
      (∀ t < 16, Spec.back (ws.map (· t)) 0 = - (-1 : ℝ) ^ n * n) ∧
      ∀ y, ys.getLast? = some y → |y.1| ^ 2 = ((n : ℝ) - 1) ^ 2 * (∑ t ∈ range 16, c.panL t) ^ 2 by
    obtain ⟨s, ys, ws, a, _, _, b⟩ := H
    exact ⟨s, ys, a, b⟩
  induction n with
  | zero => exact ⟨Rev.new, [], [], rfl, new_holds, fun t _ => by simp [back_nil], fun y hy => by simp at hy⟩
  | succ n ih =>
    obtain ⟨s, ys, ws, e, hs, hb, _⟩ := ih
    obtain ⟨s1, e1, ho, hs1⟩ := C92_reverb_sample hs c (fun _ _ => by show (0 : Nat) < _; norm_num) le_rfl (by show (0:Int) < _; norm_num) (.inl rfl) ((-1 : ℝ) ^ n) ((-1 : ℝ) ^ n)
    have ht : ∀ t < 16, Spec.taps ws c s.out t = - (-1 : ℝ) ^ n * n := by
      intro t ht
      unfold Spec.taps
      rw [if_pos ht, show c.damp = 0 from rfl, show c.time t = 0 from rfl, Nat.zero_div, hb t ht]
      ring
    have hsum : Spec.sum16 (Spec.taps ws c s.out) = 16 * (- (-1 : ℝ) ^ n * n) := by
      rw [sum16_eq, sum_congr rfl fun t h => ht t (mem_range.mp h), sum_const, card_range, nsmul_eq_mul]
      norm_num
    refine ⟨s1, ys ++ [(mixdown (Spec.taps ws c s.out) c.panL, mixdown (Spec.taps ws c s.out) c.panR)], _, ?_,
      by simpa [List.range_succ] using hs1, ?_, ?_⟩
    · rw [List.range_succ, List.map_append, run_append, e, Res.ok_bind]
      show ((step c s _ _ >>= fun q => Res.ok (q.1, [q.2])) >>= _) = _
      rw [e1]
      rfl
    · intro t h16
      rw [List.map_append, List.map_cons, List.map_nil, (back_append _ _ 0).1]
      dsimp only
      rw [hfb, hsum, ht t h16, show c.predelay.toNat = 0 from rfl, (back_append _ _ 0).1]
      show (1 : ℝ) * ((-2 / 16 : ℝ) * _ + (1 / 2 : ℝ) * _ + _) = _
      rw [pow_succ]
      push_cast
      ring
    · intro y hy
      rw [List.getLast?_append] at hy
      simp only [List.getLast?_singleton, Option.some_or, Option.some.injEq] at hy
      subst hy
      dsimp only
      rw [mixdown_eq, sum_congr rfl fun t h => by rw [ht t (mem_range.mp h)], ← mul_sum, abs_mul, mul_pow, sq_abs, sq_abs, mul_pow, neg_sq, ← pow_mul, mul_comm n 2, pow_mul]
      push_cast
      norm_num

/-- C91, the other exception: at damping 1 the taps keep their values for ever, so a sound that is in them when the damping is raised
stays as a constant offset. -/
theorem C91_damping_one_freezes {ws : List (Nat → ℝ)} {ps : List ℝ} {s : Rev ℝ} (h : s.Holds ws ps) (c : Ctl ℝ)
    (ht : ∀ t < 16, c.time t < 2 ^ 23) (h0 : 0 ≤ c.predelay) (h1 : c.predelay < 32768) (hw : c.checked = false) (hd : c.damp = 1) (l r : ℝ) :
    ∃ s', step c s l r = .ok (s', mixdown s.out c.panL, mixdown s.out c.panR) ∧ s'.out = s.out := by
  have e : Spec.taps ws c s.out = s.out := by
    funext t
    unfold Spec.taps
    split_ifs
    · rw [hd]; ring
    · rfl
  obtain ⟨s', e1, ho, _⟩ := C92_reverb_sample h c ht h0 h1 (.inl hw) l r
  rw [e] at e1 ho
  exact ⟨s', e1, ho⟩

/-- C93. In a build that wraps, a predelay of `P` samples reads the input of `P mod 32768` samples ago: predelays of more than 32767
samples, which the parameter allows (up to 32 seconds), come back too early. -/
theorem C93_long_predelay_wraps {K : Type} [Add K] [Mul K] [Sub K] [Zero K] [One K] [Lits K] (c : Ctl K) (hc : c.checked = false) (pos : Nat) (hp : pos < 32768) (h0 : 0 ≤ c.predelay)
    (h1 : c.predelay < 2 ^ 31) : preIdx c pos = preIdx { c with predelay := c.predelay % 32768 } pos := by
  rw [preIdx_ok c pos hp h0 h1 (.inl hc), preIdx_ok { c with predelay := c.predelay % 32768 } pos hp (by dsimp only; omega) (by dsimp only; omega) (.inl hc)]
  dsimp only
  rw [Int.sub_emod_emod]

/-- The hypotheses are met: default damping and decay at 44.1 kHz, preset A at half room size, predelay 2756. -/
example : ∃ ρ : ℝ, ρ < 1 ∧ Spec.Decays (settings (fun t => (presetTimes[0]!)[t]!) 44100 1 (1 / 5) 2756 false) ρ :=
  C91_settings_decay _ (by decide +kernel) (by norm_num) 1 (by norm_num) (by norm_num) _ _

/-- The first sample of a checked build with the default predelay panics. -/
example (l r : ℝ) : step (settings (fun t => (presetTimes[0]!)[t]!) 44100 1 (1 / 5) 2756 true) Rev.new l r = .panic "attempt to subtract with overflow" :=
  C93_predelay_panics new_holds _ (by
    have : ∀ t < 16, (presetTimes[0]!)[t]! < 2 ^ 23 := by decide +kernel
    exact this) rfl (by show (2756:Int) < _; norm_num) (by show _ < (2756:Int); norm_num) l r

end Verif.Reverb
