import Verif.Delay.ReverbClaims
/-!
# The reverb under automation (C91)

`Verif.Delay.ReverbClaims` bounds the reverb for fixed settings. Here the decay time (feedback gains), the predelay and the pan gains
may be different at every sample; room size (delay times) and damping stay fixed.
-/
namespace Verif.Reverb
open Verif Finset

/-- The predelayed input at sample `i` of an automated run: the mean of the two channels as many samples ago as the predelay setting
of sample `i` says; silence before the start. -/
noncomputable def Spec.fed (xs : List (Ctl ℝ × ℝ × ℝ)) (i : Nat) : ℝ :=
  match xs[i]? with
  | none => 0
  | some x => if x.1.predelay.toNat ≤ i then
      match xs[i - x.1.predelay.toNat]? with
      | none => 0
      | some y => (y.2.1 + y.2.2) / 2
    else 0

/-- What the reverb can hold at sample `n` of an automated run: every earlier predelayed input, decayed by `ρ` per sample since. -/
noncomputable def Spec.level (ρ : ℝ) (xs : List (Ctl ℝ × ℝ × ℝ)) (n : Nat) : ℝ :=
  4 * ∑ i ∈ range n, ρ ^ (n - i) * |Spec.fed xs i|

/-- The settings of one sample of an automated run: delay times `time` (room size) and damping `d` as everywhere in the run, feedback
gains that allow decay by `ρ`, a predelay the ring can hold, a build that wraps. Pan gains are free. -/
structure Spec.Automated (time : Nat → Nat) (d ρ : ℝ) (c : Ctl ℝ) : Prop where
  time : ∀ t < 16, c.time t = time t
  damp : c.damp = d
  decays : Spec.Decays c ρ
  pre0 : 0 ≤ c.predelay
  pre1 : c.predelay < 32768
  wraps : c.checked = false

theorem fed_append {xs : List (Ctl ℝ × ℝ × ℝ)} {x : Ctl ℝ × ℝ × ℝ} {i : Nat} (hi : i < xs.length) :
    Spec.fed (xs ++ [x]) i = Spec.fed xs i := by
  unfold Spec.fed
  rw [List.getElem?_append_left hi]
  cases xs[i]? with
  | none => rfl
  | some y => dsimp only; rw [List.getElem?_append_left (by omega)]

theorem level_append (ρ : ℝ) (xs : List (Ctl ℝ × ℝ × ℝ)) (x : Ctl ℝ × ℝ × ℝ) {n : Nat} (hn : n ≤ xs.length) :
    Spec.level ρ (xs ++ [x]) n = Spec.level ρ xs n := by
  unfold Spec.level
  congr 1
  apply sum_congr rfl
  intro i hi
  rw [fed_append (by have := mem_range.mp hi; omega)]

theorem level_nonneg {ρ : ℝ} (h : 0 ≤ ρ) (xs : List (Ctl ℝ × ℝ × ℝ)) (n : Nat) : 0 ≤ Spec.level ρ xs n :=
  mul_nonneg (by norm_num) (sum_nonneg fun i _ => mul_nonneg (pow_nonneg h _) (abs_nonneg _))

theorem level_succ (ρ : ℝ) (xs : List (Ctl ℝ × ℝ × ℝ)) (n : Nat) :
    Spec.level ρ xs (n + 1) = ρ * (Spec.level ρ xs n + 4 * |Spec.fed xs n|) := by
  unfold Spec.level
  rw [sum_range_succ, mul_add, show n + 1 - n = 1 by omega, pow_one]
  have : ∑ i ∈ range n, ρ ^ (n + 1 - i) * |Spec.fed xs i| = ρ * ∑ i ∈ range n, ρ ^ (n - i) * |Spec.fed xs i| := by
    rw [mul_sum]
    apply sum_congr rfl
    intro i hi
    have := mem_range.mp hi
    rw [show n + 1 - i = (n - i) + 1 by omega, pow_succ]; ring
  rw [this]; ring

theorem fed_last (xs : List (Ctl ℝ × ℝ × ℝ)) (x : Ctl ℝ × ℝ × ℝ) :
    Spec.fed (xs ++ [x]) xs.length =
      Spec.back ((xs.map fun y => (Lits.half * (y.2.1 + y.2.2) : ℝ)) ++ [Lits.half * (x.2.1 + x.2.2)]) x.1.predelay.toNat := by
  have e : (xs.map fun y => (Lits.half * (y.2.1 + y.2.2) : ℝ)) ++ [Lits.half * (x.2.1 + x.2.2)]
      = (xs ++ [x]).map fun y => (Lits.half * (y.2.1 + y.2.2) : ℝ) := by simp
  rw [e]
  unfold Spec.fed Spec.back
  rw [List.getElem?_append_right le_rfl, Nat.sub_self]
  dsimp only [List.getElem?_cons_zero]
  rw [← List.map_reverse, List.getElem?_map]
  by_cases h : x.1.predelay.toNat ≤ xs.length
  · rw [if_pos h, List.getElem?_reverse (by simp; omega)]
    have e2 : (xs ++ [x]).length - 1 - x.1.predelay.toNat = xs.length - x.1.predelay.toNat := by simp
    rw [e2]
    have hlt : xs.length - x.1.predelay.toNat < (xs ++ [x]).length := by simp; try omega
    rw [List.getElem?_eq_getElem hlt]
    show _ = (1 / 2 : ℝ) * _
    ring
  · rw [if_neg h, List.getElem?_eq_none (by simp; omega)]
    rfl

theorem energy_congr {c c' : Ctl ℝ} (ρ : ℝ) (hd : c.damp = c'.damp) (ht : ∀ t < 16, c.time t = c'.time t) (ws : List (Nat → ℝ)) (out : Nat → ℝ) :
    energy c ρ ws out = energy c' ρ ws out := by
  unfold energy
  apply sum_congr rfl
  intro t h
  rw [hd, ht t (mem_range.mp h)]

/-- C91. With the decay time, the predelay and the pan gains set anew at every sample — room size and damping fixed, and the settings
of every sample allowing decay by `ρ` — every run returns, and each output sample is bounded by the root sum of squares of the pan gains
of its sample times four times the sum of all earlier predelayed inputs, each decayed by `ρ` per sample since it was fed in. -/
theorem C91_automated_envelope {time : Nat → Nat} {d ρ : ℝ} (ht : ∀ t < 16, time t < 2 ^ 23) (xs : List (Ctl ℝ × ℝ × ℝ))
    (hx : ∀ x ∈ xs, Spec.Automated time d ρ x.1) :
    ∃ s ys, run xs Rev.new = .ok (s, ys) ∧ ys.length = xs.length ∧
      ∀ (n : Nat) (x : Ctl ℝ × ℝ × ℝ) (y : ℝ × ℝ), xs[n]? = some x → ys[n]? = some y →
        y.1 ^ 2 ≤ (∑ t ∈ range 16, x.1.panL t ^ 2) * Spec.level ρ xs n ^ 2 ∧
        y.2 ^ 2 ≤ (∑ t ∈ range 16, x.1.panR t ^ 2) * Spec.level ρ xs n ^ 2 := by
  suffices H : ∃ s ys ws, run xs Rev.new = .ok (s, ys) ∧ ys.length = xs.length ∧ ws.length = xs.length ∧
      s.Holds ws (xs.map fun x => Lits.half * (x.2.1 + x.2.2)) ∧
      (∀ c : Ctl ℝ, Spec.Automated time d ρ c → ∃ M, 0 ≤ M ∧ ρ * M = Spec.level ρ xs xs.length ∧ energy c ρ ws s.out ≤ M ^ 2) ∧
      ∀ (n : Nat) (x : Ctl ℝ × ℝ × ℝ) (y : ℝ × ℝ), xs[n]? = some x → ys[n]? = some y →
        y.1 ^ 2 ≤ (∑ t ∈ range 16, x.1.panL t ^ 2) * Spec.level ρ xs n ^ 2 ∧
        y.2 ^ 2 ≤ (∑ t ∈ range 16, x.1.panR t ^ 2) * Spec.level ρ xs n ^ 2 by
    obtain ⟨s, ys, ws, a, b, _, _, _, f⟩ := H
    exact ⟨s, ys, a, b, f⟩
  induction xs using List.reverseRecOn with
  | nil =>
    refine ⟨Rev.new, [], [], rfl, rfl, rfl, new_holds, ?_, ?_⟩
    · intro c hc
      refine ⟨0, le_rfl, ?_, ?_⟩
      · unfold Spec.level; simp
      · unfold energy lineEnergy
        simp [Rev.new, back_nil]
    · intro n x y hn; simp at hn
  | append_singleton xs x ih =>
    obtain ⟨s, ys, ws, e, hy, hwl, hs, hE, hb⟩ := ih fun x h => hx x (List.mem_append_left _ h)
    have hc := hx x (by simp)
    obtain ⟨c, l, r⟩ := x
    dsimp only at hc
    have hρ : 0 ≤ ρ := by linarith [hc.decays.d0, hc.decays.dr]
    obtain ⟨s1, e1, ho, hs1⟩ := C92_reverb_sample hs c (fun t h => by rw [hc.time t h]; exact ht t h) hc.pre0 hc.pre1 (.inl hc.wraps) l r
    obtain ⟨M, hM, hML, hEM⟩ := hE c hc
    have hfl := fed_last xs (c, l, r)
    have := energy_step hc.decays ws s.out (Spec.back ((xs.map fun x => (Lits.half * (x.2.1 + x.2.2) : ℝ)) ++ [Lits.half * (l + r)]) c.predelay.toNat) hM hEM
    dsimp only at this
    obtain ⟨hO, hE'⟩ := this
    have hpan : ∀ pan : Nat → ℝ, mixdown (Spec.taps ws c s.out) pan ^ 2 ≤
        (∑ t ∈ range 16, pan t ^ 2) * Spec.level ρ xs xs.length ^ 2 := by
      intro pan
      rw [mixdown_eq, ← hML]
      have h2 := sum_mul_sq_le_sq_mul_sq (range 16) (Spec.taps ws c s.out) pan
      have h3 : 0 ≤ ∑ t ∈ range 16, pan t ^ 2 := sum_nonneg fun t _ => sq_nonneg _
      nlinarith
    refine ⟨s1, ys ++ [(mixdown (Spec.taps ws c s.out) c.panL, mixdown (Spec.taps ws c s.out) c.panR)],
      ws ++ [fun t => c.fb t * (Lits.ca * Spec.sum16 (Spec.taps ws c s.out) +
        Spec.back ((xs.map fun x => (Lits.half * (x.2.1 + x.2.2) : ℝ)) ++ [Lits.half * (l + r)]) c.predelay.toNat + Spec.taps ws c s.out t)],
      ?_, by simp [hy], ?_, ?_, ?_, ?_⟩
    · rw [run_append, e, Res.ok_bind]
      show ((step c s l r >>= fun q => Res.ok (q.1, [q.2])) >>= _) = _
      rw [e1]
      rfl
    · simp [hwl]
    · simpa using hs1
    · intro c' hc'
      refine ⟨ρ * M + 4 * |Spec.fed (xs ++ [(c, l, r)]) xs.length|, by positivity, ?_, ?_⟩
      · rw [List.length_append, List.length_singleton, level_succ, level_append _ _ _ le_rfl, hML]
      · rw [energy_congr ρ (hc'.damp.trans hc.damp.symm) (fun t h => (hc'.time t h).trans (hc.time t h).symm), ho, hfl]
        exact hE'
    · intro n x y hxn hn
      rcases Nat.lt_or_ge n ys.length with hlt | hge
      · rw [List.getElem?_append_left hlt] at hn
        rw [List.getElem?_append_left (by omega)] at hxn
        rw [level_append _ _ _ (by omega)]
        exact hb n x y hxn hn
      · rw [List.getElem?_append_right hge] at hn
        have hn0 : n - ys.length = 0 := by
          by_contra hne
          rw [List.getElem?_eq_none (by simp; omega)] at hn
          simp at hn
        rw [hn0] at hn
        rw [List.getElem?_append_right (by omega), show n - xs.length = 0 by omega] at hxn
        simp only [List.getElem?_cons_zero, Option.some.injEq] at hn hxn
        have hn' : n = xs.length := by omega
        subst hn hxn
        rw [hn', level_append _ _ _ le_rfl]
        exact ⟨hpan _, hpan _⟩

theorem fed_le {xs : List (Ctl ℝ × ℝ × ℝ)} {P : ℝ} (hP : 0 ≤ P) (hp : ∀ x ∈ xs, |x.2.1| ≤ P ∧ |x.2.2| ≤ P) (i : Nat) : |Spec.fed xs i| ≤ P := by
  unfold Spec.fed
  cases xs[i]? with
  | none => simpa using hP
  | some x =>
    dsimp only
    split_ifs
    · cases hq : xs[i - x.1.predelay.toNat]? with
      | none => simpa using hP
      | some y =>
        have := hp y (List.mem_of_getElem? hq)
        dsimp only
        rw [abs_div, abs_two, div_le_iff₀ (by norm_num)]
        linarith [abs_add_le y.2.1 y.2.2, this.1, this.2]
    · simpa using hP

theorem level_le {ρ P : ℝ} (h0 : 0 ≤ ρ) (h1 : ρ < 1) {xs : List (Ctl ℝ × ℝ × ℝ)} (hP : 0 ≤ P) (hp : ∀ x ∈ xs, |x.2.1| ≤ P ∧ |x.2.2| ≤ P) (n : Nat) :
    Spec.level ρ xs n ≤ 4 * P * ρ / (1 - ρ) := by
  have hq : 0 < 1 - ρ := by linarith
  induction n with
  | zero => unfold Spec.level; simp only [range_zero, sum_empty, mul_zero]; positivity
  | succ n ih =>
    rw [level_succ]
    calc ρ * (Spec.level ρ xs n + 4 * |Spec.fed xs n|) ≤ ρ * (4 * P * ρ / (1 - ρ) + 4 * P) :=
          mul_le_mul_of_nonneg_left (by linarith [fed_le hP hp n]) h0
      _ = 4 * P * ρ / (1 - ρ) := by field_simp; ring

/-- C91. Bounded input gives bounded output under any automation of decay time, predelay and pan, with a bound that does not depend on
the length of the run. -/
theorem C91_automated_bounded {time : Nat → Nat} {d ρ : ℝ} (hρ : ρ < 1) (ht : ∀ t < 16, time t < 2 ^ 23) (xs : List (Ctl ℝ × ℝ × ℝ))
    (hx : ∀ x ∈ xs, Spec.Automated time d ρ x.1) {P : ℝ} (hP : 0 ≤ P) (hp : ∀ x ∈ xs, |x.2.1| ≤ P ∧ |x.2.2| ≤ P) :
    ∃ s ys, run xs Rev.new = .ok (s, ys) ∧ ys.length = xs.length ∧
      ∀ (n : Nat) (x : Ctl ℝ × ℝ × ℝ) (y : ℝ × ℝ), xs[n]? = some x → ys[n]? = some y →
        y.1 ^ 2 ≤ (∑ t ∈ range 16, x.1.panL t ^ 2) * (4 * P * ρ / (1 - ρ)) ^ 2 ∧
        y.2 ^ 2 ≤ (∑ t ∈ range 16, x.1.panR t ^ 2) * (4 * P * ρ / (1 - ρ)) ^ 2 := by
  obtain ⟨s, ys, e, hl, h⟩ := C91_automated_envelope ht xs hx
  refine ⟨s, ys, e, hl, ?_⟩
  intro n x y hxn hyn
  have hc := hx x (List.mem_of_getElem? hxn)
  have h0 : 0 ≤ ρ := by linarith [hc.decays.d0, hc.decays.dr]
  have hsq : Spec.level ρ xs n ^ 2 ≤ (4 * P * ρ / (1 - ρ)) ^ 2 := pow_le_pow_left₀ (level_nonneg h0 _ _) (level_le h0 hρ hP hp n) 2
  have := h n x y hxn hyn
  exact ⟨this.1.trans (mul_le_mul_of_nonneg_left hsq (sum_nonneg fun t _ => sq_nonneg _)),
    this.2.trans (mul_le_mul_of_nonneg_left hsq (sum_nonneg fun t _ => sq_nonneg _))⟩

/-- C91. Automation of decay time and predelay with the pan gains of the code: for a room of fixed size (every delay time at least one
unit and below 2^23), a fixed damping below 1 and decay settings in any bounded range, one bound holds for every run, however long and
however often the decay and the predelay are changed. -/
theorem C91_automated_settings (time : Nat → Nat) (ht : ∀ t < 16, 1 ≤ time t) (ht' : ∀ t < 16, time t < 2 ^ 23) {sr : ℝ} (hs : 0 < sr)
    (dmax : ℝ) {damp : ℝ} (d0 : 0 ≤ damp) (d1 : damp < 1) {P : ℝ} (hP : 0 ≤ P) :
    ∃ B, ∀ xs : List (ℝ × Int × ℝ × ℝ), (∀ x ∈ xs, x.1 ≤ dmax ∧ 0 ≤ x.2.1 ∧ x.2.1 < 32768 ∧ |x.2.2.1| ≤ P ∧ |x.2.2.2| ≤ P) →
      ∃ s ys, run (xs.map fun x => (settings time sr x.1 damp x.2.1 false, x.2.2.1, x.2.2.2)) Rev.new = .ok (s, ys) ∧
        ys.length = xs.length ∧ ∀ y ∈ ys, |y.1| ≤ B ∧ |y.2| ≤ B := by
  set b : ℝ := (10 : ℝ) ^ (0.05 * -60 : ℝ) with hb
  have hb0 : 0 < b := Real.rpow_pos_of_pos (by norm_num) _
  have hb1 : b < 1 := Real.rpow_lt_one_of_one_lt_of_neg (by norm_num) (by norm_num)
  have hk : 0 < 256 * sr * (2 : ℝ) ^ dmax := by
    have := Real.rpow_pos_of_pos (show (0:ℝ) < 2 by norm_num) dmax
    positivity
  obtain ⟨γ, hγ⟩ : ∃ γ : ℝ, γ = b ^ (1 / (256 * sr * (2 : ℝ) ^ dmax)) := ⟨_, rfl⟩
  have g0 : 0 ≤ γ := hγ ▸ Real.rpow_nonneg hb0.le _
  have g1 : γ < 1 := hγ ▸ Real.rpow_lt_one hb0.le hb1 (by positivity)
  obtain ⟨ρ, hρ⟩ : ∃ ρ : ℝ, ρ = 1 - (1 - γ) * (1 - damp) / (2 + (∑ t ∈ range 16, time t : Nat)) := ⟨_, rfl⟩
  have key : ∀ decay ≤ dmax, ∀ pre : Int, Spec.Decays (settings time sr decay damp pre false) ρ ∧ ρ < 1 := by
    intro decay hd pre
    rw [hρ]
    have hkd : 0 < 256 * sr * (2 : ℝ) ^ decay := by
      have := Real.rpow_pos_of_pos (show (0:ℝ) < 2 by norm_num) decay
      positivity
    refine C91_decays (settings time sr decay damp pre false) d0 d1 g0 g1 ?_ ?_
    · intro t h16
      show |fbOf sr decay (time t)| ≤ _
      unfold fbOf
      rw [← hb, abs_of_pos (Real.rpow_pos_of_pos hb0 _), hγ]
      apply Real.rpow_le_rpow_of_exponent_ge hb0 hb1.le
      have h1 : (1 : ℝ) ≤ time t := by exact_mod_cast ht t h16
      have h2 : (2 : ℝ) ^ decay ≤ 2 ^ dmax := Real.rpow_le_rpow_of_exponent_le (by norm_num) hd
      have h3 : 256 * sr * (2 : ℝ) ^ decay ≤ 256 * sr * (2 : ℝ) ^ dmax := mul_le_mul_of_nonneg_left h2 (by positivity)
      exact div_le_div₀ (by linarith) h1 hkd h3
    · intro t h16
      have h2 : time t ≤ ∑ t ∈ range 16, time t := single_le_sum (f := time) (fun i _ => Nat.zero_le _) (mem_range.mpr h16)
      show time t / 256 ≤ _
      omega
  have hρ1 : ρ < 1 := (key dmax le_rfl 0).2
  have hρ0 : 0 ≤ ρ := by have := (key dmax le_rfl 0).1; linarith [this.d0, this.dr]
  have hB : 0 ≤ 4 * P * ρ / (1 - ρ) := div_nonneg (by positivity) (by linarith)
  refine ⟨3 * (4 * P * ρ / (1 - ρ)), ?_⟩
  intro xs hx
  obtain ⟨s, ys, e, hl, h⟩ := C91_automated_bounded (time := time) (d := damp) (ρ := ρ) hρ1 ht'
    (xs.map fun x => (settings time sr x.1 damp x.2.1 false, x.2.2.1, x.2.2.2)) (by
      intro x hm
      obtain ⟨q, hq, rfl⟩ := List.mem_map.mp hm
      have := hx q hq
      exact ⟨fun _ _ => rfl, rfl, (key q.1 this.1 q.2.1).1, this.2.1, this.2.2.1, rfl⟩) hP (by
      intro x hm
      obtain ⟨q, hq, rfl⟩ := List.mem_map.mp hm
      exact (hx q hq).2.2.2)
  refine ⟨s, ys, e, by simpa using hl, ?_⟩
  intro y hy
  obtain ⟨n, hn⟩ := List.mem_iff_getElem?.mp hy
  have hlt : n < xs.length := by
    by_contra hc
    rw [List.getElem?_eq_none (by rw [hl]; simp; omega)] at hn
    simp at hn
  have := h n _ y (by rw [List.getElem?_map, List.getElem?_eq_getElem hlt]; rfl) hn
  have hp := C91_pan_power time sr (xs[n]).1 damp (xs[n]).2.1 false
  dsimp only at this
  rw [hp.2.1, hp.2.2] at this
  constructor
  · apply abs_le_of_sq_le_sq _ (by positivity)
    nlinarith [this.1, sq_nonneg (4 * P * ρ / (1 - ρ))]
  · apply abs_le_of_sq_le_sq _ (by positivity)
    nlinarith [this.2, sq_nonneg (4 * P * ρ / (1 - ρ))]

/-- The hypotheses are met: preset A at 44.1 kHz, damping 1/5, decay settings up to 6. -/
example : ∃ B : ℝ, ∀ xs : List (ℝ × Int × ℝ × ℝ), (∀ x ∈ xs, x.1 ≤ 6 ∧ 0 ≤ x.2.1 ∧ x.2.1 < 32768 ∧ |x.2.2.1| ≤ 1 ∧ |x.2.2.2| ≤ 1) →
      ∃ s ys, run (xs.map fun x => (settings (fun t => (presetTimes[0]!)[t]!) 44100 x.1 (1 / 5) x.2.1 false, x.2.2.1, x.2.2.2)) Rev.new = .ok (s, ys) ∧
        ys.length = xs.length ∧ ∀ y ∈ ys, |y.1| ≤ B ∧ |y.2| ≤ B :=
  C91_automated_settings _ (by decide +kernel) (by decide +kernel) (by norm_num) 6 (by norm_num) (by norm_num) (by norm_num)

end Verif.Reverb
