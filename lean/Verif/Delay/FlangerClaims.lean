import Verif.Delay.FlangerProps
import Verif.Fx.ChainProps
/-!
# The flanger cannot blow up (C89), its oscillators and weights (C90)
-/
namespace Verif.Flanger
open Verif Verif.Float Verif.Tables Verif.Dsp

/-! ## Specification -/

/-- An `f32` number between `a` and `b`. -/
abbrev Spec.Between := Lfo.Spec.Between

/-- The signal `xs` delayed by `d` samples, linearly interpolated. -/
def Spec.delayed (xs : List F32) (d : ℚ) : F32 :=
  F32.add (F32.mul (Spec.back xs (⌊d⌋.toNat + 1)) (.fin (d - ⌊d⌋)))
    (F32.mul (Spec.back xs ⌊d⌋.toNat) (F32.sub (.fin 1) (.fin (d - ⌊d⌋))))

/-- The weighted sum of the delayed signals; only positive weights count. -/
def Spec.combs (xs : List F32) (cs : List (ℚ × ℚ)) : F32 :=
  (cs.filter (fun c => decide (0 < c.1))).foldl (fun acc c => F32.add acc (F32.mul (.fin c.1) (Spec.delayed xs c.2))) (.fin 0)

/-- Limit to the unit interval, then `(3 x - x^3) / 2`. -/
def Spec.softclip (x : F32) : F32 :=
  let y := limitRange x (.fin (-1)) (.fin 1)
  F32.sub (F32.mul (.fin (3 / 2)) y) (F32.mul (F32.mul (F32.mul (.fin (1 / 2)) y) y) y)

/-! ## C89 -/

theorem ofQ_isF32 {q r : ℚ} (h : F32.ofQ q = .fin r) : Param.Spec.IsF32 r := by
  unfold F32.ofQ at h
  split at h
  · cases h
  · split at h
    · cases h
    · cases h; exact rne_idem q

theorem mul_isF32 {a b : F32} {r : ℚ} (h : F32.mul a b = .fin r) : Param.Spec.IsF32 r := by
  cases a <;> cases b <;> simp only [F32.mul] at h
  all_goals first
    | exact ofQ_isF32 h
    | cases h
    | (unfold F32.infOf at h; split at h; · cases h
       split at h <;> cases h)

/-- A product limited to the unit interval is an `f32` number in it, even from NaN or an infinity. -/
theorem limit_mul (a b : F32) : Spec.Between (-1) 1 (limitRange (F32.mul a b) (.fin (-1)) (.fin 1)) := by
  obtain ⟨h1, h2, h3⟩ := C61_limit_range (F32.mul a b) (lo := -1) (hi := 1) (by norm_num)
  obtain ⟨q, e, q0, q1⟩ := h1
  refine ⟨q, e, ?_, q0, q1⟩
  have one : Param.Spec.IsF32 1 := by unfold Param.Spec.IsF32; decide +kernel
  have mone : Param.Spec.IsF32 (-1) := by unfold Param.Spec.IsF32; decide +kernel
  cases hm : F32.mul a b with
  | nan => rw [hm, h3] at e; cases e; exact mone
  | pinf => rw [hm] at e; simp [limitRange, maxSs, minSs, F32.lt] at e; rw [← e]; exact one
  | ninf => rw [hm] at e; simp [limitRange, maxSs, minSs, F32.lt] at e; rw [← e]; exact mone
  | fin p =>
    have ip := mul_isF32 hm
    have := h2 p hm
    rw [e] at this
    cases this
    unfold Dsp.Spec.clamp
    split
    · exact mone
    · split
      · exact one
      · exact ip

theorem cubic_between {x : F32} (h : Spec.Between (-1) 1 x) : Spec.Between (-1) 1 (cubic x) := by
  obtain ⟨q, rfl, i, a, b⟩ := h
  obtain ⟨y, e, iy, hy⟩ := cubic_unit i (abs_le.mpr ⟨a, b⟩)
  exact ⟨y, e, iy, (abs_le.mp hy).1, (abs_le.mp hy).2⟩

/-- A rounded weighted mean of two numbers of the unit interval stays in it. -/
theorem mean_unit {l f d : ℚ} (id : Param.Spec.IsF32 d) (hl : |l| ≤ 1) (hf : |f| ≤ 1) (d0 : 0 ≤ d) (d1 : d ≤ 1) :
    |rne (l * rne (1 - d))| ≤ 1 ∧ |rne (f * d)| ≤ 1 ∧ |rne (rne (l * rne (1 - d)) + rne (f * d))| ≤ 1 := by
  have one : rne 1 = 1 := by decide +kernel
  have g0 : 0 ≤ rne (1 - d) := rne_nonneg (by linarith)
  have g1 : rne (1 - d) ≤ 1 := by have := rne_mono (show 1 - d ≤ 1 by linarith); rwa [one] at this
  have absle : ∀ {x b : ℚ}, Param.Spec.IsF32 b → |x| ≤ b → |rne x| ≤ b := by
    intro x b ib hx
    obtain ⟨h1, h2⟩ := abs_le.mp hx
    have a := rne_mono h1
    have c := rne_mono h2
    rw [rne_neg, show rne b = b from ib] at a
    rw [show rne b = b from ib] at c
    exact abs_le.mpr ⟨a, c⟩
  have p1 : |rne (l * rne (1 - d))| ≤ rne (1 - d) := absle (rne_idem _) (by
    rw [abs_mul, abs_of_nonneg g0]; nlinarith [abs_nonneg l])
  have p2 : |rne (f * d)| ≤ d := absle id (by rw [abs_mul, abs_of_nonneg d0]; nlinarith [abs_nonneg f])
  have e := (abs_le.mp (Adsr.ulp_small (x := 1 - d) (by rw [abs_of_nonneg (by linarith)]; linarith))).2
  refine ⟨by linarith, by linarith, ?_⟩
  have s : |rne (l * rne (1 - d)) + rne (f * d)| ≤ 1 + 1 / 2 ^ 24 := by
    have := abs_add_le (rne (l * rne (1 - d))) (rne (f * d))
    linarith
  obtain ⟨s1, s2⟩ := abs_le.mp s
  have t : rne (1 + 1 / 2 ^ 24) = 1 := by decide +kernel
  have a := rne_mono s1
  have b := rne_mono s2
  rw [rne_neg, t] at a
  rw [t] at b
  exact abs_le.mpr ⟨a, b⟩

/-- The damping filter and the feedback signal are bounded, whatever the combs deliver. -/
theorem feedback_bounded (c : Ctl) {lpa : F32} (comb : F32) (hl : Spec.Between (-1) 1 lpa) (hd : Spec.Between 0 1 c.damping) :
    Spec.Between (-1) 1 (feedbackOf c lpa comb).1 ∧ Spec.Between (-2) 2 (feedbackOf c lpa comb).2 := by
  unfold feedbackOf
  split
  · obtain ⟨fb, ef, jf, f0, f1⟩ := cubic_between (limit_mul c.feedback comb)
    obtain ⟨l, rfl, il, l0, l1⟩ := hl
    obtain ⟨d, ed, jd, d0, d1⟩ := hd
    obtain ⟨m1, m2, m3⟩ := mean_unit jd (abs_le.mpr ⟨l0, l1⟩) (abs_le.mpr ⟨f0, f1⟩) d0 d1
    dsimp only
    rw [ef, ed]
    have one : rne 1 = 1 := by decide +kernel
    have g0 : 0 ≤ rne (1 - d) := rne_nonneg (by linarith)
    have g1 : rne (1 - d) ≤ 1 := by have := rne_mono (show 1 - d ≤ 1 by linarith); rwa [one] at this
    have e : F32.add (F32.mul (.fin l) (F32.sub (.fin 1) (.fin d))) (F32.mul (.fin fb) (.fin d)) =
        .fin (rne (rne (l * rne (1 - d)) + rne (fb * d))) := by
      rw [Param.sub_fin (by norm_num) (by rw [abs_of_nonneg d0]; linarith [show (1:ℚ) ≤ 2 ^ 99 by norm_num]),
        Param.mul_fin, Param.mul_fin, Param.add_fin]
      · have := abs_add_le (rne (l * rne (1 - d))) (rne (fb * d))
        linarith [show (2:ℚ) ≤ 2 ^ 100 by norm_num]
      · rw [abs_mul, abs_of_nonneg d0]
        have := mul_le_mul (abs_le.mpr ⟨f0, f1⟩) d1 d0 (by norm_num)
        linarith [show (2:ℚ) ≤ 2 ^ 100 by norm_num]
      · rw [abs_mul, abs_of_nonneg g0]
        have := mul_le_mul (abs_le.mpr ⟨l0, l1⟩) g1 g0 (by norm_num)
        linarith [show (2:ℚ) ≤ 2 ^ 100 by norm_num]
    rw [e]
    obtain ⟨z0, z1⟩ := abs_le.mp m3
    have dz : |fb - rne (rne (l * rne (1 - d)) + rne (fb * d))| ≤ 2 ^ 1 := by
      rw [abs_le]; constructor <;> linarith
    obtain ⟨w0, w1⟩ := abs_le.mp (Param.rne_abs dz)
    refine ⟨⟨_, rfl, rne_idem _, z0, z1⟩, _, Param.sub_fin ?_ ?_, rne_idem _, by linarith, by linarith⟩
    · exact le_trans (abs_le.mpr ⟨f0, f1⟩) (by norm_num)
    · exact le_trans m3 (by norm_num)
  · exact ⟨hl, 0, rfl, rne_zero, by norm_num, by norm_num⟩

theorem sample_bounded {s : Chan} {c : Ctl} {x : F32} {s' : Chan} {v y : F32} (hl : Spec.Between (-1) 1 s.lpa)
    (hd : Spec.Between 0 1 c.damping) (h : s.sample c x = .ok (s', v, y)) :
    Spec.Between (-1) 1 s'.lpa ∧ Spec.Between (-1) 1 y ∧
    (∀ n : Nat, n ≤ 2 ^ 20 → Spec.Between (-n) n x → Spec.Between (-(n + 2)) (n + 2) v) := by
  unfold Chan.sample at h
  rw [Fx.bind_ok] at h
  obtain ⟨comb, -, h⟩ := h
  dsimp only at h
  rw [Fx.bind_ok] at h
  obtain ⟨ring, -, h⟩ := h
  cases h
  obtain ⟨b1, f, ef, jf, f0, f1⟩ := feedback_bounded c comb hl hd
  refine ⟨b1, cubic_between (limit_mul _ _), ?_⟩
  rintro n hn ⟨q, rfl, jq, q0, q1⟩
  rw [ef]
  have hn' : (n : ℚ) ≤ 2 ^ 20 := by exact_mod_cast hn
  have aq : |q| ≤ 2 ^ 20 := abs_le.mpr ⟨by linarith, by linarith⟩
  have af : |f| ≤ 2 := abs_le.mpr ⟨f0, f1⟩
  have rn : rne ((n : ℚ) + 2) = n + 2 := by
    have := rne_intCast ((n : ℤ) + 2) (by rw [abs_of_nonneg (by omega)]; omega)
    push_cast at this; exact this
  have u := rne_mono (show q - f ≤ (n : ℚ) + 2 by linarith)
  have l := rne_mono (show -((n : ℚ) + 2) ≤ q - f by linarith)
  rw [rn] at u
  rw [rne_neg, rn] at l
  exact ⟨_, Param.sub_fin (le_trans aq (by norm_num)) (le_trans af (by norm_num)), rne_idem _, l, u⟩

/-- C89. After any number of samples - inputs of any kind, NaN and infinities included, any weights, taps, feedback, mix and
gain, damping in [0, 1] - every output sample is a number in [-1, 1], the damping filter stays in [-1, 1], and an input sample
of at most `n` puts a sample of at most `n + 2` into the delay, whatever the delay held before. -/
theorem C89_flanger_bounded (hist : List (Ctl × F32)) (hd : ∀ p ∈ hist, Spec.Between 0 1 p.1.damping) {s' : Chan}
    {ys : List (F32 × F32)} (h : Chan.run hist Chan.new = .ok (s', ys)) :
    Spec.Between (-1) 1 s'.lpa ∧
    List.Forall₂ (fun (p : Ctl × F32) vy => Spec.Between (-1) 1 vy.2 ∧
      ∀ n : Nat, n ≤ 2 ^ 20 → Spec.Between (-n) n p.2 → Spec.Between (-(n + 2)) (n + 2) vy.1) hist ys := by
  have key : ∀ (hist : List (Ctl × F32)) (s : Chan), (∀ p ∈ hist, Spec.Between 0 1 p.1.damping) → Spec.Between (-1) 1 s.lpa →
      ∀ {s' ys}, Chan.run hist s = .ok (s', ys) → Spec.Between (-1) 1 s'.lpa ∧
        List.Forall₂ (fun (p : Ctl × F32) vy => Spec.Between (-1) 1 vy.2 ∧
          ∀ n : Nat, n ≤ 2 ^ 20 → Spec.Between (-n) n p.2 → Spec.Between (-(n + 2)) (n + 2) vy.1) hist ys := by
    intro hist
    induction hist with
    | nil => intro s _ hl s' ys h; cases h; exact ⟨hl, .nil⟩
    | cons p hist ih =>
      intro s hd hl s' ys h
      obtain ⟨c, x⟩ := p
      unfold Chan.run at h
      rw [Fx.bind_ok] at h
      obtain ⟨⟨s1, v, y⟩, h1, h⟩ := h
      dsimp only at h
      rw [Fx.bind_ok] at h
      obtain ⟨⟨s2, zs⟩, h2, h⟩ := h
      cases h
      obtain ⟨a, b, d⟩ := sample_bounded hl (hd _ List.mem_cons_self) h1
      obtain ⟨e, f⟩ := ih s1 (fun p hp => hd p (List.mem_cons_of_mem _ hp)) a h2
      exact ⟨e, .cons ⟨b, d⟩ f⟩
  exact key hist Chan.new hd ⟨0, rfl, rne_zero, by norm_num, by norm_num⟩ h

theorem value_returns {xs : List F32} {r : Ring} (h : r.Holds xs) (d : F32) (hd : -2 ^ 30 ≤ d.toI32) : ∃ y, r.value d = .ok y := by
  obtain ⟨hk, -⟩ := h
  have hlt : xs.length % 8192 < 8192 := Nat.mod_lt _ (by norm_num)
  have er : (ringSize : Int) = 8192 := rfl
  have tr := (toI32_range d).2
  have c1 : (chkI32 (r.k + (ringSize : Int)) : Res Empty Int) = .ok (r.k + ringSize) := by
    unfold chkI32; rw [if_pos (by omega)]
  have c2 : (chkI32 (r.k + (ringSize : Int) - d.toI32) : Res Empty Int) = .ok (r.k + ringSize - d.toI32) := by
    unfold chkI32; rw [if_pos (by omega)]
  have c3 : (chkI32 (r.k + (ringSize : Int) - d.toI32 - 1) : Res Empty Int) = .ok (r.k + ringSize - d.toI32 - 1) := by
    unfold chkI32; rw [if_pos (by omega)]
  unfold Ring.value
  dsimp only
  rw [c1]; simp only [Res.ok_bind]
  rw [c2]; simp only [Res.ok_bind]
  rw [c3]; simp only [Res.ok_bind]
  exact ⟨_, rfl⟩

/-- C89. The loop returns whenever no tap is below -2^30 (a tap is at least 1 when the depth and the oscillator are in
their ranges); the delay then holds exactly the pushed samples. -/
theorem C89_flanger_returns (hist : List (Ctl × F32)) (ht : ∀ p ∈ hist, ∀ wt ∈ p.1.combs, -2 ^ 30 ≤ wt.2.toI32) :
    ∃ s' ys, Chan.run hist Chan.new = .ok (s', ys) ∧ ys.length = hist.length ∧ s'.ring.Holds (ys.map Prod.fst) := by
  have comb : ∀ (cs : List (F32 × F32)) {xs : List F32} {r : Ring}, r.Holds xs → (∀ wt ∈ cs, -2 ^ 30 ≤ wt.2.toI32) →
      ∀ acc, ∃ y, combSum r cs acc = .ok y := by
    intro cs
    induction cs with
    | nil => intro xs r _ _ acc; exact ⟨acc, rfl⟩
    | cons wt cs ih =>
      intro xs r hr hc acc
      obtain ⟨w, t⟩ := wt
      unfold combSum
      split
      · obtain ⟨y, hy⟩ := value_returns hr t (hc _ List.mem_cons_self)
        rw [hy]; simp only [Res.ok_bind]
        exact ih hr (fun p hp => hc p (List.mem_cons_of_mem _ hp)) _
      · exact ih hr (fun p hp => hc p (List.mem_cons_of_mem _ hp)) _
  have key : ∀ (hist : List (Ctl × F32)) (xs : List F32) (s : Chan), s.ring.Holds xs →
      (∀ p ∈ hist, ∀ wt ∈ p.1.combs, -2 ^ 30 ≤ wt.2.toI32) →
      ∃ s' ys, Chan.run hist s = .ok (s', ys) ∧ ys.length = hist.length ∧ s'.ring.Holds (xs ++ ys.map Prod.fst) := by
    intro hist
    induction hist with
    | nil => intro xs s hr _; exact ⟨s, [], rfl, rfl, by simpa using hr⟩
    | cons p hist ih =>
      intro xs s hr hc
      obtain ⟨c, x⟩ := p
      obtain ⟨cb, hcb⟩ := comb c.combs hr (hc _ List.mem_cons_self) (.fin 0)
      obtain ⟨ring, hpush, hring⟩ := push_holds hr (F32.sub x (feedbackOf c s.lpa cb).2)
      obtain ⟨s', ys, h1, h2, h3⟩ := ih (xs ++ [F32.sub x (feedbackOf c s.lpa cb).2]) ⟨ring, (feedbackOf c s.lpa cb).1⟩ hring
        (fun p hp => hc p (List.mem_cons_of_mem _ hp))
      refine ⟨s', (F32.sub x (feedbackOf c s.lpa cb).2, outputOf c x cb) :: ys, ?_, ?_, ?_⟩
      · unfold Chan.run Chan.sample
        rw [hcb]; simp only [Res.ok_bind]
        rw [hpush]; simp only [Res.ok_bind]
        rw [h1]; rfl
      · simp [h2]
      · simpa using h3
  obtain ⟨s', ys, h1, h2, h3⟩ := key hist [] Chan.new new_holds ht
  exact ⟨s', ys, h1, h2, by simpa using h3⟩

theorem value_delayed {xs : List F32} {r : Ring} (h : r.Holds xs) {d : ℚ} (hd : Param.Spec.IsF32 d) (h0 : 0 ≤ d) (h1 : d < 8191) :
    r.value (.fin d) = .ok (Spec.delayed xs d) := by
  have ei : (F32.fin d).toI32 = ⌊d⌋ := Delay.toI32_fin h0 (lt_trans h1 (by norm_num))
  have f0 : 0 ≤ ⌊d⌋ := Int.floor_nonneg.mpr h0
  have f1 : ⌊d⌋ < 8191 := Int.floor_lt.mpr (by exact_mod_cast h1)
  rw [value_holds h (.fin d) (by omega) (by omega), ei, frac_exact hd h0 h1]
  rfl

/-- C89. One sample, for taps within the ring: the combs read the history of pushed samples; what is pushed is the input
minus the feedback; without feedback it is the input itself; the output is the soft-clipped mix. -/
theorem C89_sample {xs : List F32} {s : Chan} (h : s.ring.Holds xs) (c : Ctl) (cs : List (ℚ × ℚ))
    (hc : c.combs = cs.map (fun p => (F32.fin p.1, F32.fin p.2)))
    (hr : ∀ p ∈ cs, Param.Spec.IsF32 p.2 ∧ 0 ≤ p.2 ∧ p.2 < 8191) (x : F32) :
    ∃ s' v, s.sample c x = .ok (s', v,
        Spec.softclip (F32.mul (F32.add (.fin 1) c.gain) (F32.add (F32.mul c.dry x) (F32.mul c.mix (Spec.combs xs cs))))) ∧
      s'.ring.Holds (xs ++ [v]) ∧
      (F32.lt (.fin 0) c.feedback = false → v = F32.sub x (.fin 0) ∧ s'.lpa = s.lpa) ∧
      (F32.lt (.fin 0) c.feedback = true →
        let fb := Spec.softclip (F32.mul c.feedback (Spec.combs xs cs))
        s'.lpa = F32.add (F32.mul s.lpa (F32.sub (.fin 1) c.damping)) (F32.mul fb c.damping) ∧
        v = F32.sub x (F32.sub fb s'.lpa)) := by
  have comb : ∀ (cs : List (ℚ × ℚ)) (acc : F32), (∀ p ∈ cs, Param.Spec.IsF32 p.2 ∧ 0 ≤ p.2 ∧ p.2 < 8191) →
      combSum s.ring (cs.map (fun p => (F32.fin p.1, F32.fin p.2))) acc =
        .ok ((cs.filter (fun c => decide (0 < c.1))).foldl (fun acc c => F32.add acc (F32.mul (.fin c.1) (Spec.delayed xs c.2))) acc) := by
    intro cs
    induction cs with
    | nil => intro acc _; rfl
    | cons p cs ih =>
      intro acc hr
      obtain ⟨w, t⟩ := p
      obtain ⟨i, t0, t1⟩ := hr _ List.mem_cons_self
      simp only [List.map_cons]
      unfold combSum
      by_cases hw : 0 < w
      · rw [if_pos (by simp [F32.lt, hw]), value_delayed h i t0 t1]
        simp only [Res.ok_bind]
        rw [ih _ (fun p hp => hr p (List.mem_cons_of_mem _ hp)), List.filter_cons_of_pos (by simp [hw])]
        rfl
      · rw [if_neg (by simp [F32.lt, hw]), ih _ (fun p hp => hr p (List.mem_cons_of_mem _ hp)),
          List.filter_cons_of_neg (by simp [hw])]
  obtain ⟨ring, hp, hring⟩ := push_holds h (F32.sub x (feedbackOf c s.lpa (Spec.combs xs cs)).2)
  refine ⟨⟨ring, (feedbackOf c s.lpa (Spec.combs xs cs)).1⟩, F32.sub x (feedbackOf c s.lpa (Spec.combs xs cs)).2, ?_, hring, ?_, ?_⟩
  · unfold Chan.sample
    rw [hc, comb cs _ hr]
    simp only [Res.ok_bind]
    change (s.ring.push (F32.sub x (feedbackOf c s.lpa (Spec.combs xs cs)).2) >>= _) = _
    rw [hp]
    rfl
  · intro hf
    unfold feedbackOf
    rw [if_neg (by simp [hf])]
    exact ⟨rfl, rfl⟩
  · intro hf
    unfold feedbackOf
    rw [if_pos hf]
    exact ⟨rfl, rfl⟩

/-- Two samples of a full-scale signal through a new flanger with one comb at delay 1 and feedback: hypotheses met, and the
loop returns. -/
example : ∃ s' ys, Chan.run [(⟨[(.fin 1, .fin 1)], .fin (1 / 2), .fin (1 / 4), .fin 1, .fin (1 / 2), .fin 0⟩, .fin 1),
    (⟨[(.fin 1, .fin 1)], .fin (1 / 2), .fin (1 / 4), .fin 1, .fin (1 / 2), .fin 0⟩, .nan)] Chan.new = .ok (s', ys) ∧
    ys.map Prod.snd = [.fin 1, .fin (-1)] := by
  obtain ⟨s', ys, h, -⟩ := C89_flanger_returns [(⟨[(.fin 1, .fin 1)], .fin (1 / 2), .fin (1 / 4), .fin 1, .fin (1 / 2), .fin 0⟩, .fin 1),
    (⟨[(.fin 1, .fin 1)], .fin (1 / 2), .fin (1 / 4), .fin 1, .fin (1 / 2), .fin 0⟩, .nan)] (by decide +kernel)
  refine ⟨s', ys, h, ?_⟩
  have : (match Chan.run [(⟨[(.fin 1, .fin 1)], .fin (1 / 2), .fin (1 / 4), .fin 1, .fin (1 / 2), .fin 0⟩, .fin 1),
    (⟨[(.fin 1, .fin 1)], .fin (1 / 2), .fin (1 / 4), .fin 1, .fin (1 / 2), .fin 0⟩, .nan)] Chan.new with
    | .ok (_, ys) => ys.map Prod.snd | _ => []) = [.fin 1, .fin (-1)] := by decide +kernel
  rw [h] at this
  exact this

/-! ## C90: oscillators and weights -/

/-- C90. The position in the arpeggio stays in [0, 4) for every number of blocks with rates in [0, 4). -/
theorem C90_longphase (rates : List F32) (hr : ∀ r ∈ rates, ∃ q, r = .fin q ∧ Param.Spec.IsF32 q ∧ 0 ≤ q ∧ q < 4) :
    ∃ p, rates.foldl adjustLong (.fin 0) = .fin p ∧ Param.Spec.IsF32 p ∧ 0 ≤ p ∧ p < 4 := by
  have le4 : ∀ {q : ℚ}, Param.Spec.IsF32 q → q < 4 → q ≤ 4 - 1 / 2 ^ 22 := by
    intro q iq h
    rcases le_or_gt q 2 with h2 | h2
    · norm_num; linarith
    · -- a multiple of 2^-22
      have i4 : Param.Spec.IsF32 (q / 4) := by
        obtain ⟨n, e, hn, he, hv⟩ := rne_form q
        rw [show rne q = q from iq] at hv
        have he2 : -147 ≤ e := by
          by_contra hc
          have hz : (2:ℚ) ^ e ≤ 2 ^ (-148 : ℤ) := zpow_le_zpow_right₀ (by norm_num) (by omega)
          have hp : (0:ℚ) < 2 ^ e := zpow_pos (by norm_num) _
          have hn' : (n : ℚ) ≤ 2 ^ 24 := by have := (abs_le.mp hn).2; exact_mod_cast this
          have : q ≤ 2 ^ 24 * 2 ^ (-148 : ℤ) := by
            rw [hv]
            exact le_trans (mul_le_mul_of_nonneg_right hn' hp.le) (mul_le_mul_of_nonneg_left hz (by norm_num))
          norm_num at this
          linarith
        have := rne_mul_zpow n (e - 2) hn (by omega)
        have e2 : (n : ℚ) * 2 ^ (e - 2) = q / 4 := by rw [hv, zpow_sub₀ (by norm_num)]; norm_num; ring
        rwa [e2] at this
      obtain ⟨n, hn, n0, n1⟩ := upper_form i4 (by linarith) (by linarith)
      have : n ≤ 2 ^ 24 - 1 := by
        by_contra hc
        have : n = 2 ^ 24 := by omega
        rw [this] at hn; norm_num at hn; linarith
      have : (n : ℚ) ≤ 2 ^ 24 - 1 := by exact_mod_cast this
      norm_num at hn ⊢
      linarith
  have step : ∀ (p q : ℚ), Param.Spec.IsF32 p → 0 ≤ p → p < 4 → Param.Spec.IsF32 q → 0 ≤ q → q < 4 →
      ∃ p', adjustLong (.fin p) (.fin q) = .fin p' ∧ Param.Spec.IsF32 p' ∧ 0 ≤ p' ∧ p' < 4 := by
    intro p q ip p0 p4 iq q0 q4
    have e : F32.add (.fin p) (.fin q) = .fin (rne (p + q)) := Param.add_fin (by
      rw [abs_of_nonneg (by linarith)]; linarith [show (8:ℚ) ≤ 2 ^ 100 by norm_num])
    unfold adjustLong
    dsimp only
    rw [e]
    have s0 := rne_nonneg (show 0 ≤ p + q by linarith)
    have s8 := rne_mono (show p + q ≤ 8 - 1 / 2 ^ 21 by have := le4 ip p4; have := le4 iq q4; norm_num at *; linarith)
    rw [show rne (8 - 1 / 2 ^ 21) = 8 - 1 / 2 ^ 21 by decide +kernel] at s8
    by_cases h : 4 ≤ rne (p + q)
    · rw [if_pos (by
        unfold leF
        rcases h.lt_or_eq with h | h
        · simp [F32.lt, h]
        · simp [← h])]
      rw [Param.sub_fin (by rw [abs_of_nonneg s0]; norm_num at *; linarith) (by norm_num)]
      refine ⟨_, rfl, rne_idem _, rne_nonneg (by linarith), ?_⟩
      have := rne_mono (show rne (p + q) - 4 ≤ 4 - 1 / 2 ^ 21 by linarith)
      rw [show rne (4 - 1 / 2 ^ 21) = 4 - 1 / 2 ^ 21 by decide +kernel] at this
      norm_num at this ⊢
      linarith
    · rw [if_neg (by
        unfold leF
        simp [F32.lt, not_lt.mpr (not_le.mp h).le]
        intro h'; exact h (le_of_eq h'))]
      exact ⟨_, rfl, rne_idem _, s0, not_le.mp h⟩
  have key : ∀ (rates : List F32), (∀ r ∈ rates, ∃ q, r = .fin q ∧ Param.Spec.IsF32 q ∧ 0 ≤ q ∧ q < 4) → ∀ p0 : ℚ,
      Param.Spec.IsF32 p0 → 0 ≤ p0 → p0 < 4 →
      ∃ p, rates.foldl adjustLong (.fin p0) = .fin p ∧ Param.Spec.IsF32 p ∧ 0 ≤ p ∧ p < 4 := by
    intro rates
    induction rates with
    | nil => intro _ p0 i a b; exact ⟨p0, rfl, i, a, b⟩
    | cons r rates ih =>
      intro hr p0 i a b
      obtain ⟨q, rfl, iq, q0, q4⟩ := hr _ List.mem_cons_self
      obtain ⟨p', e, i', a', b'⟩ := step p0 q i a b iq q0 q4
      rw [List.foldl_cons, e]
      exact ih (fun r hr' => hr r (List.mem_cons_of_mem _ hr')) p' i' a' b'
  exact key rates hr 0 rne_zero (by norm_num) (by norm_num)

theorem isF32_one : Param.Spec.IsF32 1 := by unfold Param.Spec.IsF32; decide +kernel

/-- C90. The phase of a comb stays in [0, 1] for rates in [0, 1]. -/
theorem C90_phase {p r : F32} (hp : Spec.Between 0 1 p) (hr : Spec.Between 0 1 r) : Spec.Between 0 1 (advance p r).1 := by
  obtain ⟨p, rfl, ip, p0, p1⟩ := hp
  obtain ⟨r, rfl, ir, r0, r1⟩ := hr
  have e : F32.add (.fin p) (.fin r) = .fin (rne (p + r)) := Param.add_fin (by
    rw [abs_of_nonneg (by linarith)]; linarith [show (8:ℚ) ≤ 2 ^ 100 by norm_num])
  have s0 := rne_nonneg (show 0 ≤ p + r by linarith)
  have s2 := rne_mono (show p + r ≤ 2 by linarith)
  rw [show rne 2 = 2 by decide +kernel] at s2
  unfold advance
  dsimp only
  rw [e]
  by_cases h : 1 < rne (p + r)
  · rw [if_pos (by simp [F32.lt, h]), Param.sub_fin (by rw [abs_of_nonneg s0]; norm_num; linarith) (by norm_num)]
    have := rne_mono (show rne (p + r) - 1 ≤ 1 by linarith)
    rw [show rne 1 = 1 from isF32_one] at this
    exact ⟨_, rfl, rne_idem _, rne_nonneg (by linarith), this⟩
  · rw [if_neg (by simp [F32.lt, h])]
    exact ⟨_, rfl, rne_idem _, s0, not_lt.mp h⟩

/-- C90. For every phase in [0, 1) and every sine table with entries in [-1, 1] the oscillator returns a number in
[-1, 1] for all four waves (sample and hold: if the previous value and the random number are). -/
theorem C90_oscillator (T : Nat → F32) (hT : ∀ i, Spec.Between (-1) 1 (T i)) (w : Wave) {p : ℚ} (ip : Param.Spec.IsF32 p)
    (p0 : 0 ≤ p) (p1 : p < 1) (reset : Bool) {prev rnd : F32} (h1 : Spec.Between (-1) 1 prev) (h2 : Spec.Between (-1) 1 rnd) :
    ∃ y, lfoOut T w (.fin p) reset prev rnd = .ok y ∧ Spec.Between (-1) 1 y := by
  have one : rne 1 = 1 := isF32_one
  have mone : rne (-1) = -1 := by rw [rne_neg, one]
  have m2 : F32.mul (.fin 2) (.fin p) = .fin (rne (2 * p)) := Param.mul_fin (by
    rw [abs_of_nonneg (by linarith)]; linarith [show (8:ℚ) ≤ 2 ^ 100 by norm_num])
  have a0 := rne_nonneg (show 0 ≤ 2 * p by linarith)
  have a2 := rne_mono (show 2 * p ≤ 2 by linarith)
  rw [show rne 2 = 2 by decide +kernel] at a2
  have s1 : F32.sub (.fin (rne (2 * p))) (.fin 1) = .fin (rne (rne (2 * p) - 1)) := Param.sub_fin (by
    rw [abs_of_nonneg a0]; linarith [show (8:ℚ) ≤ 2 ^ 99 by norm_num]) (by norm_num)
  have b0 := rne_mono (show -1 ≤ rne (2 * p) - 1 by linarith)
  have b1 := rne_mono (show rne (2 * p) - 1 ≤ 1 by linarith)
  rw [mone] at b0
  rw [one] at b1
  cases w with
  | saw =>
    refine ⟨_, rfl, ?_⟩
    have : F32.mul (.fin p) (.fin 2) = F32.mul (.fin 2) (.fin p) := by simp [F32.mul, mul_comm]
    rw [this, m2, s1]
    exact ⟨_, rfl, rne_idem _, b0, b1⟩
  | snh => cases reset with
    | true => exact ⟨rnd, rfl, h2⟩
    | false => exact ⟨prev, rfl, h1⟩
  | tri =>
    refine ⟨_, rfl, ?_⟩
    rw [m2, s1]
    unfold absF
    dsimp only
    have c1 : |rne (rne (2 * p) - 1)| ≤ 1 := abs_le.mpr ⟨b0, b1⟩
    have c0 := abs_nonneg (rne (rne (2 * p) - 1))
    generalize |rne (rne (2 * p) - 1)| = z at c0 c1
    have d0 := rne_nonneg (show 0 ≤ 2 * z by linarith)
    have d2 := rne_mono (show 2 * z ≤ 2 by linarith)
    rw [show rne 2 = 2 by decide +kernel] at d2
    rw [Param.mul_fin (by rw [abs_of_nonneg (by linarith)]; linarith [show (8:ℚ) ≤ 2 ^ 100 by norm_num]),
      Param.sub_fin (by rw [abs_of_nonneg d0]; linarith [show (8:ℚ) ≤ 2 ^ 99 by norm_num]) (by norm_num)]
    have e0 := rne_mono (show -1 ≤ rne (2 * z) - 1 by linarith)
    have e1 := rne_mono (show rne (2 * z) - 1 ≤ 1 by linarith)
    rw [mone] at e0
    rw [one] at e1
    exact ⟨_, rfl, rne_idem _, e0, e1⟩
  | sin =>
    have ps : F32.mul (.fin p) (.fin 8192) = .fin (rne (p * 8192)) := Param.mul_fin (by
      rw [abs_of_nonneg (by linarith)]; linarith [show (8192:ℚ) ≤ 2 ^ 100 by norm_num])
    have iq : Param.Spec.IsF32 (rne (p * 8192)) := rne_idem _
    have q0 := rne_nonneg (show 0 ≤ p * 8192 by linarith)
    have q1 : rne (p * 8192) < 8192 := by
      -- multiplying by a power of two is exact
      obtain ⟨n, e, hn, he, hv⟩ := rne_form p
      rw [show rne p = p from ip] at hv
      have := rne_mul_zpow n (e + 13) hn (by omega)
      have e2 : (n : ℚ) * 2 ^ (e + 13) = p * 8192 := by rw [hv, zpow_add₀ (by norm_num)]; norm_num; ring
      rw [e2] at this
      rw [this]; linarith
    unfold lfoOut
    simp only [ps]
    generalize rne (p * 8192) = q at *
    have ei : (F32.fin q).toI32 = ⌊q⌋ := Delay.toI32_fin q0 (lt_trans q1 (by norm_num))
    have f0 : 0 ≤ ⌊q⌋ := Int.floor_nonneg.mpr q0
    have f1 : ⌊q⌋ < 8192 := Int.floor_lt.mpr (by exact_mod_cast q1)
    have fl := Int.floor_le q
    have fl' := Int.lt_floor_add_one q
    have ef : F32.sub (.fin q) (F32.ofInt ⌊q⌋) = .fin (q - ⌊q⌋) := by
      rw [F32.ofInt_eq (by rw [abs_of_nonneg f0]; omega), Param.sub_fin]
      · have t := (F32.rne_trunc q).2
        rw [show rne q = q from iq, show F32.truncQ q = ⌊q⌋ by unfold F32.truncQ; rw [if_pos q0]] at t
        rw [t]
      · rw [abs_of_nonneg q0]; norm_num; linarith
      · have : (0:ℚ) ≤ ⌊q⌋ := by exact_mod_cast f0
        rw [abs_of_nonneg this]; norm_num; linarith
    have jf : Param.Spec.IsF32 (q - ⌊q⌋) := by
      have t := (F32.rne_trunc q).2
      rw [show rne q = q from iq, show F32.truncQ q = ⌊q⌋ by unfold F32.truncQ; rw [if_pos q0]] at t
      exact t
    have ck : (chkI32 (⌊q⌋ + 1) : Res Empty Int) = .ok (⌊q⌋ + 1) := by unfold chkI32; rw [if_pos (by omega)]
    rw [ei, ef, ck]
    simp only [Res.ok_bind]
    rw [if_pos ⟨f0, f1⟩]
    refine ⟨_, rfl, ?_⟩
    obtain ⟨a, ea, ja, a0, a1⟩ := hT ⌊q⌋.toNat
    obtain ⟨b, eb, jb, b0, b1⟩ := hT (index (⌊q⌋ + 1) 8191)
    rw [ea, eb]
    obtain ⟨n1, n2, n3⟩ := mean_unit jf (abs_le.mpr ⟨a0, a1⟩) (abs_le.mpr ⟨b0, b1⟩) (by linarith) (by linarith)
    have hf0 : 0 ≤ q - ⌊q⌋ := by linarith
    have hf1 : q - ⌊q⌋ ≤ 1 := by linarith
    generalize q - ⌊q⌋ = f at *
    have g0 : 0 ≤ rne (1 - f) := rne_nonneg (by linarith)
    have g1 : rne (1 - f) ≤ 1 := by have := rne_mono (show 1 - f ≤ 1 by linarith); rwa [one] at this
    rw [Param.sub_fin (by norm_num) (by rw [abs_of_nonneg (by linarith)]; linarith [show (1:ℚ) ≤ 2 ^ 99 by norm_num]),
      Param.mul_fin, Param.mul_fin, mul_comm f b, Param.add_fin]
    · exact ⟨_, rfl, rne_idem _, (abs_le.mp n3).1, (abs_le.mp n3).2⟩
    · have := abs_add_le (rne (a * rne (1 - f))) (rne (b * f))
      linarith [show (2:ℚ) ≤ 2 ^ 100 by norm_num]
    · rw [abs_mul, abs_of_nonneg (show 0 ≤ f by linarith)]
      have := mul_le_mul (show f ≤ 1 by linarith) (abs_le.mpr ⟨b0, b1⟩) (abs_nonneg b) (by norm_num)
      linarith [show (2:ℚ) ≤ 2 ^ 100 by norm_num]
    · rw [abs_mul, abs_of_nonneg g0]
      have := mul_le_mul (abs_le.mpr ⟨a0, a1⟩) g1 g0 (by norm_num)
      linarith [show (2:ℚ) ≤ 2 ^ 100 by norm_num]

/-- The exception: a phase can arrive at exactly 1 (the wrap test is `> 1`), and the sine wave then reads past its table. -/
theorem C90_phase_one_panics (T : Nat → F32) (prev rnd : F32) :
    advance (.fin (7 / 8)) (.fin (1 / 8)) = (.fin 1, false) ∧
    lfoOut T .sin (advance (.fin (7 / 8)) (.fin (1 / 8))).1 false prev rnd = .panic "index out of bounds" := by
  have h : advance (.fin (7 / 8)) (.fin (1 / 8)) = (.fin 1, false) := by decide +kernel
  refine ⟨h, ?_⟩
  rw [h]
  unfold lfoOut
  have e : (F32.mul (.fin 1) (.fin 8192)).toI32 = 8192 := by decide +kernel
  have ck : (chkI32 (8192 + 1) : Res Empty Int) = .ok (8192 + 1) := rfl
  simp only [e]
  rw [ck]
  simp

/-- C90. With `v` voices, 1 to 4, exactly the first `v` combs have weight 1 and the others 0; more voices count as 4. -/
theorem C90_voice_weights {v : Int} (h : 1 ≤ v) :
    ∃ w, voiceWeights v = .ok w ∧ ∀ i : Nat, i < 4 → w i = if (i : Int) < v then .fin 1 else .fin 0 := by
  have z : ∀ n : Int, 0 ≤ n → n ≤ 4 → F32.sub (F32.ofInt n) (F32.ofInt n) = .fin 0 := by
    intro n n0 n4
    rw [F32.ofInt_eq (by rw [abs_of_nonneg n0]; omega)]
    have : |(n : ℚ)| ≤ 2 ^ 99 := by
      rw [abs_of_nonneg (by exact_mod_cast n0)]
      have : (n : ℚ) ≤ 4 := by exact_mod_cast n4
      norm_num; linarith
    rw [Param.sub_fin this this, sub_self, rne_zero]
  rcases lt_or_ge v 4 with h4 | h4
  · have : v = 1 ∨ v = 2 ∨ v = 3 := by omega
    rcases this with rfl | rfl | rfl
    all_goals
      refine ⟨_, rfl, ?_⟩
      intro i hi
      have : i = 0 ∨ i = 1 ∨ i = 2 ∨ i = 3 := by omega
      rcases this with rfl | rfl | rfl | rfl <;> simp [z]
  · have e : voiceWeights v = (voiceWeights 4) := by
      unfold voiceWeights
      rw [show min v.toNat 4 = 4 by omega, show min (4 : Int).toNat 4 = 4 by rfl]
      simp only [show ¬ (v < 4) by omega, if_false]
      rfl
    rw [e]
    refine ⟨_, rfl, ?_⟩
    intro i hi
    have hv : (i : Int) < v := by omega
    rw [if_pos hv]
    have : i = 0 ∨ i = 1 ∨ i = 2 ∨ i = 3 := by omega
    rcases this with rfl | rfl | rfl | rfl <;> rfl

/-- C90. Arpeggio: the comb given by the whole part of the position plays alone at weight 1; in the last tenth it fades out
and the next one (the first after the last) fades in, with a fade position in [0, 1]. -/
theorem C90_arp_weights (sqrt : F32 → F32) {p : ℚ} (ip : Param.Spec.IsF32 p) (p0 : 0 ≤ p) (p4 : p < 4) :
    ∃ w, arpWeights sqrt (.fin p) = .ok w ∧
      (p - ⌊p⌋ ≤ rne (9 / 10) → ∀ i : Nat, i < 4 → w i = if (i : Int) = ⌊p⌋ then .fin 1 else .fin 0) ∧
      (rne (9 / 10) < p - ⌊p⌋ → ∃ dt, 0 ≤ dt ∧ dt ≤ 1 ∧ dt = rne (rne (p - ⌊p⌋ - rne (9 / 10)) * 10) ∧
        ∀ i : Nat, i < 4 → w i = if (i : Int) = ⌊p⌋ then sqrt (.fin (rne (1 - dt)))
          else if (i : Int) = (⌊p⌋ + 1) % 4 then sqrt (.fin dt) else .fin 0) := by
  have ei : (F32.fin p).toI32 = ⌊p⌋ := Delay.toI32_fin p0 (lt_trans p4 (by norm_num))
  have f0 : 0 ≤ ⌊p⌋ := Int.floor_nonneg.mpr p0
  have f1 : ⌊p⌋ < 4 := Int.floor_lt.mpr (by exact_mod_cast p4)
  have fl := Int.floor_le p
  have fl' := Int.lt_floor_add_one p
  have ef := frac_exact ip p0 (by linarith)
  have jf : Param.Spec.IsF32 (p - ⌊p⌋) := by
    have t := (F32.rne_trunc p).2
    rw [show rne p = p from ip, show F32.truncQ p = ⌊p⌋ by unfold F32.truncQ; rw [if_pos p0]] at t
    exact t
  have l9 : F32.ofQ (9 / 10) = .fin (rne (9 / 10)) := F32.ofQ_fin (by norm_num) (by norm_num)
  have v9 : rne (9 / 10) = 15099494 / 16777216 := by decide +kernel
  have cases4 : ⌊p⌋ = 0 ∨ ⌊p⌋ = 1 ∨ ⌊p⌋ = 2 ∨ ⌊p⌋ = 3 := by omega
  unfold arpWeights
  simp only [ei, ef, l9]
  rw [if_neg (show ¬ (⌊p⌋ = 4) by omega)]
  have hf0 : 0 ≤ p - ⌊p⌋ := by linarith
  have hfl : p - ⌊p⌋ < 1 := by linarith
  generalize p - ⌊p⌋ = f at *
  by_cases hc : rne (9 / 10) < f
  · rw [if_pos (by simp [F32.lt, hc])]
    have hf1 : f ≤ 1 - 1 / 2 ^ 24 := by
      obtain ⟨n, hn, n0, n1⟩ := upper_form jf (by rw [v9] at hc; norm_num at hc ⊢; linarith) (by linarith)
      have : n ≤ 2 ^ 24 - 1 := by
        by_contra hc'
        have : n = 2 ^ 24 := by omega
        rw [this] at hn; norm_num at hn; linarith
      have : (n : ℚ) ≤ 2 ^ 24 - 1 := by exact_mod_cast this
      norm_num at hn ⊢
      linarith
    have s1 : F32.sub (.fin f) (.fin (rne (9 / 10))) = .fin (rne (f - rne (9 / 10))) := Param.sub_fin
      (by rw [abs_of_nonneg (by rw [v9] at hc; norm_num at hc ⊢; linarith)]; norm_num; linarith) (by rw [v9]; norm_num)
    have d0 : 0 ≤ rne (f - rne (9 / 10)) := rne_nonneg (by linarith)
    have d1 := rne_mono (show f - rne (9 / 10) ≤ 1 / 10 - 1 / 2 ^ 25 by rw [v9]; norm_num at hf1 ⊢; linarith)
    have v1 : rne (1 / 10 - 1 / 2 ^ 25) ≤ 1 / 10 := by decide +kernel
    have d2 : rne (f - rne (9 / 10)) ≤ 1 / 10 := le_trans d1 v1
    have s2 : F32.mul (.fin (rne (f - rne (9 / 10)))) (.fin 10) = .fin (rne (rne (f - rne (9 / 10)) * 10)) := Param.mul_fin
      (by rw [abs_of_nonneg (by linarith)]; norm_num at d2 ⊢; linarith)
    have t0 : 0 ≤ rne (rne (f - rne (9 / 10)) * 10) := rne_nonneg (by linarith)
    have t1 := rne_mono (show rne (f - rne (9 / 10)) * 10 ≤ 1 by linarith)
    rw [show rne 1 = 1 from isF32_one] at t1
    rw [s1, s2]
    have s3 : F32.sub (.fin 1) (.fin (rne (rne (f - rne (9 / 10)) * 10))) = .fin (rne (1 - rne (rne (f - rne (9 / 10)) * 10))) :=
      Param.sub_fin (by norm_num) (by rw [abs_of_nonneg t0]; linarith [show (1:ℚ) ≤ 2 ^ 99 by norm_num])
    rw [s3]
    refine ⟨fun i => if i = (if ⌊p⌋ = 3 then 0 else (⌊p⌋ + 1).toNat) then sqrt (.fin (rne (rne (f - rne (9 / 10)) * 10)))
      else if i = ⌊p⌋.toNat then sqrt (.fin (rne (1 - rne (rne (f - rne (9 / 10)) * 10)))) else .fin 0, ?_, ?_, ?_⟩
    · unfold setW
      rw [if_pos f0, if_pos (show ⌊p⌋.toNat < 4 by omega)]
      simp only [Res.ok_bind]
      rw [if_pos (by split <;> omega)]
    · intro h; exact absurd h (not_le.mpr hc)
    · intro _
      refine ⟨_, t0, t1, rfl, ?_⟩
      intro i hi
      rcases cases4 with h | h | h | h <;> rw [h]
      all_goals
        have : i = 0 ∨ i = 1 ∨ i = 2 ∨ i = 3 := by omega
        rcases this with rfl | rfl | rfl | rfl <;> simp
  · rw [if_neg (by simp [F32.lt, hc])]
    unfold setW
    rw [if_pos f0, if_pos (show ⌊p⌋.toNat < 4 by omega)]
    refine ⟨_, rfl, ?_, ?_⟩
    · intro _ i hi
      dsimp only
      by_cases h : i = ⌊p⌋.toNat
      · rw [if_pos h, if_pos (by omega)]
      · rw [if_neg h, if_neg (by omega)]
    · intro h; exact absurd h hc

/-- Position 3.9375 is in the fade from the fourth comb to the first. -/
example : Param.Spec.IsF32 (63 / 16) ∧ (0:ℚ) ≤ 63 / 16 ∧ (63 / 16 : ℚ) < 4 ∧ rne (9 / 10) < 63 / 16 - ⌊(63 / 16 : ℚ)⌋ := by
  unfold Param.Spec.IsF32; decide +kernel

end Verif.Flanger
