import Verif.Adsr.Props
/-!
# The level of the analog envelope (C69)
-/
namespace Verif.Adsr
open Verif.Float Verif.Dsp Verif.Param

/-- A state a host can bring a new envelope to, with any number of attacks, retriggers, releases, parameter changes and
analog blocks in any order. -/
def Reached (E : Env) (s : St) : Prop :=
  Sane E defaultParams ∧ ∃ os : List Op, (∀ p, Op.params p ∈ os → Sane E p) ∧ runOps E new os = .ok s

theorem Reached.inv {E : Env} {s : St} (h : Reached E s) : Inv E s := by
  obtain ⟨h1, os, h2, h3⟩ := h
  exact runOps_inv os (new_inv h1) h2 h3

/-- `n` blocks. -/
def blocks (E : Env) : Nat → St → Res Empty St
  | 0, s => .ok s
  | n + 1, s => processAnalog E s >>= fun s' => blocks E n s'

/-- C69. The output of the analog envelope is a number between 0 and 1.5 after every history of attacks, retriggers,
releases, parameter changes and blocks. -/
theorem C69_output_bounded {E : Env} {s : St} (h : Reached E s) : ∃ o, s.output = .fin o ∧ 0 ≤ o ∧ o ≤ 3 / 2 := h.inv.out

/-- C69. Every further block returns, as long as the envelope has not been idle for 2^31 blocks. -/
theorem C69_block_returns {E : Env} {s : St} (h : Reached E s) (hc : s.idlecount < 2 ^ 31 - 1) :
    ∃ s', processAnalog E s = .ok s' ∧ s.idlecount ≤ s'.idlecount ∧ s'.idlecount ≤ s.idlecount + 1 :=
  block_returns_inv h.inv hc

/-- C69. While the gate is open and the peak has not been reached, the level does not fall. -/
theorem C69_attack_rises {E : Env} {s s' : St} (h : Reached E s) (hg : s.stage = .attack ∨ s.stage = .decay) (hd : s.discharge = false)
    (hp : F32.lt (.fin 1) s.vC1Delayed = false) (hb : processAnalog E s = .ok s') :
    ∃ v v', s.vC1 = .fin v ∧ s'.output = .fin v' ∧ v ≤ v' ∧ s'.stage = s.stage :=
  attack_rises_inv h.inv (by simpa [isGate] using hg) hd hp hb

/-- C69. With the gate open, the decay starts once the level of two blocks ago has passed 1, and goes on until the gate
closes. -/
theorem C69_decay_latched {E : Env} {s s' : St} (h : Reached E s) (hg : s.stage = .attack ∨ s.stage = .decay)
    (hb : processAnalog E s = .ok s') :
    (s'.discharge = true ↔ s.discharge = true ∨ F32.lt (.fin 1) s.vC1Delayed = true) ∧ s'.vC1Delayed = s.vC1 :=
  decay_latched_inv h.inv (by simpa [isGate] using hg) hb

/-- C69. In the decay every block moves the level towards the square of the sustain level and passes it by no more
than 2^-22. -/
theorem C69_decay_to_sustain {E : Env} {s s' : St} (h : Reached E s) (hg : s.stage = .attack ∨ s.stage = .decay)
    (hd : s.discharge = true ∨ F32.lt (.fin 1) s.vC1Delayed = true) (hb : processAnalog E s = .ok s') :
    ∃ v v' su : ℚ, s.vC1 = .fin v ∧ s'.output = .fin v' ∧ s'.vC1 = .fin v' ∧ s.p.sustain = .float (.fin su) ∧
      (v ≤ rne (su * su) → v ≤ v' ∧ v' ≤ rne (su * su) + 1 / 2 ^ 22) ∧
      (rne (su * su) ≤ v → v' ≤ v ∧ rne (su * su) - 1 / 2 ^ 22 ≤ v') := by
  have hg' : isGate s = true := by simpa [isGate] using hg
  obtain ⟨⟨⟨pa, ca, ea, eca, a0, a1⟩, _, ⟨pd, cd, ed, ecd, d0, d1⟩, ⟨pr, cr, er, ecr, r0, r1⟩, ⟨su, es, s0, s1⟩⟩,
    ⟨v, hv, iv, v0, v1, vg⟩, _, _⟩ := h.inv
  have hns : s.stage ≠ .uberRelease := by rcases hg with e | e <;> rw [e] <;> decide
  have hd' : (F32.lt (.fin 1) s.vC1Delayed || s.discharge) = true := by rw [Bool.or_eq_true]; tauto
  obtain ⟨v', hx, _, w0, w1, l, u⟩ := analog_decay (a := ca) (r := cr) iv (vg hg') v1 s0 s1 d0 d1 hd'
  unfold processAnalog at hb
  rw [ea, ed, es, er] at hb
  simp only [pvalf, Res.ok_bind, eca, ecd, hv] at hb
  rw [show coefRelease E s pr = .fin cr by unfold coefRelease; rw [if_neg hns, ecr], hg', hx] at hb
  simp only [Bool.true_eq_false, false_and, if_false, Res.ok.injEq] at hb
  subst hb
  exact ⟨v, v', su, hv, rfl, rfl, es, l, u⟩

/-- C69. After the gate has closed the level falls or stays, and the output is the level or silence. -/
theorem C69_release_falls {E : Env} {s s' : St} (h : Reached E s) (hg : s.stage ≠ .attack ∧ s.stage ≠ .decay) {v : ℚ} (hv : s.vC1 = .fin v) (h0 : 0 ≤ v)
    (hb : processAnalog E s = .ok s') :
    ∃ v' o, s'.vC1 = .fin v' ∧ v' ≤ v ∧ s'.output = .fin o ∧ 0 ≤ o ∧ o ≤ v ∧ (s'.stage = s.stage ∨ s'.stage = .idle ∧ o = 0) :=
  release_falls_inv h.inv (by simpa [isGate] using hg) hv h0 hb

/-- C69. An uber-release silences the envelope in one block. -/
theorem C69_uber_release_stops {E : Env} {s : St} (h : Reached E s) (hu : s.stage = .uberRelease) (hc : s.idlecount < 2 ^ 31 - 1) :
    ∃ s', processAnalog E s = .ok s' ∧ s'.stage = .idle ∧ s'.output = .fin 0 ∧ isIdle s' = true :=
  uber_release_stops_inv h.inv hu hc

/-- C69. An idle envelope stays idle and silent, block after block, until the next attack. -/
theorem C69_idle_stays {E : Env} {s s' : St} (h : Reached E s) (hq : Quiet s) (n : ℕ) (hb : blocks E n s = .ok s') :
    Quiet s' ∧ (0 < n → s'.output = .fin 0) ∧ s'.idlecount = s.idlecount + n := by
  have key : ∀ (n : ℕ) (s : St), Inv E s → Quiet s → blocks E n s = .ok s' →
      Quiet s' ∧ (0 < n → s'.output = .fin 0) ∧ s'.idlecount = s.idlecount + n := by
    intro n
    induction n with
    | zero =>
      intro s _ hq hb
      simp only [blocks, Res.ok.injEq] at hb; subst hb
      exact ⟨hq, by simp, by simp⟩
    | succ n ih =>
      intro s hi hq hb
      unfold blocks at hb
      cases hp : processAnalog E s with
      | err e => exact e.elim
      | panic w => simp [hp] at hb
      | ok t =>
        simp only [hp, Res.ok_bind] at hb
        obtain ⟨q1, o1, c1⟩ := idle_stays_inv hi hq hp
        obtain ⟨q2, o2, c2⟩ := ih t (block_inv hi hp) q1 hb
        refine ⟨q2, fun _ => ?_, by rw [c2, c1]; push_cast; ring⟩
        rcases Nat.eq_zero_or_pos n with rfl | hn
        · simp only [blocks, Res.ok.injEq] at hb; rw [← hb]; exact o1
        · exact o2 hn
  exact key n s h.inv hq hb

/-- One block of a release of at least 2^-20 takes away a fixed part of a level that is not yet silent. -/
theorem release_shrinks {v r : ℚ} (hv0 : 1 / 2 ^ 20 ≤ v) (hr0 : 1 / 2 ^ 20 ≤ r) (hr1 : r ≤ 1) :
    rne (v - rne (v * r)) ≤ v * (1 - 1 / 2 ^ 21) := by
  have vp : 0 ≤ v := le_trans (by norm_num) hv0
  have rp : 0 ≤ r := le_trans (by norm_num) hr0
  have e1 := (abs_le.mp (rne_err (v * r))).1
  have m0 : 0 ≤ v * r := mul_nonneg vp rp
  rw [abs_of_nonneg m0] at e1
  have m1 : v * (1 / 2 ^ 20) ≤ v * r := mul_le_mul_of_nonneg_left hr0 vp
  have p0 : 0 ≤ rne (v * r) := rne_nonneg m0
  have mono := rne_mono (show v - rne (v * r) ≤ v - (v * (1 / 2 ^ 20) * (1 - 1 / 2 ^ 24) - 1 / 2 ^ 150) by
    have : v * r * (1 / 2 ^ 24) = v * r / 2 ^ 24 := by ring
    have h2 := mul_le_mul_of_nonneg_right m1 (show (0:ℚ) ≤ 1 - 1 / 2 ^ 24 by norm_num)
    linarith)
  refine le_trans mono ?_
  generalize hx : v - (v * (1 / 2 ^ 20) * (1 - 1 / 2 ^ 24) - 1 / 2 ^ 150) = x
  have x1 : x ≤ v * (1 - 1 / 2 ^ 20 + 1 / 2 ^ 44) + 1 / 2 ^ 150 := by rw [← hx]; ring_nf; linarith
  have tiny : (1:ℚ) / 2 ^ 150 ≤ v * (1 / 2 ^ 130) := by
    have := mul_le_mul_of_nonneg_right hv0 (show (0:ℚ) ≤ 1 / 2 ^ 130 by norm_num)
    refine le_trans ?_ this; norm_num
  have x0 : 0 ≤ x := by rw [← hx]; ring_nf; linarith
  have x2 : x ≤ v := by
    refine le_trans x1 ?_
    have : v * (1 - 1 / 2 ^ 20 + 1 / 2 ^ 44) + v * (1 / 2 ^ 130) ≤ v := by
      rw [← mul_add]; nlinarith [show (1:ℚ) - 1 / 2 ^ 20 + 1 / 2 ^ 44 + 1 / 2 ^ 130 ≤ 1 by norm_num]
    linarith
  have e2 := (abs_le.mp (rne_err x)).2
  rw [abs_of_nonneg x0] at e2
  have h3 : x / 2 ^ 24 ≤ v * (1 / 2 ^ 24) := by
    rw [div_eq_mul_one_div]; exact mul_le_mul_of_nonneg_right x2 (by norm_num)
  have h4 : rne x ≤ v * (1 - 1 / 2 ^ 20 + 1 / 2 ^ 44 + 1 / 2 ^ 130 + 1 / 2 ^ 24 + 1 / 2 ^ 130) := by
    rw [mul_add, mul_add, mul_add]; linarith
  refine le_trans h4 (mul_le_mul_of_nonneg_left (by norm_num) vp)

/-- C69. A release comes to its end: if the release speed is at least 2^-20 per block, then after some number of blocks
the envelope is idle and silent, whatever its level was. -/
theorem C69_release_terminates {E : Env} {s : St} (h : Reached E s) (hg : s.stage = .release)
    (hc : s.idlecount < 2 ^ 31 - 1)
    (hr : ∀ a r, s.p.release = .float a → coef E a s.p.syncR = .fin r → 1 / 2 ^ 20 ≤ r) :
    ∃ n s', blocks E n s = .ok s' ∧ s'.stage = .idle ∧ s'.output = .fin 0 ∧ isIdle s' = true := by
  obtain ⟨t, ht, t0, t1⟩ := silence_lit
  have key : ∀ (k : ℕ) (s : St) (v : ℚ), Inv E s → s.stage = .release → s.idlecount < 2 ^ 31 - 1 →
      (∀ a r, s.p.release = .float a → coef E a s.p.syncR = .fin r → 1 / 2 ^ 20 ≤ r) →
      s.vC1 = .fin v → v * (1 - 1 / 2 ^ 21) ^ k < 1 / 2 ^ 20 →
      ∃ n s', blocks E n s = .ok s' ∧ s'.stage = .idle ∧ s'.output = .fin 0 ∧ isIdle s' = true := by
    intro k
    induction k with
    | zero =>
      intro s v hi hs hc hr hv hk
      rw [pow_zero, mul_one] at hk
      obtain ⟨w, v', hw, iv, iv', w0, w1, hcs, hrel, hub⟩ := block_cases hi
      have hg : isGate s = false := by simp [isGate, hs]
      have : w = v := by rw [hv] at hw; simpa using hw.symm
      subst this
      rcases hcs with ⟨hg', _⟩ | ⟨_, _, hle, _, hn, _⟩ | ⟨_, hl, e⟩
      · rw [hg] at hg'; simp at hg'
      · exfalso; apply hn; rw [ht]; simp only [F32.lt, decide_eq_true_eq]; linarith
      · have hi' := hi.idle
        refine ⟨1, _, by rw [blocks, e, chkI32, if_pos (by omega), Res.ok_bind, Res.ok_bind, blocks], rfl, rfl, ?_⟩
        simp [isIdle]; omega
    | succ k ih =>
      intro s v hi hs hc hr hv hk
      obtain ⟨w, v', hw, iv, iv', w0, w1, hcs, hrel, hub⟩ := block_cases hi
      have hg : isGate s = false := by simp [isGate, hs]
      have : w = v := by rw [hv] at hw; simpa using hw.symm
      subst this
      rcases hcs with ⟨hg', _⟩ | ⟨_, n0, hle, _, hn, e⟩ | ⟨_, hl, e⟩
      · rw [hg] at hg'; simp at hg'
      · have e' := e
        have hbig : 1 / 2 ^ 20 ≤ w := by
          by_contra hc
          apply hn; rw [ht]; simp only [F32.lt, decide_eq_true_eq]
          push Not at hc; linarith
        obtain ⟨a, r, r1, r2, r3⟩ := hrel hg (by rw [hs]; decide) (le_trans (by norm_num) hbig)
        obtain ⟨a', r', f1, f2, f3, f4⟩ := hi.sane.release
        have ea : a' = a := by rw [r1] at f1; simpa using f1.symm
        subst ea
        have er : r' = r := by rw [r2] at f2; simpa using f2.symm
        subst er
        have hsh := release_shrinks hbig (hr _ _ r1 r2) f4
        rw [← r3] at hsh
        obtain ⟨n, s', hb, rest⟩ := ih _ v' (block_inv hi e') hs hc hr rfl (by
          have := mul_le_mul_of_nonneg_right hsh (show (0:ℚ) ≤ (1 - 1 / 2 ^ 21) ^ k from pow_nonneg (by norm_num) _)
          rw [pow_succ'] at hk
          linarith)
        exact ⟨n + 1, s', by rw [blocks, e, Res.ok_bind]; exact hb, rest⟩
      · have hi' := hi.idle
        refine ⟨1, _, by rw [blocks, e, chkI32, if_pos (by omega), Res.ok_bind, Res.ok_bind, blocks], rfl, rfl, ?_⟩
        simp [isIdle]; omega
  obtain ⟨v, hv, _, v0, v1, _⟩ := h.inv.level
  obtain ⟨k, hk⟩ := exists_pow_lt_of_lt_one (show (0:ℚ) < 1 / 2 ^ 21 by norm_num) (show (1:ℚ) - 1 / 2 ^ 21 < 1 by norm_num)
  refine key k s v h.inv hg hc hr hv ?_
  have p0 : (0:ℚ) ≤ (1 - 1 / 2 ^ 21) ^ k := pow_nonneg (by norm_num) _
  nlinarith

/-! ## The hypotheses are met -/

/-- A platform whose `2^x` is a half: every speed is a half. -/
def exampleEnv : Env := ⟨⟨fun _ => .fin (1 / 2), fun _ => .fin 0⟩, id, id, id, .fin 44100, .fin 1⟩

theorem exampleEnv_sane : Sane exampleEnv defaultParams :=
  ⟨⟨_, 1 / 2, rfl, rfl, by norm_num, by norm_num⟩, ⟨_, rfl⟩, ⟨_, 1 / 2, rfl, rfl, by norm_num, by norm_num⟩,
    ⟨_, 1 / 2, rfl, rfl, by norm_num, by norm_num⟩, ⟨1 / 2, rfl, by norm_num, by norm_num⟩⟩

theorem reach_of (os : List Op) (ho : ∀ p, Op.params p ∉ os) (f : St → Bool)
    (h : (match runOps exampleEnv new os with | .ok s => f s | _ => false) = true) :
    ∃ s, Reached exampleEnv s ∧ f s = true := by
  cases hr : runOps exampleEnv new os with
  | ok s => rw [hr] at h; exact ⟨s, ⟨exampleEnv_sane, os, fun p hp => absurd hp (ho p), hr⟩, h⟩
  | err e => exact e.elim
  | panic w => rw [hr] at h; simp at h

/-- An attack that is still rising. -/
example : ∃ s, Reached exampleEnv s ∧ decide (s.stage = .attack ∧ s.discharge = false ∧ F32.lt (.fin 1) s.vC1Delayed = false ∧ s.output = .fin (3 / 4)) = true :=
  reach_of [.attack, .block] (by simp) _ (by decide +kernel)
/-- A decay. -/
example : ∃ s, Reached exampleEnv s ∧ decide (s.stage = .attack ∧ s.discharge = true) = true :=
  reach_of [.attack, .block, .block, .block, .block] (by simp) _ (by decide +kernel)
/-- A release above silence, with a speed of a half, and an uber-release. -/
example : ∃ s, Reached exampleEnv s ∧ decide (s.stage = .release ∧ s.output = .fin (9 / 16) ∧ s.idlecount = 0) = true :=
  reach_of [.attack, .block, .block, .setRelease, .block] (by simp) _ (by decide +kernel)
example : ∃ s, Reached exampleEnv s ∧ decide (s.stage = .uberRelease ∧ s.output = .fin (3 / 4)) = true :=
  reach_of [.attack, .block, .setUber] (by simp) _ (by decide +kernel)
/-- An idle envelope. -/
example : ∃ s, Reached exampleEnv s ∧ decide (s.stage = .idle ∧ s.vC1 = .fin (-15 / 4) ∧ s.idlecount = 1) = true :=
  reach_of [.attack, .block, .setUber, .block] (by simp) _ (by decide +kernel)

/-- C35: a history of two analog blocks. -/
example : ∃ s1 s2, Passes exampleEnv { new with p := { defaultParams with mode := .bool true } } [s1, s2] :=
  ⟨_, _, .step .block rfl (.step .block rfl (.done _))⟩

end Verif.Adsr
