import Verif.Effects.DualDelay
/-!
# Claims about the dual delay (C220-C224)
-/
namespace Verif.Effects.DualDelay
open Verif.Smooth Verif.Biquad Verif.Tables
open Verif.Effects.FreqShift (toI32 toI32_of splice blockOf splice_new splice_old past_splice idx)

/-! ## The filters' designs -/

theorem lp_shape (ω : ℝ) : ∃ a0 a1 a2 b0 b1 b2, ∀ f : Filter, f.coeffLp2b ω 0.707 = f.setCoef a0 a1 a2 b0 b1 b2 := by
  unfold Filter.coeffLp2b
  by_cases h : ω > Real.pi
  · exact ⟨_, _, _, _, _, _, fun f => by simp only [if_pos h]; rfl⟩
  · exact ⟨_, _, _, _, _, _, fun f => by simp only [if_neg h]; rfl⟩

theorem hp_shape (ω : ℝ) : ∃ a0 a1 a2 b0 b1 b2, ∀ f : Filter, f.coeffHp ω 0.707 = f.setCoef a0 a1 a2 b0 b1 b2 := by
  unfold Filter.coeffHp
  by_cases h : ω > Real.pi
  · exact ⟨_, _, _, _, _, _, fun f => by simp only [if_pos h]; rfl⟩
  · exact ⟨_, _, _, _, _, _, fun f => by simp only [if_neg h]; rfl⟩

theorem set_twice (a0 a1 a2 b0 b1 b2 : ℝ) : (Filter.new.setCoef a0 a1 a2 b0 b1 b2).coeffInstantize.setCoef a0 a1 a2 b0 b1 b2 = Filter.new.setCoef a0 a1 a2 b0 b1 b2 := by
  simp [Filter.setCoef, Filter.start, Filter.new, Filter.coeffInstantize, Filter.newValues, Biquad.VLag.newValue, Biquad.VLag.startValue, Biquad.VLag.instantize]

/-! ## C220: the signal flow -/

/-- **C220.**  Whatever the input and however the parameters are automated, the effect is this: each channel reads its stored signal at the smoothed delay, soft-clips it and sends it through the
high cut and the low cut; the echoes, times the smoothed feedback, are added to the panned input and stored; the output fades between the input and the echoes of adjusted width. -/
theorem C220_flow (P : ℕ → Params) (x : Bool → ℕ → ℝ) (N : ℕ) : ∃ σ, Spec.Flow P x (play P x N).2 σ N := by
  suffices h : ∃ σ, Inv P x (play P x N).2 σ (play P x N).1 N from h.imp fun σ h => h.flow
  induction N with
  | zero =>
    obtain ⟨a0, a1, a2, b0, b1, b2, e⟩ := lp_shape (P 0).lpω
    obtain ⟨d0, d1, d2, f0, f1, f2, e'⟩ := hp_shape (P 0).hpω
    refine ⟨⟨fun _ _ => 0, fun _ _ => 0, fun _ _ => 0, fun _ => Filter.new.coeffLp2b (P 0).lpω 0.707, fun _ => Filter.new.coeffHp (P 0).hpω 0.707⟩,
      ⟨fun _ _ h => absurd h (by omega), rfl, rfl, fun _ h => absurd h (by omega), fun _ h => absurd h (by omega), fun _ h => absurd h (by omega),
        fun _ _ h => absurd h (by omega), fun _ _ h => absurd h (by omega)⟩, ctl_start P, fun c => ⟨rfl, fun m _ _ => ?_, fun m _ _ _ => ?_⟩, fun _ => ⟨?_, ?_⟩, fun n h => absurd h (by omega)⟩
    · simp [FreqShift.Spec.past]; rfl
    · simp [FreqShift.Spec.past]; rfl
    · show ((Filter.new.coeffLp2b (P 0).lpω 0.707).coeffInstantize).coeffLp2b (P 0).lpω 0.707 = _
      rw [e, e, set_twice]
    · show ((Filter.new.coeffHp (P 0).hpω 0.707).coeffInstantize).coeffHp (P 0).hpω 0.707 = _
      rw [e', e', set_twice]
  | succ N ih =>
    obtain ⟨σ, h⟩ := ih
    exact step h

theorem play_wpos (P : ℕ → Params) (x : Bool → ℕ → ℝ) (N : ℕ) : (play P x N).1.wpos = ((32 * N : ℕ) : ℤ) % 2 ^ 18 := by
  induction N with
  | zero => rfl
  | succ N ih =>
    have e : (play P x (N + 1)).1.wpos = ((index ((maybeInstantize (P N) (update (P N) (play P x N).1)).wpos + 32) (2 ^ 18 - 1) : ℕ) : ℤ) := rfl
    have e' : (maybeInstantize (P N) (update (P N) (play P x N).1)).wpos = (play P x N).1.wpos := by
      unfold maybeInstantize
      by_cases h : (update (P N) (play P x N).1).had = false ∧ (P N).tempo = true
      · rw [if_pos h]; rfl
      · rw [if_neg h]; rfl
    rw [e, e', idx, ih]
    push_cast
    omega

/-- **C220.**  No access is out of bounds, however far the delay is swept: in every block and for every smoothed delay `v`, the twelve samples read lie in the buffer of `2 ^ 18 + 12`, the twelve
weights in the kernel of `257 * 12`, and the block is written inside the first `2 ^ 18`. -/
theorem C220_in_bounds (P : ℕ → Params) (x : Bool → ℕ → ℝ) (N : ℕ) (v : ℝ) (k : ℕ) :
    (∀ j < 12, rpOf (play P x N).1.wpos (delayOf v) k + j < 2 ^ 18 + 12) ∧ (0 ≤ sincOf (delayOf v) v ∧ ∀ j < 12, (sincOf (delayOf v) v).toNat + j < 257 * 12) ∧
      0 ≤ (play P x N).1.wpos ∧ (play P x N).1.wpos + 32 ≤ 2 ^ 18 := by
  have h := play_wpos P x N
  obtain ⟨s1, s2⟩ := sincOf_eq v
  refine ⟨fun j hj => ?_, ⟨by rw [s1]; omega, fun j hj => by rw [s1]; omega⟩, by omega, by push_cast at h; omega⟩
  unfold rpOf
  rw [idx]
  omega

theorem reached_zero {u : ℕ → ℝ} (h : ∀ n, u n = 0) (n : ℕ) : Spec.reached u n = 0 := by
  induction n with
  | zero => simp [Spec.reached, h]
  | succ n ih => rw [reached_succ, ih, h]; ring

/-- **C220.**  With the mix at zero throughout, the output is the input. -/
theorem C220_dry (P : ℕ → Params) (h : ∀ n, (P n).mix = 0) (x : Bool → ℕ → ℝ) (N : ℕ) (c : Bool) {m : ℕ} (hm : m < 32 * N) : (play P x N).2 c m = x c m := by
  obtain ⟨σ, hf⟩ := C220_flow P x N
  have e : ∀ n, Spec.before P (fun n => (P n).mix) n = 0 := fun n => by
    unfold Spec.before
    split <;> exact reached_zero h _
  rw [hf.out c m hm, Spec.ramp, e, reached_zero h]
  simp

/-! ### Silence -/

/-- A filter with nothing in its registers. -/
def Empty' (f : Filter) : Prop := f.reg0 = (0, 0) ∧ f.reg1 = (0, 0)

theorem empty_loop (n : ℕ) : ∀ f : Filter, Empty' f → Empty' (f.stereoLoop (List.replicate n (0, 0))).1 ∧ (f.stereoLoop (List.replicate n (0, 0))).2 = List.replicate n (0, 0) := by
  induction n with
  | zero => exact fun f h => ⟨h, rfl⟩
  | succ n ih =>
    intro f h
    rw [List.replicate_succ]
    simp only [Filter.stereoLoop]
    obtain ⟨h0, h1⟩ := h
    have e : Empty' (((f.coeffProcess.left 0).1.right 0).1) ∧ (f.coeffProcess.left 0).2 = 0 ∧ ((f.coeffProcess.left 0).1.right 0).2 = 0 := by
      simp [Empty', Filter.left, Filter.right, Filter.coeffProcess, chan, h0, h1]
    obtain ⟨a, b⟩ := ih _ e.1
    rw [b, e.2.1, e.2.2]
    exact ⟨a, rfl⟩

theorem empty_block {f : Filter} (h : Empty' f) (n : ℕ) : Empty' (f.processBlockStereo (List.replicate n (0, 0))).1 ∧ (f.processBlockStereo (List.replicate n (0, 0))).2 = List.replicate n (0, 0) := by
  obtain ⟨⟨a, a'⟩, b⟩ := empty_loop n f h
  have z : flush 0 = 0 := by unfold flush; simp
  refine ⟨?_, b⟩
  simp only [Filter.processBlockStereo, Filter.flushBoth, Empty', a, a', z, and_self]

theorem empty_tuned (P : ℕ → Params) (n : ℕ) {f : Filter} (h : Empty' f) : Empty' (Spec.tuned P n f) := by
  unfold Spec.tuned
  split
  · exact h
  · exact h

theorem empty_lp {f : Filter} (ω : ℝ) (h : Empty' f) : Empty' (f.coeffLp2b ω 0.707) := by
  obtain ⟨a0, a1, a2, b0, b1, b2, e⟩ := lp_shape ω
  obtain ⟨r0, r1, -⟩ := Distortion.setCoef_regs f a0 a1 a2 b0 b1 b2
  rw [e]; exact ⟨r0.trans h.1, r1.trans h.2⟩
theorem empty_hp {f : Filter} (ω : ℝ) (h : Empty' f) : Empty' (f.coeffHp ω 0.707) := by
  obtain ⟨a0, a1, a2, b0, b1, b2, e⟩ := hp_shape ω
  obtain ⟨r0, r1, -⟩ := Distortion.setCoef_regs f a0 a1 a2 b0 b1 b2
  rw [e]; exact ⟨r0.trans h.1, r1.trans h.2⟩

theorem softclip_zero : Dsp.softclip (0 : ℝ) = 0 := by unfold Dsp.softclip; norm_num

/-- **C220.**  Silence in, silence out, from the start. -/
theorem C220_silence (P : ℕ → Params) {x : Bool → ℕ → ℝ} (hx : ∀ c m, x c m = 0) (N : ℕ) (c : Bool) {m : ℕ} (hm : m < 32 * N) : (play P x N).2 c m = 0 := by
  obtain ⟨σ, hf⟩ := C220_flow P x N
  have pz : ∀ c m, Spec.panned P x c m = 0 := fun c m => by unfold Spec.panned; simp only [hx]; split <;> ring
  have key : ∀ n ≤ N, (∀ c m, m < 32 * n → σ.echo c m = 0 ∧ σ.stored c m = 0) ∧ (n < N → Empty' (σ.lp n) ∧ Empty' (σ.hp n)) := by
    intro n
    induction n with
    | zero =>
      intro _
      refine ⟨fun c m h => absurd h (by omega), fun h => ?_⟩
      rw [hf.lp0, hf.hp0]
      exact ⟨empty_lp _ ⟨rfl, rfl⟩, empty_hp _ ⟨rfl, rfl⟩⟩
    | succ n ih =>
      intro hn
      obtain ⟨i1, i2⟩ := ih (by omega)
      obtain ⟨j1, j2⟩ := i2 (by omega)
      have rz : ∀ c, ∀ k < 32, σ.read c (32 * n + k) = 0 := fun c k hk => by
        rw [hf.read c _ (by omega)]
        unfold Spec.tap
        refine Finset.sum_eq_zero fun j hj => ?_
        have hj := Finset.mem_range.1 hj
        obtain ⟨d1, -⟩ := delayOf_range (Spec.lag P c (32 * n + k + 1))
        show _ * FreqShift.Spec.past _ _ = _
        unfold FreqShift.Spec.past
        split
        · rw [(i1 c _ (by omega)).2, mul_zero]
        · rw [mul_zero]
      have cz : Spec.clipped σ n = List.replicate 32 (0, 0) := by
        unfold Spec.clipped
        rw [List.eq_replicate_iff]
        refine ⟨by simp, fun b hb => ?_⟩
        obtain ⟨k, hk, rfl⟩ := List.mem_map.1 hb
        rw [rz _ k (List.mem_range.1 hk), rz _ k (List.mem_range.1 hk), softclip_zero]
      obtain ⟨l1, l2⟩ := empty_block j1 32
      obtain ⟨h1, h2⟩ := empty_block j2 32
      have ez := hf.echo n (by omega)
      rw [cz, l2, h2, List.eq_replicate_iff] at ez
      have ez' : ∀ c, ∀ k < 32, σ.echo c (32 * n + k) = 0 := fun c k hk => by
        have := ez.2 _ (List.mem_map.2 ⟨k, List.mem_range.2 hk, rfl⟩)
        simp only [Prod.mk.injEq] at this
        cases c
        · exact this.1
        · exact this.2
      refine ⟨fun c m hm => ?_, fun hN => ?_⟩
      · by_cases h : m < 32 * n
        · exact i1 c m h
        · obtain ⟨k, hk, rfl⟩ : ∃ k < 32, m = 32 * n + k := ⟨m - 32 * n, by omega, by omega⟩
          refine ⟨ez' c k hk, ?_⟩
          rw [hf.stored c _ (by omega), pz, ez' _ k hk, ez' _ k hk]; ring
      · rw [hf.lp n hN, hf.hp n hN, cz, l2]
        exact ⟨empty_tuned P _ (empty_lp _ l1), empty_tuned P _ (empty_hp _ h1)⟩
  obtain ⟨h, -⟩ := key N le_rfl
  rw [hf.out c m hm, hx, Spec.widened, (h false m hm).1, (h true m hm).1]
  ring

/-! ## C221: crossfeed -/

/-- The same settings but for the crossfeed. -/
def Spec.Same (P Q : Params) : Prop := ∃ c, Q = ⟨P.feedback, c, P.rate, P.inc, P.time, P.mix, P.width, P.pan, P.hpω, P.lpω, P.tempo, P.sinc⟩

/-- The same state but for the crossfeed. -/
def Alike (s t : State) : Prop :=
  ∃ c, t = ⟨s.feedback, c, s.pan, s.mix, s.width, s.time, s.phase, s.dir, s.lfo, s.lp, s.hp, s.buf, s.wpos, s.had⟩

theorem alike_update {P Q : Params} (h : Spec.Same P Q) {s t : State} (ht : Alike s t) : Alike (update P s) (update Q t) := by
  obtain ⟨c, rfl⟩ := h
  obtain ⟨d, rfl⟩ := ht
  exact ⟨_, rfl⟩

theorem alike_inst {P Q : Params} (h : Spec.Same P Q) {s t : State} (ht : Alike s t) : Alike (maybeInstantize P s) (maybeInstantize Q t) := by
  obtain ⟨c, rfl⟩ := h
  obtain ⟨d, rfl⟩ := ht
  unfold maybeInstantize
  by_cases hc : s.had = false ∧ P.tempo = true
  · simp only [if_pos hc]; exact ⟨_, rfl⟩
  · simp only [if_neg hc]; exact ⟨_, rfl⟩

theorem alike_process {P Q : Params} (h : Spec.Same P Q) {s t : State} (ht : Alike s t) (x : Bool → ℕ → ℝ) :
    Alike (process P x s).1 (process Q x t).1 ∧ (process Q x t).2 = (process P x s).2 := by
  have a := alike_inst h (alike_update h ht)
  unfold process
  obtain ⟨u, hu⟩ : ∃ u, u = maybeInstantize P (update P s) := ⟨_, rfl⟩
  obtain ⟨w, hw⟩ : ∃ w, w = maybeInstantize Q (update Q t) := ⟨_, rfl⟩
  rw [← hu, ← hw] at a
  simp only [← hu, ← hw]
  clear hu hw
  obtain ⟨c, rfl⟩ := h
  obtain ⟨d, rfl⟩ := a
  have er : ∀ b k, readAt ⟨P.feedback, c, P.rate, P.inc, P.time, P.mix, P.width, P.pan, P.hpω, P.lpω, P.tempo, P.sinc⟩
      ⟨u.feedback, d, u.pan, u.mix, u.width, u.time, u.phase, u.dir, u.lfo, u.lp, u.hp, u.buf, u.wpos, u.had⟩ b k = readAt P u b k := fun _ _ => rfl
  have ee : echoes ⟨P.feedback, c, P.rate, P.inc, P.time, P.mix, P.width, P.pan, P.hpω, P.lpω, P.tempo, P.sinc⟩
      ⟨u.feedback, d, u.pan, u.mix, u.width, u.time, u.phase, u.dir, u.lfo, u.lp, u.hp, u.buf, u.wpos, u.had⟩ = echoes P u := by
    unfold echoes; simp only [er]
  have ew : ∀ e, wetOf ⟨u.feedback, d, u.pan, u.mix, u.width, u.time, u.phase, u.dir, u.lfo, u.lp, u.hp, u.buf, u.wpos, u.had⟩ x e = wetOf u x e := fun _ => rfl
  have ed : ∀ e, widen ⟨u.feedback, d, u.pan, u.mix, u.width, u.time, u.phase, u.dir, u.lfo, u.lp, u.hp, u.buf, u.wpos, u.had⟩ e = widen u e := fun _ => rfl
  simp only [ee, ew, ed, and_true]
  exact ⟨d, rfl⟩

/-- **C221** (refuted: Crossfeed sets how much of each channel is fed to the other).  The crossfeed setting has no effect at all: two automations that differ only in it give the same output, always. -/
theorem C221_crossfeed_ignored_refuted (P Q : ℕ → Params) (h : ∀ n, Spec.Same (P n) (Q n)) (x : Bool → ℕ → ℝ) (N : ℕ) : (play Q x N).2 = (play P x N).2 := by
  suffices hh : Alike (play P x N).1 (play Q x N).1 ∧ (play Q x N).2 = (play P x N).2 from hh.2
  induction N with
  | zero =>
    refine ⟨?_, rfl⟩
    show Alike (init (P 0) .new) (init (Q 0) .new)
    obtain ⟨c, e⟩ := h 0
    rw [e]
    exact ⟨_, rfl⟩
  | succ N ih =>
    obtain ⟨a, b⟩ := ih
    obtain ⟨c, d⟩ := alike_process (h N) a (blockOf x N)
    refine ⟨c, ?_⟩
    simp only [play]
    rw [b, d]

/-- **C221** (refuted: Feedback returns each channel to itself).  What is fed back is the same in both channels, the sum of both echoes: so with the panning in the middle and the right input silent, the
right channel stores exactly what the left one is fed back, whatever the crossfeed; and an echo that is the same in both is fed back at twice the feedback setting. -/
theorem C221_feedback_is_shared_refuted (P : ℕ → Params) (x : Bool → ℕ → ℝ) (N : ℕ) : ∃ σ, Spec.Flow P x (play P x N).2 σ N ∧
    (∀ m < 32 * N, σ.stored false m - Spec.panned P x false m = σ.stored true m - Spec.panned P x true m) ∧
    ((∀ n, (P n).pan = 0) → (∀ m, x true m = 0) → ∀ m < 32 * N, σ.stored true m = σ.stored false m - x false m) ∧
    ∀ c, ∀ m < 32 * N, σ.echo false m = σ.echo true m → σ.stored c m = Spec.panned P x c m + σ.echo c m * (2 * Spec.ramp P (fun n => (P n).feedback) 32 m) := by
  obtain ⟨σ, hf⟩ := C220_flow P x N
  refine ⟨σ, hf, fun m hm => ?_, fun hp hx m hm => ?_, fun c m hm he => ?_⟩
  · rw [hf.stored _ m hm, hf.stored _ m hm]; ring
  · have e : Spec.pan P m = 0 := by
      have z : ∀ n, (fun n => max (-1) (min (P n).pan 1)) n = (0 : ℝ) := fun n => by simp [hp]
      have b : ∀ n, Spec.before P (fun n => max (-1) (min (P n).pan 1)) n = 0 := fun n => by
        unfold Spec.before
        split <;> exact reached_zero z _
      simp only [Spec.pan]
      rw [b, reached_zero z]; simp
    rw [hf.stored _ m hm, hf.stored _ m hm]
    simp only [Spec.panned, e, hx, if_true, Bool.false_eq_true, if_false]
    simp
  · rw [hf.stored c m hm]
    cases c
    · rw [he]; ring
    · rw [he]; ring

/-! ## C222: the delay time -/

theorem jump_once {P : ℕ → Params} {n m : ℕ} (h : Spec.jump P n) (h' : Spec.jump P m) : n = m := by
  by_contra hne
  rcases Nat.lt_or_gt_of_ne hne with hl | hl
  · have := h'.2.2 n hl; rw [h.2.1] at this; simp at this
  · have := h.2.2 m hl; rw [h'.2.1] at this; simp at this

/-- From some block on the tempo does not become known any more. -/
theorem jump_over (P : ℕ → Params) : ∃ n0, ∀ n ≥ n0, ¬ Spec.jump P n := by
  by_cases h : ∃ n, Spec.jump P n
  · obtain ⟨n, hn⟩ := h
    exact ⟨n + 1, fun m hm hj => by have := jump_once hn hj; omega⟩
  · push Not at h
    exact ⟨0, fun n _ => h n⟩

/-- **C222.**  The modulation of the delay stays within a hundred times its step. -/
theorem C222_modulation_bounded (P : ℕ → Params) {I : ℝ} (h : ∀ n, |(P n).inc| ≤ I) (n : ℕ) : |(Spec.lfo P n).2.2| ≤ 100 * I := by
  have step : ∀ (Q : Params) (q : ℝ × Bool × ℝ), |Q.inc| ≤ I → |q.2.2| ≤ 100 * I → |(lfoStep Q q).2.2| ≤ 100 * I := fun Q q h1 h2 => by
    obtain ⟨a, b⟩ := abs_le.1 h1
    obtain ⟨c, d⟩ := abs_le.1 h2
    have e : (lfoStep Q q).2.2 = 0.99 * q.2.2 + Q.inc ∨ (lfoStep Q q).2.2 = 0.99 * q.2.2 - Q.inc := by
      simp only [lfoStep]
      by_cases hd : (if q.1 + Q.rate > 0.5 then (q.1 + Q.rate - 1, !q.2.1) else (q.1 + Q.rate, q.2.1)).2 = true
      · exact .inl (if_pos hd)
      · exact .inr (if_neg hd)
    rw [abs_le]
    rcases e with e | e <;> rw [e] <;> norm_num <;> constructor <;> linarith
  have I0 : 0 ≤ I := (abs_nonneg _).trans (h 0)
  induction n with
  | zero => exact step _ _ (h 0) (by simpa using by positivity)
  | succ n ih => exact step _ _ (h n) ih

theorem lag_between (P : ℕ → Params) (c : Bool) {a b : ℝ} (a0 : 0 < a) (h : ∀ n, a ≤ Spec.goal P c n ∧ Spec.goal P c n ≤ b) (h0 : a ≤ Spec.lag P c 0 ∧ Spec.lag P c 0 ≤ b) (m : ℕ) :
    a / 40 < Spec.lag P c m ∧ Spec.lag P c m ≤ b := by
  induction m with
  | zero => exact ⟨by linarith [h0.1], h0.2⟩
  | succ m ih =>
    obtain ⟨g1, g2⟩ := h (m / 32)
    rw [Spec.lag]
    by_cases hj : Spec.jump P (m / 32) ∧ m % 32 = 0
    · rw [if_pos hj]
      norm_num
      constructor <;> nlinarith
    · rw [if_neg hj]
      norm_num
      constructor <;> nlinarith [ih.1, ih.2]

/-- The delay a channel settles at, for a goal of `G` samples. -/
noncomputable def Spec.settled (G : ℝ) : ℤ := max 32 (min ⌊G / 40⌋ (2 ^ 18 - 13))

theorem lag_tends (P : ℕ → Params) (c : Bool) {G : ℝ} (h : ∀ n, Spec.goal P c n = G) : Filter.Tendsto (Spec.lag P c) Filter.atTop (nhds (G / 40)) := by
  obtain ⟨n0, hn⟩ := jump_over P
  have key : ∀ k, Spec.lag P c (32 * n0 + k) = G / 40 + (1 - 4 / 1000) ^ k * (Spec.lag P c (32 * n0) - G / 40) := by
    intro k
    induction k with
    | zero => simp
    | succ k ih =>
      rw [← Nat.add_assoc, Spec.lag, if_neg (fun hj => hn _ (by omega) hj.1), ih, h, pow_succ]
      norm_num
      ring
  have t := (tendsto_pow_atTop_nhds_zero_of_lt_one (show (0 : ℝ) ≤ 1 - 4 / 1000 by norm_num) (by norm_num)).mul_const (Spec.lag P c (32 * n0) - G / 40)
  rw [zero_mul] at t
  have t := t.const_add (G / 40)
  rw [add_zero] at t
  rw [← Filter.tendsto_add_atTop_iff_nat (32 * n0)]
  refine t.congr fun k => ?_
  rw [Nat.add_comm k, key]

theorem lag_settles (P : ℕ → Params) (c : Bool) {G : ℝ} (G0 : 0 < G) (G1 : G < 2 ^ 24) (h : ∀ n, Spec.goal P c n = G) (h0 : Spec.lag P c 0 = G) :
    ∃ m0, ∀ m ≥ m0, delayOf (Spec.lag P c m) = Spec.settled G := by
  have fl : G / 40 < ⌊G / 40⌋ + 1 := Int.lt_floor_add_one _
  obtain ⟨m0, k⟩ := Filter.eventually_atTop.1 ((lag_tends P c h).eventually (gt_mem_nhds fl))
  refine ⟨m0, fun m hm => ?_⟩
  obtain ⟨lo, hi⟩ := lag_between P c G0 (fun n => ⟨(h n).ge, (h n).le⟩) ⟨h0.ge, h0.le⟩ m
  have up := k m hm
  have f0 : 0 ≤ Spec.lag P c m := by linarith [div_pos G0 (show (0 : ℝ) < 40 by norm_num)]
  have fe : ⌊Spec.lag P c m⌋ = ⌊G / 40⌋ := Int.floor_eq_iff.2 ⟨(Int.floor_le _).trans lo.le, up⟩
  unfold delayOf Spec.settled
  rw [toI32_of (by rw [abs_of_nonneg f0]; linarith), if_pos f0, fe]
  norm_num

theorem lfo_still (P : ℕ → Params) (h : ∀ n, (P n).inc = 0) (n : ℕ) : (Spec.lfo P n).2.2 = 0 := by
  have := C222_modulation_bounded P (I := 0) (fun n => by rw [h]; simp) n
  simpa using this

/-- **C222** (refuted: the echo comes after the time that is set).  With a constant delay of `T` samples and no modulation, whatever the input and the automation of everything else: after a while every
sample of the echo is read `(T - 6) / 40` samples back, cut to a whole number (at least 32) and, by the interpolation, up to twelve more: not `T`. -/
theorem C222_delay_is_a_fortieth_refuted (P : ℕ → Params) (c : Bool) {T : ℝ} (hT : ∀ n, (P n).time c = T) (hi : ∀ n, (P n).inc = 0) (T0 : 6 < T) (T1 : T < 2 ^ 24) :
    ∃ m0, ∀ (x : Bool → ℕ → ℝ) (N : ℕ), ∃ σ, Spec.Flow P x (play P x N).2 σ N ∧ ∀ m, m0 ≤ m → m < 32 * N → ∃ r ≤ 255,
      σ.read c m = ∑ j ∈ Finset.range 12, (P (m / 32)).sinc (12 * r + j) * Spec.past (σ.stored c) ((m : ℤ) - Spec.settled (T - 6) - 12 + (j : ℕ)) := by
  have g : ∀ n, Spec.goal P c n = T - 6 := fun n => by unfold Spec.goal; rw [lfo_still P hi, hT]; ring
  have l : Spec.lag P c 0 = T - 6 := by rw [Spec.lag, lfo_still P hi, hT]; ring
  obtain ⟨m0, h⟩ := lag_settles P c (by linarith) (by linarith) g l
  refine ⟨m0, fun x N => ?_⟩
  obtain ⟨σ, hf⟩ := C220_flow P x N
  refine ⟨σ, hf, fun m h1 h2 => ⟨_, (sincOf_eq (Spec.lag P c (m + 1))).2, ?_⟩⟩
  rw [hf.read c m h2]
  unfold Spec.tap
  rw [h (m + 1) (by omega)]

/-- A delay of 40006 samples (most of a second) becomes one of a thousand. -/
example : Spec.settled (40006 - 6) = 1000 := by unfold Spec.settled; norm_num

/-! ## C223: boundedness -/

/-- A biquad that has settled on `c` and has been fed nothing above `X`. -/
def Fixed (c : Cf) (X : ℝ) (f : Filter) : Prop := Eq.Way c 0 X f

theorem fixed_inst {c : Cf} {X : ℝ} {f : Filter} (h : Fixed c X f) : f.coeffInstantize = f ∧ f.goal = c := by
  obtain ⟨m, n, -, hb, -⟩ := h.left.h
  refine ⟨?_, hb.goal⟩
  have hn := hb.near
  rw [zero_mul] at hn
  have g := hb.goal
  subst g
  obtain ⟨n1, n2, n3, n4, n5⟩ := hn
  have z : ∀ {a b : ℝ}, |a - b| ≤ 0 → a = b := fun h => by
    have := abs_eq_zero.1 (le_antisymm h (abs_nonneg _)); linarith
  obtain ⟨⟨v1, t1⟩, ⟨v2, t2⟩, ⟨v3, t3⟩, ⟨v4, t4⟩, ⟨v5, t5⟩, r0, r1, fr⟩ := f
  simp only [Filter.cf, Filter.goal] at n1 n2 n3 n4 n5
  simp only [Filter.coeffInstantize, Biquad.VLag.instantize]
  rw [z n1, z n2, z n3, z n4, z n5]

theorem fixed_new (a0 a1 a2 b0 b1 b2 X : ℝ) : Fixed (Spec.normal a0 a1 a2 b0 b1 b2) X (Filter.new.setCoef a0 a1 a2 b0 b1 b2) := by
  obtain ⟨u1, u2, u3, u4⟩ := setCoef_bound Filter.new a0 a1 a2 b0 b1 b2 le_rfl (.inl rfl)
  refine ⟨u4, ⟨0, 0, le_rfl, u1, ?_⟩, ⟨0, 0, le_rfl, u1, ?_⟩⟩
  · rw [u2, u3]; exact ⟨_, .zero, .inl rfl⟩
  · rw [u2, u3]; exact ⟨_, .zero, .inl rfl⟩

theorem fixed_tuned {P : ℕ → Params} {n : ℕ} {a0 a1 a2 b0 b1 b2 X : ℝ} {f : Filter} (h : Fixed (Spec.normal a0 a1 a2 b0 b1 b2) X f) :
    Spec.tuned P n (f.setCoef a0 a1 a2 b0 b1 b2) = f := by
  rw [Eq.setCoef_bound_again (fixed_inst h).2 h.first]
  unfold Spec.tuned
  split
  · exact (fixed_inst h).1
  · rfl

/-- The two cuts are in a usable place: within the spectrum, or the high cut above it. -/
structure Spec.Usable (lpω hpω : ℝ) : Prop where
  lp : 0 < lpω ∧ lpω ≠ Real.pi
  hp : 0 < hpω ∧ hpω ≠ Real.pi

theorem lp_stable {ω : ℝ} (h : 0 < ω ∧ ω ≠ Real.pi) : ∃ a0 a1 a2 b0 b1 b2, (∀ f : Filter, f.coeffLp2b ω 0.707 = f.setCoef a0 a1 a2 b0 b1 b2) ∧ Spec.Stable (Spec.normal a0 a1 a2 b0 b1 b2) := by
  obtain ⟨a0, a1, a2, b0, b1, b2, e⟩ := lp_shape ω
  refine ⟨a0, a1, a2, b0, b1, b2, e, ?_⟩
  have ec : (Filter.new.coeffLp2b ω 0.707).cf = Spec.normal a0 a1 a2 b0 b1 b2 := by rw [e]; exact rests_cf (setCoef_first Filter.new rfl ..)
  rw [← ec]
  by_cases hp : ω > Real.pi
  · unfold Filter.coeffLp2b
    simp only [if_pos hp]
    rw [rests_cf (setCoef_first Filter.new rfl ..)]
    simp [Spec.Stable, Spec.normal]
  · exact (design_stable .lp2b (f := Filter.new) rfl h.1 (lt_of_le_of_ne (not_lt.1 hp) h.2) (by norm_num)).2.1

theorem hp_stable {ω : ℝ} (h : 0 < ω ∧ ω ≠ Real.pi) : ∃ a0 a1 a2 b0 b1 b2, (∀ f : Filter, f.coeffHp ω 0.707 = f.setCoef a0 a1 a2 b0 b1 b2) ∧ Spec.Stable (Spec.normal a0 a1 a2 b0 b1 b2) := by
  obtain ⟨a0, a1, a2, b0, b1, b2, e⟩ := hp_shape ω
  refine ⟨a0, a1, a2, b0, b1, b2, e, ?_⟩
  have ec : (Filter.new.coeffHp ω 0.707).cf = Spec.normal a0 a1 a2 b0 b1 b2 := by rw [e]; exact rests_cf (setCoef_first Filter.new rfl ..)
  rw [← ec]
  by_cases hp : ω > Real.pi
  · unfold Filter.coeffHp
    simp only [if_pos hp]
    rw [rests_cf (setCoef_first Filter.new rfl ..)]
    simp [Spec.Stable, Spec.normal]
  · exact (design_stable .hp (f := Filter.new) rfl h.1 (lt_of_le_of_ne (not_lt.1 hp) h.2) (by norm_num)).2.1

theorem reached_between {u : ℕ → ℝ} {b : ℝ} (h : ∀ n, 0 ≤ u n ∧ u n ≤ b) (n : ℕ) : 0 ≤ Spec.reached u n ∧ Spec.reached u n ≤ b := by
  induction n with
  | zero =>
    obtain ⟨a, c⟩ := h 0
    simp only [Spec.reached]
    constructor <;> linarith
  | succ n ih =>
    obtain ⟨a, c⟩ := h n
    rw [reached_succ]
    constructor <;> linarith

theorem ramp_between {P : ℕ → Params} {u : ℕ → ℝ} {b L : ℝ} (hL : 8 ≤ L) (h : ∀ n, 0 ≤ u n ∧ u n ≤ b) (m : ℕ) : 0 ≤ Spec.ramp P u L m ∧ Spec.ramp P u L m ≤ b := by
  obtain ⟨a1, a2⟩ := reached_between h (m / 32 + 1)
  obtain ⟨c1, c2⟩ : 0 ≤ Spec.before P u (m / 32) ∧ Spec.before P u (m / 32) ≤ b := by
    unfold Spec.before
    split
    · exact ⟨a1, a2⟩
    · exact reached_between h _
  unfold Spec.ramp
  have t0 : 0 ≤ (((m % 32 % 8 : ℕ) : ℝ) + 1) / L := by positivity
  have t1 : (((m % 32 % 8 : ℕ) : ℝ) + 1) / L ≤ 1 := by
    rw [div_le_one (by linarith)]
    have : m % 32 % 8 ≤ 7 := by omega
    have : ((m % 32 % 8 : ℕ) : ℝ) ≤ 7 := by exact_mod_cast this
    linarith
  rw [mul_div_assoc]
  generalize (((m % 32 % 8 : ℕ) : ℝ) + 1) / L = t at t0 t1 ⊢
  generalize Spec.before P u (m / 32) = p at c1 c2 ⊢
  generalize Spec.reached u (m / 32 + 1) = q at a1 a2 ⊢
  constructor <;> nlinarith

/-- **C223.**  The delay cannot blow up: with the two cuts left where they are there is a bound `K` that depends on them alone, such that, for every input and every automation of the delays, of the
feedback (however large), the crossfeed, the panning and the modulation, with the mix between 0 and 1 and the width up to `W`, the output exceeds the input by no more than `K (1 + W)`. -/
theorem C223_bounded {lpω hpω : ℝ} (hu : Spec.Usable lpω hpω) : ∃ K : ℝ, 0 ≤ K ∧ ∀ (P : ℕ → Params) (W : ℝ), (∀ n, (P n).lpω = lpω ∧ (P n).hpω = hpω) →
    (∀ n, 0 ≤ (P n).mix ∧ (P n).mix ≤ 1) → (∀ n, 0 ≤ (P n).width ∧ (P n).width ≤ W) → ∀ (x : Bool → ℕ → ℝ) (N : ℕ) (c : Bool) (m : ℕ), m < 32 * N →
      |(play P x N).2 c m| ≤ |x c m| + K * (1 + W) := by
  obtain ⟨a0, a1, a2, b0, b1, b2, el, sl⟩ := lp_stable hu.lp
  obtain ⟨d0, d1, d2, f0, f1, f2, eh, sh⟩ := hp_stable hu.hp
  obtain ⟨M1, m1, H1⟩ := Eq.holds sl le_rfl
  obtain ⟨M2, m2, H2⟩ := Eq.holds sh le_rfl
  have t0 : (0 : ℝ) ≤ 1e-30 := by norm_num
  obtain ⟨Y, hY⟩ : ∃ Y, Y = M1 * (1 + 1e-30) := ⟨_, rfl⟩
  have Y0 : 0 ≤ Y := by rw [hY]; positivity
  obtain ⟨K, hK⟩ : ∃ K, K = M2 * (Y + 1e-30) := ⟨_, rfl⟩
  have K0 : 0 ≤ K := by rw [hK]; positivity
  refine ⟨K, K0, fun P W hω hmix hw x N c m hm => ?_⟩
  obtain ⟨σ, hf⟩ := C220_flow P x N
  have clip : ∀ n, ∀ z ∈ Spec.clipped σ n, |z.1| ≤ 1 ∧ |z.2| ≤ 1 := fun n z hz => by
    obtain ⟨k, -, rfl⟩ := List.mem_map.1 hz
    exact ⟨Filters.softclip_le _, Filters.softclip_le _⟩
  have fix : ∀ n < N, Fixed (Spec.normal a0 a1 a2 b0 b1 b2) 1 (σ.lp n) ∧ Fixed (Spec.normal d0 d1 d2 f0 f1 f2) Y (σ.hp n) := by
    intro n
    induction n with
    | zero =>
      intro _
      rw [hf.lp0, hf.hp0, (hω 0).1, (hω 0).2, el, eh]
      exact ⟨fixed_new .., fixed_new ..⟩
    | succ n ih =>
      intro hn
      obtain ⟨i1, i2⟩ := ih (by omega)
      obtain ⟨p1, -, p3⟩ := H1 1 _ _ zero_le_one i1 (clip n)
      rw [← hY] at p3
      obtain ⟨q1, -, -⟩ := H2 Y _ _ Y0 i2 p3
      rw [hf.lp n hn, hf.hp n hn, (hω _).1, (hω _).2, el, eh, fixed_tuned p1, fixed_tuned q1]
      exact ⟨p1, q1⟩
  have echo : ∀ c, |σ.echo c m| ≤ K := fun c => by
    obtain ⟨i1, i2⟩ := fix (m / 32) (by omega)
    obtain ⟨-, -, p3⟩ := H1 1 _ _ zero_le_one i1 (clip (m / 32))
    rw [← hY] at p3
    obtain ⟨-, -, q3⟩ := H2 Y _ _ Y0 i2 p3
    rw [← hf.echo _ (by omega), ← hK] at q3
    have := q3 _ (List.mem_map.2 ⟨m % 32, List.mem_range.2 (by omega), rfl⟩)
    rw [show 32 * (m / 32) + m % 32 = m by omega] at this
    cases c
    · exact this.1
    · exact this.2
  obtain ⟨g0, g1⟩ := ramp_between (P := P) (L := 32) (by norm_num) hmix m
  obtain ⟨w0, w1⟩ := ramp_between (P := P) (L := 64) (by norm_num) hw m
  rw [hf.out c m hm, Spec.widened]
  have e1 := echo false
  have e2 := echo true
  generalize Spec.ramp P (fun n => (P n).mix) 32 m = g at g0 g1 ⊢
  generalize Spec.ramp P (fun n => (P n).width) 64 m = w at w0 w1 ⊢
  generalize σ.echo false m = l at e1 ⊢
  generalize σ.echo true m = r at e2 ⊢
  have hmid : |(l + r) / 2| ≤ K := by
    obtain ⟨a, b⟩ := abs_le.1 e1
    obtain ⟨c, d⟩ := abs_le.1 e2
    rw [abs_le]; constructor <;> linarith
  have hside : |(l - r) / 2| ≤ K := by
    obtain ⟨a, b⟩ := abs_le.1 e1
    obtain ⟨c, d⟩ := abs_le.1 e2
    rw [abs_le]; constructor <;> linarith
  have hwid : |(l + r) / 2 + (if c then -1 else 1) * ((l - r) / 2 * w)| ≤ K * (1 + W) := by
    have s : |(if c then (-1 : ℝ) else 1) * ((l - r) / 2 * w)| ≤ K * W := by
      rw [abs_mul, abs_mul, abs_of_nonneg w0]
      have : |(if c then (-1 : ℝ) else 1)| = 1 := by cases c <;> simp
      rw [this, one_mul]
      exact mul_le_mul hside w1 w0 K0
    have := abs_add_le ((l + r) / 2) ((if c then (-1 : ℝ) else 1) * ((l - r) / 2 * w))
    linarith
  have W0 : 0 ≤ W := w0.trans w1
  generalize (l + r) / 2 + (if c then -1 else 1) * ((l - r) / 2 * w) = q at hwid ⊢
  calc |x c m * (1 - g) + q * g| ≤ |x c m * (1 - g)| + |q * g| := abs_add_le _ _
    _ = |x c m| * (1 - g) + |q| * g := by rw [abs_mul, abs_mul, abs_of_nonneg g0, abs_of_nonneg (by linarith : 0 ≤ 1 - g)]
    _ ≤ |x c m| * 1 + K * (1 + W) * 1 := by
      refine add_le_add (mul_le_mul_of_nonneg_left (by linarith) (abs_nonneg _)) (mul_le_mul hwid g1 g0 (by positivity))
    _ = _ := by ring

/-- The cuts may be, say, at a quarter of the sample rate and at a hundredth of it. -/
example : Spec.Usable (Real.pi / 2) (Real.pi / 50) := by
  have := Real.pi_pos
  exact ⟨⟨by positivity, by linarith⟩, ⟨by positivity, by linarith⟩⟩

/-! ## C224: the echoes after the input has ended -/

/-- process.rs 164-170 `process_only_control`: its body is `todo!()`. -/
def control (_ : State) : Res Empty State := .panic "not yet implemented"

/-- surge-traits ringout.rs 20-65 `process_ringout` for this effect; `update` sets the ring-out anew, to some number of blocks (update.rs 71-84), given by `ring`. -/
noncomputable def slot (ring : Params → State → ℕ) (P : Params) (x : Bool → ℕ → ℝ) (present : Bool) (s : State) (r : Fx.Ringout) : Res Empty (State × Fx.Ringout × (Bool → ℕ → ℝ) × Bool) := do
  let (r, doProcess, decayMax) ← Fx.ringoutHead r present
  if r.counter < decayMax ∨ doProcess = true then
    .ok ((process P x s).1, .blocks (ring P s), (process P x s).2, true)
  else do
    let s ← control s
    .ok (s, r, x, false)

/-- One block after the other. -/
noncomputable def slots (ring : Params → State → ℕ) (s : State) (r : Fx.Ringout) : List (Params × (Bool → ℕ → ℝ) × Bool) → Res Empty (State × Fx.Ringout)
  | [] => .ok (s, r)
  | b :: bs => do
    let q ← slot ring b.1 b.2.1 b.2.2 s r
    slots ring q.1 q.2.1 bs

/-- **C224** (refuted: the echoes ring out when the input ends).  In the effect chain a run of the delay survives exactly if every block has input: at the first block without, it panics. -/
theorem C224_ends_with_input_refuted (ring : Params → State → ℕ) (bs : List (Params × (Bool → ℕ → ℝ) × Bool)) (s : State) (d : ℕ) :
    ((∀ b ∈ bs, b.2.2 = true) → (slots ring s (.blocks d) bs).isOk = true) ∧ ((∃ b ∈ bs, b.2.2 = false) → ∃ why, slots ring s (.blocks d) bs = .panic why) := by
  induction bs generalizing s d with
  | nil => exact ⟨fun _ => rfl, fun ⟨b, h, _⟩ => by simp at h⟩
  | cons b bs ih =>
    obtain ⟨P, x, p⟩ := b
    cases p with
    | true =>
      have e : slot ring P x true s (.blocks d) = .ok ((process P x s).1, .blocks (ring P s), (process P x s).2, true) := by
        simp [slot, Fx.ringoutHead, Fx.Ringout.blocks]
      simp only [slots, e, Res.ok_bind]
      refine ⟨fun h => (ih _ _).1 fun b hb => h b (by simp [hb]), fun ⟨b, hb, h⟩ => (ih _ _).2 ?_⟩
      rcases List.mem_cons.1 hb with rfl | hb
      · simp at h
      · exact ⟨b, hb, h⟩
    | false =>
      refine ⟨fun h => by simpa using h _ (List.mem_cons_self ..), fun _ => ⟨"not yet implemented", ?_⟩⟩
      have e : slot ring P x false s (.blocks d) = .panic "not yet implemented" := by
        simp [slot, Fx.ringoutHead, Fx.Ringout.blocks, Fx.Ringout.incr, control]
      simp only [slots, e]
      rfl

end Verif.Effects.DualDelay
