import Verif.Biquad.Designs
import Verif.Smooth.Lipol
import Mathlib.Algebra.BigOperators.Fin
/-!
# The phaser (C148, C149), in exact real arithmetic

surgefx-phaser at the block size of 32 samples.  The tuning table that turns a scaled pitch into an angular frequency is an arbitrary function `omega`; `rate` is the
phase step per block (table value times tempo ratio).  Not modelled: rounding.
-/
namespace Verif.Effects.Phaser
open Verif.Biquad Verif.Smooth

/-- surge-math/src/limit_range.rs 19-60 `limit_range`: `min (max x low) high`. -/
noncomputable def limit (x lo hi : ℝ) : ℝ := min (max x lo) hi

/-- What one channel keeps: the last output `d_l` or `d_r` and its four filters. -/
structure Voice where
  d : ℝ
  bank : List Filter

/-- block.rs 21-28: the filters of one channel one after the other. -/
noncomputable def cascade : List Filter → ℝ → List Filter × ℝ
  | [], x => ([], x)
  | f :: fs, x => let p := f.processSample x
    let q := cascade fs p.2
    (p.1 :: q.1, q.2)

/-- block.rs 13-29: one sample of one channel. -/
noncomputable def Voice.sample (fb x : ℝ) (v : Voice) : Voice :=
  let d := x + v.d * fb
  let d := limit d (-32) 32
  let q := cascade v.bank d
  ⟨q.2, q.1⟩

/-- param.rs: the parameters `update` and `process` read (`ReturnLevel` is read nowhere). -/
structure Params where
  base : ℝ
  feedback : ℝ
  quality : ℝ
  rate : ℝ
  depth : ℝ
  stereo : ℝ
  mix : ℝ

/-- phaser.rs 5-29. -/
structure State where
  lfophase : ℝ
  bi : ℕ
  feedback : LiPol ℝ
  left : Voice
  right : Voice
  mix : LipolPs ℝ

/-- constants.rs 4-16: `PHASER_BASEFREQ` and `PHASER_BASEPAN`. -/
noncomputable def table : List (ℝ × ℝ) := [(1.5 / 12, 2), (19.5 / 12, 1.5), (35 / 12, 1), (50 / 12, 0.5)]

/-- update.rs 13-15, 22-24: `if x > 1.0 { x -= 1.0 }`. -/
noncomputable def wrap (p : ℝ) : ℝ := if p > 1 then p - 1 else p

/-- update.rs 26-27: `1.0 - (2.0 - 4.0 * phase).abs()`. -/
noncomputable def triangle (p : ℝ) : ℝ := 1 - |2 - 4 * p|

/-- update.rs 29-52: the four filters of one channel, whose LFO is at `lfo`. -/
noncomputable def retune (omega : ℝ → ℝ) (P : Params) (lfo : ℝ) (bank : List Filter) : List Filter :=
  List.zipWith (fun t f => f.coeffApf (omega (2 * P.base + t.1 + t.2 * lfo * P.depth)) (1 + 0.8 * P.quality)) table bank

/-- update.rs 5-55: `update`. -/
noncomputable def update (omega : ℝ → ℝ) (P : Params) (s : State) : State :=
  let phase := wrap (s.lfophase + 8 * P.rate)
  let phaseR := wrap (phase + 0.5 * P.stereo)
  { s with lfophase := phase, left := ⟨s.left.d, retune omega P (triangle phase) s.left.bank⟩,
           right := ⟨s.right.d, retune omega P (triangle phaseR) s.right.bank⟩, feedback := s.feedback.newValue (0.95 * P.feedback) }

/-- block.rs 5-33: `do_phaser_block`, one sample of both channels. -/
noncomputable def tick (l r : ℝ) (s : State) : State :=
  let fb := s.feedback.process
  { s with feedback := fb, left := s.left.sample fb.v l, right := s.right.sample fb.v r }

/-- process.rs 12-23: the state after `k` samples of a block. -/
noncomputable def after (l r : ℕ → ℝ) (s : State) : ℕ → State
  | 0 => s
  | k + 1 => tick (l k) (r k) (after l r s k)

/-- process.rs 12-16: what happens before the samples of a block. -/
noncomputable def enter (omega : ℝ → ℝ) (P : Params) (s : State) : State :=
  let s := if s.bi = 0 then update omega P s else s
  { s with bi := (s.bi + 1) &&& 7 }

/-- process.rs 5-41: `stereo_process`, 32 samples; the fade reads the wet samples left in the buffers `l` and `r`. -/
noncomputable def process (omega : ℝ → ℝ) (P : Params) (l r : ℕ → ℝ) (s : State) : State × (ℕ → ℝ) × (ℕ → ℝ) :=
  let s := enter omega P s
  let e := after l r s 32
  let mix := e.mix.setTargetSmoothed (limit P.mix 0 1)
  ({ e with mix := mix }, mix.fadeTo 8 l (fun k => (after l r s (k + 1)).left.d) l, mix.fadeTo 8 r (fun k => (after l r s (k + 1)).right.d) r)

/-- init.rs 40-62 `new`, 5-19 `init`. -/
noncomputable def start : State :=
  ⟨0.25, 0, LiPol.new 256, ⟨0, List.replicate 4 Filter.new⟩, ⟨0, List.replicate 4 Filter.new⟩, (((LipolPs.default).setBlocksize 32).setTarget 1).instantize⟩

/-- What comes in with one block. -/
structure Blk where
  par : Params
  l : ℕ → ℝ
  r : ℕ → ℝ

/-- A freshly initialised phaser before block `t` of the sequence `B`. -/
noncomputable def stateAt (omega : ℝ → ℝ) (B : ℕ → Blk) : ℕ → State
  | 0 => start
  | t + 1 => (process omega (B t).par (B t).l (B t).r (stateAt omega B t)).1

/-- The wet signal, sample `k` of block `t`. -/
noncomputable def wetL (omega : ℝ → ℝ) (B : ℕ → Blk) (t k : ℕ) : ℝ := (after (B t).l (B t).r (enter omega (B t).par (stateAt omega B t)) (k + 1)).left.d
noncomputable def wetR (omega : ℝ → ℝ) (B : ℕ → Blk) (t k : ℕ) : ℝ := (after (B t).l (B t).r (enter omega (B t).par (stateAt omega B t)) (k + 1)).right.d
/-- The output. -/
noncomputable def outL (omega : ℝ → ℝ) (B : ℕ → Blk) (t : ℕ) : ℕ → ℝ := (process omega (B t).par (B t).l (B t).r (stateAt omega B t)).2.1
noncomputable def outR (omega : ℝ → ℝ) (B : ℕ → Blk) (t : ℕ) : ℕ → ℝ := (process omega (B t).par (B t).l (B t).r (stateAt omega B t)).2.2

/-! ## One filter -/

/-- The coefficients of the all-pass design. -/
noncomputable def apfCf (ω q : ℝ) : Cf := (Filter.new.coeffApf ω q).cf

/-- A filter that rests at coefficients of an all-pass: a stable one, or one which copies its input as long as its registers are empty. -/
def Held (c : Cf) (f : Filter) : Prop := Rests c f ∧ f.firstRun = false ∧
  ((Spec.Stable c ∧ c.b0 = c.a2 ∧ c.b1 = c.a1 ∧ c.b2 = 1) ∨ (c.b0 = 1 ∧ c.b1 = c.a1 ∧ c.b2 = c.a2) ∧ f.reg0.1 = 0 ∧ f.reg1.1 = 0)

noncomputable def energy (f : Filter) : ℝ := Spec.stored f.a1.v f.a2.v (f.reg0.1, f.reg1.1)

theorem apf_shape (f : Filter) (ω q : ℝ) : ∃ a0 a1 a2 b0 b1 b2, (∀ f : Filter, f.coeffApf ω q = f.setCoef a0 a1 a2 b0 b1 b2) ∧ (0 < q →
    ((Spec.Stable (Spec.normal a0 a1 a2 b0 b1 b2) ∧ (Spec.normal a0 a1 a2 b0 b1 b2).b0 = (Spec.normal a0 a1 a2 b0 b1 b2).a2 ∧
      (Spec.normal a0 a1 a2 b0 b1 b2).b1 = (Spec.normal a0 a1 a2 b0 b1 b2).a1 ∧ (Spec.normal a0 a1 a2 b0 b1 b2).b2 = 1) ∨
    ((Spec.normal a0 a1 a2 b0 b1 b2).b0 = 1 ∧ (Spec.normal a0 a1 a2 b0 b1 b2).b1 = (Spec.normal a0 a1 a2 b0 b1 b2).a1 ∧
      (Spec.normal a0 a1 a2 b0 b1 b2).b2 = (Spec.normal a0 a1 a2 b0 b1 b2).a2))) := by
  by_cases h : 0 ≤ ω ∧ ω ≤ Real.pi
  · refine ⟨1 + Real.sin ω / (2 * q), -2 * Real.cos ω, 1 - Real.sin ω / (2 * q), 1 - Real.sin ω / (2 * q), -2 * Real.cos ω, 1 + Real.sin ω / (2 * q),
      fun f => if_neg (not_not.2 h), fun hq => ?_⟩
    by_cases hs : Real.sin ω = 0
    · right
      simp [Spec.normal, hs]
    · left
      have h0 : 0 < ω := lt_of_le_of_ne h.1 fun e => hs (by rw [← e, Real.sin_zero])
      have h1 : ω < Real.pi := lt_of_le_of_ne h.2 fun e => hs (by rw [e, Real.sin_pi])
      have hα := alpha_pos h0 h1 hq
      exact ⟨stable_of_alpha hα (cos_lt_one_abs h0 h1) _ _ _, rfl, rfl, div_self (by linarith)⟩
  · refine ⟨1, 0, 0, 1, 0, 0, fun f => if_pos h, fun _ => .inr ?_⟩
    simp [Spec.normal]

theorem held_first {f : Filter} (hf : f.firstRun = true) (h0 : f.reg0.1 = 0 ∧ f.reg1.1 = 0) {ω q : ℝ} (hq : 0 < q) :
    Held (apfCf ω q) (f.coeffApf ω q) ∧ (f.coeffApf ω q).reg0.1 = 0 ∧ (f.coeffApf ω q).reg1.1 = 0 := by
  obtain ⟨a0, a1, a2, b0, b1, b2, e, h⟩ := apf_shape f ω q
  have c : apfCf ω q = Spec.normal a0 a1 a2 b0 b1 b2 := by
    unfold apfCf; rw [e]; exact rests_cf (setCoef_first Filter.new rfl ..)
  have r0 : (f.coeffApf ω q).reg0.1 = 0 := by rw [e]; simp only [Filter.setCoef, Filter.newValues, Filter.start, hf, if_true]; exact h0.1
  have r1 : (f.coeffApf ω q).reg1.1 = 0 := by rw [e]; simp only [Filter.setCoef, Filter.newValues, Filter.start, hf, if_true]; exact h0.2
  refine ⟨⟨by rw [c, e]; exact setCoef_first f hf .., by rw [e]; simp [Filter.setCoef, Filter.newValues, Filter.start, hf], ?_⟩, r0, r1⟩
  rw [c]
  exact (h hq).imp id fun h => ⟨h, r0, r1⟩

theorem held_again {f : Filter} {ω q : ℝ} (h : Held (apfCf ω q) f) : f.coeffApf ω q = f := by
  obtain ⟨a0, a1, a2, b0, b1, b2, e, -⟩ := apf_shape f ω q
  have c : apfCf ω q = Spec.normal a0 a1 a2 b0 b1 b2 := by
    unfold apfCf; rw [e]; exact rests_cf (setCoef_first Filter.new rfl ..)
  obtain ⟨hr, hf, -⟩ := h
  rw [c] at hr
  obtain ⟨h1, h2, h3, h4, h5⟩ := hr
  rw [e]
  simp only [Filter.setCoef, Filter.start, hf, Bool.false_eq_true, if_false, Filter.newValues]
  cases f
  simp only [Spec.normal] at h1 h2 h3 h4 h5
  simp only [h1, h2, h3, h4, h5, VLag.newValue, mul_one_div]
  simp_all

theorem held_sample {c : Cf} {f : Filter} (h : Held c f) (x : ℝ) : Held c (f.processSample x).1 ∧
    energy (f.processSample x).1 + (f.processSample x).2 ^ 2 = energy f + x ^ 2 := by
  obtain ⟨hr, hf, hc⟩ := h
  have hp := rests_process hr
  have ecf := rests_cf hp
  have e0 := rests_cf hr
  have lag : f.coeffProcess.a1.v = f.a1.v ∧ f.coeffProcess.a2.v = f.a2.v := by
    obtain ⟨p1, p2, -⟩ := hp
    obtain ⟨q1, q2, -⟩ := hr
    rw [p1, p2, q1, q2]; exact ⟨rfl, rfl⟩
  have ea : c.a1 = f.a1.v ∧ c.a2 = f.a2.v := by rw [← e0]; exact ⟨rfl, rfl⟩
  have out : (f.processSample x).2 = x * c.b0 + f.reg0.1 := by
    simp only [Filter.processSample, Filter.left, ecf, chan]; rfl
  have r0 : (f.processSample x).1.reg0.1 = x * c.b1 - c.a1 * (x * c.b0 + f.reg0.1) + f.reg1.1 := by
    simp only [Filter.processSample, Filter.left, ecf, chan]; rfl
  have r1 : (f.processSample x).1.reg1.1 = x * c.b2 - c.a2 * (x * c.b0 + f.reg0.1) := by
    simp only [Filter.processSample, Filter.left, ecf, chan]; rfl
  have rest : Rests c (f.processSample x).1 := hp
  have ev : energy (f.processSample x).1 = Spec.stored c.a1 c.a2 ((f.processSample x).1.reg0.1, (f.processSample x).1.reg1.1) := by
    rw [← rests_cf rest]; rfl
  have ev0 : energy f = Spec.stored c.a1 c.a2 (f.reg0.1, f.reg1.1) := by rw [← e0]; rfl
  rcases hc with ⟨hs, hb0, hb1, hb2⟩ | ⟨⟨hb0, hb1, hb2⟩, z0, z1⟩
  · refine ⟨⟨rest, hf, .inl ⟨hs, hb0, hb1, hb2⟩⟩, ?_⟩
    rw [ev, ev0, out, r0, r1, hb0, hb1, hb2]
    obtain ⟨h2, h1⟩ := hs
    obtain ⟨h2a, h2b⟩ := abs_lt.1 h2
    obtain ⟨h1a, h1b⟩ := abs_lt.1 h1
    have d1 : 1 - c.a2 ≠ 0 := by linarith
    have d2 : (1 + c.a2) ^ 2 - c.a1 ^ 2 ≠ 0 := by
      have : (1 + c.a2) ^ 2 - c.a1 ^ 2 = (1 + c.a2 - c.a1) * (1 + c.a2 + c.a1) := by ring
      rw [this]; exact mul_ne_zero (by linarith) (by linarith)
    unfold Spec.stored
    field_simp
    ring
  · have q0 : (f.processSample x).1.reg0.1 = 0 := by rw [r0, hb0, hb1, z0, z1]; ring
    have q1 : (f.processSample x).1.reg1.1 = 0 := by rw [r1, hb0, hb2, z0]; ring
    refine ⟨⟨rest, hf, .inr ⟨⟨hb0, hb1, hb2⟩, q0, q1⟩⟩, ?_⟩
    rw [ev, ev0, out, q0, q1, hb0, z0, z1]
    ring

theorem held_energy {c : Cf} {f : Filter} (h : Held c f) : 0 ≤ energy f := by
  obtain ⟨hr, -, ⟨hs, -⟩ | ⟨-, z0, z1⟩⟩ := h
  · have e : energy f = Spec.stored c.a1 c.a2 (f.reg0.1, f.reg1.1) := by rw [← rests_cf hr]; rfl
    rw [e]; exact (stored_pos hs _).1
  · simp [energy, z0, z1, Spec.stored]

/-! ## The cascade -/

noncomputable def bankEnergy (bank : List Filter) : ℝ := (bank.map energy).sum

theorem cascade_held {cs : List Cf} {bank : List Filter} (h : List.Forall₂ Held cs bank) (x : ℝ) : List.Forall₂ Held cs (cascade bank x).1 ∧
    bankEnergy (cascade bank x).1 + (cascade bank x).2 ^ 2 = bankEnergy bank + x ^ 2 := by
  induction h generalizing x with
  | nil => exact ⟨.nil, by simp [cascade, bankEnergy]⟩
  | cons hf _ ih =>
    obtain ⟨h1, e1⟩ := held_sample hf x
    obtain ⟨h2, e2⟩ := ih (Filter.processSample _ x).2
    refine ⟨.cons h1 h2, ?_⟩
    simp only [cascade, bankEnergy, List.map_cons, List.sum_cons] at e2 ⊢
    linarith

theorem bank_nonneg {cs : List Cf} {bank : List Filter} (h : List.Forall₂ Held cs bank) : 0 ≤ bankEnergy bank := by
  induction h with
  | nil => simp [bankEnergy]
  | cons hf _ ih =>
    simp only [bankEnergy, List.map_cons, List.sum_cons] at ih ⊢
    linarith [held_energy hf]

theorem limit_sq (x : ℝ) : (limit x (-32) 32) ^ 2 ≤ x ^ 2 := by
  unfold limit
  rcases le_total x (-32) with h | h
  · rw [max_eq_right h, min_eq_left (by norm_num)]; nlinarith
  · rw [max_eq_left h]
    rcases le_total x 32 with h' | h'
    · rw [min_eq_left h']
    · rw [min_eq_right h']; nlinarith

/-- What a channel holds. -/
noncomputable def Voice.potential (v : Voice) : ℝ := bankEnergy v.bank + 0.95 * v.d ^ 2

theorem voice_sample {cs : List Cf} {v : Voice} (h : List.Forall₂ Held cs v.bank) {fb : ℝ} (hfb : |fb| ≤ 0.95) (x : ℝ) :
    List.Forall₂ Held cs (v.sample fb x).bank ∧ (v.sample fb x).potential + 0.05 * (v.sample fb x).d ^ 2 ≤ v.potential + 20 * x ^ 2 := by
  obtain ⟨h1, e⟩ := cascade_held h (limit (x + v.d * fb) (-32) 32)
  refine ⟨h1, ?_⟩
  have l := limit_sq (x + v.d * fb)
  have f2 : fb ^ 2 ≤ 0.9025 := by
    have := pow_le_pow_left₀ (abs_nonneg fb) hfb 2
    rw [sq_abs] at this; norm_num at this ⊢; linarith
  have k : (x + v.d * fb) ^ 2 ≤ 20 * x ^ 2 + 0.95 * v.d ^ 2 := by
    have a : v.d ^ 2 * fb ^ 2 ≤ v.d ^ 2 * 0.9025 := mul_le_mul_of_nonneg_left f2 (sq_nonneg _)
    have b : 0 ≤ (19 * x - v.d * fb) ^ 2 := sq_nonneg _
    norm_num at a ⊢
    nlinarith
  simp only [Voice.sample, Voice.potential]
  linarith

/-! ## Runs -/

/-- The sweep is off and the base frequency and the quality stay where they are; feedback (within ±1), rate, stereo and mix may change with every block. -/
def Spec.Unswept (base quality : ℝ) (B : ℕ → Blk) : Prop :=
  ∀ t, (B t).par.base = base ∧ (B t).par.quality = quality ∧ (B t).par.depth = 0 ∧ |(B t).par.feedback| ≤ 1

noncomputable def goal (omega : ℝ → ℝ) (base quality : ℝ) : List Cf := table.map fun t => apfCf (omega (2 * base + t.1)) (1 + 0.8 * quality)

/-- `i` samples after the last new value. -/
def Feed (l : LiPol ℝ) (i : ℕ) : Prop := l.first = false ∧ |l.newV| ≤ 0.95 ∧ ∃ s, |s| ≤ 0.95 ∧ l.dv = (l.newV - s) * (1 / 256) ∧ l.v = s + i * l.dv

theorem feed_step {l : LiPol ℝ} {i : ℕ} (h : Feed l i) (hi : i < 256) : Feed l.process (i + 1) ∧ |l.process.v| ≤ 0.95 := by
  obtain ⟨h1, h2, s, hs, hd, hv⟩ := h
  have hv' : l.process.v = s + ((i + 1 : ℕ) : ℝ) * l.dv := by simp only [LiPol.process, hv]; push_cast; ring
  refine ⟨⟨h1, h2, s, hs, hd, hv'⟩, ?_⟩
  have i0 : (0 : ℝ) ≤ ((i + 1 : ℕ) : ℝ) := by positivity
  have i1 : ((i + 1 : ℕ) : ℝ) ≤ 256 := by exact_mod_cast hi
  rw [hv', hd]
  generalize ((i + 1 : ℕ) : ℝ) = n at *
  have e : s + n * ((l.newV - s) * (1 / 256)) = (1 - n / 256) * s + n / 256 * l.newV := by ring
  rw [e]
  have n0 : 0 ≤ n / 256 := by positivity
  have n1 : 0 ≤ 1 - n / 256 := by linarith
  refine (abs_add_le _ _).trans ?_
  rw [abs_mul, abs_mul, abs_of_nonneg n0, abs_of_nonneg n1]
  nlinarith

/-- What holds before block `t`. -/
structure Inv (cs : List Cf) (t : ℕ) (s : State) : Prop where
  bi : s.bi = t % 8
  inv : s.feedback.bsInv = 1 / 256
  cases : (t = 0 ∧ s.left.bank = List.replicate 4 Filter.new ∧ s.right.bank = List.replicate 4 Filter.new ∧ s.feedback.first = true) ∨
    (0 < t ∧ List.Forall₂ Held cs s.left.bank ∧ List.Forall₂ Held cs s.right.bank ∧ Feed s.feedback (32 * ((t - 1) % 8 + 1)))

/-- What holds inside block `t`, after `k` samples. -/
structure Mid (cs : List Cf) (t k : ℕ) (s : State) : Prop where
  bi : s.bi = (t + 1) % 8
  inv : s.feedback.bsInv = 1 / 256
  left : List.Forall₂ Held cs s.left.bank
  right : List.Forall₂ Held cs s.right.bank
  feed : Feed s.feedback (32 * (t % 8) + k)

theorem retune_held {omega : ℝ → ℝ} {P : Params} {base quality : ℝ} (hb : P.base = base) (hq : P.quality = quality) (hd : P.depth = 0) (lfo : ℝ) {bank : List Filter}
    (h : List.Forall₂ Held (goal omega base quality) bank) : retune omega P lfo bank = bank := by
  have key : ∀ (ts : List (ℝ × ℝ)) (bank : List Filter), List.Forall₂ Held (ts.map fun t => apfCf (omega (2 * base + t.1)) (1 + 0.8 * quality)) bank →
      List.zipWith (fun t f => f.coeffApf (omega (2 * P.base + t.1 + t.2 * lfo * P.depth)) (1 + 0.8 * P.quality)) ts bank = bank := by
    intro ts
    induction ts with
    | nil => intro bank h; simp only [List.map_nil, List.forall₂_nil_left_iff] at h; simp [h]
    | cons t ts ih =>
      intro bank h
      simp only [List.map_cons] at h
      cases h with
      | cons h1 h2 =>
        rw [List.zipWith_cons_cons, ih _ h2, hb, hq, hd, mul_zero, add_zero, held_again h1]
  exact key table bank h

theorem retune_new {omega : ℝ → ℝ} {P : Params} {base quality : ℝ} (hb : P.base = base) (hq : P.quality = quality) (hd : P.depth = 0) (hp : |quality| ≤ 1) (lfo : ℝ) :
    List.Forall₂ Held (goal omega base quality) (retune omega P lfo (List.replicate 4 Filter.new)) ∧ bankEnergy (retune omega P lfo (List.replicate 4 Filter.new)) = 0 := by
  have q0 : 0 < 1 + 0.8 * quality := by have := (abs_le.1 hp).1; norm_num; linarith
  have f := fun ω => held_first (f := Filter.new) rfl ⟨rfl, rfl⟩ (ω := ω) q0
  have en : ∀ ω, energy (Filter.new.coeffApf ω (1 + 0.8 * quality)) = 0 := fun ω => by
    obtain ⟨-, r0, r1⟩ := f ω
    simp [energy, r0, r1, Spec.stored]
  simp only [goal, table, retune, List.replicate, hb, hq, hd, mul_zero, add_zero, List.map_cons, List.map_nil, List.zipWith_cons_cons, List.zipWith_nil_left]
  refine ⟨.cons (f _).1 (.cons (f _).1 (.cons (f _).1 (.cons (f _).1 .nil))), ?_⟩
  simp [bankEnergy, en]

theorem and7 (n : ℕ) : n &&& 7 = n % 8 := Nat.and_two_pow_sub_one_eq_mod n 3

theorem enter_mid {omega : ℝ → ℝ} {base quality : ℝ} (hp : |quality| ≤ 1) {P : Params} (hP : P.base = base ∧ P.quality = quality ∧ P.depth = 0 ∧ |P.feedback| ≤ 1)
    {t : ℕ} {s : State} (h : Inv (goal omega base quality) t s) : Mid (goal omega base quality) t 0 (enter omega P s) ∧
    (enter omega P s).left.d = s.left.d ∧ (enter omega P s).right.d = s.right.d ∧
    (0 < t → (enter omega P s).left = s.left ∧ (enter omega P s).right = s.right) ∧
    (t = 0 → bankEnergy (enter omega P s).left.bank = 0 ∧ bankEnergy (enter omega P s).right.bank = 0) := by
  obtain ⟨hb, hq, hd, hf⟩ := hP
  obtain ⟨bi, inv, cs⟩ := h
  have f95 : |0.95 * P.feedback| ≤ 0.95 := by rw [abs_mul, abs_of_pos (by norm_num : (0 : ℝ) < 0.95)]; norm_num; linarith
  rcases cs with ⟨rfl, bl, br, fst⟩ | ⟨tp, hl, hr, fd⟩
  · have b0 : s.bi = 0 := by rw [bi]
    obtain ⟨l1, l2⟩ := retune_new (omega := omega) hb hq hd hp (triangle (wrap (s.lfophase + 8 * P.rate)))
    obtain ⟨r1, r2⟩ := retune_new (omega := omega) hb hq hd hp (triangle (wrap (wrap (s.lfophase + 8 * P.rate) + 0.5 * P.stereo)))
    have e : enter omega P s = { update omega P s with bi := (s.bi + 1) &&& 7 } := by unfold enter; rw [if_pos b0]; rfl
    rw [e]
    refine ⟨⟨by simp only [b0]; rfl, inv, by simp only [update, bl]; exact l1, by simp only [update, br]; exact r1, ?_⟩, rfl, rfl, fun h => absurd h (by omega),
      fun _ => ⟨by simp only [update, bl]; exact l2, by simp only [update, br]; exact r2⟩⟩
    refine ⟨rfl, f95, 0.95 * P.feedback, f95, ?_, ?_⟩
    · simp only [update, LiPol.newValue, fst, if_true]; ring
    · simp only [update, LiPol.newValue, fst, if_true]; ring
  · by_cases b0 : s.bi = 0
    · have t8 : t % 8 = 0 := by omega
      have e : enter omega P s = { update omega P s with bi := (s.bi + 1) &&& 7 } := by unfold enter; rw [if_pos b0]; rfl
      have el : (enter omega P s).left = s.left := by rw [e]; simp only [update, retune_held hb hq hd _ hl]
      have er : (enter omega P s).right = s.right := by rw [e]; simp only [update, retune_held hb hq hd _ hr]
      obtain ⟨g1, g2, -⟩ := fd
      refine ⟨⟨by rw [e]; simp only [b0, and7]; omega, by rw [e]; exact inv, by rw [el]; exact hl, by rw [er]; exact hr, ?_⟩, by rw [el], by rw [er], fun _ => ⟨el, er⟩, fun h => by omega⟩
      rw [e, t8]
      refine ⟨rfl, f95, s.feedback.newV, g2, ?_, ?_⟩
      · simp only [update, LiPol.newValue, g1, Bool.false_eq_true, if_false, inv]
      · simp only [update, LiPol.newValue, g1, Bool.false_eq_true, if_false]; push_cast; ring
    · have e : enter omega P s = { s with bi := (s.bi + 1) &&& 7 } := by simp only [enter, b0, if_false]
      have t8 : 32 * ((t - 1) % 8 + 1) = 32 * (t % 8) + 0 := by omega
      rw [e]
      refine ⟨⟨by simp only [and7, bi]; omega, inv, hl, hr, ?_⟩, rfl, rfl, fun _ => ⟨rfl, rfl⟩, fun h => by omega⟩
      rw [← t8]; exact fd

theorem mid_step {cs : List Cf} {t k : ℕ} {s : State} (h : Mid cs t k s) (hk : k < 32) (l r : ℝ) : Mid cs t (k + 1) (tick l r s) ∧
    (tick l r s).left.potential + 0.05 * (tick l r s).left.d ^ 2 ≤ s.left.potential + 20 * l ^ 2 ∧
    (tick l r s).right.potential + 0.05 * (tick l r s).right.d ^ 2 ≤ s.right.potential + 20 * r ^ 2 := by
  obtain ⟨bi, inv, hl, hr, fd⟩ := h
  obtain ⟨f1, f2⟩ := feed_step fd (by have := Nat.mod_lt t (show 0 < 8 by norm_num); omega)
  obtain ⟨l1, l2⟩ := voice_sample hl f2 l
  obtain ⟨r1, r2⟩ := voice_sample hr f2 r
  exact ⟨⟨bi, inv, l1, r1, f1⟩, l2, r2⟩

theorem after_mid {cs : List Cf} {t : ℕ} {s : State} (h : Mid cs t 0 s) (l r : ℕ → ℝ) : ∀ k ≤ 32, Mid cs t k (after l r s k) ∧
    (after l r s k).left.potential + 0.05 * ∑ j ∈ Finset.range k, (after l r s (j + 1)).left.d ^ 2 ≤ s.left.potential + 20 * ∑ j ∈ Finset.range k, l j ^ 2 ∧
    (after l r s k).right.potential + 0.05 * ∑ j ∈ Finset.range k, (after l r s (j + 1)).right.d ^ 2 ≤ s.right.potential + 20 * ∑ j ∈ Finset.range k, r j ^ 2
  | 0, _ => ⟨h, by simp [after], by simp [after]⟩
  | k + 1, hk => by
    obtain ⟨m, a, b⟩ := after_mid h l r k (by omega)
    obtain ⟨m', a', b'⟩ := mid_step m (by omega) (l k) (r k)
    refine ⟨m', ?_, ?_⟩
    · rw [Finset.sum_range_succ, Finset.sum_range_succ, show after l r s (k + 1) = tick (l k) (r k) (after l r s k) from rfl]; linarith
    · rw [Finset.sum_range_succ, Finset.sum_range_succ, show after l r s (k + 1) = tick (l k) (r k) (after l r s k) from rfl]; linarith

theorem run_inv {omega : ℝ → ℝ} {base quality : ℝ} (hp : |quality| ≤ 1) {B : ℕ → Blk} (hB : Spec.Unswept base quality B) : ∀ t,
    Inv (goal omega base quality) t (stateAt omega B t) ∧
    (0 < t → (stateAt omega B t).left.potential + 0.05 * ∑ j ∈ Finset.range t, ∑ k ∈ Finset.range 32, wetL omega B j k ^ 2 ≤ 20 * ∑ j ∈ Finset.range t, ∑ k ∈ Finset.range 32, (B j).l k ^ 2 ∧
      (stateAt omega B t).right.potential + 0.05 * ∑ j ∈ Finset.range t, ∑ k ∈ Finset.range 32, wetR omega B j k ^ 2 ≤ 20 * ∑ j ∈ Finset.range t, ∑ k ∈ Finset.range 32, (B j).r k ^ 2)
  | 0 => ⟨⟨rfl, by simp [stateAt, start, LiPol.new], .inl ⟨rfl, rfl, rfl, rfl⟩⟩, fun h => absurd h (lt_irrefl 0)⟩
  | t + 1 => by
    obtain ⟨i, e⟩ := run_inv hp hB t
    obtain ⟨m, d1, d2, later, first⟩ := enter_mid hp (hB t) i
    obtain ⟨m', a, b⟩ := after_mid m (B t).l (B t).r 32 le_rfl
    have sl : (stateAt omega B (t + 1)).left = (after (B t).l (B t).r (enter omega (B t).par (stateAt omega B t)) 32).left := rfl
    have sr : (stateAt omega B (t + 1)).right = (after (B t).l (B t).r (enter omega (B t).par (stateAt omega B t)) 32).right := rfl
    have sf : (stateAt omega B (t + 1)).feedback = (after (B t).l (B t).r (enter omega (B t).par (stateAt omega B t)) 32).feedback := rfl
    have sb : (stateAt omega B (t + 1)).bi = (after (B t).l (B t).r (enter omega (B t).par (stateAt omega B t)) 32).bi := rfl
    have a' : (stateAt omega B (t + 1)).left.potential + 0.05 * ∑ k ∈ Finset.range 32, wetL omega B t k ^ 2 ≤
      (enter omega (B t).par (stateAt omega B t)).left.potential + 20 * ∑ k ∈ Finset.range 32, (B t).l k ^ 2 := by rw [sl]; exact a
    have b' : (stateAt omega B (t + 1)).right.potential + 0.05 * ∑ k ∈ Finset.range 32, wetR omega B t k ^ 2 ≤
      (enter omega (B t).par (stateAt omega B t)).right.potential + 20 * ∑ k ∈ Finset.range 32, (B t).r k ^ 2 := by rw [sr]; exact b
    have ff : 32 * ((t + 1 - 1) % 8 + 1) = 32 * (t % 8) + 32 := by rw [Nat.add_sub_cancel]; ring
    refine ⟨⟨sb.trans m'.bi, by rw [sf]; exact m'.inv, .inr ⟨by omega, by rw [sl]; exact m'.left, by rw [sr]; exact m'.right, ?_⟩⟩, fun _ => ?_⟩
    · rw [ff, sf]; exact m'.feed
    · clear a b sl sr sf sb m' m ff
      rw [Finset.sum_range_succ (n := t) (f := fun j => ∑ k ∈ Finset.range 32, wetL omega B j k ^ 2),
        Finset.sum_range_succ (n := t) (f := fun j => ∑ k ∈ Finset.range 32, (B j).l k ^ 2), Finset.sum_range_succ (n := t) (f := fun j => ∑ k ∈ Finset.range 32, wetR omega B j k ^ 2),
        Finset.sum_range_succ (n := t) (f := fun j => ∑ k ∈ Finset.range 32, (B j).r k ^ 2)]
      rcases Nat.eq_zero_or_pos t with rfl | tp
      · obtain ⟨z1, z2⟩ := first rfl
        have p1 : (enter omega (B 0).par (stateAt omega B 0)).left.potential = 0 := by
          unfold Voice.potential; rw [z1, d1]; simp [stateAt, start]
        have p2 : (enter omega (B 0).par (stateAt omega B 0)).right.potential = 0 := by
          unfold Voice.potential; rw [z2, d2]; simp [stateAt, start]
        rw [p1] at a'; rw [p2] at b'
        rw [Finset.range_zero, Finset.sum_empty, Finset.sum_empty, Finset.sum_empty, Finset.sum_empty]
        constructor <;> linarith
      · obtain ⟨q1, q2⟩ := e tp
        obtain ⟨l1, l2⟩ := later tp
        rw [l1] at a'; rw [l2] at b'
        rw [mul_add, mul_add, mul_add, mul_add]
        constructor <;> linarith

/-- **C148.** The phaser with the sweep off: whatever the base frequency, the tuning, the quality, the input and the changes of feedback, stereo, rate and mix, the energy of the wet signal is at any
time at most 400 times that of the input so far: a gain of at most 20, the one a feedback of 0.95 has.  In particular the tail after the input has ended has finite energy.
Missing: the sweep. -/
theorem C148_energy_partial (omega : ℝ → ℝ) {base quality : ℝ} (hp : |quality| ≤ 1) {B : ℕ → Blk} (hB : Spec.Unswept base quality B) (t : ℕ) :
    ∑ j ∈ Finset.range t, ∑ k ∈ Finset.range 32, wetL omega B j k ^ 2 ≤ 400 * ∑ j ∈ Finset.range t, ∑ k ∈ Finset.range 32, (B j).l k ^ 2 ∧
    ∑ j ∈ Finset.range t, ∑ k ∈ Finset.range 32, wetR omega B j k ^ 2 ≤ 400 * ∑ j ∈ Finset.range t, ∑ k ∈ Finset.range 32, (B j).r k ^ 2 := by
  rcases Nat.eq_zero_or_pos t with rfl | tp
  · simp
  obtain ⟨i, e⟩ := run_inv (omega := omega) hp hB t
  obtain ⟨a, b⟩ := e tp
  obtain ⟨-, -, ⟨h, -⟩ | ⟨-, hl, hr, -⟩⟩ := i
  · omega
  have p1 : 0 ≤ (stateAt omega B t).left.potential := by
    have := bank_nonneg hl; have := sq_nonneg (stateAt omega B t).left.d; unfold Voice.potential; norm_num; linarith
  have p2 : 0 ≤ (stateAt omega B t).right.potential := by
    have := bank_nonneg hr; have := sq_nonneg (stateAt omega B t).right.d; unfold Voice.potential; norm_num; linarith
  norm_num at a b
  constructor <;> linarith

/-! ## A bound on the samples -/

noncomputable def filterAt (f : Filter) (u : ℕ → ℝ) : ℕ → Filter
  | 0 => f
  | n + 1 => ((filterAt f u n).processSample (u n)).1

noncomputable def filterOut (f : Filter) (u : ℕ → ℝ) (n : ℕ) : ℝ := ((filterAt f u n).processSample (u n)).2

theorem filter_bound {c : Cf} {f : Filter} (h : Held c f) {X : ℝ} (hX : 0 ≤ X) : ∃ M, 0 ≤ M ∧ ∀ u : ℕ → ℝ, (∀ n, |u n| ≤ X) → ∀ n, |filterOut f u n| ≤ M := by
  have held : ∀ (u : ℕ → ℝ) (n : ℕ), Held c (filterAt f u n) := fun u n => by
    induction n with
    | zero => exact h
    | succ n ih => exact (held_sample ih _).1
  have step : ∀ (u : ℕ → ℝ) (n : ℕ), filterOut f u n = u n * c.b0 + (filterAt f u n).reg0.1 ∧
      (filterAt f u (n + 1)).reg0.1 = u n * c.b1 - c.a1 * filterOut f u n + (filterAt f u n).reg1.1 ∧
      (filterAt f u (n + 1)).reg1.1 = u n * c.b2 - c.a2 * filterOut f u n := fun u n => by
    have ecf := rests_cf (rests_process (held u n).1)
    refine ⟨?_, ?_, ?_⟩ <;> simp only [filterOut, filterAt, Filter.processSample, Filter.left, ecf, chan] <;> rfl
  obtain ⟨-, -, ⟨hs, -⟩ | ⟨⟨b0, -, -⟩, -, -⟩⟩ := id h
  · obtain ⟨K, r, K0, r0, r1, hb⟩ := seq_bound hs
    set D := (|c.b1| + |c.a1| * |c.b0| + |c.b2| + |c.a2| * |c.b0|) * X with hD
    have D0 : 0 ≤ D := by positivity
    refine ⟨X * |c.b0| + K * (|f.reg0.1| + |f.reg1.1| + D), by positivity, fun u hu n => ?_⟩
    have key := hb n (fun m => ((filterAt f u m).reg0.1, (filterAt f u m).reg1.1)) (fun m => (u m * c.b1 - c.a1 * (u m * c.b0), u m * c.b2 - c.a2 * (u m * c.b0))) D
      (fun m _ => by
        obtain ⟨s1, s2, s3⟩ := step u m
        simp only [s2, s3, s1]
        refine Prod.ext ?_ ?_ <;> simp only <;> ring)
      (fun m _ => by
        have t1 : |u m * c.b1 - c.a1 * (u m * c.b0)| ≤ (|c.b1| + |c.a1| * |c.b0|) * X := by
          rw [show u m * c.b1 - c.a1 * (u m * c.b0) = (c.b1 - c.a1 * c.b0) * u m by ring, abs_mul]
          refine mul_le_mul ((abs_sub _ _).trans (by rw [abs_mul])) (hu m) (abs_nonneg _) (by positivity)
        have t2 : |u m * c.b2 - c.a2 * (u m * c.b0)| ≤ (|c.b2| + |c.a2| * |c.b0|) * X := by
          rw [show u m * c.b2 - c.a2 * (u m * c.b0) = (c.b2 - c.a2 * c.b0) * u m by ring, abs_mul]
          refine mul_le_mul ((abs_sub _ _).trans (by rw [abs_mul])) (hu m) (abs_nonneg _) (by positivity)
        have p1 : 0 ≤ (|c.b1| + |c.a1| * |c.b0|) * X := by positivity
        have p2 : 0 ≤ (|c.b2| + |c.a2| * |c.b0|) * X := by positivity
        have e : D = (|c.b1| + |c.a1| * |c.b0|) * X + (|c.b2| + |c.a2| * |c.b0|) * X := by rw [hD]; ring
        exact ⟨by simp only; linarith, by simp only; linarith⟩) D0 n le_rfl
    rw [(step u n).1]
    refine (abs_add_le _ _).trans (add_le_add ?_ (key.1.trans ?_))
    · rw [abs_mul]; exact mul_le_mul_of_nonneg_right (hu n) (abs_nonneg _)
    · refine mul_le_mul_of_nonneg_left (add_le_add ?_ le_rfl) K0
      have : r ^ n ≤ 1 := pow_le_one₀ r0 r1.le
      have := mul_le_mul_of_nonneg_right this (show 0 ≤ |f.reg0.1| + |f.reg1.1| by positivity)
      rw [one_mul] at this; exact this
  · refine ⟨X, hX, fun u hu n => ?_⟩
    obtain ⟨hr, -, ⟨hs, q0, q1, q2⟩ | ⟨-, z0, -⟩⟩ := held u n
    · exfalso
      have := hs.1; rw [← q0, b0] at this; norm_num at this
    · rw [(step u n).1, b0, z0, mul_one, add_zero]; exact hu n

noncomputable def bankAt (bank : List Filter) (u : ℕ → ℝ) : ℕ → List Filter
  | 0 => bank
  | n + 1 => (cascade (bankAt bank u n) (u n)).1

theorem bankAt_cons (f : Filter) (fs : List Filter) (u : ℕ → ℝ) (n : ℕ) : bankAt (f :: fs) u n = filterAt f u n :: bankAt fs (filterOut f u) n := by
  induction n with
  | zero => rfl
  | succ n ih => simp only [bankAt, ih, cascade, filterAt, filterOut]

theorem bank_bound {cs : List Cf} {bank : List Filter} (h : List.Forall₂ Held cs bank) : ∀ {X : ℝ}, 0 ≤ X → ∃ M, 0 ≤ M ∧ ∀ u : ℕ → ℝ, (∀ n, |u n| ≤ X) →
    ∀ n, |(cascade (bankAt bank u n) (u n)).2| ≤ M := by
  induction h with
  | nil =>
    intro X hX
    refine ⟨X, hX, fun u hu n => ?_⟩
    have : bankAt [] u n = [] := by induction n with
      | zero => rfl
      | succ n ih => simp [bankAt, ih, cascade]
    rw [this]; exact hu n
  | cons hf _ ih =>
    intro X hX
    obtain ⟨M1, m1, h1⟩ := filter_bound hf hX
    obtain ⟨M2, m2, h2⟩ := ih m1
    refine ⟨M2, m2, fun u hu n => ?_⟩
    rw [bankAt_cons]
    exact h2 _ (h1 u hu) n

theorem limit_abs (x : ℝ) : |limit x (-32) 32| ≤ 32 := by
  rw [abs_le]; unfold limit
  exact ⟨le_min (le_max_right _ _) (by norm_num), min_le_right _ _⟩

/-- The bank a phaser has after its first update when the sweep is off. -/
theorem retune_fixed (omega : ℝ → ℝ) {P : Params} {base quality : ℝ} (hb : P.base = base) (hq : P.quality = quality) (hd : P.depth = 0) (lfo : ℝ) :
    retune omega P lfo (List.replicate 4 Filter.new) = table.map fun t => Filter.new.coeffApf (omega (2 * base + t.1)) (1 + 0.8 * quality) := by
  simp only [table, retune, List.replicate, hb, hq, hd, mul_zero, add_zero, List.map_cons, List.map_nil, List.zipWith_cons_cons, List.zipWith_nil_left]

theorem enter_bank (omega : ℝ → ℝ) (P : Params) (s : State) : ∃ a b, (enter omega P s).left.bank = (if s.bi = 0 then retune omega P a s.left.bank else s.left.bank) ∧
    (enter omega P s).right.bank = (if s.bi = 0 then retune omega P b s.right.bank else s.right.bank) ∧ (enter omega P s).bi = (s.bi + 1) &&& 7 := by
  refine ⟨triangle (wrap (s.lfophase + 8 * P.rate)), triangle (wrap (wrap (s.lfophase + 8 * P.rate) + 0.5 * P.stereo)), ?_⟩
  unfold enter
  by_cases h : s.bi = 0
  · rw [if_pos h, if_pos h, if_pos h]; exact ⟨rfl, rfl, rfl⟩
  · rw [if_neg h, if_neg h, if_neg h]; exact ⟨rfl, rfl, rfl⟩

theorem mod_div (t k : ℕ) (hk : k < 32) : (32 * t + k) / 32 = t ∧ (32 * t + k) % 32 = k := by omega

/-- **C148.** With the sweep off there is a bound on the wet samples which depends on the base frequency, the tuning and the quality alone: it holds for every input and for every feedback, however large. -/
theorem C148_bounded_partial (omega : ℝ → ℝ) {base quality : ℝ} (hp : |quality| ≤ 1) : ∃ M, ∀ B : ℕ → Blk,
    (∀ t, (B t).par.base = base ∧ (B t).par.quality = quality ∧ (B t).par.depth = 0) → ∀ t k, k < 32 → |wetL omega B t k| ≤ M ∧ |wetR omega B t k| ≤ M := by
  set bank := table.map fun t => Filter.new.coeffApf (omega (2 * base + t.1)) (1 + 0.8 * quality) with hbank
  let P0 : Params := ⟨base, 0, quality, 0, 0, 0, 0⟩
  have hh : List.Forall₂ Held (goal omega base quality) bank := by
    rw [hbank, ← retune_fixed omega (P := P0) rfl rfl rfl 0]; exact (retune_new (P := P0) rfl rfl rfl hp 0).1
  obtain ⟨M, -, hM⟩ := bank_bound hh (show (0 : ℝ) ≤ 32 by norm_num)
  refine ⟨M, fun B hB => ?_⟩
  let e (t : ℕ) : State := enter omega (B t).par (stateAt omega B t)
  let fb (t k : ℕ) : ℝ := (after (B t).l (B t).r (e t) k).feedback.process.v
  let ul (n : ℕ) : ℝ := limit ((B (n / 32)).l (n % 32) + (after (B (n / 32)).l (B (n / 32)).r (e (n / 32)) (n % 32)).left.d * fb (n / 32) (n % 32)) (-32) 32
  let ur (n : ℕ) : ℝ := limit ((B (n / 32)).r (n % 32) + (after (B (n / 32)).l (B (n / 32)).r (e (n / 32)) (n % 32)).right.d * fb (n / 32) (n % 32)) (-32) 32
  have heldl : ∀ n, List.Forall₂ Held (goal omega base quality) (bankAt bank ul n) := fun n => by
    induction n with
    | zero => exact hh
    | succ n ih => exact (cascade_held ih _).1
  have heldr : ∀ n, List.Forall₂ Held (goal omega base quality) (bankAt bank ur n) := fun n => by
    induction n with
    | zero => exact hh
    | succ n ih => exact (cascade_held ih _).1
  -- the samples of one block
  have inner : ∀ t, (e t).left.bank = bankAt bank ul (32 * t) → (e t).right.bank = bankAt bank ur (32 * t) → ∀ k ≤ 32,
      (after (B t).l (B t).r (e t) k).left.bank = bankAt bank ul (32 * t + k) ∧ (after (B t).l (B t).r (e t) k).right.bank = bankAt bank ur (32 * t + k) := by
    intro t hl hr k
    induction k with
    | zero => intro _; exact ⟨hl, hr⟩
    | succ k ih =>
      intro hk
      obtain ⟨i1, i2⟩ := ih (by omega)
      obtain ⟨d1, d2⟩ := mod_div t k (by omega)
      have u1 : ul (32 * t + k) = limit ((B t).l k + (after (B t).l (B t).r (e t) k).left.d * fb t k) (-32) 32 := by simp only [ul, d1, d2]
      have u2 : ur (32 * t + k) = limit ((B t).r k + (after (B t).l (B t).r (e t) k).right.d * fb t k) (-32) 32 := by simp only [ur, d1, d2]
      constructor
      · show (cascade (after (B t).l (B t).r (e t) k).left.bank _).1 = (cascade (bankAt bank ul (32 * t + k)) (ul (32 * t + k))).1
        rw [i1, u1]
      · show (cascade (after (B t).l (B t).r (e t) k).right.bank _).1 = (cascade (bankAt bank ur (32 * t + k)) (ur (32 * t + k))).1
        rw [i2, u2]
  have biA : ∀ t k, (after (B t).l (B t).r (e t) k).bi = (e t).bi := fun t k => by
    induction k with
    | zero => rfl
    | succ k ih => exact ih
  have outer : ∀ t, (stateAt omega B t).bi = t % 8 ∧ (e t).left.bank = bankAt bank ul (32 * t) ∧ (e t).right.bank = bankAt bank ur (32 * t) := by
    intro t
    induction t with
    | zero =>
      obtain ⟨h1, h2, h3⟩ := hB 0
      refine ⟨rfl, ?_, ?_⟩
      · exact (retune_fixed omega h1 h2 h3 _)
      · exact (retune_fixed omega h1 h2 h3 _)
    | succ t ih =>
      obtain ⟨ib, il, ir⟩ := ih
      obtain ⟨a1, a2⟩ := inner t il ir 32 le_rfl
      have ebi : (e t).bi = (t + 1) % 8 := by
        obtain ⟨-, -, -, -, eb⟩ := enter_bank omega (B t).par (stateAt omega B t)
        rw [eb, and7, ib]; omega
      have sb : (stateAt omega B (t + 1)).bi = (t + 1) % 8 := (biA t 32).trans ebi
      have t32 : 32 * (t + 1) = 32 * t + 32 := by ring
      have sl : (stateAt omega B (t + 1)).left.bank = bankAt bank ul (32 * (t + 1)) := by rw [t32]; exact a1
      have sr : (stateAt omega B (t + 1)).right.bank = bankAt bank ur (32 * (t + 1)) := by rw [t32]; exact a2
      obtain ⟨h1, h2, h3⟩ := hB (t + 1)
      obtain ⟨x, y, e1, e2, -⟩ := enter_bank omega (B (t + 1)).par (stateAt omega B (t + 1))
      refine ⟨sb, e1.trans ?_, e2.trans ?_⟩
      · rw [sl, retune_held h1 h2 h3 _ (heldl _), ite_self]
      · rw [sr, retune_held h1 h2 h3 _ (heldr _), ite_self]
  intro t k hk
  obtain ⟨-, o1, o2⟩ := outer t
  obtain ⟨i1, i2⟩ := inner t o1 o2 k (by omega)
  obtain ⟨d1, d2⟩ := mod_div t k hk
  have u1 : ul (32 * t + k) = limit ((B t).l k + (after (B t).l (B t).r (e t) k).left.d * fb t k) (-32) 32 := by simp only [ul, d1, d2]
  have u2 : ur (32 * t + k) = limit ((B t).r k + (after (B t).l (B t).r (e t) k).right.d * fb t k) (-32) 32 := by simp only [ur, d1, d2]
  have k1 := hM ul (fun n => limit_abs _) (32 * t + k)
  have k2 := hM ur (fun n => limit_abs _) (32 * t + k)
  rw [u1, ← i1] at k1
  rw [u2, ← i2] at k2
  exact ⟨k1, k2⟩

/-! ## The output and the LFO -/

theorem mix_inv (omega : ℝ → ℝ) (B : ℕ → Blk) : ∀ t, (stateAt omega B t).mix.blockSize = 32 ∧ 0 ≤ (stateAt omega B t).mix.target ∧ (stateAt omega B t).mix.target ≤ 1
  | 0 => by simp [stateAt, start, LipolPs.setBlocksize, LipolPs.setTarget, LipolPs.instantize]
  | t + 1 => by
    obtain ⟨h1, h2, h3⟩ := mix_inv omega B t
    have e : ∀ k, (after (B t).l (B t).r (enter omega (B t).par (stateAt omega B t)) k).mix = (stateAt omega B t).mix := fun k => by
      induction k with
      | zero => simp only [after, enter, update]; split <;> rfl
      | succ k ih => exact ih
    have m : (stateAt omega B (t + 1)).mix = (stateAt omega B t).mix.setTargetSmoothed (limit (B t).par.mix 0 1) := by
      rw [← e 32]; rfl
    rw [m]
    have l0 : 0 ≤ limit (B t).par.mix 0 1 := le_min (le_max_right _ _) (by norm_num)
    have l1 : limit (B t).par.mix 0 1 ≤ 1 := min_le_right _ _
    refine ⟨h1, ?_, ?_⟩ <;> simp only [LipolPs.setTargetSmoothed] <;> linarith

/-- **C148.** The output is a cross-fade: sample for sample `(1 - g) dry + g wet` with the same `g` between 0 and 1 on both channels; if the mix has settled at nothing, `g` is zero. -/
theorem C148_mix (omega : ℝ → ℝ) (B : ℕ → Blk) (t : ℕ) {k : ℕ} (hk : k < 32) : ∃ g, 0 ≤ g ∧ g ≤ 1 ∧ outL omega B t k = (1 - g) * (B t).l k + g * wetL omega B t k ∧
    outR omega B t k = (1 - g) * (B t).r k + g * wetR omega B t k ∧ ((stateAt omega B t).mix.target = 0 → (B t).par.mix = 0 → g = 0) := by
  obtain ⟨h1, h2, h3⟩ := mix_inv omega B t
  have e : ∀ k, (after (B t).l (B t).r (enter omega (B t).par (stateAt omega B t)) k).mix = (stateAt omega B t).mix := fun k => by
    induction k with
    | zero => simp only [after, enter, update]; split <;> rfl
    | succ k ih => exact ih
  set m := (stateAt omega B t).mix.setTargetSmoothed (limit (B t).par.mix 0 1) with hm
  have oL : outL omega B t = m.fadeTo 8 (B t).l (wetL omega B t) (B t).l := by rw [hm, ← e 32]; rfl
  have oR : outR omega B t = m.fadeTo 8 (B t).r (wetR omega B t) (B t).r := by rw [hm, ← e 32]; rfl
  have gl := ((C53_block_repeats_first_segment m (n := 8) rfl (B t).l (wetL omega B t) (B t).l k).2 (by omega)).2.2.2.2.2.2.2
  have gr := ((C53_block_repeats_first_segment m (n := 8) rfl (B t).r (wetR omega B t) (B t).r k).2 (by omega)).2.2.2.2.2.2.2
  have l0 : 0 ≤ limit (B t).par.mix 0 1 := le_min (le_max_right _ _) (by norm_num)
  have l1 : limit (B t).par.mix 0 1 ≤ 1 := min_le_right _ _
  have c0 : m.current = (stateAt omega B t).mix.target := rfl
  have t0 : m.target = 1 / 4 * limit (B t).par.mix 0 1 + (1 - 1 / 4) * (stateAt omega B t).mix.target := rfl
  have b0 : m.blockSize = 32 := h1
  have ge : m.gain k = (1 - ((k % 8 : ℕ) + 1 : ℝ) / 32) * m.current + ((k % 8 : ℕ) + 1 : ℝ) / 32 * m.target := by
    unfold LipolPs.gain; rw [b0]; ring
  have w0 : 0 ≤ ((k % 8 : ℕ) + 1 : ℝ) / 32 := by positivity
  have w1 : ((k % 8 : ℕ) + 1 : ℝ) / 32 ≤ 1 := by
    have : ((k % 8 : ℕ) : ℝ) ≤ 7 := by exact_mod_cast (by omega : k % 8 ≤ 7)
    linarith
  refine ⟨m.gain k, ?_, ?_, by rw [oL, gl]; ring, by rw [oR, gr]; ring, fun z z' => ?_⟩
  · rw [ge]
    generalize ((k % 8 : ℕ) + 1 : ℝ) / 32 = w at *
    have : 0 ≤ m.target := by rw [t0]; linarith
    have : 0 ≤ 1 - w := by linarith
    rw [c0]; positivity
  · rw [ge, c0]
    generalize ((k % 8 : ℕ) + 1 : ℝ) / 32 = w at *
    have : m.target ≤ 1 := by rw [t0]; linarith
    have : 0 ≤ 1 - w := by linarith
    nlinarith
  · rw [ge, c0, t0, z, z']; simp [limit]

theorem after_keeps (l r : ℕ → ℝ) (s : State) (k : ℕ) : (after l r s k).lfophase = s.lfophase ∧ (after l r s k).bi = s.bi := by
  induction k with
  | zero => exact ⟨rfl, rfl⟩
  | succ k ih => exact ih

theorem phase_step (omega : ℝ → ℝ) (B : ℕ → Blk) (t : ℕ) : (stateAt omega B t).bi = t % 8 ∧
    (stateAt omega B (t + 1)).lfophase = if t % 8 = 0 then wrap ((stateAt omega B t).lfophase + 8 * (B t).par.rate) else (stateAt omega B t).lfophase := by
  have e : ∀ t, (stateAt omega B (t + 1)).lfophase = (enter omega (B t).par (stateAt omega B t)).lfophase ∧ (stateAt omega B (t + 1)).bi = (enter omega (B t).par (stateAt omega B t)).bi := fun t => by
    obtain ⟨a, b⟩ := after_keeps (B t).l (B t).r (enter omega (B t).par (stateAt omega B t)) 32
    rw [← a, ← b]
    simp only [stateAt, process]
    exact ⟨trivial, trivial⟩
  have b : ∀ t, (stateAt omega B t).bi = t % 8 := fun t => by
    induction t with
    | zero => rfl
    | succ t ih =>
      rw [(e t).2]
      show ((if _ then _ else _ : State).bi + 1) &&& 7 = _
      have : (if (stateAt omega B t).bi = 0 then update omega (B t).par (stateAt omega B t) else stateAt omega B t).bi = t % 8 := by rw [← ih]; split <;> rfl
      rw [this, show (7 : ℕ) = 2 ^ 3 - 1 from rfl, Nat.and_two_pow_sub_one_eq_mod]
      omega
  refine ⟨b t, ?_⟩
  rw [(e t).1]
  unfold enter
  rw [b t]
  by_cases h : t % 8 = 0
  · rw [if_pos h, if_pos h]; rfl
  · rw [if_neg h, if_neg h]

/-- The sweep position (−1 to 1 is meant) at which the left and the right filters are tuned in an update. -/
noncomputable def Spec.sweepL (omega : ℝ → ℝ) (B : ℕ → Blk) (t : ℕ) : ℝ := triangle (stateAt omega B (t + 1)).lfophase
noncomputable def Spec.sweepR (omega : ℝ → ℝ) (B : ℕ → Blk) (t : ℕ) : ℝ := triangle (wrap ((stateAt omega B (t + 1)).lfophase + 0.5 * (B t).par.stereo))

theorem enter_sweep (omega : ℝ → ℝ) (B : ℕ → Blk) {t : ℕ} (h : t % 8 = 0) :
    (enter omega (B t).par (stateAt omega B t)).left.bank = retune omega (B t).par (Spec.sweepL omega B t) (stateAt omega B t).left.bank ∧
    (enter omega (B t).par (stateAt omega B t)).right.bank = retune omega (B t).par (Spec.sweepR omega B t) (stateAt omega B t).right.bank := by
  obtain ⟨b, p⟩ := phase_step omega B t
  rw [if_pos h] at p
  unfold Spec.sweepL Spec.sweepR
  rw [p]
  unfold enter
  rw [if_pos (b.trans h)]
  exact ⟨rfl, rfl⟩

/-- **C149.** For every sequence of blocks during which the LFO advances by at most one cycle between two updates: its phase moves by exactly `8 rate` cycles on every eighth block, whole cycles apart,
and not at all on the others; it stays between 0 and 1; and every eighth block the filters of both channels are retuned, with a sweep between −1 and 1. -/
theorem C149_lfo_partial (omega : ℝ → ℝ) (B : ℕ → Blk) (h : ∀ t, 0 ≤ (B t).par.rate ∧ 8 * (B t).par.rate ≤ 1 ∧ 0 ≤ (B t).par.stereo ∧ (B t).par.stereo ≤ 1) (t : ℕ) :
    0 ≤ (stateAt omega B t).lfophase ∧ (stateAt omega B t).lfophase ≤ 1 ∧
    (t % 8 = 0 → ∃ z : ℤ, (stateAt omega B (t + 1)).lfophase = (stateAt omega B t).lfophase + 8 * (B t).par.rate + z) ∧
    (t % 8 ≠ 0 → (stateAt omega B (t + 1)).lfophase = (stateAt omega B t).lfophase) ∧
    |Spec.sweepL omega B t| ≤ 1 ∧ |Spec.sweepR omega B t| ≤ 1 ∧
    (t % 8 = 0 → (enter omega (B t).par (stateAt omega B t)).left.bank = retune omega (B t).par (Spec.sweepL omega B t) (stateAt omega B t).left.bank ∧
      (enter omega (B t).par (stateAt omega B t)).right.bank = retune omega (B t).par (Spec.sweepR omega B t) (stateAt omega B t).right.bank) := by
  have w : ∀ x : ℝ, 0 ≤ x → x ≤ 2 → 0 ≤ wrap x ∧ wrap x ≤ 1 := fun x a b => by
    unfold wrap; split <;> constructor <;> linarith
  have tr : ∀ x : ℝ, 0 ≤ x → x ≤ 1 → |triangle x| ≤ 1 := fun x a b => by
    unfold triangle
    have : |2 - 4 * x| ≤ 2 := by rw [abs_le]; constructor <;> linarith
    have := abs_nonneg (2 - 4 * x)
    rw [abs_le]; constructor <;> linarith
  have inv : ∀ t, 0 ≤ (stateAt omega B t).lfophase ∧ (stateAt omega B t).lfophase ≤ 1 := fun t => by
    induction t with
    | zero => show (0 : ℝ) ≤ 0.25 ∧ (0.25 : ℝ) ≤ 1; norm_num
    | succ t ih =>
      rw [(phase_step omega B t).2]
      have := h t
      split
      · exact w _ (by linarith) (by linarith)
      · exact ih
  have hz : ∀ x : ℝ, ∃ z : ℤ, wrap x = x + z := fun x => by
    unfold wrap; split
    · exact ⟨-1, by push_cast; ring⟩
    · exact ⟨0, by simp⟩
  obtain ⟨a, b⟩ := inv (t + 1)
  have st := h t
  obtain ⟨c, d⟩ := w ((stateAt omega B (t + 1)).lfophase + 0.5 * (B t).par.stereo) (by norm_num; linarith) (by norm_num; linarith)
  refine ⟨(inv t).1, (inv t).2, fun e => ?_, fun e => ?_, tr _ a b, tr _ c d, enter_sweep omega B⟩
  · rw [(phase_step omega B t).2, if_pos e]; exact hz _
  · rw [(phase_step omega B t).2, if_neg e]

/-- **C149 (refutation).** The phase is taken back by one cycle only.  With a step above one it grows without end, and the sweep with which the left filters are retuned falls below any bound. -/
theorem C149_lfo_runs_away_refuted (omega : ℝ → ℝ) (B : ℕ → Blk) {rate : ℝ} (h : 1 < 8 * rate) (hB : ∀ t, (B t).par.rate = rate) (M : ℝ) :
    ∃ t, t % 8 = 0 ∧ M < (stateAt omega B (t + 1)).lfophase ∧ Spec.sweepL omega B t < -M := by
  have grow : ∀ n : ℕ, 0.25 + (n + 1) * (8 * rate - 1) ≤ (stateAt omega B (8 * n + 1)).lfophase := fun n => by
    induction n with
    | zero =>
      rw [(phase_step omega B (8 * 0)).2, if_pos (by omega), hB]
      have : (stateAt omega B (8 * 0)).lfophase = 0.25 := rfl
      rw [this]; unfold wrap; rw [if_pos (by norm_num; linarith)]; push_cast; linarith
    | succ n ih =>
      have hold : ∀ j, j ≤ 7 → (stateAt omega B (8 * n + 1 + j)).lfophase = (stateAt omega B (8 * n + 1)).lfophase := fun j => by
        induction j with
        | zero => intro _; rfl
        | succ j ihj => intro hj; rw [show 8 * n + 1 + (j + 1) = (8 * n + 1 + j) + 1 by omega, (phase_step omega B (8 * n + 1 + j)).2, if_neg (by omega)]; exact ihj (by omega)
      have : 0 ≤ ((n : ℝ) + 1) * (8 * rate - 1) := mul_nonneg (by positivity) (by linarith)
      have e := hold 7 le_rfl
      rw [show 8 * n + 1 + 7 = 8 * (n + 1) by omega] at e
      rw [(phase_step omega B (8 * (n + 1))).2, if_pos (by omega), hB, e]
      unfold wrap
      rw [if_pos (by linarith)]
      push_cast; linarith
  obtain ⟨n, hn⟩ := exists_nat_gt ((|M| + 3) / (8 * rate - 1))
  rw [div_lt_iff₀ (by linarith)] at hn
  have g := grow n
  have m := le_abs_self M
  have big : |M| + 3 < (stateAt omega B (8 * n + 1)).lfophase := by norm_num at g; linarith
  refine ⟨8 * n, by omega, by linarith, ?_⟩
  unfold Spec.sweepL triangle
  have := abs_nonneg M
  rw [abs_of_neg (by linarith)]
  linarith

/-- It happens with the rate at its maximum of 2⁹ Hz: at 44.1 kHz a block is 32 · 512 / 44100 of a cycle, the step eight times that. -/
example : (1 : ℝ) < 8 * (32 * 512 / 44100) := by norm_num

/-- The hypotheses can be met: a full feedback, changing mix, noise or anything else at the input. -/
example (l r : ℕ → ℕ → ℝ) : Spec.Unswept 0 1 fun t => ⟨⟨0, 1, 1, 0.1, 0, 0.5, t⟩, l t, r t⟩ := fun t => ⟨rfl, rfl, rfl, by norm_num⟩

end Verif.Effects.Phaser
