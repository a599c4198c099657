import Verif.Rust
import Mathlib.Analysis.SpecialFunctions.Pow.Real
import Mathlib.Algebra.BigOperators.Ring.Finset
import Mathlib.Algebra.BigOperators.Field
import Mathlib.Topology.Algebra.InfiniteSum.Real
import Mathlib.Topology.Instances.Real.Lemmas
import Mathlib.Tactic.Linarith
import Mathlib.Tactic.LinearCombination
import Mathlib.Tactic.FieldSimp
/-!
# The all-pass reverb, `reverb2` (C152–C155), in exact real arithmetic

surgefx-allpass.  `x & (2^n - 1)` on `i32` is `x % 2^n` of the integer, `x >> 8` is `x / 256` rounded down.  Not modelled: rounding, overflow of the `i32` sums of positions (they stay below
2^20).
-/
namespace Verif.Effects.Allpass
open Verif

/-- A Rust computation of this effect. -/
abbrev R := Res Empty

/-! ## The parts -/

/-- allpass.rs 3-18. -/
structure Diffuser where
  len : ℕ
  k : ℕ
  data : ℕ → ℝ

def Diffuser.new : Diffuser := ⟨1, 0, fun _ => 0⟩
/-- allpass.rs 22. -/
def Diffuser.setLen (a : Diffuser) (len : ℕ) : Diffuser := { a with len := len }

/-- allpass.rs 24-42: `process`. -/
def Diffuser.process (a : Diffuser) (input coeff : ℝ) : R (Diffuser × ℝ) :=
  let k := if a.k + 1 ≥ a.len then 0 else a.k + 1
  if k < 16384 then
    let delayIn := input - coeff * a.data k
    let result := a.data k + coeff * delayIn
    .ok (⟨a.len, k, Function.update a.data k delayIn⟩, result)
  else .panic "ndarray: index out of bounds"

/-- one_pole_filter.rs 10-13: new memory, which is the output. -/
def lowpass (a0 x c0 : ℝ) : ℝ := a0 * c0 + x * (1 - c0)
/-- one_pole_filter.rs 15-18: new memory and output. -/
def highpass (a0 x c0 : ℝ) : ℝ × ℝ :=
  let a0 := a0 * (1 - c0) + x * c0
  (a0, x - a0)

/-- delay.rs 3-22. -/
structure Line where
  len : ℤ
  k : ℤ
  data : ℤ → ℝ

def Line.new : Line := ⟨1, 0, fun _ => 0⟩
/-- The setter of `len` (delay.rs 6-7). -/
def Line.setLen (d : Line) (len : ℤ) : Line := { d with len := len }

/-- delay.rs 30-55: `process`, returning the delayed signal and the two taps. -/
noncomputable def Line.process (d : Line) (input : ℝ) (tap1 tap2 modulation : ℤ) : Line × ℝ × ℝ × ℝ :=
  let k := (d.k + 1) % 16384
  let tapOut1 := d.data ((k - tap1) % 16384)
  let tapOut2 := d.data ((k - tap2) % 16384)
  let modulationInt := modulation / 256
  let frac1 := modulation % 256
  let frac2 := 256 - frac1
  let d1 := d.data ((k - d.len + modulationInt + 1) % 16384)
  let d2 := d.data ((k - d.len + modulationInt) % 16384)
  let result := (d1 * frac1 + d2 * frac2) * (1 / 256)
  (⟨d.len, k, Function.update d.data k input⟩, result, tapOut1, tapOut2)

/-- predelay.rs 3-16. -/
structure PreDelay where
  k : ℤ
  data : ℤ → ℝ

def PreDelay.new : PreDelay := ⟨0, fun _ => 0⟩

/-- predelay.rs 24-43: `process`, on a buffer of 384000 samples. -/
noncomputable def PreDelay.process (d : PreDelay) (input : ℝ) (tap : ℤ) : R (PreDelay × ℝ) :=
  let k := if d.k + 1 = 384000 then 0 else d.k + 1
  let p := k - tap
  let p := if p < 0 then p + 384000 else p
  if ¬ p > 0 then .panic "assertion failed: p > 0"
  else if p ≥ 384000 then .panic "ndarray: index out of bounds"
  else .ok (⟨k, Function.update d.data k input⟩, d.data p)

/-! ## The tank -/

/-- What is smoothed per sample (effect.rs 18-23), as it is when a sample is processed; `modulation` is what block.rs 39-43 makes of `modulation` and the LFO for each of the four blocks. -/
structure Coefs where
  diffusion : ℝ
  buildup : ℝ
  hf : ℝ
  lf : ℝ
  decay : ℝ
  modulation : Fin 4 → ℤ

/-- calc_size.rs 11-40: the lengths. -/
structure Sizes where
  input : Fin 4 → ℕ
  ap0 : Fin 4 → ℕ
  ap1 : Fin 4 → ℕ
  delay : Fin 4 → ℤ
  tapL : Fin 4 → ℤ
  tapR : Fin 4 → ℤ

/-- surge-samplerate handle.rs 50-62: `ms_2_samples`, without rounding. -/
noncomputable def ms2samples (sr ms scale : ℝ) : ℕ := ⌊sr * ms * 0.001 * scale⌋₊

/-- calc_size.rs 5-41: `calc_size`. -/
noncomputable def calcSize (sr m : ℝ) : Sizes where
  tapL b := (ms2samples sr (![80.3, 59.3, 97.7, 122.6] b) m : ℤ)
  tapR b := (ms2samples sr (![35.5, 101.6, 73.9, 80.3] b) m : ℤ)
  input b := ms2samples sr (![4.76, 6.81, 10.13, 16.72] b) m
  ap0 b := ms2samples sr (![38.2, 44, 48.3, 38.9] b) m
  ap1 b := ms2samples sr (![53.4, 41, 60.5, 42.2] b) m
  delay b := (ms2samples sr (![178.8, 126.5, 106.1, 139.4] b) m : ℤ)

/-- One of the four blocks of the tank. -/
structure Blk where
  ap0 : Diffuser
  ap1 : Diffuser
  hf : ℝ
  lf : ℝ
  delay : Line

def Blk.new : Blk := ⟨.new, .new, 0, 0, .new⟩

/-- update.rs 28-35: the tap gains, the same left and right. -/
noncomputable def tapGain : Fin 4 → ℝ := ![1.5 / 4, 1.2 / 4, 1 / 4, 0.8 / 4]

/-- block.rs 14-60: `do_allpass_block` on block `b`: from the `x` coming in, `x` after it and the two taps. -/
noncomputable def Blk.process (z : Blk) (sz : Sizes) (c : Coefs) (b : Fin 4) (input x : ℝ) : R (Blk × ℝ × ℝ × ℝ) := do
  let x := x + input
  let (ap0, x) ← (z.ap0.setLen (sz.ap0 b)).process x c.buildup
  let (ap1, x) ← (z.ap1.setLen (sz.ap1 b)).process x c.buildup
  let hf := lowpass z.hf x c.hf
  let lf := highpass z.lf hf c.lf
  let d := (z.delay.setLen (sz.delay b)).process lf.2 (sz.tapL b) (sz.tapR b) (c.modulation b)
  pure (⟨ap0, ap1, hf, lf.1, d.1⟩, d.2.1 * c.decay, d.2.2.1, d.2.2.2)

/-- effect.rs 5-30: the tank and the four input diffusers. -/
structure Tank where
  i0 : Diffuser
  i1 : Diffuser
  i2 : Diffuser
  i3 : Diffuser
  z0 : Blk
  z1 : Blk
  z2 : Blk
  z3 : Blk
  state : ℝ

def Tank.new : Tank := ⟨.new, .new, .new, .new, .new, .new, .new, .new, 0⟩

/-- block.rs 73-99: one sample after the pre-delay; `out_l`, `out_r`. -/
noncomputable def Tank.sample (t : Tank) (sz : Sizes) (c : Coefs) (input : ℝ) : R (Tank × ℝ × ℝ) := do
  let (i0, x) ← (t.i0.setLen (sz.input 0)).process input c.diffusion
  let (i1, x) ← (t.i1.setLen (sz.input 1)).process x c.diffusion
  let (i2, x) ← (t.i2.setLen (sz.input 2)).process x c.diffusion
  let (i3, x) ← (t.i3.setLen (sz.input 3)).process x c.diffusion
  let (z0, y, l0, r0) ← t.z0.process sz c 0 x t.state
  let (z1, y, l1, r1) ← t.z1.process sz c 1 x y
  let (z2, y, l2, r2) ← t.z2.process sz c 2 x y
  let (z3, y, l3, r3) ← t.z3.process sz c 3 x y
  pure (⟨i0, i1, i2, i3, z0, z1, z2, z3, y⟩, 0 + l0 * tapGain 0 + l1 * tapGain 1 + l2 * tapGain 2 + l3 * tapGain 3, 0 + r0 * tapGain 0 + r1 * tapGain 1 + r2 * tapGain 2 + r3 * tapGain 3)

/-- process.rs 33: the gain of each block of the tank for a room scale and a decay time. -/
noncomputable def decayOf (scale time : ℝ) : ℝ := ((10 : ℝ) ^ (0.05 * -60 : ℝ)) ^ (0.5508 * scale / (4 * (2 : ℝ) ^ time))

/-! ## C152: the pre-delay -/

/-- A run of the pre-delay: `n` calls, the states in between and what came out. -/
structure Spec.PreRun (x : ℕ → ℝ) (tap : ℕ → ℤ) (n : ℕ) (S : ℕ → PreDelay) (y : ℕ → ℝ) : Prop where
  start : S 0 = .new
  step : ∀ m < n, (S m).process (x m) (tap m) = .ok (S (m + 1), y m)

/-- The input `d` calls ago, 0 before the first. -/
def Spec.ago (x : ℕ → ℝ) (n : ℕ) (d : ℤ) : ℝ := if d ≤ n then x (n - d).toNat else 0

theorem process_state {d s : PreDelay} {x y : ℝ} {tap : ℤ} (h : d.process x tap = .ok (s, y)) :
    s = ⟨if d.k + 1 = 384000 then 0 else d.k + 1, Function.update d.data (if d.k + 1 = 384000 then 0 else d.k + 1) x⟩ := by
  unfold PreDelay.process at h
  simp only at h
  generalize (if d.k + 1 = 384000 then (0 : ℤ) else d.k + 1) = k at h ⊢
  generalize (if k - tap < 0 then k - tap + 384000 else k - tap) = p at h
  by_cases h1 : ¬ p > 0
  · rw [if_pos h1] at h; cases h
  · rw [if_neg h1] at h
    by_cases h2 : p ≥ 384000
    · rw [if_pos h2] at h; cases h
    · rw [if_neg h2] at h
      injection h with h
      injection h with h _
      exact h.symm

theorem pre_state {x : ℕ → ℝ} {tap : ℕ → ℤ} {n : ℕ} {S : ℕ → PreDelay} {y : ℕ → ℝ} (h : Spec.PreRun x tap n S y) : ∀ m ≤ n, (S m).k = (m : ℤ) % 384000 ∧
    ∀ i : ℕ, i < 384000 → (S m).data (((m : ℤ) - i) % 384000) = if i < m then x (m - 1 - i) else 0 := by
  intro m
  induction m with
  | zero => intro _; rw [h.start]; exact ⟨rfl, fun i _ => by simp [PreDelay.new]⟩
  | succ m ih =>
    intro hm
    obtain ⟨ik, id⟩ := ih (by omega)
    have e := h.step m (by omega)
    have k1 : (if (S m).k + 1 = 384000 then (0 : ℤ) else (S m).k + 1) = ((m + 1 : ℕ) : ℤ) % 384000 := by
      rw [ik]; push_cast; split <;> omega
    have e := process_state e
    rw [k1] at e
    rw [e]
    refine ⟨rfl, fun i hi => ?_⟩
    show Function.update _ _ _ _ = _
    rcases i with _ | i
    · simp
    · rw [Function.update_of_ne (by push_cast; omega)]
      have := id i (by omega)
      have e2 : (((m + 1 : ℕ) : ℤ) - ((i + 1 : ℕ) : ℤ)) = (m : ℤ) - i := by push_cast; ring
      rw [e2, this]
      by_cases hc : i < m
      · rw [if_pos hc, if_pos (by omega)]; congr 1; omega
      · rw [if_neg hc, if_neg (by omega)]

/-- **C152 (part).** Whatever the taps (between 1 and 384000 samples) do, each call either panics or plays what came in `tap` calls ago, silence if that was before the first call; it panics exactly when
the position in the buffer, counted from 0, equals the tap. -/
theorem C152_plays_partial {x : ℕ → ℝ} {tap : ℕ → ℤ} {n : ℕ} {S : ℕ → PreDelay} {y : ℕ → ℝ} (h : Spec.PreRun x tap n S y) (h1 : 1 ≤ tap n) (h2 : tap n ≤ 384000) (x' : ℝ) :
    ((n + 1 - tap n) % 384000 = 0 ∧ ∃ w, (S n).process x' (tap n) = .panic w) ∨
    ((n + 1 - tap n) % 384000 ≠ 0 ∧ ∃ s, (S n).process x' (tap n) = .ok (s, Spec.ago x n (tap n))) := by
  obtain ⟨hk, hd⟩ := pre_state h n le_rfl
  have k1 : (if (S n).k + 1 = 384000 then (0 : ℤ) else (S n).k + 1) = ((n : ℤ) + 1) % 384000 := by rw [hk]; split <;> omega
  have p1 : (if ((n : ℤ) + 1) % 384000 - tap n < 0 then ((n : ℤ) + 1) % 384000 - tap n + 384000 else ((n : ℤ) + 1) % 384000 - tap n) = ((n : ℤ) + 1 - tap n) % 384000 := by
    split <;> omega
  by_cases hz : ((n : ℤ) + 1 - tap n) % 384000 = 0
  · left
    refine ⟨hz, "assertion failed: p > 0", ?_⟩
    simp only [PreDelay.process, k1, p1, hz]
    rfl
  · right
    refine ⟨hz, ⟨((n : ℤ) + 1) % 384000, Function.update (S n).data (((n : ℤ) + 1) % 384000) x'⟩, ?_⟩
    simp only [PreDelay.process, k1, p1]
    rw [if_neg (by omega), if_neg (by omega)]
    congr 2
    have := hd (tap n - 1).toNat (by omega)
    have e : ((n : ℤ) - ((tap n - 1).toNat : ℤ)) = (n : ℤ) + 1 - tap n := by omega
    rw [e] at this
    rw [this]
    unfold Spec.ago
    by_cases hc : (tap n - 1).toNat < n
    · rw [if_pos hc, if_pos (by omega)]; congr 1; omega
    · rw [if_neg hc]
      rw [if_neg (by omega)]

/-- **C152 (refutation).** With a constant pre-delay the effect is silent until the pre-delay has passed and panics on the very sample on which the first echo is due. -/
theorem C152_first_echo_refuted (x : ℕ → ℝ) {tap : ℕ} (h1 : 1 ≤ tap) (h2 : tap ≤ 384000) : ∃ (S : ℕ → PreDelay) (w : String),
    Spec.PreRun x (fun _ => tap) (tap - 1) S (fun _ => 0) ∧ (S (tap - 1)).process (x (tap - 1)) tap = .panic w := by
  have key : ∀ n, n ≤ tap - 1 → ∃ S, Spec.PreRun x (fun _ => (tap : ℤ)) n S (fun _ => 0) := by
    intro n
    induction n with
    | zero => exact fun _ => ⟨fun _ => .new, rfl, fun m hm => absurd hm (by omega)⟩
    | succ n ih =>
      intro hn
      obtain ⟨S, hS⟩ := ih (by omega)
      rcases C152_plays_partial hS (by exact_mod_cast h1) (by exact_mod_cast h2) (x n) with ⟨hz, -⟩ | ⟨-, s, e⟩
      · exfalso; omega
      · have a0 : Spec.ago x n (tap : ℤ) = 0 := if_neg (by omega)
        rw [a0] at e
        refine ⟨fun m => if m ≤ n then S m else s, by simp [hS.start], fun m hm => ?_⟩
        by_cases hc : m < n
        · simp only [if_pos (show m ≤ n by omega), if_pos (show m + 1 ≤ n by omega)]; exact hS.step m hc
        · have : m = n := by omega
          subst this
          simpa using e
  obtain ⟨S, hS⟩ := key (tap - 1) le_rfl
  rcases C152_plays_partial hS (by exact_mod_cast h1) (by exact_mod_cast h2) (x (tap - 1)) with ⟨-, w, e⟩ | ⟨hz, -⟩
  · exact ⟨S, w, hS, e⟩
  · exfalso; omega

/-! ## C153: the diffusers -/

/-- The energy a diffuser holds with coefficient `c`. -/
noncomputable def Diffuser.energy (a : Diffuser) (c : ℝ) : ℝ := (1 - c ^ 2) * ∑ i ∈ Finset.range 16384, a.data i ^ 2

theorem diffuser_ok (a : Diffuser) (x c : ℝ) (h : a.len ≤ 16384) : ∃ a' y, a.process x c = .ok (a', y) := by
  simp only [Diffuser.process]
  rw [if_pos (by split <;> omega)]
  exact ⟨_, _, rfl⟩

theorem sum_update {s : Finset ℕ} {k : ℕ} (h : k ∈ s) (f : ℕ → ℝ) (v : ℝ) : ∃ E, ∑ i ∈ s, Function.update f k v i ^ 2 = v ^ 2 + E ∧ ∑ i ∈ s, f i ^ 2 = f k ^ 2 + E := by
  refine ⟨∑ i ∈ s.erase k, f i ^ 2, ?_, (Finset.add_sum_erase _ _ h).symm⟩
  rw [← Finset.add_sum_erase _ _ h, Function.update_self]
  congr 1
  exact Finset.sum_congr rfl fun i hi => by rw [Function.update_of_ne (Finset.ne_of_mem_erase hi)]

theorem diffuser_energy {a a' : Diffuser} {x y c : ℝ} (h : a.process x c = .ok (a', y)) : a'.energy c + y ^ 2 = a.energy c + x ^ 2 := by
  simp only [Diffuser.process] at h
  generalize (if a.k + 1 ≥ a.len then 0 else a.k + 1) = k at h
  by_cases hk : k < 16384
  · rw [if_pos hk] at h
    injection h with h
    injection h with h1 h2
    rw [← h1, ← h2]
    simp only [Diffuser.energy]
    obtain ⟨E, u1, u2⟩ := sum_update (Finset.mem_range.2 hk) a.data (x - c * a.data k)
    rw [u1, u2]
    ring
  · rw [if_neg hk] at h; cases h

/-- A run of a diffuser with coefficient `c` from its fresh state, with a new length before each sample. -/
structure Spec.DiffRun (c : ℝ) (len : ℕ → ℕ) (x y : ℕ → ℝ) (S : ℕ → Diffuser) : Prop where
  start : S 0 = .new
  step : ∀ n, ((S n).setLen (len n)).process (x n) c = .ok (S (n + 1), y n)

theorem energy_nonneg (a : Diffuser) {c : ℝ} (hc : |c| ≤ 1) : 0 ≤ a.energy c := by
  have : c ^ 2 ≤ 1 := by rw [sq_le_one_iff_abs_le_one]; exact hc
  exact mul_nonneg (by linarith) (Finset.sum_nonneg fun _ _ => sq_nonneg _)

/-- **C153.** A diffuser passes energy on without adding any or losing any: after every sample what it has put out and what it holds together are what came in, whatever becomes of its length meanwhile;
and it never panics while its length is at most 16384. -/
theorem C153_lossless (c : ℝ) (len : ℕ → ℕ) (x : ℕ → ℝ) (hl : ∀ n, len n ≤ 16384) : ∃ y S, Spec.DiffRun c len x y S ∧
    (∀ n, ∑ i ∈ Finset.range n, y i ^ 2 + (1 - c ^ 2) * ∑ i ∈ Finset.range 16384, (S n).data i ^ 2 = ∑ i ∈ Finset.range n, x i ^ 2) ∧
    (|c| ≤ 1 → ∀ n, ∑ i ∈ Finset.range n, y i ^ 2 ≤ ∑ i ∈ Finset.range n, x i ^ 2) := by
  have ex : ∀ (a : Diffuser) (n : ℕ), ∃ p : Diffuser × ℝ, (a.setLen (len n)).process (x n) c = .ok p := fun a n => by
    obtain ⟨a', y, e⟩ := diffuser_ok (a.setLen (len n)) (x n) c (hl n)
    exact ⟨(a', y), e⟩
  choose f hf using ex
  let S : ℕ → Diffuser := fun n => Nat.rec Diffuser.new (fun n a => (f a n).1) n
  have run : Spec.DiffRun c len x (fun n => (f (S n) n).2) S := ⟨rfl, fun n => hf (S n) n⟩
  have main : ∀ n, ∑ i ∈ Finset.range n, (f (S i) i).2 ^ 2 + (S n).energy c = ∑ i ∈ Finset.range n, x i ^ 2 := by
    intro n
    induction n with
    | zero => simp [S, Diffuser.energy, Diffuser.new]
    | succ n ih =>
      have e := diffuser_energy (run.step n)
      rw [Finset.sum_range_succ (n := n), Finset.sum_range_succ (n := n), ← ih]
      have e0 : ((S n).setLen (len n)).energy c = (S n).energy c := rfl
      rw [e0] at e
      linarith
  refine ⟨_, S, run, main, fun hc n => ?_⟩
  have := main n
  have := energy_nonneg (S n) hc
  linarith

/-- **C153 (refutation).** A length above 16384 panics as soon as the position gets there. -/
theorem C153_too_long_refuted (a : Diffuser) (x c : ℝ) (hk : a.k + 1 = 16384) (hl : 16384 < a.len) : ∃ w, a.process x c = .panic w := by
  simp only [Diffuser.process]
  rw [if_neg (show ¬ a.k + 1 ≥ a.len by omega), if_neg (by omega)]
  exact ⟨_, rfl⟩

/-! ## C155: the delay lines -/

/-- A run of a delay line: what goes in, the length, taps and modulation at each sample, and what comes out. -/
structure Spec.LineRun (w : ℕ → ℝ) (len tap1 tap2 mo : ℕ → ℤ) (S : ℕ → Line) (out t1 t2 : ℕ → ℝ) : Prop where
  start : S 0 = .new
  step : ∀ n, ((S n).setLen (len n)).process (w n) (tap1 n) (tap2 n) (mo n) = (S (n + 1), out n, t1 n, t2 n)

theorem line_state {w : ℕ → ℝ} {len tap1 tap2 mo : ℕ → ℤ} {S : ℕ → Line} {out t1 t2 : ℕ → ℝ} (h : Spec.LineRun w len tap1 tap2 mo S out t1 t2) : ∀ m, (S m).k = (m : ℤ) % 16384 ∧
    ∀ i : ℕ, i < 16384 → (S m).data (((m : ℤ) - i) % 16384) = if i < m then w (m - 1 - i) else 0 := by
  intro m
  induction m with
  | zero => rw [h.start]; exact ⟨rfl, fun i _ => by simp [Line.new]⟩
  | succ m ih =>
    obtain ⟨ik, id⟩ := ih
    have e := congrArg Prod.fst (h.step m)
    simp only [Line.process, Line.setLen] at e
    have k1 : ((S m).k + 1) % 16384 = ((m + 1 : ℕ) : ℤ) % 16384 := by rw [ik]; push_cast; omega
    rw [k1] at e
    rw [← e]
    refine ⟨rfl, fun i hi => ?_⟩
    show Function.update _ _ _ _ = _
    rcases i with _ | i
    · simp
    · rw [Function.update_of_ne (by push_cast; omega)]
      have := id i (by omega)
      have e2 : (((m + 1 : ℕ) : ℤ) - ((i + 1 : ℕ) : ℤ)) = (m : ℤ) - i := by push_cast; ring
      rw [e2, this]
      by_cases hc : i < m
      · rw [if_pos hc, if_pos (by omega)]; congr 1; omega
      · rw [if_neg hc, if_neg (by omega)]

/-- A cell read `d` samples back, for `d` from 1 to 16384. -/
theorem line_read {w : ℕ → ℝ} {len tap1 tap2 mo : ℕ → ℤ} {S : ℕ → Line} {out t1 t2 : ℕ → ℝ} (h : Spec.LineRun w len tap1 tap2 mo S out t1 t2) (n : ℕ) {d : ℤ} (h1 : 1 ≤ d) (h2 : d ≤ 16384) :
    (S n).data ((((S n).k + 1) % 16384 - d) % 16384) = Spec.ago w n d := by
  obtain ⟨hk, hd⟩ := line_state h n
  have := hd (d - 1).toNat (by omega)
  have e : ((n : ℤ) - ((d - 1).toNat : ℤ)) = (n : ℤ) + 1 - d := by omega
  have e' : (((S n).k + 1) % 16384 - d) % 16384 = ((n : ℤ) + 1 - d) % 16384 := by rw [hk]; omega
  rw [e', ← e, this]
  unfold Spec.ago
  by_cases hc : (d - 1).toNat < n
  · rw [if_pos hc, if_pos (by omega)]; congr 1; omega
  · rw [if_neg hc, if_neg (by omega)]

/-- **C155.** For every history of lengths, taps and modulations: a tap of 1 to 16384 samples plays exactly what came in so many samples ago, and the line plays the straight-line interpolation, in
steps of 1/256 of a sample, at the modulated length, as long as that stays between 2 and 16384 samples (a whole number of 1 also does). -/
theorem C155_plays {w : ℕ → ℝ} {len tap1 tap2 mo : ℕ → ℤ} {S : ℕ → Line} {out t1 t2 : ℕ → ℝ} (h : Spec.LineRun w len tap1 tap2 mo S out t1 t2) (n : ℕ) :
    (1 ≤ tap1 n → tap1 n ≤ 16384 → t1 n = Spec.ago w n (tap1 n)) ∧ (1 ≤ tap2 n → tap2 n ≤ 16384 → t2 n = Spec.ago w n (tap2 n)) ∧
    ∀ (d f : ℤ), 256 * len n - mo n = 256 * d - f → 0 ≤ f → f < 256 → (2 ≤ d ∨ d = 1 ∧ f = 0) → d ≤ 16384 →
      out n = (1 - f / 256) * Spec.ago w n d + f / 256 * Spec.ago w n (d - 1) := by
  have e := h.step n
  simp only [Line.process, Line.setLen, Prod.mk.injEq] at e
  obtain ⟨-, e1, e2, e3⟩ := e
  refine ⟨fun a b => by rw [← e2]; exact line_read h n a b, fun a b => by rw [← e3]; exact line_read h n a b, fun d f hd f0 f1 hd2 hd3 => ?_⟩
  have m1 : mo n / 256 = len n - d := by omega
  have m2 : mo n % 256 = f := by omega
  rw [m1, m2] at e1
  have r2 : (S n).data ((((S n).k + 1) % 16384 - len n + (len n - d)) % 16384) = Spec.ago w n d := by
    rw [← line_read h n (show 1 ≤ d by omega) hd3]; congr 1; congr 1; ring
  rw [r2] at e1
  rcases hd2 with hd2 | ⟨rfl, rfl⟩
  · have r1 : (S n).data ((((S n).k + 1) % 16384 - len n + (len n - d) + 1) % 16384) = Spec.ago w n (d - 1) := by
      rw [← line_read h n (show 1 ≤ d - 1 by omega) (by omega)]; congr 1; congr 1; ring
    rw [r1] at e1
    rw [← e1]; push_cast; ring
  · rw [← e1]; push_cast; ring

/-- **C155 (refutation).** A length `d` from 16385 to 32767 plays an echo 16384 samples too early. -/
theorem C155_long_refuted {w : ℕ → ℝ} {len tap1 tap2 mo : ℕ → ℤ} {S : ℕ → Line} {out t1 t2 : ℕ → ℝ} (h : Spec.LineRun w len tap1 tap2 mo S out t1 t2) (n : ℕ)
    (hm : mo n = 0) (h1 : 16384 < len n) (h2 : len n ≤ 32768) : out n = Spec.ago w n (len n - 16384) := by
  have e := congrArg (fun p => p.2.1) (h.step n)
  simp only [Line.process, Line.setLen, hm] at e
  have r := line_read h n (show 1 ≤ len n - 16384 by omega) (by omega)
  have e2 : (((S n).k + 1) % 16384 - len n + 0 / 256) % 16384 = (((S n).k + 1) % 16384 - (len n - 16384)) % 16384 := by omega
  rw [e2, r] at e
  rw [← e]; push_cast; ring

/-! ## C154: the tank -/

theorem bind_ok {α β : Type} {r : R α} {f : α → R β} {b : β} (h : (r >>= f) = .ok b) : ∃ a, r = .ok a ∧ f a = .ok b := by
  cases r with
  | ok a => exact ⟨a, rfl, h⟩
  | err e => cases h
  | panic w => cases h

theorem lowpass_energy {c : ℝ} (h0 : 0 ≤ c) (h1 : c < 1) (a x : ℝ) : c / (1 - c) * lowpass a x c ^ 2 + lowpass a x c ^ 2 ≤ c / (1 - c) * a ^ 2 + x ^ 2 := by
  have h : 0 < 1 - c := by linarith
  have e : c / (1 - c) * lowpass a x c ^ 2 + lowpass a x c ^ 2 = lowpass a x c ^ 2 / (1 - c) := by field_simp; ring
  have e2 : c / (1 - c) * a ^ 2 + x ^ 2 = (c * a ^ 2 + (1 - c) * x ^ 2) / (1 - c) := by field_simp
  rw [e, e2]
  refine div_le_div_of_nonneg_right ?_ h.le
  unfold lowpass
  nlinarith [mul_nonneg (mul_nonneg h0 h.le) (sq_nonneg (a - x))]

theorem highpass_energy {c : ℝ} (h0 : 0 ≤ c) (h1 : c ≤ 1) (a x : ℝ) (hz : c = 0 → a = 0) :
    (highpass a x c).1 ^ 2 / c + (highpass a x c).2 ^ 2 ≤ a ^ 2 / c + x ^ 2 ∧ (c = 0 → (highpass a x c).1 = 0) := by
  rcases h0.eq_or_lt with rfl | h0
  · simp [highpass, hz rfl]
  · refine ⟨?_, fun h => absurd h h0.ne'⟩
    have e : a ^ 2 / c + x ^ 2 - ((highpass a x c).1 ^ 2 / c + (highpass a x c).2 ^ 2) = a ^ 2 + c * (1 - c) * (x - a) ^ 2 := by
      unfold highpass; field_simp; ring
    have : 0 ≤ c * (1 - c) * (x - a) ^ 2 := mul_nonneg (mul_nonneg h0.le (by linarith)) (sq_nonneg _)
    nlinarith [sq_nonneg a]

/-- What one block of the tank holds, its delay line apart. -/
noncomputable def Blk.energy (z : Blk) (bu hf lf : ℝ) : ℝ := z.ap0.energy bu + z.ap1.energy bu + hf / (1 - hf) * z.hf ^ 2 + z.lf ^ 2 / lf

theorem blk_step {z z' : Blk} {sz : Sizes} {c : Coefs} {b : Fin 4} {i x y l r : ℝ} (h : z.process sz c b i x = .ok (z', y, l, r)) (hf0 : 0 ≤ c.hf) (hf1 : c.hf < 1) (lf0 : 0 ≤ c.lf) (lf1 : c.lf ≤ 1)
    (hz : c.lf = 0 → z.lf = 0) : ∃ w v, z'.energy c.buildup c.hf c.lf + w ^ 2 ≤ z.energy c.buildup c.hf c.lf + (x + i) ^ 2 ∧ (c.lf = 0 → z'.lf = 0) ∧
      (z.delay.setLen (sz.delay b)).process w (sz.tapL b) (sz.tapR b) (c.modulation b) = (z'.delay, v, l, r) ∧ y = v * c.decay := by
  unfold Blk.process at h
  obtain ⟨⟨ap0, x0⟩, h0, h⟩ := bind_ok h
  obtain ⟨⟨ap1, x1⟩, h1, h⟩ := bind_ok h
  simp only [Res.pure_eq] at h
  injection h with h
  simp only [Prod.mk.injEq] at h
  obtain ⟨e1, e2, e3, e4⟩ := h
  obtain ⟨q1, q2⟩ := highpass_energy lf0 lf1 z.lf (lowpass z.hf x1 c.hf) hz
  refine ⟨(highpass z.lf (lowpass z.hf x1 c.hf) c.lf).2, _, ?_, ?_, ?_, e2.symm⟩
  · have a := diffuser_energy h0
    have b := diffuser_energy h1
    have a' : (z.ap0.setLen (sz.ap0 ‹Fin 4›)).energy c.buildup = z.ap0.energy c.buildup := rfl
    have b' : (z.ap1.setLen (sz.ap1 ‹Fin 4›)).energy c.buildup = z.ap1.energy c.buildup := rfl
    rw [a'] at a
    rw [b'] at b
    have p := lowpass_energy hf0 hf1 z.hf x1
    rw [← e1]
    simp only [Blk.energy]
    linarith
  · rw [← e1]; exact q2
  · rw [← e1, ← e3, ← e4]

/-- A run of the tank from its fresh state. -/
structure Spec.TankRun (sz : ℕ → Sizes) (cs : ℕ → Coefs) (x : ℕ → ℝ) (T : ℕ → Tank) (out : ℕ → ℝ × ℝ) : Prop where
  start : T 0 = .new
  step : ∀ n, (T n).sample (sz n) (cs n) (x n) = .ok (T (n + 1), out n)

/-- Lengths for which nothing panics. -/
def Spec.Fits (sz : Sizes) : Prop := ∀ b, sz.input b ≤ 16384 ∧ sz.ap0 b ≤ 16384 ∧ sz.ap1 b ≤ 16384

theorem blk_ok (z : Blk) {sz : Sizes} (c : Coefs) (b : Fin 4) (i x : ℝ) (h : Spec.Fits sz) : ∃ p, z.process sz c b i x = .ok p := by
  obtain ⟨-, h0, h1⟩ := h b
  unfold Blk.process
  obtain ⟨a0, x0, e0⟩ := diffuser_ok (z.ap0.setLen (sz.ap0 b)) (x + i) c.buildup h0
  obtain ⟨a1, x1, e1⟩ := diffuser_ok (z.ap1.setLen (sz.ap1 b)) x0 c.buildup h1
  simp only [e0, e1, Res.ok_bind]
  exact ⟨_, rfl⟩

theorem tank_ok (t : Tank) {sz : Sizes} (c : Coefs) (x : ℝ) (h : Spec.Fits sz) : ∃ p, t.sample sz c x = .ok p := by
  unfold Tank.sample
  obtain ⟨a0, x0, e0⟩ := diffuser_ok (t.i0.setLen (sz.input 0)) x c.diffusion (h 0).1
  obtain ⟨a1, x1, e1⟩ := diffuser_ok (t.i1.setLen (sz.input 1)) x0 c.diffusion (h 1).1
  obtain ⟨a2, x2, e2⟩ := diffuser_ok (t.i2.setLen (sz.input 2)) x1 c.diffusion (h 2).1
  obtain ⟨a3, x3, e3⟩ := diffuser_ok (t.i3.setLen (sz.input 3)) x2 c.diffusion (h 3).1
  obtain ⟨⟨z0, y0, l0, r0⟩, f0⟩ := blk_ok t.z0 c 0 x3 t.state h
  obtain ⟨⟨z1, y1, l1, r1⟩, f1⟩ := blk_ok t.z1 c 1 x3 y0 h
  obtain ⟨⟨z2, y2, l2, r2⟩, f2⟩ := blk_ok t.z2 c 2 x3 y1 h
  obtain ⟨⟨z3, y3, l3, r3⟩, f3⟩ := blk_ok t.z3 c 3 x3 y2 h
  simp only [e0, e1, e2, e3, f0, f1, f2, f3, Res.ok_bind]
  exact ⟨_, rfl⟩

/-- **C154.** The tank never panics while the diffuser lengths stay within 16384 samples, whatever the other lengths, the coefficients, the modulation and the input do. -/
theorem C154_total (sz : ℕ → Sizes) (cs : ℕ → Coefs) (x : ℕ → ℝ) (h : ∀ n, Spec.Fits (sz n)) : ∃ T out, Spec.TankRun sz cs x T out := by
  have ex : ∀ (t : Tank) (n : ℕ), ∃ p, t.sample (sz n) (cs n) (x n) = .ok p := fun t n => tank_ok t (cs n) (x n) (h n)
  choose f hf using ex
  let T : ℕ → Tank := fun n => Nat.rec Tank.new (fun n a => (f a n).1) n
  exact ⟨T, fun n => (f (T n) n).2, rfl, fun n => hf (T n) n⟩

noncomputable def Tank.inEnergy (t : Tank) (c : ℝ) : ℝ := t.i0.energy c + t.i1.energy c + t.i2.energy c + t.i3.energy c

theorem tank_split {t t' : Tank} {sz : Sizes} {c : Coefs} {x : ℝ} {o : ℝ × ℝ} (h : t.sample sz c x = .ok (t', o)) : ∃ i y0 y1 y2 l0 l1 l2 l3 r0 r1 r2 r3 : ℝ,
    t'.inEnergy c.diffusion + i ^ 2 = t.inEnergy c.diffusion + x ^ 2 ∧
    t.z0.process sz c 0 i t.state = .ok (t'.z0, y0, l0, r0) ∧ t.z1.process sz c 1 i y0 = .ok (t'.z1, y1, l1, r1) ∧
    t.z2.process sz c 2 i y1 = .ok (t'.z2, y2, l2, r2) ∧ t.z3.process sz c 3 i y2 = .ok (t'.z3, t'.state, l3, r3) ∧
    o.1 = l0 * tapGain 0 + l1 * tapGain 1 + l2 * tapGain 2 + l3 * tapGain 3 ∧ o.2 = r0 * tapGain 0 + r1 * tapGain 1 + r2 * tapGain 2 + r3 * tapGain 3 := by
  unfold Tank.sample at h
  obtain ⟨⟨i0, x0⟩, d0, h⟩ := bind_ok h
  obtain ⟨⟨i1, x1⟩, d1, h⟩ := bind_ok h
  obtain ⟨⟨i2, x2⟩, d2, h⟩ := bind_ok h
  obtain ⟨⟨i3, x3⟩, d3, h⟩ := bind_ok h
  obtain ⟨⟨z0, y0, l0, r0⟩, f0, h⟩ := bind_ok h
  obtain ⟨⟨z1, y1, l1, r1⟩, f1, h⟩ := bind_ok h
  obtain ⟨⟨z2, y2, l2, r2⟩, f2, h⟩ := bind_ok h
  obtain ⟨⟨z3, y3, l3, r3⟩, f3, h⟩ := bind_ok h
  injection h with h
  injection h with h1 h2
  subst h1
  refine ⟨x3, y0, y1, y2, l0, l1, l2, l3, r0, r1, r2, r3, ?_, f0, f1, f2, f3, ?_, ?_⟩
  · have a0 := diffuser_energy d0
    have a1 := diffuser_energy d1
    have a2 := diffuser_energy d2
    have a3 := diffuser_energy d3
    have s : ∀ (a : Diffuser) (n : ℕ) (c : ℝ), (a.setLen n).energy c = a.energy c := fun _ _ _ => rfl
    rw [s] at a0 a1 a2 a3
    simp only [Tank.inEnergy]
    linarith
  · rw [← h2]; ring
  · rw [← h2]; ring

/-- Everything but the input and the decay stays as it is, the line modulation is off. -/
structure Spec.Steady (sz : ℕ → Sizes) (cs : ℕ → Coefs) (δ : ℝ) : Prop where
  diffusion : ∃ d, |d| ≤ 1 ∧ ∀ n, (cs n).diffusion = d
  buildup : ∃ d, |d| ≤ 1 ∧ ∀ n, (cs n).buildup = d
  hf : ∃ d, 0 ≤ d ∧ d < 1 ∧ ∀ n, (cs n).hf = d
  lf : ∃ d, 0 ≤ d ∧ d ≤ 1 ∧ ∀ n, (cs n).lf = d
  decay : ∀ n, 0 ≤ (cs n).decay ∧ (cs n).decay ≤ δ
  modulation : ∀ n b, (cs n).modulation b = 0
  lines : ∀ n b, (sz n).delay b = (sz 0).delay b ∧ (sz n).tapL b = (sz 0).tapL b ∧ (sz n).tapR b = (sz 0).tapR b

theorem line_any {w : ℕ → ℝ} {len tap1 tap2 mo : ℕ → ℤ} {S : ℕ → Line} {out t1 t2 : ℕ → ℝ} (h : Spec.LineRun w len tap1 tap2 mo S out t1 t2) (n : ℕ) (d : ℤ) :
    (S n).data ((((S n).k + 1) % 16384 - d) % 16384) = Spec.ago w n ((d - 1) % 16384 + 1) := by
  rw [← line_read h n (show 1 ≤ (d - 1) % 16384 + 1 by omega) (by omega)]
  congr 1
  omega

theorem ago_sum (w : ℕ → ℝ) {d : ℤ} (hd : 0 ≤ d) (N : ℕ) : ∑ n ∈ Finset.range N, Spec.ago w n d ^ 2 ≤ ∑ n ∈ Finset.range N, w n ^ 2 := by
  have e : ∑ n ∈ Finset.range N, Spec.ago w n d ^ 2 = ∑ n ∈ Finset.range ((N : ℤ) - d).toNat, w n ^ 2 := by
    induction N with
    | zero => have : ((0 : ℕ) - d : ℤ).toNat = 0 := by omega
              rw [this]; simp
    | succ N ih =>
      rw [Finset.sum_range_succ, ih]
      unfold Spec.ago
      by_cases h : d ≤ N
      · have : (((N + 1 : ℕ) : ℤ) - d).toNat = ((N : ℤ) - d).toNat + 1 := by omega
        rw [if_pos h, this, Finset.sum_range_succ]
      · have : (((N + 1 : ℕ) : ℤ) - d).toNat = ((N : ℤ) - d).toNat := by omega
        rw [if_neg h, this]; ring
  rw [e]
  exact Finset.sum_le_sum_of_subset_of_nonneg (Finset.range_mono (by omega)) fun _ _ _ => sq_nonneg _

theorem line_sums {w : ℕ → ℝ} {len tap1 tap2 mo : ℕ → ℤ} {S : ℕ → Line} {out t1 t2 : ℕ → ℝ} (h : Spec.LineRun w len tap1 tap2 mo S out t1 t2)
    (hm : ∀ n, mo n = 0) (hc : ∀ n, len n = len 0 ∧ tap1 n = tap1 0 ∧ tap2 n = tap2 0) (N : ℕ) :
    ∑ n ∈ Finset.range N, out n ^ 2 ≤ ∑ n ∈ Finset.range N, w n ^ 2 ∧ ∑ n ∈ Finset.range N, t1 n ^ 2 ≤ ∑ n ∈ Finset.range N, w n ^ 2 ∧
    ∑ n ∈ Finset.range N, t2 n ^ 2 ≤ ∑ n ∈ Finset.range N, w n ^ 2 := by
  have key : ∀ n, out n = Spec.ago w n ((len 0 - 1) % 16384 + 1) ∧ t1 n = Spec.ago w n ((tap1 0 - 1) % 16384 + 1) ∧ t2 n = Spec.ago w n ((tap2 0 - 1) % 16384 + 1) := by
    intro n
    have e := h.step n
    simp only [Line.process, Line.setLen, Prod.mk.injEq, hm, (hc n).1, (hc n).2.1, (hc n).2.2] at e
    obtain ⟨-, e1, e2, e3⟩ := e
    refine ⟨?_, ?_, ?_⟩
    · rw [← line_any h, ← e1]
      have z1 : (0 : ℤ) / 256 = 0 := rfl
      have z2 : (0 : ℤ) % 256 = 0 := rfl
      rw [z1, z2, add_zero]
      push_cast
      ring
    · rw [← line_any h, ← e2]
    · rw [← line_any h, ← e3]
  simp only [fun n => (key n).1, fun n => (key n).2.1, fun n => (key n).2.2]
  exact ⟨ago_sum w (by omega) N, ago_sum w (by omega) N, ago_sum w (by omega) N⟩

theorem blk_stream {Z : ℕ → Blk} {sz : ℕ → Sizes} {cs : ℕ → Coefs} {b : Fin 4} {i x y l r : ℕ → ℝ} {δ : ℝ} (h0 : Z 0 = .new)
    (step : ∀ n, (Z n).process (sz n) (cs n) b (i n) (x n) = .ok (Z (n + 1), y n, l n, r n)) (st : Spec.Steady sz cs δ) (N : ℕ) : ∃ A, 0 ≤ A ∧
      A ≤ ∑ n ∈ Finset.range N, (x n + i n) ^ 2 ∧ ∑ n ∈ Finset.range N, y n ^ 2 ≤ δ ^ 2 * A ∧ ∑ n ∈ Finset.range N, l n ^ 2 ≤ A ∧ ∑ n ∈ Finset.range N, r n ^ 2 ≤ A := by
  obtain ⟨bu, bu1, hbu⟩ := st.buildup
  obtain ⟨hf, hf0, hf1, hhf⟩ := st.hf
  obtain ⟨lf, lf0, lf1, hlf⟩ := st.lf
  have inv : ∀ n, (cs n).lf = 0 → (Z n).lf = 0 := by
    intro n
    induction n with
    | zero => intro _; rw [h0]; rfl
    | succ n ih =>
      rw [hlf] at ih
      rw [hlf]
      obtain ⟨_, _, -, q, -⟩ := blk_step (step n) (by rw [hhf]; exact hf0) (by rw [hhf]; exact hf1) (by rw [hlf]; exact lf0) (by rw [hlf]; exact lf1) (by rw [hlf]; exact ih)
      rw [hlf] at q
      exact q
  have ex : ∀ n, ∃ w v, (Z (n + 1)).energy bu hf lf + w ^ 2 ≤ (Z n).energy bu hf lf + (x n + i n) ^ 2 ∧
      ((Z n).delay.setLen ((sz n).delay b)).process w ((sz n).tapL b) ((sz n).tapR b) ((cs n).modulation b) = ((Z (n + 1)).delay, v, l n, r n) ∧ y n = v * (cs n).decay := by
    intro n
    obtain ⟨w, v, a1, -, a3, a4⟩ := blk_step (step n) (by rw [hhf]; exact hf0) (by rw [hhf]; exact hf1) (by rw [hlf]; exact lf0) (by rw [hlf]; exact lf1) (inv n)
    rw [hhf, hlf, hbu] at a1
    exact ⟨w, v, a1, a3, a4⟩
  choose w v e1 e2 e3 using ex
  have run : Spec.LineRun w (fun n => (sz n).delay b) (fun n => (sz n).tapL b) (fun n => (sz n).tapR b) (fun n => (cs n).modulation b) (fun n => (Z n).delay) v l r :=
    ⟨by show (Z 0).delay = _; rw [h0]; rfl, e2⟩
  obtain ⟨s1, s2, s3⟩ := line_sums run (fun n => st.modulation n b) (fun n => st.lines n b) N
  have tele : ∀ N, (Z N).energy bu hf lf + ∑ n ∈ Finset.range N, w n ^ 2 ≤ ∑ n ∈ Finset.range N, (x n + i n) ^ 2 := by
    intro N
    induction N with
    | zero => simp [h0, Blk.energy, Blk.new, Diffuser.energy, Diffuser.new]
    | succ N ih =>
      rw [Finset.sum_range_succ (n := N), Finset.sum_range_succ (n := N)]
      have := e1 N
      linarith
  have pos : 0 ≤ (Z N).energy bu hf lf := by
    unfold Blk.energy
    have := energy_nonneg (Z N).ap0 bu1
    have := energy_nonneg (Z N).ap1 bu1
    have : 0 ≤ hf / (1 - hf) * (Z N).hf ^ 2 := mul_nonneg (div_nonneg hf0 (by linarith)) (sq_nonneg _)
    have : 0 ≤ (Z N).lf ^ 2 / lf := div_nonneg (sq_nonneg _) lf0
    linarith
  have t := tele N
  refine ⟨∑ n ∈ Finset.range N, w n ^ 2, Finset.sum_nonneg fun _ _ => sq_nonneg _, by linarith, ?_, s2, s3⟩
  refine le_trans ?_ (mul_le_mul_of_nonneg_left s1 (sq_nonneg δ))
  rw [Finset.mul_sum]
  refine Finset.sum_le_sum fun n _ => ?_
  rw [e3 n, mul_pow, mul_comm]
  exact mul_le_mul_of_nonneg_right (pow_le_pow_left₀ (st.decay n).1 (st.decay n).2 2) (sq_nonneg _)

theorem mix_sum (a i : ℕ → ℝ) {δ : ℝ} (h0 : 0 < δ) (h1 : δ < 1) (N : ℕ) :
    ∑ n ∈ Finset.range N, (a n + i n) ^ 2 ≤ (∑ n ∈ Finset.range N, a n ^ 2) / δ + (∑ n ∈ Finset.range N, i n ^ 2) / (1 - δ) := by
  rw [Finset.sum_div, Finset.sum_div, ← Finset.sum_add_distrib]
  refine Finset.sum_le_sum fun n _ => ?_
  have h2 : 0 < 1 - δ := by linarith
  have e : a n ^ 2 / δ + i n ^ 2 / (1 - δ) - (a n + i n) ^ 2 = ((1 - δ) * a n - δ * i n) ^ 2 / (δ * (1 - δ)) := by field_simp; ring
  have : 0 ≤ ((1 - δ) * a n - δ * i n) ^ 2 / (δ * (1 - δ)) := div_nonneg (sq_nonneg _) (mul_pos h0 h2).le
  linarith

theorem taps_sum (l0 l1 l2 l3 o : ℕ → ℝ) (h : ∀ n, o n = l0 n * tapGain 0 + l1 n * tapGain 1 + l2 n * tapGain 2 + l3 n * tapGain 3) (N : ℕ) : ∑ n ∈ Finset.range N, o n ^ 2 ≤ 0.333125 *
    (∑ n ∈ Finset.range N, l0 n ^ 2 + ∑ n ∈ Finset.range N, l1 n ^ 2 + ∑ n ∈ Finset.range N, l2 n ^ 2 + ∑ n ∈ Finset.range N, l3 n ^ 2) := by
  rw [← Finset.sum_add_distrib, ← Finset.sum_add_distrib, ← Finset.sum_add_distrib, Finset.mul_sum]
  refine Finset.sum_le_sum fun n _ => ?_
  rw [h n]
  simp only [tapGain]
  generalize l0 n = a
  generalize l1 n = b
  generalize l2 n = c
  generalize l3 n = d
  have t0 : (![(1.5 / 4 : ℝ), 1.2 / 4, 1 / 4, 0.8 / 4]) 0 = 3 / 8 := by norm_num
  have t1 : (![(1.5 / 4 : ℝ), 1.2 / 4, 1 / 4, 0.8 / 4]) 1 = 3 / 10 := by norm_num
  have t2 : (![(1.5 / 4 : ℝ), 1.2 / 4, 1 / 4, 0.8 / 4]) 2 = 1 / 4 := by show (1 / 4 : ℝ) = _; norm_num
  have t3 : (![(1.5 / 4 : ℝ), 1.2 / 4, 1 / 4, 0.8 / 4]) 3 = 1 / 5 := by show (0.8 / 4 : ℝ) = _; norm_num
  rw [t0, t1, t2, t3]
  norm_num
  nlinarith [sq_nonneg (a * (3 / 10) - b * (3 / 8)), sq_nonneg (a * (1 / 4) - c * (3 / 8)), sq_nonneg (a * (1 / 5) - d * (3 / 8)), sq_nonneg (b * (1 / 4) - c * (3 / 10)), sq_nonneg (b * (1 / 5) - d * (3 / 10)),
    sq_nonneg (c * (1 / 5) - d * (1 / 4))]

/-- **C154.** The tail carries a finite energy: with settings that stand still, the modulation off and a loop gain of at most `δ < 1` per block, the energy put out on each channel up to any moment is at
most 1.3325/(1-δ)² times the energy put in up to then. -/
theorem C154_tail_partial {sz : ℕ → Sizes} {cs : ℕ → Coefs} {x : ℕ → ℝ} {T : ℕ → Tank} {out : ℕ → ℝ × ℝ} {δ : ℝ} (run : Spec.TankRun sz cs x T out) (st : Spec.Steady sz cs δ) (d0 : 0 < δ) (d1 : δ < 1) (N : ℕ) :
    (1 - δ) ^ 2 * ∑ n ∈ Finset.range N, (out n).1 ^ 2 ≤ 1.3325 * ∑ n ∈ Finset.range N, x n ^ 2 ∧
    (1 - δ) ^ 2 * ∑ n ∈ Finset.range N, (out n).2 ^ 2 ≤ 1.3325 * ∑ n ∈ Finset.range N, x n ^ 2 := by
  choose i y0 y1 y2 l0 l1 l2 l3 r0 r1 r2 r3 e p0 p1 p2 p3 ol or' using fun n => tank_split (run.step n)
  obtain ⟨df, df1, hdf⟩ := st.diffusion
  obtain ⟨A0, a0, A0x, A0y, A0l, A0r⟩ := blk_stream (by rw [run.start]; rfl) p0 st N
  obtain ⟨A1, a1, A1x, A1y, A1l, A1r⟩ := blk_stream (by rw [run.start]; rfl) p1 st N
  obtain ⟨A2, a2, A2x, A2y, A2l, A2r⟩ := blk_stream (by rw [run.start]; rfl) p2 st N
  obtain ⟨A3, a3, A3x, A3y, A3l, A3r⟩ := blk_stream (by rw [run.start]; rfl) p3 st N
  have hI : ∑ n ∈ Finset.range N, i n ^ 2 ≤ ∑ n ∈ Finset.range N, x n ^ 2 := by
    have tele : ∀ N, (T N).inEnergy df + ∑ n ∈ Finset.range N, i n ^ 2 = ∑ n ∈ Finset.range N, x n ^ 2 := by
      intro N
      induction N with
      | zero => simp [run.start, Tank.inEnergy, Tank.new, Diffuser.energy, Diffuser.new]
      | succ N ih =>
        rw [Finset.sum_range_succ (n := N), Finset.sum_range_succ (n := N)]
        have := e N
        rw [hdf] at this
        linarith
    have := tele N
    have : 0 ≤ (T N).inEnergy df := by
      unfold Tank.inEnergy
      have := energy_nonneg (T N).i0 df1
      have := energy_nonneg (T N).i1 df1
      have := energy_nonneg (T N).i2 df1
      have := energy_nonneg (T N).i3 df1
      linarith
    linarith
  have hs : ∑ n ∈ Finset.range N, (T n).state ^ 2 ≤ ∑ n ∈ Finset.range N, (T (n + 1)).state ^ 2 := by
    have s0 : (T 0).state = 0 := by rw [run.start]; rfl
    have t1 := Finset.sum_range_succ (fun n => (T n).state ^ 2) N
    rw [Finset.sum_range_succ'] at t1
    simp only [s0] at t1
    nlinarith [sq_nonneg (T N).state]
  have m0 := mix_sum (fun n => (T n).state) i d0 d1 N
  have m1 := mix_sum y0 i d0 d1 N
  have m2 := mix_sum y1 i d0 d1 N
  have m3 := mix_sum y2 i d0 d1 N
  have dv : ∀ {s A : ℝ}, s ≤ δ ^ 2 * A → s / δ ≤ δ * A := fun {s A} h => by
    rw [div_le_iff₀ d0]; linarith [h]
  have q0 := dv (hs.trans A3y)
  have q1 := dv A0y
  have q2 := dv A1y
  have q3 := dv A2y
  have c2 : 0 < 1 - δ := by linarith
  set I := ∑ n ∈ Finset.range N, i n ^ 2 with hIdef
  have tot : (1 - δ) * (A0 + A1 + A2 + A3) ≤ 4 * (I / (1 - δ)) := by linarith
  have tot2 : (1 - δ) ^ 2 * (A0 + A1 + A2 + A3) ≤ 4 * I := by
    have := mul_le_mul_of_nonneg_left tot c2.le
    have e : (1 - δ) * (4 * (I / (1 - δ))) = 4 * I := by field_simp
    rw [e] at this
    nlinarith
  have fin : ∀ {s : ℝ}, s ≤ 0.333125 * (A0 + A1 + A2 + A3) → (1 - δ) ^ 2 * s ≤ 1.3325 * ∑ n ∈ Finset.range N, x n ^ 2 := fun {s} h => by
    have := mul_le_mul_of_nonneg_left h (sq_nonneg (1 - δ))
    norm_num at this ⊢
    linarith
  refine ⟨fin ?_, fin ?_⟩
  · have := taps_sum l0 l1 l2 l3 (fun n => (out n).1) ol N
    refine this.trans (mul_le_mul_of_nonneg_left (by linarith) (by norm_num))
  · have := taps_sum r0 r1 r2 r3 (fun n => (out n).2) or' N
    refine this.trans (mul_le_mul_of_nonneg_left (by linarith) (by norm_num))

theorem tends_of_energy {o : ℕ → ℝ} {c : ℝ} (h : ∀ N, ∑ n ∈ Finset.range N, o n ^ 2 ≤ c) : Filter.Tendsto o Filter.atTop (nhds 0) := by
  have s : Summable fun n => o n ^ 2 := summable_of_sum_range_le (fun _ => sq_nonneg _) h
  have t := s.tendsto_atTop_zero
  have t2 := (Real.continuous_sqrt.tendsto 0).comp t
  rw [Real.sqrt_zero] at t2
  refine tendsto_zero_iff_abs_tendsto_zero _ |>.2 (t2.congr fun n => ?_)
  exact Real.sqrt_sq_eq_abs _

/-- **C154.** Under the same conditions the tail dies away once the input has stopped. -/
theorem C154_dies_partial {sz : ℕ → Sizes} {cs : ℕ → Coefs} {x : ℕ → ℝ} {T : ℕ → Tank} {out : ℕ → ℝ × ℝ} {δ : ℝ} (run : Spec.TankRun sz cs x T out) (st : Spec.Steady sz cs δ) (d0 : 0 < δ) (d1 : δ < 1)
    {M : ℕ} (hx : ∀ n, M ≤ n → x n = 0) : Filter.Tendsto (fun n => (out n).1) Filter.atTop (nhds 0) ∧ Filter.Tendsto (fun n => (out n).2) Filter.atTop (nhds 0) := by
  have b : ∀ N, ∑ n ∈ Finset.range N, x n ^ 2 ≤ ∑ n ∈ Finset.range M, x n ^ 2 := by
    intro N
    rcases le_total N M with h | h
    · exact Finset.sum_le_sum_of_subset_of_nonneg (Finset.range_mono h) fun _ _ _ => sq_nonneg _
    · refine le_of_eq (Finset.sum_subset (Finset.range_mono h) fun n _ hn => ?_).symm
      rw [hx n (by simpa using hn)]; ring
  have c2 : 0 < (1 - δ) ^ 2 := by have : 0 < 1 - δ := by linarith
                                  positivity
  constructor
  · refine tends_of_energy (c := 1.3325 * (∑ n ∈ Finset.range M, x n ^ 2) / (1 - δ) ^ 2) fun N => ?_
    rw [le_div_iff₀ c2, mul_comm]
    exact (C154_tail_partial run st d0 d1 N).1.trans (mul_le_mul_of_nonneg_left (b N) (by norm_num))
  · refine tends_of_energy (c := 1.3325 * (∑ n ∈ Finset.range M, x n ^ 2) / (1 - δ) ^ 2) fun N => ?_
    rw [le_div_iff₀ c2, mul_comm]
    exact (C154_tail_partial run st d0 d1 N).2.trans (mul_le_mul_of_nonneg_left (b N) (by norm_num))

/-- **C154.** Every decay time and every room scale give a loop gain strictly between 0 and 1. -/
theorem C154_gain {scale : ℝ} (h : 0 < scale) (time : ℝ) : 0 < decayOf scale time ∧ decayOf scale time < 1 := by
  unfold decayOf
  have b0 : 0 < (10 : ℝ) ^ (0.05 * -60 : ℝ) := Real.rpow_pos_of_pos (by norm_num) _
  have b1 : (10 : ℝ) ^ (0.05 * -60 : ℝ) < 1 := Real.rpow_lt_one_of_one_lt_of_neg (by norm_num) (by norm_num)
  refine ⟨Real.rpow_pos_of_pos b0 _, Real.rpow_lt_one b0.le b1 ?_⟩
  have := Real.rpow_pos_of_pos (show (0 : ℝ) < 2 by norm_num) time
  exact div_pos (mul_pos (by norm_num) h) (mul_pos (by norm_num) this)

theorem ms_le {sr ms m : ℝ} {n : ℕ} (hp : 0 < sr * m) (h : sr * m * ms < 1000 * (n + 1)) : ms2samples sr ms m ≤ n := by
  unfold ms2samples
  have : ⌊sr * ms * 0.001 * m⌋₊ < n + 1 := by
    rw [Nat.floor_lt' (by omega)]
    push_cast
    rw [show sr * ms * 0.001 * m = sr * m * ms / 1000 by ring, div_lt_iff₀ (by norm_num)]
    linarith
  omega

theorem le_ms {sr ms m : ℝ} {n : ℕ} (h : 1000 * n ≤ sr * m * ms) : n ≤ ms2samples sr ms m := by
  unfold ms2samples
  refine Nat.le_floor ?_
  rw [show sr * ms * 0.001 * m = sr * m * ms / 1000 by ring, le_div_iff₀ (by norm_num)]
  linarith

theorem fin4 {P : Fin 4 → Prop} (h0 : P 0) (h1 : P 1) (h2 : P 2) (h3 : P 3) : ∀ b, P b := fun b => by
  match b with
  | 0 => exact h0
  | 1 => exact h1
  | 2 => exact h2
  | 3 => exact h3

/-- **C154, C155.** Up to a product of sample rate and room scale of 91633 Hz — 44.1 kHz at every room size — and from 100 Hz on, all the lengths are ones for which C153 to C155 hold: the diffusers and the lines have
room for them. -/
theorem C155_sizes {sr m : ℝ} (h0 : 100 ≤ sr * m) (h1 : sr * m ≤ 91633) : Spec.Fits (calcSize sr m) ∧
    ∀ b, 2 ≤ (calcSize sr m).delay b ∧ (calcSize sr m).delay b ≤ 16384 ∧ 1 ≤ (calcSize sr m).tapL b ∧ (calcSize sr m).tapL b ≤ 16384 ∧ 1 ≤ (calcSize sr m).tapR b ∧ (calcSize sr m).tapR b ≤ 16384 := by
  have hp : 0 < sr * m := by linarith
  have u : ∀ ms : ℝ, 0 ≤ ms → ms ≤ 178.8 → ms2samples sr ms m ≤ 16384 := fun ms a b => ms_le hp (by
    norm_num at b ⊢
    nlinarith)
  have l1 : ∀ ms : ℝ, 20 ≤ ms → 2 ≤ ms2samples sr ms m := fun ms a => le_ms (by push_cast; nlinarith)
  refine ⟨fin4 ?_ ?_ ?_ ?_, fin4 ?_ ?_ ?_ ?_⟩
  iterate 4
    refine ⟨u _ ?_ ?_, u _ ?_ ?_, u _ ?_ ?_⟩ <;> simp <;> norm_num
  iterate 4
    simp only [calcSize]
    refine ⟨?_, ?_, ?_, ?_, ?_, ?_⟩
    · exact_mod_cast l1 _ (by simp <;> norm_num)
    · exact_mod_cast u _ (by simp <;> norm_num) (by simp <;> norm_num)
    · exact_mod_cast (by norm_num : 1 ≤ 2).trans (l1 _ (by simp <;> norm_num))
    · exact_mod_cast u _ (by simp <;> norm_num) (by simp <;> norm_num)
    · exact_mod_cast (by norm_num : 1 ≤ 2).trans (l1 _ (by simp <;> norm_num))
    · exact_mod_cast u _ (by simp <;> norm_num) (by simp <;> norm_num)

/-- **C155 (refutation).** At 48 kHz with the room size at its maximum, scale 2, the first line is 17164 samples long: it plays an echo of 780 samples instead. -/
theorem C155_48k_refuted {w : ℕ → ℝ} {tap1 tap2 mo : ℕ → ℤ} {S : ℕ → Line} {out t1 t2 : ℕ → ℝ} (h : Spec.LineRun w (fun _ => (calcSize 48000 2).delay 0) tap1 tap2 mo S out t1 t2) (n : ℕ)
    (hm : mo n = 0) : (calcSize 48000 2).delay 0 = 17164 ∧ out n = Spec.ago w n 780 := by
  have e : (calcSize 48000 2).delay 0 = 17164 := by
    simp only [calcSize]
    have : ms2samples 48000 (![(178.8 : ℝ), 126.5, 106.1, 139.4] 0) 2 = 17164 := le_antisymm (ms_le (by norm_num) (by norm_num)) (le_ms (by norm_num))
    rw [this]; rfl
  have := C155_long_refuted h n hm (by rw [e]; norm_num) (by rw [e]; norm_num)
  rw [e] at this
  exact ⟨e, this⟩

/-- Non-vacuity: a room with a decay time of 2 s meets the hypotheses of `C154_tail_partial`, and a click goes in. -/
example : ∃ (sz : ℕ → Sizes) (cs : ℕ → Coefs) (x : ℕ → ℝ) (T : ℕ → Tank) (out : ℕ → ℝ × ℝ) (δ : ℝ),
    Spec.TankRun sz cs x T out ∧ Spec.Steady sz cs δ ∧ 0 < δ ∧ δ < 1 ∧ x 0 = 1 ∧ (∀ n, 1 ≤ n → x n = 0) ∧ (cs 0).decay = δ := by
  let sz : ℕ → Sizes := fun _ => calcSize 44100 2
  let cs : ℕ → Coefs := fun _ => ⟨0.7, 0.6, 0.2, 0.1, decayOf 1 1, fun _ => 0⟩
  obtain ⟨T, out, run⟩ := C154_total sz cs (fun n => if n = 0 then 1 else 0) (fun n => (C155_sizes (by norm_num) (by norm_num)).1)
  obtain ⟨g0, g1⟩ := C154_gain (show (0 : ℝ) < 1 by norm_num) 1
  refine ⟨sz, cs, _, T, out, decayOf 1 1, run, ⟨⟨0.7, by rw [abs_of_pos] <;> norm_num, fun _ => rfl⟩, ⟨0.6, by rw [abs_of_pos] <;> norm_num, fun _ => rfl⟩, ⟨0.2, by norm_num, by norm_num, fun _ => rfl⟩, ⟨0.1, by norm_num, by norm_num, fun _ => rfl⟩,
    fun _ => ⟨g0.le, le_rfl⟩, fun _ _ => rfl, fun _ _ => ⟨rfl, rfl, rfl⟩⟩, g0, g1, by simp, fun n hn => if_neg (by omega), rfl⟩

end Verif.Effects.Allpass
