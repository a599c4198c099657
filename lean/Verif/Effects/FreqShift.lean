import Verif.Halfrate.Rejection
import Verif.Halfrate.Resample
import Verif.Smooth.Lipol
import Verif.Smooth.Lag
import Verif.Tables.Props
import Verif.Dsp.Clip
/-!
# The frequency shifter (C196-C199), in exact real arithmetic

surgefx-freqshift with surge-quadrosc, at its block size of 32 samples.  The shift arrives as an angular frequency per sample, the delay in samples (less the six of the interpolator),
feedback as a factor; wave shaper and interpolation kernel are any functions.  Channel `false` is the left one, `true` the right one.  Not modelled: rounding, the ring-out time.
-/
namespace Verif.Effects.FreqShift
open Verif.Smooth Verif.Halfrate Verif.Tables Verif.Dsp

/-! ## The quadrature oscillator -/

/-- surge-quadrosc/src/lib.rs 1-7. -/
structure Osc where
  r : ℝ
  i : ℝ
  dr : ℝ
  di : ℝ

/-- lib.rs 21-31 `default`. -/
def Osc.default : Osc := ⟨0, -1, 0, 0⟩

/-- lib.rs 33-47 `set_rate`. -/
noncomputable def Osc.setRate (w : ℝ) (o : Osc) : Osc :=
  let n := 1 / Real.sqrt (o.r * o.r + o.i * o.i)
  ⟨o.r * n, o.i * n, Real.cos w, Real.sin w⟩

/-- lib.rs 57-65 `process`. -/
def Osc.process (o : Osc) : Osc := ⟨o.dr * o.r - o.di * o.i, o.dr * o.i + o.di * o.r, o.dr, o.di⟩

/-! ## The effect -/

/-- freq_shift.rs 6-34 (the lags `shift_l`, `shift_r` are used nowhere). -/
structure State where
  fr : St
  fi : St
  mix : LipolPs ℝ
  feedback : LiPol ℝ
  time : Lag ℝ
  o1 : Bool → Osc
  o2 : Bool → Osc
  buf : Bool → ℕ → ℝ
  wpos : ℤ

/-- The parameters as `update` has converted them, the wave shaper, the kernel. -/
structure Params where
  omega : ℝ
  mult : ℝ
  feedback : ℝ
  time : ℝ
  mix : ℝ
  shape : ℝ → ℝ
  sinc : ℕ → ℝ

/-- update.rs 35-39: the right oscillator is pulled towards the left one. -/
noncomputable def lock (a b : Osc) : Osc := ⟨0.01 * a.r + (1 - 0.01) * b.r, 0.01 * a.i + (1 - 0.01) * b.i, b.dr, b.di⟩

/-- update.rs 33: `|mult - 1| < f32::EPSILON`. -/
def Locked (P : Params) : Prop := |P.mult - 1| < 1 / 2 ^ 23
noncomputable instance (P : Params) : Decidable (Locked P) := Classical.dec _

/-- update.rs 33-44: the angular frequency the right channel is given. -/
noncomputable def omegaR (P : Params) : ℝ := if Locked P then P.omega else P.omega * P.mult * P.mult

/-- update.rs 29-47: the first and the second oscillator of each channel. -/
noncomputable def tune1 (P : Params) (o : Bool → Osc) (c : Bool) : Osc :=
  let l := (o false).setRate (Real.pi * 0.5 - min 0 P.omega)
  if c then (if Locked P then lock l (o true) else o true).setRate (Real.pi * 0.5 - min 0 (omegaR P)) else l
noncomputable def tune2 (P : Params) (o : Bool → Osc) (c : Bool) : Osc :=
  let l := (o false).setRate (Real.pi * 0.5 + max 0 P.omega)
  if c then (if Locked P then lock l (o true) else o true).setRate (Real.pi * 0.5 + max 0 (omegaR P)) else l

/-- update.rs 5-47 `update`. -/
noncomputable def update (P : Params) (s : State) : State :=
  ⟨s.fr, s.fi, s.mix.setTargetSmoothed P.mix, s.feedback.newValue P.feedback, s.time.newValue P.time, tune1 P s.o1, tune2 P s.o2, s.buf, s.wpos⟩

/-- init.rs 5-28 and 30-64, `new` with `init`. -/
noncomputable def start (P : Params) : Res Empty State := do
  let fr ← St.new 6 true
  let fi ← St.new 6 true
  .ok (update P ⟨fr.reset, fi.reset, LipolPs.default, LiPol.new 32, Lag.new 0.0001, fun _ => Osc.default, fun _ => Osc.default, fun _ _ => 0, 0⟩)

/-- `x as i32` for a real `x`: towards zero, saturating. -/
noncomputable def toI32 (x : ℝ) : ℤ := max (-2147483648) (min 2147483647 (if 0 ≤ x then ⌊x⌋ else ⌈x⌉))

/-- pre_block.rs 18-25: the delay in whole samples. -/
noncomputable def delayOf (v : ℝ) : ℤ := max 44 (min (toI32 v) (2 ^ 18 - 13))

/-- pre_block.rs 29-37: the offset into the kernel; the product is taken in `i32`. -/
noncomputable def sincOf (d : ℤ) (v : ℝ) : Res Empty ℤ := do
  let e ← chkI32 (256 * toI32 (((d + 1 : ℤ) : ℝ) - v))
  .ok (12 * limitRangeI e 0 255)

/-- pre_block.rs 42-55: twelve taps. -/
noncomputable def fir (sinc : ℕ → ℝ) (buf : ℕ → ℝ) (rp o : ℤ) : ℝ :=
  ∑ i ∈ Finset.range 12, buf (index (rp - (i : ℕ)) (2 ^ 18 - 1)) * sinc (o + 12 - (i : ℕ)).toNat

/-- pre_block.rs 16-55: what channel `c` reads for sample `k` of the block. -/
noncomputable def readAt (P : Params) (s : State) (k : ℕ) : Res Empty (ℝ × ℝ) := do
  let v := (Lag.process^[k + 1] s.time).v
  let o ← sincOf (delayOf v) v
  .ok (fir P.sinc (s.buf false) (s.wpos - delayOf v + k) o, fir P.sinc (s.buf true) (s.wpos - delayOf v + k) o)

/-- process.rs 24-30: the reading loop, `n` samples of it. -/
noncomputable def reads (P : Params) (s : State) : ℕ → Res Empty (List (ℝ × ℝ))
  | 0 => .ok []
  | n + 1 => do
    let xs ← reads P s n
    let x ← readAt P s n
    .ok (xs ++ [x])

/-- The channel of a stereo sample. -/
def chan (c : Bool) (p : ℝ × ℝ) : ℝ := if c then p.2 else p.1

/-- pre_block.rs 57-64: the read samples times a component of the first oscillators. -/
noncomputable def modulate (g : Osc → ℝ) (u : List (ℝ × ℝ)) (s : State) : List (ℝ × ℝ) :=
  (List.range 32).map fun k => ((u.getD k 0).1 * g (Osc.process^[k + 1] (s.o1 false)), (u.getD k 0).2 * g (Osc.process^[k + 1] (s.o1 true)))

/-- post_block.rs 15-24. -/
noncomputable def wetAt (s : State) (yr yi : List (ℝ × ℝ)) (c : Bool) (k : ℕ) : ℝ :=
  2 * (chan c (yr.getD k 0) * (Osc.process^[k + 1] (s.o2 c)).r + chan c (yi.getD k 0) * (Osc.process^[k + 1] (s.o2 c)).i)

/-- post_block.rs 26-46: the buffer of channel `c` after `n` samples of the writing loop. -/
noncomputable def written (P : Params) (s : State) (x wet : ℕ → ℝ) (b : ℕ → ℝ) : ℕ → ℕ → ℝ
  | 0 => b
  | k + 1 => fun j => if j = index (s.wpos + k) (2 ^ 18 - 1) then x k + P.shape (wet k * (s.feedback.steps (k + 1)).v) else written P s x wet b k j

/-- process.rs 5-73 `stereo_process`: one block in place. -/
noncomputable def process (P : Params) (x : Bool → ℕ → ℝ) (s : State) : Res Empty (State × (Bool → ℕ → ℝ)) := do
  let s := update P s
  let u ← reads P s 32
  let (fr, yr) ← s.fr.process (modulate Osc.r u s)
  let (fi, yi) ← s.fi.process (modulate Osc.i u s)
  let wet := wetAt s yr yi
  .ok (⟨fr, fi, s.mix, s.feedback.steps 32, Lag.process^[32] s.time, fun c => Osc.process^[32] (s.o1 c), fun c => Osc.process^[32] (s.o2 c),
      fun c => written P s (x c) (wet c) (s.buf c) 32, ((index (s.wpos + 32) (2 ^ 18 - 1) : ℕ) : ℤ)⟩,
    fun c => s.mix.fadeTo 8 (x c) (wet c) (x c))

/-- Block `n` of a signal. -/
def blockOf (x : Bool → ℕ → ℝ) (n : ℕ) : Bool → ℕ → ℝ := fun c k => x c (32 * n + k)

/-- A signal with its block `n` replaced. -/
def splice {α : Type} (n : ℕ) (old new : ℕ → α) (m : ℕ) : α := if m / 32 = n then new (m % 32) else old m

/-- The effect on the first `N` blocks of `x`, from the start, with parameters `P n` in block `n` (and `P 0` at the start): the state then and the output so far. -/
noncomputable def play (P : ℕ → Params) (x : Bool → ℕ → ℝ) : ℕ → Res Empty (State × (Bool → ℕ → ℝ))
  | 0 => do
    let s ← start (P 0)
    .ok (s, fun _ _ => 0)
  | n + 1 => do
    let (s, y) ← play P x n
    let (s, z) ← process (P n) (blockOf x n) s
    .ok (s, fun c => splice n (y c) (z c))

/-! ## The signal flow -/

/-- What the smoothed controls are at one sample. -/
structure Ctl where
  delay : ℝ
  fb : ℝ
  gain : ℝ
  p : Bool → ℝ × ℝ
  q : Bool → ℝ × ℝ

/-- The signals inside the effect. -/
structure Signals where
  ctl : ℕ → Ctl
  read : Bool → ℕ → ℝ
  wet : Bool → ℕ → ℝ
  stored : Bool → ℕ → ℝ

/-- A signal at an integer time: silence before the start. -/
def Spec.past (b : ℕ → ℝ) (m : ℤ) : ℝ := if 0 ≤ m then b m.toNat else 0

/-- The row of the kernel in use: the last one when the delay is a whole number of samples or too short, else the first. -/
noncomputable def Spec.offset (v : ℝ) : ℕ := if v ≤ delayOf v then 12 * 255 else 0

/-- The twelve-tap reading of a stored signal. -/
noncomputable def Spec.tap (sinc : ℕ → ℝ) (b : ℕ → ℝ) (v : ℝ) (n : ℕ) : ℝ :=
  ∑ i ∈ Finset.range 12, Spec.past b ((n : ℤ) - delayOf v - (i : ℕ)) * sinc (Spec.offset v + 12 - (i : ℕ))

/-- The coefficients of the two half-band filters. -/
noncomputable def Spec.coefA : List ℝ := Spec.rounded ((table true 12).getD ([], [])).1
noncomputable def Spec.coefB : List ℝ := Spec.rounded ((table true 12).getD ([], [])).2

/-- The flow of the signals up to sample `L`. -/
structure Spec.Flow (P : ℕ → Params) (x y : Bool → ℕ → ℝ) (σ : Signals) (L : ℕ) : Prop where
  read : ∀ c n, n < L → σ.read c n = Spec.tap (P (n / 32)).sinc (σ.stored c) (σ.ctl n).delay n
  wet : ∀ c n, n < L → σ.wet c n =
    2 * (Spec.halfband Spec.coefA Spec.coefB (fun m => σ.read c m * ((σ.ctl m).p c).1) n * ((σ.ctl n).q c).1 +
      Spec.halfband Spec.coefA Spec.coefB (fun m => σ.read c m * ((σ.ctl m).p c).2) n * ((σ.ctl n).q c).2)
  stored : ∀ c n, n < L → σ.stored c n = x c n + (P (n / 32)).shape (σ.wet c n * (σ.ctl n).fb)
  out : ∀ c n, n < L → y c n = x c n * (1 - (σ.ctl n).gain) + σ.wet c n * (σ.ctl n).gain

/-- The controls sample `k` of a block will see, if the block begins with state `s`. -/
noncomputable def ctl (P : Params) (s : State) (k : ℕ) : Ctl :=
  ⟨(Lag.process^[k + 1] (update P s).time).v, ((update P s).feedback.steps (k + 1)).v, (update P s).mix.gain k,
    fun c => ((Osc.process^[k + 1] ((update P s).o1 c)).r, (Osc.process^[k + 1] ((update P s).o1 c)).i),
    fun c => ((Osc.process^[k + 1] ((update P s).o2 c)).r, (Osc.process^[k + 1] ((update P s).o2 c)).i)⟩

/-- `s'` has the controls of `s` after one block. -/
structure Advanced (P : Params) (s s' : State) : Prop where
  mix : s'.mix = (update P s).mix
  feedback : s'.feedback = (update P s).feedback.steps 32
  time : s'.time = Lag.process^[32] (update P s).time
  o1 : s'.o1 = fun c => Osc.process^[32] ((update P s).o1 c)
  o2 : s'.o2 = fun c => Osc.process^[32] ((update P s).o2 c)

/-! ### Reading -/

theorem delayOf_range (v : ℝ) : 44 ≤ delayOf v ∧ delayOf v ≤ 2 ^ 18 - 13 := by
  unfold delayOf
  constructor
  · exact le_max_left ..
  · exact max_le (by norm_num) (min_le_right ..)

theorem toI32_of {x : ℝ} (h : |x| < 2 ^ 24) : toI32 x = if 0 ≤ x then ⌊x⌋ else ⌈x⌉ := by
  obtain ⟨h1, h2⟩ := abs_lt.1 h
  unfold toI32
  have a : (-2147483648 : ℤ) ≤ (if 0 ≤ x then ⌊x⌋ else ⌈x⌉) ∧ (if 0 ≤ x then ⌊x⌋ else ⌈x⌉) ≤ 2147483647 := by
    split
    · constructor
      · have := Int.floor_nonneg.2 ‹0 ≤ x›; omega
      · have : ⌊x⌋ < 2 ^ 24 := Int.floor_lt.2 (by exact_mod_cast h2)
        norm_num at this; omega
    · constructor
      · have : -2 ^ 24 < ⌈x⌉ := Int.lt_ceil.2 (by push_cast; linarith)
        norm_num at this; omega
      · have : ⌈x⌉ ≤ 0 := Int.ceil_le.2 (by push_cast; linarith)
        omega
  rw [min_eq_right a.2, max_eq_right a.1]

theorem sinc_ok {v : ℝ} (h : |v| < 2 ^ 22) : sincOf (delayOf v) v = .ok (Spec.offset v : ℤ) := by
  obtain ⟨d1, d2⟩ := delayOf_range v
  obtain ⟨h1, h2⟩ := abs_lt.1 h
  set d := delayOf v with hd
  have d1' : (44 : ℝ) ≤ d := by exact_mod_cast d1
  have d2' : (d : ℝ) ≤ 2 ^ 18 - 13 := by exact_mod_cast d2
  have hx : |((d + 1 : ℤ) : ℝ) - v| < 2 ^ 23 := by
    push_cast
    rw [abs_lt]; constructor <;> norm_num at * <;> linarith
  have et := toI32_of (hx.trans (by norm_num))
  have e0 : sincOf d v = (chkI32 (256 * toI32 (((d + 1 : ℤ) : ℝ) - v))) >>= fun e => .ok (12 * limitRangeI e 0 255) := rfl
  rw [e0]
  generalize toI32 (((d + 1 : ℤ) : ℝ) - v) = t at et ⊢
  obtain ⟨x1, x2⟩ := abs_lt.1 hx
  have b1 : -2 ^ 23 ≤ t ∧ t < 2 ^ 23 := by
    rw [et]; split
    · rename_i h0
      exact ⟨by have := Int.floor_nonneg.2 h0; omega, Int.floor_lt.2 (by exact_mod_cast x2)⟩
    · rename_i h0
      push Not at h0
      refine ⟨Int.le_ceil_iff.2 (by push_cast at *; linarith), ?_⟩
      have : ⌈((d + 1 : ℤ) : ℝ) - v⌉ ≤ 0 := Int.ceil_le.2 (by push_cast at *; linarith)
      omega
  have ok : chkI32 (ε := Empty) (256 * t) = .ok (256 * t) := by
    unfold chkI32
    exact if_pos (by norm_num at b1; omega)
  rw [ok, Res.ok_bind]
  congr 1
  unfold Spec.offset
  rw [← hd]
  by_cases hv : v ≤ d
  · rw [if_pos hv]
    have : 1 ≤ t := by
      rw [et, if_pos (by push_cast; linarith)]
      exact Int.le_floor.2 (by push_cast; linarith)
    unfold limitRangeI
    push_cast
    omega
  · rw [if_neg hv]
    push Not at hv
    have : t ≤ 0 := by
      rw [et]; split
      · have : ⌊((d + 1 : ℤ) : ℝ) - v⌋ < 1 := Int.floor_lt.2 (by push_cast; linarith)
        omega
      · rename_i h0
        push Not at h0
        exact Int.ceil_le.2 (by push_cast at *; linarith)
    unfold limitRangeI
    push_cast
    omega

/-- The ring holds the last `2 ^ 18` stored samples. -/
def Loop (s : State) (b : Bool → ℕ → ℝ) (n : ℕ) : Prop :=
  s.wpos = (n : ℤ) % 2 ^ 18 ∧ ∀ c (m : ℤ), (n : ℤ) - 2 ^ 18 ≤ m → m < n → s.buf c (m % 2 ^ 18).toNat = Spec.past (b c) m

theorem idx (e : ℤ) : index e (2 ^ 18 - 1) = (e % 2 ^ 18).toNat := index_eq e 18 (by norm_num)

theorem fir_eq {s : State} {b : Bool → ℕ → ℝ} {n k : ℕ} (h : Loop s b n) (hk : k < 32) (c : Bool) (sinc : ℕ → ℝ) (v : ℝ) :
    fir sinc (s.buf c) (s.wpos - delayOf v + k) (Spec.offset v) = Spec.tap sinc (b c) v (n + k) := by
  obtain ⟨d1, d2⟩ := delayOf_range v
  unfold fir Spec.tap
  refine Finset.sum_congr rfl fun i hi => ?_
  have hi := Finset.mem_range.1 hi
  have e : (s.wpos - delayOf v + k - (i : ℤ)) % 2 ^ 18 = (((n + k : ℕ) : ℤ) - delayOf v - i) % 2 ^ 18 := by
    rw [h.1]; push_cast; omega
  rw [idx, e, h.2 c _ (by push_cast; omega) (by push_cast; omega)]
  congr 2
  omega

theorem reads_ok {P : Params} {s : State} {b : Bool → ℕ → ℝ} {n : ℕ} (h : Loop s b n) (hv : ∀ k < 32, |(Lag.process^[k + 1] s.time).v| < 2 ^ 22) :
    ∀ k ≤ 32, reads P s k = .ok ((List.range k).map fun k => (Spec.tap P.sinc (b false) (Lag.process^[k + 1] s.time).v (n + k),
      Spec.tap P.sinc (b true) (Lag.process^[k + 1] s.time).v (n + k))) := by
  intro k hk
  induction k with
  | zero => rfl
  | succ k ih =>
    rw [reads, ih (by omega), Res.ok_bind]
    have : readAt P s k = .ok (Spec.tap P.sinc (b false) (Lag.process^[k + 1] s.time).v (n + k), Spec.tap P.sinc (b true) (Lag.process^[k + 1] s.time).v (n + k)) := by
      simp only [readAt, sinc_ok (hv k (by omega)), Res.ok_bind]
      rw [fir_eq h (by omega), fir_eq h (by omega)]
    rw [this, Res.ok_bind, List.range_succ, List.map_append]
    rfl

/-! ### Writing -/

theorem written_new (P : Params) (s : State) (x wet b : ℕ → ℝ) (k : ℕ) : ∀ n, k < n → n ≤ 32 →
    written P s x wet b n (index (s.wpos + k) (2 ^ 18 - 1)) = x k + P.shape (wet k * (s.feedback.steps (k + 1)).v) := by
  intro n
  induction n with
  | zero => intro h; omega
  | succ n ih =>
    intro h hn
    by_cases e : k = n
    · subst e; exact if_pos rfl
    · refine (if_neg (by rw [idx, idx]; omega)).trans ?_
      exact ih (by omega) (by omega)

theorem written_old (P : Params) (s : State) (x wet b : ℕ → ℝ) (j : ℕ) : ∀ n, (∀ k < n, j ≠ index (s.wpos + (k : ℕ)) (2 ^ 18 - 1)) → written P s x wet b n j = b j := by
  intro n
  induction n with
  | zero => intro _; rfl
  | succ n ih =>
    intro h
    refine (if_neg (h n (by omega))).trans ?_
    exact ih fun k hk => h k (by omega)

theorem splice_new {α : Type} (n : ℕ) (f g : ℕ → α) {k : ℕ} (hk : k < 32) : splice n f g (32 * n + k) = g k := by
  unfold splice; rw [if_pos (by omega)]; congr 1; omega

theorem splice_old {α : Type} {n : ℕ} (f g : ℕ → α) {m : ℕ} (h : m < 32 * n) : splice n f g m = f m := if_neg (by omega)

theorem ring_step (P : Params) {s : State} {b : Bool → ℕ → ℝ} {n : ℕ} (h : Loop s b (32 * n)) (x wet : Bool → ℕ → ℝ) (s' : State)
    (hw : s'.wpos = ((index (s.wpos + 32) (2 ^ 18 - 1) : ℕ) : ℤ)) (hb : ∀ c, s'.buf c = written P s (x c) (wet c) (s.buf c) 32) :
    Loop s' (fun c => splice n (b c) fun k => x c k + P.shape (wet c k * (s.feedback.steps (k + 1)).v)) (32 * (n + 1)) := by
  obtain ⟨h1, h2⟩ := h
  refine ⟨?_, fun c m hm hm' => ?_⟩
  · rw [hw, idx, h1]; push_cast; omega
  · rw [hb]
    by_cases hn : (32 * n : ℕ) ≤ m
    · obtain ⟨k, hk⟩ : ∃ k : ℕ, m = ((32 * n + k : ℕ) : ℤ) := ⟨(m - (32 * n : ℕ)).toNat, by push_cast at *; omega⟩
      have hk' : k < 32 := by push_cast at *; omega
      have e : (m % 2 ^ 18).toNat = index (s.wpos + k) (2 ^ 18 - 1) := by rw [idx, h1, hk]; push_cast; omega
      rw [e, written_new P s _ _ _ k 32 hk' le_rfl, Spec.past, if_pos (by omega), hk, Int.toNat_natCast]
      exact (splice_new n (b c) (fun k => x c k + P.shape (wet c k * (s.feedback.steps (k + 1)).v)) hk').symm
    · push Not at hn
      rw [written_old P s _ _ _ _ 32 (fun k hk => by rw [idx, h1]; push_cast at *; omega), h2 c m (by push_cast at *; omega) hn]
      unfold Spec.past
      split
      · exact (splice_old _ _ (by push_cast at *; omega)).symm
      · rfl

/-! ### The two filters -/

theorem allpass_local {R : Type} [Ring R] (a : R) {x y : ℕ → R} {n : ℕ} (h : ∀ k ≤ n, x k = y k) : Spec.allpass a x n = Spec.allpass a y n := by
  induction n using Nat.strongRecOn with
  | _ n ih =>
    match n, ih, h with
    | 0, _, h => simp [Spec.allpass, h 0 le_rfl]
    | 1, _, h => simp [Spec.allpass, h 1 le_rfl]
    | n + 2, ih, h => simp [Spec.allpass, h n (by omega), h (n + 2) le_rfl, ih n (by omega) (fun k hk => h k (by omega))]

theorem cascade_local {R : Type} [Ring R] (as : List R) {x y : ℕ → R} {n : ℕ} (h : ∀ k ≤ n, x k = y k) : Spec.cascade as x n = Spec.cascade as y n := by
  induction as generalizing x y with
  | nil => exact h n le_rfl
  | cons a as ih => exact ih fun k hk => allpass_local a fun j hj => h j (hj.trans hk)

theorem ago_local {R : Type} [Zero R] {x y : ℕ → R} {N k : ℕ} (hk : 0 < k) (h : ∀ m < N, x m = y m) : Spec.ago x N k = Spec.ago y N k := by
  unfold Spec.ago
  split
  · exact h _ (by omega)
  · rfl

theorem at_local {s : St} {x y : ℕ → V} {N : ℕ} (h : ∀ m < N, x m = y m) (ha : s.AtN x N) : s.AtN y N := by
  intro i hi
  have e : ∀ l : List V, ∀ m < N, Spec.cascade l x m = Spec.cascade l y m := fun l m hm => cascade_local l fun k hk => h k (by omega)
  have e' : ∀ a : V, ∀ l : List V, ∀ m < N, Spec.allpass a (Spec.cascade l x) m = Spec.allpass a (Spec.cascade l y) m :=
    fun a l m hm => allpass_local a fun k hk => e l k (by omega)
  obtain ⟨h1, h2, h3, h4⟩ := ha i hi
  refine ⟨h1.trans (ago_local one_pos (e _)), h2.trans (ago_local two_pos (e _)), h3.trans (ago_local one_pos (e' _ _)), h4.trans (ago_local two_pos (e' _ _))⟩

theorem held_local {s : St} {x y : ℕ → V} {N : ℕ} (h : ∀ m < N, x m = y m) (ha : s.Held x N) : s.Held y N := by
  refine ha.trans ?_
  rw [ago_local one_pos fun m hm => cascade_local s.coefs fun k hk => h k (by omega)]

/-- Both channels as the filters see them. -/
def vec2 (f : Bool → ℕ → ℝ) (m : ℕ) : V := spread (f false m) (f true m)

/-- A half-band filter that has been given the first `N` samples of `f`. -/
def Filt (s : St) (f : Bool → ℕ → ℝ) (N : ℕ) : Prop := s.AtN (vec2 f) N ∧ s.Held (vec2 f) N ∧ Chains s Spec.coefA Spec.coefB

theorem filt_step {s : St} {f : Bool → ℕ → ℝ} {n : ℕ} (h : Filt s f (32 * n)) (g : Bool → ℕ → ℝ) :
    ∃ s' ys, s.process ((List.range 32).map fun k => (g false k, g true k)) = .ok (s', ys) ∧ Filt s' (fun c => splice n (f c) (g c)) (32 * (n + 1)) ∧
      ∀ c k, k < 32 → chan c (ys.getD k 0) = Spec.halfband Spec.coefA Spec.coefB (splice n (f c) (g c)) (32 * n + k) := by
  obtain ⟨h1, h2, h3⟩ := h
  set F : Bool → ℕ → ℝ := fun c => splice n (f c) (g c) with hF
  have e : ∀ m < 32 * n, vec2 f m = vec2 F m := fun m hm => by
    unfold vec2; rw [hF]; simp only []; rw [splice_old _ _ hm, splice_old _ _ hm]
  obtain ⟨s', p1, p2, p3, p4⟩ := process_ok (xs := (List.range 32).map fun k => (g false k, g true k)) (at_local e h1) (held_local e h2) (by simp) (by simp) (fun k hk => by
    have hk : k < 32 := by simpa using hk
    have a : ∀ c, F c (32 * n + k) = g c k := fun c => splice_new n _ _ hk
    unfold vec2 sig Spec.left Spec.right
    rw [a, a, getD_map_range _ _ hk])
  refine ⟨s', _, p1, ⟨?_, ?_, ?_⟩, fun c k hk => ?_⟩
  · simpa [Nat.mul_add] using p3
  · simpa [Nat.mul_add] using p4
  · unfold Chains; rw [p2.coefs]; exact h3
  · have hl : ((List.range 32).map fun k => (g false k, g true k)).length = 32 := by simp
    rw [hl, getD_map_range _ _ hk, pairOut_eq h3]
    cases c <;> rfl

theorem table_eq : ∃ a b, table true (6 * 2) = some (a, b) ∧ Spec.coefA = Spec.rounded a ∧ Spec.coefB = Spec.rounded b := ⟨_, _, rfl, rfl, rfl⟩

theorem filt_start : ∃ s, St.new 6 true = .ok s ∧ Filt s.reset (fun _ _ => 0) 0 := by
  obtain ⟨a, b, h, ea, eb⟩ := table_eq
  refine ⟨_, new_ok h, (reset_fresh _).at _, (reset_fresh _).held _, ?_⟩
  rw [ea, eb]
  exact built_chains h

/-! ### The whole effect -/

/-- The state after `N` blocks, with the signals up to there. -/
structure Inv (P : ℕ → Params) (x y : Bool → ℕ → ℝ) (σ : Signals) (s : State) (N : ℕ) : Prop where
  flow : Spec.Flow P x y σ (32 * N)
  ring : Loop s σ.stored (32 * N)
  fr : Filt s.fr (fun c m => σ.read c m * ((σ.ctl m).p c).1) (32 * N)
  fi : Filt s.fi (fun c m => σ.read c m * ((σ.ctl m).p c).2) (32 * N)

theorem splice_map {α β : Type} (n : ℕ) (f g : ℕ → α) (h : α → β) : (fun m => h (splice n f g m)) = splice n (fun m => h (f m)) (fun k => h (g k)) := by
  funext m; unfold splice; split <;> rfl

theorem past_splice {n : ℕ} (f g : ℕ → ℝ) {m : ℤ} (h : m < (32 * n : ℕ)) : Spec.past (splice n f g) m = Spec.past f m := by
  unfold Spec.past
  split
  · exact splice_old _ _ (by omega)
  · rfl

theorem tap_splice (sinc : ℕ → ℝ) (v : ℝ) {n m : ℕ} (f g : ℕ → ℝ) (h : m < 32 * n + 32) : Spec.tap sinc (splice n f g) v m = Spec.tap sinc f v m := by
  obtain ⟨d1, -⟩ := delayOf_range v
  unfold Spec.tap
  exact Finset.sum_congr rfl fun i _ => by rw [past_splice f g (by push_cast; omega)]

theorem step {P : ℕ → Params} {x y : Bool → ℕ → ℝ} {σ : Signals} {s : State} {N : ℕ} (h : Inv P x y σ s N)
    (hv : ∀ k < 32, |(ctl (P N) s k).delay| < 2 ^ 22) :
    ∃ s' z σ', process (P N) (blockOf x N) s = .ok (s', z) ∧ Inv P x (fun c => splice N (y c) (z c)) σ' s' (N + 1) ∧ Advanced (P N) s s' ∧
      σ'.ctl = splice N σ.ctl (ctl (P N) s) := by
  obtain ⟨hf, hr, hfr, hfi⟩ := h
  set t := update (P N) s with ht
  have hr' : Loop t σ.stored (32 * N) := hr
  set U : Bool → ℕ → ℝ := fun c k => Spec.tap (P N).sinc (σ.stored c) (Lag.process^[k + 1] t.time).v (32 * N + k) with hU
  have e1 : reads (P N) t 32 = .ok ((List.range 32).map fun k => (U false k, U true k)) := reads_ok hr' hv 32 le_rfl
  have em : ∀ g : Osc → ℝ, modulate g ((List.range 32).map fun k => (U false k, U true k)) t =
      (List.range 32).map fun k => ((fun c k => U c k * g (Osc.process^[k + 1] (t.o1 c))) false k, (fun c k => U c k * g (Osc.process^[k + 1] (t.o1 c))) true k) := fun g => by
    unfold modulate
    refine List.map_congr_left fun k hk => ?_
    rw [getD_map_range _ _ (List.mem_range.1 hk)]
  obtain ⟨fr, yr, q1, q2, q3⟩ := filt_step hfr (fun c k => U c k * Osc.r (Osc.process^[k + 1] (t.o1 c)))
  obtain ⟨fi, yi, r1, r2, r3⟩ := filt_step hfi (fun c k => U c k * Osc.i (Osc.process^[k + 1] (t.o1 c)))
  rw [← em] at q1 r1
  replace q1 : t.fr.process _ = _ := q1
  replace r1 : t.fi.process _ = _ := r1
  set wet := wetAt t yr yi with hwet
  set σ' : Signals := ⟨splice N σ.ctl (ctl (P N) s), fun c => splice N (σ.read c) (U c), fun c => splice N (σ.wet c) (wet c),
    fun c => splice N (σ.stored c) fun k => x c (32 * N + k) + (P N).shape (wet c k * (t.feedback.steps (k + 1)).v)⟩ with hσ
  set s' : State := ⟨fr, fi, t.mix, t.feedback.steps 32, Lag.process^[32] t.time, fun c => Osc.process^[32] (t.o1 c), fun c => Osc.process^[32] (t.o2 c),
      fun c => written (P N) t (blockOf x N c) (wet c) (t.buf c) 32, ((index (t.wpos + 32) (2 ^ 18 - 1) : ℕ) : ℤ)⟩ with hs'
  have m1 : ∀ c, (fun m => σ'.read c m * ((σ'.ctl m).p c).1) = splice N (fun m => σ.read c m * ((σ.ctl m).p c).1) (fun k => U c k * Osc.r (Osc.process^[k + 1] (t.o1 c))) := fun c => by
    funext m; simp only [hσ]; unfold splice; split <;> rfl
  have m2 : ∀ c, (fun m => σ'.read c m * ((σ'.ctl m).p c).2) = splice N (fun m => σ.read c m * ((σ.ctl m).p c).2) (fun k => U c k * Osc.i (Osc.process^[k + 1] (t.o1 c))) := fun c => by
    funext m; simp only [hσ]; unfold splice; split <;> rfl
  have split : ∀ n < 32 * (N + 1), n < 32 * N ∨ ∃ k < 32, n = 32 * N + k := fun n hn => by
    by_cases hh : n < 32 * N
    · exact .inl hh
    · exact .inr ⟨n - 32 * N, by omega, by omega⟩
  refine ⟨s', fun c => t.mix.fadeTo 8 (blockOf x N c) (wet c) (blockOf x N c), σ', ?_, ⟨⟨?_, ?_, ?_, ?_⟩, ?_, ?_, ?_⟩, ⟨rfl, rfl, rfl, rfl, rfl⟩, rfl⟩
  · simp only [process]
    rw [← ht, e1, Res.ok_bind, q1, Res.ok_bind, r1, Res.ok_bind]
  · intro c n hn
    rcases split n hn with h | ⟨k, hk, rfl⟩
    · simp only [hσ]
      rw [splice_old _ _ h, splice_old _ _ h, tap_splice _ _ _ _ (by omega)]
      exact hf.read c n h
    · simp only [hσ]
      rw [splice_new _ _ _ hk, splice_new _ _ _ hk, tap_splice _ _ _ _ (by omega), show (32 * N + k) / 32 = N by omega]
      rfl
  · intro c n hn
    rw [m1, m2]
    rcases split n hn with h | ⟨k, hk, rfl⟩
    · have e3 : σ'.wet c n = σ.wet c n := splice_old _ _ h
      have e4 : σ'.ctl n = σ.ctl n := splice_old _ _ h
      rw [e3, e4, hf.wet c n h]
      rw [halfband_causal Spec.coefA Spec.coefB (x := splice N _ _) fun j hj => splice_old _ _ (show j < 32 * N by omega),
        halfband_causal Spec.coefA Spec.coefB (x := splice N (fun m => σ.read c m * ((σ.ctl m).p c).2) _) fun j hj => splice_old _ _ (show j < 32 * N by omega)]
    · have e3 : σ'.wet c (32 * N + k) = wet c k := splice_new _ _ _ hk
      have e4 : σ'.ctl (32 * N + k) = ctl (P N) s k := splice_new _ _ _ hk
      rw [e3, e4, ← q3 c k hk, ← r3 c k hk]
      rfl
  · intro c n hn
    rcases split n hn with h | ⟨k, hk, rfl⟩
    · have e2 : σ'.stored c n = σ.stored c n := splice_old (σ.stored c) (fun k => x c (32 * N + k) + (P N).shape (wet c k * (t.feedback.steps (k + 1)).v)) h
      have e3 : σ'.wet c n = σ.wet c n := splice_old _ _ h
      have e4 : σ'.ctl n = σ.ctl n := splice_old _ _ h
      rw [e2, e3, e4]; exact hf.stored c n h
    · have e2 : σ'.stored c (32 * N + k) = x c (32 * N + k) + (P N).shape (wet c k * (t.feedback.steps (k + 1)).v) := splice_new N (σ.stored c) (fun k => x c (32 * N + k) + (P N).shape (wet c k * (t.feedback.steps (k + 1)).v)) hk
      have e3 : σ'.wet c (32 * N + k) = wet c k := splice_new _ _ _ hk
      have e4 : σ'.ctl (32 * N + k) = ctl (P N) s k := splice_new _ _ _ hk
      rw [e2, e3, e4, show (32 * N + k) / 32 = N by omega]
      rfl
  · intro c n hn
    rcases split n hn with h | ⟨k, hk, rfl⟩
    · have e3 : σ'.wet c n = σ.wet c n := splice_old _ _ h
      have e4 : σ'.ctl n = σ.ctl n := splice_old _ _ h
      rw [e3, e4, splice_old _ _ h]; exact hf.out c n h
    · have e3 : σ'.wet c (32 * N + k) = wet c k := splice_new _ _ _ hk
      have e4 : σ'.ctl (32 * N + k) = ctl (P N) s k := splice_new _ _ _ hk
      rw [e3, e4, splice_new _ _ _ hk]
      exact ((C53_block_repeats_first_segment t.mix (n := 8) rfl (blockOf x N c) (wet c) (blockOf x N c) k).2 (by omega)).2.2.2.2.2.2.2
  · exact ring_step (P N) hr' (fun c k => x c (32 * N + k)) wet s' rfl fun c => rfl
  · show Filt fr _ _
    have : (fun c m => σ'.read c m * ((σ'.ctl m).p c).1) = fun c => splice N (fun m => σ.read c m * ((σ.ctl m).p c).1) (fun k => U c k * Osc.r (Osc.process^[k + 1] (t.o1 c))) := funext m1
    rw [this]; exact q2
  · show Filt fi _ _
    have : (fun c m => σ'.read c m * ((σ'.ctl m).p c).2) = fun c => splice N (fun m => σ.read c m * ((σ.ctl m).p c).2) (fun k => U c k * Osc.i (Osc.process^[k + 1] (t.o1 c))) := funext m2
    rw [this]; exact r2

/-- What `start` returns, apart from the filters. -/
theorem start_ok (P : Params) : ∃ s, start P = .ok s ∧ Loop s (fun _ _ => 0) 0 ∧ Filt s.fr (fun _ _ => 0) 0 ∧ Filt s.fi (fun _ _ => 0) 0 ∧
    s.mix = LipolPs.default.setTargetSmoothed P.mix ∧ s.feedback = (LiPol.new 32 : LiPol ℝ).newValue P.feedback ∧ s.time = (Lag.new 0.0001 : Lag ℝ).newValue P.time ∧
    s.o1 = tune1 P (fun _ => Osc.default) ∧ s.o2 = tune2 P (fun _ => Osc.default) := by
  obtain ⟨f, e, hf⟩ := filt_start
  refine ⟨update P ⟨f.reset, f.reset, LipolPs.default, LiPol.new 32, Lag.new 0.0001, fun _ => Osc.default, fun _ => Osc.default, fun _ _ => 0, 0⟩, ?_, ⟨rfl, fun c m h1 h2 => ?_⟩, hf, hf, rfl, rfl, rfl, rfl, rfl⟩
  · simp only [start, e, Res.ok_bind]
  · unfold Spec.past
    split <;> rfl

/-- The flow of any run, with whatever is known of the controls. -/
theorem flow {P : ℕ → Params} (x : Bool → ℕ → ℝ) (C : ℕ → State → Prop) (R : ℕ → Ctl → Prop)
    (h0 : ∀ s, start (P 0) = .ok s → C 0 s) (hs : ∀ N s s', C N s → Advanced (P N) s s' → C (N + 1) s')
    (hR : ∀ N s k, C N s → k < 32 → R (32 * N + k) (ctl (P N) s k) ∧ |(ctl (P N) s k).delay| < 2 ^ 22) :
    ∀ N, ∃ s y σ, play P x N = .ok (s, y) ∧ C N s ∧ Inv P x y σ s N ∧ ∀ n < 32 * N, R n (σ.ctl n) := by
  intro N
  induction N with
  | zero =>
    obtain ⟨s, e, a1, a2, a3, -⟩ := start_ok (P 0)
    refine ⟨s, fun _ _ => 0, ⟨fun _ => ⟨0, 0, 0, fun _ => 0, fun _ => 0⟩, fun _ _ => 0, fun _ _ => 0, fun _ _ => 0⟩, ?_, h0 s e, ⟨⟨?_, ?_, ?_, ?_⟩, a1, ?_, ?_⟩, ?_⟩
    · simp only [play, e, Res.ok_bind]
    · intro c n hn; omega
    · intro c n hn; omega
    · intro c n hn; omega
    · intro c n hn; omega
    · simpa using a2
    · simpa using a3
    · intro n hn; omega
  | succ N ih =>
    obtain ⟨s, y, σ, e, hC, hI, hr⟩ := ih
    obtain ⟨s', z, σ', p1, p2, p3, p4⟩ := step hI fun k hk => (hR N s k hC hk).2
    refine ⟨s', _, σ', ?_, hs N s s' hC p3, p2, fun n hn => ?_⟩
    · simp only [play, e, Res.ok_bind, p1]
    · rw [p4]
      by_cases h : n < 32 * N
      · rw [splice_old _ _ h]; exact hr n h
      · obtain ⟨k, rfl⟩ : ∃ k, n = 32 * N + k := ⟨n - 32 * N, by omega⟩
        have hk : k < 32 := by omega
        rw [splice_new _ _ _ hk]
        exact (hR N s k hC hk).1

/-! ## The half-band filter as a linear system -/

theorem halfband_zero (as bs : List ℝ) (n : ℕ) : Spec.halfband as bs (fun _ => 0) n = 0 := by
  have := halfband_lin as bs 0 (fun _ => 0) (fun _ => 0) n
  simpa using this

theorem halfband_smul (as bs : List ℝ) (c : ℝ) (x : ℕ → ℝ) (n : ℕ) : Spec.halfband as bs (fun n => c * x n) n = c * Spec.halfband as bs x n := by
  have := halfband_lin as bs c x (fun _ => 0) n
  simpa [halfband_zero] using this

theorem halfband_add (as bs : List ℝ) (x y : ℕ → ℝ) (n : ℕ) : Spec.halfband as bs (fun n => x n + y n) n = Spec.halfband as bs x n + Spec.halfband as bs y n := by
  have := halfband_lin as bs 1 x y n
  simpa using this

theorem cascade_ofReal (as : List ℝ) (x : ℕ → ℝ) (n : ℕ) : Spec.cascade (as.map fun a : ℝ => (a : ℂ)) (fun n => (x n : ℂ)) n = ((Spec.cascade as x n : ℝ) : ℂ) := by
  have key : ∀ (a : ℝ) (x : ℕ → ℝ) (n : ℕ), Spec.allpass (a : ℂ) (fun n => (x n : ℂ)) n = ((Spec.allpass a x n : ℝ) : ℂ) := by
    intro a x n
    induction n using Nat.strongRecOn with
    | _ n ih =>
      match n, ih with
      | 0, _ => simp [Spec.allpass]
      | 1, _ => simp [Spec.allpass]
      | n + 2, ih => simp [Spec.allpass, ih n (by omega)]
  induction as generalizing x with
  | nil => rfl
  | cons a as ih =>
    show Spec.cascade _ (Spec.allpass (a : ℂ) fun n => (x n : ℂ)) n = ((Spec.cascade as (Spec.allpass a x) n : ℝ) : ℂ)
    rw [funext (key a x)]
    exact ih _

/-- A signal that dies out exponentially leaves the filter as one that does. -/
theorem halfband_small {as bs : List ℝ} (ha : ∀ a ∈ as, |a| < 1) (hb : ∀ b ∈ bs, |b| < 1) {K r : ℝ} (K0 : 0 ≤ K) (r0 : 0 < r) (r1 : r < 1) :
    ∃ K' r' : ℝ, 0 ≤ K' ∧ r ≤ r' ∧ 0 < r' ∧ r' < 1 ∧ ∀ e : ℕ → ℝ, (∀ n, |e n| ≤ K * r ^ n) → ∀ n, |Spec.halfband as bs e n| ≤ K' * r' ^ n := by
  obtain ⟨q, q0, q1, hq⟩ := exists_radius (as ++ bs) (fun c hc => by
    rcases List.mem_append.1 hc with h | h
    · exact ha c h
    · exact hb c h)
  set t := max q r with ht
  have t0 : 0 < t := lt_max_of_lt_left q0
  have t1 : t < 1 := max_lt q1 r1
  have hq' : ∀ a ∈ as ++ bs, |a| < t ^ 2 := fun a h => (hq a h).trans_le (pow_le_pow_left₀ q0.le (le_max_left ..) 2)
  obtain ⟨KA, KA0, tA⟩ := cascade_track (as := as) (fun a h => hq' a (by simp [h])) t0 t1 0 K0
  obtain ⟨KB, KB0, tB⟩ := cascade_track (as := bs) (fun a h => hq' a (by simp [h])) t0 t1 0 K0
  refine ⟨KA + KB / t, t, by positivity, le_max_right .., t0, t1, fun e he n => ?_⟩
  have he' : ∀ n, ‖((e n : ℝ) : ℂ) - 0 * Complex.exp (n * (((0 : ℝ) : ℂ) * Complex.I))‖ ≤ K * t ^ n := fun n => by
    rw [zero_mul, sub_zero, Complex.norm_real, Real.norm_eq_abs]
    exact (he n).trans (mul_le_mul_of_nonneg_left (pow_le_pow_left₀ r0.le (le_max_right ..) n) K0)
  have uA := tA 0 (fun n => (e n : ℂ)) (by simp) he'
  have uB := tB 0 (fun n => (e n : ℂ)) (by simp) he'
  simp only [cascade_ofReal, zero_mul, sub_zero, Complex.norm_real, Real.norm_eq_abs] at uA uB
  have hB : |Spec.ago (Spec.cascade bs e) n 1| ≤ KB / t * t ^ n := by
    cases n with
    | zero =>
      have : Spec.ago (Spec.cascade bs e) 0 1 = 0 := rfl
      rw [this, abs_zero]; positivity
    | succ n =>
      rw [ago_succ, ago_zero]
      refine (uB n).trans (le_of_eq ?_)
      rw [pow_succ]; field_simp
  unfold Spec.halfband
  rw [abs_div, abs_two, div_le_iff₀ two_pos]
  have := abs_add_le (Spec.cascade as e n) (Spec.ago (Spec.cascade bs e) n 1)
  have := uA n
  have : 0 ≤ KA * t ^ n := by positivity
  have : 0 ≤ KB / t * t ^ n := by positivity
  linarith

/-- A bounded signal leaves the filter bounded. -/
theorem cascade_bounded (as : List ℝ) (ha : ∀ a ∈ as, |a| < 1) : ∃ G : ℝ, 0 ≤ G ∧ ∀ (x : ℕ → ℝ) (X : ℝ) (L : ℕ), 0 ≤ X → (∀ n < L, |x n| ≤ X) → ∀ n < L, |Spec.cascade as x n| ≤ G * X := by
  induction as with
  | nil => exact ⟨1, zero_le_one, fun x X L _ h n hn => by rw [one_mul]; exact h n hn⟩
  | cons a as ih =>
    obtain ⟨G, G0, hG⟩ := ih fun b hb => ha b (by simp [hb])
    have a1 := ha a (by simp)
    have d : 0 < 1 - |a| := by linarith
    refine ⟨G * ((1 + |a|) / (1 - |a|)), by positivity, fun x X L hX h n hn => ?_⟩
    rw [mul_assoc]
    refine hG (Spec.allpass a x) ((1 + |a|) / (1 - |a|) * X) L (by positivity) (fun n hn => ?_) n hn
    have g1 : |a| ≤ (1 + |a|) / (1 - |a|) := by rw [le_div_iff₀ d]; nlinarith [abs_nonneg a]
    have g2 : 1 + |a| + |a| * ((1 + |a|) / (1 - |a|)) = (1 + |a|) / (1 - |a|) := by field_simp; ring
    set g := (1 + |a|) / (1 - |a|) with hg
    induction n using Nat.strongRecOn with
    | _ n ihn =>
      match n, ihn, hn with
      | 0, _, hn =>
        show |a * x 0| ≤ _
        rw [abs_mul]; nlinarith [h 0 hn, abs_nonneg a, abs_nonneg (x 0), mul_le_mul_of_nonneg_left (h 0 hn) (abs_nonneg a), mul_le_mul_of_nonneg_right g1 hX]
      | 1, _, hn =>
        show |a * x 1| ≤ _
        rw [abs_mul]; nlinarith [h 1 hn, abs_nonneg a, abs_nonneg (x 1), mul_le_mul_of_nonneg_left (h 1 hn) (abs_nonneg a), mul_le_mul_of_nonneg_right g1 hX]
      | n + 2, ihn, hn =>
        have i := ihn n (by omega) (by omega)
        show |x n + a * (x (n + 2) - Spec.allpass a x n)| ≤ _
        have h1 := h n (by omega)
        have h2 := h (n + 2) hn
        have t1 := abs_add_le (x n) (a * (x (n + 2) - Spec.allpass a x n))
        have t2 := abs_sub (x (n + 2)) (Spec.allpass a x n)
        rw [abs_mul] at t1
        have t3 := mul_le_mul_of_nonneg_left (t2.trans (add_le_add h2 i)) (abs_nonneg a)
        have : g * X = X + |a| * (X + g * X) := by rw [← g2]; ring_nf; rw [show |a| ^ 2 = |a| * |a| by ring]; linarith [congrArg (· * X * |a|) g2]
        linarith

theorem halfband_bounded {as bs : List ℝ} (ha : ∀ a ∈ as, |a| < 1) (hb : ∀ b ∈ bs, |b| < 1) :
    ∃ G : ℝ, 0 ≤ G ∧ ∀ (x : ℕ → ℝ) (X : ℝ) (L : ℕ), 0 ≤ X → (∀ n < L, |x n| ≤ X) → ∀ n < L, |Spec.halfband as bs x n| ≤ G * X := by
  obtain ⟨GA, GA0, hA⟩ := cascade_bounded as ha
  obtain ⟨GB, GB0, hB⟩ := cascade_bounded bs hb
  refine ⟨(GA + GB) / 2, by positivity, fun x X L hX h n hn => ?_⟩
  have h1 := hA x X L hX h n hn
  have h2 : |Spec.ago (Spec.cascade bs x) n 1| ≤ GB * X := by
    unfold Spec.ago
    split
    · exact hB x X L hX h _ (by omega)
    · rw [abs_zero]; positivity
  unfold Spec.halfband
  rw [abs_div, abs_two, div_le_iff₀ two_pos]
  have := abs_add_le (Spec.cascade as x n) (Spec.ago (Spec.cascade bs x) n 1)
  linarith

theorem stable : (∀ a ∈ Spec.coefA, |a| < 1) ∧ ∀ b ∈ Spec.coefB, |b| < 1 := by
  obtain ⟨a, b, h, ea, eb⟩ := table_eq
  rw [ea, eb]; exact rounded_stable h

/-- The frequency response of the filters, and its value on the mirrored side. -/
noncomputable def Spec.resp (ω : ℝ) : ℂ := Spec.response Spec.coefA Spec.coefB ω

/-- The answer to a sinusoid written as a sine. -/
theorem halfband_tone (ω : ℝ) : ∃ K r : ℝ, 0 ≤ K ∧ 0 < r ∧ r < 1 ∧ ∀ (φ : ℝ) (n : ℕ),
    |Spec.halfband Spec.coefA Spec.coefB (fun n => Real.cos (ω * n + φ)) n - ‖Spec.resp ω‖ * Real.cos (ω * n + φ + (Spec.resp ω).arg)| ≤ K * r ^ n :=
  halfband_response stable.1 stable.2 ω

theorem conj_response (as bs : List ℝ) (ω : ℝ) : Spec.response as bs (-ω) = (starRingEnd ℂ) (Spec.response as bs ω) := by
  have d : Spec.delay (-ω) = (starRingEnd ℂ) (Spec.delay ω) := by
    unfold Spec.delay
    rw [← Complex.exp_conj]
    congr 1
    simp
  have c : ∀ l : List ℝ, Spec.chainResponse l (-ω) = (starRingEnd ℂ) (Spec.chainResponse l ω) := fun l => by
    unfold Spec.chainResponse
    rw [d, map_list_prod, List.map_map]
    congr 1
    refine List.map_congr_left fun a _ => ?_
    simp
  unfold Spec.response
  have h2 : (starRingEnd ℂ) 2 = 2 := map_ofNat _ 2
  rw [c, c, d]
  simp [h2]

theorem norm_response_neg (ω : ℝ) : ‖Spec.resp (-ω)‖ = ‖Spec.resp ω‖ := by
  unfold Spec.resp
  rw [conj_response, Complex.norm_conj]

theorem response_turn (ω : ℝ) : Spec.resp (2 * Real.pi + ω) = Spec.resp ω := by
  have d : Spec.delay (2 * Real.pi + ω) = Spec.delay ω := by
    unfold Spec.delay
    have : -(((2 * Real.pi + ω : ℝ) : ℂ) * Complex.I) = -((ω : ℂ) * Complex.I) - 2 * Real.pi * Complex.I := by push_cast; ring
    rw [this, Complex.exp_sub, Complex.exp_two_pi_mul_I, div_one]
  simp only [Spec.resp, Spec.response, Spec.chainResponse, d]

/-! ## Single-sideband modulation -/

theorem le_geom {K r ρ : ℝ} (K0 : 0 ≤ K) (r0 : 0 < r) (h : r ≤ ρ) (n : ℕ) : K * r ^ n ≤ K * ρ ^ n :=
  mul_le_mul_of_nonneg_left (pow_le_pow_left₀ r0.le h n) K0

set_option maxHeartbeats 1000000 in
/-- A nearly pure tone, modulated down, filtered and modulated up again. -/
theorem sideband (θ α β G : ℝ) (G0 : 0 ≤ G) {K r : ℝ} (K0 : 0 ≤ K) (r0 : 0 < r) (r1 : r < 1) : ∃ K' r' : ℝ, 0 ≤ K' ∧ 0 < r' ∧ r' < 1 ∧
    ∀ (ψ : ℝ) (a : ℕ → ℝ), (∀ n : ℕ, |a n - G * Real.cos (θ * n + ψ)| ≤ K * r ^ n) → ∀ n : ℕ,
      |2 * (Spec.halfband Spec.coefA Spec.coefB (fun m : ℕ => a m * Real.sin (α * ((m : ℝ) + 1))) n * Real.sin (β * (n + 1)) +
          Spec.halfband Spec.coefA Spec.coefB (fun m : ℕ => a m * -Real.cos (α * ((m : ℝ) + 1))) n * -Real.cos (β * (n + 1))) -
        G * (‖Spec.resp (α - θ)‖ * Real.cos ((θ + (β - α)) * n + ((β - α) + ψ - (Spec.resp (α - θ)).arg)) +
          ‖Spec.resp (α + θ)‖ * Real.cos ((θ - (β - α)) * n + (-(β - α) + ψ + (Spec.resp (α + θ)).arg)))| ≤ K' * r' ^ n := by
  obtain ⟨K1, r1', a1, a2, a3, h1⟩ := halfband_tone (α - θ)
  obtain ⟨K2, r2', b1, b2, b3, h2⟩ := halfband_tone (α + θ)
  obtain ⟨K3, r3', c1, -, c2, c3, h3⟩ := halfband_small stable.1 stable.2 K0 r0 r1
  set ρ := max r1' (max r2' r3') with hρ
  have ρ1 : r1' ≤ ρ := le_max_left ..
  have ρ2 : r2' ≤ ρ := (le_max_left ..).trans (le_max_right ..)
  have ρ3 : r3' ≤ ρ := (le_max_right ..).trans (le_max_right ..)
  refine ⟨4 * (G / 2 * (K1 + K2) + K3), ρ, by positivity, a2.trans_le ρ1, max_lt a3 (max_lt b3 c3), fun ψ a ha n => ?_⟩
  set h := Spec.halfband Spec.coefA Spec.coefB with hh
  set H1 := ‖Spec.resp (α - θ)‖
  set H2 := ‖Spec.resp (α + θ)‖
  set η1 := (Spec.resp (α - θ)).arg
  set η2 := (Spec.resp (α + θ)).arg
  set e : ℕ → ℝ := fun n => a n - G * Real.cos (θ * n + ψ) with he
  -- both products as two tones and a remainder
  have s1 : (fun m : ℕ => a m * Real.sin (α * ((m : ℝ) + 1))) = fun m : ℕ =>
      (G / 2 * (Real.cos ((α - θ) * m + (α - ψ - Real.pi / 2)) + Real.cos ((α + θ) * m + (α + ψ - Real.pi / 2)))) + e m * Real.sin (α * ((m : ℝ) + 1)) := by
    funext m
    have i1 : (α - θ) * m + (α - ψ - Real.pi / 2) = (α * ((m : ℝ) + 1) - (θ * m + ψ)) - Real.pi / 2 := by ring
    have i2 : (α + θ) * m + (α + ψ - Real.pi / 2) = (α * ((m : ℝ) + 1) + (θ * m + ψ)) - Real.pi / 2 := by ring
    rw [i1, i2, Real.cos_sub_pi_div_two, Real.cos_sub_pi_div_two, Real.sin_sub (α * ((m : ℝ) + 1)) (θ * m + ψ), Real.sin_add (α * ((m : ℝ) + 1)) (θ * m + ψ)]
    simp only [he]
    ring
  have s2 : (fun m : ℕ => a m * -Real.cos (α * ((m : ℝ) + 1))) = fun m : ℕ =>
      (-(G / 2) * (Real.cos ((α - θ) * m + (α - ψ)) + Real.cos ((α + θ) * m + (α + ψ)))) + e m * -Real.cos (α * ((m : ℝ) + 1)) := by
    funext m
    have i1 : (α - θ) * m + (α - ψ) = α * ((m : ℝ) + 1) - (θ * m + ψ) := by ring
    have i2 : (α + θ) * m + (α + ψ) = α * ((m : ℝ) + 1) + (θ * m + ψ) := by ring
    rw [i1, i2, Real.cos_sub (α * ((m : ℝ) + 1)) (θ * m + ψ), Real.cos_add (α * ((m : ℝ) + 1)) (θ * m + ψ)]
    simp only [he]
    ring
  have t1 := h3 (fun m : ℕ => e m * Real.sin (α * ((m : ℝ) + 1))) (fun m => by
    rw [abs_mul]
    have := mul_le_mul (ha m) (Real.abs_sin_le_one (α * ((m : ℝ) + 1))) (abs_nonneg _) (by positivity)
    rw [mul_one] at this; exact this) n
  have t2 := h3 (fun m : ℕ => e m * -Real.cos (α * ((m : ℝ) + 1))) (fun m => by
    rw [abs_mul, abs_neg]
    have := mul_le_mul (ha m) (Real.abs_cos_le_one (α * ((m : ℝ) + 1))) (abs_nonneg _) (by positivity)
    rw [mul_one] at this; exact this) n
  have u1 := h1 (α - ψ - Real.pi / 2) n
  have u2 := h2 (α + ψ - Real.pi / 2) n
  have u3 := h1 (α - ψ) n
  have u4 := h2 (α + ψ) n
  rw [s1, s2, hh, halfband_add, halfband_add, halfband_smul, halfband_smul, halfband_add, halfband_add]
  rw [← hh]
  set T1 := h (fun m : ℕ => e m * Real.sin (α * ((m : ℝ) + 1))) n
  set T2 := h (fun m : ℕ => e m * -Real.cos (α * ((m : ℝ) + 1))) n
  set U1 := h (fun m : ℕ => Real.cos ((α - θ) * m + (α - ψ - Real.pi / 2))) n
  set U2 := h (fun m : ℕ => Real.cos ((α + θ) * m + (α + ψ - Real.pi / 2))) n
  set U3 := h (fun m : ℕ => Real.cos ((α - θ) * m + (α - ψ))) n
  set U4 := h (fun m : ℕ => Real.cos ((α + θ) * m + (α + ψ))) n
  set X1 := (α - θ) * n + (α - ψ) + η1 with hX1
  set X2 := (α + θ) * n + (α + ψ) + η2 with hX2
  set p := β * ((n : ℝ) + 1) with hp
  have v1 : Real.cos ((α - θ) * n + (α - ψ - Real.pi / 2) + η1) = Real.sin X1 := by
    rw [← Real.cos_sub_pi_div_two]; congr 1; rw [hX1]; ring
  have v2 : Real.cos ((α + θ) * n + (α + ψ - Real.pi / 2) + η2) = Real.sin X2 := by
    rw [← Real.cos_sub_pi_div_two]; congr 1; rw [hX2]; ring
  rw [v1] at u1
  rw [v2] at u2
  have w1 : Real.cos ((θ + (β - α)) * n + ((β - α) + ψ - η1)) = Real.cos p * Real.cos X1 + Real.sin p * Real.sin X1 := by
    rw [← Real.cos_sub]; congr 1; rw [hp, hX1]; ring
  have w2 : Real.cos ((θ - (β - α)) * n + (-(β - α) + ψ + η2)) = Real.cos p * Real.cos X2 + Real.sin p * Real.sin X2 := by
    rw [← Real.cos_sub, ← Real.cos_neg]; congr 1; rw [hp, hX2]; ring
  rw [w1, w2]
  have key : 2 * ((G / 2 * (U1 + U2) + T1) * Real.sin p + (-(G / 2) * (U3 + U4) + T2) * -Real.cos p) -
      G * (H1 * (Real.cos p * Real.cos X1 + Real.sin p * Real.sin X1) + H2 * (Real.cos p * Real.cos X2 + Real.sin p * Real.sin X2)) =
      2 * (G / 2 * ((U1 - H1 * Real.sin X1) + (U2 - H2 * Real.sin X2)) + T1) * Real.sin p +
      2 * (G / 2 * ((U3 - H1 * Real.cos X1) + (U4 - H2 * Real.cos X2)) - T2) * Real.cos p := by ring
  rw [key]
  have z1 : |2 * (G / 2 * ((U1 - H1 * Real.sin X1) + (U2 - H2 * Real.sin X2)) + T1)| ≤ 2 * ((G / 2 * (K1 + K2) + K3) * ρ ^ n) := by
    rw [abs_mul, abs_two]
    have q1 := abs_add_le (G / 2 * ((U1 - H1 * Real.sin X1) + (U2 - H2 * Real.sin X2))) T1
    rw [abs_mul, abs_of_nonneg (show (0 : ℝ) ≤ G / 2 by positivity)] at q1
    have q2 := abs_add_le (U1 - H1 * Real.sin X1) (U2 - H2 * Real.sin X2)
    have q3 := mul_le_mul_of_nonneg_left (q2.trans (add_le_add (u1.trans (le_geom a1 a2 ρ1 n)) (u2.trans (le_geom b1 b2 ρ2 n)))) (show (0 : ℝ) ≤ G / 2 by positivity)
    have q4 := t1.trans (le_geom c1 c2 ρ3 n)
    nlinarith
  have z2 : |2 * (G / 2 * ((U3 - H1 * Real.cos X1) + (U4 - H2 * Real.cos X2)) - T2)| ≤ 2 * ((G / 2 * (K1 + K2) + K3) * ρ ^ n) := by
    rw [abs_mul, abs_two]
    have q1 := abs_sub (G / 2 * ((U3 - H1 * Real.cos X1) + (U4 - H2 * Real.cos X2))) T2
    rw [abs_mul, abs_of_nonneg (show (0 : ℝ) ≤ G / 2 by positivity)] at q1
    have q2 := abs_add_le (U3 - H1 * Real.cos X1) (U4 - H2 * Real.cos X2)
    have q3 := mul_le_mul_of_nonneg_left (q2.trans (add_le_add (u3.trans (le_geom a1 a2 ρ1 n)) (u4.trans (le_geom b1 b2 ρ2 n)))) (show (0 : ℝ) ≤ G / 2 by positivity)
    have q4 := t2.trans (le_geom c1 c2 ρ3 n)
    nlinarith
  refine (abs_add_le _ _).trans ?_
  rw [abs_mul _ (Real.sin p), abs_mul _ (Real.cos p)]
  have y1 := mul_le_mul z1 (Real.abs_sin_le_one p) (abs_nonneg _) ((abs_nonneg _).trans z1)
  have y2 := mul_le_mul z2 (Real.abs_cos_le_one p) (abs_nonneg _) ((abs_nonneg _).trans z2)
  linarith

/-- The frequencies for which the effect separates the two sidebands, when it shifts by `ω`. -/
def Spec.Band (ω θ : ℝ) : Prop := Real.pi / 100 + max 0 (-ω) ≤ θ ∧ θ ≤ Real.pi - Real.pi / 100 - max 0 (-ω)

/-- Inside the band, one sideband is passed and the other one suppressed by 103 decibels. -/
theorem separated {ω θ : ℝ} (h : Spec.Band ω θ) :
    1 - Spec.down 103 ^ 2 ≤ ‖Spec.resp (Real.pi * 0.5 - min 0 ω - θ)‖ ^ 2 ∧ ‖Spec.resp (Real.pi * 0.5 - min 0 ω - θ)‖ ≤ 1 ∧
    ‖Spec.resp (Real.pi * 0.5 - min 0 ω + θ)‖ ≤ Spec.down 103 := by
  obtain ⟨a, b, ht, ea, eb⟩ := table_eq
  have hm : max 0 (-ω) = -min 0 ω := by rw [← max_neg_neg, neg_zero]
  have h0 : 0 ≤ -min 0 ω := by rw [← hm]; exact le_max_left ..
  obtain ⟨h1, h2⟩ := h
  rw [hm] at h1 h2
  have pp := Real.pi_pos
  have w : ((Spec.advertised true 6).2 : ℝ) = 1 / 100 := by
    have : (Spec.advertised true 6).2 = 1 / 100 := by norm_num [Spec.advertised]
    rw [this]; norm_num
  refine ⟨?_, ?_, ?_⟩
  · have key : ∀ x, 0 ≤ x → x ≤ Real.pi / 2 - Real.pi / 100 → 1 - Spec.down 103 ^ 2 ≤ ‖Spec.resp x‖ ^ 2 := fun x x0 x1 => by
      have := (C111_passband ht (ω := x) x0 (by rw [w]; linarith)).1
      unfold Spec.resp; rw [ea, eb]; exact this
    by_cases hx : 0 ≤ Real.pi * 0.5 - min 0 ω - θ
    · exact key _ hx (by linarith)
    · push Not at hx
      rw [← norm_response_neg]
      exact key _ (by linarith) (by linarith)
  · have := (C110_shape ht).2.2.1
    unfold Spec.resp; rw [ea, eb]; exact this _
  · have key : ∀ x, Real.pi / 2 + Real.pi / 100 ≤ x → x ≤ Real.pi → ‖Spec.resp x‖ ≤ Spec.down 103 := fun x x0 x1 => by
      have := C111_reached ht (ω := x) ⟨by rw [w]; linarith, x1⟩
      unfold Spec.resp; rw [ea, eb]; exact this
    by_cases hx : Real.pi * 0.5 - min 0 ω + θ ≤ Real.pi
    · exact key _ (by linarith) hx
    · push Not at hx
      rw [← norm_response_neg, ← response_turn]
      exact key _ (by linarith) (by linarith)
