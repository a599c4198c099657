import Verif.Filters.Huovilainen
/-!
# The comb filter (C217, C218)

surgefilter-comb, the x86-64 code, exact real arithmetic; `_mm_cvtps_epi32` is any rounding to a nearest integer.
-/
namespace Verif.Filters.Comb
open Verif

/-! ## Model -/

/-- One of the four lanes: surge-qfunit qf_unit_state.rs `active`, `comb_write_position`, `delay_buffer` (2060 samples, surge-voice filter.rs 17) and coefficients 0 to 3. -/
structure Lane where
  active : Bool
  wp : ℤ
  buf : ℕ → ℝ
  coeff : ℕ → ℝ
  dcoeff : ℕ → ℝ

/-- process_sse2.rs 20-21. -/
def Lane.adv (l : Lane) : Lane := ⟨l.active, l.wp, l.buf, fun i => if i < 2 then l.coeff i + l.dcoeff i else l.coeff i, l.dcoeff⟩

/-- process_sse2.rs 23-35: the delay in samples `dti` and the row of the kernel `sei`; `rnd` is `_mm_cvtps_epi32`. -/
noncomputable def Lane.dt (rnd : ℝ → ℤ) (l : Lane) : ℤ := rnd (l.coeff 0 * 256) / 256
noncomputable def Lane.se (rnd : ℝ → ℤ) (l : Lane) : ℤ := 255 - rnd (l.coeff 0 * 256) % 256

/-- process_sse2.rs 41: `(comb_write_position - dti - FIR_OFFSET) & (MAX_FB_COMB - 1)`. -/
noncomputable def Lane.rp (rnd : ℝ → ℤ) (l : Lane) : ℕ := ((l.wp - l.dt rnd - 6) % 2048).toNat

/-- process_sse2.rs 47-63: the twelve-point interpolation, from row offset `idx` of the table. -/
noncomputable def Lane.read (sinc : ℕ → ℝ) (rnd : ℝ → ℤ) (l : Lane) (idx : ℕ) : ℝ :=
  ∑ j ∈ Finset.range 12, l.buf (l.rp rnd + j) * sinc (idx + j)

/-- process_sse2.rs 71-87: writing, with the copy after the end, and the step of the write position. -/
def Lane.write (l : Lane) (d : ℝ) : Lane :=
  ⟨l.active, (l.wp + 1) % 2048, fun p => if p = l.wp.toNat ∨ l.wp < 12 ∧ p = (l.wp + 2048).toNat then d else l.buf p, l.coeff, l.dcoeff⟩

/-- surge-math align.rs 34-36 `simd_extract`: its body is `todo!()`. -/
def simdExtract (_ : ℤ) : Res Empty ℕ := .panic "not yet implemented"

/-- process_sse2.rs 37-66: the reading loop's body, with `extract` for `simd_extract`. -/
noncomputable def Lane.fetch (extract : ℤ → Res Empty ℕ) (sinc : ℕ → ℝ) (rnd : ℝ → ℤ) (l : Lane) : Res Empty ℝ :=
  if l.active then do
    let idx ← extract (l.se rnd)
    .ok (l.read sinc rnd idx)
  else .ok 0

/-- process_sse2.rs 68-94: the rest of a sample, from what was read. (The second `simd_extract`, in the writing loop, is only reached if the first returns.) -/
noncomputable def Lane.finish (l : Lane) (x r : ℝ) : Lane × ℝ :=
  (if l.active then l.write (Dsp.softclip (x + r * l.coeff 1)) else l, l.coeff 3 * r + l.coeff 2 * x)

/-- process_sse2.rs 7-95 `process_quad`: all four lanes read before any writes. -/
noncomputable def processQuad (extract : ℤ → Res Empty ℕ) (sinc : ℕ → ℝ) (rnd : ℝ → ℤ) (q : Fin 4 → Lane) (x : Fin 4 → ℝ) : Res Empty (Fin 4 → Lane × ℝ) := do
  let q := fun i => (q i).adv
  let r0 ← (q 0).fetch extract sinc rnd
  let r1 ← (q 1).fetch extract sinc rnd
  let r2 ← (q 2).fetch extract sinc rnd
  let r3 ← (q 3).fetch extract sinc rnd
  .ok fun i => (q i).finish (x i) (![r0, r1, r2, r3] i)

/-- coeff.rs 5-40 `coeff_make`; `d` stands for `samplerate_os * n2p(-freq) / 440`; comb.rs 9-25 for the subtypes. -/
inductive Sub | smooth | rough | other
noncomputable def coeffMake (s : Sub) (d reso : ℝ) : ℕ → ℝ :=
  let mix : ℝ := match s with | .rough => 0 | _ => 0.5
  let sgn : ℝ := match s with | .smooth => -1 | _ => 1
  fun i => match i with
  | 0 => limit (d - 6) 12 (2048 - 12)
  | 1 => sgn * limit reso 0 1
  | 2 => mix
  | 3 => 1 - mix
  | _ => 0

/-! ## C217: the filter does not run -/

/-- **C217** (refuted: the filter processes a sample). Whatever its state and input, a quad with any active voice panics. -/
theorem C217_runs_refuted (sinc : ℕ → ℝ) (rnd : ℝ → ℤ) (q : Fin 4 → Lane) (x : Fin 4 → ℝ) (h : ∃ i, (q i).active = true) :
    ∃ why, processQuad simdExtract sinc rnd q x = .panic why := by
  obtain ⟨i, hi⟩ := h
  have act : ∀ l : Lane, l.adv.fetch simdExtract sinc rnd = if l.active then .panic "not yet implemented" else .ok 0 := fun l => by
    unfold Lane.fetch
    by_cases h : l.active
    · rw [if_pos h, if_pos (show l.adv.active = true from h)]; rfl
    · rw [if_neg h, if_neg (show ¬ l.adv.active = true from h)]
  refine ⟨"not yet implemented", ?_⟩
  simp only [processQuad, act]
  by_cases h0 : (q 0).active
  · rw [if_pos h0]; rfl
  by_cases h1 : (q 1).active
  · rw [if_neg h0, if_pos h1]; rfl
  by_cases h2 : (q 2).active
  · rw [if_neg h0, if_neg h1, if_pos h2]; rfl
  by_cases h3 : (q 3).active
  · rw [if_neg h0, if_neg h1, if_neg h2, if_pos h3]; rfl
  fin_cases i <;> simp_all

/-! ## C218: the filter with the extraction supplied -/

/-- What `simd_extract` and the multiplication after it stand for: the row times 24 (process_sse1.rs 30, the code for other targets). -/
def Spec.row (se : ℤ) : Res Empty ℕ := .ok (se.toNat * 24)

/-- A signal at an integer time: silence before the start. -/
def Spec.past (b : ℕ → ℝ) (m : ℤ) : ℝ := if 0 ≤ m then b m.toNat else 0

/-- The settings and the input of a lane, sample by sample. -/
structure Spec.Drive where
  delay : ℕ → ℝ
  fb : ℕ → ℝ
  dry : ℕ → ℝ
  wet : ℕ → ℝ
  x : ℕ → ℝ

/-- The interpolated delay of a stored signal at sample `n`: `e` is the delay in 256ths of a sample. -/
noncomputable def Spec.tap (sinc : ℕ → ℝ) (e : ℤ) (b : ℕ → ℝ) (n : ℕ) : ℝ :=
  ∑ j ∈ Finset.range 12, Spec.past b ((n : ℤ) - e / 256 - 6 + (j : ℕ)) * sinc ((255 - e % 256).toNat * 24 + j)

/-- One active lane, from empty, under the drive: the state after `n` samples and the outputs so far. -/
noncomputable def play (sinc : ℕ → ℝ) (rnd : ℝ → ℤ) (D : Spec.Drive) : ℕ → Res Empty (Lane × (ℕ → ℝ))
  | 0 => .ok (⟨true, 0, fun _ => 0, fun _ => 0, fun _ => 0⟩, fun _ => 0)
  | n + 1 => do
    let (l, y) ← play sinc rnd D n
    let l : Lane := ⟨l.active, l.wp, l.buf, fun i => match i with | 0 => D.delay n | 1 => D.fb n | 2 => D.dry n | 3 => D.wet n | _ => 0, l.dcoeff⟩
    let r ← l.fetch Spec.row sinc rnd
    let z := l.finish (D.x n) r
    .ok (z.1, Function.update y n z.2)

/-- The ring holds the last 2048 stored samples, the first twelve places once more after the end. -/
structure Ring (l : Lane) (b : ℕ → ℝ) (n : ℕ) : Prop where
  act : l.active = true
  wp : l.wp = (n : ℤ) % 2048
  buf : ∀ m : ℤ, (n : ℤ) - 2048 ≤ m → m < n → l.buf (m % 2048).toNat = Spec.past b m
  copy : ∀ m : ℤ, (n : ℤ) - 2048 ≤ m → m < n → m % 2048 < 12 → l.buf (m % 2048 + 2048).toNat = Spec.past b m

/-- Rounding to a nearest integer. -/
def Spec.Rounds (rnd : ℝ → ℤ) : Prop := ∀ x, |(rnd x : ℝ) - x| ≤ 1 / 2

theorem rnd_range {rnd : ℝ → ℤ} (hr : Spec.Rounds rnd) {d : ℝ} (h0 : 12 ≤ d) (h1 : d ≤ 2036) : 3072 ≤ rnd (d * 256) ∧ rnd (d * 256) ≤ 521216 := by
  obtain ⟨a, b⟩ := abs_le.1 (hr (d * 256))
  have p : (3071 : ℝ) < rnd (d * 256) := by linarith
  have q : (rnd (d * 256) : ℝ) < 521217 := by linarith
  have p' : 3071 < rnd (d * 256) := by exact_mod_cast p
  have q' : rnd (d * 256) < 521217 := by exact_mod_cast q
  omega

/-- **C218.** No access is out of bounds: with a delay the settings can give, the twelve samples lie in the 2060-sample buffer, the twelve weights in the 6168-entry table, and both writes in the buffer. -/
theorem C218_in_bounds {rnd : ℝ → ℤ} (hr : Spec.Rounds rnd) (l : Lane) (h0 : 12 ≤ l.coeff 0) (h1 : l.coeff 0 ≤ 2036) (w0 : 0 ≤ l.wp) (w1 : l.wp < 2048) :
    (∀ j < 12, l.rp rnd + j < 2060) ∧ (∃ idx, Spec.row (l.se rnd) = .ok idx ∧ ∀ j < 12, idx + j < (256 + 1) * 12 * 2) ∧
      l.wp.toNat < 2060 ∧ (l.wp < 12 → (l.wp + 2048).toNat < 2060) := by
  obtain ⟨e0, e1⟩ := rnd_range hr h0 h1
  refine ⟨fun j hj => ?_, ⟨_, rfl, fun j hj => ?_⟩, by omega, fun h => by omega⟩
  · unfold Lane.rp; omega
  · unfold Lane.se; omega

theorem coeff_delay (s : Sub) (d reso : ℝ) : 12 ≤ coeffMake s d reso 0 ∧ coeffMake s d reso 0 ≤ 2036 := by
  show 12 ≤ limit (d - 6) 12 (2048 - 12) ∧ limit (d - 6) 12 (2048 - 12) ≤ 2036
  exact ⟨le_max_left _ _, max_le (by norm_num) (by norm_num)⟩

theorem read_eq {rnd : ℝ → ℤ} (hr : Spec.Rounds rnd) {l : Lane} {b : ℕ → ℝ} {n : ℕ} (h : Ring l b n) (h0 : 12 ≤ l.coeff 0) (h1 : l.coeff 0 ≤ 2036) (sinc : ℕ → ℝ) :
    l.fetch Spec.row sinc rnd = .ok (Spec.tap sinc (rnd (l.coeff 0 * 256)) b n) := by
  obtain ⟨e0, e1⟩ := rnd_range hr h0 h1
  unfold Lane.fetch
  rw [if_pos h.act]
  simp only [Spec.row, Res.ok_bind, Lane.read, Spec.tap, Lane.rp, Lane.dt, Lane.se]
  congr 1
  refine Finset.sum_congr rfl fun j hj => ?_
  have hj := Finset.mem_range.1 hj
  congr 1
  generalize rnd (l.coeff 0 * 256) = e at *
  have hw := h.wp
  obtain ⟨m, hm⟩ : ∃ m : ℤ, m = (n : ℤ) - e / 256 - 6 + (j : ℕ) := ⟨_, rfl⟩
  rw [← hm]
  have r0 : (l.wp - e / 256 - 6) % 2048 = (m - j) % 2048 := by rw [hw, hm]; omega
  rw [r0]
  by_cases hc : (m - j) % 2048 + j < 2048
  · rw [← h.buf m (by omega) (by omega)]
    congr 1
    omega
  · rw [← h.copy m (by omega) (by omega) (by omega)]
    congr 1
    omega

theorem past_update (b : ℕ → ℝ) (n : ℕ) (d : ℝ) {m : ℤ} (h : m < n) : Spec.past (Function.update b n d) m = Spec.past b m := by
  unfold Spec.past
  split
  · rw [Function.update_of_ne (by omega)]
  · rfl

theorem ring_write {l : Lane} {b : ℕ → ℝ} {n : ℕ} (h : Ring l b n) (d : ℝ) : Ring (l.write d) (Function.update b n d) (n + 1) := by
  have hw := h.wp
  have top : Spec.past (Function.update b n d) (n : ℤ) = d := by
    unfold Spec.past
    rw [if_pos (by omega)]
    simp
  refine ⟨h.act, ?_, fun m m0 m1 => ?_, fun m m0 m1 m2 => ?_⟩
  · show (l.wp + 1) % 2048 = ((n + 1 : ℕ) : ℤ) % 2048
    omega
  · simp only [Lane.write]
    by_cases e : m = n
    · rw [if_pos (Or.inl (by rw [e, hw])), e, top]
    · rw [if_neg (by push_cast at *; omega), h.buf m (by push_cast at *; omega) (by push_cast at *; omega), past_update b n d (by push_cast at *; omega)]
  · simp only [Lane.write]
    by_cases e : m = n
    · rw [if_pos (Or.inr (by rw [hw, ← e]; exact ⟨m2, rfl⟩)), e, top]
    · rw [if_neg (by push_cast at *; omega), h.copy m (by push_cast at *; omega) (by push_cast at *; omega) m2, past_update b n d (by push_cast at *; omega)]

/-- **C218.** With the extraction supplied, the comb filter is a feedback delay: however delay, feedback and mix vary, as long as the delay stays in the range the settings give, there is a stored signal that is the soft-clipped sum of the input and the fed back delayed stored signal, and the output is the mix of the input and the delayed stored signal. -/
theorem C218_feedback_delay {rnd : ℝ → ℤ} (hr : Spec.Rounds rnd) (sinc : ℕ → ℝ) (D : Spec.Drive) (hd : ∀ n, 12 ≤ D.delay n ∧ D.delay n ≤ 2036) (N : ℕ) :
    ∃ (b : ℕ → ℝ) (l : Lane) (y : ℕ → ℝ), play sinc rnd D N = .ok (l, y) ∧ Ring l b N ∧
      (∀ n < N, b n = Dsp.softclip (D.x n + Spec.tap sinc (rnd (D.delay n * 256)) b n * D.fb n)) ∧
      ∀ n < N, y n = D.wet n * Spec.tap sinc (rnd (D.delay n * 256)) b n + D.dry n * D.x n := by
  induction N with
  | zero =>
    refine ⟨fun _ => 0, _, _, rfl, ⟨rfl, rfl, ?_, ?_⟩, by simp, by simp⟩ <;> intros <;> simp [Spec.past]
  | succ N ih =>
    obtain ⟨b, l, y, e, hR, hb, hy⟩ := ih
    obtain ⟨l', hl'⟩ : ∃ l' : Lane, l' = ⟨l.active, l.wp, l.buf, fun i => match i with | 0 => D.delay N | 1 => D.fb N | 2 => D.dry N | 3 => D.wet N | _ => 0, l.dcoeff⟩ := ⟨_, rfl⟩
    have hR' : Ring l' b N := by rw [hl']; exact ⟨hR.act, hR.wp, hR.buf, hR.copy⟩
    have c0 : l'.coeff 0 = D.delay N := by subst hl'; rfl
    have f := read_eq hr hR' (by rw [c0]; exact (hd N).1) (by rw [c0]; exact (hd N).2) sinc
    rw [c0] at f
    obtain ⟨t, ht⟩ : ∃ t, t = Spec.tap sinc (rnd (D.delay N * 256)) b N := ⟨_, rfl⟩
    rw [← ht] at f
    obtain ⟨d, hdd⟩ : ∃ d, d = Dsp.softclip (D.x N + t * D.fb N) := ⟨_, rfl⟩
    have tap : ∀ n ≤ N, ∀ k, 12 ≤ k → k ≤ 2036 → Spec.tap sinc (rnd (k * 256)) (Function.update b N d) n = Spec.tap sinc (rnd (k * 256)) b n := by
      intro n hn k k0 k1
      obtain ⟨e0, e1⟩ := rnd_range hr k0 k1
      unfold Spec.tap
      refine Finset.sum_congr rfl fun j hj => ?_
      have hj := Finset.mem_range.1 hj
      rw [past_update b N d (by omega)]
    have fin : l'.finish (D.x N) t = (l'.write d, D.wet N * t + D.dry N * D.x N) := by
      unfold Lane.finish
      rw [if_pos hR'.act, hdd]
      subst hl'
      rfl
    refine ⟨Function.update b N d, l'.write d, Function.update y N (D.wet N * t + D.dry N * D.x N), ?_, ring_write hR' d, ?_, ?_⟩
    · simp only [play, e, Res.ok_bind]
      rw [← hl', f]
      simp only [Res.ok_bind]
      rw [fin]
    · intro n hn
      rw [tap n (by omega) _ (hd n).1 (hd n).2]
      by_cases h : n = N
      · subst h; rw [Function.update_self, ← ht, hdd]
      · rw [Function.update_of_ne h, hb n (by omega)]
    · intro n hn
      rw [tap n (by omega) _ (hd n).1 (hd n).2]
      by_cases h : n = N
      · subst h; rw [Function.update_self, ← ht]
      · rw [Function.update_of_ne h, hy n (by omega)]

/-- **C218.** With the extraction supplied the filter cannot blow up: if no row of the kernel weighs more than `K`, the output is at most `|wet| K + |dry| |x|`, whatever the feedback. -/
theorem C218_bounded {rnd : ℝ → ℤ} (hr : Spec.Rounds rnd) {sinc : ℕ → ℝ} {K : ℝ} (hK : ∀ r < 256, ∑ j ∈ Finset.range 12, |sinc (r * 24 + j)| ≤ K) (D : Spec.Drive)
    (hd : ∀ n, 12 ≤ D.delay n ∧ D.delay n ≤ 2036) (N : ℕ) : ∃ l y, play sinc rnd D N = .ok (l, y) ∧ ∀ n < N, |y n| ≤ |D.wet n| * K + |D.dry n| * |D.x n| := by
  obtain ⟨b, l, y, e, -, hb, hy⟩ := C218_feedback_delay hr sinc D hd N
  refine ⟨l, y, e, fun n hn => ?_⟩
  obtain ⟨e0, e1⟩ := rnd_range hr (hd n).1 (hd n).2
  have t : |Spec.tap sinc (rnd (D.delay n * 256)) b n| ≤ K := by
    refine le_trans ?_ (hK (255 - rnd (D.delay n * 256) % 256).toNat (by omega))
    refine (Finset.abs_sum_le_sum_abs _ _).trans (Finset.sum_le_sum fun j hj => ?_)
    have hj := Finset.mem_range.1 hj
    rw [abs_mul]
    refine mul_le_of_le_one_left (abs_nonneg _) ?_
    unfold Spec.past
    split
    · rw [hb _ (by omega)]; exact softclip_le _
    · simp
  rw [hy n hn]
  calc _ ≤ |D.wet n * Spec.tap sinc (rnd (D.delay n * 256)) b n| + |D.dry n * D.x n| := abs_add_le _ _
    _ = |D.wet n| * |Spec.tap sinc (rnd (D.delay n * 256)) b n| + |D.dry n| * |D.x n| := by rw [abs_mul, abs_mul]
    _ ≤ _ := by
      have := mul_le_mul_of_nonneg_left t (abs_nonneg (D.wet n))
      linarith

/-- The hypotheses hold: rounding to nearest, and the delays the settings give. -/
example : Spec.Rounds (fun x => round x) ∧ ∀ s d reso, 12 ≤ coeffMake s d reso 0 ∧ coeffMake s d reso 0 ≤ 2036 :=
  ⟨fun x => by rw [abs_sub_comm]; exact abs_sub_round x, coeff_delay⟩

end Verif.Filters.Comb
