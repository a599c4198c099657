import Verif.Effects.Allpass
/-!
# The reverb's tank as a network (C263)

The tank of reverb 2 (`Effects/Allpass`: `Tank.sample`), with its sizes held: a closed description of the whole signal flow in terms of past samples only, with no buffers and positions.
-/
namespace Verif.Effects.Allpass
open Verif

/-- A Schroeder all-pass of delay `L`: the signal goes round a comb, and forward past it. -/
def Spec.Schroeder (c : ℕ → ℝ) (L : ℕ) (x y : ℕ → ℝ) : Prop :=
  ∃ v : ℕ → ℝ, ∀ n, v n = x n - c n * Spec.ago v n L ∧ y n = Spec.ago v n L + c n * v n

/-- The two dampers: `h` a low-pass of `x`, then `y` what is left of `h` when its own low-passed version is taken away. -/
def Spec.Damped (hf lf : ℕ → ℝ) (x y : ℕ → ℝ) : Prop :=
  ∃ h a : ℕ → ℝ, ∀ n, h n = hf n * Spec.ago h n 1 + (1 - hf n) * x n ∧ a n = (1 - lf n) * Spec.ago a n 1 + lf n * h n ∧ y n = h n - a n

/-- One of the four segments: from the sum `s` of what comes round and what comes in, to the signal `w` in its delay line. -/
def Spec.Segment (sz : Sizes) (cs : ℕ → Coefs) (b : Fin 4) (s w : ℕ → ℝ) : Prop :=
  ∃ p q : ℕ → ℝ, Spec.Schroeder (fun n => (cs n).buildup) (max 1 (sz.ap0 b)) s p ∧ Spec.Schroeder (fun n => (cs n).buildup) (max 1 (sz.ap1 b)) p q ∧ Spec.Damped (fun n => (cs n).hf) (fun n => (cs n).lf) q w

/-- `w` between two samples, `len` samples less `mo / 256` ago. -/
noncomputable def Spec.between (w : ℕ → ℝ) (n : ℕ) (len mo : ℤ) : ℝ :=
  (1 - ((mo % 256 : ℤ) : ℝ) / 256) * Spec.ago w n (len - mo / 256) + ((mo % 256 : ℤ) : ℝ) / 256 * Spec.ago w n (len - mo / 256 - 1)

/-- The network: the input goes through four all-passes to all four segments, each also hears the line of the segment before it, and the last one is heard by the first a sample later; each side hears every line once. -/
structure Spec.Network (sz : Sizes) (cs : ℕ → Coefs) (x l r : ℕ → ℝ) (i a b c d : ℕ → ℝ) : Prop where
  input : ∃ p q s : ℕ → ℝ, Spec.Schroeder (fun n => (cs n).diffusion) (max 1 (sz.input 0)) x p ∧ Spec.Schroeder (fun n => (cs n).diffusion) (max 1 (sz.input 1)) p q ∧
    Spec.Schroeder (fun n => (cs n).diffusion) (max 1 (sz.input 2)) q s ∧ Spec.Schroeder (fun n => (cs n).diffusion) (max 1 (sz.input 3)) s i
  first : Spec.Segment sz cs 0 (fun n => Spec.ago (fun m => (cs m).decay * Spec.between d m (sz.delay 3) ((cs m).modulation 3)) n 1 + i n) a
  second : Spec.Segment sz cs 1 (fun n => (cs n).decay * Spec.between a n (sz.delay 0) ((cs n).modulation 0) + i n) b
  third : Spec.Segment sz cs 2 (fun n => (cs n).decay * Spec.between b n (sz.delay 1) ((cs n).modulation 1) + i n) c
  fourth : Spec.Segment sz cs 3 (fun n => (cs n).decay * Spec.between c n (sz.delay 2) ((cs n).modulation 2) + i n) d
  left : ∀ n, l n = 0.375 * Spec.ago a n (sz.tapL 0) + 0.3 * Spec.ago b n (sz.tapL 1) + 0.25 * Spec.ago c n (sz.tapL 2) + 0.2 * Spec.ago d n (sz.tapL 3)
  right : ∀ n, r n = 0.375 * Spec.ago a n (sz.tapR 0) + 0.3 * Spec.ago b n (sz.tapR 1) + 0.25 * Spec.ago c n (sz.tapR 2) + 0.2 * Spec.ago d n (sz.tapR 3)

/-! ## The parts -/

theorem mod_ne {L m e : ℕ} (e0 : 0 < e) (eL : e < L) : (m + e) % L ≠ m % L := by
  intro h
  have : (m + e) ≡ m + 0 [MOD L] := by simpa [Nat.ModEq] using h
  have := Nat.ModEq.add_left_cancel' m this
  rw [Nat.ModEq, Nat.mod_eq_of_lt eL, Nat.zero_mod] at this
  omega

theorem ago_succ (v : ℕ → ℝ) (n d : ℕ) : Spec.ago v (n + 1) ((d + 1 : ℕ) : ℤ) = Spec.ago v n (d : ℤ) := by
  unfold Spec.ago
  by_cases h : (d : ℤ) ≤ n
  · rw [if_pos h, if_pos (by push_cast; omega)]
    congr 1
    push_cast; omega
  · rw [if_neg h, if_neg (by push_cast; omega)]

theorem ago_one (v : ℕ → ℝ) (n : ℕ) : Spec.ago v (n + 1) 1 = v n := by
  have := ago_succ v n 0
  push_cast at this
  rw [this]
  simp [Spec.ago]

theorem ago_zero (v : ℕ → ℝ) {d : ℤ} (h : 0 < d) : Spec.ago v 0 d = 0 := by
  unfold Spec.ago; rw [if_neg (by push_cast; omega)]

theorem pos_of_state {a s : ℕ → ℝ} (h0 : s 0 = 0) (hs : ∀ n, s (n + 1) = a n) (n : ℕ) : s n = Spec.ago a n 1 := by
  cases n with
  | zero => rw [h0, ago_zero _ (by norm_num)]
  | succ n => rw [hs, ago_one]

/-- A diffuser of held length is a Schroeder all-pass. -/
theorem diffuser_is {c x y : ℕ → ℝ} {len : ℕ} {S : ℕ → Diffuser} (h0 : S 0 = .new) (step : ∀ n, ((S n).setLen len).process (x n) (c n) = .ok (S (n + 1), y n)) :
    Spec.Schroeder c (max 1 len) x y := by
  obtain ⟨L, hL⟩ : ∃ L, L = max 1 len := ⟨_, rfl⟩
  have L0 : 0 < L := by rw [hL]; omega
  rw [← hL]
  obtain ⟨v, hv⟩ : ∃ v : ℕ → ℝ, v = fun n => x n - c n * (S n).data ((n + 1) % L) := ⟨_, rfl⟩
  have one : ∀ n, (S n).k = n % L → (S (n + 1)).k = (n + 1) % L ∧ (S (n + 1)).data = Function.update (S n).data ((n + 1) % L) (v n) ∧ y n = (S n).data ((n + 1) % L) + c n * v n := by
    intro n hk
    have st := step n
    unfold Diffuser.process at st
    have ek : (if ((S n).setLen len).k + 1 ≥ ((S n).setLen len).len then 0 else ((S n).setLen len).k + 1) = (n + 1) % L := by
      simp only [Diffuser.setLen, hk]
      have lt := Nat.mod_lt n L0
      by_cases h : n % L + 1 < L
      · rw [if_neg (by rw [hL] at h ⊢; omega), Nat.add_mod, Nat.mod_eq_of_lt (show 1 < L by omega), Nat.mod_eq_of_lt h]
      · rw [if_pos (by rw [hL] at h ⊢; omega)]
        have e : n % L + 1 = L := by omega
        have := Nat.mod_add_div n L
        rw [show n + 1 = L * (n / L + 1) by rw [Nat.mul_add, mul_one]; omega, Nat.mul_mod_right]
    simp only [ek] at st
    split_ifs at st with hb
    injection st with st
    injection st with s1 s2
    rw [← s1]
    refine ⟨rfl, ?_, ?_⟩
    · simp only [hv]; rfl
    · rw [← s2, hv]; rfl
  have hk : ∀ n, (S n).k = n % L := by
    intro n
    induction n with
    | zero => rw [h0]; simp [Diffuser.new]
    | succ n ih => exact (one n ih).1
  have inv : ∀ n d, 1 ≤ d → d ≤ L → (S n).data ((n + 1 + (L - d)) % L) = Spec.ago v n (d : ℤ) := by
    intro n
    induction n with
    | zero => intro d h1 h2; rw [h0, ago_zero _ (by omega)]; rfl
    | succ n ih =>
      intro d h1 h2
      rw [(one n (hk n)).2.1]
      obtain ⟨d, rfl⟩ : ∃ m, d = m + 1 := ⟨d - 1, by omega⟩
      rw [ago_succ]
      rcases Nat.eq_zero_or_pos d with rfl | hd
      · rw [show n + 1 + 1 + (L - (0 + 1)) = n + 1 + L by omega, Nat.add_mod_right, Function.update_self]
        simp [Spec.ago]
      · rw [show n + 1 + 1 + (L - (d + 1)) = n + 1 + (L - d) by omega, Function.update_of_ne (mod_ne (by omega) (by omega))]
        exact ih d (by omega) (by omega)
  have rd : ∀ n, (S n).data ((n + 1) % L) = Spec.ago v n (L : ℤ) := by
    intro n
    have := inv n L L0 le_rfl
    rwa [Nat.sub_self, add_zero] at this
  refine ⟨v, fun n => ⟨?_, ?_⟩⟩
  · rw [← rd]; simp only [hv]
  · rw [← rd]; exact (one n (hk n)).2.2

/-- What the line of a segment holds. -/
theorem segment_is {Z : ℕ → Blk} {sz : Sizes} {cs : ℕ → Coefs} {b : Fin 4} {i x y l r : ℕ → ℝ} (h0 : Z 0 = .new)
    (step : ∀ n, (Z n).process sz (cs n) b (i n) (x n) = .ok (Z (n + 1), y n, l n, r n))
    (hl : 1 ≤ sz.tapL b ∧ sz.tapL b ≤ 16384) (hr : 1 ≤ sz.tapR b ∧ sz.tapR b ≤ 16384) (hm : ∀ n, 2 ≤ sz.delay b - (cs n).modulation b / 256 ∧ sz.delay b - (cs n).modulation b / 256 ≤ 16384) :
    ∃ w, Spec.Segment sz cs b (fun n => x n + i n) w ∧ ∀ n, y n = (cs n).decay * Spec.between w n (sz.delay b) ((cs n).modulation b) ∧ l n = Spec.ago w n (sz.tapL b) ∧ r n = Spec.ago w n (sz.tapR b) := by
  have ex : ∀ n, ∃ p q v, ((Z n).ap0.setLen (sz.ap0 b)).process (x n + i n) (cs n).buildup = .ok ((Z (n + 1)).ap0, p) ∧ ((Z n).ap1.setLen (sz.ap1 b)).process p (cs n).buildup = .ok ((Z (n + 1)).ap1, q) ∧
      (Z (n + 1)).hf = lowpass (Z n).hf q (cs n).hf ∧ (Z (n + 1)).lf = (highpass (Z n).lf (Z (n + 1)).hf (cs n).lf).1 ∧
      ((Z n).delay.setLen (sz.delay b)).process (highpass (Z n).lf (Z (n + 1)).hf (cs n).lf).2 (sz.tapL b) (sz.tapR b) ((cs n).modulation b) = ((Z (n + 1)).delay, v, l n, r n) ∧ y n = v * (cs n).decay := by
    intro n
    have h := step n
    unfold Blk.process at h
    obtain ⟨⟨ap0, p⟩, e0, h⟩ := bind_ok h
    obtain ⟨⟨ap1, q⟩, e1, h⟩ := bind_ok h
    simp only [Res.pure_eq] at h
    injection h with h
    simp only [Prod.mk.injEq] at h
    obtain ⟨g1, g2, g3, g4⟩ := h
    refine ⟨p, q, _, ?_, ?_, ?_, ?_, ?_, g2.symm⟩
    · rw [← g1]; exact e0
    · rw [← g1]; exact e1
    · rw [← g1]
    · rw [← g1]
    · rw [← g1, ← g3, ← g4]
  choose p q v e0 e1 e2 e3 e4 e5 using ex
  obtain ⟨w, hw⟩ : ∃ w : ℕ → ℝ, w = fun n => (highpass (Z n).lf (Z (n + 1)).hf (cs n).lf).2 := ⟨_, rfl⟩
  refine ⟨w, ⟨p, q, diffuser_is (S := fun n => (Z n).ap0) (by rw [h0]; rfl) e0, diffuser_is (S := fun n => (Z n).ap1) (by rw [h0]; rfl) e1,
    fun n => (Z (n + 1)).hf, fun n => (Z (n + 1)).lf, fun n => ⟨?_, ?_, ?_⟩⟩, ?_⟩
  · rw [← pos_of_state (s := fun n => (Z n).hf) (by rw [h0]; rfl) (fun _ => rfl)]; beta_reduce; rw [e2, lowpass]; ring
  · rw [← pos_of_state (s := fun n => (Z n).lf) (by rw [h0]; rfl) (fun _ => rfl)]; beta_reduce; rw [e3 n, highpass]; ring
  · simp only [hw]; rw [e3]; rfl
  · have run : Spec.LineRun w (fun _ => sz.delay b) (fun _ => sz.tapL b) (fun _ => sz.tapR b) (fun n => (cs n).modulation b) (fun n => (Z n).delay) v l r :=
      ⟨by show (Z 0).delay = _; rw [h0]; rfl, fun n => by rw [hw]; exact e4 n⟩
    intro n
    obtain ⟨t1, t2, t3⟩ := C155_plays run n
    refine ⟨?_, t1 hl.1 hl.2, t2 hr.1 hr.2⟩
    rw [e5, t3 (sz.delay b - (cs n).modulation b / 256) ((cs n).modulation b % 256) (by omega) (by omega) (by omega) (Or.inl (hm n).1) (hm n).2, mul_comm]
    rfl

/-- **C263.** With its sizes held and in range, the tank plays the network, from silence, for every input and for any course of the decay, the diffusion, the damping and the modulation. -/
theorem C263_network {sz : Sizes} {cs : ℕ → Coefs} {x : ℕ → ℝ} {T : ℕ → Tank} {out : ℕ → ℝ × ℝ} (run : Spec.TankRun (fun _ => sz) cs x T out)
    (ht : ∀ b, 1 ≤ sz.tapL b ∧ sz.tapL b ≤ 16384 ∧ 1 ≤ sz.tapR b ∧ sz.tapR b ≤ 16384) (hm : ∀ n b, 2 ≤ sz.delay b - (cs n).modulation b / 256 ∧ sz.delay b - (cs n).modulation b / 256 ≤ 16384) :
    ∃ i a b c d, Spec.Network sz cs x (fun n => (out n).1) (fun n => (out n).2) i a b c d := by
  have ex : ∀ n, ∃ p q s i y0 y1 y2 l0 l1 l2 l3 r0 r1 r2 r3 : ℝ,
      ((T n).i0.setLen (sz.input 0)).process (x n) (cs n).diffusion = .ok ((T (n + 1)).i0, p) ∧ ((T n).i1.setLen (sz.input 1)).process p (cs n).diffusion = .ok ((T (n + 1)).i1, q) ∧
      ((T n).i2.setLen (sz.input 2)).process q (cs n).diffusion = .ok ((T (n + 1)).i2, s) ∧ ((T n).i3.setLen (sz.input 3)).process s (cs n).diffusion = .ok ((T (n + 1)).i3, i) ∧
      (T n).z0.process sz (cs n) 0 i (T n).state = .ok ((T (n + 1)).z0, y0, l0, r0) ∧ (T n).z1.process sz (cs n) 1 i y0 = .ok ((T (n + 1)).z1, y1, l1, r1) ∧
      (T n).z2.process sz (cs n) 2 i y1 = .ok ((T (n + 1)).z2, y2, l2, r2) ∧ (T n).z3.process sz (cs n) 3 i y2 = .ok ((T (n + 1)).z3, (T (n + 1)).state, l3, r3) ∧
      (out n).1 = l0 * tapGain 0 + l1 * tapGain 1 + l2 * tapGain 2 + l3 * tapGain 3 ∧ (out n).2 = r0 * tapGain 0 + r1 * tapGain 1 + r2 * tapGain 2 + r3 * tapGain 3 := by
    intro n
    have h := run.step n
    unfold Tank.sample at h
    obtain ⟨⟨i0, x0⟩, d0, h⟩ := bind_ok h
    obtain ⟨⟨i1, x1⟩, d1, h⟩ := bind_ok h
    obtain ⟨⟨i2, x2⟩, d2, h⟩ := bind_ok h
    obtain ⟨⟨i3, x3⟩, d3, h⟩ := bind_ok h
    obtain ⟨⟨z0, y0, l0, r0⟩, f0, h⟩ := bind_ok h
    obtain ⟨⟨z1, y1, l1, r1⟩, f1, h⟩ := bind_ok h
    obtain ⟨⟨z2, y2, l2, r2⟩, f2, h⟩ := bind_ok h
    obtain ⟨⟨z3, y3, l3, r3⟩, f3, h⟩ := bind_ok h
    injection h with h
    injection h with h1 h2
    refine ⟨x0, x1, x2, x3, y0, y1, y2, l0, l1, l2, l3, r0, r1, r2, r3, ?_⟩
    rw [← h1]
    refine ⟨d0, d1, d2, d3, f0, f1, f2, f3, ?_, ?_⟩
    · rw [← h2]; ring
    · rw [← h2]; ring
  choose p q s i y0 y1 y2 l0 l1 l2 l3 r0 r1 r2 r3 d0 d1 d2 d3 f0 f1 f2 f3 ol or' using ex
  have seg : ∀ b, (1 ≤ sz.tapL b ∧ sz.tapL b ≤ 16384) ∧ (1 ≤ sz.tapR b ∧ sz.tapR b ≤ 16384) := fun b => ⟨⟨(ht b).1, (ht b).2.1⟩, (ht b).2.2⟩
  obtain ⟨a, A, a'⟩ := segment_is (Z := fun n => (T n).z0) (x := fun n => (T n).state) (by rw [run.start]; rfl) f0 (seg 0).1 (seg 0).2 (fun n => hm n 0)
  obtain ⟨b, B, b'⟩ := segment_is (Z := fun n => (T n).z1) (by rw [run.start]; rfl) f1 (seg 1).1 (seg 1).2 (fun n => hm n 1)
  obtain ⟨c, C, c'⟩ := segment_is (Z := fun n => (T n).z2) (by rw [run.start]; rfl) f2 (seg 2).1 (seg 2).2 (fun n => hm n 2)
  obtain ⟨d, D, d'⟩ := segment_is (Z := fun n => (T n).z3) (y := fun n => (T (n + 1)).state) (by rw [run.start]; rfl) f3 (seg 3).1 (seg 3).2 (fun n => hm n 3)
  have st : ∀ n, (T n).state = Spec.ago (fun m => (cs m).decay * Spec.between d m (sz.delay 3) ((cs m).modulation 3)) n 1 :=
    pos_of_state (s := fun n => (T n).state) (by rw [run.start]; rfl) fun n => (d' n).1
  refine ⟨i, a, b, c, d, ⟨⟨p, q, s, ?_, ?_, ?_, ?_⟩, ?_, ?_, ?_, ?_, ?_, ?_⟩⟩
  · exact diffuser_is (S := fun n => (T n).i0) (by rw [run.start]; rfl) d0
  · exact diffuser_is (S := fun n => (T n).i1) (by rw [run.start]; rfl) d1
  · exact diffuser_is (S := fun n => (T n).i2) (by rw [run.start]; rfl) d2
  · exact diffuser_is (S := fun n => (T n).i3) (by rw [run.start]; rfl) d3
  · simp only [st] at A; exact A
  · simp only [(a' _).1] at B; exact B
  · simp only [(b' _).1] at C; exact C
  · simp only [(c' _).1] at D; exact D
  · intro n; rw [ol, (a' n).2.1, (b' n).2.1, (c' n).2.1, (d' n).2.1]; simp [tapGain]; ring
  · intro n; rw [or', (a' n).2.2, (b' n).2.2, (c' n).2.2, (d' n).2.2]; simp [tapGain]; ring

theorem fin4v2 (a b c d : ℝ) : ![a, b, c, d] 2 = c := rfl
theorem fin4v3 (a b c d : ℝ) : ![a, b, c, d] 3 = d := rfl

/-- The hypotheses hold for the effect's own sizes at 44.1 kHz and room size 1, with the modulation within ±10 samples; and the tank runs on every input. -/
example (cs : ℕ → Coefs) (x : ℕ → ℝ) (h : ∀ n b, |(cs n).modulation b| ≤ 2560) : ∃ T out i a b c d,
    Spec.TankRun (fun _ => calcSize 44100 1) cs x T out ∧ Spec.Network (calcSize 44100 1) cs x (fun n => (out n).1) (fun n => (out n).2) i a b c d := by
  obtain ⟨f, g⟩ := C155_sizes (sr := 44100) (m := 1) (by norm_num) (by norm_num)
  obtain ⟨T, out, run⟩ := C154_total (fun _ => calcSize 44100 1) cs x fun _ => f
  have lo : ∀ b, 12 ≤ (calcSize 44100 1).delay b ∧ (calcSize 44100 1).delay b ≤ 16374 := by
    refine fin4 ?_ ?_ ?_ ?_
    all_goals
      simp only [calcSize]
      constructor
      · exact_mod_cast le_ms (n := 12) (by norm_num [fin4v2, fin4v3])
      · exact_mod_cast ms_le (n := 16374) (by norm_num) (by norm_num [fin4v2, fin4v3])
  obtain ⟨i, a, b, c, d, net⟩ := C263_network run (fun b => ⟨(g b).2.2.1, (g b).2.2.2.1, (g b).2.2.2.2.1, (g b).2.2.2.2.2⟩) (fun n b => by
    have := lo b
    have := abs_le.1 (h n b)
    omega)
  exact ⟨T, out, i, a, b, c, d, run, net⟩

end Verif.Effects.Allpass
