import Verif.Rust
import Verif.Dsp.Clip
import Verif.Dsp.Absmax
import Verif.Param.Props
/-!
# The output stage of the synthesizer

Models the end of `SurgeSynthesizer::process` (surge-synthesizer/src/synth/process.rs 461-487), the halted engine
(319-327, 381-384) and the meter registers of surge-output/src/handle.rs.  Samples are `f32` bit patterns, because the
meter works on bit patterns; what the scenes, the effects and the two gain stages leave in the output buffer is arbitrary.
-/
namespace Verif.Synth
open Verif Verif.Dsp Verif.Float

/-- The `f32` a bit pattern stands for. (Simplification of `F32`: the two zeros are one value.) -/
def decode (bits : Nat) : F32 :=
  if bits / 2 ^ 23 % 256 = 255 then
    (if bits % 2 ^ 23 = 0 then (if bits / 2 ^ 31 % 2 = 1 then .ninf else .pinf) else .nan)
  else .fin (Dsp.Spec.value bits)

/-- `minps` on patterns: the first operand if it is less, else the second. -/
def minB (a b : Nat) : Nat := if F32.lt (decode a) (decode b) then a else b
/-- `maxps` on patterns: the first operand if it is greater, else the second. -/
def maxB (a b : Nat) : Nat := if F32.lt (decode b) (decode a) then a else b
/-- hardclip.rs 74-84: a lane of `hardclip_block8` on patterns; 0x41000000 is 8.0, 0xc1000000 is -8.0. -/
def clip8B (x : Nat) : Nat := maxB (minB x 0x41000000) 0xc1000000

/-- ord.rs 21-23 `minf`: `std::cmp::min` in the order of `FloatOrd`, in which NaN is the largest. (A NaN of negative sign,
the smallest, is not distinguished; the meter never holds one, see `C184_meter_range`.) -/
def minf (a b : F32) : F32 :=
  match a, b with
  | .nan, b => b
  | a, .nan => a
  | a, b => if F32.lt b a then b else a
/-- ord.rs 11-13 `maxf`. -/
def maxf (a b : F32) : F32 :=
  match a, b with
  | .nan, _ => .nan
  | _, .nan => .nan
  | a, b => if F32.lt b a then a else b

/-- surge-output/src/handle.rs 5-10: the two output rows (32 samples each) and the two meters in use. -/
structure Out where
  /-- row 0 -/
  l : Nat → Nat
  /-- row 1 -/
  r : Nat → Nat
  /-- `vu_peak[0]` -/
  vu0 : F32
  /-- `vu_peak[1]` -/
  vu1 : F32

/-- handle.rs 12-23 `default`. -/
def Out.fresh : Out := ⟨fun _ => 0, fun _ => 0, .fin 0, .fin 0⟩

/-- surge-samplerate/src/unit.rs 39: the literal 0.997 rounded to `f32`. -/
def falloff : F32 := F32.ofQ (997 / 1000)

/-- process.rs 466-481: one meter, `peak` being what `get_absmax` returns. -/
def meter (v : F32) (peak : F32) : F32 := maxf (minf (.fin 2) (F32.mul falloff v)) peak

/-- process.rs 461-487: meters, then `hardclip_block8` over 8 quads of both rows. -/
def Out.finish (o : Out) : Out :=
  ⟨clipBlock clip8B 8 o.l, clipBlock clip8B 8 o.r, meter o.vu0 (decode (getAbsmax o.l 8)), meter o.vu1 (decode (getAbsmax o.r 8))⟩

/-- process.rs 319-327 `do_halt`: `clear_block` over 8 quads of both rows; the meters are not touched. -/
def Out.halt (o : Out) : Out := ⟨clearBlock 0 8 o.l, clearBlock 0 8 o.r, o.vu0, o.vu1⟩

/-- process.rs 378-488 as far as the output is concerned. `rest` is all that happens before line 461: it leaves anything in
the rows and does not touch the meters. -/
def Out.process (halted : Bool) (rest : (Nat → Nat) × (Nat → Nat)) (o : Out) : Out :=
  if halted then o.halt else Out.finish ⟨rest.1, rest.2, o.vu0, o.vu1⟩

/-- A history of blocks. -/
def Out.run (o : Out) : List (Bool × (Nat → Nat) × (Nat → Nat)) → Out
  | [] => o
  | b :: bs => (o.process b.1 b.2).run bs

/-! ## Lemmas -/

theorem decode_fin {b : Nat} (h : Dsp.Spec.finite b) : decode b = .fin (Dsp.Spec.value b) := by
  unfold decode; rw [if_neg h.2]

theorem decode_8 : decode 0x41000000 = .fin 8 := by
  rw [decode_fin ⟨by norm_num, by norm_num⟩]; congr 1; norm_num [Dsp.Spec.value]
theorem decode_m8 : decode 0xc1000000 = .fin (-8) := by
  rw [decode_fin ⟨by norm_num, by norm_num⟩]; congr 1; norm_num [Dsp.Spec.value]

theorem decode_clip8B (x : Nat) : decode (clip8B x) = hardclip8 (decode x) := by
  have h1 : decode (minB x 0x41000000) = minSs (decode x) (.fin 8) := by
    unfold minB minSs; rw [decode_8]; split_ifs <;> first | rfl | exact decode_8
  unfold clip8B hardclip8
  rw [← h1]
  generalize minB x 0x41000000 = y
  unfold maxB maxSs
  rw [decode_m8]; split_ifs <;> first | rfl | exact decode_m8

theorem clip8B_id {x : Nat} {q : ℚ} (h : decode x = .fin q) (h1 : -8 < q) (h2 : q < 8) : clip8B x = x := by
  have e : minB x 0x41000000 = x := by unfold minB; rw [decode_8, h]; simp [F32.lt, h2]
  unfold clip8B; rw [e]; unfold maxB; rw [decode_m8, h]; simp [F32.lt, h1]

theorem and_le_mask (b : Nat) : b &&& maskAbsval ≤ maskAbsval := Nat.and_le_right

theorem absmax_bound (mem : Nat → Nat) : getAbsmax mem 8 ≤ maskAbsval := absmax_le fun _ _ => and_le_mask _

theorem decode_absmax (mem : Nat → Nat) : ∃ q, decode (getAbsmax mem 8) = .fin q ∧ 0 ≤ q ∧ q ≤ 2 ^ 31 ∧
    q = Dsp.Spec.value (getAbsmax mem 8) := by
  have h : getAbsmax mem 8 ≤ 0x4f000000 := absmax_bound mem
  have hlt : getAbsmax mem 8 < 2 ^ 31 := by omega
  have hf : Dsp.Spec.finite (getAbsmax mem 8) := ⟨by omega, by omega⟩
  refine ⟨_, decode_fin hf, ?_, ?_, rfl⟩
  · rw [value_of_lt hlt]; exact posValue_nonneg _
  · rw [value_of_lt hlt]
    refine le_trans (posValue_mono h) ?_
    norm_num [posValue]

theorem falloff_eq : ∃ f, falloff = .fin f ∧ 0 ≤ f ∧ f ≤ 1 ∧ |f - 997 / 1000| ≤ 1 / 2 ^ 24 := by
  refine ⟨rne (997 / 1000), F32.ofQ_fin (by norm_num) (by norm_num), rne_nonneg (by norm_num), ?_, ?_⟩
  · have := rne_mono (show (997 / 1000 : ℚ) ≤ ((1 : ℤ) : ℚ) by norm_num)
    rwa [rne_intCast 1 (by norm_num), Int.cast_one] at this
  · have h := abs_rne_sub_le' (997 / 1000 : ℚ)
    have h2 : |(997 / 1000 : ℚ)| * 2 ^ (-24 : ℤ) + 2 ^ (-150 : ℤ) ≤ 1 / 2 ^ 24 := by
      rw [abs_of_nonneg (by norm_num)]
      norm_num
    exact le_trans h h2

theorem minf_fin (a b : ℚ) : minf (.fin a) (.fin b) = .fin (min a b) := by
  show (if F32.lt (.fin b) (.fin a) = true then F32.fin b else F32.fin a) = _
  by_cases h : b < a
  · rw [if_pos (show F32.lt (.fin b) (.fin a) = true from decide_eq_true h), min_eq_right h.le]
  · rw [if_neg (show ¬ F32.lt (.fin b) (.fin a) = true from fun c => h (of_decide_eq_true c)), min_eq_left (not_lt.mp h)]

theorem maxf_fin (a b : ℚ) : maxf (.fin a) (.fin b) = .fin (max a b) := by
  show (if F32.lt (.fin b) (.fin a) = true then F32.fin a else F32.fin b) = _
  by_cases h : b < a
  · rw [if_pos (show F32.lt (.fin b) (.fin a) = true from decide_eq_true h), max_eq_left h.le]
  · rw [if_neg (show ¬ F32.lt (.fin b) (.fin a) = true from fun c => h (of_decide_eq_true c)), max_eq_right (not_lt.mp h)]

/-- A meter that holds a number `v ≥ 0` and sees the peak `p`. -/
theorem meter_step {v p : ℚ} (hv : 0 ≤ v) (hv2 : v ≤ 2 ^ 31) : ∃ f, falloff = .fin f ∧ 0 ≤ f ∧ f ≤ 1 ∧
    meter (.fin v) (.fin p) = .fin (max (min 2 (rne (f * v))) p) := by
  obtain ⟨f, hf, f0, f1, -⟩ := falloff_eq
  refine ⟨f, hf, f0, f1, ?_⟩
  have hm : f * v ≤ 2 ^ 100 := by nlinarith
  have h0 : 0 ≤ f * v := mul_nonneg f0 hv
  have e : F32.mul falloff (.fin v) = .fin (rne (f * v)) := by
    rw [hf]; exact F32.ofQ_fin (by linarith [show (0:ℚ) ≤ 2 ^ 100 by norm_num]) hm
  unfold meter
  rw [e]
  rw [minf_fin, maxf_fin]

/-! ## Specification -/

/-- `x` is a number between 0 and `hi`. -/
def Spec.Reads (hi : ℚ) (x : F32) : Prop := ∃ q, x = .fin q ∧ 0 ≤ q ∧ q ≤ hi

/-- All 32 samples of the row are numbers of size less than two: ordinary audio, twice full scale included. -/
def Spec.Ordinary (row : Nat → Nat) : Prop := ∀ s, s < 32 → |Dsp.Spec.value (row s)| < 2

/-! ## C183 -/

/-- C183. After every call of `process` that renders a block, whatever was left in the output buffer - infinities and NaN
included - all 32 samples of both rows are numbers in [-8, 8], a number within (-8, 8) is delivered unchanged bit for bit,
and memory behind the rows is untouched. A halted engine delivers zeros. -/
theorem C183_output (o : Out) (rest : (Nat → Nat) × (Nat → Nat)) (s : Nat) (hs : s < 32) :
    (Dsp.Spec.In (-8) 8 (decode ((o.process false rest).l s)) ∧ Dsp.Spec.In (-8) 8 (decode ((o.process false rest).r s))) ∧
    (∀ q, decode (rest.1 s) = .fin q → -8 < q → q < 8 → (o.process false rest).l s = rest.1 s) ∧
    (∀ q, decode (rest.2 s) = .fin q → -8 < q → q < 8 → (o.process false rest).r s = rest.2 s) ∧
    decode ((o.process true rest).l s) = .fin 0 ∧ decode ((o.process true rest).r s) = .fin 0 := by
  have hl := ((C58_unrolled_partial 8 rest.1).2.2.1 rfl clip8B s).1 (by omega)
  have hr := ((C58_unrolled_partial 8 rest.2).2.2.1 rfl clip8B s).1 (by omega)
  have el : (o.process false rest).l s = clip8B (rest.1 s) := hl
  have er : (o.process false rest).r s = clip8B (rest.2 s) := hr
  have zl := (C58_clear (0:Nat) 8 o.l s).1 (by omega)
  have zr := (C58_clear (0:Nat) 8 o.r s).1 (by omega)
  have d0 : decode 0 = .fin 0 := by rw [decode_fin ⟨by norm_num, by norm_num⟩]; congr 1; norm_num [Dsp.Spec.value]
  refine ⟨⟨?_, ?_⟩, ?_, ?_, ?_, ?_⟩
  · rw [el, decode_clip8B]; exact (C61_hardclip _).2.1
  · rw [er, decode_clip8B]; exact (C61_hardclip _).2.1
  · intro q h h1 h2; rw [el, clip8B_id h h1 h2]
  · intro q h h1 h2; rw [er, clip8B_id h h1 h2]
  · rw [show (o.process true rest).l s = 0 from zl, d0]
  · rw [show (o.process true rest).r s = 0 from zr, d0]

/-- A NaN in the buffer leaves the synthesizer as the loudest sample there is, +8. -/
theorem C183_nan_is_loud (o : Out) (rest : (Nat → Nat) × (Nat → Nat)) (s : Nat) (hs : s < 32) (h : decode (rest.1 s) = .nan) :
    decode ((o.process false rest).l s) = .fin 8 := by
  have hl := ((C58_unrolled_partial 8 rest.1).2.2.1 rfl clip8B s).1 (by omega)
  have el : (o.process false rest).l s = clip8B (rest.1 s) := hl
  rw [el, decode_clip8B, h]
  simp [hardclip8, minSs, maxSs, F32.lt]

/-- Non-vacuity: 0x7fc00000 is a NaN, 0x3f800000 is one, 0x42000000 is 32, which is clipped. -/
example : decode 0x7fc00000 = .nan ∧ decode 0x3f800000 = .fin 1 ∧ clip8B 0x3f800000 = 0x3f800000 ∧ clip8B 0x42000000 = 0x41000000 := by
  decide +kernel

/-! ## C184 -/

theorem run_reads (bs : List (Bool × (Nat → Nat) × (Nat → Nat))) : ∀ (o : Out) (_ : Spec.Reads (2 ^ 31) o.vu0) (_ : Spec.Reads (2 ^ 31) o.vu1),
    Spec.Reads (2 ^ 31) (o.run bs).vu0 ∧ Spec.Reads (2 ^ 31) (o.run bs).vu1 := by
  have step : ∀ (v : F32) (row : Nat → Nat), Spec.Reads (2 ^ 31) v → Spec.Reads (2 ^ 31) (meter v (decode (getAbsmax row 8))) := by
    rintro v row ⟨q, rfl, q0, q1⟩
    obtain ⟨p, hp, p0, p1, -⟩ := decode_absmax row
    obtain ⟨f, -, f0, f1, e⟩ := meter_step (p := p) q0 q1
    rw [hp, e]
    refine ⟨_, rfl, le_trans p0 (le_max_right _ _), max_le (le_trans (min_le_left _ _) (by norm_num)) p1⟩
  induction bs with
  | nil => intro o h0 h1; exact ⟨h0, h1⟩
  | cons b bs ih =>
    intro o h0 h1
    unfold Out.run
    refine ih _ ?_ ?_
    · unfold Out.process; split_ifs with hb
      · exact h0
      · exact step _ _ h0
    · unfold Out.process; split_ifs with hb
      · exact h1
      · exact step _ _ h1

/-- C184, the part that holds. From a fresh instance, after any history of blocks of any content, both meters are numbers
between 0 and 2^31: never NaN, never infinite. -/
theorem C184_meter_range_partial (bs : List (Bool × (Nat → Nat) × (Nat → Nat))) :
    Spec.Reads (2 ^ 31) (Out.fresh.run bs).vu0 ∧ Spec.Reads (2 ^ 31) (Out.fresh.run bs).vu1 :=
  run_reads bs _ ⟨0, rfl, le_refl _, by norm_num⟩ ⟨0, rfl, le_refl _, by norm_num⟩

/-- C184, the part that holds. Without a new peak a meter goes down: after a block it shows at most what it showed and at most 2 unless the
block's own reading is higher, and it falls no faster than by 0.3 percent plus rounding. -/
theorem C184_falloff_partial {v p : ℚ} (hv : 0 ≤ v) (hv2 : v ≤ 2) (hf : Param.Spec.IsF32 v) : ∃ w, meter (.fin v) (.fin p) = .fin w ∧ p ≤ w ∧ w ≤ max v p ∧
    (997 / 1000 - 1 / 2 ^ 22) * v - 1 / 2 ^ 149 ≤ w := by
  obtain ⟨f, hfe, f0, f1, he⟩ := falloff_eq
  obtain ⟨f', hfe', _, _, e⟩ := meter_step (v := v) (p := p) hv (le_trans hv2 (by norm_num))
  have : f' = f := by rw [hfe] at hfe'; exact (F32.fin.inj hfe').symm
  subst this
  have hle : rne (f' * v) ≤ v := by
    have := rne_mono (show f' * v ≤ v by nlinarith)
    rwa [show rne v = v from hf] at this
  refine ⟨_, e, le_max_right _ _, max_le_max (le_trans (min_le_right _ _) hle) (le_refl _), le_trans ?_ (le_max_left _ _)⟩
  rw [min_eq_right (le_trans hle hv2)]
  have h2 := abs_rne_sub_le' (f' * v)
  rw [abs_of_nonneg (mul_nonneg f0 hv)] at h2
  have h3 := (abs_le.mp h2).1
  have h4 := (abs_le.mp he).1
  have h5 : (2:ℚ) ^ (-24 : ℤ) = 1 / 2 ^ 24 := by norm_num
  have h6 : (2:ℚ) ^ (-150 : ℤ) ≤ 1 / 2 ^ 149 := by norm_num
  rw [h5] at h3
  have h7 : (997 / 1000 - 1 / 2 ^ 24) * v ≤ f' * v := mul_le_mul_of_nonneg_right (by linarith) hv
  have h8 : f' * v * (1 / 2 ^ 24) ≤ v * (1 / 2 ^ 24) := mul_le_mul_of_nonneg_right (by nlinarith) (by norm_num)
  generalize (2:ℚ) ^ (-150 : ℤ) = z at *
  norm_num at *
  linarith

/-- C184 is false of the code: the meters do not show the level. From a fresh instance, after any history of blocks in which
all output is of size less than two - everything up to twice full scale - both meters read at most 2^-97, practically
zero, however loud the sound. -/
theorem C184_meter_refuted (bs : List (Bool × (Nat → Nat) × (Nat → Nat)))
    (h : ∀ b ∈ bs, Spec.Ordinary b.2.1 ∧ Spec.Ordinary b.2.2) :
    Spec.Reads (1 / 2 ^ 97) (Out.fresh.run bs).vu0 ∧ Spec.Reads (1 / 2 ^ 97) (Out.fresh.run bs).vu1 := by
  have step : ∀ (v : F32) (row : Nat → Nat), Spec.Ordinary row → Spec.Reads (1 / 2 ^ 97) v →
      Spec.Reads (1 / 2 ^ 97) (meter v (decode (getAbsmax row 8))) := by
    rintro v row hrow ⟨q, rfl, q0, q1⟩
    obtain ⟨p, hp, p0, -, pe⟩ := decode_absmax row
    have hp97 : p ≤ 1 / 2 ^ 97 := by rw [pe]; exact C60_meter_is_blind row 8 fun s hs => hrow s hs
    obtain ⟨f, -, f0, f1, e⟩ := meter_step (p := p) q0 (le_trans q1 (by norm_num))
    rw [hp, e]
    refine ⟨_, rfl, le_trans p0 (le_max_right _ _), max_le (le_trans (min_le_right _ _) ?_) hp97⟩
    have h1 : f * q ≤ (2:ℚ) ^ (-97 : ℤ) := by
      have : (2:ℚ) ^ (-97 : ℤ) = 1 / 2 ^ 97 := by norm_num
      rw [this]; exact le_trans (mul_le_of_le_one_left q0 f1) q1
    have := rne_mono h1
    rw [rne_zpow (by norm_num)] at this
    exact le_trans this (by norm_num)
  suffices H : ∀ (o : Out), Spec.Reads (1 / 2 ^ 97) o.vu0 → Spec.Reads (1 / 2 ^ 97) o.vu1 →
      Spec.Reads (1 / 2 ^ 97) (o.run bs).vu0 ∧ Spec.Reads (1 / 2 ^ 97) (o.run bs).vu1 from
    H _ ⟨0, rfl, le_refl _, by norm_num⟩ ⟨0, rfl, le_refl _, by norm_num⟩
  induction bs with
  | nil => intro o h0 h1; exact ⟨h0, h1⟩
  | cons b bs ih =>
    intro o h0 h1
    have hb := h b (List.mem_cons_self ..)
    unfold Out.run
    refine ih (fun c hc => h c (List.mem_cons_of_mem _ hc)) _ ?_ ?_
    · unfold Out.process; split_ifs
      · exact h0
      · exact step _ _ hb.1 h0
    · unfold Out.process; split_ifs
      · exact h1
      · exact step _ _ hb.2 h1

/-- Non-vacuity: a block of full-scale samples (1.0) is ordinary. -/
example : Spec.Ordinary (fun _ => 0x3f800000) := by
  intro s _; norm_num [Dsp.Spec.value]

/-- A halted engine freezes the meters: they keep showing the last level over silence. -/
theorem C184_halt_freezes_refuted (o : Out) (rest : (Nat → Nat) × (Nat → Nat)) (n : Nat) :
    ((o.run (List.replicate n (true, rest))).vu0 = o.vu0) ∧ (o.run (List.replicate n (true, rest))).vu1 = o.vu1 := by
  induction n generalizing o with
  | zero => exact ⟨rfl, rfl⟩
  | succ n ih => rw [List.replicate_succ]; exact ih _

end Verif.Synth
