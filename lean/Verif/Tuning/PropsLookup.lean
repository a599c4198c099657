import Verif.Tuning.Lookup
import Verif.Tuning.PropsRetune
/-!
# C27, C41, C43: pitch lookups
-/
namespace Verif.Tuning
open Verif.Float Spec

theorem add256 {q : ℚ} (h1 : -2 ^ 62 ≤ q) (h2 : q ≤ 2 ^ 62) : F32.add (.fin q) (.fin 256) = .fin (rne (q + 256)) :=
  F32.ofQ_fin (by norm_num at *; linarith) (by norm_num at *; linarith)

theorem rne_range {q : ℚ} (h1 : -2 ^ 62 ≤ q) (h2 : q ≤ 2 ^ 62) :
    -2 ^ 62 ≤ rne (q + 256) ∧ rne (q + 256) < 2 ^ 63 - 1 := by
  have e62 : (2:ℚ) ^ 62 = 2 ^ (62:ℤ) := by norm_cast
  have a := rne_mono (show -(2:ℚ) ^ 62 ≤ q + 256 by linarith)
  rw [e62, rne_neg, rne_zpow (by norm_num), ← e62] at a
  have hb : q + 256 ≤ ((2 ^ 23 + 1 : ℤ) : ℚ) * 2 ^ (39 : ℤ) := by
    have : ((2 ^ 23 + 1 : ℤ) : ℚ) * 2 ^ (39 : ℤ) = 2 ^ 62 + 2 ^ 39 := by norm_num
    rw [this]; norm_num at *; linarith
  have b := rne_mono hb
  rw [rne_mul_zpow _ _ (by norm_num) (by norm_num)] at b
  refine ⟨a, lt_of_le_of_lt b (by norm_num)⟩

/-- Index and weight, as far as the integer arithmetic: everything before the clamp. -/
theorem lookup_parts {q : ℚ} (h1 : -2 ^ 62 ≤ q) (h2 : q ≤ 2 ^ 62) :
    toI64 (F32.add (.fin q) (.fin 256)) = F32.truncQ (rne (q + 256)) ∧
    F32.sub (F32.add (.fin q) (.fin 256)) (F32.ofInt (F32.truncQ (rne (q + 256)))) =
      .fin (rne (q + 256) - F32.truncQ (rne (q + 256))) := by
  obtain ⟨r1, r2⟩ := rne_range h1 h2
  rw [add256 h1 h2]
  set x := rne (q + 256) with hx
  have hab := F32.abs_truncQ_le x
  have hxa : |x| ≤ 2 ^ 63 - 1 := by rw [abs_le]; constructor <;> norm_num at * <;> linarith
  have ht : |(F32.truncQ x : ℚ)| ≤ 2 ^ 63 - 1 := hab.trans hxa
  have hti : |F32.truncQ x| ≤ 2 ^ 63 - 1 := by exact_mod_cast ht
  rw [abs_le] at hti
  obtain ⟨hr1, hr2⟩ := F32.rne_trunc (q + 256)
  rw [← hx] at hr1 hr2
  constructor
  · unfold toI64 F32.toIntSat
    simp only
    rw [min_eq_right (by omega), max_eq_right (by omega)]
  · have e : F32.ofInt (F32.truncQ x) = .fin (F32.truncQ x) := by
      unfold F32.ofInt
      rw [abs_le] at ht
      rw [F32.ofQ_fin (by norm_num at *; linarith) (by norm_num at *; linarith), hr1]
    rw [e]
    show F32.ofQ (x + -(F32.truncQ x : ℚ)) = _
    rw [← sub_eq_add_neg, F32.ofQ_fin, hr2]
    · rw [abs_le] at ht; norm_num at *; linarith
    · rw [abs_le] at ht; norm_num at *; linarith

/-- **C27 (inside the table)**: whatever `f32` is passed (NaN and infinities included), if the lookup returns then both
entries it reads are inside the 512-entry table and the weight is in `[0, 1)`. -/
theorem C27_reads_inside_table (cl : Bool) (x : F32) (a b : ℕ) (w : ℚ) (h : lookup cl x = .ok (a, b, w)) :
    a < 512 ∧ b < 512 ∧ 0 ≤ w ∧ w < 1 := by
  unfold lookup at h
  dsimp only at h
  split at h
  · rename_i q _
    split at h
    · rename_i hw
      simp only [weightOk, Bool.and_eq_true, decide_eq_true_eq] at hw
      injection h with h
      simp only [Prod.mk.injEq] at h
      obtain ⟨rfl, rfl, rfl⟩ := h
      exact ⟨by omega, by omega, hw⟩
    · cases h
  · cases h

/-- **C27 (which entries)**: for every note from −256 up, the lookup succeeds and reads the entries `k`, `k+1` where
`k` is the integer part of the (rounded) table position, capped at 510, with the fractional part as the weight. -/
theorem C27_lookup_entries (cl : Bool) (q : ℚ) (h1 : -256 ≤ q) (h2 : q ≤ 2 ^ 62) :
    let x := rne (q + 256)
    lookup cl (.fin q) = .ok (min ⌊x⌋.toNat 510, min ⌊x⌋.toNat 510 + 1, x - ⌊x⌋) := by
  intro x
  obtain ⟨p1, p2⟩ := lookup_parts (q := q) (by norm_num at *; linarith) h2
  have hx0 : 0 ≤ x := rne_nonneg (by linarith)
  have htr : F32.truncQ x = ⌊x⌋ := by unfold F32.truncQ; rw [if_pos hx0]
  unfold lookup
  dsimp only
  rw [p1, p2]
  show (if weightOk (.fin (x - F32.truncQ x)) = true then _ else _) = _
  rw [show F32.truncQ (rne (q + 256)) = ⌊x⌋ from htr]
  have hf0 := Int.floor_le x
  have hf1 := Int.lt_floor_add_one x
  have hfl : 0 ≤ ⌊x⌋ := Int.floor_nonneg.mpr hx0
  rw [if_pos (by simp only [weightOk, Bool.and_eq_true, decide_eq_true_eq]; constructor <;> linarith)]
  have hn : ¬ (⌊x⌋ < 0) := by omega
  simp only [hn, decide_false, Bool.and_false, Bool.false_eq_true, if_false]
  split <;> · congr 3 <;> omega

/-- **C27 (interpolation)**: for every note of the table proper — from −256 to just under 255 — `note_to_pitch` returns
a value between two *neighbouring* entries, at the note's own position up to `f32` rounding of the position. -/
theorem C27_interpolates_partial (t : Tuner) (q : ℚ) (h1 : -256 ≤ q) (h2 : q ≤ 255 - 2 ^ (-15 : ℤ)) :
    ∃ (k : ℕ) (w : ℚ), k + 1 < 512 ∧ 0 ≤ w ∧ w < 1 ∧ |(k + w) - (q + 256)| ≤ 2 ^ (-15 : ℤ) ∧
      n2p t (.fin q) = .ok ((1 - (w : ℝ)) * t.table k + (w : ℝ) * t.table (k + 1)) ∧
      n2pinv t (.fin q) = .ok ((1 - (w : ℝ)) * t.tableInv k + (w : ℝ) * t.tableInv (k + 1)) := by
  have hs : (0:ℚ) < 2 ^ (-15 : ℤ) := two_zpow_pos _
  have h62 : q ≤ 2 ^ 62 := by norm_num at *; linarith
  have hl := C27_lookup_entries false q h1 h62
  dsimp only at hl
  set x := rne (q + 256) with hx
  have hx0 : 0 ≤ x := rne_nonneg (by linarith)
  have hx1 : x < 511 := by
    have : q + 256 ≤ ((511 * 2 ^ 15 - 1 : ℤ) : ℚ) * 2 ^ (-15 : ℤ) := by
      have : ((511 * 2 ^ 15 - 1 : ℤ) : ℚ) * 2 ^ (-15 : ℤ) = 511 - 2 ^ (-15 : ℤ) := by norm_num
      rw [this]; linarith
    have := rne_mono this
    rw [rne_mul_zpow _ _ (by norm_num) (by norm_num)] at this
    refine lt_of_le_of_lt this (by norm_num)
  have hfl : 0 ≤ ⌊x⌋ := Int.floor_nonneg.mpr hx0
  have hfu : ⌊x⌋ < 511 := by rw [Int.floor_lt]; exact_mod_cast hx1
  have hf0 := Int.floor_le x
  have hf1 := Int.lt_floor_add_one x
  have hmin : min ⌊x⌋.toNat 510 = ⌊x⌋.toNat := by omega
  rw [hmin] at hl
  refine ⟨⌊x⌋.toNat, x - ⌊x⌋, by omega, by linarith, by linarith, ?_, ?_, ?_⟩
  · have e : ((⌊x⌋.toNat : ℕ) : ℚ) = ⌊x⌋ := by exact_mod_cast Int.toNat_of_nonneg hfl
    rw [e, add_sub_cancel]
    refine (abs_rne_sub_le' _).trans ?_
    have : |q + 256| ≤ 511 := by rw [abs_le]; constructor <;> linarith
    calc |q + 256| * 2 ^ (-24 : ℤ) + 2 ^ (-150 : ℤ) ≤ 511 * 2 ^ (-24 : ℤ) + 2 ^ (-150 : ℤ) := by
          have := mul_le_mul_of_nonneg_right this (two_zpow_pos (-24)).le
          linarith
      _ ≤ _ := by norm_num
  · unfold n2p; rw [hl]; rfl
  · unfold n2pinv; rw [hl]; rfl

/-- **C27 (top of the table)**: at 255 and every whole note above, the entry read is 510 — note 254's — although the
values just below 255 approach entry 511. -/
theorem C27_top_reads_510 (t : Tuner) (n : ℕ) (h1 : 255 ≤ n) (h2 : n ≤ 2 ^ 23) :
    n2p t (.fin n) = .ok (t.table 510) := by
  have hl := C27_lookup_entries false (n : ℚ) (by
    have : (0:ℚ) ≤ n := by positivity
    linarith) (by
    have : (n : ℚ) ≤ 2 ^ 23 := by exact_mod_cast h2
    norm_num at *; linarith)
  have e : rne ((n : ℚ) + 256) = ((n + 256 : ℕ) : ℚ) := by
    rw [← rne_natCast (n + 256) (by omega)]; push_cast; rfl
  dsimp only at hl
  rw [e, Int.floor_natCast, min_eq_right (by simp; omega), Int.cast_natCast, sub_self] at hl
  unfold n2p; rw [hl]
  simp [lerpR]

/-- **C27 (below the table)**: a note below −256 whose rounded position is not a whole number makes every lookup panic;
a whole one makes `n2p`/`n2pinv` wrap around to the top of the table, while `note_to_omega` reads entry 0. -/
theorem C27_below_table (q : ℚ) (h1 : -2 ^ 62 ≤ q) (hx : rne (q + 256) < 0) :
    (∀ k : ℤ, rne (q + 256) = k →
      lookup false (.fin q) = .ok ((k % 512).toNat, ((k + 1) % 512).toNat, 0) ∧
      lookup true (.fin q) = .ok (0, 1, 0)) ∧
    ((∀ k : ℤ, rne (q + 256) ≠ k) → ∀ cl, (lookup cl (.fin q)).isPanic = true) := by
  have h2 : q ≤ 2 ^ 62 := by
    by_contra hc
    have : 0 ≤ rne (q + 256) := rne_nonneg (by norm_num at *; linarith)
    linarith
  obtain ⟨p1, p2⟩ := lookup_parts h1 h2
  constructor
  · intro k hk
    rw [hk] at hx p1 p2
    rw [F32.truncQ_intCast] at p1 p2
    have hk0 : k < 0 := by exact_mod_cast hx
    unfold lookup
    dsimp only
    rw [p1, p2, sub_self]
    have hn : ¬ (k > 0x1fe) := by omega
    simp [weightOk, hk0, hn]
  · intro hne cl
    unfold lookup
    dsimp only
    rw [p1, p2]
    set x := rne (q + 256)
    have hb := (F32.truncQ_bounds x).2 hx
    have hlt : x - F32.truncQ x < 0 := by
      have := lt_of_le_of_ne hb.1 (hne _)
      linarith
    simp [weightOk, not_le.mpr hlt, Res.isPanic]

/-- **C27 (non-finite notes)**: NaN and the infinities panic in every lookup. -/
theorem C27_nonfinite_panics (cl : Bool) (x : F32) (h : x = .nan ∨ x = .pinf ∨ x = .ninf) :
    (lookup cl x).isPanic = true := by
  have e : ∀ n : ℤ, (∃ r, F32.ofInt n = .fin r) ∨ F32.ofInt n = .pinf ∨ F32.ofInt n = .ninf := by
    intro n
    unfold F32.ofInt F32.ofQ
    split
    · right; left; rfl
    · split
      · right; right; rfl
      · left; exact ⟨_, rfl⟩
  unfold lookup
  dsimp only
  rcases h with rfl | rfl | rfl
  · simp [F32.add, F32.sub, Res.isPanic]
  · rcases e (toI64 (F32.add .pinf (.fin 256))) with ⟨r, h⟩ | h | h <;> rw [h] <;>
      simp [F32.add, F32.sub, F32.neg, Res.isPanic]
  · rcases e (toI64 (F32.add .ninf (.fin 256))) with ⟨r, h⟩ | h | h <;> rw [h] <;>
      simp [F32.add, F32.sub, F32.neg, Res.isPanic]

/-- **C41 (part)**: the reported scale length is right for scales of at most 127 tones.  Missing: longer scales, for which
the claim is false (next theorem). -/
theorem C41_scale_count_partial (sc : Scale) (h : sc.count ≤ 127) : currentScaleCount sc = .ok sc.count := by
  unfold currentScaleCount
  rw [if_pos (by omega)]

/-- **C41 fails**: for every scale of 128 tones or more the call panics. -/
theorem C41_long_scale_panics (sc : Scale) (h : 128 ≤ sc.count) : (currentScaleCount sc).isPanic = true := by
  unfold currentScaleCount
  rw [if_neg (by omega)]; rfl

example : currentScaleCount edo12 = .ok 12 ∧ (currentScaleCount ⟨128, List.replicate 128 1⟩).isPanic = true :=
  ⟨C41_scale_count_partial _ (by decide), C41_long_scale_panics _ (by decide)⟩

theorem whole_lookup (n : ℤ) (h1 : -256 ≤ n) (h2 : n ≤ 254) (cl : Bool) :
    lookup cl (.fin n) = .ok ((n + 256).toNat, (n + 256).toNat + 1, 0) := by
  have a : (-256 : ℚ) ≤ n := by exact_mod_cast h1
  have b : (n : ℚ) ≤ 254 := by exact_mod_cast h2
  have hl := C27_lookup_entries cl (n : ℚ) a (by norm_num; linarith)
  have e : rne ((n : ℚ) + 256) = ((n + 256 : ℤ) : ℚ) := by
    rw [← rne_intCast (n + 256) (by rw [abs_le]; constructor <;> omega)]; push_cast; rfl
  dsimp only at hl
  rw [e, Int.floor_intCast, sub_self, min_eq_left (by omega)] at hl
  exact hl

/-- **C27 (whole notes)**: a whole note from −256 to 254 reads exactly its own entry. -/
theorem C27_whole_notes_partial (t : Tuner) (n : ℤ) (h1 : -256 ≤ n) (h2 : n ≤ 254) :
    n2p t (.fin n) = .ok (t.table (n + 256).toNat) ∧ n2pinv t (.fin n) = .ok (t.tableInv (n + 256).toNat) := by
  have hl := whole_lookup n h1 h2 false
  unfold n2p n2pinv
  rw [hl]
  simp [lerpR]

/-- **C43 (what holds)**: `n2p_tuningctr` of note 0 is exactly 1 in every tuner whose reference entry is the reference
pitch; **(what does not)**: `n2pinv_tuningctr` of note 0 is `1/pitch²`, not `1`. -/
theorem C43_tuning_centre_partial (t : Tuner) (h1 : -256 ≤ t.mapping.tuningNote) (h2 : t.mapping.tuningNote ≤ 254)
    (hp : 0 < t.pitch) (href : t.table (256 + t.mapping.tuningNote).toNat = t.pitch)
    (hinv : ∀ i < 512, t.tableInv i = 1 / t.table i) :
    n2pTuningCtr t (.fin 0) = .ok 1 ∧ n2pinvTuningCtr t (.fin 0) = .ok (1 / t.pitch ^ 2) := by
  have e : F32.add (.fin 0) (F32.ofInt t.mapping.tuningNote) = .fin (t.mapping.tuningNote : ℚ) := by
    have ha : |t.mapping.tuningNote| ≤ 2 ^ 24 := by rw [abs_le]; constructor <;> omega
    rw [F32.ofInt_eq ha]
    show F32.ofQ (0 + (t.mapping.tuningNote : ℚ)) = _
    rw [zero_add]
    exact F32.ofInt_eq ha
  obtain ⟨a, b⟩ := C27_whole_notes_partial t _ h1 h2
  have ec : t.mapping.tuningNote + 256 = 256 + t.mapping.tuningNote := by ring
  rw [ec] at a b
  have hi := hinv (256 + t.mapping.tuningNote).toNat (by omega)
  rw [href] at hi a
  rw [hi] at b
  have hne := hp.ne'
  constructor
  · unfold n2pTuningCtr; rw [e, a]
    simp only [Res.ok_bind, Res.pure_eq]
    congr 1; field_simp
  · unfold n2pinvTuningCtr; rw [e, b]
    simp only [Res.ok_bind, Res.pure_eq]
    congr 1; field_simp

/-- Non-vacuity of C43: the freshly initialised tuner. -/
theorem fresh_reference : Tuner.fresh.table (256 + Tuner.fresh.mapping.tuningNote).toNat = Tuner.fresh.pitch := by
  have : (256 + Tuner.fresh.mapping.tuningNote).toNat = 316 := rfl
  rw [this]
  show (2 : ℝ) ^ ((((316 : ℕ) : ℝ) - 256) * (1 / 12)) = 32
  have : ((((316 : ℕ) : ℝ) - 256) * (1 / 12)) = (5 : ℝ) := by norm_num
  rw [this]; norm_num

example : n2pTuningCtr Tuner.fresh (.fin 0) = .ok 1 ∧ n2pinvTuningCtr Tuner.fresh (.fin 0) = .ok (1 / 32 ^ 2) :=
  C43_tuning_centre_partial Tuner.fresh (by simp [Tuner.fresh, Mapping.default]) (by simp [Tuner.fresh, Mapping.default])
    (by simp [Tuner.fresh]) fresh_reference (fun _ _ => rfl)

/-- Non-vacuity of the below-table case: note −300 wraps to entries 468 and 469. -/
example : lookup false (.fin (-300)) = .ok (468, 469, 0) := by
  have e : rne ((-300 : ℚ) + 256) = ((-44 : ℤ) : ℚ) := by
    rw [← rne_intCast (-44) (by norm_num)]; norm_num
  have := ((C27_below_table (-300) (by norm_num) (by rw [e]; norm_num)).1 (-44) e).1
  simpa using this

end Verif.Tuning
