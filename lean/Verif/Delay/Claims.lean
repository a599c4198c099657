import Verif.Delay.Props
/-!
# C86, C87: what the delay and the chorus read

`blocks` is everything written so far, 32 (or `N`) samples per block; sample 0 is the first one, and silence precedes it.
-/
namespace Verif.Delay
open Verif Verif.Float Verif.Tables Verif.Dsp

/-! ## Specification -/

/-- The whole delay and kernel row for a requested delay of `v` samples: clamped to `[N, 2^18 - 13]`, NaN counts as too
short. -/
structure Spec.Position (N : Nat) (v : F32) (dt : Int) (row : Nat) : Prop where
  inside : ∀ q : ℚ, v = .fin q → Param.Spec.IsF32 q → (N : ℚ) ≤ q → q < 2 ^ 18 - 12 → dt = ⌊q⌋ ∧ (row : Int) = Spec.row q
  short : ∀ q : ℚ, v = .fin q → q < N → dt = N
  long : ∀ q : ℚ, v = .fin q → 2 ^ 18 - 12 ≤ q → dt = 2 ^ 18 - 13
  special : (v = .nan → dt = N) ∧ (v = .ninf → dt = N) ∧ (v = .pinf → dt = 2 ^ 18 - 13)
  range : (N : Int) ≤ dt ∧ dt ≤ 2 ^ 18 - 13 ∧ row ≤ 255

/-- Lane `j` of the twelve-tap sum. -/
def Spec.lane (kern : Nat → F32) (row : Nat) (x : Nat → F32) (j : Nat) : F32 :=
  F32.add (F32.add (F32.mul (kern (12 * row + j)) (x j)) (F32.mul (kern (12 * row + (j + 4))) (x (j + 4))))
    (F32.mul (kern (12 * row + (j + 8))) (x (j + 8)))

theorem position {N : Nat} (h1 : 1 ≤ N) (hN : N ≤ 2 ^ 17) (v : F32) :
    ∃ row, dualSinc (delayTime N v) v = 12 * row ∧ Spec.Position N v (delayTime N v) row := by
  obtain ⟨row, hr, e⟩ := dualSinc_row (delayTime N v) v
  have rg := delayTime_range (N := N) (by omega) v
  have em : ((maxDelay - firN - 1 : Nat) : Int) = 2 ^ 18 - 13 := rfl
  refine ⟨row, e, ⟨?_, ?_, ?_, ⟨?_, ?_, ?_⟩, rg.1, rg.2, hr⟩⟩
  · rintro q rfl iq hq1 hq2
    have q1 : (1:ℚ) ≤ q := le_trans (by exact_mod_cast h1) hq1
    have hd : delayTime N (.fin q) = ⌊q⌋ := by
      unfold delayTime
      rw [toI32_fin (by linarith) (by norm_num at hq2 ⊢; linarith), em]
      have a : (N : Int) ≤ ⌊q⌋ := Int.le_floor.mpr (by exact_mod_cast hq1)
      have b : ⌊q⌋ < 2 ^ 18 - 12 := Int.floor_lt.mpr (by norm_num at hq2 ⊢; exact hq2)
      omega
    refine ⟨hd, ?_⟩
    rw [hd, dualSinc_eq iq q1 (by norm_num at hq2 ⊢; linarith)] at e
    have := (@row_bounds q).1
    omega
  · rintro q rfl hq
    unfold delayTime
    have : (F32.fin q).toI32 ≤ N := by
      unfold F32.toI32 F32.toIntSat F32.truncQ
      dsimp only
      have hN2 : (N : Int) ≤ 2 ^ 17 := by exact_mod_cast hN
      by_cases h0 : 0 ≤ q
      · rw [if_pos h0]
        have : ⌊q⌋ < N := Int.floor_lt.mpr (by exact_mod_cast hq)
        omega
      · rw [if_neg h0]
        have : ⌈q⌉ ≤ 0 := Int.ceil_le.mpr (by push_cast; linarith)
        omega
    omega
  · rintro q rfl hq
    unfold delayTime
    have : 2 ^ 18 - 12 ≤ (F32.fin q).toI32 := by
      unfold F32.toI32 F32.toIntSat F32.truncQ
      dsimp only
      rw [if_pos (by norm_num at hq; linarith)]
      have : 2 ^ 18 - 12 ≤ ⌊q⌋ := Int.le_floor.mpr (by norm_num at hq ⊢; exact hq)
      omega
    omega
  · rintro rfl
    have : F32.nan.toI32 = 0 := rfl
    unfold delayTime; omega
  · rintro rfl
    have : F32.ninf.toI32 = -2 ^ 31 := rfl
    unfold delayTime; omega
  · rintro rfl
    have : F32.pinf.toI32 = 2 ^ 31 - 1 := rfl
    unfold delayTime; omega

/-! ## C86: the dual delay -/

/-- C86. After any number of blocks the delay reads, for every `f32` delay (NaN and infinities included) and every sample of
the block, twelve samples that were really written, the newest of them `dt + 1` samples old: it never leaves its buffer and
never reads a sample of the current block. -/
theorem C86_dual_delay_reads_history (kern : Nat → F32) (blocks : List (Nat → F32)) (v : F32) {k : Nat} (hk : k < 32) :
    ∃ s, Line.run 32 blocks (Line.init (.fin 0)) = .ok s ∧
      ∃ dt row, Spec.Position 32 v dt row ∧
        dualRead kern s v k =
          .ok (Spec.fir kern row fun i => Spec.sampleAt 32 (.fin 0) blocks (32 * blocks.length + k - dt - 12 + i)) := by
  obtain ⟨s, hs, hh⟩ := run_holds (N := 32) (by norm_num) (by norm_num) (F32.fin 0) blocks
  refine ⟨s, hs, delayTime 32 v, ?_⟩
  obtain ⟨row, e, pos⟩ := position (N := 32) (by norm_num) (by norm_num) v
  refine ⟨row, pos, ?_⟩
  obtain ⟨r1, r2, r3⟩ := pos.range
  have hw := hh.1
  have hrp : dualReadPos s.wpos (delayTime 32 v) k = .ok (((s.wpos - delayTime 32 v + k - 12) % 2 ^ 18).toNat) := by
    unfold dualReadPos
    have ef : (firN : Int) = 12 := rfl
    have c1 : (chkI32 (s.wpos - delayTime 32 v) : Res Empty Int) = .ok (s.wpos - delayTime 32 v) := by
      unfold chkI32; rw [if_pos (by omega)]
    have c2 : (chkI32 (s.wpos - delayTime 32 v + k) : Res Empty Int) = .ok (s.wpos - delayTime 32 v + k) := by
      unfold chkI32; rw [if_pos (by omega)]
    have c3 : (chkI32 (s.wpos - delayTime 32 v + k - firN) : Res Empty Int) = .ok (s.wpos - delayTime 32 v + k - firN) := by
      unfold chkI32; rw [if_pos (by omega)]
    rw [c1]; simp only [Res.ok_bind]
    rw [c2]; simp only [Res.ok_bind]
    rw [c3]; simp only [Res.ok_bind]
    rw [show maxDelay - 1 = 2 ^ 18 - 1 from rfl, index_eq _ 18 (by norm_num), ef]
  obtain ⟨l, hl, hs2, -⟩ := firLanes_ok kern s.buf r3 (r := ((s.wpos - delayTime 32 v + k - 12) % 2 ^ 18).toNat)
    (fun i => Spec.sampleAt 32 (.fin 0) blocks (32 * blocks.length + k - delayTime 32 v - 12 + i))
    (fun i hi => by
      have := taps (by norm_num) (F32.fin 0) hh r1 r2 hk _ rfl i hi
      push_cast at this
      exact this)
  unfold dualRead
  dsimp only
  rw [hrp]
  simp only [Res.ok_bind]
  rw [e, hl]
  simp only [Res.ok_bind]
  rw [hs2]

/-- The newest of the twelve samples is older than the current block, for every position. -/
theorem C86_causal {N : Nat} {v : F32} {dt : Int} {row : Nat} (h : Spec.Position N v dt row) {k i : Nat} (hk : k < N)
    (hi : i < 12) (T : Int) : T + k - dt - 12 + i < T ∧ T - 2 ^ 18 ≤ T + k - dt - 12 + i := by
  have := h.range
  omega

/-- C86, C87. Whatever has been written before, a block of 32 (for the chorus: a power of two from 32) is stored inside the
buffer: nothing behind its last float changes. -/
theorem C86_write_in_bounds {N : Nat} (h32 : 32 ≤ N) (hN : N ∣ 2 ^ 18) (blocks : List (Nat → F32)) (wet : Nat → F32) :
    ∃ s s', Line.run N blocks (Line.init (.fin 0)) = .ok s ∧ s.write N wet = .ok s' ∧ 0 ≤ s'.wpos ∧ s'.wpos < 2 ^ 18 ∧
      ∀ j, lineLen ≤ j → s'.buf j = s.buf j := by
  obtain ⟨s, hs, hw, -, hm⟩ := run_holds h32 hN (F32.fin 0) blocks
  obtain ⟨s', e', w', -, -, k'⟩ := write_spec h32 hN wet s _ hw
    ((Nat.dvd_mod_iff hN).mpr (Dvd.intro _ rfl)) (Nat.mod_lt _ (by norm_num)) hm
  have hp : (0 : Nat) < 2 ^ 18 := by norm_num
  exact ⟨s, s', hs, e', by rw [w']; omega, by rw [w']; exact_mod_cast Nat.mod_lt _ hp, k'⟩

/-- A concrete delay: 100.25 samples use the whole delay 100 and kernel row 192 (three quarters of 256). -/
example : ∃ row, dualSinc (delayTime 32 (.fin (401 / 4))) (.fin (401 / 4)) = 12 * row ∧ delayTime 32 (.fin (401 / 4)) = 100 ∧
    row = 192 := by
  refine ⟨192, ?_, ?_, rfl⟩ <;> decide +kernel

/-! ## C87: the chorus -/

/-- The lanes of one output channel of the chorus: each voice reads at its own position and is panned. -/
def Spec.chorusLanes (kern : Nat → F32) (x : Int → Nat → F32) : List (Int × Nat × F32) → (Nat → F32) → Nat → F32
  | [], acc => acc
  | (dt, row, pan) :: rest, acc =>
    Spec.chorusLanes kern x rest (fun j => F32.add (acc j) (F32.mul (Spec.lane kern row (x dt) j) pan))

theorem index64_eq (e : Int) (k : Nat) (hk : k < 64) : index64 e (2 ^ k - 1) = (e % 2 ^ k).toNat := by
  unfold index64
  rw [BitVec.toNat_and, BitVec.toNat_ofInt, BitVec.toNat_ofNat]
  have hp : (2 : Nat) ^ k ≤ 2 ^ 63 := Nat.pow_le_pow_right (by norm_num) (by omega)
  have hpos : 0 < (2 : Nat) ^ k := Nat.two_pow_pos k
  rw [Nat.mod_eq_of_lt (show 2 ^ k - 1 < 2 ^ 64 by omega), Nat.and_two_pow_sub_one_eq_mod]
  have hd : ((2 : Int) ^ k) ∣ (2 ^ 64 : Int) := by
    refine ⟨2 ^ (64 - k), ?_⟩
    rw [← pow_add, show k + (64 - k) = 64 by omega]
  have h0 : 0 ≤ e % (2 ^ 64 : Int) := Int.emod_nonneg _ (by norm_num)
  have h1 : 0 ≤ e % 2 ^ k := Int.emod_nonneg _ (by positivity)
  zify
  rw [Int.toNat_of_nonneg h0, Int.toNat_of_nonneg h1]
  exact Int.emod_emod_of_dvd e hd

/-- C87. The same for the chorus at every block size that is a power of two from 32 to 2^17, with any number of voices and
any pan gains. -/
theorem C87_chorus_reads_history {N : Nat} (h32 : 32 ≤ N) (hN : N ∣ 2 ^ 17) (kern : Nat → F32) (blocks : List (Nat → F32))
    (vs : List (F32 × F32)) {k : Nat} (hk : k < N) :
    ∃ s, Line.run N blocks (Line.init (.fin 0)) = .ok s ∧
      ∃ ps : List (Int × Nat × F32), List.Forall₂ (fun v p => Spec.Position N v.1 p.1 p.2.1 ∧ p.2.2 = v.2) vs ps ∧
        chorusRead N kern s k vs =
          .ok (sumPs (Spec.chorusLanes kern
            (fun dt i => Spec.sampleAt N (.fin 0) blocks ((N * blocks.length : Nat) + k - dt - 12 + i)) ps (fun _ => .fin 0))) := by
  have hN18 : N ∣ 2 ^ 18 := hN.trans (by norm_num)
  have hNle : N ≤ 2 ^ 17 := Nat.le_of_dvd (by norm_num) hN
  obtain ⟨s, hs, hh⟩ := run_holds h32 hN18 (F32.fin 0) blocks
  refine ⟨s, hs, ?_⟩
  have key : ∀ (vs : List (F32 × F32)) (acc acc' : Nat → F32), (∀ j, j < 4 → acc j = acc' j) →
      ∃ ps : List (Int × Nat × F32), List.Forall₂ (fun v p => Spec.Position N v.1 p.1 p.2.1 ∧ p.2.2 = v.2) vs ps ∧
        ∃ l, chorusLoop N kern s k vs acc = .ok l ∧ ∀ j, j < 4 → l j = Spec.chorusLanes kern
            (fun dt i => Spec.sampleAt N (.fin 0) blocks ((N * blocks.length : Nat) + k - dt - 12 + i)) ps acc' j := by
    intro vs
    induction vs with
    | nil => intro acc acc' ha; exact ⟨[], .nil, acc, rfl, ha⟩
    | cons v vs ih =>
      intro acc acc' ha
      obtain ⟨row, e, pos⟩ := position (by omega) hNle v.1
      obtain ⟨r1, r2, r3⟩ := pos.range
      obtain ⟨l, hl, -, hlane⟩ := firLanes_ok kern s.buf r3 (r := ((s.wpos - delayTime N v.1 + k - 12) % 2 ^ 18).toNat)
        (fun i => Spec.sampleAt N (.fin 0) blocks ((N * blocks.length : Nat) + k - delayTime N v.1 - 12 + i))
        (fun i hi => taps (by omega) (F32.fin 0) hh r1 r2 hk _ rfl i hi)
      obtain ⟨ps, hps, l', hl', heq⟩ := ih (add4 acc (mul4 l (fun _ => v.2)))
        (fun j => F32.add (acc' j) (F32.mul (Spec.lane kern row
          (fun i => Spec.sampleAt N (.fin 0) blocks ((N * blocks.length : Nat) + k - delayTime N v.1 - 12 + i)) j) v.2))
        (fun j hj => by unfold add4 mul4; rw [ha j hj, hlane j hj]; rfl)
      refine ⟨(delayTime N v.1, row, v.2) :: ps, .cons ⟨pos, rfl⟩ hps, l', ?_, ?_⟩
      · obtain ⟨v1, pan⟩ := v
        dsimp only at *
        unfold chorusLoop chorusVoice chorusReadPos
        dsimp only
        simp only [Res.ok_bind]
        rw [chorusSinc_eq, e, show maxDelay - 1 = 2 ^ 18 - 1 from rfl, index64_eq _ 18 (by norm_num), show (firN : Int) = 12 from rfl, hl]
        simp only [Res.ok_bind]
        exact hl'
      · intro j hj; rw [heq j hj]; rfl
  obtain ⟨ps, hps, l, hl, heq⟩ := key vs (fun _ => .fin 0) (fun _ => .fin 0) (fun _ _ => rfl)
  refine ⟨ps, hps, ?_⟩
  unfold chorusRead
  rw [hl]
  simp only [Res.ok_bind]
  unfold sumPs
  rw [heq 0 (by omega), heq 1 (by omega), heq 2 (by omega), heq 3 (by omega)]

end Verif.Delay
