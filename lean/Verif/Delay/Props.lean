import Verif.Delay.Model
import Mathlib.Data.Nat.Prime.Basic
/-!
# The interpolating delay lines play back what was written (C86)
-/
namespace Verif.Delay
open Verif Verif.Float Verif.Tables Verif.Dsp

/-! ## Specification -/

/-- Sample number `t` of a signal given as a list of blocks of `N` samples (the first block starts at 0); silence
outside. -/
def Spec.sampleAt {α : Type} (N : Nat) (zero : α) (blocks : List (Nat → α)) (t : Int) : α :=
  if 0 ≤ t then match blocks[(t / N).toNat]? with
    | some b => b (t % N).toNat
    | none => zero
  else zero

/-- Kernel row `row` applied to twelve samples, in the order of the SSE code. -/
def Spec.fir (kern : Nat → F32) (row : Nat) (x : Nat → F32) : F32 :=
  let p i := F32.mul (kern (12 * row + i)) (x i)
  let lane j := F32.add (F32.add (p j) (p (j + 4))) (p (j + 8))
  F32.add (F32.add (lane 0) (lane 2)) (F32.add (lane 1) (lane 3))

/-- The blocks of a signal written in turn. -/
def Line.run {α : Type} (N : Nat) : List (Nat → α) → Line α → Res Empty (Line α)
  | [], s => .ok s
  | b :: bs, s => s.write N b >>= fun s => Line.run N bs s

/-! ## Writing -/

theorem foldl_upd {α : Type} (f : Nat → Nat) (g : Nat → α) : ∀ (n : Nat) (m : Nat → α) (j : Nat),
    (∀ a b, a < n → b < n → f a = f b → a = b) →
    (∀ k, k < n → f k = j → (List.range n).foldl (fun m k => upd m (f k) (g k)) m j = g k) ∧
    ((∀ k, k < n → f k ≠ j) → (List.range n).foldl (fun m k => upd m (f k) (g k)) m j = m j) := by
  intro n
  induction n with
  | zero => intro m j _; exact ⟨fun k hk => absurd hk (Nat.not_lt_zero k), fun _ => rfl⟩
  | succ n ih =>
    intro m j inj
    rw [List.range_succ, List.foldl_append]
    have ih' := ih m j (fun a b ha hb => inj a b (by omega) (by omega))
    simp only [List.foldl_cons, List.foldl_nil]
    unfold upd at ih' ⊢
    refine ⟨fun k hk e => ?_, fun h => ?_⟩
    · by_cases hkn : j = f n
      · rw [if_pos hkn]
        have := inj k n hk (by omega) (by omega)
        rw [this]
      · rw [if_neg hkn]
        have : k ≠ n := by rintro rfl; exact hkn e.symm
        exact ih'.1 k (by omega) e
    · rw [if_neg (fun e => h n (by omega) e.symm)]
      exact ih'.2 (fun k hk => h k (by omega))

/-- What one write leaves in the buffer. -/
theorem write_spec {α : Type} {N : Nat} (h32 : 32 ≤ N) (hN : N ∣ 2 ^ 18) (wet : Nat → α) (s : Line α) (w : Nat)
    (hw : s.wpos = w) (hd : N ∣ w) (hl : w < 2 ^ 18) (hm : ∀ i, i < 12 → s.buf (2 ^ 18 + i) = s.buf i) :
    ∃ s', s.write N wet = .ok s' ∧ s'.wpos = ((w + N) % 2 ^ 18 : Nat) ∧
      (∀ j, j < 2 ^ 18 → s'.buf j = if w ≤ j ∧ j < w + N then wet (j - w) else s.buf j) ∧
      (∀ i, i < 12 → s'.buf (2 ^ 18 + i) = s'.buf i) ∧ (∀ j, 2 ^ 18 + 12 ≤ j → s'.buf j = s.buf j) := by
  have hNL : N ≤ 2 ^ 18 := Nat.le_of_dvd (by norm_num) hN
  have hle : w + N ≤ 2 ^ 18 := by
    obtain ⟨a, ha⟩ := hN
    obtain ⟨b, rfl⟩ := hd
    have : b < a := by
      by_contra h
      have := Nat.mul_le_mul_left N (Nat.le_of_not_lt h)
      omega
    have := Nat.mul_le_mul_left N (show b + 1 ≤ a by omega)
    rw [Nat.mul_add] at this
    omega
  have h4 : (N / 4) * 4 = N ∧ (N / 4) % 8 = 0 := by
    have : 32 ∣ N := by
      obtain ⟨k, hk, rfl⟩ := (Nat.dvd_prime_pow Nat.prime_two).mp hN
      have : 5 ≤ k := by
        by_contra h
        have := Nat.pow_le_pow_right (show 0 < 2 by norm_num) (show k ≤ 4 by omega)
        omega
      exact pow_dvd_pow 2 this
    omega
  have ec : (chkI32 (s.wpos + N) : Res Empty Int) = .ok ((w + N : Nat) : Int) := by
    unfold chkI32; rw [if_pos (by rw [hw]; omega), hw]; push_cast; rfl
  unfold Line.write
  rw [ec]
  simp only [Res.ok_bind]
  refine ⟨_, rfl, ?_, ?_⟩
  · dsimp only
    rw [show maxDelay - 1 = 2 ^ 18 - 1 from rfl, index_eq _ 18 (by norm_num)]
    omega
  · -- the block is where it belongs
    have key : ∀ j, (if (maxDelay : Int) ≤ ((w + N : Nat) : Int) then wrapLoop N wet s.wpos s.buf
        else atBase s.wpos.toNat (copyBlock wet (N / 4)) s.buf) j = if w ≤ j ∧ j < w + N then wet (j - w) else s.buf j := by
      intro j
      by_cases hc : (maxDelay : Int) ≤ ((w + N : Nat) : Int)
      · rw [if_pos hc]
        unfold wrapLoop
        have ei : ∀ k, k < N → index (s.wpos + (k : Int)) (maxDelay - 1) = w + k := by
          intro k hk
          rw [show maxDelay - 1 = 2 ^ 18 - 1 from rfl, index_eq _ 18 (by norm_num), hw]
          omega
        have := foldl_upd (fun k => index (s.wpos + (k : Int)) (maxDelay - 1)) wet N s.buf j
          (fun a b ha hb e => by rw [ei a ha, ei b hb] at e; omega)
        by_cases hj : w ≤ j ∧ j < w + N
        · rw [if_pos hj]
          exact this.1 (j - w) (by omega) (by rw [ei _ (by omega)]; omega)
        · rw [if_neg hj]
          exact this.2 (fun k hk => by rw [ei k hk]; omega)
      · rw [if_neg hc]
        unfold atBase
        rw [hw]
        have cw := (C58_unrolled_partial (N / 4) (fun t => s.buf ((w : Int).toNat + t))).1 h4.2 wet
        rw [h4.1] at cw
        have ew : ((w : Int).toNat) = w := by omega
        rw [ew] at cw ⊢
        by_cases hj : w ≤ j
        · rw [if_pos hj]
          by_cases hj2 : j < w + N
          · rw [if_pos ⟨hj, hj2⟩]; exact (cw (j - w)).1 (by omega)
          · rw [if_neg (by omega), (cw (j - w)).2 (by omega)]
            show s.buf (w + (j - w)) = s.buf j
            rw [Nat.add_sub_cancel' hj]
        · rw [if_neg hj, if_neg (by omega)]
    generalize (if (maxDelay : Int) ≤ ((w + N : Nat) : Int) then wrapLoop N wet s.wpos s.buf
        else atBase s.wpos.toNat (copyBlock wet (N / 4)) s.buf) = m at key
    dsimp only
    by_cases h0 : s.wpos = 0
    · have hw0 : w = 0 := by omega
      rw [if_pos h0]
      -- the mirror
      have mir : ∀ n, n ≤ 12 → ∀ j, (List.range n).foldl (fun m k => upd m (k + maxDelay) (m k)) m j =
          if 2 ^ 18 ≤ j ∧ j < 2 ^ 18 + n then m (j - 2 ^ 18) else m j := by
        intro n
        induction n with
        | zero => intro _ j; rw [if_neg (by omega)]; rfl
        | succ n ih =>
          intro hn j
          rw [List.range_succ, List.foldl_append]
          simp only [List.foldl_cons, List.foldl_nil]
          have i1 := ih (by omega) j
          have i2 := ih (by omega) n
          rw [if_neg (by omega)] at i2
          unfold upd at i1 i2 ⊢
          have em : maxDelay = 2 ^ 18 := rfl
          by_cases hj : j = n + maxDelay
          · rw [if_pos hj, i2, if_pos (by omega), show j - 2 ^ 18 = n from by omega]
          · rw [if_neg hj, i1]
            by_cases hj2 : 2 ^ 18 ≤ j ∧ j < 2 ^ 18 + n
            · rw [if_pos hj2, if_pos (by omega)]
            · rw [if_neg hj2, if_neg (by omega)]
      have mir := mir 12 (le_refl _)
      unfold mirrorLoop
      rw [show firN = 12 from rfl]
      refine ⟨fun j hj => ?_, fun i hi => ?_, fun j hj => ?_⟩
      · rw [mir, if_neg (by omega), key]
      · rw [mir, mir, if_pos (by omega), if_neg (by omega), Nat.add_sub_cancel_left]
      · rw [mir, if_neg (by omega), key, if_neg (by omega)]
    · rw [if_neg h0]
      have hw32 : 32 ≤ w := by
        have : N ≤ w := Nat.le_of_dvd (by omega) hd
        omega
      refine ⟨fun j hj => key j, fun i hi => ?_, fun j hj => ?_⟩
      · rw [key, key, if_neg (by omega), if_neg (by omega), hm i hi]
      · rw [key, if_neg (by omega)]

/-- The buffer holds the last 2^18 samples of the signal. -/
def Holds {α : Type} (N : Nat) (zero : α) (blocks : List (Nat → α)) (s : Line α) : Prop :=
  s.wpos = ((N * blocks.length) % 2 ^ 18 : Nat) ∧
  (∀ t : Int, (N * blocks.length : Nat) - 2 ^ 18 ≤ t → t < (N * blocks.length : Nat) →
    s.buf (t % 2 ^ 18).toNat = Spec.sampleAt N zero blocks t) ∧
  (∀ i, i < 12 → s.buf (2 ^ 18 + i) = s.buf i)

theorem sampleAt_append {α : Type} {N : Nat} (hN : 0 < N) (zero : α) (bs : List (Nat → α)) (b : Nat → α) (t : Int) :
    (t < (N * bs.length : Nat) → Spec.sampleAt N zero (bs ++ [b]) t = Spec.sampleAt N zero bs t) ∧
    (∀ k, k < N → Spec.sampleAt N zero (bs ++ [b]) ((N * bs.length : Nat) + k) = b k) := by
  constructor
  · intro h
    unfold Spec.sampleAt
    by_cases h0 : 0 ≤ t
    · rw [if_pos h0, if_pos h0]
      have : (t / N).toNat < bs.length := by
        obtain ⟨n, rfl⟩ := Int.eq_ofNat_of_zero_le h0
        rw [← Int.natCast_ediv, Int.toNat_natCast]
        rw [Nat.div_lt_iff_lt_mul hN, Nat.mul_comm]
        exact_mod_cast h
      rw [List.getElem?_append_left this]
    · rw [if_neg h0, if_neg h0]
  · intro k hk
    unfold Spec.sampleAt
    rw [if_pos (by omega)]
    have e1 : (((N * bs.length : Nat) + (k : Int)) / (N : Int)).toNat = bs.length := by
      rw [← Int.natCast_add, ← Int.natCast_ediv, Int.toNat_natCast, Nat.mul_add_div hN, Nat.div_eq_of_lt hk, Nat.add_zero]
    have e2 : (((N * bs.length : Nat) + (k : Int)) % (N : Int)).toNat = k := by
      rw [← Int.natCast_add, ← Int.natCast_emod, Int.toNat_natCast, Nat.mul_add_mod, Nat.mod_eq_of_lt hk]
    rw [e1, e2, List.getElem?_append_right (le_refl _)]
    simp

theorem run_append {α : Type} (N : Nat) : ∀ (bs cs : List (Nat → α)) (s : Line α),
    Line.run N (bs ++ cs) s = Line.run N bs s >>= fun s => Line.run N cs s := by
  intro bs
  induction bs with
  | nil => intro cs s; simp [Line.run]
  | cons b bs ih =>
    intro cs s
    simp only [List.cons_append, Line.run]
    cases h : s.write N b with
    | ok s' => simp only [Res.ok_bind]; exact ih cs s'
    | err e => exact e.elim
    | panic m => rfl

/-- Any number of blocks can be written, and the buffer then holds the end of the signal. -/
theorem run_holds {α : Type} {N : Nat} (h32 : 32 ≤ N) (hN : N ∣ 2 ^ 18) (zero : α) (blocks : List (Nat → α)) :
    ∃ s, Line.run N blocks (Line.init zero) = .ok s ∧ Holds N zero blocks s := by
  induction blocks using List.reverseRecOn with
  | nil =>
    refine ⟨_, rfl, ?_, ?_, ?_⟩
    · rfl
    · intro t h1 h2
      simp only [List.length_nil, Nat.mul_zero] at h1 h2
      unfold Spec.sampleAt
      rw [if_neg (by omega)]; rfl
    · intro i _; rfl
  | append_singleton bs b ih =>
    obtain ⟨s, hs, hw, hh, hm⟩ := ih
    set T := N * bs.length with hT
    have hdw : N ∣ T % 2 ^ 18 := (Nat.dvd_mod_iff hN).mpr (Dvd.intro _ rfl)
    obtain ⟨s', e', w', b', m', -⟩ := write_spec h32 hN b s (T % 2 ^ 18) hw hdw (Nat.mod_lt _ (by norm_num)) hm
    have hle : T % 2 ^ 18 + N ≤ 2 ^ 18 := by
      have hl : T % 2 ^ 18 < 2 ^ 18 := Nat.mod_lt _ (by norm_num)
      obtain ⟨a, ha⟩ := hN
      obtain ⟨c, hc⟩ := hdw
      have : c < a := by
        by_contra h
        have := Nat.mul_le_mul_left N (Nat.le_of_not_lt h)
        omega
      have := Nat.mul_le_mul_left N (show c + 1 ≤ a by omega)
      rw [Nat.mul_add] at this
      omega
    refine ⟨s', ?_, ?_, ?_, m'⟩
    · rw [run_append, hs]; simp only [Res.ok_bind, Line.run]; rw [e']; rfl
    · rw [w', List.length_append, List.length_singleton, Nat.mul_add, Nat.mul_one, ← hT, Nat.mod_add_mod]
    · intro t h1 h2
      rw [List.length_append, List.length_singleton, Nat.mul_add, Nat.mul_one, ← hT] at h1 h2
      rw [b' _ (by omega)]
      by_cases ht : t < (T : Int)
      · rw [(sampleAt_append (by omega) zero bs b t).1 ht, ← hh t (by omega) ht, if_neg (by omega)]
      · obtain ⟨k, hk⟩ := Int.eq_ofNat_of_zero_le (show 0 ≤ t - T by omega)
        have e : t = (T : Int) + k := by omega
        rw [e, (sampleAt_append (by omega) zero bs b t).2 k (by omega), if_pos (by omega)]
        congr 1; omega

/-! ## Reading -/

/-- Twelve samples read at a position inside the supported delays. -/
theorem taps {α : Type} {N : Nat} (hN : 0 < N) (zero : α) {blocks : List (Nat → α)} {s : Line α} (h : Holds N zero blocks s)
    {dt : Int} (h1 : N ≤ dt) (h2 : dt ≤ 2 ^ 18 - 13) {k : Nat} (hk : k < N) (rp : Nat)
    (hr : rp = ((s.wpos - dt + k - 12) % 2 ^ 18).toNat) (i : Nat) (hi : i < 12) :
    rp + i < lineLen ∧ s.buf (rp + i) = Spec.sampleAt N zero blocks ((N * blocks.length : Nat) + k - dt - 12 + i) := by
  obtain ⟨hw, hh, hm⟩ := h
  have el : lineLen = 2 ^ 18 + 12 := rfl
  generalize N * blocks.length = T at *
  have hrp : (rp : Int) = ((T : Int) + k - dt - 12) % 2 ^ 18 := by rw [hr, hw]; omega
  refine ⟨by omega, ?_⟩
  rw [← hh ((T : Int) + k - dt - 12 + i) (by omega) (by omega)]
  by_cases hc : rp + i < 2 ^ 18
  · have e : rp + i = (((T : Int) + k - dt - 12 + i) % 2 ^ 18).toNat := by omega
    rw [e]
  · have := hm (rp + i - 2 ^ 18) (by omega)
    have e1 : 2 ^ 18 + (rp + i - 2 ^ 18) = rp + i := by omega
    have e : rp + i - 2 ^ 18 = (((T : Int) + k - dt - 12 + i) % 2 ^ 18).toNat := by omega
    rw [e1, e] at this
    exact this

theorem load_ok {α : Type} {len : Nat} {m : Nat → α} {i : Nat} (h : i < len) : load len m i = .ok (m i) := by
  unfold load; rw [if_pos h]

theorem load4_ok {len : Nat} {m : Nat → F32} {i : Nat} (h : i + 4 ≤ len) :
    load4 len m i = .ok (fun j => match j with | 0 => m i | 1 => m (i + 1) | 2 => m (i + 2) | _ => m (i + 3)) := by
  unfold load4
  rw [load_ok (by omega), load_ok (by omega), load_ok (by omega), load_ok (by omega)]
  rfl

theorem firLanes_ok (kern : Nat → F32) (buf : Nat → F32) {row : Nat} (hrow : row ≤ 255) {r : Nat} (x : Nat → F32)
    (hr : ∀ i, i < 12 → r + i < lineLen ∧ buf (r + i) = x i) :
    ∃ l, firLanes kern buf (12 * row) r = .ok l ∧ sumPs l = Spec.fir kern row x ∧
      (∀ j, j < 4 → l j = F32.add (F32.add (F32.mul (kern (12 * row + j)) (x j)) (F32.mul (kern (12 * row + (j + 4))) (x (j + 4))))
        (F32.mul (kern (12 * row + (j + 8))) (x (j + 8)))) := by
  have hb := (hr 11 (by omega)).1
  have ek : kernelLen = 3084 := rfl
  have e : firLanes kern buf (12 * row) r = .ok (add4 (add4
      (mul4 (fun j => match j with | 0 => kern (12 * row) | 1 => kern (12 * row + 1) | 2 => kern (12 * row + 2) | _ => kern (12 * row + 3))
        (fun j => match j with | 0 => buf r | 1 => buf (r + 1) | 2 => buf (r + 2) | _ => buf (r + 3)))
      (mul4 (fun j => match j with | 0 => kern (12 * row + 4) | 1 => kern (12 * row + 4 + 1) | 2 => kern (12 * row + 4 + 2) | _ => kern (12 * row + 4 + 3))
        (fun j => match j with | 0 => buf (r + 4) | 1 => buf (r + 4 + 1) | 2 => buf (r + 4 + 2) | _ => buf (r + 4 + 3))))
      (mul4 (fun j => match j with | 0 => kern (12 * row + 8) | 1 => kern (12 * row + 8 + 1) | 2 => kern (12 * row + 8 + 2) | _ => kern (12 * row + 8 + 3))
        (fun j => match j with | 0 => buf (r + 8) | 1 => buf (r + 8 + 1) | 2 => buf (r + 8 + 2) | _ => buf (r + 8 + 3)))) := by
    unfold firLanes sincProduct
    rw [load4_ok (by omega), load4_ok (by omega), load4_ok (by omega), load4_ok (by omega), load4_ok (by omega), load4_ok (by omega)]
    rfl
  have hx : ∀ i, i < 12 → buf (r + i) = x i := fun i hi => (hr i hi).2
  have x0 : buf r = x 0 := hx 0 (by omega)
  refine ⟨_, e, ?_, ?_⟩
  · unfold sumPs Spec.fir add4 mul4
    simp only [Nat.add_assoc, Nat.reduceAdd, hx, x0, Nat.lt_add_one, Nat.reduceLT, Nat.add_zero, Nat.zero_add]
  · intro j hj
    unfold add4 mul4
    match j, hj with
    | 0, _ => simp only [hx, x0, Nat.reduceLT, Nat.add_zero, Nat.zero_add]
    | 1, _ => simp only [Nat.add_assoc, Nat.reduceAdd, hx, Nat.reduceLT]
    | 2, _ => simp only [Nat.add_assoc, Nat.reduceAdd, hx, Nat.reduceLT]
    | 3, _ => simp only [Nat.add_assoc, Nat.reduceAdd, hx, Nat.reduceLT]

/-! ## The delay time and the kernel row -/

theorem delayTime_range {N : Nat} (hN : N ≤ 2 ^ 18 - 13) (v : F32) : (N : Int) ≤ delayTime N v ∧ delayTime N v ≤ 2 ^ 18 - 13 := by
  unfold delayTime
  have : ((maxDelay - firN - 1 : Nat) : Int) = 2 ^ 18 - 13 := rfl
  omega

theorem toI32_fin {q : ℚ} (h0 : 0 ≤ q) (h1 : q < 2 ^ 31) : (F32.fin q).toI32 = ⌊q⌋ := by
  have tq : F32.truncQ q = ⌊q⌋ := by unfold F32.truncQ; rw [if_pos h0]
  unfold F32.toI32 F32.toIntSat
  dsimp only
  rw [tq]
  have a : 0 ≤ ⌊q⌋ := Int.floor_nonneg.mpr h0
  have b : ⌊q⌋ < 2 ^ 31 := Int.floor_lt.mpr (by exact_mod_cast h1)
  omega

/-- The distance to the next integer is exact. -/
theorem comp_exact {v : ℚ} (iv : Param.Spec.IsF32 v) (h1 : 1 ≤ v) (j : Nat) (hj : j ≤ 8) :
    rne (2 ^ j * ((⌊v⌋ : ℚ) + 1 - v)) = 2 ^ j * ((⌊v⌋ : ℚ) + 1 - v) := by
  obtain ⟨n, e, hn, he, hv⟩ := rne_form v
  rw [show rne v = v from iv] at hv
  have fl := Int.floor_le v
  have fl' := Int.lt_floor_add_one v
  have pj : ∀ x : ℚ, (2:ℚ) ^ j * x = x * 2 ^ (j : ℤ) := by intro x; rw [zpow_natCast]; ring
  by_cases he0 : 0 ≤ e
  · obtain ⟨m, rfl⟩ := Int.eq_ofNat_of_zero_le he0
    have : v = ((n * 2 ^ m : ℤ) : ℚ) := by rw [hv]; push_cast; rw [zpow_natCast]
    rw [this, Int.floor_intCast]
    rw [show ((n * 2 ^ m : ℤ) : ℚ) + 1 - ((n * 2 ^ m : ℤ) : ℚ) = ((1 : ℤ) : ℚ) by push_cast; ring, pj]
    exact rne_mul_zpow 1 j (by norm_num) (by omega)
  · obtain ⟨m, hm⟩ := Int.eq_ofNat_of_zero_le (show 0 ≤ -e by omega)
    have ee : e = -(m : ℤ) := by omega
    subst ee
    have p2 : (0:ℚ) < 2 ^ m := by positivity
    have hvm : v * 2 ^ m = n := by
      rw [hv, zpow_neg, zpow_natCast]; field_simp
    have nb : (n : ℚ) ≤ 2 ^ 24 := by
      have := (abs_le.mp hn).2
      exact_mod_cast this
    have mle : m ≤ 24 := by
      by_contra h
      have : (2:ℚ) ^ 25 ≤ 2 ^ m := pow_le_pow_right₀ (by norm_num) (by omega)
      have h3 : (2:ℚ) ^ m ≤ v * 2 ^ m := le_mul_of_one_le_left p2.le h1
      rw [hvm] at h3
      have h4 : (2:ℚ) ^ 24 < 2 ^ 25 := by norm_num
      linarith
    have pm : (2:ℤ) ^ m ≤ 2 ^ 24 := pow_le_pow_right₀ (by norm_num) mle
    have ed : (⌊v⌋ : ℚ) + 1 - v = ((((⌊v⌋ + 1) * 2 ^ m - n : ℤ)) : ℚ) * 2 ^ (-(m : ℤ)) := by
      push_cast
      rw [← hvm, zpow_neg, zpow_natCast]
      field_simp
    have q0 : (0 : ℚ) < (((⌊v⌋ + 1) * 2 ^ m - n : ℤ) : ℚ) := by
      push_cast; rw [← hvm, ← sub_mul]; exact mul_pos (by linarith) p2
    have q1 : (((⌊v⌋ + 1) * 2 ^ m - n : ℤ) : ℚ) ≤ ((2 ^ m : ℤ) : ℚ) := by
      push_cast; rw [← hvm, ← sub_mul]
      have := mul_le_mul_of_nonneg_right (show (⌊v⌋ : ℚ) + 1 - v ≤ 1 by linarith) p2.le
      linarith
    have q0' : 0 < (⌊v⌋ + 1) * 2 ^ m - n := by exact_mod_cast q0
    have q1' : (⌊v⌋ + 1) * 2 ^ m - n ≤ 2 ^ m := by exact_mod_cast q1
    rw [pj, ed, mul_assoc, ← zpow_add₀ (by norm_num)]
    exact rne_mul_zpow _ _ (by rw [abs_of_pos q0']; linarith) (by omega)

/-- The kernel row of the specification: the fractional position in 256 steps, of which the last is never used. -/
def Spec.row (v : ℚ) : Int := min 255 ⌊256 * ((⌊v⌋ : ℚ) + 1 - v)⌋

theorem fracPos_eq {v : ℚ} (iv : Param.Spec.IsF32 v) (h1 : 1 ≤ v) (h2 : v < 2 ^ 20) :
    fracPos ⌊v⌋ (.fin v) = .fin (256 * ((⌊v⌋ : ℚ) + 1 - v)) := by
  have f0 : 0 ≤ ⌊v⌋ := Int.floor_nonneg.mpr (by linarith)
  have f1 : ⌊v⌋ < 2 ^ 20 := by rw [Int.floor_lt]; push_cast; exact h2
  have fl := Int.floor_le v
  have fl' := Int.lt_floor_add_one v
  have e0 := comp_exact iv h1 0 (by omega)
  have e8 := comp_exact iv h1 8 (by omega)
  rw [pow_zero, one_mul] at e0
  have q1 : (⌊v⌋ : ℚ) < 2 ^ 20 := by exact_mod_cast f1
  have q0 : (0:ℚ) ≤ ⌊v⌋ := by exact_mod_cast f0
  unfold fracPos
  rw [F32.ofInt_eq (by rw [abs_of_nonneg (by omega)]; omega), Param.sub_fin, show ((⌊v⌋ + 1 : ℤ) : ℚ) - v = (⌊v⌋ : ℚ) + 1 - v by push_cast; ring, e0, Param.mul_fin]
  · rw [show (256:ℚ) = 2 ^ 8 by norm_num, e8]
  · rw [abs_of_nonneg (mul_nonneg (by norm_num) (by linarith))]; norm_num; linarith
  · push_cast; rw [abs_of_nonneg (by linarith)]; norm_num at *; linarith
  · rw [abs_of_nonneg (by linarith)]; norm_num at *; linarith

theorem row_bounds {v : ℚ} : 0 ≤ Spec.row v ∧ Spec.row v ≤ 255 := by
  have fl := Int.lt_floor_add_one v
  unfold Spec.row
  have : 0 ≤ ⌊256 * ((⌊v⌋ : ℚ) + 1 - v)⌋ := Int.floor_nonneg.mpr (mul_nonneg (by norm_num) (by linarith))
  omega

theorem dualSinc_row (dt : Int) (v : F32) : ∃ row, row ≤ 255 ∧ dualSinc dt v = 12 * row := by
  unfold dualSinc limitRangeI
  refine ⟨(max (min (fracPos dt v).toI32 255) 0).toNat, ?_, ?_⟩ <;> omega

theorem dualSinc_eq {v : ℚ} (iv : Param.Spec.IsF32 v) (h1 : 1 ≤ v) (h2 : v < 2 ^ 20) :
    dualSinc ⌊v⌋ (.fin v) = 12 * (Spec.row v).toNat := by
  have fl := Int.floor_le v
  have fl' := Int.lt_floor_add_one v
  have rb := @row_bounds v
  unfold dualSinc limitRangeI
  rw [fracPos_eq iv h1 h2, toI32_fin (mul_nonneg (by norm_num) (by linarith)) (by norm_num; linarith)]
  unfold Spec.row at rb ⊢
  omega

theorem limit_row {z : Int} (h1 : -2147483648 ≤ z) (h2 : z ≤ 2147483647) :
    (limitRange (F32.ofInt z) (.fin 0) (.fin 255)).toUsize = (max (min z 255) 0).toNat := by
  have q1 : (-2147483648 : ℚ) ≤ z := by exact_mod_cast h1
  have q2 : (z : ℚ) ≤ 2147483647 := by exact_mod_cast h2
  have hf : F32.ofInt z = .fin (rne z) := F32.ofQ_fin (by linarith [show (2:ℚ) ^ 100 ≥ 2147483648 by norm_num])
    (by linarith [show (2:ℚ) ^ 100 ≥ 2147483648 by norm_num])
  rw [(C61_limit_range (F32.ofInt z) (lo := 0) (hi := 255) (by norm_num)).2.1 _ hf]
  have us : ∀ n : Int, 0 ≤ n → n ≤ 255 → (F32.fin (n : ℚ)).toUsize = n.toNat := by
    intro n a b
    unfold F32.toUsize F32.toIntSat
    dsimp only
    rw [F32.truncQ_intCast]
    congr 1; omega
  have r255 : rne 255 = 255 := by simpa using rne_intCast 255 (by norm_num)
  unfold Spec.clamp
  rcases le_or_gt z 0 with hz | hz
  · have : rne z ≤ 0 := by
      have := rne_mono (show (z : ℚ) ≤ 0 by exact_mod_cast hz)
      rwa [rne_zero] at this
    have e : (if rne (z : ℚ) < 0 then (0:ℚ) else if 255 < rne (z : ℚ) then 255 else rne z) = ((0 : Int) : ℚ) := by
      rcases this.lt_or_eq with h | h
      · rw [if_pos h]; rfl
      · rw [h]; norm_num
    rw [e, us 0 (by omega) (by omega)]
    omega
  · rcases le_or_gt z 255 with hy | hy
    · have ez : rne (z : ℚ) = z := rne_intCast z (by rw [abs_of_pos hz]; omega)
      have a : ¬ ((z : ℚ) < 0) := by have : (0:ℚ) < z := by exact_mod_cast hz
                                     linarith
      have b : ¬ (255 < (z : ℚ)) := by have : (z : ℚ) ≤ 255 := by exact_mod_cast hy
                                       linarith
      rw [ez, if_neg a, if_neg b, us z (by omega) hy]
      omega
    · have : 255 ≤ rne z := by
        have := rne_mono (show (255 : ℚ) ≤ z by exact_mod_cast hy.le)
        rwa [r255] at this
      have e : (if rne (z : ℚ) < 0 then (0:ℚ) else if 255 < rne (z : ℚ) then 255 else rne z) = ((255 : Int) : ℚ) := by
        rw [if_neg (by linarith)]
        rcases this.lt_or_eq with h | h
        · rw [if_pos h]; rfl
        · rw [← h]; norm_num
      rw [e, us 255 (by omega) (by omega)]
      omega

theorem chorusSinc_eq (dt : Int) (v : F32) : chorusSinc dt v = dualSinc dt v := by
  unfold chorusSinc dualSinc limitRangeI
  have r := toI32_range (fracPos dt v)
  rw [limit_row r.1 r.2]
  omega

end Verif.Delay
