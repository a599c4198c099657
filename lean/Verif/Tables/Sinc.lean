import Verif.Tables.Claims
import Mathlib.Data.List.ProdSigma
import Mathlib.Analysis.SpecialFunctions.Pow.Real
import Mathlib.Analysis.Convex.SpecificFunctions.Basic
/-!
# The interpolation kernels (surge-tables/src/sinc.rs) and the accuracy of the gain table
-/
namespace Verif.Tables
open Verif Verif.Float Verif.Param Verif.Float.F32

/-- `table[i] = v`: panics out of bounds. -/
def put {α : Type} (t : List α) (i : Nat) (v : α) : Res Empty (List α) :=
  if i < t.length then .ok (t.set i v) else .panic "index out of bounds"

/-- A loop writing `table[w p] = f p table` for the `p` of a list in turn. -/
def writes {ι α : Type} (w : ι → Nat) (f : ι → List α → Res Empty α) : List ι → List α → Res Empty (List α)
  | [], t => .ok t
  | p :: L, t => f p t >>= fun v => put t (w p) v >>= fun t => writes w f L t

/-- sinc.rs 28-50: the sample values as they come from `windowed_sinc`, left open: `val`, `val1x` after the cast to `f32`, `sum16` the `f64`
value of `val + 16384.0`. -/
structure Kernel where
  val : Nat → Nat → F32
  val1x : Nat → Nat → F32
  sum16 : Nat → Nat → ℚ

/-- surge-tables/src/sinc.rs 9-13 -/
structure SincTables where
  table : List F32
  table1x : List F32
  tableI16 : List Int

/-- sinc.rs 15-23 `default`, sizes 3-5: `FIR_IPOL_M` = 256, `FIR_IPOL_N` = 12, `FIR_IPOL_I16_N` = 8 (surge-constants/src/lib.rs 66-90). -/
def SincTables.default : SincTables :=
  ⟨List.replicate ((256 + 1) * 12 * 2) (.fin 0), List.replicate ((256 + 1) * 12) (.fin 0), List.replicate ((256 + 1) * 8) 0⟩

/-- `for j in 0..m { for i in 0..n {` -/
def pairs (m n : Nat) : List (Nat × Nat) := List.range m ×ˢ List.range n

/-- sinc.rs 71 `(… as f32) as i16`. -/
def toI16 (q : ℚ) : Int := F32.toIntSat (-2 ^ 15) (2 ^ 15 - 1) (F32.ofQ q)

/-- sinc.rs 26-76 `init`. Simplification: the loop of lines 46-56 writes `table` and `table_1x` in the same pass; here in two passes. -/
def SincTables.init (k : Kernel) (s : SincTables) : Res Empty SincTables :=
  writes (fun p => p.1 * 12 * 2 + p.2) (fun p _ => .ok (k.val p.1 p.2)) (pairs (256 + 1) 12) s.table >>= fun t =>
  writes (fun p => p.1 * 12 + p.2) (fun p _ => .ok (k.val1x p.1 p.2)) (pairs (256 + 1) 12) s.table1x >>= fun t1 =>
  writes (fun p => p.1 * 12 * 2 + 12 + p.2)
    (fun p t => get t ((p.1 + 1) * 12 * 2 + p.2) >>= fun a => get t (p.1 * 12 * 2 + p.2) >>= fun b => .ok (F32.divC (F32.sub a b) 65536)) (pairs 256 12) t >>= fun t =>
  writes (fun p => p.1 * 8 + p.2) (fun p _ => .ok (toI16 (k.sum16 p.1 p.2))) (pairs (256 + 1) 8) s.tableI16 >>= fun t16 =>
  .ok ⟨t, t1, t16⟩

/-- What a loop writing each position at most once leaves, when each value depends only on positions the loop does not write. -/
theorem writes_spec {ι α : Type} (w : ι → Nat) (f : ι → List α → Res Empty α) (v : ι → α) : ∀ (L : List ι) (t : List α), (L.map w).Nodup → (∀ p ∈ L, w p < t.length) →
    (∀ p ∈ L, ∀ t' : List α, t'.length = t.length → (∀ k, k ∉ L.map w → t'[k]? = t[k]?) → f p t' = .ok (v p)) →
    ∃ t', writes w f L t = .ok t' ∧ t'.length = t.length ∧ (∀ p ∈ L, t'[w p]? = some (v p)) ∧ ∀ k, k ∉ L.map w → t'[k]? = t[k]? := by
  intro L
  induction L with
  | nil => intro t _ _ _; exact ⟨t, rfl, rfl, by simp, by simp⟩
  | cons p L ih =>
    intro t nd hb hf
    rw [List.map_cons, List.nodup_cons] at nd
    have e := hf p List.mem_cons_self t rfl (fun _ _ => rfl)
    have hp := hb p List.mem_cons_self
    obtain ⟨t', e', hl, hw, hk⟩ := ih (t.set (w p) (v p)) nd.2 (fun q hq => by rw [List.length_set]; exact hb q (List.mem_cons_of_mem _ hq)) (fun q hq t' hl hk =>
      hf q (List.mem_cons_of_mem _ hq) t' (by rw [hl, List.length_set]) (fun k hk' => by
        rw [List.map_cons, List.mem_cons] at hk'
        push Not at hk'
        rw [hk k hk'.2, List.getElem?_set_ne (Ne.symm hk'.1)]))
    refine ⟨t', ?_, by rw [hl, List.length_set], ?_, ?_⟩
    · unfold writes
      rw [e, Res.ok_bind, put, if_pos hp, Res.ok_bind]; exact e'
    · intro q hq
      rw [List.mem_cons] at hq
      rcases hq with rfl | hq
      · rw [hk _ nd.1, List.getElem?_set_self hp]
      · exact hw q hq
    · intro k hk'
      rw [List.map_cons, List.mem_cons] at hk'
      push Not at hk'
      rw [hk k hk'.2, List.getElem?_set_ne (Ne.symm hk'.1)]

theorem mem_pairs {m n : Nat} {p : Nat × Nat} : p ∈ pairs m n ↔ p.1 < m ∧ p.2 < n := by
  unfold pairs
  obtain ⟨a, b⟩ := p
  rw [List.mem_product]; simp

theorem pairs_nodup (m n : Nat) (w : Nat × Nat → Nat) (h : ∀ p q, p.1 < m → p.2 < n → q.1 < m → q.2 < n → w p = w q → p = q) : ((pairs m n).map w).Nodup := by
  refine List.Nodup.map_on ?_ (List.Nodup.product List.nodup_range List.nodup_range)
  intro p hp q hq e
  exact h p q (mem_pairs.mp hp).1 (mem_pairs.mp hp).2 (mem_pairs.mp hq).1 (mem_pairs.mp hq).2 e

/-- C78. Initialising the kernels never panics and fills them: row `j` of the table starts with its 12 samples, followed, for all but the last row, by the 12 differences to the next
row divided by 65536; the last row's differences stay as they were. The 1x table holds its 12 samples a row. -/
theorem C78_kernels_filled_partial (k : Kernel) :
    ∃ s, SincTables.init k SincTables.default = .ok s ∧ s.table.length = 6168 ∧ s.table1x.length = 3084 ∧ s.tableI16.length = 2056 ∧
      (∀ j i, j ≤ 256 → i < 12 → s.table[j * 24 + i]? = some (k.val j i) ∧ s.table1x[j * 12 + i]? = some (k.val1x j i)) ∧
      (∀ j i, j < 256 → i < 12 → s.table[j * 24 + 12 + i]? = some (F32.divC (F32.sub (k.val (j + 1) i) (k.val j i)) 65536)) ∧
      (∀ i, i < 12 → s.table[256 * 24 + 12 + i]? = some (.fin 0)) := by
  have l0 : SincTables.default.table.length = 6168 := List.length_replicate
  have l1 : SincTables.default.table1x.length = 3084 := List.length_replicate
  have l2 : SincTables.default.tableI16.length = 2056 := List.length_replicate
  obtain ⟨t, e, tl, tw, tk⟩ := writes_spec (fun p : Nat × Nat => p.1 * 12 * 2 + p.2) (fun p _ => .ok (k.val p.1 p.2)) (fun p => k.val p.1 p.2) (pairs (256 + 1) 12) SincTables.default.table
    (pairs_nodup _ _ _ (by rintro ⟨a, b⟩ ⟨c, d⟩ h1 h2 h3 h4 h; dsimp only at *; rw [Prod.mk.injEq]; omega))
    (by intro p hp; have := mem_pairs.mp hp; rw [l0]; omega) (fun _ _ _ _ _ => rfl)
  obtain ⟨t1, e1, tl1, tw1, _⟩ := writes_spec (fun p : Nat × Nat => p.1 * 12 + p.2) (fun p _ => .ok (k.val1x p.1 p.2)) (fun p => k.val1x p.1 p.2) (pairs (256 + 1) 12) SincTables.default.table1x
    (pairs_nodup _ _ _ (by rintro ⟨a, b⟩ ⟨c, d⟩ h1 h2 h3 h4 h; dsimp only at *; rw [Prod.mk.injEq]; omega))
    (by intro p hp; have := mem_pairs.mp hp; rw [l1]; omega) (fun _ _ _ _ _ => rfl)
  have notw : ∀ j i, i < 12 → j * 12 * 2 + i ∉ (pairs 256 12).map (fun p : Nat × Nat => p.1 * 12 * 2 + 12 + p.2) := by
    intro j i hi hm
    rw [List.mem_map] at hm
    obtain ⟨p, hp, e⟩ := hm
    have := mem_pairs.mp hp
    omega
  have row : ∀ j i, j ≤ 256 → i < 12 → t[j * 12 * 2 + i]? = some (k.val j i) := fun j i hj hi => tw (j, i) (mem_pairs.mpr ⟨by omega, hi⟩)
  obtain ⟨t', e', tl', tw', tk'⟩ := writes_spec (fun p : Nat × Nat => p.1 * 12 * 2 + 12 + p.2)
    (fun p t => get t ((p.1 + 1) * 12 * 2 + p.2) >>= fun a => get t (p.1 * 12 * 2 + p.2) >>= fun b => .ok (F32.divC (F32.sub a b) 65536))
    (fun p => F32.divC (F32.sub (k.val (p.1 + 1) p.2) (k.val p.1 p.2)) 65536) (pairs 256 12) t
    (pairs_nodup _ _ _ (by rintro ⟨a, b⟩ ⟨c, d⟩ h1 h2 h3 h4 h; dsimp only at *; rw [Prod.mk.injEq]; omega))
    (by intro p hp; have := mem_pairs.mp hp; rw [tl, l0]; omega)
    (by
      intro p hp u _ hu
      have hb := mem_pairs.mp hp
      have a1 : get u ((p.1 + 1) * 12 * 2 + p.2) = .ok (k.val (p.1 + 1) p.2) := by
        unfold get; rw [hu _ (notw _ _ hb.2), row _ _ (by omega) hb.2]
      have a2 : get u (p.1 * 12 * 2 + p.2) = .ok (k.val p.1 p.2) := by
        unfold get; rw [hu _ (notw _ _ hb.2), row _ _ (by omega) hb.2]
      rw [a1, Res.ok_bind, a2, Res.ok_bind])
  obtain ⟨t2, e2, tl2, _, _⟩ := writes_spec (fun p : Nat × Nat => p.1 * 8 + p.2) (fun p _ => .ok (toI16 (k.sum16 p.1 p.2))) (fun p => toI16 (k.sum16 p.1 p.2)) (pairs (256 + 1) 8)
    SincTables.default.tableI16 (pairs_nodup _ _ _ (by rintro ⟨a, b⟩ ⟨c, d⟩ h1 h2 h3 h4 h; dsimp only at *; rw [Prod.mk.injEq]; omega))
    (by intro p hp; have := mem_pairs.mp hp; rw [l2]; omega) (fun _ _ _ _ _ => rfl)
  refine ⟨⟨t', t1, t2⟩, ?_, by dsimp only; rw [tl', tl, l0], by dsimp only; rw [tl1, l1], by dsimp only; rw [tl2, l2], ?_, ?_, ?_⟩
  · unfold SincTables.init
    rw [e, Res.ok_bind, e1, Res.ok_bind, e', Res.ok_bind, e2, Res.ok_bind]
  · intro j i hj hi
    refine ⟨?_, tw1 (j, i) (mem_pairs.mpr ⟨by omega, hi⟩)⟩
    have := row j i hj hi
    rw [← tk' _ (notw j i hi)] at this
    rw [show j * 24 + i = j * 12 * 2 + i by omega]; exact this
  · intro j i hj hi
    have := tw' (j, i) (mem_pairs.mpr ⟨hj, hi⟩)
    dsimp only at this
    rw [show j * 24 + 12 + i = j * 12 * 2 + 12 + i by omega]; exact this
  · intro i hi
    have n1 : 256 * 24 + 12 + i ∉ (pairs 256 12).map (fun p : Nat × Nat => p.1 * 12 * 2 + 12 + p.2) := by
      intro hm
      rw [List.mem_map] at hm
      obtain ⟨p, hp, e⟩ := hm
      have := mem_pairs.mp hp
      omega
    have n2 : 256 * 24 + 12 + i ∉ (pairs (256 + 1) 12).map (fun p : Nat × Nat => p.1 * 12 * 2 + p.2) := by
      intro hm
      rw [List.mem_map] at hm
      obtain ⟨p, hp, e⟩ := hm
      have := mem_pairs.mp hp
      omega
    dsimp only
    rw [tk' _ n1, tk _ n2]
    have b : 256 * 24 + 12 + i < (256 + 1) * 12 * 2 := by omega
    unfold SincTables.default
    dsimp only
    rw [List.getElem?_replicate, if_pos b]

/-- C78 fails for the 16-bit kernel: 16384 is added where it should multiply, so whatever the samples between -1 and 1, every entry is 16383, 16384 or 16385. -/
theorem C78_i16_kernel_flat (q : ℚ) (h0 : 16383 ≤ q) (h1 : q ≤ 16385) : 16383 ≤ toI16 q ∧ toI16 q ≤ 16385 := by
  have a0 := rne_mono h0
  have a1 := rne_mono h1
  have e0 : rne (16383 : ℚ) = 16383 := by decide +kernel
  have e1 : rne (16385 : ℚ) = 16385 := by decide +kernel
  rw [e0] at a0; rw [e1] at a1
  have e : F32.ofQ q = .fin (rne q) := F32.ofQ_fin (by linarith [show (-2:ℚ) ^ 100 ≥ 0 by positivity, show -(2:ℚ) ^ 100 ≤ 0 by norm_num]) (h1.trans (by norm_num))
  unfold toI16
  rw [e]
  unfold F32.toIntSat F32.truncQ
  dsimp only
  rw [if_pos (by linarith)]
  have f0 : 16383 ≤ ⌊rne q⌋ := by rw [Int.le_floor]; push_cast; exact a0
  have f1 : ⌊rne q⌋ ≤ 16385 := by
    have : ((⌊rne q⌋ : ℤ) : ℚ) ≤ ((16385 : ℤ) : ℚ) := by push_cast; exact (Int.floor_le _).trans a1
    exact_mod_cast this
  norm_num
  omega

/-! ## C79: the gain table follows the decibel scale -/

/-- The gain of `x` decibels. -/
noncomputable def Spec.gain (x : ℝ) : ℝ := (10 : ℝ) ^ (x / 20)
/-- gain.rs 50: entry `i` of the table in exact arithmetic, for any real `i`; the interpolation of gain.rs 22-26 between entries `n` and `n + 1` at `n + s`. -/
noncomputable def idealGain (n s : ℝ) : ℝ := (1 - s) * (10 : ℝ) ^ (0.05 * (n - 384)) + s * (10 : ℝ) ^ (0.05 * (n + 1 - 384))

/-- C79. In exact arithmetic, the interpolated gain is at least the true gain and at most 1.4 % above it. -/
theorem C79_gain_accurate (n s : ℝ) (h0 : 0 ≤ s) (h1 : s ≤ 1) :
    Spec.gain (n + s - 384) ≤ idealGain n s ∧ idealGain n s ≤ 1.014 * Spec.gain (n + s - 384) := by
  have ten : (0:ℝ) < 10 := by norm_num
  set c : ℝ := (10:ℝ) ^ (1 / 20 : ℝ) with hc
  have cpos : 0 < c := Real.rpow_pos_of_pos ten _
  have c20 : c ^ 20 = 10 := by
    rw [hc, ← Real.rpow_natCast, ← Real.rpow_mul ten.le]; norm_num
  have c1 : 1 ≤ c := by
    by_contra h
    have : c ^ 20 < 1 ^ 20 := pow_lt_pow_left₀ (not_le.mp h) cpos.le (by norm_num)
    rw [c20] at this; norm_num at this
  have c2 : c ≤ 1.1221 := by
    by_contra h
    have : (1.1221:ℝ) ^ 20 < c ^ 20 := pow_lt_pow_left₀ (not_le.mp h) (by norm_num) (by norm_num)
    rw [c20] at this; norm_num at this
  have lc : 1 - 1 / c ≤ Real.log c := by
    have := Real.one_sub_inv_le_log_of_pos cpos
    simpa [one_div] using this
  set g : ℝ := (10:ℝ) ^ (0.05 * (n - 384)) with hg
  have gpos : 0 < g := Real.rpow_pos_of_pos ten _
  have e1 : (10:ℝ) ^ (0.05 * (n + 1 - 384)) = g * c := by
    rw [hg, hc, ← Real.rpow_add ten]; congr 1; ring
  have e2 : Spec.gain (n + s - 384) = g * c ^ s := by
    unfold Spec.gain
    rw [hg, hc, ← Real.rpow_mul ten.le, ← Real.rpow_add ten]; congr 1; ring
  have ei : idealGain n s = g * (1 + s * (c - 1)) := by unfold idealGain; rw [e1]; ring
  rw [ei, e2]
  have up : c ^ s ≤ 1 + s * (c - 1) := by
    have := rpow_one_add_le_one_add_mul_self (s := c - 1) (by linarith) h0 h1
    rw [show 1 + (c - 1) = c by ring] at this
    exact this
  have low : 1 + s * Real.log c ≤ c ^ s := by
    rw [Real.rpow_def_of_pos cpos]
    have := Real.add_one_le_exp (Real.log c * s)
    linarith
  refine ⟨mul_le_mul_of_nonneg_left up gpos.le, ?_⟩
  have inv : 1 / c ≤ 1 := by rw [div_le_one cpos]; exact c1
  have ic : c * (1 / c) = 1 := by field_simp
  have d : c - 1 - (1 - 1 / c) ≤ 0.014 := by
    have : (c - 1) * (1 - 1 / c) = c - 1 - (1 - 1 / c) := by linear_combination -ic
    rw [← this]
    have : 1 - 1 / c ≤ c - 1 := by nlinarith
    have h3 : 1 - 1 / c ≤ 0.109 := by
      have : 1 / c ≥ 1 / 1.1221 := one_div_le_one_div_of_le cpos c2
      have h4 : (1 / 1.1221 : ℝ) ≥ 0.891 := by norm_num
      linarith
    nlinarith
  have key : 1 + s * (c - 1) ≤ 1.014 * (1 + s * Real.log c) := by
    have l0 : 0 ≤ Real.log c := Real.log_nonneg c1
    nlinarith [mul_nonneg h0 l0]
  calc g * (1 + s * (c - 1)) ≤ g * (1.014 * c ^ s) := mul_le_mul_of_nonneg_left (key.trans (mul_le_mul_of_nonneg_left low (by norm_num))) gpos.le
    _ = 1.014 * (g * c ^ s) := by ring

/-- C79. In exact arithmetic more decibels are never less gain: the interpolated gain rises along a segment and meets the next segment at its end. -/
theorem C79_gain_rises (n s s' : ℝ) (h : s ≤ s') : idealGain n s ≤ idealGain n s' ∧ idealGain n 1 = idealGain (n + 1) 0 := by
  have e : (10:ℝ) ^ (0.05 * (n - 384)) ≤ (10:ℝ) ^ (0.05 * (n + 1 - 384)) := Real.rpow_le_rpow_of_exponent_le (by norm_num) (by linarith)
  constructor
  · unfold idealGain; nlinarith
  · unfold idealGain; ring

example : (0:ℝ) ≤ 1 / 3 ∧ (1 / 3 : ℝ) ≤ 1 := by constructor <;> norm_num

end Verif.Tables
