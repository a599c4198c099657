import Verif.Halfrate.Model
import Mathlib.Tactic.Ring
import Mathlib.Tactic.Linarith
import Mathlib.Tactic.IntervalCases
import Mathlib.Tactic.FinCases
/-!
# What the half-rate filter computes (C108)
-/
namespace Verif.Halfrate

/-! ## Specification -/

/-- Entry `n - k` of a signal, zero before its beginning. -/
def Spec.ago {R : Type} [Zero R] (x : ℕ → R) (n k : ℕ) : R := if k ≤ n then x (n - k) else 0

/-- The second-order all-pass `y[n] = x[n-2] + a (x[n] - y[n-2])`, with silence before time 0. -/
def Spec.allpass {R : Type} [Ring R] (a : R) (x : ℕ → R) : ℕ → R
  | 0 => a * x 0
  | 1 => a * x 1
  | n + 2 => x n + a * (x (n + 2) - Spec.allpass a x n)

/-- All-passes in series. -/
def Spec.cascade {R : Type} [Ring R] : List R → (ℕ → R) → ℕ → R
  | [], x => x
  | a :: as, x => Spec.cascade as (Spec.allpass a x)

/-- The half-band filter: the mean of one all-pass chain and of another one, one sample late. -/
noncomputable def Spec.halfband (as bs : List ℝ) (x : ℕ → ℝ) (n : ℕ) : ℝ :=
  (Spec.cascade as x n + Spec.ago (Spec.cascade bs x) n 1) / 2

/-- A signal with a zero after each sample. -/
def Spec.stuff (x : ℕ → ℝ) (n : ℕ) : ℝ := if n % 2 = 0 then x (n / 2) else 0

/-- The left and the right channel of a stereo recording, silent after its end. -/
def Spec.left (xs : List (ℝ × ℝ)) (n : ℕ) : ℝ := (xs.getD n 0).1
def Spec.right (xs : List (ℝ × ℝ)) (n : ℕ) : ℝ := (xs.getD n 0).2

/-- `allpass` is the difference equation it is named after. -/
theorem Spec.allpass_eq {R : Type} [Ring R] (a : R) (x : ℕ → R) (n : ℕ) :
    Spec.allpass a x n = Spec.ago x n 2 + a * (x n - Spec.ago (Spec.allpass a x) n 2) := by
  match n with
  | 0 => simp [Spec.allpass, Spec.ago]
  | 1 => simp [Spec.allpass, Spec.ago]
  | n + 2 => simp [Spec.allpass, Spec.ago]

/-! ## Calls on lists of stereo samples -/

/-- `process_block` on a stereo block. -/
noncomputable def St.process (s : St) (xs : List (ℝ × ℝ)) : Res Empty (St × List (ℝ × ℝ)) := do
  let (s, l, r) ← s.processBlock (Spec.left xs) (Spec.right xs) xs.length
  pure (s, (List.range xs.length).map fun k => (l k, r k))

/-- `process_block_downsample_by_two` on a stereo block, into other buffers `out` or in place. -/
noncomputable def St.down (out : Option ((ℕ → ℝ) × (ℕ → ℝ))) (s : St) (xs : List (ℝ × ℝ)) : Res Empty (St × List (ℝ × ℝ)) := do
  let (s, l, r) ← s.downsample (Spec.left xs) (Spec.right xs) (out.elim (Spec.left xs) (·.1)) (out.elim (Spec.right xs) (·.2)) xs.length
  pure (s, (List.range (xs.length / 2)).map fun k => (l k, r k))

/-- `process_block_upsample_by_two` on a stereo block, into buffers that held `out`. -/
noncomputable def St.up (out : (ℕ → ℝ) × (ℕ → ℝ)) (s : St) (xs : List (ℝ × ℝ)) : Res Empty (St × List (ℝ × ℝ)) := do
  let (s, l, r) ← s.upsample (Spec.left xs) (Spec.right xs) out.1 out.2 (xs.length * 2)
  pure (s, (List.range (xs.length * 2)).map fun k => (l k, r k))

/-- A sequence of calls; the outputs are concatenated. -/
def runWith (f : St → List (ℝ × ℝ) → Res Empty (St × List (ℝ × ℝ))) : St → List (List (ℝ × ℝ)) → Res Empty (St × List (ℝ × ℝ))
  | s, [] => .ok (s, [])
  | s, b :: bs => do
    let (s, ys) ← f s b
    let (s, zs) ← runWith f s bs
    pure (s, ys ++ zs)

/-! ## Sections -/

theorem ago_succ {R : Type} [Zero R] (x : ℕ → R) (n k : ℕ) : Spec.ago x (n + 1) (k + 1) = Spec.ago x n k := by
  simp [Spec.ago]

theorem ago_zero {R : Type} [Zero R] (x : ℕ → R) (n : ℕ) : Spec.ago x n 0 = x n := by simp [Spec.ago]

theorem cascade_snoc {R : Type} [Ring R] (l : List R) (a : R) (x : ℕ → R) :
    Spec.cascade (l ++ [a]) x = Spec.allpass a (Spec.cascade l x) := by
  induction l generalizing x with
  | nil => rfl
  | cons b l ih => exact ih _

theorem allpass_lane (a : V) (x : ℕ → V) (i : Fin 4) (n : ℕ) :
    Spec.allpass a x n i = Spec.allpass (a i) (fun n => x n i) n := by
  induction n using Nat.strongRecOn with
  | _ n ih =>
    match n, ih with
    | 0, _ => rfl
    | 1, _ => rfl
    | n + 2, ih =>
      have := ih n (by omega)
      show x n i + a i * (x (n + 2) i - Spec.allpass a x n i) = _
      rw [this]; rfl

theorem cascade_lane (l : List V) (x : ℕ → V) (i : Fin 4) (n : ℕ) :
    Spec.cascade l x n i = Spec.cascade (l.map (· i)) (fun n => x n i) n := by
  induction l generalizing x with
  | nil => rfl
  | cons a l ih =>
    show Spec.cascade l (Spec.allpass a x) n i = Spec.cascade (l.map (· i)) (Spec.allpass (a i) fun n => x n i) n
    rw [ih]; congr 1; funext n; exact allpass_lane ..

/-- The registers of a section with coefficient `ta` and input `x`, before sample `N`. -/
def Good (ta : V) (x : ℕ → V) (N : ℕ) (t : Regs) : Prop :=
  t.tx0 = Spec.ago x N 1 ∧ t.tx1 = Spec.ago x N 2 ∧ t.ty0 = Spec.ago (Spec.allpass ta x) N 1 ∧
    t.ty1 = Spec.ago (Spec.allpass ta x) N 2

theorem Good.tick {ta : V} {x : ℕ → V} {N : ℕ} {t : Regs} (h : Good ta x N t) :
    Good ta x (N + 1) (t.tick ta (x N)) ∧ (t.tick ta (x N)).ty0 = Spec.allpass ta x N := by
  obtain ⟨h1, h2, h3, h4⟩ := h
  have e : (t.tick ta (x N)).ty0 = Spec.allpass ta x N := by
    rw [Spec.allpass_eq]
    simp only [Regs.tick, h2, h4]
    rw [mul_comm]
  refine ⟨⟨?_, ?_, ?_, ?_⟩, e⟩
  · rw [ago_succ, ago_zero]; rfl
  · rw [ago_succ]; exact h1
  · rw [ago_succ, ago_zero]; exact e
  · rw [ago_succ]; exact h3

theorem get_ok {o : Buf} {k : ℕ} (h : k < 256) : o.get k = .ok (o k) := if_pos h
theorem set_ok {o : Buf} {k : ℕ} {v : V} (h : k < 256) : o.set k v = .ok (Function.update o k v) := if_pos h

theorem stepBy_mul (h s : ℕ) (hs : 0 < s) : stepBy (h * s) s = (List.range h).map (· * s) := by
  have : (h * s + s - 1) / s = h := by
    rw [Nat.add_sub_assoc hs, Nat.mul_comm, Nat.mul_add_div hs, Nat.div_eq_of_lt (by omega)]; rfl
  rw [stepBy, this]

theorem stepBy_succ (h s : ℕ) (hs : 0 < s) : stepBy ((h + 1) * s) s = stepBy (h * s) s ++ [h * s] := by
  rw [stepBy_mul _ _ hs, stepBy_mul _ _ hs, List.range_succ, List.map_append]; rfl

theorem pair_loop {ta : V} {x : ℕ → V} {N : ℕ} {t : Regs} {o : Buf} (hg : Good ta x N t) (h : ℕ) (hb : h * 2 ≤ 256)
    (ho : ∀ k < h * 2, o k = x (N + k)) :
    ∃ t' o', (stepBy (h * 2) 2).foldlM (pair ta) (t, o) = .ok (t', o') ∧ Good ta x (N + h * 2) t' ∧
      ∀ k, o' k = if k < h * 2 then Spec.allpass ta x (N + k) else o k := by
  induction h with
  | zero => exact ⟨t, o, rfl, by simpa using hg, fun k => by simp⟩
  | succ h ih =>
    obtain ⟨t', o', e, g, e'⟩ := ih (by omega) (fun k hk => ho k (by omega))
    have x0 : o' (h * 2) = x (N + h * 2) := by rw [e', if_neg (by omega), ho _ (by omega)]
    have x1 : ∀ v, Function.update o' (h * 2) v (h * 2 + 1) = x (N + h * 2 + 1) := fun v => by
      rw [Function.update_of_ne (by omega), e', if_neg (by omega), ho _ (by omega)]; rfl
    obtain ⟨g1, y1⟩ := g.tick
    obtain ⟨g2, y2⟩ := g1.tick
    refine ⟨(t'.tick ta (x (N + h * 2))).tick ta (x (N + h * 2 + 1)), Function.update (Function.update o' (h * 2) (t'.tick ta (x (N + h * 2))).ty0)
      (h * 2 + 1) ((t'.tick ta (x (N + h * 2))).tick ta (x (N + h * 2 + 1))).ty0, ?_, ?_, ?_⟩
    · rw [stepBy_succ _ _ (by norm_num), List.foldlM_append, e]
      simp only [List.foldlM_cons, List.foldlM_nil, Res.ok_bind, pair]
      rw [get_ok (by omega)]; simp only [Res.ok_bind]
      rw [set_ok (by omega)]; simp only [Res.ok_bind]
      rw [get_ok (by omega)]; simp only [Res.ok_bind]
      rw [set_ok (by omega)]; simp only [Res.ok_bind, Res.pure_eq]
      rw [x1, x0]
    · have : N + (h + 1) * 2 = N + h * 2 + 1 + 1 := by omega
      rw [this]; exact g2
    · intro k
      rw [y1, y2]
      by_cases k1 : k = h * 2 + 1
      · subst k1; rw [Function.update_self, if_pos (by omega)]; rfl
      rw [Function.update_of_ne k1]
      by_cases k0 : k = h * 2
      · subst k0; rw [Function.update_self, if_pos (by omega)]
      rw [Function.update_of_ne k0, e']
      by_cases hk : k < h * 2
      · rw [if_pos hk, if_pos (by omega)]
      · rw [if_neg hk, if_neg (by omega)]

/-- The coefficients of the sections. -/
def St.coefs (s : St) : List V := (List.range s.m).map s.va

theorem coefs_take (s : St) {j : ℕ} (hj : j < s.m) : s.coefs.take (j + 1) = s.coefs.take j ++ [s.va j] := by
  rw [St.coefs, ← List.map_take, ← List.map_take, List.take_range, List.take_range, min_eq_left hj, min_eq_left hj.le, List.range_succ,
    List.map_append]; rfl

/-- The registers of section `i`. -/
def St.regs (s : St) (i : ℕ) : Regs := ⟨s.vx0 i, s.vx1 i, s.vx2 i, s.vy0 i, s.vy1 i, s.vy2 i⟩

/-- Section `i` of the filter is ready for sample `N` of the input `x`. -/
def St.Ready (s : St) (x : ℕ → V) (N i : ℕ) : Prop := Good (s.va i) (Spec.cascade (s.coefs.take i) x) N (s.regs i)

theorem filters_loop {s : St} {x : ℕ → V} {N : ℕ} {o : Buf} (hr : ∀ i < s.m, s.Ready x N i) (h : ℕ) (hb : h * 2 ≤ 256)
    (ho : ∀ k < h * 2, o k = x (N + k)) (j : ℕ) (hj : j ≤ s.m) :
    ∃ s' o', (List.range j).foldlM (sectionLoop (h * 2)) (s, o) = .ok (s', o') ∧ s'.va = s.va ∧ s'.m = s.m ∧ s'.oldout = s.oldout ∧
      s'.steep = s.steep ∧
      (∀ i < s.m, if i < j then s'.Ready x (N + h * 2) i else s'.regs i = s.regs i) ∧
      ∀ k, o' k = if k < h * 2 then Spec.cascade (s.coefs.take j) x (N + k) else o k := by
  induction j with
  | zero =>
    refine ⟨s, o, rfl, rfl, rfl, rfl, rfl, fun i _ => by simp, fun k => ?_⟩
    by_cases hk : k < h * 2
    · simp [hk, ho k hk, Spec.cascade]
    · simp [hk]
  | succ j ih =>
    obtain ⟨s', o', e, e1, e2, e3, e4, e5, e6⟩ := ih (by omega)
    have ec : s'.coefs = s.coefs := by simp [St.coefs, e1, e2]
    have hreg : s'.regs j = s.regs j := by simpa using e5 j (by omega)
    have hg : Good (s'.va j) (Spec.cascade (s.coefs.take j) x) N (s'.regs j) := by
      rw [hreg, e1]; exact hr j (by omega)
    obtain ⟨t, o2, p1, p2, p3⟩ := pair_loop hg h hb (o := o') (fun k hk => by rw [e6, if_pos hk])
    refine ⟨?w, o2, ?_, ?_, ?_, ?_, ?_, ?_, ?_⟩
    rotate_left
    · rw [List.range_succ, List.foldlM_append, e]
      simp only [List.foldlM_cons, List.foldlM_nil, Res.ok_bind, sectionLoop]
      have : (⟨s'.vx0 j, s'.vx1 j, s'.vx2 j, s'.vy0 j, s'.vy1 j, s'.vy2 j⟩ : Regs) = s'.regs j := rfl
      rw [this, p1]
      rfl
    · exact e1
    · exact e2
    · exact e3
    · exact e4
    · intro i hi
      by_cases hij : i = j
      · subst hij
        simp only [Nat.lt_succ_self, if_true]
        simp only [St.Ready, St.regs, Function.update_self]
        have : St.coefs { s' with vx0 := Function.update s'.vx0 i t.tx0, vx1 := Function.update s'.vx1 i t.tx1, vx2 := Function.update s'.vx2 i t.tx2, vy0 := Function.update s'.vy0 i t.ty0, vy1 := Function.update s'.vy1 i t.ty1, vy2 := Function.update s'.vy2 i t.ty2 } = s.coefs := ec
        rw [this]
        exact p2
      · have := e5 i hi
        by_cases hlt : i < j
        · rw [if_pos hlt] at this
          rw [if_pos (by omega)]
          simp only [St.Ready, St.regs, Function.update_of_ne hij]
          exact this
        · rw [if_neg hlt] at this
          rw [if_neg (by omega)]
          simp only [St.regs, Function.update_of_ne hij]
          exact this
    · intro k
      rw [p3, coefs_take s (by omega), cascade_snoc, e1]
      by_cases hk : k < h * 2
      · simp [hk]
      · simp [hk, e6]

/-! ## Scratch buffers -/

theorem upd4 (o : Buf) (a : ℕ) (v0 v1 v2 v3 : V) (k : ℕ) :
    Function.update (Function.update (Function.update (Function.update o a v0) (a + 1) v1) (a + 2) v2) (a + 3) v3 k =
      if k = a + 3 then v3 else if k = a + 2 then v2 else if k = a + 1 then v1 else if k = a then v0 else o k := by
  simp only [Function.update_apply]

/-- A stereo sample in the scratch array. -/
def spread (l r : ℝ) : V := ![l, l, r, r]

theorem shuffle_vec (l r : ℕ → ℝ) (h : ℕ) :
    shuffle (vec l h) (vec r h) 0 0 0 0 = spread (l (h * 4)) (r (h * 4)) ∧
    shuffle (vec l h) (vec r h) 1 1 1 1 = spread (l (h * 4 + 1)) (r (h * 4 + 1)) ∧
    shuffle (vec l h) (vec r h) 2 2 2 2 = spread (l (h * 4 + 2)) (r (h * 4 + 2)) ∧
    shuffle (vec l h) (vec r h) 3 3 3 3 = spread (l (h * 4 + 3)) (r (h * 4 + 3)) := by
  have : 4 * h = h * 4 := Nat.mul_comm ..
  simp [shuffle, vec, spread, this]

theorem scratch_ok (l r : ℕ → ℝ) (h : ℕ) (hb : h * 4 ≤ 256) :
    ∃ o, createScratch (h * 4) l r = .ok o ∧ ∀ k, o k = if k < h * 4 then spread (l k) (r k) else 0 := by
  induction h with
  | zero => exact ⟨fun _ => 0, rfl, fun k => by simp⟩
  | succ h ih =>
    obtain ⟨o, e, e'⟩ := ih (by omega)
    obtain ⟨s0, s1, s2, s3⟩ := shuffle_vec l r h
    have hd : h * 4 / 4 = h := by omega
    refine ⟨?w, ?_, ?_⟩
    rotate_left
    · rw [createScratch, stepBy_succ _ _ (by norm_num), List.foldlM_append]
      rw [createScratch] at e
      rw [e]
      simp only [List.foldlM_cons, List.foldlM_nil, Res.ok_bind, scratchGroup]
      rw [set_ok (by omega)]; simp only [Res.ok_bind]
      rw [set_ok (by omega)]; simp only [Res.ok_bind]
      rw [set_ok (by omega)]; simp only [Res.ok_bind]
      rw [set_ok (by omega), hd, s0, s1, s2, s3]
      rfl
    · intro k
      rw [upd4, e']
      by_cases k3 : k = h * 4 + 3
      · subst k3; simp; omega
      by_cases k2 : k = h * 4 + 2
      · subst k2; simp; omega
      by_cases k1 : k = h * 4 + 1
      · subst k1; simp; omega
      by_cases k0 : k = h * 4
      · subst k0; simp
      simp only [k3, k2, k1, k0, if_false]
      by_cases hk : k < h * 4
      · rw [if_pos hk, if_pos (by omega)]
      · rw [if_neg hk, if_neg (by omega)]

theorem work_ok (l r : ℕ → ℝ) (h : ℕ) (hb : h * 8 ≤ 256) :
    ∃ o, createWork (h * 8) l r = .ok o ∧
      ∀ k, o k = if k < h * 8 then (if k % 2 = 0 then spread (l (k / 2)) (r (k / 2)) else 0) else 0 := by
  induction h with
  | zero => exact ⟨fun _ => 0, rfl, fun k => by simp⟩
  | succ h ih =>
    obtain ⟨o, e, e'⟩ := ih (by omega)
    obtain ⟨s0, s1, s2, s3⟩ := shuffle_vec l r h
    have hd : h * 8 / 8 = h := by omega
    refine ⟨?w, ?_, ?_⟩
    rotate_left
    · rw [createWork, stepBy_succ _ _ (by norm_num), List.foldlM_append]
      rw [createWork] at e
      rw [e]
      simp only [List.foldlM_cons, List.foldlM_nil, Res.ok_bind, workGroup]
      rw [set_ok (by omega)]; simp only [Res.ok_bind]
      rw [set_ok (by omega)]; simp only [Res.ok_bind]
      rw [set_ok (by omega)]; simp only [Res.ok_bind]
      rw [set_ok (by omega)]; simp only [Res.ok_bind]
      rw [set_ok (by omega)]; simp only [Res.ok_bind]
      rw [set_ok (by omega)]; simp only [Res.ok_bind]
      rw [set_ok (by omega)]; simp only [Res.ok_bind]
      rw [set_ok (by omega), hd, s0, s1, s2, s3]
      rfl
    · intro k
      simp only [Function.update_apply, e']
      rcases Nat.lt_or_ge k (h * 8) with hk | hk
      · have n0 : k ≠ h * 8 + 0 := by omega
        have n1 : k ≠ h * 8 + 0 + 1 := by omega
        have n2 : k ≠ h * 8 + 2 := by omega
        have n3 : k ≠ h * 8 + 2 + 1 := by omega
        have n4 : k ≠ h * 8 + 4 := by omega
        have n5 : k ≠ h * 8 + 4 + 1 := by omega
        have n6 : k ≠ h * 8 + 6 := by omega
        have n7 : k ≠ h * 8 + 6 + 1 := by omega
        have n8 : k < (h + 1) * 8 := by omega
        simp only [n0, n1, n2, n3, n4, n5, n6, n7, n8, hk, if_false, if_true]
      · obtain ⟨d, rfl⟩ := Nat.exists_eq_add_of_le hk
        rcases Nat.lt_or_ge d 8 with hd8 | hd8
        · have hm : (h * 8 + d) % 2 = d % 2 := by omega
          have hq : (h * 8 + d) / 2 = h * 4 + d / 2 := by omega
          have hlt : h * 8 + d < (h + 1) * 8 := by omega
          rw [hm, hq, if_pos hlt]
          interval_cases d <;> simp [Nat.add_assoc]
        · have n0 : h * 8 + d ≠ h * 8 + 0 := by omega
          have n1 : h * 8 + d ≠ h * 8 + 0 + 1 := by omega
          have n2 : h * 8 + d ≠ h * 8 + 2 := by omega
          have n3 : h * 8 + d ≠ h * 8 + 2 + 1 := by omega
          have n4 : h * 8 + d ≠ h * 8 + 4 := by omega
          have n5 : h * 8 + d ≠ h * 8 + 4 + 1 := by omega
          have n6 : h * 8 + d ≠ h * 8 + 6 := by omega
          have n7 : h * 8 + d ≠ h * 8 + 6 + 1 := by omega
          have n8 : ¬ h * 8 + d < (h + 1) * 8 := by omega
          have n9 : ¬ h * 8 + d < h * 8 := by omega
          simp only [n0, n1, n2, n3, n4, n5, n6, n7, n8, n9, if_false]

end Verif.Halfrate
