import Verif.Halfrate.Cascade
/-!
# The three block functions are one half-band filter (C108)
-/
namespace Verif.Halfrate

/-- `_mm_shuffle_ps(x, x, _MM_SHUFFLE(3, 3, 1, 1))`. -/
def hold (x : V) : V := ![x 1, x 1, x 3, x 3]

theorem emit_loop (o : Buf) (old fa fb : V) (l r : ℕ → ℝ) (n : ℕ) (hn : n ≤ 256) :
    ∃ c, (List.range n).foldlM (emit o) ⟨old, fa, fb, l, r⟩ = .ok c ∧ c.oldout = (if n = 0 then old else hold (o (n - 1))) ∧
      (∀ k, c.l k = if k < n then (o k 0 + (if k = 0 then old else hold (o (k - 1))) 0) / 2 else l k) ∧
      ∀ k, c.r k = if k < n then (o k 2 + (if k = 0 then old else hold (o (k - 1))) 2) / 2 else r k := by
  induction n with
  | zero => exact ⟨_, rfl, by simp, by simp, by simp⟩
  | succ n ih =>
    obtain ⟨c, e, e1, e2, e3⟩ := ih (by omega)
    refine ⟨⟨hold (o n), movehl c.fa (o n), movehl c.fb c.oldout, Function.update c.l n ((o n 0 + c.oldout 0) / 2),
      Function.update c.r n ((o n 2 + c.oldout 2) / 2)⟩, ?_, ?_, ?_, ?_⟩
    · rw [List.range_succ, List.foldlM_append, e]
      simp only [List.foldlM_cons, List.foldlM_nil, Res.ok_bind, emit]
      rw [get_ok (by omega)]
      simp only [Res.ok_bind, Res.pure_eq]
      congr 2
      · congr 1; simp [mulSs, addSs, half]; ring
      · congr 1; simp [mulSs, addSs, half, movehl]; ring
    · simp
    · intro k
      show Function.update c.l n _ k = _
      by_cases hk : k = n
      · subst hk; rw [Function.update_self, if_pos (by omega), e1]
      · rw [Function.update_of_ne hk, e2]
        by_cases hlt : k < n
        · rw [if_pos hlt, if_pos (show k < n + 1 by omega)]
        · rw [if_neg hlt, if_neg (show ¬ k < n + 1 by omega)]
    · intro k
      show Function.update c.r n _ k = _
      by_cases hk : k = n
      · subst hk; rw [Function.update_self, if_pos (by omega), e1]
      · rw [Function.update_of_ne hk, e3]
        by_cases hlt : k < n
        · rw [if_pos hlt, if_pos (show k < n + 1 by omega)]
        · rw [if_neg hlt, if_neg (show ¬ k < n + 1 by omega)]

theorem vecSet_apply (p : ℕ → ℝ) (i : ℕ) (v : V) (k : ℕ) : vecSet p i v k = if h : 4 * i ≤ k ∧ k < 4 * i + 4 then v ⟨k - 4 * i, by omega⟩ else p k := by
  unfold vecSet
  by_cases h : 4 * i ≤ k ∧ k < 4 * i + 4
  · obtain ⟨d, rfl⟩ := Nat.exists_eq_add_of_le h.1
    have hd : d < 4 := by omega
    rw [dif_pos h]
    simp only [Function.update_apply, Nat.add_sub_cancel_left]
    interval_cases d <;> simp
  · rw [dif_neg h]
    simp only [Function.update_apply]
    rw [if_neg (by omega), if_neg (by omega), if_neg (by omega), if_neg (by omega)]

theorem vec_vecSet (p : ℕ → ℝ) (i : ℕ) (v : V) : vec (vecSet p i v) i = v := by
  funext j
  fin_cases j <;> simp [vec, vecSet, Function.update_apply]

theorem vecSet_twice (p : ℕ → ℝ) (i : ℕ) (v w : V) : vecSet (vecSet p i v) i w = vecSet p i w := by
  funext k
  simp only [vecSet_apply]
  by_cases h : 4 * i ≤ k ∧ k < 4 * i + 4
  · rw [dif_pos h, dif_pos h]
  · rw [dif_neg h, dif_neg h, dif_neg h]

theorem down_loop (o : Buf) (l r : ℕ → ℝ) (h : ℕ) (hn : h * 8 ≤ 256) :
    ∃ c, (stepBy (h * 8) 8).foldlM (downGroup o) ⟨0, 0, 0, l, r⟩ = .ok c ∧
      (∀ k, c.l k = if k < h * 4 then (o (2 * k) 1 + o (2 * k + 1) 0) / 2 else l k) ∧
      ∀ k, c.r k = if k < h * 4 then (o (2 * k) 3 + o (2 * k + 1) 2) / 2 else r k := by
  induction h with
  | zero => exact ⟨_, rfl, by simp, by simp⟩
  | succ h ih =>
    obtain ⟨c, e, e2, e3⟩ := ih (by omega)
    have hd : h * 8 / 8 = h := by omega
    refine ⟨?w, ?_, ?_, ?_⟩
    rotate_left
    · rw [stepBy_succ _ _ (by norm_num), List.foldlM_append, e]
      simp only [List.foldlM_cons, List.foldlM_nil, Res.ok_bind, downGroup]
      rw [get_ok (by omega), get_ok (by omega), get_ok (by omega), get_ok (by omega), get_ok (by omega), get_ok (by omega),
        get_ok (by omega), get_ok (by omega)]
      simp only [Res.ok_bind, hd, vec_vecSet, vecSet_twice, Res.pure_eq]
      rfl
    · intro k
      show vecSet c.l h _ k = _
      rw [vecSet_apply]
      by_cases hk : 4 * h ≤ k ∧ k < 4 * h + 4
      · obtain ⟨d, rfl⟩ := Nat.exists_eq_add_of_le hk.1
        have hd : d < 4 := by omega
        rw [dif_pos hk, if_pos (by omega)]
        have e1 : 2 * (4 * h + d) = h * 8 + 2 * d := by omega
        rw [e1]
        simp only [Nat.add_sub_cancel_left]
        interval_cases d <;> simp [shuffle, movelh, addSs, half, div_eq_mul_inv]
      · rw [dif_neg hk, e2]
        by_cases hlt : k < h * 4
        · rw [if_pos hlt, if_pos (by omega)]
        · rw [if_neg hlt, if_neg (by omega)]
    · intro k
      show vecSet c.r h _ k = _
      rw [vecSet_apply]
      by_cases hk : 4 * h ≤ k ∧ k < 4 * h + 4
      · obtain ⟨d, rfl⟩ := Nat.exists_eq_add_of_le hk.1
        have hd : d < 4 := by omega
        rw [dif_pos hk, if_pos (by omega)]
        have e1 : 2 * (4 * h + d) = h * 8 + 2 * d := by omega
        rw [e1]
        simp only [Nat.add_sub_cancel_left]
        interval_cases d <;> simp [shuffle, movelh, movehl, addSs, half] <;> ring
      · rw [dif_neg hk, e3]
        by_cases hlt : k < h * 4
        · rw [if_pos hlt, if_pos (by omega)]
        · rw [if_neg hlt, if_neg (by omega)]

/-! ## Histories -/

/-- The sections are ready for sample `N` of the input `x`. -/
def St.AtN (s : St) (x : ℕ → V) (N : ℕ) : Prop := ∀ i < s.m, s.Ready x N i

/-- The held sample of the second chain is the one before sample `N`. -/
def St.Held (s : St) (x : ℕ → V) (N : ℕ) : Prop := s.oldout = hold (Spec.ago (Spec.cascade s.coefs x) N 1)

/-- The same filter: coefficients and number of sections. -/
def St.Same (s s' : St) : Prop := s'.va = s.va ∧ s'.m = s.m ∧ s'.steep = s.steep

theorem St.Same.coefs {s s' : St} (h : s.Same s') : s'.coefs = s.coefs := by simp [St.coefs, h.1, h.2.1]
theorem St.Same.rfl' (s : St) : s.Same s := ⟨rfl, rfl, rfl⟩
theorem St.Same.trans {s s' s'' : St} (h : s.Same s') (h' : s'.Same s'') : s.Same s'' :=
  ⟨h'.1.trans h.1, h'.2.1.trans h.2.1, h'.2.2.trans h.2.2⟩

theorem filters_ok {s : St} {x : ℕ → V} {N : ℕ} {o : Buf} (hr : s.AtN x N) (h : ℕ) (hb : h * 2 ≤ 256)
    (ho : ∀ k < h * 2, o k = x (N + k)) :
    ∃ s' o', processFilters (h * 2) s o = .ok (s', o') ∧ s.Same s' ∧ s'.oldout = s.oldout ∧ s'.AtN x (N + h * 2) ∧
      ∀ k < h * 2, o' k = Spec.cascade s.coefs x (N + k) := by
  obtain ⟨s', o', e, e1, e2, e3, e4, e5, e6⟩ := filters_loop hr h hb ho s.m le_rfl
  refine ⟨s', o', e, ⟨e1, e2, e4⟩, e3, fun i hi => ?_, fun k hk => ?_⟩
  · have := e5 i (by omega)
    rwa [if_pos (by omega)] at this
  · rw [e6, if_pos hk, List.take_of_length_le (by simp [St.coefs])]

/-- The output of the half-band filter at sample `n`, both channels. -/
noncomputable def pairOut (s : St) (x : ℕ → V) (n : ℕ) : ℝ × ℝ :=
  ((Spec.cascade s.coefs x n 0 + Spec.ago (Spec.cascade s.coefs x) n 1 1) / 2,
   (Spec.cascade s.coefs x n 2 + Spec.ago (Spec.cascade s.coefs x) n 1 3) / 2)

theorem emit_ok {s : St} {x : ℕ → V} {N n : ℕ} {o : Buf} {l r : ℕ → ℝ} (hh : s.Held x N) (hn : n ≤ 256)
    (ho : ∀ k < n, o k = Spec.cascade s.coefs x (N + k)) :
    ∃ c, (List.range n).foldlM (emit o) ⟨s.oldout, 0, 0, l, r⟩ = .ok c ∧
      c.oldout = hold (Spec.ago (Spec.cascade s.coefs x) (N + n) 1) ∧ ∀ k < n, (c.l k, c.r k) = pairOut s x (N + k) := by
  obtain ⟨c, e, e1, e2, e3⟩ := emit_loop o s.oldout 0 0 l r n hn
  have key : ∀ k ≤ n, (if k = 0 then s.oldout else hold (o (k - 1))) = hold (Spec.ago (Spec.cascade s.coefs x) (N + k) 1) := fun k hk => by
    by_cases k0 : k = 0
    · subst k0; rw [if_pos rfl]; exact hh
    · obtain ⟨j, rfl⟩ := Nat.exists_eq_succ_of_ne_zero k0
      rw [if_neg k0, Nat.succ_sub_one, ho j (by omega), Nat.add_succ, Nat.succ_eq_add_one, ago_succ, ago_zero]
  refine ⟨c, e, ?_, fun k hk => ?_⟩
  · rw [e1, key n le_rfl]
  · rw [e2, e3, if_pos hk, if_pos hk, key k hk.le, ho k hk]
    rfl

/-- The stereo recording as the scratch array sees it. -/
def sig (xs : List (ℝ × ℝ)) (n : ℕ) : V := spread (Spec.left xs n) (Spec.right xs n)

theorem process_ok {s : St} {x : ℕ → V} {N : ℕ} {xs : List (ℝ × ℝ)} (ha : s.AtN x N) (hh : s.Held x N)
    (h4 : 4 ∣ xs.length) (hb : xs.length ≤ 256) (hx : ∀ k < xs.length, x (N + k) = sig xs k) :
    ∃ s', s.process xs = .ok (s', (List.range xs.length).map fun k => pairOut s x (N + k)) ∧ s.Same s' ∧
      s'.AtN x (N + xs.length) ∧ s'.Held x (N + xs.length) := by
  obtain ⟨h, hl⟩ := h4
  have hl4 : xs.length = h * 4 := by omega
  have hl2 : xs.length = (h * 2) * 2 := by omega
  obtain ⟨o, e, e'⟩ := scratch_ok (Spec.left xs) (Spec.right xs) h (by omega)
  obtain ⟨s1, o1, p1, p2, p3, p4, p5⟩ := filters_ok ha (h * 2) (by omega) (o := o) (fun k hk => by
    rw [e', if_pos (by omega), hx k (by omega)]; rfl)
  have hh1 : s1.Held x N := by rw [St.Held, p3, p2.coefs]; exact hh
  obtain ⟨c, q1, q2, q3⟩ := emit_ok (l := Spec.left xs) (r := Spec.right xs) hh1 (n := xs.length) hb (o := o1) (fun k hk => by
    rw [p5 k (by omega), p2.coefs])
  refine ⟨{ s1 with oldout := c.oldout }, ?_, ?_, ?_, ?_⟩
  · rw [← hl4] at e
    rw [← hl2] at p1
    simp only [St.process, St.processBlock, e, Res.ok_bind, p1, q1, Res.pure_eq]
    congr 2
    refine List.map_congr_left fun k hk => ?_
    rw [q3 k (by simpa using hk)]
    simp [pairOut, p2.coefs]
  · exact p2
  · rw [hl2]; exact p4
  · rw [St.Held]; exact q2

theorem down_ok {s : St} {x : ℕ → V} {N : ℕ} {xs : List (ℝ × ℝ)} (out : Option ((ℕ → ℝ) × (ℕ → ℝ))) (ha : s.AtN x N)
    (h8 : 8 ∣ xs.length) (hb : xs.length ≤ 256) (hx : ∀ k < xs.length, x (N + k) = sig xs k) :
    ∃ s', s.down out xs = .ok (s', (List.range (xs.length / 2)).map fun k => pairOut s x (N + (2 * k + 1))) ∧ s.Same s' ∧
      s'.AtN x (N + xs.length) ∧ s'.oldout = s.oldout := by
  obtain ⟨h, hl⟩ := h8
  have hl4 : xs.length = (h * 2) * 4 := by omega
  have hl2 : xs.length = (h * 4) * 2 := by omega
  have hl8 : xs.length = h * 8 := by omega
  obtain ⟨o, e, e'⟩ := scratch_ok (Spec.left xs) (Spec.right xs) (h * 2) (by omega)
  obtain ⟨s1, o1, p1, p2, p3, p4, p5⟩ := filters_ok ha (h * 4) (by omega) (o := o) (fun k hk => by
    rw [e', if_pos (by omega), hx k (by omega)]; rfl)
  obtain ⟨c, q1, q2, q3⟩ := down_loop o1 (out.elim (Spec.left xs) (·.1)) (out.elim (Spec.right xs) (·.2)) h (by omega)
  refine ⟨s1, ?_, p2, ?_, p3⟩
  · rw [← hl4] at e
    rw [← hl2] at p1
    rw [← hl8] at q1
    simp only [St.down, St.downsample, e, Res.ok_bind, p1, q1, Res.pure_eq]
    congr 2
    refine List.map_congr_left fun k hk => ?_
    have hk' : k < h * 4 := by have := List.mem_range.1 hk; omega
    rw [q2, q3, if_pos hk', if_pos hk', p5 (2 * k) (by omega), p5 (2 * k + 1) (by omega), ← Nat.add_assoc]
    simp only [pairOut, ago_succ, ago_zero]
    congr 2 <;> ring
  · rw [hl2]; exact p4

theorem up_ok {s : St} {x : ℕ → V} {N : ℕ} {xs : List (ℝ × ℝ)} (out : (ℕ → ℝ) × (ℕ → ℝ)) (ha : s.AtN x N) (hh : s.Held x N)
    (h4 : 4 ∣ xs.length) (hb : xs.length ≤ 128) (hx : ∀ k < xs.length * 2, x (N + k) = if k % 2 = 0 then sig xs (k / 2) else 0) :
    ∃ s', s.up out xs = .ok (s', (List.range (xs.length * 2)).map fun k => pairOut s x (N + k)) ∧ s.Same s' ∧
      s'.AtN x (N + xs.length * 2) ∧ s'.Held x (N + xs.length * 2) := by
  obtain ⟨h, hl⟩ := h4
  have hl8 : xs.length * 2 = h * 8 := by omega
  have hl2 : xs.length * 2 = (h * 4) * 2 := by omega
  obtain ⟨o, e, e'⟩ := work_ok (Spec.left xs) (Spec.right xs) h (by omega)
  obtain ⟨s1, o1, p1, p2, p3, p4, p5⟩ := filters_ok ha (h * 4) (by omega) (o := o) (fun k hk => by
    rw [e', if_pos (by omega), hx k (by omega)]; rfl)
  have hh1 : s1.Held x N := by rw [St.Held, p3, p2.coefs]; exact hh
  obtain ⟨c, q1, q2, q3⟩ := emit_ok (l := out.1) (r := out.2) hh1 (n := xs.length * 2) (by omega) (o := o1) (fun k hk => by
    rw [p5 k (by omega), p2.coefs])
  refine ⟨{ s1 with oldout := c.oldout }, ?_, ?_, ?_, ?_⟩
  · rw [← hl8] at e
    rw [← hl2] at p1
    simp only [St.up, St.upsample, e, Res.ok_bind, p1, q1, Res.pure_eq]
    congr 2
    refine List.map_congr_left fun k hk => ?_
    rw [q3 k (by simpa using hk)]
    simp [pairOut, p2.coefs]
  · exact p2
  · rw [hl2]; exact p4
  · rw [St.Held]; exact q2

theorem sig_append_left {xs ys : List (ℝ × ℝ)} {k : ℕ} (h : k < xs.length) : sig (xs ++ ys) k = sig xs k := by
  simp [sig, Spec.left, Spec.right, List.getD, List.getElem?_append_left h]

theorem sig_append_right {xs ys : List (ℝ × ℝ)} (k : ℕ) : sig (xs ++ ys) (xs.length + k) = sig ys k := by
  simp [sig, Spec.left, Spec.right, List.getD, List.getElem?_append_right]

theorem map_range_append {α : Type} (f : ℕ → α) (a b N : ℕ) :
    (List.range a).map (fun k => f (N + k)) ++ (List.range b).map (fun k => f (N + a + k)) =
      (List.range (a + b)).map fun k => f (N + k) := by
  rw [List.range_add, List.map_append, List.map_map]
  congr 1
  refine List.map_congr_left fun k _ => ?_
  simp [Nat.add_assoc]

theorem pairOut_same {s s' : St} (h : s.Same s') (x : ℕ → V) : pairOut s' x = pairOut s x := by
  funext n; simp [pairOut, h.coefs]

theorem run_process {bs : List (List (ℝ × ℝ))} (hb : ∀ b ∈ bs, 4 ∣ b.length ∧ b.length ≤ 256) :
    ∀ {s : St} {x : ℕ → V} {N : ℕ}, s.AtN x N → s.Held x N → (∀ k < bs.flatten.length, x (N + k) = sig bs.flatten k) →
    ∃ s', runWith St.process s bs = .ok (s', (List.range bs.flatten.length).map fun k => pairOut s x (N + k)) ∧ s.Same s' ∧
      s'.AtN x (N + bs.flatten.length) ∧ s'.Held x (N + bs.flatten.length) := by
  induction bs with
  | nil => intro s x N ha hh _; exact ⟨s, rfl, .rfl' s, ha, hh⟩
  | cons b bs ih =>
    intro s x N ha hh hx
    obtain ⟨b4, b256⟩ := hb b (by simp)
    rw [List.flatten_cons] at hx ⊢
    rw [List.length_append] at hx ⊢
    obtain ⟨s1, e1, e2, e3, e4⟩ := process_ok ha hh b4 b256 (fun k hk => by rw [hx k (by omega), sig_append_left hk])
    obtain ⟨s2, f1, f2, f3, f4⟩ := ih (fun b' h' => hb b' (by simp [h'])) e3 e4 (fun k hk => by
      rw [Nat.add_assoc, hx _ (by omega), sig_append_right])
    refine ⟨s2, ?_, e2.trans f2, ?_, ?_⟩
    · simp only [runWith, e1, Res.ok_bind, f1, Res.pure_eq]
      rw [pairOut_same e2, map_range_append (fun k => pairOut s x k)]
    · rw [← Nat.add_assoc]; exact f3
    · rw [← Nat.add_assoc]; exact f4

theorem run_down {bs : List (List (ℝ × ℝ))} (out : Option ((ℕ → ℝ) × (ℕ → ℝ))) (hb : ∀ b ∈ bs, 8 ∣ b.length ∧ b.length ≤ 256) :
    ∀ {s : St} {x : ℕ → V} {M : ℕ}, s.AtN x (2 * M) → (∀ k < bs.flatten.length, x (2 * M + k) = sig bs.flatten k) →
    ∃ s', runWith (St.down out) s bs = .ok (s', (List.range (bs.flatten.length / 2)).map fun k => pairOut s x (2 * (M + k) + 1)) ∧ s.Same s' ∧
      8 ∣ bs.flatten.length := by
  induction bs with
  | nil => intro s x N ha _; exact ⟨s, rfl, .rfl' s, ⟨0, rfl⟩⟩
  | cons b bs ih =>
    intro s x M ha hx
    obtain ⟨b8, b256⟩ := hb b (by simp)
    rw [List.flatten_cons] at hx ⊢
    rw [List.length_append] at hx ⊢
    obtain ⟨s1, e1, e2, e3, -⟩ := down_ok out ha b8 b256 (fun k hk => by rw [hx k (by omega), sig_append_left hk])
    obtain ⟨m, hm⟩ := b8
    have hM : 2 * M + b.length = 2 * (M + b.length / 2) := by omega
    rw [hM] at e3
    obtain ⟨s2, f1, f2, f3⟩ := ih (fun b' h' => hb b' (by simp [h'])) e3 (fun k hk => by
      rw [← hM, Nat.add_assoc, hx _ (by omega), sig_append_right])
    refine ⟨s2, ?_, e2.trans f2, by omega⟩
    simp only [runWith, e1, Res.ok_bind, f1, Res.pure_eq]
    have := map_range_append (fun k => pairOut s x (2 * k + 1)) (b.length / 2) (bs.flatten.length / 2) M
    have e : b.length / 2 + bs.flatten.length / 2 = (b.length + bs.flatten.length) / 2 := by omega
    rw [e] at this
    rw [← this, pairOut_same e2]
    have : (fun k => pairOut s x (2 * M + (2 * k + 1))) = fun k => pairOut s x (2 * (M + k) + 1) := by
      funext k; congr 1; omega
    rw [this]

theorem run_up {bs : List (List (ℝ × ℝ))} (out : (ℕ → ℝ) × (ℕ → ℝ)) (hb : ∀ b ∈ bs, 4 ∣ b.length ∧ b.length ≤ 128) :
    ∀ {s : St} {x : ℕ → V} {M : ℕ}, s.AtN x (2 * M) → s.Held x (2 * M) →
    (∀ k < bs.flatten.length * 2, x (2 * M + k) = if k % 2 = 0 then sig bs.flatten (k / 2) else 0) →
    ∃ s', runWith (St.up out) s bs = .ok (s', (List.range (bs.flatten.length * 2)).map fun k => pairOut s x (2 * M + k)) ∧ s.Same s' := by
  induction bs with
  | nil => intro s x N ha hh _; exact ⟨s, rfl, .rfl' s⟩
  | cons b bs ih =>
    intro s x M ha hh hx
    obtain ⟨b4, b128⟩ := hb b (by simp)
    rw [List.flatten_cons] at hx ⊢
    rw [List.length_append] at hx ⊢
    obtain ⟨s1, e1, e2, e3, e4⟩ := up_ok out ha hh b4 b128 (fun k hk => by
      rw [hx k (by omega)]
      split
      · rw [sig_append_left (by omega)]
      · rfl)
    have hM : 2 * M + b.length * 2 = 2 * (M + b.length) := by omega
    rw [hM] at e3 e4
    obtain ⟨s2, f1, f2⟩ := ih (fun b' h' => hb b' (by simp [h'])) e3 e4 (fun k hk => by
      rw [← hM, Nat.add_assoc, hx _ (by omega)]
      have a1 : (b.length * 2 + k) % 2 = k % 2 := by omega
      have a2 : (b.length * 2 + k) / 2 = b.length + k / 2 := by omega
      rw [a1, a2, sig_append_right])
    refine ⟨s2, ?_, e2.trans f2⟩
    simp only [runWith, e1, Res.ok_bind, f1, Res.pure_eq]
    rw [pairOut_same e2, ← hM, map_range_append (fun k => pairOut s x k), Nat.add_mul]

/-! ## Fresh filters -/

/-- A filter as `new`, `default` or `reset` leave it. -/
def Fresh (s : St) : Prop := (∀ i < s.m, s.regs i = ⟨0, 0, 0, 0, 0, 0⟩) ∧ s.oldout = 0

theorem Fresh.at {s : St} (h : Fresh s) (x : ℕ → V) : s.AtN x 0 := fun i hi => by
  simp only [St.Ready, h.1 i hi]
  exact ⟨rfl, rfl, rfl, rfl⟩

theorem Fresh.held {s : St} (h : Fresh s) (x : ℕ → V) : s.Held x 0 := by
  rw [St.Held, h.2]
  funext i
  fin_cases i <;> simp [hold, Spec.ago]

end Verif.Halfrate
