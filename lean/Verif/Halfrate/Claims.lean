import Verif.Halfrate.Blocks
/-!
# The half-band filter through its public functions (C108)
-/
namespace Verif.Halfrate

/-- Coefficients as the filter stores them: rounded to `f32`. -/
def Spec.rounded (l : List ℚ) : List ℝ := l.map fun q => ((asF32 q : ℚ) : ℝ)

/-- Block lengths the block functions are written for: multiples of four (eight for `downsample`), at most 256 samples (counted at
the higher rate). -/
def Spec.Blocks (step most : ℕ) (bs : List (List (ℝ × ℝ))) : Prop := ∀ b ∈ bs, step ∣ b.length ∧ b.length ≤ most

theorem table_length {st : Bool} {m : ℕ} {a b : List ℚ} (h : table st (m * 2) = some (a, b)) :
    a.length = m ∧ b.length = m ∧ 0 < m ∧ m ≤ 6 := by
  rcases Nat.lt_or_ge m 7 with hm | hm
  · cases st <;> interval_cases m <;> simp only [table, Option.some.injEq, Prod.mk.injEq, reduceCtorEq, Nat.zero_mul, Nat.one_mul, Nat.reduceMul] at h <;>
      (obtain ⟨rfl, rfl⟩ := h; simp)
  · exfalso
    have : table st (m * 2) = none := by
      unfold table
      split <;> first | omega | rfl
    rw [this] at h; cases h

theorem table_some (st : Bool) {m : ℕ} (h0 : 0 < m) (h6 : m ≤ 6) : ∃ a b, table st (m * 2) = some (a, b) := by
  cases st <;> interval_cases m <;> exact ⟨_, _, rfl⟩

theorem table_none {st : Bool} {m : ℕ} (h : m = 0) : table st (m * 2) = none := by
  subst h; cases st <;> rfl

/-- The filter `new` builds. -/
noncomputable def built (m : ℕ) (st : Bool) (a b : List ℚ) : St :=
  (({ St.default with m := m, steep := st, va := fun i => if i < m then 0 else 0 } : St).storeCoefficients a b).reset

theorem new_ok {st : Bool} {m : ℕ} {a b : List ℚ} (h : table st (m * 2) = some (a, b)) : St.new m st = .ok (built m st a b) := by
  obtain ⟨-, -, -, h6⟩ := table_length h
  simp only [St.new, St.loadCoefficients, show ¬ m > 6 by omega, if_false, h, Res.ok_bind, Res.pure_eq]
  rfl

theorem reset_fresh (s : St) : Fresh s.reset := by
  refine ⟨fun i hi => ?_, rfl⟩
  have : i < s.m := hi
  simp [St.regs, St.reset, this]

theorem built_fresh (m : ℕ) (st : Bool) (a b : List ℚ) : Fresh (built m st a b) := reset_fresh _

theorem default_fresh : Fresh St.default := ⟨fun i hi => absurd hi (Nat.not_lt_zero i), rfl⟩

/-- Lanes 0 and 2 carry the first chain, lanes 1 and 3 the second. -/
def Chains (s : St) (A B : List ℝ) : Prop :=
  s.coefs.map (· 0) = A ∧ s.coefs.map (· 1) = B ∧ s.coefs.map (· 2) = A ∧ s.coefs.map (· 3) = B

theorem range_map_getD {α β : Type} (l : List α) (d : α) (f : α → β) : (List.range l.length).map (fun i => f (l.getD i d)) = l.map f := by
  refine List.ext_getElem (by simp) fun i h1 h2 => ?_
  have : i < l.length := by simpa using h1
  simp [List.getD, List.getElem?_eq_getElem this]

theorem built_chains {st : Bool} {m : ℕ} {a b : List ℚ} (h : table st (m * 2) = some (a, b)) :
    Chains (built m st a b) (Spec.rounded a) (Spec.rounded b) := by
  obtain ⟨ha, hb, -, -⟩ := table_length h
  have key : (built m st a b).coefs = (List.range m).map fun i =>
      ![(asF32 (a.getD i 0) : ℝ), (asF32 (b.getD i 0) : ℝ), (asF32 (a.getD i 0) : ℝ), (asF32 (b.getD i 0) : ℝ)] := by
    refine List.map_congr_left fun i hi => ?_
    have : i < m := List.mem_range.1 hi
    exact if_pos this
  have ea := range_map_getD a 0 (fun q => ((asF32 q : ℚ) : ℝ))
  have eb := range_map_getD b 0 (fun q => ((asF32 q : ℚ) : ℝ))
  rw [ha] at ea
  rw [hb] at eb
  refine ⟨?_, ?_, ?_, ?_⟩ <;> rw [key, List.map_map] <;> first | exact ea | exact eb

theorem default_chains : Chains St.default [] [] := ⟨rfl, rfl, rfl, rfl⟩

theorem pairOut_eq {s : St} {A B : List ℝ} (h : Chains s A B) (x : ℕ → V) (n : ℕ) :
    pairOut s x n = ((Spec.cascade A (fun n => x n 0) n + Spec.ago (Spec.cascade B fun n => x n 1) n 1) / 2,
      (Spec.cascade A (fun n => x n 2) n + Spec.ago (Spec.cascade B fun n => x n 3) n 1) / 2) := by
  have ag : ∀ i : Fin 4, Spec.ago (Spec.cascade s.coefs x) n 1 i = Spec.ago (Spec.cascade (s.coefs.map (· i)) fun n => x n i) n 1 := fun i => by
    unfold Spec.ago
    split
    · exact cascade_lane ..
    · rfl
  simp only [pairOut, ag, cascade_lane, h.1, h.2.1, h.2.2.1, h.2.2.2]

theorem pairOut_sig {s : St} {A B : List ℝ} (h : Chains s A B) (xs : List (ℝ × ℝ)) (n : ℕ) :
    pairOut s (sig xs) n = (Spec.halfband A B (Spec.left xs) n, Spec.halfband A B (Spec.right xs) n) := by
  rw [pairOut_eq h]; rfl

theorem pairOut_stuff {s : St} {A B : List ℝ} (h : Chains s A B) (xs : List (ℝ × ℝ)) (n : ℕ) :
    pairOut s (fun k => if k % 2 = 0 then sig xs (k / 2) else 0) n =
      (Spec.halfband A B (Spec.stuff (Spec.left xs)) n, Spec.halfband A B (Spec.stuff (Spec.right xs)) n) := by
  have e : ∀ i : Fin 4, (fun k => (if k % 2 = 0 then sig xs (k / 2) else 0 : V) i) =
      Spec.stuff (fun n => sig xs n i) := fun i => by
    funext k; unfold Spec.stuff; split <;> rfl
  rw [pairOut_eq h, e, e, e, e]; rfl

/-- The statement shared by the claims below: what each of the three block functions outputs over any sequence of calls on a filter
in its initial state. -/
def Spec.Filters (s : St) (A B : List ℝ) : Prop :=
  (∀ bs, Spec.Blocks 4 256 bs → ∃ s' ys, runWith St.process s bs = .ok (s', ys) ∧ ys.length = bs.flatten.length ∧
    ∀ n < ys.length, ys.getD n 0 = (Spec.halfband A B (Spec.left bs.flatten) n, Spec.halfband A B (Spec.right bs.flatten) n)) ∧
  (∀ out bs, Spec.Blocks 8 256 bs → ∃ s' ys, runWith (St.down out) s bs = .ok (s', ys) ∧ 2 * ys.length = bs.flatten.length ∧
    ∀ n < ys.length, ys.getD n 0 =
      (Spec.halfband A B (Spec.left bs.flatten) (2 * n + 1), Spec.halfband A B (Spec.right bs.flatten) (2 * n + 1))) ∧
  (∀ out bs, Spec.Blocks 4 128 bs → ∃ s' ys, runWith (St.up out) s bs = .ok (s', ys) ∧ ys.length = 2 * bs.flatten.length ∧
    ∀ n < ys.length, ys.getD n 0 =
      (Spec.halfband A B (Spec.stuff (Spec.left bs.flatten)) n, Spec.halfband A B (Spec.stuff (Spec.right bs.flatten)) n))

theorem getD_map_range {α : Type} (f : ℕ → α) (d : α) {n k : ℕ} (h : k < n) : ((List.range n).map f).getD k d = f k := by
  simp [List.getD, h]

theorem fresh_filters {s : St} {A B : List ℝ} (hf : Fresh s) (hc : Chains s A B) : Spec.Filters s A B := by
  refine ⟨fun bs hb => ?_, fun out bs hb => ?_, fun out bs hb => ?_⟩
  · obtain ⟨s', e, -, -, -⟩ := run_process hb (hf.at _) (hf.held (sig bs.flatten)) (fun k _ => by rw [Nat.zero_add])
    refine ⟨s', _, e, by simp, fun n hn => ?_⟩
    rw [getD_map_range _ _ (by simpa using hn), Nat.zero_add, pairOut_sig hc]
  · obtain ⟨s', e, -, d8⟩ := run_down out hb (M := 0) (hf.at (sig bs.flatten)) (fun k _ => by simp)
    refine ⟨s', _, e, by rw [List.length_map, List.length_range]; omega, fun n hn => ?_⟩
    rw [getD_map_range _ _ (by simpa using hn), Nat.zero_add, pairOut_sig hc]
  · obtain ⟨s', e, -⟩ := run_up out hb (M := 0) (hf.at (fun k => if k % 2 = 0 then sig bs.flatten (k / 2) else 0)) (hf.held _) (fun k _ => by simp)
    refine ⟨s', _, e, by rw [List.length_map, List.length_range]; omega, fun n hn => ?_⟩
    rw [getD_map_range _ _ (by simpa using hn), Nat.mul_zero, Nat.zero_add, pairOut_stuff hc]

/-- **C108.**  Every filter `new` builds is, through each of its block functions and for every sequence of calls, the half-band filter
of its coefficient table applied to the concatenated input: `process_block` gives every sample, `downsample` every second one,
`upsample` the response to the zero-stuffed input.  So the division into blocks does not matter and neither channel hears the other. -/
theorem C108_one_filter {st : Bool} {m : ℕ} {a b : List ℚ} (h : table st (m * 2) = some (a, b)) :
    ∃ s, St.new m st = .ok s ∧ Spec.Filters s (Spec.rounded a) (Spec.rounded b) :=
  ⟨_, new_ok h, fresh_filters (built_fresh ..) (built_chains h)⟩

/-- **C108.**  `reset` after any history of `process_block` calls gives the filter back in its initial state. -/
theorem C108_reset {st : Bool} {m : ℕ} {a b : List ℚ} (h : table st (m * 2) = some (a, b)) {s s' : St} {bs : List (List (ℝ × ℝ))}
    {ys : List (ℝ × ℝ)} (hs : St.new m st = .ok s) (hb : Spec.Blocks 4 256 bs) (hr : runWith St.process s bs = .ok (s', ys)) :
    Spec.Filters s'.reset (Spec.rounded a) (Spec.rounded b) := by
  rw [new_ok h] at hs
  cases hs
  obtain ⟨s1, e, e2, -, -⟩ := run_process hb ((built_fresh ..).at _) ((built_fresh m st a b).held (sig bs.flatten)) (fun k _ => by rw [Nat.zero_add])
  rw [e] at hr
  obtain ⟨rfl, -⟩ : s1 = s' ∧ _ := by simpa using hr
  have hc : s1.reset.coefs = (built m st a b).coefs := by
    have : s1.reset.coefs = s1.coefs := rfl
    rw [this, e2.coefs]
  refine fresh_filters (reset_fresh _) ?_
  unfold Chains
  rw [hc]
  exact built_chains h

/-- **C108.**  `new` succeeds exactly for one to six sections; zero sections reach `unreachable!()`. -/
theorem C108_new_iff (m : ℕ) (st : Bool) : (St.new m st).isOk ↔ 0 < m ∧ m ≤ 6 := by
  constructor
  · intro h
    by_contra hn
    rcases Nat.eq_zero_or_pos m with h0 | h0
    · have e : table st (m * 2) = none := table_none h0
      simp only [St.new, St.loadCoefficients, show ¬ m > 6 by omega, if_false, e, Res.panic_bind, Res.isOk] at h
      cases h
    · have : m > 6 := by omega
      simp [St.new, this, Res.isOk] at h
  · rintro ⟨h0, h6⟩
    obtain ⟨a, b, e⟩ := table_some st h0 h6
    rw [new_ok e]; rfl

/-- **C108**, refuted for `default()`, which is what the scene, the synthesizer input and the emphasize effect use: it has no sections
and averages two neighbouring samples. -/
theorem C108_default_is_no_filter : Spec.Filters St.default [] [] ∧
    ∀ x n, Spec.halfband [] [] x n = (x n + Spec.ago x n 1) / 2 :=
  ⟨fresh_filters default_fresh default_chains, fun _ _ => rfl⟩

theorem stepBy_long (n : ℕ) (h : 256 < n) : ∃ r, stepBy n 4 = stepBy 256 4 ++ 256 :: r := by
  obtain ⟨c, hc⟩ : ∃ c, (n + 4 - 1) / 4 = 64 + (c + 1) := ⟨(n + 4 - 1) / 4 - 65, by omega⟩
  refine ⟨((List.range c).map (· + 1)).map fun i => (64 + i) * 4, ?_⟩
  have e : (256 + 4 - 1) / 4 = 64 := rfl
  rw [stepBy, hc, List.range_add, List.map_append, stepBy, e, List.map_map]
  congr 1
  rw [List.range_succ_eq_map, List.map_cons, List.map_map, List.map_map]
  rfl

/-- **C108.**  More than 256 samples in one call is a panic, in `process_block` and in `downsample`. -/
theorem C108_oversize (s : St) (l r ol or_ : ℕ → ℝ) {n : ℕ} (h : 256 < n) :
    (s.processBlock l r n).isPanic ∧ (s.downsample l r ol or_ n).isPanic := by
  obtain ⟨t, ht⟩ := stepBy_long n h
  obtain ⟨o, e, -⟩ := scratch_ok l r 64 le_rfl
  have : ∃ w, createScratch n l r = .panic w := by
    refine ⟨"ndarray: index out of bounds", ?_⟩
    rw [createScratch] at e ⊢
    rw [ht, List.foldlM_append]
    have e' : List.foldlM (scratchGroup l r) (fun _ => 0) (stepBy 256 4) = .ok o := e
    rw [e']
    simp only [List.foldlM_cons, Res.ok_bind, scratchGroup, Buf.set, lt_irrefl, if_false, Res.panic_bind]
  obtain ⟨w, hw⟩ := this
  exact ⟨by simp [St.processBlock, hw, Res.isPanic], by simp [St.downsample, hw, Res.isPanic]⟩

/-- The steep twelve-pole filter of the ring modulator and the frequency shifter meets the hypothesis, and so do two 32-sample blocks. -/
example : (∃ a b, table true (6 * 2) = some (a, b) ∧ a.length = 6) ∧
    Spec.Blocks 8 256 [List.replicate 32 (1, -1), List.replicate 32 (0, 1)] :=
  ⟨⟨_, _, rfl, rfl⟩, fun b hb => by
    rcases List.mem_cons.1 hb with rfl | hb
    · simp
    · simp at hb; subst hb; simp⟩

end Verif.Halfrate
