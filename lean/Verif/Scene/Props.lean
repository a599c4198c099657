import Verif.Scene.Model
import Mathlib.Data.List.Count
/-!
# Properties of the scene's voice management
-/
namespace Verif.Scene

/-! ## What the removal loops really remove -/

/-- How many of these indices are at most `k`. -/
def upTo (is : List Nat) (k : Nat) : Nat := is.countP fun i => decide (i ≤ k)

theorem freeAll_length {vs vs' : List Voice} {is : List Nat} (h : freeAll vs is = .ok vs') :
    vs'.length + is.length = vs.length := by
  induction is generalizing vs with
  | nil => cases h; rfl
  | cons i is ih =>
    simp only [freeAll, freeVoice] at h
    split at h
    · rename_i hi
      rw [Res.ok_bind] at h
      have := ih h
      have h2 := List.length_eraseIdx_of_lt hi
      simp only [List.length_cons]
      omega
    · cases h

/-- Freeing the collected indices one by one, each removal shifting the rest down, leaves at position `k` the voice
that was at `k` plus the number of collected indices up to `k`. -/
theorem freeAll_get {vs vs' : List Voice} {is : List Nat} (h : freeAll vs is = .ok vs')
    (hs : is.Pairwise (· < ·)) (k : Nat) : vs'[k]? = vs[k + upTo is k]? := by
  induction is generalizing vs k with
  | nil => cases h; rfl
  | cons i is ih =>
    simp only [freeAll, freeVoice] at h
    split at h
    · rw [Res.ok_bind] at h
      obtain ⟨h1, h2⟩ := List.pairwise_cons.mp hs
      rw [ih h h2 k, List.getElem?_eraseIdx]
      by_cases hk : i ≤ k
      · have hu : upTo (i :: is) k = upTo is k + 1 := by simp [upTo, hk]
        rw [hu, if_neg (by omega)]; rfl
      · have hz : upTo is k = 0 := by
          unfold upTo
          rw [List.countP_eq_zero]
          intro j hj
          have := h1 j hj
          simp only [decide_eq_true_eq]; omega
        have hu : upTo (i :: is) k = 0 := by simp [upTo, hk] at hz ⊢; exact hz
        rw [hu, hz, if_pos (by omega)]
    · cases h

theorem collect_sorted (vs : List Voice) (i : Nat) (e : Int) :
    (collect vs i e).Pairwise (· < ·) ∧ ∀ j ∈ collect vs i e, i ≤ j := by
  induction vs generalizing i e with
  | nil => exact ⟨List.Pairwise.nil, by intro j hj; cases hj⟩
  | cons v vs ih =>
    simp only [collect]
    split
    · exact ⟨List.Pairwise.nil, by intro j hj; cases hj⟩
    · split
      · obtain ⟨a, b⟩ := ih (i + 1) (e - 1)
        refine ⟨List.pairwise_cons.mpr ⟨fun j hj => by have := b j hj; omega, a⟩, ?_⟩
        intro j hj
        rcases List.mem_cons.mp hj with r | r
        · omega
        · have := b j r; omega
      · obtain ⟨a, b⟩ := ih (i + 1) e
        exact ⟨a, fun j hj => by have := b j hj; omega⟩

theorem collect_length (vs : List Voice) (i : Nat) (e : Nat) :
    (collect vs i e).length = min e (vs.countP fun v => v.uber) := by
  induction vs generalizing i e with
  | nil => simp [collect]
  | cons v vs ih =>
    simp only [collect]
    cases e with
    | zero => simp
    | succ e =>
      rw [if_neg (by omega)]
      cases hv : v.uber with
      | true =>
        have := ih (i + 1) e
        have he : ((e + 1 : Nat) : Int) - 1 = (e : Int) := by omega
        simp only [if_true, List.length_cons, he, this, List.countP_cons, hv]
        omega
      | false =>
        have := ih (i + 1) (e + 1)
        simp only [Bool.false_eq_true, if_false, this, List.countP_cons, hv]
        simp

theorem collect_none (vs : List Voice) (i : Nat) (e : Int) (h : ∀ v ∈ vs, v.uber = false) : collect vs i e = [] := by
  induction vs generalizing i e with
  | nil => rfl
  | cons v vs ih =>
    simp only [collect]
    rw [h v List.mem_cons_self]
    split
    · rfl
    · simp only [Bool.false_eq_true, if_false]
      exact ih _ _ (fun v hv => h v (List.mem_cons_of_mem _ hv))

/-- Limits small enough that nothing overflows an `i32`. -/
structure Sane (vs : List Voice) (limit margin : Int) : Prop where
  len : (vs.length : Int) ≤ 1000000
  lim : 0 ≤ limit ∧ limit ≤ 1000000
  mar : 0 ≤ margin ∧ margin ≤ 1000000

theorem enforce_eq {vs : List Voice} {limit margin : Int} (s : Sane vs limit margin) :
    enforce vs limit margin =
      if limit + margin < vs.length then freeAll vs (collect vs 0 (vs.length - limit + margin)) else .ok vs := by
  obtain ⟨a, b, c⟩ := s
  have e1 : (chkI32 (limit + margin) : P Int) = .ok (limit + margin) := by unfold chkI32; rw [if_pos (by omega)]
  have e2 : (chkI32 ((vs.length : Int) - limit) : P Int) = .ok (vs.length - limit) := by
    unfold chkI32; rw [if_pos (by omega)]
  have e3 : (chkI32 ((vs.length : Int) - limit + margin) : P Int) = .ok (vs.length - limit + margin) := by
    unfold chkI32; rw [if_pos (by omega)]
  unfold enforce
  simp only [e1, Res.ok_bind, e2, e3]
  split
  · rename_i h
    congr 2
    omega
  · rfl

/-! ## C32 -/

/-- C32 (part). With at most one voice in uber-release, enforcing the limit frees exactly that voice when there are
more than limit + margin voices, keeps the order of the others, and never goes out of bounds.  Missing: two or
more such voices (`C32_frees_the_wrong_voice`, `C32_out_of_bounds`) and the bound itself
(`C32_limit_not_enforced`). -/
theorem C32_single_uber_partial {a b : List Voice} {u : Voice} {limit margin : Int}
    (s : Sane (a ++ u :: b) limit margin) (hu : u.uber = true) (ha : ∀ v ∈ a, v.uber = false)
    (hb : ∀ v ∈ b, v.uber = false) :
    enforce (a ++ u :: b) limit margin =
      .ok (if limit + margin < (a ++ u :: b).length then a ++ b else a ++ u :: b) := by
  rw [enforce_eq s]
  obtain ⟨s1, s2, s3⟩ := s
  have hc : ∀ (a : List Voice) (i : Nat) (e : Int), (∀ v ∈ a, v.uber = false) → 0 < e →
      collect (a ++ u :: b) i e = [i + a.length] := by
    intro a
    induction a with
    | nil =>
      intro i e _ he
      simp only [List.nil_append, collect]
      rw [if_neg (by omega), hu, if_pos rfl, collect_none b _ _ hb]; rfl
    | cons v a ih =>
      intro i e h he
      simp only [List.cons_append, collect]
      rw [if_neg (by omega), h v List.mem_cons_self, if_neg (by simp),
        ih (i + 1) e (fun v hv => h v (List.mem_cons_of_mem _ hv)) he]
      simp only [List.length_cons]; congr 1; omega
  by_cases h : limit + margin < ((a ++ u :: b).length : Int)
  · rw [if_pos h, if_pos h, hc a 0 _ ha (by omega)]
    simp [freeAll, freeVoice, List.eraseIdx_append_of_length_le]
  · rw [if_neg h, if_neg h]

/-- C32. What enforcing the limit does in general: never below limit + margin, else it frees as many voices as are in
uber-release, at most len - limit + margin; when it does not panic, the voice left at position `k` is the one that
was at `k` plus the number of collected uber-release positions up to `k`. -/
theorem C32_enforce_effect_partial {vs vs' : List Voice} {limit margin : Int} (s : Sane vs limit margin)
    (h : enforce vs limit margin = .ok vs') (hgt : limit + margin < vs.length) :
    (vs'.length : Int) = vs.length - min (vs.length - limit + margin) (vs.countP fun v => v.uber) ∧
    ∀ k : Nat, vs'[k]? = vs[k + upTo (collect vs 0 (vs.length - limit + margin)) k]? := by
  rw [enforce_eq s, if_pos hgt] at h
  refine ⟨?_, freeAll_get h (collect_sorted _ _ _).1⟩
  have h1 := freeAll_length h
  obtain ⟨n, hn⟩ := Int.eq_ofNat_of_zero_le (show 0 ≤ (vs.length : Int) - limit + margin by
    have := s.mar; omega)
  rw [hn] at h1 ⊢
  have h2 := collect_length vs 0 n
  omega

/-- C32 fails (1): with no voice in uber-release nothing is freed, however many voices exceed the limit. -/
theorem C32_limit_not_enforced {vs : List Voice} {limit margin : Int} (s : Sane vs limit margin)
    (h : ∀ v ∈ vs, v.uber = false) : enforce vs limit margin = .ok vs := by
  rw [enforce_eq s, collect_none vs 0 _ h]
  split <;> rfl

/-- C32 fails (2): with two voices in uber-release in front, the second removal hits the sounding voice behind them:
the sounding voice `g` is cut off and the uber-released `u2` stays. -/
theorem C32_frees_the_wrong_voice {u1 u2 g : Voice} {rest : List Voice} {limit margin : Int}
    (s : Sane (u1 :: u2 :: g :: rest) limit margin) (h1 : u1.uber = true) (h2 : u2.uber = true)
    (hg : g.uber = false) (hr : ∀ v ∈ rest, v.uber = false)
    (hgt : limit + margin < ((u1 :: u2 :: g :: rest).length : Nat)) (hm : 0 < margin) :
    enforce (u1 :: u2 :: g :: rest) limit margin = .ok (u2 :: rest) := by
  rw [enforce_eq s, if_pos hgt]
  have : collect (u1 :: u2 :: g :: rest) 0 (((u1 :: u2 :: g :: rest).length : Nat) - limit + margin) = [0, 1] := by
    simp only [collect]
    rw [if_neg (by omega), h1, if_pos rfl, if_neg (by omega), h2, if_pos rfl, hg]
    simp only [Bool.false_eq_true, if_false]
    rw [collect_none rest _ _ hr]
    simp
  rw [this]
  simp [freeAll, freeVoice]

/-- C32 fails (3): if the last two voices are the ones in uber-release, the second removal is out of bounds. -/
theorem C32_out_of_bounds {pre : List Voice} {u1 u2 : Voice} {limit margin : Int}
    (s : Sane (pre ++ [u1, u2]) limit margin) (h1 : u1.uber = true) (h2 : u2.uber = true)
    (hp : ∀ v ∈ pre, v.uber = false) (hgt : limit + margin < ((pre ++ [u1, u2]).length : Nat)) (hm : 0 < margin) :
    ∃ w, enforce (pre ++ [u1, u2]) limit margin = .panic w := by
  rw [enforce_eq s, if_pos hgt]
  have hc : ∀ (a : List Voice) (i : Nat) (e : Int), (∀ v ∈ a, v.uber = false) → 1 < e →
      collect (a ++ [u1, u2]) i e = [i + a.length, i + a.length + 1] := by
    intro a
    induction a with
    | nil =>
      intro i e _ he
      simp only [List.nil_append, collect]
      rw [if_neg (by omega), h1, if_pos rfl, if_neg (by omega), h2, if_pos rfl]; rfl
    | cons v a ih =>
      intro i e h he
      simp only [List.cons_append, collect]
      rw [if_neg (by omega), h v List.mem_cons_self, if_neg (by simp),
        ih (i + 1) e (fun v hv => h v (List.mem_cons_of_mem _ hv)) he]
      simp only [List.length_cons]
      have : i + 1 + a.length = i + (a.length + 1) := by omega
      rw [this]
  rw [hc pre 0 _ hp (by omega)]
  refine ⟨"removal index out of bounds", ?_⟩
  simp only [freeAll, freeVoice]
  rw [if_pos (by simp), Res.ok_bind, if_neg]
  · rfl
  · have := List.length_eraseIdx_of_lt (l := pre ++ [u1, u2]) (i := 0 + pre.length) (by simp)
    simp only [List.length_append, List.length_cons, List.length_nil] at this ⊢
    omega

/-- Non-vacuity: one uber-released voice among four, limit 2, margin 1. -/
example : ∃ a b c u : Voice, enforce ([a] ++ u :: [b, c]) 2 1 = .ok ([a] ++ [b, c]) := by
  let g : Voice := { id := 0, key := 60, channel := 0, gate := true, uber := false, age := 1, ageRelease := 0 }
  refine ⟨g, { g with id := 1 }, { g with id := 2 }, { g with id := 3, uber := true, gate := false }, ?_⟩
  rw [C32_single_uber_partial ⟨by simp, by omega, by omega⟩ rfl (by simp [g]) (by simp [g])]
  simp

/-! ## C48: freeing a scene -/

/-- C48 (part). Freeing the voices of a scene works with no voice or one; with two or more it panics. -/
theorem C48_free_scene_partial (vs : List Voice) :
    (vs.length ≤ 1 → freeScene vs = .ok []) ∧ (2 ≤ vs.length → ∃ w, freeScene vs = .panic w) := by
  constructor
  · intro h
    match vs, h with
    | [], _ => rfl
    | [v], _ => rfl
  · intro h
    cases hf : freeAll vs (List.range vs.length) with
    | err e => exact e.elim
    | panic w => exact ⟨w, by unfold freeScene; rw [hf]; rfl⟩
    | ok vs' =>
      exfalso
      have hlen := freeAll_length hf
      simp only [List.length_range] at hlen
      -- the last index is never valid
      have key : ∀ (is : List Nat) (ws ws' : List Voice) (j : Nat), freeAll ws (is ++ [j]) = .ok ws' →
          j + is.length < ws.length := by
        intro is
        induction is with
        | nil =>
          intro ws ws' j h
          simp only [List.nil_append, freeAll, freeVoice] at h
          split at h
          · simpa using by assumption
          · cases h
        | cons i is ih =>
          intro ws ws' j h
          simp only [List.cons_append, freeAll, freeVoice] at h
          split at h
          · rename_i hi
            rw [Res.ok_bind] at h
            have := ih _ _ _ h
            have h2 := List.length_eraseIdx_of_lt hi
            simp only [List.length_cons]
            omega
          · cases h
      obtain ⟨n, hn⟩ : ∃ n, vs.length = n + 1 := ⟨vs.length - 1, by omega⟩
      rw [hn, List.range_succ] at hf
      have := key _ _ _ _ hf
      simp only [List.length_range] at this
      omega

/-! ## C49: voice stealing -/

/-- A voice that can be stolen first: released, not yet being killed, and released for at least one block. -/
def Voice.Releasing (v : Voice) : Prop := v.gate = false ∧ v.uber = false ∧ 0 < v.ageRelease
/-- A voice that can be stolen otherwise: held and at least one block old. -/
def Voice.Playing (v : Voice) : Prop := v.gate = true ∧ 0 < v.age

/-- What the loop has found after the voices before position `n`. -/
structure ScanInv (vs : List Voice) (n : Nat) (k : Kill) : Prop where
  rel0 : k.maxRel = 0 → k.released = none ∧ ∀ j < n, ∀ v, vs[j]? = some v → ¬v.Releasing
  rel1 : k.maxRel ≠ 0 → 0 < k.maxRel ∧ ∃ i v, k.released = some i ∧ i < n ∧ vs[i]? = some v ∧ v.Releasing ∧
    v.ageRelease = k.maxRel ∧ ∀ j < n, ∀ w, vs[j]? = some w → w.Releasing → w.ageRelease ≤ k.maxRel
  pl0 : k.maxAge = 0 → k.playing = none ∧ ∀ j < n, ∀ v, vs[j]? = some v → ¬v.Playing
  pl1 : k.maxAge ≠ 0 → 0 < k.maxAge ∧ ∃ i v, k.playing = some i ∧ i < n ∧ vs[i]? = some v ∧ v.Playing ∧
    v.age = k.maxAge ∧ ∀ j < n, ∀ w, vs[j]? = some w → w.Playing → w.age ≤ k.maxAge

theorem ScanInv.start (vs : List Voice) : ScanInv vs 0 {} :=
  ⟨fun _ => ⟨rfl, by intro j hj; omega⟩, fun h => absurd rfl h, fun _ => ⟨rfl, by intro j hj; omega⟩,
    fun h => absurd rfl h⟩

theorem ScanInv.next {vs : List Voice} {n : Nat} {k : Kill} (i : ScanInv vs n k) {v : Voice} (hv : vs[n]? = some v) :
    ScanInv vs (n + 1) (k.step n v) := by
  have cases_lt : ∀ j, j < n + 1 → j < n ∨ j = n := by intro j h; omega
  have rnn : 0 ≤ k.maxRel := by
    by_cases h : k.maxRel = 0
    · omega
    · have := (i.rel1 h).1; omega
  have pnn : 0 ≤ k.maxAge := by
    by_cases h : k.maxAge = 0
    · omega
    · have := (i.pl1 h).1; omega
  have extR0 : ¬v.Releasing → ∀ j < n + 1, (∀ j < n, ∀ v, vs[j]? = some v → ¬v.Releasing) →
      ∀ w, vs[j]? = some w → ¬w.Releasing := by
    intro hnv j hj hall w hw
    rcases cases_lt j hj with h | h
    · exact hall j h w hw
    · subst h; rw [hv] at hw; cases hw; exact hnv
  have extP0 : ¬v.Playing → ∀ j < n + 1, (∀ j < n, ∀ v, vs[j]? = some v → ¬v.Playing) →
      ∀ w, vs[j]? = some w → ¬w.Playing := by
    intro hnv j hj hall w hw
    rcases cases_lt j hj with h | h
    · exact hall j h w hw
    · subst h; rw [hv] at hw; cases hw; exact hnv
  -- keep the released half when `v` does not beat it
  have keepR : ∀ k' : Kill, k'.maxRel = k.maxRel → k'.released = k.released →
      (v.Releasing → v.ageRelease ≤ k.maxRel) →
      (k'.maxRel = 0 → k'.released = none ∧ ∀ j < n + 1, ∀ v, vs[j]? = some v → ¬v.Releasing) ∧
      (k'.maxRel ≠ 0 → 0 < k'.maxRel ∧ ∃ i v, k'.released = some i ∧ i < n + 1 ∧ vs[i]? = some v ∧ v.Releasing ∧
        v.ageRelease = k'.maxRel ∧ ∀ j < n + 1, ∀ w, vs[j]? = some w → w.Releasing → w.ageRelease ≤ k'.maxRel) := by
    intro k' e1 e2 hle
    rw [e1, e2]
    constructor
    · intro h
      obtain ⟨a, b⟩ := i.rel0 h
      refine ⟨a, fun j hj => extR0 (fun hr => ?_) j hj b⟩
      have := hle hr; have := hr.2.2; omega
    · intro h
      obtain ⟨a, i0, v0, b, c, d, e, f, g⟩ := i.rel1 h
      refine ⟨a, i0, v0, b, by omega, d, e, f, fun j hj w hw hr => ?_⟩
      rcases cases_lt j hj with h | h
      · exact g j h w hw hr
      · subst h; rw [hv] at hw; cases hw; exact hle hr
  have keepP : ∀ k' : Kill, k'.maxAge = k.maxAge → k'.playing = k.playing →
      (v.Playing → v.age ≤ k.maxAge) →
      (k'.maxAge = 0 → k'.playing = none ∧ ∀ j < n + 1, ∀ v, vs[j]? = some v → ¬v.Playing) ∧
      (k'.maxAge ≠ 0 → 0 < k'.maxAge ∧ ∃ i v, k'.playing = some i ∧ i < n + 1 ∧ vs[i]? = some v ∧ v.Playing ∧
        v.age = k'.maxAge ∧ ∀ j < n + 1, ∀ w, vs[j]? = some w → w.Playing → w.age ≤ k'.maxAge) := by
    intro k' e1 e2 hle
    rw [e1, e2]
    constructor
    · intro h
      obtain ⟨a, b⟩ := i.pl0 h
      refine ⟨a, fun j hj => extP0 (fun hr => ?_) j hj b⟩
      have := hle hr; have := hr.2; omega
    · intro h
      obtain ⟨a, i0, v0, b, c, d, e, f, g⟩ := i.pl1 h
      refine ⟨a, i0, v0, b, by omega, d, e, f, fun j hj w hw hr => ?_⟩
      rcases cases_lt j hj with h | h
      · exact g j h w hw hr
      · subst h; rw [hv] at hw; cases hw; exact hle hr
  have hmaxR : k.maxRel < v.ageRelease → ∀ j < n + 1, ∀ w, vs[j]? = some w → w.Releasing →
      w.ageRelease ≤ v.ageRelease := by
    intro hlt j hj w hw hr
    rcases cases_lt j hj with h | h
    · by_cases hz : k.maxRel = 0
      · exact absurd hr ((i.rel0 hz).2 j h w hw)
      · obtain ⟨_, _, _, _, _, _, _, _, g⟩ := i.rel1 hz
        have := g j h w hw hr; omega
    · subst h; rw [hv] at hw; cases hw; omega
  have hmaxP : k.maxAge < v.age → ∀ j < n + 1, ∀ w, vs[j]? = some w → w.Playing → w.age ≤ v.age := by
    intro hlt j hj w hw hr
    rcases cases_lt j hj with h | h
    · by_cases hz : k.maxAge = 0
      · exact absurd hr ((i.pl0 hz).2 j h w hw)
      · obtain ⟨_, _, _, _, _, _, _, _, g⟩ := i.pl1 hz
        have := g j h w hw hr; omega
    · subst h; rw [hv] at hw; cases hw; omega
  unfold Kill.step
  cases hg : v.gate with
  | true =>
    rw [if_pos rfl]
    have hnr : v.Releasing → v.ageRelease ≤ k.maxRel := by intro h; rw [h.1] at hg; cases hg
    by_cases hlt : k.maxAge < v.age
    · rw [if_pos hlt]
      obtain ⟨r0, r1⟩ := keepR { k with maxAge := v.age, playing := some n } rfl rfl hnr
      refine ⟨r0, r1, ?_, ?_⟩
      · intro h; simp only at h; omega
      · intro _
        exact ⟨by show 0 < v.age; omega, n, v, rfl, by omega, hv, ⟨hg, by omega⟩, rfl, hmaxP hlt⟩
    · rw [if_neg hlt]
      obtain ⟨r0, r1⟩ := keepR k rfl rfl hnr
      obtain ⟨p0, p1⟩ := keepP k rfl rfl (by intro _; omega)
      exact ⟨r0, r1, p0, p1⟩
  | false =>
    rw [if_neg (by simp)]
    have hnp : v.Playing → v.age ≤ k.maxAge := by intro h; rw [h.1] at hg; cases hg
    cases hu : v.uber with
    | true =>
      simp only [Bool.not_true, Bool.false_and, Bool.false_eq_true, if_false]
      obtain ⟨r0, r1⟩ := keepR k rfl rfl (by intro h; rw [h.2.1] at hu; cases hu)
      obtain ⟨p0, p1⟩ := keepP k rfl rfl hnp
      exact ⟨r0, r1, p0, p1⟩
    | false =>
      simp only [Bool.not_false, Bool.true_and, decide_eq_true_eq]
      by_cases hlt : k.maxRel < v.ageRelease
      · rw [if_pos hlt]
        obtain ⟨p0, p1⟩ := keepP { k with maxRel := v.ageRelease, released := some n } rfl rfl hnp
        refine ⟨?_, ?_, p0, p1⟩
        · intro h; simp only at h; omega
        · intro _
          exact ⟨by show 0 < v.ageRelease; omega, n, v, rfl, by omega, hv, ⟨hg, hu, by omega⟩, rfl, hmaxR hlt⟩
      · rw [if_neg hlt]
        obtain ⟨r0, r1⟩ := keepR k rfl rfl (by intro _; omega)
        obtain ⟨p0, p1⟩ := keepP k rfl rfl hnp
        exact ⟨r0, r1, p0, p1⟩

theorem ScanInv.scan {vs pre post : List Voice} {k : Kill} (h : vs = pre ++ post) (i : ScanInv vs pre.length k) :
    ScanInv vs vs.length (Kill.scan k pre.length post) := by
  induction post generalizing pre k with
  | nil => simp only [List.append_nil] at h; subst h; exact i
  | cons v post ih =>
    simp only [Kill.scan]
    have hv : vs[pre.length]? = some v := by rw [h]; simp
    have := ih (pre := pre ++ [v]) (k := k.step pre.length v) (by simp [h])
    simp only [List.length_append, List.length_cons, List.length_nil, Nat.zero_add] at this
    exact this (i.next hv)

/-- C49. Stealing a voice never panics.  If some voice is releasing (and not already killed), it kills the one
released longest; otherwise the oldest held voice; if there is neither, nothing happens.  Nothing else changes. -/
theorem C49_softkill (vs : List Voice) :
    (∃ i v, vs[i]? = some v ∧ v.Releasing ∧ (∀ w ∈ vs, w.Releasing → w.ageRelease ≤ v.ageRelease) ∧
      softkill vs = .ok (vs.set i v.uberRelease)) ∨
    ((∀ w ∈ vs, ¬w.Releasing) ∧ ∃ i v, vs[i]? = some v ∧ v.Playing ∧
      (∀ w ∈ vs, w.Playing → w.age ≤ v.age) ∧ softkill vs = .ok (vs.set i v.uberRelease)) ∨
    ((∀ w ∈ vs, ¬w.Releasing ∧ ¬w.Playing) ∧ softkill vs = .ok vs) := by
  have inv := ScanInv.scan (vs := vs) (pre := []) (post := vs) rfl (ScanInv.start vs)
  simp only [List.length_nil] at inv
  have hset : ∀ (i : Nat) (v : Voice), vs[i]? = some v →
      vs.modify i Voice.uberRelease = vs.set i v.uberRelease := by
    intro i v h
    rw [List.modify_eq_set_getElem?, h]; rfl
  have idx : ∀ w ∈ vs, ∃ j, j < vs.length ∧ vs[j]? = some w := by
    intro w hw
    obtain ⟨j, hj, e⟩ := List.getElem_of_mem hw
    exact ⟨j, hj, by rw [List.getElem?_eq_getElem hj, e]⟩
  unfold softkill
  by_cases hr : (Kill.scan {} 0 vs).maxRel = 0
  · have hnr : ∀ w ∈ vs, ¬w.Releasing := by
      intro w hw
      obtain ⟨j, hj, e⟩ := idx w hw
      exact (inv.rel0 hr).2 j hj w e
    by_cases hp : (Kill.scan {} 0 vs).maxAge = 0
    · right; right
      refine ⟨fun w hw => ⟨hnr w hw, ?_⟩, by simp [hr, hp]⟩
      obtain ⟨j, hj, e⟩ := idx w hw
      exact (inv.pl0 hp).2 j hj w e
    · right; left
      obtain ⟨_, i, v, e1, _, e2, e3, e4, e5⟩ := inv.pl1 hp
      refine ⟨hnr, i, v, e2, e3, ?_, ?_⟩
      · intro w hw h
        obtain ⟨j, hj, e⟩ := idx w hw
        rw [e4]; exact e5 j hj w e h
      · simp [hr, hp, e1, uberAt, hset i v e2]
  · left
    obtain ⟨_, i, v, e1, _, e2, e3, e4, e5⟩ := inv.rel1 hr
    refine ⟨i, v, e2, e3, ?_, ?_⟩
    · intro w hw h
      obtain ⟨j, hj, e⟩ := idx w hw
      rw [e4]; exact e5 j hj w e h
    · simp [hr, e1, uberAt, hset i v e2]

/-- Voices at least one block old in their present phase, and a killed voice is not held. -/
def Aged (vs : List Voice) : Prop :=
  ∀ v ∈ vs, (v.gate = true → v.uber = false ∧ 0 < v.age) ∧ (v.gate = false → v.uber = false → 0 < v.ageRelease)

theorem nonUber_set {vs : List Voice} {i : Nat} {v : Voice} (h : vs[i]? = some v) (hv : v.uber = false) :
    nonUber (vs.set i v.uberRelease) + 1 = nonUber vs := by
  unfold nonUber
  have hi : i < vs.length := by
    by_contra hc
    rw [List.getElem?_eq_none (by omega)] at h; cases h
  have hg : vs[i] = v := by rw [List.getElem?_eq_getElem hi] at h; injection h
  have hmem : v ∈ vs := hg ▸ List.getElem_mem hi
  rw [List.countP_set hi, hg]
  have hpos : 0 < vs.countP fun v => !v.uber := List.countP_pos_iff.mpr ⟨v, hmem, by simp [hv]⟩
  simp only [hv, Voice.uberRelease, Bool.not_false, if_true, Bool.not_true, Bool.false_eq_true, if_false]
  omega

theorem Aged.set {vs : List Voice} (a : Aged vs) (i : Nat) (v : Voice) : Aged (vs.set i v.uberRelease) := by
  intro w hw
  rcases List.mem_or_eq_of_mem_set hw with h | h
  · exact a w h
  · subst h
    refine ⟨fun h => ?_, fun _ h => ?_⟩ <;> simp [Voice.uberRelease] at h

theorem Aged.softkill {vs : List Voice} (a : Aged vs) :
    ∃ vs', softkill vs = .ok vs' ∧ Aged vs' ∧ nonUber vs' = nonUber vs - 1 ∧ vs'.length = vs.length := by
  rcases C49_softkill vs with ⟨i, v, h, r, _, e⟩ | ⟨_, i, v, h, p, _, e⟩ | ⟨n, e⟩
  · have := nonUber_set h r.2.1
    exact ⟨_, e, a.set i v, by omega, by simp⟩
  · have hv : v ∈ vs := List.mem_of_getElem? h
    have := nonUber_set h ((a v hv).1 p.1).1
    exact ⟨_, e, a.set i v, by omega, by simp⟩
  · refine ⟨vs, e, a, ?_, rfl⟩
    have : nonUber vs = 0 := by
      unfold nonUber
      rw [List.countP_eq_zero]
      intro v hv
      cases hu : v.uber with
      | true => simp
      | false =>
        exfalso
        cases hg : v.gate with
        | true => exact (n v hv).2 ⟨hg, ((a v hv).1 hg).2⟩
        | false => exact (n v hv).1 ⟨hg, hu, (a v hv).2 hg hu⟩
    omega

theorem Aged.softkillN {vs : List Voice} (a : Aged vs) (n : Nat) :
    ∃ vs', softkillN n vs = .ok vs' ∧ Aged vs' ∧ nonUber vs' = nonUber vs - n ∧ vs'.length = vs.length := by
  induction n generalizing vs with
  | zero => exact ⟨vs, rfl, a, by omega, rfl⟩
  | succ n ih =>
    obtain ⟨v1, e1, a1, n1, l1⟩ := a.softkill
    obtain ⟨v2, e2, a2, n2, l2⟩ := ih a1
    exact ⟨v2, by simp only [Scene.softkillN]; rw [e1, Res.ok_bind, e2], a2, by omega, by omega⟩

/-- C49 (part). The stealing loop that runs before a note is played leaves room for it: fewer than `limit` voices are
not being killed.  Every voice must be at least one block old: notes started in the same block cannot be stolen
(`C49_new_voices_not_stolen`). -/
theorem C49_room_for_new_voice_partial {vs : List Voice} (a : Aged vs) (limit : Nat) (hl : 1 ≤ limit) :
    ∃ vs', softkillN (nonUber vs + 1 - limit) vs = .ok vs' ∧ nonUber vs' < limit ∧ vs'.length = vs.length := by
  obtain ⟨vs', e, _, n, l⟩ := a.softkillN (nonUber vs + 1 - limit)
  exact ⟨vs', e, by omega, l⟩

/-- C49 fails for chords: held voices of age 0 are never stolen, so the count stays where it is. -/
theorem C49_new_voices_not_stolen {vs : List Voice} (h : ∀ v ∈ vs, v.gate = true ∧ v.age = 0) (n : Nat) :
    softkillN n vs = .ok vs := by
  have h1 : softkill vs = .ok vs := by
    rcases C49_softkill vs with ⟨i, v, hv, r, _, _⟩ | ⟨_, i, v, hv, p, _, _⟩ | ⟨_, e⟩
    · have := h v (List.mem_of_getElem? hv)
      rw [r.1] at this; cases this.1
    · have := h v (List.mem_of_getElem? hv)
      have := p.2; omega
    · exact e
  induction n with
  | zero => rfl
  | succ n ih => simp only [softkillN]; rw [h1, Res.ok_bind, ih]

/-- Non-vacuity: three aged voices, limit 2. -/
example : ∃ vs', softkillN 2 [⟨0, 60, 0, true, false, 5, 0⟩, ⟨1, 62, 0, false, false, 9, 2⟩,
    ⟨2, 64, 0, true, false, 7, 0⟩] = .ok vs' ∧ nonUber vs' < 2 := by
  obtain ⟨vs', e, n, _⟩ := C49_room_for_new_voice_partial (vs := [⟨0, 60, 0, true, false, 5, 0⟩,
    ⟨1, 62, 0, false, false, 9, 2⟩, ⟨2, 64, 0, true, false, 7, 0⟩]) (by simp [Aged]) 2 (by omega)
  exact ⟨vs', e, n⟩

/-! ## C50: latched notes -/

/-- C50 fails: which scene plays does not matter to the scene itself; every scene with a pending latched release
reacts to the flag of scene A only. For scenes with at most one voice: after the control step the scene's voices
are gone exactly when scene A does not play or the release was forced; scene B's own flag is ignored. -/
theorem C50_latched_release_uses_scene_a (playA playB : Bool) (s : Latch) (h : s.latched = true)
    (hv : s.voices.length ≤ 1) :
    controlRelease playA playB [s] =
      .ok [{ latched := false, anyway := false, voices := if !playA || s.anyway then [] else s.voices }] := by
  have hf := (C48_free_scene_partial s.voices).1 hv
  unfold controlRelease controlRelease Latch.maybeRelease
  rw [h, if_pos rfl]
  cases hc : (!playA || s.anyway) with
  | true => simp only [if_true, hf, Res.ok_bind, Res.pure_eq, Bool.false_eq_true, if_false]
  | false => simp only [if_false, Res.ok_bind, Res.pure_eq, Bool.false_eq_true]

/-- C50. A scene without a pending latched release is left alone, whatever plays. -/
theorem C50_no_pending_release_partial (playA playB : Bool) (ss : List Latch) (h : ∀ s ∈ ss, s.latched = false) :
    controlRelease playA playB ss = .ok ss := by
  induction ss with
  | nil => rfl
  | cons s ss ih =>
    have hs := h s List.mem_cons_self
    unfold controlRelease Latch.maybeRelease
    simp only [hs, Bool.false_eq_true, if_false, Res.ok_bind,
      ih (fun s hs => h s (List.mem_cons_of_mem _ hs)), Res.pure_eq]

/-! ## C51: monophonic modes -/

/-- C51. The note a monophonic scene would fall back to without MPE is the highest key still held on the channel. -/
theorem C51_fallback_is_highest_partial (keystate : Nat → Nat → Int) (ch : Nat) :
    (∀ c k, scanKeys keystate ch keysDown = some (c, k) ↔
      c = ch ∧ k < 128 ∧ keystate ch k ≠ 0 ∧ ∀ q < 128, k < q → keystate ch q = 0) ∧
    (scanKeys keystate ch keysDown = none ↔ ∀ k < 128, keystate ch k = 0) := by
  have key : ∀ n, (∀ c k, scanKeys keystate ch (List.range n).reverse = some (c, k) ↔
      c = ch ∧ k < n ∧ keystate ch k ≠ 0 ∧ ∀ q < n, k < q → keystate ch q = 0) ∧
      (scanKeys keystate ch (List.range n).reverse = none ↔ ∀ k < n, keystate ch k = 0) := by
    intro n
    induction n with
    | zero => simp [scanKeys]
    | succ n ih =>
      rw [List.range_succ, List.reverse_append]
      simp only [List.reverse_cons, List.reverse_nil, List.nil_append, List.singleton_append, scanKeys]
      by_cases hk : keystate ch n ≠ 0
      · rw [if_pos hk]
        constructor
        · intro c k
          constructor
          · intro h
            cases h
            exact ⟨rfl, by omega, hk, fun q h1 h2 => by omega⟩
          · rintro ⟨rfl, h1, h2, h3⟩
            have : k = n := by
              by_contra hne
              exact hk (h3 n (by omega) (by omega))
            rw [this]
        · constructor
          · intro h; cases h
          · intro h; exact absurd (h n (by omega)) hk
      · rw [if_neg hk]
        have hk0 : keystate ch n = 0 := by simpa using hk
        constructor
        · intro c k
          rw [ih.1 c k]
          constructor
          · rintro ⟨a, b, c', d⟩
            refine ⟨a, by omega, c', fun q h1 h2 => ?_⟩
            by_cases hq : q = n
            · rw [hq]; exact hk0
            · exact d q (by omega) h2
          · rintro ⟨a, b, c', d⟩
            refine ⟨a, ?_, c', fun q h1 h2 => d q (by omega) h2⟩
            by_contra hc
            have : k = n := by omega
            subst this; exact c' hk0
        · rw [ih.2]
          constructor
          · intro h k hlt
            by_cases hq : k = n
            · rw [hq]; exact hk0
            · exact h k (by omega)
          · intro h k hlt; exact h k (by omega)
  exact key 128

/-- C51 fails: releasing the sounding note of a monophonic scene never starts the fallback note: the count that
must be zero includes the voice being released. -/
theorem C51_fallback_never_played {vs : List Voice} {i : Nat} {v : Voice} (h : vs[i]? = some v)
    (hu : v.uber = false) (keystate : Nat → Nat → Int) (mpe latch : Bool) (ch key : Nat) {out : MonoOut}
    (ho : releaseMono vs i keystate mpe latch ch key = .ok out) : out.play = none := by
  have hpos : nonUber vs ≠ 0 := by
    unfold nonUber
    have : 0 < vs.countP fun v => !v.uber :=
      List.countP_pos_iff.mpr ⟨v, List.mem_of_getElem? h, by simp [hu]⟩
    omega
  unfold releaseMono at ho
  rw [h] at ho
  simp only at ho
  by_cases c1 : v.key = key ∧ v.channel = ch
  · rw [if_pos c1] at ho
    split at ho
    · cases ho; simp [hpos]
    · cases ho; rfl
  · rw [if_neg c1] at ho
    cases ho; rfl

/-- C51. A release of another key or channel changes nothing. -/
theorem C51_other_key_untouched_partial {vs : List Voice} {i : Nat} {v : Voice} (h : vs[i]? = some v)
    (keystate : Nat → Nat → Int) (mpe latch : Bool) (ch key : Nat) (hn : v.key ≠ key ∨ v.channel ≠ ch) :
    releaseMono vs i keystate mpe latch ch key = .ok ⟨vs, none⟩ := by
  unfold releaseMono
  rw [h]
  simp only
  rw [if_neg (by omega)]

/-! ## Making room, MPE and the released voice -/

/-- C49 (part). All that happens before a voice is created: as many voices are stolen as exceed the limit less one, which leaves room, and then
the polyphony limit is enforced with the configured limit and a margin of 3. -/
theorem C49_make_room_partial {vs : List Voice} (a : Aged vs) (limit : Nat) (hl : 1 ≤ limit) (hb : limit ≤ 1000000) (hn : vs.length ≤ 1000000) :
    ∃ vs', softkillN (nonUber vs + 1 - limit) vs = .ok vs' ∧ nonUber vs' < limit ∧ vs'.length = vs.length ∧ makeRoom vs limit = enforce vs' limit 3 := by
  obtain ⟨vs', e, h1, h2⟩ := C49_room_for_new_voice_partial a limit hl
  refine ⟨vs', e, h1, h2, ?_⟩
  have hc : nonUber vs ≤ vs.length := List.countP_le_length
  have c1 : (chkI32 ((nonUber vs : Int) - limit) : P Int) = .ok ((nonUber vs : Int) - limit) := by
    unfold chkI32; rw [if_pos (by constructor <;> omega)]
  have c2 : (chkI32 ((nonUber vs : Int) - limit + 1) : P Int) = .ok ((nonUber vs : Int) - limit + 1) := by
    unfold chkI32; rw [if_pos (by constructor <;> omega)]
  unfold makeRoom
  rw [c1, Res.ok_bind, c2, Res.ok_bind, show (max 0 ((nonUber vs : Int) - limit + 1)).toNat = nonUber vs + 1 - limit by omega, e, Res.ok_bind]

example : ∃ vs : List Voice, Aged vs ∧ vs.length = 3 ∧ 2 ≤ 1000000 :=
  ⟨[⟨0, 60, 0, true, false, 5, 0⟩, ⟨1, 62, 0, false, false, 9, 2⟩, ⟨2, 64, 0, true, false, 7, 0⟩], by simp [Aged], rfl, by omega⟩

theorem scanChans_spec (ks : Nat → Nat → Int) (ch k : Nat) : ∀ (n a : Nat) (r : Option (Nat × Nat)),
    (∀ c q, scanChans ks ch k (List.range' a n) r = some (c, q) ↔
      (q = k ∧ a ≤ c ∧ c < a + n ∧ c ≠ ch ∧ ks c k ≠ 0 ∧ ∀ c', c < c' → c' < a + n → c' ≠ ch → ks c' k = 0) ∨
      ((∀ c', a ≤ c' → c' < a + n → c' ≠ ch → ks c' k = 0) ∧ r = some (c, q))) := by
  intro n
  induction n with
  | zero =>
    intro a r c q
    simp only [List.range'_zero, scanChans]
    constructor
    · intro h; exact .inr ⟨fun c' x y => by omega, h⟩
    · rintro (⟨_, b, c1, _⟩ | ⟨_, e⟩)
      · omega
      · exact e
  | succ n ih =>
    intro a r c q
    rw [List.range'_succ, scanChans, ih]
    by_cases h : a ≠ ch ∧ ks a k ≠ 0
    · rw [if_pos h]
      constructor
      · rintro (⟨e, b, c1, d, f, g⟩ | ⟨g, e⟩)
        · exact .inl ⟨e, by omega, by omega, d, f, fun c' x y => g c' x (by omega)⟩
        · cases e
          exact .inl ⟨rfl, Nat.le_refl _, by omega, h.1, h.2, fun c' x y => g c' (by omega) (by omega)⟩
      · rintro (⟨e, b, c1, d, f, g⟩ | ⟨g, _⟩)
        · by_cases ha : a = c
          · subst ha; subst e
            exact .inr ⟨fun c' x y => g c' (by omega) (by omega), rfl⟩
          · exact .inl ⟨e, by omega, by omega, d, f, fun c' x y => g c' x (by omega)⟩
        · exact absurd (g a (Nat.le_refl _) (by omega) h.1) h.2
    · rw [if_neg h]
      have h' : a ≠ ch → ks a k = 0 := fun x => by by_contra hc; exact h ⟨x, hc⟩
      constructor
      · rintro (⟨e, b, c1, d, f, g⟩ | ⟨g, e⟩)
        · exact .inl ⟨e, by omega, by omega, d, f, fun c' x y => g c' x (by omega)⟩
        · refine .inr ⟨fun c' x y z => ?_, e⟩
          by_cases hc : c' = a
          · subst hc; exact h' z
          · exact g c' (by omega) (by omega) z
      · rintro (⟨e, b, c1, d, f, g⟩ | ⟨g, e⟩)
        · by_cases ha : a = c
          · subst ha; exact absurd (h' d) f
          · exact .inl ⟨e, by omega, by omega, d, f, fun c' x y => g c' x (by omega)⟩
        · exact .inr ⟨fun c' x y z => g c' (by omega) (by omega) z, e⟩

/-- A key held on a member channel other than the released one. -/
def Spec.heldElsewhere (ks : Nat → Nat → Int) (ch c k : Nat) : Prop := 1 ≤ c ∧ c ≤ 15 ∧ c ≠ ch ∧ ks c k ≠ 0

/-- C51. With MPE the note a monophonic scene would fall back to is the highest key held on any other member channel, on the highest such channel;
there is none only if no key is held on another member channel. -/
theorem C51_mpe_fallback_partial (ks : Nat → Nat → Int) (ch : Nat) :
    (∀ c k, scanKeysMpe ks ch keysDown = some (c, k) ↔ k < 128 ∧ Spec.heldElsewhere ks ch c k ∧ (∀ c', c < c' → ¬ Spec.heldElsewhere ks ch c' k) ∧
      ∀ q, k < q → q < 128 → ∀ c', ¬ Spec.heldElsewhere ks ch c' q) ∧
    (scanKeysMpe ks ch keysDown = none ↔ ∀ k, k < 128 → ∀ c, ¬ Spec.heldElsewhere ks ch c k) := by
  have one : ∀ k, (∀ c q, scanChans ks ch k (List.range' 1 15) none = some (c, q) ↔
      q = k ∧ Spec.heldElsewhere ks ch c k ∧ ∀ c', c < c' → ¬ Spec.heldElsewhere ks ch c' k) ∧
      (scanChans ks ch k (List.range' 1 15) none = none ↔ ∀ c, ¬ Spec.heldElsewhere ks ch c k) := by
    intro k
    have h1 : ∀ c q, scanChans ks ch k (List.range' 1 15) none = some (c, q) ↔
      q = k ∧ Spec.heldElsewhere ks ch c k ∧ ∀ c', c < c' → ¬ Spec.heldElsewhere ks ch c' k := by
      intro c q
      rw [scanChans_spec]
      unfold Spec.heldElsewhere
      constructor
      · rintro (⟨e, b, c1, d, f, g⟩ | ⟨_, e⟩)
        · exact ⟨e, ⟨b, by omega, d, f⟩, fun c' x ⟨_, y, z, w⟩ => w (g c' x (by omega) z)⟩
        · cases e
      · rintro ⟨e, ⟨b, c1, d, f⟩, g⟩
        refine .inl ⟨e, b, by omega, d, f, fun c' x y z => ?_⟩
        by_contra hc
        exact g c' x ⟨by omega, by omega, z, hc⟩
    refine ⟨h1, ?_⟩
    constructor
    · intro hn c hc
      -- the highest channel with the key
      have : ∃ c, Spec.heldElsewhere ks ch c k ∧ ∀ c', c < c' → ¬ Spec.heldElsewhere ks ch c' k := by
        by_contra hcon
        push Not at hcon
        have up : ∀ n, ∃ c, n ≤ c ∧ Spec.heldElsewhere ks ch c k := by
          intro n
          induction n with
          | zero => exact ⟨c, by omega, hc⟩
          | succ n ih =>
            obtain ⟨c1, a, b⟩ := ih
            obtain ⟨c2, x, y⟩ := hcon c1 b
            exact ⟨c2, by omega, y⟩
        obtain ⟨c1, a, b⟩ := up 16
        have := b.2.1; omega
      obtain ⟨c1, a, b⟩ := this
      rw [(h1 c1 k).mpr ⟨rfl, a, b⟩] at hn
      cases hn
    · intro h
      cases hr : scanChans ks ch k (List.range' 1 15) none with
      | none => rfl
      | some cq =>
        obtain ⟨c, q⟩ := cq
        exact absurd ((h1 c q).mp hr).2.1 (h c)
  have key : ∀ n, (∀ c k, scanKeysMpe ks ch (List.range n).reverse = some (c, k) ↔ k < n ∧ Spec.heldElsewhere ks ch c k ∧ (∀ c', c < c' → ¬ Spec.heldElsewhere ks ch c' k) ∧
      ∀ q, k < q → q < n → ∀ c', ¬ Spec.heldElsewhere ks ch c' q) ∧
      (scanKeysMpe ks ch (List.range n).reverse = none ↔ ∀ k, k < n → ∀ c, ¬ Spec.heldElsewhere ks ch c k) := by
    intro n
    induction n with
    | zero => simp [scanKeysMpe]
    | succ n ih =>
      rw [List.range_succ, List.reverse_append]
      simp only [List.reverse_cons, List.reverse_nil, List.nil_append, List.singleton_append, scanKeysMpe]
      cases hr : scanChans ks ch n (List.range' 1 15) none with
      | some cq =>
        obtain ⟨c0, q0⟩ := cq
        obtain ⟨rfl, b, g⟩ := ((one n).1 c0 q0).mp hr
        dsimp only
        refine ⟨fun c k => ?_, ?_⟩
        · constructor
          · intro h; cases h
            exact ⟨by omega, b, g, fun q x y => by omega⟩
          · rintro ⟨h1, h2, h3, h4⟩
            have : k = q0 := by
              by_contra hne
              exact h4 q0 (by omega) (by omega) c0 b
            subst this
            have : c = c0 := by
              rcases Nat.lt_trichotomy c c0 with x | x | x
              · exact absurd b (h3 c0 x)
              · exact x
              · exact absurd h2 (g c x)
            rw [this]
        · constructor
          · intro h; cases h
          · intro h; exact absurd b (h q0 (by omega) c0)
      | none =>
        have hz := (one n).2.mp hr
        dsimp only
        refine ⟨fun c k => ?_, ?_⟩
        · rw [ih.1 c k]
          constructor
          · rintro ⟨h1, h2, h3, h4⟩
            refine ⟨by omega, h2, h3, fun q x y c' => ?_⟩
            by_cases hq : q = n
            · subst hq; exact hz c'
            · exact h4 q x (by omega) c'
          · rintro ⟨h1, h2, h3, h4⟩
            have : k ≠ n := by rintro rfl; exact hz c h2
            exact ⟨by omega, h2, h3, fun q x y => h4 q x (by omega)⟩
        · rw [ih.2]
          constructor
          · intro h k hk
            by_cases hq : k = n
            · subst hq; exact hz
            · exact h k (by omega)
          · intro h k hk; exact h k (by omega)
  exact key 128

/-- C51. The voice whose key is let go is released in every case, and killed quickly when another key is held to take over. -/
theorem C51_voice_released_partial {vs : List Voice} {i : Nat} {v : Voice} (h : vs[i]? = some v) (ks : Nat → Nat → Int) (latch : Bool) (ch : Nat) (k : Nat)
    (hk : v.key = k) (hc : v.channel = ch) :
    ((∃ q, q < 128 ∧ ks ch q ≠ 0) → ∃ play, releaseMono vs i ks false latch ch k = .ok ⟨vs.set i { v with gate := false, uber := true }, play⟩) ∧
    ((∀ q, q < 128 → ks ch q = 0) → ∃ play, releaseMono vs i ks false latch ch k = .ok ⟨vs.set i { v with gate := false }, play⟩) := by
  have md : ∀ f : Voice → Voice, vs.modify i f = vs.set i (f v) := by
    intro f
    have hi : i < vs.length := by
      by_contra hcon
      rw [List.getElem?_eq_none (by omega)] at h; cases h
    rw [List.modify_eq_set_getElem?, h]
    rfl
  have sp := C51_fallback_is_highest_partial ks ch
  unfold releaseMono
  rw [h]
  dsimp only
  rw [if_pos ⟨hk, hc⟩]
  simp only [Bool.false_eq_true, if_false]
  cases hr : scanKeys ks ch keysDown with
  | some t =>
    obtain ⟨c, q⟩ := t
    obtain ⟨rfl, a, b, _⟩ := (sp.1 c q).mp hr
    refine ⟨fun _ => ⟨if nonUber vs = 0 then some (c, q) else none, ?_⟩, fun hz => absurd (hz q a) b⟩
    dsimp only
    rw [md]
    simp [Voice.release, Voice.uberRelease]
  | none =>
    have hz := sp.2.mp hr
    refine ⟨fun ⟨q, a, b⟩ => absurd (hz q a) b, fun _ => ⟨none, ?_⟩⟩
    dsimp only
    rw [md]
    cases latch <;> simp [Voice.release]

example : ∃ (vs : List Voice) (v : Voice), vs[1]? = some v ∧ v.key = (62 : Nat) ∧ v.channel = (0 : Nat) :=
  ⟨[⟨0, 60, 0, true, false, 5, 0⟩, ⟨1, 62, 0, true, false, 9, 2⟩], _, rfl, rfl, rfl⟩

end Verif.Scene
