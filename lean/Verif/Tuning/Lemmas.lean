import Verif.Tuning.Spec
namespace Verif.Tuning
open Spec

variable {sc : Scale}

theorem idxI32_ok {α} (v : List α) (i : Int) (h0 : 0 ≤ i) (h : i < v.length) (dflt : α) :
    idxI32 v i = .ok (v.getD i.toNat dflt) := by
  unfold idxI32
  rw [if_neg (by omega)]
  have : i.toNat < v.length := by omega
  simp [this]

theorem last_eq (h : WellFormed sc) : idxI32 sc.tones ((sc.count : Int) - 1) = .ok (period sc + 1) := by
  obtain ⟨h1, h2⟩ := h
  rw [idxI32_ok _ _ (by omega) (by omega) 1]
  congr 1
  unfold period
  have e : ((sc.count : Int) - 1).toNat = sc.tones.length - 1 := by omega
  rw [e, sub_add_cancel]
  cases hl : sc.tones with
  | nil => simp [hl] at h2; omega
  | cons a l => simp [List.getLast?_eq_getElem?]

/-- Degrees repeat at the period. -/
theorem degree_add_count (h : WellFormed sc) (d : ℤ) : degree sc (d + sc.count) = degree sc d + period sc := by
  have hc : (sc.count : ℤ) ≠ 0 := by have := h.pos; omega
  unfold degree
  rw [Int.add_emod_right, Int.add_ediv_of_dvd_right (dvd_refl _), Int.ediv_self hc]
  push_cast; ring

theorem degree_zero : degree sc 0 = 1 := by simp [degree]

theorem degree_mid (h : WellFormed sc) (p : ℤ) (h0 : 1 ≤ p) (h1 : p ≤ sc.count) :
    degree sc p = sc.tones.getD (p - 1).toNat 1 := by
  have hpos := h.pos
  rcases eq_or_lt_of_le h1 with he | hl
  · have := degree_add_count h 0
    rw [zero_add, degree_zero] at this
    rw [he, this]
    have hlast := last_eq h
    rw [idxI32_ok _ _ (by omega) (by rw [h.len]; omega) 1] at hlast
    injection hlast with hlast
    rw [hlast]; ring
  · unfold degree
    rw [Int.ediv_eq_zero_of_lt (by omega) hl, Int.emod_eq_of_lt (by omega) hl, if_neg (by omega)]
    have : p.toNat - 1 = (p - 1).toNat := by omega
    rw [this]; simp

/-- Splitting `d - 1` into rounds and position gives degree `d`. -/
theorem degree_split (h : WellFormed sc) (q : ℤ) :
    sc.tones.getD (q % (sc.count : ℤ)).toNat 1 + (q / (sc.count : ℤ) : ℤ) * period sc = degree sc (q + 1) := by
  have hpos := h.pos
  have hc : (0:ℤ) < sc.count := by omega
  have hr0 := Int.emod_nonneg q hc.ne'
  have hr1 := Int.emod_lt_of_pos q hc
  have key : ∀ (n : ℤ) (x : ℤ), degree sc (x + n * sc.count) = degree sc x + n * period sc := by
    intro n x
    unfold degree
    rw [Int.add_mul_emod_self_right, Int.add_mul_ediv_right _ _ hc.ne']
    push_cast; ring
  have hq : q + 1 = (q % (sc.count : ℤ) + 1) + (q / (sc.count : ℤ)) * sc.count := by
    have := Int.emod_add_mul_ediv q sc.count
    linarith [mul_comm (sc.count : ℤ) (q / (sc.count : ℤ))]
  rw [hq, key, degree_mid h _ (by omega) (by omega)]
  simp

/-- The truncated division with fix-up of retune.rs is floor division. -/
theorem floor_fixup (q : ℤ) (n : ℕ) (hn : 1 ≤ n) :
    (if q.tmod n < 0 then q.tmod n + n else q.tmod n) = q % (n : ℤ) ∧
    (if q.tmod n < 0 then q.tdiv n - 1 else q.tdiv n) = q / (n : ℤ) := by
  have h1 := Int.tmod_add_mul_tdiv q n
  have hn0 : (0:ℤ) < n := by omega
  have h2 : -(n:ℤ) < q.tmod n ∧ q.tmod n < n := ⟨Int.lt_tmod_of_pos q hn0, Int.tmod_lt_of_pos q hn0⟩
  have hu : ∀ r k : ℤ, r + n * k = q → 0 ≤ r → r < n → r = q % (n:ℤ) ∧ k = q / (n:ℤ) := by
    intro r k e h0 h3
    subst e
    constructor
    · rw [Int.add_mul_emod_self_left, Int.emod_eq_of_lt h0 h3]
    · rw [Int.add_mul_ediv_left _ _ hn0.ne', Int.ediv_eq_zero_of_lt h0 h3, zero_add]
  split
  · exact hu _ _ (by linarith [mul_sub (n:ℤ) (q.tdiv n) 1]) (by omega) (by omega)
  · exact hu _ _ h1 (by omega) (by omega)

theorem shiftUp_spec (h : WellFormed sc) (fuel : Nat) (p : ℤ) (t : ℚ) (hf : p < 0 → p.natAbs ≤ fuel) :
    let r := shiftUp sc.count (period sc) fuel p t
    0 ≤ r.1 ∧ (0 ≤ p → r = (p, t)) ∧ (p < 0 → r.1 < sc.count) ∧ degree sc r.1 - r.2 = degree sc p - t := by
  have hpos := h.pos
  induction fuel generalizing p t with
  | zero =>
    have : 0 ≤ p := by by_contra hc; have := hf (by omega); omega
    exact ⟨this, fun _ => rfl, fun hc => by omega, rfl⟩
  | succ n ih =>
    unfold shiftUp
    by_cases hp : p < 0
    · rw [if_pos hp]
      obtain ⟨a, b, c, d⟩ := ih (p + sc.count) (t + period sc) (by intro hlt; have := hf hp; omega)
      refine ⟨a, fun hc => by omega, fun _ => ?_, ?_⟩
      · by_cases hq : p + sc.count < 0
        · exact c hq
        · rw [b (by omega)]; show p + (sc.count : ℤ) < sc.count; omega
      · rw [d, degree_add_count h]; ring
    · rw [if_neg hp]
      exact ⟨by show (0:ℤ) ≤ p; omega, fun _ => rfl, fun hc => absurd hc hp, rfl⟩

theorem shiftDown_spec (h : WellFormed sc) (fuel : Nat) (p : ℤ) (t : ℚ) (h0 : 0 ≤ p)
    (hf : p ≤ sc.count ∨ p.natAbs ≤ fuel) :
    let r := shiftDown sc.count (period sc) fuel p t
    0 ≤ r.1 ∧ r.1 ≤ sc.count ∧ degree sc r.1 - r.2 = degree sc p - t := by
  have hpos := h.pos
  induction fuel generalizing p t with
  | zero => exact ⟨h0, by show p ≤ _; omega, rfl⟩
  | succ n ih =>
    unfold shiftDown
    by_cases hp : p > sc.count
    · rw [if_pos hp]
      obtain ⟨a, b, c⟩ := ih (p - sc.count) (t - period sc) (by omega) (by omega)
      refine ⟨a, b, ?_⟩
      have := degree_add_count h (p - sc.count)
      rw [sub_add_cancel] at this
      rw [c, this]; ring
    · rw [if_neg hp]
      exact ⟨h0, by show p ≤ _; omega, rfl⟩

/-- The tuning offset is the height of the reference note's degree above the root. -/
theorem centerOffset_eq (h : WellFormed sc) (m : Mapping) (p : ℤ)
    (hp : refPosition m = .ok p) :
    centerOffset sc m = .ok (degree sc p - 1) := by
  unfold centerOffset
  simp only [hp, Res.ok_bind, last_eq h, add_sub_cancel_right, Res.pure_eq]
  by_cases h0 : p = 0
  · subst h0; rw [if_pos rfl, degree_zero]; simp
  · rw [if_neg h0]
    obtain ⟨a1, a2, a3, a4⟩ := shiftUp_spec h p.natAbs p 0 (fun _ => le_refl _)
    set a := shiftUp sc.count (period sc) p.natAbs p 0 with ha
    obtain ⟨b1, b2, b3⟩ := shiftDown_spec h p.natAbs a.1 a.2 a1 (by
      by_cases hn : p < 0
      · left; have := a3 hn; omega
      · right; rw [a2 (by omega)])
    set b := shiftDown sc.count (period sc) p.natAbs a.1 a.2 with hb
    have e : degree sc b.1 - b.2 = degree sc p := by rw [b3, a4]; ring
    by_cases hz : b.1 = 0
    · rw [if_pos hz]; rw [hz, degree_zero] at e
      congr 1; linarith
    · rw [if_neg hz, idxI32_ok _ _ (by omega) (by rw [h.len]; omega) 1]
      simp only [Res.ok_bind]
      rw [← degree_mid h b.1 (by omega) b2]
      congr 1; linarith

theorem pitchAt_eq (h : WellFormed sc) (m : Mapping) (off : ℚ) (idx : Nat) (q : ℤ)
    (hne : (idx : Int) - (256 + m.tuningNote) ≠ 0)
    (hk : keyPosition m ((idx : Int) - (256 + m.middle)) = .ok (false, q)) :
    pitchAt sc m off idx = .ok (degree sc (q + 1) - off) := by
  unfold pitchAt
  rw [if_neg hne]
  obtain ⟨f1, f2⟩ := floor_fixup q sc.count h.pos
  have hpos := h.pos
  have hc : (0:ℤ) < sc.count := by omega
  simp only [hk, Res.ok_bind, last_eq h, f1, f2, Res.pure_eq, add_sub_cancel_right]
  rw [idxI32_ok _ _ (Int.emod_nonneg q hc.ne') (by rw [h.len]; exact Int.emod_lt_of_pos q hc) 1]
  simp only [Res.ok_bind, ← degree_split h q]
  rfl

theorem pitchAt_disabled (h : WellFormed sc) (m : Mapping) (off : ℚ) (idx : Nat) (q : ℤ)
    (hne : (idx : Int) - (256 + m.tuningNote) ≠ 0)
    (hk : keyPosition m ((idx : Int) - (256 + m.middle)) = .ok (true, q)) :
    pitchAt sc m off idx = .ok 0 := by
  unfold pitchAt
  rw [if_neg hne]
  simp only [hk, Res.ok_bind, last_eq h, Res.pure_eq]
  rfl

theorem mapM_ok {α β : Type} (f : α → P β) (g : α → β) (l : List α) (h : ∀ a ∈ l, f a = .ok (g a)) :
    l.mapM f = .ok (l.map g) := by
  induction l with
  | nil => rfl
  | cons a l ih =>
    rw [List.mapM_cons, h a (by simp), Res.ok_bind, ih (fun x hx => h x (by simp [hx])), Res.ok_bind]
    rfl

/-- All pitches, given a function that computes each. -/
theorem allPitches_eq (sc : Scale) (m : Mapping) (off : ℚ) (g : Nat → ℚ)
    (h1 : centerOffset sc m = .ok off) (hr : -256 ≤ m.tuningNote ∧ m.tuningNote ≤ 255)
    (hg : ∀ i < 512, pitchAt sc m off i = .ok (g i)) :
    allPitches sc m = .ok ((List.range 512).map g) := by
  unfold allPitches
  rw [h1]
  simp only [Res.ok_bind]
  rw [if_neg (by omega)]
  exact mapM_ok _ _ _ (fun a ha => hg a (List.mem_range.mp ha))

end Verif.Tuning
