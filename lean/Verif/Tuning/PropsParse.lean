import Verif.Tuning.Parse
import Verif.Tuning.PropsRetune
/-!
# C24: what the scale and mapping readers accept
-/
namespace Verif.Tuning
open Spec

theorem lines_ne_nil (c : Char) (cs : List Char) : lines (c :: cs) ≠ [] := by
  unfold lines; split
  · simp
  · split <;> simp

theorem lines_head (c : Char) (cs : List Char) : ∃ l ls, lines (c :: cs) = (c :: l) :: ls := by
  by_cases h : c = '\n'
  · subst h; exact ⟨[], lines cs, by simp [lines]⟩
  · rw [lines, if_neg h]
    cases lines cs with
    | nil => exact ⟨[], [], rfl⟩
    | cons l ls => exact ⟨l, ls, rfl⟩

/-- A line without a newline is the last one, and is the whole remaining text. -/
theorem lines_last {t l : List Char} {ls : List (List Char)} (h : lines t = l :: ls) (hn : '\n' ∉ l) :
    ls = [] ∧ t = l := by
  induction t generalizing l ls with
  | nil => simp [lines] at h
  | cons c cs ih =>
    by_cases hc : c = '\n'
    · rw [lines, if_pos hc] at h
      injection h with h1 h2
      subst h1; simp at hn
    · rw [lines, if_neg hc] at h
      cases hl : lines cs with
      | nil =>
        rw [hl] at h
        injection h with h1 h2
        cases cs with
        | nil => exact ⟨h2.symm, h1⟩
        | cons d ds => exact absurd hl (lines_ne_nil d ds)
      | cons l' ls' =>
        rw [hl] at h
        injection h with h1 h2
        subst h1
        obtain ⟨e1, e2⟩ := ih hl (fun hm => hn (by simp [hm]))
        subst h2
        exact ⟨e1, by rw [e2]⟩

theorem lines_single {t : List Char} (h : '\n' ∉ t) (hne : t ≠ []) : lines t = [t] := by
  cases t with
  | nil => exact absurd rfl hne
  | cons c cs =>
    obtain ⟨l, ls, e⟩ := lines_head c cs
    have hmem : ∀ (t : List Char) l ls, lines t = l :: ls → ∀ x ∈ l, x ∈ t := by
      intro t
      induction t with
      | nil => intro l ls h; simp [lines] at h
      | cons c cs ih =>
        intro l ls h x hx
        by_cases hc : c = '\n'
        · rw [lines, if_pos hc] at h
          injection h with h1 _
          subst h1; simp at hx; simp [hx, hc]
        · rw [lines, if_neg hc] at h
          cases hl : lines cs with
          | nil => rw [hl] at h; injection h with h1 _; subst h1; simp at hx; simp [hx]
          | cons l' ls' =>
            rw [hl] at h; injection h with h1 _; subst h1
            rcases List.mem_cons.mp hx with rfl | hx
            · simp
            · simp [ih _ _ hl x hx]
    obtain ⟨e1, e2⟩ := lines_last e (fun hm => h (hmem _ _ _ e _ hm))
    rw [e, e1, e2]

theorem digits_no_newline {l : List Char} {n : ℕ} (h : digits l = some n) : '\n' ∉ l := by
  unfold digits at h
  split at h
  · rename_i hc
    intro hm
    have := List.all_eq_true.mp hc.2 _ hm
    revert this; decide
  · cases h

theorem parseI32_no_newline {l : List Char} {i : ℤ} (h : parseI32 l = some i) : '\n' ∉ l := by
  unfold parseI32 at h
  split at h
  · obtain ⟨n, h1, _⟩ := Option.bind_eq_some_iff.mp h
    have := digits_no_newline h1
    simp [this]
  · obtain ⟨n, h1, _⟩ := Option.bind_eq_some_iff.mp h
    have := digits_no_newline h1
    simp [this]
  · obtain ⟨n, h1, _⟩ := Option.bind_eq_some_iff.mp h
    exact digits_no_newline h1

theorem parseI32_ne_nil {l : List Char} {i : ℤ} (h : parseI32 l = some i) : l ≠ [] := by
  rintro rfl; simp [parseI32, digits] at h

theorem scaleLoop_bang (tv : List Char → P ℚ) (ls : List (List Char)) (line : List Char) (st : ScalePos) (res : Scale)
    (h : line.head? = some '!') : scaleLoop tv ls line st res = .ok res := by
  induction ls generalizing line with
  | nil => rfl
  | cons l ls ih =>
    have : (line ++ l).head? = some '!' := by
      cases line with
      | nil => simp at h
      | cons c cs => simpa using h
    rw [scaleLoop.eq_def]
    simp only [this, if_true]
    exact ih _ this

theorem kbmLoop_bang (ls : List (List Char)) (line : List Char) (st : KbmPos) (res : Mapping)
    (h : line.head? = some '!') : kbmLoop ls line st res = .ok res := by
  induction ls generalizing line with
  | nil => rfl
  | cons l ls ih =>
    have : (line ++ l).head? = some '!' := by
      cases line with
      | nil => simp at h
      | cons c cs => simpa using h
    rw [kbmLoop]
    simp only [this, if_true]
    exact ih _ this

/-- **C24 (scales, exact)**: for every text, reading a scale gives the empty scale when the text is empty, begins with a
comment, or consists of nothing but one integer — and panics otherwise. -/
theorem C24_scale_reader_exact (tv : List Char → P ℚ) (text : List Char) :
    (text = [] ∨ text.head? = some '!' ∨ (∃ i, parseI32 text = some i) → parseScale tv text = .ok Scale.empty) ∧
    (¬(text = [] ∨ text.head? = some '!' ∨ (∃ i, parseI32 text = some i)) →
      (parseScale tv text).isPanic = true) := by
  unfold parseScale
  constructor
  · rintro (rfl | h | ⟨i, h⟩)
    · rfl
    · cases text with
      | nil => simp at h
      | cons c cs =>
        obtain ⟨l, ls, e⟩ := lines_head c cs
        have hc : c = '!' := by simpa using h
        rw [e, scaleLoop]
        simp only [List.nil_append, List.head?_cons, hc, if_true]
        exact scaleLoop_bang _ _ _ _ _ (by simp)
    · rw [lines_single (parseI32_no_newline h) (parseI32_ne_nil h)]
      simp only [scaleLoop, List.nil_append, h]
      split <;> rfl
  · intro h
    push Not at h
    obtain ⟨h1, h2, h3⟩ := h
    cases text with
    | nil => exact absurd rfl h1
    | cons c cs =>
      obtain ⟨l, ls, e⟩ := lines_head c cs
      have hc : c ≠ '!' := by simpa using h2
      rw [e]
      have hn : parseI32 (c :: l) = none := by
        cases hp : parseI32 (c :: l) with
        | none => rfl
        | some i =>
          have := (lines_last e (parseI32_no_newline hp)).2
          rw [← this] at hp
          exact absurd hp (h3 i)
      simp [scaleLoop, hc, hn, Res.isPanic]

/-- **C24 fails**: no text whatsoever is read as a usable scale. -/
theorem C24_no_scale_can_be_loaded (tv : List Char → P ℚ) (text : List Char) (s : Scale)
    (h : parseScale tv text = .ok s) : s = Scale.empty ∧ s.isValid = false := by
  obtain ⟨a, b⟩ := C24_scale_reader_exact tv text
  by_cases hc : text = [] ∨ text.head? = some '!' ∨ (∃ i, parseI32 text = some i)
  · rw [a hc] at h
    injection h with h
    subst h; exact ⟨rfl, rfl⟩
  · have := b hc
    rw [h] at this; cases this

/-- **C24 fails**: the built-in 12-tone scale reads as the empty scale. -/
theorem C24_builtin_scale_is_empty (tv : List Char → P ℚ) : builtin12 tv = .ok Scale.empty :=
  (C24_scale_reader_exact tv _).1 (Or.inr (Or.inl rfl))

/-- **C24 (mappings, exact)**: for every text, reading a mapping gives the defaults with no keys (flagged
non-standard) when the text is empty or begins with a comment; the same with the key count replaced when it is a single
integer (or `x`, counted as −1); and panics otherwise. -/
theorem C24_mapping_reader_exact (text : List Char) :
    (text = [] ∨ text.head? = some '!' → parseKbm text = .ok kbmBase) ∧
    (text = ['x'] → parseKbm text = .ok { kbmBase with count := -1 }) ∧
    (∀ i, parseI32 text = some i → parseKbm text = .ok { kbmBase with count := i }) ∧
    (¬(text = [] ∨ text.head? = some '!' ∨ text = ['x'] ∨ ∃ i, parseI32 text = some i) →
      (parseKbm text).isPanic = true) := by
  have hx : parseI32 ['x'] = none := by decide
  unfold parseKbm
  refine ⟨?_, ?_, ?_, ?_⟩
  · rintro (rfl | h)
    · rfl
    · cases text with
      | nil => simp at h
      | cons c cs =>
        obtain ⟨l, ls, e⟩ := lines_head c cs
        have hc : c = '!' := by simpa using h
        rw [e, kbmLoop]
        simp only [List.nil_append, List.head?_cons, hc, if_true]
        exact kbmLoop_bang _ _ _ _ (by simp)
  · rintro rfl
    have e1 : parseI32 ['-', '1'] = some (-1) := by decide
    simp [lines, kbmLoop, e1, storeKbm]
  · intro i h
    have hne : text.head? ≠ some '!' := by
      intro hc
      cases text with
      | nil => simp at hc
      | cons c cs =>
        have : c = '!' := by simpa using hc
        subst this
        have : parseI32 ('!' :: cs) = none := by
          have : ¬ (Char.isDigit '!' = true) := by decide
          simp [parseI32, digits, this]
        rw [this] at h; cases h
    have hnx : text ≠ ['x'] := by rintro rfl; rw [hx] at h; cases h
    rw [lines_single (parseI32_no_newline h) (parseI32_ne_nil h)]
    simp [kbmLoop, hne, hnx, h, storeKbm]
  · intro h
    push Not at h
    obtain ⟨h1, h2, h3, h4⟩ := h
    cases text with
    | nil => exact absurd rfl h1
    | cons c cs =>
      obtain ⟨l, ls, e⟩ := lines_head c cs
      have hc : c ≠ '!' := by simpa using h2
      rw [e]
      have hlx : c :: l ≠ ['x'] := by
        intro hq
        have := (lines_last e (by rw [hq]; decide)).2
        rw [hq] at this
        exact h3 this
      have hn : parseI32 (c :: l) = none := by
        cases hp : parseI32 (c :: l) with
        | none => rfl
        | some i =>
          have := (lines_last e (parseI32_no_newline hp)).2
          rw [← this] at hp
          exact absurd hp (h4 i)
      simp only [kbmLoop, List.nil_append, List.head?_cons, Option.some.injEq, hc, if_false, hlx, hn]
      rfl

/-- **C24 fails for mappings**: no text is ever read as a mapping with keys, a reference note, a middle note or a
frequency of its own. -/
theorem C24_no_mapping_can_be_loaded (text : List Char) (m : Mapping) (h : parseKbm text = .ok m) :
    m.keys = [] ∧ m.isStandard = false ∧ m.tuningNote = Mapping.default.tuningNote ∧
      m.middle = Mapping.default.middle ∧ m.tuningFreq = Mapping.default.tuningFreq := by
  obtain ⟨a, b, c, d⟩ := C24_mapping_reader_exact text
  have fin : ∀ n : ℤ, Res.ok (ε := Empty) ({ kbmBase with count := n } : Mapping) = .ok m →
      m.keys = [] ∧ m.isStandard = false ∧ m.tuningNote = Mapping.default.tuningNote ∧
      m.middle = Mapping.default.middle ∧ m.tuningFreq = Mapping.default.tuningFreq := by
    intro n hm
    injection hm with hm
    subst hm
    exact ⟨rfl, rfl, rfl, rfl, rfl⟩
  by_cases h1 : text = [] ∨ text.head? = some '!'
  · rw [a h1] at h; exact fin 12 h
  · by_cases h2 : text = ['x']
    · rw [b h2] at h; exact fin _ h
    · by_cases h3 : ∃ i, parseI32 text = some i
      · obtain ⟨i, hi⟩ := h3
        rw [c i hi] at h; exact fin _ h
      · have := d (by tauto)
        rw [h] at this; cases this

/-- **C24 (tune_a69_to)**: whatever frequency is asked for, the mapping built is the same one … -/
theorem C24_tune_a69_ignores_frequency (freq : List Char) : parseKbm (tuneA69Text freq) = .ok kbmBase :=
  (C24_mapping_reader_exact _).1 (Or.inr rfl)

/-- … applying it while a scale is loaded panics, and applying it while none is loaded leaves every table entry as it
was (in a tuner at standard tuning or otherwise). -/
theorem C24_tune_a69_effect (tv : List Char → P ℚ) (t : Tuner) :
    (t.scale.isValid = true → (t.remap tv kbmBase).isPanic = true) ∧
    (t.scale.isValid = false → ∃ t', t.remap tv kbmBase = .ok t' ∧ t'.table = t.table ∧ t'.tableInv = t.tableInv) := by
  unfold Tuner.remap Tuner.remapWith
  rw [C24_builtin_scale_is_empty]
  have hstd : kbmBase.isStandard = false := rfl
  constructor
  · intro hv
    simp only [hstd, Bool.false_and, Bool.false_eq_true, if_false, hv, Bool.not_true, Bool.and_false]
    have := C40_reference_outside_pattern_panics
      { t with mapping := kbmBase, pitch := kbmBase.tuningFreq / 8.175798915 } t.scale hv
      (by simp [kbmBase, Mapping.default]) (Or.inr (by simp [kbmBase, Mapping.default]))
    revert this
    cases Tuner.retune { t with mapping := kbmBase, pitch := kbmBase.tuningFreq / 8.175798915 } t.scale with
    | ok a => intro h; cases h
    | err e => intro h; cases h
    | panic w => intro _; rfl
  · intro hv
    simp only [hstd, Bool.false_and, Bool.false_eq_true, if_false, hv, Bool.not_false, Bool.and_self, if_true]
    refine ⟨_, rfl, rfl, rfl⟩

/-- Tests: ordinary files are rejected, the header comment makes everything ignored. -/
example (tv : List Char → P ℚ) : (parseScale tv "my scale\n 2\n 3/2\n 2/1\n".toList).isPanic = true :=
  (C24_scale_reader_exact tv _).2 (by
    rintro (h | h | ⟨i, h⟩)
    · cases h
    · revert h; decide
    · have := parseI32_no_newline h; revert this; decide)

end Verif.Tuning
