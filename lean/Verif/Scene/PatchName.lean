import Mathlib.Tactic.Common
/-!
# Patch names (C265)

surge-scene/src/patch/datum.rs 84-88 `is_valid_patchname`.  The regular expression is modelled as written, by its textbook meaning; `[[:alnum:]]`, `[[:punct:]]`, `[[:space:]]` are the ASCII classes of the `regex` crate, and without the `x` flag a blank in the
pattern stands for itself.
-/
namespace Verif.Scene.PatchName

/-! ## Model -/

/-- Regular expressions over classes of characters. -/
inductive Re
  | cls (p : Char → Bool)
  | seq (a b : Re)
  | alt (a b : Re)
  | plus (a : Re)

/-- What a regular expression matches as a whole. -/
inductive Re.Matches : Re → List Char → Prop
  | cls {p c} : p c = true → Matches (.cls p) [c]
  | seq {a b s t} : Matches a s → Matches b t → Matches (.seq a b) (s ++ t)
  | left {a b s} : Matches a s → Matches (.alt a b) s
  | right {a b s} : Matches b s → Matches (.alt a b) s
  | once {a s} : Matches a s → Matches (.plus a) s
  | more {a s t} : Matches a s → Matches (.plus a) t → Matches (.plus a) (s ++ t)

/-- `[[:alnum:]]`. -/
def alnum (c : Char) : Bool := ('0' ≤ c && c ≤ '9') || ('A' ≤ c && c ≤ 'Z') || ('a' ≤ c && c ≤ 'z')

/-- `[[:punct:]]`. -/
def punct (c : Char) : Bool := ('!' ≤ c && c ≤ '/') || (':' ≤ c && c ≤ '@') || ('[' ≤ c && c ≤ '`') || ('{' ≤ c && c ≤ '~')

/-- `[[:space:]]`. -/
def space (c : Char) : Bool := ('\t' ≤ c && c ≤ '\r') || c == ' '

/-- A character standing for itself. -/
def lit (c : Char) : Re := .cls (· == c)

/-- datum.rs 86: `([[:alnum:]] | [[:punct:]] | [[:space:]])+`. -/
def nameRe : Re :=
  .plus (.alt (.seq (.cls alnum) (lit ' ')) (.alt (.seq (lit ' ') (.seq (.cls punct) (lit ' '))) (.seq (lit ' ') (.cls space))))

/-- datum.rs 84-88: there is a match somewhere in the name. -/
def isValid (name : List Char) : Prop := ∃ a m b, name = a ++ m ++ b ∧ nameRe.Matches m

/-! ## Specification -/

/-- What the code means to accept: a name with some letter, digit, punctuation mark or blank in it. -/
def Spec.sayable (name : List Char) : Prop := ∃ c ∈ name, alnum c = true ∨ punct c = true ∨ space c = true

/-! ## Theorems -/

theorem lit_iff {c : Char} {s : List Char} : (lit c).Matches s ↔ s = [c] := by
  constructor
  · intro h
    cases h with
    | cls h => simp at h; rw [h]
  · rintro rfl; exact .cls (by simp)

theorem cls_iff {p : Char → Bool} {s : List Char} : (Re.cls p).Matches s ↔ ∃ c, p c = true ∧ s = [c] := by
  constructor
  · intro h
    cases h with
    | cls h => exact ⟨_, h, rfl⟩
  · rintro ⟨c, h, rfl⟩; exact .cls h

theorem seq_iff {a b : Re} {s : List Char} : (Re.seq a b).Matches s ↔ ∃ t u, s = t ++ u ∧ a.Matches t ∧ b.Matches u := by
  constructor
  · intro h
    cases h with
    | seq h1 h2 => exact ⟨_, _, rfl, h1, h2⟩
  · rintro ⟨t, u, rfl, h1, h2⟩; exact .seq h1 h2

theorem alt_iff {a b : Re} {s : List Char} : (Re.alt a b).Matches s ↔ a.Matches s ∨ b.Matches s := by
  constructor
  · intro h
    cases h with
    | left h => exact .inl h
    | right h => exact .inr h
  · rintro (h | h)
    · exact .left h
    · exact .right h

/-- Every match begins with one of its parts. -/
theorem plus_first {a : Re} {s : List Char} (h : (Re.plus a).Matches s) : ∃ t u, s = t ++ u ∧ a.Matches t := by
  cases h with
  | once h => exact ⟨_, [], by simp, h⟩
  | more h1 h2 => exact ⟨_, _, rfl, h1⟩

/-- **C265 (what the code accepts).** Exactly the names in which a blank follows a letter or digit, or stands on both sides of a punctuation mark, or is followed by more white space. -/
theorem C265_accepts_partial (name : List Char) : isValid name ↔
    ∃ a b, (∃ c, alnum c = true ∧ name = a ++ [c, ' '] ++ b) ∨ (∃ c, punct c = true ∧ name = a ++ [' ', c, ' '] ++ b) ∨ (∃ c, space c = true ∧ name = a ++ [' ', c] ++ b) := by
  constructor
  · rintro ⟨a, m, b, rfl, h0⟩
    obtain ⟨t, u, rfl, h⟩ := plus_first h0
    refine ⟨a, u ++ b, ?_⟩
    rcases alt_iff.1 h with h | h
    · obtain ⟨x, y, rfl, hx, hy⟩ := seq_iff.1 h
      obtain ⟨c, hc, rfl⟩ := cls_iff.1 hx
      rw [lit_iff.1 hy]
      exact .inl ⟨c, hc, by simp⟩
    · rcases alt_iff.1 h with h | h
      · obtain ⟨x, y, rfl, hx, hy⟩ := seq_iff.1 h
        obtain ⟨v, w, rfl, hv, hw⟩ := seq_iff.1 hy
        obtain ⟨c, hc, rfl⟩ := cls_iff.1 hv
        rw [lit_iff.1 hx, lit_iff.1 hw]
        exact .inr (.inl ⟨c, hc, by simp⟩)
      · obtain ⟨x, y, rfl, hx, hy⟩ := seq_iff.1 h
        obtain ⟨c, hc, rfl⟩ := cls_iff.1 hy
        rw [lit_iff.1 hx]
        exact .inr (.inr ⟨c, hc, by simp⟩)
  · rintro ⟨a, b, ⟨c, hc, rfl⟩ | ⟨c, hc, rfl⟩ | ⟨c, hc, rfl⟩⟩
    · exact ⟨a, [c, ' '], b, rfl, .once (.left (.seq (s := [c]) (.cls hc) (lit_iff.2 rfl)))⟩
    · exact ⟨a, [' ', c, ' '], b, rfl, .once (.right (.left (.seq (s := [' ']) (lit_iff.2 rfl) (.seq (s := [c]) (.cls hc) (lit_iff.2 rfl)))))⟩
    · exact ⟨a, [' ', c], b, rfl, .once (.right (.right (.seq (s := [' ']) (lit_iff.2 rfl) (.cls hc))))⟩

/-- **C265.** What is accepted is a name the code means to accept; in particular the empty name is not. -/
theorem C265_sound (name : List Char) (h : isValid name) : Spec.sayable name := by
  obtain ⟨a, b, ⟨c, hc, rfl⟩ | ⟨c, hc, rfl⟩ | ⟨c, hc, rfl⟩⟩ := (C265_accepts_partial name).1 h
  · exact ⟨c, by simp, .inl hc⟩
  · exact ⟨c, by simp, .inr (.inl hc)⟩
  · exact ⟨c, by simp, .inr (.inr hc)⟩

/-- **C265 (refutation).** No name without a blank is accepted, whatever it consists of … -/
theorem C265_no_blank_refuted (name : List Char) (h : ' ' ∉ name) : ¬ isValid name := by
  intro hv
  obtain ⟨a, b, ⟨c, hc, rfl⟩ | ⟨c, hc, rfl⟩ | ⟨c, hc, rfl⟩⟩ := (C265_accepts_partial name).1 hv <;> simp at h

/-- … so not the name of the default patch (datum.rs 60), though it is one of those meant. -/
theorem C265_default_refuted : ¬ isValid ['i', 'n', 'i', 't'] ∧ Spec.sayable ['i', 'n', 'i', 't'] :=
  ⟨C265_no_blank_refuted _ (by decide), 'i', by simp, .inl (by decide)⟩

/-- A name that is accepted. -/
example : isValid "Bass 2".toList := by
  refine (C265_accepts_partial _).2 ⟨['B', 'a', 's'], ['2'], .inl ⟨'s', by decide, by decide⟩⟩

end Verif.Scene.PatchName
