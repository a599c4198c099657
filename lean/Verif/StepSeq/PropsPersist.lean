import Verif.StepSeq.Persist
import Mathlib.Data.Rat.Encodable
import Mathlib.Tactic.IntervalCases
/-!
# C22: save/load round trip; C39: interrupted saves
-/
namespace Verif
open StepSeq Float

theorem toDigit_digitChar (b d : Nat) (hb : b ≤ 16) (hd : d < b) : toDigit b (digitChar d) = some d := by
  have key : ∀ d < 16, ((digitChar d).toNat = if d < 10 then 48 + d else 55 + d) := by decide
  have hk := key d (by omega)
  unfold toDigit
  simp only [hk]
  by_cases h10 : d < 10
  · rw [if_pos h10, if_pos (by omega)]
    have : 48 + d - 48 = d := by omega
    simp [this, hd]
  · rw [if_neg h10, if_neg (by omega), if_pos (by omega)]
    have : 55 + d - 55 = d := by omega
    simp [this, hd]

theorem digitChar_ne (d : Nat) (hd : d < 16) : isBlank (digitChar d) = false ∧ digitChar d ≠ '+' := by
  have : ∀ d < 16, isBlank (digitChar d) = false ∧ digitChar d ≠ '+' := by decide
  exact this d hd

theorem numChars_mem (b : Nat) (hb1 : 2 ≤ b) (hb : b ≤ 16) (n : Nat) :
    ∀ c ∈ numChars b n, isBlank c = false ∧ c ≠ '+' := by
  induction n using Nat.strongRecOn with
  | _ n ih =>
    intro c hc
    rw [numChars] at hc
    split at hc
    · simp at hc; subst hc; exact digitChar_ne n (by omega)
    · rcases List.mem_append.mp hc with h | h
      · exact ih (n / b) (Nat.div_lt_self (by omega) (by omega)) c h
      · simp at h; subst h
        exact digitChar_ne _ (lt_of_lt_of_le (Nat.mod_lt _ (by omega)) hb)

theorem numChars_ne_nil (b n : Nat) : numChars b n ≠ [] := by
  rw [numChars]; split <;> simp

theorem parseDigits_numChars (b : Nat) (hb1 : 2 ≤ b) (hb : b ≤ 16) (n : Nat) (hn : n < 2 ^ 64)
    (rest : List Char) : parseDigits b 0 (numChars b n ++ rest) = parseDigits b n rest := by
  induction n using Nat.strongRecOn generalizing rest with
  | _ n ih =>
    rw [numChars]
    split
    · have : n < b := by omega
      simp only [List.singleton_append, parseDigits, toDigit_digitChar b n hb this, Nat.zero_mul, Nat.zero_add, if_pos hn]
    · have hdm := Nat.div_add_mod n b
      have hlt := Nat.div_lt_self (n := n) (k := b) (by omega) (by omega)
      rw [List.append_assoc, ih (n / b) hlt (by omega)]
      simp only [List.singleton_append, parseDigits]
      rw [toDigit_digitChar b (n % b) hb (Nat.mod_lt _ (by omega))]
      have e : n / b * b + n % b = n := by rw [Nat.mul_comm]; exact hdm
      simp only [e, hn, if_true]

theorem parseU64_numChars (b : Nat) (hb1 : 2 ≤ b) (hb : b ≤ 16) (n : Nat) (hn : n < 2 ^ 64) :
    parseU64 b (numChars b n) = some n := by
  have h := parseDigits_numChars b hb1 hb n hn []
  rw [List.append_nil] at h
  have hm := numChars_mem b hb1 hb n
  cases hc : numChars b n with
  | nil => exact absurd hc (numChars_ne_nil b n)
  | cons c cs =>
    have hplus : c ≠ '+' := (hm c (by rw [hc]; simp)).2
    rw [hc] at h
    unfold parseU64
    split
    · simp_all
    · simp_all
    · simp_all
    · rw [h]; rfl

theorem tokensAux_token (cur t rest : List Char) (h : ∀ c ∈ t, isBlank c = false) (hne : cur ++ t ≠ []) :
    tokensAux cur (t ++ ' ' :: rest) = (cur ++ t) :: tokensAux [] rest := by
  induction t generalizing cur with
  | nil =>
    simp only [List.append_nil] at hne ⊢
    simp [tokensAux, isBlank, hne]
  | cons c t ih =>
    have hc := h c (by simp)
    simp only [List.cons_append, tokensAux, hc]
    rw [ih (cur ++ [c]) (fun x hx => h x (by simp [hx])) (by simp)]
    simp

theorem tokensAux_last (cur t : List Char) (h : ∀ c ∈ t, isBlank c = false) (hne : cur ++ t ≠ []) :
    tokensAux cur t = [cur ++ t] := by
  induction t generalizing cur with
  | nil => simp only [List.append_nil] at hne ⊢; simp [tokensAux, hne]
  | cons c t ih =>
    have hc := h c (by simp)
    simp only [tokensAux, hc]
    rw [ih (cur ++ [c]) (fun x hx => h x (by simp [hx])) (by simp)]
    simp

/-- A printable token: non-empty, no blanks. -/
def Tok (t : List Char) : Prop := t ≠ [] ∧ ∀ c ∈ t, isBlank c = false

theorem tokens_cons {t rest : List Char} (h : Tok t) : tokens (t ++ [' '] ++ rest) = t :: tokens rest := by
  unfold tokens
  rw [List.append_assoc, List.singleton_append]
  simpa using tokensAux_token [] t rest h.2 (by simpa using h.1)

theorem tokens_last {t : List Char} (h : Tok t) : tokens t = [t] := by
  unfold tokens
  simpa using tokensAux_last [] t h.2 (by simpa using h.1)

theorem tokens_flatMap (f : Fin 16 → List Char) (hf : ∀ i, Tok (f i)) (l : List (Fin 16)) (rest : List Char) :
    tokens (l.flatMap (fun i => f i ++ [' ']) ++ rest) = l.map f ++ tokens rest := by
  induction l with
  | nil => simp
  | cons i l ih =>
    rw [List.flatMap_cons, List.append_assoc, tokens_cons (hf i), ih]
    simp

theorem tok_fmt {T : F32Text} (hT : T.Lawful) (x : F32) : Tok (T.fmt x) := by
  refine ⟨hT.nonempty x, fun c hc => ?_⟩
  obtain ⟨h1, h2, h3, h4, h5⟩ := hT.noBlank x c hc
  simp [isBlank, h1, h2, h3, h4, h5]

theorem tok_num (b : Nat) (hb1 : 2 ≤ b) (hb : b ≤ 16) (n : Nat) : Tok (numChars b n) :=
  ⟨numChars_ne_nil b n, fun c hc => (numChars_mem b hb1 hb n c hc).1⟩

theorem tokens_save {T : F32Text} (hT : T.Lawful) (s : Seq) :
    tokens (s.save T) = (List.finRange 16).map (fun i => T.fmt (s.steps i)) ++
      [numChars 10 s.loopStart, numChars 10 s.loopEnd, T.fmt s.shuffle, numChars 16 s.trigmask.toNat] := by
  unfold Seq.save
  simp only [List.append_assoc]
  rw [tokens_flatMap _ (fun i => tok_fmt hT _)]
  congr 1
  have a := tok_num 10 (by norm_num) (by norm_num) s.loopStart
  have b := tok_num 10 (by norm_num) (by norm_num) s.loopEnd
  have c := tok_fmt hT s.shuffle
  have d := tok_num 16 (by norm_num) (by norm_num) s.trigmask.toNat
  have e1 := tokens_cons (rest := numChars 10 s.loopEnd ++ ([' '] ++ (T.fmt s.shuffle ++ ([' '] ++
    numChars 16 s.trigmask.toNat)))) a
  have e2 := tokens_cons (rest := T.fmt s.shuffle ++ ([' '] ++ numChars 16 s.trigmask.toNat)) b
  have e3 := tokens_cons (rest := numChars 16 s.trigmask.toNat) c
  simp only [List.append_assoc] at e1 e2 e3
  rw [e1, e2, e3, tokens_last d]

/-- C22: whatever the state of the loading sequencer `t`, loading the file saved from `s` restores every step,
the loop bounds, the shuffle amount and the trigger mask of `s`; the things that are not stored (probabilities,
mutes, position) stay as they were in `t`.  `usize` is 64 bits, hence the two bounds. -/
theorem C22_save_load (T : F32Text) (hT : T.Lawful) (s t : Seq)
    (h1 : s.loopStart < 2 ^ 64) (h2 : s.loopEnd < 2 ^ 64) :
    t.load T (s.save T) =
      { steps := s.steps, loopStart := s.loopStart, loopEnd := s.loopEnd, shuffle := s.shuffle,
        trigmask := s.trigmask, probabilities := t.probabilities, muteMask := t.muteMask,
        currentStep := t.currentStep } := by
  unfold Seq.load
  rw [tokens_save hT]
  have l16 : ((List.finRange 16).map (fun i => T.fmt (s.steps i))).length = 16 := by simp
  have gs : ∀ j : Fin 16, ((List.finRange 16).map (fun i => T.fmt (s.steps i)) ++
      [numChars 10 s.loopStart, numChars 10 s.loopEnd, T.fmt s.shuffle, numChars 16 s.trigmask.toNat])[j.1]? =
      some (T.fmt (s.steps j)) := by
    intro j
    rw [List.getElem?_append_left (by rw [l16]; exact j.2)]
    simp
  have gr : ∀ k, ((List.finRange 16).map (fun i => T.fmt (s.steps i)) ++
      [numChars 10 s.loopStart, numChars 10 s.loopEnd, T.fmt s.shuffle, numChars 16 s.trigmask.toNat])[16 + k]? =
      [numChars 10 s.loopStart, numChars 10 s.loopEnd, T.fmt s.shuffle, numChars 16 s.trigmask.toNat][k]? := by
    intro k
    rw [List.getElem?_append_right (by rw [l16]; omega), l16]; simp
  have g0 := gr 0; have g1 := gr 1; have g2 := gr 2; have g3 := gr 3
  simp only [Nat.add_zero, Nat.reduceAdd] at g0 g1 g2 g3
  simp only [gs, g0, g1, g2, g3, hT.roundtrip, Option.getD_some]
  simp only [List.getElem?_cons_zero, List.getElem?_cons_succ,
    parseU64_numChars 10 (by norm_num) (by norm_num) _ h1, parseU64_numChars 10 (by norm_num) (by norm_num) _ h2,
    parseU64_numChars 16 (by norm_num) (by norm_num) _ s.trigmask.isLt, hT.roundtrip, Option.getD_some,
    BitVec.ofNat_toNat, BitVec.setWidth_eq]

/-! Non-vacuity of `Lawful`: a (silly but lawful) text format exists. -/

def f32Equiv : F32 ≃ Option (Option (Option ℚ)) where
  toFun
    | .nan => none
    | .pinf => some none
    | .ninf => some (some none)
    | .fin q => some (some (some q))
  invFun
    | none => .nan
    | some none => .pinf
    | some (some none) => .ninf
    | some (some (some q)) => .fin q
  left_inv x := by cases x <;> rfl
  right_inv x := by rcases x with _ | _ | _ | _ <;> rfl

def unary (n : Nat) : List Char := List.replicate (n + 1) 'I'

def demoText : F32Text where
  fmt x := unary (Encodable.encode (f32Equiv x))
  parse cs := (Encodable.decode (α := Option (Option (Option ℚ))) (cs.length - 1)).map f32Equiv.symm

theorem demoText_lawful : demoText.Lawful where
  roundtrip x := by
    have : (unary (Encodable.encode (f32Equiv x))).length - 1 = Encodable.encode (f32Equiv x) := by
      simp [unary]
    simp only [demoText, this, Encodable.encodek, Option.map_some, Equiv.symm_apply_apply]
  nonempty x := by simp [demoText, unary]
  noBlank x c hc := by
    simp only [demoText, unary, List.mem_replicate] at hc
    rw [hc.2]; decide

example : demoText.Lawful ∧ Seq.default.loopStart < 2 ^ 64 ∧ Seq.default.loopEnd < 2 ^ 64 :=
  ⟨demoText_lawful, by decide, by decide⟩

/-! ## C39 -/

theorem flatMap_take_prefix (f : Fin 16 → List Char) (k : Nat) (s rest : List Char)
    (hs : s = (List.finRange 16).flatMap f ++ rest) :
    ((List.finRange 16).take k).flatMap f <+: s := by
  subst hs
  refine ⟨((List.finRange 16).drop k).flatMap f ++ rest, ?_⟩
  rw [← List.append_assoc, ← List.flatMap_append, List.take_append_drop]

/-- C39 is false of the code: `save_sequence` truncates the file and then writes it piece by piece; if it is
cut off after `k` steps, the file left behind is a prefix of the complete one, loading it succeeds, and gives a
mixture — the first `k` steps of the saved sequence with the remaining steps and the loop of whatever the loading
sequencer held. -/
theorem C39_interrupted_save_mixes (T : F32Text) (hT : T.Lawful) (s t : Seq) (k : Nat) (hk : k ≤ 16) :
    ∃ cut, cut <+: s.save T ∧
      t.load T cut = { t with steps := fun j => if j.1 < k then s.steps j else t.steps j } := by
  refine ⟨((List.finRange 16).take k).flatMap (fun i => T.fmt (s.steps i) ++ [' ']),
    flatMap_take_prefix _ k _ _ (by unfold Seq.save; simp only [List.append_assoc]; rfl), ?_⟩
  have ht : tokens (((List.finRange 16).take k).flatMap (fun i => T.fmt (s.steps i) ++ [' '])) =
      ((List.finRange 16).take k).map (fun i => T.fmt (s.steps i)) := by
    have := tokens_flatMap (fun i => T.fmt (s.steps i)) (fun i => tok_fmt hT _) ((List.finRange 16).take k) []
    simpa [tokens, tokensAux] using this
  unfold Seq.load
  rw [ht]
  have hn : ∀ m, 16 ≤ m → (((List.finRange 16).take k).map (fun i => T.fmt (s.steps i)))[m]? = none := by
    intro m hm
    rw [List.getElem?_eq_none]
    simp; omega
  simp only [hn 16 (by omega), hn 17 (by omega), hn 18 (by omega), hn 19 (by omega)]
  congr 1
  funext j
  by_cases hj : j.1 < k
  · have : (((List.finRange 16).take k).map (fun i => T.fmt (s.steps i)))[j.1]? = some (T.fmt (s.steps j)) := by
      rw [List.getElem?_map, List.getElem?_take_of_lt hj]; simp
    simp [this, hj, hT.roundtrip]
  · have : (((List.finRange 16).take k).map (fun i => T.fmt (s.steps i)))[j.1]? = none := by
      rw [List.getElem?_eq_none]; simp; omega
    simp [this, hj]

end Verif
