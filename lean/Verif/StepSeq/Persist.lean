import Verif.StepSeq.Model
/-!
# surge-stepseq: saving and loading a sequence
Models `surge-stepseq/src/persist.rs`.  A file is its text (`List Char`, all ASCII here); file-system errors are not modelled.
-/
namespace Verif.StepSeq
open Verif.Float

/-- Trusted: what `write!("{}", x)` and `str::parse::<f32>` of the Rust standard library do with an `f32`.
Their documented contract is that the shortest decimal printed parses back to the same number; printed numbers
are non-empty and contain no blanks. -/
structure F32Text where
  fmt : F32 → List Char
  parse : List Char → Option F32

/-- The documented contract of the standard library. -/
structure F32Text.Lawful (T : F32Text) : Prop where
  roundtrip : ∀ x, T.parse (T.fmt x) = some x
  nonempty : ∀ x, T.fmt x ≠ []
  noBlank : ∀ x, ∀ c ∈ T.fmt x, c ≠ ' ' ∧ c ≠ '\t' ∧ c ≠ '\n' ∧ c ≠ '\r' ∧ c ≠ '\x0c'

/-- The digit character of the standard library's integer formatting (`{}` and `{:X}`). -/
def digitChar (d : Nat) : Char := if d < 10 then Char.ofNat (48 + d) else Char.ofNat (55 + d)

/-- Integer formatting in base `b`: most significant digit first, at least one digit. -/
def numChars (b : Nat) (n : Nat) : List Char :=
  if h : b < 2 ∨ n < b then [digitChar n]
  else numChars b (n / b) ++ [digitChar (n % b)]
termination_by n
decreasing_by exact Nat.div_lt_self (by omega) (by omega)

/-- `char::to_digit(radix)`. -/
def toDigit (b : Nat) (c : Char) : Option Nat :=
  let n := c.toNat
  let d := if 48 ≤ n ∧ n ≤ 57 then some (n - 48)
    else if 65 ≤ n ∧ n ≤ 90 then some (n - 55)
    else if 97 ≤ n ∧ n ≤ 122 then some (n - 87)
    else none
  match d with
  | some k => if k < b then some k else none
  | none => none

/-- The digit loop of `from_str_radix` for a 64-bit unsigned type: overflow and bad digits are errors. -/
def parseDigits (b : Nat) : Nat → List Char → Option Nat
  | acc, [] => some acc
  | acc, c :: cs =>
    match toDigit b c with
    | some d => if acc * b + d < 2 ^ 64 then parseDigits b (acc * b + d) cs else none
    | none => none

/-- `u64::from_str_radix(s, b)` and (`b = 10`) `str::parse::<usize>`: empty input and a lone sign are errors,
one leading `+` is allowed. -/
def parseU64 (b : Nat) (s : List Char) : Option Nat :=
  match s with
  | [] => none
  | ['+'] => none
  | '+' :: cs => parseDigits b 0 cs
  | cs => parseDigits b 0 cs

/-- ASCII white space. -/
def isBlank (c : Char) : Bool := c = ' ' || c = '\t' || c = '\n' || c = '\r' || c = '\x0c'

/-- `str::split_ascii_whitespace`; `cur` is the token being collected. -/
def tokensAux : List Char → List Char → List (List Char)
  | cur, [] => if cur = [] then [] else [cur]
  | cur, c :: cs =>
    if isBlank c then (if cur = [] then tokensAux [] cs else cur :: tokensAux [] cs)
    else tokensAux (cur ++ [c]) cs

def tokens (text : List Char) : List (List Char) := tokensAux [] text

/-- persist.rs 31-46 `save_sequence`: the text written. -/
def Seq.save (T : F32Text) (s : Seq) : List Char :=
  (List.finRange 16).flatMap (fun i => T.fmt (s.steps i) ++ [' ']) ++
    (numChars 10 s.loopStart ++ [' ']) ++ (numChars 10 s.loopEnd ++ [' ']) ++
    (T.fmt s.shuffle ++ [' ']) ++ numChars 16 s.trigmask.toNat

/-- persist.rs 51-84 `load_sequence`: successive `split.next()` calls; a missing token keeps the old value, an
unreadable one gives zero. -/
def Seq.load (T : F32Text) (s : Seq) (text : List Char) : Seq :=
  let ts := tokens text
  { s with
    steps := fun j => match ts[j.1]? with
      | some v => (T.parse v).getD (.fin 0)
      | none => s.steps j
    loopStart := match ts[16]? with
      | some v => (parseU64 10 v).getD 0
      | none => s.loopStart
    loopEnd := match ts[17]? with
      | some v => (parseU64 10 v).getD 0
      | none => s.loopEnd
    shuffle := match ts[18]? with
      | some v => (T.parse v).getD (.fin 0)
      | none => s.shuffle
    trigmask := match ts[19]? with
      | some v => BitVec.ofNat 64 ((parseU64 16 v).getD 0)
      | none => s.trigmask }

end Verif.StepSeq
