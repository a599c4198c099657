import Verif.Tuning.Model
/-!
# surge-tuning: reading `.scl` and `.kbm` texts
Models scale.rs 105-165 and keyboard_mapping.rs 105-190.  A text is a list of characters (invalid UTF-8, which makes
`read_line` fail and the `unwrap` panic, is outside the model).
-/
namespace Verif.Tuning

/-- What successive `read_line` calls append: the text cut after every `'\\n'`. -/
def lines : List Char → List (List Char)
  | [] => []
  | c :: cs =>
    if c = '\n' then ['\n'] :: lines cs
    else match lines cs with
      | [] => [[c]]
      | l :: ls => (c :: l) :: ls

/-- A non-empty run of ASCII digits. -/
def digits (l : List Char) : Option ℕ :=
  if l ≠ [] ∧ l.all Char.isDigit then some (l.foldl (fun n c => 10 * n + (c.toNat - 48)) 0) else none

/-- `str::parse::<i32>`. -/
def parseI32 (l : List Char) : Option ℤ :=
  match l with
  | '-' :: r => (digits r).bind fun n => if n ≤ 2 ^ 31 then some (-(n : ℤ)) else none
  | '+' :: r => (digits r).bind fun n => if n < 2 ^ 31 then some (n : ℤ) else none
  | _ => (digits l).bind fun n => if n < 2 ^ 31 then some (n : ℤ) else none

/-- `str::parse::<usize>` (64-bit). -/
def parseUsize (l : List Char) : Option ℕ :=
  match l with
  | '+' :: r => (digits r).bind fun n => if n < 2 ^ 64 then some n else none
  | _ => (digits l).bind fun n => if n < 2 ^ 64 then some n else none

/-- scale.rs 86-103 `ParsePosition` and `next`. -/
inductive ScalePos | header | count | note
  deriving DecidableEq

/-- scale.rs 107-163: the loop.  `line` is the reader's `String`, which `read_line` appends to and which is never
cleared.  `toneVal` stands for lines 138-158 (a tone's value from its text, possibly a panic); the description and the
raw text are not modelled.  `line.parse::<f32>().unwrap()` (121) succeeds whenever the `i32` parse (120) did. -/
def scaleLoop (toneVal : List Char → P ℚ) : List (List Char) → List Char → ScalePos → Scale → P Scale
  | [], _, _, res => .ok res
  | l :: ls, line0, st, res =>
    let line := line0 ++ l
    if line.head? = some '!' then scaleLoop toneVal ls line st res
    else match parseI32 line with
      | none => .panic "called `Result::unwrap()` on an `Err` value: ParseIntError"
      | some _ =>
        match st with
        | .header => scaleLoop toneVal ls line .count res
        | .count =>
          match parseUsize line with
          | none => .panic "called `Result::unwrap()` on an `Err` value: ParseIntError"
          | some n => scaleLoop toneVal ls line .note { res with count := n }
        | .note => do
          let v ← toneVal line
          scaleLoop toneVal ls line .note { res with tones := res.tones ++ [v] }

/-- scale.rs 105-165 `Scale::from`. -/
def parseScale (toneVal : List Char → P ℚ) (text : List Char) : P Scale :=
  scaleLoop toneVal (lines text) [] .header Scale.empty

/-- keyboard_mapping.rs 110-135. -/
inductive KbmPos | mapSize | firstMidi | lastMidi | middle | reference | freq | degree | keys
  deriving DecidableEq

def KbmPos.next : KbmPos → KbmPos
  | .mapSize => .firstMidi | .firstMidi => .lastMidi | .lastMidi => .middle | .middle => .reference
  | .reference => .freq | .freq => .degree | .degree => .keys | .keys => .keys

/-- keyboard_mapping.rs 159-184: storing the parsed number (the `f32` frequency of an integer text is taken exactly). -/
noncomputable def storeKbm (st : KbmPos) (i : ℤ) (res : Mapping) : Mapping :=
  match st with
  | .mapSize => { res with count := i }
  | .firstMidi => { res with firstMidi := i }
  | .lastMidi => { res with lastMidi := i }
  | .middle => { res with middle := i }
  | .reference => { res with tuningNote := i }
  | .freq => { res with tuningFreq := i }
  | .degree => { res with octaveDegrees := i }
  | .keys => { res with keys := res.keys ++ [i] }

/-- keyboard_mapping.rs 145-187: the loop, again with a `line` that only grows. -/
noncomputable def kbmLoop : List (List Char) → List Char → KbmPos → Mapping → P Mapping
  | [], _, _, res => .ok res
  | l :: ls, line0, st, res =>
    let line1 := line0 ++ l
    if line1.head? = some '!' then kbmLoop ls line1 st res
    else
      let line := if line1 = ['x'] then ['-', '1'] else line1
      match parseI32 line with
      | none => .panic "called `Result::unwrap()` on an `Err` value: ParseIntError"
      | some i => kbmLoop ls line st.next (storeKbm st i res)

/-- keyboard_mapping.rs 137-141: the starting value. -/
noncomputable def kbmBase : Mapping := { Mapping.default with isStandard := false, keys := [] }

/-- keyboard_mapping.rs 105-190 `KeyboardMapping::from`. -/
noncomputable def parseKbm (text : List Char) : P Mapping := kbmLoop (lines text) [] .mapSize kbmBase

/-- misc.rs 3-21, the text of the built-in 12-tone scale. -/
def twelveToneText : List Char :=
  '!' :: (" 12 Tone Equal Temperament.scl\n!\n12 Tone Equal Temperament | ED2-12 - Equal division of harmonic 2 into 12 parts\n 12\n!\n 100.00000\n 200.00000\n 300.00000\n 400.00000\n 500.00000\n 600.00000\n 700.00000\n 800.00000\n 900.00000\n 1000.00000\n 1100.00000\n 2/1\n ").toList

/-- keyboard_mapping.rs 63-90: the text `tune_a69_to` builds around the frequency. -/
def tuneA69Text (freq : List Char) : List Char :=
  '!' :: (" Surge Synthetic Keyboard Tuning to Retune A69\n!\n! Map Size\n0\n! First note\n0\n! Last note\n127\n! First mapping\n60\n! Reference Note\n69\n! Reference Freqency\n").toList
    ++ freq ++ ("\n! Scale Degree\n0\n! Mapping\n").toList

/-- scale.rs 175-180 `even_temperament_12_note_scale`. -/
def builtin12 (toneVal : List Char → P ℚ) : P Scale := parseScale toneVal twelveToneText

/-- remap.rs 11-53 `remap_to_keyboard`. -/
noncomputable def Tuner.remap (toneVal : List Char → P ℚ) (t : Tuner) (m : Mapping) : P Tuner :=
  t.remapWith (builtin12 toneVal) m

end Verif.Tuning
