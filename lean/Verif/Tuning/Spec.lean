import Verif.Tuning.Model
/-!
# What a scale means — the specification side
From the Scala format description quoted in scale.rs 4-51: degree 0 is the root (1/1, here the number 1 =
"one octave mark"), the listed tones are degrees 1 … count, the last one is the period, and the scale repeats
at the period in both directions.
-/
namespace Verif.Tuning.Spec
open Verif.Tuning

/-- A scale as a file describes it: at least one tone, and as many tones as announced. -/
structure WellFormed (s : Scale) : Prop where
  pos : 1 ≤ s.count
  len : s.tones.length = s.count

/-- The period of the scale, in octaves. -/
def period (s : Scale) : ℚ := s.tones.getLastD 1 - 1

/-- The value (in octaves, plus one) of scale degree `d`, any integer. -/
def degree (s : Scale) (d : ℤ) : ℚ :=
  (d / (s.count : ℤ) : ℤ) * period s +
    (if d % (s.count : ℤ) = 0 then 1 else s.tones.getD ((d % (s.count : ℤ)).toNat - 1) 1)

end Verif.Tuning.Spec
