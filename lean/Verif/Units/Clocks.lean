import Verif.Rust
import Mathlib.Data.Rat.Defs
import Mathlib.Algebra.Order.Ring.Rat
import Mathlib.Tactic.NormNum
/-!
# Sample rate and tempo (C115, C116)

`surge-samplerate` and `surge-timeunit`.  Rounding to `f32` and `f64` is an arbitrary function, so the claims hold for any rounding.
-/
namespace Verif.Units

/-- surge-samplerate/src/unit.rs 3-15, `SampleRateUnit` (the handle in handle.rs shares one by reference). -/
structure Rates where
  samplerate : ℚ
  samplerateInv : ℚ
  samplerateOs : ℚ
  samplerateOsInv : ℚ
  dsamplerate : ℚ
  dsamplerateInv : ℚ
  dsamplerateOs : ℚ
  dsamplerateOsInv : ℚ
  deriving DecidableEq

variable (f32 f64 : ℚ → ℚ)

/-- unit.rs 19-45, `new_with_samplerate`; `OSC_OVERSAMPLING = 2`. -/
def Rates.new (sr : ℚ) : Rates where
  samplerate := f32 sr
  samplerateInv := f32 (1 / f32 sr)
  samplerateOs := f32 (f32 sr * 2)
  samplerateOsInv := f32 (1 / f32 (f32 sr * 2))
  dsamplerate := sr
  dsamplerateInv := f64 (1 / sr)
  dsamplerateOs := f64 (sr * 2)
  dsamplerateOsInv := f64 (1 / f64 (sr * 2))

/-- handle.rs 87-105, `set_samplerate`: six of the eight fields are stored. -/
def Rates.set (u : Rates) (sr : ℚ) : Rates :=
  { u with
    samplerate := f32 sr
    samplerateInv := f32 (1 / f32 sr)
    dsamplerate := sr
    dsamplerateInv := f64 (1 / sr)
    dsamplerateOs := f64 (sr * 2)
    dsamplerateOsInv := f64 (1 / f64 (sr * 2)) }

/-- What `get` returns after a construction with `sr` and any number of changes, for each of the eight getters (handle.rs 61-69). -/
def Rates.after (sr : ℚ) (changes : List ℚ) : Rates := changes.foldl (Rates.set f32 f64) (Rates.new f32 f64 sr)

/-- **C115**, part: after any history of changes six of the eight rates are those of a unit built at the last rate set. -/
theorem C115_rates_partial (sr : ℚ) (changes : List ℚ) :
    let now := Rates.after f32 f64 sr changes
    let fresh := Rates.new f32 f64 (changes.getLastD sr)
    now.samplerate = fresh.samplerate ∧ now.samplerateInv = fresh.samplerateInv ∧ now.dsamplerate = fresh.dsamplerate ∧
      now.dsamplerateInv = fresh.dsamplerateInv ∧ now.dsamplerateOs = fresh.dsamplerateOs ∧ now.dsamplerateOsInv = fresh.dsamplerateOsInv := by
  rcases List.eq_nil_or_concat changes with rfl | ⟨l, x, rfl⟩
  · exact ⟨rfl, rfl, rfl, rfl, rfl, rfl⟩
  · have e : (l ++ [x]).getLastD sr = x := by simp
    simp only [Rates.after, List.concat_eq_append, e, List.foldl_append, List.foldl_cons, List.foldl_nil]
    exact ⟨rfl, rfl, rfl, rfl, rfl, rfl⟩

/-- **C115**, refuted: the single-precision oversampled rate and its inverse stay those of the construction, whatever is set later. -/
theorem C115_stale (sr : ℚ) (changes : List ℚ) :
    (Rates.after f32 f64 sr changes).samplerateOs = (Rates.new f32 f64 sr).samplerateOs ∧
    (Rates.after f32 f64 sr changes).samplerateOsInv = (Rates.new f32 f64 sr).samplerateOsInv := by
  unfold Rates.after
  generalize Rates.new f32 f64 sr = u
  induction changes generalizing u with
  | nil => exact ⟨rfl, rfl⟩
  | cons x l ih => exact ih (Rates.set f32 f64 u x)

/-- So built at 48 kHz and set to 44.1 kHz the two oversampled rates of one unit disagree. -/
example : (Rates.after id id 48000 [44100]).samplerateOs = 96000 ∧ (Rates.after id id 48000 [44100]).dsamplerateOs = 88200 := by
  constructor <;> norm_num [Rates.after, Rates.new, Rates.set]

/-! ## Tempo -/

/-- The part of an `f32` that matters here: a number or plus infinity (`1.0 / 0.0`). -/
inductive Ratio where
  | num (q : ℚ)
  | inf
  deriving DecidableEq

/-- surge-timeunit/src/unit.rs 4-13, `TimeUnit`, without the time signature and the sample rate, which nothing here reads. -/
structure Clock where
  ppq : ℚ
  tempo : ℚ
  ratio : Ratio
  ratioInv : Ratio
  songpos : ℚ

/-- `1.0 / x`. -/
def Ratio.inv : Ratio → Ratio
  | .num q => if q = 0 then .inf else .num (f32 (1 / q))
  | .inf => .num 0

/-- unit.rs 15-31 and 35-48: `new`, with `init`. -/
def Clock.new : Clock := ⟨0, 0, .num 1, .num 0, 0⟩

/-- unit.rs 50-54, `update`. -/
def Clock.update (c : Clock) : Clock :=
  { c with songpos := c.ppq, ratio := .num (f32 (f64 (c.tempo / 120))), ratioInv := (Ratio.num (f32 (f64 (c.tempo / 120)))).inv f32 }

/-- The calls the handle offers (unit.rs 78-98). -/
inductive Clock.Op where
  | update
  | setRatio (q : ℚ)
  | setRatioInv (q : ℚ)
  | setSongpos (q : ℚ)

/-- One call. -/
def Clock.call (c : Clock) : Clock.Op → Clock
  | .update => c.update f32 f64
  | .setRatio q => { c with ratio := .num q }
  | .setRatioInv q => { c with ratioInv := .num q }
  | .setSongpos q => { c with songpos := q }

/-- **C116**, part: `update` does what it says of the tempo the unit holds: at 120 beats per minute both ratios are one, and a non-zero tempo
ratio and its inverse belong together. -/
theorem C116_update_partial (c : Clock) (h1 : f32 1 = 1) (h2 : f64 1 = 1) :
    (c.tempo = 120 → (c.update f32 f64).ratio = .num 1 ∧ (c.update f32 f64).ratioInv = .num 1) ∧
    (c.update f32 f64).songpos = c.ppq ∧
    ∀ q, q ≠ 0 → (c.update f32 f64).ratio = .num q → (c.update f32 f64).ratioInv = .num (f32 (1 / q)) := by
  refine ⟨fun h => ?_, rfl, fun q hq h => ?_⟩
  · simp [Clock.update, h, h1, h2, Ratio.inv]
  · simp only [Clock.update, Ratio.num.injEq] at h ⊢
    rw [h, Ratio.inv, if_neg hq]

/-- **C116**, refuted: no sequence of calls on the handle can tell it the host's tempo or position; every `update` sets the ratio to zero, its
inverse to infinity and the song position to zero, whatever ratio had been set. -/
theorem C116_no_tempo (h1 : f32 0 = 0) (h2 : f64 0 = 0) (h : List Clock.Op) :
    let c := (h ++ [Clock.Op.update]).foldl (Clock.call f32 f64) Clock.new
    c.tempo = 0 ∧ c.ratio = .num 0 ∧ c.ratioInv = .inf ∧ c.songpos = 0 := by
  have key : ∀ (h : List Clock.Op) (c : Clock), c.tempo = 0 → c.ppq = 0 →
      (h.foldl (Clock.call f32 f64) c).tempo = 0 ∧ (h.foldl (Clock.call f32 f64) c).ppq = 0 := by
    intro h
    induction h with
    | nil => intro c a b; exact ⟨a, b⟩
    | cons o h ih =>
      intro c a b
      cases o <;> exact ih _ a b
  obtain ⟨a, b⟩ := key h Clock.new rfl rfl
  simp only [List.foldl_append, List.foldl_cons, List.foldl_nil]
  generalize h.foldl (Clock.call f32 f64) Clock.new = c at a b
  simp [Clock.call, Clock.update, a, b, h1, h2, Ratio.inv]

end Verif.Units
