import Verif.Units.Shapers
/-!
# Model of the conditioner's limiter (`surgefx-conditioner`), read as exact real arithmetic

The delay line, the tree of maxima and the gain computer: everything between the equaliser/width stage and the output gain.  Rounding to
`f32` is not modelled; the reciprocal is any function (its accuracy is a hypothesis where it matters).
-/
namespace Verif.Dynamics

/-- surgefx-conditioner/src/conditioner.rs 4-28: the fields of the limiter.  `lamax` has 256 entries, `delayed` two rows of 128. -/
structure Cond where
  lamax : ℕ → ℝ
  delayedL : ℕ → ℝ
  delayedR : ℕ → ℝ
  bufpos : ℕ
  f1 : ℝ
  f2 : ℝ
  gain : ℝ

/-- init.rs 28-57, `new`. -/
def Cond.new : Cond := ⟨fun _ => 0, fun _ => 0, fun _ => 0, 0, 0, 0, 0⟩

/-- init.rs 3-25, `init`, of an effect in any state. -/
def Cond.init (_ : Cond) : Cond := ⟨fun _ => 0, fun _ => 0, fun _ => 0, 0, 1, 1, 1⟩

/-- lookahead.rs 5-11, `get_lookahead`; `CONDITIONER_LOOKAHEAD = 128`. -/
noncomputable def Cond.getLookahead (c : Cond) : ℝ := max 1 (Real.sqrt (2 * c.lamax (128 - 2)))

/-- lookahead.rs 17-28: one level of the tree; the loop variables are `of` and the array. -/
noncomputable def levelStep (bufpos : ℕ) (p : ℕ × (ℕ → ℝ)) (i : ℕ) : ℕ × (ℕ → ℝ) :=
  let nextof := p.1 + (128 >>> i)
  let store := nextof + (bufpos >>> (i + 1))
  let load1 := p.1 + (bufpos >>> i)
  let load2 := p.1 + ((bufpos >>> i) ^^^ 1)
  (nextof, Function.update p.2 store (max (p.2 load1) (p.2 load2)))

/-- lookahead.rs 13-29, `do_lookahead`. -/
noncomputable def Cond.doLookahead (c : Cond) : Cond := { c with lamax := ((List.range 7).foldl (levelStep c.bufpos) (0, c.lamax)).2 }

/-- block.rs 62-80, `update_filtered_lamax`. -/
noncomputable def Cond.updateFiltered (c : Cond) (attack release la : ℝ) : Cond :=
  let f1 := (1 - attack) * c.f1 + attack * la
  let f2 := (1 - release) * c.f2 + release * f1
  { c with f1 := f1, f2 := if f2 < f1 then f1 else f2 }

/-- block.rs 5-33, `do_conditioner_block`, with 35-60 `update_delayed`, `update_lamax` and 82-89 `update_gain`, `increment_bufpos`: one stereo
sample. -/
noncomputable def Cond.step (rcp : ℝ → ℝ) (attack release : ℝ) (c : Cond) (x : ℝ × ℝ) : Cond × (ℝ × ℝ) :=
  let bufpos := c.bufpos
  let dl := c.delayedL bufpos
  let dr := c.delayedR bufpos
  let la := c.getLookahead
  let c := c.updateFiltered attack release la
  let c := { c with gain := rcp c.f2 }
  let c := { c with delayedL := Function.update c.delayedL bufpos x.1, delayedR := Function.update c.delayedR bufpos x.2 }
  let c := { c with lamax := Function.update c.lamax bufpos (max |x.1| |x.2|) }
  let c := { c with lamax := Function.update c.lamax bufpos (c.lamax bufpos * c.lamax bufpos) }
  let c := c.doLookahead
  ({ c with bufpos := (c.bufpos + 1) &&& 127 }, (c.gain * dl, c.gain * dr))

/-- cfg.rs 31-34: `attack` and `release` from the two parameters. -/
noncomputable def attackOf (rate : ℝ) : ℝ := 0.001 * (1 + 0.9 * rate) * (1 + 0.9 * rate)
/-- cfg.rs 31-34. -/
noncomputable def releaseOf (rate : ℝ) : ℝ := 0.0001 * (1 + 0.9 * rate) * (1 + 0.9 * rate)

/-- A life of the limiter: each sample comes with the attack and release rates in force (they may change from block to block). -/
structure Tick where
  attackRate : ℝ
  releaseRate : ℝ
  x : ℝ × ℝ

/-- One sample with its settings. -/
noncomputable def Cond.tick (rcp : ℝ → ℝ) (c : Cond) (t : Tick) : Cond × (ℝ × ℝ) := c.step rcp (attackOf t.attackRate) (releaseOf t.releaseRate) t.x

/-- The state after a life. -/
noncomputable def Cond.after (rcp : ℝ → ℝ) (c : Cond) (ts : List Tick) : Cond := ts.foldl (fun c t => (c.tick rcp t).1) c

end Verif.Dynamics
