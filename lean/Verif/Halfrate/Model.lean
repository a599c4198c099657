import Verif.Rust
import Verif.Float.Round
import Mathlib.Data.Real.Basic
import Mathlib.Data.Fin.VecNotation
import Mathlib.Algebra.Group.Pi.Basic
import Mathlib.Algebra.Ring.Pi
/-!
# Model of `surge-halfrate` (`HalfRateFilterSSE`), read as exact real arithmetic

The coefficients are the decimals of the source rounded to `f32`, as `store_coefficients` does; sums and products are exact
(simplification: `f32` rounding of the signal path is not modelled).  Buffers the caller passes by pointer are total functions
`ℕ → ℝ` (simplification: no out-of-bounds memory); the 256-entry scratch array is indexed with Rust's bounds check.
-/
namespace Verif.Halfrate

/-- `__m128`: four lanes, lane 0 lowest. -/
abbrev V := Fin 4 → ℝ

/-- `_mm_shuffle_ps(a, b, _MM_SHUFFLE(i3, i2, i1, i0))`. -/
def shuffle (a b : V) (i3 i2 i1 i0 : Fin 4) : V := ![a i0, a i1, b i2, b i3]
/-- `_mm_movehl_ps(a, b)`. -/
def movehl (a b : V) : V := ![b 2, b 3, a 2, a 3]
/-- `_mm_movelh_ps(a, b)`. -/
def movelh (a b : V) : V := ![a 0, a 1, b 0, b 1]
/-- `_mm_add_ss(a, b)`. -/
def addSs (a b : V) : V := ![a 0 + b 0, a 1, a 2, a 3]
/-- `_mm_mul_ss(a, b)`. -/
noncomputable def mulSs (a b : V) : V := ![a 0 * b 0, a 1, a 2, a 3]
/-- `m128_half!` (surge-math/src/m128.rs 12-13). -/
noncomputable def half : V := fun _ => 1 / 2

/-- surge-halfrate/src/halfratefilter.rs 30-62, `HalfRateFilterSSE`; arrays of `HALFRATE_MAX_M = 6` entries are functions of the
index, and the never-read fields `oldout_l`, `oldout_r` are left out. -/
structure St where
  va : ℕ → V
  vx0 : ℕ → V
  vx1 : ℕ → V
  vx2 : ℕ → V
  vy0 : ℕ → V
  vy1 : ℕ → V
  vy2 : ℕ → V
  oldout : V
  m : ℕ
  steep : Bool

/-- halfratefilter.rs 64-81, `Default`: no sections at all. -/
def St.default : St :=
  ⟨fun _ => 0, fun _ => 0, fun _ => 0, fun _ => 0, fun _ => 0, fun _ => 0, fun _ => 0, 0, 0, false⟩

/-- softer.rs 41-196 and steep.rs 67-240: the coefficient tables, by `steep` and `order`; `none` is the `unreachable!()` arm. -/
def table (steep : Bool) (order : ℕ) : Option (List ℚ × List ℚ) :=
  match steep, order with
  | false, 2 => some ([0.23647102099689224],
      [0.7145421497126001])
  | false, 4 => some ([0.07986642623635751, 0.5453536510711322],
      [0.28382934487410993, 0.8344118914807379])
  | false, 6 => some ([0.06029739095712437, 0.4125907203610563, 0.7727156537429234],
      [0.21597144456092948, 0.6043586264658363, 0.9238861386532906])
  | false, 8 => some ([0.03583278843106211, 0.2720401433964576, 0.5720571972357003, 0.827124761997324],
      [0.1340901419430669, 0.4243248712718685, 0.7062921421386394, 0.9415030941737551])
  | false, 10 => some ([0.02366831419883467, 0.18989476227180174, 0.43157318062118555, 0.6632020224193995, 0.860015542499582],
      [0.09056555904993387, 0.3078575723749043, 0.5516782402507934, 0.7652146863779808, 0.9524772837866754])
  | false, 12 => some ([0.01677466677723562, 0.13902148819717805, 0.3325011117394731, 0.53766105314488, 0.7214184024215805, 0.8821858402078155],
      [0.06501319274445962, 0.23094129990840923, 0.4364942348420355, 0.6329609551399348, 0.8037808679411123, 0.9599687404800694])
  | true, 2 => some ([0.23647102099689224],
      [0.7145421497126001])
  | true, 4 => some ([0.12073211751675449, 0.6632020224193995],
      [0.3903621872345006, 0.890786832653497])
  | true, 6 => some ([0.1271414136264853, 0.6528245886369117, 0.9176942834328115],
      [0.40056789819445626, 0.8204163891923343, 0.9763114515836773])
  | true, 8 => some ([0.07711507983241622, 0.4820706250610472, 0.7968204713315797, 0.9412514277740471],
      [0.2659685265210946, 0.6651041532634957, 0.8841015085506159, 0.9820054141886075])
  | true, 10 => some ([0.051457617441190984, 0.35978656070567017, 0.6725475931034693, 0.8590884928249939, 0.9540209867860787],
      [0.18621906251989334, 0.529951372847964, 0.7810257527489514, 0.9141815687605308, 0.985475023014907])
  | true, 12 => some ([0.036681502163648017, 0.2746317593794541, 0.5610989697879195, 0.769741833862266, 0.8922608180038789, 0.962094548378084],
      [0.13654762463195771, 0.42313861743656667, 0.6775400499741616, 0.839889624849638, 0.9315419599631839, 0.9878163707328971])
  | _, _ => none

/-- `x as f32` for the coefficients (loadstore.rs 64-68).  Simplification: the decimal is rounded once, to `f32`; going through
`f64` first gives the same values. -/
def asF32 (q : ℚ) : ℚ := Verif.Float.rne q

/-- loadstore.rs 57-70, `store_coefficients`: `_mm_set_ps(b, a, b, a)`, so lanes 0 and 2 hold `a`, lanes 1 and 3 `b`. -/
noncomputable def St.storeCoefficients (s : St) (a b : List ℚ) : St :=
  { s with va := fun i => if i < s.m then
      ![(asF32 (a.getD i 0) : ℝ), (asF32 (b.getD i 0) : ℝ), (asF32 (a.getD i 0) : ℝ), (asF32 (b.getD i 0) : ℝ)] else s.va i }

/-- loadstore.rs 18-38, `load_coefficients`: the sections are zeroed, then the table for `order = 2 m` is stored. -/
noncomputable def St.loadCoefficients (s : St) : Res Empty St :=
  match table s.steep (s.m * 2) with
  | some (a, b) => .ok ({ s with va := fun i => if i < s.m then 0 else s.va i }.storeCoefficients a b)
  | none => .panic "internal error: entered unreachable code"

/-- halfratefilter.rs 101-114, `reset`. -/
def St.reset (s : St) : St :=
  { s with
    vx0 := fun i => if i < s.m then 0 else s.vx0 i
    vx1 := fun i => if i < s.m then 0 else s.vx1 i
    vx2 := fun i => if i < s.m then 0 else s.vx2 i
    vy0 := fun i => if i < s.m then 0 else s.vy0 i
    vy1 := fun i => if i < s.m then 0 else s.vy1 i
    vy2 := fun i => if i < s.m then 0 else s.vy2 i
    oldout := 0 }

/-- halfratefilter.rs 89-98, `new`. -/
noncomputable def St.new (m : ℕ) (steep : Bool) : Res Empty St :=
  if m > 6 then .panic "assertion failed: !(m > HALFRATE_MAX_M)"
  else do
    let s ← ({ St.default with m := m, steep := steep } : St).loadCoefficients
    pure s.reset

/-! ## Loops and the scratch array -/

/-- `(0..n).step_by(s)`. -/
def stepBy (n s : ℕ) : List ℕ := (List.range ((n + s - 1) / s)).map (· * s)

/-- The scratch array of `HALFRATE_BLOCK_SIZE = 256` vectors. -/
abbrev Buf := ℕ → V

/-- `o[k]`, with its bounds check. -/
def Buf.get (o : Buf) (k : ℕ) : Res Empty V := if k < 256 then .ok (o k) else .panic "ndarray: index out of bounds"
/-- `o[k] = v`, with its bounds check. -/
def Buf.set (o : Buf) (k : ℕ) (v : V) : Res Empty Buf :=
  if k < 256 then .ok (Function.update o k v) else .panic "ndarray: index out of bounds"

/-- `*p.add(i)` for `p: *mut __m128` over a buffer of floats. -/
def vec (p : ℕ → ℝ) (i : ℕ) : V := ![p (4 * i), p (4 * i + 1), p (4 * i + 2), p (4 * i + 3)]
/-- `*p.add(i) = v`. -/
def vecSet (p : ℕ → ℝ) (i : ℕ) (v : V) : ℕ → ℝ :=
  Function.update (Function.update (Function.update (Function.update p (4 * i) (v 0)) (4 * i + 1) (v 1)) (4 * i + 2) (v 2)) (4 * i + 3) (v 3)

/-- scratch.rs 22-48: one group of four samples. -/
def scratchGroup (l r : ℕ → ℝ) (o : Buf) (k : ℕ) : Res Empty Buf := do
  let o ← o.set k (shuffle (vec l (k / 4)) (vec r (k / 4)) 0 0 0 0)
  let o ← o.set (k + 1) (shuffle (vec l (k / 4)) (vec r (k / 4)) 1 1 1 1)
  let o ← o.set (k + 2) (shuffle (vec l (k / 4)) (vec r (k / 4)) 2 2 2 2)
  o.set (k + 3) (shuffle (vec l (k / 4)) (vec r (k / 4)) 3 3 3 3)

/-- scratch.rs 12-53, `create_halfrate_scratch_buffer`. -/
def createScratch (n : ℕ) (l r : ℕ → ℝ) : Res Empty Buf :=
  (stepBy n 4).foldlM (scratchGroup l r) (fun _ => 0)

/-- process_block_u2.rs 63-104: one group of four samples, each followed by a zero. -/
def workGroup (l r : ℕ → ℝ) (o : Buf) (k : ℕ) : Res Empty Buf := do
  let o ← o.set (k + 0) (shuffle (vec l (k / 8)) (vec r (k / 8)) 0 0 0 0)
  let o ← o.set (k + 0 + 1) 0
  let o ← o.set (k + 2) (shuffle (vec l (k / 8)) (vec r (k / 8)) 1 1 1 1)
  let o ← o.set (k + 2 + 1) 0
  let o ← o.set (k + 4) (shuffle (vec l (k / 8)) (vec r (k / 8)) 2 2 2 2)
  let o ← o.set (k + 4 + 1) 0
  let o ← o.set (k + 6) (shuffle (vec l (k / 8)) (vec r (k / 8)) 3 3 3 3)
  o.set (k + 6 + 1) 0

/-- process_block_u2.rs 45-107, `create_work_buffer`. -/
def createWork (n : ℕ) (l r : ℕ → ℝ) : Res Empty Buf :=
  (stepBy n 8).foldlM (workGroup l r) (fun _ => 0)

/-! ## The all-pass sections -/

/-- The local variables `tx0 … ty2` of a section. -/
structure Regs where
  tx0 : V
  tx1 : V
  tx2 : V
  ty0 : V
  ty1 : V
  ty2 : V

/-- process_block.rs 88-107 (and 109-128): shift the registers and compute one output. -/
def Regs.tick (t : Regs) (ta x : V) : Regs :=
  let tx2 := t.tx1
  let tx1 := t.tx0
  let tx0 := x
  let ty2 := t.ty1
  let ty1 := t.ty0
  ⟨tx0, tx1, tx2, tx2 + (tx0 - ty2) * ta, ty1, ty2⟩

/-- process_block.rs 86-129: the loop body, two samples. -/
def pair (ta : V) (p : Regs × Buf) (k : ℕ) : Res Empty (Regs × Buf) := do
  let x ← p.2.get k
  let t := p.1.tick ta x
  let o ← p.2.set k t.ty0
  let x ← o.get (k + 1)
  let t := t.tick ta x
  let o ← o.set (k + 1) t.ty0
  pure (t, o)

/-- process_block.rs 76-137: one section over the block. -/
def sectionLoop (n : ℕ) (p : St × Buf) (j : ℕ) : Res Empty (St × Buf) := do
  let s := p.1
  let (t, o) ← (stepBy n 2).foldlM (pair (s.va j)) (⟨s.vx0 j, s.vx1 j, s.vx2 j, s.vy0 j, s.vy1 j, s.vy2 j⟩, p.2)
  pure ({ s with
    vx0 := Function.update s.vx0 j t.tx0
    vx1 := Function.update s.vx1 j t.tx1
    vx2 := Function.update s.vx2 j t.tx2
    vy0 := Function.update s.vy0 j t.ty0
    vy1 := Function.update s.vy1 j t.ty1
    vy2 := Function.update s.vy2 j t.ty2 }, o)

/-- process_block.rs 68-138 `process_filters`, process_block_d2.rs 88-143 `downsample_2x_process_filters` and
process_block_u2.rs 136-196 `u2_process_filters`: three copies of the same text. -/
def processFilters (n : ℕ) (s : St) (o : Buf) : Res Empty (St × Buf) :=
  (List.range s.m).foldlM (sectionLoop n) (s, o)

/-! ## Output stages -/

/-- The loop variables of the output stages: `oldout`, `fa_r`, `fb_r` and the two output buffers. -/
structure Out where
  oldout : V
  fa : V
  fb : V
  l : ℕ → ℝ
  r : ℕ → ℝ

/-- process_block.rs 166-237, and process_block_u2.rs 236-260: one output sample. -/
noncomputable def emit (o : Buf) (c : Out) (k : ℕ) : Res Empty Out := do
  let x ← o.get k
  let l := Function.update c.l k (mulSs (addSs x c.oldout) half 0)
  let fa := movehl c.fa x
  let fb := movehl c.fb c.oldout
  let r := Function.update c.r k (mulSs (addSs fa fb) half 0)
  pure ⟨shuffle x x 3 3 1 1, fa, fb, l, r⟩

/-- process_block.rs 21-63, `process_block`: in place. -/
noncomputable def St.processBlock (s : St) (l r : ℕ → ℝ) (n : ℕ) : Res Empty (St × (ℕ → ℝ) × (ℕ → ℝ)) := do
  let o ← createScratch n l r
  let (s, o) ← processFilters n s o
  let c ← (List.range n).foldlM (emit o) ⟨s.oldout, 0, 0, l, r⟩
  pure ({ s with oldout := c.oldout }, c.l, c.r)

/-- process_block_u2.rs 214-261, `process_block_upsample_by_two`: `n` counts the samples written. -/
noncomputable def St.upsample (s : St) (lIn rIn l r : ℕ → ℝ) (n : ℕ) : Res Empty (St × (ℕ → ℝ) × (ℕ → ℝ)) := do
  let o ← createWork n lIn rIn
  let (s, o) ← processFilters n s o
  let c ← (List.range n).foldlM (emit o) ⟨s.oldout, 0, 0, l, r⟩
  pure ({ s with oldout := c.oldout }, c.l, c.r)

/-- process_block_d2.rs 151-167: the context carried from group to group, and the output buffers. -/
structure Down where
  aR : V
  cR : V
  dR : V
  l : ℕ → ℝ
  r : ℕ → ℝ

/-- process_block_d2.rs 171-252, `downsample_2x_apply_block`: eight samples in, four out. -/
noncomputable def downGroup (o : Buf) (c : Down) (k : ℕ) : Res Empty Down := do
  let o0 ← o.get k
  let o1 ← o.get (k + 1)
  let o2 ← o.get (k + 2)
  let o3 ← o.get (k + 3)
  let o4 ← o.get (k + 4)
  let o5 ← o.get (k + 5)
  let o6 ← o.get (k + 6)
  let o7 ← o.get (k + 7)
  let aL := addSs (shuffle o0 o0 1 1 1 1) o1
  let aR := addSs (movehl c.aR o1) (shuffle o0 o0 3 3 3 3)
  let bL := addSs (shuffle o2 o2 1 1 1 1) o3
  let bR := addSs (movehl aR o3) (shuffle o2 o2 3 3 3 3)
  let cL := addSs (shuffle o4 o4 1 1 1 1) o5
  let cR := addSs (movehl c.cR o5) (shuffle o4 o4 3 3 3 3)
  let dL := addSs (shuffle o6 o6 1 1 1 1) o7
  let dR := addSs (movehl c.dR o7) (shuffle o6 o6 3 3 3 3)
  let aL := movelh aL bL
  let cL := movelh cL dL
  let aR := movelh aR bR
  let cR := movelh cR dR
  let l := vecSet c.l (k / 8) (shuffle aL cL 2 0 2 0)
  let r := vecSet c.r (k / 8) (shuffle aR cR 2 0 2 0)
  let l := vecSet l (k / 8) (vec l (k / 8) * half)
  let r := vecSet r (k / 8) (vec r (k / 8) * half)
  pure ⟨aR, cR, dR, l, r⟩

/-- process_block_d2.rs 21-44, `process_block_downsample_by_two`; `outL`, `outR` are the buffers written (the inputs themselves when
the caller passes `None`). -/
noncomputable def St.downsample (s : St) (l r outL outR : ℕ → ℝ) (n : ℕ) : Res Empty (St × (ℕ → ℝ) × (ℕ → ℝ)) := do
  let o ← createScratch n l r
  let (s, o) ← processFilters n s o
  let c ← (stepBy n 8).foldlM (downGroup o) ⟨0, 0, 0, outL, outR⟩
  pure (s, c.l, c.r)

end Verif.Halfrate
