import Verif.Hound.Programs
import Verif.Param.Model
/-!
# Wavetables (surge-wavetable)

Sizes are 64-bit `usize`. Console output (`println!`) is not modelled. Multiplication of `f32` samples is as in
`Verif.Float.F32` (so a zero has no sign).
-/
namespace Verif.Wavetable
open Verif Verif.Float Verif.Hound

/-- `usize` `a + b` with overflow check. -/
def addUs (a b : Nat) : Res Empty Nat := if a + b < 2 ^ 64 then .ok (a + b) else .panic "usize add overflow"
/-- `usize` `a * b` with overflow check. -/
def mulUs (a b : Nat) : Res Empty Nat := if a * b < 2 ^ 64 then .ok (a * b) else .panic "usize multiply overflow"
/-- `usize` `a >> b` with the check that `b < 64`. -/
def shrUs (a b : Nat) : Res Empty Nat := if b < 64 then .ok (a / 2 ^ b) else .panic "shift right overflow"

/-- `for i in 0..n`, carrying state. -/
def forN {σ : Type} (n : Nat) (f : Nat → σ → Res Empty σ) (s : σ) : Res Empty σ :=
  (List.range n).foldl (fun r i => r >>= f i) (.ok s)

/-! ## Sizes -/

/-- surge-constants lib.rs 149 `MAX_MIPMAP_LEVELS`. -/
def maxMipmapLevels : Nat := 16
/-- surge-constants lib.rs 154 `MAX_SUBTABLES`. -/
def maxSubtables : Nat := 512
/-- surge-constants lib.rs 168 `MAX_WAVETABLE_SIZE`. -/
def maxWavetableSize : Nat := 4096
/-- surge-constants lib.rs 298 `MAX_WAVETABLE_SAMPLES`. -/
def maxWavetableSamples : Nat := 2097152

/-- dim.rs 24-27: the loop. `levels` never passes 16, so the shift is in range; fuel `16 - levels` suffices. -/
def levelsLoop (len : Nat) : Nat → Nat → Nat
  | 0, levels => levels
  | fuel + 1, levels => if 2 ^ levels < len ∧ levels < maxMipmapLevels then levelsLoop len fuel (levels + 1) else levels

/-- dim.rs 20-30 `required_mipmap_levels`. -/
def requiredMipmapLevels (len : Nat) : Nat := levelsLoop len 16 1

/-- calc.rs 53-58: the loop of `required_wt_size`; 64 rounds empty any `usize`. `FIR_OFFSET_I16` is 4 and
`FIR_IPOL_I16_N` 8 (surge-constants lib.rs 66, 115). -/
def wtSizeLoop (count : Nat) : Nat → Nat → Nat → Res Empty Nat
  | 0, _, acc => .ok acc
  | fuel + 1, size, acc =>
    if size = 0 then .ok acc else do
      let a ← addUs size 4
      let b ← addUs a 8
      let c ← mulUs count b
      let acc' ← addUs acc c
      wtSizeLoop count fuel (size / 2) acc'

/-- calc.rs 45-61 `required_wt_size`; `WAVETABLE_SAMPLE_PADDING` is 3 (table.rs 5). -/
def requiredWtSize (tableSize tableCount : Nat) : Res Empty Nat := do
  let n ← addUs tableCount 3
  wtSizeLoop n 64 tableSize 0

/-- surge-math padding.rs 4-9 `enum Padding`; the pattern `NO_PADDING` of calc.rs 72 is the constant `NoPadding`. -/
inductive Padding where
  | noPadding
  | units (n : Nat)
  deriving DecidableEq, Repr

/-- calc.rs 70-74. -/
def Padding.num : Padding → Nat
  | .noPadding => 0
  | .units n => n

/-- calc.rs 63-93 `get_wt_index`. -/
def getWtIndex (waveIdx waveSize numWaves mipMap : Nat) (padding : Padding) : Res Empty Nat := do
  let sz ← shrUs waveSize mipMap
  let w ← addUs sz padding.num
  let index ← mulUs waveIdx w
  let offset ← mulUs numWaves waveSize
  let index ← forN mipMap (fun i index => do
    let o ← shrUs offset i
    let index ← addUs index o
    let p ← mulUs padding.num numWaves
    addUs index p) index
  let e ← addUs index waveSize
  if e = 0 then .panic "usize subtract overflow"
  else if e - 1 < maxWavetableSamples then .ok index
  else .panic "assertion failed: (index + wave_size - 1) < MAX_WAVETABLE_SAMPLES"

/-! ## The table -/

/-- dim.rs 3-8 `WaveTableDim`. -/
structure Dim where
  mipmapLevels : Nat
  numTables : Nat
  tableLen : Nat
  deriving DecidableEq, Repr

/-- ndarray's `Array3`: lengths and contents. Simplification: contents outside the lengths are meaningless. -/
structure A3 (α : Type) where
  d0 : Nat
  d1 : Nat
  d2 : Nat
  at' : Nat → Nat → Nat → α

/-- `data[[i, j, k]]`. -/
def A3.get {α : Type} (a : A3 α) (i j k : Nat) : Res Empty α :=
  if i < a.d0 ∧ j < a.d1 ∧ k < a.d2 then .ok (a.at' i j k) else .panic "ndarray: index out of bounds"

/-- `data[[i, j, k]] = v`. -/
def A3.put {α : Type} (a : A3 α) (i j k : Nat) (v : α) : Res Empty (A3 α) :=
  if i < a.d0 ∧ j < a.d1 ∧ k < a.d2 then
    .ok { a with at' := fun x y z => if x = i ∧ y = j ∧ z = k then v else a.at' x y z }
  else .panic "ndarray: index out of bounds"

/-- `A3d::zeros`: ndarray panics when the product of the non-zero lengths does not fit `isize`.
Simplification: running out of memory is not modelled. -/
def A3.zeros {α : Type} (z : α) (i j k : Nat) : Res Empty (A3 α) :=
  if (max i 1) * (max j 1) * (max k 1) < 2 ^ 63 then .ok ⟨i, j, k, fun _ _ _ => z⟩
  else .panic "ndarray: Shape too large, product of non-zero axis lengths overflows isize"

/-- What `populate_mipmaps` uses of a sample type: `Zero`, `MaybeSaturatingMul` and the filter. -/
structure Ops (α : Type) where
  zero : α
  mul : α → α → α
  hrfilter : List α

/-- `i16::saturating_mul` (imports.rs 17-21). -/
def satMul16 (a b : Int) : Int := max (-32768) (min 32767 (a * b))

/-- mipmap.rs 10-21 `HasMipmapFilter for i16`. -/
def filterI16 : List Int :=
  [1, 33, -8, -48, 31, 72, -74, -92,
   143, 95, -240, -66, 364, -14, -505, 168,
   642, -416, -748, 779, 782, -1279, -687, 1951,
   375, -2874, 331, 4293, -1957, -7315, 7773, 31275,
   31275, 7773, -7315, -1957, 4293, 331, -2874, 375,
   1951, -687, -1279, 782, 779, -748, -416, 642,
   168, -505, -14, 364, -66, -240, 95, 143,
   -92, -74, 72, 31, -48, -8, 33, 1]

/-- mipmap.rs 23-42 `HasMipmapFilter for f32`: the decimal literals. -/
def filterLits : List ℚ :=
  [-9637663 / 10 ^ 14, -22165136 / 10 ^ 13, -12005091 / 10 ^ 13, 17962764 / 10 ^ 12,
   17730845 / 10 ^ 12, -58988866 / 10 ^ 12, -89800415 / 10 ^ 12, 12339102 / 10 ^ 11,
   29645168 / 10 ^ 11, -15731835 / 10 ^ 11, -7465035 / 10 ^ 10, 12046367 / 10 ^ 25,
   15252803 / 10 ^ 10, 6605535 / 10 ^ 10, -25884514 / 10 ^ 10, -22829666 / 10 ^ 10,
   36186331 / 10 ^ 10, 53848103 / 10 ^ 10, -38858203 / 10 ^ 10, -10366649 / 10 ^ 9,
   2154163 / 10 ^ 9, 17290542 / 10 ^ 9, 33832083 / 10 ^ 10, -25699832 / 10 ^ 9,
   -15368784 / 10 ^ 9, 3457865 / 10 ^ 8, 38758956 / 10 ^ 9, -42511478 / 10 ^ 9,
   -8959933 / 10 ^ 8, 4802388 / 10 ^ 8, 31252542 / 10 ^ 8, 4499996 / 10 ^ 7,
   31252542 / 10 ^ 8, 4802388 / 10 ^ 8, -8959933 / 10 ^ 8, -42511478 / 10 ^ 9,
   38758956 / 10 ^ 9, 3457865 / 10 ^ 8, -15368784 / 10 ^ 9, -25699832 / 10 ^ 9,
   33832083 / 10 ^ 10, 17290542 / 10 ^ 9, 2154163 / 10 ^ 9, -10366649 / 10 ^ 9,
   -38858203 / 10 ^ 10, 53848103 / 10 ^ 10, 36186331 / 10 ^ 10, -22829666 / 10 ^ 10,
   -25884514 / 10 ^ 10, 6605535 / 10 ^ 10, 15252803 / 10 ^ 10, 12046367 / 10 ^ 25,
   -7465035 / 10 ^ 10, -15731835 / 10 ^ 11, 29645168 / 10 ^ 11, 12339102 / 10 ^ 11,
   -89800415 / 10 ^ 12, -58988866 / 10 ^ 12, 17730845 / 10 ^ 12, 17962764 / 10 ^ 12,
   -12005091 / 10 ^ 13, -22165136 / 10 ^ 13, -9637663 / 10 ^ 14, -12005091 / 10 ^ 13]

/-- The 16-bit sample type. -/
def opsI16 : Ops Int := ⟨0, satMul16, filterI16⟩
/-- The floating point sample type. -/
def opsF32 : Ops F32 := ⟨.fin 0, F32.mul, filterLits.map Param.flit⟩

/-- The value of an `f32` bit pattern (`f32::from_bits`; the sign of zero is dropped). -/
def f32OfBits (u : Nat) : F32 :=
  let neg := u / 2 ^ 31 % 2 = 1
  let e : Nat := u / 2 ^ 23 % 256
  let m : Nat := u % 2 ^ 23
  if e = 255 then (if m ≠ 0 then .nan else if neg then .ninf else .pinf)
  else
    let q : ℚ := if e = 0 then (m : ℚ) / 2 ^ 149 else ((2 ^ 23 + m : Nat) : ℚ) * 2 ^ e / 2 ^ 150
    .fin (if neg then -q else q)

/-- init.rs 49-60: one round of the loop; state `(data, cur_table, cur_table_sample)`. -/
def baseStep {α : Type} (tableLen : Nat) (st : A3 α × Nat × Nat) (x : α) : Res Empty (A3 α × Nat × Nat) := do
  let d ← st.1.put 0 st.2.1 st.2.2 x
  if st.2.2 + 1 = tableLen then .ok (d, st.2.1 + 1, 0) else .ok (d, st.2.1, st.2.2 + 1)

/-- init.rs 9-61 `populate_base_mipmap_level`. -/
def populateBase {α : Type} (data : A3 α) (dim : Dim) (samples : List α) : Res Empty (A3 α) := do
  let n ← mulUs dim.numTables dim.tableLen
  if samples.length ≠ n then .panic "assertion failed: samples.len() == (num_tables * table_len)" else do
  let r ← samples.foldl (fun r x => r >>= fun st => baseStep dim.tableLen st x) (.ok (data, 0, 0))
  .ok r.1

/-- mipmap.rs 3-4. -/
def mipmapFilterSize : Nat := 64
/-- mipmap.rs 4 `MIPMAP_FILTER_ID_OF`. -/
def mipmapFilterIdOf : Nat := (mipmapFilterSize - 1) / 2

/-- `a & b` on `i32`. -/
def andI32 (a b : Int) : Int := asI32 ((BitVec.ofInt 32 a &&& BitVec.ofInt 32 b).toNat : Int)

/-- mipmap.rs 69-81: the body of the innermost loop. `as usize` of the (non-negative) indices is exact. -/
def mipTap {α : Type} (o : Ops α) (dim : Dim) (level table sample parentSize : Nat) (a : Nat) (data : A3 α) :
    Res Empty (A3 α) := do
  let src ← chkI32 (asI32 ((sample * 2 + a : Nat) : Int) - mipmapFilterIdOf)
  if asI32 parentSize = 0 then .panic "attempt to divide by zero" else do
  let srctable ← chkI32 (asI32 table + src.tdiv (asI32 parentSize))
  let srctable := max 0 srctable
  if parentSize = 0 then .panic "usize subtract overflow" else do
  let src := andI32 src (asI32 ((parentSize - 1 : Nat) : Int))
  if srctable < asI32 dim.numTables then do
    let f ← (match o.hrfilter[a]? with | some f => .ok f | none => .panic "index out of bounds")
    let p ← data.get (level - 1) srctable.toNat src.toNat
    data.put level table sample (o.mul f p)
  else .ok data

/-- mipmap.rs 45-86 `populate_mipmaps`. -/
def populateMipmaps {α : Type} (o : Ops α) (data : A3 α) (dim : Dim) : Res Empty (A3 α) :=
  forN (dim.mipmapLevels - 1) (fun l data => do
    let level := l + 1
    let parentSize ← shrUs dim.tableLen (level - 1)
    let levelSize ← shrUs dim.tableLen level
    forN dim.numTables (fun table data =>
      forN levelSize (fun sample data =>
        forN mipmapFilterSize (mipTap o dim level table sample parentSize) data) data) data) data

/-- table.rs 7-14 `WaveTableFlags` as used: cleared, or `IS_SAMPLE`. -/
structure Base (α : Type) where
  isSample : Bool
  dim : Dim
  data : A3 α

/-- init.rs 65-87 `WaveTableBase::new` with `data_3d_from_samples`. -/
def Base.new {α : Type} (o : Ops α) (isSample : Bool) (dim : Dim) (samples : List α) : Res Empty (Base α) :=
  if ¬ 3 ≤ dim.numTables then .panic "WaveTable need at least 3 tables to work properly" else do
  let data ← A3.zeros o.zero dim.mipmapLevels dim.numTables dim.tableLen
  let data ← populateBase data dim samples
  let data ← populateMipmaps o data dim
  .ok ⟨isSample, dim, data⟩

/-- base.rs 30-44 `new_zero`. -/
def Base.newZero {α : Type} (o : Ops α) (dim : Dim) : Res Empty (Base α) := do
  let data ← A3.zeros o.zero dim.mipmapLevels dim.numTables dim.tableLen
  .ok ⟨false, dim, data⟩

/-- base.rs 54-57. -/
def Base.numTables {α : Type} (b : Base α) : Res Empty Nat :=
  if b.dim.numTables = b.data.d1 then .ok b.dim.numTables else .panic "assertion failed: num_tables"
/-- base.rs 59-62. -/
def Base.numMipmapLevels {α : Type} (b : Base α) : Res Empty Nat :=
  if b.dim.mipmapLevels = b.data.d0 then .ok b.dim.mipmapLevels else .panic "assertion failed: mipmap_levels"
/-- base.rs 64-67. -/
def Base.numSamplesPerTable {α : Type} (b : Base α) : Res Empty Nat :=
  if b.dim.tableLen = b.data.d2 then .ok b.dim.tableLen else .panic "assertion failed: table_len"

/-- surge-math scan.rs 3-6 `bitscan_reverse`: `cttz`, the number of trailing zero bits of a `u32` (32 for zero). -/
def bitscanReverse (bits : Nat) : Nat := ((List.range 32).find? (fun i => bits.testBit i)).getD 32

/-- base.rs 69-72 `num_samples_per_table_po2`. -/
def Base.po2 {α : Type} (b : Base α) : Res Empty Nat := do
  let n ← b.numSamplesPerTable
  .ok (bitscanReverse (n % 2 ^ 32))

/-- base.rs 74-76 `dt`. -/
def Base.dt {α : Type} (b : Base α) : Res Empty F32 := do
  let n ← b.numSamplesPerTable
  .ok (F32.divC (.fin 1) (match F32.ofInt n with | .fin q => q | _ => 0))

/-! ## Loading a WAV file -/

/-- error.rs 4-36, the variants built by try_from_wavfile.rs (file names dropped). -/
inductive BuildError where
  | unsupportedDataFormat (bits channels : Nat) (float : Bool)
  | insufficientFrames (loops loopLen : Int)
  | doesNotUnderstandFile
  | couldNotSeekToStart
  deriving DecidableEq, Repr

/-- Carry a call that cannot return `Err` into one that can. -/
def liftP {α : Type} : Res Empty α → Res BuildError α
  | .ok a => .ok a
  | .err e => nomatch e
  | .panic w => .panic w

/-- try_from_wavfile.rs 3-27 `get_loop_len`. -/
def getLoopLen (s : SurgeSpec) : Res BuildError (Bool × Int) :=
  let loopData := s.smpl.isSome || s.clm.isSome || s.srge.isSome
  let loopLen : Int :=
    match s.clm, s.cue, s.srge, s.smpl with
    | some l, _, _, _ => l
    | _, some l, _, _ => l
    | _, _, some l, _ => l.1
    | _, _, _, some l => l
    | _, _, _, _ => -1
  if loopLen = 0 then .err .doesNotUnderstandFile else .ok (loopData, loopLen)

/-- try_from_wavfile.rs 72-85: the shift and whether the table is flagged a sample. -/
def loopShift (loopData : Bool) (loopLen : Int) : Nat × Bool :=
  if loopData then
    if loopLen = 4096 then (12, false)
    else if loopLen = 2048 then (11, false)
    else if loopLen = 1024 then (10, false)
    else if loopLen = 512 then (9, false)
    else if loopLen = 256 then (8, false)
    else if loopLen = 128 then (7, false)
    else if loopLen = 64 then (6, false)
    else if loopLen = 32 then (5, false)
    else if loopLen = 16 then (4, false)
    else if loopLen = 8 then (3, false)
    else if loopLen = 4 then (2, false)
    else if loopLen = 2 then (1, false)
    else (0, true)
  else (0, true)

/-- try_from_wavfile.rs 125-127: the loop shrinking the window, an `i32`; 32 rounds suffice. -/
def windowLoop (sampleLength : Int) : Nat → Int → Res BuildError Int
  | 0, w => .ok w
  | fuel + 1, w => do
    let w4 ← chkI32 (w * 4)
    if w4 > sampleLength ∧ w > 8 then windowLoop sampleLength fuel (w.tdiv 2) else .ok w

/-- `as usize` of an `i32`. -/
def asUsize (x : Int) : Nat := (x % 2 ^ 64).toNat

/-- try_from_wavfile.rs 50-139: from the chunks and the number of samples to flags and dimensions. -/
def planDim (surge : SurgeSpec) (datasamples : Nat) : Res BuildError (Bool × Dim) := do
  let (loopData, loopLen) ← getLoopLen surge
  let loopCount := datasamples / asUsize loopLen
  let (sh, isSample) := loopShift loopData loopLen
  if loopLen ≠ -1 ∧ (sh = 0 ∨ asI32 loopCount < 3) then .err (.insufficientFrames (asI32 loopCount) loopLen) else do
  let sampleLength : Int := min (asI32 datasamples) ((maxWavetableSize * maxSubtables : Nat) : Int)
  let dim : Dim := ⟨0, min maxSubtables (asUsize (sampleLength / 2 ^ sh)), 2 ^ sh⟩
  let dim ← (if isSample then do
      let w0 : Int := if surge.srgo.isSome then (match surge.srge with | some x => x.1 | none => 0) else 1024
      let w ← windowLoop sampleLength 32 w0
      if w = 0 then .panic "attempt to divide by zero" else do
      let n ← chkI32 (sampleLength.tdiv w)
      .ok (⟨0, asUsize n, asUsize w⟩ : Dim)
    else .ok dim : Res BuildError Dim)
  .ok (isSample, ⟨requiredMipmapLevels dim.tableLen, dim.numTables, dim.tableLen⟩)

/-- `Iterator::count` over the samples: errors count, a panic propagates. -/
def countSamples {α : Type} (S : SampleImpl α) : Nat → Reader → Res BuildError (Nat × Reader)
  | 0, r => .ok (0, r)
  | fuel + 1, r =>
    match r.next S with
    | (none, r') => .ok (0, r')
    | (some (.panic w), _) => .panic w
    | (some _, r') => do
      let (n, r'') ← countSamples S fuel r'
      .ok (n + 1, r'')

/-- `reader.samples().map(|r| r.unwrap()).collect()`. -/
def unwrapSamples {α : Type} (S : SampleImpl α) : Nat → Reader → Res BuildError (List α)
  | 0, _ => .ok []
  | fuel + 1, r =>
    match r.next S with
    | (none, _) => .ok []
    | (some (.panic w), _) => .panic w
    | (some (.err _), _) => .panic "called `Result::unwrap()` on an `Err` value"
    | (some (.ok x), r') => do
      let xs ← unwrapSamples S fuel r'
      .ok (x :: xs)

/-- table.rs 32-37 `enum WaveTable`. -/
inductive WaveTable where
  | ieeeFloat (b : Base F32)
  | pcm (b : Base Int)

/-- try_from_wavfile.rs 29-179 `TryFrom<WaveTableWavFilename>`, from the bytes of the file. -/
def load (file : Bytes) : Res BuildError WaveTable :=
  match openBytes file with
  | .err _ => .panic "unable to open file"
  | .panic w => .panic w
  | .ok reader => do
    let spec := reader.specx.spec
    let (datasamples, reader) ← (match spec.fmt with
      | .float => countSamples sampF32 (reader.numSamples + 1) reader
      | .int => countSamples sampI16 (reader.numSamples + 1) reader)
    match reader.seek 0 with
    | (.err _, _) => .err .couldNotSeekToStart
    | (.panic w, _) => .panic w
    | (.ok (), reader) => do
    let (isSample, dim) ← planDim reader.surge datasamples
    if spec.channels ≠ 1 then .panic "assertion failed: channels == spec.specx.unwrap().spec.channels"
    else if ¬ ((spec.fmt = .int ∧ spec.bits = 16) ∨ (spec.fmt = .float ∧ spec.bits = 32)) then
      .err (.unsupportedDataFormat spec.bits 1 (spec.fmt = .float))
    else match spec.fmt with
      | .float => do
        let xs ← unwrapSamples sampF32 (reader.numSamples + 1) reader
        let b ← liftP (Base.new opsF32 isSample dim (xs.map f32OfBits))
        .ok (.ieeeFloat b)
      | .int => do
        let xs ← unwrapSamples sampI16 (reader.numSamples + 1) reader
        let b ← liftP (Base.new opsI16 isSample dim xs)
        .ok (.pcm b)

end Verif.Wavetable
