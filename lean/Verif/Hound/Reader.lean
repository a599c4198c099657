import Verif.Hound.Writer
/-!
# surge-hound: `WavReader`, and `WavWriter::new_append`
Models `surge-hound/src/read.rs` 181-1035 and `write.rs` 546-665.
-/
namespace Verif.Hound

/-- read.rs 182-193 `enum ChunkKind`. -/
inductive ChunkKind where
  | fmt | clm | uhwt | srge | srgo | cue | smpl | fact | data | unknown
  deriving DecidableEq, Repr

/-- read.rs 203-212 `struct WavSpecEx`. -/
structure WavSpecEx where
  spec : WavSpec
  bytesPerSample : Nat
  deriving DecidableEq, Repr

/-- read.rs 261-283 `struct WavSpecSurge`; `clm`, `uhwt`, `cue`, `smpl` carry their `len`; `srge`, `srgo`
carry `(len, version)`. -/
structure SurgeSpec where
  specx : Option WavSpecEx := none
  clm : Option Int := none
  uhwt : Option Int := none
  srge : Option (Int × Int) := none
  srgo : Option (Int × Int) := none
  cue : Option Int := none
  smpl : Option Int := none
  deriving DecidableEq, Repr

/-- read.rs 458-469: chunk id to kind. -/
def chunkKind (id : Bytes) : ChunkKind :=
  if id = tagFmt then .fmt
  else if id = tagFact then .fact
  else if id = tagData then .data
  else if id = tagClm then .clm
  else if id = tagUhwt then .uhwt
  else if id = tagSrge then .srge
  else if id = tagSrgo then .srgo
  else if id = tagCue then .cue
  else if id = tagSmpl then .smpl
  else .unknown

/-- read.rs 453-472 `read_chunk_header`. -/
def readChunkHeader : Rd (ChunkKind × Nat) := do
  let id ← readBytes 4
  let len ← readU32
  pure (chunkKind id, len)

/-- read.rs 341-361 `read_wave_header`. -/
def readWaveHeader : Rd Nat := do
  let m ← readBytes 4
  if m ≠ tagRIFF then Rd.fail (.format "no RIFF tag found") else do
  let fileLen ← readU32
  let t ← readBytes 4
  if t ≠ tagWAVE then Rd.fail (.format "no WAVE tag found") else
  pure (fileLen + 8)

/-- read.rs 729-772 `read_wave_format_pcm`. -/
def readFormatPcm (chunkLen : Nat) (spec : WavSpec) : Rd WavSpecEx :=
  if chunkLen = 16 then
    pure { spec := spec, bytesPerSample := spec.bits / 8 }
  else if chunkLen = 18 ∨ chunkLen = 40 then do
    let _cbSize ← readU16
    if spec.bits = 8 ∨ spec.bits = 16 ∨ spec.bits = 24 then do
      let _ ← (if chunkLen = 40 then skipBytes 22 else pure () : Rd Unit)
      pure { spec := spec, bytesPerSample := spec.bits / 8 }
    else Rd.fail (.format "bits per sample is not 8 or 16")
  else Rd.fail (.format "unexpected fmt chunk size")

/-- read.rs 774-811 `read_wave_format_ieee_float`. -/
def readFormatFloat (chunkLen : Nat) (spec : WavSpec) : Rd WavSpecEx :=
  if chunkLen ≠ 18 ∧ chunkLen ≠ 16 then Rd.fail (.format "unexpected fmt chunk size")
  else do
    let cb ← (if chunkLen = 18 then readU16 else pure 0 : Rd Nat)
    if cb ≠ 0 then Rd.fail (.format "unexpected WAVEFORMATEX size")
    else if spec.bits ≠ 32 then Rd.fail (.format "bits per sample is not 32")
    else pure { spec := { spec with fmt := .float }, bytesPerSample := spec.bits / 8 }

/-- read.rs 813-869 `read_wave_format_extensible` (never looks past byte 40 of the chunk). -/
def readFormatExt (chunkLen : Nat) (spec : WavSpec) : Rd WavSpecEx :=
  if chunkLen < 40 then Rd.fail (.format "unexpected fmt chunk size")
  else do
    let cb ← readU16
    if cb ≠ 22 then Rd.fail (.format "unexpected WAVEFORMATEXTENSIBLE size") else do
    let validBits ← readU16
    let _mask ← readU32
    let sub ← readBytes 16
    if sub = guidPcm then
      pure { spec := { spec with bits := validBits, fmt := .int }, bytesPerSample := spec.bits / 8 }
    else if sub = guidFloat then
      pure { spec := { spec with bits := validBits, fmt := .float }, bytesPerSample := spec.bits / 8 }
    else Rd.fail .unsupported

/-- read.rs 475-571 `read_fmt_chunk`.  `checked_mul` returning `None` on overflow is the `<` conjunct. -/
def readFmtChunk (chunkLen : Nat) : Rd WavSpecEx :=
  if chunkLen < 16 then Rd.fail (.format "invalid fmt chunk size")
  else do
    let tag ← readU16
    let channels ← readU16
    let rate ← readU32
    let bytesPerSec ← readU32
    let blockAlign ← readU16
    let bits ← readU16
    if channels = 0 then Rd.fail (.format "file contains zero channels")
    else if ¬ (blockAlign / channels * 8 < 65536 ∧ bits = blockAlign / channels * 8) ∨
            ¬ (blockAlign * rate < 4294967296 ∧ bytesPerSec = blockAlign * rate) then
      Rd.fail (.format "inconsistent fmt chunk")
    else if bits % 8 ≠ 0 then Rd.fail (.format "bits per sample is not a multiple of 8")
    else if bits = 0 then Rd.fail (.format "bits per sample is 0")
    else
      let spec : WavSpec := { channels := channels, sampleRate := rate, bits := bits, fmt := .int }
      if tag = 1 then readFormatPcm chunkLen spec
      else if tag = 2 then Rd.fail .unsupported
      else if tag = 3 then readFormatFloat chunkLen spec
      else if tag = 0xfffe then readFormatExt chunkLen spec
      else Rd.fail .unsupported

/-- read.rs 574-597 `read_clm_chunk`. -/
def readClmChunk (chunkLen : Nat) : Rd Int := do
  let _prefix ← readU24
  let c1 ← readU8
  let c2 ← readU8
  let c3 ← readU8
  let c4 ← readU8
  let n ← Rd.lift (subU32 chunkLen 7)
  skipBytes n
  if c1 = 50 ∧ c2 = 48 ∧ c3 = 52 ∧ c4 = 56 then pure 2048
  else Rd.fail (.format "invalid clm prefix")

/-- read.rs 606-619 `read_srge_chunk`, `read_srgo_chunk` (identical bodies). -/
def readSrgChunk (chunkLen : Nat) : Rd (Int × Int) := do
  let version ← readI32
  let len ← readI32
  let n ← Rd.lift (subU32 chunkLen 8)
  skipBytes n
  pure (len, version)

/-- read.rs 631-642: the cue records; only the sixth field (the sample offset) is kept. -/
def readCueStarts : Nat → Rd (List Int)
  | 0 => pure []
  | n + 1 => do
    let _ ← readI32
    let _ ← readI32
    let _ ← readI32
    let _ ← readI32
    let _ ← readI32
    let d ← readI32
    let rest ← readCueStarts n
    pure (d :: rest)

/-- read.rs 647-659: state `(d, regular)` folded over neighbouring offsets; the difference is `i32`. -/
def cueRegular : List Int → Int × Bool → Res Err (Int × Bool)
  | a :: b :: rest, (d, reg) => do
    let diff ← chkI32 (b - a)
    if d = -1 then cueRegular (b :: rest) (diff, reg)
    else cueRegular (b :: rest) (d, if d ≠ diff then false else reg)
  | _, acc => .ok acc

/-- read.rs 622-669 `read_cue_chunk`; `parsed` is a `u32` counting bytes read. -/
def readCueChunk (chunkLen : Nat) : Rd Int := do
  let numCues ← readI32
  let starts ← readCueStarts numCues.toNat
  let parsed ← Rd.lift (if 4 + 24 * starts.length < 2 ^ 32 then .ok (4 + 24 * starts.length)
                        else .panic "u32 add overflow")
  let (d, regular) ← Rd.lift (cueRegular starts (-1, true))
  let n ← Rd.lift (subU32 chunkLen parsed)
  skipBytes n
  if regular then pure d else Rd.fail (.format "invalid CUE chunk")

/-- read.rs 672-727 `read_smpl_chunk`. -/
def readSmplChunk (chunkLen : Nat) : Rd Int := do
  let _ ← readU32
  let _ ← readU32
  let _ ← readU32
  let _ ← readU32
  let _ ← readU32
  let _ ← readU32
  let _ ← readU32
  let nloops ← readU32
  let _ ← readU32
  if nloops > 1 then Rd.fail (.format "SMPL chunk, nloops > 1, not supported")
  else if nloops = 0 then do
    let n ← Rd.lift (subU32 chunkLen 36)
    skipBytes n
    pure 2048
  else do
    let _ ← readI32
    let _ ← readI32
    let l2 ← readI32
    let l3 ← readI32
    let _ ← readI32
    let _ ← readI32
    let t ← Rd.lift (chkI32 (l3 - l2))
    let len ← Rd.lift (chkI32 (t + 1))
    let n ← Rd.lift (subU32 chunkLen 60)
    skipBytes n
    pure (if len = 0 then 2048 else len)

/-- Run `m` and throw its outcome away, keeping the reader position (`let _ = m;`). -/
def Rd.ignore {α} (m : Rd α) : Rd Unit := ⟨fun s =>
  match m s with
  | (.panic w, s') => (.panic w, s')
  | (_, s') => (.ok (), s')⟩

/-- One iteration of the `loop` in read.rs 372-446: `inl` = go round again, `inr` = return. -/
def chunkStep (acc : SurgeSpec) : Rd (SurgeSpec ⊕ (SurgeSpec × Nat)) := do
  let (kind, len) ← readChunkHeader
  match kind with
  | .fmt => do let x ← readFmtChunk len; pure (.inl { acc with specx := some x })
  | .clm => do let x ← readClmChunk len; pure (.inl { acc with clm := some x })
  | .uhwt => pure (.inl { acc with uhwt := some 2048 })   -- read.rs 600-603: reads nothing
  | .srge => do let x ← readSrgChunk len; pure (.inl { acc with srge := some x })
  | .srgo => do let x ← readSrgChunk len; pure (.inl { acc with srgo := some x })
  | .cue => do let x ← readCueChunk len; pure (.inl { acc with cue := some x })
  | .smpl => do let x ← readSmplChunk len; pure (.inl { acc with smpl := some x })
  | .fact => do Rd.ignore readU32; pure (.inl acc)
  | .data => pure (.inr (acc, len))                        -- `surge_spec_opt` is always `Some`
  | .unknown => do skipBytes len; pure (.inl acc)

/-- The label of the model's own "out of fuel" outcome (not a behaviour of the code). -/
def outOfFuel : String := "model: out of fuel"

/-- read.rs 368-447 `read_until_data`: the loop, with fuel. -/
def readUntilDataLoop : Nat → SurgeSpec → Rd (SurgeSpec × Nat)
  | 0, _ => Rd.lift (.panic outOfFuel)
  | fuel + 1, acc => do
    match ← chunkStep acc with
    | .inl acc' => readUntilDataLoop fuel acc'
    | .inr r => pure r

/-- read.rs 368-447 with enough fuel for the bytes at hand (theorem C09 shows that it is enough). -/
def readUntilData : Rd (SurgeSpec × Nat) := ⟨fun s => readUntilDataLoop (s.length / 8 + 1) {} s⟩

/-- read.rs 292-311 `struct WavReader`; `R` is an in-memory cursor. -/
structure Reader where
  surge : SurgeSpec
  specx : WavSpecEx        -- `surge_spec.specx.unwrap()`, checked once in `new`
  bytesPerSample : Nat
  numSamples : Nat
  samplesRead : Nat
  cur : Cursor
  deriving DecidableEq, Repr

/-- Run a streaming read on a cursor. -/
def Cursor.run {α} (c : Cursor) (m : Rd α) : Res Err α × Cursor :=
  let r := m (c.data.drop c.pos)
  (r.1, { c with pos := c.pos + ((c.data.drop c.pos).length - r.2.length) })

/-- read.rs 875-907 `WavReader::new`. -/
def Reader.new (c : Cursor) : Res Err Reader :=
  match c.run (do let _ ← readWaveHeader; readUntilData) with
  | (.err e, _) => .err e
  | (.panic w, _) => .panic w
  | (.ok (surge, dataLen), c') =>
    match surge.specx with
    | none => .panic "called `Option::unwrap()` on a `None` value"
    | some sx => do
      let num ← divP dataLen sx.bytesPerSample
      let prod ← mulU32 num sx.bytesPerSample
      if prod ≠ dataLen then
        .err (.format "data chunk length is not a multiple of sample size")
      else do
        let r ← modP num sx.spec.channels
        if r ≠ 0 then .err (.format "invalid data chunk length")
        else .ok { surge := surge, specx := sx, bytesPerSample := sx.bytesPerSample,
                   numSamples := num, samplesRead := 0, cur := c' }

/-- read.rs 910-912 `spec`. -/
def Reader.spec (r : Reader) : WavSpec := r.specx.spec
/-- read.rs 967-969 `len`. -/
def Reader.len (r : Reader) : Nat := r.numSamples
/-- read.rs 957-959 `duration`. -/
def Reader.duration (r : Reader) : Res Err Nat := divP r.numSamples r.specx.spec.channels

/-- read.rs 1016-1030 `iter_next`. -/
def Reader.next {α} (S : SampleImpl α) (r : Reader) : Option (Res Err α) × Reader :=
  if r.samplesRead < r.numSamples then
    let o := r.cur.run (S.read r.specx.spec.fmt r.bytesPerSample r.specx.spec.bits)
    (some o.1, { r with samplesRead := r.samplesRead + 1, cur := o.2 })
  else (none, r)

/-- read.rs 1032-1035 `iter_size_hint` (lower bound; the upper bound is the same number). -/
def Reader.sizeHint (r : Reader) : Res Err Nat := subU32 r.numSamples r.samplesRead

/-- read.rs 991-1001 `seek`.  `SeekFrom::Current` to a negative position is an `io::Error` of the cursor and
then `samples_read` is unchanged. -/
def Reader.seek (r : Reader) (time : Nat) : Res Err Unit × Reader :=
  match mulU32 (ε := Err) time r.specx.spec.channels with
  | .err e => (.err e, r)
  | .panic p => (.panic p, r)
  | .ok samplePos =>
    let off : Int := ((samplePos : Int) - r.samplesRead) * ((r.specx.spec.bits / 8 : Nat) : Int)
    let p : Int := (r.cur.pos : Int) + off
    if p < 0 then (.err .io, r)
    else (.ok (), { r with samplesRead := samplePos, cur := { r.cur with pos := p.toNat } })

/-- write.rs 546-585 `read_append`: spec, data length, offset of the data length field, and the cursor at the
first data byte. -/
def readAppend (c : Cursor) : Res Err (WavSpecEx × Nat × Nat × Cursor) :=
  match c.run (do let _ ← readWaveHeader; readUntilData) with
  | (.err e, _) => .err e
  | (.panic w, _) => .panic w
  | (.ok (surge, dataLen), c') => do
    let off ← subU32 (c'.pos % 2 ^ 32) 4
    match surge.specx with
    | none => .panic "called `Option::unwrap()` on a `None` value"
    | some sx => do
      let num ← divP dataLen sx.bytesPerSample
      let prod ← mulU32 num sx.bytesPerSample
      if prod ≠ dataLen then
        .err (.format "data chunk length is not a multiple of sample size")
      else if ¬ ((sx.bytesPerSample = 1 ∧ sx.spec.bits = 8) ∨ (sx.bytesPerSample = 2 ∧ sx.spec.bits = 16) ∨
                 (sx.bytesPerSample = 3 ∧ sx.spec.bits = 24) ∨ (sx.bytesPerSample = 4 ∧ sx.spec.bits = 32)) then
        .err .unsupported
      else do
        let r ← modP num sx.spec.channels
        if r ≠ 0 then .err (.format "invalid data chunk length")
        else .ok (sx, dataLen, off, c')

/-- write.rs 650-664 `new_append`. -/
def Writer.newAppend (c : Cursor) : Res Err Writer := do
  let (sx, dataLen, off, c') ← readAppend c
  pure { spec := sx.spec, bytesPerSample := sx.bytesPerSample,
         out := { c' with pos := c'.pos + dataLen }, dataBytes := dataLen, finalized := false,
         swBuf := [], dataLenOffset := off }

end Verif.Hound
