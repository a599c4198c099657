import Verif.Hound.Codec
/-!
# surge-hound: `WavWriter`
Models `surge-hound/src/write.rs` 113-540 and 684-772.
-/
namespace Verif.Hound

/-- `io::Cursor<Vec<u8>>`: contents and position.  Stands for the `W: io::Write + io::Seek` of the writer;
writes never fail (simplification: no OS errors). -/
structure Cursor where
  data : Bytes
  pos : Nat
  deriving DecidableEq, Repr

namespace Cursor
/-- A fresh stream. -/
def empty : Cursor := ⟨[], 0⟩
/-- `write_all` at the current position: zero-fills a gap, overwrites, extends. -/
def writeAll (c : Cursor) (bs : Bytes) : Cursor :=
  { data := (c.data ++ List.replicate (c.pos - c.data.length) 0).take c.pos ++ bs ++
              c.data.drop (c.pos + bs.length),
    pos := c.pos + bs.length }
/-- `seek(SeekFrom::Start(p))`. -/
def seekStart (c : Cursor) (p : Nat) : Cursor := { c with pos := p }
end Cursor

/-- lib.rs 420-422 GUID constant `KSDATAFORMAT_SUBTYPE_PCM`. -/
def guidPcm : Bytes :=
  [0x01, 0x00, 0x00, 0x00, 0x00, 0x00, 0x10, 0x00, 0x80, 0x00, 0x00, 0xaa, 0x00, 0x38, 0x9b, 0x71]
/-- lib.rs 424-426 GUID constant `KSDATAFORMAT_SUBTYPE_IEEE_FLOAT`. -/
def guidFloat : Bytes :=
  [0x03, 0x00, 0x00, 0x00, 0x00, 0x00, 0x10, 0x00, 0x80, 0x00, 0x00, 0xaa, 0x00, 0x38, 0x9b, 0x71]

/-- ASCII tags. -/
def tagRIFF : Bytes := [82, 73, 70, 70]
def tagWAVE : Bytes := [87, 65, 86, 69]
def tagFmt : Bytes := [102, 109, 116, 32]
def tagData : Bytes := [100, 97, 116, 97]
def tagFact : Bytes := [102, 97, 99, 116]
def tagClm : Bytes := [99, 108, 109, 32]
def tagUhwt : Bytes := [117, 104, 87, 84]
def tagSrge : Bytes := [115, 114, 103, 101]
def tagSrgo : Bytes := [115, 114, 103, 111]
def tagCue : Bytes := [99, 117, 101, 32]
def tagSmpl : Bytes := [115, 109, 112, 108]

/-- write.rs 114-116 `channel_mask`: `(0..channels).map(|c| 1 << c).fold(0, |a, c| a | c)` in `u32`;
`1 << c` with `c ≥ 32` overflows (panic). -/
def channelMask (channels : Nat) : Res Err Nat :=
  (List.range channels).foldl
    (fun acc c => do
      let a ← acc
      if c < 32 then .ok (a ||| 1 <<< c) else .panic "shift left with overflow")
    (.ok 0)

/-- write.rs 168-171 `enum FmtKind`. -/
inductive FmtKind where
  | pcm
  | ext
  deriving DecidableEq, Repr

/-- write.rs 136-166 `struct WavWriter`. -/
structure Writer where
  spec : WavSpec
  bytesPerSample : Nat
  out : Cursor
  dataBytes : Nat
  finalized : Bool
  swBuf : Bytes
  dataLenOffset : Nat
  deriving DecidableEq, Repr

/-- write.rs 267-286 `write_waveformat`. -/
def waveformatBytes (spec : WavSpec) (bytesPerSample : Nat) : Res Err Bytes := do
  let t ← mulU32 spec.sampleRate bytesPerSample
  let bytesPerSec ← mulU32 t spec.channels
  let ba ← divP bytesPerSec spec.sampleRate
  pure (leU16 spec.channels ++ leU32 spec.sampleRate ++ leU32 bytesPerSec ++ leU16 (ba % 65536))

/-- write.rs 288-325 `write_pcmwaveformat`. -/
def pcmBytes (spec : WavSpec) (bytesPerSample : Nat) : Res Err Bytes := do
  let tag ← match spec.fmt with
    | .int => Res.ok (leU16 1)
    | .float => if spec.bits = 32 then Res.ok (leU16 3) else Res.panic "float needs 32 bits"
  let wf ← waveformatBytes spec bytesPerSample
  pure (leU32 16 ++ tag ++ wf ++ leU16 spec.bits)

/-- write.rs 327-371 `write_waveformatextensible` (`bytes_per_sample as u16 * 8` cannot overflow for the
bit depths that reach it, all at most 32). -/
def extBytes (spec : WavSpec) (bytesPerSample : Nat) : Res Err Bytes := do
  let wf ← waveformatBytes spec bytesPerSample
  let mask ← channelMask spec.channels
  let guid ← match spec.fmt with
    | .int => Res.ok guidPcm
    | .float => if spec.bits = 32 then Res.ok guidFloat else Res.panic "float needs 32 bits"
  pure (leU32 40 ++ leU16 0xfffe ++ wf ++ leU16 (bytesPerSample * 8) ++ leU16 22 ++ leU16 spec.bits ++
    leU32 mask ++ guid)

/-- write.rs 225-265 `write_headers`: fills a zeroed 68-byte buffer, then writes its first
`data_len_offset + 4` bytes. -/
def writeHeaders (w : Writer) (kind : FmtKind) : Res Err Writer := do
  let fmt ← match kind with
    | .pcm => pcmBytes w.spec w.bytesPerSample
    | .ext => extBytes w.spec w.bytesPerSample
  let hdr := tagRIFF ++ leU32 0 ++ tagWAVE ++ tagFmt ++ fmt ++ tagData ++ leU32 0
  let buf := hdr ++ List.replicate (68 - hdr.length) 0
  pure { w with out := w.out.writeAll (buf.take (w.dataLenOffset + 4)) }

/-- write.rs 379-383 `write_sample`: outcome and the writer afterwards. -/
def Writer.writeSample {α} (S : SampleImpl α) (w : Writer) (x : α) : Res Err Unit × Writer :=
  match S.write x w.spec.bits with
  | .err e => (.err e, w)
  | .panic p => (.panic p, w)
  | .ok bs =>
    let w1 := { w with out := w.out.writeAll bs }
    match addU32 (ε := Err) w.dataBytes w.bytesPerSample with
    | .ok n => (.ok (), { w1 with dataBytes := n })
    | .err e => (.err e, w1)
    | .panic p => (.panic p, w1)

/-- write.rs 434-460 `update_header`. -/
def Writer.updateHeader (w : Writer) : Res Err Unit × Writer :=
  match addU32 (ε := Err) w.dataBytes (w.dataLenOffset + 4 - 8) with
  | .err e => (.err e, w)
  | .panic p => (.panic p, w)
  | .ok fileSize =>
    let o1 := (w.out.seekStart 4).writeAll (leU32 fileSize)
    let o2 := (o1.seekStart w.dataLenOffset).writeAll (leU32 w.dataBytes)
    let w' := { w with out := o2 }
    match (do let q ← divP (ε := Err) w.dataBytes w.bytesPerSample; modP q w.spec.channels) with
    | .ok r => if r ≠ 0 then (.err .unfinishedSample, w') else (.ok (), w')
    | .err e => (.err e, w')
    | .panic p => (.panic p, w')

/-- write.rs 473-479 `flush` (`writer.flush()` of a cursor is a no-op). -/
def Writer.flush (w : Writer) : Res Err Unit × Writer :=
  let cur := w.out.pos
  match w.updateHeader with
  | (.ok (), w') => (.ok (), { w' with out := w'.out.seekStart cur })
  | r => r

/-- write.rs 486-495 `finalize`; the returned writer shows the stream after the call (the Rust value is
consumed and its `Drop`, 530-541, does nothing because `finalized` is set). -/
def Writer.finalize (w : Writer) : Res Err Unit × Writer :=
  ({ w with finalized := true } : Writer).updateHeader

/-- write.rs 530-541 `Drop`: finish the header unless finalized, ignoring errors. -/
def Writer.drop (w : Writer) : Writer :=
  if w.finalized then w else (w.updateHeader).2

/-- write.rs 185-210: the value `WavWriter::new` builds before it checks the bit depth;
`b` is `bits_per_sample + 7`. -/
def Writer.unborn (out : Cursor) (spec : WavSpec) (b : Nat) : Writer :=
  { spec := spec, bytesPerSample := b / 8, out := out, dataBytes := 0, finalized := false, swBuf := [],
    dataLenOffset :=
      match (if spec.channels > 2 ∨ spec.bits > 16 then FmtKind.ext else FmtKind.pcm) with
      | .ext => 64
      | .pcm => 40 }

/-- write.rs 185-223 `WavWriter::new`.  On an unsupported bit depth (214-219) the half-built writer is
dropped, and its `Drop` (530-541) runs `update_header`, which can itself panic. -/
def Writer.new (out : Cursor) (spec : WavSpec) : Res Err Writer :=
  let kind := if spec.channels > 2 ∨ spec.bits > 16 then FmtKind.ext else FmtKind.pcm
  do
    let b ← addU16 spec.bits 7
    let w := Writer.unborn out spec b
    if spec.bits = 8 ∨ spec.bits = 16 ∨ spec.bits = 24 ∨ spec.bits = 32 then
      writeHeaders w kind
    else
      match w.updateHeader with
      | (.panic p, _) => .panic p
      | _ => .err .unsupported

/-- write.rs 217-219 with 530-541: the stream after `WavWriter::new` returned `Unsupported`. -/
def Writer.newErrStream (out : Cursor) (spec : WavSpec) : Cursor :=
  (Writer.unborn out spec (spec.bits + 7)).drop.out

/-- write.rs 512-514 `duration` (`u32` product and division). -/
def Writer.duration (w : Writer) : Res Err Nat := do
  let d ← mulU32 w.bytesPerSample w.spec.channels
  divP w.dataBytes d
/-- write.rs 520-522 `len`. -/
def Writer.len (w : Writer) : Res Err Nat := divP w.dataBytes w.bytesPerSample
/-- write.rs 525-527 `is_empty`. -/
def Writer.isEmpty (w : Writer) : Bool := w.dataBytes == 0

/-! ## `SampleWriter16` (write.rs 684-772) -/

/-- write.rs 684-696: the borrowed parts of the parent are kept as the parent itself; `buf` is the slice
`&mut sample_writer_buffer[..num_bytes]`. -/
structure SW16 where
  parent : Writer
  buf : Bytes
  index : Nat
  deriving DecidableEq, Repr

/-- write.rs 400-432 `get_i16_writer`.  `junk` is the uninitialised memory a newly allocated buffer
contains (`set_len` without initialisation): theorems quantify over it. -/
def Writer.getI16Writer (w : Writer) (numSamples : Nat) (junk : Nat → UInt8) : Res Err SW16 :=
  if w.spec.fmt ≠ .int then .panic "sample format must be int"
  else if w.spec.bits ≠ 16 then .panic "bits per sample must be 16"
  else
    let numBytes := numSamples * 2
    let store := if w.swBuf.length < numBytes then (List.range numBytes).map junk else w.swBuf
    .ok { parent := { w with swBuf := store }, buf := store.take numBytes, index := 0 }

/-- write.rs 713-725 `SampleWriter16::write_sample`; `buffer.len() - 2` underflows (panic) for an empty
buffer. -/
def SW16.writeSample {α} (S : SampleImpl α) (s : SW16) (x : α) : Res Err SW16 :=
  if s.buf.length < 2 then .panic "usize subtract overflow"
  else if s.index ≤ s.buf.length - 2 then do
    let v ← S.asI16 x
    let u := asU16 v
    pure { s with
      buf := (s.buf.set s.index (UInt8.ofNat (u % 256))).set (s.index + 1) (UInt8.ofNat (u >>> 8)),
      index := s.index + 2 }
  else .panic "Trying to write more samples than reserved for the sample writer."

/-- write.rs 763-771 `SampleWriter16::flush`; gives back the parent writer. -/
def SW16.flush (s : SW16) : Res Err Writer :=
  if s.index ≠ s.buf.length then .panic "Insufficient samples written to the sample writer."
  else do
    let n ← addU32 s.parent.dataBytes s.buf.length
    pure { s.parent with
      out := s.parent.out.writeAll s.buf, dataBytes := n,
      swBuf := s.buf ++ s.parent.swBuf.drop s.buf.length }

end Verif.Hound
