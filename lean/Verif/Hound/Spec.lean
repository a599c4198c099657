import Verif.Hound.Codec
/-!
# What a WAV file is — the specification side

Written from the WAVE format description (the struct layouts quoted in read.rs 484-515, 831-844) and the
public documentation of the crate, without the reader's or writer's helpers.
Only the data types `WavSpec`, `SampleFormat` and `Bytes` are shared with the model.
-/
namespace Verif.Hound.Spec
open Verif.Hound (WavSpec SampleFormat Bytes)

/-- The `n` little-endian base-256 digits of `x`. -/
def le : Nat → Nat → Bytes
  | 0, _ => []
  | n + 1, x => UInt8.ofNat (x % 256) :: le n (x / 256)

/-- `x` is a signed number of `bits` bits. -/
def Fits (bits : Nat) (x : Int) : Prop := -(2 ^ (bits - 1) : Int) ≤ x ∧ x < (2 ^ (bits - 1) : Int)

instance (bits : Nat) (x : Int) : Decidable (Fits bits x) := by unfold Fits; infer_instance

/-- How a sample of `bits` bits is stored: 8-bit samples offset by 128, wider ones in two's complement. -/
def sampleBytes (bits : Nat) (x : Int) : Bytes :=
  if bits = 8 then [UInt8.ofNat (x + 128).toNat]
  else le (bits / 8) (x % (2 ^ bits : Int)).toNat

/-- The data chunk contents for a list of integer samples. -/
def pcmData (bits : Nat) (xs : List Int) : Bytes := xs.flatMap (sampleBytes bits)

/-- The data chunk contents for a list of `f32` bit patterns. -/
def floatData (xs : List Nat) : Bytes := xs.flatMap (le 4)

def ascii (s : String) : Bytes := s.toList.map (fun c => UInt8.ofNat c.toNat)

/-- A specification the crate documents as writable: 8/16/24/32-bit integers or 32-bit floats, at least one
channel (and at most 32, one per speaker-mask bit), a non-zero sample rate, and a byte rate that fits its
32-bit header field. -/
structure Supported (s : WavSpec) : Prop where
  ch_pos : 1 ≤ s.channels
  ch_le : s.channels ≤ 32
  rate_pos : 1 ≤ s.sampleRate
  bits_ok : s.bits = 8 ∨ s.bits = 16 ∨ s.bits = 24 ∨ s.bits = 32
  float_ok : s.fmt = .float → s.bits = 32
  rate_fits : s.sampleRate * (s.bits / 8) * s.channels < 2 ^ 32

/-- Bytes of one inter-channel frame. -/
def frameBytes (s : WavSpec) : Nat := s.bits / 8 * s.channels

/-- Does the spec need WAVEFORMATEXTENSIBLE? -/
def needsExt (s : WavSpec) : Bool := s.channels > 2 || s.bits > 16

/-- The `fmt ` chunk: PCMWAVEFORMAT when possible, else WAVEFORMATEXTENSIBLE. -/
def fmtChunk (s : WavSpec) : Bytes :=
  if needsExt s then
    ascii "fmt " ++ le 4 40 ++ le 2 0xfffe ++ le 2 s.channels ++ le 4 s.sampleRate ++
      le 4 (s.sampleRate * frameBytes s) ++ le 2 (frameBytes s) ++ le 2 s.bits ++
      le 2 22 ++ le 2 s.bits ++ le 4 (2 ^ s.channels - 1) ++
      ((if s.fmt = .float then [0x03] else [0x01]) ++
        [0x00, 0x00, 0x00, 0x00, 0x00, 0x10, 0x00, 0x80, 0x00, 0x00, 0xaa, 0x00, 0x38, 0x9b, 0x71])
  else
    ascii "fmt " ++ le 4 16 ++ le 2 (if s.fmt = .float then 3 else 1) ++ le 2 s.channels ++
      le 4 s.sampleRate ++ le 4 (s.sampleRate * frameBytes s) ++ le 2 (frameBytes s) ++ le 2 s.bits

/-- Header with given size fields. -/
def header (s : WavSpec) (riffSize dataSize : Nat) : Bytes :=
  ascii "RIFF" ++ le 4 riffSize ++ ascii "WAVE" ++ fmtChunk s ++ ascii "data" ++ le 4 dataSize

/-- Length of the header. -/
def headerLen (s : WavSpec) : Nat := if needsExt s then 68 else 44

/-- The RIFF size field of a file with `n` samples (file length minus 8) fits its 32 bits. -/
def FileFits (s : WavSpec) (n : Nat) : Prop := headerLen s + n * (s.bits / 8) - 8 < 2 ^ 32

/-- The complete file for data chunk contents `d`: size fields describe the file exactly. -/
def file (s : WavSpec) (d : Bytes) : Bytes := header s (headerLen s + d.length - 8) d.length ++ d

end Verif.Hound.Spec

namespace Verif.Hound.Spec
open Verif.Hound (WavSpec SampleFormat Bytes)

/-- A RIFF chunk: four-byte id and contents. -/
structure Chunk where
  id : Bytes
  body : Bytes

/-- A chunk as stored: id, 32-bit length, contents. -/
def Chunk.bytes (c : Chunk) : Bytes := c.id ++ le 4 c.body.length ++ c.body

/-- The chunk ids the crate knows. -/
def knownIds : List String := ["fmt ", "fact", "data", "clm ", "uhWT", "srge", "srgo", "cue ", "smpl"]

/-- A chunk a WAV reader is supposed to skip: well-formed, with an id the crate does not know. -/
structure Chunk.Unknown (c : Chunk) : Prop where
  idLen : c.id.length = 4
  notKnown : ∀ k ∈ knownIds, c.id ≠ ascii k
  bodyLen : c.body.length < 2 ^ 32

/-- A file with chunks `pre` before the fmt chunk, `mid` between fmt and data, and `tail` bytes after the
data chunk; `riffSize` is arbitrary (readers ignore it). -/
def fileWith (s : WavSpec) (riffSize : Nat) (pre mid : List Chunk) (d tail : Bytes) : Bytes :=
  (ascii "RIFF" ++ le 4 riffSize ++ ascii "WAVE" ++ pre.flatMap Chunk.bytes ++ fmtChunk s ++
    mid.flatMap Chunk.bytes ++ ascii "data" ++ le 4 d.length) ++ d ++ tail

end Verif.Hound.Spec
