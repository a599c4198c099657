import Verif.Hound.Reader
/-!
# Client programs over the hound API, used in the theorem statements

These are what a user writes against the crate (cf. the examples in the crate documentation, and the unit
tests lib.rs 430-600): loops over `write_sample`, `samples()`, and so on.
-/
namespace Verif.Hound

/-- `for x in xs { writer.write_sample(x)?; }` -/
def Writer.writeSamples {α} (S : SampleImpl α) : Writer → List α → Res Err Unit × Writer
  | w, [] => (.ok (), w)
  | w, x :: xs =>
    match w.writeSample S x with
    | (.ok (), w') => Writer.writeSamples S w' xs
    | r => r

/-- Create a writer on an empty stream, write all samples, finalize; the bytes on the stream. -/
def record {α} (S : SampleImpl α) (spec : WavSpec) (xs : List α) : Res Err Bytes := do
  let w ← Writer.new Cursor.empty spec
  match w.writeSamples S xs with
  | (.ok (), w1) =>
    match w1.finalize with
    | (.ok (), w2) => .ok w2.out.data
    | (.err e, _) => .err e
    | (.panic p, _) => .panic p
  | (.err e, _) => .err e
  | (.panic p, _) => .panic p

/-- Open a byte string as a WAV file. -/
def openBytes (b : Bytes) : Res Err Reader := Reader.new ⟨b, 0⟩

/-- Take (up to) `n` items from the sample iterator. -/
def Reader.take {α} (S : SampleImpl α) : Nat → Reader → List (Res Err α) × Reader
  | 0, r => ([], r)
  | n + 1, r =>
    match r.next S with
    | (none, r') => ([], r')
    | (some x, r') =>
      let (xs, r'') := Reader.take S n r'
      (x :: xs, r'')

/-- Drain the iterator: `reader.samples().collect()`.  One more item than `len()` is requested, so that
an iterator that went on past its length would show. -/
def Reader.collect {α} (S : SampleImpl α) (r : Reader) : List (Res Err α) :=
  (Reader.take S (r.numSamples + 1) r).1

/-- Operations of a client that writes, flushes and writes again. -/
inductive WOp (α : Type) where
  | sample (x : α)
  | flush
  deriving Repr

/-- Perform one client operation. -/
def Writer.op {α} (S : SampleImpl α) (w : Writer) : WOp α → Res Err Unit × Writer
  | .sample x => w.writeSample S x
  | .flush => w.flush

/-- Perform a history of operations, stopping at the first failure. -/
def Writer.ops {α} (S : SampleImpl α) : Writer → List (WOp α) → Res Err Unit × Writer
  | w, [] => (.ok (), w)
  | w, o :: os =>
    match w.op S o with
    | (.ok (), w') => Writer.ops S w' os
    | r => r

/-- Perform a history of operations, carrying on whatever each one returns. -/
def Writer.opsAll {α} (S : SampleImpl α) : Writer → List (WOp α) → List (Res Err Unit) × Writer
  | w, [] => ([], w)
  | w, o :: os =>
    let (r, w') := w.op S o
    let (rs, w'') := Writer.opsAll S w' os
    (r :: rs, w'')

/-- The samples a history writes, in order. -/
def WOp.samples {α} : List (WOp α) → List α
  | [] => []
  | .sample x :: os => x :: WOp.samples os
  | .flush :: os => WOp.samples os

end Verif.Hound
