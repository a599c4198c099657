import Verif.Hound.MoreLemmas
/-!
# Properties of WAV writing and reading: C01–C07, C15–C19
-/
namespace Verif
open Hound Hound.Spec

/-! ## Client programs used in the statements -/

/-- New writer on an empty stream, write all samples, `finalize`: what `finalize` returned and the bytes on
the stream afterwards (also when `finalize` reports an error). -/
def recordAny {α} (S : SampleImpl α) (spec : WavSpec) (xs : List α) : Res Err (Res Err Unit × Bytes) := do
  let w ← Writer.new Cursor.empty spec
  match w.writeSamples S xs with
  | (.ok (), w1) => .ok (w1.finalize.1, w1.finalize.2.out.data)
  | (.err e, _) => .err e
  | (.panic p, _) => .panic p

/-- New writer, write all samples, let it go out of scope without `finalize`. -/
def recordDrop {α} (S : SampleImpl α) (spec : WavSpec) (xs : List α) : Res Err Bytes := do
  let w ← Writer.new Cursor.empty spec
  match w.writeSamples S xs with
  | (.ok (), w1) => .ok w1.drop.out.data
  | (.err e, _) => .err e
  | (.panic p, _) => .panic p

/-- New writer, a history of writes and flushes that must all succeed, `finalize`. -/
def recordOps {α} (S : SampleImpl α) (spec : WavSpec) (ops : List (WOp α)) : Res Err Bytes := do
  let w ← Writer.new Cursor.empty spec
  match w.ops S ops with
  | (.ok (), w1) =>
    match w1.finalize with
    | (.ok (), w2) => .ok w2.out.data
    | (.err e, _) => .err e
    | (.panic p, _) => .panic p
  | (.err e, _) => .err e
  | (.panic p, _) => .panic p

/-- Open a finished file for appending, write more samples, finalize. -/
def append {α} (S : SampleImpl α) (file : Bytes) (ys : List α) : Res Err Bytes := do
  let w ← Writer.newAppend ⟨file, 0⟩
  match w.writeSamples S ys with
  | (.ok (), w1) =>
    match w1.finalize with
    | (.ok (), w2) => .ok w2.out.data
    | (.err e, _) => .err e
    | (.panic p, _) => .panic p
  | (.err e, _) => .err e
  | (.panic p, _) => .panic p

/-! ## C01, C02 -/
section
variable {α : Type} {S : SampleImpl α} {P : α → Prop} {enc : α → Bytes} {s : WavSpec}

theorem roundtrip_aux (h : Supported s) (c : Codes S s.fmt s.bits P enc) (xs : List α) (hP : ∀ x ∈ xs, P x)
    (hframe : s.channels ∣ xs.length) (hsize : FileFits s xs.length) :
    ∃ file r, record S s xs = .ok file ∧ openBytes file = .ok r ∧ r.spec = s ∧ r.len = xs.length ∧
      r.duration = .ok (xs.length / s.channels) ∧ r.collect S = xs.map .ok ∧
      ∃ hd, RRep r s enc hd xs [] 0 := by
  have hl := headerLen_ge s
  unfold FileFits at hsize
  have hrec := record_eq h c xs hP hframe (by omega)
  obtain ⟨r, hd, ho, rr, _⟩ := open_eq (enc := enc) h (headerLen s + (xs.flatMap enc).length - 8) [] []
    (by simp) (by simp) xs [] (fun x hx => c.len x (hP x hx)) hframe (by omega)
  rw [← file_eq_fileWith, List.append_nil] at ho
  refine ⟨_, r, hrec, ho, ?_, rr.num, ?_, rr.collect c hP, hd, rr⟩
  · unfold Reader.spec; rw [rr.specx]
  · have := h.ch_pos
    unfold Reader.duration divP
    rw [rr.specx, rr.num, if_neg (by simp; omega)]

theorem record_congr {β} {S T : SampleImpl β} (s : WavSpec) (xs : List β)
    (h : ∀ x ∈ xs, S.write x s.bits = T.write x s.bits) : record S s xs = record T s xs := by
  have key : ∀ (xs : List β) (w : Writer), w.spec = s → (∀ x ∈ xs, S.write x s.bits = T.write x s.bits) →
      w.writeSamples S xs = w.writeSamples T xs := by
    intro xs
    induction xs with
    | nil => intro w _ _; rfl
    | cons x xs ih =>
      intro w hw hx
      have e : w.writeSample S x = w.writeSample T x := by
        unfold Writer.writeSample; rw [hw, hx x (by simp)]
      unfold Writer.writeSamples
      rw [e]
      have hsp : (w.writeSample T x).2.spec = s := by
        unfold Writer.writeSample
        cases T.write x w.spec.bits <;> simp only [hw]
        cases addU32 (ε := Err) w.dataBytes w.bytesPerSample <;> simp [hw]
      rcases hq : w.writeSample T x with ⟨(a | e | p), w'⟩
      · rw [hq] at hsp
        exact ih w' hsp (fun y hy => hx y (by simp [hy]))
      · rfl
      · rfl
  unfold record
  cases hn : Writer.new Cursor.empty s with
  | ok w =>
    have hw : w.spec = s := by
      unfold Writer.new writeHeaders Writer.unborn at hn
      revert hn
      cases addU16 (ε := Err) s.bits 7 with
      | err e => simp
      | panic p => simp
      | ok b =>
        simp only [Res.ok_bind, Res.pure_eq]
        split
        · intro hn
          cases hb : (match (if s.channels > 2 ∨ s.bits > 16 then FmtKind.ext else FmtKind.pcm) with
              | .pcm => pcmBytes s (b / 8) | .ext => extBytes s (b / 8)) with
          | ok f =>
            split at hn <;> simp_all only [Res.ok_bind] <;> (cases hn; rfl)
          | err e => split at hn <;> simp_all
          | panic p => split at hn <;> simp_all
        · split <;> simp
    simp only [Res.ok_bind]
    rw [key xs w hw h]
  | err e => rfl
  | panic p => rfl
end

/-- **C01.** Integer round trip, `i32` samples at every supported depth. -/
theorem C01_int_roundtrip (s : WavSpec) (h : Supported s) (hint : s.fmt = .int) (xs : List Int)
    (hfits : ∀ x ∈ xs, Fits s.bits x) (hframe : s.channels ∣ xs.length) (hsize : FileFits s xs.length) :
    ∃ file r, record sampI32 s xs = .ok file ∧ openBytes file = .ok r ∧ r.spec = s ∧ r.len = xs.length ∧
      r.duration = .ok (xs.length / s.channels) ∧ r.collect sampI32 = xs.map .ok := by
  obtain ⟨f, r, h1, h2, h3, h4, h5, h6, _⟩ :=
    roundtrip_aux h (by rw [hint]; exact codesI32 s.bits h.bits_ok) xs hfits hframe hsize
  exact ⟨f, r, h1, h2, h3, h4, h5, h6⟩

/-- **C01**, written as `i16`, at 8 or 16 bits, and read back as `i16` (and as `i32`). -/
theorem C01_i16_roundtrip (s : WavSpec) (h : Supported s) (hint : s.fmt = .int) (hb : s.bits = 8 ∨ s.bits = 16)
    (xs : List Int) (hfits : ∀ x ∈ xs, Fits s.bits x) (hframe : s.channels ∣ xs.length)
    (hsize : FileFits s xs.length) :
    ∃ file r, record sampI16 s xs = .ok file ∧ openBytes file = .ok r ∧ r.spec = s ∧ r.len = xs.length ∧
      r.collect sampI16 = xs.map .ok ∧ r.collect sampI32 = xs.map .ok := by
  obtain ⟨f, r, h1, h2, h3, h4, _, h6, hd, rr⟩ :=
    roundtrip_aux h (by rw [hint]; exact codesI16 s.bits hb) xs hfits hframe hsize
  exact ⟨f, r, h1, h2, h3, h4, h6, rr.collect (by rw [hint]; exact codesI32 s.bits h.bits_ok) hfits⟩

/-- **C01**, written as `i8` at 8 bits and read back as `i8`, `i16` or `i32`. -/
theorem C01_i8_roundtrip (s : WavSpec) (h : Supported s) (hint : s.fmt = .int) (hb : s.bits = 8)
    (xs : List Int) (hfits : ∀ x ∈ xs, Fits 8 x) (hframe : s.channels ∣ xs.length)
    (hsize : FileFits s xs.length) :
    ∃ file r, record sampI8 s xs = .ok file ∧ openBytes file = .ok r ∧ r.spec = s ∧ r.len = xs.length ∧
      r.collect sampI8 = xs.map .ok ∧ r.collect sampI16 = xs.map .ok ∧ r.collect sampI32 = xs.map .ok := by
  obtain ⟨f, r, h1, h2, h3, h4, _, h6, hd, rr⟩ :=
    roundtrip_aux h (by rw [hint, hb]; exact codesI8) xs hfits hframe hsize
  rw [← hb] at hfits
  have rr' : RRep r s (sampleBytes s.bits) hd xs [] 0 := by rw [hb]; exact rr
  exact ⟨f, r, h1, h2, h3, h4, h6, rr'.collect (by rw [hint]; exact codesI16 s.bits (Or.inl hb)) hfits,
    rr'.collect (by rw [hint]; exact codesI32 s.bits h.bits_ok) hfits⟩

/-- **C01**, narrow sample types stored at a wider depth: writing `i16` (or `i8`) values at any depth gives
the same file as writing them as `i32`, so `C01_int_roundtrip` applies to reading them as `i32`. -/
theorem C01_narrow_types_write_same (s : WavSpec) (xs : List Int) :
    ((∀ x ∈ xs, Fits 16 x) → record sampI16 s xs = record sampI32 s xs) ∧
    ((∀ x ∈ xs, Fits 8 x) → record sampI8 s xs = record sampI32 s xs) := by
  constructor
  · intro h
    apply record_congr
    intro x hx
    have := h x hx
    simp only [Fits] at this
    simp only [sampI16, sampI32, narrowI16, narrowI24]
    split <;> try rfl
    · rw [if_neg (by omega), asI16_id x (by omega)]; rfl
    · rw [if_neg (by omega)]; rfl
  · intro h
    apply record_congr
    intro x hx
    have := h x hx
    simp only [Fits] at this
    simp only [sampI8, sampI32, narrowI8, narrowI16, narrowI24]
    split <;> try rfl
    · rw [if_neg (by omega), asI8_id x (by omega)]; rfl
    · rw [if_neg (by omega), asI16_id x (by omega)]; rfl
    · rw [if_neg (by omega)]; rfl

/-- The hypotheses of C01 are met: a stereo 24-bit file with extreme values. -/
example : Supported ⟨2, 44100, 24, .int⟩ ∧ (∀ x ∈ [-(2^23 : Int), 2^23 - 1, 0, -1], Fits 24 x) ∧
    FileFits ⟨2, 44100, 24, .int⟩ 4 :=
  ⟨⟨by decide, by decide, by decide, by decide, by decide, by decide⟩, by decide, by unfold FileFits; decide⟩

/-- **C02.** Float round trip on bit patterns. -/
theorem C02_float_roundtrip (s : WavSpec) (h : Supported s) (hfl : s.fmt = .float) (xs : List Nat)
    (hbits : ∀ x ∈ xs, x < 2 ^ 32) (hframe : s.channels ∣ xs.length) (hsize : FileFits s xs.length) :
    ∃ file r, record sampF32 s xs = .ok file ∧ openBytes file = .ok r ∧ r.spec = s ∧ r.len = xs.length ∧
      r.duration = .ok (xs.length / s.channels) ∧ r.collect sampF32 = xs.map .ok := by
  obtain ⟨f, r, h1, h2, h3, h4, h5, h6, _⟩ :=
    roundtrip_aux h (by rw [hfl, h.float_ok hfl]; exact codesF32) xs hbits hframe hsize
  exact ⟨f, r, h1, h2, h3, h4, h5, h6⟩

/-- The hypotheses of C02 are met: a NaN with payload, -0.0, and infinity, in 3 channels. -/
example : Supported ⟨3, 48000, 32, .float⟩ ∧ (∀ x ∈ [0x7fc0beef, 0x80000000, 0x7f800000], x < 2 ^ 32) ∧
    FileFits ⟨3, 48000, 32, .float⟩ 3 :=
  ⟨⟨by decide, by decide, by decide, by decide, by decide, by decide⟩, by decide, by unfold FileFits; decide⟩

/-! ## C03, C17 -/

theorem recordAny_aux {α : Type} {S : SampleImpl α} {P : α → Prop} {enc : α → Bytes} {s : WavSpec}
    {fmt : SampleFormat}
    (h : Supported s) (c : Codes S fmt s.bits P enc) (xs : List α) (hP : ∀ x ∈ xs, P x)
    (hsize : FileFits s xs.length) :
    recordAny S s xs = .ok (if s.channels ∣ xs.length then .ok () else .err .unfinishedSample,
      Spec.file s (xs.flatMap enc)) ∧
    recordDrop S s xs = .ok (Spec.file s (xs.flatMap enc)) := by
  have hl := headerLen_ge s
  unfold FileFits at hsize
  obtain ⟨w, hw, r, hfin, _⟩ := Rep.init h
  have hlen := flatMap_length enc (s.bits / 8) xs (fun x hx => c.len x (hP x hx))
  obtain ⟨h1, h2, h3, _⟩ := r.writeSamples c xs hP (by simp; omega)
  obtain ⟨h4, h5⟩ := h2.finalize h (by simp only [List.nil_append, hlen]; omega)
  obtain ⟨h6, h7⟩ := h2.updateHeader h (by simp only [List.nil_append, hlen]; omega)
  unfold recordAny recordDrop
  rw [hw]
  simp only [Res.ok_bind]
  rcases hq : w.writeSamples S xs with ⟨q, w1⟩
  rw [hq] at h1 h2 h3 h4 h5 h6 h7
  simp only at h1 h2 h3 h4 h5 h6 h7
  subst h1
  simp only
  constructor
  · rw [h4, h5]
    simp only [List.nil_append, hlen]
    rw [Nat.mul_div_cancel _ (Supported.bps_pos h)]
    simp only [Nat.dvd_iff_mod_eq_zero]
  · unfold Writer.drop
    rw [h3, hfin]
    simp only [Bool.false_eq_true, if_false, h7, List.nil_append]
    rfl

/-- What C03 says about the bytes of a file: size fields at their places, then the data. -/
structure HeaderConsistent (s : WavSpec) (file : Bytes) (samples bytesEach : Nat) : Prop where
  riff : (file.drop 4).take 4 = le 4 (file.length - 8)
  data : (file.drop (headerLen s - 4)).take 4 = le 4 (samples * bytesEach)
  length : file.length = headerLen s + samples * bytesEach

theorem file_consistent (s : WavSpec) (d : Bytes) (n b : Nat) (hd : d.length = n * b) :
    HeaderConsistent s (Spec.file s d) n b ∧ (Spec.file s d).drop (headerLen s) = d := by
  have hlen := header_length s (headerLen s + d.length - 8) d.length
  have hlf : (Spec.file s d).length = headerLen s + d.length := by
    unfold Spec.file; rw [List.length_append, hlen]
  refine ⟨⟨?_, ?_, by rw [hlf, hd]⟩, ?_⟩
  · rw [hlf]
    unfold Spec.file header
    have e : Spec.ascii "RIFF" = tagRIFF := headerTags.1
    have l4 : ∀ n, (le 4 n).length = 4 := fun n => rfl
    rw [e]
    simp only [List.append_assoc]
    rw [List.drop_left' (by rfl), List.take_left' (l4 _)]
  · have hl := headerLen_ge s
    unfold Spec.file header
    have hlen' := hlen
    unfold header at hlen'
    have l4 : ∀ n, (le 4 n).length = 4 := fun n => rfl
    rw [List.length_append, l4] at hlen'
    rw [List.append_assoc, List.drop_left' (by omega), List.take_left' (l4 _), hd]
  · unfold Spec.file
    rw [List.drop_left' hlen]

/-- **C03.** After `finalize` — whether or not the last frame is complete — or after dropping the writer,
the size fields describe the file exactly and the samples follow the header. -/
theorem C03_header_consistent (s : WavSpec) (h : Supported s) (xs : List Int)
    (hfits : ∀ x ∈ xs, Fits s.bits x) (hsize : FileFits s xs.length) :
    ∃ res file, recordAny sampI32 s xs = .ok (res, file) ∧ recordDrop sampI32 s xs = .ok file ∧
      HeaderConsistent s file xs.length (s.bits / 8) ∧ file.drop (headerLen s) = pcmData s.bits xs := by
  have c := codesI32 s.bits h.bits_ok
  obtain ⟨h1, h2⟩ := recordAny_aux h c xs hfits hsize
  have hlen := flatMap_length (sampleBytes s.bits) (s.bits / 8) xs (fun x hx => c.len x (hfits x hx))
  obtain ⟨h3, h4⟩ := file_consistent s (xs.flatMap (sampleBytes s.bits)) xs.length (s.bits / 8) hlen
  exact ⟨_, _, h1, h2, h3, h4⟩

/-- **C03** for floats. -/
theorem C03_header_consistent_float (s : WavSpec) (h : Supported s) (hfl : s.fmt = .float) (xs : List Nat)
    (hbits : ∀ x ∈ xs, x < 2 ^ 32) (hsize : FileFits s xs.length) :
    ∃ res file, recordAny sampF32 s xs = .ok (res, file) ∧ recordDrop sampF32 s xs = .ok file ∧
      HeaderConsistent s file xs.length 4 ∧ file.drop (headerLen s) = floatData xs := by
  have hb := h.float_ok hfl
  have c : Codes sampF32 .float s.bits (fun u => u < 2 ^ 32) (le 4) := by rw [hb]; exact codesF32
  obtain ⟨h1, h2⟩ := recordAny_aux h c xs hbits hsize
  have hlen := flatMap_length (le 4) 4 xs (fun x hx => by simpa [hb] using c.len x (hbits x hx))
  obtain ⟨h3, h4⟩ := file_consistent s (xs.flatMap (le 4)) xs.length 4 hlen
  exact ⟨_, _, h1, h2, h3, h4⟩

/-- **C17.** `finalize` and `flush` report `UnfinishedSample` exactly when the number of samples is not a
multiple of the channel count, and the header then covers all samples all the same. -/
theorem C17_unfinished (s : WavSpec) (h : Supported s) (xs : List Int)
    (hfits : ∀ x ∈ xs, Fits s.bits x) (hsize : FileFits s xs.length) :
    recordAny sampI32 s xs =
      .ok (if xs.length % s.channels = 0 then .ok () else .err .unfinishedSample,
        Spec.file s (pcmData s.bits xs)) ∧
    ∃ w, Writer.new Cursor.empty s = .ok w ∧
      (w.writeSamples sampI32 xs).2.flush.1 =
        (if xs.length % s.channels = 0 then .ok () else .err .unfinishedSample) ∧
      (w.writeSamples sampI32 xs).2.flush.2.out.data = Spec.file s (pcmData s.bits xs) := by
  have c := codesI32 s.bits h.bits_ok
  have hl := headerLen_ge s
  have h1 := (recordAny_aux h c xs hfits hsize).1
  simp only [Nat.dvd_iff_mod_eq_zero] at h1
  refine ⟨h1, ?_⟩
  unfold FileFits at hsize
  obtain ⟨w, hw, r, hfin, _⟩ := Rep.init h
  have hlen := flatMap_length (sampleBytes s.bits) (s.bits / 8) xs (fun x hx => c.len x (hfits x hx))
  obtain ⟨g1, g2, g3, _⟩ := r.writeSamples c xs hfits (by simp; omega)
  obtain ⟨h6, h7⟩ := g2.updateHeader h (by simp only [List.nil_append, hlen]; omega)
  refine ⟨w, hw, ?_⟩
  simp only [List.nil_append, hlen] at h6 h7
  rw [Nat.mul_div_cancel _ (Supported.bps_pos h)] at h6
  unfold Writer.flush
  rcases hq : (w.writeSamples sampI32 xs).2.updateHeader with ⟨q, w1⟩
  rw [hq] at h6 h7
  simp only at h6 h7
  subst h6 h7
  by_cases hz : xs.length % s.channels = 0
  · simp [hz, Spec.file, pcmData, Cursor.seekStart, hlen]
  · simp [hz, Spec.file, pcmData, hlen]

example : recordAny sampI32 ⟨2, 8000, 16, .int⟩ [7, 8, 9] =
    .ok (.err .unfinishedSample, Spec.file ⟨2, 8000, 16, .int⟩ (pcmData 16 [7, 8, 9])) := by
  refine (C17_unfinished _ ⟨by decide, by decide, by decide, by decide, by decide, by decide⟩ _ ?_ ?_).1
  · decide
  · unfold FileFits; decide

/-! ## C04 -/
/-- **C04.** A value that does not fit is refused with `TooWide` and the writer (stream contents, stream
position, length bookkeeping — everything) is unchanged; a value that fits is accepted as long as the 32-bit
length does not overflow. -/
theorem C04_reject_or_accept (w : Writer) (hb : w.spec.bits = 8 ∨ w.spec.bits = 16 ∨ w.spec.bits = 24 ∨
    w.spec.bits = 32) (x : Int) (hx : Fits 32 x) :
    (¬ Fits w.spec.bits x → w.writeSample sampI32 x = (.err .tooWide, w)) ∧
    (Fits w.spec.bits x → w.dataBytes + w.bytesPerSample < 2 ^ 32 →
      w.writeSample sampI32 x =
        (.ok (), { w with out := w.out.writeAll (sampleBytes w.spec.bits x),
                          dataBytes := w.dataBytes + w.bytesPerSample })) := by
  constructor
  · intro hn
    unfold Writer.writeSample
    have : sampI32.write x w.spec.bits = .err .tooWide := by
      unfold Fits at hn hx
      rcases hb with e | e | e | e <;> rw [e] at hn ⊢ <;>
        simp only [sampI32, narrowI8, narrowI16, narrowI24] at hn hx ⊢
      · rw [if_pos (by omega)]; rfl
      · rw [if_pos (by omega)]; rfl
      · rw [if_pos (by have : (1 <<< 23 : Int) = 8388608 := by decide
                       omega)]; rfl
      · omega
    rw [this]
  · intro hf hlt
    unfold Writer.writeSample
    rw [(codesI32 w.spec.bits hb).write x hf]
    simp only [addU32]
    rw [if_pos hlt]

/-- **C04** for `i16` samples at 8 bits. -/
theorem C04_reject_i16 (w : Writer) (hb : w.spec.bits = 8) (x : Int) (hn : ¬ Fits 8 x) :
    w.writeSample sampI16 x = (.err .tooWide, w) := by
  unfold Writer.writeSample
  have : sampI16.write x w.spec.bits = .err .tooWide := by
    rw [hb]; simp only [sampI16, narrowI8, Fits] at hn ⊢
    rw [if_pos (by omega)]; rfl
  rw [this]

/-- Both branches of C04 occur: 128 does not fit 8 bits, -128 does. -/
example : ¬ Fits 8 128 ∧ Fits 8 (-128) ∧ Fits 32 128 := by decide
end Verif
