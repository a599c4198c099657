import Verif.Hound.PropsC
/-!
# Properties of WAV reading, continued: C08–C14
-/
namespace Verif
open Hound Hound.Spec

/-- The head of the file as `Reader.new` parses it. -/
theorem parse_cases (b : Bytes) :
    ((∃ e s', (do let _ ← readWaveHeader; readUntilData : Rd _) b = (.err e, s')) ∨
     (∃ k, (do let _ ← readWaveHeader; readUntilData : Rd _) b = untilData {} (b.drop k))) := by
  have hw := Calm.readWaveHeader
  have h1 := hw.noPanic b
  obtain ⟨k, hk⟩ := hw.suffix b
  rcases hq : readWaveHeader b with ⟨(a | e | w), s'⟩
  · right
    rw [hq] at hk; simp only at hk; subst hk
    refine ⟨k, ?_⟩
    rw [Rd.bind_ok hq]; rfl
  · left; exact ⟨e, s', by rw [Rd.bind_err hq]⟩
  · rw [hq] at h1; exact absurd rfl (h1 w)

theorem goodEmpty : GoodSpecx {} := by intro x hx; simp at hx

/-- The arithmetic after the scan never panics. -/
theorem afterScan {sx : WavSpecEx} (hg : 1 ≤ sx.bytesPerSample ∧ 1 ≤ sx.spec.channels) (dataLen : Nat)
    (hd : dataLen < 2 ^ 32) (surge : SurgeSpec) (c' : Cursor) :
    (do
      let num ← divP dataLen sx.bytesPerSample
      let prod ← mulU32 num sx.bytesPerSample
      if prod ≠ dataLen then
        Res.err (.format "data chunk length is not a multiple of sample size")
      else do
        let r ← modP num sx.spec.channels
        if r ≠ 0 then .err (.format "invalid data chunk length")
        else .ok { surge := surge, specx := sx, bytesPerSample := sx.bytesPerSample,
                   numSamples := num, samplesRead := 0, cur := c' } : Res Err Reader) =
    (if dataLen % sx.bytesPerSample ≠ 0 then .err (.format "data chunk length is not a multiple of sample size")
     else if dataLen / sx.bytesPerSample % sx.spec.channels ≠ 0 then .err (.format "invalid data chunk length")
     else .ok { surge := surge, specx := sx, bytesPerSample := sx.bytesPerSample,
                numSamples := dataLen / sx.bytesPerSample, samplesRead := 0, cur := c' }) := by
  obtain ⟨h1, h2⟩ := hg
  have hm : dataLen / sx.bytesPerSample * sx.bytesPerSample ≤ dataLen := Nat.div_mul_le_self _ _
  have hdm := Nat.div_add_mod dataLen sx.bytesPerSample
  rw [Nat.mul_comm] at hdm
  unfold divP mulU32 modP
  rw [if_neg (by omega)]
  simp only [Res.ok_bind]
  rw [if_pos (by omega)]
  simp only [Res.ok_bind]
  by_cases hz : dataLen % sx.bytesPerSample = 0
  · rw [if_neg (by omega), if_neg (by omega), if_neg (by omega)]
    simp only [Res.ok_bind]
  · rw [if_pos (by omega), if_pos hz]

/-- **C08**, the part that holds: if none of the wavetable chunk ids occurs in the bytes, the only possible
panic of opening them is the missing-fmt one.  Missing from the full property: files with those ids
(`C08_open_can_panic_short_clm`) and files without a fmt chunk (`C08_open_can_panic_no_fmt`). -/
theorem C08_only_missing_fmt_panics_partial (b : Bytes) (h : NoSurgeIds b) (w : String)
    (hp : openBytes b = .panic w) : w = "called `Option::unwrap()` on a `None` value" := by
  unfold openBytes Reader.new Cursor.run at hp
  simp only [List.drop_zero] at hp
  rcases parse_cases b with ⟨e, s', he⟩ | ⟨k, hk⟩
  · rw [he] at hp; simp at hp
  · rw [hk] at hp
    have hc := untilData_calm (b.drop k).length (b.drop k) (Nat.le_refl _) (h.drop k) {}
    rcases hq : untilData {} (b.drop k) with ⟨(⟨surge, n⟩ | e | p), s'⟩
    · rw [hq] at hp
      obtain ⟨hg, hn, _⟩ := untilData_good _ (b.drop k) (Nat.le_refl _) {} _ _ goodEmpty hq
      simp only at hp
      cases hs : surge.specx with
      | none => rw [hs] at hp; simp only [Res.panic.injEq] at hp; exact hp.symm
      | some sx =>
        rw [hs] at hp
        simp only at hp
        rw [afterScan (hg sx hs) n hn] at hp
        split at hp
        · simp at hp
        · split at hp <;> simp at hp
    · rw [hq] at hp; simp at hp
    · rw [hq] at hc; exact absurd rfl (hc p)

/-- **C08**, a positive case for ordinary files: RIFF header, then a fmt chunk as this crate writes it, then
*arbitrary* bytes without wavetable chunk ids: opening never panics. -/
theorem C08_fmt_first_never_panics_partial (s : WavSpec) (hs : Supported s) (riff : Nat) (rest : Bytes)
    (h : NoSurgeIds rest) :
    (openBytes (ascii "RIFF" ++ le 4 riff ++ ascii "WAVE" ++ fmtChunk s ++ rest)).isPanic = false := by
  obtain ⟨k, hk⟩ := readWaveHeader_eq riff (fmtChunk s ++ rest)
  have hall : (do let _ ← readWaveHeader; readUntilData : Rd _)
      (ascii "RIFF" ++ le 4 riff ++ ascii "WAVE" ++ fmtChunk s ++ rest) =
      untilData { specx := some ⟨s, s.bits / 8⟩ } rest := by
    simp only [List.append_assoc]
    rw [Rd.bind_ok hk, readUntilData_eq, untilData_inl (readFmtChunk_eq hs rest)]
  have hsome : ∀ n (t : Bytes), t.length ≤ n → ∀ acc r t', acc.specx.isSome = true →
      untilData acc t = (.ok r, t') → r.1.specx.isSome = true := by
    intro n
    induction n using Nat.strongRecOn with
    | ind n ih =>
      intro t ht acc r t' hsm hr
      rcases hc : Verif.Hound.chunkStep acc t with ⟨((acc' | q) | e | p), s1⟩
      · have hlen := chunkStep_consumes acc t _ s1 hc
        rw [untilData_inl hc] at hr
        refine ih s1.length (by omega) s1 (Nat.le_refl _) acc' r t' ?_ hr
        have hpost : Post (chunkStep acc) (fun r => match r with
            | .inl a => a.specx.isSome = true
            | .inr p => p.1.specx.isSome = true) := by
          rw [chunkStep_eq]
          refine Post.bind fun p => ?_
          cases h : p.1 <;> simp only [chunkBody]
          · exact Post.bind fun x => Post.pure rfl
          · exact Post.bind fun x => Post.pure hsm
          · exact Post.pure hsm
          · exact Post.bind fun x => Post.pure hsm
          · exact Post.bind fun x => Post.pure hsm
          · exact Post.bind fun x => Post.pure hsm
          · exact Post.bind fun x => Post.pure hsm
          · exact Post.bind fun x => Post.pure hsm
          · exact Post.pure hsm
          · exact Post.bind fun x => Post.pure hsm
        exact hpost _ _ _ hc
      · rw [untilData_inr hc] at hr
        simp only [Prod.mk.injEq, Res.ok.injEq] at hr
        obtain ⟨rfl, rfl⟩ := hr
        rw [chunkStep_eq] at hc
        rcases readChunkHeader_cases t with ⟨h8, k, m, hk⟩ | ⟨_, s'', hk, _⟩
        · rw [Rd.bind_ok hk] at hc
          obtain ⟨_, rfl, _⟩ := chunkBody_inr acc k m _ _ _ hc
          exact hsm
        · rw [Rd.bind_err hk] at hc; simp at hc
      · rw [untilData_err hc] at hr; simp at hr
      · rw [untilData_panic hc] at hr; simp at hr
  unfold openBytes Reader.new Cursor.run
  simp only [List.drop_zero, hall]
  have hc := untilData_calm rest.length rest (Nat.le_refl _) h { specx := some ⟨s, s.bits / 8⟩ }
  rcases hq : untilData { specx := some ⟨s, s.bits / 8⟩ } rest with ⟨(⟨surge, n⟩ | e | p), s'⟩
  · have hg0 : GoodSpecx { specx := some ⟨s, s.bits / 8⟩ } := by
      intro x hx
      simp only [Option.some.injEq] at hx
      rw [← hx]; exact ⟨Supported.bps_pos hs, hs.ch_pos⟩
    obtain ⟨hg, hn, _⟩ := untilData_good _ rest (Nat.le_refl _) _ _ _ hg0 hq
    have := hsome _ rest (Nat.le_refl _) _ _ _ rfl hq
    simp only at this ⊢
    cases hsx : surge.specx with
    | none => rw [hsx] at this; simp at this
    | some sx =>
      simp only
      rw [afterScan (hg sx hsx) n hn]
      split
      · rfl
      · split <;> rfl
  · rfl
  · rw [hq] at hc; exact absurd rfl (hc p)

/-- Non-vacuity: a byte string without wavetable ids (a data chunk header followed by zeros). -/
example : NoSurgeIds (ascii "data" ++ le 4 2 ++ [0, 0]) := by
  intro k i hi
  by_cases hk : k < 10
  · have : ∀ k < 10, ∀ i ∈ surgeIds, ((ascii "data" ++ le 4 2 ++ [0, 0]).drop k).take 4 ≠ ascii i := by
      decide +kernel
    exact this k hk i hi
  · rw [List.drop_eq_nil_of_le (by simp [ascii, le]; omega)]
    have : ∀ i ∈ surgeIds, ([] : Bytes) ≠ ascii i := by decide +kernel
    simpa using this i hi

/-! ## C09 -/
/-- **C09.** The header scan terminates on every byte string: a fuelled copy of the loop gives the same
outcome for every amount of fuel above one unit per eight bytes, that outcome is never "out of fuel", and each
iteration that goes round again has consumed at least a chunk header of eight bytes. -/
theorem C09_scan_terminates (b : Bytes) (acc : SurgeSpec) :
    (∀ f g, b.length / 8 + 1 ≤ f → b.length / 8 + 1 ≤ g →
      readUntilDataLoop f acc b = readUntilDataLoop g acc b) ∧
    (∀ f, b.length / 8 + 1 ≤ f → (readUntilDataLoop f acc b).1 ≠ .panic outOfFuel) ∧
    (∀ acc' rest, chunkStep acc b = (.ok (.inl acc'), rest) → rest.length + 8 ≤ b.length) :=
  ⟨fun f g hf hg => loop_fuel b.length b (Nat.le_refl _) acc f g hf hg,
   fun f hf => loop_noFuel b.length b (Nat.le_refl _) acc f hf,
   fun _ _ h => chunkStep_consumes acc b _ _ h⟩

/-- **C09** for the public entry point: opening never ends in the model's out-of-fuel outcome. -/
theorem C09_open_terminates (b : Bytes) : openBytes b ≠ .panic outOfFuel := by
  unfold openBytes Reader.new Cursor.run
  simp only [List.drop_zero]
  rcases parse_cases b with ⟨e, s', he⟩ | ⟨k, hk⟩
  · rw [he]; simp
  · rw [hk]
    have hc := (Tame.untilData {}).noFuel (b.drop k)
    rcases hq : untilData {} (b.drop k) with ⟨(⟨surge, n⟩ | e | p), s'⟩
    · obtain ⟨hg, hn, _⟩ := untilData_good _ (b.drop k) (Nat.le_refl _) {} _ _ goodEmpty hq
      simp only
      cases hs : surge.specx with
      | none => simp [outOfFuel]
      | some sx =>
        simp only
        rw [afterScan (hg sx hs) n hn]
        split
        · simp
        · split <;> simp
    · simp
    · rw [hq] at hc; simpa using hc

/-! ## C10 -/
/-- **C10.** Unknown chunks before and after the fmt chunk (any number, any contents), any RIFF size field and
any bytes after the data chunk do not change what the reader reports. -/
theorem C10_unknown_chunks (s : WavSpec) (h : Supported s) (hint : s.fmt = .int) (riff : Nat)
    (pre mid : List Chunk) (hpre : ∀ c ∈ pre, c.Unknown) (hmid : ∀ c ∈ mid, c.Unknown) (xs : List Int)
    (tail : Bytes) (hfits : ∀ x ∈ xs, Fits s.bits x) (hframe : s.channels ∣ xs.length)
    (hlt : xs.length * (s.bits / 8) < 2 ^ 32) :
    ∃ r, openBytes (fileWith s riff pre mid (pcmData s.bits xs) tail) = .ok r ∧ r.spec = s ∧
      r.len = xs.length ∧ r.duration = .ok (xs.length / s.channels) ∧ r.collect sampI32 = xs.map .ok := by
  have c := codesI32 s.bits h.bits_ok
  have c' : Codes sampI32 s.fmt s.bits (Fits s.bits) (sampleBytes s.bits) := by rw [hint]; exact c
  obtain ⟨r, hd, ho, rr, _⟩ := open_eq (enc := sampleBytes s.bits) h riff pre mid hpre hmid xs tail
    (fun x hx => c.len x (hfits x hx)) hframe hlt
  refine ⟨r, ho, ?_, rr.num, ?_, rr.collect c' hfits⟩
  · unfold Reader.spec; rw [rr.specx]
  · have := h.ch_pos
    unfold Reader.duration divP
    rw [rr.specx, rr.num, if_neg (by simp; omega)]

/-- Non-vacuity: a LIST chunk is unknown. -/
example : Chunk.Unknown ⟨ascii "LIST", [1, 2, 3]⟩ := ⟨by decide, by decide +kernel, by decide⟩

/-- **Finding.** RIFF pads chunks of odd length with one byte; the reader does not skip that byte, so a valid
file with an odd-sized chunk before the data is rejected (here: a one-byte chunk with its pad byte). -/
theorem C10_pad_byte_not_skipped :
    ∃ e, openBytes (ascii "RIFF" ++ le 4 48 ++ ascii "WAVE" ++ (ascii "LIST" ++ le 4 1 ++ [7] ++ [0]) ++
      fmtChunk ⟨1, 8000, 16, .int⟩ ++ ascii "data" ++ le 4 2 ++ [1, 0]) = .err e := by
  refine ⟨.io, ?_⟩
  decide +kernel

/-! ## C11 -/
/-- **C11.** Whatever bytes are accepted: channel count and container size are non-zero, the sample count
times the container size is the length field of a data chunk header that ends exactly where the sample
stream begins, and duration times channels is the length. -/
theorem C11_accepted_consistent (b : Bytes) (r : Reader) (h : openBytes b = .ok r) :
    1 ≤ r.spec.channels ∧ 1 ≤ r.bytesPerSample ∧ r.samplesRead = 0 ∧
    (∃ pre post, b = pre ++ (ascii "data" ++ le 4 (r.len * r.bytesPerSample)) ++ post ∧
      r.cur = ⟨b, pre.length + 8⟩) ∧
    r.len * r.bytesPerSample < 2 ^ 32 ∧
    ∃ d, r.duration = .ok d ∧ d * r.spec.channels = r.len := by
  unfold openBytes Reader.new Cursor.run at h
  simp only [List.drop_zero] at h
  rcases parse_cases b with ⟨e, s', he⟩ | ⟨k, hk⟩
  · rw [he] at h; simp at h
  · rw [hk] at h
    rcases hq : untilData {} (b.drop k) with ⟨(⟨surge, n⟩ | e | p), s'⟩
    · obtain ⟨hg, hn, pre, hpre⟩ := untilData_good _ (b.drop k) (Nat.le_refl _) {} _ _ goodEmpty hq
      rw [hq] at h
      simp only at h
      cases hs : surge.specx with
      | none => rw [hs] at h; simp at h
      | some sx =>
        rw [hs] at h
        simp only at h
        have hgs := hg sx hs
        rw [afterScan hgs n hn] at h
        split at h
        · simp at h
        · rename_i hz
          split at h
          · simp at h
          · rename_i hz2
            simp only [Res.ok.injEq] at h
            subst h
            have hmul : n / sx.bytesPerSample * sx.bytesPerSample = n :=
              Nat.div_mul_cancel (Nat.dvd_of_mod_eq_zero (by simpa using hz))
            refine ⟨hgs.2, hgs.1, rfl, ?_, ?_, ?_⟩
            · refine ⟨b.take k ++ pre, s', ?_, ?_⟩
              · simp only [Reader.len, hmul]
                rw [show ascii "data" = tagData by decide]
                have e1 := List.take_append_drop k b
                rw [hpre] at e1
                simpa using e1.symm
              · have hl := congrArg List.length hpre
                have hl2 := congrArg List.length (List.take_append_drop k b)
                simp only [List.length_append] at hl hl2 ⊢
                have l8 : (tagData ++ le 4 n).length = 8 := rfl
                have l4 : tagData.length = 4 := rfl
                have l4' : (le 4 n).length = 4 := rfl
                congr 1
                omega
            · simp only [Reader.len, hmul]; exact hn
            · refine ⟨n / sx.bytesPerSample / sx.spec.channels, ?_, ?_⟩
              · simp only [Reader.duration, divP]
                rw [if_neg (by omega)]
              · exact Nat.div_mul_cancel (Nat.dvd_of_mod_eq_zero (by simpa using hz2))
    · rw [hq] at h; simp at h
    · rw [hq] at h; simp at h

/-- Non-vacuity of C11: an accepted file exists (any recorded file, by C01). -/
example : ∃ b r, openBytes b = .ok r := by
  obtain ⟨f, r, _, h2, _⟩ := C01_int_roundtrip ⟨2, 44100, 16, .int⟩
    ⟨by decide, by decide, by decide, by decide, by decide, by decide⟩ rfl [1, 2] (by decide) (by decide)
    (by unfold FileFits; decide)
  exact ⟨f, r, h2⟩

/-! ## C12 -/
/-- **C12.** On any file with container size = depth (with arbitrary unknown chunks around), after any
history of reads and in-range seeks, `seek(t)` succeeds and the samples read next are those of frame `t`
onwards, in order, to the end of the file. -/
theorem C12_seek_then_read (s : WavSpec) (h : Supported s) (hint : s.fmt = .int) (riff : Nat)
    (pre mid : List Chunk) (hpre : ∀ c ∈ pre, c.Unknown) (hmid : ∀ c ∈ mid, c.Unknown) (xs : List Int)
    (tail : Bytes) (hfits : ∀ x ∈ xs, Fits s.bits x) (hframe : s.channels ∣ xs.length)
    (hlt : xs.length * (s.bits / 8) < 2 ^ 32) (hist : List ROp)
    (hin : ∀ t, ROp.seek t ∈ hist → t * s.channels ≤ xs.length) (t : Nat) (ht : t * s.channels ≤ xs.length) :
    ∃ r, openBytes (fileWith s riff pre mid (pcmData s.bits xs) tail) = .ok r ∧
      ((hist.foldl (Reader.op sampI32) r).seek t).1 = .ok () ∧
      ∀ n, (Reader.take sampI32 n ((hist.foldl (Reader.op sampI32) r).seek t).2).1 =
        ((xs.drop (t * s.channels)).take n).map .ok := by
  have c := codesI32 s.bits h.bits_ok
  have c' : Codes sampI32 s.fmt s.bits (Fits s.bits) (sampleBytes s.bits) := by rw [hint]; exact c
  obtain ⟨r, hd, ho, rr, _⟩ := open_eq (enc := sampleBytes s.bits) h riff pre mid hpre hmid xs tail
    (fun x hx => c.len x (hfits x hx)) hframe hlt
  have hbp := Supported.bps_pos h
  have hxl : xs.length < 2 ^ 32 := Nat.lt_of_le_of_lt (Nat.le_mul_of_pos_right _ hbp) hlt
  obtain ⟨k', hk', rr'⟩ := RRep.hist c' hfits hxl hist rr (Nat.zero_le _) hin
  obtain ⟨h1, h2⟩ := rr'.seek t ht hxl
  exact ⟨r, ho, h1, fun n => (h2.take c' hfits n ht).1⟩

example : ∀ t, ROp.seek t ∈ [ROp.next, .seek 1, .next, .seek 0] → t * 2 ≤ [(1 : Int), 2, 3, 4].length := by
  intro t ht; simp at ht; rcases ht with rfl | rfl <;> decide

/-- **Finding.** A read that fails (`TooWide`: reading a 16-bit file as `i8`) still counts as a sample read,
without moving the stream: afterwards `seek(0)` lands *before* the data chunk, so the samples read next are
header bytes.  Stated for every mono 16-bit file with at least one sample: `seek(0)` reports success, and the
stream position is two bytes before the first sample. -/
theorem C12_failed_read_desyncs_seek (rate : Nat) (h : Supported ⟨1, rate, 16, .int⟩) (xs : List Int)
    (hfits : ∀ x ∈ xs, Fits 16 x) (hne : xs ≠ []) (hsize : FileFits ⟨1, rate, 16, .int⟩ xs.length) :
    ∃ r, openBytes (Spec.file ⟨1, rate, 16, .int⟩ (pcmData 16 xs)) = .ok r ∧
      r.cur.pos = 44 ∧ (r.next sampI8).1 = some (.err .tooWide) ∧
      ((r.next sampI8).2.seek 0).1 = .ok () ∧ ((r.next sampI8).2.seek 0).2.cur.pos = 42 := by
  have c := codesI32 16 (by decide)
  have hl : 1 ≤ xs.length := by cases xs; exact absurd rfl hne; simp
  unfold FileFits at hsize
  have hhl : headerLen ⟨1, rate, 16, .int⟩ = 44 := by simp [headerLen, needsExt]
  rw [hhl] at hsize
  simp only at hsize
  have hflen := flatMap_length (sampleBytes 16) 2 xs (fun x hx => c.len x (hfits x hx))
  obtain ⟨r, hd, ho, rr, _⟩ := open_eq (s := ⟨1, rate, 16, .int⟩) (enc := sampleBytes 16) h
    (headerLen ⟨1, rate, 16, .int⟩ + (xs.flatMap (sampleBytes 16)).length - 8)
    [] [] (by simp) (by simp) xs [] (fun x hx => c.len x (hfits x hx)) ⟨xs.length, by simp⟩
    (by simp only; omega)
  rw [← file_eq_fileWith, List.append_nil] at ho
  have hdl : hd.length = 44 := by
    have h1 := rr.data
    have h2 : r.cur.data = Spec.file ⟨1, rate, 16, .int⟩ (xs.flatMap (sampleBytes 16)) := by
      obtain ⟨_, _, _, ⟨p, q, _, h6⟩, _⟩ := C11_accepted_consistent _ _ ho
      rw [h6]
    have h3 := congrArg List.length h1
    rw [h2] at h3
    simp only [Spec.file, List.length_append, header_length, hhl, List.length_nil] at h3
    omega
  have hpos : r.cur.pos = 44 := by rw [rr.pos, hdl]; simp
  refine ⟨r, ho, hpos, ?_, ?_⟩
  · unfold Reader.next
    rw [rr.num, if_pos (by rw [rr.read]; omega)]
    simp only [rr.specx, rr.bps, Cursor.run, sampI8]
    rfl
  · have hn : (r.next sampI8).2 = { r with samplesRead := 1, cur := ⟨r.cur.data, 44⟩ } := by
      unfold Reader.next
      rw [rr.num, if_pos (by rw [rr.read]; omega), rr.read]
      simp only [rr.specx, rr.bps, Cursor.run, sampI8]
      have : ∀ s : Bytes, (Rd.fail (α := Int) Err.tooWide) s = (.err .tooWide, s) := fun _ => rfl
      simp [hpos, this, rr.num]
    rw [hn]
    unfold Reader.seek mulU32
    rw [rr.specx]
    simp

/-! ## C13 -/
/-- **C13.** For every reader state with `samples_read ≤ num_samples`, every sample type: `size_hint` is the
exact number of items left, the iterator yields exactly that many and then `None`, for ever. -/
theorem C13_iterator_exact {α} (S : SampleImpl α) (r : Reader) (h : r.samplesRead ≤ r.numSamples) (n : Nat) :
    r.sizeHint = .ok (r.numSamples - r.samplesRead) ∧
    (Reader.take S n r).1.length = min n (r.numSamples - r.samplesRead) ∧
    (Reader.take S n r).2.sizeHint = .ok (r.numSamples - r.samplesRead - n) ∧
    (r.numSamples - r.samplesRead ≤ n → (Reader.take S n r).2.next S = (none, (Reader.take S n r).2)) := by
  have key : ∀ n (r : Reader), r.samplesRead ≤ r.numSamples →
      (Reader.take S n r).1.length = min n (r.numSamples - r.samplesRead) ∧
      (Reader.take S n r).2.numSamples = r.numSamples ∧
      (Reader.take S n r).2.samplesRead = min (r.samplesRead + n) r.numSamples := by
    intro n
    induction n with
    | zero => intro r h; simp [Reader.take]; omega
    | succ n ih =>
      intro r h
      unfold Reader.take
      by_cases hlt : r.samplesRead < r.numSamples
      · obtain ⟨o, r1, hn, e1, e2⟩ : ∃ o r1, r.next S = (some o, r1) ∧ r1.samplesRead = r.samplesRead + 1 ∧
            r1.numSamples = r.numSamples := by
          unfold Reader.next; rw [if_pos hlt]; exact ⟨_, _, rfl, rfl, rfl⟩
        rw [hn]
        simp only [List.length_cons]
        obtain ⟨h1, h2, h3⟩ := ih r1 (by omega)
        rw [h1, h2, h3, e1, e2]
        exact ⟨by omega, rfl, by omega⟩
      · have hn : r.next S = (none, r) := by unfold Reader.next; rw [if_neg hlt]
        rw [hn]
        simp only [List.length_nil]
        exact ⟨by omega, trivial, by omega⟩
  obtain ⟨h1, h2, h3⟩ := key n r h
  refine ⟨?_, h1, ?_, ?_⟩
  · unfold Reader.sizeHint subU32; rw [if_pos h]
  · unfold Reader.sizeHint subU32
    rw [h2, h3, if_pos (by omega)]
    congr 1; omega
  · intro hle
    unfold Reader.next
    rw [h2, h3, if_neg (by omega)]

/-- **C13**, streaming: reading `m` samples, dropping the iterator, and reading `n` more with a new one is the
same as reading `m + n` with one iterator. -/
theorem C13_iterator_streams {α} (S : SampleImpl α) (r : Reader) (m n : Nat) :
    Reader.take S (m + n) r =
      ((Reader.take S m r).1 ++ (Reader.take S n (Reader.take S m r).2).1,
       (Reader.take S n (Reader.take S m r).2).2) := by
  induction m generalizing r with
  | zero => simp [Reader.take]
  | succ m ih =>
    rw [show m + 1 + n = (m + n) + 1 by omega]
    by_cases hlt : r.samplesRead < r.numSamples
    · rcases hq : r.next S with ⟨o, r'⟩
      have ho : ∃ x, o = some x := by
        unfold Reader.next at hq; rw [if_pos hlt] at hq
        simp only [Prod.mk.injEq] at hq; exact ⟨_, hq.1.symm⟩
      obtain ⟨x, rfl⟩ := ho
      simp only [Reader.take, hq, ih r', List.cons_append]
    · have hn : r.next S = (none, r) := by unfold Reader.next; rw [if_neg hlt]
      have hz : ∀ k, Reader.take S k r = ([], r) := by
        intro k; cases k with
        | zero => rfl
        | succ k => simp only [Reader.take, hn]
      rw [hz, hz, hz]; rfl

/-- Every freshly opened reader meets the hypothesis of C13 (by C11, `samples_read = 0`). -/
example (b : Bytes) (r : Reader) (h : openBytes b = .ok r) : r.samplesRead ≤ r.numSamples := by
  have := (C11_accepted_consistent b r h).2.2.1; omega

/-! ## C14 -/
/-- **C14.** Against any schedule of short reads, filling a buffer and skipping bytes have the outcome and
leave the stream as if every byte had been delivered at once. -/
theorem C14_short_reads (sched : Nat → Nat) (i n : Nat) (s : Bytes) :
    readIntoSched sched i n [] s = readBytes n s ∧ skipSched sched i n s = skipBytes n s := by
  rw [readIntoSched_eq, skipSched_eq, readBytes_def, skipBytes_def]
  simp

/-- A schedule delivering one byte at a time really takes several reads. -/
example : progress (1 : Nat) 4 10 = 1 ∧ progress 100 4 10 = 4 ∧ progress 0 4 2 = 1 := by decide
end Verif
