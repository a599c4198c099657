import Verif.Hound.PropsD
/-!
# Properties of WAV writing: C18 (constructor) and C19 (length bookkeeping)
-/
namespace Verif
open Hound Hound.Spec

/-! ## C18 -/
/-- **C18**, the part that holds: for every supported spec `WavWriter::new` succeeds, and already the bare
header it writes opens as an empty file with the same spec. -/
theorem C18_supported_partial (s : WavSpec) (h : Supported s) :
    ∃ w r, Writer.new Cursor.empty s = .ok w ∧ openBytes w.out.data = .ok r ∧ r.spec = s ∧ r.len = 0 := by
  obtain ⟨r, hd, ho, rr, _⟩ := open_eq (α := Int) (enc := sampleBytes s.bits) h 0 [] [] (by simp) (by simp)
    [] [] (by simp) ⟨0, by simp⟩ (by simp)
  refine ⟨_, r, Writer.new_eq h, ?_, ?_, rr.num⟩
  · rw [← ho]; simp [fileWith, header]
  · unfold Reader.spec; rw [rr.specx]

/-- **C18 is false of the code: panics.**  A sample rate of 0, more than 32 channels, a float spec that is not
32 bits wide, a bit depth above 65528, and a byte rate that does not fit 32 bits all panic in
`WavWriter::new` (where the header arithmetic is reached). -/
theorem C18_new_panics (out : Cursor) (s : WavSpec) (hb : s.bits = 8 ∨ s.bits = 16 ∨ s.bits = 24 ∨ s.bits = 32) :
    (s.sampleRate = 0 → (Writer.new out s).isPanic = true) ∧
    (32 < s.channels → (Writer.new out s).isPanic = true) ∧
    (s.fmt = .float → s.bits ≠ 32 → (Writer.new out s).isPanic = true) ∧
    (2 ^ 32 ≤ s.sampleRate * (s.bits / 8) * s.channels → (Writer.new out s).isPanic = true) := by
  have hmask : ∀ n, 32 < n → ∃ w, channelMask n = .panic w := by
    intro n
    induction n with
    | zero => intro h; omega
    | succ n ih =>
      intro h
      unfold channelMask at ih ⊢
      rw [List.range_succ, List.foldl_append]
      by_cases h32 : 32 < n
      · obtain ⟨w, hw⟩ := ih h32
        rw [hw]
        exact ⟨w, rfl⟩
      · have : n = 32 := by omega
        subst this
        have := channelMask_eq 32 (by decide)
        unfold channelMask at this
        rw [this]
        exact ⟨_, rfl⟩
  have hnew : Writer.new out s = writeHeaders (Writer.unborn out s (s.bits + 7))
      (if s.channels > 2 ∨ s.bits > 16 then FmtKind.ext else FmtKind.pcm) := by
    have ha : addU16 (ε := Err) s.bits 7 = .ok (s.bits + 7) := by unfold addU16; rw [if_pos (by omega)]
    unfold Writer.new
    simp only [ha, Res.ok_bind]
    rw [if_pos hb]
  have hbps : (Writer.unborn out s (s.bits + 7)).bytesPerSample = s.bits / 8 := by
    simp only [Writer.unborn]; omega
  have hsp : (Writer.unborn out s (s.bits + 7)).spec = s := rfl
  have hpcm : ∀ k, (∃ w, pcmBytes s (s.bits / 8) = .panic w) → k = .pcm →
      (writeHeaders (Writer.unborn out s (s.bits + 7)) k).isPanic = true := by
    intro k ⟨w, hw⟩ hk
    subst hk
    unfold writeHeaders
    simp only [hsp, hbps, hw]
    rfl
  have hext : ∀ k, (∃ w, extBytes s (s.bits / 8) = .panic w) → k = .ext →
      (writeHeaders (Writer.unborn out s (s.bits + 7)) k).isPanic = true := by
    intro k ⟨w, hw⟩ hk
    subst hk
    unfold writeHeaders
    simp only [hsp, hbps, hw]
    rfl
  have both : (∃ w, pcmBytes s (s.bits / 8) = .panic w) → (∃ w, extBytes s (s.bits / 8) = .panic w) →
      (Writer.new out s).isPanic = true := by
    intro h1 h2
    rw [hnew]
    cases hk : (if s.channels > 2 ∨ s.bits > 16 then FmtKind.ext else FmtKind.pcm) with
    | pcm => exact hpcm _ h1 rfl
    | ext => exact hext _ h2 rfl
  have hwf : (∃ w, waveformatBytes s (s.bits / 8) = .panic w) → (Writer.new out s).isPanic = true := by
    intro ⟨w, hw⟩
    apply both
    · unfold pcmBytes
      rw [hw]
      cases s.fmt with
      | int => exact ⟨w, rfl⟩
      | float =>
        by_cases h32 : s.bits = 32
        · simp only [if_pos h32]; exact ⟨w, rfl⟩
        · simp only [if_neg h32]; exact ⟨_, rfl⟩
    · unfold extBytes
      rw [hw]
      exact ⟨w, rfl⟩
  refine ⟨?_, ?_, ?_, ?_⟩
  · intro h0
    apply hwf
    unfold waveformatBytes mulU32 divP
    rw [h0]
    simp
  · intro hch
    by_cases hpan : ∃ w, waveformatBytes s (s.bits / 8) = .panic w
    · exact hwf hpan
    · rw [hnew, if_pos (by omega)]
      apply hext _ _ rfl
      unfold extBytes
      obtain ⟨w, hw⟩ := hmask _ hch
      rcases hq : waveformatBytes s (s.bits / 8) with a | e | p
      · simp only [Res.ok_bind, hw, Res.panic_bind]; exact ⟨w, rfl⟩
      · exfalso
        unfold waveformatBytes mulU32 divP at hq
        revert hq
        repeat' (first | split | simp only [Res.ok_bind, Res.panic_bind, Res.pure_eq])
        all_goals simp
      · exact absurd ⟨p, hq⟩ hpan
  · intro hf h32
    by_cases hpan : ∃ w, waveformatBytes s (s.bits / 8) = .panic w
    · exact hwf hpan
    · apply both
      · unfold pcmBytes
        rw [hf]
        simp only [if_neg h32]
        exact ⟨_, rfl⟩
      · unfold extBytes
        rw [hf]
        simp only [if_neg h32]
        rcases hq : waveformatBytes s (s.bits / 8) with a | e | p
        · simp only [Res.ok_bind]
          by_cases hm : ∃ w, channelMask s.channels = .panic w
          · obtain ⟨w, hw⟩ := hm; rw [hw]; exact ⟨w, rfl⟩
          · by_cases hc : s.channels ≤ 32
            · rw [channelMask_eq _ hc]; exact ⟨_, rfl⟩
            · exact absurd (hmask _ (by omega)) hm
        · exfalso
          unfold waveformatBytes mulU32 divP at hq
          revert hq
          repeat' (first | split | simp only [Res.ok_bind, Res.panic_bind, Res.pure_eq])
          all_goals simp
        · exact absurd ⟨p, hq⟩ hpan
  · intro hbig
    apply hwf
    unfold waveformatBytes mulU32
    by_cases h1 : s.sampleRate * (s.bits / 8) < 2 ^ 32
    · rw [if_pos h1]
      simp only [Res.ok_bind]
      rw [if_neg (by omega)]
      exact ⟨_, rfl⟩
    · rw [if_neg h1]
      exact ⟨_, rfl⟩

/-- **C18 is false of the code: bit depths from 65529 up** overflow `bits_per_sample + 7`. -/
theorem C18_huge_depth_panics (out : Cursor) (s : WavSpec) (h : 65529 ≤ s.bits) :
    (Writer.new out s).isPanic = true := by
  have ha : addU16 (ε := Err) s.bits 7 = .panic "u16 add overflow" := by
    unfold addU16; rw [if_neg (by omega)]
  unfold Writer.new
  simp only [ha, Res.panic_bind]
  rfl

/-- **C18 is false of the code: an unsupported depth is refused, but the stream has been written to.**
The half-built writer's destructor patches header fields: on an empty stream 44 (or 68) bytes appear; on a
stream that already holds at least 44 (68) bytes, bytes 4..8 and the four bytes at 40 (64) are overwritten. -/
theorem C18_unsupported_touches_stream (s : WavSpec) (d : Bytes) (p : Nat) (hb : 1 ≤ s.bits)
    (hb2 : s.bits + 7 < 65536) (hc : 1 ≤ s.channels)
    (hn : ¬ (s.bits = 8 ∨ s.bits = 16 ∨ s.bits = 24 ∨ s.bits = 32)) (hlong : headerLen s ≤ d.length) :
    Writer.new ⟨d, p⟩ s = .err .unsupported ∧
    (Writer.newErrStream ⟨d, p⟩ s).data =
      d.take 4 ++ le 4 (headerLen s - 8) ++ (d.drop 8).take (headerLen s - 12) ++ le 4 0 ++ d.drop (headerLen s) ∧
    (Writer.newErrStream Cursor.empty s).data.length = headerLen s := by
  have hoff : ∀ out, (Writer.unborn out s (s.bits + 7)).dataLenOffset = headerLen s - 4 := by
    intro out
    simp only [Writer.unborn, headerLen, needsExt]
    by_cases h1 : s.channels > 2 ∨ s.bits > 16
    · have h2 : (decide (s.channels > 2) || decide (s.bits > 16)) = true := by simpa using h1
      simp only [if_pos h1, h2, if_true]
    · have h2 : (decide (s.channels > 2) || decide (s.bits > 16)) = false := by simpa using h1
      simp only [if_neg h1, h2]
      rfl
  have hl := headerLen_ge s
  have hupd : ∀ out, (Writer.unborn out s (s.bits + 7)).updateHeader = (.ok (),
      { Writer.unborn out s (s.bits + 7) with
        out := (((out.seekStart 4).writeAll (leU32 (headerLen s - 8))).seekStart (headerLen s - 4)).writeAll
          (leU32 0) }) := by
    intro out
    have h0 : (Writer.unborn out s (s.bits + 7)).dataBytes = 0 := rfl
    have h1 : (Writer.unborn out s (s.bits + 7)).out = out := rfl
    have h2 : (Writer.unborn out s (s.bits + 7)).bytesPerSample = (s.bits + 7) / 8 := rfl
    have h3 : (Writer.unborn out s (s.bits + 7)).spec = s := rfl
    unfold Writer.updateHeader addU32 divP modP
    rw [hoff, h0, h1, h2, h3, if_pos (by omega)]
    simp only
    rw [if_neg (by omega)]
    simp only [Res.ok_bind, Nat.zero_div, Nat.zero_mod]
    rw [if_neg (by omega)]
    simp only
    rw [show 0 + (headerLen s - 4 + 4 - 8) = headerLen s - 8 by omega]
    simp [h0, h2, h3, hoff]
  have hes : ∀ out, (Writer.newErrStream out s) =
      (((out.seekStart 4).writeAll (leU32 (headerLen s - 8))).seekStart (headerLen s - 4)).writeAll (leU32 0) := by
    intro out
    unfold Writer.newErrStream Writer.drop
    have : (Writer.unborn out s (s.bits + 7)).finalized = false := rfl
    rw [this, hupd]
    simp
  refine ⟨?_, ?_, ?_⟩
  · have ha : addU16 (ε := Err) s.bits 7 = .ok (s.bits + 7) := by unfold addU16; rw [if_pos (by omega)]
    unfold Writer.new
    simp only [ha, Res.ok_bind]
    rw [if_neg hn, hupd]
  · rw [hes]
    have hl4 : ∀ n, (leU32 n).length = 4 := fun _ => rfl
    have e1 : (Cursor.mk (d.take 4 ++ (d.drop 4).take 4 ++ d.drop 8) 4).writeAll (leU32 (headerLen s - 8)) =
        ⟨d.take 4 ++ leU32 (headerLen s - 8) ++ d.drop 8, (d.take 4).length + (leU32 (headerLen s - 8)).length⟩ :=
      Cursor.writeAll_mid _ _ _ _ 4 (by simp; omega) (by rw [hl4]; simp; omega)
    have hd : d = d.take 4 ++ (d.drop 4).take 4 ++ d.drop 8 := by
      have := List.take_append_drop 4 (d.drop 4)
      rw [List.drop_drop] at this
      rw [List.append_assoc, this, List.take_append_drop]
    rw [← hd] at e1
    simp only [Cursor.seekStart]
    rw [e1]
    have e2 : d.take 4 ++ leU32 (headerLen s - 8) ++ d.drop 8 =
        (d.take 4 ++ leU32 (headerLen s - 8) ++ (d.drop 8).take (headerLen s - 12)) ++
          (d.drop (headerLen s - 4)).take 4 ++ d.drop (headerLen s) := by
      have h1 := List.take_append_drop (headerLen s - 12) (d.drop 8)
      rw [List.drop_drop, show 8 + (headerLen s - 12) = headerLen s - 4 by omega] at h1
      have h2 := List.take_append_drop 4 (d.drop (headerLen s - 4))
      rw [List.drop_drop, show headerLen s - 4 + 4 = headerLen s by omega] at h2
      simp only [List.append_assoc]
      rw [h2, h1]
    simp only
    rw [e2, Cursor.writeAll_mid _ _ _ _ (headerLen s - 4)
      (by simp [hl4]; omega)
      (by rw [hl4]; simp; omega)]
    simp only [leU32_eq]
  · rw [hes]
    simp [Cursor.writeAll, Cursor.seekStart, Cursor.empty, leU32]
    omega

/-- A spec that meets the hypotheses: 12-bit mono. -/
example : ¬ ((12 : Nat) = 8 ∨ (12 : Nat) = 16 ∨ (12 : Nat) = 24 ∨ (12 : Nat) = 32) ∧
    headerLen ⟨1, 8000, 12, .int⟩ ≤ (List.replicate 44 (7 : UInt8)).length := by decide

/-- **C18 is false of the code: zero channels.**  The constructor accepts it, every write succeeds, and
`finalize` panics; the header it wrote is rejected by the reader. -/
theorem C18_zero_channels_accepted (rate : Nat) (hr : 1 ≤ rate) (hr2 : rate * 2 < 2 ^ 32) :
    ∃ w, Writer.new Cursor.empty ⟨0, rate, 16, .int⟩ = .ok w ∧ (w.finalize.1).isPanic = true ∧
      openBytes w.out.data = .err (.format "file contains zero channels") := by
  have hnew : ∃ w, Writer.new Cursor.empty ⟨0, rate, 16, .int⟩ = .ok w ∧ w.spec = ⟨0, rate, 16, .int⟩ ∧
      w.dataBytes = 0 ∧ w.bytesPerSample = 2 ∧ w.dataLenOffset = 40 ∧
      w.out.data = ascii "RIFF" ++ (le 4 0 ++ (ascii "WAVE" ++ (ascii "fmt " ++ (le 4 16 ++
        (le 2 1 ++ (le 2 0 ++ (le 4 rate ++ (le 4 0 ++ (le 2 0 ++ (le 2 16 ++
          (ascii "data" ++ le 4 0))))))))))) := by
    obtain ⟨e1, e2, e3, e4⟩ := headerTags
    have hwf : waveformatBytes ⟨0, rate, 16, .int⟩ 2 = .ok (le 2 0 ++ le 4 rate ++ le 4 0 ++ le 2 0) := by
      unfold waveformatBytes mulU32 divP
      rw [if_pos hr2]
      simp only [Res.ok_bind, Nat.mul_zero]
      rw [if_pos (by decide)]
      simp only [Res.ok_bind]
      rw [if_neg (by omega)]
      simp only [Res.ok_bind, Nat.zero_div, Nat.zero_mod, leU32_eq, leU16_eq 0 (by decide)]
      rfl
    have hpcm : pcmBytes ⟨0, rate, 16, .int⟩ 2 =
        .ok (le 4 16 ++ le 2 1 ++ (le 2 0 ++ le 4 rate ++ le 4 0 ++ le 2 0) ++ le 2 16) := by
      unfold pcmBytes
      rw [hwf]
      simp only [Res.ok_bind, leU32_eq, leU16_eq 1 (by decide), leU16_eq 16 (by decide)]
      rfl
    have hnew : Writer.new Cursor.empty ⟨0, rate, 16, .int⟩ =
        writeHeaders (Writer.unborn Cursor.empty ⟨0, rate, 16, .int⟩ 23) .pcm := rfl
    rw [hnew]
    have hb2 : (Writer.unborn Cursor.empty ⟨0, rate, 16, .int⟩ 23).bytesPerSample = 2 := rfl
    have hsp : (Writer.unborn Cursor.empty ⟨0, rate, 16, .int⟩ 23).spec = ⟨0, rate, 16, .int⟩ := rfl
    unfold writeHeaders
    simp only [hb2, hsp, hpcm, Res.ok_bind, Res.pure_eq]
    refine ⟨_, rfl, rfl, rfl, rfl, rfl, ?_⟩
    rw [e1, e2, e3, e4]
    simp only [leU32_eq]
    simp [Writer.unborn, Cursor.writeAll, Cursor.empty, tagRIFF, tagWAVE, tagFmt, tagData, le]
  obtain ⟨w, hw, h1, h2, h3, h4, h5⟩ := hnew
  refine ⟨w, hw, ?_, ?_⟩
  · unfold Writer.finalize Writer.updateHeader addU32 divP modP
    simp only [h1, h2, h3, h4]
    rfl
  · obtain ⟨k, hk⟩ := readWaveHeader_eq 0 (ascii "fmt " ++ (le 4 16 ++
        (le 2 1 ++ (le 2 0 ++ (le 4 rate ++ (le 4 0 ++ (le 2 0 ++ (le 2 16 ++
          (ascii "data" ++ le 4 0)))))))))
    have hstep : chunkStep {} (ascii "fmt " ++ (le 4 16 ++
        (le 2 1 ++ (le 2 0 ++ (le 4 rate ++ (le 4 0 ++ (le 2 0 ++ (le 2 16 ++
          (ascii "data" ++ le 4 0))))))))) =
        (.err (.format "file contains zero channels"), ascii "data" ++ le 4 0) := by
      rw [chunkStep_eq, Rd.bind_ok (readChunkHeader_append _ _ _ (by decide) (by decide))]
      have kf : chunkKind (Spec.ascii "fmt ") = .fmt := by decide
      simp only [kf, chunkBody]
      rw [Rd.bind_err]
      unfold readFmtChunk
      rw [if_neg (by decide), Rd.bind_ok (readU16_le 1 (by decide) _), Rd.bind_ok (readU16_le _ (by omega) _),
        Rd.bind_ok (readU32_le _ (by omega) _), Rd.bind_ok (readU32_le _ (by decide) _),
        Rd.bind_ok (readU16_le _ (by omega) _), Rd.bind_ok (readU16_le _ (by omega) _), if_pos rfl]
      rfl
    unfold openBytes Reader.new Cursor.run
    simp only [List.drop_zero]
    rw [h5, Rd.bind_ok hk, readUntilData_eq, untilData_err hstep]

example : (1 : Nat) ≤ 44100 ∧ 44100 * 2 < 2 ^ 32 := by decide

/-! ## C19 -/
/-- Everything a client can do to a 16-bit writer between construction and finalization: write a sample
(accepted or not), flush (aligned or not), write a batch. -/
inductive HOp where
  | sample (x : Int)
  | flush
  | batch (xs : List Int) (junk : Nat → UInt8)

/-- Perform one operation and carry on with the writer, whatever was returned. -/
def hop (w : Writer) : HOp → Writer
  | .sample x => (w.writeSample sampI32 x).2
  | .flush => w.flush.2
  | .batch xs junk =>
    match (do let sw ← w.getI16Writer xs.length junk
              let sw' ← sw.writeSamples sampI16 xs
              sw'.flush : Res Err Writer) with
    | .ok w' => w'
    | _ => w

/-- How many samples an operation adds at depth `bits`: rejected samples add none. -/
def HOp.accepted (bits : Nat) : HOp → Nat
  | .sample x => if Fits bits x then 1 else 0
  | .flush => 0
  | .batch xs _ => xs.length

/-- Batches are only used where `get_i16_writer` allows them. -/
def HOp.allowed (s : WavSpec) : HOp → Prop
  | .batch _ _ => s.bits = 16 ∧ s.fmt = .int
  | .sample x => Fits 32 x
  | .flush => True

theorem updateHeader_fields (w : Writer) :
    (w.updateHeader).2.spec = w.spec ∧ (w.updateHeader).2.bytesPerSample = w.bytesPerSample ∧
    (w.updateHeader).2.dataBytes = w.dataBytes := by
  unfold Writer.updateHeader
  split
  · exact ⟨rfl, rfl, rfl⟩
  · exact ⟨rfl, rfl, rfl⟩
  · simp only
    split
    · split <;> exact ⟨rfl, rfl, rfl⟩
    · exact ⟨rfl, rfl, rfl⟩
    · exact ⟨rfl, rfl, rfl⟩

theorem flush_fields (w : Writer) :
    (w.flush).2.spec = w.spec ∧ (w.flush).2.bytesPerSample = w.bytesPerSample ∧
    (w.flush).2.dataBytes = w.dataBytes := by
  have h := updateHeader_fields w
  unfold Writer.flush
  rcases hq : w.updateHeader with ⟨(a | e | p), w'⟩ <;> rw [hq] at h <;> exact h

/-- **C19.** After any history of sample writes (accepted and rejected), flushes (also mid-frame, also failing)
and batch writes, `len()` is the number of accepted samples, `duration()` that number divided by the channel
count, and `is_empty()` says whether it is zero. -/
theorem C19_length_bookkeeping (s : WavSpec) (h : Supported s) (ops : List HOp)
    (hall : ∀ o ∈ ops, o.allowed s)
    (hlt : (ops.map (HOp.accepted s.bits)).sum * (s.bits / 8) < 2 ^ 32) :
    ∃ w0, Writer.new Cursor.empty s = .ok w0 ∧
      (ops.foldl hop w0).len = .ok (ops.map (HOp.accepted s.bits)).sum ∧
      (ops.foldl hop w0).duration = .ok ((ops.map (HOp.accepted s.bits)).sum / s.channels) ∧
      ((ops.foldl hop w0).isEmpty = true ↔ (ops.map (HOp.accepted s.bits)).sum = 0) := by
  have hb := h.bits_ok
  have hbp := Supported.bps_pos h
  have hcp := h.ch_pos
  have key : ∀ (ops : List HOp) (w : Writer) (n : Nat), w.spec = s → w.bytesPerSample = s.bits / 8 →
      w.dataBytes = n * (s.bits / 8) → (∀ o ∈ ops, o.allowed s) →
      (n + (ops.map (HOp.accepted s.bits)).sum) * (s.bits / 8) < 2 ^ 32 →
      (ops.foldl hop w).spec = s ∧ (ops.foldl hop w).bytesPerSample = s.bits / 8 ∧
      (ops.foldl hop w).dataBytes = (n + (ops.map (HOp.accepted s.bits)).sum) * (s.bits / 8) := by
    intro ops
    induction ops with
    | nil => intro w n h1 h2 h3 _ _; exact ⟨h1, h2, by simpa using h3⟩
    | cons o os ih =>
      intro w n h1 h2 h3 ha hl
      simp only [List.map_cons, List.sum_cons, List.foldl_cons] at hl ⊢
      rw [← Nat.add_assoc] at hl ⊢
      have hpart : (n + o.accepted s.bits) * (s.bits / 8) < 2 ^ 32 :=
        Nat.lt_of_le_of_lt (Nat.mul_le_mul_right _ (Nat.le_add_right _ _)) hl
      rw [Nat.add_mul] at hpart
      suffices hstep : (hop w o).spec = s ∧ (hop w o).bytesPerSample = s.bits / 8 ∧
          (hop w o).dataBytes = (n + o.accepted s.bits) * (s.bits / 8) from
        ih _ _ hstep.1 hstep.2.1 hstep.2.2 (fun o' ho' => ha o' (by simp [ho'])) hl
      have hao := ha o (by simp)
      cases o with
      | sample x =>
        obtain ⟨r1, r2⟩ := C04_reject_or_accept w (by rw [h1]; exact hb) x hao
        rw [h1] at r1 r2
        simp only [hop, HOp.accepted] at hpart ⊢
        by_cases hf : Fits s.bits x
        · rw [if_pos hf] at hpart ⊢
          rw [r2 hf (by omega)]
          exact ⟨rfl, h2, by simp only [h3, h2, Nat.add_mul, Nat.one_mul]⟩
        · rw [r1 hf, if_neg hf]
          exact ⟨h1, h2, by simpa using h3⟩
      | flush =>
        obtain ⟨f1, f2, f3⟩ := flush_fields w
        simp only [hop, HOp.accepted]
        exact ⟨by rw [f1, h1], by rw [f2, h2], by rw [f3, h3]; simp⟩
      | batch xs junk =>
        obtain ⟨hb16, hint⟩ := hao
        simp only [HOp.accepted] at hpart ⊢
        have h8 : s.bits / 8 = 2 := by omega
        rw [h8] at h2 h3 hpart ⊢
        simp only [hop, Writer.getI16Writer]
        rw [if_neg (by simp [h1, hint]), if_neg (by simp [h1, hb16])]
        simp only [Res.ok_bind]
        generalize hst : (if w.swBuf.length < xs.length * 2 then (List.range (xs.length * 2)).map junk
          else w.swBuf) = st
        have hstl : xs.length * 2 ≤ st.length := by
          rw [← hst]; split
          · simp
          · omega
        have hbl : (st.take (xs.length * 2)).length = xs.length * 2 := by simp; omega
        have hm := SW16.write_many (parent := { w with swBuf := st }) xs [] (st.take (xs.length * 2)) 0 rfl
          (by omega)
        rw [List.nil_append, List.drop_eq_nil_of_le (by omega)] at hm
        have hfl : (xs.flatMap leI16).length = xs.length * 2 := flatMap_length leI16 2 xs (fun _ _ => rfl)
        rw [hm]
        simp only [Res.ok_bind]
        unfold SW16.flush addU32
        simp only [List.nil_append, List.append_nil, Nat.zero_add, hfl]
        rw [if_neg (by omega), if_pos (by omega)]
        simp only [Res.ok_bind, Res.pure_eq]
        exact ⟨h1, h2, by rw [h3, Nat.add_mul]⟩
  obtain ⟨w0, hw0, r, _, _⟩ := Rep.init h
  have hz : w0.dataBytes = 0 * (s.bits / 8) := by rw [r.bytes]; simp
  obtain ⟨k1, k2, k3⟩ := key ops w0 0 r.spec r.bps hz hall (by simpa using hlt)
  rw [Nat.zero_add] at k3
  have hfr : s.bits / 8 * s.channels < 2 ^ 32 := by
    have := Supported.frame_lt h
    unfold frameBytes at this; omega
  refine ⟨w0, hw0, ?_, ?_, ?_⟩
  · unfold Writer.len divP
    rw [k2, k3, if_neg (by omega), Nat.mul_div_cancel _ hbp]
  · unfold Writer.duration divP mulU32
    rw [k1, k2, k3, if_pos hfr]
    simp only [Res.ok_bind]
    have hpos : 0 < s.bits / 8 * s.channels := Nat.mul_pos hbp hcp
    rw [if_neg (by omega), ← Nat.div_div_eq_div_mul, Nat.mul_div_cancel _ hbp]
  · unfold Writer.isEmpty
    rw [k3]
    simp only [beq_iff_eq, Nat.mul_eq_zero]
    omega

example : ∀ o ∈ [HOp.sample 5, .sample 40000, .flush, .batch [1, 2, 3] (fun _ => 0)],
    o.allowed ⟨2, 44100, 16, .int⟩ := by
  intro o ho
  simp at ho
  rcases ho with rfl | rfl | rfl | rfl <;> simp [HOp.allowed, Fits]
end Verif
