import Verif.Hound.CodecLemmas
import Verif.Hound.Writer
/-! Helper lemmas about sample codecs and the writer. -/
namespace Verif.Hound
open Spec (le sampleBytes Fits Supported header headerLen needsExt frameBytes fmtChunk)

theorem u8FromSigned_eq (x : Int) (h : -128 ≤ x ∧ x < 128) :
    u8FromSigned x = UInt8.ofNat (x + 128).toNat := by
  unfold u8FromSigned
  congr 2; omega

theorem signed_u8 (x : Int) (h : -128 ≤ x ∧ x < 128) :
    signedFromU8 (UInt8.ofNat (x + 128).toNat).toNat = x := by
  unfold signedFromU8 asI8
  simp only [UInt8.toNat_ofNat']
  split <;> omega

theorem asI8_id (x : Int) (h : -128 ≤ x ∧ x < 128) : asI8 x = x := by
  unfold asI8; split <;> omega
theorem asI16_id (x : Int) (h : -32768 ≤ x ∧ x < 32768) : asI16 x = x := by
  unfold asI16; split <;> omega

theorem leI16_eq (x : Int) : leI16 x = le 2 (x % (2 ^ 16 : Int)).toNat := by
  unfold leI16; rw [leU16_eq _ (asU16_lt x)]; rfl
theorem leI32_eq (x : Int) : leI32 x = le 4 (x % (2 ^ 32 : Int)).toNat := by
  unfold leI32; rw [leU32_eq]; rfl
theorem leI24_eq (x : Int) : leI24 x = le 3 (x % (2 ^ 24 : Int)).toNat := by
  unfold leI24; rw [leU24_eq, le3_mod]
  have : asU32 x % 16777216 = (x % (2 ^ 24 : Int)).toNat := by unfold asU32; omega
  rw [this]

/-- `S` stores the values satisfying `P` as `enc`, at `bits` bits in format `fmt`, losslessly. -/
structure Codes {α : Type} (S : SampleImpl α) (fmt : SampleFormat) (bits : Nat) (P : α → Prop)
    (enc : α → Bytes) : Prop where
  write : ∀ x, P x → S.write x bits = .ok (enc x)
  len : ∀ x, P x → (enc x).length = bits / 8
  read : ∀ x, P x → ∀ rest, S.read fmt (bits / 8) bits (enc x ++ rest) = (.ok x, rest)

theorem sampleBytes_length (bits : Nat) (x : Int) (hb : bits = 8 ∨ bits = 16 ∨ bits = 24 ∨ bits = 32) :
    (sampleBytes bits x).length = bits / 8 := by
  unfold sampleBytes
  rcases hb with h | h | h | h <;> subst h <;> simp

theorem readU8_ofNat (n : Nat) (rest : Bytes) (h : n < 256) :
    readU8 (UInt8.ofNat n :: rest) = (.ok n, rest) := by
  rw [readU8_cons, UInt8.toNat_ofNat']; congr 2; omega

theorem codesI32 (bits : Nat) (hb : bits = 8 ∨ bits = 16 ∨ bits = 24 ∨ bits = 32) :
    Codes sampI32 .int bits (Fits bits) (sampleBytes bits) where
  write x hx := by
    rcases hb with h | h | h | h <;> subst h <;> simp only [Fits] at hx <;>
      simp only [sampI32, sampleBytes, narrowI8, narrowI16, narrowI24]
    · rw [if_neg (by omega)]
      simp only [Res.ok_bind, Res.pure_eq, asI8_id x (by omega), if_true,
        u8FromSigned_eq x (by omega)]
    · rw [if_neg (by omega)]
      simp [asI16_id x (by omega), leI16_eq]
    · rw [if_neg (by have : (1 <<< 23 : Int) = 8388608 := by decide
                     omega)]
      simp [leI24_eq]
    · simp [leI32_eq]
  len x _ := sampleBytes_length bits x hb
  read x hx rest := by
    rcases hb with h | h | h | h <;> subst h <;> simp only [Fits] at hx <;>
      simp [sampI32, sampleBytes]
    · rw [Rd.bind_ok (readU8_ofNat _ _ (by omega))]
      simp only [Rd.pure_def, signedFromU8]
      congr 2; rw [asI8_id _ (by omega)]; omega
    · exact readI16_le x (by omega) rest
    · have := readI24_le x (by omega) rest
      rw [← leU24_eq, ← leI24, leI24_eq] at this
      exact this
    · exact readI32_le x (by omega) rest

theorem codesI16 (bits : Nat) (hb : bits = 8 ∨ bits = 16) :
    Codes sampI16 .int bits (Fits bits) (sampleBytes bits) where
  write x hx := by
    rcases hb with h | h <;> subst h <;> simp only [Fits] at hx <;>
      simp only [sampI16, sampleBytes, narrowI8]
    · rw [if_neg (by omega)]
      simp only [Res.ok_bind, Res.pure_eq, asI8_id x (by omega), if_true,
        u8FromSigned_eq x (by omega)]
    · simp [leI16_eq]
  len x _ := sampleBytes_length bits x (by omega)
  read x hx rest := by
    rcases hb with h | h <;> subst h <;> simp only [Fits] at hx <;>
      simp [sampI16, sampleBytes]
    · rw [Rd.bind_ok (readU8_ofNat _ _ (by omega))]
      simp only [Rd.pure_def, signedFromU8]
      congr 2; rw [asI8_id _ (by omega)]; omega
    · exact readI16_le x (by omega) rest

theorem codesI8 : Codes sampI8 .int 8 (Fits 8) (sampleBytes 8) where
  write x hx := by
    simp only [Fits] at hx
    simp only [sampI8, sampleBytes, if_true, u8FromSigned_eq x (by omega)]
  len x _ := sampleBytes_length 8 x (by omega)
  read x hx rest := by
    simp only [Fits] at hx
    simp [sampI8, sampleBytes]
    rw [Rd.bind_ok (readU8_ofNat _ _ (by omega))]
    simp only [Rd.pure_def, signedFromU8]
    congr 2; rw [asI8_id _ (by omega)]; omega

theorem codesF32 : Codes sampF32 .float 32 (fun u => u < 2 ^ 32) (le 4) where
  write x _ := by simp [sampF32, leF32, leU32_eq]
  len x _ := by simp
  read x hx rest := by
    simp [sampF32, readF32]
    exact readU32_le x hx rest

/-! ## cursor -/
theorem Cursor.writeAll_end (d bs : Bytes) :
    (Cursor.mk d d.length).writeAll bs = ⟨d ++ bs, d.length + bs.length⟩ := by
  simp [Cursor.writeAll]

theorem Cursor.writeAll_mid (pre old post bs : Bytes) (p : Nat) (hp : p = pre.length)
    (h : bs.length = old.length) :
    (Cursor.mk (pre ++ old ++ post) p).writeAll bs = ⟨pre ++ bs ++ post, pre.length + bs.length⟩ := by
  subst hp
  simp only [Cursor.writeAll, List.append_assoc]
  congr 1
  rw [List.take_append_of_le_length (by simp)]
  simp [h, List.drop_append]

/-! ## header -/
theorem channelMask_eq (n : Nat) (h : n ≤ 32) : channelMask n = .ok (2 ^ n - 1) := by
  unfold channelMask
  induction n with
  | zero => rfl
  | succ n ih =>
    rw [List.range_succ, List.foldl_append, ih (by omega)]
    simp only [List.foldl_cons, List.foldl_nil, Res.ok_bind]
    rw [if_pos (by omega)]
    congr 1
    have h1 : 2 ^ n - 1 < 2 ^ n := by have := Nat.two_pow_pos n; omega
    rw [Nat.or_comm, or_shift 1 _ n h1, Nat.pow_succ]
    have := Nat.two_pow_pos n; omega

theorem headerTags : Spec.ascii "RIFF" = tagRIFF ∧ Spec.ascii "WAVE" = tagWAVE ∧
    Spec.ascii "fmt " = tagFmt ∧ Spec.ascii "data" = tagData := by decide

theorem Supported.frame_lt {s : WavSpec} (h : Supported s) : frameBytes s ≤ 128 := by
  unfold frameBytes
  have hb := h.bits_ok
  have : s.bits / 8 ≤ 4 := by omega
  calc s.bits / 8 * s.channels ≤ 4 * 32 := Nat.mul_le_mul this h.ch_le
    _ = 128 := rfl

theorem Supported.bps_pos {s : WavSpec} (h : Supported s) : 1 ≤ s.bits / 8 := by
  have hb := h.bits_ok; omega

theorem waveformatBytes_eq {s : WavSpec} (h : Supported s) :
    waveformatBytes s (s.bits / 8) = .ok (le 2 s.channels ++ le 4 s.sampleRate ++
      le 4 (s.sampleRate * frameBytes s) ++ le 2 (frameBytes s)) := by
  have h1 : s.sampleRate * (s.bits / 8) < 2 ^ 32 :=
    Nat.lt_of_le_of_lt (Nat.le_mul_of_pos_right _ h.ch_pos) h.rate_fits
  unfold waveformatBytes mulU32
  rw [if_pos h1]
  simp only [Res.ok_bind]
  rw [if_pos h.rate_fits]
  simp only [Res.ok_bind, divP]
  have hr := h.rate_pos
  rw [if_neg (by omega)]
  simp only [Res.ok_bind, Res.pure_eq]
  have e : s.sampleRate * (s.bits / 8) * s.channels = s.sampleRate * frameBytes s := by
    rw [frameBytes, Nat.mul_assoc]
  have hf := Supported.frame_lt h
  have hc := h.ch_le
  rw [e, Nat.mul_div_cancel_left _ (by omega), Nat.mod_eq_of_lt (by omega), leU16_eq _ (by omega),
    leU16_eq _ (by omega), leU32_eq, leU32_eq]

theorem header_length (s : WavSpec) (a b : Nat) : (header s a b).length = headerLen s := by
  obtain ⟨e1, e2, e3, e4⟩ := headerTags
  unfold header headerLen fmtChunk
  rw [e1, e2, e3, e4]
  cases needsExt s with
  | false => simp [tagRIFF, tagWAVE, tagFmt, tagData]
  | true =>
    by_cases hf : s.fmt = .float <;> simp [hf, tagRIFF, tagWAVE, tagFmt, tagData]

/-- The writer `w` has stored data `dat` (size fields on the stream currently `a`, `b`). -/
structure Rep (w : Writer) (s : WavSpec) (a b : Nat) (dat : Bytes) : Prop where
  spec : w.spec = s
  bps : w.bytesPerSample = s.bits / 8
  out : w.out = ⟨header s a b ++ dat, headerLen s + dat.length⟩
  bytes : w.dataBytes = dat.length
  off : w.dataLenOffset = headerLen s - 4

theorem Writer.new_eq {s : WavSpec} (h : Supported s) :
    Writer.new Cursor.empty s = .ok
      { spec := s, bytesPerSample := s.bits / 8, out := ⟨header s 0 0, headerLen s⟩, dataBytes := 0,
        finalized := false, swBuf := [], dataLenOffset := headerLen s - 4 } := by
  have hb := h.bits_ok
  obtain ⟨e1, e2, e3, e4⟩ := headerTags
  unfold Writer.new addU16 Writer.unborn
  rw [if_pos (show s.bits + 7 < 2 ^ 16 by omega)]
  simp only [Res.ok_bind, if_pos hb]
  have hb8 : (s.bits + 7) / 8 = s.bits / 8 := by omega
  have hbb : s.bits / 8 * 8 = s.bits := by omega
  rw [hb8]
  have key : ∀ (hd : Bytes), hd = header s 0 0 → ∀ n, n = headerLen s →
      Cursor.empty.writeAll ((hd ++ List.replicate (68 - hd.length) 0).take n) =
        ⟨header s 0 0, headerLen s⟩ := by
    rintro hd rfl n rfl
    have hl := header_length s 0 0
    rw [List.take_append_of_le_length (by omega), List.take_of_length_le (by omega)]
    simp [Cursor.empty, Cursor.writeAll, hl]
  by_cases hk : s.channels > 2 ∨ s.bits > 16
  · have hne : needsExt s = true := by simpa [needsExt] using hk
    have hl : headerLen s = 68 := by simp [headerLen, hne]
    simp only [if_pos hk, writeHeaders, extBytes]
    rw [waveformatBytes_eq h]
    simp only [Res.ok_bind]
    rw [channelMask_eq _ h.ch_le]
    simp only [Res.ok_bind]
    cases hf : s.fmt with
    | int =>
      simp only [Res.ok_bind, Res.pure_eq, Res.ok.injEq, Writer.mk.injEq, true_and, hl, and_true]
      rw [key]
      · simp [hl]
      · simp [header, fmtChunk, hne, e1, e2, e3, e4, leU32_eq, leU16_eq, hbb, hf, guidPcm,
          leU16_eq s.bits (by omega)]
      · simp [hl]
    | float =>
      have h32 := h.float_ok hf
      simp only [if_pos h32, Res.ok_bind, Res.pure_eq, Res.ok.injEq, Writer.mk.injEq, true_and, hl, and_true]
      rw [key]
      · simp [hl]
      · simp [header, fmtChunk, hne, e1, e2, e3, e4, leU32_eq, leU16_eq, hbb, hf, guidFloat,
          leU16_eq s.bits (by omega)]
      · simp [hl]
  · have hne : needsExt s = false := by simpa [needsExt] using hk
    have hl : headerLen s = 44 := by simp [headerLen, hne]
    simp only [if_neg hk, writeHeaders, pcmBytes]
    cases hf : s.fmt with
    | int =>
      simp only [Res.ok_bind]
      rw [waveformatBytes_eq h]
      simp only [Res.ok_bind, Res.pure_eq, Res.ok.injEq, Writer.mk.injEq, true_and, hl, and_true]
      rw [key]
      · simp [hl]
      · simp [header, fmtChunk, hne, e1, e2, e3, e4, leU32_eq, leU16_eq, hf,
          leU16_eq s.bits (by omega)]
      · simp [hl]
    | float =>
      have h32 := h.float_ok hf
      omega

end Verif.Hound
