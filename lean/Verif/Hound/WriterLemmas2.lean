import Verif.Hound.WriterLemmas
import Verif.Hound.Programs
/-! Writer step lemmas. -/
namespace Verif.Hound
open Spec (le sampleBytes Fits Supported header headerLen needsExt frameBytes fmtChunk)

theorem headerLen_ge (s : WavSpec) : 44 ≤ headerLen s ∧ headerLen s ≤ 68 := by
  unfold headerLen; split <;> omega

theorem Rep.init {s : WavSpec} (h : Supported s) :
    ∃ w, Writer.new Cursor.empty s = .ok w ∧ Rep w s 0 0 [] ∧ w.finalized = false ∧ w.swBuf = [] := by
  refine ⟨_, Writer.new_eq h, ⟨rfl, rfl, by simp, rfl, rfl⟩, rfl, rfl⟩

/-- Appending bytes to a represented writer. -/
theorem Rep.writeAll {w : Writer} {s : WavSpec} {a b : Nat} {dat : Bytes} (r : Rep w s a b dat) (bs : Bytes) :
    w.out.writeAll bs = ⟨header s a b ++ (dat ++ bs), headerLen s + (dat ++ bs).length⟩ := by
  have hl := header_length s a b
  have := Cursor.writeAll_end (header s a b ++ dat) bs
  rw [List.length_append, hl] at this
  rw [r.out, this]
  simp [Nat.add_assoc]

theorem Rep.writeSample {α} {S : SampleImpl α} {fmt : SampleFormat} {P : α → Prop} {enc : α → Bytes}
    {w : Writer} {s : WavSpec} {a b : Nat} {dat : Bytes}
    (r : Rep w s a b dat) (c : Codes S fmt s.bits P enc) (x : α) (hx : P x)
    (hlt : dat.length + s.bits / 8 < 2 ^ 32) :
    (w.writeSample S x).1 = .ok () ∧ Rep (w.writeSample S x).2 s a b (dat ++ enc x) ∧
      (w.writeSample S x).2.finalized = w.finalized ∧ (w.writeSample S x).2.swBuf = w.swBuf := by
  unfold Writer.writeSample
  rw [r.spec, c.write x hx]
  simp only [addU32, r.bytes, r.bps, if_pos hlt]
  refine ⟨trivial, ⟨rfl, rfl, r.writeAll _, ?_, r.off⟩, trivial, trivial⟩
  simp [c.len x hx]

theorem Rep.writeSamples {α} {S : SampleImpl α} {fmt : SampleFormat} {P : α → Prop} {enc : α → Bytes}
    {s : WavSpec} {a b : Nat} (c : Codes S fmt s.bits P enc) (xs : List α) :
    ∀ {w : Writer} {dat : Bytes}, Rep w s a b dat → (∀ x ∈ xs, P x) →
    dat.length + xs.length * (s.bits / 8) < 2 ^ 32 →
    (w.writeSamples S xs).1 = .ok () ∧ Rep (w.writeSamples S xs).2 s a b (dat ++ xs.flatMap enc) ∧
      (w.writeSamples S xs).2.finalized = w.finalized ∧ (w.writeSamples S xs).2.swBuf = w.swBuf := by
  induction xs with
  | nil => intro w dat r _ _; simpa [Writer.writeSamples] using r
  | cons x xs ih =>
    intro w dat r hP hlt
    have hlen : (x :: xs).length * (s.bits / 8) = s.bits / 8 + xs.length * (s.bits / 8) := by
      simp [Nat.add_mul, Nat.add_comm]
    rw [hlen] at hlt
    obtain ⟨h1, h2, h3, h4⟩ := r.writeSample c x (hP x (by simp)) (by omega)
    unfold Writer.writeSamples
    generalize hq : w.writeSample S x = q at *
    obtain ⟨q1, q2⟩ := q
    simp only at h1 h2 h3 h4
    subst h1
    simp only
    have := ih h2 (fun y hy => hP y (by simp [hy]))
      (by rw [List.length_append, c.len x (hP x (by simp))]; omega)
    simpa [h3, h4] using this

theorem flatMap_length {α} (enc : α → Bytes) (n : Nat) (xs : List α) (h : ∀ x ∈ xs, (enc x).length = n) :
    (xs.flatMap enc).length = xs.length * n := by
  induction xs with
  | nil => simp
  | cons x xs ih =>
    simp only [List.flatMap_cons, List.length_append, List.length_cons, Nat.add_mul]
    rw [h x (by simp), ih (fun y hy => h y (by simp [hy]))]; omega

theorem updHeader_cursor (s : WavSpec) (a b a' b' : Nat) (dat : Bytes) (p : Nat) :
    ((((Cursor.mk (header s a b ++ dat) p).seekStart 4).writeAll (leU32 a')).seekStart
        (headerLen s - 4)).writeAll (leU32 b') =
      ⟨header s a' b' ++ dat, headerLen s⟩ := by
  obtain ⟨e1, e2, e3, e4⟩ := headerTags
  have step1 : ((Cursor.mk (header s a b ++ dat) p).seekStart 4).writeAll (leU32 a') =
      ⟨header s a' b ++ dat, 8⟩ := by
    have := Cursor.writeAll_mid tagRIFF (le 4 a) (tagWAVE ++ fmtChunk s ++ tagData ++ le 4 b ++ dat)
      (leU32 a') 4 rfl (by simp [leU32_eq])
    simp only [header, Cursor.seekStart, e1, e2, e4]
    simp only [List.append_assoc] at this ⊢
    rw [this, leU32_eq]
    simp [tagRIFF]
  rw [step1]
  have hl := header_length s a' b
  simp only [header, List.length_append, le_length] at hl
  have := Cursor.writeAll_mid (Spec.ascii "RIFF" ++ le 4 a' ++ Spec.ascii "WAVE" ++ fmtChunk s ++
    Spec.ascii "data") (le 4 b) dat (leU32 b') (headerLen s - 4)
    (by simp only [List.length_append, le_length]; omega) (by simp [leU32_eq])
  simp only [header, Cursor.seekStart]
  rw [this, leU32_eq]
  simp only [List.length_append, le_length] at hl ⊢
  rw [hl]

theorem Rep.updateHeader {w : Writer} {s : WavSpec} {a b : Nat} {dat : Bytes} (r : Rep w s a b dat)
    (h : Supported s) (hlt : dat.length + headerLen s - 8 < 2 ^ 32) :
    (w.updateHeader).1 = (if dat.length / (s.bits / 8) % s.channels = 0 then .ok () else .err .unfinishedSample) ∧
    (w.updateHeader).2 =
      { w with out := ⟨header s (headerLen s + dat.length - 8) dat.length ++ dat, headerLen s⟩ } := by
  have hl := headerLen_ge s
  have hbp := Supported.bps_pos h
  have hcp := h.ch_pos
  unfold Writer.updateHeader addU32
  have e : headerLen s - 4 + 4 - 8 = headerLen s - 8 := by omega
  rw [r.bytes, r.off, e, if_pos (by omega), r.bps, r.spec, r.out]
  have e2 : dat.length + (headerLen s - 8) = headerLen s + dat.length - 8 := by omega
  simp only [updHeader_cursor, divP, modP]
  rw [if_neg (by omega)]
  simp only [Res.ok_bind]
  rw [if_neg (by omega)]
  simp only [e2]
  by_cases hz : dat.length / (s.bits / 8) % s.channels = 0
  · simp only [hz, if_true]; simp
  · simp only [if_neg hz]; simp [hz]

theorem Rep.finalize {w : Writer} {s : WavSpec} {a b : Nat} {dat : Bytes} (r : Rep w s a b dat)
    (h : Supported s) (hlt : dat.length + headerLen s - 8 < 2 ^ 32) :
    (w.finalize).1 = (if dat.length / (s.bits / 8) % s.channels = 0 then .ok () else .err .unfinishedSample) ∧
    (w.finalize).2.out.data = Spec.file s dat := by
  have r' : Rep { w with finalized := true } s a b dat := ⟨r.spec, r.bps, r.out, r.bytes, r.off⟩
  obtain ⟨h1, h2⟩ := r'.updateHeader h hlt
  unfold Writer.finalize
  exact ⟨h1, by rw [h2]; rfl⟩

/-- A flush on a frame boundary rewrites the size fields and nothing else. -/
theorem Rep.flush {w : Writer} {s : WavSpec} {a b : Nat} {dat : Bytes} (r : Rep w s a b dat)
    (h : Supported s) (hlt : dat.length + headerLen s - 8 < 2 ^ 32)
    (hz : dat.length / (s.bits / 8) % s.channels = 0) :
    (w.flush).1 = .ok () ∧ Rep (w.flush).2 s (headerLen s + dat.length - 8) dat.length dat ∧
      (w.flush).2.finalized = w.finalized ∧ (w.flush).2.swBuf = w.swBuf := by
  obtain ⟨h1, h2⟩ := r.updateHeader h hlt
  rw [if_pos hz] at h1
  unfold Writer.flush
  generalize hq : w.updateHeader = q at *
  obtain ⟨q1, q2⟩ := q
  simp only at h1 h2
  subst h1 h2
  simp only
  refine ⟨trivial, ⟨r.spec, r.bps, ?_, r.bytes, r.off⟩, trivial, trivial⟩
  simp [Cursor.seekStart, r.out]

/-- The recorded file is the specified file. -/
theorem record_eq {α} {S : SampleImpl α} {P : α → Prop} {enc : α → Bytes} {fmt : SampleFormat}
    {s : WavSpec} (h : Supported s) (c : Codes S fmt s.bits P enc) (xs : List α) (hP : ∀ x ∈ xs, P x)
    (hframe : s.channels ∣ xs.length)
    (hlt : headerLen s + xs.length * (s.bits / 8) < 2 ^ 32 + 8) :
    record S s xs = .ok (Spec.file s (xs.flatMap enc)) := by
  obtain ⟨w, hw, r, _, _⟩ := Rep.init h
  have hl := headerLen_ge s
  have hlen := flatMap_length enc (s.bits / 8) xs (fun x hx => c.len x (hP x hx))
  obtain ⟨h1, h2, _, _⟩ := r.writeSamples c xs hP (by simp; omega)
  simp only [List.nil_append] at h2
  unfold record
  rw [hw]
  simp only [Res.ok_bind]
  generalize w.writeSamples S xs = q at *
  obtain ⟨q1, q2⟩ := q
  simp only at h1 h2
  subst h1
  simp only
  obtain ⟨h3, h4⟩ := h2.finalize h (by rw [hlen]; omega)
  rw [hlen, Nat.mul_div_cancel _ (Supported.bps_pos h),
    if_pos (Nat.mod_eq_zero_of_dvd hframe)] at h3
  generalize q2.finalize = t at *
  obtain ⟨t1, t2⟩ := t
  simp only at h3 h4
  subst h3
  simp only [h4]

end Verif.Hound
