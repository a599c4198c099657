import Verif.Hound.PropsA
/-!
# Properties of WAV writing: C05 flush, C06 crash, C07 append, C15 batches, C16 codec
-/
namespace Verif
open Hound Hound.Spec

/-! ## C05 -/
/-- Every flush in the history comes at a frame boundary (`n` samples have been written before). -/
def FlushAligned {α} (ch : Nat) : Nat → List (WOp α) → Prop
  | _, [] => True
  | n, .sample _ :: os => FlushAligned ch (n + 1) os
  | n, .flush :: os => ch ∣ n ∧ FlushAligned ch n os

theorem ops_aux {α : Type} {S : SampleImpl α} {P : α → Prop} {enc : α → Bytes} {s : WavSpec}
    {fmt : SampleFormat} (h : Supported s) (c : Codes S fmt s.bits P enc) (ops : List (WOp α)) :
    ∀ {w : Writer} {a b : Nat} {ys : List α}, Rep w s a b (ys.flatMap enc) → (∀ y ∈ ys, P y) →
    (∀ x ∈ WOp.samples ops, P x) → FlushAligned s.channels ys.length ops →
    FileFits s (ys.length + (WOp.samples ops).length) →
    (w.ops S ops).1 = .ok () ∧
    ∃ a' b', Rep (w.ops S ops).2 s a' b' ((ys ++ WOp.samples ops).flatMap enc) := by
  induction ops with
  | nil => intro w a b ys r _ _ _ _; exact ⟨rfl, a, b, by simpa [WOp.samples, Writer.ops] using r⟩
  | cons o os ih =>
    intro w a b ys r hy hP hal hfit
    have hlen := flatMap_length enc (s.bits / 8) ys (fun x hx => c.len x (hy x hx))
    have hl := headerLen_ge s
    cases o with
    | sample x =>
      have hx : P x := hP x (by simp [WOp.samples])
      have hfit' := hfit
      unfold FileFits at hfit'
      simp only [WOp.samples, List.length_cons] at hfit'
      rw [show ys.length + ((WOp.samples os).length + 1) = ys.length + 1 + (WOp.samples os).length by omega,
        Nat.add_mul, Nat.add_mul] at hfit'
      obtain ⟨h1, h2, _, _⟩ := r.writeSample c x hx (by rw [hlen]; omega)
      have r2 : Rep (w.writeSample S x).2 s a b ((ys ++ [x]).flatMap enc) := by simpa using h2
      obtain ⟨h3, h4⟩ := ih r2 (by intro y hy'; simp at hy'; rcases hy' with h | h; exact hy y h; subst h; exact hx)
        (fun y hy' => hP y (by simp [WOp.samples, hy'])) (by simpa [FlushAligned] using hal)
        (by simpa [WOp.samples, Nat.add_assoc, Nat.add_comm 1] using hfit)
      rcases hq : w.writeSample S x with ⟨q, w1⟩
      rw [hq] at h1 h3 h4
      simp only at h1 h3 h4
      subst h1
      simp only [Writer.ops, Writer.op, hq]
      refine ⟨h3, ?_⟩
      simpa [WOp.samples] using h4
    | flush =>
      obtain ⟨hd, hal'⟩ := hal
      have hfit' : headerLen s + ys.length * (s.bits / 8) - 8 < 2 ^ 32 := by
        unfold FileFits at hfit
        rw [Nat.add_mul] at hfit; omega
      obtain ⟨h1, h2, _, _⟩ := r.flush h (by rw [hlen]; omega)
        (by rw [hlen, Nat.mul_div_cancel _ (Supported.bps_pos h)]; exact Nat.mod_eq_zero_of_dvd hd)
      obtain ⟨h3, h4⟩ := ih h2 hy (fun y hy' => hP y (by simpa [WOp.samples] using hy')) hal'
        (by simpa [WOp.samples] using hfit)
      rcases hq : w.flush with ⟨q, w1⟩
      rw [hq] at h1 h3 h4
      simp only at h1 h3 h4
      subst h1
      simp only [Writer.ops, Writer.op, hq]
      exact ⟨h3, by simpa [WOp.samples] using h4⟩

theorem C05_aux {α : Type} {S : SampleImpl α} {P : α → Prop} {enc : α → Bytes} {s : WavSpec}
    {fmt : SampleFormat} (h : Supported s) (c : Codes S fmt s.bits P enc) (ops : List (WOp α))
    (hP : ∀ x ∈ WOp.samples ops, P x) (hal : FlushAligned s.channels 0 ops)
    (hfr : s.channels ∣ (WOp.samples ops).length) (hfit : FileFits s (WOp.samples ops).length) :
    recordOps S s ops = record S s (WOp.samples ops) := by
  have hl := headerLen_ge s
  obtain ⟨w, hw, r, hfin, _⟩ := Rep.init h
  obtain ⟨h1, a', b', h2⟩ := ops_aux (ys := []) h c ops (by simpa using r) (by simp) hP hal (by simpa using hfit)
  rw [List.nil_append] at h2
  have hlen := flatMap_length enc (s.bits / 8) (WOp.samples ops) (fun x hx => c.len x (hP x hx))
  unfold FileFits at hfit
  obtain ⟨h4, h5⟩ := h2.finalize h (by rw [hlen]; omega)
  rw [record_eq h c _ hP hfr (by omega)]
  unfold recordOps
  rw [hw]
  simp only [Res.ok_bind]
  rcases hq : w.ops S ops with ⟨q, w1⟩
  rw [hq] at h1 h4 h5
  simp only at h1 h4 h5
  subst h1
  simp only
  rw [hlen, Nat.mul_div_cancel _ (Supported.bps_pos h), if_pos (Nat.mod_eq_zero_of_dvd hfr)] at h4
  rcases hq' : w1.finalize with ⟨q, w2⟩
  rw [hq'] at h4 h5
  simp only at h4 h5
  subst h4
  simp only [h5]

/-- **C05**, the part that holds: flushes at frame boundaries, in any number and anywhere, do not change the
finalized file.  Missing from the full property: flushes inside a frame — see `C05_midframe_flush_overwrites`. -/
theorem C05_flush_transparent_partial (s : WavSpec) (h : Supported s) (ops : List (WOp Int))
    (hfits : ∀ x ∈ WOp.samples ops, Fits s.bits x) (hal : FlushAligned s.channels 0 ops)
    (hfr : s.channels ∣ (WOp.samples ops).length) (hsize : FileFits s (WOp.samples ops).length) :
    recordOps sampI32 s ops = record sampI32 s (WOp.samples ops) ∧
    ∃ file, record sampI32 s (WOp.samples ops) = .ok file := by
  have c := codesI32 s.bits h.bits_ok
  have hl := headerLen_ge s
  refine ⟨C05_aux h c ops hfits hal hfr hsize, _, record_eq h c _ hfits hfr ?_⟩
  unfold FileFits at hsize; omega

example : FlushAligned (α := Int) 2 0 [.sample 1, .sample 2, .flush, .flush, .sample 3, .sample 4] := by
  simp only [FlushAligned]; decide

/-- **C05 is false of the code**: a flush in the middle of a frame returns `UnfinishedSample` and leaves the
stream position at the first data byte, so the next sample written overwrites the first one.  Stated for
every spec with at least two channels, every unfinished prefix and every next sample. -/
theorem C05_midframe_flush_overwrites (s : WavSpec) (h : Supported s) (x : Int) (xs : List Int) (y : Int)
    (hfits : ∀ z ∈ x :: xs, Fits s.bits z) (hy : Fits s.bits y) (hmid : ¬ s.channels ∣ (x :: xs).length)
    (hsize : FileFits s (xs.length + 2)) :
    ∃ w, Writer.new Cursor.empty s = .ok w ∧
      (w.writeSamples sampI32 (x :: xs)).1 = .ok () ∧
      (w.writeSamples sampI32 (x :: xs)).2.flush.1 = .err .unfinishedSample ∧
      (((w.writeSamples sampI32 (x :: xs)).2.flush).2.writeSample sampI32 y).1 = .ok () ∧
      (((w.writeSamples sampI32 (x :: xs)).2.flush).2.writeSample sampI32 y).2.out.data.drop (headerLen s) =
        pcmData s.bits (y :: xs) := by
  have c := codesI32 s.bits h.bits_ok
  have hl := headerLen_ge s
  have hbp := Supported.bps_pos h
  unfold FileFits at hsize
  rw [Nat.add_mul] at hsize
  obtain ⟨w, hw, r, hfin, _⟩ := Rep.init h
  have hlen := flatMap_length (sampleBytes s.bits) (s.bits / 8) (x :: xs) (fun x hx => c.len x (hfits x hx))
  have hlen' := hlen
  rw [List.length_cons, Nat.add_mul] at hlen'
  obtain ⟨g1, g2, g3, _⟩ := r.writeSamples c (x :: xs) hfits
    (by simp only [List.length_nil, List.length_cons, Nat.add_mul]; omega)
  refine ⟨w, hw, g1, ?_⟩
  generalize (w.writeSamples sampI32 (x :: xs)).2 = w1 at *
  simp only [List.nil_append] at g2
  obtain ⟨h6, h7⟩ := g2.updateHeader h (by omega)
  rw [hlen, Nat.mul_div_cancel _ hbp, if_neg (by rw [← Nat.dvd_iff_mod_eq_zero]; exact hmid)] at h6
  have hfl : w1.flush = (.err .unfinishedSample, (w1.updateHeader).2) := by
    unfold Writer.flush
    rcases hq : w1.updateHeader with ⟨q, w2⟩
    rw [hq] at h6
    simp only at h6
    subst h6
    rfl
  rw [hfl, h7]
  refine ⟨rfl, ?_⟩
  have hcy : sampI32.write y s.bits = .ok (sampleBytes s.bits y) := c.write y hy
  have hly := c.len y hy
  have hlx := c.len x (hfits x (by simp))
  have hmidw := Cursor.writeAll_mid (header s (headerLen s + ((x :: xs).flatMap (sampleBytes s.bits)).length - 8)
    ((x :: xs).flatMap (sampleBytes s.bits)).length) (sampleBytes s.bits x) (xs.flatMap (sampleBytes s.bits))
    (sampleBytes s.bits y) (headerLen s) (by rw [header_length]) (by rw [hly, hlx])
  simp only [List.flatMap_cons, List.append_assoc] at hmidw
  simp only [Writer.writeSample, g2.spec, hcy, List.flatMap_cons]
  rw [hmidw]
  have hadd : addU32 (ε := Err) w1.dataBytes w1.bytesPerSample =
      .ok (w1.dataBytes + w1.bytesPerSample) := by
    unfold addU32
    rw [g2.bytes, g2.bps, if_pos (by omega)]
  rw [hadd]
  refine ⟨rfl, ?_⟩
  simp only
  rw [List.drop_left' (by rw [header_length])]
  simp [pcmData]

/-- A concrete mid-frame flush: stereo, one sample, flush, then 9 — sample 5 is gone. -/
example : ¬ (2 : Nat) ∣ [(5 : Int)].length ∧ Fits 16 5 ∧ Fits 16 9 ∧ FileFits ⟨2, 8000, 16, .int⟩ 2 :=
  ⟨by decide, by decide, by decide, by unfold FileFits; decide⟩

/-! ## C06 -/
/-- **C06.** After a successful flush at a frame boundary, if the process dies while writing further samples
`ys` — so that any prefix of the resulting stream that includes the flushed part reached the disk, possibly
ending inside a sample — the file opens and yields exactly the flushed samples. -/
theorem C06_flushed_survives (s : WavSpec) (h : Supported s) (hint : s.fmt = .int) (xs ys : List Int)
    (hx : ∀ x ∈ xs, Fits s.bits x) (hy : ∀ y ∈ ys, Fits s.bits y) (hframe : s.channels ∣ xs.length)
    (hsize : FileFits s (xs.length + ys.length)) :
    ∃ w0 w1 w2 w3, Writer.new Cursor.empty s = .ok w0 ∧
      w0.writeSamples sampI32 xs = (.ok (), w1) ∧ w1.flush = (.ok (), w2) ∧
      w2.writeSamples sampI32 ys = (.ok (), w3) ∧
      ∀ m, w2.out.data.length ≤ m →
        ∃ r, openBytes (w3.out.data.take m) = .ok r ∧ r.spec = s ∧ r.len = xs.length ∧
          r.collect sampI32 = xs.map .ok := by
  have c := codesI32 s.bits h.bits_ok
  have c' : Codes sampI32 s.fmt s.bits (Fits s.bits) (sampleBytes s.bits) := by rw [hint]; exact c
  have hl := headerLen_ge s
  have hbp := Supported.bps_pos h
  unfold FileFits at hsize
  rw [Nat.add_mul] at hsize
  obtain ⟨w, hw, r, hfin, _⟩ := Rep.init h
  have hlen := flatMap_length (sampleBytes s.bits) (s.bits / 8) xs (fun x hx' => c.len x (hx x hx'))
  obtain ⟨g1, g2, _, _⟩ := r.writeSamples c xs hx (by simp only [List.length_nil]; omega)
  rcases hq1 : w.writeSamples sampI32 xs with ⟨q1, w1⟩
  rw [hq1] at g1 g2
  simp only [List.nil_append] at g1 g2
  subst g1
  obtain ⟨f1, f2, _, _⟩ := g2.flush h (by omega)
    (by rw [hlen, Nat.mul_div_cancel _ hbp]; exact Nat.mod_eq_zero_of_dvd hframe)
  rcases hq2 : w1.flush with ⟨q2, w2⟩
  rw [hq2] at f1 f2
  simp only at f1 f2
  subst f1
  obtain ⟨k1, k2, _, _⟩ := f2.writeSamples c ys hy (by omega)
  rcases hq3 : w2.writeSamples sampI32 ys with ⟨q3, w3⟩
  rw [hq3] at k1 k2
  simp only at k1 k2
  subst k1
  refine ⟨w, w1, w2, w3, hw, hq1, hq2, hq3, ?_⟩
  intro m hm
  rw [f2.out] at hm
  simp only [List.length_append, header_length] at hm
  obtain ⟨rd, hd, ho, rr, _⟩ := open_eq (enc := sampleBytes s.bits) h
    (headerLen s + (xs.flatMap (sampleBytes s.bits)).length - 8) [] []
    (by simp) (by simp) xs
    ((ys.flatMap (sampleBytes s.bits)).take (m - (headerLen s + (xs.flatMap (sampleBytes s.bits)).length)))
    (fun x hx' => c.len x (hx x hx')) hframe (by omega)
  rw [← file_eq_fileWith] at ho
  refine ⟨rd, ?_, ?_, rr.num, rr.collect c' hx⟩
  · rw [k2.out]
    simp only
    rw [← List.append_assoc, List.take_append, List.take_of_length_le (by simp only [List.length_append, header_length]; omega)]
    simp only [List.length_append, header_length]
    exact ho
  · unfold Reader.spec; rw [rr.specx]

example : Supported ⟨2, 44100, 16, .int⟩ ∧ (2 : Nat) ∣ [(1 : Int), 2].length ∧
    FileFits ⟨2, 44100, 16, .int⟩ ([(1 : Int), 2].length + [(3 : Int), 4, 5].length) :=
  ⟨⟨by decide, by decide, by decide, by decide, by decide, by decide⟩, by decide, by unfold FileFits; decide⟩

/-! ## C07 -/
theorem append_rep {s : WavSpec} (h : Supported s) (hd dat : Bytes) (n : Nat)
    (hh : (do let _ ← readWaveHeader; readUntilData : Rd _) (hd ++ dat) =
      (.ok ({ specx := some ⟨s, s.bits / 8⟩ }, dat.length), dat))
    (hdat : dat.length = n * (s.bits / 8)) (hframe : s.channels ∣ n)
    (hdl : 4 ≤ hd.length ∧ hd.length < 2 ^ 32) (hlt : dat.length < 2 ^ 32) :
    Writer.newAppend ⟨hd ++ dat, 0⟩ = .ok
      { spec := s, bytesPerSample := s.bits / 8, out := ⟨hd ++ dat, hd.length + dat.length⟩,
        dataBytes := dat.length, finalized := false, swBuf := [], dataLenOffset := hd.length - 4 } := by
  have hrun := Cursor.run_append (hd := []) hh
  simp only [List.nil_append, List.length_nil, Nat.zero_add] at hrun
  have hb := h.bits_ok
  have hbp := Supported.bps_pos h
  have hcp := h.ch_pos
  unfold Writer.newAppend readAppend
  rw [hrun]
  simp only [subU32, divP, mulU32, modP]
  rw [Nat.mod_eq_of_lt hdl.2, if_pos hdl.1]
  simp only [Res.ok_bind]
  rw [if_neg (by omega)]
  simp only [Res.ok_bind]
  rw [hdat, Nat.mul_div_cancel _ hbp, if_pos (by omega)]
  simp only [Res.ok_bind]
  rw [if_neg (by simp)]
  rw [if_neg (by omega)]
  rw [if_neg (by omega)]
  simp only [Res.ok_bind]
  rw [if_neg (by simp [Nat.mod_eq_zero_of_dvd hframe])]
  rfl

theorem append_aux {α : Type} {S : SampleImpl α} {P : α → Prop} {enc : α → Bytes} {s : WavSpec}
    {fmt : SampleFormat} (h : Supported s) (c : Codes S fmt s.bits P enc) (xs ys : List α)
    (hx : ∀ x ∈ xs, P x) (hy : ∀ y ∈ ys, P y)
    (hfx : s.channels ∣ xs.length) (hfy : s.channels ∣ ys.length)
    (hsize : FileFits s (xs.length + ys.length)) :
    ∃ file, record S s xs = .ok file ∧ append S file ys = record S s (xs ++ ys) ∧
      record S s (xs ++ ys) = .ok (Spec.file s ((xs ++ ys).flatMap enc)) := by
  have hl := headerLen_ge s
  have hbp := Supported.bps_pos h
  unfold FileFits at hsize
  have hs' := hsize
  rw [Nat.add_mul] at hsize
  have hall : ∀ z ∈ xs ++ ys, P z := by
    intro z hz; rcases List.mem_append.mp hz with h | h; exact hx z h; exact hy z h
  have hlx := flatMap_length enc (s.bits / 8) xs (fun x hx' => c.len x (hx x hx'))
  have hly := flatMap_length enc (s.bits / 8) ys (fun x hx' => c.len x (hy x hx'))
  have hrec := record_eq h c xs hx hfx (by omega)
  have hrec2 := record_eq h c (xs ++ ys) hall (by simpa using Nat.dvd_add hfx hfy)
    (by rw [List.length_append]; omega)
  refine ⟨_, hrec, ?_, hrec2⟩
  rw [hrec2]
  have hp := parse_eq h (headerLen s + (xs.flatMap enc).length - 8) [] [] (by simp) (by simp)
    (xs.flatMap enc).length (by omega) (xs.flatMap enc)
  simp only [List.flatMap_nil, List.append_nil] at hp
  have hap := append_rep h (header s (headerLen s + (xs.flatMap enc).length - 8) (xs.flatMap enc).length)
    (xs.flatMap enc) xs.length hp hlx hfx (by rw [header_length]; omega) (by omega)
  rw [header_length] at hap
  obtain ⟨w0, hw0, hrep⟩ : ∃ w0, Writer.newAppend ⟨Spec.file s (xs.flatMap enc), 0⟩ = .ok w0 ∧
      Rep w0 s (headerLen s + (xs.flatMap enc).length - 8) (xs.flatMap enc).length (xs.flatMap enc) :=
    ⟨_, hap, ⟨rfl, rfl, rfl, rfl, rfl⟩⟩
  unfold append
  rw [hw0]
  simp only [Res.ok_bind]
  obtain ⟨k1, k2, _, _⟩ := hrep.writeSamples c ys hy (by omega)
  rcases hq3 : Writer.writeSamples S w0 ys with ⟨q3, w3⟩
  rw [hq3] at k1 k2
  simp only at k1 k2
  subst k1
  simp only
  obtain ⟨h4, h5⟩ := k2.finalize h (by rw [List.length_append]; omega)
  rw [List.length_append, hlx, hly, ← Nat.add_mul, Nat.mul_div_cancel _ hbp,
    if_pos (Nat.mod_eq_zero_of_dvd (Nat.dvd_add hfx hfy))] at h4
  rcases hq' : w3.finalize with ⟨q, w2⟩
  rw [hq'] at h4 h5
  simp only at h4 h5
  subst h4
  simp only [h5]
  rw [List.flatMap_append]

/-- **C07.** Appending to a finished file gives byte for byte the file written in one go. -/
theorem C07_append_eq (s : WavSpec) (h : Supported s) (xs ys : List Int)
    (hx : ∀ x ∈ xs, Fits s.bits x) (hy : ∀ y ∈ ys, Fits s.bits y)
    (hfx : s.channels ∣ xs.length) (hfy : s.channels ∣ ys.length)
    (hsize : FileFits s (xs.length + ys.length)) :
    ∃ file whole, record sampI32 s xs = .ok file ∧ append sampI32 file ys = .ok whole ∧
      record sampI32 s (xs ++ ys) = .ok whole := by
  obtain ⟨f, h1, h2, h3⟩ := append_aux h (codesI32 s.bits h.bits_ok) xs ys hx hy hfx hfy hsize
  exact ⟨f, _, h1, by rw [h2, h3], h3⟩

/-- **C07** for floats. -/
theorem C07_append_eq_float (s : WavSpec) (h : Supported s) (hfl : s.fmt = .float) (xs ys : List Nat)
    (hx : ∀ x ∈ xs, x < 2 ^ 32) (hy : ∀ y ∈ ys, y < 2 ^ 32)
    (hfx : s.channels ∣ xs.length) (hfy : s.channels ∣ ys.length)
    (hsize : FileFits s (xs.length + ys.length)) :
    ∃ file whole, record sampF32 s xs = .ok file ∧ append sampF32 file ys = .ok whole ∧
      record sampF32 s (xs ++ ys) = .ok whole := by
  have c : Codes sampF32 .float s.bits (fun u => u < 2 ^ 32) (le 4) := by
    rw [h.float_ok hfl]; exact codesF32
  obtain ⟨f, h1, h2, h3⟩ := append_aux h c xs ys hx hy hfx hfy hsize
  exact ⟨f, _, h1, by rw [h2, h3], h3⟩

example : (2 : Nat) ∣ [(1 : Int), 2].length ∧ (2 : Nat) ∣ [(3 : Int), 4, 5, 6].length := by decide

/-! ## C15 -/
theorem Cursor.writeAll_append (c : Cursor) (a b : Bytes) (h : c.pos ≤ c.data.length) :
    (c.writeAll a).writeAll b = c.writeAll (a ++ b) := by
  unfold Cursor.writeAll
  have e0 : c.pos - c.data.length = 0 := by omega
  simp only [e0, List.replicate_zero, List.append_nil, List.length_append]
  have hl : (List.take c.pos c.data ++ a).length = c.pos + a.length := by simp [h]
  simp only [List.length_take, List.length_drop]
  rw [show c.pos + a.length - (min c.pos c.data.length + a.length + (c.data.length - (c.pos + a.length))) = 0 by
    omega]
  simp only [List.replicate_zero, List.append_nil]
  rw [List.take_left' hl]
  congr 1
  · rw [List.append_assoc (List.take c.pos c.data) a b]
    congr 1
    rw [List.drop_append, hl, List.drop_eq_nil_of_le (by rw [hl]; omega), List.nil_append, List.drop_drop]
    congr 1; omega
  · omega

theorem writeSamples_i16 (xs : List Int) : ∀ (w : Writer), w.spec.bits = 16 → w.bytesPerSample = 2 →
    w.out.pos ≤ w.out.data.length →
    w.dataBytes + 2 * xs.length < 2 ^ 32 → xs ≠ [] →
    w.writeSamples sampI16 xs =
      (.ok (), { w with out := w.out.writeAll (xs.flatMap leI16), dataBytes := w.dataBytes + 2 * xs.length }) := by
  induction xs with
  | nil => intro w _ _ _ _ h; exact absurd rfl h
  | cons x xs ih =>
    intro w hb hbp hpos hlt _
    have hone : w.writeSample sampI16 x =
        (.ok (), { w with out := w.out.writeAll (leI16 x), dataBytes := w.dataBytes + 2 }) := by
      unfold Writer.writeSample
      rw [hb, hbp]
      simp only [sampI16, addU32]
      rw [if_pos (by simp at hlt; omega)]
    unfold Writer.writeSamples
    rw [hone]
    simp only
    by_cases hx : xs = []
    · subst hx; simp [Writer.writeSamples]
    · rw [ih { w with out := w.out.writeAll (leI16 x), dataBytes := w.dataBytes + 2 } hb hbp ?_
        (by simp at hlt ⊢; omega) hx]
      · simp only
        rw [Cursor.writeAll_append _ _ _ hpos]
        simp only [List.flatMap_cons, List.length_cons]
        congr 2; omega
      · unfold Cursor.writeAll; simp; omega

/-- Stream, byte count, spec, header bookkeeping and finalization flag: everything of the writer except the
private scratch buffer. -/
def SameObservable (w v : Writer) : Prop :=
  w.spec = v.spec ∧ w.bytesPerSample = v.bytesPerSample ∧ w.out = v.out ∧ w.dataBytes = v.dataBytes ∧
    w.finalized = v.finalized ∧ w.dataLenOffset = v.dataLenOffset

/-- **C15.** A batch of `n` samples, filled and flushed, leaves the writer in the same observable state as
`n` calls of `write_sample` — for every content of the uninitialised scratch buffer. -/
theorem C15_batch_eq (w : Writer) (xs : List Int) (junk : Nat → UInt8)
    (hfmt : w.spec.fmt = .int) (hb : w.spec.bits = 16) (hbp : w.bytesPerSample = 2)
    (hpos : w.out.pos ≤ w.out.data.length) (hlt : w.dataBytes + 2 * xs.length < 2 ^ 32) :
    ∃ sw sw' w', w.getI16Writer xs.length junk = .ok sw ∧ sw.writeSamples sampI16 xs = .ok sw' ∧
      sw'.flush = .ok w' ∧ (w.writeSamples sampI16 xs).1 = .ok () ∧
      SameObservable w' (w.writeSamples sampI16 xs).2 := by
  unfold Writer.getI16Writer
  rw [if_neg (by simp [hfmt]), if_neg (by simp [hb])]
  simp only
  generalize hst : (if w.swBuf.length < xs.length * 2 then (List.range (xs.length * 2)).map junk else w.swBuf) = st
  have hstl : xs.length * 2 ≤ st.length := by
    rw [← hst]; split
    · simp
    · omega
  have hbl : (st.take (xs.length * 2)).length = xs.length * 2 := by simp; omega
  have hm := SW16.write_many (parent := { w with swBuf := st }) xs [] (st.take (xs.length * 2)) 0 rfl (by omega)
  rw [List.nil_append, List.drop_eq_nil_of_le (by omega)] at hm
  have hfl : (xs.flatMap leI16).length = xs.length * 2 := flatMap_length leI16 2 xs (fun _ _ => rfl)
  refine ⟨_, _, { w with swBuf := xs.flatMap leI16 ++ st.drop (xs.length * 2),
                         out := w.out.writeAll (xs.flatMap leI16), dataBytes := w.dataBytes + xs.length * 2 },
    rfl, hm, ?_, ?_⟩
  · unfold SW16.flush
    simp only [List.nil_append, List.append_nil, Nat.zero_add]
    rw [if_neg (by rw [hfl]; omega)]
    simp only [addU32]
    rw [hfl, if_pos (by omega)]
    rfl
  · by_cases hx : xs = []
    · subst hx
      simp only [Writer.writeSamples, List.flatMap_nil, List.length_nil, Nat.zero_mul, Nat.add_zero]
      refine ⟨trivial, rfl, rfl, ?_, rfl, rfl, rfl⟩
      unfold Cursor.writeAll
      have e0 : w.out.pos - w.out.data.length = 0 := by omega
      simp [e0]
    · rw [writeSamples_i16 xs w hb hbp hpos hlt hx]
      exact ⟨rfl, rfl, rfl, rfl, by simp only; omega, rfl, rfl⟩

/-- **C15**, misuse: a batch flushed before it is full panics, and so does one sample too many; in neither
case are bytes emitted. -/
theorem C15_batch_misuse_panics (w : Writer) (n : Nat) (xs : List Int) (y : Int) (junk : Nat → UInt8)
    (hfmt : w.spec.fmt = .int) (hb : w.spec.bits = 16) :
    ∃ sw, w.getI16Writer n junk = .ok sw ∧
      (xs.length < n → ∃ sw', sw.writeSamples sampI16 xs = .ok sw' ∧ (sw'.flush).isPanic = true) ∧
      (xs.length = n → ∃ sw', sw.writeSamples sampI16 xs = .ok sw' ∧ (sw'.writeSample sampI16 y).isPanic = true) := by
  unfold Writer.getI16Writer
  rw [if_neg (by simp [hfmt]), if_neg (by simp [hb])]
  simp only
  generalize hst : (if w.swBuf.length < n * 2 then (List.range (n * 2)).map junk else w.swBuf) = st
  have hstl : n * 2 ≤ st.length := by
    rw [← hst]; split
    · simp
    · omega
  have hbl : (st.take (n * 2)).length = n * 2 := by simp; omega
  have hfl : (xs.flatMap leI16).length = xs.length * 2 := flatMap_length leI16 2 xs (fun _ _ => rfl)
  refine ⟨_, rfl, ?_, ?_⟩
  · intro hn
    have hm := SW16.write_many (parent := { w with swBuf := st }) xs [] (st.take (n * 2)) 0 rfl (by omega)
    rw [List.nil_append] at hm
    refine ⟨_, hm, ?_⟩
    unfold SW16.flush
    rw [if_pos (by simp only [List.nil_append, List.length_append, hfl, List.length_drop, hbl]; omega)]
    rfl
  · intro hn
    have hm := SW16.write_many (parent := { w with swBuf := st }) xs [] (st.take (n * 2)) 0 rfl (by omega)
    rw [List.nil_append, List.drop_eq_nil_of_le (by omega)] at hm
    refine ⟨_, hm, ?_⟩
    unfold SW16.writeSample
    simp only [List.nil_append, List.append_nil, hfl]
    by_cases h2 : xs.length * 2 < 2
    · rw [if_pos h2]; rfl
    · rw [if_neg h2, if_neg (by omega)]; rfl

/-- **C15**: `get_i16_writer` panics for any other sample format or depth. -/
theorem C15_wrong_format_panics (w : Writer) (n : Nat) (junk : Nat → UInt8)
    (h : w.spec.fmt ≠ .int ∨ w.spec.bits ≠ 16) : (w.getI16Writer n junk).isPanic = true := by
  unfold Writer.getI16Writer
  by_cases hf : w.spec.fmt = .int
  · rw [if_neg (by simp [hf])]
    rcases h with h | h
    · exact absurd hf h
    · rw [if_pos h]; rfl
  · rw [if_pos hf]; rfl

/-- Non-vacuity of C15: a new 16-bit stereo writer meets the hypotheses. -/
example : ∃ w, Writer.new Cursor.empty ⟨2, 44100, 16, .int⟩ = .ok w ∧ w.spec.fmt = .int ∧ w.spec.bits = 16 ∧
    w.bytesPerSample = 2 ∧ w.out.pos ≤ w.out.data.length ∧ w.dataBytes + 2 * 1000 < 2 ^ 32 :=
  ⟨_, Writer.new_eq ⟨by decide, by decide, by decide, by decide, by decide, by decide⟩, rfl, rfl, rfl,
    by rw [header_length]; exact Nat.le_refl _, by decide⟩

/-! ## C16 -/
/-- **C16.** For each depth: an accepted value is encoded in exactly that many bytes, and decoding these
bytes (with anything after them) gives it back and consumes exactly them. -/
theorem C16_codec_exact (bits : Nat) (hb : bits = 8 ∨ bits = 16 ∨ bits = 24 ∨ bits = 32) (x : Int)
    (hx : Fits bits x) (rest : Bytes) :
    ∃ bs, sampI32.write x bits = .ok bs ∧ bs.length = bits / 8 ∧
      sampI32.read .int (bits / 8) bits (bs ++ rest) = (.ok x, rest) :=
  have c := codesI32 bits hb
  ⟨_, c.write x hx, c.len x hx, c.read x hx rest⟩

/-- **C16**, the other half: a number that does not fit the width is refused (never truncated), so the codec
is defined exactly on the numbers of that width. -/
theorem C16_too_wide_refused (bits : Nat) (hb : bits = 8 ∨ bits = 16 ∨ bits = 24) (x : Int)
    (hx : ¬ Fits bits x) : sampI32.write x bits = .err .tooWide := by
  unfold Fits at hx
  rcases hb with h | h | h <;> subst h <;> simp only [sampI32, narrowI8, narrowI16, narrowI24] <;>
    (rw [if_pos (by simp at hx ⊢; omega)]; rfl)

/-- **C16**, 8-bit offset conversion is a bijection between bytes and signed 8-bit numbers. -/
theorem C16_offset_bijection :
    (∀ b : UInt8, Fits 8 (signedFromU8 b.toNat) ∧ u8FromSigned (signedFromU8 b.toNat) = b) ∧
    (∀ x, Fits 8 x → signedFromU8 (u8FromSigned x).toNat = x) := by
  constructor
  · intro b
    have hb : b.toNat < 256 := b.toNat_lt
    have e : signedFromU8 b.toNat = (b.toNat : Int) - 128 := by
      unfold signedFromU8 asI8; split <;> omega
    rw [e]
    refine ⟨by unfold Fits; omega, ?_⟩
    unfold u8FromSigned
    have : (((b.toNat : Int) - 128 + 128) % 256).toNat = b.toNat := by omega
    rw [this]; simp
  · intro x hx
    unfold Fits at hx
    rw [u8FromSigned_eq x (by omega)]
    exact signed_u8 x (by omega)

/-- **C16** for floats. -/
theorem C16_codec_exact_float (u : Nat) (hu : u < 2 ^ 32) (rest : Bytes) :
    ∃ bs, sampF32.write u 32 = .ok bs ∧ bs.length = 4 ∧ sampF32.read .float 4 32 (bs ++ rest) = (.ok u, rest) :=
  ⟨_, codesF32.write u hu, codesF32.len u hu, codesF32.read u hu rest⟩

example : Fits 24 (-(2 ^ 23)) ∧ Fits 8 127 := by decide
end Verif
