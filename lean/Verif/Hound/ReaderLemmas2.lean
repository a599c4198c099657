import Verif.Hound.ReaderLemmas
/-! Opening specified files, and the reader's position invariant. -/
namespace Verif.Hound
open Spec (le sampleBytes Fits Supported header headerLen needsExt frameBytes fmtChunk Chunk fileWith)

theorem chunkKind_unknown {id : Bytes} (h : ∀ k ∈ Spec.knownIds, id ≠ Spec.ascii k) :
    chunkKind id = .unknown := by
  simp only [Spec.knownIds, List.mem_cons, List.not_mem_nil, or_false, forall_eq_or_imp, forall_eq] at h
  obtain ⟨h1, h2, h3, h4, h5, h6, h7, h8, h9⟩ := h
  have e1 : Spec.ascii "fmt " = tagFmt := by decide
  have e2 : Spec.ascii "fact" = tagFact := by decide
  have e3 : Spec.ascii "data" = tagData := by decide
  have e4 : Spec.ascii "clm " = tagClm := by decide
  have e5 : Spec.ascii "uhWT" = tagUhwt := by decide
  have e6 : Spec.ascii "srge" = tagSrge := by decide
  have e7 : Spec.ascii "srgo" = tagSrgo := by decide
  have e8 : Spec.ascii "cue " = tagCue := by decide
  have e9 : Spec.ascii "smpl" = tagSmpl := by decide
  rw [e1] at h1; rw [e2] at h2; rw [e3] at h3; rw [e4] at h4; rw [e5] at h5; rw [e6] at h6
  rw [e7] at h7; rw [e8] at h8; rw [e9] at h9
  unfold chunkKind
  simp only [h1, h2, h3, h4, h5, h6, h7, h8, h9, if_false]

theorem untilData_skip (acc : SurgeSpec) (cs : List Chunk) (h : ∀ c ∈ cs, c.Unknown) (rest : Bytes) :
    untilData acc (cs.flatMap Chunk.bytes ++ rest) = untilData acc rest := by
  induction cs with
  | nil => simp
  | cons c cs ih =>
    have hc := h c (by simp)
    have := chunkStep_unknown acc c.id c.body (cs.flatMap Chunk.bytes ++ rest) hc.idLen
      (chunkKind_unknown hc.notKnown) hc.bodyLen
    simp only [List.flatMap_cons, Chunk.bytes, List.append_assoc]
    rw [untilData_inl this]
    exact ih (fun c hc => h c (by simp [hc]))

theorem readWaveHeader_eq (a : Nat) (rest : Bytes) :
    ∃ n, readWaveHeader (Spec.ascii "RIFF" ++ (le 4 a ++ (Spec.ascii "WAVE" ++ rest))) = (.ok n, rest) := by
  unfold readWaveHeader
  rw [Rd.bind_ok (readBytes_append _ _ _ (by decide)), if_neg (by decide)]
  rw [show le 4 a = le 4 (a % 256 ^ 4) from (le_mod 4 a).symm]
  have hlt : a % 256 ^ 4 < 4294967296 := Nat.mod_lt _ (by decide)
  rw [Rd.bind_ok (readU32_le _ hlt _), Rd.bind_ok (readBytes_append _ _ _ (by decide)),
    if_neg (by decide)]
  exact ⟨_, rfl⟩

/-- What parsing the head of a specified file yields. -/
theorem parse_eq {s : WavSpec} (h : Supported s) (riff : Nat) (pre mid : List Chunk)
    (hpre : ∀ c ∈ pre, c.Unknown) (hmid : ∀ c ∈ mid, c.Unknown) (n : Nat) (hn : n < 2 ^ 32) (rest : Bytes) :
    (do let _ ← readWaveHeader; readUntilData : Rd _)
      (Spec.ascii "RIFF" ++ le 4 riff ++ Spec.ascii "WAVE" ++ pre.flatMap Chunk.bytes ++ fmtChunk s ++
        mid.flatMap Chunk.bytes ++ Spec.ascii "data" ++ le 4 n ++ rest) =
      (.ok ({ specx := some ⟨s, s.bits / 8⟩ }, n), rest) := by
  simp only [List.append_assoc]
  obtain ⟨m, hm⟩ := readWaveHeader_eq riff (pre.flatMap Chunk.bytes ++ (fmtChunk s ++
    (mid.flatMap Chunk.bytes ++ (Spec.ascii "data" ++ (le 4 n ++ rest)))))
  rw [Rd.bind_ok hm, readUntilData_eq, untilData_skip _ _ hpre,
    untilData_inl (readFmtChunk_eq h _), untilData_skip _ _ hmid,
    untilData_inr (chunkStep_data _ n rest hn)]

/-- A reader over a file whose data chunk holds `xs` encoded by `enc`, `k` samples into it. -/
structure RRep {α} (r : Reader) (s : WavSpec) (enc : α → Bytes) (hd : Bytes) (xs : List α) (tail : Bytes)
    (k : Nat) : Prop where
  specx : r.specx = ⟨s, s.bits / 8⟩
  bps : r.bytesPerSample = s.bits / 8
  num : r.numSamples = xs.length
  read : r.samplesRead = k
  data : r.cur.data = hd ++ xs.flatMap enc ++ tail
  pos : r.cur.pos = hd.length + k * (s.bits / 8)

theorem Cursor.run_append {α} {m : Rd α} {hd body rest : Bytes} {a : α}
    (h : m (body ++ rest) = (.ok a, rest)) :
    (Cursor.mk (hd ++ (body ++ rest)) hd.length).run m =
      (.ok a, ⟨hd ++ (body ++ rest), hd.length + body.length⟩) := by
  have e : List.drop hd.length (hd ++ (body ++ rest)) = body ++ rest := List.drop_left
  unfold Cursor.run
  simp only [e, h, List.length_append]
  congr 2; omega

theorem open_eq {α} {s : WavSpec} {enc : α → Bytes} (h : Supported s) (riff : Nat) (pre mid : List Chunk)
    (hpre : ∀ c ∈ pre, c.Unknown) (hmid : ∀ c ∈ mid, c.Unknown) (xs : List α) (tail : Bytes)
    (hlen : ∀ x ∈ xs, (enc x).length = s.bits / 8) (hframe : s.channels ∣ xs.length)
    (hlt : xs.length * (s.bits / 8) < 2 ^ 32) :
    ∃ r hd, openBytes (fileWith s riff pre mid (xs.flatMap enc) tail) = .ok r ∧
      RRep r s enc hd xs tail 0 ∧ r.surge = { specx := some ⟨s, s.bits / 8⟩ } := by
  have hl := flatMap_length enc (s.bits / 8) xs hlen
  have hp := parse_eq h riff pre mid hpre hmid (xs.flatMap enc).length (by omega) (xs.flatMap enc ++ tail)
  generalize hhd : Spec.ascii "RIFF" ++ le 4 riff ++ Spec.ascii "WAVE" ++ pre.flatMap Chunk.bytes ++
    fmtChunk s ++ mid.flatMap Chunk.bytes ++ Spec.ascii "data" ++ le 4 (xs.flatMap enc).length = hd at hp
  have hfile : fileWith s riff pre mid (xs.flatMap enc) tail = hd ++ (xs.flatMap enc ++ tail) := by
    unfold fileWith; rw [hhd, List.append_assoc]
  have hrun := Cursor.run_append (hd := []) hp
  simp only [List.nil_append, List.length_nil, Nat.zero_add] at hrun
  unfold openBytes Reader.new
  rw [hfile, hrun]
  simp only [divP, mulU32, modP]
  have hbp := Supported.bps_pos h
  have hcp := h.ch_pos
  rw [if_neg (by omega)]
  simp only [Res.ok_bind]
  rw [hl, Nat.mul_div_cancel _ hbp, if_pos hlt]
  simp only [Res.ok_bind]
  rw [if_neg (by simp), if_neg (by omega)]
  simp only [Res.ok_bind]
  rw [if_neg (by simp [Nat.mod_eq_zero_of_dvd hframe])]
  refine ⟨_, hd, rfl, ⟨rfl, rfl, rfl, rfl, ?_, ?_⟩, rfl⟩
  · simp
  · simp

theorem flatMap_drop {α} (enc : α → Bytes) (n : Nat) (xs : List α) (h : ∀ x ∈ xs, (enc x).length = n) (k : Nat) :
    (xs.flatMap enc).drop (k * n) = (xs.drop k).flatMap enc := by
  induction k generalizing xs with
  | zero => simp
  | succ k ih =>
    cases xs with
    | nil => simp
    | cons x xs =>
      have hx := h x (by simp)
      rw [List.flatMap_cons, List.drop_append, hx]
      have : (enc x).drop ((k + 1) * n) = [] := List.drop_eq_nil_of_le (by rw [hx, Nat.add_mul]; omega)
      rw [this]
      have e : (k + 1) * n - n = k * n := by rw [Nat.add_mul]; omega
      rw [e, ih xs (fun y hy => h y (by simp [hy]))]
      simp

/-- One successful read. -/
theorem RRep.next {α} {S : SampleImpl α} {P : α → Prop} {enc : α → Bytes} {s : WavSpec} {r : Reader}
    {hd tail : Bytes} {xs : List α} {k : Nat} (c : Codes S s.fmt s.bits P enc) (hP : ∀ x ∈ xs, P x)
    (rr : RRep r s enc hd xs tail k) (hk : k < xs.length) :
    (r.next S).1 = some (.ok (xs[k])) ∧ RRep (r.next S).2 s enc hd xs tail (k + 1) := by
  unfold Reader.next
  rw [rr.read, rr.num, if_pos hk]
  have hlen : ∀ x ∈ xs, (enc x).length = s.bits / 8 := fun x hx => c.len x (hP x hx)
  have hdrop : r.cur.data.drop r.cur.pos = enc (xs[k]) ++ ((xs.drop (k + 1)).flatMap enc ++ tail) := by
    rw [rr.data, rr.pos, List.append_assoc, List.drop_append]
    rw [List.drop_eq_nil_of_le (by omega), Nat.add_sub_cancel_left]
    rw [List.drop_append_of_le_length
      (by rw [flatMap_length enc _ xs hlen]; exact Nat.mul_le_mul_right _ (by omega))]
    rw [flatMap_drop enc _ xs hlen, List.drop_eq_getElem_cons hk, List.flatMap_cons, List.append_assoc, List.nil_append]
  have hx : P (xs[k]) := hP _ (List.getElem_mem hk)
  have hrun : r.cur.run (S.read s.fmt (s.bits / 8) s.bits) =
      (.ok (xs[k]), { r.cur with pos := r.cur.pos + s.bits / 8 }) := by
    unfold Cursor.run
    simp only [hdrop, c.read _ hx, List.length_append, c.len _ hx]
    congr 2; omega
  simp only [rr.specx, rr.bps, hrun]
  refine ⟨trivial, ⟨rfl, rfl, rfl, by simp, rr.data, ?_⟩⟩
  simp only [rr.pos, Nat.add_mul]; omega

theorem RRep.next_end {α} {S : SampleImpl α} {enc : α → Bytes} {s : WavSpec} {r : Reader}
    {hd tail : Bytes} {xs : List α} {k : Nat}
    (rr : RRep r s enc hd xs tail k) (hk : xs.length ≤ k) :
    r.next S = (none, r) := by
  unfold Reader.next
  rw [rr.read, rr.num, if_neg (by omega)]

theorem RRep.take {α} {S : SampleImpl α} {P : α → Prop} {enc : α → Bytes} {s : WavSpec}
    {hd tail : Bytes} {xs : List α} (c : Codes S s.fmt s.bits P enc) (hP : ∀ x ∈ xs, P x) (n : Nat) :
    ∀ {r : Reader} {k : Nat}, RRep r s enc hd xs tail k → k ≤ xs.length →
    (Reader.take S n r).1 = ((xs.drop k).take n).map .ok ∧
      RRep (Reader.take S n r).2 s enc hd xs tail (min (k + n) xs.length) := by
  induction n with
  | zero => intro r k rr hk; simp [Reader.take, Nat.min_eq_left hk]; exact rr
  | succ n ih =>
    intro r k rr hk
    unfold Reader.take
    by_cases hlt : k < xs.length
    · obtain ⟨h1, h2⟩ := rr.next c hP hlt
      generalize r.next S = q at *
      obtain ⟨q1, q2⟩ := q
      simp only at h1 h2
      subst h1
      simp only
      obtain ⟨h3, h4⟩ := ih h2 (by omega)
      rw [List.drop_eq_getElem_cons hlt]
      refine ⟨by simp only [List.take_succ_cons, List.map_cons, h3], ?_⟩
      rw [show k + (n + 1) = k + 1 + n by omega]; exact h4
    · rw [rr.next_end (by omega)]
      have : k = xs.length := by omega
      subst this
      simp
      exact rr

theorem RRep.collect {α} {S : SampleImpl α} {P : α → Prop} {enc : α → Bytes} {s : WavSpec}
    {hd tail : Bytes} {xs : List α} (c : Codes S s.fmt s.bits P enc) (hP : ∀ x ∈ xs, P x)
    {r : Reader} (rr : RRep r s enc hd xs tail 0) : r.collect S = xs.map .ok := by
  unfold Reader.collect
  rw [(rr.take c hP _ (Nat.zero_le _)).1, rr.num]
  simp [List.take_of_length_le]

theorem file_eq_fileWith (s : WavSpec) (d tail : Bytes) :
    Spec.file s d ++ tail = fileWith s (headerLen s + d.length - 8) [] [] d tail := by
  simp [Spec.file, fileWith, header]

end Verif.Hound
