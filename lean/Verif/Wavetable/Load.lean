import Verif.Wavetable.Claims
import Verif.Hound.MoreLemmas
/-! # Loading a wavetable from a WAV file (C84, C85) -/
namespace Verif.Wavetable
open Verif Verif.Float Verif.Hound Verif.Wavetable.Spec
open Verif.Hound.Spec (Supported fmtChunk Fits sampleBytes le ascii)
variable {α : Type}

namespace Spec

/-- A WAV file with a `srge` chunk giving the loop length, then format and data. -/
def srgeFile (s : WavSpec) (riff version loopLen : Nat) (d : Bytes) : Bytes :=
  ascii "RIFF" ++ le 4 riff ++ ascii "WAVE" ++ (ascii "srge" ++ le 4 8 ++ le 4 version ++ le 4 loopLen) ++ fmtChunk s ++
    ascii "data" ++ le 4 d.length ++ d

/-- The same without any chunk about loops. -/
def plainFile (s : WavSpec) (riff : Nat) (d : Bytes) : Bytes :=
  ascii "RIFF" ++ le 4 riff ++ ascii "WAVE" ++ fmtChunk s ++ ascii "data" ++ le 4 d.length ++ d

/-- Sample `s` of wave `t` of the finest level is the sample at `t·len + s`. -/
def Holds (b : Base α) (len : Nat) (xs : List α) : Prop :=
  ∀ t s x, s < len → xs[t * len + s]? = some x → b.data.get 0 t s = .ok x

end Spec

/-! ## Reading -/

theorem next_surge {S : SampleImpl α} (r : Reader) : (r.next S).2.surge = r.surge := by
  unfold Reader.next; split <;> rfl

theorem next_num {S : SampleImpl α} (r : Reader) : (r.next S).2.numSamples = r.numSamples := by
  unfold Reader.next; split <;> rfl

theorem seek_surge (r : Reader) (t : Nat) : (r.seek t).2.surge = r.surge := by
  unfold Reader.seek
  split
  · rfl
  · rfl
  · dsimp only; split <;> rfl

theorem seek_num (r : Reader) (t : Nat) : (r.seek t).2.numSamples = r.numSamples := by
  unfold Reader.seek
  split
  · rfl
  · rfl
  · dsimp only; split <;> rfl

theorem count_eq {S : SampleImpl α} {P : α → Prop} {enc : α → Bytes} {s : WavSpec} {hd tail : Bytes} {xs : List α}
    (c : Codes S s.fmt s.bits P enc) (hP : ∀ x ∈ xs, P x) (fuel : Nat) : ∀ (r : Reader) (k : Nat),
    RRep r s enc hd xs tail k → k ≤ xs.length → xs.length - k < fuel →
    ∃ r', countSamples S fuel r = .ok (xs.length - k, r') ∧ RRep r' s enc hd xs tail xs.length ∧ r'.surge = r.surge ∧
      r'.numSamples = r.numSamples := by
  induction fuel with
  | zero => intro r k _ _ h; omega
  | succ fuel ih =>
    intro r k rr hk hf
    unfold countSamples
    by_cases hlt : k < xs.length
    · obtain ⟨h1, h2⟩ := rr.next c hP hlt
      have hs := next_surge (S := S) r
      have hn := next_num (S := S) r
      generalize r.next S = q at *
      obtain ⟨q1, q2⟩ := q
      simp only at h1 h2 hs hn
      subst h1
      obtain ⟨r', e, g1, g2, g3⟩ := ih q2 (k + 1) h2 (by omega) (by omega)
      refine ⟨r', ?_, g1, by rw [g2, hs], by rw [g3, hn]⟩
      dsimp only
      rw [e, Res.ok_bind]
      dsimp only
      congr 2; omega
    · rw [rr.next_end (by omega)]
      have : k = xs.length := by omega
      subst this
      exact ⟨r, by simp, rr, rfl, rfl⟩

theorem unwrap_eq {S : SampleImpl α} {P : α → Prop} {enc : α → Bytes} {s : WavSpec} {hd tail : Bytes} {xs : List α}
    (c : Codes S s.fmt s.bits P enc) (hP : ∀ x ∈ xs, P x) (fuel : Nat) : ∀ (r : Reader) (k : Nat),
    RRep r s enc hd xs tail k → k ≤ xs.length → xs.length - k < fuel →
    unwrapSamples S fuel r = .ok (xs.drop k) := by
  induction fuel with
  | zero => intro r k _ _ h; omega
  | succ fuel ih =>
    intro r k rr hk hf
    unfold unwrapSamples
    by_cases hlt : k < xs.length
    · obtain ⟨h1, h2⟩ := rr.next c hP hlt
      generalize r.next S = q at *
      obtain ⟨q1, q2⟩ := q
      simp only at h1 h2
      subst h1
      dsimp only
      rw [ih q2 (k + 1) h2 (by omega) (by omega), Res.ok_bind, List.drop_eq_getElem_cons hlt]
    · rw [rr.next_end (by omega)]
      have : k = xs.length := by omega
      subst this
      simp

/-- What is left of `load` once a 16-bit file has been opened and its samples can be read. -/
theorem load_int {s : WavSpec} {hd tail file : Bytes} {xs : List Int} {r : Reader} (ho : openBytes file = .ok r)
    (rr : RRep r s (sampleBytes s.bits) hd xs tail 0) (hfm : s.fmt = .int) (hb : s.bits = 16)
    (hP : ∀ x ∈ xs, Fits 16 x) (hlt : xs.length < 2 ^ 32) :
    load file = (planDim r.surge xs.length >>= fun p =>
      if s.channels ≠ 1 then .panic "assertion failed: channels == spec.specx.unwrap().spec.channels"
      else liftP (Base.new opsI16 p.1 p.2 xs) >>= fun b => .ok (.pcm b)) := by
  have c : Codes sampI16 s.fmt s.bits (Fits s.bits) (sampleBytes s.bits) := by
    rw [hfm]; exact codesI16 s.bits (Or.inr hb)
  have hP' : ∀ x ∈ xs, Fits s.bits x := by rw [hb]; exact hP
  have hspec : r.specx.spec = s := by rw [rr.specx]
  have hnum := rr.num
  obtain ⟨r1, e1, g1, g2, g3⟩ := count_eq c hP' (r.numSamples + 1) r 0 rr (Nat.zero_le _) (by omega)
  obtain ⟨k1, k2⟩ := g1.seek 0 (by simp) hlt
  unfold load
  rw [ho]
  dsimp only
  rw [hspec, hfm]
  dsimp only
  rw [e1, Res.ok_bind]
  have hs := seek_surge r1 0
  have hn := seek_num r1 0
  generalize r1.seek 0 = q at *
  obtain ⟨q1, q2⟩ := q
  simp only at k1 k2 hs hn
  subst k1
  dsimp only
  rw [hs, g2, Nat.sub_zero]
  cases hp : planDim r.surge xs.length with
  | err e => rfl
  | panic w => rfl
  | ok p =>
    rw [Res.ok_bind, Res.ok_bind]
    by_cases hch : s.channels = 1
    · rw [if_neg (by simpa using hch), if_neg (by simp [hb]), if_neg (by simpa using hch)]
      rw [Nat.zero_mul] at k2
      rw [unwrap_eq c hP' (q2.numSamples + 1) q2 0 k2 (Nat.zero_le _) (by rw [k2.num]; omega)]
      rw [Res.ok_bind]
      simp
    · rw [if_pos hch, if_pos hch]

/-- The same for 32-bit floating point files. -/
theorem load_float {s : WavSpec} {hd tail file : Bytes} {xs : List Nat} {r : Reader} (ho : openBytes file = .ok r)
    (rr : RRep r s (le 4) hd xs tail 0) (hfm : s.fmt = .float) (hb : s.bits = 32)
    (hP : ∀ x ∈ xs, x < 2 ^ 32) (hlt : xs.length < 2 ^ 32) :
    load file = (planDim r.surge xs.length >>= fun p =>
      if s.channels ≠ 1 then .panic "assertion failed: channels == spec.specx.unwrap().spec.channels"
      else liftP (Base.new opsF32 p.1 p.2 (xs.map f32OfBits)) >>= fun b => .ok (.ieeeFloat b)) := by
  have c : Codes sampF32 s.fmt s.bits (fun u => u < 2 ^ 32) (le 4) := by
    rw [hfm, hb]; exact codesF32
  have hspec : r.specx.spec = s := by rw [rr.specx]
  have hnum := rr.num
  obtain ⟨r1, e1, g1, g2, g3⟩ := count_eq c hP (r.numSamples + 1) r 0 rr (Nat.zero_le _) (by omega)
  obtain ⟨k1, k2⟩ := g1.seek 0 (by simp) hlt
  unfold load
  rw [ho]
  dsimp only
  rw [hspec, hfm]
  dsimp only
  rw [e1, Res.ok_bind]
  have hs := seek_surge r1 0
  have hn := seek_num r1 0
  generalize r1.seek 0 = q at *
  obtain ⟨q1, q2⟩ := q
  simp only at k1 k2 hs hn
  subst k1
  dsimp only
  rw [hs, g2, Nat.sub_zero]
  cases hp : planDim r.surge xs.length with
  | err e => rfl
  | panic w => rfl
  | ok p =>
    rw [Res.ok_bind, Res.ok_bind]
    by_cases hch : s.channels = 1
    · rw [if_neg (by simpa using hch), if_neg (by simp [hb]), if_neg (by simpa using hch)]
      rw [Nat.zero_mul] at k2
      rw [unwrap_eq c hP (q2.numSamples + 1) q2 0 k2 (Nat.zero_le _) (by rw [k2.num]; omega)]
      rw [Res.ok_bind]
      simp
    · rw [if_pos hch, if_pos hch]

/-- Opening a file from what parsing its head yields. -/
theorem open_of_parse {s : WavSpec} {enc : α → Bytes} (h : Supported s) (surge : SurgeSpec)
    (hsx : surge.specx = some ⟨s, s.bits / 8⟩) (hd : Bytes) (xs : List α)
    (hp : (do let _ ← readWaveHeader; readUntilData : Rd _) (hd ++ xs.flatMap enc) =
      (.ok (surge, (xs.flatMap enc).length), xs.flatMap enc))
    (hlen : ∀ x ∈ xs, (enc x).length = s.bits / 8) (hframe : s.channels ∣ xs.length)
    (hlt : xs.length * (s.bits / 8) < 2 ^ 32) :
    ∃ r, openBytes (hd ++ xs.flatMap enc) = .ok r ∧ RRep r s enc hd xs [] 0 ∧ r.surge = surge := by
  have hl := flatMap_length enc (s.bits / 8) xs hlen
  have hrun := Cursor.run_append (hd := []) hp
  simp only [List.nil_append, List.length_nil, Nat.zero_add] at hrun
  unfold openBytes Reader.new
  rw [hrun]
  dsimp only
  rw [hsx]
  simp only [divP, mulU32, modP]
  have hbp := Supported.bps_pos h
  have hcp := h.ch_pos
  rw [if_neg (by omega)]
  simp only [Res.ok_bind]
  rw [hl, Nat.mul_div_cancel _ hbp, if_pos hlt]
  simp only [Res.ok_bind]
  rw [if_neg (by simp), if_neg (by omega)]
  simp only [Res.ok_bind]
  rw [if_neg (by simp [Nat.mod_eq_zero_of_dvd hframe])]
  refine ⟨_, rfl, ⟨rfl, rfl, rfl, rfl, ?_, ?_⟩, rfl⟩
  · simp
  · simp

theorem chunkStep_srge (acc : SurgeSpec) (v n : Nat) (hv : v < 2 ^ 31) (hn : n < 2 ^ 31) (rest : Bytes) :
    chunkStep acc (ascii "srge" ++ (le 4 8 ++ (le 4 v ++ (le 4 n ++ rest)))) =
      (.ok (.inl { acc with srge := some ((n : Int), (v : Int)) }), rest) := by
  rw [chunkStep_eq, Rd.bind_ok (readChunkHeader_append _ _ _ (by decide) (by decide))]
  have k : chunkKind (ascii "srge") = .srge := by decide
  simp only [k, chunkBody]
  have e : ∀ x : Nat, x < 2 ^ 31 → le 4 x = le 4 (asU32 (x : Int)) := by
    intro x hx; congr 1; unfold asU32; omega
  rw [e v hv, e n hn]
  rw [Rd.bind_ok (s' := rest) (a := ((n : Int), (v : Int)))]
  · rfl
  · unfold readSrgChunk
    rw [Rd.bind_ok (readI32_le _ (by omega) _), Rd.bind_ok (readI32_le _ (by omega) _)]
    have : (Rd.lift (subU32 8 8) : Rd Nat) rest = (.ok 0, rest) := rfl
    rw [Rd.bind_ok this]
    have := skipBytes_append [] rest 0 rfl
    rw [List.nil_append] at this
    rw [Rd.bind_ok this]; rfl

theorem open_srge {s : WavSpec} {enc : α → Bytes} (h : Supported s) (riff v n : Nat) (hv : v < 2 ^ 31) (hn : n < 2 ^ 31)
    (xs : List α) (hlen : ∀ x ∈ xs, (enc x).length = s.bits / 8) (hframe : s.channels ∣ xs.length)
    (hlt : xs.length * (s.bits / 8) < 2 ^ 32) :
    ∃ r hd, openBytes (srgeFile s riff v n (xs.flatMap enc)) = .ok r ∧ RRep r s enc hd xs [] 0 ∧
      r.surge = { specx := some ⟨s, s.bits / 8⟩, srge := some ((n : Int), (v : Int)) } := by
  have hl := flatMap_length enc (s.bits / 8) xs hlen
  unfold srgeFile
  obtain ⟨m, hm⟩ := readWaveHeader_eq riff (ascii "srge" ++ (le 4 8 ++ (le 4 v ++ (le 4 n ++ (fmtChunk s ++
    (ascii "data" ++ (le 4 (xs.flatMap enc).length ++ xs.flatMap enc)))))))
  obtain ⟨r, g1, g2, g3⟩ := open_of_parse h { specx := some ⟨s, s.bits / 8⟩, srge := some ((n : Int), (v : Int)) } rfl
    (ascii "RIFF" ++ le 4 riff ++ ascii "WAVE" ++ (ascii "srge" ++ le 4 8 ++ le 4 v ++ le 4 n) ++ fmtChunk s ++
      ascii "data" ++ le 4 (xs.flatMap enc).length) xs (by
      simp only [List.append_assoc] at hm ⊢
      rw [Rd.bind_ok hm, readUntilData_eq, untilData_inl (chunkStep_srge {} v n hv hn _),
        untilData_inl (readFmtChunk_eq h _), untilData_inr (chunkStep_data _ _ _ (by omega))]) hlen hframe hlt
  exact ⟨r, _, g1, g2, g3⟩

theorem open_plain {s : WavSpec} {enc : α → Bytes} (h : Supported s) (riff : Nat)
    (xs : List α) (hlen : ∀ x ∈ xs, (enc x).length = s.bits / 8) (hframe : s.channels ∣ xs.length)
    (hlt : xs.length * (s.bits / 8) < 2 ^ 32) :
    ∃ r hd, openBytes (plainFile s riff (xs.flatMap enc)) = .ok r ∧ RRep r s enc hd xs [] 0 ∧
      r.surge = { specx := some ⟨s, s.bits / 8⟩ } := by
  have hl := flatMap_length enc (s.bits / 8) xs hlen
  unfold plainFile
  obtain ⟨m, hm⟩ := readWaveHeader_eq riff (fmtChunk s ++
    (ascii "data" ++ (le 4 (xs.flatMap enc).length ++ xs.flatMap enc)))
  obtain ⟨r, g1, g2, g3⟩ := open_of_parse h { specx := some ⟨s, s.bits / 8⟩ } rfl
    (ascii "RIFF" ++ le 4 riff ++ ascii "WAVE" ++ fmtChunk s ++
      ascii "data" ++ le 4 (xs.flatMap enc).length) xs (by
      simp only [List.append_assoc] at hm ⊢
      rw [Rd.bind_ok hm, readUntilData_eq, 
        untilData_inl (readFmtChunk_eq h _), untilData_inr (chunkStep_data _ _ _ (by omega))]) hlen hframe hlt
  exact ⟨r, _, g1, g2, g3⟩

/-! ## Dimensions -/

theorem loopShift_pow2 (k : Nat) (h1 : 1 ≤ k) (h2 : k ≤ 12) : loopShift true ((2 ^ k : Nat) : Int) = (k, false) := by
  have : ∀ k, k < 13 → 1 ≤ k → loopShift true ((2 ^ k : Nat) : Int) = (k, false) := by decide
  exact this k (by omega) h1

/-- The plan for a file whose `srge` chunk gives a loop of `2^k` samples. -/
theorem plan_srge (sx : Option WavSpecEx) (v : Int) (k n : Nat) (h1 : 1 ≤ k) (h2 : k ≤ 12) (hn : 3 * 2 ^ k ≤ n) (hn2 : n < 2 ^ 31) :
    planDim { specx := sx, srge := some (((2 ^ k : Nat) : Int), v) } n =
      .ok (false, ⟨k, min 512 (min n 2097152 / 2 ^ k), 2 ^ k⟩) := by
  have hk : 2 ^ k ≤ 2 ^ 12 := Nat.pow_le_pow_right (by omega) h2
  have hp : 0 < 2 ^ k := by positivity
  unfold planDim getLoopLen
  dsimp only [Option.isSome]
  rw [if_neg (by omega), Res.ok_bind]
  dsimp only
  rw [show (false || false || true) = true from rfl, loopShift_pow2 k h1 h2]
  dsimp only
  have hu : asUsize ((2 ^ k : Nat) : Int) = 2 ^ k := by
    unfold asUsize; rw [Int.emod_eq_of_lt (by omega) (by omega)]; rfl
  rw [hu]
  have hc3 : 3 ≤ n / 2 ^ k := by rw [Nat.le_div_iff_mul_le hp]; exact hn
  have hcl : n / 2 ^ k ≤ n := Nat.div_le_self _ _
  rw [asI32_small (show n / 2 ^ k < 2 ^ 31 by omega), asI32_small hn2, if_neg (by omega)]
  rw [if_neg (by decide), Res.ok_bind, C81_levels_pow2 k h1 (by omega)]
  dsimp only
  have e : min (n : Int) ((maxWavetableSize * maxSubtables : Nat) : Int) = ((min n 2097152 : Nat) : Int) := by
    have : maxWavetableSize * maxSubtables = 2097152 := by decide
    rw [this]; omega
  rw [e]
  have e2 : asUsize (((min n 2097152 : Nat) : Int) / 2 ^ k) = min n 2097152 / 2 ^ k := by
    have : (((min n 2097152 : Nat) : Int) / 2 ^ k) = ((min n 2097152 / 2 ^ k : Nat) : Int) := by
      rw [Int.natCast_div]; norm_cast
    rw [this]
    unfold asUsize
    have : min n 2097152 / 2 ^ k ≤ min n 2097152 := Nat.div_le_self _ _
    generalize min n 2097152 / 2 ^ k = q at *
    rw [Int.emod_eq_of_lt (by omega) (by omega)]; omega
  rw [e2]; rfl

theorem buildable_plan (k n : Nat) (h1 : 1 ≤ k) (h2 : k ≤ 12) (hn : 3 ≤ n) (hn2 : n ≤ 512) : Buildable ⟨k, n, 2 ^ k⟩ := by
  have hk : 2 ^ k ≤ 2 ^ 12 := Nat.pow_le_pow_right (by omega) h2
  have hp : 0 < 2 ^ k := by positivity
  refine ⟨hn, h1, hp, by show k ≤ 64; omega, by show 2 ^ k < 2 ^ 30; omega, by show n < 2 ^ 29; omega, ?_⟩
  show k * n * 2 ^ k < 2 ^ 63
  calc k * n * 2 ^ k ≤ 12 * 512 * 2 ^ 12 := Nat.mul_le_mul (Nat.mul_le_mul h2 hn2) hk
    _ < 2 ^ 63 := by norm_num

/-! ## C84 -/

/-- **C84** (partial: see the panics below). A mono 16-bit WAV file with a loop length of `2^k` samples, 2 to 4096, whose
data is 3 to 512 whole waves, loads: the table has those waves, `k` mip levels, and its finest level holds exactly the
samples of the file. For all contents. -/
theorem C84_load_partial (s : WavSpec) (h : Supported s) (hch : s.channels = 1) (hfm : s.fmt = .int) (hb : s.bits = 16)
    (riff v k n : Nat) (hv : v < 2 ^ 31) (hk1 : 1 ≤ k) (hk2 : k ≤ 12) (hn : 3 ≤ n) (hn2 : n ≤ 512)
    (xs : List Int) (hx : xs.length = n * 2 ^ k) (hP : ∀ x ∈ xs, Fits 16 x) :
    ∃ b, load (srgeFile s riff v (2 ^ k) (xs.flatMap (sampleBytes 16))) = .ok (.pcm b) ∧ b.isSample = false ∧
      b.numTables = .ok n ∧ b.numSamplesPerTable = .ok (2 ^ k) ∧ b.numMipmapLevels = .ok k ∧ Holds b (2 ^ k) xs := by
  have hk : 2 ^ k ≤ 2 ^ 12 := Nat.pow_le_pow_right (by omega) hk2
  have hp : 0 < 2 ^ k := by positivity
  have hnk : n * 2 ^ k ≤ 512 * 2 ^ 12 := Nat.mul_le_mul hn2 hk
  have h3 : 3 * 2 ^ k ≤ n * 2 ^ k := Nat.mul_le_mul_right _ hn
  have e16 : sampleBytes 16 = sampleBytes s.bits := by rw [hb]
  rw [e16]
  obtain ⟨r, hd, g1, g2, g3⟩ := open_srge (enc := sampleBytes s.bits) h riff v (2 ^ k) hv (by omega) xs
    (by intro x _; exact sampleBytes_length _ _ (by omega)) (by rw [hch]; exact one_dvd _) (by rw [hb]; omega)
  rw [load_int g1 g2 hfm hb hP (by omega), g3, plan_srge _ _ k xs.length hk1 hk2 (by omega) (by omega), Res.ok_bind]
  dsimp only
  rw [if_neg (by simp [hch])]
  have hm : min 512 (min xs.length 2097152 / 2 ^ k) = n := by
    rw [hx, Nat.min_eq_left (show n * 2 ^ k ≤ 2097152 by omega), Nat.mul_div_cancel _ hp, Nat.min_eq_right hn2]
  rw [hm]
  have hB := buildable_plan k n hk1 hk2 hn hn2
  obtain ⟨b, e, b1, b2, b3, b4⟩ := C83_base_level_exact opsI16 filterI16_length false ⟨k, n, 2 ^ k⟩ hB xs hx
  obtain ⟨b', e', -, f1, -⟩ := new_spec opsI16 filterI16_length false ⟨k, n, 2 ^ k⟩ hB xs hx
  rw [e] at e'; cases e'
  refine ⟨b, by rw [e]; rfl, f1, b1, b3, b2, ?_⟩
  intro t s x hs hxx
  refine b4 t s ?_ hs x hxx
  have hlt : t * 2 ^ k + s < n * 2 ^ k := by rw [← hx]; exact (List.getElem?_eq_some_iff.mp hxx).1
  by_contra hc
  have := Nat.mul_le_mul_right (2 ^ k) (Nat.le_of_not_lt hc)
  dsimp only at this
  omega

/-- **C84** (partial), the same for mono 32-bit floating point files. -/
theorem C84_load_float_partial (s : WavSpec) (h : Supported s) (hch : s.channels = 1) (hfm : s.fmt = .float)
    (riff v k n : Nat) (hv : v < 2 ^ 31) (hk1 : 1 ≤ k) (hk2 : k ≤ 12) (hn : 3 ≤ n) (hn2 : n ≤ 512)
    (xs : List Nat) (hx : xs.length = n * 2 ^ k) (hP : ∀ x ∈ xs, x < 2 ^ 32) :
    ∃ b, load (srgeFile s riff v (2 ^ k) (xs.flatMap (le 4))) = .ok (.ieeeFloat b) ∧ b.isSample = false ∧
      b.numTables = .ok n ∧ b.numSamplesPerTable = .ok (2 ^ k) ∧ b.numMipmapLevels = .ok k ∧
      Holds b (2 ^ k) (xs.map f32OfBits) := by
  have hb := h.float_ok hfm
  have hk : 2 ^ k ≤ 2 ^ 12 := Nat.pow_le_pow_right (by omega) hk2
  have hp : 0 < 2 ^ k := by positivity
  have hnk : n * 2 ^ k ≤ 512 * 2 ^ 12 := Nat.mul_le_mul hn2 hk
  have h3 : 3 * 2 ^ k ≤ n * 2 ^ k := Nat.mul_le_mul_right _ hn
  obtain ⟨r, hd, g1, g2, g3⟩ := open_srge (enc := le 4) h riff v (2 ^ k) hv (by omega) xs
    (by intro x _; rw [hb]; simp) (by rw [hch]; exact one_dvd _) (by rw [hb]; omega)
  rw [load_float g1 g2 hfm hb hP (by omega), g3, plan_srge _ _ k xs.length hk1 hk2 (by omega) (by omega), Res.ok_bind]
  dsimp only
  rw [if_neg (by simp [hch])]
  have hm : min 512 (min xs.length 2097152 / 2 ^ k) = n := by
    rw [hx, Nat.min_eq_left (show n * 2 ^ k ≤ 2097152 by omega), Nat.mul_div_cancel _ hp, Nat.min_eq_right hn2]
  rw [hm]
  have hB := buildable_plan k n hk1 hk2 hn hn2
  have hx' : (xs.map f32OfBits).length = n * 2 ^ k := by rw [List.length_map, hx]
  obtain ⟨b, e, b1, b2, b3, b4⟩ := C83_base_level_exact opsF32 filterF32_length false ⟨k, n, 2 ^ k⟩ hB _ hx'
  obtain ⟨b', e', -, f1, -⟩ := new_spec opsF32 filterF32_length false ⟨k, n, 2 ^ k⟩ hB _ hx'
  rw [e] at e'; cases e'
  refine ⟨b, by rw [e]; rfl, f1, b1, b3, b2, ?_⟩
  intro t s x hs hxx
  refine b4 t s ?_ hs x hxx
  have hlt : t * 2 ^ k + s < n * 2 ^ k := by rw [← hx']; exact (List.getElem?_eq_some_iff.mp hxx).1
  by_contra hc
  have := Nat.mul_le_mul_right (2 ^ k) (Nat.le_of_not_lt hc)
  dsimp only at this
  omega

/-- A mono 16-bit format at 44100 Hz. -/
def monoSpec : WavSpec := ⟨1, 44100, 16, .int⟩

example : Supported monoSpec ∧ monoSpec.channels = 1 ∧ monoSpec.fmt = .int ∧ monoSpec.bits = 16 :=
  ⟨⟨by decide, by decide, by decide, by decide, by decide, by decide⟩, rfl, rfl, rfl⟩

/-- **C84 is false of the code**, first way: one sample more than whole waves, or more than 512 waves, and the program
panics instead of dropping the rest or returning an error (any contents). -/
theorem C84_surplus_panics (s : WavSpec) (h : Supported s) (hch : s.channels = 1) (hfm : s.fmt = .int) (hb : s.bits = 16)
    (riff v k : Nat) (hv : v < 2 ^ 31) (hk1 : 1 ≤ k) (hk2 : k ≤ 12)
    (xs : List Int) (h3 : 3 * 2 ^ k ≤ xs.length) (hlt : xs.length < 2 ^ 31) (hbad : ¬ 2 ^ k ∣ xs.length ∨ 512 * 2 ^ k < xs.length)
    (hP : ∀ x ∈ xs, Fits 16 x) :
    (load (srgeFile s riff v (2 ^ k) (xs.flatMap (sampleBytes 16)))).isPanic := by
  have hk : 2 ^ k ≤ 2 ^ 12 := Nat.pow_le_pow_right (by omega) hk2
  have hp : 0 < 2 ^ k := by positivity
  have e16 : sampleBytes 16 = sampleBytes s.bits := by rw [hb]
  rw [e16]
  obtain ⟨r, hd, g1, g2, g3⟩ := open_srge (enc := sampleBytes s.bits) h riff v (2 ^ k) hv (by omega) xs
    (by intro x _; exact sampleBytes_length _ _ (by omega)) (by rw [hch]; exact one_dvd _) (by rw [hb]; omega)
  rw [load_int g1 g2 hfm hb hP (by omega), g3, plan_srge _ _ k xs.length hk1 hk2 h3 (by omega), Res.ok_bind]
  dsimp only
  rw [if_neg (by simp [hch])]
  have hn3 : 3 ≤ min 512 (min xs.length 2097152 / 2 ^ k) := by
    have : 3 ≤ min xs.length 2097152 / 2 ^ k := by
      rw [Nat.le_div_iff_mul_le hp]; omega
    omega
  have hB := buildable_plan k (min 512 (min xs.length 2097152 / 2 ^ k)) hk1 hk2 hn3 (Nat.min_le_left _ _)
  have hne : xs.length ≠ min 512 (min xs.length 2097152 / 2 ^ k) * 2 ^ k := by
    rcases hbad with hbad | hbad
    · intro he; exact hbad ⟨_, by rw [Nat.mul_comm]; exact he⟩
    · have := Nat.mul_le_mul_right (2 ^ k) (Nat.min_le_left 512 (min xs.length 2097152 / 2 ^ k))
      omega
  have := C83_wrong_count_panics opsI16 false _ hB xs hne
  cases hq : Base.new opsI16 false ⟨k, min 512 (min xs.length 2097152 / 2 ^ k), 2 ^ k⟩ xs with
  | ok b => rw [hq] at this; cases this
  | err e => exact e.elim
  | panic w => rfl

example : ∃ xs : List Int, 3 * 2 ^ 1 ≤ xs.length ∧ xs.length < 2 ^ 31 ∧ ¬ 2 ^ 1 ∣ xs.length ∧ ∀ x ∈ xs, Fits 16 x :=
  ⟨[1, 2, 3, 4, 5, 6, 7], by decide, by decide, by decide, by decide⟩

/-- **C84 is false of the code**, second way: a stereo (or wider) file panics instead of returning the error for unsupported
formats, whatever its contents. -/
theorem C84_stereo_panics (s : WavSpec) (h : Supported s) (hch : s.channels ≠ 1) (hfm : s.fmt = .int) (hb : s.bits = 16)
    (riff v k : Nat) (hv : v < 2 ^ 31) (hk1 : 1 ≤ k) (hk2 : k ≤ 12)
    (xs : List Int) (hfr : s.channels ∣ xs.length) (h3 : 3 * 2 ^ k ≤ xs.length) (hlt : xs.length < 2 ^ 31) (hP : ∀ x ∈ xs, Fits 16 x) :
    load (srgeFile s riff v (2 ^ k) (xs.flatMap (sampleBytes 16))) =
      .panic "assertion failed: channels == spec.specx.unwrap().spec.channels" := by
  have hk : 2 ^ k ≤ 2 ^ 12 := Nat.pow_le_pow_right (by omega) hk2
  have e16 : sampleBytes 16 = sampleBytes s.bits := by rw [hb]
  rw [e16]
  obtain ⟨r, hd, g1, g2, g3⟩ := open_srge (enc := sampleBytes s.bits) h riff v (2 ^ k) hv (by omega) xs
    (by intro x _; exact sampleBytes_length _ _ (by omega)) hfr (by rw [hb]; omega)
  rw [load_int g1 g2 hfm hb hP (by omega), g3, plan_srge _ _ k xs.length hk1 hk2 h3 (by omega), Res.ok_bind]
  dsimp only
  rw [if_pos hch]

/-- **C84**: a loop length of zero is refused with an error, and so is one that is not a power of two from 2 to 4096 (and not
−1), or one that leaves fewer than three waves; for every 32-bit loop length and number of samples. -/
theorem C84_bad_loop_refused (sx : Option WavSpecEx) (v : Int) (l : Int) (n : Nat) (hn : n < 2 ^ 31)
    (hl : l ≠ -1) (hl32 : l < 2 ^ 31)
    (hbad : (∀ k, 1 ≤ k → k ≤ 12 → l ≠ ((2 ^ k : Nat) : Int)) ∨ (0 < l ∧ (n : Int) < 3 * l)) :
    ∃ e, planDim { specx := sx, srge := some (l, v) } n = .err e := by
  unfold planDim getLoopLen
  dsimp only [Option.isSome]
  by_cases h0 : l = 0
  · rw [if_pos h0]; exact ⟨_, rfl⟩
  · rw [if_neg h0, Res.ok_bind]
    dsimp only
    rw [show (false || false || true) = true from rfl]
    rw [if_pos]
    · exact ⟨_, rfl⟩
    · refine ⟨hl, ?_⟩
      rcases hbad with hbad | ⟨hpos, hbad⟩
      · left
        unfold loopShift
        rw [if_pos rfl]
        have h12 : l ≠ 4096 := hbad 12 (by omega) (by omega)
        have h11 : l ≠ 2048 := hbad 11 (by omega) (by omega)
        have h10 : l ≠ 1024 := hbad 10 (by omega) (by omega)
        have h9 : l ≠ 512 := hbad 9 (by omega) (by omega)
        have h8 : l ≠ 256 := hbad 8 (by omega) (by omega)
        have h7 : l ≠ 128 := hbad 7 (by omega) (by omega)
        have h6 : l ≠ 64 := hbad 6 (by omega) (by omega)
        have h5 : l ≠ 32 := hbad 5 (by omega) (by omega)
        have h4 : l ≠ 16 := hbad 4 (by omega) (by omega)
        have h3 : l ≠ 8 := hbad 3 (by omega) (by omega)
        have h2 : l ≠ 4 := hbad 2 (by omega) (by omega)
        have h1 : l ≠ 2 := hbad 1 (by omega) (by omega)
        rw [if_neg h12, if_neg h11, if_neg h10, if_neg h9, if_neg h8, if_neg h7, if_neg h6, if_neg h5, if_neg h4,
          if_neg h3, if_neg h2, if_neg h1]
      · right
        have hle : n / asUsize l ≤ n := Nat.div_le_self _ _
        rw [asI32_small (by omega)]
        have : n / asUsize l < 3 := by
          have hu : (asUsize l : Int) = l := by unfold asUsize; rw [Int.emod_eq_of_lt (by omega) (by omega)]; omega
          rw [Nat.div_lt_iff_lt_mul (by omega)]
          omega
        omega

example : (∀ k, 1 ≤ k → k ≤ 12 → (100 : Int) ≠ ((2 ^ k : Nat) : Int)) ∧ (0 < (2048 : Int) ∧ ((6143 : Nat) : Int) < 3 * 2048) := by
  refine ⟨fun k h1 h2 => ?_, by decide⟩
  have : ∀ k, k < 13 → (100 : Int) ≠ ((2 ^ k : Nat) : Int) := by decide
  exact this k (by omega)

/-- The plan for a file of 4096 samples or more that says nothing about loops. -/
theorem plan_plain (sx : Option WavSpecEx) (n : Nat) (hn : 4096 ≤ n) (hn2 : n < 2 ^ 31) :
    planDim { specx := sx } n = .ok (true, ⟨10, min n 2097152 / 1024, 1024⟩) := by
  unfold planDim getLoopLen
  dsimp only [Option.isSome]
  rw [if_neg (by decide), Res.ok_bind]
  dsimp only
  rw [show loopShift (false || false || false) (-1) = (0, true) from rfl]
  dsimp only
  rw [if_neg (by simp)]
  rw [if_pos rfl, asI32_small hn2]
  have e : min (n : Int) ((maxWavetableSize * maxSubtables : Nat) : Int) = ((min n 2097152 : Nat) : Int) := by
    have : maxWavetableSize * maxSubtables = 2097152 := by decide
    rw [this]; omega
  rw [e]
  have hw : windowLoop ((min n 2097152 : Nat) : Int) 32 (if false = true then 0 else 1024) = .ok 1024 := by
    rw [if_neg (by decide)]
    unfold windowLoop
    rw [chkI32, if_pos (by decide), Res.ok_bind, if_neg (by omega)]
  rw [hw, Res.ok_bind, if_neg (by decide)]
  have hd : (((min n 2097152 : Nat) : Int).tdiv 1024) = ((min n 2097152 / 1024 : Nat) : Int) := by
    rw [Int.tdiv_eq_ediv_of_nonneg (by omega)]; omega
  rw [hd, chkI32, if_pos (by omega), Res.ok_bind, Res.ok_bind]
  dsimp only
  have ha : asUsize ((min n 2097152 / 1024 : Nat) : Int) = min n 2097152 / 1024 := by
    unfold asUsize; rw [Int.emod_eq_of_lt (by omega) (by omega)]; omega
  rw [ha]; rfl

/-- **C84** (partial): a mono 16-bit recording without loop information is cut into waves of 1024 samples; it loads when it
is 4 to 2048 whole waves long. -/
theorem C84_recording_partial (s : WavSpec) (h : Supported s) (hch : s.channels = 1) (hfm : s.fmt = .int) (hb : s.bits = 16)
    (riff n : Nat) (hn : 4 ≤ n) (hn2 : n ≤ 2048) (xs : List Int) (hx : xs.length = n * 1024) (hP : ∀ x ∈ xs, Fits 16 x) :
    ∃ b, load (plainFile s riff (xs.flatMap (sampleBytes 16))) = .ok (.pcm b) ∧ b.isSample = true ∧
      b.numTables = .ok n ∧ b.numSamplesPerTable = .ok 1024 ∧ b.numMipmapLevels = .ok 10 ∧ Holds b 1024 xs := by
  have e16 : sampleBytes 16 = sampleBytes s.bits := by rw [hb]
  rw [e16]
  obtain ⟨r, hd, g1, g2, g3⟩ := open_plain (enc := sampleBytes s.bits) h riff xs
    (by intro x _; exact sampleBytes_length _ _ (by omega)) (by rw [hch]; exact one_dvd _) (by rw [hb]; omega)
  rw [load_int g1 g2 hfm hb hP (by omega), g3, plan_plain _ xs.length (by omega) (by omega), Res.ok_bind]
  dsimp only
  rw [if_neg (by simp [hch])]
  have hm : min xs.length 2097152 / 1024 = n := by omega
  rw [hm]
  have hB : Buildable ⟨10, n, 1024⟩ := by
    refine ⟨by show 3 ≤ n; omega, by show 1 ≤ 10; omega, by show 1 ≤ 1024; omega, by show 10 ≤ 64; omega, by show 1024 < 2 ^ 30; omega, by show n < 2 ^ 29; omega, ?_⟩
    show 10 * n * 1024 < 2 ^ 63
    omega
  obtain ⟨b, e, b1, b2, b3, b4⟩ := C83_base_level_exact opsI16 filterI16_length true ⟨10, n, 1024⟩ hB xs hx
  obtain ⟨b', e', -, f1, -⟩ := new_spec opsI16 filterI16_length true ⟨10, n, 1024⟩ hB xs hx
  rw [e] at e'; cases e'
  refine ⟨b, by rw [e]; rfl, f1, b1, b3, b2, ?_⟩
  intro t s x hs hxx
  refine b4 t s ?_ hs x hxx
  have hlt : t * 1024 + s < n * 1024 := by rw [← hx]; exact (List.getElem?_eq_some_iff.mp hxx).1
  show t < n
  omega

/-- **C84 is false of the code**, third way: a mono 16-bit recording of 4096 samples or more whose length is not a multiple of
1024 panics. -/
theorem C84_recording_panics (s : WavSpec) (h : Supported s) (hch : s.channels = 1) (hfm : s.fmt = .int) (hb : s.bits = 16)
    (riff : Nat) (xs : List Int) (hx : 4096 ≤ xs.length) (hlt : xs.length < 2 ^ 31) (hbad : ¬ 1024 ∣ xs.length)
    (hP : ∀ x ∈ xs, Fits 16 x) :
    (load (plainFile s riff (xs.flatMap (sampleBytes 16)))).isPanic := by
  have e16 : sampleBytes 16 = sampleBytes s.bits := by rw [hb]
  rw [e16]
  obtain ⟨r, hd, g1, g2, g3⟩ := open_plain (enc := sampleBytes s.bits) h riff xs
    (by intro x _; exact sampleBytes_length _ _ (by omega)) (by rw [hch]; exact one_dvd _) (by rw [hb]; omega)
  rw [load_int g1 g2 hfm hb hP (by omega), g3, plan_plain _ xs.length (by omega) (by omega), Res.ok_bind]
  dsimp only
  rw [if_neg (by simp [hch])]
  have hB : Buildable ⟨10, min xs.length 2097152 / 1024, 1024⟩ := by
    refine ⟨by show 3 ≤ min xs.length 2097152 / 1024; omega, by show 1 ≤ 10; omega, by show 1 ≤ 1024; omega,
      by show 10 ≤ 64; omega, by show 1024 < 2 ^ 30; omega,
      by show min xs.length 2097152 / 1024 < 2 ^ 29; omega, ?_⟩
    show 10 * (min xs.length 2097152 / 1024) * 1024 < 2 ^ 63
    omega
  have := C83_wrong_count_panics opsI16 true _ hB xs (by
    intro he; exact hbad ⟨_, by rw [Nat.mul_comm]; exact he⟩)
  cases hq : Base.new opsI16 true ⟨10, min xs.length 2097152 / 1024, 1024⟩ xs with
  | ok b => rw [hq] at this; cases this
  | err e => exact e.elim
  | panic w => rfl

example : 4096 ≤ (List.replicate 5000 (0 : Int)).length ∧ ¬ 1024 ∣ (List.replicate 5000 (0 : Int)).length := by
  rw [List.length_replicate]; decide

/-- **C84 is false of the code**, fourth way: a recording with a `srgo` chunk but no `srge` chunk divides by zero. -/
theorem C84_srgo_panics (sx : Option WavSpecEx) (o : Int × Int) (n : Nat) :
    planDim { specx := sx, srgo := some o } n = .panic "attempt to divide by zero" := by
  unfold planDim getLoopLen
  dsimp only [Option.isSome]
  rw [if_neg (by decide), Res.ok_bind]
  dsimp only
  rw [show loopShift (false || false || false) (-1) = (0, true) from rfl]
  dsimp only
  rw [if_neg (by simp), if_pos rfl, if_pos rfl]
  have : ∀ m, windowLoop m 32 0 = .ok 0 := by
    intro m
    unfold windowLoop
    rw [chkI32, if_pos (by decide), Res.ok_bind, if_neg (by omega)]
  rw [this, Res.ok_bind, if_pos rfl]; rfl

/-! ## C85 -/

theorem bitscan_pow2 (k : Nat) (h : k ≤ 31) : bitscanReverse (2 ^ k) = k := by
  have : ∀ k, k < 32 → bitscanReverse (2 ^ k) = k := by decide +kernel
  exact this k (by omega)

/-- **C85**: of every table of `2^k` samples per wave, `k ≤ 24`, the two derived quantities are exact: the logarithm is `k`
and the step is `2^-k`. -/
theorem C85_pow2_exact (b : Base α) (k : Nat) (hk : k ≤ 24) (h : b.numSamplesPerTable = .ok (2 ^ k)) :
    b.po2 = .ok k ∧ b.dt = .ok (.fin (1 / 2 ^ k)) := by
  have hlt : 2 ^ k ≤ 2 ^ 24 := Nat.pow_le_pow_right (by omega) hk
  constructor
  · unfold Base.po2
    rw [h, Res.ok_bind, Nat.mod_eq_of_lt (by omega), bitscan_pow2 k (by omega)]
  · unfold Base.dt
    rw [h, Res.ok_bind]
    have e : F32.ofInt ((2 ^ k : Nat) : Int) = .fin (2 ^ k) := by
      rw [F32.ofInt_eq (by rw [abs_of_nonneg (by positivity)]; exact_mod_cast hlt)]
      push_cast; rfl
    rw [e]
    show Res.ok (F32.ofQ (1 / 2 ^ k)) = _
    have hpos : (0 : ℚ) < 1 / 2 ^ k := by positivity
    have hle : (1 : ℚ) / 2 ^ k ≤ 1 := by
      rw [div_le_one (by positivity)]; exact one_le_pow₀ (by norm_num)
    rw [F32.ofQ_fin (by linarith) (by linarith [show (1:ℚ) ≤ 2 ^ 100 by norm_num])]
    have e2 : (1 : ℚ) / 2 ^ k = 2 ^ (-(k : ℤ)) := by rw [zpow_neg, zpow_natCast, one_div]
    rw [e2, rne_zpow (by omega)]

/-- **C85 is false of the code** for other lengths: the "logarithm" of an odd number of samples is 0. -/
theorem C85_odd_log (b : Base α) (n : Nat) (h : b.numSamplesPerTable = .ok (2 * n + 1)) : b.po2 = .ok 0 := by
  unfold Base.po2
  rw [h, Res.ok_bind]
  have : ((2 * n + 1) % 2 ^ 32).testBit 0 = true := by
    rw [Nat.testBit_zero]; simp
  unfold bitscanReverse
  rw [show List.range 32 = 0 :: (List.range 31).map (· + 1) from rfl, List.find?_cons, this]; rfl

example : ∃ b, Base.newZero opsI16 ⟨1, 1, 1024⟩ = .ok b ∧ b.numSamplesPerTable = .ok (2 ^ 10) := ⟨_, rfl, rfl⟩
example : ∃ b, Base.newZero opsI16 ⟨1, 1, 1000⟩ = .ok b ∧ b.numSamplesPerTable = .ok 1000 := ⟨_, rfl, rfl⟩

end Verif.Wavetable

namespace Verif.Wavetable
open Verif Verif.Wavetable.Spec

/-- The tables C82 speaks of exist. -/
example : Buildable ⟨6, 3, 64⟩ ∧ (64 : Nat) = 2 ^ 6 ∧ (∃ b, Base.new opsI16 false ⟨6, 3, 64⟩ (List.replicate 192 5) = .ok b) ∧
    ∃ b, Base.new opsF32 false ⟨6, 3, 64⟩ (List.replicate (3 * 64) (.fin 1)) = .ok b := by
  have h : Buildable ⟨6, 3, 64⟩ := ⟨by decide, by decide, by decide, by decide, by decide, by decide, by decide⟩
  refine ⟨h, by decide, ?_, ?_⟩
  · obtain ⟨b, e, -⟩ := C83_base_level_exact opsI16 filterI16_length false ⟨6, 3, 64⟩ h (List.replicate 192 5)
      (by rw [List.length_replicate]; rfl)
    exact ⟨b, e⟩
  · obtain ⟨b, e, -⟩ := C83_base_level_exact opsF32 filterF32_length false ⟨6, 3, 64⟩ h (List.replicate (3 * 64) (.fin 1))
      (by rw [List.length_replicate])
    exact ⟨b, e⟩

end Verif.Wavetable
