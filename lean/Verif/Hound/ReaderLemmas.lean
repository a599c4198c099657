import Verif.Hound.WriterLemmas2
/-! Helper lemmas about the reader. -/
namespace Verif.Hound
open Spec (le sampleBytes Fits Supported header headerLen needsExt frameBytes fmtChunk)

/-! ## Reads never give bytes back, and never report the model's own fuel outcome -/
structure Tame {α} (m : Rd α) : Prop where
  shrink : ∀ s, (m s).2.length ≤ s.length
  noFuel : ∀ s, (m s).1 ≠ .panic outOfFuel
  suffix : ∀ s, ∃ k, (m s).2 = s.drop k

theorem ignore_def {α} (m : Rd α) (s : Bytes) : Rd.ignore m s =
    match m s with
    | (.panic w, s') => (.panic w, s')
    | (_, s') => (.ok (), s') := rfl

namespace Tame
variable {α β : Type}
theorem pure (a : α) : Tame (Pure.pure a : Rd α) := ⟨fun _ => Nat.le_refl _, fun _ => by simp, fun _ => ⟨0, rfl⟩⟩
theorem fail (e : Err) : Tame (Rd.fail e : Rd α) := ⟨fun _ => Nat.le_refl _, fun _ => by simp, fun _ => ⟨0, rfl⟩⟩
theorem bind {m : Rd α} {f : α → Rd β} (hm : Tame m) (hf : ∀ a, Tame (f a)) : Tame (m >>= f) := by
  constructor
  · intro s
    have h1 := hm.shrink s
    rw [Rd.bind_def]
    rcases h : m s with ⟨(a | e | w), s'⟩ <;> rw [h] at h1 <;> simp only at h1 ⊢
    · exact Nat.le_trans ((hf a).shrink s') h1
    · exact h1
    · exact h1
  · intro s
    have h1 := hm.noFuel s
    rw [Rd.bind_def]
    rcases h : m s with ⟨(a | e | w), s'⟩ <;> rw [h] at h1 <;> simp only at h1 ⊢
    · exact (hf a).noFuel s'
    · simp
    · simpa using h1
  · intro s
    have h1 := hm.suffix s
    rw [Rd.bind_def]
    rcases h : m s with ⟨(a | e | w'), s'⟩ <;> rw [h] at h1 <;> simp only at h1 ⊢
    · obtain ⟨k, rfl⟩ := h1
      obtain ⟨j, hj⟩ := (hf a).suffix (s.drop k)
      exact ⟨k + j, by rw [hj, List.drop_drop]⟩
    · exact h1
    · exact h1
theorem ite {c : Prop} [Decidable c] {a b : Rd α} (ha : Tame a) (hb : Tame b) :
    Tame (if c then a else b) := by split <;> assumption
theorem lift {r : Res Err α} (h : r ≠ .panic outOfFuel) : Tame (Rd.lift r) :=
  ⟨fun _ => Nat.le_refl _, fun _ => h, fun _ => ⟨0, rfl⟩⟩
theorem readBytes (n : Nat) : Tame (readBytes n) := by
  refine ⟨?_, ?_, ?_⟩ <;> intro s <;> rw [readBytes_def] <;> split <;> try simp
  · exact ⟨n, rfl⟩
  · exact ⟨s.length, by simp⟩
theorem skipBytes (n : Nat) : Tame (skipBytes n) := by
  refine ⟨?_, ?_, ?_⟩ <;> intro s <;> rw [skipBytes_def] <;> split <;> try simp
  · exact ⟨n, rfl⟩
  · exact ⟨s.length, by simp⟩
theorem readU8 : Tame readU8 := bind (readBytes 1) fun _ => pure _
theorem readU16 : Tame readU16 := bind (readBytes 2) fun _ => pure _
theorem readU24 : Tame readU24 := bind (readBytes 3) fun _ => pure _
theorem readU32 : Tame readU32 := bind (readBytes 4) fun _ => pure _
theorem readI32 : Tame readI32 := bind readU32 fun _ => pure _
theorem subU32 (a b : Nat) : Tame (Rd.lift (subU32 a b)) :=
  lift (by unfold Verif.subU32; split <;> simp [outOfFuel])
theorem chkI32 (x : Int) : Tame (Rd.lift (chkI32 x)) :=
  lift (by unfold Verif.chkI32; split <;> simp [outOfFuel])
theorem ignore {m : Rd α} (h : Tame m) : Tame (Rd.ignore m) := by
  constructor
  · intro s
    have h1 := h.shrink s
    rw [ignore_def]
    split <;> simp_all
  · intro s
    have h1 := h.noFuel s
    rw [ignore_def]
    split <;> simp_all
  · intro s
    have h1 := h.suffix s
    rw [ignore_def]
    split <;> simp_all

theorem readFormatPcm (n : Nat) (s : WavSpec) : Tame (readFormatPcm n s) :=
  ite (pure _) (ite (bind readU16 fun _ => ite (bind (ite (skipBytes _) (pure _)) fun _ => pure _) (fail _)) (fail _))
theorem readFormatFloat (n : Nat) (s : WavSpec) : Tame (readFormatFloat n s) :=
  ite (fail _) (bind (ite readU16 (pure _)) fun _ => ite (fail _) (ite (fail _) (pure _)))
theorem readFormatExt (n : Nat) (s : WavSpec) : Tame (readFormatExt n s) :=
  ite (fail _) (bind readU16 fun _ => ite (fail _) (bind readU16 fun _ => bind readU32 fun _ =>
    bind (readBytes _) fun _ => ite (pure _) (ite (pure _) (fail _))))
theorem readFmtChunk (n : Nat) : Tame (readFmtChunk n) :=
  ite (fail _) (bind readU16 fun _ => bind readU16 fun _ => bind readU32 fun _ => bind readU32 fun _ =>
    bind readU16 fun _ => bind readU16 fun _ => ite (fail _) (ite (fail _) (ite (fail _) (ite (fail _)
      (ite (readFormatPcm _ _) (ite (fail _) (ite (readFormatFloat _ _) (ite (readFormatExt _ _) (fail _)))))))))
theorem readClmChunk (n : Nat) : Tame (readClmChunk n) :=
  bind readU24 fun _ => bind readU8 fun _ => bind readU8 fun _ => bind readU8 fun _ => bind readU8 fun _ =>
    bind (subU32 _ _) fun _ => bind (skipBytes _) fun _ => ite (pure _) (fail _)
theorem readSrgChunk (n : Nat) : Tame (readSrgChunk n) :=
  bind readI32 fun _ => bind readI32 fun _ => bind (subU32 _ _) fun _ => bind (skipBytes _) fun _ => pure _
theorem readCueStarts (n : Nat) : Tame (readCueStarts n) := by
  induction n with
  | zero => exact pure _
  | succ n ih =>
    exact bind readI32 fun _ => bind readI32 fun _ => bind readI32 fun _ => bind readI32 fun _ =>
      bind readI32 fun _ => bind readI32 fun _ => bind ih fun _ => pure _
theorem cueRegular_noFuel (l : List Int) (acc : Int × Bool) : cueRegular l acc ≠ .panic outOfFuel := by
  induction l generalizing acc with
  | nil => simp [cueRegular]
  | cons a t ih =>
    cases t with
    | nil => simp [cueRegular]
    | cons b rest =>
      obtain ⟨d, reg⟩ := acc
      unfold cueRegular Verif.chkI32
      split
      · simp only [Res.ok_bind]
        split <;> exact ih _
      · simp [outOfFuel]
theorem readCueChunk (n : Nat) : Tame (readCueChunk n) := by
  refine bind readI32 fun _ => bind (readCueStarts _) fun _ => bind (lift ?_) fun _ =>
    bind (lift (cueRegular_noFuel _ _)) fun _ => bind (subU32 _ _) fun _ =>
    bind (skipBytes _) fun _ => ite (pure _) (fail _)
  split <;> simp [outOfFuel]
theorem readSmplChunk (n : Nat) : Tame (readSmplChunk n) :=
  bind readU32 fun _ => bind readU32 fun _ => bind readU32 fun _ => bind readU32 fun _ => bind readU32 fun _ =>
  bind readU32 fun _ => bind readU32 fun _ => bind readU32 fun _ => bind readU32 fun _ =>
  ite (fail _) (ite (bind (subU32 _ _) fun _ => bind (skipBytes _) fun _ => pure _)
    (bind readI32 fun _ => bind readI32 fun _ => bind readI32 fun _ => bind readI32 fun _ => bind readI32 fun _ =>
     bind readI32 fun _ => bind (chkI32 _) fun _ => bind (chkI32 _) fun _ => bind (subU32 _ _) fun _ =>
     bind (skipBytes _) fun _ => pure _))

end Tame

theorem readChunkHeader_cases (s : Bytes) :
    (8 ≤ s.length ∧ ∃ k n, readChunkHeader s = (.ok (k, n), s.drop 8)) ∨
    (s.length < 8 ∧ ∃ s', readChunkHeader s = (.err .io, s') ∧ s'.length ≤ s.length) := by
  by_cases h : 8 ≤ s.length
  · left
    refine ⟨h, ?_⟩
    have h1 : readBytes 4 s = (.ok (s.take 4), s.drop 4) := by rw [readBytes_def, if_pos (by omega)]
    have h2 : readBytes 4 (s.drop 4) = (.ok ((s.drop 4).take 4), s.drop 8) := by
      rw [readBytes_def, if_pos (by simp; omega)]; simp
    unfold readChunkHeader readU32
    rw [Rd.bind_ok h1]
    rw [Rd.bind_ok (Rd.bind_ok h2)]
    exact ⟨_, _, rfl⟩
  · right
    refine ⟨by omega, ?_⟩
    unfold readChunkHeader readU32
    by_cases h4 : 4 ≤ s.length
    · have h1 : readBytes 4 s = (.ok (s.take 4), s.drop 4) := by rw [readBytes_def, if_pos (by omega)]
      have h2 : readBytes 4 (s.drop 4) = (.err .io, []) := by
        rw [readBytes_def, if_neg (by simp; omega)]
      rw [Rd.bind_ok h1]
      rw [Rd.bind_err (Rd.bind_err h2)]
      exact ⟨[], rfl, by simp⟩
    · have h1 : readBytes 4 s = (.err .io, []) := by rw [readBytes_def, if_neg (by omega)]
      rw [Rd.bind_err h1]
      exact ⟨[], rfl, by simp⟩

/-- What one loop iteration does after the chunk header. -/
def chunkBody (acc : SurgeSpec) (kind : ChunkKind) (len : Nat) : Rd (SurgeSpec ⊕ (SurgeSpec × Nat)) :=
  match kind with
  | .fmt => do let x ← readFmtChunk len; pure (.inl { acc with specx := some x })
  | .clm => do let x ← readClmChunk len; pure (.inl { acc with clm := some x })
  | .uhwt => pure (.inl { acc with uhwt := some 2048 })
  | .srge => do let x ← readSrgChunk len; pure (.inl { acc with srge := some x })
  | .srgo => do let x ← readSrgChunk len; pure (.inl { acc with srgo := some x })
  | .cue => do let x ← readCueChunk len; pure (.inl { acc with cue := some x })
  | .smpl => do let x ← readSmplChunk len; pure (.inl { acc with smpl := some x })
  | .fact => do Rd.ignore readU32; pure (.inl acc)
  | .data => pure (.inr (acc, len))
  | .unknown => do skipBytes len; pure (.inl acc)

theorem chunkStep_eq (acc : SurgeSpec) :
    chunkStep acc = (readChunkHeader >>= fun p => chunkBody acc p.1 p.2) := rfl

theorem Tame.chunkBody (acc : SurgeSpec) (k : ChunkKind) (n : Nat) : Tame (chunkBody acc k n) := by
  cases k
  · exact bind (readFmtChunk n) fun _ => Tame.pure _
  · exact bind (readClmChunk n) fun _ => Tame.pure _
  · exact Tame.pure _
  · exact bind (readSrgChunk n) fun _ => Tame.pure _
  · exact bind (readSrgChunk n) fun _ => Tame.pure _
  · exact bind (readCueChunk n) fun _ => Tame.pure _
  · exact bind (readSmplChunk n) fun _ => Tame.pure _
  · exact bind (ignore readU32) fun _ => Tame.pure _
  · exact Tame.pure _
  · exact bind (skipBytes n) fun _ => Tame.pure _

theorem Tame.readChunkHeader : Tame readChunkHeader :=
  bind (readBytes 4) fun _ => bind readU32 fun _ => Tame.pure _

theorem Tame.chunkStep (acc : SurgeSpec) : Tame (chunkStep acc) :=
  bind readChunkHeader fun p => chunkBody acc p.1 p.2

/-- Every iteration that comes back for more has consumed a chunk header. -/
theorem chunkStep_consumes (acc : SurgeSpec) (s : Bytes) (r : SurgeSpec ⊕ (SurgeSpec × Nat)) (s' : Bytes)
    (h : chunkStep acc s = (.ok r, s')) : s'.length + 8 ≤ s.length := by
  rw [chunkStep_eq] at h
  rcases readChunkHeader_cases s with ⟨h8, k, n, hk⟩ | ⟨_, s'', hk, _⟩
  · rw [Rd.bind_ok hk] at h
    have := (Tame.chunkBody acc k n).shrink (s.drop 8)
    simp only at h
    rw [h] at this
    simp at this
    omega
  · rw [Rd.bind_err hk] at h
    simp at h

theorem loop_succ (fuel : Nat) (acc : SurgeSpec) (s : Bytes) :
    readUntilDataLoop (fuel + 1) acc s =
      match chunkStep acc s with
      | (.ok (.inl acc'), s') => readUntilDataLoop fuel acc' s'
      | (.ok (.inr r), s') => (.ok r, s')
      | (.err e, s') => (.err e, s')
      | (.panic w, s') => (.panic w, s') := by
  show ((chunkStep acc >>= fun x => match x with
    | .inl acc' => readUntilDataLoop fuel acc'
    | .inr r => Pure.pure r) : Rd _) s = _
  rw [Rd.bind_def]
  rcases chunkStep acc s with ⟨((acc' | r) | e | w), s'⟩ <;> rfl

/-- The outcome does not depend on the fuel once there is one unit per eight bytes left. -/
theorem loop_fuel (n : Nat) : ∀ (s : Bytes), s.length ≤ n → ∀ (acc : SurgeSpec) (f g : Nat),
    s.length / 8 + 1 ≤ f → s.length / 8 + 1 ≤ g →
    readUntilDataLoop f acc s = readUntilDataLoop g acc s := by
  induction n using Nat.strongRecOn with
  | ind n ih =>
    intro s hs acc f g hf hg
    obtain ⟨f, rfl⟩ : ∃ f', f = f' + 1 := ⟨f - 1, by omega⟩
    obtain ⟨g, rfl⟩ : ∃ g', g = g' + 1 := ⟨g - 1, by omega⟩
    rw [loop_succ, loop_succ]
    rcases hc : chunkStep acc s with ⟨((acc' | r) | e | w), s'⟩
    · have := chunkStep_consumes acc s _ s' hc
      simp only
      exact ih s'.length (by omega) s' (Nat.le_refl _) acc' f g (by omega) (by omega)
    · rfl
    · rfl
    · rfl

/-- ... and is never the model's own out-of-fuel outcome. -/
theorem loop_noFuel (n : Nat) : ∀ (s : Bytes), s.length ≤ n → ∀ (acc : SurgeSpec) (f : Nat),
    s.length / 8 + 1 ≤ f → (readUntilDataLoop f acc s).1 ≠ .panic outOfFuel := by
  induction n using Nat.strongRecOn with
  | ind n ih =>
    intro s hs acc f hf
    obtain ⟨f, rfl⟩ : ∃ f', f = f' + 1 := ⟨f - 1, by omega⟩
    rw [loop_succ]
    have ht := (Tame.chunkStep acc).noFuel s
    rcases hc : chunkStep acc s with ⟨((acc' | r) | e | w), s'⟩
    · have := chunkStep_consumes acc s _ s' hc
      simp only
      exact ih s'.length (by omega) s' (Nat.le_refl _) acc' f (by omega)
    · simp
    · simp
    · rw [hc] at ht; simpa using ht

/-- The loop with exactly enough fuel. -/
def untilData (acc : SurgeSpec) : Rd (SurgeSpec × Nat) := ⟨fun s => readUntilDataLoop (s.length / 8 + 1) acc s⟩

theorem untilData_inl {acc acc' : SurgeSpec} {s s' : Bytes} (h : chunkStep acc s = (.ok (.inl acc'), s')) :
    untilData acc s = untilData acc' s' := by
  have := chunkStep_consumes acc s _ s' h
  unfold untilData
  rw [loop_succ, h]
  exact loop_fuel s'.length s' (Nat.le_refl _) acc' _ _ (by omega) (Nat.le_refl _)

theorem untilData_inr {acc : SurgeSpec} {s s' : Bytes} {r} (h : chunkStep acc s = (.ok (.inr r), s')) :
    untilData acc s = (.ok r, s') := by
  unfold untilData
  rw [loop_succ, h]

theorem untilData_err {acc : SurgeSpec} {s s' : Bytes} {e} (h : chunkStep acc s = (.err e, s')) :
    untilData acc s = (.err e, s') := by
  unfold untilData
  rw [loop_succ, h]

theorem untilData_panic {acc : SurgeSpec} {s s' : Bytes} {e} (h : chunkStep acc s = (.panic e, s')) :
    untilData acc s = (.panic e, s') := by
  unfold untilData
  rw [loop_succ, h]

theorem Tame.untilData (acc : SurgeSpec) : Tame (untilData acc) := by
  constructor
  · intro s
    suffices ∀ n (s : Bytes), s.length ≤ n → ∀ acc, (Verif.Hound.untilData acc s).2.length ≤ s.length from
      this s.length s (Nat.le_refl _) acc
    intro n
    induction n using Nat.strongRecOn with
    | ind n ih =>
      intro s hs acc
      have hsh := (Tame.chunkStep acc).shrink s
      rcases hc : Verif.Hound.chunkStep acc s with ⟨((acc' | r) | e | w), s'⟩ <;> rw [hc] at hsh <;> simp only at hsh
      · have := chunkStep_consumes acc s _ s' hc
        rw [untilData_inl hc]
        have := ih s'.length (by omega) s' (Nat.le_refl _) acc'
        omega
      · rw [untilData_inr hc]; exact hsh
      · rw [untilData_err hc]; exact hsh
      · rw [untilData_panic hc]; exact hsh
  · intro s
    exact loop_noFuel s.length s (Nat.le_refl _) acc _ (Nat.le_refl _)
  · intro s
    suffices ∀ n (s : Bytes), s.length ≤ n → ∀ acc, ∃ k, (Verif.Hound.untilData acc s).2 = s.drop k from
      this s.length s (Nat.le_refl _) acc
    intro n
    induction n using Nat.strongRecOn with
    | ind n ih =>
      intro s hs acc
      have hsh := (Tame.chunkStep acc).suffix s
      rcases hc : Verif.Hound.chunkStep acc s with ⟨((acc' | r) | e | w), s'⟩ <;> rw [hc] at hsh <;> simp only at hsh
      · have := chunkStep_consumes acc s _ s' hc
        rw [untilData_inl hc]
        obtain ⟨j, hj⟩ := ih s'.length (by omega) s' (Nat.le_refl _) acc'
        obtain ⟨k, rfl⟩ := hsh
        exact ⟨k + j, by rw [hj, List.drop_drop]⟩
      · rw [untilData_inr hc]; exact hsh
      · rw [untilData_err hc]; exact hsh
      · rw [untilData_panic hc]; exact hsh

theorem readUntilData_eq : readUntilData = untilData {} := rfl

/-! ## Reading the pieces of a file -/
theorem readChunkHeader_append (id rest : Bytes) (n : Nat) (hid : id.length = 4) (hn : n < 2 ^ 32) :
    readChunkHeader (id ++ (le 4 n ++ rest)) = (.ok (chunkKind id, n), rest) := by
  unfold readChunkHeader
  rw [Rd.bind_ok (readBytes_append _ _ _ hid), Rd.bind_ok (readU32_le n hn rest)]
  rfl

theorem chunkStep_unknown (acc : SurgeSpec) (id body rest : Bytes) (hid : id.length = 4)
    (hk : chunkKind id = .unknown) (hn : body.length < 2 ^ 32) :
    chunkStep acc (id ++ (le 4 body.length ++ (body ++ rest))) = (.ok (.inl acc), rest) := by
  rw [chunkStep_eq, Rd.bind_ok (readChunkHeader_append id _ _ hid hn)]
  simp only [hk, chunkBody]
  rw [Rd.bind_ok (skipBytes_append body rest _ rfl)]
  rfl

theorem chunkStep_data (acc : SurgeSpec) (n : Nat) (rest : Bytes) (hn : n < 2 ^ 32) :
    chunkStep acc (Spec.ascii "data" ++ (le 4 n ++ rest)) = (.ok (.inr (acc, n)), rest) := by
  rw [chunkStep_eq, Rd.bind_ok (readChunkHeader_append _ _ _ (by decide) hn)]
  have : chunkKind (Spec.ascii "data") = .data := by decide
  simp only [this, chunkBody, Rd.pure_def]

theorem readFmtChunk_eq {s : WavSpec} (h : Supported s) (rest : Bytes) :
    chunkStep acc (fmtChunk s ++ rest) =
      (.ok (.inl { acc with specx := some ⟨s, s.bits / 8⟩ }), rest) := by
  have hb := h.bits_ok
  have hc1 := h.ch_pos
  have hc2 := h.ch_le
  have hf := Supported.frame_lt h
  have hdiv : frameBytes s / s.channels = s.bits / 8 := Nat.mul_div_cancel _ hc1
  have hrf : s.sampleRate * frameBytes s < 2 ^ 32 := by
    have := h.rate_fits; rwa [Nat.mul_assoc] at this
  have hfp : 1 ≤ frameBytes s := Nat.mul_pos (Supported.bps_pos h) hc1
  have hrate : s.sampleRate < 2 ^ 32 := Nat.lt_of_le_of_lt (Nat.le_mul_of_pos_right _ hfp) hrf
  have hb8 : s.bits / 8 * 8 = s.bits := by omega
  have kf : chunkKind (Spec.ascii "fmt ") = .fmt := by decide
  have comm : frameBytes s * s.sampleRate = s.sampleRate * frameBytes s := Nat.mul_comm _ _
  -- the six common fields
  have common : ∀ (tag : Nat) (ht : tag < 65536) (chunkLen : Nat) (_ : 16 ≤ chunkLen) (tail : Bytes),
      readFmtChunk chunkLen (le 2 tag ++ (le 2 s.channels ++ (le 4 s.sampleRate ++
        (le 4 (s.sampleRate * frameBytes s) ++ (le 2 (frameBytes s) ++ (le 2 s.bits ++ tail)))))) =
      (let spec : WavSpec := { channels := s.channels, sampleRate := s.sampleRate, bits := s.bits, fmt := .int }
       if tag = 1 then readFormatPcm chunkLen spec
       else if tag = 2 then Rd.fail .unsupported
       else if tag = 3 then readFormatFloat chunkLen spec
       else if tag = 0xfffe then readFormatExt chunkLen spec
       else Rd.fail .unsupported) tail := by
    intro tag ht chunkLen hlen tail
    unfold readFmtChunk
    rw [if_neg (by omega), Rd.bind_ok (readU16_le tag ht _), Rd.bind_ok (readU16_le _ (by omega) _),
      Rd.bind_ok (readU32_le _ hrate _), Rd.bind_ok (readU32_le _ hrf _),
      Rd.bind_ok (readU16_le _ (by omega) _), Rd.bind_ok (readU16_le _ (by omega) _)]
    rw [if_neg (by omega), hdiv, hb8, comm]
    rw [if_neg (by simp; omega), if_neg (by omega), if_neg (by omega)]
  rw [chunkStep_eq]
  unfold fmtChunk
  by_cases hne : needsExt s = true
  · simp only [hne, if_true, List.append_assoc]
    rw [Rd.bind_ok (readChunkHeader_append _ _ _ (by decide) (by decide))]
    simp only [kf, chunkBody]
    have e : readFmtChunk 40 = readFmtChunk 40 := rfl
    rw [Rd.bind_ok (s' := rest) (a := ⟨s, s.bits / 8⟩)]
    · rfl
    · rw [common 0xfffe (by decide) 40 (by decide)]
      simp only [show ((0xfffe : Nat) = 1) = False by decide, show ((0xfffe : Nat) = 2) = False by decide,
        show ((0xfffe : Nat) = 3) = False by decide, if_false, if_true, readFormatExt]
      rw [if_neg (by decide), Rd.bind_ok (readU16_le 22 (by decide) _)]
      rw [if_neg (by decide), Rd.bind_ok (readU16_le _ (by omega) _)]
      have hm : 2 ^ s.channels - 1 < 4294967296 := by
        have := Nat.pow_le_pow_right (show 0 < 2 by decide) hc2
        omega
      rw [Rd.bind_ok (readU32_le _ hm _)]
      cases hfm : s.fmt with
      | int =>
        rw [if_neg (show ¬ SampleFormat.int = SampleFormat.float by decide), ← List.append_assoc, Rd.bind_ok (readBytes_append _ _ 16 rfl)]
        rw [if_pos (by decide)]
        have : s = ⟨s.channels, s.sampleRate, s.bits, .int⟩ := by rw [← hfm]
        simp only [Rd.pure_def]; rw [← this]
      | float =>
        rw [if_pos rfl, ← List.append_assoc, Rd.bind_ok (readBytes_append _ _ 16 rfl)]
        rw [if_neg (by decide), if_pos (by decide)]
        have : s = ⟨s.channels, s.sampleRate, s.bits, .float⟩ := by rw [← hfm]
        simp only [Rd.pure_def]; rw [← this]
  · have hne' : needsExt s = false := by simpa using hne
    have hb16 : s.bits ≤ 16 := by
      simp [needsExt] at hne'; omega
    have hint : s.fmt = .int := by
      cases hfm : s.fmt with
      | int => rfl
      | float => have := h.float_ok hfm; omega
    simp only [hne', hint, List.append_assoc, Bool.false_eq_true, if_false]
    rw [Rd.bind_ok (readChunkHeader_append _ _ _ (by decide) (by decide))]
    simp only [kf, chunkBody]
    rw [Rd.bind_ok (s' := rest) (a := ⟨s, s.bits / 8⟩)]
    · rfl
    · have := common 1 (by decide) 16 (by decide) rest
      rw [show (if SampleFormat.int = SampleFormat.float then 3 else 1) = 1 from rfl, this]
      simp only [if_true, readFormatPcm, Rd.pure_def]
      have : s = ⟨s.channels, s.sampleRate, s.bits, .int⟩ := by rw [← hint]
      rw [← this]

end Verif.Hound
