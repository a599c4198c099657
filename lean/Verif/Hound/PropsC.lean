import Verif.Hound.PropsB
/-!
# Properties of WAV reading: C08–C14
-/
namespace Verif
open Hound Hound.Spec

/-! ## C08 -/
/-- **C08 is false of the code**: a 20-byte file whose data chunk precedes any fmt chunk panics. -/
theorem C08_open_can_panic_no_fmt :
    openBytes (ascii "RIFF" ++ le 4 12 ++ ascii "WAVE" ++ ascii "data" ++ le 4 0) =
      .panic "called `Option::unwrap()` on a `None` value" := by
  decide +kernel

/-- **C08 is false of the code**, second way: every file that starts with a `clm ` chunk whose declared length
is below 7 panics, whatever else it contains. -/
theorem C08_open_can_panic_short_clm (riff n : Nat) (hn : n < 7) (body rest : Bytes) (hb : body.length = 7) :
    (openBytes (ascii "RIFF" ++ le 4 riff ++ ascii "WAVE" ++ (ascii "clm " ++ le 4 n ++ body) ++ rest)).isPanic
      = true := by
  obtain ⟨k, hk⟩ := readWaveHeader_eq riff (ascii "clm " ++ (le 4 n ++ (body ++ rest)))
  match body, hb with
  | [a, b, c, d, e, f, g], _ =>
    have hstep : chunkStep {} (ascii "clm " ++ (le 4 n ++ ([a, b, c, d, e, f, g] ++ rest))) =
        (.panic "u32 subtract overflow", rest) := by
      rw [chunkStep_eq, Rd.bind_ok (readChunkHeader_append _ _ _ (by decide) (by omega))]
      have : chunkKind (ascii "clm ") = .clm := by decide
      simp only [this, chunkBody]
      have h1 : readClmChunk n ([a, b, c, d, e, f, g] ++ rest) = (.panic "u32 subtract overflow", rest) := by
        unfold readClmChunk readU24 readU8
        have r3 : readBytes 3 ([a, b, c, d, e, f, g] ++ rest) = (.ok [a, b, c], [d, e, f, g] ++ rest) :=
          readBytes_append [a, b, c] _ 3 rfl
        have r1 : ∀ (x : UInt8) (t : Bytes), readBytes 1 (x :: t) = (.ok [x], t) :=
          fun x t => readBytes_append [x] t 1 rfl
        rw [Rd.bind_ok (Rd.bind_ok r3)]
        simp only [List.cons_append, List.nil_append]
        rw [Rd.bind_ok (Rd.bind_ok (r1 _ _)), Rd.bind_ok (Rd.bind_ok (r1 _ _)), Rd.bind_ok (Rd.bind_ok (r1 _ _)),
          Rd.bind_ok (Rd.bind_ok (r1 _ _))]
        unfold subU32
        rw [if_neg (by omega)]
        rfl
      rw [Rd.bind_def, h1]
    have hall : (do let _ ← readWaveHeader; readUntilData : Rd _)
        (ascii "RIFF" ++ le 4 riff ++ ascii "WAVE" ++ (ascii "clm " ++ le 4 n ++ [a, b, c, d, e, f, g]) ++ rest) =
        (.panic "u32 subtract overflow", rest) := by
      simp only [List.append_assoc]
      rw [Rd.bind_ok hk, readUntilData_eq, untilData_panic hstep]
    unfold openBytes Reader.new Cursor.run
    simp only [List.drop_zero, hall]
    rfl

/-- The ids of the wavetable chunks this fork added to the reader. -/
def surgeIds : List String := ["clm ", "srge", "srgo", "cue ", "smpl"]

/-- None of those ids occurs anywhere in the bytes. -/
def NoSurgeIds (b : Bytes) : Prop := ∀ k, ∀ i ∈ surgeIds, (b.drop k).take 4 ≠ ascii i

/-- `m` does not panic and leaves a suffix of what it was given. -/
structure Calm {α} (m : Rd α) : Prop where
  noPanic : ∀ s w, (m s).1 ≠ .panic w
  suffix : ∀ s, ∃ k, (m s).2 = s.drop k

namespace Calm
variable {α β : Type}
theorem pure (a : α) : Calm (Pure.pure a : Rd α) := ⟨fun _ _ => by simp, fun _ => ⟨0, rfl⟩⟩
theorem fail (e : Err) : Calm (Rd.fail e : Rd α) := ⟨fun _ _ => by simp, fun _ => ⟨0, rfl⟩⟩
theorem bind {m : Rd α} {f : α → Rd β} (hm : Calm m) (hf : ∀ a, Calm (f a)) : Calm (m >>= f) := by
  constructor
  · intro s w
    have h1 := hm.noPanic s
    rw [Rd.bind_def]
    rcases h : m s with ⟨(a | e | w'), s'⟩
    · exact (hf a).noPanic s' w
    · simp
    · rw [h] at h1; exact absurd rfl (h1 w')
  · intro s
    have h1 := hm.suffix s
    rw [Rd.bind_def]
    rcases h : m s with ⟨(a | e | w'), s'⟩ <;> rw [h] at h1 <;> simp only at h1 ⊢
    · obtain ⟨k, rfl⟩ := h1
      obtain ⟨j, hj⟩ := (hf a).suffix (s.drop k)
      exact ⟨k + j, by rw [hj, List.drop_drop]⟩
    · exact h1
    · exact h1
theorem ite {c : Prop} [Decidable c] {a b : Rd α} (ha : Calm a) (hb : Calm b) :
    Calm (if c then a else b) := by split <;> assumption
theorem readBytes (n : Nat) : Calm (readBytes n) := by
  constructor
  · intro s w; rw [readBytes_def]; split <;> simp
  · intro s; rw [readBytes_def]; split
    · exact ⟨n, rfl⟩
    · exact ⟨s.length, by simp⟩
theorem skipBytes (n : Nat) : Calm (skipBytes n) := by
  constructor
  · intro s w; rw [skipBytes_def]; split <;> simp
  · intro s; rw [skipBytes_def]; split
    · exact ⟨n, rfl⟩
    · exact ⟨s.length, by simp⟩
theorem readU16 : Calm readU16 := bind (readBytes 2) fun _ => pure _
theorem readU32 : Calm readU32 := bind (readBytes 4) fun _ => pure _
theorem ignore {m : Rd α} (h : Calm m) : Calm (Rd.ignore m) := by
  constructor
  · intro s w
    have h1 := h.noPanic s
    rw [ignore_def]
    split <;> simp_all
  · intro s
    have h1 := h.suffix s
    rw [ignore_def]
    split <;> simp_all
theorem readFormatPcm (n : Nat) (s : WavSpec) : Calm (readFormatPcm n s) :=
  ite (pure _) (ite (bind readU16 fun _ => ite (bind (ite (skipBytes _) (pure _)) fun _ => pure _) (fail _)) (fail _))
theorem readFormatFloat (n : Nat) (s : WavSpec) : Calm (readFormatFloat n s) :=
  ite (fail _) (bind (ite readU16 (pure _)) fun _ => ite (fail _) (ite (fail _) (pure _)))
theorem readFormatExt (n : Nat) (s : WavSpec) : Calm (readFormatExt n s) :=
  ite (fail _) (bind readU16 fun _ => ite (fail _) (bind readU16 fun _ => bind readU32 fun _ =>
    bind (readBytes _) fun _ => ite (pure _) (ite (pure _) (fail _))))
theorem readFmtChunk (n : Nat) : Calm (readFmtChunk n) :=
  ite (fail _) (bind readU16 fun _ => bind readU16 fun _ => bind readU32 fun _ => bind readU32 fun _ =>
    bind readU16 fun _ => bind readU16 fun _ => ite (fail _) (ite (fail _) (ite (fail _) (ite (fail _)
      (ite (readFormatPcm _ _) (ite (fail _) (ite (readFormatFloat _ _) (ite (readFormatExt _ _) (fail _)))))))))
theorem readWaveHeader : Calm readWaveHeader :=
  bind (readBytes _) fun _ => ite (fail _) (bind readU32 fun _ => bind (readBytes _) fun _ =>
    ite (fail _) (pure _))
end Calm

/-- Chunk kinds whose handling cannot panic. -/
def ChunkKind.calm : ChunkKind → Bool
  | .fmt | .uhwt | .fact | .data | .unknown => true
  | _ => false

theorem Calm.chunkBody (acc : SurgeSpec) (k : ChunkKind) (n : Nat) (h : ChunkKind.calm k = true) :
    Calm (chunkBody acc k n) := by
  cases k <;> first | exact absurd h (by decide) | skip
  · exact bind (readFmtChunk n) fun _ => Calm.pure _
  · exact Calm.pure _
  · exact bind (ignore readU32) fun _ => Calm.pure _
  · exact Calm.pure _
  · exact bind (skipBytes n) fun _ => Calm.pure _

theorem chunkKind_calm (id : Bytes) (h : ∀ i ∈ surgeIds, id ≠ ascii i) : ChunkKind.calm (chunkKind id) = true := by
  simp only [surgeIds, List.mem_cons, List.not_mem_nil, or_false, forall_eq_or_imp, forall_eq] at h
  obtain ⟨h1, h2, h3, h4, h5⟩ := h
  rw [show ascii "clm " = tagClm by decide] at h1
  rw [show ascii "srge" = tagSrge by decide] at h2
  rw [show ascii "srgo" = tagSrgo by decide] at h3
  rw [show ascii "cue " = tagCue by decide] at h4
  rw [show ascii "smpl" = tagSmpl by decide] at h5
  unfold chunkKind
  simp only [h1, h2, h3, h4, h5, if_false]
  repeat' split
  all_goals rfl

theorem readChunkHeader_id (s : Bytes) (k : ChunkKind) (n : Nat) (s' : Bytes)
    (h : readChunkHeader s = (.ok (k, n), s')) :
    k = chunkKind (s.take 4) ∧ (s.drop 4).take 4 = le 4 n ∧ n < 2 ^ 32 ∧ s' = s.drop 8 ∧ 8 ≤ s.length := by
  have h8 : 8 ≤ s.length := by
    rcases readChunkHeader_cases s with ⟨h8, _⟩ | ⟨_, s'', hk, _⟩
    · exact h8
    · rw [hk] at h; simp at h
  match s, h8 with
  | a :: b :: c :: d :: e :: f :: g :: i :: t, _ =>
    have hle : [e, f, g, i] = le 4 (e.toNat + 256 * f.toNat + 65536 * g.toNat + 16777216 * i.toNat) := by
      have he := e.toNat_lt; have hf := f.toNat_lt; have hg := g.toNat_lt; have hi := i.toNat_lt
      have q1 : (e.toNat + 256 * f.toNat + 65536 * g.toNat + 16777216 * i.toNat) % 256 = e.toNat := by omega
      have q2 : (e.toNat + 256 * f.toNat + 65536 * g.toNat + 16777216 * i.toNat) / 256 % 256 = f.toNat := by omega
      have q3 : (e.toNat + 256 * f.toNat + 65536 * g.toNat + 16777216 * i.toNat) / 256 / 256 % 256 = g.toNat := by
        omega
      have q4 : (e.toNat + 256 * f.toNat + 65536 * g.toNat + 16777216 * i.toNat) / 256 / 256 / 256 % 256
          = i.toNat := by omega
      simp only [le, q1, q2, q3, q4, UInt8.ofNat_toNat]
    have hlt : e.toNat + 256 * f.toNat + 65536 * g.toNat + 16777216 * i.toNat < 2 ^ 32 := by
      have he := e.toNat_lt; have hf := f.toNat_lt; have hg := g.toNat_lt; have hi := i.toNat_lt
      omega
    have := readChunkHeader_append [a, b, c, d] t _ rfl hlt
    rw [← hle] at this
    simp only [List.cons_append, List.nil_append] at this
    rw [this] at h
    simp only [Prod.mk.injEq, Res.ok.injEq] at h
    obtain ⟨⟨rfl, rfl⟩, rfl⟩ := h
    exact ⟨rfl, hle, hlt, rfl, by simp⟩

theorem NoSurgeIds.drop {b : Bytes} (h : NoSurgeIds b) (k : Nat) : NoSurgeIds (b.drop k) := by
  intro j i hi
  rw [List.drop_drop]; exact h _ i hi

theorem chunkStep_calm (acc : SurgeSpec) (s : Bytes) (h : NoSurgeIds s) :
    (∀ w, (chunkStep acc s).1 ≠ .panic w) ∧ NoSurgeIds (chunkStep acc s).2 := by
  rw [chunkStep_eq]
  rcases readChunkHeader_cases s with ⟨h8, k, n, hk⟩ | ⟨_, s'', hk, _⟩
  · rw [Rd.bind_ok hk]
    obtain ⟨rfl, _, _, _, _⟩ := readChunkHeader_id s k n _ hk
    have hc := Calm.chunkBody acc (chunkKind (s.take 4)) n (chunkKind_calm _ (by
      intro i hi; have := h 0 i hi; simpa using this))
    refine ⟨hc.noPanic _, ?_⟩
    obtain ⟨j, hj⟩ := hc.suffix (s.drop 8)
    rw [hj]
    exact (h.drop 8).drop j
  · have e : (readChunkHeader >>= fun p => chunkBody acc p.1 p.2 : Rd _) s = (.err .io, s'') := by
      rw [Rd.bind_err hk]
    rw [e]
    refine ⟨by simp, ?_⟩
    have hsuf : ∃ j, s'' = s.drop j := by
      have hch : Calm readChunkHeader := Calm.bind (Calm.readBytes 4) fun _ => Calm.bind Calm.readU32 fun _ =>
        Calm.pure _
      obtain ⟨j, hj⟩ := hch.suffix s
      rw [hk] at hj
      exact ⟨j, hj⟩
    obtain ⟨j, rfl⟩ := hsuf
    exact h.drop j

theorem untilData_calm (n : Nat) : ∀ (s : Bytes), s.length ≤ n → NoSurgeIds s → ∀ (acc : SurgeSpec) w,
    (untilData acc s).1 ≠ .panic w := by
  induction n using Nat.strongRecOn with
  | ind n ih =>
    intro s hs h acc w
    obtain ⟨h1, h2⟩ := chunkStep_calm acc s h
    rcases hc : Verif.Hound.chunkStep acc s with ⟨((acc' | r) | e | p), s'⟩
    · have := chunkStep_consumes acc s _ s' hc
      rw [hc] at h2
      rw [untilData_inl hc]
      exact ih s'.length (by omega) s' (Nat.le_refl _) h2 acc' w
    · rw [untilData_inr hc]; simp
    · rw [untilData_err hc]; simp
    · rw [hc] at h1; exact absurd rfl (h1 p)

/-! ### what the header scan establishes -/
/-- Facts about a parsed fmt chunk. -/
def GoodSpecx (a : SurgeSpec) : Prop := ∀ x, a.specx = some x → 1 ≤ x.bytesPerSample ∧ 1 ≤ x.spec.channels

/-- Postcondition on `Ok` outcomes. -/
def Post {α} (m : Rd α) (Q : α → Prop) : Prop := ∀ s a s', m s = (.ok a, s') → Q a
namespace Post
variable {α β : Type}
theorem pure {a : α} {Q : α → Prop} (h : Q a) : Post (Pure.pure a : Rd α) Q := by
  intro s a' s' e
  simp only [Rd.pure_def, Prod.mk.injEq, Res.ok.injEq] at e
  rw [← e.1]; exact h
theorem fail (e : Err) {Q : α → Prop} : Post (Rd.fail e : Rd α) Q := by
  intro s a s' h; simp at h
theorem bind {m : Rd α} {f : α → Rd β} {Q : β → Prop} (hf : ∀ a, Post (f a) Q) : Post (m >>= f) Q := by
  intro s b s' h
  rw [Rd.bind_def] at h
  rcases hm : m s with ⟨(a | e | w), s1⟩ <;> rw [hm] at h
  · exact hf a s1 b s' h
  · simp at h
  · simp at h
theorem bind' {m : Rd α} {f : α → Rd β} {Q : β → Prop} {R : α → Prop} (hm : Post m R)
    (hf : ∀ a, R a → Post (f a) Q) : Post (m >>= f) Q := by
  intro s b s' h
  rw [Rd.bind_def] at h
  rcases hm' : m s with ⟨(a | e | w), s1⟩ <;> rw [hm'] at h
  · exact hf a (hm s a s1 hm') s1 b s' h
  · simp at h
  · simp at h
theorem ite {c : Prop} [Decidable c] {a b : Rd α} {Q : α → Prop} (ha : c → Post a Q) (hb : ¬c → Post b Q) :
    Post (if c then a else b) Q := by
  by_cases h : c
  · rw [if_pos h]; exact ha h
  · rw [if_neg h]; exact hb h
end Post

theorem readFmtChunk_post (n : Nat) :
    Post (readFmtChunk n) (fun x => 1 ≤ x.bytesPerSample ∧ 1 ≤ x.spec.channels) := by
  unfold readFmtChunk
  refine Post.ite (fun _ => Post.fail _) fun _ => Post.bind fun tag => Post.bind fun ch => Post.bind fun rate =>
    Post.bind fun bps => Post.bind fun ba => Post.bind fun bits => Post.ite (fun _ => Post.fail _) fun hch =>
    Post.ite (fun _ => Post.fail _) fun _ => Post.ite (fun _ => Post.fail _) fun h8 =>
    Post.ite (fun _ => Post.fail _) fun h0 => ?_
  have hb : 1 ≤ bits / 8 := by omega
  have hc : 1 ≤ ch := by omega
  refine Post.ite (fun _ => ?_) fun _ => Post.ite (fun _ => Post.fail _) fun _ => Post.ite (fun _ => ?_) fun _ =>
    Post.ite (fun _ => ?_) fun _ => Post.fail _
  · exact Post.ite (fun _ => Post.pure ⟨hb, hc⟩) fun _ => Post.ite (fun _ => Post.bind fun _ =>
      Post.ite (fun _ => Post.bind fun _ => Post.pure ⟨hb, hc⟩) fun _ => Post.fail _) fun _ => Post.fail _
  · exact Post.ite (fun _ => Post.fail _) fun _ => Post.bind fun _ => Post.ite (fun _ => Post.fail _) fun _ =>
      Post.ite (fun _ => Post.fail _) fun _ => Post.pure ⟨hb, hc⟩
  · exact Post.ite (fun _ => Post.fail _) fun _ => Post.bind fun _ => Post.ite (fun _ => Post.fail _) fun _ =>
      Post.bind fun _ => Post.bind fun _ => Post.bind fun _ => Post.ite (fun _ => Post.pure ⟨hb, hc⟩) fun _ =>
      Post.ite (fun _ => Post.pure ⟨hb, hc⟩) fun _ => Post.fail _

theorem chunkStep_good (acc : SurgeSpec) (hg : GoodSpecx acc) : Post (chunkStep acc) (fun r =>
    match r with
    | .inl a => GoodSpecx a
    | .inr p => GoodSpecx p.1) := by
  rw [chunkStep_eq]
  refine Post.bind fun p => ?_
  cases h : p.1 <;> simp only [chunkBody]
  · refine Post.bind' (readFmtChunk_post _) fun x hx => Post.pure ?_
    intro y hy
    simp only [Option.some.injEq] at hy
    rw [← hy]; exact hx
  · exact Post.bind fun x => Post.pure hg
  · exact Post.pure hg
  · exact Post.bind fun x => Post.pure hg
  · exact Post.bind fun x => Post.pure hg
  · exact Post.bind fun x => Post.pure hg
  · exact Post.bind fun x => Post.pure hg
  · exact Post.bind fun x => Post.pure hg
  · exact Post.pure hg
  · exact Post.bind fun x => Post.pure hg

theorem chunkBody_inr (acc : SurgeSpec) (k : ChunkKind) (n : Nat) (s : Bytes) (q : SurgeSpec × Nat) (s' : Bytes)
    (h : chunkBody acc k n s = (.ok (.inr q), s')) : k = .data ∧ q = (acc, n) ∧ s' = s := by
  have key : ∀ {α : Type} (m : Rd α) (f : α → SurgeSpec),
      (do let x ← m; pure (Sum.inl (f x)) : Rd (SurgeSpec ⊕ (SurgeSpec × Nat))) s ≠ (.ok (.inr q), s') := by
    intro α m f hh
    rw [Rd.bind_def] at hh
    rcases hm : m s with ⟨(a | e | w), s1⟩ <;> rw [hm] at hh <;> simp at hh
  cases k <;> simp only [chunkBody] at h
  · exact absurd h (key _ _)
  · exact absurd h (key _ _)
  · simp at h
  · exact absurd h (key _ _)
  · exact absurd h (key _ _)
  · exact absurd h (key _ _)
  · exact absurd h (key _ _)
  · exact absurd h (key _ _)
  · simp only [Rd.pure_def, Prod.mk.injEq, Res.ok.injEq, Sum.inr.injEq] at h
    exact ⟨rfl, h.1.symm, h.2.symm⟩
  · exact absurd h (key _ _)

/-- When the scan returns, it stopped right behind a `data` chunk header whose length field it reports. -/
theorem untilData_good (n : Nat) : ∀ (s : Bytes), s.length ≤ n → ∀ (acc : SurgeSpec) r s', GoodSpecx acc →
    untilData acc s = (.ok r, s') →
    GoodSpecx r.1 ∧ r.2 < 2 ^ 32 ∧ ∃ pre, s = pre ++ (tagData ++ le 4 r.2) ++ s' := by
  induction n using Nat.strongRecOn with
  | ind n ih =>
    intro s hs acc r s' hg hr
    have hgood := chunkStep_good acc hg s
    rcases hc : Verif.Hound.chunkStep acc s with ⟨((acc' | q) | e | p), s1⟩
    · have hlen := chunkStep_consumes acc s _ s1 hc
      rw [untilData_inl hc] at hr
      obtain ⟨h1, h2, pre, h3⟩ := ih s1.length (by omega) s1 (Nat.le_refl _) acc' r s' (hgood _ _ hc) hr
      have : ∃ p0, s = p0 ++ s1 := by
        rw [chunkStep_eq] at hc
        rcases readChunkHeader_cases s with ⟨h8, k, m, hk⟩ | ⟨_, s'', hk, _⟩
        · rw [Rd.bind_ok hk] at hc
          obtain ⟨j, hj⟩ := (Tame.chunkBody acc k m).suffix (s.drop 8)
          rw [hc] at hj
          simp only at hj
          rw [List.drop_drop] at hj
          exact ⟨s.take (8 + j), by rw [hj]; simp⟩
        · rw [Rd.bind_err hk] at hc; simp at hc
      obtain ⟨p0, rfl⟩ := this
      exact ⟨h1, h2, p0 ++ pre, by rw [h3]; simp⟩
    · rw [untilData_inr hc] at hr
      simp only [Prod.mk.injEq, Res.ok.injEq] at hr
      obtain ⟨rfl, rfl⟩ := hr
      have hgq := hgood _ _ hc
      rw [chunkStep_eq] at hc
      rcases readChunkHeader_cases s with ⟨h8, k, m, hk⟩ | ⟨_, s'', hk, _⟩
      · rw [Rd.bind_ok hk] at hc
        obtain ⟨hk1, hk2, hk3, _, _⟩ := readChunkHeader_id s k m _ hk
        obtain ⟨hkd, rfl, rfl⟩ := chunkBody_inr acc k m _ _ _ hc
        refine ⟨hgq, hk3, [], ?_⟩
        have hid : s.take 4 = tagData := by
          rw [hk1] at hkd
          unfold chunkKind at hkd
          repeat' (split at hkd; first | cases hkd | skip)
          all_goals first | assumption | cases hkd
        have e1 : s = s.take 4 ++ ((s.drop 4).take 4 ++ s.drop 8) := by
          have := List.take_append_drop 4 (s.drop 4)
          rw [List.drop_drop] at this
          rw [this, List.take_append_drop]
        rw [hid, hk2] at e1
        simpa using e1
      · rw [Rd.bind_err hk] at hc; simp at hc
    · rw [untilData_err hc] at hr; simp at hr
    · rw [untilData_panic hc] at hr; simp at hr
end Verif
