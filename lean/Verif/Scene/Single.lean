import Verif.Scene.Props
/-!
# The single-trigger monophonic modes of a scene (C244-C246)

surge-scene/src/scene/{play_voice,play_voice_portamento,polyphony,release,release_single_triggered,play}.rs, with the pedal up; `legato` of a voice moves its key (what it does to the pitch is C128).  Not
modelled: the attack and release of the scene's LFOs, release velocities.  Creating a voice panics at this commit: `create_voice_runtime` calls `modulation_voice`, which is `todo!()`.
-/
namespace Verif.Scene.Single
open Verif Verif.Scene

/-! ## Model -/

/-- surge-mpe/src/unit.rs 46-51 `get_mpe_main_channel`. -/
def mainChannel (mpe : Bool) (c : Int) : Int := if mpe then 0 else c

/-- surge-voice/src/portamento.rs 5-29 `legato`, what the scene sees of it. -/
def Voice.legato (v : Voice) (k : Int) : Voice := ⟨v.id, k, v.channel, v.gate, v.uber, v.age, v.ageRelease⟩

/-- play_voice_portamento.rs 18-39: the loop; the voices, and whether a held one was found. -/
def playLoop (mpe : Bool) (ch key : Int) : List Voice → List Voice × Bool
  | [] => ([], false)
  | v :: vs =>
    if v.gate then (⟨v.id, key, if mpe then ch else v.channel, v.gate, v.uber, v.age, v.ageRelease⟩ :: vs, true)
    else (v.uberRelease :: (playLoop mpe ch key vs).1, (playLoop mpe ch key vs).2)

/-- create.rs 22-64 `voice_constructor`: process.rs 116-168 `create_voice_runtime` calls get.rs 106-108 `modulation_voice`. -/
def voiceConstructor : P Unit := .panic "not yet implemented"

/-- The scene: its voices, and the velocities of the held keys by channel and key (surge-midi), 0 for none. -/
structure St where
  vs : List Voice
  ks : Nat → Nat → Int

/-- `set_keystate`, `clear_keystate`. -/
def setKey (ks : Nat → Nat → Int) (ch k : Nat) (v : Int) : Nat → Nat → Int := fun c q => if c = ch ∧ q = k then v else ks c q

/-- The modes: play_voice.rs 44-73. -/
inductive Mode where
  | poly | mono | single
  deriving DecidableEq

/-- play_voice.rs 6-76 `play_voice` and play.rs 17-43 `play_note`: polyphony.rs 5-26, play_voice_mono.rs 5-45, play_voice_portamento.rs 6-61. -/
def noteOn (mode : Mode) (mpe : Bool) (limit : Int) (s : St) (ch k : Nat) (vel : Int) : P St := do
  let vs ← makeRoom s.vs limit
  match mode with
  | .poly => do let _ ← voiceConstructor; pure ⟨vs, setKey s.ks ch k vel⟩
  | .mono => do let _ ← voiceConstructor; pure ⟨vs.map Voice.uberRelease, setKey s.ks ch k vel⟩
  | .single =>
    if (playLoop mpe ch k vs).2 then pure ⟨(playLoop mpe ch k vs).1, setKey s.ks ch k vel⟩
    else do let _ ← voiceConstructor; pure ⟨(playLoop mpe ch k vs).1, setKey s.ks ch k vel⟩

/-- release_single_triggered.rs 53-72: the channels, for one key. -/
def mpeChannels (ks : Nat → Nat → Int) (ch k : Nat) : List Nat → Bool × Voice → Bool × Voice
  | [], p => p
  | c :: cs, p => mpeChannels ks ch k cs (if c ≠ ch ∧ ks c k ≠ 0 then (false, ⟨p.2.id, k, c, p.2.gate, p.2.uber, p.2.age, p.2.ageRelease⟩) else p)

/-- release_single_triggered.rs 41-75 `release_single_triggered_mpe_enabled`: the keys; `p.1` is `do_release`. -/
def mpeKeys (ks : Nat → Nat → Int) (ch : Nat) : List Nat → Bool × Voice → Bool × Voice
  | [], p => p
  | k :: kr, p => if p.1 then p else mpeKeys ks ch kr (mpeChannels ks ch k (List.range' 1 15) p)

/-- `i32` to `u8`, `try_into().unwrap()`. -/
def toU8 (x : Int) : P Int := if 0 ≤ x ∧ x < 256 then .ok x else .panic "out of range integral type conversion attempted"

/-- release_single_triggered.rs 5-39 `release_single_triggered` for one voice, with 77-102 without MPE. -/
def releaseSingle (mpe : Bool) (ks : Nat → Nat → Int) (ch key : Nat) (v : Voice) : P Voice := do
  let vc ← toU8 v.channel
  let _ ← toU8 v.key
  if v.key = key ∧ mainChannel mpe vc = mainChannel mpe ch then
    if mpe then
      let p := mpeKeys ks ch keysDown (true, v)
      pure (if p.1 then p.2.release else p.2)
    else match scanKeys ks ch keysDown with
      | some t => pure (Voice.legato v t.2)
      | none => pure v.release
  else pure v

/-- The loop over the voices (release.rs 60-69). -/
def releaseAll (mpe : Bool) (ks : Nat → Nat → Int) (ch key : Nat) : List Voice → P (List Voice)
  | [] => .ok []
  | v :: vs => do
    let v ← releaseSingle mpe ks ch key v
    let vs ← releaseAll mpe ks ch key vs
    pure (v :: vs)

/-- release.rs 39-103 `release_note` in the single-trigger modes with the pedal up. -/
def noteOff (mpe : Bool) (s : St) (ch k : Nat) : P St := do
  let vs ← releaseAll mpe (setKey s.ks ch k 0) ch k s.vs
  pure ⟨vs, setKey s.ks ch k 0⟩

/-- A key goes down or up. -/
inductive Ev where
  | down (k vel : Nat)
  | up (k : Nat)

/-- One event on the channel `ch`. -/
def step (mpe : Bool) (limit : Int) (ch : Nat) (s : St) : Ev → P St
  | .down k vel => noteOn .single mpe limit s ch k vel
  | .up k => noteOff mpe s ch k

/-- A history of events, the first first. -/
def run (mpe : Bool) (limit : Int) (ch : Nat) (s : St) : List Ev → P St
  | [] => .ok s
  | e :: es => do let s ← step mpe limit ch s e; run mpe limit ch s es

/-! ## Specification -/
namespace Spec

/-- A MIDI event: keys below 128, a pressed key has a velocity. -/
def Legal : Ev → Prop
  | .down k vel => k < 128 ∧ 1 ≤ vel ∧ vel < 128
  | .up k => k < 128

/-- The keys held after a history, `h0` those held before. -/
def held (h0 : Nat → Prop) : List Ev → Nat → Prop
  | [] => h0
  | .down k _ :: es => held (fun q => q = k ∨ h0 q) es
  | .up k :: es => held (fun q => q ≠ k ∧ h0 q) es

/-- Of the voices only the one in place `i` is held, and it plays the key `k`. -/
def Sounds (vs : List Voice) (i : Nat) (k : Int) : Prop :=
  (∃ v, vs[i]? = some v ∧ v.gate = true ∧ v.key = k) ∧ ∀ j v, vs[j]? = some v → j ≠ i → v.gate = false

/-- The highest of the held keys. -/
def Highest (h : Nat → Prop) (k : Int) : Prop := ∃ q : Nat, k = q ∧ q < 128 ∧ h q ∧ ∀ p, p < 128 → h p → p ≤ q

/-- What sounds after an event, when `k` sounded before and the keys `h` are held afterwards. -/
def Next (h : Nat → Prop) (k k' : Int) : Ev → Prop
  | .down q _ => k' = q
  | .up q => (k = q → Highest h k') ∧ (k ≠ q → k' = k)

/-- Key and channel are MIDI's. -/
def Midi (vs : List Voice) : Prop := ∀ v ∈ vs, 0 ≤ v.key ∧ v.key < 128 ∧ 0 ≤ v.channel ∧ v.channel < 16

end Spec

/-! ## C244 -/

theorem makeRoom_small {vs : List Voice} {limit : Int} (h : (vs.length : Int) < limit) (hl : limit ≤ 1000000) : makeRoom vs limit = .ok vs := by
  have hn : nonUber vs ≤ vs.length := List.countP_le_length
  have h1 : ((nonUber vs : Int) - limit + 1) ≤ 0 := by omega
  unfold makeRoom chkI32
  rw [if_pos (by omega)]
  simp only [Res.ok_bind]
  rw [if_pos (by omega)]
  simp only [Res.ok_bind]
  rw [show (max 0 ((nonUber vs : Int) - limit + 1)).toNat = 0 by omega]
  simp only [softkillN, Res.ok_bind, enforce, chkI32]
  rw [if_pos (by omega)]
  simp only [Res.ok_bind]
  rw [if_neg (by omega)]
  rfl

theorem playLoop_spec {ch key : Int} : ∀ {vs : List Voice} {i : Nat} {k : Int}, Spec.Sounds vs i k → (playLoop false ch key vs).2 = true ∧ Spec.Sounds (playLoop false ch key vs).1 i key ∧
    (playLoop false ch key vs).1.length = vs.length ∧ (Spec.Midi vs → 0 ≤ key → key < 128 → Spec.Midi (playLoop false ch key vs).1) ∧
    (∀ v, vs[i]? = some v → ∃ w, (playLoop false ch key vs).1[i]? = some w ∧ w.id = v.id ∧ w.channel = v.channel ∧ w.uber = v.uber) := by
  intro vs
  induction vs with
  | nil => intro i k h; obtain ⟨⟨v, hv, -⟩, -⟩ := h; simp at hv
  | cons a vs ih =>
    intro i k h
    by_cases hg : a.gate = true
    · have hi : i = 0 := by
        by_contra hne
        have := h.2 0 a rfl (by omega)
        rw [hg] at this; cases this
      subst hi
      simp only [playLoop, hg, if_true]
      refine ⟨trivial, ⟨⟨_, rfl, rfl, rfl⟩, ?_⟩, by simp, ?_, ?_⟩
      · intro j v hv hj
        obtain ⟨j, rfl⟩ : ∃ j', j = j' + 1 := ⟨j - 1, by omega⟩
        exact h.2 (j + 1) v hv (by omega)
      · intro hm h0 h1 v hv
        rcases List.mem_cons.mp hv with rfl | hv
        · exact ⟨h0, h1, (hm a List.mem_cons_self).2.2⟩
        · exact hm v (List.mem_cons_of_mem _ hv)
      · intro v hv
        cases hv
        exact ⟨_, rfl, rfl, rfl, rfl⟩
    · obtain ⟨⟨v, hv, hvg, hvk⟩, hr⟩ := h
      have hi : i ≠ 0 := by
        rintro rfl
        cases hv; exact hg hvg
      obtain ⟨i, rfl⟩ : ∃ j', i = j' + 1 := ⟨i - 1, by omega⟩
      have h' : Spec.Sounds vs i k := ⟨⟨v, hv, hvg, hvk⟩, fun j w hw hj => hr (j + 1) w hw (by omega)⟩
      obtain ⟨i1, i2, i3, i4, i5⟩ := ih h'
      have hg' : a.gate = false := by simpa using hg
      simp only [playLoop, hg', Bool.false_eq_true, if_false]
      refine ⟨i1, ⟨?_, ?_⟩, by simp [i3], ?_, ?_⟩
      · obtain ⟨w, w1, w2, w3⟩ := i2.1
        exact ⟨w, w1, w2, w3⟩
      · intro j w hw hj
        cases j with
        | zero => cases hw; rfl
        | succ j => exact i2.2 j w hw (by omega)
      · intro hm h0 h1 w hw
        rcases List.mem_cons.mp hw with rfl | hw
        · exact hm a List.mem_cons_self
        · exact i4 (fun v hv => hm v (List.mem_cons_of_mem _ hv)) h0 h1 w hw
      · intro w hw; exact i5 w hw

/-- What happens to one voice when a key is released without MPE. -/
def released (ks : Nat → Nat → Int) (ch key : Nat) (v : Voice) : Voice :=
  if v.key = key ∧ v.channel = ch then match scanKeys ks ch keysDown with
    | some t => Voice.legato v t.2
    | none => v.release
  else v

theorem releaseSingle_eq {ks : Nat → Nat → Int} {ch key : Nat} {v : Voice} (h : 0 ≤ v.key ∧ v.key < 128 ∧ 0 ≤ v.channel ∧ v.channel < 16) :
    releaseSingle false ks ch key v = .ok (released ks ch key v) := by
  unfold releaseSingle released toU8 mainChannel
  rw [if_pos (by omega)]
  simp only [Res.ok_bind]
  rw [if_pos (by omega)]
  simp only [Res.ok_bind, Bool.false_eq_true, if_false]
  by_cases hc : v.key = key ∧ v.channel = ch
  · rw [if_pos hc, if_pos hc]; cases scanKeys ks ch keysDown <;> rfl
  · rw [if_neg hc, if_neg hc]; rfl

theorem releaseAll_eq {ks : Nat → Nat → Int} {ch key : Nat} : ∀ {vs : List Voice}, Spec.Midi vs → releaseAll false ks ch key vs = .ok (vs.map (released ks ch key))
  | [], _ => rfl
  | v :: vs, h => by
    simp only [releaseAll, releaseSingle_eq (h v List.mem_cons_self), Res.ok_bind, releaseAll_eq (fun w hw => h w (List.mem_cons_of_mem _ hw)), List.map_cons, Res.pure_eq]

theorem released_gate {ks : Nat → Nat → Int} {ch key : Nat} {v : Voice} (h : v.gate = false) : (released ks ch key v).gate = false := by
  unfold released
  split_ifs
  · cases scanKeys ks ch keysDown
    · rfl
    · exact h
  · exact h

theorem released_midi {ks : Nat → Nat → Int} {ch key : Nat} {vs : List Voice} (h : Spec.Midi vs) : Spec.Midi (vs.map (released ks ch key)) := by
  intro w hw
  obtain ⟨v, hv, rfl⟩ := List.mem_map.mp hw
  have hm := h v hv
  unfold released
  split_ifs
  · cases hs : scanKeys ks ch keysDown with
    | none => exact hm
    | some t =>
      obtain ⟨c, k⟩ := t
      obtain ⟨-, hk, -⟩ := ((C51_fallback_is_highest_partial ks ch).1 c k).mp hs
      exact ⟨by simp [Voice.legato], by simp [Voice.legato]; omega, hm.2.2⟩
  · exact hm

/-- The situation: voice `i` alone is held, on the channel `ch`, and its key is down; `h` are the keys that are down. -/
structure Good (limit : Int) (ch i : Nat) (ident : Nat) (h : Nat → Prop) (s : St) (k : Int) : Prop where
  sounds : Spec.Sounds s.vs i k
  midi : Spec.Midi s.vs
  keys : ∀ q, s.ks ch q ≠ 0 ↔ h q
  room : (s.vs.length : Int) < limit
  chan : ∀ v, s.vs[i]? = some v → v.channel = ch ∧ v.id = ident ∧ v.uber = false

theorem good_down {limit : Int} {ch i ident : Nat} {h : Nat → Prop} {s : St} {k : Int} (hl : limit ≤ 1000000) (g : Good limit ch i ident h s k) {q vel : Nat} (hq : q < 128) (hv : 1 ≤ vel) :
    ∃ s', step false limit ch s (.down q vel) = .ok s' ∧ Good limit ch i ident (fun p => p = q ∨ h p) s' q := by
  obtain ⟨p1, p2, p3, p4, p5⟩ := playLoop_spec (ch := ch) (key := q) g.sounds
  refine ⟨⟨(playLoop false ch q s.vs).1, setKey s.ks ch q vel⟩, ?_, p2, p4 g.midi (by omega) (by omega), ?_, by simp only [p3]; exact g.room, ?_⟩
  · simp only [step, noteOn, makeRoom_small g.room hl, Res.ok_bind, p1, if_true, Res.pure_eq]
  · intro p
    simp only [setKey]
    by_cases hp : p = q
    · subst hp; simp; omega
    · simp only [hp, and_false, if_false, false_or]; exact g.keys p
  · intro w hw
    obtain ⟨⟨v, hv1, -⟩, -⟩ := g.sounds
    obtain ⟨w', w1, w2, w3, w4⟩ := p5 v hv1
    rw [hw] at w1; cases w1
    obtain ⟨c1, c2, c3⟩ := g.chan v hv1
    exact ⟨by rw [w3, c1], by rw [w2, c2], by rw [w4, c3]⟩

theorem setKey_keys {ks : Nat → Nat → Int} {ch q : Nat} {h : Nat → Prop} (hk : ∀ p, ks ch p ≠ 0 ↔ h p) (p : Nat) : setKey ks ch q 0 ch p ≠ 0 ↔ p ≠ q ∧ h p := by
  simp only [setKey, true_and]
  by_cases hp : p = q
  · subst hp; simp
  · simp only [hp, if_false, ne_eq, not_false_iff, true_and]; exact hk p

theorem noteOff_eq {s : St} {ch q : Nat} (hm : Spec.Midi s.vs) : noteOff false s ch q = .ok ⟨s.vs.map (released (setKey s.ks ch q 0) ch q), setKey s.ks ch q 0⟩ := by
  simp only [noteOff, releaseAll_eq hm, Res.ok_bind, Res.pure_eq]

theorem good_up {limit : Int} {ch i ident : Nat} {h : Nat → Prop} {s : St} {k : Int} (g : Good limit ch i ident h s k) {q : Nat} (hex : ∃ p, p < 128 ∧ p ≠ q ∧ h p) :
    ∃ s' k', step false limit ch s (.up q) = .ok s' ∧ Good limit ch i ident (fun p => p ≠ q ∧ h p) s' k' ∧ (k = q → Spec.Highest (fun p => p ≠ q ∧ h p) k') ∧ (k ≠ q → k' = k) := by
  obtain ⟨⟨v, hv, vg, vk⟩, hr⟩ := g.sounds
  obtain ⟨c1, c2, c3⟩ := g.chan v hv
  have hkeys := setKey_keys (q := q) g.keys
  have hsome : ∃ c t, scanKeys (setKey s.ks ch q 0) ch keysDown = some (c, t) := by
    cases hs : scanKeys (setKey s.ks ch q 0) ch keysDown with
    | none =>
      obtain ⟨p, p1, p2⟩ := hex
      exact absurd (((C51_fallback_is_highest_partial _ ch).2.mp hs) p p1) ((hkeys p).mpr p2)
    | some t => exact ⟨t.1, t.2, rfl⟩
  obtain ⟨c, t, ht⟩ := hsome
  obtain ⟨-, t1, t2, t3⟩ := ((C51_fallback_is_highest_partial _ ch).1 c t).mp ht
  have hgat : (s.vs.map (released (setKey s.ks ch q 0) ch q))[i]? = some (released (setKey s.ks ch q 0) ch q v) := by rw [List.getElem?_map, hv]; rfl
  have hrest : ∀ j w, (s.vs.map (released (setKey s.ks ch q 0) ch q))[j]? = some w → j ≠ i → w.gate = false := by
    intro j w hw hj
    rw [List.getElem?_map] at hw
    cases hjv : s.vs[j]? with
    | none => rw [hjv] at hw; cases hw
    | some u => rw [hjv] at hw; cases hw; exact released_gate (hr j u hjv hj)
  have hrel : released (setKey s.ks ch q 0) ch q v = if v.key = q then Voice.legato v t else v := by
    unfold released
    by_cases hc : v.key = q
    · rw [if_pos ⟨hc, c1⟩, ht, if_pos hc]
    · rw [if_neg (fun a => hc a.1), if_neg hc]
  refine ⟨_, (released (setKey s.ks ch q 0) ch q v).key, noteOff_eq g.midi, ⟨⟨⟨_, hgat, ?_, rfl⟩, hrest⟩, released_midi g.midi, hkeys, by simp; exact g.room, ?_⟩, ?_, ?_⟩
  · rw [hrel]; split_ifs
    · exact vg
    · exact vg
  · intro w hw
    rw [hgat] at hw
    cases hw
    rw [hrel]; split_ifs
    · exact ⟨c1, c2, c3⟩
    · exact ⟨c1, c2, c3⟩
  · intro hkq
    rw [hrel, if_pos (by rw [vk]; exact hkq)]
    refine ⟨t, rfl, t1, (hkeys t).mp t2, fun p p1 p2 => ?_⟩
    by_contra hlt
    exact absurd (t3 p p1 (by omega)) ((hkeys p).mpr p2)
  · intro hkq
    rw [hrel, if_neg (by rw [vk]; exact hkq)]
    exact vk

theorem run_snoc {mpe : Bool} {limit : Int} {ch : Nat} : ∀ {es : List Ev} {s : St} {e : Ev}, run mpe limit ch s (es ++ [e]) = (run mpe limit ch s es >>= fun s => step mpe limit ch s e)
  | [], s, e => by simp only [List.nil_append, run, Res.ok_bind]; cases step mpe limit ch s e <;> rfl
  | a :: es, s, e => by
    simp only [List.cons_append, run]
    cases step mpe limit ch s a with
    | ok s1 => simp only [Res.ok_bind]; exact run_snoc
    | err x => rfl
    | panic w => rfl

theorem held_snoc {es : List Ev} : ∀ {h0 : Nat → Prop} {e : Ev}, Spec.held h0 (es ++ [e]) = (match e with | .down k _ => fun q => q = k ∨ Spec.held h0 es q | .up k => fun q => q ≠ k ∧ Spec.held h0 es q) := by
  induction es with
  | nil => intro h0 e; cases e <;> rfl
  | cons a es ih => intro h0 e; cases a <;> exact ih

theorem good_run {limit : Int} {ch i ident : Nat} {s0 : St} {k0 : Int} {h0 : Nat → Prop} (hl : limit ≤ 1000000) (g : Good limit ch i ident h0 s0 k0) : ∀ n (es : List Ev), es.length = n →
    (∀ e ∈ es, Spec.Legal e) → (∀ m, ∃ p, p < 128 ∧ Spec.held h0 (es.take m) p) → ∃ s k, run false limit ch s0 es = .ok s ∧ Good limit ch i ident (Spec.held h0 es) s k := by
  intro n
  induction n with
  | zero =>
    intro es hn _ _
    rw [List.eq_nil_of_length_eq_zero hn]
    exact ⟨s0, k0, rfl, g⟩
  | succ n ih =>
    intro es hn hleg hex
    rcases List.eq_nil_or_concat es with rfl | ⟨es', e, rfl⟩
    · simp at hn
    rw [List.concat_eq_append] at *
    have hlen : es'.length = n := by simp at hn; exact hn
    have hex' : ∀ m, ∃ p, p < 128 ∧ Spec.held h0 (es'.take m) p := by
      intro m
      have := hex (min m n)
      rw [List.take_append_of_le_length (by omega)] at this
      have he : es'.take (min m n) = es'.take m := by
        by_cases hmn : m ≤ n
        · rw [Nat.min_eq_left hmn]
        · rw [Nat.min_eq_right (by omega), List.take_of_length_le (by omega), List.take_of_length_le (by omega)]
      rw [he] at this; exact this
    obtain ⟨s, k, hs, hg⟩ := ih es' hlen (fun e he => hleg e (List.mem_append_left _ he)) hex'
    have hle := hleg e (by simp)
    have hfull := hex (n + 1)
    rw [List.take_of_length_le (by simp [hlen]), held_snoc] at hfull
    rw [run_snoc, hs, held_snoc]
    simp only [Res.ok_bind]
    cases e with
    | down q vel =>
      obtain ⟨s', h1, h2⟩ := good_down hl hg hle.1 hle.2.1
      exact ⟨s', q, h1, h2⟩
    | up q =>
      obtain ⟨p, p1, p2⟩ := hfull
      obtain ⟨s', k', h1, h2, -, -⟩ := good_up hg ⟨p, p1, p2.1, p2.2⟩
      exact ⟨s', k', h1, h2⟩

/-- **C244.**  Legato in a single-trigger mode: however many keys go down and up on the channel of the sounding voice, as long as one is held all the time, nothing panics and the same voice stays the only held
one, never released or started anew; it plays the key pressed last, and when the key it plays is released it moves to the highest key still held; releasing another key changes nothing.  When the last key is
released, the voice is. -/
theorem C244_legato {limit : Int} (hl : limit ≤ 1000000) {vs : List Voice} {ks : Nat → Nat → Int} {ch i : Nat} {v : Voice} (hv : vs[i]? = some v) (hu : v.uber = false) (hc : v.channel = ch)
    (hsound : Spec.Sounds vs i v.key) (hm : Spec.Midi vs) (hroom : (vs.length : Int) < limit) (hdown : ks ch v.key.toNat ≠ 0) (es : List Ev) (hleg : ∀ e ∈ es, Spec.Legal e)
    (hheld : ∀ m, ∃ p, p < 128 ∧ Spec.held (fun q => ks ch q ≠ 0) (es.take m) p) :
    ∃ s k w, run false limit ch ⟨vs, ks⟩ es = .ok s ∧ Spec.Sounds s.vs i k ∧ s.vs[i]? = some w ∧ w.id = v.id ∧ w.uber = false ∧
      (∀ e, Spec.Legal e → (∃ p, p < 128 ∧ Spec.held (fun q => ks ch q ≠ 0) (es ++ [e]) p) → ∃ s' k', run false limit ch ⟨vs, ks⟩ (es ++ [e]) = .ok s' ∧ Spec.Sounds s'.vs i k' ∧
        Spec.Next (Spec.held (fun q => ks ch q ≠ 0) (es ++ [e])) k k' e) ∧
      (∀ q, (∀ p, p < 128 → Spec.held (fun q => ks ch q ≠ 0) es p → p = q) → k = q → ∃ s' w', run false limit ch ⟨vs, ks⟩ (es ++ [.up q]) = .ok s' ∧ s'.vs[i]? = some w' ∧ w'.gate = false ∧
        ∀ (j : Nat) (u : Voice), s'.vs[j]? = some u → u.gate = false) := by
  have g0 : Good limit ch i v.id (fun q => ks ch q ≠ 0) ⟨vs, ks⟩ v.key := by
    refine ⟨hsound, hm, fun q => Iff.rfl, hroom, fun w hw => ?_⟩
    rw [hv] at hw; cases hw
    exact ⟨hc, rfl, hu⟩
  obtain ⟨s, k, hs, g⟩ := good_run hl g0 es.length es rfl hleg hheld
  obtain ⟨⟨w, hw, wg, wk⟩, hrest⟩ := g.sounds
  obtain ⟨c1, c2, c3⟩ := g.chan w hw
  refine ⟨s, k, w, hs, g.sounds, hw, c2, c3, ?_, ?_⟩
  · intro e hle hex
    rw [held_snoc] at hex ⊢
    rw [run_snoc, hs]
    simp only [Res.ok_bind]
    cases e with
    | down q vel =>
      obtain ⟨s', h1, h2⟩ := good_down hl g hle.1 hle.2.1
      exact ⟨s', q, h1, h2.sounds, rfl⟩
    | up q =>
      obtain ⟨p, p1, p2⟩ := hex
      obtain ⟨s', k', h1, h2, h3, h4⟩ := good_up g ⟨p, p1, p2.1, p2.2⟩
      exact ⟨s', k', h1, h2.sounds, h3, h4⟩
  · intro q hq hkq
    have hnone : scanKeys (setKey s.ks ch q 0) ch keysDown = none := by
      refine (C51_fallback_is_highest_partial _ ch).2.mpr fun p hp => ?_
      by_contra hne
      obtain ⟨a, b⟩ := (setKey_keys (q := q) g.keys p).mp hne
      exact a (hq p hp b)
    have hgat : (s.vs.map (released (setKey s.ks ch q 0) ch q))[i]? = some w.release := by
      rw [List.getElem?_map, hw]
      simp only [Option.map_some, released]
      rw [if_pos ⟨by rw [wk, hkq], c1⟩, hnone]
    refine ⟨⟨_, setKey s.ks ch q 0⟩, w.release, ?_, hgat, rfl, ?_⟩
    · rw [run_snoc, hs]; exact noteOff_eq g.midi
    · intro j u hu'
      by_cases hj : j = i
      · subst hj; rw [hgat] at hu'; cases hu'; rfl
      · rw [List.getElem?_map] at hu'
        cases hjv : s.vs[j]? with
        | none => rw [hjv] at hu'; cases hu'
        | some u' => rw [hjv] at hu'; cases hu'; exact released_gate (hrest j u' hjv hj)

/-- Three keys on one voice: 60, then 64 and 62; 62 is released, then 64, then 60. -/
example : let v : Voice := ⟨7, 60, 0, true, false, 5, 0⟩
    let ks : Nat → Nat → Int := fun c k => if c = 0 ∧ k = 60 then 100 else 0
    let es : List Ev := [.down 64 100, .down 62 90, .up 62, .up 64]
    (Spec.Sounds [v] 0 v.key ∧ Spec.Midi [v] ∧ ks 0 v.key.toNat ≠ 0 ∧ (∀ e ∈ es, Spec.Legal e) ∧ ∀ m, ∃ p, p < 128 ∧ Spec.held (fun q => ks 0 q ≠ 0) (es.take m) p) ∧
    (∀ n, n ≤ 4 → ∃ s, run false 8 0 ⟨[v], ks⟩ (es.take n) = .ok s ∧ s.vs.map (fun v => v.key) = [[60, 64, 62, 64, 60].getD n 0]) := by
  intro v ks es
  refine ⟨⟨⟨⟨v, rfl, rfl, rfl⟩, ?_⟩, ?_, by decide, ?_, ?_⟩, ?_⟩
  · intro j w hw hj
    cases j with
    | zero => exact absurd rfl hj
    | succ j => simp at hw
  · intro w hw
    rw [List.mem_singleton.mp hw]; decide
  · intro e he
    simp only [es, List.mem_cons, List.not_mem_nil, or_false] at he
    rcases he with rfl | rfl | rfl | rfl <;> simp [Spec.Legal]
  · intro m
    refine ⟨60, by decide, ?_⟩
    rcases m with _ | _ | _ | _ | m <;> simp [es, Spec.held, ks]
  · intro n hn
    have : n = 0 ∨ n = 1 ∨ n = 2 ∨ n = 3 ∨ n = 4 := by omega
    rcases this with rfl | rfl | rfl | rfl | rfl
    · exact ⟨_, rfl, rfl⟩
    · exact ⟨_, rfl, rfl⟩
    · exact ⟨_, rfl, rfl⟩
    · exact ⟨_, rfl, rfl⟩
    · exact ⟨_, rfl, rfl⟩

/-- **C245** (refuted: with MPE too the voice moves to a key still held).  With MPE on, releasing the key of the sounding voice always releases the voice, whatever keys are held on whatever channels: the search
is left before its first step. -/
theorem C245_mpe_refuted (ks : Nat → Nat → Int) (ch key : Nat) {v : Voice} (hk : v.key = key) (hm : 0 ≤ v.key ∧ v.key < 128 ∧ 0 ≤ v.channel ∧ v.channel < 16) :
    releaseSingle true ks ch key v = .ok v.release := by
  unfold releaseSingle toU8 mainChannel
  rw [if_pos (by omega)]
  simp only [Res.ok_bind]
  rw [if_pos (by omega)]
  simp only [Res.ok_bind, if_true, and_true, hk, if_true]
  rw [show mpeKeys ks ch keysDown (true, v) = (true, v) from rfl]
  rfl

/-- **C245** (refuted: a key released is silent).  Without MPE a key played on another channel takes the sounding voice over, but the voice stays on its own channel, so that releasing the key does nothing:
it sounds on, with no key held on the other channel, whatever is held on the voice's. -/
theorem C245_other_channel_refuted {limit : Int} (hl : limit ≤ 1000000) {v : Voice} (hg : v.gate = true) (ks : Nat → Nat → Int) {ch q vel : Nat} (hq : q < 128) (hc : v.channel ≠ ch)
    (hm : Spec.Midi [v]) (hr : 1 < limit) : ∃ s, run false limit ch ⟨[v], ks⟩ [.down q vel, .up q] = .ok s ∧ ∃ w, s.vs = [w] ∧ w.gate = true ∧ w.key = q ∧ s.ks ch q = 0 := by
  have hmv := hm v (by simp)
  refine ⟨⟨[Voice.legato v q], setKey (setKey ks ch q vel) ch q 0⟩, ?_, Voice.legato v q, rfl, hg, rfl, by simp [setKey]⟩
  have h1 : playLoop false ch q [v] = ([Voice.legato v q], true) := by simp [playLoop, hg, Voice.legato]
  have h2 : Spec.Midi [Voice.legato v q] := by
    intro w hw; rw [List.mem_singleton.mp hw]; exact ⟨by simp [Voice.legato], by simp [Voice.legato]; omega, hmv.2.2⟩
  simp only [run, step, noteOn, makeRoom_small (vs := [v]) (limit := limit) (by simpa using hr) hl, Res.ok_bind, h1, if_true, Res.pure_eq, noteOff_eq (s := ⟨[Voice.legato v q], setKey ks ch q vel⟩) h2]
  have h3 : ∀ ks', released ks' ch q (Voice.legato v q) = Voice.legato v q := by
    intro ks'
    unfold released
    rw [if_neg (fun a => hc a.2)]
  simp [h3]

/-- **C245** (refuted: the polyphony limit does not matter to one voice).  With the limit at 1 a legato note in a single-trigger mode kills the sounding voice to make room for itself, and then needs a new one. -/
theorem C245_limit_one_refuted {v : Voice} (hg : v.gate = true) (hu : v.uber = false) (ha : 0 < v.age) (ks : Nat → Nat → Int) (ch q : Nat) (vel : Int) :
    makeRoom [v] 1 = .ok [v.uberRelease] ∧ noteOn .single false 1 ⟨[v], ks⟩ ch q vel = .panic "not yet implemented" := by
  have h1 : makeRoom [v] 1 = .ok [v.uberRelease] := by
    have hs : softkill [v] = .ok [v.uberRelease] := by
      have hne : v.age ≠ 0 := by omega
      have hk : Kill.scan {} 0 [v] = { maxAge := v.age, playing := some 0 } := by
        simp only [Kill.scan, Kill.step, hg, if_true]; rw [if_pos ha]
      simp only [softkill, hk]
      rw [if_neg (by simp), if_pos hne]
      rfl
    have hn : nonUber [v] = 1 := by simp [nonUber, hu]
    unfold makeRoom
    rw [hn]
    show softkillN 1 [v] >>= (fun vs => enforce vs 1 3) = _
    have h1 : softkillN 1 [v] = .ok [v.uberRelease] := by simp only [softkillN, hs, Res.ok_bind]
    rw [h1]
    rfl
  refine ⟨h1, ?_⟩
  simp only [noteOn, h1, Res.ok_bind]
  rfl

theorem ok_of_bind {α β : Type} {r : P α} {f : α → P β} {b : β} (h : (r >>= f) = .ok b) : ∃ a, r = .ok a ∧ f a = .ok b := by
  cases r with
  | ok a => exact ⟨a, rfl, h⟩
  | err e => exact e.elim
  | panic w => cases h

theorem uberAt_gate {vs vs' : List Voice} {i : Option Nat} (hn : ∀ v ∈ vs, v.gate = false) (h : uberAt vs i = .ok vs') : ∀ v ∈ vs', v.gate = false := by
  unfold uberAt at h
  split at h
  · cases h
  · cases h
    intro v hv
    obtain ⟨j, hj⟩ := List.mem_iff_getElem?.mp hv
    rw [List.getElem?_modify] at hj
    cases hw : vs[j]? with
    | none => rw [hw] at hj; simp at hj
    | some w =>
      rw [hw] at hj
      have hwg := hn w (List.mem_of_getElem? hw)
      simp only [Option.map_eq_map, Option.map_some, Option.some.injEq] at hj
      subst hj
      split_ifs
      · rfl
      · exact hwg

theorem softkillN_gate : ∀ {n : Nat} {vs vs' : List Voice}, (∀ v ∈ vs, v.gate = false) → softkillN n vs = .ok vs' → ∀ v ∈ vs', v.gate = false
  | 0, vs, vs', hn, h => by cases h; exact hn
  | n + 1, vs, vs', hn, h => by
    obtain ⟨vs1, h1, h2⟩ := ok_of_bind h
    refine softkillN_gate ?_ h2
    unfold softkill at h1
    simp only at h1
    split_ifs at h1
    · exact uberAt_gate hn h1
    · exact uberAt_gate hn h1
    · cases h1; exact hn

theorem freeAll_gate : ∀ {is : List Nat} {vs vs' : List Voice}, (∀ v ∈ vs, v.gate = false) → freeAll vs is = .ok vs' → ∀ v ∈ vs', v.gate = false
  | [], vs, vs', hn, h => by cases h; exact hn
  | i :: is, vs, vs', hn, h => by
    obtain ⟨vs1, h1, h2⟩ := ok_of_bind h
    refine freeAll_gate ?_ h2
    unfold freeVoice at h1
    split_ifs at h1
    cases h1
    exact fun v hv => hn v (List.mem_of_mem_eraseIdx hv)

theorem enforce_gate {vs vs' : List Voice} {a b : Int} (hn : ∀ v ∈ vs, v.gate = false) (h : enforce vs a b = .ok vs') : ∀ v ∈ vs', v.gate = false := by
  unfold enforce at h
  obtain ⟨lm, -, h⟩ := ok_of_bind h
  split_ifs at h
  · obtain ⟨d, -, h⟩ := ok_of_bind h
    obtain ⟨e, -, h⟩ := ok_of_bind h
    exact freeAll_gate hn h
  · cases h; exact hn

theorem playLoop_none {mpe : Bool} {ch k : Int} : ∀ {vs : List Voice}, (∀ v ∈ vs, v.gate = false) → (playLoop mpe ch k vs).2 = false
  | [], _ => rfl
  | v :: vs, h => by
    simp only [playLoop, h v List.mem_cons_self, Bool.false_eq_true, if_false]
    exact playLoop_none fun w hw => h w (List.mem_cons_of_mem _ hw)

/-- **C246** (refuted: a note can be started).  At this commit no note starts a voice: in every mode, with every polyphony limit, on every scene without a held voice, playing a note panics. -/
theorem C246_no_note_refuted (mode : Mode) (mpe : Bool) (limit : Int) {s : St} (hn : ∀ v ∈ s.vs, v.gate = false) (ch k : Nat) (vel : Int) : (noteOn mode mpe limit s ch k vel).isPanic := by
  have h : ∀ vs, makeRoom s.vs limit = .ok vs → ∀ v ∈ vs, v.gate = false := by
    intro vs hvs
    unfold makeRoom at hvs
    obtain ⟨d, -, hvs⟩ := ok_of_bind hvs
    obtain ⟨e, -, hvs⟩ := ok_of_bind hvs
    obtain ⟨vs1, h1, hvs⟩ := ok_of_bind hvs
    exact enforce_gate (softkillN_gate hn h1) hvs
  unfold noteOn
  cases hr : makeRoom s.vs limit with
  | err e => exact e.elim
  | panic w => rfl
  | ok vs =>
    simp only [Res.ok_bind]
    cases mode with
    | poly => rfl
    | mono => rfl
    | single => rw [playLoop_none (h vs hr)]; rfl

end Verif.Scene.Single
