import Verif.Midi.Props
/-!
# Properties of the MIDI front end (continued): parameters, programs, routing, expression, learning
-/
namespace Verif.Midi
open Verif.Float

/-! ## C29: registered parameters -/

/-- C29 (part). After every legal history the bend ranges, the MPE switch and the voice count are what the data
entries for the selected registered parameters say. Missing: non-registered parameters
(`C29_nrpn_entry_panics`, `C29_nrpn_msb_lost`). -/
theorem C29_data_entry_partial {s0 : Synth} (f : Fresh s0) {h : List Msg} (hl : ∀ m ∈ h, m.Legal) {s : Synth}
    (hs : s0.run h.reverse = .ok s) :
    s.mpe.enabled = mpeOn h ∧ s.mpe.numVoices = mpeVoices h ∧ s.mpe.globalPitchbendRange = masterRange h ∧
    s.mpe.pitchbendRange = noteRange h :=
  have i := Inv.run f hl hs
  ⟨i.enabled, i.voices, i.master, i.note⟩

/-- C29. A message that changes one of those four settings is a data entry on a channel whose last selected
parameter was registered, namely the bend range (channels 0 and 1 only) or the MPE configuration. -/
theorem C29_changes_only_when_selected {s0 : Synth} (f : Fresh s0) {h : List Msg} {m : Msg}
    (hl : ∀ x ∈ m :: h, x.Legal) {s s' : Synth} (hs : s0.run h.reverse = .ok s) (hm : s.handle m = .ok s')
    (hne : s'.mpe.enabled ≠ s.mpe.enabled ∨ s'.mpe.numVoices ≠ s.mpe.numVoices ∨
      s'.mpe.globalPitchbendRange ≠ s.mpe.globalPitchbendRange ∨ s'.mpe.pitchbendRange ≠ s.mpe.pitchbendRange) :
    ∃ ch v, m = .controller ch 6 v ∧ nrpnSelected ch h = false ∧ lastCc ch 101 h = 0 ∧
      ((lastCc ch 100 h = 0 ∧ ch ≤ 1) ∨ lastCc ch 100 h = 6) := by
  have hl' : ∀ m ∈ h, m.Legal := fun m hm => hl m (List.mem_cons_of_mem _ hm)
  have hrun : s0.run (m :: h).reverse = .ok s' := by rw [run_snoc, hs, Res.ok_bind, hm]
  have i := Inv.run f hl' hs
  have i' := Inv.run f hl hrun
  rw [i.enabled, i.voices, i.master, i.note, i'.enabled, i'.voices, i'.master, i'.note] at hne
  cases he : rpnEntry h m with
  | none =>
    obtain ⟨a, b, c, d⟩ := spec_mpe_frame he
    rw [a, b, c, d] at hne
    simp at hne
  | some q =>
    obtain ⟨ch, l, ms, v⟩ := q
    unfold rpnEntry at he
    split at he
    · rename_i ch' v'
      split at he
      · cases he
      · rename_i hn
        injection he with he
        injection he with e1 e2
        injection e2 with e2 e3
        injection e3 with e3 e4
        subst e1; subst e2; subst e3; subst e4
        refine ⟨ch', v', rfl, by simpa using hn, ?_⟩
        by_contra hcon
        have hq : rpnEntry h (.controller ch' 6 v') = some (ch', lastCc ch' 100 h, lastCc ch' 101 h, v') := by
          simp [rpnEntry, hn]
        have h6 : ¬(lastCc ch' 100 h = 6 ∧ lastCc ch' 101 h = 0) := fun x => hcon ⟨x.2, Or.inr x.1⟩
        have h0 : ¬(ch' ≤ 1 ∧ lastCc ch' 100 h = 0 ∧ lastCc ch' 101 h = 0) :=
          fun x => hcon ⟨x.2.2, Or.inl ⟨x.2.1, x.1⟩⟩
        have e1 : mpeOn (.controller ch' 6 v' :: h) = mpeOn h := by
          simp only [mpeOn, newest, hq]
          clear hne hm hrun i' hcon hq hn hl i
          generalize lastCc ch' 100 h = L at *
          generalize lastCc ch' 101 h = M at *
          split <;> rename_i heq <;> split at heq <;> simp_all
        have e2 : mpeVoices (.controller ch' 6 v' :: h) = mpeVoices h := by
          simp only [mpeVoices, newest, hq]
          clear hne hm hrun i' hcon hq hn hl i
          generalize lastCc ch' 100 h = L at *
          generalize lastCc ch' 101 h = M at *
          split <;> rename_i heq <;> split at heq <;> simp_all
        have e3 : masterRange (.controller ch' 6 v' :: h) = masterRange h := by
          simp only [masterRange, newest, hq]
          clear hne hm hrun i' hcon hq hn hl i
          generalize lastCc ch' 100 h = L at *
          generalize lastCc ch' 101 h = M at *
          split <;> rename_i heq <;> split at heq <;> simp_all
        have e4 : noteRange (.controller ch' 6 v' :: h) = noteRange h := by
          simp only [noteRange, hq]
          clear hne hm hrun i' hcon hq hn hl i
          generalize lastCc ch' 100 h = L at *
          generalize lastCc ch' 101 h = M at *
          split <;> rename_i heq <;> simp_all
        rw [e1, e2, e3, e4] at hne
        simp at hne
    · cases he

/-- C29 fails (1): after a non-registered parameter is selected, data entry on that channel panics. -/
theorem C29_nrpn_entry_panics {s0 : Synth} (f : Fresh s0) (p : Playable s0) {h : List Msg} {ch : Nat} {v : Int}
    (hl : ∀ x ∈ Msg.controller ch 6 v :: h, x.Legal) (hr : nrpnSelected ch h = true) :
    ∃ w, s0.run (Msg.controller ch 6 v :: h).reverse = .panic w :=
  run_crash f p hl (by show (nrpnSelected ch h || crashes h) = true; rw [hr]; rfl)

/-- C29 fails (2): the MSB of a non-registered parameter is never stored: it reads 0 after every history, and the
MSB message overwrites the LSB. -/
theorem C29_nrpn_msb_lost {s0 : Synth} (f : Fresh s0) {h : List Msg} {ch : Nat} {v : Int}
    (hl : ∀ x ∈ Msg.controller ch 99 v :: h, x.Legal) {s : Synth}
    (hs : s0.run (Msg.controller ch 99 v :: h).reverse = .ok s) :
    (s.chans ch).nrpn1 = 0 ∧ (s.chans ch).nrpn0 = v := by
  have hc : ch < 16 := (hl _ List.mem_cons_self).1
  refine ⟨(Inv.run f hl hs).nrpn1 ch hc, ?_⟩
  rw [run_snoc] at hs
  cases ht : s0.run h.reverse with
  | err e => exact e.elim
  | panic w => rw [ht] at hs; cases hs
  | ok t =>
    rw [ht, Res.ok_bind] at hs
    obtain ⟨_, rfl⟩ := modChan_ok (s := t) (ch := ch)
      (f := fun c => { c with nrpn0 := v, nrpnLast := true }) hs
    simp [upd]

/-- C29 fails (3): a data entry on a channel where nothing was ever selected is taken for the bend range. -/
theorem C29_unselected_entry_sets_range {s0 : Synth} (f : Fresh s0) (p : Playable s0) {v : Int}
    (hv : 0 ≤ v ∧ v ≤ 127) :
    ∃ s, s0.run [.controller 0 6 v] = .ok s ∧ s.mpe.globalPitchbendRange = F32.ofInt v := by
  have hl : ∀ m ∈ [Msg.controller 0 6 v], m.Legal := by intro m hm; simp at hm; subst hm; simp [Msg.Legal, hv]
  obtain ⟨s, e, _⟩ := run_good f p hl rfl
  exact ⟨s, e, (Inv.run f hl e).master⟩

/-- Non-vacuity: an MPE configuration message sequence. -/
example : ∃ s, demo.run [.controller 0 100 6, .controller 0 101 0, .controller 0 6 15] = .ok s ∧
    s.mpe.enabled = true ∧ s.mpe.numVoices = 15 := by
  have hl : ∀ x ∈ [Msg.controller 0 6 15, .controller 0 101 0, .controller 0 100 6], x.Legal := by simp [Msg.Legal]
  obtain ⟨s, hs⟩ := (C47_runs_iff_partial demo_fresh demo_playable hl).1.mpr (by decide)
  have := C29_data_entry_partial demo_fresh hl hs
  exact ⟨s, hs, this.1, this.2.1⟩

/-! ## C30: bank and program -/

theorem SameBut.patch {s s' : Synth} (h : SameBut s s') : s'.patchidQueue = s.patchidQueue ∧
    s'.controllers = s.controllers ∧ s'.learnCustom = s.learnCustom := by
  obtain ⟨ks, rel, hb, e⟩ := h.eq
  subst e; exact ⟨rfl, rfl, rfl⟩

/-- Only a program change touches the queued patch. -/
theorem handle_patch {s s' : Synth} {m : Msg} (hm : s.handle m = .ok s') (hp : ∀ c v, m ≠ .program c v) :
    s'.patchidQueue = s.patchidQueue := by
  have tail : ∀ {t t' : Synth} {ch cc : Nat}, t.patchidQueue = s.patchidQueue → t.ccTail ch cc = .ok t' →
      t'.patchidQueue = s.patchidQueue := by
    intro t t' ch cc h1 h2
    obtain ⟨ct, lc, rfl⟩ := ccTail_frame h2
    exact h1
  have one : ∀ {t' : Synth} {ch} {g}, s.modChan ch g = .ok t' → t'.patchidQueue = s.patchidQueue := by
    intro t' ch g h
    obtain ⟨_, rfl⟩ := modChan_ok h; rfl
  cases m with
  | program c v => exact absurd rfl (hp c v)
  | noteOff a b c => exact (noteOff_frame hm).patch.1
  | noteOn a b c d => exact (noteOn_frame hm).patch.1
  | polyAftertouch a b c =>
    simp only [Synth.handle, Synth.polyAftertouch] at hm
    cases hm; split <;> rfl
  | channelAftertouch ch v =>
    simp only [Synth.handle, Synth.channelAftertouch] at hm
    cases h1 : (s.modChan ch fun c => { c with pressure := (F32.ofInt v).divC 127 }) with
    | err e => exact e.elim
    | panic w => rw [h1] at hm; cases hm
    | ok t =>
      rw [h1, Res.ok_bind] at hm
      have := one h1
      split at hm <;> cases hm <;> exact this
  | pitchBend ch v =>
    simp only [Synth.handle, Synth.pitchBend] at hm
    cases he : s.mpe.enabled with
    | false =>
      simp only [he, Bool.false_eq_true, if_false, Res.pure_eq, Res.ok_bind, Bool.not_false, Bool.true_or,
        if_true] at hm
      cases hm; rfl
    | true =>
      simp only [he, if_true] at hm
      generalize hq : (s.modChan (ch % 256) _) = q at hm
      cases q with
      | err e => exact e.elim
      | panic w => cases hm
      | ok t =>
        have := one hq
        rw [Res.ok_bind] at hm
        split at hm <;> cases hm <;> exact this
  | controller ch cc v =>
    simp only [Synth.handle] at hm
    unfold Synth.controller at hm
    by_cases e : cc = 0
    · rw [if_pos e] at hm; cases hm; rfl
    rw [if_neg e] at hm; clear e
    by_cases e : cc = 1
    · rw [if_pos e] at hm; exact tail (t := s.cc1 v) rfl hm
    rw [if_neg e] at hm; clear e
    by_cases e : cc = 6
    · rw [if_pos e] at hm
      unfold Synth.cc6 at hm
      cases h1 : s.chan ch with
      | err e => exact e.elim
      | panic w => rw [h1] at hm; cases hm
      | ok c =>
        rw [h1, Res.ok_bind] at hm
        split at hm
        · cases hm
        · cases h2 : (s.modChan ch fun c => { c with rpnV1 := v }) with
          | err e => exact e.elim
          | panic w => rw [h2] at hm; cases hm
          | ok t =>
            rw [h2, Res.ok_bind] at hm
            cases hm
            obtain ⟨mp, e⟩ := onRpn_frame t ch c.rpn0 c.rpn1 v
            have h3 := one h2
            rw [e]; exact h3
    rw [if_neg e] at hm; clear e
    have bip : ∀ {g : F32 → Chan → Chan}, (do let p ← int7ToBipolar v; s.modChan ch (g p)) = .ok s' →
        s'.patchidQueue = s.patchidQueue := by
      intro g h
      cases h1 : int7ToBipolar v with
      | err e => exact e.elim
      | panic w => rw [h1] at h; cases h
      | ok p => rw [h1, Res.ok_bind] at h; exact one h
    by_cases e : cc = 10
    · rw [if_pos e] at hm
      split at hm
      · exact bip hm
      · exact tail rfl hm
    rw [if_neg e] at hm; clear e
    by_cases e : cc = 38
    · rw [if_pos e] at hm
      generalize hq : (s.modChan ch _) = q at hm
      cases q with
      | err e => exact e.elim
      | panic w => cases hm
      | ok t => rw [Res.ok_bind] at hm; exact tail (one hq) hm
    rw [if_neg e] at hm; clear e
    by_cases e : cc = 64
    · rw [if_pos e] at hm; exact (cc64_frame hm).2.patch.1
    rw [if_neg e] at hm; clear e
    by_cases e : cc = 74
    · rw [if_pos e] at hm
      split at hm
      · exact bip hm
      · exact tail rfl hm
    rw [if_neg e] at hm; clear e
    by_cases e : cc = 98
    · rw [if_pos e] at hm; exact one hm
    rw [if_neg e] at hm; clear e
    by_cases e : cc = 99
    · rw [if_pos e] at hm; exact one hm
    rw [if_neg e] at hm; clear e
    by_cases e : cc = 100
    · rw [if_pos e] at hm; exact one hm
    rw [if_neg e] at hm; clear e
    by_cases e : cc = 101
    · rw [if_pos e] at hm; exact one hm
    rw [if_neg e] at hm; clear e
    by_cases e : cc = 120 ∨ cc = 123
    · rw [if_pos e] at hm; cases hm; rfl
    rw [if_neg e] at hm
    exact tail rfl hm

theorem bank_legal {h : List Msg} (hl : ∀ m ∈ h, m.Legal) : B7 (bank h) := by
  induction h with
  | nil => exact B7.zero
  | cons m h ih =>
    have ih := ih (fun m hm => hl m (List.mem_cons_of_mem _ hm))
    cases m with
    | controller ch cc v =>
      rw [(spec_controller h ch cc v).2.2.2.2.2.2.2.1]
      split
      · exact (hl _ List.mem_cons_self).2.2
      · exact ih
    | program _ _ => exact ih
    | pitchBend _ _ => exact ih
    | channelAftertouch _ _ => exact ih
    | polyAftertouch _ _ _ => exact ih
    | noteOff _ _ _ => exact ih
    | noteOn _ _ _ _ => exact ih

/-- C30. After every legal history the queued patch is the one the newest program change asked for: its program
number plus 128 times the bank selected before it (on any channel); no program change, no queued patch. -/
theorem C30_patch_queue {s0 : Synth} (f : Fresh s0) {h : List Msg} (hl : ∀ m ∈ h, m.Legal) {s : Synth}
    (hs : s0.run h.reverse = .ok s) : s.patchidQueue = wantedPatch h := by
  induction h generalizing s with
  | nil => cases hs; exact f.queue
  | cons m h ih =>
    have hl' : ∀ m ∈ h, m.Legal := fun m hm => hl m (List.mem_cons_of_mem _ hm)
    rw [run_snoc] at hs
    cases ht : s0.run h.reverse with
    | err e => exact e.elim
    | panic w => rw [ht] at hs; cases hs
    | ok t =>
      rw [ht, Res.ok_bind] at hs
      have iht := ih hl' ht
      by_cases hp : ∃ c v, m = .program c v
      · obtain ⟨c, v, rfl⟩ := hp
        have hb := bank_legal hl'
        have i := Inv.run f hl' ht
        have hv : B7 v := (hl _ List.mem_cons_self).2
        simp only [Synth.handle, Synth.programChange] at hs
        rw [shl7_add_ok _ _ (i.cc0 ▸ hb) hv] at hs
        cases hs
        show some (t.cc0 * 128 + v) = _
        rw [i.cc0]; rfl
      · rw [handle_patch hs (fun c v e => hp ⟨c, v, e⟩), iht]
        cases m with
        | program c v => exact absurd ⟨c, v, rfl⟩ hp
        | controller _ _ _ => rfl
        | pitchBend _ _ => rfl
        | channelAftertouch _ _ => rfl
        | polyAftertouch _ _ _ => rfl
        | noteOff _ _ _ => rfl
        | noteOn _ _ _ _ => rfl

example : ∃ s, demo.run [.controller 3 0 2, .program 5 7] = .ok s ∧ s.patchidQueue = some 263 := by
  have hl : ∀ x ∈ [Msg.program 5 7, .controller 3 0 2], x.Legal := by simp [Msg.Legal]
  obtain ⟨s, hs⟩ := (C47_runs_iff_partial demo_fresh demo_playable hl).1.mpr (by decide)
  exact ⟨s, hs, C30_patch_queue demo_fresh hl hs⟩

/-! ## C31: scene routing -/

/-- C31 (part). Every note is routed to a scene, in every mode, for every channel, key, split point and MPE setting,
except on channel 0 in channel split mode. Single: the active scene. Dual: both; key split: the first scene below
the split point, else the second (channels 1 and 2 override both: they play scene A and B, unless MPE is on).
Channel split: the first scene up to channel split/8. -/
theorem C31_routing_partial (s : Synth) (hm : 0 ≤ s.sceneMode ∧ s.sceneMode ≤ 3) (split : Nat) (hs : split < 256)
    (hk : s.splitKey = split) (ch key : Nat) (h0 : s.sceneMode = 3 → ch ≠ 0) :
    ∃ mask, s.channelMask ch key = .ok mask ∧ (mask = 1 ∨ mask = 2 ∨ mask = 3) ∧
      (s.sceneMode = 0 → mask = if s.sceneActive = 1 then 2 else 1) ∧
      (s.sceneMode = 1 ∨ s.sceneMode = 2 → s.mpe.enabled = false → ch = 1 ∨ ch = 2 → mask = ch) ∧
      (s.sceneMode = 1 → s.mpe.enabled = true ∨ (ch ≠ 1 ∧ ch ≠ 2) → mask = if key < split then 1 else 2) ∧
      (s.sceneMode = 2 → s.mpe.enabled = true ∨ (ch ≠ 1 ∧ ch ≠ 2) → mask = 3) ∧
      (s.sceneMode = 3 → mask = if ch ≤ split / 8 then 1 else 2) := by
  have hcases : s.sceneMode = 0 ∨ s.sceneMode = 1 ∨ s.sceneMode = 2 ∨ s.sceneMode = 3 := by omega
  have hsp : ¬(s.splitKey < 0 ∨ 256 ≤ s.splitKey) := by omega
  have htn : s.splitKey.toNat = split := by omega
  unfold Synth.channelMask
  rcases hcases with e | e | e | e
  · have hmo : sceneModeOf s.sceneMode = .ok .single := by rw [e]; rfl
    rw [hmo, Res.ok_bind, if_neg hsp]
    refine ⟨if s.sceneActive = 1 then 2 else 1, ?_, ?_, fun _ => rfl, ?_, ?_, ?_, ?_⟩
    · simp
    · split <;> simp
    all_goals (intro h; exfalso; omega)
  · have hmo : sceneModeOf s.sceneMode = .ok .keySplit := by rw [e]; rfl
    rw [hmo, Res.ok_bind, if_neg hsp, htn]
    by_cases hc : ch = 0 ∨ 2 < ch ∨ s.mpe.enabled = true
    · have hc' : ch = 0 ∨ 2 < ch ∨ s.mpe.enabled = true ∨ SceneMode.keySplit = SceneMode.channelSplit := by tauto
      refine ⟨if key < split then 1 else 2, by simp only [if_pos hc'], by split <;> simp, ?_, ?_, fun _ _ => rfl,
        ?_, ?_⟩
      · intro h; exfalso; omega
      · intro _ h1 h2; rw [h1] at hc; simp at hc; exfalso; omega
      · intro h; exfalso; omega
      · intro h; exfalso; omega
    · have hc' : ¬(ch = 0 ∨ 2 < ch ∨ s.mpe.enabled = true ∨ SceneMode.keySplit = SceneMode.channelSplit) := by
        simp only [reduceCtorEq, or_false]; exact hc
      refine ⟨ch, by rw [if_neg hc', if_neg (by simp)], by omega, ?_, fun _ _ _ => rfl, ?_, ?_, ?_⟩
      · intro h; exfalso; omega
      · intro _ h1; exfalso; rcases h1 with h1 | h1
        · exact hc (Or.inr (Or.inr h1))
        · omega
      · intro h; exfalso; omega
      · intro h; exfalso; omega
  · have hmo : sceneModeOf s.sceneMode = .ok .dual := by rw [e]; rfl
    rw [hmo, Res.ok_bind, if_neg hsp, htn]
    by_cases hc : ch = 0 ∨ 2 < ch ∨ s.mpe.enabled = true
    · have hc' : ch = 0 ∨ 2 < ch ∨ s.mpe.enabled = true ∨ SceneMode.dual = SceneMode.channelSplit := by tauto
      refine ⟨3, by simp only [if_pos hc'], by omega, ?_, ?_, ?_, fun _ _ => rfl, ?_⟩
      · intro h; exfalso; omega
      · intro _ h1 h2; rw [h1] at hc; simp at hc; exfalso; omega
      · intro h; exfalso; omega
      · intro h; exfalso; omega
    · have hc' : ¬(ch = 0 ∨ 2 < ch ∨ s.mpe.enabled = true ∨ SceneMode.dual = SceneMode.channelSplit) := by
        simp only [reduceCtorEq, or_false]; exact hc
      refine ⟨ch, by rw [if_neg hc', if_neg (by simp)], by omega, ?_, fun _ _ _ => rfl, ?_, ?_, ?_⟩
      · intro h; exfalso; omega
      · intro h; exfalso; omega
      · intro _ h1; exfalso; rcases h1 with h1 | h1
        · exact hc (Or.inr (Or.inr h1))
        · omega
      · intro h; exfalso; omega
  · have hmo : sceneModeOf s.sceneMode = .ok .channelSplit := by rw [e]; rfl
    have hn := h0 e
    rw [hmo, Res.ok_bind, if_neg hsp, htn]
    simp only [or_true, if_true, if_neg hn]
    refine ⟨_, rfl, ?_, ?_, ?_, ?_, ?_, ?_⟩
    · split <;> simp
    · intro h; exfalso; omega
    · intro h; exfalso; omega
    · intro h; exfalso; omega
    · intro h; exfalso; omega
    · intro _
      by_cases hc : ch - 1 < split / 8
      · rw [if_pos hc, if_pos (by omega)]
      · rw [if_neg hc, if_neg (by omega)]

/-- C31 fails: a note on channel 0 in channel split mode panics, whatever the key and the split point. -/
theorem C31_channel_split_channel0_panics (s : Synth) (hm : s.sceneMode = 3) (key : Nat) :
    ∃ w, s.channelMask 0 key = .panic w := by
  unfold Synth.channelMask
  have hmo : sceneModeOf s.sceneMode = .ok .channelSplit := by rw [hm]; rfl
  rw [hmo, Res.ok_bind]
  by_cases hs : s.splitKey < 0 ∨ 256 ≤ s.splitKey
  · rw [if_pos hs]; exact ⟨_, rfl⟩
  · rw [if_neg hs]; exact ⟨"u8 subtract overflow", by simp⟩

/-- C31. In channel split mode the pedal of a channel (other than 0) releases keys in the scene the notes of that
channel are routed to. -/
theorem C31_pedal_goes_where_notes_go {s0 : Synth} (f : Fresh s0) (p : Playable s0) {h : List Msg}
    (hl : ∀ x ∈ h, x.Legal) {s s' : Synth} (hs : s0.run h.reverse = .ok s) (hmode : s.sceneMode = 3)
    (hk : 0 ≤ s.splitKey ∧ s.splitKey ≤ 127) {ch : Nat} {v : Int} (hch : 0 < ch ∧ ch < 16)
    (hm : s.handle (.controller ch 64 v) = .ok s') (key : Nat) :
    ∃ new mask, s'.released = s.released ++ new ∧ s.channelMask ch key = .ok mask ∧
      ∀ r ∈ new, 2 ^ r.1 = mask := by
  obtain ⟨_, g⟩ := not_crashes f p hl hs
  obtain ⟨mask, em, _, _, _, _, _, h3⟩ := C31_routing_partial s ⟨by omega, by omega⟩ s.splitKey.toNat (by omega)
    (by omega) ch key (by omega)
  have h3 := h3 hmode
  have hm : s.cc64 ch v = .ok s' := hm
  cases hr : replayed h with
  | true =>
    obtain ⟨w, hw⟩ := cc64_poison s g.playable ch v (g.poison hr)
    rw [hw] at hm; cases hm
  | false =>
    set t : Synth := { s with chans := upd s.chans ch { s.chans ch with hold := decide (63 < v) } } with ht
    have hq : t.holdBuffer = (waiting h).map cast2 := g.queue hr
    have hlen : t.scenes.length = 2 := g.playable.two
    have e1 : sceneModeOf s.sceneMode = .ok .channelSplit := by rw [hmode]; rfl
    have h8 : asU8 (s.splitKey.tdiv 8 + 1) = s.splitKey.toNat / 8 + 1 := by
      unfold asU8; rw [Int.tdiv_eq_ediv_of_nonneg hk.1]; omega
    have hcc : s.cc64 ch v = if ch < s.splitKey.toNat / 8 + 1 then t.purgeScene 0 else t.purgeScene 1 := by
      unfold Synth.cc64 Synth.modChan
      rw [if_pos hch.2, e1, Res.ok_bind, Res.ok_bind]
      simp only
      rw [if_neg (by omega), h8]
    rw [hcc] at hm
    by_cases hlt : ch < s.splitKey.toNat / 8 + 1
    · rw [if_pos hlt] at hm
      rw [if_pos (by omega)] at h3
      obtain ⟨u, eu, _, _, ru⟩ := purgeScene_ok t 0 (by omega) _ hq g.queueOk
      have eu : t.purgeScene 0 = .ok u := eu
      rw [hm] at eu; cases eu
      refine ⟨_, mask, ru, em, ?_⟩
      intro r hr
      obtain ⟨q, _, rfl⟩ := List.mem_map.mp hr
      rw [h3]; rfl
    · rw [if_neg hlt] at hm
      rw [if_neg (by omega)] at h3
      obtain ⟨u, eu, _, _, ru⟩ := purgeScene_ok t 1 (by omega) _ hq g.queueOk
      have eu : t.purgeScene 1 = .ok u := eu
      rw [hm] at eu; cases eu
      refine ⟨_, mask, ru, em, ?_⟩
      intro r hr
      obtain ⟨q, _, rfl⟩ := List.mem_map.mp hr
      rw [h3]; rfl

/-- C31. Which scenes are processed: both in the split and dual modes, else the active one. -/
theorem C31_play_scenes (s : Synth) (hm : 0 ≤ s.sceneMode ∧ s.sceneMode ≤ 3) :
    s.playScenes = .ok (if s.sceneMode = 0 then (decide (s.sceneActive = 0), decide (s.sceneActive = 1))
      else (true, true)) := by
  have hcases : s.sceneMode = 0 ∨ s.sceneMode = 1 ∨ s.sceneMode = 2 ∨ s.sceneMode = 3 := by omega
  unfold Synth.playScenes
  rcases hcases with e | e | e | e <;> rw [e] <;> simp [sceneModeOf]

example : ∃ mask, ({ sceneMode := 1, splitKey := 60 } : Synth).channelMask 5 59 = .ok mask ∧ mask = 1 := by
  obtain ⟨m, e, _, _, _, h, _⟩ := C31_routing_partial { sceneMode := 1, splitKey := 60 } (by simp) 60 (by omega) rfl
    5 59 (by simp)
  exact ⟨m, e, by simpa using h rfl (Or.inr ⟨by omega, by omega⟩)⟩

/-! ## C44, C45: expression -/

/-- C44. After every legal history: the instrument-wide bend (in every scene and in the MPE unit) is the newest bend
on a channel that moves everything, over 8192; a channel's own bend in semitones is the newest bend received on it
while MPE was on, times the range then in force. -/
theorem C44_pitch_bend {s0 : Synth} (f : Fresh s0) {h : List Msg} (hl : ∀ m ∈ h, m.Legal) {s : Synth}
    (hs : s0.run h.reverse = .ok s) :
    (∀ sc ∈ s.scenes, sc.pitchBend = globalBend h) ∧ s.mpe.pitchbend = globalBend h ∧
    ∀ ch < 16, (s.chans ch).pbSemis = channelBend ch h :=
  have i := Inv.run f hl hs
  ⟨i.scBend, i.bend, i.semis⟩

/-- C45. After every legal history: channel pressure, instrument-wide pressure, key pressure and modulation wheel are
those of the newest message that concerns them. -/
theorem C45_pressure_and_wheel {s0 : Synth} (f : Fresh s0) {h : List Msg} (hl : ∀ m ∈ h, m.Legal) {s : Synth}
    (hs : s0.run h.reverse = .ok s) :
    (∀ ch < 16, (s.chans ch).pressure = channelPressure ch h) ∧
    (∀ sc ∈ s.scenes, sc.channelAftertouch = globalPressure h ∧ sc.modWheel = modWheelOf h) ∧
    (s.scenes ≠ [] → ∀ k, s.mpe.polyAftertouch k = keyPressure k h) :=
  have i := Inv.run f hl hs
  ⟨i.pressure, fun sc h => ⟨i.scPress sc h, i.scWheel sc h⟩, i.keyP⟩

/-- Non-vacuity: the newest bend wins, in both scenes. -/
example : ∃ s, demo.run [.pitchBend 0 100, .pitchBend 3 4096, .channelAftertouch 2 127] = .ok s ∧
    s.scenes.length = 2 ∧ ∀ sc ∈ s.scenes, sc.pitchBend = (F32.ofInt 4096).divC 8192 ∧
      sc.channelAftertouch = (F32.ofInt 127).divC 127 := by
  have hl : ∀ x ∈ [Msg.channelAftertouch 2 127, .pitchBend 3 4096, .pitchBend 0 100], x.Legal := by simp [Msg.Legal]
  obtain ⟨s, hs⟩ := (C47_runs_iff_partial demo_fresh demo_playable hl).1.mpr (by decide)
  refine ⟨s, hs, (not_crashes demo_fresh demo_playable hl hs).2.playable.two, fun sc h => ?_⟩
  exact ⟨(C44_pitch_bend demo_fresh hl hs).1 sc h, ((C45_pressure_and_wheel demo_fresh hl hs).2.1 sc h).1⟩

/-! ## C46: learning a controller -/

/-- Controllers the engine keeps for itself: they are never learned. -/
def reserved (mpe : Bool) (cc : Nat) : Prop :=
  cc = 0 ∨ cc = 6 ∨ cc = 64 ∨ cc = 98 ∨ cc = 99 ∨ cc = 100 ∨ cc = 101 ∨ cc = 120 ∨ cc = 123 ∨
    (mpe = true ∧ (cc = 10 ∨ cc = 74))

/-- C46. A custom controller armed for learning takes the number of the next controller message that is not
reserved (and not data entry LSB, see below), and only that slot changes; then learning is over.  Reserved
controllers leave the assignments and the arming alone. -/
theorem C46_learn_partial (s s' : Synth) (ch cc : Nat) (v : Int) (i : Nat) (hi : i < 8) (ha : s.learnCustom = i)
    (hm : s.handle (.controller ch cc v) = .ok s') (h38 : cc ≠ 38) :
    (¬reserved s.mpe.enabled cc →
      s'.learnCustom = -1 ∧ s'.controllers i = cc ∧ ∀ j, j ≠ i → s'.controllers j = s.controllers j) ∧
    (reserved s.mpe.enabled cc → s'.learnCustom = i ∧ s'.controllers = s.controllers) := by
  have tail : ∀ {t t' : Synth}, t.learnCustom = i → t.controllers = s.controllers → cc ≠ 6 →
      t.ccTail ch cc = .ok t' →
      t'.learnCustom = -1 ∧ t'.controllers i = cc ∧ ∀ j, j ≠ i → t'.controllers j = s.controllers j := by
    intro t t' h1 h2 h6 h
    unfold Synth.ccTail Synth.encodeCc at h
    rw [if_neg (by omega), Res.ok_bind] at h
    cases h
    unfold Synth.storeLearnCustom
    rw [h1, if_pos (by omega)]
    refine ⟨rfl, ?_, ?_⟩
    · show upd t.controllers ((i : Int).toNat) _ i = _
      rw [Int.toNat_natCast, upd_same]
    · intro j hj
      show upd t.controllers ((i : Int).toNat) _ j = _
      rw [Int.toNat_natCast, upd_ne _ _ hj, h2]
  have one : ∀ {t' : Synth} {ch} {g}, s.modChan ch g = .ok t' →
      t'.learnCustom = i ∧ t'.controllers = s.controllers := by
    intro t' ch g h
    obtain ⟨_, rfl⟩ := modChan_ok h; exact ⟨ha, rfl⟩
  have bip : ∀ {g : F32 → Chan → Chan}, (do let p ← int7ToBipolar v; s.modChan ch (g p)) = .ok s' →
      s'.learnCustom = i ∧ s'.controllers = s.controllers := by
    intro g h
    cases h1 : int7ToBipolar v with
    | err e => exact e.elim
    | panic w => rw [h1] at h; cases h
    | ok p => rw [h1, Res.ok_bind] at h; exact one h
  have hm : s.controller ch cc v = .ok s' := hm
  unfold reserved
  unfold Synth.controller at hm
  by_cases e0 : cc = 0
  · rw [if_pos e0] at hm; cases hm
    exact ⟨fun h => absurd (by tauto) h, fun _ => ⟨ha, rfl⟩⟩
  rw [if_neg e0] at hm
  by_cases e1 : cc = 1
  · rw [if_pos e1] at hm
    exact ⟨fun _ => tail (t := s.cc1 v) ha rfl (by omega) hm, fun h => by omega⟩
  rw [if_neg e1] at hm
  by_cases e6 : cc = 6
  · rw [if_pos e6] at hm
    refine ⟨fun h => absurd (by tauto) h, fun _ => ?_⟩
    unfold Synth.cc6 at hm
    cases h1 : s.chan ch with
    | err e => exact e.elim
    | panic w => rw [h1] at hm; cases hm
    | ok c =>
      rw [h1, Res.ok_bind] at hm
      split at hm
      · cases hm
      · cases h2 : (s.modChan ch fun c => { c with rpnV1 := v }) with
        | err e => exact e.elim
        | panic w => rw [h2] at hm; cases hm
        | ok t =>
          rw [h2, Res.ok_bind] at hm
          cases hm
          obtain ⟨mp, e⟩ := onRpn_frame t ch c.rpn0 c.rpn1 v
          have h3 := one h2
          rw [e]; exact h3
  rw [if_neg e6] at hm
  by_cases e10 : cc = 10
  · rw [if_pos e10] at hm
    split at hm
    · rename_i hmpe
      exact ⟨fun h => absurd (by tauto) h, fun _ => bip hm⟩
    · rename_i hmpe
      exact ⟨fun _ => tail ha rfl e6 hm, fun h => by rcases h with h | h | h | h | h | h | h | h | h | h <;> first | omega | exact absurd h.1 hmpe⟩
  rw [if_neg e10, if_neg h38] at hm
  by_cases e64 : cc = 64
  · rw [if_pos e64] at hm
    have hp := (cc64_frame hm).2.patch
    exact ⟨fun h => absurd (by tauto) h, fun _ => ⟨hp.2.2.trans ha, hp.2.1⟩⟩
  rw [if_neg e64] at hm
  by_cases e74 : cc = 74
  · rw [if_pos e74] at hm
    split at hm
    · rename_i hmpe
      exact ⟨fun h => absurd (by tauto) h, fun _ => bip hm⟩
    · rename_i hmpe
      exact ⟨fun _ => tail ha rfl e6 hm, fun h => by rcases h with h | h | h | h | h | h | h | h | h | h <;> first | omega | exact absurd h.1 hmpe⟩
  rw [if_neg e74] at hm
  by_cases e98 : cc = 98
  · rw [if_pos e98] at hm; exact ⟨fun h => absurd (by tauto) h, fun _ => one hm⟩
  rw [if_neg e98] at hm
  by_cases e99 : cc = 99
  · rw [if_pos e99] at hm; exact ⟨fun h => absurd (by tauto) h, fun _ => one hm⟩
  rw [if_neg e99] at hm
  by_cases e100 : cc = 100
  · rw [if_pos e100] at hm; exact ⟨fun h => absurd (by tauto) h, fun _ => one hm⟩
  rw [if_neg e100] at hm
  by_cases e101 : cc = 101
  · rw [if_pos e101] at hm; exact ⟨fun h => absurd (by tauto) h, fun _ => one hm⟩
  rw [if_neg e101] at hm
  by_cases e120 : cc = 120 ∨ cc = 123
  · rw [if_pos e120] at hm; cases hm
    exact ⟨fun h => absurd (by tauto) h, fun _ => ⟨ha, rfl⟩⟩
  rw [if_neg e120] at hm
  exact ⟨fun _ => tail ha rfl e6 hm, fun h => by omega⟩

/-- C46 fails for registered parameters: what is learned from a data entry LSB message is the low eight bits of the
parameter number, so two parameters whose MSBs differ by 2 are learned as the same one. -/
theorem C46_learned_parameter_truncated (s s' : Synth) (ch : Nat) (v : Int) (i : Nat) (hi : i < 8)
    (ha : s.learnCustom = i) (hc : ChanOk (s.chans ch)) (hn : (s.chans ch).nrpnLast = false)
    (hm : s.handle (.controller ch 38 v) = .ok s') (hv : 0 ≤ v ∧ v ≤ 127) :
    s'.controllers i = (s.chans ch).rpn1 % 2 * 128 + (s.chans ch).rpn0 := by
  have hm : s.controller ch 38 v = .ok s' := hm
  unfold Synth.controller at hm
  simp only [OfNat.ofNat_ne_zero, OfNat.ofNat_ne_one, if_false, Nat.reduceEqDiff, if_true] at hm
  generalize hq : (s.modChan ch _) = q at hm
  cases q with
  | err e => exact e.elim
  | panic w => cases hm
  | ok t =>
    obtain ⟨hc16, rfl⟩ := modChan_ok hq
    rw [Res.ok_bind] at hm
    simp only [hn, Bool.false_eq_true, if_false] at hm
    unfold Synth.ccTail Synth.encodeCc Synth.chan at hm
    simp only [or_true, if_true, if_pos hc16, Res.ok_bind, upd_same, Bool.false_eq_true, if_false] at hm
    rw [shl7_add_ok _ _ hc.j hv, Res.ok_bind, shl7_add_ok _ _ hc.g hc.f, Res.ok_bind] at hm
    cases hm
    unfold Synth.storeLearnCustom
    simp only [ha]
    rw [if_pos (by omega)]
    show upd s.controllers ((i : Int).toNat) _ i = _
    rw [Int.toNat_natCast, upd_same]
    unfold asU8
    have h1 := hc.g
    have h2 := hc.f
    unfold B7 at h1 h2
    omega

/-- Non-vacuity of both: an armed slot learns controller 20. -/
example : ∃ s', ({ learnCustom := 3 } : Synth).handle (.controller 0 20 5) = .ok s' ∧ s'.controllers 3 = 20 := by
  refine ⟨_, rfl, rfl⟩

end Verif.Midi
