import Verif.Midi.Spec
import Mathlib.Tactic.Common
/-!
# Frame lemmas and the refinement invariant of the MIDI front end
-/
namespace Verif.Midi
open Verif.Float

theorem run_append (s : Synth) (a b : List Msg) :
    s.run (a ++ b) = (s.run a >>= fun s' => s'.run b) := by
  induction a generalizing s with
  | nil => rfl
  | cons m ms ih =>
    simp only [List.cons_append, Synth.run]
    cases s.handle m with
    | ok s1 => simp [ih]
    | err e => rfl
    | panic w => rfl

theorem run_snoc (s : Synth) (h : List Msg) (m : Msg) :
    s.run (m :: h).reverse = (s.run h.reverse >>= fun s' => s'.handle m) := by
  rw [List.reverse_cons, run_append]
  cases s.run h.reverse with
  | ok s1 =>
    simp only [Res.ok_bind, Synth.run]
    cases s1.handle m <;> rfl
  | err e => rfl
  | panic w => rfl

theorem modChan_ok {s s' : Synth} {ch f} (h : s.modChan ch f = .ok s') :
    ch < 16 ∧ s' = { s with chans := upd s.chans ch (f (s.chans ch)) } := by
  unfold Synth.modChan at h
  split at h
  · cases h; exact ⟨by assumption, rfl⟩
  · cases h

/-- What releasing keys can change: key states, the log, the queue. -/
structure SameBut (s s' : Synth) : Prop where
  eq : ∃ (ks : Nat → Nat → Int) (rel : List (Nat × Int × Int)) (hb : List (Int × Int)), s' = { s with
    chans := fun i => { s.chans i with keystate := ks i }, released := rel, holdBuffer := hb }

theorem SameBut.refl (s : Synth) : SameBut s s :=
  ⟨⟨fun i => (s.chans i).keystate, s.released, s.holdBuffer, rfl⟩⟩

theorem SameBut.trans {a b c : Synth} (h1 : SameBut a b) (h2 : SameBut b c) : SameBut a c := by
  obtain ⟨k1, r1, b1, e1⟩ := h1.eq
  obtain ⟨k2, r2, b2, e2⟩ := h2.eq
  subst e1; subst e2
  exact ⟨⟨k2, r2, b2, rfl⟩⟩

theorem releaseNow_frame {s s' : Synth} {sc ch k} (h : s.releaseNow sc ch k = .ok s') : SameBut s s' := by
  unfold Synth.releaseNow at h
  split at h
  · cases h
  · cases h1 : (s.modChan ch fun c => { c with keystate := upd c.keystate k 0 }) with
    | ok s1 =>
      rw [h1] at h
      obtain ⟨hc, e⟩ := modChan_ok h1
      subst e
      simp only [Res.ok_bind, Res.pure_eq] at h
      cases h
      refine ⟨⟨fun i => (upd s.chans ch
        { s.chans ch with keystate := upd (s.chans ch).keystate k 0 } i).keystate,
        s.released ++ [(sc, (ch : Int), (k : Int))], s.holdBuffer, ?_⟩⟩
      congr 1
      funext i
      unfold upd
      by_cases hi : i = ch
      · subst hi; simp
      · simp [hi]
    | err e => rw [h1] at h; cases h
    | panic w => rw [h1] at h; cases h

theorem releaseAll_frame {s s' : Synth} {sc l} (h : Synth.releaseAll sc s l = .ok s') : SameBut s s' := by
  induction l generalizing s with
  | nil => cases h; exact SameBut.refl _
  | cons p rest ih =>
    obtain ⟨c, k⟩ := p
    simp only [Synth.releaseAll] at h
    cases h1 : s.releaseNow sc (asU8 c) (asU8 k) with
    | ok s1 => rw [h1] at h; exact (releaseNow_frame h1).trans (ih h)
    | err e => rw [h1] at h; cases h
    | panic w => rw [h1] at h; cases h

theorem purgeScene_frame {s s' : Synth} {sc} (h : s.purgeScene sc = .ok s') : SameBut s s' := by
  unfold Synth.purgeScene at h
  split at h
  · cases h
  · cases h1 : purgeHold (fun c => (s.chans c).hold) s.holdBuffer with
    | ok p =>
      obtain ⟨keep, rel⟩ := p
      rw [h1] at h
      simp only [Res.ok_bind] at h
      refine SameBut.trans ?_ (releaseAll_frame h)
      exact ⟨⟨fun i => (s.chans i).keystate, s.released, keep, rfl⟩⟩
    | err e => rw [h1] at h; cases h
    | panic w => rw [h1] at h; cases h

theorem purgeTwo_frame {s s' : Synth} {a b}
    (h : (do let t ← s.purgeScene a; t.purgeScene b) = .ok s') : SameBut s s' := by
  cases h1 : s.purgeScene a with
  | ok t => rw [h1] at h; exact (purgeScene_frame h1).trans (purgeScene_frame h)
  | err e => rw [h1] at h; cases h
  | panic w => rw [h1] at h; cases h

theorem cc64_frame {s s' : Synth} {ch v} (h : s.cc64 ch v = .ok s') :
    ch < 16 ∧ SameBut { s with chans := upd s.chans ch { s.chans ch with hold := decide (63 < v) } } s' := by
  unfold Synth.cc64 at h
  cases hm : sceneModeOf s.sceneMode with
  | err e => exact e.elim
  | panic w => rw [hm] at h; cases h
  | ok mode =>
    rw [hm] at h
    simp only [Res.ok_bind] at h
    cases h1 : (s.modChan ch fun c => { c with hold := decide (63 < v) }) with
    | err e => exact e.elim
    | panic w => rw [h1] at h; cases h
    | ok s1 =>
      rw [h1] at h
      obtain ⟨hc, e⟩ := modChan_ok h1
      simp only [Res.ok_bind] at h
      rw [← e]
      refine ⟨hc, ?_⟩
      cases mode with
      | single => exact purgeScene_frame h
      | keySplit => exact purgeTwo_frame h
      | dual => exact purgeTwo_frame h
      | channelSplit =>
        simp only at h
        split at h
        · exact purgeTwo_frame h
        · split at h <;> exact purgeScene_frame h

theorem noteOff_frame {s s' : Synth} {sc ch k} (h : s.noteOff sc ch k = .ok s') : SameBut s s' := by
  unfold Synth.noteOff at h
  split at h
  · cases h
  · cases hh : s.hold ch with
    | err e => exact e.elim
    | panic w => rw [hh] at h; cases h
    | ok b =>
      rw [hh] at h
      simp only [Res.ok_bind] at h
      split at h
      · cases h
        exact ⟨⟨fun i => (s.chans i).keystate, s.released, _, rfl⟩⟩
      · exact releaseNow_frame h

theorem noteOn_frame {s s' : Synth} {sc ch k v} (h : s.noteOn sc ch k v = .ok s') : SameBut s s' := by
  unfold Synth.noteOn at h
  split at h
  · cases h
  · split at h
    · cases h
    · cases h1 : (s.modChan ch fun c => { c with keystate := upd c.keystate k v }) with
      | err e => exact e.elim
      | panic w => rw [h1] at h; cases h
      | ok s1 =>
        rw [h1] at h
        obtain ⟨hc, e⟩ := modChan_ok h1
        have hk : ∀ i, upd s.chans ch { s.chans ch with keystate := upd (s.chans ch).keystate k v } i =
            { s.chans i with keystate := (upd s.chans ch
              { s.chans ch with keystate := upd (s.chans ch).keystate k v } i).keystate } := by
          intro i
          unfold upd
          by_cases hi : i = ch
          · subst hi; simp
          · simp [hi]
        simp only [Res.ok_bind] at h
        cases hh : s1.hold ch with
        | err e => exact e.elim
        | panic w => rw [hh] at h; cases h
        | ok b =>
          rw [hh] at h
          simp only [Res.ok_bind] at h
          subst e
          split at h <;> cases h
          · refine ⟨⟨fun i => (upd s.chans ch
              { s.chans ch with keystate := upd (s.chans ch).keystate k v } i).keystate,
              s.released, resetHold (resetHold s.holdBuffer ch k) ch k, ?_⟩⟩
            congr 1
            funext i; exact hk i
          · refine ⟨⟨fun i => (upd s.chans ch
              { s.chans ch with keystate := upd (s.chans ch).keystate k v } i).keystate,
              s.released, s.holdBuffer, ?_⟩⟩
            congr 1
            funext i; exact hk i

theorem storeLearn_frame (s : Synth) (e : Nat) :
    ∃ ct lc, s.storeLearnCustom e = { s with controllers := ct, learnCustom := lc } := by
  unfold Synth.storeLearnCustom
  split
  · exact ⟨_, _, rfl⟩
  · exact ⟨s.controllers, s.learnCustom, rfl⟩

theorem ccTail_frame {s s' : Synth} {ch cc} (h : s.ccTail ch cc = .ok s') :
    ∃ ct lc, s' = { s with controllers := ct, learnCustom := lc } := by
  unfold Synth.ccTail at h
  cases h1 : s.encodeCc ch cc with
  | ok e =>
    rw [h1] at h
    simp only [Res.ok_bind, Res.pure_eq] at h
    cases h
    exact storeLearn_frame s e
  | err e => exact e.elim
  | panic w => rw [h1] at h; cases h

/-! ## The invariant -/

/-- Engine state `s` is what history `h` (newest first) says it should be. -/
structure Inv (h : List Msg) (s : Synth) : Prop where
  rpn0 : ∀ ch < 16, (s.chans ch).rpn0 = lastCc ch 100 h
  rpn1 : ∀ ch < 16, (s.chans ch).rpn1 = lastCc ch 101 h
  nrpnLast : ∀ ch < 16, (s.chans ch).nrpnLast = nrpnSelected ch h
  nrpn1 : ∀ ch < 16, (s.chans ch).nrpn1 = 0
  hold : ∀ ch < 16, (s.chans ch).hold = decide (63 < lastCc ch 64 h)
  pressure : ∀ ch < 16, (s.chans ch).pressure = channelPressure ch h
  semis : ∀ ch < 16, (s.chans ch).pbSemis = channelBend ch h
  enabled : s.mpe.enabled = mpeOn h
  voices : s.mpe.numVoices = mpeVoices h
  master : s.mpe.globalPitchbendRange = masterRange h
  note : s.mpe.pitchbendRange = noteRange h
  bend : s.mpe.pitchbend = globalBend h
  cc0 : s.cc0 = bank h
  scBend : ∀ sc ∈ s.scenes, sc.pitchBend = globalBend h
  scPress : ∀ sc ∈ s.scenes, sc.channelAftertouch = globalPressure h
  scWheel : ∀ sc ∈ s.scenes, sc.modWheel = modWheelOf h
  keyP : s.scenes ≠ [] → ∀ k, s.mpe.polyAftertouch k = keyPressure k h

theorem Inv.fresh {s : Synth} (f : Fresh s) : Inv [] s where
  rpn0 := by intro ch _; rw [f.chans]; rfl
  rpn1 := by intro ch _; rw [f.chans]; rfl
  nrpnLast := by intro ch _; rw [f.chans]; rfl
  nrpn1 := by intro ch _; rw [f.chans]
  hold := by intro ch _; rw [f.chans]; rfl
  pressure := by intro ch _; rw [f.chans]; rfl
  semis := by intro ch _; rw [f.chans]; rfl
  enabled := by rw [f.mpe]; rfl
  voices := by rw [f.mpe]; rfl
  master := by rw [f.mpe]; rfl
  note := by rw [f.mpe]; rfl
  bend := by rw [f.mpe]; rfl
  cc0 := by rw [f.cc0]; rfl
  scBend := by intro sc hs; rw [f.scenes sc hs]; rfl
  scPress := by intro sc hs; rw [f.scenes sc hs]; rfl
  scWheel := by intro sc hs; rw [f.scenes sc hs]; rfl
  keyP := by intro _ k; rw [f.mpe]; rfl

theorem Inv.same {h : List Msg} {s s' : Synth} (i : Inv h s) (e : SameBut s s') : Inv h s' := by
  obtain ⟨ks, rel, hb, e⟩ := e.eq
  subst e
  exact { i with }

theorem Inv.learn {h : List Msg} {s : Synth} (i : Inv h s) (ct : Nat → Int) (lc : Int) :
    Inv h { s with controllers := ct, learnCustom := lc } := { i with }

end Verif.Midi
