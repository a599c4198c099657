import Verif.Midi.Step
/-!
# Every message preserves the refinement invariant; runs refine histories
-/
namespace Verif.Midi
open Verif.Float

/-- A message that is not a controller message changes none of the controller-derived settings. -/
theorem spec_noncontroller {h : List Msg} {m : Msg} (hm : ∀ a b c, m ≠ .controller a b c) :
    (∀ c k, lastCc c k (m :: h) = lastCc c k h) ∧ (∀ c, nrpnSelected c (m :: h) = nrpnSelected c h) ∧
    bank (m :: h) = bank h ∧ modWheelOf (m :: h) = modWheelOf h ∧ rpnEntry h m = none := by
  cases m with
  | controller a b c => exact absurd rfl (hm a b c)
  | program _ _ => exact ⟨fun _ _ => rfl, fun _ => rfl, rfl, rfl, rfl⟩
  | pitchBend _ _ => exact ⟨fun _ _ => rfl, fun _ => rfl, rfl, rfl, rfl⟩
  | channelAftertouch _ _ => exact ⟨fun _ _ => rfl, fun _ => rfl, rfl, rfl, rfl⟩
  | polyAftertouch _ _ _ => exact ⟨fun _ _ => rfl, fun _ => rfl, rfl, rfl, rfl⟩
  | noteOff _ _ _ => exact ⟨fun _ _ => rfl, fun _ => rfl, rfl, rfl, rfl⟩
  | noteOn _ _ _ _ => exact ⟨fun _ _ => rfl, fun _ => rfl, rfl, rfl, rfl⟩

theorem Inv.noncontroller {h : List Msg} {s s' : Synth} (i : Inv h s) {m : Msg}
    (hm : ∀ a b c, m ≠ .controller a b c)
    (hchan : ∀ c < 16, (s'.chans c).rpn0 = (s.chans c).rpn0 ∧ (s'.chans c).rpn1 = (s.chans c).rpn1 ∧
      (s'.chans c).nrpnLast = (s.chans c).nrpnLast ∧ (s'.chans c).nrpn1 = (s.chans c).nrpn1 ∧
      (s'.chans c).hold = (s.chans c).hold ∧ (s'.chans c).pressure = channelPressure c (m :: h) ∧
      (s'.chans c).pbSemis = channelBend c (m :: h))
    (hmpe : s'.mpe.enabled = s.mpe.enabled ∧ s'.mpe.numVoices = s.mpe.numVoices ∧
      s'.mpe.globalPitchbendRange = s.mpe.globalPitchbendRange ∧
      s'.mpe.pitchbendRange = s.mpe.pitchbendRange ∧ s'.mpe.pitchbend = globalBend (m :: h))
    (hcc0 : s'.cc0 = s.cc0)
    (hsc : ∀ sc ∈ s'.scenes, sc.pitchBend = globalBend (m :: h) ∧
      sc.channelAftertouch = globalPressure (m :: h) ∧ sc.modWheel = modWheelOf h)
    (hk : s'.scenes ≠ [] → ∀ k, s'.mpe.polyAftertouch k = keyPressure k (m :: h)) :
    Inv (m :: h) s' := by
  obtain ⟨a, b, k, l, r⟩ := spec_noncontroller (h := h) hm
  obtain ⟨m1, m2, m3, m4⟩ := spec_mpe_frame r
  obtain ⟨p1, p2, p3, p4, p5⟩ := hmpe
  constructor
  · intro x hx; rw [a, (hchan x hx).1]; exact i.rpn0 x hx
  · intro x hx; rw [a, (hchan x hx).2.1]; exact i.rpn1 x hx
  · intro x hx; rw [b, (hchan x hx).2.2.1]; exact i.nrpnLast x hx
  · intro x hx; rw [(hchan x hx).2.2.2.1]; exact i.nrpn1 x hx
  · intro x hx; rw [a, (hchan x hx).2.2.2.2.1]; exact i.hold x hx
  · intro x hx; exact (hchan x hx).2.2.2.2.2.1
  · intro x hx; exact (hchan x hx).2.2.2.2.2.2
  · rw [m1, p1]; exact i.enabled
  · rw [m2, p2]; exact i.voices
  · rw [m3, p3]; exact i.master
  · rw [m4, p4]; exact i.note
  · exact p5
  · rw [k, hcc0]; exact i.cc0
  · intro sc hs; exact (hsc sc hs).1
  · intro sc hs; exact (hsc sc hs).2.1
  · intro sc hs; rw [l]; exact (hsc sc hs).2.2
  · exact hk

/-- Every legal message preserves the invariant. -/
theorem Inv.handle {h : List Msg} {s s' : Synth} (i : Inv h s) (m : Msg) (hl : m.Legal)
    (hs : s.handle m = .ok s') : Inv (m :: h) s' := by
  cases m with
  | controller ch cc v => exact i.controller ch cc v hs
  | program ch v =>
    simp only [Synth.handle, Synth.programChange] at hs
    cases hq : (chkI32 (shl7 s.cc0 + v) : P Int) with
    | ok q =>
      rw [hq, Res.ok_bind, Res.pure_eq] at hs
      cases hs
      exact i.noncontroller (by intros; exact Msg.noConfusion)
        (fun c hc => ⟨rfl, rfl, rfl, rfl, rfl, i.pressure c hc, i.semis c hc⟩)
        ⟨rfl, rfl, rfl, rfl, i.bend⟩ rfl
        (fun sc hsc => ⟨i.scBend sc hsc, i.scPress sc hsc, i.scWheel sc hsc⟩) i.keyP
    | err e => exact e.elim
    | panic w => rw [hq] at hs; cases hs
  | pitchBend ch v =>
    have hch : ch < 16 := hl.1
    have hmod : ch % 256 = ch := Nat.mod_eq_of_lt (by omega)
    simp only [Synth.handle, Synth.pitchBend, hmod] at hs
    have hg : globalBend (.pitchBend ch v :: h) =
        if bendsAll h ch then (F32.ofInt v).divC 8192 else globalBend h := by
      simp only [globalBend, newest]
      by_cases hb : bendsAll h ch = true <;> simp [hb]
    have hcb : ∀ c, channelBend c (.pitchBend ch v :: h) =
        if ch = c ∧ mpeOn h = true then
          ((F32.ofInt v).divC 8192).mul (if c = 0 then masterRange h else noteRange h)
        else channelBend c h := by
      intro c
      simp only [channelBend, newest]
      by_cases hb : ch = c ∧ mpeOn h = true <;> simp [hb]
    cases he : s.mpe.enabled with
    | false =>
      have hm : mpeOn h = false := by rw [← i.enabled]; exact he
      have hba : bendsAll h ch = true := by simp [bendsAll, hm]
      simp only [he, Res.pure_eq, Res.ok_bind, Bool.not_false, Bool.true_or, if_true, Bool.false_eq_true,
        if_false] at hs
      cases hs
      refine i.noncontroller (by intros; exact Msg.noConfusion) ?_ ⟨?_, rfl, rfl, rfl, ?_⟩ rfl ?_ ?_
      · intro c hc
        refine ⟨rfl, rfl, rfl, rfl, rfl, i.pressure c hc, ?_⟩
        rw [hcb, hm]; simpa using i.semis c hc
      · exact he.symm
      · rw [hg, hba]; rfl
      · intro sc hsc
        obtain ⟨t, ht, rfl⟩ := List.mem_map.mp hsc
        exact ⟨by rw [hg, hba]; rfl, i.scPress t ht, i.scWheel t ht⟩
      · intro hn k
        exact i.keyP (by intro e; apply hn; simp [e]) k
    | true =>
      have hm : mpeOn h = true := by rw [← i.enabled]; exact he
      have hsem : ∀ c < 16, (upd s.chans ch { s.chans ch with
            pitchbend := v
            pbSemis := ((F32.ofInt v).divC 8192).mul
              (if ch = 0 then s.mpe.globalPitchbendRange else s.mpe.pitchbendRange) } c).pbSemis =
            channelBend c (.pitchBend ch v :: h) := by
        intro c hc
        rw [hcb, hm, ← i.master, ← i.note]
        unfold upd
        by_cases e : c = ch
        · subst e; simp
        · rw [if_neg e, if_neg (fun x => e x.1.symm)]; exact i.semis c hc
      have hrest : ∀ c < 16, ∀ x, (upd s.chans ch { s.chans ch with
            pitchbend := v
            pbSemis := x } c).rpn0 = (s.chans c).rpn0 ∧ (upd s.chans ch { s.chans ch with
            pitchbend := v
            pbSemis := x } c).rpn1 = (s.chans c).rpn1 ∧ (upd s.chans ch { s.chans ch with
            pitchbend := v
            pbSemis := x } c).nrpnLast = (s.chans c).nrpnLast ∧ (upd s.chans ch { s.chans ch with
            pitchbend := v
            pbSemis := x } c).nrpn1 = (s.chans c).nrpn1 ∧ (upd s.chans ch { s.chans ch with
            pitchbend := v
            pbSemis := x } c).hold = (s.chans c).hold ∧ (upd s.chans ch { s.chans ch with
            pitchbend := v
            pbSemis := x } c).pressure = (s.chans c).pressure := by
        intro c _ x
        unfold upd
        by_cases e : c = ch
        · subst e; simp
        · simp [e]
      simp only [Synth.modChan, if_pos hch, Res.ok_bind, he, if_true, Bool.not_true, Bool.false_or] at hs
      have hC : ∀ c < 16, _ := fun c hc => And.intro (hrest c hc (((F32.ofInt v).divC 8192).mul
        (if ch = 0 then s.mpe.globalPitchbendRange else s.mpe.pitchbendRange))) (hsem c hc)
      by_cases h0 : ch = 0
      · have hba : bendsAll h ch = true := by simp [bendsAll, h0]
        rw [if_pos (by simp [h0])] at hs
        cases hs
        refine i.noncontroller (by intros; exact Msg.noConfusion) ?_ ⟨?_, rfl, rfl, rfl, ?_⟩ rfl ?_ ?_
        · intro c hc
          obtain ⟨⟨a1, a2, a3, a4, a5, a6⟩, a7⟩ := hC c hc
          exact ⟨a1, a2, a3, a4, a5, a6.trans (i.pressure c hc), a7⟩
        · exact he.symm
        · rw [hg, hba]; rfl
        · intro sc hsc
          obtain ⟨t, ht, rfl⟩ := List.mem_map.mp hsc
          exact ⟨by rw [hg, hba]; rfl, i.scPress t ht, i.scWheel t ht⟩
        · intro hn k
          exact i.keyP (by intro e; apply hn; simp [e]) k
      · have hba : bendsAll h ch = false := by simp [bendsAll, h0, hm]
        rw [if_neg (by simp [h0])] at hs
        cases hs
        refine i.noncontroller (by intros; exact Msg.noConfusion) ?_ ⟨rfl, rfl, rfl, rfl, ?_⟩ rfl ?_ i.keyP
        · intro c hc
          obtain ⟨⟨a1, a2, a3, a4, a5, a6⟩, a7⟩ := hC c hc
          exact ⟨a1, a2, a3, a4, a5, a6.trans (i.pressure c hc), a7⟩
        · rw [hg, hba]; exact i.bend
        · intro sc hsc
          exact ⟨by rw [hg, hba]; exact i.scBend sc hsc, i.scPress sc hsc, i.scWheel sc hsc⟩
  | channelAftertouch ch v =>
    have hch : ch < 16 := hl.1
    simp only [Synth.handle, Synth.channelAftertouch, Synth.modChan, if_pos hch, Res.ok_bind] at hs
    have hg : globalPressure (.channelAftertouch ch v :: h) =
        if bendsAll h ch then (F32.ofInt v).divC 127 else globalPressure h := by
      simp only [globalPressure, newest]
      by_cases hb : bendsAll h ch = true <;> simp [hb]
    have hcp : ∀ c, channelPressure c (.channelAftertouch ch v :: h) =
        if ch = c then (F32.ofInt v).divC 127 else channelPressure c h := by
      intro c
      simp only [channelPressure, newest]
      by_cases hb : ch = c <;> simp [hb]
    have hC : ∀ c < 16, ∀ x, (upd s.chans ch { s.chans ch with pressure := x } c).rpn0 = (s.chans c).rpn0 ∧
        (upd s.chans ch { s.chans ch with pressure := x } c).rpn1 = (s.chans c).rpn1 ∧
        (upd s.chans ch { s.chans ch with pressure := x } c).nrpnLast = (s.chans c).nrpnLast ∧
        (upd s.chans ch { s.chans ch with pressure := x } c).nrpn1 = (s.chans c).nrpn1 ∧
        (upd s.chans ch { s.chans ch with pressure := x } c).hold = (s.chans c).hold ∧
        (upd s.chans ch { s.chans ch with pressure := x } c).pressure =
          (if ch = c then x else (s.chans c).pressure) ∧
        (upd s.chans ch { s.chans ch with pressure := x } c).pbSemis = (s.chans c).pbSemis := by
      intro c _ x
      unfold upd
      by_cases e : c = ch
      · subst e; simp
      · simp [e, Ne.symm e]
    have hfin : ∀ c < 16, _ := fun c hc => hC c hc ((F32.ofInt v).divC 127)
    have hchan : ∀ c < 16, (upd s.chans ch { s.chans ch with
        pressure := (F32.ofInt v).divC 127 } c).pressure = channelPressure c (.channelAftertouch ch v :: h) := by
      intro c hc
      rw [(hfin c hc).2.2.2.2.2.1, hcp, i.pressure c hc]
    have hbq : (!s.mpe.enabled || ch == 0) = bendsAll h ch := by rw [i.enabled]; rfl
    rw [hbq] at hs
    cases hba : bendsAll h ch with
    | true =>
      rw [hba, if_pos rfl] at hs
      cases hs
      refine i.noncontroller (by intros; exact Msg.noConfusion) ?_ ⟨rfl, rfl, rfl, rfl, i.bend⟩ rfl ?_ ?_
      · intro c hc
        obtain ⟨a1, a2, a3, a4, a5, a6, a7⟩ := hfin c hc
        exact ⟨a1, a2, a3, a4, a5, hchan c hc, a7.trans (i.semis c hc)⟩
      · intro sc hsc
        obtain ⟨t, ht, rfl⟩ := List.mem_map.mp hsc
        exact ⟨i.scBend t ht, by rw [hg, hba]; rfl, i.scWheel t ht⟩
      · intro hn k
        exact i.keyP (by intro e; apply hn; simp [e]) k
    | false =>
      rw [hba] at hs
      simp only [Bool.false_eq_true, if_false, Res.pure_eq] at hs
      cases hs
      refine i.noncontroller (by intros; exact Msg.noConfusion) ?_ ⟨rfl, rfl, rfl, rfl, i.bend⟩ rfl ?_ i.keyP
      · intro c hc
        obtain ⟨a1, a2, a3, a4, a5, a6, a7⟩ := hfin c hc
        exact ⟨a1, a2, a3, a4, a5, hchan c hc, a7.trans (i.semis c hc)⟩
      · intro sc hsc
        exact ⟨i.scBend sc hsc, by rw [hg, hba]; exact i.scPress sc hsc, i.scWheel sc hsc⟩
  | polyAftertouch ch k v =>
    simp only [Synth.handle, Synth.polyAftertouch] at hs
    cases hs
    have hk : ∀ q, keyPressure q (.polyAftertouch ch k v :: h) =
        if k % 128 = q then (F32.ofInt v).divC 127 else keyPressure q h := by
      intro q
      simp only [keyPressure, newest]
      by_cases hb : k % 128 = q <;> simp [hb]
    by_cases he : s.scenes = []
    · rw [if_pos he]
      exact i.noncontroller (by intros; exact Msg.noConfusion)
        (fun c hc => ⟨rfl, rfl, rfl, rfl, rfl, i.pressure c hc, i.semis c hc⟩)
        ⟨rfl, rfl, rfl, rfl, i.bend⟩ rfl
        (fun sc hsc => ⟨i.scBend sc hsc, i.scPress sc hsc, i.scWheel sc hsc⟩) (fun hn => absurd he hn)
    · rw [if_neg he]
      refine i.noncontroller (by intros; exact Msg.noConfusion)
        (fun c hc => ⟨rfl, rfl, rfl, rfl, rfl, i.pressure c hc, i.semis c hc⟩)
        ⟨rfl, rfl, rfl, rfl, i.bend⟩ rfl
        (fun sc hsc => ⟨i.scBend sc hsc, i.scPress sc hsc, i.scWheel sc hsc⟩) ?_
      intro hn q
      rw [hk]
      show upd s.mpe.polyAftertouch (k % 128) _ q = _
      unfold upd
      by_cases e : q = k % 128
      · simp [e]
      · rw [if_neg e, if_neg (Ne.symm e)]; exact i.keyP hn q
  | noteOff sc ch k =>
    have sb := noteOff_frame hs
    have i2 : Inv (.noteOff sc ch k :: h) s := i.noncontroller (by intros; exact Msg.noConfusion)
        (fun c hc => ⟨rfl, rfl, rfl, rfl, rfl, i.pressure c hc, i.semis c hc⟩)
        ⟨rfl, rfl, rfl, rfl, i.bend⟩ rfl
        (fun sc hsc => ⟨i.scBend sc hsc, i.scPress sc hsc, i.scWheel sc hsc⟩) i.keyP
    exact i2.same sb
  | noteOn sc ch k vel =>
    have sb := noteOn_frame hs
    have i2 : Inv (.noteOn sc ch k vel :: h) s := i.noncontroller (by intros; exact Msg.noConfusion)
        (fun c hc => ⟨rfl, rfl, rfl, rfl, rfl, i.pressure c hc, i.semis c hc⟩)
        ⟨rfl, rfl, rfl, rfl, i.bend⟩ rfl
        (fun sc hsc => ⟨i.scBend sc hsc, i.scPress sc hsc, i.scWheel sc hsc⟩) i.keyP
    exact i2.same sb

/-- A legal history leaves the engine in the state the history describes. -/
theorem Inv.run {s0 : Synth} (f : Fresh s0) {h : List Msg} (hl : ∀ m ∈ h, m.Legal) {s : Synth}
    (hs : s0.run h.reverse = .ok s) : Inv h s := by
  induction h generalizing s with
  | nil => cases hs; exact Inv.fresh f
  | cons m h ih =>
    rw [run_snoc] at hs
    cases h1 : s0.run h.reverse with
    | err e => exact e.elim
    | panic w => rw [h1] at hs; cases hs
    | ok t =>
      rw [h1, Res.ok_bind] at hs
      exact (ih (fun m hm => hl m (List.mem_cons_of_mem _ hm)) h1).handle m (hl m List.mem_cons_self) hs

end Verif.Midi
