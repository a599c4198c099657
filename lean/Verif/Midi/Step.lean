import Verif.Midi.Lemmas
import Mathlib.Tactic.Linarith
/-!
# One message preserves the refinement invariant
-/
namespace Verif.Midi
open Verif.Float

theorem upd_same {α} (f : Nat → α) (i : Nat) (a : α) : upd f i a i = a := by simp [upd]
theorem upd_ne {α} (f : Nat → α) {i j : Nat} (a : α) (h : j ≠ i) : upd f i a j = f j := by simp [upd, h]

/-- A message that is not a data entry for a registered parameter leaves the MPE settings alone. -/
theorem spec_mpe_frame {h : List Msg} {m : Msg} (hm : rpnEntry h m = none) :
    mpeOn (m :: h) = mpeOn h ∧ mpeVoices (m :: h) = mpeVoices h ∧ masterRange (m :: h) = masterRange h ∧
    noteRange (m :: h) = noteRange h := by
  simp [mpeOn, mpeVoices, masterRange, noteRange, newest, hm]

/-- Facts about the spec when the newest message is a controller message. -/
theorem spec_controller (h : List Msg) (ch cc : Nat) (v : Int) :
    (∀ c k, lastCc c k (.controller ch cc v :: h) = if ch = c ∧ cc = k then v else lastCc c k h) ∧
    (∀ c, nrpnSelected c (.controller ch cc v :: h) =
      if ch = c ∧ (cc = 98 ∨ cc = 99) then true
      else if ch = c ∧ (cc = 100 ∨ cc = 101) then false else nrpnSelected c h) ∧
    (∀ c, channelPressure c (.controller ch cc v :: h) = channelPressure c h) ∧
    (∀ c, channelBend c (.controller ch cc v :: h) = channelBend c h) ∧
    globalBend (.controller ch cc v :: h) = globalBend h ∧
    globalPressure (.controller ch cc v :: h) = globalPressure h ∧
    (∀ k, keyPressure k (.controller ch cc v :: h) = keyPressure k h) ∧
    bank (.controller ch cc v :: h) = (if cc = 0 then v else bank h) ∧
    modWheelOf (.controller ch cc v :: h) =
      (if cc = 1 then (F32.ofInt v).mul (F32.ofQ (1 / 127)) else modWheelOf h) := by
  refine ⟨?_, ?_, ?_, ?_, ?_, ?_, ?_, ?_, ?_⟩
  · intro c k
    simp only [lastCc, newest]
    split <;> rename_i heq <;> split at heq <;> simp_all
  · intro c
    simp only [nrpnSelected, newest]
    by_cases h1 : ch = c ∧ (cc = 98 ∨ cc = 99)
    · simp [h1]
    · by_cases h2 : ch = c ∧ (cc = 100 ∨ cc = 101)
      · simp only [if_neg h1, if_pos h2]; rfl
      · simp only [if_neg h1, if_neg h2]
  · intro c; rfl
  · intro c; rfl
  · rfl
  · rfl
  · intro k; rfl
  · by_cases h0 : cc = 0
    · subst h0; rfl
    · simp only [bank, newest, if_neg h0]
      split <;> rename_i heq <;> split at heq <;> simp_all
  · by_cases h0 : cc = 1
    · subst h0; rfl
    · simp only [modWheelOf, newest, if_neg h0]
      split <;> rename_i heq <;> split at heq <;> simp_all

theorem rpnEntry_none {h : List Msg} {ch cc : Nat} {v : Int} (hc : cc ≠ 6) :
    rpnEntry h (.controller ch cc v) = none := by
  unfold rpnEntry
  split
  · rename_i h1; injection h1 with _ h1 _; exact absurd h1 hc
  · rfl

/-- The part of the invariant that a controller message other than 0, 1, 6, 64, 98-101 preserves. -/
theorem Inv.controller_other {h : List Msg} {s : Synth} (i : Inv h s) (ch cc : Nat) (v : Int)
    (h0 : cc ≠ 0) (h1 : cc ≠ 1) (h6 : cc ≠ 6) (h64 : cc ≠ 64)
    (h98 : cc ≠ 98) (h99 : cc ≠ 99) (h100 : cc ≠ 100) (h101 : cc ≠ 101) :
    Inv (.controller ch cc v :: h) s := by
  obtain ⟨a, b, c, d, e, f, g, k, l⟩ := spec_controller h ch cc v
  obtain ⟨m1, m2, m3, m4⟩ := spec_mpe_frame (rpnEntry_none (h := h) (ch := ch) (v := v) h6)
  constructor
  · intro x hx; rw [a, if_neg (by tauto)]; exact i.rpn0 x hx
  · intro x hx; rw [a, if_neg (by tauto)]; exact i.rpn1 x hx
  · intro x hx; rw [b, if_neg (by tauto), if_neg (by tauto)]; exact i.nrpnLast x hx
  · exact i.nrpn1
  · intro x hx; rw [a, if_neg (by tauto)]; exact i.hold x hx
  · intro x hx; rw [c]; exact i.pressure x hx
  · intro x hx; rw [d]; exact i.semis x hx
  · rw [m1]; exact i.enabled
  · rw [m2]; exact i.voices
  · rw [m3]; exact i.master
  · rw [m4]; exact i.note
  · rw [e]; exact i.bend
  · rw [k, if_neg h0]; exact i.cc0
  · rw [e]; exact i.scBend
  · rw [f]; exact i.scPress
  · rw [l, if_neg h1]; exact i.scWheel
  · intro hs x; rw [g]; exact i.keyP hs x

theorem upd_field {β : Type} (p : Chan → β) (s : Synth) (ch : Nat) (c' : Chan) (x : Nat) :
    p (upd s.chans ch c' x) = if x = ch then p c' else p (s.chans x) := by
  unfold upd; split <;> rfl

/-- Changing channel fields the invariant does not mention. -/
theorem Inv.chan_other {h : List Msg} {s : Synth} (i : Inv h s) (ch : Nat) (c' : Chan)
    (e : c'.rpn0 = (s.chans ch).rpn0 ∧ c'.rpn1 = (s.chans ch).rpn1 ∧ c'.nrpnLast = (s.chans ch).nrpnLast ∧
      c'.nrpn1 = (s.chans ch).nrpn1 ∧ c'.hold = (s.chans ch).hold ∧ c'.pressure = (s.chans ch).pressure ∧
      c'.pbSemis = (s.chans ch).pbSemis) : Inv h { s with chans := upd s.chans ch c' } := by
  obtain ⟨e1, e2, e3, e4, e5, e6, e7⟩ := e
  refine { i with rpn0 := ?_, rpn1 := ?_, nrpnLast := ?_, nrpn1 := ?_, hold := ?_, pressure := ?_, semis := ?_ }
  · intro x hx; simp only [upd_field Chan.rpn0]; split
    · subst_vars; rw [e1]; exact i.rpn0 _ hx
    · exact i.rpn0 x hx
  · intro x hx; simp only [upd_field Chan.rpn1]; split
    · subst_vars; rw [e2]; exact i.rpn1 _ hx
    · exact i.rpn1 x hx
  · intro x hx; simp only [upd_field Chan.nrpnLast]; split
    · subst_vars; rw [e3]; exact i.nrpnLast _ hx
    · exact i.nrpnLast x hx
  · intro x hx; simp only [upd_field Chan.nrpn1]; split
    · subst_vars; rw [e4]; exact i.nrpn1 _ hx
    · exact i.nrpn1 x hx
  · intro x hx; simp only [upd_field Chan.hold]; split
    · subst_vars; rw [e5]; exact i.hold _ hx
    · exact i.hold x hx
  · intro x hx; simp only [upd_field Chan.pressure]; split
    · subst_vars; rw [e6]; exact i.pressure _ hx
    · exact i.pressure x hx
  · intro x hx; simp only [upd_field Chan.pbSemis]; split
    · subst_vars; rw [e7]; exact i.semis _ hx
    · exact i.semis x hx

/-- Parameter selection messages. -/
theorem Inv.select {h : List Msg} {s : Synth} (i : Inv h s) (ch cc : Nat) (v : Int)
    (hcc : cc = 98 ∨ cc = 99 ∨ cc = 100 ∨ cc = 101) (c' : Chan)
    (e : c'.rpn0 = (if cc = 100 then v else (s.chans ch).rpn0) ∧
      c'.rpn1 = (if cc = 101 then v else (s.chans ch).rpn1) ∧
      c'.nrpnLast = decide (cc = 98 ∨ cc = 99) ∧
      c'.nrpn1 = (s.chans ch).nrpn1 ∧ c'.hold = (s.chans ch).hold ∧ c'.pressure = (s.chans ch).pressure ∧
      c'.pbSemis = (s.chans ch).pbSemis) :
    Inv (.controller ch cc v :: h) { s with chans := upd s.chans ch c' } := by
  obtain ⟨e1, e2, e3, e4, e5, e6, e7⟩ := e
  obtain ⟨a, b, c, d, e, f, g, k, l⟩ := spec_controller h ch cc v
  obtain ⟨m1, m2, m3, m4⟩ := spec_mpe_frame
    (rpnEntry_none (h := h) (ch := ch) (cc := cc) (v := v) (by omega))
  constructor
  · intro x hx; rw [a, upd_field Chan.rpn0, e1, ← i.rpn0 x hx]
    by_cases hxc : x = ch
    · subst hxc; simp
    · simp [hxc, Ne.symm hxc]
  · intro x hx; rw [a, upd_field Chan.rpn1, e2, ← i.rpn1 x hx]
    by_cases hxc : x = ch
    · subst hxc; simp
    · simp [hxc, Ne.symm hxc]
  · intro x hx; rw [b, upd_field Chan.nrpnLast, e3, ← i.nrpnLast x hx]
    by_cases hxc : x = ch
    · subst hxc
      by_cases h98 : cc = 98 ∨ cc = 99
      · simp [h98]
      · have : cc = 100 ∨ cc = 101 := by omega
        simp [h98, this]
    · simp [hxc, Ne.symm hxc]
  · intro x hx; rw [upd_field Chan.nrpn1, e4]
    split
    · subst_vars; exact i.nrpn1 _ hx
    · exact i.nrpn1 x hx
  · intro x hx; rw [a, if_neg (by omega), upd_field Chan.hold, e5]
    split
    · subst_vars; exact i.hold _ hx
    · exact i.hold x hx
  · intro x hx; rw [c, upd_field Chan.pressure, e6]
    split
    · subst_vars; exact i.pressure _ hx
    · exact i.pressure x hx
  · intro x hx; rw [d, upd_field Chan.pbSemis, e7]
    split
    · subst_vars; exact i.semis _ hx
    · exact i.semis x hx
  · rw [m1]; exact i.enabled
  · rw [m2]; exact i.voices
  · rw [m3]; exact i.master
  · rw [m4]; exact i.note
  · rw [e]; exact i.bend
  · rw [k, if_neg (by omega)]; exact i.cc0
  · rw [e]; exact i.scBend
  · rw [f]; exact i.scPress
  · rw [l, if_neg (by omega)]; exact i.scWheel
  · intro hs x; rw [g]; exact i.keyP hs x

theorem Inv.bankSel {h : List Msg} {s : Synth} (i : Inv h s) (ch : Nat) (v : Int) :
    Inv (.controller ch 0 v :: h) { s with cc0 := v } := by
  obtain ⟨a, b, c, d, e, f, g, k, l⟩ := spec_controller h ch 0 v
  obtain ⟨m1, m2, m3, m4⟩ := spec_mpe_frame
    (rpnEntry_none (h := h) (ch := ch) (cc := 0) (v := v) (by omega))
  constructor
  · intro x hx; rw [a, if_neg (by omega)]; exact i.rpn0 x hx
  · intro x hx; rw [a, if_neg (by omega)]; exact i.rpn1 x hx
  · intro x hx; rw [b, if_neg (by omega), if_neg (by omega)]; exact i.nrpnLast x hx
  · exact i.nrpn1
  · intro x hx; rw [a, if_neg (by omega)]; exact i.hold x hx
  · intro x hx; rw [c]; exact i.pressure x hx
  · intro x hx; rw [d]; exact i.semis x hx
  · rw [m1]; exact i.enabled
  · rw [m2]; exact i.voices
  · rw [m3]; exact i.master
  · rw [m4]; exact i.note
  · rw [e]; exact i.bend
  · rw [k]; rfl
  · rw [e]; exact i.scBend
  · rw [f]; exact i.scPress
  · rw [l]; exact i.scWheel
  · intro hs x; rw [g]; exact i.keyP hs x

theorem Inv.wheel {h : List Msg} {s : Synth} (i : Inv h s) (ch : Nat) (v : Int) :
    Inv (.controller ch 1 v :: h) (s.cc1 v) := by
  obtain ⟨a, b, c, d, e, f, g, k, l⟩ := spec_controller h ch 1 v
  obtain ⟨m1, m2, m3, m4⟩ := spec_mpe_frame
    (rpnEntry_none (h := h) (ch := ch) (cc := 1) (v := v) (by omega))
  constructor
  · intro x hx; rw [a, if_neg (by omega)]; exact i.rpn0 x hx
  · intro x hx; rw [a, if_neg (by omega)]; exact i.rpn1 x hx
  · intro x hx; rw [b, if_neg (by omega), if_neg (by omega)]; exact i.nrpnLast x hx
  · exact i.nrpn1
  · intro x hx; rw [a, if_neg (by omega)]; exact i.hold x hx
  · intro x hx; rw [c]; exact i.pressure x hx
  · intro x hx; rw [d]; exact i.semis x hx
  · rw [m1]; exact i.enabled
  · rw [m2]; exact i.voices
  · rw [m3]; exact i.master
  · rw [m4]; exact i.note
  · rw [e]; exact i.bend
  · rw [k]; exact i.cc0
  · rw [e]; intro sc hsc
    obtain ⟨t, ht, rfl⟩ := List.mem_map.mp hsc
    exact i.scBend t ht
  · rw [f]; intro sc hsc
    obtain ⟨t, ht, rfl⟩ := List.mem_map.mp hsc
    exact i.scPress t ht
  · rw [l]; intro sc hsc
    obtain ⟨t, ht, rfl⟩ := List.mem_map.mp hsc
    rfl
  · intro hs x; rw [g]
    exact i.keyP (by intro hn; apply hs; simp [Synth.cc1, hn]) x

theorem Inv.pedal {h : List Msg} {s : Synth} (i : Inv h s) (ch : Nat) (v : Int) :
    Inv (.controller ch 64 v :: h)
      { s with chans := upd s.chans ch { s.chans ch with hold := decide (63 < v) } } := by
  obtain ⟨a, b, c, d, e, f, g, k, l⟩ := spec_controller h ch 64 v
  obtain ⟨m1, m2, m3, m4⟩ := spec_mpe_frame
    (rpnEntry_none (h := h) (ch := ch) (cc := 64) (v := v) (by omega))
  constructor
  · intro x hx; rw [a, if_neg (by omega), upd_field Chan.rpn0, ← i.rpn0 x hx]; split <;> simp_all
  · intro x hx; rw [a, if_neg (by omega), upd_field Chan.rpn1, ← i.rpn1 x hx]; split <;> simp_all
  · intro x hx
    rw [b, if_neg (by omega), if_neg (by omega), upd_field Chan.nrpnLast, ← i.nrpnLast x hx]
    split <;> simp_all
  · intro x hx; rw [upd_field Chan.nrpn1]
    have := i.nrpn1 x hx
    split <;> simp_all
  · intro x hx; rw [a, upd_field Chan.hold]
    have := i.hold x hx
    by_cases hxc : x = ch
    · subst hxc; simp
    · simp only [hxc, Ne.symm hxc, if_false, false_and]; exact this
  · intro x hx; rw [c, upd_field Chan.pressure, ← i.pressure x hx]; split <;> simp_all
  · intro x hx; rw [d, upd_field Chan.pbSemis, ← i.semis x hx]; split <;> simp_all
  · rw [m1]; exact i.enabled
  · rw [m2]; exact i.voices
  · rw [m3]; exact i.master
  · rw [m4]; exact i.note
  · rw [e]; exact i.bend
  · rw [k]; exact i.cc0
  · rw [e]; exact i.scBend
  · rw [f]; exact i.scPress
  · rw [l]; exact i.scWheel
  · intro hs x; rw [g]; exact i.keyP hs x

/-- Data entry for a registered parameter. -/
theorem Inv.entry {h : List Msg} {s : Synth} (i : Inv h s) (ch : Nat) (v : Int) (hch : ch < 16)
    (hsel : nrpnSelected ch h = false) :
    Inv (.controller ch 6 v :: h) (s.onRpn ch (lastCc ch 100 h) (lastCc ch 101 h) v) := by
  obtain ⟨a, b, c, d, e, f, g, k, l⟩ := spec_controller h ch 6 v
  have hr : rpnEntry h (.controller ch 6 v) = some (ch, lastCc ch 100 h, lastCc ch 101 h, v) := by
    simp [rpnEntry, hsel]
  generalize hL : lastCc ch 100 h = lsb at *
  generalize hM : lastCc ch 101 h = msb at *
  have hframe : ∀ s' : Synth, (∃ mp : Mpe, s' = { s with mpe := mp } ∧
      mp.pitchbend = s.mpe.pitchbend ∧ mp.polyAftertouch = s.mpe.polyAftertouch ∧
      mp.enabled = mpeOn (.controller ch 6 v :: h) ∧ mp.numVoices = mpeVoices (.controller ch 6 v :: h) ∧
      mp.globalPitchbendRange = masterRange (.controller ch 6 v :: h) ∧
      mp.pitchbendRange = noteRange (.controller ch 6 v :: h)) → Inv (.controller ch 6 v :: h) s' := by
    rintro s' ⟨mp, rfl, p1, p2, p3, p4, p5, p6⟩
    constructor
    · intro x hx; rw [a, if_neg (by omega)]; exact i.rpn0 x hx
    · intro x hx; rw [a, if_neg (by omega)]; exact i.rpn1 x hx
    · intro x hx; rw [b, if_neg (by omega), if_neg (by omega)]; exact i.nrpnLast x hx
    · exact i.nrpn1
    · intro x hx; rw [a, if_neg (by omega)]; exact i.hold x hx
    · intro x hx; rw [c]; exact i.pressure x hx
    · intro x hx; rw [d]; exact i.semis x hx
    · exact p3
    · exact p4
    · exact p5
    · exact p6
    · rw [e]; exact p1.trans i.bend
    · rw [k]; exact i.cc0
    · rw [e]; exact i.scBend
    · rw [f]; exact i.scPress
    · rw [l]; exact i.scWheel
    · intro hs x; rw [g]; exact (congrFun p2 x).trans (i.keyP hs x)
  have s1 : mpeOn (.controller ch 6 v :: h) = if lsb = 6 ∧ msb = 0 then decide (0 < v) else mpeOn h := by
    simp only [mpeOn, newest, hr]
    by_cases h6 : lsb = 6 ∧ msb = 0
    · obtain ⟨rfl, rfl⟩ := h6; rfl
    · rw [if_neg h6]
      split <;> rename_i heq <;> split at heq <;> simp_all
  have s2 : mpeVoices (.controller ch 6 v :: h) = if lsb = 6 ∧ msb = 0 then (v % 16).toNat else mpeVoices h := by
    simp only [mpeVoices, newest, hr]
    by_cases h6 : lsb = 6 ∧ msb = 0
    · obtain ⟨rfl, rfl⟩ := h6; rfl
    · rw [if_neg h6]
      split <;> rename_i heq <;> split at heq <;> simp_all
  have s3 : masterRange (.controller ch 6 v :: h) =
      if ch = 0 ∧ lsb = 0 ∧ msb = 0 then F32.ofInt v
      else if lsb = 6 ∧ msb = 0 then .fin 0 else masterRange h := by
    simp only [masterRange, newest, hr]
    by_cases h0 : ch = 0 ∧ lsb = 0 ∧ msb = 0
    · obtain ⟨rfl, rfl, rfl⟩ := h0; rfl
    · rw [if_neg h0]
      by_cases h6 : lsb = 6 ∧ msb = 0
      · obtain ⟨rfl, rfl⟩ := h6
        rcases ch with _ | _ | ch <;> rfl
      · rw [if_neg h6]
        split <;> rename_i heq <;> split at heq <;> simp_all
  have s4 : noteRange (.controller ch 6 v :: h) =
      if ch = 1 ∧ lsb = 0 ∧ msb = 0 then F32.ofInt v
      else if lsb = 6 ∧ msb = 0 then (if (noteRange h).lt (.fin 0) then .fin 48 else noteRange h)
      else noteRange h := by
    simp only [noteRange, hr]
    by_cases h0 : ch = 1 ∧ lsb = 0 ∧ msb = 0
    · obtain ⟨rfl, rfl, rfl⟩ := h0; rfl
    · rw [if_neg h0]
      by_cases h6 : lsb = 6 ∧ msb = 0
      · obtain ⟨rfl, rfl⟩ := h6
        rcases ch with _ | _ | ch <;> rfl
      · rw [if_neg h6]
        split <;> simp_all
  apply hframe
  rw [s1, s2, s3, s4]
  unfold Synth.onRpn
  by_cases h0 : lsb = 0 ∧ msb = 0
  · obtain ⟨rfl, rfl⟩ := h0
    simp only [and_self, if_true, and_true]
    by_cases c0 : ch = 0
    · subst c0
      exact ⟨_, rfl, rfl, rfl, i.enabled, i.voices, by simp, by simpa using i.note⟩
    · by_cases c1 : ch = 1
      · subst c1
        exact ⟨_, rfl, rfl, rfl, i.enabled, i.voices, by simpa using i.master, by simp⟩
      · exact ⟨s.mpe, by simp [c0, c1], rfl, rfl, i.enabled, i.voices, by simpa [c0] using i.master,
          by simpa [c1] using i.note⟩
  · by_cases h6 : lsb = 6 ∧ msb = 0
    · obtain ⟨rfl, rfl⟩ := h6
      simp only [and_self, if_true]
      exact ⟨_, rfl, rfl, rfl, rfl, rfl, by simp, by simp [i.note]⟩
    · have e1 : ¬ (ch = 0 ∧ lsb = 0 ∧ msb = 0) := fun q => h0 q.2
      have e2 : ¬ (ch = 1 ∧ lsb = 0 ∧ msb = 0) := fun q => h0 q.2
      rw [if_neg h0, if_neg h6, if_neg h6, if_neg h6, if_neg e1, if_neg h6, if_neg e2, if_neg h6]
      exact ⟨s.mpe, rfl, rfl, rfl, i.enabled, i.voices, i.master, i.note⟩

/-- Every controller message preserves the invariant. -/
theorem Inv.controller {h : List Msg} {s s' : Synth} (i : Inv h s) (ch cc : Nat) (v : Int)
    (hs : s.controller ch cc v = .ok s') : Inv (.controller ch cc v :: h) s' := by
  unfold Synth.controller at hs
  have other : ∀ {t t' : Synth}, Inv (.controller ch cc v :: h) t → t.ccTail ch cc = .ok t' →
      Inv (.controller ch cc v :: h) t' := by
    intro t t' it ht
    obtain ⟨ct, lc, rfl⟩ := ccTail_frame ht
    exact it.learn ct lc
  by_cases e0 : cc = 0
  · rw [if_pos e0] at hs; subst e0; cases hs; exact i.bankSel ch v
  rw [if_neg e0] at hs
  by_cases e1 : cc = 1
  · rw [if_pos e1] at hs; subst e1; exact other (i.wheel ch v) hs
  rw [if_neg e1] at hs
  by_cases e6 : cc = 6
  · rw [if_pos e6] at hs; subst e6
    unfold Synth.cc6 Synth.chan at hs
    by_cases hch : ch < 16
    · simp only [if_pos hch, Res.ok_bind] at hs
      split at hs
      · cases hs
      · rename_i hn
        unfold Synth.modChan at hs
        simp only [if_pos hch, Res.ok_bind, Res.pure_eq] at hs
        cases hs
        have hsel : nrpnSelected ch h = false := by
          rw [← i.nrpnLast ch hch]; simpa using hn
        have key := Inv.entry (Inv.chan_other i ch { s.chans ch with rpnV1 := v }
          ⟨rfl, rfl, rfl, rfl, rfl, rfl, rfl⟩) ch v hch hsel
        rw [← i.rpn0 ch hch, ← i.rpn1 ch hch] at key
        exact key
    · simp only [if_neg hch] at hs; cases hs
  rw [if_neg e6] at hs
  by_cases e10 : cc = 10
  · rw [if_pos e10] at hs; subst e10
    have io := i.controller_other ch 10 v (by omega) (by omega) (by omega) (by omega) (by omega) (by omega)
      (by omega) (by omega)
    split at hs
    · cases hp : int7ToBipolar v with
      | ok p =>
        rw [hp, Res.ok_bind] at hs
        obtain ⟨-, rfl⟩ := modChan_ok hs
        exact Inv.chan_other io ch _ ⟨rfl, rfl, rfl, rfl, rfl, rfl, rfl⟩
      | err e => exact e.elim
      | panic w => rw [hp] at hs; cases hs
    · exact other io hs
  rw [if_neg e10] at hs
  by_cases e38 : cc = 38
  · rw [if_pos e38] at hs; subst e38
    have io := i.controller_other ch 38 v (by omega) (by omega) (by omega) (by omega) (by omega) (by omega)
      (by omega) (by omega)
    cases hp : (s.modChan ch fun c =>
        if c.nrpnLast then { c with nrpnV0 := v } else { c with rpnV0 := v }) with
    | ok t =>
      rw [hp] at hs
      obtain ⟨-, rfl⟩ := modChan_ok hp
      refine other ?_ hs
      apply Inv.chan_other io
      cases (s.chans ch).nrpnLast <;> exact ⟨rfl, rfl, rfl, rfl, rfl, rfl, rfl⟩
    | err e => exact e.elim
    | panic w => rw [hp] at hs; cases hs
  rw [if_neg e38] at hs
  by_cases e64 : cc = 64
  · rw [if_pos e64] at hs; subst e64
    obtain ⟨-, sb⟩ := cc64_frame hs
    exact (i.pedal ch v).same sb
  rw [if_neg e64] at hs
  by_cases e74 : cc = 74
  · rw [if_pos e74] at hs; subst e74
    have io := i.controller_other ch 74 v (by omega) (by omega) (by omega) (by omega) (by omega) (by omega)
      (by omega) (by omega)
    split at hs
    · cases hp : int7ToBipolar v with
      | ok p =>
        rw [hp, Res.ok_bind] at hs
        obtain ⟨-, rfl⟩ := modChan_ok hs
        exact Inv.chan_other io ch _ ⟨rfl, rfl, rfl, rfl, rfl, rfl, rfl⟩
      | err e => exact e.elim
      | panic w => rw [hp] at hs; cases hs
    · exact other io hs
  rw [if_neg e74] at hs
  by_cases e98 : cc = 98
  · rw [if_pos e98] at hs; subst e98
    obtain ⟨-, rfl⟩ := modChan_ok hs
    exact i.select ch 98 v (by omega) _ ⟨rfl, rfl, rfl, rfl, rfl, rfl, rfl⟩
  rw [if_neg e98] at hs
  by_cases e99 : cc = 99
  · rw [if_pos e99] at hs; subst e99
    obtain ⟨-, rfl⟩ := modChan_ok hs
    exact i.select ch 99 v (by omega) _ ⟨rfl, rfl, rfl, rfl, rfl, rfl, rfl⟩
  rw [if_neg e99] at hs
  by_cases e100 : cc = 100
  · rw [if_pos e100] at hs; subst e100
    obtain ⟨-, rfl⟩ := modChan_ok hs
    exact i.select ch 100 v (by omega) _ ⟨rfl, rfl, rfl, rfl, rfl, rfl, rfl⟩
  rw [if_neg e100] at hs
  by_cases e101 : cc = 101
  · rw [if_pos e101] at hs; subst e101
    obtain ⟨-, rfl⟩ := modChan_ok hs
    exact i.select ch 101 v (by omega) _ ⟨rfl, rfl, rfl, rfl, rfl, rfl, rfl⟩
  rw [if_neg e101] at hs
  have io := i.controller_other ch cc v e0 e1 e6 e64 e98 e99 e100 e101
  split at hs
  · cases hs; exact io
  · exact other io hs

end Verif.Midi
