import Verif.Midi.Refine
import Mathlib.Tactic.Ring
/-!
# When a legal history runs to the end, and what is in the hold queue then
-/
namespace Verif.Midi
open Verif.Float

/-- How a waiting note off is stored. -/
def cast2 (p : Nat × Nat) : Int × Int := ((p.1 : Int), (p.2 : Int))

theorem purgeHold_cast (hold : Nat → Bool) (q : List (Nat × Nat)) (hq : ∀ p ∈ q, p.1 < 16 ∧ p.2 < 128) :
    purgeHold hold (q.map cast2) = .ok ((q.filter fun p => hold 0 || hold p.1).map cast2,
      (q.filter fun p => !(hold 0 || hold p.1)).map cast2) := by
  induction q with
  | nil => rfl
  | cons p q ih =>
    obtain ⟨c, k⟩ := p
    have hp := hq (c, k) List.mem_cons_self
    have ih := ih (fun p h => hq p (List.mem_cons_of_mem _ h))
    simp only at hp
    have e2 : cast2 (c, k) = ((c : Int), (k : Int)) := rfl
    simp only [List.map_cons, e2, purgeHold]
    rw [if_neg (by omega), if_neg (by omega), ih, Res.ok_bind]
    simp only [Int.toNat_natCast]
    cases h0 : hold 0 <;> cases hc : hold c <;> simp [h0, hc, List.filter_cons, cast2]

theorem purgeHold_poison (hold : Nat → Bool) (q : List (Int × Int)) (hq : ((-1, -1) : Int × Int) ∈ q) :
    ∃ w, purgeHold hold q = .panic w := by
  induction q with
  | nil => cases hq
  | cons p q ih =>
    obtain ⟨c, k⟩ := p
    simp only [purgeHold]
    by_cases h1 : c < 0 ∨ k < 0
    · rw [if_pos h1]; exact ⟨_, rfl⟩
    · rw [if_neg h1]
      by_cases h2 : 16 ≤ c
      · rw [if_pos h2]; exact ⟨_, rfl⟩
      · rw [if_neg h2]
        have : ((-1, -1) : Int × Int) ∈ q := by
          rcases List.mem_cons.mp hq with e | e
          · injection e with e1 e2; omega
          · exact e
        obtain ⟨w, hw⟩ := ih this
        rw [hw]; exact ⟨w, rfl⟩

theorem releaseNow_ok (s : Synth) (sc ch k : Nat) (hc : ch < 16) (hk : k < 128) :
    ∃ s', s.releaseNow sc ch k = .ok s' ∧ SameBut s s' ∧ s'.holdBuffer = s.holdBuffer ∧
      s'.released = s.released ++ [(sc, (ch : Int), (k : Int))] := by
  have h1 : ∃ s', s.releaseNow sc ch k = .ok s' ∧ s'.holdBuffer = s.holdBuffer ∧
      s'.released = s.released ++ [(sc, (ch : Int), (k : Int))] := by
    unfold Synth.releaseNow Synth.modChan
    rw [if_neg (by omega), if_pos hc]
    exact ⟨_, rfl, rfl, rfl⟩
  obtain ⟨s', e, a, b⟩ := h1
  exact ⟨s', e, releaseNow_frame e, a, b⟩

theorem releaseAll_ok (sc : Nat) (q : List (Nat × Nat)) (hq : ∀ p ∈ q, p.1 < 16 ∧ p.2 < 128) (s : Synth) :
    ∃ s', Synth.releaseAll sc s (q.map cast2) = .ok s' ∧ SameBut s s' ∧ s'.holdBuffer = s.holdBuffer ∧
      s'.released = s.released ++ q.map fun p => (sc, cast2 p) := by
  induction q generalizing s with
  | nil => exact ⟨s, rfl, SameBut.refl s, rfl, by simp⟩
  | cons p q ih =>
    obtain ⟨c, k⟩ := p
    have hp := hq (c, k) List.mem_cons_self
    simp only at hp
    obtain ⟨s1, e1, f1, b1, r1⟩ := releaseNow_ok s sc c k hp.1 hp.2
    obtain ⟨s2, e2, f2, b2, r2⟩ := ih (fun p h => hq p (List.mem_cons_of_mem _ h)) s1
    refine ⟨s2, ?_, f1.trans f2, b2.trans b1, ?_⟩
    · simp only [List.map_cons, Synth.releaseAll]
      have ec : asU8 (cast2 (c, k)).1 = c := by simp only [asU8, cast2]; omega
      have ek : asU8 (cast2 (c, k)).2 = k := by simp only [asU8, cast2]; omega
      show (Synth.releaseNow s sc (asU8 (cast2 (c, k)).1) (asU8 (cast2 (c, k)).2) >>= _) = _
      rw [ec, ek, e1, Res.ok_bind, e2]
    · rw [r2, r1]; simp [cast2]

theorem purgeScene_ok (s : Synth) (sc : Nat) (hsc : sc < s.scenes.length) (q : List (Nat × Nat))
    (hb : s.holdBuffer = q.map cast2) (hq : ∀ p ∈ q, p.1 < 16 ∧ p.2 < 128) :
    ∃ s', s.purgeScene sc = .ok s' ∧ SameBut s s' ∧
      s'.holdBuffer = (q.filter fun p => (s.chans 0).hold || (s.chans p.1).hold).map cast2 ∧
      s'.released = s.released ++
        (q.filter fun p => !((s.chans 0).hold || (s.chans p.1).hold)).map fun p => (sc, cast2 p) := by
  have hp := purgeHold_cast (fun c => (s.chans c).hold) q hq
  obtain ⟨s', e, f, b, r⟩ := releaseAll_ok sc (q.filter fun p => !((s.chans 0).hold || (s.chans p.1).hold))
    (fun p h => hq p (List.mem_of_mem_filter h))
    { s with holdBuffer := (q.filter fun p => (s.chans 0).hold || (s.chans p.1).hold).map cast2 }
  have e' : s.purgeScene sc = .ok s' := by
    unfold Synth.purgeScene
    rw [if_neg (by omega), hb, hp, Res.ok_bind]
    simpa using e
  exact ⟨s', e', purgeScene_frame e', b, r⟩

theorem SameBut.hold_eq {s s' : Synth} (h : SameBut s s') (c : Nat) : (s'.chans c).hold = (s.chans c).hold := by
  obtain ⟨ks, rel, hb, e⟩ := h.eq
  subst e; rfl

theorem SameBut.scenes_eq {s s' : Synth} (h : SameBut s s') : s'.scenes = s.scenes := by
  obtain ⟨ks, rel, hb, e⟩ := h.eq
  subst e; rfl

theorem purgeTwo_ok (s : Synth) (h2 : s.scenes.length = 2) (q : List (Nat × Nat))
    (hb : s.holdBuffer = q.map cast2) (hq : ∀ p ∈ q, p.1 < 16 ∧ p.2 < 128) :
    ∃ s', (do let t ← s.purgeScene 0; t.purgeScene 1) = .ok s' ∧ SameBut s s' ∧
      s'.holdBuffer = (q.filter fun p => (s.chans 0).hold || (s.chans p.1).hold).map cast2 ∧
      s'.released = s.released ++
        (q.filter fun p => !((s.chans 0).hold || (s.chans p.1).hold)).map fun p => (0, cast2 p) := by
  obtain ⟨t, e1, f1, b1, r1⟩ := purgeScene_ok s 0 (by omega) q hb hq
  obtain ⟨u, e2, f2, b2, r2⟩ := purgeScene_ok t 1 (by rw [f1.scenes_eq]; omega) _ b1
    (fun p h => hq p (List.mem_of_mem_filter h))
  refine ⟨u, ?_, f1.trans f2, ?_, ?_⟩
  · have e1' : s.purgeScene 0 = .ok t := e1
    have e2' : t.purgeScene 1 = .ok u := e2
    rw [e1', Res.ok_bind, e2']
  · rw [b2]
    congr 1
    simp only [f1.hold_eq, List.filter_filter, Bool.and_self]
  · rw [r2, r1]
    simp only [f1.hold_eq, List.filter_filter, Bool.not_and_self, List.filter_false, List.map_nil,
      List.append_nil]

/-- A pedal message on a playable patch with a well-formed queue. -/
theorem cc64_ok (s : Synth) (hp : Playable s) (ch : Nat) (hc : ch < 16) (v : Int) (q : List (Nat × Nat))
    (hb : s.holdBuffer = q.map cast2) (hq : ∀ p ∈ q, p.1 < 16 ∧ p.2 < 128) :
    let hold := fun c => if c = ch then decide (63 < v) else (s.chans c).hold
    ∃ s' sc, s.cc64 ch v = .ok s' ∧
      SameBut { s with chans := upd s.chans ch { s.chans ch with hold := decide (63 < v) } } s' ∧
      s'.holdBuffer = (q.filter fun p => hold 0 || hold p.1).map cast2 ∧
      s'.released = s.released ++ (q.filter fun p => !(hold 0 || hold p.1)).map fun p => (sc, cast2 p) := by
  intro hold
  set t : Synth := { s with chans := upd s.chans ch { s.chans ch with hold := decide (63 < v) } } with ht
  have hh : ∀ c, (t.chans c).hold = hold c := by
    intro c
    simp only [ht, hold, upd]
    split
    · rfl
    · rfl
  have hm : s.modChan ch (fun c => { c with hold := decide (63 < v) }) = .ok t := by
    unfold Synth.modChan; rw [if_pos hc]
  have htwo : t.scenes.length = 2 := hp.two
  have hone : ∀ k : Nat, k < 2 → ∃ s', t.purgeScene k = .ok s' ∧ SameBut t s' ∧
      s'.holdBuffer = (q.filter fun p => hold 0 || hold p.1).map cast2 ∧
      s'.released = s.released ++ (q.filter fun p => !(hold 0 || hold p.1)).map fun p => (k, cast2 p) := by
    intro k hk
    have := purgeScene_ok t k (by omega) q hb hq
    simpa only [hh] using this
  have h2 := purgeTwo_ok t htwo q hb hq
  simp only [hh] at h2
  obtain ⟨u, eu, fu, bu, ru⟩ := h2
  unfold Synth.cc64
  obtain ⟨m0, m3⟩ := hp.mode
  have hcases : s.sceneMode = 0 ∨ s.sceneMode = 1 ∨ s.sceneMode = 2 ∨ s.sceneMode = 3 := by omega
  rcases hcases with e | e | e | e
  · have : sceneModeOf s.sceneMode = .ok .single := by rw [e]; rfl
    rw [this, Res.ok_bind, hm, Res.ok_bind]
    rcases hp.active with a | a
    · obtain ⟨s', e', x⟩ := hone 0 (by omega)
      refine ⟨s', 0, ?_, x⟩
      show t.purgeScene s.sceneActive = _
      rw [a]; exact e'
    · obtain ⟨s', e', x⟩ := hone 1 (by omega)
      refine ⟨s', 1, ?_, x⟩
      show t.purgeScene s.sceneActive = _
      rw [a]; exact e'
  · have : sceneModeOf s.sceneMode = .ok .keySplit := by rw [e]; rfl
    rw [this, Res.ok_bind, hm, Res.ok_bind]
    exact ⟨u, 0, eu, fu, bu, ru⟩
  · have : sceneModeOf s.sceneMode = .ok .dual := by rw [e]; rfl
    rw [this, Res.ok_bind, hm, Res.ok_bind]
    exact ⟨u, 0, eu, fu, bu, ru⟩
  · have : sceneModeOf s.sceneMode = .ok .channelSplit := by rw [e]; rfl
    rw [this, Res.ok_bind, hm, Res.ok_bind]
    simp only
    by_cases c1 : t.mpe.enabled = true ∧ ch = 0
    · rw [if_pos c1]; exact ⟨u, 0, eu, fu, bu, ru⟩
    · rw [if_neg c1]
      by_cases c2 : ch < asU8 (t.splitKey.tdiv 8 + 1)
      · rw [if_pos c2]
        obtain ⟨s', e', x⟩ := hone 0 (by omega)
        exact ⟨s', 0, e', x⟩
      · rw [if_neg c2]
        obtain ⟨s', e', x⟩ := hone 1 (by omega)
        exact ⟨s', 1, e', x⟩

/-- A pedal message once the queue holds an erased entry. -/
theorem cc64_poison (s : Synth) (hp : Playable s) (ch : Nat) (v : Int)
    (hb : ((-1, -1) : Int × Int) ∈ s.holdBuffer) : ∃ w, s.cc64 ch v = .panic w := by
  have key : ∀ (t : Synth) (k : Int), t.holdBuffer = s.holdBuffer → ∃ w, t.purgeScene k = .panic w := by
    intro t k ht
    unfold Synth.purgeScene
    split
    · exact ⟨_, rfl⟩
    · obtain ⟨w, hw⟩ := purgeHold_poison (fun c => (t.chans c).hold) t.holdBuffer (ht ▸ hb)
      rw [hw]; exact ⟨w, rfl⟩
  unfold Synth.cc64
  cases hm : sceneModeOf s.sceneMode with
  | err e => exact e.elim
  | panic w => exact ⟨w, rfl⟩
  | ok mode =>
    rw [Res.ok_bind]
    cases h1 : (s.modChan ch fun c => { c with hold := decide (63 < v) }) with
    | err e => exact e.elim
    | panic w => exact ⟨w, rfl⟩
    | ok t =>
      obtain ⟨_, et⟩ := modChan_ok h1
      have htb : t.holdBuffer = s.holdBuffer := by rw [et]
      rw [Res.ok_bind]
      have two : ∃ w, (do let a ← t.purgeScene 0; a.purgeScene 1) = .panic w := by
        obtain ⟨w, hw⟩ := key t 0 htb
        rw [hw]; exact ⟨w, rfl⟩
      cases mode with
      | single => exact key t _ htb
      | keySplit => exact two
      | dual => exact two
      | channelSplit =>
        simp only
        split
        · exact two
        · split
          · exact key t _ htb
          · exact key t _ htb

end Verif.Midi
