import Verif.Midi.Total
/-!
# Which legal histories run to the end
-/
namespace Verif.Midi
open Verif.Float

/-- A stored 7-bit value. -/
def B7 (x : Int) : Prop := 0 ≤ x ∧ x ≤ 127

/-- The stored parameter numbers and values are 7-bit. -/
structure ChanOk (c : Chan) : Prop where
  a : B7 c.nrpn0
  b : B7 c.nrpn1
  d : B7 c.nrpnV0
  e : B7 c.nrpnV1
  f : B7 c.rpn0
  g : B7 c.rpn1
  i : B7 c.rpnV0
  j : B7 c.rpnV1

theorem B7.zero : B7 0 := by unfold B7; omega

/-- The part of the state that decides whether a message panics. -/
structure Good (h : List Msg) (s : Synth) : Prop where
  chans : ∀ ch, ChanOk (s.chans ch)
  cc0 : B7 s.cc0
  playable : Playable s
  queueOk : ∀ p ∈ waiting h, p.1 < 16 ∧ p.2 < 128
  queue : replayed h = false → s.holdBuffer = (waiting h).map cast2
  poison : replayed h = true → ((-1, -1) : Int × Int) ∈ s.holdBuffer

theorem Good.fresh {s : Synth} (f : Fresh s) (p : Playable s) : Good [] s where
  chans := by
    intro ch; rw [f.chans]
    exact ⟨B7.zero, B7.zero, B7.zero, B7.zero, B7.zero, B7.zero, B7.zero, B7.zero⟩
  cc0 := by rw [f.cc0]; exact B7.zero
  playable := p
  queueOk := by intro p hp; cases hp
  queue := by intro _; rw [f.hold]; rfl
  poison := by intro h; cases h

theorem shl7_add_ok (a b : Int) (ha : B7 a) (hb : B7 b) :
    (chkI32 (shl7 a + b) : P Int) = .ok (a * 128 + b) := by
  unfold B7 at ha hb
  have : shl7 a = a * 128 := by unfold shl7 wrap32; omega
  rw [this]
  unfold chkI32
  rw [if_pos (by omega)]

theorem encodeCc_ok {s : Synth} (ch cc : Nat) (hc : ch < 16) (hk : ChanOk (s.chans ch)) :
    ∃ n, s.encodeCc ch cc = .ok n := by
  unfold Synth.encodeCc Synth.chan
  by_cases h1 : cc = 6 ∨ cc = 38
  · rw [if_pos h1, if_pos hc, Res.ok_bind]
    cases hn : (s.chans ch).nrpnLast with
    | true =>
      rw [if_pos rfl, shl7_add_ok _ _ hk.e hk.d, Res.ok_bind, shl7_add_ok _ _ hk.b hk.a, Res.ok_bind]
      exact ⟨_, rfl⟩
    | false =>
      rw [if_neg (by simp), shl7_add_ok _ _ hk.j hk.i, Res.ok_bind, shl7_add_ok _ _ hk.g hk.f, Res.ok_bind]
      exact ⟨_, rfl⟩
  · rw [if_neg h1]; exact ⟨_, rfl⟩

theorem ccTail_ok {s : Synth} (ch cc : Nat) (hc : ch < 16) (hk : ChanOk (s.chans ch)) :
    ∃ s', s.ccTail ch cc = .ok s' := by
  obtain ⟨n, hn⟩ := encodeCc_ok (s := s) ch cc hc hk
  unfold Synth.ccTail
  rw [hn]; exact ⟨_, rfl⟩

theorem int7_ok (v : Int) (hv : B7 v) : ∃ p, int7ToBipolar v = .ok p := by
  unfold B7 at hv
  have : (chkI32 (v - 64) : P Int) = .ok (v - 64) := by unfold chkI32; rw [if_pos (by omega)]
  unfold int7ToBipolar
  split
  · rw [this]; exact ⟨_, rfl⟩
  · split
    · rw [this]; exact ⟨_, rfl⟩
    · exact ⟨_, rfl⟩

/-- Changes that concern neither the queue nor the numbers. -/
theorem Good.frame {h : List Msg} {m : Msg} {s s' : Synth} (g : Good h s)
    (hw : waiting (m :: h) = waiting h) (hr : replayed (m :: h) = replayed h)
    (hc : ∀ ch, ChanOk (s'.chans ch)) (h0 : B7 s'.cc0) (hl : s'.scenes.length = s.scenes.length)
    (hm : s'.sceneMode = s.sceneMode) (ha : s'.sceneActive = s.sceneActive)
    (hb : s'.holdBuffer = s.holdBuffer) : Good (m :: h) s' where
  chans := hc
  cc0 := h0
  playable := ⟨by rw [hl]; exact g.playable.two, by rw [hm]; exact g.playable.mode,
    by rw [ha]; exact g.playable.active⟩
  queueOk := by rw [hw]; exact g.queueOk
  queue := by rw [hw, hr, hb]; exact g.queue
  poison := by rw [hr, hb]; exact g.poison

theorem chanOk_upd {s : Synth} (hc : ∀ ch, ChanOk (s.chans ch)) (ch : Nat) (c' : Chan) (h : ChanOk c') (x : Nat) :
    ChanOk (upd s.chans ch c' x) := by
  unfold upd; split
  · exact h
  · exact hc x

theorem waiting_cc {h : List Msg} {ch cc : Nat} {v : Int} (hc : cc ≠ 64) :
    waiting (.controller ch cc v :: h) = waiting h := by
  rw [waiting.eq_def]
  split
  · contradiction
  · rename_i h1; injection h1 with h1 _; cases h1
  · rename_i h1; injection h1 with h1 _; injection h1 with _ h1 _; exact absurd h1 hc
  · rename_i h1; injection h1 with _ h2; rw [h2]

theorem ccTail_good {h : List Msg} {s s1 s' : Synth} {m : Msg} {ch cc : Nat} (g : Good (m :: h) s1)
    (e : s1.ccTail ch cc = .ok s') (_ : s = s1 → True) : Good (m :: h) s' := by
  obtain ⟨ct, lc, rfl⟩ := ccTail_frame e
  exact ⟨g.chans, g.cc0, ⟨g.playable.two, g.playable.mode, g.playable.active⟩, g.queueOk, g.queue, g.poison⟩

theorem crashes_cc {h : List Msg} {ch cc : Nat} {v : Int} (h6 : cc ≠ 6) (h64 : cc ≠ 64) :
    crashes (.controller ch cc v :: h) = crashes h := by
  rw [crashes.eq_def]
  split
  · contradiction
  · rename_i h1; injection h1 with h1 _; injection h1 with _ h1 _; exact absurd h1 h6
  · rename_i h1; injection h1 with h1 _; injection h1 with _ h1 _; exact absurd h1 h64
  · rename_i h1; injection h1 with _ h2; rw [h2]

theorem SameBut.good_cfg {s s' : Synth} (e : SameBut s s') (hc : ∀ ch, ChanOk (s.chans ch)) (h0 : B7 s.cc0)
    (p : Playable s) : (∀ ch, ChanOk (s'.chans ch)) ∧ B7 s'.cc0 ∧ Playable s' := by
  obtain ⟨ks, rel, hb, e⟩ := e.eq
  subst e
  refine ⟨fun ch => ?_, h0, ⟨p.two, p.mode, p.active⟩⟩
  exact ⟨(hc ch).a, (hc ch).b, (hc ch).d, (hc ch).e, (hc ch).f, (hc ch).g, (hc ch).i, (hc ch).j⟩

/-- The queue part of a pedal message. -/
theorem Good.pedal {h : List Msg} {s : Synth} (g : Good h s) (i : Inv h s) (ch : Nat) (hc : ch < 16) (v : Int)
    (hr : replayed h = false) :
    ∃ s' sc, s.cc64 ch v = .ok s' ∧ Good (.controller ch 64 v :: h) s' ∧
      s'.released = s.released ++
        ((waiting h).filter fun p => !(down 0 (.controller ch 64 v :: h) || down p.1 (.controller ch 64 v :: h))).map
          fun p => (sc, cast2 p) := by
  have hd : ∀ c < 16, (if c = ch then decide (63 < v) else (s.chans c).hold) =
      down c (.controller ch 64 v :: h) := by
    intro c hc
    unfold down
    rw [(spec_controller h ch 64 v).1]
    by_cases e : c = ch
    · subst e; simp
    · rw [if_neg e, if_neg (fun x => e x.1.symm)]; exact i.hold c hc
  obtain ⟨s', sc, e, f, b, r⟩ := cc64_ok s g.playable ch hc v _ (g.queue hr) g.queueOk
  have hw : waiting (.controller ch 64 v :: h) =
      (waiting h).filter fun p => down 0 (.controller ch 64 v :: h) || down p.1 (.controller ch 64 v :: h) := rfl
  have e1 : (waiting h).filter (fun p => (if (0 : Nat) = ch then decide (63 < v) else (s.chans 0).hold) ||
      (if p.1 = ch then decide (63 < v) else (s.chans p.1).hold)) = waiting (.controller ch 64 v :: h) := by
    rw [hw]
    apply List.filter_congr
    intro p hp
    rw [hd 0 (by omega), hd p.1 (g.queueOk p hp).1]
  have e2 : (waiting h).filter (fun p => !((if (0 : Nat) = ch then decide (63 < v) else (s.chans 0).hold) ||
      (if p.1 = ch then decide (63 < v) else (s.chans p.1).hold))) =
      (waiting h).filter fun p => !(down 0 (.controller ch 64 v :: h) || down p.1 (.controller ch 64 v :: h)) := by
    apply List.filter_congr
    intro p hp
    rw [hd 0 (by omega), hd p.1 (g.queueOk p hp).1]
  obtain ⟨c1, c2, c3⟩ := f.good_cfg (chanOk_upd g.chans ch { s.chans ch with hold := decide (63 < v) }
    ⟨(g.chans ch).a, (g.chans ch).b, (g.chans ch).d, (g.chans ch).e, (g.chans ch).f, (g.chans ch).g,
      (g.chans ch).i, (g.chans ch).j⟩) g.cc0 ⟨g.playable.two, g.playable.mode, g.playable.active⟩
  refine ⟨s', sc, e, ⟨c1, c2, c3, ?_, ?_, ?_⟩, ?_⟩
  · intro p hp; rw [hw] at hp; exact g.queueOk p (List.mem_of_mem_filter hp)
  · intro _; rw [b, e1]
  · intro hx; exact absurd (show replayed h = true from hx) (by simp [hr])
  · rw [r, e2]

/-- Controller messages other than the pedal and data entry never panic. -/
theorem Good.controller_other {h : List Msg} {s : Synth} (g : Good h s) (ch cc : Nat) (v : Int)
    (hc : ch < 16) (hv : B7 v) (h6 : cc ≠ 6) (h64 : cc ≠ 64) :
    ∃ s', s.controller ch cc v = .ok s' ∧ Good (.controller ch cc v :: h) s' ∧ s'.released = s.released := by
  have hw : waiting (.controller ch cc v :: h) = waiting h := waiting_cc h64
  have hr : replayed (.controller ch cc v :: h) = replayed h := rfl
  have same : Good (.controller ch cc v :: h) s :=
    g.frame hw hr g.chans g.cc0 rfl rfl rfl rfl
  have one : ∀ c' : Chan, ChanOk c' →
      Good (.controller ch cc v :: h) { s with chans := upd s.chans ch c' } := fun c' hk =>
    g.frame hw hr (chanOk_upd g.chans ch c' hk) g.cc0 rfl rfl rfl rfl
  have tail : ∀ t : Synth, Good (.controller ch cc v :: h) t → t.released = s.released →
      ∃ s', t.ccTail ch cc = .ok s' ∧ Good (.controller ch cc v :: h) s' ∧ s'.released = s.released := by
    intro t ht hrel
    obtain ⟨s', e⟩ := ccTail_ok (s := t) ch cc hc (ht.chans ch)
    refine ⟨s', e, ccTail_good (s := t) ht e (fun _ => trivial), ?_⟩
    obtain ⟨ct, lc, rfl⟩ := ccTail_frame e
    exact hrel
  have k := g.chans ch
  unfold Synth.controller
  by_cases e : cc = 0
  · rw [if_pos e]
    exact ⟨_, rfl, g.frame hw hr g.chans hv rfl rfl rfl rfl, rfl⟩
  rw [if_neg e]; clear e
  by_cases e : cc = 1
  · rw [if_pos e]
    exact tail _ (g.frame hw hr g.chans g.cc0 (by simp [Synth.cc1]) rfl rfl rfl) rfl
  rw [if_neg e, if_neg h6]; clear e
  obtain ⟨p, hp⟩ := int7_ok v hv
  by_cases e : cc = 10
  · rw [if_pos e]
    by_cases em : s.mpe.enabled = true
    · rw [if_pos em, hp, Res.ok_bind]
      unfold Synth.modChan; rw [if_pos hc]
      exact ⟨_, rfl, one _ ⟨k.a, k.b, k.d, k.e, k.f, k.g, k.i, k.j⟩, rfl⟩
    · rw [if_neg em]; exact tail s same rfl
  rw [if_neg e]; clear e
  by_cases e : cc = 38
  · rw [if_pos e]
    unfold Synth.modChan; rw [if_pos hc, Res.ok_bind]
    refine tail _ (one _ ?_) rfl
    beta_reduce
    split
    · exact ⟨k.a, k.b, hv, k.e, k.f, k.g, k.i, k.j⟩
    · exact ⟨k.a, k.b, k.d, k.e, k.f, k.g, hv, k.j⟩
  rw [if_neg e, if_neg h64]; clear e
  by_cases e : cc = 74
  · rw [if_pos e]
    by_cases em : s.mpe.enabled = true
    · rw [if_pos em, hp, Res.ok_bind]
      unfold Synth.modChan; rw [if_pos hc]
      exact ⟨_, rfl, one _ ⟨k.a, k.b, k.d, k.e, k.f, k.g, k.i, k.j⟩, rfl⟩
    · rw [if_neg em]; exact tail s same rfl
  rw [if_neg e]; clear e
  by_cases e : cc = 98
  · rw [if_pos e]; unfold Synth.modChan; rw [if_pos hc]
    exact ⟨_, rfl, one _ ⟨hv, k.b, k.d, k.e, k.f, k.g, k.i, k.j⟩, rfl⟩
  rw [if_neg e]; clear e
  by_cases e : cc = 99
  · rw [if_pos e]; unfold Synth.modChan; rw [if_pos hc]
    exact ⟨_, rfl, one _ ⟨hv, k.b, k.d, k.e, k.f, k.g, k.i, k.j⟩, rfl⟩
  rw [if_neg e]; clear e
  by_cases e : cc = 100
  · rw [if_pos e]; unfold Synth.modChan; rw [if_pos hc]
    exact ⟨_, rfl, one _ ⟨k.a, k.b, k.d, k.e, hv, k.g, k.i, k.j⟩, rfl⟩
  rw [if_neg e]; clear e
  by_cases e : cc = 101
  · rw [if_pos e]; unfold Synth.modChan; rw [if_pos hc]
    exact ⟨_, rfl, one _ ⟨k.a, k.b, k.d, k.e, k.f, hv, k.i, k.j⟩, rfl⟩
  rw [if_neg e]; clear e
  by_cases e : cc = 120 ∨ cc = 123
  · rw [if_pos e]; exact ⟨s, rfl, same, rfl⟩
  rw [if_neg e]
  exact tail s same rfl

theorem onRpn_frame (s : Synth) (ch : Nat) (l m v : Int) : ∃ mp, s.onRpn ch l m v = { s with mpe := mp } := by
  unfold Synth.onRpn
  repeat' split
  all_goals first | exact ⟨_, rfl⟩ | exact ⟨s.mpe, rfl⟩

theorem Good.entry {h : List Msg} {s : Synth} (g : Good h s) (i : Inv h s) (ch : Nat) (v : Int)
    (hc : ch < 16) (hv : B7 v) (hn : nrpnSelected ch h = false) :
    ∃ s', s.controller ch 6 v = .ok s' ∧ Good (.controller ch 6 v :: h) s' ∧ s'.released = s.released := by
  have hl : (s.chans ch).nrpnLast = false := by rw [i.nrpnLast ch hc]; exact hn
  have k := g.chans ch
  show ∃ s', s.cc6 ch v = .ok s' ∧ _
  unfold Synth.cc6 Synth.chan Synth.modChan
  rw [if_pos hc, Res.ok_bind, hl, if_neg (by simp), if_pos hc, Res.ok_bind]
  refine ⟨_, rfl, ?_⟩
  obtain ⟨mp, e⟩ := onRpn_frame { s with chans := upd s.chans ch { s.chans ch with rpnV1 := v } } ch
    (s.chans ch).rpn0 (s.chans ch).rpn1 v
  rw [e]
  refine ⟨g.frame (waiting_cc (by omega)) rfl (chanOk_upd g.chans ch _ ?_) g.cc0 rfl rfl rfl rfl, rfl⟩
  exact ⟨k.a, k.b, k.d, k.e, k.f, k.g, k.i, hv⟩

theorem hold_eq {h : List Msg} {s : Synth} (i : Inv h s) (ch : Nat) (hc : ch < 16) :
    s.hold ch = .ok (waits ch h) := by
  unfold Synth.hold Synth.chan
  rw [if_pos hc, Res.ok_bind, if_pos (by omega), Res.ok_bind, i.hold ch hc, i.hold 0 (by omega), i.enabled]
  rfl

theorem resetHold_poison (b : List (Int × Int)) (ch k : Nat) (h : ((-1, -1) : Int × Int) ∈ b) :
    ((-1, -1) : Int × Int) ∈ resetHold b ch k := by
  unfold resetHold
  refine List.mem_map.mpr ⟨(-1, -1), h, ?_⟩
  rw [if_neg]
  intro e; injection e with e1 _; omega

theorem resetHold_hit (q : List (Nat × Nat)) (ch k : Nat) (h : (ch, k) ∈ q) :
    ((-1, -1) : Int × Int) ∈ resetHold (q.map cast2) ch k := by
  unfold resetHold
  exact List.mem_map.mpr ⟨cast2 (ch, k), List.mem_map.mpr ⟨(ch, k), h, rfl⟩, if_pos rfl⟩

theorem resetHold_miss (q : List (Nat × Nat)) (ch k : Nat) (h : (ch, k) ∉ q) :
    resetHold (q.map cast2) ch k = q.map cast2 := by
  unfold resetHold
  rw [List.map_map]
  apply List.map_congr_left
  intro p hp
  show (if cast2 p = ((ch : Int), (k : Int)) then _ else _) = _
  rw [if_neg]
  intro e
  apply h
  obtain ⟨a, b⟩ := p
  unfold cast2 at e
  injection e with e1 e2
  simp only at e1 e2
  have e1 : a = ch := by omega
  have e2 : b = k := by omega
  rw [← e1, ← e2]; exact hp

theorem Good.noteOn {h : List Msg} {s : Synth} (g : Good h s) (i : Inv h s) (sc ch k vel : Nat)
    (hsc : sc < 2) (hc : ch < 16) (hk : k < 128) :
    ∃ s', s.noteOn sc ch k vel = .ok s' ∧ Good (.noteOn sc ch k vel :: h) s' ∧ s'.released = s.released := by
  have hp := g.playable
  have kk := g.chans ch
  unfold Synth.noteOn
  rw [if_neg (by rw [hp.two]; omega), if_neg (by omega)]
  unfold Synth.modChan
  rw [if_pos hc, Res.ok_bind]
  have hh : ({ s with chans := upd s.chans ch { s.chans ch with keystate := upd (s.chans ch).keystate k vel } } :
      Synth).hold ch = .ok (waits ch h) := by
    rw [← hold_eq i ch hc]
    unfold Synth.hold Synth.chan
    rw [if_pos hc, if_pos hc, if_pos (by omega), if_pos (by omega)]
    simp only [Res.ok_bind, upd_field Chan.hold, if_true]
    congr 3
    split
    · subst_vars; rfl
    · rfl
  rw [hh, Res.ok_bind]
  have hchan := chanOk_upd g.chans ch { s.chans ch with keystate := upd (s.chans ch).keystate k vel }
    ⟨kk.a, kk.b, kk.d, kk.e, kk.f, kk.g, kk.i, kk.j⟩
  have hw : waiting (.noteOn sc ch k vel :: h) = waiting h := rfl
  have hrd : replayed (.noteOn sc ch k vel :: h) =
    ((waits ch h && decide ((ch, k) ∈ waiting h)) || replayed h) := rfl
  cases hwt : waits ch h with
  | false =>
    rw [if_neg (by simp)]
    refine ⟨_, rfl, ?_, rfl⟩
    refine g.frame hw (by rw [hrd, hwt]; simp) hchan g.cc0 rfl rfl rfl rfl
  | true =>
    rw [if_pos rfl]
    refine ⟨_, rfl, ⟨hchan, g.cc0, ⟨hp.two, hp.mode, hp.active⟩, g.queueOk, ?_, ?_⟩, rfl⟩
    · intro hx
      rw [hrd, hwt] at hx
      simp only [Bool.true_and, Bool.or_eq_false_iff, decide_eq_false_iff_not] at hx
      show resetHold (resetHold s.holdBuffer ch k) ch k = _
      rw [g.queue hx.2, resetHold_miss _ _ _ hx.1, resetHold_miss _ _ _ hx.1]; rfl
    · intro hx
      rw [hrd, hwt] at hx
      simp only [Bool.true_and, Bool.or_eq_true, decide_eq_true_eq] at hx
      show _ ∈ resetHold (resetHold s.holdBuffer ch k) ch k
      apply resetHold_poison
      cases hrp : replayed h with
      | true => exact resetHold_poison _ _ _ (g.poison hrp)
      | false =>
        rw [g.queue hrp]
        rcases hx with hx | hx
        · exact resetHold_hit _ _ _ hx
        · rw [hrp] at hx; cases hx

theorem Good.noteOff {h : List Msg} {s : Synth} (g : Good h s) (i : Inv h s) (sc ch k : Nat)
    (hsc : sc < 2) (hc : ch < 16) (hk : k < 128) :
    ∃ s', s.noteOff sc ch k = .ok s' ∧ Good (.noteOff sc ch k :: h) s' ∧
      s'.released = s.released ++ (if waits ch h then [] else [(sc, cast2 (ch, k))]) := by
  have hp := g.playable
  unfold Synth.noteOff
  rw [if_neg (by rw [hp.two]; omega), hold_eq i ch hc, Res.ok_bind]
  have hw : waiting (.noteOff sc ch k :: h) = if waits ch h then waiting h ++ [(ch, k)] else waiting h := rfl
  have hr : replayed (.noteOff sc ch k :: h) = replayed h := rfl
  cases hwt : waits ch h with
  | true =>
    rw [hwt, if_pos rfl] at hw
    rw [if_pos rfl]
    refine ⟨_, rfl, ⟨g.chans, g.cc0, ⟨hp.two, hp.mode, hp.active⟩, ?_, ?_, ?_⟩, by simp⟩
    · rw [hw]
      intro p hp
      rcases List.mem_append.mp hp with a | a
      · exact g.queueOk p a
      · simp only [List.mem_singleton] at a
        subst a; exact ⟨hc, hk⟩
    · intro hx
      rw [hr] at hx
      show pushHold s.holdBuffer ch k = _
      rw [hw, g.queue hx]
      simp [pushHold, cast2]
    · intro hx
      rw [hr] at hx
      show _ ∈ pushHold s.holdBuffer ch k
      exact List.mem_append_left _ (g.poison hx)
  | false =>
    rw [if_neg (by simp)]
    rw [hwt] at hw
    obtain ⟨s', e, f, b, r⟩ := releaseNow_ok s sc ch k hc hk
    obtain ⟨c1, c2, c3⟩ := f.good_cfg g.chans g.cc0 g.playable
    refine ⟨s', e, ⟨c1, c2, c3, ?_, ?_, ?_⟩, by rw [r]; rfl⟩
    · rw [hw]; exact g.queueOk
    · rw [hr, hw, b]; exact g.queue
    · rw [hr, b]; exact g.poison

/-- What one message releases. -/
def releasesOf (h : List Msg) : Msg → List (Nat × Nat)
  | .noteOff _ ch k => if waits ch h then [] else [(ch, k)]
  | .controller ch 64 v =>
    (waiting h).filter fun p => !(down 0 (.controller ch 64 v :: h) || down p.1 (.controller ch 64 v :: h))
  | _ => []

theorem releasesOf_cc {h : List Msg} {ch cc : Nat} {v : Int} (hc : cc ≠ 64) :
    releasesOf h (.controller ch cc v) = [] := by
  rw [releasesOf.eq_def]
  split
  · contradiction
  · rename_i h1; injection h1 with _ h1 _; exact absurd h1 hc
  · rfl

/-- One message: it runs unless it is one of the two crashes, and it releases what it should. -/
theorem Good.step {h : List Msg} {s : Synth} (g : Good h s) (i : Inv h s) (m : Msg) (hl : m.Legal)
    (hn : crashes (m :: h) = false) :
    ∃ s' sc, s.handle m = .ok s' ∧ Good (m :: h) s' ∧
      s'.released = s.released ++ (releasesOf h m).map fun p => (sc, cast2 p) := by
  cases m with
  | controller ch cc v =>
    obtain ⟨hc, hcc, hv⟩ := hl
    by_cases h6 : cc = 6
    · subst h6
      have hx : (nrpnSelected ch h || crashes h) = false := hn
      simp only [Bool.or_eq_false_iff] at hx
      obtain ⟨s', e, g', r⟩ := g.entry i ch v hc hv hx.1
      exact ⟨s', 0, e, g', by rw [releasesOf_cc (by omega), r]; simp⟩
    · by_cases h64 : cc = 64
      · subst h64
        have hx : (replayed h || crashes h) = false := hn
        simp only [Bool.or_eq_false_iff] at hx
        obtain ⟨s', sc, e, g', r⟩ := g.pedal i ch hc v hx.1
        exact ⟨s', sc, e, g', r⟩
      · obtain ⟨s', e, g', r⟩ := g.controller_other ch cc v hc hv h6 h64
        exact ⟨s', 0, e, g', by rw [releasesOf_cc h64, r]; simp⟩
  | program ch v =>
    obtain ⟨hc, hv⟩ := hl
    refine ⟨{ s with pch := v, patchidQueue := some (s.cc0 * 128 + v) }, 0, ?_, ?_, ?_⟩
    · show s.programChange v = _
      unfold Synth.programChange
      rw [shl7_add_ok _ _ g.cc0 hv]; rfl
    · exact g.frame rfl rfl g.chans g.cc0 rfl rfl rfl rfl
    · simp [releasesOf]
  | pitchBend ch v =>
    have hch : ch < 16 := hl.1
    have k := g.chans ch
    have hmod : ch % 256 = ch := Nat.mod_eq_of_lt (by omega)
    show ∃ s' sc, s.pitchBend ch v = _ ∧ _
    unfold Synth.pitchBend Synth.modChan
    simp only [hmod, if_pos hch, releasesOf, List.map_nil, List.append_nil]
    cases hm : s.mpe.enabled with
    | false =>
      simp only [Bool.false_eq_true, if_false, Res.pure_eq, Res.ok_bind, hm, Bool.not_false, Bool.true_or, if_true]
      exact ⟨_, 0, rfl, g.frame rfl rfl g.chans g.cc0 (by simp) rfl rfl rfl, rfl⟩
    | true =>
      simp only [if_true, Res.ok_bind, Bool.not_true, Bool.false_or, hm]
      split
      · exact ⟨_, 0, rfl, g.frame rfl rfl (chanOk_upd g.chans ch _
          ⟨k.a, k.b, k.d, k.e, k.f, k.g, k.i, k.j⟩) g.cc0 (by simp) rfl rfl rfl, rfl⟩
      · exact ⟨_, 0, rfl, g.frame rfl rfl (chanOk_upd g.chans ch _
          ⟨k.a, k.b, k.d, k.e, k.f, k.g, k.i, k.j⟩) g.cc0 rfl rfl rfl rfl, rfl⟩
  | channelAftertouch ch v =>
    have hch : ch < 16 := hl.1
    have k := g.chans ch
    show ∃ s' sc, s.channelAftertouch ch v = _ ∧ _
    unfold Synth.channelAftertouch Synth.modChan
    simp only [if_pos hch, Res.ok_bind, releasesOf, List.map_nil, List.append_nil]
    split
    · exact ⟨_, 0, rfl, g.frame rfl rfl (chanOk_upd g.chans ch _
          ⟨k.a, k.b, k.d, k.e, k.f, k.g, k.i, k.j⟩) g.cc0 (by simp) rfl rfl rfl, rfl⟩
    · exact ⟨_, 0, rfl, g.frame rfl rfl (chanOk_upd g.chans ch _
          ⟨k.a, k.b, k.d, k.e, k.f, k.g, k.i, k.j⟩) g.cc0 rfl rfl rfl rfl, rfl⟩
  | polyAftertouch ch k v =>
    refine ⟨s.polyAftertouch k v, 0, rfl, ?_, ?_⟩
    · unfold Synth.polyAftertouch
      split
      · exact g.frame rfl rfl g.chans g.cc0 rfl rfl rfl rfl
      · exact g.frame rfl rfl g.chans g.cc0 rfl rfl rfl rfl
    · unfold Synth.polyAftertouch
      split <;> simp [releasesOf]
  | noteOff sc ch k =>
    obtain ⟨hsc, hc, hk⟩ := hl
    obtain ⟨s', e, g', r⟩ := g.noteOff i sc ch k hsc hc hk
    refine ⟨s', sc, e, g', ?_⟩
    rw [r]
    simp only [releasesOf]
    split <;> simp
  | noteOn sc ch k vel =>
    obtain ⟨hsc, hc, hk, _⟩ := hl
    obtain ⟨s', e, g', r⟩ := g.noteOn i sc ch k vel hsc hc hk
    exact ⟨s', 0, e, g', by rw [r]; simp [releasesOf]⟩

theorem crashes_mono {m : Msg} {h : List Msg} (hn : crashes (m :: h) = false) : crashes h = false := by
  rw [crashes.eq_def] at hn
  split at hn
  · rename_i h1; cases h1
  · rename_i h1; injection h1 with _ h1; subst h1; simp at hn; exact hn.2
  · rename_i h1; injection h1 with _ h1; subst h1; simp at hn; exact hn.2
  · rename_i h1; injection h1 with _ h1; subst h1; exact hn

/-- A legal history without the two crashes runs to the end. -/
theorem run_good {s0 : Synth} (f : Fresh s0) (p : Playable s0) {h : List Msg} (hl : ∀ m ∈ h, m.Legal)
    (hn : crashes h = false) : ∃ s, s0.run h.reverse = .ok s ∧ Good h s := by
  induction h with
  | nil => exact ⟨s0, rfl, Good.fresh f p⟩
  | cons m h ih =>
    have hl' : ∀ m ∈ h, m.Legal := fun m hm => hl m (List.mem_cons_of_mem _ hm)
    obtain ⟨s, e, g⟩ := ih hl' (crashes_mono hn)
    obtain ⟨s', _, e', g', _⟩ := g.step (Inv.run f hl' e) m (hl m List.mem_cons_self) hn
    exact ⟨s', by rw [run_snoc, e, Res.ok_bind, e'], g'⟩

/-- A legal history with one of the two crashes panics. -/
theorem run_crash {s0 : Synth} (f : Fresh s0) (p : Playable s0) {h : List Msg} (hl : ∀ m ∈ h, m.Legal)
    (hn : crashes h = true) : ∃ w, s0.run h.reverse = .panic w := by
  induction h with
  | nil => cases hn
  | cons m h ih =>
    have hl' : ∀ m ∈ h, m.Legal := fun m hm => hl m (List.mem_cons_of_mem _ hm)
    cases hc : crashes h with
    | true =>
      obtain ⟨w, hw⟩ := ih hl' hc
      exact ⟨w, by rw [run_snoc, hw]; rfl⟩
    | false =>
      obtain ⟨s, e, g⟩ := run_good f p hl' hc
      have i := Inv.run f hl' e
      rw [run_snoc, e, Res.ok_bind]
      rw [crashes.eq_def] at hn
      have hlm := hl m List.mem_cons_self
      split at hn
      · cases hn
      · rename_i ch v h' h1
        injection h1 with h1 h2; subst h1; subst h2
        rw [hc, Bool.or_false] at hn
        have hl : (s.chans ch).nrpnLast = true := by rw [i.nrpnLast ch hlm.1]; exact hn
        show ∃ w, s.cc6 ch v = _
        unfold Synth.cc6 Synth.chan
        rw [if_pos hlm.1, Res.ok_bind, hl, if_pos rfl]
        exact ⟨_, rfl⟩
      · rename_i ch v h' h1
        injection h1 with h1 h2; subst h1; subst h2
        rw [hc, Bool.or_false] at hn
        exact cc64_poison s g.playable ch v (g.poison hn)
      · rename_i h1
        injection h1 with h1 h2; subst h2
        rw [hc] at hn; cases hn

end Verif.Midi
