import Verif.Midi.Runs
import Mathlib.Data.List.Count
/-!
# Properties of the MIDI front end: hold pedal, parameters, programs, routing, expression
-/
namespace Verif.Midi
open Verif.Float

/-! ## C47: which legal histories crash -/

/-- C47. From power-on with a two-scene patch, a legal history of any length runs to the end exactly when it
contains neither a data entry for a non-registered parameter nor a pedal message after a key was played again
while its release was waiting for the pedal; otherwise it panics. -/
theorem C47_runs_iff_partial {s0 : Synth} (f : Fresh s0) (p : Playable s0) {h : List Msg} (hl : ∀ m ∈ h, m.Legal) :
    ((∃ s, s0.run h.reverse = .ok s) ↔ crashes h = false) ∧
    ((∃ w, s0.run h.reverse = .panic w) ↔ crashes h = true) := by
  cases hc : crashes h with
  | false =>
    obtain ⟨s, e, _⟩ := run_good f p hl hc
    refine ⟨⟨fun _ => rfl, fun _ => ⟨s, e⟩⟩, ⟨?_, fun h => by cases h⟩⟩
    rintro ⟨w, hw⟩; rw [e] at hw; cases hw
  | true =>
    obtain ⟨w, e⟩ := run_crash f p hl hc
    refine ⟨⟨?_, fun h => by cases h⟩, ⟨fun _ => rfl, fun _ => ⟨w, e⟩⟩⟩
    rintro ⟨s, hs⟩; rw [e] at hs; cases hs

/-- A two-scene power-on state. -/
def demo : Synth := { scenes := [{}, {}] }

theorem demo_fresh : Fresh demo :=
  ⟨rfl, rfl, rfl, rfl, rfl, by intro sc h; simp [demo] at h; exact h, rfl⟩
theorem demo_playable : Playable demo := ⟨rfl, by simp [demo], Or.inl rfl⟩

/-- The hypotheses are met, and both outcomes occur. -/
example : (∃ s, demo.run [.noteOn 0 1 60 100, .controller 1 64 127, .noteOff 0 1 60, .controller 1 64 0] = .ok s) :=
  (C47_runs_iff_partial demo_fresh demo_playable
    (h := [.controller 1 64 0, .noteOff 0 1 60, .controller 1 64 127, .noteOn 0 1 60 100])
    (by simp [Msg.Legal])).1.mpr (by decide)
example : (∃ w, demo.run [.noteOn 0 1 60 100, .controller 1 64 127, .noteOff 0 1 60, .noteOn 0 1 60 90,
    .controller 1 64 0] = .panic w) :=
  (C47_runs_iff_partial demo_fresh demo_playable
    (h := [.controller 1 64 0, .noteOn 0 1 60 90, .noteOff 0 1 60, .controller 1 64 127, .noteOn 0 1 60 100])
    (by simp [Msg.Legal])).2.mpr (by decide)

/-! ## C28: the hold pedal -/

/-- Releases of one key in the log. -/
def releases (s : Synth) (ch k : Nat) : Nat := s.released.countP fun r => decide (r.2 = ((ch : Int), (k : Int)))

/-- Queued releases of one key. -/
def queued (s : Synth) (ch k : Nat) : Nat := s.holdBuffer.countP fun r => decide (r = ((ch : Int), (k : Int)))

theorem countP_cast (q : List (Nat × Nat)) (ch k : Nat) :
    (q.map cast2).countP (fun r => decide (r = ((ch : Int), (k : Int)))) =
      q.countP fun p => decide (p = (ch, k)) := by
  rw [List.countP_map]
  apply List.countP_congr
  intro p _
  obtain ⟨a, b⟩ := p
  simp only [Function.comp, cast2, decide_eq_true_eq, Prod.mk.injEq]
  omega

theorem countP_rel (q : List (Nat × Nat)) (sc ch k : Nat) :
    (q.map fun p => (sc, cast2 p)).countP (fun r => decide (r.2 = ((ch : Int), (k : Int)))) =
      q.countP fun p => decide (p = (ch, k)) := by
  rw [← countP_cast q ch k, List.countP_map, List.countP_map]; rfl

theorem countP_split (q : List (Nat × Nat)) (f : Nat × Nat → Bool) (g : Nat × Nat → Bool) :
    (q.filter f).countP g + (q.filter fun p => !f p).countP g = q.countP g := by
  induction q with
  | nil => rfl
  | cons a q ih =>
    cases hf : f a <;> simp [List.filter_cons, hf, List.countP_cons] <;> omega

theorem waiting_step (h : List Msg) (m : Msg) (ch k : Nat) :
    ((waiting (m :: h)).countP fun p => decide (p = (ch, k))) +
      ((releasesOf h m).countP fun p => decide (p = (ch, k))) + noteOffs ch k h =
    ((waiting h).countP fun p => decide (p = (ch, k))) + noteOffs ch k (m :: h) := by
  have nodef : (∀ a b c, m ≠ .noteOff a b c) → noteOffs ch k (m :: h) = noteOffs ch k h := by
    intro hm
    unfold noteOffs
    rw [List.countP_cons]
    cases m <;> simp_all
  cases m with
  | noteOff sc c q =>
    have hno : noteOffs ch k (.noteOff sc c q :: h) = noteOffs ch k h + if (c, q) = (ch, k) then 1 else 0 := by
      unfold noteOffs; rw [List.countP_cons]; simp
    rw [hno]
    simp only [waiting, releasesOf]
    cases waits c h <;> simp [List.countP_append, List.countP_cons] <;> omega
  | controller c cc v =>
    rw [nodef (by intros; exact Msg.noConfusion)]
    by_cases h64 : cc = 64
    · subst h64
      simp only [waiting, releasesOf]
      have := countP_split (waiting h)
        (fun p => down 0 (.controller c 64 v :: h) || down p.1 (.controller c 64 v :: h))
        (fun p => decide (p = (ch, k)))
      omega
    · rw [waiting_cc h64, releasesOf_cc h64]; simp
  | program _ _ => rw [nodef (by intros; exact Msg.noConfusion)]; simp [waiting, releasesOf]
  | pitchBend _ _ => rw [nodef (by intros; exact Msg.noConfusion)]; simp [waiting, releasesOf]
  | channelAftertouch _ _ => rw [nodef (by intros; exact Msg.noConfusion)]; simp [waiting, releasesOf]
  | polyAftertouch _ _ _ => rw [nodef (by intros; exact Msg.noConfusion)]; simp [waiting, releasesOf]
  | noteOn _ _ _ _ => rw [nodef (by intros; exact Msg.noConfusion)]; simp [waiting, releasesOf]

theorem not_crashes {s0 s : Synth} (f : Fresh s0) (p : Playable s0) {h : List Msg} (hl : ∀ m ∈ h, m.Legal)
    (hs : s0.run h.reverse = .ok s) : crashes h = false ∧ Good h s := by
  cases hc : crashes h with
  | false =>
    obtain ⟨t, e, g⟩ := run_good f p hl hc
    rw [hs] at e; cases e; exact ⟨rfl, g⟩
  | true =>
    obtain ⟨w, e⟩ := run_crash f p hl hc
    rw [hs] at e; cases e

theorem released_count {s0 : Synth} (f : Fresh s0) (p : Playable s0) {h : List Msg} (hl : ∀ m ∈ h, m.Legal)
    {s : Synth} (hs : s0.run h.reverse = .ok s) (ch k : Nat) :
    releases s ch k + (waiting h).countP (fun p => decide (p = (ch, k))) = noteOffs ch k h := by
  induction h generalizing s with
  | nil => cases hs; simp [releases, f.released, waiting, noteOffs]
  | cons m h ih =>
    have hl' : ∀ m ∈ h, m.Legal := fun m hm => hl m (List.mem_cons_of_mem _ hm)
    have hnc := (not_crashes f p hl hs).1
    rw [run_snoc] at hs
    cases ht : s0.run h.reverse with
    | err e => exact e.elim
    | panic w => rw [ht] at hs; cases hs
    | ok t =>
      rw [ht, Res.ok_bind] at hs
      obtain ⟨_, g⟩ := not_crashes f p hl' ht
      obtain ⟨s', sc, e, g', r⟩ := g.step (Inv.run f hl' ht) m (hl m List.mem_cons_self) hnc
      rw [hs] at e; cases e
      have i := ih hl' ht
      have w := waiting_step h m ch k
      have : releases s ch k = releases t ch k + (releasesOf h m).countP fun p => decide (p = (ch, k)) := by
        unfold releases; rw [r, List.countP_append, countP_rel]
      omega

/-- C28 (part). For every legal history in which no key is played again while its release waits, and every key:
the note offs received are exactly the releases done plus the releases queued.  None is lost, none happens twice.
Missing for the full claim: replayed keys (`C28_replay_then_pedal_panics`), and that raising the pedal empties
the queue (only `C28_pedal_up_flushes_partial`). -/
theorem C28_conservation_partial {s0 : Synth} (f : Fresh s0) (p : Playable s0) {h : List Msg}
    (hl : ∀ m ∈ h, m.Legal) {s : Synth} (hs : s0.run h.reverse = .ok s) (hr : replayed h = false)
    (ch k : Nat) : releases s ch k + queued s ch k = noteOffs ch k h := by
  have := released_count f p hl hs ch k
  obtain ⟨_, g⟩ := not_crashes f p hl hs
  unfold queued
  rw [g.queue hr, countP_cast]
  exact this

/-- C28. A message never releases a key whose channel's pedal is down once the message is processed, whatever
came before; and the log only grows. -/
theorem C28_nothing_released_while_held {s0 : Synth} (f : Fresh s0) (p : Playable s0) {h : List Msg} {m : Msg}
    (hl : ∀ x ∈ m :: h, x.Legal) {s s' : Synth} (hs : s0.run h.reverse = .ok s) (hm : s.handle m = .ok s') :
    ∃ new, s'.released = s.released ++ new ∧
      ∀ r ∈ new, ∃ ch k : Nat, r.2 = ((ch : Int), (k : Int)) ∧ down ch (m :: h) = false := by
  have hl' : ∀ m ∈ h, m.Legal := fun m hm => hl m (List.mem_cons_of_mem _ hm)
  have hrun : s0.run (m :: h).reverse = .ok s' := by rw [run_snoc, hs, Res.ok_bind, hm]
  obtain ⟨_, g⟩ := not_crashes f p hl' hs
  obtain ⟨t, sc, e, _, r⟩ := g.step (Inv.run f hl' hs) m (hl m List.mem_cons_self) (not_crashes f p hl hrun).1
  rw [hm] at e; cases e
  refine ⟨_, r, ?_⟩
  intro x hx
  obtain ⟨⟨ch, k⟩, hp, rfl⟩ := List.mem_map.mp hx
  refine ⟨ch, k, rfl, ?_⟩
  cases m with
  | noteOff a c q =>
    simp only [releasesOf] at hp
    cases hw : waits c h with
    | true => rw [hw] at hp; cases hp
    | false =>
      rw [hw] at hp
      simp only [Bool.false_eq_true, if_false, List.mem_singleton, Prod.mk.injEq] at hp
      unfold waits at hw
      simp only [Bool.or_eq_false_iff] at hw
      rw [hp.1]
      exact hw.1
  | controller c cc v =>
    by_cases h64 : cc = 64
    · subst h64
      simp only [releasesOf, List.mem_filter, Bool.not_eq_true', Bool.or_eq_false_iff] at hp
      exact hp.2.2
    · rw [releasesOf_cc h64] at hp; cases hp
  | program _ _ => cases hp
  | pitchBend _ _ => cases hp
  | channelAftertouch _ _ => cases hp
  | polyAftertouch _ _ _ => cases hp
  | noteOn _ _ _ _ => cases hp

/-- C28 (part). Once a pedal message leaves every pedal up, nothing waits and every note off received so far has
been released exactly once. Missing: raising one pedal releases that channel's keys also while the pedal of
channel 0 is down without MPE; it does not (`C28_channel0_pedal_blocks_others`). -/
theorem C28_pedal_up_flushes_partial {s0 : Synth} (f : Fresh s0) (p : Playable s0) {h : List Msg} {ch : Nat}
    {v : Int} (hl : ∀ x ∈ Msg.controller ch 64 v :: h, x.Legal) {s : Synth}
    (hs : s0.run (Msg.controller ch 64 v :: h).reverse = .ok s)
    (hup : ∀ c < 16, down c (.controller ch 64 v :: h) = false) :
    s.holdBuffer = [] ∧ ∀ c k, releases s c k = noteOffs c k h := by
  have hl' : ∀ m ∈ h, m.Legal := fun m hm => hl m (List.mem_cons_of_mem _ hm)
  obtain ⟨hnc, g⟩ := not_crashes f p hl hs
  have hx : (replayed h || crashes h) = false := hnc
  simp only [Bool.or_eq_false_iff] at hx
  obtain ⟨t, _, gt⟩ := run_good f p hl' hx.2
  have hw : waiting (.controller ch 64 v :: h) = [] := by
    show (waiting h).filter _ = []
    rw [List.filter_eq_nil_iff]
    intro q hq
    rw [hup 0 (by omega), hup q.1 (gt.queueOk q hq).1]
    simp
  constructor
  · rw [g.queue hx.1, hw]; rfl
  · intro c k
    have := released_count f p hl hs c k
    rw [hw] at this
    simpa [noteOffs, List.countP_cons] using this

/-- C28. While the pedal that holds a channel is down, a note off only joins the queue. -/
theorem C28_pedal_down_defers {s0 : Synth} (f : Fresh s0) {h : List Msg} (hl : ∀ x ∈ h, x.Legal) {s s' : Synth}
    (hs : s0.run h.reverse = .ok s) {sc ch k : Nat} (hc : ch < 16)
    (hd : down ch h = true ∨ (mpeOn h = true ∧ down 0 h = true)) (hm : s.handle (.noteOff sc ch k) = .ok s') :
    s' = { s with holdBuffer := s.holdBuffer ++ [((ch : Int), (k : Int))] } := by
  have hw : waits ch h = true := by
    unfold waits; rcases hd with a | ⟨a, b⟩
    · simp [a]
    · simp [a, b]
  have i := Inv.run f hl hs
  simp only [Synth.handle, Synth.noteOff] at hm
  split at hm
  · cases hm
  · rw [hold_eq i ch hc, hw, Res.ok_bind, if_pos rfl] at hm
    cases hm; rfl

/-- C28 fails (1): playing a key again while its release waits makes the next pedal message panic, for every such
history. -/
theorem C28_replay_then_pedal_panics {s0 : Synth} (f : Fresh s0) (p : Playable s0) {h : List Msg} {ch : Nat}
    {v : Int} (hl : ∀ x ∈ Msg.controller ch 64 v :: h, x.Legal) (hr : replayed h = true) :
    ∃ w, s0.run (Msg.controller ch 64 v :: h).reverse = .panic w :=
  run_crash f p hl (by show (replayed h || crashes h) = true; rw [hr]; rfl)

/-- C28 fails (2): without MPE the pedal of channel 0 does not delay note offs of another channel, but while it
is down no waiting release of any channel goes through, even when the channel's own pedal goes up. -/
theorem C28_channel0_pedal_blocks_others {s0 : Synth} (f : Fresh s0) (p : Playable s0) {sc ch k : Nat}
    (hsc : sc < 2) (hch : 0 < ch ∧ ch < 16) (hk : k < 128) :
    ∃ s, s0.run [.controller ch 64 127, .noteOff sc ch k, .controller 0 64 127, .controller ch 64 0] = .ok s ∧
      releases s ch k = 0 ∧ queued s ch k = 1 := by
  set h : List Msg := [.controller ch 64 0, .controller 0 64 127, .noteOff sc ch k, .controller ch 64 127] with hh
  have hl : ∀ m ∈ h, m.Legal := by
    intro m hm
    simp only [hh, List.mem_cons, List.not_mem_nil, or_false] at hm
    rcases hm with rfl | rfl | rfl | rfl <;> simp [Msg.Legal] <;> omega
  have hc : crashes h = false := rfl
  have hr : replayed h = false := rfl
  obtain ⟨s, e, g⟩ := run_good f p hl hc
  have h0 : ch ≠ 0 := by omega
  have hw : waiting h = [(ch, k)] := by
    simp [hh, waiting, waits, down, lastCc, newest, h0]
  refine ⟨s, e, ?_⟩
  have hq : queued s ch k = 1 := by
    unfold queued; rw [g.queue hr, countP_cast, hw]; simp
  have hcons := C28_conservation_partial f p hl e hr ch k
  have hno : noteOffs ch k h = 1 := by simp [hh, noteOffs]
  exact ⟨by omega, hq⟩

/-- C28 fails (3): in key split and dual mode both scenes share one queue and scene 0 drains it first, so a pedal
message never releases a key in scene 1. -/
theorem C28_dual_never_releases_scene1 {s0 : Synth} (f : Fresh s0) (p : Playable s0) {h : List Msg}
    (hl : ∀ x ∈ h, x.Legal) {s s' : Synth} (hs : s0.run h.reverse = .ok s) {ch : Nat} {v : Int} (hch : ch < 16)
    (hmode : s.sceneMode = 1 ∨ s.sceneMode = 2) (hm : s.handle (.controller ch 64 v) = .ok s') :
    ∃ new, s'.released = s.released ++ new ∧ ∀ r ∈ new, r.1 = 0 := by
  obtain ⟨_, g⟩ := not_crashes f p hl hs
  have hm : s.cc64 ch v = .ok s' := hm
  cases hr : replayed h with
  | true =>
    obtain ⟨w, hw⟩ := cc64_poison s g.playable ch v (g.poison hr)
    rw [hw] at hm; cases hm
  | false =>
    obtain ⟨u, eu, _, _, ru⟩ := purgeTwo_ok
      { s with chans := upd s.chans ch { s.chans ch with hold := decide (63 < v) } } g.playable.two _
      (g.queue hr) g.queueOk
    have : s.cc64 ch v = .ok u := by
      unfold Synth.cc64 Synth.modChan
      rw [if_pos hch]
      rcases hmode with e | e
      · have e1 : sceneModeOf s.sceneMode = .ok .keySplit := by rw [e]; rfl
        rw [e1, Res.ok_bind, Res.ok_bind]; exact eu
      · have e1 : sceneModeOf s.sceneMode = .ok .dual := by rw [e]; rfl
        rw [e1, Res.ok_bind, Res.ok_bind]; exact eu
    rw [hm] at this; cases this
    refine ⟨_, ru, ?_⟩
    intro r hr
    obtain ⟨q, _, rfl⟩ := List.mem_map.mp hr
    rfl

/-- Non-vacuity: a run with a deferred and then released note. -/
example : ∃ s, demo.run [.controller 1 64 127, .noteOff 0 1 60, .controller 1 64 0] = .ok s ∧
    s.holdBuffer = [] ∧ releases s 1 60 = 1 := by
  have hl : ∀ x ∈ [Msg.controller 1 64 0, .noteOff 0 1 60, .controller 1 64 127], x.Legal := by simp [Msg.Legal]
  obtain ⟨s, hs⟩ := (C47_runs_iff_partial demo_fresh demo_playable hl).1.mpr (by decide)
  have := C28_pedal_up_flushes_partial demo_fresh demo_playable hl hs (by decide +kernel)
  exact ⟨s, hs, this.1, by rw [this.2]; decide⟩

end Verif.Midi
