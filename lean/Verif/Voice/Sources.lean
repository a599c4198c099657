import Verif.Voice.MixClaims
import Verif.Smooth.Controller
import Verif.Lfo.Steps
import Verif.Lfo.Env
import Verif.Adsr.Props
import Mathlib.Tactic.NormNum
/-!
# The sources of a voice: oscillators, levels, envelopes and controllers (surge-voice), C255-C258

Exact real arithmetic for levels and controllers; `f32` for the LFO and the envelopes (models `Lfo`, `Adsr`).
-/
namespace Verif.Voice.Sources
open Verif.Voice Verif.Smooth

/-! ## C255: the oscillators -/

/-- surge-types/src/oscillator.rs 10-21: `OscillatorType`. -/
inductive OscTy
  | off | abstractBlit | audioInput | super | fm | fm2 | snh | sine | wavetable | window
  deriving DecidableEq

/-- An oscillator: what it is, whether `init` has been called on it, and the pitch it was given. -/
structure Osc where
  kind : OscTy
  started : Bool
  pitch : Option ℝ

/-- surge-voice/src/toggle_osc.rs 5-24: `spawn_osc` (the constructors are taken not to fail). -/
def spawn : OscTy → Option Osc
  | .off | .abstractBlit => none
  | t => some ⟨t, false, none⟩

/-- The part of `SurgeVoice` that concerns the oscillators. -/
structure V where
  ty : Fin 3 → OscTy
  osc : Fin 3 → Option Osc
  en : Fin 6 → Bool

/-- surge-voice/src/init.rs 79, 88, 93; create.rs 85-93: a voice before `switch_toggled`. -/
def blank : V := ⟨fun _ => .off, fun _ => some ⟨.sine, false, none⟩, fun _ => false⟩

/-- What the patch asks for: types, solo and mute buttons, pitch. -/
structure Patch where
  want : Fin 3 → OscTy
  solo : Solo
  pitch : ℝ

/-- toggle_osc.rs 38-43: initialisation of a new oscillator that is enabled. -/
def start (en : Bool) (p : ℝ) (o : Option Osc) : Option Osc :=
  if en then o.map fun o => { o with started := true, pitch := some p } else o

/-- toggle_osc.rs 32-46: one turn of the loop. -/
def toggle1 (c : Patch) (v : V) (i : Fin 3) : V :=
  if v.ty i ≠ c.want i then
    { v with osc := Function.update v.osc i (start (v.en (i.castLE (by omega))) c.pitch (spawn (c.want i))), ty := Function.update v.ty i (c.want i) }
  else v

/-- toggle_osc.rs 26-50: `maybe_toggle_osc`. -/
def toggleOsc (c : Patch) (v : V) : V := toggle1 c (toggle1 c (toggle1 c v 0) 1) 2

/-- surge-voice/src/toggle.rs 5-35: `switch_toggled` (FM buffers, filters and portamento apart): first the oscillators, then what is enabled. -/
def switch (c : Patch) (v : V) : V := { toggleOsc c v with en := c.solo.enable }

/-- init.rs 66-131: a new voice, after its last step `switch_toggled`. -/
def create (c : Patch) : V := switch c blank

/-- A life: the patch at the note on, then those of the later `switch_toggled` calls. -/
def life (c : Patch) (cs : List Patch) : V := cs.foldl (fun v c => switch c v) (create c)

/-- surge-voice/src/drop.rs 5-19: `free_allocated_elements`. -/
def free (v : V) : Res Empty V :=
  match v.osc 0, v.osc 1, v.osc 2 with
  | some a, some b, some c => .ok ⟨fun _ => .off, fun | 0 => some { a with started := true } | 1 => some { b with started := true } | 2 => some { c with started := true }, v.en⟩
  | _, _, _ => .panic "where is the oscillator!?"

theorem bindOk {α β : Type} {x : Res Empty α} {f : α → Res Empty β} {b : β} : (x >>= f) = .ok b ↔ ∃ a, x = .ok a ∧ f a = .ok b := by
  cases x with
  | ok a => simp [Res.ok_bind]
  | err e => exact e.elim
  | panic w => simp [Res.panic_bind]

theorem toggle_at (c : Patch) (v : V) (i : Fin 3) :
    (toggleOsc c v).ty i = c.want i ∧ (toggleOsc c v).en = v.en ∧
    (toggleOsc c v).osc i = if v.ty i ≠ c.want i then start (v.en (i.castLE (by omega))) c.pitch (spawn (c.want i)) else v.osc i := by
  have one : ∀ (v : V) (j : Fin 3), (toggle1 c v j).en = v.en ∧ (∀ i, i ≠ j → (toggle1 c v j).ty i = v.ty i ∧ (toggle1 c v j).osc i = v.osc i) ∧
      (toggle1 c v j).ty j = c.want j ∧ (toggle1 c v j).osc j = if v.ty j ≠ c.want j then start (v.en (j.castLE (by omega))) c.pitch (spawn (c.want j)) else v.osc j := by
    intro v j
    unfold toggle1
    by_cases h : v.ty j ≠ c.want j
    · rw [if_pos h, if_pos h]
      exact ⟨rfl, fun i hi => ⟨Function.update_of_ne hi _ _, Function.update_of_ne hi _ _⟩, Function.update_self .., Function.update_self ..⟩
    · rw [if_neg h, if_neg h]
      exact ⟨rfl, fun i _ => ⟨rfl, rfl⟩, not_not.mp h, rfl⟩
  obtain ⟨e0, f0, a0, b0⟩ := one v 0
  obtain ⟨e1, f1, a1, b1⟩ := one (toggle1 c v 0) 1
  obtain ⟨e2, f2, a2, b2⟩ := one (toggle1 c (toggle1 c v 0) 1) 2
  unfold toggleOsc
  fin_cases i
  · refine ⟨?_, by rw [e2, e1, e0], ?_⟩
    · show (toggle1 c (toggle1 c (toggle1 c v 0) 1) 2).ty 0 = _
      rw [(f2 0 (by decide)).1, (f1 0 (by decide)).1, a0]; rfl
    · show (toggle1 c (toggle1 c (toggle1 c v 0) 1) 2).osc 0 = _
      rw [(f2 0 (by decide)).2, (f1 0 (by decide)).2, b0]; rfl
  · refine ⟨?_, by rw [e2, e1, e0], ?_⟩
    · show (toggle1 c (toggle1 c (toggle1 c v 0) 1) 2).ty 1 = _
      rw [(f2 1 (by decide)).1, a1]; rfl
    · show (toggle1 c (toggle1 c (toggle1 c v 0) 1) 2).osc 1 = _
      rw [(f2 1 (by decide)).2, b1, (f0 1 (by decide)).1, (f0 1 (by decide)).2, e0]; rfl
  · refine ⟨?_, by rw [e2, e1, e0], ?_⟩
    · exact a2
    · show (toggle1 c (toggle1 c (toggle1 c v 0) 1) 2).osc 2 = _
      rw [b2, (f1 2 (by decide)).1, (f1 2 (by decide)).2, (f0 2 (by decide)).1, (f0 2 (by decide)).2, e1, e0]; rfl

namespace Spec
/-- The type of a real oscillator. -/
def Sounds (t : OscTy) : Prop := t ≠ .off ∧ t ≠ .abstractBlit
/-- The last patch of a life. -/
def last (c : Patch) (cs : List Patch) : Patch := (c :: cs).getLast (by simp)
end Spec

theorem life_snoc (c : Patch) (cs : List Patch) (d : Patch) : life c (cs ++ [d]) = switch d (life c cs) := by simp [life, List.foldl_append]

/-- What every life keeps: types and enables are those of the last patch, and an oscillator of the wanted kind is there. -/
theorem life_inv (c : Patch) (cs : List Patch) :
    (life c cs).ty = (Spec.last c cs).want ∧ (life c cs).en = (Spec.last c cs).solo.enable ∧
    ∀ i, Spec.Sounds ((Spec.last c cs).want i) → ∃ o, (life c cs).osc i = some o ∧ o.kind = (Spec.last c cs).want i := by
  have sp : ∀ (t : OscTy) (b : Bool) (p : ℝ), Spec.Sounds t → ∃ o, start b p (spawn t) = some o ∧ o.kind = t := by
    rintro t b p ⟨h1, h2⟩
    cases t <;> simp_all [spawn, start] <;> cases b <;> simp
  induction cs using List.reverseRecOn with
  | nil =>
    refine ⟨?_, rfl, fun i hi => ?_⟩
    · funext i; exact (toggle_at c blank i).1
    · have h := (toggle_at c blank i).2.2
      rw [if_pos (show blank.ty i ≠ c.want i from fun e => hi.1 (show (Spec.last c []).want i = .off from e.symm))] at h
      obtain ⟨o, e1, e2⟩ := sp (c.want i) _ c.pitch hi
      exact ⟨o, h.trans e1, e2⟩
  | append_singleton cs d ih =>
    have hl : Spec.last c (cs ++ [d]) = d := by simp [Spec.last]
    rw [hl, life_snoc]
    refine ⟨?_, rfl, fun i hi => ?_⟩
    · funext i; exact (toggle_at d _ i).1
    · have h := (toggle_at d (life c cs) i).2.2
      by_cases e : (life c cs).ty i ≠ d.want i
      · rw [if_pos e] at h
        obtain ⟨o, e1, e2⟩ := sp (d.want i) _ d.pitch hi
        exact ⟨o, h.trans e1, e2⟩
      · rw [if_neg e] at h
        have e' : (Spec.last c cs).want i = d.want i := by rw [← ih.1]; exact not_not.mp e
        obtain ⟨o, e1, e2⟩ := ih.2.2 i (by rw [e']; exact hi)
        exact ⟨o, h.trans e1, by rw [e2, e']⟩

/-- C255. In every life, of any number of switches, each oscillator that is to sound is of the type the last patch asks for, and the sources enabled are those the last patch enables. -/
theorem C255_type_partial (c : Patch) (cs : List Patch) (i : Fin 3) (h : Spec.Sounds ((Spec.last c cs).want i)) :
    (∃ o, (life c cs).osc i = some o ∧ o.kind = (Spec.last c cs).want i) ∧ (life c cs).en = (Spec.last c cs).solo.enable :=
  ⟨(life_inv c cs).2.2 i h, (life_inv c cs).2.1⟩

/-- C255 (refutation). An oscillator whose type is not changed while the voice lives is never initialised and gets no pitch, whatever else is switched. -/
theorem C255_never_started_refuted (c : Patch) (cs : List Patch) (i : Fin 3) (hc : ∀ d ∈ cs, d.want i = c.want i) (o : Osc)
    (ho : (life c cs).osc i = some o) : o.started = false ∧ o.pitch = none := by
  induction cs using List.reverseRecOn with
  | nil =>
    have h := (toggle_at c blank i).2.2
    have ho' : (toggleOsc c blank).osc i = some o := ho
    rw [h] at ho'
    split at ho'
    · have hb : blank.en (i.castLE (by omega)) = false := rfl
      rw [hb] at ho'
      cases hw : c.want i <;> rw [hw] at ho' <;> simp [start, spawn] at ho' <;> subst ho' <;> exact ⟨rfl, rfl⟩
    · simp only [blank, Option.some.injEq] at ho'
      subst ho'; exact ⟨rfl, rfl⟩
  | append_singleton cs d ih =>
    have hd : d.want i = c.want i := hc d (by simp)
    have ih := ih (fun e he => hc e (by simp [he]))
    rw [life_snoc] at ho
    have h := (toggle_at d (life c cs) i).2.2
    have ht : (life c cs).ty i = d.want i := by
      rw [(life_inv c cs).1, hd]
      have : Spec.last c cs ∈ c :: cs := List.getLast_mem _
      rcases List.mem_cons.mp this with e | e
      · rw [e]
      · exact hc _ (by simp [e])
    rw [if_neg (not_not.mpr ht)] at h
    exact ih (h ▸ ho)

/-- C255 (refutation). An oscillator that is off from the start is not silent: it is an oscillator like any other, a sine. -/
theorem C255_off_is_a_sine_refuted (c : Patch) (cs : List Patch) (i : Fin 3) (h0 : c.want i = .off) (hc : ∀ d ∈ cs, d.want i = .off) :
    (life c cs).osc i = some ⟨.sine, false, none⟩ := by
  induction cs using List.reverseRecOn with
  | nil =>
    have h := (toggle_at c blank i).2.2
    rw [if_neg (show ¬ blank.ty i ≠ c.want i from not_not.mpr h0.symm)] at h
    exact h
  | append_singleton cs d ih =>
    have hd : d.want i = .off := hc d (by simp)
    have hc' : ∀ d ∈ cs, d.want i = .off := fun e he => hc e (by simp [he])
    rw [life_snoc]
    have h := (toggle_at d (life c cs) i).2.2
    have ht : (life c cs).ty i = d.want i := by
      rw [(life_inv c cs).1, hd]
      have : Spec.last c cs ∈ c :: cs := List.getLast_mem _
      rcases List.mem_cons.mp this with e | e
      · rw [e, h0]
      · exact hc' _ e
    rw [if_neg (not_not.mpr ht)] at h
    exact h.trans (ih hc')

/-- C255 (refutation). Switching an oscillator off while the voice lives leaves no oscillator; the next block panics if that oscillator is enabled, if it is one of the
last two and the first is enabled, and the end of the voice panics. -/
theorem C255_switch_off_panics_refuted (c d : Patch) (cs : List Patch) (i : Fin 3) (h1 : Spec.Sounds ((Spec.last c cs).want i)) (h2 : d.want i = .off)
    (env : Env Osc) (m : MixCfg) (hm : m.enable = d.solo.enable) (r : Run Osc) (hr : r.osc = (life c (cs ++ [d])).osc) :
    (life c (cs ++ [d])).osc i = none ∧ free (life c (cs ++ [d])) = .panic "where is the oscillator!?" ∧
    (m.enable 0 = true ∨ m.enable (i.castLE (by omega)) = true → ∃ w, process env m r = .panic w) := by
  have hn : (life c (cs ++ [d])).osc i = none := by
    rw [life_snoc]
    have h := (toggle_at d (life c cs) i).2.2
    rw [if_pos (by rw [(life_inv c cs).1, h2]; exact h1.1)] at h
    refine h.trans ?_
    rw [h2]
    simp only [spawn, start]
    split <;> rfl
  refine ⟨hn, ?_, fun he => ?_⟩
  · unfold free
    fin_cases i
    · have : (life c (cs ++ [d])).osc 0 = none := hn
      rw [this]
    · have : (life c (cs ++ [d])).osc 1 = none := hn
      rw [this]; cases (life c (cs ++ [d])).osc 0 <;> rfl
    · have : (life c (cs ++ [d])).osc 2 = none := hn
      rw [this]; cases (life c (cs ++ [d])).osc 0 <;> cases (life c (cs ++ [d])).osc 1 <;> rfl
  · -- no stage gives a missing oscillator back
    rw [← hr] at hn
    have keepMix : ∀ (x : ℤ) (a b : ℕ → ℝ) (r : Run Osc), (mixIn x a b r).osc = r.osc := by
      intro x a b r; unfold mixIn; split <;> split <;> rfl
    have post : ∀ (j : Fin 3) (fm : Option (ℕ → ℝ)) (r r' : Run Osc), r.osc i = none → processOsc env m j fm r = .ok r' → r'.osc i = none ∧ j ≠ i := by
      intro j fm r r' hr' h
      unfold processOsc at h
      cases hg : get r j with
      | panic w => rw [hg] at h; exact absurd h (by simp [bind, Res.bind])
      | err e => exact e.elim
      | ok o =>
        have hj : j ≠ i := by
          rintro rfl
          simp [get, hr'] at hg
        rw [hg] at h
        refine ⟨?_, hj⟩
        simp only [Res.ok_bind] at h
        split at h
        · cases h
          rw [keepMix]
          split <;> simp [Function.update_of_ne hj.symm, hr']
        · cases h
          simp [Function.update_of_ne hj.symm, hr']
    have st : ∀ (g : Bool) (j : Fin 3) (fm : Run Osc → Option (ℕ → ℝ)) (r r' : Run Osc), r.osc i = none →
        stage g (fun r => processOsc env m j (fm r) r) r = .ok r' → r'.osc i = none ∧ (g = true → j ≠ i) := by
      intro g j fm r r' hr' h
      unfold stage at h
      split at h
      · obtain ⟨a, b⟩ := post j _ r r' hr' h
        exact ⟨a, fun _ => b⟩
      · rename_i hg
        cases h; exact ⟨hr', fun h => absurd h hg⟩
    by_contra hno
    push Not at hno
    cases hp : process env m r with
    | panic w => exact hno w hp
    | err e => exact e.elim
    | ok out =>
      unfold process at hp
      dsimp only at hp
      obtain ⟨q, hq, hp⟩ := bindOk.mp hp
      obtain ⟨q1, hq1, hp⟩ := bindOk.mp hp
      obtain ⟨q0, hq0, hp⟩ := bindOk.mp hp
      obtain ⟨n2, g2⟩ := st (gate2 m) 2 (fun _ => none) ⟨r.osc, Dsp.clearBlock 0 16 r.outL, Dsp.clearBlock 0 16 r.outR, fun _ => 0, fun _ => 0, r.fmbuf⟩ q hn hq
      obtain ⟨n1, g1⟩ := st (gate1 m) 1 (fun r => fmFor1 env m r) q q1 n2 hq1
      unfold stage at hq0
      by_cases h0 : m.enable 0 = true
      · rw [if_pos (by simp [h0])] at hq0
        unfold zeroth at hq0
        obtain ⟨o1, ho1, hq0⟩ := bindOk.mp hq0
        obtain ⟨o2, ho2, hq0⟩ := bindOk.mp hq0
        fin_cases i
        · dsimp only at hq0
          refine (post 0 _ _ q0 ?_ hq0).2 rfl
          split <;> exact n1
        · simp only [Fin.mk_one, Fin.isValue] at n1
          simp [get, n1] at ho1
        · simp only [Fin.reduceFinMk, Fin.isValue] at n1
          simp [get, n1] at ho2
      · rcases he with he | he
        · exact h0 he
        · fin_cases i
          · exact h0 he
          · exact g1 (by simp only [gate1]; simp only [Fin.mk_one, Fin.isValue] at he; rw [show m.enable 1 = true from he]; rfl) rfl
          · exact g2 (by simp only [gate2]; rw [show m.enable 2 = true from he]; rfl) rfl

/-- Nothing soloed or muted. -/
def open_ : Solo := ⟨fun _ => false, fun _ => false⟩

/-- A life that meets the hypotheses: a window oscillator first, all three then switched to FM, then off. -/
example : Spec.Sounds ((Spec.last ⟨fun _ => .window, open_, 60⟩ [⟨fun _ => .fm, open_, 60⟩]).want 1) ∧
    (life ⟨fun _ => .window, open_, 60⟩ [⟨fun _ => .fm, open_, 60⟩]).osc 1 = some ⟨.fm, true, some 60⟩ := by
  refine ⟨by simp [Spec.Sounds, Spec.last], ?_⟩
  show (switch _ (create _)).osc 1 = _
  rw [show ∀ c v, (switch c v).osc = (toggleOsc c v).osc from fun _ _ => rfl, (toggle_at _ _ 1).2.2, if_pos]
  · simp [create, switch, Solo.enable, Solo.any, open_, start, spawn]
  · simp [create, switch, (toggle_at _ _ 1).1]

/-! ## C256: the levels of the mixer -/

/-- The level parameters of the mixer (sources in the order oscillators 0, 1, 2, rings 0, 1, noise) and the pre-filter gain in decibels
(surge-scene/src/scene/param.rs 20, `SceneParam::LevelPfg`). -/
structure Knobs where
  level : Fin 6 → ℝ
  pfg : ℝ

/-- surge-math/src/convert.rs 7-10: `amp_to_linear`. -/
noncomputable def ampToLinear (x : ℝ) : ℝ := max 0 x * max 0 x * max 0 x

/-- The interpolators of the levels: `osclevels`. -/
structure Levels where
  lvl : Fin 6 → LipolPs ℝ
  pfg : LipolPs ℝ

/-- surge-voice/src/create.rs 72-83: `create_voice_osclevels`. -/
noncomputable def newLevels : Levels := ⟨fun _ => .default, .default⟩

/-- surge-voice/src/calc_levels.rs 5-26: `calc_levels`; `db` is `db_to_linear` of the tables. -/
noncomputable def calcLevels (db : ℝ → ℝ) (k : Knobs) (l : Levels) : Levels :=
  ⟨fun i => (l.lvl i).setTarget (ampToLinear (k.level i)), l.pfg.setTarget (db (k.level 5))⟩

/-- The levels after blocks with these settings of the knobs. -/
noncomputable def levels (db : ℝ → ℝ) (ks : List Knobs) : Levels := ks.foldl (fun l k => calcLevels db k l) newLevels

namespace Spec
/-- A level of the mixer: the cube of the knob, 0 below 0. -/
noncomputable def amp (x : ℝ) : ℝ := (max 0 x) ^ 3
/-- The knob before the last block, if there was one. -/
def before (f : Knobs → ℝ) (ks : List Knobs) : ℝ := (ks.getLast?.map f).getD 0
end Spec

theorem levels_inv (db : ℝ → ℝ) (ks : List Knobs) :
    (∀ i, ((levels db ks).lvl i).target = Spec.before (fun k => Spec.amp (k.level i)) ks ∧ ((levels db ks).lvl i).blockSize = 64) ∧
    (levels db ks).pfg.target = Spec.before (fun k => db (k.level 5)) ks ∧ (levels db ks).pfg.blockSize = 64 := by
  induction ks using List.reverseRecOn with
  | nil => exact ⟨fun i => ⟨rfl, rfl⟩, rfl, rfl⟩
  | append_singleton ks k ih =>
    have e : levels db (ks ++ [k]) = calcLevels db k (levels db ks) := by simp [levels, List.foldl_append]
    rw [e]
    refine ⟨fun i => ⟨?_, (ih.1 i).2⟩, ?_, ih.2.2⟩
    · simp [Spec.before, calcLevels, LipolPs.setTarget, ampToLinear, Spec.amp]; ring
    · simp [Spec.before, calcLevels, LipolPs.setTarget]

/-- C256. In every block, after any history of the knobs, the gain of each source lies between its level of the block before and its level now, depends on no other knob and
on no earlier history; with the knob at rest it is exactly the cube of the knob. -/
theorem C256_levels_partial (db : ℝ → ℝ) (ks : List Knobs) (k : Knobs) (i : Fin 6) (s : ℕ) :
    (∃ t, 0 < t ∧ t ≤ 1 / 8 ∧ ((levels db (ks ++ [k])).lvl i).gain s =
      (1 - t) * Spec.before (fun k => Spec.amp (k.level i)) ks + t * Spec.amp (k.level i)) ∧
    (∀ k', ks.getLast? = some k' → k'.level i = k.level i → ((levels db (ks ++ [k])).lvl i).gain s = Spec.amp (k.level i)) := by
  obtain ⟨h, -⟩ := levels_inv db ks
  have e : ((levels db (ks ++ [k])).lvl i).gain s =
      (1 - ((s % 8 : ℕ) + 1) / 64) * Spec.before (fun k => Spec.amp (k.level i)) ks + ((s % 8 : ℕ) + 1) / 64 * Spec.amp (k.level i) := by
    rw [show levels db (ks ++ [k]) = calcLevels db k (levels db ks) by simp [levels, List.foldl_append]]
    simp only [calcLevels, LipolPs.gain, LipolPs.setTarget, (h i).1, (h i).2, ampToLinear, Spec.amp]
    ring
  have hs : ((s % 8 : ℕ) : ℝ) ≤ 7 := by exact_mod_cast (by omega : s % 8 ≤ 7)
  have hs0 : (0 : ℝ) ≤ ((s % 8 : ℕ) : ℝ) := by positivity
  refine ⟨⟨_, ?_, ?_, e⟩, fun k' hk hl => ?_⟩
  · positivity
  · linarith
  · rw [e]
    simp only [Spec.before, hk, Option.map_some, Option.getD_some, hl]
    ring

/-- C256 (refutation). In the first block of a note no source reaches an eighth of its level; the next block starts with the whole. -/
theorem C256_first_block_refuted (db : ℝ → ℝ) (k : Knobs) (i : Fin 6) (s : ℕ) :
    ((levels db [k]).lvl i).gain s ≤ Spec.amp (k.level i) / 8 ∧ ((levels db [k, k]).lvl i).gain s = Spec.amp (k.level i) := by
  obtain ⟨⟨t, h0, h1, h2⟩, -⟩ := C256_levels_partial db [] k i s
  refine ⟨?_, (C256_levels_partial db [k] k i s).2 k rfl rfl⟩
  have hp : 0 ≤ Spec.amp (k.level i) := by unfold Spec.amp; positivity
  simp only [List.nil_append] at h2
  rw [h2]
  simp only [Spec.before, List.getLast?_nil, Option.map_none, Option.getD_none, mul_zero, zero_add]
  nlinarith

/-- C256 (refutation). The pre-filter gain knob does nothing: two histories that differ only in it give the same levels. What moves the pre-filter gain is the level of
the noise, read as decibels. -/
theorem C256_pfg_refuted (db : ℝ → ℝ) (ks ks' : List Knobs) (h : ks.map Knobs.level = ks'.map Knobs.level) (k : Knobs) (s : ℕ) :
    levels db ks = levels db ks' ∧ (levels db [k, k]).pfg.gain s = db (k.level 5) := by
  constructor
  · have : ∀ (ks ks' : List Knobs) (l : Levels), ks.map Knobs.level = ks'.map Knobs.level →
        ks.foldl (fun l k => calcLevels db k l) l = ks'.foldl (fun l k => calcLevels db k l) l := by
      intro ks
      induction ks with
      | nil => intro ks' l h; cases ks' with
        | nil => rfl
        | cons => simp at h
      | cons k ks ih => intro ks' l h; cases ks' with
        | nil => simp at h
        | cons k' ks' =>
          simp only [List.map_cons, List.cons.injEq] at h
          simp only [List.foldl_cons]
          rw [show calcLevels db k l = calcLevels db k' l by simp [calcLevels, h.1]]
          exact ih ks' _ h.2
    exact this ks ks' _ h
  · simp [levels, calcLevels, newLevels, LipolPs.gain, LipolPs.setTarget, LipolPs.default]

/-- C256 (refutation). So the noise knob changes the loudness of the other sources: a block with the noise muted and every knob at rest is scaled by `db` of the noise level. -/
theorem C256_noise_scales_all_refuted (db : ℝ → ℝ) (k : Knobs) (s : ℕ) (m : MixCfg) (hm : m.lvl = (levels db [k, k]).lvl) (hp : m.pfg = (levels db [k, k]).pfg)
    (hn : m.enable 5 = false) (here : ℤ → Prop) [DecidablePred here] (x : Fin 6 → ℝ) :
    Voice.Spec.mix m here x s = db (k.level 5) * ∑ i : Fin 5, if m.enable i.castSucc = true ∧ here (m.route i.castSucc) then Spec.amp (k.level i.castSucc) * x i.castSucc else 0 := by
  unfold Voice.Spec.mix
  rw [hp, (C256_pfg_refuted db [] [] rfl k s).2, Fin.sum_univ_castSucc]
  congr 1
  rw [show (Fin.last 5 : Fin 6) = 5 from rfl, hn]
  simp only [Bool.false_eq_true, false_and, if_false, add_zero]
  refine Finset.sum_congr rfl fun i _ => ?_
  rw [hm, (C256_first_block_refuted db k i.castSucc s).2]

/-! ## C257: the LFOs of a voice and the retriggering of its envelopes -/

/-- surge-voice/src/init_modsource.rs 118-128: `init_lfos`; what the patch asks of the LFOs is not looked at. -/
def initLfos (_patch : Fin 6 → Lfo.Params) : Fin 6 → Lfo.St := fun _ => Lfo.new Lfo.defaultParams

/-- surge-voice/src/calc_envelope.rs 5-47, calc.rs 10-11: LFO 1 plays a block, then the envelopes: (LFO, amplifier envelope, filter envelope). -/
def lfoThenEnvelopes (fuel : Nat) (E : Lfo.Env) (r : Lfo.Rand) (l : Lfo.St) (a f : Adsr.St) : Res Empty (Lfo.St × Adsr.St × Adsr.St) :=
  Lfo.process fuel E r l >>= fun l =>
    (if l.retriggerAeg = true then Adsr.retrigger a else .ok a) >>= fun a =>
      (if l.retriggerFeg = true then Adsr.retrigger f else .ok f) >>= fun f => .ok (l, a, f)

/-- C257. With a step sequencer in LFO 1, in each block an envelope is retriggered exactly if the block ends a step that is marked to trigger it (or both). -/
theorem C257_retriggers_partial (fuel : Nat) (E : Lfo.Env) (r : Lfo.Rand) (l l' : Lfo.St) (a a' f f' : Adsr.St) (q : Float.F32) (hi : l.phaseInit = true)
    (hsh : Lfo.getShape l = .ok .stepseq) (hq : Lfo.rateOf E l.p .rate = .ok q) (hs : l.step < 16)
    (h : lfoThenEnvelopes fuel E r l a f = .ok (l', a', f')) :
    (Lfo.Spec.Crosses l q ∧ (l.seq.trigmask.getLsbD l.step = true ∨ l.seq.trigmask.getLsbD (32 + l.step) = true) → Adsr.retrigger a = .ok a') ∧
    (¬ (Lfo.Spec.Crosses l q ∧ (l.seq.trigmask.getLsbD l.step = true ∨ l.seq.trigmask.getLsbD (32 + l.step) = true)) → a' = a) ∧
    (Lfo.Spec.Crosses l q ∧ (l.seq.trigmask.getLsbD l.step = true ∨ l.seq.trigmask.getLsbD (16 + l.step) = true) → Adsr.retrigger f = .ok f') ∧
    (¬ (Lfo.Spec.Crosses l q ∧ (l.seq.trigmask.getLsbD l.step = true ∨ l.seq.trigmask.getLsbD (16 + l.step) = true)) → f' = f) := by
  unfold lfoThenEnvelopes at h
  obtain ⟨l1, h1, h⟩ := bindOk.mp h
  obtain ⟨a1, h2, h⟩ := bindOk.mp h
  obtain ⟨f1, h3, h⟩ := bindOk.mp h
  cases h
  obtain ⟨t1, t2⟩ := Lfo.C73_retriggers fuel E r l l' q hi hsh hq hs h1
  refine ⟨fun c => ?_, fun c => ?_, fun c => ?_, fun c => ?_⟩
  · rw [if_pos (t2.mpr c)] at h2; exact h2
  · rw [if_neg (fun e => c (t2.mp e))] at h2; cases h2; rfl
  · rw [if_pos (t1.mpr c)] at h3; exact h3
  · rw [if_neg (fun e => c (t1.mp e))] at h3; cases h3; rfl

/-- `C257_retriggers_partial`: a step sequencer that ends a step marked for both envelopes, the envelopes in their attack. -/
example : ∃ x, Lfo.getShape { Lfo.new (Lfo.demoParams (.int 7) (.float (.fin 0)) false) with phaseInit := true } = .ok .stepseq ∧
    Lfo.Spec.Crosses { Lfo.new (Lfo.demoParams (.int 7) (.float (.fin 0)) false) with phaseInit := true, phase := .fin 1 } (.fin (1 / 4)) ∧
    lfoThenEnvelopes 9 Lfo.demoEnv ⟨.fin 0, fun _ => .fin 0⟩ { Lfo.new (Lfo.demoParams (.int 7) (.float (.fin 0)) false) with phaseInit := true, phase := .fin 1, seq := { StepSeq.Seq.default with trigmask := 1 } }
      { Adsr.new with stage := .attack } { Adsr.new with stage := .attack } = .ok x := by
  have h : (lfoThenEnvelopes 9 Lfo.demoEnv ⟨.fin 0, fun _ => .fin 0⟩ { Lfo.new (Lfo.demoParams (.int 7) (.float (.fin 0)) false) with phaseInit := true, phase := .fin 1, seq := { StepSeq.Seq.default with trigmask := 1 } }
      { Adsr.new with stage := .attack } { Adsr.new with stage := .attack }).isOk = true := by decide +kernel
  obtain ⟨x, hx⟩ := Lfo.exists_of_isOk h
  exact ⟨x, rfl, by unfold Lfo.Spec.Crosses; decide +kernel, hx⟩

/-- C257 (refutation). The LFOs of a new voice have the default parameters, whatever the patch asks for, and starting one panics. -/
theorem C257_new_voice_refuted (patch : Fin 6 → Lfo.Params) (i : Fin 6) (fuel : Nat) (hf : 2 ≤ fuel) (E : Lfo.Env) (r : Lfo.Rand) :
    (initLfos patch i).p = Lfo.defaultParams ∧ Lfo.attack fuel E r (initLfos patch i) = .panic "explicit panic" :=
  ⟨rfl, (Lfo.C71_default_panics fuel E r hf).1⟩

/-! ## C258: the controllers of a voice -/

/-- The controllers of a voice. -/
structure Ctls where
  velocity : Ctl ℝ
  release : Ctl ℝ
  poly : Ctl ℝ
  channel : Ctl ℝ
  timbre : Ctl ℝ

/-- surge-voice/src/init_modsource.rs 5-116 (the controllers): the value of a note on with this velocity, channel pressure and timbre.  `init_aftertouch` (19-30) looks for a
controller in the place of the amplifier envelope and so does nothing: the pressure already on the key, `_key`, is not used. -/
noncomputable def initCtls (vel : ℤ) (_key pressure timbre : ℝ) : Ctls :=
  ⟨{ Ctl.new with output := vel / 127 }, { Ctl.new with output := 0 }, Ctl.new, { Ctl.new with output := pressure }, { Ctl.new with output := timbre }⟩

/-- surge-voice/src/release.rs 28-38: the release velocity. -/
noncomputable def releaseCtl (rv : ℤ) (c : Ctls) : Ctls := { c with release := { c.release with output := rv / 127 } }

/-- calc_modsources.rs 9-20, then calc_poly_aftertouch.rs 5-26: the controllers in a block with this channel pressure, timbre and pressure on the key; `polyOn`: some routing
uses polyphonic aftertouch. -/
noncomputable def calcCtls (k : ℝ) (polyOn : Bool) (key pressure timbre : ℝ) (c : Ctls) : Ctls :=
  let c := { c with poly := { c.poly with output := pressure } }
  let c := { c with timbre := { c.timbre with output := timbre } }
  if polyOn then { c with poly := (c.poly.setTarget key).processBlock k } else c

/-- A block's inputs: pressure on the key, channel pressure, timbre. -/
abbrev Touch := ℝ × ℝ × ℝ

/-- The controllers after blocks with these inputs. -/
noncomputable def ctls (k : ℝ) (polyOn : Bool) (c : Ctls) (ts : List Touch) : Ctls := ts.foldl (fun c t => calcCtls k polyOn t.1 t.2.1 t.2.2 c) c

theorem ctls_snoc (k : ℝ) (polyOn : Bool) (c : Ctls) (ts : List Touch) (t : Touch) :
    ctls k polyOn c (ts ++ [t]) = calcCtls k polyOn t.1 t.2.1 t.2.2 (ctls k polyOn c ts) := by simp [ctls, List.foldl_append]

theorem ctls_keeps (k : ℝ) (polyOn : Bool) (c : Ctls) (ts : List Touch) :
    (ctls k polyOn c ts).velocity = c.velocity ∧ (ctls k polyOn c ts).release = c.release ∧ (ctls k polyOn c ts).channel = c.channel := by
  induction ts using List.reverseRecOn with
  | nil => exact ⟨rfl, rfl, rfl⟩
  | append_singleton ts t ih =>
    rw [ctls_snoc]
    unfold calcCtls
    split <;> exact ih

/-- C258. Velocity is the MIDI velocity over 127 during the whole note, within 0 and 1; release velocity is 0 until the release and then the MIDI release velocity over 127;
timbre is the channel's timbre in every block. -/
theorem C258_velocity_timbre_partial (k : ℝ) (polyOn : Bool) (vel rv : ℤ) (hv : 0 ≤ vel ∧ vel ≤ 127) (key pressure timbre : ℝ) (ts us : List Touch) (t : Touch) :
    let c := ctls k polyOn (initCtls vel key pressure timbre) ts
    let d := ctls k polyOn (releaseCtl rv c) us
    c.velocity.output = vel / 127 ∧ d.velocity.output = vel / 127 ∧ (0 : ℝ) ≤ vel / 127 ∧ (vel / 127 : ℝ) ≤ 1 ∧
    c.release.output = 0 ∧ d.release.output = rv / 127 ∧ (ctls k polyOn (initCtls vel key pressure timbre) (ts ++ [t])).timbre.output = t.2.2 := by
  intro c d
  obtain ⟨a1, a2, -⟩ := ctls_keeps k polyOn (initCtls vel key pressure timbre) ts
  obtain ⟨b1, b2, -⟩ := ctls_keeps k polyOn (releaseCtl rv c) us
  have hv1 : (0 : ℝ) ≤ vel := by exact_mod_cast hv.1
  have hv2 : (vel : ℝ) ≤ 127 := by exact_mod_cast hv.2
  refine ⟨by rw [a1]; rfl, ?_, by positivity, by linarith, by rw [a2]; rfl, by rw [b2]; rfl, ?_⟩
  · rw [b1]
    show c.velocity.output = _
    rw [a1]; rfl
  · rw [ctls_snoc]
    unfold calcCtls
    split <;> rfl

/-- C258 (refutation). Channel pressure is read once, at the note on: later blocks do not change it. -/
theorem C258_channel_pressure_refuted (k : ℝ) (polyOn : Bool) (vel : ℤ) (key pressure timbre : ℝ) (ts : List Touch) :
    (ctls k polyOn (initCtls vel key pressure timbre) ts).channel.output = pressure := by
  rw [(ctls_keeps k polyOn _ ts).2.2]; rfl

/-- C258 (refutation). Polyphonic aftertouch starts each block from the CHANNEL's pressure `p`, so it never arrives at the pressure `t` of the key, however long that is held:
it is `p + k |t - p| (t - p)` in every block; without channel pressure `k t²`. -/
theorem C258_poly_pressure_refuted (k : ℝ) (vel : ℤ) (key pressure timbre : ℝ) (ts : List Touch) (t : Touch) :
    (ctls k true (initCtls vel key pressure timbre) (ts ++ [t])).poly.output = t.2.1 + k * |t.1 - t.2.1| * (t.1 - t.2.1) ∧
    (ctls k false (initCtls vel key pressure timbre) (ts ++ [t])).poly.output = t.2.1 ∧
    (t.2.1 = 0 → 0 ≤ t.1 → t.1 ≤ 1 → k < 1 → t.1 ≠ 0 → 0 ≤ k → (ctls k true (initCtls vel key pressure timbre) (ts ++ [t])).poly.output < t.1) := by
  have e : (ctls k true (initCtls vel key pressure timbre) (ts ++ [t])).poly.output = t.2.1 + k * |t.1 - t.2.1| * (t.1 - t.2.1) := by
    rw [ctls_snoc]
    simp only [calcCtls, if_true, Ctl.processBlock, Ctl.setTarget]
    ring
  refine ⟨e, ?_, fun h0 h1 h2 hk hn k0 => ?_⟩
  · rw [ctls_snoc]; simp [calcCtls]
  · rw [e, h0]
    have hp : 0 < t.1 := lt_of_le_of_ne h1 (Ne.symm hn)
    rw [sub_zero, abs_of_nonneg h1]
    have : k * t.1 < 1 := by nlinarith
    nlinarith

/-- C258 (refutation). At the note on the pressure already on the key is not taken over. -/
theorem C258_poly_start_refuted (vel : ℤ) (key pressure timbre : ℝ) : (initCtls vel key pressure timbre).poly.output = 0 := rfl

/-- The hypotheses of `C258_poly_pressure_refuted` are met by the code's `k` at 44.1 kHz and a key half pressed: the output is 0.225. -/
example : (ctls (9 / 10) true (initCtls 100 0 0 0) ([] ++ [(1 / 2, 0, 0)])).poly.output = 225 / 1000 := by
  rw [(C258_poly_pressure_refuted (9 / 10) 100 0 0 0 [] (1 / 2, 0, 0)).1]
  norm_num

end Verif.Voice.Sources
