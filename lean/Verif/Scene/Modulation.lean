import Verif.Scene.Single
import Verif.Voice.Control
import Mathlib.Data.List.Basic
/-!
# Modulation routing and the parameters of a scene (C247-C249), in exact real arithmetic

surge-scene/src/scene/{apply_modulation,set,modsource}.rs, surge-param/src/{parameter,get_value,pval,pdata}.rs, surge-modulation/src/{state,ty}.rs.
-/
namespace Verif.Scene.Modulation
open Verif Verif.Scene Verif.Voice

/-! ## Model: routings -/

/-- The float parameter of a destination: parameter.rs 5-18, what routing touches (`val`, the bounds of the delegate, `modulation_delta`). -/
structure FParam where
  val : ℝ
  min : ℝ
  max : ℝ
  delta : ℝ

/-- get_value.rs 36-63 `get_value_f01` of a float. -/
noncomputable def FParam.f01 (p : FParam) : ℝ := (p.val - p.min) / (p.max - p.min)

/-- pval.rs 3-8 `pval!` with parameter.rs 47-49 `get_value`: what everything in the engine reads. -/
def FParam.read (p : FParam) : ℝ := p.val

/-- state.rs 3-8 `ModulationRouting`; sources and destinations are numbered. -/
structure Routing where
  src : ℕ
  dst : ℕ
  depth : ℝ

/-- apply_modulation.rs 86-110 `apply_scene_modulation`, one routing; `out` is what a source that exists gives. -/
noncomputable def route (out : ℕ → Option ℝ) (ps : ℕ → FParam) (r : Routing) : ℕ → FParam :=
  match out r.src with
  | none => ps
  | some o => fun d => if d = r.dst then ⟨(ps d).val, (ps d).min, (ps d).max, (ps d).f01 + r.depth * o⟩ else ps d

/-- apply_modulation.rs 86-110, all of them. -/
noncomputable def apply (out : ℕ → Option ℝ) (ps : ℕ → FParam) (rs : List Routing) : ℕ → FParam := rs.foldl (route out) ps

/-- apply_modulation.rs 37-44 `toggle_scene_modsource`, the `enabled` flags of the sources that exist. -/
def toggle (ms : ℕ → Option Bool) (s : ℕ) (v : Bool) : ℕ → Option Bool := fun q => if q = s then (ms q).map (fun _ => v) else ms q

/-- apply_modulation.rs 46-73 `disable_all_scene_modsources`, `prepare_to_process_modsources`; `n` sources. -/
def prepare (n : ℕ) (ms : ℕ → Option Bool) (scene voice : List Routing) : ℕ → Option Bool :=
  let off := (List.range n).foldl (fun ms s => toggle ms s false) ms
  ((scene ++ voice).map (fun r => r.src)).foldl (fun ms s => toggle ms s true) off

/-! ## C247 -/

theorem toggle_fold {v : Bool} : ∀ (l : List ℕ) (ms : ℕ → Option Bool) (q : ℕ), l.foldl (fun ms s => toggle ms s v) ms q = if q ∈ l then (ms q).map (fun _ => v) else ms q := by
  intro l
  induction l with
  | nil => intro ms q; simp
  | cons a l ih =>
    intro ms q
    rw [List.foldl_cons, ih]
    simp only [toggle, List.mem_cons]
    by_cases hq : q ∈ l
    · by_cases ha : q = a
      · simp [hq, ha]; cases ms a <;> simp
      · simp [hq, ha]
    · by_cases ha : q = a
      · subst ha; simp [hq]
      · simp [hq, ha]

/-- **C247.**  Before a block exactly those of the scene's sources are switched on that some routing, of the scene or of its voices, uses; no source appears or vanishes. -/
theorem C247_enabled {n : ℕ} (ms : ℕ → Option Bool) (scene voice : List Routing) {s : ℕ} (hs : s < n) :
    ((prepare n ms scene voice s).isSome ↔ (ms s).isSome) ∧ (prepare n ms scene voice s = some true ↔ (ms s).isSome ∧ ∃ r, (r ∈ scene ∨ r ∈ voice) ∧ r.src = s) := by
  have h : prepare n ms scene voice s = if s ∈ (scene ++ voice).map (fun r => r.src) then (ms s).map (fun _ => true) else (ms s).map (fun _ => false) := by
    simp only [prepare]
    rw [toggle_fold, toggle_fold, if_pos (List.mem_range.mpr hs)]
    split_ifs
    · cases ms s <;> simp
    · rfl
  have hm : s ∈ (scene ++ voice).map (fun r => r.src) ↔ ∃ r, (r ∈ scene ∨ r ∈ voice) ∧ r.src = s := by simp only [List.mem_map, List.mem_append]
  rw [h]
  by_cases hin : s ∈ (scene ++ voice).map (fun r => r.src)
  · rw [if_pos hin]
    rw [hm] at hin
    cases ms s <;> simp [hin]
  · rw [if_neg hin]
    rw [hm] at hin
    cases ms s <;> simp [hin]

/-- **C247** (refuted: modulation moves its destination).  Whatever the routings, sources and depths, no parameter reads differently after the modulation has been applied. -/
theorem C247_no_effect_refuted (out : ℕ → Option ℝ) (rs : List Routing) (ps : ℕ → FParam) (d : ℕ) : (apply out ps rs d).read = (ps d).read := by
  unfold apply
  induction rs generalizing ps with
  | nil => rfl
  | cons r rs ih =>
    rw [List.foldl_cons, ih]
    unfold route
    cases out r.src with
    | none => rfl
    | some o => simp only [FParam.read]; split_ifs <;> rfl

theorem route_keeps (out : ℕ → Option ℝ) (ps : ℕ → FParam) (r : Routing) (d : ℕ) : (route out ps r d).val = (ps d).val ∧ (route out ps r d).min = (ps d).min ∧ (route out ps r d).max = (ps d).max := by
  unfold route
  cases out r.src with
  | none => exact ⟨rfl, rfl, rfl⟩
  | some o => simp only; split_ifs <;> exact ⟨rfl, rfl, rfl⟩

theorem apply_keeps (out : ℕ → Option ℝ) (rs : List Routing) (ps : ℕ → FParam) (d : ℕ) : (apply out ps rs d).f01 = (ps d).f01 := by
  unfold apply
  induction rs generalizing ps with
  | nil => rfl
  | cons r rs ih =>
    rw [List.foldl_cons, ih]
    obtain ⟨a, b, c⟩ := route_keeps out ps r d
    simp only [FParam.f01, a, b, c]

/-- **C247** (refuted: several modulations of one parameter add up, and depth 0 is none).  The stored modulation is that of the last routing alone, whatever came before, plus the parameter's own place in its
range: with depth 0 it is that place and not 0. -/
theorem C247_last_wins_refuted (out : ℕ → Option ℝ) (before after : List Routing) (r : Routing) {o : ℝ} (ho : out r.src = some o) (ha : ∀ q ∈ after, q.dst ≠ r.dst) (ps : ℕ → FParam) :
    (apply out ps (before ++ r :: after) r.dst).delta = (ps r.dst).f01 + r.depth * o ∧ (r.depth = 0 → (apply out ps (before ++ r :: after) r.dst).delta = (ps r.dst).f01) := by
  have h : (apply out ps (before ++ r :: after) r.dst).delta = (ps r.dst).f01 + r.depth * o := by
    have h1 : ∀ (l : List Routing) (p : ℕ → FParam), (∀ q ∈ l, q.dst ≠ r.dst) → (apply out p l r.dst) = p r.dst := by
      intro l
      induction l with
      | nil => intro p _; rfl
      | cons q l ih =>
        intro p hq
        have : apply out p (q :: l) = apply out (route out p q) l := rfl
        rw [this, ih _ (fun x hx => hq x (List.mem_cons_of_mem _ hx))]
        unfold route
        cases out q.src with
        | none => rfl
        | some o => simp only; rw [if_neg (fun e => hq q List.mem_cons_self e.symm)]
    have h2 : apply out ps (before ++ r :: after) = apply out (route out (apply out ps before) r) after := by simp only [apply, List.foldl_append, List.foldl_cons]
    rw [h2, h1 _ _ ha]
    unfold route
    rw [ho]
    simp only [if_true]
    rw [apply_keeps]
  exact ⟨h, fun h0 => by rw [h, h0]; ring⟩

/-- Two routings of depths 1/4 and 1/2 from a source at 1 to a parameter at the middle of its range: 1 is stored, instead of 3/4. -/
example : (apply (fun _ => some 1) (fun _ => ⟨5, 0, 10, 0⟩) [⟨0, 3, 1 / 4⟩, ⟨1, 3, 1 / 2⟩] 3).delta = 1 := by
  have := (C247_last_wins_refuted (fun _ => some 1) [⟨0, 3, 1 / 4⟩] [] ⟨1, 3, 1 / 2⟩ (o := 1) rfl (by simp) (fun _ => ⟨5, 0, 10, 0⟩)).1
  simp only [List.cons_append, List.nil_append] at this
  rw [this]; norm_num [FParam.f01]

/-! ## C248: setting a parameter of a scene -/

/-- pdata.rs 3-8 `PData`, generic in the numbers. -/
inductive PData (I F : Type) where
  | int (x : I)
  | bool (x : Bool)
  | float (x : F)

/-- pdata.rs 10-34: `try_into` panics on another type. -/
def PData.asInt {I F : Type} : PData I F → P I
  | .int x => .ok x
  | _ => .panic "explicit panic"

/-- pdata.rs 10-34. -/
def PData.asBool {I F : Type} : PData I F → P Bool
  | .bool x => .ok x
  | _ => .panic "explicit panic"

/-- set.rs 24-67 `set_parameter01`: the old value is read as an integer and as a truth value; `rest` is all that follows. -/
def setParameter01 {I F β : Type} (p : PData I F) (rest : I → Bool → P β) : P β := do
  let oldi ← p.asInt
  let oldb ← p.asBool
  rest oldi oldb

/-- **C248** (refuted: the parameters of a scene can be set).  Setting any parameter of a scene panics, of any type, to any value: no value is both an integer and a truth value. -/
theorem C248_cannot_set_refuted {I F β : Type} (p : PData I F) (rest : I → Bool → P β) : (setParameter01 p rest).isPanic := by
  cases p <;> rfl

/-- The polyphony modes (surge-types). -/
inductive PolyMode where
  | poly | mono | monoSt | monoFp | monoStFp | latch
  deriving DecidableEq

/-- set.rs 5-22 `release_old_notes_if_previous_polymode_was_latch`: (`release_if_latched`, `release_anyway`). -/
def leaveLatch (old new : PolyMode) (flags : Bool × Bool) : Bool × Bool := if old = .latch ∧ new = .latch then (true, true) else flags

/-- **C248** (refuted: leaving the latch mode releases the latched note).  The flags are set when latch mode is set again, and never when it is left. -/
theorem C248_leaving_latch_refuted (flags : Bool × Bool) : leaveLatch .latch .latch flags = (true, true) ∧ ∀ old new, new ≠ .latch → leaveLatch old new flags = flags := by
  refine ⟨rfl, fun old new h => ?_⟩
  unfold leaveLatch
  rw [if_neg (fun a => h a.2)]

/-! ## C249: the solo buttons and the offset switch of the second filter -/

/-- The six solo buttons: three oscillators, noise, two ring modulators. -/
inductive Button where
  | o1 | o2 | o3 | noise | ring12 | ring23
  deriving DecidableEq

/-- modsource.rs 5-16 `handle_boolsolo` after the button `b` has been set to its new value `v`. -/
def handleSolo (solo : Button → Bool) (b : Button) (v : Bool) : Button → Bool :=
  let solo := Function.update solo b v
  if v then Function.update (fun _ => false) b true else solo

/-- **C249.**  At most one source is soloed, whatever buttons are pressed and released in whatever order: pressing one releases the others, releasing one touches no other. -/
theorem C249_solo (presses : List (Button × Bool)) : let after := presses.foldl (fun s p => handleSolo s p.1 p.2) (fun _ => false)
    (∀ a b, after a = true → after b = true → a = b) ∧
    ∀ b, (∀ c, handleSolo after b true c = decide (c = b)) ∧ (∀ c, handleSolo after b false c = (after c && decide (c ≠ b))) := by
  have hall : ∀ (s : Button → Bool) b, (∀ c, handleSolo s b true c = decide (c = b)) ∧ (∀ c, handleSolo s b false c = (s c && decide (c ≠ b))) := by
    intro s b
    constructor
    · intro c; simp only [handleSolo, if_true, Function.update_apply]; by_cases h : c = b <;> simp [h]
    · intro c; simp only [handleSolo, Bool.false_eq_true, if_false, Function.update_apply]; by_cases h : c = b <;> simp [h]
  refine ⟨?_, fun b => hall _ b⟩
  have key : ∀ (l : List (Button × Bool)) (s : Button → Bool), (∀ a b, s a = true → s b = true → a = b) → ∀ a b, l.foldl (fun s p => handleSolo s p.1 p.2) s a = true →
      l.foldl (fun s p => handleSolo s p.1 p.2) s b = true → a = b := by
    intro l
    induction l with
    | nil => intro s h; exact h
    | cons p l ih =>
      intro s h
      refine ih _ fun a b ha hb => ?_
      obtain ⟨q, v⟩ := p
      cases v with
      | true =>
        simp only [(hall s q).1, decide_eq_true_eq] at ha hb
        rw [ha, hb]
      | false =>
        simp only [(hall s q).2, Bool.and_eq_true] at ha hb
        exact h a b ha.1 hb.1
  exact key presses _ (fun a b ha => by cases ha)

/-- modsource.rs 29-57 `handle_boolrelative_switching`: the second filter's parameters; `down` is the new value of the switch. -/
noncomputable def handleRelative (a b : CutoffCfg) (old down : Bool) : CutoffCfg :=
  let polarity : ℝ := if down then -1 else 1
  let polarity : ℝ := if old = down then 0 else polarity
  ⟨b.cutoff + polarity * a.cutoff, b.track + polarity * a.track, b.envmod + polarity * a.envmod⟩

/-- **C249.**  Switching the second filter's cutoff between absolute and relative does not change what is heard: both cutoffs are the same after as before, for every pitch, key-tracking root and envelope, and
so for the whole of every note; and switching back restores the parameters. -/
theorem C249_relative_switch (a b : CutoffCfg) (old down : Bool) (pitch root env : ℝ) :
    cutoffPair a (handleRelative a b old down) down pitch root env = cutoffPair a b old pitch root env ∧ handleRelative a (handleRelative a b old down) down old = b := by
  constructor
  · cases old <;> cases down <;> simp [cutoffPair, cutoffOf, handleRelative] <;> ring
  · cases old <;> cases down <;> simp [handleRelative]

end Verif.Scene.Modulation
