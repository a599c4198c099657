import Verif.Fx.ChainProps
import Mathlib.Tactic.Linarith
import Mathlib.Tactic.Ring
import Mathlib.Tactic.NormNum
import Mathlib.Algebra.Order.Archimedean.Basic
import Mathlib.Data.Rat.Floor
/-!
# From the voices to the output of the synthesizer

Models the middle of `SurgeSynthesizer::process` (surge-synthesizer/src/synth/process.rs 412-458) and what it calls in
surge-scene/src/scene/process.rs: `playscene`, `do_routing_critical_section`, `process`, `post_process` and `apply_highpass`.
The end of the block (inserts, sum, sends, global effects) is `Verif.Fx.runChain`.

A voice, the quad filter chain, the clipper, the down-sampler and the high-pass filter are arbitrary; what matters here is
when they run and on which buffers. The scene's output buffer holds 64 samples per channel (WetBlock1Dual<BLOCK_SIZE_OS>);
the block of the engine is 32 (BLOCK_SIZE). Arithmetic is exact.
-/
set_option linter.unusedSectionVars false
namespace Verif.Render
open Verif.Fx

variable {K : Type} [Field K] [LinearOrder K] [IsStrictOrderedRing K] {σ ε V H D : Type}

/-- What the rendering asks of its parts. -/
structure Parts (K ε V H D : Type) where
  /-- `SurgeVoice::process_block`: the voice afterwards, and whether it wants to keep playing. -/
  voice : V → V × Bool
  /-- What the filter chains add to the 64 samples of the output, for the voices that ran (scene process.rs 289-309). -/
  render : List V → Stereo K
  /-- `get_quad_filter_ptr`, `get_quad_filter_waveshaper_ptr` (surge-qfunit/src/dispatch.rs 23, 50) and
  `voice_sync_registers_from_qfb_cfg` (scene process.rs 319-321): do they return? -/
  lookups : Res ε Unit
  /-- `hardclip_block8`, per sample. -/
  clip : K → K
  /-- `process_block_downsample_by_two`: 64 samples in, 32 out. -/
  down : D → Stereo K → D × Stereo K
  /-- `BiquadFilter::coeff_hp` and `process_block_stereo` (32 samples, surge-biquad/src/process_stereo.rs 126). -/
  high : H → Stereo K → H × Stereo K

/-- The three functions are `todo!()` in the code. -/
def codeLookups : Res ε Unit := .panic "not yet implemented"

/-- One scene, without its output buffer (that is in `Chain`). -/
structure Scene (V H D : Type) where
  voices : List V
  hp : H
  half : D

/-- The engine between two blocks. `chain.sceneA`, `chain.sceneB` are the output buffers `scene[i].out.buf`. -/
structure Engine (K σ V H D : Type) where
  a : Scene V H D
  b : Scene V H D
  chain : Chain K σ

/-- scene process.rs 195-197 `playscene`. -/
def Scene.playscene (s : Scene V H D) : Bool := s.voices.isEmpty

/-- scene drop.rs 5-13 `free_voice`: the index expression and `Vec::remove` panic past the end. -/
def remove (vs : List V) (i : Nat) : Res ε (List V) :=
  if i < vs.length then .ok (vs.eraseIdx i) else .panic "index out of bounds"

/-- scene process.rs 225-227: the removal loop. -/
def removeAll (vs : List V) : List Nat → Res ε (List V)
  | [] => .ok vs
  | i :: is => remove vs i >>= fun vs => removeAll vs is

/-- scene process.rs 209-223: the loop over the voices from index `i` on; the voices afterwards and the indices to free.
`self.fbq.state[fb_entry >> 2]` has `MAX_VOICES >> 2 = 16` elements (new.rs 61). -/
def each (E : Parts K ε V H D) : List V → Nat → Res ε (List V × List Nat)
  | [], _ => .ok ([], [])
  | v :: vs, i =>
    if i / 4 < 16 then
      each E vs (i + 1) >>= fun (ws, free) => .ok ((E.voice v).1 :: ws, if (E.voice v).2 = true then free else i :: free)
    else .panic "index out of bounds"

/-- scene process.rs 199-230 `do_routing_critical_section`: the voices that ran, and the voices that are left. -/
def routing (E : Parts K ε V H D) (vs : List V) : Res ε (List V × List V) :=
  each E vs 0 >>= fun (ws, free) => removeAll ws free >>= fun left => .ok (ws, left)

/-- The first `n` samples of a buffer, as a function that only these samples matter to sees them. -/
def cut (n : Nat) (b : Stereo K) : Stereo K := (fun s => if s < n then b.1 s else 0, fun s => if s < n then b.2 s else 0)

/-- Overwrites the first 32 samples. -/
def splice (new old : Stereo K) : Stereo K := (fun s => if s < 32 then new.1 s else old.1 s, fun s => if s < 32 then new.2 s else old.2 s)

/-- scene process.rs 289-309: the chains accumulate into the output buffer (surge-qfunit/src/write_outputs.rs 22-23), which
nothing clears. -/
def accumulate (b x : Stereo K) : Stereo K := (fun s => if s < 64 then b.1 s + x.1 s else b.1 s, fun s => if s < 64 then b.2 s + x.2 s else b.2 s)

/-- scene process.rs 232-250 `post_process`: clip the 64 samples (BLOCK_SIZE_OS_QUAD = 16 quads), then down-sample in place. -/
def post (E : Parts K ε V H D) (h : D) (b : Stereo K) : D × Stereo K :=
  let c : Stereo K := (fun s => if s < 64 then E.clip (b.1 s) else b.1 s, fun s => if s < 64 then E.clip (b.2 s) else b.2 s)
  ((E.down h (cut 64 c)).1, splice (E.down h (cut 64 c)).2 c)

/-- synth process.rs 440-446: `if playscene { post_process }`. -/
def maybePost (E : Parts K ε V H D) (play : Bool) (h : D) (b : Stereo K) : D × Stereo K := if play = true then post E h b else (h, b)

/-- scene process.rs 252-267 `apply_highpass`: 32 samples, in place. -/
def highpass (E : Parts K ε V H D) (h : H) (b : Stereo K) : H × Stereo K := ((E.high h (cut 32 b)).1, splice (E.high h (cut 32 b)).2 b)

/-- One scene from line 429 to 449 of synth process.rs, after the routing: `play` is the flag computed before it. -/
def sceneBlock (E : Parts K ε V H D) (s : Scene V H D) (ran left : List V) (buf : Stereo K) : Scene V H D × Stereo K :=
  let p := maybePost E s.playscene s.half (accumulate buf (E.render ran))
  let q := highpass E s.hp p.2
  (⟨left, q.1, p.1⟩, q.2)

/-- synth process.rs 421-455 of an engine that is not halted: routing of both scenes, filter chains, post-processing, high-pass
and the effect chain. -/
def block (E : Parts K ε V H D) (d : Dsp σ ε (Stereo K)) (eps : K) (g : Engine K σ V H D) : Res ε (Engine K σ V H D) :=
  routing E g.a.voices >>= fun (ranA, leftA) =>
  routing E g.b.voices >>= fun (ranB, leftB) =>
  E.lookups >>= fun _ =>
  let x := sceneBlock E g.a ranA leftA g.chain.sceneA
  let y := sceneBlock E g.b ranB leftB g.chain.sceneB
  runChain d eps { g.chain with sceneA := x.2, sceneB := y.2 } g.a.playscene g.b.playscene >>= fun c =>
  .ok ⟨x.1, y.1, c⟩

/-- `n` blocks. -/
def blocks (E : Parts K ε V H D) (d : Dsp σ ε (Stereo K)) (eps : K) : Nat → Engine K σ V H D → Res ε (Engine K σ V H D)
  | 0, g => .ok g
  | n + 1, g => block E d eps g >>= blocks E d eps n

/-! ## C251: ended voices -/

/-- What should be left after a block: the voices that keep playing, in their order. -/
def Spec.left (E : Parts K ε V H D) (vs : List V) : List V := (vs.filter fun v => (E.voice v).2).map fun v => (E.voice v).1

theorem each_eq (E : Parts K ε V H D) (vs : List V) (i : Nat) (h : i + vs.length ≤ 64) :
    each E vs i = .ok (vs.map fun v => (E.voice v).1, ((vs.zipIdx i).filter fun p => !(E.voice p.1).2).map Prod.snd) := by
  induction vs generalizing i with
  | nil => rfl
  | cons v vs ih =>
    simp only [List.length_cons] at h
    unfold each
    rw [if_pos (by omega), ih (i + 1) (by omega), Res.ok_bind]
    cases hv : (E.voice v).2 <;> simp [hv, List.zipIdx_cons]

theorem each_panics (E : Parts K ε V H D) (vs : List V) (i : Nat) (h : 64 < i + vs.length) (hi : i ≤ 64) :
    each E vs i = .panic "index out of bounds" := by
  induction vs generalizing i with
  | nil => simp at h; omega
  | cons v vs ih =>
    unfold each
    simp only [List.length_cons] at h
    by_cases c : i / 4 < 16
    · rw [if_pos c, ih (i + 1) (by omega) (by omega), Res.panic_bind]
    · rw [if_neg c]

/-- C251, the part that holds: with at most one voice ending, a block removes that voice and no other, and keeps the order. -/
theorem C251_one_ends_partial (E : Parts K ε V H D) (pre post : List V) (v : V) (hl : (pre ++ v :: post).length ≤ 64)
    (hp : ∀ w ∈ pre ++ post, (E.voice w).2 = true) :
    routing E (pre ++ v :: post) = .ok ((pre ++ v :: post).map fun v => (E.voice v).1, Spec.left E (pre ++ v :: post)) := by
  have fp : ∀ (l : List V) (i : Nat), (∀ w ∈ l, (E.voice w).2 = true) → (l.zipIdx i).filter (fun p => !(E.voice p.1).2) = [] := by
    intro l i hl
    rw [List.filter_eq_nil_iff]
    intro p hp
    simp [hl p.1 (List.fst_mem_of_mem_zipIdx hp)]
  have fl : ∀ l : List V, (∀ w ∈ l, (E.voice w).2 = true) → l.filter (fun v => (E.voice v).2) = l := by
    intro l hl; rw [List.filter_eq_self]; exact hl
  have h1 : ∀ w ∈ pre, (E.voice w).2 = true := fun w hw => hp w (List.mem_append_left _ hw)
  have h2 : ∀ w ∈ post, (E.voice w).2 = true := fun w hw => hp w (List.mem_append_right _ hw)
  unfold routing Spec.left
  rw [each_eq E _ 0 (by omega), Res.ok_bind, List.zipIdx_append, List.filter_append, fp _ _ h1, List.zipIdx_cons, List.filter_cons,
    fp _ _ h2, List.filter_append, List.filter_cons, fl _ h1, fl _ h2]
  cases hv : (E.voice v).2
  · simp only [Bool.not_false, if_true, List.map_cons, List.map_nil, List.nil_append, Bool.false_eq_true, if_false]
    unfold removeAll remove
    rw [if_pos (by simp)]
    simp only [Res.ok_bind, removeAll, List.map_append, List.map_cons]
    rw [List.eraseIdx_append_of_length_le (by simp)]
    simp
  · simp [removeAll, hv]

/-- C251 is false of the code: when two voices end in the same block, the second removal goes by an index that is no longer
valid: the voice after the second one - sounding - is cut off and the ended one stays; and if there is no voice after it the engine
panics. -/
theorem C251_two_end_refuted (E : Parts K ε V H D) (p q r : List V) (u w : V) (hl : (p ++ u :: (q ++ w :: r)).length ≤ 64)
    (hp : ∀ x ∈ p ++ q ++ r, (E.voice x).2 = true) (hu : (E.voice u).2 = false) (hw : (E.voice w).2 = false) :
    (r = [] → routing E (p ++ u :: (q ++ w :: r)) = .panic "index out of bounds") ∧
    (∀ x r', r = x :: r' → routing E (p ++ u :: (q ++ w :: r)) =
      .ok ((p ++ u :: (q ++ w :: r)).map fun v => (E.voice v).1, (p ++ q ++ w :: r').map fun v => (E.voice v).1)) := by
  have fp : ∀ (l : List V) (i : Nat), (∀ w ∈ l, (E.voice w).2 = true) → (l.zipIdx i).filter (fun p => !(E.voice p.1).2) = [] := by
    intro l i hl
    rw [List.filter_eq_nil_iff]
    intro p hp
    simp [hl p.1 (List.fst_mem_of_mem_zipIdx hp)]
  have h1 : ∀ w ∈ p, (E.voice w).2 = true := fun w hw => hp w (by simp [hw])
  have h2 : ∀ w ∈ q, (E.voice w).2 = true := fun w hw => hp w (by simp [hw])
  have h3 : ∀ w ∈ r, (E.voice w).2 = true := fun w hw => hp w (by simp [hw])
  have key : routing E (p ++ u :: (q ++ w :: r)) = (removeAll ((p ++ q ++ w :: r).map fun v => (E.voice v).1) [p.length + 1 + q.length] >>= fun left =>
      .ok ((p ++ u :: (q ++ w :: r)).map fun v => (E.voice v).1, left)) := by
    unfold routing
    rw [each_eq E _ 0 (by omega), Res.ok_bind, List.zipIdx_append, List.filter_append, fp _ _ h1, List.zipIdx_cons, List.filter_cons,
      List.zipIdx_append, List.filter_append, fp _ _ h2, List.zipIdx_cons, List.filter_cons, fp _ _ h3]
    simp only [hu, hw, Bool.not_false, if_true, List.nil_append, List.map_cons, List.map_nil]
    conv_lhs => unfold removeAll
    unfold remove
    rw [if_pos (by simp)]
    simp only [Res.ok_bind, List.map_append, List.map_cons]
    rw [List.eraseIdx_append_of_length_le (by simp)]
    simp [Nat.add_comm, Nat.add_left_comm, Nat.add_assoc]
  constructor
  · intro hr
    subst hr
    rw [key]
    unfold removeAll remove
    rw [if_neg (by simp; omega)]
    rfl
  · intro x r' hr
    subst hr
    rw [key]
    unfold removeAll remove
    rw [if_pos (by simp; try omega)]
    simp only [Res.ok_bind, removeAll, List.map_append, List.map_cons]
    rw [List.eraseIdx_append_of_length_le (by simp [Nat.add_assoc])]
    have : p.length + 1 + q.length - (List.map (fun v => (E.voice v).1) p ++ List.map (fun v => (E.voice v).1) q).length = 1 := by
      simp; omega
    rw [this]
    rfl

/-- C251: 64 voices are the most a scene can hold; the 65th is one too many for the filter chains. -/
theorem C251_voice_limit_partial (E : Parts K ε V H D) (vs : List V) :
    (vs.length ≤ 64 → ∃ free, each E vs 0 = .ok (vs.map fun v => (E.voice v).1, free)) ∧
    (64 < vs.length → routing E vs = .panic "index out of bounds") := by
  refine ⟨fun h => ⟨_, each_eq E vs 0 (by omega)⟩, fun h => ?_⟩
  unfold routing
  rw [each_panics E vs 0 (by omega) (by omega), Res.panic_bind]

/-- C251, of the code as it is: no block is ever rendered, even without voices. -/
theorem C251_code_panics_refuted (E : Parts K ε V H D) (hc : E.lookups = codeLookups) (d : Dsp σ ε (Stereo K)) (eps : K) (g g' : Engine K σ V H D) :
    block E d eps g ≠ .ok g' := by
  intro h
  unfold block at h
  rw [bind_ok] at h
  obtain ⟨x, -, h⟩ := h
  rw [bind_ok] at h
  obtain ⟨y, -, h⟩ := h
  dsimp only at h
  rw [hc, codeLookups, Res.panic_bind] at h
  exact absurd h (by simp)

/-! ## C252, C253: what the output buffers hold -/

/-- Every effect slot is switched off, so that the scenes are heard as they are. -/
def Spec.Dry (c : Chain K σ) (ε : Type) : Prop := (∃ byp, bypassOf (ε := ε) c.bypass = .ok byp) ∧ ∀ i, i < 8 → bitClear c.disable i = false

/-- A block of an engine whose two scenes come through their routing and whose effects are all off. -/
theorem block_dry {E : Parts K ε V H D} (hq : E.lookups = .ok ()) (d : Dsp σ ε (Stereo K)) (eps : K) {g : Engine K σ V H D} {ra la rb lb : List V}
    (ha : routing E g.a.voices = .ok (ra, la)) (hb : routing E g.b.voices = .ok (rb, lb)) (hd : Spec.Dry g.chain ε) :
    ∃ c, block E d eps g = .ok ⟨(sceneBlock E g.a ra la g.chain.sceneA).1, (sceneBlock E g.b rb lb g.chain.sceneB).1, c⟩ ∧
      c.sceneA = (sceneBlock E g.a ra la g.chain.sceneA).2 ∧ c.sceneB = (sceneBlock E g.b rb lb g.chain.sceneB).2 ∧
      c.bypass = g.chain.bypass ∧ c.disable = g.chain.disable ∧
      ∀ s, s < 32 → c.out.1 s = c.sceneA.1 s + c.sceneB.1 s ∧ c.out.2 s = c.sceneA.2 s + c.sceneB.2 s := by
  obtain ⟨⟨byp, hb1⟩, hd⟩ := hd
  have h1 := runChain_dry d eps
    { g.chain with sceneA := (sceneBlock E g.a ra la g.chain.sceneA).2, sceneB := (sceneBlock E g.b rb lb g.chain.sceneB).2 }
    g.a.playscene g.b.playscene hb1 hd
  refine ⟨sumScenes { g.chain with sceneA := (sceneBlock E g.a ra la g.chain.sceneA).2, sceneB := (sceneBlock E g.b rb lb g.chain.sceneB).2 }, ?_, rfl, rfl, rfl, rfl, ?_⟩
  · unfold block
    rw [ha, Res.ok_bind]
    dsimp only
    rw [hb, Res.ok_bind]
    dsimp only
    rw [hq, Res.ok_bind]
    rw [h1, Res.ok_bind]
  · intro s hs
    simp [sumScenes, inBlock, hs]

/-- No voice ends. -/
def Spec.Endless (E : Parts K ε V H D) : Prop := ∀ v, (E.voice v).2 = true

theorem routing_endless {E : Parts K ε V H D} (h : Spec.Endless E) (vs : List V) (hl : vs.length ≤ 64) :
    routing E vs = .ok (vs.map fun v => (E.voice v).1, vs.map fun v => (E.voice v).1) := by
  unfold routing
  rw [each_eq E vs 0 (by omega), Res.ok_bind]
  have : (vs.zipIdx 0).filter (fun p => !(E.voice p.1).2) = [] := by
    rw [List.filter_eq_nil_iff]
    intro p _
    simp [h p.1]
  rw [this]
  rfl

/-- C252 is false of the code: the output buffer of a scene is never cleared, and what a block renders is added to what is
already there. While voices that add the same signal `x` in every block sound, through a high-pass filter that lets everything pass and with all
effects off, the output after `n` blocks is `n` times the signal (on top of what was there). -/
theorem C252_adds_up_refuted (E : Parts K ε V H D) (hq : E.lookups = .ok ()) (he : Spec.Endless E) (x : Stereo K)
    (hx : ∀ vs, vs ≠ [] → E.render vs = x) (h0 : E.render [] = (fun _ => 0, fun _ => 0)) (hh : ∀ h b, (E.high h b).2 = b)
    (hd0 : ∀ h b s, s < 32 → (∀ t, b.1 t = 0 ∧ b.2 t = 0) → (E.down h b).2.1 s = 0 ∧ (E.down h b).2.2 s = 0) (hc : E.clip 0 = 0)
    (d : Dsp σ ε (Stereo K)) (eps : K) (n : Nat) (g : Engine K σ V H D) (hd : Spec.Dry g.chain ε)
    (hv : g.a.voices ≠ []) (hl : g.a.voices.length ≤ 64) (hb : g.b.voices = [])
    (hz : ∀ s, g.chain.sceneB.1 s = 0 ∧ g.chain.sceneB.2 s = 0) :
    ∃ g', blocks E d eps (n + 1) g = .ok g' ∧ ∀ s, s < 32 →
      g'.chain.out.1 s = g.chain.sceneA.1 s + (n + 1) * x.1 s ∧ g'.chain.out.2 s = g.chain.sceneA.2 s + (n + 1) * x.2 s := by
  obtain ⟨gg, hgg⟩ : ∃ gg, gg = g := ⟨_, rfl⟩
  have one : ∀ g : Engine K σ V H D, Spec.Dry g.chain ε → g.a.voices ≠ [] → g.a.voices.length ≤ 64 → g.b.voices = [] →
      (∀ s, g.chain.sceneB.1 s = 0 ∧ g.chain.sceneB.2 s = 0) →
      ∃ g', block E d eps g = .ok g' ∧ Spec.Dry g'.chain ε ∧ g'.a.voices ≠ [] ∧ g'.a.voices.length ≤ 64 ∧ g'.b.voices = [] ∧
        (∀ s, g'.chain.sceneB.1 s = 0 ∧ g'.chain.sceneB.2 s = 0) ∧
        (∀ s, s < 32 → g'.chain.sceneA.1 s = g.chain.sceneA.1 s + x.1 s ∧ g'.chain.sceneA.2 s = g.chain.sceneA.2 s + x.2 s) ∧
        ∀ s, s < 32 → g'.chain.out.1 s = g'.chain.sceneA.1 s ∧ g'.chain.out.2 s = g'.chain.sceneA.2 s := by
    intro g hd hv hl hb hz
    obtain ⟨c, h1, h2, h3, h4, h5, h6⟩ := block_dry hq d eps (routing_endless he g.a.voices hl) (routing_endless he g.b.voices (by rw [hb]; simp)) hd
    have bz : ∀ s, c.sceneB.1 s = 0 ∧ c.sceneB.2 s = 0 := by
      intro s
      rw [h3]
      have hp : g.b.playscene = true := by unfold Scene.playscene; rw [hb]; rfl
      have acc : ∀ s, (accumulate g.chain.sceneB (E.render (g.b.voices.map fun v => (E.voice v).1))).1 s = 0 ∧
          (accumulate g.chain.sceneB (E.render (g.b.voices.map fun v => (E.voice v).1))).2 s = 0 := by
        intro s
        rw [hb, List.map_nil, h0]
        simp [accumulate, (hz s).1, (hz s).2]
      have pz : ∀ s, (post E g.b.half (accumulate g.chain.sceneB (E.render (g.b.voices.map fun v => (E.voice v).1)))).2.1 s = 0 ∧
          (post E g.b.half (accumulate g.chain.sceneB (E.render (g.b.voices.map fun v => (E.voice v).1)))).2.2 s = 0 := by
        intro s
        unfold post splice
        by_cases hs : s < 32
        · simp only [if_pos hs]
          refine hd0 _ _ s hs fun t => ?_
          simp [cut, (acc t).1, (acc t).2, hc]
        · simp [hs, (acc s).1, (acc s).2, hc]
      unfold sceneBlock maybePost
      simp only [hp, if_true]
      unfold highpass splice
      by_cases hs : s < 32
      · simp only [if_pos hs, hh]
        simp [cut, hs, (pz s).1, (pz s).2]
      · simp only [if_neg hs]
        exact pz s
    refine ⟨_, h1, ?_, ?_, ?_, ?_, bz, ?_, ?_⟩
    · exact ⟨by show ∃ byp, bypassOf c.bypass = .ok byp; rw [h4]; exact hd.1, by show ∀ i, i < 8 → bitClear c.disable i = false; rw [h5]; exact hd.2⟩
    · show g.a.voices.map _ ≠ []
      simpa using hv
    · show (g.a.voices.map _).length ≤ 64
      simpa using hl
    · show g.b.voices.map _ = []
      rw [hb]; rfl
    · intro s hs
      show c.sceneA.1 s = _ ∧ c.sceneA.2 s = _
      have hp : g.a.playscene = false := by
        unfold Scene.playscene
        cases hv' : g.a.voices with
        | nil => exact absurd hv' hv
        | cons => rfl
      rw [h2]
      have hs64 : s < 64 := by omega
      unfold sceneBlock maybePost
      simp only [hp, Bool.false_eq_true, if_false]
      unfold highpass splice
      simp only [if_pos hs, hh]
      rw [hx _ (by simpa using hv)]
      simp [cut, hs, accumulate, hs64]
    · intro s hs
      have := h6 s hs
      rw [(bz s).1, (bz s).2, add_zero, add_zero] at this
      exact this
  clear hgg gg
  induction n generalizing g with
  | zero =>
    obtain ⟨g', h1, -, -, -, -, -, h7, h8⟩ := one g hd hv hl hb hz
    refine ⟨g', by rw [blocks, h1]; rfl, fun s hs => ?_⟩
    rw [(h8 s hs).1, (h8 s hs).2, (h7 s hs).1, (h7 s hs).2]
    simp
  | succ n ih =>
    obtain ⟨g1, h1, h2, h3, h4, h5, h6, h7, h8⟩ := one g hd hv hl hb hz
    obtain ⟨g', i1, i2⟩ := ih g1 h2 h3 h4 h5 h6
    refine ⟨g', by rw [blocks, h1, Res.ok_bind, i1], fun s hs => ?_⟩
    rw [(i2 s hs).1, (i2 s hs).2, (h7 s hs).1, (h7 s hs).2]
    push_cast
    constructor <;> ring

theorem sceneBlock_high (E : Parts K ε V H D) (s : Scene V H D) (ran left : List V) (buf : Stereo K) (k : Nat) (hk : 32 ≤ k) :
    (sceneBlock E s ran left buf).2.1 k = (maybePost E s.playscene s.half (accumulate buf (E.render ran))).2.1 k ∧
    (sceneBlock E s ran left buf).2.2 k = (maybePost E s.playscene s.half (accumulate buf (E.render ran))).2.2 k := by
  have : ¬ k < 32 := by omega
  simp [sceneBlock, highpass, splice, this]

/-- C252 is false of the code: after the last voice of a scene has ended its output does not become silent. The second half of
its buffer (within the clipper's range) stays for ever as the last sounding block left it, and is rendered again in every block. With a
decimator that averages neighbours, a high-pass filter that lets everything pass and all effects off, the second half of every later output
block is that half, over and over. -/
theorem C252_drone_refuted (E : Parts K ε V H D) (hq : E.lookups = .ok ()) (he : Spec.Endless E)
    (h0 : E.render [] = (fun _ => 0, fun _ => 0)) (hh : ∀ h b, (E.high h b).2 = b)
    (hdn : ∀ h b s, s < 32 → (E.down h b).2.1 s = (b.1 (2 * s) + b.1 (2 * s + 1)) / 2)
    (d : Dsp σ ε (Stereo K)) (eps : K) (n : Nat) (g : Engine K σ V H D) (hd : Spec.Dry g.chain ε)
    (ha : g.a.voices = []) (hb : g.b.voices = []) (hc : ∀ s, E.clip (g.chain.sceneA.1 s) = g.chain.sceneA.1 s) :
    ∃ g', blocks E d eps (n + 1) g = .ok g' ∧ g'.a.voices = [] ∧
      (∀ s, 32 ≤ s → g'.chain.sceneA.1 s = g.chain.sceneA.1 s) ∧
      ∀ s, 16 ≤ s → s < 32 → g'.chain.out.1 s = (g.chain.sceneA.1 (2 * s) + g.chain.sceneA.1 (2 * s + 1)) / 2 + g'.chain.sceneB.1 s := by
  have one : ∀ g : Engine K σ V H D, Spec.Dry g.chain ε → g.a.voices = [] → g.b.voices = [] →
      (∀ s, 32 ≤ s → E.clip (g.chain.sceneA.1 s) = g.chain.sceneA.1 s) →
      ∃ g', block E d eps g = .ok g' ∧ Spec.Dry g'.chain ε ∧ g'.a.voices = [] ∧ g'.b.voices = [] ∧
        (∀ s, 32 ≤ s → g'.chain.sceneA.1 s = g.chain.sceneA.1 s) ∧
        ∀ s, 16 ≤ s → s < 32 → g'.chain.out.1 s = (g.chain.sceneA.1 (2 * s) + g.chain.sceneA.1 (2 * s + 1)) / 2 + g'.chain.sceneB.1 s := by
    intro g hd ha hb hc
    obtain ⟨c, h1, h2, h3, h4, h5, h6⟩ := block_dry hq d eps (routing_endless he g.a.voices (by rw [ha]; simp))
      (routing_endless he g.b.voices (by rw [hb]; simp)) hd
    have hp : g.a.playscene = true := by unfold Scene.playscene; rw [ha]; rfl
    have acc : ∀ s, (accumulate g.chain.sceneA (E.render (g.a.voices.map fun v => (E.voice v).1))).1 s = g.chain.sceneA.1 s := by
      intro s
      rw [ha, List.map_nil, h0]
      simp [accumulate]
    have hi : ∀ s, 32 ≤ s → c.sceneA.1 s = g.chain.sceneA.1 s := by
      intro s hs
      have hs' : ¬ s < 32 := by omega
      rw [h2, (sceneBlock_high E g.a _ _ _ s hs).1]
      unfold maybePost
      rw [if_pos hp]
      simp [post, splice, hs', acc, hc s hs]
    refine ⟨_, h1, ?_, ?_, ?_, hi, ?_⟩
    · exact ⟨by show ∃ byp, bypassOf c.bypass = .ok byp; rw [h4]; exact hd.1, by show ∀ i, i < 8 → bitClear c.disable i = false; rw [h5]; exact hd.2⟩
    · show g.a.voices.map _ = []
      rw [ha]; rfl
    · show g.b.voices.map _ = []
      rw [hb]; rfl
    · intro s h16 hs
      show c.out.1 s = _ + c.sceneB.1 s
      rw [(h6 s hs).1, h2]
      unfold sceneBlock maybePost
      simp only [hp, if_true]
      unfold highpass splice
      simp only [if_pos hs, hh]
      unfold post splice
      simp only [cut, if_pos hs]
      rw [hdn _ _ s hs]
      have e1 : 2 * s < 64 := by omega
      have e2 : 2 * s + 1 < 64 := by omega
      simp only [if_pos e1, if_pos e2, acc, hc (2 * s) (by omega), hc (2 * s + 1) (by omega)]
  have hc' : ∀ s, 32 ≤ s → E.clip (g.chain.sceneA.1 s) = g.chain.sceneA.1 s := fun s _ => hc s
  clear hc
  induction n generalizing g with
  | zero =>
    obtain ⟨g', h1, -, h3, -, h5, h6⟩ := one g hd ha hb hc'
    exact ⟨g', by rw [blocks, h1]; rfl, h3, h5, h6⟩
  | succ n ih =>
    obtain ⟨g1, h1, h2, h3, h4, h5, h6⟩ := one g hd ha hb hc'
    obtain ⟨g', i1, i2, i3, i4⟩ := ih g1 h2 h3 h4 (fun s hs => by rw [h5 s hs]; exact hc' s hs)
    refine ⟨g', by rw [blocks, h1, Res.ok_bind, i1], i2, fun s hs => by rw [i3 s hs, h5 s hs], fun s h16 hs => ?_⟩
    rw [i4 s h16 hs, h5 _ (by omega), h5 _ (by omega)]

/-- C253 is false of the code: while a scene sounds, its oversampled signal is neither clipped nor down-sampled; the first 32 of
its 64 samples are taken for the output block and the other 32 are not heard. Two engines that differ in the clipper, in the down-sampler and in what the
voices render in samples 32 to 63 play the same. -/
theorem C253_half_lost_refuted (E E' : Parts K ε V H D) (hq : E.lookups = .ok ()) (hq' : E'.lookups = .ok ()) (hv : E'.voice = E.voice)
    (hh : E'.high = E.high) (hr : ∀ vs s, s < 32 → (E'.render vs).1 s = (E.render vs).1 s ∧ (E'.render vs).2 s = (E.render vs).2 s)
    (d : Dsp σ ε (Stereo K)) (eps : K) (g : Engine K σ V H D) (hd : Spec.Dry g.chain ε)
    (ha : g.a.voices ≠ []) (hb : g.b.voices ≠ []) {ra la rb lb : List V}
    (h1 : routing E g.a.voices = .ok (ra, la)) (h2 : routing E g.b.voices = .ok (rb, lb)) :
    ∃ g1 g2, block E d eps g = .ok g1 ∧ block E' d eps g = .ok g2 ∧
      ∀ s, s < 32 → g1.chain.out.1 s = g2.chain.out.1 s ∧ g1.chain.out.2 s = g2.chain.out.2 s := by
  have re : ∀ vs : List V, routing E' vs = routing E vs := by
    have ee : ∀ (vs : List V) (i : Nat), each E' vs i = each E vs i := by
      intro vs
      induction vs with
      | nil => intro i; rfl
      | cons v vs ih => intro i; unfold each; rw [ih, hv]
    intro vs; unfold routing; rw [ee]
  obtain ⟨c, a1, a2, a3, a4, a5, a6⟩ := block_dry hq d eps h1 h2 hd
  obtain ⟨c', b1, b2, b3, b4, b5, b6⟩ := block_dry hq' d eps ((re _).trans h1) ((re _).trans h2) hd
  refine ⟨_, _, a1, b1, fun s hs => ?_⟩
  have key : ∀ (sc : Scene V H D) (ran left : List V) (buf : Stereo K), sc.voices ≠ [] →
      (sceneBlock E sc ran left buf).2.1 s = (sceneBlock E' sc ran left buf).2.1 s ∧ (sceneBlock E sc ran left buf).2.2 s = (sceneBlock E' sc ran left buf).2.2 s := by
    intro sc ran left buf hne
    have hp : sc.playscene = false := by
      unfold Scene.playscene
      cases hv' : sc.voices with
      | nil => exact absurd hv' hne
      | cons => rfl
    have hcut : cut 32 (accumulate buf (E.render ran)) = cut 32 (accumulate buf (E'.render ran)) := by
      unfold cut accumulate
      congr 1 <;> funext t <;> by_cases ht : t < 32
      · have : t < 64 := by omega
        simp [ht, this, (hr ran t ht).1]
      · simp [ht]
      · have : t < 64 := by omega
        simp [ht, this, (hr ran t ht).2]
      · simp [ht]
    unfold sceneBlock maybePost
    simp only [hp, Bool.false_eq_true, if_false]
    unfold highpass splice
    simp only [if_pos hs, hcut, hh]
    trivial
  show c.out.1 s = c'.out.1 s ∧ c.out.2 s = c'.out.2 s
  rw [(a6 s hs).1, (a6 s hs).2, (b6 s hs).1, (b6 s hs).2, a2, a3, b2, b3, (key g.a ra la _ ha).1, (key g.b rb lb _ hb).1,
    (key g.a ra la _ ha).2, (key g.b rb lb _ hb).2]
  exact ⟨rfl, rfl⟩

/-- C253: it is the silent scene that is clipped and down-sampled. -/
theorem C253_silent_downsampled_partial (E : Parts K ε V H D) (sc : Scene V H D) (ran left : List V) (buf : Stereo K) :
    (sceneBlock E sc ran left buf).1.half ≠ sc.half → sc.voices = [] := by
  intro h
  by_contra hne
  apply h
  have hp : sc.playscene = false := by
    unfold Scene.playscene
    cases hv' : sc.voices with
    | nil => exact absurd hv' hne
    | cons => rfl
  simp [sceneBlock, maybePost, hp]

/-! ## C254: the effects of a sounding scene -/

theorem slot_skips (d : Dsp σ ε (Stereo K)) (dis : Int) (i : Nat) (fx : Nat → σ × Ringout) (b : Stereo K)
    (h : ∃ c n, (fx i).2 = .on c n ∧ c + 1 < 2 ^ 64) :
    ∃ fx', slot d dis i fx b false = .ok (fx', b, false) ∧ ∀ j, j ≠ i → fx' j = fx j := by
  obtain ⟨c, n, h1, h2⟩ := h
  unfold slot
  split_ifs with hb
  · refine ⟨setFx fx i (d.control (fx i).1, .on (c + 1) n), ?_, fun j hj => by simp [setFx, hj]⟩
    have : processRingout d (fx i).1 (fx i).2 b false = .ok (d.control (fx i).1, .on (c + 1) n, b, false) := by
      rw [h1]
      unfold processRingout ringoutHead
      simp only [Ringout.incr]
      rw [if_pos h2]
      rfl
    rw [this]; rfl
  · exact ⟨fx, rfl, fun _ _ => rfl⟩

/-- C254 is false of the code: while both scenes sound, no effect that has a ring-out is applied, whatever it does (sends off):
the output is the plain sum of what the scenes rendered. -/
theorem C254_bypassed_while_playing_refuted (E : Parts K ε V H D) (hq : E.lookups = .ok ()) (d : Dsp σ ε (Stereo K)) (eps : K) (g : Engine K σ V H D)
    (ha : g.a.voices ≠ []) (hb : g.b.voices ≠ []) {ra la rb lb : List V} (h1 : routing E g.a.voices = .ok (ra, la))
    (h2 : routing E g.b.voices = .ok (rb, lb)) {byp : Bypass} (hbp : bypassOf (ε := ε) g.chain.bypass = .ok byp)
    (hs : bitClear g.chain.disable 4 = false ∧ bitClear g.chain.disable 5 = false)
    (hr : ∀ j, j < 8 → ∃ c n, (g.chain.fx j).2 = .on c n ∧ c + 1 < 2 ^ 64) :
    ∃ g', block E d eps g = .ok g' ∧ ∀ s, s < 32 →
      g'.chain.out.1 s = (sceneBlock E g.a ra la g.chain.sceneA).2.1 s + (sceneBlock E g.b rb lb g.chain.sceneB).2.1 s ∧
      g'.chain.out.2 s = (sceneBlock E g.a ra la g.chain.sceneA).2.2 s + (sceneBlock E g.b rb lb g.chain.sceneB).2.2 s := by
  have pf : ∀ sc : Scene V H D, sc.voices ≠ [] → sc.playscene = false := by
    intro sc hne
    unfold Scene.playscene
    cases hv' : sc.voices with
    | nil => exact absurd hv' hne
    | cons => rfl
  obtain ⟨c0, hc0⟩ : ∃ c0, c0 = { g.chain with sceneA := (sceneBlock E g.a ra la g.chain.sceneA).2, sceneB := (sceneBlock E g.b rb lb g.chain.sceneB).2 } := ⟨_, rfl⟩
  have hbl : block E d eps g = (runChain d eps c0 false false >>= fun c => .ok ⟨(sceneBlock E g.a ra la g.chain.sceneA).1, (sceneBlock E g.b rb lb g.chain.sceneB).1, c⟩) := by
    unfold block
    rw [h1, Res.ok_bind]
    dsimp only
    rw [h2, Res.ok_bind]
    dsimp only
    rw [hq, Res.ok_bind, pf _ ha, pf _ hb, hc0]
  have r0 : ∀ j, j < 8 → ∃ c n, (c0.fx j).2 = .on c n ∧ c + 1 < 2 ^ 64 := by rw [hc0]; exact hr
  have hb0 : bypassOf (ε := ε) c0.bypass = .ok byp := by rw [hc0]; exact hbp
  -- the inserts
  have ins : ∃ fx', applyInserts d c0 false false = .ok ({ c0 with fx := fx' }, false, false) ∧ ∀ j, 4 ≤ j → fx' j = c0.fx j := by
    unfold applyInserts
    rw [hb0, Res.ok_bind]
    by_cases hn : byp ≠ .noSendFX
    · rw [if_pos hn]
      obtain ⟨f0, e0, k0⟩ := slot_skips d c0.disable 0 c0.fx c0.sceneA (r0 0 (by decide))
      obtain ⟨f1, e1, k1⟩ := slot_skips d c0.disable 1 f0 c0.sceneA (by rw [k0 1 (by decide)]; exact r0 1 (by decide))
      obtain ⟨f2, e2, k2⟩ := slot_skips d c0.disable 2 f1 c0.sceneB (by rw [k1 2 (by decide), k0 2 (by decide)]; exact r0 2 (by decide))
      obtain ⟨f3, e3, k3⟩ := slot_skips d c0.disable 3 f2 c0.sceneB (by rw [k2 3 (by decide), k1 3 (by decide), k0 3 (by decide)]; exact r0 3 (by decide))
      refine ⟨f3, ?_, fun j hj => by rw [k3 j (by omega), k2 j (by omega), k1 j (by omega), k0 j (by omega)]⟩
      rw [e0, Res.ok_bind]; dsimp only
      rw [e1, Res.ok_bind]; dsimp only
      rw [e2, Res.ok_bind]; dsimp only
      rw [e3, Res.ok_bind]
    · rw [if_neg hn]
      exact ⟨c0.fx, rfl, fun _ _ => rfl⟩
  obtain ⟨fx', i1, i2⟩ := ins
  have eff : ∃ c', runChain d eps c0 false false = .ok c' ∧ c'.out = (sumScenes { c0 with fx := fx' }).out := by
    unfold runChain
    rw [i1, Res.ok_bind]
    unfold applyEffects
    dsimp only
    have hb2 : bypassOf (ε := ε) (sumScenes { c0 with fx := fx' }).bypass = .ok byp := hb0
    rw [hb2, Res.ok_bind]
    have hs' : bitClear (sumScenes { c0 with fx := fx' }).disable 4 = false ∧ bitClear (sumScenes { c0 with fx := fx' }).disable 5 = false := by
      have : (sumScenes { c0 with fx := fx' }).disable = g.chain.disable := by rw [hc0]; rfl
      rw [this]; exact hs
    have ad : ∀ i send ret so fs, (i = 4 ∨ i = 5) → addSend d i send ret so fs (sumScenes { c0 with fx := fx' }) false false = .ok (sumScenes { c0 with fx := fx' }, false) := by
      intro i send ret so fs h
      unfold addSend
      rcases h with rfl | rfl
      · rw [if_neg (by simp [hs'.1])]
      · rw [if_neg (by simp [hs'.2])]
    obtain ⟨f6, e6, k6⟩ := slot_skips d c0.disable 6 fx' (sumScenes { c0 with fx := fx' }).out (by rw [i2 6 (by decide)]; exact r0 6 (by decide))
    obtain ⟨f7, e7, k7⟩ := slot_skips d c0.disable 7 f6 (sumScenes { c0 with fx := fx' }).out (by rw [k6 7 (by decide), i2 7 (by decide)]; exact r0 7 (by decide))
    have e6' : slot d (sumScenes { c0 with fx := fx' }).disable 6 (sumScenes { c0 with fx := fx' }).fx (sumScenes { c0 with fx := fx' }).out false = .ok (f6, (sumScenes { c0 with fx := fx' }).out, false) := e6
    have e7' : slot d (sumScenes { c0 with fx := fx' }).disable 7 f6 (sumScenes { c0 with fx := fx' }).out false = .ok (f7, (sumScenes { c0 with fx := fx' }).out, false) := e7
    by_cases hA : byp = .allFX
    · have hA' : byp = .allFX ∨ byp = .noSendFX := Or.inl hA
      refine ⟨{ sumScenes { c0 with fx := fx' } with fx := f7 }, ?_, rfl⟩
      simp only [if_pos hA, if_pos hA', ad 4 _ _ _ _ (Or.inl rfl), ad 5 _ _ _ _ (Or.inr rfl), Res.ok_bind, Bool.or_false, e6', e7']
    · by_cases hN : byp = .noSendFX
      · refine ⟨{ sumScenes { c0 with fx := fx' } with fx := f7 }, ?_, rfl⟩
        have hA' : byp = .allFX ∨ byp = .noSendFX := Or.inr hN
        simp only [if_neg hA, if_pos hA', Res.ok_bind, Bool.or_false, e6', e7']
      · refine ⟨sumScenes { c0 with fx := fx' }, ?_, rfl⟩
        have hA' : ¬ (byp = .allFX ∨ byp = .noSendFX) := by simp [hA, hN]
        simp only [if_neg hA, if_neg hA', Res.ok_bind]
  obtain ⟨c', j1, j2⟩ := eff
  refine ⟨_, by rw [hbl, j1, Res.ok_bind], fun s hs => ?_⟩
  show c'.out.1 s = _ ∧ c'.out.2 s = _
  rw [j2, hc0]
  simp [sumScenes, inBlock, hs]

/-! ## Non-vacuity -/

/-- Voices are numbers: 0 ends, others sound; the chain adds 1 per block in all samples; a plain decimator, no high-pass. -/
def demo : Parts ℚ Empty Nat Unit Unit where
  voice := fun v => (v, v != 0)
  render := fun vs => if vs = [] then (fun _ => 0, fun _ => 0) else (fun _ => 1, fun _ => 1)
  lookups := .ok ()
  clip := fun x => x
  down := fun _ b => ((), (fun s => (b.1 (2 * s) + b.1 (2 * s + 1)) / 2, fun s => (b.2 (2 * s) + b.2 (2 * s + 1)) / 2))
  high := fun _ b => ((), b)

example : routing demo [1, 0, 2, 3] = .ok ([1, 0, 2, 3], [1, 2, 3]) := by decide +kernel
example : routing demo [1, 0, 2, 0, 3] = .ok ([1, 0, 2, 0, 3], [1, 2, 0]) ∧ Spec.left demo [1, 0, 2, 0, 3] = [1, 2, 3] := by decide +kernel
example : routing demo [1, 0, 2, 0] = .panic "index out of bounds" := by decide +kernel
/-- The conditions of `C252_adds_up_refuted` and `C252_drone_refuted` are met by the same parts with voices that never end. -/
def demoOn : Parts ℚ Empty Nat Unit Unit := { demo with voice := fun v => (v, true) }
example : Spec.Endless demoOn := fun _ => rfl
example : demoOn.render [] = (fun _ => 0, fun _ => 0) ∧ demoOn.lookups = .ok () ∧ (∀ h b, (demoOn.high h b).2 = b) ∧ demoOn.clip 0 = 0 ∧
    (∀ vs, vs ≠ [] → demoOn.render vs = (fun _ => 1, fun _ => 1)) ∧
    ∀ (h : Unit) (b : Stereo ℚ) s, s < 32 → (demoOn.down h b).2.1 s = (b.1 (2 * s) + b.1 (2 * s + 1)) / 2 := by
  refine ⟨by simp [demoOn, demo], rfl, fun _ _ => rfl, rfl, fun vs h => by simp [demoOn, demo, h], fun _ _ _ _ => rfl⟩

end Verif.Render
