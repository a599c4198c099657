import Verif.Rust
import Mathlib.Data.Real.Basic
import Mathlib.Algebra.Order.Archimedean.Real.Basic
import Mathlib.Algebra.BigOperators.Group.List.Basic
import Mathlib.Tactic.Ring
import Mathlib.Tactic.Linarith
import Mathlib.Tactic.NormNum
import Mathlib.Tactic.FieldSimp
/-!
# Portamento and legato of a voice (surge-voice), in exact real arithmetic (C128)

Rounding to `f32`/`f64` is not modelled.
-/
namespace Verif.Voice

/-- surge-math/src/interp.rs 20-28: `lerp`, whose assertion accepts the half-open range from 0 to 1. -/
noncomputable def lerp (x a b : ℝ) : Res Empty ℝ := if 0 ≤ x ∧ x < 1 then .ok ((1 - x) * a + x * b) else .panic "assertion failed: valid_range.contains(&Some(x))"

/-- surge-voice/src/state.rs 3-22: the fields the pitch of a voice depends on.  The two bends live in the channel states the voice points to. -/
structure Porta where
  key : ℤ
  velocity : ℤ
  fvel : ℝ
  detune : ℝ
  voicePb : ℝ
  mainPb : ℝ
  src : ℝ
  phase : ℝ
  pkey : ℝ

/-- state.rs 29-45: `get_pitch`. -/
def Porta.pitch (s : Porta) : ℝ := s.key + s.voicePb + s.detune + s.mainPb

/-- state.rs 47-60 `set_portasrc_key` and init_portasrc.rs 5-22: where the first glide of a voice starts; `atMin` says that the portamento parameter is at its minimum. -/
def Porta.setSource (s : Porta) (fingered atMin : Bool) (lastKey : ℤ) : Porta := { s with src := if fingered && atMin then s.pitch else lastKey }

/-- surge-mpe/src/handle.rs 55-64: `set_lastkey`. -/
def setLastkey (key : ℤ) : Res Empty Unit := if 0 ≤ key ∧ key ≤ 127 then .ok () else .panic "set_lastkey"

/-- portamento.rs 8-19: where the glide of a legato note starts. -/
noncomputable def Porta.source (s : Porta) : Res Empty ℝ := if s.phase > 1 then .ok s.pitch else lerp s.phase s.src s.pitch

/-- surge-voice/src/portamento.rs 5-29: `legato`. -/
noncomputable def Porta.legato (s : Porta) (key velocity : ℤ) : Res Empty Porta := do
  let src ← s.source
  setLastkey key
  pure { s with src := src, key := key, phase := 0, velocity := velocity, fvel := velocity / 127 }

/-- portamento.rs 31-56: `update_portamento`; `rate` is the table's value for the portamento parameter, `tempo` what `get_temposyncratio` does: it is called whether or not the
parameter is synchronised. -/
noncomputable def Porta.update (tempo : Res Empty ℝ) (sync : Bool) (rate : ℝ) (s : Porta) : Res Empty Porta := do
  let q ← tempo
  let m := if sync then q else 1
  let s := { s with phase := s.phase + rate * m }
  pure (if s.phase < 1 then { s with pkey := (1 - s.phase) * s.src + s.phase * s.pitch } else { s with pkey := s.pitch })

/-- release.rs 57-59: `get_temposyncratio`. -/
def codeTempo : Res Empty ℝ := .panic "not yet implemented"

/-- What happens to the pitch of a voice: a block, a legato note, the bends moving. -/
inductive Ev where
  | block (sync : Bool) (rate : ℝ)
  | legato (key velocity : ℤ)
  | bend (voice main : ℝ)

/-- One event. -/
noncomputable def Porta.ev (tempo : Res Empty ℝ) (s : Porta) : Ev → Res Empty Porta
  | .block sync rate => s.update tempo sync rate
  | .legato k v => s.legato k v
  | .bend v m => .ok { s with voicePb := v, mainPb := m }

/-- A history of events. -/
noncomputable def Porta.run (tempo : Res Empty ℝ) (s : Porta) (es : List Ev) : Res Empty Porta := es.foldlM (Porta.ev tempo) s

namespace Spec

/-- The straight line from one pitch to another, reached when the phase is 1 and held from then on. -/
noncomputable def glide (a b phase : ℝ) : ℝ := if phase < 1 then a + phase * (b - a) else b

/-- Blocks with positive rates. -/
def Rates (es : List Ev) : Prop := ∀ e ∈ es, ∀ sync rate, e = Ev.block sync rate → 0 < rate

end Spec

theorem update_ok (q : ℝ) (sync : Bool) (rate : ℝ) (s : Porta) :
    s.update (.ok q) sync rate = .ok { s with phase := s.phase + rate * (if sync then q else 1), pkey := Spec.glide s.src s.pitch (s.phase + rate * (if sync then q else 1)) } := by
  unfold Porta.update Spec.glide
  simp only [Res.ok_bind, Res.pure_eq]
  by_cases h : s.phase + rate * (if sync then q else 1) < 1
  · simp only [h, if_true, Porta.pitch]; congr 2; ring
  · simp only [h, if_false, Porta.pitch]

/-- The phase never goes below zero. -/
theorem phase_nonneg {q : ℝ} (hq : 0 < q) {es : List Ev} (he : Spec.Rates es) {s s' : Porta} (h0 : 0 ≤ s.phase) (h : s.run (.ok q) es = .ok s') : 0 ≤ s'.phase := by
  induction es generalizing s with
  | nil => simp only [Porta.run, List.foldlM_nil, Res.pure_eq, Res.ok.injEq] at h; rw [← h]; exact h0
  | cons e es ih =>
    have he' : Spec.Rates es := fun e' h' => he e' (List.mem_cons_of_mem _ h')
    simp only [Porta.run, List.foldlM_cons] at h
    cases hr : s.ev (.ok q) e with
    | ok s1 =>
      rw [hr, Res.ok_bind] at h
      refine ih he' ?_ h
      cases e with
      | block sync rate =>
        simp only [Porta.ev, update_ok, Res.ok.injEq] at hr
        rw [← hr]
        have := he _ List.mem_cons_self sync rate rfl
        have : 0 < rate * (if sync then q else 1) := by split <;> positivity
        simp only
        linarith
      | legato k v =>
        simp only [Porta.ev, Porta.legato] at hr
        cases h1 : s.source with
        | ok x =>
          rw [h1, Res.ok_bind] at hr
          unfold setLastkey at hr
          split at hr <;> simp at hr
          rw [← hr]
        | err e => exact e.elim
        | panic w => rw [h1] at hr; simp at hr
      | bend v m =>
        simp only [Porta.ev, Res.ok.injEq] at hr
        rw [← hr]; exact h0
    | err e => exact e.elim
    | panic w => rw [hr] at h; simp at h

/-- Blocks, each with its tempo switch and its rate. -/
def blocks (bs : List (Bool × ℝ)) : List Ev := bs.map fun b => Ev.block b.1 b.2

/-- How far a glide has come after some blocks: the rates add up, multiplied by the tempo ratio where synchronised. -/
noncomputable def Spec.progress (q : ℝ) (bs : List (Bool × ℝ)) : ℝ := (bs.map fun b => if b.1 then b.2 * q else b.2).sum

theorem run_blocks (q : ℝ) (s : Porta) (bs : List (Bool × ℝ)) (r : Bool × ℝ) :
    s.run (.ok q) (blocks (bs ++ [r])) =
      .ok { s with phase := s.phase + Spec.progress q (bs ++ [r]), pkey := Spec.glide s.src s.pitch (s.phase + Spec.progress q (bs ++ [r])) } := by
  have e : ∀ b : Bool × ℝ, b.2 * (if b.1 = true then q else 1) = if b.1 = true then b.2 * q else b.2 := by
    rintro ⟨b, x⟩; cases b <;> simp
  induction bs generalizing s with
  | nil => simp [Porta.run, blocks, Porta.ev, update_ok, Spec.progress, e]
  | cons x xs ih =>
    simp only [List.cons_append, blocks, List.map_cons, Porta.run, List.foldlM_cons, Porta.ev, update_ok, Res.ok_bind] at ih ⊢
    rw [ih]
    simp only [Spec.progress, List.map_cons, List.sum_cons, Porta.pitch, e, add_assoc]

/-- **C128 (what holds).** Suppose `get_temposyncratio` returned a ratio.  After any history ending in a block, a legato note within the keyboard (unless the glide in progress stands at phase exactly 1)
is accepted, takes the note's velocity, and from then on the pitch goes in a straight line from the pitch that was sounding to the new one: after any blocks it is the point of
the line at the sum of their rates, each multiplied by the ratio if synchronised. -/
theorem C128_legato_glides_partial {q : ℝ} (hq : 0 < q) (s0 : Porta) (h0 : 0 ≤ s0.phase) (es : List Ev) (sync : Bool) (r : ℝ) (he : Spec.Rates (es ++ [.block sync r])) {s : Porta}
    (hs : s0.run (.ok q) (es ++ [.block sync r]) = .ok s) (hp : s.phase ≠ 1) {key : ℤ} (hk : 0 ≤ key ∧ key ≤ 127) (velocity : ℤ) :
    ∃ s', s.legato key velocity = .ok s' ∧ s'.key = key ∧ s'.velocity = velocity ∧ s'.fvel = velocity / 127 ∧
      ∀ (bs : List (Bool × ℝ)) (b : Bool × ℝ), ∃ s'', s'.run (.ok q) (blocks (bs ++ [b])) = .ok s'' ∧
        s''.pkey = Spec.glide s.pkey (key + s.voicePb + s.detune + s.mainPb) (Spec.progress q (bs ++ [b])) := by
  have hn := phase_nonneg hq he h0 hs
  have hsound : s.pkey = Spec.glide s.src s.pitch s.phase := by
    unfold Porta.run at hs
    rw [List.foldlM_append] at hs
    cases h1 : List.foldlM (Porta.ev (.ok q)) s0 es with
    | ok s1 =>
      rw [h1, Res.ok_bind] at hs
      simp only [List.foldlM_cons, List.foldlM_nil, Porta.ev, update_ok, Res.ok_bind, Res.pure_eq, Res.ok.injEq] at hs
      rw [← hs]
      rfl
    | err e => exact e.elim
    | panic w => rw [h1] at hs; simp at hs
  have hsrc : s.source = .ok s.pkey := by
    rw [hsound]
    unfold Spec.glide Porta.source lerp
    rcases lt_or_gt_of_ne hp with h | h
    · rw [if_neg (by linarith), if_pos ⟨hn, h⟩, if_pos h]
      congr 1; ring
    · rw [if_pos h, if_neg (by linarith)]
  refine ⟨{ s with src := s.pkey, key := key, phase := 0, velocity := velocity, fvel := velocity / 127 }, ?_, rfl, rfl, rfl, fun rates r' => ?_⟩
  · unfold Porta.legato
    rw [hsrc, Res.ok_bind, setLastkey, if_pos hk]
    rfl
  · refine ⟨_, run_blocks q _ rates r', ?_⟩
    simp [Porta.pitch]

/-- The glide: starts at the old pitch, never overshoots, moves one way only, is at the new pitch once the rates add up to 1 and stays there. -/
theorem C128_glide (a b : ℝ) : Spec.glide a b 0 = a ∧
    (∀ x, 0 ≤ x → min a b ≤ Spec.glide a b x ∧ Spec.glide a b x ≤ max a b) ∧
    (∀ x y, 0 ≤ x → x ≤ y → |b - Spec.glide a b y| ≤ |b - Spec.glide a b x|) ∧
    (∀ x, 1 ≤ x → Spec.glide a b x = b) ∧
    ∀ x y, 0 ≤ x → x ≤ y → |Spec.glide a b y - Spec.glide a b x| ≤ (y - x) * |b - a| := by
  have hg : ∀ x, 0 ≤ x → Spec.glide a b x = a + min x 1 * (b - a) := by
    intro x _
    unfold Spec.glide
    split
    · rw [min_eq_left (by linarith)]
    · rw [min_eq_right (by linarith)]; ring
  refine ⟨by rw [hg 0 le_rfl]; norm_num, fun x hx => ?_, fun x y hx hxy => ?_, fun x hx => if_neg (by linarith), fun x y hx hxy => ?_⟩
  · rw [hg x hx]
    have h1 : 0 ≤ min x 1 := le_min hx (by norm_num)
    have h2 : min x 1 ≤ 1 := min_le_right _ _
    rcases le_total a b with h | h
    · rw [min_eq_left h, max_eq_right h]; constructor <;> nlinarith
    · rw [min_eq_right h, max_eq_left h]; constructor <;> nlinarith
  · rw [hg x hx, hg y (hx.trans hxy)]
    have e : ∀ z : ℝ, b - (a + min z 1 * (b - a)) = (1 - min z 1) * (b - a) := by intro z; ring
    rw [e, e, abs_mul, abs_mul]
    refine mul_le_mul_of_nonneg_right ?_ (abs_nonneg _)
    rw [abs_of_nonneg (by linarith [min_le_right y 1]), abs_of_nonneg (by linarith [min_le_right x 1])]
    linarith [min_le_min_right 1 hxy]
  · rw [hg x hx, hg y (hx.trans hxy)]
    rw [show a + min y 1 * (b - a) - (a + min x 1 * (b - a)) = (min y 1 - min x 1) * (b - a) by ring, abs_mul]
    refine mul_le_mul_of_nonneg_right ?_ (abs_nonneg _)
    rw [abs_of_nonneg (by linarith [min_le_min_right 1 hxy])]
    rcases le_total y 1 with h | h
    · rw [min_eq_left h, min_eq_left (hxy.trans h)]
    · rw [min_eq_right h]
      rcases le_total x 1 with h' | h'
      · rw [min_eq_left h']; linarith
      · rw [min_eq_right h']; linarith

/-- Non-vacuous: a glide of an octave in four blocks, interrupted half way. -/
example : ∃ s s', (⟨60, 100, 0, 0, 0, 0, 48, 0, 0⟩ : Porta).run (.ok 1) [.block false (1 / 4), .block false (1 / 4)] = .ok s ∧ s.pkey = 54 ∧
    s.run (.ok 1) [.legato 72 127, .block false (1 / 4)] = .ok s' ∧ s'.pkey = 54 + 18 / 4 := by
  refine ⟨⟨60, 100, 0, 0, 0, 0, 48, 1 / 2, 54⟩, ⟨72, 127, 1, 0, 0, 0, 54, 1 / 4, 54 + 18 / 4⟩, ?_, rfl, ?_, rfl⟩
  · simp [Porta.run, Porta.ev, update_ok, Spec.glide, Porta.pitch]; norm_num
  · simp [Porta.run, Porta.ev, update_ok, Spec.glide, Porta.pitch, Porta.legato, Porta.source, lerp, setLastkey]; norm_num

/-- **C128 (refutation).** A legato note that arrives exactly at the end of a glide panics: for every number `n` of blocks at the rate `1 / n`, whatever the pitches and the note. -/
theorem C128_legato_at_end_panics_refuted (s : Porta) (h0 : s.phase = 0) {n : ℕ} (hn : 0 < n) (key velocity : ℤ) :
    ∃ s', s.run (.ok 1) (blocks (List.replicate n (false, 1 / n))) = .ok s' ∧ s'.pkey = s.pitch ∧ (s'.legato key velocity).isPanic := by
  obtain ⟨m, rfl⟩ : ∃ m, n = m + 1 := ⟨n - 1, by omega⟩
  have e : List.replicate (m + 1) (false, 1 / ((m + 1 : ℕ) : ℝ)) = List.replicate m (false, 1 / ((m + 1 : ℕ) : ℝ)) ++ [(false, 1 / ((m + 1 : ℕ) : ℝ))] := by
    rw [List.replicate_succ']
  have hsum : Spec.progress 1 (List.replicate m (false, 1 / ((m + 1 : ℕ) : ℝ)) ++ [(false, 1 / ((m + 1 : ℕ) : ℝ))]) = 1 := by
    rw [← e, Spec.progress, List.map_replicate, List.sum_replicate, nsmul_eq_mul]
    have : ((m + 1 : ℕ) : ℝ) ≠ 0 := by positivity
    simp only [Bool.false_eq_true, if_false]
    field_simp
  refine ⟨_, by rw [e]; exact run_blocks 1 s _ _, ?_, ?_⟩
  · simp only [hsum, h0]
    norm_num [Spec.glide]
  · simp only [hsum, h0, Porta.legato, Porta.source, lerp]
    norm_num
    rfl

/-- **C128 (refutation).** As the code stands every block of every voice panics: `get_temposyncratio` is not written, and it is asked even when nothing is synchronised. -/
theorem C128_code_panics_refuted (s : Porta) (sync : Bool) (rate : ℝ) : (s.update codeTempo sync rate).isPanic := rfl

/-- Where the first glide of a voice starts: at the last key played, except with fingered portamento at its minimum, where there is no glide.  In every other mode the minimum still glides. -/
theorem C128_first_source (s : Porta) (fingered atMin : Bool) (lastKey : ℤ) :
    (s.setSource fingered atMin lastKey).pitch = s.pitch ∧
    ((fingered = true ∧ atMin = true) → (s.setSource fingered atMin lastKey).src = s.pitch) ∧
    (¬(fingered = true ∧ atMin = true) → (s.setSource fingered atMin lastKey).src = lastKey) := by
  cases fingered <;> cases atMin <;> simp [Porta.setSource, Porta.pitch]

end Verif.Voice
