import Verif.Osc.Blit
import Verif.Tuning.PropsLookup
import Mathlib.Analysis.SpecialFunctions.Pow.Real
/-!
# The classic ("super") oscillator (C162–C164), in exact real arithmetic

surgeosc-super/src/convolute/{convolute,get_g,get_t}.rs, process/{process,no_fm,fm}.rs, set_pitch.rs.  A unison voice is a cycle of four impulses; it is given, block by block, the smoothed shape, sub level, widths and
sync pitch, and the lengths of a period (they come from the tuning tables and the drift noise, which may do anything).  The smoothed values stay in the ranges of their targets (C33).
Not modelled: rounding.
-/
namespace Verif.Osc
open Verif

/-- What a voice sees in one block: `l_shape.v`, `l_sub.v`, `l_pw.v`, `l_pw2.v`, `l_sync.v`, the period `t` and its reciprocal (get_t.rs 5-55), and `2 n2pinv_tuningctr(detune)` (convolute.rs 50). -/
structure SupPar where
  wf : ℝ
  sub : ℝ
  pw : ℝ
  pw2 : ℝ
  sync : ℝ
  t : ℝ
  tInv : ℝ
  tSync : ℝ

/-- What all voices see: `64 * pitchmult`, `pitchmult_inv`. -/
structure SupCfg where
  a : ℝ
  inv : ℝ

/-- One unison voice: `state`, `oscstate`, `syncstate`, `last_level`, `dc_uni`, `pwidth`, `pwidth2`. -/
structure SupVoice where
  state : ℕ
  osc : ℝ
  sync : ℝ
  last : ℝ
  dc : ℝ
  pw : ℝ
  pw2 : ℝ

/-- One impulse of a voice: its place in the block (as a phase), its height, the slope from it on, and what goes into the buffer, up to the attenuation and the panning. -/
structure Hit where
  pos : ℝ
  g : ℝ
  slope : ℝ
  pulse : Pulse

/-- `as u32` of a real. -/
noncomputable def toU32 (x : ℝ) : ℕ := min ⌊x⌋₊ (2 ^ 32 - 1)

/-- get_t.rs 8-50: the period.  `inv` is `n2pinv::<f64, true>` and `ctr` is `n2pinv_tuningctr`. -/
noncomputable def getT (inv ctr : ℝ → ℝ) (absolute : Bool) (pitch sync detune : ℝ) : ℝ :=
  if absolute then
    let t := inv (detune * inv pitch * 16 / 0.9443 + sync)
    if t < 0.1 then 0 else t
  else ctr (detune + sync)

/-- convolute.rs 41-66: which of sync and the oscillator itself is next. -/
noncomputable def SupVoice.next (P : SupPar) (v : SupVoice) : SupVoice :=
  if 0 < P.sync ∧ v.sync < v.osc then ⟨0, v.sync, max 0 (v.sync + P.tSync), v.last + v.dc * (v.osc - v.sync), v.dc, v.pw, v.pw2⟩ else v

/-- get_g.rs 33-143: the height of the impulse and the new level, for each of the four states (stored modulo 4 by convolute.rs 139). -/
noncomputable def SupVoice.impulse (P : SupPar) (v : SupVoice) : SupVoice × ℝ :=
  match v.state with
  | 0 =>
    let pw := P.pw
    let pw2 := 2 * P.pw2
    let tg := ((1 + P.wf) * 0.5 + (1 - pw) * (-P.wf)) * (1 - P.sub) + 0.5 * P.sub * (2 - pw2)
    (⟨v.state, v.osc, v.sync, tg - pw * pw2 * (1 + P.wf) * (1 - P.sub), v.dc, pw, pw2⟩, tg - v.last)
  | 1 =>
    let g := P.wf * (1 - P.sub) - P.sub
    (⟨v.state, v.osc, v.sync, v.last + g - (1 - v.pw) * (2 - v.pw2) * (1 + P.wf) * (1 - P.sub), v.dc, v.pw, v.pw2⟩, g)
  | 2 =>
    let g := 1 - P.sub
    (⟨v.state, v.osc, v.sync, v.last + g - v.pw * (2 - v.pw2) * (1 + P.wf) * (1 - P.sub), v.dc, v.pw, v.pw2⟩, g)
  | _ =>
    let g := P.wf * (1 - P.sub) + P.sub
    (⟨v.state, v.osc, v.sync, v.last + g - (1 - v.pw) * v.pw2 * (1 + P.wf) * (1 - P.sub), v.dc, v.pw, v.pw2⟩, g)

/-- convolute.rs 126-134: the time to the next impulse. -/
noncomputable def SupVoice.rate (t : ℝ) (v : SupVoice) : ℝ :=
  (if v.state % 2 = 0 then t * v.pw else t * (1 - v.pw)) * (if (v.state + 1) / 2 % 2 = 0 then v.pw2 else 2 - v.pw2)

/-- convolute.rs 17-140 `convolute` (without fm). -/
noncomputable def SupVoice.convolute (c : SupCfg) (P : SupPar) (v : SupVoice) : SupVoice × Hit :=
  let w := v.next P
  let ipos := toU32 (2 ^ 24 * (w.osc * c.inv))
  let (w2, g) := w.impulse P
  let dc := P.tInv * (1 + P.wf) * (1 - P.sub)
  (⟨(w.state + 1) % 4, max 0 (w.osc + w2.rate P.t), w.sync, w2.last, dc, w2.pw, w2.pw2⟩,
    ⟨w.osc, g, dc, ⟨ipos / 2 ^ 24 % 64, ipos / 2 ^ 16 % 256 * 24, (ipos % 2 ^ 16 : ℕ), g, g, dc - w.dc⟩⟩)

/-- no_fm.rs 18-28: the loop; `none` is a loop that has not ended within the given number of rounds. -/
noncomputable def SupVoice.fill (c : SupCfg) (P : SupPar) : ℕ → SupVoice → Option (SupVoice × List Hit)
  | 0, _ => none
  | n + 1, v =>
    if (0 < P.sync ∧ v.sync < c.a) ∨ v.osc < c.a then
      ((v.convolute c P).1.fill c P n).map fun x => (x.1, (v.convolute c P).2 :: x.2)
    else some (v, [])

/-- no_fm.rs 30-36: take off what the block has covered. -/
noncomputable def SupVoice.advance (c : SupCfg) (P : SupPar) (v : SupVoice) : SupVoice :=
  ⟨v.state, v.osc - c.a, if 0 < P.sync then v.sync - c.a else v.sync, v.last, v.dc, v.pw, v.pw2⟩

/-! ## Specification -/

/-- The ranges of update_lagvals.rs 20-24, a period above 0 and its exact reciprocal. -/
structure Spec.SupOk (P : SupPar) : Prop where
  wf : -1 ≤ P.wf ∧ P.wf ≤ 1
  sub : 0 ≤ P.sub ∧ P.sub ≤ 1
  pw : 0.001 ≤ P.pw ∧ P.pw ≤ 0.999
  pw2 : 0.001 ≤ P.pw2 ∧ P.pw2 ≤ 0.999
  t : 0 < P.t
  inv : P.tInv * P.t = 1
  tSync : 0 < P.tSync

/-- A block length and its reciprocal in samples. -/
def Spec.CfgOk (c : SupCfg) : Prop := 0 < c.a ∧ c.a * c.inv = 64

/-- A voice as set_pitch.rs 15-38 leaves it. -/
structure Spec.SupStart (v : SupVoice) : Prop where
  state : v.state = 0
  osc : 0 ≤ v.osc
  sync : 0 ≤ v.sync
  dc : v.dc = 0

/-- The life of a voice: its states before the blocks, and the impulses of the blocks. -/
structure Spec.SupRun (c : ℕ → SupCfg) (P : ℕ → SupPar) (V : ℕ → SupVoice) (H : ℕ → List Hit) : Prop where
  start : Spec.SupStart (V 0)
  step : ∀ t, ∃ n w, (V t).fill (c t) (P t) n = some (w, H t) ∧ V (t + 1) = w.advance (c t) (P t)

/-- The impulses of the blocks from `s` on (`T` of them), their places counted from the beginning; `A` is the phase at the start of block `s`. -/
noncomputable def Spec.traceFrom (c : ℕ → SupCfg) (H : ℕ → List Hit) (s : ℕ) (A : ℝ) : ℕ → List (ℝ × ℝ × ℝ)
  | 0 => []
  | T + 1 => (H s).map (fun h => (A + h.pos, h.g, h.slope)) ++ Spec.traceFrom c H (s + 1) (A + (c s).a) T

/-- The impulses of the first `T` blocks: (phase, height, slope from there on). -/
noncomputable def Spec.trace (c : ℕ → SupCfg) (H : ℕ → List Hit) (T : ℕ) : List (ℝ × ℝ × ℝ) := Spec.traceFrom c H 0 0 T

/-- The levels of the wave made of these jumps and of falling straight lines between them: right after each jump.  `cur` is the level at phase `ph`, from where it falls with slope `s`. -/
noncomputable def Spec.levels (cur ph s : ℝ) : List (ℝ × ℝ × ℝ) → List ℝ
  | [] => []
  | (x, g, s') :: hs => (cur - s * (x - ph) + g) :: Spec.levels (cur - s * (x - ph) + g) x s' hs

/-! ## Termination and places -/

/-- What holds between impulses. -/
structure Good (v : SupVoice) : Prop where
  state : v.state < 4
  osc : 0 ≤ v.osc
  sync : 0 ≤ v.sync
  pw : v.state ≠ 0 → 0.001 ≤ v.pw ∧ v.pw ≤ 0.999
  pw2 : v.state ≠ 0 → 0.002 ≤ v.pw2 ∧ v.pw2 ≤ 1.998

theorem good_start {v : SupVoice} (h : Spec.SupStart v) : Good v := ⟨by rw [h.state]; decide, h.osc, h.sync, fun n => absurd h.state n, fun n => absurd h.state n⟩

theorem good_next {P : SupPar} (hP : Spec.SupOk P) {v : SupVoice} (h : Good v) : Good (v.next P) := by
  unfold SupVoice.next
  split
  · exact ⟨by show 0 < 4; decide, h.sync, le_max_left _ _, fun n => absurd rfl n, fun n => absurd rfl n⟩
  · exact h

theorem impulse_widths {P : SupPar} (hP : Spec.SupOk P) {v : SupVoice} (h : Good v) : (v.impulse P).1.state = v.state ∧ (v.impulse P).1.osc = v.osc ∧
    0.001 ≤ (v.impulse P).1.pw ∧ (v.impulse P).1.pw ≤ 0.999 ∧ 0.002 ≤ (v.impulse P).1.pw2 ∧ (v.impulse P).1.pw2 ≤ 1.998 := by
  obtain ⟨st, osc, sync, last, dc, pw, pw2⟩ := v
  have a := h.state
  have b := h.pw
  have d := h.pw2
  obtain ⟨p1, p2⟩ := hP.pw
  obtain ⟨p3, p4⟩ := hP.pw2
  simp only at a b d
  rcases (by omega : st = 0 ∨ st = 1 ∨ st = 2 ∨ st = 3) with rfl | rfl | rfl | rfl
  · refine ⟨rfl, rfl, p1, p2, ?_, ?_⟩
    · show 0.002 ≤ 2 * P.pw2; linarith
    · show 2 * P.pw2 ≤ 1.998; linarith
  · exact ⟨rfl, rfl, (b (by decide)).1, (b (by decide)).2, (d (by decide)).1, (d (by decide)).2⟩
  · exact ⟨rfl, rfl, (b (by decide)).1, (b (by decide)).2, (d (by decide)).1, (d (by decide)).2⟩
  · exact ⟨rfl, rfl, (b (by decide)).1, (b (by decide)).2, (d (by decide)).1, (d (by decide)).2⟩

theorem rate_lower {t : ℝ} (ht : 0 < t) {v : SupVoice} (h1 : 0.001 ≤ v.pw) (h2 : v.pw ≤ 0.999) (h3 : 0.002 ≤ v.pw2) (h4 : v.pw2 ≤ 1.998) : t * 0.000002 ≤ v.rate t := by
  have m : ∀ x y : ℝ, 0.001 ≤ x → 0.002 ≤ y → t * 0.000002 ≤ t * x * y := by
    intro x y hx hy
    have : 0.000002 ≤ x * y := by nlinarith
    nlinarith
  unfold SupVoice.rate
  split <;> split
  · exact m _ _ h1 h3
  · exact m _ _ h1 (by linarith)
  · exact m _ _ (by linarith) h3
  · exact m _ _ (by linarith) (by linarith)

/-- One impulse: the voice stays good, the oscillator moves on from the place of the impulse. -/
theorem good_convolute (c : SupCfg) {P : SupPar} (hP : Spec.SupOk P) {v : SupVoice} (h : Good v) : Good (v.convolute c P).1 ∧
    (v.convolute c P).2.pos + P.t * 0.000002 ≤ (v.convolute c P).1.osc := by
  have hw := good_next hP h
  obtain ⟨e1, e2, w1, w2, w3, w4⟩ := impulse_widths hP hw
  have r := rate_lower hP.t w1 w2 w3 w4
  have r0 : 0 ≤ (v.next P).osc := hw.osc
  have t0 := hP.t
  have rp : 0 ≤ ((v.next P).impulse P).1.rate P.t := le_trans (by positivity) r
  refine ⟨⟨Nat.mod_lt _ (by decide), le_max_left _ _, hw.sync, fun _ => ⟨w1, w2⟩, fun _ => ⟨w3, w4⟩⟩, ?_⟩
  show (v.next P).osc + _ ≤ max 0 ((v.next P).osc + ((v.next P).impulse P).1.rate P.t)
  rw [max_eq_right (by linarith)]
  linarith

/-- While the loop goes on the next impulse lies in the block. -/
theorem next_inside {a : ℝ} {P : SupPar} {v : SupVoice} (h : (0 < P.sync ∧ v.sync < a) ∨ v.osc < a) : (v.next P).osc < a := by
  unfold SupVoice.next
  split
  · rename_i c
    rcases h with h | h
    · exact h.2
    · exact lt_trans c.2 h
  · rename_i c
    rcases h with h | h
    · by_contra n
      push Not at n
      exact c ⟨h.1, lt_of_lt_of_le h.2 n⟩
    · exact h

theorem fill_mono {c : SupCfg} {P : SupPar} : ∀ {n : ℕ} {v : SupVoice} {x : SupVoice × List Hit}, v.fill c P n = some x → v.fill c P (n + 1) = some x
  | 0, v, x, h => by simp [SupVoice.fill] at h
  | n + 1, v, x, h => by
    rw [SupVoice.fill] at h ⊢
    split
    · rename_i cc
      rw [if_pos cc] at h
      obtain ⟨y, hy, rfl⟩ := Option.map_eq_some_iff.1 h
      rw [fill_mono hy]; rfl
    · rename_i cc
      rw [if_neg cc] at h; exact h

/-- The loop ends. -/
theorem fill_ends (c : SupCfg) {P : SupPar} (hP : Spec.SupOk P) : ∀ (N M : ℕ) (v : SupVoice), Good v → (0 < P.sync → c.a - v.sync ≤ N * P.tSync) → c.a - v.osc ≤ M * (P.t * 0.000002) →
    ∃ n x, v.fill c P n = some x := by
  have δ : 0 < P.t * 0.000002 := mul_pos hP.t (by norm_num)
  have stop : ∀ v : SupVoice, ¬((0 < P.sync ∧ v.sync < c.a) ∨ v.osc < c.a) → ∃ n x, v.fill c P n = some x := fun v h => ⟨1, (v, []), by rw [SupVoice.fill, if_neg h]⟩
  have go : ∀ v : SupVoice, (0 < P.sync ∧ v.sync < c.a) ∨ v.osc < c.a → (∃ n x, (v.convolute c P).1.fill c P n = some x) → ∃ n x, v.fill c P n = some x := by
    rintro v h ⟨n, x, e⟩
    exact ⟨n + 1, _, by rw [SupVoice.fill, if_pos h, e]; rfl⟩
  intro N
  induction N with
  | zero =>
    intro M
    induction M with
    | zero =>
      intro v g h1 h2
      apply stop
      push_cast at h1 h2
      rintro (⟨p, q⟩ | q)
      · have := h1 p; linarith
      · linarith
    | succ M ih =>
      intro v g h1 h2
      by_cases h : (0 < P.sync ∧ v.sync < c.a) ∨ v.osc < c.a
      · apply go v h
        have gc := good_convolute c hP g
        have pe : (v.convolute c P).2.pos = v.osc ∧ (v.convolute c P).1.sync = v.sync := by
          have ho : v.osc < c.a := by
            rcases h with ⟨p, q⟩ | q
            · have := h1 p; push_cast at this; linarith
            · exact q
          have : v.next P = v := by
            unfold SupVoice.next
            rw [if_neg]
            rintro ⟨p, q⟩
            have := h1 p; push_cast at this; linarith
          exact ⟨by show (v.next P).osc = _; rw [this], by show (v.next P).sync = _; rw [this]⟩
        refine ih _ gc.1 ?_ ?_
        · rw [pe.2]; exact h1
        · have := gc.2
          rw [pe.1] at this
          push_cast at h2; linarith
      · exact stop v h
  | succ N ihN =>
    intro M
    induction M with
    | zero =>
      intro v g h1 h2
      by_cases h : (0 < P.sync ∧ v.sync < c.a) ∨ v.osc < c.a
      · apply go v h
        have gc := good_convolute c hP g
        push_cast at h2
        obtain ⟨p, q⟩ : 0 < P.sync ∧ v.sync < v.osc := by
          rcases h with ⟨p, q⟩ | q
          · exact ⟨p, by linarith⟩
          · linarith
        obtain ⟨M', hM⟩ := exists_nat_gt ((c.a - (v.convolute c P).1.osc) / (P.t * 0.000002))
        refine ihN M' _ gc.1 (fun p' => ?_) (by rw [div_lt_iff₀ δ] at hM; exact hM.le)
        have : (v.convolute c P).1.sync = max 0 (v.sync + P.tSync) := by
          show (v.next P).sync = _
          unfold SupVoice.next; rw [if_pos ⟨p, q⟩]
        rw [this]
        have := h1 p
        have m := le_max_right 0 (v.sync + P.tSync)
        push_cast at this
        linarith
      · exact stop v h
    | succ M ih =>
      intro v g h1 h2
      by_cases h : (0 < P.sync ∧ v.sync < c.a) ∨ v.osc < c.a
      · apply go v h
        have gc := good_convolute c hP g
        by_cases s : 0 < P.sync ∧ v.sync < v.osc
        · obtain ⟨M', hM⟩ := exists_nat_gt ((c.a - (v.convolute c P).1.osc) / (P.t * 0.000002))
          refine ihN M' _ gc.1 (fun p' => ?_) (by rw [div_lt_iff₀ δ] at hM; exact hM.le)
          have : (v.convolute c P).1.sync = max 0 (v.sync + P.tSync) := by
            show (v.next P).sync = _
            unfold SupVoice.next; rw [if_pos s]
          rw [this]
          have := h1 s.1
          have m := le_max_right 0 (v.sync + P.tSync)
          push_cast at this
          linarith
        · have : v.next P = v := by unfold SupVoice.next; rw [if_neg s]
          refine ih _ gc.1 (fun p => ?_) ?_
          · show c.a - (v.next P).sync ≤ _
            rw [this]; exact h1 p
          · have e := gc.2
            have : (v.convolute c P).2.pos = v.osc := by show (v.next P).osc = _; rw [this]
            rw [this] at e
            push_cast at h2; linarith
      · exact stop v h

/-- Where an impulse goes. -/
structure Spec.Placed (c : SupCfg) (h : Hit) : Prop where
  inside : 0 ≤ h.pos ∧ h.pos < c.a
  delay : h.pulse.delay < 64
  row : ∃ r < 256, h.pulse.m = 24 * r ∧ 0 ≤ h.pos * c.inv - (h.pulse.delay + r / 256 + h.pulse.lip / 2 ^ 24) ∧ h.pos * c.inv - (h.pulse.delay + r / 256 + h.pulse.lip / 2 ^ 24) < 1 / 2 ^ 24

theorem placed {c : SupCfg} (hc : Spec.CfgOk c) {P : SupPar} (hP : Spec.SupOk P) {v : SupVoice} (g : Good v) (h : (0 < P.sync ∧ v.sync < c.a) ∨ v.osc < c.a) : Spec.Placed c (v.convolute c P).2 := by
  have i := next_inside h
  have o := (good_next hP g).osc
  obtain ⟨a0, ai⟩ := hc
  have inv0 : 0 < c.inv := by
    by_contra n
    push Not at n
    nlinarith
  refine ⟨⟨o, i⟩, Nat.mod_lt _ (by decide), toU32 (2 ^ 24 * ((v.next P).osc * c.inv)) / 2 ^ 16 % 256, Nat.mod_lt _ (by decide), by show _ * 24 = _; ring, ?_⟩
  set x := (v.next P).osc * c.inv with hx
  have x0 : 0 ≤ x := by positivity
  have x1 : x < 64 := by rw [← ai]; exact mul_lt_mul_of_pos_right i inv0
  have y0 : (0 : ℝ) ≤ 2 ^ 24 * x := by positivity
  have f1 := Nat.floor_le y0
  have f2 := Nat.lt_floor_add_one ((2 : ℝ) ^ 24 * x)
  have f3 : ⌊(2 : ℝ) ^ 24 * x⌋₊ < 2 ^ 30 := by
    rw [Nat.floor_lt y0]
    push_cast
    nlinarith
  have u : toU32 (2 ^ 24 * x) = ⌊(2 : ℝ) ^ 24 * x⌋₊ := min_eq_left (by omega)
  show 0 ≤ x - ((((toU32 (2 ^ 24 * x)) / 2 ^ 24 % 64 : ℕ) : ℝ) + (((toU32 (2 ^ 24 * x)) / 2 ^ 16 % 256 : ℕ) : ℝ) / 256 + (((toU32 (2 ^ 24 * x)) % 2 ^ 16 : ℕ) : ℝ) / 2 ^ 24) ∧
    x - ((((toU32 (2 ^ 24 * x)) / 2 ^ 24 % 64 : ℕ) : ℝ) + (((toU32 (2 ^ 24 * x)) / 2 ^ 16 % 256 : ℕ) : ℝ) / 256 + (((toU32 (2 ^ 24 * x)) % 2 ^ 16 : ℕ) : ℝ) / 2 ^ 24) < 1 / 2 ^ 24
  rw [u]
  generalize ⌊(2 : ℝ) ^ 24 * x⌋₊ = k at *
  have dec : k = k / 2 ^ 24 % 64 * 2 ^ 24 + k / 2 ^ 16 % 256 * 2 ^ 16 + k % 2 ^ 16 := by omega
  have decr : (k : ℝ) = ((k / 2 ^ 24 % 64 : ℕ) : ℝ) * 2 ^ 24 + ((k / 2 ^ 16 % 256 : ℕ) : ℝ) * 2 ^ 16 + ((k % 2 ^ 16 : ℕ) : ℝ) := by exact_mod_cast dec
  constructor
  · linarith
  · linarith

theorem fill_good {c : SupCfg} (hc : Spec.CfgOk c) {P : SupPar} (hP : Spec.SupOk P) : ∀ {n : ℕ} {v w : SupVoice} {hs : List Hit}, Good v → v.fill c P n = some (w, hs) →
    Good w ∧ c.a ≤ w.osc ∧ (0 < P.sync → c.a ≤ w.sync) ∧ ∀ h ∈ hs, Spec.Placed c h
  | 0, v, w, hs, _, e => by simp [SupVoice.fill] at e
  | n + 1, v, w, hs, g, e => by
    rw [SupVoice.fill] at e
    split at e
    · rename_i cc
      obtain ⟨⟨w', hs'⟩, e1, e2⟩ := Option.map_eq_some_iff.1 e
      obtain ⟨rfl, rfl⟩ := Prod.mk.inj e2
      obtain ⟨a, b, d, r⟩ := fill_good hc hP (good_convolute c hP g).1 e1
      refine ⟨a, b, d, fun h hh => ?_⟩
      rcases List.mem_cons.1 hh with rfl | hh
      · exact placed hc hP g cc
      · exact r h hh
    · rename_i cc
      injection e with e
      obtain ⟨rfl, rfl⟩ := Prod.mk.inj e
      push Not at cc
      exact ⟨g, cc.2, fun p => cc.1 p, by simp⟩

theorem good_advance {c : SupCfg} {P : SupPar} {w : SupVoice} (g : Good w) (h1 : c.a ≤ w.osc) (h2 : 0 < P.sync → c.a ≤ w.sync) : Good (w.advance c P) := by
  refine ⟨g.state, ?_, ?_, g.pw, g.pw2⟩
  · show 0 ≤ w.osc - c.a; linarith
  · show 0 ≤ if 0 < P.sync then w.sync - c.a else w.sync
    split
    · rename_i p; have := h2 p; linarith
    · exact g.sync

theorem run_good {c : ℕ → SupCfg} {P : ℕ → SupPar} {V : ℕ → SupVoice} {H : ℕ → List Hit} (hc : ∀ t, Spec.CfgOk (c t)) (hP : ∀ t, Spec.SupOk (P t)) (h : Spec.SupRun c P V H) : ∀ t, Good (V t)
  | 0 => good_start h.start
  | t + 1 => by
    obtain ⟨n, w, e, e2⟩ := h.step t
    obtain ⟨a, b, d, _⟩ := fill_good (hc t) (hP t) (run_good hc hP h t) e
    rw [e2]; exact good_advance a b d

/-- **C164 (termination)**: for every history of shapes, widths, sub levels, sync pitches, periods and pitches, every block of every voice ends. -/
theorem C164_terminates {c : ℕ → SupCfg} {P : ℕ → SupPar} (hc : ∀ t, Spec.CfgOk (c t)) (hP : ∀ t, Spec.SupOk (P t)) {v : SupVoice} (hv : Spec.SupStart v) :
    ∃ V H, V 0 = v ∧ Spec.SupRun c P V H := by
  classical
  have one : ∀ t (v : SupVoice), Good v → ∃ n x, v.fill (c t) (P t) n = some x := by
    intro t v g
    obtain ⟨N, hN⟩ := exists_nat_gt (((c t).a - v.sync) / (P t).tSync)
    obtain ⟨M, hM⟩ := exists_nat_gt (((c t).a - v.osc) / ((P t).t * 0.000002))
    rw [div_lt_iff₀ (hP t).tSync] at hN
    rw [div_lt_iff₀ (mul_pos (hP t).t (by norm_num))] at hM
    exact fill_ends (c t) (hP t) N M v g (fun _ => hN.le) hM.le
  let res : ℕ → SupVoice → SupVoice × List Hit := fun t v => if h : ∃ n x, v.fill (c t) (P t) n = some x then h.choose_spec.choose else (v, [])
  have res_spec : ∀ t v, Good v → ∃ n, v.fill (c t) (P t) n = some (res t v) := by
    intro t v g
    have h := one t v g
    refine ⟨h.choose, ?_⟩
    have e : res t v = h.choose_spec.choose := dif_pos h
    rw [e]; exact h.choose_spec.choose_spec
  let V : ℕ → SupVoice := fun t => Nat.rec v (fun t v => (res t v).1.advance (c t) (P t)) t
  have gV : ∀ t, Good (V t) := by
    intro t
    induction t with
    | zero => exact good_start hv
    | succ t ih =>
      obtain ⟨n, e⟩ := res_spec t (V t) ih
      obtain ⟨a, b, d, _⟩ := fill_good (hc t) (hP t) ih (w := (res t (V t)).1) (hs := (res t (V t)).2) e
      exact good_advance a b d
  refine ⟨V, fun t => (res t (V t)).2, rfl, hv, fun t => ?_⟩
  obtain ⟨n, e⟩ := res_spec t (V t) (gV t)
  exact ⟨n, (res t (V t)).1, e, rfl⟩

/-- **C164 (places)**: every impulse of every block lies in the block, at one of its 64 samples (so that C161 applies), and its sample, sinc row and fraction give its time in samples to within `2^-24`. -/
theorem C164_placed {c : ℕ → SupCfg} {P : ℕ → SupPar} {V : ℕ → SupVoice} {H : ℕ → List Hit} (hc : ∀ t, Spec.CfgOk (c t)) (hP : ∀ t, Spec.SupOk (P t)) (h : Spec.SupRun c P V H) (t : ℕ) :
    ∀ x ∈ H t, Spec.Placed (c t) x := by
  obtain ⟨n, w, e, _⟩ := h.step t
  exact (fill_good (hc t) (hP t) (run_good hc hP h t) e).2.2.2

/-- **C164 (refuted in absolute mode)**: when the period comes out below 0.1 it is set to 0 (get_t.rs 41-43), and then the block never ends, whatever else is set. -/
theorem C164_absolute_refuted {c : SupCfg} {P : SupPar} {inv ctr : ℝ → ℝ} {pitch sync detune : ℝ} (hs : inv (detune * inv pitch * 16 / 0.9443 + sync) < 0.1) (ht : P.t = getT inv ctr true pitch sync detune)
    {v : SupVoice} (ho : v.osc < c.a) (hc : 0 < c.a) (n : ℕ) : v.fill c P n = none := by
  have t0 : P.t = 0 := by rw [ht]; unfold getT; simp only [if_true]; rw [if_pos hs]
  induction n generalizing v with
  | zero => rfl
  | succ n ih =>
    rw [SupVoice.fill, if_pos (Or.inr ho), ih, Option.map_none]
    have i : (v.next P).osc < c.a := next_inside (Or.inr ho)
    show max 0 ((v.next P).osc + ((v.next P).impulse P).1.rate P.t) < c.a
    have : ((v.next P).impulse P).1.rate P.t = 0 := by
      unfold SupVoice.rate; rw [t0]; simp
    rw [this, add_zero]
    exact max_lt hc i

/-! ## Levels -/

/-- The ranges of the level in the four states. -/
def Range (v : SupVoice) : Prop :=
  match v.state with
  | 0 => True
  | 1 => -(2 * (v.pw * v.pw2)) ≤ v.last ∧ v.last ≤ 1
  | 2 => -1 - 2 * (v.pw * v.pw2 + (1 - v.pw) * (2 - v.pw2)) ≤ v.last ∧ v.last ≤ 2
  | _ => -1 - 2 * (v.pw * v.pw2 + (1 - v.pw) * (2 - v.pw2) + v.pw * (2 - v.pw2)) ≤ v.last ∧ v.last ≤ 3

/-- The wave of the jumps so far, as the voice knows it: it is at `cur` at phase `ph`, and falls with slope `s`. -/
def Link (v : SupVoice) (A cur ph s : ℝ) : Prop := v.last = cur - s * (A + v.osc - ph) ∧ v.dc = s

theorem range_next {P : SupPar} {v : SupVoice} (h : Range v) : Range (v.next P) := by
  unfold SupVoice.next
  split
  · exact trivial
  · exact h

theorem link_next {P : SupPar} {v : SupVoice} {A cur ph s : ℝ} (h : Link v A cur ph s) : Link (v.next P) A cur ph s := by
  unfold SupVoice.next
  split
  · obtain ⟨h1, h2⟩ := h
    refine ⟨?_, h2⟩
    show v.last + v.dc * (v.osc - v.sync) = _
    rw [h1, h2]; ring
  · exact h

/-- The ramp after an impulse. -/
theorem ramp {P : SupPar} (hP : Spec.SupOk P) {v : SupVoice} (g : Good v) : ∃ w, 0 ≤ w ∧ ((v.impulse P).1.rate P.t = P.t * w) ∧
    (v.impulse P).1.last = v.last + (v.impulse P).2 - w * ((1 + P.wf) * (1 - P.sub)) := by
  obtain ⟨_, _, w1, w2, w3, w4⟩ := impulse_widths hP g
  have a := g.state
  obtain ⟨st, osc, sync, last, dc, pw, pw2⟩ := v
  simp only at a
  have z1 : (0 : ℝ) ≤ 0.001 := by norm_num
  have z2 : (0 : ℝ) ≤ 0.002 := by norm_num
  rcases (by omega : st = 0 ∨ st = 1 ∨ st = 2 ∨ st = 3) with rfl | rfl | rfl | rfl
  · refine ⟨P.pw * (2 * P.pw2), mul_nonneg (z1.trans w1) (z2.trans w3), ?_, ?_⟩
    · simp [SupVoice.rate, SupVoice.impulse]; ring
    · simp only [SupVoice.impulse]; ring
  · refine ⟨(1 - pw) * (2 - pw2), mul_nonneg ?_ ?_, ?_, ?_⟩
    · have : pw ≤ 0.999 := w2
      linarith
    · have : pw2 ≤ 1.998 := w4
      linarith
    · simp [SupVoice.rate, SupVoice.impulse]; ring
    · simp only [SupVoice.impulse]; ring
  · refine ⟨pw * (2 - pw2), mul_nonneg (z1.trans w1) ?_, ?_, ?_⟩
    · have : pw2 ≤ 1.998 := w4
      linarith
    · simp [SupVoice.rate, SupVoice.impulse]; ring
    · simp only [SupVoice.impulse]; ring
  · refine ⟨(1 - pw) * pw2, mul_nonneg ?_ (z2.trans w3), ?_, ?_⟩
    · have : pw ≤ 0.999 := w2
      linarith
    · simp [SupVoice.rate, SupVoice.impulse]; ring
    · simp only [SupVoice.impulse]; ring

/-- One impulse: the new level, and that the voice goes on knowing the wave. -/
theorem link_convolute (c : SupCfg) {P : SupPar} (hP : Spec.SupOk P) {v : SupVoice} (g : Good v) {A cur ph s : ℝ} (h : Link v A cur ph s) :
    cur - s * (A + (v.convolute c P).2.pos - ph) + (v.convolute c P).2.g = (v.next P).last + (v.convolute c P).2.g ∧
    Link (v.convolute c P).1 A ((v.next P).last + (v.convolute c P).2.g) (A + (v.convolute c P).2.pos) (v.convolute c P).2.slope := by
  have hn := link_next (P := P) h
  have gn := good_next hP g
  refine ⟨?_, ?_, rfl⟩
  · show cur - s * (A + (v.next P).osc - ph) + _ = _
    rw [hn.1]
  · obtain ⟨w, w0, e1, e2⟩ := ramp hP gn
    show ((v.next P).impulse P).1.last = (v.next P).last + ((v.next P).impulse P).2 - P.tInv * (1 + P.wf) * (1 - P.sub) * (A + max 0 ((v.next P).osc + ((v.next P).impulse P).1.rate P.t) - (A + (v.next P).osc))
    have o := gn.osc
    have t0 := hP.t
    rw [e1, max_eq_right (by positivity), e2]
    linear_combination ((1 + P.wf) * (1 - P.sub) * w) * hP.inv

/-- A product of the ramp with the slope of the shape. -/
theorem ramp_le {P : SupPar} (hP : Spec.SupOk P) : 0 ≤ (1 + P.wf) * (1 - P.sub) ∧ (1 + P.wf) * (1 - P.sub) ≤ 2 := by
  obtain ⟨a, b⟩ := hP.wf
  obtain ⟨d, e⟩ := hP.sub
  constructor
  · exact mul_nonneg (by linarith) (by linarith)
  · nlinarith

/-- One impulse: the level after it lies in `[-6, 4]`, and the ranges go on holding. -/
theorem range_convolute (c : SupCfg) {P : SupPar} (hP : Spec.SupOk P) {v : SupVoice} (g : Good v) (h : Range v) :
    Range (v.convolute c P).1 ∧ -6 ≤ (v.next P).last + (v.convolute c P).2.g ∧ (v.next P).last + (v.convolute c P).2.g ≤ 4 := by
  have gn := good_next hP g
  have rn := range_next (P := P) h
  have wd := impulse_widths hP gn
  obtain ⟨q0, q1⟩ := ramp_le hP
  obtain ⟨a1, a2⟩ := hP.wf
  obtain ⟨b1, b2⟩ := hP.sub
  obtain ⟨p1, p2⟩ := hP.pw
  obtain ⟨p3, p4⟩ := hP.pw2
  generalize eN : v.next P = u at *
  unfold SupVoice.convolute
  rw [eN]
  obtain ⟨st, osc, sync, last, dc, pw, pw2⟩ := u
  have a := gn.state
  simp only at a
  obtain ⟨_, _, w1, w2, w3, w4⟩ := wd
  rcases (by omega : st = 0 ∨ st = 1 ∨ st = 2 ∨ st = 3) with rfl | rfl | rfl | rfl
  · simp only [SupVoice.impulse, Range, Nat.zero_add, Nat.reduceMod]
    have tg0 : 0 ≤ ((1 + P.wf) * 0.5 + (1 - P.pw) * (-P.wf)) * (1 - P.sub) + 0.5 * P.sub * (2 - 2 * P.pw2) := by
      have e : (1 + P.wf) * 0.5 + (1 - P.pw) * (-P.wf) = P.pw * ((1 + P.wf) / 2) + (1 - P.pw) * ((1 - P.wf) / 2) := by ring
      rw [e]
      have : 0 ≤ P.pw * ((1 + P.wf) / 2) + (1 - P.pw) * ((1 - P.wf) / 2) := add_nonneg (mul_nonneg (by linarith) (by linarith)) (mul_nonneg (by linarith) (by linarith))
      exact add_nonneg (mul_nonneg this (by linarith)) (mul_nonneg (by linarith) (by linarith))
    have tg1 : ((1 + P.wf) * 0.5 + (1 - P.pw) * (-P.wf)) * (1 - P.sub) + 0.5 * P.sub * (2 - 2 * P.pw2) ≤ 1 := by
      have e : (1 + P.wf) * 0.5 + (1 - P.pw) * (-P.wf) = P.pw * ((1 + P.wf) / 2) + (1 - P.pw) * ((1 - P.wf) / 2) := by ring
      rw [e]
      have : P.pw * ((1 + P.wf) / 2) + (1 - P.pw) * ((1 - P.wf) / 2) ≤ 1 := by nlinarith
      nlinarith
    generalize ((1 + P.wf) * 0.5 + (1 - P.pw) * (-P.wf)) * (1 - P.sub) + 0.5 * P.sub * (2 - 2 * P.pw2) = tg at *
    have ww : 0 ≤ P.pw * (2 * P.pw2) := mul_nonneg (by linarith) (by linarith)
    have m := mul_le_mul_of_nonneg_left q1 ww
    have m0 := mul_nonneg ww q0
    refine ⟨⟨?_, ?_⟩, ?_, ?_⟩ <;> linarith
  · simp only [SupVoice.impulse, Range, Nat.reduceAdd, Nat.reduceMod] at rn w1 w2 w3 w4 ⊢
    have ww : 0 ≤ (1 - pw) * (2 - pw2) := mul_nonneg (by linarith) (by linarith)
    have wu : pw * pw2 ≤ 2 := by nlinarith
    have m := mul_le_mul_of_nonneg_left q1 ww
    have m0 := mul_nonneg ww q0
    have gr : -1 ≤ P.wf * (1 - P.sub) - P.sub ∧ P.wf * (1 - P.sub) - P.sub ≤ 1 := by constructor <;> nlinarith
    obtain ⟨r1, r2⟩ := rn
    obtain ⟨g1, g2⟩ := gr
    refine ⟨⟨?_, ?_⟩, ?_, ?_⟩ <;> linarith
  · simp only [SupVoice.impulse, Range, Nat.reduceAdd, Nat.reduceMod] at rn w1 w2 w3 w4 ⊢
    have ww : 0 ≤ pw * (2 - pw2) := mul_nonneg (by linarith) (by linarith)
    have wu : pw * pw2 + (1 - pw) * (2 - pw2) ≤ 2 := by nlinarith
    have m := mul_le_mul_of_nonneg_left q1 ww
    have m0 := mul_nonneg ww q0
    obtain ⟨r1, r2⟩ := rn
    refine ⟨⟨?_, ?_⟩, ?_, ?_⟩ <;> linarith
  · simp only [SupVoice.impulse, Range, Nat.reduceAdd, Nat.reduceMod] at rn w1 w2 w3 w4 ⊢
    have ww : 0 ≤ (1 - pw) * pw2 := mul_nonneg (by linarith) (by linarith)
    have wu : pw * pw2 + (1 - pw) * (2 - pw2) + pw * (2 - pw2) ≤ 2 := by nlinarith
    have gr : -1 ≤ P.wf * (1 - P.sub) + P.sub ∧ P.wf * (1 - P.sub) + P.sub ≤ 1 := by constructor <;> nlinarith
    obtain ⟨r1, r2⟩ := rn
    obtain ⟨g1, g2⟩ := gr
    refine ⟨trivial, ?_, ?_⟩ <;> linarith

/-- A block: all its levels, and where they leave the voice. -/
theorem fill_levels {c : SupCfg} {P : SupPar} (hP : Spec.SupOk P) {A : ℝ} : ∀ {n : ℕ} {v w : SupVoice} {hs : List Hit} {cur ph s : ℝ}, Good v → Range v → Link v A cur ph s → v.fill c P n = some (w, hs) →
    ∃ cur' ph' s', Range w ∧ Link w A cur' ph' s' ∧ ∀ rest, ∃ ls, Spec.levels cur ph s (hs.map (fun h => (A + h.pos, h.g, h.slope)) ++ rest) = ls ++ Spec.levels cur' ph' s' rest ∧ ∀ l ∈ ls, -6 ≤ l ∧ l ≤ 4
  | 0, v, w, hs, cur, ph, s, _, _, _, e => by simp [SupVoice.fill] at e
  | n + 1, v, w, hs, cur, ph, s, g, r, k, e => by
    rw [SupVoice.fill] at e
    split at e
    · obtain ⟨⟨w', hs'⟩, e1, e2⟩ := Option.map_eq_some_iff.1 e
      obtain ⟨rfl, rfl⟩ := Prod.mk.inj e2
      obtain ⟨l1, l2⟩ := link_convolute c hP g k
      obtain ⟨r1, r2, r3⟩ := range_convolute c hP g r
      obtain ⟨cur', ph', s', a, b, d⟩ := fill_levels hP (good_convolute c hP g).1 r1 l2 e1
      refine ⟨cur', ph', s', a, b, fun rest => ?_⟩
      obtain ⟨ls, e3, e4⟩ := d rest
      refine ⟨((v.next P).last + (v.convolute c P).2.g) :: ls, ?_, ?_⟩
      · simp only [List.map_cons, List.cons_append, Spec.levels, l1]
        rw [e3]
      · intro l hl
        rcases List.mem_cons.1 hl with rfl | hl
        · exact ⟨r2, r3⟩
        · exact e4 l hl
    · injection e with e
      obtain ⟨rfl, rfl⟩ := Prod.mk.inj e
      exact ⟨cur, ph, s, r, k, fun rest => ⟨[], rfl, by simp⟩⟩

theorem trace_levels {c : ℕ → SupCfg} {P : ℕ → SupPar} {V : ℕ → SupVoice} {H : ℕ → List Hit} (hc : ∀ t, Spec.CfgOk (c t)) (hP : ∀ t, Spec.SupOk (P t)) (h : Spec.SupRun c P V H) :
    ∀ (T t : ℕ) {A cur ph s : ℝ}, Range (V t) → Link (V t) A cur ph s → ∀ l ∈ Spec.levels cur ph s (Spec.traceFrom c H t A T), -6 ≤ l ∧ l ≤ 4
  | 0, t, A, cur, ph, s, _, _ => by simp [Spec.traceFrom, Spec.levels]
  | T + 1, t, A, cur, ph, s, r, k => by
    obtain ⟨n, w, e, e2⟩ := h.step t
    obtain ⟨cur', ph', s', a, b, d⟩ := fill_levels (hP t) (run_good hc hP h t) r k e
    obtain ⟨ls, e3, e4⟩ := d (Spec.traceFrom c H (t + 1) (A + (c t).a) T)
    rw [Spec.traceFrom, e3]
    intro l hl
    rcases List.mem_append.1 hl with hl | hl
    · exact e4 l hl
    · refine trace_levels hc hP h T (t + 1) ?_ ?_ l hl
      · rw [e2]; exact a
      · rw [e2]
        refine ⟨?_, b.2⟩
        show w.last = cur' - s' * (A + (c t).a + (w.osc - (c t).a) - ph')
        rw [b.1]; ring

/-- **C163**: for every history of shapes, widths, sub levels, sync pitches, periods and pitches, with or without sync, for any length of time: the wave made of the impulses (as jumps) and of the straight
lines the slope draws between them stays between `-6` and `4`: jumps and slope balance exactly, there is no drift. -/
theorem C163_no_drift {c : ℕ → SupCfg} {P : ℕ → SupPar} {V : ℕ → SupVoice} {H : ℕ → List Hit} (hc : ∀ t, Spec.CfgOk (c t)) (hP : ∀ t, Spec.SupOk (P t)) (h : Spec.SupRun c P V H) (T : ℕ) :
    ∀ l ∈ Spec.levels (V 0).last 0 0 (Spec.trace c H T), -6 ≤ l ∧ l ≤ 4 := by
  refine trace_levels hc hP h T 0 ?_ ⟨?_, h.start.dc⟩
  · unfold Range; rw [h.start.state]; trivial
  · ring

/-! ## The period -/

/-- Where in its double period (of length 2) a voice with the latched widths `w`, `w2` has its impulse `j`. -/
noncomputable def Spec.place (w w2 : ℝ) (j : ℕ) : ℝ :=
  match j with
  | 0 => 0
  | 1 => w * w2
  | 2 => w * w2 + (1 - w) * (2 - w2)
  | _ => 2 - (1 - w) * w2

/-- The impulses from number `i` on: those whose number is a multiple of 4 come exactly `2 T` apart. -/
def Timed (x0 T : ℝ) (i : ℕ) (l : List (ℝ × ℝ × ℝ)) : Prop := ∀ j h, (i + j) % 4 = 0 → (l[j]'h).1 = x0 + 2 * T * ((i + j) / 4 : ℕ)

/-- After `i` impulses. -/
def Clock (v : SupVoice) (A x0 T : ℝ) (i : ℕ) : Prop := v.state = i % 4 ∧ A + v.osc = x0 + 2 * T * (i / 4 : ℕ) + T * Spec.place v.pw v.pw2 (i % 4)

theorem clock_convolute (c : SupCfg) {P : SupPar} (hP : Spec.SupOk P) (hs : P.sync ≤ 0) {v : SupVoice} (g : Good v) {A x0 : ℝ} {i : ℕ} (k : Clock v A x0 P.t i) :
    Clock (v.convolute c P).1 A x0 P.t (i + 1) ∧ (i % 4 = 0 → A + (v.convolute c P).2.pos = x0 + 2 * P.t * (i / 4 : ℕ)) := by
  have e : v.next P = v := by unfold SupVoice.next; rw [if_neg]; rintro ⟨h, _⟩; linarith
  obtain ⟨k1, k2⟩ := k
  have o := g.osc
  obtain ⟨w, w0, e1, e2⟩ := ramp hP g
  have t0 := hP.t
  have on : (v.convolute c P).1.osc = v.osc + (v.impulse P).1.rate P.t := by
    show max 0 ((v.next P).osc + ((v.next P).impulse P).1.rate P.t) = _
    rw [e, e1]; exact max_eq_right (by positivity)
  refine ⟨⟨?_, ?_⟩, ?_⟩
  · show ((v.next P).state + 1) % 4 = _
    rw [e, k1]; omega
  · rw [on]
    have p1 : (v.convolute c P).1.pw = (v.impulse P).1.pw := by show ((v.next P).impulse P).1.pw = _; rw [e]
    have p2 : (v.convolute c P).1.pw2 = (v.impulse P).1.pw2 := by show ((v.next P).impulse P).1.pw2 = _; rw [e]
    rw [p1, p2]
    obtain ⟨st, osc, sync, last, dc, pw, pw2⟩ := v
    simp only at k1 k2
    rcases (by omega : i % 4 = 0 ∨ i % 4 = 1 ∨ i % 4 = 2 ∨ i % 4 = 3) with r | r | r | r
    · have q : (i + 1) / 4 = i / 4 := by omega
      have q' : (i + 1) % 4 = 1 := by omega
      rw [r] at k1 k2; subst k1
      rw [q, q', ← add_assoc, k2]
      simp [SupVoice.rate, SupVoice.impulse, Spec.place]; ring
    · have q : (i + 1) / 4 = i / 4 := by omega
      have q' : (i + 1) % 4 = 2 := by omega
      rw [r] at k1 k2; subst k1
      rw [q, q', ← add_assoc, k2]
      simp [SupVoice.rate, SupVoice.impulse, Spec.place]; ring
    · have q : (i + 1) / 4 = i / 4 := by omega
      have q' : (i + 1) % 4 = 3 := by omega
      rw [r] at k1 k2; subst k1
      rw [q, q', ← add_assoc, k2]
      simp [SupVoice.rate, SupVoice.impulse, Spec.place]; ring
    · have q : (i + 1) / 4 = i / 4 + 1 := by omega
      have q' : (i + 1) % 4 = 0 := by omega
      rw [r] at k1 k2; subst k1
      rw [q, q', ← add_assoc, k2]
      simp [SupVoice.rate, SupVoice.impulse, Spec.place]; ring
  · intro r
    show A + (v.next P).osc = _
    rw [e, k2, r]
    simp [Spec.place]

theorem timed_cons {x0 T : ℝ} {i : ℕ} {x : ℝ × ℝ × ℝ} {l : List (ℝ × ℝ × ℝ)} (h : i % 4 = 0 → x.1 = x0 + 2 * T * (i / 4 : ℕ)) (hl : Timed x0 T (i + 1) l) : Timed x0 T i (x :: l) := by
  intro j hj hm
  cases j with
  | zero => exact h hm
  | succ j =>
    have e : i + (j + 1) = i + 1 + j := by omega
    rw [e] at hm ⊢
    simpa using hl j (by simpa using hj) hm

theorem fill_timed {c : SupCfg} {P : SupPar} (hP : Spec.SupOk P) (hs : P.sync ≤ 0) {A x0 : ℝ} : ∀ {n : ℕ} {v w : SupVoice} {l : List Hit} {i : ℕ}, Good v → Clock v A x0 P.t i → v.fill c P n = some (w, l) →
    Clock w A x0 P.t (i + l.length) ∧ ∀ rest, Timed x0 P.t (i + l.length) rest → Timed x0 P.t i (l.map (fun h => (A + h.pos, h.g, h.slope)) ++ rest)
  | 0, v, w, l, i, _, _, e => by simp [SupVoice.fill] at e
  | n + 1, v, w, l, i, g, k, e => by
    rw [SupVoice.fill] at e
    split at e
    · obtain ⟨⟨w', hs'⟩, e1, e2⟩ := Option.map_eq_some_iff.1 e
      obtain ⟨rfl, rfl⟩ := Prod.mk.inj e2
      obtain ⟨k1, k2⟩ := clock_convolute c hP hs g k
      obtain ⟨a, b⟩ := fill_timed hP hs (good_convolute c hP g).1 k1 e1
      have q : i + ((v.convolute c P).2 :: hs').length = i + 1 + hs'.length := by simp; omega
      rw [q]
      exact ⟨a, fun rest hr => timed_cons k2 (b rest hr)⟩
    · injection e with e
      obtain ⟨rfl, rfl⟩ := Prod.mk.inj e
      exact ⟨k, fun rest hr => hr⟩

theorem trace_timed {c : ℕ → SupCfg} {P : ℕ → SupPar} {V : ℕ → SupVoice} {H : ℕ → List Hit} (hc : ∀ t, Spec.CfgOk (c t)) (hP : ∀ t, Spec.SupOk (P t)) (hs : ∀ t, (P t).sync ≤ 0) {T : ℝ} (hT : ∀ t, (P t).t = T)
    (h : Spec.SupRun c P V H) {x0 : ℝ} : ∀ (N t : ℕ) {A : ℝ} {i : ℕ}, Clock (V t) A x0 T i → Timed x0 T i (Spec.traceFrom c H t A N)
  | 0, t, A, i, _ => by intro j hj; simp [Spec.traceFrom] at hj
  | N + 1, t, A, i, k => by
    obtain ⟨n, w, e, e2⟩ := h.step t
    obtain ⟨a, b⟩ := fill_timed (hP t) (hs t) (run_good hc hP h t) (by rw [hT]; exact k) e
    rw [hT] at a b
    rw [Spec.traceFrom]
    refine b _ (trace_timed hc hP hs hT h N (t + 1) ?_)
    rw [e2]
    refine ⟨a.1, ?_⟩
    show A + (c t).a + (w.osc - (c t).a) = x0 + 2 * T * ((i + (H t).length) / 4 : ℕ) + T * Spec.place w.pw w.pw2 ((i + (H t).length) % 4)
    rw [← a.2]; ring

/-- **C162**: without sync, the cycle of a voice takes exactly two periods, whatever the widths, the shape and the sub level do meanwhile: impulse number `4 k` comes at phase `2 T k` after the first. -/
theorem C162_period {c : ℕ → SupCfg} {P : ℕ → SupPar} {V : ℕ → SupVoice} {H : ℕ → List Hit} (hc : ∀ t, Spec.CfgOk (c t)) (hP : ∀ t, Spec.SupOk (P t)) (hs : ∀ t, (P t).sync ≤ 0) {T : ℝ} (hT : ∀ t, (P t).t = T)
    (h : Spec.SupRun c P V H) (N k : ℕ) (hk : 4 * k < (Spec.trace c H N).length) : ((Spec.trace c H N)[4 * k]).1 = (V 0).osc + 2 * T * k := by
  have cl : Clock (V 0) 0 (V 0).osc T 0 := ⟨h.start.state, by simp [Spec.place]⟩
  have := trace_timed hc hP hs hT h N 0 cl (4 * k) hk (by omega)
  have e : (0 + 4 * k) / 4 = k := by omega
  rw [e] at this
  exact this

/-- **C162 (refuted: the pitch)**: in the fresh tuning the period of an undetuned voice comes out as `1/1024` instead of 1 (`n2pinv_tuningctr` divides by the reference pitch instead of multiplying, C43),
and with it, by `C162_period`, the distance of the impulses: the oscillator sounds ten octaves too high. -/
theorem C162_pitch_refuted (inv : ℝ → ℝ) (pitch : ℝ) {ctr : ℝ → ℝ} (h : ∀ x, Tuning.n2pinvTuningCtr Tuning.Tuner.fresh (.fin 0) = .ok x → ctr 0 = x) : getT inv ctr false pitch 0 0 = 1 / 1024 := by
  have e : Tuning.n2pinvTuningCtr Tuning.Tuner.fresh (.fin 0) = .ok (1 / (32 : ℝ) ^ 2) := (Tuning.C43_tuning_centre_partial Tuning.Tuner.fresh (by simp [Tuning.Tuner.fresh, Tuning.Mapping.default])
    (by simp [Tuning.Tuner.fresh, Tuning.Mapping.default]) (by simp [Tuning.Tuner.fresh]) Tuning.fresh_reference (fun _ _ => rfl)).2
  have := h _ e
  unfold getT
  rw [if_neg (by decide), add_zero, this]
  norm_num

/-! ## The steady wave -/

/-- The level after impulse `j` of the cycle, at fixed parameters: a pulse of width `pw` mixed with a saw of slope `1 + wf` and the sub-oscillator. -/
noncomputable def Spec.steady (P : SupPar) (j : ℕ) : ℝ :=
  ((1 - P.wf) / 2 + P.wf * P.pw) * (1 - P.sub) + P.sub * (1 - P.pw2) +
    match j with
    | 0 => 0
    | 1 => P.wf * (1 - P.sub) - P.sub - Spec.place P.pw (2 * P.pw2) 1 * ((1 + P.wf) * (1 - P.sub))
    | 2 => (1 + P.wf) * (1 - P.sub) - P.sub - Spec.place P.pw (2 * P.pw2) 2 * ((1 + P.wf) * (1 - P.sub))
    | _ => (1 + 2 * P.wf) * (1 - P.sub) - Spec.place P.pw (2 * P.pw2) 3 * ((1 + P.wf) * (1 - P.sub))

/-- The level the voice remembers, at fixed parameters. -/
def Steady (P : SupPar) (v : SupVoice) : Prop := v.state ≠ 0 → v.pw = P.pw ∧ v.pw2 = 2 * P.pw2 ∧
  v.last + P.wf * (1 - P.sub) - P.sub = Spec.steady P 1 ∧ v.state = 1 ∨ v.pw = P.pw ∧ v.pw2 = 2 * P.pw2 ∧ v.last + (1 - P.sub) = Spec.steady P 2 ∧ v.state = 2 ∨
  v.pw = P.pw ∧ v.pw2 = 2 * P.pw2 ∧ v.last + P.wf * (1 - P.sub) + P.sub = Spec.steady P 3 ∧ v.state = 3

theorem steady_convolute (c : SupCfg) {P : SupPar} (hs : P.sync ≤ 0) {v : SupVoice} (hv : v.state < 4) (h : Steady P v) :
    Steady P (v.convolute c P).1 ∧ (v.next P).last + (v.convolute c P).2.g = Spec.steady P v.state := by
  have e : v.next P = v := by unfold SupVoice.next; rw [if_neg]; rintro ⟨h, _⟩; linarith
  unfold SupVoice.convolute
  rw [e]
  obtain ⟨st, osc, sync, last, dc, pw, pw2⟩ := v
  simp only at hv
  unfold Steady at h ⊢
  rcases (by omega : st = 0 ∨ st = 1 ∨ st = 2 ∨ st = 3) with rfl | rfl | rfl | rfl
  · simp only [SupVoice.impulse, Spec.steady, Spec.place]
    refine ⟨fun _ => Or.inl ⟨by trivial, by trivial, ?_, by trivial⟩, ?_⟩ <;> ring
  · simp only [ne_eq, one_ne_zero, not_false_eq_true, forall_const, Nat.reduceEqDiff, and_false, or_false, and_true] at h
    obtain ⟨h1, h2, h3⟩ := h
    subst h1 h2
    simp only [SupVoice.impulse, Spec.steady, Spec.place] at h3 ⊢
    refine ⟨fun _ => Or.inr (Or.inl ⟨by trivial, by trivial, ?_, by trivial⟩), ?_⟩ <;> linear_combination h3
  · simp only [ne_eq, OfNat.ofNat_ne_zero, not_false_eq_true, forall_const, Nat.reduceEqDiff, and_false, or_false, false_or, and_true, OfNat.ofNat_ne_one] at h
    obtain ⟨h1, h2, h3⟩ := h
    subst h1 h2
    simp only [SupVoice.impulse, Spec.steady, Spec.place] at h3 ⊢
    refine ⟨fun _ => Or.inr (Or.inr ⟨by trivial, by trivial, ?_, by trivial⟩), ?_⟩ <;> linear_combination h3
  · simp only [ne_eq, OfNat.ofNat_ne_zero, not_false_eq_true, forall_const, Nat.reduceEqDiff, and_false, or_false, false_or, and_true, OfNat.ofNat_ne_one] at h
    obtain ⟨h1, h2, h3⟩ := h
    subst h1 h2
    simp only [SupVoice.impulse, Spec.steady, Spec.place] at h3 ⊢
    refine ⟨fun n => absurd rfl n, ?_⟩
    linear_combination h3

theorem fill_steady {c : SupCfg} {P : SupPar} (hP : Spec.SupOk P) (hs : P.sync ≤ 0) {A x0 : ℝ} : ∀ {n : ℕ} {v w : SupVoice} {l : List Hit} {i : ℕ} {cur ph s : ℝ}, Good v → Steady P v → Link v A cur ph s → Clock v A x0 P.t i →
    v.fill c P n = some (w, l) → ∃ cur' ph' s', Steady P w ∧ Link w A cur' ph' s' ∧ ∀ rest, Spec.levels cur ph s (l.map (fun h => (A + h.pos, h.g, h.slope)) ++ rest) =
      (List.range l.length).map (fun j => Spec.steady P ((i + j) % 4)) ++ Spec.levels cur' ph' s' rest
  | 0, v, w, l, i, cur, ph, s, _, _, _, _, e => by simp [SupVoice.fill] at e
  | n + 1, v, w, l, i, cur, ph, s, g, st, k, cl, e => by
    rw [SupVoice.fill] at e
    split at e
    · obtain ⟨⟨w', hs'⟩, e1, e2⟩ := Option.map_eq_some_iff.1 e
      obtain ⟨rfl, rfl⟩ := Prod.mk.inj e2
      obtain ⟨l1, l2⟩ := link_convolute c hP g k
      obtain ⟨s1, s2⟩ := steady_convolute c hs g.state st
      obtain ⟨cur', ph', s', a, b, d⟩ := fill_steady hP hs (good_convolute c hP g).1 s1 l2 (clock_convolute c hP hs g cl).1 e1
      refine ⟨cur', ph', s', a, b, fun rest => ?_⟩
      simp only [List.map_cons, List.cons_append, Spec.levels, l1, d rest, List.length_cons, List.range_succ_eq_map, List.map_map]
      rw [s2, cl.1]
      congr 2
      refine List.map_congr_left fun j _ => ?_
      show Spec.steady P ((i + 1 + j) % 4) = Spec.steady P ((i + (j + 1)) % 4)
      congr 2; omega
    · injection e with e
      obtain ⟨rfl, rfl⟩ := Prod.mk.inj e
      exact ⟨cur, ph, s, st, k, fun rest => rfl⟩

theorem trace_steady {c : ℕ → SupCfg} {P : SupPar} {V : ℕ → SupVoice} {H : ℕ → List Hit} (hc : ∀ t, Spec.CfgOk (c t)) (hP : Spec.SupOk P) (hs : P.sync ≤ 0)
    (h : Spec.SupRun c (fun _ => P) V H) {x0 : ℝ} : ∀ (N t : ℕ) {A cur ph s : ℝ} {i : ℕ}, Steady P (V t) → Link (V t) A cur ph s → Clock (V t) A x0 P.t i →
    ∀ j (hj : j < (Spec.levels cur ph s (Spec.traceFrom c H t A N)).length), (Spec.levels cur ph s (Spec.traceFrom c H t A N))[j] = Spec.steady P ((i + j) % 4)
  | 0, t, A, cur, ph, s, i, _, _, _ => by intro j hj; simp [Spec.traceFrom, Spec.levels] at hj
  | N + 1, t, A, cur, ph, s, i, st, k, cl => by
    obtain ⟨n, w, e, e2⟩ := h.step t
    have g := run_good hc (fun _ => hP) h t
    obtain ⟨cur', ph', s', a, b, d⟩ := fill_steady hP hs g st k cl e
    obtain ⟨cl', _⟩ := fill_timed hP hs g cl e
    have ih := trace_steady hc hP hs h N (t + 1) (A := A + (c t).a) (cur := cur') (ph := ph') (s := s') (i := i + (H t).length) (by rw [e2]; exact a) (by
      rw [e2]; refine ⟨?_, b.2⟩
      show w.last = cur' - s' * (A + (c t).a + (w.osc - (c t).a) - ph')
      rw [b.1]; ring) (by
      rw [e2]
      refine ⟨cl'.1, ?_⟩
      show A + (c t).a + (w.osc - (c t).a) = x0 + 2 * P.t * ((i + (H t).length) / 4 : ℕ) + P.t * Spec.place w.pw w.pw2 ((i + (H t).length) % 4)
      rw [← cl'.2]; ring)
    have d' := d (Spec.traceFrom c H (t + 1) (A + (c t).a) N)
    intro j hj
    simp only [Spec.traceFrom, d'] at hj ⊢
    rw [List.getElem_append]
    split
    · simp
    · rename_i hlt
      simp only [List.length_map, List.length_range] at hlt
      have := ih (j - (H t).length) (by simp at hj; omega)
      simp only [List.length_map, List.length_range]
      rw [this]
      congr 2; omega

/-- **C163 (the wave)**: at fixed parameters and without sync the wave repeats exactly: after impulse `n` it stands at a level that depends on `n` modulo 4 alone. -/
theorem C163_steady {c : ℕ → SupCfg} {P : SupPar} {V : ℕ → SupVoice} {H : ℕ → List Hit} (hc : ∀ t, Spec.CfgOk (c t)) (hP : Spec.SupOk P) (hs : P.sync ≤ 0) (h : Spec.SupRun c (fun _ => P) V H) (N n : ℕ)
    (hn : n < (Spec.levels (V 0).last 0 0 (Spec.trace c H N)).length) : (Spec.levels (V 0).last 0 0 (Spec.trace c H N))[n] = Spec.steady P (n % 4) := by
  have := trace_steady hc hP hs h N 0 (A := 0) (cur := (V 0).last) (ph := 0) (s := 0) (i := 0) (x0 := (V 0).osc) (fun k => absurd h.start.state k) ⟨by ring, h.start.dc⟩ ⟨h.start.state, by simp [Spec.place]⟩ n hn
  rw [Nat.zero_add] at this
  exact this

/-- The steady square wave (shape -1, no sub): between `1 - pw` and `-pw`, so that its mean is 0. -/
example (pw pw2 t : ℝ) : Spec.steady ⟨-1, 0, pw, pw2, 0, t, 1 / t, 2 * t⟩ 0 = 1 - pw ∧ Spec.steady ⟨-1, 0, pw, pw2, 0, t, 1 / t, 2 * t⟩ 1 = -pw := by
  constructor <;> simp [Spec.steady] <;> ring

/-- The steady saw (shape 0, no sub, sub width one half): from 1/2 down to -1/2 within a period. -/
example (pw t : ℝ) : Spec.steady ⟨0, 0, pw, 1 / 2, 0, t, 1 / t, 2 * t⟩ 0 = 1 / 2 ∧ Spec.steady ⟨0, 0, pw, 1 / 2, 0, t, 1 / t, 2 * t⟩ 2 = 1 / 2 := by
  constructor <;> simp [Spec.steady, Spec.place] <;> ring

/-! ## All voices -/

/-- get_g.rs 177-192: attenuation and panning of the impulses of one voice. -/
noncomputable def scale (stereo : Bool) (att pl pr : ℝ) (h : Hit) : Pulse :=
  if stereo then ⟨h.pulse.delay, h.pulse.m, h.pulse.lip, h.pulse.gl * att * pl, h.pulse.gr * att * pr, h.pulse.dc⟩
  else ⟨h.pulse.delay, h.pulse.m, h.pulse.lip, h.pulse.gl * att, 0, h.pulse.dc⟩

/-- **C164 (all voices)**: with any number of voices, each with its own history, every block ends, none aborts, and the sound is the superposition of C161 of the impulses of all voices. -/
theorem C164_plays {n : ℕ} (table : ℕ → ℝ) (stereo : Bool) (k : ℕ → Coef) {c : ℕ → SupCfg} {P : Fin n → ℕ → SupPar} (att : ℝ) (pl pr : Fin n → ℝ) (hc : ∀ t, Spec.CfgOk (c t)) (hP : ∀ i t, Spec.SupOk (P i t))
    {v : Fin n → SupVoice} (hv : ∀ i, Spec.SupStart (v i)) : ∃ (V : Fin n → ℕ → SupVoice) (H : Fin n → ℕ → List Hit) (S : ℕ → Blit) (out : ℕ → List (ℝ × ℝ)),
    (∀ i, V i 0 = v i ∧ Spec.SupRun c (P i) (V i) (H i)) ∧
    Spec.BlitRun table stereo k (fun t => (List.finRange n).flatMap fun i => (H i t).map (scale stereo att (pl i) (pr i))) S out ∧
    ∀ t, (out t).map Prod.fst = (List.range 64).map (fun j => Spec.sound table k (fun t => (List.finRange n).flatMap fun i => (H i t).map (scale stereo att (pl i) (pr i))) Pulse.gl (64 * t + j + 1)) := by
  choose V H h0 hr using fun i => C164_terminates hc (hP i) (hv i)
  have hd : ∀ t, ∀ p ∈ (List.finRange n).flatMap (fun i => (H i t).map (scale stereo att (pl i) (pr i))), p.delay < 64 := by
    intro t p hp
    obtain ⟨i, _, hp⟩ := List.mem_flatMap.1 hp
    obtain ⟨h, hh, rfl⟩ := List.mem_map.1 hp
    have := (C164_placed hc (hP i) (hr i) t h hh).delay
    unfold scale
    split <;> exact this
  obtain ⟨S, out, hS⟩ := C161_total table stereo k hd
  exact ⟨V, H, S, out, fun i => ⟨h0 i, hr i⟩, hS, fun t => (C161_superposition hd hS t).1⟩

/-- Non-vacuity: the default settings at any pitch below the sample rate, from a fresh note. -/
example : Spec.SupOk ⟨0, 0, 0.5, 0.5, 0, 1, 1, 2⟩ ∧ Spec.SupOk ⟨-1, 0.3, 0.1, 0.9, 7, 1 / 2, 2, 2⟩ ∧ Spec.CfgOk ⟨64 * (1 / 200), 200⟩ ∧ Spec.SupStart ⟨0, 0, 0, -0.4, 0, 0.5, 0⟩ := by
  refine ⟨⟨?_, ?_, ?_, ?_, ?_, ?_, ?_⟩, ⟨?_, ?_, ?_, ?_, ?_, ?_, ?_⟩, ⟨?_, ?_⟩, ⟨?_, ?_, ?_, ?_⟩⟩ <;> norm_num

/-- Non-vacuity of the refutation: spread out by 12 semitones (extended range) at a low note, standard tuning's period `2^(-n/12)` falls below 0.1. -/
example : (2 : ℝ) ^ (-((12 : ℝ) * 2 ^ (-(0 : ℝ) / 12) * 16 / 0.9443 + 0) / 12) < 0.1 := by
  have e : (-((12 : ℝ) * 2 ^ (-(0 : ℝ) / 12) * 16 / 0.9443 + 0) / 12) ≤ -4 := by norm_num
  calc (2 : ℝ) ^ (-((12 : ℝ) * 2 ^ (-(0 : ℝ) / 12) * 16 / 0.9443 + 0) / 12) ≤ 2 ^ (-4 : ℝ) := Real.rpow_le_rpow_of_exponent_le (by norm_num) e
    _ < 0.1 := by rw [Real.rpow_neg (by norm_num)]; norm_num

end Verif.Osc
