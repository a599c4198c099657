import Verif.Osc.Wt
/-!
# The sample-and-hold oscillator (C171–C174), in exact real arithmetic

surgeosc-snh/src/{convolute,process,set_pitch,update}.rs.  The smoothed values, the periods (tuning, drift and detune) and the random numbers are given; they may do anything within their ranges.
Not modelled: rounding (the reciprocal `rcp` is exact here); the convolution kernel, loaded from a temporary of one float as in the wavetable oscillator; fm (a null read, C159).
-/
namespace Verif.Osc
open Verif

/-- What a voice sees in one block: `l_pw.v`, `l_shape.v`, `l_sync.v`, the period `t` (convolute.rs 68-84) and `n2pinv_tuningctr(detune)` (35), and the attenuation and panning. -/
structure SnhPar where
  pw : ℝ
  shape : ℝ
  sync : ℝ
  t : ℝ
  tSync : ℝ
  att : ℝ
  panL : ℝ
  panR : ℝ

/-- One voice: `state`, `oscstate`, `syncstate`, `last_level`, `pwidth`; `draws` counts the random numbers used. -/
structure SnhVoice where
  state : ℕ
  osc : ℝ
  sync : ℝ
  last : ℝ
  pw : ℝ
  draws : ℕ

/-- convolute.rs 31-45: the sync.  (It is not asked whether sync is on.) -/
noncomputable def SnhVoice.next (P : SnhPar) (v : SnhVoice) : SnhVoice :=
  if v.sync < v.osc then ⟨0, v.sync, v.sync + P.tSync, v.last, v.pw, v.draws⟩ else v

/-- convolute.rs 29, 37-39: the sign of the correlation. -/
noncomputable def SnhVoice.invert (v : SnhVoice) : ℝ := if v.sync < v.osc ∧ v.state = 1 then -1 else 1

/-- convolute.rs 88-95: the level drawn. -/
noncomputable def draw (shape invert last rand : ℝ) : ℝ :=
  let wf := shape * 0.8 * invert
  min 0.5 (max (-0.5) ((rand * (1 - |wf|) - wf * last) * (1 / (1 - |wf|))))

/-- convolute.rs 10-178 `convolute` (without fm). -/
noncomputable def SnhVoice.convolute (rand : ℕ → ℝ) (c : SupCfg) (P : SnhPar) (stereo : Bool) (v : SnhVoice) : SnhVoice × Hit :=
  let w := v.next P
  let ipos := toU32 (2 ^ 24 * (w.osc * c.inv))
  let level := draw P.shape v.invert v.last (rand v.draws)
  let pw := if w.state = 0 then P.pw else w.pw
  let g := (level - v.last) * P.att
  let gl := if stereo then g * P.panL else g
  let gr := if stereo then g * P.panR else 0
  let rate := if w.state % 2 ≠ 0 then P.t * (1 - pw) else P.t * pw
  (⟨(w.state + 1) % 2, max 0 (w.osc + rate), w.sync, level, pw, v.draws + 1⟩, ⟨w.osc, level - v.last, 0, ⟨ipos / 2 ^ 24 % 64, ipos / 2 ^ 16 % 256 * 24, (ipos % 2 ^ 16 : ℕ), gl, gr, 0⟩⟩)

/-- process.rs 73-80: the loop; `none` is a loop that has not ended within the given number of rounds. -/
noncomputable def SnhVoice.fill (rand : ℕ → ℝ) (c : SupCfg) (P : SnhPar) (stereo : Bool) : ℕ → SnhVoice → Option (SnhVoice × List Hit)
  | 0, _ => none
  | n + 1, v =>
    if v.sync < c.a ∨ v.osc < c.a then
      ((v.convolute rand c P stereo).1.fill rand c P stereo n).map fun x => (x.1, (v.convolute rand c P stereo).2 :: x.2)
    else some (v, [])

/-- process.rs 82-86: take off what the block has covered; from the sync phase only if sync is on. -/
noncomputable def SnhVoice.advance (c : SupCfg) (P : SnhPar) (v : SnhVoice) : SnhVoice :=
  ⟨v.state, v.osc - c.a, if P.sync > 0 then v.sync - c.a else v.sync, v.last, v.pw, v.draws⟩

/-- convolute.rs 16-21: the detune of a voice.  `count` and `spread` are the values of the parameters UniCount and UniSpread. -/
noncomputable def snhDetune (drift lfo count spread bias offset : ℝ) (voices voice : ℕ) : ℝ :=
  if voices > 1 then drift * lfo + count * (bias * voice + offset) else drift * lfo

/-! ## Specification -/

/-- The range of update.rs 14 and positive periods. -/
structure Spec.SnhOk (P : SnhPar) : Prop where
  pw : 0.001 ≤ P.pw ∧ P.pw ≤ 0.999
  t : 0 < P.t
  tSync : 0 < P.tSync

/-- A voice as set_pitch.rs 17-61 leaves it. -/
structure Spec.SnhStart (v : SnhVoice) : Prop where
  state : v.state = 0
  osc : 0 ≤ v.osc
  sync : v.sync = v.osc
  last : v.last = 0
  pw : 0.001 ≤ v.pw ∧ v.pw ≤ 0.999

/-- The life of a voice. -/
structure Spec.SnhRun (rand : ℕ → ℝ) (c : ℕ → SupCfg) (P : ℕ → SnhPar) (stereo : Bool) (V : ℕ → SnhVoice) (H : ℕ → List Hit) : Prop where
  start : Spec.SnhStart (V 0)
  step : ∀ t, ∃ n w, (V t).fill rand (c t) (P t) stereo n = some (w, H t) ∧ V (t + 1) = w.advance (c t) (P t)

/-! ## Termination -/

/-- What holds between impulses. -/
structure SnhGood (v : SnhVoice) : Prop where
  state : v.state < 2
  osc : 0 ≤ v.osc
  sync : 0 ≤ v.sync
  pw : 0.001 ≤ v.pw ∧ v.pw ≤ 0.999

theorem snh_next {P : SnhPar} (hP : Spec.SnhOk P) {v : SnhVoice} (g : SnhGood v) : SnhGood (v.next P) := by
  unfold SnhVoice.next
  split
  · refine ⟨by show 0 < 2; decide, g.sync, ?_, g.pw⟩
    show 0 ≤ v.sync + P.tSync
    linarith [g.sync, hP.tSync]
  · exact g

theorem snh_convolute (rand : ℕ → ℝ) (c : SupCfg) {P : SnhPar} (hP : Spec.SnhOk P) (stereo : Bool) {v : SnhVoice} (g : SnhGood v) : SnhGood (v.convolute rand c P stereo).1 ∧
    (v.convolute rand c P stereo).2.pos = (v.next P).osc ∧ (v.convolute rand c P stereo).1.sync = (v.next P).sync ∧
    (v.convolute rand c P stereo).1.osc = (v.next P).osc + (if (v.next P).state = 0 then P.t * (v.convolute rand c P stereo).1.pw else P.t * (1 - (v.convolute rand c P stereo).1.pw)) ∧
    (v.next P).osc + P.t * 0.001 ≤ (v.convolute rand c P stereo).1.osc := by
  have gn := snh_next hP g
  have pw : 0.001 ≤ (v.convolute rand c P stereo).1.pw ∧ (v.convolute rand c P stereo).1.pw ≤ 0.999 := by
    show 0.001 ≤ (if (v.next P).state = 0 then P.pw else (v.next P).pw) ∧ (if (v.next P).state = 0 then P.pw else (v.next P).pw) ≤ 0.999
    split
    · exact hP.pw
    · exact gn.pw
  have t0 := hP.t
  have o := gn.osc
  have st := gn.state
  have rt : (v.convolute rand c P stereo).1.osc = max 0 ((v.next P).osc + (if (v.next P).state = 0 then P.t * (v.convolute rand c P stereo).1.pw else P.t * (1 - (v.convolute rand c P stereo).1.pw))) := by
    show max 0 ((v.next P).osc + (if (v.next P).state % 2 ≠ 0 then P.t * (1 - (v.convolute rand c P stereo).1.pw) else P.t * (v.convolute rand c P stereo).1.pw)) = _
    rcases (by omega : (v.next P).state = 0 ∨ (v.next P).state = 1) with h | h <;> simp [h]
  have lo : P.t * 0.001 ≤ (if (v.next P).state = 0 then P.t * (v.convolute rand c P stereo).1.pw else P.t * (1 - (v.convolute rand c P stereo).1.pw)) := by
    split
    · exact mul_le_mul_of_nonneg_left pw.1 t0.le
    · exact mul_le_mul_of_nonneg_left (by linarith [pw.2]) t0.le
  have eq : (v.convolute rand c P stereo).1.osc = (v.next P).osc + (if (v.next P).state = 0 then P.t * (v.convolute rand c P stereo).1.pw else P.t * (1 - (v.convolute rand c P stereo).1.pw)) := by
    rw [rt]; exact max_eq_right (by linarith)
  refine ⟨⟨Nat.mod_lt _ (by decide), ?_, gn.sync, pw⟩, rfl, rfl, eq, ?_⟩
  · rw [eq]; linarith
  · rw [eq]; linarith

theorem snh_inside {P : SnhPar} {a : ℝ} {v : SnhVoice} (h : v.sync < a ∨ v.osc < a) : (v.next P).osc < a := by
  unfold SnhVoice.next
  split
  · rename_i c
    rcases h with h | h
    · exact h
    · exact lt_trans c h
  · rename_i c
    push Not at c
    rcases h with h | h
    · exact lt_of_le_of_lt c h
    · exact h

/-- The loop ends: each round either moves the sync or the oscillator on. -/
theorem snh_ends (rand : ℕ → ℝ) (c : SupCfg) {P : SnhPar} (hP : Spec.SnhOk P) (stereo : Bool) : ∀ (N M : ℕ) (v : SnhVoice), SnhGood v → c.a - v.sync ≤ N * P.tSync → c.a - v.osc ≤ M * (P.t * 0.001) → ∃ n x, v.fill rand c P stereo n = some x := by
  have δ : 0 < P.t * 0.001 := mul_pos hP.t (by norm_num)
  have stop : ∀ v : SnhVoice, ¬(v.sync < c.a ∨ v.osc < c.a) → ∃ n x, v.fill rand c P stereo n = some x := fun v h => ⟨1, (v, []), by rw [SnhVoice.fill, if_neg h]⟩
  have go : ∀ v : SnhVoice, v.sync < c.a ∨ v.osc < c.a → (∃ n x, (v.convolute rand c P stereo).1.fill rand c P stereo n = some x) → ∃ n x, v.fill rand c P stereo n = some x := by
    rintro v h ⟨n, x, e⟩
    exact ⟨n + 1, _, by rw [SnhVoice.fill, if_pos h, e]; rfl⟩
  intro N
  induction N with
  | zero =>
    intro M
    induction M with
    | zero =>
      intro v g h1 h2
      apply stop
      push_cast at h1 h2
      rintro (q | q) <;> linarith
    | succ M ih =>
      intro v g h1 h2
      by_cases h : v.sync < c.a ∨ v.osc < c.a
      · apply go v h
        obtain ⟨g', _, e2, _, e4⟩ := snh_convolute rand c hP stereo g
        have nx : v.next P = v := by
          unfold SnhVoice.next
          rw [if_neg]
          push_cast at h1
          rcases h with q | q <;> linarith
        rw [nx] at e2 e4
        refine ih _ g' (by rw [e2]; exact h1) ?_
        push_cast at h2; linarith
      · exact stop v h
  | succ N ihN =>
    have syn : ∀ v : SnhVoice, SnhGood v → v.sync < c.a ∨ v.osc < c.a → c.a - v.sync ≤ (N + 1 : ℕ) * P.tSync → v.sync < v.osc → ∃ n x, v.fill rand c P stereo n = some x := by
      intro v g h h1 s
      apply go v h
      obtain ⟨g', _, e2, _, e4⟩ := snh_convolute rand c hP stereo g
      obtain ⟨M', hM⟩ := exists_nat_gt ((c.a - (v.convolute rand c P stereo).1.osc) / (P.t * 0.001))
      refine ihN M' _ g' ?_ (by rw [div_lt_iff₀ δ] at hM; exact hM.le)
      have : (v.next P).sync = v.sync + P.tSync := by unfold SnhVoice.next; rw [if_pos s]
      rw [e2, this]
      push_cast at h1; linarith
    intro M
    induction M with
    | zero =>
      intro v g h1 h2
      by_cases h : v.sync < c.a ∨ v.osc < c.a
      · push_cast at h2
        exact syn v g h h1 (by rcases h with q | q <;> linarith)
      · exact stop v h
    | succ M ih =>
      intro v g h1 h2
      by_cases h : v.sync < c.a ∨ v.osc < c.a
      · by_cases s : v.sync < v.osc
        · exact syn v g h h1 s
        · apply go v h
          obtain ⟨g', _, e2, _, e4⟩ := snh_convolute rand c hP stereo g
          have nx : v.next P = v := by unfold SnhVoice.next; rw [if_neg s]
          rw [nx] at e2 e4
          refine ih _ g' (by rw [e2]; exact h1) ?_
          push_cast at h2; linarith
      · exact stop v h

theorem snh_placed {rand : ℕ → ℝ} {c : SupCfg} (hc : Spec.CfgOk c) {P : SnhPar} (hP : Spec.SnhOk P) {stereo : Bool} {v : SnhVoice} (g : SnhGood v) (h : v.sync < c.a ∨ v.osc < c.a) : Spec.Placed c (v.convolute rand c P stereo).2 := by
  have i := snh_inside (P := P) h
  have o := (snh_next hP g).osc
  -- the place is computed as in the classic oscillator
  have := placed (c := c) hc (P := ⟨0, 0, 0.5, 0.5, 0, 1, 1, 1⟩) ⟨by norm_num, by norm_num, by norm_num, by norm_num, by norm_num, by norm_num, by norm_num⟩ (v := ⟨0, (v.next P).osc, 0, 0, 0, 0, 0⟩)
    ⟨by show 0 < 4; decide, o, le_rfl, fun n => absurd rfl n, fun n => absurd rfl n⟩ (Or.inr i)
  have nx : SupVoice.next ⟨0, 0, 0.5, 0.5, 0, 1, 1, 1⟩ ⟨0, (v.next P).osc, 0, 0, 0, 0, 0⟩ = ⟨0, (v.next P).osc, 0, 0, 0, 0, 0⟩ := by unfold SupVoice.next; rw [if_neg]; simp
  obtain ⟨a, b, d⟩ := this
  unfold SupVoice.convolute at a b d
  rw [nx] at a b d
  exact ⟨a, b, d⟩

theorem snh_fill {rand : ℕ → ℝ} {c : SupCfg} (hc : Spec.CfgOk c) {P : SnhPar} (hP : Spec.SnhOk P) {stereo : Bool} : ∀ {n : ℕ} {v w : SnhVoice} {hs : List Hit}, SnhGood v → v.fill rand c P stereo n = some (w, hs) →
    SnhGood w ∧ c.a ≤ w.osc ∧ c.a ≤ w.sync ∧ ∀ h ∈ hs, Spec.Placed c h
  | 0, v, w, hs, _, e => by simp [SnhVoice.fill] at e
  | n + 1, v, w, hs, g, e => by
    rw [SnhVoice.fill] at e
    split at e
    · rename_i cc
      obtain ⟨⟨w', hs'⟩, e1, e2⟩ := Option.map_eq_some_iff.1 e
      obtain ⟨rfl, rfl⟩ := Prod.mk.inj e2
      obtain ⟨a, b, d, r⟩ := snh_fill hc hP (snh_convolute rand c hP stereo g).1 e1
      refine ⟨a, b, d, fun h hh => ?_⟩
      rcases List.mem_cons.1 hh with rfl | hh
      · exact snh_placed hc hP g cc
      · exact r h hh
    · rename_i cc
      injection e with e
      obtain ⟨rfl, rfl⟩ := Prod.mk.inj e
      push Not at cc
      exact ⟨g, cc.2, cc.1, by simp⟩

theorem snh_advance {c : SupCfg} (hc : Spec.CfgOk c) {P : SnhPar} {w : SnhVoice} (g : SnhGood w) (h1 : c.a ≤ w.osc) (h2 : c.a ≤ w.sync) : SnhGood (w.advance c P) := by
  refine ⟨g.state, ?_, ?_, g.pw⟩
  · show 0 ≤ w.osc - c.a; linarith
  · show 0 ≤ if P.sync > 0 then w.sync - c.a else w.sync
    split
    · linarith
    · exact g.sync

theorem snh_start {v : SnhVoice} (h : Spec.SnhStart v) : SnhGood v := ⟨by rw [h.state]; decide, h.osc, by rw [h.sync]; exact h.osc, h.pw⟩

theorem snh_run {rand : ℕ → ℝ} {c : ℕ → SupCfg} {P : ℕ → SnhPar} {stereo : Bool} {V : ℕ → SnhVoice} {H : ℕ → List Hit} (hc : ∀ t, Spec.CfgOk (c t)) (hP : ∀ t, Spec.SnhOk (P t)) (h : Spec.SnhRun rand c P stereo V H) : ∀ t, SnhGood (V t)
  | 0 => snh_start h.start
  | t + 1 => by
    obtain ⟨n, w, e, e2⟩ := h.step t
    obtain ⟨a, b, d, _⟩ := snh_fill (hc t) (hP t) (snh_run hc hP h t) e
    rw [e2]; exact snh_advance (hc t) a b d

/-- **C171 (every block ends)**: for every history of widths, correlations, sync pitches, periods and pitches and every sequence of random numbers, every block of every voice ends. -/
theorem C171_ends (rand : ℕ → ℝ) {c : ℕ → SupCfg} {P : ℕ → SnhPar} (stereo : Bool) (hc : ∀ t, Spec.CfgOk (c t)) (hP : ∀ t, Spec.SnhOk (P t)) {v : SnhVoice} (hv : Spec.SnhStart v) : ∃ V H, V 0 = v ∧ Spec.SnhRun rand c P stereo V H := by
  classical
  have one : ∀ t (v : SnhVoice), SnhGood v → ∃ n x, v.fill rand (c t) (P t) stereo n = some x := by
    intro t v g
    obtain ⟨N, hN⟩ := exists_nat_gt (((c t).a - v.sync) / (P t).tSync)
    obtain ⟨M, hM⟩ := exists_nat_gt (((c t).a - v.osc) / ((P t).t * 0.001))
    rw [div_lt_iff₀ (hP t).tSync] at hN
    rw [div_lt_iff₀ (mul_pos (hP t).t (by norm_num))] at hM
    exact snh_ends rand (c t) (hP t) stereo N M v g hN.le hM.le
  let res : ℕ → SnhVoice → SnhVoice × List Hit := fun t v => if h : ∃ n x, v.fill rand (c t) (P t) stereo n = some x then h.choose_spec.choose else (v, [])
  have rs : ∀ t v, SnhGood v → ∃ n, v.fill rand (c t) (P t) stereo n = some (res t v) := by
    intro t v g
    have h := one t v g
    refine ⟨h.choose, ?_⟩
    have e : res t v = h.choose_spec.choose := dif_pos h
    rw [e]; exact h.choose_spec.choose_spec
  let V : ℕ → SnhVoice := fun t => Nat.rec v (fun t v => (res t v).1.advance (c t) (P t)) t
  have gV : ∀ t, SnhGood (V t) := by
    intro t
    induction t with
    | zero => exact snh_start hv
    | succ t ih =>
      obtain ⟨n, e⟩ := rs t (V t) ih
      obtain ⟨a, b, d, _⟩ := snh_fill (hc t) (hP t) ih (w := (res t (V t)).1) (hs := (res t (V t)).2) e
      exact snh_advance (hc t) a b d
  refine ⟨V, fun t => (res t (V t)).2, rfl, hv, fun t => ?_⟩
  obtain ⟨n, e⟩ := rs t (V t) (gV t)
  exact ⟨n, (res t (V t)).1, e, rfl⟩

/-- **C171 (places)**: every impulse of every block lies in the block and goes to its sample and sinc row. -/
theorem C171_placed {rand : ℕ → ℝ} {c : ℕ → SupCfg} {P : ℕ → SnhPar} {stereo : Bool} {V : ℕ → SnhVoice} {H : ℕ → List Hit} (hc : ∀ t, Spec.CfgOk (c t)) (hP : ∀ t, Spec.SnhOk (P t)) (h : Spec.SnhRun rand c P stereo V H) (t : ℕ) :
    ∀ x ∈ H t, Spec.Placed (c t) x := by
  obtain ⟨n, w, e, _⟩ := h.step t
  exact (snh_fill (hc t) (hP t) (snh_run hc hP h t) e).2.2.2

/-! ## The levels -/

theorem draw_range (a b x y : ℝ) : -0.5 ≤ draw a b x y ∧ draw a b x y ≤ 0.5 := ⟨le_min (by norm_num) (le_max_left _ _), min_le_left _ _⟩

theorem snh_levels {rand : ℕ → ℝ} {c : SupCfg} {P : SnhPar} {stereo : Bool} : ∀ {n : ℕ} {v w : SnhVoice} {hs : List Hit}, v.fill rand c P stereo n = some (w, hs) → ∀ A rest,
    Spec.heights v.last (hs.map (fun h => (A + h.pos, h.g, h.slope)) ++ rest) = Spec.heights v.last (hs.map (fun h => (A + h.pos, h.g, h.slope))) ++ Spec.heights w.last rest ∧
      ∀ x ∈ Spec.heights v.last (hs.map (fun h => (A + h.pos, h.g, h.slope))), -0.5 ≤ x ∧ x ≤ 0.5
  | 0, v, w, hs, e, A, rest => by simp [SnhVoice.fill] at e
  | n + 1, v, w, hs, e, A, rest => by
    rw [SnhVoice.fill] at e
    split at e
    · obtain ⟨⟨w', hs'⟩, e1, e2⟩ := Option.map_eq_some_iff.1 e
      obtain ⟨rfl, rfl⟩ := Prod.mk.inj e2
      have ih := snh_levels e1 A rest
      have l1 : v.last + (v.convolute rand c P stereo).2.g = (v.convolute rand c P stereo).1.last := by
        show v.last + (draw P.shape v.invert v.last (rand v.draws) - v.last) = draw P.shape v.invert v.last (rand v.draws)
        ring
      simp only [List.map_cons, List.cons_append, Spec.heights, l1]
      refine ⟨by rw [ih.1], ?_⟩
      intro x hx
      rcases List.mem_cons.1 hx with rfl | hx
      · exact draw_range _ _ _ _
      · exact ih.2 x hx
    · injection e with e
      obtain ⟨rfl, rfl⟩ := Prod.mk.inj e
      exact ⟨rfl, by simp [Spec.heights]⟩

theorem snh_trace {rand : ℕ → ℝ} {c : ℕ → SupCfg} {P : ℕ → SnhPar} {stereo : Bool} {V : ℕ → SnhVoice} {H : ℕ → List Hit} (h : Spec.SnhRun rand c P stereo V H) :
    ∀ (N t : ℕ) (A : ℝ), ∀ x ∈ Spec.heights (V t).last (Spec.traceFrom c H t A N), -0.5 ≤ x ∧ x ≤ 0.5
  | 0, t, A => by simp [Spec.traceFrom, Spec.heights]
  | N + 1, t, A => by
    obtain ⟨n, w, e, e2⟩ := h.step t
    have a := snh_levels e A
    rw [Spec.traceFrom, (a _).1]
    intro x hx
    rcases List.mem_append.1 hx with hx | hx
    · exact (a []).2 x hx
    · have : w.last = (V (t + 1)).last := by rw [e2]; rfl
      rw [this] at hx
      exact snh_trace h N (t + 1) _ x hx

/-- **C172 (levels)**: whatever is drawn and modulated, the level held is always within half of full scale. -/
theorem C172_held {rand : ℕ → ℝ} {c : ℕ → SupCfg} {P : ℕ → SnhPar} {stereo : Bool} {V : ℕ → SnhVoice} {H : ℕ → List Hit} (h : Spec.SnhRun rand c P stereo V H) (N : ℕ) : ∀ x ∈ Spec.heights 0 (Spec.trace c H N), -0.5 ≤ x ∧ x ≤ 0.5 := by
  have := snh_trace h N 0 0
  rw [h.start.last] at this
  exact this

/-- **C172 (noise)**: without correlation the level is the random number itself, clipped to ±1/2: half of the numbers from [-1, 1] come out as exactly ±1/2. -/
theorem C172_uncorrelated (invert last r : ℝ) : draw 0 invert last r = min 0.5 (max (-0.5) r) := by
  unfold draw
  simp

/-! ## Holding times -/

/-- The places of a cycle of two. -/
structure SnhClock (T x0 A : ℝ) (i : ℕ) (v : SnhVoice) : Prop where
  state : v.state = i % 2
  time : A + v.osc = x0 + T * (i / 2 : ℕ) + if i % 2 = 0 then 0 else T * v.pw

theorem snh_clock {rand : ℕ → ℝ} {c : SupCfg} {P : SnhPar} (hP : Spec.SnhOk P) {stereo : Bool} {x0 A : ℝ} {i : ℕ} {v : SnhVoice} (g : SnhGood v) (hn : v.osc ≤ v.sync) (k : SnhClock P.t x0 A i v) :
    SnhClock P.t x0 A (i + 1) (v.convolute rand c P stereo).1 := by
  have nx : v.next P = v := by unfold SnhVoice.next; rw [if_neg (by linarith)]
  obtain ⟨g', e1, e2, e3, e4⟩ := snh_convolute rand c hP stereo g
  rw [nx] at e3
  obtain ⟨k1, k2⟩ := k
  have pw : v.state ≠ 0 → (v.convolute rand c P stereo).1.pw = v.pw := by
    intro z
    show (if (v.next P).state = 0 then P.pw else (v.next P).pw) = _
    rw [nx, if_neg z]
  refine ⟨?_, ?_⟩
  · show ((v.next P).state + 1) % 2 = _
    rw [nx, k1]; omega
  · rw [e3, ← add_assoc, k2]
    rcases Nat.mod_two_eq_zero_or_one i with z | z
    · have z1 : (i + 1) % 2 = 1 := by omega
      have z2 : (i + 1) / 2 = i / 2 := by omega
      rw [k1, z, z1, z2]; simp
    · have z1 : (i + 1) % 2 = 0 := by omega
      have z2 : (i + 1) / 2 = i / 2 + 1 := by omega
      have p := pw (by rw [k1, z]; decide)
      rw [k1, z, z1, z2, p]
      push_cast
      simp
      ring

theorem snh_fill_clock {rand : ℕ → ℝ} {c : SupCfg} {P : SnhPar} (hP : Spec.SnhOk P) {stereo : Bool} {x0 A : ℝ} : ∀ {n : ℕ} {v w : SnhVoice} {l : List Hit} {i : ℕ}, SnhGood v → c.a ≤ v.sync → SnhClock P.t x0 A i v → v.fill rand c P stereo n = some (w, l) →
    SnhClock P.t x0 A (i + l.length) w ∧ w.sync = v.sync ∧ SnhGood w ∧ c.a ≤ w.osc ∧
    ∀ j h, (i + j) % 2 = 0 → A + (l[j]'h).pos = x0 + P.t * ((i + j) / 2 : ℕ)
  | 0, v, w, l, i, _, _, _, e => by simp [SnhVoice.fill] at e
  | n + 1, v, w, l, i, g, hs, k, e => by
    rw [SnhVoice.fill] at e
    split at e
    · rename_i cc
      have lt : v.osc < c.a := by rcases cc with h | h <;> linarith
      have nx : v.next P = v := by unfold SnhVoice.next; rw [if_neg (by linarith)]
      obtain ⟨⟨w', l'⟩, e1, e2⟩ := Option.map_eq_some_iff.1 e
      obtain ⟨rfl, rfl⟩ := Prod.mk.inj e2
      obtain ⟨g', c1, c2, c3, c4⟩ := snh_convolute rand c hP stereo g
      rw [nx] at c1 c2
      obtain ⟨a1, a2, a3, a4, a5⟩ := snh_fill_clock hP g' (by rw [c2]; exact hs) (snh_clock hP g (by linarith) k) e1
      have q : i + ((v.convolute rand c P stereo).2 :: l').length = i + 1 + l'.length := by simp; omega
      rw [q]
      refine ⟨a1, by rw [a2, c2], a3, a4, ?_⟩
      intro j hj hm
      cases j with
      | zero =>
        show A + (v.convolute rand c P stereo).2.pos = _
        rw [c1, k.time, if_pos (by simpa using hm)]; simp
      | succ j =>
        have e : i + (j + 1) = i + 1 + j := by omega
        rw [e] at hm ⊢
        simpa using a5 j (by simpa using hj) hm
    · rename_i cc
      injection e with e
      obtain ⟨rfl, rfl⟩ := Prod.mk.inj e
      push Not at cc
      exact ⟨k, rfl, g, cc.2, by simp⟩

theorem snh_trace_clock {rand : ℕ → ℝ} {c : SupCfg} (hc : Spec.CfgOk c) {P : ℕ → SnhPar} {stereo : Bool} {V : ℕ → SnhVoice} {H : ℕ → List Hit} (hP : ∀ t, Spec.SnhOk (P t)) {T : ℝ} (hT : ∀ t, (P t).t = T)
    (h : Spec.SnhRun rand (fun _ => c) P stereo V H) (hz : ∀ t, (P t).sync = 0) {x0 : ℝ} : ∀ (N t : ℕ) {A : ℝ} {i : ℕ}, SnhGood (V t) → c.a ≤ (V t).sync → SnhClock T x0 A i (V t) → ∀ j h', (i + j) % 2 = 0 → ((Spec.traceFrom (fun _ => c) H t A N)[j]'h').1 = x0 + T * ((i + j) / 2 : ℕ)
  | 0, t, A, i, _, _, _, j, h' => by simp [Spec.traceFrom] at h'
  | N + 1, t, A, i, g, hs, k, j, h' => by
    intro hm
    obtain ⟨n, w, e, e2⟩ := h.step t
    obtain ⟨a1, a2, a3, a4, a5⟩ := snh_fill_clock (hP t) g hs (by rw [hT]; exact k) e
    rw [hT] at a1 a5
    have sy : (V (t + 1)).sync = (V t).sync := by
      rw [e2]
      show (if (P t).sync > 0 then w.sync - c.a else w.sync) = _
      rw [hz, if_neg (lt_irrefl _), a2]
    simp only [Spec.traceFrom] at h' ⊢
    by_cases lt : j < (H t).length
    · rw [List.getElem_append_left (by simpa using lt)]
      simpa using a5 j lt hm
    · rw [List.getElem_append_right (by simpa using lt)]
      have k' : SnhClock T x0 (A + c.a) (i + (H t).length) (V (t + 1)) := by
        rw [e2]
        refine ⟨a1.state, ?_⟩
        show A + c.a + (w.osc - c.a) = _
        have := a1.time
        have e : (w.advance c (P t)).pw = w.pw := rfl
        rw [e]
        linarith
      have := snh_trace_clock hc hP hT h hz N (t + 1) (by rw [e2]; exact snh_advance hc a3 a4 (by rw [a2]; exact hs)) (by rw [sy]; exact hs) k' (j - (H t).length)
        (by simp at h' ⊢; omega) (by rw [show i + (H t).length + (j - (H t).length) = i + j by omega]; exact hm)
      simp only [List.length_map]
      rw [this, show i + (H t).length + (j - (H t).length) = i + j by omega]

/-- **C173 (holding times, partial)**: with sync off, at a steady pitch, once the sync phase has run out of reach (it is left there), the cycle of two levels takes exactly one period, whatever the width does: the oscillator keeps its pitch.
Missing: the first block, see `C173_double_refuted`, and rising pitches, see `C173_restart_refuted`. -/
theorem C173_period_partial {rand : ℕ → ℝ} {c : SupCfg} (hc : Spec.CfgOk c) {P : ℕ → SnhPar} {stereo : Bool} {V : ℕ → SnhVoice} {H : ℕ → List Hit} (hP : ∀ t, Spec.SnhOk (P t)) {T : ℝ} (hT : ∀ t, (P t).t = T)
    (h : Spec.SnhRun rand (fun _ => c) P stereo V H) (hz : ∀ t, (P t).sync = 0) {t : ℕ} (ht : c.a ≤ (V t).sync) (h0 : (V t).state = 0) (N n : ℕ) (hn : 2 * n < (Spec.traceFrom (fun _ => c) H t 0 N).length) :
    ((Spec.traceFrom (fun _ => c) H t 0 N)[2 * n]).1 = (V t).osc + T * n := by
  have := snh_trace_clock hc hP hT h hz (x0 := (V t).osc) N t (A := 0) (i := 0) (snh_run (fun _ => hc) hP h t) ht ⟨h0, by simp⟩ (2 * n) hn (by omega)
  rw [this, show (0 + 2 * n) / 2 = n by omega]

/-- From the second block on the sync phase is out of reach. -/
theorem C173_reached {rand : ℕ → ℝ} {c : SupCfg} (hc : Spec.CfgOk c) {P : ℕ → SnhPar} {stereo : Bool} {V : ℕ → SnhVoice} {H : ℕ → List Hit} (hP : ∀ t, Spec.SnhOk (P t)) (h : Spec.SnhRun rand (fun _ => c) P stereo V H) (hz : ∀ t, (P t).sync = 0)
    (t : ℕ) : c.a ≤ (V (t + 1)).sync := by
  obtain ⟨n, w, e, e2⟩ := h.step t
  have := (snh_fill hc (hP t) (snh_run (fun _ => hc) hP h t) e).2.2.1
  rw [e2]
  show c.a ≤ if (P t).sync > 0 then w.sync - c.a else w.sync
  rw [hz, if_neg (lt_irrefl _)]
  exact this

/-- **C173 (refuted: the first level)**: with sync off as well, a note's first level is not held at all: the sync phase, which starts with the oscillator, restarts it at once, and a second impulse falls on the first. -/
theorem C173_double_refuted {rand : ℕ → ℝ} {c : SupCfg} (hc : Spec.CfgOk c) {P : SnhPar} (hP : Spec.SnhOk P) (stereo : Bool) {v w : SnhVoice} (hv : Spec.SnhStart v) (h1 : v.osc < c.a) {n : ℕ} {l : List Hit} (e : v.fill rand c P stereo n = some (w, l)) :
    ∃ a b r, l = a :: b :: r ∧ a.pos = v.osc ∧ b.pos = v.osc := by
  have g := snh_start hv
  cases n with
  | zero => simp [SnhVoice.fill] at e
  | succ n =>
    rw [SnhVoice.fill, if_pos (Or.inr h1)] at e
    obtain ⟨⟨w', l'⟩, e1, e2⟩ := Option.map_eq_some_iff.1 e
    obtain ⟨rfl, rfl⟩ := Prod.mk.inj e2
    have nx : v.next P = v := by unfold SnhVoice.next; rw [if_neg (by rw [hv.sync]; exact lt_irrefl _)]
    obtain ⟨g', c1, c2, c3, c4⟩ := snh_convolute rand c hP stereo g
    rw [nx] at c1 c2 c4
    have lt : (v.convolute rand c P stereo).1.sync < (v.convolute rand c P stereo).1.osc := by rw [c2, hv.sync]; have := hP.t; linarith
    cases n with
    | zero => simp [SnhVoice.fill] at e1
    | succ n =>
      rw [SnhVoice.fill, if_pos (Or.inl (by rw [c2, hv.sync]; exact h1))] at e1
      obtain ⟨⟨w'', l''⟩, f1, f2⟩ := Option.map_eq_some_iff.1 e1
      obtain ⟨rfl, rfl⟩ := Prod.mk.inj f2
      refine ⟨_, _, l'', rfl, c1, ?_⟩
      rw [(snh_convolute rand c hP stereo g').2.1]
      unfold SnhVoice.next
      rw [if_pos lt]
      show (v.convolute rand c P stereo).1.sync = _
      rw [c2, hv.sync]

/-- **C173 (refuted: rising pitch)**: when the pitch rises so that the left-over sync phase falls into the block, the oscillator is set to it, though sync is off: if its next impulse was due later, the level is cut short. -/
theorem C173_restart_refuted {rand : ℕ → ℝ} {c : SupCfg} {P : SnhPar} (hP : Spec.SnhOk P) (stereo : Bool) {v w : SnhVoice} (g : SnhGood v) (h1 : v.sync < c.a) (h2 : v.sync < v.osc) {n : ℕ} {l : List Hit}
    (e : v.fill rand c P stereo n = some (w, l)) : ∃ a r, l = a :: r ∧ a.pos = v.sync := by
  cases n with
  | zero => simp [SnhVoice.fill] at e
  | succ n =>
    rw [SnhVoice.fill, if_pos (Or.inl h1)] at e
    obtain ⟨⟨w', l'⟩, e1, e2⟩ := Option.map_eq_some_iff.1 e
    obtain ⟨rfl, rfl⟩ := Prod.mk.inj e2
    refine ⟨_, l', rfl, ?_⟩
    rw [(snh_convolute rand c hP stereo g).2.1]
    unfold SnhVoice.next
    rw [if_pos h2]

/-- **C174 (refuted)**: the spread parameter does not detune the voices at all; the voice count does. -/
theorem C174_spread_refuted (drift lfo count bias offset : ℝ) (voices voice : ℕ) (s s' : ℝ) : snhDetune drift lfo count s bias offset voices voice = snhDetune drift lfo count s' bias offset voices voice := rfl

/-- With spread 0 and two voices, biases as for two voices (±1), the voices are two semitones away from the note. -/
theorem C174_count_refuted : snhDetune 0 0 2 0 2 (-1) 2 0 = -2 ∧ snhDetune 0 0 2 0 2 (-1) 2 1 = 2 := by
  unfold snhDetune
  norm_num

/-- Non-vacuity. -/
example : Spec.SnhOk ⟨0.5, 0.7, 0, 1, 1, 1, 0.5, 0.5⟩ ∧ Spec.CfgOk ⟨64 * (1 / 200), 200⟩ ∧ Spec.SnhStart ⟨0, 0.1, 0.1, 0, 0.5, 0⟩ := by
  refine ⟨⟨?_, ?_, ?_⟩, ⟨?_, ?_⟩, ⟨rfl, ?_, rfl, rfl, ?_⟩⟩ <;> norm_num

end Verif.Osc
