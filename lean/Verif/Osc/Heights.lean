import Verif.Osc.Wt
import Verif.Osc.Snh
/-!
# What the oscillators put into the impulse buffer (C163, C166, C171, C172)

The claims about levels speak of the jumps of a voice's wave; here: the impulses handed to the buffer are these jumps, with the
voice's gain and pan, and the slope corrections add up to the slope of the wave.
-/
namespace Verif.Osc

/-- The slopes of a row of impulses, from the slope `d` before to the slope after. -/
def Chained (d : ℝ) : List Hit → ℝ → Prop
  | [], e => d = e
  | x :: xs, e => x.pulse.dc = x.slope - d ∧ x.pulse.gl = x.g ∧ x.pulse.gr = x.g ∧ Chained x.slope xs e

theorem Chained.append {d e f : ℝ} : ∀ {xs ys : List Hit}, Chained d xs e → Chained e ys f → Chained d (xs ++ ys) f
  | [], ys, h, k => by cases (show d = e from h); exact k
  | x :: xs, ys, ⟨h1, h2, h3, h4⟩, k => ⟨h1, h2, h3, h4.append k⟩

theorem fill_chained {c : SupCfg} {P : SupPar} : ∀ {n : ℕ} {v w : SupVoice} {hs : List Hit}, v.fill c P n = some (w, hs) → Chained v.dc hs w.dc
  | 0, v, w, hs, e => by simp [SupVoice.fill] at e
  | n + 1, v, w, hs, e => by
    rw [SupVoice.fill] at e
    split at e
    · obtain ⟨⟨w', hs'⟩, e1, e2⟩ := Option.map_eq_some_iff.1 e
      obtain ⟨rfl, rfl⟩ := Prod.mk.inj e2
      have nd : (v.next P).dc = v.dc := by unfold SupVoice.next; split <;> rfl
      refine ⟨?_, rfl, rfl, fill_chained e1⟩
      show P.tInv * (1 + P.wf) * (1 - P.sub) - (v.next P).dc = P.tInv * (1 + P.wf) * (1 - P.sub) - v.dc
      rw [nd]
    · injection e with e
      obtain ⟨rfl, rfl⟩ := Prod.mk.inj e
      exact rfl

theorem run_chained {c : ℕ → SupCfg} {P : ℕ → SupPar} {V : ℕ → SupVoice} {H : ℕ → List Hit} (h : Spec.SupRun c P V H) : ∀ T, Chained 0 ((List.range T).flatMap H) (V T).dc
  | 0 => by exact h.start.dc.symm
  | T + 1 => by
    obtain ⟨n, w, e, e2⟩ := h.step T
    rw [List.range_succ, List.flatMap_append, List.flatMap_singleton]
    refine (run_chained h T).append ?_
    have : (V (T + 1)).dc = w.dc := by rw [e2]; rfl
    rw [this]
    exact fill_chained e

theorem Chained.sum : ∀ {xs : List Hit} {d e : ℝ}, Chained d xs e → ∀ n (hn : n < xs.length), d + ((xs.take (n + 1)).map fun x => x.pulse.dc).sum = xs[n].slope ∧ xs[n].pulse.gl = xs[n].g ∧ xs[n].pulse.gr = xs[n].g
  | [], _, _, _, n, hn => by simp at hn
  | x :: xs, d, e, ⟨h1, h2, h3, h4⟩, 0, _ => by simp [h1, h2, h3]
  | x :: xs, d, e, ⟨h1, h2, h3, h4⟩, n + 1, hn => by
    have := h4.sum n (by simpa using hn)
    simp only [List.take_succ_cons, List.map_cons, List.sum_cons, List.getElem_cons_succ]
    refine ⟨?_, this.2⟩
    rw [← this.1, h1]; ring

/-- **C163 (impulses)**: for every history of parameters and hard-syncs, what a voice of the super oscillator hands to the impulse buffer is the wave of its levels: each impulse has the height of the jump, and the slope corrections
of all impulses so far add up to exactly the slope the wave falls with from there on, so that the accumulated correction never drifts away from the wave. -/
theorem C163_impulses {c : ℕ → SupCfg} {P : ℕ → SupPar} {V : ℕ → SupVoice} {H : ℕ → List Hit} (h : Spec.SupRun c P V H) (T n : ℕ) (hn : n < ((List.range T).flatMap H).length) :
    ((((List.range T).flatMap H).take (n + 1)).map fun x => x.pulse.dc).sum = (((List.range T).flatMap H)[n]).slope ∧
    (((List.range T).flatMap H)[n]).pulse.gl = (((List.range T).flatMap H)[n]).g ∧ (((List.range T).flatMap H)[n]).pulse.gr = (((List.range T).flatMap H)[n]).g := by
  have := (run_chained h T).sum n hn
  rw [zero_add] at this
  exact this

/-- **C163 (slope)**: the slope after an impulse is that of the wave: a sawtooth falls by `(1 + wf)` in a period, less the share of the sub-oscillator; a square (`wf = -1`) does not fall. -/
theorem C163_slope {c : ℕ → SupCfg} {P : ℕ → SupPar} {V : ℕ → SupVoice} {H : ℕ → List Hit} (h : Spec.SupRun c P V H) (t : ℕ) : ∀ x ∈ H t, x.slope = (1 + (P t).wf) * (1 - (P t).sub) * (P t).tInv := by
  obtain ⟨n, w, e, _⟩ := h.step t
  have : ∀ {n : ℕ} {v w : SupVoice} {hs : List Hit}, v.fill (c t) (P t) n = some (w, hs) → ∀ x ∈ hs, x.slope = (1 + (P t).wf) * (1 - (P t).sub) * (P t).tInv := by
    intro n
    induction n with
    | zero => intro v w hs e; simp [SupVoice.fill] at e
    | succ n ih =>
      intro v w hs e x hx
      rw [SupVoice.fill] at e
      split at e
      · obtain ⟨⟨w', hs'⟩, e1, e2⟩ := Option.map_eq_some_iff.1 e
        obtain ⟨rfl, rfl⟩ := Prod.mk.inj e2
        rcases List.mem_cons.1 hx with rfl | hx
        · show (P t).tInv * (1 + (P t).wf) * (1 - (P t).sub) = _
          ring
        · exact ih e1 x hx
      · injection e with e
        obtain ⟨rfl, rfl⟩ := Prod.mk.inj e
        simp at hx
  exact this e

/-! ## Wavetable -/

theorem bind_ok {ε α β : Type} {x : Res ε α} {f : α → Res ε β} {b : β} (h : (x >>= f) = .ok b) : ∃ a, x = .ok a ∧ f a = .ok b := by
  cases x with
  | ok a => exact ⟨a, rfl, h⟩
  | err e => cases h
  | panic w => cases h

theorem wconvolute_pulse {ctr : ℝ → ℝ} {W : WTab} {c : SupCfg} {P : WPar} {stereo isSample : Bool} {s s' : WShare} {v v' : WVoice} {h : Hit} (e : wconvolute ctr W c P stereo isSample s v = .ok (s', v', h)) :
    h.pulse.gl = h.g * P.att * (if stereo then P.panL else 1) ∧ h.pulse.gr = h.pulse.gl ∧ h.pulse.dc = 0 := by
  unfold wconvolute at e
  simp only at e
  obtain ⟨ft, _, e⟩ := bind_ok e
  obtain ⟨lv, _, e⟩ := bind_ok e
  injection e with e
  obtain ⟨_, e⟩ := Prod.mk.inj e
  obtain ⟨_, rfl⟩ := Prod.mk.inj e
  refine ⟨?_, rfl, rfl⟩
  cases stereo <;> simp

theorem wfill_pulse {ctr : ℝ → ℝ} {W : WTab} {c : SupCfg} {P : WPar} {stereo isSample : Bool} : ∀ {n : ℕ} {s s' : WShare} {v v' : WVoice} {hs : List Hit}, wfill ctr W c P stereo isSample n s v = some (.ok (s', v', hs)) →
    ∀ h ∈ hs, h.pulse.gl = h.g * P.att * (if stereo then P.panL else 1) ∧ h.pulse.gr = h.pulse.gl ∧ h.pulse.dc = 0
  | 0, s, s', v, v', hs, e => by simp [wfill] at e
  | n + 1, s, s', v, v', hs, e => by
    rw [wfill] at e
    split at e
    · split at e
      · simp at e
      · simp at e
      · rename_i s1 v1 h1 ec
        obtain ⟨r, er, e⟩ := Option.map_eq_some_iff.1 e
        obtain ⟨⟨s2, v2, hs2⟩, e2, e⟩ := bind_ok e
        injection e with e'
        simp only [Prod.mk.injEq] at e'
        obtain ⟨_, _, rfl⟩ := e'
        subst e2
        intro h hh
        rcases List.mem_cons.1 hh with rfl | hh
        · exact wconvolute_pulse ec
        · exact wfill_pulse er h hh
    · injection e with e
      injection e with e'
      simp only [Prod.mk.injEq] at e'
      obtain ⟨_, _, rfl⟩ := e'
      simp

/-- **C166 (impulses)**: the impulses a wavetable voice hands to the buffer are the jumps between the levels of its wave, times the gain (and the left pan in stereo - also on the right, see C170), without slope. -/
theorem C166_impulses {ctr : ℝ → ℝ} {W : WTab} {c : ℕ → SupCfg} {P : ℕ → WPar} {stereo : Bool} {shape : ℕ → ℝ} {S : ℕ → WShare} {V : ℕ → WVoice} {H : ℕ → List Hit} (h : Spec.WRun ctr W c P stereo shape S V H) (t : ℕ) :
    ∀ x ∈ H t, x.pulse.gl = x.g * (P t).att * (if stereo then (P t).panL else 1) ∧ x.pulse.gr = x.pulse.gl ∧ x.pulse.dc = 0 := by
  obtain ⟨n, e⟩ := h.step t
  exact wfill_pulse e

/-! ## Sample and hold -/

theorem snh_pulse {rand : ℕ → ℝ} {c : SupCfg} {P : SnhPar} {stereo : Bool} : ∀ {n : ℕ} {v w : SnhVoice} {hs : List Hit}, v.fill rand c P stereo n = some (w, hs) →
    ∀ h ∈ hs, h.pulse.gl = h.g * P.att * (if stereo then P.panL else 1) ∧ (stereo = true → h.pulse.gr = h.g * P.att * P.panR) ∧ h.pulse.dc = 0
  | 0, v, w, hs, e => by simp [SnhVoice.fill] at e
  | n + 1, v, w, hs, e => by
    rw [SnhVoice.fill] at e
    split at e
    · obtain ⟨⟨w', hs'⟩, e1, e2⟩ := Option.map_eq_some_iff.1 e
      obtain ⟨rfl, rfl⟩ := Prod.mk.inj e2
      intro h hh
      rcases List.mem_cons.1 hh with rfl | hh
      · refine ⟨?_, ?_, rfl⟩
        · cases stereo <;> simp [SnhVoice.convolute]
        · rintro rfl; simp [SnhVoice.convolute]
      · exact snh_pulse e1 h hh
    · injection e with e
      obtain ⟨rfl, rfl⟩ := Prod.mk.inj e
      simp

/-- **C171 (impulses)**: the impulses handed to the buffer are the steps of the held level, times gain and pan: the left pan on the left, the right pan on the right. -/
theorem C171_impulses {rand : ℕ → ℝ} {c : ℕ → SupCfg} {P : ℕ → SnhPar} {stereo : Bool} {V : ℕ → SnhVoice} {H : ℕ → List Hit} (h : Spec.SnhRun rand c P stereo V H) (t : ℕ) :
    ∀ x ∈ H t, x.pulse.gl = x.g * (P t).att * (if stereo then (P t).panL else 1) ∧ (stereo = true → x.pulse.gr = x.g * (P t).att * (P t).panR) ∧ x.pulse.dc = 0 := by
  obtain ⟨n, w, e, _⟩ := h.step t
  exact snh_pulse e

/-- The next held level: the random number plus (`sign = -1`) or minus (`sign = 1`) a share of the last level, limited to ±1/2; the share grows from 0 at no correlation to 4 at full correlation. -/
noncomputable def Spec.nextLevel (shape sign last rand : ℝ) : ℝ := min 0.5 (max (-0.5) (rand - sign * (0.8 * shape / (1 - 0.8 * |shape|)) * last))

theorem draw_eq {shape invert last rand : ℝ} (hs : |shape| ≤ 1) (hi : |invert| = 1) : draw shape invert last rand = Spec.nextLevel shape invert last rand := by
  unfold draw Spec.nextLevel
  have ha : |shape * 0.8 * invert| = 0.8 * |shape| := by
    rw [abs_mul, abs_mul, hi, abs_of_pos (by norm_num : (0 : ℝ) < 0.8)]; ring
  have hp : (1 : ℝ) - 0.8 * |shape| ≠ 0 := by
    have : 0.8 * |shape| ≤ 0.8 := by linarith
    intro h; norm_num at *; linarith
  simp only [ha]
  have : (rand * (1 - 0.8 * |shape|) - shape * 0.8 * invert * last) * (1 / (1 - 0.8 * |shape|)) = rand - invert * (0.8 * shape / (1 - 0.8 * |shape|)) * last := by
    field_simp
    try ring
  rw [this]

/-- A row of held levels, each drawn from the one before: numbers from `d` on. -/
def Drawn (shape : ℝ) (rand : ℕ → ℝ) (d : ℕ) (last : ℝ) : List ℝ → Prop
  | [] => True
  | x :: xs => (∃ sign : ℝ, (sign = 1 ∨ sign = -1) ∧ x = Spec.nextLevel shape sign last (rand d)) ∧ Drawn shape rand (d + 1) x xs

theorem invert_cases (v : SnhVoice) : v.invert = 1 ∨ v.invert = -1 := by unfold SnhVoice.invert; split <;> simp

theorem snh_drawn {rand : ℕ → ℝ} {c : SupCfg} {P : SnhPar} {stereo : Bool} (hs : |P.shape| ≤ 1) : ∀ {n : ℕ} {v w : SnhVoice} {l : List Hit}, v.fill rand c P stereo n = some (w, l) → ∀ (A : ℝ) (rest : List (ℝ × ℝ × ℝ)),
    Drawn P.shape rand w.draws w.last (Spec.heights w.last rest) → Drawn P.shape rand v.draws v.last (Spec.heights v.last (l.map (fun h => (A + h.pos, h.g, h.slope)) ++ rest))
  | 0, v, w, l, e => by simp [SnhVoice.fill] at e
  | n + 1, v, w, l, e => by
    intro A rest hr
    rw [SnhVoice.fill] at e
    split at e
    · obtain ⟨⟨w', hs'⟩, e1, e2⟩ := Option.map_eq_some_iff.1 e
      obtain ⟨rfl, rfl⟩ := Prod.mk.inj e2
      have ih := snh_drawn hs e1 A rest hr
      have l1 : v.last + (v.convolute rand c P stereo).2.g = (v.convolute rand c P stereo).1.last := by
        show v.last + (draw P.shape v.invert v.last (rand v.draws) - v.last) = draw P.shape v.invert v.last (rand v.draws)
        ring
      simp only [List.map_cons, List.cons_append, Spec.heights, l1]
      refine ⟨⟨v.invert, invert_cases v, draw_eq hs ?_⟩, ih⟩
      rcases invert_cases v with h | h <;> rw [h] <;> simp
    · injection e with e
      obtain ⟨rfl, rfl⟩ := Prod.mk.inj e
      exact hr

theorem snh_drawn_run {rand : ℕ → ℝ} {c : ℕ → SupCfg} {P : ℕ → SnhPar} {stereo : Bool} {V : ℕ → SnhVoice} {H : ℕ → List Hit} (h : Spec.SnhRun rand c P stereo V H) {shape : ℝ} (hs : |shape| ≤ 1) (hP : ∀ t, (P t).shape = shape) :
    ∀ (N t : ℕ) (A : ℝ), Drawn shape rand (V t).draws (V t).last (Spec.heights (V t).last (Spec.traceFrom c H t A N))
  | 0, t, A => by simp [Spec.traceFrom, Spec.heights, Drawn]
  | N + 1, t, A => by
    obtain ⟨n, w, e, e2⟩ := h.step t
    have a := snh_drawn (by rw [hP]; exact hs) e A (Spec.traceFrom c H (t + 1) (A + (c t).a) N)
    rw [hP] at a
    refine a ?_
    have ih := snh_drawn_run h hs hP N (t + 1) (A + (c t).a)
    have l1 : (V (t + 1)).last = w.last := by rw [e2]; rfl
    have l2 : (V (t + 1)).draws = w.draws := by rw [e2]; rfl
    rwa [l1, l2] at ih

theorem Drawn.get {shape : ℝ} {rand : ℕ → ℝ} : ∀ {xs : List ℝ} {d : ℕ} {last : ℝ}, Drawn shape rand d last xs → ∀ n (hn : n < xs.length),
    ∃ sign : ℝ, (sign = 1 ∨ sign = -1) ∧ xs[n] = Spec.nextLevel shape sign ((last :: xs)[n]'(by simp; omega)) (rand (d + n))
  | [], _, _, _, n, hn => by simp at hn
  | x :: xs, d, last, ⟨h1, h2⟩, 0, _ => by simpa using h1
  | x :: xs, d, last, ⟨h1, h2⟩, n + 1, hn => by
    have := h2.get n (by simpa using hn)
    simpa [add_assoc, add_comm 1 n] using this

/-- **C172 (levels)**: every held level is drawn from the one before it with one new random number: the number, minus (or, at a step that hard sync inverts, plus) the correlated share of the last level, limited to ±1/2.
The first level follows 0; no random number is used twice and none is left out. -/
theorem C172_levels {rand : ℕ → ℝ} {c : ℕ → SupCfg} {P : ℕ → SnhPar} {stereo : Bool} {V : ℕ → SnhVoice} {H : ℕ → List Hit} (h : Spec.SnhRun rand c P stereo V H) {shape : ℝ} (hs : |shape| ≤ 1) (hP : ∀ t, (P t).shape = shape) (N n : ℕ)
    (hn : n < (Spec.heights 0 (Spec.trace c H N)).length) :
    ∃ sign : ℝ, (sign = 1 ∨ sign = -1) ∧ (Spec.heights 0 (Spec.trace c H N))[n] =
      Spec.nextLevel shape sign ((0 :: Spec.heights 0 (Spec.trace c H N))[n]'(by simp; omega)) (rand ((V 0).draws + n)) := by
  have := snh_drawn_run h hs hP N 0 0
  rw [h.start.last] at this
  exact this.get n hn

/-- **C172 (sign)**: the share of the last level is added instead of subtracted exactly if the step comes from hard sync cutting short the second half of a cycle. -/
theorem C172_sign {rand : ℕ → ℝ} {c : SupCfg} {P : SnhPar} {stereo : Bool} (hs : |P.shape| ≤ 1) {v w : SnhVoice} (hv : v.state < 2) {n : ℕ} {x : Hit} {l : List Hit} (e : v.fill rand c P stereo n = some (w, x :: l)) :
    v.last + x.g = Spec.nextLevel P.shape (if v.sync < v.osc ∧ v.state ≠ 0 then -1 else 1) v.last (rand v.draws) ∧ x.pos = min v.sync v.osc := by
  cases n with
  | zero => simp [SnhVoice.fill] at e
  | succ n =>
    rw [SnhVoice.fill] at e
    split at e
    · obtain ⟨⟨w', hs'⟩, e1, e2⟩ := Option.map_eq_some_iff.1 e
      obtain ⟨rfl, e3⟩ := Prod.mk.inj e2
      obtain ⟨rfl, rfl⟩ := List.cons.inj e3
      have iv : v.invert = if v.sync < v.osc ∧ v.state ≠ 0 then -1 else 1 := by
        unfold SnhVoice.invert
        have : v.state = 1 ↔ v.state ≠ 0 := by omega
        simp only [this]
      constructor
      · rw [← iv, ← draw_eq hs (by rcases invert_cases v with h | h <;> rw [h] <;> simp)]
        show v.last + (draw P.shape v.invert v.last (rand v.draws) - v.last) = _
        ring
      · show (v.next P).osc = _
        unfold SnhVoice.next
        split
        · rename_i h; exact (min_eq_left h.le).symm
        · rename_i h; exact (min_eq_right (not_lt.mp h)).symm
    · injection e with e
      obtain ⟨_, h⟩ := Prod.mk.inj e
      cases h

/-- Beside C171 and C172: a voice with correlation 0.7, in stereo, plays with any random numbers; its impulses are as stated. -/
example (rand : ℕ → ℝ) : ∃ V H, V 0 = ⟨0, 0.1, 0.1, 0, 0.5, 0⟩ ∧ Spec.SnhRun rand (fun _ => ⟨64 * (1 / 200), 200⟩) (fun _ => ⟨0.5, 0.7, 0, 1, 1, 1, 0.5, 0.5⟩) true V H :=
  C171_ends rand true (fun _ => ⟨by norm_num, by norm_num⟩) (fun _ => ⟨by norm_num, by norm_num, by norm_num⟩) ⟨rfl, by norm_num, rfl, rfl, by norm_num⟩

/-- Beside C163: a super oscillator voice with a saw, half sub. -/
example : ∃ V H, V 0 = ⟨0, 0, 0, -0.4, 0, 0.5, 0⟩ ∧ Spec.SupRun (fun _ => ⟨64 * (1 / 200), 200⟩) (fun _ => ⟨0, 0.5, 0.5, 0.5, 0, 1, 1, 2⟩) V H :=
  C164_terminates (fun _ => ⟨by norm_num, by norm_num⟩) (fun _ => ⟨by norm_num, by norm_num, by norm_num, by norm_num, by norm_num, by norm_num, by norm_num⟩) ⟨rfl, by norm_num, by norm_num, rfl⟩

/-- Full correlation, after a level of 1/4 and with the number 0: the level becomes -1/2 (limited), or 1/2 at an inverted step. -/
example : Spec.nextLevel 1 1 (1 / 4) 0 = -0.5 ∧ Spec.nextLevel 1 (-1) (1 / 4) 0 = 0.5 := by
  constructor <;> norm_num [Spec.nextLevel]

end Verif.Osc
