import Verif.Chain.Voice
/-!
# A voice keeps its filters from block to block, whatever place it has in the quads (C259)

Models `set_quad_filterblock` with the registers, coefficients and delay lines of the filter units, the scene's loop over a quad, and `sync_registers_from_qfb`.  Exact real arithmetic;
a filter is any function that treats each lane by itself.  The samples of the voices are taken to be in their lanes (at this commit they are not: C127), and the Moog ladder, whose subtype
is kept in the write position of lane 0, is left out.
-/
namespace Verif.Chain.Handover

/-- One lane of a `QuadFilterUnitState` (surge-qfunit/src/qf_unit_state.rs): registers, coefficients and their slopes, write position of the delay line, and the delay line that
`delay_buffer[lane]` points to. -/
structure UnitLane where
  reg : ℕ → ℝ
  coeff : ℕ → ℝ
  dcoeff : ℕ → ℝ
  wp : ℤ
  buf : ℕ → ℝ

/-- What a voice remembers between blocks: surge-voice/src/filter.rs 3-19 (`FBP`: settings, registers and write position of four units, four delay lines) and the two coefficient
makers: `coeff`, and all the rest of them. -/
structure Mem (K : Type) where
  f : Fbp
  reg : Fin 4 → ℕ → ℝ
  wp : Fin 4 → ℤ
  buf : Fin 4 → ℕ → ℝ
  coeff : Fin 2 → ℕ → ℝ
  rest : Fin 2 → K

/-- What a voice does in a block: the targets and levels, what its coefficient makers do (`make_coeffs`: from coefficients and rest to coefficients, slopes and rest), its samples. -/
structure Job (K : Type) where
  t : Targets
  a : Levels
  make : Fin 2 → (ℕ → ℝ) × K → (ℕ → ℝ) × (ℕ → ℝ) × K
  dl : ℕ → ℝ
  dr : ℕ → ℝ

variable {K : Type}
abbrev Quad := ChainState (Fin 4 → UnitLane)

/-- surge-voice/src/set_qfb.rs 98-164: coefficients, registers, delay lines and write positions; `on u`: the type of filter `u` is not `Off`. -/
def setUnits (cfg : Config) (on : Fin 2 → Bool) (j : Job K) (m : Mem K) (c : Quad) (e : Fin 4) : Mem K × Quad :=
  let k0 := j.make 0 (m.coeff 0, m.rest 0)
  let k1 := j.make 1 (m.coeff 1, m.rest 1)
  let m' := { m with coeff := fun | 0 => k0.1 | 1 => k1.1, rest := fun | 0 => k0.2.2 | 1 => k1.2.2 }
  let u0 := if on 0 then Function.update c.u0 e ⟨m.reg 0, k0.1, k0.2.1, m.wp 0, m.buf 0⟩ else c.u0
  let u2 := if on 0 && cfg.isWide then Function.update c.u2 e ⟨m.reg 2, k0.1, k0.2.1, m.wp 0, m.buf 2⟩ else c.u2
  let u1 := if on 1 then Function.update c.u1 e ⟨m.reg 1, k1.1, k1.2.1, m.wp 1, m.buf 1⟩ else c.u1
  let u3 := if on 1 && cfg.isWide then Function.update c.u3 e ⟨m.reg 3, k1.1, k1.2.1, m.wp 1, m.buf 3⟩ else c.u3
  (m', { c with u0 := u0, u1 := u1, u2 := u2, u3 := u3 })

/-- surge-voice/src/process.rs 23 and 111: the voice sets up its lane (settings: `setUp`, C124). -/
noncomputable def setLane (cfg : Config) (on : Fin 2 → Bool) (j : Job K) (m : Mem K) (c : Quad) (e : Fin 4) : Mem K × Quad :=
  let r := setUp cfg j.t j.a m.f c e
  setUnits cfg on j { m with f := r.1 } r.2 e

/-- surge-voice/src/sync_from_qfb.rs 10-69: `sync_registers_from_qfb`.  The delay lines need no copying: the filter has written into the voice's own. -/
def sync (cfg : Config) (on : Fin 2 → Bool) (c : Quad) (e : Fin 4) (m : Mem K) : Mem K :=
  let m := if on 0 then
      { m with reg := Function.update m.reg 0 (c.u0 e).reg, coeff := Function.update m.coeff 0 (c.u0 e).coeff, wp := Function.update m.wp 0 (c.u0 e).wp,
               buf := Function.update m.buf 0 (c.u0 e).buf } else m
  let m := if on 0 && cfg.isWide then { m with reg := Function.update m.reg 2 (c.u2 e).reg, buf := Function.update m.buf 2 (c.u2 e).buf } else m
  let m := if on 1 then
      { m with reg := Function.update m.reg 1 (c.u1 e).reg, coeff := Function.update m.coeff 1 (c.u1 e).coeff, wp := Function.update m.wp 1 (c.u1 e).wp,
               buf := Function.update m.buf 1 (c.u1 e).buf } else m
  let m := if on 1 && cfg.isWide then { m with reg := Function.update m.reg 3 (c.u3 e).reg, buf := Function.update m.buf 3 (c.u3 e).buf } else m
  { m with f := { m.f with fbL := c.fbL e, fbR := c.fbR e, wsLpf := c.wsLpf e } }

/-- surge-scene/src/scene/process.rs 211-222: the voices set up their lanes one after the other (`fb_entry & 3`). -/
noncomputable def setAll (cfg : Config) (on : Fin 2 → Bool) : List (Mem K × Job K) → ℕ → Quad → List (Mem K) × Quad
  | [], _, c => ([], c)
  | (m, j) :: vs, i, c =>
    let r := setLane cfg on j m c (Fin.ofNat 4 i)
    let rs := setAll cfg on vs (i + 1) r.2
    (r.1 :: rs.1, rs.2)

/-- The samples in the lanes: each voice's own; `old` where there is none. -/
def lanes (vs : List (Mem K × Job K)) (x : Job K → ℕ → ℝ) (old : ℕ → V4) : ℕ → V4 := fun k i => (vs[i.val]?.map fun v => x v.2 k).getD (old k i)

/-- surge-scene/src/scene/process.rs 286-320: one quad of voices: the empty lanes are switched off, the block is processed into `o`, the voices fetch their registers. -/
noncomputable def quadBlock (cfg : Config) (on : Fin 2 → Bool) (p : Spec.Units UnitLane) (vs : List (Mem K × Job K)) (old : (ℕ → V4) × (ℕ → V4)) (c : Quad) (o : Bufs) :
    Option (List (Mem K) × Quad × Bufs) :=
  let s := setAll cfg on vs 0 c
  let c := { s.2 with active := fun i => if vs.length ≤ i.val then false else s.2.active i }
  (processQuad false cfg (globals p) (globals p) (lanes vs Job.dl old.1) (lanes vs Job.dr old.2) 64 (c, o)).map fun r =>
    (s.1.zipIdx.map fun x => sync cfg on r.1 (Fin.ofNat 4 x.2) x.1, r.1, r.2)

/-! ## What matters of a lane -/

/-- The lanes agree in everything their path uses. -/
structure Alike (cfg : Config) (on : Fin 2 → Bool) (v v' : Spec.Voice UnitLane) : Prop where
  same : v' = { v with a := v'.a, b := v'.b, a2 := v'.a2, b2 := v'.b2, out2L := v'.out2L, out2R := v'.out2R, dout2L := v'.dout2L, dout2R := v'.dout2R }
  a : on 0 = true → v'.a = v.a
  b : on 1 = true → v'.b = v.b
  a2 : cfg = .wide → on 0 = true → v'.a2 = v.a2
  b2 : cfg = .wide → on 1 = true → v'.b2 = v.b2
  out : cfg = .stereo ∨ cfg = .wide → v'.out2L = v.out2L ∧ v'.out2R = v.out2R ∧ v'.dout2L = v.dout2L ∧ v'.dout2R = v.dout2R

theorem run_alike {f : Option (UnitLane → ℝ → UnitLane × ℝ)} {b : Bool} (hf : b = f.isSome) {u u' : UnitLane} (h : b = true → u' = u) (x : ℝ) :
    (Spec.run f u' x).2 = (Spec.run f u x).2 ∧ (b = true → (Spec.run f u' x).1 = (Spec.run f u x).1) := by
  cases f with
  | none => exact ⟨rfl, fun e => by rw [hf] at e; exact absurd e (by simp)⟩
  | some g => rw [h (by rw [hf]; rfl)]; exact ⟨rfl, fun _ => rfl⟩

set_option maxHeartbeats 1000000 in
theorem alike_step {cfg : Config} {on : Fin 2 → Bool} {p : Spec.Units UnitLane} (ha : on 0 = p.fa.isSome) (hb : on 1 = p.fb.isSome) {v v' : Spec.Voice UnitLane}
    (h : Alike cfg on v v') (dl dr : ℝ) :
    Alike cfg on (Spec.voice cfg p v dl dr).1 (Spec.voice cfg p v' dl dr).1 ∧ (Spec.voice cfg p v' dl dr).2 = (Spec.voice cfg p v dl dr).2 := by
  obtain ⟨hs, h1, h2, h3, h4, h5⟩ := h
  generalize v'.a = a at *
  generalize v'.b = b at *
  generalize v'.a2 = a2 at *
  generalize v'.b2 = b2 at *
  generalize v'.out2L = x1 at *
  generalize v'.out2R = x2 at *
  generalize v'.dout2L = x3 at *
  generalize v'.dout2R = x4 at *
  subst hs
  have ra := fun x => run_alike ha h1 x
  have rb := fun x => run_alike hb h2 x
  cases cfg
  case wide =>
    obtain ⟨rfl, rfl, rfl, rfl⟩ := h5 (.inr rfl)
    have ra2 := fun x => run_alike ha (h3 rfl) x
    have rb2 := fun x => run_alike hb (h4 rfl) x
    refine ⟨⟨?_, ?_, ?_, ?_, ?_, ?_⟩, ?_⟩
    · simp only [Spec.voice, Spec.wide, Spec.wideChannel, Spec.front, Spec.shaped, Spec.driveOf, Spec.mix1Of, (ra _).1, (rb _).1, (ra2 _).1, (rb2 _).1]
    · intro e; simp only [Spec.voice, Spec.wide, Spec.wideChannel]; exact (ra _).2 e
    · intro e; simp only [Spec.voice, Spec.wide, Spec.wideChannel, Spec.front, Spec.shaped, Spec.driveOf, Spec.mix1Of, (ra _).1]; exact (rb _).2 e
    · intro _ e; simp only [Spec.voice, Spec.wide, Spec.wideChannel]; exact (ra2 _).2 e
    · intro _ e; simp only [Spec.voice, Spec.wide, Spec.wideChannel, Spec.front, Spec.shaped, Spec.driveOf, Spec.mix1Of, (ra2 _).1]; exact (rb2 _).2 e
    · intro _; exact ⟨rfl, rfl, rfl, rfl⟩
    · simp only [Spec.voice, Spec.wide, Spec.heardTwo, Spec.wideChannel, Spec.front, Spec.shaped, Spec.driveOf, Spec.mix1Of, (ra _).1, (rb _).1, (ra2 _).1, (rb2 _).1]
  case stereo =>
    obtain ⟨rfl, rfl, rfl, rfl⟩ := h5 (.inl rfl)
    refine ⟨⟨?_, ?_, ?_, nofun, nofun, ?_⟩, ?_⟩
    · simp only [Spec.voice, Spec.stereo, Spec.shaped, Spec.driveOf, (ra _).1, (rb _).1]
    · intro e; simp only [Spec.voice, Spec.stereo]; exact (ra _).2 e
    · intro e; simp only [Spec.voice, Spec.stereo]; exact (rb _).2 e
    · intro _; exact ⟨rfl, rfl, rfl, rfl⟩
    · simp only [Spec.voice, Spec.stereo, Spec.heardTwo, Spec.shaped, Spec.driveOf, (ra _).1, (rb _).1]
  all_goals
    refine ⟨⟨?_, ?_, ?_, nofun, nofun, by simp⟩, ?_⟩
    · simp only [Spec.voice, Spec.serial1, Spec.serial2, Spec.serial3, Spec.dual1, Spec.dual2, Spec.ring, Spec.front, Spec.shapedLp, Spec.lpOf, Spec.driveOf, Spec.mix1Of, (ra _).1, (rb _).1]
    · intro e
      simp only [Spec.voice, Spec.serial1, Spec.serial2, Spec.serial3, Spec.dual1, Spec.dual2, Spec.ring]; exact (ra _).2 e
    · intro e
      simp only [Spec.voice, Spec.serial1, Spec.serial2, Spec.serial3, Spec.dual1, Spec.dual2, Spec.ring, Spec.front, Spec.shapedLp, Spec.lpOf, Spec.driveOf, Spec.mix1Of, (ra _).1]; exact (rb _).2 e
    · simp only [Spec.voice, Spec.serial1, Spec.serial2, Spec.serial3, Spec.dual1, Spec.dual2, Spec.ring, Spec.heardMono, Spec.front, Spec.shapedLp, Spec.lpOf, Spec.driveOf, Spec.mix1Of, (ra _).1, (rb _).1]

theorem alike_run {cfg : Config} {on : Fin 2 → Bool} {p : Spec.Units UnitLane} (ha : on 0 = p.fa.isSome) (hb : on 1 = p.fb.isSome) {v v' : Spec.Voice UnitLane}
    (h : Alike cfg on v v') (dl dr : ℕ → ℝ) (n : ℕ) :
    Alike cfg on (Spec.state cfg p v dl dr n) (Spec.state cfg p v' dl dr n) ∧ Spec.heard cfg p v' dl dr n = Spec.heard cfg p v dl dr n := by
  have key : Alike cfg on (Spec.state cfg p v dl dr n) (Spec.state cfg p v' dl dr n) := by
    induction n with
    | zero => exact h
    | succ n ih => exact (alike_step ha hb ih _ _).1
  exact ⟨key, (alike_step ha hb key _ _).2⟩

theorem lane_mem (cfg : Config) (on : Fin 2 → Bool) (j : Job K) (m : Mem K) (c c' : Quad) (e e' : Fin 4) :
    (setLane cfg on j m c e).1 = (setLane cfg on j m c' e').1 := by
  cases cfg <;> rfl

theorem units_other (cfg : Config) (on : Fin 2 → Bool) (j : Job K) (m : Mem K) (c : Quad) (e i : Fin 4) (h : i ≠ e) :
    (setUnits cfg on j m c e).2.lane i = c.lane i := by
  simp only [setUnits, ChainState.lane, Spec.Voice.mk.injEq, and_true]
  refine ⟨?_, ?_, ?_, ?_⟩ <;> split <;> simp [Function.update_of_ne h]

theorem lane_other (cfg : Config) (on : Fin 2 → Bool) (j : Job K) (m : Mem K) (c : Quad) (e i : Fin 4) (h : i ≠ e) : (setLane cfg on j m c e).2.lane i = c.lane i := by
  rw [← C124_other_lanes cfg j.t j.a m.f c e i h]
  exact units_other cfg on j _ _ e i h

set_option maxHeartbeats 1000000 in
theorem lane_alike (cfg : Config) (on : Fin 2 → Bool) (j : Job K) (m : Mem K) (c c' : Quad) (e e' : Fin 4) :
    Alike cfg on ((setLane cfg on j m c e).2.lane e) ((setLane cfg on j m c' e').2.lane e') := by
  have h : ∀ (c c' : Quad) (e e' : Fin 4), let v := ((setUp cfg j.t j.a m.f c e).2.lane e); let v' := ((setUp cfg j.t j.a m.f c' e').2.lane e')
      (v' = { v with a := v'.a, b := v'.b, a2 := v'.a2, b2 := v'.b2, out2L := v'.out2L, out2R := v'.out2R, dout2L := v'.dout2L, dout2R := v'.dout2R }) ∧
      (cfg = .stereo ∨ cfg = .wide → v'.out2L = v.out2L ∧ v'.out2R = v.out2R ∧ v'.dout2L = v.dout2L ∧ v'.dout2R = v.dout2R) := by
    intro c c' e e'
    cases cfg <;> simp [setUp, calcPan, setQuadFilterblock, ChainState.lane, Config.isWide, Config.isStereo]
  obtain ⟨h1, h2⟩ := h c c' e e'
  have f1 : (setUp cfg j.t j.a m.f c e).1 = (setUp cfg j.t j.a m.f c' e').1 := by cases cfg <;> rfl
  dsimp only [setLane]
  rw [← f1]
  generalize hc : (setUp cfg j.t j.a m.f c e).2 = q at *
  generalize hc' : (setUp cfg j.t j.a m.f c' e').2 = q' at *
  simp only [ChainState.lane, Spec.Voice.mk.injEq, true_and] at h1 h2
  have hw : cfg.isWide = true ↔ cfg = .wide := by cases cfg <;> simp [Config.isWide]
  refine ⟨?_, ?_, ?_, ?_, ?_, ?_⟩
  · simp only [setUnits, ChainState.lane, Spec.Voice.mk.injEq, true_and]
    exact h1
  · intro o; simp [setUnits, ChainState.lane, o]
  · intro o; simp [setUnits, ChainState.lane, o]
  · intro w o; simp [setUnits, ChainState.lane, o, hw.mpr w]
  · intro w o; simp [setUnits, ChainState.lane, o, hw.mpr w]
  · intro w
    exact h2 w

theorem sync_alike {cfg : Config} {on : Fin 2 → Bool} {c c' : Quad} {e e' : Fin 4} (h : Alike cfg on (c.lane e) (c'.lane e')) (m : Mem K) :
    sync cfg on c' e' m = sync cfg on c e m := by
  obtain ⟨hs, h1, h2, h3, h4, -⟩ := h
  have hw : cfg.isWide = true ↔ cfg = .wide := by cases cfg <;> simp [Config.isWide]
  simp only [ChainState.lane, Spec.Voice.mk.injEq, true_and] at hs h1 h2 h3 h4
  obtain ⟨-, -, -, -, -, -, -, -, -, -, -, g1, g2, g3, -⟩ := hs
  unfold sync
  rw [g1, g2, g3]
  cases o0 : on 0 <;> cases o1 : on 1 <;> cases ow : cfg.isWide <;>
    simp_all

theorem all_spec (cfg : Config) (on : Fin 2 → Bool) (c0 : Quad) (vs : List (Mem K × Job K)) (i : ℕ) (hl : i + vs.length ≤ 4) (c : Quad) :
    (setAll cfg on vs i c).1 = vs.map (fun v => (setLane cfg on v.2 v.1 c0 0).1) ∧
    (∀ e : Fin 4, e.val < i → (setAll cfg on vs i c).2.lane e = c.lane e) ∧
    ∀ (q : ℕ) (v : Mem K × Job K), vs[q]? = some v → Alike cfg on ((setLane cfg on v.2 v.1 c0 0).2.lane 0) ((setAll cfg on vs i c).2.lane (Fin.ofNat 4 (i + q))) := by
  induction vs generalizing i c with
  | nil => exact ⟨rfl, fun e _ => rfl, fun q v h => by simp at h⟩
  | cons v vs ih =>
    obtain ⟨m, j⟩ := v
    simp only [List.length_cons] at hl
    obtain ⟨a1, a2, a3⟩ := ih (i + 1) (by omega) (setLane cfg on j m c (Fin.ofNat 4 i)).2
    refine ⟨?_, fun e he => ?_, fun q v h => ?_⟩
    · simp only [setAll, List.map_cons, a1]
      rw [lane_mem cfg on j m c c0 (Fin.ofNat 4 i) 0]
    · simp only [setAll]
      rw [a2 e (by omega), lane_other]
      intro h
      have := congrArg Fin.val h
      simp [Fin.ofNat] at this
      omega
    · cases q with
      | zero =>
        simp only [List.getElem?_cons_zero, Option.some.injEq] at h
        subst h
        simp only [setAll, Nat.add_zero]
        rw [a2 _ (by simp [Fin.ofNat]; omega)]
        exact lane_alike cfg on j m c0 c 0 _
      | succ q =>
        have := a3 q v (by simpa using h)
        simp only [setAll]
        rwa [show i + (q + 1) = i + 1 + q by omega]

/-- A lane fetched by itself. -/
theorem sync_lane (cfg : Config) (on : Fin 2 → Bool) (c c' : Quad) (e e' : Fin 4) (h : c.lane e = c'.lane e') (m : Mem K) : sync cfg on c e m = sync cfg on c' e' m := by
  refine sync_alike ?_ m
  rw [h]
  exact ⟨rfl, fun _ => rfl, fun _ => rfl, fun _ _ => rfl, fun _ _ => rfl, fun _ => ⟨rfl, rfl, rfl, rfl⟩⟩

/-- A quad whose four lanes are this lane. -/
def fill (v : Spec.Voice UnitLane) : Quad :=
  ⟨fun _ => v.a, fun _ => v.b, fun _ => v.a2, fun _ => v.b2, fun _ => v.active, fun _ => v.gain, fun _ => v.feedback, fun _ => v.mix1, fun _ => v.mix2, fun _ => v.drive,
    fun _ => v.dGain, fun _ => v.dFeedback, fun _ => v.dMix1, fun _ => v.dMix2, fun _ => v.dDrive, fun _ => v.lp, fun _ => v.fbL, fun _ => v.fbR, fun _ => v.outL, fun _ => v.outR,
    fun _ => v.doutL, fun _ => v.doutR, fun _ => v.out2L, fun _ => v.out2R, fun _ => v.dout2L, fun _ => v.dout2R⟩

set_option maxHeartbeats 1000000 in
theorem quad_spec {cfg : Config} {on : Fin 2 → Bool} {p : Spec.Units UnitLane} (ha : on 0 = p.fa.isSome) (hb : on 1 = p.fb.isSome) (c0 : Quad)
    (vs : List (Mem K × Job K)) (hl : vs.length ≤ 4) (old : (ℕ → V4) × (ℕ → V4)) (c : Quad) (o : Bufs) :
    let E := fun v : Mem K × Job K => (setLane cfg on v.2 v.1 c0 0).2.lane 0
    ∃ c' o', quadBlock cfg on p vs old c o =
        some (vs.map (fun v => sync cfg on (fill (Spec.state cfg p (E v) v.2.dl v.2.dr 64)) 0 (setLane cfg on v.2 v.1 c0 0).1), c', o') ∧
      (∀ k, o'.1 k = if k < 64 then o.1 k + (vs.map fun v => (Spec.heard cfg p (E v) v.2.dl v.2.dr k).1).sum else o.1 k) ∧
      (∀ k, o'.2 k = if k < 64 then o.2 k + (vs.map fun v => (Spec.heard cfg p (E v) v.2.dl v.2.dr k).2).sum else o.2 k) := by
  intro E
  obtain ⟨a1, -, a3⟩ := all_spec cfg on c0 vs 0 (by omega) c
  obtain ⟨q, hq⟩ : ∃ q, q = { (setAll cfg on vs 0 c).2 with active := fun i => if vs.length ≤ i.val then false else (setAll cfg on vs 0 c).2.active i } := ⟨_, rfl⟩
  obtain ⟨c', o', h, hc, ho1, ho2⟩ := C123_voices_independent cfg p (lanes vs Job.dl old.1) (lanes vs Job.dr old.2) 64 q o
  have occ : ∀ (i : ℕ) (v : Mem K × Job K), vs[i]? = some v → Alike cfg on (E v) (q.lane (Fin.ofNat 4 i)) := by
    intro i v hv
    have h1 := a3 i v hv
    rw [Nat.zero_add] at h1
    have hi : i < vs.length := (List.getElem?_eq_some_iff.mp hv).1
    have e : q.lane (Fin.ofNat 4 i) = (setAll cfg on vs 0 c).2.lane (Fin.ofNat 4 i) := by
      rw [hq]
      simp only [ChainState.lane, Spec.Voice.mk.injEq, true_and, and_true]
      rw [if_neg]
      simp [Fin.ofNat]; omega
    rw [e]; exact h1
  have emp : ∀ i : Fin 4, vs.length ≤ i.val → (q.lane i).active = false := by
    intro i hi
    rw [hq]; simp [ChainState.lane, hi]
  have smp : ∀ (x : Job K → ℕ → ℝ) (old : ℕ → V4) (i : ℕ) (v : Mem K × Job K), vs[i]? = some v → (fun k => lanes vs x old k (Fin.ofNat 4 i)) = x v.2 := by
    intro x old i v hv
    have hi : i < vs.length := (List.getElem?_eq_some_iff.mp hv).1
    funext k
    have e : (Fin.ofNat 4 i).val = i := Nat.mod_eq_of_lt (by omega)
    unfold lanes
    rw [e, hv]; rfl
  refine ⟨c', o', ?_, ?_, ?_⟩
  · unfold quadBlock
    dsimp only
    rw [← hq, h]
    simp only [Option.map_some, Option.some.injEq, Prod.mk.injEq, and_true]
    rw [a1]
    apply List.ext_getElem?
    intro i
    simp only [List.getElem?_map, List.getElem?_zipIdx]
    cases hv : vs[i]? with
    | none => rfl
    | some v =>
      simp only [Option.map_some, Nat.zero_add, Option.some.injEq]
      refine sync_alike ?_ _
      rw [hc, smp Job.dl old.1 i v hv, smp Job.dr old.2 i v hv]
      exact (alike_run ha hb (occ i v hv) v.2.dl v.2.dr 64).1
  all_goals
    intro k
    first | rw [ho1] | rw [ho2]
    split
    · congr 1
      have hv : ∀ (i : ℕ) (v : Mem K × Job K), vs[i]? = some v →
          Spec.heard cfg p (q.lane (Fin.ofNat 4 i)) (fun k => lanes vs Job.dl old.1 k (Fin.ofNat 4 i)) (fun k => lanes vs Job.dr old.2 k (Fin.ofNat 4 i)) k =
            Spec.heard cfg p (E v) v.2.dl v.2.dr k := by
        intro i v hv
        rw [smp Job.dl old.1 i v hv, smp Job.dr old.2 i v hv]
        exact (alike_run ha hb (occ i v hv) v.2.dl v.2.dr k).2
      have he : ∀ i : Fin 4, vs.length ≤ i.val → Spec.heard cfg p (q.lane i) (fun k => lanes vs Job.dl old.1 k i) (fun k => lanes vs Job.dr old.2 k i) k = (0, 0) :=
        fun i hi => C123_inactive_silent cfg p _ (emp i hi) _ _ k
      rw [Fin.sum_univ_four]
      have f0 : Fin.ofNat 4 0 = 0 := rfl
      have f1 : Fin.ofNat 4 1 = 1 := rfl
      have f2 : Fin.ofNat 4 2 = 2 := rfl
      have f3 : Fin.ofNat 4 3 = 3 := rfl
      rcases vs with _ | ⟨v0, _ | ⟨v1, _ | ⟨v2, _ | ⟨v3, _ | ⟨v4, vs⟩⟩⟩⟩⟩
      · rw [he 0 (by simp), he 1 (by simp), he 2 (by simp), he 3 (by simp)]; simp
      · rw [he 1 (by simp), he 2 (by simp), he 3 (by simp), ← f0, hv 0 v0 rfl]; simp
      · rw [he 2 (by simp), he 3 (by simp), ← f0, hv 0 v0 rfl, ← f1, hv 1 v1 rfl]; simp
      · rw [he 3 (by simp), ← f0, hv 0 v0 rfl, ← f1, hv 1 v1 rfl, ← f2, hv 2 v2 rfl]; simp [add_assoc]
      · rw [← f0, hv 0 v0 rfl, ← f1, hv 1 v1 rfl, ← f2, hv 2 v2 rfl, ← f3, hv 3 v3 rfl]; simp [add_assoc]
      · simp at hl
    · rfl

namespace Spec

/-- What a voice remembers after a block that it plays alone, in the first lane of a quad `c0`, and what it puts out. -/
noncomputable def alone (cfg : Config) (on : Fin 2 → Bool) (p : Chain.Spec.Units UnitLane) (old : (ℕ → V4) × (ℕ → V4)) (c0 : Quad) (v : Mem K × Job K) : Option (Mem K × Bufs) :=
  match quadBlock cfg on p [v] old c0 (fun _ => 0, fun _ => 0) with
  | some ([m], _, o) => some (m, o)
  | _ => none

end Spec

/-- C259. In a block with up to four voices in a quad, whatever was in the quad before: every voice is afterwards as if it had played the block alone in another quad in any state, and the
output of the quad is the sum of what the voices put out alone. -/
theorem C259_as_if_alone {cfg : Config} {on : Fin 2 → Bool} {p : Chain.Spec.Units UnitLane} (ha : on 0 = p.fa.isSome) (hb : on 1 = p.fb.isSome)
    (vs : List (Mem K × Job K)) (hl : vs.length ≤ 4) (old old0 : (ℕ → V4) × (ℕ → V4)) (c c0 : Quad) (o : Bufs) :
    ∃ (solo : List (Mem K × Bufs)) (c' : Quad) (o' : Bufs), vs.map (Spec.alone cfg on p old0 c0) = solo.map some ∧
      quadBlock cfg on p vs old c o = some (solo.map Prod.fst, c', o') ∧
      ∀ k, k < 64 → o'.1 k = o.1 k + (solo.map fun s => s.2.1 k).sum ∧ o'.2 k = o.2 k + (solo.map fun s => s.2.2 k).sum := by
  obtain ⟨c', o', h1, h2, h3⟩ := quad_spec ha hb c0 vs hl old c o
  have one : ∀ v : Mem K × Job K, ∃ s : Mem K × Bufs, Spec.alone cfg on p old0 c0 v = some s ∧
      s.1 = sync cfg on (fill (Chain.Spec.state cfg p ((setLane cfg on v.2 v.1 c0 0).2.lane 0) v.2.dl v.2.dr 64)) 0 (setLane cfg on v.2 v.1 c0 0).1 ∧
      ∀ k, k < 64 → s.2.1 k = (Chain.Spec.heard cfg p ((setLane cfg on v.2 v.1 c0 0).2.lane 0) v.2.dl v.2.dr k).1 ∧
        s.2.2 k = (Chain.Spec.heard cfg p ((setLane cfg on v.2 v.1 c0 0).2.lane 0) v.2.dl v.2.dr k).2 := by
    intro v
    obtain ⟨c1, o1, g1, g2, g3⟩ := quad_spec ha hb c0 [v] (by simp) old0 c0 (fun _ => 0, fun _ => 0)
    refine ⟨(_, o1), by unfold Spec.alone; rw [g1]; rfl, rfl, fun k hk => ⟨?_, ?_⟩⟩
    · rw [g2 k, if_pos hk]; simp
    · rw [g3 k, if_pos hk]; simp
  choose s hs1 hs2 hs3 using one
  refine ⟨vs.map s, c', o', ?_, ?_, fun k hk => ⟨?_, ?_⟩⟩
  · rw [List.map_map]; exact List.map_congr_left fun v _ => hs1 v
  · rw [h1, List.map_map]
    congr 2
    exact List.map_congr_left fun v _ => (hs2 v).symm
  · rw [h2 k, if_pos hk, List.map_map]
    congr 2
    exact List.map_congr_left fun v _ => ((hs3 v k hk).1).symm
  · rw [h3 k, if_pos hk, List.map_map]
    congr 2
    exact List.map_congr_left fun v _ => ((hs3 v k hk).2).symm

/-- A block in the life of a voice: the companions before and after it in its quad, and what was in the quad and its samples before; its own job. -/
structure Session (K : Type) where
  before : List (Mem K × Job K)
  after : List (Mem K × Job K)
  old : (ℕ → V4) × (ℕ → V4)
  c : Quad
  o : Bufs
  job : Job K

/-- The voice's memory after the session. -/
noncomputable def Session.play (cfg : Config) (on : Fin 2 → Bool) (p : Chain.Spec.Units UnitLane) (s : Session K) (m : Mem K) : Option (Mem K) :=
  (quadBlock cfg on p (s.before ++ (m, s.job) :: s.after) s.old s.c s.o).bind fun r => r.1[s.before.length]?

/-- C259. Over a whole life, however the voice is moved between quads and lanes and whoever comes and goes, its memory is that of a voice that plays the same jobs alone. -/
theorem C259_life {cfg : Config} {on : Fin 2 → Bool} {p : Chain.Spec.Units UnitLane} (ha : on 0 = p.fa.isSome) (hb : on 1 = p.fb.isSome)
    (old0 : (ℕ → V4) × (ℕ → V4)) (c0 : Quad) (life : List (Session K)) (hl : ∀ s ∈ life, s.before.length + s.after.length < 4) (m : Mem K) :
    life.foldlM (fun m s => s.play cfg on p m) m = life.foldlM (fun m s => (Spec.alone cfg on p old0 c0 (m, s.job)).map Prod.fst) m := by
  induction life generalizing m with
  | nil => rfl
  | cons s life ih =>
    rw [List.foldlM_cons, List.foldlM_cons]
    have e : s.play cfg on p m = (Spec.alone cfg on p old0 c0 (m, s.job)).map Prod.fst := by
      have hn := hl s (by simp)
      obtain ⟨solo, c', o', h1, h2, -⟩ := C259_as_if_alone ha hb (s.before ++ (m, s.job) :: s.after) (by simp; omega) s.old old0 s.c c0 s.o
      unfold Session.play
      rw [h2]
      have h3 := congrArg (fun l => l[s.before.length]?) h1
      simp only [List.getElem?_map] at h3
      rw [List.getElem?_append_right (le_refl _), Nat.sub_self, List.getElem?_cons_zero, Option.map_some] at h3
      simp only [Option.bind_some, List.getElem?_map]
      cases hs : solo[s.before.length]? with
      | none => rw [hs] at h3; simp at h3
      | some x => rw [hs] at h3; simp only [Option.map_some, Option.some.injEq] at h3; rw [h3]
    rw [e]
    congr 1
    funext m
    exact ih (fun t ht => hl t (by simp [ht])) m

set_option maxHeartbeats 1000000 in
/-- C259. What is kept: registers, write positions and delay lines of the filters that are on start the next block as they ended this one, and the coefficients start from where they ended. -/
theorem C259_keeps (cfg : Config) (on : Fin 2 → Bool) (j : Job K) (m : Mem K) (c c' : Quad) (e e' : Fin 4) (h0 : on 0 = true) :
    let v := (setLane cfg on j (sync cfg on c e m) c' e').2.lane e'
    v.a.reg = (c.u0 e).reg ∧ v.a.wp = (c.u0 e).wp ∧ v.a.buf = (c.u0 e).buf ∧
    v.a.coeff = (j.make 0 ((c.u0 e).coeff, m.rest 0)).1 ∧ v.a.dcoeff = (j.make 0 ((c.u0 e).coeff, m.rest 0)).2.1 ∧
    v.fbL = c.fbL e ∧ v.fbR = c.fbR e ∧ v.lp = c.wsLpf e ∧
    (cfg = .wide → v.a2.reg = (c.u2 e).reg ∧ v.a2.buf = (c.u2 e).buf ∧ v.a2.coeff = v.a.coeff ∧ v.a2.dcoeff = v.a.dcoeff) := by
  intro v
  have hw : cfg.isWide = true ↔ cfg = .wide := by cases cfg <;> simp [Config.isWide]
  have f : ∀ (c' : Quad) (g : Fbp), ((setUp cfg j.t j.a g c' e').2.fbL e') = g.fbL ∧ ((setUp cfg j.t j.a g c' e').2.fbR e') = g.fbR ∧ ((setUp cfg j.t j.a g c' e').2.wsLpf e') = g.wsLpf := by
    intro c' g
    cases cfg <;> simp [setUp, calcPan, setQuadFilterblock, Config.isWide, Config.isStereo]
  obtain ⟨f1, f2, f3⟩ := f c' (sync cfg on c e m).f
  have k1 : (sync cfg on c e m).reg 0 = (c.u0 e).reg ∧ (sync cfg on c e m).wp 0 = (c.u0 e).wp ∧ (sync cfg on c e m).buf 0 = (c.u0 e).buf ∧
      (sync cfg on c e m).coeff 0 = (c.u0 e).coeff ∧ (sync cfg on c e m).rest = m.rest := by
    simp only [sync, h0]
    cases on 1 <;> cases cfg.isWide <;> simp [Function.update]
  have k2 : cfg = .wide → (sync cfg on c e m).reg 2 = (c.u2 e).reg ∧ (sync cfg on c e m).buf 2 = (c.u2 e).buf := by
    intro w
    simp only [sync, h0, hw.mpr w]
    cases on 1 <;> simp [Function.update]
  have k3 : (sync cfg on c e m).f.fbL = c.fbL e ∧ (sync cfg on c e m).f.fbR = c.fbR e ∧ (sync cfg on c e m).f.wsLpf = c.wsLpf e := ⟨rfl, rfl, rfl⟩
  have hv : v.fbL = (setUp cfg j.t j.a (sync cfg on c e m).f c' e').2.fbL e' ∧ v.fbR = (setUp cfg j.t j.a (sync cfg on c e m).f c' e').2.fbR e' ∧
      v.lp = (setUp cfg j.t j.a (sync cfg on c e m).f c' e').2.wsLpf e' := by
    simp only [v, setLane, setUnits, ChainState.lane]
    exact ⟨trivial, trivial, trivial⟩
  have hu : v.a = ⟨(sync cfg on c e m).reg 0, (j.make 0 ((sync cfg on c e m).coeff 0, (sync cfg on c e m).rest 0)).1,
      (j.make 0 ((sync cfg on c e m).coeff 0, (sync cfg on c e m).rest 0)).2.1, (sync cfg on c e m).wp 0, (sync cfg on c e m).buf 0⟩ := by
    simp [v, setLane, setUnits, ChainState.lane, h0]
  have hu2 : cfg = .wide → v.a2 = ⟨(sync cfg on c e m).reg 2, (j.make 0 ((sync cfg on c e m).coeff 0, (sync cfg on c e m).rest 0)).1,
      (j.make 0 ((sync cfg on c e m).coeff 0, (sync cfg on c e m).rest 0)).2.1, (sync cfg on c e m).wp 0, (sync cfg on c e m).buf 2⟩ := by
    intro w
    simp [v, setLane, setUnits, ChainState.lane, h0, hw.mpr w]
  obtain ⟨r1, r2, r3, r4, r5⟩ := k1
  refine ⟨by rw [hu]; exact r1, by rw [hu]; exact r2, by rw [hu]; exact r3, by rw [hu, r4, r5], by rw [hu, r4, r5], by rw [hv.1, f1, k3.1], by rw [hv.2.1, f2, k3.2.1],
    by rw [hv.2.2, f3, k3.2.2], fun w => ?_⟩
  obtain ⟨s1, s2⟩ := k2 w
  rw [hu2 w, hu]
  exact ⟨s1, s2, rfl, rfl⟩

set_option maxHeartbeats 1000000 in
/-- C259. The same for the second filter. -/
theorem C259_keeps_second (cfg : Config) (on : Fin 2 → Bool) (j : Job K) (m : Mem K) (c c' : Quad) (e e' : Fin 4) (h1 : on 1 = true) :
    let v := (setLane cfg on j (sync cfg on c e m) c' e').2.lane e'
    v.b.reg = (c.u1 e).reg ∧ v.b.wp = (c.u1 e).wp ∧ v.b.buf = (c.u1 e).buf ∧
    v.b.coeff = (j.make 1 ((c.u1 e).coeff, m.rest 1)).1 ∧ v.b.dcoeff = (j.make 1 ((c.u1 e).coeff, m.rest 1)).2.1 ∧
    (cfg = .wide → v.b2.reg = (c.u3 e).reg ∧ v.b2.buf = (c.u3 e).buf ∧ v.b2.coeff = v.b.coeff ∧ v.b2.dcoeff = v.b.dcoeff) := by
  intro v
  have hw : cfg.isWide = true ↔ cfg = .wide := by cases cfg <;> simp [Config.isWide]
  have k1 : (sync cfg on c e m).reg 1 = (c.u1 e).reg ∧ (sync cfg on c e m).wp 1 = (c.u1 e).wp ∧ (sync cfg on c e m).buf 1 = (c.u1 e).buf ∧
      (sync cfg on c e m).coeff 1 = (c.u1 e).coeff ∧ (sync cfg on c e m).rest = m.rest := by
    simp only [sync, h1]
    cases on 0 <;> cases cfg.isWide <;> simp [Function.update]
  have k2 : cfg = .wide → (sync cfg on c e m).reg 3 = (c.u3 e).reg ∧ (sync cfg on c e m).buf 3 = (c.u3 e).buf := by
    intro w
    simp only [sync, h1, hw.mpr w]
    cases on 0 <;> simp [Function.update]
  have hu : v.b = ⟨(sync cfg on c e m).reg 1, (j.make 1 ((sync cfg on c e m).coeff 1, (sync cfg on c e m).rest 1)).1,
      (j.make 1 ((sync cfg on c e m).coeff 1, (sync cfg on c e m).rest 1)).2.1, (sync cfg on c e m).wp 1, (sync cfg on c e m).buf 1⟩ := by
    simp [v, setLane, setUnits, ChainState.lane, h1]
  have hu2 : cfg = .wide → v.b2 = ⟨(sync cfg on c e m).reg 3, (j.make 1 ((sync cfg on c e m).coeff 1, (sync cfg on c e m).rest 1)).1,
      (j.make 1 ((sync cfg on c e m).coeff 1, (sync cfg on c e m).rest 1)).2.1, (sync cfg on c e m).wp 1, (sync cfg on c e m).buf 3⟩ := by
    intro w
    simp [v, setLane, setUnits, ChainState.lane, h1, hw.mpr w]
  obtain ⟨r1, r2, r3, r4, r5⟩ := k1
  refine ⟨by rw [hu]; exact r1, by rw [hu]; exact r2, by rw [hu]; exact r3, by rw [hu, r4, r5], by rw [hu, r4, r5], fun w => ?_⟩
  obtain ⟨s1, s2⟩ := k2 w
  rw [hu2 w, hu]
  exact ⟨s1, s2, rfl, rfl⟩

/-- The hypotheses are met: filter 1 a one-sample delay (its register), filter 2 off, two voices in a quad. -/
example : ∃ (p : Chain.Spec.Units UnitLane) (on : Fin 2 → Bool) (vs : List (Mem Unit × Job Unit)), on 0 = p.fa.isSome ∧ on 1 = p.fb.isSome ∧ vs.length = 2 ∧ on 0 = true :=
  ⟨⟨some fun u x => ({ u with reg := fun _ => x }, u.reg 0), none, none⟩, fun | 0 => true | 1 => false,
    List.replicate 2 (⟨⟨0, 0, 0, 0, 0, 0, 0, 0, 0, 0, 0, 0⟩, fun _ _ => 0, fun _ => 0, fun _ _ => 0, fun _ _ => 0, fun _ => ()⟩,
      ⟨⟨1, 0, 0, 0⟩, ⟨1, 1, 0, 0⟩, fun _ x => (x.1, fun _ => 0, x.2), fun _ => 1, fun _ => 0⟩), rfl, rfl, rfl, rfl⟩

end Verif.Chain.Handover
