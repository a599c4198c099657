import Verif.Rust
import Verif.Synth.Output
/-!
# Program changes, effect reloading and effect suspension

Models surge-synthesizer/src/synth/patchunit.rs (`handle_patchid_queue`, `process_threadunsafe_operations`), midi.rs 117-124
(`program_change`), channel_controller_cc.rs 5-8 (bank select), process.rs 381-388, fx.rs 52-82 (`load_fx`) and
process_control.rs 5-34.
-/
namespace Verif.Synth
open Verif Verif.Float

/-- The registers of the synthesizer involved (surge.rs 20-58). -/
structure Prog where
  /-- `patchid_queue` -/
  queue : Option Int
  /-- `synth_out.masterfade` -/
  fade : F32
  /-- `controller.halt_engine` -/
  halted : Bool
  /-- `cc0` -/
  cc0 : Int
  /-- `audio_processing_active` -/
  active : Bool

/-- init.rs 40-77, surge-output handle.rs 21: a fresh engine. -/
def Prog.fresh : Prog := ⟨none, .fin 1, false, 0, false⟩

/-- channel_controller_cc.rs 5-8: bank select, controller 0. -/
def Prog.bank (s : Prog) (v : Int) : Prog := { s with cc0 := v }

/-- midi.rs 117-124 `program_change`. (`<< 7` as a multiplication: with a bank and a program of seven bits nothing overflows.) -/
def Prog.change (s : Prog) (v : Int) : Prog := { s with queue := some (s.cc0 * 128 + v) }

/-- patchunit.rs 42-71 `handle_patchid_queue`; the loading of the patch is `todo!()`. -/
def Prog.handleQueue (s : Prog) : Res Empty Prog :=
  let fade := maxf (.fin 0) (F32.sub s.fade (F32.ofQ (25 / 1000)))
  if F32.lt fade (F32.ofQ (1 / 10000)) then .panic "not yet implemented" else .ok { s with fade := fade }

/-- `patchid_queue >= Some(0)`: `None` is less than every `Some`. -/
def Prog.pending (s : Prog) : Bool :=
  match s.queue with
  | none => false
  | some i => decide (0 ≤ i)

/-- process.rs 378-388 `process`; the rest of the block is assumed to succeed (but see C185) and does not touch these registers. -/
def Prog.block (s : Prog) : Res Empty Prog :=
  if s.halted then .ok s else if s.pending then s.handleQueue else .ok s

/-- `n` blocks in a row. -/
def Prog.blocks (s : Prog) : Nat → Res Empty Prog
  | 0 => .ok s
  | n + 1 => do
    let s ← s.block
    s.blocks n

/-- patchunit.rs 13-40 `process_threadunsafe_operations` (without the LV2 notification and the effect reload, `FxUnit.load`). -/
def Prog.housekeeping (s : Prog) : Res Empty Prog :=
  if s.active then .ok s else
    match s.queue with
    | none => .panic "called `Option::unwrap()` on a `None` value"
    | some i => if 0 ≤ i then .ok { s with queue := none } else .ok s

/-! ## C187 -/

/-- The fade register after `n` blocks of fading, started at 1. -/
def fadeAt : Nat → ℚ
  | 0 => 1
  | n + 1 => max 0 (rne (fadeAt n - rne (25 / 1000)))

theorem step_lit : F32.ofQ (25 / 1000) = .fin (rne (25 / 1000)) := F32.ofQ_fin (by norm_num) (by norm_num)
theorem thresh_lit : F32.ofQ (1 / 10000) = .fin (rne (1 / 10000)) := F32.ofQ_fin (by norm_num) (by norm_num)

theorem step_bounds : 0 ≤ rne (25 / 1000) ∧ rne (25 / 1000) ≤ 1 := by
  refine ⟨rne_nonneg (by norm_num), ?_⟩
  have := rne_mono (show (25 / 1000 : ℚ) ≤ ((1:ℤ):ℚ) by norm_num)
  rwa [rne_intCast 1 (by norm_num), Int.cast_one] at this

theorem handle_fin {s : Prog} {q : ℚ} (h : s.fade = .fin q) (h0 : 0 ≤ q) (h1 : q ≤ 1) :
    s.handleQueue = if max 0 (rne (q - rne (25 / 1000))) < rne (1 / 10000) then .panic "not yet implemented"
      else .ok { s with fade := .fin (max 0 (rne (q - rne (25 / 1000)))) } := by
  have e : maxf (.fin 0) (F32.sub s.fade (F32.ofQ (25 / 1000))) = .fin (max 0 (rne (q - rne (25 / 1000)))) := by
    rw [h, step_lit]
    have : F32.sub (.fin q) (.fin (rne (25 / 1000))) = F32.ofQ (q - rne (25 / 1000)) := by
      show F32.ofQ (q + -rne (25 / 1000)) = _
      rw [sub_eq_add_neg]
    have b := step_bounds
    rw [this, F32.ofQ_fin (by linarith [show (0:ℚ) ≤ 2 ^ 100 - 1 by norm_num]) (by linarith [show (1:ℚ) ≤ 2 ^ 100 by norm_num]), maxf_fin]
  unfold Prog.handleQueue
  simp only [e, thresh_lit]
  by_cases c : max 0 (rne (q - rne (25 / 1000))) < rne (1 / 10000)
  · rw [if_pos c, if_pos (show F32.lt (.fin _) (.fin _) = true from decide_eq_true c)]
  · rw [if_neg c, if_neg (show ¬ F32.lt (.fin _) (.fin _) = true from fun d => c (of_decide_eq_true d))]

theorem block_pending (s : Prog) (hh : s.halted = false) (hp : s.pending = true) : s.block = s.handleQueue := by
  unfold Prog.block
  rw [if_neg (by rw [hh]; decide), if_pos hp]

theorem fade_le (n : Nat) : 0 ≤ fadeAt n ∧ fadeAt n ≤ 1 := by
  induction n with
  | zero => exact ⟨by norm_num [fadeAt], by norm_num [fadeAt]⟩
  | succ n ih =>
    refine ⟨le_max_left _ _, max_le (by norm_num) ?_⟩
    have b := step_bounds
    have := rne_mono (show fadeAt n - rne (25 / 1000) ≤ ((1:ℤ):ℚ) by push_cast; linarith)
    rwa [rne_intCast 1 (by norm_num), Int.cast_one] at this

theorem fade_numbers : (∀ n, n < 39 → ¬ fadeAt (n + 1) < rne (1 / 10000)) ∧ fadeAt 40 < rne (1 / 10000) := by
  constructor
  · decide +kernel
  · decide +kernel

/-- From a lower fade register the fade is at least as far. -/
def fadeFrom (q : ℚ) : Nat → ℚ
  | 0 => q
  | n + 1 => max 0 (rne (fadeFrom q n - rne (25 / 1000)))

theorem fadeFrom_le {q : ℚ} (h0 : 0 ≤ q) (h1 : q ≤ 1) (n : Nat) : 0 ≤ fadeFrom q n ∧ fadeFrom q n ≤ fadeAt n := by
  induction n with
  | zero => exact ⟨h0, h1⟩
  | succ n ih => exact ⟨le_max_left _ _, max_le_max (le_refl _) (rne_mono (by linarith [ih.2]))⟩

theorem fadeFrom_shift (q : ℚ) (n : Nat) : fadeFrom (fadeFrom q 1) n = fadeFrom q (n + 1) := by
  induction n with
  | zero => rfl
  | succ n ih => show max 0 (rne (fadeFrom (fadeFrom q 1) n - _)) = _; rw [ih]; rfl

/-- While a patch is queued: `n` blocks succeed as long as the fade register stays above the threshold. -/
theorem blocks_fading (n : Nat) : ∀ (s : Prog) (q : ℚ), s.fade = .fin q → 0 ≤ q → q ≤ 1 → s.halted = false → s.pending = true →
    (∀ k, k < n → ¬ fadeFrom q (k + 1) < rne (1 / 10000)) → s.blocks n = .ok { s with fade := .fin (fadeFrom q n) } := by
  induction n with
  | zero => intro s q hf _ _ _ _ _; show Res.ok s = _; rw [show fadeFrom q 0 = q from rfl, ← hf]
  | succ n ih =>
    intro s q hf h0 h1 hh hp hk
    have e : s.block = .ok { s with fade := .fin (fadeFrom q 1) } := by
      rw [block_pending s hh hp, handle_fin hf h0 h1]
      exact if_neg (hk 0 (by omega))
    have b := fadeFrom_le h0 h1 1
    rw [Prog.blocks, e, Res.ok_bind, ih ⟨s.queue, .fin (fadeFrom q 1), s.halted, s.cc0, s.active⟩ (fadeFrom q 1) rfl b.1 (le_trans b.2 (fade_le 1).2) hh hp]
    · rw [fadeFrom_shift]
    · intro k hk'
      rw [fadeFrom_shift]
      exact hk (k + 1) (by omega)

theorem blocks_add (m n : Nat) : ∀ s : Prog, s.blocks (m + n) = (s.blocks m >>= fun s => s.blocks n) := by
  induction m with
  | zero => intro s; rw [Nat.zero_add]; rfl
  | succ m ih =>
    intro s
    rw [show m + 1 + n = (m + n) + 1 by omega, Prog.blocks, Prog.blocks]
    cases s.block with
    | ok a => simp only [Res.ok_bind]; exact ih a
    | err e => rfl
    | panic w => rfl

/-- C187 is false of the code: a program change does not load a patch, it takes the engine down. From a fresh engine, after any
bank select and any program change, 39 blocks fade out and the fortieth panics - and nothing in between takes the request
back. -/
theorem C187_program_change_refuted (bank prog : Int) (h0 : 0 ≤ bank) (h1 : 0 ≤ prog) :
    (∀ n, n ≤ 39 → ∃ s, ((Prog.fresh.bank bank).change prog).blocks n = .ok s ∧ s.fade = .fin (fadeAt n) ∧ s.pending = true) ∧
    ∀ n, 40 ≤ n → ((Prog.fresh.bank bank).change prog).blocks n = .panic "not yet implemented" := by
  have hp : ((Prog.fresh.bank bank).change prog).pending = true := decide_eq_true (by show 0 ≤ bank * 128 + prog; positivity)
  have hfa : ∀ n, fadeFrom 1 n = fadeAt n := by
    intro n; induction n with
    | zero => rfl
    | succ n ih => show max 0 (rne (fadeFrom 1 n - _)) = _; rw [ih]; rfl
  have run : ∀ n, n ≤ 39 → ((Prog.fresh.bank bank).change prog).blocks n =
      .ok { (Prog.fresh.bank bank).change prog with fade := .fin (fadeAt n) } := by
    intro n hn
    rw [blocks_fading n _ 1 rfl (by norm_num) (le_refl _) rfl hp, hfa]
    intro k hk; rw [hfa]; exact fade_numbers.1 k (by omega)
  refine ⟨fun n hn => ⟨_, run n hn, rfl, hp⟩, fun n hn => ?_⟩
  rw [show n = 39 + ((n - 40) + 1) by omega, blocks_add, run 39 (le_refl _), Res.ok_bind, Prog.blocks]
  have e : ({ (Prog.fresh.bank bank).change prog with fade := F32.fin (fadeAt 39) } : Prog).block = .panic "not yet implemented" := by
    refine (block_pending ⟨((Prog.fresh.bank bank).change prog).queue, .fin (fadeAt 39), false, bank, false⟩ rfl hp).trans ((handle_fin (q := fadeAt 39) rfl (fade_le 39).1 (fade_le 39).2).trans ?_)
    exact if_pos fade_numbers.2
  rw [e]; rfl

/-- C187, in any state: whenever a patch is queued on an engine that is not halted, with the fade register anywhere in [0, 1],
at most 40 blocks are left to it. -/
theorem C187_any_state_refuted (s : Prog) (q : ℚ) (hq : s.fade = .fin q) (h0 : 0 ≤ q) (h1 : q ≤ 1) (hh : s.halted = false) (hp : s.pending = true) :
    s.blocks 40 = .panic "not yet implemented" := by
  have ex : ∃ k, fadeFrom q (k + 1) < rne (1 / 10000) := ⟨39, lt_of_le_of_lt (fadeFrom_le h0 h1 40).2 fade_numbers.2⟩
  classical
  let m := Nat.find ex
  have hm : fadeFrom q (m + 1) < rne (1 / 10000) := Nat.find_spec ex
  have hmin : ∀ k, k < m → ¬ fadeFrom q (k + 1) < rne (1 / 10000) := fun k hk => Nat.find_min ex hk
  have hle : m ≤ 39 := Nat.find_min' ex (lt_of_le_of_lt (fadeFrom_le h0 h1 40).2 fade_numbers.2)
  rw [show (40:Nat) = m + ((39 - m) + 1) by omega, blocks_add, blocks_fading m s q hq h0 h1 hh hp hmin, Res.ok_bind, Prog.blocks]
  have e : ({ s with fade := F32.fin (fadeFrom q m) } : Prog).block = .panic "not yet implemented" := by
    have b := fadeFrom_le h0 h1 m
    refine (block_pending ⟨s.queue, .fin (fadeFrom q m), s.halted, s.cc0, s.active⟩ hh hp).trans ((handle_fin (q := fadeFrom q m) rfl b.1 (le_trans b.2 (fade_le m).2)).trans ?_)
    exact if_pos hm
  rw [e]; rfl

/-- C187, the part that holds: without a queued patch (or with a negative number in the queue) no block fades or fails. -/
theorem C187_idle_partial (s : Prog) (hq : s.queue = none ∨ ∃ i, s.queue = some i ∧ i < 0) (n : Nat) : s.blocks n = .ok s := by
  have h : s.pending = false := by
    unfold Prog.pending
    rcases hq with hq | ⟨i, hq, hi⟩ <;> rw [hq]
    exact decide_eq_false (by omega)
  induction n with
  | zero => rfl
  | succ n ih =>
    have e : s.block = .ok s := by unfold Prog.block; rw [h]; split_ifs <;> first | rfl | contradiction
    rw [Prog.blocks, e, Res.ok_bind, ih]

/-- Non-vacuity. -/
example : ((Prog.fresh.bank 1).change 5).queue = some 133 ∧ Prog.fresh.pending = false := ⟨rfl, rfl⟩

/-! ## C188 -/

/-- C188 is false of the code: the housekeeping call, made while audio processing is inactive, panics unless a patch is
queued - on a fresh engine in particular - and returns in every other case, emptying the queue of a valid request. -/
theorem C188_housekeeping_refuted (s : Prog) :
    (s.housekeeping = .panic "called `Option::unwrap()` on a `None` value" ↔ s.active = false ∧ s.queue = none) ∧
    Prog.fresh.housekeeping = .panic "called `Option::unwrap()` on a `None` value" ∧
    (∀ i, 0 ≤ i → s.active = false → s.queue = some i → s.housekeeping = .ok { s with queue := none } ∧
      ({ s with queue := none } : Prog).housekeeping = .panic "called `Option::unwrap()` on a `None` value") := by
  refine ⟨?_, rfl, ?_⟩
  · unfold Prog.housekeeping
    cases ha : s.active <;> cases hq : s.queue <;> simp
    split_ifs <;> simp
  · intro i hi ha hq
    unfold Prog.housekeeping
    simp [ha, hq, hi]

/-! ## C189: suspending and reloading effects -/

section
variable {σ ε : Type}

/-- process_control.rs 11-20: suspend the masked effects of a list whose first element has number `i`. -/
def suspendFrom (suspend : σ → Res ε σ) (mask : Int) : Nat → List σ → Res ε (List σ)
  | _, [] => .ok []
  | i, e :: es => do
    let e ← (if mask / 2 ^ i % 2 = 0 then .ok e else suspend e)
    let es ← suspendFrom suspend mask (i + 1) es
    .ok (e :: es)

/-- process_control.rs 5-25 `maybe_suspend_fx`: effects and mask. -/
def maybeSuspend (suspend : σ → Res ε σ) (fx : List σ) (mask : Int) : Res ε (List σ × Int) :=
  if mask = 0 then .ok (fx, mask) else do
    let fx ← suspendFrom suspend mask 0 fx
    .ok (fx, 0)

/-- fx.rs 52-82 `load_fx`: effects and flags, and whether something changed. -/
def loadFx (init : σ → Res ε σ) (force : Bool) : List σ → List Bool → Res ε (List σ × List Bool × Bool)
  | e :: es, f :: fs => do
    let (e, f, c) ← (if f || force then do let e ← init e; Res.ok (e, false, true) else .ok (e, f, false))
    let (es, fs, c') ← loadFx init force es fs
    .ok (e :: es, f :: fs, c || c')
  | es, fs => .ok (es, fs, false)

theorem suspendFrom_spec (suspend : σ → Res ε σ) (g : σ → σ) (hg : ∀ e, suspend e = .ok (g e)) (mask : Int) : ∀ (fx : List σ) (i : Nat),
    ∃ fx', suspendFrom suspend mask i fx = .ok fx' ∧ fx'.length = fx.length ∧
      ∀ k (h : k < fx.length) (h' : k < fx'.length), fx'[k] = if mask / 2 ^ (i + k) % 2 = 0 then fx[k] else g fx[k] := by
  intro fx
  induction fx with
  | nil => intro i; exact ⟨[], rfl, rfl, fun k h => by simp at h⟩
  | cons e es ih =>
    intro i
    obtain ⟨es', h1, h2, h3⟩ := ih (i + 1)
    refine ⟨(if mask / 2 ^ i % 2 = 0 then e else g e) :: es', ?_, by simp [h2], ?_⟩
    · unfold suspendFrom
      by_cases c : mask / 2 ^ i % 2 = 0
      · rw [if_pos c, if_pos c, Res.ok_bind, h1, Res.ok_bind]
      · rw [if_neg c, if_neg c, hg, Res.ok_bind, h1, Res.ok_bind]
    · intro k hk hk'
      cases k with
      | zero => simp
      | succ k =>
        simp only [List.getElem_cons_succ]
        rw [h3 k (by simpa using hk) (by simpa using hk'), show i + 1 + k = i + (k + 1) by omega]

/-- C189. A control pass suspends exactly the effects whose bit is set in the suspension mask, once, leaves the others as they
are, and clears the mask, so that the next pass suspends none. (`g` is what suspending does to an effect.) -/
theorem C189_suspend (suspend : σ → Res ε σ) (g : σ → σ) (hg : ∀ e, suspend e = .ok (g e)) (fx : List σ) (mask : Int) :
    ∃ fx', maybeSuspend suspend fx mask = .ok (fx', 0) ∧ fx'.length = fx.length ∧
      (∀ k (h : k < fx.length) (h' : k < fx'.length), fx'[k] = if mask / 2 ^ k % 2 = 0 then fx[k] else g fx[k]) ∧
      maybeSuspend suspend fx' 0 = .ok (fx', 0) := by
  by_cases hm : mask = 0
  · subst hm
    exact ⟨fx, if_pos rfl, rfl, fun k h h' => by rw [if_pos (by simp)], if_pos rfl⟩
  · obtain ⟨fx', h1, h2, h3⟩ := suspendFrom_spec suspend g hg mask fx 0
    refine ⟨fx', by unfold maybeSuspend; rw [if_neg hm, h1, Res.ok_bind], h2, fun k h h' => by rw [h3 k h h', Nat.zero_add], if_pos rfl⟩

/-- C189. Reloading initialises exactly the flagged effects (all of them, if forced), clears the flags, and reports whether it
initialised any; reloading again without new flags does nothing. -/
theorem C189_load (init : σ → Res ε σ) (g : σ → σ) (hg : ∀ e, init e = .ok (g e)) (force : Bool) : ∀ (fx : List σ) (fl : List Bool),
    fl.length = fx.length → ∃ fx', loadFx init force fx fl = .ok (fx', List.replicate fx.length false, fl.any id || (force && !fx.isEmpty)) ∧
      fx'.length = fx.length ∧
      (∀ k (h : k < fx.length) (h' : k < fx'.length) (h'' : k < fl.length), fx'[k] = if fl[k] || force then g fx[k] else fx[k]) ∧
      loadFx init false fx' (List.replicate fx.length false) = .ok (fx', List.replicate fx.length false, false) := by
  intro fx
  induction fx with
  | nil =>
    intro fl hl
    have : fl = [] := List.length_eq_zero_iff.mp hl
    subst this
    exact ⟨[], by simp [loadFx], rfl, fun k h => by simp at h, by simp [loadFx]⟩
  | cons e es ih =>
    intro fl hl
    match fl, hl with
    | f :: fs, hl =>
      obtain ⟨es', h1, h2, h3, h4⟩ := ih fs (by simpa using hl)
      refine ⟨(if f || force then g e else e) :: es', ?_, by simp [h2], ?_, ?_⟩
      · unfold loadFx
        by_cases c : (f || force) = true
        · rw [if_pos c, if_pos c, hg, Res.ok_bind, Res.ok_bind, h1]
          simp only [Res.ok_bind, List.length_cons, List.replicate_succ, List.any_cons, List.isEmpty_cons, id, Bool.not_false, Bool.and_true]
          congr 3
          cases f <;> cases force <;> simp_all
        · rw [if_neg c, if_neg c, Res.ok_bind, h1]
          have c1 : f = false := by cases f <;> simp_all
          have c2 : force = false := by cases force <;> simp_all
          subst c1; subst c2
          simp [List.replicate_succ]
      · intro k hk hk' hk''
        cases k with
        | zero => simp
        | succ k =>
          simp only [List.getElem_cons_succ]
          exact h3 k (by simpa using hk) (by simpa using hk') (by simpa using hk'')
      · simp only [List.length_cons, List.replicate_succ]
        unfold loadFx
        rw [h4]
        simp

/-- Non-vacuity: mask 5 suspends effects 0 and 2. -/
example : maybeSuspend (ε := Unit) (fun e : Nat => .ok (e + 100)) [0, 1, 2, 3] 5 = .ok ([100, 1, 102, 3], 0) := by decide
/-- Non-vacuity: reload of the second effect. -/
example : loadFx (ε := Unit) (fun e : Nat => .ok (e + 100)) false [0, 1, 2] [false, true, false] = .ok ([0, 101, 2], [false, false, false], true) := by
  decide
end
end Verif.Synth
