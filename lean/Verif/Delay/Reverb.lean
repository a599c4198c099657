import Verif.Delay.Claims
/-!
# The reverb (surgefx-reverb): the feedback delay network

Sixteen delay lines in one interleaved ring, a predelay ring, the per-sample loop.  The arithmetic is left abstract here
(`Add`, `Mul`, `Sub` and two constants), so what is proved about positions and histories in this file holds for `f32` too; the energy
argument in `ReverbEnergy` instantiates it with exact arithmetic.
-/
namespace Verif.Reverb
open Verif Verif.Tables Verif.Delay

/-- The two literals of the loop: `0.5` (block.rs 117) and `-2.0 / REVERB_TAPS` (get.rs 28). -/
class Lits (K : Type) where
  half : K
  ca : K

variable {K : Type} [Add K] [Mul K] [Sub K] [Zero K] [One K] [Lits K]

/-- constants.rs 4: `REVERB_MAX_DELAY`, 5: `REVERB_TAPS`. -/
def maxDelay : Nat := 32768
/-- constants.rs 5 `REVERB_TAPS`. -/
def taps : Nat := 16

/-- reverb.rs 3-29, the fields the loop changes. The arrays are total functions; `load`/`store` check the bounds
(`new.rs`: `delay` has 16 * 32768 elements, `predelay` 32768). -/
structure Rev (K : Type) where
  delay : Nat → K
  pre : Nat → K
  out : Nat → K
  pos : Nat

/-- new.rs 3-40, init.rs 29, 47: everything is zero. -/
def Rev.new : Rev K := ⟨fun _ => 0, fun _ => 0, fun _ => 0, 0⟩

/-- What the loop reads of the parameters: `delay_time`, `delay_fb`, `delay_pan_l`, `delay_pan_r`, the damping parameter and the
predelay in samples (`i32`, block.rs 26-37), and whether the build checks integer overflow. -/
structure Ctl (K : Type) where
  time : Nat → Nat
  fb : Nat → K
  panL : Nat → K
  panR : Nat → K
  damp : K
  predelay : Int
  checked : Bool

/-- `usize as i32`: the low 32 bits. -/
def asI32 (n : Nat) : Int := (BitVec.ofNat 32 n).toInt

/-- block.rs 11-24 `delay_idx(tap, offset)` with `t = tap + offset`: `>>` of `i32` is division rounding down, `& mask` gives a
number below 32768, `<< 4` cannot overflow and the assertion cannot fail. -/
def delayIdx (pos dt t : Nat) : Res Empty Nat :=
  chkI32 (asI32 pos - asI32 dt / 256) >>= fun a => .ok (t + index a (maxDelay - 1) * 16)

/-- Indexing an array of `n` elements. -/
def load (n : Nat) (f : Nat → K) (i : Nat) : Res Empty K := if i < n then .ok (f i) else .panic "index out of bounds"

/-- `f` with `f i := v`. -/
def upd (f : Nat → K) (i : Nat) (v : K) : Nat → K := fun j => if j = i then v else f j

/-- block.rs 72-83 `do_pre_taps`, pre_tap.rs 5-32 `do_pre_tap` (the four lanes of each call one after the other; the lanes do not
depend on each other): the first `n` taps. -/
def preTaps (c : Ctl K) (s : Rev K) : Nat → Res Empty (Nat → K)
  | 0 => .ok s.out
  | t + 1 => preTaps c s t >>= fun o => delayIdx s.pos (c.time t) t >>= fun i => load (taps * maxDelay) s.delay i >>= fun x =>
    .ok (upd o t (o t * c.damp + x * (1 - c.damp)))

/-- surge-math utility.rs 26-31 `sum_ps_to_ss`. -/
def sumPs (x : Nat → K) : K := (x 0 + x 2) + (x 1 + x 3)

/-- get.rs 35-37: `(delay_pos - predelay_time as usize) & mask`; the cast sign-extends to 64 bits, the subtraction wraps or panics
depending on the build. -/
def preIdx (c : Ctl K) (pos : Nat) : Res Empty Nat :=
  let u := (BitVec.ofInt 64 c.predelay).toNat
  if c.checked && decide (pos < u) then .panic "attempt to subtract with overflow"
  else .ok (index64 ((pos : Int) - u) (maxDelay - 1))

/-- get.rs 5-46 `get_fb`. -/
def getFb (c : Ctl K) (s : Rev K) : Res Empty K :=
  let sum := sumPs fun j => (s.out j + s.out (4 + j)) + (s.out (8 + j) + s.out (12 + j))
  preIdx c s.pos >>= fun i => load maxDelay s.pre i >>= fun p => .ok (Lits.ca * sum + p)

/-- post_tap.rs 19-21, the store: the first `n` taps. -/
def postTaps (c : Ctl K) (s : Rev K) (g : K) : Nat → Res Empty (Nat → K)
  | 0 => .ok s.delay
  | t + 1 => postTaps c s g t >>= fun d =>
    if s.pos * 16 + t < taps * maxDelay then .ok (upd d (s.pos * 16 + t) (c.fb t * (g + s.out t))) else .panic "index out of bounds"

/-- post_tap.rs 23-28 and block.rs 93-98, 120-123: the output of one side; lane `j` sums the taps `j`, `4+j`, `8+j`, `12+j`. -/
def mixdown (out pan : Nat → K) : K :=
  sumPs fun j => (((0 + out j * pan j) + out (4 + j) * pan (4 + j)) + out (8 + j) * pan (8 + j)) + out (12 + j) * pan (12 + j)

/-- block.rs 104-130 `do_reverb_block`: one sample. Returns the state and the wet samples left and right. -/
def step (c : Ctl K) (s : Rev K) (l r : K) : Res Empty (Rev K × K × K) :=
  preTaps c s taps >>= fun o =>
  let pos := index64 ((s.pos : Int) + 1) (maxDelay - 1)
  let s1 : Rev K := ⟨s.delay, upd s.pre pos (Lits.half * (l + r)), o, pos⟩
  getFb c s1 >>= fun g => postTaps c s1 g taps >>= fun d =>
  .ok (⟨d, s1.pre, o, pos⟩, mixdown o c.panL, mixdown o c.panR)

/-- block.rs 51-69 `do_reverb` over any number of samples, with the parameters read anew at each (the code reads them once a
block, which is a special case). -/
def run : List (Ctl K × K × K) → Rev K → Res Empty (Rev K × List (K × K))
  | [], s => .ok (s, [])
  | (c, l, r) :: rest, s => step c s l r >>= fun q => run rest q.1 >>= fun q' => .ok (q'.1, q.2 :: q'.2)

/-! ## Specification -/

/-- What a delay line fed with `xs` returns `n` samples after the last one; silence before the first. -/
def Spec.back (xs : List K) (n : Nat) : K := (xs.reverse[n]?).getD 0

/-- The last 32768 vectors written to the sixteen lines and the last 32768 predelay samples are in the rings. -/
def Rev.Holds (ws : List (Nat → K)) (ps : List K) (s : Rev K) : Prop :=
  ws.length = ps.length ∧ s.pos = ws.length % 32768 ∧
  (∀ n : Nat, n < 32768 → s.pre (((ws.length : Int) - n) % 32768).toNat = Spec.back ps n) ∧
  ∀ n t : Nat, n < 32768 → t < 16 → s.delay ((((ws.length : Int) - n) % 32768).toNat * 16 + t) = Spec.back (ws.map (· t)) n

theorem back_nil (n : Nat) : Spec.back ([] : List K) n = 0 := rfl

theorem back_append (xs : List K) (x : K) (n : Nat) :
    Spec.back (xs ++ [x]) 0 = x ∧ Spec.back (xs ++ [x]) (n + 1) = Spec.back xs n := by
  unfold Spec.back
  simp

omit [Add K] [Mul K] [Sub K] [One K] [Lits K] in
theorem new_holds : (Rev.new : Rev K).Holds [] [] :=
  ⟨rfl, rfl, fun _ _ => rfl, fun _ _ _ _ => rfl⟩

theorem asI32_small {n : Nat} (h : n < 2 ^ 31) : asI32 n = n := by
  unfold asI32
  rw [BitVec.toInt_eq_toNat_of_lt, BitVec.toNat_ofNat, Nat.mod_eq_of_lt (by omega)]
  rw [BitVec.toNat_ofNat, Nat.mod_eq_of_lt (by omega)]
  omega

theorem delayIdx_ok {pos dt : Nat} (hp : pos < 32768) (hd : dt < 2 ^ 31) (t : Nat) :
    delayIdx pos dt t = .ok ((((pos : Int) - (dt / 256 : Nat)) % 32768).toNat * 16 + t) := by
  unfold delayIdx
  rw [asI32_small (by omega), asI32_small hd]
  have : (chkI32 ((pos : Int) - (dt : Int) / 256) : Res Empty Int) = .ok ((pos : Int) - (dt : Int) / 256) := by
    unfold chkI32
    rw [if_pos (by omega)]
  rw [this, Res.ok_bind, show maxDelay - 1 = 2 ^ 15 - 1 from rfl, index_eq _ 15 (by norm_num)]
  norm_num
  omega

omit [Add K] [Mul K] [Sub K] [One K] [Lits K] [Zero K] in
theorem load_ok {n i : Nat} (f : Nat → K) (h : i < n) : load n f i = .ok (f i) := if_pos h

theorem preTaps_ok {ws : List (Nat → K)} {ps : List K} {s : Rev K} (h : s.Holds ws ps) (c : Ctl K)
    (ht : ∀ t < 16, c.time t < 2 ^ 23) (n : Nat) (hn : n ≤ 16) :
    preTaps c s n = .ok fun t => if t < n then s.out t * c.damp + Spec.back (ws.map (· t)) (c.time t / 256) * (1 - c.damp) else s.out t := by
  induction n with
  | zero => rfl
  | succ n ih =>
    obtain ⟨hl, hp, hpre, hd⟩ := h
    have hpos : s.pos < 32768 := by rw [hp]; exact Nat.mod_lt _ (by norm_num)
    have htn := ht n (by omega)
    have hq : c.time n / 256 < 32768 := by omega
    unfold preTaps
    rw [ih (by omega), Res.ok_bind, delayIdx_ok hpos (by omega), Res.ok_bind]
    have hi : (((s.pos : Int) - (c.time n / 256 : Nat)) % 32768).toNat < 32768 := by
      have := Int.emod_lt_of_pos ((s.pos : Int) - (c.time n / 256 : Nat)) (show (0:Int) < 32768 by norm_num)
      omega
    rw [load_ok _ (show _ < taps * maxDelay by unfold taps maxDelay; omega), Res.ok_bind]
    have he : ((s.pos : Int) - (c.time n / 256 : Nat)) % 32768 = ((ws.length : Int) - (c.time n / 256 : Nat)) % 32768 := by
      rw [hp]; push_cast
      rw [Int.emod_sub_emod]
    rw [he, hd _ n hq (by omega)]
    congr 1
    funext t
    unfold upd
    by_cases e : t = n
    · subst e; simp
    · rw [if_neg e]
      dsimp only
      by_cases e2 : t < n
      · rw [if_pos e2, if_pos (by omega)]
      · rw [if_neg e2, if_neg (by omega)]

theorem postTaps_ok (c : Ctl K) (s : Rev K) (g : K) (hp : s.pos < 32768) (n : Nat) (hn : n ≤ 16) :
    postTaps c s g n = .ok fun i => if i / 16 = s.pos ∧ i % 16 < n then c.fb (i % 16) * (g + s.out (i % 16)) else s.delay i := by
  induction n with
  | zero => simp [postTaps]
  | succ n ih =>
    unfold postTaps
    rw [ih (by omega), Res.ok_bind, if_pos (by unfold taps maxDelay; omega)]
    congr 1
    funext i
    unfold upd
    by_cases e : i = s.pos * 16 + n
    · rw [if_pos e, if_pos (by omega), show i % 16 = n by omega]
    · rw [if_neg e]
      dsimp only
      by_cases e2 : i / 16 = s.pos ∧ i % 16 < n
      · rw [if_pos e2, if_pos (by omega)]
      · rw [if_neg e2, if_neg (by omega)]

/-- The predelay index in a build that wraps, or when the subtraction does not underflow. -/
theorem preIdx_ok (c : Ctl K) (pos : Nat) (hp : pos < 32768) (h0 : 0 ≤ c.predelay) (h1 : c.predelay < 2 ^ 31)
    (h : c.checked = false ∨ c.predelay ≤ pos) :
    preIdx c pos = .ok (((pos : Int) - c.predelay) % 32768).toNat := by
  unfold preIdx
  have hu : (BitVec.ofInt 64 c.predelay).toNat = c.predelay.toNat := by
    rw [BitVec.toNat_ofInt]; omega
  dsimp only
  rw [hu, if_neg, show maxDelay - 1 = 2 ^ 15 - 1 from rfl, index64_eq _ 15 (by norm_num)]
  · rw [Int.toNat_of_nonneg h0]; norm_num
  · rcases h with h | h
    · simp [h]
    · simp only [Bool.and_eq_true, decide_eq_true_eq, not_and]; omega

/-- Extend the history by one write. -/
theorem holds_step {ws : List (Nat → K)} {ps : List K} {s : Rev K} (h : s.Holds ws ps) (v : Nat → K) (p : K) (o : Nat → K)
    {d : Nat → K} (hd : ∀ i, d i = if i / 16 = (ws.length + 1) % 32768 ∧ i % 16 < 16 then v (i % 16) else s.delay i) :
    (Rev.mk d (upd s.pre ((ws.length + 1) % 32768) p) o ((ws.length + 1) % 32768)).Holds (ws ++ [v]) (ps ++ [p]) := by
  obtain ⟨hl, hp, hpre, hdl⟩ := h
  refine ⟨by simp [hl], by simp, ?_, ?_⟩
  · intro n hn
    simp only [List.length_append, List.length_singleton, upd]
    cases n with
    | zero =>
      rw [if_pos (by push_cast; omega), (back_append ps p 0).1]
    | succ n =>
      rw [if_neg (by push_cast; omega), (back_append ps p n).2, ← hpre n (by omega)]
      congr 2
      push_cast
      congr 1
      ring
  · intro n t hn ht
    simp only [List.length_append, List.length_singleton, List.map_append, List.map_cons, List.map_nil]
    rw [hd]
    cases n with
    | zero =>
      rw [if_pos (by push_cast; omega), (back_append _ _ 0).1]
      congr 1
      omega
    | succ n =>
      rw [if_neg (by push_cast; omega), (back_append _ _ n).2, ← hdl n t (by omega) ht]
      congr 4
      push_cast
      ring

/-! ## C92: one sample -/

/-- What one sample of the reverb should do, written from the history: `o` the damped taps, `g` the shared feedback. -/
def Spec.taps (ws : List (Nat → K)) (c : Ctl K) (out : Nat → K) (t : Nat) : K :=
  if t < 16 then out t * c.damp + Spec.back (ws.map (· t)) (c.time t / 256) * (1 - c.damp) else out t

/-- The sum of the sixteen taps, in the order of the vector code. -/
def Spec.sum16 (o : Nat → K) : K := sumPs fun j => (o j + o (4 + j)) + (o (8 + j) + o (12 + j))

/-- C92. After every history `ws` of vectors written to the lines and `ps` of predelay inputs, with any delay times below 2^23
(32768 samples), one sample reads in tap `t` what was written to line `t` exactly `time/256` samples before the last write, reads the
predelay input of `predelay` samples ago, and appends exactly one vector; nothing else in the rings changes. -/
theorem C92_reverb_sample {ws : List (Nat → K)} {ps : List K} {s : Rev K} (h : s.Holds ws ps) (c : Ctl K)
    (ht : ∀ t < 16, c.time t < 2 ^ 23) (h0 : 0 ≤ c.predelay) (h1 : c.predelay < 32768)
    (hw : c.checked = false ∨ c.predelay ≤ ((ws.length + 1) % 32768 : Nat)) (l r : K) :
    let o := Spec.taps ws c s.out
    let p := Lits.half * (l + r)
    let g := Lits.ca * Spec.sum16 o + Spec.back (ps ++ [p]) c.predelay.toNat
    ∃ s', step c s l r = .ok (s', mixdown o c.panL, mixdown o c.panR) ∧ s'.out = o ∧
      s'.Holds (ws ++ [fun t => c.fb t * (g + o t)]) (ps ++ [p]) := by
  intro o p g
  have hh := h
  obtain ⟨hl, hp, hpre, hd⟩ := h
  have e0 : preTaps c s Reverb.taps = .ok o := preTaps_ok hh c ht 16 le_rfl
  have epos : index64 ((s.pos : Int) + 1) (maxDelay - 1) = (ws.length + 1) % 32768 := by
    rw [show maxDelay - 1 = 2 ^ 15 - 1 from rfl, index64_eq _ 15 (by norm_num), hp]
    norm_num
    omega
  have hlt : (ws.length + 1) % 32768 < 32768 := Nat.mod_lt _ (by norm_num)
  have epre : getFb c ⟨s.delay, upd s.pre ((ws.length + 1) % 32768) p, o, (ws.length + 1) % 32768⟩ = .ok g := by
    unfold getFb
    dsimp only
    rw [preIdx_ok c _ hlt h0 (by omega) (by rcases hw with h | h <;> [left; right] <;> assumption), Res.ok_bind, load_ok _ (by unfold maxDelay; omega), Res.ok_bind]
    have hs := (holds_step hh (fun t => c.fb t * (g + o t)) p o (d := fun i =>
      if i / 16 = (ws.length + 1) % 32768 ∧ i % 16 < 16 then c.fb (i % 16) * (g + o (i % 16)) else s.delay i) (fun i => rfl)).2.2.1 c.predelay.toNat (by omega)
    simp only [List.length_append, List.length_singleton] at hs
    have : ((((ws.length + 1) % 32768 : Nat) : Int) - c.predelay) % 32768 = (((ws.length + 1 : Nat) : Int) - (c.predelay.toNat : Nat)) % 32768 := by
      rw [Int.toNat_of_nonneg h0]; push_cast
      rw [Int.emod_sub_emod]
    rw [this, hs]
    rfl
  refine ⟨_, ?_, ?_, holds_step hh _ p o (fun i => rfl)⟩
  · unfold step
    rw [e0, Res.ok_bind]
    dsimp only
    rw [epos, epre, Res.ok_bind, show Reverb.taps = 16 from rfl, postTaps_ok c _ g hlt 16 le_rfl]
    rfl
  · rfl

end Verif.Reverb
