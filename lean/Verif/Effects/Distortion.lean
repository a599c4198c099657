import Verif.Biquad.Peak
import Verif.Halfrate.Claims
import Verif.Smooth.Lipol
/-!
# The distortion (C150, C151), in exact real arithmetic

surgefx-distortion at its block size of 32 samples.  Frequencies arrive as angular frequencies, gains in decibels of the two peak filters with their conversion `lin`, drive and
output gain as factors, the selected wave shape as any function.  Buffers are functions from the sample index: the block is the first 32 samples, what follows it in memory is there too, because
the code writes to it.  Not modelled: rounding.
-/
namespace Verif.Effects.Distortion
open Verif.Biquad Verif.Smooth Verif.Halfrate

/-- What is inside the oversampled loop: `left`, `right`, `lp1`, `lp2`. -/
structure Core where
  left : ℝ
  right : ℝ
  lp1 : Filter
  lp2 : Filter

/-- distortion.rs 9-27. -/
structure State where
  core : Core
  band1 : Filter
  band2 : Filter
  drive : LipolPs ℝ
  outgain : LipolPs ℝ
  hrA : St
  hrB : St
  bi : ℕ

/-- Frequency, bandwidth and gain of a peak filter. -/
structure Band where
  ω : ℝ
  bw : ℝ
  gain : ℝ

/-- The parameters (`ReturnLevel` is read nowhere). -/
structure Params where
  lin : ℝ → ℝ
  pre : Band
  post : Band
  preHc : ℝ
  postHc : ℝ
  drive : ℝ
  outgain : ℝ
  feedback : ℝ
  shape : ℝ → ℝ

/-- block.rs 5-10 `denormalizer`. -/
noncomputable def denormalizer (k : ℕ) : ℝ := if k &&& 16 ≠ 0 then 0.00000001 else -0.00000001

/-- block.rs 53-68: one oversampled step. -/
def substep (P : Params) (a l r : ℝ) (c : Core) : Core :=
  let left := l + P.feedback * c.left
  let right := r + P.feedback * c.right
  let p := c.lp1.processSampleNolag left right
  let left := P.shape p.2.1
  let right := P.shape p.2.2
  let left := left + a
  let right := right + a
  let q := c.lp2.processSampleNolag left right
  ⟨q.2.1, q.2.2, p.1, q.1⟩

/-- process.rs 82-90, block.rs 40-70: after `n` oversampled steps of a block; four of them read the same input sample. -/
noncomputable def coreAt (P : Params) (l r : ℕ → ℝ) (c : Core) : ℕ → Core
  | 0 => c
  | n + 1 => substep P (denormalizer (n / 4)) (l (n / 4)) (r (n / 4)) (coreAt P l r c n)

/-- update.rs 65-72 `update`. -/
noncomputable def update (P : Params) (s : State) : State :=
  { s with band1 := s.band1.coeffPeakEq P.lin P.pre.ω P.pre.bw P.pre.gain, band2 := s.band2.coeffPeakEq P.lin P.post.ω P.post.bw P.post.gain,
           core := { s.core with lp1 := (s.core.lp1.coeffLp2b P.preHc 0.707).coeffInstantize, lp2 := (s.core.lp2.coeffLp2b P.postHc 0.707).coeffInstantize } }

/-- update.rs 13-20 `maybe_update`. -/
noncomputable def maybeUpdate (P : Params) (s : State) : State :=
  let s := if s.bi = 0 then update P s else s
  { s with bi := (s.bi + 1) &&& 7 }

/-- A block as the list of its stereo samples. -/
def block (l r : ℕ → ℝ) : List (ℝ × ℝ) := (List.range 32).map fun k => (l k, r k)
/-- A list of samples written over the beginning of a buffer. -/
def over (xs : List ℝ) (d : ℕ → ℝ) (k : ℕ) : ℝ := if k < 32 then xs.getD k 0 else d k

/-- process.rs 20-34: what goes into the oversampled loop, left and right, and the state then. -/
noncomputable def before (P : Params) (l r : ℕ → ℝ) (s : State) : State × (ℕ → ℝ) × (ℕ → ℝ) :=
  let s := maybeUpdate P s
  let p := s.band1.processBlockStereo (block l r)
  let drive := s.drive.setTargetSmoothed P.drive
  let outgain := s.outgain.setTargetSmoothed P.outgain
  ({ s with band1 := p.1, drive := drive, outgain := outgain }, drive.multiply 8 (over (p.2.map Prod.fst) l), drive.multiply 8 (over (p.2.map Prod.snd) r))

/-- The wet block: 128 oversampled samples. -/
noncomputable def wetL (P : Params) (l r : ℕ → ℝ) (s : State) (n : ℕ) : ℝ := (coreAt P (before P l r s).2.1 (before P l r s).2.2 (before P l r s).1.core (n + 1)).left
noncomputable def wetR (P : Params) (l r : ℕ → ℝ) (s : State) (n : ℕ) : ℝ := (coreAt P (before P l r s).2.1 (before P l r s).2.2 (before P l r s).1.core (n + 1)).right

/-- process.rs 5-49 `stereo_process`: both half-band filters read the wet block and write to the data; the output gain reads the wet block again. -/
noncomputable def process (P : Params) (l r : ℕ → ℝ) (s : State) : Res Empty (State × (ℕ → ℝ) × (ℕ → ℝ)) := do
  let b := before P l r s
  let (hrA, dl, dr) ← b.1.hrA.downsample (wetL P l r s) (wetR P l r s) b.2.1 b.2.2 128
  let (hrB, dl, dr) ← b.1.hrB.downsample (wetL P l r s) (wetR P l r s) dl dr 64
  let ol := b.1.outgain.multiplyTo 8 (wetL P l r s) dl
  let or_ := b.1.outgain.multiplyTo 8 (wetR P l r s) dr
  let q := b.1.band2.processBlockStereo (block ol or_)
  pure ({ b.1 with core := coreAt P b.2.1 b.2.2 b.1.core 128, hrA := hrA, hrB := hrB, band2 := q.1 }, over (q.2.map Prod.fst) ol, over (q.2.map Prod.snd) or_)

/-! ## No panic -/

theorem foldlM_ok {α β : Type} (f : α → β → Res Empty α) (xs : List β) (h : ∀ a, ∀ x ∈ xs, ∃ b, f a x = .ok b) : ∀ a, ∃ b, xs.foldlM f a = .ok b := by
  induction xs with
  | nil => exact fun a => ⟨a, rfl⟩
  | cons x xs ih =>
    intro a
    obtain ⟨b, e⟩ := h a x (by simp)
    obtain ⟨c, e'⟩ := ih (fun a x hx => h a x (by simp [hx])) b
    exact ⟨c, by rw [List.foldlM_cons, e, Res.ok_bind, e']⟩

theorem filters_total (h : ℕ) (hb : h * 2 ≤ 256) (s : St) (o : Buf) : ∃ p, processFilters (h * 2) s o = .ok p := by
  unfold processFilters
  refine foldlM_ok _ _ (fun a j _ => ?_) _
  unfold sectionLoop
  obtain ⟨p, e⟩ := foldlM_ok (pair (a.1.va j)) (stepBy (h * 2) 2) (fun q k hk => by
    have : k + 1 < 256 := by
      obtain ⟨i, hi, rfl⟩ := List.mem_map.1 hk
      have := List.mem_range.1 hi
      omega
    simp only [pair, Buf.get, Buf.set, if_pos this, if_pos (show k < 256 by omega), Res.ok_bind]
    exact ⟨_, rfl⟩) (⟨a.1.vx0 j, a.1.vx1 j, a.1.vx2 j, a.1.vy0 j, a.1.vy1 j, a.1.vy2 j⟩, a.2)
  obtain ⟨t, o'⟩ := p
  simp only [e, Res.ok_bind]
  exact ⟨_, rfl⟩

/-- A half-band filter in any state, called for `8 h` samples, writes the first `4 h` samples of the output buffers and leaves the rest; what it writes does not depend on what was there. -/
theorem downsample_total (s : St) (l r : ℕ → ℝ) (h : ℕ) (hb : h * 8 ≤ 256) : ∃ (s' : St) (a b : ℕ → ℝ), ∀ ol or_ : ℕ → ℝ,
    s.downsample l r ol or_ (h * 8) = .ok (s', (fun k => if k < h * 4 then a k else ol k), fun k => if k < h * 4 then b k else or_ k) := by
  obtain ⟨o, e, -⟩ := scratch_ok l r (h * 2) (by omega)
  obtain ⟨⟨s1, o1⟩, p⟩ := filters_total (h * 4) (by omega) s o
  refine ⟨s1, fun k => (o1 (2 * k) 1 + o1 (2 * k + 1) 0) / 2, fun k => (o1 (2 * k) 3 + o1 (2 * k + 1) 2) / 2, fun ol or_ => ?_⟩
  obtain ⟨c, q1, q2, q3⟩ := down_loop o1 ol or_ h hb
  have e1 : createScratch (h * 8) l r = .ok o := by rw [← e]; congr 1; ring
  have p1 : processFilters (h * 8) s o = .ok (s1, o1) := by rw [← p]; congr 1; ring
  simp only [St.downsample, e1, Res.ok_bind, p1, q1, Res.pure_eq]
  have x1 : c.l = fun k => if k < h * 4 then (o1 (2 * k) 1 + o1 (2 * k + 1) 0) / 2 else ol k := funext q2
  have x2 : c.r = fun k => if k < h * 4 then (o1 (2 * k) 3 + o1 (2 * k + 1) 2) / 2 else or_ k := funext q3
  rw [x1, x2]

/-- The output of `process`, spelled out. -/
theorem process_eq (P : Params) (l r : ℕ → ℝ) (s : State) : ∃ (s' : State) (a b : ℕ → ℝ), (∃ sA : St, ∀ ol or_ : ℕ → ℝ,
      (before P l r s).1.hrA.downsample (wetL P l r s) (wetR P l r s) ol or_ 128 = .ok (sA, (fun k => if k < 64 then a k else ol k), fun k => if k < 64 then b k else or_ k)) ∧
    process P l r s = .ok (s',
      over (((before P l r s).1.band2.processBlockStereo (block (fun k => wetL P l r s k * (before P l r s).1.outgain.gain k) (fun k => wetR P l r s k * (before P l r s).1.outgain.gain k))).2.map Prod.fst)
        (fun k => if k < 64 then a k else (before P l r s).2.1 k),
      over (((before P l r s).1.band2.processBlockStereo (block (fun k => wetL P l r s k * (before P l r s).1.outgain.gain k) (fun k => wetR P l r s k * (before P l r s).1.outgain.gain k))).2.map Prod.snd)
        (fun k => if k < 64 then b k else (before P l r s).2.2 k)) ∧
    s'.core = coreAt P (before P l r s).2.1 (before P l r s).2.2 (before P l r s).1.core 128 ∧ s'.bi = (before P l r s).1.bi ∧
    s'.band2 = ((before P l r s).1.band2.processBlockStereo (block (fun k => wetL P l r s k * (before P l r s).1.outgain.gain k) (fun k => wetR P l r s k * (before P l r s).1.outgain.gain k))).1 ∧
    s'.outgain = (before P l r s).1.outgain := by
  obtain ⟨sA, aA, bA, hA⟩ := downsample_total (before P l r s).1.hrA (wetL P l r s) (wetR P l r s) 16 (by norm_num)
  obtain ⟨sB, aB, bB, hB⟩ := downsample_total (before P l r s).1.hrB (wetL P l r s) (wetR P l r s) 8 (by norm_num)
  have eA := hA (before P l r s).2.1 (before P l r s).2.2
  have eB := hB (fun k => if k < 16 * 4 then aA k else (before P l r s).2.1 k) (fun k => if k < 16 * 4 then bA k else (before P l r s).2.2 k)
  norm_num at eA eB
  have m : ∀ (w d d' : ℕ → ℝ) (x : ℕ → ℝ), (∀ k, 32 ≤ k → d k = d' k) → ∀ k, (before P l r s).1.outgain.multiplyTo 8 w d k = if k < 32 then w k * (before P l r s).1.outgain.gain k else d' k := by
    intro w d d' x hd k
    have t := C53_block_repeats_first_segment (before P l r s).1.outgain (n := 8) rfl w x d k
    by_cases h : k < 32
    · rw [if_pos h]; exact (t.2 (by omega)).2.2.2.2.2.1
    · rw [if_neg h, ← hd k (by omega)]; exact (t.1 (by omega)).2.2.2.2.2.1
  have mL := m (wetL P l r s) (fun k => if k < 32 then aB k else if k < 64 then aA k else (before P l r s).2.1 k) (fun k => if k < 64 then aA k else (before P l r s).2.1 k) 0
    (fun k hk => if_neg (by omega))
  have mR := m (wetR P l r s) (fun k => if k < 32 then bB k else if k < 64 then bA k else (before P l r s).2.2 k) (fun k => if k < 64 then bA k else (before P l r s).2.2 k) 0
    (fun k hk => if_neg (by omega))
  have bl : block ((before P l r s).1.outgain.multiplyTo 8 (wetL P l r s) (fun k => if k < 32 then aB k else if k < 64 then aA k else (before P l r s).2.1 k))
      ((before P l r s).1.outgain.multiplyTo 8 (wetR P l r s) (fun k => if k < 32 then bB k else if k < 64 then bA k else (before P l r s).2.2 k)) =
      block (fun k => wetL P l r s k * (before P l r s).1.outgain.gain k) (fun k => wetR P l r s k * (before P l r s).1.outgain.gain k) := by
    unfold block
    refine List.map_congr_left fun k hk => ?_
    have := List.mem_range.1 hk
    rw [mL, mR, if_pos this, if_pos this]
  have ov : ∀ (xs : List ℝ) (d d' : ℕ → ℝ), (∀ k, 32 ≤ k → d k = d' k) → over xs d = over xs d' := fun xs d d' h => by
    funext k; unfold over; split
    · rfl
    · exact h k (by omega)
  refine ⟨⟨coreAt P (before P l r s).2.1 (before P l r s).2.2 (before P l r s).1.core 128, (before P l r s).1.band1,
    ((before P l r s).1.band2.processBlockStereo (block (fun k => wetL P l r s k * (before P l r s).1.outgain.gain k) (fun k => wetR P l r s k * (before P l r s).1.outgain.gain k))).1,
    (before P l r s).1.drive, (before P l r s).1.outgain, sA, sB, (before P l r s).1.bi⟩,
    aA, bA, ⟨sA, hA⟩, ?_, rfl, rfl, rfl, rfl⟩
  simp only [process, eA, Res.ok_bind, eB, Res.pure_eq]
  rw [bl]
  have o1 := fun xs => ov xs _ _ (fun k hk => (mL k).trans (if_neg (by omega)))
  have o2 := fun xs => ov xs _ _ (fun k hk => (mR k).trans (if_neg (by omega)))
  rw [o1, o2]

/-! ## What the output depends on -/

theorem stereoLoop_take (xs : List (ℝ × ℝ)) : ∀ (f : Filter) (n : ℕ), (f.stereoLoop xs).2.take n = (f.stereoLoop (xs.take n)).2 := by
  induction xs with
  | nil => intro f n; simp [Filter.stereoLoop]
  | cons x xs ih =>
    intro f n
    cases n with
    | zero => simp [Filter.stereoLoop]
    | succ n => simp only [Filter.stereoLoop, List.take_succ_cons, ih]

theorem block_take {l r l' r' : ℕ → ℝ} {n : ℕ} (h : ∀ k < n, l k = l' k ∧ r k = r' k) : (block l r).take n = (block l' r').take n := by
  simp only [block, ← List.map_take, List.take_range]
  refine List.map_congr_left fun k hk => ?_
  have := List.mem_range.1 hk
  obtain ⟨a, b⟩ := h k (by omega)
  rw [a, b]

theorem getD_of_take {α : Type} {xs ys : List α} {n k : ℕ} (h : xs.take n = ys.take n) (hk : k < n) (d : α) : xs.getD k d = ys.getD k d := by
  have a : (xs.take n).getD k d = xs.getD k d := by simp [List.getD, List.getElem?_take, hk]
  have b : (ys.take n).getD k d = ys.getD k d := by simp [List.getD, List.getElem?_take, hk]
  rw [← a, h, b]

theorem stereo_prefix (f : Filter) {l r l' r' : ℕ → ℝ} {n : ℕ} (h : ∀ k < n, l k = l' k ∧ r k = r' k) :
    (f.processBlockStereo (block l r)).2.take n = (f.processBlockStereo (block l' r')).2.take n := by
  simp only [Filter.processBlockStereo]
  rw [stereoLoop_take, stereoLoop_take, block_take h]

theorem before_input (P : Params) (s : State) {l r l' r' : ℕ → ℝ} {n : ℕ} (hn : n ≤ 32) (h : ∀ k < n, l k = l' k ∧ r k = r' k) :
    (∀ k < n, (before P l r s).2.1 k = (before P l' r' s).2.1 k ∧ (before P l r s).2.2 k = (before P l' r' s).2.2 k) ∧
    (before P l r s).1.core = (before P l' r' s).1.core ∧ (before P l r s).1.outgain = (before P l' r' s).1.outgain ∧ (before P l r s).1.band2 = (before P l' r' s).1.band2 := by
  refine ⟨fun k hk => ?_, rfl, rfl, rfl⟩
  have e := stereo_prefix (maybeUpdate P s).band1 h
  have e1 : (((maybeUpdate P s).band1.processBlockStereo (block l r)).2.map Prod.fst).take n = (((maybeUpdate P s).band1.processBlockStereo (block l' r')).2.map Prod.fst).take n := by
    rw [← List.map_take, e, List.map_take]
  have e2 : (((maybeUpdate P s).band1.processBlockStereo (block l r)).2.map Prod.snd).take n = (((maybeUpdate P s).band1.processBlockStereo (block l' r')).2.map Prod.snd).take n := by
    rw [← List.map_take, e, List.map_take]
  have m : ∀ (g : LipolPs ℝ) (d : ℕ → ℝ), g.multiply 8 d k = d k * g.gain k := fun g d =>
    ((C53_block_repeats_first_segment g (n := 8) rfl d d d k).2 (by omega)).2.2.2.1
  simp only [before, m, over, if_pos (show k < 32 by omega)]
  rw [getD_of_take e1 hk, getD_of_take e2 hk]
  exact ⟨rfl, rfl⟩

theorem coreAt_prefix (P : Params) (c : Core) {l r l' r' : ℕ → ℝ} {n : ℕ} (h : ∀ k < n, l k = l' k ∧ r k = r' k) : ∀ j ≤ 4 * n, coreAt P l r c j = coreAt P l' r' c j
  | 0, _ => rfl
  | j + 1, hj => by
    obtain ⟨a, b⟩ := h (j / 4) (by omega)
    simp only [coreAt, coreAt_prefix P c h j (by omega), a, b]

/-- **C150 (refutation).** A block of output is made from the first eight samples of the block of input: two blocks of 32 samples which agree there give the same output, whatever the rest.
(The oversampled signal is not brought back to the sample rate: the first quarter of it is played.) -/
theorem C150_first_eight_refuted (P : Params) (s : State) {l r l' r' : ℕ → ℝ} (h : ∀ k < 8, l k = l' k ∧ r k = r' k) :
    ∃ s1 s2 ol or_ ol' or', process P l r s = .ok (s1, ol, or_) ∧ process P l' r' s = .ok (s2, ol', or') ∧ ∀ k < 32, ol k = ol' k ∧ or_ k = or' k := by
  obtain ⟨s1, a, b, -, e, -⟩ := process_eq P l r s
  obtain ⟨s2, a', b', -, e', -⟩ := process_eq P l' r' s
  refine ⟨s1, s2, _, _, _, _, e, e', fun k hk => ?_⟩
  obtain ⟨hi, hc, ho, hb⟩ := before_input P s (by norm_num) h
  have w : ∀ j < 32, wetL P l r s j = wetL P l' r' s j ∧ wetR P l r s j = wetR P l' r' s j := fun j hj => by
    unfold wetL wetR
    rw [hc, coreAt_prefix P _ hi (j + 1) (by omega)]
    exact ⟨rfl, rfl⟩
  have bl : block (fun k => wetL P l r s k * (before P l r s).1.outgain.gain k) (fun k => wetR P l r s k * (before P l r s).1.outgain.gain k) =
      block (fun k => wetL P l' r' s k * (before P l' r' s).1.outgain.gain k) (fun k => wetR P l' r' s k * (before P l' r' s).1.outgain.gain k) := by
    unfold block
    refine List.map_congr_left fun k hk => ?_
    obtain ⟨x, y⟩ := w k (List.mem_range.1 hk)
    simp only [x, y, ho]
  rw [bl, hb]
  unfold over
  rw [if_pos hk, if_pos hk, if_pos hk, if_pos hk]
  exact ⟨rfl, rfl⟩

theorem foldlM_congr {α β : Type} {f g : α → β → Res Empty α} {xs : List β} (h : ∀ a, ∀ x ∈ xs, f a x = g a x) : ∀ a, xs.foldlM f a = xs.foldlM g a := by
  induction xs with
  | nil => exact fun a => rfl
  | cons x xs ih =>
    intro a
    rw [List.foldlM_cons, List.foldlM_cons, h a x (by simp)]
    congr 1
    funext b
    exact ih (fun a x hx => h a x (by simp [hx])) b

theorem scratch_congr {l r l' r' : ℕ → ℝ} (h : ∀ k < 128, l k = l' k ∧ r k = r' k) : createScratch 128 l r = createScratch 128 l' r' := by
  refine foldlM_congr (fun o k hk => ?_) _
  have hk : k < 128 := by
    obtain ⟨i, hi, rfl⟩ := List.mem_map.1 hk
    have := List.mem_range.1 hi
    omega
  have v : vec l (k / 4) = vec l' (k / 4) ∧ vec r (k / 4) = vec r' (k / 4) := by
    constructor
    · simp only [vec, (h (4 * (k / 4)) (by omega)).1, (h (4 * (k / 4) + 1) (by omega)).1, (h (4 * (k / 4) + 2) (by omega)).1, (h (4 * (k / 4) + 3) (by omega)).1]
    · simp only [vec, (h (4 * (k / 4)) (by omega)).2, (h (4 * (k / 4) + 1) (by omega)).2, (h (4 * (k / 4) + 2) (by omega)).2, (h (4 * (k / 4) + 3) (by omega)).2]
  unfold scratchGroup
  rw [v.1, v.2]

/-- **C150 (refutation).** The 32 samples after the block in memory do not survive: for given input and state they are overwritten with values that do not depend on what was there.
(What follows them does.) -/
theorem C150_overrun_refuted (P : Params) (s : State) (l r : ℕ → ℝ) : ∃ a b : ℕ → ℝ, ∀ l' r' : ℕ → ℝ, (∀ k < 32, l k = l' k ∧ r k = r' k) →
    ∃ s' ol or_, process P l' r' s = .ok (s', ol, or_) ∧ (∀ k, 32 ≤ k → k < 64 → ol k = a k ∧ or_ k = b k) ∧ ∀ k, 64 ≤ k → ol k = l' k ∧ or_ k = r' k := by
  obtain ⟨sA, a, b, hA⟩ := downsample_total (before P l r s).1.hrA (wetL P l r s) (wetR P l r s) 16 (by norm_num)
  refine ⟨a, b, fun l' r' h => ?_⟩
  obtain ⟨s', a', b', ⟨sA', hA'⟩, e, -⟩ := process_eq P l' r' s
  obtain ⟨hi, hc, ho, hb⟩ := before_input P s le_rfl h
  have w : ∀ j < 128, wetL P l r s j = wetL P l' r' s j ∧ wetR P l r s j = wetR P l' r' s j := fun j hj => by
    unfold wetL wetR
    rw [hc, coreAt_prefix P _ hi (j + 1) (by omega)]
    exact ⟨rfl, rfl⟩
  have d : ∀ ol or_ : ℕ → ℝ, (before P l r s).1.hrA.downsample (wetL P l r s) (wetR P l r s) ol or_ 128 = (before P l' r' s).1.hrA.downsample (wetL P l' r' s) (wetR P l' r' s) ol or_ 128 := by
    intro ol or_
    unfold St.downsample
    rw [scratch_congr w]
    rfl
  have u : (fun k => if k < 64 then a k else (0 : ℝ)) = (fun k => if k < 64 then a' k else 0) ∧ (fun k => if k < 64 then b k else (0 : ℝ)) = fun k => if k < 64 then b' k else 0 := by
    have x := (hA (fun _ => 0) (fun _ => 0)).symm.trans ((d _ _).trans (hA' (fun _ => 0) (fun _ => 0)))
    injection x with x
    injection x with _ x
    injection x with x y
    exact ⟨x, y⟩
  have m : ∀ (g : LipolPs ℝ) (d : ℕ → ℝ) (k : ℕ), 32 ≤ k → g.multiply 8 d k = d k := fun g d k hk =>
    ((C53_block_repeats_first_segment g (n := 8) rfl d d d k).1 (by omega)).2.2.2.1
  refine ⟨s', _, _, e, fun k h1 h2 => ?_, fun k h1 => ?_⟩
  · have x := congrFun u.1 k
    have y := congrFun u.2 k
    simp only [if_pos h2] at x y
    simp only [over, if_neg (show ¬ k < 32 by omega), if_pos h2]
    exact ⟨x.symm, y.symm⟩
  · simp only [over, if_neg (show ¬ k < 32 by omega), if_neg (show ¬ k < 64 by omega)]
    simp only [before]
    rw [m _ _ k (by omega), m _ _ k (by omega)]
    simp only [over, if_neg (show ¬ k < 32 by omega), and_self]

/-! ## Boundedness -/

/-- The register pairs of one channel of a resting filter within reach from empty registers, when each step adds at most `D`. -/
inductive Reach (c : Cf) (D : ℝ) : ℝ × ℝ → Prop
  | zero : Reach c D (0, 0)
  | step {s : ℝ × ℝ} {d e : ℝ} : Reach c D s → |d| ≤ D → |e| ≤ D → Reach c D (-c.a1 * s.1 + s.2 + d, -c.a2 * s.1 + e)

theorem reach_seq {c : Cf} {D : ℝ} {s : ℝ × ℝ} (h : Reach c D s) : ∃ (N : ℕ) (σ d : ℕ → ℝ × ℝ), σ 0 = (0, 0) ∧ σ N = s ∧
    (∀ n < N, σ (n + 1) = (-c.a1 * (σ n).1 + (σ n).2 + (d n).1, -c.a2 * (σ n).1 + (d n).2)) ∧ ∀ n < N, |(d n).1| ≤ D ∧ |(d n).2| ≤ D := by
  induction h with
  | zero => exact ⟨0, fun _ => (0, 0), fun _ => (0, 0), rfl, rfl, fun n hn => absurd hn (by omega), fun n hn => absurd hn (by omega)⟩
  | @step s x y _ hx hy ih =>
    obtain ⟨N, σ, d, h0, hN, hr, hd⟩ := ih
    refine ⟨N + 1, fun n => if n ≤ N then σ n else (-c.a1 * s.1 + s.2 + x, -c.a2 * s.1 + y), fun n => if n < N then d n else (x, y), ?_, ?_, ?_, ?_⟩
    · simp [h0]
    · simp
    · intro n hn
      by_cases h : n < N
      · simp only [if_pos (show n + 1 ≤ N by omega), if_pos (show n ≤ N by omega), if_pos h]; exact hr n h
      · have e : n = N := by omega
        subst e
        simp [hN]
    · intro n hn
      by_cases h : n < N
      · simp only [if_pos h]; exact hd n h
      · simp only [if_neg h]; exact ⟨hx, hy⟩

theorem reach_bound {c : Cf} (hc : Spec.Stable c) : ∃ K, 0 ≤ K ∧ ∀ D s, 0 ≤ D → Reach c D s → |s.1| ≤ K * D := by
  obtain ⟨K, r, K0, -, -, hb⟩ := seq_bound hc
  refine ⟨K, K0, fun D s D0 h => ?_⟩
  obtain ⟨N, σ, d, h0, hN, hr, hd⟩ := reach_seq h
  have := (hb N σ d D hr hd D0 N le_rfl).1
  rw [hN, h0] at this
  simpa using this

/-- How much an input of at most `X` moves the registers in one step, plus what flushing changes. -/
noncomputable def push (c : Cf) (X : ℝ) : ℝ := (|c.b1| + |c.b2| + (|c.a1| + |c.a2|) * |c.b0|) * X + 1e-30

theorem push_nonneg (c : Cf) {X : ℝ} (hX : 0 ≤ X) : 0 ≤ push c X := by
  have := abs_nonneg c.b0; have := abs_nonneg c.b1; have := abs_nonneg c.b2; have := abs_nonneg c.a1; have := abs_nonneg c.a2
  have : (0 : ℝ) ≤ 1e-30 := by norm_num
  unfold push; positivity

theorem flush_near (x : ℝ) : ∃ d, flush x = x + d ∧ |d| ≤ 1e-30 := by
  unfold flush
  split
  · rename_i h; exact ⟨-x, by ring, by rw [abs_neg]; exact h.le⟩
  · exact ⟨0, by ring, by norm_num⟩

/-- One step of one channel, and what is left of it after flushing. -/
theorem chan_reach {c : Cf} {X x r0 r1 : ℝ} (hx : |x| ≤ X) (h : Reach c (push c X) (r0, r1)) :
    Reach c (push c X) (chan c x r0 r1).2 ∧ Reach c (push c X) (flush (chan c x r0 r1).2.1, flush (chan c x r0 r1).2.2) := by
  have b0 := abs_nonneg c.b0; have b1 := abs_nonneg c.b1; have b2 := abs_nonneg c.b2; have a1 := abs_nonneg c.a1; have a2 := abs_nonneg c.a2
  have X0 : 0 ≤ X := (abs_nonneg _).trans hx
  have one : ∀ b a δ : ℝ, (|b| + |a| * |c.b0|) ≤ |c.b1| + |c.b2| + (|c.a1| + |c.a2|) * |c.b0| → |δ| ≤ 1e-30 → |(b - a * c.b0) * x + δ| ≤ push c X := by
    intro b a δ h hδ
    refine (abs_add_le _ _).trans (add_le_add ?_ hδ)
    rw [abs_mul]
    have t : |b - a * c.b0| ≤ |b| + |a| * |c.b0| := by rw [← abs_mul]; exact abs_sub _ _
    exact mul_le_mul (t.trans h) hx (abs_nonneg _) (by positivity)
  have m1 := mul_nonneg a1 b0
  have m2 := mul_nonneg a2 b0
  have gen : ∀ δ ε : ℝ, |δ| ≤ 1e-30 → |ε| ≤ 1e-30 → Reach c (push c X) ((chan c x r0 r1).2.1 + δ, (chan c x r0 r1).2.2 + ε) := by
    intro δ ε hδ hε
    have := Reach.step h (one c.b1 c.a1 δ (by nlinarith) hδ) (one c.b2 c.a2 ε (by nlinarith) hε)
    convert this using 2
    · simp only [chan]; ring
    · simp only [chan]; ring
  constructor
  · have := gen 0 0 (by norm_num) (by norm_num)
    rw [add_zero, add_zero] at this
    exact this
  · obtain ⟨δ, e1, hδ⟩ := flush_near (chan c x r0 r1).2.1
    obtain ⟨ε, e2, hε⟩ := flush_near (chan c x r0 r1).2.2
    rw [e1, e2]
    exact gen δ ε hδ hε

/-- A filter that rests at `c` and whose registers are within reach of inputs up to `X`. -/
structure Calm (c : Cf) (X : ℝ) (f : Filter) : Prop where
  rests : Rests c f
  left : Reach c (push c X) (f.reg0.1, f.reg1.1)
  right : Reach c (push c X) (f.reg0.2, f.reg1.2)

/-- What is left of an input of at most `X` after a resting filter. -/
theorem calm_out {c : Cf} (hc : Spec.Stable c) : ∃ K, 0 ≤ K ∧ ∀ X x r0 r1 : ℝ, 0 ≤ X → |x| ≤ X → Reach c (push c X) (r0, r1) → |(chan c x r0 r1).1| ≤ K * (X + 1e-30) := by
  obtain ⟨K, K0, hK⟩ := reach_bound hc
  set B := |c.b1| + |c.b2| + (|c.a1| + |c.a2|) * |c.b0| with hB
  have b0 := abs_nonneg c.b0; have b1 := abs_nonneg c.b1; have b2 := abs_nonneg c.b2; have a1 := abs_nonneg c.a1; have a2 := abs_nonneg c.a2
  have B0 : 0 ≤ B := by positivity
  refine ⟨|c.b0| + K * (B + 1), by positivity, fun X x r0 r1 X0 hx h => ?_⟩
  have t := hK _ _ (push_nonneg c X0) h
  simp only at t
  have e : push c X = B * X + 1e-30 := rfl
  rw [e] at t
  have ε0 : (0 : ℝ) ≤ 1e-30 := by norm_num
  generalize (1e-30 : ℝ) = ε at *
  have u : |x * c.b0| ≤ |c.b0| * X := by rw [abs_mul, mul_comm]; exact mul_le_mul_of_nonneg_left hx b0
  have v : |x * c.b0 + r0| ≤ |c.b0| * X + K * (B * X + ε) := (abs_add_le _ _).trans (add_le_add u t)
  refine v.trans ?_
  have : 0 ≤ |c.b0| * ε := by positivity
  have : 0 ≤ K * X := by positivity
  have : 0 ≤ K * B * ε := by positivity
  nlinarith

theorem calm_nolag {c : Cf} {X : ℝ} {f : Filter} (h : Calm c X f) {l r : ℝ} (hl : |l| ≤ X) (hr : |r| ≤ X) : Calm c X (f.processSampleNolag l r).1 ∧
    (f.processSampleNolag l r).2 = ((chan c l f.reg0.1 f.reg1.1).1, (chan c r f.reg0.2 f.reg1.2).1) := by
  obtain ⟨h1, h2, h3⟩ := h
  have e := rests_cf h1
  refine ⟨⟨h1, ?_, ?_⟩, ?_⟩
  · have := (chan_reach hl h2).1
    rw [← e] at this ⊢; exact this
  · have := (chan_reach hr h3).1
    rw [← e] at this ⊢; exact this
  · rw [← e]; rfl

theorem calm_loop {c : Cf} {K : ℝ} (hK : ∀ X x r0 r1 : ℝ, 0 ≤ X → |x| ≤ X → Reach c (push c X) (r0, r1) → |(chan c x r0 r1).1| ≤ K * (X + 1e-30)) {X : ℝ} (hX : 0 ≤ X)
    (xs : List (ℝ × ℝ)) : ∀ f : Filter, Calm c X f → (∀ x ∈ xs, |x.1| ≤ X ∧ |x.2| ≤ X) →
    Calm c X (f.stereoLoop xs).1 ∧ (xs ≠ [] → Calm c X (f.stereoLoop xs).1.flushBoth) ∧ (f.stereoLoop xs).1.firstRun = f.firstRun ∧ ∀ y ∈ (f.stereoLoop xs).2, |y.1| ≤ K * (X + 1e-30) ∧ |y.2| ≤ K * (X + 1e-30) := by
  induction xs with
  | nil => exact fun f h _ => ⟨h, fun h => absurd rfl h, rfl, by simp [Filter.stereoLoop]⟩
  | cons x xs ih =>
    intro f h hx
    obtain ⟨l, r⟩ := x
    have h' : Calm c X f.coeffProcess := ⟨rests_process h.rests, h.left, h.right⟩
    obtain ⟨hl, hr⟩ := hx (l, r) (by simp)
    obtain ⟨n1, n2⟩ := calm_nolag h' hl hr
    obtain ⟨i1, i2, i3, i4⟩ := ih _ n1 (fun x hx' => hx x (by simp [hx']))
    refine ⟨i1, fun _ => ?_, i3, fun y hy => ?_⟩
    · rcases xs with _ | ⟨z, zs⟩
      · have e := rests_cf h'.rests
        refine ⟨n1.rests, ?_, ?_⟩
        · have := (chan_reach hl h'.left).2
          rw [← e] at this ⊢; exact this
        · have := (chan_reach hr h'.right).2
          rw [← e] at this ⊢; exact this
      · exact i2 (by simp)
    · simp only [Filter.stereoLoop, List.mem_cons] at hy
      rcases hy with rfl | hy
      · have := congrArg Prod.fst n2
        have w := congrArg Prod.snd n2
        simp only [Filter.processSampleNolag] at this w
        simp only [this, w]
        exact ⟨hK X l _ _ hX hl h'.left, hK X r _ _ hX hr h'.right⟩
      · exact i4 y hy

/-- The coefficients of the low-pass behind the shaper. -/
noncomputable def lpCf (ω : ℝ) : Cf := (Filter.new.coeffLp2b ω 0.707).cf
/-- The coefficients of the peak filter behind everything. -/
noncomputable def peakCf (lin : ℝ → ℝ) (b : Band) : Cf := (Filter.new.coeffPeakEq lin b.ω b.bw b.gain).cf

theorem lp_shape (ω : ℝ) : ∃ a0 a1 a2 b0 b1 b2, (∀ f : Filter, f.coeffLp2b ω 0.707 = f.setCoef a0 a1 a2 b0 b1 b2) ∧
    (0 < ω → ω ≠ Real.pi → Spec.Stable (Spec.normal a0 a1 a2 b0 b1 b2)) := by
  by_cases h : ω > Real.pi
  · refine ⟨1, 0, 0, 1, 0, 0, fun f => if_pos h, fun _ _ => ?_⟩
    simp [Spec.Stable, Spec.normal]
  · refine ⟨_, _, _, _, _, _, fun f => if_neg h, fun h0 h1 => ?_⟩
    have hl : ω < Real.pi := lt_of_le_of_ne (not_lt.1 h) h1
    exact stable_of_alpha (alpha_pos h0 hl (by norm_num)) (cos_lt_one_abs h0 hl) _ _ _

theorem peak_shape (lin : ℝ → ℝ) (b : Band) : ∃ a0 a1 a2 b0 b1 b2, ∀ f : Filter, f.coeffPeakEq lin b.ω b.bw b.gain = f.setCoef a0 a1 a2 b0 b1 b2 := by
  unfold Filter.coeffPeakEq
  by_cases h : |lin b.gain - 1| > 0.00001
  · by_cases h' : b.ω > Real.pi
    · exact ⟨_, _, _, _, _, _, fun f => by simp only [if_pos h, if_pos h', Filter.setPeak]; rfl⟩
    · exact ⟨_, _, _, _, _, _, fun f => by simp only [if_pos h, if_neg h', Filter.setPeak]; rfl⟩
  · exact ⟨_, _, _, _, _, _, fun f => by simp only [if_neg h]; rfl⟩

theorem setCoef_regs (f : Filter) (a0 a1 a2 b0 b1 b2 : ℝ) : (f.setCoef a0 a1 a2 b0 b1 b2).reg0 = f.reg0 ∧ (f.setCoef a0 a1 a2 b0 b1 b2).reg1 = f.reg1 ∧ (f.setCoef a0 a1 a2 b0 b1 b2).firstRun = false := by
  simp only [Filter.setCoef, Filter.newValues, Filter.start]
  split
  · exact ⟨rfl, rfl, rfl⟩
  · exact ⟨rfl, rfl, by simpa using ‹¬ f.firstRun = true›⟩

theorem instant_rests (f : Filter) (a0 a1 a2 b0 b1 b2 : ℝ) : Rests (Spec.normal a0 a1 a2 b0 b1 b2) (f.setCoef a0 a1 a2 b0 b1 b2).coeffInstantize := by
  simp only [Rests, Filter.coeffInstantize, Filter.setCoef, Filter.newValues, VLag.newValue, VLag.instantize, Spec.normal, mul_one_div, and_self]

theorem setCoef_again {f : Filter} {a0 a1 a2 b0 b1 b2 : ℝ} (hr : Rests (Spec.normal a0 a1 a2 b0 b1 b2) f) (hf : f.firstRun = false) : f.setCoef a0 a1 a2 b0 b1 b2 = f := by
  obtain ⟨h1, h2, h3, h4, h5⟩ := hr
  simp only [Filter.setCoef, Filter.start, hf, Bool.false_eq_true, if_false, Filter.newValues]
  cases f
  simp only [Spec.normal] at h1 h2 h3 h4 h5
  simp only [h1, h2, h3, h4, h5, VLag.newValue, mul_one_div]
  simp_all

/-- init.rs 5-22, 27-50: the state before the first block (what the two peak filters and the low-passes hold besides empty registers does not matter). -/
structure Spec.Start (s : State) : Prop where
  bi : s.bi = 0
  left : s.core.left = 0
  right : s.core.right = 0
  regs : s.core.lp2.reg0 = (0, 0) ∧ s.core.lp2.reg1 = (0, 0) ∧ s.band2.reg0 = (0, 0) ∧ s.band2.reg1 = (0, 0)
  first : s.band2.firstRun = true
  out : s.outgain.target = 0 ∧ s.outgain.blockSize = 32

/-- The parameters this claim is about: the cutoff and the peak filter after the shaper are given, the shape and the output gain bounded; the filters before it, drive and feedback are free. -/
structure Spec.Tame (lin : ℝ → ℝ) (post : Band) (ω W G : ℝ) (P : Params) : Prop where
  lin : P.lin = lin
  post : P.post = post
  hc : P.postHc = ω
  shape : ∀ x, |P.shape x| ≤ W
  gain : |P.outgain| ≤ G

/-- The states some number of blocks leads to. -/
inductive Spec.Run (ok : Params → Prop) : State → Prop
  | start {s} : Spec.Start s → Spec.Run ok s
  | block {s s' : State} {P : Params} {l r ol or_ : ℕ → ℝ} : Spec.Run ok s → ok P → process P l r s = .ok (s', ol, or_) → Spec.Run ok s'

structure Inv (c cb : Cf) (X Y G : ℝ) (s : State) : Prop where
  lp : s.bi = 0 ∨ Rests c s.core.lp2
  left : Reach c (push c X) (s.core.lp2.reg0.1, s.core.lp2.reg1.1)
  right : Reach c (push c X) (s.core.lp2.reg0.2, s.core.lp2.reg1.2)
  band : (s.bi = 0 ∧ s.band2.firstRun = true ∧ s.band2.reg0 = (0, 0) ∧ s.band2.reg1 = (0, 0)) ∨ (s.band2.firstRun = false ∧ Calm cb Y s.band2)
  out : |s.outgain.target| ≤ G ∧ s.outgain.blockSize = 32

theorem inv_start {c cb : Cf} {X Y G : ℝ} (hG : 0 ≤ G) {s : State} (h : Spec.Start s) : Inv c cb X Y G s := by
  obtain ⟨h1, -, -, ⟨r1, r2, r3, r4⟩, h3, h4, h5⟩ := h
  refine ⟨.inl h1, by rw [r1, r2]; exact .zero, by rw [r1, r2]; exact .zero, .inl ⟨h1, h3, r3, r4⟩, by rw [h4]; simpa using hG, h5⟩

theorem inv_update {lin : ℝ → ℝ} {post : Band} {ω W G X Y : ℝ} {P : Params} (hP : Spec.Tame lin post ω W G P) {s : State} (h : Inv (lpCf ω) (peakCf lin post) X Y G s) :
    Calm (lpCf ω) X (maybeUpdate P s).core.lp2 ∧ (maybeUpdate P s).band2.firstRun = false ∧ Calm (peakCf lin post) Y (maybeUpdate P s).band2 := by
  obtain ⟨p1, p2, p3, -, -⟩ := hP
  obtain ⟨a0, a1, a2, b0, b1, b2, e, -⟩ := lp_shape ω
  obtain ⟨c0, c1, c2, d0, d1, d2, e'⟩ := peak_shape lin post
  have ec : lpCf ω = Spec.normal a0 a1 a2 b0 b1 b2 := by unfold lpCf; rw [e]; exact rests_cf (setCoef_first Filter.new rfl ..)
  have ec' : peakCf lin post = Spec.normal c0 c1 c2 d0 d1 d2 := by unfold peakCf; rw [e']; exact rests_cf (setCoef_first Filter.new rfl ..)
  obtain ⟨h1, h2, h3, h4, h5⟩ := h
  by_cases hb : s.bi = 0
  · have l : (maybeUpdate P s).core.lp2 = (s.core.lp2.setCoef a0 a1 a2 b0 b1 b2).coeffInstantize := by
      simp only [maybeUpdate, if_pos hb, update, p3, e]
    have b : (maybeUpdate P s).band2 = s.band2.setCoef c0 c1 c2 d0 d1 d2 := by
      simp only [maybeUpdate, if_pos hb, update, p1, p2, e']
    obtain ⟨q0, q1, -⟩ := setCoef_regs s.core.lp2 a0 a1 a2 b0 b1 b2
    obtain ⟨t0, t1, t2⟩ := setCoef_regs s.band2 c0 c1 c2 d0 d1 d2
    rw [l, b]
    refine ⟨⟨by rw [ec]; exact instant_rests .., ?_, ?_⟩, t2, ?_⟩
    · show Reach _ _ ((s.core.lp2.setCoef a0 a1 a2 b0 b1 b2).reg0.1, (s.core.lp2.setCoef a0 a1 a2 b0 b1 b2).reg1.1); rw [q0, q1]; exact h2
    · show Reach _ _ ((s.core.lp2.setCoef a0 a1 a2 b0 b1 b2).reg0.2, (s.core.lp2.setCoef a0 a1 a2 b0 b1 b2).reg1.2); rw [q0, q1]; exact h3
    · rcases h4 with ⟨-, k1, k2, k3⟩ | ⟨k1, k2⟩
      · refine ⟨by rw [ec']; exact setCoef_first _ k1 .., ?_, ?_⟩
        · rw [t0, t1, k2, k3]; exact .zero
        · rw [t0, t1, k2, k3]; exact .zero
      · rw [setCoef_again (ec' ▸ k2.rests) k1]; exact k2
  · have u : (maybeUpdate P s).core = s.core ∧ (maybeUpdate P s).band2 = s.band2 := by simp only [maybeUpdate, if_neg hb, and_self]
    rw [u.1, u.2]
    rcases h4 with ⟨k, -⟩ | ⟨k1, k2⟩
    · exact absurd k hb
    · exact ⟨⟨h1.resolve_left hb, h2, h3⟩, k1, k2⟩

theorem denorm_small (k : ℕ) : |denormalizer k| ≤ 1 := by unfold denormalizer; split <;> norm_num

theorem core_calm {c : Cf} {W K : ℝ} (hW : 0 ≤ W) (hK : ∀ X x r0 r1 : ℝ, 0 ≤ X → |x| ≤ X → Reach c (push c X) (r0, r1) → |(chan c x r0 r1).1| ≤ K * (X + 1e-30)) {P : Params}
    (hs : ∀ x, |P.shape x| ≤ W) (l r : ℕ → ℝ) {k : Core} (h : Calm c (W + 1) k.lp2) : ∀ n, Calm c (W + 1) (coreAt P l r k n).lp2 ∧
      (0 < n → |(coreAt P l r k n).left| ≤ K * (W + 1 + 1e-30) ∧ |(coreAt P l r k n).right| ≤ K * (W + 1 + 1e-30))
  | 0 => ⟨h, fun h => absurd h (by omega)⟩
  | n + 1 => by
    obtain ⟨ih, -⟩ := core_calm hW hK hs l r h n
    have b : ∀ x, |P.shape x + denormalizer (n / 4)| ≤ W + 1 := fun x => (abs_add_le _ _).trans (add_le_add (hs x) (denorm_small _))
    simp only [coreAt, substep]
    obtain ⟨n1, n2⟩ := calm_nolag ih (b (((coreAt P l r k n).lp1.processSampleNolag (l (n / 4) + P.feedback * (coreAt P l r k n).left) (r (n / 4) + P.feedback * (coreAt P l r k n).right)).2.1))
      (b (((coreAt P l r k n).lp1.processSampleNolag (l (n / 4) + P.feedback * (coreAt P l r k n).left) (r (n / 4) + P.feedback * (coreAt P l r k n).right)).2.2))
    refine ⟨n1, fun _ => ?_⟩
    rw [n2]
    exact ⟨hK _ _ _ _ (by linarith) (b _) ih.left, hK _ _ _ _ (by linarith) (b _) ih.right⟩

theorem gain_small {g : LipolPs ℝ} {G : ℝ} (h1 : |g.target| ≤ G) (h2 : |g.current| ≤ G) (h3 : g.blockSize = 32) (k : ℕ) : |g.gain k| ≤ G := by
  unfold LipolPs.gain
  rw [h3]
  have hk : ((k % 8 : ℕ) : ℝ) ≤ 7 := by have : k % 8 ≤ 7 := by omega
                                        exact_mod_cast this
  have k0 : (0 : ℝ) ≤ ((k % 8 : ℕ) : ℝ) := by positivity
  obtain ⟨a, b⟩ := abs_le.1 h1
  obtain ⟨c, d⟩ := abs_le.1 h2
  rw [abs_le]
  constructor <;> nlinarith

/-- What a block does to the invariant, and what it puts out. -/
theorem inv_block {lin : ℝ → ℝ} {post : Band} {ω W G K L : ℝ} (hW : 0 ≤ W) (hG : 0 ≤ G) (K0 : 0 ≤ K)
    (hK : ∀ X x r0 r1 : ℝ, 0 ≤ X → |x| ≤ X → Reach (lpCf ω) (push (lpCf ω) X) (r0, r1) → |(chan (lpCf ω) x r0 r1).1| ≤ K * (X + 1e-30))
    (hL : ∀ X x r0 r1 : ℝ, 0 ≤ X → |x| ≤ X → Reach (peakCf lin post) (push (peakCf lin post) X) (r0, r1) → |(chan (peakCf lin post) x r0 r1).1| ≤ L * (X + 1e-30))
    {P : Params} (hP : Spec.Tame lin post ω W G P) (l r : ℕ → ℝ) {s : State} (h : Inv (lpCf ω) (peakCf lin post) (W + 1) (K * (W + 1 + 1e-30) * G) G s) :
    ∃ (s' : State) (ol or_ : ℕ → ℝ), process P l r s = .ok (s', ol, or_) ∧ Inv (lpCf ω) (peakCf lin post) (W + 1) (K * (W + 1 + 1e-30) * G) G s' ∧
      ∀ k < 32, |ol k| ≤ L * (K * (W + 1 + 1e-30) * G + 1e-30) ∧ |or_ k| ≤ L * (K * (W + 1 + 1e-30) * G + 1e-30) := by
  obtain ⟨u1, u2, u3⟩ := inv_update hP h
  obtain ⟨s', a, b, -, e, e1, e2, e3, e4⟩ := process_eq P l r s
  have cc := core_calm hW hK hP.shape (before P l r s).2.1 (before P l r s).2.2 (k := (before P l r s).1.core) u1
  have hw : ∀ k, |wetL P l r s k| ≤ K * (W + 1 + 1e-30) ∧ |wetR P l r s k| ≤ K * (W + 1 + 1e-30) := fun k => (cc (k + 1)).2 (by omega)
  have eo : (before P l r s).1.outgain = s.outgain.setTargetSmoothed P.outgain := by
    simp only [before, maybeUpdate, update]; split <;> rfl
  obtain ⟨o1, o2⟩ := h.out
  have ot : |(s.outgain.setTargetSmoothed P.outgain).target| ≤ G := by
    have := hP.gain
    simp only [LipolPs.setTargetSmoothed]
    obtain ⟨a, b⟩ := abs_le.1 o1
    obtain ⟨c, d⟩ := abs_le.1 this
    rw [abs_le]; constructor <;> linarith
  have hg : ∀ k, |(before P l r s).1.outgain.gain k| ≤ G := fun k => by
    rw [eo]; exact gain_small ot o1 o2 k
  have ε0 : (0 : ℝ) ≤ 1e-30 := by norm_num
  have M0 : 0 ≤ K * (W + 1 + 1e-30) := by positivity
  have hx : ∀ x ∈ block (fun k => wetL P l r s k * (before P l r s).1.outgain.gain k) (fun k => wetR P l r s k * (before P l r s).1.outgain.gain k),
      |x.1| ≤ K * (W + 1 + 1e-30) * G ∧ |x.2| ≤ K * (W + 1 + 1e-30) * G := by
    intro x hx
    obtain ⟨k, -, rfl⟩ := List.mem_map.1 hx
    refine ⟨?_, ?_⟩
    · simp only [abs_mul]; exact mul_le_mul (hw k).1 (hg k) (abs_nonneg _) M0
    · simp only [abs_mul]; exact mul_le_mul (hw k).2 (hg k) (abs_nonneg _) M0
  obtain ⟨l1, l2, l3, l4⟩ := calm_loop hL (X := K * (W + 1 + 1e-30) * G) (by positivity) _ (before P l r s).1.band2 u3 hx
  refine ⟨s', _, _, e, ⟨?_, ?_, ?_, ?_, ?_⟩, fun k hk => ?_⟩
  · rw [e1]; exact .inr (cc 128).1.rests
  · rw [e1]; exact (cc 128).1.left
  · rw [e1]; exact (cc 128).1.right
  · right
    rw [e3]
    exact ⟨l3.trans u2, l2 (by simp [block])⟩
  · rw [e4, eo]; exact ⟨ot, o2⟩
  · have len : ∀ (xs : List (ℝ × ℝ)) (f : Filter), (f.stereoLoop xs).2.length = xs.length := by
      intro xs
      induction xs with
      | nil => intro f; rfl
      | cons x xs ih => intro f; obtain ⟨x, y⟩ := x; simp only [Filter.stereoLoop, List.length_cons, ih]
    have hlen : k < ((before P l r s).1.band2.stereoLoop (block (fun k => wetL P l r s k * (before P l r s).1.outgain.gain k) (fun k => wetR P l r s k * (before P l r s).1.outgain.gain k))).2.length := by
      rw [len]; simpa [block] using hk
    have := l4 _ (List.getElem_mem hlen)
    simp only [over, if_pos hk, Filter.processBlockStereo]
    rw [List.getD, List.getElem?_eq_getElem (by simpa using hlen), List.getD, List.getElem?_eq_getElem (by simpa using hlen)]
    simpa using this

/-- **C151 (part).** However strong drive, input gain and feedback are and whatever comes in, the output stays within a bound given by the filters behind the shaper, the largest value of the shape
and the largest output gain; no block panics.  Missing: rounding; cutoff and post equaliser constant; the post equaliser stable (C147 says when). -/
theorem C151_bounded_partial (lin : ℝ → ℝ) (post : Band) {ω : ℝ} (h0 : 0 < ω) (h1 : ω ≠ Real.pi) (hs : Spec.Stable (Filter.new.coeffPeakEq lin post.ω post.bw post.gain).cf) :
    ∃ K, 0 ≤ K ∧ ∀ W G, 0 ≤ W → 0 ≤ G → ∀ s, Spec.Run (Spec.Tame lin post ω W G) s → ∀ P, Spec.Tame lin post ω W G P → ∀ l r,
      ∃ (s' : State) (ol or_ : ℕ → ℝ), process P l r s = .ok (s', ol, or_) ∧ ∀ k < 32, |ol k| ≤ K * ((W + 1) * G + 1) ∧ |or_ k| ≤ K * ((W + 1) * G + 1) := by
  obtain ⟨a0, a1, a2, b0, b1, b2, e, hst⟩ := lp_shape ω
  have ec : lpCf ω = Spec.normal a0 a1 a2 b0 b1 b2 := by unfold lpCf; rw [e]; exact rests_cf (setCoef_first Filter.new rfl ..)
  obtain ⟨K, K0, hK⟩ := calm_out (ec ▸ hst h0 h1 : Spec.Stable (lpCf ω))
  obtain ⟨L, L0, hL⟩ := calm_out (show Spec.Stable (peakCf lin post) from hs)
  refine ⟨L * (2 * K + 1), by positivity, fun W G hW hG s hr P hP l r => ?_⟩
  have inv : Inv (lpCf ω) (peakCf lin post) (W + 1) (K * (W + 1 + 1e-30) * G) G s := by
    induction hr with
    | start h => exact inv_start hG h
    | block _ ok ep ih =>
      obtain ⟨s1, ol, or_, e1, h, -⟩ := inv_block hW hG K0 hK hL ok _ _ ih
      rw [ep] at e1
      injection e1 with e1
      injection e1 with e1
      rw [e1]; exact h
  obtain ⟨s', ol, or_, e1, -, hb⟩ := inv_block hW hG K0 hK hL hP l r inv
  have fin : L * (K * (W + 1 + 1e-30) * G + 1e-30) ≤ L * (2 * K + 1) * ((W + 1) * G + 1) := by
    have t : (1e-30 : ℝ) ≤ 1 := by norm_num
    have t0 : (0 : ℝ) ≤ 1e-30 := by norm_num
    rw [mul_assoc L]
    refine mul_le_mul_of_nonneg_left ?_ L0
    generalize (1e-30 : ℝ) = ε at *
    have p : K * (W + 1 + ε) * G ≤ K * (2 * (W + 1)) * G := by
      refine mul_le_mul_of_nonneg_right (mul_le_mul_of_nonneg_left ?_ K0) hG; linarith
    have q : 0 ≤ (W + 1) * G := by positivity
    nlinarith
  exact ⟨s', ol, or_, e1, fun k hk => ⟨(hb k hk).1.trans fin, (hb k hk).2.trans fin⟩⟩

/-- The hypotheses can be met: a hard clipper, feedback 0.9, drive 1000, the post equaliser at 0 dB; every fresh half-band state will do. -/
example (st : St) : let P : Params := ⟨fun _ => 1, ⟨1, 2, 0⟩, ⟨1, 2, 0⟩, 2, 1, 1000, 1, 0.9, fun x => max (-1) (min x 1)⟩
    Spec.Tame (fun _ => 1) ⟨1, 2, 0⟩ 1 1 1 P ∧ Spec.Start ⟨⟨0, 0, .new, .new⟩, .new, .new, LipolPs.default.setBlocksize 32, LipolPs.default.setBlocksize 32, st, st, 0⟩ ∧
    Spec.Stable (Filter.new.coeffPeakEq (fun _ => 1) 1 2 0).cf := by
  refine ⟨⟨rfl, rfl, rfl, fun x => ?_, by norm_num⟩, ⟨rfl, rfl, rfl, ⟨rfl, rfl, rfl, rfl⟩, rfl, rfl, by simp [LipolPs.setBlocksize]⟩, ?_⟩
  · rw [abs_le]; exact ⟨le_max_left _ _, max_le (by norm_num) (min_le_right _ _)⟩
  · have e : Filter.new.coeffPeakEq (fun _ => 1) 1 2 0 = Filter.new.setCoef 1 0 0 1 0 0 := by
      simp only [Filter.coeffPeakEq]; rw [if_neg (by norm_num)]
    rw [e, rests_cf (setCoef_first Filter.new rfl ..)]
    simp [Spec.Stable, Spec.normal]
