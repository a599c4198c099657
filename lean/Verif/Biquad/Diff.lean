import Verif.Biquad.Model
/-!
# The biquad computes its difference equation (C94), and the smoothed coefficients (C95)
-/
namespace Verif.Biquad

/-! ## Specification -/

/-- The two channels. -/
inductive Side | left | right

/-- The samples a call feeds to a channel: the mono functions feed the left one only. -/
def Spec.input : Side → Call → List ℝ
  | _, .setCoef .. => []
  | _, .instantize => []
  | .left, .sample x => [x]
  | .right, .sample _ => []
  | .left, .stereo l _ => [l]
  | .right, .stereo _ r => [r]
  | .left, .nolag l _ => [l]
  | .right, .nolag _ r => [r]
  | _, .noinput => [0]
  | .left, .mono xs => xs
  | .right, .mono _ => []
  | .left, .block xs => xs.map (·.1)
  | .right, .block xs => xs.map (·.2)
  | .left, .slowlag xs => xs.map (·.1)
  | .right, .slowlag xs => xs.map (·.2)

/-- The samples a history of calls wrote to a channel. -/
def Spec.output (q : Filter × List ℝ × List ℝ) : Side → List ℝ
  | .left => q.2.1
  | .right => q.2.2

/-- The coefficients in force at each sample of a call, oldest first, from those in force before it: one smoothing step per sample,
one per block in the slow variant, none in the `nolag` variants. -/
noncomputable def Spec.coefs (f : Filter) : Side → Call → List Cf
  | _, .setCoef .. => []
  | _, .instantize => []
  | .left, .sample _ => [f.coeffProcess.cf]
  | .right, .sample _ => []
  | _, .stereo .. => [f.coeffProcess.cf]
  | _, .nolag .. => [f.cf]
  | _, .noinput => [f.cf]
  | .left, .mono xs => (List.range xs.length).map fun i => (Filter.coeffProcess^[i + 1] f).cf
  | .right, .mono _ => []
  | _, .block xs => (List.range xs.length).map fun i => (Filter.coeffProcess^[i + 1] f).cf
  | _, .slowlag xs => List.replicate xs.length f.coeffProcess.cf

/-- The coefficients in force at each sample of a history. -/
noncomputable def Spec.history (f : Filter) (s : Side) : List Call → List Cf
  | [] => []
  | c :: cs => Spec.coefs f s c ++ Spec.history (f.call c).1 s cs

/-- Entry `n - k` of a signal, zero before its beginning. -/
def Spec.past (xs : List ℝ) (n k : ℕ) : ℝ := if k ≤ n then xs.getD (n - k) 0 else 0

/-- The difference equation, up to `ε`: the coefficients of sample `n` are `c n`; each past sample enters with the coefficients that
were in force when it was processed. -/
def Spec.Obeys (ε : ℝ) (c : ℕ → Cf) (xs ys : List ℝ) : Prop :=
  ys.length = xs.length ∧ ∀ n < xs.length,
    |ys.getD n 0 - ((c n).b0 * xs.getD n 0 + (c (n - 1)).b1 * Spec.past xs n 1 + (c (n - 2)).b2 * Spec.past xs n 2
      - (c (n - 1)).a1 * Spec.past ys n 1 - (c (n - 2)).a2 * Spec.past ys n 2)| ≤ ε

/-! ## Newest-first histories -/

abbrev Rec := Cf × ℝ × ℝ
def z0 : Cf := ⟨0, 0, 0, 0, 0⟩
def zr : Rec := (z0, 0, 0)
def p1 (r : Rec) : ℝ := r.1.b1 * r.2.1 - r.1.a1 * r.2.2
def q1 (r : Rec) : ℝ := r.1.b2 * r.2.1 - r.1.a2 * r.2.2

/-- The difference equation for a history, newest first. -/
def Rev (ε : ℝ) : List Rec → Prop
  | [] => True
  | r :: h => |r.2.2 - (r.1.b0 * r.2.1 + p1 (h.headD zr) + q1 (h.tail.headD zr))| ≤ 2 * ε ∧ Rev ε h

/-- What the registers hold. -/
def Inv (ε : ℝ) (h : List Rec) (r0 r1 : ℝ) : Prop :=
  |r0 - (p1 (h.headD zr) + q1 (h.tail.headD zr))| ≤ 2 * ε ∧ |r1 - q1 (h.headD zr)| ≤ ε ∧ Rev ε h

theorem inv_nil {ε : ℝ} (hε : 0 ≤ ε) : Inv ε [] 0 0 := by
  refine ⟨?_, ?_, trivial⟩ <;> simp [p1, q1, zr, z0, hε]

theorem inv_tick {ε : ℝ} {h : List Rec} {r0 r1 : ℝ} (hi : Inv ε h r0 r1) (c : Cf) (x : ℝ) :
    Inv ε ((c, x, (chan c x r0 r1).1) :: h) (chan c x r0 r1).2.1 (chan c x r0 r1).2.2 ∧
    |(chan c x r0 r1).2.1 - (p1 (c, x, (chan c x r0 r1).1) + q1 (h.headD zr))| ≤ ε ∧
    (chan c x r0 r1).2.2 = q1 (c, x, (chan c x r0 r1).1) := by
  obtain ⟨h0, h1, h2⟩ := hi
  have hε : 0 ≤ ε := le_trans (abs_nonneg _) h1
  have e1 : (chan c x r0 r1).2.2 = q1 (c, x, (chan c x r0 r1).1) := by simp only [chan, q1]; ring
  have e0 : (chan c x r0 r1).2.1 - (p1 (c, x, (chan c x r0 r1).1) + q1 (h.headD zr)) = r1 - q1 (h.headD zr) := by
    simp only [chan, p1]; ring
  have ey : (chan c x r0 r1).1 - (c.b0 * x + p1 (h.headD zr) + q1 (h.tail.headD zr)) =
      r0 - (p1 (h.headD zr) + q1 (h.tail.headD zr)) := by simp only [chan]; ring
  refine ⟨⟨?_, ?_, ?_, h2⟩, ?_, e1⟩
  · simp only [List.headD_cons, List.tail_cons]; rw [e0]; linarith
  · simp only [List.headD_cons]; rw [e1]; simpa using hε
  · simp only []; rw [ey]; exact h0
  · rw [e0]; exact h1

theorem flush_err (d : ℝ) : |flush d - d| ≤ 1e-30 := by
  unfold flush; split
  · rename_i h; simpa using h.le
  · norm_num

/-- The registers right after a sample: there is room for the error of `flush_denormal`. -/
def Fresh (ε : ℝ) (h : List Rec) (r0 r1 : ℝ) : Prop :=
  |r0 - (p1 (h.headD zr) + q1 (h.tail.headD zr))| ≤ ε ∧ r1 = q1 (h.headD zr) ∧ Rev ε h

theorem fresh_inv {ε : ℝ} (hε : 0 ≤ ε) {h : List Rec} {r0 r1 : ℝ} (hf : Fresh ε h r0 r1) : Inv ε h r0 r1 :=
  ⟨by linarith [hf.1], by rw [hf.2.1]; simpa using hε, hf.2.2⟩

theorem fresh_tick {ε : ℝ} {h : List Rec} {r0 r1 : ℝ} (hi : Inv ε h r0 r1) (c : Cf) (x : ℝ) :
    Fresh ε ((c, x, (chan c x r0 r1).1) :: h) (chan c x r0 r1).2.1 (chan c x r0 r1).2.2 :=
  have t := inv_tick hi c x
  ⟨by simpa using t.2.1, by simpa using t.2.2, t.1.2.2⟩

theorem fresh_flush {ε : ℝ} (hε : (1e-30 : ℝ) ≤ ε) {h : List Rec} {r0 r1 : ℝ} (hf : Fresh ε h r0 r1) :
    Inv ε h (flush r0) (flush r1) := by
  refine ⟨?_, ?_, hf.2.2⟩
  · have := abs_add_le (flush r0 - r0) (r0 - (p1 (h.headD zr) + q1 (h.tail.headD zr)))
    rw [sub_add_sub_cancel] at this
    linarith [flush_err r0, hf.1]
  · rw [← hf.2.1]; exact (flush_err r1).trans hε

/-- Flushing twice is flushing once. -/
theorem flush_flush (d : ℝ) : flush (flush d) = flush d := by
  unfold flush; split
  · norm_num
  · rfl

/-- The registers between calls: right after a sample, or flushed since. -/
def Ok (ε : ℝ) (h : List Rec) (r0 r1 : ℝ) : Prop :=
  Fresh ε h r0 r1 ∨ ((1e-30 : ℝ) ≤ ε ∧ ∃ s0 s1, Fresh ε h s0 s1 ∧ r0 = flush s0 ∧ r1 = flush s1)

theorem ok_inv {ε : ℝ} (hε : 0 ≤ ε) {h : List Rec} {r0 r1 : ℝ} (hf : Ok ε h r0 r1) : Inv ε h r0 r1 := by
  rcases hf with hf | ⟨he, s0, s1, hf, rfl, rfl⟩
  · exact fresh_inv hε hf
  · exact fresh_flush he hf

theorem ok_tick {ε : ℝ} (hε : 0 ≤ ε) {h : List Rec} {r0 r1 : ℝ} (hf : Ok ε h r0 r1) (c : Cf) (x : ℝ) :
    Ok ε ((c, x, (chan c x r0 r1).1) :: h) (chan c x r0 r1).2.1 (chan c x r0 r1).2.2 :=
  .inl (fresh_tick (ok_inv hε hf) c x)

theorem ok_flush {ε : ℝ} (hε : (1e-30 : ℝ) ≤ ε) {h : List Rec} {r0 r1 : ℝ} (hf : Ok ε h r0 r1) :
    Ok ε h (flush r0) (flush r1) := by
  rcases hf with hf | ⟨he, s0, s1, hf, rfl, rfl⟩
  · exact .inr ⟨hε, _, _, hf, rfl, rfl⟩
  · exact .inr ⟨he, s0, s1, hf, flush_flush _, flush_flush _⟩

/-! ## The calls -/

def Side.of : Side → ℝ × ℝ → ℝ
  | .left => Prod.fst
  | .right => Prod.snd

@[simp] theorem cf_left (f : Filter) (x : ℝ) : (f.left x).1.cf = f.cf := rfl
@[simp] theorem cf_right (f : Filter) (x : ℝ) : (f.right x).1.cf = f.cf := rfl
@[simp] theorem cf_flushLeft (f : Filter) : f.flushLeft.cf = f.cf := rfl
@[simp] theorem cf_flushBoth (f : Filter) : f.flushBoth.cf = f.cf := rfl

/-- What a filter contributes to later coefficients: everything but the registers. -/
def Filter.lags (f : Filter) : VLag × VLag × VLag × VLag × VLag × Bool := (f.a1, f.a2, f.b0, f.b1, f.b2, f.firstRun)

theorem cf_of_lags {f g : Filter} (h : f.lags = g.lags) : f.cf = g.cf := by
  simp only [Filter.lags, Prod.mk.injEq] at h
  obtain ⟨h1, h2, h3, h4, h5, -⟩ := h
  simp only [Filter.cf, h1, h2, h3, h4, h5]

theorem lags_process {f g : Filter} (h : f.lags = g.lags) : f.coeffProcess.lags = g.coeffProcess.lags := by
  simp only [Filter.lags, Prod.mk.injEq] at h
  obtain ⟨h1, h2, h3, h4, h5, h6⟩ := h
  simp only [Filter.lags, Filter.coeffProcess, h1, h2, h3, h4, h5, h6]

theorem lags_iter {f g : Filter} (h : f.lags = g.lags) : ∀ n, (Filter.coeffProcess^[n] f).lags = (Filter.coeffProcess^[n] g).lags
  | 0 => h
  | n + 1 => by
    rw [Function.iterate_succ_apply', Function.iterate_succ_apply']
    exact lags_process (lags_iter h n)

/-- The records of a batch of samples, oldest first. -/
def recs (cs : List Cf) (xs ys : List ℝ) : List Rec := cs.zip (xs.zip ys)

theorem range_map_succ {α : Type} (g : ℕ → α) (n : ℕ) :
    (List.range (n + 1)).map g = g 0 :: (List.range n).map fun i => g (i + 1) := by
  rw [List.range_succ_eq_map, List.map_cons, List.map_map]; rfl

theorem monoLoop_ok {ε : ℝ} (hε : 0 ≤ ε) (xs : List ℝ) : ∀ (f : Filter) (h : List Rec), Ok ε h f.reg0.1 f.reg1.1 →
    (f.monoLoop xs).2.length = xs.length ∧
    Ok ε ((recs (Spec.coefs f .left (.mono xs)) xs (f.monoLoop xs).2).reverse ++ h) (f.monoLoop xs).1.reg0.1 (f.monoLoop xs).1.reg1.1 ∧
    (f.monoLoop xs).1.reg0.2 = f.reg0.2 ∧ (f.monoLoop xs).1.reg1.2 = f.reg1.2 := by
  induction xs with
  | nil => intro f h hf; exact ⟨rfl, hf, rfl, rfl⟩
  | cons x xs ih =>
    intro f h hf
    have t := ok_tick hε hf f.coeffProcess.cf x
    obtain ⟨i1, i2, i3⟩ := ih (f.coeffProcess.left x).1 _ t
    refine ⟨by simp [Filter.monoLoop, i1], ?_, i3⟩
    simp only [Filter.monoLoop, Spec.coefs, List.length_cons, range_map_succ]
    simp only [recs, List.zip_cons_cons, List.reverse_cons, List.append_assoc, List.singleton_append]
    have e : ∀ i, (Filter.coeffProcess^[i + 1] (f.coeffProcess.left x).1).cf = (Filter.coeffProcess^[i + 1 + 1] f).cf := fun i =>
      cf_of_lags (by
        rw [Function.iterate_succ_apply Filter.coeffProcess (i + 1) f]
        exact lags_iter (by rfl) _)
    simp only [Spec.coefs, e, recs] at i2
    exact i2

theorem stereoLoop_ok {ε : ℝ} (hε : 0 ≤ ε) (s : Side) (xs : List (ℝ × ℝ)) : ∀ (f : Filter) (h : List Rec),
    Ok ε h (s.of f.reg0) (s.of f.reg1) →
    (f.stereoLoop xs).2.length = xs.length ∧
    Ok ε ((recs (Spec.coefs f s (.block xs)) (xs.map s.of) ((f.stereoLoop xs).2.map s.of)).reverse ++ h)
      (s.of (f.stereoLoop xs).1.reg0) (s.of (f.stereoLoop xs).1.reg1) := by
  induction xs with
  | nil => intro f h hf; refine ⟨rfl, ?_⟩; cases s <;> exact hf
  | cons x xs ih =>
    intro f h hf
    obtain ⟨l, r⟩ := x
    have t := ok_tick hε hf f.coeffProcess.cf (s.of (l, r))
    have e : ∀ i, (Filter.coeffProcess^[i + 1] ((f.coeffProcess.left l).1.right r).1).cf = (Filter.coeffProcess^[i + 1 + 1] f).cf :=
      fun i => cf_of_lags (by
        rw [Function.iterate_succ_apply Filter.coeffProcess (i + 1) f]
        exact lags_iter (by rfl) _)
    obtain ⟨i1, i2⟩ := ih ((f.coeffProcess.left l).1.right r).1 ((f.coeffProcess.cf, s.of (l, r),
      (chan f.coeffProcess.cf (s.of (l, r)) (s.of f.reg0) (s.of f.reg1)).1) :: h) (by cases s <;> exact t)
    refine ⟨by simp [Filter.stereoLoop, i1], ?_⟩
    cases s <;>
    · simp only [Filter.stereoLoop, Spec.coefs, List.length_cons, range_map_succ]
      simp only [recs, List.map_cons, List.zip_cons_cons, List.reverse_cons, List.append_assoc, List.singleton_append]
      simp only [Spec.coefs, e, recs] at i2
      exact i2

theorem slowLoop_ok {ε : ℝ} (hε : 0 ≤ ε) (s : Side) (c : Cf) (xs : List (ℝ × ℝ)) : ∀ (f : Filter) (h : List Rec), f.cf = c →
    Ok ε h (s.of f.reg0) (s.of f.reg1) →
    (f.slowLoop xs).2.length = xs.length ∧
    Ok ε ((recs (List.replicate xs.length c) (xs.map s.of) ((f.slowLoop xs).2.map s.of)).reverse ++ h)
      (s.of (f.slowLoop xs).1.reg0) (s.of (f.slowLoop xs).1.reg1) := by
  induction xs with
  | nil => intro f h _ hf; refine ⟨rfl, ?_⟩; cases s <;> exact hf
  | cons x xs ih =>
    intro f h hc hf
    obtain ⟨l, r⟩ := x
    have t := ok_tick hε hf c (s.of (l, r))
    obtain ⟨i1, i2⟩ := ih ((f.left l).1.right r).1 ((c, s.of (l, r),
      (chan c (s.of (l, r)) (s.of f.reg0) (s.of f.reg1)).1) :: h) (by simpa using hc) (by subst hc; cases s <;> exact t)
    refine ⟨by simp [Filter.slowLoop, i1], ?_⟩
    subst hc
    cases s <;>
    · simp only [Filter.slowLoop, List.length_cons, List.replicate_succ]
      simp only [recs, List.map_cons, List.zip_cons_cons, List.reverse_cons, List.append_assoc, List.singleton_append]
      simp only [recs] at i2
      exact i2

/-- Calls that end in `flush_denormal`. -/
def Spec.flushes : Call → Prop
  | .mono _ => True
  | .block _ => True
  | .slowlag _ => True
  | _ => False

theorem recs_lens (f : Filter) (s : Side) (c : Call) : (Spec.coefs f s c).length = (Spec.input s c).length := by
  cases c <;> cases s <;> simp [Spec.coefs, Spec.input]

theorem call_ok {ε : ℝ} (hε : 0 ≤ ε) (s : Side) (f : Filter) (c : Call) (hc : Spec.flushes c → (1e-30 : ℝ) ≤ ε) (h : List Rec)
    (hf : Ok ε h (s.of f.reg0) (s.of f.reg1)) :
    (Spec.output (f.call c) s).length = (Spec.input s c).length ∧
    Ok ε ((recs (Spec.coefs f s c) (Spec.input s c) (Spec.output (f.call c) s)).reverse ++ h)
      (s.of (f.call c).1.reg0) (s.of (f.call c).1.reg1) := by
  cases c with
  | setCoef a0 a1 a2 b0 b1 b2 =>
    refine ⟨by cases s <;> rfl, ?_⟩
    have e0 : (f.setCoef a0 a1 a2 b0 b1 b2).reg0 = f.reg0 := by
      simp only [Filter.setCoef, Filter.newValues, Filter.start]; split <;> rfl
    have e1 : (f.setCoef a0 a1 a2 b0 b1 b2).reg1 = f.reg1 := by
      simp only [Filter.setCoef, Filter.newValues, Filter.start]; split <;> rfl
    simp only [Filter.call, e0, e1]
    cases s <;> exact hf
  | instantize => refine ⟨by cases s <;> rfl, ?_⟩; cases s <;> exact hf
  | sample x =>
    cases s
    · exact ⟨rfl, ok_tick hε hf f.coeffProcess.cf x⟩
    · exact ⟨rfl, hf⟩
  | stereo l r =>
    cases s
    · exact ⟨rfl, ok_tick hε hf f.coeffProcess.cf l⟩
    · exact ⟨rfl, ok_tick hε hf f.coeffProcess.cf r⟩
  | nolag l r =>
    cases s
    · exact ⟨rfl, ok_tick hε hf f.cf l⟩
    · exact ⟨rfl, ok_tick hε hf f.cf r⟩
  | noinput =>
    have k : ∀ r0 r1, chan f.cf 0 r0 r1 = (r0, -f.a1.v * r0 + r1, -f.a2.v * r0) := by
      intro r0 r1; simp only [chan, Filter.cf]; ext <;> simp
    cases s
    · have t := ok_tick hε hf f.cf 0
      rw [k] at t
      exact ⟨rfl, t⟩
    · have t := ok_tick hε hf f.cf 0
      rw [k] at t
      exact ⟨rfl, t⟩
  | mono xs =>
    cases s
    · obtain ⟨i1, i2, -⟩ := monoLoop_ok hε xs f h hf
      exact ⟨i1, ok_flush (hc trivial) i2⟩
    · refine ⟨rfl, ?_⟩
      have i : (f.monoLoop xs).1.reg0.2 = f.reg0.2 ∧ (f.monoLoop xs).1.reg1.2 = f.reg1.2 := by
        clear hf hc
        induction xs generalizing f with
        | nil => exact ⟨rfl, rfl⟩
        | cons x xs ih => exact ih (f.coeffProcess.left x).1
      simp only [Filter.call, Filter.processBlockMono, Filter.flushLeft, Side.of, i.1, i.2]
      exact hf
  | block xs =>
    obtain ⟨i1, i2⟩ := stereoLoop_ok hε s xs f h hf
    have := ok_flush (hc trivial) i2
    cases s
    · exact ⟨by simpa [Spec.output, Filter.call, Filter.processBlockStereo, Spec.input] using i1, this⟩
    · exact ⟨by simpa [Spec.output, Filter.call, Filter.processBlockStereo, Spec.input] using i1, this⟩
  | slowlag xs =>
    obtain ⟨i1, i2⟩ := slowLoop_ok hε s _ xs f.coeffProcess h rfl hf
    have := ok_flush (hc trivial) i2
    cases s
    · exact ⟨by simpa [Spec.output, Filter.call, Filter.processBlockSlowlag, Spec.input] using i1, this⟩
    · exact ⟨by simpa [Spec.output, Filter.call, Filter.processBlockSlowlag, Spec.input] using i1, this⟩

theorem history_len (s : Side) (cs : List Call) : ∀ f : Filter, (Spec.history f s cs).length = (cs.flatMap (Spec.input s)).length := by
  induction cs with
  | nil => intro f; rfl
  | cons c cs ih => intro f; simp only [Spec.history, List.flatMap_cons, List.length_append, ih, recs_lens]

theorem output_cons (f : Filter) (c : Call) (cs : List Call) (s : Side) :
    Spec.output (f.calls (c :: cs)) s = Spec.output (f.call c) s ++ Spec.output ((f.call c).1.calls cs) s := by cases s <;> rfl

theorem calls_ok {ε : ℝ} (hε : 0 ≤ ε) (s : Side) (cs : List Call) (hc : ∀ c ∈ cs, Spec.flushes c → (1e-30 : ℝ) ≤ ε) :
    ∀ (f : Filter) (h : List Rec), Ok ε h (s.of f.reg0) (s.of f.reg1) →
    (Spec.output (f.calls cs) s).length = (cs.flatMap (Spec.input s)).length ∧
    Ok ε ((recs (Spec.history f s cs) (cs.flatMap (Spec.input s)) (Spec.output (f.calls cs) s)).reverse ++ h)
      (s.of (f.calls cs).1.reg0) (s.of (f.calls cs).1.reg1) := by
  induction cs with
  | nil => intro f h hf; refine ⟨by cases s <;> rfl, ?_⟩; cases s <;> exact hf
  | cons c cs ih =>
    intro f h hf
    obtain ⟨i1, i2⟩ := call_ok hε s f c (hc c (by simp)) h hf
    obtain ⟨j1, j2⟩ := ih (fun c' h' => hc c' (by simp [h'])) (f.call c).1 _ i2
    rw [output_cons]
    refine ⟨by simp [i1, j1], ?_⟩
    have e : recs (Spec.history f s (c :: cs)) ((c :: cs).flatMap (Spec.input s))
        (Spec.output (f.call c) s ++ Spec.output ((f.call c).1.calls cs) s) =
        recs (Spec.coefs f s c) (Spec.input s c) (Spec.output (f.call c) s) ++
        recs (Spec.history (f.call c).1 s cs) (cs.flatMap (Spec.input s)) (Spec.output ((f.call c).1.calls cs) s) := by
      simp only [recs, Spec.history, List.flatMap_cons]
      rw [List.zip_append (by rw [i1]), List.zip_append (by simp [i1, recs_lens])]
    rw [e, List.reverse_append, List.append_assoc]
    exact j2

/-- From newest-first to indices. -/
theorem rev_obeys {ε : ℝ} (cs : List Cf) : ∀ (xs ys : List ℝ), ys.length = xs.length → cs.length = xs.length →
    Rev ε (recs cs xs ys).reverse → Spec.Obeys (2 * ε) (fun n => cs.getD n z0) xs ys := by
  induction cs using List.reverseRecOn with
  | nil =>
    intro xs ys h1 h2 _
    exact ⟨h1, fun n hn => by simp at h2; omega⟩
  | append_singleton cs c ih =>
    intro xs ys h1 h2 hr
    rcases List.eq_nil_or_concat xs with rfl | ⟨xs, x, rfl⟩
    · simp at h2
    rcases List.eq_nil_or_concat ys with rfl | ⟨ys, y, rfl⟩
    · simp at h1
    simp only [List.concat_eq_append, List.length_append, List.length_singleton, Nat.add_right_cancel_iff] at h1 h2 hr ⊢
    have e : recs (cs ++ [c]) (xs ++ [x]) (ys ++ [y]) = recs cs xs ys ++ [(c, x, y)] := by
      simp only [recs]
      rw [List.zip_append h1.symm, List.zip_append (by simp [h1, h2])]; rfl
    rw [e, List.reverse_append] at hr
    simp only [List.reverse_singleton, List.singleton_append, Rev] at hr
    obtain ⟨hr0, hr1⟩ := hr
    obtain ⟨-, hi⟩ := ih xs ys h1 h2 hr1
    refine ⟨by simp [h1], fun n hn => ?_⟩
    have gl : ∀ {α : Type} (l : List α) (a d : α) (m : ℕ), m < l.length → (l ++ [a]).getD m d = l.getD m d := by
      intro α l a d m hm; simp [List.getD, List.getElem?_append_left hm]
    rcases Nat.lt_or_ge n xs.length with hn' | hn'
    · have := hi n hn'
      have hc : ∀ k, (cs ++ [c]).getD (n - k) z0 = cs.getD (n - k) z0 := fun k => gl _ _ _ _ (by omega)
      have hx : ∀ k, Spec.past (xs ++ [x]) n k = Spec.past xs n k := fun k => by
        simp only [Spec.past]; rw [gl _ _ _ _ (by omega)]
      have hy : ∀ k, Spec.past (ys ++ [y]) n k = Spec.past ys n k := fun k => by
        simp only [Spec.past]; rw [gl _ _ _ _ (by omega)]
      have hc0 := hc 0
      simp only [Nat.sub_zero] at hc0
      simp only [hc, hx, hy, hc0]
      rw [gl _ _ _ _ hn', gl _ _ _ _ (by omega)]
      exact this
    · have hn2 : n = xs.length := by simp at hn; omega
      subst hn2
      have get0 : ∀ {α : Type} (l : List α) (a d : α) (m : ℕ), m = l.length → (l ++ [a]).getD m d = a := by
        intro α l a d m hm; subst hm; simp [List.getD]
      have lr : (recs cs xs ys).length = xs.length := by simp [recs, h1, h2]
      have nth : ∀ k, 1 ≤ k → k ≤ xs.length → ((recs cs xs ys).reverse.getD (k - 1) zr) =
          (cs.getD (xs.length - k) z0, xs.getD (xs.length - k) 0, ys.getD (xs.length - k) 0) := by
        intro k hk1 hk
        have hm : xs.length - k < xs.length := by omega
        simp only [List.getD]
        rw [List.getElem?_reverse (by omega), lr]
        have : xs.length - 1 - (k - 1) = xs.length - k := by omega
        rw [this]
        simp only [recs, List.zip, List.getElem?_zipWith]
        simp [List.getElem?_eq_getElem hm, List.getElem?_eq_getElem (show xs.length - k < ys.length by omega),
          List.getElem?_eq_getElem (show xs.length - k < cs.length by omega)]
      have hd : (recs cs xs ys).reverse.headD zr = (recs cs xs ys).reverse.getD 0 zr := by
        cases (recs cs xs ys).reverse <;> rfl
      have hd2 : (recs cs xs ys).reverse.tail.headD zr = (recs cs xs ys).reverse.getD 1 zr := by
        rcases (recs cs xs ys).reverse with _ | ⟨_, _ | _⟩ <;> rfl
      rw [hd, hd2] at hr0
      simp only [Spec.past]
      rw [get0 _ _ _ _ h2.symm, get0 _ _ _ _ rfl, get0 _ _ _ _ h1.symm]
      have key1 : p1 ((recs cs xs ys).reverse.getD 0 zr) = ((cs ++ [c]).getD (xs.length - 1) z0).b1 *
          (if 1 ≤ xs.length then (xs ++ [x]).getD (xs.length - 1) 0 else 0) - ((cs ++ [c]).getD (xs.length - 1) z0).a1 *
          (if 1 ≤ xs.length then (ys ++ [y]).getD (xs.length - 1) 0 else 0) := by
        by_cases h : 1 ≤ xs.length
        · rw [if_pos h, if_pos h, gl _ _ _ _ (by omega), gl _ _ _ _ (by omega), gl _ _ _ _ (by omega), nth 1 le_rfl h]; rfl
        · have : (recs cs xs ys).reverse = [] := by
            rw [List.reverse_eq_nil_iff, ← List.length_eq_zero_iff]; omega
          rw [if_neg h, if_neg h, this]
          simp [p1, zr]
      have key2 : q1 ((recs cs xs ys).reverse.getD 1 zr) = ((cs ++ [c]).getD (xs.length - 2) z0).b2 *
          (if 2 ≤ xs.length then (xs ++ [x]).getD (xs.length - 2) 0 else 0) - ((cs ++ [c]).getD (xs.length - 2) z0).a2 *
          (if 2 ≤ xs.length then (ys ++ [y]).getD (xs.length - 2) 0 else 0) := by
        by_cases h : 2 ≤ xs.length
        · rw [if_pos h, if_pos h, gl _ _ _ _ (by omega), gl _ _ _ _ (by omega), gl _ _ _ _ (by omega), nth 2 (by omega) h]; rfl
        · have : (recs cs xs ys).reverse.getD 1 zr = zr := by
            rw [List.getD, List.getElem?_eq_none (by rw [List.length_reverse]; omega)]; rfl
          rw [if_neg h, if_neg h, this]
          simp [q1, zr]
      rw [key1, key2] at hr0
      convert hr0 using 2
      ring

/-! ## C94 -/

theorem tiny_pos : (0 : ℝ) ≤ 1e-30 := by norm_num
theorem two_tiny : (2 : ℝ) * 1e-30 = 2e-30 := by norm_num

/-- C94: **whatever is called, in whatever order, each channel obeys the difference equation** with the coefficients in force when
each sample was processed. A mono call does not advance the right channel. Each output differs from the exact equation by at most
`2e-30`, what `flush_denormal` may have thrown away; without block calls the equation is exact. -/
theorem C94_difference_equation_partial (s : Side) (cs : List Call) :
    Spec.Obeys 2e-30 (fun n => (Spec.history .new s cs).getD n z0) (cs.flatMap (Spec.input s)) (Spec.output (Filter.new.calls cs) s) ∧
    ((∀ c ∈ cs, ¬ Spec.flushes c) →
      Spec.Obeys 0 (fun n => (Spec.history .new s cs).getD n z0) (cs.flatMap (Spec.input s)) (Spec.output (Filter.new.calls cs) s)) := by
  have start : ∀ ε : ℝ, 0 ≤ ε → Ok ε [] (s.of Filter.new.reg0) (s.of Filter.new.reg1) := fun ε hε => by
    refine .inl ⟨?_, ?_, trivial⟩ <;> cases s <;> simp [Filter.new, Side.of, p1, q1, zr, z0, hε]
  constructor
  · have pos := tiny_pos
    obtain ⟨h1, h2⟩ := calls_ok pos s cs (fun _ _ _ => le_rfl) .new [] (start _ pos)
    rw [List.append_nil] at h2
    have := rev_obeys _ _ _ h1 (history_len s cs _) (ok_inv pos h2).2.2
    rwa [two_tiny] at this
  · intro hc
    obtain ⟨h1, h2⟩ := calls_ok (ε := 0) le_rfl s cs (fun c h h' => absurd h' (hc c h)) .new [] (start _ le_rfl)
    rw [List.append_nil] at h2
    have := rev_obeys _ _ _ h1 (history_len s cs _) (ok_inv le_rfl h2).2.2
    simpa using this

/-- The normalised coefficients of a `set_coef` call. -/
noncomputable def Spec.normal (a0 a1 a2 b0 b1 b2 : ℝ) : Cf := ⟨a1 / a0, a2 / a0, b0 / a0, b1 / a0, b2 / a0⟩

/-- A filter at rest: every smoothed coefficient is at its target. -/
def Rests (c : Cf) (f : Filter) : Prop :=
  f.a1 = ⟨c.a1, c.a1⟩ ∧ f.a2 = ⟨c.a2, c.a2⟩ ∧ f.b0 = ⟨c.b0, c.b0⟩ ∧ f.b1 = ⟨c.b1, c.b1⟩ ∧ f.b2 = ⟨c.b2, c.b2⟩

theorem vlag_rest (a : ℝ) : (VLag.mk a a).process = ⟨a, a⟩ := by
  have e : vlagLpInv = 1 - vlagLp := by norm_num [vlagLp, vlagLpInv]
  simp only [VLag.process, e, VLag.mk.injEq, and_true]; ring

theorem rests_process {c : Cf} {f : Filter} (h : Rests c f) : Rests c f.coeffProcess := by
  obtain ⟨h1, h2, h3, h4, h5⟩ := h
  simp only [Rests, Filter.coeffProcess, h1, h2, h3, h4, h5, vlag_rest, and_self]

theorem rests_iter {c : Cf} {f : Filter} (h : Rests c f) : ∀ n, Rests c (Filter.coeffProcess^[n] f)
  | 0 => h
  | n + 1 => by rw [Function.iterate_succ_apply']; exact rests_process (rests_iter h n)

theorem rests_cf {c : Cf} {f : Filter} (h : Rests c f) : f.cf = c := by
  obtain ⟨h1, h2, h3, h4, h5⟩ := h
  simp only [Filter.cf, h1, h2, h3, h4, h5]

theorem rests_lags {c : Cf} {f g : Filter} (e : f.lags = g.lags) (h : Rests c f) : Rests c g := by
  simp only [Filter.lags, Prod.mk.injEq] at e
  obtain ⟨h1, h2, h3, h4, h5, -⟩ := e
  simpa only [Rests, h1, h2, h3, h4, h5] using h

theorem monoLoop_lags (xs : List ℝ) : ∀ f : Filter, (f.monoLoop xs).1.lags = (Filter.coeffProcess^[xs.length] f).lags := by
  induction xs with
  | nil => intro f; rfl
  | cons x xs ih => intro f; exact (ih _).trans (lags_iter (f := (f.coeffProcess.left x).1) (g := f.coeffProcess) rfl _)

theorem stereoLoop_lags (xs : List (ℝ × ℝ)) : ∀ f : Filter, (f.stereoLoop xs).1.lags = (Filter.coeffProcess^[xs.length] f).lags := by
  induction xs with
  | nil => intro f; rfl
  | cons x xs ih =>
    intro f
    exact (ih _).trans (lags_iter (f := ((f.coeffProcess.left x.1).1.right x.2).1) (g := f.coeffProcess) rfl _)

theorem slowLoop_lags (xs : List (ℝ × ℝ)) : ∀ f : Filter, (f.slowLoop xs).1.lags = f.lags := by
  induction xs with
  | nil => intro f; rfl
  | cons x xs ih => intro f; exact (ih _).trans rfl

/-- A call other than `set_coef`. -/
def Spec.plain : Call → Prop
  | .setCoef .. => False
  | _ => True

/-- How many smoothing steps a call makes. -/
def Spec.steps : Call → ℕ
  | .sample _ => 1
  | .stereo .. => 1
  | .mono xs => xs.length
  | .block xs => xs.length
  | .slowlag _ => 1
  | _ => 0

/-- A call that neither sets nor jumps. -/
def Spec.smooth : Call → Prop
  | .setCoef .. => False
  | .instantize => False
  | _ => True

theorem call_lags (f : Filter) (c : Call) (h : Spec.smooth c) : (f.call c).1.lags = (Filter.coeffProcess^[Spec.steps c] f).lags := by
  cases c with
  | setCoef => exact h.elim
  | instantize => exact h.elim
  | sample x => rfl
  | stereo l r => rfl
  | nolag l r => rfl
  | noinput => rfl
  | mono xs => exact monoLoop_lags xs f
  | block xs => exact stereoLoop_lags xs f
  | slowlag xs => exact slowLoop_lags xs f.coeffProcess

theorem rests_call {c : Cf} {f : Filter} (h : Rests c f) {k : Call} (hk : Spec.plain k) : Rests c (f.call k).1 := by
  cases k with
  | setCoef => exact hk.elim
  | instantize =>
    obtain ⟨h1, h2, h3, h4, h5⟩ := h
    simp only [Rests, Filter.call, Filter.coeffInstantize, h1, h2, h3, h4, h5, VLag.instantize, and_self]
  | sample x => exact rests_lags (call_lags f (.sample x) trivial).symm (rests_iter h _)
  | stereo l r => exact rests_lags (call_lags f (.stereo l r) trivial).symm (rests_iter h _)
  | nolag l r => exact rests_lags (call_lags f (.nolag l r) trivial).symm (rests_iter h _)
  | noinput => exact rests_lags (call_lags f .noinput trivial).symm (rests_iter h _)
  | mono xs => exact rests_lags (call_lags f (.mono xs) trivial).symm (rests_iter h _)
  | block xs => exact rests_lags (call_lags f (.block xs) trivial).symm (rests_iter h _)
  | slowlag xs => exact rests_lags (call_lags f (.slowlag xs) trivial).symm (rests_iter h _)

theorem rests_coefs {c : Cf} {f : Filter} (h : Rests c f) (s : Side) (k : Call) : ∀ d ∈ Spec.coefs f s k, d = c := by
  have e1 := rests_cf (rests_process h)
  have e0 := rests_cf h
  have ei : ∀ i, (Filter.coeffProcess^[i + 1] f).cf = c := fun i => rests_cf (rests_iter h _)
  intro d hd
  cases k <;> cases s <;> simp [Spec.coefs, e0, e1, -Function.iterate_succ] at hd <;>
    first | exact hd | exact hd.2 | (obtain ⟨i, -, rfl⟩ := hd; exact ei i)

theorem rests_history {c : Cf} (s : Side) (ks : List Call) (hk : ∀ k ∈ ks, Spec.plain k) : ∀ {f : Filter}, Rests c f →
    ∀ d ∈ Spec.history f s ks, d = c := by
  induction ks with
  | nil => intro f _ d hd; exact absurd hd (by simp [Spec.history])
  | cons k ks ih =>
    intro f h d hd
    simp only [Spec.history, List.mem_append] at hd
    rcases hd with hd | hd
    · exact rests_coefs h s k d hd
    · exact ih (fun k' h' => hk k' (by simp [h'])) (rests_call h (hk k (by simp))) d hd

theorem setCoef_first (f : Filter) (hf : f.firstRun = true) (a0 a1 a2 b0 b1 b2 : ℝ) :
    Rests (Spec.normal a0 a1 a2 b0 b1 b2) (f.setCoef a0 a1 a2 b0 b1 b2) := by
  simp only [Rests, Filter.setCoef, Filter.start, hf, if_true, Filter.newValues, VLag.startValue, VLag.newValue, Spec.normal,
    mul_one_div, and_self]

/-- The difference equation with constant coefficients. -/
def Spec.Solves (ε : ℝ) (c : Cf) (xs ys : List ℝ) : Prop := Spec.Obeys ε (fun _ => c) xs ys

/-- C94: **with one design, the outputs are those of the constant-coefficient filter**: a fresh filter takes the first coefficients
at once, so after one `set_coef` every channel solves `y[n] = (b0 x[n] + b1 x[n-1] + b2 x[n-2] - a1 y[n-1] - a2 y[n-2]) / a0`, over
any number of calls of any processing functions in any order. -/
theorem C94_constant_coefficients_partial (s : Side) (a0 a1 a2 b0 b1 b2 : ℝ) (cs : List Call) (hc : ∀ c ∈ cs, Spec.plain c) :
    Spec.Solves 2e-30 (Spec.normal a0 a1 a2 b0 b1 b2) (cs.flatMap (Spec.input s))
      (Spec.output ((Filter.new.setCoef a0 a1 a2 b0 b1 b2).calls cs) s) ∧
    ((∀ c ∈ cs, ¬ Spec.flushes c) → Spec.Solves 0 (Spec.normal a0 a1 a2 b0 b1 b2) (cs.flatMap (Spec.input s))
      (Spec.output ((Filter.new.setCoef a0 a1 a2 b0 b1 b2).calls cs) s)) := by
  have key := C94_difference_equation_partial s (.setCoef a0 a1 a2 b0 b1 b2 :: cs)
  have hin : (Call.setCoef a0 a1 a2 b0 b1 b2 :: cs).flatMap (Spec.input s) = cs.flatMap (Spec.input s) := by cases s <;> rfl
  have hout : Spec.output (Filter.new.calls (Call.setCoef a0 a1 a2 b0 b1 b2 :: cs)) s =
      Spec.output ((Filter.new.setCoef a0 a1 a2 b0 b1 b2).calls cs) s := by cases s <;> rfl
  have hh : Spec.history Filter.new s (Call.setCoef a0 a1 a2 b0 b1 b2 :: cs) =
      Spec.history (Filter.new.setCoef a0 a1 a2 b0 b1 b2) s cs := by cases s <;> rfl
  rw [hin, hout, hh] at key
  have hr := rests_history s cs hc (setCoef_first Filter.new rfl a0 a1 a2 b0 b1 b2)
  have hl := history_len s cs (Filter.new.setCoef a0 a1 a2 b0 b1 b2)
  have conv : ∀ ε ys, Spec.Obeys ε (fun n => (Spec.history (Filter.new.setCoef a0 a1 a2 b0 b1 b2) s cs).getD n z0)
      (cs.flatMap (Spec.input s)) ys → Spec.Solves ε (Spec.normal a0 a1 a2 b0 b1 b2) (cs.flatMap (Spec.input s)) ys := by
    intro ε ys ⟨o1, o2⟩
    refine ⟨o1, fun n hn => ?_⟩
    have e : ∀ m < (cs.flatMap (Spec.input s)).length,
        (Spec.history (Filter.new.setCoef a0 a1 a2 b0 b1 b2) s cs).getD m z0 = Spec.normal a0 a1 a2 b0 b1 b2 := fun m hm => by
      rw [← hl] at hm
      refine hr _ ?_
      rw [List.getD, List.getElem?_eq_getElem hm, Option.getD_some]
      exact List.getElem_mem hm
    have := o2 n hn
    simp only [e n hn, e (n - 1) (by omega), e (n - 2) (by omega)] at this
    exact this
  refine ⟨conv _ _ key.1, fun h => conv _ _ (key.2 ?_)⟩
  intro c hc'
  rcases List.mem_cons.1 hc' with rfl | hc'
  · exact fun h => h
  · exact h c hc'

/-- A concrete case: a one-pole low pass fed an impulse by three different calls. -/
example : Spec.output ((Filter.new.setCoef 2 (-1) 0 2 0 0).calls [.sample 1, .stereo 0 5, .noinput]) .left = [1, 1 / 2, 1 / 4] := by
  norm_num [Spec.output, Filter.calls, Filter.call, Filter.setCoef, Filter.start, Filter.new, Filter.newValues, VLag.startValue,
    VLag.newValue, Filter.processSample, Filter.coeffProcess, VLag.process, vlagLp, vlagLpInv, Filter.left, Filter.right, chan,
    Filter.cf, Filter.processSampleStereo, Filter.processSampleNolagNoinput, VLag.new]

/-! ## C95: the smoothed coefficients -/

theorem vlag_iter (l : VLag) (n : ℕ) : VLag.process^[n] l = ⟨l.target + (249 / 250) ^ n * (l.v - l.target), l.target⟩ := by
  induction n with
  | zero => simp
  | succ n ih =>
    rw [Function.iterate_succ_apply', ih]
    simp only [VLag.process, vlagLp, vlagLpInv, VLag.mk.injEq, and_true, pow_succ]
    norm_num; ring

theorem iter_lags (f : Filter) (n : ℕ) : (Filter.coeffProcess^[n] f).lags = (VLag.process^[n] f.a1, VLag.process^[n] f.a2,
    VLag.process^[n] f.b0, VLag.process^[n] f.b1, VLag.process^[n] f.b2, f.firstRun) := by
  induction n with
  | zero => rfl
  | succ n ih =>
    rw [Function.iterate_succ_apply']
    simp only [Filter.lags, Prod.mk.injEq] at ih
    obtain ⟨h1, h2, h3, h4, h5, h6⟩ := ih
    simp only [Filter.lags, Filter.coeffProcess, h1, h2, h3, h4, h5, h6, Function.iterate_succ_apply']

/-- The five coefficients in force and the five they move to, as points. -/
def Cf.pt (c : Cf) : ℝ × ℝ × ℝ × ℝ × ℝ := (c.a1, c.a2, c.b0, c.b1, c.b2)
/-- The five targets. -/
def Filter.goal (f : Filter) : Cf := ⟨f.a1.target, f.a2.target, f.b0.target, f.b1.target, f.b2.target⟩

/-- The point reached after `n` steps from `v` towards `t`. -/
noncomputable def Spec.glide (v t : Cf) (n : ℕ) : ℝ × ℝ × ℝ × ℝ × ℝ := t.pt + ((249 / 250 : ℝ) ^ n) • (v.pt - t.pt)

theorem cf_iter (f : Filter) (n : ℕ) : (Filter.coeffProcess^[n] f).cf.pt = Spec.glide f.cf f.goal n ∧
    (Filter.coeffProcess^[n] f).goal = f.goal := by
  have h := iter_lags f n
  simp only [Filter.lags, Prod.mk.injEq, vlag_iter] at h
  obtain ⟨h1, h2, h3, h4, h5, -⟩ := h
  simp only [Filter.cf, Filter.goal, Cf.pt, Spec.glide, h1, h2, h3, h4, h5]
  simp

theorem steps_add {f g : Filter} (h : f.lags = g.lags) : f.cf = g.cf ∧ f.goal = g.goal := by
  refine ⟨cf_of_lags h, ?_⟩
  simp only [Filter.lags, Prod.mk.injEq] at h
  obtain ⟨h1, h2, h3, h4, h5, -⟩ := h
  simp only [Filter.goal, h1, h2, h3, h4, h5]

theorem calls_lags (ks : List Call) (hk : ∀ k ∈ ks, Spec.smooth k) : ∀ f : Filter,
    (f.calls ks).1.lags = (Filter.coeffProcess^[(ks.map Spec.steps).sum] f).lags := by
  induction ks with
  | nil => intro f; rfl
  | cons k ks ih =>
    intro f
    simp only [Filter.calls, List.map_cons, List.sum_cons]
    rw [ih (fun k' h' => hk k' (by simp [h'])), Nat.add_comm, Function.iterate_add_apply]
    exact lags_iter (call_lags f k (hk k (by simp))) _

/-- C95: **a change of design is a geometric glide**: from any state whatever, `set_coef` leaves the coefficients in force alone
unless it is the first one, and every processing call then moves all five along the straight line to the new values, by 1/250 of the
remaining distance per sample (per block in the slow variant, not at all in the `nolag` variants). -/
theorem C95_glide_partial (f : Filter) (a0 a1 a2 b0 b1 b2 : ℝ) (ks : List Call) (hk : ∀ k ∈ ks, Spec.smooth k) :
    ((f.setCoef a0 a1 a2 b0 b1 b2).calls ks).1.cf.pt =
      Spec.glide (if f.firstRun then Spec.normal a0 a1 a2 b0 b1 b2 else f.cf) (Spec.normal a0 a1 a2 b0 b1 b2) (ks.map Spec.steps).sum := by
  rw [(steps_add (calls_lags ks hk _)).1, (cf_iter _ _).1]
  have e1 : (f.setCoef a0 a1 a2 b0 b1 b2).goal = Spec.normal a0 a1 a2 b0 b1 b2 := by
    simp only [Filter.goal, Filter.setCoef, Filter.newValues, VLag.newValue, Spec.normal, mul_one_div]
  have e2 : (f.setCoef a0 a1 a2 b0 b1 b2).cf = if f.firstRun then Spec.normal a0 a1 a2 b0 b1 b2 else f.cf := by
    simp only [Filter.setCoef, Filter.newValues, VLag.newValue, Filter.start, Spec.normal, mul_one_div]
    split <;> simp [Filter.cf, VLag.startValue]
  rw [e1, e2]

/-- The first design is in force at once, and `init` makes the next one the first again. -/
theorem C95_first_is_immediate (f : Filter) (a0 a1 a2 b0 b1 b2 : ℝ) :
    (f.init.setCoef a0 a1 a2 b0 b1 b2).cf = Spec.normal a0 a1 a2 b0 b1 b2 ∧
    (Filter.new.setCoef a0 a1 a2 b0 b1 b2).cf = Spec.normal a0 a1 a2 b0 b1 b2 ∧
    f.init = Filter.new :=
  ⟨rests_cf (setCoef_first _ rfl ..), rests_cf (setCoef_first _ rfl ..), rfl⟩

/-- `coeff_instantize` jumps to the target. -/
theorem C95_instantize (f : Filter) : f.coeffInstantize.cf = f.goal ∧ f.coeffInstantize.goal = f.goal := ⟨rfl, rfl⟩

/-- The designs a history of calls asked for. -/
noncomputable def Spec.designs : List Call → List Cf
  | [] => []
  | .setCoef a0 a1 a2 b0 b1 b2 :: ks => Spec.normal a0 a1 a2 b0 b1 b2 :: Spec.designs ks
  | _ :: ks => Spec.designs ks

theorem glide_mem {S : Set (ℝ × ℝ × ℝ × ℝ × ℝ)} (hS : Convex ℝ S) {v t : Cf} (hv : v.pt ∈ S) (ht : t.pt ∈ S) (n : ℕ) :
    Spec.glide v t n ∈ S := by
  have h0 : (0 : ℝ) ≤ (249 / 250) ^ n := by positivity
  have h1 : ((249 : ℝ) / 250) ^ n ≤ 1 := pow_le_one₀ (by norm_num) (by norm_num)
  have := hS hv ht h0 (sub_nonneg.2 h1) (by ring)
  convert this using 1
  simp only [Spec.glide]
  module

theorem cf_pt_inj {c d : Cf} (h : c.pt = d.pt) : c = d := by
  simp only [Cf.pt, Prod.mk.injEq] at h
  cases c; cases d
  simp_all

theorem hull {S : Set (ℝ × ℝ × ℝ × ℝ × ℝ)} (hS : Convex ℝ S) (s : Side) (ks : List Call) : ∀ f : Filter,
    f.cf.pt ∈ S → f.goal.pt ∈ S → (∀ d ∈ Spec.designs ks, d.pt ∈ S) →
    (∀ c ∈ Spec.history f s ks, c.pt ∈ S) ∧ (f.calls ks).1.cf.pt ∈ S := by
  induction ks with
  | nil => intro f h1 _ _; exact ⟨by simp [Spec.history], h1⟩
  | cons k ks ih =>
    intro f h1 h2 h3
    have hi : ∀ n, (Filter.coeffProcess^[n] f).cf.pt ∈ S := fun n => by
      rw [(cf_iter f n).1]; exact glide_mem hS h1 h2 n
    have hco : ∀ c ∈ Spec.coefs f s k, c.pt ∈ S := by
      intro c hc
      have hp := hi 1
      simp only [Function.iterate_one] at hp
      cases k <;> cases s <;> simp [Spec.coefs, -Function.iterate_succ] at hc <;>
        first
        | (subst hc; first | exact hp | exact h1)
        | (obtain ⟨i, -, rfl⟩ := hc; exact hi (i + 1))
        | (obtain ⟨-, rfl⟩ := hc; exact hp)
    have hgen : (f.call k).1.cf.pt ∈ S ∧ (f.call k).1.goal.pt ∈ S ∧ ∀ d ∈ Spec.designs ks, d.pt ∈ S := by
      by_cases hk : Spec.smooth k
      · obtain ⟨e1, e2⟩ := steps_add (call_lags f k hk)
        rw [e1, e2, (cf_iter f _).2]
        refine ⟨hi _, h2, ?_⟩
        cases k <;> first | exact hk.elim | exact h3
      · cases k with
        | setCoef a0 a1 a2 b0 b1 b2 =>
          have hn : (Spec.normal a0 a1 a2 b0 b1 b2).pt ∈ S := h3 _ (by simp [Spec.designs])
          have e1 : (f.setCoef a0 a1 a2 b0 b1 b2).goal = Spec.normal a0 a1 a2 b0 b1 b2 := by
            simp only [Filter.goal, Filter.setCoef, Filter.newValues, VLag.newValue, Spec.normal, mul_one_div]
          have e2 : (f.setCoef a0 a1 a2 b0 b1 b2).cf = if f.firstRun then Spec.normal a0 a1 a2 b0 b1 b2 else f.cf := by
            simp only [Filter.setCoef, Filter.newValues, VLag.newValue, Filter.start, Spec.normal, mul_one_div]
            split <;> simp [Filter.cf, VLag.startValue]
          refine ⟨?_, ?_, fun d hd => h3 d (by simp [Spec.designs, hd])⟩
          · simp only [Filter.call, e2]; split <;> assumption
          · simp only [Filter.call, e1]; exact hn
        | instantize => exact ⟨h2, h2, h3⟩
        | _ => exact absurd trivial hk
    obtain ⟨g1, g2, g3⟩ := hgen
    obtain ⟨i1, i2⟩ := ih (f.call k).1 g1 g2 g3
    refine ⟨fun c hc => ?_, i2⟩
    simp only [Spec.history, List.mem_append] at hc
    rcases hc with hc | hc
    · exact hco c hc
    · exact i1 c hc

/-- C95: **the coefficients in force never leave the region the designs span**: for every convex set of coefficients — an interval
for each, or the stability triangle — if the first design and all later ones lie in it, so do the coefficients in force at every
sample of every history. -/
theorem C95_no_overshoot_partial {S : Set (ℝ × ℝ × ℝ × ℝ × ℝ)} (hS : Convex ℝ S) (s : Side) (a0 a1 a2 b0 b1 b2 : ℝ) (ks : List Call)
    (h : ∀ d ∈ Spec.designs (.setCoef a0 a1 a2 b0 b1 b2 :: ks), d.pt ∈ S) :
    ∀ c ∈ Spec.history (Filter.new.setCoef a0 a1 a2 b0 b1 b2) s ks, c.pt ∈ S := by
  have h0 : (Spec.normal a0 a1 a2 b0 b1 b2).pt ∈ S := h _ (by simp [Spec.designs])
  have hr := setCoef_first Filter.new rfl a0 a1 a2 b0 b1 b2
  refine (hull hS s ks _ ?_ ?_ (fun d hd => h d (by simp [Spec.designs, hd]))).1
  · rw [rests_cf hr]; exact h0
  · have : (Filter.new.setCoef a0 a1 a2 b0 b1 b2).goal = Spec.normal a0 a1 a2 b0 b1 b2 := by
      simp only [Filter.goal, Filter.setCoef, Filter.newValues, VLag.newValue, Spec.normal, mul_one_div]
    rw [this]; exact h0

end Verif.Biquad
