import Verif.Hound.ReaderLemmas2
import Verif.Hound.ShortRead
/-! Helper lemmas: short reads, batch writer, seek histories, accepted files. -/
namespace Verif.Hound
open Spec (le sampleBytes Fits Supported header headerLen needsExt frameBytes fmtChunk Chunk fileWith)

theorem readIntoSched_eq (sched : Nat → Nat) (want : Nat) : ∀ (i : Nat) (acc s : Bytes),
    readIntoSched sched i want acc s =
      if want ≤ s.length then (.ok (acc ++ s.take want), s.drop want) else (.err .io, []) := by
  induction want using Nat.strongRecOn with
  | ind want ih =>
    intro i acc s
    unfold readIntoSched
    by_cases hw : want = 0
    · subst hw; simp
    · rw [if_neg hw]
      simp only
      generalize hn : progress (sched i) want s.length = n
      unfold progress at hn
      by_cases hpos : 0 < n
      · rw [dif_pos hpos, ih (want - n) (by omega)]
        have hle : n ≤ s.length := by omega
        have hle2 : n ≤ want := by omega
        simp only [List.length_drop, List.drop_drop]
        by_cases hc : want ≤ s.length
        · rw [if_pos (by omega), if_pos hc]
          rw [show n + (want - n) = want by omega, List.append_assoc]
          congr 3
          have := List.take_append_drop n (s.take want)
          rw [List.take_take, Nat.min_eq_left hle2, List.drop_take] at this
          exact this
        · rw [if_neg (by omega), if_neg hc]
      · rw [dif_neg hpos, if_neg (by omega)]
        have : s.length = 0 := by omega
        rw [List.length_eq_zero_iff.mp this]

theorem skipSched_eq (sched : Nat → Nat) (want : Nat) : ∀ (i : Nat) (s : Bytes),
    skipSched sched i want s =
      if want ≤ s.length then (.ok (), s.drop want) else (.err .io, []) := by
  induction want using Nat.strongRecOn with
  | ind want ih =>
    intro i s
    unfold skipSched
    by_cases hw : want = 0
    · subst hw; simp
    · rw [if_neg hw]
      simp only
      generalize hn : progress (sched i) (min want 1024) s.length = n
      unfold progress at hn
      by_cases hpos : 0 < n
      · rw [dif_pos hpos, ih (want - n) (by omega)]
        simp only [List.length_drop, List.drop_drop]
        by_cases hc : want ≤ s.length
        · rw [if_pos (by omega), if_pos hc, show n + (want - n) = want by omega]
        · rw [if_neg (by omega), if_neg hc]
      · rw [dif_neg hpos, if_neg (by omega)]
        have : s.length = 0 := by omega
        rw [List.length_eq_zero_iff.mp this]

/-! ## batch writer -/
/-- Fill a batch: `for x in xs { sw.write_sample(x) }`. -/
def SW16.writeSamples {α} (S : SampleImpl α) : SW16 → List α → Res Err SW16
  | sw, [] => .ok sw
  | sw, x :: xs => do SW16.writeSamples S (← sw.writeSample S x) xs

theorem set2 (pre : Bytes) (p q a b : UInt8) (post : Bytes) :
    ((pre ++ p :: q :: post).set pre.length a).set (pre.length + 1) b = pre ++ a :: b :: post := by
  simp [List.set_append]

theorem SW16.write_one {parent : Writer} (done : Bytes) (p q : UInt8) (post : Bytes) (x : Int)
    (i : Nat) (hi : i = done.length) :
    (SW16.mk parent (done ++ p :: q :: post) i).writeSample sampI16 x =
      .ok ⟨parent, done ++ leI16 x ++ post, i + 2⟩ := by
  subst hi
  unfold SW16.writeSample
  rw [if_neg (by simp; omega), if_pos (by simp; omega)]
  simp only [sampI16, Res.ok_bind, Res.pure_eq]
  congr 2
  rw [set2]
  simp [leI16, leU16, and_ff]

theorem SW16.write_many {parent : Writer} (xs : List Int) : ∀ (done free : Bytes) (i : Nat),
    i = done.length → 2 * xs.length ≤ free.length →
    (SW16.mk parent (done ++ free) i).writeSamples sampI16 xs =
      .ok ⟨parent, done ++ xs.flatMap leI16 ++ free.drop (2 * xs.length), i + 2 * xs.length⟩ := by
  induction xs with
  | nil => intro done free i _ _; simp [SW16.writeSamples]
  | cons x xs ih =>
    intro done free i hi hlen
    match free, hlen with
    | p :: q :: post, hlen =>
      simp only [SW16.writeSamples]
      rw [SW16.write_one done p q post x i hi]
      simp only [Res.ok_bind]
      rw [ih (done ++ leI16 x) post (i + 2) (by simp [leI16, leU16, hi]) (by simp at hlen; omega)]
      congr 2
      · simp [Nat.mul_add]
      · simp; omega
    | [], hlen => simp at hlen
    | [p], hlen => simp at hlen; omega

/-! ## seek histories -/
/-- A client of an open reader: read the next sample, or seek. -/
inductive ROp where
  | next
  | seek (t : Nat)
  deriving Repr

/-- Perform one operation, keeping the reader. -/
def Reader.op {α} (S : SampleImpl α) (r : Reader) : ROp → Reader
  | .next => (r.next S).2
  | .seek t => (r.seek t).2

theorem RRep.seek {α} {enc : α → Bytes} {s : WavSpec} {r : Reader} {hd tail : Bytes} {xs : List α} {k : Nat}
    (rr : RRep r s enc hd xs tail k) (t : Nat) (ht : t * s.channels ≤ xs.length)
    (hlt : xs.length < 2 ^ 32) :
    (r.seek t).1 = .ok () ∧ RRep (r.seek t).2 s enc hd xs tail (t * s.channels) := by
  unfold Reader.seek mulU32
  rw [rr.specx]
  simp only
  rw [if_pos (by omega)]
  simp only
  have hpos : ((r.cur.pos : Nat) : Int) + ((t * s.channels : Nat) - (r.samplesRead : Nat) : Int) *
      ((s.bits / 8 : Nat) : Int) = ((hd.length + t * s.channels * (s.bits / 8) : Nat) : Int) := by
    rw [rr.pos, rr.read]
    generalize t * s.channels = j
    generalize s.bits / 8 = b
    push_cast
    rw [Int.sub_mul]
    omega
  rw [hpos]
  rw [if_neg (by omega)]
  refine ⟨rfl, ⟨rfl, rr.bps, rr.num, rfl, rr.data, Int.toNat_natCast _⟩⟩

theorem RRep.hist {α} {S : SampleImpl α} {P : α → Prop} {enc : α → Bytes} {s : WavSpec}
    {hd tail : Bytes} {xs : List α} (c : Codes S s.fmt s.bits P enc) (hP : ∀ x ∈ xs, P x)
    (hlt : xs.length < 2 ^ 32) (ops : List ROp) :
    ∀ {r : Reader} {k : Nat}, RRep r s enc hd xs tail k → k ≤ xs.length →
    (∀ t, ROp.seek t ∈ ops → t * s.channels ≤ xs.length) →
    ∃ k', k' ≤ xs.length ∧ RRep (ops.foldl (Reader.op S) r) s enc hd xs tail k' := by
  induction ops with
  | nil => intro r k rr hk _; exact ⟨k, hk, rr⟩
  | cons o os ih =>
    intro r k rr hk hs
    have hs' : ∀ t, ROp.seek t ∈ os → t * s.channels ≤ xs.length := fun t ht => hs t (by simp [ht])
    cases o with
    | next =>
      simp only [List.foldl_cons, Reader.op]
      by_cases hlt' : k < xs.length
      · exact ih (rr.next c hP hlt').2 (by omega) hs'
      · rw [rr.next_end (by omega)]; exact ih rr hk hs'
    | seek t =>
      simp only [List.foldl_cons, Reader.op]
      have ht := hs t (by simp)
      exact ih (rr.seek t ht hlt).2 ht hs'

end Verif.Hound
