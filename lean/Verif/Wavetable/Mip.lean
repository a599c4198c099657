import Verif.Wavetable.Sizes
/-! # Filling a wavetable: base level and mip levels (C82, C83) -/
namespace Verif.Wavetable
open Verif Verif.Float Verif.Hound

theorem asI32_small {n : Nat} (h : n < 2 ^ 31) : asI32 (n : Int) = n := by
  unfold asI32; omega

theorem ofInt_toNat (x : Int) : (BitVec.ofInt 32 x).toNat = (x % 2 ^ 32).toNat := by
  rw [BitVec.toNat_ofInt]; rfl

theorem andI32_bounds (x : Int) {n : Nat} (h : n < 2 ^ 31) : 0 ≤ andI32 x (n : Int) ∧ andI32 x (n : Int) ≤ n := by
  unfold andI32
  rw [BitVec.toNat_and, ofInt_toNat, ofInt_toNat]
  have e : ((n : Int) % 2 ^ 32).toNat = n := by omega
  rw [e]
  have h1 : (x % 2 ^ 32).toNat &&& n ≤ n := Nat.and_le_right
  rw [asI32_small (by omega)]; omega

theorem andI32_pow2 (x : Int) {k : Nat} (h : k ≤ 30) : andI32 x ((2 ^ k - 1 : Nat) : Int) = x % (2 ^ k : Nat) := by
  have hk : 2 ^ k ≤ 2 ^ 30 := Nat.pow_le_pow_right (by omega) h
  have hp : 0 < 2 ^ k := by positivity
  unfold andI32
  rw [BitVec.toNat_and, ofInt_toNat, ofInt_toNat]
  have e : (((2 ^ k - 1 : Nat) : Int) % 2 ^ 32).toNat = 2 ^ k - 1 := by omega
  rw [e, Nat.and_two_pow_sub_one_eq_mod]
  have h1 : (x % 2 ^ 32).toNat % 2 ^ k < 2 ^ k := Nat.mod_lt _ hp
  rw [asI32_small (by omega)]
  have h2 : (((x % 2 ^ 32).toNat : Nat) : Int) = x % 2 ^ 32 := by omega
  rw [Int.natCast_mod, h2]
  apply Int.emod_emod_of_dvd
  exact ⟨((2 ^ (32 - k) : Nat) : Int), by rw [← Nat.cast_mul, ← Nat.pow_add, show k + (32 - k) = 32 by omega]; rfl⟩

namespace Spec

/-- Position of filter tap `a` for sample `s` of the next level, relative to the parent wave's start. -/
def tapPos (s a : Nat) : Int := 2 * (s : Int) + a - 31

/-- The wave tap `a` falls in: `t` or, past the ends, a neighbour; never before the first. The quotient is rounded
towards zero. -/
def tapWave (parent t s a : Nat) : Int := max 0 ((t : Int) + (tapPos s a).tdiv parent)

/-- Tap `a` is the last of the 64 that falls in one of the `nt` waves. -/
def LastTap (nt parent t s a : Nat) : Prop :=
  a < 64 ∧ tapWave parent t s a < nt ∧ ∀ a', a < a' → a' < 64 → ¬ tapWave parent t s a' < nt

end Spec
open Spec

variable {α : Type}

/-- An array with one entry replaced. -/
def A3.set (d : A3 α) (i j k : Nat) (v : α) : A3 α :=
  ⟨d.d0, d.d1, d.d2, fun x y z => if x = i ∧ y = j ∧ z = k then v else d.at' x y z⟩

/-- The masked sample number of a tap. -/
def tapSample (parent s a : Nat) : Nat := (andI32 (tapPos s a) ((parent - 1 : Nat) : Int)).toNat

theorem tapSample_lt (parent s a : Nat) (h0 : 0 < parent) (h : parent < 2 ^ 31) : tapSample parent s a < parent := by
  unfold tapSample
  have hb := andI32_bounds (tapPos s a) (Nat.lt_of_le_of_lt (Nat.sub_le parent 1) h)
  generalize andI32 (tapPos s a) ((parent - 1 : Nat) : Int) = v at hb ⊢
  obtain ⟨h1, h2⟩ := hb
  have h3 : (v.toNat : Int) ≤ ((parent - 1 : Nat) : Int) := by rw [Int.toNat_of_nonneg h1]; exact h2
  have h4 : v.toNat ≤ parent - 1 := Int.ofNat_le.mp h3
  omega

/-- One step of the innermost loop, in closed form. -/
theorem mipTap_eq (o : Ops α) (ho : o.hrfilter.length = 64) (dim : Dim) (l t s a parent : Nat) (data : A3 α)
    (hl : l < data.d0) (hl1 : 1 ≤ l) (hd1 : data.d1 = dim.numTables) (hd2 : parent ≤ data.d2)
    (ht : t < dim.numTables) (hs : s < data.d2) (hsp : 2 * s < parent) (hp30 : parent < 2 ^ 30) (hnt : dim.numTables < 2 ^ 29)
    (ha : a < 64) :
    mipTap o dim l t s parent a data =
      if tapWave parent t s a < dim.numTables then
        .ok (data.set l t s
          (o.mul (o.hrfilter[a]'(by omega)) (data.at' (l - 1) (tapWave parent t s a).toNat (tapSample parent s a))))
      else .ok data := by
  unfold mipTap
  have e1 : asI32 ((s * 2 + a : Nat) : Int) - (mipmapFilterIdOf : Int) = tapPos s a := by
    rw [asI32_small (by omega)]
    have : (mipmapFilterIdOf : Int) = 31 := rfl
    rw [this]; unfold tapPos; push_cast; omega
  rw [e1]
  have b1 : -31 ≤ tapPos s a := by unfold tapPos; omega
  have b2 : tapPos s a < 2 ^ 30 + 64 := by unfold tapPos; omega
  have hq1 : -31 ≤ (tapPos s a).tdiv parent ∧ (tapPos s a).tdiv parent < 2 ^ 30 + 64 := by
    have hpp : (0 : Int) < parent := by omega
    rcases Int.lt_or_le (tapPos s a) 0 with hneg | hnn
    · have h1 : (-(tapPos s a)).tdiv parent ≤ -(tapPos s a) := by
        rw [Int.tdiv_eq_ediv_of_nonneg (by omega)]; exact Int.ediv_le_self _ (by omega)
      have h2 : 0 ≤ (-(tapPos s a)).tdiv parent := Int.tdiv_nonneg (by omega) (by omega)
      rw [Int.neg_tdiv] at h1 h2; omega
    · have h1 : (tapPos s a).tdiv parent ≤ tapPos s a := by
        rw [Int.tdiv_eq_ediv_of_nonneg hnn]; exact Int.ediv_le_self _ hnn
      have h2 : 0 ≤ (tapPos s a).tdiv parent := Int.tdiv_nonneg hnn (by omega)
      omega
  rw [chkI32, if_pos (by omega), Res.ok_bind, asI32_small (show parent < 2 ^ 31 by omega), if_neg (by omega),
    asI32_small (show t < 2 ^ 31 by omega), chkI32, if_pos (by omega), Res.ok_bind]
  dsimp only
  rw [if_neg (by omega), asI32_small (show parent - 1 < 2 ^ 31 by omega), asI32_small (show dim.numTables < 2 ^ 31 by omega)]
  change (if tapWave parent t s a < dim.numTables then _ else _) = _
  by_cases hv : tapWave parent t s a < dim.numTables
  · rw [if_pos hv, if_pos hv]
    rw [List.getElem?_eq_getElem (show a < o.hrfilter.length by omega)]
    dsimp only
    rw [Res.ok_bind]
    change (A3.get data (l - 1) (tapWave parent t s a).toNat (tapSample parent s a) >>= _) = _
    have hts : tapSample parent s a < data.d2 := by
      exact Nat.lt_of_lt_of_le (tapSample_lt parent s a (by omega) (by omega)) hd2
    have h0 : 0 ≤ tapWave parent t s a := by unfold tapWave; omega
    unfold A3.get A3.put
    rw [if_pos ⟨by omega, by omega, hts⟩, Res.ok_bind, if_pos ⟨hl, by omega, hs⟩]; rfl
  · rw [if_neg hv, if_neg hv]

/-- The last tap that counts, among the first `n`. -/
def lastAmong (nt parent t s : Nat) : Nat → Option Nat
  | 0 => none
  | n + 1 => if tapWave parent t s n < nt then some n else lastAmong nt parent t s n

theorem lastAmong_spec {nt parent t s : Nat} : ∀ {n a : Nat}, lastAmong nt parent t s n = some a →
    a < n ∧ tapWave parent t s a < nt ∧ ∀ a', a < a' → a' < n → ¬ tapWave parent t s a' < nt := by
  intro n
  induction n with
  | zero => intro a h; cases h
  | succ n ih =>
    intro a h
    unfold lastAmong at h
    by_cases hv : tapWave parent t s n < nt
    · rw [if_pos hv] at h
      cases h; exact ⟨by omega, hv, by omega⟩
    · rw [if_neg hv] at h
      obtain ⟨h1, h2, h3⟩ := ih h
      refine ⟨by omega, h2, fun a' h4 h5 => ?_⟩
      rcases Nat.lt_or_ge a' n with h6 | h6
      · exact h3 a' h4 h6
      · have : a' = n := by omega
        subst this; exact hv

theorem lastAmong_some {nt parent t s : Nat} (n a : Nat) (ha : a < n) (h : tapWave parent t s a < nt) :
    ∃ b, lastAmong nt parent t s n = some b := by
  induction n with
  | zero => omega
  | succ n ih =>
    unfold lastAmong
    by_cases hv : tapWave parent t s n < nt
    · rw [if_pos hv]; exact ⟨n, rfl⟩
    · rw [if_neg hv]
      rcases Nat.lt_or_ge a n with h1 | h1
      · exact ih h1
      · have : a = n := by omega
        subst this; exact absurd h hv

/-- What the innermost loop leaves at its position. -/
def tapValue (o : Ops α) (nt l t s parent : Nat) (data : A3 α) (n : Nat) : α :=
  match lastAmong nt parent t s n with
  | some a => match o.hrfilter[a]? with
    | some f => o.mul f (data.at' (l - 1) (tapWave parent t s a).toNat (tapSample parent s a))
    | none => data.at' l t s
  | none => data.at' l t s

/-- `d'` is `d` with the entries of level `l` at the positions `P` set to the tap values. -/
structure Filled (o : Ops α) (nt l parent : Nat) (P : Nat → Nat → Prop) (d d' : A3 α) : Prop where
  e0 : d'.d0 = d.d0
  e1 : d'.d1 = d.d1
  e2 : d'.d2 = d.d2
  new : ∀ t s, P t s → d'.at' l t s = tapValue o nt l t s parent d 64
  old : ∀ x t s, ¬ (x = l ∧ P t s) → d'.at' x t s = d.at' x t s

theorem tapLoop (o : Ops α) (ho : o.hrfilter.length = 64) (dim : Dim) (l t s parent : Nat) (data : A3 α)
    (hl : l < data.d0) (hl1 : 1 ≤ l) (hd1 : data.d1 = dim.numTables) (hd2 : parent ≤ data.d2)
    (ht : t < dim.numTables) (hs : s < data.d2) (hsp : 2 * s < parent) (hp30 : parent < 2 ^ 30) (hnt : dim.numTables < 2 ^ 29) :
    ∃ d', forN mipmapFilterSize (mipTap o dim l t s parent) data = .ok d' ∧
      Filled o dim.numTables l parent (fun y z => y = t ∧ z = s) data d' := by
  obtain ⟨d', e, h1, h2, h3, h4, h5⟩ := forN_inv
    (fun n (d : A3 α) => d.d0 = data.d0 ∧ d.d1 = data.d1 ∧ d.d2 = data.d2 ∧
      d.at' l t s = tapValue o dim.numTables l t s parent data n ∧
      ∀ x y z, ¬ (x = l ∧ y = t ∧ z = s) → d.at' x y z = data.at' x y z)
    (mipTap o dim l t s parent) mipmapFilterSize data ⟨rfl, rfl, rfl, rfl, fun _ _ _ _ => rfl⟩ (by
      intro a ha d ⟨g0, g1, g2, g3, g4⟩
      have ha' : a < 64 := ha
      rw [mipTap_eq o ho dim l t s a parent d (by omega) hl1 (by omega) (by omega) ht (by omega) hsp hp30 hnt ha']
      by_cases hv : tapWave parent t s a < dim.numTables
      · rw [if_pos hv]
        refine ⟨_, rfl, g0, g1, g2, ?_, ?_⟩
        · dsimp only [A3.set]
          rw [if_pos ⟨rfl, rfl, rfl⟩, tapValue, lastAmong, if_pos hv]
          dsimp only
          rw [List.getElem?_eq_getElem (show a < o.hrfilter.length by omega)]
          dsimp only
          rw [g4 _ _ _ (by omega)]
        · intro x y z hne
          dsimp only [A3.set]
          rw [if_neg hne]; exact g4 x y z hne
      · rw [if_neg hv]
        refine ⟨d, rfl, g0, g1, g2, ?_, g4⟩
        rw [g3, tapValue, tapValue, lastAmong, if_neg hv])
  refine ⟨d', e, h1, h2, h3, ?_, ?_⟩
  · rintro y z ⟨rfl, rfl⟩; exact h4
  · intro x y z hne; exact h5 x y z hne

theorem tapValue_congr (o : Ops α) (nt l t s parent : Nat) (d d' : A3 α)
    (h : ∀ y z, d'.at' (l - 1) y z = d.at' (l - 1) y z) (hs : d'.at' l t s = d.at' l t s) (n : Nat) :
    tapValue o nt l t s parent d' n = tapValue o nt l t s parent d n := by
  unfold tapValue
  split
  · split
    · rw [h]
    · exact hs
  · exact hs

/-- Filling in one more position. -/
theorem Filled.trans {o : Ops α} {nt l parent : Nat} {P Q R : Nat → Nat → Prop} {d d1 d2 : A3 α} (hl : 1 ≤ l)
    (h1 : Filled o nt l parent P d d1) (h2 : Filled o nt l parent Q d1 d2) (hdis : ∀ t s, Q t s → ¬ P t s)
    (hR : ∀ t s, R t s ↔ P t s ∨ Q t s) : Filled o nt l parent R d d2 := by
  refine ⟨by rw [h2.e0, h1.e0], by rw [h2.e1, h1.e1], by rw [h2.e2, h1.e2], ?_, ?_⟩
  · intro t s hr
    by_cases hq : Q t s
    · rw [h2.new t s hq]
      exact tapValue_congr o nt l t s parent d d1 (fun y z => h1.old _ _ _ (by omega))
        (h1.old _ _ _ (fun h => hdis t s hq h.2)) 64
    · rw [h2.old _ _ _ (fun h => hq h.2)]
      exact h1.new t s (((hR t s).mp hr).resolve_right hq)
  · intro x t s hne
    rw [h2.old x t s (fun h => hne ⟨h.1, (hR t s).mpr (Or.inr h.2)⟩)]
    exact h1.old x t s (fun h => hne ⟨h.1, (hR t s).mpr (Or.inl h.2)⟩)

theorem Filled.none (o : Ops α) (nt l parent : Nat) (d : A3 α) : Filled o nt l parent (fun _ _ => False) d d :=
  ⟨rfl, rfl, rfl, fun _ _ h => h.elim, fun _ _ _ _ => rfl⟩

theorem Filled.congr {o : Ops α} {nt l parent : Nat} {P Q : Nat → Nat → Prop} {d d' : A3 α}
    (h : Filled o nt l parent P d d') (hPQ : ∀ t s, Q t s ↔ P t s) : Filled o nt l parent Q d d' :=
  ⟨h.e0, h.e1, h.e2, fun t s q => h.new t s ((hPQ t s).mp q), fun x t s hn => h.old x t s (fun hp => hn ⟨hp.1, (hPQ t s).mpr hp.2⟩)⟩

/-- One level. -/
theorem levelLoop (o : Ops α) (ho : o.hrfilter.length = 64) (dim : Dim) (l parent size : Nat) (data : A3 α)
    (hl : l < data.d0) (hl1 : 1 ≤ l) (hd1 : data.d1 = dim.numTables) (hd2 : parent ≤ data.d2)
    (hsz : 2 * size ≤ parent) (hp30 : parent < 2 ^ 30) (hnt : dim.numTables < 2 ^ 29) :
    ∃ d', forN dim.numTables (fun t d => forN size (fun s d => forN mipmapFilterSize (mipTap o dim l t s parent) d) d) data
        = .ok d' ∧ Filled o dim.numTables l parent (fun t s => t < dim.numTables ∧ s < size) data d' := by
  refine forN_inv (fun n d => Filled o dim.numTables l parent (fun t s => t < n ∧ s < size) data d) _ _ _
    ((Filled.none o _ _ _ _).congr (by intro t s; simp)) ?_
  intro t ht d hd
  obtain ⟨d', e, h⟩ := forN_inv (fun n d1 => Filled o dim.numTables l parent (fun t' s => t' = t ∧ s < n) d d1)
    (fun s d => forN mipmapFilterSize (mipTap o dim l t s parent) d) size d
    ((Filled.none o _ _ _ _).congr (by intro t s; simp)) (by
      intro s hs d1 h1
      obtain ⟨d2, e2, h2⟩ := tapLoop o ho dim l t s parent d1 (by rw [h1.e0, hd.e0]; exact hl) hl1
        (by rw [h1.e1, hd.e1]; exact hd1) (by rw [h1.e2, hd.e2]; exact hd2) ht
        (by rw [h1.e2, hd.e2]; omega) (by omega) hp30 hnt
      exact ⟨d2, e2, h1.trans hl1 h2 (by intro t' s' h; omega) (by intro t' s'; omega)⟩)
  exact ⟨d', e, hd.trans hl1 h (by intro t' s' h; omega) (by intro t' s'; omega)⟩

/-- What `populate_mipmaps` leaves behind after the levels below `n + 1`. -/
structure Mips (o : Ops α) (dim : Dim) (n : Nat) (d d' : A3 α) : Prop where
  e0 : d'.d0 = d.d0
  e1 : d'.d1 = d.d1
  e2 : d'.d2 = d.d2
  new : ∀ l t s, 1 ≤ l → l ≤ n → t < dim.numTables → s < dim.tableLen / 2 ^ l → ∃ a f,
    LastTap dim.numTables (dim.tableLen / 2 ^ (l - 1)) t s a ∧ o.hrfilter[a]? = some f ∧ d'.at' l t s =
      o.mul f (d'.at' (l - 1) (tapWave (dim.tableLen / 2 ^ (l - 1)) t s a).toNat (tapSample (dim.tableLen / 2 ^ (l - 1)) s a))
  old : ∀ x t s, x = 0 ∨ n < x ∨ ¬ (t < dim.numTables ∧ s < dim.tableLen / 2 ^ x) → d'.at' x t s = d.at' x t s

theorem half_le (len l : Nat) : 2 * (len / 2 ^ (l + 1)) ≤ len / 2 ^ l := by
  rw [Nat.pow_succ, ← Nat.div_div_eq_div_mul]; omega

theorem center_tap (parent t s nt : Nat) (h : 2 * s < parent) (ht : t < nt) : tapWave parent t s 31 < nt := by
  unfold tapWave tapPos
  have : (2 * (s : Int) + (31 : Nat) - 31).tdiv parent = 0 := by
    rw [show 2 * (s : Int) + (31 : Nat) - 31 = 2 * s by omega]
    exact Int.tdiv_eq_zero_of_lt (by omega) (by omega)
  rw [this]; omega

theorem populateMipmaps_spec (o : Ops α) (ho : o.hrfilter.length = 64) (data : A3 α) (dim : Dim)
    (hd0 : data.d0 = dim.mipmapLevels) (hd1 : data.d1 = dim.numTables) (hd2 : data.d2 = dim.tableLen)
    (hL : dim.mipmapLevels ≤ 64) (hlen : dim.tableLen < 2 ^ 30) (hnt : dim.numTables < 2 ^ 29) :
    ∃ d', populateMipmaps o data dim = .ok d' ∧ Mips o dim (dim.mipmapLevels - 1) data d' := by
  unfold populateMipmaps
  refine forN_inv (fun n d => Mips o dim n data d) _ _ _ ⟨rfl, rfl, rfl, fun l _ _ _ _ => by omega, fun _ _ _ _ => rfl⟩ ?_
  intro l hl d hd
  dsimp only
  rw [shrUs_eq (by omega), Res.ok_bind, shrUs_eq (by omega), Res.ok_bind]
  have hle : dim.tableLen / 2 ^ (l + 1 - 1) ≤ dim.tableLen := Nat.div_le_self _ _
  obtain ⟨d', e, h⟩ := levelLoop o ho dim (l + 1) (dim.tableLen / 2 ^ (l + 1 - 1)) (dim.tableLen / 2 ^ (l + 1)) d
    (by rw [hd.e0]; omega) (by omega) (by rw [hd.e1]; exact hd1) (by rw [hd.e2, hd2]; exact hle)
    (half_le _ _) (by omega) hnt
  refine ⟨d', e, by rw [h.e0, hd.e0], by rw [h.e1, hd.e1], by rw [h.e2, hd.e2], ?_, ?_⟩
  · intro m t s hm1 hm2 ht hs
    rcases Nat.lt_or_ge m (l + 1) with hm | hm
    · obtain ⟨a, f, h1, h2, h3⟩ := hd.new m t s hm1 (by omega) ht hs
      exact ⟨a, f, h1, h2, by rw [h.old _ _ _ (by omega), h.old _ _ _ (by omega)]; exact h3⟩
    · have hml : m = l + 1 := by omega
      subst hml
      have h2s := half_le dim.tableLen l
      obtain ⟨a, ha⟩ := lastAmong_some 64 31 (by omega)
        (center_tap (dim.tableLen / 2 ^ (l + 1 - 1)) t s dim.numTables (by rw [Nat.add_sub_cancel]; omega) ht)
      obtain ⟨g1, g2, g3⟩ := lastAmong_spec ha
      refine ⟨a, o.hrfilter[a]'(by omega), ⟨g1, g2, g3⟩, List.getElem?_eq_getElem _, ?_⟩
      rw [h.new t s ⟨ht, hs⟩, tapValue, ha]
      dsimp only
      rw [List.getElem?_eq_getElem (show a < o.hrfilter.length by omega)]
      dsimp only
      rw [h.old _ _ _ (by omega)]
  · intro x t s hx
    rw [h.old x t s (by rintro ⟨rfl, hb⟩; omega)]
    exact hd.old x t s (by omega)

/-! ## The base level -/

theorem populateBase_spec (data : A3 α) (dim : Dim) (xs : List α) (hd0 : 1 ≤ data.d0) (hd1 : data.d1 = dim.numTables)
    (hd2 : data.d2 = dim.tableLen) (hx : xs.length = dim.numTables * dim.tableLen) (hlt : dim.numTables * dim.tableLen < 2 ^ 64) :
    ∃ d', populateBase data dim xs = .ok d' ∧ d'.d0 = data.d0 ∧ d'.d1 = data.d1 ∧ d'.d2 = data.d2 ∧
      (∀ t s, t < dim.numTables → s < dim.tableLen → xs[t * dim.tableLen + s]? = some (d'.at' 0 t s)) ∧
      ∀ x t s, ¬ (x = 0 ∧ t < dim.numTables ∧ s < dim.tableLen) → d'.at' x t s = data.at' x t s := by
  unfold populateBase
  rw [mulUs_eq hlt, Res.ok_bind, if_neg (by omega)]
  have key : ∀ (rest done : List α) (d : A3 α) (t s : Nat), xs = done ++ rest → t * dim.tableLen + s = done.length →
      (s < dim.tableLen ∨ rest = []) → d.d0 = data.d0 → d.d1 = data.d1 → d.d2 = data.d2 →
      (∀ t s, s < dim.tableLen → t * dim.tableLen + s < done.length → xs[t * dim.tableLen + s]? = some (d.at' 0 t s)) →
      (∀ x t s, ¬ (x = 0 ∧ t < dim.numTables ∧ s < dim.tableLen) → d.at' x t s = data.at' x t s) →
      ∃ r, rest.foldl (fun r x => r >>= fun st => baseStep dim.tableLen st x) (.ok (d, t, s)) = .ok r ∧
        r.1.d0 = data.d0 ∧ r.1.d1 = data.d1 ∧ r.1.d2 = data.d2 ∧
        (∀ t s, s < dim.tableLen → t * dim.tableLen + s < xs.length → xs[t * dim.tableLen + s]? = some (r.1.at' 0 t s)) ∧
        (∀ x t s, ¬ (x = 0 ∧ t < dim.numTables ∧ s < dim.tableLen) → r.1.at' x t s = data.at' x t s) := by
    intro rest
    induction rest with
    | nil =>
      intro done d t s e _ _ a1 a2 a3 h1 h2
      refine ⟨(d, t, s), rfl, a1, a2, a3, ?_, h2⟩
      rw [List.append_nil] at e; rw [e] at h1 ⊢; exact h1
    | cons x rest ih =>
      intro done d t s e hp hs a1 a2 a3 h1 h2
      have hs' : s < dim.tableLen := hs.resolve_right (by simp)
      have hlen : done.length < dim.numTables * dim.tableLen := by
        rw [← hx, e]; simp
      have ht : t < dim.numTables := by
        by_contra hc
        have := Nat.mul_le_mul_right dim.tableLen (Nat.le_of_not_lt hc)
        omega
      have hget : xs[done.length]? = some x := by rw [e]; simp
      rw [List.foldl_cons, Res.ok_bind]
      have hput : d.put 0 t s x = .ok (d.set 0 t s x) := by
        unfold A3.put; rw [if_pos ⟨by omega, by omega, by omega⟩]; rfl
      unfold baseStep
      dsimp only
      rw [hput, Res.ok_bind]
      have new1 : ∀ t' s', s' < dim.tableLen → t' * dim.tableLen + s' < (done ++ [x]).length →
          xs[t' * dim.tableLen + s']? = some ((d.set 0 t s x).at' 0 t' s') := by
        intro t' s' hs1 hlt1
        rw [List.length_append, List.length_singleton] at hlt1
        dsimp only [A3.set]
        by_cases heq : t' = t ∧ s' = s
        · obtain ⟨rfl, rfl⟩ := heq
          rw [if_pos ⟨rfl, rfl, rfl⟩, hp]; exact hget
        · rw [if_neg (by rintro ⟨-, h⟩; exact heq h)]
          apply h1 t' s' hs1
          by_contra hc
          have hpos : t' * dim.tableLen + s' = t * dim.tableLen + s := by omega
          have h3 : t' = t := by
            rcases Nat.lt_trichotomy t' t with h | h | h
            · have := wave_room h dim.tableLen; omega
            · exact h
            · have := wave_room h dim.tableLen; omega
          subst h3; exact heq ⟨rfl, by omega⟩
      have old1 : ∀ x' t' s', ¬ (x' = 0 ∧ t' < dim.numTables ∧ s' < dim.tableLen) →
          (d.set 0 t s x).at' x' t' s' = data.at' x' t' s' := by
        intro x' t' s' hn
        dsimp only [A3.set]
        rw [if_neg (by rintro ⟨h, rfl, rfl⟩; exact hn ⟨h, ht, hs'⟩)]
        exact h2 _ _ _ hn
      by_cases hw : s + 1 = dim.tableLen
      · rw [if_pos hw]
        exact ih (done ++ [x]) (d.set 0 t s x) (t + 1) 0 (by simpa using e)
          (by rw [List.length_append, List.length_singleton, Nat.add_mul]; omega) (Or.inl (by omega)) a1 a2 a3 new1 old1
      · rw [if_neg hw]
        exact ih (done ++ [x]) (d.set 0 t s x) t (s + 1) (by simpa using e)
          (by rw [List.length_append, List.length_singleton]; omega) (Or.inl (by omega)) a1 a2 a3 new1 old1
  obtain ⟨r, er, b1, b2, b3, b4, b5⟩ := key xs [] data 0 0 rfl (by simp) (by
      rcases Nat.eq_zero_or_pos dim.tableLen with h | h
      · right; rw [h, Nat.mul_zero] at hx; exact List.eq_nil_of_length_eq_zero hx
      · exact Or.inl h) rfl rfl rfl (by simp) (fun _ _ _ _ => rfl)
  refine ⟨r.1, by rw [er]; rfl, b1, b2, b3, ?_, b5⟩
  intro t s ht hs
  apply b4 t s hs
  have := wave_room ht dim.tableLen
  omega

end Verif.Wavetable
