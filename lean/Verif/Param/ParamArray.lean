import Verif.Rust
import Mathlib.Data.List.Basic
import Mathlib.Data.List.FinRange
/-!
# Parameter arrays: what `#[synth_parameters]` generates (C267)

The attribute is put on 29 enums of the code (the parameters of every effect, oscillator, envelope, scene and patch) and generates for
each an array type indexed by the enum. None of the 29 gives a variant an explicit value.
-/
namespace Verif.ParamArray
open Verif

/-- An enum the attribute is applied to: for each variant, in the order of declaration, the value written after `=`, if any. -/
abbrev Decl := List (Option Nat)

/-- The Rust rule for discriminants: an explicit value, or one more than the variant before (0 for the first). -/
def discs (next : Nat) : Decl → List Nat
  | [] => []
  | some v :: rest => v :: discs (v + 1) rest
  | none :: rest => next :: discs (next + 1) rest

/-- surge-derive/src/synth_parameters.rs 82-93 `generate_count_method`: `count()`. -/
def count (d : Decl) : Nat := d.length

/-- A value of the enum: the number of its variant in the order of declaration. -/
abbrev Variant (d : Decl) := Fin d.length

/-- synth_parameters.rs 115-119 `usize::from(param)`, and the `x as usize` of 199, 205. -/
def toUsize (d : Decl) (x : Variant d) : Nat := (discs 0 d).getD x.val 0

/-- synth_parameters.rs 95-113 `try_from(usize)`: the arms number the variants in the order of declaration. -/
def tryFrom (d : Decl) (i : Nat) : Res String (Variant d) :=
  if h : i < d.length then .ok ⟨i, h⟩ else .err "Index out of bounds"

/-- `Result::unwrap`. -/
def unwrap {α : Type} : Res String α → Res String α
  | .err e => .panic e
  | r => r

/-- The generated `XArray<T>`: `data: [T; X::count()]` (lines 142-144). -/
abbrev Arr (T : Type) := List T

/-- synth_parameters.rs 151-163 `new_with`: one pass over the slots, each filled with the value for the variant of its number. -/
def newWithFrom {T : Type} (d : Decl) (f : Variant d → T) (i : Nat) : Nat → Res String (Arr T)
  | 0 => .ok []
  | n + 1 => unwrap (tryFrom d i) >>= fun x => newWithFrom d f (i + 1) n >>= fun rest => .ok (f x :: rest)

/-- synth_parameters.rs 151-163 `new_with`. -/
def newWith {T : Type} (d : Decl) (f : Variant d → T) : Res String (Arr T) := newWithFrom d f 0 (count d)

/-- synth_parameters.rs 147-149 `new`. -/
def new {T : Type} (d : Decl) (v : T) : Res String (Arr T) := newWith d fun _ => v

/-- synth_parameters.rs 196-201 `index`. -/
def index {T : Type} (d : Decl) (a : Arr T) (x : Variant d) : Res String T :=
  match a[toUsize d x]? with
  | some v => .ok v
  | none => .panic "index out of bounds"

/-- synth_parameters.rs 203-207 `index_mut`, used to store `v`. -/
def store {T : Type} (d : Decl) (a : Arr T) (x : Variant d) (v : T) : Res String (Arr T) :=
  if toUsize d x < a.length then .ok (a.set (toUsize d x) v) else .panic "index out of bounds"

/-- Any number of stores. -/
def stores {T : Type} (d : Decl) : List (Variant d × T) → Arr T → Res String (Arr T)
  | [], a => .ok a
  | (x, v) :: rest, a => store d a x v >>= fun a => stores d rest a

/-- The slots from number `i` on, each with the variant of its number. -/
def enumerateFrom {T : Type} (d : Decl) (i : Nat) : Arr T → Res String (List (Variant d × T))
  | [] => .ok []
  | v :: rest => unwrap (tryFrom d i) >>= fun x => enumerateFrom d (i + 1) rest >>= fun l => .ok ((x, v) :: l)

/-- synth_parameters.rs 177-180 `iter_enumerate`, read to the end. -/
def iterEnumerate {T : Type} (d : Decl) (a : Arr T) : Res String (List (Variant d × T)) := enumerateFrom d 0 a

/-- synth_parameters.rs 187-189 `map`, from slot number `i` on. -/
def mapFrom {T Q : Type} (d : Decl) (g : T → Q) (a : Arr T) (i : Nat) : Nat → Res String (Arr Q)
  | 0 => .ok []
  | n + 1 => unwrap (tryFrom d i) >>= fun x => index d a x >>= fun v => mapFrom d g a (i + 1) n >>= fun rest => .ok (g v :: rest)

/-- synth_parameters.rs 187-189 `map`: `new_with(|x| f(&self[x]))`. -/
def map {T Q : Type} (d : Decl) (g : T → Q) (a : Arr T) : Res String (Arr Q) := mapFrom d g a 0 (count d)

/-- synth_parameters.rs 191-193 `contains`. -/
def contains {T : Type} [DecidableEq T] (a : Arr T) (v : T) : Bool := a.any (· = v)

/-! ## Specification -/

/-- No variant has an explicit value. -/
def Spec.Plain (d : Decl) : Prop := ∀ v ∈ d, v = none

/-- A table with one value per parameter. -/
def Spec.Table {T : Type} (d : Decl) (a : Arr T) (f : Variant d → T) : Prop := a.length = d.length ∧ ∀ x, index d a x = .ok (f x)

/-- The value of parameter `x` after the stores `ws` on a table that began as `f`: the newest store for `x`, or else `f x`. -/
def Spec.latest {T : Type} {d : Decl} (f : Variant d → T) (ws : List (Variant d × T)) (x : Variant d) : T :=
  ((ws.reverse.find? fun w => w.1 = x).map (·.2)).getD (f x)

/-! ## Proofs -/

theorem discs_length (d : Decl) (n : Nat) : (discs n d).length = d.length := by
  induction d generalizing n with
  | nil => rfl
  | cons a d ih => cases a <;> simp [discs, ih]

theorem discs_plain {d : Decl} (h : Spec.Plain d) (n i : Nat) (hi : i < d.length) : (discs n d).getD i 0 = n + i := by
  induction d generalizing n i with
  | nil => simp at hi
  | cons a d ih =>
    have ha := h a (List.mem_cons_self ..)
    subst ha
    cases i with
    | zero => simp [discs]
    | succ i =>
      simp only [discs, List.getD_cons_succ]
      rw [ih (fun v hv => h v (List.mem_cons_of_mem _ hv)) (n + 1) i (by simpa using hi)]; omega

theorem toUsize_plain {d : Decl} (h : Spec.Plain d) (x : Variant d) : toUsize d x = x.val := by
  unfold toUsize; rw [discs_plain h 0 x.val x.isLt]; omega

theorem newWithFrom_ok {T : Type} (d : Decl) (f : Variant d → T) (n i : Nat) (h : i + n = d.length) :
    ∃ a, newWithFrom d f i n = .ok a ∧ a.length = n ∧ ∀ k (hk : i + k < d.length), k < n → a[k]? = some (f ⟨i + k, hk⟩) := by
  induction n generalizing i with
  | zero => exact ⟨[], rfl, rfl, fun k _ hn => by omega⟩
  | succ n ih =>
    obtain ⟨a, e, l, g⟩ := ih (i + 1) (by omega)
    have hi : i < d.length := by omega
    refine ⟨f ⟨i, hi⟩ :: a, ?_, by simp [l], ?_⟩
    · simp only [newWithFrom, tryFrom, dif_pos hi, unwrap, Res.ok_bind, e]
    · intro k hk hkn
      cases k with
      | zero => rfl
      | succ k =>
        rw [List.getElem?_cons_succ, g k (by omega) (by omega)]
        congr 2
        apply Fin.ext
        simp only; omega

/-- C267. **One value per parameter.** `new_with(f)` returns, without a panic, an array of `count()` slots in which every parameter has the
value `f` gives for it; in particular `new(v)` holds `v` for every parameter. -/
theorem C267_new_with {T : Type} {d : Decl} (h : Spec.Plain d) (f : Variant d → T) : ∃ a, newWith d f = .ok a ∧ Spec.Table d a f := by
  obtain ⟨a, e, l, g⟩ := newWithFrom_ok d f d.length 0 (by omega)
  refine ⟨a, e, l, fun x => ?_⟩
  unfold index
  have e2 : a[x.val]? = some (f x) := by
    rw [g x.val (by have := x.isLt; omega) x.isLt]
    congr 2
    apply Fin.ext
    simp
  rw [toUsize_plain h, e2]

/-- C267. **Numbers and parameters correspond.** Converting a parameter to its number and back gives the parameter; a number converts to a
parameter exactly if it is below `count()`, and to the one whose number it is. -/
theorem C267_numbers {d : Decl} (h : Spec.Plain d) :
    (∀ x : Variant d, toUsize d x < count d ∧ tryFrom d (toUsize d x) = .ok x) ∧
    (∀ i, (∃ x, tryFrom d i = .ok x ∧ toUsize d x = i) ↔ i < count d) ∧
    (∀ i, count d ≤ i → tryFrom d i = .err "Index out of bounds") := by
  refine ⟨fun x => ?_, fun i => ?_, fun i hi => ?_⟩
  · rw [toUsize_plain h]
    exact ⟨x.isLt, by simp [tryFrom]⟩
  · constructor
    · rintro ⟨x, -, e⟩
      rw [toUsize_plain h] at e
      rw [← e]; exact x.isLt
    · intro hi
      exact ⟨⟨i, hi⟩, dif_pos hi, toUsize_plain h _⟩
  · exact dif_neg (by unfold count at hi; omega)

theorem store_ok {T : Type} {d : Decl} (h : Spec.Plain d) {a : Arr T} {f : Variant d → T} (ha : Spec.Table d a f) (x : Variant d) (v : T) :
    ∃ b, store d a x v = .ok b ∧ Spec.Table d b fun y => if y = x then v else f y := by
  obtain ⟨hl, hv⟩ := ha
  have hx : toUsize d x < a.length := by rw [toUsize_plain h, hl]; exact x.isLt
  refine ⟨a.set (toUsize d x) v, if_pos hx, by simpa using hl, fun y => ?_⟩
  by_cases e : y = x
  · subst e
    unfold index
    dsimp only
    rw [if_pos rfl, List.getElem?_set_self hx]
  · have hne : toUsize d x ≠ toUsize d y := by
      rw [toUsize_plain h, toUsize_plain h]
      exact fun q => e (Fin.ext q.symm)
    have := hv y
    unfold index at this ⊢
    dsimp only
    rw [if_neg e, List.getElem?_set_ne hne]
    exact this

/-- C267. **Parameters do not disturb each other.** After any history of stores every parameter has the value stored for it last, or the
one it was made with; no store panics. -/
theorem C267_stores {T : Type} {d : Decl} (h : Spec.Plain d) (f : Variant d → T) (ws : List (Variant d × T)) :
    ∃ a b, newWith d f = .ok a ∧ stores d ws a = .ok b ∧ Spec.Table d b (Spec.latest f ws) := by
  obtain ⟨a, e, ha⟩ := C267_new_with h f
  suffices H : ∀ (ws : List (Variant d × T)) (a : Arr T) (f : Variant d → T), Spec.Table d a f →
      ∃ b, stores d ws a = .ok b ∧ Spec.Table d b (Spec.latest f ws) by
    obtain ⟨b, e2, hb⟩ := H ws a f ha
    exact ⟨a, b, e, e2, hb⟩
  clear ha e a f ws
  intro ws
  induction ws with
  | nil => intro a f ha; exact ⟨a, rfl, ha⟩
  | cons w ws ih =>
    intro a f ha
    obtain ⟨x, v⟩ := w
    obtain ⟨b, e, hb⟩ := store_ok h ha x v
    obtain ⟨c, e2, hc⟩ := ih b _ hb
    refine ⟨c, by simp only [stores, e, Res.ok_bind, e2], ?_⟩
    have : (Spec.latest (fun y => if y = x then v else f y) ws) = Spec.latest f ((x, v) :: ws) := by
      funext y
      unfold Spec.latest
      rw [List.reverse_cons, List.find?_append]
      cases hq : ws.reverse.find? fun w => w.1 = y with
      | some q => simp
      | none =>
        by_cases e3 : y = x
        · subst e3; simp
        · simp [e3, Ne.symm (fun h => e3 h)]
    rwa [← this]

theorem enumerateFrom_ok {T : Type} (d : Decl) (a : Arr T) (i : Nat) (h : i + a.length = d.length) :
    ∃ l, enumerateFrom d i a = .ok l ∧ l.length = a.length ∧
      ∀ k (hk : i + k < d.length) v, a[k]? = some v → l[k]? = some (⟨i + k, hk⟩, v) := by
  induction a generalizing i with
  | nil => exact ⟨[], rfl, rfl, fun k _ v hv => by simp at hv⟩
  | cons u a ih =>
    have hl : i + 1 + a.length = d.length := by simp at h; omega
    obtain ⟨l, e, ll, g⟩ := ih (i + 1) hl
    have hi : i < d.length := by omega
    refine ⟨(⟨i, hi⟩, u) :: l, ?_, by simp [ll], ?_⟩
    · simp only [enumerateFrom, tryFrom, dif_pos hi, unwrap, Res.ok_bind, e]
    · intro k hk v hv
      cases k with
      | zero => simp at hv; simp [hv]
      | succ k =>
        rw [List.getElem?_cons_succ] at hv ⊢
        rw [g k (by omega) v hv]
        simp only [Option.some.injEq, Prod.mk.injEq, Fin.mk.injEq, and_true]
        omega

theorem table_get {T : Type} {d : Decl} (h : Spec.Plain d) {a : Arr T} {f : Variant d → T} (ha : Spec.Table d a f) (k : Nat) (hk : k < d.length) :
    a[k]? = some (f ⟨k, hk⟩) := by
  have := ha.2 ⟨k, hk⟩
  unfold index at this
  rw [toUsize_plain h] at this
  cases e : a[k]? with
  | none => simp [e] at this
  | some v => simp [e] at this; rw [this]

/-- C267. **Enumerating gives each parameter with its value**, all of them once and in the order of declaration. -/
theorem C267_enumerate {T : Type} {d : Decl} (h : Spec.Plain d) {a : Arr T} {f : Variant d → T} (ha : Spec.Table d a f) :
    iterEnumerate d a = .ok ((List.finRange d.length).map fun x => (x, f x)) := by
  obtain ⟨l, e, ll, g⟩ := enumerateFrom_ok d a 0 (by have := ha.1; omega)
  unfold iterEnumerate
  rw [e]
  congr 1
  apply List.ext_getElem?
  intro k
  by_cases hk : k < d.length
  · rw [g k (by omega) _ (table_get h ha k hk), List.getElem?_map, List.getElem?_eq_getElem (by simpa using hk)]
    simp
  · rw [List.getElem?_eq_none (by rw [ll, ha.1]; omega), List.getElem?_eq_none (by simp; omega)]

theorem mapFrom_ok {T Q : Type} {d : Decl} (g : T → Q) {a : Arr T} {f : Variant d → T} (ha : Spec.Table d a f) (n i : Nat)
    (hn : i + n = d.length) : mapFrom d g a i n = newWithFrom d (fun x => g (f x)) i n := by
  induction n generalizing i with
  | zero => rfl
  | succ n ih =>
    have hi : i < d.length := by omega
    simp only [mapFrom, newWithFrom, tryFrom, dif_pos hi, unwrap, Res.ok_bind, ha.2]
    rw [ih (i + 1) (by omega)]

/-- C267. **`map` works parameter by parameter.** -/
theorem C267_map {T Q : Type} {d : Decl} (h : Spec.Plain d) (g : T → Q) {a : Arr T} {f : Variant d → T} (ha : Spec.Table d a f) :
    ∃ b, map d g a = .ok b ∧ Spec.Table d b fun x => g (f x) := by
  obtain ⟨b, e, hb⟩ := C267_new_with h fun x => g (f x)
  exact ⟨b, (mapFrom_ok g ha d.length 0 (by omega)).trans e, hb⟩

/-- C267. **What the array contains and when two are equal** is decided by the parameters' values. -/
theorem C267_contains {T : Type} [DecidableEq T] {d : Decl} (h : Spec.Plain d) {a b : Arr T} {f g : Variant d → T}
    (ha : Spec.Table d a f) (hb : Spec.Table d b g) :
    (∀ v, contains a v = true ↔ ∃ x, f x = v) ∧ (a = b ↔ ∀ x, f x = g x) := by
  constructor
  · intro v
    unfold contains
    rw [List.any_eq_true]
    constructor
    · rintro ⟨u, hu, e⟩
      obtain ⟨k, hk, hku⟩ := List.mem_iff_getElem.mp hu
      have hkd : k < d.length := by rw [← ha.1]; exact hk
      refine ⟨⟨k, hkd⟩, ?_⟩
      have := table_get h ha k hkd
      rw [List.getElem?_eq_getElem hk, hku] at this
      simp only [Option.some.injEq] at this
      simp only [decide_eq_true_eq] at e
      rw [← this, e]
    · rintro ⟨x, rfl⟩
      exact ⟨f x, List.mem_of_getElem? (table_get h ha x.val x.isLt), by simp⟩
  · constructor
    · rintro rfl x
      have := (ha.2 x).symm.trans (hb.2 x)
      simpa using this
    · intro e
      apply List.ext_getElem?
      intro k
      by_cases hk : k < d.length
      · rw [table_get h ha k hk, table_get h hb k hk, e]
      · rw [List.getElem?_eq_none (by rw [ha.1]; omega), List.getElem?_eq_none (by rw [hb.1]; omega)]

/-- C267, the limit of the generated code: the attribute also accepts enums with explicit values, and for these it is wrong: a variant whose
value is not below the number of variants cannot be used as an index. -/
theorem C267_explicit_value_panics {T : Type} {d : Decl} {a : Arr T} (ha : a.length = d.length) (x : Variant d) (hx : d.length ≤ toUsize d x) :
    index d a x = .panic "index out of bounds" := by
  unfold index
  rw [List.getElem?_eq_none (by omega)]

/-- The eight parameters of an envelope: `C267_stores` applies; the sixth was set twice, the first once. -/
example : ∃ a b, newWith (List.replicate 8 none) (fun x => x.val) = .ok a ∧ stores (List.replicate 8 none) [(⟨5, by decide⟩, 70), (⟨0, by decide⟩, 9), (⟨5, by decide⟩, 71)] a = .ok b ∧
    b = [9, 1, 2, 3, 4, 71, 6, 7] := ⟨_, _, rfl, rfl, rfl⟩
example : Spec.Plain (List.replicate 8 none) := by intro v hv; exact (List.mem_replicate.mp hv).2

/-- An enum `{ A = 1, B }`: using `B` as an index panics. -/
example : index [some 1, none] [10, 20] (1 : Fin 2) = .panic "index out of bounds" :=
  C267_explicit_value_panics (T := ℕ) (d := [some 1, none]) (a := [10, 20]) rfl (1 : Fin 2) (by decide)

end Verif.ParamArray
