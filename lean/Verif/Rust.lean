/-!
# Outcomes of Rust calls

`Res ε α` is what calling a Rust function can do, apart from not returning: return `Ok`/a plain value,
return `Err`, or panic.  Debug-profile arithmetic is assumed: an overflowing `+ - *`, an over-long
shift, division by zero, out-of-range indexing and `unwrap` of `None` are the `panic` outcome.
-/
namespace Verif

/-- Outcome of a Rust function returning `Result<α, ε>` (simplification: the panic payload is a label). -/
inductive Res (ε : Type) (α : Type) where
  | ok (a : α)
  | err (e : ε)
  | panic (why : String)
  deriving DecidableEq, Repr

namespace Res
variable {ε α β : Type}

/-- `?` / panic propagation. -/
def bind (r : Res ε α) (f : α → Res ε β) : Res ε β :=
  match r with
  | ok a => f a
  | err e => err e
  | panic w => panic w

instance : Monad (Res ε) where
  pure := Res.ok
  bind := Res.bind

@[simp] theorem ok_bind (a : α) (f : α → Res ε β) : (Res.ok a >>= f) = f a := rfl
@[simp] theorem err_bind (e : ε) (f : α → Res ε β) : ((Res.err e : Res ε α) >>= f) = Res.err e := rfl
@[simp] theorem panic_bind (w : String) (f : α → Res ε β) :
    ((Res.panic w : Res ε α) >>= f) = Res.panic w := rfl
@[simp] theorem pure_eq (a : α) : (pure a : Res ε α) = Res.ok a := rfl

instance : LawfulMonad (Res ε) := LawfulMonad.mk'
  (id_map := by intro α x; cases x <;> rfl)
  (pure_bind := by intro α β a f; rfl)
  (bind_assoc := by intro α β γ x f g; cases x <;> rfl)

/-- Did the call panic? -/
def isPanic : Res ε α → Bool
  | panic _ => true
  | _ => false

/-- Did the call return normally with a value? -/
def isOk : Res ε α → Bool
  | ok _ => true
  | _ => false

end Res

/-- `u32` `a + b` with overflow check (debug profile). -/
def addU32 {ε} (a b : Nat) : Res ε Nat :=
  if a + b < 2 ^ 32 then .ok (a + b) else .panic "u32 add overflow"
/-- `u32` `a - b` with underflow check (debug profile). -/
def subU32 {ε} (a b : Nat) : Res ε Nat :=
  if b ≤ a then .ok (a - b) else .panic "u32 subtract overflow"
/-- `u32` `a * b` with overflow check (debug profile). -/
def mulU32 {ε} (a b : Nat) : Res ε Nat :=
  if a * b < 2 ^ 32 then .ok (a * b) else .panic "u32 multiply overflow"
/-- `u16` `a + b` with overflow check (debug profile). -/
def addU16 {ε} (a b : Nat) : Res ε Nat :=
  if a + b < 2 ^ 16 then .ok (a + b) else .panic "u16 add overflow"
/-- `i32` result range check (debug profile) for `+`, `-`. -/
def chkI32 {ε} (x : Int) : Res ε Int :=
  if -2147483648 ≤ x ∧ x ≤ 2147483647 then .ok x else .panic "i32 overflow"
/-- Unsigned division with the division-by-zero panic. -/
def divP {ε} (a b : Nat) : Res ε Nat :=
  if b = 0 then .panic "divide by zero" else .ok (a / b)
/-- Unsigned remainder with the division-by-zero panic. -/
def modP {ε} (a b : Nat) : Res ε Nat :=
  if b = 0 then .panic "remainder by zero" else .ok (a % b)

end Verif
