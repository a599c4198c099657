import Verif.Hound.Codec
import Verif.Hound.Spec
/-! Helper lemmas about the codecs. -/
namespace Verif.Hound
open Spec (le)

theorem and_ff (x : Nat) : x &&& 0xff = x % 256 := Nat.and_two_pow_sub_one_eq_mod x 8

theorem leU16_eq (x : Nat) (h : x < 65536) : leU16 x = le 2 x := by
  simp only [leU16, le, and_ff, Nat.shiftRight_eq_div_pow]
  have : x / 256 % 256 = x / 2 ^ 8 := by omega
  rw [this]

theorem leU24_eq (x : Nat) : leU24 x = le 3 x := by
  simp only [leU24, le, and_ff, Nat.shiftRight_eq_div_pow, Nat.div_div_eq_div_mul]

theorem leU32_eq (x : Nat) : leU32 x = le 4 x := by
  simp only [leU32, le, and_ff, Nat.shiftRight_eq_div_pow, Nat.div_div_eq_div_mul]

@[simp] theorem le_length (n x : Nat) : (le n x).length = n := by
  induction n generalizing x with
  | zero => rfl
  | succ n ih => simp [le, ih]

@[simp] theorem toNat_ofNat_mod (x : Nat) : (UInt8.ofNat (x % 256)).toNat = x % 256 := by
  simp [UInt8.toNat_ofNat']

/-! ## Rd plumbing -/
theorem Rd.bind_def {α β} (m : Rd α) (f : α → Rd β) (s : Bytes) :
    (m >>= f) s = match m s with
      | (.ok a, s') => f a s'
      | (.err e, s') => (.err e, s')
      | (.panic w, s') => (.panic w, s') := rfl

theorem Rd.bind_ok {α β} {m : Rd α} {f : α → Rd β} {s s' : Bytes} {a : α} (h : m s = (.ok a, s')) :
    (m >>= f) s = f a s' := by rw [Rd.bind_def, h]

theorem Rd.bind_err {α β} {m : Rd α} {f : α → Rd β} {s s' : Bytes} {e : Err} (h : m s = (.err e, s')) :
    (m >>= f) s = (.err e, s') := by rw [Rd.bind_def, h]

@[simp] theorem Rd.pure_def {α} (a : α) (s : Bytes) : (Pure.pure a : Rd α) s = (.ok a, s) := rfl
@[simp] theorem Rd.fail_def {α} (e : Err) (s : Bytes) : (Rd.fail e : Rd α) s = (.err e, s) := rfl
@[simp] theorem Rd.lift_def {α} (r : Res Err α) (s : Bytes) : Rd.lift r s = (r, s) := rfl

theorem readBytes_def (n : Nat) (s : Bytes) :
    readBytes n s = if n ≤ s.length then (.ok (s.take n), s.drop n) else (.err .io, []) := rfl
theorem skipBytes_def (n : Nat) (s : Bytes) :
    skipBytes n s = if n ≤ s.length then (.ok (), s.drop n) else (.err .io, []) := rfl

theorem readBytes_append (b rest : Bytes) (n : Nat) (h : b.length = n) :
    readBytes n (b ++ rest) = (.ok b, rest) := by
  subst h
  simp [readBytes]

theorem skipBytes_append (b rest : Bytes) (n : Nat) (h : b.length = n) :
    skipBytes n (b ++ rest) = (.ok (), rest) := by
  subst h
  simp [skipBytes]

theorem or_shift (a b k : Nat) (h : b < 2 ^ k) : a <<< k ||| b = a * 2 ^ k + b := by
  rw [← Nat.shiftLeft_add_eq_or_of_lt h, Nat.shiftLeft_eq]

theorem comb16 (b0 b1 : Nat) (h0 : b0 < 256) : b1 <<< 8 ||| b0 = b1 * 256 + b0 :=
  or_shift b1 b0 8 h0

theorem comb24 (b0 b1 b2 : Nat) (h0 : b0 < 256) (h1 : b1 < 256) :
    b2 <<< 16 ||| b1 <<< 8 ||| b0 = b2 * 65536 + b1 * 256 + b0 := by
  rw [Nat.or_assoc, comb16 _ _ h0, or_shift _ _ 16 (by omega)]; omega

theorem comb32 (b0 b1 b2 b3 : Nat) (h0 : b0 < 256) (h1 : b1 < 256) (h2 : b2 < 256) :
    b3 <<< 24 ||| b2 <<< 16 ||| b1 <<< 8 ||| b0 = b3 * 16777216 + b2 * 65536 + b1 * 256 + b0 := by
  rw [Nat.or_assoc, Nat.or_assoc, ← Nat.or_assoc (b2 <<< 16), comb24 _ _ _ h0 h1,
    or_shift _ _ 24 (by omega)]; omega

theorem readU8_cons (b : UInt8) (rest : Bytes) : readU8 (b :: rest) = (.ok b.toNat, rest) := rfl

theorem readU16_le (x : Nat) (h : x < 65536) (rest : Bytes) :
    readU16 (le 2 x ++ rest) = (.ok x, rest) := by
  unfold readU16
  rw [Rd.bind_ok (readBytes_append _ _ _ (le_length 2 x))]
  simp only [Rd.pure_def, byteAt, le, List.getD_cons_zero, List.getD_cons_succ, toNat_ofNat_mod]
  rw [comb16 _ _ (by omega)]
  congr 2; omega

theorem readU24_le (x : Nat) (h : x < 16777216) (rest : Bytes) :
    readU24 (le 3 x ++ rest) = (.ok x, rest) := by
  unfold readU24
  rw [Rd.bind_ok (readBytes_append _ _ _ (le_length 3 x))]
  simp only [Rd.pure_def, byteAt, le, List.getD_cons_zero, List.getD_cons_succ, toNat_ofNat_mod]
  rw [comb24 _ _ _ (by omega) (by omega)]
  congr 2; omega

theorem readU32_le (x : Nat) (h : x < 4294967296) (rest : Bytes) :
    readU32 (le 4 x ++ rest) = (.ok x, rest) := by
  unfold readU32
  rw [Rd.bind_ok (readBytes_append _ _ _ (le_length 4 x))]
  simp only [Rd.pure_def, byteAt, le, List.getD_cons_zero, List.getD_cons_succ, toNat_ofNat_mod]
  rw [comb32 _ _ _ _ (by omega) (by omega) (by omega)]
  congr 2; omega

theorem asI16_asU16 (x : Int) (h : -32768 ≤ x ∧ x < 32768) : asI16 (asU16 x : Nat) = x := by
  unfold asI16 asU16; split <;> omega
theorem asI32_asU32 (x : Int) (h : -2147483648 ≤ x ∧ x < 2147483648) : asI32 (asU32 x : Nat) = x := by
  unfold asI32 asU32; split <;> omega
theorem asU16_lt (x : Int) : asU16 x < 65536 := by unfold asU16; omega
theorem asU32_lt (x : Int) : asU32 x < 4294967296 := by unfold asU32; omega

theorem readI16_le (x : Int) (h : -32768 ≤ x ∧ x < 32768) (rest : Bytes) :
    readI16 (le 2 (asU16 x) ++ rest) = (.ok x, rest) := by
  unfold readI16
  rw [Rd.bind_ok (readU16_le _ (asU16_lt x) rest)]
  simp [asI16_asU16 x h]

theorem readI32_le (x : Int) (h : -2147483648 ≤ x ∧ x < 2147483648) (rest : Bytes) :
    readI32 (le 4 (asU32 x) ++ rest) = (.ok x, rest) := by
  unfold readI32
  rw [Rd.bind_ok (readU32_le _ (asU32_lt x) rest)]
  simp [asI32_asU32 x h]

theorem le3_mod (x : Nat) : le 3 x = le 3 (x % 16777216) := by
  simp only [le]
  have h1 : x % 16777216 % 256 = x % 256 := by omega
  have h2 : x % 16777216 / 256 % 256 = x / 256 % 256 := by omega
  have h3 : x % 16777216 / 256 / 256 % 256 = x / 256 / 256 % 256 := by omega
  rw [h1, h2, h3]

theorem le_mod (n x : Nat) : le n (x % 256 ^ n) = le n x := by
  induction n generalizing x with
  | zero => rfl
  | succ n ih =>
    simp only [le]
    have h1 : x % 256 ^ (n + 1) % 256 = x % 256 :=
      Nat.mod_mod_of_dvd _ ⟨256 ^ n, by rw [Nat.pow_succ, Nat.mul_comm]⟩
    have h2 : x % 256 ^ (n + 1) / 256 = x / 256 % 256 ^ n := by
      rw [Nat.pow_succ, Nat.mul_comm, Nat.mod_mul_right_div_self]
    rw [h1, h2, ih]

/-- Sign bit test of read.rs 147 as arithmetic. -/
theorem and_bit23 (x : Nat) (h : x < 16777216) : (x &&& (1 <<< 23) = 0) ↔ x < 8388608 := by
  have e : (1 : Nat) <<< 23 = 2 ^ 23 := by decide
  rw [e]
  constructor
  · intro hz
    have hb : x.testBit 23 = false := by
      have := congrArg (fun n => n.testBit 23) hz
      simp only [Nat.testBit_and, Nat.testBit_two_pow_self, Bool.and_true, Nat.zero_testBit] at this
      exact this
    rw [Nat.testBit_eq_decide_div_mod_eq] at hb
    simp at hb
    omega
  · intro hlt
    apply Nat.eq_of_testBit_eq
    intro i
    simp only [Nat.testBit_and, Nat.testBit_two_pow, Nat.zero_testBit]
    by_cases hi : 23 = i
    · subst hi; have := Nat.testBit_lt_two_pow (i := 23) (x := x) hlt; simp [this]
    · simp [hi]

theorem or_ff000000 (x : Nat) (h : x < 16777216) : x ||| 0xff000000 = x + 0xff000000 := by
  have := or_shift 0xff x 24 h
  rw [Nat.or_comm] at this
  have e : (0xff : Nat) <<< 24 = 0xff000000 := by decide
  rw [e] at this
  rw [this]; omega

theorem readI24_le (x : Int) (h : -8388608 ≤ x ∧ x < 8388608) (rest : Bytes) :
    readI24 (le 3 (asU32 x) ++ rest) = (.ok x, rest) := by
  unfold readI24
  have hlt : asU32 x % 16777216 < 16777216 := Nat.mod_lt _ (by decide)
  rw [le3_mod, Rd.bind_ok (readU24_le _ hlt rest)]
  simp only [Rd.pure_def, and_bit23 _ hlt, or_ff000000 _ hlt]
  congr 2
  have hx : (asU32 x : Int) = x % 4294967296 := by unfold asU32; omega
  generalize asU32 x = y at *
  unfold asI32
  by_cases h0 : 0 ≤ x
  · have : x % 4294967296 = x := by omega
    split <;> split <;> omega
  · have : x % 4294967296 = x + 4294967296 := by omega
    split <;> split <;> omega

end Verif.Hound
