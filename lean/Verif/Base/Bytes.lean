import Mathlib.Data.Nat.Digits.Lemmas
import Mathlib.Tactic.NormNum
import Mathlib.Tactic.Ring

/-!
# Bytes

Little-endian and big-endian integers as byte lists: `to_le_bytes`, `from_le_bytes` and the fixed-width SCALE
integers of the code are these functions.
-/

namespace Verif

/-- `n.to_le_bytes()` for a `k`-byte integer. Outside /repo; used at common/src/payment_id.rs 57-74. -/
def leBytes : Nat → Nat → List UInt8
  | 0, _ => []
  | k + 1, n => UInt8.ofNat (n % 256) :: leBytes k (n / 256)

/-- `from_le_bytes`. Outside /repo; used at common/src/payment_id.rs 57-74. -/
def fromLE : List UInt8 → Nat
  | [] => 0
  | b :: bs => b.toNat + 256 * fromLE bs

/-- Big-endian value of a byte list. Outside /repo; used at common/src/payment_id.rs 108-119 through bs58. -/
def fromBE (bs : List UInt8) : Nat := fromLE bs.reverse

/-- Big-endian bytes. Outside /repo; used at common/src/payment_id.rs 108-119 through bs58. -/
def beBytes (k n : Nat) : List UInt8 := (leBytes k n).reverse

@[simp] theorem leBytes_length (k n : Nat) : (leBytes k n).length = k := by
  induction k generalizing n with
  | zero => rfl
  | succ k ih => simp [leBytes, ih]

@[simp] theorem beBytes_length (k n : Nat) : (beBytes k n).length = k := by simp [beBytes]

theorem toNat_ofNat_mod (n : Nat) : (UInt8.ofNat (n % 256)).toNat = n % 256 := by
  simp

theorem fromLE_leBytes (k n : Nat) : fromLE (leBytes k n) = n % 256 ^ k := by
  induction k generalizing n with
  | zero => simp [leBytes, fromLE, Nat.mod_one]
  | succ k ih =>
    simp only [leBytes, fromLE, ih, toNat_ofNat_mod]
    rw [Nat.pow_succ, Nat.mul_comm (256 ^ k) 256, Nat.mod_mul]

theorem fromLE_leBytes_lt {k n : Nat} (h : n < 256 ^ k) : fromLE (leBytes k n) = n := by
  rw [fromLE_leBytes, Nat.mod_eq_of_lt h]

theorem leBytes_fromLE (bs : List UInt8) : leBytes bs.length (fromLE bs) = bs := by
  induction bs with
  | nil => rfl
  | cons b bs ih =>
    have hb : b.toNat < 256 := b.toNat_lt
    have h1 : (b.toNat + 256 * fromLE bs) % 256 = b.toNat := by omega
    have h2 : (b.toNat + 256 * fromLE bs) / 256 = fromLE bs := by omega
    simp only [List.length_cons, leBytes, fromLE, h1, h2, ih]
    simp

theorem fromLE_lt (bs : List UInt8) : fromLE bs < 256 ^ bs.length := by
  induction bs with
  | nil => simp [fromLE]
  | cons b bs ih =>
    have hb : b.toNat < 256 := b.toNat_lt
    simp only [fromLE, List.length_cons, Nat.pow_succ]
    omega

theorem fromLE_inj {a b : List UInt8} (hl : a.length = b.length) (h : fromLE a = fromLE b) : a = b := by
  rw [← leBytes_fromLE a, ← leBytes_fromLE b, hl, h]

theorem leBytes_inj {k m n : Nat} (hm : m < 256 ^ k) (hn : n < 256 ^ k) (h : leBytes k m = leBytes k n) :
    m = n := by
  rw [← fromLE_leBytes_lt hm, ← fromLE_leBytes_lt hn, h]

theorem fromBE_lt (bs : List UInt8) : fromBE bs < 256 ^ bs.length := by
  simpa [fromBE] using fromLE_lt bs.reverse

theorem beBytes_fromBE (bs : List UInt8) : beBytes bs.length (fromBE bs) = bs := by
  have := leBytes_fromLE bs.reverse
  simp only [List.length_reverse] at this
  simp [beBytes, fromBE, this]

theorem fromBE_beBytes_lt {k n : Nat} (h : n < 256 ^ k) : fromBE (beBytes k n) = n := by
  simp [fromBE, beBytes, fromLE_leBytes_lt h]

theorem fromBE_inj {a b : List UInt8} (hl : a.length = b.length) (h : fromBE a = fromBE b) : a = b := by
  rw [← beBytes_fromBE a, ← beBytes_fromBE b, hl, h]

theorem fromLE_append (a b : List UInt8) : fromLE (a ++ b) = fromLE a + 256 ^ a.length * fromLE b := by
  induction a with
  | nil => simp [fromLE]
  | cons x xs ih =>
    simp only [List.cons_append, fromLE, ih, List.length_cons, Nat.pow_succ]
    ring

theorem leBytes_add (j k n : Nat) : leBytes (j + k) n = leBytes j n ++ leBytes k (n / 256 ^ j) := by
  induction j generalizing n with
  | zero => simp [leBytes]
  | succ j ih =>
    have : j + 1 + k = (j + k) + 1 := by omega
    rw [this]
    simp only [leBytes, ih, List.cons_append]
    rw [Nat.div_div_eq_div_mul, Nat.pow_succ, Nat.mul_comm 256]

/-- Bytes of an ASCII string literal. Byte literals such as b"payments", runtime/kreivo/src/payments.rs 12. -/
def ascii (s : String) : List UInt8 := s.toList.map fun c => UInt8.ofNat c.toNat

end Verif
