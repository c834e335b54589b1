import Mathlib.Tactic.Ring
import Mathlib.Tactic.NormNum
import Mathlib.Tactic.GCongr

/-!
# `PerThing::from_rational` of `sp_arithmetic`

Outside `/repo`: `Perbill::from_rational(p, q)` and `Permill::from_rational(p, q)`, that is
`from_rational_with_rounding(p, q, Rounding::Down).unwrap_or(one)`. Large denominators are first divided down to the
accuracy `M` of the type, then the quotient is rounded down.
-/

namespace Verif

/-- Rounded up division. Outside /repo; used at runtime/kreivo/src/constants.rs 87, 105 and
pallets/communities/src/impls.rs 18-24 (sp_arithmetic). -/
def divUp (a b : Nat) : Nat := (a + b - 1) / b

/-- The factor by which both numbers are first divided: `div_rounded(q, M, Up).max(1)`. Outside /repo; used at
runtime/kreivo/src/constants.rs 87, 105 and pallets/communities/src/impls.rs 18-24 (sp_arithmetic). -/
def ratFactor (M q : Nat) : Nat := max 1 (divUp q M)

/-- `from_rational(p, q)` for a type with accuracy `M`, as a number of parts. Outside /repo; used at
runtime/kreivo/src/constants.rs 87, 105 and pallets/communities/src/impls.rs 18-24 (sp_arithmetic). -/
def fromRational (M p q : Nat) : Nat :=
  if q = 0 ∨ p > q then M
  else p / ratFactor M q * M / (q / ratFactor M q)

theorem ratFactor_small {M q : Nat} (h : q ≤ M) : ratFactor M q = 1 := by
  unfold ratFactor divUp
  rcases Nat.eq_zero_or_pos M with h0 | h0
  · subst h0; simp
  · have : (q + M - 1) / M ≤ 1 := by
      rw [Nat.div_le_iff_le_mul_add_pred h0]; omega
    omega

/-- Up to the accuracy of the type the result is the fraction rounded down. -/
theorem fromRational_exact {M p q : Nat} (hq : 0 < q) (hp : p ≤ q) (h : q ≤ M) :
    fromRational M p q = p * M / q := by
  unfold fromRational
  rw [if_neg (by omega), ratFactor_small h]; simp

theorem fromRational_le (M p q : Nat) : fromRational M p q ≤ M := by
  unfold fromRational
  split
  · exact le_refl _
  · have hp : p ≤ q := by omega
    apply Nat.div_le_of_le_mul
    exact Nat.mul_le_mul_right _ (Nat.div_le_div_right hp)

theorem fromRational_zero {M q : Nat} (hq : 0 < q) : fromRational M 0 q = 0 := by
  unfold fromRational
  rw [if_neg (by omega)]; simp

/-- Whatever the denominator, the result is at most one part above the fraction and less than two parts below it. -/
theorem fromRational_near {M p q : Nat} (hM : 0 < M) (hq : 0 < q) (hp : p ≤ q) :
    fromRational M p q * q ≤ p * M + q ∧ p * M < (fromRational M p q + 2) * q := by
  have hle := fromRational_le M p q
  have hf : M * (ratFactor M q - 1) < q := by
    unfold ratFactor divUp
    have h1 := Nat.div_mul_le_self (q + M - 1) M
    rcases Nat.eq_zero_or_pos ((q + M - 1) / M) with h0 | h0
    · rw [h0]; simpa using hq
    · rw [Nat.max_eq_right h0, Nat.mul_sub, Nat.mul_one, Nat.mul_comm M]; omega
  have hf1 : 1 ≤ ratFactor M q := le_max_left _ _
  unfold fromRational at hle ⊢
  rw [if_neg (by omega)] at hle ⊢
  generalize ratFactor M q = f at hf hf1 hle ⊢
  have hb := Nat.mod_lt q hf1
  have ha := Nat.mod_lt p hf1
  have eq := Nat.div_add_mod q f
  have ep := Nat.div_add_mod p f
  generalize q % f = b at hb eq
  generalize p % f = a at ha ep
  have hpq : p / f ≤ q / f := Nat.div_le_div_right hp
  generalize q / f = q' at *
  generalize p / f = p' at *
  rcases Nat.eq_zero_or_pos q' with h0 | h0
  · subst h0
    have : p' = 0 := by omega
    subst this
    simp only [Nat.zero_mul, Nat.mul_zero, Nat.zero_add, Nat.div_zero, Nat.zero_add] at *
    subst ep eq
    refine ⟨by omega, ?_⟩
    have : a * M ≤ (f - 1) * M := Nat.mul_le_mul_right _ (by omega)
    rw [Nat.mul_comm (f - 1)] at this
    omega
  · have hr1 := Nat.div_mul_le_self (p' * M) q'
    have hr2 := Nat.lt_div_mul_add h0 (a := p' * M)
    generalize p' * M / q' = r at *
    have hMb : M * b ≤ M * (f - 1) := Nat.mul_le_mul_left _ (by omega)
    have hMa : M * a ≤ M * (f - 1) := Nat.mul_le_mul_left _ (by omega)
    have hrb : r * b ≤ M * b := Nat.mul_le_mul_right _ hle
    have k1 : f * (r * q') ≤ f * (p' * M) := Nat.mul_le_mul_left _ hr1
    have k2 : f * (p' * M) < f * (r * q' + q') := Nat.mul_lt_mul_of_pos_left hr2 hf1
    have x1 : r * q = f * (r * q') + r * b := by rw [← eq]; ring
    have x2 : p * M = f * (p' * M) + M * a := by rw [← ep]; ring
    have x3 : (r + 2) * q = f * (r * q' + q') + r * b + b + q := by
      rw [show (r + 2) * q = (r + 1) * q + q by ring]
      conv_lhs => rw [← eq]
      conv_rhs => rw [← eq]
      ring
    rw [x3, x1, x2]
    constructor <;> omega

/-- For a fixed denominator a larger numerator never gives less. -/
theorem fromRational_mono_num {M p p' q : Nat} (h : p ≤ p') : fromRational M p q ≤ fromRational M p' q := by
  by_cases h1 : q = 0 ∨ p' > q
  · have : fromRational M p' q = M := by unfold fromRational; rw [if_pos h1]
    rw [this]; exact fromRational_le M p q
  · have h2 : ¬ (q = 0 ∨ p > q) := by omega
    unfold fromRational
    rw [if_neg h1, if_neg h2]
    exact Nat.div_le_div_right (Nat.mul_le_mul_right _ (Nat.div_le_div_right h))

end Verif
