import Verif.Runtime.Fees
import Mathlib.Tactic.Linarith

/-! # C84: weight fees -/

namespace Verif.Runtime

open Verif

/-- The product with a fraction is the exact product rounded to the nearest, halves down. -/
theorem perbillOf_eq (parts x : Nat) : perbillOf parts x = (x * parts + 499999999) / 1000000000 := by
  unfold perbillOf billion
  have hx := Nat.div_add_mod x 1000000000
  generalize x / 1000000000 = a at *
  generalize x % 1000000000 = b at *
  subst hx
  have h1 : (1000000000 * a + b) * parts + 499999999 = (b * parts + 499999999) + 1000000000 * (a * parts) := by ring
  rw [h1, Nat.add_mul_div_left _ _ (by omega)]
  generalize b * parts = y
  split <;> omega

theorem perbillOf_mono (parts : Nat) {x y : Nat} (h : x ≤ y) : perbillOf parts x ≤ perbillOf parts y := by
  rw [perbillOf_eq, perbillOf_eq]
  exact Nat.div_le_div_right (Nat.add_le_add_right (Nat.mul_le_mul_right _ h) _)

theorem eval_mono (c : Coefficient) {x y : Nat} (h : x ≤ y) : c.eval x ≤ c.eval y := by
  unfold Coefficient.eval
  have h1 := perbillOf_mono c.frac h
  have h2 : c.integer * x ≤ c.integer * y := Nat.mul_le_mul_left _ h
  omega

theorem eval_zero (c : Coefficient) : c.eval 0 = 0 := by
  unfold Coefficient.eval perbillOf billion u128Max
  simp

theorem u128Max_pos : 0 < u128Max := by decide +kernel

theorem eval_eq_zero {c : Coefficient} {x : Nat} (h : c.eval x = 0) : perbillOf c.frac x = 0 ∧ c.integer * x = 0 := by
  unfold Coefficient.eval at h
  have := u128Max_pos
  generalize u128Max = m at *
  omega

theorem eval_of_small {c : Coefficient} {x : Nat} (h : perbillOf c.frac x + c.integer * x ≤ u128Max) :
    c.eval x = perbillOf c.frac x + c.integer * x := by
  unfold Coefficient.eval
  generalize u128Max = m at *
  omega

theorem eval_le (c : Coefficient) (x : Nat) : c.eval x ≤ perbillOf c.frac x + c.integer * x := by
  unfold Coefficient.eval
  generalize u128Max = m at *
  omega

/-- C84: more weight in either resource never costs less. -/
theorem C84_monotone (cents base : Nat) {v w : Weight} (h1 : v.refTime ≤ w.refTime) (h2 : v.proofSize ≤ w.proofSize) :
    weightToFee cents base v ≤ weightToFee cents base w := by
  unfold weightToFee
  have := eval_mono (refTimeToFee cents base) h1
  have := eval_mono (proofSizeToFee cents) h2
  omega

/-- C84: the fee is the larger of the fees for the time alone and for the proof alone. -/
theorem C84_maximum (cents base : Nat) (w : Weight) :
    weightToFee cents base w = max (weightToFee cents base ⟨w.refTime, 0⟩) (weightToFee cents base ⟨0, w.proofSize⟩) := by
  unfold weightToFee
  simp only [eval_zero]
  omega

/-- The amounts a cent can be on Kreivo, and the sane range of the base weight of an extrinsic (the range asserted by the
tests of runtime/kreivo/src/weights/extrinsic_weights.rs 41-50: ten microseconds to a millisecond). -/
structure Sane (cents base : Nat) : Prop where
  cents : cents = centsKusama ∨ cents = centsPaseo
  low : 10000000 ≤ base
  high : base ≤ 1000000000

theorem Sane.centsRange {cents base : Nat} (h : Sane cents base) : 100000000 ≤ cents ∧ cents ≤ 333333333 := by
  rcases h.cents with rfl | rfl <;> decide +kernel

/-- Facts on the time coefficient: `parts / 10^9` is `cents / (100·base)` up to rounding. -/
theorem refTime_parts {cents base : Nat} (h : Sane cents base) :
    (refTimeToFee cents base).integer = 0 ∧
    100 * base * (refTimeToFee cents base).frac ≤ (cents + 99) * 1000000000 ∧
    cents * 1000000000 ≤ 100 * base * (refTimeToFee cents base).frac + 199 * 1000000000 ∧
    1000000 ≤ (refTimeToFee cents base).frac := by
  have hc := h.centsRange
  have hl := h.low
  have hh := h.high
  unfold refTimeToFee coefficient
  dsimp only
  rw [Nat.mod_eq_of_lt (by omega), Nat.div_eq_of_lt (by omega)]
  refine ⟨rfl, ?_⟩
  have hle := fromRational_le billion cents (100 * base)
  revert hle
  unfold fromRational
  rw [if_neg (by omega)]
  have hf : 1 ≤ ratFactor billion (100 * base) ∧ ratFactor billion (100 * base) ≤ 100 ∧
      100 * base ≤ ratFactor billion (100 * base) * 1000000000 := by
    unfold ratFactor divUp billion
    omega
  generalize ratFactor billion (100 * base) = f at hf
  obtain ⟨hf1, hf2, hf3⟩ := hf
  unfold billion
  intro hle
  have hP := Nat.div_add_mod cents f
  have hP' := Nat.mod_lt cents (show f > 0 by omega)
  have hQ := Nat.div_add_mod (100 * base) f
  have hQ' := Nat.mod_lt (100 * base) (show f > 0 by omega)
  have hQD : 100 * base / f ≤ 1000000000 := Nat.div_le_of_le_mul hf3
  have hQ0 : 0 < 100 * base / f := Nat.div_pos (by omega) (by omega)
  generalize cents / f = P at *
  generalize 100 * base / f = Q at *
  generalize cents % f = rp at *
  generalize (100 * base) % f = rq at *
  have hr := Nat.div_add_mod (P * 1000000000) Q
  have hr' := Nat.mod_lt (P * 1000000000) hQ0
  generalize P * 1000000000 / Q = r at *
  generalize P * 1000000000 % Q = m at *
  have hPl : 1000000 ≤ P := by
    by_contra hcon
    have : f * P ≤ 100 * 999999 := Nat.mul_le_mul hf2 (by omega)
    omega
  refine ⟨?_, ?_, ?_⟩
  · -- upper
    have e : 100 * base * r = f * (Q * r) + rq * r := by rw [← hQ]; ring
    have h1 : f * (Q * r) ≤ f * (P * 1000000000) := Nat.mul_le_mul_left _ (by omega)
    have h2 : f * (P * 1000000000) ≤ cents * 1000000000 := by
      calc f * (P * 1000000000) = (f * P) * 1000000000 := by ring
        _ ≤ cents * 1000000000 := Nat.mul_le_mul_right _ (by omega)
    have h3 : rq * r ≤ 99 * 1000000000 := Nat.mul_le_mul (by omega) hle
    omega
  · -- lower
    have e : 100 * base * r = f * (Q * r) + rq * r := by rw [← hQ]; ring
    have h1 : f * (P * 1000000000) ≤ f * (Q * r) + f * Q := by
      rw [← Nat.mul_add]
      exact Nat.mul_le_mul_left _ (by omega)
    have h2 : cents * 1000000000 ≤ f * (P * 1000000000) + 99 * 1000000000 := by
      calc cents * 1000000000 ≤ (f * P + 99) * 1000000000 := Nat.mul_le_mul_right _ (by omega)
        _ = _ := by ring
    have h3 : f * Q ≤ 100 * 1000000000 := Nat.mul_le_mul hf2 hQD
    have h4 : 0 ≤ rq * r := Nat.zero_le _
    omega
  · by_contra hcon
    have h1 : Q * r ≤ 1000000000 * 999999 := Nat.mul_le_mul hQD (by omega)
    have : P * 1000000000 < 1000000000 * 1000000 := by omega
    omega

/-- The proof coefficients on Kusama and Paseo. -/
theorem proofSize_parts {cents base : Nat} (h : Sane cents base) : 1 ≤ (proofSizeToFee cents).integer := by
  have hc := h.centsRange
  unfold proofSizeToFee coefficient
  dsimp only
  omega

/-- C84: only negligible work is free: nothing of the proof and at most 500 picoseconds. -/
theorem C84_free_only_negligible {cents base : Nat} (h : Sane cents base) (w : Weight)
    (h0 : weightToFee cents base w = 0) : w.proofSize = 0 ∧ w.refTime ≤ 500 := by
  obtain ⟨hi, _, _, hp⟩ := refTime_parts h
  have hq := proofSize_parts h
  unfold weightToFee at h0
  have h1 : (refTimeToFee cents base).eval w.refTime = 0 := by omega
  have h2 : (proofSizeToFee cents).eval w.proofSize = 0 := by omega
  obtain ⟨h1, _⟩ := eval_eq_zero h1
  obtain ⟨_, h2⟩ := eval_eq_zero h2
  constructor
  · rcases Nat.mul_eq_zero.mp h2 with h2 | h2
    · omega
    · exact h2
  · by_contra hcon
    have h3 : 501 * 1000000 ≤ w.refTime * (refTimeToFee cents base).frac := Nat.mul_le_mul (by omega) hp
    rw [perbillOf_eq] at h1
    generalize w.refTime * (refTimeToFee cents base).frac = y at *
    omega

/-- C84: the calibration promised in the source: an extrinsic of the base weight costs a hundredth of a cent, within
two and a half of the smallest unit. -/
theorem C84_base_extrinsic {cents base : Nat} (h : Sane cents base) :
    100 * weightToFee cents base ⟨base, 0⟩ ≤ cents + 149 ∧ cents ≤ 100 * weightToFee cents base ⟨base, 0⟩ + 249 := by
  obtain ⟨hi, hu, hl, _⟩ := refTime_parts h
  have hc := h.centsRange
  have e : weightToFee cents base ⟨base, 0⟩ = perbillOf (refTimeToFee cents base).frac base := by
    have hsmall : perbillOf (refTimeToFee cents base).frac base ≤ u128Max := by
      have hm : 1000000000 ≤ u128Max := by decide +kernel
      rw [perbillOf_eq]
      have : base * (refTimeToFee cents base).frac ≤ 100 * base * (refTimeToFee cents base).frac :=
        Nat.mul_le_mul_right _ (by omega)
      generalize u128Max = m at *
      generalize base * (refTimeToFee cents base).frac = y at *
      generalize 100 * base * (refTimeToFee cents base).frac = z at *
      omega
    unfold weightToFee
    dsimp only
    rw [eval_zero, eval_of_small (by rw [hi, Nat.zero_mul]; exact hsmall), hi, Nat.zero_mul]
    exact Nat.max_zero _
  rw [e, perbillOf_eq]
  have e2 : 100 * base * (refTimeToFee cents base).frac = 100 * (base * (refTimeToFee cents base).frac) := by ring
  rw [e2] at hu hl
  generalize base * (refTimeToFee cents base).frac = y at *
  omega

/-- C84: and ten kilobytes of proof cost one cent exactly. -/
theorem C84_proof_price {cents base : Nat} (h : Sane cents base) : weightToFee cents base ⟨0, 10000⟩ = cents := by
  unfold weightToFee
  rw [eval_zero, Nat.zero_max]
  rcases h.cents with rfl | rfl <;> decide +kernel

/-- C84: no saturation: the fee of any weight is far below the largest balance. -/
theorem C84_no_saturation {cents base : Nat} (h : Sane cents base) (w : Weight) (hw : w.Valid) :
    weightToFee cents base w < 2 ^ 100 := by
  obtain ⟨hi, _, _, _⟩ := refTime_parts h
  have hc := h.centsRange
  obtain ⟨h1, h2⟩ := hw
  have hpar : ∀ c : Coefficient, ∀ p q, c = coefficient p q → c.frac ≤ 1000000000 := by
    rintro c p q rfl
    exact fromRational_le billion _ _
  have key : ∀ c : Coefficient, c.frac ≤ 1000000000 → c.integer ≤ 333333333 → ∀ x, x < 2 ^ 64 → c.eval x < 2 ^ 100 := by
    intro c hf hi x hx
    refine Nat.lt_of_le_of_lt (eval_le c x) ?_
    rw [perbillOf_eq]
    have a1 : x * c.frac ≤ 2 ^ 64 * 1000000000 := Nat.mul_le_mul (by omega) hf
    have a2 : c.integer * x ≤ 333333333 * 2 ^ 64 := Nat.mul_le_mul hi (by omega)
    norm_num at a1 a2 ⊢
    generalize x * c.frac = y at *
    generalize c.integer * x = z at *
    omega
  unfold weightToFee
  have k1 := key (refTimeToFee cents base) (hpar _ _ _ rfl) (by omega) _ h1
  have k2 := key (proofSizeToFee cents) (hpar _ _ _ rfl)
    (by unfold proofSizeToFee coefficient; dsimp only; omega) _ h2
  omega

/-- C84: the fee for the length of a transaction is the same for every byte: 3,333,330 of the smallest unit on Kusama,
1,000,000 on Paseo. -/
theorem C84_length (len : Nat) (h : len < 2 ^ 32) :
    lengthToFee centsKusama len = 3333330 * len ∧ lengthToFee centsPaseo len = 1000000 * len := by
  unfold lengthToFee u128Max
  rw [show 10 * (centsKusama / 1000) = 3333330 by decide +kernel, show 10 * (centsPaseo / 1000) = 1000000 by decide +kernel]
  omega

example : Sane centsKusama 108157000 := ⟨.inl rfl, by omega, by omega⟩
example : Sane centsPaseo 125000000 := ⟨.inr rfl, by omega, by omega⟩
example : weightToFee centsKusama 108157000 ⟨108157000, 0⟩ = 3333333 ∧
    weightToFee centsKusama 108157000 ⟨108157000, 1000⟩ = 33333333 := by decide +kernel

end Verif.Runtime
