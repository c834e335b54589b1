import Verif.Runtime.Multiplier
import Verif.Runtime.BlockTheorems

/-!
# Lemmas about the fee multiplier (C142)
-/

namespace Verif.Runtime

open Verif

theorem multiplierMin_eq : multiplierMin = 100000000000000000 := by decide +kernel
theorem adjustment_eq : adjustment = 75000000000000 := by decide +kernel
theorem halfSquare_eq : fixedMul adjustment adjustment / 2 = 2812500000 := by decide +kernel
theorem targetRef_eq : targetOf normalMax.refTime = 375000000000 := by decide +kernel
theorem targetProof_eq : targetOf normalMax.proofSize = 983040 := by decide +kernel

theorem shareRef {n : Nat} (h : n ≤ 1500000000000) : fromRational billion n (max 1500000000000 1) = n / 1500 := by
  have hf : ratFactor billion 1500000000000 = 1500 := by decide +kernel
  have hm : max 1500000000000 1 = 1500000000000 := by decide +kernel
  rw [hm]
  unfold fromRational
  rw [if_neg (by omega), hf]
  have : (1500000000000 : Nat) / 1500 = billion := by decide +kernel
  rw [this, Nat.mul_div_cancel _ (by decide +kernel)]

theorem shareProof {n : Nat} (h : n ≤ 3932160) : fromRational billion n (max 3932160 1) = n * 1000000000 / 3932160 := by
  have hm : max 3932160 1 = 3932160 := by decide +kernel
  rw [hm, fromRational_exact (by omega) h (by decide +kernel)]; rfl

/-- What `limiting` gives, in numbers. -/
theorem limiting_eq (used : Weight) :
    limiting used =
      if min used.refTime 1500000000000 / 1500 < min used.proofSize 3932160 * 1000000000 / 3932160
      then (min used.proofSize 3932160, 3932160) else (min used.refTime 1500000000000, 1500000000000) := by
  unfold limiting
  simp only [normalMax_eq]
  rw [shareRef (Nat.min_le_right _ _), shareProof (Nat.min_le_right _ _)]

/-- The two dimensions: the limit is four times the target. -/
theorem limiting_cases (used : Weight) :
    ∃ x T, limiting used = (x, 4 * T) ∧ targetOf (4 * T) = T ∧ x ≤ 4 * T ∧ (T = 375000000000 ∨ T = 983040) := by
  rw [limiting_eq]
  have h1 := targetRef_eq
  have h2 := targetProof_eq
  simp only [normalMax_eq] at h1 h2
  split
  · exact ⟨_, 983040, rfl, h2, Nat.min_le_right _ _, .inr rfl⟩
  · exact ⟨_, 375000000000, rfl, h1, Nat.min_le_right _ _, .inl rfl⟩

/-- Which dimension decides, against the target: above it iff one of the two is above a quarter, below it iff both are
below. -/
theorem limiting_quarter (used : Weight) {x T : Nat} (h : limiting used = (x, 4 * T)) :
    (T < x ↔ (375000000000 < used.refTime ∨ 983040 < used.proofSize)) ∧
    (x < T ↔ (used.refTime < 375000000000 ∧ used.proofSize < 983040)) ∧
    (used.refTime ≤ 187500000000 → used.proofSize ≤ 491520 → 2 * x ≤ T) := by
  rw [limiting_eq] at h
  split at h <;> (rw [Prod.mk.injEq] at h; obtain ⟨hx, hT⟩ := h) <;> refine ⟨?_, ?_, ?_⟩ <;> omega

/-- The difference from the target as a share of the limit. -/
theorem diff_eq {n T : Nat} (hn : n ≤ 4 * T) (hT : T = 375000000000 ∨ T = 983040) :
    fixedRatio n (max (4 * T) 1) = n * 1000000000000000000 / (4 * T) := by
  have hU : u128Max = 340282366920938463463374607431768211455 := by decide +kernel
  have h1 : fixedOne = 1000000000000000000 := rfl
  have hm : max (4 * T) 1 = 4 * T := by omega
  unfold fixedRatio
  rw [hm, h1, hU]
  rcases hT with rfl | rfl <;> omega

theorem first_eq {d : Nat} (hd : d ≤ 750000000000000000) : fixedMul adjustment d = d * 75 / 1000000 := by
  have hU : u128Max = 340282366920938463463374607431768211455 := by decide +kernel
  have h1 : fixedOne = 1000000000000000000 := rfl
  unfold fixedMul
  rw [adjustment_eq, h1, hU]
  omega

/-- The second term for a difference of `d`: with `d * d / 10^18` as `q`. -/
theorem second_eq {d : Nat} (hd : d ≤ 750000000000000000) :
    ∃ q, q ≤ d ∧ q ≤ 562500000000000000 ∧ (d ≤ 250000000000000000 → q ≤ 62500000000000000) ∧
      fixedMul (fixedMul adjustment adjustment / 2) (fixedMul d d) = q * 28125 / 10000000000000 := by
  have hU : u128Max = 340282366920938463463374607431768211455 := by decide +kernel
  have h1 : fixedOne = 1000000000000000000 := rfl
  have hq : d * d / 1000000000000000000 ≤ d := by
    apply Nat.div_le_of_le_mul
    exact Nat.mul_le_mul_right _ (by omega)
  have hq2 : d * d / 1000000000000000000 ≤ 562500000000000000 := by
    have := Nat.mul_le_mul hd hd
    omega
  have hq3 : d ≤ 250000000000000000 → d * d / 1000000000000000000 ≤ 62500000000000000 := by
    intro h
    have := Nat.mul_le_mul h h
    omega
  refine ⟨d * d / 1000000000000000000, hq, hq2, hq3, ?_⟩
  rw [halfSquare_eq]
  unfold fixedMul
  rw [h1, hU]
  generalize d * d / 1000000000000000000 = q at *
  omega

theorem fixedMul_rate {e p : Nat} (he : e ≤ 1000000000000000000) (hp : p ≤ u128Max) :
    fixedMul e p = e * p / 1000000000000000000 := by
  have h1 : fixedOne = 1000000000000000000 := rfl
  unfold fixedMul
  rw [h1]
  refine Nat.min_eq_right ?_
  refine le_trans (Nat.div_le_of_le_mul (Nat.mul_le_mul_right _ he)) hp

/-- A block at or above the target: the multiplier grows by the rate `e`. -/
theorem next_up {prev : Nat} {used : Weight} {x T : Nat} (h : multiplierMin ≤ prev) (hU : prev ≤ u128Max)
    (hl : limiting used = (x, 4 * T)) (hx : T ≤ x) :
    ∃ e, e ≤ 56251582031250 ∧ (x = T → e = 0) ∧ (T < x → 49 ≤ e) ∧
      nextMultiplier prev used = min u128Max (prev + e * prev / 1000000000000000000) := by
  have hU' : u128Max = 340282366920938463463374607431768211455 := by decide +kernel
  obtain ⟨x', T', hl', ht, hle, hT⟩ := limiting_cases used
  rw [hl, Prod.mk.injEq] at hl'
  obtain ⟨rfl, hTT⟩ := hl'
  obtain rfl : T = T' := by omega
  have hd := diff_eq (n := x - T) (by omega) hT
  have hd1 : (x - T) * 1000000000000000000 / (4 * T) ≤ 750000000000000000 := by
    rcases hT with rfl | rfl <;> omega
  have hd2 : T < x → 666666 ≤ (x - T) * 1000000000000000000 / (4 * T) := by
    rcases hT with rfl | rfl <;> omega
  have hd3 : x = T → (x - T) * 1000000000000000000 / (4 * T) = 0 := by
    rintro rfl; simp
  unfold nextMultiplier
  simp only [hl, ht]
  rw [max_eq_left h, max_eq_left hx, min_eq_right hx, hd, if_pos hx]
  generalize (x - T) * 1000000000000000000 / (4 * T) = d at *
  obtain ⟨q, hq1, hq2, -, hq⟩ := second_eq hd1
  rw [first_eq hd1, hq]
  have he : min u128Max (d * 75 / 1000000 + q * 28125 / 10000000000000) = d * 75 / 1000000 + q * 28125 / 10000000000000 := by
    omega
  rw [he]
  refine ⟨d * 75 / 1000000 + q * 28125 / 10000000000000, by omega, fun h => ?_, fun h => ?_, ?_⟩
  · have := hd3 h; omega
  · have := hd2 h; omega
  · rw [fixedMul_rate (by omega) hU]
    generalize (d * 75 / 1000000 + q * 28125 / 10000000000000) * prev / 1000000000000000000 = y
    omega

/-- A block below the target: the multiplier falls by the rate `e`, down to a tenth at most. -/
theorem next_down {prev : Nat} {used : Weight} {x T : Nat} (h : multiplierMin ≤ prev) (hU : prev ≤ u128Max)
    (hl : limiting used = (x, 4 * T)) (hx : x < T) :
    ∃ e, e ≤ 18750000000000 ∧ 10 ≤ e ∧ (2 * x ≤ T → 9374296875000 ≤ e) ∧
      nextMultiplier prev used = max multiplierMin (prev - e * prev / 1000000000000000000) := by
  have hU' : u128Max = 340282366920938463463374607431768211455 := by decide +kernel
  obtain ⟨x', T', hl', ht, hle, hT⟩ := limiting_cases used
  rw [hl, Prod.mk.injEq] at hl'
  obtain ⟨rfl, hTT⟩ := hl'
  obtain rfl : T = T' := by omega
  have hd := diff_eq (n := T - x) (by omega) hT
  have hd1 : (T - x) * 1000000000000000000 / (4 * T) ≤ 250000000000000000 := by
    rcases hT with rfl | rfl <;> omega
  have hd2 : 666666 ≤ (T - x) * 1000000000000000000 / (4 * T) := by
    rcases hT with rfl | rfl <;> omega
  have hd3 : 2 * x ≤ T → 125000000000000000 ≤ (T - x) * 1000000000000000000 / (4 * T) := by
    rcases hT with rfl | rfl <;> omega
  unfold nextMultiplier
  simp only [hl, ht]
  rw [max_eq_left h, max_eq_right (le_of_lt hx), min_eq_left (le_of_lt hx), hd, if_neg (by omega)]
  generalize (T - x) * 1000000000000000000 / (4 * T) = d at *
  obtain ⟨q, hq1, hq2, hq3, hq⟩ := second_eq (d := d) (by omega)
  rw [first_eq (by omega), hq]
  have hq4 := hq3 hd1
  refine ⟨d * 75 / 1000000 - q * 28125 / 10000000000000, by omega, by omega, fun h => ?_, ?_⟩
  · have := hd3 h; omega
  · rw [fixedMul_rate (by omega) hU]
    generalize (d * 75 / 1000000 - q * 28125 / 10000000000000) * prev / 1000000000000000000 = y
    rw [multiplierMin_eq] at *
    omega

end Verif.Runtime
