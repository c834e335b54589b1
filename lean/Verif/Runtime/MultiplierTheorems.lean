import Verif.Runtime.MultiplierLemmas
import Verif.Runtime.Transactions

/-!
# C142: fees follow the use of blocks, slowly, and never vanish

A multiplier is a number of units of which 10^18 are one. `normalMax` is what normal transactions may use of a block.
-/

namespace Verif.Runtime

open Verif

/-- **C142.** Whatever a block used, the multiplier after it is between a tenth and the largest number. -/
theorem C142_floor (m : Nat) (used : Weight) :
    fixedOne ≤ 10 * nextMultiplier m used ∧ nextMultiplier m used ≤ u128Max := by
  have h1 : fixedOne = 1000000000000000000 := rfl
  have hU' : u128Max = 340282366920938463463374607431768211455 := by decide +kernel
  unfold nextMultiplier
  simp only [multiplierMin_eq]
  split
  · generalize fixedMul _ (max m _) = y
    omega
  · generalize fixedMul _ (max m _) = y
    omega

/-- **C142.** The multiplier rises exactly after a block in which normal transactions used more than a quarter of the time
or of the proof that they may use; it falls exactly after one in which they used less than a quarter of both (unless it is
a tenth already); otherwise it stays. -/
theorem C142_direction (m : Nat) (hm : fixedOne ≤ 10 * m) (hU : m < u128Max) (used : Weight) :
    (m < nextMultiplier m used ↔
      (normalMax.refTime < 4 * used.refTime ∨ normalMax.proofSize < 4 * used.proofSize)) ∧
    (nextMultiplier m used < m ↔
      (4 * used.refTime < normalMax.refTime ∧ 4 * used.proofSize < normalMax.proofSize ∧ fixedOne < 10 * m)) := by
  have h1 : fixedOne = 1000000000000000000 := rfl
  have hmin : multiplierMin ≤ m := by rw [multiplierMin_eq]; omega
  obtain ⟨x, T, hl, -, hle, hT⟩ := limiting_cases used
  obtain ⟨hq1, hq2, -⟩ := limiting_quarter used hl
  rw [normalMax_eq]
  dsimp only
  rcases Nat.lt_or_ge x T with hx | hx
  · obtain ⟨e, he1, he2, -, he⟩ := next_down hmin (le_of_lt hU) hl hx
    rw [he]
    have : e * m / 1000000000000000000 ≥ 1 := by
      rw [ge_iff_le, Nat.le_div_iff_mul_le (by omega)]
      calc 1 * 1000000000000000000 ≤ 10 * m := by omega
        _ ≤ e * m := Nat.mul_le_mul_right _ he2
    have h2 := hq2.1 hx
    generalize e * m / 1000000000000000000 = y at *
    rw [multiplierMin_eq]
    omega
  · obtain ⟨e, he1, he2, he3, he⟩ := next_up hmin (le_of_lt hU) hl hx
    rw [he]
    rcases Nat.lt_or_ge T x with hx' | hx'
    · have : e * m / 1000000000000000000 ≥ 1 := by
        rw [ge_iff_le, Nat.le_div_iff_mul_le (by omega)]
        calc 1 * 1000000000000000000 ≤ 49 * m := by omega
          _ ≤ e * m := Nat.mul_le_mul_right _ (he3 hx')
      have h2 := hq1.1 hx'
      generalize e * m / 1000000000000000000 = y at *
      omega
    · have h0 := he2 (by omega)
      subst h0
      have h2 : ¬ T < x := by omega
      have h3 : ¬ x < T := by omega
      rw [hq1] at h2
      rw [hq2] at h3
      simp only [Nat.zero_mul, Nat.zero_div]
      omega

/-- **C142.** One block changes the multiplier by very little: it grows by less than 57 millionths and falls by less than
19 millionths of itself. -/
theorem C142_step (m : Nat) (hm : fixedOne ≤ 10 * m) (hU : m ≤ u128Max) (used : Weight) :
    fixedOne * nextMultiplier m used ≤ (fixedOne + 56251582031250) * m ∧
    (fixedOne - 18750000000000) * m ≤ fixedOne * nextMultiplier m used := by
  have h1 : fixedOne = 1000000000000000000 := rfl
  have hmin : multiplierMin ≤ m := by rw [multiplierMin_eq]; omega
  obtain ⟨x, T, hl, -, hle, hT⟩ := limiting_cases used
  rw [h1]
  rcases Nat.lt_or_ge x T with hx | hx
  · obtain ⟨e, he1, he2, -, he⟩ := next_down hmin hU hl hx
    rw [he]
    have h2 := Nat.div_mul_le_self (e * m) 1000000000000000000
    have h3 := Nat.mul_le_mul_right m he1
    generalize e * m / 1000000000000000000 = y at *
    omega
  · obtain ⟨e, he1, he2, he3, he⟩ := next_up hmin hU hl hx
    rw [he]
    have h2 := Nat.div_mul_le_self (e * m) 1000000000000000000
    have h3 := Nat.mul_le_mul_right m he1
    generalize e * m / 1000000000000000000 = y at *
    omega

/-- **C142.** So over any number of blocks, whatever they use, from a multiplier of at least a tenth: it stays at least a
tenth, and grows and falls no faster than compound interest at those rates. -/
theorem C142_history (blocks : List Weight) (m : Nat) (hm : fixedOne ≤ 10 * m) (hU : m ≤ u128Max) :
    fixedOne ≤ 10 * multiplierAfter m blocks ∧ multiplierAfter m blocks ≤ u128Max ∧
    fixedOne ^ blocks.length * multiplierAfter m blocks ≤ (fixedOne + 56251582031250) ^ blocks.length * m ∧
    (fixedOne - 18750000000000) ^ blocks.length * m ≤ fixedOne ^ blocks.length * multiplierAfter m blocks := by
  induction blocks generalizing m with
  | nil => simp [multiplierAfter, hm, hU]
  | cons u us ih =>
    obtain ⟨f1, f2⟩ := C142_floor m u
    obtain ⟨s1, s2⟩ := C142_step m hm hU u
    obtain ⟨i1, i2, i3, i4⟩ := ih (nextMultiplier m u) f1 f2
    have hd : multiplierAfter m (u :: us) = multiplierAfter (nextMultiplier m u) us := rfl
    rw [hd]
    refine ⟨i1, i2, ?_, ?_⟩
    · rw [List.length_cons, pow_succ, pow_succ]
      calc fixedOne ^ us.length * fixedOne * multiplierAfter (nextMultiplier m u) us
          = fixedOne * (fixedOne ^ us.length * multiplierAfter (nextMultiplier m u) us) := by ring
        _ ≤ fixedOne * ((fixedOne + 56251582031250) ^ us.length * nextMultiplier m u) := Nat.mul_le_mul_left _ i3
        _ = (fixedOne + 56251582031250) ^ us.length * (fixedOne * nextMultiplier m u) := by ring
        _ ≤ (fixedOne + 56251582031250) ^ us.length * ((fixedOne + 56251582031250) * m) := Nat.mul_le_mul_left _ s1
        _ = _ := by ring
    · rw [List.length_cons, pow_succ, pow_succ]
      calc (fixedOne - 18750000000000) ^ us.length * (fixedOne - 18750000000000) * m
          = (fixedOne - 18750000000000) ^ us.length * ((fixedOne - 18750000000000) * m) := by ring
        _ ≤ (fixedOne - 18750000000000) ^ us.length * (fixedOne * nextMultiplier m u) := Nat.mul_le_mul_left _ s2
        _ = fixedOne * ((fixedOne - 18750000000000) ^ us.length * nextMultiplier m u) := by ring
        _ ≤ fixedOne * (fixedOne ^ us.length * multiplierAfter (nextMultiplier m u) us) := Nat.mul_le_mul_left _ i4
        _ = _ := by ring

theorem pow_interest {a b c d n N : Nat} (hab : a ≤ b)
    (h : b ^ N * c ≤ a ^ N * d) (hn : n ≤ N) : b ^ n * c ≤ a ^ n * d ∨ a = 0 := by
  rcases Nat.eq_zero_or_pos a with h0 | h0
  · exact .inr h0
  · left
    by_contra hlt
    push Not at hlt
    have e1 : b ^ N = b ^ n * b ^ (N - n) := by rw [← pow_add]; congr 1; omega
    have e2 : a ^ N = a ^ n * a ^ (N - n) := by rw [← pow_add]; congr 1; omega
    rw [e1, e2] at h
    have h3 : a ^ n * d * a ^ (N - n) < b ^ n * c * b ^ (N - n) :=
      Nat.mul_lt_mul_of_lt_of_le hlt (Nat.pow_le_pow_left hab _) (Nat.pow_pos (lt_of_lt_of_le h0 hab))
    nlinarith [h3, h]

theorem interest_bounds {A B C y m : Nat} (p1 : 0 < A) (h1 : A * y ≤ B * m) (h2 : C * m ≤ A * y)
    (hu : B * 2 ≤ A * 3) (hd : A * 6 ≤ C * 7) : 2 * y ≤ 3 * m ∧ 6 * m ≤ 7 * y := by
  constructor
  · refine Nat.le_of_mul_le_mul_left ?_ p1
    calc A * (2 * y) = 2 * (A * y) := by ring
      _ ≤ 2 * (B * m) := Nat.mul_le_mul_left _ h1
      _ = B * 2 * m := by ring
      _ ≤ A * 3 * m := Nat.mul_le_mul_right _ hu
      _ = A * (3 * m) := by ring
  · refine Nat.le_of_mul_le_mul_left ?_ p1
    calc A * (6 * m) = A * 6 * m := by ring
      _ ≤ C * 7 * m := Nat.mul_le_mul_right _ hd
      _ = 7 * (C * m) := by ring
      _ ≤ 7 * (A * y) := Nat.mul_le_mul_left _ h2
      _ = A * (7 * y) := by ring

theorem day_up : (fixedOne + 56251582031250) ^ 7200 * 2 ≤ fixedOne ^ 7200 * 3 := by decide +kernel
theorem day_down : fixedOne ^ 7200 * 6 ≤ (fixedOne - 18750000000000) ^ 7200 * 7 := by decide +kernel

/-- **C142.** In 7200 blocks (twelve hours of blocks every six seconds, a day of blocks every twelve) the multiplier grows
at most by half and falls at most by a seventh. -/
theorem C142_day (blocks : List Weight) (hb : blocks.length ≤ 7200) (m : Nat) (hm : fixedOne ≤ 10 * m) (hU : m ≤ u128Max) :
    2 * multiplierAfter m blocks ≤ 3 * m ∧ 6 * m ≤ 7 * multiplierAfter m blocks := by
  obtain ⟨-, -, h1, h2⟩ := C142_history blocks m hm hU
  have hpos : 0 < fixedOne := by decide +kernel
  have hpos' : 0 < fixedOne - 18750000000000 := by decide +kernel
  have hu := (pow_interest (a := fixedOne) (b := fixedOne + 56251582031250) (c := 2) (d := 3) (N := 7200) (Nat.le_add_right _ _) day_up hb).resolve_right (by omega)
  have hd := (pow_interest (a := fixedOne - 18750000000000) (b := fixedOne) (c := 6) (d := 7) (N := 7200) (Nat.sub_le _ _) day_down hb).resolve_right (by omega)
  have p1 : 0 < fixedOne ^ blocks.length := Nat.pow_pos hpos
  exact interest_bounds p1 h1 h2 hu hd

/-- **C142.** Fees come down again: blocks that use at most an eighth of what they may bring the multiplier to a tenth, each
lowering it by at least 937 billionths of one. From a multiplier of one this takes at
most 960513 such blocks. -/
theorem C142_quiet (blocks : List Weight) (m : Nat) (hm : fixedOne ≤ 10 * m) (hU : m ≤ u128Max)
    (hq : ∀ u ∈ blocks, 8 * u.refTime ≤ normalMax.refTime ∧ 8 * u.proofSize ≤ normalMax.proofSize)
    (hl : 10 * m ≤ fixedOne + blocks.length * 9370000000000) : 10 * multiplierAfter m blocks = fixedOne := by
  have h1 : fixedOne = 1000000000000000000 := rfl
  induction blocks generalizing m with
  | nil => simp only [multiplierAfter, List.foldl_nil, List.length_nil] at *; omega
  | cons u us ih =>
    have hd : multiplierAfter m (u :: us) = multiplierAfter (nextMultiplier m u) us := rfl
    rw [hd]
    obtain ⟨f1, f2⟩ := C142_floor m u
    refine ih _ f1 f2 (fun v hv => hq v (List.mem_cons_of_mem _ hv)) ?_
    have hmin : multiplierMin ≤ m := by rw [multiplierMin_eq]; omega
    obtain ⟨x, T, hlim, -, hle, hT⟩ := limiting_cases u
    obtain ⟨-, -, hq3⟩ := limiting_quarter u hlim
    have hu := hq u List.mem_cons_self
    rw [normalMax_eq] at hu
    dsimp only at hu
    have h2 : 2 * x ≤ T := hq3 (by omega) (by omega)
    obtain ⟨e, -, -, he3, he⟩ := next_down hmin hU hlim (by omega)
    rw [he, multiplierMin_eq]
    have h4 : 937000000000 ≤ e * m / 1000000000000000000 := by
      rw [Nat.le_div_iff_mul_le (by omega)]
      calc 937000000000 * 1000000000000000000 ≤ 9374296875000 * m := by omega
        _ ≤ e * m := Nat.mul_le_mul_right _ (he3 h2)
    generalize e * m / 1000000000000000000 = y at *
    rw [List.length_cons] at hl
    omega

/-- **C142.** What this means for a transaction: its fee is at least the base fee, the fee for its length, a tenth of the
fee for its weight and its tip; and in the next 7200 blocks, whatever they use, the same transaction pays at most half more
(and two units), and at least six sevenths (less one unit). -/
theorem C142_fee (r : Rates) (hm : fixedOne ≤ 10 * r.multiplier) (hU : r.multiplier ≤ u128Max) (base w : Weight)
    (len tip : Nat) (blocks : List Weight) (hb : blocks.length ≤ 7200) :
    weightToFee r.cents r.base base.capped + lengthToFee r.cents len + weightToFee r.cents r.base w.capped / 10 + tip
      ≤ computeFee r base w len tip ∧
    2 * computeFee { r with multiplier := multiplierAfter r.multiplier blocks } base w len tip
      ≤ 3 * computeFee r base w len tip + 3 ∧
    6 * computeFee r base w len tip
      ≤ 7 * computeFee { r with multiplier := multiplierAfter r.multiplier blocks } base w len tip + 6 := by
  obtain ⟨h1, h2⟩ := C142_day blocks hb r.multiplier hm hU
  have hone : fixedOne = 1000000000000000000 := rfl
  have hU' : u128Max = 340282366920938463463374607431768211455 := by decide +kernel
  have hwm : weightToFee r.cents r.base w.capped ≤ u128Max := by
    unfold weightToFee Coefficient.eval
    omega
  unfold computeFee
  dsimp only
  generalize weightToFee r.cents r.base w.capped = f at *
  generalize weightToFee r.cents r.base base.capped = b at *
  generalize lengthToFee r.cents len = l at *
  unfold fixedMulInt
  have k0 : f * fixedOne ≤ 10 * (r.multiplier * f) := by
    calc f * fixedOne ≤ f * (10 * r.multiplier) := Nat.mul_le_mul_left _ hm
      _ = _ := by ring
  have k1 : 2 * (multiplierAfter r.multiplier blocks * f) ≤ 3 * (r.multiplier * f) := by nlinarith
  have k2 : 6 * (r.multiplier * f) ≤ 7 * (multiplierAfter r.multiplier blocks * f) := by nlinarith
  generalize multiplierAfter r.multiplier blocks * f = y at *
  generalize r.multiplier * f = z at *
  rw [hone, hU'] at *
  omega

/-! ## Examples -/

/-- A full block of normal transactions, and an empty one. -/
example : nextMultiplier multiplierGenesis normalMax = 1000056251582031250 ∧
    nextMultiplier multiplierGenesis ⟨0, 0⟩ = 999981250175781250 ∧
    nextMultiplier multiplierGenesis ⟨0, 983040⟩ = multiplierGenesis ∧
    nextMultiplier multiplierGenesis ⟨0, 983041⟩ = 1000000000019073486 ∧
    nextMultiplier multiplierMin ⟨0, 0⟩ = multiplierMin := by decide +kernel

/-- The multiplier of the genesis meets the hypotheses. -/
example : fixedOne ≤ 10 * multiplierGenesis ∧ multiplierGenesis < u128Max := by decide +kernel

/-- Blocks as they are built (`buildBlock`): an operational transaction does not move the multiplier up. -/
example :
    let base : Weight := ⟨125000000, 0⟩
    multiplierAfter multiplierGenesis
      [(buildBlock base [.tx .normal ⟨900000000000, 100000⟩ ⟨0, 0⟩]).normal,
       (buildBlock base [.tx .operational ⟨900000000000, 100000⟩ ⟨0, 0⟩]).normal] = 1000007500028123155 := by
  decide +kernel

end Verif.Runtime
