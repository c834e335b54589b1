import Verif.Runtime.Block

/-!
# What the block limits guarantee (C101) and what storage deposits cost (C102)
-/

namespace Verif.Runtime

theorem normalMax_eq : normalMax = ⟨1500000000000, 3932160⟩ := by decide +kernel
theorem reserve_eq : Weight.satSub maxBlockWeight normalMax = ⟨500000000000, 1310720⟩ := by decide +kernel
theorem maxBlock_eq : maxBlockWeight = ⟨2000000000000, 5242880⟩ := by decide +kernel

/-- What acceptance means, spelled out for the two limited classes. -/
theorem checkWeight_normal (base : Weight) (u : Used) (cost : Weight) (v : Used) :
    checkWeight base u .normal cost = some v ↔
      u.normal.refTime + cost.refTime ≤ 1500000000000 ∧ u.normal.proofSize + cost.proofSize ≤ 3932160 ∧
      (Weight.Le (Used.total { u with normal := ⟨u.normal.refTime + cost.refTime, u.normal.proofSize + cost.proofSize⟩ })
          maxBlockWeight ∨
        (u.normal.refTime + cost.refTime = 0 ∧ u.normal.proofSize + cost.proofSize = 0)) ∧
      (∀ m ∈ maxExtrinsic base .normal, Weight.Le (Weight.satSub cost base) m) ∧
      v = { u with normal := ⟨u.normal.refTime + cost.refTime, u.normal.proofSize + cost.proofSize⟩ } := by
  unfold checkWeight
  dsimp only
  have hs : ∀ a b : Nat, a + b < 2 ^ 64 → min (2 ^ 64 - 1) (a + b) = a + b := by intro a b h; omega
  by_cases h0 : 2 ^ 64 ≤ u.normal.refTime + cost.refTime ∨ 2 ^ 64 ≤ u.normal.proofSize + cost.proofSize
  · rw [if_pos (by exact h0)]
    constructor
    · intro h; cases h
    · rintro ⟨h1, h2, _⟩; omega
  · rw [if_neg (by exact h0)]
    have e : Weight.satAdd u.normal cost = ⟨u.normal.refTime + cost.refTime, u.normal.proofSize + cost.proofSize⟩ := by
      unfold Weight.satAdd
      rw [hs _ _ (by omega), hs _ _ (by omega)]
    simp only [Used.of, Used.set, e]
    have e1 : (∃ m ∈ maxTotal .normal, ¬ Weight.Le ⟨u.normal.refTime + cost.refTime, u.normal.proofSize + cost.proofSize⟩ m) ↔
        ¬ (u.normal.refTime + cost.refTime ≤ 1500000000000 ∧ u.normal.proofSize + cost.proofSize ≤ 3932160) := by
      simp only [maxTotal, normalMax_eq, Option.mem_def, Option.some.injEq, exists_eq_left']
      rfl
    have e2 : (∃ r ∈ reserved .normal, ¬ Weight.Le ⟨u.normal.refTime + cost.refTime, u.normal.proofSize + cost.proofSize⟩ r) ↔
        ¬ (u.normal.refTime + cost.refTime = 0 ∧ u.normal.proofSize + cost.proofSize = 0) := by
      simp only [reserved, Option.mem_def, Option.some.injEq, exists_eq_left', Weight.Le]
      omega
    simp only [e1, e2]
    by_cases h1 : u.normal.refTime + cost.refTime ≤ 1500000000000 ∧ u.normal.proofSize + cost.proofSize ≤ 3932160
    · rw [if_neg (by simpa using h1)]
      split
      · rename_i h2
        constructor
        · intro h; cases h
        · rintro ⟨_, _, h3, _⟩
          rcases h3 with h3 | h3
          · exact absurd h3 h2.1
          · exact absurd h3 h2.2
      · rename_i h2
        have h2' : Weight.Le (Used.total { u with normal := ⟨u.normal.refTime + cost.refTime, u.normal.proofSize + cost.proofSize⟩ })
            maxBlockWeight ∨ (u.normal.refTime + cost.refTime = 0 ∧ u.normal.proofSize + cost.proofSize = 0) := by
          by_contra hc
          exact h2 (not_or.mp hc)
        split
        · rename_i h3
          constructor
          · intro h; cases h
          · rintro ⟨_, _, _, h4, _⟩
            obtain ⟨m, hm, hn⟩ := h3
            exact absurd (h4 m hm) hn
        · rename_i h3
          constructor
          · intro h
            refine ⟨h1.1, h1.2, h2', ?_, (Option.some.inj h).symm⟩
            intro m hm
            by_contra hc
            exact h3 ⟨m, hm, hc⟩
          · rintro ⟨_, _, _, _, rfl⟩
            rfl
    · rw [if_pos h1]
      constructor
      · intro h; cases h
      · rintro ⟨h2, h3, _⟩; exact absurd ⟨h2, h3⟩ h1

theorem checkWeight_frame {base : Weight} {u v : Used} {c : Class} {cost : Weight} (h : checkWeight base u c cost = some v) :
    v = u.set c (Weight.satAdd (u.of c) cost) := by
  unfold checkWeight at h
  dsimp only at h
  cases c
  case mandatory => exact (Option.some.inj h).symm
  all_goals
    repeat' split at h
    all_goals first | (cases h; done) | exact (Option.some.inj h).symm

/-- C101: whatever goes on in a block, normal transactions use at most three quarters of it. -/
theorem C101_normal_share (base : Weight) (acts : List BlockAct) :
    (buildBlock base acts).normal.refTime ≤ 1500000000000 ∧ (buildBlock base acts).normal.proofSize ≤ 3932160 := by
  have key : ∀ (acts : List BlockAct) (u : Used), u.normal.refTime ≤ 1500000000000 → u.normal.proofSize ≤ 3932160 →
      (acts.foldl (blockStep base) u).normal.refTime ≤ 1500000000000 ∧
      (acts.foldl (blockStep base) u).normal.proofSize ≤ 3932160 := by
    intro acts
    induction acts with
    | nil => intro u h1 h2; exact ⟨h1, h2⟩
    | cons a t ih =>
      intro u h1 h2
      rw [List.foldl_cons]
      cases a with
      | hook w => exact ih _ h1 h2
      | tx c cost unspent =>
        cases hc : checkWeight base u c cost with
        | none =>
          rw [show blockStep base u (.tx c cost unspent) = u by simp only [blockStep, hc]]
          exact ih _ h1 h2
        | some v =>
          rw [show blockStep base u (.tx c cost unspent) = v.set c (Weight.satSub (v.of c) unspent) by
            simp only [blockStep, hc]]
          cases c with
          | normal =>
            obtain ⟨g1, g2, _, _, rfl⟩ := (checkWeight_normal _ _ _ _).mp hc
            apply ih
            · show u.normal.refTime + cost.refTime - unspent.refTime ≤ _
              omega
            · show u.normal.proofSize + cost.proofSize - unspent.proofSize ≤ _
              omega
          | operational =>
            obtain rfl := checkWeight_frame hc
            exact ih _ h1 h2
          | mandatory =>
            obtain rfl := checkWeight_frame hc
            exact ih _ h1 h2
  exact key acts _ (Nat.zero_le _) (Nat.zero_le _)

/-- C101: an operational transaction that keeps its class within a quarter of the block always goes in, whatever hooks and
other transactions have used. -/
theorem C101_operational_room (base : Weight) (u : Used) (cost : Weight)
    (h1 : u.operational.refTime + cost.refTime ≤ 500000000000) (h2 : u.operational.proofSize + cost.proofSize ≤ 1310720) :
    ∃ v, checkWeight base u .operational cost = some v ∧ v.operational.refTime = u.operational.refTime + cost.refTime ∧
      v.operational.proofSize = u.operational.proofSize + cost.proofSize := by
  have hs : ∀ a b : Nat, a + b < 2 ^ 64 → min (2 ^ 64 - 1) (a + b) = a + b := by intro a b h; omega
  have e : Weight.satAdd u.operational cost =
      ⟨u.operational.refTime + cost.refTime, u.operational.proofSize + cost.proofSize⟩ := by
    unfold Weight.satAdd
    rw [hs _ _ (by omega), hs _ _ (by omega)]
  have hm : Weight.percent 5 maxBlockWeight = ⟨100000000000, 262144⟩ := by decide +kernel
  have a1 : ¬ (2 ^ 64 ≤ u.operational.refTime + cost.refTime ∨ 2 ^ 64 ≤ u.operational.proofSize + cost.proofSize) := by
    omega
  have a2 : ¬ ∃ m ∈ maxTotal .operational,
      ¬ Weight.Le ⟨u.operational.refTime + cost.refTime, u.operational.proofSize + cost.proofSize⟩ m := by
    rintro ⟨m, hm', hn⟩
    simp only [maxTotal, maxBlock_eq, Option.mem_def, Option.some.injEq] at hm'
    subst hm'
    apply hn
    unfold Weight.Le
    dsimp only
    omega
  have a3 : ¬ ∃ r ∈ reserved .operational,
      ¬ Weight.Le ⟨u.operational.refTime + cost.refTime, u.operational.proofSize + cost.proofSize⟩ r := by
    rintro ⟨r, hr, hn⟩
    simp only [reserved, reserve_eq, Option.mem_def, Option.some.injEq] at hr
    subst hr
    exact hn ⟨h1, h2⟩
  have a4 : ¬ ∃ m ∈ maxExtrinsic base .operational, ¬ Weight.Le (Weight.satSub cost base) m := by
    rintro ⟨m, hm', hn⟩
    simp only [maxExtrinsic, maxTotal, hm, Option.map_some, Option.mem_def, Option.some.injEq] at hm'
    subst hm'
    apply hn
    rw [maxBlock_eq]
    unfold Weight.Le Weight.satSub
    dsimp only
    omega
  unfold checkWeight
  simp only [Used.of, Used.set, e, if_neg a1, if_neg a2, if_neg a4, a3, and_false, if_false]
  exact ⟨_, rfl, rfl, rfl⟩

/-- C101: as long as hooks and operational transactions have used at most a quarter of the block, normal transactions have
the whole three quarters: one goes in exactly when its class stays within them (and it is not larger than a single
transaction may be). -/
theorem C101_room_partial (base : Weight) (u : Used) (cost : Weight)
    (h1 : u.operational.refTime + u.mandatory.refTime ≤ 500000000000)
    (h2 : u.operational.proofSize + u.mandatory.proofSize ≤ 1310720)
    (hm : ∀ m ∈ maxExtrinsic base .normal, Weight.Le (Weight.satSub cost base) m) :
    (∃ v, checkWeight base u .normal cost = some v) ↔
      u.normal.refTime + cost.refTime ≤ 1500000000000 ∧ u.normal.proofSize + cost.proofSize ≤ 3932160 := by
  constructor
  · rintro ⟨v, h⟩
    obtain ⟨g1, g2, _⟩ := (checkWeight_normal _ _ _ _).mp h
    exact ⟨g1, g2⟩
  · rintro ⟨g1, g2⟩
    refine ⟨_, (checkWeight_normal _ _ _ _).mpr ⟨g1, g2, .inl ?_, hm, rfl⟩⟩
    rw [maxBlock_eq]
    unfold Weight.Le Used.total Weight.satAdd
    dsimp only
    omega

/-- C101 is false of the code: the scheduler and the message queue together may use 115% of a block, and when they do
no normal transaction fits, however small. -/
theorem C101_hooks_fails (base : Weight) :
    schedulerMax = ⟨1600000000000, 4194304⟩ ∧ queueMax = ⟨700000000000, 1835008⟩ ∧
    let u := buildBlock base [.hook schedulerMax, .hook queueMax]
    ¬ Weight.Le u.total maxBlockWeight ∧
    ∀ cost, 0 < cost.refTime → checkWeight base u .normal cost = none := by
  have e1 : schedulerMax = ⟨1600000000000, 4194304⟩ := by decide +kernel
  have e2 : queueMax = ⟨700000000000, 1835008⟩ := by decide +kernel
  refine ⟨e1, e2, ?_⟩
  intro u
  have eu : u = ⟨⟨0, 0⟩, ⟨0, 0⟩, ⟨2300000000000, 6029312⟩⟩ := by
    simp only [u, e1, e2, buildBlock, List.foldl_cons, List.foldl_nil, blockStep, Used.set, Weight.satAdd]
    decide +kernel
  rw [eu]
  refine ⟨by decide +kernel, ?_⟩
  intro cost hc
  cases h : checkWeight base ⟨⟨0, 0⟩, ⟨0, 0⟩, ⟨2300000000000, 6029312⟩⟩ .normal cost with
  | none => rfl
  | some v =>
    exfalso
    obtain ⟨g1, g2, g3, _⟩ := (checkWeight_normal _ _ _ _).mp h
    rcases g3 with g3 | g3
    · rw [maxBlock_eq] at g3
      unfold Weight.Le Used.total Weight.satAdd at g3
      dsimp only at g3 g1 g2
      omega
    · dsimp only at g3
      omega

/-- A block with a hook and two transactions in it. -/
example : buildBlock ⟨100, 0⟩ [.hook ⟨10000, 10⟩, .tx .normal ⟨5000, 100⟩ ⟨1000, 50⟩, .tx .operational ⟨7000, 1⟩ ⟨0, 0⟩] =
    ⟨⟨4000, 50⟩, ⟨7000, 1⟩, ⟨10000, 10⟩⟩ := by decide +kernel

/-! ## C102: deposits -/

/-- C102: a deposit for `items` storage items and `bytes` bytes, both any u32, is exactly the hundredth of the relay
chain's: nothing overflows. -/
theorem C102_exact (cents items bytes : Nat) (hi : items < 2 ^ 32) (hb : bytes < 2 ^ 32) (hc : cents ≤ 1000000000000) :
    deposit cents items bytes = (items * 2000 * cents + bytes * 100 * (cents / 1000)) / 100 := by
  unfold deposit relayDeposit
  rw [Nat.mod_eq_of_lt]
  have h1 : items * 2000 * cents ≤ 2 ^ 32 * 2000 * 1000000000000 :=
    Nat.mul_le_mul (Nat.mul_le_mul hi.le le_rfl) hc
  have h2 : bytes * 100 * (cents / 1000) ≤ 2 ^ 32 * 100 * 1000000000 :=
    Nat.mul_le_mul (Nat.mul_le_mul hb.le le_rfl) (by omega)
  norm_num at h1 h2 ⊢
  omega

/-- C102: a deposit is 20 cents per item and a milli-cent per byte, for every amount, with no rounding: so deposits
add up, and more storage never costs less. -/
theorem C102_linear (cents items bytes : Nat) (hi : items < 2 ^ 32) (hb : bytes < 2 ^ 32) (hc : cents ≤ 1000000000000) :
    deposit cents items bytes = items * (20 * cents) + bytes * (cents / 1000) := by
  rw [C102_exact _ _ _ hi hb hc]
  have : items * 2000 * cents + bytes * 100 * (cents / 1000) = 100 * (items * (20 * cents) + bytes * (cents / 1000)) := by
    ring
  rw [this, Nat.mul_div_cancel_left _ (by decide)]

/-- C102: storing things together costs what storing them apart costs. -/
theorem C102_additive (cents i j b d : Nat) (hi : i + j < 2 ^ 32) (hb : b + d < 2 ^ 32) (hc : cents ≤ 1000000000000) :
    deposit cents (i + j) (b + d) = deposit cents i b + deposit cents j d := by
  rw [C102_linear _ _ _ hi hb hc, C102_linear _ _ _ (by omega) (by omega) hc, C102_linear _ _ _ (by omega) (by omega) hc]
  ring

/-- C102: more storage never costs less, and any storage costs something, on both relay chains. -/
theorem C102_monotone (cents i j b d : Nat) (hij : i ≤ j) (hbd : b ≤ d) (hj : j < 2 ^ 32) (hd : d < 2 ^ 32)
    (hc : cents = centsKusama ∨ cents = centsPaseo) :
    deposit cents i b ≤ deposit cents j d ∧ (0 < i ∨ 0 < b → 0 < deposit cents i b) := by
  have hk : centsKusama = 333333333 := by decide +kernel
  have hp : centsPaseo = 100000000 := by decide +kernel
  rw [hk, hp] at hc
  have hc' : cents ≤ 1000000000000 := by rcases hc with rfl | rfl <;> decide
  rw [C102_linear _ _ _ (by omega) (by omega) hc', C102_linear _ _ _ hj hd hc']
  constructor
  · exact Nat.add_le_add (Nat.mul_le_mul_right _ hij) (Nat.mul_le_mul_right _ hbd)
  · intro h
    rcases hc with rfl | rfl <;> norm_num <;> omega

example : deposit centsKusama 1 88 = 20 * 333333333 + 88 * 333333 := by decide +kernel

end Verif.Runtime
