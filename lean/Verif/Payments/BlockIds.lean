import Verif.Payments.KreivoIds
import Verif.Runtime.BlockTheorems

/-!
# How many extrinsics a block holds, and what this means for payment ids (C38)

Payment ids keep 16 bits of the extrinsic index. Blocks of Kreivo hold fewer extrinsics than that, because each one uses at
least the base weight (runtime/kreivo/src/weights/extrinsic_weights.rs 26-27) of what its class may use.
-/

namespace Verif.Runtime

/-- `ExtrinsicBaseWeight`: runtime/kreivo/src/weights/extrinsic_weights.rs 26-27. -/
def extrinsicBase : Weight := ⟨125000000, 0⟩

/-- What stays charged for a transaction is at least the base weight: `CheckWeight` charges it on top of the declared
weight, and only unspent declared weight is given back. Specification only, no code behind it (outside /repo); frame_system
used at runtime/kreivo/src/lib.rs 138. -/
def Charged : BlockAct → Prop
  | .hook _ => True
  | .tx _ cost unspent => extrinsicBase.refTime + unspent.refTime ≤ cost.refTime

/-- Whether something becomes an extrinsic of the block. Part of the transition system around the code (outside /repo). -/
def included (u : Used) : BlockAct → Bool
  | .hook _ => false
  | .tx c cost _ => (checkWeight extrinsicBase u c cost).isSome

/-- The number of extrinsics in a block. Part of the transition system around the code (outside /repo). -/
def extrinsics (u : Used) : List BlockAct → Nat
  | [] => 0
  | a :: rest => (if included u a then 1 else 0) + extrinsics (blockStep extrinsicBase u a) rest

/-- Nothing used yet. Part of the transition system around the code (outside /repo). -/
def emptyBlock : Used := ⟨⟨0, 0⟩, ⟨0, 0⟩, ⟨0, 0⟩⟩

/-- The index of the extrinsic tried at position `k`: the number of those included before it. frame_system counts them so;
outside /repo, used at runtime/kreivo/src/payments.rs 70 (`extrinsic_index`). -/
def indexAt (acts : List BlockAct) (k : Nat) : Nat := extrinsics emptyBlock (acts.take k)

/-- The inherents among the parts of a block. Specification only, no code behind it (outside /repo). -/
def inherents : List BlockAct → Nat
  | [] => 0
  | .tx .mandatory _ _ :: rest => inherents rest + 1
  | _ :: rest => inherents rest

theorem checkWeight_operational_le {base : Weight} {u v : Used} {cost : Weight}
    (h : checkWeight base u .operational cost = some v) :
    v = { u with operational := Weight.satAdd u.operational cost } ∧
    u.operational.refTime + cost.refTime ≤ 2000000000000 := by
  have hf := checkWeight_frame h
  unfold checkWeight at h
  dsimp only at h
  split at h
  · cases h
  rename_i h1
  split at h
  · cases h
  rename_i h2
  refine ⟨hf, ?_⟩
  simp only [maxTotal, Option.mem_some, exists_eq_left', not_not] at h2
  have h3 := h2.1
  rw [maxBlock_eq] at h3
  have h4 : ¬ 2 ^ 64 ≤ u.operational.refTime + cost.refTime := fun e => h1 (.inl e)
  simp only [Used.set, Used.of, Weight.satAdd] at h3
  omega

theorem bound_subst {n K z a c f M : Nat} (h : n * K + z ≤ M) (e : z = a + c - f) (hb : K + f ≤ c) :
    (n + 1) * K + a ≤ M := by
  rw [Nat.succ_mul]
  omega

/-- What the transactions of a block still may use bounds their number. -/
theorem extrinsics_le (acts : List BlockAct) (hc : ∀ a ∈ acts, Charged a) (u : Used)
    (hn : u.normal.refTime ≤ 1500000000000) (ho : u.operational.refTime ≤ 2000000000000) :
    ∃ n o, extrinsics u acts ≤ n + o + inherents acts ∧ n * 125000000 + u.normal.refTime ≤ 1500000000000 ∧
      o * 125000000 + u.operational.refTime ≤ 2000000000000 := by
  induction acts generalizing u with
  | nil => exact ⟨0, 0, Nat.zero_le _, by omega, by omega⟩
  | cons a t ih =>
    have hc' : ∀ x ∈ t, Charged x := fun x hx => hc x (List.mem_cons_of_mem _ hx)
    have ha := hc a List.mem_cons_self
    cases a with
    | hook w =>
      obtain ⟨n, o, h1, h2, h3⟩ := ih hc' (blockStep extrinsicBase u (.hook w)) hn ho
      refine ⟨n, o, ?_, h2, h3⟩
      simp only [extrinsics, included, inherents, Bool.false_eq_true, if_false, Nat.zero_add]
      exact h1
    | tx c cost unspent =>
      have hb : 125000000 + unspent.refTime ≤ cost.refTime := ha
      cases hw : checkWeight extrinsicBase u c cost with
      | none =>
        have e : blockStep extrinsicBase u (.tx c cost unspent) = u := by simp only [blockStep, hw]
        obtain ⟨n, o, h1, h2, h3⟩ := ih hc' u hn ho
        refine ⟨n, o, ?_, h2, h3⟩
        have hi : inherents t ≤ inherents (.tx c cost unspent :: t) := by cases c <;> simp [inherents]
        simp only [extrinsics, included, hw, e, Option.isSome_none, Bool.false_eq_true, if_false, Nat.zero_add]
        omega
      | some v =>
        have e : blockStep extrinsicBase u (.tx c cost unspent) = v.set c (Weight.satSub (v.of c) unspent) := by
          simp only [blockStep, hw]
        simp only [extrinsics, included, hw, e, Option.isSome_some, if_true]
        cases c with
        | normal =>
          obtain ⟨g1, _, _, _, rfl⟩ := (checkWeight_normal _ _ _ _).mp hw
          have hs : (Used.set { u with normal := ⟨u.normal.refTime + cost.refTime, u.normal.proofSize + cost.proofSize⟩ }
              .normal (Weight.satSub ⟨u.normal.refTime + cost.refTime, u.normal.proofSize + cost.proofSize⟩
                unspent)).normal.refTime = u.normal.refTime + cost.refTime - unspent.refTime := rfl
          obtain ⟨n, o, h1, h2, h3⟩ := ih hc' (Used.set { u with normal := ⟨u.normal.refTime + cost.refTime,
            u.normal.proofSize + cost.proofSize⟩ } .normal (Weight.satSub ⟨u.normal.refTime + cost.refTime,
              u.normal.proofSize + cost.proofSize⟩ unspent)) (by rw [hs]; omega) ho
          refine ⟨n + 1, o, ?_, ?_, h3⟩
          · have : inherents (.tx .normal cost unspent :: t) = inherents t := rfl
            rw [this]
            exact le_trans (Nat.add_le_add_left h1 1) (by omega)
          · exact bound_subst h2 hs hb
        | operational =>
          obtain ⟨rfl, g1⟩ := checkWeight_operational_le hw
          have hs : (Used.set { u with operational := Weight.satAdd u.operational cost }
              .operational (Weight.satSub (Weight.satAdd u.operational cost) unspent)).operational.refTime =
                u.operational.refTime + cost.refTime - unspent.refTime := by
            show min (2 ^ 64 - 1) (u.operational.refTime + cost.refTime) - unspent.refTime = _
            rw [Nat.min_eq_right (by omega)]
          obtain ⟨n, o, h1, h2, h3⟩ := ih hc' (Used.set { u with operational := Weight.satAdd u.operational cost }
            .operational (Weight.satSub (Weight.satAdd u.operational cost) unspent)) hn (by rw [hs]; omega)
          refine ⟨n, o + 1, ?_, h2, ?_⟩
          · have : inherents (.tx .operational cost unspent :: t) = inherents t := rfl
            rw [this]
            exact le_trans (Nat.add_le_add_left h1 1) (by omega)
          · exact bound_subst h3 hs hb
        | mandatory =>
          obtain rfl := checkWeight_frame hw
          obtain ⟨n, o, h1, h2, h3⟩ := ih hc' (Used.set { u with mandatory := Weight.satAdd u.mandatory cost }
            .mandatory (Weight.satSub (Weight.satAdd u.mandatory cost) unspent)) hn ho
          refine ⟨n, o, ?_, h2, h3⟩
          have : inherents (.tx .mandatory cost unspent :: t) = inherents t + 1 := rfl
          rw [this]
          exact le_trans (Nat.add_le_add_left h1 1) (by omega)

theorem extrinsics_append (u : Used) (xs ys : List BlockAct) :
    extrinsics u (xs ++ ys) = extrinsics u xs + extrinsics (xs.foldl (blockStep extrinsicBase) u) ys := by
  induction xs generalizing u with
  | nil => simp [extrinsics]
  | cons a t ih => simp only [List.cons_append, extrinsics, List.foldl_cons, ih]; omega

theorem inherents_take (k : Nat) (acts : List BlockAct) : inherents (acts.take k) ≤ inherents acts := by
  induction acts generalizing k with
  | nil => simp
  | cons a t ih =>
    cases k with
    | zero => exact Nat.zero_le _
    | succ k =>
      have := ih k
      rcases a with w | ⟨c, cost, un⟩
      · exact this
      · cases c
        · exact this
        · exact this
        · exact Nat.succ_le_succ this

/-- C38: whatever transactions and hooks a block is made of, at most 28,000 transactions get into it beside the inherents. -/
theorem C38_block_size (acts : List BlockAct) (hc : ∀ a ∈ acts, Charged a) :
    extrinsics emptyBlock acts ≤ 28000 + inherents acts := by
  obtain ⟨n, o, h1, h2, h3⟩ := extrinsics_le acts hc emptyBlock (by simp [emptyBlock]) (by simp [emptyBlock])
  have z1 : emptyBlock.normal.refTime = 0 := rfl
  have z2 : emptyBlock.operational.refTime = 0 := rfl
  omega

/-- The transaction tried at position `k` of the block gets in. Specification only, no code behind it (outside /repo). -/
def GetsIn (acts : List BlockAct) (k : Nat) : Prop :=
  ∃ a, acts[k]? = some a ∧ included ((acts.take k).foldl (blockStep extrinsicBase) emptyBlock) a = true

theorem indexAt_mono (acts : List BlockAct) {j k : Nat} (h : j ≤ k) : indexAt acts j ≤ indexAt acts k := by
  unfold indexAt
  have e : acts.take k = acts.take j ++ (acts.take k).drop j := by
    conv_lhs => rw [← List.take_append_drop j (acts.take k)]
    rw [List.take_take, Nat.min_eq_left h]
  rw [e, extrinsics_append]
  omega

theorem indexAt_succ {acts : List BlockAct} {k : Nat} (h : GetsIn acts k) : indexAt acts (k + 1) = indexAt acts k + 1 := by
  obtain ⟨a, ha, hi⟩ := h
  unfold indexAt
  rw [List.take_add_one, ha, extrinsics_append]
  simp only [Option.toList_some, extrinsics, hi, if_true]

/-- Different extrinsics of a block have different indices. -/
theorem indexAt_inj {acts : List BlockAct} {j k : Nat} (hj : GetsIn acts j) (hk : GetsIn acts k)
    (h : indexAt acts j = indexAt acts k) : j = k := by
  rcases Nat.lt_trichotomy j k with g | g | g
  · have := indexAt_mono acts (Nat.succ_le_of_lt g)
    rw [indexAt_succ hj] at this
    omega
  · exact g
  · have := indexAt_mono acts (Nat.succ_le_of_lt g)
    rw [indexAt_succ hk] at this
    omega

end Verif.Runtime

namespace Verif.Payments.Kreivo
open Verif.Runtime

/-- C38: on Kreivo, payments of different blocks, of different extrinsics of the same block, or to beneficiaries whose
accounts differ in the first two bytes get different ids. `blocks` gives for each block what was tried in it; there are few
inherents (two on Kreivo, 30,000 would do). -/
theorem C38_kreivo_blocks (blocks : UInt32 → List BlockAct) (hc : ∀ b, ∀ a ∈ blocks b, Charged a)
    (hm : ∀ b, inherents (blocks b) ≤ 30000) {b b' : UInt32} {k k' : Nat} {snd snd' ben ben' : Acct} {x x' : PId}
    (hk : GetsIn (blocks b) k) (hk' : GetsIn (blocks b') k')
    (h : nextId b (some (UInt32.ofNat (indexAt (blocks b) k))) snd ben = some x)
    (h' : nextId b' (some (UInt32.ofNat (indexAt (blocks b') k'))) snd' ben' = some x')
    (hne : b ≠ b' ∨ k ≠ k' ∨ prefixOf ben ≠ prefixOf ben') : x ≠ x' := by
  have small : ∀ c j, indexAt (blocks c) j < 65536 := by
    intro c j
    have h1 := C38_block_size ((blocks c).take j) (fun a ha => hc c a (List.mem_of_mem_take ha))
    have h2 := inherents_take j (blocks c)
    have h3 := hm c
    unfold indexAt
    omega
  intro e
  obtain ⟨e1, e2, e3⟩ := (C38_kreivo_ids h h').mp e
  rcases hne with g | g | g
  · exact g e1
  · subst e1
    apply g
    apply indexAt_inj hk hk'
    have s1 := small b k
    have s2 := small b k'
    rw [UInt32.toNat_ofNat', UInt32.toNat_ofNat'] at e2
    omega
  · exact g e3

/-- Example for non-vacuity (outside /repo): the two inherents, a transfer, and two payments. -/
def someBlock : List BlockAct :=
  [.hook ⟨1000000, 500⟩, .tx .mandatory ⟨130000000, 100⟩ ⟨0, 0⟩, .tx .mandatory ⟨230000000, 100⟩ ⟨0, 0⟩,
    .tx .normal ⟨900000000, 3000⟩ ⟨1000000, 0⟩, .tx .normal ⟨600000000, 9000⟩ ⟨0, 0⟩, .tx .normal ⟨2000000000000, 9000⟩ ⟨0, 0⟩,
    .tx .normal ⟨600000000, 9000⟩ ⟨0, 0⟩]

example : (∀ a ∈ someBlock, Charged a) ∧ inherents someBlock = 2 ∧
    (List.range 7).map (fun k => included ((someBlock.take k).foldl (blockStep extrinsicBase) emptyBlock) (someBlock[k]?.getD (.hook ⟨0, 0⟩))) =
      [false, true, true, true, true, false, true] ∧
    indexAt someBlock 4 = 3 ∧ indexAt someBlock 6 = 4 ∧
    nextId 7 (some (UInt32.ofNat (indexAt someBlock 4))) 1 2 ≠ nextId 7 (some (UInt32.ofNat (indexAt someBlock 6))) 1 2 := by
  refine ⟨?_, by decide +kernel, by decide +kernel, by decide +kernel, by decide +kernel, by decide +kernel⟩
  simp [someBlock, Charged, extrinsicBase]

end Verif.Payments.Kreivo
