import Verif.Xcm.Barrier
import Verif.Accounts.Theorems
import Verif.Xcm.WeightTheorems

/-! # C92: free execution, C93: whom a message can act as -/

namespace Verif.Xcm

open Verif Verif.Runtime Verif.Accounts

/-! ## C92 -/

/-- The message pays: after instructions that only narrow or claim an origin, it loads assets and soon buys execution for
the whole weight `w`. `out` is the message that runs. -/
def Pays (w : Weight) (msg out : List Instr) : Prop :=
  ∃ pre load skipped limit rest,
    (∀ i ∈ pre, (∃ who, i = .descendOrigin who) ∨ ∃ j, i = .universalOrigin j) ∧
    (∃ n ≤ 2, load = .withdrawAsset n ∨ load = .receiveTeleportedAsset n ∨ load = .reserveAssetDeposited n ∨
      load = .claimAsset n) ∧
    skipped.length ≤ 3 ∧
    msg = pre ++ load :: skipped ++ .buyExecution limit :: rest ∧
    (limit = .unlimited ∨ ∃ v, limit = .limited v ∧ w.refTime ≤ v.refTime ∧ w.proofSize ≤ v.proofSize) ∧
    out = pre ++ load :: skipped ++ .buyExecution (.limited w) :: rest

/-- The message asks for free execution up to at least its weight, after at most some narrowing of its origin. -/
def AsksFree (w : Weight) (msg : List Instr) : Prop :=
  ∃ pre limit chk rest,
    (∀ i ∈ pre, ∃ who, i = .descendOrigin who) ∧
    (limit = .unlimited ∨ ∃ v, limit = .limited v ∧ w.refTime ≤ v.refTime ∧ w.proofSize ≤ v.proofSize) ∧
    msg = pre ++ .unpaidExecution limit chk :: rest

/-- The relay chain itself or its executive body. -/
def RelayOrExecutive (l : Location) : Prop := l = ⟨1, []⟩ ∨ ∃ part, l = ⟨1, [.plurality .executive part]⟩

theorem allGte_iff (v w : Weight) : Weight.allGte v w = true ↔ w.refTime ≤ v.refTime ∧ w.proofSize ≤ v.proofSize := by
  unfold Weight.allGte
  simp

theorem buys_some {w : Weight} {i j : Instr} (h : buys w i = some j) :
    ∃ limit, i = .buyExecution limit ∧ j = .buyExecution (.limited w) ∧
      (limit = .unlimited ∨ ∃ v, limit = .limited v ∧ w.refTime ≤ v.refTime ∧ w.proofSize ≤ v.proofSize) := by
  unfold buys at h
  split at h
  · exact ⟨_, rfl, (Option.some.inj h).symm, .inl rfl⟩
  · rename_i v
    split at h
    · rename_i hg
      exact ⟨_, rfl, (Option.some.inj h).symm, .inr ⟨v, rfl, (allGte_iff _ _).mp hg⟩⟩
    · cases h
  · cases h

theorem skipAndBuy_some {skip : Instr → Bool} {w : Weight} {l r : List Instr} (h : skipAndBuy skip w l = some r) :
    ∃ skipped limit rest, l = skipped ++ .buyExecution limit :: rest ∧
      r = skipped ++ .buyExecution (.limited w) :: rest ∧
      (limit = .unlimited ∨ ∃ v, limit = .limited v ∧ w.refTime ≤ v.refTime ∧ w.proofSize ≤ v.proofSize) := by
  induction l generalizing r with
  | nil => cases h
  | cons i rest ih =>
    unfold skipAndBuy at h
    split at h
    · cases hr : skipAndBuy skip w rest with
      | none => rw [hr] at h; cases h
      | some r' =>
        rw [hr] at h
        obtain rfl := Option.some.inj h
        obtain ⟨sk, lim, re, e1, e2, e3⟩ := ih hr
        exact ⟨i :: sk, lim, re, by rw [e1]; rfl, by rw [e2]; rfl, e3⟩
    · cases hr : buys w i with
      | none => rw [hr] at h; cases h
      | some j =>
        rw [hr] at h
        obtain rfl := Option.some.inj h
        obtain ⟨lim, e1, e2, e3⟩ := buys_some hr
        exact ⟨[], lim, rest, by rw [e1]; rfl, by rw [e2]; rfl, e3⟩

theorem loads_iff {i : Instr} (h : loadsAssets i = true) :
    ∃ n ≤ 2, i = .withdrawAsset n ∨ i = .receiveTeleportedAsset n ∨ i = .reserveAssetDeposited n ∨ i = .claimAsset n := by
  cases i <;> simp [loadsAssets] at h
  · exact ⟨_, h, .inl rfl⟩
  · exact ⟨_, h, .inr (.inr (.inl rfl))⟩
  · exact ⟨_, h, .inr (.inl rfl)⟩
  · exact ⟨_, h, .inr (.inr (.inr rfl))⟩

theorem topLevelPaid_some {skip : Instr → Bool} {w : Weight} {msg out : List Instr}
    (h : topLevelPaid skip w msg = some out) :
    ∃ load skipped limit rest,
      (∃ n ≤ 2, load = .withdrawAsset n ∨ load = .receiveTeleportedAsset n ∨ load = .reserveAssetDeposited n ∨
        load = .claimAsset n) ∧
      skipped.length ≤ 3 ∧
      msg = load :: skipped ++ .buyExecution limit :: rest ∧
      (limit = .unlimited ∨ ∃ v, limit = .limited v ∧ w.refTime ≤ v.refTime ∧ w.proofSize ≤ v.proofSize) ∧
      out = load :: skipped ++ .buyExecution (.limited w) :: rest := by
  unfold topLevelPaid at h
  split at h
  · cases h
  · rename_i i rest he
    split at h
    · rename_i hl
      cases hr : skipAndBuy skip w rest with
      | none => rw [hr] at h; cases h
      | some r =>
        rw [hr] at h
        obtain rfl := Option.some.inj h
        obtain ⟨sk, lim, re, e1, e2, e3⟩ := skipAndBuy_some hr
        refine ⟨i, sk, lim, re ++ msg.drop 5, loads_iff hl, ?_, ?_, e3, ?_⟩
        · have hlen : (msg.take 5).length ≤ 5 := by rw [List.length_take]; omega
          rw [he, e1] at hlen
          simp only [List.length_cons, List.length_append] at hlen
          omega
        · conv_lhs => rw [← List.take_append_drop 5 msg, he, e1]
          simp
        · rw [e2]; simp
    · cases h

theorem computeOrigin_some {self : UInt32} : ∀ (n : Nat) (l : Location) (msg : List Instr) {pre : List Instr} {o : Location}
    {rest : List Instr}, computeOrigin self n l msg = some (pre, o, rest) →
    msg = pre ++ rest ∧ (∀ i ∈ pre, (∃ who, i = .descendOrigin who) ∨ ∃ j, i = .universalOrigin j) ∧
      (((∀ i ∈ pre, ∃ who, i = .descendOrigin who) ∧ ∃ ext, o = ⟨l.parents, l.interior ++ ext⟩) ∨
        o.parents = 2 ∨ o.parents = 3) := by
  have rel : ∀ j, (relativeTo j (universalLocation self)).parents = 2 ∨
      (relativeTo j (universalLocation self)).parents = 3 := by
    intro j
    unfold relativeTo universalLocation
    dsimp only
    split
    · exact .inl rfl
    · exact .inr rfl
  intro n
  induction n with
  | zero =>
    intro l msg pre o rest h
    unfold computeOrigin at h
    simp only [Option.some.injEq, Prod.mk.injEq] at h
    obtain ⟨rfl, rfl, rfl⟩ := h
    exact ⟨rfl, by simp, .inl ⟨by simp, [], by simp⟩⟩
  | succ n ih =>
    intro l msg pre o rest h
    unfold computeOrigin at h
    split at h
    · exact absurd ‹n + 1 = 0› (by omega)
    · rename_i j rest' hn
      cases hn
      cases hc : computeOrigin self n (relativeTo j (universalLocation self)) rest' with
      | none => rw [hc] at h; cases h
      | some r =>
        obtain ⟨pre', o', re⟩ := r
        rw [hc] at h
        simp only [Option.map_some, Option.some.injEq, Prod.mk.injEq] at h
        obtain ⟨rfl, rfl, rfl⟩ := h
        obtain ⟨e1, e2, e3⟩ := ih _ _ hc
        refine ⟨by rw [e1]; rfl, ?_, ?_⟩
        · intro i hi
          rcases List.mem_cons.mp hi with rfl | hi
          · exact .inr ⟨j, rfl⟩
          · exact e2 i hi
        · right
          rcases e3 with ⟨_, ext, rfl⟩ | h3
          · exact rel j
          · exact h3
    · rename_i who rest' hn
      cases hn
      split at h
      · cases h
      · rename_i l' hl'
        cases hc : computeOrigin self n l' rest' with
        | none => rw [hc] at h; cases h
        | some r =>
          obtain ⟨pre', o', re⟩ := r
          rw [hc] at h
          simp only [Option.map_some, Option.some.injEq, Prod.mk.injEq] at h
          obtain ⟨rfl, rfl, rfl⟩ := h
          obtain ⟨e1, e2, e3⟩ := ih _ _ hc
          unfold Location.append at hl'
          split at hl'
          · obtain rfl := Option.some.inj hl'
            refine ⟨by rw [e1]; rfl, ?_, ?_⟩
            · intro i hi
              rcases List.mem_cons.mp hi with rfl | hi
              · exact .inl ⟨who, rfl⟩
              · exact e2 i hi
            · rcases e3 with ⟨h3, ext, rfl⟩ | h3
              · left
                refine ⟨?_, who ++ ext, by simp⟩
                intro i hi
                rcases List.mem_cons.mp hi with rfl | hi
                · exact ⟨who, rfl⟩
                · exact h3 i hi
              · exact .inr h3
          · cases hl'
    · simp only [Option.some.injEq, Prod.mk.injEq] at h
      obtain ⟨rfl, rfl, rfl⟩ := h
      exact ⟨rfl, by simp, .inl ⟨by simp, [], by simp⟩⟩

theorem parentOrExecutive_iff (l : Location) : parentOrExecutive l = true ↔ RelayOrExecutive l := by
  unfold parentOrExecutive RelayOrExecutive
  obtain ⟨p, i⟩ := l
  constructor
  · intro h
    dsimp only at h
    split at h
    · exact .inl rfl
    · exact .inr ⟨_, rfl⟩
    · cases h
  · rintro (h | ⟨part, h⟩) <;> cases h <;> rfl

theorem extension_relay {l : Location} {ext : List Junction} (h : RelayOrExecutive ⟨l.parents, l.interior ++ ext⟩) :
    RelayOrExecutive l := by
  obtain ⟨p, i⟩ := l
  rcases h with h | ⟨part, h⟩
  · simp only [Location.mk.injEq, List.append_eq_nil_iff] at h
    obtain ⟨rfl, rfl, _⟩ := h
    exact .inl rfl
  · simp only [Location.mk.injEq] at h
    obtain ⟨rfl, h⟩ := h
    cases i with
    | nil => exact .inl rfl
    | cons a t =>
      simp only [List.cons_append, List.cons.injEq, List.append_eq_nil_iff] at h
      obtain ⟨rfl, rfl, _⟩ := h
      exact .inr ⟨part, rfl⟩

/-- C92: a message that runs, sent without weight credit (as every message from another chain) and weighing anything, pays
for its whole weight, or it asks for free execution and comes from the relay chain or its executive body. -/
theorem C92_pays_or_relay (skip : Instr → Bool) (self : UInt32) (sender : Location) (msg out : List Instr) (w : Weight)
    (hw : messageWeight msg = some w) (hw0 : w ≠ ⟨0, 0⟩) (h : admit skip self sender msg ⟨0, 0⟩ = some out) :
    Pays w msg out ∨ (RelayOrExecutive sender ∧ AsksFree w msg ∧ out = msg) := by
  unfold admit at h
  rw [hw] at h
  dsimp only at h
  unfold barrier at h
  split at h
  · rename_i hc
    unfold Weight.covers at hc
    rw [allGte_iff] at hc
    obtain ⟨h1, h2⟩ := hc
    obtain ⟨a, b⟩ := w
    dsimp only at h1 h2
    exact absurd (by congr 1 <;> omega) hw0
  · split at h
    · cases h
    · split at h
      · cases h
      · rename_i pre origin rest hc
        obtain ⟨e1, e2, e3⟩ := computeOrigin_some _ _ _ hc
        cases ht : topLevelPaid skip w rest with
        | some r =>
          rw [ht] at h
          simp only [Option.some_or, Option.map_some, Option.some.injEq] at h
          subst h
          obtain ⟨load, sk, lim, re, h1, h2, h3, h4, h5⟩ := topLevelPaid_some ht
          exact .inl ⟨pre, load, sk, lim, re, e2, h1, h2, by rw [e1, h3]; simp, h4, by rw [h5]; simp⟩
        | none =>
          rw [ht] at h
          simp only [Option.none_or] at h
          right
          cases hu : explicitUnpaid origin w rest with
          | none => rw [hu] at h; cases h
          | some r =>
            rw [hu] at h
            obtain rfl := Option.some.inj h
            unfold explicitUnpaid at hu
            split at hu
            · rename_i hp
              rw [parentOrExecutive_iff] at hp
              have hp1 : origin.parents = 1 := by rcases hp with rfl | ⟨_, rfl⟩ <;> rfl
              rcases e3 with ⟨e3, ext, rfl⟩ | h3 | h3
              · refine ⟨extension_relay hp, ?_⟩
                split at hu
                · obtain rfl := Option.some.inj hu
                  exact ⟨⟨pre, _, _, _, e3, .inl rfl, e1⟩, e1.symm⟩
                · split at hu
                  · rename_i hg
                    obtain rfl := Option.some.inj hu
                    exact ⟨⟨pre, _, _, _, e3, .inr ⟨_, rfl, (allGte_iff _ _).mp hg⟩, e1⟩, e1.symm⟩
                  · cases hu
                · cases hu
              · rw [h3] at hp1; exact absurd hp1 (by decide)
              · rw [h3] at hp1; exact absurd hp1 (by decide)
            · cases hu

/-- C92: in particular nothing from a parachain, or from anything inside it, ever runs for free. -/
theorem C92_parachains_pay (skip : Instr → Bool) (self : UInt32) (p : UInt32) (inside : List Junction)
    (msg out : List Instr) (w : Weight) (hw : messageWeight msg = some w) (hw0 : w ≠ ⟨0, 0⟩)
    (h : admit skip self ⟨1, .parachain p :: inside⟩ msg ⟨0, 0⟩ = some out) : Pays w msg out := by
  rcases C92_pays_or_relay _ _ _ _ _ _ hw hw0 h with h | ⟨h, _⟩
  · exact h
  · rcases h with h | ⟨_, h⟩ <;> simp at h

theorem mem_flatten {i : Instr} {msg : List Instr} (h : i ∈ msg) : i ∈ flatten msg := by
  induction msg with
  | nil => cases h
  | cons j rest ih =>
    unfold flatten
    rcases List.mem_cons.mp h with rfl | h
    · exact List.mem_cons_self
    · exact List.mem_cons_of_mem _ (List.mem_append_right _ (ih h))

theorem sum_zero_mem {l : List Nat} (h : l.sum = 0) {x : Nat} (hx : x ∈ l) : x = 0 := by
  induction l with
  | nil => cases hx
  | cons a t ih =>
    rw [List.sum_cons] at h
    rcases List.mem_cons.mp hx with rfl | hx
    · omega
    · exact ih (by omega) hx

theorem satMul_zero {w : Weight} {n : Nat} (hw : 0 < w.refTime) (h : (Weight.satMul w n).refTime = 0) : n = 0 := by
  by_contra hn
  have h1 : 1 * 1 ≤ w.refTime * n := Nat.mul_le_mul hw (by omega)
  have h2 : 0 < u64Max := by decide +kernel
  unfold Weight.satMul at h
  dsimp only at h
  have h3 : min u64Max (w.refTime * n) = 0 := h
  generalize u64Max = m at *
  omega

theorem weigh_zero {w : Weight} {f : AssetFilter} (hw : 0 < w.refTime) (h : (f.weigh w).refTime = 0) :
    f = .definite 0 ∨ f = .allCounted 0 ∨ f = .allOfCounted 0 := by
  cases f <;> unfold AssetFilter.weigh at h <;> dsimp only at h
  · exact .inl (by rw [satMul_zero hw h])
  · exact absurd (satMul_zero hw h) (by decide)
  · omega
  · exact absurd (satMul_zero hw h) (by decide)
  · rename_i n
    have := satMul_zero hw h
    have hz : n = 0 := by
      have h3 : min maxAssets n = 0 := this
      unfold maxAssets at h3
      omega
    exact .inr (.inl (by rw [hz]))
  · rename_i n
    have := satMul_zero hw h
    have hz : n = 0 := by
      have h3 : min maxAssets n = 0 := this
      unfold maxAssets at h3
      omega
    exact .inr (.inr (by rw [hz]))

/-- C92: and a message that weighs nothing does nothing: each of its instructions is about no asset at all. -/
theorem C92_weightless (msg : List Instr) (h : messageWeight msg = some ⟨0, 0⟩) :
    ∀ i ∈ msg, i = .withdrawAsset 0 ∨ i = .receiveTeleportedAsset 0 ∨ i = .transferAsset 0 ∨ i = .transferReserveAsset 0 ∨
      i = .burnAsset 0 ∨ i = .expectAsset 0 ∨
      ∃ f, (f = .definite 0 ∨ f = .allCounted 0 ∨ f = .allOfCounted 0) ∧
        (i = .depositAsset f ∨ i = .depositReserveAsset f ∨ i = .initiateReserveWithdraw f ∨ i = .initiateTeleport f) := by
  intro i hi
  have hs := (C91_sum_partial msg _ h).1
  have h0 : i.mayUse.refTime = 0 := sum_zero_mem hs.symm (List.mem_map.mpr ⟨i, mem_flatten hi, rfl⟩)
  cases i
  case withdrawAsset n => rw [satMul_zero (w := Fungible.withdrawAsset) (by decide +kernel) h0]; simp
  case receiveTeleportedAsset n => rw [satMul_zero (w := Fungible.receiveTeleportedAsset) (by decide +kernel) h0]; simp
  case transferAsset n => rw [satMul_zero (w := Fungible.transferAsset) (by decide +kernel) h0]; simp
  case transferReserveAsset n => rw [satMul_zero (w := Fungible.transferReserveAsset) (by decide +kernel) h0]; simp
  case burnAsset n => rw [satMul_zero (w := Generic.burnAsset) (by decide +kernel) h0]; simp
  case expectAsset n => rw [satMul_zero (w := Generic.expectAsset) (by decide +kernel) h0]; simp
  case depositReserveAsset f => simp [weigh_zero (w := Fungible.depositReserveAsset) (by decide +kernel) h0]
  case initiateReserveWithdraw f => simp [weigh_zero (w := Generic.initiateReserveWithdraw) (by decide +kernel) h0]
  case initiateTeleport f => simp [weigh_zero (w := Fungible.initiateTeleport) (by decide +kernel) h0]
  case depositAsset f =>
    have h1 : min 1000000000 (f.weigh Fungible.depositAsset).refTime = 0 := h0
    simp [weigh_zero (w := Fungible.depositAsset) (f := f) (by decide +kernel) (by omega)]
  case transact k b =>
    have h1 : Generic.transact.refTime + b.refTime = 0 := h0
    have h2 : 0 < Generic.transact.refTime := by decide +kernel
    omega
  all_goals
    exfalso
    revert h0
    simp only [Instr.mayUse, Instr.weight]
    decide +kernel

/-! ## C93 -/

/-- The origin register always holds nothing or the sender's location extended inwards. -/
def Within (sender : Location) (o : Option Location) : Prop :=
  o = none ∨ ∃ ext, o = some ⟨sender.parents, sender.interior ++ ext⟩

theorem failed_origin (vm : Vm) : vm.failed.origin = vm.origin := by
  unfold Vm.failed
  split <;> rfl

theorem effect_within {sender : Location} {vm : Vm} (h : Within sender vm.origin) {i : Instr} {vm' : Vm}
    {os : List CallOrigin} (he : vm.effect i = some (vm', os)) :
    Within sender vm'.origin ∧
      ∀ o ∈ os, ∃ ext k, convertOrigin ⟨sender.parents, sender.interior ++ ext⟩ k = some o := by
  unfold Vm.effect at he
  split at he
  · cases he; exact ⟨.inl rfl, by simp⟩
  · split at he
    · cases he
    · rename_i l hl
      split at he
      · cases he
      · rename_i l' hl'
        cases he
        refine ⟨?_, by simp⟩
        unfold Location.append at hl'
        split at hl'
        · obtain rfl := Option.some.inj hl'
          rcases h with h | ⟨ext, h⟩
          · rw [hl] at h; cases h
          · rw [hl] at h
            obtain rfl := Option.some.inj h
            exact .inr ⟨ext ++ _, by rw [List.append_assoc]⟩
        · cases hl'
  · cases he
  · cases he
  · cases he; exact ⟨h, by simp⟩
  · cases he; exact ⟨h, by simp⟩
  · split at he
    · cases he
    · rename_i l hl
      split at he
      · cases he
      · rename_i o ho
        cases he
        refine ⟨h, ?_⟩
        rintro o' ho'
        obtain rfl := List.mem_singleton.mp ho'
        rcases h with h | ⟨ext, h⟩
        · rw [hl] at h; cases h
        · rw [hl] at h
          obtain rfl := Option.some.inj h
          exact ⟨ext, _, ho⟩
  · cases he; exact ⟨h, by simp⟩

theorem run_within {sender : Location} : ∀ (bs : List Bool) (vm : Vm), Within sender vm.origin →
    ∀ o ∈ vm.run bs, ∃ ext k, convertOrigin ⟨sender.parents, sender.interior ++ ext⟩ k = some o := by
  intro bs
  induction bs with
  | nil => intro vm _ o ho; simp [Vm.run] at ho
  | cons b bs ih =>
    intro vm h o ho
    have step : Within sender (vm.step b).1.origin ∧
        ∀ o ∈ (vm.step b).2, ∃ ext k, convertOrigin ⟨sender.parents, sender.interior ++ ext⟩ k = some o := by
      unfold Vm.step
      split
      · exact ⟨h, by simp⟩
      · split
        · exact ⟨by rw [failed_origin]; exact h, by simp⟩
        · split
          · exact ⟨by rw [failed_origin]; exact h, by simp⟩
          · rename_i r hr
            obtain ⟨vm', os⟩ := r
            exact effect_within (by exact h) hr
    unfold Vm.run at ho
    rcases List.mem_append.mp ho with ho | ho
    · exact step.2 o ho
    · exact ih _ step.1 o ho

theorem start_within (sender : Location) (msg : List Instr) (fails : List Bool) :
    ∀ o ∈ (Vm.start sender msg).run fails,
      ∃ ext k, convertOrigin ⟨sender.parents, sender.interior ++ ext⟩ k = some o :=
  run_within fails _ (.inr ⟨[], by rw [List.append_nil]; rfl⟩)

/-- What the converters can give for a location. -/
theorem convert_cases {l : Location} {k : OriginKind} {o : CallOrigin} (h : convertOrigin l k = some o) :
    (∃ a, o = .signed a ∧ locationToAccount l = some a) ∨ (o = .relay ∧ l = ⟨1, []⟩) ∨
      (∃ id, o = .siblingPara id ∧ l = ⟨1, [.parachain id]⟩) ∨ o = .xcm l := by
  unfold convertOrigin at h
  cases k
  · -- native
    simp only [sovereignSigned, Option.none_or, xcmPassthrough, Option.or_none] at h
    by_cases hp : l = ⟨1, []⟩
    · simp only [relayAsNative, if_pos hp, Option.some_or] at h
      exact .inr (.inl ⟨(Option.some.inj h).symm, hp⟩)
    · simp only [relayAsNative, if_neg hp, Option.none_or] at h
      cases hs : siblingAsNative l .native with
      | some o' =>
        rw [hs] at h
        simp only [Option.some_or, Option.some.injEq] at h
        subst h
        unfold siblingAsNative at hs
        obtain ⟨p, i⟩ := l
        dsimp only at hs
        split at hs
        · exact .inr (.inr (.inl ⟨_, (Option.some.inj hs).symm, rfl⟩))
        · cases hs
      | none =>
        rw [hs] at h
        simp only [Option.none_or] at h
        unfold accountAsNative at h
        obtain ⟨p, i⟩ := l
        dsimp only at h
        split at h
        · split at h
          · rename_i hn
            refine .inl ⟨_, (Option.some.inj h).symm, ?_⟩
            rw [C71_who_has_an_account]
            exact .inr (.inr (.inr (.inr ⟨_, rfl, hn⟩)))
          · cases h
        · cases h
  · -- sovereign
    cases ha : locationToAccount l with
    | none =>
      simp [sovereignSigned, ha, relayAsNative, siblingAsNative, accountAsNative, xcmPassthrough] at h
    | some a =>
      simp only [sovereignSigned, ha, Option.map_some, Option.some_or, Option.some.injEq] at h
      exact .inl ⟨a, h.symm, rfl⟩
  · simp [sovereignSigned, relayAsNative, siblingAsNative, accountAsNative, xcmPassthrough] at h
  · simp [sovereignSigned, relayAsNative, siblingAsNative, accountAsNative, xcmPassthrough] at h
    exact .inr (.inr (.inr h.symm))

/-- C93: whoever the sender, whatever the message, however it fails on the way: no call is dispatched as root or as a
community, and every origin is one of a location inside the sender's. -/
theorem C93_never_root (sender : Location) (msg : List Instr) (fails : List Bool) :
    ∀ o ∈ (Vm.start sender msg).run fails, o ≠ .root ∧ (∀ c, o ≠ .community c) ∧
      ∀ l, o = .xcm l → l.parents = sender.parents ∧ sender.interior <+: l.interior := by
  intro o ho
  obtain ⟨ext, k, hc⟩ := start_within _ msg fails o ho
  rcases convert_cases hc with ⟨a, rfl, _⟩ | ⟨rfl, _⟩ | ⟨id, rfl, _⟩ | rfl
  · exact ⟨by simp, by simp, by simp⟩
  · exact ⟨by simp, by simp, by simp⟩
  · exact ⟨by simp, by simp, by simp⟩
  · refine ⟨by simp, by simp, ?_⟩
    intro l hl
    cases hl
    exact ⟨rfl, List.prefix_append _ _⟩

/-- C93: a parachain acts as its own account or as itself, and as nothing else. -/
theorem C93_parachain (p : UInt32) (msg : List Instr) (fails : List Bool) :
    ∀ o ∈ (Vm.start ⟨1, [.parachain p]⟩ msg).run fails,
      o = .signed (siblingAccount p) ∨ o = .siblingPara p ∨ ∃ ext, o = .xcm ⟨1, .parachain p :: ext⟩ := by
  intro o ho
  obtain ⟨ext, k, hc⟩ := start_within _ msg fails o ho
  rcases convert_cases hc with ⟨a, rfl, h⟩ | ⟨rfl, h⟩ | ⟨id, rfl, h⟩ | rfl
  · rw [C71_who_has_an_account] at h
    left
    rcases h with ⟨h, _⟩ | ⟨id, h, rfl⟩ | ⟨_, _, h, _⟩ | ⟨_, h, _⟩ | ⟨_, h, _⟩ <;> simp at h
    rw [h.1]
  · simp at h
  · simp at h
    exact .inr (.inl (by rw [h.1]))
  · exact .inr (.inr ⟨ext, rfl⟩)

/-- C93: anything inside a parachain (its users, contracts and pallets) has no account and no native origin here. -/
theorem C93_inside_parachain (p : UInt32) (j : Junction) (more : List Junction) (msg : List Instr) (fails : List Bool) :
    ∀ o ∈ (Vm.start ⟨1, .parachain p :: j :: more⟩ msg).run fails,
      ∃ ext, o = .xcm ⟨1, .parachain p :: j :: more ++ ext⟩ := by
  intro o ho
  obtain ⟨ext, k, hc⟩ := start_within _ msg fails o ho
  rcases convert_cases hc with ⟨a, rfl, h⟩ | ⟨rfl, h⟩ | ⟨id, rfl, h⟩ | rfl
  · rw [C71_who_has_an_account] at h
    rcases h with ⟨h, _⟩ | ⟨id, h, rfl⟩ | ⟨_, _, h, _⟩ | ⟨_, h, _⟩ | ⟨_, h, _⟩ <;> simp at h
  · simp at h
  · simp at h
  · exact ⟨ext, rfl⟩

/-- C93: an account of the relay chain acts as the account with the same bytes, and as nothing else. -/
theorem C93_relay_account (n : Option NetworkId) (a : AccountId) (msg : List Instr) (fails : List Bool) :
    ∀ o ∈ (Vm.start ⟨1, [.accountId32 n a]⟩ msg).run fails,
      (o = .signed a ∧ (n = none ∨ n = some .kusama)) ∨ ∃ ext, o = .xcm ⟨1, .accountId32 n a :: ext⟩ := by
  intro o ho
  obtain ⟨ext, k, hc⟩ := start_within _ msg fails o ho
  rcases convert_cases hc with ⟨a', rfl, h⟩ | ⟨rfl, h⟩ | ⟨id, rfl, h⟩ | rfl
  · rw [C71_who_has_an_account] at h
    rcases h with ⟨h, _⟩ | ⟨id, h, rfl⟩ | ⟨_, _, h, _⟩ | ⟨n', h, hn⟩ | ⟨_, h, _⟩ <;> simp at h
    obtain ⟨⟨rfl, rfl⟩, _⟩ := h
    exact .inl ⟨rfl, hn⟩
  · simp at h
  · simp at h
  · exact .inr ⟨ext, rfl⟩

/-- C93: a local account acts as itself, and as nothing else. -/
theorem C93_local_account (n : Option NetworkId) (a : AccountId) (msg : List Instr) (fails : List Bool) :
    ∀ o ∈ (Vm.start ⟨0, [.accountId32 n a]⟩ msg).run fails,
      (o = .signed a ∧ (n = none ∨ n = some .kusama)) ∨ ∃ ext, o = .xcm ⟨0, .accountId32 n a :: ext⟩ := by
  intro o ho
  obtain ⟨ext, k, hc⟩ := start_within _ msg fails o ho
  rcases convert_cases hc with ⟨a', rfl, h⟩ | ⟨rfl, h⟩ | ⟨id, rfl, h⟩ | rfl
  · rw [C71_who_has_an_account] at h
    rcases h with ⟨h, _⟩ | ⟨id, h, rfl⟩ | ⟨_, _, h, _⟩ | ⟨n', h, hn⟩ | ⟨_, h, hn⟩ <;> simp at h
    obtain ⟨⟨rfl, rfl⟩, _⟩ := h
    exact .inl ⟨rfl, hn⟩
  · simp at h
  · simp at h
  · exact .inr ⟨ext, rfl⟩

/-- C93: after `ClearOrigin` nothing is dispatched any more. -/
theorem C93_cleared (code handler appendix : List Instr) (fails : List Bool) :
    (Vm.mk none code handler appendix).run fails = [] := by
  have key : ∀ bs (vm : Vm), vm.origin = none → vm.run bs = [] := by
    intro bs
    induction bs with
    | nil => intro vm _; rfl
    | cons b bs ih =>
      intro vm h
      have step : (vm.step b).1.origin = none ∧ (vm.step b).2 = [] := by
        unfold Vm.step
        split
        · exact ⟨h, rfl⟩
        · split
          · exact ⟨by rw [failed_origin]; exact h, rfl⟩
          · split
            · exact ⟨by rw [failed_origin]; exact h, rfl⟩
            · rename_i r hr
              obtain ⟨vm', os⟩ := r
              unfold Vm.effect at hr
              dsimp only at hr
              rw [h] at hr
              split at hr <;> first | cases hr <;> exact ⟨by first | exact h | rfl, rfl⟩ | cases hr
      unfold Vm.run
      rw [step.2, ih _ step.1]
      rfl
  exact key fails _ rfl

/-! ## Examples -/

/-- Superuser is refused, and the handler then acts as the sibling's account. -/
example : (Vm.start ⟨1, [.parachain 1000]⟩ [.setErrorHandler [.transact .sovereignAccount ⟨1, 1⟩],
    .transact .superuser ⟨1, 1⟩]).run [false, false, false] = [.signed (siblingAccount 1000)] := by decide +kernel
/-- A paid message from a sibling is admitted, its limit set to its weight. -/
example : ∃ out w, messageWeight [.withdrawAsset 1, .clearOrigin, .buyExecution .unlimited] = some w ∧ w ≠ ⟨0, 0⟩ ∧
    barrier (fun i => match i with | .clearOrigin => true | _ => false) 2281 ⟨1, [.parachain 1000]⟩
      [.withdrawAsset 1, .clearOrigin, .buyExecution .unlimited] w ⟨0, 0⟩ = some out := by
  simp only [messageWeight, weighFrom_eq, weighAll, weighOne]
  exact ⟨_, _, rfl, by decide, rfl⟩
/-- The relay chain runs for free. -/
example : barrier (fun _ => false) 2281 ⟨1, []⟩ [.unpaidExecution .unlimited none, .trap] ⟨5698000, 0⟩ ⟨0, 0⟩ =
    some [.unpaidExecution .unlimited none, .trap] := rfl
example : messageWeight [.unpaidExecution .unlimited none, .trap] = some ⟨5698000, 0⟩ := by
  simp only [messageWeight, weighFrom_eq, weighAll, weighOne]
  decide +kernel

end Verif.Xcm
