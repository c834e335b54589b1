import Verif.Runtime.Storage
import Verif.Ids.PaymentIdTheorems

/-!
# Lemmas about the stored encodings
-/

namespace Verif.Runtime

open Verif Verif.Accounts

set_option linter.unusedSimpArgs false

theorem Codec.Ok.bind {α γ : Type} {c : Codec α} {n : Nat} (h : c.Ok n) {i : List UInt8}
    {f : α × List UInt8 → Option γ} {g : γ} (e : (c.dec i).bind f = some g) :
    ∃ a r, i = c.enc a ++ r ∧ f (a, r) = some g := by
  obtain ⟨⟨a, r⟩, h1, h2⟩ := Option.bind_eq_some_iff.1 e
  exact ⟨a, r, h.only h1, h2⟩

theorem u32C_enc (n : UInt32) : u32C.enc n = leBytes 4 n.toNat := rfl

theorem u8C_enc (n : UInt8) : u8C.enc n = leBytes 1 n.toNat := rfl

attribute [local irreducible] u8C u16C u32C u64C u128C

theorem paraC_ok : paraC.Ok 7 := by
  refine ⟨fun a rest => ?_, fun {input a rest} h => ?_, fun a => ?_⟩
  · simp only [paraC, List.append_assoc, u16C_ok.back, u8C_ok.back, u32C_ok.back, Option.bind_eq_bind, Option.bind_some]
  · simp only [paraC, Option.bind_eq_bind] at h
    obtain ⟨a1, r1, e1, h1⟩ := Codec.Ok.bind u16C_ok h
    obtain ⟨a2, r2, e2, h2⟩ := Codec.Ok.bind u8C_ok h1
    obtain ⟨a3, r3, e3, h3⟩ := Codec.Ok.bind u32C_ok h2
    cases h3
    dsimp only at e2 e3
    rw [e1, e2, e3]
    simp only [paraC, List.append_assoc]
  · have := u16C_ok.len a.id
    have := u8C_ok.len a.pallet
    have := u32C_ok.len a.index
    simp only [paraC, List.length_append]
    omega

theorem networkC_ok : networkC.Ok 9 := by
  refine ⟨fun a rest => ?_, fun {input a rest} h => ?_, fun a => ?_⟩
  · cases a <;> simp only [networkC, List.cons_append, List.nil_append, List.append_assoc, u64C_ok.back, Option.bind_eq_bind, Option.bind_some]
  · simp only [networkC, Option.bind_eq_bind] at h
    split at h
    · cases h; rfl
    · cases h; rfl
    · obtain ⟨a1, r1, e1, h1⟩ := Codec.Ok.bind u64C_ok h
      cases h1
      rw [e1]
      simp only [networkC, List.cons_append, List.append_assoc]
    · cases h
  · cases a with
    | ethereum x0 =>
      have := u64C_ok.len x0
      simp only [networkC, List.length_cons, List.length_append]
      omega
    | _ => simp [networkC]

theorem childC_ok : (optionC paraC).Ok 8 := optionC_ok paraC_ok

theorem assetIdC_ok : assetIdC.Ok 18 := by
  refine ⟨fun a rest => ?_, fun {input a rest} h => ?_, fun a => ?_⟩
  · cases a <;> simp only [assetIdC, List.cons_append, List.nil_append, List.append_assoc, u32C_ok.back, paraC_ok.back, networkC_ok.back, childC_ok.back, Option.bind_eq_bind, Option.bind_some]
  · simp only [assetIdC, Option.bind_eq_bind] at h
    split at h
    · obtain ⟨a1, r1, e1, h1⟩ := Codec.Ok.bind u32C_ok h
      cases h1
      rw [e1]
      simp only [assetIdC, List.cons_append, List.append_assoc]
    · obtain ⟨a1, r1, e1, h1⟩ := Codec.Ok.bind paraC_ok h
      cases h1
      rw [e1]
      simp only [assetIdC, List.cons_append, List.append_assoc]
    · obtain ⟨a1, r1, e1, h1⟩ := Codec.Ok.bind networkC_ok h
      obtain ⟨a2, r2, e2, h2⟩ := Codec.Ok.bind childC_ok h1
      cases h2
      dsimp only at e2
      rw [e1, e2]
      simp only [assetIdC, List.cons_append, List.append_assoc]
    · cases h
  · cases a with
    | here x0 =>
      have := u32C_ok.len x0
      simp only [assetIdC, List.length_cons, List.length_append]
      omega
    | sibling x0 =>
      have := paraC_ok.len x0
      simp only [assetIdC, List.length_cons, List.length_append]
      omega
    | external x0 x1 =>
      have := networkC_ok.len x0
      have := childC_ok.len x1
      simp only [assetIdC, List.length_cons, List.length_append]
      omega

theorem stateC_ok : stateC.Ok 1 := by
  refine ⟨fun a rest => ?_, fun {input a rest} h => ?_, fun a => ?_⟩
  · cases a <;> rfl
  · simp only [stateC] at h
    split at h
    · cases h; rfl
    · cases h; rfl
    · cases h
  · cases a <;> simp [stateC]

theorem methodC_ok : methodC.Ok 35 := by
  refine ⟨fun a rest => ?_, fun {input a rest} h => ?_, fun a => ?_⟩
  · cases a <;> simp only [methodC, List.cons_append, List.nil_append, List.append_assoc, assetIdC_ok.back, u128C_ok.back, Option.bind_eq_bind, Option.bind_some]
  · simp only [methodC, Option.bind_eq_bind] at h
    split at h
    · cases h; rfl
    · cases h; rfl
    · obtain ⟨a1, r1, e1, h1⟩ := Codec.Ok.bind assetIdC_ok h
      obtain ⟨a2, r2, e2, h2⟩ := Codec.Ok.bind u128C_ok h1
      cases h2
      dsimp only at e2
      rw [e1, e2]
      simp only [methodC, List.cons_append, List.append_assoc]
    · cases h; rfl
    · cases h
  · cases a with
    | communityAsset x0 x1 =>
      have := assetIdC_ok.len x0
      have := u128C_ok.len x1
      simp only [methodC, List.length_cons, List.length_append]
      omega
    | _ => simp [methodC]

theorem voteC_ok : voteC.Ok 36 := by
  refine ⟨fun a rest => ?_, fun {input a rest} h => ?_, fun a => ?_⟩
  · cases a <;> simp only [voteC, List.cons_append, List.nil_append, List.append_assoc, boolC_ok.back, assetIdC_ok.back, u128C_ok.back, Option.bind_eq_bind, Option.bind_some]
  · simp only [voteC, Option.bind_eq_bind] at h
    split at h
    · obtain ⟨a1, r1, e1, h1⟩ := Codec.Ok.bind boolC_ok h
      obtain ⟨a2, r2, e2, h2⟩ := Codec.Ok.bind assetIdC_ok h1
      obtain ⟨a3, r3, e3, h3⟩ := Codec.Ok.bind u128C_ok h2
      cases h3
      dsimp only at e2 e3
      rw [e1, e2, e3]
      simp only [voteC, List.cons_append, List.append_assoc]
    · obtain ⟨a1, r1, e1, h1⟩ := Codec.Ok.bind boolC_ok h
      obtain ⟨a2, r2, e2, h2⟩ := Codec.Ok.bind u128C_ok h1
      cases h2
      dsimp only at e2
      rw [e1, e2]
      simp only [voteC, List.cons_append, List.append_assoc]
    · obtain ⟨a1, r1, e1, h1⟩ := Codec.Ok.bind boolC_ok h
      cases h1
      rw [e1]
      simp only [voteC, List.cons_append, List.append_assoc]
    · cases h
  · cases a with
    | asset x0 x1 x2 =>
      have := boolC_ok.len x0
      have := assetIdC_ok.len x1
      have := u128C_ok.len x2
      simp only [voteC, List.length_cons, List.length_append]
      omega
    | native x0 x1 =>
      have := boolC_ok.len x0
      have := u128C_ok.len x1
      simp only [voteC, List.length_cons, List.length_append]
      omega
    | standard x0 =>
      have := boolC_ok.len x0
      simp only [voteC, List.length_cons, List.length_append]
      omega

theorem tallyC_ok : tallyC.Ok 12 := by
  refine ⟨fun a rest => ?_, fun {input a rest} h => ?_, fun a => ?_⟩
  · simp only [tallyC, List.append_assoc, u32C_ok.back, Option.bind_eq_bind, Option.bind_some]
  · simp only [tallyC, Option.bind_eq_bind] at h
    obtain ⟨a1, r1, e1, h1⟩ := Codec.Ok.bind u32C_ok h
    obtain ⟨a2, r2, e2, h2⟩ := Codec.Ok.bind u32C_ok h1
    obtain ⟨a3, r3, e3, h3⟩ := Codec.Ok.bind u32C_ok h2
    cases h3
    dsimp only at e2 e3
    rw [e1, e2, e3]
    simp only [tallyC, List.append_assoc]
  · have := u32C_ok.len a.ayes
    have := u32C_ok.len a.nays
    have := u32C_ok.len a.bareAyes
    simp only [tallyC, List.length_append]
    omega

theorem permillC_ok : permillC.Ok 4 := by
  have hb : ∀ p : Fin (permill + 1), leBytes 4 p.val = u32C.enc (UInt32.ofNat p.val) ∧ (UInt32.ofNat p.val).toNat = p.val := by
    intro p
    have h : p.val < 2 ^ 32 := Nat.lt_of_lt_of_le p.2 (by decide)
    have e : (UInt32.ofNat p.val).toNat = p.val := by simp at h ⊢; omega
    exact ⟨by rw [u32C_enc, e], e⟩
  refine ⟨fun a rest => ?_, fun {input a rest} h => ?_, fun a => ?_⟩
  · simp only [permillC, (hb a).1, u32C_ok.back, Option.bind_eq_bind, Option.bind_some, (hb a).2]
    rw [dif_pos a.2]
  · simp only [permillC, Option.bind_eq_bind] at h
    obtain ⟨n, r, e, h⟩ := Codec.Ok.bind u32C_ok h
    dsimp only at h
    split at h
    · cases h
      rw [e, u32C_enc]
      rfl
    · cases h
  · simp [permillC]

theorem subsetC_ok : subsetC.Ok 5 := by
  refine ⟨fun a rest => ?_, fun {input a rest} h => ?_, fun a => ?_⟩
  · cases a <;> simp only [subsetC, List.cons_append, List.nil_append, List.append_assoc, u32C_ok.back, permillC_ok.back, u8C_ok.back, Option.bind_eq_bind, Option.bind_some]
  · simp only [subsetC, Option.bind_eq_bind] at h
    split at h
    · obtain ⟨a1, r1, e1, h1⟩ := Codec.Ok.bind u32C_ok h
      cases h1
      rw [e1]
      simp only [subsetC, List.cons_append, List.append_assoc]
    · obtain ⟨a1, r1, e1, h1⟩ := Codec.Ok.bind u32C_ok h
      cases h1
      rw [e1]
      simp only [subsetC, List.cons_append, List.append_assoc]
    · obtain ⟨a1, r1, e1, h1⟩ := Codec.Ok.bind permillC_ok h
      cases h1
      rw [e1]
      simp only [subsetC, List.cons_append, List.append_assoc]
    · obtain ⟨a1, r1, e1, h1⟩ := Codec.Ok.bind u8C_ok h
      cases h1
      rw [e1]
      simp only [subsetC, List.cons_append, List.append_assoc]
    · cases h
  · cases a with
    | member x0 =>
      have := u32C_ok.len x0
      simp only [subsetC, List.length_cons, List.length_append]
      omega
    | members x0 =>
      have := u32C_ok.len x0
      simp only [subsetC, List.length_cons, List.length_append]
      omega
    | fraction x0 =>
      have := permillC_ok.len x0
      simp only [subsetC, List.length_cons, List.length_append]
      omega
    | atLeastRank x0 =>
      have := u8C_ok.len x0
      simp only [subsetC, List.length_cons, List.length_append]
      omega

theorem subsetsC_ok : (optionC subsetC).Ok 6 := optionC_ok subsetC_ok

theorem communityOriginC_ok : communityOriginC.Ok 8 := by
  refine ⟨fun a rest => ?_, fun {input a rest} h => ?_, fun a => ?_⟩
  · simp only [communityOriginC, List.append_assoc, u16C_ok.back, subsetsC_ok.back, Option.bind_eq_bind, Option.bind_some]
  · simp only [communityOriginC, Option.bind_eq_bind] at h
    obtain ⟨a1, r1, e1, h1⟩ := Codec.Ok.bind u16C_ok h
    obtain ⟨a2, r2, e2, h2⟩ := Codec.Ok.bind subsetsC_ok h1
    cases h2
    dsimp only at e2
    rw [e1, e2]
    simp only [communityOriginC, List.append_assoc]
  · have := u16C_ok.len a.community
    have := subsetsC_ok.len a.subset
    simp only [communityOriginC, List.length_append]
    omega

theorem pstateC_ok : pstateC.Ok 5 := by
  refine ⟨fun a rest => ?_, fun {input a rest} h => ?_, fun a => ?_⟩
  · cases a <;> simp only [pstateC, List.cons_append, List.nil_append, List.append_assoc, u32C_ok.back, Option.bind_eq_bind, Option.bind_some]
  · simp only [pstateC, Option.bind_eq_bind] at h
    split at h
    · cases h; rfl
    · cases h; rfl
    · obtain ⟨a1, r1, e1, h1⟩ := Codec.Ok.bind u32C_ok h
      cases h1
      rw [e1]
      simp only [pstateC, List.cons_append, List.append_assoc]
    · cases h; rfl
    · cases h; rfl
    · cases h
  · cases a with
    | refundRequested x0 =>
      have := u32C_ok.len x0
      simp only [pstateC, List.length_cons, List.length_append]
      omega
    | _ => simp [pstateC]

theorem feeC_ok : feeC.Ok 49 := pairC_ok (bytesC_ok 32) (pairC_ok u128C_ok boolC_ok)

theorem feesC_ok : (boundedC maxFees feeC).Ok 2451 := boundedC_ok (by decide) feeC_ok

theorem accC_ok : (bytesC 32).Ok 32 := bytesC_ok 32

theorem paymentC_ok : paymentC.Ok 4989 := by
  refine ⟨fun a rest => ?_, fun {input a rest} h => ?_, fun a => ?_⟩
  · simp only [paymentC, List.append_assoc, assetIdC_ok.back, u128C_ok.back, accC_ok.back, pstateC_ok.back, feesC_ok.back, Option.bind_eq_bind, Option.bind_some]
  · simp only [paymentC, Option.bind_eq_bind] at h
    obtain ⟨a1, r1, e1, h1⟩ := Codec.Ok.bind assetIdC_ok h
    obtain ⟨a2, r2, e2, h2⟩ := Codec.Ok.bind u128C_ok h1
    obtain ⟨a3, r3, e3, h3⟩ := Codec.Ok.bind accC_ok h2
    obtain ⟨a4, r4, e4, h4⟩ := Codec.Ok.bind u128C_ok h3
    obtain ⟨a5, r5, e5, h5⟩ := Codec.Ok.bind pstateC_ok h4
    obtain ⟨a6, r6, e6, h6⟩ := Codec.Ok.bind feesC_ok h5
    obtain ⟨a7, r7, e7, h7⟩ := Codec.Ok.bind feesC_ok h6
    cases h7
    dsimp only at e2 e3 e4 e5 e6 e7
    rw [e1, e2, e3, e4, e5, e6, e7]
    simp only [paymentC, List.append_assoc]
  · have := assetIdC_ok.len a.asset
    have := u128C_ok.len a.amount
    have := accC_ok.len a.beneficiary
    have := u128C_ok.len a.incentive
    have := pstateC_ok.len a.state
    have := feesC_ok.len a.senderPays
    have := feesC_ok.len a.beneficiaryPays
    simp only [paymentC, List.length_append]
    omega

theorem percentC_ok : percentC.Ok 1 := by
  have hb : ∀ p : Fin 101, leBytes 1 p.val = u8C.enc (UInt8.ofNat p.val) ∧ (UInt8.ofNat p.val).toNat = p.val := by
    intro p
    have h : p.val < 256 := Nat.lt_of_lt_of_le p.2 (by decide)
    have e : (UInt8.ofNat p.val).toNat = p.val := by simp; omega
    exact ⟨by rw [u8C_enc, e], e⟩
  refine ⟨fun a rest => ?_, fun {input a rest} h => ?_, fun a => ?_⟩
  · simp only [percentC, (hb a).1, u8C_ok.back, Option.bind_eq_bind, Option.bind_some, (hb a).2]
    rw [dif_pos a.2]
  · simp only [percentC, Option.bind_eq_bind] at h
    obtain ⟨n, r, e, h⟩ := Codec.Ok.bind u8C_ok h
    dsimp only at h
    split at h
    · cases h
      rw [e, u8C_enc]
      rfl
    · cases h
  · simp [percentC]

theorem roleC_ok : roleC.Ok 1 := by
  refine ⟨fun a rest => ?_, fun {input a rest} h => ?_, fun a => ?_⟩
  · cases a <;> rfl
  · simp only [roleC] at h
    split at h
    · cases h; rfl
    · cases h; rfl
    · cases h
  · cases a <;> simp [roleC]

theorem disputeC_ok : disputeC.Ok 2 := pairC_ok percentC_ok roleC_ok

theorem proxyTypeC_ok : proxyTypeC.Ok 1 := by
  refine ⟨fun a rest => ?_, fun {input a rest} h => ?_, fun a => ?_⟩
  · cases a <;> rfl
  · simp only [proxyTypeC] at h
    split at h
    · cases h; rfl
    · cases h; rfl
    · cases h; rfl
    · cases h; rfl
    · cases h; rfl
    · cases h; rfl
    · cases h; rfl
    · cases h
  · cases a <;> simp [proxyTypeC]

end Verif.Runtime
