import Verif.Accounts.Theorems
import Verif.Runtime.Fees
import Verif.Xcm.BarrierTheorems

/-!
# Who may deploy contracts, register passes and spend from the treasury
-/

namespace Verif.Accounts

open Verif Verif.Xcm

/-! ## C98: contracts -/

/-- The origins of the contracts pallet's dispatchables that deploy code (pallet_contracts, outside `/repo`):
`instantiate_with_code` asks for both the upload and the instantiate origin. Configured in
runtime/kreivo/src/contracts.rs 61-68. Answers the account charged for the upload and the one owning the instance. -/
def instantiateWithCodeOrigin (o : RtOrigin) : Option (AccountId × AccountId) :=
  (uploadOrigin o).bind fun u => (instantiateOrigin o).map fun i => (u, i)

/-- C98: code is uploaded only by root, on the treasury's account. -/
theorem C98_upload (o : RtOrigin) (a : AccountId) :
    uploadOrigin o = some a ↔ o = .root ∧ a = treasuryAccount := by
  unfold uploadOrigin
  split
  · rename_i h
    subst h
    simp [eq_comm]
  · rename_i h
    simp [h]

/-- C98: contracts are instantiated only by root, as the treasury, and by communities 1 (Virto) and 2 (Kippu), as
their own account. -/
theorem C98_instantiate (o : RtOrigin) (a : AccountId) :
    instantiateOrigin o = some a ↔
      (o = .root ∧ a = treasuryAccount) ∨
      ∃ c : CommunityOrigin UInt16 UInt32, o = .community c ∧ (c.community = 1 ∨ c.community = 2) ∧
        a = communityAccount c.community := by
  unfold instantiateOrigin
  cases o with
  | root => simp [eq_comm]
  | community c =>
    obtain ⟨id, sub⟩ := c
    by_cases h1 : id = 1
    · subst h1
      simp [asSignedByStaticCommunity, eq_comm]
    · by_cases h2 : id = 2
      · subst h2
        simp [asSignedByStaticCommunity, eq_comm]
      · simp [asSignedByStaticCommunity, h1, h2]
  | _ => simp [asSignedByStaticCommunity]

/-- C98: new code is uploaded and instantiated in one go only by root. -/
theorem C98_instantiate_with_code (o : RtOrigin) (r : AccountId × AccountId) :
    instantiateWithCodeOrigin o = some r ↔ o = .root ∧ r = (treasuryAccount, treasuryAccount) := by
  unfold instantiateWithCodeOrigin
  by_cases h : o = .root
  · subst h
    simp [uploadOrigin, instantiateOrigin, eq_comm]
  · simp [uploadOrigin, h]

/-- C98: no signed account deploys anything, not even the account of a community that may. -/
theorem C98_no_signer (a : AccountId) :
    uploadOrigin (.signed a) = none ∧ instantiateOrigin (.signed a) = none ∧
    instantiateWithCodeOrigin (.signed a) = none := by
  simp [uploadOrigin, instantiateOrigin, instantiateWithCodeOrigin, asSignedByStaticCommunity]

example : instantiateOrigin (.community ⟨2, none⟩) = some (communityAccount 2) ∧
    instantiateOrigin (.community ⟨3, none⟩) = none ∧
    instantiateOrigin (.signed (communityAccount 2)) = none ∧ uploadOrigin (.community ⟨2, none⟩) = none := by
  decide +kernel

/-! ## C99: registering passes -/

/-- `pallet_pass::DepositInformation`: who pays, how much, to whom. -/
structure Deposit where
  payer : AccountId
  amount : Nat
  receiver : AccountId
  deriving DecidableEq

/-- `EXISTENTIAL_DEPOSIT`: a tenth of the relay chain's, which is a cent. runtime/kreivo/src/constants.rs 21,
runtime/runtime-constants/src/lib.rs 30-41. -/
def existentialDeposit (cents : Nat) : Nat := cents / 10

/-- `EnsureRootWithSuccess<_, NeverPays>`: system_support.rs 132, 209. -/
def rootNeverPays : RtOrigin → Option (Option Deposit)
  | .root => some none
  | _ => none

/-- `CommunitiesDontDeposit::try_origin`: system_support.rs 169-186. -/
def communitiesDontDeposit (o : RtOrigin) : Option (Option Deposit) :=
  match asSignedByCommunity o with
  | some _ => some none
  | none => none

/-- `pallet_pass::EnsureSignedPays<Runtime, ExistentialDeposit, TreasuryAccount>`: system_support.rs 214-218. -/
def signedPays (cents : Nat) : RtOrigin → Option (Option Deposit)
  | .signed a => some (some ⟨a, existentialDeposit cents, treasuryAccount⟩)
  | _ => none

/-- `RegisterOrigin`: system_support.rs 207-220 (`EitherOf` tries the second when the first refuses). -/
def registerOrigin (cents : Nat) (o : RtOrigin) : Option (Option Deposit) :=
  (rootNeverPays o).or ((communitiesDontDeposit o).or (signedPays cents o))

/-- C99: root and communities register passes for free, signers pay exactly the existential deposit to the treasury
from their own account, everybody else is refused. -/
theorem C99_who_pays (cents : Nat) (o : RtOrigin) :
    registerOrigin cents o =
      match o with
      | .root => some none
      | .community _ => some none
      | .signed a => some (some ⟨a, existentialDeposit cents, treasuryAccount⟩)
      | _ => none := by
  cases o <;> rfl

/-- C99: so nobody ever pays for somebody else's pass, and payments go nowhere but the treasury. -/
theorem C99_own_deposit (cents : Nat) (o : RtOrigin) (d : Deposit) (h : registerOrigin cents o = some (some d)) :
    o = .signed d.payer ∧ d.amount = cents / 10 ∧ d.receiver = treasuryAccount := by
  rw [C99_who_pays] at h
  cases o <;> simp at h
  subst h
  exact ⟨rfl, rfl, rfl⟩

/-- C99: the deposit is never zero, whichever relay chain the runtime is built for. -/
theorem C99_deposit_positive :
    existentialDeposit Runtime.centsKusama = 33333333 ∧ existentialDeposit Runtime.centsPaseo = 10000000 := by
  decide +kernel

example : registerOrigin Runtime.centsKusama (.signed (communityAccount 1)) =
    some (some ⟨communityAccount 1, 33333333, treasuryAccount⟩) := by decide +kernel

/-! ## C100: the treasury's account -/

/-- The accounts an origin can make pay through the origin checks configured on Kreivo: contracts, payments and passes;
`dispatch_as_account` (pallets/communities/src/lib.rs 569-575) makes a community origin its account. -/
def SpendsAs (cents : Nat) (o : RtOrigin) (a : AccountId) : Prop :=
  uploadOrigin o = some a ∨ instantiateOrigin o = some a ∨ paymentSender o = some a ∨
  (∃ d, registerOrigin cents o = some (some d) ∧ d.payer = a) ∨ asSignedByCommunity o = some a

/-- C100: among Kreivo's own origins only root, and whoever holds a signature of the treasury's account, spends from
it: no community and no other signer does. -/
theorem C100_own_origins_partial (cents : Nat) (o : RtOrigin) (h : SpendsAs cents o treasuryAccount) :
    o = .root ∨ o = .signed treasuryAccount := by
  have hc : ∀ c, communityAccount c ≠ treasuryAccount := fun c => (C61_not_system_account c []).1
  rcases h with h | h | h | ⟨d, h, hd⟩ | h
  · exact .inl ((C98_upload _ _).mp h).1
  · rcases (C98_instantiate _ _).mp h with h | ⟨c, _, _, h⟩
    · exact .inl h.1
    · exact absurd h.symm (hc _)
  · cases o <;> simp [paymentSender, asSignedByCommunity] at h
    · exact .inr (by rw [h])
    · exact absurd h (hc _)
  · exact .inr (by rw [(C99_own_deposit _ _ _ h).1, hd])
  · cases o <;> simp [asSignedByCommunity] at h
    exact absurd h (hc _)

/-- C100: among XCM messages, only those of the relay chain itself, of the account with the same bytes on the relay
chain, or from inside Kreivo dispatch a call as the treasury: no parachain does, nor anything on one. -/
theorem C100_xcm_partial (sender : Location) (msg : List Instr) (fails : List Bool)
    (h : CallOrigin.signed treasuryAccount ∈ (Vm.start sender msg).run fails) :
    sender = ⟨1, []⟩ ∨ (∃ n, sender = ⟨1, [.accountId32 n treasuryAccount]⟩) ∨ sender.parents = 0 := by
  have hc : ∀ c, treasuryAccount ≠ communityAccount c := fun c => (C61_not_system_account c []).1.symm
  have h4 : treasuryAccount.take 4 = modl := palletAccount_take4 _ _
  obtain ⟨ext, k, hk⟩ := start_within _ msg fails _ h
  obtain ⟨p, i⟩ := sender
  rcases convert_cases hk with ⟨a, ha, h⟩ | ⟨h, _⟩ | ⟨_, h, _⟩ | h
  · cases ha
    rw [C71_who_has_an_account] at h
    rcases h with ⟨h, h'⟩ | ⟨id, h, h'⟩ | ⟨_, _, h, h'⟩ | ⟨n, h, _⟩ | ⟨_, h, _⟩
    · exact absurd h' (by decide +kernel)
    · exfalso
      have hs : (siblingAccount id).take 4 = sibl := by
        have := sibl_length
        rw [siblingAccount, pad32_take (by simp [this]) (by omega), ← this, List.take_left]
      rw [h', hs] at h4
      exact absurd h4 (by decide +kernel)
    · exact absurd h' (hc _)
    · obtain ⟨h0, h1⟩ := Location.mk.inj h
      dsimp only at h0 h1
      subst h0
      cases i with
      | nil => exact .inl rfl
      | cons j t =>
        simp only [List.cons_append, List.cons.injEq, List.append_eq_nil_iff] at h1
        obtain ⟨rfl, rfl, _⟩ := h1
        exact .inr (.inl ⟨n, rfl⟩)
    · exact .inr (.inr (Location.mk.inj h).1)
  · cases h
  · cases h
  · cases h

/-- A message of the relay chain's treasury. Its account on the relay chain has the bytes of Kreivo's: the pallet id
`py/trsry` is the same (relay chain runtime, outside `/repo`). -/
def relayTreasuryMessage : List Instr :=
  [.withdrawAsset 1, .buyExecution .unlimited, .transact .sovereignAccount ⟨1000000000, 10000⟩]

/-- C100 is false of the code: a message from the relay chain's account with the same bytes, its own treasury, passes
the barrier and dispatches any call as Kreivo's treasury. Root of Kreivo has no say. -/
theorem C100_relay_treasury_fails (self : UInt32) :
    ∃ out, admit (fun _ => false) self ⟨1, [.accountId32 (some .kusama) (palletAccount (ascii "py/trsry") [])]⟩
        relayTreasuryMessage ⟨0, 0⟩ = some out ∧
      (Vm.start ⟨1, [.accountId32 (some .kusama) (palletAccount (ascii "py/trsry") [])]⟩ out).run
        [false, false, false] = [.signed treasuryAccount] := by
  have hw : (messageWeight relayTreasuryMessage).any (fun w => !Weight.covers ⟨0, 0⟩ w) = true := by
    simp only [relayTreasuryMessage, messageWeight, weighFrom_eq, weighAll, weighOne]
    decide +kernel
  obtain ⟨w, hw, h0⟩ := (Option.any_eq_true _ _).mp hw
  rw [Bool.not_eq_true'] at h0
  refine ⟨[.withdrawAsset 1, .buyExecution (.limited w), .transact .sovereignAccount ⟨1000000000, 10000⟩], ?_, ?_⟩
  · unfold admit
    rw [hw]
    simp only [barrier, h0]
    rfl
  · simp only [Vm.start, Vm.run, Vm.step, Vm.effect, convertOrigin]
    rfl

end Verif.Accounts
