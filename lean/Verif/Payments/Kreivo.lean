import Verif.Payments.Funds
import Verif.Payments.Lifecycle
import Verif.Accounts.Theorems
import Verif.Ids.PaymentId

/-!
# The payments pallet as configured on Kreivo (runtime/kreivo/src/payments.rs)

Accounts of the payments model are numbers: here the big-endian value of the 32 bytes, so that the order of accounts
is the byte order used by `BTreeMap`.
-/

namespace Verif.Payments.Kreivo

open Verif Verif.Accounts Verif.Payments

/-- The number of a 32-byte account. Outside /repo; used at runtime/kreivo/src/lib.rs 107 (AccountId); numbers stand for
the 32 bytes. -/
def acctOf (a : AccountId) : Acct := fromBE a
/-- The 32 bytes of an account number. Outside /repo; used at runtime/kreivo/src/lib.rs 107 (AccountId); numbers stand for
the 32 bytes. -/
def bytesOf (n : Acct) : AccountId := beBytes 32 n

theorem bytesOf_acctOf {a : AccountId} (h : a.length = 32) : bytesOf (acctOf a) = a := by
  rw [bytesOf, acctOf, ← h, beBytes_fromBE]

/-- `TreasuryAccount` as a number. runtime/kreivo/src/payments.rs 47 and 85. -/
def treasury : Acct := acctOf treasuryAccount

/-- `is_community` of the fee handler: runtime/kreivo/src/payments.rs 46-49. -/
def isCommunity (who : Acct) : Bool :=
  match trySubAccount (bytesOf who) with
  | some (pid, _) => pid == communityPalletId
  | none => false

/-- `default_fee`: runtime/kreivo/src/payments.rs 47, with `MANDATORY_FEE` of line 32. -/
def defaultFee (min pct amount : Nat) : Fee := ⟨treasury, max min (mulFloor pct amount), true⟩

/-- `KreivoFeeHandler::apply_fees`: runtime/kreivo/src/payments.rs 38-64, with `SENDER_FEE` 1% and `BENEFICIARY_FEE` 3%
of lines 33-34. -/
def applyFees (minBal : Asset → Nat) (asset : Asset) (sender beneficiary : Acct) (amount : Nat)
    (_remark : Option (List Nat)) : Fees :=
  { senderPays := if !isCommunity sender then [defaultFee (minBal asset) 1 amount] else []
    beneficiaryPays := if !isCommunity beneficiary then [defaultFee (minBal asset) 3 amount] else [] }

/-- `impl pallet_payments::Config for Runtime`: runtime/kreivo/src/payments.rs 75-98; block numbers are u32;
the lookup is `CommunityLookup`. Community ids are u16 in the runtime, so numbers wrap here. -/
def config : Config where
  incentivePct := 10
  cancelBuffer := 14400
  blockMax := 2 ^ 32 - 1
  senderOrigin := fun o => match o with
    | .signed a => some a
    | .community c => some (acctOf (communityAccount (UInt16.ofNat c)))
    | _ => none
  beneficiaryOrigin := fun o => match o with | .signed a => some a | _ => none
  disputeResolver := fun o => match o with | .root => some treasury | _ => none
  lookup := fun x => match x with
    | .id a => some a
    | .index c => some (acctOf (communityAccount (UInt16.ofNat c)))
    | .other => none
  applyFees := applyFees

/-- `PaymentId::next` on Kreivo: runtime/kreivo/src/payments.rs 67-73; the id as its u64. -/
def nextId (block : UInt32) (extrinsic : Option UInt32) (_sender beneficiary : Acct) : Option PId :=
  (Ids.PaymentId.next block extrinsic (bytesOf beneficiary)).map fun p => p.toU64.toNat

end Verif.Payments.Kreivo
