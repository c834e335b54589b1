import Verif.Xcm.Transfers

/-! # What calls of pallet_xcm are meant to do (C129-C133) -/

namespace Verif.Xcm

open Verif Verif.Accounts

/-! ## Places -/

/-- The path from the root of everything to the location `l`, seen from the place with path `here`. Specification only, no code
behind it (outside /repo). -/
def absolute (here : List Junction) (l : Location) : Option (List Junction) :=
  if l.parents.toNat ≤ here.length then some (here.take (here.length - l.parents.toNat) ++ l.interior) else none

/-- Where Kreivo is: a parachain of Kusama. Specification only, no code behind it (outside /repo). -/
def kreivoPath (self : UInt32) : List Junction := [.globalConsensus .kusama, .parachain self]

/-- What `l` means on Kreivo is what `r` means on the chain at `dest`. Specification only, no code behind it (outside
/repo). -/
def SamePlace (self : UInt32) (dest l r : Location) : Prop :=
  ∃ there, absolute (kreivoPath self) dest = some there ∧ absolute there r = absolute (kreivoPath self) l

/-! ## Balances -/

/-- Of each currency `sent` leaves the account `s`, of which `put` arrives on the account `d`; a rest below the least balance
may be lost to `s`, and goes to `d` or is destroyed. Specification only, no code behind it (outside /repo). -/
def Moved (s : AccountId) (d : Option AccountId) (sent onDest : Cur → Nat) (L L' : XLedger) : Prop :=
  L'.minBal = L.minBal ∧
  ∀ k, ∃ rest,
    L.get k s = L'.get k s + sent k + rest ∧
    (rest = 0 ∨ (L'.get k s = 0 ∧ ∃ least, L.minBal k = some least ∧ rest < least)) ∧
    (∀ b, b ≠ s → d ≠ some b → L'.get k b = L.get k b) ∧
    (∀ b, d = some b → L.get k b + onDest k ≤ L'.get k b ∧ L'.get k b ≤ L.get k b + onDest k + rest)

/-- Nothing was trapped, received or minted. Specification only, no code behind it (outside /repo). -/
def SameRecords (c c' : Chain) : Prop := c'.traps = c.traps ∧ c'.received = c.received ∧ ∀ l, amt c'.minted l = amt c.minted l

/-! ## Messages -/

/-- The destination and the assets of a call that sends assets. Specification only, no code behind it (outside /repo). -/
def XcmCall.sends : XcmCall → Option (Location × List XAsset)
  | .reserveTransfer dest assets _ => some (dest, assets)
  | .transfer dest assets _ => some (dest, assets)
  | .transferUsing dest assets _ _ _ => some (dest, assets)
  | _ => none

/-- The messages, each with the assets of the call it is about: all assets are in one of them, under the names of the receiver
and with their amounts, each message can be delivered, and the assets end up where the caller wants. Specification only, no
code behind it (outside /repo). -/
structure Carries (self : UInt32) (dest : Location) (assets : List XAsset) (parts : List (Order × List XAsset)) : Prop where
  all : (parts.flatMap fun p => p.2).Perm assets
  named : ∀ p ∈ parts, List.Forall₂ (fun a b => b.2 = a.2 ∧ SamePlace self p.1.dest a.1 b.1) p.2 p.1.assets
  delivered : ∀ p ∈ parts, p.1.dest = ⟨1, []⟩ ∨ ∃ id, p.1.dest = ⟨1, [.parachain id]⟩
  arrives : ∀ p ∈ parts,
    (p.1.onward = none ∧ p.1.dest = dest) ∨
    ∃ d, p.1.onward = some d ∧ p.1.kind = .withdraw ∧ SamePlace self p.1.dest dest d

/-- What the messages say was put on the account of the receiver. Specification only, no code behind it (outside /repo). -/
def putOnAccount (parts : List (Order × List XAsset)) (k : Cur) : Nat :=
  ((parts.filter fun p => decide (p.1.kind = .deposited)).map fun p => sumAt p.2 k.location).sum

end Verif.Xcm
