import Verif.Accounts.OriginTheorems

/-!
# Codes and contracts

Which codes `pallet_contracts` (outside `/repo`) keeps and which contracts run them, with the origins Kreivo lets upload and
instantiate: runtime/kreivo/src/contracts.rs 54-112. What contracts compute is not modelled; of what they may ask of the
pallet, those requests are that touch codes and contracts.
-/

namespace Verif.Runtime.Contracts

open Verif Verif.Accounts Verif.Runtime

/-- Owners of the codes, and the code and the deployer of each contract. Codes are named by their hash. Outside /repo; used
at runtime/kreivo/src/contracts.rs 54-112 (pallet_contracts). -/
structure St where
  codes : Nat → Option AccountId
  contracts : AccountId → Option (Nat × AccountId)

/-- `m` with another value at `k`. Outside /repo; used at runtime/kreivo/src/contracts.rs 54-112 (pallet_contracts). -/
def put {α β : Type} [DecidableEq α] (m : α → β) (k : α) (v : β) : α → β := fun j => if j = k then v else m j

/-- What a running contract may ask of the pallet: to make a contract of a code that is there, to go on with another code
that is there (`set_code_hash`), to end itself (`terminate`). Outside /repo; used at
runtime/kreivo/src/contracts.rs 54-112 (pallet_contracts). -/
inductive Ask
  | instantiate (self : AccountId) (hash : Nat) (addr : AccountId)
  | setCodeHash (self : AccountId) (hash : Nat)
  | terminate (self : AccountId)

/-- What comes of it; only contracts ask. Outside /repo; used at runtime/kreivo/src/contracts.rs 54-112
(pallet_contracts). -/
def ask (s : St) : Ask → Option St
  | .instantiate self h a =>
    if s.contracts self ≠ none ∧ s.codes h ≠ none ∧ s.contracts a = none then
      some { s with contracts := put s.contracts a (some (h, self)) }
    else none
  | .setCodeHash self h => match s.contracts self with
    | some (_, d) => if s.codes h ≠ none then some { s with contracts := put s.contracts self (some (h, d)) } else none
    | none => none
  | .terminate self => if s.contracts self ≠ none then some { s with contracts := put s.contracts self none } else none

/-- All that is asked during a call; each request may fail by itself. Outside /repo; used at
runtime/kreivo/src/contracts.rs 54-112 (pallet_contracts). -/
def asks (s : St) (l : List Ask) : St := l.foldl (fun s a => (ask s a).getD s) s

/-- The calls: `upload_code`, `remove_code`, `instantiate`, `instantiate_with_code`, `set_code` (root's, for any contract),
and `call`, with what the contracts running in it ask. `addr` is the address the pallet makes for the new contract, and the
constructor's requests follow. Outside /repo; used at runtime/kreivo/src/contracts.rs 54-112 (pallet_contracts). -/
inductive Call
  | upload (hash : Nat)
  | remove (hash : Nat)
  | instantiate (hash : Nat) (addr : AccountId) (l : List Ask)
  | instantiateWithCode (hash : Nat) (addr : AccountId) (l : List Ask)
  | setCode (addr : AccountId) (hash : Nat)
  | call (addr : AccountId) (l : List Ask)

/-- A contract made of a code by an account. Outside /repo; used at runtime/kreivo/src/contracts.rs 62-68
(pallet_contracts). -/
def make (s : St) (who : AccountId) (h : Nat) (a : AccountId) (l : List Ask) : Option St :=
  if s.codes h ≠ none ∧ s.contracts a = none then
    some (asks { s with contracts := put s.contracts a (some (h, who)) } l)
  else none

/-- The origins `call` takes: signed accounts and root. Outside /repo; used at runtime/kreivo/src/contracts.rs 54-112
(pallet_contracts). -/
def mayCall : RtOrigin → Bool
  | .signed _ => true
  | .root => true
  | _ => false

/-- What the calls do. Origins: `UploadOrigin` and `InstantiateOrigin` of runtime/kreivo/src/contracts.rs 61-68; `set_code`
is for root, `remove_code` for the owner of the code (pallet_contracts, outside `/repo`). Simplification: that
`remove_code` fails while contracts run the code is left out, so the model removes more. -/
def dispatch (s : St) (o : RtOrigin) : Call → Option St
  | .upload h => match uploadOrigin o with
    | some a => some { s with codes := put s.codes h (some ((s.codes h).getD a)) }
    | none => none
  | .remove h => match o with
    | .signed a => if s.codes h = some a then some { s with codes := put s.codes h none } else none
    | _ => none
  | .instantiate h a l => match instantiateOrigin o with
    | some who => make s who h a l
    | none => none
  | .instantiateWithCode h a l => match instantiateWithCodeOrigin o with
    | some (up, who) => make { s with codes := put s.codes h (some ((s.codes h).getD up)) } who h a l
    | none => none
  | .setCode a h => match o, s.contracts a with
    | .root, some (_, d) =>
      if s.codes h ≠ none then some { s with contracts := put s.contracts a (some (h, d)) } else none
    | _, _ => none
  | .call a l => if mayCall o = true ∧ s.contracts a ≠ none then some (asks s l) else none

end Verif.Runtime.Contracts
