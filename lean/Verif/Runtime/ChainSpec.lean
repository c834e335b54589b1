import Mathlib.Data.List.Nodup
import Verif.Runtime.Collators

/-!
# The generator of chain specifications (chain-spec-generator/src/main.rs, chain-spec-generator/src/spec/local.rs)

Which specification is printed for which argument, and what a local chain starts with. The specifications as such
(sc-chain-spec) and the genesis of the pallets are outside /repo.
-/

namespace Verif.Runtime.ChainSpec

/-! ## The argument -/

/-- What the generator takes from sc-chain-spec and the file system: the embedded specification of the live chain, that of the
local chain, files, and the two ways to print. Errors are texts. Outside /repo; used at chain-spec-generator/src/main.rs
24-48. -/
structure World (S : Type) where
  embedded : Except (List Char) S
  localSpec : S
  file : List Char → Except (List Char) S
  json : S → Bool → Except (List Char) (List Char)

/-- The two specifications with a name. chain-spec-generator/src/main.rs 26-29. -/
inductive Named
  | live
  | loc
  deriving DecidableEq, Repr

/-- `supported_chains`: chain-spec-generator/src/main.rs 25-30. -/
def supported : List (List Char × Named) :=
  [("kreivo".toList, .live), ("live".toList, .live), ("kreivo-local".toList, .loc), ("local".toList, .loc)]

/-- The two functions of the table. The one for the live chain replaces the error: chain-spec-generator/src/spec/live/mod.rs
3-17. The one for the local chain has none: chain-spec-generator/src/spec/local.rs 3-106. -/
def specOf {S : Type} (w : World S) : Named → Except (List Char) S
  | .live => match w.embedded with
    | .ok s => .ok s
    | .error _ => .error "Could not find chainspec for kreivo".toList
  | .loc => .ok w.localSpec

/-- `supported_chains.keys().enumerate().fold(…)`, from the `n`th key on; `len` is the number of all keys. The order is that of
the hash map. chain-spec-generator/src/main.rs 37-40. -/
def fold (len : Nat) : Nat → List Char → List (List Char) → List Char
  | _, c, [] => c
  | n, c, k :: l => fold len (n + 1) (c ++ k ++ (if n + 1 < len then ", ".toList else [])) l

/-- `main`: what is printed, or the error. `order` is the order of the hash map's keys, which is arbitrary.
chain-spec-generator/src/main.rs 22-49. -/
def main {S : Type} (w : World S) (order : List (List Char)) (chain : List Char) (raw : Bool) :
    Except (List Char) (List Char) :=
  match supported.lookup chain with
  | some f => match specOf w f with
    | .ok s => w.json s raw
    | .error e => .error e
  | none =>
    if ".json".toList <:+ chain then match w.file chain with
      | .ok s => w.json s raw
      | .error e => .error e
    else .error ("Unknown chain, only supported: ".toList ++ fold supported.length 0 [] order ++ " or a json file".toList)

/-! ## The genesis of a local chain -/

/-- The parts of the genesis configuration that `local_genesis` sets. chain-spec-generator/src/spec/local.rs 114-157. -/
structure Config (A K : Type) where
  balances : List (A × Nat)
  paraId : Nat
  invulnerables : List A
  bond : Nat
  keys : List (A × A × K)
  safeXcm : Nat

/-- `local_genesis(id, invulnerables, endowed_accounts)`, for an existential deposit and a version of XCM.
chain-spec-generator/src/spec/local.rs 109-158. -/
def localGenesis {A K : Type} (ed xcm id : Nat) (invulnerables : List (A × K)) (endowed : List A) : Config A K where
  balances := endowed.map fun k => (k, 1 <<< 60)
  paraId := id
  invulnerables := invulnerables.map Prod.fst
  bond := ed * 16
  keys := invulnerables.map fun p => (p.1, p.1, p.2)
  safeXcm := xcm

/-- What the first block finds. Outside /repo; used at chain-spec-generator/src/spec/local.rs 114-157 (the pallets). -/
structure Start (A K : Type) where
  free : A → Nat
  issuance : Nat
  paraId : Nat
  collators : Collators.St A
  keysOf : A → Option K
  owner : K → Option A
  validators : List A
  authorities : List K
  safeXcm : Nat

variable {A K : Type} [DecidableEq A] [DecidableEq K]

/-- The genesis of pallet_balances: at least the existential deposit for each, no account twice. Outside /repo; used at
chain-spec-generator/src/spec/local.rs 116-121. -/
def buildBalances (ed : Nat) (l : List (A × Nat)) : Option ((A → Nat) × Nat) :=
  if (∀ p ∈ l, ed ≤ p.2) ∧ (l.map Prod.fst).Nodup then
    some (fun a => (l.lookup a).getD 0, (l.map Prod.snd).sum)
  else none

/-- The genesis of pallet_collator_selection: none twice, at most 100, sorted. Outside /repo; used at
chain-spec-generator/src/spec/local.rs 128-134. -/
def buildCollators (le : A → A → Bool) (invulnerables : List A) (bond : Nat) : Option (Collators.St A) :=
  if invulnerables.Nodup ∧ invulnerables.length ≤ Collators.maxInvulnerables then
    some (Collators.genesis (invulnerables.mergeSort le) bond)
  else none

/-- `inner_set_keys(who, keys)`. Outside /repo; used at chain-spec-generator/src/spec/local.rs 135-149 (pallet_session). -/
def setKeys (m : (A → Option K) × (K → Option A)) (who : A) (key : K) : Option ((A → Option K) × (K → Option A)) :=
  if m.2 key = none ∨ m.2 key = some who then
    let cleared : K → Option A := match m.1 who with
      | some old => if old = key then m.2 else fun k => if k = old then none else m.2 k
      | none => m.2
    some (fun a => if a = who then some key else m.1 a, fun k => if k = key then some who else cleared k)
  else none

/-- The keys of the genesis of pallet_session, in order. Outside /repo; used at
chain-spec-generator/src/spec/local.rs 135-149. -/
def buildKeys : (A → Option K) × (K → Option A) → List (A × A × K) → Option ((A → Option K) × (K → Option A))
  | m, [] => some m
  | m, (_, v, k) :: l => match setKeys m v k with
    | some m' => buildKeys m' l
    | none => none

/-- The genesis of all pallets, in the order of their indices: balances, collator selection, session, which asks the former
for the first collators and tells aura their keys. The limit of 100 000 authorities is above that of the invulnerables.
Outside /repo; used at chain-spec-generator/src/spec/local.rs 109-158 and runtime/kreivo/src/lib.rs 351-431. -/
def build (ed : Nat) (le : A → A → Bool) (c : Config A K) : Option (Start A K) :=
  match buildBalances ed c.balances, buildCollators le c.invulnerables c.bond, buildKeys (fun _ => none, fun _ => none) c.keys with
  | some b, some s, some m =>
    let validators := Collators.assemble s
    some ⟨b.1, b.2, c.paraId, s, m.1, m.2, validators, validators.filterMap m.1, c.safeXcm⟩
  | _, _, _ => none

/-- The seeds of the accounts of the local chain. chain-spec-generator/src/spec/local.rs 37-49. -/
def endowedSeeds : List String :=
  ["Alice", "Bob", "Charlie", "Dave", "Eve", "Ferdie", "Alice//stash", "Bob//stash", "Charlie//stash", "Dave//stash",
    "Eve//stash", "Ferdie//stash"]

/-- The seeds of its collators. chain-spec-generator/src/spec/local.rs 27-36. -/
def collatorSeeds : List String := ["Alice", "Bob"]

/-- `KREIVO_PARA_ID`, the same for both features: chain-spec-generator/src/spec/mod.rs 8-11. -/
def kreivoParaId : Nat := 2281

/-- The genesis of the local chain, for any derivation of accounts and keys from seeds.
chain-spec-generator/src/spec/local.rs 25-50 and 74-99. -/
def localChain (account : String → A) (key : String → K) (ed xcm : Nat) : Config A K :=
  localGenesis ed xcm kreivoParaId (collatorSeeds.map fun s => (account s, key s)) (endowedSeeds.map account)

end Verif.Runtime.ChainSpec
