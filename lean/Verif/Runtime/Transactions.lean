import Verif.Runtime.Charge
import Verif.Governance.Tracks

/-!
# The checks of a signed transaction (runtime/kreivo/src/lib.rs 130-140)

`SignedExtra` lists the extensions in the order they run; each is outside `/repo` and modelled as it is in the stable2409
branch. What a call does besides its fee is left open.
-/

namespace Verif.Runtime

open Verif Governance

/-- A call, as far as the extensions look at it: `authenticate` of pallet_pass (outside `/repo`) is without fee if its
credential verifies, and the credential names a block and a challenge, checked by `UnincludedBlockHashChallenger`
(configuration/system_support.rs 144-147); `verified` is the rest of the check, which does not depend on the chain while
the device stays registered. No other call of the runtime is without fee. -/
inductive TxCall
  | authenticate (cx : UInt32) (challenge : List UInt8) (verified : Bool)
  | other (index : Nat)
  deriving DecidableEq

/-- A signed transaction. `spec`, `txVersion`, `genesis` and `birthHash` are what its signature covers without being
written in it: the chain checks the signature against its own values. `era` is a period and a phase, or immortal. Outside
/repo; used at runtime/kreivo/src/lib.rs 131-143 (frame_system). -/
structure Tx where
  signer : Acct
  nonce : UInt32
  spec : UInt32
  txVersion : UInt32
  genesis : List UInt8
  era : Option (Nat × Nat)
  birthHash : List UInt8
  tip : Nat
  asset : Option Nat
  len : Nat
  cls : Class
  weight : Weight
  call : TxCall
  deriving DecidableEq

/-- The part of the chain's state the extensions read and write. `alive` is whether an account has a provider or a
sufficient reference. Outside /repo; used at runtime/kreivo/src/lib.rs 131-143 (frame_system). -/
structure Chain where
  nonce : Acct → UInt32
  alive : Acct → Bool
  spec : UInt32
  txVersion : UInt32
  hashes : Hashes
  used : Used
  money : Money

/-- What else a charge depends on: `passOf` is the pass account a session key belongs to (`ChargeTxToPassAccount`),
`hasGas` whether a membership of an account has gas for a weight. runtime/kreivo/src/lib.rs 128 and 139. -/
structure Around where
  env : ChargeEnv
  rates : Rates
  base : Weight
  passOf : Acct → Option Acct
  hasGas : Acct → Weight → Bool

/-- `Era::birth`: the block a mortal transaction begins to be valid, seen from block `now`. Outside /repo; used at
runtime/kreivo/src/lib.rs 131-143 (frame_system). -/
def birth (era : Option (Nat × Nat)) (now : Nat) : Nat :=
  match era with
  | none => 0
  | some (period, phase) => (max now phase - phase) / period * period + phase

/-- The hash `CheckEra` uses, if the chain still has it; that of block zero is kept. Outside /repo; used at
runtime/kreivo/src/lib.rs 131-143 (frame_system). -/
def eraHash (h : Hashes) (n : Nat) : Option (List UInt8) :=
  if n < h.now.toNat ∧ (n = 0 ∨ h.now.toNat ≤ n + h.count) then some (h.hash (UInt32.ofNat n)) else none

/-- `is_feeless` of the call. Outside /repo; used at runtime/kreivo/src/lib.rs 137-139 (pallet_pass,
pallet_skip_feeless_payment). -/
def feeless (s : Chain) : TxCall → Bool
  | .authenticate cx challenge verified => verified && checkChallenge s.hashes cx challenge
  | .other _ => false

/-- `CheckNonce`: the account exists and the nonce is its next; it is counted up (u32, wrapping). Outside /repo; used at
runtime/kreivo/src/lib.rs 131-143 (frame_system). -/
def checkNonce (s : Chain) (tx : Tx) : Option (Acct → UInt32) :=
  if s.alive tx.signer = false then none
  else if tx.nonce ≠ s.nonce tx.signer then none
  else some (put s.nonce tx.signer (s.nonce tx.signer + 1))

/-- The first five extensions: sender, versions, genesis and era; runtime/kreivo/src/lib.rs 132-136. -/
def checkSigned (s : Chain) (tx : Tx) : Bool :=
  decide (tx.signer ≠ List.replicate 32 0) && decide (tx.spec = s.spec) && decide (tx.txVersion = s.txVersion)
    && decide (eraHash s.hashes 0 = some tx.genesis)
    && decide (eraHash s.hashes (birth tx.era s.hashes.now.toNat) = some tx.birthHash)

/-- Who is charged. Outside /repo; used at runtime/kreivo/src/lib.rs 139 (pallet_pass). -/
def payerOf (a : Around) (tx : Tx) : Acct := (a.passOf tx.signer).getD tx.signer

/-- The fee of a transaction for a weight. Outside /repo; used at runtime/kreivo/src/configuration/monetary_stuff.rs
41-48. -/
def feeOf (a : Around) (tx : Tx) (w : Weight) : Nat := computeFee a.rates a.base w tx.len tx.tip

/-- What `CheckWeight` counts for a transaction: its declared weight, the base weight, and its length as proof size. Outside /repo; used
at runtime/kreivo/src/lib.rs 138 (frame_system). -/
def costOf (a : Around) (tx : Tx) : Weight := Weight.satAdd (Weight.satAdd tx.weight a.base) ⟨0, tx.len⟩

/-- A signed transaction goes into the block: all of `SignedExtra`, runtime/kreivo/src/lib.rs 131-140. `f` is what the call does to the
balances and `actual` the weight it used, at most the declared one. `none` if it is not valid. Simplified: the room is not
given back for weight that was not used (Runtime/Block.lean has that), and the length of the block is left out
(Runtime/BlockLength.lean). -/
def applyTx (a : Around) (s : Chain) (tx : Tx) (f : Money → Money) (actual : Weight) : Option Chain :=
  if checkSigned s tx = false then none
  else match (if feeless s tx.call then some s.nonce else checkNonce s tx) with
    | none => none
    | some nonce =>
      match checkWeight a.base s.used tx.cls (costOf a tx) with
      | none => none
      | some used =>
        match (if feeless s tx.call then some (s.money, Paid.nothing)
          else charge a.env s.money (payerOf a tx) (a.hasGas (payerOf a tx) tx.weight) tx.asset (feeOf a tx tx.weight)) with
        | none => none
        | some (m, paid) =>
          match settle a.env (f m) paid
            (feeOf a tx ⟨min tx.weight.refTime actual.refTime, min tx.weight.proofSize actual.proofSize⟩) with
          | none => none
          | some m' => some { s with nonce := nonce, used := used, money := m' }

/-- What happens on the chain. Part of the transition system around the code (outside /repo). -/
inductive ChainEvent
  /-- A signed transaction is tried. -/
  | tx (a : Around) (t : Tx) (f : Money → Money) (actual : Weight)
  /-- The next block begins; `hash` is the hash of the one before. -/
  | block (hash : List UInt8)
  /-- An account disappears: its record, with the nonce, is removed. -/
  | reap (who : Acct)
  /-- An account comes to exist. -/
  | provide (who : Acct)
  /-- The runtime changes. -/
  | upgrade (spec txVersion : UInt32)
  /-- Balances change otherwise. -/
  | money (f : Money → Money)

/-- One event; a transaction that is not valid changes nothing. Part of the transition system around the code (outside
/repo). -/
def chainStep (s : Chain) : ChainEvent → Chain
  | .tx a t f actual => (applyTx a s t f actual).getD s
  | .block hash =>
    { s with
      hashes := { s.hashes with now := s.hashes.now + 1, hash := put s.hashes.hash s.hashes.now hash },
      used := ⟨⟨0, 0⟩, ⟨0, 0⟩, ⟨0, 0⟩⟩ }
  | .reap who => { s with alive := put s.alive who false, nonce := put s.nonce who 0 }
  | .provide who => { s with alive := put s.alive who true }
  | .upgrade spec txVersion => { s with spec := spec, txVersion := txVersion }
  | .money f => { s with money := f s.money }

/-- A history. Part of the transition system around the code (outside /repo). -/
def chainRun (s : Chain) (evs : List ChainEvent) : Chain := evs.foldl chainStep s

end Verif.Runtime
