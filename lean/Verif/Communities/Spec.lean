import Verif.Communities.Model

/-!
# What the voting properties speak about

Small definitions in terms of the pallet's storage only: which votes suit a decision method, how much a vote counts,
the tally the votes on record add up to, and the largest lock of an account.
-/

namespace Verif.Communities

open Verif Verif.Accounts

/-- The vote is of the kind the decision method asks for, and of at least the minimum. -/
def Suits (dm : Method) : Vote → Prop
  | .standard _ => dm = .membership ∨ dm = .rank
  | .native _ n => dm = .native ∧ 0 < n
  | .asset _ a n => ∃ min, dm = .asset a min ∧ min ≤ n ∧ 0 < n

/-- The amount of a balance vote, capped at `2^32 - 1`, or 1. -/
def plainWeight : Vote → Nat
  | .standard _ => 1
  | .native _ n => min n (2 ^ 32 - 1)
  | .asset _ _ n => min n (2 ^ 32 - 1)

/-- How much a vote counts in community `c` now: times the rank of the membership if the community decides by rank. -/
def power (s : St) (c : CId) (m : MId) (v : Vote) : Nat :=
  if s.method c = .rank then (match rankOf s.world.items c m with | some r => r.toNat | none => 0) * plainWeight v
  else plainWeight v

/-- The tally the votes on record of a poll add up to. -/
def onRecord (s : St) (c : CId) (p : PollIx) : Tally where
  ayes := asum (fun e => if e.2.1.say then power s c e.1 e.2.1 else 0) (s.votes p)
  nays := asum (fun e => if e.2.1.say then 0 else power s c e.1 e.2.1) (s.votes p)
  bareAyes := asum (fun e => if e.2.1.say then plainWeight e.2.1 else 0) (s.votes p)

/-- All three sums fit a vote weight. -/
def Fits (t : Tally) : Prop := t.ayes ≤ 2 ^ 32 - 1 ∧ t.nays ≤ 2 ^ 32 - 1 ∧ t.bareAyes ≤ 2 ^ 32 - 1

/-- The amount a standing lock holds in the native currency, in an asset. -/
def lockedNative : Vote → Nat
  | .native _ n => n
  | _ => 0
def lockedAsset (k : AssetKey) : Vote → Nat
  | .asset _ a n => if a = k then n else 0
  | _ => 0

/-- `n` is the largest native lock standing on the account, or 0 if there is none. -/
def LargestNative (s : St) (a : AccountId) (n : Nat) : Prop :=
  (∀ p v, aget (s.locks a) p = some v → lockedNative v ≤ n) ∧
  (n = 0 ∨ ∃ p v, aget (s.locks a) p = some v ∧ lockedNative v = n)

/-- The same for an asset. -/
def LargestAsset (s : St) (k : AssetKey) (a : AccountId) (n : Nat) : Prop :=
  (∀ p v, aget (s.locks a) p = some v → lockedAsset k v ≤ n) ∧
  (n = 0 ∨ ∃ p v, aget (s.locks a) p = some v ∧ lockedAsset k v = n)

/-- No account has two votes on record in a poll. -/
def Solo (s : St) : Prop :=
  ∀ p m m' v v' w, aget (s.votes p) m = some (v, w) → aget (s.votes p) m' = some (v', w) → m = m'

end Verif.Communities
