import Mathlib.Data.List.Basic
import Mathlib.Data.List.Nodup
import Verif.Runtime.Fees

/-!
# Collators (runtime/kreivo/src/lib.rs 381-431)

pallet_collator_selection with Kreivo's configuration. The pallet is outside /repo and taken as it is in the stable2409
branch; its rules are in the trusted base. Who its update origin is, is C104.
-/

namespace Verif.Runtime.Collators

/-- `MaxCandidates`: runtime/kreivo/src/lib.rs 404. -/
def maxCandidates : Nat := 1000

/-- `MinEligibleCollators`: runtime/kreivo/src/lib.rs 405. -/
def minEligible : Nat := 1

/-- `MaxInvulnerables`: runtime/kreivo/src/lib.rs 407. -/
def maxInvulnerables : Nat := 100

/-- `Period`, which is also the `KickThreshold`: six hours, for any number of blocks in an hour (parachains_common's).
runtime/kreivo/src/lib.rs 382 and 426. -/
def period (hour : Nat) : Nat := 6 * hour

/-- The storage of the pallet, the block number, and what the pallet has reserved of each account. The order of the
invulnerables is left out. Candidates are in the order of `CandidateList`, the last with the highest bond. Outside /repo; used
at runtime/kreivo/src/lib.rs 417-431 (pallet_collator_selection). -/
structure St (A : Type) where
  invulnerables : List A
  candidates : List (A × Nat)
  desired : Nat
  bond : Nat
  last : A → Nat
  now : Nat
  reserved : A → Nat

/-- What the calls depend on besides: who has registered session keys, what accounts can reserve, and the blocks of an hour.
Part of the transition system around the code (outside /repo). -/
structure Env (A : Type) where
  registered : A → Bool
  canReserve : A → Nat → Bool
  hour : Nat

variable {A : Type} [DecidableEq A]

/-- One more entry in a map. Outside /repo; used at runtime/kreivo/src/lib.rs 417-431 (frame_support). -/
def put (f : A → Nat) (a : A) (n : Nat) : A → Nat := fun x => if x = a then n else f x

/-- `eligible_collators`. Outside /repo; used at runtime/kreivo/src/lib.rs 417-431 (pallet_collator_selection). -/
def St.eligible (s : St A) : Nat := s.candidates.length + s.invulnerables.length

/-- The bond of a candidate. Outside /repo; used at runtime/kreivo/src/lib.rs 417-431 (pallet_collator_selection). -/
def St.depositOf (s : St A) (who : A) : Option Nat := s.candidates.lookup who

/-- The candidates without one of them. Outside /repo; used at runtime/kreivo/src/lib.rs 417-431
(pallet_collator_selection). -/
def without (who : A) (l : List (A × Nat)) : List (A × Nat) := l.filter fun c => decide (c.1 ≠ who)

/-- `try_remove_candidate(who, remove_last_authored)`. Outside /repo; used at runtime/kreivo/src/lib.rs 417-431
(pallet_collator_selection). -/
def removeCandidate (s : St A) (who : A) (forget : Bool) : Option (St A) :=
  match s.depositOf who with
  | none => none
  | some d =>
    some { s with
      candidates := without who s.candidates
      reserved := put s.reserved who (s.reserved who - d)
      last := if forget then put s.last who 0 else s.last }

/-- Where a bond goes: before the first candidate with at least as much. In `update_bond` the pallet swaps neighbours
instead, which ends in the same place in a sorted list (`C158_sorted`). Outside /repo; used at
runtime/kreivo/src/lib.rs 417-431 (pallet_collator_selection). -/
def placed (who : A) (n : Nat) (l : List (A × Nat)) : List (A × Nat) :=
  l.takeWhile (fun c => decide (c.2 < n)) ++ (who, n) :: l.dropWhile (fun c => decide (c.2 < n))

/-- Whether `reserve` works, and its effect. Outside /repo; used at runtime/kreivo/src/lib.rs 419 (pallet_balances). -/
def tryReserve (e : Env A) (s : St A) (who : A) (n : Nat) : Option (A → Nat) :=
  if e.canReserve who n then some (put s.reserved who (s.reserved who + n)) else none

/-! ## Calls of the update origin -/

/-- `set_invulnerables(new)`: those without session keys are left out. Outside /repo; used at
runtime/kreivo/src/lib.rs 417-431 (pallet_collator_selection). -/
def setInvulnerables (e : Env A) (s : St A) (new : List A) : Option (St A) :=
  if new = [] ∧ s.candidates.length < minEligible then none
  else if maxInvulnerables < new.length then none
  else some { s with invulnerables := new.filter e.registered }

/-- `set_desired_candidates(max)`. Outside /repo; used at runtime/kreivo/src/lib.rs 417-431
(pallet_collator_selection). -/
def setDesired (s : St A) (n : Nat) : St A := { s with desired := n }

/-- The reserves and the records of authored blocks after candidates were removed. Outside /repo; used at
runtime/kreivo/src/lib.rs 417-431 (pallet_collator_selection). -/
def kickAll (s : St A) : List (A × Nat) → St A
  | [] => s
  | c :: l => kickAll { s with
      reserved := put s.reserved c.1 (s.reserved c.1 - c.2)
      last := put s.last c.1 0 } l

/-- `set_candidacy_bond(bond)`: if it is raised, candidates with less are removed. Outside /repo; used at
runtime/kreivo/src/lib.rs 417-431 (pallet_collator_selection). -/
def setBond (s : St A) (n : Nat) : St A :=
  if s.bond < n then
    { kickAll s (s.candidates.takeWhile fun c => decide (c.2 < n)) with
      bond := n
      candidates := s.candidates.dropWhile fun c => decide (c.2 < n) }
  else { s with bond := n }

/-- `add_invulnerable(who)`. Outside /repo; used at runtime/kreivo/src/lib.rs 417-431 (pallet_collator_selection). -/
def addInvulnerable (e : Env A) (s : St A) (who : A) : Option (St A) :=
  if e.registered who = false ∨ who ∈ s.invulnerables ∨ maxInvulnerables ≤ s.invulnerables.length then none
  else
    let s' := { s with invulnerables := who :: s.invulnerables }
    some ((removeCandidate s' who false).getD s')

/-- `remove_invulnerable(who)`. Outside /repo; used at runtime/kreivo/src/lib.rs 417-431 (pallet_collator_selection). -/
def removeInvulnerable (s : St A) (who : A) : Option (St A) :=
  if s.eligible ≤ minEligible ∨ who ∉ s.invulnerables then none
  else some { s with invulnerables := s.invulnerables.erase who }

/-! ## Calls of candidates -/

/-- `register_as_candidate()`. Outside /repo; used at runtime/kreivo/src/lib.rs 417-431 (pallet_collator_selection). -/
def register (e : Env A) (s : St A) (who : A) : Option (St A) :=
  if maxCandidates ≤ s.candidates.length ∨ who ∈ s.invulnerables ∨ e.registered who = false ∨ who ∈ s.candidates.map Prod.fst
  then none
  else match tryReserve e s who s.bond with
    | none => none
    | some r =>
      some { s with
        candidates := (who, s.bond) :: s.candidates
        reserved := r
        last := put s.last who (s.now + period e.hour) }

/-- `leave_intent()`. Outside /repo; used at runtime/kreivo/src/lib.rs 417-431 (pallet_collator_selection). -/
def leave (s : St A) (who : A) : Option (St A) :=
  if s.eligible ≤ minEligible then none else removeCandidate s who true

/-- `update_bond(new_deposit)`: the bond is lowered only of candidates that are not among the desired ones. Outside /repo;
used at runtime/kreivo/src/lib.rs 417-431 (pallet_collator_selection). -/
def updateBond (e : Env A) (s : St A) (who : A) (n : Nat) : Option (St A) :=
  if n < s.bond then none
  else match s.depositOf who with
    | none => none
    | some d =>
      if d < n then
        match tryReserve e s who (n - d) with
        | none => none
        | some r =>
          some { s with
            candidates := placed who n (without who s.candidates)
            reserved := r }
      else if n < d ∧ (s.candidates.findIdx fun c => decide (c.1 = who)) + s.desired < s.candidates.length then
        some { s with
          candidates := placed who n (without who s.candidates)
          reserved := put s.reserved who (s.reserved who - (d - n)) }
      else none

/-- `take_candidate_slot(deposit, target)`. Outside /repo; used at runtime/kreivo/src/lib.rs 417-431
(pallet_collator_selection). -/
def takeSlot (e : Env A) (s : St A) (who : A) (n : Nat) (target : A) : Option (St A) :=
  if who ∈ s.invulnerables ∨ n < s.bond ∨ e.registered who = false ∨ who ∈ s.candidates.map Prod.fst then none
  else match s.depositOf target with
    | none => none
    | some d =>
      if n ≤ d then none
      else match tryReserve e s who n with
        | none => none
        | some r =>
          some { s with
            candidates := placed who n (without target s.candidates)
            reserved := put r target (r target - d)
            last := put (put s.last target 0) who (s.now + period e.hour) }

/-! ## Blocks and sessions -/

/-- `note_author(author)`, without the reward. Outside /repo; used at runtime/kreivo/src/lib.rs 417-431
(pallet_collator_selection). -/
def noteAuthor (s : St A) (who : A) : St A := { s with last := put s.last who s.now }

/-- One candidate in `kick_stale_candidates`. Outside /repo; used at runtime/kreivo/src/lib.rs 417-431
(pallet_collator_selection). -/
def kickOne (e : Env A) (s : St A) (who : A) : St A :=
  if who ∈ s.invulnerables then (removeCandidate s who false).getD s
  else if s.eligible ≤ minEligible ∨ s.now - s.last who < period e.hour then s
  else (removeCandidate s who true).getD s

/-- `kick_stale_candidates`, of all candidates. Outside /repo; used at runtime/kreivo/src/lib.rs 417-431
(pallet_collator_selection). -/
def kickStale (e : Env A) (s : St A) : St A := (s.candidates.map Prod.fst).foldl (kickOne e) s

/-- `assemble_collators`: the invulnerables, and as many candidates as desired, from the highest bond down. Outside /repo;
used at runtime/kreivo/src/lib.rs 417-431 (pallet_collator_selection). -/
def assemble (s : St A) : List A := s.invulnerables ++ (s.candidates.reverse.take s.desired).map Prod.fst

/-- What happens. Part of the transition system around the code (outside /repo). -/
inductive Op (A : Type)
  | setInvulnerables (new : List A)
  | setDesired (n : Nat)
  | setBond (n : Nat)
  | addInvulnerable (who : A)
  | removeInvulnerable (who : A)
  | register (who : A)
  | leave (who : A)
  | updateBond (who : A) (n : Nat)
  | takeSlot (who : A) (n : Nat) (target : A)
  | author (who : A)
  | block
  | session

/-- One step, `none` if the call fails. A new session (`new_session`) kicks first; who the collators are then is `assemble`.
Part of the transition system around the code (outside /repo). -/
def step (e : Env A) (s : St A) : Op A → Option (St A)
  | .setInvulnerables new => setInvulnerables e s new
  | .setDesired n => some (setDesired s n)
  | .setBond n => some (setBond s n)
  | .addInvulnerable who => addInvulnerable e s who
  | .removeInvulnerable who => removeInvulnerable s who
  | .register who => register e s who
  | .leave who => leave s who
  | .updateBond who n => updateBond e s who n
  | .takeSlot who n target => takeSlot e s who n target
  | .author who => some (noteAuthor s who)
  | .block => some { s with now := s.now + 1 }
  | .session => some (kickStale e s)

/-- The genesis: some invulnerables and a bond, no candidates, none desired. chain-spec-generator/src/spec/local.rs 127-133
(the number of desired candidates is the default). -/
def genesis (invulnerables : List A) (bond : Nat) : St A := ⟨invulnerables, [], 0, bond, fun _ => 0, 0, fun _ => 0⟩

/-- Histories. Part of the transition system around the code (outside /repo). -/
inductive Reach (g : St A) : St A → Prop
  | start : Reach g g
  | step {s s' : St A} {e : Env A} {op : Op A} : Reach g s → step e s op = some s' → Reach g s'

end Verif.Runtime.Collators
