import Mathlib.Data.List.Basic

/-! # Sessions and the authors of blocks (runtime/kreivo/src/lib.rs 228-241, 293-296, 325, 353-398; C170, C171)

pallet_authorship, pallet_session, pallet_aura and cumulus_pallet_aura_ext (outside /repo) with Kreivo's configuration,
as far as it matters who makes a block and who is taken for its author. Who is chosen by pallet_collator_selection is in
Runtime/Collators; here it is part of each block. -/

namespace Verif.Runtime.Sessions

variable {A K : Type} [DecidableEq A] [DecidableEq K]

/-- The pallets with a part in this, in the order in which their hooks are called, that of the runtime:
runtime/kreivo/src/lib.rs 230-241 ("The order of these 4 are important and shall not change"). -/
inductive Hook
  | authorship
  | collatorSelection
  | session
  | aura
  | auraExt

/-- The order of the hooks: runtime/kreivo/src/lib.rs 230-241. -/
def order : List Hook := [.authorship, .collatorSelection, .session, .aura, .auraExt]

/-- `MaxAuthorities` of pallet_aura: runtime/kreivo/src/lib.rs 356. -/
def maxAuthorities : Nat := 100000

/-- What the pallets keep: `Validators`, `QueuedKeys`, `QueuedChanged`, `NextKeys` and `KeyOwner` of pallet_session,
`Authorities` of pallet_aura, `Authorities` of aura_ext (`sealers`), and who was taken for the author of the last block
(`Author` of pallet_authorship). Outside /repo; used at runtime/kreivo/src/lib.rs 293-296, 325, 353-359 and 386-398. -/
structure St (A K : Type) where
  number : Nat
  validators : List A
  queued : List (A × K)
  changed : Bool
  keys : A → Option K
  owner : K → Option A
  authorities : List K
  sealers : List K
  author : Option A

/-- `set_keys` and `purge_keys` of pallet_session. Outside /repo; used at runtime/kreivo/src/lib.rs 386-398. -/
inductive Call (A K : Type)
  | setKeys (who : A) (key : K)
  | purgeKeys (who : A)

/-- A block as far as it matters here: its slot, the key of its seal, whom collator selection chooses if a session
changes in it, and the calls about keys in it. Outside /repo; used at runtime/kreivo/src/lib.rs 386-398. -/
structure Blk (A K : Type) where
  slot : Nat
  signer : K
  chosen : List A
  calls : List (Call A K)

/-- One more entry in a map. Outside /repo; used at runtime/kreivo/src/lib.rs 386-398 (frame_support). -/
def put {X Y : Type} [DecidableEq X] (f : X → Option Y) (x : X) (y : Option Y) : X → Option Y := fun z => if z = x then y else f z

/-- `inner_set_keys` and `do_purge_keys` of pallet_session; a call that fails changes nothing. Outside /repo; used at
runtime/kreivo/src/lib.rs 386-398. -/
def call (s : St A K) : Call A K → St A K
  | .setKeys who key =>
    if s.owner key = none ∨ s.owner key = some who then
      let freed := match s.keys who with
        | some old => put s.owner old none
        | none => s.owner
      { s with keys := put s.keys who (some key), owner := put freed key (some who) }
    else s
  | .purgeKeys who =>
    match s.keys who with
    | some old => { s with keys := put s.keys who none, owner := put s.owner old none }
    | none => s

/-- `PeriodicSessions::should_end_session` with `Offset` 0: runtime/kreivo/src/lib.rs 381-384 and 391. `period` is
`Period`, six times the blocks of an hour. -/
def ends (period number : Nat) : Bool := decide (number % period = 0)

/-- Those of the chosen who have keys, with their keys: the new `QueuedKeys` of `rotate_session`. Outside /repo; used at
runtime/kreivo/src/lib.rs 386-398. -/
def withKeys (keys : A → Option K) (chosen : List A) : List (A × K) := chosen.filterMap fun a => (keys a).map fun k => (a, k)

/-- `on_new_session` and `change_authorities` of pallet_aura: nothing happens if nothing changed or the new list is
empty. Outside /repo; used at runtime/kreivo/src/lib.rs 353-359. -/
def onNewSession (changed : Bool) (authorities new : List K) : List K :=
  if changed then
    let bounded := new.take maxAuthorities
    if bounded = [] then authorities else bounded
  else authorities

/-- `rotate_session` of pallet_session: those in the queue become the validators, the chosen go into the queue. The
session manager always answers (pallet_collator_selection), so the next change always counts as one. Outside /repo; used
at runtime/kreivo/src/lib.rs 386-398. -/
def rotate (chosen : List A) (s : St A K) : St A K :=
  { s with
    validators := s.queued.map Prod.fst
    queued := withKeys s.keys chosen
    changed := true
    authorities := onNewSession s.changed s.authorities (s.queued.map Prod.snd) }

/-- `FindAccountFromAuthorIndex` around `find_author` of pallet_aura: runtime/kreivo/src/lib.rs 294. -/
def findAuthor (s : St A K) (slot : Nat) : Option A := s.validators[slot % s.authorities.length]?

/-- `on_initialize` of the pallets: runtime/kreivo/src/lib.rs 230-241, 293-296 and 391. The hooks of the others change
nothing that matters here. -/
def init (period : Nat) (b : Blk A K) (s : St A K) : Hook → St A K
  | .authorship => { s with author := findAuthor s b.slot }
  | .session => if ends period s.number then rotate b.chosen s else s
  | _ => s

/-- `on_finalize` of aura_ext: the authorities for the seal of the next block. Outside /repo; used at
runtime/kreivo/src/lib.rs 325. -/
def finalize (s : St A K) : St A K := { s with sealers := s.authorities }

/-- `BlockExecutor::execute_block` of aura_ext (outside /repo; used at runtime/kreivo/src/lib.rs 325): the seal must be
that of the authority whose turn it is, by the state before the block; then hooks, transactions and `on_finalize`. -/
def execute (period : Nat) (s : St A K) (b : Blk A K) : Option (St A K) :=
  if s.sealers[b.slot % s.authorities.length]? = some b.signer then
    some (finalize (b.calls.foldl call (order.foldl (init period b) { s with number := s.number + 1 })))
  else none

/-- The state that genesis builds from a list of collators with their keys (each key once): runtime/kreivo/src/lib.rs
386-398 (pallet_session), see Runtime/ChainSpec. -/
def genesis (l : List (A × K)) : St A K :=
  { number := 0
    validators := l.map Prod.fst
    queued := l
    changed := false
    keys := fun a => l.lookup a
    owner := fun k => (l.map Prod.swap).lookup k
    authorities := l.map Prod.snd
    sealers := l.map Prod.snd
    author := none }

/-- A chain of blocks. Part of the transition system around the code (outside /repo). -/
def run (period : Nat) (l : List (A × K)) (bs : List (Blk A K)) : Option (St A K) :=
  bs.foldl (fun s b => s.bind fun s => execute period s b) (some (genesis l))

end Verif.Runtime.Sessions
