import Mathlib.Data.List.Basic

/-! # The clock of the chain: slots, times and the relay chain (C97, C168, C169)

What every block of Kreivo has to satisfy about its slot, its time and the relay chain it is built against. The checks
are those of pallet_aura, cumulus_pallet_aura_ext, pallet_timestamp and cumulus_pallet_parachain_system (outside /repo)
with the parameters of runtime/kreivo/src/lib.rs 327-359 and
runtime/kreivo/src/configuration/system_support.rs 96-118. -/

namespace Verif.Runtime.Clock

/-- `SLOT_DURATION` = `MILLISECS_PER_BLOCK`: runtime/kreivo/src/lib.rs 350-351, 358. -/
def slotMillis : Nat := 6000

/-- `RELAY_CHAIN_SLOT_DURATION_MILLIS`: runtime/kreivo/src/lib.rs 335. -/
def relaySlotMillis : Nat := 6000

/-- `BLOCK_PROCESSING_VELOCITY`: runtime/kreivo/src/lib.rs 333. -/
def velocity : Nat := 1

/-- `UNINCLUDED_SEGMENT_CAPACITY`: runtime/kreivo/src/lib.rs 330. -/
def capacity : Nat := 3

/-- `MinimumPeriod`: runtime/kreivo/src/configuration/system_support.rs 116. -/
def minimumPeriod : Nat := 0

/-- What Kreivo reads of the relay chain: the slot of each relay block (by its number) and the number of the block of
Kreivo it knows as the last one included. Outside /repo; used at runtime/kreivo/src/lib.rs 338-344. -/
structure Relay where
  slot : Nat → Nat
  included : Nat → Nat

/-- What the author of a block puts into it: the slot in the digest, the time of the timestamp inherent and the number
of the relay block it is built against. Transactions and all else are left out. Outside /repo; used at
runtime/kreivo/src/configuration/system_support.rs 96-118. -/
structure Blk where
  slot : Nat
  time : Nat
  relay : Nat

/-- The part of the chain's state that these checks use: the number of the last block, `CurrentSlot` of pallet_aura,
`SlotInfo` of aura_ext, `Now` of pallet_timestamp, `LastRelayChainBlockNumber` and `UnincludedSegment` (the numbers of
its blocks for their heads) of parachain_system. Outside /repo; used at
runtime/kreivo/src/configuration/system_support.rs 96-118 and runtime/kreivo/src/lib.rs 325-359. -/
structure St where
  number : Nat
  slot : Nat
  info : Option (Nat × Nat)
  time : Nat
  relay : Nat
  segment : List Nat

/-- Before the first block: all entries at their defaults. Outside /repo; used at runtime/kreivo/src/lib.rs 325-359. -/
def genesis : St := ⟨0, 0, none, 0, 0, []⟩

/-- `on_initialize` of pallet_aura (outside /repo; used at runtime/kreivo/src/lib.rs 353-359): with
`AllowMultipleBlocksPerSlot` the slot must not decrease. `none` is a panic: the block is invalid. -/
def auraInit (s : St) (b : Blk) : Option Nat := if s.slot ≤ b.slot then some b.slot else none

/-- `on_initialize` of cumulus_pallet_aura_ext (outside /repo; used at runtime/kreivo/src/lib.rs 325): counts the blocks
of the slot. -/
def countBlock (info : Option (Nat × Nat)) (slot : Nat) : Option (Nat × Nat) :=
  match info with
  | none => some (slot, 1)
  | some (sl, n) => if sl = slot then some (sl, n + 1) else if sl < slot then some (slot, 1) else none

/-- `RelayNumberMonotonicallyIncreases` (outside /repo; used at
runtime/kreivo/src/configuration/system_support.rs 106). -/
def relayAdvances (previous current : Nat) : Bool := decide (previous ≤ current)

/-- `FixedVelocityConsensusHook::on_state_proof` (outside /repo; used at runtime/kreivo/src/lib.rs 338-344): the slot
is that of the relay block, and not more than `velocity + 1` blocks are in it. -/
def hook (relaySlot slot authored : Nat) : Bool :=
  decide (slot = relaySlotMillis * relaySlot / slotMillis) && decide (authored ≤ max velocity 1 + 1)

/-- `maybe_drop_included_ancestors` of parachain_system (outside /repo; used at
runtime/kreivo/src/configuration/system_support.rs 96-108): what is up to and with the included head leaves the
segment, nothing if it is not there; then there must be room for a block. -/
def dropIncluded (segment : List Nat) (head : Nat) : Option (List Nat) :=
  let rest := if head ∈ segment then (segment.dropWhile fun n => decide (n ≠ head)).tail else segment
  if rest.length < max capacity 1 then some rest else none

/-- `set` of pallet_timestamp with `OnTimestampSet` of pallet_aura (outside /repo; used at
runtime/kreivo/src/configuration/system_support.rs 112-118): the time does not go back and is in the slot. -/
def setTime (s : St) (slot now : Nat) : Option Nat :=
  if (s.time = 0 ∨ s.time + minimumPeriod ≤ now) ∧ now / slotMillis = slot then some now else none

/-- One block, executed against the relay chain it names; `none` if it is invalid. The hooks and the two inherents
that every block must have, in order (outside /repo; used at runtime/kreivo/src/lib.rs 325-359 and
runtime/kreivo/src/configuration/system_support.rs 96-118). -/
def execute (R : Relay) (s : St) (b : Blk) : Option St := do
  let slot ← auraInit s b
  let info ← countBlock s.info slot
  if relayAdvances s.relay b.relay && hook (R.slot b.relay) info.1 info.2 then
    let rest ← dropIncluded s.segment (R.included b.relay)
    let time ← setTime s slot b.time
    some ⟨s.number + 1, slot, some info, time, b.relay, rest ++ [s.number + 1]⟩
  else none

/-- A chain of blocks from genesis. Part of the transition system around the code (outside /repo). -/
def run (R : Relay) : List Blk → Option St
  | bs => bs.foldl (fun s b => s.bind fun s => execute R s b) (some genesis)

end Verif.Runtime.Clock
