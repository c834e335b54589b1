import Verif.Xcm.Location

/-
Messages that leave Kreivo: `XcmRouter`, runtime/kreivo/src/xcm_config.rs 276-283, what delivery
costs, and the queues of `cumulus_pallet_xcmp_queue` (runtime/kreivo/src/lib.rs 361-381) and
`cumulus_pallet_parachain_system` (runtime/kreivo/src/configuration/system_support.rs 96-109) in which
messages wait to be handed over. The pallets are outside /repo and modelled from their documented
behaviour.

Simplified: pages are lists of messages with sizes; indices of pages are places in a list; signals,
which the queue sends on its own account, are one flag per channel and always fit; the list of messages
a block hands over is not sorted.
-/

namespace Verif.Xcm.Outbound

/-- Where the router sends a message. Outside /repo; used at runtime/kreivo/src/xcm_config.rs
276-283. -/
inductive Way
  | up
  | across (para : UInt32)
deriving DecidableEq

/-- `XcmRouter`: `ParentAsUmp` takes what is for the relay chain, `XcmpQueue` what is for a sibling;
nothing else can be sent. runtime/kreivo/src/xcm_config.rs 276-283. -/
def route (dest : Location) : Option Way :=
  if dest.parents = 1 ∧ dest.interior = [] then some .up
  else
    match dest.parents, dest.interior with
    | 1, [.parachain id] => some (.across id)
    | _, _ => none

/-- What delivery costs as the runtime has it: `ParentAsUmp<ParachainSystem, (), ()>`,
runtime/kreivo/src/xcm_config.rs 280, and `PriceForSiblingDelivery = NoPriceForMessageDelivery`,
runtime/kreivo/src/lib.rs 378. -/
def price (_ : Way) (_length : Nat) : Nat := 0

/-- What the declared prices ask, before the factor, which is at least one:
`PriceForSiblingParachainDelivery` and `PriceForParentDelivery`, runtime/kreivo/src/lib.rs 586-604,
with `TransactionByteFee` of runtime/kreivo/src/configuration/monetary_stuff.rs 38. `cents` is
`CENTS`. -/
def declared (cents : Nat) (_ : Way) (length : Nat) : Nat := 3 * cents + length * (10 * (cents / 1000))

variable {M : Type}

/-- A channel to another chain: whether the other chain asked to stop, whether a signal for it
waits, and the pages that wait. `OutboundChannelDetails`; outside /repo; used at
runtime/kreivo/src/lib.rs 361-381. -/
structure Chan (M : Type) where
  dest : Nat
  suspended : Bool
  signal : Bool
  pages : List (List M)
deriving DecidableEq

/-- A channel that was not used yet. Outside /repo; used at runtime/kreivo/src/lib.rs 361-381. -/
def Chan.new (d : Nat) : Chan M := ⟨d, false, false, []⟩

/-- `MaxPageSize`: runtime/kreivo/src/lib.rs 373. -/
def maxPage : Nat := 103 * 1024

/-- `MaxActiveOutboundChannels`: runtime/kreivo/src/lib.rs 367. -/
def maxChannels : Nat := 128

/-- Bytes of a page: the format and the messages. Outside /repo; used at
runtime/kreivo/src/lib.rs 361-381. -/
def bytes (size : M → Nat) (p : List M) : Nat := 1 + (p.map size).sum

/-- A message put behind the pages that wait: on the last one if it fits. Outside /repo; used at
runtime/kreivo/src/lib.rs 361-381. -/
def append (size : M → Nat) (max : Nat) : List (List M) → M → List (List M)
  | [], m => [[m]]
  | [p], m => if max < bytes size p + size m then [p, [m]] else [p ++ [m]]
  | p :: q :: ps, m => p :: append size max (q :: ps) m

/-- The channel to a chain, put in place of the one there. Outside /repo; used at
runtime/kreivo/src/lib.rs 361-381. -/
def change (cs : List (Chan M)) (d : Nat) (f : Chan M → Chan M) : List (Chan M) :=
  cs.map fun c => if c.dest = d then f c else c

/-- The channel to a chain, if it is not used yet added at the end, unless too many are. Outside /repo;
used at runtime/kreivo/src/lib.rs 367. -/
def ensure (cs : List (Chan M)) (d : Nat) : Option (List (Chan M)) :=
  if cs.any fun c => c.dest = d then some cs
  else if cs.length < maxChannels then some (cs ++ [.new d]) else none

/-- `send_fragment`; outside /repo; used at runtime/kreivo/src/lib.rs 361-381. `open` is the greatest
message the channel takes, if there is a channel. -/
def send (size : M → Nat) (opened : Option Nat) (cs : List (Chan M)) (d : Nat) (m : M) :
    Option (List (Chan M)) :=
  match opened with
  | none => none
  | some most =>
    if min most maxPage < size m + 1 then none
    else (ensure cs d).map fun cs =>
      change cs d fun c => { c with pages := append size (min most maxPage) c.pages m }

/-- `send_signal`; outside /repo; used at runtime/kreivo/src/lib.rs 361-381. -/
def signal (cs : List (Chan M)) (d : Nat) : List (Chan M) :=
  match ensure cs d with
  | none => cs
  | some cs => change cs d fun c => { c with signal := true }

/-- `suspend_channel`: the other chain asks to stop. Outside /repo; used at
runtime/kreivo/src/lib.rs 361-381. -/
def suspend (cs : List (Chan M)) (d : Nat) : List (Chan M) :=
  match ensure cs d with
  | none => cs
  | some cs => change cs d fun c => { c with suspended := true }

/-- Whether a channel is kept in the list. Outside /repo; used at runtime/kreivo/src/lib.rs
361-381. -/
def Chan.kept (c : Chan M) : Bool := c.suspended || c.signal || !c.pages.isEmpty

/-- `resume_channel`: the other chain asks to go on. Outside /repo; used at
runtime/kreivo/src/lib.rs 361-381. -/
def resume (cs : List (Chan M)) (d : Nat) : List (Chan M) :=
  (change cs d fun c => { c with suspended := false }).filter fun c => c.dest != d || c.kept

/-- What the relay chain says of a channel: closed, full, or ready for so many bytes now and so many
ever. `get_channel_status`; outside /repo; used at runtime/kreivo/src/lib.rs 363. -/
inductive Status
  | closed | full
  | ready (now ever : Nat)
deriving DecidableEq

/-- What a block did with a page or signal. Outside /repo; used at runtime/kreivo/src/lib.rs
361-381. -/
inductive Left (M : Type)
  | signal
  | sent (page : List M)
  | lost (pages : List (List M))
deriving DecidableEq

/-- The loop of `take_outbound_messages`: at most one page or signal for each channel, at most `n` in
all. Outside /repo; used at runtime/kreivo/src/configuration/system_support.rs 101. -/
def visit (size : M → Nat) (status : Nat → Status) :
    Nat → List (Chan M) → List (Chan M) × List (Nat × Left M)
  | _, [] => ([], [])
  | n, c :: cs =>
    match status c.dest with
    | .closed =>
      let r := visit size status n cs
      (.new c.dest :: r.1, (c.dest, .lost c.pages) :: r.2)
    | .full =>
      let r := visit size status n cs
      (c :: r.1, r.2)
    | .ready now ever =>
      if n = 0 then (c :: cs, [])
      else if c.signal then
        let r := visit size status (n - 1) cs
        ({ c with signal := false } :: r.1, (c.dest, .signal) :: r.2)
      else if c.suspended then
        let r := visit size status n cs
        (c :: r.1, r.2)
      else
        match c.pages with
        | [] =>
          let r := visit size status n cs
          (c :: r.1, r.2)
        | p :: ps =>
          if bytes size p < now then
            if ever < bytes size p then
              let r := visit size status n cs
              ({ c with pages := ps } :: r.1, (c.dest, .lost [p]) :: r.2)
            else
              let r := visit size status (n - 1) cs
              ({ c with pages := ps } :: r.1, (c.dest, .sent p) :: r.2)
          else
            let r := visit size status n cs
            (c :: r.1, r.2)

/-- Whether something was handed over to the relay chain. Outside /repo; used at
runtime/kreivo/src/lib.rs 361-381. -/
def Left.out : Left M → Bool
  | .lost _ => false
  | _ => true

/-- `take_outbound_messages`: after the loop, channels with nothing left are taken off the list, and as
many of the others as handed something over go to its end. Outside /repo; used at
runtime/kreivo/src/configuration/system_support.rs 101. -/
def take (size : M → Nat) (status : Nat → Status) (limit : Nat) (cs : List (Chan M)) :
    List (Chan M) × List (Nat × Left M) :=
  let r := visit size status limit cs
  let kept := r.1.filter Chan.kept
  let pruned := cs.length - kept.length
  let k := (r.2.filter fun e => e.2.out).length - pruned
  (if k ≤ kept.length then kept.drop k ++ kept.take k else kept, r.2)

/-- How many messages for the relay chain go with a block: as many as its limits on number and bytes
allow. `on_finalize` of the parachain system; outside /repo; used at
runtime/kreivo/src/configuration/system_support.rs 96-109. -/
def fitting (size : M → Nat) : Nat → Nat → List M → Nat
  | 0, _, _ => 0
  | _, _, [] => 0
  | n + 1, room, m :: ms => if size m ≤ room then 1 + fitting size n (room - size m) ms else 0

end Verif.Xcm.Outbound
