/-
The queue in which messages of the relay chain and of other chains wait until they are executed:
`pallet_message_queue` as runtime/kreivo/src/lib.rs 298-323 configures it, and how
`cumulus_pallet_xcmp_queue` (lib.rs 361-381) fills it. The pallets themselves are outside /repo and
modelled from their documented behaviour: one book per chain of origin, a book being a row of pages,
a page being a heap of messages filled at the end and emptied at the front.

Simplified: weights have one dimension; the bytes of a heap are the list of its messages and their
sizes; the counters `message_count` and `size`, which nothing reads, are left out; `PageIndex` and
the counters do not overflow.
-/

namespace Verif.Xcm.Queue

variable {M : Type}

/-- What is known of a message: its length in bytes, the weight it needs (`none`: it cannot be
decoded), the weight its execution uses. `ProcessXcmMessage`, outside /repo; used at
runtime/kreivo/src/lib.rs 308-312. -/
structure Info (M : Type) where
  size : M → Nat
  need : M → Option Nat
  used : M → Nat

/-- Weights of the steps of the queue (`WeightInfo = ()`, runtime/kreivo/src/lib.rs 304) and the
greatest weight of a message the queue executes by itself: what `ServiceWeight`, lib.rs 299 and 321,
leaves after the steps. -/
structure Costs where
  bump : Nat
  queue : Nat
  page : Nat
  item : Nat
  unknit : Nat
  service : Nat

/-- `single_msg_overhead` and `max_message_weight`; outside /repo; used at
runtime/kreivo/src/lib.rs 321. -/
def Costs.overhead (c : Costs) : Nat := c.bump + c.queue + c.page + c.item + c.unknit

/-- `max_message_weight` of the service weight; outside /repo; used at
runtime/kreivo/src/lib.rs 321. -/
def Costs.limit (c : Costs) : Nat := c.service - c.overhead

/-- `HeapSize`: runtime/kreivo/src/lib.rs 319. -/
def heapSize : Nat := 64 * 1024

/-- `MaxStale`: runtime/kreivo/src/lib.rs 320. -/
def maxStale : Nat := 8

/-- Length of the header of a message on the heap: `Size = u32` (runtime/kreivo/src/lib.rs 314) and
a flag. -/
def header : Nat := 4 + 1

/-- `MaxMessageLen`: the longest message a heap can hold. Outside /repo; used at
runtime/kreivo/src/lib.rs 319. -/
def maxLen : Nat := heapSize - header

/-- A page: its messages, each with whether it was processed; how many the first pass has dealt
with; how many are not processed. Outside /repo; used at runtime/kreivo/src/lib.rs 302-323. -/
structure Page (M : Type) where
  items : List (M × Bool)
  first : Nat
  remaining : Nat
deriving DecidableEq

/-- Bytes used on the heap of a page. Outside /repo; used at runtime/kreivo/src/lib.rs 319. -/
def Page.heap (i : Info M) (p : Page M) : Nat := (p.items.map fun x => header + i.size x.1).sum

/-- `try_append_message`; outside /repo; used at runtime/kreivo/src/lib.rs 319. -/
def Page.append (i : Info M) (p : Page M) (m : M) : Option (Page M) :=
  if heapSize - p.heap i < header + i.size m then none
  else some { p with items := p.items ++ [(m, false)], remaining := p.remaining + 1 }

/-- `from_message`; outside /repo; used at runtime/kreivo/src/lib.rs 319. -/
def Page.of (m : M) : Page M := ⟨[(m, false)], 0, 1⟩

/-- Marks the message at a place processed, once. Outside /repo; used at
runtime/kreivo/src/lib.rs 302-323. -/
def Page.mark (p : Page M) (k : Nat) : Page M :=
  match p.items[k]? with
  | some (m, false) => { p with items := p.items.set k (m, true), remaining := p.remaining - 1 }
  | _ => p

/-- `skip_first`; outside /repo; used at runtime/kreivo/src/lib.rs 302-323. -/
def Page.skip (p : Page M) (processed : Bool) : Page M :=
  let q := if processed then p.mark p.first else p
  { q with first := q.first + 1 }

/-- The book of one chain of origin: pages, the first page not dealt with, the end, how many pages
are stored, and whether the queue is in the ring of queues to be served. Outside /repo; used at
runtime/kreivo/src/lib.rs 302-323. -/
structure Book (M : Type) where
  pages : Nat → Option (Page M)
  start : Nat
  stop : Nat
  count : Nat
  ready : Bool

/-- The book of a chain that sent nothing. Outside /repo; used at
runtime/kreivo/src/lib.rs 302-323. -/
def Book.empty : Book M := ⟨fun _ => none, 0, 0, 0, false⟩

/-- Writes a page. Outside /repo; used at runtime/kreivo/src/lib.rs 302-323. -/
def put (f : Nat → Option (Page M)) (k : Nat) (p : Option (Page M)) : Nat → Option (Page M) :=
  fun j => if j = k then p else f j

/-- `do_enqueue_messages` for one message; outside /repo; used at runtime/kreivo/src/lib.rs 366 and
runtime/kreivo/src/configuration/system_support.rs 102. -/
def enqueue (i : Info M) (b : Book M) (m : M) : Book M :=
  let fresh : Book M := { b with
    pages := put b.pages b.stop (some (.of m)), stop := b.stop + 1, count := b.count + 1,
    ready := true }
  if b.start < b.stop then
    match b.pages (b.stop - 1) with
    | some p =>
      match p.append i m with
      | some q => { b with pages := put b.pages (b.stop - 1) (some q), ready := true }
      | none => fresh
    | none => fresh
  else fresh

/-- What one attempt at a message comes to: dealt with for good, set aside for being too heavy for
any block, or left for when there is more weight. Outside /repo; used at
runtime/kreivo/src/lib.rs 308-312. -/
inductive Attempt
  | finished | aside | later
deriving DecidableEq

/-- `process_message_payload` over `ProcessXcmMessage`; outside /repo; used at
runtime/kreivo/src/lib.rs 308-312. Returns the weight left. -/
def attempt (i : Info M) (limit meter : Nat) (m : M) : Attempt × Nat :=
  match i.need m with
  | none => (.finished, meter)
  | some w =>
    if w ≤ meter then (.finished, meter - i.used m)
    else if limit < w then (.aside, meter) else (.later, meter)

/-- The messages of one page, as long as there is weight: the loop of `service_page` over
`service_page_item`; outside /repo; used at runtime/kreivo/src/lib.rs 302-323. Returns the page,
whether its end was reached, the weight left and the messages dealt with, each with whether it is
done. The first argument bounds the loop; the length of the page is enough. -/
def items (i : Info M) (c : Costs) : Nat → Page M → Nat → Page M × Bool × Nat × List (M × Bool)
  | 0, p, w => (p, true, w, [])
  | n + 1, p, w =>
    if p.remaining = 0 then (p, true, w, [])
    else if w < c.item then (p, false, w, [])
    else
      match p.items[p.first]? with
      | none => (p, true, w - c.item, [])
      | some (m, _) =>
        match attempt i c.limit (w - c.item) m with
        | (.later, w) => (p, false, w, [])
        | (.finished, w) =>
          let r := items i c n (p.skip true) w
          (r.1, r.2.1, r.2.2.1, (m, true) :: r.2.2.2)
        | (.aside, w) =>
          let r := items i c n (p.skip false) w
          (r.1, r.2.1, r.2.2.1, (m, false) :: r.2.2.2)

/-- `service_page` for the first page of the book; outside /repo; used at
runtime/kreivo/src/lib.rs 302-323. Returns whether to go on with the next page. -/
def page (i : Info M) (c : Costs) (b : Book M) (w : Nat) : Book M × Bool × Nat × List (M × Bool) :=
  if w < c.page then (b, false, w, [])
  else
    match b.pages b.start with
    | none => (b, true, w - c.page, [])
    | some p =>
      let r := items i c (p.items.length + 1) p (w - c.page)
      let b :=
        if r.1.remaining = 0 then { b with pages := put b.pages b.start none, count := b.count - 1 }
        else { b with pages := put b.pages b.start (some r.1) }
      (b, r.2.1, r.2.2.1, r.2.2.2)

/-- The book, turned to the next page. Outside /repo; used at runtime/kreivo/src/lib.rs 302-323. -/
def Book.turn (b : Book M) : Book M := { b with start := b.start + 1 }

/-- The loop of `service_queue` over pages; outside /repo; used at
runtime/kreivo/src/lib.rs 302-323. -/
def pages (i : Info M) (c : Costs) : Nat → Book M → Nat → Book M × Nat × List (M × Bool)
  | 0, b, w => (b, w, [])
  | n + 1, b, w =>
    let r := page i c b w
    if r.2.1 then
      let s := pages i c n r.1.turn r.2.2.1
      (s.1, s.2.1, r.2.2.2 ++ s.2.2)
    else (r.1, r.2.2.1, r.2.2.2)

/-- `service_queue`; outside /repo; used at runtime/kreivo/src/lib.rs 302-323. Simplified: the queue
is not paused. -/
def serve (i : Info M) (c : Costs) (b : Book M) (w : Nat) : Book M × Nat × List (M × Bool) :=
  if w < c.queue then (b, w, [])
  else
    let r := pages i c (b.stop - b.start) b (w - c.queue)
    let b := if r.1.stop ≤ r.1.start then { r.1 with ready := false } else r.1
    (b, r.2.1, r.2.2)

/-- `execute_overweight`: anyone has a message that was set aside executed, with weight they pay
for. Outside /repo; used at runtime/kreivo/src/lib.rs 302-323. Returns the message if it is done. -/
def heavy (i : Info M) (b : Book M) (k j w : Nat) : Option (Book M × M) :=
  match b.pages k with
  | none => none
  | some p =>
    match p.items[j]? with
    | none => none
    | some (m, processed) =>
      if ¬ (k < b.start ∨ (k = b.start ∧ j < p.first)) then none
      else if processed then none
      else
        if (attempt i w w m).1 = .finished then
          let q := p.mark j
          let b :=
            if q.remaining = 0 then { b with pages := put b.pages k none, count := b.count - 1 }
            else { b with pages := put b.pages k (some q) }
          some (b, m)
        else none

/-- The pages before the first that is not dealt with: they hold only messages that were set aside.
`do_reap_page`; outside /repo; used at runtime/kreivo/src/lib.rs 320. -/
def stale (b : Book M) : Nat := b.count - min (b.stop - b.start) b.count

/-- The test of `do_reap_page`; outside /repo; used at runtime/kreivo/src/lib.rs 320. -/
def reapable (b : Book M) (k : Nat) (p : Page M) : Bool :=
  decide (k < b.start) &&
  (decide (p.remaining = 0) ||
    (decide (maxStale + 1 ≤ stale b) &&
      decide (k < b.start -
        max (maxStale * maxStale / (stale b - (maxStale + 1) + 1)) maxStale)))

/-- `reap_page`: anyone has a page forgotten whose messages nobody executes. Outside /repo; used at
runtime/kreivo/src/lib.rs 320. Returns the page. -/
def reap (b : Book M) (k : Nat) : Option (Book M × Page M) :=
  match b.pages k with
  | none => none
  | some p =>
    if reapable b k p then some ({ b with pages := put b.pages k none, count := b.count - 1 }, p)
    else none

/-- `drop_threshold`, the default of the queue configuration. Outside /repo; used at
runtime/kreivo/src/lib.rs 361-381. -/
def dropThreshold : Nat := 48

/-- `take_first_concatenated_xcm` and `enqueue_xcmp_message` of `cumulus_pallet_xcmp_queue`; outside
/repo; used at runtime/kreivo/src/lib.rs 361-381. Whether a message of another chain is taken. -/
def takes (i : Info M) (b : Book M) (m : M) : Bool :=
  decide (i.size m ≤ maxLen) && decide (b.stop - b.start + 1 ≤ dropThreshold)

/-- `handle_xcmp_messages`: the messages of one page of another chain, until one cannot be taken; the
rest of the page is dropped. Outside /repo; used at runtime/kreivo/src/lib.rs 361-381 and
runtime/kreivo/src/configuration/system_support.rs 104. Simplified: the weight reserved for it
suffices. Returns the book and the messages taken. -/
def arrive (i : Info M) : Book M → List M → Book M × List M
  | b, [] => (b, [])
  | b, m :: ms =>
    if takes i b m then
      let r := arrive i (enqueue i b m) ms
      (r.1, m :: r.2)
    else (b, [])

/-- The messages of the relay chain: those too long for a heap are dropped one by one. Outside
/repo; used at runtime/kreivo/src/configuration/system_support.rs 102. -/
def descend (i : Info M) (b : Book M) (ms : List M) : Book M :=
  (ms.filter fun m => i.size m ≤ maxLen).foldl (enqueue i) b

end Verif.Xcm.Queue
