import Verif.Runtime.CallWeights

/-!
# The scheduler that carries out refunds and approved proposals (runtime/kreivo/src/lib.rs 528-555)

Kreivo configures pallet_scheduler with at most 50 tasks for a block and 80% of a block for carrying them out;
pallet_payments hands it the cancellation of every refund that was asked for (pallets/payments/src/lib.rs 337-344).
pallet_scheduler is outside `/repo` and taken as it is in the stable2409 branch. Its own weights are parameters
(`Overheads`). Periodic tasks and retries are left out: neither pallet of this project uses them.
-/

namespace Verif.Runtime

open Verif

/-- `MaxScheduledPerBlock`: runtime/kreivo/src/lib.rs 532-535 and 549. -/
def maxScheduled : Nat := 50

/-- A task as the scheduler sees it: who it is, its priority (smaller goes first), the weight of handling it
(`service_task`), the weight set aside for running it (`execute_dispatch` and the declared weight of the call), the weight
it turns out to use, and whether its call can be had (`Preimages::peek`). Outside /repo; used at
runtime/kreivo/src/lib.rs 542-553 (pallet_scheduler). -/
structure Item where
  name : Nat
  priority : Nat
  base : Weight
  cost : Weight
  actual : Weight
  ready : Bool
  deriving DecidableEq

/-- Weights of the scheduler itself: `service_agendas_base` and `service_agenda_base`. Outside /repo; used at
runtime/kreivo/src/lib.rs 550 (pallet_scheduler). -/
structure Overheads where
  agendas : Weight
  agenda : Nat → Weight

/-- `WeightMeter::can_consume`. Outside /repo; used at runtime/kreivo/src/lib.rs 542-553 (sp_weights). -/
def fits (limit used w : Weight) : Bool :=
  decide (used.refTime + w.refTime ≤ limit.refTime) && decide (used.proofSize + w.proofSize ≤ limit.proofSize)

/-- The sum of two weights that are within a limit. Outside /repo; used at runtime/kreivo/src/lib.rs 542-553 (sp_weights). -/
def Weight.plus (v w : Weight) : Weight := ⟨v.refTime + w.refTime, v.proofSize + w.proofSize⟩

/-- `WeightMeter::try_consume`, its result ignored. Outside /repo; used at runtime/kreivo/src/lib.rs 542-553 (sp_weights). -/
def consume (limit used w : Weight) : Weight := if fits limit used w then used.plus w else used

/-- A place in the agenda of a block: `push_to_agenda` takes the end or a hole, and refuses when there are `maxScheduled`
tasks. Outside /repo; used at runtime/kreivo/src/lib.rs 549 (pallet_scheduler). -/
def place (agenda : List Item) (t : Item) : Option (List Item) :=
  if agenda.length < maxScheduled then some (agenda ++ [t]) else none

/-- What came of going through tasks: those that ran, those still there, whether any of them is to be tried again, the
weight used and how many have run in this block. Outside /repo; used at runtime/kreivo/src/lib.rs 542-553
(pallet_scheduler). -/
structure Served where
  ran : List Item
  kept : List Item
  postponed : Bool
  used : Weight
  executed : Nat
  deriving DecidableEq

/-- The loop of `service_agenda`, with `service_task` and `execute_dispatch`: a task that cannot be handled ends the loop;
one whose call is not to be had is left; one that does not fit is left for good if nothing has run yet in this block and
tried again otherwise. Outside /repo; used at runtime/kreivo/src/lib.rs 542-553 (pallet_scheduler). -/
def serveTasks (limit : Weight) : List Item → Weight → Nat → Served
  | [], u, e => ⟨[], [], false, u, e⟩
  | t :: ts, u, e =>
    if fits limit u t.base then
      let u1 := u.plus t.base
      if t.ready then
        if fits limit u1 t.cost then
          let r := serveTasks limit ts (consume limit u1 t.actual) (e + 1)
          { r with ran := t :: r.ran }
        else
          let r := serveTasks limit ts u1 e
          { r with
            kept := t :: r.kept
            postponed := r.postponed || decide (0 < e) }
      else
        let r := serveTasks limit ts u1 e
        { r with kept := t :: r.kept }
    else ⟨[], t :: ts, true, u, e⟩

/-- The order of service: by priority, then by place. Outside /repo; used at runtime/kreivo/src/lib.rs 542-553
(pallet_scheduler). -/
def ordered (agenda : List Item) : List Item := agenda.insertionSort fun a b => a.priority ≤ b.priority

/-- What came of going through the agendas from the first incomplete one to the present: the tasks that ran, and each
agenda as it is left with whether it is complete. Outside /repo; used at runtime/kreivo/src/lib.rs 542-553
(pallet_scheduler). -/
structure Swept where
  ran : List Item
  left : List (List Item × Bool)
  deriving DecidableEq

/-- The loop of `service_agendas`. Outside /repo; used at runtime/kreivo/src/lib.rs 542-553 (pallet_scheduler). -/
def sweep (o : Overheads) (limit : Weight) : List (List Item) → Weight → Nat → Swept
  | [], _, _ => ⟨[], []⟩
  | a :: rest, u, e =>
    if fits limit u (o.agenda maxScheduled) then
      let r := serveTasks limit (ordered a) (consume limit u (o.agenda a.length)) e
      let s := sweep o limit rest r.used r.executed
      ⟨r.ran ++ s.ran, (r.kept, !r.postponed) :: s.left⟩
    else ⟨[], (a :: rest).map fun b => (b, false)⟩

/-- `on_initialize` of the scheduler: given the agendas from `IncompleteSince` to this block, the tasks that ran and the
agendas from the new `IncompleteSince` to this block. Outside /repo; used at runtime/kreivo/src/lib.rs 542-553
(pallet_scheduler). -/
def serveBlock (o : Overheads) (limit : Weight) (backlog : List (List Item)) : List Item × List (List Item) :=
  if fits limit ⟨0, 0⟩ o.agendas then
    let s := sweep o limit backlog (consume limit ⟨0, 0⟩ o.agendas) 0
    (s.ran, (s.left.dropWhile Prod.snd).map Prod.fst)
  else ([], backlog)

/-- Blocks one after the other, each with the agenda made for it: the tasks that ran in each, and what is left. Part of the
transition system around the code (outside /repo). -/
def serveBlocks (o : Overheads) (limit : Weight) (backlog : List (List Item)) : List (List Item) → List Item × List (List Item)
  | [] => ([], backlog)
  | a :: rest =>
    let r := serveBlock o limit (backlog ++ [a])
    let s := serveBlocks o limit r.2 rest
    (r.1 ++ s.1, s.2)

/-! ## Asking for refunds -/

/-- The cancellation of a refund as a task: pallets/payments/src/lib.rs 337-344, with priority 63 and the weight of `cancel`
(runtime/kreivo/src/weights/pallet_payments.rs 91-100). Its call is stored in the task itself. `base` and `exec` are the
weights of handling and running a task (outside /repo). -/
def refundItem (base exec : Weight) (name : Nat) : Item :=
  let w := exec.plus (paymentWeight (.cancel name))
  ⟨name, 63, base, w, w, true⟩

/-- How many of the refund requests carried by the parts of a block are made: those of hooks, and those of transactions
that go in. Part of the transition system around the code (outside /repo). -/
def requestsMade (base : Weight) (u : Used) : List (BlockAct × Nat) → Nat
  | [] => 0
  | (a, n) :: rest =>
    (match a with
      | .hook _ => n
      | .tx c cost _ => if (checkWeight base u c cost).isSome then n else 0) + requestsMade base (blockStep base u a) rest

/-- A part of a block makes `n` refund requests: the weight that stays charged for it covers them
(runtime/kreivo/src/weights/pallet_payments.rs 107-116; the calls that wrap others, such as batches and proxies, add the
weights of what they wrap, and have its class). No inherent declares half the range of a u64. Specification only, no code
behind it (outside /repo). -/
def Carries : BlockAct → Nat → Prop
  | .hook w, n => n * (paymentWeight (.requestRefund 0)).proofSize ≤ w.proofSize
  | .tx c cost unspent, n =>
    n * (paymentWeight (.requestRefund 0)).proofSize + unspent.proofSize ≤ cost.proofSize ∧ (n ≠ 0 → c = .normal) ∧
      cost.proofSize < 2 ^ 63

/-- The proof size of the hooks that make refund requests. Specification only, no code behind it (outside /repo). -/
def hookLoad : List (Weight × Nat) → Nat
  | [] => 0
  | (w, n) :: rest => (if n = 0 then 0 else w.proofSize) + hookLoad rest

/-- Total of a quantity over agendas: `c` for each agenda and `f` for each task. Specification only, no code behind it
(outside /repo). -/
def load (f : Item → Nat) (c : Nat) (agendas : List (List Item)) : Nat :=
  (agendas.map fun a => c + (a.map f).sum).sum

/-- A task fits in a block in which nothing else has run, even after the agendas up to its own have been read and their
tasks handled. Specification only, no code behind it (outside /repo). -/
def FitsAlone (o : Overheads) (limit : Weight) (agendas : List (List Item)) (t : Item) : Prop :=
  o.agendas.refTime + load (fun x => x.base.refTime) (o.agenda maxScheduled).refTime agendas + t.cost.refTime ≤
      limit.refTime ∧
    o.agendas.proofSize + load (fun x => x.base.proofSize) (o.agenda maxScheduled).proofSize agendas + t.cost.proofSize ≤
      limit.proofSize

/-- Total weight set aside for tasks. Specification only, no code behind it (outside /repo). -/
def need : List Item → Weight
  | [] => ⟨0, 0⟩
  | t :: ts => (t.base.plus t.cost).plus (need ts)

/-- Total weight that handling and running tasks takes. Specification only, no code behind it (outside /repo). -/
def spent : List Item → Weight
  | [] => ⟨0, 0⟩
  | t :: ts => (t.base.plus t.actual).plus (spent ts)

end Verif.Runtime
