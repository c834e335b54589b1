import Mathlib.Tactic.Common
import Verif.Runtime.Block

/-!
# Preimages: calls of proposals that are named by their hash (runtime/kreivo/src/lib.rs 542-572)

pallet_preimage with Kreivo's deposits, and how referenda and the scheduler use it. The pallets are outside /repo and taken as
they are in the stable2409 branch; their rules are in the trusted base. What a call is follows from its hash, so only its
length is kept.
-/

namespace Verif.Runtime.Preimages

/-- `RequestStatus`. A ticket is its owner and what is held for it. Outside /repo; used at runtime/kreivo/src/lib.rs 561-572
(pallet_preimage). -/
inductive Status (A : Type)
  | unrequested (ticket : A × Nat) (len : Nat)
  | requested (ticket : Option (A × Nat)) (count : Nat) (len : Option Nat)
  deriving DecidableEq, Repr

/-- The ticket of a status. Outside /repo; used at runtime/kreivo/src/lib.rs 561-572 (pallet_preimage). -/
def Status.ticket {A : Type} : Status A → Option (A × Nat)
  | .unrequested t _ => some t
  | .requested t _ _ => t

/-- The storage: `RequestStatusFor`, whether there are bytes in `PreimageFor`, and what is held of accounts for preimages.
`proposals` are the open referenda whose call is given by hash and length, `tasks` the calls so given that the scheduler has in
its agendas; `made` and `lost`, which the code does not keep, are those it has carried out and those it found no bytes for.
Outside /repo; used at runtime/kreivo/src/lib.rs 542-572 (pallet_preimage, pallet_scheduler) and
runtime/kreivo/src/collective/governance.rs 10-28 (pallet_referenda). -/
structure St (A H : Type) where
  status : H → Option (Status A)
  stored : H → Bool
  held : A → Nat
  proposals : List (H × Nat)
  tasks : List (H × Nat)
  made : List (H × Nat)
  lost : List (H × Nat)

/-- The unit of deposits and the length of what has a hash. Part of the transition system around the code (outside /repo). -/
structure Cfg (H : Type) where
  cents : Nat
  size : H → Nat

/-- `PreimageBaseDeposit` and `PreimageByteDeposit`: runtime/kreivo/src/lib.rs 556-557; `LinearStoragePrice` of one item of some
bytes, runtime/kreivo/src/lib.rs 570. -/
def price (cents len : Nat) : Nat := deposit cents 2 64 + deposit cents 0 1 * len

/-- `MAX_SIZE`, four megabytes. Outside /repo; used at runtime/kreivo/src/lib.rs 561-572 (pallet_preimage). -/
def maxSize : Nat := 4 * 1024 * 1024

/-- The largest `u32`. Outside /repo; used at runtime/kreivo/src/lib.rs 561-572 (pallet_preimage). -/
def u32Max : Nat := 2 ^ 32 - 1

/-- Calls, with the account that signs, or nobody for root (`ManagerOrigin`, runtime/kreivo/src/lib.rs 565), and what referenda
and the scheduler do. Part of the transition system around the code (outside /repo). -/
inductive Op (A H : Type)
  | note (who : Option A) (h : H)
  | unnote (who : Option A) (h : H)
  | request (h : H)
  | unrequest (h : H)
  | submit (h : H) (len : Nat)
  | drop (h : H) (len : Nat)
  | approve (h : H) (len : Nat)
  | schedule (h : H) (len : Nat)
  | cancel (h : H) (len : Nat)
  | run (h : H) (len : Nat)
  deriving DecidableEq

variable {A H : Type} [DecidableEq A] [DecidableEq H]

/-- One more entry in a map. Outside /repo; used at runtime/kreivo/src/lib.rs 561-572 (frame_support). -/
def put {K V : Type} [DecidableEq K] (f : K → V) (a : K) (v : V) : K → V := fun x => if x = a then v else f x

/-- `Consideration::drop`: what a ticket holds is given back. Outside /repo; used at runtime/kreivo/src/lib.rs 566-571
(`HoldConsideration`). -/
def release (s : St A H) (t : A × Nat) : St A H := { s with held := put s.held t.1 (s.held t.1 - t.2) }

/-- `note_bytes`. `can` is what can be held of an account. Outside /repo; used at runtime/kreivo/src/lib.rs 561-572
(pallet_preimage). -/
def note (c : Cfg H) (can : A → Nat → Bool) (s : St A H) (who : Option A) (h : H) : Option (St A H) :=
  if maxSize < c.size h then none
  else match s.status h, who with
    | some (.requested t n _), _ =>
      some { s with status := put s.status h (some (.requested t n (some (c.size h)))), stored := put s.stored h true }
    | some (.unrequested _ _), some _ => none
    | some (.unrequested t l), none =>
      some { s with status := put s.status h (some (.requested (some t) 1 (some l))), stored := put s.stored h true }
    | none, none =>
      some { s with status := put s.status h (some (.requested none 1 (some (c.size h)))), stored := put s.stored h true }
    | none, some a =>
      if can a (price c.cents (c.size h)) then
        some { s with
          status := put s.status h (some (.unrequested (a, price c.cents (c.size h)) (c.size h)))
          stored := put s.stored h true
          held := put s.held a (s.held a + price c.cents (c.size h)) }
      else none

/-- `do_request_preimage`: the count saturates. Outside /repo; used at runtime/kreivo/src/lib.rs 542-572 (pallet_preimage,
pallet_scheduler). -/
def request (s : St A H) (h : H) : St A H :=
  match s.status h with
  | none => { s with status := put s.status h (some (.requested none 1 none)) }
  | some (.requested t n l) => { s with status := put s.status h (some (.requested t (min (n + 1) u32Max) l)) }
  | some (.unrequested t l) => { s with status := put s.status h (some (.requested (some t) 1 (some l))) }

/-- `do_unrequest_preimage`. Outside /repo; used at runtime/kreivo/src/lib.rs 542-572 (pallet_preimage, pallet_scheduler). -/
def unrequest (s : St A H) (h : H) : Option (St A H) :=
  match s.status h with
  | some (.requested t n l) =>
    if 1 < n then some { s with status := put s.status h (some (.requested t (n - 1) l)) }
    else match l, t with
      | none, _ => some { s with status := put s.status h none }
      | some _, none => some { s with status := put s.status h none, stored := put s.stored h false }
      | some l, some t => some { s with status := put s.status h (some (.unrequested t l)) }
  | _ => none

/-- `do_unnote_preimage`: only by the owner of the ticket, or by root. Outside /repo; used at
runtime/kreivo/src/lib.rs 561-572 (pallet_preimage). -/
def unnote (s : St A H) (who : Option A) (h : H) : Option (St A H) :=
  match s.status h with
  | none => none
  | some (.requested (some t) n l) =>
    if who = none ∨ who = some t.1 then
      some { release s t with status := put s.status h (some (.requested none n l)) }
    else none
  | some (.requested none _ _) => if who = none then unrequest s h else none
  | some (.unrequested t _) =>
    if who = none ∨ who = some t.1 then
      some { release s t with status := put s.status h none, stored := put s.stored h false }
    else none

/-- Whether the bytes for a hash and a length are there: `QueryPreimage::fetch` with a length. Outside /repo; used at
runtime/kreivo/src/lib.rs 542-572 (pallet_preimage, pallet_scheduler). -/
def available (c : Cfg H) (s : St A H) (h : H) (len : Nat) : Bool := s.stored h && decide (len = c.size h)

/-- A task is placed and its call requested: `do_schedule`, `do_schedule_named`. The block it is placed in and whether there is
room there is C113 and C143. Outside /repo; used at runtime/kreivo/src/lib.rs 542-553 (pallet_scheduler). -/
def place (s : St A H) (h : H) (len : Nat) : St A H := request { s with tasks := (h, len) :: s.tasks } h

/-- A task is taken out of its agenda, and its call is no more requested: an error in that is ignored. Outside /repo; used at
runtime/kreivo/src/lib.rs 542-553 (pallet_scheduler). -/
def unplace (s : St A H) (h : H) (len : Nat) : St A H :=
  let s := { s with tasks := s.tasks.erase (h, len) }
  (unrequest s h).getD s

/-- The calls. `submit` wants the right length if the bytes are there. `run` is the scheduler coming to a task: if the bytes are
there, the call is made, otherwise the task is given up. Outside /repo; used at runtime/kreivo/src/lib.rs 542-572
(pallet_preimage, pallet_scheduler) and runtime/kreivo/src/collective/governance.rs 10-28 (pallet_referenda). -/
def step (c : Cfg H) (can : A → Nat → Bool) (s : St A H) : Op A H → Option (St A H)
  | .note who h => note c can s who h
  | .unnote who h => unnote s who h
  | .request h => some (request s h)
  | .unrequest h => unrequest s h
  | .submit h len =>
    if s.stored h = true ∧ len ≠ c.size h then none else some { s with proposals := (h, len) :: s.proposals }
  | .drop h len => if (h, len) ∈ s.proposals then some { s with proposals := s.proposals.erase (h, len) } else none
  | .approve h len =>
    if (h, len) ∈ s.proposals then some (place { s with proposals := s.proposals.erase (h, len) } h len) else none
  | .schedule h len => some (place s h len)
  | .cancel h len => if (h, len) ∈ s.tasks then some (unplace s h len) else none
  | .run h len =>
    if (h, len) ∈ s.tasks then
      if available c s h len then some (unplace { s with made := (h, len) :: s.made } h len)
      else some (unplace { s with lost := (h, len) :: s.lost } h len)
    else none

/-- Before the first preimage. Part of the transition system around the code (outside /repo). -/
def empty : St A H := ⟨fun _ => none, fun _ => false, fun _ => 0, [], [], [], []⟩

/-- Calls that succeed one after the other, the first first. Part of the transition system around the code (outside /repo). -/
inductive Steps (c : Cfg H) : St A H → List (Op A H) → St A H → Prop
  | nil {s : St A H} : Steps c s [] s
  | cons {s s' s'' : St A H} {can : A → Nat → Bool} {op : Op A H} {ops : List (Op A H)} :
    step c can s op = some s' → Steps c s' ops s'' → Steps c s (op :: ops) s''

end Verif.Runtime.Preimages
