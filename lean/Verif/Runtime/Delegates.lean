import Mathlib.Data.List.Nodup
import Verif.Runtime.Block

/-!
# Proxies: who is one, announcements and deposits (runtime/kreivo/src/lib.rs 501-526)

pallet_proxy with Kreivo's configuration. The pallet is outside /repo and taken as it is in the stable2409 branch; its rules
are in the trusted base. What a proxy may do once it acts (the filter of its type) is C75 to C77, C88 and C89 and not
repeated here: a call made for an account appears as the permission to make it, and whatever it does as a further step.
-/

namespace Verif.Runtime.Delegates

/-- `ProxyDefinition`. Outside /repo; used at runtime/kreivo/src/lib.rs 513-526 (pallet_proxy). -/
structure Def (A T : Type) where
  delegate : A
  type : T
  delay : Nat
  deriving DecidableEq, Repr

/-- `Announcement`. Outside /repo; used at runtime/kreivo/src/lib.rs 513-526 (pallet_proxy). -/
structure Ann (A H : Type) where
  real : A
  hash : H
  height : Nat
  deriving DecidableEq, Repr

/-- `MaxProxies`: runtime/kreivo/src/lib.rs 506. -/
def maxProxies : Nat := 32

/-- `MaxPending`: runtime/kreivo/src/lib.rs 510. -/
def maxPending : Nat := 32

/-- `ProxyDepositBase` and `ProxyDepositFactor`, for as many proxies: runtime/kreivo/src/lib.rs 502-505. `deposit` of
pallet_proxy (outside /repo). -/
def proxyDeposit (cents n : Nat) : Nat := if n = 0 then 0 else deposit cents 1 40 + deposit cents 0 33 * n

/-- `AnnouncementDepositBase` and `AnnouncementDepositFactor`, for as many announcements: runtime/kreivo/src/lib.rs 507-509.
`rejig_deposit` of pallet_proxy (outside /repo). -/
def annDeposit (cents n : Nat) : Nat := if n = 0 then 0 else deposit cents 1 48 + deposit cents 0 66 * n

/-- The storage of the pallet and the block number; an account without proxies or announcements has empty lists and no deposit.
`reserved` is what is reserved of an account by anybody; `others`, which the code does not keep, is the part of other
pallets. `created` and `alive`, which it does not keep either, are the pure accounts ever made and, with their spawners, those
not killed. Outside /repo; used at runtime/kreivo/src/lib.rs 513-526 (pallet_proxy). -/
structure St (A T H : Type) where
  proxies : A → List (Def A T)
  held : A → Nat
  pending : A → List (Ann A H)
  annHeld : A → Nat
  reserved : A → Nat
  now : Nat
  others : A → Nat
  created : List A
  alive : List (A × A)

/-- What stays the same: the unit of deposits, the order of definitions, and whose the address of a pure account is, if it is
one (the address is a hash of the spawner and more, taken as free of collisions). Part of the transition system around the code
(outside /repo). -/
structure Cfg (A T : Type) where
  cents : Nat
  before : Def A T → Def A T → Bool
  spawnerOf : A → Option A

/-- The calls, each with its signer first, what other pallets do to reserves, and the next block. Part of the transition system
around the code (outside /repo). -/
inductive Op (A T H : Type)
  | addProxy (who : A) (d : Def A T)
  | removeProxy (who : A) (d : Def A T)
  | removeProxies (who : A)
  | createPure (who : A) (t : T) (delay : Nat) (pure : A)
  | killPure (who spawner : A)
  | announce (who real : A) (h : H)
  | removeAnnouncement (who real : A) (h : H)
  | rejectAnnouncement (who delegate : A) (h : H)
  | proxy (who real : A) (force : Option T) (h : H)
  | proxyAnnounced (who delegate real : A) (force : Option T) (h : H)
  | reserveOther (a : A) (n : Nat)
  | unreserveOther (a : A) (n : Nat)
  | next
  deriving DecidableEq

variable {A T H : Type} [DecidableEq A] [DecidableEq T] [DecidableEq H]

/-- One more entry in a map. Outside /repo; used at runtime/kreivo/src/lib.rs 513-526 (frame_support). -/
def put {V : Type} (f : A → V) (a : A) (v : V) : A → V := fun x => if x = a then v else f x

/-- The difference of two deposits is reserved, if possible, or given back, as far as there is as much. Outside /repo; used at
runtime/kreivo/src/lib.rs 516 (pallet_proxy, pallet_balances). -/
def adjust (can : A → Nat → Bool) (r : A → Nat) (a : A) (old new : Nat) : Option (A → Nat) :=
  if old < new then if can a (new - old) then some (put r a (r a + (new - old))) else none
  else some (put r a (r a - (old - new)))

/-- `find_proxy(real, delegate, force)`. Outside /repo; used at runtime/kreivo/src/lib.rs 513-526 (pallet_proxy). -/
def findProxy (s : St A T H) (real delegate : A) (force : Option T) : Option (Def A T) :=
  (s.proxies real).find? fun d =>
    decide (d.delegate = delegate) && (match force with | none => true | some t => decide (d.type = t))

/-- `add_proxy_delegate`: at the place in the order, once. Outside /repo; used at runtime/kreivo/src/lib.rs 513-526
(pallet_proxy). -/
def addProxy (c : Cfg A T) (can : A → Nat → Bool) (s : St A T H) (who : A) (d : Def A T) : Option (St A T H) :=
  if who = d.delegate ∨ d ∈ s.proxies who ∨ maxProxies ≤ (s.proxies who).length then none
  else
    let l := (s.proxies who).takeWhile (fun x => c.before x d) ++ d :: (s.proxies who).dropWhile (fun x => c.before x d)
    match adjust can s.reserved who (s.held who) (proxyDeposit c.cents l.length) with
    | none => none
    | some r => some { s with
        proxies := put s.proxies who l, held := put s.held who (proxyDeposit c.cents l.length), reserved := r }

/-- `remove_proxy_delegate`. Outside /repo; used at runtime/kreivo/src/lib.rs 513-526 (pallet_proxy). -/
def removeProxy (c : Cfg A T) (can : A → Nat → Bool) (s : St A T H) (who : A) (d : Def A T) : Option (St A T H) :=
  if d ∈ s.proxies who then
    let l := (s.proxies who).erase d
    match adjust can s.reserved who (s.held who) (proxyDeposit c.cents l.length) with
    | none => none
    | some r => some { s with
        proxies := put s.proxies who l, held := put s.held who (proxyDeposit c.cents l.length), reserved := r }
  else none

/-- `edit_announcements(delegate, keep)`. Outside /repo; used at runtime/kreivo/src/lib.rs 513-526 (pallet_proxy). -/
def editAnnouncements (c : Cfg A T) (can : A → Nat → Bool) (s : St A T H) (delegate : A) (keep : Ann A H → Bool) :
    Option (St A T H) :=
  let l := (s.pending delegate).filter keep
  if l.length < (s.pending delegate).length then
    match adjust can s.reserved delegate (s.annHeld delegate) (annDeposit c.cents l.length) with
    | none => none
    | some r => some { s with
        pending := put s.pending delegate l, annHeld := put s.annHeld delegate (annDeposit c.cents l.length), reserved := r }
  else none

/-- Who can sign: an account that is no pure account, or one that was made. Part of the transition system around the code (outside
/repo). -/
def canSign (c : Cfg A T) (s : St A T H) (who : A) : Bool :=
  decide (c.spawnerOf who = none) || decide (who ∈ s.created)

/-- The calls of the pallet. `can` is what accounts can still reserve. A new pure account has an address never used before, as
it depends on the block and the position in it. Outside /repo; used at runtime/kreivo/src/lib.rs 513-526 (pallet_proxy). -/
def step (c : Cfg A T) (can : A → Nat → Bool) (s : St A T H) : Op A T H → Option (St A T H)
  | .addProxy who d => if canSign c s who then addProxy c can s who d else none
  | .removeProxy who d => if canSign c s who then removeProxy c can s who d else none
  | .removeProxies who =>
    if canSign c s who then some { s with
      proxies := put s.proxies who [], held := put s.held who 0,
      reserved := put s.reserved who (s.reserved who - s.held who) }
    else none
  | .createPure who t delay p =>
    if canSign c s who ∧ c.spawnerOf p = some who ∧ p ∉ s.created ∧ s.proxies p = [] then
      match adjust can s.reserved who 0 (proxyDeposit c.cents 1) with
      | none => none
      | some r => some { s with
          proxies := put s.proxies p [⟨who, t, delay⟩], held := put s.held p (proxyDeposit c.cents 1), reserved := r,
          created := p :: s.created, alive := (p, who) :: s.alive }
    else none
  | .killPure who spawner =>
    if canSign c s who ∧ c.spawnerOf who = some spawner then some { s with
      proxies := put s.proxies who [], held := put s.held who 0,
      reserved := put s.reserved spawner (s.reserved spawner - s.held who),
      alive := s.alive.erase (who, spawner) }
    else none
  | .announce who real h =>
    if canSign c s who ∧ (∃ d ∈ s.proxies real, d.delegate = who) ∧ (s.pending who).length < maxPending then
      let l := s.pending who ++ [⟨real, h, s.now⟩]
      match adjust can s.reserved who (s.annHeld who) (annDeposit c.cents l.length) with
      | none => none
      | some r => some { s with
          pending := put s.pending who l, annHeld := put s.annHeld who (annDeposit c.cents l.length), reserved := r }
    else none
  | .removeAnnouncement who real h =>
    if canSign c s who then editAnnouncements c can s who fun a => decide (a.real ≠ real) || decide (a.hash ≠ h) else none
  | .rejectAnnouncement who delegate h =>
    if canSign c s who then editAnnouncements c can s delegate fun a => decide (a.real ≠ who) || decide (a.hash ≠ h) else none
  | .proxy who real force _ =>
    if canSign c s who then match findProxy s real who force with
      | some d => if d.delay = 0 then some s else none
      | none => none
    else none
  | .proxyAnnounced who delegate real force h =>
    if canSign c s who then match findProxy s real delegate force with
      | some d => editAnnouncements c can s delegate fun a =>
          decide (a.real ≠ real) || decide (a.hash ≠ h) || decide (s.now - a.height < d.delay)
      | none => none
    else none
  | .reserveOther a n =>
    if can a n then some { s with reserved := put s.reserved a (s.reserved a + n), others := put s.others a (s.others a + n) }
    else none
  | .unreserveOther a n =>
    if n ≤ s.others a then
      some { s with reserved := put s.reserved a (s.reserved a - n), others := put s.others a (s.others a - n) }
    else none
  | .next => some { s with now := s.now + 1 }

/-- Before the first proxy. Part of the transition system around the code (outside /repo). -/
def empty : St A T H := ⟨fun _ => [], fun _ => 0, fun _ => [], fun _ => 0, fun _ => 0, 0, fun _ => 0, [], []⟩

/-- Histories: the calls that succeeded, each with its block, the last first. Part of the transition system around the code
(outside /repo). -/
inductive Run (c : Cfg A T) : List (Nat × Op A T H) → St A T H → Prop
  | start : Run c [] empty
  | step {hist : List (Nat × Op A T H)} {s s' : St A T H} {can : A → Nat → Bool} {op : Op A T H} :
    Run c hist s → step c can s op = some s' → Run c ((s.now, op) :: hist) s'

end Verif.Runtime.Delegates
