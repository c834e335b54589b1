import Verif.Governance.AuthorityTheorems
import Verif.Payments.Disputes
import Verif.Payments.Stranded

/-!
# Payments and governance on one chain

Disputes about payments are settled by root (runtime/kreivo/src/payments.rs 85), and root acts through the scheduler only.
This file puts the machine of the referenda and that of the payments on one chain, so that what a scheduled call does to
payments can be followed back to the referendum that scheduled it. A call that is not one of the governance calls is one call of
the payments pallet or none; batches are taken apart, as in Governance/Referenda and Governance/TogetherTheorems.
-/

namespace Verif.Governance

open Verif Verif.Accounts Verif.Communities

/-- The storage of both. Outside /repo; used at runtime/kreivo/src/lib.rs 175-291. -/
structure JSt where
  gov : GSt
  pay : Payments.St

/-- A runtime origin as the payments pallet of Kreivo sees it: `AsSignedByCommunity` looks at the community of a community
origin only (pallets/communities/src/origin.rs 213-218, runtime/kreivo/src/payments.rs 83-85); those of other pallets are
refused alike. -/
def payOrigin : Origin → Payments.Origin
  | .root => .root
  | .none => .none
  | .signed a => .signed (Payments.Kreivo.acctOf a)
  | .community o => .community o.community.toNat
  | .custom _ => .other 0
  | .other n => .other n

/-- The call of another pallet a call comes down to, and the origin it is made with: `dispatch_as` of pallet_utility is for
root and takes any origin, `dispatch_as_account` makes it the community's account (pallets/communities/src/lib.rs 569-572).
-/
def inner (s : GSt) (o : Origin) : GCall → Option (Origin × Nat)
  | .other n => some (o, n)
  | .dispatchAs x call => match o with
    | .root => inner s x call
    | _ => none
  | .asAccount call => match authority kreivo s.m.comm o with
    | none => none
    | some c => inner s (.signed (communityAccount c)) call
  | _ => none

/-- The payments call a call comes down to, if any; `calls` says which calls of other pallets are payments calls. The calls
are those of pallets/payments/src/lib.rs 257-514. -/
def paymentCall (calls : Nat → Option Payments.Call) (s : GSt) (o : Origin) (c : GCall) : Option (Origin × Payments.Call) :=
  match inner s o c with
  | none => none
  | some (o', n) => (calls n).map fun pc => (o', pc)

/-- What it does to payments: the dispatch of pallets/payments/src/lib.rs 257-514 with the configuration of
runtime/kreivo/src/payments.rs 75-98. -/
def onPayments (env : Payments.Env) (s : Payments.St) : Option (Origin × Payments.Call) → Payments.St
  | none => s
  | some (o, c) => Payments.exec Payments.Kreivo.config s (.call env (payOrigin o) c)

/-- One step of the chain, with the payments call made in it: the steps of `GStep`, with what their calls do to payments;
the scheduler carries out a refund; and any other change of free balances. The clocks go together. Part of the transition
system around the code (outside /repo). -/
inductive JStep (calls : Nat → Option Payments.Call) : Option (Origin × Payments.Call) → JSt → JSt → Prop
  | call {s : JSt} {g : GSt} (env : GEnv) (he : Tame env) (penv : Payments.Env) (o : Origin) (ho : Outside o) (c : GCall)
      (h : gdispatch env s.gov o c = some g) :
      JStep calls (paymentCall calls s.gov o c) s ⟨g, onPayments penv s.pay (paymentCall calls s.gov o c)⟩
  | run {s : JSt} (env : GEnv) (he : Tame env) (penv : Payments.Env) (pre post : List Task) (t : Task)
      (ha : s.gov.agenda = pre ++ t :: post) (hw : t.when ≤ s.gov.now) :
      JStep calls (paymentCall calls s.gov t.origin t.call) s
        ⟨(gdispatch env { s.gov with agenda := pre ++ post } t.origin t.call).getD { s.gov with agenda := pre ++ post },
          onPayments penv s.pay (paymentCall calls s.gov t.origin t.call)⟩
  | apart {s : JSt} (pre post rest : List Task) (t : Task) (ha : s.gov.agenda = pre ++ t :: post)
      (hr : rest.Sublist t.parts) (hw : t.when ≤ s.gov.now) :
      JStep calls none s ⟨{ s.gov with agenda := pre ++ post ++ rest }, s.pay⟩
  | collective {s : JSt} {g : GSt} (env : GEnv) (p : Nat) (h : serviceCollective env s.gov p = some g) :
      JStep calls none s ⟨g, s.pay⟩
  | community {s : JSt} {g : GSt} (env : GEnv) (p : PollIx) (h : serviceCommunity env s.gov p = some g) :
      JStep calls none s ⟨g, s.pay⟩
  | time {s : JSt} (n : Nat) :
      JStep calls none s ⟨{ s.gov with now := s.gov.now + n }, { s.pay with now := s.pay.now + n }⟩
  | world {s : JSt} (w : World) (h : w.polls = s.gov.m.comm.world.polls) :
      JStep calls none s ⟨{ s.gov with m := { s.gov.m with comm := { s.gov.m.comm with world := w } } }, s.pay⟩
  | fire {s : JSt} (penv : Payments.Env) (id : Payments.PId) :
      JStep calls none s ⟨s.gov, Payments.exec Payments.Kreivo.config s.pay (.fire penv id)⟩
  | ext {s : JSt} (a : Payments.Asset) (w : Payments.Acct) (free : Nat) :
      JStep calls none s ⟨s.gov, Payments.exec Payments.Kreivo.config s.pay (.ext a w free)⟩
  | setMin {s : JSt} (a : Payments.Asset) (m : Nat) :
      JStep calls none s ⟨s.gov, Payments.exec Payments.Kreivo.config s.pay (.setMin a m)⟩

/-- States reached from a state. Part of the transition system around the code (outside /repo). -/
inductive JReach (calls : Nat → Option Payments.Call) (z : JSt) : JSt → Prop
  | start : JReach calls z z
  | step {s s' : JSt} {l : Option (Origin × Payments.Call)} (h : JReach calls z s) (st : JStep calls l s s') :
      JReach calls z s'

/-- A chain at its beginning: no communities, no referenda, no payments. Specification only, no code behind it (outside
/repo). -/
structure JGenesis (z : JSt) : Prop where
  gov : GGenesis z.gov
  pay : Payments.Initial z.pay

end Verif.Governance
