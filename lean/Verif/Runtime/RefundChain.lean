import Verif.Runtime.SchedulerTheorems
import Verif.Payments.RefundTheorems

/-!
# Payments and the scheduler together

The machine of pallet_payments (Payments/Model.lean) takes the running of a scheduled cancellation as an action that may
happen at any time. Here the scheduler (Scheduler.lean) says when it happens: `request_refund` puts a task on an agenda,
`dispute_refund` takes it off (pallets/payments/src/lib.rs 337-344 and 427-457), and in every block the scheduler goes
through the agendas that are not complete (runtime/kreivo/src/lib.rs 528-555).
-/

namespace Verif.Runtime

open Verif

/-- A chain with payments and a scheduler: the payments, the tasks that the scheduler runs in this block and has not come to
yet, the agendas of earlier blocks that are not complete, and the agendas of later blocks. Part of the transition system
around the code (outside /repo). -/
structure Scheduled where
  pay : Payments.St
  running : List Item
  backlog : List (List Item)
  future : Payments.Block → List Item

/-- What a call does to the agendas of later blocks: a refund that was asked for gets a task (`schedule_named`), and the task
of one that is disputed is taken away (`cancel_named`). pallets/payments/src/lib.rs 337-344 and 427-457. -/
def planned (base exec : Weight) (s s' : Payments.St) (c : Payments.Call) (f : Payments.Block → List Item) :
    Payments.Block → List Item :=
  match c with
  | .requestRefund id =>
    match s.agenda id, s'.agenda id with
    | none, some t => fun d => if d = t.due then f d ++ [refundItem base exec id] else f d
    | _, _ => f
  | .disputeRefund id =>
    match s.agenda id, s'.agenda id with
    | some _, none => fun d => (f d).filter fun t => decide (t ≠ refundItem base exec id)
    | _, _ => f
  | _ => f

/-- Tasks of others are taken away; refunds stay. Specification only, no code behind it (outside /repo). -/
def Fewer (base exec : Weight) (a b : List Item) : Prop :=
  a.Sublist b ∧ ∀ id, refundItem base exec id ∈ b → refundItem base exec id ∈ a

/-- One step of the chain, with what happens to the payments: a block begins and the scheduler chooses what to run; a refund
runs; a task of others runs (what it does to payments is a call); a call; balances change otherwise; others schedule a task;
others take tasks away. A refund can only be asked for when its agenda has room. Part of the transition system around the
code (outside /repo). -/
inductive Moves (cfg : Payments.Config) (o : Overheads) (limit base exec : Weight) :
    Scheduled → List Payments.Act → Scheduled → Prop
  | block {c : Scheduled} (h : c.running = []) : Moves cfg o limit base exec c [.tick]
      { pay := Payments.exec cfg c.pay .tick
        running := (serveBlock o limit (c.backlog ++ [c.future (c.pay.now + 1)])).1
        backlog := (serveBlock o limit (c.backlog ++ [c.future (c.pay.now + 1)])).2
        future := fun d => if d = c.pay.now + 1 then [] else c.future d }
  | refund {c : Scheduled} (env : Payments.Env) (id : Payments.PId) (rest : List Item)
      (h : c.running = refundItem base exec id :: rest) : Moves cfg o limit base exec c [.fire env id]
      { c with
        pay := Payments.exec cfg c.pay (.fire env id)
        running := rest }
  | other {c : Scheduled} (t : Item) (rest : List Item) (h : c.running = t :: rest)
      (ht : ∀ id, t ≠ refundItem base exec id) : Moves cfg o limit base exec c [] { c with running := rest }
  | call {c : Scheduled} (env : Payments.Env) (org : Payments.Origin) (call : Payments.Call)
      (hs : env.schedOk = true → (c.future (c.pay.now + cfg.cancelBuffer)).length < maxScheduled) :
      Moves cfg o limit base exec c [.call env org call]
      { c with
        pay := Payments.exec cfg c.pay (.call env org call)
        future := planned base exec c.pay (Payments.exec cfg c.pay (.call env org call)) call c.future }
  | ext {c : Scheduled} (a : Payments.Asset) (w : Payments.Acct) (f : Nat) : Moves cfg o limit base exec c [.ext a w f]
      { c with pay := Payments.exec cfg c.pay (.ext a w f) }
  | setMin {c : Scheduled} (a : Payments.Asset) (m : Nat) : Moves cfg o limit base exec c [.setMin a m]
      { c with pay := Payments.exec cfg c.pay (.setMin a m) }
  | plan {c : Scheduled} (d : Payments.Block) (t : Item) (hd : c.pay.now < d) (ht : ∀ id, t ≠ refundItem base exec id)
      (hr : (c.future d).length < maxScheduled) : Moves cfg o limit base exec c []
      { c with future := fun e => if e = d then c.future e ++ [t] else c.future e }
  | unplan {c : Scheduled} (backlog : List (List Item)) (future : Payments.Block → List Item)
      (hb : List.Forall₂ (Fewer base exec) backlog c.backlog) (hf : ∀ d, Fewer base exec (future d) (c.future d)) :
      Moves cfg o limit base exec c []
      { c with
        backlog := backlog
        future := future }

/-- Steps one after the other, with all that happens to the payments. Part of the transition system around the code (outside
/repo). -/
inductive History (cfg : Payments.Config) (o : Overheads) (limit base exec : Weight) :
    Scheduled → List Payments.Act → Scheduled → Prop
  | nil {c : Scheduled} : History cfg o limit base exec c [] c
  | cons {c c' c'' : Scheduled} {acts acts' : List Payments.Act} (st : Moves cfg o limit base exec c acts c')
      (h : History cfg o limit base exec c' acts' c'') : History cfg o limit base exec c (acts ++ acts') c''

/-- A chain at its beginning: no payments and no tasks. Specification only, no code behind it (outside /repo). -/
def Scheduled.Fresh (c : Scheduled) : Prop :=
  Payments.Initial c.pay ∧ c.running = [] ∧ c.backlog = [] ∧ ∀ d, c.future d = []

end Verif.Runtime
