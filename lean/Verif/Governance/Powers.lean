import Verif.Governance.DisputeTheorems

/-!
# The rest of the runtime under the same governance

`Disputes` puts the payments pallet beside the referenda. Here the rest of the runtime is any set of pallets: what a call
of theirs may do is a relation that sees the call and its origin, and what they do by themselves (hooks, inherents) is
another one. What is proved about this machine holds for every pallet of runtime/kreivo/src/lib.rs 175-291.
-/

namespace Verif.Governance

open Verif Verif.Accounts Verif.Communities

/-- Other pallets with storage `X`: what calls do with an origin (the number names the call with its arguments), and what
goes on without a call. Outside /repo; used at runtime/kreivo/src/lib.rs 175-291. -/
structure Rest (X : Type) where
  acts : X → Origin → Nat → X → Prop
  runs : X → X → Prop

/-- What the call of another pallet a call comes down to does to `X`; it may also fail, which changes nothing. Outside
/repo; used at runtime/kreivo/src/lib.rs 175-291. -/
def Rest.does {X : Type} (R : Rest X) (x : X) : Option (Origin × Nat) → X → Prop
  | none, x' => x' = x
  | some (o, n), x' => x' = x ∨ R.acts x o n x'

/-- One step of the chain, with the call of another pallet made in it: the steps of `GStep` with what their calls do to the
other pallets, and what those do by themselves. Part of the transition system around the code (outside /repo). -/
inductive RStep {X : Type} (R : Rest X) : Option (Origin × Nat) → GSt × X → GSt × X → Prop
  | call {s g : GSt} {x x' : X} (env : GEnv) (he : Tame env) (o : Origin) (ho : Outside o) (c : GCall)
      (h : gdispatch env s o c = some g) (hx : R.does x (inner s o c) x') : RStep R (inner s o c) (s, x) (g, x')
  | run {s : GSt} {x x' : X} (env : GEnv) (he : Tame env) (pre post : List Task) (t : Task)
      (ha : s.agenda = pre ++ t :: post) (hw : t.when ≤ s.now) (hx : R.does x (inner s t.origin t.call) x') :
      RStep R (inner s t.origin t.call) (s, x)
        ((gdispatch env { s with agenda := pre ++ post } t.origin t.call).getD { s with agenda := pre ++ post }, x')
  | apart {s : GSt} {x : X} (pre post rest : List Task) (t : Task) (ha : s.agenda = pre ++ t :: post)
      (hr : rest.Sublist t.parts) (hw : t.when ≤ s.now) : RStep R none (s, x) ({ s with agenda := pre ++ post ++ rest }, x)
  | collective {s g : GSt} {x : X} (env : GEnv) (p : Nat) (h : serviceCollective env s p = some g) :
      RStep R none (s, x) (g, x)
  | community {s g : GSt} {x : X} (env : GEnv) (p : PollIx) (h : serviceCommunity env s p = some g) :
      RStep R none (s, x) (g, x)
  | time {s : GSt} {x : X} (n : Nat) : RStep R none (s, x) ({ s with now := s.now + n }, x)
  | world {s : GSt} {x : X} (w : World) (h : w.polls = s.m.comm.world.polls) :
      RStep R none (s, x) ({ s with m := { s.m with comm := { s.m.comm with world := w } } }, x)
  | alone {s : GSt} {x x' : X} (h : R.runs x x') : RStep R none (s, x) (s, x')

/-- States reached from a state. Part of the transition system around the code (outside /repo). -/
inductive RReach {X : Type} (R : Rest X) (z : GSt × X) : GSt × X → Prop
  | start : RReach R z z
  | step {s s' : GSt × X} {l : Option (Origin × Nat)} (h : RReach R z s) (st : RStep R l s s') : RReach R z s'

/-- The collective has approved a proposal to run a call as root, at the earliest half an hour after it was submitted.
Specification only, no code behind it (outside /repo). -/
def RootDecided (s : GSt) : Prop :=
  ∃ q r n, s.crefs q = some (.approved r n) ∧ r.origin = .root ∧ r.submitted + 30 * minutes ≤ n ∧ n ≤ s.now

end Verif.Governance
