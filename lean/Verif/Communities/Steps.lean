import Verif.Communities.Lemmas

/-!
# Histories of the communities pallet

A step is a call by any origin, a registration by the manager pallet, a forced state change, or anything that happens
in the rest of the chain: memberships, balances and issuance may change arbitrarily between calls, and referenda
start with an empty tally, stay as they are, or end.
-/

namespace Verif.Communities

open Verif Verif.Accounts

/-- What `T::Polls` may do on its own: indices are not reused, a new poll has an empty tally, an ongoing one keeps its
tally and class until it ends. -/
def PollsMove (w w' : World) : Prop :=
  ∀ p, match w.polls p with
    | none => w'.polls p = none ∨ ∃ c, w'.polls p = some (.ongoing .zero c)
    | some .ended => w'.polls p = some .ended
    | some (.ongoing t c) => w'.polls p = some (.ongoing t c) ∨ w'.polls p = some .ended

/-- Calls of other pallets respect `PollsMove`. -/
def Lawful (env : Env) : Prop := ∀ n o w w', env.foreign n o w = some w' → PollsMove w w'

/-- One step of the chain. -/
inductive Step (cfg : Config) : St → St → Prop
  | call {s s' : St} (env : Env) (he : Lawful env) (o : Origin) (c : Call)
      (h : dispatch cfg env s o c = .ok s') : Step cfg s s'
  | register {s s' : St} (env : Env) (admin : Origin) (c : CId) (d : Option (Nat × AccountId × AccountId))
      (h : register env s admin c d = .ok s') : Step cfg s s'
  | force {s : St} (c : CId) (st : CState) : Step cfg s (forceState s c st)
  | world {s : St} (w : World) (h : PollsMove s.world w) : Step cfg s { s with world := w }

/-- Zero or more steps. -/
inductive Steps (cfg : Config) : St → St → Prop
  | refl (s : St) : Steps cfg s s
  | tail {s s' s'' : St} (h : Steps cfg s s') (st : Step cfg s' s'') : Steps cfg s s''

/-- A chain on which the pallet has not been used yet; the rest of the chain is arbitrary but no poll has begun. -/
def Genesis (s : St) : Prop :=
  (∀ c, s.info c = none) ∧ (∀ o, s.adminOf o = none) ∧ (∀ p, s.votes p = []) ∧ (∀ a, s.locks a = []) ∧
  (∀ a, s.frozenN a = 0) ∧ (∀ k a, s.frozenA k a = 0) ∧ (∀ p, s.world.polls p = none)

/-- States a chain can be in. -/
def Reachable (cfg : Config) (s : St) : Prop := ∃ g, Genesis g ∧ Steps cfg g s

theorem Reachable.step {cfg : Config} {s s' : St} (h : Reachable cfg s) (st : Step cfg s s') : Reachable cfg s' := by
  obtain ⟨g, hg, hs⟩ := h
  exact ⟨g, hg, hs.tail st⟩

theorem Steps.trans {cfg : Config} {s s' s'' : St} (h : Steps cfg s s') (h' : Steps cfg s' s'') : Steps cfg s s'' := by
  induction h' with
  | refl => exact h
  | tail _ st ih => exact ih.tail st

/-- Induction principle for invariants. -/
theorem invariant {cfg : Config} {I : St → Prop} (h0 : ∀ s, Genesis s → I s)
    (hs : ∀ s s', I s → Step cfg s s' → I s') {s : St} (h : Reachable cfg s) : I s := by
  obtain ⟨g, hg, hr⟩ := h
  induction hr with
  | refl => exact h0 _ hg
  | tail _ st ih => exact hs _ _ ih st

/-- Monotone facts along a history. -/
theorem along {cfg : Config} {R : St → St → Prop} (hr : ∀ s, R s s) (ht : ∀ a b c, R a b → R b c → R a c)
    (hs : ∀ s s', Step cfg s s' → R s s') {s s' : St} (h : Steps cfg s s') : R s s' := by
  induction h with
  | refl => exact hr _
  | tail _ st ih => exact ht _ _ _ ih (hs _ _ st)

end Verif.Communities
