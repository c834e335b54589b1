import Verif.Communities.Steps

/-!
# A reference environment and a small chain

Used beside the theorems to show that their hypotheses are met, and for the counterexamples.
-/

namespace Verif.Communities.Demo

open Verif Verif.Accounts Verif.Communities

def alice : AccountId := List.replicate 32 1
def bob : AccountId := List.replicate 32 2
def charlie : AccountId := List.replicate 32 3

/-- Assigning gives out item `m` in the community's collection and takes it from the community's own account. -/
def assign (items : List Item) (c : CId) (m : MId) (who : AccountId) : Option (List Item) :=
  if items.any fun i => decide (i.group = c ∧ i.id = m) then none
  else some (⟨c, m, who, 0⟩ :: items.filter fun i => !decide (i.owner = communityAccount c ∧ i.id = m))

/-- Releasing takes item `m` out of the community's collection, whoever holds it, and gives a membership back to the
community's account. -/
def release (items : List Item) (c : CId) (m : MId) : Option (List Item) :=
  if items.any fun i => decide (i.group = c ∧ i.id = m) then
    some (⟨0, m, communityAccount c, 0⟩ :: items.filter fun i => !decide (i.group = c ∧ i.id = m))
  else none

/-- An environment that refuses nothing. -/
def env : Env where
  assign := assign
  release := release
  denyTransfer := fun _ _ _ => false
  denyFreezeN := fun _ _ _ => false
  denyFreezeA := fun _ _ _ _ => false
  denyCreateAsset := fun _ _ => false
  denyRank := fun _ _ => false
  foreign := fun _ _ _ => none

theorem env_lawful : Lawful env := by
  intro n o w w' h; cases h

/-- Memberships 1 and 2 belong to alice and bob in community 1, membership 3 to charlie in community 2, and community 1
has membership 9 to give out. -/
def items : List Item :=
  [⟨1, 1, alice, 0⟩, ⟨1, 2, bob, 4⟩, ⟨2, 3, charlie, 0⟩, ⟨0, 9, communityAccount 1, 0⟩]

/-- Everybody has 1000 of everything. -/
def world0 : World where
  items := items
  native := fun _ => 1000
  asset := fun _ _ => 1000
  nativeIssuance := 100000
  assetIssuance := fun _ => 100000
  assetMin := fun _ => none
  team := fun _ => ⟨[], [], [], [], false⟩
  polls := fun _ => none

/-- Before anything happened. -/
def start : St where
  info := fun _ => none
  adminOf := fun _ => none
  method := fun _ => .membership
  votes := fun _ => []
  locks := fun _ => []
  frozenN := fun _ => 0
  frozenA := fun _ _ => 0
  providers := fun _ => 0
  events := []
  world := world0

theorem start_genesis : Genesis start :=
  ⟨fun _ => rfl, fun _ => rfl, fun _ => rfl, fun _ => rfl, fun _ => rfl, fun _ _ => rfl, fun _ => rfl⟩

/-- Poll 0 of community 1 is open. -/
def world1 : World := { world0 with polls := fun p => if p = 0 then some (.ongoing .zero 1) else none }

theorem polls_open : PollsMove world0 world1 := by
  intro p
  show match world0.polls p with
    | none => world1.polls p = none ∨ ∃ c, world1.polls p = some (.ongoing .zero c)
    | some .ended => world1.polls p = some .ended
    | some (.ongoing t c) => world1.polls p = some (.ongoing t c) ∨ world1.polls p = some .ended
  simp only [world0, world1]
  by_cases h : p = 0
  · right; exact ⟨1, by simp [h]⟩
  · left; simp [h]

/-- Communities 1 and 2 are registered with alice and bob as admins, and poll 0 of community 1 is open. -/
def chain : St where
  info := fun d => if d = 2 then some .active else if d = 1 then some .active else none
  adminOf := fun o => if o = .signed bob then some 2 else if o = .signed alice then some 1 else none
  method := fun _ => .membership
  votes := fun _ => []
  locks := fun _ => []
  frozenN := fun _ => 0
  frozenA := fun _ _ => 0
  providers := fun a => if a = communityAccount 2 then
      (if a = communityAccount 1 then 0 + 1 else 0) + 1
    else if a = communityAccount 1 then 0 + 1 else 0
  events := []
  world := world1

theorem chain_reachable (cfg : Config) : Reachable cfg chain := by
  refine ⟨start, start_genesis, ?_⟩
  refine Steps.tail (Steps.tail (Steps.tail (Steps.refl _) (Step.register env (.signed alice) 1 none rfl))
    (Step.register env (.signed bob) 2 none ?_)) (s' := { chain with world := world0 }) (Step.world world1 polls_open)
  unfold register payDeposit
  rw [if_neg (by decide), if_neg (by decide)]
  rfl

end Verif.Communities.Demo

namespace Verif.Communities

open Verif Verif.Accounts

/-- Run calls one after another; a failing call changes nothing. -/
def after (cfg : Config) (env : Env) (s : St) : List (Origin × Call) → St
  | [] => s
  | (o, c) :: l => match dispatch cfg env s o c with
    | .ok s' => after cfg env s' l
    | .error _ => after cfg env s l

theorem after_reachable {cfg : Config} {env : Env} (he : Lawful env) {s : St} (h : Reachable cfg s)
    (l : List (Origin × Call)) : Reachable cfg (after cfg env s l) := by
  induction l generalizing s with
  | nil => exact h
  | cons x l ih =>
    obtain ⟨o, c⟩ := x
    unfold after
    split
    · rename_i s' h1; exact ih (h.step (.call env he o c h1))
    · exact ih h

end Verif.Communities
