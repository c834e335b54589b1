import Verif.Governance.UpgradeTheorems

/-!
# Codes that the scheduler sets (C221)

Calls the collective decided on are made by the scheduler at the beginning of a block, in its `on_initialize`. The hooks run in the
order of the pallets: `ParachainSystem` is pallet 1 and `Scheduler` pallet 45 (runtime/kreivo/src/lib.rs 201-202 and 259-260), and
both run before the first inherent.
-/

namespace Verif.Governance

open Verif Verif.Accounts Verif.Communities Verif.Runtime.Upgrade

variable {C H : Type} [DecidableEq H]

/-- The calls the scheduler makes in a block; a call that fails changes nothing. Outside /repo; used at
runtime/kreivo/src/lib.rs 542-553 (pallet_scheduler). -/
def scheduled (host : Host C H) (current : String × Nat) (s : Runtime.Upgrade.St C H)
    (tasks : List (Origin × Runtime.Upgrade.Call C H)) : Runtime.Upgrade.St C H :=
  tasks.foldl (fun s t => (Runtime.Upgrade.dispatch host current s t.1 t.2).getD s) s

/-- The beginning of a block up to its first inherent: `ParachainSystem`, pallet 1, then the calls of `Scheduler`, pallet 45, then
`set_validation_data`. runtime/kreivo/src/lib.rs 151-152, 201-202 and 259-260 (the order of `AllPalletsWithSystem`). -/
def beginBlock (host : Host C H) (current : String × Nat) (s : Runtime.Upgrade.St C H)
    (tasks : List (Origin × Runtime.Upgrade.Call C H)) (word : Option GoAhead) (restricted : Bool) (m : Nat) :
    Option (Runtime.Upgrade.St C H) :=
  setValidationData (scheduled host current (onInitialize s) tasks) word restricted m

/-- No call writes storage directly. Specification only, no code behind it (outside /repo). -/
def Indirect (tasks : List (Origin × Runtime.Upgrade.Call C H)) : Prop := ∀ t ∈ tasks, ∀ x, t.2 ≠ .writeStorage x

theorem dispatch_early {host : Host C H} {current : String × Nat} {s : Runtime.Upgrade.St C H} (hs : s.validation = false)
    (o : Origin) (c : Runtime.Upgrade.Call C H) (hc : ∀ x, c ≠ .writeStorage x) :
    ((Runtime.Upgrade.dispatch host current s o c).getD s).validation = false ∧
      ((Runtime.Upgrade.dispatch host current s o c).getD s).pending = s.pending ∧
      ((Runtime.Upgrade.dispatch host current s o c).getD s).code = s.code := by
  have hn : ∀ d, scheduleUpgrade host s d = none := fun d => by
    cases hd : scheduleUpgrade host s d with
    | none => rfl
    | some s1 => have := (scheduleUpgrade_some hd).1; rw [hs] at this; cases this
  cases c with
  | setCode d =>
    simp only [Runtime.Upgrade.dispatch, hn, ite_self, Option.getD_none]
    exact ⟨hs, trivial, trivial⟩
  | setCodeWithoutChecks d =>
    simp only [Runtime.Upgrade.dispatch, hn, ite_self, Option.getD_none]
    exact ⟨hs, trivial, trivial⟩
  | authorize d =>
    simp only [Runtime.Upgrade.dispatch]
    split <;> exact ⟨hs, rfl, rfl⟩
  | authorizeWithoutChecks d =>
    simp only [Runtime.Upgrade.dispatch]
    split <;> exact ⟨hs, rfl, rfl⟩
  | applyAuthorized d =>
    simp only [Runtime.Upgrade.dispatch, hn, Option.map_none, ite_self]
    split <;> exact ⟨hs, rfl, rfl⟩
  | writeStorage x => exact absurd rfl (hc x)

theorem scheduled_early (host : Host C H) (current : String × Nat) : ∀ (tasks : List (Origin × Runtime.Upgrade.Call C H))
    (s : Runtime.Upgrade.St C H), s.validation = false → Indirect tasks →
    (scheduled host current s tasks).validation = false ∧ (scheduled host current s tasks).pending = s.pending ∧
      (scheduled host current s tasks).code = s.code
  | [], _, hs, _ => ⟨hs, rfl, rfl⟩
  | t :: tasks, s, hs, ht => by
    obtain ⟨h1, h2, h3⟩ := dispatch_early (host := host) (current := current) hs t.1 t.2 (ht t (by simp))
    obtain ⟨h4, h5, h6⟩ := scheduled_early host current tasks _ h1 (fun x hx => ht x (by simp [hx]))
    exact ⟨h4, h5.trans h2, h6.trans h3⟩

/-- C221: whatever calls the scheduler makes in a block, as root or not, unless they write storage directly they neither make a code
wait nor change the code in force: a code can be scheduled only after the inherent. -/
theorem C221_never (host : Host C H) (current : String × Nat) (s : Runtime.Upgrade.St C H)
    (tasks : List (Origin × Runtime.Upgrade.Call C H)) (h : Indirect tasks) :
    (scheduled host current (onInitialize s) tasks).pending = s.pending ∧
      (scheduled host current (onInitialize s) tasks).code = s.code :=
  (scheduled_early host current tasks (onInitialize s) rfl h).2

/-- C221 fails: the call `set_code` for a newer code, made as root by the scheduler while nothing else waits, the relay chain
allows upgrades and the code is not too large, does not make the code wait. -/
theorem C221_fails : ¬ ∀ (host : Host Nat Nat) (s s' : Runtime.Upgrade.St Nat Nat) (c m : Nat), s.validation = true →
    s.restricted = false → s.pending = none → s.maxSize = some m → host.size c ≤ m → canSetCode host kreivoVersion c = true →
    beginBlock host kreivoVersion s [(.root, .setCode c)] none false m = some s' → s'.pending = some c := by
  intro h
  have := h Demo.host Demo.v114 { Demo.v114 with validation := true } 115 3000000 rfl rfl rfl rfl (by decide) (by decide) rfl
  cases this

/-- C221, the part that holds. A code whose hash the scheduler authorizes, as root and after whatever other calls, comes to wait when
anybody hands it in after the inherent of that block, if it is newer, nothing else waits and the relay chain takes upgrades of its
size; and it is in force with the relay chain's go-ahead in the next block, whatever the scheduler does before that. -/
theorem C221_authorized_partial (host : Host C H) (current : String × Nat) (s : Runtime.Upgrade.St C H)
    (pre next : List (Origin × Runtime.Upgrade.Call C H)) (hpre : Indirect pre) (hnext : Indirect next) (c : C) (o : Origin)
    (m r' m') (word : Option GoAhead) (hw : word ≠ some .goAhead) (hp : s.pending = none) (hc : canSetCode host current c = true)
    (hm : host.size c ≤ m) :
    ∃ s1 s2 s3, beginBlock host current s (pre ++ [(.root, .authorize (host.hash c))]) word false m = some s1 ∧
      Runtime.Upgrade.dispatch host current s1 o (.applyAuthorized c) = some s2 ∧ s2.pending = some c ∧ s2.code = s.code ∧
      beginBlock host current s2 next (some .goAhead) r' m' = some s3 ∧ s3.code = c ∧ s3.pending = none := by
  obtain ⟨h1, h2, h3⟩ := scheduled_early host current pre (onInitialize s) rfl hpre
  have hp' : (scheduled host current (onInitialize s) pre).pending = none := h2.trans hp
  have e1 : scheduled host current (onInitialize s) (pre ++ [(.root, .authorize (host.hash c))]) =
      { scheduled host current (onInitialize s) pre with authorized := some (host.hash c, true) } := by
    simp [scheduled, List.foldl_append, Runtime.Upgrade.dispatch]
  generalize hx : scheduled host current (onInitialize s) pre = x at *
  refine ⟨{ x with authorized := some (host.hash c, true), validation := true, restricted := false, maxSize := some m },
    { x with authorized := none, validation := true, restricted := false, maxSize := some m, pending := some c }, ?_⟩
  have hb : beginBlock host current s (pre ++ [(.root, .authorize (host.hash c))]) word false m =
      some { x with authorized := some (host.hash c, true), validation := true, restricted := false, maxSize := some m } := by
    unfold beginBlock
    rw [e1]
    obtain ⟨code, pending, authorized, validation, restricted, maxSize⟩ := x
    cases hp'
    cases word with
    | none => rfl
    | some w =>
      cases w with
      | abort => rfl
      | goAhead => exact absurd rfl hw
  obtain ⟨-, g2, -⟩ := scheduled_early host current next
    (onInitialize { x with authorized := none, validation := true, restricted := false, maxSize := some m, pending := some c })
    rfl hnext
  have hg : ∃ s3, beginBlock host current
      { x with authorized := none, validation := true, restricted := false, maxSize := some m, pending := some c } next
      (some .goAhead) r' m' = some s3 ∧ s3.code = c ∧ s3.pending = none := by
    unfold beginBlock setValidationData
    dsimp only
    rw [g2]
    exact ⟨_, rfl, rfl, rfl⟩
  obtain ⟨s3, g3, g4, g5⟩ := hg
  refine ⟨s3, hb, ?_, rfl, h3, g3, g4, g5⟩
  simp only [Runtime.Upgrade.dispatch]
  rw [if_pos ⟨trivial, fun _ => hc⟩]
  simp only [scheduleUpgrade]
  rw [if_pos ⟨trivial, trivial, hp', hm⟩]
  rfl

-- Version 115 is authorized by the scheduler, handed in by anybody, and in force one block later.
example : ∃ s1 s2 s3, beginBlock Demo.host kreivoVersion Demo.v114 [(.root, .authorize 115)] none false 3000000 = some s1 ∧
    Runtime.Upgrade.dispatch Demo.host kreivoVersion s1 (.signed [5]) (.applyAuthorized 115) = some s2 ∧ s2.pending = some 115 ∧
    s2.code = 114 ∧ beginBlock Demo.host kreivoVersion s2 [] (some .goAhead) false 3000000 = some s3 ∧ s3.code = 115 ∧
    s3.pending = none :=
  C221_authorized_partial Demo.host kreivoVersion Demo.v114 [] [] (by intro t ht; cases ht) (by intro t ht; cases ht) 115 _
    3000000 false 3000000 none (by decide) rfl (by decide) (by decide)

example : (scheduled Demo.host kreivoVersion (onInitialize Demo.v114)
    [(.root, .authorize 115), (.root, .applyAuthorized 115), (.root, .setCode 115)]).pending = none :=
  (C221_never Demo.host kreivoVersion Demo.v114 _ (by
    intro t ht x
    simp only [List.mem_cons, List.not_mem_nil, or_false] at ht
    rcases ht with rfl | rfl | rfl <;> intro h <;> cases h)).1

end Verif.Governance
