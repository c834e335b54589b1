import Verif.Governance.PowerTheorems
import Verif.Runtime.Upgrade

/-!
# C187: who replaces the runtime
-/

namespace Verif.Governance

open Verif Verif.Accounts Verif.Communities Verif.Runtime.Upgrade

variable {C H : Type} [DecidableEq H]

/-- The part of the runtime that upgrades go through: its calls, and the beginning of blocks with what the relay chain
says. `calls` says which calls of other pallets are calls of it. Once another code is in force the chain follows that one,
so what the model says of later steps is about a code with the same calls. Part of the transition system around the code (outside
/repo). -/
def upgradeRest (host : Host C H) (current : String × Nat) (calls : Nat → Option (Runtime.Upgrade.Call C H)) :
    Rest (Runtime.Upgrade.St C H) where
  acts x o n x' := ∃ c, calls n = some c ∧ Runtime.Upgrade.dispatch host current x o c = some x'
  runs x x' := x' = onInitialize x ∨ ∃ word restricted m, setValidationData x word restricted m = some x'

/-- The call asks for this code, by itself or by its hash, or writes storage directly. Specification only, no code behind it
(outside /repo). -/
def AsksFor (host : Host C H) (c : C) : Runtime.Upgrade.Call C H → Prop
  | .setCode d => d = c
  | .setCodeWithoutChecks d => d = c
  | .authorize h => h = host.hash c
  | .authorizeWithoutChecks h => h = host.hash c
  | .writeStorage _ => True
  | .applyAuthorized _ => False

/-! ## Helper lemmas -/

omit [DecidableEq H] in
theorem scheduleUpgrade_some {host : Host C H} {s s' : Runtime.Upgrade.St C H} {c : C}
    (h : scheduleUpgrade host s c = some s') :
    s.validation = true ∧ s.restricted = false ∧ s.pending = none ∧ s' = { s with pending := some c } ∧
      ∃ m, s.maxSize = some m ∧ host.size c ≤ m := by
  unfold scheduleUpgrade at h
  split at h
  · cases h
  · rename_i m hm
    split at h
    · rename_i hc; injection h with h; exact ⟨hc.1, hc.2.1, hc.2.2.1, h.symm, m, hm, hc.2.2.2⟩
    · cases h

/-- The code is in force, waits, or may be applied by anybody. Specification only, no code behind it (outside /repo). -/
def OnItsWay (host : Host C H) (c : C) (s : Runtime.Upgrade.St C H) : Prop :=
  s.code = c ∨ s.pending = some c ∨ ∃ b, s.authorized = some (host.hash c, b)

theorem dispatch_onItsWay {host : Host C H} {current : String × Nat} {s s' : Runtime.Upgrade.St C H} {o : Origin}
    {call : Runtime.Upgrade.Call C H} (h : Runtime.Upgrade.dispatch host current s o call = some s') {c : C}
    (h0 : ¬ OnItsWay host c s) (h1 : OnItsWay host c s') : o = .root ∧ AsksFor host c call := by
  have sched : ∀ d, scheduleUpgrade host s d = some s' → d = c := by
    intro d hd
    obtain ⟨_, _, _, rfl, _⟩ := scheduleUpgrade_some hd
    rcases h1 with h1 | h1 | h1
    · exact absurd (.inl h1) h0
    · injection h1
    · exact absurd (.inr (.inr h1)) h0
  cases call with
  | setCode d =>
    simp only [Runtime.Upgrade.dispatch] at h
    split at h
    · rename_i hc; exact ⟨hc.1, sched d h⟩
    · cases h
  | setCodeWithoutChecks d =>
    simp only [Runtime.Upgrade.dispatch] at h
    split at h
    · rename_i hc; exact ⟨hc, sched d h⟩
    · cases h
  | authorize d =>
    simp only [Runtime.Upgrade.dispatch] at h
    split at h
    · rename_i hc
      cases h
      refine ⟨hc, ?_⟩
      rcases h1 with h1 | h1 | ⟨b, h1⟩
      · exact absurd (.inl h1) h0
      · exact absurd (.inr (.inl h1)) h0
      · injection h1 with h1; injection h1
    · cases h
  | authorizeWithoutChecks d =>
    simp only [Runtime.Upgrade.dispatch] at h
    split at h
    · rename_i hc
      cases h
      refine ⟨hc, ?_⟩
      rcases h1 with h1 | h1 | ⟨b, h1⟩
      · exact absurd (.inl h1) h0
      · exact absurd (.inr (.inl h1)) h0
      · injection h1 with h1; injection h1
    · cases h
  | applyAuthorized d =>
    simp only [Runtime.Upgrade.dispatch] at h
    split at h
    · cases h
    · rename_i hh b ha
      split at h
      · rename_i hc
        rw [Option.map_eq_some_iff] at h
        obtain ⟨s1, hs, rfl⟩ := h
        obtain ⟨_, _, _, rfl, _⟩ := scheduleUpgrade_some hs
        rcases h1 with h1 | h1 | ⟨b', h1⟩
        · exact absurd (.inl h1) h0
        · injection h1 with h1
          subst h1
          rw [hc.1] at ha
          exact absurd (.inr (.inr ⟨b, ha⟩)) h0
        · cases h1
      · cases h
  | writeStorage d =>
    simp only [Runtime.Upgrade.dispatch] at h
    split at h
    · rename_i hc; exact ⟨hc, trivial⟩
    · cases h

omit [DecidableEq H] in
theorem validation_onItsWay {host : Host C H} {s s' : Runtime.Upgrade.St C H} {w : Option GoAhead} {r : Bool} {m : Nat}
    (h : setValidationData s w r m = some s') {c : C} (h1 : OnItsWay host c s') : OnItsWay host c s := by
  unfold setValidationData at h
  dsimp only at h
  split at h
  · split at h
    · rename_i d hd
      cases h
      rcases h1 with h1 | h1 | h1
      · have h1 : d = c := h1
        subst h1; exact .inr (.inl hd)
      · cases h1
      · exact .inr (.inr h1)
    · cases h
  · cases h
    rcases h1 with h1 | h1 | h1
    · exact .inl h1
    · cases h1
    · exact .inr (.inr h1)
  · cases h; exact h1

/-! ## C187 -/

/-- C187: a code that was neither in force at the beginning nor waiting nor authorized is in force only if the collective
had decided, in an earlier state of the history, to run a call as root, and the scheduler ran one in that state that asked
for this very code, by itself or by its hash (or wrote storage directly). -/
theorem C187_by_decision (host : Host C H) (current : String × Nat) (calls : Nat → Option (Runtime.Upgrade.Call C H))
    (z s : GSt × Runtime.Upgrade.St C H) (hz : GGenesis z.1) (h : RReach (upgradeRest host current calls) z s) (c : C)
    (h0 : z.2.code ≠ c) (h1 : z.2.pending ≠ some c) (h2 : ∀ b, z.2.authorized ≠ some (host.hash c, b))
    (hc : s.2.code = c) :
    ∃ s1 s2 n call, RReach (upgradeRest host current calls) z s1 ∧
      RStep (upgradeRest host current calls) (some (.root, n)) s1 s2 ∧ RReach (upgradeRest host current calls) s2 s ∧
      calls n = some call ∧ AsksFor host c call ∧ RootDecided s1.1 ∧
      ∃ t ∈ s1.1.agenda, t.origin = .root ∧ t.when ≤ s1.1.now ∧ inner s1.1 .root t.call = some (.root, n) := by
  obtain ⟨s1, s2, o, n, g1, g2, g3, g4, g5, ⟨call, g6, g7⟩, g8⟩ :=
    C186_only_by_decision (upgradeRest host current calls) (OnItsWay host c) (fun _ => False)
      (fun x o n x' ⟨call, _, hd⟩ a b => .inl (dispatch_onItsWay hd a b).1)
      (fun x x' hr a b => by
        rcases hr with rfl | ⟨w, r, m, hr⟩
        · exact a b
        · exact a (validation_onItsWay hr b))
      z s hz (by rintro (e | e | ⟨b, e⟩); exacts [h0 e, h1 e, h2 b e]) h (.inl hc)
  rcases g8 with g8 | ⟨rfl, g8, g9⟩
  · cases g8
  · exact ⟨s1, s2, n, call, g1, g2, g3, g6, (dispatch_onItsWay g7 g4 g5).2, g8, g9⟩

/-- C187: a call by anybody but root makes a code wait only if root authorized its hash, and then, if the authorization asks
for it, only if the code has the name of the one in force and a greater version. The authorization is used up. -/
theorem C187_anybody (host : Host C H) (current : String × Nat) (s s' : Runtime.Upgrade.St C H) (o : Origin)
    (ho : o ≠ .root) (call : Runtime.Upgrade.Call C H) (h : Runtime.Upgrade.dispatch host current s o call = some s') :
    ∃ c check, s.authorized = some (host.hash c, check) ∧ s.pending = none ∧ s.restricted = false ∧
      s' = { s with pending := some c, authorized := none } ∧
      (check = true → ∃ v, host.version c = some v ∧ v.1 = current.1 ∧ current.2 < v.2) := by
  cases call with
  | applyAuthorized d =>
    simp only [Runtime.Upgrade.dispatch] at h
    split at h
    · cases h
    · rename_i hh b ha
      split at h
      · rename_i hc
        rw [Option.map_eq_some_iff] at h
        obtain ⟨s1, hs, rfl⟩ := h
        obtain ⟨_, h2, h3, rfl, _⟩ := scheduleUpgrade_some hs
        refine ⟨d, b, by rw [ha, hc.1], h3, h2, rfl, fun hb => ?_⟩
        have := hc.2 hb
        unfold canSetCode at this
        split at this
        · rename_i v hv; exact ⟨v, hv, of_decide_eq_true this⟩
        · cases this
      · cases h
  | setCode d => simp only [Runtime.Upgrade.dispatch, ho, false_and, if_false] at h; cases h
  | setCodeWithoutChecks d => simp only [Runtime.Upgrade.dispatch, ho, if_false] at h; cases h
  | authorize d => simp only [Runtime.Upgrade.dispatch, ho, if_false] at h; cases h
  | authorizeWithoutChecks d => simp only [Runtime.Upgrade.dispatch, ho, if_false] at h; cases h
  | writeStorage d => simp only [Runtime.Upgrade.dispatch, ho, if_false] at h; cases h

/-- C187: but for calls that write storage directly, no call changes the code in force or replaces a code that waits, and
none makes one wait while the relay chain forbids it, or a code greater than it takes. -/
theorem C187_one_at_a_time (host : Host C H) (current : String × Nat) (s s' : Runtime.Upgrade.St C H) (o : Origin)
    (call : Runtime.Upgrade.Call C H) (hw : ∀ x, call ≠ .writeStorage x)
    (h : Runtime.Upgrade.dispatch host current s o call = some s') :
    s'.code = s.code ∧ (s'.pending = s.pending ∨ s.pending = none ∧ s.restricted = false ∧
      ∃ c m, s'.pending = some c ∧ s.maxSize = some m ∧ host.size c ≤ m) := by
  have sched : ∀ d s1, scheduleUpgrade host s d = some s1 → s1.code = s.code ∧ s.pending = none ∧ s.restricted = false ∧
      ∃ c m, s1.pending = some c ∧ s.maxSize = some m ∧ host.size c ≤ m := by
    intro d s1 hd
    obtain ⟨_, h2, h3, rfl, m, h4, h5⟩ := scheduleUpgrade_some hd
    exact ⟨rfl, h3, h2, d, m, rfl, h4, h5⟩
  cases call with
  | setCode d =>
    simp only [Runtime.Upgrade.dispatch] at h
    split at h
    · have := sched d _ h; exact ⟨this.1, .inr this.2⟩
    · cases h
  | setCodeWithoutChecks d =>
    simp only [Runtime.Upgrade.dispatch] at h
    split at h
    · have := sched d _ h; exact ⟨this.1, .inr this.2⟩
    · cases h
  | authorize d =>
    simp only [Runtime.Upgrade.dispatch] at h
    split at h
    · cases h; exact ⟨rfl, .inl rfl⟩
    · cases h
  | authorizeWithoutChecks d =>
    simp only [Runtime.Upgrade.dispatch] at h
    split at h
    · cases h; exact ⟨rfl, .inl rfl⟩
    · cases h
  | applyAuthorized d =>
    simp only [Runtime.Upgrade.dispatch] at h
    split at h
    · cases h
    · split at h
      · rw [Option.map_eq_some_iff] at h
        obtain ⟨s1, hs, rfl⟩ := h
        have := sched d _ hs; exact ⟨this.1, .inr this.2⟩
      · cases h
  | writeStorage x => exact absurd rfl (hw x)

omit [DecidableEq H] in
/-- C187: the code in force changes at the beginning of a block only, when the relay chain gives its go-ahead, and then it
becomes the one that waited; when the relay chain says no, the waiting code is dropped; else nothing changes. -/
theorem C187_relay_agrees (s s' : Runtime.Upgrade.St C H) (w : Option GoAhead) (r : Bool) (m : Nat)
    (h : setValidationData s w r m = some s') :
    s'.restricted = r ∧ s'.authorized = s.authorized ∧
    ((w = some .goAhead ∧ s.pending = some s'.code ∧ s'.pending = none) ∨
     (w = some .abort ∧ s'.code = s.code ∧ s'.pending = none) ∨
     (w = none ∧ s'.code = s.code ∧ s'.pending = s.pending)) := by
  unfold setValidationData at h
  dsimp only at h
  split at h
  · split at h
    · rename_i d hd; cases h; exact ⟨rfl, rfl, .inl ⟨rfl, hd, rfl⟩⟩
    · cases h
  · cases h; exact ⟨rfl, rfl, .inr (.inl ⟨rfl, rfl, rfl⟩)⟩
  · cases h; exact ⟨rfl, rfl, .inr (.inr ⟨rfl, rfl, rfl⟩)⟩

/-- C187: `set_code` takes only a code with the name of this runtime and a version greater than 114. -/
theorem C187_newer (host : Host C H) (s s' : Runtime.Upgrade.St C H) (o : Origin) (c : C)
    (h : Runtime.Upgrade.dispatch host kreivoVersion s o (.setCode c) = some s') :
    o = .root ∧ s'.pending = some c ∧ ∃ n, host.version c = some ("kreivo-parachain", n) ∧ 115 ≤ n := by
  simp only [Runtime.Upgrade.dispatch] at h
  split at h
  · rename_i hc
    obtain ⟨_, _, _, rfl, _⟩ := scheduleUpgrade_some h
    refine ⟨hc.1, rfl, ?_⟩
    have := hc.2
    unfold canSetCode at this
    split at this
    · rename_i v hv
      obtain ⟨a, b⟩ := of_decide_eq_true this
      obtain ⟨v1, v2⟩ := v
      have a : v1 = "kreivo-parachain" := a
      subst a
      exact ⟨v2, hv, b⟩
    · cases this
  · cases h

/-- A runtime is its version, and its own hash. Example for non-vacuity (outside /repo). -/
def Demo.host : Host Nat Nat := ⟨id, fun _ => 1000, fun c => some ("kreivo-parachain", c)⟩

/-- Version 114 is in force, and upgrades are allowed. Example for non-vacuity (outside /repo). -/
def Demo.v114 : Runtime.Upgrade.St Nat Nat := ⟨114, none, none, true, false, some 3000000⟩

/-- Call 3 authorizes version 115, call 4 applies it. Example for non-vacuity (outside /repo). -/
def Demo.upgradeCalls : Nat → Option (Runtime.Upgrade.Call Nat Nat)
  | 3 => some (.authorize 115)
  | 4 => some (.applyAuthorized 115)
  | _ => none

/-- Non-vacuity of C187: the collective decides to authorize version 115, somebody applies it, the relay chain agrees, and it
is in force. -/
example : ∃ s : GSt × Runtime.Upgrade.St Nat Nat, GGenesis Demo.gstart ∧
    RReach (upgradeRest Demo.host kreivoVersion Demo.upgradeCalls) (Demo.gstart, Demo.v114) s ∧ s.2.code = 115 ∧
    Demo.v114.code ≠ 115 ∧ Demo.v114.pending ≠ some 115 ∧ ∀ b, Demo.v114.authorized ≠ some (Demo.host.hash 115, b) := by
  obtain ⟨_, s1, _, _, h1⟩ := Demo.decided_run (R := upgradeRest Demo.host kreivoVersion Demo.upgradeCalls)
    (x := Demo.v114) (x' := { Demo.v114 with authorized := some (115, true) }) ⟨_, rfl, rfl⟩
  have h2 := RReach.step h1 (.call (g := s1) (x' := { Demo.v114 with pending := some 115 }) Demo.genv Demo.genv_tame
    (.signed [5]) trivial (.other 4) rfl (.inr ⟨_, rfl, rfl⟩))
  have h3 := RReach.step h2 (.alone (x' := { Demo.v114 with code := 115 }) (.inr ⟨some .goAhead, false, 3000000, rfl⟩))
  exact ⟨_, Demo.gstart_genesis, h3, rfl, by decide, by decide, fun b h => by cases h⟩

/-- A code with the same version is refused, and so is any but the authorized one; and the author cannot go ahead without
one that waits. -/
example :
    (Runtime.Upgrade.dispatch Demo.host kreivoVersion Demo.v114 .root (.setCode 114)).isNone = true ∧
    (Runtime.Upgrade.dispatch Demo.host kreivoVersion Demo.v114 .root (.setCode 115)).isSome = true ∧
    (Runtime.Upgrade.dispatch Demo.host kreivoVersion Demo.v114 (.signed [5]) (.setCode 115)).isNone = true ∧
    (Runtime.Upgrade.dispatch Demo.host kreivoVersion { Demo.v114 with authorized := some (115, true) } .none
      (.applyAuthorized 116)).isNone = true ∧
    (setValidationData Demo.v114 (some .goAhead) false 3000000).isNone = true := by decide

end Verif.Governance
