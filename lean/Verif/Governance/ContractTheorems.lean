import Verif.Governance.PowerTheorems
import Verif.Runtime.ContractCode

/-!
# C188: which code runs as a contract, and who made the first one
-/

namespace Verif.Governance

open Verif Verif.Accounts Verif.Communities

/-- The contracts pallet as a part of the runtime that does nothing by itself. `calls` says which calls of other pallets are
calls of it. Part of the transition system around the code (outside /repo). -/
def contractRest (calls : Nat → Option Runtime.Contracts.Call) : Rest Runtime.Contracts.St where
  acts x o n x' := ∃ c, calls n = some c ∧ Runtime.Contracts.dispatch x o c = some x'
  runs _ _ := False

/-- The code is kept, or some contract runs it. Specification only, no code behind it (outside /repo). -/
def CodeThere (h : Nat) (s : Runtime.Contracts.St) : Prop :=
  s.codes h ≠ none ∨ ∃ a d, s.contracts a = some (h, d)

/-- There is a contract. Specification only, no code behind it (outside /repo). -/
def SomeContract (s : Runtime.Contracts.St) : Prop := ∃ a, s.contracts a ≠ none

/-- The call brings this code to the chain. Specification only, no code behind it (outside /repo). -/
def Brings (h : Nat) : Runtime.Contracts.Call → Prop
  | .upload h' => h' = h
  | .instantiateWithCode h' _ _ => h' = h
  | _ => False

/-- The communities that may make contracts: 1 (Virto) and 2 (Kippu). Specification only, no code behind it (outside
/repo). -/
def Deployer : Origin → Prop
  | .community o => o.community = 1 ∨ o.community = 2
  | _ => False

/-! ## Helper lemmas -/

theorem ask_facts {s s' : Runtime.Contracts.St} {a : Runtime.Contracts.Ask} (h : Runtime.Contracts.ask s a = some s') :
    s'.codes = s.codes ∧ (SomeContract s) ∧
      ∀ b k d, s'.contracts b = some (k, d) → s.codes k ≠ none ∨ s.contracts b = some (k, d) := by
  cases a with
  | instantiate self k b =>
    simp only [Runtime.Contracts.ask] at h
    split at h
    · rename_i hc
      cases h
      refine ⟨rfl, ⟨self, hc.1⟩, fun x k' d hx => ?_⟩
      simp only [Runtime.Contracts.put] at hx
      split at hx
      · cases hx; exact .inl hc.2.1
      · exact .inr hx
    · cases h
  | setCodeHash self k =>
    simp only [Runtime.Contracts.ask] at h
    split at h
    · rename_i y d hs
      split at h
      · rename_i hc
        cases h
        refine ⟨rfl, ⟨self, by rw [hs]; simp⟩, fun x k' d' hx => ?_⟩
        simp only [Runtime.Contracts.put] at hx
        split at hx
        · cases hx; exact .inl hc
        · exact .inr hx
      · cases h
    · cases h
  | terminate self =>
    simp only [Runtime.Contracts.ask] at h
    split at h
    · rename_i hc
      cases h
      refine ⟨rfl, ⟨self, hc⟩, fun x k' d' hx => ?_⟩
      simp only [Runtime.Contracts.put] at hx
      split at hx
      · cases hx
      · exact .inr hx
    · cases h

theorem asks_facts (l : List Runtime.Contracts.Ask) (s : Runtime.Contracts.St) :
    (Runtime.Contracts.asks s l).codes = s.codes ∧
      (∀ b k d, (Runtime.Contracts.asks s l).contracts b = some (k, d) →
        s.codes k ≠ none ∨ ∃ c e, s.contracts c = some (k, e)) ∧
      (SomeContract (Runtime.Contracts.asks s l) → SomeContract s) := by
  induction l generalizing s with
  | nil => exact ⟨rfl, fun b k d h => .inr ⟨b, d, h⟩, id⟩
  | cons a l ih =>
    have e : Runtime.Contracts.asks s (a :: l) = Runtime.Contracts.asks ((Runtime.Contracts.ask s a).getD s) l := rfl
    rw [e]
    cases ha : Runtime.Contracts.ask s a with
    | none => exact ih s
    | some s1 =>
      obtain ⟨h1, h2, h3⟩ := ask_facts ha
      obtain ⟨g1, g2, g3⟩ := ih s1
      refine ⟨g1.trans h1, fun b k d hb => ?_, fun _ => h2⟩
      rcases g2 b k d hb with g | ⟨c, f, g⟩
      · exact .inl (by rw [← h1]; exact g)
      · exact (h3 c k f g).imp id fun x => ⟨c, f, x⟩

theorem make_facts {s s' : Runtime.Contracts.St} {who a : AccountId} {h : Nat} {l : List Runtime.Contracts.Ask}
    (hm : Runtime.Contracts.make s who h a l = some s') :
    s.codes h ≠ none ∧ s'.codes = s.codes ∧
      ∀ b k d, s'.contracts b = some (k, d) → s.codes k ≠ none ∨ ∃ c e, s.contracts c = some (k, e) := by
  unfold Runtime.Contracts.make at hm
  split at hm
  · rename_i hc
    cases hm
    obtain ⟨g1, g2, _⟩ := asks_facts l { s with contracts := Runtime.Contracts.put s.contracts a (some (h, who)) }
    refine ⟨hc.1, g1, fun b k d hb => ?_⟩
    rcases g2 b k d hb with g | ⟨c, f, g⟩
    · exact .inl g
    · simp only [Runtime.Contracts.put] at g
      split at g
      · cases g; exact .inl hc.1
      · exact .inr ⟨c, f, g⟩
  · cases hm

theorem code_there {s s' : Runtime.Contracts.St} {o : Origin} {call : Runtime.Contracts.Call}
    (hd : Runtime.Contracts.dispatch s o call = some s') {h : Nat} (h0 : ¬ CodeThere h s) (h1 : CodeThere h s') :
    o = .root ∧ Brings h call := by
  have n0 : s.codes h = none := by by_contra hc; exact h0 (.inl hc)
  have n1 : ∀ c e, s.contracts c ≠ some (h, e) := fun c e hc => h0 (.inr ⟨c, e, hc⟩)
  cases call with
  | upload k =>
    simp only [Runtime.Contracts.dispatch] at hd
    split at hd
    · rename_i a ho
      cases hd
      refine ⟨((C98_upload _ _).mp ho).1, ?_⟩
      by_contra hk
      rcases h1 with h1 | ⟨a, d, h1⟩
      · simp only [Runtime.Contracts.put] at h1
        rw [if_neg (fun e => hk e.symm)] at h1
        exact h1 n0
      · exact n1 a d h1
    · cases hd
  | remove k =>
    simp only [Runtime.Contracts.dispatch] at hd
    split at hd
    · split at hd
      · cases hd
        rcases h1 with h1 | ⟨a, d, h1⟩
        · simp only [Runtime.Contracts.put] at h1
          split at h1
          · exact absurd rfl h1
          · exact absurd n0 h1
        · exact absurd h1 (n1 a d)
      · cases hd
    · cases hd
  | instantiate k a l =>
    simp only [Runtime.Contracts.dispatch] at hd
    split at hd
    · obtain ⟨_, g1, g2⟩ := make_facts hd
      rcases h1 with h1 | ⟨b, d, h1⟩
      · rw [g1] at h1; exact absurd n0 h1
      · rcases g2 b h d h1 with g | ⟨c, e, g⟩
        · exact absurd n0 g
        · exact absurd g (n1 c e)
    · cases hd
  | instantiateWithCode k a l =>
    simp only [Runtime.Contracts.dispatch] at hd
    split at hd
    · rename_i up who ho
      refine ⟨((C98_instantiate_with_code _ _).mp ho).1, ?_⟩
      obtain ⟨_, g1, g2⟩ := make_facts hd
      by_contra hk
      have n2 : Runtime.Contracts.put s.codes k (some ((s.codes k).getD up)) h = none := by
        simp only [Runtime.Contracts.put]
        rw [if_neg (fun e => hk e.symm)]
        exact n0
      rcases h1 with h1 | ⟨b, d, h1⟩
      · rw [g1] at h1; exact h1 n2
      · rcases g2 b h d h1 with g | ⟨c, e, g⟩
        · exact g n2
        · exact n1 c e g
    · cases hd
  | setCode a k =>
    simp only [Runtime.Contracts.dispatch] at hd
    split at hd
    · split at hd
      · rename_i hc
        cases hd
        rcases h1 with h1 | ⟨b, d, h1⟩
        · exact absurd n0 h1
        · simp only [Runtime.Contracts.put] at h1
          split at h1
          · cases h1; exact absurd n0 hc
          · exact absurd h1 (n1 b d)
      · cases hd
    · cases hd
  | call a l =>
    simp only [Runtime.Contracts.dispatch] at hd
    split at hd
    · cases hd
      obtain ⟨g1, g2, _⟩ := asks_facts l s
      rcases h1 with h1 | ⟨b, d, h1⟩
      · rw [g1] at h1; exact absurd n0 h1
      · rcases g2 b h d h1 with g | ⟨c, e, g⟩
        · exact absurd n0 g
        · exact absurd g (n1 c e)
    · cases hd

theorem some_contract {s s' : Runtime.Contracts.St} {o : Origin} {call : Runtime.Contracts.Call}
    (hd : Runtime.Contracts.dispatch s o call = some s') (h0 : ¬ SomeContract s) (h1 : SomeContract s') :
    o = .root ∨ Deployer o := by
  cases call with
  | upload k =>
    simp only [Runtime.Contracts.dispatch] at hd
    split at hd
    · cases hd; exact absurd h1 h0
    · cases hd
  | remove k =>
    simp only [Runtime.Contracts.dispatch] at hd
    split at hd
    · split at hd
      · cases hd; exact absurd h1 h0
      · cases hd
    · cases hd
  | instantiate k a l =>
    simp only [Runtime.Contracts.dispatch] at hd
    split at hd
    · rename_i who ho
      rcases (C98_instantiate _ _).mp ho with ⟨h, _⟩ | ⟨c, rfl, h, _⟩
      · exact .inl h
      · exact .inr h
    · cases hd
  | instantiateWithCode k a l =>
    simp only [Runtime.Contracts.dispatch] at hd
    split at hd
    · rename_i up who ho
      exact .inl ((C98_instantiate_with_code _ _).mp ho).1
    · cases hd
  | setCode a k =>
    simp only [Runtime.Contracts.dispatch] at hd
    split at hd
    · exact .inl rfl
    · cases hd
  | call a l =>
    simp only [Runtime.Contracts.dispatch] at hd
    split at hd
    · rename_i hc; exact absurd ⟨a, hc.2⟩ h0
    · cases hd

/-! ## C188 -/

/-- C188: a code that was not there at the beginning runs as a contract only if the collective had decided, in an earlier
state of the history, to run a call as root, and the scheduler ran one in that state that brought this very code. -/
theorem C188_code_by_decision (calls : Nat → Option Runtime.Contracts.Call) (z s : GSt × Runtime.Contracts.St)
    (hz : GGenesis z.1) (h : RReach (contractRest calls) z s) (k : Nat) (h0 : z.2.codes k = none)
    (h1 : ∀ a d, z.2.contracts a ≠ some (k, d)) (a d : AccountId) (hk : s.2.contracts a = some (k, d)) :
    ∃ s1 s2 n call, RReach (contractRest calls) z s1 ∧ RStep (contractRest calls) (some (.root, n)) s1 s2 ∧
      RReach (contractRest calls) s2 s ∧ calls n = some call ∧ Brings k call ∧ RootDecided s1.1 ∧
      ∃ t ∈ s1.1.agenda, t.origin = .root ∧ t.when ≤ s1.1.now ∧ inner s1.1 .root t.call = some (.root, n) := by
  obtain ⟨s1, s2, o, n, g1, g2, g3, g4, g5, ⟨call, g6, g7⟩, g8⟩ :=
    C186_only_by_decision (contractRest calls) (CodeThere k) (fun _ => False)
      (fun x o n x' ⟨call, _, hd⟩ a b => .inl (code_there hd a b).1) (fun x x' hr => hr.elim)
      z s hz (by rintro (e | ⟨a, d, e⟩); exacts [e h0, h1 a d e]) h (.inr ⟨a, d, hk⟩)
  rcases g8 with g8 | ⟨rfl, g8, g9⟩
  · cases g8
  · exact ⟨s1, s2, n, call, g1, g2, g3, g6, (code_there g7 g4 g5).2, g8, g9⟩

/-- C188: on a chain that began without contracts, the first one was made by a scheduled call whose time had come, made as
root, after a decision of the collective, or as community 1 or 2; then it is the call of an approved referendum of that
community, unless the collective had decided to run a call as root. -/
theorem C188_first_contract (calls : Nat → Option Runtime.Contracts.Call) (z s : GSt × Runtime.Contracts.St)
    (hz : GGenesis z.1) (h : RReach (contractRest calls) z s) (h0 : ∀ a, z.2.contracts a = none) (a : AccountId)
    (ha : s.2.contracts a ≠ none) :
    ∃ s1 s2 o n, RReach (contractRest calls) z s1 ∧ RStep (contractRest calls) (some (o, n)) s1 s2 ∧
      (∀ b, s1.2.contracts b = none) ∧ (∃ b, s2.2.contracts b ≠ none) ∧
      ((o = .root ∧ RootDecided s1.1) ∨ ∃ c : CommunityOrigin UInt16 UInt32, o = .community c ∧
        (c.community = 1 ∨ c.community = 2) ∧
        ∃ t ∈ s1.1.agenda, t.when ≤ s1.1.now ∧ inner s1.1 t.origin t.call = some (.community c, n) ∧
          ((∃ p r m, s1.1.crefs p = some (.approved r m) ∧ r.origin = .root) ∨
           (c.subset = none ∧ ∃ p r m, s1.1.refs p = some (.approved r m) ∧ r.track = c.community ∧ Part t.call r.call))) := by
  obtain ⟨s1, s2, o, n, g1, g2, g3, g4, g5, _, g8⟩ :=
    C186_only_by_decision (contractRest calls) SomeContract Deployer
      (fun x o n x' ⟨call, _, hd⟩ a b => some_contract hd a b) (fun x x' hr => hr.elim)
      z s hz (by rintro ⟨b, e⟩; exact e (h0 b)) h ⟨a, ha⟩
  refine ⟨s1, s2, o, n, g1, g2, fun b => ?_, g5, ?_⟩
  · by_contra hb; exact g4 ⟨b, hb⟩
  · rcases g8 with g8 | ⟨rfl, g8, _⟩
    · cases o with
      | community c => exact .inr ⟨c, rfl, g8, C186_as_community _ z s1 s2 hz g1 c n g2⟩
      | _ => cases g8
    · exact .inl ⟨rfl, g8⟩

/-- C188: no account, community or contract by itself, whoever calls it and whatever it asks, puts a code to use that is not
kept on the chain. -/
theorem C188_kept_codes (s s' : Runtime.Contracts.St) (o : Origin) (ho : o ≠ .root) (call : Runtime.Contracts.Call)
    (hd : Runtime.Contracts.dispatch s o call = some s') (a d : AccountId) (k : Nat)
    (hk : s'.contracts a = some (k, d)) : s.codes k ≠ none ∨ ∃ b e, s.contracts b = some (k, e) := by
  by_contra hc
  exact ho (code_there hd (h := k) hc (.inr ⟨a, d, hk⟩)).1

/-! ## Non-vacuity -/

/-- Call 3 brings code 7 and makes contract `[7]` of it; call 4 has it make `[8]`. Example for non-vacuity (outside
/repo). -/
def Demo.contractCalls : Nat → Option Runtime.Contracts.Call
  | 3 => some (.instantiateWithCode 7 [7] [])
  | 4 => some (.call [7] [.instantiate [7] 7 [8]])
  | _ => none

/-- A chain without contracts. Example for non-vacuity (outside /repo). -/
def Demo.noContracts : Runtime.Contracts.St := ⟨fun _ => none, fun _ => none⟩

/-- The collective has a contract made, and when somebody calls it, it makes another of the same code: accounts deploy
nothing, but contracts do. -/
example : ∃ s : GSt × Runtime.Contracts.St, GGenesis Demo.gstart ∧
    RReach (contractRest Demo.contractCalls) (Demo.gstart, Demo.noContracts) s ∧
    s.2.contracts [7] = some (7, treasuryAccount) ∧ s.2.contracts [8] = some (7, [7]) := by
  obtain ⟨x1, e1, h1, h2⟩ : ∃ x1, Runtime.Contracts.dispatch Demo.noContracts .root (.instantiateWithCode 7 [7] []) = some x1 ∧
      x1.codes = Runtime.Contracts.put (fun _ => none) 7 (some treasuryAccount) ∧
      x1.contracts = Runtime.Contracts.put (fun _ => none) [7] (some (7, treasuryAccount)) := ⟨_, rfl, rfl, rfl⟩
  obtain ⟨_, s1, _, _, r1⟩ := Demo.decided_run (R := contractRest Demo.contractCalls)
    (x := Demo.noContracts) (x' := x1) ⟨_, rfl, e1⟩
  have e2 : Runtime.Contracts.dispatch x1 (.signed [5]) (.call [7] [.instantiate [7] 7 [8]]) =
      some ⟨x1.codes, Runtime.Contracts.put x1.contracts [8] (some (7, [7]))⟩ := by
    obtain ⟨c1, c2⟩ := x1
    cases h1; cases h2; rfl
  have r2 := RReach.step r1 (.call (g := s1) Demo.genv Demo.genv_tame (.signed [5]) trivial (.other 4) rfl
    (.inr ⟨_, rfl, e2⟩))
  refine ⟨_, Demo.gstart_genesis, r2, ?_, ?_⟩
  · show Runtime.Contracts.put x1.contracts [8] (some (7, [7])) [7] = _
    rw [h2]; rfl
  · rfl

end Verif.Governance
