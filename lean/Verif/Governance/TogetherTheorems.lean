import Verif.Governance.DisputeTheorems
import Verif.Runtime.BatchTheorems

/-!
# C207: batches of calls lead nowhere single calls do not

The histories of referenda, communities and payments in the other files are made of single calls. Here they are shown to
contain what batches of such calls do, in whatever nesting, so that what is proved of all states holds with batches too. Batches
that were scheduled as one call are taken apart in `GStep`.
-/

namespace Verif.Governance

open Verif Verif.Accounts Verif.Communities Verif.Runtime.Batches

theorem derives_outside {C S : Type} {E : Setting C S} {o o' : Origin} (ho : Outside o) (h : Derives E o o') : Outside o' := by
  cases h with
  | self => exact ho
  | more i h => trivial

/-- **C207**: where a batch of calls of the governance machine leads, single calls by those who make it, or by accounts
derived from theirs, lead too. -/
theorem C207_governance (E : Setting GCall GSt) (env : GEnv) (he : Tame env) (hE : E.run = gdispatch env) (z s : GSt)
    (h : GReach z s) (o : Origin) (ho : Outside o) (c : BCall GCall) : GReach z (after E s o c) := by
  have hx := C207_one_by_one E s o c
  generalize after E s o c = s' at hx
  induction hx with
  | refl => exact h
  | more _ hd _ hr ih =>
    rw [hE] at hr
    exact .step ih (.call env he _ (derives_outside ho hd) _ hr)

/-- Several calls as one call of this machine. Specification only, no code behind it (outside /repo). -/
def together : List GCall → GCall
  | [] => .other 0
  | [c] => c
  | c :: d :: l => .both c (together (d :: l))

/-- With more tasks at the end of the agenda. Specification only, no code behind it (outside /repo). -/
def more (s : GSt) (x : List Task) : GSt := { s with agenda := s.agenda ++ x }

/-- A call that succeeds does the same if there are more tasks, and leaves them. -/
theorem gdispatch_more {env : GEnv} {s s' : GSt} {o : Origin} {c : GCall} (x : List Task) (h : gdispatch env s o c = some s') :
    gdispatch env (more s x) o c = some (more s' x) := by
  have root : ∀ {r r' : Option GSt}, rootOnly o r = some s' → (r = some s' → r' = some (more s' x)) →
      rootOnly o r' = some (more s' x) := by
    intro r r' h1 h2
    cases o <;> first | (cases h1; done) | exact h2 h1
  induction c generalizing o with
  | dispatchAs y call ih =>
    cases o with
    | root => exact ih (o := y) h fun h1 h2 => by cases y <;> first | (cases h1; done) | exact h2 h1
    | _ => cases h
  | asAccount call ih =>
    simp only [gdispatch] at h ⊢
    show (match authority kreivo s.m.comm o with | none => none | some c => gdispatch env (more s x) _ call) = _
    split at h
    · cases h
    · rename_i e; rw [e]; exact ih h fun h1 _ => by cases h1
  | schedule m call =>
    refine root h fun h => ?_
    dsimp only at h ⊢
    split at h
    · cases h
    · cases h
      rw [if_neg (by assumption)]
      rfl
  | unschedule k =>
    refine root h fun h => ?_
    split at h <;> cases h
    rename_i hk
    have : k < (more s x).agenda.length := by
      show k < (s.agenda ++ x).length
      rw [List.length_append]; omega
    rw [if_pos this]
    show some { s with agenda := (s.agenda ++ x).eraseIdx k } = some { s with agenda := s.agenda.eraseIdx k ++ x }
    rw [List.eraseIdx_append_of_lt_length hk]
  | _ =>
    simp only [gdispatch, more, rootOnly, promoteSeat, demoteSeat, expelSeat, exchangeSeat, collectiveVote, submitC, placeC,
      closeC, submitR, place, close] at h ⊢
    (repeat' split at h) <;> first | (cases h; done) | (cases h; rfl) | (cases h; exact if_pos (by assumption)) |
      (cases h; exact if_neg (by assumption))

/-- Some of several calls, scheduled together, run one after the other. -/
theorem together_run {E : Setting GCall GSt} {env : GEnv} (he : Tame env) (hE : E.run = gdispatch env) {z : GSt} {t : Task}
    (l : List GCall) (k : List (Origin × GCall)) (hk : k.Sublist (l.map fun c => (t.origin, c))) (s s' : GSt) (pre post : List Task)
    (hs : s.agenda = pre ++ post) (h : GReach z { s with agenda := pre ++ { t with call := together l } :: post })
    (hw : t.when ≤ s.now) (hm : Made E s k s') : GReach z s' := by
  have skip : ∀ {s s' : GSt} {u : Task} {pre post rest : List Task}, s.agenda = pre ++ post →
      GReach z { s with agenda := pre ++ u :: post } → u.when ≤ s.now → rest.Sublist u.parts →
      s' = more s rest → GReach z s' := by
    intro s s' u pre post rest hs h hw hr e
    have := GReach.step h (.apart pre post rest u rfl hr hw)
    rw [e, more, hs]
    exact this
  induction l generalizing k s pre post with
  | nil =>
    cases hk
    cases hm
    exact skip hs h hw (List.nil_sublist _) (by simp [more])
  | cons c l ih =>
    cases l with
    | nil =>
      rw [List.map_cons, List.map_nil] at hk
      rcases List.sublist_cons_iff.1 hk with h1 | ⟨r, rfl, h1⟩
      · cases h1
        cases hm
        exact skip hs h hw (List.nil_sublist _) (by simp [more])
      · cases h1
        cases hm with
        | cons hr ht =>
          cases ht
          rw [hE] at hr
          have := GReach.step h (.run env he pre post { t with call := c } rfl hw)
          simp only [← hs] at this
          rw [show gdispatch env { s with agenda := s.agenda } t.origin c = some s' from hr] at this
          exact this
    | cons d l =>
      rw [List.map_cons] at hk
      rcases List.sublist_cons_iff.1 hk with h1 | ⟨r, rfl, h1⟩
      · refine ih k h1 s s.agenda [] (by simp) ?_ hw hm
        refine skip hs h hw (rest := [{ t with call := together (d :: l) }]) ?_ rfl
        exact .cons _ (List.Sublist.refl _)
      · cases hm with
        | @cons _ s1 _ _ _ _ hr ht =>
          rw [hE] at hr
          have h2 : GReach z (more s [{ t with call := c }, { t with call := together (d :: l) }]) :=
            skip hs h hw (List.Sublist.refl _) rfl
          have st := GStep.run (s := more s [{ t with call := c }, { t with call := together (d :: l) }]) env he s.agenda
            [{ t with call := together (d :: l) }] { t with call := c } rfl hw
          have e : gdispatch env { more s [{ t with call := c }, { t with call := together (d :: l) }] with
              agenda := s.agenda ++ [{ t with call := together (d :: l) }] } t.origin c =
              some (more s1 [{ t with call := together (d :: l) }]) :=
            gdispatch_more [{ t with call := together (d :: l) }] hr
          dsimp only at st
          rw [e] at st
          replace st : GStep (more s [{ t with call := c }, { t with call := together (d :: l) }])
            (more s1 [{ t with call := together (d :: l) }]) := st
          have hn : s.now ≤ s1.now := by simpa [more] using now_mono st
          exact ih r h1 s1 s1.agenda [] (by simp) (.step h2 st) (Nat.le_trans hw hn) ht

mutual

theorem plain_same {C S : Type} (E : Setting C S) (c : BCall C) : ∀ (o : Origin), (∀ a, o ≠ .signed a) →
    ∃ l : List C, plain E o c = l.map fun x => (o, x) := by
  intro o ho
  match c with
  | .base c => exact ⟨[c], by rw [plain]; rfl⟩
  | .batch l => rw [plain]; exact plains_same E l o ho
  | .batchAll l => rw [plain]; exact plains_same E l o ho
  | .forceBatch l => rw [plain]; exact plains_same E l o ho
  | .asDerivative i c =>
    refine ⟨[], ?_⟩
    cases o with
    | signed a => exact absurd rfl (ho a)
    | _ => rw [plain]; · rfl
           · intro _ e; cases e

theorem plains_same {C S : Type} (E : Setting C S) (l : List (BCall C)) : ∀ (o : Origin), (∀ a, o ≠ .signed a) →
    ∃ k : List C, plains E o l = k.map fun x => (o, x) := by
  intro o ho
  match l with
  | [] => exact ⟨[], by rw [plains]; rfl⟩
  | c :: l =>
    obtain ⟨k, e⟩ := plain_same E c o ho
    obtain ⟨k', e'⟩ := plains_same E l o ho
    exact ⟨k ++ k', by rw [plains, e, e', List.map_append]⟩

end

/-- **C207**: where a scheduled batch, of whatever kind and nesting, leads, taking it apart leads too: it is on the agenda as its
plain calls together, its time has come, and the state after the whole batch is one of those the histories here reach. -/
theorem C207_scheduled (E : Setting GCall GSt) (env : GEnv) (he : Tame env) (hE : E.run = gdispatch env) (z s : GSt)
    (h : GReach z s) (pre post : List Task) (t : Task) (ha : s.agenda = pre ++ t :: post) (hw : t.when ≤ s.now)
    (b : BCall GCall) (l : List GCall) (hl : plain E t.origin b = l.map fun c => (t.origin, c)) (hc : t.call = together l) :
    GReach z (after E { s with agenda := pre ++ post } t.origin b) := by
  obtain ⟨k, h1, h2⟩ := C207_in_order E { s with agenda := pre ++ post } t.origin b
  rw [hl] at h1
  refine together_run he hE l k h1 { s with agenda := pre ++ post } _ pre post rfl ?_ hw h2
  rw [← hc]
  exact ha ▸ h

/-- **C207**: and every batch made by root, a community or one of the other origins of scheduled calls is plain calls by it. -/
theorem C207_same_origin {C S : Type} (E : Setting C S) (o : Origin) (ho : ∀ a, o ≠ .signed a) (b : BCall C) :
    ∃ l : List C, plain E o b = l.map fun c => (o, c) := plain_same E b o ho

/-- The effect of a payments call made with an origin of the runtime: pallets/payments/src/lib.rs 257-514 with the
configuration of runtime/kreivo/src/payments.rs 75-98. -/
def payRun (penv : Payments.Env) (s : Payments.St) (o : Origin) (c : Payments.Call) : Option Payments.St :=
  match Payments.dispatch Payments.Kreivo.config penv s (payOrigin o) c with
  | .ok _ => some (Payments.exec Payments.Kreivo.config s (.call penv (payOrigin o) c))
  | .error _ => none

/-- **C207**: where a batch of payments calls leads, single payments calls lead too, whoever makes it. -/
theorem C207_payments (E : Setting Payments.Call Payments.St) (penv : Payments.Env) (hE : E.run = payRun penv)
    (s : Payments.St) (h : Payments.Reachable Payments.Kreivo.config s) (o : Origin) (c : BCall Payments.Call) :
    Payments.Reachable Payments.Kreivo.config (after E s o c) := by
  refine C207_keeps E _ ?_ s o c h
  intro s1 s2 o' x hr h1
  rw [hE, payRun] at hr
  split at hr
  · cases hr; exact Payments.Reach.step (.call penv (payOrigin o') x) h1 trivial
  · cases hr

/-- The member of the collective proposes something, pays the deposit and votes, all in one batch. -/
example :
    let E : Setting GCall GSt := ⟨gdispatch Demo.genv, fun a i => UInt8.ofNat i :: a, 100⟩
    let c : BCall GCall := .batchAll [.base (.csubmit .root (.other 3) (.after 0)), .base (.cdeposit 0), .base (.cvote 0 true)]
    let s := after E Demo.gstart (.signed [9]) c
    GReach Demo.gstart s ∧ s.cvotes 0 ≠ [] ∧ (after E Demo.gstart (.signed [1]) c).cvotes 0 = [] := by
  refine ⟨C207_governance _ Demo.genv Demo.genv_tame rfl _ _ .start (.signed [9]) trivial _, ?_, ?_⟩ <;> decide +kernel

/-- The collective approves a batch that promotes account `[9]`, fails to demote `[1]`, which has no seat, and promotes `[9]`
again; the batch that goes on after failures promotes it twice. -/
example :
    let E : Setting GCall GSt := ⟨gdispatch Demo.genv, fun a i => UInt8.ofNat i :: a, 100⟩
    let l : List GCall := [.promote [9], .demote [1], .promote [9]]
    let s := ([Demo.Act.call (.signed [9]) (.csubmit .root (together l) (.after 0)), .call (.signed [9]) (.cdeposit 0),
      .call (.signed [9]) (.cvote 0 true)] ++ Demo.decision ++ [Demo.Act.time 100]).foldl Demo.act Demo.gstart
    ∃ t, s.agenda = [t] ∧ GReach Demo.gstart (after E { s with agenda := [] } t.origin (.forceBatch (l.map .base))) ∧
      (after E { s with agenda := [] } t.origin (.forceBatch (l.map .base))).m.seats [9] = some 3 ∧
      (after E { s with agenda := [] } t.origin (.batch (l.map .base))).m.seats [9] = some 2 ∧
      (after E { s with agenda := [] } t.origin (.batchAll (l.map .base))).m.seats [9] = some 1 := by
  refine ⟨_, rfl, C207_scheduled _ Demo.genv Demo.genv_tame rfl _ _ (Demo.acts_reach .start _ (by decide)) [] [] _ rfl ?_ _
    [.promote [9], .demote [1], .promote [9]] rfl rfl, rfl, rfl, rfl⟩
  decide +kernel

/-- Account `[1]` pays account `[2]` 5000 and asks for it back in one batch. -/
example :
    let E : Setting Payments.Call Payments.St := ⟨payRun Payments.Kreivo.env, fun a i => UInt8.ofNat i :: a, 100⟩
    let c : BCall Payments.Call := .batch [.base (.pay (.id 2) 0 5000 none), .base (.requestRefund Demo.disputed)]
    let s := after E Payments.Kreivo.s0 (.signed [1]) c
    Payments.Reachable Payments.Kreivo.config s ∧ ∃ p, s.payments 1 Demo.disputed = some p ∧ p.state ≠ .created := by
  refine ⟨C207_payments _ Payments.Kreivo.env rfl _ (.init Payments.Kreivo.s0_initial) _ _, ?_⟩
  decide +kernel

end Verif.Governance
