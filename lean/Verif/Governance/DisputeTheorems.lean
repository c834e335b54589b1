import Verif.Governance.Disputes

/-!
# C179, C180: who settles disputes about payments, and whether somebody can
-/

namespace Verif.Governance

open Verif Verif.Accounts Verif.Communities

/-! ## Helper lemmas -/

theorem inner_root {s : GSt} {n : Nat} (c : GCall) (o : Origin) (h : inner s o c = some (.root, n)) : o = .root := by
  induction c generalizing o with
  | other m => simp only [inner, Option.some.injEq, Prod.mk.injEq] at h; exact h.1
  | dispatchAs x call ih =>
    cases o <;> first | rfl | (simp only [inner] at h; cases h)
  | asAccount call ih =>
    simp only [inner] at h
    split at h
    · cases h
    · have := ih _ h; cases this
  | _ => simp only [inner] at h; cases h

theorem paymentCall_root {calls : Nat → Option Payments.Call} {s : GSt} {o : Origin} {c : GCall} {pc : Payments.Call}
    (h : paymentCall calls s o c = some (.root, pc)) : o = .root := by
  unfold paymentCall at h
  split at h
  · cases h
  · rename_i o' n hi
    cases hc : calls n with
    | none => rw [hc] at h; cases h
    | some x =>
      rw [hc] at h
      simp only [Option.map_some, Option.some.injEq, Prod.mk.injEq] at h
      rw [h.1] at hi
      exact inner_root c o hi

theorem JStep.gov {calls : Nat → Option Payments.Call} {l : Option (Origin × Payments.Call)} {s s' : JSt}
    (st : JStep calls l s s') : s'.gov = s.gov ∨ GStep s.gov s'.gov := by
  cases st with
  | call env he penv o ho c h => exact .inr (.call env he o ho c h)
  | run env he penv pre post t ha hw => exact .inr (.run env he pre post t ha hw)
  | apart pre post rest t ha hr hw => exact .inr (.apart pre post rest t ha hr hw)
  | collective env p h => exact .inr (.collective env p h)
  | community env p h => exact .inr (.community env p h)
  | time n => exact .inr (.time n)
  | world w h => exact .inr (.world w h)
  | fire penv id => exact .inl rfl
  | ext a w f => exact .inl rfl
  | setMin a m => exact .inl rfl

theorem JReach.gov {calls : Nat → Option Payments.Call} {z s : JSt} (h : JReach calls z s) : GReach z.gov s.gov := by
  induction h with
  | start => exact .start
  | step _ st ih =>
    rcases st.gov with e | e
    · rw [e]; exact ih
    · exact .step ih e

theorem JReach.trans {calls : Nat → Option Payments.Call} {x y z : JSt} (h : JReach calls x y) (h' : JReach calls y z) :
    JReach calls x z := by
  induction h' with
  | start => exact h
  | step _ st ih => exact .step ih st

theorem ticks {s : Payments.St} (h : Payments.Reachable Payments.Kreivo.config s) (n : Nat) :
    Payments.Reachable Payments.Kreivo.config { s with now := s.now + n } := by
  induction n with
  | zero => exact h
  | succ n ih => exact .step .tick ih trivial

theorem JStep.pay {calls : Nat → Option Payments.Call} {l : Option (Origin × Payments.Call)} {s s' : JSt}
    (st : JStep calls l s s') (h : Payments.Reachable Payments.Kreivo.config s.pay) :
    Payments.Reachable Payments.Kreivo.config s'.pay := by
  cases st with
  | call env he penv o ho c hd =>
    cases hl : paymentCall calls s.gov o c with
    | none => exact h
    | some x => exact Payments.Reach.step (.call penv (payOrigin x.1) x.2) h trivial
  | run env he penv pre post t ha hw =>
    cases hl : paymentCall calls s.gov t.origin t.call with
    | none => exact h
    | some x => exact Payments.Reach.step (.call penv (payOrigin x.1) x.2) h trivial
  | apart => exact h
  | collective env p _ => exact h
  | community env p _ => exact h
  | time n => exact ticks h n
  | world w _ => exact h
  | fire penv id => exact Payments.Reach.step (.fire penv id) h trivial
  | ext a w f => exact Payments.Reach.step (.ext a w f) h trivial
  | setMin a m => exact Payments.Reach.step (.setMin a m) h trivial

theorem JReach.pay {calls : Nat → Option Payments.Call} {z s : JSt} (hz : JGenesis z) (h : JReach calls z s) :
    Payments.Reachable Payments.Kreivo.config s.pay := by
  induction h with
  | start => exact .init hz.pay
  | step _ st ih => exact st.pay ih

/-- What a step does to payments is one action of the payments machine, or time. -/
theorem JStep.act {calls : Nat → Option Payments.Call} {l : Option (Origin × Payments.Call)} {s s' : JSt}
    (st : JStep calls l s s') :
    (∃ penv o c, l = some (o, c) ∧ s'.pay = Payments.exec Payments.Kreivo.config s.pay (.call penv (payOrigin o) c)) ∨
    (l = none ∧ ((∃ n, s'.pay = { s.pay with now := s.pay.now + n }) ∨
      (∃ penv id, s'.pay = Payments.exec Payments.Kreivo.config s.pay (.fire penv id)) ∨
      (∃ a w f, s'.pay = Payments.exec Payments.Kreivo.config s.pay (.ext a w f)) ∨
      ∃ a m, s'.pay = Payments.exec Payments.Kreivo.config s.pay (.setMin a m))) := by
  have key : ∀ penv (x : Option (Origin × Payments.Call)),
      (∃ penv' o c, x = some (o, c) ∧ onPayments penv s.pay x =
        Payments.exec Payments.Kreivo.config s.pay (.call penv' (payOrigin o) c)) ∨
      (x = none ∧ ∃ n, onPayments penv s.pay x = { s.pay with now := s.pay.now + n }) := by
    intro penv x
    cases x with
    | none => exact .inr ⟨rfl, 0, rfl⟩
    | some x => exact .inl ⟨penv, x.1, x.2, rfl, rfl⟩
  cases st with
  | call env he penv o ho c hd =>
    rcases key penv (paymentCall calls s.gov o c) with h | ⟨h1, h2⟩
    · exact .inl h
    · exact .inr ⟨h1, .inl h2⟩
  | run env he penv pre post t ha hw =>
    rcases key penv (paymentCall calls s.gov t.origin t.call) with h | ⟨h1, h2⟩
    · exact .inl h
    · exact .inr ⟨h1, .inl h2⟩
  | apart => exact .inr ⟨rfl, .inl ⟨0, rfl⟩⟩
  | collective env p _ => exact .inr ⟨rfl, .inl ⟨0, rfl⟩⟩
  | community env p _ => exact .inr ⟨rfl, .inl ⟨0, rfl⟩⟩
  | time n => exact .inr ⟨rfl, .inl ⟨n, rfl⟩⟩
  | world w _ => exact .inr ⟨rfl, .inl ⟨0, rfl⟩⟩
  | fire penv id => exact .inr ⟨rfl, .inr (.inl ⟨penv, id, rfl⟩)⟩
  | ext a w f => exact .inr ⟨rfl, .inr (.inr (.inl ⟨a, w, f, rfl⟩))⟩
  | setMin a m => exact .inr ⟨rfl, .inr (.inr (.inr ⟨a, m, rfl⟩))⟩

theorem payOrigin_root {o : Origin} {x : Payments.Acct}
    (h : Payments.Kreivo.config.disputeResolver (payOrigin o) = some x) : o = .root := by
  cases o <;> first | rfl | cases h

theorem now_reach {g s : GSt} (h : GReach g s) : g.now ≤ s.now := by
  induction h with
  | start => exact Nat.le_refl _
  | step _ st ih => exact Nat.le_trans ih (now_mono st)

theorem root_task {calls : Nat → Option Payments.Call} {l : Option (Origin × Payments.Call)} {s s' : JSt}
    {c : Payments.Call} (hl : l = some (.root, c)) (st : JStep calls l s s') :
    ∃ t ∈ s.gov.agenda, t.origin = .root ∧ t.when ≤ s.gov.now ∧
      paymentCall calls s.gov .root t.call = some (.root, c) := by
  cases st with
  | call env he penv o ho c' hd =>
    have := paymentCall_root hl
    subst this; cases ho
  | run env he penv pre post t ha hw =>
    have e := paymentCall_root hl
    rw [e] at hl
    exact ⟨t, by rw [ha]; simp, e, hw, hl⟩
  | _ => cases hl

/-- A record under review, and what a step makes of it. -/
theorem review_step {calls : Nat → Option Payments.Call} {l : Option (Origin × Payments.Call)} {s s' : JSt}
    (st : JStep calls l s s') {snd : Payments.Acct} {id : Payments.PId} {p : Payments.Payment}
    (hp : s.pay.payments snd id = some p) (hst : p.state = .needsReview) :
    s'.pay.payments snd id = some p ∨
    (s'.pay.payments snd id = some { p with state := .finished } ∧
      ((∃ o, l = some (o, .acceptAndPay id) ∧ Payments.Kreivo.config.senderOrigin (payOrigin o) = some snd) ∨
       ∃ r, l = some (.root, .resolveDispute id r))) := by
  have key : ∀ act, s'.pay = Payments.exec Payments.Kreivo.config s.pay act →
      s'.pay.payments snd id = some p ∨ (s'.pay.payments snd id = some { p with state := .finished } ∧
        ((∃ env o, act = .call env o (.acceptAndPay id) ∧ Payments.Kreivo.config.senderOrigin o = some snd) ∨
          ∃ env o r x, act = .call env o (.resolveDispute id r) ∧ Payments.Kreivo.config.disputeResolver o = some x)) := by
    intro act e
    rw [e]
    rcases Payments.exec_record_key Payments.Kreivo.config s.pay act snd id with h | h
    · left; rw [h, hp]
    · generalize (Payments.exec Payments.Kreivo.config s.pay act).payments snd id = new at h
      rw [hp] at h
      generalize ho : some p = old at h
      cases h with
      | pay env o bA a n r snd b id old h1 h2 h3 hf => have := hf p ho.symm; rw [hst] at this; cases this
      | request env o sA a n snd b id old h1 h2 h3 hf => have := hf p ho.symm; rw [hst] at this; cases this
      | release env o snd id q h1 h2 => cases ho; rw [hst] at h2; cases h2
      | refund env o snd id q h1 h2 => cases ho; rw [hst] at h2; cases h2
      | accept env o snd id q h1 => cases ho; exact .inr ⟨rfl, .inl ⟨env, o, rfl, h1⟩⟩
      | cancel env o snd id b q h1 h2 h3 => cases ho; rw [hst] at h3; rcases h3 with h3 | ⟨_, h3⟩ <;> cases h3
      | fire env snd id b q t h1 h2 h3 h4 h5 => cases ho; rw [hst] at h5; rcases h5 with h5 | ⟨_, h5⟩ <;> cases h5
      | dispute env o snd id b q cb h1 h2 h3 h4 => cases ho; rw [hst] at h3; cases h3
      | resolve env o snd id b q r x h1 h2 h3 => cases ho; exact .inr ⟨rfl, .inr ⟨env, o, r, x, rfl, h1⟩⟩
  rcases st.act with ⟨penv, o, c, hl, e⟩ | ⟨_, ⟨n, e⟩ | ⟨penv, i, e⟩ | ⟨a, w, f, e⟩ | ⟨a, m, e⟩⟩
  · rcases key _ e with h | ⟨h1, ⟨env, o', h2, h3⟩ | ⟨env, o', r, x, h2, h3⟩⟩
    · exact .inl h
    · cases h2; exact .inr ⟨h1, .inl ⟨o, hl, h3⟩⟩
    · cases h2
      have := payOrigin_root h3
      subst this
      exact .inr ⟨h1, .inr ⟨r, hl⟩⟩
  · left; rw [e]; exact hp
  · rcases key _ e with h | ⟨h1, ⟨env, o', h2, h3⟩ | ⟨env, o', r, x, h2, h3⟩⟩
    · exact .inl h
    · cases h2
    · cases h2
  · rcases key _ e with h | ⟨h1, ⟨env, o', h2, h3⟩ | ⟨env, o', r, x, h2, h3⟩⟩
    · exact .inl h
    · cases h2
    · cases h2
  · rcases key _ e with h | ⟨h1, ⟨env, o', h2, h3⟩ | ⟨env, o', r, x, h2, h3⟩⟩
    · exact .inl h
    · cases h2
    · cases h2

/-! ## A small chain for the examples -/

namespace Demo

/-- The id of the payment in the examples. Example for non-vacuity (outside /repo). -/
def disputed : Payments.PId := (Payments.Kreivo.nextId 10 (some 2) 1 2).getD 0

/-- Account `[1]` pays account `[2]` 5000, wants it back, which `[2]` disputes; half is to be returned. Example for
non-vacuity (outside /repo). -/
def payCalls : Nat → Option Payments.Call
  | 0 => some (.pay (.id 2) 0 5000 none)
  | 1 => some (.requestRefund disputed)
  | 2 => some (.disputeRefund disputed)
  | 3 => some (.resolveDispute disputed ⟨50, .sender⟩)
  | _ => none

/-- Perform an act on the chain with payments; nothing happens if it fails. Example for non-vacuity (outside /repo). -/
def dact (s : JSt) : Act → JSt
  | .call o c => match gdispatch genv s.gov o c with
    | some g => ⟨g, onPayments Payments.Kreivo.env s.pay (paymentCall payCalls s.gov o c)⟩
    | none => s
  | .collective p => ⟨(serviceCollective genv s.gov p).getD s.gov, s.pay⟩
  | .community p => ⟨(serviceCommunity genv s.gov p).getD s.gov, s.pay⟩
  | .time n => ⟨{ s.gov with now := s.gov.now + n }, { s.pay with now := s.pay.now + n }⟩
  | .items l => ⟨{ s.gov with m := { s.gov.m with comm := { s.gov.m.comm with world :=
      { s.gov.m.comm.world with items := l } } } }, s.pay⟩

theorem dact_reach {z s : JSt} (h : JReach payCalls z s) (a : Act) (ha : a.outside = true) : JReach payCalls z (dact s a) := by
  cases a with
  | call o c =>
    simp only [dact]
    cases hd : gdispatch genv s.gov o c with
    | none => exact h
    | some g =>
      refine .step h (.call genv genv_tame Payments.Kreivo.env o ?_ c hd)
      cases o <;> trivial
  | collective p =>
    simp only [dact]
    cases hd : serviceCollective genv s.gov p with
    | none => exact h
    | some g => exact .step h (.collective genv p hd)
  | community p =>
    simp only [dact]
    cases hd : serviceCommunity genv s.gov p with
    | none => exact h
    | some g => exact .step h (.community genv p hd)
  | time n => exact .step h (.time n)
  | items l => exact .step h (.world _ rfl)

theorem dacts_reach {z s : JSt} (h : JReach payCalls z s) (l : List Act) (hl : l.all Act.outside = true) :
    JReach payCalls z (l.foldl dact s) := by
  induction l generalizing s with
  | nil => exact h
  | cons a l ih =>
    simp only [List.all_cons, Bool.and_eq_true] at hl
    exact ih (dact_reach h a hl.1) hl.2

theorem dact_freach {g : GSt} {s : JSt} (h : FReach g s.gov) (a : Act) (ha : a.outside = true)
    (hv : ∀ p, ((dact s a).gov.cvotes p).length ≤ 65537) : FReach g (dact s a).gov := by
  have key : (dact s a).gov = s.gov ∨ ∃ s', s' = (dact s a).gov ∧ GStep s.gov s' := by
    cases a with
    | call o c =>
      simp only [dact]
      cases hd : gdispatch genv s.gov o c with
      | none => exact .inl rfl
      | some g => exact .inr ⟨g, rfl, .call genv genv_tame o (by cases o <;> trivial) c hd⟩
    | collective p =>
      simp only [dact]
      cases hd : serviceCollective genv s.gov p with
      | none => exact .inl rfl
      | some g => exact .inr ⟨g, rfl, .collective genv p hd⟩
    | community p =>
      simp only [dact]
      cases hd : serviceCommunity genv s.gov p with
      | none => exact .inl rfl
      | some g => exact .inr ⟨g, rfl, .community genv p hd⟩
    | time n => exact .inr ⟨_, rfl, .time n⟩
    | items l => exact .inr ⟨_, rfl, .world _ rfl⟩
  rcases key with e | ⟨s', e, st⟩
  · rw [e]; exact h
  · rw [← e] at hv ⊢; exact .step h st hv

/-- The payment, the request for a refund, and the dispute. Example for non-vacuity (outside /repo). -/
def dispute : List Act := [.call (.signed [1]) (.other 0), .call (.signed [1]) (.other 1), .call (.signed [2]) (.other 2)]

/-- Account `[9]` proposes to resolve it, pays the deposit and votes aye. Example for non-vacuity (outside /repo). -/
def settlement : List Act :=
  [.call (.signed [9]) (.csubmit .root (.other 3) (.after 0)), .call (.signed [9]) (.cdeposit 0),
   .call (.signed [9]) (.cvote 0 true), .time (15 * minutes)]

/-- The beginning, with the one account of the collective. Example for non-vacuity (outside /repo). -/
def dstart : JSt := ⟨gstart, Payments.Kreivo.s0⟩

/-- The beginning on a chain without a collective. Example for non-vacuity (outside /repo). -/
def dempty : JSt := ⟨gempty, Payments.Kreivo.s0⟩

theorem dstart_genesis : JGenesis dstart := ⟨gstart_genesis, Payments.Kreivo.s0_initial⟩

theorem dempty_genesis : JGenesis dempty := ⟨gempty_genesis, Payments.Kreivo.s0_initial⟩

end Demo

/-! ## C179 -/

/-- C179: a payment under review stays as it is until it is closed, either by its sender, who pays once more with
`accept_and_pay`, or by root, who resolves the dispute. -/
theorem C179_review_ends (calls : Nat → Option Payments.Call) (l : Option (Origin × Payments.Call)) (s s' : JSt)
    (st : JStep calls l s s') (snd : Payments.Acct) (id : Payments.PId) (p : Payments.Payment)
    (hp : s.pay.payments snd id = some p) (hst : p.state = .needsReview) :
    s'.pay.payments snd id = some p ∨
    (s'.pay.payments snd id = some { p with state := .finished } ∧
      ((∃ o, l = some (o, .acceptAndPay id) ∧ Payments.Kreivo.config.senderOrigin (payOrigin o) = some snd) ∨
       ∃ r, l = some (.root, .resolveDispute id r))) :=
  review_step st hp hst

/-- C179: and a payments call is made as root only when the scheduler runs a call as root whose time has come, and the
collective has approved a proposal to run a call as root, half an hour or more after it was submitted. -/
theorem C179_root_calls (calls : Nat → Option Payments.Call) (z s s' : JSt) (hz : JGenesis z) (h : JReach calls z s)
    (c : Payments.Call) (st : JStep calls (some (.root, c)) s s') :
    (∃ t ∈ s.gov.agenda, t.origin = .root ∧ t.when ≤ s.gov.now ∧ paymentCall calls s.gov .root t.call = some (.root, c)) ∧
    ∃ q r n, s.gov.crefs q = some (.approved r n) ∧ r.origin = .root ∧ r.submitted + 30 * minutes ≤ n ∧ n ≤ s.gov.now := by
  have hg := hz.gov
  have hr := h.gov
  have task := root_task rfl st
  refine ⟨task, ?_⟩
  obtain ⟨t, ht, ho, _⟩ := task
  obtain ⟨q, r, n, h1, h2⟩ := C111_root z.gov hg s.gov hr t ht ho
  obtain ⟨s0, i, since, h3, h4, h5, _, h6, h7, _, h8, h9, _⟩ := C111_approved z.gov hg s.gov hr q r n h1
  refine ⟨q, r, n, h1, h2, ?_, ?_⟩
  · rw [h2] at h6
    have h6 : some 0 = some r.track := h6
    injection h6 with h6
    rw [← h6] at h7
    have h7 : some (collectiveTrack 0 "Root" (10 * units) ⟨percent 100, percent 90, percent 100⟩
      ⟨percent 100, percent 0, percent 100⟩).info = some i := h7
    injection h7 with h7
    have e1 : i.preparePeriod = 15 * minutes := by rw [← h7]; rfl
    have e2 : i.confirmPeriod = 15 * minutes := by rw [← h7]; rfl
    omega
  · rw [← h5]; exact now_reach h4

/-- C179: the proposal has the support of the collective: at least one vote, and nine tenths of the voting weight on it, in
favour, if no more than 65537 accounts vote on one referendum and up to a weight of a billion. -/
theorem C179_majority (calls : Nat → Option Payments.Call) (z s s' : JSt) (hz : JGenesis z) (h : JReach calls z s)
    (hf : FReach z.gov s.gov) (c : Payments.Call) (st : JStep calls (some (.root, c)) s s') :
    ∃ q r n s0, s.gov.crefs q = some (.approved r n) ∧ r.origin = .root ∧ FReach z.gov s0 ∧ s0.now = n ∧
      s0.crefs q = some (.ongoing r) ∧ (∃ who w, aget (s0.cvotes q) who = some (true, w) ∧ 1 ≤ w) ∧
      ((collectiveRecord s0 q).ayes + (collectiveRecord s0 q).nays ≤ 1000000000 →
        9 * (collectiveRecord s0 q).nays ≤ (collectiveRecord s0 q).ayes) := by
  obtain ⟨_, q, r, n, h1, h2, _⟩ := C179_root_calls calls z s s' hz h c st
  obtain ⟨s0, h3, h4, h5, h6, _, _, h7⟩ := C111_majority z.gov hz.gov s.gov hf q r n h1
  exact ⟨q, r, n, s0, h1, h2, h3, h4, h5, h6, fun hb => (h7 hb).1 (by rw [h2]; simp)⟩

/-! ## C180 -/

theorem reach_backed {calls : Nat → Option Payments.Call} {z s : JSt} (hz : JGenesis z) (h : JReach calls z s) :
    ∃ f, Payments.BackedPlus s.pay f := by
  have step : ∀ s : Payments.St, Payments.Reachable Payments.Kreivo.config s → ∃ f, Payments.BackedPlus s f := by
    intro s hs
    induction hs with
    | init h0 => exact ⟨fun _ _ => 0, ∅, fun k _ => h0.payments _ _, fun a w => by simp [h0.held]⟩
    | step act hr _ ih =>
      obtain ⟨f, hf⟩ := ih
      exact ⟨_, Payments.exec_backedPlus act (Payments.Reach.inv hr) hf⟩
  exact step _ (h.pay hz)

/-- No call is made as root. -/
theorem no_root {calls : Nat → Option Payments.Call} {z s s' : JSt} (hz : JGenesis z)
    (h0 : ∀ a k, z.gov.m.seats a = some k → k = 0) (h : JReach calls z s) {c : Payments.Call}
    (st : JStep calls (some (.root, c)) s s') : False := by
  obtain ⟨t, ht, ho, _⟩ := root_task rfl st
  exact ((C112_no_members_fails z.gov hz.gov h0 s.gov h.gov).2.1 t ht).1 ho

/-- C180 is false of the code: on a chain whose collective has no member of rank 1 or more, as the local chain specification
makes it, no payments call is ever made as root, and what is in escrow for a payment under review stays held for ever, on
both sides, even if the sender pays once more. -/
theorem C180_no_members_fails (calls : Nat → Option Payments.Call) (z s s' : JSt) (hz : JGenesis z)
    (h0 : ∀ a k, z.gov.m.seats a = some k → k = 0) (h : JReach calls z s) (snd : Payments.Acct) (id : Payments.PId)
    (p : Payments.Payment) (hp : s.pay.payments snd id = some p) (hst : p.state = .needsReview)
    (h' : JReach calls s s') :
    (∀ c s'', ¬ JStep calls (some (.root, c)) s' s'') ∧
    ∀ w, (if w = snd then Payments.senderEscrow p else 0) + (if w = p.beneficiary then p.amount + p.incentive else 0) ≤
      (s'.pay.ledger.bal p.asset w).held := by
  refine ⟨fun c s'' st => no_root hz h0 (h.trans h') st, fun w => ?_⟩
  have inv : ∃ f, Payments.BackedPlus s'.pay f ∧ (s'.pay.payments snd id = some p ∨
      Payments.escrow snd p p.asset w ≤ f p.asset w) := by
    induction h' with
    | start =>
      obtain ⟨f, hf⟩ := reach_backed hz h
      exact ⟨f, hf, .inl hp⟩
    | @step s1 s2 l hr st ih =>
      obtain ⟨f, hf, hor⟩ := ih
      have hi : Payments.Inv s1.pay := ((h.trans hr).pay hz).inv
      have grow : ∀ act, s2.pay = Payments.exec Payments.Kreivo.config s1.pay act →
          (s1.pay.payments snd id = some p → s2.pay.payments snd id = some p ∨
            Payments.strands Payments.Kreivo.config s1.pay act p.asset w = Payments.escrow snd p p.asset w) →
          ∃ f, Payments.BackedPlus s2.pay f ∧ (s2.pay.payments snd id = some p ∨
            Payments.escrow snd p p.asset w ≤ f p.asset w) := by
        intro act e hk
        refine ⟨_, e ▸ Payments.exec_backedPlus act hi hf, ?_⟩
        rcases hor with h1 | h1
        · rcases hk h1 with h2 | h2
          · exact .inl h2
          · right; show _ ≤ f p.asset w + _; omega
        · right; show _ ≤ f p.asset w + _; omega
      have cases' := fun h1 => review_step st (snd := snd) (id := id) (p := p) h1 hst
      have hroot : ∀ r, l ≠ some (.root, .resolveDispute id r) := by
        rintro r rfl
        exact no_root hz h0 (h.trans hr) st
      rcases st.act with ⟨penv, o, c, hl, e⟩ | ⟨hl, ⟨n, e⟩ | ⟨penv, i, e⟩ | ⟨a, x, fr, e⟩ | ⟨a, m, e⟩⟩
      · refine grow _ e fun h1 => ?_
        rcases cases' h1 with h2 | ⟨h2, ⟨o', h3, h4⟩ | ⟨r, h3⟩⟩
        · exact .inl h2
        · right
          rw [hl] at h3
          simp only [Option.some.injEq, Prod.mk.injEq] at h3
          obtain ⟨rfl, rfl⟩ := h3
          have hd : ∃ x, Payments.dispatch Payments.Kreivo.config penv s1.pay (payOrigin o) (.acceptAndPay id) = .ok x := by
            cases hd : Payments.dispatch Payments.Kreivo.config penv s1.pay (payOrigin o) (.acceptAndPay id) with
            | ok x => exact ⟨x, rfl⟩
            | error er =>
              exfalso
              rw [e] at h2
              simp only [Payments.exec, hd, Payments.settle] at h2
              rw [h1] at h2
              injection h2 with h2
              have := congrArg Payments.Payment.state h2
              rw [hst] at this
              cases this
          obtain ⟨x, hd⟩ := hd
          simp only [Payments.strands, hd, h4, Payments.escrowAt, h1]
        · exact absurd h3 (hroot r)
      · refine ⟨f, ?_, ?_⟩
        · rw [e]; exact hf.congr rfl (fun _ _ => rfl)
        · rw [e]; exact hor
      · refine grow _ e fun h1 => ?_
        rcases cases' h1 with h2 | ⟨h2, ⟨o', h3, h4⟩ | ⟨r, h3⟩⟩
        · exact .inl h2
        · rw [hl] at h3; cases h3
        · rw [hl] at h3; cases h3
      · refine grow _ e fun h1 => ?_
        rcases cases' h1 with h2 | ⟨h2, ⟨o', h3, h4⟩ | ⟨r, h3⟩⟩
        · exact .inl h2
        · rw [hl] at h3; cases h3
        · rw [hl] at h3; cases h3
      · refine grow _ e fun h1 => ?_
        rcases cases' h1 with h2 | ⟨h2, ⟨o', h3, h4⟩ | ⟨r, h3⟩⟩
        · exact .inl h2
        · rw [hl] at h3; cases h3
        · rw [hl] at h3; cases h3
  have he : Payments.escrow snd p p.asset w = (if w = snd then Payments.senderEscrow p else 0) +
      (if w = p.beneficiary then p.amount + p.incentive else 0) := by
    simp [Payments.escrow, hst]
  rw [← he]
  obtain ⟨f, ⟨ks, h1, h2⟩, h3⟩ := inv
  have h4 := h2 p.asset w
  rcases h3 with h3 | h3
  · have hm : (snd, id) ∈ ks := by
      by_contra hm
      have := h1 (snd, id) hm
      rw [h3] at this; cases this
    have h5 := Finset.single_le_sum (f := fun k => Payments.escrowAt s'.pay k p.asset w) (fun _ _ => Nat.zero_le _) hm
    have h6 : Payments.escrowAt s'.pay (snd, id) p.asset w = Payments.escrow snd p p.asset w := by
      simp only [Payments.escrowAt, h3]
    simp only [h6] at h5
    omega
  · omega

/-- C180 (partial: when the collective has a member of rank 1 or more, and as far as C94 and C112 go): if all of them voted
for a proposal to resolve a dispute in a certain way, it had its deposit placed, is prepared and has a deciding slot, its
place in the scheduler is free, and the parties can pay what the resolution takes from them, then the chain can go on such
that the dispute is resolved that way. -/
theorem C180_can_settle_partial (calls : Nat → Option Payments.Call) (z s : JSt) (hz : JGenesis z) (h : JReach calls z s)
    (hf : FReach z.gov s.gov) (q : Nat) (r : Ref Nat) (hq : s.gov.crefs q = some (.ongoing r)) (n : Nat)
    (ho : r.origin = .root) (hc : r.call = .other n) (id : Payments.PId) (res : Payments.DisputeResult)
    (hn : calls n = some (.resolveDispute id res)) (i : TrackInfo) (hi : collectiveInfo r.track = some i)
    (hm : ∃ a k, s.gov.m.seats a = some k ∧ 1 ≤ k) (hu : Unanimous s.gov q) (hd : r.deposit = true)
    (hnone : r.deciding = none) (hw : r.submitted + i.preparePeriod ≤ s.gov.now)
    (hslot : hasSlot s.gov.crefs s.gov.cnext r.track i = true) (hfree : ∀ t ∈ s.gov.agenda, t.name ≠ some q)
    (env : GEnv) (henv : Tame env) (hsched : ∀ k, env.denySchedule k = false)
    (penv : Payments.Env) (hpenv : Payments.Accepting penv.ledger)
    (snd b : Payments.Acct) (p : Payments.Payment) (hpar : s.pay.parties id = some (snd, b))
    (hp : s.pay.payments snd id = some p) (hst : p.state = .needsReview) (hne : snd ≠ b)
    (hs : Payments.feeTotal p.fees.senderPays + max (s.pay.ledger.minBal p.asset) p.incentive ≤
      (s.pay.ledger.bal p.asset snd).free + Payments.senderEscrow p)
    (hb : Payments.feeTotal p.fees.beneficiaryPays + s.pay.ledger.minBal p.asset + Payments.senderShare p res ≤
      (s.pay.ledger.bal p.asset b).free + p.amount) :
    ∃ s1 s' x, JReach calls s s1 ∧ JStep calls (some (.root, .resolveDispute id res)) s1 s' ∧
      Payments.dispatch Payments.Kreivo.config penv s1.pay .root (.resolveDispute id res) = .ok x ∧ s'.pay = x ∧
      s1.pay.ledger = s.pay.ledger ∧ s'.pay.payments snd id = some { p with state := .finished } := by
  have ht := (reach_shape hz.gov hf.reach).ctrack q _ hq
  have hl := hf.length hz.gov q
  have pass := C112_unanimous_partial z.gov hz.gov s.gov hf q hl r.origin r.track i ht hi hm hu
  have e1 : serviceCollective env s.gov q = some (setCRef s.gov q
      (.ongoing { r with deciding := some ⟨s.gov.now, some (s.gov.now + i.confirmPeriod)⟩ })) := by
    simp [serviceCollective, hq, hi, service, hnone, hd, hw, hslot, pass]
  let r1 : Ref Nat := { r with deciding := some ⟨s.gov.now, some (s.gov.now + i.confirmPeriod)⟩ }
  let g1 : GSt := setCRef s.gov q (.ongoing r1)
  let g2 : GSt := { g1 with now := g1.now + i.confirmPeriod }
  have self : ∀ (s : GSt) (x : RefInfo Nat), (setCRef s q x).crefs q = some x := by simp [setCRef]
  have e2 : serviceCollective env g2 q = some { setCRef g2 q (.approved r1 g2.now) with
      agenda := enact env g2 (.collective q) i r1.desired r1.origin r1.call } :=
    serviceCollective_approve env g2 q r1 i ⟨s.gov.now, some (s.gov.now + i.confirmPeriod)⟩ (s.gov.now + i.confirmPeriod)
      (self s.gov _) hi rfl rfl (le_refl _) (pass _)
  let w := max (r.desired.evaluate g2.now) (g2.now + max 1 i.minEnactmentPeriod)
  let t : Task := ⟨.collective q, w, .root, .other n⟩
  have e3 : enact env g2 (.collective q) i r1.desired r1.origin r1.call = t :: s.gov.agenda := by
    unfold enact
    have : (g2.agenda.any fun u => decide (u.name = some q)) = false := by
      rw [List.any_eq_false]
      intro u hu'
      simpa using hfree u hu'
    show (if ((g2.agenda.any fun u => decide (u.name = some q)) || env.denySchedule _) = true then _ else _) = _
    rw [this, hsched]
    simp only [Bool.or_self, Bool.false_eq_true, if_false]
    show (⟨_, _, r.origin, r.call⟩ : Task) :: _ = _
    rw [ho, hc]
    rfl
  rw [e3] at e2
  let g3 : GSt := { setCRef g2 q (.approved r1 g2.now) with agenda := t :: s.gov.agenda }
  let g4 : GSt := { g3 with now := g3.now + w }
  let p4 : Payments.St := { s.pay with now := s.pay.now + i.confirmPeriod + w }
  have c1 : JReach calls s ⟨g1, s.pay⟩ := .step .start (.collective env q e1)
  have c2 : JReach calls s ⟨g2, { s.pay with now := s.pay.now + i.confirmPeriod }⟩ := .step c1 (.time i.confirmPeriod)
  have c3 : JReach calls s ⟨g3, { s.pay with now := s.pay.now + i.confirmPeriod }⟩ := .step c2 (.collective env q e2)
  have c4 : JReach calls s ⟨g4, p4⟩ := .step c3 (.time w)
  have hr4 : Payments.Reachable Payments.Kreivo.config p4 := (h.trans c4).pay hz
  obtain ⟨x, hx⟩ := Payments.C94_resolvable_partial (o := .root) (r := res) (resolver := Payments.Kreivo.treasury) hr4 rfl
    hpar hp hst hne hpenv hs hb
  have hcall : paymentCall calls g4 .root t.call = some (.root, .resolveDispute id res) := by
    simp [paymentCall, inner, t, hn]
  have st := JStep.run (calls := calls) (s := ⟨g4, p4⟩) env henv penv [] s.gov.agenda t rfl (Nat.le_add_left _ _)
  rw [show paymentCall calls (JSt.mk g4 p4).gov t.origin t.call = some (.root, .resolveDispute id res) from hcall] at st
  have hpay : onPayments penv p4 (some (.root, .resolveDispute id res)) = x := by
    show Payments.settle p4 (Payments.dispatch Payments.Kreivo.config penv p4 .root (.resolveDispute id res)) = x
    rw [hx]; rfl
  refine ⟨⟨g4, p4⟩, _, x, c4, st, hx, hpay, rfl, ?_⟩
  show (onPayments penv p4 (some (.root, .resolveDispute id res))).payments snd id = _
  rw [hpay]
  obtain ⟨resolver, snd', b', p', L, _, hpar', hp', _, _, rfl⟩ := Payments.resolveDispute_ok
    (show Payments.resolveDispute Payments.Kreivo.config penv p4 .root id res = .ok x from hx)
  have hpar' : s.pay.parties id = some (snd', b') := hpar'
  rw [hpar] at hpar'
  simp only [Option.some.injEq, Prod.mk.injEq] at hpar'
  obtain ⟨rfl, rfl⟩ := hpar'
  have hp' : s.pay.payments snd id = some p' := hp'
  rw [hp] at hp'
  injection hp' with hp'
  subst hp'
  exact Payments.setPayment_same _ _ _ _

/-- Non-vacuity of C179 and C180: on a chain whose collective has a single member, who voted to resolve the dispute in this
way, it can be resolved. -/
example : ∃ s s1 s' p, JReach Demo.payCalls Demo.dstart s ∧ JGenesis Demo.dstart ∧ FReach Demo.dstart.gov s.gov ∧
    s.pay.payments 1 Demo.disputed = some p ∧ p.state = .needsReview ∧ p.amount = 5000 ∧ JReach Demo.payCalls s s1 ∧
    JStep Demo.payCalls (some (.root, .resolveDispute Demo.disputed ⟨50, .sender⟩)) s1 s' ∧
    s'.pay.payments 1 Demo.disputed = some { p with state := .finished } := by
  let s : JSt := (Demo.dispute ++ Demo.settlement).foldl Demo.dact Demo.dstart
  have hs : JReach Demo.payCalls Demo.dstart s := Demo.dacts_reach .start _ (by decide)
  have z : ∀ p : Nat, 0 ≤ 65537 := fun _ => Nat.zero_le _
  have v : ∀ p : Nat, (if p = 0 then [(([9] : AccountId), (true, 1))] else []).length ≤ 65537 := by
    intro p; split <;> decide
  have hf : FReach Demo.dstart.gov s.gov :=
    Demo.dact_freach (Demo.dact_freach (Demo.dact_freach (Demo.dact_freach (Demo.dact_freach (Demo.dact_freach (Demo.dact_freach (s := Demo.dstart) .start (.call (.signed [1]) (.other 0)) rfl z)
       (.call (.signed [1]) (.other 1)) rfl z) (.call (.signed [2]) (.other 2)) rfl z)
       (.call (.signed [9]) (.csubmit .root (.other 3) (.after 0))) rfl z) (.call (.signed [9]) (.cdeposit 0)) rfl z)
       (.call (.signed [9]) (.cvote 0 true)) rfl v) (.time (15 * minutes)) rfl v
  have un : Unanimous s.gov 0 := by
    refine ⟨fun who k hk h1 => ?_, fun who v hv => ?_⟩
    · have hk : (if who = [9] then some 1 else none) = some k := hk
      split at hk
      · rename_i hwho; subst hwho; exact ⟨1, rfl⟩
      · cases hk
    · have hv : aget [([9], (true, 1))] who = some v := hv
      rw [aget_cons] at hv
      split at hv
      · cases hv; rfl
      · cases hv
  obtain ⟨s1, s', x, h1, h2, _, _, _, h3⟩ := C180_can_settle_partial Demo.payCalls Demo.dstart s Demo.dstart_genesis hs hf 0 _
    rfl 3 rfl rfl Demo.disputed ⟨50, .sender⟩ rfl _ rfl ⟨[9], 1, rfl, by decide⟩
    un rfl rfl (by decide) (by decide +kernel) (fun t ht => by cases ht) Demo.genv Demo.genv_tame (fun _ => rfl)
    Payments.Kreivo.env (fun _ _ => rfl) 1 2 _ rfl rfl rfl (by decide) (by decide +kernel) (by decide +kernel)
  exact ⟨s, s1, s', _, hs, Demo.dstart_genesis, hf, rfl, rfl, rfl, h1, h2, h3⟩

/-- Non-vacuity of C180: on a chain without a collective, a dispute of 5000. -/
example : ∃ s p, JReach Demo.payCalls Demo.dempty s ∧ JGenesis Demo.dempty ∧
    (∀ a k, Demo.dempty.gov.m.seats a = some k → k = 0) ∧ s.pay.payments 1 Demo.disputed = some p ∧
    p.state = .needsReview ∧ p.amount = 5000 ∧ p.beneficiary = 2 :=
  ⟨_, _, Demo.dacts_reach .start Demo.dispute (by decide), Demo.dempty_genesis, (by intro a k h; cases h), rfl, rfl, rfl, rfl⟩

end Verif.Governance
