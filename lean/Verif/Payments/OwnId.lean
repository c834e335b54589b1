import Verif.Payments.Lifecycle

/-!
# Payments: one payment, whatever happens to the ids of others (C22, C24)

`FreshIds` asks that no id at all is given to two senders. A payment depends only on its own id: here the same is asked of
one id, or only while one sender has a payment under it, and nothing of all other ids.
-/

namespace Verif.Payments

open Demo

/-! ## Specification -/

/-- The action does not create a payment of another sender under `id` while `snd` has a payment there. Specification only,
no code behind it (outside /repo). -/
def IdKept (cfg : Config) (snd : Acct) (id : PId) (s : St) (act : Act) : Prop :=
  ∀ env o c x b, act = .call env o c → creates cfg o c = some (x, b) → env.nextId x b = some id → x ≠ snd →
    s.payments snd id = none

/-- The action does not create a payment under `id` while another sender has a payment there. Specification only, no code
behind it (outside /repo). -/
def IdOnce (cfg : Config) (id : PId) (s : St) (act : Act) : Prop := ∀ snd, IdKept cfg snd id s act

/-- The payment of `snd` under `id`, if there is one, is the one found by the id. Specification only, no code behind it
(outside /repo). -/
def FoundFor (snd : Acct) (id : PId) (s : St) : Prop :=
  ∀ p, s.payments snd id = some p → s.parties id = some (snd, p.beneficiary)

/-- The same for every sender. Specification only, no code behind it (outside /repo). -/
def FoundId (id : PId) (s : St) : Prop := ∀ snd, FoundFor snd id s

/-! ## Helper lemmas -/

theorem FreshIds.kept {cfg : Config} {s : St} {act : Act} (h : FreshIds cfg s act) (snd : Acct) (id : PId) :
    IdKept cfg snd id s act := fun env o c x b e hc hn hx => h env o c x b id e hc hn snd (Ne.symm hx)

theorem FreshIds.once {cfg : Config} {s : St} {act : Act} (h : FreshIds cfg s act) (id : PId) : IdOnce cfg id s act :=
  fun snd => h.kept snd id

theorem IdOnce.others {cfg : Config} {s : St} {env : Env} {o : Origin} {c : Call} {id : PId} {snd b : Acct}
    (h : IdOnce cfg id s (.call env o c)) (hc : creates cfg o c = some (snd, b)) (hn : env.nextId snd b = some id) :
    ∀ x, x ≠ snd → s.payments x id = none := fun x hx => h x env o c snd b rfl hc hn (Ne.symm hx)

theorem FoundId.only {s : St} {id : PId} (hf : FoundId id s) {snd x : Acct} {p : Payment}
    (h : s.payments snd id = some p) (hx : x ≠ snd) : s.payments x id = none := by
  cases hq : s.payments x id with
  | none => rfl
  | some q =>
    have h1 := hf _ _ h
    rw [hf _ _ hq] at h1
    simp only [Option.some.injEq, Prod.mk.injEq] at h1
    exact absurd h1.1 hx

theorem foundFor_upd {s s' : St} {x snd : Acct} {i id : PId} {p p' : Payment} (hf : FoundFor x i s)
    (hpar : s'.parties = s.parties) (hp : s'.payments = setPayment s.payments snd id (some p'))
    (hold : s.payments snd id = some p) (hb : p'.beneficiary = p.beneficiary) : FoundFor x i s' := by
  intro q hq
  rw [hp] at hq
  rw [hpar]
  rcases setPayment_cases s.payments snd id (some p') x i with ⟨e, _⟩ | ⟨rfl, rfl, e⟩
  · rw [e] at hq; exact hf q hq
  · rw [e] at hq; cases hq; rw [hb]; exact hf _ hold

theorem foundFor_new {s s' : St} {x snd b : Acct} {i id : PId} {p' : Payment} (hf : FoundFor x i s)
    (hpar : s'.parties = setAt s.parties id (some (snd, b)))
    (hp : s'.payments = setPayment s.payments snd id (some p')) (hb : p'.beneficiary = b)
    (hfresh : i = id → snd ≠ x → s.payments x id = none) : FoundFor x i s' := by
  intro q hq
  rw [hp] at hq
  rw [hpar]
  unfold setAt
  rcases setPayment_cases s.payments snd id (some p') x i with ⟨e, hne⟩ | ⟨rfl, rfl, e⟩
  · rw [e] at hq
    by_cases hi : i = id
    · subst hi
      rw [hfresh rfl fun e => hne (by rw [e])] at hq; cases hq
    · rw [if_neg hi]; exact hf q hq
  · rw [e] at hq; cases hq; rw [if_pos rfl, hb]

theorem cancel_foundFor {cfg env s o id s'} {x : Acct} {i : PId} (h : cancel cfg env s o id = .ok s')
    (hf : FoundFor x i s) : FoundFor x i s' := by
  obtain ⟨snd, b, p, L, _, hpar, hp, hl, hs⟩ := cancel_ok h
  have hp' : s'.payments = setPayment s.payments snd id none := by rcases hs with ⟨_, rfl⟩ | ⟨_, rfl⟩ <;> rfl
  have hpar' : s'.parties = setAt s.parties id none := by rcases hs with ⟨_, rfl⟩ | ⟨_, rfl⟩ <;> rfl
  intro q hq
  rw [hp'] at hq
  rw [hpar']
  unfold setAt
  rcases setPayment_cases s.payments snd id none x i with ⟨e, hne⟩ | ⟨rfl, rfl, e⟩
  · rw [e] at hq
    by_cases hi : i = id
    · subst hi
      have := hf q hq
      rw [hpar] at this
      simp only [Option.some.injEq, Prod.mk.injEq] at this
      exact absurd (by rw [this.1]) hne
    · rw [if_neg hi]; exact hf q hq
  · rw [e] at hq; cases hq

theorem dispatch_foundFor {cfg env s o c s'} {x : Acct} {i : PId} (h : dispatch cfg env s o c = .ok s')
    (hok : IdKept cfg x i s (.call env o c)) (hf : FoundFor x i s) : FoundFor x i s' := by
  cases c with
  | pay bA a n r =>
    obtain ⟨snd, b, id, L, h1, h2, h3, _, hr, rfl⟩ := pay_ok h
    exact foundFor_new (s := s) hf rfl rfl rfl fun e => by
      subst e; exact hok env o _ snd b rfl (by simp [creates, h1, h2]) h3
  | release id =>
    obtain ⟨snd, p, L, _, hp, hst, hl, rfl⟩ := release_ok h
    exact foundFor_upd (s := s) hf rfl rfl hp rfl
  | requestRefund id =>
    obtain ⟨snd, p, _, hp, hst, _, _, _, _, rfl⟩ := requestRefund_ok h
    exact foundFor_upd (s := s) hf rfl rfl hp rfl
  | acceptAndPay id =>
    obtain ⟨snd, s0, b, p, L1, L2, L3, ho, _, hp, h1, h2, h3, rfl⟩ := acceptAndPay_ok h
    exact foundFor_upd (s := s) hf rfl rfl hp rfl
  | cancel id => exact cancel_foundFor h hf
  | disputeRefund id =>
    obtain ⟨snd, b, p, cb, L, _, hpar, hp, hst, _, hh, _, rfl⟩ := disputeRefund_ok h
    exact foundFor_upd (s := s) hf rfl rfl hp rfl
  | requestPayment sA a n =>
    obtain ⟨snd, b, id, h1, h2, h3, _, rfl⟩ := requestPayment_ok h
    exact foundFor_new (s := s) hf rfl rfl rfl fun e => by
      subst e; exact hok env o _ snd b rfl (by simp [creates, h1, h2]) h3
  | resolveDispute id r =>
    obtain ⟨resolver, snd, b, p, L, _, hpar, hp, hst, hl, rfl⟩ := resolveDispute_ok h
    exact foundFor_upd (s := s) hf rfl rfl hp rfl

theorem exec_foundFor {cfg s} {x : Acct} {i : PId} (act : Act) (hok : IdKept cfg x i s act) (hf : FoundFor x i s) :
    FoundFor x i (exec cfg s act) := by
  cases act with
  | call env o c =>
    simp only [exec]
    cases h : dispatch cfg env s o c with
    | error e => exact hf
    | ok s' => exact dispatch_foundFor h hok hf
  | tick => exact hf
  | fire env id =>
    simp only [exec]
    cases ht : s.agenda id with
    | none => exact hf
    | some t =>
      simp only
      split_ifs
      · have he1 : FoundFor x i { s with agenda := setAt s.agenda id none } := hf
        cases h : cancel cfg env { s with agenda := setAt s.agenda id none } (.signed t.who) id with
        | error e => exact he1
        | ok s' => exact cancel_foundFor h he1
      · exact hf
  | ext a w f => exact hf
  | setMin a m => exact hf

theorem Reach.foundFor {cfg ok s} {x : Acct} {i : PId} (h : Reach cfg ok s) (hle : ∀ s a, ok s a → IdKept cfg x i s a) :
    FoundFor x i s := by
  induction h with
  | init h => intro p hp; rw [h.payments] at hp; cases hp
  | step act h hok ih => exact exec_foundFor act (hle _ _ hok) ih

theorem Reach.foundId {cfg ok s} {i : PId} (h : Reach cfg ok s) (hle : ∀ s a, ok s a → IdOnce cfg i s a) : FoundId i s :=
  fun x => h.foundFor fun s a h' => hle s a h' x

theorem exec_foundId {cfg s} {i : PId} (act : Act) (hok : IdOnce cfg i s act) (hf : FoundId i s) :
    FoundId i (exec cfg s act) := fun x => exec_foundFor act (hok x) (hf x)

/-! ## C22 -/

/-- C22 for one payment (partial: only while no other sender is given its id): whatever ids others are given, the payment of
`snd` under `id` is the one the id finds. -/
theorem C22_own_id_partial {cfg : Config} {s : St} {snd : Acct} {id : PId} (hr : Reach cfg (IdKept cfg snd id) s)
    {p : Payment} (hp : s.payments snd id = some p) : s.parties id = some (snd, p.beneficiary) :=
  hr.foundFor (fun _ _ h => h) p hp

/-- C22, why a payment is ever lost, in every history whatsoever: if the payment of `snd` under `id` is not the one the id
finds, then at some moment in the past, when `snd` had a payment under this id, a payment of somebody else was created
under it. -/
theorem C22_lost_only_by_reuse {cfg : Config} {z : St} (hz : Initial z) (acts : List Act) {snd : Acct} {id : PId}
    {p : Payment} (hp : (run cfg z acts).payments snd id = some p)
    (hl : (run cfg z acts).parties id ≠ some (snd, p.beneficiary)) :
    ∃ pre env o c post x b q s', acts = pre ++ .call env o c :: post ∧ x ≠ snd ∧ creates cfg o c = some (x, b) ∧
      env.nextId x b = some id ∧ (run cfg z pre).payments snd id = some q ∧
      dispatch cfg env (run cfg z pre) o c = .ok s' ∧ s'.payments snd id = some q ∧ s'.parties id = some (x, b) := by
  by_contra hno
  refine hl ?_
  have key : ∀ n, n ≤ acts.length → FoundFor snd id (run cfg z (acts.take n)) := by
    intro n
    induction n with
    | zero => intro _ q hq; rw [List.take_zero] at hq; change z.payments snd id = _ at hq; rw [hz.payments] at hq; cases hq
    | succ n ih =>
      intro hn
      have hlt : n < acts.length := hn
      have e1 : acts.take (n + 1) = acts.take n ++ [acts[n]] := by simp
      have e2 : run cfg z (acts.take (n + 1)) = exec cfg (run cfg z (acts.take n)) acts[n] := by
        rw [e1]; simp only [run, List.foldl_append, List.foldl_cons, List.foldl_nil]
      rw [e2]
      have hsplit : acts = acts.take n ++ acts[n] :: acts.drop (n + 1) := by simp
      have hf := ih (Nat.le_of_lt hlt)
      by_cases hbad : ∃ env o c s', acts[n] = .call env o c ∧ dispatch cfg env (run cfg z (acts.take n)) o c = .ok s'
      · obtain ⟨env, o, c, s', ea, hd⟩ := hbad
        refine exec_foundFor _ ?_ hf
        intro env' o' c' x b ea' hc hn' hx
        rw [ea] at ea'; cases ea'
        cases hq : (run cfg z (acts.take n)).payments snd id with
        | none => rfl
        | some q =>
          exfalso
          refine hno ⟨acts.take n, env, o, c, acts.drop (n + 1), x, b, q, s', by rw [← ea]; exact hsplit, hx, hc, hn', hq, hd,
            ?_, ?_⟩
          · cases c with
            | pay bA a m r =>
              obtain ⟨y, b', j, L, h1, h2, h3, _, _, rfl⟩ := pay_ok hd
              simp only [creates, h1, h2, Option.some.injEq, Prod.mk.injEq] at hc
              obtain ⟨rfl, rfl⟩ := hc
              show setPayment _ _ _ _ _ _ = _
              rw [setPayment_ne _ _ _ _ _ _ (by simp [Ne.symm hx])]; exact hq
            | requestPayment sA a m =>
              obtain ⟨y, b', j, h1, h2, h3, _, rfl⟩ := requestPayment_ok hd
              simp only [creates, h1, h2, Option.some.injEq, Prod.mk.injEq] at hc
              obtain ⟨rfl, rfl⟩ := hc
              show setPayment _ _ _ _ _ _ = _
              rw [setPayment_ne _ _ _ _ _ _ (by simp [Ne.symm hx])]; exact hq
            | _ => simp [creates] at hc
          · cases c with
            | pay bA a m r =>
              obtain ⟨y, b', j, L, h1, h2, h3, _, _, rfl⟩ := pay_ok hd
              simp only [creates, h1, h2, Option.some.injEq, Prod.mk.injEq] at hc
              obtain ⟨rfl, rfl⟩ := hc
              rw [hn'] at h3; cases h3
              simp [setAt]
            | requestPayment sA a m =>
              obtain ⟨y, b', j, h1, h2, h3, _, rfl⟩ := requestPayment_ok hd
              simp only [creates, h1, h2, Option.some.injEq, Prod.mk.injEq] at hc
              obtain ⟨rfl, rfl⟩ := hc
              rw [hn'] at h3; cases h3
              simp [setAt]
            | _ => simp [creates] at hc
      · have : ∀ act, acts[n] = act → FoundFor snd id (exec cfg (run cfg z (acts.take n)) act) := by
          intro act ea
          cases act with
          | call env o c =>
            cases hd : dispatch cfg env (run cfg z (acts.take n)) o c with
            | error e => simp only [exec, hd, settle]; exact hf
            | ok s' => exact absurd ⟨env, o, c, s', ea, hd⟩ hbad
          | _ => exact exec_foundFor _ (fun _ _ _ _ _ h => by cases h) hf
        exact this _ rfl
  have := key acts.length le_rfl
  rw [List.take_length] at this
  exact this p hp

-- The history of `C22_orphaned_fails`: the payment of account 1 is lost, as its id was given to a payment of account 3.
example : (run cfg s0 [aPay 7 1 2 1000, aPay 7 3 4 500]).parties 7 = some (3, 4) ∧
    stateAt (run cfg s0 [aPay 7 1 2 1000, aPay 7 3 4 500]) 1 7 = some .created := ⟨by decide, by decide⟩

theorem kept_pay (i : PId) (a b : Acct) (n : Nat) (s : St) (snd : Acct) (id : PId)
    (h : i = id → a ≠ snd → s.payments snd id = none) : IdKept cfg snd id s (aPay i a b n) := by
  intro _ _ _ x b' e hc hn hx
  cases e
  simp only [creates, Demo.cfg, Option.some.injEq, Prod.mk.injEq] at hc
  obtain ⟨rfl, rfl⟩ := hc
  cases hn
  exact h rfl hx

/-- The hypotheses of `C22_own_id_partial` met by a history in which another id is given twice. -/
example : Reach cfg (IdKept cfg 1 8) (run cfg s0 [aPay 7 1 2 1000, aPay 7 3 4 500, aPay 8 1 2 200]) ∧
    stateAt (run cfg s0 [aPay 7 1 2 1000, aPay 7 3 4 500, aPay 8 1 2 200]) 1 8 = some .created :=
  ⟨.step (s := run cfg s0 [aPay 7 1 2 1000, aPay 7 3 4 500]) (aPay 8 1 2 200)
    (.step (s := run cfg s0 [aPay 7 1 2 1000]) (aPay 7 3 4 500)
      (.step (s := s0) (aPay 7 1 2 1000) (.init s0_initial) (kept_pay _ _ _ _ _ _ _ fun h => by cases h))
      (kept_pay _ _ _ _ _ _ _ fun h => by cases h))
    (kept_pay _ _ _ _ _ _ _ fun _ h => absurd rfl h), by decide⟩

/-! ## C24 -/

/-- What is asked of the actions on one id: it is not given to two senders, an escrowed payment under it is not accepted
again, and it is not cancelled by hand while a cancellation is scheduled. Specification only, no code behind it (outside
/repo). -/
structure CalmId (cfg : Config) (id : PId) (s : St) (act : Act) : Prop where
  once : IdOnce cfg id s act
  accept : ∀ env o snd p, act = .call env o (.acceptAndPay id) → cfg.senderOrigin o = some snd →
    s.payments snd id = some p → p.state.isOpen = false
  cancel : ∀ env o, act = .call env o (.cancel id) → s.agenda id = none

/-- The task of an id belongs to a pending refund. Specification only, no code behind it (outside /repo). -/
def TaskOf (id : PId) (s : St) : Prop :=
  ∀ t, s.agenda id = some t → ∃ snd p, s.parties id = some (snd, t.who) ∧ s.payments snd id = some p ∧
    p.state = .refundRequested t.due

theorem taskOf_upd {s s' : St} {snd : Acct} {i id : PId} {v : Option Payment} (ht : TaskOf i s)
    (hp : s'.payments = setPayment s.payments snd id v) (hag : s'.agenda = s.agenda)
    (hpar : ∀ j, j ≠ id → s'.parties j = s.parties j) (hnone : i = id → s.agenda id = none) : TaskOf i s' := by
  intro t hi
  rw [hag] at hi
  obtain ⟨x, p, h1, h2, h3⟩ := ht t hi
  have hne : i ≠ id := by intro e; have := hnone e; subst e; rw [this] at hi; cases hi
  refine ⟨x, p, by rw [hpar i hne]; exact h1, ?_, h3⟩
  rw [hp, setPayment_ne _ _ _ _ _ _ (by simp [hne])]; exact h2

theorem taskOf_none {s : St} {snd : Acct} {id : PId} {p : Payment} (hf : FoundId id s) (ht : TaskOf id s)
    (hp : s.payments snd id = some p) (hst : ∀ cb, p.state ≠ .refundRequested cb) : s.agenda id = none := by
  cases ha : s.agenda id with
  | none => rfl
  | some t =>
    obtain ⟨x, q, h1, h2, h3⟩ := ht t ha
    have := hf snd p hp
    rw [h1] at this
    simp only [Option.some.injEq, Prod.mk.injEq] at this
    rw [this.1, hp] at h2; cases h2
    exact absurd h3 (hst _)

theorem taskOf_none_fresh {s : St} {snd : Acct} {id : PId} (ht : TaskOf id s) (hfresh : ∀ x, x ≠ snd → s.payments x id = none)
    (hreq : ∀ old, s.payments snd id = some old → old.state = .paymentRequested) : s.agenda id = none := by
  cases ha : s.agenda id with
  | none => rfl
  | some t =>
    obtain ⟨x, q, h1, h2, h3⟩ := ht t ha
    by_cases hx : x = snd
    · subst hx; have := hreq q h2; rw [h3] at this; cases this
    · rw [hfresh x hx] at h2; cases h2

theorem cancel_taskOf {cfg env s o id s'} {i : PId} (h : cancel cfg env s o id = .ok s') (ht : TaskOf i s)
    (hnone : i = id → s.agenda id = none) : TaskOf i s' := by
  obtain ⟨snd, b, p, L, _, hpar, hp, hl, hs⟩ := cancel_ok h
  have hp' : s'.payments = setPayment s.payments snd id none := by rcases hs with ⟨_, rfl⟩ | ⟨_, rfl⟩ <;> rfl
  have hpar' : s'.parties = setAt s.parties id none := by rcases hs with ⟨_, rfl⟩ | ⟨_, rfl⟩ <;> rfl
  have hag : s'.agenda = s.agenda := by rcases hs with ⟨_, rfl⟩ | ⟨_, rfl⟩ <;> rfl
  exact taskOf_upd ht hp' hag (fun i hi => by rw [hpar']; simp [setAt, hi]) hnone

theorem dispatch_taskOf {cfg env s o c s'} {i : PId} (h : dispatch cfg env s o c = .ok s')
    (hok : CalmId cfg i s (.call env o c)) (hf : FoundId i s) (ht : TaskOf i s) : TaskOf i s' := by
  cases c with
  | pay bA a n r =>
    obtain ⟨snd, b, id, L, h1, h2, h3, hreq, hr, rfl⟩ := pay_ok h
    refine taskOf_upd (s := s) ht rfl rfl (fun i hi => by simp [setAt, hi]) fun e => ?_
    subst e
    exact taskOf_none_fresh ht (hok.once.others (by simp [creates, h1, h2]) h3) hreq
  | release id =>
    obtain ⟨snd, p, L, _, hp, hst, hl, rfl⟩ := release_ok h
    exact taskOf_upd (s := s) ht rfl rfl (fun i hi => rfl) fun e => by subst e; exact taskOf_none hf ht hp (by simp [hst])
  | requestRefund id =>
    obtain ⟨snd, p, _, hp, hst, _, hnone, _, _, rfl⟩ := requestRefund_ok h
    intro t hi
    simp only [setAt] at hi
    split_ifs at hi with e
    · subst e; cases hi
      exact ⟨snd, _, hf _ _ hp, setPayment_same _ _ _ _, rfl⟩
    · obtain ⟨x, q, h1, h2, h3⟩ := ht t hi
      exact ⟨x, q, h1, by simp only; rw [setPayment_ne _ _ _ _ _ _ (by simp [e])]; exact h2, h3⟩
  | acceptAndPay id =>
    obtain ⟨snd, s0, b, p, L1, L2, L3, ho, _, hp, h1, h2, h3, rfl⟩ := acceptAndPay_ok h
    refine taskOf_upd (s := s) ht rfl rfl (fun i hi => rfl) fun e => ?_
    subst e
    refine taskOf_none hf ht hp ?_
    intro cb hc
    have := hok.accept env o snd p rfl ho hp
    rw [hc] at this; cases this
  | cancel id => exact cancel_taskOf h ht fun e => by subst e; exact hok.cancel env o rfl
  | disputeRefund id =>
    obtain ⟨snd, b, p, cb, L, _, hpar, hp, hst, _, hh, _, rfl⟩ := disputeRefund_ok h
    intro t hi
    simp only [setAt] at hi
    split_ifs at hi with e
    obtain ⟨x, q, h1, h2, h3⟩ := ht t hi
    exact ⟨x, q, h1, by simp only; rw [setPayment_ne _ _ _ _ _ _ (by simp [e])]; exact h2, h3⟩
  | requestPayment sA a n =>
    obtain ⟨snd, b, id, h1, h2, h3, hreq, rfl⟩ := requestPayment_ok h
    refine taskOf_upd (s := s) ht rfl rfl (fun i hi => by simp [setAt, hi]) fun e => ?_
    subst e
    exact taskOf_none_fresh ht (hok.once.others (by simp [creates, h1, h2]) h3) hreq
  | resolveDispute id r =>
    obtain ⟨resolver, snd, b, p, L, _, hpar, hp, hst, hl, rfl⟩ := resolveDispute_ok h
    exact taskOf_upd (s := s) ht rfl rfl (fun i hi => rfl) fun e => by subst e; exact taskOf_none hf ht hp (by simp [hst])

theorem exec_taskOf {cfg s} {i : PId} (act : Act) (hok : CalmId cfg i s act) (hf : FoundId i s) (ht : TaskOf i s) :
    TaskOf i (exec cfg s act) := by
  cases act with
  | call env o c =>
    simp only [exec]
    cases h : dispatch cfg env s o c with
    | error e => exact ht
    | ok s' => exact dispatch_taskOf h hok hf ht
  | tick => exact ht
  | fire env id =>
    simp only [exec]
    cases hta : s.agenda id with
    | none => exact ht
    | some t =>
      simp only
      split_ifs
      · have he1 : TaskOf i { s with agenda := setAt s.agenda id none } := by
          intro t' hi
          simp only [setAt] at hi
          split_ifs at hi with e
          exact ht t' hi
        cases h : cancel cfg env { s with agenda := setAt s.agenda id none } (.signed t.who) id with
        | error e => exact he1
        | ok s' => exact cancel_taskOf h he1 fun _ => by simp [setAt]
      · exact ht
  | ext a w f => exact ht
  | setMin a m => exact ht

theorem Reach.taskOf {cfg s} {i : PId} (h : Reach cfg (CalmId cfg i) s) : TaskOf i s := by
  induction h with
  | init h => intro t hi; rw [h.agenda] at hi; cases hi
  | step act h hok ih => exact exec_taskOf act hok (h.foundId fun _ _ h => h.once) ih

/-- C24 for one id (partial: only when this id is not given to two senders, an escrowed payment under it is not accepted
again, and it is not cancelled by hand while its refund is pending), whatever happens to all other ids: whatever record the
scheduler changes under this id is a pending refund with exactly the deadline of the executed task, in whose beneficiary's
name the task was made. -/
theorem C24_own_id_partial {cfg : Config} {s : St} {id : PId} (hr : Reach cfg (CalmId cfg id) s) {env : Env} {i : PId}
    {snd : Acct} (hne : (exec cfg s (.fire env i)).payments snd id ≠ s.payments snd id) :
    i = id ∧ ∃ t p, s.agenda id = some t ∧ s.payments snd id = some p ∧ p.state = .refundRequested t.due ∧
      t.due ≤ s.now ∧ p.beneficiary = t.who := by
  rcases exec_record_key cfg s (.fire env i) snd id with h | h
  · exact absurd h hne
  · generalize hnew : (exec cfg s (.fire env i)).payments snd id = new at h
    generalize hold : s.payments snd id = old at h
    cases h with
    | fire _ _ _ b q t ht hdue ho hpar hst =>
      obtain ⟨x, p, h1, h2, h3⟩ := hr.taskOf t ht
      have hf := hr.foundId (fun _ _ h => h.once) _ _ h2
      rw [h1] at hf
      rw [hpar] at h1
      simp only [Option.some.injEq, Prod.mk.injEq] at h1 hf
      obtain ⟨rfl, rfl⟩ := h1
      rw [hold] at h2; cases h2
      exact ⟨rfl, t, q, ht, rfl, h3, hdue, hf.2.symm⟩

theorem calm_call (j id : PId) (a : Acct) (s : St) (h : j ≠ id) : CalmId cfg id s (aCall a (.cancel j)) where
  once := fun _ _ _ _ _ _ e hc => by cases e; simp [creates] at hc
  accept := fun _ _ _ _ e => by cases e
  cancel := fun _ _ e => by cases e; exact absurd rfl h

theorem calm_refund (id : PId) (a : Acct) (j : PId) (s : St) : CalmId cfg id s (aCall a (.requestRefund j)) where
  once := fun _ _ _ _ _ _ e hc => by cases e; simp [creates] at hc
  accept := fun _ _ _ _ e => by cases e
  cancel := fun _ _ e => by cases e

theorem calm_pay (i id : PId) (a b : Acct) (n : Nat) (s : St) (h : i = id → ∀ x, x ≠ a → s.payments x id = none) :
    CalmId cfg id s (aPay i a b n) where
  once := fun snd => kept_pay _ _ _ _ _ _ _ fun e hx => h e snd (Ne.symm hx)
  accept := fun _ _ _ _ e => by cases e
  cancel := fun _ _ e => by cases e

theorem calm_tick (id : PId) (s : St) : CalmId cfg id s .tick where
  once := fun _ _ _ _ _ _ e => by cases e
  accept := fun _ _ _ _ e => by cases e
  cancel := fun _ _ e => by cases e

/-- Refunds of two payments are asked for, one of them is returned by hand while its refund is pending, and the deadline
passes. Example for non-vacuity (outside /repo). -/
def twoRefunds : List Act :=
  [aPay 7 1 2 1000, aPay 8 1 2 200, aCall 1 (.requestRefund 7), aCall 1 (.requestRefund 8), aCall 2 (.cancel 7),
   .tick, .tick, .tick, .tick, .tick]

/-- The hypotheses of `C24_own_id_partial` met for payment 8, although payment 7 is cancelled by hand with a task left: the
scheduler then changes the record of payment 8. -/
example : Reach cfg (CalmId cfg 8) (run cfg s0 twoRefunds) ∧
    stateAt (run cfg s0 twoRefunds) 1 8 = some (.refundRequested 15) ∧
    ((run cfg s0 twoRefunds).agenda 7).isSome ∧
    stateAt (exec cfg (run cfg s0 twoRefunds) (aFire 8)) 1 8 = none := by
  refine ⟨?_, by decide, by decide, by decide⟩
  have h1 := Reach.step (cfg := cfg) (ok := CalmId cfg 8) (aPay 7 1 2 1000) (.init s0_initial)
    (calm_pay _ _ _ _ _ _ fun h => by cases h)
  have h2 := h1.step (aPay 8 1 2 200) (calm_pay _ _ _ _ _ _ fun _ x _ => by
    show setPayment (fun _ _ => none) 1 7 _ x 8 = none
    exact setPayment_ne _ _ _ _ _ _ (by simp))
  have h3 := (h2.step _ (calm_refund 8 1 7 _)).step _ (calm_refund 8 1 8 _)
  have h4 := h3.step _ (calm_call 7 8 2 _ (by decide))
  exact ((((h4.step _ (calm_tick 8 _)).step _ (calm_tick 8 _)).step _ (calm_tick 8 _)).step _ (calm_tick 8 _)).step _ (calm_tick 8 _)

end Verif.Payments
