import Verif.Payments.Invariants

/-! # Payments: single steps, agenda invariants (helper lemmas) -/

namespace Verif.Payments

/-- Every way a step can change a payment record. -/
inductive Change (cfg : Config) (s : St) : Act → Acct → PId → Option Payment → Option Payment → Prop
  | pay (env o bA a n r snd b id old) : cfg.senderOrigin o = some snd → cfg.lookup bA = some b →
      env.nextId snd b = some id → (∀ q, old = some q → q.state = .paymentRequested) →
      Change cfg s (.call env o (.pay bA a n r)) snd id old (some (newPayment cfg s snd b a n .created r))
  | request (env o sA a n snd b id old) : cfg.beneficiaryOrigin o = some b → cfg.lookup sA = some snd →
      env.nextId snd b = some id → (∀ q, old = some q → q.state = .paymentRequested) →
      Change cfg s (.call env o (.requestPayment sA a n)) snd id old
        (some (newPayment cfg s snd b a n .paymentRequested none))
  | release (env o snd id p) : cfg.senderOrigin o = some snd → p.state = .created →
      Change cfg s (.call env o (.release id)) snd id (some p) (some { p with state := .finished })
  | refund (env o snd id p) : cfg.senderOrigin o = some snd → p.state = .created →
      Change cfg s (.call env o (.requestRefund id)) snd id (some p)
        (some { p with state := .refundRequested (s.now + cfg.cancelBuffer) })
  | accept (env o snd id p) : cfg.senderOrigin o = some snd →
      Change cfg s (.call env o (.acceptAndPay id)) snd id (some p) (some { p with state := .finished })
  | cancel (env o snd id b p) : cfg.beneficiaryOrigin o = some b → s.parties id = some (snd, b) →
      (p.state = .created ∨ ∃ cb, p.state = .refundRequested cb) →
      Change cfg s (.call env o (.cancel id)) snd id (some p) none
  | fire (env snd id b p t) : s.agenda id = some t → t.due ≤ s.now →
      cfg.beneficiaryOrigin (.signed t.who) = some b → s.parties id = some (snd, b) →
      (p.state = .created ∨ ∃ cb, p.state = .refundRequested cb) →
      Change cfg s (.fire env id) snd id (some p) none
  | dispute (env o snd id b p cb) : cfg.beneficiaryOrigin o = some b → s.parties id = some (snd, b) →
      p.state = .refundRequested cb → s.now < cb →
      Change cfg s (.call env o (.disputeRefund id)) snd id (some p) (some { p with state := .needsReview })
  | resolve (env o snd id b p r resolver) : cfg.disputeResolver o = some resolver →
      s.parties id = some (snd, b) → p.state = .needsReview →
      Change cfg s (.call env o (.resolveDispute id r)) snd id (some p) (some { p with state := .finished })

theorem setPayment_cases (f : Acct → PId → Option Payment) (x i v x' i') :
    (setPayment f x i v x' i' = f x' i' ∧ (x', i') ≠ (x, i)) ∨ (x' = x ∧ i' = i ∧ setPayment f x i v x' i' = v) := by
  by_cases h : (x', i') = (x, i)
  · obtain ⟨rfl, rfl⟩ := Prod.mk.inj h
    exact Or.inr ⟨rfl, rfl, setPayment_same _ _ _ _⟩
  · exact Or.inl ⟨setPayment_ne _ _ _ _ _ _ h, h⟩

/-- A step changes records only along `Change`, and at most one key. -/
theorem exec_record (cfg : Config) (s : St) (act : Act) :
    ((exec cfg s act).payments = s.payments) ∨
    ∃ snd id new, (exec cfg s act).payments = setPayment s.payments snd id new ∧
      Change cfg s act snd id (s.payments snd id) new := by
  cases act with
  | call env o c =>
    simp only [exec]
    cases h : dispatch cfg env s o c with
    | error e => exact Or.inl rfl
    | ok s' =>
      refine Or.inr ?_
      simp only [settle]
      cases c with
      | pay bA a n r =>
        obtain ⟨snd, b, id, L, h1, h2, h3, hf, hr, rfl⟩ := pay_ok h
        exact ⟨snd, id, _, rfl, .pay env o bA a n r snd b id _ h1 h2 h3 hf⟩
      | release id =>
        obtain ⟨snd, p, L, h1, hp, hst, hl, rfl⟩ := release_ok h
        refine ⟨snd, id, _, rfl, ?_⟩
        rw [hp]; exact .release env o snd id p h1 hst
      | requestRefund id =>
        obtain ⟨snd, p, h1, hp, hst, _, _, _, _, rfl⟩ := requestRefund_ok h
        refine ⟨snd, id, _, rfl, ?_⟩
        rw [hp]; exact .refund env o snd id p h1 hst
      | acceptAndPay id =>
        obtain ⟨snd, s0, b, p, L1, L2, L3, h1, _, hp, _, _, _, rfl⟩ := acceptAndPay_ok h
        refine ⟨snd, id, _, rfl, ?_⟩
        rw [hp]; exact .accept env o snd id p h1
      | cancel id =>
        obtain ⟨snd, b, p, L, h1, hpar, hp, hl, hs⟩ := cancel_ok h
        refine ⟨snd, id, none, by rcases hs with ⟨_, rfl⟩ | ⟨_, rfl⟩ <;> rfl, ?_⟩
        rw [hp]; exact .cancel env o snd id b p h1 hpar (by tauto)
      | disputeRefund id =>
        obtain ⟨snd, b, p, cb, L, h1, hpar, hp, hst, hn, hh, _, rfl⟩ := disputeRefund_ok h
        refine ⟨snd, id, _, rfl, ?_⟩
        rw [hp]; exact .dispute env o snd id b p cb h1 hpar hst hn
      | requestPayment sA a n =>
        obtain ⟨snd, b, id, h1, h2, h3, hf, rfl⟩ := requestPayment_ok h
        exact ⟨snd, id, _, rfl, .request env o sA a n snd b id _ h1 h2 h3 hf⟩
      | resolveDispute id r =>
        obtain ⟨resolver, snd, b, p, L, h1, hpar, hp, hst, hl, rfl⟩ := resolveDispute_ok h
        refine ⟨snd, id, _, rfl, ?_⟩
        rw [hp]; exact .resolve env o snd id b p r resolver h1 hpar hst
  | tick => exact Or.inl rfl
  | fire env id =>
    simp only [exec]
    cases ht : s.agenda id with
    | none => exact Or.inl rfl
    | some t =>
      simp only
      split_ifs with hd
      · cases h : cancel cfg env { s with agenda := setAt s.agenda id none } (.signed t.who) id with
        | error e => exact Or.inl rfl
        | ok s' =>
          refine Or.inr ?_
          obtain ⟨snd, b, p, L, h1, hpar, hp, hl, hs⟩ := cancel_ok h
          refine ⟨snd, id, none, by rcases hs with ⟨_, rfl⟩ | ⟨_, rfl⟩ <;> rfl, ?_⟩
          simp only at hp hpar
          rw [hp]; exact .fire env snd id b p t ht hd h1 hpar (by tauto)
      · exact Or.inl rfl
  | ext a w f => exact Or.inl rfl
  | setMin a m => exact Or.inl rfl

/-- For one key: unchanged, or changed along `Change`. -/
theorem exec_record_key (cfg : Config) (s : St) (act : Act) (snd : Acct) (id : PId) :
    (exec cfg s act).payments snd id = s.payments snd id ∨
    Change cfg s act snd id (s.payments snd id) ((exec cfg s act).payments snd id) := by
  rcases exec_record cfg s act with h | ⟨snd', id', new, h, hc⟩
  · exact Or.inl (by rw [h])
  · rcases setPayment_cases s.payments snd' id' new snd id with ⟨h1, _⟩ | ⟨rfl, rfl, h1⟩
    · exact Or.inl (by rw [h, h1])
    · exact Or.inr (by rw [h, h1]; exact hc)

/-- Same payment data, whatever the state. -/
def SameCore (p q : Payment) : Prop :=
  p.asset = q.asset ∧ p.amount = q.amount ∧ p.beneficiary = q.beneficiary ∧ p.incentive = q.incentive ∧
    p.fees = q.fees

theorem SameCore.trans {p q r : Payment} (h1 : SameCore p q) (h2 : SameCore q r) : SameCore p r :=
  ⟨h1.1.trans h2.1, h1.2.1.trans h2.2.1, h1.2.2.1.trans h2.2.2.1, h1.2.2.2.1.trans h2.2.2.2.1,
    h1.2.2.2.2.trans h2.2.2.2.2⟩

theorem exec_core (cfg : Config) (s : St) (act : Act) (snd : Acct) (id : PId) (p : Payment)
    (hp : s.payments snd id = some p) (hst : p.state ≠ .paymentRequested) :
    (exec cfg s act).payments snd id = none ∨
    ∃ q, (exec cfg s act).payments snd id = some q ∧ SameCore p q ∧ q.state ≠ .paymentRequested := by
  rcases exec_record_key cfg s act snd id with h | h
  · exact Or.inr ⟨p, by rw [h, hp], ⟨rfl, rfl, rfl, rfl, rfl⟩, hst⟩
  · rw [hp] at h
    generalize (exec cfg s act).payments snd id = new at h
    cases h with
    | pay _ _ _ _ _ _ _ _ _ _ _ _ _ hf => exact absurd (hf p rfl) hst
    | request _ _ _ _ _ _ _ _ _ _ _ _ hf => exact absurd (hf p rfl) hst
    | release => exact Or.inr ⟨_, rfl, ⟨rfl, rfl, rfl, rfl, rfl⟩, by simp⟩
    | refund => exact Or.inr ⟨_, rfl, ⟨rfl, rfl, rfl, rfl, rfl⟩, by simp⟩
    | accept => exact Or.inr ⟨_, rfl, ⟨rfl, rfl, rfl, rfl, rfl⟩, by simp⟩
    | cancel => exact Or.inl rfl
    | fire => exact Or.inl rfl
    | dispute => exact Or.inr ⟨_, rfl, ⟨rfl, rfl, rfl, rfl, rfl⟩, by simp⟩
    | resolve => exact Or.inr ⟨_, rfl, ⟨rfl, rfl, rfl, rfl, rfl⟩, by simp⟩

/-! ### agenda -/

/-- Relations between pending refunds and scheduled cancellations. -/
structure AgInv (cfg : Config) (s : St) : Prop where
  cap : ∀ snd id p cb, s.payments snd id = some p → p.state = .refundRequested cb → cb ≤ s.now + cfg.cancelBuffer
  due : ∀ snd id p cb t, s.payments snd id = some p → p.state = .refundRequested cb → s.agenda id = some t →
    cb ≤ t.due
  live : ∀ snd id b p cb, s.parties id = some (snd, b) → s.payments snd id = some p →
    p.state = .refundRequested cb → s.agenda id = some ⟨cb, b⟩ ∨ cb ≤ s.now

theorem agInv_upd {cfg s s'} {snd : Acct} {id : PId} {v : Option Payment} (h : AgInv cfg s)
    (hp : s'.payments = setPayment s.payments snd id v) (hnow : s'.now = s.now)
    (hv : ∀ p cb, v = some p → p.state ≠ .refundRequested cb)
    (hag : s'.agenda = s.agenda ∨ (s'.agenda = setAt s.agenda id none ∧ ∃ b, s.parties id = some (snd, b)))
    (hpar : s'.parties = s.parties ∨ s'.parties = setAt s.parties id none ∨
      ∃ b, s'.parties = setAt s.parties id (some (snd, b))) : AgInv cfg s' := by
  have hother : ∀ x i p cb, s'.payments x i = some p → p.state = .refundRequested cb →
      s.payments x i = some p ∧ (x, i) ≠ (snd, id) := by
    intro x i p cb h1 h2
    rw [hp] at h1
    rcases setPayment_cases s.payments snd id v x i with ⟨e, hne⟩ | ⟨rfl, rfl, e⟩
    · exact ⟨by rw [← e]; exact h1, hne⟩
    · rw [e] at h1; exact absurd h2 (hv p cb h1)
  refine ⟨?_, ?_, ?_⟩
  · intro x i p cb h1 h2
    rw [hnow]; exact h.cap x i p cb (hother x i p cb h1 h2).1 h2
  · intro x i p cb t h1 h2 h3
    refine h.due x i p cb t (hother x i p cb h1 h2).1 h2 ?_
    rcases hag with e | ⟨e, _⟩
    · rw [← e]; exact h3
    · rw [e] at h3; unfold setAt at h3; split_ifs at h3; exact h3
  · intro x i b p cb h0 h1 h2
    obtain ⟨h1', hne⟩ := hother x i p cb h1 h2
    have hpar0 : s.parties i = some (x, b) := by
      rcases hpar with e | e | ⟨b', e⟩
      · rw [← e]; exact h0
      · rw [e] at h0; unfold setAt at h0; split_ifs at h0; exact h0
      · rw [e] at h0; unfold setAt at h0; split_ifs at h0 with hi
        · simp only [Option.some.injEq, Prod.mk.injEq] at h0
          exact absurd (by rw [h0.1, hi]) hne
        · exact h0
    rw [hnow]
    rcases h.live x i b p cb hpar0 h1' h2 with h3 | h3
    · rcases hag with e | ⟨e, b', hb'⟩
      · left; rw [e]; exact h3
      · left; rw [e]; unfold setAt
        split_ifs with hi
        · subst hi
          rw [hb'] at hpar0
          simp only [Option.some.injEq, Prod.mk.injEq] at hpar0
          exact absurd (by rw [hpar0.1]) hne
        · exact h3
    · right; exact h3

theorem cancel_agInv {cfg env s o id s'} (h : cancel cfg env s o id = .ok s') (hi : AgInv cfg s) : AgInv cfg s' := by
  obtain ⟨snd, b, p, L, _, hpar, hp, hl, hs⟩ := cancel_ok h
  rcases hs with ⟨_, rfl⟩ | ⟨_, rfl⟩
  · exact agInv_upd (snd := snd) (id := id) (v := none) hi rfl rfl (by simp) (Or.inl rfl) (Or.inr (Or.inl rfl))
  · exact agInv_upd (snd := snd) (id := id) (v := none) hi rfl rfl (by simp) (Or.inl rfl) (Or.inr (Or.inl rfl))

theorem dispatch_agInv {cfg env s o c s'} (h : dispatch cfg env s o c = .ok s') (hinv : Inv s)
    (hi : AgInv cfg s) : AgInv cfg s' := by
  cases c with
  | pay bA a n r =>
    obtain ⟨snd, b, id, L, h1, h2, h3, hf, hr, rfl⟩ := pay_ok h
    refine agInv_upd (snd := snd) (id := id) hi rfl rfl ?_ (Or.inl rfl) (Or.inr (Or.inr ⟨b, rfl⟩))
    intro p cb e; cases e; simp [newPayment]
  | release id =>
    obtain ⟨snd, p, L, h1, hp, hst, hl, rfl⟩ := release_ok h
    refine agInv_upd (snd := snd) (id := id) hi rfl rfl ?_ (Or.inl rfl) (Or.inl rfl)
    intro p cb e; cases e; simp
  | requestRefund id =>
    obtain ⟨snd, p, h1, hp, hst, hmax, hag, hbuf, _, rfl⟩ := requestRefund_ok h
    refine ⟨?_, ?_, ?_⟩
    · intro x i q cb e1 e2
      simp only at e1 ⊢
      rcases setPayment_cases s.payments snd id
        (some { p with state := .refundRequested (s.now + cfg.cancelBuffer) }) x i with ⟨e, _⟩ | ⟨rfl, rfl, e⟩
      · rw [e] at e1; exact hi.cap x i q cb e1 e2
      · rw [e] at e1; cases e1; simp only [PState.refundRequested.injEq] at e2; exact Nat.le_of_eq e2.symm
    · intro x i q cb t e1 e2 e3
      simp only at e1 e3
      have hcap : cb ≤ s.now + cfg.cancelBuffer := by
        rcases setPayment_cases s.payments snd id
          (some { p with state := .refundRequested (s.now + cfg.cancelBuffer) }) x i with ⟨e, _⟩ | ⟨rfl, rfl, e⟩
        · rw [e] at e1; exact hi.cap x i q cb e1 e2
        · rw [e] at e1; cases e1; simp only [PState.refundRequested.injEq] at e2; exact Nat.le_of_eq e2.symm
      unfold setAt at e3
      split_ifs at e3 with hid
      · cases e3; exact hcap
      · rw [setPayment_ne _ _ _ _ _ _ (by simp [hid])] at e1
        exact hi.due x i q cb t e1 e2 e3
    · intro x i b q cb e0 e1 e2
      simp only at e0 e1 ⊢
      unfold setAt
      rcases setPayment_cases s.payments snd id
        (some { p with state := .refundRequested (s.now + cfg.cancelBuffer) }) x i with ⟨e, hne⟩ | ⟨rfl, rfl, e⟩
      · rw [e] at e1
        rcases hi.live x i b q cb e0 e1 e2 with h4 | h4
        · by_cases hid : i = id
          · subst hid; rw [hag] at h4; cases h4
          · left; rw [if_neg hid]; exact h4
        · exact Or.inr h4
      · rw [e] at e1; cases e1
        simp only [PState.refundRequested.injEq] at e2
        obtain ⟨q', hq', hb'⟩ := hinv.parties _ _ _ e0
        rw [hp] at hq'; cases hq'
        left; rw [if_pos rfl, ← e2, hb']
  | acceptAndPay id =>
    obtain ⟨snd, s0, b, p, L1, L2, L3, h1, _, hp, _, _, _, rfl⟩ := acceptAndPay_ok h
    refine agInv_upd (snd := snd) (id := id) hi rfl rfl ?_ (Or.inl rfl) (Or.inl rfl)
    intro p cb e; cases e; simp
  | cancel id => exact cancel_agInv h hi
  | disputeRefund id =>
    obtain ⟨snd, b, p, cb, L, h1, hpar, hp, hst, hn, hh, _, rfl⟩ := disputeRefund_ok h
    refine agInv_upd (snd := snd) (id := id) hi rfl rfl ?_ (Or.inr ⟨rfl, b, hpar⟩) (Or.inl rfl)
    intro p cb e; cases e; simp
  | requestPayment sA a n =>
    obtain ⟨snd, b, id, h1, h2, h3, hf, rfl⟩ := requestPayment_ok h
    refine agInv_upd (snd := snd) (id := id) hi rfl rfl ?_ (Or.inl rfl) (Or.inr (Or.inr ⟨b, rfl⟩))
    intro p cb e; cases e; simp [newPayment]
  | resolveDispute id r =>
    obtain ⟨resolver, snd, b, p, L, h1, hpar, hp, hst, hl, rfl⟩ := resolveDispute_ok h
    refine agInv_upd (snd := snd) (id := id) hi rfl rfl ?_ (Or.inl rfl) (Or.inl rfl)
    intro p cb e; cases e; simp

theorem exec_agInv {cfg s} (act : Act) (hinv : Inv s) (hi : AgInv cfg s) : AgInv cfg (exec cfg s act) := by
  cases act with
  | call env o c =>
    simp only [exec]
    cases h : dispatch cfg env s o c with
    | error e => exact hi
    | ok s' => exact dispatch_agInv h hinv hi
  | tick =>
    refine ⟨?_, hi.due, ?_⟩
    · intro x i p cb e1 e2; exact (hi.cap x i p cb e1 e2).trans (Nat.add_le_add_right (Nat.le_succ _) _)
    · intro x i b p cb e0 e1 e2
      rcases hi.live x i b p cb e0 e1 e2 with h | h
      · exact Or.inl h
      · exact Or.inr (h.trans (Nat.le_succ _))
  | fire env id =>
    simp only [exec]
    cases ht : s.agenda id with
    | none => exact hi
    | some t =>
      simp only
      split_ifs with hd
      · have hi1 : AgInv cfg { s with agenda := setAt s.agenda id none } := by
          refine ⟨hi.cap, ?_, ?_⟩
          · intro x i p cb t' e1 e2 e3
            simp only [setAt] at e3; split_ifs at e3
            exact hi.due x i p cb t' e1 e2 e3
          · intro x i b p cb e0 e1 e2
            simp only [setAt]
            rcases hi.live x i b p cb e0 e1 e2 with h | h
            · by_cases hid : i = id
              · subst hid; rw [ht] at h; cases h; exact Or.inr hd
              · left; rw [if_neg hid]; exact h
            · exact Or.inr h
        cases h : cancel cfg env { s with agenda := setAt s.agenda id none } (.signed t.who) id with
        | error e => exact hi1
        | ok s' => exact cancel_agInv h hi1
      · exact hi
  | ext a w f => exact ⟨hi.cap, hi.due, hi.live⟩
  | setMin a m => exact ⟨hi.cap, hi.due, hi.live⟩

theorem Initial.agInv {cfg s} (h : Initial s) : AgInv cfg s := by
  refine ⟨?_, ?_, ?_⟩
  · intro x i p cb e; rw [h.payments] at e; cases e
  · intro x i p cb t e; rw [h.payments] at e; cases e
  · intro x i b p cb _ e; rw [h.payments] at e; cases e

theorem Reach.agInv {cfg ok s} (h : Reach cfg ok s) : AgInv cfg s := by
  induction h with
  | init h => exact h.agInv
  | step act h _ ih => exact exec_agInv act h.inv ih

end Verif.Payments
