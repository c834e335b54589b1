import Verif.Payments.OwnId

/-! # Payments: what becomes of a refund that was asked for, in every history (C19) -/

namespace Verif.Payments

open Demo

/-- Every action of a history meets a condition in the state in which it happens. Specification only, no code behind it
(outside /repo). -/
def Along (cfg : Config) (ok : St → Act → Prop) : St → List Act → Prop
  | _, [] => True
  | s, a :: as => ok s a ∧ Along cfg ok (exec cfg s a) as

theorem Along.mono {cfg : Config} {ok ok' : St → Act → Prop} (h : ∀ s a, ok s a → ok' s a) (acts : List Act) :
    ∀ {s}, Along cfg ok s acts → Along cfg ok' s acts := by
  induction acts with
  | nil => intro _ _; trivial
  | cons a acts ih => intro s hs; exact ⟨h _ _ hs.1, ih hs.2⟩

/-- How a refund of payment `p` from `snd` to `b`, due at block `d`, stops being pending: the ways an action in state `s` can
end it. Specification only, no code behind it (outside /repo). -/
inductive RefundEnds (cfg : Config) (s : St) (snd b : Acct) (id : PId) (p : Payment) (d : Block) : Act → Prop
  /-- The beneficiary disputes it before the deadline: the payment waits for a decision. -/
  | disputed (env : Env) (o : Origin) : cfg.beneficiaryOrigin o = some b → s.now < d →
      (exec cfg s (.call env o (.disputeRefund id))).payments snd id = some { p with state := .needsReview } →
      RefundEnds cfg s snd b id p d (.call env o (.disputeRefund id))
  /-- The beneficiary gives the money back themselves. -/
  | returned (env : Env) (o : Origin) : cfg.beneficiaryOrigin o = some b →
      (exec cfg s (.call env o (.cancel id))).payments snd id = none →
      RefundEnds cfg s snd b id p d (.call env o (.cancel id))
  /-- The sender changes their mind and pays after all (see C12). -/
  | paid (env : Env) (o : Origin) : cfg.senderOrigin o = some snd →
      (exec cfg s (.call env o (.acceptAndPay id))).payments snd id = some { p with state := .finished } →
      RefundEnds cfg s snd b id p d (.call env o (.acceptAndPay id))
  /-- The scheduler carries it out, at the deadline or after it: nothing is held any more, and the sender has everything back. -/
  | refunded (env : Env) : d ≤ s.now → (exec cfg s (.fire env id)).payments snd id = none →
      (NoDust s.ledger (exec cfg s (.fire env id)).ledger p.asset →
        Exactly s.ledger (exec cfg s (.fire env id)).ledger p.asset [⟨b, snd, p.amount⟩]
          (fun w => - onAcct snd (senderEscrow p) w - onAcct b p.amount w)) →
      RefundEnds cfg s snd b id p d (.fire env id)

theorem setAt_ne {α : Type} (f : PId → Option α) (i j : PId) (v : Option α) (h : j ≠ i) : setAt f i v j = f j := by
  unfold setAt
  rw [if_neg h]

/-- A step leaves a pending refund and its task alone, or ends it. -/
theorem pending_step {cfg : Config} {s : St} (hr : Reachable cfg s) {snd b : Acct} {id : PId} {p : Payment} {d : Block}
    (hpar : s.parties id = some (snd, b)) (hp : s.payments snd id = some p) (hst : p.state = .refundRequested d)
    (hag : s.agenda id = some ⟨d, b⟩) (ho : cfg.beneficiaryOrigin (.signed b) = some b) (act : Act)
    (hf : IdKept cfg snd id s act) (ha : ∀ env, act = .fire env id → Accepting env.ledger) :
    RefundEnds cfg s snd b id p d act ∨
      ((exec cfg s act).payments snd id = some p ∧ (exec cfg s act).parties id = some (snd, b) ∧
        (exec cfg s act).agenda id = some ⟨d, b⟩ ∧ (∀ env, act = .fire env id → s.now < d)) := by
  cases act with
  | tick => exact Or.inr ⟨hp, hpar, hag, fun _ h => by cases h⟩
  | ext a w f => exact Or.inr ⟨hp, hpar, hag, fun _ h => by cases h⟩
  | setMin a m => exact Or.inr ⟨hp, hpar, hag, fun _ h => by cases h⟩
  | fire env i =>
    by_cases hi : i = id
    · subst hi
      by_cases hd : d ≤ s.now
      · left
        have h1 := C19_refund_completes hr hpar hp hst hag hd (ha env rfl) ho
        exact .refunded env hd h1.1 h1.2.2.2
      · right
        have he : exec cfg s (.fire env i) = s := by simp only [exec, hag, if_neg hd]
        rw [he]
        exact ⟨hp, hpar, hag, fun _ _ => Nat.lt_of_not_le hd⟩
    · right
      simp only [exec]
      cases ht : s.agenda i with
      | none => exact ⟨hp, hpar, hag, fun _ h => by cases h; exact absurd rfl hi⟩
      | some t =>
        dsimp only
        by_cases hd : t.due ≤ s.now
        · rw [if_pos hd]
          have hag' : setAt s.agenda i none id = some ⟨d, b⟩ := by rw [setAt_ne _ _ _ _ (Ne.symm hi)]; exact hag
          cases h : cancel cfg env { s with agenda := setAt s.agenda i none } (.signed t.who) i with
          | error e => exact ⟨hp, hpar, hag', fun _ h => by cases h; exact absurd rfl hi⟩
          | ok s' =>
            obtain ⟨snd', b', p', L, h1, hpar', hp', hl, hs⟩ := cancel_ok h
            have k1 : setPayment s.payments snd' i none snd id = some p := by
              rw [setPayment_ne _ _ _ _ _ _ (by simp [Ne.symm hi])]; exact hp
            have k2 : setAt s.parties i none id = some (snd, b) := by rw [setAt_ne _ _ _ _ (Ne.symm hi)]; exact hpar
            rcases hs with ⟨_, rfl⟩ | ⟨_, rfl⟩ <;>
              exact ⟨k1, k2, hag', fun _ h => by cases h; exact absurd rfl hi⟩
        · rw [if_neg hd]
          exact ⟨hp, hpar, hag, fun _ h => by cases h; exact absurd rfl hi⟩
  | call env o c =>
    have nofire : ∀ e, Act.call env o c = .fire e id → s.now < d := fun _ h => by cases h
    cases h : dispatch cfg env s o c with
    | error e =>
      right
      simp only [exec, h, settle]
      exact ⟨hp, hpar, hag, fun _ h => by cases h⟩
    | ok s' =>
      have he : exec cfg s (.call env o c) = s' := by simp only [exec, h, settle]
      cases c with
      | pay bA a n r =>
        obtain ⟨x, y, i, L, h1, h2, h3, h4, _, rfl⟩ := pay_ok h
        have hne : i ≠ id := by
          rintro rfl
          have hx := hf env o _ x y rfl (by simp [creates, h1, h2]) h3
          by_cases e : snd = x
          · subst e
            have := h4 p hp
            rw [hst] at this
            cases this
          · rw [hx (Ne.symm e)] at hp
            cases hp
        right
        rw [he]
        refine ⟨?_, ?_, hag, nofire⟩
        · show setPayment _ _ _ _ _ _ = _
          rw [setPayment_ne _ _ _ _ _ _ (by simp [Ne.symm hne])]; exact hp
        · show setAt _ _ _ _ = _
          rw [setAt_ne _ _ _ _ (Ne.symm hne)]; exact hpar
      | requestPayment sA a n =>
        obtain ⟨x, y, i, h1, h2, h3, h4, rfl⟩ := requestPayment_ok h
        have hne : i ≠ id := by
          rintro rfl
          have hx := hf env o _ x y rfl (by simp [creates, h1, h2]) h3
          by_cases e : snd = x
          · subst e
            have := h4 p hp
            rw [hst] at this
            cases this
          · rw [hx (Ne.symm e)] at hp
            cases hp
        right
        rw [he]
        refine ⟨?_, ?_, hag, nofire⟩
        · show setPayment _ _ _ _ _ _ = _
          rw [setPayment_ne _ _ _ _ _ _ (by simp [Ne.symm hne])]; exact hp
        · show setAt _ _ _ _ = _
          rw [setAt_ne _ _ _ _ (Ne.symm hne)]; exact hpar
      | release i =>
        obtain ⟨x, q, L, h1, hq, hqs, _, rfl⟩ := release_ok h
        have hne : (snd, id) ≠ (x, i) := by
          rintro e
          obtain ⟨rfl, rfl⟩ := Prod.mk.inj e
          rw [hp] at hq
          cases hq
          rw [hst] at hqs
          cases hqs
        right
        rw [he]
        refine ⟨?_, hpar, hag, nofire⟩
        show setPayment _ _ _ _ _ _ = _
        rw [setPayment_ne _ _ _ _ _ _ hne]; exact hp
      | requestRefund i =>
        obtain ⟨x, q, h1, hq, hqs, _, hagi, _, _, rfl⟩ := requestRefund_ok h
        have hi : i ≠ id := by
          rintro rfl
          rw [hag] at hagi
          cases hagi
        right
        rw [he]
        refine ⟨?_, hpar, ?_, nofire⟩
        · show setPayment _ _ _ _ _ _ = _
          rw [setPayment_ne _ _ _ _ _ _ (by simp [Ne.symm hi])]; exact hp
        · show setAt _ _ _ _ = _
          rw [setAt_ne _ _ _ _ (Ne.symm hi)]; exact hag
      | acceptAndPay i =>
        obtain ⟨x, s0, y, q, L1, L2, L3, h1, _, hq, _, _, _, rfl⟩ := acceptAndPay_ok h
        by_cases e : (snd, id) = (x, i)
        · obtain ⟨rfl, rfl⟩ := Prod.mk.inj e
          left
          refine .paid env o h1 ?_
          rw [he]
          rw [hp] at hq
          cases hq
          exact setPayment_same _ _ _ _
        · right
          rw [he]
          refine ⟨?_, hpar, hag, nofire⟩
          show setPayment _ _ _ _ _ _ = _
          rw [setPayment_ne _ _ _ _ _ _ e]; exact hp
      | cancel i =>
        obtain ⟨x, y, q, L, h1, hpar', hq, _, hs⟩ := cancel_ok h
        by_cases hi : i = id
        · subst hi
          rw [hpar] at hpar'
          cases hpar'
          left
          refine .returned env o h1 ?_
          rw [he]
          rcases hs with ⟨_, rfl⟩ | ⟨_, rfl⟩ <;> exact setPayment_same _ _ _ _
        · right
          rw [he]
          have k1 : setPayment s.payments x i none snd id = some p := by
            rw [setPayment_ne _ _ _ _ _ _ (by simp [Ne.symm hi])]; exact hp
          have k2 : setAt s.parties i none id = some (snd, b) := by rw [setAt_ne _ _ _ _ (Ne.symm hi)]; exact hpar
          rcases hs with ⟨_, rfl⟩ | ⟨_, rfl⟩ <;> exact ⟨k1, k2, hag, nofire⟩
      | disputeRefund i =>
        obtain ⟨x, y, q, cb, L, h1, hpar', hq, hqs, hn, _, _, rfl⟩ := disputeRefund_ok h
        by_cases hi : i = id
        · subst hi
          rw [hpar] at hpar'
          cases hpar'
          rw [hp] at hq
          cases hq
          rw [hst] at hqs
          cases hqs
          left
          refine .disputed env o h1 hn ?_
          rw [he]
          exact setPayment_same _ _ _ _
        · right
          rw [he]
          refine ⟨?_, hpar, ?_, nofire⟩
          · show setPayment _ _ _ _ _ _ = _
            rw [setPayment_ne _ _ _ _ _ _ (by simp [Ne.symm hi])]; exact hp
          · show setAt _ _ _ _ = _
            rw [setAt_ne _ _ _ _ (Ne.symm hi)]; exact hag
      | resolveDispute i r =>
        obtain ⟨res, x, y, q, L, h1, hpar', hq, hqs, _, rfl⟩ := resolveDispute_ok h
        have hi : i ≠ id := by
          rintro rfl
          rw [hpar] at hpar'
          cases hpar'
          rw [hp] at hq
          cases hq
          rw [hst] at hqs
          cases hqs
        right
        rw [he]
        refine ⟨?_, hpar, hag, nofire⟩
        show setPayment _ _ _ _ _ _ = _
        rw [setPayment_ne _ _ _ _ _ _ (by simp [Ne.symm hi])]; exact hp

/-- C19: in every history, whoever does whatever: as long as no other sender is given this id and the ledger does not refuse the
refund, a refund that is pending stays exactly as it is, with its task, until it ends in one of four ways; and it has ended once
the scheduler has run its task at or after the deadline. -/
theorem C19_every_history {cfg : Config} {s : St} (hr : Reachable cfg s) {snd b : Acct} {id : PId} {p : Payment} {d : Block}
    (hpar : s.parties id = some (snd, b)) (hp : s.payments snd id = some p) (hst : p.state = .refundRequested d)
    (hn : s.now < d) (ho : cfg.beneficiaryOrigin (.signed b) = some b) (acts : List Act)
    (hf : Along cfg (IdKept cfg snd id) s acts) (ha : ∀ env, .fire env id ∈ acts → Accepting env.ledger) :
    (∃ pre act post, acts = pre ++ act :: post ∧ (run cfg s pre).payments snd id = some p ∧
      RefundEnds cfg (run cfg s pre) snd b id p d act) ∨
    ((run cfg s acts).payments snd id = some p ∧ (run cfg s acts).agenda id = some ⟨d, b⟩ ∧
      ∀ pre env post, acts = pre ++ .fire env id :: post → (run cfg s pre).now < d) := by
  have hag := C19_cancellation_is_scheduled hr hpar hp hst hn
  clear hn
  induction acts generalizing s with
  | nil => exact Or.inr ⟨hp, hag, fun pre env post h => by simp at h⟩
  | cons act acts ih =>
    rcases pending_step hr hpar hp hst hag ho act hf.1 (fun env h => ha env (h ▸ List.mem_cons_self)) with h | ⟨h1, h2, h3, h4⟩
    · exact Or.inl ⟨[], act, acts, rfl, hp, h⟩
    · rcases ih (.step act hr trivial) h2 h1 hf.2 (fun env h => ha env (List.mem_cons_of_mem _ h)) h3 with
        ⟨pre, a, post, e, k1, k2⟩ | ⟨k1, k2, k3⟩
      · exact Or.inl ⟨act :: pre, a, post, by rw [e]; rfl, k1, k2⟩
      · refine Or.inr ⟨k1, k2, ?_⟩
        intro pre env post e
        cases pre with
        | nil =>
          rw [List.nil_append] at e
          obtain ⟨rfl, rfl⟩ := List.cons.inj e
          exact h4 env rfl
        | cons x pre =>
          have e' := (List.cons.inj e).2
          have e0 := (List.cons.inj e).1
          subst e0
          exact k3 pre env post e'

/-- C19: so if nobody touches the payment and the scheduler runs the task once the deadline has come, at whatever moment of
whatever history, the sender has everything back. -/
theorem C19_untouched_is_refunded {cfg : Config} {s : St} (hr : Reachable cfg s) {snd b : Acct} {id : PId} {p : Payment}
    {d : Block} (hpar : s.parties id = some (snd, b)) (hp : s.payments snd id = some p)
    (hst : p.state = .refundRequested d) (hn : s.now < d) (ho : cfg.beneficiaryOrigin (.signed b) = some b)
    (acts : List Act) (env : Env) (hf : Along cfg (IdKept cfg snd id) s (acts ++ [.fire env id]))
    (ha : ∀ e, .fire e id ∈ acts ++ [.fire env id] → Accepting e.ledger) (hd : d ≤ (run cfg s acts).now)
    (hu : ∀ e o c, .call e o c ∈ acts → c ≠ .disputeRefund id ∧ c ≠ .cancel id ∧ c ≠ .acceptAndPay id) :
    ∃ pre e post, acts ++ [.fire env id] = pre ++ .fire e id :: post ∧ (run cfg s pre).payments snd id = some p ∧
      d ≤ (run cfg s pre).now ∧ (run cfg s (pre ++ [.fire e id])).payments snd id = none ∧
      (NoDust (run cfg s pre).ledger (run cfg s (pre ++ [.fire e id])).ledger p.asset →
        Exactly (run cfg s pre).ledger (run cfg s (pre ++ [.fire e id])).ledger p.asset [⟨b, snd, p.amount⟩]
          (fun w => - onAcct snd (senderEscrow p) w - onAcct b p.amount w)) := by
  have hrun : ∀ pre a, run cfg s (pre ++ [a]) = exec cfg (run cfg s pre) a := by
    intro pre a
    simp only [run, List.foldl_append, List.foldl_cons, List.foldl_nil]
  rcases C19_every_history hr hpar hp hst hn ho _ hf ha with ⟨pre, act, post, e, k1, k2⟩ | ⟨_, _, k3⟩
  · have hm : act ∈ acts ++ [.fire env id] := by rw [e]; simp
    have hc : ∀ e o c, act = .call e o c → act ∈ acts := by
      rintro e o c rfl
      rcases List.mem_append.1 hm with h | h
      · exact h
      · simp at h
    cases k2 with
    | disputed e' o => exact absurd rfl (hu _ _ _ (hc _ _ _ rfl)).1
    | returned e' o => exact absurd rfl (hu _ _ _ (hc _ _ _ rfl)).2.1
    | paid e' o => exact absurd rfl (hu _ _ _ (hc _ _ _ rfl)).2.2
    | refunded e' h1 h2 h3 =>
      refine ⟨pre, e', post, e, k1, h1, ?_, ?_⟩
      · rw [hrun]; exact h2
      · rw [hrun]; exact h3
  · exact absurd (k3 acts env [] rfl) (Nat.not_lt.2 hd)

-- A history with other payments, two of them under one id, another request and a premature run of the task in between.
example : Along cfg (IdKept cfg 1 7) refunding [aPay 8 3 4 50, aPay 8 5 6 50, aFire 7, .tick, aCall 3 (.requestRefund 8), .tick,
    .tick, .tick, .tick, aFire 7] ∧
    stateAt (run cfg refunding [aPay 8 3 4 50, aPay 8 5 6 50, aFire 7, .tick, aCall 3 (.requestRefund 8), .tick, .tick, .tick,
      .tick]) 1 7 = some (.refundRequested 15) ∧
    stateAt (run cfg refunding [aPay 8 3 4 50, aPay 8 5 6 50, aFire 7, .tick, aCall 3 (.requestRefund 8), .tick, .tick, .tick,
      .tick, aFire 7]) 1 7 = none := by
  refine ⟨?_, by decide, by decide⟩
  refine ⟨kept_pay _ _ _ _ _ _ _ (by simp), kept_pay _ _ _ _ _ _ _ (by simp), ?_, ?_, ?_, ?_, ?_, ?_, ?_, ?_,
    trivial⟩
  all_goals
    intro env o c x b h1 h2
    cases h1
    try simp [creates] at h2

end Verif.Payments
