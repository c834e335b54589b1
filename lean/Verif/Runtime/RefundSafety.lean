import Verif.Runtime.RefundChainTheorems
import Verif.Payments.Kreivo

/-! # C145: the scheduler carries out only refunds that are due, and each once -/

namespace Verif.Runtime

open Verif

/-- What an action does to the task of a payment, and when it takes it away. -/
theorem exec_agenda' (cfg : Payments.Config) (s : Payments.St) (act : Payments.Act) (id : Payments.PId) :
    (Payments.exec cfg s act).agenda id = s.agenda id ∨
    (∃ env org snd p, act = .call env org (.requestRefund id) ∧ s.agenda id = none ∧ 0 < cfg.cancelBuffer ∧
      cfg.senderOrigin org = some snd ∧ s.payments snd id = some p ∧ p.state = .created ∧
      (Payments.exec cfg s act).payments snd id = some { p with state := .refundRequested (s.now + cfg.cancelBuffer) } ∧
      (Payments.exec cfg s act).agenda id = some ⟨s.now + cfg.cancelBuffer, p.beneficiary⟩) ∨
    (∃ env t, act = .fire env id ∧ s.agenda id = some t ∧ t.due ≤ s.now ∧ (Payments.exec cfg s act).agenda id = none) ∨
    (∃ env org snd b p d, act = .call env org (.disputeRefund id) ∧ s.parties id = some (snd, b) ∧
      s.payments snd id = some p ∧ p.state = .refundRequested d ∧ s.now < d ∧
      (Payments.exec cfg s act).agenda id = none) := by
  have hsame : ∀ (f : Payments.PId → Option Payments.Task) v, Payments.setAt f id v id = v := by
    intro f v
    unfold Payments.setAt
    rw [if_pos rfl]
  cases act with
  | tick => exact .inl rfl
  | ext a w f => exact .inl rfl
  | setMin a m => exact .inl rfl
  | fire env i =>
    simp only [Payments.exec]
    cases ht : s.agenda i with
    | none => exact .inl rfl
    | some t =>
      dsimp only
      by_cases hd : t.due ≤ s.now
      · rw [if_pos hd]
        have hag : (Payments.settle { s with agenda := Payments.setAt s.agenda i none }
            (Payments.cancel cfg env { s with agenda := Payments.setAt s.agenda i none } (.signed t.who) i)).agenda =
              Payments.setAt s.agenda i none := by
          cases h : Payments.cancel cfg env { s with agenda := Payments.setAt s.agenda i none } (.signed t.who) i with
          | error e => rfl
          | ok s' =>
            obtain ⟨x, y, q, L, _, _, _, _, hs⟩ := Payments.cancel_ok h
            rcases hs with ⟨_, rfl⟩ | ⟨_, rfl⟩ <;> rfl
        rw [hag]
        by_cases hi : id = i
        · subst hi
          right; right; left
          exact ⟨env, t, rfl, ht, hd, hsame _ _⟩
        · left
          exact Payments.setAt_ne _ _ _ _ hi
      · rw [if_neg hd]
        exact .inl rfl
  | call env org c =>
    cases h : Payments.dispatch cfg env s org c with
    | error e =>
      left
      simp only [Payments.exec, h, Payments.settle]
    | ok s' =>
      have he : Payments.exec cfg s (.call env org c) = s' := by simp only [Payments.exec, h, Payments.settle]
      rw [he]
      cases c with
      | pay bA a n r =>
        obtain ⟨x, y, i, L, _, _, _, _, _, rfl⟩ := Payments.pay_ok h
        exact .inl rfl
      | requestPayment sA a n =>
        obtain ⟨x, y, i, _, _, _, _, rfl⟩ := Payments.requestPayment_ok h
        exact .inl rfl
      | release i =>
        obtain ⟨x, q, L, _, _, _, _, rfl⟩ := Payments.release_ok h
        exact .inl rfl
      | requestRefund i =>
        obtain ⟨x, q, h1, h2, h3, _, hag, hb, hok, rfl⟩ := Payments.requestRefund_ok h
        by_cases hi : id = i
        · subst hi
          right; left
          exact ⟨env, org, x, q, rfl, hag, hb, h1, h2, h3, Payments.setPayment_same _ _ _ _, hsame _ _⟩
        · left
          show Payments.setAt _ _ _ _ = _
          exact Payments.setAt_ne _ _ _ _ hi
      | acceptAndPay i =>
        obtain ⟨x, s0, y, q, L1, L2, L3, _, _, _, _, _, _, rfl⟩ := Payments.acceptAndPay_ok h
        exact .inl rfl
      | cancel i =>
        obtain ⟨x, y, q, L, _, _, _, _, hs⟩ := Payments.cancel_ok h
        rcases hs with ⟨_, rfl⟩ | ⟨_, rfl⟩ <;> exact .inl rfl
      | disputeRefund i =>
        obtain ⟨x, y, q, cb, L, _, h2, h3, h4, h5, _, _, rfl⟩ := Payments.disputeRefund_ok h
        by_cases hi : id = i
        · subst hi
          right; right; right
          exact ⟨env, org, x, y, q, cb, rfl, h2, h3, h4, h5, hsame _ _⟩
        · left
          show Payments.setAt _ _ _ _ = _
          exact Payments.setAt_ne _ _ _ _ hi
      | resolveDispute i r =>
        obtain ⟨res, x, y, q, L, _, _, _, _, _, rfl⟩ := Payments.resolveDispute_ok h
        exact .inl rfl

/-- The scheduler has a refund at most once, and only if it was asked for and not disputed: on the agenda of the block in
which it is due, or once that has come. Specification only, no code behind it (outside /repo). -/
structure Sound (base exec : Weight) (c : Scheduled) : Prop where
  once : ∀ id, (c.running ++ c.backlog.flatten).count (refundItem base exec id) ≤ 1
  due : ∀ id, refundItem base exec id ∈ c.running ++ c.backlog.flatten →
    ∃ t, c.pay.agenda id = some t ∧ t.due ≤ c.pay.now
  later : ∀ id d, refundItem base exec id ∈ c.future d → c.pay.now < d ∧ ∃ t, c.pay.agenda id = some t ∧ t.due = d
  single : ∀ id d, (c.future d).count (refundItem base exec id) ≤ 1

theorem Scheduled.Fresh.sound {base exec : Weight} {c : Scheduled} (h : c.Fresh) : Sound base exec c := by
  obtain ⟨h1, h2, h3, h4⟩ := h
  refine ⟨fun id => ?_, fun id hi => ?_, fun id d hi => ?_, fun id d => ?_⟩
  · rw [h2, h3]; simp
  · rw [h2, h3] at hi; simp at hi
  · rw [h4] at hi; cases hi
  · rw [h4]; simp

theorem forall₂_fewer_flatten {base exec : Weight} {a b : List (List Item)} (h : List.Forall₂ (Fewer base exec) a b) :
    a.flatten.Sublist b.flatten := by
  induction h with
  | nil => exact List.Sublist.refl _
  | cons hx _ ih => exact hx.1.append ih

/-- The agendas after a call: fewer tasks, without the one of a refund that was disputed, or one more. -/
theorem planned_form {base exec : Weight} (s s' : Payments.St) (c : Payments.Call) (f : Payments.Block → List Item)
    (d : Payments.Block) :
    ((planned base exec s s' c f d).Sublist (f d) ∧
      ∀ j, c = .disputeRefund j → s.agenda j ≠ none → s'.agenda j = none →
        refundItem base exec j ∉ planned base exec s s' c f d) ∨
    ∃ j t, c = .requestRefund j ∧ s.agenda j = none ∧ s'.agenda j = some t ∧ d = t.due ∧
      planned base exec s s' c f d = f d ++ [refundItem base exec j] := by
  cases c with
  | requestRefund j =>
    simp only [planned]
    cases h1 : s.agenda j <;> cases h2 : s'.agenda j <;> dsimp only
    case none.some t =>
      by_cases hd : d = t.due
      · right
        exact ⟨j, t, rfl, h1, h2, hd, by rw [if_pos hd]⟩
      · left
        rw [if_neg hd]
        exact ⟨List.Sublist.refl _, fun _ h => by cases h⟩
    all_goals exact .inl ⟨List.Sublist.refl _, fun _ h => by cases h⟩
  | disputeRefund j =>
    left
    simp only [planned]
    cases h1 : s.agenda j <;> cases h2 : s'.agenda j <;> dsimp only
    case some.none t =>
      refine ⟨List.filter_sublist, ?_⟩
      intro k hk _ _ hm
      cases hk
      have := (List.mem_filter.1 hm).2
      simp at this
    case none.none =>
      refine ⟨List.Sublist.refl _, fun k hk h _ => ?_⟩
      cases hk
      exact absurd h1 h
    case none.some =>
      refine ⟨List.Sublist.refl _, fun k hk h _ => ?_⟩
      cases hk
      exact absurd h1 h
    case some.some =>
      refine ⟨List.Sublist.refl _, fun k hk _ h => ?_⟩
      cases hk
      rw [h2] at h
      cases h
  | _ => exact .inl ⟨List.Sublist.refl _, fun _ h => by cases h⟩

theorem Sound.step {cfg : Payments.Config} {o : Overheads} {limit base exec : Weight} {c c' : Scheduled}
    {acts : List Payments.Act} (hr : Payments.Reachable cfg c.pay) (h : Sound base exec c)
    (st : Moves cfg o limit base exec c acts c') : Sound base exec c' := by
  cases st with
  | block h0 =>
    have hsub := serveBlock_sub o limit (c.backlog ++ [c.future (c.pay.now + 1)])
    have e : (c.backlog ++ [c.future (c.pay.now + 1)]).flatten = c.backlog.flatten ++ c.future (c.pay.now + 1) := by simp
    rw [e] at hsub
    refine ⟨fun id => ?_, fun id hi => ?_, fun id d hi => ?_, fun id d => ?_⟩
    · refine le_trans (hsub.count_le _) ?_
      rw [List.count_append]
      have h1 := h.once id
      have h2 := h.single id (c.pay.now + 1)
      rw [List.count_append] at h1
      by_cases hm : refundItem base exec id ∈ c.backlog.flatten
      · have h3 : refundItem base exec id ∉ c.future (c.pay.now + 1) := by
          intro hf
          obtain ⟨t, ht, hd⟩ := h.due id (List.mem_append_right _ hm)
          obtain ⟨_, t', ht', hd'⟩ := h.later id _ hf
          rw [ht] at ht'
          cases ht'
          rw [hd'] at hd
          exact absurd hd (Nat.not_succ_le_self _)
        rw [List.count_eq_zero.2 h3]
        omega
      · rw [List.count_eq_zero.2 hm]
        omega
    · rcases List.mem_append.1 (hsub.subset hi) with hm | hm
      · obtain ⟨t, ht, hd⟩ := h.due id (List.mem_append_right _ hm)
        exact ⟨t, ht, Nat.le_succ_of_le hd⟩
      · obtain ⟨_, t, ht, hd⟩ := h.later id _ hm
        exact ⟨t, ht, le_of_eq hd⟩
    · change refundItem base exec id ∈ (if d = c.pay.now + 1 then [] else c.future d) at hi
      by_cases hd : d = c.pay.now + 1
      · rw [if_pos hd] at hi; cases hi
      · rw [if_neg hd] at hi
        obtain ⟨h1, h2⟩ := h.later id d hi
        exact ⟨lt_of_le_of_ne h1 (Ne.symm hd), h2⟩
    · change (if d = c.pay.now + 1 then [] else c.future d).count _ ≤ 1
      split
      · simp
      · exact h.single id d
  | refund env i rest h0 =>
    have hin : refundItem base exec i ∈ c.running ++ c.backlog.flatten := by rw [h0]; simp
    obtain ⟨ti, hti, hdi⟩ := h.due i hin
    have hkeep : ∀ id, id ≠ i → (Payments.exec cfg c.pay (.fire env i)).agenda id = c.pay.agenda id := by
      intro id hid
      rcases exec_agenda' cfg c.pay (.fire env i) id with k | ⟨_, _, _, _, k, _⟩ | ⟨_, _, k, _⟩ | ⟨_, _, _, _, _, _, k, _⟩
      · exact k
      · cases k
      · cases k; exact absurd rfl hid
      · cases k
    have hnow : (Payments.exec cfg c.pay (.fire env i)).now = c.pay.now := exec_now _ _ _ (by simp)
    have hsub : ∀ id, (rest ++ c.backlog.flatten).count (refundItem base exec id) ≤
        (c.running ++ c.backlog.flatten).count (refundItem base exec id) := by
      intro id
      rw [h0]
      exact List.Sublist.count_le _ (List.sublist_cons_self _ _)
    have hgone : refundItem base exec i ∉ rest ++ c.backlog.flatten := by
      have h1 := h.once i
      rw [h0, List.cons_append, List.count_cons_self] at h1
      exact List.count_eq_zero.1 (by omega)
    refine ⟨fun id => le_trans (hsub id) (h.once id), fun id hi => ?_, fun id d hi => ?_, fun id d => h.single id d⟩
    · have hid : id ≠ i := by rintro rfl; exact hgone hi
      show ∃ t, (Payments.exec cfg c.pay (.fire env i)).agenda id = some t ∧
        t.due ≤ (Payments.exec cfg c.pay (.fire env i)).now
      rw [hkeep id hid, hnow]
      refine h.due id ?_
      rw [h0]
      exact List.mem_cons_of_mem _ hi
    · obtain ⟨k1, t, k2, k3⟩ := h.later id d hi
      have hid : id ≠ i := by
        rintro rfl
        rw [hti] at k2
        cases k2
        rw [k3] at hdi
        exact absurd k1 (Nat.not_lt.2 hdi)
      show (Payments.exec cfg c.pay (.fire env i)).now < d ∧
        ∃ t, (Payments.exec cfg c.pay (.fire env i)).agenda id = some t ∧ t.due = d
      rw [hkeep id hid, hnow]
      exact ⟨k1, t, k2, k3⟩
  | other t rest h0 ht =>
    refine ⟨fun id => ?_, fun id hi => ?_, h.later, h.single⟩
    · refine le_trans ?_ (h.once id)
      rw [h0]
      exact List.Sublist.count_le _ (List.sublist_cons_self _ _)
    · refine h.due id ?_
      rw [h0]
      exact List.mem_cons_of_mem _ hi
  | call env org call hs =>
    have hnow : (Payments.exec cfg c.pay (.call env org call)).now = c.pay.now := exec_now _ _ _ (by simp)
    refine ⟨h.once, fun id hi => ?_, fun id d hi => ?_, fun id d => ?_⟩
    · show ∃ t, (Payments.exec cfg c.pay (.call env org call)).agenda id = some t ∧
        t.due ≤ (Payments.exec cfg c.pay (.call env org call)).now
      obtain ⟨t, ht, hd⟩ := h.due id hi
      rw [hnow]
      rcases exec_agenda' cfg c.pay (.call env org call) id with
        k | ⟨_, _, _, _, _, k, _⟩ | ⟨_, _, k, _⟩ | ⟨_, _, _, _, _, _, _, k1, k2, k3, k4, _⟩
      · rw [k]; exact ⟨t, ht, hd⟩
      · rw [ht] at k; cases k
      · cases k
      · have := Payments.C19_cancellation_is_scheduled hr k1 k2 k3 k4
        rw [ht] at this
        cases this
        exact absurd k4 (Nat.not_lt.2 hd)
    · change refundItem base exec id ∈ planned base exec c.pay (Payments.exec cfg c.pay (.call env org call)) call c.future d at hi
      show (Payments.exec cfg c.pay (.call env org call)).now < d ∧
        ∃ t, (Payments.exec cfg c.pay (.call env org call)).agenda id = some t ∧ t.due = d
      rw [hnow]
      have old : refundItem base exec id ∈ c.future d → (c.pay.now < d ∧
          ∃ t, (Payments.exec cfg c.pay (.call env org call)).agenda id = some t ∧ t.due = d) ∨
          (call = .disputeRefund id ∧ c.pay.agenda id ≠ none ∧
            (Payments.exec cfg c.pay (.call env org call)).agenda id = none) := by
        intro hm
        obtain ⟨k1, t, k2, k3⟩ := h.later id d hm
        rcases exec_agenda' cfg c.pay (.call env org call) id with
          k | ⟨_, _, _, _, _, k, _⟩ | ⟨_, _, k, _⟩ | ⟨_, _, _, _, _, _, k, _, _, _, _, k6⟩
        · left; rw [k]; exact ⟨k1, t, k2, k3⟩
        · rw [k2] at k; cases k
        · cases k
        · right
          cases k
          exact ⟨rfl, by rw [k2]; simp, k6⟩
      rcases planned_form (base := base) (exec := exec) c.pay (Payments.exec cfg c.pay (.call env org call)) call c.future d with
        ⟨q1, q2⟩ | ⟨j, t, q1, q2, q3, q4, q5⟩
      · rcases old (q1.subset hi) with k | ⟨k1, k2, k3⟩
        · exact k
        · exact absurd hi (q2 id k1 k2 k3)
      · rw [q5] at hi
        rcases List.mem_append.1 hi with hi | hi
        · rcases old hi with k | ⟨k1, _⟩
          · exact k
          · rw [q1] at k1; cases k1
        · have e := refundItem_inj (List.mem_singleton.1 hi)
          subst e
          rw [q3]
          refine ⟨?_, t, rfl, q4.symm⟩
          rcases exec_agenda' cfg c.pay (.call env org call) id with
            k | ⟨_, _, _, _, _, _, kb, _, _, _, _, k⟩ | ⟨_, _, k, _⟩ | ⟨_, _, _, _, _, _, _, _, _, _, _, k⟩
          · rw [q2, q3] at k; cases k
          · rw [q3] at k
            cases k
            rw [q4]
            exact Nat.lt_add_of_pos_right kb
          · cases k
          · rw [q3] at k; cases k
    · show (planned base exec c.pay (Payments.exec cfg c.pay (.call env org call)) call c.future d).count _ ≤ 1
      rcases planned_form (base := base) (exec := exec) c.pay (Payments.exec cfg c.pay (.call env org call)) call c.future d with
        ⟨q1, _⟩ | ⟨j, t, q1, q2, _, _, q5⟩
      · exact le_trans (List.Sublist.count_le _ q1) (h.single id d)
      · rw [q5, List.count_append]
        by_cases e : id = j
        · subst e
          have h0 : (c.future d).count (refundItem base exec id) = 0 := by
            refine List.count_eq_zero.2 fun hm => ?_
            obtain ⟨_, t', k2, _⟩ := h.later id d hm
            rw [q2] at k2
            cases k2
          rw [h0, List.count_singleton_self]
        · have h0 : [refundItem base exec j].count (refundItem base exec id) = 0 :=
            List.count_eq_zero.2 fun hm => e (refundItem_inj (List.mem_singleton.1 hm))
          rw [h0]
          exact h.single id d
  | ext a w f => exact ⟨h.once, h.due, h.later, h.single⟩
  | setMin a m => exact ⟨h.once, h.due, h.later, h.single⟩
  | plan d t hd ht hq =>
    refine ⟨h.once, h.due, fun id e hi => ?_, fun id e => ?_⟩
    · change refundItem base exec id ∈ (if e = d then c.future e ++ [t] else c.future e) at hi
      refine h.later id e ?_
      split at hi
      · rcases List.mem_append.1 hi with hi | hi
        · exact hi
        · exact absurd (List.mem_singleton.1 hi).symm (ht id)
      · exact hi
    · change (if e = d then c.future e ++ [t] else c.future e).count _ ≤ 1
      split
      · have h0 : [t].count (refundItem base exec id) = 0 :=
          List.count_eq_zero.2 fun hm => absurd (List.mem_singleton.1 hm).symm (ht id)
        rw [List.count_append, h0]
        exact h.single id e
      · exact h.single id e
  | unplan backlog future hb hf =>
    have hs := forall₂_fewer_flatten hb
    refine ⟨fun id => ?_, fun id hi => ?_, fun id d hi => ?_, fun id d => ?_⟩
    · exact le_trans (List.Sublist.count_le _ ((List.Sublist.refl _).append hs)) (h.once id)
    · exact h.due id (((List.Sublist.refl _).append hs).subset hi)
    · exact h.later id d ((hf d).1.subset hi)
    · exact le_trans (List.Sublist.count_le _ (hf d).1) (h.single id d)

/-- In a history that begins in `s`, the sender of payment `id` asked for a refund that is due at block `due`, and since then
the refund has neither been carried out nor disputed with success. Specification only, no code behind it (outside /repo). -/
def Asked (cfg : Payments.Config) (s : Payments.St) (acts : List Payments.Act) (id : Payments.PId) (due : Payments.Block) :
    Prop :=
  ∃ before env org after snd p, acts = before ++ .call env org (.requestRefund id) :: after ∧
    cfg.senderOrigin org = some snd ∧ (Payments.run cfg s before).payments snd id = some p ∧ p.state = .created ∧
    (Payments.run cfg s (before ++ [.call env org (.requestRefund id)])).payments snd id =
      some { p with state := .refundRequested due } ∧
    due = (Payments.run cfg s before).now + cfg.cancelBuffer ∧
    (∀ e, .fire e id ∉ after) ∧
    ∀ a e o b s', after = a ++ .call e o (.disputeRefund id) :: b →
      Payments.dispatch cfg e (Payments.run cfg s (before ++ .call env org (.requestRefund id) :: a)) o
        (.disputeRefund id) ≠ .ok s'

theorem run_snoc (cfg : Payments.Config) (s : Payments.St) (acts : List Payments.Act) (act : Payments.Act) :
    Payments.run cfg s (acts ++ [act]) = Payments.exec cfg (Payments.run cfg s acts) act := by
  simp only [Payments.run, List.foldl_append, List.foldl_cons, List.foldl_nil]

theorem fire_clears {cfg : Payments.Config} {s : Payments.St} {env : Payments.Env} {id : Payments.PId} {t : Payments.Task}
    (ht : s.agenda id = some t) (hd : t.due ≤ s.now) : (Payments.exec cfg s (.fire env id)).agenda id = none := by
  simp only [Payments.exec, ht, if_pos hd]
  cases h : Payments.cancel cfg env { s with agenda := Payments.setAt s.agenda id none } (.signed t.who) id with
  | error e => simp [Payments.settle, Payments.setAt]
  | ok s' =>
    obtain ⟨x, y, q, L, _, _, _, _, hs⟩ := Payments.cancel_ok h
    rcases hs with ⟨_, rfl⟩ | ⟨_, rfl⟩ <;> simp [Payments.settle, Payments.setAt]

theorem dispute_clears {cfg : Payments.Config} {s s' : Payments.St} {env : Payments.Env} {org : Payments.Origin}
    {id : Payments.PId} (h : Payments.dispatch cfg env s org (.disputeRefund id) = .ok s') :
    (Payments.exec cfg s (.call env org (.disputeRefund id))).agenda id = none := by
  have he : Payments.exec cfg s (.call env org (.disputeRefund id)) = s' := by simp only [Payments.exec, h, Payments.settle]
  rw [he]
  obtain ⟨x, y, q, cb, L, _, _, _, _, _, _, _, rfl⟩ := Payments.disputeRefund_ok h
  simp [Payments.setAt]

theorem Asked.act {cfg : Payments.Config} {s : Payments.St} {acts : List Payments.Act} {id : Payments.PId}
    (hA : ∀ t, (Payments.run cfg s acts).agenda id = some t → Asked cfg s acts id t.due) (act : Payments.Act)
    (hs : ∀ env, act = .fire env id → ∃ t, (Payments.run cfg s acts).agenda id = some t ∧
      t.due ≤ (Payments.run cfg s acts).now) (t : Payments.Task)
    (ht : (Payments.exec cfg (Payments.run cfg s acts) act).agenda id = some t) : Asked cfg s (acts ++ [act]) id t.due := by
  rcases exec_agenda' cfg (Payments.run cfg s acts) act id with
    k | ⟨env, org, snd, p, rfl, k1, k2, k3, k4, k5, k6, k7⟩ | ⟨_, _, _, _, _, k⟩ | ⟨_, _, _, _, _, _, _, _, _, _, _, k⟩
  · rw [k] at ht
    obtain ⟨before, env, org, after, snd, p, h1, h2, h3, h4, h5, h6, h7, h8⟩ := hA t ht
    refine ⟨before, env, org, after ++ [act], snd, p, by rw [h1]; simp, h2, h3, h4, h5, h6, ?_, ?_⟩
    · intro e he
      rcases List.mem_append.1 he with he | he
      · exact h7 e he
      · have e1 := List.mem_singleton.1 he
        subst e1
        obtain ⟨t', h9, h10⟩ := hs e rfl
        have := fire_clears (cfg := cfg) (env := e) h9 h10
        rw [k, ht] at this
        cases this
    · intro a e o b s' hab hok
      rcases List.eq_nil_or_concat b with rfl | ⟨b', x, rfl⟩
      · have hab' : after ++ [act] = a ++ [.call e o (.disputeRefund id)] := hab
        obtain ⟨e1, e2⟩ := List.append_inj' hab' rfl
        cases e2
        subst e1
        rw [← h1] at hok
        have := dispute_clears hok
        rw [k, ht] at this
        cases this
      · have hab' : after ++ [act] = (a ++ .call e o (.disputeRefund id) :: b') ++ [x] := by rw [hab]; simp
        obtain ⟨e1, _⟩ := List.append_inj' hab' rfl
        exact h8 a e o b' s' e1 hok
  · rw [ht] at k7
    cases k7
    refine ⟨acts, env, org, [], snd, p, rfl, k3, k4, k5, ?_, rfl, by simp, by simp⟩
    rw [run_snoc]
    exact k6
  · rw [ht] at k; cases k
  · rw [ht] at k; cases k

theorem Moves.shape {cfg : Payments.Config} {o : Overheads} {limit base exec : Weight} {c c' : Scheduled}
    {acts : List Payments.Act} (st : Moves cfg o limit base exec c acts c') :
    (acts = [] ∧ c'.pay = c.pay) ∨ ∃ act, acts = [act] ∧ c'.pay = Payments.exec cfg c.pay act ∧
      ∀ env id, act = .fire env id → refundItem base exec id ∈ c.running := by
  cases st with
  | block h => exact .inr ⟨_, rfl, rfl, fun _ _ h => by cases h⟩
  | refund env i rest h0 =>
    refine .inr ⟨_, rfl, rfl, fun e id h => ?_⟩
    cases h
    rw [h0]
    exact List.mem_cons_self
  | other => exact .inl ⟨rfl, rfl⟩
  | call => exact .inr ⟨_, rfl, rfl, fun _ _ h => by cases h⟩
  | ext => exact .inr ⟨_, rfl, rfl, fun _ _ h => by cases h⟩
  | setMin => exact .inr ⟨_, rfl, rfl, fun _ _ h => by cases h⟩
  | plan => exact .inl ⟨rfl, rfl⟩
  | unplan => exact .inl ⟨rfl, rfl⟩

theorem History.asked {cfg : Payments.Config} {o : Overheads} {limit base exec : Weight} {s : Payments.St}
    (h0 : Payments.Initial s) {c c' : Scheduled} {acts : List Payments.Act}
    (hh : History cfg o limit base exec c acts c') (acts0 : List Payments.Act) (hp : c.pay = Payments.run cfg s acts0)
    (hs : Sound base exec c) (hA : ∀ id t, c.pay.agenda id = some t → Asked cfg s acts0 id t.due) :
    Sound base exec c' ∧ ∀ id t, c'.pay.agenda id = some t → Asked cfg s (acts0 ++ acts) id t.due := by
  induction hh generalizing acts0 with
  | nil => rw [List.append_nil]; exact ⟨hs, hA⟩
  | @cons c c1 c2 as as' st rest ih =>
    have hr : Payments.Reachable cfg c.pay := by rw [hp]; exact run_reachable (.init h0) _
    have hs1 := hs.step hr st
    rw [← List.append_assoc]
    refine ih (acts0 ++ as) ?_ hs1 ?_
    · rw [st.run, hp]
      simp only [Payments.run, List.foldl_append]
    · intro id t ht
      rcases st.shape with ⟨rfl, e⟩ | ⟨act, rfl, e, hf⟩
      · rw [e] at ht
        rw [List.append_nil]
        exact hA id t ht
      · rw [e] at ht
        rw [hp] at ht hA
        refine Asked.act (hA id) act ?_ t ht
        intro env he
        rw [← hp]
        exact hs.due id (List.mem_append_left _ (hf env id he))

/-- **C145.** Never early, never after a dispute, never twice: in every history of the chain, when the scheduler runs a
refund, the sender had asked for it, the time to dispute it is over, and since it was asked for it has neither been carried
out nor disputed. -/
theorem C145_only_when_due {cfg : Payments.Config} {o : Overheads} {limit base exec : Weight} {start c c' : Scheduled}
    {acts : List Payments.Act} (h0 : start.Fresh) (hs : History cfg o limit base exec start acts c) {env : Payments.Env}
    {id : Payments.PId} (st : Moves cfg o limit base exec c [.fire env id] c') :
    ∃ due, due ≤ c.pay.now ∧ Asked cfg start.pay acts id due := by
  obtain ⟨h1, h2⟩ := hs.asked h0.1 [] rfl h0.sound (fun id t ht => by rw [h0.1.agenda] at ht; cases ht)
  rcases st.shape with ⟨h, _⟩ | ⟨act, h, _, hf⟩
  · cases h
  · cases h
    obtain ⟨t, h3, h4⟩ := h1.due id (List.mem_append_left _ (hf env id rfl))
    exact ⟨t.due, h4, h2 id t h3⟩

/-- **C145.** And the scheduler never holds two tasks for the same payment. -/
theorem C145_one_task {cfg : Payments.Config} {o : Overheads} {limit base exec : Weight} {start c : Scheduled}
    {acts : List Payments.Act} (h0 : start.Fresh) (hs : History cfg o limit base exec start acts c) (id : Payments.PId)
    (ds : List Payments.Block) (hd : ds.Nodup) :
    ((c.running ++ c.backlog.flatten) ++ ds.flatMap c.future).count (refundItem base exec id) ≤ 1 := by
  obtain ⟨h1, -⟩ := hs.asked h0.1 [] rfl h0.sound (fun id t ht => by rw [h0.1.agenda] at ht; cases ht)
  rw [List.count_append]
  have hf : ∀ d t, c.pay.agenda id = some t → d ≠ t.due → (c.future d).count (refundItem base exec id) = 0 := by
    intro d t ht hne
    refine List.count_eq_zero.2 fun hm => ?_
    obtain ⟨_, t', k1, k2⟩ := h1.later id d hm
    rw [ht] at k1
    cases k1
    exact hne k2.symm
  have hsum : ∀ t, c.pay.agenda id = some t → (ds.flatMap c.future).count (refundItem base exec id) ≤
      if t.due ∈ ds then 1 else 0 := by
    intro t ht
    induction ds with
    | nil => simp
    | cons d ds ih =>
      have i1 := ih (List.nodup_cons.1 hd).2
      rw [List.flatMap_cons, List.count_append]
      by_cases e : d = t.due
      · have : t.due ∉ ds := by rw [← e]; exact (List.nodup_cons.1 hd).1
        rw [if_neg this] at i1
        rw [if_pos (by rw [e]; exact List.mem_cons_self)]
        have := h1.single id d
        omega
      · rw [hf d t ht e]
        by_cases e2 : t.due ∈ ds
        · rw [if_pos e2] at i1
          rw [if_pos (List.mem_cons_of_mem _ e2)]
          omega
        · rw [if_neg e2] at i1
          omega
  by_cases hm : refundItem base exec id ∈ c.running ++ c.backlog.flatten
  · obtain ⟨t, k1, k2⟩ := h1.due id hm
    have h0 : (ds.flatMap c.future).count (refundItem base exec id) = 0 := by
      refine List.count_eq_zero.2 fun hx => ?_
      obtain ⟨d, _, hd⟩ := List.mem_flatMap.1 hx
      obtain ⟨k3, t', k4, k5⟩ := h1.later id d hd
      rw [k1] at k4
      cases k4
      rw [← k5] at k3
      exact absurd k3 (Nat.not_lt.2 k2)
    rw [h0]
    exact h1.once id
  · rw [List.count_eq_zero.2 hm]
    by_cases hx : refundItem base exec id ∈ ds.flatMap c.future
    · obtain ⟨d, _, hd⟩ := List.mem_flatMap.1 hx
      obtain ⟨_, t, k4, _⟩ := h1.later id d hd
      have := hsum t k4
      split at this <;> omega
    · rw [List.count_eq_zero.2 hx]
      exact Nat.zero_le _

/-- **C145.** On Kreivo, as long as the scheduler's own work is not extreme (see `C143_refunds_fit`): when nothing is left from
earlier blocks and only refunds are due in its block, as many as the scheduler takes, a refund has ended when the scheduler
is done in the block of its deadline. -/
theorem C145_kreivo {o : Overheads} {base exec : Weight}
    (hb : base.refTime + exec.refTime ≤ 30000000000 ∧ base.proofSize + exec.proofSize ≤ 70000)
    (hov : ∀ k ≤ maxScheduled, o.agendas.refTime + (o.agenda k).refTime ≤ 10000000000 ∧
      o.agendas.proofSize + (o.agenda k).proofSize ≤ 200000)
    {start c c1 c2 c3 : Scheduled} {first before after : List Payments.Act} (h0 : start.Fresh)
    (hs : History Payments.Kreivo.config o schedulerMax base exec start first c)
    {snd b : Payments.Acct} {id : Payments.PId} {p : Payments.Payment} {d : Payments.Block}
    (hpar : c.pay.parties id = some (snd, b)) (hp : c.pay.payments snd id = some p)
    (hst : p.state = .refundRequested d) (hn : c.pay.now < d)
    (h1 : History Payments.Kreivo.config o schedulerMax base exec c before c1) (hd : c1.pay.now + 1 = d)
    (hbl : c1.backlog = []) (hfu : ∀ t ∈ c1.future d, ∃ i, t = refundItem base exec i)
    (h2 : Moves Payments.Kreivo.config o schedulerMax base exec c1 [.tick] c2)
    (h3 : History Payments.Kreivo.config o schedulerMax base exec c2 after c3) (hr : c3.running = [])
    (hf : Payments.Along Payments.Kreivo.config (Payments.IdKept Payments.Kreivo.config snd id) c.pay (before ++ .tick :: after))
    (ha : ∀ env, .fire env id ∈ before ++ .tick :: after → Payments.Accepting env.ledger) :
    ∃ pre act post, before ++ .tick :: after = pre ++ act :: post ∧
      (Payments.run Payments.Kreivo.config c.pay pre).payments snd id = some p ∧
      Payments.RefundEnds Payments.Kreivo.config (Payments.run Payments.Kreivo.config c.pay pre) snd b id p d act := by
  have t1 : Tied base exec c1 := h1.tied (hs.tied h0.tied)
  have hlen := t1.future d
  obtain ⟨names, hnames⟩ : ∃ names : List Nat, c1.future d = names.map (refundItem base exec) := by
    generalize c1.future d = l at hfu
    clear hlen
    induction l with
    | nil => exact ⟨[], rfl⟩
    | cons x l ih =>
      obtain ⟨i, rfl⟩ := hfu _ List.mem_cons_self
      obtain ⟨ns, rfl⟩ := ih fun t ht => hfu t (List.mem_cons_of_mem _ ht)
      exact ⟨i :: ns, rfl⟩
  have hm : maxScheduled = 50 := rfl
  refine C145_on_time h0 hs hpar hp hst hn rfl h1 hd hbl ?_ ?_ ?_ ?_ h2 h3 hr hf ha
  · intro t ht
    obtain ⟨i, rfl⟩ := hfu t ht
    rfl
  · intro t ht
    obtain ⟨i, rfl⟩ := hfu t ht
    exact ⟨le_refl _, le_refl _⟩
  · have := hov maxScheduled (le_refl _)
    rw [schedulerMax_eq]
    unfold Weight.Le Weight.plus
    dsimp only
    omega
  · rw [hnames, List.length_map] at hlen
    have h1 := hov names.length hlen
    rw [hnames, need_refunds, List.length_map, schedulerMax_eq]
    unfold Weight.Le Weight.plus
    dsimp only
    rw [hm] at hlen
    have a1 : names.length * (base.refTime + exec.refTime + 1184037000) ≤ 50 * 31184037000 :=
      Nat.mul_le_mul hlen (by omega)
    have a2 : names.length * (base.proofSize + exec.proofSize + 8518) ≤ 50 * 78518 := Nat.mul_le_mul hlen (by omega)
    omega

/-! ## Examples -/

/-- Example for non-vacuity (outside /repo): a chain before its first payment. -/
def demoStart : Scheduled := ⟨Payments.Demo.s0, [], [], fun _ => []⟩

/-- Example for non-vacuity (outside /repo): the chain after a call. -/
def demoCalled (c : Scheduled) (i : Payments.PId) (w : Payments.Acct) (call : Payments.Call) : Scheduled :=
  { c with
    pay := Payments.exec Payments.Demo.cfg c.pay (.call (Payments.Demo.env i) (.signed w) call)
    future := planned ⟨30000000, 0⟩ ⟨20000000, 0⟩ c.pay
      (Payments.exec Payments.Demo.cfg c.pay (.call (Payments.Demo.env i) (.signed w) call)) call c.future }

/-- Example for non-vacuity (outside /repo): the chain when a block begins. -/
def demoBlock (c : Scheduled) : Scheduled where
  pay := Payments.exec Payments.Demo.cfg c.pay .tick
  running := (serveBlock demoOverheads schedulerMax (c.backlog ++ [c.future (c.pay.now + 1)])).1
  backlog := (serveBlock demoOverheads schedulerMax (c.backlog ++ [c.future (c.pay.now + 1)])).2
  future := fun d => if d = c.pay.now + 1 then [] else c.future d

/-- Example for non-vacuity (outside /repo): a payment was made, and its refund asked for. -/
def demoAsked : Scheduled :=
  demoCalled (demoCalled demoStart 7 1 (.pay (.id 2) 0 1000 none)) 0 1 (.requestRefund 7)

/-- Example for non-vacuity (outside /repo): the last block before the deadline. -/
def demoEve : Scheduled := demoBlock (demoBlock (demoBlock (demoBlock demoAsked)))

theorem demoAsked_history : History Payments.Demo.cfg demoOverheads schedulerMax ⟨30000000, 0⟩ ⟨20000000, 0⟩ demoStart
    [Payments.Demo.aPay 7 1 2 1000, Payments.Demo.aCall 1 (.requestRefund 7)] demoAsked :=
  .cons (.call _ _ _ fun _ => by decide +kernel) (.cons (.call _ _ _ fun _ => by decide +kernel) .nil)

theorem demoEve_history : History Payments.Demo.cfg demoOverheads schedulerMax ⟨30000000, 0⟩ ⟨20000000, 0⟩ demoAsked
    [.tick, .tick, .tick, .tick] demoEve :=
  .cons (.block rfl) (.cons (.block (by decide +kernel)) (.cons (.block (by decide +kernel))
    (.cons (.block (by decide +kernel)) .nil)))

theorem demoDay_move : Moves Payments.Demo.cfg demoOverheads schedulerMax ⟨30000000, 0⟩ ⟨20000000, 0⟩ demoEve [.tick]
    (demoBlock demoEve) := .block (by decide +kernel)

theorem demoDay_running : (demoBlock demoEve).running = [demoRefund 7] := by decide +kernel

/-- Example for non-vacuity (outside /repo): the refund has run. -/
def demoDone : Scheduled :=
  { demoBlock demoEve with
    pay := Payments.exec Payments.Demo.cfg (demoBlock demoEve).pay (Payments.Demo.aFire 7)
    running := [] }

theorem demoDone_move : Moves Payments.Demo.cfg demoOverheads schedulerMax ⟨30000000, 0⟩ ⟨20000000, 0⟩ (demoBlock demoEve)
    [Payments.Demo.aFire 7] demoDone := .refund _ 7 [] demoDay_running

theorem demoStart_fresh : demoStart.Fresh := ⟨Payments.Demo.s0_initial, rfl, rfl, fun _ => rfl⟩

-- Hypotheses of `C145_refund_comes`, `C145_on_time` and `C145_only_when_due`.
example : ∃ p, demoAsked.pay.parties 7 = some (1, 2) ∧ demoAsked.pay.payments 1 7 = some p ∧
    p.state = .refundRequested 15 ∧ demoEve.pay.now + 1 = 15 ∧ demoEve.backlog = [] ∧
    demoEve.future 15 = [demoRefund 7] ∧ demoDone.running = [] ∧
    (∃ before act after, [Payments.Act.tick, .tick, .tick, .tick, .tick, Payments.Demo.aFire 7] = before ++ act :: after ∧
      (Payments.run Payments.Demo.cfg demoAsked.pay before).payments 1 7 = some p ∧
      Payments.RefundEnds Payments.Demo.cfg (Payments.run Payments.Demo.cfg demoAsked.pay before) 1 2 7 p 15 act) ∧
    ∃ due, due ≤ 15 ∧ Asked Payments.Demo.cfg Payments.Demo.s0 ([Payments.Demo.aPay 7 1 2 1000,
      Payments.Demo.aCall 1 (.requestRefund 7)] ++ ([.tick, .tick, .tick, .tick] ++ ([.tick] ++ []))) 7 due := by
  obtain ⟨p, hp⟩ : ∃ p, demoAsked.pay.payments 1 7 = some p := ⟨_, rfl⟩
  have hst : p.state = .refundRequested 15 := by
    have : (demoAsked.pay.payments 1 7).map (·.state) = some (.refundRequested 15) := by decide +kernel
    rw [hp] at this
    exact Option.some.inj this
  refine ⟨p, by decide +kernel, hp, hst, by decide +kernel, by decide +kernel, by decide +kernel, rfl, ?_, ?_⟩
  · refine C145_refund_comes (before := [.tick, .tick, .tick, .tick]) (after := [Payments.Demo.aFire 7]) ?_ demoStart_fresh
      demoAsked_history (by decide +kernel) hp hst (by decide +kernel) rfl demoEve_history (by decide +kernel) demoDay_move
      (.cons demoDone_move .nil) rfl ?_ (by decide +kernel) ?_ ?_
    · intro k hk
      unfold Weight.Le demoOverheads
      dsimp only
      omega
    · unfold FitsAlone
      decide +kernel
    · refine ⟨?_, ?_, ?_, ?_, ?_, ?_, trivial⟩
      all_goals
        intro env o c x b h1 h2
        cases h1
    · intro env h
      simp [Payments.Demo.aFire] at h
      subst h
      exact fun _ _ => rfl
  · have := C145_only_when_due demoStart_fresh (c := demoBlock demoEve) (acts := [Payments.Demo.aPay 7 1 2 1000,
      Payments.Demo.aCall 1 (.requestRefund 7)] ++ ([.tick, .tick, .tick, .tick] ++ ([.tick] ++ []))) ?_ demoDone_move
    · exact this
    · exact demoAsked_history.trans (demoEve_history.trans (.cons demoDay_move .nil))

end Verif.Runtime
