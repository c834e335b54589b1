import Verif.Payments.Rests
import Verif.Payments.KreivoIds

/-!
# Payments: what scheduled cancellations do in every history

`C24` fails: a task can outlive the payment it was made for. The theorems here say what holds of tasks in all histories.
-/

namespace Verif.Payments

open Demo

/-- C24, in every history: whatever record the scheduler changes is the payment that is found through the id of the task, in
escrow or with a refund pending, and the task is in the name of its beneficiary, who could cancel it at any time. The record
goes, and the money moves as when the beneficiary cancels. -/
theorem C24_tasks_act_for_beneficiary {cfg : Config} {s : St} (hr : Reachable cfg s) {env : Env} {i id : PId} {snd : Acct}
    (hne : (exec cfg s (.fire env i)).payments snd id ≠ s.payments snd id) :
    i = id ∧ ∃ t p, s.agenda id = some t ∧ t.due ≤ s.now ∧ s.payments snd id = some p ∧
      cfg.beneficiaryOrigin (.signed t.who) = some p.beneficiary ∧ s.parties id = some (snd, p.beneficiary) ∧
      (p.state = .created ∨ ∃ cb, p.state = .refundRequested cb) ∧
      (exec cfg s (.fire env i)).payments snd id = none ∧
      ∃ rs, rs.length ≤ 1 ∧ SmallRests (s.ledger.minBal p.asset) [⟨p.beneficiary, snd, p.amount⟩] rs ∧
        UpToRests s.ledger (exec cfg s (.fire env i)).ledger p.asset [⟨p.beneficiary, snd, p.amount⟩]
          (fun w => - onAcct snd (senderEscrow p) w - onAcct p.beneficiary p.amount w) rs := by
  rcases exec_record_key cfg s (.fire env i) snd id with h | h
  · exact absurd h hne
  · generalize hnew : (exec cfg s (.fire env i)).payments snd id = new at h
    generalize hold : s.payments snd id = old at h
    cases h with
    | fire _ _ _ b q t ht hdue ho hpar hst =>
      obtain ⟨q', hq', hb⟩ := hr.inv.parties _ _ _ hpar
      rw [hold] at hq'; cases hq'
      subst hb
      refine ⟨rfl, t, q, ht, hdue, rfl, ho, hpar, hst, rfl, ?_⟩
      have hx : exec cfg s (.fire env i) =
          settle { s with agenda := setAt s.agenda i none }
            (cancel cfg env { s with agenda := setAt s.agenda i none } (.signed t.who) i) := by
        simp only [exec, ht, if_pos hdue]
      cases hc : cancel cfg env { s with agenda := setAt s.agenda i none } (.signed t.who) i with
      | error e =>
        rw [hc] at hx
        rw [hx] at hnew
        exact absurd (hold.symm.trans hnew) (by simp)
      | ok s' =>
        rw [hc] at hx
        rw [hx]
        obtain ⟨snd', b', p', L, h1, hpar', hp', hl, hs⟩ := cancel_ok hc
        rw [ho] at h1; cases h1
        rw [hpar] at hpar'; cases hpar'
        rw [hold] at hp'; cases hp'
        have hl' : s'.ledger = L := by rcases hs with ⟨_, rfl⟩ | ⟨_, rfl⟩ <;> rfl
        obtain ⟨L1, L2, r1, r2, tr⟩ := cancelPayment_ok hl
        have n1 := release_eff r1
        have n2 := release_eff r2
        have hm : L2.minBal = s.ledger.minBal := by rw [n2.1.minBal, n1.1.minBal]
        obtain ⟨rs, k1, k2, k3⟩ := transfer_rest tr
        rw [hm] at k2
        refine ⟨rs, k1, k2, ?_⟩
        show UpToRests s.ledger s'.ledger _ _ _ rs
        rw [hl']
        refine (((n1.1.upToRests n1.2).trans (n2.1.upToRests n2.2)).trans k3).congr ?_ ?_
        · intro w; simp
        · intro w; simp only [onAcct_neg]; simp [onAcct]; split_ifs <;> omega

/-- C24, in every history: a task that waits was made by a successful `request_refund` under its id, for the block announced
then and in the name of the beneficiary of that payment. -/
theorem C24_tasks_were_asked_for {cfg : Config} {s : St} (hs : Initial s) (acts : List Act) {id : PId} {t : Task}
    (h : (run cfg s acts).agenda id = some t) :
    ∃ pre env o post snd p, acts = pre ++ .call env o (.requestRefund id) :: post ∧
      cfg.senderOrigin o = some snd ∧ (run cfg s pre).payments snd id = some p ∧ p.state = .created ∧
      t = ⟨(run cfg s pre).now + cfg.cancelBuffer, p.beneficiary⟩ ∧
      (run cfg s (pre ++ [.call env o (.requestRefund id)])).payments snd id =
        some { p with state := .refundRequested t.due } := by
  induction acts using List.reverseRecOn with
  | nil =>
    have := hs.agenda id
    rw [show (run cfg s []) = s from rfl, this] at h
    cases h
  | append_singleton acts act ih =>
    have hrun : ∀ (l : List Act) (a : Act), run cfg s (l ++ [a]) = exec cfg (run cfg s l) a := fun l a => by
      simp [run, List.foldl_append]
    rw [hrun] at h
    rcases Verif.Payments.Kreivo.exec_agenda act h with h | ⟨env, o, snd, p, rfl, hp, hst, ho, rfl, hpay⟩
    · obtain ⟨pre, env, o, post, snd, p, rfl, h1, h2, h3, h4, h5⟩ := ih h
      exact ⟨pre, env, o, post ++ [act], snd, p, by simp, h1, h2, h3, h4, h5⟩
    · refine ⟨acts, env, o, [], snd, p, rfl, ho, hp, hst, rfl, ?_⟩
      rw [hrun, hpay, setPayment_same]

/-- The stale task of `C24_stale_task_fails` was made by the first payment, and acts in the name of the beneficiary of the
second. -/
example : let s := run cfg s0 [aPay 7 1 2 1000, aCall 1 (.requestRefund 7), aCall 2 (.cancel 7), aPay 7 1 2 500,
      .tick, .tick, .tick, .tick, .tick]
    s.agenda 7 = some ⟨15, 2⟩ ∧ (exec cfg s (aFire 7)).payments 1 7 ≠ s.payments 1 7 := by decide

end Verif.Payments
