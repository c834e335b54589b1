import Verif.Payments.KreivoMore
import Verif.Payments.Rests

/-! # Payments on Kreivo: resolved disputes, rests below the minimum included (C96) -/

namespace Verif.Payments.Kreivo

open Verif Verif.Accounts

/-- C96, with no assumption about rests: in every history a resolution is made by root and moves each party's fee to the
treasury, one incentive (10% of the amount) from the loser to the treasury, and the sender's share from the beneficiary to the
sender. Besides, at most two rests below the asset's minimum leave the accounts that pay the incentive and the share, each to
the one paid or burned. The floor of the fees is the minimum the asset had when the payment was made. -/
theorem C96_resolution_rests {env : Env} {z s' : St} (hz : Initial z) (acts : List Act) {o : Origin} {id : PId}
    {r : DisputeResult} (h : dispatch config env (run config z acts) o (.resolveDispute id r) = .ok s') :
    let s := run config z acts
    o = .root ∧ ∃ snd b p m, s.parties id = some (snd, b) ∧ s.payments snd id = some p ∧ p.state = .needsReview ∧
      s'.payments snd id = some { p with state := .finished } ∧ MadeAt z acts snd id p m ∧
      (m ≤ BAL_MAX → ∃ rs, rs.length ≤ 2 ∧
        SmallRests (s.ledger.minBal p.asset)
          [⟨(match r.inFavorOf with | .sender => b | .beneficiary => snd), treasury, 10 * p.amount / 100⟩,
           ⟨b, snd, (match r.inFavorOf with
              | .sender => r.pct * p.amount / 100
              | .beneficiary => p.amount - r.pct * p.amount / 100)⟩] rs ∧
        UpToRests s.ledger s'.ledger p.asset
          [⟨snd, treasury, feeOf snd m 1 p.amount⟩,
           ⟨b, treasury, feeOf b m 3 p.amount⟩,
           ⟨(match r.inFavorOf with | .sender => b | .beneficiary => snd), treasury, 10 * p.amount / 100⟩,
           ⟨b, snd, (match r.inFavorOf with
              | .sender => r.pct * p.amount / 100
              | .beneficiary => p.amount - r.pct * p.amount / 100)⟩]
          (fun w => - onAcct snd (senderEscrow p) w - onAcct b (p.amount + 10 * p.amount / 100) w) rs) := by
  have hr : Reachable config (run config z acts) := Demo.reach_run (.init hz) acts
  have hall : ∀ snd p, (run config z acts).payments snd id = some p → ∃ m, MadeAt z acts snd id p m ∧ RecordOk m snd p :=
    fun snd p hp => record_made hz acts hp
  intro s
  change dispatch config env s o (.resolveDispute id r) = .ok s' at h
  change Reachable config s at hr
  change ∀ snd p, s.payments snd id = some p → _ at hall
  clear_value s
  have ho : o = .root := by
    by_contra hne
    rw [C96_only_root env s o id r hne] at h; cases h
  subst ho
  obtain ⟨resolver, snd, b, p, L, h1, hpar, hp, hst, hl, hs⟩ :=
    resolveDispute_ok (show resolveDispute config env s .root id r = .ok s' from h)
  have hres : treasury = resolver := by
    have : some treasury = some resolver := h1
    exact Option.some.inj this
  subst hres
  obtain ⟨m, hmade, hrec⟩ := hall snd p hp
  refine ⟨rfl, snd, b, p, m, hpar, hp, hst, by rw [hs]; exact setPayment_same _ _ _ _, hmade, ?_⟩
  intro hmin
  obtain ⟨q, hq, hqb⟩ := hr.inv.parties _ _ _ hpar
  rw [hp] at hq; cases hq
  obtain ⟨u1, u2, c1, c2⟩ := C26_kreivo hr hp
  have hsat := review_no_saturation hr.inv hp hst
  obtain ⟨rs, k1, k2, k3, -⟩ := C06_resolve_rests hr h h1 hpar hp (fees_fit hrec (by omega) hmin)
  obtain ⟨f1, f2⟩ := hrec
  have em : resolutionMoves snd b treasury p r =
      [⟨(match r.inFavorOf with | .sender => b | .beneficiary => snd), treasury, 10 * p.amount / 100⟩,
       ⟨b, snd, (match r.inFavorOf with
          | .sender => r.pct * p.amount / 100
          | .beneficiary => p.amount - r.pct * p.amount / 100)⟩] := by
    unfold resolutionMoves
    rw [← f2]
    cases r.inFavorOf <;> rfl
  rw [chargedOnDispute_uniform _ u1, chargedOnDispute_uniform _ u2, c1, c2, f1] at k3
  rw [em] at k2 k3
  refine ⟨rs, k1, k2, k3.congr (fun w => ?_) (fun w => ?_)⟩
  · rw [net_append, net_append]
    simp only [applyFees, feeList_moves, hqb]
    have e4 : ∀ m1 m2 m3 m4 : Move, net [m1, m2, m3, m4] w = net [m1] w + net [m2] w + net [m3, m4] w := by
      intro m1 m2 m3 m4; simp only [net, List.map_cons, List.map_nil, List.sum_cons, List.sum_nil]; ring
    rw [e4]
    simp only [net, List.map_cons, List.map_nil, List.sum_cons, List.sum_nil, add_zero]
  · rw [f2]
    push_cast
    rfl

/-- 1 pays 5000 to 2, asks for a refund and 2 disputes; then 2 is left with 160 of free money, and the asset's minimum
rises to 500. Example for non-vacuity (outside /repo). -/
def poorActs : List Act :=
  [.call env (.signed 1) (.pay (.id 2) 0 5000 none), .call env (.signed 1) (.requestRefund pid),
   .call env (.signed 2) (.disputeRefund pid), .ext 0 2 160, .setMin 0 500]

-- All for the sender: of 2's 160 + 5500 - 150 - 500, 5000 goes back; the rest of 10 is below the minimum and goes along.
example : ∃ s', dispatch config { env with ledger := ⟨fun _ _ => false, fun _ _ => .toDest⟩ } (run config s0 poorActs) .root
      (.resolveDispute pid ⟨100, .sender⟩) = .ok s' ∧
    s'.ledger.bal 0 2 = ⟨0, 0⟩ ∧ s'.ledger.bal 0 1 = ⟨1000000 - 50 + 10, 0⟩ ∧
    s'.ledger.bal 0 treasury = ⟨1000000 + 50 + 150 + 500, 0⟩ := ⟨_, rfl, by decide +kernel⟩

end Verif.Payments.Kreivo
