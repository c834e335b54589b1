import Verif.Runtime.AssetPowersTheorems

/-!
# Who takes a leave to spend back (C202)
-/

namespace Verif.Runtime.Units

open Verif Verif.Accounts

/-- The state after a leave is taken back: its deposit is free again, and it counts no more. Specification only, no code behind it
(outside /repo). -/
def withoutLeave (s : St) (k : Key) (owner delegate : AccountId) (d : Info) (p : Leave) : St :=
  ((s.unreserve owner p.deposit).setAppr k owner delegate none).setInfo k (some { d with approvals := d.approvals - 1 })

/-- **C202.** An account takes a leave it gave back, and with it the deposit, exactly while the asset is live. -/
theorem C202_takes_back (env : Env) (s s' : St) (o : RtOrigin) (k : Key) (g : AccountId) :
    call env s o (.cancelApproval k g) = some s' ↔
      ∃ a d p, o = .signed a ∧ s.info k = some d ∧ d.status = .live ∧ s.appr k a g = some p ∧ s' = withoutLeave s k a g d p := by
  have key : ∀ a, call env s (.signed a) (.cancelApproval k g) = some s' ↔
      ∃ d p, s.info k = some d ∧ d.status = .live ∧ s.appr k a g = some p ∧ s' = withoutLeave s k a g d p := by
    intro a
    simp only [call, bySigner, unapprove]
    cases hi : s.info k with
    | none => simp
    | some d =>
      by_cases hl : d.status = .live
      · cases hp : s.appr k a g with
        | none => simp [hl]
        | some p => simp [hl, withoutLeave, eq_comm]
      · simp [hl]
  constructor
  · intro h
    cases o with
    | signed a =>
      obtain ⟨d, p, h⟩ := (key a).1 h
      exact ⟨a, d, p, rfl, h⟩
    | root => cases h
    | none => cases h
    | community _ => cases h
    | custom _ => cases h
    | other _ => cases h
  · rintro ⟨a, d, p, rfl, h⟩
    exact (key a).2 ⟨d, p, h⟩

/-- **C202.** Nobody but the asset's admin and root takes back a leave that another account gave, and they do so exactly while
the asset is live; the deposit goes to the account that gave it. -/
theorem C202_forced_back (env : Env) (s s' : St) (o : RtOrigin) (k : Key) (a g : AccountId) :
    call env s o (.forceCancelApproval k a g) = some s' ↔
      ∃ d p, (o = .root ∨ o = .signed d.admin) ∧ s.info k = some d ∧ d.status = .live ∧ s.appr k a g = some p ∧
        s' = withoutLeave s k a g d p := by
  cases o with
  | signed b =>
    simp only [call, bySigner, unapprove]
    cases hi : s.info k with
    | none => simp
    | some d =>
      by_cases hl : d.status = .live
      · by_cases hb : b = d.admin
        · cases hp : s.appr k a g with
          | none => simp [hl, hb]
          | some p => simp [hl, hb, withoutLeave, eq_comm]
        · simp [hl, hb]
      · simp [hl]
  | root =>
    simp only [call, byRoot, unapprove]
    cases hi : s.info k with
    | none => simp
    | some d =>
      by_cases hl : d.status = .live
      · cases hp : s.appr k a g with
        | none => simp [hl]
        | some p => simp [hl, withoutLeave, eq_comm]
      · simp [hl]
  | none => constructor <;> intro h <;> simp [call] at h
  | community _ => constructor <;> intro h <;> simp [call] at h
  | custom _ => constructor <;> intro h <;> simp [call] at h
  | other _ => constructor <;> intro h <;> simp [call] at h

/-- A leave that was given is taken back by the account that gave it, and another one by the admin, not by its delegate. -/
example : ∃ s s1 s2, step Demo.env s (.call (.signed [8]) (.approveTransfer 7 [9] 5)) = some s1 ∧
    call Demo.env s1 (.signed [8]) (.cancelApproval 7 [9]) = some s2 ∧
    (∃ s3, call Demo.env s1 (.signed [1]) (.forceCancelApproval 7 [8] [9]) = some s3) ∧
    call Demo.env s1 (.signed [9]) (.forceCancelApproval 7 [8] [9]) = none :=
  ⟨genesis.setInfo 7 (some ⟨[1], [1], [1], [1], 0, 1, true, 0, 0, .live⟩), _, _, rfl, rfl, ⟨_, rfl⟩, rfl⟩

end Verif.Runtime.Units
