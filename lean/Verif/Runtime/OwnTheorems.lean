import Verif.Runtime.CallLemmas

/-!
# C148: nobody is restricted when acting for themselves
-/

namespace Verif.Runtime

open Verif Verif.Accounts

/-! ## Specification -/

/-- `y` is `c` or inside the batches `c` consists of, below `k` of the kind that is all or nothing. Specification only, no
code behind it (outside /repo). -/
inductive InBatch : Call → Nat → Call → Prop
  | here (c : Call) : InBatch c 0 c
  | batch {cs : List Call} {x y : Call} {k : Nat} (hx : x ∈ cs) (h : InBatch x k y) : InBatch (.batch cs) k y
  | batchAll {cs : List Call} {x y : Call} {k : Nat} (hx : x ∈ cs) (h : InBatch x k y) : InBatch (.batchAll cs) (k + 1) y

/-- One for a `batch_all`, nothing for another call. Specification only, no code behind it (outside /repo). -/
def Call.allOrNothing : Call → Nat
  | .batchAll _ => 1
  | _ => 0

/-! ## Lemmas -/

theorem mem_reachedAll {T : Tables} {o : Sig} {x : Call} {z : Sig × Call} {cs : List Call} (hx : x ∈ cs) (h : z ∈ reached T o x) :
    z ∈ reachedAll T o cs := by
  induction cs with
  | nil => cases hx
  | cons c cs ih =>
    unfold reachedAll
    rw [List.mem_append]
    rcases List.mem_cons.1 hx with rfl | hx
    · exact .inl h
    · exact .inr (ih hx)

theorem own_batches {T : Tables} {c y : Call} {k : Nat} (h : InBatch c k y) : ∀ o : Sig, o.via = none →
    k + y.allOrNothing + (if o.noBatchAll then 1 else 0) ≤ 1 →
    ∃ o' : Sig, (o', y) ∈ reached T o c ∧ o'.signer = o.signer ∧ o'.via = none := by
  induction h with
  | here c =>
    intro o ho hk
    have ha : o.allows c = true := by
      unfold Sig.allows
      rw [ho]
      cases c <;> simp
      cases hb : o.noBatchAll
      · rfl
      · rw [hb] at hk
        simp [Call.allOrNothing] at hk
    refine ⟨o, ?_, rfl, ho⟩
    unfold reached
    rw [if_pos ha]
    exact List.mem_cons_self
  | @batch cs x y k hx _ ih =>
    intro o ho hk
    obtain ⟨o', h1, h2, h3⟩ := ih o ho hk
    refine ⟨o', ?_, h2, h3⟩
    unfold reached
    rw [if_pos (by unfold Sig.allows; rw [ho]; rfl)]
    refine List.mem_cons_of_mem _ ?_
    unfold inner
    exact mem_reachedAll hx h1
  | @batchAll cs x y k hx _ ih =>
    intro o ho hk
    have hb : o.noBatchAll = false := by
      cases hb : o.noBatchAll
      · rfl
      · rw [hb] at hk
        simp only [if_true] at hk
        omega
    obtain ⟨o', h1, h2, h3⟩ := ih { o with noBatchAll := true } ho (by
      rw [hb] at hk
      simp only [if_true, Bool.false_eq_true, if_false] at hk ⊢
      omega)
    refine ⟨o', ?_, h2, h3⟩
    unfold reached
    rw [if_pos (by unfold Sig.allows; rw [ho, hb]; rfl)]
    refine List.mem_cons_of_mem _ ?_
    unfold inner
    exact mem_reachedAll hx h1

/-! ## C148 -/

/-- C148: a signer's call is dispatched whatever it is, and so is every call in its batches, in the signer's name and without
any restriction, unless a `batch_all` is inside another. -/
theorem C148_own (T : Tables) (who : AccountId) (c y : Call) (k : Nat) (h : InBatch c k y) (hk : k + y.allOrNothing ≤ 1) :
    ∃ o : Sig, (o, y) ∈ reached T (.fresh who) c ∧ o.signer = who ∧ o.via = none :=
  own_batches h (.fresh who) rfl hk

/-- C148: in particular any call that is no batch, alone. -/
theorem C148_any_call (T : Tables) (who : AccountId) (c : Call) : (Sig.fresh who, c) ∈ reached T (.fresh who) c := by
  unfold reached
  rw [if_pos (by unfold Sig.allows Sig.fresh; cases c <;> rfl)]
  exact List.mem_cons_self

/-- C148: what is in a `batch_all` in a `batch_all` is not dispatched. -/
theorem C148_nested_all (T : Tables) (who : AccountId) (cs : List Call) :
    reached T (.fresh who) (.batchAll [.batchAll cs]) = [(.fresh who, .batchAll [.batchAll cs])] := by
  unfold reached
  rw [if_pos (by rfl)]
  unfold inner reachedAll reachedAll reached
  rw [if_neg (by simp [Sig.allows])]
  rfl

/-! ## Examples -/

/-- A transfer in a batch in a `batch_all` in a batch. -/
example : InBatch (.batch [.killPure, .batchAll [.batch [.balances .transferAllowDeath]]]) 1 (.balances .transferAllowDeath) ∧
    1 + (Call.balances .transferAllowDeath).allOrNothing ≤ 1 :=
  ⟨.batch (List.mem_cons_of_mem _ List.mem_cons_self) (.batchAll List.mem_cons_self (.batch List.mem_cons_self (.here _))), by decide⟩

end Verif.Runtime
