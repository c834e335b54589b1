import Verif.Runtime.AssetBooksTheorems

/-!
# C202 in every history: how much more than its leave a delegate takes
-/

namespace Verif.Runtime.Units

open Verif Verif.Accounts

/-- The least balance of an asset. Specification only, no code behind it (outside /repo). -/
def least (s : St) (k : Key) : Nat := ((s.info k).map (·.min)).getD 0

/-- What is reached by steps, how many units of `a` were taken by `g` in them, and what could come on top of what it asked for:
one less than the minimum each time it empties the account. Specification only, no code behind it (outside /repo). -/
inductive DrawnUp (k : Key) (a g : AccountId) (z : St) : List Step → St → Nat → Nat → Prop
  | refl : DrawnUp k a g z [] z 0 0
  | step {l : List Step} {s s' : St} {t r : Nat} (env : Env) (x : Step) (h : DrawnUp k a g z l s t r)
      (hs : step env s x = some s') :
      DrawnUp k a g z (x :: l) s' (t + if draws k a g x then s.has k a - s'.has k a else 0)
        (r + if draws k a g x ∧ 0 < s.has k a ∧ s'.has k a = 0 then least s k - 1 else 0)

theorem DrawnUp.reach {k : Key} {a g : AccountId} {z s : St} {l : List Step} {t r : Nat} (h : DrawnUp k a g z l s t r) :
    Reach z l s := by
  induction h with
  | refl => exact .refl
  | step env x _ hs ih => exact .step env x ih hs

/-- What a delegate takes in one step. -/
theorem draw_loss {env : Env} {s s' : St} {x : Step} (h : step env s x = some s') (k : Key) (a g : AccountId)
    (hd : draws k a g x = true) : s.has k a - s'.has k a ≤ asks k a g x +
      if draws k a g x ∧ 0 < s.has k a ∧ s'.has k a = 0 then least s k - 1 else 0 := by
  by_cases hlt : s'.has k a < s.has k a
  · obtain ⟨by_, q, y, dst, n, rfl, hq⟩ : ∃ by_ q y dst n, x = .call (.signed by_) (.transferApproved q y dst n) ∧
        (by_ = g ∧ q = k ∧ y = a) := by
      cases x with
      | other y => cases hd
      | call o c =>
        cases o <;> first | (cases hd; done) | skip
        cases c <;> first | exact ⟨_, _, _, _, _, rfl, of_decide_eq_true hd⟩ | (cases hd; done)
    obtain ⟨rfl, rfl, rfl⟩ := hq
    have e : asks q y by_ (.call (.signed by_) (.transferApproved q y dst n)) = n := if_pos ⟨rfl, rfl, rfl⟩
    rw [e]
    have ht := C200_taken env s s' (.signed by_) (.transferApproved q y dst n) h q y hlt
    generalize hm : s.has q y - s'.has q y = m at ht
    cases ht with
    | delegated _ _ _ p hp hn ho hs =>
      obtain ⟨d, hi, hl, _⟩ := hs
      have hle : least s q = d.min := by unfold least; rw [hi]; rfl
      obtain ⟨h1, h2 | h2⟩ := hl
      · omega
      · rw [if_pos ⟨hd, by omega, by omega⟩, hle]
        omega
  · omega

/-- **C202**, what holds in every history: the units a delegate took, and what it may still take, are together no more than it was
given leave for and, for each time it emptied the account, a rest below the minimum the asset had at that moment. -/
theorem C202_with_rests (l : List Step) (s : St) (k : Key) (a g : AccountId) (t r : Nat)
    (h : DrawnUp k a g genesis l s t r) : t + leave s k a g ≤ (l.map (gives k a g)).sum + r := by
  have key : t ≤ (l.map (asks k a g)).sum + r := by
    induction h with
    | refl => exact Nat.le_refl _
    | step env x _ hs ih =>
      simp only [List.map_cons, List.sum_cons]
      by_cases hd : draws k a g x = true
      · have := draw_loss hs k a g hd
        rw [if_pos hd]
        omega
      · rw [if_neg hd]
        omega
  have := C202_asked l s h.reach k a g
  omega

/-- Every history is one of these. -/
theorem drawnUp_of_reach {l : List Step} {z s : St} (h : Reach z l s) (k : Key) (a g : AccountId) :
    ∃ t r, DrawnUp k a g z l s t r := by
  induction h with
  | refl => exact ⟨0, 0, .refl⟩
  | step env x _ hs ih =>
    obtain ⟨t, r, ih⟩ := ih
    exact ⟨_, _, ih.step env x hs⟩

theorem Drawn.up {clean : Bool} {k : Key} {a g : AccountId} {z s : St} {l : List Step} {t : Nat}
    (h : Drawn clean k a g z l s t) : ∃ r, DrawnUp k a g z l s t r := by
  induction h with
  | refl => exact ⟨0, .refl⟩
  | step env x _ hs _ ih =>
    obtain ⟨r, ih⟩ := ih
    exact ⟨_, ih.step env x hs⟩

/-- Example: the delegate who takes 100 with leave for 95; at least 5 of them are such a rest. -/
example : ∃ l s k a g t r, DrawnUp k a g genesis l s t r ∧ t = 100 ∧ (l.map (gives k a g)).sum = 95 ∧ 5 ≤ r := by
  obtain ⟨l, s, k, a, g, t, h, ht, hg⟩ := C202_delegate_fails
  obtain ⟨r, hr⟩ := h.up
  have := C202_with_rests l s k a g t r hr
  exact ⟨l, s, k, a, g, t, r, hr, ht, hg, by omega⟩

end Verif.Runtime.Units
