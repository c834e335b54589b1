import Verif.Xcm.TransferLemmas

namespace Verif.Xcm

open Verif Verif.Runtime Verif.Accounts

/-! ## Names of things on other chains -/

theorem simplify_absolute (context pre : List Junction) : ∀ (p : Nat) (js : List Junction), p ≤ 255 → p ≤ (pre ++ context).length →
    (simplifyJs context p js).1 ≤ p ∧
    (pre ++ context).take ((pre ++ context).length - (simplifyJs context p js).1) ++ (simplifyJs context p js).2 =
      (pre ++ context).take ((pre ++ context).length - p) ++ js := by
  intro p
  induction p with
  | zero => intro js _ _; exact ⟨le_rfl, rfl⟩
  | succ p ih =>
    intro js hp hl
    cases js with
    | nil => exact ⟨le_rfl, rfl⟩
    | cons j js =>
      simp only [simplifyJs]
      split
      · rename_i hc
        obtain ⟨h1, h2⟩ := ih js (by omega) (by omega)
        refine ⟨by omega, h2.trans ?_⟩
        have e : (pre ++ context).length - p = ((pre ++ context).length - (p + 1)) + 1 := by omega
        have hj : (pre ++ context)[(pre ++ context).length - (p + 1)]? = some j := by
          rw [List.getElem?_append_right (by simp only [List.length_append]; omega), ← hc.2]
          congr 1
          simp only [List.length_append]; omega
        rw [e, List.take_succ, hj]
        simp
      · exact ⟨le_rfl, rfl⟩

theorem reanchor_absolute (context : List Junction) (target l r : Location) (ht : target.parents.toNat ≤ context.length)
    (hi : target.interior.length ≤ 255) (h : reanchor context target l = some r) (there : List Junction)
    (hth : absolute context target = some there) : absolute there r = absolute context l := by
  unfold absolute at hth
  rw [if_pos ht] at hth
  cases hth
  unfold reanchor invertTarget at h
  dsimp only at h
  split at h
  · cases h
  rename_i inv hinv
  split at hinv
  · cases hinv
    split at h
    · cases h
    rename_i q hq
    cases h
    unfold Location.prependWith at hq
    dsimp only at hq
    split at hq
    · rename_i hb
      cases hq
      have e0 : target.parents.toNat - context.length = 0 := by omega
      have en : (UInt8.ofNat target.interior.length).toNat = target.interior.length := by
        rw [UInt8.toNat_ofNat']; omega
      rw [e0] at hb ⊢
      simp only [List.replicate_zero, List.nil_append, List.length_drop, en] at hb ⊢
      have e1 : context.length - (context.length - target.parents.toNat) = target.parents.toNat := by omega
      rw [e1] at hb ⊢
      have ep : (UInt8.ofNat (target.interior.length + (l.parents.toNat - target.parents.toNat))).toNat =
          target.interior.length + (l.parents.toNat - target.parents.toNat) := by
        rw [UInt8.toNat_ofNat']; omega
      rw [ep]
      generalize hp : target.interior.length + (l.parents.toNat - target.parents.toNat) = p at *
      generalize hjs : List.take (target.parents.toNat - l.parents.toNat)
          (List.drop (context.length - target.parents.toNat) context) ++ l.interior = js at *
      generalize hpre : context.take (context.length - target.parents.toNat) = pre at *
      have hprel : pre.length = context.length - target.parents.toNat := by rw [← hpre, List.length_take]; omega
      by_cases hlp : l.parents.toNat ≤ context.length
      · have hple : p ≤ (pre ++ target.interior).length := by
          rw [List.length_append, hprel]; omega
        obtain ⟨s1, s2⟩ := simplify_absolute target.interior pre p js (by omega) hple
        have es : (UInt8.ofNat (simplifyJs target.interior p js).1).toNat = (simplifyJs target.interior p js).1 := by
          rw [UInt8.toNat_ofNat']; omega
        unfold absolute
        simp only [es]
        rw [if_pos (by omega), if_pos hlp, s2, ← hjs, ← List.append_assoc]
        congr 2
        by_cases hc : l.parents.toNat ≤ target.parents.toNat
        · have : (pre ++ target.interior).length - p = pre.length := by
            rw [List.length_append]; omega
          rw [this, List.take_left, ← hpre]
          have : context.length - l.parents.toNat =
              (context.length - target.parents.toNat) + (target.parents.toNat - l.parents.toNat) := by omega
          rw [this, List.take_add]
        · have : target.parents.toNat - l.parents.toNat = 0 := by omega
          rw [this, List.take_zero, List.append_nil, List.take_append_of_le_length (by rw [List.length_append]; omega), ← hpre,
            List.take_take]
          congr 1
          rw [List.length_append, hpre]; omega
      · unfold absolute
        rw [if_neg hlp]
        have hs : simplifyJs target.interior p js = (p, js) := by
          have hgt : target.interior.length < p := by omega
          cases p with
          | zero => omega
          | succ p =>
            cases js with
            | nil => rfl
            | cons j js =>
              simp only [simplifyJs]
              rw [if_neg (by omega)]
        rw [hs]
        dsimp only
        rw [if_neg]
        rw [ep, List.length_append]; omega
    · cases hq
  · cases hinv

/-- The wrong first junction of Kreivo's `UniversalLocation` makes no difference for targets up to two levels up. -/
theorem reanchor_kreivo (self : UInt32) (target l : Location) (ht : target.parents.toNat ≤ 2) :
    reanchor (universalLocation self) target l = reanchor (kreivoPath self) target l := by
  have : invertTarget (universalLocation self) target = invertTarget (kreivoPath self) target := by
    unfold invertTarget universalLocation kreivoPath
    dsimp only
    have h : target.parents.toNat = 0 ∨ target.parents.toNat = 1 ∨ target.parents.toNat = 2 := by omega
    rcases h with h | h | h <;> rw [h] <;> rfl
  unfold reanchor
  rw [this]

end Verif.Xcm
