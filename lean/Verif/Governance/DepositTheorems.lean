import Verif.Governance.Deposits
import Mathlib.Logic.Relation

/-!
# C140: deposits of referenda
-/

namespace Verif.Governance

open Verif Verif.Accounts Verif.Communities

/-! ## Specification -/

/-- What of a deposit is an account's. Specification only, no code behind it (outside /repo). -/
def bondOf (a : AccountId) : Option Bond → Nat
  | some b => if b.who = a then b.amount else 0
  | none => 0

/-- What an account has put into a referendum and not got back. Specification only, no code behind it (outside /repo). -/
def stake (a : AccountId) (r : DRef) : Nat := bondOf a r.submission + bondOf a r.decision

/-- The same for all referenda of both instances. Specification only, no code behind it (outside /repo). -/
def stakes (s : DSt) (a : AccountId) : Nat :=
  ((s.refs .collective).map (stake a)).sum + ((s.refs .community).map (stake a)).sum

/-- What an account has, reserved or not. Specification only, no code behind it (outside /repo). -/
def wealth (s : DSt) (a : AccountId) : Nat := s.free a + s.reserved a

/-! ## Lemmas -/

theorem sum_set (f : DRef → Nat) : ∀ (l : List DRef) (p : Nat) (r r' : DRef), l[p]? = some r →
    ((l.set p r').map f).sum + f r = (l.map f).sum + f r'
  | [], _, _, _, h => by simp at h
  | x :: l, 0, r, r', h => by
    simp only [List.getElem?_cons_zero, Option.some.injEq] at h
    subst h
    simp only [List.set_cons_zero, List.map_cons, List.sum_cons]
    omega
  | x :: l, p + 1, r, r', h => by
    simp only [List.getElem?_cons_succ] at h
    have := sum_set f l p r r' h
    simp only [List.set_cons_succ, List.map_cons, List.sum_cons]
    omega

theorem stakes_set (s : DSt) (k : House) (p : Nat) (r r' : DRef) (a : AccountId) (h : (s.refs k)[p]? = some r) :
    stakes (s.setRefs k ((s.refs k).set p r')) a + stake a r = stakes s a + stake a r' := by
  have := sum_set (stake a) (s.refs k) p r r' h
  cases k
  · simp only [stakes, DSt.setRefs, if_true, reduceCtorEq, if_false] at *
    omega
  · simp only [stakes, DSt.setRefs, if_true, reduceCtorEq, if_false] at *
    omega

theorem stakes_app (s : DSt) (k : House) (r : DRef) (a : AccountId) :
    stakes (s.setRefs k (s.refs k ++ [r])) a = stakes s a + stake a r := by
  cases k
  · simp [stakes, DSt.setRefs]
    omega
  · simp [stakes, DSt.setRefs]
    omega

theorem stake_le (s : DSt) (k : House) (p : Nat) (r : DRef) (a : AccountId) (h : (s.refs k)[p]? = some r) :
    stake a r ≤ stakes s a := by
  have := sum_set (stake a) (s.refs k) p r ⟨0, .ongoing, none, none⟩ h
  have e : stake a ⟨0, .ongoing, none, none⟩ = 0 := rfl
  rw [e] at this
  unfold stakes
  cases k <;> omega

/-- Only the referenda count for what is put in. -/
theorem stakes_congr {s t : DSt} (h : s.refs = t.refs) (a : AccountId) : stakes s a = stakes t a := by
  unfold stakes; rw [h]

@[simp] theorem setRefs_free (s : DSt) (k : House) (l : List DRef) : (s.setRefs k l).free = s.free := rfl
@[simp] theorem setRefs_reserved (s : DSt) (k : House) (l : List DRef) : (s.setRefs k l).reserved = s.reserved := rfl
@[simp] theorem setRefs_elsewhere (s : DSt) (k : House) (l : List DRef) : (s.setRefs k l).elsewhere = s.elsewhere := rfl
theorem setRefs_self (s : DSt) (k : House) (l : List DRef) : (s.setRefs k l).refs k = l := by simp [DSt.setRefs]
theorem setRefs_ne (s : DSt) (k j : House) (l : List DRef) (h : j ≠ k) : (s.setRefs k l).refs j = s.refs j := by
  simp [DSt.setRefs, h]

theorem reserve_spec {s s' : DSt} {b : Bond} (h : reserve s b = some s') :
    b.amount ≤ s.free b.who ∧ s'.refs = s.refs ∧ s'.elsewhere = s.elsewhere ∧ s'.communityDeposit = s.communityDeposit ∧
    (∀ a, s'.free a = s.free a - bondOf a (some b)) ∧ (∀ a, s'.reserved a = s.reserved a + bondOf a (some b)) := by
  unfold reserve at h
  split at h
  · cases h
  · rename_i hf
    cases h
    refine ⟨by omega, rfl, rfl, rfl, fun a => ?_, fun a => ?_⟩
    · simp only [put1, bondOf]
      by_cases e : a = b.who
      · simp [e]
      · rw [if_neg e, if_neg (Ne.symm e)]; rfl
    · simp only [put1, bondOf]
      by_cases e : a = b.who
      · simp [e]
      · rw [if_neg e, if_neg (Ne.symm e)]; rfl

theorem unreserve_spec (s : DSt) (b : Option Bond) (hb : ∀ a, bondOf a b ≤ s.reserved a) :
    (unreserve s b).refs = s.refs ∧ (unreserve s b).elsewhere = s.elsewhere ∧
    (unreserve s b).communityDeposit = s.communityDeposit ∧
    (∀ a, (unreserve s b).free a = s.free a + bondOf a b) ∧ (∀ a, (unreserve s b).reserved a + bondOf a b = s.reserved a) := by
  cases b with
  | none => exact ⟨rfl, rfl, rfl, fun _ => rfl, fun _ => rfl⟩
  | some b =>
    have h0 := hb b.who
    simp only [bondOf, if_true] at h0
    refine ⟨rfl, rfl, rfl, fun a => ?_, fun a => ?_⟩
    · simp only [unreserve, put1, bondOf, Nat.min_eq_left h0]
      by_cases e : a = b.who
      · simp [e]
      · rw [if_neg e, if_neg (Ne.symm e)]; rfl
    · simp only [unreserve, put1, bondOf, Nat.min_eq_left h0]
      by_cases e : a = b.who
      · subst e
        simp only [if_true]
        omega
      · rw [if_neg e, if_neg (Ne.symm e)]; rfl

theorem slash_spec (s : DSt) (b : Option Bond) (hb : ∀ a, bondOf a b ≤ s.reserved a) :
    (slash s b).refs = s.refs ∧ (slash s b).elsewhere = s.elsewhere ∧ (slash s b).communityDeposit = s.communityDeposit ∧
    (∀ a, (slash s b).free a = s.free a + if a = treasuryAccount then (b.map (·.amount)).getD 0 else 0) ∧
    (∀ a, (slash s b).reserved a + bondOf a b = s.reserved a) := by
  cases b with
  | none => exact ⟨rfl, rfl, rfl, fun a => by simp [slash], fun _ => rfl⟩
  | some b =>
    have h0 := hb b.who
    simp only [bondOf, if_true] at h0
    refine ⟨rfl, rfl, rfl, fun a => ?_, fun a => ?_⟩
    · simp only [slash, put1, Nat.min_eq_left h0, Option.map_some, Option.getD_some]
      by_cases e : a = treasuryAccount
      · simp [e]
      · rw [if_neg e, if_neg e]; rfl
    · simp only [slash, put1, bondOf, Nat.min_eq_left h0]
      by_cases e : a = b.who
      · subst e
        simp only [if_true]
        omega
      · rw [if_neg e, if_neg (Ne.symm e)]; rfl

/-- Everything put into referenda and not given back is reserved, besides what other pallets reserved.
Specification only, no code behind it (outside /repo). -/
def Kept (s : DSt) : Prop := ∀ a, s.reserved a = s.elsewhere a + stakes s a

theorem takeDecision_spec {r r' : DRef} {b : Option Bond} (h : takeDecision r = some (b, r')) (a : AccountId) :
    stake a r = stake a r' + bondOf a b := by
  unfold takeDecision at h
  split at h
  · split at h
    · cases h; simp [bondOf]
    · cases h
  · cases h; simp [bondOf]
  · cases h
    simp [stake, bondOf]

theorem takeSubmission_spec {r r' : DRef} {b : Option Bond} (h : takeSubmission r = some (b, r')) (a : AccountId) :
    stake a r = stake a r' + bondOf a b := by
  unfold takeSubmission at h
  split at h
  · cases h
    simp [stake, bondOf]; omega
  · cases h
    simp [stake, bondOf]; omega
  · cases h

theorem refund_kept {s : DSt} (hk : Kept s) {k : House} {p : Nat} {r r' : DRef} {b : Option Bond}
    (hr : (s.refs k)[p]? = some r) (hs : ∀ a, stake a r = stake a r' + bondOf a b) :
    Kept ((unreserve s b).setRefs k ((s.refs k).set p r')) := by
  have hb : ∀ a, bondOf a b ≤ s.reserved a := fun a => by
    have := stake_le s k p r a hr
    have := hs a
    have := hk a
    omega
  obtain ⟨e1, e2, _, _, e5⟩ := unreserve_spec s b hb
  intro a
  rw [setRefs_reserved, setRefs_elsewhere, e2]
  have h1 := stakes_set (unreserve s b) k p r r' a (by rw [e1]; exact hr)
  rw [e1] at h1
  rw [stakes_congr e1] at h1
  have := e5 a
  have := hk a
  have := hs a
  omega

theorem call_kept {s s' : DSt} (hk : Kept s) {o : Origin} {c : DCall} (h : ddispatch s o c = some s') : Kept s' := by
  cases c with
  | submit k t =>
    simp only [ddispatch] at h
    split at h
    · rename_i who n _ _
      obtain ⟨s1, h1, h2⟩ := Option.map_eq_some_iff.1 h
      obtain ⟨e0, e1, e2, _, _, e5⟩ := reserve_spec h1
      subst h2
      intro a
      rw [setRefs_reserved, setRefs_elsewhere, e2, e5, ← e1, stakes_app, stakes_congr e1, hk a]
      simp only [stake, bondOf]
      omega
    · cases h
  | place k p =>
    simp only [ddispatch] at h
    split at h
    · rename_i who r hr
      split at h
      · rename_i n _ hd _
        obtain ⟨s1, h1, h2⟩ := Option.map_eq_some_iff.1 h
        obtain ⟨e0, e1, e2, _, _, e5⟩ := reserve_spec h1
        subst h2
        intro a
        rw [setRefs_reserved, setRefs_elsewhere, e2, e5, ← e1]
        have := stakes_set s1 k p r { r with decision := some ⟨who, n⟩ } a (by rw [e1]; exact hr)
        rw [stakes_congr e1] at this
        have hka := hk a
        simp only [stake, bondOf, hd] at *
        omega
      · cases h
    · cases h
  | refundDecision k p =>
    simp only [ddispatch] at h
    split at h
    · split at h
      · rename_i r hr
        obtain ⟨⟨b, r'⟩, h1, h2⟩ := Option.map_eq_some_iff.1 h
        subst h2
        exact refund_kept hk hr (takeDecision_spec h1)
      · cases h
    · cases h
  | refundSubmission k p =>
    simp only [ddispatch] at h
    split at h
    · split at h
      · rename_i r hr
        obtain ⟨⟨b, r'⟩, h1, h2⟩ := Option.map_eq_some_iff.1 h
        subst h2
        exact refund_kept hk hr (takeSubmission_spec h1)
      · cases h
    · cases h
  | cancel k p =>
    simp only [ddispatch] at h
    split at h
    · rename_i r hr
      split at h
      · cases h
        intro a
        have := stakes_set s k p r { r with stage := .cancelled } a hr
        have := hk a
        simp only [setRefs_reserved, setRefs_elsewhere, stake] at *
        omega
      · cases h
    · cases h
  | kill k p =>
    simp only [ddispatch] at h
    split at h
    · rename_i r hr
      split at h
      · cases h
        have hle := fun a => stake_le s k p r a hr
        obtain ⟨a1, a2, _, _, a5⟩ := slash_spec s r.submission (fun a => by
          have := hle a; have := hk a; simp only [stake] at *; omega)
        obtain ⟨b1, b2, _, _, b5⟩ := slash_spec (slash s r.submission) r.decision (fun a => by
          have := hle a; have := hk a; have := a5 a; simp only [stake] at *; omega)
        intro a
        rw [setRefs_reserved, setRefs_elsewhere, b2, a2]
        have := stakes_set (slash (slash s r.submission) r.decision) k p r
          { r with stage := .killed, submission := none, decision := none } a (by rw [b1, a1]; exact hr)
        rw [stakes_congr (b1.trans a1), b1, a1] at this
        have := a5 a; have := b5 a; have := hk a
        simp only [stake, bondOf] at *
        omega
      · cases h
    · cases h

theorem step_kept {s s' : DSt} (hk : Kept s) (st : DStep s s') : Kept s' := by
  cases st with
  | call o c h => exact call_kept hk h
  | ends k p r g hr ho hg =>
    intro a
    have := stakes_set s k p r { r with stage := g } a hr
    have := hk a
    simp only [setRefs_reserved, setRefs_elsewhere, stake] at *
    omega
  | world free reserved elsewhere tracks h =>
    intro a
    have h1 := h a
    have h2 := hk a
    show reserved a = elsewhere a + stakes s a
    omega

theorem reach_kept {s : DSt} (h : DReach s) : Kept s := by
  induction h with
  | start s h hr => intro a; simp [stakes, h, hr]
  | step _ st ih => exact step_kept ih st

/-- A killed referendum has no deposits. Specification only, no code behind it (outside /repo). -/
def Emptied (s : DSt) : Prop := ∀ k, ∀ r ∈ s.refs k, r.stage = .killed → r.submission = none ∧ r.decision = none

theorem emptied_set {s : DSt} (h : Emptied s) {t : DSt} (ht : t.refs = s.refs) (k : House) (p : Nat) (r' : DRef)
    (hr : r'.stage = .killed → r'.submission = none ∧ r'.decision = none) :
    Emptied (t.setRefs k ((s.refs k).set p r')) := by
  intro j r hm hs
  by_cases e : j = k
  · subst e
    rw [setRefs_self] at hm
    rcases List.mem_or_eq_of_mem_set hm with h1 | h1
    · exact h j r h1 hs
    · subst h1; exact hr hs
  · rw [setRefs_ne _ _ _ _ e, ht] at hm
    exact h j r hm hs

theorem emptied_congr {s t : DSt} (h : Emptied s) (ht : t.refs = s.refs) : Emptied t := by
  intro k r; rw [ht]; exact h k r

theorem unreserve_refs (s : DSt) (b : Option Bond) : (unreserve s b).refs = s.refs := by cases b <;> rfl
theorem slash_refs (s : DSt) (b : Option Bond) : (slash s b).refs = s.refs := by cases b <;> rfl

theorem step_emptied {s s' : DSt} (h : Emptied s) (st : DStep s s') : Emptied s' := by
  cases st with
  | call o c hc =>
    cases c with
    | submit k t =>
      simp only [ddispatch] at hc
      split at hc
      · obtain ⟨s1, h1, h2⟩ := Option.map_eq_some_iff.1 hc
        obtain ⟨_, e1, _⟩ := reserve_spec h1
        subst h2
        intro j r hm hs
        by_cases e : j = k
        · subst e
          rw [setRefs_self] at hm
          rcases List.mem_append.1 hm with h3 | h3
          · exact h j r h3 hs
          · simp only [List.mem_singleton] at h3
            subst h3; cases hs
        · rw [setRefs_ne _ _ _ _ e, e1] at hm
          exact h j r hm hs
      · cases hc
    | place k p =>
      simp only [ddispatch] at hc
      split at hc
      · split at hc
        · rename_i hst _ _
          obtain ⟨s1, h1, h2⟩ := Option.map_eq_some_iff.1 hc
          obtain ⟨_, e1, _⟩ := reserve_spec h1
          subst h2
          exact emptied_set h e1 k p _ (fun e => by simp only [hst] at e; cases e)
        · cases hc
      · cases hc
    | refundDecision k p =>
      simp only [ddispatch] at hc
      split at hc
      · split at hc
        · rename_i r hr
          obtain ⟨⟨b, r'⟩, h1, h2⟩ := Option.map_eq_some_iff.1 hc
          subst h2
          refine emptied_set h (unreserve_refs _ _) k p _ (fun e => ?_)
          have hm := List.mem_of_getElem? hr
          unfold takeDecision at h1
          split at h1
          · rename_i ho
            split at h1
            · cases h1; rw [ho] at e; cases e
            · cases h1
          · cases h1; exact h k _ hm e
          · cases h1; exact ⟨(h k _ hm e).1, rfl⟩
        · cases hc
      · cases hc
    | refundSubmission k p =>
      simp only [ddispatch] at hc
      split at hc
      · split at hc
        · rename_i r hr
          obtain ⟨⟨b, r'⟩, h1, h2⟩ := Option.map_eq_some_iff.1 hc
          subst h2
          refine emptied_set h (unreserve_refs _ _) k p _ (fun e => ?_)
          have hm := List.mem_of_getElem? hr
          unfold takeSubmission at h1
          split at h1
          · rename_i hst; cases h1; simp only [hst] at e; cases e
          · rename_i hst; cases h1; simp only [hst] at e; cases e
          · cases h1
        · cases hc
      · cases hc
    | cancel k p =>
      simp only [ddispatch] at hc
      split at hc
      · split at hc
        · cases hc
          exact emptied_set h rfl k p _ (fun e => by cases e)
        · cases hc
      · cases hc
    | kill k p =>
      simp only [ddispatch] at hc
      split at hc
      · split at hc
        · cases hc
          exact emptied_set h ((slash_refs _ _).trans (slash_refs _ _)) k p _ (fun _ => ⟨rfl, rfl⟩)
        · cases hc
      · cases hc
  | ends k p r g hr ho hg => exact emptied_set h rfl k p _ (fun e => by rcases hg with g | g | g <;> simp [g] at e)
  | world => exact emptied_congr h rfl

theorem reach_emptied {s : DSt} (h : DReach s) : Emptied s := by
  induction h with
  | start s h hr => intro k r hm; rw [h] at hm; cases hm
  | step _ st ih => exact step_emptied ih st

/-! ## C140 -/

/-- C140: what is put into referenda and was not given back is reserved, besides all that other pallets reserved. -/
theorem C140_kept (s : DSt) (h : DReach s) (a : AccountId) : s.reserved a = s.elsewhere a + stakes s a := reach_kept h a

/-- C140: proposing to the collective reserves one unit of the proposer's, proposing to a community nothing, and needs as much free
balance; the proposal is recorded with that deposit. -/
theorem C140_submit (s : DSt) (o : Origin) (k : House) (t : Nat) (s' : DSt) :
    ddispatch s o (.submit k t) = some s' ↔
      ∃ who n, ((∃ w, o = .signed w ∧ who = w) ∨ (k = .community ∧ o = .root ∧ who = treasuryAccount)) ∧
        n = (match k with | .collective => 1000000000000 | .community => 0) ∧
        (match k with | .collective => t < 4 | .community => ∃ d, s.communityDeposit t = some d) ∧
        n ≤ s.free who ∧
        s' = { s with
          free := fun a => if a = who then s.free a - n else s.free a
          reserved := fun a => if a = who then s.reserved a + n else s.reserved a
          refs := fun j => if j = k then s.refs k ++ [⟨t, .ongoing, some ⟨who, n⟩, none⟩] else s.refs j } := by
  have hn : submissionDeposit k = (match (generalizing := false) k with | .collective => 1000000000000 | .community => 0) := by cases k <;> rfl
  have ht : ∀ t, (∃ d, (collectiveInfo t).map (·.decisionDeposit) = some d) ↔ t < 4 := by
    intro t
    constructor
    · rintro ⟨d, hd⟩
      by_contra hc
      have : collectiveInfo t = none := by
        unfold collectiveInfo
        rw [Option.map_eq_none_iff, List.find?_eq_none]
        intro x hx
        simp only [collectiveTracks, List.mem_cons, List.not_mem_nil, or_false] at hx
        simp only [decide_eq_true_eq]
        rcases hx with e | e | e | e <;> · rw [e]; simp only [collectiveTrack]; omega
      rw [this] at hd
      cases hd
    · intro hc
      have : t = 0 ∨ t = 1 ∨ t = 2 ∨ t = 3 := by omega
      rcases this with e | e | e | e <;> · subst e; exact ⟨_, rfl⟩
  have hd : (∃ d, decisionDeposit s k t = some d) ↔
      (match (generalizing := false) k with | .collective => t < 4 | .community => ∃ d, s.communityDeposit t = some d) := by
    cases k
    · exact ht t
    · exact Iff.rfl
  have hw : ∀ who, submitter k o = some who ↔
      ((∃ w, o = .signed w ∧ who = w) ∨ (k = .community ∧ o = .root ∧ who = treasuryAccount)) := by
    intro who
    cases o <;> cases k <;> simp [submitter, eq_comm]
  simp only [ddispatch]
  constructor
  · intro h
    split at h
    · rename_i who n h1 h2
      obtain ⟨s1, h3, h4⟩ := Option.map_eq_some_iff.1 h
      unfold reserve at h3
      split at h3
      · cases h3
      · rename_i hlt
        cases h3
        refine ⟨who, submissionDeposit k, (hw who).1 h1, hn, hd.1 ⟨_, h2⟩, by simpa using hlt, ?_⟩
        rw [← h4]
        simp only [DSt.setRefs]
        congr 1
        · funext a; simp only [put1]; split
          · rename_i e; rw [e]
          · rfl
        · funext a; simp only [put1]; split
          · rename_i e; rw [e]
          · rfl
    · cases h
  · rintro ⟨who, n, h1, h2, h3, h4, rfl⟩
    rw [← hn] at h2
    obtain ⟨d, h5⟩ := hd.2 h3
    rw [(hw who).2 h1, h5]
    subst h2
    simp only [reserve]
    rw [if_neg (by omega)]
    simp only [Option.map_some, DSt.setRefs]
    congr 2
    · funext a; simp only [put1]; split
      · rename_i e; rw [e]
      · rfl
    · funext a; simp only [put1]; split
      · rename_i e; rw [e]
      · rfl

/-- C140: the decision deposit of the collective's tracks: ten units for root's, one for the others. -/
theorem C140_decision_deposits (s : DSt) (t d : Nat) :
    decisionDeposit s .collective t = some d ↔
      (t = 0 ∧ d = 10000000000000) ∨ ((t = 1 ∨ t = 2 ∨ t = 3) ∧ d = 1000000000000) := by
  show (collectiveInfo t).map (·.decisionDeposit) = some d ↔ _
  by_cases h : t < 4
  · have : t = 0 ∨ t = 1 ∨ t = 2 ∨ t = 3 := by omega
    rcases this with e | e | e | e <;>
    · subst e
      have h1 : (collectiveInfo 0).map (·.decisionDeposit) = some 10000000000000 := rfl
      have h2 : (collectiveInfo 1).map (·.decisionDeposit) = some 1000000000000 := rfl
      have h3 : (collectiveInfo 2).map (·.decisionDeposit) = some 1000000000000 := rfl
      have h4 : (collectiveInfo 3).map (·.decisionDeposit) = some 1000000000000 := rfl
      simp [h1, h2, h3, h4, eq_comm]
  · have : collectiveInfo t = none := by
      unfold collectiveInfo
      rw [Option.map_eq_none_iff, List.find?_eq_none]
      intro x hx
      simp only [collectiveTracks, List.mem_cons, List.not_mem_nil, or_false] at hx
      simp only [decide_eq_true_eq]
      rcases hx with e | e | e | e <;> · rw [e]; simp only [collectiveTrack]; omega
    rw [this]
    simp
    omega

/-- C140: the decision deposit is placed by an account that signs, once, for a referendum that is ongoing; exactly the track's
deposit moves from the free to the reserved balance of that account. -/
theorem C140_place (s : DSt) (o : Origin) (k : House) (p : Nat) (s' : DSt) :
    ddispatch s o (.place k p) = some s' ↔
      ∃ who r n, o = .signed who ∧ (s.refs k)[p]? = some r ∧ r.stage = .ongoing ∧ r.decision = none ∧
        decisionDeposit s k r.track = some n ∧ n ≤ s.free who ∧
        s' = { s with
          free := fun a => if a = who then s.free a - n else s.free a
          reserved := fun a => if a = who then s.reserved a + n else s.reserved a
          refs := fun j => if j = k then (s.refs k).set p { r with decision := some ⟨who, n⟩ } else s.refs j } := by
  simp only [ddispatch]
  constructor
  · intro h
    split at h
    · rename_i who r hr
      split at h
      · rename_i n h1 h2 h3
        obtain ⟨s1, h4, h5⟩ := Option.map_eq_some_iff.1 h
        unfold reserve at h4
        split at h4
        · cases h4
        · rename_i hlt
          cases h4
          refine ⟨who, r, n, rfl, hr, h1, h2, h3, by simpa using hlt, ?_⟩
          rw [← h5]
          simp only [DSt.setRefs]
          congr 1
          · funext a; simp only [put1]; split
            · rename_i e; rw [e]
            · rfl
          · funext a; simp only [put1]; split
            · rename_i e; rw [e]
            · rfl
      · cases h
    · cases h
  · rintro ⟨who, r, n, rfl, hr, h1, h2, h3, h4, rfl⟩
    rw [hr]
    simp only [h1, h2, h3]
    simp only [reserve]
    rw [if_neg (by omega)]
    simp only [Option.map_some, DSt.setRefs, Option.some.injEq]
    congr 1
    · funext a; simp only [put1]; split
      · rename_i e; rw [e]
      · rfl
    · funext a; simp only [put1]; split
      · rename_i e; rw [e]
      · rfl

/-- C140: once a referendum is over, whatever it came to, whoever asks, its decision deposit is given back in full to the account
that placed it, once, and nothing else changes. -/
theorem C140_decision_back (s : DSt) (h : DReach s) (k : House) (p : Nat) (r : DRef) (hr : (s.refs k)[p]? = some r)
    (ho : r.stage ≠ .ongoing) (o : Origin) (hs : o = .root ∨ ∃ w, o = .signed w) :
    ∃ s', ddispatch s o (.refundDecision k p) = some s' ∧
      (∀ a, s'.free a = s.free a + bondOf a r.decision) ∧ (∀ a, s'.reserved a + bondOf a r.decision = s.reserved a) ∧
      s'.elsewhere = s.elsewhere ∧
      s'.refs = fun j => if j = k then (s.refs k).set p { r with decision := none } else s.refs j := by
  have hso : signedOrRoot o = true := by rcases hs with e | ⟨w, e⟩ <;> subst e <;> rfl
  have hb : ∀ a, bondOf a r.decision ≤ s.reserved a := fun a => by
    have h1 := stake_le s k p r a hr
    have h2 := reach_kept h a
    unfold stake at h1
    omega
  obtain ⟨e1, e2, _, e4, e5⟩ := unreserve_spec s r.decision hb
  have ht : takeDecision r = some (r.decision, { r with decision := none }) := by
    unfold takeDecision
    split
    · rename_i e; exact absurd e ho
    · rename_i e
      have := (reach_emptied h k r (List.mem_of_getElem? hr) e).2
      rw [this]
      cases r
      simp only at this
      subst this
      rfl
    · rfl
  refine ⟨(unreserve s r.decision).setRefs k ((s.refs k).set p { r with decision := none }),
    by simp only [ddispatch, hso, if_true, hr, ht, Option.map_some], e4, e5, e2, ?_⟩
  simp only [DSt.setRefs, e1]

/-- C140: while it is ongoing, a decision deposit is not given back. -/
theorem C140_decision_stays (s : DSt) (k : House) (p : Nat) (r : DRef) (hr : (s.refs k)[p]? = some r)
    (ho : r.stage = .ongoing) (b : Bond) (hb : r.decision = some b) (o : Origin) :
    ddispatch s o (.refundDecision k p) = none := by
  simp only [ddispatch, hr, takeDecision, ho, hb]
  split <;> rfl

/-- C140: the deposit for proposing is given back in full to the proposer, once, exactly when the referendum was approved or
cancelled. -/
theorem C140_submission_back (s : DSt) (h : DReach s) (k : House) (p : Nat) (r : DRef) (hr : (s.refs k)[p]? = some r)
    (o : Origin) (hs : o = .root ∨ ∃ w, o = .signed w) (s' : DSt) :
    ddispatch s o (.refundSubmission k p) = some s' ↔
      (r.stage = .approved ∨ r.stage = .cancelled) ∧
      (∀ a, s'.free a = s.free a + bondOf a r.submission) ∧ (∀ a, s'.reserved a + bondOf a r.submission = s.reserved a) ∧
      s'.elsewhere = s.elsewhere ∧ s'.communityDeposit = s.communityDeposit ∧
      s'.refs = fun j => if j = k then (s.refs k).set p { r with submission := none } else s.refs j := by
  have hso : signedOrRoot o = true := by rcases hs with e | ⟨w, e⟩ <;> subst e <;> rfl
  have hb : ∀ a, bondOf a r.submission ≤ s.reserved a := fun a => by
    have h1 := stake_le s k p r a hr
    have h2 := reach_kept h a
    unfold stake at h1
    omega
  obtain ⟨e1, e2, e3, e4, e5⟩ := unreserve_spec s r.submission hb
  simp only [ddispatch, hso, if_true, hr]
  constructor
  · intro h1
    obtain ⟨⟨b, r'⟩, h2, h3⟩ := Option.map_eq_some_iff.1 h1
    subst h3
    have : (r.stage = .approved ∨ r.stage = .cancelled) ∧ b = r.submission ∧ r' = { r with submission := none } := by
      unfold takeSubmission at h2
      split at h2
      · rename_i e; cases h2; exact ⟨.inl e, rfl, rfl⟩
      · rename_i e; cases h2; exact ⟨.inr e, rfl, rfl⟩
      · cases h2
    obtain ⟨h4, rfl, rfl⟩ := this
    exact ⟨h4, e4, e5, e2, e3, by simp only [DSt.setRefs, e1]⟩
  · rintro ⟨h1, h2, h3, h4, h5, h6⟩
    have ht : takeSubmission r = some (r.submission, { r with submission := none }) := by
      unfold takeSubmission
      rcases h1 with e | e <;> rw [e]
    rw [ht]
    simp only [Option.map_some, Option.some.injEq]
    have f1 : (unreserve s r.submission).free = s'.free := funext fun a => by rw [e4, h2]
    have f2 : (unreserve s r.submission).reserved = s'.reserved := funext fun a => by
      have := e5 a; have := h3 a; omega
    cases s' with
    | mk f v e g c =>
      simp only at f1 f2 h4 h5 h6
      subst f1 f2 h4 h5 h6
      simp only [DSt.setRefs, e1, e2, e3]

/-- C140: the deposit for proposing what was then rejected, or timed out, stays reserved for good: in every continuation the
account still has it in, and at least as much is reserved besides what other pallets reserved. -/
theorem C140_rejected_stays (s : DSt) (h : DReach s) (k : House) (p : Nat) (r : DRef) (b : Bond)
    (hr : (s.refs k)[p]? = some r) (hs : r.stage = .rejected ∨ r.stage = .timedOut) (hb : r.submission = some b)
    (s' : DSt) (hh : Relation.ReflTransGen DStep s s') :
    s'.elsewhere b.who + b.amount ≤ s'.reserved b.who := by
  have key : DReach s' ∧ ∃ r', (s'.refs k)[p]? = some r' ∧ (r'.stage = .rejected ∨ r'.stage = .timedOut) ∧
      r'.submission = some b := by
    induction hh with
    | refl => exact ⟨h, r, hr, hs, hb⟩
    | @tail t u _ st ih =>
      obtain ⟨i1, r', i2, i3, i4⟩ := ih
      refine ⟨.step i1 st, ?_⟩
      have other : ∀ (v : DSt) (j : House) (q : Nat) (x y : DRef), v.refs = t.refs → (t.refs j)[q]? = some x →
          (y.stage = x.stage ∧ y.submission = x.submission ∨ x.stage = .ongoing ∨ x.stage = .approved ∨ x.stage = .cancelled) →
          ∃ r', ((v.setRefs j ((t.refs j).set q y)).refs k)[p]? = some r' ∧
            (r'.stage = .rejected ∨ r'.stage = .timedOut) ∧ r'.submission = some b := by
        intro v j q x y hv hx hy
        by_cases e : k = j
        · subst e
          rw [setRefs_self]
          by_cases e2 : p = q
          · subst e2
            rw [hx] at i2
            cases i2
            have hl : p < (t.refs k).length := (List.getElem?_eq_some_iff.1 hx).1
            rw [List.getElem?_set_self hl]
            rcases hy with ⟨y1, y2⟩ | y1 | y1 | y1
            · exact ⟨y, rfl, by rw [y1]; exact i3, by rw [y2]; exact i4⟩
            all_goals · rw [y1] at i3; simp at i3
          · rw [List.getElem?_set_ne (Ne.symm e2)]
            exact ⟨r', i2, i3, i4⟩
        · rw [setRefs_ne _ _ _ _ e, hv]
          exact ⟨r', i2, i3, i4⟩
      cases st with
      | call o c hc =>
        cases c with
        | submit j t' =>
          simp only [ddispatch] at hc
          split at hc
          · obtain ⟨s1, h1, h2⟩ := Option.map_eq_some_iff.1 hc
            obtain ⟨_, e1, _⟩ := reserve_spec h1
            subst h2
            by_cases e : k = j
            · subst e
              rw [setRefs_self]
              have hl : p < (t.refs k).length := (List.getElem?_eq_some_iff.1 i2).1
              rw [List.getElem?_append_left hl]
              exact ⟨r', i2, i3, i4⟩
            · rw [setRefs_ne _ _ _ _ e, e1]
              exact ⟨r', i2, i3, i4⟩
          · cases hc
        | place j q =>
          simp only [ddispatch] at hc
          split at hc
          · rename_i who x hx
            split at hc
            · rename_i hst _ _
              obtain ⟨s1, h1, h2⟩ := Option.map_eq_some_iff.1 hc
              obtain ⟨_, e1, _⟩ := reserve_spec h1
              subst h2
              exact other _ j q x _ e1 hx (.inl ⟨rfl, rfl⟩)
            · cases hc
          · cases hc
        | refundDecision j q =>
          simp only [ddispatch] at hc
          split at hc
          · split at hc
            · rename_i x hx
              obtain ⟨⟨b', y⟩, h1, h2⟩ := Option.map_eq_some_iff.1 hc
              subst h2
              refine other _ j q x _ (unreserve_refs _ _) hx (.inl ?_)
              unfold takeDecision at h1
              split at h1
              · split at h1
                · cases h1; exact ⟨rfl, rfl⟩
                · cases h1
              · cases h1; exact ⟨rfl, rfl⟩
              · cases h1; exact ⟨rfl, rfl⟩
            · cases hc
          · cases hc
        | refundSubmission j q =>
          simp only [ddispatch] at hc
          split at hc
          · split at hc
            · rename_i x hx
              obtain ⟨⟨b', y⟩, h1, h2⟩ := Option.map_eq_some_iff.1 hc
              subst h2
              refine other _ j q x _ (unreserve_refs _ _) hx (.inr (.inr ?_))
              unfold takeSubmission at h1
              split at h1
              · rename_i e; exact .inl e
              · rename_i e; exact .inr e
              · cases h1
            · cases hc
          · cases hc
        | cancel j q =>
          simp only [ddispatch] at hc
          split at hc
          · rename_i x hx
            split at hc
            · rename_i hst
              cases hc
              exact other _ j q x _ rfl hx (.inr (.inl hst.2))
            · cases hc
          · cases hc
        | kill j q =>
          simp only [ddispatch] at hc
          split at hc
          · rename_i x hx
            split at hc
            · rename_i hst
              cases hc
              exact other _ j q x _ ((slash_refs _ _).trans (slash_refs _ _)) hx (.inr (.inl hst.2))
            · cases hc
          · cases hc
      | ends j q x g hx ho hg => exact other _ j q x _ rfl hx (.inr (.inl ho))
      | world => exact ⟨r', i2, i3, i4⟩
  obtain ⟨k1, r', k2, _, k4⟩ := key
  have h1 := reach_kept k1 b.who
  have h2 := stake_le s' k p r' b.who k2
  have h3 : b.amount ≤ stake b.who r' := by
    simp [stake, k4, bondOf]
  omega

/-- C140: no call about referenda takes anything from anybody for good, except that killing one that is ongoing, by the killers'
track of the collective or, for communities, by root, takes exactly its deposits and gives them to the treasury. -/
theorem C140_lost_only_by_kill (s s' : DSt) (h : DReach s) (o : Origin) (c : DCall) (hc : ddispatch s o c = some s') :
    (∀ a, wealth s' a = wealth s a) ∨
    ∃ k p r, c = .kill k p ∧ (s.refs k)[p]? = some r ∧ r.stage = .ongoing ∧
      ((k = .collective ∧ o = .custom .referendumKiller) ∨ (k = .community ∧ o = .root)) ∧
      ∀ a, wealth s' a + stake a r = wealth s a +
        if a = treasuryAccount then (r.submission.map (·.amount)).getD 0 + (r.decision.map (·.amount)).getD 0 else 0 := by
  have hk := reach_kept h
  have ref : ∀ (k : House) (p : Nat) (r r' : DRef) (b : Option Bond), (s.refs k)[p]? = some r →
      (∀ a, stake a r = stake a r' + bondOf a b) → ∀ l a, wealth ((unreserve s b).setRefs k l) a = wealth s a := by
    intro k p r r' b hr hs l a
    have hb : ∀ a, bondOf a b ≤ s.reserved a := fun a => by
      have := stake_le s k p r a hr
      have := hs a
      have := hk a
      omega
    obtain ⟨_, _, _, e4, e5⟩ := unreserve_spec s b hb
    have := e4 a; have := e5 a
    simp only [wealth, setRefs_free, setRefs_reserved]
    omega
  have res : ∀ (b : Bond) (s1 : DSt), reserve s b = some s1 → ∀ k l a, wealth (s1.setRefs k l) a = wealth s a := by
    intro b s1 h1 k l a
    obtain ⟨e0, _, _, _, e4, e5⟩ := reserve_spec h1
    have := e4 a; have := e5 a
    simp only [wealth, setRefs_free, setRefs_reserved]
    have : bondOf a (some b) ≤ s.free a := by
      simp only [bondOf]
      split
      · rename_i e; rw [← e]; exact e0
      · omega
    omega
  cases c with
  | submit k t =>
    simp only [ddispatch] at hc
    split at hc
    · obtain ⟨s1, h1, h2⟩ := Option.map_eq_some_iff.1 hc
      subst h2
      exact .inl (res _ _ h1 _ _)
    · cases hc
  | place k p =>
    simp only [ddispatch] at hc
    split at hc
    · split at hc
      · obtain ⟨s1, h1, h2⟩ := Option.map_eq_some_iff.1 hc
        subst h2
        exact .inl (res _ _ h1 _ _)
      · cases hc
    · cases hc
  | refundDecision k p =>
    simp only [ddispatch] at hc
    split at hc
    · split at hc
      · rename_i r hr
        obtain ⟨⟨b, r'⟩, h1, h2⟩ := Option.map_eq_some_iff.1 hc
        subst h2
        exact .inl (ref k p r r' b hr (takeDecision_spec h1) _)
      · cases hc
    · cases hc
  | refundSubmission k p =>
    simp only [ddispatch] at hc
    split at hc
    · split at hc
      · rename_i r hr
        obtain ⟨⟨b, r'⟩, h1, h2⟩ := Option.map_eq_some_iff.1 hc
        subst h2
        exact .inl (ref k p r r' b hr (takeSubmission_spec h1) _)
      · cases hc
    · cases hc
  | cancel k p =>
    simp only [ddispatch] at hc
    split at hc
    · split at hc
      · cases hc; exact .inl fun _ => rfl
      · cases hc
    · cases hc
  | kill k p =>
    simp only [ddispatch] at hc
    split at hc
    · rename_i r hr
      split at hc
      · rename_i hg
        cases hc
        right
        refine ⟨k, p, r, rfl, hr, hg.2, ?_, ?_⟩
        · have := hg.1
          cases k
          · left
            refine ⟨rfl, ?_⟩
            simp only [kills, mayKill] at this
            split at this
            · rfl
            · cases this
          · right
            refine ⟨rfl, ?_⟩
            cases o <;> first | rfl | exact absurd this (by simp [kills])
        · have hle := fun a => stake_le s k p r a hr
          obtain ⟨_, _, _, a4, a5⟩ := slash_spec s r.submission (fun a => by
            have := hle a; have := hk a; simp only [stake] at *; omega)
          obtain ⟨_, _, _, b4, b5⟩ := slash_spec (slash s r.submission) r.decision (fun a => by
            have := hle a; have := hk a; have := a5 a; simp only [stake] at *; omega)
          intro a
          have h1 := a4 a; have h2 := a5 a; have h3 := b4 a; have h4 := b5 a
          simp only [wealth, setRefs_free, setRefs_reserved, stake]
          split at h1 <;> rename_i e
          · rw [if_pos e] at h3 ⊢
            omega
          · rw [if_neg e] at h3 ⊢
            omega
      · cases hc
    · cases hc

/-! ## Examples -/

/-- Two accounts with twenty units. Example for non-vacuity (outside /repo). -/
def Demo.bank : DSt := ⟨fun a => if a = [1] ∨ a = [2] then 20 * units else 0, fun _ => 0, fun _ => 0, fun _ => [], fun _ => none⟩

/-- A proposal to the collective by one, with the decision deposit of the other. Example for non-vacuity (outside /repo). -/
def Demo.proposed : DSt :=
  ((ddispatch Demo.bank (.signed [1]) (.submit .collective 0)).bind fun s =>
    ddispatch s (.signed [2]) (.place .collective 0)).getD Demo.bank

/-- The proposal, rejected. Example for non-vacuity (outside /repo). -/
def Demo.refused : DSt :=
  Demo.proposed.setRefs .collective ((Demo.proposed.refs .collective).set 0
    ⟨0, .rejected, some ⟨[1], units⟩, some ⟨[2], 10 * units⟩⟩)

theorem Demo.proposed_reach : DReach Demo.proposed :=
  have h1 : ∃ s, ddispatch Demo.bank (.signed [1]) (.submit .collective 0) = some s ∧
      ddispatch s (.signed [2]) (.place .collective 0) = some Demo.proposed := ⟨_, rfl, rfl⟩
  h1.elim fun _ h => .step (.step (.start Demo.bank (fun _ => rfl) rfl) (.call _ _ h.1)) (.call _ _ h.2)

theorem Demo.refused_reach : DReach Demo.refused :=
  .step Demo.proposed_reach (.ends .collective 0 ⟨0, .ongoing, some ⟨[1], units⟩, some ⟨[2], 10 * units⟩⟩ .rejected rfl rfl
    (.inr (.inl rfl)))

/-- The hypotheses of `C140_decision_back` and `C140_rejected_stays` are met; the decision deposit comes back, the other does
not. -/
example : ∃ r s', (Demo.refused.refs .collective)[0]? = some r ∧ r.stage = .rejected ∧ r.submission = some ⟨[1], 1000000000000⟩ ∧
    ddispatch Demo.refused (.signed [7]) (.refundDecision .collective 0) = some s' ∧
    Demo.refused.free [2] = 10000000000000 ∧ s'.free [2] = 20000000000000 ∧ s'.reserved [2] = 0 ∧
    s'.free [1] = 19000000000000 ∧ s'.reserved [1] = 1000000000000 ∧
    (ddispatch s' (.signed [1]) (.refundSubmission .collective 0)).isNone = true :=
  ⟨_, _, rfl, rfl, rfl, rfl, rfl, rfl, rfl, rfl, rfl, rfl⟩

/-- Killing the proposal while it is ongoing gives eleven units to the treasury. -/
example : ∃ s', ddispatch Demo.proposed (.custom .referendumKiller) (.kill .collective 0) = some s' ∧
    s'.free treasuryAccount = 11000000000000 ∧ wealth s' [1] = 19000000000000 ∧ wealth s' [2] = 10000000000000 :=
  ⟨_, rfl, by decide +kernel, by decide +kernel, by decide +kernel⟩

/-- A cancelled one: both come back. -/
example : ∃ s1 s2 s3, ddispatch Demo.proposed (.custom .referendumCanceller) (.cancel .collective 0) = some s1 ∧
    ddispatch s1 (.signed [7]) (.refundSubmission .collective 0) = some s2 ∧
    ddispatch s2 (.signed [7]) (.refundDecision .collective 0) = some s3 ∧
    s3.free [1] = 20000000000000 ∧ s3.free [2] = 20000000000000 ∧ s3.reserved [1] = 0 ∧ s3.reserved [2] = 0 :=
  ⟨_, _, _, rfl, rfl, rfl, rfl, rfl, rfl, rfl⟩

end Verif.Governance
