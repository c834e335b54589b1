import Verif.Runtime.Multisig

/-!
# A multisig acts only when enough of its signatories agree (C155)
-/

namespace Verif.Runtime.Multi

variable {A H : Type} [LinearOrder A] [DecidableEq H]

/-! ## Specification -/

/-- The account agreed to the call since the last time it was executed or cancelled. Specification only, no code behind it
(outside /repo). -/
def Agreed (id : A) (h : H) (a : A) : List (Entry A H) → Prop
  | [] => False
  | .agreed who id' h' :: l => (who = a ∧ id' = id ∧ h' = h) ∨ Agreed id h a l
  | .executed id' h' :: l => ¬ (id' = id ∧ h' = h) ∧ Agreed id h a l
  | .cancelled id' h' :: l => ¬ (id' = id ∧ h' = h) ∧ Agreed id h a l

/-- No other signatories and threshold share the account. Specification only, no code behind it (outside /repo). -/
def Own (acc : Ids A) (S : List A) (t : Nat) : Prop := ∀ S' t', acc S' t' = acc S t → S' = S ∧ t' = t

/-- The deposits of the open operations an account started. Specification only, no code behind it (outside /repo). -/
def deposits (ops : List ((A × H) × Op A)) (a : A) : Nat :=
  (ops.map fun e => if e.2.depositor = a then e.2.deposit else 0).sum

/-! ## Lemmas -/

theorem lookup_drop (ops : List ((A × H) × Op A)) (id id' : A) (h h' : H) :
    (drop ops id h).lookup (id', h') = if (id', h') = (id, h) then none else ops.lookup (id', h') := by
  induction ops with
  | nil => simp [drop]
  | cons e l ih =>
    obtain ⟨k, m⟩ := e
    simp only [drop] at ih ⊢
    by_cases hk : k = (id, h)
    · rw [List.filter_cons_of_neg (by simp [hk]), ih]
      split
      · rfl
      · rename_i hne
        rw [List.lookup_cons, hk]
        have : ((id', h') == (id, h)) = false := by simpa using hne
        rw [this]
    · rw [List.filter_cons_of_pos (by simp [hk]), List.lookup_cons, List.lookup_cons, ih]
      by_cases hk' : (id', h') = k
      · have : ((id', h') == k) = true := by simpa using hk'
        have hne : ¬ (id', h') = (id, h) := by rw [hk']; exact hk
        simp only [this, if_neg hne]
      · have : ((id', h') == k) = false := by simpa using hk'
        rw [this]

theorem lookup_put (ops : List ((A × H) × Op A)) (id id' : A) (h h' : H) (m : Op A) :
    (put ops id h m).lookup (id', h') = if (id', h') = (id, h) then some m else ops.lookup (id', h') := by
  rw [put, List.lookup_cons, lookup_drop]
  by_cases hk : (id', h') = (id, h)
  · have : ((id', h') == (id, h)) = true := by simpa using hk
    simp only [this, if_pos hk]
  · have : ((id', h') == (id, h)) = false := by simpa using hk
    rw [this, if_neg hk]
    simp [hk]

theorem insertApproval_perm (who : A) (l : List A) : (insertApproval who l).Perm (who :: l) := by
  induction l with
  | nil => exact List.Perm.refl _
  | cons x l ih =>
    simp only [insertApproval]
    split
    · exact List.Perm.refl _
    · exact (ih.cons x).trans (List.Perm.swap _ _ _)

theorem sortedInsert_perm {who : A} : ∀ {l S : List A}, sortedInsert who l = some S → S.Perm (who :: l) ∧ who ∉ l
  | [], S, h => by cases h; simp
  | [x], S, h => by
    simp only [sortedInsert] at h
    split at h
    · cases h
    · rename_i hx
      have hw : who ∉ [x] := by simpa using fun e => hx e.symm
      split at h <;> cases h
      · exact ⟨List.Perm.swap _ _ _, hw⟩
      · exact ⟨List.Perm.refl _, hw⟩
  | x :: y :: l, S, h => by
    simp only [sortedInsert] at h
    split at h
    · cases h
    · split at h
      · cases h
      · rename_i hx
        split at h
        · obtain ⟨S', h1, rfl⟩ := Option.map_eq_some_iff.1 h
          obtain ⟨h2, h3⟩ := sortedInsert_perm h1
          refine ⟨(h2.cons x).trans (List.Perm.swap _ _ _), ?_⟩
          intro hw
          rcases List.mem_cons.1 hw with e | hw
          · exact hx e.symm
          · exact h3 hw
        · split at h
          · cases h
          · rename_i h1
            cases h
            obtain ⟨-, h3⟩ := sortedInsert_perm h1
            refine ⟨List.Perm.refl _, ?_⟩
            intro hw
            rcases List.mem_cons.1 hw with e | hw
            · exact hx e.symm
            · exact h3 hw

theorem signatories_perm {who : A} {t : Nat} {others S : List A} (h : signatories who t others = some S) :
    S.Perm (who :: others) ∧ 2 ≤ t := by
  unfold signatories at h
  obtain ⟨h1, h2⟩ := Option.ite_none_right_eq_some.1 h
  exact ⟨(sortedInsert_perm h2).1, h1.1⟩

/-- What is known of the operations that are open. -/
structure Inv (acc : Ids A) (s : St A H) : Prop where
  ok : ∀ S t h m, Own acc S t → s.get (acc S t) h = some m →
    m.approvals.Nodup ∧ ∀ a ∈ m.approvals, a ∈ S ∧ Agreed (acc S t) h a s.log
  keys : (s.ops.map Prod.fst).Nodup
  money : ∀ a, s.reserved a = deposits s.ops a

theorem drop_keys {ops : List ((A × H) × Op A)} (hk : (ops.map Prod.fst).Nodup) (id : A) (h : H) :
    ((drop ops id h).map Prod.fst).Nodup :=
  hk.sublist (List.Sublist.map _ List.filter_sublist)

theorem put_keys {ops : List ((A × H) × Op A)} (hk : (ops.map Prod.fst).Nodup) (id : A) (h : H) (m : Op A) :
    ((put ops id h m).map Prod.fst).Nodup := by
  rw [put, List.map_cons, List.nodup_cons]
  refine ⟨?_, drop_keys hk id h⟩
  intro hm
  obtain ⟨e, he, h1⟩ := List.mem_map.1 hm
  have := (List.mem_filter.1 he).2
  simp [h1] at this

theorem deposits_drop {ops : List ((A × H) × Op A)} (hk : (ops.map Prod.fst).Nodup) {id : A} {h : H} (a : A) :
    deposits ops a = deposits (drop ops id h) a +
      match ops.lookup (id, h) with
      | some m => if m.depositor = a then m.deposit else 0
      | none => 0 := by
  induction ops with
  | nil => rfl
  | cons e l ih =>
    obtain ⟨k, m⟩ := e
    rw [List.map_cons, List.nodup_cons] at hk
    by_cases hkk : k = (id, h)
    · have hl : drop l id h = l := by
        apply List.filter_eq_self.2
        intro e he
        have : e.1 ≠ (id, h) := fun e1 => hk.1 (List.mem_map.2 ⟨e, he, by rw [e1, hkk]⟩)
        simpa using this
      have hd : drop ((k, m) :: l) id h = l := by
        rw [drop, List.filter_cons_of_neg (by simp [hkk])]
        exact hl
      rw [hd, List.lookup_cons, hkk]
      simp only [beq_self_eq_true, deposits, List.map_cons, List.sum_cons]
      omega
    · have hd : drop ((k, m) :: l) id h = (k, m) :: drop l id h := by
        rw [drop, List.filter_cons_of_pos (by simp [hkk])]
        rfl
      have hb : ((id, h) == k) = false := by
        simpa using fun e1 => hkk e1.symm
      rw [hd, List.lookup_cons, hb]
      have := ih hk.2
      simp only [deposits, List.map_cons, List.sum_cons] at this ⊢
      omega

theorem deposits_put {ops : List ((A × H) × Op A)} {id : A} {h : H} {m : Op A} (a : A) :
    deposits (put ops id h m) a = (if m.depositor = a then m.deposit else 0) + deposits (drop ops id h) a := by
  simp only [put, deposits, List.map_cons, List.sum_cons]

omit [LinearOrder A] [DecidableEq H] in
theorem agreed_cons {id id' : A} {h h' : H} {a who : A} {l : List (Entry A H)} (hl : Agreed id h a l) :
    Agreed id h a (.agreed who id' h' :: l) := Or.inr hl

/-- The ways an operation changes. -/
inductive Move (acc : Ids A) (s s' : St A H) (d : Bool) (e : Env A) (c : Cmd A H) : Prop
  | opened (S others : List A) (t : Nat) (h : H) (who : A) (call : Bool) (hc : c = .operate who t others none h call)
      (hp : S.Perm (who :: others)) (hS : who ∈ S) (ht : 2 ≤ t) (hn : s.get (acc S t) h = none)
      (hr : e.canReserve who (depositFor e.cents t) = true)
      (h' : s' = ⟨put s.ops (acc S t) h ⟨e.now, depositFor e.cents t, who, [who]⟩,
        reserve s.reserved who (depositFor e.cents t), .agreed who (acc S t) h :: s.log⟩) (hd : d = false)
  | joined (S others : List A) (t : Nat) (h : H) (who : A) (m : Op A) (call : Bool)
      (hc : c = .operate who t others (some m.when_) h call) (hp : S.Perm (who :: others)) (hS : who ∈ S) (ht : 2 ≤ t)
      (hn : s.get (acc S t) h = some m) (hw : who ∉ m.approvals)
      (h' : s' = ⟨put s.ops (acc S t) h { m with approvals := insertApproval who m.approvals }, s.reserved,
        .agreed who (acc S t) h :: s.log⟩) (hd : d = false)
  | ran (S others : List A) (t : Nat) (h : H) (who : A) (m : Op A) (hc : c = .operate who t others (some m.when_) h true)
      (hp : S.Perm (who :: others)) (hS : who ∈ S) (ht : 2 ≤ t)
      (hn : s.get (acc S t) h = some m)
      (hw : t ≤ m.approvals.length ∨ (who ∉ m.approvals ∧ t ≤ m.approvals.length + 1))
      (h' : s' = ⟨drop s.ops (acc S t) h, unreserve s.reserved m.depositor m.deposit,
        .executed (acc S t) h :: .agreed who (acc S t) h :: s.log⟩) (hd : d = true)
  | gaveUp (S others : List A) (t : Nat) (h : H) (m : Op A) (hc : c = .cancel m.depositor t others m.when_ h)
      (hp : S.Perm (m.depositor :: others)) (hn : s.get (acc S t) h = some m)
      (h' : s' = ⟨drop s.ops (acc S t) h, unreserve s.reserved m.depositor m.deposit,
        .cancelled (acc S t) h :: s.log⟩) (hd : d = false)

theorem step_move {acc : Ids A} {s s' : St A H} {e : Env A} {c : Cmd A H} {d : Bool} (hs : step acc s e c = some (s', d)) :
    Move acc s s' d e c := by
  cases c with
  | operate who t others tp h call =>
    simp only [step, operate] at hs
    cases hS : signatories who t others with
    | none => rw [hS] at hs; cases hs
    | some S =>
      rw [hS] at hs
      dsimp only at hs
      obtain ⟨hp, ht⟩ := signatories_perm hS
      have hw : who ∈ S := hp.symm.subset (List.mem_cons_self)
      cases hm : s.get (acc S t) h with
      | none =>
        rw [hm] at hs
        obtain ⟨h1, h2⟩ := Option.ite_none_right_eq_some.1 hs
        cases h2
        obtain ⟨rfl, h1⟩ := h1
        exact .opened S others t h who call rfl hp hw ht hm h1 rfl rfl
      | some m =>
        rw [hm] at hs
        dsimp only [advance] at hs
        obtain ⟨htp, hs1⟩ := Option.ite_none_right_eq_some.1 hs
        clear hs
        have hs := hs1
        clear hs1
        subst htp
        by_cases hnew : who ∉ m.approvals ∧ m.approvals.length < t
        · rw [decide_eq_true hnew] at hs
          simp only [if_true] at hs
          split at hs
          · rename_i hc
            obtain ⟨-, h2⟩ := Option.ite_none_right_eq_some.1 hs
            cases h2
            obtain ⟨rfl, hc⟩ := hc
            exact .ran S others t h who m rfl hp hw ht hm (Or.inr ⟨hnew.1, hc⟩) rfl rfl
          · obtain ⟨-, h2⟩ := Option.ite_none_right_eq_some.1 hs
            cases h2
            exact .joined S others t h who m call rfl hp hw ht hm hnew.1 rfl rfl
        · rw [decide_eq_false hnew] at hs
          simp only [Bool.false_eq_true, if_false] at hs
          split at hs
          · rename_i hc
            obtain ⟨-, h2⟩ := Option.ite_none_right_eq_some.1 hs
            cases h2
            obtain ⟨rfl, hc⟩ := hc
            exact .ran S others t h who m rfl hp hw ht hm (Or.inl hc) rfl rfl
          · cases hs
  | cancel who t others tp h =>
    simp only [step, cancelOp] at hs
    cases hS : signatories who t others with
    | none => rw [hS] at hs; cases hs
    | some S =>
      rw [hS] at hs
      dsimp only at hs
      cases hm : s.get (acc S t) h with
      | none => rw [hm] at hs; cases hs
      | some m =>
        rw [hm] at hs
        obtain ⟨⟨h1, h1'⟩, h2⟩ := Option.ite_none_right_eq_some.1 hs
        cases h2
        subst h1 h1'
        exact .gaveUp S others t h m rfl (signatories_perm hS).1 hm rfl rfl

theorem Inv.after {acc : Ids A} {s s' : St A H} {e : Env A} {c : Cmd A H} {d : Bool} (hi : Inv acc s) (hm : Move acc s s' d e c) :
    Inv acc s' := by
  have hdrop : ∀ {S : List A} {t : Nat} {h : H} {m : Op A} {r : A → Nat} {l : List (Entry A H)},
      s.get (acc S t) h = some m → r = unreserve s.reserved m.depositor m.deposit →
      (∀ S' t' h' a, (acc S' t', h') ≠ (acc S t, h) → Agreed (acc S' t') h' a s.log → Agreed (acc S' t') h' a l) →
      Inv acc ⟨drop s.ops (acc S t) h, r, l⟩ := by
    intro S t h m r l hm hr hl
    refine ⟨fun S' t' h' m' ho hg => ?_, drop_keys hi.keys _ _, fun a => ?_⟩
    · simp only [St.get, lookup_drop] at hg
      obtain ⟨hne, hg⟩ := Option.ite_none_left_eq_some.1 hg
      obtain ⟨h1, h2⟩ := hi.ok S' t' h' m' ho hg
      exact ⟨h1, fun a ha => ⟨(h2 a ha).1, hl _ _ _ _ hne (h2 a ha).2⟩⟩
    · have h1 := hi.money a
      have h2 := deposits_drop hi.keys (id := acc S t) (h := h) a
      have hm' : s.ops.lookup (acc S t, h) = some m := hm
      rw [hm'] at h2
      subst hr
      simp only [unreserve]
      by_cases ha : a = m.depositor
      · rw [if_pos ha]
        simp only [ha, if_true] at h1 h2 ⊢
        omega
      · rw [if_neg ha]
        have ha' : ¬ m.depositor = a := fun e => ha e.symm
        simp only [if_neg ha'] at h2
        omega
  cases hm with
  | opened S others t h who call hc hp hS ht hn hr h' hd =>
    subst h'
    refine ⟨fun S' t' h' m' ho hg => ?_, put_keys hi.keys _ _ _, fun a => ?_⟩
    · simp only [St.get, lookup_put] at hg
      split at hg
      · rename_i he
        cases hg
        obtain ⟨he1, he2⟩ := Prod.mk.inj he
        obtain ⟨rfl, rfl⟩ := ho _ _ he1.symm
        subst he2
        refine ⟨by simp, fun a ha => ?_⟩
        rw [List.mem_singleton] at ha
        subst ha
        exact ⟨hS, Or.inl ⟨rfl, rfl, rfl⟩⟩
      · obtain ⟨h1, h2⟩ := hi.ok S' t' h' m' ho hg
        exact ⟨h1, fun a ha => ⟨(h2 a ha).1, agreed_cons (h2 a ha).2⟩⟩
    · have h1 := hi.money a
      have h2 := deposits_drop hi.keys (id := acc S t) (h := h) a
      have hm' : s.ops.lookup (acc S t, h) = none := hn
      rw [hm'] at h2
      rw [deposits_put]
      simp only [reserve]
      by_cases ha : a = who
      · rw [if_pos ha, if_pos ha.symm]
        simp only at h2
        omega
      · rw [if_neg ha, if_neg (fun e => ha e.symm)]
        simp only at h2
        omega
  | joined S others t h who m call hc hp hS ht hn hw h' hd =>
    subst h'
    refine ⟨fun S' t' h' m' ho hg => ?_, put_keys hi.keys _ _ _, fun a => ?_⟩
    · simp only [St.get, lookup_put] at hg
      split at hg
      · rename_i he
        cases hg
        obtain ⟨he1, he2⟩ := Prod.mk.inj he
        obtain ⟨rfl, rfl⟩ := ho _ _ he1.symm
        subst he2
        obtain ⟨h1, h2⟩ := hi.ok _ _ _ _ ho hn
        have hp := insertApproval_perm who m.approvals
        refine ⟨hp.nodup_iff.2 (List.nodup_cons.2 ⟨hw, h1⟩), fun a ha => ?_⟩
        rcases List.mem_cons.1 (hp.subset ha) with rfl | ha
        · exact ⟨hS, Or.inl ⟨rfl, rfl, rfl⟩⟩
        · exact ⟨(h2 a ha).1, agreed_cons (h2 a ha).2⟩
      · obtain ⟨h1, h2⟩ := hi.ok S' t' h' m' ho hg
        exact ⟨h1, fun a ha => ⟨(h2 a ha).1, agreed_cons (h2 a ha).2⟩⟩
    · have h1 := hi.money a
      have h2 := deposits_drop hi.keys (id := acc S t) (h := h) a
      have hm' : s.ops.lookup (acc S t, h) = some m := hn
      rw [hm'] at h2
      rw [deposits_put]
      simp only at h2 ⊢
      omega
  | ran S others t h who m hc hp hS ht hn hw h' hd =>
    subst h'
    refine hdrop hn rfl (fun S' t' h' a hne hl => ⟨fun he => hne ?_, agreed_cons hl⟩)
    rw [he.1, he.2]
  | gaveUp S others t h m hc hp hn h' hd =>
    subst h'
    refine hdrop hn rfl (fun S' t' h' a hne hl => ⟨fun he => hne ?_, hl⟩)
    rw [he.1, he.2]

theorem Inv.of_reach {acc : Ids A} {s : St A H} (hr : Reach acc s) : Inv acc s := by
  induction hr with
  | start => exact ⟨(fun _ _ _ _ _ h => nomatch h), List.nodup_nil, fun _ => rfl⟩
  | step _ hs ih => exact ih.after (step_move hs)

/-! ## C155 -/

/-- C155: a multisig's account acts only when somebody among its signatories asks for it with the call at hand, and at least as
many different signatories as its threshold says agreed to that call since it was last executed or cancelled, counting the one who
asks. Assumes that no other signatories and threshold hash to the same account. -/
theorem C155_threshold {acc : Ids A} {s s' : St A H} {e : Env A} {c : Cmd A H} (hr : Reach acc s)
    (hs : step acc s e c = some (s', true)) :
    ∃ who t others tp h S, c = .operate who t others tp h true ∧ 2 ≤ t ∧ S.Perm (who :: others) ∧
      (s'.log = .executed (acc S t) h :: .agreed who (acc S t) h :: s.log) ∧
      (Own acc S t → ∃ l : List A, l.Nodup ∧ t ≤ l.length ∧
        ∀ a ∈ l, a ∈ S ∧ (a = who ∨ Agreed (acc S t) h a s.log)) := by
  have hi := Inv.of_reach hr
  cases step_move hs with
  | opened S others t h who call hc hp hS ht hn hr h' hd => cases hd
  | joined S others t h who m call hc hp hS ht hn hw h' hd => cases hd
  | gaveUp S others t h m hc hp hn h' hd => cases hd
  | ran S others t h who m hc hp hS ht hn hw h' hd =>
    refine ⟨who, t, others, some m.when_, h, S, hc, ht, hp, by rw [h'], fun ho => ?_⟩
    obtain ⟨h1, h2⟩ := hi.ok S t h m ho hn
    rcases hw with hw | ⟨hw1, hw2⟩
    · exact ⟨m.approvals, h1, hw, fun a ha => ⟨(h2 a ha).1, Or.inr (h2 a ha).2⟩⟩
    · refine ⟨who :: m.approvals, List.nodup_cons.2 ⟨hw1, h1⟩, hw2, fun a ha => ?_⟩
      rcases List.mem_cons.1 ha with rfl | ha
      · exact ⟨hS, Or.inl rfl⟩
      · exact ⟨(h2 a ha).1, Or.inr (h2 a ha).2⟩

/-- C155: what the pallet holds of an account is always the deposits of the operations the account started and that are still
open, and nothing else. -/
theorem C155_deposits {acc : Ids A} {s : St A H} (hr : Reach acc s) (a : A) : s.reserved a = deposits s.ops a :=
  (Inv.of_reach hr).money a

/-- C155: an operation that is executed or cancelled is no longer open, and its deposit goes back, whole, to the one who started
it; only that account can cancel it. -/
theorem C155_closed {acc : Ids A} {s s' : St A H} {e : Env A} {c : Cmd A H} {d : Bool} {id : A} {h : H} {m : Op A}
    (hr : Reach acc s) (hs : step acc s e c = some (s', d)) (hm : s.get id h = some m) (hc : s'.get id h = none) :
    (∀ a, s'.reserved a + (if a = m.depositor then m.deposit else 0) = s.reserved a) ∧
      (d = true ∨ ∃ t others, c = .cancel m.depositor t others m.when_ h) := by
  have hi := Inv.of_reach hr
  have hmoney : ∀ a, unreserve s.reserved m.depositor m.deposit a + (if a = m.depositor then m.deposit else 0) =
      s.reserved a := by
    intro a
    simp only [unreserve]
    have h1 := hi.money a
    have h2 := deposits_drop hi.keys (id := id) (h := h) a
    have hm' : s.ops.lookup (id, h) = some m := hm
    rw [hm'] at h2
    by_cases ha : a = m.depositor
    · simp only [ha, if_true] at h1 h2 ⊢
      omega
    · simp only [if_neg ha]
      rfl
  cases step_move hs with
  | opened S others t h' who call hc' hp hS ht hn hr h'' hd =>
    subst h''
    simp only [St.get, lookup_put] at hc
    split at hc
    · cases hc
    · exact absurd (hm.symm.trans hc) (by simp)
  | joined S others t h' who m' call hc' hp hS ht hn hw h'' hd =>
    subst h''
    simp only [St.get, lookup_put] at hc
    split at hc
    · cases hc
    · exact absurd (hm.symm.trans hc) (by simp)
  | ran S others t h' who m' hc' hp hS ht hn hw h'' hd =>
    subst h''
    simp only [St.get, lookup_drop] at hc
    split at hc
    · rename_i he
      obtain ⟨rfl, rfl⟩ := Prod.mk.inj he
      obtain rfl := Option.some.inj (hn.symm.trans hm)
      exact ⟨hmoney, Or.inl hd⟩
    · exact absurd (hm.symm.trans hc) (by simp)
  | gaveUp S others t h' m' hc' hp hn h'' hd =>
    subst h''
    simp only [St.get, lookup_drop] at hc
    split at hc
    · rename_i he
      obtain ⟨rfl, rfl⟩ := Prod.mk.inj he
      obtain rfl := Option.some.inj (hn.symm.trans hm)
      exact ⟨hmoney, Or.inr ⟨t, others, hc'⟩⟩
    · exact absurd (hm.symm.trans hc) (by simp)

/-- C155: the agreement of one signatory less than the threshold is enough: another one who names the others in order, the
operation's time and enough weight gets the call executed. -/
theorem C155_executes {acc : Ids A} {s : St A H} {e : Env A} {who : A} {t : Nat} {others S : List A} {h : H} {m : Op A}
    (hS : signatories who t others = some S) (hm : s.get (acc S t) h = some m) (hw : who ∉ m.approvals)
    (ht : t ≤ m.approvals.length + 1) (he : e.weightOk = true) :
    ∃ s', step acc s e (.operate who t others (some m.when_) h true) = some (s', true) ∧ s'.get (acc S t) h = none := by
  have hadv : ∃ s', advance s e (acc S t) who t (some m.when_) h true m = some (s', true) ∧ s'.get (acc S t) h = none := by
    unfold advance
    rw [if_pos rfl]
    have ha : t ≤ if decide (who ∉ m.approvals ∧ m.approvals.length < t) = true then m.approvals.length + 1
        else m.approvals.length := by
      by_cases hl : m.approvals.length < t
      · rw [if_pos (by simpa using ⟨hw, hl⟩)]
        exact ht
      · rw [if_neg (by simp [hl])]
        omega
    dsimp only
    rw [if_pos ⟨rfl, ha⟩, if_pos he]
    exact ⟨_, rfl, by simp [St.get, lookup_drop]⟩
  obtain ⟨s', h1, h2⟩ := hadv
  refine ⟨s', ?_, h2⟩
  simp only [step, operate, hS, hm]
  exact h1

/-! A multisig of three accounts with threshold two. -/

/-- Example for non-vacuity (outside /repo). -/
def exAcc : Ids Nat := fun S t => if S = [1, 2, 3] ∧ t = 2 then 100 else 200

/-- Example for non-vacuity (outside /repo). -/
def exEnv : Env Nat := ⟨1000000, ⟨7, 2⟩, fun _ _ => true, true⟩

/-- Example for non-vacuity (outside /repo). -/
def exSt : St Nat String :=
  ⟨[((100, "call"), ⟨⟨7, 2⟩, depositFor 1000000 2, 1, [1]⟩)], fun a => if a = 1 then 0 + depositFor 1000000 2 else 0,
    [.agreed 1 100 "call"]⟩

theorem exSt_reach : Reach exAcc exSt :=
  .step (e := exEnv) (c := .operate 1 2 [2, 3] none "call" true) (d := false) .start rfl

example : Own exAcc [1, 2, 3] 2 := by
  intro S' t' h
  have h2 : exAcc [1, 2, 3] 2 = 100 := rfl
  rw [h2] at h
  unfold exAcc at h
  split at h
  · assumption
  · cases h

example : ∃ s', step exAcc exSt exEnv (.operate 3 2 [1, 2] (some ⟨7, 2⟩) "call" true) = some (s', true) ∧
    s'.get 100 "call" = none :=
  C155_executes (acc := exAcc) (S := [1, 2, 3]) (m := ⟨⟨7, 2⟩, depositFor 1000000 2, 1, [1]⟩) (by decide) (by rfl) (by decide)
    (by decide) rfl

/-- The first signatory alone does not get the call executed, whatever they repeat. -/
example : (step exAcc exSt exEnv (.operate 1 2 [2, 3] (some ⟨7, 2⟩) "call" true)).isNone ∧
    (step exAcc exSt exEnv (.cancel 2 2 [1, 3] ⟨7, 2⟩ "call")).isNone ∧
    (step exAcc exSt exEnv (.operate 3 2 [2, 1] (some ⟨7, 2⟩) "call" true)).isNone := by decide +kernel

example : exSt.reserved 1 = depositFor 1000000 2 ∧ depositFor 1000000 2 = 20152000 := by decide +kernel

end Verif.Runtime.Multi
