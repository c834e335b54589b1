import Verif.Runtime.MultisigTheorems

/-!
# Who the signatories of a multisig can be, and a round of approvals from its start to the execution

See Verif.Runtime.Multisig; runtime/kreivo/src/lib.rs 476-492.
-/

namespace Verif.Runtime.Multi

variable {A H : Type} [LinearOrder A] [DecidableEq H]

/-! ## Specification -/

/-- Signatories approve, one after another, the operation begun at `tp`; each names the others, and gives the call or just its
hash. `none` if a call fails or the multisig acts already. Specification only, no code behind it (outside /repo). -/
def approveAll (acc : Ids A) (S : List A) (t : Nat) (tp : Timepoint) (h : H) : St A H → List (A × Env A × Bool) → Option (St A H)
  | s, [] => some s
  | s, (a, e, call) :: l =>
    match step acc s e (.operate a t (S.erase a) (some tp) h call) with
    | some (s', false) => approveAll acc S t tp h s' l
    | _ => none

/-! ## Lemmas -/

theorem sortedInsert_iff {who : A} : ∀ {l S : List A},
    sortedInsert who l = some S ↔ S.Pairwise (· < ·) ∧ who ∈ S ∧ l = S.erase who := by
  have key : ∀ {l S : List A}, sortedInsert who l = some S → l.Pairwise (· < ·) ∧ S.Pairwise (· < ·) := by
    intro l
    induction l with
    | nil =>
      intro S h
      cases h
      exact ⟨.nil, List.pairwise_singleton _ _⟩
    | cons x l ih =>
      cases l with
      | nil =>
        intro S h
        simp only [sortedInsert] at h
        refine ⟨List.pairwise_singleton _ _, ?_⟩
        split at h
        · cases h
        · rename_i hne
          split at h
          · rename_i hlt
            cases h
            simpa using hlt
          · rename_i hlt
            cases h
            have : who < x := lt_of_le_of_ne (not_lt.1 hlt) (Ne.symm hne)
            simpa using this
      | cons y l =>
        intro S h
        simp only [sortedInsert] at h
        split at h
        · cases h
        rename_i hxy
        have hxy : x < y := not_not.1 hxy
        split at h
        · cases h
        rename_i hne
        split at h
        · rename_i hlt
          obtain ⟨S', h1, h2⟩ := Option.map_eq_some_iff.1 h
          obtain ⟨hp, hs⟩ := ih h1
          have hperm := (sortedInsert_perm h1).1
          subst h2
          have hx : ∀ z ∈ y :: l, x < z := fun z hz => by
            rcases List.mem_cons.1 hz with rfl | hz
            · exact hxy
            · exact lt_trans hxy ((List.pairwise_cons.1 hp).1 z hz)
          refine ⟨List.pairwise_cons.2 ⟨hx, hp⟩, List.pairwise_cons.2 ⟨fun z hz => ?_, hs⟩⟩
          rcases List.mem_cons.1 (hperm.mem_iff.1 hz) with rfl | hz
          · exact hlt
          · exact hx z hz
        · rename_i hlt
          have hw : who < x := lt_of_le_of_ne (not_lt.1 hlt) (Ne.symm hne)
          split at h
          · cases h
          rename_i S' h1
          cases h
          obtain ⟨hp, -⟩ := ih h1
          have hx : ∀ z ∈ y :: l, x < z := fun z hz => by
            rcases List.mem_cons.1 hz with rfl | hz
            · exact hxy
            · exact lt_trans hxy ((List.pairwise_cons.1 hp).1 z hz)
          have hl : (x :: y :: l).Pairwise (· < ·) := List.pairwise_cons.2 ⟨hx, hp⟩
          refine ⟨hl, List.pairwise_cons.2 ⟨fun z hz => ?_, hl⟩⟩
          rcases List.mem_cons.1 hz with rfl | hz
          · exact hw
          · exact lt_trans hw (hx z hz)
  have ok : ∀ {l : List A}, l.Pairwise (· < ·) → who ∉ l → ∃ S, sortedInsert who l = some S := by
    intro l
    induction l with
    | nil => intro _ _; exact ⟨_, rfl⟩
    | cons x l ih =>
      cases l with
      | nil =>
        intro _ hn
        have hne : x ≠ who := fun hx => hn (by simp [hx])
        simp only [sortedInsert, if_neg hne]
        split <;> exact ⟨_, rfl⟩
      | cons y l =>
        intro hp hn
        have hne : x ≠ who := fun hx => hn (by simp [hx])
        have hxy : x < y := (List.pairwise_cons.1 hp).1 y (by simp)
        obtain ⟨S', h1⟩ := ih (List.pairwise_cons.1 hp).2 (fun h => hn (List.mem_cons_of_mem _ h))
        simp only [sortedInsert, h1, if_neg hne, if_neg (not_not.2 hxy)]
        split <;> exact ⟨_, rfl⟩
  intro l S
  constructor
  · intro h
    obtain ⟨hl, hs⟩ := key h
    obtain ⟨hperm, hn⟩ := sortedInsert_perm h
    refine ⟨hs, hperm.mem_iff.2 (by simp), ?_⟩
    have h2 : (S.erase who).Perm l := by simpa using hperm.erase who
    exact h2.symm.eq_of_pairwise (fun a b _ _ h1 h2 => absurd h2 (lt_asymm h1)) hl (hs.sublist List.erase_sublist)
  · rintro ⟨hs, hw, rfl⟩
    have hd : S.Nodup := hs.imp (fun h => ne_of_lt h)
    obtain ⟨S', h1⟩ := ok (hs.sublist (List.erase_sublist (a := who))) (fun h => (hd.not_mem_erase) h)
    obtain ⟨-, hs'⟩ := key h1
    have hp : S'.Perm S := (sortedInsert_perm h1).1.trans (List.perm_cons_erase hw).symm
    rw [h1, hp.eq_of_pairwise (fun a b _ _ h1 h2 => absurd h2 (lt_asymm h1)) hs' hs]

/-! ## C155 -/

/-- C155: two to a hundred different accounts, in order, are the signatories of a multisig, with any threshold of two or more, for
each of them who names the others; and there are no other signatories. -/
theorem C155_signatories {who : A} {t : Nat} {others S : List A} :
    signatories who t others = some S ↔
      2 ≤ t ∧ S.Pairwise (· < ·) ∧ 2 ≤ S.length ∧ S.length ≤ 100 ∧ who ∈ S ∧ others = S.erase who := by
  have h100 : maxSignatories = 100 := rfl
  unfold signatories
  constructor
  · intro h
    split at h
    · rename_i hc
      obtain ⟨h1, h2, h3⟩ := sortedInsert_iff.1 h
      have hl := List.length_erase_of_mem h2
      rw [← h3] at hl
      have hpos : 0 < S.length := List.length_pos_of_mem h2
      have h0 : others.length ≠ 0 := fun h0 => hc.2.1 (List.length_eq_zero_iff.1 h0)
      exact ⟨hc.1, h1, by omega, by omega, h2, h3⟩
    · cases h
  · rintro ⟨ht, hp, h2, h3, hw, rfl⟩
    have hl := List.length_erase_of_mem hw
    rw [if_pos ⟨ht, fun h0 => by rw [h0] at hl; simp at hl; omega, by omega⟩]
    exact sortedInsert_iff.2 ⟨hp, hw, rfl⟩

theorem approve_one {acc : Ids A} {s : St A H} {S : List A} {t : Nat} {h : H} {m : Op A} {a : A} {e : Env A} {call : Bool}
    (hS : signatories a t (S.erase a) = some S) (hm : s.get (acc S t) h = some m) (ha : a ∉ m.approvals)
    (hl : m.approvals.length + 1 < t) (ht : t ≤ 100) :
    ∃ s' m', step acc s e (.operate a t (S.erase a) (some m.when_) h call) = some (s', false) ∧
      s'.get (acc S t) h = some m' ∧ m'.when_ = m.when_ ∧ m'.approvals.Perm (a :: m.approvals) := by
  have h100 : maxSignatories = 100 := rfl
  refine ⟨⟨put s.ops (acc S t) h { m with approvals := insertApproval a m.approvals }, s.reserved,
    .agreed a (acc S t) h :: s.log⟩, { m with approvals := insertApproval a m.approvals }, ?_, ?_, rfl,
    insertApproval_perm a m.approvals⟩
  · have hnew : decide (a ∉ m.approvals ∧ m.approvals.length < t) = true := by simpa using ⟨ha, by omega⟩
    simp only [step, operate, hS, hm]
    unfold advance
    rw [if_pos rfl, hnew]
    simp only [if_true]
    rw [if_neg (fun h => by omega), if_pos (by omega)]
  · simp [St.get, lookup_put]

theorem approve_all {acc : Ids A} {S : List A} {t : Nat} {h : H} (tp : Timepoint) (hp : S.Pairwise (· < ·)) (h2 : 2 ≤ S.length)
    (h3 : S.length ≤ 100) (ht : 2 ≤ t) (htl : t ≤ S.length) : ∀ (l : List (A × Env A × Bool)) (s : St A H) (m : Op A),
    s.get (acc S t) h = some m → m.when_ = tp → (l.map Prod.fst).Nodup → (∀ x ∈ l, x.1 ∈ S ∧ x.1 ∉ m.approvals) →
    m.approvals.length + l.length + 1 ≤ t →
    ∃ s' m', approveAll acc S t tp h s l = some s' ∧ s'.get (acc S t) h = some m' ∧ m'.when_ = tp ∧
      m'.approvals.Perm (l.map Prod.fst ++ m.approvals)
  | [], s, m, hm, hw, _, _, _ => ⟨s, m, rfl, hm, hw, .refl _⟩
  | (a, e, call) :: l, s, m, hm, hw, hd, hin, hlen => by
    obtain ⟨hd1, hd2⟩ := List.nodup_cons.1 hd
    obtain ⟨haS, hna⟩ := hin (a, e, call) (by simp)
    simp only [List.length_cons] at hlen
    obtain ⟨s1, m1, hs1, hm1, hw1, hp1⟩ := approve_one (call := call) (e := e) (acc := acc)
      (C155_signatories.2 ⟨ht, hp, h2, h3, haS, rfl⟩) hm hna (by omega) (by omega)
    have hl1 := hp1.length_eq
    simp only [List.length_cons] at hl1
    obtain ⟨s2, m2, hs2, hm2, hw2, hp2⟩ := approve_all tp hp h2 h3 ht htl l s1 m1 hm1 (hw1.trans hw) hd2
      (fun x hx => ⟨(hin x (by simp [hx])).1, fun hc => by
        rcases List.mem_cons.1 (hp1.mem_iff.1 hc) with h' | h'
        · exact hd1 (h' ▸ List.mem_map_of_mem hx)
        · exact (hin x (by simp [hx])).2 h'⟩) (by omega)
    refine ⟨s2, m2, ?_, hm2, hw2, hp2.trans ?_⟩
    · subst hw
      simp only [approveAll, hs1]
      exact hs2
    · simp only [List.map_cons, List.cons_append]
      exact (List.Perm.append_left _ hp1).trans List.perm_middle

/-- C155: any two to a hundred accounts get a call executed: whichever of them begin, follow and come last, if they are as many as
the threshold says, the first can reserve the deposit and the last gives the call and enough weight, the multisig acts at the
last approval and not before. -/
theorem C155_round {acc : Ids A} {s : St A H} {S : List A} {t : Nat} {h : H} {e0 e1 : Env A} {first last : A} {call : Bool}
    {mid : List (A × Env A × Bool)} (hp : S.Pairwise (· < ·)) (h2 : 2 ≤ S.length) (h3 : S.length ≤ 100)
    (hin : ∀ a ∈ first :: last :: mid.map Prod.fst, a ∈ S) (hd : (first :: last :: mid.map Prod.fst).Nodup)
    (ht : t = mid.length + 2) (hno : s.get (acc S t) h = none)
    (hres : e0.canReserve first (depositFor e0.cents t) = true) (hwt : e1.weightOk = true) :
    ∃ s1 s2 s3, step acc s e0 (.operate first t (S.erase first) none h call) = some (s1, false) ∧
      approveAll acc S t e0.now h s1 mid = some s2 ∧
      step acc s2 e1 (.operate last t (S.erase last) (some e0.now) h true) = some (s3, true) ∧ s3.get (acc S t) h = none := by
  have hn : (first :: last :: mid.map Prod.fst).length ≤ S.length := (List.subperm_of_subset hd hin).length_le
  simp only [List.length_cons, List.length_map] at hn
  obtain ⟨hd1, hd2⟩ := List.nodup_cons.1 hd
  obtain ⟨hd3, hd4⟩ := List.nodup_cons.1 hd2
  have hsig : ∀ a ∈ S, signatories a t (S.erase a) = some S := fun a ha =>
    C155_signatories.2 ⟨by omega, hp, h2, h3, ha, rfl⟩
  obtain ⟨s1, hs1, hg1⟩ : ∃ s1, step acc s e0 (.operate first t (S.erase first) none h call) = some (s1, false) ∧
      s1.get (acc S t) h = some ⟨e0.now, depositFor e0.cents t, first, [first]⟩ := by
    refine ⟨⟨put s.ops (acc S t) h ⟨e0.now, depositFor e0.cents t, first, [first]⟩,
      reserve s.reserved first (depositFor e0.cents t), .agreed first (acc S t) h :: s.log⟩, ?_, ?_⟩
    · simp only [step, operate, hsig first (hin first (by simp)), hno]
      rw [if_pos ⟨trivial, hres⟩]
    · simp [St.get, lookup_put]
  obtain ⟨s2, m2, hs2, hg2, hw2, hp2⟩ := approve_all e0.now hp h2 h3 (t := t) (by omega) (by omega) mid s1 _ hg1 rfl hd4
    (fun x hx => ⟨hin _ (by simp only [List.mem_cons]; exact .inr (.inr (List.mem_map_of_mem hx))), fun hc => by
      rw [List.mem_singleton] at hc
      exact hd1 (List.mem_cons_of_mem _ (hc ▸ List.mem_map_of_mem hx))⟩)
    (by simp only [List.length_singleton]; omega)
  have hl2 := hp2.length_eq
  simp only [List.length_append, List.length_map, List.length_singleton] at hl2
  obtain ⟨s3, hs3, hg3⟩ := C155_executes (acc := acc) (e := e1) (hsig last (hin last (by simp))) hg2
    (fun hc => by
      rcases List.mem_append.1 (hp2.mem_iff.1 hc) with h' | h'
      · exact hd3 h'
      · rw [List.mem_singleton] at h'
        exact hd1 (by simp [h'])) (by omega) hwt
  rw [hw2] at hs3
  exact ⟨s1, s2, s3, hs1, hs2, hs3, hg3⟩

/-- A hundred signatories, all of whom have to agree. -/
example : ∃ s1 s2 s3, step (H := String) (fun _ _ => 1000) .start exEnv
      (.operate 0 100 ((List.range 100).erase 0) none "call" false) = some (s1, false) ∧
    approveAll (fun _ _ => 1000) (List.range 100) 100 ⟨7, 2⟩ "call" s1 ((List.range' 2 98).map fun a => (a, exEnv, false)) =
      some s2 ∧
    step (fun _ _ => 1000) s2 exEnv (.operate 1 100 ((List.range 100).erase 1) (some ⟨7, 2⟩) "call" true) = some (s3, true) ∧
    s3.get 1000 "call" = none :=
  C155_round (acc := fun _ _ => 1000) (e0 := exEnv) List.pairwise_lt_range (by simp) (by simp)
    (by simp [List.mem_range]) (by simp [List.map_map, Function.comp_def]; exact List.nodup_range')
    (by simp) rfl rfl rfl

/-- C155: more is held of an account only when it starts an operation itself, and then one entry, 88 bytes and another 32 bytes
for each approval that is needed. -/
theorem C155_price {acc : Ids A} {s s' : St A H} {e : Env A} {c : Cmd A H} {d : Bool} {a : A}
    (hs : step acc s e c = some (s', d)) (hl : s.reserved a < s'.reserved a) :
    ∃ t others h call, c = .operate a t others none h call ∧ 2 ≤ t ∧
      s'.reserved a = s.reserved a + (Runtime.deposit e.cents 1 88 + t * Runtime.deposit e.cents 0 32) := by
  cases step_move hs with
  | opened S others t h who call hc _ _ ht _ _ h' _ =>
    subst h'
    simp only [reserve] at hl ⊢
    split at hl
    · rename_i ha
      subst ha
      exact ⟨t, others, h, call, hc, ht, if_pos rfl⟩
    · omega
  | joined S others t h who m call hc _ _ _ _ _ h' _ => subst h'; exact absurd hl (lt_irrefl _)
  | ran S others t h who m hc _ _ _ _ _ h' _ =>
    subst h'
    simp only [unreserve] at hl
    split at hl <;> omega
  | gaveUp S others t h m hc _ _ h' _ =>
    subst h'
    simp only [unreserve] at hl
    split at hl <;> omega

example : (step (H := String) exAcc .start exEnv (.operate 1 2 [2, 3] none "call" false)).any fun r =>
    decide ((St.start : St Nat String).reserved 1 < r.1.reserved 1) := by decide +kernel

end Verif.Runtime.Multi
