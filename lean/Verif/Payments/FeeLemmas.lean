import Verif.Payments.Lemmas

/-! # Payments: helper lemmas about fee summaries -/

namespace Verif.Payments

theorem feeTotal_cons (f : Fee) (fs : List Fee) : feeTotal (f :: fs) = f.amt + feeTotal fs := by
  simp [feeTotal]

@[simp] theorem feeTotal_nil : feeTotal [] = 0 := rfl

/-- The aggregated recipients do not depend on the dispute flag. -/
def agg (fees : List Fee) : List Fee := fees.foldl addFee []

theorem foldl_recipients (d : Bool) (fees : List Fee) (acc : Summary) :
    (fees.foldl (summaryStep d) acc).recipients = fees.foldl addFee acc.recipients := by
  induction fees generalizing acc with
  | nil => rfl
  | cons f fs ih => simp only [List.foldl_cons]; rw [ih]; rfl

theorem summary_recipients (d : Bool) (fees : List Fee) : (summary fees d).recipients = agg fees :=
  foldl_recipients d fees _

theorem foldl_totals_false (fees : List Fee) (acc : Summary) (h : acc.discount ≤ BAL_MAX) :
    (fees.foldl (summaryStep false) acc).discount = min (acc.discount + feeTotal fees) BAL_MAX ∧
    (fees.foldl (summaryStep false) acc).ret = acc.ret := by
  induction fees generalizing acc with
  | nil => simp [feeTotal, h]
  | cons f fs ih =>
    simp only [List.foldl_cons]
    have := ih (summaryStep false acc f) (by simp [summaryStep, satAdd])
    rw [this.1, this.2, feeTotal_cons]
    simp only [summaryStep, satAdd]
    refine ⟨?_, by simp⟩
    simp; omega

theorem foldl_totals_true (fees : List Fee) (acc : Summary) (h : acc.discount ≤ BAL_MAX)
    (h' : acc.ret ≤ BAL_MAX) :
    (fees.foldl (summaryStep true) acc).discount = min (acc.discount + feeTotal (chargeable fees)) BAL_MAX ∧
    (fees.foldl (summaryStep true) acc).ret =
      min (acc.ret + feeTotal (fees.filter (fun f => !f.mandatory))) BAL_MAX := by
  induction fees generalizing acc with
  | nil => simp [feeTotal, chargeable, h, h']
  | cons f fs ih =>
    simp only [List.foldl_cons]
    by_cases hm : f.mandatory
    · have := ih (summaryStep true acc f) (by simp [summaryStep, satAdd, hm]) (by simpa [summaryStep, hm])
      rw [this.1, this.2]
      simp only [summaryStep, satAdd, chargeable, hm, List.filter_cons, feeTotal]
      simp; omega
    · have := ih (summaryStep true acc f) (by simpa [summaryStep, hm]) (by simp [summaryStep, satAdd, hm])
      rw [this.1, this.2]
      simp only [summaryStep, satAdd, chargeable, hm, List.filter_cons, feeTotal]
      simp; omega

theorem feeTotal_split (fees : List Fee) :
    feeTotal (chargeable fees) + feeTotal (fees.filter (fun f => !f.mandatory)) = feeTotal fees := by
  induction fees with
  | nil => rfl
  | cons f fs ih =>
    by_cases hm : f.mandatory <;> simp [chargeable, feeTotal, hm] at ih ⊢ <;> omega

theorem summary_false_discount (fees : List Fee) :
    (summary fees false).discount = min (feeTotal fees) BAL_MAX ∧ (summary fees false).ret = 0 := by
  have := foldl_totals_false fees ⟨[], 0, 0⟩ (Nat.zero_le _)
  simpa [summary] using this

theorem summary_true_totals (fees : List Fee) :
    (summary fees true).discount = min (feeTotal (chargeable fees)) BAL_MAX ∧
    (summary fees true).ret = min (feeTotal (fees.filter (fun f => !f.mandatory))) BAL_MAX := by
  have := foldl_totals_true fees ⟨[], 0, 0⟩ (Nat.zero_le _) (Nat.zero_le _)
  simpa [summary] using this

/-- The sender's total hold is the same whatever the dispute flag, saturating or not. -/
theorem holdTotal_eq (p : Payment) (d : Bool) :
    satAdd (satAdd (summary p.fees.senderPays d).discount p.incentive) (summary p.fees.senderPays d).ret =
      senderEscrow p := by
  cases d
  · obtain ⟨h1, h2⟩ := summary_false_discount p.fees.senderPays
    rw [h1, h2]; simp only [satAdd, senderEscrow]; omega
  · obtain ⟨h1, h2⟩ := summary_true_totals p.fees.senderPays
    have := feeTotal_split p.fees.senderPays
    rw [h1, h2]; simp only [satAdd, senderEscrow]; omega

theorem senderHold_eq (p : Payment) : senderHold p = senderEscrow p := holdTotal_eq p false

theorem senderEscrow_le (p : Payment) : senderEscrow p ≤ BAL_MAX := Nat.min_le_right _ _

/-! ### aggregation -/

theorem feeMoves_cons (w : Acct) (f : Fee) (fs : List Fee) :
    feeMoves w (f :: fs) = ⟨w, f.to, f.amt⟩ :: feeMoves w fs := rfl

theorem addFee_total (l : List Fee) (f : Fee) (h : feeTotal l + f.amt ≤ BAL_MAX) :
    feeTotal (addFee l f) = feeTotal l + f.amt := by
  induction l with
  | nil => simp [addFee, feeTotal, satAdd] at h ⊢; exact h
  | cons g gs ih =>
    rw [feeTotal_cons] at h
    unfold addFee
    split_ifs <;> simp only [feeTotal_cons, satAdd]
    · omega
    · omega
    · rw [ih (by omega)]; omega

theorem addFee_net (l : List Fee) (f : Fee) (h : feeTotal l + f.amt ≤ BAL_MAX) (payer w : Acct) :
    net (feeMoves payer (addFee l f)) w = net (feeMoves payer l) w + net [⟨payer, f.to, f.amt⟩] w := by
  induction l with
  | nil =>
    simp [feeTotal] at h
    simp [addFee, feeMoves, satAdd, Nat.min_eq_left h]
  | cons g gs ih =>
    rw [feeTotal_cons] at h
    unfold addFee
    split_ifs with h1 h2
    · have : satAdd 0 f.amt = f.amt := by simp only [satAdd]; omega
      simp only [feeMoves_cons, this]
      simp only [net_cons, net_nil]; omega
    · have : satAdd g.amt f.amt = g.amt + f.amt := by simp only [satAdd]; omega
      simp only [feeMoves_cons, this]
      simp only [net_cons, net_nil]; rw [h2]
      simp only [mvAt]; push_cast; split_ifs <;> omega
    · simp only [feeMoves_cons]
      simp only [net_cons, net_nil]; rw [ih (by omega)]; simp only [net_cons, net_nil]; omega

theorem foldl_addFee_net (fees acc : List Fee) (h : feeTotal acc + feeTotal fees ≤ BAL_MAX) (payer w : Acct) :
    net (feeMoves payer (fees.foldl addFee acc)) w = net (feeMoves payer acc) w + net (feeMoves payer fees) w ∧
    feeTotal (fees.foldl addFee acc) = feeTotal acc + feeTotal fees := by
  induction fees generalizing acc with
  | nil => simp [feeMoves]
  | cons f fs ih =>
    rw [feeTotal_cons] at h
    simp only [List.foldl_cons]
    have ht := addFee_total acc f (by omega)
    obtain ⟨h1, h2⟩ := ih (addFee acc f) (by omega)
    rw [h1, h2, ht, addFee_net acc f (by omega), feeMoves_cons, feeTotal_cons]
    simp only [net_cons, net_nil]; omega

theorem agg_net (fees : List Fee) (h : feeTotal fees ≤ BAL_MAX) (payer w : Acct) :
    net (feeMoves payer (agg fees)) w = net (feeMoves payer fees) w := by
  have := (foldl_addFee_net fees [] (by simpa using h) payer w).1
  simpa [agg, feeMoves] using this

theorem agg_total (fees : List Fee) (h : feeTotal fees ≤ BAL_MAX) : feeTotal (agg fees) = feeTotal fees := by
  have := (foldl_addFee_net fees [] (by simpa using h) 0 0).2
  simpa [agg] using this

theorem chargeable_cons (f : Fee) (fs : List Fee) :
    chargeable (f :: fs) = if f.mandatory then f :: chargeable fs else chargeable fs := by
  simp [chargeable, List.filter_cons]

theorem addFee_mem (l : List Fee) (f x : Fee) (h : x ∈ addFee l f) :
    ∃ g ∈ f :: l, g.to = x.to ∧ g.mandatory = x.mandatory := by
  induction l with
  | nil => simp [addFee] at h; subst h; exact ⟨f, by simp, rfl, rfl⟩
  | cons g gs ih =>
    unfold addFee at h
    split_ifs at h with h1 h2
    · rcases List.mem_cons.1 h with rfl | h
      · exact ⟨f, by simp, rfl, rfl⟩
      · exact ⟨x, by simp at h ⊢; tauto, rfl, rfl⟩
    · rcases List.mem_cons.1 h with rfl | h
      · exact ⟨g, by simp, rfl, rfl⟩
      · exact ⟨x, by simp; tauto, rfl, rfl⟩
    · rcases List.mem_cons.1 h with rfl | h
      · exact ⟨x, by simp, rfl, rfl⟩
      · obtain ⟨y, hy, e⟩ := ih h
        exact ⟨y, by simp at hy ⊢; tauto, e⟩

theorem addFee_net_chargeable (l : List Fee) (f : Fee) (h : feeTotal l + f.amt ≤ BAL_MAX)
    (hu : ∀ g ∈ l, g.to = f.to → g.mandatory = f.mandatory) (payer w : Acct) :
    net (feeMoves payer (chargeable (addFee l f))) w =
      net (feeMoves payer (chargeable l)) w + net (feeMoves payer (chargeable [f])) w := by
  induction l with
  | nil =>
    have : satAdd 0 f.amt = f.amt := by simp [feeTotal] at h; simp only [satAdd]; omega
    simp only [addFee, this, chargeable_cons]
    simp [chargeable, feeMoves]
  | cons g gs ih =>
    rw [feeTotal_cons] at h
    unfold addFee
    split_ifs with h1 h2
    · have : satAdd 0 f.amt = f.amt := by simp only [satAdd]; omega
      simp only [this, chargeable_cons]
      cases f.mandatory <;> simp [feeMoves, chargeable]
      simp only [net_cons, net_nil]; omega
    · have : satAdd g.amt f.amt = g.amt + f.amt := by simp only [satAdd]; omega
      have hm := hu g (by simp) h2.symm
      simp only [this, chargeable_cons, hm]
      cases f.mandatory
      · simp [feeMoves, chargeable]
      · simp only [if_true, feeMoves_cons]
        simp only [net_cons, net_nil]; rw [h2]
        simp only [chargeable, feeMoves, List.filter_nil, List.map_nil, net_cons, net_nil, mvAt]
        push_cast; split_ifs <;> omega
    · have := ih (by omega) (fun x hx => hu x (List.mem_cons_of_mem _ hx))
      rw [chargeable_cons g, chargeable_cons g]
      split_ifs
      · simp only [feeMoves_cons] at this ⊢
        simp only [net_cons, net_nil]; rw [this]; omega
      · exact this

theorem foldl_addFee_net_chargeable (fees acc : List Fee) (h : feeTotal acc + feeTotal fees ≤ BAL_MAX)
    (hu : UniformFlags (acc ++ fees)) (payer w : Acct) :
    net (feeMoves payer (chargeable (fees.foldl addFee acc))) w =
      net (feeMoves payer (chargeable acc)) w + net (feeMoves payer (chargeable fees)) w := by
  induction fees generalizing acc with
  | nil => simp [feeMoves, chargeable]
  | cons f fs ih =>
    rw [feeTotal_cons] at h
    simp only [List.foldl_cons]
    have ht := addFee_total acc f (by omega)
    have hu' : UniformFlags (addFee acc f ++ fs) := by
      have key : ∀ x ∈ addFee acc f ++ fs, ∃ g ∈ acc ++ f :: fs, g.to = x.to ∧ g.mandatory = x.mandatory := by
        intro x hx
        rcases List.mem_append.1 hx with hx | hx
        · obtain ⟨g, hg, e⟩ := addFee_mem _ _ _ hx
          exact ⟨g, by simp at hg ⊢; tauto, e⟩
        · exact ⟨x, by simp; tauto, rfl, rfl⟩
      intro x hx y hy e
      obtain ⟨gx, hgx, ex1, ex2⟩ := key x hx
      obtain ⟨gy, hgy, ey1, ey2⟩ := key y hy
      rw [← ex2, ← ey2]
      exact hu gx hgx gy hgy (by rw [ex1, ey1, e])
    rw [ih (addFee acc f) (by omega) hu', addFee_net_chargeable acc f (by omega)]
    · rw [chargeable_cons f fs]
      cases hm : f.mandatory <;> simp [chargeable, hm, feeMoves]
      simp only [net_cons, net_nil]; omega
    · intro g hg e
      exact hu g (by simp [hg]) f (by simp) e

theorem agg_net_chargeable (fees : List Fee) (h : feeTotal fees ≤ BAL_MAX) (hu : UniformFlags fees)
    (payer w : Acct) :
    net (feeMoves payer (chargeable (agg fees))) w = net (feeMoves payer (chargeable fees)) w := by
  have := foldl_addFee_net_chargeable fees [] (by simpa using h) (by simpa using hu) payer w
  simpa [agg, feeMoves, chargeable] using this

/-! ### order and amounts of the aggregate -/

/-- Sum of the entries of one account. -/
def amtOf (l : List Fee) (w : Acct) : Nat := feeTotal (l.filter (fun f => f.to == w))

theorem addFee_to_mem (l : List Fee) (f : Fee) (x : Acct) :
    (∃ g ∈ addFee l f, g.to = x) ↔ (x = f.to ∨ ∃ g ∈ l, g.to = x) := by
  induction l with
  | nil => simp [addFee, eq_comm]
  | cons g gs ih =>
    unfold addFee
    split_ifs with h1 h2
    · simp [eq_comm]
    · simp [h2, eq_comm]
    · simp only [List.mem_cons, exists_eq_or_imp, ih]; tauto

theorem addFee_sorted (l : List Fee) (f : Fee) (h : l.Pairwise (fun a b => a.to < b.to)) :
    (addFee l f).Pairwise (fun a b => a.to < b.to) := by
  induction l with
  | nil => simp [addFee]
  | cons g gs ih =>
    have hg := List.pairwise_cons.1 h
    unfold addFee
    split_ifs with h1 h2
    · refine List.pairwise_cons.2 ⟨?_, h⟩
      intro x hx
      rcases List.mem_cons.1 hx with rfl | hx
      · exact h1
      · exact lt_trans h1 (hg.1 x hx)
    · exact List.pairwise_cons.2 ⟨hg.1, hg.2⟩
    · refine List.pairwise_cons.2 ⟨?_, ih hg.2⟩
      intro x hx
      rcases (addFee_to_mem gs f x.to).1 ⟨x, hx, rfl⟩ with e | ⟨y, hy, e⟩
      · have h3 : g.to < f.to := Nat.lt_of_le_of_ne (Nat.le_of_not_lt h1) (Ne.symm h2)
        rw [e]; exact h3
      · rw [← e]; exact hg.1 y hy

theorem agg_sorted (fees : List Fee) : (agg fees).Pairwise (fun a b => a.to < b.to) := by
  have : ∀ acc : List Fee, acc.Pairwise (fun a b => a.to < b.to) →
      (fees.foldl addFee acc).Pairwise (fun a b => a.to < b.to) := by
    induction fees with
    | nil => intro acc h; exact h
    | cons f fs ih => intro acc h; exact ih _ (addFee_sorted acc f h)
  exact this [] List.Pairwise.nil

/-- An entry of a recipient already listed leaves the flags alone, whatever its own. -/
theorem addFee_flag (l : List Fee) (f : Fee) (b : Bool) (hs : l.Pairwise (fun a b => a.to < b.to))
    (hb : (∀ e ∈ l, e.to ≠ f.to) → b = f.mandatory) : addFee l { f with mandatory := b } = addFee l f := by
  induction l with
  | nil => rw [hb (by simp)]
  | cons g gs ih =>
    have hg := List.pairwise_cons.1 hs
    unfold addFee
    dsimp only
    split_ifs with h1 h2
    · rw [hb]
      intro e he
      rcases List.mem_cons.1 he with rfl | he
      · exact Nat.ne_of_gt h1
      · exact Nat.ne_of_gt (Nat.lt_trans h1 (hg.1 e he))
    · rfl
    · rw [ih hg.2]
      intro hne
      refine hb fun e he => ?_
      rcases List.mem_cons.1 he with rfl | he
      · exact fun h => h2 h.symm
      · exact hne e he

theorem foldl_addFee_flags (fees acc : List Fee) (g : Acct → Bool) (hs : acc.Pairwise (fun a b => a.to < b.to))
    (hg : ∀ w, (∀ e ∈ acc, e.to ≠ w) → ∀ f, fees.find? (fun x => x.to == w) = some f → g w = f.mandatory) :
    (fees.map fun f => { f with mandatory := g f.to }).foldl addFee acc = fees.foldl addFee acc := by
  induction fees generalizing acc with
  | nil => rfl
  | cons f fs ih =>
    simp only [List.map_cons, List.foldl_cons]
    rw [addFee_flag acc f (g f.to) hs (fun hne => hg f.to hne f (by simp))]
    refine ih _ (addFee_sorted acc f hs) fun w hw x hx => ?_
    have hwf : f.to ≠ w := fun h => by
      obtain ⟨y, hy, e⟩ := (addFee_to_mem acc f w).2 (.inl h.symm)
      exact hw y hy e
    refine hg w (fun e he h => ?_) x ?_
    · obtain ⟨y, hy, e⟩ := (addFee_to_mem acc f w).2 (.inr ⟨e, he, h⟩)
      exact hw y hy e
    · rw [List.find?_cons_of_neg (by simpa using hwf)]
      exact hx

/-- What a dispute charges of any fee list, also one with mixed flags. -/
theorem agg_net_disputed (fees : List Fee) (h : feeTotal fees ≤ BAL_MAX) (payer w : Acct) :
    net (feeMoves payer (chargeable (agg fees))) w = net (feeMoves payer (chargedOnDispute fees)) w := by
  let g : Acct → Bool := fun w => (fees.find? fun x => x.to == w).any (·.mandatory)
  let fees' : List Fee := fees.map fun f => { f with mandatory := g f.to }
  have h1 : agg fees' = agg fees := by
    refine foldl_addFee_flags fees [] g List.Pairwise.nil fun w _ f hf => ?_
    show (fees.find? fun x => x.to == w).any (·.mandatory) = f.mandatory
    rw [hf]; rfl
  have h2 : feeTotal fees' = feeTotal fees := by simp [fees', feeTotal, List.map_map, Function.comp_def]
  have h3 : UniformFlags fees' := by
    intro x hx y hy e
    obtain ⟨x', -, rfl⟩ := List.mem_map.1 hx
    obtain ⟨y', -, rfl⟩ := List.mem_map.1 hy
    dsimp only at e ⊢
    rw [e]
  have h4 : feeMoves payer (chargeable fees') = feeMoves payer (chargedOnDispute fees) := by
    simp only [fees', feeMoves, chargeable, chargedOnDispute, List.filter_map, List.map_map, Function.comp_def]
    rfl
  rw [← h1, agg_net_chargeable fees' (by omega) h3, h4]

theorem chargedOnDispute_uniform (fees : List Fee) (hu : UniformFlags fees) :
    chargedOnDispute fees = chargeable fees := by
  refine List.filter_congr fun f hf => ?_
  cases hx : fees.find? (fun g => g.to == f.to) with
  | none => exact absurd (beq_self_eq_true f.to) (List.find?_eq_none.1 hx f hf)
  | some x =>
    have e := List.find?_some hx
    rw [Option.any_some]
    exact hu x (List.mem_of_find?_eq_some hx) f hf (by simpa using e)

theorem agg_to_mem (fees : List Fee) (x : Acct) : (∃ g ∈ agg fees, g.to = x) ↔ ∃ g ∈ fees, g.to = x := by
  have : ∀ acc : List Fee, (∃ g ∈ fees.foldl addFee acc, g.to = x) ↔
      ((∃ g ∈ acc, g.to = x) ∨ ∃ g ∈ fees, g.to = x) := by
    induction fees with
    | nil => intro acc; simp
    | cons f fs ih =>
      intro acc
      simp only [List.foldl_cons, ih, addFee_to_mem, List.mem_cons, exists_eq_or_imp]
      constructor
      · rintro ((h | h) | h)
        · exact Or.inr (Or.inl h.symm)
        · exact Or.inl h
        · exact Or.inr (Or.inr h)
      · rintro (h | h | h)
        · exact Or.inl (Or.inr h)
        · exact Or.inl (Or.inl h.symm)
        · exact Or.inr h
  simpa [agg] using this []

theorem amtOf_cons (f : Fee) (fs : List Fee) (w : Acct) :
    amtOf (f :: fs) w = (if f.to = w then f.amt else 0) + amtOf fs w := by
  simp only [amtOf, List.filter_cons, beq_iff_eq]
  split_ifs <;> simp [feeTotal_cons]

theorem addFee_amtOf (l : List Fee) (f : Fee) (w : Acct) (h : l.Pairwise (fun a b => a.to < b.to))
    (hb : ∀ g ∈ l, g.amt ≤ BAL_MAX) :
    amtOf (addFee l f) w = if f.to = w then min (amtOf l w + f.amt) BAL_MAX else amtOf l w := by
  have nomem : ∀ (gs : List Fee), (∀ y ∈ gs, f.to < y.to) → amtOf gs f.to = 0 := by
    intro gs hgs
    induction gs with
    | nil => rfl
    | cons y ys ih =>
      rw [amtOf_cons, ih (fun z hz => hgs z (List.mem_cons_of_mem _ hz))]
      have := hgs y (by simp)
      rw [if_neg (fun e => absurd this (by rw [e]; exact lt_irrefl _))]
  induction l with
  | nil => simp [addFee, amtOf, feeTotal, satAdd, List.filter_cons]; split_ifs <;> simp
  | cons g gs ih =>
    have hg := List.pairwise_cons.1 h
    unfold addFee
    by_cases h1 : f.to < g.to
    · rw [if_pos h1]
      by_cases h2 : f.to = w
      · subst h2
        have : amtOf (g :: gs) f.to = 0 := nomem _ (by
          intro y hy
          rcases List.mem_cons.1 hy with rfl | hy
          · exact h1
          · exact lt_trans h1 (hg.1 y hy))
        rw [amtOf_cons, this]; simp [satAdd]
      · rw [amtOf_cons]; simp [h2]
    · rw [if_neg h1]
      by_cases h4 : f.to = g.to
      · rw [if_pos h4]
        by_cases h2 : f.to = w
        · subst h2
          have : amtOf gs f.to = 0 := nomem _ (by
            intro y hy; rw [h4]; exact hg.1 y hy)
          rw [amtOf_cons, amtOf_cons, this]
          simp only [h4, if_true, satAdd, Nat.add_zero]
        · rw [if_neg h2, amtOf_cons, amtOf_cons, ← h4, if_neg h2, if_neg h2]
      · rw [if_neg h4]
        have := ih hg.2 (fun x hx => hb x (List.mem_cons_of_mem _ hx))
        rw [amtOf_cons, amtOf_cons, this]
        by_cases h2 : f.to = w
        · subst h2
          rw [if_neg (fun e => h4 e.symm)]; simp
        · rw [if_neg h2, if_neg h2]

theorem addFee_bound (l : List Fee) (f : Fee) (hb : ∀ g ∈ l, g.amt ≤ BAL_MAX) :
    ∀ g ∈ addFee l f, g.amt ≤ BAL_MAX := by
  induction l with
  | nil => simp [addFee, satAdd]
  | cons g gs ih =>
    have ih' := ih (fun x hx => hb x (List.mem_cons_of_mem _ hx))
    have hg := hb g (by simp)
    unfold addFee
    split_ifs with h1 h2
    · intro x hx
      rcases List.mem_cons.1 hx with rfl | hx
      · exact Nat.min_le_right _ _
      · exact hb x hx
    · intro x hx
      rcases List.mem_cons.1 hx with rfl | hx
      · exact Nat.min_le_right _ _
      · exact hb x (List.mem_cons_of_mem _ hx)
    · intro x hx
      rcases List.mem_cons.1 hx with rfl | hx
      · exact hg
      · exact ih' x hx

theorem agg_amtOf (fees : List Fee) (w : Acct) :
    amtOf (agg fees) w = min (amtOf fees w) BAL_MAX := by
  have : ∀ acc : List Fee, acc.Pairwise (fun a b => a.to < b.to) → (∀ g ∈ acc, g.amt ≤ BAL_MAX) →
      amtOf acc w ≤ BAL_MAX →
      amtOf (fees.foldl addFee acc) w = min (amtOf acc w + amtOf fees w) BAL_MAX := by
    induction fees with
    | nil => intro acc _ _ h; simp [amtOf] at h ⊢; exact h
    | cons f fs ih =>
      intro acc hs hb hle
      have hstep := addFee_amtOf acc f w hs hb
      simp only [List.foldl_cons]
      rw [ih (addFee acc f) (addFee_sorted acc f hs) (addFee_bound acc f hb) (by rw [hstep]; split_ifs <;> omega),
        hstep, amtOf_cons]
      split_ifs <;> omega
  have h := this [] List.Pairwise.nil (by simp) (by simp [amtOf])
  simpa [agg, amtOf] using h

/-! ### fee transfers -/

theorem tryTransferFees_eff {env L a acct d fs L'} (h : tryTransferFees env L a acct d fs = .ok L') :
    Eff L L' a (feeMoves acct (if d then chargeable fs else fs)) (fun _ => 0) ∧ NoDust L L' a := by
  induction fs generalizing L with
  | nil =>
    simp only [tryTransferFees, Except.ok.injEq] at h
    subst h
    refine ⟨?_, rfl, rfl⟩
    have : (if d then chargeable ([] : List Fee) else []) = [] := by cases d <;> rfl
    rw [this]; exact Eff.refl _ _
  | cons f fs ih =>
    unfold tryTransferFees at h
    split_ifs at h with hc
    · cases ht : L.transfer env a acct f.to f.amt .preserve with
      | none => rw [ht] at h; cases h
      | some L1 =>
        rw [ht] at h
        obtain ⟨e2, n2⟩ := ih h
        have e1 := transfer_eff ht
        have n1 := transfer_preserve_nodust ht
        refine ⟨(e1.trans e2).congr ?_ (by simp), n2.1.trans n1.1, n2.2.trans n1.2⟩
        intro w
        rw [net_append]
        have : (if d then chargeable (f :: fs) else f :: fs) = f :: (if d then chargeable fs else fs) := by
          cases d
          · rfl
          · simp at hc; simp [chargeable_cons, hc]
        rw [this, feeMoves_cons]; simp only [net_cons, net_nil]; omega
    · obtain ⟨e2, n2⟩ := ih h
      simp at hc
      have : (if d then chargeable (f :: fs) else f :: fs) = (if d then chargeable fs else fs) := by
        simp [hc.1, chargeable_cons, hc.2]
      rw [this]; exact ⟨e2, n2⟩

theorem tryTransferFees_cons {env L a acct d fs L'} (h : tryTransferFees env L a acct d fs = .ok L')
    (a' : Asset) : Cons L L' a' := by
  induction fs generalizing L with
  | nil => simp only [tryTransferFees, Except.ok.injEq] at h; subst h; exact Cons.refl _ _
  | cons f fs ih =>
    unfold tryTransferFees at h
    split_ifs at h with hc
    · cases ht : L.transfer env a acct f.to f.amt .preserve with
      | none => rw [ht] at h; cases h
      | some L1 => rw [ht] at h; exact (transfer_cons ht a').trans (ih h)
    · exact ih h

theorem tryTransferFees_spares {env L a acct d fs L'} (h : tryTransferFees env L a acct d fs = .ok L')
    (S : Acct → Prop) (hS : S acct) : Spares L L' S := by
  induction fs generalizing L with
  | nil => simp only [tryTransferFees, Except.ok.injEq] at h; subst h; exact Spares.refl _ _
  | cons f fs ih =>
    unfold tryTransferFees at h
    split_ifs at h with hc
    · cases ht : L.transfer env a acct f.to f.amt .preserve with
      | none => rw [ht] at h; cases h
      | some L1 => rw [ht] at h; exact (transfer_spares ht S hS).trans (ih h)
    · exact ih h

end Verif.Payments
