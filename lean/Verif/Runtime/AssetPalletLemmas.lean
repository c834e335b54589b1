import Verif.Runtime.AssetPallet

/-!
# The assets pallet: lemmas
-/

namespace Verif.Runtime.Units

open Verif Verif.Accounts

/-! ## Writing -/

@[simp] theorem setAcct_info (s : St) (k who v) : (s.setAcct k who v).info = s.info := rfl
@[simp] theorem setAcct_appr (s : St) (k who v) : (s.setAcct k who v).appr = s.appr := rfl
@[simp] theorem setAcct_ice (s : St) (k who v) : (s.setAcct k who v).ice = s.ice := rfl
@[simp] theorem setAcct_reserved (s : St) (k who v) : (s.setAcct k who v).reserved = s.reserved := rfl
@[simp] theorem setInfo_acct (s : St) (k v) : (s.setInfo k v).acct = s.acct := rfl
@[simp] theorem setInfo_appr (s : St) (k v) : (s.setInfo k v).appr = s.appr := rfl
@[simp] theorem setInfo_ice (s : St) (k v) : (s.setInfo k v).ice = s.ice := rfl
@[simp] theorem setInfo_reserved (s : St) (k v) : (s.setInfo k v).reserved = s.reserved := rfl
@[simp] theorem setAppr_info (s : St) (k o d v) : (s.setAppr k o d v).info = s.info := rfl
@[simp] theorem setAppr_acct (s : St) (k o d v) : (s.setAppr k o d v).acct = s.acct := rfl
@[simp] theorem setAppr_ice (s : St) (k o d v) : (s.setAppr k o d v).ice = s.ice := rfl
@[simp] theorem setAppr_reserved (s : St) (k o d v) : (s.setAppr k o d v).reserved = s.reserved := rfl
@[simp] theorem setIce_info (s : St) (k who v) : (s.setIce k who v).info = s.info := rfl
@[simp] theorem setIce_acct (s : St) (k who v) : (s.setIce k who v).acct = s.acct := rfl
@[simp] theorem setIce_appr (s : St) (k who v) : (s.setIce k who v).appr = s.appr := rfl
@[simp] theorem setIce_reserved (s : St) (k who v) : (s.setIce k who v).reserved = s.reserved := rfl
@[simp] theorem reserve_info (s : St) (who n) : (s.reserve who n).info = s.info := rfl
@[simp] theorem reserve_acct (s : St) (who n) : (s.reserve who n).acct = s.acct := rfl
@[simp] theorem reserve_appr (s : St) (who n) : (s.reserve who n).appr = s.appr := rfl
@[simp] theorem reserve_ice (s : St) (who n) : (s.reserve who n).ice = s.ice := rfl
@[simp] theorem unreserve_info (s : St) (who n) : (s.unreserve who n).info = s.info := rfl
@[simp] theorem unreserve_acct (s : St) (who n) : (s.unreserve who n).acct = s.acct := rfl
@[simp] theorem unreserve_appr (s : St) (who n) : (s.unreserve who n).appr = s.appr := rfl
@[simp] theorem unreserve_ice (s : St) (who n) : (s.unreserve who n).ice = s.ice := rfl

theorem setAcct_acct (s : St) (k k' who a v) :
    (s.setAcct k who v).acct k' a = if k' = k ∧ a = who then v else s.acct k' a := rfl
theorem setInfo_info (s : St) (k k' v) : (s.setInfo k v).info k' = if k' = k then v else s.info k' := rfl
theorem setIce_ice (s : St) (k k' who a v) :
    (s.setIce k who v).ice k' a = if k' = k ∧ a = who then v else s.ice k' a := rfl
theorem setAppr_appr (s : St) (k k' o a d b v) :
    (s.setAppr k o d v).appr k' a b = if k' = k ∧ a = o ∧ b = d then v else s.appr k' a b := rfl

@[simp] theorem setSupply_acct (s : St) (k f) : (s.setSupply k f).acct = s.acct := rfl
@[simp] theorem setSupply_appr (s : St) (k f) : (s.setSupply k f).appr = s.appr := rfl
@[simp] theorem setSupply_ice (s : St) (k f) : (s.setSupply k f).ice = s.ice := rfl
@[simp] theorem setSupply_reserved (s : St) (k f) : (s.setSupply k f).reserved = s.reserved := rfl

theorem payBack_eq (s : St) (who : AccountId) (r : Reason) :
    (payBack s who r).info = s.info ∧ (payBack s who r).acct = s.acct ∧ (payBack s who r).appr = s.appr ∧
      (payBack s who r).ice = s.ice := by
  cases r <;> exact ⟨rfl, rfl, rfl, rfl⟩

/-- Two states with the same accounts have the same units. -/
theorem has_of_acct {s s' : St} (h : s'.acct = s.acct) : s'.has = s.has := by
  funext k a; unfold St.has; rw [h]

theorem has_some {s : St} {k : Key} {who : AccountId} {a : Acct} (h : s.acct k who = some a) :
    s.has k who = a.balance := by unfold St.has; rw [h]; rfl

theorem has_none {s : St} {k : Key} {who : AccountId} (h : s.acct k who = none) : s.has k who = 0 := by
  unfold St.has; rw [h]; rfl

/-! ## What leaves, what comes -/

/-- What a debit says. -/
theorem debit_facts {s : St} {k : Key} {who : AccountId} {n m : Nat} {keep best : Bool}
    (h : debit s k who n keep best = some m) :
    ∃ d a, s.info k = some d ∧ s.acct k who = some a ∧ d.status = .live ∧ a.status = .liquid ∧ m ≤ a.balance ∧
      (∀ f, s.ice k who = some f → m = 0 ∨ f + d.min + m ≤ a.balance) ∧
      (best = false → n ≤ m) ∧
      (m = 0 ∨ (m ≤ n ∧ d.min ≤ a.balance - m) ∨ (m = a.balance ∧ keep = false ∧ s.ice k who = none ∧
        ∃ x, x ≤ n ∧ x ≤ a.balance ∧ a.balance - x < d.min ∧ (best = false → x = n) ∧ 0 < x)) := by
  unfold debit at h
  split at h
  case h_2 => cases h
  rename_i d a r hi ha hr
  refine ⟨d, a, hi, ha, ?_⟩
  unfold reducible at hr
  rw [hi, ha] at hr
  dsimp only at hr
  split at hr
  · cases hr
  rename_i hst
  rw [not_or] at hst
  have h1 := not_not.1 hst.1
  have h2 := not_not.1 hst.2
  refine ⟨h1, h2, ?_⟩
  dsimp only at h
  have hmin : Nat.min r n ≤ r ∧ Nat.min r n ≤ n := ⟨Nat.min_le_left _ _, Nat.min_le_right _ _⟩
  obtain ⟨x, hx⟩ : ∃ x, x = Nat.min r n := ⟨_, rfl⟩
  rw [← hx] at h hmin
  -- what can leave at all
  have hred : r ≤ a.balance ∧ (∀ f, s.ice k who = some f → r = 0 ∨ f + d.min + r ≤ a.balance) := by
    cases hice : s.ice k who with
    | some f =>
      rw [hice] at hr
      dsimp only at hr
      split at hr
      · cases hr
      · cases hr
        have e1 : Nat.min (a.balance - (f + d.min)) d.supply ≤ a.balance - (f + d.min) := Nat.min_le_left _ _
        refine ⟨by omega, ?_⟩
        rintro _ ⟨⟩
        omega
    | none =>
      rw [hice] at hr
      cases hr
      have e1 : Nat.min (if keep = true then a.balance - d.min else a.balance) d.supply ≤
        (if keep = true then a.balance - d.min else a.balance) := Nat.min_le_left _ _
      refine ⟨le_trans e1 ?_, fun _ hh => nomatch hh⟩
      split <;> omega
  have hmn : ¬ (best = false ∧ x < n) → best = false → x = n := by
    intro h3 h4
    have : ¬ x < n := fun h5 => h3 ⟨h4, h5⟩
    omega
  split at h
  · cases h
  rename_i hb
  split at h
  · rename_i h0
    cases h
    refine ⟨by omega, fun f hf => .inl rfl, ?_, .inl rfl⟩
    intro h4
    have := hmn hb h4
    omega
  rename_i h0
  split at h
  · rename_i hlow
    split at h
    · cases h
    rename_i hk
    cases h
    have hxb : x ≤ a.balance := by omega
    have e : x + (a.balance - x) = a.balance := by omega
    rw [e]
    have hno : s.ice k who = none := by
      cases hice : s.ice k who with
      | none => rfl
      | some f =>
        rcases hred.2 f hice with h5 | h5 <;> omega
    refine ⟨Nat.le_refl _, ?_, ?_, .inr (.inr ⟨rfl, by simpa using hk, hno, x, hmin.2, hxb, hlow, hmn hb, by omega⟩)⟩
    · intro f hf
      rw [hno] at hf; cases hf
    · intro h4
      have := hmn hb h4
      omega
  · rename_i hlow
    cases h
    refine ⟨by omega, ?_, ?_, .inr (.inl ⟨hmin.2, by omega⟩)⟩
    · intro f hf
      rcases hred.2 f hf with h5 | h5 <;> omega
    · intro h4
      have := hmn hb h4
      omega

theorem give_info {s : St} {k : Key} {who : AccountId} {n : Nat} {d : Info} (hi : s.info k = some d) :
    (give s k who n).info k = some { d with accounts := d.accounts + (if s.acct k who = none then 1 else 0) } := by
  unfold give
  rw [hi]
  cases ha : s.acct k who with
  | some a => simp [hi]
  | none => simp [setInfo_info]

theorem give_info_other {s : St} {k k' : Key} {who : AccountId} {n : Nat} (h : k' ≠ k) :
    (give s k who n).info k' = s.info k' := by
  unfold give
  split
  · rfl
  · simp [setInfo_info, h]
  · rfl

theorem give_acct {s : St} {k k' : Key} {who b : AccountId} {n : Nat} {d : Info} (hi : s.info k = some d) :
    (give s k who n).acct k' b = if k' = k ∧ b = who then
      some (match s.acct k who with
        | some a => { a with balance := a.balance + n }
        | none => ⟨n, .liquid, if d.sufficient then .sufficient else .consumer⟩)
    else s.acct k' b := by
  unfold give
  rw [hi]
  cases ha : s.acct k who with
  | some a => simp [setAcct_acct]
  | none => simp [setAcct_acct]

theorem give_has {s : St} {k k' : Key} {who b : AccountId} {n : Nat} {d : Info} (hi : s.info k = some d) :
    (give s k who n).has k' b = s.has k' b + if k' = k ∧ b = who then n else 0 := by
  unfold St.has
  rw [give_acct hi]
  by_cases h : k' = k ∧ b = who
  · rw [if_pos h, if_pos h]
    obtain ⟨rfl, rfl⟩ := h
    cases s.acct k' b <;> simp
  · rw [if_neg h, if_neg h]; simp

theorem give_ice (s : St) (k : Key) (who : AccountId) (n : Nat) : (give s k who n).ice = s.ice := by
  unfold give; split <;> rfl

theorem give_appr (s : St) (k : Key) (who : AccountId) (n : Nat) : (give s k who n).appr = s.appr := by
  unfold give; split <;> rfl

theorem give_reserved (s : St) (k : Key) (who : AccountId) (n : Nat) : (give s k who n).reserved = s.reserved := by
  unfold give; split <;> rfl

theorem drop_acct {s : St} {k k' : Key} {who b : AccountId} {d : Info} (hi : s.info k = some d) :
    (drop s k who).acct k' b = if k' = k ∧ b = who then none else s.acct k' b := by
  unfold drop; rw [hi]; rfl

theorem drop_ice {s : St} {k k' : Key} {who b : AccountId} {d : Info} (hi : s.info k = some d) :
    (drop s k who).ice k' b = if k' = k ∧ b = who then none else s.ice k' b := by
  unfold drop; rw [hi]; rfl

theorem drop_info {s : St} {k k' : Key} {who : AccountId} {d : Info} (hi : s.info k = some d) :
    (drop s k who).info k' = if k' = k then some { d with accounts := d.accounts - 1 } else s.info k' := by
  unfold drop; rw [hi]; rfl

theorem drop_appr (s : St) (k : Key) (who : AccountId) : (drop s k who).appr = s.appr := by
  unfold drop; split <;> rfl

theorem drop_reserved (s : St) (k : Key) (who : AccountId) : (drop s k who).reserved = s.reserved := by
  unfold drop; split <;> rfl

theorem drop_has {s : St} {k k' : Key} {who b : AccountId} {d : Info} (hi : s.info k = some d) :
    (drop s k who).has k' b = if k' = k ∧ b = who then 0 else s.has k' b := by
  unfold St.has
  rw [drop_acct hi]
  split <;> rfl

/-- Whether an account goes when `n` is taken from it. Specification only, no code behind it (outside /repo). -/
def Goes (d : Info) (a : Acct) (n : Nat) : Prop := a.balance - n < d.min ∧ a.reason.pinned = false

instance (d : Info) (a : Acct) (n : Nat) : Decidable (Goes d a n) := by unfold Goes; infer_instance

theorem take_eq {s : St} {k : Key} {who : AccountId} {n : Nat} {d : Info} {a : Acct} (hi : s.info k = some d)
    (ha : s.acct k who = some a) :
    take s k who n = if Goes d a n then drop s k who else s.setAcct k who (some { a with balance := a.balance - n }) := by
  unfold take Goes; rw [hi, ha]

theorem take_has {s : St} {k k' : Key} {who b : AccountId} {n : Nat} {d : Info} {a : Acct} (hi : s.info k = some d)
    (ha : s.acct k who = some a) :
    (take s k who n).has k' b =
      if k' = k ∧ b = who then (if Goes d a n then 0 else a.balance - n) else s.has k' b := by
  rw [take_eq hi ha]
  by_cases hg : Goes d a n
  · rw [if_pos hg, if_pos hg, drop_has hi]
  · rw [if_neg hg, if_neg hg]
    unfold St.has
    rw [setAcct_acct]
    split <;> rfl

theorem take_appr (s : St) (k : Key) (who : AccountId) (n : Nat) : (take s k who n).appr = s.appr := by
  unfold take
  split
  · split
    · exact drop_appr _ _ _
    · rfl
  · rfl

theorem take_reserved (s : St) (k : Key) (who : AccountId) (n : Nat) : (take s k who n).reserved = s.reserved := by
  unfold take
  split
  · split
    · exact drop_reserved _ _ _
    · rfl
  · rfl

theorem take_ice {s : St} {k k' : Key} {who b : AccountId} {n : Nat} {d : Info} {a : Acct} (hi : s.info k = some d)
    (ha : s.acct k who = some a) :
    (take s k who n).ice k' b = if k' = k ∧ b = who ∧ Goes d a n then none else s.ice k' b := by
  rw [take_eq hi ha]
  by_cases hg : Goes d a n
  · rw [if_pos hg, drop_ice hi]; simp [hg]
  · rw [if_neg hg]; simp [hg]

theorem take_info {s : St} {k k' : Key} {who : AccountId} {n : Nat} {d : Info} {a : Acct} (hi : s.info k = some d)
    (ha : s.acct k who = some a) :
    (take s k who n).info k' =
      if k' = k ∧ Goes d a n then some { d with accounts := d.accounts - 1 } else s.info k' := by
  rw [take_eq hi ha]
  by_cases hg : Goes d a n
  · rw [if_pos hg, drop_info hi]; simp [hg]
  · rw [if_neg hg]; simp [hg]

theorem take_acct {s : St} {k k' : Key} {who b : AccountId} {n : Nat} {d : Info} {a : Acct} (hi : s.info k = some d)
    (ha : s.acct k who = some a) :
    (take s k who n).acct k' b = if k' = k ∧ b = who then
      (if Goes d a n then none else some { a with balance := a.balance - n }) else s.acct k' b := by
  rw [take_eq hi ha]
  by_cases hg : Goes d a n
  · rw [if_pos hg, if_pos hg, drop_acct hi]
  · rw [if_neg hg, if_neg hg, setAcct_acct]

/-- What the payer loses, what `n` units asked for, when `m` leave an account with `b` units: `n`, if nothing or at least the
minimum stays; otherwise all. Specification only, no code behind it (outside /repo). -/
def Leaving (min b n m : Nat) : Prop := n ≤ b ∧ ((min ≤ b - n ∧ m = n) ∨ (b - n < min ∧ m = b))

/-- A move of units: nothing happens, or so many of them go from an account that is free to another. -/
theorem move_facts {env : Env} {s s' : St} {k : Key} {src dst : AccountId} {n : Nat} {keep : Bool}
    (h : move env s k src dst n keep = some s') :
    s' = s ∨ ∃ d a m, src ≠ dst ∧ n ≠ 0 ∧ s.info k = some d ∧ s.acct k src = some a ∧ d.status = .live ∧
      a.status = .liquid ∧ Leaving d.min a.balance n m ∧ (keep = true → d.min ≤ a.balance - m) ∧
      (∀ f, s.ice k src = some f → f + d.min + m ≤ a.balance) ∧ canGet env s k dst m = true ∧
      s' = take (give s k dst m) k src m := by
  unfold move at h
  split at h
  · cases h; exact .inl rfl
  rename_i hn
  split at h
  case h_2 => cases h
  rename_i m hm
  split at h
  case isFalse => cases h
  rename_i hg
  split at h
  · cases h; exact .inl rfl
  rename_i hne
  cases h
  obtain ⟨d, a, hi, ha, h1, h2, h3, h4, h5, h6⟩ := debit_facts hm
  have h5 := h5 rfl
  refine .inr ⟨d, a, m, hne, hn, hi, ha, h1, h2, ?_, ?_, ?_, hg, rfl⟩
  · rcases h6 with h6 | h6 | ⟨e, _, _, x, x1, x2, x3, x4, _⟩
    · omega
    · exact ⟨by omega, .inl ⟨by have := h6.2; have := h6.1; have e : m = n := by omega
                                rw [← e]; exact h6.2, by have := h6.1; omega⟩⟩
    · have := x4 rfl; subst this; exact ⟨x2, .inr ⟨x3, e⟩⟩
  · intro hk
    rcases h6 with h6 | h6 | ⟨_, e, _⟩
    · omega
    · exact h6.2
    · rw [hk] at e; cases e
  · intro f hf
    rcases h4 f hf with h4 | h4
    · omega
    · exact h4

theorem Leaving.le {min b n m : Nat} (h : Leaving min b n m) : m ≤ b := by
  obtain ⟨h1, h2 | h2⟩ := h <;> omega

/-- Such a move, account by account. -/
theorem moved_has {s : St} {k k' : Key} {src dst b : AccountId} {n m : Nat} {d : Info} {a : Acct} (hne : src ≠ dst)
    (hi : s.info k = some d) (ha : s.acct k src = some a) (hl : Leaving d.min a.balance n m) :
    (take (give s k dst m) k src m).has k' b =
      if k' = k ∧ b = src then a.balance - m else if k' = k ∧ b = dst then s.has k dst + m else s.has k' b := by
  have ha' : (give s k dst m).acct k src = some a := by
    rw [give_acct hi, if_neg (fun e => hne e.2)]; exact ha
  rw [take_has (give_info hi) ha', give_has hi]
  by_cases h1 : k' = k ∧ b = src
  · rw [if_pos h1, if_pos h1]
    have hg : ∀ c, Goes { d with accounts := c } a m → 0 = a.balance - m := by
      intro c hg
      unfold Goes at hg
      dsimp only at hg
      obtain ⟨h2, h3 | h3⟩ := hl
      · obtain ⟨h3, rfl⟩ := h3
        omega
      · omega
    by_cases hc : Goes { d with accounts := d.accounts + (if s.acct k dst = none then 1 else 0) } a m
    · rw [if_pos hc]; exact hg _ hc
    · rw [if_neg hc]
  · rw [if_neg h1, if_neg h1]
    by_cases h2 : k' = k ∧ b = dst
    · rw [if_pos h2, if_pos h2]; obtain ⟨rfl, rfl⟩ := h2; rfl
    · rw [if_neg h2, if_neg h2, Nat.add_zero]

theorem moved_acct {s : St} {k k' : Key} {src dst b : AccountId} {m : Nat} {d : Info} {a : Acct} (hne : src ≠ dst)
    (hi : s.info k = some d) (ha : s.acct k src = some a) :
    (take (give s k dst m) k src m).acct k' b =
      if k' = k ∧ b = src then (if Goes d a m then none else some { a with balance := a.balance - m })
      else if k' = k ∧ b = dst then
        some (match s.acct k dst with
          | some x => { x with balance := x.balance + m }
          | none => ⟨m, .liquid, if d.sufficient then .sufficient else .consumer⟩)
      else s.acct k' b := by
  have ha' : (give s k dst m).acct k src = some a := by
    rw [give_acct hi, if_neg (fun e => hne e.2)]; exact ha
  rw [take_acct (give_info hi) ha', give_acct hi]
  rfl

theorem moved_info {s : St} {k : Key} {src dst : AccountId} {m : Nat} {d : Info} {a : Acct} (hne : src ≠ dst)
    (hi : s.info k = some d) (ha : s.acct k src = some a) :
    (take (give s k dst m) k src m).info k =
      some { d with accounts := d.accounts + (if s.acct k dst = none then 1 else 0) - (if Goes d a m then 1 else 0) } := by
  have ha' : (give s k dst m).acct k src = some a := by
    rw [give_acct hi, if_neg (fun e => hne e.2)]; exact ha
  rw [take_info (give_info hi) ha', give_info hi]
  have e : Goes { d with accounts := d.accounts + (if s.acct k dst = none then 1 else 0) } a m ↔ Goes d a m := Iff.rfl
  by_cases hg : Goes d a m
  · rw [if_pos ⟨rfl, e.2 hg⟩, if_pos hg]
  · rw [if_neg (fun x => hg (e.1 x.2)), if_neg hg]; simp

theorem moved_info_other {s : St} {k k' : Key} {src dst : AccountId} {m : Nat} {d : Info} {a : Acct} (hne : src ≠ dst)
    (hi : s.info k = some d) (ha : s.acct k src = some a) (hk : k' ≠ k) :
    (take (give s k dst m) k src m).info k' = s.info k' := by
  have ha' : (give s k dst m).acct k src = some a := by
    rw [give_acct hi, if_neg (fun e => hne e.2)]; exact ha
  rw [take_info (give_info hi) ha', if_neg (fun x => hk x.1), give_info_other hk]

theorem moved_ice {s : St} {k k' : Key} {src dst b : AccountId} {m : Nat} {d : Info} {a : Acct} (hne : src ≠ dst)
    (hi : s.info k = some d) (ha : s.acct k src = some a) :
    (take (give s k dst m) k src m).ice k' b = if k' = k ∧ b = src ∧ Goes d a m then none else s.ice k' b := by
  have ha' : (give s k dst m).acct k src = some a := by
    rw [give_acct hi, if_neg (fun e => hne e.2)]; exact ha
  rw [take_ice (give_info hi) ha', give_ice]
  rfl

theorem moved_appr (s : St) (k : Key) (src dst : AccountId) (m : Nat) :
    (take (give s k dst m) k src m).appr = s.appr := by rw [take_appr, give_appr]

theorem moved_reserved (s : St) (k : Key) (src dst : AccountId) (m : Nat) :
    (take (give s k dst m) k src m).reserved = s.reserved := by rw [take_reserved, give_reserved]

theorem move_appr {env : Env} {s s' : St} {k : Key} {src dst : AccountId} {n : Nat} {keep : Bool}
    (h : move env s k src dst n keep = some s') : s'.appr = s.appr := by
  rcases move_facts h with rfl | ⟨d, a, m, _, _, _, _, _, _, _, _, _, _, rfl⟩
  · rfl
  · exact moved_appr _ _ _ _ _

theorem unapprove_facts {s s' : St} {k : Key} {o g : AccountId} (h : unapprove s k o g = some s') :
    ∃ d p, s.info k = some d ∧ s.appr k o g = some p ∧ s' = ((s.unreserve o p.deposit).setAppr k o g none).setInfo k
      (some { d with approvals := d.approvals - 1 }) := by
  unfold unapprove at h
  split at h
  · rename_i d p hi hp; cases h; exact ⟨d, p, hi, hp, rfl⟩
  · cases h

theorem unapprove_acct {s s' : St} {k : Key} {o g : AccountId} (h : unapprove s k o g = some s') :
    s'.acct = s.acct ∧ s'.ice = s.ice := by
  obtain ⟨d, p, _, _, rfl⟩ := unapprove_facts h
  exact ⟨rfl, rfl⟩

theorem transferApproved_facts {env : Env} {s s' : St} {k : Key} {o g dst : AccountId} {n : Nat}
    (h : transferApproved env s k o g dst n = some s') :
    ∃ d p s1, s.info k = some d ∧ s.appr k o g = some p ∧ d.status = .live ∧ n ≤ p.amount ∧
      move env s k o dst n false = some s1 ∧ s'.acct = s1.acct ∧ s'.ice = s1.ice ∧
      ((p.amount = n ∧ unapprove s1 k o g = some s') ∨
        (n < p.amount ∧ s' = s1.setAppr k o g (some { p with amount := p.amount - n }))) := by
  unfold transferApproved at h
  split at h
  case h_2 => cases h
  rename_i d p hi hp
  split at h
  · cases h
  rename_i hc
  rw [not_or] at hc
  split at h
  case h_2 => cases h
  rename_i s1 hm
  split at h
  · rename_i hz
    obtain ⟨e1, e2⟩ := unapprove_acct h
    exact ⟨d, p, s1, hi, hp, not_not.1 hc.1, by omega, hm, e1, e2, .inl ⟨by omega, h⟩⟩
  · rename_i hz
    cases h
    exact ⟨d, p, s1, hi, hp, not_not.1 hc.1, by omega, hm, rfl, rfl, .inr ⟨by omega, rfl⟩⟩

theorem mint_facts {env : Env} {s s' : St} {k : Key} {by_ : Option AccountId} {who : AccountId} {n : Nat}
    (h : mint env s k by_ who n = some s') :
    s' = s ∨ ∃ d, s.info k = some d ∧ n ≠ 0 ∧ d.status = .live ∧ (∀ a, by_ = some a → a = d.issuer) ∧
      d.supply + n ≤ maxUnits ∧ canGet env s k who n = true ∧ s' = (give s k who n).setSupply k (· + n) := by
  unfold mint at h
  split at h
  · cases h; exact .inl rfl
  rename_i hn
  split at h
  case h_2 => cases h
  rename_i d hi
  split at h
  · rename_i hc
    cases h
    exact .inr ⟨d, hi, hn, hc.1, hc.2.1, hc.2.2.1, hc.2.2.2, rfl⟩
  · cases h

theorem burn_facts {s s' : St} {k : Key} {by_ : Option AccountId} {who : AccountId} {n : Nat} {best : Bool}
    (h : burn s k by_ who n best = some s') :
    s' = s ∨ ∃ d a m, s.info k = some d ∧ s.acct k who = some a ∧ n ≠ 0 ∧ (∀ x, by_ = some x → x = d.admin) ∧
      debit s k who n false best = some m ∧ s' = (take s k who m).setSupply k (· - m) := by
  unfold burn at h
  split at h
  case h_2 => cases h
  rename_i d hi
  split at h
  · cases h
  split at h
  · cases h; exact .inl rfl
  rename_i hn
  split at h
  case h_2 => cases h
  rename_i m hm
  split at h
  · rename_i hb
    cases h
    obtain ⟨d', a, hi', ha, _⟩ := debit_facts hm
    exact .inr ⟨d, a, m, hi, ha, hn, hb, hm, rfl⟩
  · cases h

theorem touch_facts {env : Env} {s s' : St} {k : Key} {who by_ : AccountId} (h : touch env s k who by_ = some s') :
    ∃ d, s.info k = some d ∧ s.acct k who = none ∧ d.status = .live ∧
      s' = ((s.reserve by_ env.accountDeposit).setAcct k who
        (some ⟨0, .liquid, if by_ = who then .held env.accountDeposit else .lent by_ env.accountDeposit⟩)).setInfo k
        (some { d with accounts := d.accounts + 1 }) := by
  unfold touch at h
  split at h
  · rename_i d hi ha
    split at h
    · rename_i hc
      cases h
      exact ⟨d, hi, ha, hc.1, rfl⟩
    · cases h
  · cases h

theorem touch_has {env : Env} {s s' : St} {k : Key} {who by_ : AccountId} (h : touch env s k who by_ = some s') :
    s'.has = s.has := by
  obtain ⟨d, _, ha, _, rfl⟩ := touch_facts h
  funext k' b
  unfold St.has
  rw [setInfo_acct, setAcct_acct, reserve_acct]
  split
  · rename_i e; obtain ⟨rfl, rfl⟩ := e; rw [ha]; rfl
  · rfl

/-- Giving an account up. -/
theorem refund_facts {s s' : St} {k : Key} {who : AccountId} {burning : Bool} (h : refund s k who burning = some s') :
    ∃ d a, s.info k = some d ∧ s.acct k who = some a ∧ d.status ≠ .destroying ∧ (a.balance = 0 ∨ burning = true) ∧
      ((a.reason = .consumer ∧ s' = drop s k who) ∨ ∃ n, a.reason = .held n ∧ s' = drop (s.unreserve who n) k who) := by
  unfold refund at h
  split at h
  case h_2 => cases h
  rename_i d a hi ha
  split at h
  · cases h
  rename_i hc
  rw [not_or] at hc
  refine ⟨d, a, hi, ha, hc.1, ?_, ?_⟩
  · by_cases hz : a.balance = 0
    · exact .inl hz
    · refine .inr ?_
      cases hb : burning with
      | true => rfl
      | false => exact absurd ⟨hz, hb⟩ hc.2
  · split at h
    · rename_i hr; cases h; exact .inl ⟨hr, rfl⟩
    · rename_i n hr; cases h; exact .inr ⟨n, hr, rfl⟩
    · cases h

theorem refundOther_facts {s s' : St} {k : Key} {who by_ : AccountId} (h : refundOther s k who by_ = some s') :
    ∃ d a lender n, s.info k = some d ∧ s.acct k who = some a ∧ a.reason = .lent lender n ∧
      (by_ = lender ∨ by_ = d.admin) ∧ a.balance = 0 ∧ s' = drop (s.unreserve lender n) k who := by
  unfold refundOther at h
  split at h
  case h_2 => cases h
  rename_i d a hi ha
  split at h
  case h_2 => cases h
  rename_i lender n hr
  split at h
  · rename_i hc
    cases h
    exact ⟨d, a, lender, n, hi, ha, hr, hc.2.2.1, hc.2.2.2, rfl⟩
  · cases h

theorem approve_facts {env : Env} {s s' : St} {k : Key} {o g : AccountId} {n : Nat} (h : approve env s k o g n = some s') :
    ∃ d, s.info k = some d ∧ d.status = .live ∧
      s' = ((s.reserve o (env.approvalDeposit - ((s.appr k o g).getD ⟨0, 0⟩).deposit)).setAppr k o g
          (some ⟨Nat.min (((s.appr k o g).getD ⟨0, 0⟩).amount + n) maxUnits,
            Nat.max ((s.appr k o g).getD ⟨0, 0⟩).deposit env.approvalDeposit⟩)).setInfo k
          (some { d with approvals := d.approvals + (if s.appr k o g = none then 1 else 0) }) := by
  unfold approve at h
  split at h
  case h_2 => cases h
  rename_i d hi
  split at h
  · cases h
  rename_i hl
  dsimp only at h
  split at h
  · cases h
  · cases h
    exact ⟨d, hi, not_not.1 hl, rfl⟩

/-- Destroying accounts: one by one. -/
theorem destroyAccount_facts (k : Key) (s : St) (who : AccountId) :
    (s.acct k who = none ∧ destroyAccount k s who = s) ∨
      ∃ a, s.acct k who = some a ∧ destroyAccount k s who = drop (payBack s who a.reason) k who := by
  unfold destroyAccount
  cases ha : s.acct k who with
  | none => exact .inl ⟨rfl, rfl⟩
  | some a => exact .inr ⟨a, rfl, rfl⟩

theorem destroyAccount_has (k : Key) (s : St) (who : AccountId) (d : Info) (hi : s.info k = some d) (k' : Key)
    (b : AccountId) : (destroyAccount k s who).has k' b = if k' = k ∧ b = who then 0 else s.has k' b := by
  rcases destroyAccount_facts k s who with ⟨ha, e⟩ | ⟨a, ha, e⟩
  · rw [e]
    split
    · rename_i e; obtain ⟨rfl, rfl⟩ := e; exact has_none ha
    · rfl
  · rw [e, drop_has (d := d) (by rw [(payBack_eq s who a.reason).1]; exact hi)]
    rw [has_of_acct (payBack_eq s who a.reason).2.1]

theorem destroyAccount_info (k : Key) (s : St) (who : AccountId) (d : Info) (hi : s.info k = some d) :
    ∃ c, (destroyAccount k s who).info k = some { d with accounts := c } := by
  rcases destroyAccount_facts k s who with ⟨_, e⟩ | ⟨a, ha, e⟩
  · rw [e]; exact ⟨d.accounts, hi⟩
  · rw [e, drop_info (d := d) (by rw [(payBack_eq s who a.reason).1]; exact hi), if_pos rfl]; exact ⟨_, rfl⟩

theorem destroyAccount_info_other (k k' : Key) (s : St) (who : AccountId) (d : Info) (hi : s.info k = some d) (h : k' ≠ k) :
    (destroyAccount k s who).info k' = s.info k' := by
  rcases destroyAccount_facts k s who with ⟨_, e⟩ | ⟨a, ha, e⟩
  · rw [e]
  · rw [e, drop_info (d := d) (by rw [(payBack_eq s who a.reason).1]; exact hi), if_neg h, (payBack_eq s who a.reason).1]

theorem destroyAccounts_has (k : Key) (l : List AccountId) : ∀ (s : St) (d : Info), s.info k = some d → ∀ k' b,
    (l.foldl (destroyAccount k) s).has k' b = if k' = k ∧ b ∈ l then 0 else s.has k' b := by
  induction l with
  | nil => intro s d hi k' b; simp
  | cons x t ih =>
    intro s d hi k' b
    obtain ⟨c, hc⟩ := destroyAccount_info k s x d hi
    rw [List.foldl_cons, ih _ _ hc, destroyAccount_has k s x d hi]
    by_cases h1 : k' = k ∧ b ∈ t
    · rw [if_pos h1, if_pos ⟨h1.1, List.mem_cons_of_mem _ h1.2⟩]
    · rw [if_neg h1]
      by_cases h2 : k' = k ∧ b = x
      · rw [if_pos h2, if_pos ⟨h2.1, h2.2 ▸ List.mem_cons_self⟩]
      · rw [if_neg h2, if_neg]
        rintro ⟨e, hb⟩
        rcases List.mem_cons.mp hb with e1 | e1
        · exact h2 ⟨e, e1⟩
        · exact h1 ⟨e, e1⟩

theorem destroyApproval_acct (k : Key) (s : St) (x : AccountId × AccountId) :
    (destroyApproval k s x).acct = s.acct ∧ (destroyApproval k s x).ice = s.ice := by
  unfold destroyApproval
  cases h : unapprove s k x.1 x.2 with
  | none => exact ⟨rfl, rfl⟩
  | some s' => exact unapprove_acct h

theorem destroyApprovals_acct (k : Key) (l : List (AccountId × AccountId)) : ∀ s : St,
    (l.foldl (destroyApproval k) s).acct = s.acct ∧ (l.foldl (destroyApproval k) s).ice = s.ice := by
  induction l with
  | nil => intro s; exact ⟨rfl, rfl⟩
  | cons x t ih =>
    intro s
    rw [List.foldl_cons, (ih _).1, (ih _).2]
    exact destroyApproval_acct k s x

theorem setHand_facts {s s' : St} {k : Key} {who : AccountId} {h : Hand} (e : setHand s k who h = some s') :
    ∃ a, s.acct k who = some a ∧ s' = s.setAcct k who (some { a with status := h }) := by
  unfold setHand at e
  cases ha : s.acct k who with
  | none => rw [ha] at e; cases e
  | some a => rw [ha] at e; cases e; exact ⟨a, rfl, rfl⟩

theorem setHand_has {s s' : St} {k : Key} {who : AccountId} {h : Hand} (e : setHand s k who h = some s') :
    s'.has = s.has ∧ s'.ice = s.ice := by
  obtain ⟨a, ha, rfl⟩ := setHand_facts e
  refine ⟨?_, rfl⟩
  funext k' b
  unfold St.has
  rw [setAcct_acct]
  split
  · rename_i e; obtain ⟨rfl, rfl⟩ := e; rw [ha]; rfl
  · rfl

/-- Root moves no units. -/
theorem byRoot_acct {s s' : St} {c : Call} (h : byRoot s c = some s') : s'.acct = s.acct ∧ s'.ice = s.ice := by
  cases c <;> simp only [byRoot] at h
  all_goals first | (cases h; done) | skip
  case forceCreate k o f n =>
    split at h
    · cases h
    · cases h; exact ⟨rfl, rfl⟩
  case startDestroy k =>
    split at h
    · cases h; exact ⟨rfl, rfl⟩
    · cases h
  case forceAssetStatus k o i a f n b z =>
    split at h
    · split at h
      · cases h
      · cases h; exact ⟨rfl, rfl⟩
    · cases h
  case forceCancelApproval k o g =>
    split at h
    · split at h
      · exact unapprove_acct h
      · cases h
    · cases h

end Verif.Runtime.Units
