import Verif.Runtime.AssetPalletLemmas

/-!
# Who takes units of an asset, and what keeps them: theorems (C200, C201)
-/

namespace Verif.Runtime.Units

open Verif Verif.Accounts

/-! ## Specification -/

/-- Nothing stands in the way of units of `a` in asset `k`: the asset is live and the account neither frozen nor blocked.
Specification only, no code behind it (outside /repo). -/
def Open (s : St) (k : Key) (a : AccountId) : Prop :=
  ∃ d x, s.info k = some d ∧ s.acct k a = some x ∧ d.status = .live ∧ x.status = .liquid

/-- `m` units of `a` in asset `k` may leave when `n` are asked for: what is frozen stays, and the minimum with it; the amount
is the one asked for, or all when less than the minimum would stay. Specification only, no code behind it (outside /repo). -/
def Spends (s : St) (k : Key) (a : AccountId) (n m : Nat) : Prop :=
  ∃ d, s.info k = some d ∧ Leaving d.min (s.has k a) n m ∧ ∀ f, s.ice k a = some f → f + d.min + m ≤ s.has k a

/-- The ways units of `a` in asset `k` go, `m` of them, by a call. Specification only, no code behind it (outside /repo). -/
inductive Taken (s : St) (k : Key) (a : AccountId) (m : Nat) : RtOrigin → Call → Prop
  /-- The holder sends them. -/
  | sent (dst : AccountId) (n : Nat) (ho : Open s k a) (hs : Spends s k a n m) : Taken s k a m (.signed a) (.transfer k dst n)
  /-- The holder sends them and keeps the minimum. -/
  | kept (dst : AccountId) (n : Nat) (ho : Open s k a) (hs : Spends s k a n m)
      (hm : ∀ d, s.info k = some d → d.min + m ≤ s.has k a) : Taken s k a m (.signed a) (.transferKeepAlive k dst n)
  /-- A delegate sends them, whom the holder approved for at least what is asked for. -/
  | delegated (g dst : AccountId) (n : Nat) (p : Leave) (hp : s.appr k a g = some p) (hn : n ≤ p.amount)
      (ho : Open s k a) (hs : Spends s k a n m) : Taken s k a m (.signed g) (.transferApproved k a dst n)
  /-- The admin of the asset sends them. -/
  | forced (g dst : AccountId) (n : Nat) (hg : ∃ d, s.info k = some d ∧ d.admin = g) (ho : Open s k a)
      (hs : Spends s k a n m) : Taken s k a m (.signed g) (.forceTransfer k a dst n)
  /-- The admin burns them. What is frozen stays, unless there was less than the minimum. -/
  | burnt (g : AccountId) (n : Nat) (hg : ∃ d, s.info k = some d ∧ d.admin = g) (ho : Open s k a)
      (hs : ∀ d f, s.info k = some d → s.ice k a = some f → d.min ≤ s.has k a → f + d.min + m ≤ s.has k a) :
      Taken s k a m (.signed g) (.burn k a n)
  /-- The holder gives the account up with all that is on it, which was there for no other reason than them. -/
  | givenUp (h : m = s.has k a) : Taken s k a m (.signed a) (.refund k true)
  /-- The asset is being destroyed. -/
  | destroyed (g : AccountId) (l : List AccountId) (hd : ∃ d, s.info k = some d ∧ d.status = .destroying) (hl : a ∈ l)
      (h : m = s.has k a) : Taken s k a m (.signed g) (.destroyAccounts k l)

/-! ## Lemmas -/

/-- What an account loses by a move. -/
theorem move_loss {env : Env} {s s' : St} {k k' : Key} {src dst b : AccountId} {n : Nat} {keep : Bool}
    (h : move env s k src dst n keep = some s') (hlt : s'.has k' b < s.has k' b) :
    k' = k ∧ b = src ∧ Open s k b ∧ Spends s k b n (s.has k b - s'.has k b) ∧
      (keep = true → ∀ d, s.info k = some d → d.min + (s.has k b - s'.has k b) ≤ s.has k b) := by
  rcases move_facts h with rfl | ⟨d, a, m, hne, hn, hi, ha, h1, h2, hl, hk, hf, hg, rfl⟩
  · omega
  · have hb := hl.le
    rw [moved_has hne hi ha hl] at hlt
    split at hlt
    · rename_i e
      obtain ⟨rfl, rfl⟩ := e
      have hh := has_some ha
      have e3 : s.has k' b - (take (give s k' dst m) k' b m).has k' b = m := by
        rw [moved_has hne hi ha hl, if_pos ⟨rfl, rfl⟩, hh]; omega
      rw [e3]
      refine ⟨rfl, rfl, ⟨d, a, hi, ha, h1, h2⟩, ⟨d, hi, hh ▸ hl, fun f e => hh ▸ hf f e⟩, fun hkk d' hd' => ?_⟩
      rw [hi] at hd'; cases hd'
      rw [hh]
      have := hk hkk
      -- something leaves
      omega
    · split at hlt
      · rename_i e; obtain ⟨rfl, rfl⟩ := e; omega
      · omega

theorem setSupply_has (s : St) (k : Key) (f : Nat → Nat) : (s.setSupply k f).has = s.has := has_of_acct rfl

theorem mint_has {env : Env} {s s' : St} {k : Key} {by_ : Option AccountId} {who : AccountId} {n : Nat}
    (h : mint env s k by_ who n = some s') (k' : Key) (b : AccountId) : s.has k' b ≤ s'.has k' b := by
  rcases mint_facts h with rfl | ⟨d, hi, _, _, _, _, _, rfl⟩
  · exact Nat.le_refl _
  · rw [setSupply_has, give_has hi]; omega

theorem burn_loss {s s' : St} {k k' : Key} {by_ : Option AccountId} {who b : AccountId} {n : Nat} {best : Bool}
    (h : burn s k by_ who n best = some s') (hlt : s'.has k' b < s.has k' b) :
    k' = k ∧ b = who ∧ Open s k b ∧ (∀ x, by_ = some x → ∃ d, s.info k = some d ∧ d.admin = x) ∧
      ∀ d f, s.info k = some d → s.ice k b = some f → d.min ≤ s.has k b →
        f + d.min + (s.has k b - s'.has k b) ≤ s.has k b := by
  rcases burn_facts h with rfl | ⟨d, a, m, hi, ha, hn, hb, hm, rfl⟩
  · omega
  · obtain ⟨d', a', hi', ha', h1, h2, h3, h4, h5, h6⟩ := debit_facts hm
    rw [hi] at hi'; cases hi'
    rw [ha] at ha'; cases ha'
    rw [setSupply_has, take_has hi ha] at hlt
    split at hlt
    · rename_i e
      obtain ⟨rfl, rfl⟩ := e
      have hh := has_some ha
      refine ⟨rfl, rfl, ⟨d, a, hi, ha, h1, h2⟩, fun x hx => ⟨d, hi, (hb x hx).symm⟩, fun d' f hd hf hmin => ?_⟩
      rw [hi] at hd; cases hd
      rw [setSupply_has, take_has hi ha, if_pos ⟨rfl, rfl⟩]
      rw [hh] at hmin ⊢
      have hng : ¬ Goes d a m := by
        intro hg
        unfold Goes at hg
        rcases h6 with h6 | h6 | ⟨_, _, e, _⟩
        · omega
        · omega
        · rw [hf] at e; cases e
      rw [if_neg hng]
      rw [if_neg hng, hh] at hlt
      rcases h4 f hf with h4 | h4 <;> omega
    · omega

theorem refund_has {s s' : St} {k k' : Key} {who b : AccountId} {burning : Bool} (h : refund s k who burning = some s') :
    s'.has k' b = if k' = k ∧ b = who then 0 else s.has k' b := by
  obtain ⟨d, a, hi, ha, _, _, ⟨_, rfl⟩ | ⟨n, _, rfl⟩⟩ := refund_facts h
  · exact drop_has hi
  · rw [drop_has (s := s.unreserve who n) hi]
    rfl

theorem refundOther_has {s s' : St} {k : Key} {who by_ : AccountId} (h : refundOther s k who by_ = some s') :
    s'.has = s.has := by
  obtain ⟨d, a, lender, n, hi, ha, _, _, hz, rfl⟩ := refundOther_facts h
  funext k' b
  rw [drop_has (s := s.unreserve lender n) hi]
  split
  · rename_i e; obtain ⟨rfl, rfl⟩ := e; rw [has_some ha, hz]
  · rfl

/-! ## Theorems -/

/-- **C200**: when an account has fewer units of an asset after a call than before, then by one of these: its holder sent
them, or a delegate the holder approved for that much, or the admin of the asset sent or burned them — each only while asset
and account are free to move, with what is frozen staying —, or the holder gave the account up, or the asset is being
destroyed. -/
theorem C200_taken (env : Env) (s s' : St) (o : RtOrigin) (c : Call) (h : call env s o c = some s') (k : Key)
    (a : AccountId) (hlt : s'.has k a < s.has k a) : Taken s k a (s.has k a - s'.has k a) o c := by
  have no : s'.has = s.has → False := fun e => by rw [e] at hlt; omega
  cases o with
  | root =>
    exact (no (has_of_acct (byRoot_acct (show byRoot s c = some s' from h)).1)).elim
  | signed by_ =>
    replace h : bySigner env s by_ c = some s' := h
    cases c <;> simp only [bySigner] at h
    case startDestroy q =>
      split at h
      · split at h
        · cases h; exact (no (has_of_acct rfl)).elim
        · cases h
      · cases h
    case destroyAccounts q l =>
      split at h
      · rename_i d hi
        split at h
        · rename_i hc
          cases h
          have e := destroyAccounts_has q l s d hi k a
          rw [e] at hlt
          split at hlt
          · rename_i e1
            rw [e, if_pos e1]
            obtain ⟨rfl, hm⟩ := e1
            exact .destroyed by_ l ⟨d, hi, hc.1⟩ hm (by omega)
          · omega
        · cases h
      · cases h
    case destroyApprovals q l =>
      split at h
      · split at h
        · cases h; exact (no (has_of_acct (destroyApprovals_acct q l s).1)).elim
        · cases h
      · cases h
    case finishDestroy q =>
      split at h
      · split at h
        · cases h; exact (no (has_of_acct rfl)).elim
        · cases h
      · cases h
    case mint q who n => have := mint_has h k a; omega
    case burn q who n =>
      obtain ⟨rfl, rfl, g1, g2, g3⟩ := burn_loss h hlt
      exact .burnt by_ n (g2 by_ rfl) g1 g3
    case transfer q dst n =>
      obtain ⟨rfl, rfl, g1, g2, _⟩ := move_loss h hlt
      exact .sent dst n g1 g2
    case transferKeepAlive q dst n =>
      obtain ⟨rfl, rfl, g1, g2, g3⟩ := move_loss h hlt
      exact .kept dst n g1 g2 (g3 rfl)
    case forceTransfer q src dst n =>
      split at h
      · rename_i d hi
        split at h
        · rename_i hc
          obtain ⟨rfl, rfl, g1, g2, _⟩ := move_loss h hlt
          have hn : n ≠ 0 := by
            rintro rfl
            unfold move at h
            rw [if_pos rfl] at h
            cases h; omega
          exact .forced by_ dst n ⟨d, hi, (hc.resolve_left hn).symm⟩ g1 g2
        · cases h
      · split at h
        · cases h; omega
        · cases h
    case freeze q who =>
      split at h
      · split at h
        · exact (no (setHand_has h).1).elim
        · cases h
      · cases h
    case thaw q who =>
      split at h
      · split at h
        · exact (no (setHand_has h).1).elim
        · cases h
      · cases h
    case block q who =>
      split at h
      · split at h
        · exact (no (setHand_has h).1).elim
        · cases h
      · cases h
    case freezeAsset q =>
      split at h
      · split at h
        · cases h; exact (no (has_of_acct rfl)).elim
        · cases h
      · cases h
    case thawAsset q =>
      split at h
      · split at h
        · cases h; exact (no (has_of_acct rfl)).elim
        · cases h
      · cases h
    case transferOwnership q x =>
      split at h
      · split at h
        · cases h; exact (no (has_of_acct rfl)).elim
        · cases h
      · cases h
    case setTeam q x y z =>
      split at h
      · split at h
        · cases h; exact (no (has_of_acct rfl)).elim
        · cases h
      · cases h
    case setMinBalance q x =>
      split at h
      · split at h
        · cases h; exact (no (has_of_acct rfl)).elim
        · cases h
      · cases h
    case approveTransfer q g n =>
      obtain ⟨d, _, _, rfl⟩ := approve_facts h
      exact (no (has_of_acct rfl)).elim
    case cancelApproval q g =>
      split at h
      · split at h
        · exact (no (has_of_acct (unapprove_acct h).1)).elim
        · cases h
      · cases h
    case forceCancelApproval q x g =>
      split at h
      · split at h
        · exact (no (has_of_acct (unapprove_acct h).1)).elim
        · cases h
      · cases h
    case transferApproved q x dst n =>
      obtain ⟨d, p, s1, hi, hp, _, hn, hm, e1, _, _⟩ := transferApproved_facts h
      rw [has_of_acct e1] at hlt ⊢
      obtain ⟨rfl, rfl, g1, g2, _⟩ := move_loss hm hlt
      exact .delegated by_ dst n p hp hn g1 g2
    case touch q => exact (no (touch_has h)).elim
    case touchOther q who =>
      split at h
      · split at h
        · exact (no (touch_has h)).elim
        · cases h
      · cases h
    case refund q burning =>
      rw [refund_has h] at hlt ⊢
      split at hlt
      · rename_i e
        rw [if_pos e]
        obtain ⟨rfl, rfl⟩ := e
        have : burning = true := by
          obtain ⟨d, x, _, hx, _, hz | hz, _⟩ := refund_facts h
          · rw [has_some hx, hz] at hlt; omega
          · exact hz
        subst this
        exact .givenUp (by omega)
      · omega
    case refundOther q who => exact (no (refundOther_has h)).elim
    all_goals cases h
  | none => cases h
  | community _ => cases h
  | custom _ => cases h
  | other _ => cases h

/-- **C200**: so while an asset is frozen, or the account, nothing goes from it, but what its holder gives up. -/
theorem C200_frozen (env : Env) (s s' : St) (o : RtOrigin) (c : Call) (h : call env s o c = some s') (k : Key)
    (a : AccountId) (d : Info) (hd : s.info k = some d) (hs : d.status ≠ .destroying)
    (hf : d.status = .frozen ∨ ∃ x, s.acct k a = some x ∧ x.status ≠ .liquid)
    (hc : ¬ (o = .signed a ∧ c = .refund k true)) : s.has k a ≤ s'.has k a := by
  by_contra hlt
  have no : ¬ Open s k a := by
    rintro ⟨d', x, hi, hx, h1, h2⟩
    rw [hd] at hi; cases hi
    rcases hf with hf | ⟨y, hy, hf⟩
    · rw [hf] at h1; cases h1
    · rw [hx] at hy; cases hy; exact hf h2
  have ht := C200_taken env s s' o c h k a (by omega)
  cases ht with
  | sent dst n ho _ => exact no ho
  | kept dst n ho _ _ => exact no ho
  | delegated g dst n p _ _ ho _ => exact no ho
  | forced g dst n _ ho _ => exact no ho
  | burnt g n _ ho _ => exact no ho
  | givenUp _ => exact hc ⟨rfl, rfl⟩
  | destroyed g l hg _ _ =>
    obtain ⟨d', hi, hg⟩ := hg
    rw [hd] at hi; cases hi
    exact hs hg

/-- **C200**: what is sent arrives, all of it, where it was sent, and nobody else's units change. -/
theorem C200_arrives (env : Env) (s s' : St) (a dst : AccountId) (k : Key) (n : Nat) (hne : a ≠ dst)
    (h : call env s (.signed a) (.transfer k dst n) = some s') :
    s'.has k a + s'.has k dst = s.has k a + s.has k dst ∧ s.has k dst + n ≤ s'.has k dst ∧
      ∀ q b, (q ≠ k ∨ b ≠ a ∧ b ≠ dst) → s'.has q b = s.has q b := by
  have h : move env s k a dst n false = some s' := h
  by_cases hn : n = 0
  · subst hn
    unfold move at h
    rw [if_pos rfl] at h
    cases h
    exact ⟨rfl, by omega, fun _ _ _ => rfl⟩
  rcases move_facts h with rfl | ⟨d, x, m, _, _, hi, ha, h1, h2, hl, hk, hf, hg, rfl⟩
  · -- a move that does nothing asks for nothing
    exfalso
    unfold move at h
    rw [if_neg hn] at h
    split at h
    case h_2 => cases h
    rename_i m hm
    split at h
    case isFalse => cases h
    obtain ⟨d, x, hi, ha, g1, g2, g3, g4, g5, g6⟩ := debit_facts hm
    have hm0 := g5 rfl
    have e : (take (give s' k dst m) k a m) = s' := Option.some.inj h
    have hl : Leaving d.min x.balance n m := by
      rcases g6 with g6 | g6 | ⟨e, _, _, y, y1, y2, y3, y4, _⟩
      · omega
      · have e : m = n := by omega
        subst e; exact ⟨g3, .inl ⟨g6.2, rfl⟩⟩
      · have := y4 rfl; subst this; exact ⟨y2, .inr ⟨y3, e⟩⟩
    have e2 := moved_has (k' := k) (b := a) hne hi ha hl
    rw [e, if_pos ⟨rfl, rfl⟩, has_some ha] at e2
    omega
  · have hle := hl.le
    have hnm : n ≤ m := by obtain ⟨g1, g2 | g2⟩ := hl <;> omega
    have ea := moved_has (k' := k) (b := a) hne hi ha hl
    have ed := moved_has (k' := k) (b := dst) hne hi ha hl
    rw [if_pos ⟨rfl, rfl⟩] at ea
    rw [if_neg (fun e => hne e.2.symm), if_pos ⟨rfl, rfl⟩] at ed
    rw [ea, ed, has_some ha]
    refine ⟨by omega, by omega, fun q b hq => ?_⟩
    rw [moved_has hne hi ha hl, if_neg, if_neg]
    · rintro ⟨e1, e2⟩
      rcases hq with hq | hq
      · exact hq e1
      · exact hq.2 e2
    · rintro ⟨e1, e2⟩
      rcases hq with hq | hq
      · exact hq e1
      · exact hq.1 e2

/-- **C200**: and a holder can send what they have, if asset and account are free, nothing of it is frozen, the minimum
stays, and the other has an account there that is not blocked. -/
theorem C200_can_send (env : Env) (s : St) (a dst : AccountId) (k : Key) (n : Nat) (d : Info) (x y : Acct)
    (hd : s.info k = some d) (hx : s.acct k a = some x) (hy : s.acct k dst = some y) (h1 : d.status = .live)
    (h2 : x.status = .liquid) (h3 : y.status ≠ .blocked) (hm : y.balance + n ≤ maxUnits) (hs : x.balance ≤ d.supply)
    (hf : maxUnits ≥ (s.ice k a).getD 0 + d.min) (hn : (s.ice k a).getD 0 + d.min + n ≤ x.balance) :
    ∃ s', call env s (.signed a) (.transfer k dst n) = some s' := by
  show ∃ s', move env s k a dst n false = some s'
  unfold move
  split
  · exact ⟨_, rfl⟩
  rename_i hn0
  have hr : ∃ r, reducible s k a false = some r ∧ n ≤ r := by
    unfold reducible
    rw [hd, hx]
    dsimp only
    rw [if_neg (by rintro (e | e); exacts [e h1, e h2])]
    cases hice : s.ice k a with
    | some f =>
      rw [hice] at hf hn
      dsimp only [Option.getD] at hf hn ⊢
      rw [if_neg (by omega)]
      exact ⟨_, rfl, Nat.le_min.mpr ⟨by omega, by omega⟩⟩
    | none =>
      rw [hice] at hf hn
      dsimp only [Option.getD] at hf hn ⊢
      exact ⟨_, rfl, Nat.le_min.mpr ⟨by simp only [Bool.false_eq_true, if_false]; omega, by omega⟩⟩
  obtain ⟨r, hr, hnr⟩ := hr
  have hdeb : debit s k a n false false = some n := by
    unfold debit
    rw [hd, hx, hr]
    dsimp only
    have e : Nat.min r n = n := Nat.min_eq_right hnr
    rw [e, if_neg (by omega), if_neg hn0, if_neg (by omega)]
  rw [hdeb]
  dsimp only
  have hg : canGet env s k dst n = true := by
    unfold canGet
    rw [hd]
    dsimp only
    rw [hy]
    simp [h1, h3, hm]
  rw [if_pos hg]
  split <;> exact ⟨_, rfl⟩

/-- **C201, full claim**: no call takes away units that are frozen on an account, as they are for votes.
**Proved part**: no call but giving the account up by its holder, while the asset is not being destroyed and the account has
the minimum. -/
theorem C201_frozen_stays_partial (env : Env) (s s' : St) (o : RtOrigin) (c : Call) (h : call env s o c = some s') (k : Key)
    (a : AccountId) (f : Nat) (d : Info) (hf : s.ice k a = some f) (hd : s.info k = some d) (hs : d.status ≠ .destroying)
    (hmin : d.min ≤ s.has k a) (hle : f ≤ s.has k a) (hc : ¬ (o = .signed a ∧ c = .refund k true)) :
    f ≤ s'.has k a := by
  by_cases hlt : s'.has k a < s.has k a
  · have sp : ∀ n m, Spends s k a n m → f + m ≤ s.has k a := by
      rintro n m ⟨d', _, _, g⟩
      have := g f hf; omega
    have ht := C200_taken env s s' o c h k a hlt
    generalize hm : s.has k a - s'.has k a = m at ht
    cases ht with
    | sent dst n _ hs => have := sp _ _ hs; omega
    | kept dst n _ hs _ => have := sp _ _ hs; omega
    | delegated g dst n p _ _ _ hs => have := sp _ _ hs; omega
    | forced g dst n _ _ hs => have := sp _ _ hs; omega
    | burnt g n _ _ hb => have := hb d f hd hf hmin; omega
    | givenUp _ => exact absurd ⟨rfl, rfl⟩ hc
    | destroyed g l hg _ _ =>
      obtain ⟨d', hi, hg⟩ := hg
      rw [hd] at hi; cases hi
      exact absurd hg hs
  · omega

/-- **C201**: nor do other pallets that move or burn units take what is frozen. -/
theorem C201_frozen_stays_others (env : Env) (s s' : St) (x : Other) (h : other env s x = some s') (k : Key)
    (a : AccountId) (f : Nat) (d : Info) (hf : s.ice k a = some f) (hd : s.info k = some d) (hmin : d.min ≤ s.has k a)
    (hle : f ≤ s.has k a) : f ≤ s'.has k a := by
  by_cases hlt : s'.has k a < s.has k a
  · cases x with
    | make q o z n => rw [has_of_acct (byRoot_acct (show byRoot s (.forceCreate q o z n) = some s' from h)).1] at hlt; omega
    | mintInto q who n => have := mint_has h k a; omega
    | burnFrom q who n best =>
      obtain ⟨rfl, rfl, _, _, g⟩ := burn_loss h hlt
      have := g d f hd hf hmin; omega
    | transfer q src dst n keep =>
      obtain ⟨rfl, rfl, _, ⟨d', _, _, g⟩, _⟩ := move_loss h hlt
      have := g f hf; omega
    | setFrozen q who z =>
      cases h
      exact absurd hlt (Nat.lt_irrefl _)
  · omega

/-! ## Examples and the refutation -/

/-- Example accounts (outside /repo). -/
def Demo.alice : AccountId := [1]

/-- Example account (outside /repo). -/
def Demo.bob : AccountId := [2]

/-- Example account (outside /repo). -/
def Demo.carol : AccountId := [3]

/-- Example environment: everybody can reserve and take references (outside /repo). -/
def Demo.env : Env := ⟨fun _ _ => true, fun _ => true, 1000⟩

/-- Steps one after the other, none if one fails (outside /repo). -/
def Demo.run (s : St) : List Step → Option St
  | [] => some s
  | x :: l => (step Demo.env s x).bind fun s' => Demo.run s' l

theorem Demo.reach {s s' : St} {l : List Step} (h : Demo.run s l = some s') : ∀ {z m}, Reach z m s → ∃ m', Reach z m' s' := by
  induction l generalizing s with
  | nil => intro z m hr; cases h; exact ⟨m, hr⟩
  | cons x t ih =>
    intro z m hr
    cases hx : step Demo.env s x with
    | none => rw [Demo.run, hx] at h; cases h
    | some s1 =>
      rw [Demo.run, hx] at h
      exact ih h (.step Demo.env x hr hx)

/-- Example: root makes asset 0 with alice as its owner, who issues 100 to bob; 60 of them are frozen for bob's votes
(outside /repo). -/
def Demo.start : List Step :=
  [.call .root (.forceCreate 0 Demo.alice false 10), .call (.signed Demo.alice) (.mint 0 Demo.bob 100),
    .other (.setFrozen 0 Demo.bob (some 60))]

/-- Whether the units of an account are so many after the steps (outside /repo). -/
def Demo.after (l : List Step) (k : Key) (a : AccountId) : Option Nat := (Demo.run genesis l).map fun s => s.has k a

/-- Bob can send 30, alice burns them, but with 60 frozen and a minimum of 10 no more leave, by nobody's hand. -/
example :
    Demo.after (Demo.start ++ [.call (.signed Demo.bob) (.transfer 0 Demo.carol 30)]) 0 Demo.bob = some 70 ∧
    Demo.after (Demo.start ++ [.call (.signed Demo.bob) (.transfer 0 Demo.carol 31)]) 0 Demo.bob = none ∧
    Demo.after (Demo.start ++ [.call (.signed Demo.alice) (.burn 0 Demo.bob 100)]) 0 Demo.bob = some 70 ∧
    Demo.after (Demo.start ++ [.call (.signed Demo.alice) (.forceTransfer 0 Demo.bob Demo.carol 31)]) 0 Demo.bob = none ∧
    Demo.after (Demo.start ++ [.call (.signed Demo.bob) (.approveTransfer 0 Demo.carol 50),
      .call (.signed Demo.carol) (.transferApproved 0 Demo.bob Demo.carol 30)]) 0 Demo.bob = some 70 ∧
    Demo.after (Demo.start ++ [.call (.signed Demo.alice) (.freeze 0 Demo.bob),
      .call (.signed Demo.bob) (.transfer 0 Demo.carol 30)]) 0 Demo.bob = none := by
  decide +kernel

/-- **C201 fails** in full: the holder of units frozen for votes gives their account up, and the units are gone. -/
theorem C201_frozen_stays_fails :
    ∃ (env : Env) (l : List Step) (s s' : St) (k : Key) (a : AccountId) (f : Nat) (d : Info),
      Reach genesis l s ∧ s.ice k a = some f ∧ s.info k = some d ∧ d.status = .live ∧ d.min ≤ s.has k a ∧ f ≤ s.has k a ∧
        call env s (.signed a) (.refund k true) = some s' ∧ s'.has k a < f ∧ s'.ice k a = none := by
  obtain ⟨s, hs⟩ : ∃ s, Demo.run genesis Demo.start = some s := ⟨_, rfl⟩
  obtain ⟨l, hl⟩ := Demo.reach hs .refl
  have e : s = (Demo.run genesis Demo.start).getD genesis := by rw [hs]; rfl
  have hi : s.ice 0 Demo.bob = some 60 := by rw [e]; decide +kernel
  have hd : s.info 0 = some ⟨Demo.alice, Demo.alice, Demo.alice, Demo.alice, 100, 10, false, 1, 0, .live⟩ := by
    rw [e]; decide +kernel
  have hh : s.has 0 Demo.bob = 100 := by rw [e]; decide +kernel
  have ha : s.acct 0 Demo.bob = some ⟨100, .liquid, .consumer⟩ := by rw [e]; decide +kernel
  refine ⟨Demo.env, l, s, drop s 0 Demo.bob, 0, Demo.bob, 60, _, hl, hi, hd, rfl, by rw [hh]; decide, by rw [hh]; decide,
    ?_, ?_, ?_⟩
  · show refund s 0 Demo.bob true = _
    unfold refund
    rw [hd, ha]; rfl
  · rw [drop_has hd, if_pos ⟨rfl, rfl⟩]; decide
  · rw [drop_ice hd]; rfl

end Verif.Runtime.Units
