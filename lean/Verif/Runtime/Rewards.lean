import Verif.Governance.BalanceTheorems

/-!
# C213: the collators' pot

What is in the account of collator selection (`PotStake`) goes to the authors of blocks.
-/

namespace Verif.Runtime

open Verif Verif.Accounts Verif.Governance

/-- The account of collator selection: runtime/kreivo/src/lib.rs 403 and 421. -/
def potAccount : AccountId := palletAccount potPalletId []

/-- `note_author`, the reward: half of what the pot has beyond the existential deposit, by a transfer that keeps the pot
alive; a transfer that is refused is passed over. Outside /repo; used at runtime/kreivo/src/lib.rs 417-431
(pallet_collator_selection). -/
def rewardAuthor (fixed : AccountId → Bool) (s : Native.St) (author : AccountId) : Native.St :=
  (Native.transfer fixed s potAccount author (((s.acc potAccount).free - s.ed) / 2) true).getD s

/-- What happens to native funds: a call of the balances pallet, a block whose author is known, or something else that takes
nothing from the pot. Part of the transition system around the code (outside /repo). -/
inductive PotStep : Native.St → List (AccountId × Nat) → Native.St → Prop
  | call {s s' : Native.St} (fixed : AccountId → Bool) (o : RtOrigin) (c : Native.Call) (h : Native.dispatch fixed s o c = some s')
    (h1 : o ≠ .root) (h2 : o ≠ .signed potAccount) : PotStep s [] s'
  | block (s : Native.St) (fixed : AccountId → Bool) (author : AccountId) :
    PotStep s [(author, (s.acc potAccount).total - ((rewardAuthor fixed s author).acc potAccount).total)]
      (rewardAuthor fixed s author)
  | other {s s' : Native.St} (h : (s.acc potAccount).total ≤ (s'.acc potAccount).total) : PotStep s [] s'

/-- Histories, with what the pot lost to whom. Part of the transition system around the code (outside /repo). -/
inductive PotRun : Native.St → List (AccountId × Nat) → Native.St → Prop
  | start (s : Native.St) : PotRun s [] s
  | more {s s1 s2 : Native.St} {l new : List (AccountId × Nat)} (h : PotRun s l s1) (hs : PotStep s1 new s2) :
    PotRun s (l ++ new) s2

/-! ## Lemmas -/

/-- A reward is a transfer of half, or nothing. -/
theorem rewardAuthor_cases (fixed : AccountId → Bool) (s : Native.St) (author : AccountId) :
    rewardAuthor fixed s author = s ∨
    (potAccount ≠ author ∧
      Native.transfer fixed s potAccount author (((s.acc potAccount).free - s.ed) / 2) true =
        some (rewardAuthor fixed s author) ∧
      ((s.acc potAccount).free - s.ed) / 2 ≠ 0) := by
  unfold rewardAuthor
  cases ht : Native.transfer fixed s potAccount author (((s.acc potAccount).free - s.ed) / 2) true with
  | none => exact .inl rfl
  | some s' =>
    rcases transfer_facts ht with rfl | ⟨h1, h2, _⟩
    · exact .inl rfl
    · exact .inr ⟨h1, rfl, h2⟩

/-! ## C213 -/

/-- **C213.** Which account the pot is. It is not the treasury, and no community's. -/
theorem C213_pot : potAccount = ascii "modlPotStake" ++ List.replicate 20 0 ∧ potAccount ≠ treasuryAccount ∧
    ∀ c, potAccount ≠ communityAccount c :=
  ⟨by decide +kernel, by decide +kernel, fun c h => (C61_not_system_account c []).2.1 h.symm⟩

/-- **C213.** Each block takes from the pot either nothing or exactly half of what it has beyond the existential deposit, and
the author of the block gets exactly that; the pot keeps its reserves and at least the existential deposit, nobody else is
touched. -/
theorem C213_half (fixed : AccountId → Bool) (s : Native.St) (author : AccountId) :
    let s' := rewardAuthor fixed s author
    let half := ((s.acc potAccount).free - s.ed) / 2
    s' = s ∨
    ((s'.acc potAccount).free + half = (s.acc potAccount).free ∧ s.ed < (s'.acc potAccount).free ∧
      (s'.acc potAccount).reserved = (s.acc potAccount).reserved ∧
      (s'.acc author).free = (s.acc author).free + half ∧ (s'.acc author).reserved = (s.acc author).reserved ∧
      ∀ b, b ≠ potAccount → b ≠ author → s'.acc b = s.acc b) := by
  intro s' half
  rcases rewardAuthor_cases fixed s author with h | ⟨hne, ht, hn⟩
  · exact .inl h
  · right
    have h := C189_transfer fixed s s' potAccount author half hne hn true ht
    obtain ⟨h1, h2, h3, h4, h5, h6⟩ := h
    have hh : half ≠ 0 := hn
    have h5 : (s'.acc potAccount).free = (s.acc potAccount).free - half := by
      rcases h5 with h5 | ⟨h5, _⟩
      · exact h5
      · cases h5
    have e : half = ((s.acc potAccount).free - s.ed) / 2 := rfl
    have hle : 2 * half ≤ (s.acc potAccount).free - s.ed := by omega
    exact ⟨by omega, by omega, h4, h1, h2, h6⟩

/-- **C213.** The author does get it: if the pot has two units or more beyond the existential deposit, no more frozen than
that deposit, and the author's account exists or the reward can open it, it is paid (unless sums of balances overflow). -/
theorem C213_paid (fixed : AccountId → Bool) (s : Native.St) (author : AccountId) (hne : potAccount ≠ author)
    (hn : s.ed + 2 ≤ (s.acc potAccount).free) (hf : (s.acc potAccount).frozen ≤ s.ed)
    (ha : s.ed ≤ (s.acc author).free + ((s.acc potAccount).free - s.ed) / 2)
    (hm : (s.acc author).free + (s.acc potAccount).free ≤ Native.maxBalance)
    (hi : s.issuance + (s.acc potAccount).free ≤ Native.maxBalance) :
    ((rewardAuthor fixed s author).acc author).free = (s.acc author).free + ((s.acc potAccount).free - s.ed) / 2 := by
  rcases rewardAuthor_cases fixed s author with h | ⟨hne, ht, hn⟩
  · exfalso
    have h0 : ((s.acc potAccount).free - s.ed) / 2 ≠ 0 := by omega
    have hr : ((s.acc potAccount).free - s.ed) / 2 ≤ Native.reducible fixed s potAccount true := by
      unfold Native.reducible
      simp only [true_or, if_true]
      have : max ((s.acc potAccount).frozen - (s.acc potAccount).reserved) s.ed = s.ed := max_eq_right (by omega)
      rw [this]
      omega
    have ht : Native.transfer fixed s potAccount author (((s.acc potAccount).free - s.ed) / 2) true =
        some (rewardAuthor fixed s author) := by
      unfold rewardAuthor
      unfold Native.transfer
      rw [if_neg h0, if_pos ⟨hr, ha, by omega, by omega⟩, if_neg hne]
      rfl
    have := (C189_transfer fixed s _ potAccount author _ hne h0 true ht).1
    rw [h] at this
    omega
  · exact (C189_transfer fixed s _ potAccount author _ hne hn true ht).1

/-- **C213.** Over any history in which nobody acts for the pot (C146) and the collective does not interfere, whatever the pot
has less at the end than at the beginning was paid to authors of blocks. -/
theorem C213_only_authors {s s' : Native.St} {l : List (AccountId × Nat)} (h : PotRun s l s') :
    (s.acc potAccount).total ≤ (s'.acc potAccount).total + (l.map Prod.snd).sum := by
  induction h with
  | start => simp
  | @more s1 s2 l new h hs ih =>
    rw [List.map_append, List.sum_append]
    cases hs with
    | call fixed o c h h1 h2 =>
      have : (s1.acc potAccount).total ≤ (s2.acc potAccount).total := by
        by_contra hlt
        rcases C189_own_hand fixed s1 s2 o c h potAccount (not_le.1 hlt) with e | e
        · exact h1 e
        · exact h2 e
      simp only [List.map_nil, List.sum_nil]
      omega
    | block fixed author =>
      simp only [List.map_cons, List.map_nil, List.sum_cons, List.sum_nil]
      omega
    | other h =>
      simp only [List.map_nil, List.sum_nil]
      omega

/-- **C213.** And no block takes more than half of what the pot has beyond the existential deposit. -/
theorem C213_at_most_half {s s' : Native.St} {l : List (AccountId × Nat)} (h : PotStep s l s') :
    ∀ p ∈ l, p.2 ≤ ((s.acc potAccount).free - s.ed) / 2 := by
  cases h with
  | call => intro p hp; cases hp
  | other => intro p hp; cases hp
  | block fixed author =>
    intro p hp
    cases List.mem_singleton.1 hp
    dsimp only
    rcases C213_half fixed s author with h | ⟨h1, _, h3, _⟩
    · rw [h]; omega
    · simp only [Native.Acct.total]
      omega

/-- **C213.** Rewards leave the issuance on record the sum of all balances. -/
theorem C213_balanced (fixed : AccountId → Bool) (s : Native.St) (author : AccountId) (h : Balanced s) :
    Balanced (rewardAuthor fixed s author) := by
  rcases rewardAuthor_cases fixed s author with e | ⟨_, ht, _⟩
  · rw [e]; exact h
  · exact transfer_balanced ht h

/-! ## Non-vacuity -/

/-- A pot with 1010 units; the existential deposit is 10. Example for non-vacuity (outside /repo). -/
def Demo.potPurse : Native.St :=
  ⟨fun a => if a = potAccount then ⟨1010, 0, 0⟩ else if a = [2] then ⟨500, 0, 0⟩ else ⟨0, 0, 0⟩, 1510, 10⟩

/-- Two blocks by `[2]` and one by `[3]`, who had nothing: 500, 250 and, after somebody sends 100, 175. -/
example : ∃ s', PotRun Demo.potPurse [([2], 500), ([2], 250), ([3], 175)] s' ∧ (s'.acc potAccount).free = 185 ∧
    (s'.acc [2]).free = 1150 ∧ (s'.acc [3]).free = 175 := by
  obtain ⟨s3, e, hs⟩ : ∃ s3, Native.dispatch (fun _ => false) (rewardAuthor (fun _ => false)
      (rewardAuthor (fun _ => false) Demo.potPurse [2]) [2]) (.signed [2]) (.transferKeepAlive potAccount 100) = some s3 ∧
      (s3.acc potAccount).total - ((rewardAuthor (fun _ => false) s3 [3]).acc potAccount).total = 175 ∧
      ((rewardAuthor (fun _ => false) s3 [3]).acc potAccount).free = 185 ∧
      ((rewardAuthor (fun _ => false) s3 [3]).acc [2]).free = 1150 ∧
      ((rewardAuthor (fun _ => false) s3 [3]).acc [3]).free = 175 := by
    refine ⟨_, rfl, ?_, ?_, ?_, ?_⟩ <;> decide +kernel
  have r := (((PotRun.start Demo.potPurse).more (.block _ (fun _ => false) [2])).more (.block _ (fun _ => false) [2])).more
    (.call (fun _ => false) (.signed [2]) _ e (by simp) (by decide +kernel)) |>.more (.block _ (fun _ => false) [3])
  refine ⟨_, ?_, hs.2.1, hs.2.2.1, hs.2.2.2⟩
  rw [hs.1] at r
  have e1 : (Demo.potPurse.acc potAccount).total -
    ((rewardAuthor (fun _ => false) Demo.potPurse [2]).acc potAccount).total = 500 := by decide +kernel
  have e2 : ((rewardAuthor (fun _ => false) Demo.potPurse [2]).acc potAccount).total -
    ((rewardAuthor (fun _ => false) (rewardAuthor (fun _ => false) Demo.potPurse [2]) [2]).acc potAccount).total = 250 := by
    decide +kernel
  rw [e1, e2] at r
  simpa using r

/-- The conditions of `C213_paid` are met. -/
example : potAccount ≠ [2] ∧ Demo.potPurse.ed + 2 ≤ (Demo.potPurse.acc potAccount).free ∧
    (Demo.potPurse.acc potAccount).frozen ≤ Demo.potPurse.ed ∧
    Demo.potPurse.ed ≤ (Demo.potPurse.acc [2]).free + ((Demo.potPurse.acc potAccount).free - Demo.potPurse.ed) / 2 ∧
    (Demo.potPurse.acc [2]).free + (Demo.potPurse.acc potAccount).free ≤ Native.maxBalance ∧
    Demo.potPurse.issuance + (Demo.potPurse.acc potAccount).free ≤ Native.maxBalance := by decide +kernel

end Verif.Runtime
