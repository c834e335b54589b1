import Verif.Governance.RefSteps

/-!
# C110–C112: who votes in the collective, and what it takes to act as root
-/

namespace Verif.Governance

open Verif Verif.Accounts Verif.Communities

/-! ## A small chain for the examples -/

namespace Demo

/-- Nothing is refused. -/
def genv : GEnv where
  base := menv
  denyDeposit := fun _ => false
  denySchedule := fun _ => false

/-- One account, `[9]`, has a seat of rank 1. -/
def gstart : GSt where
  m := { mstart with seats := fun a => if a = [9] then some 1 else none }
  roll := [[9]]
  now := 1
  crefs := fun _ => none
  cnext := 0
  ctally := fun _ => .zero
  cvotes := fun _ => []
  refs := fun _ => none
  next := 0
  agenda := []

/-- The same chain with an empty collective, as the local chain specification makes it
(chain-spec-generator/src/spec/local.rs 87-140). -/
def gempty : GSt := { gstart with m := mstart, roll := [] }

theorem genv_tame : Tame genv := by
  intro n o w w' h
  cases h

theorem gstart_genesis : GGenesis gstart where
  comm := ⟨fun _ => rfl, fun _ => rfl, fun _ => rfl, fun _ => rfl, fun _ => rfl, fun _ _ => rfl, fun _ => rfl⟩
  trackOf := fun _ => rfl
  roll := ⟨by decide, fun a => by simp [gstart]⟩
  ranks := fun a r h => by
    simp only [gstart] at h
    split at h
    · cases h; decide
    · cases h
  crefs := fun _ => rfl
  refs := fun _ => rfl
  tally := fun _ => rfl
  votes := fun _ => rfl
  agenda := rfl

theorem gempty_genesis : GGenesis gempty where
  comm := ⟨fun _ => rfl, fun _ => rfl, fun _ => rfl, fun _ => rfl, fun _ => rfl, fun _ _ => rfl, fun _ => rfl⟩
  trackOf := fun _ => rfl
  roll := ⟨by decide, fun a => by simp [gempty, mstart]⟩
  ranks := fun a r h => by cases h
  crefs := fun _ => rfl
  refs := fun _ => rfl
  tally := fun _ => rfl
  votes := fun _ => rfl
  agenda := rfl

/-- An act of the examples: a call from outside, servicing, time passing, or memberships changing hands. -/
inductive Act
  | call (o : Origin) (c : GCall)
  | collective (p : Nat)
  | community (p : Nat)
  | time (n : Nat)
  | items (l : List Item)

/-- Perform it; nothing happens if it fails. -/
def act (s : GSt) : Act → GSt
  | .call o c => (gdispatch genv s o c).getD s
  | .collective p => (serviceCollective genv s p).getD s
  | .community p => (serviceCommunity genv s p).getD s
  | .time n => { s with now := s.now + n }
  | .items l => { s with m := { s.m with comm := { s.m.comm with world := { s.m.comm.world with items := l } } } }

/-- The acts whose origin is one of those calls from outside have. -/
def Act.outside : Act → Bool
  | .call (.signed _) _ => true
  | .call .none _ => true
  | .call (.other _) _ => true
  | .call _ _ => false
  | _ => true

theorem act_reach {g s : GSt} (h : GReach g s) (a : Act) (ha : a.outside = true) : GReach g (act s a) := by
  cases a with
  | call o c =>
    rcases run_cases (env := genv) (s := s) (o := o) (c := c) with h2 | h2
    · show GReach g ((gdispatch genv s o c).getD s)
      rw [h2]; exact h
    · refine .step h (.call genv genv_tame o ?_ c h2)
      cases o <;> first | trivial | cases ha
  | collective p =>
    show GReach g ((serviceCollective genv s p).getD s)
    cases hs : serviceCollective genv s p with
    | none => exact h
    | some s' => exact .step h (.collective genv p hs)
  | community p =>
    show GReach g ((serviceCommunity genv s p).getD s)
    cases hs : serviceCommunity genv s p with
    | none => exact h
    | some s' => exact .step h (.community genv p hs)
  | time n => exact .step h (.time n)
  | items l => exact .step h (.world _ rfl)

theorem acts_reach {g s : GSt} (h : GReach g s) (l : List Act) (hl : l.all Act.outside = true) :
    GReach g (l.foldl act s) := by
  induction l generalizing s with
  | nil => exact h
  | cons a l ih =>
    simp only [List.all_cons, Bool.and_eq_true] at hl
    exact ih (act_reach h a hl.1) hl.2

/-- Account `[9]` proposes a root call, pays the deposit and votes aye. -/
def proposal : List Act :=
  [.call (.signed [9]) (.csubmit .root (.promote [9]) (.after 0)), .call (.signed [9]) (.cdeposit 0),
   .call (.signed [9]) (.cvote 0 true)]

/-- Fifteen minutes to prepare, fifteen to confirm. -/
def decision : List Act := [.time (15 * minutes), .collective 0, .time (15 * minutes), .collective 0]

end Demo

/-! ## C110 -/

/-- The votes on record of a referendum of the collective, added up: each counts as much as recorded. -/
def collectiveRecord (s : GSt) (p : Nat) : Tally where
  ayes := asum (fun e => if e.2.1 then e.2.2 else 0) (s.cvotes p)
  nays := asum (fun e => if e.2.1 then 0 else e.2.2) (s.cvotes p)
  bareAyes := asum (fun e => if e.2.1 then 1 else 0) (s.cvotes p)

/-- C110: a vote in the collective is signed by a member of rank at least one, on an ongoing referendum, and is recorded
with that rank as its weight, in place of the member's earlier vote; other votes stay. -/
theorem C110_vote (env : GEnv) (s s' : GSt) (o : Origin) (p : Nat) (aye : Bool)
    (h : gdispatch env s o (.cvote p aye) = some s') :
    ∃ who rank r, o = .signed who ∧ s.m.seats who = some rank ∧ 1 ≤ rank ∧ s.crefs p = some (.ongoing r) ∧
      aget (s'.cvotes p) who = some (aye, rank) ∧
      (∀ x, x ≠ who → aget (s'.cvotes p) x = aget (s.cvotes p) x) ∧ ∀ q, q ≠ p → s'.cvotes q = s.cvotes q := by
  rw [gdispatch] at h
  unfold collectiveVote at h
  split at h
  · rename_i who
    split at h
    · rename_i rank r hr hp
      split at h
      · cases h
      · rename_i n hn
        cases h
        unfold rankToVotes minRank at hn
        split at hn
        · cases hn
        · cases hn
          have : rank - 1 + 1 = rank := by omega
          rw [this]
          refine ⟨who, rank, r, rfl, hr, by omega, hp, ?_, fun x hx => ?_, fun q hq => ?_⟩
          · simp
          · simp [aget_aset_ne _ _ hx]
          · simp [hq]
    · cases h
  · cases h

/-- C110: and every such member can vote. -/
theorem C110_members_can (env : GEnv) (s : GSt) (who : AccountId) (rank p : Nat) (r : Ref Nat) (aye : Bool)
    (h1 : s.m.seats who = some rank) (h2 : 1 ≤ rank) (h3 : s.crefs p = some (.ongoing r)) :
    ∃ s', gdispatch env s (.signed who) (.cvote p aye) = some s' := by
  have hn : rankToVotes rank = some (rank - 1 + 1) := by
    unfold rankToVotes minRank; rw [if_neg (by omega)]
  simp only [gdispatch, collectiveVote, h1, h3, hn]
  exact ⟨_, rfl⟩

/-- Histories in which at most 65537 accounts vote on any one referendum of the collective. -/
inductive FReach (g : GSt) : GSt → Prop
  | start : FReach g g
  | step {s s' : GSt} (h : FReach g s) (st : GStep s s') (hf : ∀ p, (s'.cvotes p).length ≤ 65537) : FReach g s'

theorem FReach.reach {g s : GSt} (h : FReach g s) : GReach g s := by
  induction h with
  | start => exact .start
  | step _ st _ ih => exact .step ih st

/-- Ranks and weights are 16-bit numbers and nobody votes twice. -/
structure Ballots (s : GSt) : Prop where
  ranks : ∀ a r, s.m.seats a = some r → r ≤ maxRank
  once : ∀ p, AOk (s.cvotes p)
  weights : ∀ p, ∀ e ∈ s.cvotes p, 1 ≤ e.2.2 ∧ e.2.2 ≤ maxRank

theorem mem_aset {K V : Type} [DecidableEq K] {l : List (K × V)} {k : K} {v : V} {e : K × V} (h : e ∈ aset l k v) :
    e = (k, v) ∨ e ∈ l := by
  rcases List.mem_cons.1 h with h | h
  · exact .inl h
  · exact .inr (mem_adel.1 h).1

theorem rankToVotes_some {rank n : Nat} (h : rankToVotes rank = some n) : n = rank ∧ 1 ≤ rank := by
  unfold rankToVotes minRank at h
  split at h
  · cases h
  · cases h; omega

theorem Ballots.leaf {env : GEnv} {s s' : GSt} {o : Origin} (hs : Ballots s) (h : Leaf env s o s') : Ballots s' := by
  cases h with
  | comm o c c' h => exact ⟨hs.ranks, hs.once, hs.weights⟩
  | mgr o c m' h =>
    refine ⟨fun a r ha => ?_, hs.once, hs.weights⟩
    have ha : m'.seats a = some r := ha
    rcases (mdispatch_facts h).2.2 with ⟨h1, _⟩ | ⟨d, _, _, _, _, _, _, h1⟩
    · rw [h1] at ha; exact hs.ranks a r ha
    · rw [h1] at ha
      dsimp only at ha
      split at ha
      · cases ha; exact Nat.zero_le _
      · exact hs.ranks a r ha
  | promote who r h hr =>
    refine ⟨fun a k ha => ?_, hs.once, hs.weights⟩
    have ha : (if a = who then some (r + 1) else s.m.seats a) = some k := ha
    split at ha
    · cases ha; exact hr
    · exact hs.ranks a k ha
  | demote who r h =>
    refine ⟨fun a k ha => ?_, hs.once, hs.weights⟩
    have ha : (if a = who then some r else s.m.seats a) = some k := ha
    split at ha
    · cases ha; have := hs.ranks _ _ h; omega
    · exact hs.ranks a k ha
  | leave who r h =>
    refine ⟨fun a k ha => ?_, hs.once, hs.weights⟩
    have ha : (if a = who then none else s.m.seats a) = some k := ha
    split at ha
    · cases ha
    · exact hs.ranks a k ha
  | exchange who new r h1 h2 hne =>
    refine ⟨fun a k ha => ?_, hs.once, hs.weights⟩
    have ha : (if a = new then some r else if a = who then none else s.m.seats a) = some k := ha
    split at ha
    · cases ha; exact hs.ranks _ _ h1
    · split at ha
      · cases ha
      · exact hs.ranks a k ha
  | cvote who p aye rank n r h1 h2 h3 =>
    obtain ⟨rfl, hn⟩ := rankToVotes_some h3
    refine ⟨hs.ranks, fun q => ?_, fun q e he => ?_⟩
    · dsimp only; split
      · exact aok_aset (hs.once p) _ _
      · exact hs.once q
    · dsimp only at he
      split at he
      · rcases mem_aset he with rfl | he
        · exact ⟨hn, hs.ranks _ _ h1⟩
        · exact hs.weights p e he
      · exact hs.weights q e he
  | csubmit who origin call m t h => exact ⟨hs.ranks, hs.once, hs.weights⟩
  | cref o p r i h hi => exact ⟨hs.ranks, hs.once, hs.weights⟩
  | submit o who origin call m t h => exact ⟨hs.ranks, hs.once, hs.weights⟩
  | place o p r h => exact ⟨hs.ranks, hs.once, hs.weights⟩
  | close p r i h hi => exact ⟨hs.ranks, hs.once, hs.weights⟩
  | tracks tr tf => exact ⟨hs.ranks, hs.once, hs.weights⟩
  | update o c i h h' => exact ⟨hs.ranks, hs.once, hs.weights⟩
  | plan w call hw => exact ⟨hs.ranks, hs.once, hs.weights⟩
  | unplan k => exact ⟨hs.ranks, hs.once, hs.weights⟩
  | same o => exact hs

theorem reach_ballots {g : GSt} (hg : GGenesis g) {s : GSt} (h : GReach g s) : Ballots s := by
  refine ginduct (I := Ballots) ⟨hg.ranks, fun p => by rw [hg.votes p]; exact aok_nil, fun p e he => ?_⟩
    (fun _ _ _ _ _ hi _ => ⟨hi.ranks, hi.once, hi.weights⟩) (fun _ _ _ _ _ hi _ _ => ⟨hi.ranks, hi.once, hi.weights⟩)
    (fun _ _ _ _ _ hi hl => hi.leaf hl)
    (fun _ _ _ _ hi hs => ?_) (fun _ _ _ _ hi hs => ?_)
    (fun _ _ hi => ⟨hi.ranks, hi.once, hi.weights⟩) (fun _ _ hi _ => ⟨hi.ranks, hi.once, hi.weights⟩) h
  · rw [hg.votes p] at he; cases he
  · obtain ⟨h1, h2, _⟩ := serviceCollective_same hs
    exact ⟨by rw [h1]; exact hi.ranks, by rw [h2]; exact hi.once, by rw [h2]; exact hi.weights⟩
  · obtain ⟨h1, _, _, h2, _⟩ := serviceCommunity_same hs
    exact ⟨by rw [h1]; exact hi.ranks, by rw [h2]; exact hi.once, by rw [h2]; exact hi.weights⟩

theorem asum_le_mul {K V : Type} [DecidableEq K] (f : K × V → Nat) (b : Nat) (l : List (K × V)) (h : ∀ e ∈ l, f e ≤ b) :
    asum f l ≤ b * l.length := by
  induction l with
  | nil => simp
  | cons e l ih =>
    rw [asum_cons, List.length_cons, Nat.mul_succ]
    have h1 := h e (List.mem_cons_self ..)
    have h2 := ih fun x hx => h x (List.mem_cons_of_mem _ hx)
    omega

/-- Counting a vote in place of the earlier one of the same account. -/
theorem recount (l : List (AccountId × (Bool × Nat))) (ok : AOk l) (who : AccountId) (aye : Bool) (n : Nat)
    (hw : ∀ e ∈ aset l who (aye, n), e.2.2 ≤ maxRank) (hl : (aset l who (aye, n)).length ≤ 65537) (t t' : Tally)
    (ht : t = ⟨asum (fun e => if e.2.1 then e.2.2 else 0) l, asum (fun e => if e.2.1 then 0 else e.2.2) l,
      asum (fun e => if e.2.1 then 1 else 0) l⟩)
    (ht' : t' = ⟨asum (fun e => if e.2.1 then e.2.2 else 0) (aset l who (aye, n)),
      asum (fun e => if e.2.1 then 0 else e.2.2) (aset l who (aye, n)),
      asum (fun e => if e.2.1 then 1 else 0) (aset l who (aye, n))⟩) :
    accrue (retract t (aget l who)) aye n = t' := by
  have b1 := asum_le_mul (fun e => if e.2.1 then e.2.2 else 0) maxRank (aset l who (aye, n)) (fun e he => by
    split
    · exact hw e he
    · exact Nat.zero_le _)
  have b2 := asum_le_mul (fun e => if e.2.1 then 0 else e.2.2) maxRank (aset l who (aye, n)) (fun e he => by
    split
    · exact Nat.zero_le _
    · exact hw e he)
  have b3 := asum_le_mul (fun e => if e.2.1 then 1 else 0) maxRank (aset l who (aye, n)) (fun e he => by
    split
    · decide
    · exact Nat.zero_le _)
  have hb : maxRank * (aset l who (aye, n)).length ≤ WMAX :=
    Nat.le_trans (Nat.mul_le_mul_left maxRank hl) (by decide)
  replace b1 := Nat.le_trans b1 hb
  replace b2 := Nat.le_trans b2 hb
  replace b3 := Nat.le_trans b3 hb
  clear hb hl hw
  have hsat : ∀ a b, satAdd32 a b = min (a + b) WMAX := fun _ _ => rfl
  simp only [retract, accrue, hsat]
  clear hsat
  subst ht ht'
  simp only [asum_aset]
  generalize WMAX = W at b1 b2 b3 ⊢
  rw [asum_aset] at b1 b2 b3
  cases hg : aget l who with
  | none =>
    rw [adel_of_none hg] at b1 b2 b3 ⊢
    cases aye <;> simp only [if_true, if_false, Bool.false_eq_true] at b1 b2 b3 ⊢ <;>
      simp only [Tally.mk.injEq] <;> omega
  | some v =>
    obtain ⟨a0, n0⟩ := v
    have s1 := asum_split ok (fun e => if e.2.1 then e.2.2 else 0) hg
    have s2 := asum_split ok (fun e => if e.2.1 then 0 else e.2.2) hg
    have s3 := asum_split ok (fun e => if e.2.1 then 1 else 0) hg
    cases aye <;> cases a0 <;>
      simp only [if_true, if_false, Bool.false_eq_true] at b1 b2 b3 s1 s2 s3 ⊢ <;>
      simp only [Tally.mk.injEq] <;> omega

/-- C110: in every history in which no more than 65537 accounts vote on a referendum, the tally of each referendum of the
collective is exactly the sum of the votes on record. -/
theorem C110_tally (g : GSt) (hg : GGenesis g) (s : GSt) (h : FReach g s) (p : Nat) :
    s.ctally p = collectiveRecord s p := by
  induction h generalizing p with
  | start =>
    unfold collectiveRecord
    rw [hg.tally p, hg.votes p]; rfl
  | @step s s' hr st hf ih =>
    have hshape := reach_shape hg hr.reach
    have hball := reach_ballots hg hr.reach
    have hball' := reach_ballots hg (.step hr.reach st)
    have hsame : ∀ {s s' : GSt}, (∀ p, s.ctally p = collectiveRecord s p) → s'.ctally = s.ctally → s'.cvotes = s.cvotes →
        s'.ctally p = collectiveRecord s' p := by
      intro s s' ih h1 h2
      unfold collectiveRecord
      rw [h1, h2]; exact ih p
    have hleaf : ∀ (env : GEnv) (s1 : GSt) (o : Origin), s1.ctally = s.ctally → s1.cvotes = s.cvotes →
        s1.cnext = s.cnext → Leaf env s1 o s' → s'.ctally p = collectiveRecord s' p := by
      intro env s1 o e1 e2 e3 hl
      have ih1 : ∀ p, s1.ctally p = collectiveRecord s1 p := by
        intro p; unfold collectiveRecord; rw [e1, e2]; exact ih p
      cases hl with
      | cvote who q aye rank n r h1 h2 h3 =>
        by_cases hpq : p = q
        · subst hpq
          have hl := hf p
          have hw := hball'.weights p
          simp only [if_true] at hl hw
          show (if p = p then _ else _) = _
          rw [if_pos rfl]
          refine recount (s1.cvotes p) (by rw [e2]; exact hball.once p) who aye n (fun e he => (hw e he).2) hl _ _
            (ih1 p) ?_
          unfold collectiveRecord
          simp
        · have := ih1 p
          unfold collectiveRecord at this ⊢
          simp only [if_neg hpq]
          exact this
      | csubmit who origin call m t h =>
        by_cases hpq : p = s1.cnext
        · subst hpq
          have hv : s1.cvotes s1.cnext = [] := by
            rw [e2, e3]; exact (hshape.cborn _ (le_refl _)).2
          show (if s1.cnext = s1.cnext then _ else _) = _
          rw [if_pos rfl]
          show Tally.zero = collectiveRecord s1 s1.cnext
          unfold collectiveRecord
          rw [hv]; rfl
        · show (if p = s1.cnext then _ else _) = collectiveRecord s1 p
          rw [if_neg hpq]
          exact ih1 p
      | _ => exact hsame ih1 rfl rfl
    cases st with
    | call env he o ho c hd =>
      obtain ⟨o', _, hl⟩ := gdispatch_leaf hd
      exact hleaf env s o' rfl rfl rfl hl
    | run env he pre post t ha hw =>
      rcases run_cases (env := env) (s := { s with agenda := pre ++ post }) (o := t.origin) (c := t.call) with h2 | h2
      · rw [h2]; exact hsame (s := s) ih rfl rfl
      · obtain ⟨o', _, hl⟩ := gdispatch_leaf h2
        exact hleaf env { s with agenda := pre ++ post } o' rfl rfl rfl hl
    | apart pre post rest t ha hr hw => exact hsame (s := s) ih rfl rfl
    | collective env q hs =>
      obtain ⟨_, h2, h3, _⟩ := serviceCollective_same hs
      exact hsame ih h3 h2
    | community env q hs =>
      obtain ⟨_, _, _, h2, h3, _⟩ := serviceCommunity_same hs
      exact hsame ih h3 h2
    | time n => exact hsame (s := s) ih rfl rfl
    | world w hw => exact hsame (s := s) ih rfl rfl

/-- Two referenda, three votes, one of them changed: the tally is that of the last ones. -/
example :
    let s := (Demo.proposal ++ [Demo.Act.call (.signed [9]) (.cvote 0 false)]).foldl Demo.act Demo.gstart
    FReach Demo.gstart Demo.gstart ∧ s.ctally 0 = ⟨0, 1, 0⟩ ∧ s.cvotes 0 = [([9], (false, 1))] ∧
      gdispatch Demo.genv s (.signed [1]) (.cvote 0 true) = none := by
  refine ⟨.start, by decide +kernel, by decide +kernel, by rfl⟩

/-- C110: the members and their ranks change only when a root call that was scheduled runs, except that a newly
registered community's account gets a seat of rank 0, which does not vote. -/
theorem C110_ranks_by_root (s s' : GSt) (st : GStep s s') (a : AccountId) (h : s'.m.seats a ≠ s.m.seats a) :
    (s.m.seats a = none ∧ s'.m.seats a = some 0 ∧ ∃ c, a = communityAccount c) ∨
    ∃ t ∈ s.agenda, t.origin = .root ∧ t.when ≤ s.now := by
  have hleaf : ∀ (env : GEnv) (s1 s' : GSt) (o : Origin), s1.m.seats = s.m.seats → o ≠ .root → Leaf env s1 o s' →
      s'.m.seats a ≠ s.m.seats a → s.m.seats a = none ∧ s'.m.seats a = some 0 ∧ ∃ c, a = communityAccount c := by
    intro env s1 s' o e1 ho hl h
    cases hl with
    | mgr o c m' hm =>
      have h : m'.seats a ≠ s.m.seats a := h
      rcases (mdispatch_facts hm).2.2 with ⟨h1, _⟩ | ⟨d, _, _, _, _, _, h0, h1⟩
      · rw [h1, e1] at h; exact absurd rfl h
      · by_cases hd : a = communityAccount d
        · subst hd
          refine ⟨by rw [← e1]; exact h0, ?_, d, rfl⟩
          show m'.seats _ = _
          rw [h1]; simp
        · rw [h1] at h
          simp only [if_neg hd] at h
          rw [e1] at h; exact absurd rfl h
    | promote | demote | leave | exchange | close | tracks | plan | unplan => exact absurd rfl ho
    | comm o c c' hc => exact absurd (show s1.m.seats a = s.m.seats a by rw [e1]) h
    | cvote | csubmit | cref | submit | place | update | same => exact absurd (show s1.m.seats a = s.m.seats a by rw [e1]) h
  cases st with
  | call env he o ho c hd =>
    obtain ⟨o', hor, hl⟩ := gdispatch_leaf hd
    refine .inl (hleaf env s s' o' rfl ?_ hl h)
    rcases hor with rfl | rfl | ⟨x, rfl⟩
    · rintro rfl; exact ho
    · exact ho.elim
    · simp
  | run env he pre post t ha hw =>
    by_cases hr : t.origin = .root
    · exact .inr ⟨t, by rw [ha]; simp, hr, hw⟩
    · left
      rcases run_cases (env := env) (s := { s with agenda := pre ++ post }) (o := t.origin) (c := t.call) with h2 | h2
      · rw [h2] at h; exact absurd rfl h
      · obtain ⟨o', hor, hl⟩ := gdispatch_leaf h2
        refine hleaf env { s with agenda := pre ++ post } _ o' rfl ?_ hl h
        rcases hor with rfl | h3 | ⟨x, rfl⟩
        · exact hr
        · exact absurd h3 hr
        · simp
  | apart pre post rest t ha hr hw => exact absurd rfl h
  | collective env q hs => rw [(serviceCollective_same hs).1] at h; exact absurd rfl h
  | community env q hs => rw [(serviceCommunity_same hs).1] at h; exact absurd rfl h
  | time n => exact absurd rfl h
  | world w hw => exact absurd rfl h

end Verif.Governance
