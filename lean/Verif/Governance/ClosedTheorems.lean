import Verif.Governance.MembersTheorems

/-!
# A community that freezes its collection decides who its members are (C192)

C124 has what single calls do. Here are whole histories: once the collection of a community is frozen, its memberships stay
where they are, whatever anybody else does, until the community or root says otherwise.
-/

namespace Verif.Governance

open Verif Verif.Accounts Verif.Communities

/-! ## Specification -/

/-- What happens on the chain: somebody makes a call, or blocks pass. Part of the transition system around the code (outside
/repo). -/
inductive NAct
  | call (o : Origin) (c : NCall)
  | wait (n : Nat)

/-- One step; a call that fails changes nothing. Part of the transition system around the code (outside /repo). -/
def nexec (env : NEnv) (s : NSt) : NAct → NSt
  | .call o c => (ndispatch env s o c).getD s
  | .wait n => { s with now := s.now + n }

/-- A history. Part of the transition system around the code (outside /repo). -/
def nrun (env : NEnv) (s : NSt) (acts : List NAct) : NSt := acts.foldl (nexec env) s

/-- The collection of a community is closed: it belongs to the account of the community and is administered by it, its items
cannot be transferred, and only the account of the community mints. Specification only, no code behind it (outside /repo). -/
def Closed (s : NSt) (c : CId) : Prop :=
  s.m.collections c = some ⟨communityAccount c, communityAccount c⟩ ∧ s.frozen c = true ∧ (s.minting c).who = .issuer

/-- A call is made by root, or by somebody who has authority over the community, be it as the account of another community
they have authority over. Specification only, no code behind it (outside /repo). -/
def ByCommunity (s : NSt) (c : CId) (o : Origin) : Prop :=
  o = .root ∨ ∃ o', Speaks s.m.comm o o' ∧ authority kreivo s.m.comm o' = some c

/-! ## Lemmas -/

theorem speaks_root {s : St} {o : Origin} (h : Speaks s o .root) : o = .root := by
  obtain ⟨r, hr⟩ : ∃ r : Origin, r = .root := ⟨_, rfl⟩
  rw [← hr] at h
  induction h with
  | self => exact hr
  | account c _ _ ih => cases ih hr

theorem speaks_account {s : St} {o : Origin} {c : CId} (h : Speaks s o (.signed (communityAccount c))) :
    o = .signed (communityAccount c) ∨ ∃ o', Speaks s o o' ∧ authority kreivo s o' = some c := by
  obtain ⟨r, hr⟩ : ∃ r : Origin, r = .signed (communityAccount c) := ⟨_, rfl⟩
  rw [← hr] at h
  induction h with
  | self => exact .inl hr
  | @account o o' d ha _ ih =>
    rcases ih hr with e | ⟨o'', h1, h2⟩
    · injection e with e
      cases C60_injective _ _ e
      exact .inr ⟨o, .self o, ha⟩
    · exact .inr ⟨o'', .account d ha h1, h2⟩

theorem byCommunity_of {s : NSt} {c : CId} {o o' : Origin} (hs : Speaks s.m.comm o o')
    (hk : o ≠ .signed (communityAccount c))
    (h : o' = .root ∨ authority kreivo s.m.comm o' = some c ∨ o' = .signed (communityAccount c)) : ByCommunity s c o := by
  rcases h with rfl | h | rfl
  · exact .inl (speaks_root hs)
  · exact .inr ⟨o', hs, h⟩
  · rcases speaks_account hs with e | h
    · exact absurd e hk
    · exact .inr h

/-- A closed collection stays closed unless the community or root opens it. -/
theorem closed_step {env : NEnv} {s : NSt} {c : CId} (hc : Closed s c) {o : Origin} {call : NCall} {s' : NSt}
    (hk : o ≠ .signed (communityAccount c)) (h : ndispatch env s o call = some s') (hn : ¬ ByCommunity s c o) :
    Closed s' c := by
  obtain ⟨h1, h2, h3⟩ := hc
  refine ⟨?_, ?_, ?_⟩
  · by_contra hcon
    obtain ⟨o', leaf, hs, ho, _⟩ := C124_keeper env s s' o call h c _ h1 hcon
    exact hn (byCommunity_of hs hk (ho.imp id .inr))
  · by_contra hcon
    obtain ⟨o', hs, ho⟩ := C124_stays_frozen env s s' o call h c h2 (by simpa using hcon)
    rcases ho with ⟨ho, _⟩ | ⟨⟨col, hcol, ho⟩, _⟩
    · exact hn (byCommunity_of hs hk (.inl ho))
    · rw [h1] at hcol; cases hcol
      exact hn (byCommunity_of hs hk (ho.imp id .inr))
  · by_contra hcon
    obtain ⟨o', col, hs, hcol, ho⟩ := C124_minting_opened_by_admin env s s' o call h c (fun e => hcon (by rw [e]; exact h3))
    rw [h1] at hcol; cases hcol
    refine hn (byCommunity_of hs hk ?_)
    rcases ho with ho | ho | ⟨ho, _⟩
    · exact .inl ho
    · exact .inr (.inr ho)
    · exact .inr (.inr ho)

/-! ## C192 -/

/-- C192: take a community whose collection is closed and any history from there, of calls of anybody and blocks. If somebody
comes to hold a membership in it that they did not hold, then one of the calls was made by root or with authority over the
community. The account of the community has no key: it has signed nothing and signs no transaction. -/
theorem C192_no_membership_moves (env : NEnv) (he : GroupLaws env.base) (s : NSt) (c : CId) (hc : c ≠ 0)
    (hclosed : Closed s c) (acts : List NAct)
    (hsig : ∀ d, env.signs (communityAccount c) d = false)
    (hkey : ∀ call, NAct.call (.signed (communityAccount c)) call ∉ acts)
    (m : MId) (a : AccountId) (h0 : ¬ Holds s.m.comm.world.items c m a)
    (h1 : Holds (nrun env s acts).m.comm.world.items c m a) :
    ∃ k o call, acts[k]? = some (.call o call) ∧ ByCommunity (nrun env s (acts.take k)) c o := by
  induction acts generalizing s with
  | nil => exact absurd h1 h0
  | cons act rest ih =>
    have next : ∀ s', nexec env s act = s' → Closed s' c → ¬ Holds s'.m.comm.world.items c m a →
        ∃ k o call, (act :: rest)[k]? = some (.call o call) ∧ ByCommunity (nrun env s ((act :: rest).take k)) c o := by
      intro s' e hcl hm
      obtain ⟨k, o, call, hk, hb⟩ := ih s' hcl (fun call h => hkey call (List.mem_cons_of_mem _ h)) hm
        (by rw [← e]; exact h1)
      refine ⟨k + 1, o, call, hk, ?_⟩
      rw [List.take_succ_cons]
      show ByCommunity (nrun env (nexec env s act) _) c o
      rw [e]; exact hb
    cases act with
    | wait n => exact next _ rfl hclosed h0
    | call o call =>
      by_cases hb : ByCommunity s c o
      · exact ⟨0, o, call, rfl, hb⟩
      · have hk : o ≠ .signed (communityAccount c) := by
          rintro rfl; exact hkey call List.mem_cons_self
        cases hd : ndispatch env s o call with
        | none => exact next s (by simp [nexec, hd]) hclosed h0
        | some s' =>
          refine next s' (by simp [nexec, hd]) (closed_step hclosed hk hd hb) ?_
          intro hm
          obtain ⟨o', hs, ho⟩ := item_locked env he s s' o call hd c hc m a (.inl hclosed.2.1)
            (by intro col hcol; rw [hclosed.1] at hcol; cases hcol; rfl) hclosed.2.2 hsig h0 hm
          exact hb (byCommunity_of hs hk ho)

/-- C192: in particular nobody becomes a member without a call of root or with authority over the community. -/
theorem C192_no_member_without_the_community (env : NEnv) (he : GroupLaws env.base) (s : NSt) (c : CId) (hc : c ≠ 0)
    (hclosed : Closed s c) (acts : List NAct)
    (hsig : ∀ d, env.signs (communityAccount c) d = false)
    (hkey : ∀ call, NAct.call (.signed (communityAccount c)) call ∉ acts)
    (a : AccountId) (h0 : ¬ Member s c a) (h1 : Member (nrun env s acts) c a) :
    ∃ k o call, acts[k]? = some (.call o call) ∧ ByCommunity (nrun env s (acts.take k)) c o := by
  rw [member_iff] at h0 h1
  obtain ⟨m, h1⟩ := h1
  push Not at h0
  exact C192_no_membership_moves env he s c hc hclosed acts hsig hkey m a (h0 m) h1

/-- C192: and if somebody who was a member no longer is one, then one of the calls was made by root, with authority over the
community, or by themselves, to burn their membership. -/
theorem C192_no_member_loses_it (env : NEnv) (he : GroupLaws env.base) (s : NSt) (c : CId) (hc : c ≠ 0)
    (hone : OneHolder s.m.comm.world.items) (hclosed : Closed s c) (acts : List NAct)
    (hkey : ∀ call, NAct.call (.signed (communityAccount c)) call ∉ acts)
    (a : AccountId) (h0 : Member s c a) (h1 : ¬ Member (nrun env s acts) c a) :
    ∃ k o call, acts[k]? = some (.call o call) ∧
      (ByCommunity (nrun env s (acts.take k)) c o ∨
       ∃ m, Speaks (nrun env s (acts.take k)).m.comm o (.signed a) ∧
        holder (nrun env s (acts.take k)).m.comm.world.items c m = some a ∧
        ndispatch env (nrun env s (acts.take k)) (.signed a) (.nft (.burn c m)) =
          some (nrun env s (acts.take (k + 1)))) := by
  induction acts generalizing s with
  | nil => exact absurd h0 h1
  | cons act rest ih =>
    have next : ∀ s', nexec env s act = s' → OneHolder s'.m.comm.world.items → Closed s' c → Member s' c a →
        ∃ k o call, (act :: rest)[k]? = some (.call o call) ∧
          (ByCommunity (nrun env s ((act :: rest).take k)) c o ∨
           ∃ m, Speaks (nrun env s ((act :: rest).take k)).m.comm o (.signed a) ∧
            holder (nrun env s ((act :: rest).take k)).m.comm.world.items c m = some a ∧
            ndispatch env (nrun env s ((act :: rest).take k)) (.signed a) (.nft (.burn c m)) =
              some (nrun env s ((act :: rest).take (k + 1)))) := by
      intro s' e ho hcl hm
      obtain ⟨k, o, call, hk, hb⟩ := ih s' ho hcl (fun call h => hkey call (List.mem_cons_of_mem _ h)) hm
        (by rw [← e]; exact h1)
      refine ⟨k + 1, o, call, hk, ?_⟩
      have e1 : ∀ j, nrun env s ((act :: rest).take (j + 1)) = nrun env s' (rest.take j) := by
        intro j; rw [List.take_succ_cons, ← e]; rfl
      rw [e1, e1]; exact hb
    cases act with
    | wait n => exact next _ rfl hone hclosed h0
    | call o call =>
      by_cases hb : ByCommunity s c o
      · exact ⟨0, o, call, rfl, .inl hb⟩
      · have hk : o ≠ .signed (communityAccount c) := by
          rintro rfl; exact hkey call List.mem_cons_self
        cases hd : ndispatch env s o call with
        | none => exact next s (by simp [nexec, hd]) hone hclosed h0
        | some s' =>
          by_cases hm : Member s' c a
          · exact next s' (by simp [nexec, hd]) (C124_one_holder env he s s' hone o call hd)
              (closed_step hclosed hk hd hb) hm
          · obtain ⟨o', leaf, hs, hl, hd'⟩ := C124_how_members_leave env he s s' hone o call hd c hc a h0 hm
            have fast : ∀ m, ¬ Loose s c m := fun m hl => by
              have := hl.2; rw [hclosed.2.1] at this; cases this
            refine ⟨0, o, call, rfl, ?_⟩
            have e : nrun env s ((NAct.call o call :: rest).take (0 + 1)) = s' := by
              show nexec env s (.call o call) = s'
              simp [nexec, hd]
            rw [e]
            show ByCommunity s c o ∨ ∃ m, Speaks s.m.comm o (.signed a) ∧ _
            cases hl with
            | removed addr m h => exact .inl (.inr ⟨o', hs, h⟩)
            | gave m x dst _ _ _ hl => exact absurd hl (fast m)
            | sold m b p bid _ _ _ _ hl => exact absurd hl (fast m)
            | offered m b d k w _ _ _ _ _ _ hl => exact absurd hl (fast m)
            | took m d k w _ _ _ _ _ hl => exact absurd hl (fast m)
            | burned m hh ho =>
              rcases ho with rfl | rfl
              · exact .inl (.inl (speaks_root hs))
              · exact .inr ⟨m, hs, hh, hd'⟩

/-- C192: and the collection stays closed unless root or somebody with authority over the community makes a call. -/
theorem C192_stays_closed (env : NEnv) (s : NSt) (c : CId) (hclosed : Closed s c) (acts : List NAct)
    (hkey : ∀ call, NAct.call (.signed (communityAccount c)) call ∉ acts)
    (h1 : ¬ Closed (nrun env s acts) c) :
    ∃ k o call, acts[k]? = some (.call o call) ∧ ByCommunity (nrun env s (acts.take k)) c o := by
  induction acts generalizing s with
  | nil => exact absurd hclosed h1
  | cons act rest ih =>
    have next : ∀ s', nexec env s act = s' → Closed s' c →
        ∃ k o call, (act :: rest)[k]? = some (.call o call) ∧ ByCommunity (nrun env s ((act :: rest).take k)) c o := by
      intro s' e hcl
      obtain ⟨k, o, call, hk, hb⟩ := ih s' hcl (fun call h => hkey call (List.mem_cons_of_mem _ h))
        (by rw [← e]; exact h1)
      refine ⟨k + 1, o, call, hk, ?_⟩
      rw [List.take_succ_cons]
      show ByCommunity (nrun env (nexec env s act) _) c o
      rw [e]; exact hb
    cases act with
    | wait n => exact next _ rfl hclosed
    | call o call =>
      by_cases hb : ByCommunity s c o
      · exact ⟨0, o, call, rfl, hb⟩
      · have hk : o ≠ .signed (communityAccount c) := by
          rintro rfl; exact hkey call List.mem_cons_self
        cases hd : ndispatch env s o call with
        | none => exact next s (by simp [nexec, hd]) hclosed
        | some s' => exact next s' (by simp [nexec, hd]) (closed_step hclosed hk hd hb)

/-- The hypotheses are met, and the conclusions are not idle: alice closes the collection of the first community; bob cannot
give their membership away, charlie cannot mint one, and bob burns it; alice adds charlie. -/
example : GroupLaws Demo.strictEnv.base ∧ (∀ d, Demo.strictEnv.signs (communityAccount 1) d = false) ∧
    ∃ s, ndispatch Demo.strictEnv Demo.nstart (.signed Communities.Demo.alice) (.asAccount (.nft (.freeze 1))) = some s ∧
      Closed s 1 ∧ OneHolder s.m.comm.world.items ∧
      (∀ call, NAct.call (.signed (communityAccount 1)) call ∉
        [NAct.wait 3, .call (.signed Communities.Demo.bob) (.nft (.transfer 1 2 Communities.Demo.charlie)),
          .call (.signed Communities.Demo.charlie) (.nft (.mint 1 7 Communities.Demo.charlie none)),
          .call (.signed Communities.Demo.bob) (.nft (.burn 1 2)),
          .call (.signed Communities.Demo.alice) (.comm (.addMember (.id Communities.Demo.charlie)))]) ∧
      (Member s 1 Communities.Demo.bob ∧ ¬ Member s 1 Communities.Demo.charlie) ∧
      (let s' := nrun Demo.strictEnv s
        [.wait 3, .call (.signed Communities.Demo.bob) (.nft (.transfer 1 2 Communities.Demo.charlie)),
          .call (.signed Communities.Demo.charlie) (.nft (.mint 1 7 Communities.Demo.charlie none))]
       Member s' 1 Communities.Demo.bob ∧ ¬ Member s' 1 Communities.Demo.charlie) ∧
      (let s' := nrun Demo.strictEnv s
        [.wait 3, .call (.signed Communities.Demo.bob) (.nft (.transfer 1 2 Communities.Demo.charlie)),
          .call (.signed Communities.Demo.charlie) (.nft (.mint 1 7 Communities.Demo.charlie none)),
          .call (.signed Communities.Demo.bob) (.nft (.burn 1 2)),
          .call (.signed Communities.Demo.alice) (.comm (.addMember (.id Communities.Demo.charlie)))]
       ¬ Member s' 1 Communities.Demo.bob ∧ Member s' 1 Communities.Demo.charlie) := by
  refine ⟨Demo.strictEnv_laws, fun _ => rfl, _, rfl, ⟨rfl, rfl, rfl⟩, by unfold OneHolder; decide +kernel, ?_, ⟨?_, ?_⟩,
    ⟨?_, ?_⟩, ?_, ?_⟩
  · have h : Communities.Demo.bob ≠ communityAccount 1 ∧ Communities.Demo.charlie ≠ communityAccount 1 ∧
        Communities.Demo.alice ≠ communityAccount 1 := by decide +kernel
    intro call hm
    simp only [List.mem_cons, NAct.call.injEq, reduceCtorEq, false_or, List.not_mem_nil, or_false,
      RtOrigin.signed.injEq] at hm
    rcases hm with ⟨e, _⟩ | ⟨e, _⟩ | ⟨e, _⟩ | ⟨e, _⟩
    · exact h.1 e.symm
    · exact h.2.1 e.symm
    · exact h.1 e.symm
    · exact h.2.2 e.symm
  all_goals unfold Member; decide +kernel

end Verif.Governance
