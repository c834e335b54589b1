import Verif.Governance.DisputeTheorems
import Verif.Governance.VoiceTheorems
import Verif.Payments.CommunityFunds

/-!
# C184: a community's funds go into payments only at its word
-/

namespace Verif.Governance

open Verif Verif.Accounts Verif.Communities

/-! ## Specification -/

/-- Who speaks for a community: its own voice, its account (accounts are 32 bytes, so the number tells which), whoever has
authority over it, and whoever has authority over a community whose account does. Specification only, no code behind it
(outside /repo). -/
inductive SpeaksFor (s : St) : Origin → CId → Prop
  | voice (x : CommunityOrigin UInt16 UInt32) : SpeaksFor s (.community x) x.community
  | account {a : AccountId} {d : CId}
      (h : Payments.Kreivo.acctOf a = Payments.Kreivo.acctOf (communityAccount d)) : SpeaksFor s (.signed a) d
  | admin {o : Origin} {e d : CId} (h : authority kreivo s o = some e) (h' : SpeaksFor s (.signed (communityAccount e)) d) :
      SpeaksFor s o d

/-- The number of a community's account. Specification only, no code behind it (outside /repo). -/
def acctOfCommunity (d : CId) : Payments.Acct := Payments.Kreivo.acctOf (communityAccount d)

/-! ## Helper lemmas -/

theorem acctOfCommunity_inj {d e : CId} (h : acctOfCommunity d = acctOfCommunity e) : d = e := by
  have h1 := Payments.Kreivo.bytesOf_acctOf (communityAccount_length d)
  have h2 := Payments.Kreivo.bytesOf_acctOf (communityAccount_length e)
  have : communityAccount d = communityAccount e := by
    rw [← h1, ← h2]
    exact congrArg _ h
  exact C60_injective _ _ this

theorem acctOfCommunity_is (d : CId) : Payments.Kreivo.isCommunity (acctOfCommunity d) = true :=
  (Payments.Kreivo.isCommunity_iff _).2 ⟨d, Payments.Kreivo.bytesOf_acctOf (communityAccount_length d)⟩

theorem speaks_of_origin {s : St} {o : Origin} {d : CId}
    (h : Payments.Kreivo.config.senderOrigin (payOrigin o) = some (acctOfCommunity d) ∨
      Payments.Kreivo.config.beneficiaryOrigin (payOrigin o) = some (acctOfCommunity d)) : SpeaksFor s o d := by
  cases o with
  | signed a =>
    refine .account ?_
    rcases h with h | h
    · exact Option.some.inj h
    · exact Option.some.inj h
  | community x =>
    rcases h with h | h
    · have := acctOfCommunity_inj (d := UInt16.ofNat x.community.toNat) (e := d) (Option.some.inj h)
      rw [UInt16.ofNat_toNat] at this
      rw [← this]
      exact .voice x
    · cases h
  | root => rcases h with h | h <;> cases h
  | none => rcases h with h | h <;> cases h
  | custom c => rcases h with h | h <;> cases h
  | other n => rcases h with h | h <;> cases h

theorem inner_speaks {s : GSt} {o' : Origin} {n : Nat} {d : CId} (c : GCall) (o : Origin) (ho : o ≠ .root)
    (h : inner s o c = some (o', n)) (hs : SpeaksFor s.m.comm o' d) : SpeaksFor s.m.comm o d := by
  induction c generalizing o with
  | other m =>
    simp only [inner, Option.some.injEq, Prod.mk.injEq] at h
    rw [h.1]; exact hs
  | dispatchAs x call ih =>
    cases o <;> first | exact absurd rfl ho | (simp only [inner] at h; cases h)
  | asAccount call ih =>
    simp only [inner] at h
    split at h
    · cases h
    · rename_i e he
      exact .admin he (ih _ (by simp) h)
  | _ => simp only [inner] at h; cases h

theorem paymentCall_speaks {calls : Nat → Option Payments.Call} {s : GSt} {o o' : Origin} {c : GCall} {pc : Payments.Call}
    {d : CId} (ho : o ≠ .root) (h : paymentCall calls s o c = some (o', pc)) (hs : SpeaksFor s.m.comm o' d) :
    SpeaksFor s.m.comm o d := by
  unfold paymentCall at h
  split at h
  · cases h
  · rename_i o1 n hi
    cases hc : calls n with
    | none => rw [hc] at h; cases h
    | some x =>
      rw [hc] at h
      simp only [Option.map_some, Option.some.injEq, Prod.mk.injEq] at h
      rw [h.1] at hi
      exact inner_speaks c o ho hi hs

/-! ## C184 -/

/-- C184: whatever happens on the chain, if no two payments share an id (C109): when the free balance of a community's account
falls, then either it is not a matter of payments; or it was below the asset's minimum, and goes as dust; or a payments call
is made in this step, by an extrinsic or a scheduled call whose origin is root or somebody who speaks for the community. -/
theorem C184_falls (calls : Nat → Option Payments.Call) (z s s' : JSt) (hz : JGenesis z) (h : JReach calls z s)
    (hid : ∀ id x y p q, s.pay.payments x id = some p → s.pay.payments y id = some q → x = y)
    (l : Option (Origin × Payments.Call)) (st : JStep calls l s s') (d : CId) (a : Payments.Asset)
    (hlt : (s'.pay.ledger.bal a (acctOfCommunity d)).free < (s.pay.ledger.bal a (acctOfCommunity d)).free) :
    (l = none ∧ ∃ f, s'.pay = Payments.exec Payments.Kreivo.config s.pay (.ext a (acctOfCommunity d) f)) ∨
    (s.pay.ledger.bal a (acctOfCommunity d)).free < s.pay.ledger.minBal a ∨
    ∃ o c x, l = some x ∧ paymentCall calls s.gov o c = some x ∧ (o = .root ∨ SpeaksFor s.gov.m.comm o d) ∧
      (Outside o ∨ ∃ t ∈ s.gov.agenda, t.origin = o ∧ t.call = c ∧ t.when ≤ s.gov.now) := by
  have hr := h.pay hz
  have key : ∀ penv o c,
      ((onPayments penv s.pay (paymentCall calls s.gov o c)).ledger.bal a (acctOfCommunity d)).free <
        (s.pay.ledger.bal a (acctOfCommunity d)).free →
      (s.pay.ledger.bal a (acctOfCommunity d)).free < s.pay.ledger.minBal a ∨
      ∃ x, paymentCall calls s.gov o c = some x ∧ (o = .root ∨ SpeaksFor s.gov.m.comm o d) := by
    intro penv o c hx
    cases hl : paymentCall calls s.gov o c with
    | none => rw [hl] at hx; exact absurd hx (lt_irrefl _)
    | some x =>
      rw [hl] at hx
      obtain ⟨o', pc⟩ := x
      simp only [onPayments, Payments.exec] at hx
      cases hd : Payments.dispatch Payments.Kreivo.config penv s.pay (payOrigin o') pc with
      | error e => rw [hd] at hx; exact absurd hx (lt_irrefl _)
      | ok y =>
        rw [hd] at hx
        have sp : SpeaksFor s.gov.m.comm o' d → o = .root ∨ SpeaksFor s.gov.m.comm o d := fun hs => by
          by_cases ho : o = .root
          · exact .inl ho
          · exact .inr (paymentCall_speaks ho hl hs)
        rcases Payments.Kreivo.dispatch_free hr hid hd (acctOfCommunity_is d) hx with h | h | h | h
        · exact .inr ⟨_, rfl, sp (speaks_of_origin (.inl h))⟩
        · exact .inr ⟨_, rfl, sp (speaks_of_origin (.inr h))⟩
        · have : o' = .root := by cases o' <;> first | rfl | cases h
          subst this
          exact .inr ⟨_, rfl, .inl (paymentCall_root hl)⟩
        · exact .inl h
  cases st with
  | call env he penv o ho c hd =>
    rcases key penv o c hlt with h | ⟨x, h1, h2⟩
    · exact .inr (.inl h)
    · exact .inr (.inr ⟨o, c, x, h1, h1, h2, .inl ho⟩)
  | run env he penv pre post t ha hw =>
    rcases key penv t.origin t.call hlt with h | ⟨x, h1, h2⟩
    · exact .inr (.inl h)
    · exact .inr (.inr ⟨t.origin, t.call, x, h1, h1, h2, .inr ⟨t, by rw [ha]; simp, rfl, rfl, hw⟩⟩)
  | apart => exact absurd hlt (lt_irrefl _)
  | collective env p _ => exact absurd hlt (lt_irrefl _)
  | community env p _ => exact absurd hlt (lt_irrefl _)
  | time n => exact absurd hlt (lt_irrefl _)
  | world w _ => exact absurd hlt (lt_irrefl _)
  | fire penv id => exact .inr (.inl (Payments.Kreivo.fire_free hlt))
  | setMin b m => exact absurd hlt (lt_irrefl _)
  | ext b w f =>
    by_cases hb : a = b ∧ acctOfCommunity d = w
    · obtain ⟨rfl, rfl⟩ := hb
      exact .inl ⟨rfl, f, rfl⟩
    · refine absurd hlt ?_
      simp only [Payments.exec, Payments.setBal_bal]
      rw [if_neg (by simpa [eq_comm] using hb)]
      exact lt_irrefl _

/-- C184: before the collective has approved any proposal to run a call as root, the payments call is made by an extrinsic of
somebody who speaks for the community; or by the call of an approved referendum of a community that speaks for it, or a call in
the batch approved there; or by a call the collective approved for one of its lesser origins, which speaks for the community. -/
theorem C184_voices (calls : Nat → Option Payments.Call) (z s s' : JSt) (hz : JGenesis z) (h : JReach calls z s)
    (hid : ∀ id x y p q, s.pay.payments x id = some p → s.pay.payments y id = some q → x = y)
    (hno : ¬ ∃ p r n, s.gov.crefs p = some (.approved r n) ∧ r.origin = .root)
    (l : Option (Origin × Payments.Call)) (st : JStep calls l s s') (d : CId) (a : Payments.Asset)
    (hlt : (s'.pay.ledger.bal a (acctOfCommunity d)).free < (s.pay.ledger.bal a (acctOfCommunity d)).free)
    (hm : s.pay.ledger.minBal a ≤ (s.pay.ledger.bal a (acctOfCommunity d)).free) (x : Origin × Payments.Call)
    (hl : l = some x) :
    ∃ o c, paymentCall calls s.gov o c = some x ∧ SpeaksFor s.gov.m.comm o d ∧
      (Outside o ∨
       (∃ p r n, s.gov.refs p = some (.approved r n) ∧ o = .community ⟨r.track, none⟩ ∧ Part c r.call) ∨
       ∃ q r n k, s.gov.crefs q = some (.approved r n) ∧ o = .custom k ∧ r.origin = o ∧ Part c r.call) := by
  rcases C184_falls calls z s s' hz h hid l st d a hlt with ⟨h0, _⟩ | h0 | ⟨o, c, y, h1, h2, h3, h4⟩
  · rw [hl] at h0; cases h0
  · omega
  · rw [hl] at h1; cases h1
    have hg := hz.gov
    have hr := h.gov
    have hq : Quiet z.gov s.gov := (reach_quiet hg hr).resolve_right hno
    have nr : o ≠ .root := by
      rintro rfl
      rcases h4 with h4 | ⟨t, ht, ho, _⟩
      · cases h4
      · exact hq.agenda t ht ho
    refine ⟨o, c, h2, h3.resolve_left nr, ?_⟩
    rcases h4 with h4 | ⟨t, ht, ho, hc, _⟩
    · exact .inl h4
    · have hs := (reach_shape hg hr).tasks t ht
      cases hsrc : t.source with
      | collective p =>
        rw [hsrc] at hs
        obtain ⟨r, n, h5, h6, h7⟩ := hs
        have ht := (reach_shape hg hr).ctrack p _ h5
        have e : (RefInfo.approved r n).ref.origin = o := by rw [← ho, h6]; rfl
        rw [e] at ht
        have ek : ∃ k, o = .custom k := by
          cases o with
          | custom k => exact ⟨k, rfl⟩
          | root => exact absurd rfl nr
          | _ => cases ht
        obtain ⟨k, ek⟩ := ek
        exact .inr (.inr ⟨p, r, n, k, h5, ek, e, hc ▸ h7⟩)
      | community p =>
        rw [hsrc] at hs
        obtain ⟨r, n, h5, h6, h7⟩ := hs
        have := hq.refs p _ h5
        exact .inr (.inl ⟨p, r, n, h5, by rw [← ho, h6]; exact this, hc ▸ h7⟩)
      | scheduled =>
        rw [hsrc] at hs
        exact absurd (ho.symm.trans hs) nr

theorem Demo.run_first {s : JSt} {t : Task} {x : Origin × Payments.Call} (h1 : s.gov.agenda = [] ++ t :: [])
    (h2 : t.when ≤ s.gov.now) (hc : paymentCall Demo.payCalls s.gov t.origin t.call = some x) :
    ∃ s' : JSt, JStep Demo.payCalls (some x) s s' ∧ s'.pay = onPayments Payments.Kreivo.env s.pay (some x) := by
  have st := JStep.run (calls := Demo.payCalls) Demo.genv Demo.genv_tame Payments.Kreivo.env [] [] t h1 h2
  rw [hc] at st
  exact ⟨_, st, rfl⟩

/-- The referendum of community 7 to pay account 2 is approved, and when its call runs 5000 and the incentive leave the
community's free balance; nothing has been approved by the collective. -/
example : ∃ s s', JReach Demo.payCalls Demo.dstart s ∧ JGenesis Demo.dstart ∧
    (¬ ∃ p r n, s.gov.crefs p = some (.approved r n) ∧ r.origin = .root) ∧
    (∀ id x y p q, s.pay.payments x id = some p → s.pay.payments y id = some q → x = y) ∧
    JStep Demo.payCalls (some (.community ⟨7, none⟩, .pay (.id 2) 0 5000 none)) s s' ∧
    (s.pay.ledger.bal 0 (acctOfCommunity 7)).free = 1000000 ∧ s.pay.ledger.minBal 0 ≤ 1000000 ∧
    (s'.pay.ledger.bal 0 (acctOfCommunity 7)).free = 994500 := by
  obtain ⟨s, e⟩ : ∃ s, s = (Demo.lonelyVote ++ [Demo.Act.time 1000000]).foldl Demo.dact Demo.dstart := ⟨_, rfl⟩
  have hs : JReach Demo.payCalls Demo.dstart s := by rw [e]; exact Demo.dacts_reach .start _ (by decide)
  obtain ⟨t, h1, h2, h3, h4⟩ : ∃ t : Task, s.gov.agenda = [] ++ t :: [] ∧ t.when ≤ s.gov.now ∧
    t.origin = .community ⟨7, none⟩ ∧ t.call = .other 0 := by rw [e]; exact ⟨_, rfl, by decide +kernel, rfl, rfl⟩
  have hc : paymentCall Demo.payCalls s.gov t.origin t.call = some (.community ⟨7, none⟩, .pay (.id 2) 0 5000 none) := by
    rw [h3, h4]; rfl
  obtain ⟨s', st, hp⟩ := Demo.run_first h1 h2 hc
  refine ⟨s, s', hs, Demo.dstart_genesis, ?_, ?_, st, by rw [e]; decide +kernel, by rw [e]; decide +kernel,
    by rw [hp, e]; decide +kernel⟩
  · rintro ⟨p, r, n, h, _⟩
    rw [e] at h; cases h
  · intro id x y p q h
    rw [e] at h; cases h

/-- The administrator of community 7, the account `[1]`, speaks for it; the members do not. -/
example :
    let s := Demo.lonelyVote.foldl Demo.act Demo.gstart
    SpeaksFor s.m.comm (.signed [1]) 7 ∧ SpeaksFor s.m.comm (.community ⟨7, none⟩) 7 ∧
      authority kreivo s.m.comm (.signed [5]) = none ∧ isMemberOf s.m.comm.world.items 7 [5] = true :=
  ⟨.admin (e := 7) (by decide +kernel) (.account rfl), .voice ⟨7, none⟩, by decide +kernel, by decide +kernel⟩

end Verif.Governance
