import Verif.Governance.ManagerTheorems
import Verif.Communities.EventTheorems

/-! # What the events of the communities manager tell (C182) -/

namespace Verif.Governance

open Verif Verif.Accounts Verif.Communities

/-- The events of a chain's history that announce communities. Specification only, no code behind it (outside /repo). -/
def announced : List MEvent → List CId
  | [] => []
  | .communityRegistered c :: l => c :: announced l
  | .membershipsCreated _ _ :: l => announced l

theorem createMemberships_events {cfg : MConfig} {env : MEnv} {s s' : MSt} {o : Origin} {n : UInt16} {m : MId} {p : Nat}
    (h : mdispatch cfg env s o (.createMemberships n m p) = .ok s') :
    announced s'.events = announced s.events := by
  simp only [mdispatch, createMemberships] at h
  split at h
  · cases h
  split at h
  · cases h
  obtain ⟨⟨s1, k⟩, h3, h4⟩ := mbind_ok h
  cases h4
  obtain ⟨hm, _⟩ := mintLoop_ok h3
  show announced (.membershipsCreated m k :: s1.events) = _
  rw [hm.events]
  rfl

/-- C182: on Kreivo every community that exists was announced by an event, exactly once, and every announced one exists. -/
theorem C182_communities (g s : MSt) (hg : ∀ c, g.comm.info c = none) (he : g.events = [])
    (h : Relation.ReflTransGen MStep g s) :
    (announced s.events).Nodup ∧ ∀ c, c ∈ announced s.events ↔ s.comm.info c ≠ none := by
  induction h with
  | refl =>
    rw [he]
    exact ⟨List.nodup_nil, fun c => by simp [announced, hg c]⟩
  | @tail s s' _ st ih =>
    obtain ⟨ih1, ih2⟩ := ih
    cases st with
    | manager env o c h =>
      cases c with
      | register c name a m t =>
        have hr := C65_success _ _ _ _ _ _ _ _ _ _ h
        rw [hr.event]
        have hne : c ∉ announced s.events := by rw [ih2 c]; simp [hr.community.1]
        refine ⟨List.nodup_cons.2 ⟨hne, ih1⟩, fun d => ?_⟩
        show d ∈ c :: announced s.events ↔ _
        rw [List.mem_cons, ih2 d]
        by_cases hd : d = c
        · subst hd; simp [hr.community.2.1]
        · rw [(hr.others.1 d hd).1]; simp [hd]
      | createMemberships n m p =>
        obtain ⟨_, _, _, _, _, _, h1, _⟩ := C64_mints_exactly _ _ _ _ _ _ _ _ h
        have hinfo : s'.comm.info = s.comm.info := by rw [h1]
        rw [createMemberships_events h, hinfo]
        exact ⟨ih1, ih2⟩
    | community env he o c h =>
      have := dispatch_info (fun _ => rfl) h
      dsimp only
      rw [this]
      exact ⟨ih1, ih2⟩
    | force c st =>
      have : ∀ d, (forceState s.comm c st).info d ≠ none ↔ s.comm.info d ≠ none := by
        intro d
        simp only [forceState]
        split <;> simp
      simp only [this]
      exact ⟨ih1, ih2⟩
    | world w hw => exact ⟨ih1, ih2⟩

/-- C182 fails: who administers a new community is in no event. Whether alice registers it for bob or for charlie, the events
of both pallets are the same. -/
theorem C182_first_admin_fails :
    ∃ s s' : MSt, mdispatch kreivoManager Demo.menv Demo.mstart (.signed Communities.Demo.alice)
        (.register 1 (ascii "Virto") (.id Communities.Demo.bob) (some .native) none) = .ok s ∧
      mdispatch kreivoManager Demo.menv Demo.mstart (.signed Communities.Demo.alice)
        (.register 1 (ascii "Virto") (.id Communities.Demo.charlie) (some .native) none) = .ok s' ∧
      MReachable s ∧ MReachable s' ∧ s.events = s'.events ∧ s.comm.events = s'.comm.events ∧
      s.comm.adminOf (.signed Communities.Demo.bob) = some 1 ∧ s'.comm.adminOf (.signed Communities.Demo.bob) = none := by
  have h0 : MReachable Demo.mstart :=
    .start ⟨fun _ => rfl, fun _ => rfl, fun _ => rfl, fun _ => rfl, fun _ => rfl, fun _ _ => rfl, fun _ => rfl⟩ fun _ => rfl
  have h1 : ∃ s, mdispatch kreivoManager Demo.menv Demo.mstart (.signed Communities.Demo.alice)
        (.register 1 (ascii "Virto") (.id Communities.Demo.bob) (some .native) none) = .ok s ∧
      s.events = [.communityRegistered 1] ∧ s.comm.events = [.decisionMethodSet 1] ∧
      s.comm.adminOf (.signed Communities.Demo.bob) = some 1 := ⟨_, rfl, rfl, rfl, by decide⟩
  have h2 : ∃ s, mdispatch kreivoManager Demo.menv Demo.mstart (.signed Communities.Demo.alice)
        (.register 1 (ascii "Virto") (.id Communities.Demo.charlie) (some .native) none) = .ok s ∧
      s.events = [.communityRegistered 1] ∧ s.comm.events = [.decisionMethodSet 1] ∧
      s.comm.adminOf (.signed Communities.Demo.bob) = none := ⟨_, rfl, rfl, rfl, by decide⟩
  obtain ⟨s, a1, a2, a3, a4⟩ := h1
  obtain ⟨s', b1, b2, b3, b4⟩ := h2
  exact ⟨s, s', a1, b1, h0.step (.manager _ _ _ a1), h0.step (.manager _ _ _ b1), by rw [a2, b2], by rw [a3, b3], a4, b4⟩

/-- A chain without communities, on which one is registered. -/
example : (∀ c, Demo.mstart.comm.info c = none) ∧ Demo.mstart.events = [] ∧
    ∃ s, Relation.ReflTransGen MStep Demo.mstart s ∧ announced s.events = [1] := by
  refine ⟨fun _ => rfl, rfl, ?_⟩
  obtain ⟨s, _, a1, _, _, _, _, _, _⟩ := C182_first_admin_fails
  have e : announced s.events = [1] := by
    have := (C65_success _ _ _ _ _ _ _ _ _ _ a1).event
    rw [this]; rfl
  exact ⟨s, .single (.manager _ _ _ a1), e⟩

end Verif.Governance
