import Verif.Governance.Referenda
import Verif.Governance.TracksTheorems

/-!
# Lemmas about the referenda machine
-/

namespace Verif.Governance

open Verif Verif.Accounts Verif.Communities

/-- What a call that does not wrap another one does, and as whom. -/
inductive Leaf (env : GEnv) (s : GSt) : Origin → GSt → Prop
  | comm (o : Origin) (c : Call) (c' : St) (h : dispatch kreivo env.base.base s.m.comm o c = .ok c') :
      Leaf env s o { s with m := { s.m with comm := c' } }
  | mgr (o : Origin) (c : MCall) (m' : MSt) (h : mdispatch kreivoManager env.base s.m o c = .ok m') :
      Leaf env s o { s with m := m', roll := rollAfter s c }
  | promote (who : AccountId) (r : Nat) (h : s.m.seats who = some r) (hr : r + 1 ≤ maxRank) :
      Leaf env s .root (setSeat s who (some (r + 1)))
  | demote (who : AccountId) (r : Nat) (h : s.m.seats who = some (r + 1)) :
      Leaf env s .root (setSeat s who (some r))
  | leave (who : AccountId) (r : Nat) (h : s.m.seats who = some r) : Leaf env s .root (dropSeat s who)
  | exchange (who new : AccountId) (r : Nat) (h1 : s.m.seats who = some r) (h2 : s.m.seats new = none)
      (hne : who ≠ new) :
      Leaf env s .root { setSeat (dropSeat s who) new (some r) with roll := new :: (dropSeat s who).roll }
  | cvote (who : AccountId) (p : Nat) (aye : Bool) (rank n : Nat) (r : Ref Nat) (h1 : s.m.seats who = some rank)
      (h2 : s.crefs p = some (.ongoing r)) (h3 : rankToVotes rank = some n) :
      Leaf env s (.signed who) { s with
          ctally := fun q => if q = p then accrue (retract (s.ctally p) (aget (s.cvotes p) who)) aye n else s.ctally q
          cvotes := fun q => if q = p then aset (s.cvotes p) who (aye, n) else s.cvotes q }
  | csubmit (who : AccountId) (origin : Origin) (call : GCall) (m : Moment) (t : Nat)
      (h : collectiveTrackFor origin = some t) :
      Leaf env s (.signed who) { setCRef s s.cnext (.ongoing ⟨t, origin, call, m, s.now, false, none⟩) with
        cnext := s.cnext + 1
        ctally := fun q => if q = s.cnext then .zero else s.ctally q }
  | cref (o : Origin) (p : Nat) (r : Ref Nat) (i : RefInfo Nat) (h : s.crefs p = some (.ongoing r))
      (hi : i = .ongoing { r with deposit := true } ∨ (i = .cancelled r ∧ mayCancel o = true) ∨
        (i = .killed r ∧ mayKill o = true)) :
      Leaf env s o (setCRef s p i)
  | submit (o : Origin) (who : AccountId) (origin : Origin) (call : GCall) (m : Moment) (t : CId)
      (h : communitySubmit s.m o origin = some (who, t)) :
      Leaf env s o { setRef s s.next (.ongoing ⟨t, origin, call, m, s.now, false, none⟩) with
        next := s.next + 1
        m := { s.m with comm := setPoll s.m.comm s.next (.ongoing .zero t) } }
  | place (o : Origin) (p : PollIx) (r : Ref CId) (h : s.refs p = some (.ongoing r)) :
      Leaf env s o (setRef s p (.ongoing { r with deposit := true }))
  | close (p : PollIx) (r : Ref CId) (i : RefInfo CId) (h : s.refs p = some (.ongoing r))
      (hi : i = .cancelled r ∨ i = .killed r) : Leaf env s .root (endRef s p i)
  | tracks (tr : CId → Option TrackInfo) (tf : Origin → Option CId) :
      Leaf env s .root { s with m := { s.m with tracks := tr, trackOf := tf } }
  | update (o : Origin) (c : CId) (i : TrackInfo) (h : mayUpdateTrack s.m o c = true) (h' : s.m.tracks c ≠ none) :
      Leaf env s o { s with m := { s.m with tracks := fun d => if d = c then some i else s.m.tracks d } }
  | plan (w : Nat) (call : GCall) (h : s.now < w) : Leaf env s .root { s with agenda := ⟨.scheduled, w, .root, call⟩ :: s.agenda }
  | unplan (k : Nat) : Leaf env s .root { s with agenda := s.agenda.eraseIdx k }
  | same (o : Origin) : Leaf env s o s

theorem rootOnly_some {o : Origin} {r : Option GSt} {s' : GSt} (h : rootOnly o r = some s') : o = .root ∧ r = some s' := by
  cases o <;> simp_all [rootOnly]

/-- Every call comes down to one of these, with the caller's origin, or one only root can lend, or a signed one. -/
theorem gdispatch_leaf {env : GEnv} {s s' : GSt} {o : Origin} {c : GCall} (h : gdispatch env s o c = some s') :
    ∃ o', (o' = o ∨ o = .root ∨ ∃ a, o' = .signed a) ∧ Leaf env s o' s' := by
  induction c generalizing o with
  | comm c =>
    rw [gdispatch] at h
    split at h
    · cases h; exact ⟨o, .inl rfl, .comm _ _ _ (by assumption)⟩
    · cases h
  | mgr c =>
    rw [gdispatch] at h
    split at h
    · cases h; exact ⟨o, .inl rfl, .mgr _ _ _ (by assumption)⟩
    · cases h
  | promote who =>
    rw [gdispatch] at h
    obtain ⟨rfl, h⟩ := rootOnly_some h
    unfold promoteSeat at h
    split at h
    · cases h
    · split at h
      · cases h; exact ⟨_, .inl rfl, .promote _ _ (by assumption) (by assumption)⟩
      · cases h
  | demote who =>
    rw [gdispatch] at h
    obtain ⟨rfl, h⟩ := rootOnly_some h
    unfold demoteSeat at h
    split at h
    · cases h
    · cases h; exact ⟨_, .inl rfl, .leave _ _ (by assumption)⟩
    · cases h; exact ⟨_, .inl rfl, .demote _ _ (by assumption)⟩
  | expel who k =>
    rw [gdispatch] at h
    obtain ⟨rfl, h⟩ := rootOnly_some h
    unfold expelSeat at h
    split at h
    · cases h
    · split at h
      · cases h; exact ⟨_, .inl rfl, .leave _ _ (by assumption)⟩
      · cases h
  | exchange who new =>
    rw [gdispatch] at h
    obtain ⟨rfl, h⟩ := rootOnly_some h
    unfold exchangeSeat at h
    split at h
    · split at h
      · cases h
      · cases h; exact ⟨_, .inl rfl, .exchange _ _ _ (by assumption) (by assumption) (by assumption)⟩
    · cases h
  | cvote p aye =>
    rw [gdispatch] at h
    unfold collectiveVote at h
    split at h
    · split at h
      · split at h
        · cases h
        · cases h; exact ⟨_, .inl rfl, .cvote _ _ _ _ _ _ (by assumption) (by assumption) (by assumption)⟩
      · cases h
    · cases h
  | csubmit origin call m =>
    rw [gdispatch] at h
    unfold submitC at h
    split at h
    · cases h
    · rename_i hs
      split at h
      · cases h
      · obtain ⟨h1, h2, _⟩ := C82_submit hs
        subst h1
        cases h; exact ⟨_, .inl rfl, .csubmit _ _ _ _ _ h2⟩
  | cdeposit p =>
    rw [gdispatch] at h
    unfold placeC at h
    split at h
    · split at h
      · cases h
      · cases h; exact ⟨_, .inl rfl, .cref _ _ _ _ (by assumption) (.inl rfl)⟩
    · cases h
  | ccancel p =>
    rw [gdispatch] at h
    split at h
    · unfold closeC at h
      split at h
      · cases h; exact ⟨_, .inl rfl, .cref _ _ _ _ (by assumption) (.inr (.inl ⟨rfl, by assumption⟩))⟩
      · cases h
    · cases h
  | ckill p =>
    rw [gdispatch] at h
    split at h
    · unfold closeC at h
      split at h
      · cases h; exact ⟨_, .inl rfl, .cref _ _ _ _ (by assumption) (.inr (.inr ⟨rfl, by assumption⟩))⟩
      · cases h
    · cases h
  | submit origin call m =>
    rw [gdispatch] at h
    unfold submitR at h
    split at h
    · cases h
    · split at h
      · cases h
      · cases h; exact ⟨_, .inl rfl, .submit _ _ _ _ _ _ (by assumption)⟩
  | deposit p =>
    rw [gdispatch] at h
    unfold place at h
    split at h
    · split at h
      · cases h
      · cases h; exact ⟨_, .inl rfl, .place _ _ _ (by assumption)⟩
    · cases h
  | cancel p =>
    rw [gdispatch] at h
    obtain ⟨rfl, h⟩ := rootOnly_some h
    unfold Governance.close at h
    split at h
    · cases h; exact ⟨_, .inl rfl, .close _ _ _ (by assumption) (.inl rfl)⟩
    · cases h
  | kill p =>
    rw [gdispatch] at h
    obtain ⟨rfl, h⟩ := rootOnly_some h
    unfold Governance.close at h
    split at h
    · cases h; exact ⟨_, .inl rfl, .close _ _ _ (by assumption) (.inr rfl)⟩
    · cases h
  | insertTrack c i x =>
    rw [gdispatch] at h
    obtain ⟨rfl, h⟩ := rootOnly_some h
    split at h
    · rename_i hi
      cases h
      obtain ⟨_, h⟩ := insertTrack_ok hi
      subst h
      exact ⟨_, .inl rfl, .tracks _ _⟩
    · cases h
  | updateTrack c i =>
    rw [gdispatch] at h
    split at h
    · rename_i hc
      cases h
      rw [Bool.and_eq_true] at hc
      refine ⟨_, .inl rfl, .update _ _ _ hc.1 ?_⟩
      intro hn
      rw [hn] at hc
      simp at hc
    · cases h
  | removeTrack c x =>
    rw [gdispatch] at h
    obtain ⟨rfl, h⟩ := rootOnly_some h
    split at h
    · cases h; exact ⟨_, .inl rfl, .tracks _ _⟩
    · cases h
  | schedule m call =>
    rw [gdispatch] at h
    obtain ⟨rfl, h⟩ := rootOnly_some h
    dsimp only at h
    split at h
    · cases h
    · rename_i hw
      cases h; exact ⟨_, .inl rfl, .plan _ _ (by omega)⟩
  | unschedule k =>
    rw [gdispatch] at h
    obtain ⟨rfl, h⟩ := rootOnly_some h
    split at h
    · cases h; exact ⟨_, .inl rfl, .unplan _⟩
    · cases h
  | dispatchAs x call ih =>
    cases o with
    | root =>
      obtain ⟨o', _, hl⟩ := ih (show gdispatch env s x call = some s' from h)
      exact ⟨o', .inr (.inl rfl), hl⟩
    | _ => cases h
  | asAccount call ih =>
    rw [gdispatch] at h
    split at h
    · cases h
    · obtain ⟨o', ho, hl⟩ := ih h
      refine ⟨o', .inr (.inr ?_), hl⟩
      rcases ho with h | h | h
      · exact ⟨_, h⟩
      · cases h
      · exact h
  | both a b =>
    rw [gdispatch] at h
    cases h
    exact ⟨_, .inl rfl, .same _⟩
  | other n =>
    rw [gdispatch] at h
    cases h
    exact ⟨_, .inl rfl, .same _⟩

/-- What a scheduled call that runs does: nothing besides leaving the agenda, or a call. -/
theorem run_cases {env : GEnv} {s : GSt} {o : Origin} {c : GCall} :
    (gdispatch env s o c).getD s = s ∨ gdispatch env s o c = some ((gdispatch env s o c).getD s) := by
  cases gdispatch env s o c with
  | none => exact .inl rfl
  | some s' => exact .inr rfl

/-- How a referendum is being decided after it was serviced: it begins, with a deposit and a free slot and after its
preparation; or it goes on, and starts or stops being confirmed. -/
def Begun {τ : Type} (i : TrackInfo) (now : Nat) (free : Bool) (passing : Nat → Bool) (r : Ref τ) (d : Deciding) : Prop :=
  (r.deciding = none ∧ r.deposit = true ∧ r.submitted + i.preparePeriod ≤ now ∧ free = true ∧ d.since = now ∧
    d.confirming = if passing 0 then some (now + i.confirmPeriod) else none) ∨
  ∃ d0, r.deciding = some d0 ∧ d.since = d0.since ∧
    ((passing (now - d0.since) = true ∧ d0.confirming = none ∧ d.confirming = some (now + i.confirmPeriod)) ∨
     (passing (now - d0.since) = false ∧ now < d0.since + i.decisionPeriod ∧ d.confirming = none))

theorem service_deciding {τ : Type} {i : TrackInfo} {now timeout : Nat} {free : Bool} {passing : Nat → Bool} {r : Ref τ}
    {d : Deciding} (h : service i now timeout free passing r = .deciding d) : Begun i now free passing r d := by
  unfold service at h
  split at h
  · rename_i hd
    split at h
    · rename_i hc
      simp only [Bool.and_eq_true, decide_eq_true_eq] at hc
      cases h
      exact .inl ⟨hd, hc.1.1, hc.1.2, hc.2, rfl, rfl⟩
    · split at h <;> cases h
  · rename_i d0 hd
    split at h
    · rename_i hp
      split at h
      · split at h <;> cases h
      · rename_i hn
        cases h
        exact .inr ⟨d0, hd, rfl, .inl ⟨hp, hn, rfl⟩⟩
    · rename_i hp
      split at h
      · cases h
      · rename_i hw
        cases h
        exact .inr ⟨d0, hd, rfl, .inr ⟨by simpa using hp, by omega, rfl⟩⟩

/-- What servicing a referendum of the collective does. -/
theorem serviceCollective_ok {env : GEnv} {s s' : GSt} {p : Nat} (h : serviceCollective env s p = some s') :
    ∃ r i, s.crefs p = some (.ongoing r) ∧ collectiveInfo r.track = some i ∧
      (s' = s ∨ (∃ d, Begun i s.now (hasSlot s.crefs s.cnext r.track i)
          (fun e => isPassing i e (csupport s (s.ctally p)) (capproval (s.ctally p))) r d ∧
         s' = setCRef s p (.ongoing { r with deciding := some d })) ∨
       (∃ d t, r.deciding = some d ∧ d.confirming = some t ∧ t ≤ s.now ∧
         isPassing i (s.now - d.since) (csupport s (s.ctally p)) (capproval (s.ctally p)) = true ∧
         s' = { setCRef s p (.approved r s.now) with
           agenda := enact env s (.collective p) i r.desired r.origin r.call }) ∨
       s' = setCRef s p (.rejected r) ∨ s' = setCRef s p (.timedOut r)) := by
  unfold serviceCollective at h
  split at h
  · rename_i r hr
    split at h
    · cases h
    · rename_i i hi
      refine ⟨r, i, hr, hi, ?_⟩
      split at h
      · cases h; exact .inl rfl
      · rename_i hv
        cases h; exact .inr (.inl ⟨_, service_deciding hv, rfl⟩)
      · rename_i hv
        right; right; left
        unfold service at hv
        split at hv
        · split at hv
          · cases hv
          · split at hv <;> cases hv
        · rename_i d hd
          split at hv
          · rename_i hp
            split at hv
            · rename_i t ht
              split at hv
              · cases h
                exact ⟨d, t, hd, ht, by assumption, hp, rfl⟩
              · cases hv
            · cases hv
          · split at hv <;> cases hv
      · cases h; exact .inr (.inr (.inr (.inl rfl)))
      · cases h; exact .inr (.inr (.inr (.inr rfl)))
  · cases h

/-- What servicing a community referendum does. -/
theorem serviceCommunity_ok {env : GEnv} {s s' : GSt} {p : PollIx} (h : serviceCommunity env s p = some s') :
    ∃ r i t c, s.refs p = some (.ongoing r) ∧ s.m.comm.world.polls p = some (.ongoing t c) ∧
      s.m.tracks r.track = some i ∧
      (s' = s ∨ (∃ d, Begun i s.now (hasSlot s.refs s.next r.track i)
          (fun e => isPassing i e (support s.m.comm t r.track) (approval t)) r d ∧
         s' = setRef s p (.ongoing { r with deciding := some d })) ∨
       (∃ d u, r.deciding = some d ∧ d.confirming = some u ∧ u ≤ s.now ∧
         isPassing i (s.now - d.since) (support s.m.comm t r.track) (approval t) = true ∧
         s' = { endRef s p (.approved r s.now) with
           agenda := enact env s (.community p) i r.desired r.origin r.call }) ∨
       s' = endRef s p (.rejected r) ∨ s' = endRef s p (.timedOut r)) := by
  unfold serviceCommunity at h
  split at h
  · rename_i r t c hr hp
    split at h
    · cases h
    · rename_i i hi
      refine ⟨r, i, t, c, hr, hp, hi, ?_⟩
      split at h
      · cases h; exact .inl rfl
      · rename_i hv
        cases h; exact .inr (.inl ⟨_, service_deciding hv, rfl⟩)
      · rename_i hv
        right; right; left
        unfold service at hv
        split at hv
        · split at hv
          · cases hv
          · split at hv <;> cases hv
        · rename_i d hd
          split at hv
          · rename_i hp
            split at hv
            · rename_i u ht
              split at hv
              · cases h
                exact ⟨d, u, hd, ht, by assumption, hp, rfl⟩
              · cases hv
            · cases hv
          · split at hv <;> cases hv
      · cases h; exact .inr (.inr (.inr (.inl rfl)))
      · cases h; exact .inr (.inr (.inr (.inr rfl)))
  · cases h

/-- A call is another, or one of the calls in it if that is a batch. Specification only, no code behind it (outside /repo). -/
inductive Part (c : GCall) : GCall → Prop
  | self : Part c c
  | first {a b : GCall} (h : Part c a) : Part c (.both a b)
  | rest {a b : GCall} (h : Part c b) : Part c (.both a b)

theorem Part.of_first {a b c : GCall} (h : Part (.both a b) c) : Part a c := by
  generalize hx : GCall.both a b = x at h
  induction h with
  | self => subst hx; exact .first .self
  | first _ ih => exact .first ih
  | rest _ ih => exact .rest ih

theorem Part.of_rest {a b c : GCall} (h : Part (.both a b) c) : Part b c := by
  generalize hx : GCall.both a b = x at h
  induction h with
  | self => subst hx; exact .rest .self
  | first _ ih => exact .first ih
  | rest _ ih => exact .rest ih

/-- What is on the agenda once a batch was taken apart. -/
theorem apart_mem {pre post rest : List Task} {t : Task} {l : List Task} (ha : l = pre ++ t :: post)
    (hr : rest.Sublist t.parts) {u : Task} (hu : u ∈ pre ++ post ++ rest) :
    u ∈ l ∨ t ∈ l ∧ ∃ a b, t.call = .both a b ∧ (u = { t with call := a } ∨ u = { t with call := b }) := by
  subst ha
  rcases List.mem_append.1 hu with h | h
  · left
    simp only [List.mem_append, List.mem_cons] at h ⊢
    tauto
  · right
    have h := hr.subset h
    unfold Task.parts at h
    split at h
    · rename_i a b hc
      refine ⟨by simp, a, b, hc, ?_⟩
      simpa using h
    · cases h

/-- Induction over histories: through calls, tasks leaving the agenda, servicing, time and the rest of the chain. -/
theorem ginduct {g : GSt} {I : GSt → Prop} (h0 : I g)
    (hdrop : ∀ s pre t post, GReach g s → I s → s.agenda = pre ++ t :: post → I { s with agenda := pre ++ post })
    (hapart : ∀ s pre t post rest, I s → s.agenda = pre ++ t :: post → rest.Sublist t.parts →
      I { s with agenda := pre ++ post ++ rest })
    (hleaf : ∀ env s s' o, Tame env → I s → Leaf env s o s' → I s')
    (hcoll : ∀ env s s' p, I s → serviceCollective env s p = some s' → I s')
    (hcom : ∀ env s s' p, I s → serviceCommunity env s p = some s' → I s')
    (htime : ∀ s n, I s → I { s with now := s.now + n })
    (hworld : ∀ (s : GSt) (w : World), I s → w.polls = s.m.comm.world.polls →
      I { s with m := { s.m with comm := { s.m.comm with world := w } } })
    {s : GSt} (h : GReach g s) : I s := by
  induction h with
  | start => exact h0
  | @step s s' hr st ih =>
    cases st with
    | call env he o ho c hd =>
      obtain ⟨o', _, hl⟩ := gdispatch_leaf hd
      exact hleaf env _ _ o' he ih hl
    | run env he pre post t ha hw =>
      have h1 := hdrop _ pre t post hr ih ha
      rcases run_cases (env := env) (s := { s with agenda := pre ++ post }) (o := t.origin) (c := t.call) with h2 | h2
      · rw [h2]; exact h1
      · obtain ⟨o', _, hl⟩ := gdispatch_leaf h2
        exact hleaf env _ _ o' he h1 hl
    | apart pre post rest t ha hr' hw => exact hapart _ pre t post rest ih ha hr'
    | collective env p hs => exact hcoll env _ _ p ih hs
    | community env p hs => exact hcom env _ _ p ih hs
    | time n => exact htime _ n ih
    | world w hw => exact hworld _ w ih hw

end Verif.Governance
