import Verif.Governance.ReferendaLemmas

/-!
# Invariants of the referenda machine
-/

namespace Verif.Governance

open Verif Verif.Accounts Verif.Communities

/-- What is known of a referendum whatever its stage. -/
def RefInfo.ref {τ : Type} : RefInfo τ → Ref τ
  | .ongoing r => r
  | .approved r _ => r
  | .rejected r => r
  | .timedOut r => r
  | .cancelled r => r
  | .killed r => r

/-! ## What calls do to the tallies of community referenda -/

/-- How a call of the communities pallet may change tallies: not at all, or by a vote cast or removed. -/
inductive VoteStep (env : Env) (s s' : St) : Prop
  | same (h : s'.world.polls = s.world.polls)
  | vote (o : Origin) (m : MId) (p : PollIx) (v : Vote) (h : vote env s o m p v = .ok s')
  | remove (o : Origin) (m : MId) (p : PollIx) (h : removeVote env s o m p = .ok s')

theorem dispatch_voteStep {cfg : Config} {env : Env} (he : ∀ n o w w', env.foreign n o w = some w' → w'.polls = w.polls)
    {s s' : St} {o : Origin} {call : Call} (h : dispatch cfg env s o call = .ok s') : VoteStep env s s' := by
  obtain ⟨o', leaf, hl, h⟩ := dispatch_leaf h
  cases leaf with
  | create admin c =>
    obtain ⟨d, s1, _, hr, rfl⟩ := create_ok h
    exact .same (register_voteMove hr).2.2.2.2
  | setAdminOrigin admin => obtain ⟨_, _, _, rfl⟩ := setAdminOrigin_ok h; exact .same rfl
  | addMember a => obtain ⟨_, _, _, _, _, _, _, _, _, rfl⟩ := addMember_ok h; exact .same rfl
  | removeMember a m => obtain ⟨_, _, _, _, _, _, _, rfl⟩ := removeMember_ok h; exact .same rfl
  | promote m => obtain ⟨_, _, _, _, rfl⟩ := promote_ok h; exact .same rfl
  | demote m => obtain ⟨_, _, _, _, rfl⟩ := demote_ok h; exact .same rfl
  | setDecisionMethod c dm => obtain ⟨_, _, _, rfl⟩ := setDecisionMethod_ok h; exact .same rfl
  | vote m p v => exact .vote o' m p v h
  | removeVote m p => exact .remove o' m p h
  | unlock p =>
    obtain ⟨_, _, _, h1⟩ := unlock_unlocked h
    exact .same (by rw [h1.polls])
  | dispatchAsAccount i => exact absurd rfl (hl i)
  | foreign n =>
    rw [dispatch] at h
    split at h
    · cases h
    · rename_i w hw
      cases h
      exact .same (he n o' _ _ hw)

/-- A tally may change, but a poll neither begins nor ends nor changes its class. -/
def KeepsPoll : Option Poll → Option Poll → Prop
  | some (.ongoing _ c), q => ∃ t, q = some (.ongoing t c)
  | some .ended, q => q = some .ended
  | none, q => q = none

theorem KeepsPoll.refl (q : Option Poll) : KeepsPoll q q := by
  rcases q with _ | (_ | _) <;> simp [KeepsPoll]

theorem KeepsPoll.trans {a b c : Option Poll} (h1 : KeepsPoll a b) (h2 : KeepsPoll b c) : KeepsPoll a c := by
  rcases a with _ | (_ | _)
  · cases h1; exact h2
  · obtain ⟨t, rfl⟩ := h1; exact h2
  · cases h1; exact h2

theorem cast_keeps {s s' : St} {c : CId} {who : AccountId} {m : MId} {p : PollIx} {v : Vote} {t : Tally}
    (h : Cast s s' c who m p v t) (q : PollIx) : KeepsPoll (s.world.polls q) (s'.world.polls q) := by
  rw [h.polls q]
  split
  · rename_i hq; subst hq; rw [h.poll]; exact ⟨_, rfl⟩
  · exact .refl _

theorem uncast_keeps {s s' : St} {c : CId} {dm : Method} {who : AccountId} {m : MId} {p : PollIx} {v : Vote} {t : Tally}
    (h : Uncast s s' c dm who m p v t) (q : PollIx) : KeepsPoll (s.world.polls q) (s'.world.polls q) := by
  rw [h.polls q]
  split
  · rename_i hq; subst hq; rw [h.poll]; exact ⟨_, rfl⟩
  · exact .refl _

theorem VoteStep.keeps {env : Env} {s s' : St} (h : VoteStep env s s') (q : PollIx) :
    KeepsPoll (s.world.polls q) (s'.world.polls q) := by
  cases h with
  | same h => rw [h]; exact .refl _
  | vote o m p v h =>
    obtain ⟨who, c, s1, s2, _, _, _, _, h4, ⟨t, h5⟩, rfl⟩ := vote_parts h
    have k2 := cast_keeps h5 q
    rcases h4 with ⟨_, rfl⟩ | ⟨t, u, voter, h4⟩
    · exact k2
    · exact (uncast_keeps h4 q).trans k2
  | remove o m p h =>
    obtain ⟨who, c, s1, _, _, ⟨t, u, voter, h4⟩, rfl⟩ := removeVote_parts h
    exact uncast_keeps h4 q

/-- What the manager's calls do to the rest. -/
theorem mdispatch_facts {env : MEnv} {s s' : MSt} {o : Origin} {c : MCall}
    (h : mdispatch kreivoManager env s o c = .ok s') :
    s'.comm.world.polls = s.comm.world.polls ∧
    (∀ x d, s'.trackOf x = some d → s.trackOf x = some d ∨ x = .community ⟨d, none⟩) ∧
    ((s'.seats = s.seats ∧ ∃ n m p, c = .createMemberships n m p) ∨
      ∃ d nm a dm t, c = .register d nm a dm t ∧ s.seats (communityAccount d) = none ∧
      s'.seats = fun a => if a = communityAccount d then some 0 else s.seats a) := by
  cases c with
  | register c name a m t =>
    have hr := C65_success _ _ _ _ _ _ _ _ _ _ h
    refine ⟨hr.others.2.2.2.2.2.2.2.2.2.2, fun x d hx => ?_, .inr ⟨c, name, a, m, t, rfl, hr.seat.1, ?_⟩⟩
    · by_cases hxo : x = .community ⟨c, none⟩
      · subst hxo; rw [hr.track.2.2] at hx; cases hx; exact .inr rfl
      · rw [hr.others.2.1 x hxo] at hx; exact .inl hx
    · funext b
      by_cases hb : b = communityAccount c
      · subst hb; simp [hr.seat.2]
      · simp [hb, hr.others.2.2.1 b hb]
  | createMemberships n m p =>
    obtain ⟨_, _, _, _, _, _, h1, h2, h3, h4, h5⟩ := C64_mints_exactly _ _ _ _ _ _ _ _ h
    refine ⟨by rw [h1], fun x d hx => .inl (by rw [← h4]; exact hx), .inl ⟨h5, n, m, p, rfl⟩⟩

/-! ## Referenda and their tallies -/

/-- The communities pallet sees a referendum as the referenda pallet does. -/
def Agrees : Option (RefInfo CId) → Option Poll → Prop
  | none, q => q = none
  | some (.ongoing r), q => ∃ t, q = some (.ongoing t r.track)
  | some _, q => q = some .ended

theorem Agrees.keeps {r : Option (RefInfo CId)} {q q' : Option Poll} (h : Agrees r q) (k : KeepsPoll q q') :
    Agrees r q' := by
  rcases r with _ | (_ | _ | _ | _ | _ | _) <;> simp only [Agrees] at h ⊢
  · subst h; exact k
  · obtain ⟨t, rfl⟩ := h; exact k
  all_goals subst h; exact k

/-- How indices, tallies, tracks and scheduled calls fit together. -/
structure Shape (s : GSt) : Prop where
  cborn : ∀ p, s.cnext ≤ p → s.crefs p = none ∧ s.cvotes p = []
  born : ∀ p, s.next ≤ p → s.refs p = none
  polls : ∀ p, Agrees (s.refs p) (s.m.comm.world.polls p)
  ctrack : ∀ p i, s.crefs p = some i → collectiveTrackFor i.ref.origin = some i.ref.track
  tasks : ∀ t ∈ s.agenda, match t.source with
    | .collective p => ∃ r n, s.crefs p = some (.approved r n) ∧ t.origin = r.origin ∧ Part t.call r.call
    | .community p => ∃ r n, s.refs p = some (.approved r n) ∧ t.origin = r.origin ∧ Part t.call r.call
    | .scheduled => t.origin = .root

theorem GGenesis.shape {g : GSt} (h : GGenesis g) : Shape g where
  cborn := fun p _ => ⟨h.crefs p, h.votes p⟩
  born := fun p _ => h.refs p
  polls := fun p => by rw [h.refs p]; exact h.comm.2.2.2.2.2.2 p
  ctrack := fun p i hi => by rw [h.crefs p] at hi; cases hi
  tasks := fun t ht => by rw [h.agenda] at ht; cases ht

/-- Writing a referendum of the collective that was ongoing, or new, keeps the shape. -/
theorem Shape.setCRef {s : GSt} (hs : Shape s) {p : Nat} {r : Ref Nat} (h : s.crefs p = some (.ongoing r))
    {i : RefInfo Nat} (ht : i.ref.track = r.track ∧ i.ref.origin = r.origin) : Shape (setCRef s p i) where
  cborn := fun q hq => by
    have := hs.cborn q hq
    refine ⟨?_, this.2⟩
    show (if q = p then _ else _) = _
    rw [if_neg (by rintro rfl; rw [this.1] at h; cases h)]
    exact this.1
  born := hs.born
  polls := hs.polls
  ctrack := fun q j hj => by
    have hj : (if q = p then some i else s.crefs q) = some j := hj
    split at hj
    · cases hj; rw [ht.1, ht.2]; exact hs.ctrack p _ h
    · exact hs.ctrack q j hj
  tasks := fun t h' => by
    have := hs.tasks t h'
    cases hsrc : t.source with
    | scheduled => rw [hsrc] at this; exact this
    | community q => rw [hsrc] at this; exact this
    | collective q =>
      rw [hsrc] at this
      obtain ⟨r', n, h1, h2⟩ := this
      refine ⟨r', n, ?_, h2⟩
      show (if q = p then _ else _) = _
      rw [if_neg (by rintro rfl; rw [h] at h1; cases h1)]
      exact h1

/-- The same for a community referendum, with its tally. -/
theorem Shape.setRef {s : GSt} (hs : Shape s) {p : PollIx} {r : Ref CId} (h : s.refs p = some (.ongoing r))
    {r' : Ref CId} (ht : r'.track = r.track) : Shape (setRef s p (.ongoing r')) where
  cborn := hs.cborn
  born := fun q hq => by
    have := hs.born q hq
    show (if q = p then _ else _) = _
    rw [if_neg (by rintro rfl; rw [this] at h; cases h)]
    exact this
  polls := fun q => by
    show Agrees (if q = p then _ else _) _
    split
    · rename_i hq; subst hq
      have := hs.polls q
      rw [h] at this
      simp only [Agrees] at this ⊢
      rw [ht]; exact this
    · exact hs.polls q
  ctrack := hs.ctrack
  tasks := fun t h' => by
    have := hs.tasks t h'
    cases hsrc : t.source with
    | scheduled => rw [hsrc] at this; exact this
    | collective q => rw [hsrc] at this; exact this
    | community q =>
      rw [hsrc] at this
      obtain ⟨r', n, h1, h2⟩ := this
      refine ⟨r', n, ?_, h2⟩
      show (if q = p then _ else _) = _
      rw [if_neg (by rintro rfl; rw [h] at h1; cases h1)]
      exact h1

/-- The same for one that ends. -/
theorem Shape.endRef {s : GSt} (hs : Shape s) {p : PollIx} {r : Ref CId} (h : s.refs p = some (.ongoing r))
    {i : RefInfo CId} (hi : ∀ r, i ≠ .ongoing r) : Shape (endRef s p i) where
  cborn := hs.cborn
  born := fun q hq => by
    have := hs.born q hq
    show (if q = p then _ else _) = _
    rw [if_neg (by rintro rfl; rw [this] at h; cases h)]
    exact this
  polls := fun q => by
    show Agrees (if q = p then _ else _) (if q = p then _ else _)
    split
    · cases i <;> first | rfl | exact absurd rfl (hi _)
    · exact hs.polls q
  ctrack := hs.ctrack
  tasks := fun t h' => by
    have := hs.tasks t h'
    cases hsrc : t.source with
    | scheduled => rw [hsrc] at this; exact this
    | collective q => rw [hsrc] at this; exact this
    | community q =>
      rw [hsrc] at this
      obtain ⟨r', n, h1, h2⟩ := this
      refine ⟨r', n, ?_, h2⟩
      show (if q = p then _ else _) = _
      rw [if_neg (by rintro rfl; rw [h] at h1; cases h1)]
      exact h1

/-- Scheduling keeps the shape if the referendum is the approved one. -/
theorem enact_mem {env : GEnv} {s : GSt} {src : Source} {i : TrackInfo} {m : Moment} {o : Origin} {call : GCall}
    {t : Task} (h : t ∈ enact env s src i m o call) :
    t ∈ s.agenda ∨ (t.source = src ∧ t.origin = o ∧ t.call = call) := by
  unfold enact at h
  dsimp only at h
  split at h
  · exact .inl h
  · rcases List.mem_cons.1 h with rfl | h
    · exact .inr ⟨rfl, rfl, rfl⟩
    · exact .inl h

/-- The shape does not depend on the members, the time, and the tallies beyond their kind. -/
theorem Shape.of {s s' : GSt} (hs : Shape s) (h1 : s'.crefs = s.crefs) (h2 : s'.cnext = s.cnext)
    (h3 : ∀ p, s.cnext ≤ p → s'.cvotes p = s.cvotes p) (h4 : s'.refs = s.refs) (h5 : s'.next = s.next)
    (h6 : ∀ p, KeepsPoll (s.m.comm.world.polls p) (s'.m.comm.world.polls p))
    (h7 : ∀ t ∈ s'.agenda, t ∈ s.agenda ∨ (t.source = .scheduled ∧ t.origin = .root)) : Shape s' where
  cborn := fun p hp => by
    rw [h2] at hp
    rw [h1, h3 p hp]; exact hs.cborn p hp
  born := fun p hp => by rw [h4]; exact hs.born p (by rw [h5] at hp; exact hp)
  polls := fun p => by rw [h4]; exact (hs.polls p).keeps (h6 p)
  ctrack := fun p i hi => hs.ctrack p i (by rw [h1] at hi; exact hi)
  tasks := fun t ht => by
    rcases h7 t ht with h | ⟨h, h'⟩
    · rw [h1, h4]; exact hs.tasks t h
    · rw [h]; exact h'

theorem Shape.leaf {env : GEnv} (he : Tame env) {s s' : GSt} {o : Origin} (hs : Shape s) (h : Leaf env s o s') :
    Shape s' := by
  cases h with
  | comm o c c' h =>
    exact hs.of rfl rfl (fun _ _ => rfl) rfl rfl (fun p => (dispatch_voteStep he h).keeps p) fun t ht => .inl ht
  | mgr o c m' h =>
    refine hs.of rfl rfl (fun _ _ => rfl) rfl rfl (fun p => ?_) fun t ht => .inl ht
    show KeepsPoll _ (m'.comm.world.polls p)
    rw [(mdispatch_facts h).1]; exact .refl _
  | promote who r h hr => exact hs.of rfl rfl (fun _ _ => rfl) rfl rfl (fun p => .refl _) fun t ht => .inl ht
  | demote who r h => exact hs.of rfl rfl (fun _ _ => rfl) rfl rfl (fun p => .refl _) fun t ht => .inl ht
  | leave who r h => exact hs.of rfl rfl (fun _ _ => rfl) rfl rfl (fun p => .refl _) fun t ht => .inl ht
  | exchange who new r h1 h2 hne =>
    exact hs.of rfl rfl (fun _ _ => rfl) rfl rfl (fun p => .refl _) fun t ht => .inl ht
  | cvote who p aye rank n r h1 h2 h3 =>
    refine hs.of rfl rfl (fun q hq => ?_) rfl rfl (fun p => .refl _) fun t ht => .inl ht
    dsimp only
    rw [if_neg]
    rintro rfl
    rw [(hs.cborn q hq).1] at h2; cases h2
  | csubmit who origin call m t h =>
    have hn := (hs.cborn s.cnext (le_refl _)).1
    constructor
    · intro p hp
      have hp : s.cnext + 1 ≤ p := hp
      have := hs.cborn p (by omega)
      refine ⟨?_, this.2⟩
      show (if p = s.cnext then _ else _) = _
      rw [if_neg (by omega)]; exact this.1
    · exact hs.born
    · exact hs.polls
    · intro p i hi
      have hi : (if p = s.cnext then some _ else s.crefs p) = some i := hi
      split at hi
      · cases hi; exact h
      · exact hs.ctrack p i hi
    · intro u hu
      have := hs.tasks u hu
      cases hsrc : u.source with
      | scheduled => rw [hsrc] at this; exact this
      | community q => rw [hsrc] at this; exact this
      | collective q =>
        rw [hsrc] at this
        obtain ⟨r', n, h1, h2⟩ := this
        refine ⟨r', n, ?_, h2⟩
        show (if q = s.cnext then _ else _) = _
        rw [if_neg (by rintro rfl; rw [hn] at h1; cases h1)]
        exact h1
  | cref o p r i h hi =>
    refine hs.setCRef h ?_
    rcases hi with rfl | ⟨rfl, _⟩ | ⟨rfl, _⟩ <;> exact ⟨rfl, rfl⟩
  | submit o who origin call m t h =>
    have hn := hs.born s.next (le_refl _)
    constructor
    · exact hs.cborn
    · intro p hp
      have hp : s.next + 1 ≤ p := hp
      show (if p = s.next then _ else _) = _
      rw [if_neg (by omega)]; exact hs.born p (by omega)
    · intro p
      show Agrees (if p = s.next then _ else _) (if p = s.next then _ else _)
      split
      · exact ⟨_, rfl⟩
      · exact hs.polls p
    · exact hs.ctrack
    · intro u hu
      have := hs.tasks u hu
      cases hsrc : u.source with
      | scheduled => rw [hsrc] at this; exact this
      | collective q => rw [hsrc] at this; exact this
      | community q =>
        rw [hsrc] at this
        obtain ⟨r', n, h1, h2⟩ := this
        refine ⟨r', n, ?_, h2⟩
        show (if q = s.next then _ else _) = _
        rw [if_neg (by rintro rfl; rw [hn] at h1; cases h1)]
        exact h1
  | place o p r h => exact hs.setRef h rfl
  | close p r i h hi =>
    refine hs.endRef h ?_
    rcases hi with rfl | rfl <;> intro r' hr <;> cases hr
  | tracks tr tf => exact hs.of rfl rfl (fun _ _ => rfl) rfl rfl (fun p => .refl _) fun t ht => .inl ht
  | update o c i h h' => exact hs.of rfl rfl (fun _ _ => rfl) rfl rfl (fun p => .refl _) fun t ht => .inl ht
  | plan w call hw =>
    refine hs.of rfl rfl (fun _ _ => rfl) rfl rfl (fun p => .refl _) fun t ht => ?_
    rcases List.mem_cons.1 ht with rfl | ht
    · exact .inr ⟨rfl, rfl⟩
    · exact .inl ht
  | unplan k =>
    exact hs.of rfl rfl (fun _ _ => rfl) rfl rfl (fun p => .refl _) fun t ht => .inl (List.mem_of_mem_eraseIdx ht)
  | same o => exact hs

theorem Shape.collective {env : GEnv} {s s' : GSt} {p : Nat} (hs : Shape s) (h : serviceCollective env s p = some s') :
    Shape s' := by
  obtain ⟨r, i, hr, hi, h⟩ := serviceCollective_ok h
  rcases h with rfl | ⟨d, _, rfl⟩ | ⟨d, t, _, _, _, _, rfl⟩ | rfl | rfl
  · exact hs
  · exact hs.setCRef hr ⟨rfl, rfl⟩
  · have h1 := hs.setCRef (i := .approved r s.now) hr ⟨rfl, rfl⟩
    refine ⟨h1.cborn, h1.born, h1.polls, h1.ctrack, fun t ht => ?_⟩
    rcases enact_mem ht with ht | ⟨h2, h3, h4⟩
    · exact h1.tasks t ht
    · rw [h2]
      exact ⟨r, s.now, if_pos rfl, h3, h4 ▸ .self⟩
  · exact hs.setCRef hr ⟨rfl, rfl⟩
  · exact hs.setCRef hr ⟨rfl, rfl⟩

theorem Shape.community {env : GEnv} {s s' : GSt} {p : PollIx} (hs : Shape s) (h : serviceCommunity env s p = some s') :
    Shape s' := by
  obtain ⟨r, i, t, c, hr, hp, hi, h⟩ := serviceCommunity_ok h
  rcases h with rfl | ⟨d, _, rfl⟩ | ⟨d, u, _, _, _, _, rfl⟩ | rfl | rfl
  · exact hs
  · exact hs.setRef hr rfl
  · have h1 := hs.endRef (i := .approved r s.now) hr (fun _ h => by cases h)
    refine ⟨h1.cborn, h1.born, h1.polls, h1.ctrack, fun t ht => ?_⟩
    rcases enact_mem ht with ht | ⟨h2, h3, h4⟩
    · exact h1.tasks t ht
    · rw [h2]
      exact ⟨r, s.now, if_pos rfl, h3, h4 ▸ .self⟩
  · exact hs.endRef hr (fun _ h => by cases h)
  · exact hs.endRef hr (fun _ h => by cases h)

theorem Shape.drop {s : GSt} (hs : Shape s) {pre post : List Task} {t : Task} (ha : s.agenda = pre ++ t :: post) :
    Shape { s with agenda := pre ++ post } :=
  hs.of rfl rfl (fun _ _ => rfl) rfl rfl (fun p => .refl _) fun u hu => .inl (by
    rw [ha]; simp only [List.mem_append, List.mem_cons] at hu ⊢; tauto)

theorem Shape.apart {s : GSt} (hs : Shape s) {pre post rest : List Task} {t : Task} (ha : s.agenda = pre ++ t :: post)
    (hr : rest.Sublist t.parts) : Shape { s with agenda := pre ++ post ++ rest } where
  cborn := hs.cborn
  born := hs.born
  polls := hs.polls
  ctrack := hs.ctrack
  tasks := fun u hu => by
    rcases apart_mem ha hr hu with h | ⟨h, x, y, hc, rfl | rfl⟩
    · exact hs.tasks u h
    · have := hs.tasks t h
      dsimp only at this ⊢
      split at this
      · obtain ⟨r, n, h1, h2, h3⟩ := this
        rw [hc] at h3; exact ⟨r, n, h1, h2, h3.of_first⟩
      · obtain ⟨r, n, h1, h2, h3⟩ := this
        rw [hc] at h3; exact ⟨r, n, h1, h2, h3.of_first⟩
      · exact this
    · have := hs.tasks t h
      dsimp only at this ⊢
      split at this
      · obtain ⟨r, n, h1, h2, h3⟩ := this
        rw [hc] at h3; exact ⟨r, n, h1, h2, h3.of_rest⟩
      · obtain ⟨r, n, h1, h2, h3⟩ := this
        rw [hc] at h3; exact ⟨r, n, h1, h2, h3.of_rest⟩
      · exact this

theorem reach_shape {g : GSt} (hg : GGenesis g) {s : GSt} (h : GReach g s) : Shape s :=
  ginduct (I := Shape) hg.shape (fun _ _ _ _ _ hi ha => hi.drop ha) (fun _ _ _ _ _ hi ha hr => hi.apart ha hr)
    (fun _ _ _ _ he hi hl => hi.leaf he hl)
    (fun _ _ _ _ hi hs => hi.collective hs) (fun _ _ _ _ hi hs => hi.community hs)
    (fun _ _ hi => hi.of rfl rfl (fun _ _ => rfl) rfl rfl (fun p => .refl _) fun t ht => .inl ht)
    (fun _ _ hi hw => hi.of rfl rfl (fun _ _ => rfl) rfl rfl (fun p => by dsimp only; rw [hw]; exact .refl _)
      fun t ht => .inl ht) h

end Verif.Governance
