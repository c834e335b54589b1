import Verif.Governance.Manager
import Verif.Communities.RegistryLemmas

/-! # The communities manager: helper facts -/

namespace Verif.Governance

open Verif Verif.Accounts Verif.Communities

theorem mbind_ok {α β : Type} {x : Except MErr α} {f : α → Except MErr β} {b : β} (h : (x >>= f) = .ok b) :
    ∃ a, x = .ok a ∧ f a = .ok b := by
  cases x with
  | error e => cases h
  | ok a => exact ⟨a, rfl, h⟩

/-- What minting `n` memberships from `start` on does. -/
structure Minted (cfg : MConfig) (price : Nat) (s s' : MSt) (start n : Nat) : Prop where
  items : ∀ i, i ∈ s'.comm.world.items ↔
    i ∈ s.comm.world.items ∨ ∃ j, j < n ∧ i = ⟨cfg.managerCollection, UInt32.ofNat (start + j), cfg.managerOwner, 0⟩
  count : s'.comm.world.items.length = s.comm.world.items.length + n
  fresh : ∀ j, j < n → ∀ i ∈ s.comm.world.items,
    ¬ (i.group = cfg.managerCollection ∧ i.id = UInt32.ofNat (start + j))
  prices : ∀ c m, s'.prices c m =
    if c = cfg.managerCollection ∧ start ≤ m.toNat ∧ m.toNat < start + n then some price else s.prices c m
  comm : s'.comm = { s.comm with world := { s.comm.world with items := s'.comm.world.items } }
  collections : s'.collections = s.collections
  tracks : s'.tracks = s.tracks
  trackOf : s'.trackOf = s.trackOf
  seats : s'.seats = s.seats
  events : s'.events = s.events

theorem Minted.zero (cfg : MConfig) (price : Nat) (s : MSt) (start : Nat) : Minted cfg price s s start 0 := by
  refine ⟨fun i => ?_, rfl, fun j hj => absurd hj (by omega), fun c m => ?_, rfl, rfl, rfl, rfl, rfl, rfl⟩
  · constructor
    · exact .inl
    · rintro (h | ⟨j, hj, _⟩)
      · exact h
      · omega
  · rw [if_neg (by omega)]

theorem mintInto_ok {env : MEnv} {s s' : MSt} {c : CId} {m : MId} {w : AccountId} (h : mintInto env s c m w = .ok s') :
    s.collections c ≠ none ∧ (∀ i ∈ s.comm.world.items, ¬ (i.group = c ∧ i.id = m)) ∧
    s' = { s with comm := { s.comm with world := { s.comm.world with items := ⟨c, m, w, 0⟩ :: s.comm.world.items } } } := by
  unfold mintInto at h
  split at h
  · cases h
  · rename_i h1
    cases h
    refine ⟨fun h2 => h1 (.inl h2), fun i hi hc => h1 (.inr (.inl ?_)), rfl⟩
    rw [List.any_eq_true]
    exact ⟨i, hi, by simpa using hc⟩

theorem setPrice_ok {env : MEnv} {s s' : MSt} {c : CId} {m : MId} {n : Nat} (h : setPrice env s c m n = .ok s') :
    s' = { s with prices := fun d k => if d = c ∧ k = m then some n else s.prices d k } := by
  unfold setPrice at h
  split at h
  · cases h
  · cases h; rfl

theorem Minted.one {cfg : MConfig} {env : MEnv} {price : Nat} {s s1 s2 : MSt} {id : MId}
    (h1 : mintInto env s cfg.managerCollection id cfg.managerOwner = .ok s1)
    (h2 : setPrice env s1 cfg.managerCollection id price = .ok s2) : Minted cfg price s s2 id.toNat 1 := by
  obtain ⟨_, hf, rfl⟩ := mintInto_ok h1
  rw [setPrice_ok h2]
  refine ⟨fun i => ?_, rfl, fun j hj i hi => ?_, fun c m => ?_, rfl, rfl, rfl, rfl, rfl, rfl⟩
  · constructor
    · intro h
      rcases List.mem_cons.mp h with h | h
      · exact .inr ⟨0, by omega, by rw [h]; simp⟩
      · exact .inl h
    · rintro (h | ⟨j, hj, h⟩)
      · exact List.mem_cons_of_mem _ h
      · obtain rfl : j = 0 := by omega
        rw [h]; simp
  · obtain rfl : j = 0 := by omega
    simpa using hf i hi
  · dsimp only
    by_cases hc : c = cfg.managerCollection ∧ m = id
    · rw [if_pos hc, if_pos ⟨hc.1, by rw [hc.2], by rw [hc.2]; omega⟩]
    · rw [if_neg hc, if_neg]
      rintro ⟨h3, h4, h5⟩
      exact hc ⟨h3, UInt32.toNat_inj.mp (by omega)⟩

theorem Minted.cons {cfg : MConfig} {price : Nat} {s s1 s2 : MSt} {start n : Nat}
    (h1 : Minted cfg price s s1 start 1) (h2 : Minted cfg price s1 s2 (start + 1) n) :
    Minted cfg price s s2 start (n + 1) := by
  refine ⟨fun i => ?_, ?_, fun j hj i hi => ?_, fun c m => ?_, ?_, ?_, ?_, ?_, ?_, ?_⟩
  · rw [h2.items, h1.items]
    constructor
    · rintro ((h | ⟨j, hj, h⟩) | ⟨j, hj, h⟩)
      · exact .inl h
      · exact .inr ⟨j, by omega, h⟩
      · exact .inr ⟨j + 1, by omega, by rw [h, show start + 1 + j = start + (j + 1) by omega]⟩
    · rintro (h | ⟨j, hj, h⟩)
      · exact .inl (.inl h)
      · rcases Nat.eq_zero_or_pos j with h0 | h0
        · exact .inl (.inr ⟨j, by omega, h⟩)
        · exact .inr ⟨j - 1, by omega, by rw [h, show start + 1 + (j - 1) = start + j by omega]⟩
  · rw [h2.count, h1.count]; omega
  · rcases Nat.eq_zero_or_pos j with h0 | h0
    · exact h1.fresh j (by omega) i hi
    · have := h2.fresh (j - 1) (by omega) i ((h1.items i).mpr (.inl hi))
      rwa [show start + 1 + (j - 1) = start + j by omega] at this
  · rw [h2.prices, h1.prices]
    by_cases hc : c = cfg.managerCollection
    · simp only [hc, true_and]
      split <;> split <;> first | rfl | (split <;> first | rfl | omega) | omega
    · simp only [hc, false_and, if_false]
  · rw [h2.comm, h1.comm]
  · rw [h2.collections, h1.collections]
  · rw [h2.tracks, h1.tracks]
  · rw [h2.trackOf, h1.trackOf]
  · rw [h2.seats, h1.seats]
  · rw [h2.events, h1.events]

theorem mintLoop_ok {cfg : MConfig} {env : MEnv} {price : Nat} {n : Nat} {s s' : MSt} {id : MId} {k k' : Nat}
    (h : mintLoop cfg env price n s id k = .ok (s', k')) :
    Minted cfg price s s' id.toNat (min n (2 ^ 32 - id.toNat)) ∧ k' = k + min n (2 ^ 32 - 1 - id.toNat) := by
  induction n generalizing s id k with
  | zero =>
    cases h
    simp only [Nat.zero_min, Nat.add_zero, and_true]
    exact Minted.zero ..
  | succ n ih =>
    unfold mintLoop at h
    obtain ⟨s1, h1, h⟩ := mbind_ok h
    obtain ⟨s2, h2, h⟩ := mbind_ok h
    have hone := Minted.one h1 h2
    have hlt := id.toNat_lt
    unfold increment at h
    by_cases hi : id.toNat + 1 < 2 ^ 32
    · rw [if_pos hi] at h
      obtain ⟨h3, h4⟩ := ih h
      have hn : (id + 1).toNat = id.toNat + 1 := by
        rw [UInt32.toNat_add]; simp; omega
      rw [hn] at h3 h4
      refine ⟨?_, by omega⟩
      rw [show min (n + 1) (2 ^ 32 - id.toNat) = min n (2 ^ 32 - (id.toNat + 1)) + 1 by omega]
      exact hone.cons h3
    · rw [if_neg hi] at h
      cases h
      refine ⟨?_, by omega⟩
      rw [show min (n + 1) (2 ^ 32 - id.toNat) = 1 by omega]
      exact hone

/-- Everything free and nothing refused, the loop goes through. -/
theorem mintLoop_goes {cfg : MConfig} {env : MEnv} {price : Nat} (hm : ∀ c m, env.denyMint c m = false)
    (hp : ∀ c m, env.denyPrice c m = false) {n : Nat} {s : MSt} {id : MId} {k : Nat}
    (hc : s.collections cfg.managerCollection ≠ none)
    (hf : ∀ j, j < min n (2 ^ 32 - id.toNat) → ∀ i ∈ s.comm.world.items,
      ¬ (i.group = cfg.managerCollection ∧ i.id.toNat = id.toNat + j)) :
    ∃ r, mintLoop cfg env price n s id k = .ok r := by
  induction n generalizing s id k with
  | zero => exact ⟨_, rfl⟩
  | succ n ih =>
    have hlt := id.toNat_lt
    have hfree : (s.comm.world.items.any fun i => decide (i.group = cfg.managerCollection ∧ i.id = id)) = false := by
      rw [List.any_eq_false]
      intro i hi
      have := hf 0 (by omega) i hi
      simp only [decide_eq_true_eq]
      rintro ⟨h1, h2⟩
      exact this ⟨h1, by rw [h2]; omega⟩
    unfold mintLoop mintInto
    rw [hfree, hm, if_neg (by simp [hc])]
    unfold setPrice
    simp only [hp, Bool.false_eq_true, if_false, bind, Except.bind]
    unfold increment
    by_cases hi : id.toNat + 1 < 2 ^ 32
    · rw [if_pos hi]
      dsimp only
      have hn : (id + 1).toNat = id.toNat + 1 := by
        rw [UInt32.toNat_add]; simp; omega
      apply ih
      · exact hc
      · intro j hj i hmem hcon
        rw [hn] at hj hcon
        rcases List.mem_cons.mp hmem with rfl | hmem
        · have := hcon.2; dsimp only at this; omega
        · exact hf (j + 1) (by omega) i hmem ⟨hcon.1, by omega⟩
    · rw [if_neg hi]; exact ⟨_, rfl⟩

end Verif.Governance

namespace Verif.Governance

open Verif Verif.Accounts Verif.Communities

/-- Where nobody may call `create`, no call of the communities pallet changes which communities exist. -/
theorem dispatch_info {cfg : Config} (hcfg : ∀ o, cfg.createOrigin o = none) {env : Env} {s s' : St} {o : Origin}
    {call : Call} (h : dispatch cfg env s o call = .ok s') : s'.info = s.info := by
  obtain ⟨o', leaf, hl, h⟩ := dispatch_leaf h
  cases leaf with
  | create admin c =>
    obtain ⟨d, s1, h1, _, _⟩ := create_ok h
    rw [hcfg] at h1; cases h1
  | setAdminOrigin admin => obtain ⟨c, _, h2, rfl⟩ := setAdminOrigin_ok h; rfl
  | addMember a => obtain ⟨_, _, _, _, _, _, _, _, _, rfl⟩ := addMember_ok h; rfl
  | removeMember a m => obtain ⟨_, _, _, _, _, _, _, rfl⟩ := removeMember_ok h; rfl
  | promote m => obtain ⟨_, _, _, _, rfl⟩ := promote_ok h; rfl
  | demote m => obtain ⟨_, _, _, _, rfl⟩ := demote_ok h; rfl
  | setDecisionMethod c dm => obtain ⟨_, _, _, rfl⟩ := setDecisionMethod_ok h; rfl
  | vote m p v => exact (vote_registry h).1
  | removeVote m p => exact (removeVote_registry h).1
  | unlock p => exact (unlock_registry h).1
  | dispatchAsAccount c => exact absurd rfl (hl c)
  | foreign n =>
    simp only [dispatch] at h
    split at h
    · cases h
    · cases h; rfl

theorem createCollection_ok {env : MEnv} {s s' : MSt} {c : CId} {a b : AccountId}
    (h : createCollection env s c a b = .ok s') : s.collections c = none ∧
    s' = { s with collections := fun d => if d = c then some ⟨a, b⟩ else s.collections d } := by
  unfold createCollection at h
  split at h
  · cases h
  · rename_i h1
    cases h
    exact ⟨by_contra fun h2 => h1 (.inl h2), rfl⟩

theorem insertTrack_ok {env : MEnv} {s s' : MSt} {c : CId} {i : TrackInfo} {o : Origin}
    (h : insertTrack env s c i o = .ok s') : s.tracks c = none ∧
    s' = { s with
      tracks := fun d => if d = c then some i else s.tracks d
      trackOf := fun x => if x = o then some c else s.trackOf x } := by
  unfold insertTrack at h
  split at h
  · cases h
  · rename_i h1
    cases h
    exact ⟨by_contra fun h2 => h1 (.inl h2), rfl⟩

theorem induct_ok {env : MEnv} {s s' : MSt} {a : AccountId} (h : induct env s a = .ok s') : s.seats a = none ∧
    s' = { s with seats := fun x => if x = a then some 0 else s.seats x } := by
  unfold induct at h
  split at h
  · cases h
  · rename_i h1
    cases h
    exact ⟨by_contra fun h2 => h1 (.inl h2), rfl⟩

theorem liftComm_ok {s s' : MSt} {r : Except Err St} (h : liftComm s r = .ok s') :
    ∃ c, r = .ok c ∧ s' = { s with comm := c } := by
  unfold liftComm at h
  split at h
  · cases h; exact ⟨_, rfl, rfl⟩
  · cases h

/-- A successful registration, step by step. -/
theorem mregister_ok {cfg : MConfig} {env : MEnv} {s s' : MSt} {o : Origin} {c : CId} {name : List UInt8}
    {firstAdmin : Address} {method : Option Method} {track : Option TrackInfo}
    (h : mregister cfg env s o c name firstAdmin method track = .ok s') :
    ∃ deposit a info c1 c2, cfg.registerOrigin o = some deposit ∧ validUtf8 name = true ∧ lookup firstAdmin = some a ∧
      chooseTrack name track = .ok info ∧
      register env.base s.comm (.signed a) c deposit = .ok c1 ∧
      (match method with
        | none => c2 = c1
        | some dm => setDecisionMethod cfg.base env.base c1 (.signed a) c dm = .ok c2) ∧
      s.collections c = none ∧ s.tracks c = none ∧ s.seats (communityAccount c) = none ∧
      s' = { comm := c2
             collections := fun d => if d = c then some ⟨communityAccount c, communityAccount c⟩ else s.collections d
             prices := s.prices
             tracks := fun d => if d = c then some info else s.tracks d
             trackOf := fun x => if x = communityOrigin c then some c else s.trackOf x
             seats := fun x => if x = communityAccount c then some 0 else s.seats x
             events := .communityRegistered c :: s.events } := by
  unfold mregister at h
  split at h
  · cases h
  rename_i deposit hd
  split at h
  · cases h
  rename_i hu
  split at h
  · cases h
  rename_i a ha
  obtain ⟨s1, h1, h⟩ := mbind_ok h
  obtain ⟨s2, h2, h⟩ := mbind_ok h
  obtain ⟨s3, h3, h⟩ := mbind_ok h
  obtain ⟨info, h4, h⟩ := mbind_ok h
  obtain ⟨s4, h5, h⟩ := mbind_ok h
  obtain ⟨s5, h6, h⟩ := mbind_ok h
  cases h
  obtain ⟨c1, hc1, rfl⟩ := liftComm_ok h1
  have h2' : ∃ c2, (match method with
        | none => c2 = c1
        | some dm => setDecisionMethod cfg.base env.base c1 (.signed a) c dm = .ok c2) ∧ s2 = { s with comm := c2 } := by
    cases method with
    | none => cases h2; exact ⟨_, rfl, rfl⟩
    | some dm =>
      obtain ⟨c2, hc2, rfl⟩ := liftComm_ok h2
      exact ⟨c2, hc2, rfl⟩
  obtain ⟨c2, hc2, rfl⟩ := h2'
  obtain ⟨g3, rfl⟩ := createCollection_ok h3
  obtain ⟨g5, rfl⟩ := insertTrack_ok h5
  obtain ⟨g6, rfl⟩ := induct_ok h6
  refine ⟨deposit, a, info, c1, c2, hd, by simpa using hu, ha, h4, hc1, hc2, g3, g5, g6, rfl⟩

end Verif.Governance
