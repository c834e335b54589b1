import Verif.Governance.ManagerLemmas
import Verif.Communities.TallyTheorems
import Verif.Communities.RegistryTheorems

/-!
# Registering communities and creating memberships (C43, C64–C66)
-/

namespace Verif.Governance

open Verif Verif.Accounts Verif.Communities

/-! ## A small chain for the examples -/

namespace Demo

/-- Nothing is refused. -/
def menv : MEnv where
  base := Communities.Demo.env
  denyCollection := fun _ => false
  denyTrack := fun _ => false
  denySeat := fun _ => false
  denyMint := fun _ _ => false
  denyPrice := fun _ _ => false

/-- Only the collection of the memberships manager exists; everybody has a million units. -/
def mstart : MSt where
  comm := { Communities.Demo.start with world := { Communities.Demo.world0 with
    items := [], native := fun _ => 1000000 * units } }
  collections := fun c => if c = 0 then some ⟨treasuryAccount, treasuryAccount⟩ else none
  prices := fun _ _ => none
  tracks := fun _ => none
  trackOf := fun _ => none
  seats := fun _ => none
  events := []

end Demo

/-! ## C64 -/

/-- C64: a successful `create_memberships` asked for at most 1024, came from an allowed origin, and minted exactly the
ids `startingAt, …, startingAt + amount - 1` (those that are 32-bit numbers): each is a new item of the manager's
collection owned by the manager, no other item appears or changes, every one of them gets the given price and no other
price changes, and nothing else changes besides the event. -/
theorem C64_mints_exactly (cfg : MConfig) (env : MEnv) (s s' : MSt) (o : Origin) (amount : UInt16) (startingAt : MId)
    (price : Nat) (h : mdispatch cfg env s o (.createMemberships amount startingAt price) = .ok s') :
    amount.toNat ≤ 1024 ∧ cfg.membershipsOrigin o = true ∧
    (∀ i, i ∈ s'.comm.world.items ↔ i ∈ s.comm.world.items ∨
      (i.group = cfg.managerCollection ∧ i.owner = cfg.managerOwner ∧ i.rank = 0 ∧
        startingAt.toNat ≤ i.id.toNat ∧ i.id.toNat < startingAt.toNat + amount.toNat)) ∧
    s'.comm.world.items.length = s.comm.world.items.length + min amount.toNat (2 ^ 32 - startingAt.toNat) ∧
    (∀ i ∈ s.comm.world.items, i.group = cfg.managerCollection →
      ¬ (startingAt.toNat ≤ i.id.toNat ∧ i.id.toNat < startingAt.toNat + amount.toNat)) ∧
    (∀ c m, s'.prices c m = if c = cfg.managerCollection ∧ startingAt.toNat ≤ m.toNat ∧
      m.toNat < startingAt.toNat + amount.toNat then some price else s.prices c m) ∧
    s'.comm = { s.comm with world := { s.comm.world with items := s'.comm.world.items } } ∧
    s'.collections = s.collections ∧ s'.tracks = s.tracks ∧ s'.trackOf = s.trackOf ∧ s'.seats = s.seats := by
  simp only [mdispatch, createMemberships] at h
  split at h
  · cases h
  rename_i h1
  split at h
  · cases h
  rename_i h2
  obtain ⟨⟨s1, k⟩, h3, h4⟩ := mbind_ok h
  cases h4
  obtain ⟨hm, _⟩ := mintLoop_ok h3
  have hlt := startingAt.toNat_lt
  refine ⟨?_, by simpa using h2, fun i => ?_, hm.count, fun i hi hg hr => ?_, fun c m => ?_, hm.comm, hm.collections,
    hm.tracks, hm.trackOf, hm.seats⟩
  · have : amount ≤ 1024 := by simpa using h1
    exact UInt16.le_iff_toNat_le.mp this
  · show i ∈ s1.comm.world.items ↔ _
    rw [hm.items]
    constructor
    · rintro (h | ⟨j, hj, rfl⟩)
      · exact .inl h
      · refine .inr ⟨rfl, rfl, rfl, ?_⟩
        dsimp only
        have : (UInt32.ofNat (startingAt.toNat + j)).toNat = startingAt.toNat + j := by
          rw [UInt32.toNat_ofNat']; omega
        omega
    · rintro (h | ⟨h1, h2, h3, h4, h5⟩)
      · exact .inl h
      · have hi := i.id.toNat_lt
        refine .inr ⟨i.id.toNat - startingAt.toNat, by omega, ?_⟩
        rw [show startingAt.toNat + (i.id.toNat - startingAt.toNat) = i.id.toNat by omega]
        cases i
        simp_all
  · have hi' := i.id.toNat_lt
    refine hm.fresh (i.id.toNat - startingAt.toNat) (by omega) i hi ⟨hg, ?_⟩
    rw [show startingAt.toNat + (i.id.toNat - startingAt.toNat) = i.id.toNat by omega]
    simp
  · show s1.prices c m = _
    rw [hm.prices]
    have hi' := m.toNat_lt
    congr 1
    simp only [eq_iff_iff]
    constructor
    · rintro ⟨h1, h2, h3⟩; exact ⟨h1, h2, by omega⟩
    · rintro ⟨h1, h2, h3⟩; exact ⟨h1, h2, by omega⟩

/-- C64: amounts above 1024 and other origins are refused. -/
theorem C64_refused (cfg : MConfig) (env : MEnv) (s : MSt) (o : Origin) (amount : UInt16) (startingAt : MId)
    (price : Nat) (h : 1024 < amount.toNat ∨ cfg.membershipsOrigin o = false) :
    ∃ e, mdispatch cfg env s o (.createMemberships amount startingAt price) = .error e := by
  cases hr : mdispatch cfg env s o (.createMemberships amount startingAt price) with
  | error e => exact ⟨e, rfl⟩
  | ok s' =>
    obtain ⟨h1, h2, _⟩ := C64_mints_exactly cfg env s s' o amount startingAt price hr
    rcases h with h | h
    · omega
    · rw [h] at h2; cases h2

/-- C64: on Kreivo the origin is root or the `CreateMemberships` governance origin, nothing else. -/
theorem C64_kreivo_origin (o : Origin) :
    kreivoManager.membershipsOrigin o = true ↔ o = .root ∨ o = .custom .createMemberships := by
  simp [kreivoManager]

/-- C64: it succeeds whenever the origin is allowed, the amount is at most 1024, the ids asked for are free, the
collection exists and the NFT pallet refuses nothing. -/
theorem C64_goes_through (cfg : MConfig) (env : MEnv) (s : MSt) (o : Origin) (amount : UInt16) (startingAt : MId)
    (price : Nat) (h1 : amount.toNat ≤ 1024) (h2 : cfg.membershipsOrigin o = true)
    (h3 : s.collections cfg.managerCollection ≠ none)
    (h4 : ∀ i ∈ s.comm.world.items, i.group = cfg.managerCollection →
      ¬ (startingAt.toNat ≤ i.id.toNat ∧ i.id.toNat < startingAt.toNat + amount.toNat))
    (hm : ∀ c m, env.denyMint c m = false) (hp : ∀ c m, env.denyPrice c m = false) :
    ∃ s', mdispatch cfg env s o (.createMemberships amount startingAt price) = .ok s' := by
  obtain ⟨r, hr⟩ := mintLoop_goes (cfg := cfg) (price := price) hm hp (n := amount.toNat) (id := startingAt) (k := 0) h3
    (fun j hj i hi hc => h4 i hi hc.1 (by omega))
  have : amount ≤ 1024 := UInt16.le_iff_toNat_le.mpr h1
  refine ⟨{ r.1 with events := .membershipsCreated startingAt r.2 :: r.1.events }, ?_⟩
  · simp only [mdispatch, createMemberships]
    rw [if_neg (by simpa using this), if_neg (by simp [h2]), hr]
    rfl

/-- C64, the report: if the last id asked for is below the largest 32-bit number, the event reports the number of
memberships minted. Missing: requests that reach the largest id. -/
theorem C64_reports_partial (cfg : MConfig) (env : MEnv) (s s' : MSt) (o : Origin) (amount : UInt16) (startingAt : MId)
    (price : Nat) (h : mdispatch cfg env s o (.createMemberships amount startingAt price) = .ok s')
    (hlast : startingAt.toNat + amount.toNat ≤ 2 ^ 32 - 1) :
    s'.events = .membershipsCreated startingAt (s'.comm.world.items.length - s.comm.world.items.length) :: s.events ∧
    s'.comm.world.items.length - s.comm.world.items.length = amount.toNat := by
  have hcount := (C64_mints_exactly cfg env s s' o amount startingAt price h).2.2.2.1
  simp only [mdispatch, createMemberships] at h
  split at h
  · cases h
  split at h
  · cases h
  obtain ⟨⟨s1, k⟩, h3, h4⟩ := mbind_ok h
  cases h4
  obtain ⟨hm, hk⟩ := mintLoop_ok h3
  have : k = amount.toNat := by omega
  dsimp only at hcount ⊢
  refine ⟨?_, by omega⟩
  rw [hm.events, this]
  congr 2
  omega

/-- C64 fails at the largest id: it is minted but not reported. -/
theorem C64_reports_fails :
    ∃ s', mdispatch kreivoManager Demo.menv Demo.mstart .root (.createMemberships 5 4294967294 10) = .ok s' ∧
      s'.events = [.membershipsCreated 4294967294 1] ∧ s'.comm.world.items.length = 2 :=
  ⟨_, rfl, rfl, rfl⟩

example : ∃ s', mdispatch kreivoManager Demo.menv Demo.mstart (.custom .createMemberships) (.createMemberships 3 7 10) =
    .ok s' ∧ s'.comm.world.items.map (·.id) = [9, 8, 7] ∧ s'.prices 0 8 = some 10 ∧
    s'.events = [.membershipsCreated 7 3] := ⟨_, rfl, rfl, rfl, rfl⟩

/-! ## C65 -/

/-- Everything a registration of community `c` brings, and that nothing else is touched. -/
structure Registered (cfg : MConfig) (s s' : MSt) (o : Origin) (c : CId) (name : List UInt8) (firstAdmin : Address)
    (method : Option Method) (track : Option TrackInfo) : Prop where
  /-- The community did not exist and is now active, with the named account as its admin. -/
  community : s.comm.info c = none ∧ s'.comm.info c = some .active ∧
    ∃ a, lookup firstAdmin = some a ∧ s.comm.adminOf (.signed a) = none ∧ s'.comm.adminOf (.signed a) = some c ∧
      ∀ x, x ≠ .signed a → s'.comm.adminOf x = s.comm.adminOf x
  /-- Its decision method is the given one. -/
  method : s'.comm.method c = method.getD (s.comm.method c)
  /-- Its membership collection is new and owned by the community's account. -/
  collection : s.collections c = none ∧ s'.collections c = some ⟨communityAccount c, communityAccount c⟩
  /-- Its track is new, is the given one or the default one, and is that of the community's own origin. -/
  track : s.tracks c = none ∧ (∃ i, s'.tracks c = some i ∧ (track = some i ∨ (track = none ∧ defaultTrack name = some i))) ∧
    s'.trackOf (.community ⟨c, none⟩) = some c
  /-- Its account has a new seat of rank 0 in the collective. -/
  seat : s.seats (communityAccount c) = none ∧ s'.seats (communityAccount c) = some 0
  event : s'.events = .communityRegistered c :: s.events
  /-- The deposit is the one the origin owes, paid exactly. -/
  deposit : ∃ d, cfg.registerOrigin o = some d ∧ match d with
    | none => s'.comm.world.native = s.comm.world.native
    | some (n, src, dst) => n ≤ s.comm.world.native src ∧
        (src ≠ dst → s'.comm.world.native src + n = s.comm.world.native src ∧
          s'.comm.world.native dst = s.comm.world.native dst + n) ∧
        (src = dst → s'.comm.world.native src = s.comm.world.native src) ∧
        ∀ a, a ≠ src → a ≠ dst → s'.comm.world.native a = s.comm.world.native a
  /-- Everything that belongs to other communities stays. -/
  others : (∀ d, d ≠ c → s'.comm.info d = s.comm.info d ∧ s'.comm.method d = s.comm.method d ∧
      s'.collections d = s.collections d ∧ s'.tracks d = s.tracks d) ∧
    (∀ x, x ≠ .community ⟨c, none⟩ → s'.trackOf x = s.trackOf x) ∧
    (∀ a, a ≠ communityAccount c → s'.seats a = s.seats a) ∧
    s'.prices = s.prices ∧ s'.comm.votes = s.comm.votes ∧ s'.comm.locks = s.comm.locks ∧
    s'.comm.frozenN = s.comm.frozenN ∧ s'.comm.frozenA = s.comm.frozenA ∧
    s'.comm.world.items = s.comm.world.items ∧ s'.comm.world.asset = s.comm.world.asset ∧
    s'.comm.world.polls = s.comm.world.polls

theorem C65_success (cfg : MConfig) (env : MEnv) (s s' : MSt) (o : Origin) (c : CId) (name : List UInt8)
    (firstAdmin : Address) (method : Option Method) (track : Option TrackInfo)
    (h : mdispatch cfg env s o (.register c name firstAdmin method track) = .ok s') :
    Registered cfg s s' o c name firstAdmin method track := by
  obtain ⟨deposit, a, info, c1, c2, hd, _, ha, ht, hr, hm, h1, h2, h3, rfl⟩ := mregister_ok h
  obtain ⟨_, _, hasset, hdep⟩ := C43_exact_deposit _ _ _ _ _ _ hr
  have hc1 : ∃ evs mins teams, c2 = { c1 with
      events := evs
      world := { c1.world with assetMin := mins, team := teams }
      method := fun d => if d = c then method.getD (c1.method c) else c1.method d } := by
    cases method with
    | none =>
      refine ⟨c1.events, c1.world.assetMin, c1.world.team, ?_⟩
      dsimp only at hm
      subst hm
      simp only [Option.getD_none]
      have : (fun d => if d = c then c2.method c else c2.method d) = c2.method := by
        funext d; split
        · rename_i h; rw [h]
        · rfl
      rw [this]
    | some dm =>
      obtain ⟨_, mins, teams, rfl⟩ := setDecisionMethod_ok hm
      exact ⟨_, mins, teams, rfl⟩
  obtain ⟨evs, mins, teams, rfl⟩ := hc1
  obtain ⟨g1, g2, w, rfl, g3⟩ := register_ok hr
  have hw : w.items = s.comm.world.items ∧ w.polls = s.comm.world.polls := by
    cases deposit with
    | none => dsimp only at g3; rw [g3]; exact ⟨rfl, rfl⟩
    | some x =>
      obtain ⟨_, bal, h5, _⟩ := transferNative_ok g3
      have : w = { s.comm.world with native := bal } := congrArg St.world h5
      rw [this]; exact ⟨rfl, rfl⟩
  constructor
  · refine ⟨g1, by simp, a, ha, g2, by simp, fun x hx => by simp [hx]⟩
  · simp
  · exact ⟨h1, by simp⟩
  · refine ⟨h2, ⟨info, by simp, ?_⟩, by simp [communityOrigin]⟩
    unfold chooseTrack at ht
    cases track with
    | some i => cases ht; exact .inl rfl
    | none =>
      right
      dsimp only at ht
      split at ht
      · rename_i i hi; cases ht; exact ⟨rfl, hi⟩
      · cases ht
  · exact ⟨h3, by simp⟩
  · rfl
  · refine ⟨deposit, hd, ?_⟩
    cases deposit with
    | none => exact hdep
    | some x => exact hdep
  · refine ⟨fun d hd => ?_, fun x hx => ?_, fun x hx => ?_, rfl, rfl, rfl, rfl, rfl, hw.1, hasset, hw.2⟩
    · simp [hd]
    · have : x ≠ communityOrigin c := hx
      simp [this]
    · simp [hx]

/-- C65: a registration, whatever its arguments and wherever it fails, either does everything or changes nothing. -/
theorem C65_all_or_nothing (cfg : MConfig) (env : MEnv) (s : MSt) (o : Origin) (c : CId) (name : List UInt8)
    (firstAdmin : Address) (method : Option Method) (track : Option TrackInfo) :
    transact s (mdispatch cfg env s o (.register c name firstAdmin method track)) = s ∨
    Registered cfg s (transact s (mdispatch cfg env s o (.register c name firstAdmin method track))) o c name firstAdmin
      method track := by
  cases h : mdispatch cfg env s o (.register c name firstAdmin method track) with
  | error e => exact .inl rfl
  | ok s' => exact .inr (C65_success _ _ _ _ _ _ _ _ _ _ h)

/-- C65: names of up to 25 bytes, the most the call takes, never panic. -/
theorem C65_no_panic (cfg : MConfig) (env : MEnv) (s : MSt) (o : Origin) (c : CId) (name : List UInt8)
    (firstAdmin : Address) (method : Option Method) (track : Option TrackInfo) (hn : name.length ≤ 25) :
    mdispatch cfg env s o (.register c name firstAdmin method track) ≠ .error .panic := by
  have hch : ∀ i e, chooseTrack name i = .error e → False := by
    intro i e h
    cases i with
    | some i => cases h
    | none => simp [chooseTrack, defaultTrack, strArray25, hn] at h
  have lift : ∀ {r : Except Err St} {s : MSt}, liftComm s r ≠ .error .panic := by
    intro r s h; cases r <;> cases h
  intro h
  simp only [mdispatch, mregister] at h
  split at h
  · cases h
  split at h
  · cases h
  split at h
  · cases h
  rename_i a _
  have step : ∀ {α β : Type} {x : Except MErr α} {f : α → Except MErr β}, (x >>= f) = .error .panic →
      x = .error .panic ∨ ∃ a, x = .ok a ∧ f a = .error .panic := by
    intro α β x f h
    cases x with
    | error e => left; cases h; rfl
    | ok a => exact .inr ⟨a, rfl, h⟩
  rcases step h with h | ⟨_, _, h⟩
  · exact lift h
  rcases step h with h | ⟨_, _, h⟩
  · cases method with
    | none => cases h
    | some dm => exact lift h
  rcases step h with h | ⟨_, _, h⟩
  · unfold createCollection at h; split at h <;> cases h
  rcases step h with h | ⟨_, _, h⟩
  · exact hch _ _ h
  rcases step h with h | ⟨_, _, h⟩
  · unfold insertTrack at h; split at h <;> cases h
  rcases step h with h | ⟨_, _, h⟩
  · unfold induct at h; split at h <;> cases h
  cases h

/-- Histories of a Kreivo chain as far as communities are concerned: manager calls and communities calls by anybody,
forced states, and changes of memberships, balances and referenda. Calls that change collections, tracks and seats directly
are left out (`GStep` has those of the collective). -/
inductive MStep : MSt → MSt → Prop
  | manager {s s' : MSt} (env : MEnv) (o : Origin) (c : MCall) (h : mdispatch kreivoManager env s o c = .ok s') : MStep s s'
  | community {s : MSt} {c' : St} (env : Env) (he : Lawful env) (o : Origin) (c : Call)
      (h : dispatch kreivo env s.comm o c = .ok c') : MStep s { s with comm := c' }
  | force {s : MSt} (c : CId) (st : CState) : MStep s { s with comm := forceState s.comm c st }
  | world {s : MSt} (w : World) (h : PollsMove s.comm.world w) : MStep s { s with comm := { s.comm with world := w } }

/-- States reached from a chain without communities and community tracks. -/
inductive MReachable : MSt → Prop
  | start {s : MSt} (h : Genesis s.comm) (ht : ∀ o, s.trackOf o = none) : MReachable s
  | step {s s' : MSt} (h : MReachable s) (st : MStep s s') : MReachable s'

/-- C65: however calls of the manager and the communities pallet follow each other, each registered community has its
collection, owned by its own account, its track, belonging to its own origin, and its seat; and no origin but a community's own
voice has a track. Calls of the pallets that keep these (root taking a seat away, say, C135) are no steps of these histories. -/
theorem C65_complete (s : MSt) (h : MReachable s) :
    (∀ c, s.comm.info c ≠ none → s.collections c = some ⟨communityAccount c, communityAccount c⟩ ∧
      s.tracks c ≠ none ∧ s.trackOf (.community ⟨c, none⟩) = some c ∧ s.seats (communityAccount c) ≠ none) ∧
    ∀ o c, s.trackOf o = some c → o = .community ⟨c, none⟩ ∧ s.comm.info c ≠ none := by
  induction h with
  | start h ht =>
    refine ⟨fun c hc => absurd (h.1 c) hc, fun o c hc => ?_⟩
    rw [ht] at hc; cases hc
  | @step s s' _ st ih =>
    obtain ⟨ih1, ih2⟩ := ih
    cases st with
    | manager env o c h =>
      cases c with
      | register c name a m t =>
        have hr := C65_success _ _ _ _ _ _ _ _ _ _ h
        refine ⟨fun d hd => ?_, fun x d hx => ?_⟩
        · by_cases hdc : d = c
          · subst hdc
            obtain ⟨i, hi, _⟩ := hr.track.2.1
            exact ⟨hr.collection.2, by rw [hi]; simp, hr.track.2.2, by rw [hr.seat.2]; simp⟩
          · obtain ⟨g1, g2, g3, g4⟩ := hr.others.1 d hdc
            rw [g1] at hd
            obtain ⟨k1, k2, k3, k4⟩ := ih1 d hd
            refine ⟨by rw [g3]; exact k1, by rw [g4]; exact k2, ?_, ?_⟩
            · rw [hr.others.2.1 _ (by rintro e; cases e; exact hdc rfl)]; exact k3
            · by_cases ha : communityAccount d = communityAccount c
              · rw [ha, hr.seat.2]; simp
              · rw [hr.others.2.2.1 _ ha]; exact k4
        · by_cases hxo : x = .community ⟨c, none⟩
          · subst hxo
            rw [hr.track.2.2] at hx; cases hx
            exact ⟨rfl, by rw [hr.community.2.1]; simp⟩
          · rw [hr.others.2.1 x hxo] at hx
            obtain ⟨g1, g2⟩ := ih2 x d hx
            refine ⟨g1, ?_⟩
            by_cases hdc : d = c
            · subst hdc; exact absurd g1 hxo
            · rw [(hr.others.1 d hdc).1]; exact g2
      | createMemberships n m p =>
        obtain ⟨_, _, _, _, _, _, h1, h2, h3, h4, h5⟩ := C64_mints_exactly _ _ _ _ _ _ _ _ h
        have hinfo : s'.comm.info = s.comm.info := by rw [h1]
        rw [hinfo, h2, h3, h4, h5]
        exact ⟨ih1, ih2⟩
    | community env he o c h =>
      have := dispatch_info (fun _ => rfl) h
      dsimp only
      rw [this]
      exact ⟨ih1, ih2⟩
    | force c st =>
      have : ∀ d, (forceState s.comm c st).info d ≠ none ↔ s.comm.info d ≠ none := by
        intro d
        simp only [forceState]
        split <;> simp
      simp only [this]
      exact ⟨ih1, ih2⟩
    | world w hw => exact ⟨ih1, ih2⟩

/-- Community 1, "Virto", registered by alice with bob as its admin. -/
example : ∃ s', mdispatch kreivoManager Demo.menv Demo.mstart (.signed Communities.Demo.alice)
      (.register 1 (ascii "Virto") (.id Communities.Demo.bob) (some .native) none) = .ok s' ∧
    s'.comm.info 1 = some .active ∧ s'.comm.method 1 = .native ∧ s'.trackOf (.community ⟨1, none⟩) = some 1 ∧
    s'.comm.world.native treasuryAccount = 1000000 * units + units / 2 :=
  ⟨_, rfl, by decide, by decide, by decide, by decide⟩

/-- A name that is not UTF-8 is refused. -/
example : mdispatch kreivoManager Demo.menv Demo.mstart .root (.register 1 [0xC3, 0x28] (.id Communities.Demo.bob) none none)
    = .error .invalidCommunityName := rfl

example : MReachable Demo.mstart :=
  .start ⟨fun _ => rfl, fun _ => rfl, fun _ => rfl, fun _ => rfl, fun _ => rfl, fun _ _ => rfl, fun _ => rfl⟩ fun _ => rfl

/-! ## C43 on Kreivo -/

/-- C43 on Kreivo: root registers for free; anybody else who succeeds signed the call and paid exactly half a unit to the
treasury (nothing changes hands if the treasury itself registers); other origins are refused. -/
theorem C43_kreivo (env : MEnv) (s s' : MSt) (o : Origin) (c : CId) (name : List UInt8)
    (firstAdmin : Address) (method : Option Method) (track : Option TrackInfo)
    (h : mdispatch kreivoManager env s o (.register c name firstAdmin method track) = .ok s') :
    (o = .root ∧ s'.comm.world.native = s.comm.world.native) ∨
    ∃ a, o = .signed a ∧ 500000000000 ≤ s.comm.world.native a ∧
      (a ≠ treasuryAccount → s'.comm.world.native a + 500000000000 = s.comm.world.native a ∧
        s'.comm.world.native treasuryAccount = s.comm.world.native treasuryAccount + 500000000000) ∧
      ∀ x, x ≠ a → x ≠ treasuryAccount → s'.comm.world.native x = s.comm.world.native x := by
  obtain ⟨d, hd, hm⟩ := (C65_success _ _ _ _ _ _ _ _ _ _ h).deposit
  have hu : units / 2 = 500000000000 := by decide
  cases o with
  | root =>
    have : d = none := by
      have h0 : kreivoManager.registerOrigin .root = some none := rfl
      rw [h0] at hd; cases hd; rfl
    subst this
    exact .inl ⟨rfl, hm⟩
  | signed a =>
    have : d = some (units / 2, a, treasuryAccount) := by
      have h0 : kreivoManager.registerOrigin (.signed a) = some (some (units / 2, a, treasuryAccount)) := rfl
      rw [h0] at hd; cases hd; rfl
    subst this
    dsimp only at hm
    rw [hu] at hm
    exact .inr ⟨a, rfl, hm.1, hm.2.1, hm.2.2.2⟩
  | none => cases hd
  | community _ => cases hd
  | custom _ => cases hd
  | other _ => cases hd

/-! ## C66 -/

/-- C66: with the default track, after the part `x` of the decision period (in parts per billion) the approval needed is
100% minus half of `x`, and the support needed is 50% minus half of `x`. So approval starts at 100% and never falls below
50%, and support falls from 50% to nothing. -/
theorem C66_thresholds (name : List UInt8) (i : TrackInfo) (h : defaultTrack name = some i) (x : Nat)
    (hx : x ≤ 1000000000) :
    i.minApproval.threshold x = 1000000000 - x / 2 ∧ i.minSupport.threshold x = 500000000 - x / 2 ∧
    500000000 ≤ i.minApproval.threshold x ∧ i.minApproval.threshold 0 = 1000000000 ∧
    i.minSupport.threshold 0 = 500000000 ∧ i.minSupport.threshold 1000000000 = 0 := by
  unfold defaultTrack at h
  split at h
  · cases h
  cases h
  have hf : ∀ y, y ≤ 1000000000 → fromRational perbill (min y (percent 100)) (percent 100) = y := by
    intro y hy
    have hp : percent 100 = 1000000000 := rfl
    rw [hp, Nat.min_eq_left hy, fromRational_exact (by omega) hy (by decide)]
    unfold perbill; omega
  have key : ∀ y, y ≤ 1000000000 → ∀ f c, Curve.threshold ⟨percent 100, f, c⟩ y = c - y * (c - f) / 1000000000 := by
    intro y hy f c
    unfold Curve.threshold perbillMul
    dsimp only
    rw [hf y hy]; rfl
  simp only [key x hx, key 0 (by omega), key 1000000000 (by omega)]
  have p0 : percent 100 = 1000000000 := rfl
  have p1 : percent 50 = 500000000 := rfl
  have p2 : percent 0 = 0 := rfl
  rw [p0, p1, p2]
  norm_num
  omega

/-- C66: so whatever passes on a default track, at any time of its decision period, has at least as many ayes as nays,
provided the two together fit 32 bits and are at most a billion (see C56). -/
theorem C66_majority (name : List UInt8) (i : TrackInfo) (h : defaultTrack name = some i) (elapsed support : Nat)
    (t : Tally) (ht : t.ayes + t.nays ≤ 1000000000) (hp : isPassing i elapsed support (approval t) = true) :
    t.nays ≤ t.ayes := by
  unfold isPassing at hp
  simp only [Bool.and_eq_true] at hp
  obtain ⟨_, hp⟩ := hp
  have hx := fromRational_le perbill (min elapsed i.decisionPeriod) i.decisionPeriod
  have h1 := (C66_thresholds name i h _ hx).2.2.1
  have h2 := of_decide_eq_true hp
  have h3 : 500000000 ≤ approval t := le_trans h1 h2
  unfold approval at h3
  rw [Nat.mod_eq_of_lt (by omega)] at h3
  by_cases h0 : t.ayes + t.nays = 0
  · omega
  · rw [Nat.max_eq_right (by omega), fromRational_exact (by omega) (by omega) (by unfold perbill; omega)] at h3
    have h4 := (Nat.le_div_iff_mul_le (by omega)).mp h3
    unfold perbill at h4
    omega

/-- C66: and whatever the total, if it fits 32 bits, at most eight nays more than ayes, of up to four billion. -/
theorem C66_majority_large (name : List UInt8) (i : TrackInfo) (h : defaultTrack name = some i) (elapsed support : Nat)
    (t : Tally) (ht : t.ayes + t.nays < 2 ^ 32) (hp : isPassing i elapsed support (approval t) = true) :
    t.nays ≤ t.ayes + 8 := by
  unfold isPassing at hp
  simp only [Bool.and_eq_true] at hp
  obtain ⟨_, hp⟩ := hp
  have hx := fromRational_le perbill (min elapsed i.decisionPeriod) i.decisionPeriod
  have h1 := (C66_thresholds name i h _ hx).2.2.1
  have h2 := of_decide_eq_true hp
  have h3 : 500000000 ≤ approval t := le_trans h1 h2
  by_cases h0 : t.ayes + t.nays = 0
  · omega
  · have h4 := (Communities.C56_approval_near_partial t (by omega) ht).1
    have h5 := Nat.mul_le_mul_right (t.ayes + t.nays) h3
    omega

example : ∃ i, defaultTrack (ascii "Virto") = some i ∧ isPassing i 255 0 (approval ⟨1, 1, 1⟩) = true ∧
    isPassing i 255 0 (approval ⟨1, 2, 1⟩) = false ∧ isPassing i 0 1000000000 (approval ⟨999, 1, 999⟩) = false :=
  ⟨_, rfl, by decide +kernel, by decide +kernel, by decide +kernel⟩

/-- C66: a community registered without a track of its own gets one that carries its name (filled up with zeros to 25
bytes), decides one referendum at a time for up to 255 blocks, and asks for one block each of preparation, confirmation and
enactment and for no deposit. -/
theorem C66_default_track (cfg : MConfig) (env : MEnv) (s s' : MSt) (o : Origin) (c : CId) (name : List UInt8)
    (firstAdmin : Address) (method : Option Method)
    (h : mdispatch cfg env s o (.register c name firstAdmin method none) = .ok s') :
    ∃ i k, s'.tracks c = some i ∧ i.name = name ++ List.replicate k 0 ∧ i.name.length = 25 ∧ i.maxDeciding = 1 ∧
      i.decisionDeposit = 0 ∧ i.preparePeriod = 1 ∧ i.decisionPeriod = 255 ∧ i.confirmPeriod = 1 ∧
      i.minEnactmentPeriod = 1 := by
  obtain ⟨i, hi, hd⟩ := (C65_success _ _ _ _ _ _ _ _ _ _ h).track.2.1
  rcases hd with hd | ⟨_, hd⟩
  · cases hd
  · unfold defaultTrack strArray25 at hd
    split at hd
    · cases hd
    · rename_i n hn
      split at hn
      · rename_i hl
        cases hn
        cases hd
        refine ⟨_, 25 - name.length, hi, rfl, ?_, rfl, rfl, rfl, rfl, rfl, rfl⟩
        simp only [List.length_append, List.length_replicate]
        omega
      · cases hn

example : ∃ s' i, mdispatch kreivoManager Demo.menv Demo.mstart .root (.register 7 (ascii "seven") (.id [1]) none none) = .ok s' ∧
    s'.tracks 7 = some i ∧ i.name = ascii "seven" ++ List.replicate 20 0 := ⟨_, _, rfl, rfl, rfl⟩

end Verif.Governance
