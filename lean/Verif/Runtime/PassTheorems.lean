import Verif.Runtime.Passes
import Verif.Governance.TracksTheorems

/-! # C210, C211, C212: who acts for a pass, for how long, and what a credential is good for -/

namespace Verif.Runtime

open Verif Verif.Governance Verif.Accounts

variable {C : Type}

/-! ## Specification -/

/-- In state `s` the credential `c` is that of device `d` of account `P`, signed with its key `key`, made for this chain's
passes, for a challenge the chain accepts then. Specification only, no code behind it (outside /repo). -/
structure Vouches (env : PassEnv) (s : Passes) (P : AccountId) (d : List UInt8) (c : Credential) (key : List UInt8) : Prop where
  account : env.accountOf c.user = P
  device : s.devices P d = some key
  authority : c.authority = env.authority
  challenge : checkChallenge s.hashes c.cx c.challenge = true
  signature : env.signedBy key c = true

/-- The event is a call that shows credential `c` for device `d`. Specification only, no code behind it (outside /repo). -/
def Shows (d : List UInt8) (c : Credential) (e : PassEvent C) : Prop :=
  (∃ o n, e = .call o (.authenticate d c n) true) ∨ ∃ o x k, e = .call o (.dispatch x (some (d, c)) k) true

/-- In state `s` the event makes `k` a session key of `P` for at most `n` blocks: `k` itself logs in with a credential of a
device of `P`, or a call made for `P` names `k`. Specification only, no code behind it (outside /repo). -/
def OpensSession (env : PassEnv) (s : Passes) (e : PassEvent C) (k P : AccountId) (n : Nat) : Prop :=
  (∃ d c w key, e = .call (.signed k) (.authenticate d c w) true ∧ Vouches env s P d c key ∧ n = min (w.getD 75) 75) ∨
  ∃ o x auth, e = .call o (.dispatch x auth (some k)) true ∧ (P, x) ∈ (passNext env s e).2 ∧ n = 75

/-- In state `s` the event gives `P` the device `d` with public key `key`: `P` is registered with it, being new, or adds it
itself. Specification only, no code behind it (outside /repo). -/
def BringsDevice (env : PassEnv) (s : Passes) (e : PassEvent C) (P : AccountId) (d key : List UInt8) : Prop :=
  ∃ t : Attestation, t.device = d ∧ t.key = key ∧ t.authority = env.authority ∧
    checkChallenge s.hashes t.cx t.challenge = true ∧ env.attested t = true ∧
    ((∃ o user, e = .call o (.register user t) true ∧ env.accountOf user = P ∧ s.registered P = false ∧
        (o = .root ∨ (∃ b, o = .community b) ∨ ∃ a, o = .signed a)) ∨
      (e = .call (.signed P) (.addDevice t) true ∧ s.registered P = true))

/-! ## Lemmas -/

theorem maxSession_eq : maxSession = 75 := by decide

theorem loginAs_some {env : PassEnv} {s : Passes} {d : List UInt8} {c : Credential} {P : AccountId} :
    loginAs env s d c = some P ↔ ∃ key, Vouches env s P d c key := by
  unfold loginAs
  constructor
  · intro h
    cases hk : s.devices (env.accountOf c.user) d with
    | none => rw [hk] at h; cases h
    | some key =>
      rw [hk] at h
      dsimp only at h
      split at h
      · rename_i hv
        injection h with h
        subst h
        simp only [verifyUser, Bool.and_eq_true, decide_eq_true_eq] at hv
        exact ⟨key, rfl, hk, hv.1.1, hv.1.2, hv.2⟩
      · cases h
  · rintro ⟨key, h1, h2, h3, h4, h5⟩
    subst h1
    rw [h2]
    simp [verifyUser, h3, h4, h5]

theorem sessionOf_some {s : Passes} {k P : AccountId} :
    sessionOf s k = some P ↔ ∃ u, s.sessions k = some (P, u) ∧ s.now ≤ u := by
  unfold sessionOf
  constructor
  · intro h
    cases hk : s.sessions k with
    | none => rw [hk] at h; cases h
    | some v =>
      obtain ⟨a, u⟩ := v
      rw [hk] at h
      dsimp only at h
      split at h
      · injection h with h
        subst h
        exact ⟨u, rfl, by assumption⟩
      · cases h
  · rintro ⟨u, h, hu⟩
    rw [h]
    exact if_pos hu

theorem speaksFor_some {env : PassEnv} {s : Passes} {o : RtOrigin} {auth : Option (List UInt8 × Credential)} {P : AccountId} :
    speaksFor env s o auth = some P ↔ (∃ d c key, auth = some (d, c) ∧ Vouches env s P d c key) ∨
      (auth = none ∧ ∃ k, o = .signed k ∧ sessionOf s k = some P) := by
  cases auth with
  | some p =>
    obtain ⟨d, c⟩ := p
    unfold speaksFor
    dsimp only
    rw [loginAs_some]
    constructor
    · rintro ⟨key, h⟩; exact .inl ⟨d, c, key, rfl, h⟩
    · rintro (⟨d', c', key, he, h⟩ | ⟨h, _⟩)
      · cases he; exact ⟨key, h⟩
      · cases h
  | none =>
    cases o with
    | signed k => simp [speaksFor]
    | _ => simp [speaksFor]

theorem takeDevice_some {env : PassEnv} {s s' : Passes} {a : AccountId} {t : Attestation}
    (h : takeDevice env s a t = some s') :
    (t.authority = env.authority ∧ checkChallenge s.hashes t.cx t.challenge = true ∧ env.attested t = true) ∧
      s' = { s with devices := fun x d => if x = a ∧ d = t.device then some t.key else s.devices x d } := by
  unfold takeDevice at h
  split at h
  · rename_i hv
    injection h with h
    simp only [verifyDevice, Bool.and_eq_true, decide_eq_true_eq] at hv
    exact ⟨⟨hv.1.1, hv.1.2, hv.2⟩, h.symm⟩
  · cases h

/-- What a call that is taken does. -/
theorem passCall_some {env : PassEnv} {s s' : Passes} {o : RtOrigin} {c : PassCall C} {out : List (AccountId × C)}
    (h : passCall env s o c = some (s', out)) :
    (∃ user t, c = .register user t ∧ (∃ dep, registerOrigin env.cents o = some dep) ∧
        s.registered (env.accountOf user) = false ∧ out = [] ∧
        (t.authority = env.authority ∧ checkChallenge s.hashes t.cx t.challenge = true ∧ env.attested t = true) ∧
        s' = { s with
          registered := fun x => if x = env.accountOf user then true else s.registered x
          devices := fun x d => if x = env.accountOf user ∧ d = t.device then some t.key else s.devices x d }) ∨
    (∃ t a, c = .addDevice t ∧ o = .signed a ∧ s.registered a = true ∧ out = [] ∧
        (t.authority = env.authority ∧ checkChallenge s.hashes t.cx t.challenge = true ∧ env.attested t = true) ∧
        s' = { s with devices := fun x d => if x = a ∧ d = t.device then some t.key else s.devices x d }) ∨
    (∃ d cr w k P key, c = .authenticate d cr w ∧ o = .signed k ∧ Vouches env s P d cr key ∧ out = [] ∧
        s' = openSession s k P w) ∨
    (∃ x auth next P, c = .dispatch x auth next ∧ speaksFor env s o auth = some P ∧ out = [(P, x)] ∧
        s' = match next with | some k => openSession s k P none | none => s) := by
  cases c with
  | register user t =>
    left
    unfold passCall at h
    dsimp only at h
    cases ho : registerOrigin env.cents o with
    | none => rw [ho] at h; cases h
    | some dep =>
      rw [ho] at h
      dsimp only at h
      split at h
      · cases h
      · rename_i hr
        obtain ⟨s1, h1, h2⟩ := Option.map_eq_some_iff.1 h
        cases h2
        obtain ⟨hv, hs⟩ := takeDevice_some h1
        exact ⟨user, t, rfl, ⟨dep, rfl⟩, by simpa using hr, rfl, hv, hs⟩
  | addDevice t =>
    right; left
    cases o with
    | signed a =>
      unfold passCall at h
      dsimp only at h
      split at h
      · rename_i hr
        obtain ⟨s1, h1, h2⟩ := Option.map_eq_some_iff.1 h
        cases h2
        obtain ⟨hv, hs⟩ := takeDevice_some h1
        exact ⟨t, a, rfl, rfl, hr, rfl, hv, hs⟩
      · cases h
    | _ => cases h
  | authenticate d cr w =>
    right; right; left
    cases o with
    | signed k =>
      unfold passCall at h
      dsimp only at h
      obtain ⟨P, h1, h2⟩ := Option.map_eq_some_iff.1 h
      cases h2
      obtain ⟨key, hk⟩ := loginAs_some.1 h1
      exact ⟨d, cr, w, k, P, key, rfl, rfl, hk, rfl, rfl⟩
    | _ => cases h
  | dispatch x auth next =>
    right; right; right
    unfold passCall at h
    dsimp only at h
    cases hs : speaksFor env s o auth with
    | none => rw [hs] at h; cases h
    | some P =>
      rw [hs] at h
      dsimp only at h
      injection h with h
      injection h with h1 h2
      exact ⟨x, auth, next, P, rfl, hs, h2.symm, h1.symm⟩

/-- An event that changes anything but block and sessions' ends, or dispatches anything, is a call that was taken. -/
theorem passNext_call {env : PassEnv} {s : Passes} {e : PassEvent C} :
    (∃ o c s' out, e = .call o c true ∧ passCall env s o c = some (s', out) ∧ passNext env s e = (s', out)) ∨
    ((passNext env s e).2 = [] ∧ (passNext env s e).1.devices = s.devices ∧ (passNext env s e).1.registered = s.registered ∧
      (∀ k v, (passNext env s e).1.sessions k = some v → s.sessions k = some v)) := by
  cases e with
  | call o c fine =>
    cases fine with
    | false => exact .inr ⟨rfl, rfl, rfl, fun _ _ h => h⟩
    | true =>
      cases hc : passCall env s o c with
      | none =>
        have : passNext env s (.call o c true) = (s, []) := by simp [passNext, hc]
        rw [this]
        exact .inr ⟨rfl, rfl, rfl, fun _ _ h => h⟩
      | some r => exact .inl ⟨o, c, r.1, r.2, rfl, hc, by simp [passNext, hc]⟩
  | block hash =>
    right
    unfold passNext
    dsimp only
    split
    · exact ⟨rfl, rfl, rfl, fun _ _ h => h⟩
    · exact ⟨rfl, rfl, rfl, fun _ _ h => h⟩
  | drop k =>
    refine .inr ⟨rfl, rfl, rfl, fun x v h => ?_⟩
    replace h : (if x = k then none else s.sessions x) = some v := h
    split at h
    · cases h
    · exact h

/-- Time goes on. -/
theorem passNext_now {env : PassEnv} {s : Passes} {e : PassEvent C} : s.now ≤ (passNext env s e).1.now := by
  cases e with
  | call o c fine =>
    unfold passNext
    dsimp only
    split
    · cases hc : passCall env s o c with
      | none => exact le_refl _
      | some r =>
        obtain ⟨s', out⟩ := r
        dsimp only
        rcases passCall_some hc with ⟨_, _, _, _, _, _, _, rfl⟩ | ⟨_, _, _, _, _, _, _, rfl⟩ |
          ⟨_, _, _, _, _, _, _, _, _, _, rfl⟩ | ⟨_, _, next, _, _, _, _, rfl⟩
        · exact le_refl _
        · exact le_refl _
        · exact le_refl _
        · cases next <;> exact le_refl _
    · exact le_refl _
  | block hash =>
    unfold passNext
    dsimp only
    split
    · rename_i hb
      show s.hashes.now.toNat ≤ (s.hashes.now + 1).toNat
      rw [UInt32.toNat_add]
      show _ ≤ (_ + 1) % 2 ^ 32
      rw [Nat.mod_eq_of_lt hb]
      omega
    · exact le_refl _
  | drop k => exact le_refl _

theorem PassRun.time {env : PassEnv} {z s : Passes} {l : List (Passes × PassEvent C)} (h : PassRun env z l s) :
    ∀ m ∈ l, m.1.now ≤ s.now := by
  induction h with
  | start => intro m hm; cases hm
  | more h e ih =>
    intro m hm
    rcases List.mem_append.1 hm with hm | hm
    · exact le_trans (ih m hm) passNext_now
    · cases List.mem_singleton.1 hm
      exact passNext_now

/-- Where sessions come from. -/
theorem PassRun.session {env : PassEnv} {z s : Passes} {l : List (Passes × PassEvent C)} (h : PassRun env z l s)
    (hz : ∀ k, z.sessions k = none) {k P : AccountId} {u : Nat} (hs : s.sessions k = some (P, u)) :
    ∃ m ∈ l, ∃ n, OpensSession env m.1 m.2 k P n ∧ u = m.1.now + n := by
  induction h generalizing u with
  | start => rw [hz] at hs; cases hs
  | @more l s h e ih =>
    have old : s.sessions k = some (P, u) →
        ∃ m ∈ l ++ [(s, e)], ∃ n, OpensSession env m.1 m.2 k P n ∧ u = m.1.now + n := fun hk => by
      obtain ⟨m, hm, r⟩ := ih hk
      exact ⟨m, List.mem_append_left _ hm, r⟩
    rcases passNext_call (env := env) (s := s) (e := e) with ⟨o, c, s', out, rfl, hc, hn⟩ | ⟨_, _, _, h4⟩
    · rw [hn] at hs
      dsimp only at hs
      rcases passCall_some hc with ⟨_, _, _, _, _, _, _, rfl⟩ | ⟨_, _, _, _, _, _, _, rfl⟩ |
        ⟨d, cr, w, k', P', key, rfl, rfl, hv, rfl, rfl⟩ | ⟨x, auth, next, P', rfl, hsp, rfl, rfl⟩
      · exact old hs
      · exact old hs
      · unfold openSession at hs
        dsimp only at hs
        split at hs
        · rename_i hk
          subst hk
          cases hs
          refine ⟨_, List.mem_append_right _ (List.mem_singleton.2 rfl), _, .inl ⟨d, cr, w, key, rfl, hv, rfl⟩, ?_⟩
          rw [maxSession_eq]
        · exact old hs
      · cases next with
        | none => exact old hs
        | some k' =>
          dsimp only at hs
          unfold openSession at hs
          dsimp only at hs
          split at hs
          · rename_i hk
            subst hk
            cases hs
            refine ⟨_, List.mem_append_right _ (List.mem_singleton.2 rfl), 75, .inr ⟨o, x, auth, rfl, ?_, rfl⟩, ?_⟩
            · rw [hn]; exact List.mem_singleton.2 rfl
            · rw [maxSession_eq]; rfl
          · exact old hs
    · exact old (h4 _ _ hs)

/-- What is dispatched for an account comes with a credential or from a session key. -/
theorem passNext_out {env : PassEnv} {s : Passes} {e : PassEvent C} {P : AccountId} {x : C}
    (h : (P, x) ∈ (passNext env s e).2) :
    ∃ o auth next, e = .call o (.dispatch x auth next) true ∧
      ((∃ d c key, auth = some (d, c) ∧ Vouches env s P d c key) ∨
        (auth = none ∧ ∃ k, o = .signed k ∧ sessionOf s k = some P)) := by
  rcases passNext_call (env := env) (s := s) (e := e) with ⟨o, c, s', out, rfl, hc, hn⟩ | ⟨h2, _⟩
  · rw [hn] at h
    dsimp only at h
    rcases passCall_some hc with ⟨_, _, _, _, _, rfl, _, _⟩ | ⟨_, _, _, _, _, rfl, _, _⟩ |
      ⟨_, _, _, _, _, _, _, _, _, rfl, _⟩ | ⟨y, auth, next, P', rfl, hsp, rfl, _⟩
    · cases h
    · cases h
    · cases h
    · cases List.mem_singleton.1 h
      exact ⟨o, auth, next, rfl, speaksFor_some.1 hsp⟩
  · rw [h2] at h
    cases h

/-! ## C210 -/

/-- **C210.** Whatever is done in the name of a pass, at any time, was vouched for by one of its devices: a credential signed
with the key of a device the account had then, made for this chain's passes, was shown in this call or in an earlier one. -/
theorem C210_vouched {env : PassEnv} {z s : Passes} {l : List (Passes × PassEvent C)} (hz : z.Fresh) (h : PassRun env z l s)
    (e : PassEvent C) (P : AccountId) (x : C) (ha : (P, x) ∈ (passNext env s e).2) :
    ∃ m ∈ l ++ [(s, e)], ∃ d c key, Shows d c m.2 ∧ Vouches env m.1 P d c key := by
  have key : ∀ n : Nat, ∀ (l : List (Passes × PassEvent C)) (s : Passes) (e : PassEvent C) (x : C), l.length = n →
      PassRun env z l s → (P, x) ∈ (passNext env s e).2 →
      ∃ m ∈ l ++ [(s, e)], ∃ d c key, Shows d c m.2 ∧ Vouches env m.1 P d c key := by
    intro n
    induction n using Nat.strong_induction_on with
    | _ n ih =>
      intro l s e x hl h ha
      obtain ⟨o, auth, next, rfl, hc⟩ := passNext_out ha
      rcases hc with ⟨d, c, key, rfl, hv⟩ | ⟨rfl, k, rfl, hk⟩
      · exact ⟨_, List.mem_append_right _ (List.mem_singleton.2 rfl), d, c, key, .inr ⟨o, x, next, rfl⟩, hv⟩
      · obtain ⟨u, hu, _⟩ := sessionOf_some.1 hk
        obtain ⟨m, hm, n', hO, _⟩ := h.session hz.sessions hu
        rcases hO with ⟨d, c, w, key, he, hv, _⟩ | ⟨o', y, auth', he, hy, _⟩
        · exact ⟨m, List.mem_append_left _ hm, d, c, key, .inl ⟨_, w, he⟩, hv⟩
        · obtain ⟨l1, l2, hsplit⟩ := List.append_of_mem hm
          have hrun : PassRun env z l1 m.1 := by
            clear ih ha hk hu hl hy he
            subst hsplit
            have gen : ∀ (l2 : List (Passes × PassEvent C)) (s : Passes), PassRun env z (l1 ++ m :: l2) s →
                PassRun env z l1 m.1 := by
              intro l2
              induction l2 using List.reverseRecOn with
              | nil =>
                intro s h
                generalize hq : l1 ++ [m] = q at h
                cases h with
                | start => simp at hq
                | more h' e' =>
                  obtain ⟨h1, h2⟩ := List.append_inj' hq rfl
                  injection h2 with h2
                  subst h1
                  rw [h2]
                  exact h'
              | append_singleton l2 y ih2 =>
                intro s h
                generalize hq : l1 ++ m :: (l2 ++ [y]) = q at h
                cases h with
                | start => simp at hq
                | @more l' s' h' e' =>
                  have hq' : (l1 ++ m :: l2) ++ [y] = l' ++ [(s', e')] := by rw [← hq]; simp
                  obtain ⟨h1, _⟩ := List.append_inj' hq' rfl
                  subst h1
                  exact ih2 _ h'
            exact gen l2 s h
          obtain ⟨m', hm', d, c, key, hS, hV⟩ := ih l1.length (by rw [← hl, hsplit]; simp) l1 m.1 m.2 y rfl hrun hy
          refine ⟨m', ?_, d, c, key, hS, hV⟩
          rw [hsplit]
          rcases List.mem_append.1 hm' with hm' | hm'
          · simp [hm']
          · cases List.mem_singleton.1 hm'
            simp
  exact key _ l s e x rfl h ha

/-- **C210.** And the devices of a pass are the one it was registered with, when it was new, and those that were added in its
own name: a device that vouches for it was brought in one of these ways. -/
theorem C210_devices {env : PassEnv} {z s : Passes} {l : List (Passes × PassEvent C)} (hz : z.Fresh) (h : PassRun env z l s)
    (P : AccountId) (d key : List UInt8) (hd : s.devices P d = some key) : ∃ m ∈ l, BringsDevice env m.1 m.2 P d key := by
  induction h with
  | start => rw [hz.devices] at hd; cases hd
  | @more l s h e ih =>
    have old : s.devices P d = some key → ∃ m ∈ l ++ [(s, e)], BringsDevice env m.1 m.2 P d key := fun hk => by
      obtain ⟨m, hm, r⟩ := ih hk
      exact ⟨m, List.mem_append_left _ hm, r⟩
    rcases passNext_call (env := env) (s := s) (e := e) with ⟨o, c, s', out, rfl, hc, hn⟩ | ⟨_, h2, _⟩
    · rw [hn] at hd
      dsimp only at hd
      rcases passCall_some hc with ⟨user, t, rfl, ⟨dep, ho⟩, hr, _, hv, rfl⟩ | ⟨t, a, rfl, rfl, hr, _, hv, rfl⟩ |
        ⟨d', cr, w, k', P', key', rfl, rfl, _, rfl, rfl⟩ | ⟨x, auth, next, P', rfl, hsp, rfl, rfl⟩
      · dsimp only at hd
        split at hd
        · rename_i hp
          obtain ⟨rfl, rfl⟩ := hp
          cases hd
          refine ⟨_, List.mem_append_right _ (List.mem_singleton.2 rfl), t, rfl, rfl, hv.1, hv.2.1, hv.2.2, .inl
            ⟨o, user, rfl, rfl, hr, ?_⟩⟩
          rw [C99_who_pays] at ho
          cases o <;> simp at ho ⊢
        · exact old hd
      · dsimp only at hd
        split at hd
        · rename_i hp
          obtain ⟨rfl, rfl⟩ := hp
          cases hd
          exact ⟨_, List.mem_append_right _ (List.mem_singleton.2 rfl), t, rfl, rfl, hv.1, hv.2.1, hv.2.2, .inr ⟨rfl, hr⟩⟩
        · exact old hd
      · exact old hd
      · cases next <;> exact old hd
    · rw [h2] at hd
      exact old hd

/-- **C210.** A pass is registered once and for all: it stays registered, and nobody registers it again. -/
theorem C210_once {env : PassEnv} {s : Passes} (e : PassEvent C) (P : AccountId) (h : s.registered P = true) :
    (passNext env s e).1.registered P = true ∧
    ∀ (o : RtOrigin) (user : List UInt8) (t : Attestation), env.accountOf user = P →
      passCall env s o (.register user t : PassCall C) = none := by
  constructor
  · rcases passNext_call (env := env) (s := s) (e := e) with ⟨o, c, s', out, rfl, hc, hn⟩ | ⟨_, _, h3, _⟩
    · rw [hn]
      dsimp only
      rcases passCall_some hc with ⟨_, _, _, _, _, _, _, rfl⟩ | ⟨_, _, _, _, _, _, _, rfl⟩ |
        ⟨_, _, _, _, _, _, _, _, _, _, rfl⟩ | ⟨_, _, next, _, _, _, _, rfl⟩
      · dsimp only
        split
        · rfl
        · exact h
      · exact h
      · exact h
      · cases next <;> exact h
    · rw [h3]; exact h
  · rintro o user t rfl
    unfold passCall
    dsimp only
    cases registerOrigin env.cents o with
    | none => rfl
    | some _ => exact if_pos h

/-! ## C211 -/

/-- **C211.** A key speaks for a pass only within seventy-five blocks (fifteen minutes in the units of the configuration) of
the moment it was made a session key of it: by its own login with a device of the pass, and then no longer than that login
asked for, or by a call made for the pass. -/
theorem C211_session {env : PassEnv} {z s : Passes} {l : List (Passes × PassEvent C)} (hz : z.Fresh) (h : PassRun env z l s)
    (k P : AccountId) (hk : sessionOf s k = some P) :
    ∃ m ∈ l, ∃ n, OpensSession env m.1 m.2 k P n ∧ n ≤ 75 ∧ m.1.now ≤ s.now ∧ s.now ≤ m.1.now + n := by
  obtain ⟨u, hu, hn⟩ := sessionOf_some.1 hk
  obtain ⟨m, hm, n, hO, rfl⟩ := h.session hz.sessions hu
  refine ⟨m, hm, n, hO, ?_, h.time m hm, hn⟩
  rcases hO with ⟨_, _, _, _, _, _, rfl⟩ | ⟨_, _, _, _, _, rfl⟩
  · exact Nat.min_le_right _ _
  · exact le_refl _

/-- **C211.** So where calls do not name further keys, nothing is done for a pass later than seventy-eight blocks after the
block whose hash one of its devices signed, unless it signed the zero hash (see C80). -/
theorem C211_signed {env : PassEnv} {z s : Passes} {l : List (Passes × PassEvent C)} (hz : z.Fresh) (h : PassRun env z l s)
    (hn : ∀ m ∈ l, ∀ o x auth k, m.2 ≠ .call o (.dispatch x auth (some k)) true)
    (e : PassEvent C) (P : AccountId) (x : C) (ha : (P, x) ∈ (passNext env s e).2) :
    ∃ m ∈ l ++ [(s, e)], ∃ d c key, Shows d c m.2 ∧ Vouches env m.1 P d c key ∧
      (c.challenge ≠ List.replicate 32 0 → m.1.hashes.hash c.cx = c.challenge ∧ c.cx.toNat < s.now ∧
        s.now ≤ c.cx.toNat + 78) := by
  have fresh : ∀ (m : Passes) (c : Credential), checkChallenge m.hashes c.cx c.challenge = true →
      c.challenge ≠ List.replicate 32 0 → m.hashes.hash c.cx = c.challenge ∧ c.cx.toNat < m.now ∧ m.now ≤ c.cx.toNat + 3 := by
    intro m c hc hne
    obtain ⟨h1, h2, h3⟩ := C80_fresh_partial m.hashes c.cx c.challenge hne hc
    exact ⟨h3, h1, h2⟩
  obtain ⟨o, auth, next, rfl, hc⟩ := passNext_out ha
  rcases hc with ⟨d, c, key, rfl, hv⟩ | ⟨rfl, k, rfl, hk⟩
  · refine ⟨_, List.mem_append_right _ (List.mem_singleton.2 rfl), d, c, key, .inr ⟨o, x, next, rfl⟩, hv, fun hne => ?_⟩
    obtain ⟨h1, h2, h3⟩ := fresh s c hv.challenge hne
    exact ⟨h1, h2, by omega⟩
  · obtain ⟨m, hm, n, hO, hle, ht, hu⟩ := C211_session hz h k P hk
    rcases hO with ⟨d, c, w, key, he, hv, _⟩ | ⟨o', y, auth', he, _⟩
    · refine ⟨m, List.mem_append_left _ hm, d, c, key, .inl ⟨_, w, he⟩, hv, fun hne => ?_⟩
      obtain ⟨h1, h2, h3⟩ := fresh m.1 c hv.challenge hne
      exact ⟨h1, by omega, by omega⟩
    · exact absurd he (hn m hm _ _ _ _)

/-- **C211.** A call changes the session of no key but the signer of a login and the key a call names. -/
theorem C211_others {env : PassEnv} {s : Passes} (o : RtOrigin) (c : PassCall C) (fine : Bool) (k : AccountId)
    (h1 : ∀ d cr w, o = .signed k → c ≠ .authenticate d cr w) (h2 : ∀ x auth, c ≠ .dispatch x auth (some k)) :
    (passNext env s (.call o c fine)).1.sessions k = s.sessions k := by
  unfold passNext
  dsimp only
  split
  · cases hc : passCall env s o c with
    | none => rfl
    | some r =>
      obtain ⟨s', out⟩ := r
      dsimp only
      rcases passCall_some hc with ⟨_, _, _, _, _, _, _, rfl⟩ | ⟨_, _, _, _, _, _, _, rfl⟩ |
        ⟨d, cr, w, k', P', key, rfl, rfl, hv, rfl, rfl⟩ | ⟨x, auth, next, P', rfl, hsp, rfl, rfl⟩
      · rfl
      · rfl
      · show (if k = k' then _ else _) = _
        rw [if_neg]
        rintro rfl
        exact h1 d cr w rfl rfl
      · cases next with
        | none => rfl
        | some k' =>
          show (if k = k' then _ else _) = _
          rw [if_neg]
          rintro rfl
          exact h2 x auth rfl
  · rfl

/-- The state after events, one after the other. Part of the transition system around the code (outside /repo). -/
def passAfter (env : PassEnv) (s : Passes) : List (PassEvent C) → Passes
  | [] => s
  | e :: es => passAfter env (passNext env s e).1 es

/-- The event does not end, renew or give away the session of `k`. Specification only, no code behind it (outside /repo). -/
def LeavesSession (k : AccountId) : PassEvent C → Prop
  | .call o c _ => (∀ d cr w, o = .signed k → c ≠ .authenticate d cr w) ∧ ∀ x auth, c ≠ .dispatch x auth (some k)
  | .block _ => True
  | .drop k' => k' ≠ k

theorem sessions_left {env : PassEnv} {s : Passes} {k : AccountId} {e : PassEvent C} (h : LeavesSession k e) :
    (passNext env s e).1.sessions k = s.sessions k := by
  cases e with
  | call o c fine => exact C211_others o c fine k h.1 h.2
  | block hash =>
    unfold passNext
    dsimp only
    split <;> rfl
  | drop k' => exact if_neg (Ne.symm h)

/-- **C211.** And whoever logs in with a device of a pass speaks for it for as many blocks as they asked for, up to
seventy-five: a call they make through the pass in that time is made for it, whatever else happens, unless the session is
removed or the key is used for another one. -/
theorem C211_lasts {env : PassEnv} {s : Passes} {k P : AccountId} {d key : List UInt8} {c : Credential} (w : Option Nat)
    (hv : Vouches env s P d c key) (es : List (PassEvent C)) (he : ∀ e ∈ es, LeavesSession k e)
    (hn : (passAfter env (passNext env s (.call (.signed k) (.authenticate d c w : PassCall C) true)).1 es).now
      ≤ s.now + min (w.getD 75) 75) (x : C) :
    (passNext env (passAfter env (passNext env s (.call (.signed k) (.authenticate d c w : PassCall C) true)).1 es)
      (.call (.signed k) (.dispatch x none none) true)).2 = [(P, x)] := by
  have h0 : (passNext env s (.call (.signed k) (.authenticate d c w : PassCall C) true)).1 = openSession s k P w := by
    have : loginAs env s d c = some P := loginAs_some.2 ⟨key, hv⟩
    simp [passNext, passCall, this]
  rw [h0] at hn ⊢
  have keep : ∀ (es : List (PassEvent C)) (t : Passes), (∀ e ∈ es, LeavesSession k e) →
      (passAfter env t es).sessions k = t.sessions k := by
    intro es
    induction es with
    | nil => intro t _; rfl
    | cons e es ih =>
      intro t h
      show (passAfter env (passNext env t e).1 es).sessions k = _
      rw [ih _ fun e' he' => h e' (List.mem_cons_of_mem _ he'), sessions_left (h e (List.mem_cons_self ..))]
  have hk : sessionOf (passAfter env (openSession s k P w) es) k = some P := by
    refine sessionOf_some.2 ⟨s.now + min (w.getD 75) 75, ?_, hn⟩
    rw [keep es _ he]
    unfold openSession
    rw [maxSession_eq]
    exact if_pos rfl
  simp [passNext, passCall, speaksFor, hk]

/-- **C211.** A device whose key has signed the hash of one of the last three blocks always gets in, and at once. -/
theorem C211_login {env : PassEnv} {s : Passes} {k P : AccountId} {d key : List UInt8} {c : Credential} (w : Option Nat)
    (hP : env.accountOf c.user = P) (hd : s.devices P d = some key) (ha : c.authority = env.authority)
    (hs : env.signedBy key c = true) (h1 : c.cx.toNat < s.now) (h3 : s.now ≤ c.cx.toNat + 3) (hk : 3 ≤ s.hashes.count)
    (hc : c.challenge = s.hashes.hash c.cx) :
    sessionOf (passNext env s (.call (.signed k) (.authenticate d c w : PassCall C) true)).1 k = some P := by
  have hv : Vouches env s P d c key := ⟨hP, hd, ha, hc ▸ C80_accepts_partial s.hashes c.cx h1 h3 hk, hs⟩
  have : loginAs env s d c = some P := loginAs_some.2 ⟨key, hv⟩
  simp only [passNext, passCall, this, if_true, Option.map_some]
  exact sessionOf_some.2 ⟨_, if_pos rfl, Nat.le_add_right _ _⟩

/-! ## C212 -/

/-- C212 is false: a credential says neither what it is for nor whose session it opens. Whenever one has been accepted, any
other signer who shows the same credential in the same block opens a session of their own with it, and has any call made in
the name of the pass. -/
theorem C212_own_use_fails {env : PassEnv} {s : Passes} {k k' : AccountId} {d : List UInt8} {c : Credential} {w : Option Nat}
    (hk : (passCall env s (.signed k) (.authenticate d c w : PassCall C)).isSome = true) (x : C) :
    let s1 := (passNext env s (.call (.signed k) (.authenticate d c w : PassCall C) true)).1
    let s2 := (passNext env s1 (.call (.signed k') (.authenticate d c none : PassCall C) true)).1
    (passNext env s2 (.call (.signed k') (.dispatch x none none) true)).2 = [(env.accountOf c.user, x)] := by
  intro s1 s2
  obtain ⟨⟨s', out⟩, hk⟩ := Option.isSome_iff_exists.1 hk
  rcases passCall_some hk with ⟨_, _, h, _⟩ | ⟨_, _, h, _⟩ | ⟨d', c', w', k1, P', key, h, ho, hv, _, hs'⟩ | ⟨_, _, _, _, h, _⟩
  · cases h
  · cases h
  · cases h
    cases ho
    have h1 : s1 = openSession s k P' w := by
      show (passNext env s _).1 = _
      simp [passNext, hk, hs']
    have hv' : Vouches env s1 P' d c key := by
      rw [h1]
      exact ⟨hv.account, hv.device, hv.authority, hv.challenge, hv.signature⟩
    rw [hv.account]
    exact C211_lasts (C := C) (s := s1) (k := k') none hv' [] (fun _ h => by cases h) (by
      show (passNext env s1 _).1.now ≤ _
      have : loginAs env s1 d c = some P' := loginAs_some.2 ⟨key, hv'⟩
      simp only [passNext, passCall, this, if_true, Option.map_some]
      exact Nat.le_add_right _ _) x
  · cases h

/-- C212, what holds: a credential that is accepted twice, if it is not for the zero hash, opens the same account both times,
and within three blocks: those after the block whose hash was signed. -/
theorem C212_window_partial {env : PassEnv} {s t : Passes} {P Q : AccountId} {d d' key key' : List UInt8} {c : Credential}
    (h : Vouches env s P d c key) (h' : Vouches env t Q d' c key') (hz : c.challenge ≠ List.replicate 32 0) :
    P = Q ∧ c.cx.toNat < s.now ∧ s.now ≤ c.cx.toNat + 3 ∧ c.cx.toNat < t.now ∧ t.now ≤ c.cx.toNat + 3 := by
  obtain ⟨h1, h2, _⟩ := C80_fresh_partial s.hashes c.cx c.challenge hz h.challenge
  obtain ⟨h3, h4, _⟩ := C80_fresh_partial t.hashes c.cx c.challenge hz h'.challenge
  exact ⟨h.account.symm.trans h'.account, h1, h2, h3, h4⟩

/-- C212, what holds: a credential made elsewhere, for an account without the device, or signed with another key is good for
nothing. -/
theorem C212_refused_partial {env : PassEnv} {s : Passes} {d : List UInt8} {c : Credential}
    (h : c.authority ≠ env.authority ∨ s.devices (env.accountOf c.user) d = none ∨
      (∃ key, s.devices (env.accountOf c.user) d = some key ∧ env.signedBy key c = false) ∨
      checkChallenge s.hashes c.cx c.challenge = false) (o : RtOrigin) (w : Option Nat) (x : C) (next : Option AccountId) :
    passCall env s o (.authenticate d c w : PassCall C) = none ∧ passCall env s o (.dispatch x (some (d, c)) next) = none := by
  have hl : loginAs env s d c = none := by
    cases hl : loginAs env s d c with
    | none => rfl
    | some P =>
      obtain ⟨key, hv⟩ := loginAs_some.1 hl
      obtain ⟨rfl, h2, h3, h4, h5⟩ := hv
      rcases h with h | h | ⟨key', h, h'⟩ | h
      · exact absurd h3 h
      · rw [h] at h2; cases h2
      · rw [h] at h2; cases h2; rw [h'] at h5; cases h5
      · rw [h] at h4; cases h4
  constructor
  · cases o <;> simp [passCall, hl]
  · simp [passCall, speaksFor, hl]

/-! ## Examples -/

namespace Demo

/-- Users are accounts, and a signature is the key itself. Example (outside /repo). -/
def passEnv : PassEnv :=
  ⟨fun u => 1 :: u, [3], fun key c => decide (c.signature = key), fun t => decide (t.signature = t.key), 3⟩

/-- Block ten; the hash of every block is sevens. Example (outside /repo). -/
def noPasses : Passes := ⟨⟨10, fun _ => List.replicate 32 7, 4096⟩, fun _ => false, fun _ _ => none, fun _ => none⟩

/-- Device `[8]` with key `[88]`. Example (outside /repo). -/
def phone : Attestation := ⟨[8], [88], [3], 9, List.replicate 32 7, [88]⟩

/-- A login of user `[2]` with it. Example (outside /repo). -/
def login : Credential := ⟨[2], [3], 9, List.replicate 32 7, [88]⟩

/-- Account `[9]` registers user `[2]`; key `[5]` logs in; a block passes. Example (outside /repo). -/
def passDay : List (PassEvent Nat) :=
  [.call (.signed [9]) (.register [2] phone) true, .call (.signed [5]) (.authenticate [8] login (some 20)) true,
    .block (List.replicate 32 7)]

/-- A history of the events of a list. Example (outside /repo). -/
def passLog (env : PassEnv) (s : Passes) : List (PassEvent C) → List (Passes × PassEvent C)
  | [] => []
  | e :: es => (s, e) :: passLog env (passNext env s e).1 es

theorem passRun_log (env : PassEnv) (z : Passes) {l : List (Passes × PassEvent C)} {s : Passes} (h : PassRun env z l s)
    (es : List (PassEvent C)) : PassRun env z (l ++ passLog env s es) (passAfter env s es) := by
  induction es generalizing l s with
  | nil => simpa [passLog, passAfter] using h
  | cons e es ih =>
    have := ih (h.more e)
    simpa [passLog, passAfter] using this

theorem noPasses_fresh : noPasses.Fresh := ⟨fun _ => rfl, fun _ _ => rfl, fun _ => rfl⟩

theorem vouches_login : Vouches passEnv (passAfter passEnv noPasses (passDay.take 1)) [1, 2] [8] login [88] :=
  loginAs_some.1 (show loginAs passEnv (passAfter passEnv noPasses (passDay.take 1)) [8] login = some [1, 2] by decide +kernel) |>.elim fun key h => by
    have : key = [88] := by
      have h2 := h.device
      have h3 : (passAfter passEnv noPasses (passDay.take 1)).devices [1, 2] [8] = some [88] := by decide +kernel
      rw [h3] at h2
      injection h2 with h2
      exact h2.symm
    exact this ▸ h

end Demo

/-- A history from the beginning in which a key that logged in has call 42 made for the pass, without naming another key. -/
example : ∃ l s, PassRun (C := Nat) Demo.passEnv Demo.noPasses l s ∧ Demo.noPasses.Fresh ∧
    (∀ m ∈ l, ∀ o x auth k, m.2 ≠ .call o (.dispatch x auth (some k)) true) ∧ sessionOf s [5] = some [1, 2] ∧
    s.devices [1, 2] [8] = some [88] ∧ s.registered [1, 2] = true ∧
    ([1, 2], 42) ∈ (passNext Demo.passEnv s (.call (.signed [5]) (.dispatch 42 none none) true)).2 :=
  ⟨_, _, Demo.passRun_log _ _ .start Demo.passDay, Demo.noPasses_fresh, by
    intro m hm o x auth k
    simp only [List.nil_append, Demo.passLog, Demo.passDay, List.mem_cons, List.not_mem_nil, or_false] at hm
    rcases hm with rfl | rfl | rfl <;> simp, by decide +kernel, by decide +kernel, by decide +kernel, by decide +kernel⟩

/-- Twenty blocks later the session is over. -/
example : sessionOf (passAfter Demo.passEnv Demo.noPasses
      (Demo.passDay ++ List.replicate 19 (.block (List.replicate 32 7)))) [5] = some [1, 2] ∧
    sessionOf (passAfter Demo.passEnv Demo.noPasses
      (Demo.passDay ++ List.replicate 20 (.block (List.replicate 32 7)))) [5] = none := by decide +kernel

/-- The credential is accepted for `[5]`, and for the stranger `[6]` after them; four blocks later for nobody. -/
example : (passCall (C := Nat) Demo.passEnv (passAfter Demo.passEnv Demo.noPasses (Demo.passDay.take 1)) (.signed [5])
      (.authenticate [8] Demo.login (some 20))).isSome = true ∧
    (passNext Demo.passEnv (passNext Demo.passEnv (passAfter Demo.passEnv Demo.noPasses (Demo.passDay.take 2))
        (.call (.signed [6]) (.authenticate [8] Demo.login none : PassCall Nat) true)).1
      (.call (.signed [6]) (.dispatch 42 none none) true)).2 = [([1, 2], 42)] ∧
    (passCall (C := Nat) Demo.passEnv (passAfter Demo.passEnv Demo.noPasses
        (Demo.passDay ++ List.replicate 3 (.block (List.replicate 32 7)))) (.signed [6])
      (.authenticate [8] Demo.login none)).isNone = true := by decide +kernel

/-- And `Vouches` is met, also by a credential that is shown twice. -/
example : Vouches Demo.passEnv (passAfter Demo.passEnv Demo.noPasses (Demo.passDay.take 1)) [1, 2] [8] Demo.login [88] ∧
    Demo.login.challenge ≠ List.replicate 32 0 := ⟨Demo.vouches_login, by decide +kernel⟩

end Verif.Runtime
