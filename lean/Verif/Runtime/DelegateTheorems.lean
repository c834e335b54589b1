import Mathlib.Tactic.Common
import Verif.Runtime.Delegates

/-!
# C163, C164, C165: deposits of proxies, who acts for whom, and what a delay is good for
-/

namespace Verif.Runtime.Delegates

set_option linter.unusedSectionVars false

variable {A T H : Type} [DecidableEq A] [DecidableEq T] [DecidableEq H]

/-! ## C163: deposits -/

/-- Histories in which pure accounts are killed only once, and with a single delegate. Specification only, no code behind it
(outside /repo). -/
inductive Tidy (c : Cfg A T) : List (Nat × Op A T H) → St A T H → Prop
  | start : Tidy c [] empty
  | step {hist : List (Nat × Op A T H)} {s s' : St A T H} {can : A → Nat → Bool} {op : Op A T H} :
    Tidy c hist s → step c can s op = some s' →
      (∀ p spawner, op = .killPure p spawner → (p, spawner) ∈ s.alive ∧ (s.proxies p).length = 1) →
      Tidy c ((s.now, op) :: hist) s'

/-- How many pure accounts of somebody are there. Specification only, no code behind it (outside /repo). -/
def St.spawned (s : St A T H) (a : A) : Nat := (s.alive.filter fun x => decide (x.2 = a)).length

/-- What is kept by all calls. Specification only, no code behind it (outside /repo). -/
structure Money (c : Cfg A T) (s : St A T H) : Prop where
  held : ∀ a, s.held a = proxyDeposit c.cents (s.proxies a).length
  ann : ∀ a, s.annHeld a = annDeposit c.cents (s.pending a).length
  res : ∀ a, c.spawnerOf a = none →
    s.reserved a = s.others a + s.held a + s.annHeld a + s.spawned a * proxyDeposit c.cents 1

/-- The part of it that all histories keep. Specification only, no code behind it (outside /repo). -/
structure Held (c : Cfg A T) (s : St A T H) : Prop where
  held : ∀ a, s.held a = proxyDeposit c.cents (s.proxies a).length
  ann : ∀ a, s.annHeld a = annDeposit c.cents (s.pending a).length

theorem adjust_eq {can : A → Nat → Bool} {r r' : A → Nat} {a : A} {old new : Nat} (h : adjust can r a old new = some r') :
    r' = put r a (r a + (new - old) - (old - new)) := by
  unfold adjust at h
  split at h
  · split at h
    · cases h
      congr 1
      omega
    · cases h
  · cases h
    congr 1
    omega

theorem put_at {V : Type} (f : A → V) (a : A) (v : V) (x : A) : put f a v x = if x = a then v else f x := rfl

theorem insert_length (p : Def A T → Bool) (l : List (Def A T)) (d : Def A T) :
    (l.takeWhile p ++ d :: l.dropWhile p).length = l.length + 1 := by
  have := congrArg List.length (List.takeWhile_append_dropWhile (p := p) (l := l))
  rw [List.length_append] at this
  rw [List.length_append, List.length_cons]
  omega

theorem insert_mem (p : Def A T → Bool) (l : List (Def A T)) (d x : Def A T) :
    x ∈ l.takeWhile p ++ d :: l.dropWhile p ↔ x = d ∨ x ∈ l := by
  have : x ∈ l ↔ x ∈ l.takeWhile p ∨ x ∈ l.dropWhile p := by
    rw [← List.mem_append, List.takeWhile_append_dropWhile]
  rw [this]
  simp
  tauto

theorem deposit_mono {cents m n : Nat} (h : m ≤ n) : proxyDeposit cents m ≤ proxyDeposit cents n := by
  unfold proxyDeposit
  split
  · exact Nat.zero_le _
  · rw [if_neg (by omega)]
    exact Nat.add_le_add_left (Nat.mul_le_mul_left _ h) _

theorem annDeposit_mono {cents m n : Nat} (h : m ≤ n) : annDeposit cents m ≤ annDeposit cents n := by
  unfold annDeposit
  split
  · exact Nat.zero_le _
  · rw [if_neg (by omega)]
    exact Nat.add_le_add_left (Nat.mul_le_mul_left _ h) _

/-- What `edit_announcements` does. -/
theorem edit_some {c : Cfg A T} {can : A → Nat → Bool} {s s' : St A T H} {d : A} {keep : Ann A H → Bool}
    (h : editAnnouncements c can s d keep = some s') :
    ((s.pending d).filter keep).length < (s.pending d).length ∧
    s' = { s with
      pending := put s.pending d ((s.pending d).filter keep)
      annHeld := put s.annHeld d (annDeposit c.cents ((s.pending d).filter keep).length)
      reserved := put s.reserved d (s.reserved d + (annDeposit c.cents ((s.pending d).filter keep).length - s.annHeld d) -
        (s.annHeld d - annDeposit c.cents ((s.pending d).filter keep).length)) } := by
  unfold editAnnouncements at h
  dsimp only at h
  split at h
  · rename_i hl
    split at h
    · cases h
    · rename_i r hr
      cases h
      rw [adjust_eq hr]
      exact ⟨hl, rfl⟩
  · cases h

theorem held_step {c : Cfg A T} {can : A → Nat → Bool} {s s' : St A T H} {op : Op A T H} (hi : Held c s)
    (h : step c can s op = some s') : Held c s' := by
  have hedit : ∀ d keep, editAnnouncements c can s d keep = some s' → Held c s' := by
    intro d keep h
    obtain ⟨_, rfl⟩ := edit_some h
    refine ⟨hi.held, fun a => ?_⟩
    dsimp only
    rw [put_at, put_at]
    split
    · rfl
    · exact hi.ann a
  have hprox : ∀ (w : A) (l : List (Def A T)) (n : Nat) (s' : St A T H), s'.proxies = put s.proxies w l →
      s'.held = put s.held w n → n = proxyDeposit c.cents l.length → s'.pending = s.pending → s'.annHeld = s.annHeld →
      Held c s' := by
    intro w l n s' h1 h2 h3 h4 h5
    refine ⟨fun a => ?_, fun a => ?_⟩
    · rw [h1, h2, put_at, put_at]
      split
      · exact h3
      · exact hi.held a
    · rw [h4, h5]
      exact hi.ann a
  cases op with
  | addProxy who d =>
    obtain ⟨_, h⟩ := Option.ite_none_right_eq_some.1 h
    unfold addProxy at h
    split at h
    · cases h
    · dsimp only at h
      split at h
      · cases h
      · cases h
        exact hprox who _ _ _ rfl rfl rfl rfl rfl
  | removeProxy who d =>
    obtain ⟨_, h⟩ := Option.ite_none_right_eq_some.1 h
    unfold removeProxy at h
    split at h
    · dsimp only at h
      split at h
      · cases h
      · cases h
        exact hprox who _ _ _ rfl rfl rfl rfl rfl
    · cases h
  | removeProxies who =>
    obtain ⟨_, h⟩ := Option.ite_none_right_eq_some.1 h
    cases h
    exact hprox who _ _ _ rfl rfl rfl rfl rfl
  | createPure who t delay p =>
    obtain ⟨_, h⟩ := Option.ite_none_right_eq_some.1 h
    split at h
    · cases h
    · cases h
      exact hprox p _ _ _ rfl rfl rfl rfl rfl
  | killPure who spawner =>
    obtain ⟨_, h⟩ := Option.ite_none_right_eq_some.1 h
    cases h
    exact hprox who _ _ _ rfl rfl rfl rfl rfl
  | announce who real hh =>
    obtain ⟨_, h⟩ := Option.ite_none_right_eq_some.1 h
    split at h
    · cases h
    · cases h
      refine ⟨hi.held, fun a => ?_⟩
      dsimp only
      rw [put_at, put_at]
      split
      · rfl
      · exact hi.ann a
  | removeAnnouncement who real hh =>
    obtain ⟨_, h⟩ := Option.ite_none_right_eq_some.1 h
    exact hedit _ _ h
  | rejectAnnouncement who delegate hh =>
    obtain ⟨_, h⟩ := Option.ite_none_right_eq_some.1 h
    exact hedit _ _ h
  | proxy who real force hh =>
    obtain ⟨_, h⟩ := Option.ite_none_right_eq_some.1 h
    split at h
    · obtain ⟨_, h⟩ := Option.ite_none_right_eq_some.1 h
      cases h
      exact hi
    · cases h
  | proxyAnnounced who delegate real force hh =>
    obtain ⟨_, h⟩ := Option.ite_none_right_eq_some.1 h
    split at h
    · exact hedit _ _ h
    · cases h
  | reserveOther a n =>
    obtain ⟨_, h⟩ := Option.ite_none_right_eq_some.1 h
    cases h
    exact ⟨hi.held, hi.ann⟩
  | unreserveOther a n =>
    obtain ⟨_, h⟩ := Option.ite_none_right_eq_some.1 h
    cases h
    exact ⟨hi.held, hi.ann⟩
  | next =>
    cases h
    exact ⟨hi.held, hi.ann⟩

theorem held_run {c : Cfg A T} {hist : List (Nat × Op A T H)} {s : St A T H} (h : Run c hist s) : Held c s := by
  induction h with
  | start => exact ⟨fun _ => rfl, fun _ => rfl⟩
  | step _ hs ih => exact held_step ih hs

theorem spawned_erase {l : List (A × A)} {p w : A} (hm : (p, w) ∈ l) (a : A) :
    (l.filter fun x => decide (x.2 = a)).length =
      ((l.erase (p, w)).filter fun x => decide (x.2 = a)).length + if w = a then 1 else 0 := by
  have hp := List.perm_cons_erase hm
  rw [(hp.filter _).length_eq, List.filter_cons]
  by_cases h : w = a
  · simp [h]
  · simp [h]

theorem res_step {c : Cfg A T} {can : A → Nat → Bool} {s s' : St A T H} {op : Op A T H} (hi : Held c s)
    (h : step c can s op = some s') (a : A) (ha : c.spawnerOf a = none)
    (hk : ∀ p, op = .killPure p a → (p, a) ∈ s.alive ∧ (s.proxies p).length = 1)
    (hr : s.reserved a = s.others a + s.held a + s.annHeld a + s.spawned a * proxyDeposit c.cents 1) :
    s'.reserved a = s'.others a + s'.held a + s'.annHeld a + s'.spawned a * proxyDeposit c.cents 1 := by
  have hedit : ∀ d keep, editAnnouncements c can s d keep = some s' →
      s'.reserved a = s'.others a + s'.held a + s'.annHeld a + s'.spawned a * proxyDeposit c.cents 1 := by
    intro d keep h
    obtain ⟨hl, rfl⟩ := edit_some h
    have hm := annDeposit_mono (cents := c.cents) (Nat.le_of_lt hl)
    rw [← hi.ann d] at hm
    simp only [put_at, St.spawned] at hr ⊢
    by_cases hd : a = d
    · subst hd
      simp only [if_pos]
      omega
    · simp only [if_neg hd]
      exact hr
  cases op with
  | addProxy who d =>
    obtain ⟨_, h⟩ := Option.ite_none_right_eq_some.1 h
    unfold addProxy at h
    split at h
    · cases h
    · dsimp only at h
      split at h
      · cases h
      · rename_i r hr'
        cases h
        rw [adjust_eq hr']
        simp only [put_at, St.spawned, insert_length] at hr ⊢
        by_cases hd : a = who
        · subst hd
          simp only [if_pos]
          have := deposit_mono (cents := c.cents) (Nat.le_add_right (s.proxies a).length 1)
          rw [← hi.held a] at this
          omega
        · simp only [if_neg hd]
          exact hr
  | removeProxy who d =>
    obtain ⟨_, h⟩ := Option.ite_none_right_eq_some.1 h
    unfold removeProxy at h
    split at h
    · dsimp only at h
      split at h
      · cases h
      · rename_i r hr'
        cases h
        rw [adjust_eq hr']
        simp only [put_at, St.spawned] at hr ⊢
        by_cases hd : a = who
        · subst hd
          simp only [if_pos]
          have := deposit_mono (cents := c.cents) (List.length_erase_le (a := d) (l := s.proxies a))
          rw [← hi.held a] at this
          omega
        · simp only [if_neg hd]
          exact hr
    · cases h
  | removeProxies who =>
    obtain ⟨_, h⟩ := Option.ite_none_right_eq_some.1 h
    cases h
    simp only [put_at, St.spawned] at hr ⊢
    by_cases hd : a = who
    · subst hd
      simp only [if_pos]
      omega
    · simp only [if_neg hd]
      exact hr
  | createPure who t delay p =>
    obtain ⟨⟨_, hp, _⟩, h⟩ := Option.ite_none_right_eq_some.1 h
    split at h
    · cases h
    · rename_i r hr'
      cases h
      rw [adjust_eq hr']
      have hpa : a ≠ p := by
        rintro rfl
        rw [ha] at hp
        cases hp
      simp only [put_at, St.spawned, List.filter_cons, if_neg hpa] at hr ⊢
      by_cases hd : a = who
      · subst hd
        simp only [if_pos, decide_true, List.length_cons, Nat.add_mul, Nat.one_mul]
        omega
      · have hd' : ¬ who = a := fun h => hd h.symm
        simp only [if_neg hd, hd', decide_false, Bool.false_eq_true, if_false]
        exact hr
  | killPure who spawner =>
    obtain ⟨⟨_, hp⟩, h⟩ := Option.ite_none_right_eq_some.1 h
    cases h
    have hpa : a ≠ who := by
      rintro rfl
      rw [ha] at hp
      cases hp
    by_cases hd : a = spawner
    · subst hd
      obtain ⟨hm, h1⟩ := hk who rfl
      have he := spawned_erase hm a
      have hw := hi.held who
      rw [h1] at hw
      simp only [put_at, St.spawned, if_neg hpa] at hr ⊢
      rw [he] at hr
      simp only [if_pos, Nat.add_mul, Nat.one_mul] at hr ⊢
      omega
    · have hd' : ¬ spawner = a := fun h => hd h.symm
      have he : ((s.alive.erase (who, spawner)).filter fun x => decide (x.2 = a)).length =
          (s.alive.filter fun x => decide (x.2 = a)).length := by
        by_cases hm : (who, spawner) ∈ s.alive
        · have := spawned_erase hm a
          rw [if_neg hd'] at this
          exact this.symm
        · rw [List.erase_of_not_mem hm]
      simp only [put_at, St.spawned, if_neg hpa] at hr ⊢
      rw [he]
      simp only [if_neg hd]
      exact hr
  | announce who real hh =>
    obtain ⟨_, h⟩ := Option.ite_none_right_eq_some.1 h
    split at h
    · cases h
    · rename_i r hr'
      cases h
      rw [adjust_eq hr']
      simp only [put_at, St.spawned, List.length_append, List.length_singleton] at hr ⊢
      by_cases hd : a = who
      · subst hd
        simp only [if_pos]
        have := annDeposit_mono (cents := c.cents) (Nat.le_add_right (s.pending a).length 1)
        rw [← hi.ann a] at this
        omega
      · simp only [if_neg hd]
        exact hr
  | removeAnnouncement who real hh =>
    obtain ⟨_, h⟩ := Option.ite_none_right_eq_some.1 h
    exact hedit _ _ h
  | rejectAnnouncement who delegate hh =>
    obtain ⟨_, h⟩ := Option.ite_none_right_eq_some.1 h
    exact hedit _ _ h
  | proxy who real force hh =>
    obtain ⟨_, h⟩ := Option.ite_none_right_eq_some.1 h
    split at h
    · obtain ⟨_, h⟩ := Option.ite_none_right_eq_some.1 h
      cases h
      exact hr
    · cases h
  | proxyAnnounced who delegate real force hh =>
    obtain ⟨_, h⟩ := Option.ite_none_right_eq_some.1 h
    split at h
    · exact hedit _ _ h
    · cases h
  | reserveOther b n =>
    obtain ⟨_, h⟩ := Option.ite_none_right_eq_some.1 h
    cases h
    simp only [put_at, St.spawned] at hr ⊢
    by_cases hd : a = b
    · subst hd
      simp only [if_pos]
      omega
    · simp only [if_neg hd]
      exact hr
  | unreserveOther b n =>
    obtain ⟨hn, h⟩ := Option.ite_none_right_eq_some.1 h
    cases h
    simp only [put_at, St.spawned] at hr ⊢
    by_cases hd : a = b
    · subst hd
      simp only [if_pos]
      omega
    · simp only [if_neg hd]
      exact hr
  | next =>
    cases h
    exact hr

theorem money_step {c : Cfg A T} {can : A → Nat → Bool} {s s' : St A T H} {op : Op A T H} (hi : Money c s)
    (h : step c can s op = some s')
    (hk : ∀ p spawner, op = .killPure p spawner → (p, spawner) ∈ s.alive ∧ (s.proxies p).length = 1) : Money c s' := by
  have hh := held_step ⟨hi.held, hi.ann⟩ h
  exact ⟨hh.held, hh.ann, fun a ha => res_step ⟨hi.held, hi.ann⟩ h a ha (fun p e => hk p a e) (hi.res a ha)⟩

theorem money_tidy {c : Cfg A T} {hist : List (Nat × Op A T H)} {s : St A T H} (h : Tidy c hist s) : Money c s := by
  induction h with
  | start => exact ⟨fun _ => rfl, fun _ => rfl, fun _ _ => by simp [empty, St.spawned]⟩
  | step _ hs hk ih => exact money_step ih hs hk

/-- The price of a list of `n` entries: nothing if it is empty, else that of one entry of `base` bytes and of `each` bytes
more for each of them. Specification only, no code behind it (outside /repo). -/
def priceOf (cents base each n : Nat) : Nat := match n with
  | 0 => 0
  | n + 1 => Runtime.deposit cents 1 base + (n + 1) * Runtime.deposit cents 0 each

theorem proxyDeposit_eq (cents n : Nat) : proxyDeposit cents n = priceOf cents 40 33 n := by
  cases n with
  | zero => rfl
  | succ n => simp [proxyDeposit, priceOf, Nat.mul_comm]

theorem annDeposit_eq (cents n : Nat) : annDeposit cents n = priceOf cents 48 66 n := by
  cases n with
  | zero => rfl
  | succ n => simp [annDeposit, priceOf, Nat.mul_comm]

/-- **C163**, what holds: if pure accounts are only killed with a single delegate and once, then of every other account
exactly the deposits for its proxies, its announcements and its pure accounts are reserved, besides what other pallets
reserved. -/
theorem C163_exact_partial {c : Cfg A T} {hist : List (Nat × Op A T H)} {s : St A T H} (h : Tidy c hist s) (a : A)
    (ha : c.spawnerOf a = none) :
    s.reserved a = s.others a + priceOf c.cents 40 33 (s.proxies a).length + priceOf c.cents 48 66 (s.pending a).length +
      s.spawned a * priceOf c.cents 40 33 1 := by
  have hm := money_tidy h
  rw [hm.res a ha, hm.held, hm.ann, proxyDeposit_eq, proxyDeposit_eq, annDeposit_eq]

/-- **C163**, what holds: so whoever has removed proxies, announcements and pure accounts has everything back. -/
theorem C163_back_partial {c : Cfg A T} {hist : List (Nat × Op A T H)} {s : St A T H} (h : Tidy c hist s) (a : A)
    (ha : c.spawnerOf a = none) (h1 : s.proxies a = []) (h2 : s.pending a = []) (h3 : ∀ p, (p, a) ∉ s.alive) :
    s.reserved a = s.others a := by
  have h4 : s.spawned a = 0 := by
    unfold St.spawned
    rw [List.length_eq_zero_iff, List.filter_eq_nil_iff]
    rintro ⟨p, w⟩ hx
    simp only [decide_eq_true_eq]
    rintro rfl
    exact h3 p hx
  rw [C163_exact_partial h a ha, h1, h2, h4]
  simp [priceOf]

/-- Histories in which the pure accounts of one account are killed only once, and with a single delegate. Specification only, no
code behind it (outside /repo). -/
inductive TidyOf (c : Cfg A T) (a : A) : List (Nat × Op A T H) → St A T H → Prop
  | start : TidyOf c a [] empty
  | step {hist : List (Nat × Op A T H)} {s s' : St A T H} {can : A → Nat → Bool} {op : Op A T H} :
    TidyOf c a hist s → step c can s op = some s' →
      (∀ p, op = .killPure p a → (p, a) ∈ s.alive ∧ (s.proxies p).length = 1) → TidyOf c a ((s.now, op) :: hist) s'

theorem TidyOf.run {c : Cfg A T} {a : A} {hist : List (Nat × Op A T H)} {s : St A T H} (h : TidyOf c a hist s) :
    Run c hist s := by
  induction h with
  | start => exact .start
  | step _ hs _ ih => exact .step ih hs

/-- **C163**, what holds for one account: if its own pure accounts are only killed with a single delegate and once, exactly the
deposits for its proxies, its announcements and its pure accounts are reserved, besides what other pallets reserved, whatever
others do with theirs. -/
theorem C163_own_partial {c : Cfg A T} {hist : List (Nat × Op A T H)} {s : St A T H} (a : A) (h : TidyOf c a hist s)
    (ha : c.spawnerOf a = none) :
    s.reserved a = s.others a + priceOf c.cents 40 33 (s.proxies a).length + priceOf c.cents 48 66 (s.pending a).length +
      s.spawned a * priceOf c.cents 40 33 1 := by
  have key : s.reserved a = s.others a + s.held a + s.annHeld a + s.spawned a * proxyDeposit c.cents 1 := by
    induction h with
    | start => simp [empty, St.spawned]
    | step h hs hk ih => exact res_step (held_run h.run) hs a ha hk ih
  have hh := held_run h.run
  rw [key, hh.held, hh.ann, proxyDeposit_eq, proxyDeposit_eq, annDeposit_eq]

/-- Calls one after the other, while all accounts can reserve. Example for non-vacuity (outside /repo). -/
def execute (c : Cfg A T) : List (Op A T H) → St A T H → Option (St A T H)
  | [], s => some s
  | op :: l, s => (step c (fun _ _ => true) s op).bind (execute c l)

theorem run_execute {c : Cfg A T} (l : List (Op A T H)) : ∀ {hist : List (Nat × Op A T H)} {s s' : St A T H}, Run c hist s →
    execute c l s = some s' → ∃ hist', Run c hist' s' := by
  induction l with
  | nil => intro hist s s' h he; cases he; exact ⟨_, h⟩
  | cons op l ih =>
    intro hist s s' h he
    obtain ⟨t, ht, he⟩ := Option.bind_eq_some_iff.1 he
    exact ih (.step h ht) he

theorem found (c : Cfg A T) (l : List (Op A T H)) (P : St A T H → Prop) [DecidablePred P]
    (h : (execute c l empty).any (fun s => decide (P s)) = true) : ∃ hist s, Run c hist s ∧ P s := by
  cases he : execute c l empty with
  | none => rw [he] at h; cases h
  | some s =>
    rw [he] at h
    obtain ⟨hist, hr⟩ := run_execute l .start he
    exact ⟨hist, s, hr, of_decide_eq_true h⟩

/-- An order and the addresses 10 and 11 of pure accounts of 1. Example for non-vacuity (outside /repo). -/
def cfg1 : Cfg Nat Nat := ⟨333333333, fun x y => decide (x.delegate < y.delegate), fun a => if a = 10 ∨ a = 11 then some 1 else none⟩

/-- **C163**, false of the pallet: killing a pure account with two delegates gives its spawner back more than was taken for it,
out of what other pallets reserved of them, and leaves a part of the pure account's own funds reserved for nothing. -/
theorem C163_kill_fails : ∃ (hist : List (Nat × Op Nat Nat Nat)) (s : St Nat Nat Nat), Run cfg1 hist s ∧
    s.others 1 = 5 ∧ s.reserved 1 < 5 ∧ s.others 10 = 0 ∧ s.proxies 10 = [] ∧ s.pending 10 = [] ∧ 0 < s.reserved 10 := by
  refine found cfg1 [.reserveOther 1 5, .createPure 1 0 0 10, .addProxy 10 ⟨2, 0, 0⟩, .killPure 10 1] _ ?_
  decide +kernel

/-- **C163**, false of the pallet: a pure account that removes its proxies leaves the spawner's deposit reserved for nothing, and
nobody is left who could kill it. -/
theorem C163_stays_fails : ∃ (hist : List (Nat × Op Nat Nat Nat)) (s : St Nat Nat Nat), Run cfg1 hist s ∧
    s.others 1 = 0 ∧ s.proxies 1 = [] ∧ s.proxies 10 = [] ∧ s.pending 1 = [] ∧ s.reserved 1 = priceOf 333333333 40 33 1 := by
  refine found cfg1 [.createPure 1 0 0 10, .removeProxies 10] _ ?_
  decide +kernel

/-- Hypotheses of `C163_exact_partial` and `C163_back_partial`. -/
example : ∃ (hist : List (Nat × Op Nat Nat Nat)) (s : St Nat Nat Nat), Tidy cfg1 hist s ∧ cfg1.spawnerOf 1 = none ∧
    s.proxies 1 = [] ∧ s.pending 1 = [] ∧ (∀ p, (p, 1) ∉ s.alive) ∧ hist.length = 5 := by
  refine ⟨_, _, .step (can := fun _ _ => true) (op := .killPure 10 1) (.step (can := fun _ _ => true) (op := .removeProxies 1)
    (.step (can := fun _ _ => true) (op := .addProxy 1 ⟨2, 0, 0⟩) (.step (can := fun _ _ => true) (op := .createPure 1 0 0 10)
      (.step (can := fun _ _ => true) (op := .next) .start rfl nofun) rfl nofun) rfl nofun) rfl nofun) rfl ?_, ?_⟩
  · intro p sp h
    cases h
    decide +kernel
  · refine ⟨rfl, by decide +kernel, by decide +kernel, ?_, rfl⟩
    intro p h
    cases h

/-- Hypotheses of `C163_own_partial`: account 3, with a proxy, while 1 kills a pure account with two delegates. -/
example : ∃ (hist : List (Nat × Op Nat Nat Nat)) (s : St Nat Nat Nat), TidyOf cfg1 3 hist s ∧ cfg1.spawnerOf 3 = none ∧
    s.proxies 3 ≠ [] ∧ hist.length = 4 := by
  refine ⟨_, _, .step (can := fun _ _ => true) (op := .killPure 10 1) (.step (can := fun _ _ => true)
    (op := .addProxy 10 ⟨2, 0, 0⟩) (.step (can := fun _ _ => true) (op := .addProxy 3 ⟨2, 0, 0⟩)
      (.step (can := fun _ _ => true) (op := .createPure 1 0 0 10) .start rfl nofun) rfl nofun) rfl nofun) rfl ?_, ?_⟩
  · intro p h
    cases h
  · exact ⟨rfl, by decide +kernel, rfl⟩

end Verif.Runtime.Delegates
