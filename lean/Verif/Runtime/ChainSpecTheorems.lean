import Mathlib.Tactic.Common
import Mathlib.Algebra.BigOperators.Group.List.Basic
import Verif.Runtime.ChainSpec

/-!
# C161, C162: which chain the generator makes, and what a local chain starts with
-/

namespace Verif.Runtime.ChainSpec

/-! ## C161 -/

/-- Names with commas between them. Specification only, no code behind it (outside /repo). -/
def withCommas : List (List Char) → List Char
  | [] => []
  | [k] => k
  | k :: k' :: l => k ++ ", ".toList ++ withCommas (k' :: l)

theorem fold_eq (len : Nat) : ∀ (l : List (List Char)) (n : Nat) (c : List Char), n + l.length = len →
    fold len n c l = c ++ withCommas l
  | [], n, c, _ => by simp [fold, withCommas]
  | [k], n, c, h => by
    have : ¬ n + 1 < len := by simp at h; omega
    simp [fold, withCommas, this]
  | k :: k' :: l, n, c, h => by
    have h1 : n + 1 < len := by simp at h; omega
    rw [fold, fold_eq len (k' :: l) (n + 1) _ (by simp at h ⊢; omega), if_pos h1, withCommas]
    simp only [List.append_assoc]

/-- The names of the chains. Specification only, no code behind it (outside /repo). -/
def names : List (List Char) := ["kreivo".toList, "live".toList, "kreivo-local".toList, "local".toList]

theorem lookup_none {chain : List Char} : supported.lookup chain = none ↔ chain ∉ names := by
  rw [List.lookup_eq_none_iff]
  simp [supported, names]

/-- **C161.** The names of the live chain print the embedded specification. -/
theorem C161_live {S : Type} (w : World S) (order : List (List Char)) (raw : Bool) (chain : List Char)
    (h : chain = "kreivo".toList ∨ chain = "live".toList) :
    main w order chain raw = match w.embedded with
      | .ok s => w.json s raw
      | .error _ => .error "Could not find chainspec for kreivo".toList := by
  rcases h with rfl | rfl <;> (cases h : w.embedded <;> simp [main, supported, List.lookup_cons, specOf, h])

/-- **C161.** The names of the local chain print its specification. -/
theorem C161_local {S : Type} (w : World S) (order : List (List Char)) (raw : Bool) (chain : List Char)
    (h : chain = "kreivo-local".toList ∨ chain = "local".toList) :
    main w order chain raw = w.json w.localSpec raw := by
  rcases h with rfl | rfl <;> simp [main, supported, List.lookup_cons, specOf]

/-- **C161.** Any other name that ends in `.json` names a file, which is read and printed; the files' own errors are
given. -/
theorem C161_file {S : Type} (w : World S) (order : List (List Char)) (raw : Bool) (path : List Char) :
    main w order (path ++ ".json".toList) raw = match w.file (path ++ ".json".toList) with
      | .ok s => w.json s raw
      | .error e => .error e := by
  have hn : (path ++ ".json".toList) ∉ names := by
    intro h
    have key : ∀ n ∈ names, n.getLast? ≠ some 'n' := by decide
    exact key _ h (by simp)
  rw [main, lookup_none.2 hn, if_pos (List.suffix_append _ _)]
  rfl

/-- **C161.** Anything else prints nothing: the error lists the four names, each once, whatever the order of the map, and does
not depend on any file. -/
theorem C161_unknown {S : Type} (w : World S) (order : List (List Char)) (horder : order.Perm names) (raw : Bool)
    (chain : List Char) (hn : chain ∉ names) (hj : ¬ ".json".toList <:+ chain) :
    main w order chain raw =
      .error ("Unknown chain, only supported: ".toList ++ withCommas order ++ " or a json file".toList) := by
  rw [main, lookup_none.2 hn, if_neg hj, fold_eq _ _ _ _ (by rw [horder.length_eq]; rfl)]
  rfl

/-- A world with one chain and no files. Example for non-vacuity (outside /repo). -/
def world1 : World Nat := ⟨.ok 1, 2, fun _ => .error "no file".toList, fun n raw => .ok [if raw then 'r' else 'p', Char.ofNat (48 + n)]⟩

/-- An order of the names. Example for non-vacuity (outside /repo). -/
def order1 : List (List Char) := ["local".toList, "kreivo".toList, "live".toList, "kreivo-local".toList]

example : order1.Perm names := by decide
example : main world1 order1 "kreivo".toList true = .ok ['r', '1'] := rfl
example : main world1 order1 "local".toList false = .ok ['p', '2'] := rfl
example : main world1 order1 "x.json".toList false = .error "no file".toList := rfl
example : main world1 order1 "polkadot".toList false =
    .error "Unknown chain, only supported: local, kreivo, live, kreivo-local or a json file".toList := rfl

/-! ## C162 -/

variable {A K : Type} [DecidableEq A] [DecidableEq K]

theorem lookup_map_const (l : List A) (n : Nat) (a : A) :
    ((l.map fun k => (k, n)).lookup a).getD 0 = if a ∈ l then n else 0 := by
  induction l with
  | nil => rfl
  | cons b l ih =>
    rw [List.map_cons, List.lookup_cons]
    by_cases h : a = b
    · subst h
      simp
    · have : (a == b) = false := by simpa using h
      rw [this]
      simp only [ih, List.mem_cons, h, false_or]

/-- Setting the keys of somebody who has none. -/
theorem setKeys_new (m : (A → Option K) × (K → Option A)) (hm : ∀ a k, m.2 k = some a → m.1 a ≠ none) (a : A) (k : K)
    (ha : m.1 a = none) :
    setKeys m a k = if m.2 k = none then
      some (fun x => if x = a then some k else m.1 x, fun y => if y = k then some a else m.2 y) else none := by
  unfold setKeys
  have h : m.2 k ≠ some a := fun h => hm a k h ha
  simp only [h, or_false, ha]

theorem buildKeys_eq (l : List (A × K)) : ∀ m : (A → Option K) × (K → Option A), (l.map Prod.fst).Nodup →
    (∀ p ∈ l, m.1 p.1 = none) → (∀ a k, m.2 k = some a → m.1 a ≠ none) →
    buildKeys m (l.map fun p => (p.1, p.1, p.2)) =
      if (l.map Prod.snd).Nodup ∧ ∀ p ∈ l, m.2 p.2 = none then
        some (fun a => (l.lookup a).or (m.1 a), fun k => ((l.map Prod.swap).lookup k).or (m.2 k))
      else none := by
  induction l with
  | nil => intro m _ _ _; simp [buildKeys]
  | cons p l ih =>
    obtain ⟨a, k⟩ := p
    intro m hn h1 h2
    rw [List.map_cons, List.nodup_cons] at hn
    rw [List.map_cons, buildKeys, setKeys_new m h2 a k (h1 _ (List.mem_cons_self ..))]
    by_cases hk : m.2 k = none
    · rw [if_pos hk]
      dsimp only
      rw [ih _ hn.2]
      · by_cases hc : (l.map Prod.snd).Nodup ∧ ∀ p ∈ l, (if p.2 = k then some a else m.2 p.2) = none
        · have hkl : k ∉ l.map Prod.snd := by
            intro hm
            obtain ⟨p, hp, rfl⟩ := List.mem_map.1 hm
            have := hc.2 p hp
            simp at this
          have hc' : (((a, k) :: l).map Prod.snd).Nodup ∧ ∀ p ∈ (a, k) :: l, m.2 p.2 = none := by
            refine ⟨List.nodup_cons.2 ⟨hkl, hc.1⟩, ?_⟩
            intro p hp
            rcases List.mem_cons.1 hp with rfl | hp'
            · exact hk
            · have := hc.2 p hp'
              rw [if_neg] at this
              · exact this
              · rintro rfl
                exact hkl (List.mem_map_of_mem (f := Prod.snd) hp')
          rw [if_pos hc, if_pos hc']
          congr 2
          · funext x
            rw [List.lookup_cons]
            by_cases hx : x = a
            · subst hx
              have : l.lookup x = none := by
                rw [List.lookup_eq_none_iff]
                intro p hp
                simp only [bne_iff_ne, ne_eq]
                rintro rfl
                exact hn.1 (List.mem_map.2 ⟨p, hp, rfl⟩)
              simp [this]
            · have : (x == a) = false := by simpa using hx
              simp [this, hx]
          · funext y
            rw [List.map_cons, Prod.swap, List.lookup_cons]
            by_cases hy : y = k
            · subst hy
              have : (l.map Prod.swap).lookup y = none := by
                rw [List.lookup_eq_none_iff]
                intro p hp
                obtain ⟨q, hq, rfl⟩ := List.mem_map.1 hp
                simp only [bne_iff_ne, ne_eq]
                rintro rfl
                exact hkl (List.mem_map_of_mem (f := Prod.snd) hq)
              simp [this]
            · have : (y == k) = false := by simpa using hy
              simp [this, hy]
        · rw [if_neg hc, if_neg]
          rintro ⟨hd, hm⟩
          rw [List.map_cons, List.nodup_cons] at hd
          refine hc ⟨hd.2, fun p hp => ?_⟩
          rw [if_neg]
          · exact hm p (List.mem_cons_of_mem _ hp)
          · rintro rfl
            exact hd.1 (List.mem_map.2 ⟨p, hp, rfl⟩)
      · intro p hp
        dsimp only
        rw [if_neg]
        · exact h1 p (List.mem_cons_of_mem _ hp)
        · rintro rfl
          exact hn.1 (List.mem_map.2 ⟨p, hp, rfl⟩)
      · intro x y hxy
        dsimp only at hxy ⊢
        split at hxy
        · cases hxy
          simp
        · split
          · simp
          · exact h2 x y hxy
    · rw [if_neg hk, if_neg]
      rintro ⟨_, hm⟩
      exact hk (hm (a, k) (List.mem_cons_self ..))

theorem shift60 : (1 : Nat) <<< 60 = 2 ^ 60 := by decide

/-- **C162.** A local chain can be started exactly with accounts and collators that are named once, each collator with a key
of its own, and at most 100 collators. -/
theorem C162_builds (ed xcm id : Nat) (hed : ed ≤ 2 ^ 60) (le : A → A → Bool) (inv : List (A × K)) (endowed : List A) :
    (build ed le (localGenesis ed xcm id inv endowed)).isSome ↔
      endowed.Nodup ∧ (inv.map Prod.fst).Nodup ∧ (inv.map Prod.snd).Nodup ∧ inv.length ≤ 100 := by
  have hb : (buildBalances ed (endowed.map fun k => (k, 1 <<< 60))).isSome ↔ endowed.Nodup := by
    unfold buildBalances
    have h1 : ∀ p ∈ endowed.map fun k => (k, 1 <<< 60), ed ≤ p.2 := by
      intro p hp
      obtain ⟨k, _, rfl⟩ := List.mem_map.1 hp
      rw [shift60]
      exact hed
    have h2 : (endowed.map fun k => (k, 1 <<< 60)).map Prod.fst = endowed := by
      rw [List.map_map]
      exact List.map_id _
    rw [h2]
    by_cases h : endowed.Nodup
    · rw [if_pos ⟨h1, h⟩]
      simp [h]
    · rw [if_neg fun h' => h h'.2]
      simp [h]
  have hc : (buildCollators le (inv.map Prod.fst) (ed * 16)).isSome ↔
      (inv.map Prod.fst).Nodup ∧ inv.length ≤ 100 := by
    unfold buildCollators
    have : (inv.map Prod.fst).length = inv.length := List.length_map ..
    rw [this, Collators.maxInvulnerables]
    by_cases h : (inv.map Prod.fst).Nodup ∧ inv.length ≤ 100
    · rw [if_pos h]
      simp [h]
    · rw [if_neg h]
      simp only [Option.isSome_none, Bool.false_eq_true, false_iff]
      exact h
  have hk : (inv.map Prod.fst).Nodup →
      ((buildKeys (fun _ => none, fun _ => none) (inv.map fun p => (p.1, p.1, p.2))).isSome ↔ (inv.map Prod.snd).Nodup) := by
    intro hn
    rw [buildKeys_eq inv _ hn (fun _ _ => rfl) (fun _ _ h => (by cases h))]
    by_cases h : (inv.map Prod.snd).Nodup
    · rw [if_pos ⟨h, fun _ _ => rfl⟩]
      simp [h]
    · rw [if_neg fun h' => h h'.1]
      simp [h]
  unfold build localGenesis
  dsimp only
  cases h1 : buildBalances ed (endowed.map fun k => (k, 1 <<< 60)) with
  | none => rw [h1] at hb; simp at hb ⊢; exact fun h => absurd h hb
  | some b =>
    rw [h1] at hb
    cases h2 : buildCollators le (inv.map Prod.fst) (ed * 16) with
    | none =>
      rw [h2] at hc
      simp only [Option.isSome_none, Bool.false_eq_true, false_iff] at hc ⊢
      exact fun h => hc ⟨h.2.1, h.2.2.2⟩
    | some c =>
      rw [h2] at hc
      have hc' := hc.1 rfl
      cases h3 : buildKeys (fun _ => none, fun _ => none) (inv.map fun p => (p.1, p.1, p.2)) with
      | none =>
        have hk' := hk hc'.1
        rw [h3] at hk'
        simp only [Option.isSome_none, Bool.false_eq_true, false_iff] at hk' ⊢
        exact fun h => hk' h.2.2.1
      | some k =>
        have hk' := hk hc'.1
        rw [h3] at hk'
        simp only [Option.isSome_some, true_iff]
        exact ⟨hb.1 rfl, hc'.1, hk'.1 rfl, hc'.2⟩

omit [DecidableEq K] in
theorem lookup_iff {l : List (A × K)} (hn : (l.map Prod.fst).Nodup) (a : A) (k : K) :
    l.lookup a = some k ↔ (a, k) ∈ l := by
  induction l with
  | nil => simp
  | cons p l ih =>
    obtain ⟨b, j⟩ := p
    rw [List.map_cons, List.nodup_cons] at hn
    rw [List.lookup_cons]
    by_cases h : a = b
    · subst h
      have : ∀ k, (a, k) ∉ l := fun k hk => hn.1 (List.mem_map.2 ⟨_, hk, rfl⟩)
      simp [this, eq_comm]
    · have hb : (a == b) = false := by simpa using h
      simp [hb, h, ih hn.2]

/-- **C162.** And then each of the accounts has 2⁶⁰ units and nobody else any, which is all there is; the collators are the
given ones, without candidates and with a bond of 16 existential deposits (so all histories of C157 to C159 begin here); and
the keys that make the first blocks are the collators' own. -/
theorem C162_start (ed xcm id : Nat) (le : A → A → Bool) (inv : List (A × K)) (endowed : List A) (s : Start A K)
    (h : build ed le (localGenesis ed xcm id inv endowed) = some s) :
    (∀ a ∈ endowed, s.free a = 2 ^ 60) ∧ (∀ a, a ∉ endowed → s.free a = 0) ∧ s.issuance = endowed.length * 2 ^ 60 ∧
      s.paraId = id ∧ s.safeXcm = xcm ∧
      s.validators.Perm (inv.map Prod.fst) ∧ s.collators = Collators.genesis s.validators (16 * ed) ∧
      (∀ a k, s.keysOf a = some k ↔ (a, k) ∈ inv) ∧ (∀ a k, s.owner k = some a ↔ (a, k) ∈ inv) ∧
      s.authorities.Perm (inv.map Prod.snd) ∧ s.validators.map s.keysOf = s.authorities.map some := by
  unfold build localGenesis at h
  dsimp only at h
  cases h1 : buildBalances ed (endowed.map fun k => (k, 1 <<< 60)) with
  | none => rw [h1] at h; cases h
  | some b =>
    cases h2 : buildCollators le (inv.map Prod.fst) (ed * 16) with
    | none => rw [h1, h2] at h; cases h
    | some c =>
      cases h3 : buildKeys (fun _ => none, fun _ => none) (inv.map fun p => (p.1, p.1, p.2)) with
      | none => rw [h1, h2, h3] at h; cases h
      | some m =>
        rw [h1, h2, h3] at h
        simp only [Option.some.injEq] at h
        subst h
        dsimp only
        unfold buildBalances at h1
        obtain ⟨_, h1⟩ := Option.ite_none_right_eq_some.1 h1
        cases h1
        unfold buildCollators at h2
        obtain ⟨hc, h2⟩ := Option.ite_none_right_eq_some.1 h2
        cases h2
        have hn : (inv.map Prod.fst).Nodup := hc.1
        rw [buildKeys_eq inv _ hn (fun _ _ => rfl) (fun _ _ h => (by cases h))] at h3
        obtain ⟨hk, h3⟩ := Option.ite_none_right_eq_some.1 h3
        cases h3
        have hv : Collators.assemble (Collators.genesis ((inv.map Prod.fst).mergeSort le) (ed * 16)) =
            (inv.map Prod.fst).mergeSort le := by
          simp [Collators.assemble, Collators.genesis]
        have hp : ((inv.map Prod.fst).mergeSort le).Perm (inv.map Prod.fst) := List.mergeSort_perm _ _
        have hf : (fun a => (inv.lookup a).or none) = fun a => inv.lookup a := by
          funext a
          exact Option.or_none
        have hall : ∀ l : List A, (∀ a ∈ l, a ∈ inv.map Prod.fst) →
            l.map (fun a => inv.lookup a) = (l.filterMap fun a => inv.lookup a).map some := by
          intro l hl
          induction l with
          | nil => rfl
          | cons a l ih =>
            obtain ⟨p, hp, rfl⟩ := List.mem_map.1 (hl a (List.mem_cons_self ..))
            have := (lookup_iff hn p.1 p.2).2 hp
            rw [List.map_cons, List.filterMap_cons_some (f := fun a => inv.lookup a) this, List.map_cons, this,
              ih fun x hx => hl x (List.mem_cons_of_mem _ hx)]
        rw [hv, hf]
        refine ⟨?_, ?_, ?_, rfl, rfl, hp, ?_, lookup_iff hn, ?_, ?_, hall _ fun a ha => hp.mem_iff.1 ha⟩
        · intro a ha
          exact (lookup_map_const endowed _ a).trans ((if_pos ha).trans shift60)
        · intro a ha
          exact (lookup_map_const endowed _ a).trans (if_neg ha)
        · show ((endowed.map fun k => (k, (1 : Nat) <<< 60)).map Prod.snd).sum = _
          rw [List.map_map]
          show (endowed.map fun _ => (1 : Nat) <<< 60).sum = _
          rw [List.map_const', List.sum_replicate, shift60]
          rfl
        · rw [Nat.mul_comm]
        · intro a k
          show ((inv.map Prod.swap).lookup k).or none = some a ↔ _
          rw [Option.or_none, lookup_iff]
          · constructor
            · intro h
              obtain ⟨p, hp, he⟩ := List.mem_map.1 h
              cases he
              exact hp
            · intro h
              exact List.mem_map.2 ⟨_, h, rfl⟩
          · rw [List.map_map]
            exact hk.1
        · have h1 := hp.filterMap fun a => inv.lookup a
          refine h1.trans ?_
          rw [List.filterMap_map]
          have : (inv.filterMap fun p => inv.lookup p.1) = inv.map Prod.snd := by
            rw [← List.filterMap_eq_map]
            exact List.filterMap_congr fun p hp => (lookup_iff hn p.1 p.2).2 hp
          exact List.Perm.of_eq this

/-- The twelve development accounts. Specification only, no code behind it (outside /repo). -/
def devSeeds : List String :=
  ["Alice", "Bob", "Charlie", "Dave", "Eve", "Ferdie"] ++ (["Alice", "Bob", "Charlie", "Dave", "Eve", "Ferdie"].map (· ++ "//stash"))

/-- **C162.** The local chain of the generator starts, if different seeds give different accounts and keys: with Alice and
Bob as collators and the twelve development accounts. -/
theorem C162_local (account : String → A) (key : String → K) (ed xcm : Nat) (hed : ed ≤ 2 ^ 60) (le : A → A → Bool)
    (hinj : ∀ m ∈ devSeeds, ∀ n ∈ devSeeds, account m = account n → m = n) (hk : key "Alice" ≠ key "Bob") :
    ∃ s, build ed le (localChain account key ed xcm) = some s ∧ s.paraId = 2281 ∧
      s.authorities.Perm [key "Alice", key "Bob"] ∧ s.keysOf (account "Alice") = some (key "Alice") ∧
      s.keysOf (account "Bob") = some (key "Bob") ∧ s.issuance = 12 * 2 ^ 60 ∧
      ∀ n ∈ devSeeds, s.free (account n) = 2 ^ 60 := by
  have hdev : endowedSeeds = devSeeds := by decide
  have ha : (endowedSeeds.map account).Nodup := by
    rw [hdev]
    exact List.Nodup.map_on (fun m hm n hn => hinj m hm n hn) (by decide)
  have hn : ((collatorSeeds.map fun s => (account s, key s)).map Prod.fst).Nodup := by
    have : (collatorSeeds.map fun s => (account s, key s)).map Prod.fst = (endowedSeeds.map account).take 2 := rfl
    rw [this]
    exact ha.sublist (List.take_sublist _ _)
  have hs := (C162_builds (K := K) ed xcm kreivoParaId hed le (collatorSeeds.map fun s => (account s, key s))
    (endowedSeeds.map account)).2 ⟨ha, hn, by simp [collatorSeeds, hk], by simp [collatorSeeds]⟩
  obtain ⟨s, hs⟩ := Option.isSome_iff_exists.1 hs
  obtain ⟨h1, h2, h3, h4, h5, h6, h7, h8, h9, h10, h11⟩ := C162_start ed xcm _ le _ _ s hs
  refine ⟨s, hs, h4, h10, (h8 _ _).2 ?_, (h8 _ _).2 ?_, h3, fun n hn => h1 _ (List.mem_map_of_mem (hdev ▸ hn))⟩
  · simp [collatorSeeds]
  · simp [collatorSeeds]

/-- The hypotheses of `C162_local`, for both existential deposits (runtime/kreivo/src/constants.rs 21,
runtime/runtime-constants/src/lib.rs 26-39). -/
example : ((1000000000000 / 30 / 100 / 10 : Nat) ≤ 2 ^ 60 ∧ (10000000000 / 100 / 10 : Nat) ≤ 2 ^ 60) ∧
    (∀ m ∈ devSeeds, ∀ n ∈ devSeeds, id m = id n → m = n) ∧ id "Alice" ≠ id "Bob" := ⟨by decide, fun _ _ _ _ h => h, by decide⟩
example : (build 5 (fun a b => decide (a ≤ b)) (localGenesis 5 4 2281 [(2, 20), (1, 10)] [1, 2, 3])).map
    (fun s => (s.keysOf 1, s.owner 20, s.free 3, s.free 4, s.issuance)) = some (some 10, some 2, 2 ^ 60, 0, 3 * 2 ^ 60) := by decide +kernel
example : (build 5 (fun a b => decide (a ≤ b)) (localGenesis 5 4 2281 [(2, 20), (1, 20)] [1, 2, 3])).isNone := by
  decide +kernel

end Verif.Runtime.ChainSpec
