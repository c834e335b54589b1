import Verif.Xcm.ReanchorLemmas

/-! # What calls of pallet_xcm do, step by step -/

namespace Verif.Xcm

open Verif Verif.Runtime Verif.Accounts

/-! ## Names -/

theorem reanchor_same {self : UInt32} {target l r : Location} (ht : target.parents.toNat ≤ 2)
    (hi : target.interior.length ≤ 255) (h : reanchor (universalLocation self) target l = some r) :
    SamePlace self target l r := by
  rw [reanchor_kreivo self target l ht] at h
  have hth : absolute (kreivoPath self) target = some _ := if_pos ht
  exact ⟨_, hth, reanchor_absolute (kreivoPath self) target l r ht hi h _ hth⟩

theorem match_short {l : Location} {c : Cur} (h : matchAsset l = .cur c) :
    l.parents.toNat ≤ 2 ∧ l.interior.length ≤ 4 := by
  rw [match_location h]
  cases c with
  | native => exact ⟨by decide, by decide⟩
  | asset id =>
    cases id with
    | here i => exact ⟨le_of_eq_of_le (b := 0) rfl (by omega), by simp [Cur.location, convertBack]⟩
    | sibling p => exact ⟨le_of_eq_of_le (b := 1) rfl (by omega), by simp [Cur.location, convertBack, Para.junctions]⟩
    | external n p =>
      cases p with
      | none => exact ⟨le_of_eq_of_le (b := 2) rfl (by omega), by simp [Cur.location, convertBack]⟩
      | some p => exact ⟨le_of_eq_of_le (b := 2) rfl (by omega), by simp [Cur.location, convertBack, Para.junctions]⟩

/-! ## The messages -/

theorem reanchorAll_same {self : UInt32} {target : Location} (ht : target.parents.toNat ≤ 2)
    (hi : target.interior.length ≤ 255) (as : List XAsset) : ∀ {rs : List XAsset},
    reanchorAll (universalLocation self) target as = some rs →
      List.Forall₂ (fun a b => b.2 = a.2 ∧ SamePlace self target a.1 b.1) as rs := by
  induction as with
  | nil => intro rs h; cases h; exact .nil
  | cons e as ih =>
    intro rs h
    obtain ⟨l, n⟩ := e
    simp only [reanchorAll] at h
    split at h
    · rename_i r rs' hr hrs
      cases h
      exact .cons ⟨rfl, reanchor_same ht hi hr⟩ (ih hrs)
    · cases h

theorem reanchorAll_some {ctx : List Junction} {target : Location} (as : List XAsset) : ∀ {rs : List XAsset},
    reanchorAll ctx target as = some rs → ∀ l, 0 < sumAt as l → (reanchor ctx target l).isSome := by
  induction as with
  | nil => intro rs _ l hl; simp [sumAt] at hl
  | cons e as ih =>
    intro rs h l hl
    obtain ⟨m, n⟩ := e
    simp only [reanchorAll] at h
    split at h
    · rename_i r rs' hr hrs
      by_cases hm : m = l
      · subst hm; rw [hr]; rfl
      · simp only [sumAt, if_neg hm, Nat.zero_add] at hl
        exact ih hrs l hl
    · cases h

theorem routable_iff (l : Location) : routable l = true ↔ l = ⟨1, []⟩ ∨ ∃ id, l = ⟨1, [.parachain id]⟩ := by
  constructor
  · intro h
    obtain ⟨p, i⟩ := l
    unfold routable at h
    split at h
    · rename_i h1 h2
      dsimp only at h1 h2
      subst h1; subst h2
      exact .inl rfl
    · rename_i id h1 h2
      dsimp only at h1 h2
      subst h1; subst h2
      exact .inr ⟨id, rfl⟩
    · cases h
  · rintro (rfl | ⟨id, rfl⟩) <;> rfl

theorem routable_near {l : Location} (h : routable l = true) : l.parents.toNat ≤ 2 ∧ l.interior.length ≤ 255 := by
  rcases (routable_iff l).mp h with rfl | ⟨id, rfl⟩
  · exact ⟨by decide, by decide⟩
  · exact ⟨le_of_eq_of_le (b := 1) rfl (by omega), by simp⟩

theorem legOrder_kind {ctx : List Junction} {dest fee : Location} {t : TransferType} {as : List XAsset} {o : Order}
    (h : legOrder ctx dest fee t as = some o) :
    t ≠ .teleport ∧ (decide (o.kind = .deposited) = t.deposits) ∧ reanchorAll ctx o.dest as = some o.assets ∧
    ((o.onward = none ∧ o.dest = dest ∧ ∀ r, t ≠ .remoteReserve r) ∨
      (∃ d, o.onward = some d ∧ o.kind = .withdraw ∧ reanchor ctx o.dest dest = some d ∧ t = .remoteReserve o.dest)) := by
  cases t with
  | teleport => cases h
  | localReserve =>
    simp only [legOrder, Option.map_eq_some_iff] at h
    obtain ⟨rs, h, rfl⟩ := h
    exact ⟨by simp, rfl, h, .inl ⟨rfl, rfl, fun r => by simp⟩⟩
  | destinationReserve =>
    simp only [legOrder, Option.map_eq_some_iff] at h
    obtain ⟨rs, h, rfl⟩ := h
    exact ⟨by simp, rfl, h, .inl ⟨rfl, rfl, fun r => by simp⟩⟩
  | remoteReserve r =>
    simp only [legOrder] at h
    split at h
    · rename_i h1 h2 h3 h4
      cases h
      exact ⟨by simp, rfl, h4, .inr ⟨_, rfl, rfl, h3, rfl⟩⟩
    · cases h

/-- The legs with their orders. -/
theorem ordersOf_legs {ctx : List Junction} {dest fee : Location} (gs : List (TransferType × List XAsset)) :
    ∀ {os : List Order}, ordersOf ctx dest fee gs = some os →
      List.Forall₂ (fun g o => legOrder ctx dest fee g.1 g.2 = some o) gs os := by
  induction gs with
  | nil => intro os h; cases h; exact .nil
  | cons g gs ih =>
    intro os h
    obtain ⟨t, as⟩ := g
    simp only [ordersOf] at h
    split at h
    · rename_i o os' ho hos
      cases h
      exact .cons ho (ih hos)
    · cases h

theorem legs_perm (assets : List XAsset) (fee : Nat) (f : XAsset) (t tf : TransferType) (hf : assets[fee]? = some f) :
    ((legs assets fee f t tf).flatMap fun g => g.2).Perm assets := by
  unfold legs
  split
  · simp
  · simp only [List.flatMap_cons, List.flatMap_nil, List.append_nil, List.singleton_append]
    obtain ⟨hlt, rfl⟩ := List.getElem?_eq_some_iff.mp hf
    exact (List.getElem_cons_eraseIdx_perm hlt)

theorem legs_done {ctx : List Junction} {dust : Cur → Bool} {who dest fee : Location} {s : AccountId}
    (hs : locationToAccount who = some s) (hd : locationToAccount dest ≠ some s) (gs : List (TransferType × List XAsset)) :
    ∀ {os : List Order} {m m' : Mach}, List.Forall₂ (fun g o => legOrder ctx dest fee g.1 g.2 = some o) gs os →
      Idle who m → complete ctx dust m (gs.flatMap fun g => legCode dest g.1 g.2) = .ok m' →
      Idle who m' ∧ SameRecords m.chain m'.chain ∧
        Moved s (locationToAccount dest) (fun k => (gs.map fun g => sumAt g.2 k.location).sum)
          (fun k => ((gs.filter fun g => g.1.deposits).map fun g => sumAt g.2 k.location).sum) m.chain.ledger m'.chain.ledger := by
  induction gs with
  | nil =>
    intro os m m' _ hi h
    cases h
    exact ⟨hi, ⟨rfl, rfl, fun _ => rfl⟩, Moved.refl s _ _⟩
  | cons g gs ih =>
    intro os m m' ho hi h
    cases ho with
    | cons h1 h2 =>
      rename_i o os'
      rw [List.flatMap_cons, complete_append] at h
      split at h
      · rename_i m1 hm1
        obtain ⟨k1, k2, k3, k4⟩ := legOrder_kind h1
        have hr : ∀ r, g.1 = .remoteReserve r → ∀ l, 0 < sumAt g.2 l → (reanchor ctx r l).isSome := by
          intro r hr l hl
          rcases k4 with ⟨_, _, k4⟩ | ⟨d, _, _, _, k4⟩
          · exact absurd hr (k4 r)
          · rw [k4] at hr
            cases hr
            exact reanchorAll_some g.2 k3 l hl
        obtain ⟨i1, r1, m1'⟩ := leg_done k1 hs hd hr hi hm1
        obtain ⟨i2, r2, m2'⟩ := ih h2 i1 h
        refine ⟨i2, r1.trans r2, (m1'.trans m2').congr (fun k => by simp) fun k => ?_⟩
        by_cases hdep : g.1.deposits = true
        · simp [hdep]
        · simp [hdep]
      · cases h
      · cases h

theorem sum_flatMap (gs : List (TransferType × List XAsset)) (l : Location) :
    (gs.map fun g => sumAt g.2 l).sum = sumAt (gs.flatMap fun g => g.2) l := by
  induction gs with
  | nil => rfl
  | cons g gs ih => simp only [List.map_cons, List.sum_cons, List.flatMap_cons, sumAt_append, ih]

theorem sumAt_perm {as bs : List XAsset} (h : as.Perm bs) (l : Location) : sumAt as l = sumAt bs l := by
  induction h with
  | nil => rfl
  | cons x _ ih => obtain ⟨m, n⟩ := x; simp only [sumAt, ih]
  | swap x y _ => obtain ⟨m, n⟩ := x; obtain ⟨m', n'⟩ := y; simp only [sumAt]; omega
  | trans _ _ h1 h2 => exact h1.trans h2

theorem withdraws_account {who : Location} {as : List XAsset} {a a' : Acc} (hne : as ≠ [])
    (h : eachAsset (withdrawFrom who) a as = .ok a') : ∃ s, locationToAccount who = some s := by
  cases hw : locationToAccount who with
  | some s => exact ⟨s, rfl⟩
  | none =>
    cases as with
    | nil => exact absurd rfl hne
    | cons e as =>
      exfalso
      obtain ⟨l, n⟩ := e
      simp only [eachAsset] at h
      split at h
      · cases h
      · cases h
      · simp [withdrawFrom, hw] at h

theorem leg_account {ctx : List Junction} {dust : Cur → Bool} {who dest : Location} {t : TransferType} {as : List XAsset}
    {m m' : Mach} (ht : t ≠ .teleport) (hi : Idle who m) (hne : as ≠ [])
    (h : complete ctx dust m (legCode dest t as) = .ok m') : ∃ s, locationToAccount who = some s := by
  have withdraws : ∀ more, complete ctx dust m (.withdrawAsset as :: more) = .ok m' → ∃ s, locationToAccount who = some s := by
    intro more h
    simp only [complete] at h
    split at h
    · rename_i m1 h1
      obtain ⟨a, ha, _⟩ := withdrawn hi h1
      exact withdraws_account hne ha
    · cases h
    · cases h
  cases t with
  | teleport => exact absurd rfl ht
  | localReserve =>
    cases hw : locationToAccount who with
    | some s => exact ⟨s, rfl⟩
    | none =>
      simp only [legCode, complete] at h
      split at h
      · rename_i m1 h1
        simp only [Mach.effect, hi.1] at h1
        split at h1
        · rename_i a ha
          exact absurd (transfers_none (.inl hw) ha).1 hne
        · cases h1
        · cases h1
      · cases h
      · cases h
  | destinationReserve => exact withdraws _ h
  | remoteReserve r => exact withdraws _ h

/-- What `sendAssets` does when it does anything: the legs, their orders and the machine at the end. -/
theorem sendAssets_ok {self : UInt32} {dust : Cur → Bool} {c c' : Chain} {who dest : Location} {assets : List XAsset} {fee : Nat}
    {t tf : TransferType} {os : List Order} (h : sendAssets self dust c who dest assets fee t tf = .ok (c', os)) :
    ∃ f m, assets[fee]? = some f ∧
      List.Forall₂ (fun g o => legOrder (universalLocation self) dest f.1 g.1 g.2 = some o) (legs assets fee f t tf) os ∧
      complete (universalLocation self) dust (Mach.start c who [])
        ((legs assets fee f t tf).flatMap fun g => legCode dest g.1 g.2) = .ok m ∧
      (∀ o ∈ os, routable o.dest = true) ∧ c' = m.finish ⟨[], 0⟩ := by
  unfold sendAssets at h
  split at h
  · cases h
  rename_i f hf
  split at h
  · cases h
  split at h
  · cases h
  rename_i os' hos
  split at h
  · rename_i m hm
    split at h
    · rename_i hall
      cases h
      exact ⟨f, m, hf, ordersOf_legs _ hos, hm, fun o ho => List.all_eq_true.mp hall o ho, rfl⟩
    · cases h
  · cases h
  · cases h

theorem zip_parts {ctx : List Junction} {dest fee : Location} {gs : List (TransferType × List XAsset)} {os : List Order}
    (h : List.Forall₂ (fun g o => legOrder ctx dest fee g.1 g.2 = some o) gs os) :
    ∃ parts : List (Order × List XAsset), os = parts.map (·.1) ∧
      (parts.flatMap fun p => p.2) = gs.flatMap (fun g => g.2) ∧
      (∀ p ∈ parts, p.1 ∈ os ∧ ∃ g ∈ gs, g.2 = p.2 ∧ legOrder ctx dest fee g.1 g.2 = some p.1) ∧
      ∀ k, putOnAccount parts k = ((gs.filter fun g => g.1.deposits).map fun g => sumAt g.2 k.location).sum := by
  induction h with
  | nil => exact ⟨[], rfl, rfl, by simp, fun _ => rfl⟩
  | @cons g o gs os h1 _ ih =>
    obtain ⟨parts, e1, e2, e3, e4⟩ := ih
    refine ⟨(o, g.2) :: parts, by simp [e1], by simp [e2], ?_, fun k => ?_⟩
    · intro p hp
      rcases List.mem_cons.mp hp with rfl | hp
      · exact ⟨by simp, g, by simp, rfl, h1⟩
      · obtain ⟨a, g', hg', b⟩ := e3 p hp
        exact ⟨List.mem_cons_of_mem _ a, g', List.mem_cons_of_mem _ hg', b⟩
    · have hk := (legOrder_kind h1).2.1
      have := e4 k
      unfold putOnAccount at this ⊢
      simp only [List.filter_cons]
      rw [hk]
      by_cases hdep : g.1.deposits = true
      · simp [hdep, this]
      · simp [hdep, this]

/-- Everything about a call that sends assets, with how each travels. -/
theorem sent {self : UInt32} {dust : Cur → Bool} {c c' : Chain} {who dest : Location} {assets : List XAsset} {fee : Nat}
    {t tf : TransferType} {os : List Order} (h : sendAssets self dust c who dest assets fee t tf = .ok (c', os)) :
    ∃ s parts f, locationToAccount who = some s ∧ assets[fee]? = some f ∧ os = parts.map (·.1) ∧
      Carries self dest assets parts ∧
      (∀ p ∈ parts, ∃ g ∈ legs assets fee f t tf, g.2 = p.2 ∧
        legOrder (universalLocation self) dest f.1 g.1 g.2 = some p.1) ∧
      (locationToAccount dest ≠ some s →
        SameRecords c c' ∧
        Moved s (locationToAccount dest) (fun k => sumAt assets k.location) (putOnAccount parts) c.ledger c'.ledger) := by
  obtain ⟨f, m, hf, ho, hm, hall, rfl⟩ := sendAssets_ok h
  obtain ⟨parts, e1, e2, e3, e4⟩ := zip_parts ho
  have hi : Idle who (Mach.start c who []) := ⟨rfl, fun _ => rfl, rfl⟩
  have hacc : ∃ s, locationToAccount who = some s := by
    have hne : assets ≠ [] := by rintro rfl; simp at hf
    unfold legs at hm ho
    split at hm
    · rename_i htt
      rw [if_pos htt] at ho
      cases ho with
      | cons h1 h2 =>
        simp only [List.flatMap_cons, List.flatMap_nil, List.append_nil] at hm
        exact leg_account (legOrder_kind h1).1 hi hne hm
    · rename_i htt
      rw [if_neg htt] at ho
      cases ho with
      | cons h1 h2 =>
        rw [List.flatMap_cons, complete_append] at hm
        split at hm
        · rename_i m1 hm1
          exact leg_account (legOrder_kind h1).1 hi (by simp) hm1
        · cases hm
        · cases hm
  obtain ⟨s, hs⟩ := hacc
  refine ⟨s, parts, f, hs, hf, e1, ?_, fun p hp => (e3 p hp).2, fun hd => ?_⟩
  · refine ⟨?_, ?_, ?_, ?_⟩
    · rw [e2]; exact legs_perm assets fee f t tf hf
    · intro p hp
      obtain ⟨hp1, g, _, hg, hgo⟩ := e3 p hp
      obtain ⟨n1, n2⟩ := routable_near (hall p.1 hp1)
      rw [← hg]
      exact reanchorAll_same n1 n2 g.2 (legOrder_kind hgo).2.2.1
    · intro p hp
      exact (routable_iff _).mp (hall p.1 (e3 p hp).1)
    · intro p hp
      obtain ⟨hp1, g, _, hg, hgo⟩ := e3 p hp
      obtain ⟨n1, n2⟩ := routable_near (hall p.1 hp1)
      rcases (legOrder_kind hgo).2.2.2 with ⟨a, b, _⟩ | ⟨d, a, b, e, _⟩
      · exact .inl ⟨a, b⟩
      · exact .inr ⟨d, a, b, reanchor_same n1 n2 e⟩
  · obtain ⟨i, r, mv⟩ := legs_done hs hd _ ho hi hm
    obtain ⟨f1, f2⟩ := finish_idle i
    refine ⟨r.trans f2, ?_⟩
    rw [f1]
    refine mv.congr (fun k => ?_) fun k => (e4 k).symm
    rw [sum_flatMap, sumAt_perm (legs_perm assets fee f t tf hf)]

/-- A call that sends assets is a `sendAssets`. -/
theorem call_sends {self : UInt32} {dust : Cur → Bool} {c c' : Chain} {o : RtOrigin} {call : XcmCall} {os : List Order}
    {dest : Location} {assets : List XAsset} (hc : call.sends = some (dest, assets))
    (h : xcmCall self dust c o call = .ok (c', os)) :
    ∃ who fee t tf, canExecuteXcm o = some who ∧ sendAssets self dust c who dest assets fee t tf = .ok (c', os) ∧
      ((∀ d a f x y, call ≠ .transferUsing d a f x y) → findTypes dest assets fee = some (t, tf)) := by
  unfold xcmCall at h
  split at h
  · cases h
  rename_i who hw
  cases call with
  | execute msg => cases hc
  | teleport d a f => cases hc
  | claimAssets a b => cases hc
  | reserveTransfer d a f =>
    cases hc
    dsimp only at h
    split at h
    · rename_i t tf hft
      split at h
      · exact ⟨who, f, t, tf, hw, h, fun _ => hft⟩
      · cases h
    · cases h
  | transfer d a f =>
    cases hc
    dsimp only at h
    split at h
    · rename_i t tf hft
      exact ⟨who, f, t, tf, hw, h, fun _ => hft⟩
    · cases h
  | transferUsing d a f x y =>
    cases hc
    exact ⟨who, f, x, y, hw, h, fun hn => absurd rfl (hn _ _ _ _ _)⟩

end Verif.Xcm
