import Verif.Xcm.TransferSteps
import Verif.Accounts.Theorems

/-! # C129-C133: assets sent to other chains and claimed back by accounts of Kreivo -/

namespace Verif.Xcm

open Verif Verif.Runtime Verif.Accounts

/-! ## C131: names -/

/-- C131: whatever Kreivo names in a message to another chain up to two levels up means there what it means here, although the
first junction of Kreivo's own position is wrong. -/
theorem C131_same_meaning (self : UInt32) (target l r : Location) (ht : target.parents.toNat ≤ 2)
    (hi : target.interior.length ≤ maxJunctions) (h : reanchor (universalLocation self) target l = some r) :
    SamePlace self target l r := reanchor_same ht (by unfold maxJunctions at hi; omega) h

/-- Two names with the same meaning for another chain have the same meaning here. -/
theorem C131_distinct (self : UInt32) (target l l' r : Location) (ht : target.parents.toNat ≤ 2)
    (hi : target.interior.length ≤ maxJunctions) (h : reanchor (universalLocation self) target l = some r)
    (h' : reanchor (universalLocation self) target l' = some r) :
    absolute (kreivoPath self) l = absolute (kreivoPath self) l' := by
  obtain ⟨t1, e1, a1⟩ := C131_same_meaning self target l r ht hi h
  obtain ⟨t2, e2, a2⟩ := C131_same_meaning self target l' r ht hi h'
  rw [e1] at e2
  cases e2
  exact a1.symm.trans a2

/-- C131: every asset Kreivo keeps has a name for the relay chain and for every parachain. -/
theorem C131_has_a_name (self : UInt32) (target l : Location) (c : Cur) (hm : matchAsset l = .cur c)
    (ht : target = ⟨1, []⟩ ∨ ∃ id, target = ⟨1, [.parachain id]⟩) :
    ∃ r, reanchor (universalLocation self) target l = some r := by
  obtain ⟨h1, h2⟩ := match_short hm
  have hinv : ∃ n, n ≤ 1 ∧ invertTarget (universalLocation self) target = some ⟨UInt8.ofNat n, [.parachain self]⟩ := by
    rcases ht with rfl | ⟨id, rfl⟩
    · exact ⟨0, by omega, rfl⟩
    · exact ⟨1, by omega, rfl⟩
  obtain ⟨n, hn, hinv⟩ := hinv
  have en : (UInt8.ofNat n).toNat = n := by rw [UInt8.toNat_ofNat']; omega
  have hp : ∃ q, l.prependWith ⟨UInt8.ofNat n, [.parachain self]⟩ = some q := by
    unfold Location.prependWith
    dsimp only
    rw [if_pos]
    · exact ⟨_, rfl⟩
    · rw [en]
      constructor
      · rw [List.length_append, List.length_take]
        have h1 : [Junction.parachain self].length = 1 := rfl
        unfold maxJunctions
        omega
      · omega
  obtain ⟨q, hq⟩ := hp
  unfold reanchor
  rw [hinv]
  dsimp only
  rw [hq]
  exact ⟨_, rfl⟩

example : reanchor (universalLocation 2281) ⟨1, [.parachain 1000]⟩ tether =
    some ⟨0, [.palletInstance 50, .generalIndex 1984]⟩ := by decide +kernel
example : reanchor (universalLocation 2281) ⟨1, [.parachain 2000]⟩ tether = some tether := by decide +kernel
example : reanchor (universalLocation 2281) ⟨1, [.parachain 2000]⟩ ⟨0, [.palletInstance 13, .generalIndex 7]⟩ =
    some ⟨1, [.parachain 2281, .palletInstance 13, .generalIndex 7]⟩ := by decide +kernel
example : reanchor (universalLocation 2281) ⟨1, []⟩ ⟨1, []⟩ = some ⟨0, []⟩ := by decide +kernel


/-! ## C130: what is taken from whom -/

/-- C130: a call that sends assets takes from the account of the caller exactly what it names, apart from a rest below the least
balance; it pays the account of the destination exactly what the messages tell the destination it was paid, and perhaps that
rest; no other account changes, nothing is trapped, nothing is charged for delivery, and all assets of the call are in a
message to a chain that can be reached. -/
theorem C130_exact (self : UInt32) (dust : Cur → Bool) (c c' : Chain) (o : RtOrigin) (call : XcmCall) (os : List Order)
    (dest : Location) (assets : List XAsset) (hc : call.sends = some (dest, assets))
    (h : xcmCall self dust c o call = .ok (c', os)) :
    ∃ who s parts, canExecuteXcm o = some who ∧ locationToAccount who = some s ∧ os = parts.map (·.1) ∧
      Carries self dest assets parts ∧
      (locationToAccount dest ≠ some s →
        SameRecords c c' ∧
        Moved s (locationToAccount dest) (fun k => sumAt assets k.location) (putOnAccount parts) c.ledger c'.ledger) := by
  obtain ⟨who, fee, t, tf, hw, hs, _⟩ := call_sends hc h
  obtain ⟨s, parts, f, h1, _, h2, h3, _, h4⟩ := sent hs
  exact ⟨who, s, parts, hw, h1, h2, h3, h4⟩

/-- C130: an account pays from its own account; a community, whichever part of it decided, from the account of the community;
nobody else can call. -/
theorem C130_payer (o : RtOrigin) (who : Location) (s : AccountId) (hw : canExecuteXcm o = some who)
    (hs : locationToAccount who = some s) :
    o = .signed s ∨ ∃ p, o = .community p ∧ s = communityAccount p.community := by
  by_cases ho : ∃ a, o = .signed a
  · obtain ⟨a, rfl⟩ := ho
    rw [C74_executes_as_itself] at hw
    subst hw
    rw [C71_who_has_an_account] at hs
    rcases hs with ⟨h, _⟩ | ⟨_, h, _⟩ | ⟨_, _, h, _⟩ | ⟨_, h, _⟩ | ⟨_, h, _⟩ <;> simp at h
    rw [h.2]
    exact .inl rfl
  · obtain ⟨_, h2⟩ := C74_other_origins o fun a ha => ho ⟨a, ha⟩
    obtain ⟨p, j, rfl, hj, rfl⟩ := h2 who hw
    right
    refine ⟨p, rfl, ?_⟩
    rw [C71_who_has_an_account] at hs
    have hplur : ∃ part, j = .plurality (.index (u16ToU32 p.community)) part := by
      unfold originToJunction at hj
      split at hj <;> cases hj <;> exact ⟨_, rfl⟩
    obtain ⟨part, rfl⟩ := hplur
    rcases hs with ⟨h, _⟩ | ⟨_, h, _⟩ | ⟨i, _, h, e⟩ | ⟨_, h, _⟩ | ⟨_, h, _⟩ <;> simp at h
    rw [e, ← h.1]
    congr 1
    apply UInt16.toNat_inj.1
    have hlt := p.community.toNat_lt
    unfold satU16 u16ToU32
    rw [UInt16.toNat_ofNat', UInt32.toNat_ofNat']
    omega

/-- C130: messages cannot be executed by a call, and nothing is teleported. -/
theorem C130_filtered (self : UInt32) (dust : Cur → Bool) (c : Chain) (o : RtOrigin) :
    (∀ msg, xcmCall self dust c o (.execute msg) = .err) ∧
    (∀ dest assets fee, xcmCall self dust c o (.teleport dest assets fee) = .err) ∧
    (∀ dest assets fee t tf, t = .teleport ∨ tf = .teleport → ∀ r,
      xcmCall self dust c o (.transferUsing dest assets fee t tf) ≠ .ok r) := by
  refine ⟨fun msg => ?_, fun dest assets fee => ?_, fun dest assets fee t tf ht r h => ?_⟩
  · unfold xcmCall; cases canExecuteXcm o <;> rfl
  · unfold xcmCall; cases canExecuteXcm o <;> rfl
  · obtain ⟨c', os⟩ := r
    have hs : ∃ who, sendAssets self dust c who dest assets fee t tf = .ok (c', os) := by
      unfold xcmCall at h
      split at h
      · cases h
      · exact ⟨_, h⟩
    obtain ⟨who, hs⟩ := hs
    obtain ⟨f, m, hf, ho, _⟩ := sendAssets_ok hs
    unfold legs at ho
    split at ho
    · rename_i htt
      cases ho with
      | cons h1 _ =>
        have := (legOrder_kind h1).1
        rcases ht with rfl | rfl
        · exact this rfl
        · exact this htt.symm
    · cases ho with
      | cons h1 h2 =>
        cases h2 with
        | cons h2 _ =>
          rcases ht with rfl | rfl
          · exact (legOrder_kind h2).1 rfl
          · exact (legOrder_kind h1).1 rfl

/-! ## C129: through which chain -/

theorem findTypes_spec {dest : Location} {assets : List XAsset} {fee : Nat} {t tf : TransferType}
    (h : findTypes dest assets fee = some (t, tf)) {f : XAsset} (hf : assets[fee]? = some f) :
    (∀ e ∈ assets, 0 < e.2) ∧ determine f.1 dest = some tf ∧ ∀ e ∈ assets.eraseIdx fee, determine e.1 dest = some t := by
  unfold findTypes at h
  split at h
  · cases h
  rename_i hz
  have hpos : ∀ e ∈ assets, 0 < e.2 := by
    intro e he
    have : ¬ (e.2 == 0) = true := fun hx => hz (List.any_eq_true.mpr ⟨e, he, hx⟩)
    simp at this
    omega
  refine ⟨hpos, ?_⟩
  split at h
  · cases h
  · rename_i e
    split at h
    · rename_i h0
      subst h0
      simp at hf
      subst hf
      rw [Option.map_eq_some_iff] at h
      obtain ⟨x, hx, e⟩ := h
      cases e
      exact ⟨hx, by simp⟩
    · cases h
  · split at h
    · rename_i f' o others hf' ho
      rw [hf] at hf'
      cases hf'
      split at h
      · rename_i tf' t' h1 h2
        split at h
        · rename_i hall
          cases h
          refine ⟨h1, fun e he => ?_⟩
          rw [ho] at he
          rcases List.mem_cons.mp he with rfl | he
          · exact h2
          · exact of_decide_eq_true (List.all_eq_true.mp hall e he)
        · cases h
      · cases h
    · cases h

theorem legs_types {dest : Location} {assets : List XAsset} {fee : Nat} {f : XAsset} {t tf : TransferType}
    (hf : assets[fee]? = some f) (h1 : determine f.1 dest = some tf) (h2 : ∀ e ∈ assets.eraseIdx fee, determine e.1 dest = some t) :
    ∀ g ∈ legs assets fee f t tf, ∀ e ∈ g.2, e ∈ assets ∧ determine e.1 dest = some g.1 := by
  have hperm : (f :: assets.eraseIdx fee).Perm assets := by
    obtain ⟨hlt, rfl⟩ := List.getElem?_eq_some_iff.mp hf
    exact (List.getElem_cons_eraseIdx_perm hlt)
  intro g hg e he
  unfold legs at hg
  split at hg
  · rename_i htt
    rw [List.mem_singleton] at hg
    subst hg
    refine ⟨he, ?_⟩
    rcases List.mem_cons.mp (hperm.symm.subset he) with rfl | he
    · rw [h1, htt]
    · exact h2 e he
  · rcases List.mem_cons.mp hg with rfl | hg
    · rw [List.mem_singleton] at he
      subst he
      exact ⟨List.mem_of_getElem? hf, h1⟩
    · rw [List.mem_singleton] at hg
      subst hg
      exact ⟨List.mem_of_mem_eraseIdx he, h2 e he⟩

/-- Issued on Kreivo: no other chain is on the way to it. Specification only, no code behind it (outside /repo). -/
def IssuedHere (l : Location) : Prop :=
  l.parents = 0 ∧ ∀ j ∈ l.interior, (∀ id, j ≠ .parachain id) ∧ ∀ n, j ≠ .globalConsensus n

theorem chain_here {l : Location} (h : chainLocation l = ⟨0, []⟩) : IssuedHere l := by
  unfold chainLocation at h
  obtain ⟨h1, h2⟩ := Location.mk.inj h
  refine ⟨h1, fun j hj => ?_⟩
  rw [List.reverse_eq_nil_iff] at h2
  have hall : ∀ (p : Junction → Bool) (js : List Junction), js.dropWhile p = [] → ∀ j ∈ js, p j = true := by
    intro p js
    induction js with
    | nil => intro _ j hj; cases hj
    | cons x xs ih =>
      intro h j hj
      rw [List.dropWhile_cons] at h
      split at h
      · rename_i hx
        rcases List.mem_cons.mp hj with rfl | hj
        · exact hx
        · exact ih h j hj
      · cases h
  have := hall _ _ h2 j (List.mem_reverse.mpr hj)
  constructor
  · rintro id rfl
    simp [Junction.isChain] at this
  · rintro n rfl
    simp [Junction.isChain] at this

/-- As many messages as parts that travel separately. -/
theorem ordersOf_length {context : List Junction} {dest fee : Location} {l : List (TransferType × List XAsset)} {os : List Order}
    (h : ordersOf context dest fee l = some os) : os.length = l.length := by
  induction l generalizing os with
  | nil => cases h; rfl
  | cons e l ih =>
    obtain ⟨t, as⟩ := e
    unfold ordersOf at h
    split at h
    · rename_i o os' _ hos
      cases h
      rw [List.length_cons, List.length_cons, ih hos]
    · cases h

/-- C130: a call that sends assets carries one or two of them, in one message or, if there are two, in at most two; a reserve
transfer sends exactly one message. -/
theorem C130_limits (self : UInt32) (dust : Cur → Bool) (c c' : Chain) (o : RtOrigin) (call : XcmCall) (os : List Order)
    (dest : Location) (assets : List XAsset) (hc : call.sends = some (dest, assets))
    (h : xcmCall self dust c o call = .ok (c', os)) :
    1 ≤ assets.length ∧ assets.length ≤ 2 ∧ 1 ≤ os.length ∧ os.length ≤ 2 ∧
      ((∃ d a f, call = .reserveTransfer d a f) → os.length = 1) := by
  have key : ∀ who fee t tf, sendAssets self dust c who dest assets fee t tf = .ok (c', os) →
      1 ≤ assets.length ∧ assets.length ≤ 2 ∧ 1 ≤ os.length ∧ os.length ≤ 2 ∧ (t = tf → os.length = 1) := by
    intro who fee t tf hs
    unfold sendAssets at hs
    split at hs
    · cases hs
    · rename_i f hf
      obtain ⟨hlt, _⟩ := List.getElem?_eq_some_iff.1 hf
      split at hs
      · cases hs
      · rename_i hno
        split at hs
        · cases hs
        · rename_i os' hos
          split at hs
          · split at hs
            · cases hs
              have hl := ordersOf_length hos
              have : (legs assets fee f t tf).length ≤ 2 ∧ 1 ≤ (legs assets fee f t tf).length ∧
                  (t = tf → (legs assets fee f t tf).length = 1) := by
                unfold legs
                split
                · simp
                · rename_i hne
                  exact ⟨by simp, by simp, fun e => absurd e.symm hne⟩
              rw [hl]
              exact ⟨by omega, by omega, this.2.1, this.1, this.2.2⟩
            · cases hs
          · cases hs
          · cases hs
  unfold xcmCall at h
  split at h
  · cases h
  cases call with
  | execute msg => cases hc
  | teleport d a f => cases hc
  | claimAssets a b => cases hc
  | reserveTransfer d a f =>
    cases hc
    dsimp only at h
    split at h
    · split at h
      · rename_i he
        obtain ⟨a1, a2, a3, a4, a5⟩ := key _ _ _ _ h
        exact ⟨a1, a2, a3, a4, fun _ => a5 he.1⟩
      · cases h
    · cases h
  | transfer d a f =>
    cases hc
    dsimp only at h
    split at h
    · obtain ⟨a1, a2, a3, a4, _⟩ := key _ _ _ _ h
      exact ⟨a1, a2, a3, a4, by rintro ⟨_, _, _, e⟩; cases e⟩
    · cases h
  | transferUsing d a f x y =>
    cases hc
    obtain ⟨a1, a2, a3, a4, _⟩ := key _ _ _ _ h
    exact ⟨a1, a2, a3, a4, by rintro ⟨_, _, _, e⟩; cases e⟩

/-- C129 (partial: assets of Asset Hub only if sent to Asset Hub): what is sent away goes through the chain that keeps it. Assets
issued on Kreivo are put on the destination's account and the destination is told so; for others the message that takes them
from Kreivo's account goes to the asset's own reserve. -/
theorem C129_through_own_reserve_partial (self : UInt32) (dust : Cur → Bool) (c c' : Chain) (o : RtOrigin) (call : XcmCall)
    (os : List Order) (dest : Location) (assets : List XAsset) (hc : call.sends = some (dest, assets))
    (hu : ∀ d a f x y, call ≠ .transferUsing d a f x y)
    (hh : ∀ e ∈ assets, OnAssetHub e.1 → dest = ⟨1, [.parachain 1000]⟩)
    (h : xcmCall self dust c o call = .ok (c', os)) :
    ∃ parts, os = parts.map (·.1) ∧ Carries self dest assets parts ∧
      ∀ p ∈ parts, ∀ e ∈ p.2, 0 < e.2 ∧
        (p.1.kind = .deposited → IssuedHere e.1 ∧ p.1.dest = dest) ∧
        (p.1.kind = .withdraw → OwnReserve e.1 p.1.dest) := by
  obtain ⟨who, fee, t, tf, hw, hs, hft⟩ := call_sends hc h
  obtain ⟨s, parts, f, _, hf, h2, h3, h4, _⟩ := sent hs
  obtain ⟨hpos, ht1, ht2⟩ := findTypes_spec (hft hu) hf
  refine ⟨parts, h2, h3, fun p hp e he => ?_⟩
  obtain ⟨g, hg, hge, hgo⟩ := h4 p hp
  rw [← hge] at he
  obtain ⟨hm, hdet⟩ := legs_types hf ht1 ht2 g hg e he
  obtain ⟨_, k2, _, k4⟩ := legOrder_kind hgo
  have hown : ∀ l, isReserve e.1 l = true → (OnAssetHub e.1 → l = ⟨1, [.parachain 1000]⟩) → OwnReserve e.1 l := by
    intro l hl hx
    by_cases hah : OnAssetHub e.1
    · exact .inr ⟨hx hah, .inl hah⟩
    · exact C70_only_own_reserve_partial e.1 l hah hl
  refine ⟨hpos e hm, fun hk => ?_, fun hk => ?_⟩
  · rw [hk] at k2
    have hdep : g.1 = .localReserve := by
      cases hg1 : g.1 <;> rw [hg1] at k2 <;> simp [TransferType.deposits] at k2 ⊢
    rw [hdep] at hdet k4
    constructor
    · unfold determine at hdet
      split at hdet
      · cases hdet
      · split at hdet
        · rename_i hch; exact chain_here hch
        · split at hdet <;> cases hdet
    · rcases k4 with ⟨_, k, _⟩ | ⟨_, _, _, _, k⟩
      · exact k
      · cases k
  · rw [hk] at k2
    unfold determine at hdet
    split at hdet
    · rename_i hr
      rcases k4 with ⟨_, k, _⟩ | ⟨_, _, _, _, k⟩
      · rw [k]; exact hown dest hr (hh e hm)
      · rw [k] at hdet; cases hdet
    · rename_i hnr
      split at hdet
      · simp only [Option.some.injEq] at hdet
        rw [← hdet] at k2
        simp [TransferType.deposits] at k2
      · split at hdet
        · rename_i hr
          simp only [Option.some.injEq] at hdet
          rcases k4 with ⟨_, _, k⟩ | ⟨_, _, _, _, k⟩
          · exact absurd hdet.symm (k _)
          · rw [k] at hdet
            have hcl := TransferType.remoteReserve.inj hdet
            rw [hcl] at hr
            refine hown _ hr fun hah => absurd ?_ hnr
            rw [C70_accepted_iff]
            exact .inr (.inl hah)
        · cases hdet

/-- An account with Tether and the native token. Example for non-vacuity (outside /repo). -/
def alice : AccountId := List.replicate 32 7
/-- A chain where `alice` has them. Example for non-vacuity (outside /repo). -/
def aliceChain : Chain :=
  ⟨⟨[((tetherCur, alice), 1000), ((.native, alice), 5000), ((.asset (.here 7), alice), 90)], fun _ => some 10⟩, [], [], [], []⟩

/-- C129 is false of the code: Tether sent to any sibling, here parachain 2000, is destroyed on Kreivo, and the message to take it
from Kreivo's account goes to that sibling, not to Asset Hub where Kreivo's Tether is kept. -/
theorem C129_asset_hub_assets_fails (self : UInt32) :
    ∃ c', xcmCall self (fun _ => false) aliceChain (.signed alice) (.transfer ⟨1, [.parachain 2000]⟩ [(tether, 100)] 0) =
        .ok (c', [⟨⟨1, [.parachain 2000]⟩, .withdraw, [(tether, 100)], none⟩]) ∧
      c'.ledger.get tetherCur alice = 900 ∧ c'.ledger.supply tetherCur = 900 ∧
      ¬ OwnReserve tether ⟨1, [.parachain 2000]⟩ := by
  refine ⟨_, rfl, rfl, rfl, ?_⟩
  rintro (h | ⟨h, _⟩) <;> revert h <;> decide

/-- A call succeeds with a result like this. Example for non-vacuity (outside /repo). -/
def Tri.meets {α : Type} (r : Tri α) (p : α → Bool) : Bool :=
  match r with
  | .ok a => p a
  | _ => false

/-- Sending the native token to the relay chain and to a sibling, an asset of Kreivo to a sibling, and Tether to Asset Hub. -/
example : (xcmCall 2281 (fun _ => false) aliceChain (.signed alice) (.transfer ⟨1, []⟩ [(⟨1, []⟩, 4995)] 0)).meets
    (fun r => decide (r.1.ledger.get .native alice = 0 ∧ r.1.ledger.supply .native = 0 ∧
        r.2.map (fun o => (o.dest, o.kind, o.assets, o.onward)) = [(⟨1, []⟩, .withdraw, [(⟨0, []⟩, 4995)], none)])) = true := by
  decide +kernel
example : (xcmCall 2281 (fun _ => false) aliceChain (.signed alice)
      (.transfer ⟨1, [.parachain 2000]⟩ [(⟨1, []⟩, 1000)] 0)).meets
    (fun r => decide (r.1.ledger.get .native alice = 4000 ∧
        r.2.map (fun o => (o.dest, o.kind, o.assets, o.onward)) =
          [(⟨1, []⟩, .withdraw, [(⟨0, []⟩, 1000)], some ⟨0, [.parachain 2000]⟩)])) = true := by decide +kernel
example : (xcmCall 2281 (fun _ => true) aliceChain (.signed alice)
      (.reserveTransfer ⟨1, [.parachain 2000]⟩ [(⟨0, [.palletInstance 13, .generalIndex 7]⟩, 85)] 0)).meets
    (fun r => decide (r.1.ledger.get (.asset (.here 7)) alice = 0 ∧
        r.1.ledger.get (.asset (.here 7)) (siblingAccount 2000) = 90 ∧
        r.2.map (fun o => (o.dest, o.kind, o.assets, o.onward)) =
          [(⟨1, [.parachain 2000]⟩, .deposited,
            [(⟨1, [.parachain 2281, .palletInstance 13, .generalIndex 7]⟩, 85)], none)])) = true := by decide +kernel
example : (xcmCall 2281 (fun _ => false) aliceChain (.signed alice)
      (.transfer ⟨1, [.parachain 1000]⟩ [(tether, 300), (⟨0, [.palletInstance 13, .generalIndex 7]⟩, 50)] 0)).meets
    (fun r => decide (r.1.ledger.get tetherCur alice = 700 ∧ r.1.ledger.get (.asset (.here 7)) alice = 40 ∧
        r.2.map (fun o => (o.dest, o.kind, o.assets)) =
          [(⟨1, [.parachain 1000]⟩, .withdraw, [(⟨0, [.palletInstance 50, .generalIndex 1984]⟩, 300)]),
           (⟨1, [.parachain 1000]⟩, .deposited,
            [(⟨1, [.parachain 2281, .palletInstance 13, .generalIndex 7]⟩, 50)])])) = true := by decide +kernel
example : locationToAccount ⟨1, [.parachain 2000]⟩ ≠ some alice ∧ locationToAccount ⟨1, []⟩ ≠ some alice := by decide +kernel

/-! ## C132: calls do not stop the chain -/

/-- The assets a call names. Specification only, no code behind it (outside /repo). -/
def XcmCall.names : XcmCall → List XAsset
  | .execute _ => []
  | .teleport _ assets _ => assets
  | .reserveTransfer _ assets _ => assets
  | .transfer _ assets _ => assets
  | .transferUsing _ assets _ _ _ => assets
  | .claimAssets assets _ => assets

theorem leg_no_panic (ctx : List Junction) (dust : Cur → Bool) (dest : Location) (g : TransferType × List XAsset)
    (hp : ∀ e ∈ g.2, panics e.1 = false) (m : Mach) : complete ctx dust m (legCode dest g.1 g.2) ≠ .panic := by
  have hw : ∀ more, (∀ m', complete ctx dust m' more ≠ .panic) →
      complete ctx dust m (.withdrawAsset g.2 :: more) ≠ .panic := by
    intro more hmore h
    simp only [complete] at h
    split at h
    · exact hmore _ h
    · cases h
    · rename_i h1
      simp only [Mach.effect] at h1
      split at h1
      · cases h1
      · split at h1
        · cases h1
        · cases h1
        · rename_i h2
          exact eachAsset_no_panic _ hp _ h2
  cases hg : g.1 with
  | teleport => simp [legCode, complete]
  | localReserve =>
    intro h
    simp only [legCode, complete] at h
    split at h
    · cases h
    · cases h
    · rename_i h1
      simp only [Mach.effect] at h1
      split at h1
      · cases h1
      · split at h1
        · cases h1
        · cases h1
        · rename_i h2
          exact eachAsset_no_panic _ hp _ h2
  | destinationReserve => exact hw _ fun m' => by simp [complete, Mach.effect]
  | remoteReserve r => exact hw _ fun m' => by simp [complete, Mach.effect]

theorem legs_no_panic (ctx : List Junction) (dust : Cur → Bool) (dest : Location) (gs : List (TransferType × List XAsset))
    (hp : ∀ g ∈ gs, ∀ e ∈ g.2, panics e.1 = false) : ∀ m : Mach,
    complete ctx dust m (gs.flatMap fun g => legCode dest g.1 g.2) ≠ .panic := by
  induction gs with
  | nil => intro m h; cases h
  | cons g gs ih =>
    intro m h
    rw [List.flatMap_cons, complete_append] at h
    split at h
    · exact ih (fun g' hg' => hp g' (List.mem_cons_of_mem _ hg')) _ h
    · cases h
    · rename_i h1
      exact leg_no_panic ctx dust dest g (hp g (by simp)) m h1

theorem send_no_panic (self : UInt32) (dust : Cur → Bool) (c : Chain) (who dest : Location) (assets : List XAsset) (fee : Nat)
    (t tf : TransferType) (hp : ∀ e ∈ assets, panics e.1 = false) :
    sendAssets self dust c who dest assets fee t tf ≠ .panic := by
  intro h
  unfold sendAssets at h
  split at h
  · cases h
  rename_i f hf
  split at h
  · cases h
  split at h
  · cases h
  split at h
  · split at h <;> cases h
  · cases h
  · rename_i h1
    refine legs_no_panic _ _ _ _ ?_ _ h1
    intro g hg e he
    have : e ∈ (legs assets fee f t tf).flatMap fun g => g.2 := List.mem_flatMap.mpr ⟨g, hg, he⟩
    exact hp e ((legs_perm assets fee f t tf hf).subset this)

/-- C132 (partial: all but local assets with an index beyond 32 bits): no call of pallet_xcm stops the chain. -/
theorem C132_never_stops_partial (self : UInt32) (dust : Cur → Bool) (c : Chain) (o : RtOrigin) (call : XcmCall)
    (hp : ∀ e ∈ call.names, ∀ i : BitVec 128, 2 ^ 32 ≤ i.toNat → e.1 ≠ ⟨0, [.palletInstance 13, .generalIndex i]⟩) :
    xcmCall self dust c o call ≠ .panic := by
  have hp' : ∀ e ∈ call.names, panics e.1 = false := by
    intro e he
    rw [Bool.eq_false_iff]
    intro hx
    obtain ⟨i, hi, hl⟩ := (C107_which_ids e.1).mp hx
    exact hp e he i hi hl
  clear hp
  intro h
  unfold xcmCall at h
  split at h
  · cases h
  cases call with
  | execute msg => cases h
  | teleport d a f => cases h
  | reserveTransfer d a f =>
    dsimp only at h
    split at h
    · split at h
      · exact send_no_panic _ _ _ _ _ _ _ _ _ hp' h
      · cases h
    · cases h
  | transfer d a f =>
    dsimp only at h
    split at h
    · exact send_no_panic _ _ _ _ _ _ _ _ _ hp' h
    · cases h
  | transferUsing d a f x y => exact send_no_panic _ _ _ _ _ _ _ _ _ hp' h
  | claimAssets a b =>
    dsimp only at h
    split at h
    · cases h
    · cases h
    · rename_i h1
      simp only [complete] at h1
      split at h1
      · rename_i m hm
        split at h1
        · cases h1
        · cases h1
        · rename_i h2
          have hsafe : SafeHold m.holding := by
            simp only [Mach.effect, Mach.start] at hm
            split at hm
            · cases hm
            · cases hm
              exact subsume_safe a (fun l hl => sumAt_safe hp' l hl) _ fun l _ => rfl
          simp only [Mach.effect, depositAll] at h2
          have hno := taken_safe hsafe (VFilter.wanted (.counted a.length) m.holding
            (fate (universalLocation self) dust (.depositAsset (.counted a.length) b)).pick)
          rw [if_neg] at h2
          · split at h2
            · cases h2
            · cases h2
            · rename_i h3
              exact eachAsset_no_panic _ hno _ h3
          · rw [List.any_eq_true]
            rintro ⟨e, he, hx⟩
            rw [hno e he] at hx
            cases hx
      · cases h1
      · rename_i h2
        simp only [Mach.effect, Mach.start] at h2
        split at h2 <;> cases h2

/-- C132 is false of the code: any account, owning nothing, stops the chain by sending an asset of Kreivo with an index beyond 32
bits to a sibling. -/
theorem C132_any_account_stops_the_chain_fails (self id : UInt32) (dust : Cur → Bool) (c : Chain) (a : AccountId)
    (i : BitVec 128) (hi : 2 ^ 32 ≤ i.toNat) (n : Nat) (hn : 0 < n) :
    xcmCall self dust c (.signed a)
      (.transfer ⟨1, [.parachain id]⟩ [(⟨0, [.palletInstance 13, .generalIndex i]⟩, n)] 0) = .panic := by
  have hpan : matchAsset ⟨0, [.palletInstance 13, .generalIndex i]⟩ = .panic := by
    have := (C107_which_ids ⟨0, [.palletInstance 13, .generalIndex i]⟩).mpr ⟨i, hi, rfl⟩
    unfold panics at this
    split at this
    · assumption
    · cases this
  have hd : determine ⟨0, [.palletInstance 13, .generalIndex i]⟩ ⟨1, [.parachain id]⟩ = some .localReserve := by
    unfold determine
    have hch : chainLocation ⟨0, [.palletInstance 13, .generalIndex i]⟩ = ⟨0, []⟩ := rfl
    rw [if_neg, if_pos hch]
    rw [C70_accepted_iff]
    rintro (h | ⟨h, _⟩ | ⟨_, h, _⟩) <;> simp at h
  have hf : findTypes ⟨1, [.parachain id]⟩ [(⟨0, [.palletInstance 13, .generalIndex i]⟩, n)] 0 =
      some (.localReserve, .localReserve) := by
    have h0 : (n == 0) = false := by simp; omega
    simp [findTypes, h0, hd]
  have hr : ∃ os, ordersOf (universalLocation self) ⟨1, [.parachain id]⟩ ⟨0, [.palletInstance 13, .generalIndex i]⟩
      [(.localReserve, [(⟨0, [.palletInstance 13, .generalIndex i]⟩, n)])] = some os := ⟨_, rfl⟩
  obtain ⟨os, hr⟩ := hr
  have hc : canExecuteXcm (.signed a) = some ⟨0, [.accountId32 relayNetwork a]⟩ := rfl
  unfold xcmCall
  rw [hc]
  dsimp only
  rw [hf]
  dsimp only
  simp only [sendAssets, List.getElem?_cons_zero, legs, if_true, hr, List.flatMap_cons, List.flatMap_nil, List.append_nil,
    legCode, complete, Mach.effect, Mach.start, eachAsset, hpan]
  simp [TransferType.isRemote]

/-! ## C133: trapped assets are got back -/

theorem deposits_exact {who : Location} (as : List XAsset) : ∀ {a a' : Acc}, eachAsset (depositTo who) a as = .ok a' →
    a'.1.minBal = a.1.minBal ∧
    ∀ k b, a'.1.get k b = a.1.get k b + if locationToAccount who = some b then sumAt as k.location else 0 := by
  induction as with
  | nil =>
    intro a a' h
    cases h
    exact ⟨rfl, fun k b => by simp [sumAt]⟩
  | cons e as ih =>
    intro a a' h
    obtain ⟨l, n⟩ := e
    simp only [eachAsset] at h
    split at h
    · cases h
    · cases h
    · rename_i c hc
      split at h
      · cases h
      · rename_i a1 h1
        unfold depositTo at h1
        split at h1
        · cases h1
        · rename_i acct hacct
          rw [Option.map_eq_some_iff] at h1
          obtain ⟨L, hL, e⟩ := h1
          cases e
          obtain ⟨e1, e2⟩ := deposit_exact hL
          obtain ⟨i1, i2⟩ := ih h
          refine ⟨i1.trans e1, fun k b => ?_⟩
          rw [i2, e2, sumAt_cons_cur hc]
          by_cases hb : acct = b
          · subst hb
            by_cases hk : c = k
            · subst hk; simp only [hacct, and_self, if_true]; omega
            · have hk' : ¬ k = c := fun h => hk h.symm
              simp only [hacct, hk, hk', false_and, if_true, if_false]; omega
          · have hb' : ¬ b = acct := fun h => hb h.symm
            simp only [hacct, hb', and_false, Option.some.injEq, hb, if_false]

theorem claim_split {o : Location} {as : List XAsset} : ∀ {ts us : List (Location × Hold)}, claim o as ts = some us →
    ∃ pre h post, ts = pre ++ (o, h) :: post ∧ us = pre ++ post ∧ ∀ l, amt h l = sumAt as l := by
  intro ts
  induction ts with
  | nil => intro us h; cases h
  | cons t ts ih =>
    intro us h
    obtain ⟨x, hx⟩ := t
    unfold claim at h
    split at h
    · rename_i hc
      cases h
      dsimp only at hc
      obtain ⟨rfl, hsame⟩ := hc
      exact ⟨[], hx, ts, rfl, rfl, (sameAssets_iff _ _).mp hsame⟩
    · rw [Option.map_eq_some_iff] at h
      obtain ⟨us', h, rfl⟩ := h
      obtain ⟨pre, g, post, rfl, rfl, e⟩ := ih h
      exact ⟨(x, hx) :: pre, g, post, rfl, rfl, e⟩

/-- C133: claiming assets takes one trap of the caller, with exactly the assets claimed, and pays exactly them to the
beneficiary; nothing else changes and nothing is sent. -/
theorem C133_claim_exact (self : UInt32) (dust : Cur → Bool) (c c' : Chain) (o : RtOrigin) (assets : List XAsset)
    (beneficiary : Location) (os : List Order) (hmax : ∀ t ∈ c.traps, ∀ l, amt t.2 l ≤ amountMax)
    (h : xcmCall self dust c o (.claimAssets assets beneficiary) = .ok (c', os)) :
    ∃ who pre held post, canExecuteXcm o = some who ∧ os = [] ∧
      c.traps = pre ++ (who, held) :: post ∧ c'.traps = pre ++ post ∧ (∀ l, amt held l = sumAt assets l) ∧
      (∀ k b, c'.ledger.get k b =
        c.ledger.get k b + if locationToAccount beneficiary = some b then sumAt assets k.location else 0) ∧
      c'.received = c.received ∧ ∀ l, amt c'.minted l = amt c.minted l := by
  unfold xcmCall at h
  split at h
  · cases h
  rename_i who hw
  dsimp only at h
  split at h
  · rename_i m hm
    cases h
    simp only [complete] at hm
    split at hm
    · rename_i m1 h1
      split at hm
      · rename_i m2 h2
        cases hm
        simp only [Mach.effect, Mach.start] at h1
        split at h1
        · cases h1
        rename_i ts hts
        cases h1
        obtain ⟨pre, held, post, e1, e2, e3⟩ := claim_split hts
        have hroom : ∀ l, sumAt assets l ≤ amountMax := by
          intro l
          rw [← e3 l]
          exact hmax (who, held) (by rw [e1]; simp) l
        generalize hm0 : (⟨who, some who, [], [], [], [], [], { c with traps := ts }⟩ : Mach) = m0 at h2
        obtain ⟨s1, s2, s3, s4, s5, s6, s7, s8, s9, s10⟩ := subsume_spec assets m0
        have hminted := subsume_minted assets m0
        have hhold : ∀ l, amt (m0.subsume assets).holding l = sumAt assets l := by
          intro l
          rw [subsume_room assets m0 (fun l => by rw [← hm0]; simpa [amt, aget] using hroom l) l, ← hm0]
          simp [amt, aget]
        generalize hms : m0.subsume assets = ms at *
        simp only [Mach.effect, fate] at h2
        have hall : VFilter.wanted (.counted assets.length) ms.holding (fun _ => true) =
            VFilter.all.wanted ms.holding fun _ => true := by simp [VFilter.wanted]
        rw [hall] at h2
        split at h2
        · rename_i a ha
          cases h2
          have hI : Idle who (Mach.setAcc { ms with holding := (takeList ms.holding
              (VFilter.all.wanted ms.holding fun _ => true)).2 } a) := by
            refine ⟨?_, fun l => takeAll_rest _ _ l, ?_⟩
            · show ms.origin = _
              rw [s2, ← hm0]
            · show ms.paid = _
              rw [s3, ← hm0]
          obtain ⟨f1, f2, f3, f4⟩ := finish_idle hI
          refine ⟨who, pre, held, post, hw, rfl, e1, ?_, e3, fun k b => ?_, ?_, fun l => ?_⟩
          · rw [f2]
            show ms.chain.traps = _
            rw [s8, ← hm0, ← e2]
          · rw [f1]
            show a.1.get k b = _
            unfold depositAll at ha
            split at ha
            · cases ha
            rw [(deposits_exact _ ha).2 k b]
            have hs : sumAt (takeList ms.holding (VFilter.all.wanted ms.holding fun _ => true)).1 k.location =
                sumAt assets k.location := by
              have h1 := takeList_spec (VFilter.all.wanted ms.holding fun _ => true) ms.holding k.location
              rw [takeAll_rest, hhold] at h1
              omega
            rw [hs]
            show ms.chain.ledger.get k b + _ = _
            rw [s7, ← hm0]
          · rw [f3]
            show ms.chain.received = _
            rw [s9, ← hm0]
          · rw [f4]
            show amt ms.chain.minted l = _
            rw [hminted, ← hm0]
        · cases h2
        · cases h2
      · cases hm
      · cases hm
    · cases hm
    · cases hm
  · cases h
  · cases h

theorem taken_whole (h0 : Hold) (w : List XAsset) : ∀ (h : Hold), (∀ l, amt h l = amt h0 l ∨ amt h l = 0) →
    (∀ e ∈ w, e.2 = amt h0 e.1) → ∀ e ∈ (takeList h w).1, e.2 = amt h0 e.1 := by
  induction w with
  | nil => intro h _ _ e he; simp [takeList] at he
  | cons a w ih =>
    intro h hh hw e he
    obtain ⟨l, n⟩ := a
    have hn : n = amt h0 l := hw (l, n) (by simp)
    have hmin : Nat.min n (amt h l) = min n (amt h l) := rfl
    have hrest : ∀ e ∈ (takeList (aset h l (amt h l - Nat.min n (amt h l))) w).1, e.2 = amt h0 e.1 := by
      refine ih _ (fun k => ?_) (fun e he => hw e (List.mem_cons_of_mem _ he))
      rw [amt_aset]
      split
      · right
        rcases hh l with h1 | h1 <;> omega
      · exact hh k
    simp only [takeList] at he
    split at he
    · exact hrest e he
    · rename_i hz
      rcases List.mem_cons.mp he with rfl | he
      · dsimp only
        rcases hh l with h1 | h1 <;> omega
      · exact hrest e he

theorem deposits_work {who : Location} {b : AccountId} (hb : locationToAccount who = some b) (whole : Location → Nat)
    (as : List XAsset) : ∀ (a : Acc), (∀ e ∈ as, 0 < e.2 ∧ e.2 = whole e.1) →
      (∀ e ∈ as, ∃ k least, matchAsset e.1 = .cur k ∧ a.1.minBal k = some least ∧ least ≤ a.1.get k b + whole e.1) →
      (∀ k : Cur, a.1.get k b + sumAt as k.location ≤ amountMax) → ∃ a', eachAsset (depositTo who) a as = .ok a' := by
  induction as with
  | nil => intro a _ _ _; exact ⟨a, rfl⟩
  | cons e as ih =>
    intro a hpos hmatch hmax
    obtain ⟨l, n⟩ := e
    obtain ⟨k, least, hk, hl, hle⟩ := hmatch (l, n) (by simp)
    obtain ⟨hn, hnw⟩ := hpos (l, n) (by simp)
    dsimp only at hk hle hn hnw
    have hfit := hmax k
    rw [sumAt_cons_cur hk, if_pos rfl] at hfit
    have hdep : a.1.deposit k b n = some (a.1.set k b (a.1.get k b + n)) := by
      unfold XLedger.deposit
      rw [if_neg (by omega), hl]
      dsimp only
      rw [if_neg (by omega), if_neg (by omega)]
    have hone : depositTo who a k n = some (a.1.set k b (a.1.get k b + n), a.2) := by
      unfold depositTo
      rw [hb]
      dsimp only
      rw [hdep]
      rfl
    simp only [eachAsset, hk, hone]
    refine ih _ (fun e he => hpos e (List.mem_cons_of_mem _ he)) (fun e he => ?_) fun k' => ?_
    · obtain ⟨k', least', h1, h2, h3⟩ := hmatch e (List.mem_cons_of_mem _ he)
      refine ⟨k', least', h1, h2, ?_⟩
      dsimp only
      rw [get_set]
      split
      · rename_i hkk; rw [hkk.1] at h3; omega
      · exact h3
    · have := hmax k'
      rw [sumAt_cons_cur hk] at this
      dsimp only
      rw [get_set]
      by_cases hkk : k' = k
      · subst hkk; simp only [and_self, if_true] at this ⊢; omega
      · have hkk' : ¬ k = k' := fun h => hkk h.symm
        simp only [hkk, hkk', false_and, if_false] at this ⊢
        omega

/-- C133: an account or a community gets back everything trapped under its name, if the beneficiary's account can hold it. -/
theorem C133_claimable (self : UInt32) (dust : Cur → Bool) (c : Chain) (o : RtOrigin) (who beneficiary : Location)
    (b : AccountId) (held : Hold) (hw : canExecuteXcm o = some who) (ht : (who, held) ∈ c.traps)
    (hb : locationToAccount beneficiary = some b)
    (hknown : ∀ l, 0 < amt held l → ∃ k least, matchAsset l = .cur k ∧ c.ledger.minBal k = some least ∧
      least ≤ c.ledger.get k b + amt held l)
    (hmax : ∀ l, amt held l ≤ amountMax)
    (hfit : ∀ k : Cur, c.ledger.get k b + amt held k.location ≤ amountMax) :
    ∃ c', xcmCall self dust c o (.claimAssets (contents held) beneficiary) = .ok (c', []) := by
  obtain ⟨us, hus⟩ := claim_found c.traps ht
  have hsum : ∀ l, sumAt (contents held) l = amt held l := contents_sum held
  generalize hm0 : (⟨who, some who, [], [], [], [], [], { c with traps := us }⟩ : Mach) = m0
  have heff : (Mach.start c who []).effect (fate (universalLocation self) dust (.claimAsset (contents held)))
      (.claimAsset (contents held)) = .ok (m0.subsume (contents held)) := by
    simp only [Mach.effect, Mach.start, hus]
    rw [← hm0]
  obtain ⟨s1, s2, s3, s4, s5, s6, s7, s8, s9, s10⟩ := subsume_spec (contents held) m0
  have hhold : ∀ l, amt (m0.subsume (contents held)).holding l = amt held l := by
    intro l
    rw [subsume_room (contents held) m0 (fun l => by rw [← hm0]; simpa [amt, aget, hsum] using hmax l) l, ← hm0, hsum]
    simp [amt, aget]
  generalize hms : m0.subsume (contents held) = ms at *
  have hall : VFilter.wanted (.counted (contents held).length) ms.holding (fun _ => true) =
      VFilter.all.wanted ms.holding fun _ => true := by simp [VFilter.wanted]
  generalize htk : takeList ms.holding (VFilter.all.wanted ms.holding fun _ => true) = tk
  have hwhole : ∀ e ∈ tk.1, 0 < e.2 ∧ e.2 = amt held e.1 := by
    intro e he
    rw [← htk] at he
    refine ⟨(takeList_pos _ _ e he).1, ?_⟩
    rw [← hhold e.1]
    refine taken_whole ms.holding _ ms.holding (fun l => .inl rfl) ?_ e he
    intro e' he'
    simp only [VFilter.wanted, List.mem_map] at he'
    obtain ⟨x, _, rfl⟩ := he'
    rfl
  have hled : ms.chain.ledger = c.ledger := by rw [s7, ← hm0]
  have hdep : ∃ a, depositAll beneficiary ms.acc tk.1 = .ok a := by
    unfold depositAll
    rw [if_neg]
    · refine deposits_work hb (amt held) tk.1 ms.acc hwhole (fun e he => ?_) fun k => ?_
      · have := hwhole e he
        obtain ⟨k, least, h1, h2, h3⟩ := hknown e.1 (by omega)
        refine ⟨k, least, h1, ?_, ?_⟩
        · show ms.chain.ledger.minBal k = _
          rw [hled]; exact h2
        · show _ ≤ ms.chain.ledger.get k b + _
          rw [hled]; exact h3
      · have h1 := takeList_spec (VFilter.all.wanted ms.holding fun _ => true) ms.holding k.location
        rw [htk, hhold] at h1
        have h2 := hfit k
        show ms.chain.ledger.get k b + _ ≤ _
        rw [hled]
        omega
    · rw [List.any_eq_true]
      rintro ⟨e, he, hx⟩
      have := hwhole e he
      obtain ⟨k, _, h1, _⟩ := hknown e.1 (by omega)
      unfold panics at hx
      rw [h1] at hx
      cases hx
  obtain ⟨a, ha⟩ := hdep
  refine ⟨(Mach.setAcc { ms with holding := tk.2 } a).finish ⟨[], 0⟩, ?_⟩
  unfold xcmCall
  rw [hw]
  dsimp only
  have hc : complete (universalLocation self) dust (Mach.start c who [])
      [.claimAsset (contents held), .depositAsset (.counted (contents held).length) beneficiary] =
      .ok (Mach.setAcc { ms with holding := tk.2 } a) := by
    simp only [complete]
    rw [heff]
    dsimp only
    have : ms.effect (fate (universalLocation self) dust (.depositAsset (.counted (contents held).length) beneficiary))
        (.depositAsset (.counted (contents held).length) beneficiary) = .ok (Mach.setAcc { ms with holding := tk.2 } a) := by
      simp only [Mach.effect, fate, hall, htk, ha]
    rw [this]
  rw [hc]

/-- A chain with a trap of `alice`. Example for non-vacuity (outside /repo). -/
def trapChain : Chain :=
  { aliceChain with traps := [(⟨1, [.parachain 2000]⟩, [(tether, 5)]), (⟨0, [.accountId32 (some .kusama) alice]⟩, [(tether, 40), (⟨1, []⟩, 20)])] }
example : (xcmCall 2281 (fun _ => false) trapChain (.signed alice)
      (.claimAssets [(tether, 40), (⟨1, []⟩, 20)] ⟨0, [.accountId32 none alice]⟩)).meets
    (fun r => decide (r.1.ledger.get tetherCur alice = 1040 ∧ r.1.ledger.get .native alice = 5020 ∧
      r.1.traps = [(⟨1, [.parachain 2000]⟩, [(tether, 5)])])) = true := by decide +kernel
/-- Not the trap of somebody else. -/
example : (xcmCall 2281 (fun _ => false) trapChain (.signed alice)
      (.claimAssets [(tether, 5)] ⟨0, [.accountId32 none alice]⟩)).meets (fun _ => true) = false := by decide +kernel

end Verif.Xcm
