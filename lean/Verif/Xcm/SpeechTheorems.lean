import Verif.Xcm.Speech
import Verif.Accounts.Theorems

/-!
# Nobody speaks for Kreivo on other chains (C214)
-/

namespace Verif.Xcm

open Verif Verif.Runtime Verif.Accounts

/-! ## Specification -/

/-- Instructions that bring assets along, pay for the execution with them, or give the origin up; the answer to a question and
the questions about versions. Specification only, no code behind it (outside /repo). -/
def Modest (i : VInstr) : Prop :=
  (∃ as, i = .withdrawAsset as ∨ i = .reserveAssetDeposited as ∨ i = .receiveTeleportedAsset as) ∨
  (∃ fee limit, i = .buyExecution fee limit) ∨ i = .clearOrigin ∨
  i = .plain .queryResponse ∨ i = .plain .subscribeVersion ∨ i = .plain .unsubscribeVersion

/-- What a location can turn into on a chain: something inside it, or what that chain lets it pass for. Specification only,
no code behind it (outside /repo). -/
inductive TurnsInto (H : Host) (l : Location) : Location → Prop
  | same : TurnsInto H l l
  | inside (m : Location) (who : List Junction) (h : TurnsInto H l m) : TurnsInto H l ⟨m.parents, m.interior ++ who⟩
  | passes (m t : Location) (h : TurnsInto H l m) (ha : H.aliases m t = true) : TurnsInto H l t
  | universal (m t : Location) (j : Junction) (h : TurnsInto H l m) (hu : H.universal m j = some t) : TurnsInto H l t

/-- A plurality of a community. Specification only, no code behind it (outside /repo). -/
def CommunityPlace (c : UInt16) (js : List Junction) : Prop := ∃ part, js = [.plurality (.index (u16ToU32 c)) part]

/-! ## Without an origin -/

theorem earEffect_none (H : Host) {e e' : Ear} (h0 : e.origin = none) (i : VInstr) (h : e.effect H i = some e') :
    e'.origin = none := by
  unfold Ear.effect at h
  split at h <;> first
    | (cases h; first | rfl | exact h0)
    | (rw [h0] at h; cases h)

theorem earFailed_origin (e : Ear) : e.failed.origin = e.origin := by
  unfold Ear.failed; split <;> rfl

theorem earStep_none (H : Host) {e : Ear} (h0 : e.origin = none) (b : Bool) :
    (∀ x ∈ (e.step H b).1, x.1 = none) ∧ (e.step H b).2.origin = none := by
  unfold Ear.step
  split
  · exact ⟨by simp, h0⟩
  · refine ⟨by simp [h0], ?_⟩
    dsimp only
    split
    · rw [earFailed_origin]; exact h0
    · split
      · rename_i h; exact earEffect_none H (by exact h0) _ h
      · rw [earFailed_origin]; exact h0

theorem earRun_none (H : Host) (fails : List Bool) : ∀ {e : Ear}, e.origin = none → ∀ x ∈ e.run H fails, x.1 = none := by
  induction fails with
  | nil => intro e _ x hx; cases hx
  | cons b bs ih =>
    intro e h0 x hx
    rw [Ear.run, List.mem_append] at hx
    rcases hx with hx | hx
    · exact (earStep_none H h0 b).1 x hx
    · exact ih (earStep_none H h0 b).2 x hx

theorem earRun_empty (H : Host) (fails : List Bool) (o : Option Location) : Ear.run H ⟨o, [], [], []⟩ fails = [] := by
  induction fails with
  | nil => rfl
  | cons b bs ih => rw [Ear.run]; simpa [Ear.step] using ih

/-- Instructions that leave the registers alone. -/
def Still (i : VInstr) : Prop := ∀ (H : Host) (e : Ear), e.effect H i = some e

theorem earRun_head (H : Host) (us : Location) (tail : List VInstr) (fails : List Bool) :
    ∀ head : List VInstr, (∀ i ∈ head, Still i) →
      ∃ k rest, Ear.run H ⟨some us, head ++ .clearOrigin :: tail, [], []⟩ fails =
          ((head ++ [VInstr.clearOrigin]).take k).map (fun i => (some us, i)) ++ rest ∧
        (∀ x ∈ rest, x.1 = none) ∧ (rest ≠ [] → head.length < k) := by
  induction fails with
  | nil => intro head _; exact ⟨0, [], rfl, by simp, by simp⟩
  | cons b bs ih =>
    intro head hs
    cases head with
    | nil =>
      refine ⟨1, Ear.run H (Ear.step H ⟨some us, .clearOrigin :: tail, [], []⟩ b).2 bs, ?_, ?_, by simp⟩
      · rw [List.nil_append, Ear.run]; rfl
      · cases b with
        | true =>
          have : (Ear.step H ⟨some us, .clearOrigin :: tail, [], []⟩ true).2 = ⟨some us, [], [], []⟩ := rfl
          rw [this, earRun_empty]; simp
        | false => exact earRun_none H bs rfl
    | cons i head =>
      cases b with
      | true =>
        refine ⟨1, [], ?_, by simp, by simp⟩
        rw [List.cons_append, Ear.run]
        have : (Ear.step H ⟨some us, i :: (head ++ .clearOrigin :: tail), [], []⟩ true).2 = ⟨some us, [], [], []⟩ := rfl
        rw [this, earRun_empty]; rfl
      | false =>
        obtain ⟨k, rest, e, h1, h2⟩ := ih head (fun j hj => hs j (List.mem_cons_of_mem _ hj))
        refine ⟨k + 1, rest, ?_, h1, fun h => by have := h2 h; simp; omega⟩
        rw [List.cons_append, Ear.run]
        have : (Ear.step H ⟨some us, i :: (head ++ .clearOrigin :: tail), [], []⟩ false).2 =
            ⟨some us, head ++ .clearOrigin :: tail, [], []⟩ := by
          unfold Ear.step
          simp only [Bool.false_eq_true, if_false]
          rw [hs i (List.mem_cons_self ..)]
        rw [this, e]; rfl

/-! ## With one -/

theorem earRun_turns (H : Host) (l : Location) (fails : List Bool) :
    ∀ {e : Ear}, (∀ m, e.origin = some m → TurnsInto H l m) →
      ∀ x ∈ e.run H fails, ∀ m, x.1 = some m → TurnsInto H l m := by
  induction fails with
  | nil => intro e _ x hx; cases hx
  | cons b bs ih =>
    intro e h0 x hx
    rw [Ear.run, List.mem_append] at hx
    have hstep : (∀ x ∈ (e.step H b).1, x.1 = e.origin) ∧
        ∀ m, (e.step H b).2.origin = some m → TurnsInto H l m := by
      unfold Ear.step
      split
      · exact ⟨by simp, h0⟩
      · refine ⟨by simp, fun m hm => ?_⟩
        dsimp only at hm
        split at hm
        · rw [earFailed_origin] at hm; exact h0 m hm
        · split at hm
          · rename_i e' he
            unfold Ear.effect at he
            split at he
            · cases he; cases hm
            · split at he
              · cases he
              · rename_i l0 ho
                rw [Option.map_eq_some_iff] at he
                obtain ⟨l', ha, rfl⟩ := he
                cases hm
                unfold Location.append at ha
                split at ha
                · cases ha; exact .inside _ _ (h0 _ ho)
                · cases ha
            · split at he
              · cases he
              · rename_i l0 ho
                rw [Option.map_eq_some_iff] at he
                obtain ⟨l', ha, rfl⟩ := he
                cases hm
                exact .universal _ _ _ (h0 _ ho) ha
            · split at he
              · cases he
              · rename_i l0 ho
                split at he
                · rename_i ha; cases he; cases hm; exact .passes _ _ (h0 _ ho) ha
                · cases he
            all_goals (cases he; exact h0 m hm)
          · rw [earFailed_origin] at hm; exact h0 m hm
    rcases hx with hx | hx
    · intro m hm; rw [hstep.1 x hx] at hm; exact h0 m hm
    · exact ih hstep.2 x hx

/-! ## The messages -/

/-- Either a community's message, or assets and then nothing with an origin, or one modest instruction. -/
theorem departs_shape {self : UInt32} {goal : Location} {out : List VInstr} (h : Departs self goal out) :
    (∃ o msg l, canSendXcm o = some ⟨0, l⟩ ∧ l ≠ [] ∧ out = .descendOrigin l :: msg) ∨
    (∃ head tail, out = head ++ .clearOrigin :: tail ∧ (∀ i ∈ head, Still i ∧ Modest i)) ∨
    (∃ i, out = [i] ∧ Still i ∧ Modest i) := by
  have buy : ∀ f w, Still (.buyExecution f w) ∧ Modest (.buyExecution f w) :=
    fun f w => ⟨fun _ _ => rfl, Or.inr (Or.inl ⟨f, w, rfl⟩)⟩
  have load : ∀ o : Order, Still o.load ∧ Modest o.load := by
    intro o
    unfold Order.load
    split
    · exact ⟨fun _ _ => rfl, Or.inl ⟨_, Or.inl rfl⟩⟩
    · exact ⟨fun _ _ => rfl, Or.inl ⟨_, Or.inr (Or.inl rfl)⟩⟩
  have query : Still (.plain .queryResponse) ∧ Modest (.plain .queryResponse) :=
    ⟨fun _ _ => rfl, Or.inr (Or.inr (Or.inr (Or.inl rfl)))⟩
  cases h with
  | said o dest _ msg _ h =>
    unfold sendMessage at h
    split at h
    · cases h
    · rename_i l hl
      split at h
      · rename_i hp
        cases h
        have e : l = ⟨0, l.interior⟩ := by cases l; simp only [Location.mk.injEq, and_true]; exact hp.1
        have hne : l.interior ≠ [] := by
          intro h0
          rw [e, h0] at hl
          unfold canSendXcm communityToLocation signedToPlurality at hl
          cases o with
          | community x => simp [Option.map_eq_some_iff] at hl
          | signed a => revert hl; simp only [Option.none_or]; split <;> simp [Option.map_eq_some_iff]
          | _ => simp at hl
        rw [if_neg hne]
        exact Or.inl ⟨o, msg, l.interior, by rw [← e]; exact hl, hne, rfl⟩
      · cases h
  | goods dust c c' o call os fee limit custom _ _ h hm =>
    refine Or.inr (Or.inl ?_)
    unfold orderMessage at hm
    split at hm
    · cases hm
    · rw [List.mem_singleton] at hm; cases hm
      rename_i o1
      exact ⟨[o1.load], _, rfl, by simpa using load o1⟩
    · rw [List.mem_singleton] at hm; cases hm
      rename_i f o1 _
      refine ⟨[f.load, .buyExecution fee limit, o1.load], _, rfl, ?_⟩
      intro i hi
      simp only [List.mem_cons, List.not_mem_nil, or_false] at hi
      rcases hi with rfl | rfl | rfl
      exacts [load f, buy _ _, load o1]
  | passed i named inner answerTo _ _ h =>
    unfold forwards at h
    have loads : ∀ j as tail, (j = .withdrawAsset as ∨ j = .reserveAssetDeposited as ∨ j = .receiveTeleportedAsset as) →
        ∃ head tail', j :: .clearOrigin :: tail = head ++ .clearOrigin :: tail' ∧ ∀ i ∈ head, Still i ∧ Modest i := by
      intro j as tail hj
      refine ⟨[j], tail, rfl, fun i hi => ?_⟩
      rw [List.mem_singleton] at hi
      subst hi
      refine ⟨?_, Or.inl ⟨as, hj⟩⟩
      rcases hj with rfl | rfl | rfl <;> exact fun _ _ => rfl
    split at h
    · cases h; exact Or.inr (Or.inl (loads _ _ _ (Or.inr (Or.inl rfl))))
    · cases h; exact Or.inr (Or.inl (loads _ _ _ (Or.inr (Or.inl rfl))))
    · cases h; exact Or.inr (Or.inl (loads _ _ _ (Or.inl rfl)))
    · cases h; exact Or.inr (Or.inl (loads _ _ _ (Or.inr (Or.inr rfl))))
    all_goals first | (cases h; exact Or.inr (Or.inr ⟨_, rfl, query⟩)) | cases h
  | own i _ h =>
    refine Or.inr (Or.inr ⟨_, rfl, ?_⟩)
    rcases h with rfl | rfl | rfl
    · exact ⟨fun _ _ => rfl, by unfold Modest; simp⟩
    · exact ⟨fun _ _ => rfl, by unfold Modest; simp⟩
    · exact query

/-! ## C214 -/

/-- C214: whatever message leaves Kreivo, and whatever chain it reaches, in whatever way it fails there: all that is taken up
in the name of Kreivo itself is to bring assets along, to pay with them, to give that name up, to answer or ask about versions, or
to go on in the name of a community that is sending it. -/
theorem C214_modest {self : UInt32} {goal : Location} {out : List VInstr} (h : Departs self goal out) (H : Host)
    (us : Location) (fails : List Bool) :
    (∃ o c js msg, canSendXcm o = some ⟨0, js⟩ ∧ CommunityPlace c js ∧ out = .descendOrigin js :: msg ∧
      (heard H us out fails = [] ∨ ∃ rest, heard H us out fails = (some us, .descendOrigin js) :: rest ∧
        ∀ x ∈ rest, ∀ m, x.1 = some m → TurnsInto H ⟨us.parents, us.interior ++ js⟩ m)) ∨
    (∃ pre rest, heard H us out fails = pre ++ rest ∧ (∀ x ∈ pre, x.1 = some us ∧ Modest x.2) ∧
      ∀ x ∈ rest, x.1 = none) := by
  rcases departs_shape h with ⟨o, msg, js, hc, hne, rfl⟩ | ⟨head, tail, rfl, hh⟩ | ⟨i, rfl, hs, hm⟩
  · left
    have hplace : ∃ c, CommunityPlace c js := by
      unfold canSendXcm communityToLocation signedToPlurality at hc
      cases o with
      | community x =>
        simp only [Option.or_none, Option.map_eq_some_iff] at hc
        obtain ⟨j, hj, e⟩ := hc
        cases e
        refine ⟨x.community, ?_⟩
        unfold originToJunction at hj
        split at hj <;> first | (cases hj; exact ⟨_, rfl⟩) | cases hj
      | signed a =>
        simp only [Option.none_or] at hc
        split at hc
        · rename_i p c _
          simp only [originToJunction, Option.map_some, Option.some.injEq, Location.mk.injEq, true_and] at hc
          exact ⟨c, _, hc.symm⟩
        · cases hc
      | _ => simp at hc
    obtain ⟨c, hplace⟩ := hplace
    refine ⟨o, c, js, msg, hc, hplace, rfl, ?_⟩
    cases fails with
    | nil => exact Or.inl rfl
    | cons b bs =>
      right
      unfold heard
      rw [Ear.run]
      refine ⟨_, rfl, ?_⟩
      cases b with
      | true =>
        have : (Ear.step H ⟨some us, .descendOrigin js :: msg, [], []⟩ true).2 = ⟨some us, [], [], []⟩ := rfl
        rw [this, earRun_empty]; simp
      | false =>
        cases ha : us.append js with
        | none =>
          have : (Ear.step H ⟨some us, .descendOrigin js :: msg, [], []⟩ false).2 = ⟨some us, [], [], []⟩ := by
            unfold Ear.step
            simp [Ear.effect, ha, Ear.failed]
          rw [this, earRun_empty]; simp
        | some l =>
          have : (Ear.step H ⟨some us, .descendOrigin js :: msg, [], []⟩ false).2 = ⟨some l, msg, [], []⟩ := by
            unfold Ear.step
            simp [Ear.effect, ha]
          rw [this]
          have el : l = ⟨us.parents, us.interior ++ js⟩ := by
            unfold Location.append at ha; split at ha
            · cases ha; rfl
            · cases ha
          apply earRun_turns
          intro m hm
          cases hm
          rw [el]; exact .same
  · right
    obtain ⟨k, rest, e, h1, _⟩ := earRun_head H us tail fails head (fun i hi => (hh i hi).1)
    refine ⟨_, rest, e, ?_, h1⟩
    intro x hx
    rw [List.mem_map] at hx
    obtain ⟨i, hi, rfl⟩ := hx
    refine ⟨rfl, ?_⟩
    have := List.mem_of_mem_take hi
    rw [List.mem_append, List.mem_singleton] at this
    rcases this with h2 | rfl
    · exact (hh i h2).2
    · exact Or.inr (Or.inr (Or.inl rfl))
  · right
    cases fails with
    | nil => exact ⟨[], [], rfl, by simp, by simp⟩
    | cons b bs =>
      refine ⟨[(some us, i)], [], ?_, by simpa using hm, by simp⟩
      unfold heard
      rw [Ear.run]
      have : (Ear.step H ⟨some us, [i], [], []⟩ b).2 = ⟨some us, [], [], []⟩ := by
        unfold Ear.step
        cases b with
        | true => rfl
        | false => simp only [Bool.false_eq_true, if_false]; rw [hs]
      rw [this, earRun_empty]; rfl

/-- C214: what the sender of assets, or another chain whose message is passed on, wants done with them is taken up in nobody's
name: everything after the assets, their fee, and `ClearOrigin`. -/
theorem C214_programs (H : Host) (us : Location) (loads tail : List VInstr) (fails : List Bool)
    (hl : ∀ i ∈ loads, (∃ as, i = .withdrawAsset as ∨ i = .reserveAssetDeposited as ∨ i = .receiveTeleportedAsset as) ∨
      ∃ fee limit, i = .buyExecution fee limit) :
    ∃ k rest, heard H us (loads ++ .clearOrigin :: tail) fails =
        ((loads ++ [VInstr.clearOrigin]).take k).map (fun i => (some us, i)) ++ rest ∧
      (∀ x ∈ rest, x.1 = none) ∧ (rest ≠ [] → loads.length < k) := by
  refine earRun_head H us tail fails loads fun i hi => ?_
  rcases hl i hi with ⟨as, rfl | rfl | rfl⟩ | ⟨f, w, rfl⟩ <;> exact fun _ _ => rfl

/-- C214: what goes with assets has this shape, whoever calls, whatever call it is, and whatever program is to follow. -/
theorem C214_goods (fee : XAsset) (limit : WeightLimit) (custom : List VInstr) (os : List Order) (goal : Location)
    (out : List VInstr) (h : (goal, out) ∈ orderMessage (.buyExecution fee limit) custom os) :
    ∃ loads tail, out = loads ++ .clearOrigin :: tail ∧ (∀ i ∈ tail, i ∈ custom ∨ i = .buyExecution fee limit) ∧
      ∀ i ∈ loads, i = .buyExecution fee limit ∨
        ∃ o ∈ os, (o.kind = .withdraw ∧ i = .withdrawAsset o.assets) ∨
          (o.kind = .deposited ∧ i = .reserveAssetDeposited o.assets) := by
  have load : ∀ o : Order, (o.kind = .withdraw ∧ o.load = .withdrawAsset o.assets) ∨
      (o.kind = .deposited ∧ o.load = .reserveAssetDeposited o.assets) := by
    intro o
    unfold Order.load
    cases hk : o.kind
    · exact Or.inl ⟨rfl, rfl⟩
    · exact Or.inr ⟨rfl, rfl⟩
  unfold orderMessage at h
  split at h
  · cases h
  · rw [List.mem_singleton] at h; cases h
    rename_i o1
    refine ⟨[o1.load], _, rfl, ?_, ?_⟩
    · intro i hi; rw [List.mem_cons] at hi; exact hi.symm
    · intro i hi; rw [List.mem_singleton] at hi; subst hi; exact Or.inr ⟨o1, by simp, load o1⟩
  · rw [List.mem_singleton] at h; cases h
    rename_i f o1 _
    refine ⟨[f.load, .buyExecution fee limit, o1.load], _, rfl, fun i hi => Or.inl hi, ?_⟩
    intro i hi
    simp only [List.mem_cons, List.not_mem_nil, or_false] at hi
    rcases hi with rfl | rfl | rfl
    · exact Or.inr ⟨f, by simp, load f⟩
    · exact Or.inl rfl
    · exact Or.inr ⟨o1, by simp, load o1⟩

/-- C214: nobody but communities sends other messages: not root, no other decision, no account that is not laid out like one of
a community, and so no contract. A community's message names it. -/
theorem C214_who (o : RtOrigin) (dest goal : Location) (msg out : List VInstr)
    (h : sendMessage o dest msg = some (goal, out)) :
    goal = dest ∧ routable dest = true ∧ ∃ c js, CommunityPlace c js ∧ out = .descendOrigin js :: msg ∧
      ((∃ x, o = .community x ∧ x.community = c) ∨ ∃ a pid, o = .signed a ∧ trySubAccount a = some (pid, c)) := by
  unfold sendMessage at h
  split at h
  · cases h
  · rename_i l hl
    split at h
    · rename_i hp
      cases h
      refine ⟨rfl, hp.2, ?_⟩
      unfold canSendXcm communityToLocation signedToPlurality at hl
      cases o with
      | community x =>
        simp only [Option.or_none, Option.map_eq_some_iff] at hl
        obtain ⟨j, hj, e⟩ := hl
        subst e
        refine ⟨x.community, [j], ?_, by simp, Or.inl ⟨x, rfl, rfl⟩⟩
        unfold originToJunction at hj
        split at hj <;> first | (cases hj; exact ⟨_, rfl⟩) | cases hj
      | signed a =>
        simp only [Option.none_or] at hl
        split at hl
        · rename_i p c hs
          simp only [originToJunction, Option.map_some, Option.some.injEq] at hl
          subst hl
          exact ⟨c, [.plurality (.index (u16ToU32 c)) .voice], ⟨_, rfl⟩, by simp, Or.inr ⟨a, p, rfl, hs⟩⟩
        · cases hl
      | _ => simp at hl
    · cases h

/-- C214: and a community can: its message goes out under its name. -/
theorem C214_communities_speak (c : UInt16) (dest : Location) (msg : List VInstr) (hd : routable dest = true) :
    sendMessage (.community ⟨c, none⟩) dest msg =
      some (dest, .descendOrigin [.plurality (.index (u16ToU32 c)) .voice] :: msg) ∧
    sendMessage (.signed (communityAccount c)) dest msg =
      some (dest, .descendOrigin [.plurality (.index (u16ToU32 c)) .voice] :: msg) := by
  constructor
  · simp [sendMessage, canSendXcm, communityToLocation, originToJunction, hd]
  · unfold sendMessage
    rw [C74_own_account]
    simp [hd]

/-- C214: on a chain that lets no location pass for another, whatever a community's message says is taken up in a name inside that
of the community: neither Kreivo's own nor that of another community. -/
theorem C214_own_name (H : Host) (ha : ∀ l t, H.aliases l t = false) (hu : ∀ l j, H.universal l j = none)
    (o : RtOrigin) (dest goal us : Location) (msg out : List VInstr) (fails : List Bool)
    (h : sendMessage o dest msg = some (goal, out)) :
    ∃ c js, CommunityPlace c js ∧
      ((∃ x, o = .community x ∧ x.community = c) ∨ ∃ a pid, o = .signed a ∧ trySubAccount a = some (pid, c)) ∧
      ∀ x ∈ (heard H us out fails).drop 1, ∀ m, x.1 = some m →
        ∃ more, m = ⟨us.parents, us.interior ++ js ++ more⟩ := by
  obtain ⟨_, _, c, js, hp, e, hwho⟩ := C214_who o dest goal msg out h
  refine ⟨c, js, hp, hwho, ?_⟩
  have turns : ∀ m, TurnsInto H ⟨us.parents, us.interior ++ js⟩ m →
      ∃ more, m = ⟨us.parents, us.interior ++ js ++ more⟩ := by
    intro m hm
    induction hm with
    | same => exact ⟨[], by simp⟩
    | inside m who _ ih => obtain ⟨more, rfl⟩ := ih; exact ⟨more ++ who, by simp⟩
    | passes m t _ h => rw [ha] at h; cases h
    | universal m t j _ h => rw [hu] at h; cases h
  rcases C214_modest (self := 0) (Departs.said o dest goal msg out h) H us fails with
    ⟨o', c', js', msg', _, _, e', hh⟩ | ⟨pre, rest, e1, h1, h2⟩
  · rw [e] at e'
    cases e'
    rcases hh with h0 | ⟨rest, h0, h3⟩
    · rw [h0]; simp
    · rw [h0]
      intro x hx m hm
      exact turns m (h3 x (by simpa using hx) m hm)
  · intro x hx m hm
    rw [e1] at hx
    have hx' := List.mem_of_mem_drop hx
    rw [List.mem_append] at hx'
    rcases hx' with hx' | hx'
    · -- the first thing taken up is to descend, which is not among the modest instructions
      exfalso
      cases pre with
      | nil => cases hx'
      | cons y ys =>
        have hy : y.2 = .descendOrigin js := by
          cases fails with
          | nil => simp [heard, Ear.run] at e1
          | cons b bs =>
            unfold heard at e1
            rw [Ear.run, e] at e1
            simp only [Ear.step, List.singleton_append, List.cons_append, List.cons.injEq] at e1
            rw [← e1.1]
        have := (h1 y (List.mem_cons_self ..)).2
        rw [hy] at this
        unfold Modest at this
        simp at this
    · rw [h2 x hx'] at hm; cases hm

/-- C74, C214: the number under which a community speaks abroad is its own number, unchanged. -/
theorem C74_number_kept (c : UInt16) : (u16ToU32 c).toNat = c.toNat := by
  have h := c.toNat_lt
  unfold u16ToU32
  rw [UInt32.toNat_ofNat']
  exact Nat.mod_eq_of_lt (by omega)

/-- C214: and so no two communities have a place in common. -/
theorem C214_one_community {c c' : UInt16} {js : List Junction} (h : CommunityPlace c js) (h' : CommunityPlace c' js) :
    c = c' := by
  obtain ⟨p, rfl⟩ := h
  obtain ⟨p', e⟩ := h'
  simp only [List.cons.injEq, Junction.plurality.injEq, BodyId.index.injEq, and_true] at e
  have h1 := congrArg UInt32.toNat e.1
  rw [C74_number_kept, C74_number_kept] at h1
  exact UInt16.toNat_inj.1 h1

/-! Alice sends assets to another chain and asks for a call to be carried out there: by nobody. Community 3 asks for one: the
other chain takes it for the community's. A message of root, or of Alice, does not leave. -/

/-- Example chain that lets nobody pass for another (outside /repo). -/
def strict : Host := ⟨fun _ _ => false, fun _ _ => none⟩

/-- Example call to be carried out elsewhere (outside /repo). -/
def please : VInstr := .transact .native ⟨1000, 0⟩

example : (orderMessage (.buyExecution (⟨0, []⟩, 5) .unlimited) [please]
      [⟨⟨1, [.parachain 2000]⟩, .deposited, [(⟨1, [.parachain 2281]⟩, 85)], none⟩]).map
    (fun m => (m.1, (heard strict ⟨1, [.parachain 2281]⟩ m.2 (List.replicate 9 false)).map Prod.fst)) =
    [(⟨1, [.parachain 2000]⟩, [some ⟨1, [.parachain 2281]⟩, some ⟨1, [.parachain 2281]⟩, none, none])] := by decide +kernel
example : ((sendMessage (.community ⟨3, none⟩) ⟨1, [.parachain 2000]⟩ [please]).map
      fun m => (heard strict ⟨1, [.parachain 2281]⟩ m.2 (List.replicate 9 false)).map Prod.fst) =
    some [some ⟨1, [.parachain 2281]⟩, some ⟨1, [.parachain 2281, .plurality (.index 3) .voice]⟩] := by decide +kernel
example : (sendMessage .root ⟨1, []⟩ [please]).isNone ∧ (sendMessage (.signed (List.replicate 32 1)) ⟨1, []⟩ [please]).isNone := by
  decide +kernel

end Verif.Xcm
