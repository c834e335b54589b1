import Verif.Payments.KreivoMore
import Verif.Ids.PaymentIdTheorems

/-!
# Blocks, extrinsics and payment ids on Kreivo (C38, C109)

Histories of the chain as they happen: blocks begin with hooks, in which the scheduler may dispatch calls, then come
extrinsics, each of which may carry several calls (`Utility::batch`, runtime/kreivo/src/lib.rs; proxies and multisigs let
them have different origins). All calls of one extrinsic see the same block number and extrinsic index; hooks see index 0
(frame_system sets it when a block begins), which no user's extrinsic has, because inherents come first. A failed call
leaves nothing behind; a batch that is undone as a whole is an extrinsic without calls.
-/

namespace Verif.Payments.Kreivo

open Verif Verif.Accounts Verif.Ids

/-- A call with its origin and what ledger and scheduler decide about it. Part of the transition system around the code
(outside /repo). -/
structure KCall where
  ledger : LedgerEnv
  schedOk : Bool
  origin : Origin
  call : Call

/-- A state of the chain: the payments state and the index of the next extrinsic. Part of the transition system around the
code (outside /repo). -/
structure KSt where
  st : St
  idx : Nat

/-- What surrounds a call in extrinsic `idx` of block `now`: runtime/kreivo/src/payments.rs 67-73. -/
def KCall.env (now idx : Nat) (k : KCall) : Env :=
  ⟨k.ledger, nextId (UInt32.ofNat now) (some (UInt32.ofNat idx)), k.schedOk⟩
/-- The call as an action of the pallet. Part of the transition system around the code (outside /repo). -/
def KCall.act (now idx : Nat) (k : KCall) : Act := .call (k.env now idx) k.origin k.call

/-- What happens on the chain. Part of the transition system around the code (outside /repo). -/
inductive KAct
  | extrinsic (calls : List KCall)
  | block (hooks : List KCall)
  | fire (ledger : LedgerEnv) (id : PId)
  | ext (a : Asset) (w : Acct) (free : Nat)
  | setMin (a : Asset) (m : Nat)

/-- One transition: extrinsics are numbered within their block; a new block starts with its hooks. Part of the transition
system around the code (outside /repo). -/
def kexec (s : KSt) : KAct → KSt
  | .extrinsic calls => ⟨run config s.st (calls.map (KCall.act s.st.now s.idx)), s.idx + 1⟩
  | .block hooks =>
    ⟨run config (exec config s.st .tick) (hooks.map (KCall.act (s.st.now + 1) 0)), 1⟩
  | .fire ledger id => ⟨exec config s.st (.fire ⟨ledger, fun _ _ => none, true⟩ id), s.idx⟩
  | .ext a w free => ⟨exec config s.st (.ext a w free), s.idx⟩
  | .setMin a m => ⟨exec config s.st (.setMin a m), s.idx⟩

/-- First two bytes of an account. Bytes taken at common/src/payment_id.rs 80. -/
def prefixOf (b : Acct) : List UInt8 := (bytesOf b).take 2

/-- The first two bytes of the beneficiary of the payment a call creates, if it creates one. Bytes taken at
common/src/payment_id.rs 80. -/
def KCall.newPrefix (k : KCall) : Option (List UInt8) :=
  (creates config k.origin k.call).map fun e => prefixOf e.2

/-- No extrinsic (and no block's hooks) creates two payments whose beneficiaries share the first two bytes. Specification
only, no code behind it (outside /repo). -/
def KAct.Spread : KAct → Prop
  | .extrinsic calls => (calls.filterMap KCall.newPrefix).Nodup
  | .block hooks => (hooks.filterMap KCall.newPrefix).Nodup
  | _ => True

/-- States reachable while block numbers fit 32 bits and extrinsic indices 16, by actions that satisfy `ok`. Part of the
transition system around the code (outside /repo). -/
inductive KReach (ok : KAct → Prop) : KSt → Prop
  | init {s : St} : Initial s → s.now < 2 ^ 32 → KReach ok ⟨s, 1⟩
  | step {s : KSt} (a : KAct) : KReach ok s → ok a → s.idx < 2 ^ 16 → s.st.now + 1 < 2 ^ 32 → KReach ok (kexec s a)

/-! ### ids -/

/-- The id in its parts. common/src/payment_id.rs 63-74. -/
def parts (id : PId) : PaymentId := PaymentId.ofU64 (UInt64.ofNat id)

theorem bytesOf_cases (b : Acct) : ∃ x y r, bytesOf b = x :: y :: r := by
  have hl : (bytesOf b).length = 32 := by simp [bytesOf]
  match h : bytesOf b with
  | [] => rw [h] at hl; simp at hl
  | [_] => rw [h] at hl; simp at hl
  | x :: y :: r => exact ⟨x, y, r, rfl⟩

theorem nextId_parts {now idx : Nat} (hn : now < 2 ^ 32) (hi : idx < 2 ^ 16) {snd b : Acct} {id : PId}
    (h : nextId (UInt32.ofNat now) (some (UInt32.ofNat idx)) snd b = some id) :
    (parts id).block.toNat = now ∧ (parts id).index.toNat = idx ∧ [(parts id).p0, (parts id).p1] = prefixOf b := by
  obtain ⟨x, y, r, hb⟩ := bytesOf_cases b
  unfold nextId at h
  rw [hb] at h
  simp only [PaymentId.next, PaymentId.ofParts, Option.map_some, Option.some.injEq] at h
  subst h
  unfold parts prefixOf
  rw [hb]
  have e : UInt64.ofNat (PaymentId.toU64 ⟨x, y, UInt16.ofNat (UInt32.ofNat idx).toNat, UInt32.ofNat now⟩).toNat =
      PaymentId.toU64 ⟨x, y, UInt16.ofNat (UInt32.ofNat idx).toNat, UInt32.ofNat now⟩ := UInt64.ofNat_toNat
  rw [e, C34_id_u64_id]
  dsimp only
  refine ⟨?_, ?_, rfl⟩
  · rw [UInt32.toNat_ofNat']; omega
  · rw [UInt16.toNat_ofNat', UInt32.toNat_ofNat']; omega

/-- C38: on Kreivo, whoever the senders are, two payments get the same id exactly when block,
extrinsic index modulo 2^16 and the first two bytes of the beneficiary are the same. -/
theorem C38_kreivo_ids {b b' i i' : UInt32} {snd snd' ben ben' : Acct} {x x' : PId}
    (h : nextId b (some i) snd ben = some x) (h' : nextId b' (some i') snd' ben' = some x') :
    x = x' ↔ b = b' ∧ i.toNat % 65536 = i'.toNat % 65536 ∧ prefixOf ben = prefixOf ben' := by
  unfold nextId at h h'
  rw [Option.map_eq_some_iff] at h h'
  obtain ⟨p, hp, rfl⟩ := h
  obtain ⟨p', hp', rfl⟩ := h'
  unfold prefixOf
  rw [← C38_ids_distinct hp hp']
  constructor
  · intro e
    rw [← C34_id_u64_id p, UInt64.toNat_inj.mp e, C34_id_u64_id]
  · rintro rfl; rfl

example : nextId 10 (some 2) 1 2 = some (parts ((nextId 10 (some 2) 1 2).getD 0)).toU64.toNat := by decide +kernel

/-! ### which ids are in use -/

/-- A payment or a task with this id exists. Specification only, no code behind it (outside /repo). -/
def Used (s : St) (id : PId) : Prop := (∃ snd p, s.payments snd id = some p) ∨ ∃ t, s.agenda id = some t

theorem exec_agenda {cfg : Config} {s : St} (act : Act) {id : PId} {t : Task}
    (h : (exec cfg s act).agenda id = some t) : s.agenda id = some t ∨
      (∃ env o snd p, act = .call env o (.requestRefund id) ∧ s.payments snd id = some p ∧ p.state = .created ∧
        cfg.senderOrigin o = some snd ∧ t = ⟨s.now + cfg.cancelBuffer, p.beneficiary⟩ ∧
        (exec cfg s act).payments =
          setPayment s.payments snd id (some { p with state := .refundRequested (s.now + cfg.cancelBuffer) })) := by
  cases act with
  | call env o c =>
    simp only [exec] at h ⊢
    cases hd : dispatch cfg env s o c with
    | error e => rw [hd] at h; exact .inl h
    | ok s' =>
      rw [hd] at h
      simp only [settle] at h ⊢
      cases c with
      | pay bA a n r => obtain ⟨_, _, _, _, _, _, _, _, _, rfl⟩ := pay_ok hd; exact .inl h
      | release id => obtain ⟨_, _, _, _, _, _, _, rfl⟩ := release_ok hd; exact .inl h
      | requestRefund i =>
        obtain ⟨snd, p, ho, hp, hst, _, _, _, _, rfl⟩ := requestRefund_ok hd
        simp only [setAt] at h
        split_ifs at h with e
        · subst e
          cases h
          exact .inr ⟨env, o, snd, p, rfl, hp, hst, ho, rfl, rfl⟩
        · exact .inl h
      | acceptAndPay id => obtain ⟨_, _, _, _, _, _, _, _, _, _, _, _, _, rfl⟩ := acceptAndPay_ok hd; exact .inl h
      | cancel id =>
        obtain ⟨_, _, _, _, _, _, _, _, hs⟩ := cancel_ok hd
        rcases hs with ⟨_, rfl⟩ | ⟨_, rfl⟩ <;> exact .inl h
      | disputeRefund i =>
        obtain ⟨_, _, _, _, _, _, _, _, _, _, _, _, rfl⟩ := disputeRefund_ok hd
        simp only [setAt] at h
        split_ifs at h with e
        exact .inl h
      | requestPayment sA a n => obtain ⟨_, _, _, _, _, _, _, rfl⟩ := requestPayment_ok hd; exact .inl h
      | resolveDispute id r => obtain ⟨_, _, _, _, _, _, _, _, _, _, rfl⟩ := resolveDispute_ok hd; exact .inl h
  | tick => exact .inl h
  | fire env i =>
    left
    simp only [exec] at h
    cases ht : s.agenda i with
    | none => rw [ht] at h; exact h
    | some t' =>
      rw [ht] at h
      simp only at h
      split_ifs at h with hd
      · have drop : ∀ u, setAt s.agenda i none id = some u → s.agenda id = some u := by
          intro u hu
          simp only [setAt] at hu
          split_ifs at hu
          exact hu
        cases hc : cancel cfg env { s with agenda := setAt s.agenda i none } (.signed t'.who) i with
        | error e => rw [hc] at h; exact drop t h
        | ok s' =>
          rw [hc] at h
          obtain ⟨_, _, _, _, _, _, _, _, hs⟩ := cancel_ok hc
          rcases hs with ⟨_, rfl⟩ | ⟨_, rfl⟩ <;> exact drop t h
      · exact h
  | ext a w f => exact .inl h
  | setMin a m => exact .inl h

/-- Ids come into use only by being handed out to a new payment. -/
theorem exec_used {cfg : Config} {s : St} (act : Act) {id : PId} (h : Used (exec cfg s act) id) :
    Used s id ∨ ∃ env o c snd b, act = .call env o c ∧ creates cfg o c = some (snd, b) ∧ env.nextId snd b = some id := by
  rcases h with ⟨snd, p, hp⟩ | ⟨t, ht⟩
  · rcases exec_record_key cfg s act snd id with e | hc
    · exact .inl (.inl ⟨snd, p, by rw [← e]; exact hp⟩)
    · generalize (exec cfg s act).payments snd id = new at hc hp
      generalize ho : s.payments snd id = old at hc
      have some_old : ∀ q, old = some q → Used s id := fun q hq => .inl ⟨snd, q, by rw [ho, hq]⟩
      cases hc with
      | pay env o bA a n r _ b _ _ h1 h2 h3 =>
        exact .inr ⟨env, o, _, snd, b, rfl, by simp [creates, h1, h2], h3⟩
      | request env o sA a n _ b _ _ h1 h2 h3 =>
        exact .inr ⟨env, o, _, snd, b, rfl, by simp [creates, h1, h2], h3⟩
      | release _ _ _ _ q => exact .inl (some_old q rfl)
      | refund _ _ _ _ q => exact .inl (some_old q rfl)
      | accept _ _ _ _ q => exact .inl (some_old q rfl)
      | cancel _ _ _ _ _ q => cases hp
      | fire _ _ _ _ q => cases hp
      | dispute _ _ _ _ _ q => exact .inl (some_old q rfl)
      | resolve _ _ _ _ _ q => exact .inl (some_old q rfl)
  · rcases exec_agenda act ht with e | ⟨env, o, snd, p, _, hp, _⟩
    · exact .inl (.inr ⟨t, e⟩)
    · exact .inl (.inl ⟨snd, p, hp⟩)

/-- Tasks find only the refund they were made for, or a payment that is settled. Specification only, no code behind it
(outside /repo). -/
def Aimed (s : St) : Prop :=
  ∀ id t, s.agenda id = some t → ∀ snd p, s.payments snd id = some p →
    (p.state = .refundRequested t.due ∧ p.beneficiary = t.who) ∨ p.state = .finished

/-- A new payment gets an id that is not in use. Specification only, no code behind it (outside /repo). -/
def Unused (cfg : Config) (s : St) (act : Act) : Prop :=
  ∀ env o c snd b id, act = .call env o c → creates cfg o c = some (snd, b) → env.nextId snd b = some id → ¬ Used s id

theorem Unused.fresh {cfg : Config} {s : St} {act : Act} (h : Unused cfg s act) : FreshIds cfg s act := by
  intro env o c snd b id h1 h2 h3 x _
  cases hp : s.payments x id with
  | none => rfl
  | some p => exact absurd (.inl ⟨x, p, hp⟩) (h env o c snd b id h1 h2 h3)

/-- A dispute takes the task off the agenda, or does nothing. -/
theorem exec_dispute {cfg : Config} {s : St} (env : Env) (o : Origin) (id : PId) :
    (exec cfg s (.call env o (.disputeRefund id))).agenda id = none ∨ exec cfg s (.call env o (.disputeRefund id)) = s := by
  simp only [exec]
  cases hd : dispatch cfg env s o (.disputeRefund id) with
  | error e => exact .inr rfl
  | ok s' =>
    obtain ⟨_, _, _, _, _, _, _, _, _, _, _, _, rfl⟩ := disputeRefund_ok hd
    exact .inl (by simp [settle, setAt])

theorem exec_aimed {cfg : Config} {s : St} (act : Act) (hu : Unused cfg s act) (hf : Found s) (h : Aimed s) :
    Aimed (exec cfg s act) := by
  intro id t ht snd p hp
  rcases exec_agenda act ht with ha | ⟨env, o, x, q, rfl, hq, hst, ho, rfl, hpay⟩
  · rcases exec_record_key cfg s act snd id with e | hc
    · exact h id t ha snd p (by rw [← e]; exact hp)
    · generalize hnew : (exec cfg s act).payments snd id = new at hc hp
      generalize hold : s.payments snd id = old at hc
      have was : ∀ q, old = some q → (q.state = .refundRequested t.due ∧ q.beneficiary = t.who) ∨ q.state = .finished :=
        fun q hq => h id t ha snd q (by rw [hold, hq])
      cases hc with
      | pay env o bA a n r _ b _ _ h1 h2 h3 =>
        exact absurd (.inr ⟨t, ha⟩) (hu env o _ snd b id rfl (by simp [creates, h1, h2]) h3)
      | request env o sA a n _ b _ _ h1 h2 h3 =>
        exact absurd (.inr ⟨t, ha⟩) (hu env o _ snd b id rfl (by simp [creates, h1, h2]) h3)
      | release _ _ _ _ q _ hs => cases hp; exact .inr rfl
      | refund _ _ _ _ q _ hs =>
        rcases was q rfl with ⟨e, _⟩ | e <;> rw [hs] at e <;> cases e
      | accept _ _ _ _ q => cases hp; exact .inr rfl
      | cancel _ _ _ _ _ q => cases hp
      | fire _ _ _ _ q => cases hp
      | dispute env o _ _ b q cb h1 h2 h3 h4 =>
        exfalso
        rcases exec_dispute (cfg := cfg) (s := s) env o id with e | e
        · rw [e] at ht; cases ht
        · rw [e, hold] at hnew
          have := congrArg (·.map (·.state)) hnew
          simp only [Option.map_some, Option.some.injEq] at this
          rw [h3] at this
          cases this
      | resolve _ _ _ _ _ q _ _ _ _ hs => cases hp; exact .inr rfl
  · rw [hpay] at hp
    rcases setPayment_cases s.payments x id (some { q with state := .refundRequested (s.now + cfg.cancelBuffer) }) snd id
      with ⟨e, hne⟩ | ⟨rfl, _, e⟩
    · rw [e] at hp
      have h1 := hf snd id p hp
      rw [hf x id q hq] at h1
      simp only [Option.some.injEq, Prod.mk.injEq] at h1
      exact absurd (by rw [h1.1]) hne
    · rw [e] at hp
      cases hp
      exact .inl ⟨rfl, rfl⟩

/-! ### chain histories -/

theorem exec_now (cfg : Config) (s : St) (env : Env) (o : Origin) (c : Call) : (exec cfg s (.call env o c)).now = s.now := by
  simp only [exec]
  cases hd : dispatch cfg env s o c with
  | error e => rfl
  | ok s' =>
    simp only [settle]
    cases c with
    | pay bA a n r => obtain ⟨_, _, _, _, _, _, _, _, _, rfl⟩ := pay_ok hd; rfl
    | release id => obtain ⟨_, _, _, _, _, _, _, rfl⟩ := release_ok hd; rfl
    | requestRefund i => obtain ⟨_, _, _, _, _, _, _, _, _, rfl⟩ := requestRefund_ok hd; rfl
    | acceptAndPay id => obtain ⟨_, _, _, _, _, _, _, _, _, _, _, _, _, rfl⟩ := acceptAndPay_ok hd; rfl
    | cancel id =>
      obtain ⟨_, _, _, _, _, _, _, _, hs⟩ := cancel_ok hd
      rcases hs with ⟨_, rfl⟩ | ⟨_, rfl⟩ <;> rfl
    | disputeRefund i => obtain ⟨_, _, _, _, _, _, _, _, _, _, _, _, rfl⟩ := disputeRefund_ok hd; rfl
    | requestPayment sA a n => obtain ⟨_, _, _, _, _, _, _, rfl⟩ := requestPayment_ok hd; rfl
    | resolveDispute id r => obtain ⟨_, _, _, _, _, _, _, _, _, _, rfl⟩ := resolveDispute_ok hd; rfl

/-- Every id in use was handed out before extrinsic `idx` of block `now`, or in it with one of these prefixes.
Specification only, no code behind it (outside /repo). -/
def Aged (s : St) (idx : Nat) (done : List (List UInt8)) : Prop :=
  ∀ id, Used s id → (parts id).block.toNat < s.now ∨ ((parts id).block.toNat = s.now ∧ ((parts id).index.toNat < idx ∨
    ((parts id).index.toNat = idx ∧ [(parts id).p0, (parts id).p1] ∈ done)))

/-- What holds all along. Specification only, no code behind it (outside /repo). -/
structure Sound (s : St) (idx : Nat) (done : List (List UInt8)) : Prop where
  found : Found s
  aimed : Aimed s
  aged : Aged s idx done
  fresh : Reach config (Unused config) s

theorem call_sound {s : St} {idx : Nat} {done : List (List UInt8)} (h : Sound s idx done) (hn : s.now < 2 ^ 32)
    (hi : idx < 2 ^ 16) (k : KCall) (hk : ∀ x, k.newPrefix = some x → x ∉ done) :
    Sound (exec config s (k.act s.now idx)) idx (k.newPrefix.toList ++ done) := by
  have hu : Unused config s (k.act s.now idx) := by
    intro env o c snd b id e hc hid hused
    unfold KCall.act at e
    cases e
    obtain ⟨h1, h2, h3⟩ := nextId_parts (snd := snd) hn hi hid
    have hp : k.newPrefix = some (prefixOf b) := by simp [KCall.newPrefix, hc]
    rcases h.aged id hused with h4 | ⟨_, h4 | ⟨_, h4⟩⟩
    · omega
    · omega
    · rw [h3] at h4; exact hk _ hp h4
  refine ⟨exec_found _ hu.fresh h.found, exec_aimed _ hu h.found h.aimed, ?_, .step _ h.fresh hu⟩
  intro id hid
  have hnow : (exec config s (k.act s.now idx)).now = s.now := exec_now _ _ _ _ _
  rw [hnow]
  rcases exec_used _ hid with hold | ⟨env, o, c, snd, b, e, hc, hx⟩
  · rcases h.aged id hold with h4 | ⟨h3, h4 | ⟨h4, h5⟩⟩
    · exact .inl h4
    · exact .inr ⟨h3, .inl h4⟩
    · exact .inr ⟨h3, .inr ⟨h4, List.mem_append_right _ h5⟩⟩
  · unfold KCall.act at e
    cases e
    obtain ⟨h1, h2, h3⟩ := nextId_parts (snd := snd) hn hi hx
    refine .inr ⟨h1, .inr ⟨h2, ?_⟩⟩
    rw [h3]
    simp [KCall.newPrefix, hc]

theorem calls_sound (calls : List KCall) : ∀ {s : St} {idx : Nat} {done : List (List UInt8)}, Sound s idx done →
    s.now < 2 ^ 32 → idx < 2 ^ 16 → (calls.filterMap KCall.newPrefix).Nodup →
    (∀ x ∈ calls.filterMap KCall.newPrefix, x ∉ done) →
    ∃ done', Sound (run config s (calls.map (KCall.act s.now idx))) idx done' ∧
      (run config s (calls.map (KCall.act s.now idx))).now = s.now := by
  induction calls with
  | nil => intro s idx done h _ _ _ _; exact ⟨done, h, rfl⟩
  | cons k calls ih =>
    intro s idx done h hn hi hd hx
    have hnow : (exec config s (k.act s.now idx)).now = s.now := exec_now _ _ _ _ _
    have h1 := call_sound h hn hi k (fun x e => hx x (by simp [e]))
    have h2 : (calls.filterMap KCall.newPrefix).Nodup := by
      cases e : k.newPrefix with
      | none => rwa [List.filterMap_cons_none e] at hd
      | some x => rw [List.filterMap_cons_some e] at hd; exact (List.nodup_cons.mp hd).2
    have h3 : ∀ x ∈ calls.filterMap KCall.newPrefix, x ∉ k.newPrefix.toList ++ done := by
      intro x hxm hmem
      rcases List.mem_append.mp hmem with hm | hm
      · cases e : k.newPrefix with
        | none => rw [e] at hm; cases hm
        | some y =>
          rw [e] at hm
          simp only [Option.toList_some, List.mem_singleton] at hm
          subst hm
          rw [List.filterMap_cons_some e] at hd
          exact (List.nodup_cons.mp hd).1 hxm
      · refine hx x ?_ hm
        cases e : k.newPrefix with
        | none => rwa [List.filterMap_cons_none e]
        | some y => rw [List.filterMap_cons_some e]; exact List.mem_cons_of_mem _ hxm
    obtain ⟨done', h4, h5⟩ := ih h1 (by rw [hnow]; exact hn) hi h2 h3
    rw [hnow] at h4 h5
    exact ⟨done', h4, h5⟩

/-- Any id in use has been handed out before. -/
theorem Sound.next {s : St} {idx : Nat} {done : List (List UInt8)} (h : Sound s idx done) : Sound s (idx + 1) [] :=
  ⟨h.found, h.aimed, fun id hid => by
    rcases h.aged id hid with h4 | ⟨h3, h4 | ⟨h4, _⟩⟩
    · exact .inl h4
    · exact .inr ⟨h3, .inl (by omega)⟩
    · exact .inr ⟨h3, .inl (by omega)⟩, h.fresh⟩

theorem not_call_unused {s : St} {act : Act} (h : ∀ env o c, act ≠ .call env o c) : Unused config s act :=
  fun env o c _ _ _ e => absurd e (h env o c)

theorem Sound.other {s : St} {idx : Nat} {act : Act} (h : Sound s idx []) (hc : ∀ env o c, act ≠ .call env o c)
    (hnow : (exec config s act).now = s.now ∨ (exec config s act).now = s.now + 1 ∧ idx < 2 ^ 16 + 1) (k : Nat)
    (hk : (exec config s act).now = s.now → k = idx) : Sound (exec config s act) k [] := by
  have hu := not_call_unused (s := s) hc
  refine ⟨exec_found _ hu.fresh h.found, exec_aimed _ hu h.found h.aimed, ?_, .step _ h.fresh hu⟩
  intro id hid
  rcases exec_used _ hid with hold | ⟨env, o, c, _, _, e, _⟩
  · rcases hnow with hn | ⟨hn, _⟩
    · rw [hn, hk hn]; exact h.aged id hold
    · rw [hn]
      rcases h.aged id hold with h4 | ⟨h3, _⟩
      · exact .inl (by omega)
      · exact .inl (by omega)
  · exact absurd e (hc env o c)

theorem fire_now (cfg : Config) (s : St) (env : Env) (id : PId) : (exec cfg s (.fire env id)).now = s.now := by
  simp only [exec]
  cases s.agenda id with
  | none => rfl
  | some t =>
    simp only
    split_ifs
    · cases hc : cancel cfg env { s with agenda := setAt s.agenda id none } (.signed t.who) id with
      | error e => rfl
      | ok s' =>
        obtain ⟨_, _, _, _, _, _, _, _, hs⟩ := cancel_ok hc
        rcases hs with ⟨_, rfl⟩ | ⟨_, rfl⟩ <;> rfl
    · rfl

theorem kreach_sound {s : KSt} (h : KReach KAct.Spread s) : Sound s.st s.idx [] ∧ s.st.now < 2 ^ 32 := by
  induction h with
  | init h hn =>
    refine ⟨⟨?_, ?_, ?_, .init h⟩, hn⟩
    · intro x i p hp; rw [h.payments] at hp; cases hp
    · intro i t ht; rw [h.agenda] at ht; cases ht
    · rintro i (⟨x, p, hp⟩ | ⟨t, ht⟩)
      · rw [h.payments] at hp; cases hp
      · rw [h.agenda] at ht; cases ht
  | @step s a _ hok hi hn ih =>
    obtain ⟨ih, _⟩ := ih
    cases a with
    | extrinsic calls =>
      obtain ⟨done, h1, h2⟩ := calls_sound calls ih (by omega) hi hok (by simp)
      exact ⟨h1.next, by simp only [kexec]; rw [h2]; omega⟩
    | block hooks =>
      have h0 : Sound (exec config s.st .tick) 0 [] :=
        ih.other (fun _ _ _ e => by cases e) (.inr ⟨rfl, by omega⟩) 0 (fun e => by simp [exec] at e)
      obtain ⟨done, h1, h2⟩ := calls_sound hooks h0 (by simpa [exec] using hn) (by omega) hok (by simp)
      exact ⟨h1.next, by simp only [kexec]; rw [show s.st.now + 1 = (exec config s.st .tick).now from rfl, h2]; exact hn⟩
    | fire ledger id =>
      refine ⟨ih.other (fun _ _ _ e => by cases e) (.inl (fire_now _ _ _ _)) s.idx (fun _ => rfl), ?_⟩
      simp only [kexec]; rw [fire_now]; omega
    | ext a w n =>
      exact ⟨ih.other (act := .ext a w n) (fun _ _ _ e => by cases e) (.inl rfl) s.idx (fun _ => rfl),
        by simp only [kexec, exec]; omega⟩
    | setMin a m =>
      exact ⟨ih.other (act := .setMin a m) (fun _ _ _ e => by cases e) (.inl rfl) s.idx (fun _ => rfl),
        by simp only [kexec, exec]; omega⟩

/-! ## C109 -/

/-- C109 (partial: no extrinsic and no block's hooks create two payments to beneficiaries with the same first two bytes; blocks
of at most 2^16 extrinsics): on Kreivo every payment is found by its id, so that both parties can act on it. -/
theorem C109_found_by_id_partial {s : KSt} (h : KReach KAct.Spread s) {snd : Acct} {id : PId} {p : Payment}
    (hp : s.st.payments snd id = some p) : s.st.parties id = some (snd, p.beneficiary) :=
  (kreach_sound h).1.found snd id p hp

/-- C109 (partial, as above): no other payment has the same id. -/
theorem C109_one_payment_per_id_partial {s : KSt} (h : KReach KAct.Spread s) {snd snd' : Acct} {id : PId} {p p' : Payment}
    (hp : s.st.payments snd id = some p) (hp' : s.st.payments snd' id = some p') : snd = snd' ∧ p = p' := by
  have h1 := C109_found_by_id_partial h hp
  rw [C109_found_by_id_partial h hp'] at h1
  simp only [Option.some.injEq, Prod.mk.injEq] at h1
  obtain ⟨rfl, _⟩ := h1
  rw [hp] at hp'
  cases hp'
  exact ⟨rfl, rfl⟩

/-- C109 (partial, as above): whatever the scheduler cancels is a pending refund whose deadline is that of the task, in the
name of its beneficiary, also after payments were cancelled early or accepted twice. -/
theorem C109_scheduler_partial {s : KSt} (h : KReach KAct.Spread s) {ledger : LedgerEnv} {i id : PId} {snd : Acct}
    (hne : (kexec s (.fire ledger i)).st.payments snd id ≠ s.st.payments snd id) :
    i = id ∧ ∃ t p, s.st.agenda id = some t ∧ s.st.payments snd id = some p ∧ p.state = .refundRequested t.due ∧
      p.beneficiary = t.who ∧ t.due ≤ s.st.now := by
  simp only [kexec] at hne
  rcases exec_record_key config s.st (.fire ⟨ledger, fun _ _ => none, true⟩ i) snd id with e | hc
  · exact absurd e hne
  · generalize hnew : (exec config s.st (.fire ⟨ledger, fun _ _ => none, true⟩ i)).payments snd id = new at hc
    generalize hold : s.st.payments snd id = old at hc
    cases hc with
    | fire _ _ _ b q t ht hdue ho hpar hst =>
      refine ⟨rfl, t, q, ht, rfl, ?_⟩
      rcases (kreach_sound h).1.aimed _ t ht snd q hold with ⟨h1, h2⟩ | h1
      · exact ⟨h1, h2, hdue⟩
      · rcases hst with e | ⟨_, e⟩ <;> rw [e] at h1 <;> cases h1

/-- C109 (partial, as above): `accept_and_pay` pays the beneficiary of the record: see `C13_accept_exact_partial`. -/
theorem C109_accept_pays_requester_partial {s : KSt} (h : KReach KAct.Spread s) {env : Env} {s' : St} {o : Origin} {id : PId}
    {snd : Acct} {p : Payment} (hd : dispatch config env s.st o (.acceptAndPay id) = .ok s')
    (ho : config.senderOrigin o = some snd) (hp : s.st.payments snd id = some p) (hfit : FeesFit p)
    (hdust : NoDust s.st.ledger s'.ledger p.asset) :
    Exactly s.st.ledger s'.ledger p.asset
      (feeMoves snd p.fees.senderPays ++ [⟨snd, p.beneficiary, p.amount⟩] ++
        feeMoves p.beneficiary p.fees.beneficiaryPays) (fun _ => 0) :=
  (C13_accept_exact_partial (kreach_sound h).1.fresh.reachable hd ho (C109_found_by_id_partial h hp) hp hfit hdust).1

/-- 1 pays 2 in a block, requests the refund; 2 returns the money at once; in the next block 1 pays again. Example for
non-vacuity (outside /repo). -/
def quietActs : List KAct :=
  [.extrinsic [⟨LedgerEnv.lenient, true, .signed 1, .pay (.id 2) 0 5000 none⟩],
   .extrinsic [⟨LedgerEnv.lenient, true, .signed 1, .requestRefund ((nextId 10 (some 1) 1 2).getD 0)⟩],
   .extrinsic [⟨LedgerEnv.lenient, true, .signed 2, .cancel ((nextId 10 (some 1) 1 2).getD 0)⟩],
   .block [],
   .extrinsic [⟨LedgerEnv.lenient, true, .signed 1, .pay (.id 2) 0 5000 none⟩]]
/-- The state after a list of actions. Part of the transition system around the code (outside /repo). -/
def krun (s : KSt) (acts : List KAct) : KSt := acts.foldl kexec s

example : KReach KAct.Spread (krun ⟨s0, 1⟩ quietActs) := by
  unfold krun quietActs
  simp only [List.foldl]
  refine .step _ (.step _ (.step _ (.step _ (.step _ (.init s0_initial (by decide)) ?_ ?_ ?_) ?_ ?_ ?_) ?_ ?_ ?_) ?_ ?_ ?_)
    ?_ ?_ ?_
  all_goals first
    | (simp only [KAct.Spread]; decide +kernel)
    | decide +kernel
example : ((krun ⟨s0, 1⟩ quietActs).st.payments 1 ((nextId 11 (some 1) 1 2).getD 0)).map (·.state) = some .created ∧
    ((krun ⟨s0, 1⟩ quietActs).st.agenda ((nextId 10 (some 1) 1 2).getD 0)).isSome = true := by decide +kernel

/-- Two communities whose referenda are enacted in the same block, each paying account 2. Example for non-vacuity (outside
/repo). -/
def enacted : List KAct :=
  [.block [⟨LedgerEnv.lenient, true, .community 7, .pay (.id 2) 0 5000 none⟩,
    ⟨LedgerEnv.lenient, true, .community 8, .pay (.id 2) 0 1000 none⟩]]
/-- The id both get. Example for non-vacuity (outside /repo). -/
def sharedId : PId := (nextId 11 (some 0) 0 2).getD 0

/-- C109 is false of the code: when the scheduler enacts payments of two communities to the same account in one block, both
get the same id. The first payment of 5000 stays on hold on the beneficiary, who can no longer cancel or dispute it: the
id leads to the second payment only, and once that is cancelled to nothing. -/
theorem C109_enacted_together_fails :
    let s := (krun ⟨s0, 1⟩ enacted).st
    let seven := acctOf (communityAccount 7)
    KReach (fun _ => True) (krun ⟨s0, 1⟩ enacted) ∧
      (s.payments seven sharedId).map (fun p => (p.beneficiary, p.amount, p.state)) = some (2, 5000, .created) ∧
      s.parties sharedId = some (acctOf (communityAccount 8), 2) ∧ (s.ledger.bal 0 2).held = 6000 ∧
      (∀ env s', dispatch config env s (.signed 2) (.cancel sharedId) = .ok s' →
        (s'.payments seven sharedId).map (·.amount) = some 5000 ∧ s'.parties sharedId = none ∧
        ∀ env' o, (config.beneficiaryOrigin o).isSome →
          dispatch config env' s' o (.cancel sharedId) = .error .nonExistentStorageValue) := by
  have h1 : ((krun ⟨s0, 1⟩ enacted).st.payments (acctOf (communityAccount 7)) sharedId).map
      (fun p => (p.beneficiary, p.amount, p.state)) = some (2, 5000, .created) := by decide +kernel
  have h2 : (krun ⟨s0, 1⟩ enacted).st.parties sharedId = some (acctOf (communityAccount 8), 2) := by decide +kernel
  have hne : acctOf (communityAccount 7) ≠ acctOf (communityAccount 8) := by decide +kernel
  have h0 : KReach (fun _ => True) (krun ⟨s0, 1⟩ enacted) := by
    unfold krun enacted
    simp only [List.foldl]
    exact .step _ (.init s0_initial (by decide)) trivial (by decide) (by decide)
  refine ⟨h0, h1, h2, by decide +kernel, ?_⟩
  intro env s' hd
  obtain ⟨snd, b, p, L, _, hpar, hp, _, hs⟩ := cancel_ok (show cancel config env (krun ⟨s0, 1⟩ enacted).st (.signed 2) sharedId = .ok s' from hd)
  rw [h2] at hpar
  cases hpar
  have e1 : s'.payments = setPayment (krun ⟨s0, 1⟩ enacted).st.payments (acctOf (communityAccount 8)) sharedId none := by
    rcases hs with ⟨_, rfl⟩ | ⟨_, rfl⟩ <;> rfl
  have e2 : s'.parties = setAt (krun ⟨s0, 1⟩ enacted).st.parties sharedId none := by
    rcases hs with ⟨_, rfl⟩ | ⟨_, rfl⟩ <;> rfl
  have e3 : s'.parties sharedId = none := by rw [e2]; simp [setAt]
  refine ⟨?_, e3, ?_⟩
  · rw [e1, setPayment_ne _ _ _ _ _ _ (by simp [hne])]
    have := congrArg (Option.map fun x => x.2.1) h1
    simpa using this
  · intro env' o ho
    show cancel config env' s' o sharedId = _
    unfold cancel
    obtain ⟨b, hb⟩ := Option.isSome_iff_exists.mp ho
    rw [hb, e3]

end Verif.Payments.Kreivo
