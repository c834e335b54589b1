import Verif.Runtime.Calls

/-! # Lemmas on nested calls -/

namespace Verif.Runtime

open Verif Verif.Accounts

/-- What every way of carrying a call keeps true of the origin holds of all dispatches, and each passes its filters. -/
theorem reached_inv (T : Tables) (P : Sig → Prop) (hb : ∀ o, P o → P { o with noBatchAll := true })
    (hd : ∀ o i, P o → P { o with signer := T.derivative o.signer i })
    (hm : ∀ l n, P (.fresh (T.multiAccount l n)))
    (hp : ∀ o real force d, P o → findProxy T real o.signer force = some d → d.delay = 0 →
      P ⟨real, some d.type, false⟩)
    (hn : ∀ delegate real force d c, findProxy T real delegate force = some d → T.announced delegate real d c = true →
      P ⟨real, some d.type, false⟩)
    (hc : ∀ id, P (.fresh (communityAccount id)))
    (hs : ∀ o who, P o → T.passAs o.signer who = true → P (.fresh who)) (o : Sig) (c : Call) :
    P o → ∀ x ∈ reached T o c, P x.1 ∧ x.1.allows x.2 = true := by
  apply reached.induct T
    (motive1 := fun o c => P o → ∀ x ∈ reached T o c, P x.1 ∧ x.1.allows x.2 = true)
    (motive2 := fun o c => P o → ∀ x ∈ inner T o c, P x.1 ∧ x.1.allows x.2 = true)
    (motive3 := fun o cs => P o → ∀ x ∈ reachedAll T o cs, P x.1 ∧ x.1.allows x.2 = true)
  case case1 =>
    intro o c ha ih hP x hx
    rw [reached, if_pos ha] at hx
    rcases List.mem_cons.1 hx with rfl | hx
    · exact ⟨hP, ha⟩
    · exact ih hP x hx
  case case2 =>
    intro o c ha _ x hx
    rw [reached, if_neg ha] at hx
    cases hx
  case case3 =>
    intro o cs ih hP x hx
    rw [inner] at hx
    exact ih hP x hx
  case case4 =>
    intro o cs ih hP x hx
    rw [inner] at hx
    exact ih (hb o hP) x hx
  case case5 =>
    intro o i c ih hP x hx
    rw [inner] at hx
    exact ih (hd o i hP) x hx
  case case6 =>
    intro o others c ih _ x hx
    rw [inner] at hx
    exact ih (hm _ _) x hx
  case case7 =>
    intro o n others c ha ih _ x hx
    rw [inner, if_pos ha] at hx
    exact ih (hm _ _) x hx
  case case8 =>
    intro o n others c ha _ x hx
    rw [inner, if_neg ha] at hx
    cases hx
  case case9 =>
    intro o real force c d hf h0 ih hP x hx
    rw [inner, hf] at hx
    simp only [if_pos h0] at hx
    exact ih (hp o real force d hP hf h0) x hx
  case case10 =>
    intro o real force c d hf h0 _ x hx
    rw [inner, hf] at hx
    simp only [if_neg h0] at hx
    cases hx
  case case11 =>
    intro o real force c hf _ x hx
    rw [inner, hf] at hx
    cases hx
  case case12 =>
    intro o delegate real force c d hf h0 ih _ x hx
    rw [inner, hf] at hx
    simp only [if_pos h0] at hx
    exact ih (hn delegate real force d c hf h0) x hx
  case case13 =>
    intro o delegate real force c d hf h0 _ x hx
    rw [inner, hf] at hx
    simp only [if_neg h0] at hx
    cases hx
  case case14 =>
    intro o delegate real force c hf _ x hx
    rw [inner, hf] at hx
    cases hx
  case case15 =>
    intro o c id hf ih _ x hx
    rw [inner, hf] at hx
    exact ih (hc id) x hx
  case case16 =>
    intro o c hf _ x hx
    rw [inner, hf] at hx
    cases hx
  case case17 =>
    intro o who c ha ih hP x hx
    rw [inner, if_pos ha] at hx
    exact ih (hs o who hP ha) x hx
  case case18 =>
    intro o who c ha _ x hx
    rw [inner, if_neg ha] at hx
    cases hx
  case case19 =>
    intro o c h1 h2 h3 h4 h5 h6 h7 h8 h9 _ x hx
    rw [inner] at hx <;> first | assumption | cases hx
  case case20 =>
    intro o _ x hx
    rw [reachedAll] at hx
    cases hx
  case case21 =>
    intro o c cs ih1 ih2 hP x hx
    rw [reachedAll] at hx
    rcases List.mem_append.1 hx with hx | hx
    · exact ih1 hP x hx
    · exact ih2 hP x hx

/-- Each dispatch passed the filters of its origin. -/
theorem reached_allowed {T : Tables} {o : Sig} {c : Call} {x : Sig × Call} (h : x ∈ reached T o c) :
    x.1.allows x.2 = true :=
  (reached_inv T (fun _ => True) (fun _ _ => trivial) (fun _ _ _ => trivial) (fun _ _ => trivial)
    (fun _ _ _ _ _ _ _ => trivial) (fun _ _ _ _ _ _ _ => trivial) (fun _ => trivial) (fun _ _ _ _ => trivial) o c trivial x h).2

/-- Passing the filters of a proxied origin means passing the filter of the proxy type. -/
theorem allows_filter {o : Sig} {t : ProxyType} {c : Call} (hv : o.via = some t) (h : o.allows c = true) :
    t.filter c = true := by
  unfold Sig.allows at h
  rw [hv, Bool.and_eq_true] at h
  have h1 := h.1
  simp only [proxyFilter] at h1
  split at h1
  · split at h1
    · exact h1
    · cases h1
  · split at h1
    · exact h1
    · cases h1
  · split at h1
    · exact h1
    · cases h1
  · split at h1
    · exact h1
    · cases h1
  · exact h1

/-- A call that passes the filters is dispatched. -/
theorem reached_self {T : Tables} {o : Sig} {c : Call} (h : o.allows c = true) : (o, c) ∈ reached T o c := by
  rw [reached, if_pos h]
  exact List.mem_cons_self

/-- A proxied call is reached when the proxy is found and the call passes. -/
theorem proxy_reaches {T : Tables} {o : Sig} {real : AccountId} {c : Call} {d : ProxyDef} {x : Sig × Call}
    (ho : o.allows (.proxy real none c) = true) (hf : findProxy T real o.signer none = some d) (h0 : d.delay = 0)
    (hx : x ∈ reached T ⟨real, some d.type, false⟩ c) : x ∈ reached T o (.proxy real none c) := by
  rw [reached, if_pos ho, inner, hf]
  simp only [h0, ↓reduceIte]
  exact List.mem_cons_of_mem _ hx

end Verif.Runtime
