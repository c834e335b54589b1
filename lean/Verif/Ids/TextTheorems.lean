import Verif.Ids.PaymentIdTheorems

/-!
# Which texts name which payment

`PaymentId` as it is exported to JavaScript (common/src/payment_id.rs 14-55), and the texts that are taken for ids.
-/

namespace Verif.Ids

/-- `Default` of `PaymentId`, derived: common/src/payment_id.rs 6. -/
def PaymentId.zero : PaymentId := ⟨0, 0, 0, 0⟩

/-- `PaymentId::new`, the constructor for JavaScript: common/src/payment_id.rs 18-20. -/
def PaymentId.new (s : List UInt8) : Outcome PaymentId :=
  match PaymentId.fromStr s with
  | .ok p => .ok p
  | .err => .ok PaymentId.zero
  | .panic => .panic

/-- `from_number`: common/src/payment_id.rs 23-25. -/
def PaymentId.fromNumber (n : UInt64) : PaymentId := PaymentId.ofU64 n

/-- `to_number`: common/src/payment_id.rs 47-49. -/
def PaymentId.toNumber (p : PaymentId) : UInt64 := p.toU64

/-- `encode`: common/src/payment_id.rs 38-44; `format!` panics if printing fails. -/
def PaymentId.encodeText (p : PaymentId) (pretty : Bool) : Outcome (List UInt8) :=
  match p.display pretty with
  | .ok t => .ok t
  | _ => .panic

/-- `to_bytes`: common/src/payment_id.rs 52-54. -/
def PaymentId.toBytes (p : PaymentId) : List UInt8 := p.bytes

/-! ## Specification -/

/-- A text without its first dash. Specification only, no code behind it (outside /repo). -/
def undashed : List UInt8 → List UInt8
  | [] => []
  | c :: cs => if c = 45 then cs else c :: undashed cs

/-! ## Lemmas -/

theorem splitOnce_undashed (s : List UInt8) :
    match splitOnce s with | none => undashed s = s | some (a, b) => undashed s = a ++ b := by
  induction s with
  | nil => rfl
  | cons c cs ih =>
    by_cases hc : c = dash
    · simp only [splitOnce, hc, if_true, List.nil_append, undashed]
      rfl
    · have hc' : ¬ c = 45 := hc
      simp only [splitOnce, undashed]
      rw [if_neg hc, if_neg hc']
      cases h : splitOnce cs with
      | none => rw [h] at ih; simp only [Option.map_none]; simpa using ih
      | some ab =>
        obtain ⟨a, b⟩ := ab
        rw [h] at ih
        simp only [Option.map_some, List.cons_append]
        simpa using ih

/-- Whatever is accepted is accepted for its characters, up to the dash. -/
theorem fromStr_digits {s : List UInt8} {p : PaymentId} (h : PaymentId.fromStr s = .ok p) :
    parseDigits (undashed s) = .ok p := by
  have hu := splitOnce_undashed s
  unfold PaymentId.fromStr at h
  cases hs : splitOnce s with
  | none => rw [hs] at h hu; rw [hu]; exact h
  | some ab =>
    obtain ⟨a, b⟩ := ab
    rw [hs] at h hu
    simp only at h hu
    rw [hu]
    split at h
    · cases h
    · split at h
      · exact h
      · cases h

theorem charVal_inv {c : UInt8} {v : Nat} (h : charVal c = some v) : alphabet.getD v 0 = c ∧ v < 58 := by
  unfold charVal at h
  split at h
  · rename_i hm
    cases h
    have hlt : alphabet.idxOf c < alphabet.length := List.idxOf_lt_length_of_mem hm
    refine ⟨?_, ?_⟩
    · rw [List.getD_eq_getElem?_getD, List.getElem?_eq_getElem hlt]; exact List.getElem_idxOf hlt
    · have : alphabet.length = 58 := by decide +kernel
      omega
  · cases h

theorem mapM_charVal_inv : ∀ (t : List UInt8) (vals : List Nat), t.mapM charVal = some vals →
    t = vals.map (fun d => alphabet.getD d 0) ∧ ∀ d ∈ vals, d < 58
  | [], vals, h => by
    simp only [List.mapM_nil] at h
    cases h
    exact ⟨rfl, by simp⟩
  | c :: t, vals, h => by
    rw [List.mapM_cons] at h
    cases hc : charVal c with
    | none => rw [hc] at h; cases h
    | some v =>
      cases ht : t.mapM charVal with
      | none => rw [hc, ht] at h; cases h
      | some vs =>
        rw [hc, ht] at h
        cases h
        obtain ⟨h1, h2⟩ := mapM_charVal_inv t vs ht
        obtain ⟨h3, h4⟩ := charVal_inv hc
        refine ⟨by rw [List.map_cons, h3, ← h1], ?_⟩
        intro d hd
        rcases List.mem_cons.1 hd with rfl | hd
        · exact h4
        · exact h2 d hd

/-- Digits in base `b`, most significant first, are their leading zeros followed by the digits of their value. -/
theorem digits_split (b : Nat) (hb : 2 ≤ b) (vals : List Nat) (h : ∀ d ∈ vals, d < b) :
    vals = List.replicate (vals.takeWhile (· = 0)).length 0 ++ (Nat.digits b (horner b vals)).reverse := by
  induction vals with
  | nil => simp [horner]
  | cons v vals ih =>
    have ih := ih fun d hd => h d (List.mem_cons_of_mem _ hd)
    by_cases hv : v = 0
    · subst hv
      have e : horner b (0 :: vals) = horner b vals := by simp [horner]
      rw [e]
      simp only [List.takeWhile_cons, decide_true, if_true, List.length_cons, List.replicate_succ, List.cons_append]
      congr 1
    · simp only [List.takeWhile_cons, hv, decide_false, Bool.false_eq_true, if_false, List.length_nil, List.replicate_zero,
        List.nil_append]
      rw [horner_eq, Nat.digits_ofDigits b (by omega) _ (fun l hl => h l (List.mem_reverse.1 hl)) (fun hne => ?_),
        List.reverse_reverse]
      rw [List.getLast_reverse]
      exact hv

theorem takeWhile_digits_rev (b : Nat) (n k : Nat) :
    ((List.replicate k 0 ++ ((Nat.digits b n).reverse)).takeWhile (· = 0)).length = k := by
  induction k with
  | zero =>
    simp only [List.replicate_zero, List.nil_append]
    cases hd : (Nat.digits b n).reverse with
    | nil => rfl
    | cons d ds =>
      have hne : Nat.digits b n ≠ [] := by intro e; rw [e] at hd; simp at hd
      have hlast := Nat.getLast_digit_ne_zero b (m := n) (by intro e; rw [e] at hne; simp at hne)
      have : (Nat.digits b n).getLast hne = d := by
        rw [List.getLast_eq_head_reverse]; simp [hd]
      rw [List.takeWhile_cons, if_neg]
      · rfl
      · simp only [decide_eq_true_eq]; rw [← this]; exact hlast
  | succ k ih => simpa [List.replicate_succ] using ih

theorem map_ofNat_takeWhile (l : List Nat) (h : ∀ d ∈ l, d < 256) :
    ((l.map UInt8.ofNat).takeWhile (· = 0)).length = (l.takeWhile (· = 0)).length := by
  induction l with
  | nil => rfl
  | cons d l ih =>
    have hd := h d (List.mem_cons_self ..)
    have ih := ih fun x hx => h x (List.mem_cons_of_mem _ hx)
    by_cases h0 : d = 0
    · subst h0
      simpa using ih
    · have h1 : ¬ UInt8.ofNat d = 0 := by
        intro e
        have := congrArg UInt8.toNat e
        simp only [UInt8.toNat_ofNat', UInt8.toNat_zero] at this
        omega
      simp [h0, h1]

/-- Encoding what was decoded gives back the characters. -/
theorem b58_inverse {cap : Nat} {t bs : List UInt8} (h : b58decode cap t = some bs) :
    t = (b58digits bs).map (fun d => alphabet.getD d 0) ∧ bs.length ≤ cap := by
  unfold b58decode at h
  cases hm : t.mapM charVal with
  | none => rw [hm] at h; cases h
  | some vals =>
    rw [hm] at h
    obtain ⟨h1, h2⟩ := mapM_charVal_inv t vals hm
    have hfold : vals.foldl (fun ds v => digitStep 256 58 ds v) [] = Nat.digits 256 (horner 58 vals) := by
      have := fold_digits 256 58 (by omega) (by omega) vals 0
      rw [Nat.digits_zero] at this
      exact this
    have hz : (vals.takeWhile (· = 0)).map (fun _ => (0 : Nat)) = List.replicate (vals.takeWhile (· = 0)).length 0 := by
      simp [List.map_const']
    simp only at h
    rw [hfold, hz] at h
    generalize hk : (vals.takeWhile (· = 0)).length = k at h
    split at h
    · rename_i hlen
      have hbs := Option.some.inj h
      -- the digits of the value in base 256, most significant first
      have hrev : bs = ((List.replicate k 0 ++ (Nat.digits 256 (horner 58 vals)).reverse).map UInt8.ofNat) := by
        rw [← hbs, ← List.map_reverse, List.reverse_append, List.reverse_replicate]
      have hlt : ∀ d ∈ List.replicate k 0 ++ (Nat.digits 256 (horner 58 vals)).reverse, d < 256 := by
        intro d hd
        rcases List.mem_append.1 hd with hd | hd
        · rw [(List.mem_replicate.1 hd).2]; omega
        · exact Nat.digits_lt_base (by omega) (List.mem_reverse.1 hd)
      have hlead : lead bs = k := by
        unfold lead
        rw [hrev, map_ofNat_takeWhile _ hlt, takeWhile_digits_rev]
      have hval : fromBE bs = horner 58 vals := by
        have hb : bs.map UInt8.toNat = List.replicate k 0 ++ (Nat.digits 256 (horner 58 vals)).reverse := by
          rw [hrev, List.map_map]
          conv_rhs => rw [← List.map_id (List.replicate k 0 ++ (Nat.digits 256 (horner 58 vals)).reverse)]
          apply List.map_congr_left
          intro d hd
          have := hlt d hd
          simp only [Function.comp_apply, UInt8.toNat_ofNat', id_eq]
          omega
        rw [fromBE, fromLE_ofDigits, List.map_reverse, hb, List.reverse_append, List.reverse_reverse, List.reverse_replicate,
          Nat.ofDigits_append, Nat.ofDigits_digits]
        simp
      refine ⟨?_, ?_⟩
      · rw [h1]
        congr 1
        unfold b58digits
        rw [hlead, hval, ← hk]
        exact digits_split 58 (by omega) vals h2
      · rw [hrev]; simpa [Nat.add_comm] using hlen
    · cases h

/-! ## C152: only a payment's own text names it -/

/-- Another text than its own names a payment, too: for ids of early blocks the last byte is zero, and the text of the bytes
before it is taken for the same id. -/
theorem C152_other_text_fails :
    ∃ (p : PaymentId) (t t' u : List UInt8), PaymentId.next 1234567 (some 5) [2, 5] = some p ∧
      p.display false = .ok t ∧ p.display true = .ok t' ∧ u ≠ t ∧ u ≠ t' ∧ undashed u ≠ t ∧ PaymentId.fromStr u = .ok p :=
  ⟨⟨2, 5, 5, 1234567⟩, ascii "LbNvSNtVQs", ascii "LbNvS-NtVQs", ascii "5STiZV4xq", by decide +kernel, by decide +kernel,
    by decide +kernel, by decide +kernel, by decide +kernel, by decide +kernel, by decide +kernel⟩

/-- But that is the only way: a text that names a payment of block 2^24 or later is the payment's own, with the dash anywhere
or left out. Missing: payments of earlier blocks. -/
theorem C152_own_text_partial {s : List UInt8} {p : PaymentId} (h : PaymentId.fromStr s = .ok p)
    (hb : 2 ^ 24 ≤ p.blockNumber.toNat) : p.display false = .ok (undashed s) := by
  have hp := fromStr_digits h
  unfold parseDigits at hp
  cases hd : b58decode 8 (undashed s) with
  | none => rw [hd] at hp; cases hp
  | some out =>
    rw [hd] at hp
    obtain ⟨h1, h2⟩ := b58_inverse hd
    simp only [Outcome.ok.injEq] at hp
    have hl : (out ++ List.replicate (8 - out.length) 0).length = 8 := by simp; omega
    have hlt := fromLE_lt (out ++ List.replicate (8 - out.length) 0)
    rw [hl] at hlt
    have hbytes : p.bytes = out ++ List.replicate (8 - out.length) 0 := by
      rw [← hp, bytes_ofU64, UInt64.toNat_ofNat', Nat.mod_eq_of_lt (by norm_num at hlt; omega)]
      have := leBytes_fromLE (out ++ List.replicate (8 - out.length) 0)
      rwa [hl] at this
    have hout : out.length = 8 := by
      by_contra hne
      -- then the highest byte of the block is zero
      have h7 : p.bytes.getD 7 1 = 0 := by
        rw [hbytes, List.getD_eq_getElem?_getD, List.getElem?_append_right (by omega), List.getElem?_replicate, if_pos (by omega)]
        rfl
      have h7' : p.bytes.getD 7 1 = UInt8.ofNat (p.block.toNat / 256 / 256 / 256 % 256) := by
        simp [PaymentId.bytes, leBytes]
      rw [h7'] at h7
      have := congrArg UInt8.toNat h7
      simp only [UInt8.toNat_ofNat', UInt8.toNat_zero] at this
      have h32 := p.block.toNat_lt
      unfold PaymentId.blockNumber at hb
      omega
    rw [hout, Nat.sub_self, List.replicate_zero, List.append_nil] at hbytes
    rw [display_eq]
    simp only [Bool.false_eq_true, if_false, List.append_nil, List.take_append_drop]
    rw [h1, hbytes]

/-- Every text that names a payment, whatever its block: without its first dash it is the base58 text of the payment's bytes, of
which a few zeros at the end may have been left out. -/
theorem C152_texts_partial {s : List UInt8} {p : PaymentId} (h : PaymentId.fromStr s = .ok p) :
    ∃ k, k ≤ 8 ∧ (∀ x ∈ p.bytes.drop k, x = 0) ∧ b58encode (undashed s).length (p.bytes.take k) = some (undashed s) := by
  have hp := fromStr_digits h
  unfold parseDigits at hp
  cases hd : b58decode 8 (undashed s) with
  | none => rw [hd] at hp; cases hp
  | some out =>
    rw [hd] at hp
    obtain ⟨h1, h2⟩ := b58_inverse hd
    simp only [Outcome.ok.injEq] at hp
    have hl : (out ++ List.replicate (8 - out.length) 0).length = 8 := by simp; omega
    have hlt := fromLE_lt (out ++ List.replicate (8 - out.length) 0)
    rw [hl] at hlt
    have hbytes : p.bytes = out ++ List.replicate (8 - out.length) 0 := by
      rw [← hp, bytes_ofU64, UInt64.toNat_ofNat', Nat.mod_eq_of_lt (by norm_num at hlt; omega)]
      have := leBytes_fromLE (out ++ List.replicate (8 - out.length) 0)
      rwa [hl] at this
    refine ⟨out.length, h2, ?_, ?_⟩
    · rw [hbytes, List.drop_left]
      exact fun x hx => List.eq_of_mem_replicate hx
    · rw [hbytes, List.take_left, b58encode_eq, if_pos (by rw [h1]; simp), ← h1]

/-- And each of them does: of texts without a dash, exactly those name the payment. -/
theorem C152_exactly_partial (s : List UInt8) (p : PaymentId) (hs : 45 ∉ s) :
    PaymentId.fromStr s = .ok p ↔
      ∃ k, k ≤ 8 ∧ (∀ x ∈ p.bytes.drop k, x = 0) ∧ b58encode s.length (p.bytes.take k) = some s := by
  have hu : splitOnce s = none := splitOnce_none s fun c hc e => hs (by rw [← show (dash : UInt8) = 45 from rfl, ← e]; exact hc)
  have hund : undashed s = s := by have := splitOnce_undashed s; rw [hu] at this; exact this
  constructor
  · intro h
    have := C152_texts_partial h
    rwa [hund] at this
  · rintro ⟨k, hk, hz, he⟩
    have ht : s = (b58digits (p.bytes.take k)).map fun d => alphabet.getD d 0 := by
      rw [b58encode_eq] at he
      split at he
      · simpa using he.symm
      · cases he
    have hlen : (p.bytes.take k).length = k := by rw [List.length_take, p.bytes_length]; omega
    have hrep : p.bytes.drop k = List.replicate (8 - k) 0 := by
      rw [List.eq_replicate_iff]
      exact ⟨by rw [List.length_drop, p.bytes_length], hz⟩
    unfold PaymentId.fromStr
    rw [hu]
    simp only
    unfold parseDigits
    rw [ht, b58_roundtrip _ 8 (by omega)]
    simp only [Outcome.ok.injEq]
    rw [hlen, ← hrep, List.take_append_drop]
    apply ofU64_of_bytes
    have hlt := fromLE_lt p.bytes
    rw [p.bytes_length] at hlt
    rw [UInt64.toNat_ofNat', Nat.mod_eq_of_lt (by norm_num at hlt; omega)]
    have := leBytes_fromLE p.bytes
    rwa [p.bytes_length] at this

/-- So payments of blocks from 256^3, 256^2 and 256 on have at most one, two and three texts without a dash. -/
theorem C152_few_partial (p : PaymentId) (n : Nat) (hn : n ≤ 3) (hb : 256 ^ n ≤ p.blockNumber.toNat) {s : List UInt8}
    (h : PaymentId.fromStr s = .ok p) :
    ∃ k, 5 + n ≤ k ∧ k ≤ 8 ∧ b58encode (undashed s).length (p.bytes.take k) = some (undashed s) := by
  obtain ⟨k, hk, hz, he⟩ := C152_texts_partial h
  refine ⟨k, ?_, hk, he⟩
  by_contra hlt
  have hall : ∀ i, k ≤ i → i < 8 → p.bytes.getD i 1 = 0 := by
    intro i h1 h2
    rw [List.getD_eq_getElem?_getD, List.getElem?_eq_getElem (by rw [p.bytes_length]; exact h2)]
    simp only [Option.getD_some]
    refine hz _ ?_
    rw [List.mem_iff_getElem]
    exact ⟨i - k, by rw [List.length_drop, p.bytes_length]; omega, by rw [List.getElem_drop]; congr 1; omega⟩
  have g7 : k ≤ 7 → p.block.toNat / 256 / 256 / 256 % 256 = 0 := by
    intro hk
    have := hall 7 hk (by omega)
    have h7 : p.bytes.getD 7 1 = UInt8.ofNat (p.block.toNat / 256 / 256 / 256 % 256) := by simp [PaymentId.bytes, leBytes]
    rw [h7] at this
    have := congrArg UInt8.toNat this
    simp only [UInt8.toNat_ofNat', UInt8.toNat_zero] at this
    omega
  have g6 : k ≤ 6 → p.block.toNat / 256 / 256 % 256 = 0 := by
    intro hk
    have := hall 6 hk (by omega)
    have h7 : p.bytes.getD 6 1 = UInt8.ofNat (p.block.toNat / 256 / 256 % 256) := by simp [PaymentId.bytes, leBytes]
    rw [h7] at this
    have := congrArg UInt8.toNat this
    simp only [UInt8.toNat_ofNat', UInt8.toNat_zero] at this
    omega
  have g5 : k ≤ 5 → p.block.toNat / 256 % 256 = 0 := by
    intro hk
    have := hall 5 hk (by omega)
    have h7 : p.bytes.getD 5 1 = UInt8.ofNat (p.block.toNat / 256 % 256) := by simp [PaymentId.bytes, leBytes]
    rw [h7] at this
    have := congrArg UInt8.toNat this
    simp only [UInt8.toNat_ofNat', UInt8.toNat_zero] at this
    omega
  have g4 : k ≤ 4 → p.block.toNat % 256 = 0 := by
    intro hk
    have := hall 4 hk (by omega)
    have h7 : p.bytes.getD 4 1 = UInt8.ofNat (p.block.toNat % 256) := by simp [PaymentId.bytes, leBytes]
    rw [h7] at this
    have := congrArg UInt8.toNat this
    simp only [UInt8.toNat_ofNat', UInt8.toNat_zero] at this
    omega
  have h32 := p.block.toNat_lt
  unfold PaymentId.blockNumber at hb
  have : n = 0 ∨ n = 1 ∨ n = 2 ∨ n = 3 := by omega
  rcases this with rfl | rfl | rfl | rfl <;> omega

example : ∃ k, k ≤ 8 ∧ (∀ x ∈ (PaymentId.bytes ⟨2, 5, 5, 1234567⟩).drop k, x = 0) ∧
    b58encode 9 ((PaymentId.bytes ⟨2, 5, 5, 1234567⟩).take k) = some (ascii "5STiZV4xq") :=
  ⟨7, by decide +kernel, by decide +kernel, by decide +kernel⟩
example : ∃ k, 5 + 2 ≤ k ∧ k ≤ 8 ∧ b58encode (undashed (ascii "5STiZ-V4xq")).length
    ((PaymentId.bytes ⟨2, 5, 5, 1234567⟩).take k) = some (undashed (ascii "5STiZ-V4xq")) :=
  C152_few_partial _ 2 (by decide) (by decide +kernel) (by decide +kernel)

/-- The constructor for JavaScript returns the payment a text names. What it makes of a text that names none, which it does not
report, is an id that no payment made in any block has. -/
theorem C152_new_partial (s : List UInt8) :
    (∀ p, PaymentId.fromStr s = .ok p → PaymentId.new s = .ok p) ∧
      (PaymentId.fromStr s = .err → ∃ z, PaymentId.new s = .ok z ∧
        ∀ (b i : UInt32) (e : List UInt8), 0 < b.toNat → PaymentId.next b (some i) e ≠ some z) := by
  refine ⟨fun p h => by unfold PaymentId.new; rw [h], fun h => ⟨PaymentId.zero, by unfold PaymentId.new; rw [h], ?_⟩⟩
  intro b i e hb hn
  have := (C39_provenance_readable hn).1
  unfold PaymentId.blockNumber PaymentId.zero at this
  rw [← this] at hb
  simp at hb

/-- What JavaScript sees of an id: the number, the text and the bytes all stand for it. -/
theorem C152_js_partial (p : PaymentId) (n : UInt64) (pretty : Bool) :
    PaymentId.fromNumber p.toNumber = p ∧ (PaymentId.fromNumber n).toNumber = n ∧
      (∃ t, p.encodeText pretty = .ok t ∧ PaymentId.new t = .ok p) ∧
      fromLE p.toBytes = p.toNumber.toNat := by
  refine ⟨C34_id_u64_id p, C34_u64_id_u64 n, ?_, (toU64_toNat p).symm⟩
  obtain ⟨t, h1, h2⟩ := C36_print_parse p pretty
  exact ⟨t, by unfold PaymentId.encodeText; rw [h1], (C152_new_partial t).1 p h2⟩

example : PaymentId.fromStr (ascii "jpXCZ-edGfVQ") = .ok ⟨255, 255, 65535, 4294967295⟩ := by decide +kernel
example : PaymentId.fromStr (ascii "0OIl") = .err ∧ PaymentId.new (ascii "0OIl") = .ok ⟨0, 0, 0, 0⟩ := by decide +kernel

end Verif.Ids
