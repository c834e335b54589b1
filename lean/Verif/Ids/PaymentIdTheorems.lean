import Verif.Ids.PaymentIdLemmas

/-! # Payment ids: theorems C34-C39 -/

namespace Verif.Ids

theorem PaymentId.bytes_length (p : PaymentId) : p.bytes.length = 8 := by simp [PaymentId.bytes]

theorem toU64_toNat (p : PaymentId) : p.toU64.toNat = fromLE p.bytes := by
  have h := fromLE_lt p.bytes
  rw [PaymentId.bytes_length] at h
  simp only [PaymentId.toU64, UInt64.toNat_ofNat']
  exact Nat.mod_eq_of_lt (by norm_num at h; omega)

theorem leBytes_toU64 (p : PaymentId) : leBytes 8 p.toU64.toNat = p.bytes := by
  rw [toU64_toNat, ← PaymentId.bytes_length p, leBytes_fromLE]

/-- The fields read off eight bytes. -/
theorem ofU64_of_bytes (v : UInt64) (p : PaymentId) (h : leBytes 8 v.toNat = p.bytes) : PaymentId.ofU64 v = p := by
  obtain ⟨a, b, i, n⟩ := p
  have h1 : fromLE (leBytes 2 i.toNat) = i.toNat := fromLE_leBytes_lt i.toNat_lt
  have h2 : fromLE (leBytes 4 n.toNat) = n.toNat := fromLE_leBytes_lt n.toNat_lt
  simp only [PaymentId.ofU64, h, PaymentId.bytes]
  simp only [leBytes, List.cons_append, List.nil_append] at h1 h2 ⊢
  simp only [List.getD_cons_zero, List.getD_cons_succ, List.drop_succ_cons, List.drop_zero,
    List.take_succ_cons, List.take_zero, h1, h2]
  simp

/-! ## C34 -/

/-- C34: id to u64 and back is the identity. -/
theorem C34_id_u64_id (p : PaymentId) : PaymentId.ofU64 p.toU64 = p :=
  ofU64_of_bytes _ _ (leBytes_toU64 p)

theorem bytes_ofU64 (v : UInt64) : (PaymentId.ofU64 v).bytes = leBytes 8 v.toNat := by
  have key : ∀ l : List UInt8, l.length = 8 →
      ([l.getD 0 0, l.getD 1 0] ++ leBytes 2 (UInt16.ofNat (fromLE ((l.drop 2).take 2))).toNat ++
        leBytes 4 (UInt32.ofNat (fromLE (l.drop 4))).toNat) = l := by
    intro l hl
    match l, hl with
    | [a, b, c, d, e, f, g, h], _ =>
      have h1 : (UInt16.ofNat (fromLE [c, d])).toNat = fromLE [c, d] := by
        rw [UInt16.toNat_ofNat']; 
        have := fromLE_lt [c, d]
        simp only [List.length_cons, List.length_nil] at this
        exact Nat.mod_eq_of_lt (by norm_num at this; omega)
      have h2 : (UInt32.ofNat (fromLE [e, f, g, h])).toNat = fromLE [e, f, g, h] := by
        rw [UInt32.toNat_ofNat']; 
        have := fromLE_lt [e, f, g, h]
        simp only [List.length_cons, List.length_nil] at this
        exact Nat.mod_eq_of_lt (by norm_num at this; omega)
      have h3 : leBytes 2 (fromLE [c, d]) = [c, d] := leBytes_fromLE [c, d]
      have h4 : leBytes 4 (fromLE [e, f, g, h]) = [e, f, g, h] := leBytes_fromLE [e, f, g, h]
      simp only [List.drop_succ_cons, List.drop_zero, List.take_succ_cons, List.take_zero, h1, h2, h3, h4,
        List.getD_cons_zero, List.getD_cons_succ, List.cons_append, List.nil_append]
  exact key (leBytes 8 v.toNat) (leBytes_length _ _)

/-- C34: u64 to id and back is the identity. -/
theorem C34_u64_id_u64 (v : UInt64) : (PaymentId.ofU64 v).toU64 = v := by
  rw [← UInt64.toNat_inj, toU64_toNat, bytes_ofU64, fromLE_leBytes_lt]
  exact v.toNat_lt

example : (PaymentId.ofU64 0x0102030405060708).block = 0x01020304 ∧
    (PaymentId.ofU64 0x0102030405060708).index = 0x0506 := by decide

/-! ## C35 -/

/-- C35: decoding an encoded id followed by anything returns the id and leaves exactly what followed. -/
theorem C35_scale_roundtrip (p : PaymentId) (rest : List UInt8) :
    PaymentId.decode (p.encode ++ rest) = some (p, rest) := by
  have hl : p.encode.length = 8 := by simp [PaymentId.encode]
  have ht : (p.encode ++ rest).take 8 = p.encode := by rw [List.take_append_of_le_length (by omega)]; simp [hl]
  have hd : (p.encode ++ rest).drop 8 = rest := by
    rw [← hl]; simp
  unfold PaymentId.decode
  rw [if_pos (by simp [hl]), ht, hd]
  congr 2
  have : UInt64.ofNat (fromLE p.encode) = p.toU64 := by
    rw [PaymentId.encode, fromLE_leBytes_lt p.toU64.toNat_lt]; simp
  rw [this, C34_id_u64_id]

/-- C35: an encoded id has eight bytes, and fewer than eight bytes never decode. -/
theorem C35_scale_length (p : PaymentId) (input : List UInt8) :
    p.encode.length = 8 ∧ (input.length < 8 → PaymentId.decode input = none) := by
  refine ⟨by simp [PaymentId.encode], ?_⟩
  intro h; unfold PaymentId.decode; rw [if_neg (by omega)]

/-- C35: every input of at least eight bytes decodes, and re-encoding gives back the bytes read. -/
theorem C35_decode_total (input : List UInt8) (h : 8 ≤ input.length) :
    ∃ p, PaymentId.decode input = some (p, input.drop 8) ∧ p.encode = input.take 8 := by
  refine ⟨_, by unfold PaymentId.decode; rw [if_pos h], ?_⟩
  have hl : (input.take 8).length = 8 := by simp; omega
  have hlt := fromLE_lt (input.take 8)
  rw [hl] at hlt
  rw [PaymentId.encode, C34_u64_id_u64, UInt64.toNat_ofNat', Nat.mod_eq_of_lt (by norm_num at hlt; omega)]
  have := leBytes_fromLE (input.take 8)
  rwa [hl] at this

example : PaymentId.decode ((PaymentId.mk 2 5 5 1234567).encode ++ [9, 9]) =
    some (⟨2, 5, 5, 1234567⟩, [9, 9]) := by decide

/-! ## C36 -/

theorem display_eq (p : PaymentId) (alt : Bool) :
    p.display alt = .ok (((b58digits p.bytes).map fun d => alphabet.getD d 0).take 5 ++
      (if alt then [dash] else []) ++ ((b58digits p.bytes).map fun d => alphabet.getD d 0).drop 5) := by
  have h1 := b58digits_len_upper p.bytes p.bytes_length
  have h2 := b58digits_len_lower p.bytes p.bytes_length
  unfold PaymentId.display
  rw [b58encode_eq, if_pos (by omega)]
  simp only
  rw [if_pos (by simp; omega)]

theorem text_chars (p : PaymentId) : ∀ c ∈ (b58digits p.bytes).map (fun d => alphabet.getD d 0),
    c ≠ dash ∧ c < 128 := by
  intro c hc
  obtain ⟨d, hd, rfl⟩ := List.mem_map.1 hc
  exact alphabet_ne_dash ⟨d, b58digits_lt _ d hd⟩

theorem parse_text (p : PaymentId) :
    parseDigits ((b58digits p.bytes).map fun d => alphabet.getD d 0) = .ok p := by
  unfold parseDigits
  rw [b58_roundtrip p.bytes 8 (by rw [p.bytes_length])]
  simp only [p.bytes_length]
  simp only [Nat.sub_self, List.replicate_zero, List.append_nil]
  exact congrArg Outcome.ok (C34_id_u64_id p)

/-- C36: printing an id never fails and parsing the text, with or without the dash, returns the id. -/
theorem C36_print_parse (p : PaymentId) (alternate : Bool) :
    ∃ text, p.display alternate = .ok text ∧ PaymentId.fromStr text = .ok p := by
  refine ⟨_, display_eq p alternate, ?_⟩
  have hc := text_chars p
  have hp := parse_text p
  have hlen : ((b58digits p.bytes).map fun d => alphabet.getD d 0).length ≤ 11 := by
    simpa using b58digits_len_upper p.bytes p.bytes_length
  generalize hg : (b58digits p.bytes).map (fun d => alphabet.getD d 0) = t at hc hp hlen ⊢
  cases alternate with
  | false =>
    simp only [Bool.false_eq_true, if_false, List.append_nil, List.take_append_drop]
    unfold PaymentId.fromStr
    rw [splitOnce_none t (fun c h => (hc c h).1)]
    exact hp
  | true =>
    simp only [if_true]
    have : t.take 5 ++ [dash] ++ t.drop 5 = t.take 5 ++ dash :: t.drop 5 := by simp
    unfold PaymentId.fromStr
    rw [this, splitOnce_some _ _ (fun c h => (hc c (List.mem_of_mem_take h)).1)]
    simp only [List.take_append_drop]
    rw [if_neg (by simp; omega), if_pos]
    · exact hp
    · rw [List.all_eq_true]; intro c h; simpa using (hc c h).2

/-- C36: different ids print differently. -/
theorem C36_print_injective (p q : PaymentId) (alternate : Bool) (h : p.display alternate = q.display alternate) :
    p = q := by
  obtain ⟨t, h1, h2⟩ := C36_print_parse p alternate
  obtain ⟨u, h3, h4⟩ := C36_print_parse q alternate
  rw [h1, h3] at h
  cases h
  rw [h2] at h4; cases h4; rfl

/-- The example of the repository's unit test. -/
example : (PaymentId.mk 2 5 5 1234567).display true = .ok (ascii "LbNvS-NtVQs") := by decide +kernel

/-! ## C37 -/

/-- C37 (partial: texts with a dash and more than twelve other bytes do crash the parser, see
`C37_long_text_panics_fails`): parsing panics exactly for those texts. -/
theorem C37_parse_panics_iff_partial (s : List UInt8) :
    PaymentId.fromStr s = .panic ↔ ∃ a b, splitOnce s = some (a, b) ∧ 12 < a.length + b.length := by
  have hpd : ∀ t, parseDigits t ≠ .panic := by
    intro t; unfold parseDigits; cases b58decode 8 t <;> simp
  unfold PaymentId.fromStr
  cases hs : splitOnce s with
  | none => simp [hpd]
  | some ab =>
    obtain ⟨a, b⟩ := ab
    simp only
    split_ifs with h1 h2
    · exact ⟨fun _ => ⟨a, b, rfl, h1⟩, fun _ => rfl⟩
    · refine ⟨fun h => absurd h (hpd _), ?_⟩
      rintro ⟨x, y, h, hl⟩; cases h; omega
    · refine ⟨fun h => (by cases h), ?_⟩
      rintro ⟨x, y, h, hl⟩; cases h; omega

theorem splitOnce_length {s a b : List UInt8} (h : splitOnce s = some (a, b)) :
    s.length = a.length + b.length + 1 ∧ dash ∈ s := by
  induction s generalizing a with
  | nil => cases h
  | cons c cs ih =>
    unfold splitOnce at h
    split_ifs at h with hc
    · cases h; subst hc; simp
    · cases hs : splitOnce cs with
      | none => rw [hs] at h; cases h
      | some xy =>
        obtain ⟨x, y⟩ := xy
        rw [hs] at h
        simp only [Option.map_some, Option.some.injEq, Prod.mk.injEq] at h
        obtain ⟨rfl, rfl⟩ := h
        obtain ⟨h1, h2⟩ := ih hs
        simp only [List.length_cons]
        exact ⟨by omega, by simp [h2]⟩

/-- C37 (partial): texts of at most thirteen bytes, and texts without a dash of any length, never crash the
parser. -/
theorem C37_short_or_undashed_partial (s : List UInt8) (h : s.length ≤ 13 ∨ dash ∉ s) :
    PaymentId.fromStr s ≠ .panic := by
  rw [Ne, C37_parse_panics_iff_partial]
  rintro ⟨a, b, hs, hl⟩
  obtain ⟨h1, h2⟩ := splitOnce_length hs
  rcases h with h | h
  · omega
  · exact h h2

example : PaymentId.fromStr (ascii "LbNvS-NtVQs") = .ok ⟨2, 5, 5, 1234567⟩ ∧
    PaymentId.fromStr (ascii "0") = .err ∧ PaymentId.fromStr (ascii "zzzzzzzzzzzzzzzzz") = .err := by
  decide +kernel

/-- C37 fails: parsing "aaaaaa-aaaaaaa" panics. -/
theorem C37_long_text_panics_fails : PaymentId.fromStr (ascii "aaaaaa-aaaaaaa") = .panic := by decide +kernel

/-! ## C38, C39 -/

/-- C38 (indices are compared modulo 2^16, see `index_wraps`; `C38_kreivo_blocks` shows that no block is large enough for this to
matter): two ids are equal exactly when
block, extrinsic index modulo 2^16 and the first two beneficiary bytes are. -/
theorem C38_ids_distinct {b b' i i' : UInt32} {e e' : List UInt8} {p p' : PaymentId}
    (h : PaymentId.next b (some i) e = some p) (h' : PaymentId.next b' (some i') e' = some p') :
    p = p' ↔ (b = b' ∧ i.toNat % 65536 = i'.toNat % 65536 ∧ e.take 2 = e'.take 2) := by
  simp only [PaymentId.next, PaymentId.ofParts] at h h'
  match e, e' with
  | [], _ => simp at h
  | [x], _ => simp at h
  | _ :: _ :: _, [] => simp at h'
  | _ :: _ :: _, [x] => simp at h'
  | x :: y :: r, x' :: y' :: r' =>
    simp only [Option.some.injEq] at h h'
    subst h h'
    simp only [PaymentId.mk.injEq, List.take_succ_cons, List.take_zero, List.cons.injEq, and_true]
    rw [← UInt16.toNat_inj]
    simp only [UInt16.toNat_ofNat']
    tauto

/-- C38: in blocks of fewer than 2^16 extrinsics, payments of different blocks, different extrinsics
or to beneficiaries with different first two bytes get different ids. -/
theorem C38_ids_distinct_small {b b' i i' : UInt32} {e e' : List UInt8} {p p' : PaymentId}
    (hi : i.toNat < 65536) (hi' : i'.toNat < 65536)
    (h : PaymentId.next b (some i) e = some p) (h' : PaymentId.next b' (some i') e' = some p')
    (hne : b ≠ b' ∨ i ≠ i' ∨ e.take 2 ≠ e'.take 2) : p ≠ p' := by
  intro heq
  obtain ⟨h1, h2, h3⟩ := (C38_ids_distinct h h').1 heq
  rcases hne with hne | hne | hne
  · exact hne h1
  · apply hne
    rw [← UInt32.toNat_inj]
    rwa [Nat.mod_eq_of_lt hi, Nat.mod_eq_of_lt hi'] at h2
  · exact hne h3

example : PaymentId.next 10 (some 2) [1, 2, 3] = some ⟨1, 2, 2, 10⟩ := rfl

/-- The index is truncated to 16 bits, so ids would repeat in blocks of more than 65,536 extrinsics; Kreivo has none
(`C38_block_size`). -/
theorem index_wraps (b : UInt32) (x y : UInt8) :
    PaymentId.next b (some 1) [x, y] = PaymentId.next b (some 65537) [x, y] := rfl

/-- C39: block, index (mod 2^16) and beneficiary prefix are readable from the id, from its bytes and from its
u64 form. -/
theorem C39_provenance_readable {b i : UInt32} {e : List UInt8} {p : PaymentId}
    (h : PaymentId.next b (some i) e = some p) :
    p.blockNumber = b ∧ p.extrinsicIndex.toNat = i.toNat % 65536 ∧ p.bytes.take 2 = e.take 2 ∧
    fromLE ((p.bytes.drop 2).take 2) = i.toNat % 65536 ∧ fromLE (p.bytes.drop 4) = b.toNat ∧
    p.toU64.toNat / 2 ^ 32 = b.toNat ∧ p.toU64.toNat / 2 ^ 16 % 2 ^ 16 = i.toNat % 65536 ∧
    p.toU64.toNat % 2 ^ 16 = fromLE (e.take 2) := by
  simp only [PaymentId.next, PaymentId.ofParts] at h
  match e with
  | [] => simp at h
  | [x] => simp at h
  | x :: y :: r =>
    simp only [Option.some.injEq] at h
    subst h
    have hi : (UInt16.ofNat i.toNat).toNat = i.toNat % 65536 := by simp [UInt16.toNat_ofNat']
    have h1 : fromLE (leBytes 2 (i.toNat % 65536)) = i.toNat % 65536 :=
      fromLE_leBytes_lt (Nat.mod_lt _ (by norm_num))
    have h2 : fromLE (leBytes 4 b.toNat) = b.toNat := fromLE_leBytes_lt b.toNat_lt
    have hval : (PaymentId.mk x y (UInt16.ofNat i.toNat) b).toU64.toNat =
        (x.toNat + 256 * y.toNat) + 2 ^ 16 * (i.toNat % 65536) + 2 ^ 32 * b.toNat := by
      rw [toU64_toNat, PaymentId.bytes, hi, fromLE_append, fromLE_append, h1, h2]
      simp only [fromLE, List.length_append, leBytes_length, List.length_cons, List.length_nil]
      ring
    have hx : x.toNat < 256 := x.toNat_lt
    have hy : y.toNat < 256 := y.toNat_lt
    refine ⟨rfl, ?_, rfl, ?_, ?_, ?_, ?_, ?_⟩
    · simp only [PaymentId.extrinsicIndex, hi, UInt32.toNat_ofNat']
      omega
    · simp only [PaymentId.bytes, hi]
      simp only [List.cons_append, List.nil_append, List.drop_succ_cons, List.drop_zero]
      rw [List.take_append_of_le_length (by simp), List.take_of_length_le (by simp), h1]
    · simp only [PaymentId.bytes, hi]
      rw [List.drop_append_of_le_length (by simp), List.drop_eq_nil_of_le (by simp), List.nil_append, h2]
    · rw [hval]; omega
    · rw [hval]; omega
    · rw [hval]; simp only [fromLE, List.take_succ_cons, List.take_zero]; omega

/-- C39: as numbers, ids of later blocks are larger. -/
theorem C39_ordered_by_block {b b' i i' : UInt32} {e e' : List UInt8} {p p' : PaymentId}
    (h : PaymentId.next b (some i) e = some p) (h' : PaymentId.next b' (some i') e' = some p') (hlt : b < b') :
    p.toU64 < p'.toU64 := by
  have h1 := (C39_provenance_readable h).2.2.2.2.2.1
  have h2 := (C39_provenance_readable h').2.2.2.2.2.1
  rw [UInt32.lt_iff_toNat_lt] at hlt
  rw [UInt64.lt_iff_toNat_lt]
  omega

example : (PaymentId.mk 2 5 5 1234567).toU64.toNat / 2 ^ 32 = 1234567 := by decide

end Verif.Ids
