import Verif.Governance.ManagerTheorems

/-!
# Names of communities: theorems (C136)
-/

namespace Verif.Governance

open Verif Verif.Accounts Verif.Communities

/-- The bytes are text: those of some characters, one after the other, in Lean's own encoding of characters.
Specification only, no code behind it (outside /repo). -/
def IsText (b : List UInt8) : Prop := ∃ cs : List Char, b = cs.flatMap String.utf8EncodeChar

/-- The well-formed sequences, with numbers for bytes. -/
theorem utf8Len_encode (c : Char) (rest : List UInt8) :
    utf8Len (String.utf8EncodeChar c ++ rest) = some (String.utf8EncodeChar c).length := by
  have hv : c.val.toNat < 55296 ∨ 57343 < c.val.toNat ∧ c.val.toNat < 1114112 := c.valid
  generalize hvv : c.val.toNat = v at hv
  have n1 : ∀ n, (UInt8.ofNat n).toNat = n % 256 := fun n => by simp
  unfold String.utf8EncodeChar
  rw [hvv]
  dsimp only
  split
  · show utf8Len (UInt8.ofNat v :: rest) = some 1
    unfold utf8Len
    dsimp only
    rw [if_pos]
    rw [UInt8.le_iff_toNat_le, n1]
    show _ ≤ 127
    omega
  split
  · show utf8Len (UInt8.ofNat (v / 64 % 32 + 192) :: UInt8.ofNat (v % 64 + 128) :: rest) = some 2
    unfold utf8Len
    simp only [Bool.and_eq_true, decide_eq_true_eq, UInt8.le_iff_toNat_le, n1, UInt8.reduceToNat]
    rw [if_neg (by omega), if_pos (by omega), if_pos (by omega)]
  split
  · show utf8Len (UInt8.ofNat (v / 4096 % 16 + 224) :: UInt8.ofNat (v / 64 % 64 + 128) :: UInt8.ofNat (v % 64 + 128) :: rest) = some 3
    unfold utf8Len
    simp only [Bool.and_eq_true, decide_eq_true_eq, UInt8.le_iff_toNat_le, n1, UInt8.reduceToNat, ← UInt8.toNat_inj]
    rw [if_neg (by omega), if_neg (by omega), if_pos (by omega), if_pos]
    refine ⟨by omega, ?_⟩
    split
    · simp only [Bool.and_eq_true, decide_eq_true_eq]; omega
    split
    · simp only [Bool.and_eq_true, decide_eq_true_eq]; omega
    · simp only [Bool.and_eq_true, decide_eq_true_eq]; omega
  · show utf8Len (UInt8.ofNat (v / 262144 % 8 + 240) :: UInt8.ofNat (v / 4096 % 64 + 128) ::
      UInt8.ofNat (v / 64 % 64 + 128) :: UInt8.ofNat (v % 64 + 128) :: rest) = some 4
    unfold utf8Len
    simp only [Bool.and_eq_true, decide_eq_true_eq, UInt8.le_iff_toNat_le, n1, UInt8.reduceToNat, ← UInt8.toNat_inj]
    rw [if_neg (by omega), if_neg (by omega), if_neg (by omega), if_pos (by omega), if_pos]
    refine ⟨by omega, ?_⟩
    split
    · simp only [Bool.and_eq_true, decide_eq_true_eq]; omega
    split
    · simp only [Bool.and_eq_true, decide_eq_true_eq]; omega
    · simp only [Bool.and_eq_true, decide_eq_true_eq]; omega

theorem encode_ofNat (n : Nat) (h : n.isValidChar) : String.utf8EncodeChar (Char.ofNat n) =
    if n ≤ 127 then [UInt8.ofNat n]
    else if n ≤ 2047 then [UInt8.ofNat (n / 64 % 32 + 192), UInt8.ofNat (n % 64 + 128)]
    else if n ≤ 65535 then [UInt8.ofNat (n / 4096 % 16 + 224), UInt8.ofNat (n / 64 % 64 + 128), UInt8.ofNat (n % 64 + 128)]
    else [UInt8.ofNat (n / 262144 % 8 + 240), UInt8.ofNat (n / 4096 % 64 + 128), UInt8.ofNat (n / 64 % 64 + 128),
      UInt8.ofNat (n % 64 + 128)] := by
  have : (Char.ofNat n).val.toNat = n := by
    unfold Char.ofNat
    rw [dif_pos h]
    show (UInt32.ofNatLT n _).toNat = n
    exact UInt32.toNat_ofNatLT ..
  unfold String.utf8EncodeChar
  rw [this]

theorem ofNat_eq {n : Nat} {a : UInt8} (h : n = a.toNat) : UInt8.ofNat n = a := by
  subst h; exact UInt8.ofNat_toNat

theorem utf8Len_decode {l : List UInt8} {k : Nat} (h : utf8Len l = some k) :
    ∃ c : Char, l.take k = String.utf8EncodeChar c ∧ 1 ≤ k := by
  unfold utf8Len at h
  simp only [Bool.and_eq_true, decide_eq_true_eq, UInt8.le_iff_toNat_le, UInt8.reduceToNat, ← UInt8.toNat_inj] at h
  split at h
  · cases h
  rename_i a l
  have ha := a.toNat_lt
  split at h
  · rename_i h1
    cases h
    refine ⟨Char.ofNat a.toNat, ?_, by omega⟩
    rw [encode_ofNat _ (Or.inl (by omega)), if_pos h1]
    simp
  split at h
  · cases h
  rename_i b l
  have hb := b.toNat_lt
  split at h
  · rename_i h1
    split at h
    · rename_i h2
      cases h
      refine ⟨Char.ofNat (a.toNat % 32 * 64 + b.toNat % 64), ?_, by omega⟩
      rw [encode_ofNat _ (Or.inl (by omega)), if_neg (by omega), if_pos (by omega)]
      simp only [List.take_succ_cons, List.take_zero]
      rw [ofNat_eq (a := a) (by omega), ofNat_eq (a := b) (by omega)]
    · cases h
  split at h
  · cases h
  rename_i c l
  have hc := c.toNat_lt
  split at h
  · rename_i h1
    obtain ⟨h2, h⟩ := Option.ite_none_right_eq_some.1 h
    cases h
    obtain ⟨h2, h3⟩ := h2
    have h4 : 128 ≤ b.toNat ∧ b.toNat ≤ 191 ∧ (a.toNat = 224 → 160 ≤ b.toNat) ∧ (a.toNat = 237 → b.toNat ≤ 159) := by
      split at h3
      · simp only [Bool.and_eq_true, decide_eq_true_eq] at h3; omega
      split at h3
      · simp only [Bool.and_eq_true, decide_eq_true_eq] at h3; omega
      · simp only [Bool.and_eq_true, decide_eq_true_eq] at h3; omega
    refine ⟨Char.ofNat (a.toNat % 16 * 4096 + b.toNat % 64 * 64 + c.toNat % 64), ?_, by omega⟩
    rw [encode_ofNat _ (show _ ∨ _ by omega), if_neg (by omega), if_neg (by omega), if_pos (by omega)]
    simp only [List.take_succ_cons, List.take_zero]
    rw [ofNat_eq (a := a) (by omega), ofNat_eq (a := b) (by omega), ofNat_eq (a := c) (by omega)]
  split at h
  · cases h
  rename_i d l
  have hd := d.toNat_lt
  split at h
  · rename_i h1
    obtain ⟨h2, h⟩ := Option.ite_none_right_eq_some.1 h
    cases h
    obtain ⟨⟨h2, h5⟩, h3⟩ := h2
    have h4 : 128 ≤ b.toNat ∧ b.toNat ≤ 191 ∧ (a.toNat = 240 → 144 ≤ b.toNat) ∧ (a.toNat = 244 → b.toNat ≤ 143) := by
      split at h3
      · simp only [Bool.and_eq_true, decide_eq_true_eq] at h3; omega
      split at h3
      · simp only [Bool.and_eq_true, decide_eq_true_eq] at h3; omega
      · simp only [Bool.and_eq_true, decide_eq_true_eq] at h3; omega
    refine ⟨Char.ofNat (a.toNat % 8 * 262144 + b.toNat % 64 * 4096 + c.toNat % 64 * 64 + d.toNat % 64), ?_, by omega⟩
    rw [encode_ofNat _ (show _ ∨ _ by omega), if_neg (by omega), if_neg (by omega), if_neg (by omega)]
    simp only [List.take_succ_cons, List.take_zero]
    rw [ofNat_eq (a := a) (by omega), ofNat_eq (a := b) (by omega), ofNat_eq (a := c) (by omega), ofNat_eq (a := d) (by omega)]
  · cases h

theorem encode_ne_nil (c : Char) : 1 ≤ (String.utf8EncodeChar c).length := by
  unfold String.utf8EncodeChar
  dsimp only
  split
  · simp
  split
  · simp
  split <;> simp

theorem utf8Loop_text {n : Nat} {l : List UInt8} (h : utf8Loop n l = true) : IsText l := by
  induction n generalizing l with
  | zero =>
    cases l with
    | nil => exact ⟨[], rfl⟩
    | cons => cases h
  | succ n ih =>
    cases l with
    | nil => exact ⟨[], rfl⟩
    | cons a l =>
      rw [utf8Loop] at h
      · split at h
        · rename_i k hk
          obtain ⟨c, hc, _⟩ := utf8Len_decode hk
          obtain ⟨cs, hcs⟩ := ih h
          refine ⟨c :: cs, ?_⟩
          rw [List.flatMap_cons, ← hc, ← hcs, List.take_append_drop]
        · cases h
      · simp

theorem text_utf8Loop (cs : List Char) (n : Nat) (h : (cs.flatMap String.utf8EncodeChar).length ≤ n) :
    utf8Loop n (cs.flatMap String.utf8EncodeChar) = true := by
  induction cs generalizing n with
  | nil => cases n <;> rfl
  | cons c cs ih =>
    rw [List.flatMap_cons] at h ⊢
    have h1 := encode_ne_nil c
    have hl : (String.utf8EncodeChar c ++ cs.flatMap String.utf8EncodeChar).length =
        (String.utf8EncodeChar c).length + (cs.flatMap String.utf8EncodeChar).length := List.length_append
    cases n with
    | zero => omega
    | succ n =>
      rw [utf8Loop]
      · rw [utf8Len_encode]
        dsimp only
        rw [List.drop_left]
        exact ih n (by omega)
      · intro e
        rw [e] at hl
        simp only [List.length_nil] at hl
        omega

theorem validUtf8_iff (b : List UInt8) : validUtf8 b = true ↔ IsText b := by
  constructor
  · exact utf8Loop_text
  · rintro ⟨cs, rfl⟩
    exact text_utf8Loop cs _ (Nat.le_refl _)

/-! ## C136 -/

/-- C136: a community is registered only under a name that is text. -/
theorem C136_text (cfg : MConfig) (env : MEnv) (s s' : MSt) (o : Origin) (c : CId) (name : List UInt8)
    (firstAdmin : Address) (method : Option Method) (track : Option TrackInfo)
    (h : mdispatch cfg env s o (.register c name firstAdmin method track) = .ok s') : IsText name := by
  obtain ⟨_, _, _, _, _, _, h, _⟩ := mregister_ok h
  exact (validUtf8_iff name).1 h

/-- C136: and no name that is text is turned down as a bad name, though everything else may go wrong. -/
theorem C136_any_text (cfg : MConfig) (env : MEnv) (s : MSt) (o : Origin) (c : CId) (name : List UInt8)
    (firstAdmin : Address) (method : Option Method) (track : Option TrackInfo) (hn : IsText name) :
    mdispatch cfg env s o (.register c name firstAdmin method track) ≠ .error .invalidCommunityName := by
  have hch : ∀ i, chooseTrack name i ≠ .error .invalidCommunityName := by
    intro i h
    cases i with
    | some i => cases h
    | none => unfold chooseTrack at h; dsimp only at h; split at h <;> cases h
  have lift : ∀ {r : Except Err St} {s : MSt}, liftComm s r ≠ .error .invalidCommunityName := by
    intro r s h; cases r <;> cases h
  intro h
  simp only [mdispatch, mregister] at h
  split at h
  · cases h
  split at h
  · rename_i hv
    rw [(validUtf8_iff name).2 hn] at hv
    cases hv
  split at h
  · cases h
  have step : ∀ {α β : Type} {x : Except MErr α} {f : α → Except MErr β}, (x >>= f) = .error .invalidCommunityName →
      x = .error .invalidCommunityName ∨ ∃ a, x = .ok a ∧ f a = .error .invalidCommunityName := by
    intro α β x f h
    cases x with
    | error e => left; cases h; rfl
    | ok a => exact .inr ⟨a, rfl, h⟩
  rcases step h with h | ⟨_, _, h⟩
  · exact lift h
  rcases step h with h | ⟨_, _, h⟩
  · cases method with
    | none => cases h
    | some dm => exact lift h
  rcases step h with h | ⟨_, _, h⟩
  · unfold createCollection at h; split at h <;> cases h
  rcases step h with h | ⟨_, _, h⟩
  · exact hch _ h
  rcases step h with h | ⟨_, _, h⟩
  · unfold insertTrack at h; split at h <;> cases h
  rcases step h with h | ⟨_, _, h⟩
  · unfold induct at h; split at h <;> cases h
  cases h

/-- C136, what holds: registered without a track of its own, the community has its name as that of its track, from which it
can be read off whenever it does not end in zero bytes. Missing: communities registered with a track. -/
theorem C136_kept_partial (cfg : MConfig) (env : MEnv) (s s' : MSt) (o : Origin) (c : CId) (name : List UInt8)
    (firstAdmin : Address) (method : Option Method)
    (h : mdispatch cfg env s o (.register c name firstAdmin method none) = .ok s') (hz : name.getLast? ≠ some 0) :
    ∃ i, s'.tracks c = some i ∧ (i.name.reverse.dropWhile (· == 0)).reverse = name := by
  obtain ⟨i, k, hi, hn, _⟩ := C66_default_track cfg env s s' o c name firstAdmin method h
  refine ⟨i, hi, ?_⟩
  rw [hn, List.reverse_append, List.reverse_replicate]
  have h1 : ∀ (k : Nat) (l : List UInt8), (List.replicate k 0 ++ l).dropWhile (· == 0) = l.dropWhile (· == 0) := by
    intro k l
    induction k with
    | zero => rfl
    | succ k ih => rw [List.replicate_succ]; exact ih
  rw [h1]
  have h2 : name.reverse.dropWhile (· == 0) = name.reverse := by
    cases hr : name.reverse with
    | nil => rfl
    | cons a l =>
      have : name.getLast? = some a := by rw [← List.head?_reverse, hr]; rfl
      rw [this] at hz
      have ha : (a == 0) = false := by
        rw [beq_eq_false_iff_ne]
        intro e
        exact hz (by rw [e])
      rw [List.dropWhile_cons, ha]
      rfl
  rw [h2, List.reverse_reverse]

/-- C136 fails: registered with a track, the name is checked and then forgotten: whatever text is given, the outcome is the
same, and the track has whatever name came with it, text or not. -/
theorem C136_name_lost_fails (cfg : MConfig) (env : MEnv) (s : MSt) (o : Origin) (c : CId) (name name' : List UInt8)
    (firstAdmin : Address) (method : Option Method) (t : TrackInfo) (hn : IsText name) (hn' : IsText name') :
    mdispatch cfg env s o (.register c name firstAdmin method (some t)) =
      mdispatch cfg env s o (.register c name' firstAdmin method (some t)) ∧
    ∀ s', mdispatch cfg env s o (.register c name firstAdmin method (some t)) = .ok s' → s'.tracks c = some t := by
  constructor
  · simp only [mdispatch, mregister, (validUtf8_iff name).2 hn, (validUtf8_iff name').2 hn', chooseTrack]
  · intro s' h
    obtain ⟨i, hi, hd⟩ := (C65_success _ _ _ _ _ _ _ _ _ _ h).track.2.1
    rcases hd with hd | ⟨hd, _⟩
    · cases hd; exact hi
    · cases hd

/-! ## Examples -/

/-- Text of one to four bytes for a character. -/
example : IsText [0x76, 0xC3, 0xA9, 0xE2, 0x82, 0xAC, 0xF0, 0x9F, 0x98, 0x80] :=
  ⟨['v', 'é', '€', '😀'], by decide +kernel⟩

/-- A surrogate, an overlong form, and a character cut short are not. -/
example : ¬ IsText [0xED, 0xA0, 0x80] ∧ ¬ IsText [0xC0, 0x80] ∧ ¬ IsText [0xE2, 0x82] := by
  refine ⟨?_, ?_, ?_⟩ <;>
  · rw [← validUtf8_iff]; decide +kernel

/-- Community 7 is registered as "seven"; and as the same community whether it is to be called "seven" or "eight" if it
brings a track, whose name need not be text. -/
example : (∃ s' i, mdispatch kreivoManager Demo.menv Demo.mstart .root (.register 7 (ascii "seven") (.id [1]) none none) = .ok s' ∧
      s'.tracks 7 = some i ∧ (i.name.reverse.dropWhile (· == 0)).reverse = ascii "seven") ∧
    (ascii "seven").getLast? ≠ some 0 ∧ IsText (ascii "seven") ∧
    ∃ s' t, t.name = List.replicate 25 0xFF ∧ ¬ IsText t.name ∧
      mdispatch kreivoManager Demo.menv Demo.mstart .root (.register 7 (ascii "eight") (.id [1]) none (some t)) = .ok s' := by
  refine ⟨⟨_, _, rfl, rfl, by decide +kernel⟩, by decide +kernel, (validUtf8_iff _).1 (by decide +kernel), _,
    ⟨List.replicate 25 0xFF, 1, 0, 1, 1, 1, 1, ⟨1, 0, 1⟩, ⟨1, 0, 1⟩⟩, rfl, ?_, rfl⟩
  rw [← validUtf8_iff]; decide +kernel

end Verif.Governance
