import Verif.Model.Encoding
import Verif.Lemmas.Basic

/-! Lemmas about the text encodings: decoding inverts encoding. -/

namespace Jess

theorem ofNat_toNat (b : UInt8) : UInt8.ofNat b.toNat = b := by
  simp

theorem u8_lt (b : UInt8) : b.toNat < 256 := UInt8.toNat_lt b

/-! ## hex -/

theorem hexVal_char : ∀ n < 16, hexVal (hexChar n) = some n := by decide

theorem hexDecode_encode : ∀ d : Bytes, hexDecode (hexEncode d) = .ok d
  | [] => rfl
  | b :: r => by
    have h1 := hexVal_char (b.toNat / 16) (by have := u8_lt b; omega)
    have h2 := hexVal_char (b.toNat % 16) (by omega)
    have ih := hexDecode_encode r
    show hexDecode (hexChar _ :: hexChar _ :: hexEncode r) = _
    simp only [hexDecode, h1, h2, ih]
    rw [show b.toNat / 16 * 16 + b.toNat % 16 = b.toNat by omega, ofNat_toNat]

/-! ## base64 -/

theorem b64Val_char : ∀ url : Bool, ∀ n < 64, b64Val url (b64Char url n) = some n ∧ b64Char url n ≠ 10 ∧ b64Char url n ≠ 13 := by
  decide

theorem b64Groups_lt : ∀ (d : Bytes), ∀ g ∈ b64Groups d, g < 64
  | [], g, h => by simp [b64Groups] at h
  | [a], g, h => by
    have := u8_lt a
    simp only [b64Groups, List.mem_cons, List.not_mem_nil, or_false] at h
    rcases h with rfl | rfl <;> omega
  | [a, b], g, h => by
    have := u8_lt a; have := u8_lt b
    simp only [b64Groups, List.mem_cons, List.not_mem_nil, or_false] at h
    rcases h with rfl | rfl | rfl <;> omega
  | a :: b :: c :: r, g, h => by
    have := u8_lt a; have := u8_lt b; have := u8_lt c
    simp only [b64Groups, List.mem_cons] at h
    rcases h with rfl | rfl | rfl | rfl | h
    · omega
    · omega
    · omega
    · omega
    · exact b64Groups_lt r g h

theorem b64Bytes_groups : ∀ (d : Bytes), b64Bytes (b64Groups d) = .ok d
  | [] => rfl
  | [a] => by
    have := u8_lt a
    simp only [b64Groups, b64Bytes]
    rw [show a.toNat / 4 * 4 + a.toNat % 4 * 16 / 16 = a.toNat by omega, ofNat_toNat]
  | [a, b] => by
    have := u8_lt a; have := u8_lt b
    simp only [b64Groups, b64Bytes]
    rw [show a.toNat / 4 * 4 + (a.toNat % 4 * 16 + b.toNat / 16) / 16 = a.toNat by omega,
      show (a.toNat % 4 * 16 + b.toNat / 16) % 16 * 16 + b.toNat % 16 * 4 / 4 = b.toNat by omega, ofNat_toNat, ofNat_toNat]
  | a :: b :: c :: r => by
    have := u8_lt a; have := u8_lt b; have := u8_lt c
    simp only [b64Groups, b64Bytes, b64Bytes_groups r]
    rw [show a.toNat / 4 * 4 + (a.toNat % 4 * 16 + b.toNat / 16) / 16 = a.toNat by omega,
      show (a.toNat % 4 * 16 + b.toNat / 16) % 16 * 16 + (b.toNat % 16 * 4 + c.toNat / 64) / 4 = b.toNat by omega,
      show (b.toNat % 16 * 4 + c.toNat / 64) % 4 * 64 + c.toNat % 64 = c.toNat by omega, ofNat_toNat, ofNat_toNat, ofNat_toNat]

theorem b64Vals_map (url : Bool) : ∀ (gs : List Nat), (∀ g ∈ gs, g < 64) → b64Vals url (gs.map (b64Char url)) = .ok gs
  | [], _ => rfl
  | g :: gs, h => by
    obtain ⟨h1, h2, h3⟩ := b64Val_char url g (h g (by simp))
    have ih := b64Vals_map url gs (fun g hg => h g (by simp [hg]))
    simp only [List.map_cons, b64Vals, h1, ih]
    rw [if_neg (by simp [h2, h3])]

theorem b64Decode_encode (url : Bool) (d : Bytes) : b64Decode url (b64Encode url d) = .ok d := by
  unfold b64Decode b64Encode
  rw [b64Vals_map url _ (b64Groups_lt d)]
  exact b64Bytes_groups d

/-- Line breaks anywhere do not matter. -/
theorem b64Vals_breaks (url : Bool) : ∀ s : Bytes, b64Vals url (s.filter (fun c => c ≠ 10 ∧ c ≠ 13)) = b64Vals url s
  | [] => rfl
  | c :: r => by
    have ih := b64Vals_breaks url r
    by_cases h : c = 10 ∨ c = 13
    · rw [List.filter_cons_of_neg (by simp; rcases h with h | h <;> simp [h]), ih]
      simp only [b64Vals, if_pos h]
    · rw [List.filter_cons_of_pos (by simp; exact not_or.mp h)]
      simp only [b64Vals, if_neg h, ih]

/-! ## base58 -/

theorem digitsLoop_fuel (b : Nat) (f : Nat) : ∀ g n, n ≤ f → n ≤ g → digitsLoop b f n = digitsLoop b g n := by
  induction f with
  | zero =>
    intro g n h1 _
    cases g with
    | zero => rfl
    | succ g => simp only [digitsLoop]; rw [if_pos (Or.inl (by omega))]
  | succ f ih =>
    intro g n h1 h2
    cases g with
    | zero => simp only [digitsLoop]; rw [if_pos (Or.inl (by omega))]
    | succ g =>
      simp only [digitsLoop]
      by_cases h : n = 0 ∨ b < 2
      · rw [if_pos h, if_pos h]
      · have := Nat.div_lt_self (n := n) (k := b) (by omega) (by omega)
        rw [if_neg h, if_neg h, ih g (n / b) (by omega) (by omega)]

/-- The equation of `toDigits`. -/
theorem toDigits_step (b n : Nat) : toDigits b n = if n = 0 ∨ b < 2 then [] else toDigits b (n / b) ++ [n % b] := by
  unfold toDigits
  cases n with
  | zero => rw [if_pos (Or.inl rfl)]; rfl
  | succ n =>
    show (if n + 1 = 0 ∨ b < 2 then _ else digitsLoop b n ((n + 1) / b) ++ _) = _
    by_cases h : n + 1 = 0 ∨ b < 2
    · rw [if_pos h, if_pos h]
    · have := Nat.div_lt_self (n := n + 1) (k := b) (by omega) (by omega)
      rw [if_neg h, if_neg h, digitsLoop_fuel b n ((n + 1) / b) ((n + 1) / b) (by omega) (by omega)]

theorem toDigits_zero (b : Nat) : toDigits b 0 = [] := by
  rw [toDigits_step]; simp

theorem toDigits_pos {b n : Nat} (hb : 2 ≤ b) (hn : n ≠ 0) : toDigits b n = toDigits b (n / b) ++ [n % b] := by
  rw [toDigits_step]; rw [if_neg (by omega)]

theorem ofDigits_snoc (b : Nat) (ds : List Nat) (d : Nat) : ofDigits b (ds ++ [d]) = ofDigits b ds * b + d := by
  simp [ofDigits]

theorem ofDigits_toDigits {b : Nat} (hb : 2 ≤ b) (n : Nat) : ofDigits b (toDigits b n) = n := by
  induction n using Nat.strongRecOn with
  | ind n ih =>
    by_cases hn : n = 0
    · subst hn; rw [toDigits_zero]; rfl
    · rw [toDigits_pos hb hn, ofDigits_snoc, ih (n / b) (Nat.div_lt_self (by omega) (by omega)), Nat.mul_comm]
      exact Nat.div_add_mod n b

theorem toDigits_lt {b : Nat} (hb : 2 ≤ b) (n : Nat) : ∀ d ∈ toDigits b n, d < b := by
  induction n using Nat.strongRecOn with
  | ind n ih =>
    by_cases hn : n = 0
    · subst hn; rw [toDigits_zero]; simp
    · rw [toDigits_pos hb hn]
      intro d hd
      rcases List.mem_append.mp hd with hd | hd
      · exact ih _ (Nat.div_lt_self (by omega) (by omega)) d hd
      · rw [List.mem_singleton.mp hd]; exact Nat.mod_lt _ (by omega)

/-- The digits of the number of digits: the leading zeros are gone. -/
theorem toDigits_ofDigits {b : Nat} (hb : 2 ≤ b) : ∀ (n : Nat) (ds : List Nat), ds.length = n → (∀ d ∈ ds, d < b) →
    toDigits b (ofDigits b ds) = ds.dropWhile (· == 0) := by
  intro n
  induction n with
  | zero => intro ds h _; rw [List.length_eq_zero_iff.mp h]; exact toDigits_zero b
  | succ n ih =>
    intro ds h hd
    obtain ⟨init, last, rfl⟩ : ∃ init last, ds = init ++ [last] :=
      ⟨ds.dropLast, ds.getLast (by intro h0; rw [h0] at h; cases h), (List.dropLast_concat_getLast _).symm⟩
    have hlast : last < b := hd last (by simp)
    have ihi := ih init (by simpa using h) (fun d hx => hd d (by simp [hx]))
    rw [ofDigits_snoc]
    by_cases hz : ofDigits b init = 0
    · rw [hz, toDigits_zero] at ihi
      rw [List.dropWhile_append, ← ihi]
      simp only [hz, Nat.zero_mul, Nat.zero_add, List.isEmpty_nil, if_true]
      by_cases hl : last = 0
      · subst hl; rw [toDigits_zero]; rfl
      · rw [toDigits_pos hb hl, Nat.div_eq_of_lt hlast, Nat.mod_eq_of_lt hlast, toDigits_zero]
        have hb0 : (last == 0) = false := by simpa using hl
        rw [List.nil_append, List.dropWhile_cons, hb0]; rfl
    · have hne : ofDigits b init * b + last ≠ 0 := by
        have : 0 < ofDigits b init * b := Nat.mul_pos (by omega) (by omega)
        omega
      rw [toDigits_pos hb hne]
      have e1 : (ofDigits b init * b + last) / b = ofDigits b init := by
        rw [Nat.mul_comm, Nat.mul_add_div (by omega), Nat.div_eq_of_lt hlast, Nat.add_zero]
      have e2 : (ofDigits b init * b + last) % b = last := by
        rw [Nat.mul_comm, Nat.mul_add_mod, Nat.mod_eq_of_lt hlast]
      rw [e1, e2, ihi, List.dropWhile_append]
      have : (init.dropWhile (· == 0)).isEmpty = false := by
        rw [← ihi]
        rw [toDigits_pos hb hz]; simp
      rw [this]; rfl

theorem leadingZeros_replicate (z : Nat) (ds : List Nat) (h : leadingZeros ds = 0) : leadingZeros (List.replicate z 0 ++ ds) = z := by
  induction z with
  | zero => simpa using h
  | succ z ih =>
    unfold leadingZeros at ih ⊢
    rw [List.replicate_succ, List.cons_append, List.takeWhile_cons]
    simp only [beq_self_eq_true, if_true, List.length_cons, ih]

theorem ofDigits_replicate (b z : Nat) (ds : List Nat) : ofDigits b (List.replicate z 0 ++ ds) = ofDigits b ds := by
  induction z with
  | zero => rfl
  | succ z ih =>
    rw [List.replicate_succ, List.cons_append]
    unfold ofDigits at ih ⊢
    simpa using ih

/-- The first digit is not zero. -/
theorem leadingZeros_toDigits {b : Nat} (hb : 2 ≤ b) (n : Nat) : leadingZeros (toDigits b n) = 0 := by
  induction n using Nat.strongRecOn with
  | ind n ih =>
    by_cases hn : n = 0
    · subst hn; rw [toDigits_zero]; rfl
    · rw [toDigits_pos hb hn]
      have := ih (n / b) (Nat.div_lt_self (by omega) (by omega))
      unfold leadingZeros at this ⊢
      cases hd : toDigits b (n / b) with
      | nil =>
        have hz : n / b = 0 := by
          rcases Nat.eq_zero_or_pos (n / b) with h | h
          · exact h
          · rw [toDigits_pos hb (by omega)] at hd; simp at hd
        have : n % b ≠ 0 := by
          have := Nat.div_add_mod n b
          rw [hz] at this
          intro h0; rw [h0] at this; simp at this; omega
        simp [List.takeWhile, this]
      | cons a as =>
        rw [hd] at this
        rw [List.cons_append, List.takeWhile_cons]
        rw [List.takeWhile_cons] at this
        split at this
        · simp at this
        · rename_i hx; rw [if_neg hx]; rfl

theorem zeros_split (ds : List Nat) : List.replicate (leadingZeros ds) 0 ++ ds.dropWhile (· == 0) = ds := by
  induction ds with
  | nil => rfl
  | cons d ds ih =>
    unfold leadingZeros at ih ⊢
    by_cases h : d = 0
    · subst h
      simp only [List.takeWhile_cons, beq_self_eq_true, if_true, List.length_cons, List.replicate_succ, List.cons_append,
        List.dropWhile_cons]
      rw [ih]
    · simp [List.takeWhile_cons, List.dropWhile_cons, h]

/-- Converting digits to another base and back, with leading zeros kept. -/
theorem rebase {a b : Nat} (ha : 2 ≤ a) (hb : 2 ≤ b) (ds : List Nat) (hd : ∀ d ∈ ds, d < a) :
    List.replicate (leadingZeros (List.replicate (leadingZeros ds) 0 ++ toDigits b (ofDigits a ds))) 0 ++
      toDigits a (ofDigits b (List.replicate (leadingZeros ds) 0 ++ toDigits b (ofDigits a ds))) = ds := by
  rw [leadingZeros_replicate _ _ (leadingZeros_toDigits hb _), ofDigits_replicate, ofDigits_toDigits hb,
    toDigits_ofDigits ha _ ds rfl hd, zeros_split]

theorem b58Val_char : ∀ n < 58, b58Val (b58Char n) = some n := by decide +kernel

theorem b58Char_val : ∀ c : Fin 256, ∀ n < 58, b58Val (UInt8.ofNat c.val) = some n → b58Char n = UInt8.ofNat c.val := by decide +kernel

theorem b58Vals_map : ∀ (gs : List Nat), (∀ g ∈ gs, g < 58) → b58Vals (gs.map b58Char) = .ok gs
  | [], _ => rfl
  | g :: gs, h => by
    have h1 := b58Val_char g (h g (by simp))
    have ih := b58Vals_map gs (fun g hg => h g (by simp [hg]))
    simp only [List.map_cons, b58Vals, h1, ih]

theorem b58Digits_lt (d : Bytes) : ∀ g ∈ List.replicate (leadingZeros (d.map UInt8.toNat)) 0 ++
    toDigits 58 (ofDigits 256 (d.map UInt8.toNat)), g < 58 := by
  intro g hg
  rcases List.mem_append.mp hg with h | h
  · rw [(List.mem_replicate.mp h).2]; decide
  · exact toDigits_lt (by decide) _ g h

theorem b58Encode_ne_nil {d : Bytes} (h : d ≠ []) : b58Encode d ≠ [] := by
  intro h0
  unfold b58Encode at h0
  have h0 := List.map_eq_nil_iff.mp h0
  have := rebase (a := 256) (b := 58) (by decide) (by decide) (d.map UInt8.toNat) (by
    intro x hx; obtain ⟨y, _, rfl⟩ := List.mem_map.mp hx; exact u8_lt y)
  rw [h0] at this
  rw [show leadingZeros [] = 0 from rfl, show ofDigits 58 [] = 0 from rfl, toDigits_zero] at this
  exact h (List.map_eq_nil_iff.mp this.symm)

theorem b58Decode_encode {d : Bytes} (h : d ≠ []) : b58Decode (b58Encode d) = .ok d := by
  have hne := b58Encode_ne_nil h
  unfold b58Decode
  split
  · rename_i h0; exact absurd h0 hne
  · have h1 := b58Vals_map _ (b58Digits_lt d)
    have h2 : b58Vals (b58Encode d) = .ok (List.replicate (leadingZeros (d.map UInt8.toNat)) 0 ++
        toDigits 58 (ofDigits 256 (d.map UInt8.toNat))) := h1
    rw [h2]
    simp only
    rw [rebase (by decide) (by decide) _ (by intro x hx; obtain ⟨y, _, rfl⟩ := List.mem_map.mp hx; exact u8_lt y)]
    rw [List.map_map]
    congr 1
    rw [show (UInt8.ofNat ∘ UInt8.toNat) = id from funext ofNat_toNat, List.map_id]

end Jess
