import Verif.Lemmas.Utf8

/-!
# C114: the texts that survive are the texts of Unicode

What the formats call UTF-8 (`utf8`, byte ranges as in `utf8.Valid`) is what Unicode calls UTF-8: the encodings of lists of characters, where a
character (`Char` of Lean) is a number below 0xd800, or from 0xe000 to 0x10ffff, and its encoding is that of Lean's library. So a text survives iff it
is the text of some list of characters; surrogates, encodings that are too long and numbers that are too big are no texts.
-/

namespace Jess
namespace Formats

private theorem u8 {a : UInt8} {n : Nat} (hn : n < 256) : a = UInt8.ofNat n ↔ a.toNat = n := by
  constructor
  · rintro rfl
    rw [UInt8.toNat_ofNat', Nat.mod_eq_of_lt hn]
  · intro h
    rw [← h, UInt8.ofNat_toNat]

private theorem contByte_iff {a : UInt8} : contByte a = true ↔ 128 ≤ a.toNat ∧ a.toNat ≤ 191 := by
  simp [contByte, UInt8.le_iff_toNat_le]

private theorem eqNat {a b : UInt8} : a = b ↔ a.toNat = b.toNat := UInt8.toNat_inj.symm

private theorem utf8Two_iff {a b : UInt8} : utf8Two a b = true ↔
    (a.toNat = 0xe0 ∧ 0xa0 ≤ b.toNat ∧ b.toNat ≤ 0xbf) ∨ (0xe1 ≤ a.toNat ∧ a.toNat ≤ 0xec ∧ 128 ≤ b.toNat ∧ b.toNat ≤ 191) ∨
    (a.toNat = 0xed ∧ 0x80 ≤ b.toNat ∧ b.toNat ≤ 0x9f) ∨ (0xee ≤ a.toNat ∧ a.toNat ≤ 0xef ∧ 128 ≤ b.toNat ∧ b.toNat ≤ 191) := by
  simp [utf8Two, contByte_iff, UInt8.le_iff_toNat_le, eqNat, and_assoc, or_assoc]

private theorem utf8Three_iff {a b : UInt8} : utf8Three a b = true ↔
    (a.toNat = 0xf0 ∧ 0x90 ≤ b.toNat ∧ b.toNat ≤ 0xbf) ∨ (0xf1 ≤ a.toNat ∧ a.toNat ≤ 0xf3 ∧ 128 ≤ b.toNat ∧ b.toNat ≤ 191) ∨
    (a.toNat = 0xf4 ∧ 0x80 ≤ b.toNat ∧ b.toNat ≤ 0x8f) := by
  simp [utf8Three, contByte_iff, UInt8.le_iff_toNat_le, eqNat, and_assoc, or_assoc]

private theorem range2 {a b : UInt8} : (0xc2 ≤ a && a ≤ 0xdf && contByte b) = true ↔ 0xc2 ≤ a.toNat ∧ a.toNat ≤ 0xdf ∧ 128 ≤ b.toNat ∧ b.toNat ≤ 191 := by
  simp [contByte_iff, UInt8.le_iff_toNat_le, and_assoc]

private theorem low {a : UInt8} : a < 0x80 ↔ a.toNat < 128 := by
  simp [UInt8.lt_iff_toNat_lt]

/-- The character of a number. -/
private theorem char_of {n : Nat} (h : n < 0xd800 ∨ 0xdfff < n ∧ n < 0x110000) : ∃ c : Char, c.val.toNat = n := by
  have hv : n.isValidChar := h
  refine ⟨⟨UInt32.ofNat n, ?_⟩, ?_⟩
  · show (UInt32.ofNat n).toNat.isValidChar
    rw [UInt32.toNat_ofNat', Nat.mod_eq_of_lt (by omega)]
    exact hv
  · show (UInt32.ofNat n).toNat = n
    rw [UInt32.toNat_ofNat', Nat.mod_eq_of_lt (by omega)]

/-- The encoding of a character is a character in UTF-8. -/
theorem isChar_encode (c : Char) : IsChar (String.utf8EncodeChar c) := by
  have hv : c.val.toNat < 0xd800 ∨ 0xdfff < c.val.toNat ∧ c.val.toNat < 0x110000 := c.valid
  have nat : ∀ n : Nat, n < 256 → (UInt8.ofNat n).toNat = n := fun n hn => by rw [UInt8.toNat_ofNat', Nat.mod_eq_of_lt hn]
  unfold String.utf8EncodeChar
  simp only []
  split
  · refine .one ?_
    rw [low, nat _ (by omega)]
    omega
  · split
    · refine .two ?_ ?_
      · rw [low, nat _ (by omega)]
        omega
      · rw [range2, nat _ (by omega), nat _ (by omega)]
        omega
    · split
      · refine .three ?_ ?_ ?_
        · rw [low, nat _ (by omega)]
          omega
        · rw [range2, nat _ (by omega), nat _ (by omega)]
          omega
        · rw [Bool.and_eq_true, utf8Two_iff, contByte_iff, nat _ (by omega), nat _ (by omega), nat _ (by omega)]
          omega
      · refine .four ?_ ?_ ?_ ?_
        · rw [low, nat _ (by omega)]
          omega
        · rw [range2, nat _ (by omega), nat _ (by omega)]
          omega
        · rw [Bool.and_eq_true, utf8Two_iff, contByte_iff, nat _ (by omega), nat _ (by omega), nat _ (by omega)]
          omega
        · rw [Bool.and_eq_true, Bool.and_eq_true, utf8Three_iff, contByte_iff, contByte_iff, nat _ (by omega), nat _ (by omega), nat _ (by omega), nat _ (by omega)]
          omega

/-- A character in UTF-8 is the encoding of a character. -/
theorem encode_isChar {b : Bytes} (h : IsChar b) : ∃ c, b = String.utf8EncodeChar c := by
  cases h with
  | @one a ha =>
    rw [low] at ha
    obtain ⟨c, hc⟩ := char_of (n := a.toNat) (by omega)
    refine ⟨c, ?_⟩
    unfold String.utf8EncodeChar
    simp only []
    rw [if_pos (by omega), hc, UInt8.ofNat_toNat]
  | @two a b ha hb =>
    rw [range2] at hb
    obtain ⟨c, hc⟩ := char_of (n := (a.toNat - 0xc0) * 64 + (b.toNat - 0x80)) (by omega)
    refine ⟨c, ?_⟩
    unfold String.utf8EncodeChar
    simp only []
    rw [if_neg (by omega), if_pos (by omega), hc, List.cons.injEq, List.cons.injEq, u8 (by omega), u8 (by omega)]
    refine ⟨by omega, by omega, rfl⟩
  | @three a b d ha hb ht =>
    rw [Bool.and_eq_true, utf8Two_iff, contByte_iff] at ht
    obtain ⟨c, hc⟩ := char_of (n := (a.toNat - 0xe0) * 4096 + (b.toNat - 0x80) * 64 + (d.toNat - 0x80)) (by omega)
    refine ⟨c, ?_⟩
    unfold String.utf8EncodeChar
    simp only []
    rw [if_neg (by omega), if_neg (by omega), if_pos (by omega), hc, List.cons.injEq, List.cons.injEq, List.cons.injEq, u8 (by omega), u8 (by omega),
      u8 (by omega)]
    refine ⟨by omega, by omega, by omega, rfl⟩
  | @four a b d e ha hb ht hf =>
    rw [Bool.and_eq_true, Bool.and_eq_true, utf8Three_iff, contByte_iff, contByte_iff] at hf
    obtain ⟨c, hc⟩ := char_of (n := (a.toNat - 0xf0) * 262144 + (b.toNat - 0x80) * 4096 + (d.toNat - 0x80) * 64 + (e.toNat - 0x80)) (by omega)
    refine ⟨c, ?_⟩
    unfold String.utf8EncodeChar
    simp only []
    rw [if_neg (by omega), if_neg (by omega), if_neg (by omega), hc, List.cons.injEq, List.cons.injEq, List.cons.injEq, List.cons.injEq, u8 (by omega),
      u8 (by omega), u8 (by omega), u8 (by omega)]
    refine ⟨by omega, by omega, by omega, by omega, rfl⟩

/-- **UTF-8 is UTF-8**: the texts are the encodings of the lists of characters of Unicode, as Lean's library encodes them. -/
theorem utf8_iff (b : Bytes) : utf8 b = true ↔ ∃ s : List Char, b = s.flatMap String.utf8EncodeChar := by
  constructor
  · refine utf8_ind (motive := fun b => utf8 b = true → ∃ s : List Char, b = s.flatMap String.utf8EncodeChar) ?_ ?_ ?_ b
    · exact fun _ => ⟨[], rfl⟩
    · intro ch r hch ih h
      rw [utf8_char hch] at h
      obtain ⟨s, rfl⟩ := ih h
      obtain ⟨c, rfl⟩ := encode_isChar hch
      exact ⟨c :: s, by simp⟩
    · intros
      simp_all
  · rintro ⟨s, rfl⟩
    induction s with
    | nil => rfl
    | cons c s ih =>
      rw [List.flatMap_cons, utf8_char (isChar_encode c)]
      exact ih

/-- **What survives**: a text is read back from JSON unchanged iff it is the encoding of some list of characters. -/
theorem text_unchanged_iff (b : Bytes) : utf8Fix b = b ↔ ∃ s : List Char, b = s.flatMap String.utf8EncodeChar := by
  rw [utf8Fix_iff, utf8_iff]

/-- And what is read back is always the encoding of some list of characters. -/
theorem text_fixed (b : Bytes) : ∃ s : List Char, utf8Fix b = s.flatMap String.utf8EncodeChar := (utf8_iff _).mp (utf8_fix b)

/-- Texts, and what is none: a surrogate (U+D800), a number above U+10FFFF, an encoding that is too long, a text that is cut. -/
theorem utf8_example :
    "aé€😀".toList.flatMap String.utf8EncodeChar = [97, 0xc3, 0xa9, 0xe2, 0x82, 0xac, 0xf0, 0x9f, 0x98, 0x80] ∧
    utf8 [97, 0xc3, 0xa9, 0xe2, 0x82, 0xac, 0xf0, 0x9f, 0x98, 0x80] = true ∧
    utf8 [0xed, 0xa0, 0x80] = false ∧ utf8 [0xf4, 0x90, 0x80, 0x80] = false ∧ utf8 [0xc0, 0x80] = false ∧ utf8 [0xe0, 0x80, 0x80] = false ∧
    utf8 [97, 0xc3] = false ∧ utf8Fix [97, 0xc3, 98] = [97, 0xef, 0xbf, 0xbd, 98] := by
  decide +kernel

end Formats
end Jess
