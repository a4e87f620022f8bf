import Verif.Props.LHash

/-! C36: which texts stand for a labeled hash. The three text forms (and the base64 of signatures in C40 and C43, which is read by the
same decoder) only accept texts of their alphabet, and a text only stands for the bytes it is the encoding of. -/

namespace Jess

/-! ## Specification -/

/-- The characters of base64 in the order of their values. -/
def b64Alphabet (url : Bool) : Bytes :=
  b!"ABCDEFGHIJKLMNOPQRSTUVWXYZabcdefghijklmnopqrstuvwxyz0123456789" ++ (if url then b!"-_" else b!"+/")

/-- The text without line breaks. -/
def noBreaks (s : Bytes) : Bytes := s.filter (fun c => c ≠ 10 ∧ c ≠ 13)

/-- Hex digits are compared without case. -/
def lowerHex (c : UInt8) : UInt8 := if 65 ≤ c.toNat ∧ c.toNat ≤ 70 then UInt8.ofNat (c.toNat + 32) else c

/-- The texts agree in all characters but the last. -/
def AgreeButLast (s t : Bytes) : Prop := s.length = t.length ∧ s.dropLast = t.dropLast

/-! ## base64 -/

theorem b64_alphabet_char : ∀ url : Bool, ∀ n < 64, (b64Alphabet url)[n]? = some (b64Char url n) := by decide +kernel

theorem b64Val_fin : ∀ url : Bool, ∀ c : Fin 256, ∀ n : Nat, b64Val url (UInt8.ofNat c.val) = some n → n < 64 ∧ b64Char url n = UInt8.ofNat c.val := by
  intro url c n h
  have key : ∀ url : Bool, ∀ c : Fin 256, (match b64Val url (UInt8.ofNat c.val) with
      | none => true
      | some n => decide (n < 64 ∧ b64Char url n = UInt8.ofNat c.val)) = true := by decide +kernel
  have := key url c
  rw [h] at this
  simpa using this

theorem b64Val_some {url : Bool} {c : UInt8} {n : Nat} (h : b64Val url c = some n) : n < 64 ∧ b64Char url n = c := by
  have := b64Val_fin url ⟨c.toNat, u8_lt c⟩ n
  rw [show UInt8.ofNat (⟨c.toNat, u8_lt c⟩ : Fin 256).val = c from ofNat_toNat c] at this
  exact this h

theorem b64Vals_ok (url : Bool) : ∀ (s : Bytes) (vs : List Nat), b64Vals url s = .ok vs →
    (∀ v ∈ vs, v < 64) ∧ noBreaks s = vs.map (b64Char url)
  | [], vs, h => by cases h; simp [noBreaks]
  | c :: r, vs, h => by
    unfold b64Vals at h
    by_cases hc : c = 10 ∨ c = 13
    · rw [if_pos hc] at h
      have := b64Vals_ok url r vs h
      refine ⟨this.1, ?_⟩
      rw [← this.2]
      unfold noBreaks
      rw [List.filter_cons_of_neg]
      rcases hc with rfl | rfl <;> simp
    · rw [if_neg hc] at h
      split at h
      · cases h
      · rename_i v hv
        split at h
        · cases h
        · rename_i ws hws
          cases h
          have ih := b64Vals_ok url r ws hws
          have hv := b64Val_some hv
          refine ⟨by intro x hx; rcases List.mem_cons.mp hx with rfl | hx; exact hv.1; exact ih.1 x hx, ?_⟩
          rw [List.map_cons, ← ih.2, hv.2]
          unfold noBreaks
          rw [List.filter_cons_of_pos]
          simpa [not_or] using hc

theorem b64Bytes_ok : ∀ (vs : List Nat) (d : Bytes), (∀ v ∈ vs, v < 64) → b64Bytes vs = .ok d →
    vs.length = (b64Groups d).length ∧ vs.dropLast = (b64Groups d).dropLast
  | [], d, _, h => by cases h; simp [b64Groups]
  | [_], d, _, h => by cases h
  | [a, b], d, hv, h => by
    cases h
    have ha := hv a (by simp)
    have hb := hv b (by simp)
    simp only [b64Groups, List.length_cons, List.length_nil, List.dropLast_cons_cons, List.dropLast_singleton]
    rw [UInt8.toNat_ofNat']
    refine ⟨trivial, ?_⟩
    congr 1
    omega
  | [a, b, c], d, hv, h => by
    cases h
    have ha := hv a (by simp)
    have hb := hv b (by simp)
    have hc := hv c (by simp)
    simp only [b64Groups, List.length_cons, List.length_nil, List.dropLast_cons_cons, List.dropLast_singleton]
    simp only [UInt8.toNat_ofNat']
    refine ⟨trivial, ?_⟩
    congr 1
    · omega
    · congr 1; omega
  | a :: b :: c :: e :: r, d, hv, h => by
    unfold b64Bytes at h
    split at h
    · cases h
    · rename_i bs hbs
      cases h
      have ha := hv a (by simp)
      have hb := hv b (by simp)
      have hc := hv c (by simp)
      have he := hv e (by simp)
      have ih := b64Bytes_ok r bs (fun v hv' => hv v (by simp [hv'])) hbs
      unfold b64Groups
      simp only [UInt8.toNat_ofNat', List.length_cons]
      have e1 : (a * 4 + b / 16) % 2 ^ 8 / 4 = a := by omega
      have e2 : (a * 4 + b / 16) % 2 ^ 8 % 4 * 16 + (b % 16 * 16 + c / 4) % 2 ^ 8 / 16 = b := by omega
      have e3 : (b % 16 * 16 + c / 4) % 2 ^ 8 % 16 * 4 + (c % 4 * 64 + e) % 2 ^ 8 / 64 = c := by omega
      have e4 : (c % 4 * 64 + e) % 2 ^ 8 % 64 = e := by omega
      rw [e1, e2, e3, e4]
      refine ⟨by rw [ih.1], ?_⟩
      cases r with
      | nil =>
        cases hg : b64Groups bs with
        | nil => rfl
        | cons x y => rw [hg] at ih; simp at ih
      | cons x y =>
        cases hg : b64Groups bs with
        | nil => rw [hg] at ih; simp at ih
        | cons x' y' =>
          rw [hg] at ih
          simp only [List.dropLast_cons_cons]
          rw [ih.2]

/-- C36, C40, C43. The base64 texts that stand for the bytes `d`: every character is a line break or of the alphabet, and without the line
breaks the text is the encoding of `d`, up to the last character (of which up to four bits are not used). -/
theorem base64_accepts (url : Bool) (s d : Bytes) (h : b64Decode url s = .ok d) :
    (∀ c ∈ s, c = 10 ∨ c = 13 ∨ c ∈ b64Alphabet url) ∧ AgreeButLast (noBreaks s) (b64Encode url d) := by
  unfold b64Decode at h
  split at h
  · cases h
  · rename_i vs hvs
    obtain ⟨h1, h2⟩ := b64Vals_ok url s vs hvs
    obtain ⟨h3, h4⟩ := b64Bytes_ok vs d h1 h
    refine ⟨?_, ?_, ?_⟩
    · intro c hc
      by_cases hb : c = 10 ∨ c = 13
      · rcases hb with hb | hb <;> simp [hb]
      · have : c ∈ noBreaks s := by
          refine List.mem_filter.mpr ⟨hc, ?_⟩
          simpa [not_or] using hb
        rw [h2] at this
        obtain ⟨n, hn, rfl⟩ := List.mem_map.mp this
        exact .inr (.inr (List.mem_of_getElem? (b64_alphabet_char url n (h1 n hn))))
    · rw [h2, b64Encode, List.length_map, List.length_map, h3]
    · rw [h2, b64Encode, ← List.map_dropLast, ← List.map_dropLast, h4]

/-! ## hex -/

theorem hexVal_fin : ∀ c : Fin 256, (match hexVal (UInt8.ofNat c.val) with
      | none => true
      | some n => decide (n < 16 ∧ hexChar n = lowerHex (UInt8.ofNat c.val))) = true := by decide +kernel

theorem hexVal_some {c : UInt8} {n : Nat} (h : hexVal c = some n) : n < 16 ∧ hexChar n = lowerHex c := by
  have := hexVal_fin ⟨c.toNat, u8_lt c⟩
  rw [show UInt8.ofNat (⟨c.toNat, u8_lt c⟩ : Fin 256).val = c from ofNat_toNat c, h] at this
  simpa using this

/-- C36. The hex texts that stand for the bytes `d`: its encoding, in upper or lower case. -/
theorem hex_accepts : ∀ (s d : Bytes), hexDecode s = .ok d → s.map lowerHex = hexEncode d
  | [], d, h => by cases h; rfl
  | [_], d, h => by cases h
  | a :: b :: r, d, h => by
    unfold hexDecode at h
    split at h
    · rename_i x y hx hy
      split at h
      · rename_i o ho
        cases h
        have ih := hex_accepts r o ho
        have hx := hexVal_some hx
        have hy := hexVal_some hy
        unfold hexEncode at ih ⊢
        rw [List.flatMap_cons, List.map_cons, List.map_cons, ih, ← hx.2, ← hy.2, UInt8.toNat_ofNat']
        have e1 : (x * 16 + y) % 2 ^ 8 / 16 = x := by omega
        have e2 : (x * 16 + y) % 2 ^ 8 % 16 = y := by omega
        rw [e1, e2]; rfl
      · cases h
    · cases h

/-! ## base58 -/

theorem b58Val_fin : ∀ c : Fin 256, (match b58Val (UInt8.ofNat c.val) with
      | none => true
      | some n => decide (n < 58 ∧ b58Char n = UInt8.ofNat c.val)) = true := by decide +kernel

theorem b58Val_some {c : UInt8} {n : Nat} (h : b58Val c = some n) : n < 58 ∧ b58Char n = c := by
  have := b58Val_fin ⟨c.toNat, u8_lt c⟩
  rw [show UInt8.ofNat (⟨c.toNat, u8_lt c⟩ : Fin 256).val = c from ofNat_toNat c, h] at this
  simpa using this

theorem b58Vals_ok : ∀ (s : Bytes) (vs : List Nat), b58Vals s = .ok vs → (∀ v ∈ vs, v < 58) ∧ s = vs.map b58Char
  | [], vs, h => by cases h; simp
  | c :: r, vs, h => by
    unfold b58Vals at h
    split at h
    · cases h
    · rename_i v hv
      split at h
      · cases h
      · rename_i ws hws
        cases h
        have ih := b58Vals_ok r ws hws
        have hv := b58Val_some hv
        refine ⟨by intro x hx; rcases List.mem_cons.mp hx with rfl | hx; exact hv.1; exact ih.1 x hx, ?_⟩
        rw [List.map_cons, ← ih.2, hv.2]

theorem map_ofNat_toNat : ∀ (l : List Nat), (∀ x ∈ l, x < 256) → (l.map UInt8.ofNat).map UInt8.toNat = l := by
  intro l hl
  rw [List.map_map]
  conv => rhs; rw [← List.map_id l]
  refine List.map_congr_left ?_
  intro x hx
  have := hl x hx
  simp only [Function.comp, UInt8.toNat_ofNat', id]
  omega

/-- C36. Exactly one base58 text stands for given bytes. -/
theorem base58_accepts (s d : Bytes) : b58Decode s = .ok d ↔ d ≠ [] ∧ s = b58Encode d := by
  constructor
  · intro h
    unfold b58Decode at h
    split at h
    · cases h
    · rename_i hne
      split at h
      · cases h
      · rename_i vs hvs
        cases h
        obtain ⟨h1, h2⟩ := b58Vals_ok s vs hvs
        have hlt : ∀ x ∈ List.replicate (leadingZeros vs) 0 ++ toDigits 256 (ofDigits 58 vs), x < 256 := by
          intro x hx
          rcases List.mem_append.mp hx with hx | hx
          · rw [(List.mem_replicate.mp hx).2]; decide
          · exact toDigits_lt (by decide) _ x hx
        have hr := rebase (a := 58) (b := 256) (by decide) (by decide) vs h1
        refine ⟨?_, ?_⟩
        · intro h0
          have h0 := List.map_eq_nil_iff.mp h0
          rw [h0] at hr
          have : vs = [] := by rw [← hr]; simp [leadingZeros, ofDigits, toDigits_zero]
          rw [this] at h2
          exact hne h2
        · rw [b58Encode, map_ofNat_toNat _ hlt]
          rw [h2]
          congr 1
          exact hr.symm
  · rintro ⟨h1, rfl⟩
    exact b58Decode_encode h1

/-- C36. A text that is read as a labeled hash is a text form of bytes that load as that hash: nothing else is accepted. -/
theorem lhash_text_sound (s : Bytes) (h : LabeledHash) :
    (lhashFromHex s = .ok h → ∃ d, lhashLoad d = .ok h ∧ s.map lowerHex = hexEncode d) ∧
    (lhashFromBase64 s = .ok h → ∃ d, lhashLoad d = .ok h ∧ (∀ c ∈ s, c = 10 ∨ c = 13 ∨ c ∈ b64Alphabet true) ∧ AgreeButLast (noBreaks s) (b64Encode true d)) ∧
    (lhashFromBase58 s = .ok h ↔ ∃ d, lhashLoad d = .ok h ∧ s = b58Encode d) := by
  unfold lhashFromHex lhashFromBase64 lhashFromBase58
  simp only [bind_ok_iff]
  refine ⟨?_, ?_, ?_, ?_⟩
  · rintro ⟨d, h1, h2⟩; exact ⟨d, h2, hex_accepts s d h1⟩
  · rintro ⟨d, h1, h2⟩; exact ⟨d, h2, base64_accepts true s d h1⟩
  · rintro ⟨d, h1, h2⟩; exact ⟨d, h2, ((base58_accepts s d).mp h1).2⟩
  · rintro ⟨d, h1, h2⟩
    refine ⟨d, (base58_accepts s d).mpr ⟨?_, h2⟩, h1⟩
    rintro rfl
    cases h1

/-- Texts with characters outside the alphabets, with a padding character or with an impossible length are refused; line breaks, upper
case hex digits and unused bits are not. -/
theorem text_codes_example : b64Decode true b!"ZGF[" = .error .malformed ∧ b64Decode true b!"ZGF0YQ==" = .error .malformed ∧
    b64Decode true b!"ZGF0Y" = .error .malformed ∧ b64Decode true b!"ZGF+" = .error .malformed ∧ b64Decode false b!"ZGF_" = .error .malformed ∧
    b64Decode true b!"ZGF0YQ" = .ok b!"data" ∧ b64Decode true b!"ZG\nF0\r\nYR" = .ok b!"data" ∧
    hexDecode b!"4a4G" = .error .malformed ∧ hexDecode b!"4A4b" = .ok b!"JK" ∧ hexDecode b!"4a4" = .error .malformed ∧
    b58Decode b!"0OIl" = .error .malformed ∧ b58Decode (b58Encode b!"data") = .ok b!"data" := by decide +kernel

end Jess
