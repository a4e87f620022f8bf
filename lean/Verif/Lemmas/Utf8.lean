import Verif.Model.Formats

/-! # UTF-8 -/

namespace Jess.Formats

theorem contByte_ge {c : UInt8} (h : contByte c = true) : ¬ c < 0x80 := by
  unfold contByte at h
  simp only [Bool.and_eq_true, decide_eq_true_eq, UInt8.le_iff_toNat_le, UInt8.lt_iff_toNat_lt] at h ⊢
  have : (0x80 : UInt8).toNat = 128 := rfl
  omega

theorem two_ge {a b : UInt8} (h : utf8Two a b = true) : ¬ b < 0x80 := by
  unfold utf8Two at h
  simp only [Bool.or_eq_true, Bool.and_eq_true, decide_eq_true_eq] at h
  rcases h with ((⟨⟨_, h⟩, _⟩ | ⟨_, h⟩) | ⟨⟨_, h⟩, _⟩) | ⟨_, h⟩
  · simp only [UInt8.le_iff_toNat_le, UInt8.lt_iff_toNat_lt] at h ⊢
    have : (0x80 : UInt8).toNat = 128 := rfl
    have : (0xa0 : UInt8).toNat = 160 := rfl
    omega
  · exact contByte_ge h
  · simp only [UInt8.le_iff_toNat_le, UInt8.lt_iff_toNat_lt] at h ⊢
    have : (0x80 : UInt8).toNat = 128 := rfl
    omega
  · exact contByte_ge h

theorem three_ge {a b : UInt8} (h : utf8Three a b = true) : ¬ b < 0x80 := by
  unfold utf8Three at h
  simp only [Bool.or_eq_true, Bool.and_eq_true, decide_eq_true_eq] at h
  have : (0x80 : UInt8).toNat = 128 := rfl
  have : (0x90 : UInt8).toNat = 144 := rfl
  rcases h with (⟨⟨_, h⟩, _⟩ | ⟨_, h⟩) | ⟨⟨_, h⟩, _⟩
  · simp only [UInt8.le_iff_toNat_le, UInt8.lt_iff_toNat_lt] at h ⊢
    omega
  · exact contByte_ge h
  · simp only [UInt8.le_iff_toNat_le, UInt8.lt_iff_toNat_lt] at h ⊢
    omega

theorem utf8_cons {x : UInt8} (hx : x < 0x80) (r : Bytes) : utf8 (x :: r) = utf8 r := by
  conv => lhs; rw [utf8.eq_def]
  simp only [hx, if_true]

/-- UTF-8 is UTF-8 before and after an ASCII character. -/
theorem utf8_split {c : UInt8} (hc : c < 0x80) (b : Bytes) : ∀ a : Bytes, utf8 (a ++ c :: b) = (utf8 a && utf8 b)
  | [] => by
    rw [List.nil_append, utf8.eq_def]
    simp [hc, utf8]
  | [x] => by
    have h1 : contByte c = false := by cases h : contByte c; rfl; exact absurd hc (contByte_ge h)
    by_cases hx : x < 0x80
    · have := utf8_split hc b []
      rw [List.nil_append] at this
      rw [List.cons_append, List.nil_append, utf8_cons hx, utf8_cons hx, this]
    · have h2 : ∀ a, utf8Two a c = false := by intro a; cases h : utf8Two a c; rfl; exact absurd hc (two_ge h)
      have h3 : ∀ a, utf8Three a c = false := by intro a; cases h : utf8Three a c; rfl; exact absurd hc (three_ge h)
      rw [List.cons_append, List.nil_append, utf8.eq_def]
      simp only [hx, if_false, h1, h2, h3, Bool.and_false, Bool.false_and, Bool.false_eq_true]
      have : utf8 [x] = false := by simp [utf8, hx]
      rw [this]
      cases b with
      | nil => rfl
      | cons y b => cases b <;> rfl
  | [x, y] => by
    have h1 : contByte c = false := by cases h : contByte c; rfl; exact absurd hc (contByte_ge h)
    by_cases hx : x < 0x80
    · have := utf8_split hc b [y]
      rw [List.cons_append, utf8_cons hx, utf8_cons hx, this]
    · simp only [List.cons_append, List.nil_append]
      by_cases hy : (0xc2 ≤ x && x ≤ 0xdf && contByte y) = true
      · have := utf8_split hc b []
        rw [List.nil_append] at this
        conv => lhs; rw [utf8.eq_def]
        conv => rhs; rw [utf8.eq_def]
        simp only [hx, if_false, hy, if_true, this]
      · conv => lhs; rw [utf8.eq_def]
        conv => rhs; rw [utf8.eq_def]
        simp only [hx, if_false, hy, h1, Bool.and_false, Bool.false_and, Bool.false_eq_true]
        cases b <;> rfl
  | [x, y, z] => by
    have h1 : contByte c = false := by cases h : contByte c; rfl; exact absurd hc (contByte_ge h)
    by_cases hx : x < 0x80
    · have := utf8_split hc b [y, z]
      rw [List.cons_append, utf8_cons hx, utf8_cons hx, this]
    · by_cases hy : (0xc2 ≤ x && x ≤ 0xdf && contByte y) = true
      · have := utf8_split hc b [z]
        rw [List.cons_append, List.nil_append] at this
        simp only [List.cons_append, List.nil_append]
        conv => lhs; rw [utf8.eq_def]
        conv => rhs; rw [utf8.eq_def]
        simp only [hx, if_false, hy, if_true, this]
      · by_cases hz : (utf8Two x y && contByte z) = true
        · have := utf8_split hc b []
          rw [List.nil_append] at this
          simp only [List.cons_append, List.nil_append]
          conv => lhs; rw [utf8.eq_def]
          conv => rhs; rw [utf8.eq_def]
          simp only [hx, if_false, hy, hz, if_true, this]
          simp
        · simp only [List.cons_append, List.nil_append]
          conv => lhs; rw [utf8.eq_def]
          conv => rhs; rw [utf8.eq_def]
          simp only [hx, if_false, hy, hz, h1, Bool.and_false, Bool.false_and, Bool.false_eq_true]
  | x :: y :: z :: u :: r => by
    by_cases hx : x < 0x80
    · have := utf8_split hc b (y :: z :: u :: r)
      rw [List.cons_append, utf8_cons hx, utf8_cons hx, this]
    · by_cases hy : (0xc2 ≤ x && x ≤ 0xdf && contByte y) = true
      · have := utf8_split hc b (z :: u :: r)
        simp only [List.cons_append] at this ⊢
        conv => lhs; rw [utf8.eq_def]
        conv => rhs; rw [utf8.eq_def]
        simp only [hx, if_false, hy, if_true, this]
      · by_cases hz : (utf8Two x y && contByte z) = true
        · have := utf8_split hc b (u :: r)
          simp only [List.cons_append] at this ⊢
          conv => lhs; rw [utf8.eq_def]
          conv => rhs; rw [utf8.eq_def]
          simp only [hx, if_false, hy, hz, if_true, this]
          simp
        · have := utf8_split hc b r
          simp only [List.cons_append] at this ⊢
          conv => lhs; rw [utf8.eq_def]
          conv => rhs; rw [utf8.eq_def]
          simp only [hx, if_false, hy, hz, Bool.false_eq_true]
          by_cases hu : (utf8Three x y && contByte z && contByte u) = true
          · simp only [hu, if_true, this]
          · simp only [hu, if_false, Bool.false_and, Bool.false_eq_true]
  termination_by a => a.length

/-- ASCII is UTF-8. -/
theorem utf8_ascii : ∀ s : Bytes, (∀ c ∈ s, c < 0x80) → utf8 s = true
  | [], _ => rfl
  | c :: s, h => by
    rw [utf8.eq_def]
    simp only [h c (by simp), if_true]
    exact utf8_ascii s (fun x hx => h x (by simp [hx]))

/-- A character in UTF-8. -/
inductive IsChar : Bytes → Prop where
  | one {a : UInt8} : a < 0x80 → IsChar [a]
  | two {a b : UInt8} : ¬ a < 0x80 → (0xc2 ≤ a && a ≤ 0xdf && contByte b) = true → IsChar [a, b]
  | three {a b c : UInt8} : ¬ a < 0x80 → ¬ (0xc2 ≤ a && a ≤ 0xdf && contByte b) = true → (utf8Two a b && contByte c) = true → IsChar [a, b, c]
  | four {a b c d : UInt8} : ¬ a < 0x80 → ¬ (0xc2 ≤ a && a ≤ 0xdf && contByte b) = true → ¬ (utf8Two a b && contByte c) = true →
      (utf8Three a b && contByte c && contByte d) = true → IsChar [a, b, c, d]

theorem IsChar.length_pos {ch : Bytes} (h : IsChar ch) : 0 < ch.length := by cases h <;> simp

/-- After a character. -/
theorem utf8_char {ch : Bytes} (h : IsChar ch) (r : Bytes) : utf8 (ch ++ r) = utf8 r := by
  cases h with
  | one h1 => exact utf8_cons h1 r
  | two h1 h2 =>
    simp only [List.cons_append, List.nil_append]
    conv => lhs; rw [utf8.eq_def]
    simp only [h1, h2, if_true, if_false]
  | three h1 h2 h3 =>
    simp only [List.cons_append, List.nil_append]
    conv => lhs; rw [utf8.eq_def]
    simp only [h1, h2, h3, if_true, if_false, Bool.false_eq_true]
  | four h1 h2 h3 h4 =>
    simp only [List.cons_append, List.nil_append]
    conv => lhs; rw [utf8.eq_def]
    simp only [h1, h2, h3, h4, if_true, if_false, Bool.false_eq_true]

theorem utf8Map_char {ch : Bytes} (h : IsChar ch) (g : Bytes → Bytes) (bad r : Bytes) : utf8Map g bad (ch ++ r) = g ch ++ utf8Map g bad r := by
  cases h with
  | one h1 =>
    simp only [List.cons_append, List.nil_append]
    conv => lhs; rw [utf8Map.eq_def]
    simp only [h1, if_true]
  | two h1 h2 =>
    simp only [List.cons_append, List.nil_append]
    conv => lhs; rw [utf8Map.eq_def]
    simp only [h1, h2, if_true, if_false]
  | three h1 h2 h3 =>
    simp only [List.cons_append, List.nil_append]
    conv => lhs; rw [utf8Map.eq_def]
    simp only [h1, h2, h3, if_true, if_false, Bool.false_eq_true]
  | four h1 h2 h3 h4 =>
    simp only [List.cons_append, List.nil_append]
    conv => lhs; rw [utf8Map.eq_def]
    simp only [h1, h2, h3, h4, if_true, if_false, Bool.false_eq_true]

/-- A text is empty, begins with a character, or with a byte that does not belong to one. -/
theorem utf8_cases (s : Bytes) : s = [] ∨ (∃ ch r, IsChar ch ∧ s = ch ++ r) ∨
    ∃ a r, s = a :: r ∧ utf8 s = false ∧ ∀ g bad, utf8Map g bad s = bad ++ utf8Map g bad r := by
  match s with
  | [] => exact .inl rfl
  | a :: r =>
    refine .inr ?_
    by_cases h1 : a < 0x80
    · exact .inl ⟨[a], r, .one h1, rfl⟩
    match r with
    | [] =>
      refine .inr ⟨a, [], rfl, ?_, ?_⟩
      · rw [utf8.eq_def]; simp only [h1, if_false]
      · intro g bad
        have : utf8Map g bad [] = [] := rfl
        rw [this, List.append_nil, utf8Map.eq_def]; simp only [h1, if_false]
    | b :: r =>
      by_cases h2 : (0xc2 ≤ a && a ≤ 0xdf && contByte b) = true
      · exact .inl ⟨[a, b], r, .two h1 h2, rfl⟩
      match r with
      | [] =>
        refine .inr ⟨a, [b], rfl, ?_, ?_⟩
        · rw [utf8.eq_def]; simp only [h1, h2, if_false, Bool.false_eq_true]
        · intro g bad
          conv => lhs; rw [utf8Map.eq_def]
          simp only [h1, h2, if_false, Bool.false_eq_true]
      | c :: r =>
        by_cases h3 : (utf8Two a b && contByte c) = true
        · exact .inl ⟨[a, b, c], r, .three h1 h2 h3, rfl⟩
        match r with
        | [] =>
          refine .inr ⟨a, [b, c], rfl, ?_, ?_⟩
          · rw [utf8.eq_def]; simp only [h1, h2, h3, if_false, Bool.false_eq_true]
          · intro g bad
            conv => lhs; rw [utf8Map.eq_def]
            simp only [h1, h2, h3, if_false, Bool.false_eq_true]
        | d :: r =>
          by_cases h4 : (utf8Three a b && contByte c && contByte d) = true
          · exact .inl ⟨[a, b, c, d], r, .four h1 h2 h3 h4, rfl⟩
          · refine .inr ⟨a, b :: c :: d :: r, rfl, ?_, ?_⟩
            · rw [utf8.eq_def]; simp only [h1, h2, h3, h4, if_false, Bool.false_eq_true]
            · intro g bad
              conv => lhs; rw [utf8Map.eq_def]
              simp only [h1, h2, h3, h4, if_false, Bool.false_eq_true]

/-- Induction over the characters of a text. -/
theorem utf8_ind {motive : Bytes → Prop} (nil : motive []) (char : ∀ ch r, IsChar ch → motive r → motive (ch ++ r))
    (bad : ∀ a r, utf8 (a :: r) = false → (∀ g b, utf8Map g b (a :: r) = b ++ utf8Map g b r) → motive r → motive (a :: r)) : ∀ s, motive s := by
  intro s
  generalize hn : s.length = n
  induction n using Nat.strongRecOn generalizing s with
  | ind n ih =>
    rcases utf8_cases s with rfl | ⟨ch, r, hc, rfl⟩ | ⟨a, r, rfl, h1, h2⟩
    · exact nil
    · have := hc.length_pos
      rw [List.length_append] at hn
      exact char ch r hc (ih r.length (by omega) r rfl)
    · rw [List.length_cons] at hn
      exact bad a r h1 h2 (ih r.length (by omega) r rfl)

/-- UTF-8 is not changed. -/
theorem utf8Fix_id {s : Bytes} (h : utf8 s = true) : utf8Fix s = s := by
  induction s using utf8_ind with
  | nil => rfl
  | char ch r hc ih =>
    rw [utf8_char hc] at h
    unfold utf8Fix at ih ⊢
    rw [utf8Map_char hc, ih h]
    rfl
  | bad a r h1 _ _ => rw [h1] at h; cases h

/-- What is replaced is UTF-8. -/
theorem utf8_fix (s : Bytes) : utf8 (utf8Fix s) = true := by
  induction s using utf8_ind with
  | nil => rfl
  | char ch r hc ih =>
    unfold utf8Fix at ih ⊢
    rw [utf8Map_char hc]
    exact (utf8_char hc _).trans ih
  | bad a r _ h2 ih =>
    unfold utf8Fix at ih ⊢
    rw [h2]
    have : IsChar [0xef, 0xbf, 0xbd] := .three (by decide) (by decide) (by decide)
    exact (utf8_char this _).trans ih

/-- A text is not changed if and only if it is UTF-8. -/
theorem utf8Fix_iff (s : Bytes) : utf8Fix s = s ↔ utf8 s = true :=
  ⟨fun h => h ▸ utf8_fix s, utf8Fix_id⟩

/-- Before and after an ASCII character. -/
theorem utf8Map_split {c : UInt8} (hc : c < 0x80) (g : Bytes → Bytes) (bad b : Bytes) : ∀ a : Bytes, utf8Map g bad (a ++ c :: b) = utf8Map g bad a ++ utf8Map g bad (c :: b)
  | [] => rfl
  | [x] => by
    have h1 : contByte c = false := by cases h : contByte c; rfl; exact absurd hc (contByte_ge h)
    by_cases hx : x < 0x80
    · have e := utf8Map_char (.one hx) g bad (c :: b)
      have e2 := utf8Map_char (.one hx) g bad []
      have e3 : utf8Map g bad [] = [] := rfl
      rw [List.append_nil, e3, List.append_nil] at e2
      rw [e, e2]
    · have h2 : ∀ a, utf8Two a c = false := by intro a; cases h : utf8Two a c; rfl; exact absurd hc (two_ge h)
      have h3 : ∀ a, utf8Three a c = false := by intro a; cases h : utf8Three a c; rfl; exact absurd hc (three_ge h)
      have : utf8Map g bad [x] = bad := by rw [utf8Map.eq_def]; simp only [hx, if_false]
      rw [this, List.cons_append, List.nil_append]
      conv => lhs; rw [utf8Map.eq_def]
      simp only [hx, if_false, h1, h2, h3, Bool.and_false, Bool.false_and, Bool.false_eq_true]
      cases b with
      | nil => rfl
      | cons y b => cases b <;> rfl
  | [x, y] => by
    have h1 : contByte c = false := by cases h : contByte c; rfl; exact absurd hc (contByte_ge h)
    have i1 := utf8Map_split hc g bad b [y]
    simp only [List.cons_append, List.nil_append] at i1 ⊢
    by_cases hx : x < 0x80
    · conv => lhs; rw [utf8Map.eq_def]
      conv => rhs; arg 1; rw [utf8Map.eq_def]
      simp only [hx, if_true, i1, List.append_assoc]
    by_cases hy : (0xc2 ≤ x && x ≤ 0xdf && contByte y) = true
    · conv => lhs; rw [utf8Map.eq_def]
      conv => rhs; arg 1; rw [utf8Map.eq_def]
      have e : utf8Map g bad [] = [] := rfl
      simp only [hx, if_false, hy, if_true, e, List.append_nil, List.append_assoc]
    · conv => lhs; rw [utf8Map.eq_def]
      conv => rhs; arg 1; rw [utf8Map.eq_def]
      simp only [hx, if_false, hy, h1, Bool.and_false, Bool.false_and, Bool.false_eq_true, List.append_assoc, ← i1]
      cases b <;> rfl
  | [x, y, z] => by
    have h1 : contByte c = false := by cases h : contByte c; rfl; exact absurd hc (contByte_ge h)
    have i1 := utf8Map_split hc g bad b [y, z]
    have i2 := utf8Map_split hc g bad b [z]
    simp only [List.cons_append, List.nil_append] at i1 i2 ⊢
    by_cases hx : x < 0x80
    · conv => lhs; rw [utf8Map.eq_def]
      conv => rhs; arg 1; rw [utf8Map.eq_def]
      simp only [hx, if_true, i1, List.append_assoc]
    by_cases hy : (0xc2 ≤ x && x ≤ 0xdf && contByte y) = true
    · conv => lhs; rw [utf8Map.eq_def]
      conv => rhs; arg 1; rw [utf8Map.eq_def]
      simp only [hx, if_false, hy, if_true, i2, List.append_assoc]
    by_cases hz : (utf8Two x y && contByte z) = true
    · conv => lhs; rw [utf8Map.eq_def]
      conv => rhs; arg 1; rw [utf8Map.eq_def]
      have e : utf8Map g bad [] = [] := rfl
      simp only [hx, if_false, hy, hz, if_true, e, List.append_nil, List.append_assoc, Bool.false_eq_true]
    · conv => lhs; rw [utf8Map.eq_def]
      conv => rhs; arg 1; rw [utf8Map.eq_def]
      simp only [hx, if_false, hy, hz, h1, Bool.and_false, Bool.false_and, Bool.false_eq_true, List.append_assoc, ← i1]
  | x :: y :: z :: u :: r => by
    have i1 := utf8Map_split hc g bad b (y :: z :: u :: r)
    have i2 := utf8Map_split hc g bad b (z :: u :: r)
    have i3 := utf8Map_split hc g bad b (u :: r)
    have i4 := utf8Map_split hc g bad b r
    simp only [List.cons_append] at i1 i2 i3 ⊢
    conv => lhs; rw [utf8Map.eq_def]
    conv => rhs; arg 1; rw [utf8Map.eq_def]
    simp only [i1, i2, i3, i4]
    repeat' split
    all_goals simp only [List.append_assoc]
  termination_by a => a.length

/-- Replacing goes on after an ASCII character. -/
theorem utf8Fix_split {c : UInt8} (hc : c < 0x80) (a b : Bytes) : utf8Fix (a ++ c :: b) = utf8Fix a ++ c :: utf8Fix b := by
  unfold utf8Fix
  rw [utf8Map_split hc]
  have := utf8Map_char (.one hc) id [0xef, 0xbf, 0xbd] b
  rw [List.cons_append, List.nil_append] at this
  rw [this]
  rfl

/-- Replacing adds no zero. -/
theorem utf8Fix_zero (s : Bytes) : 0 ∈ utf8Fix s → 0 ∈ s := by
  unfold utf8Fix
  induction s using utf8_ind with
  | nil => exact id
  | char ch r hc ih =>
    rw [utf8Map_char hc]
    intro h
    rcases List.mem_append.1 h with h | h
    · exact List.mem_append.2 (.inl h)
    · exact List.mem_append.2 (.inr (ih h))
  | bad a r _ h2 ih =>
    rw [h2]
    intro h
    rcases List.mem_append.1 h with h | h
    · exact absurd h (by decide)
    · exact List.mem_cons_of_mem _ (ih h)

end Jess.Formats
