import Verif.Model.FileText
import Verif.Lemmas.Basic
import Verif.Lemmas.Encoding

/-! # Lemmas about text: white space, lines, sorting -/

namespace Jess

theorem hasPrefix_iff {s p : Bytes} : hasPrefix s p = true ↔ p <+: s := by
  unfold hasPrefix; exact List.isPrefixOf_iff_prefix

theorem hasSuffix_iff {s p : Bytes} : hasSuffix s p = true ↔ p <:+ s := by
  unfold hasSuffix; exact List.isSuffixOf_iff_suffix

/-! ## stripping code words -/

/-- Nonempty words, none of which is a prefix of another. -/
def PrefixFree (codes : List Bytes) : Prop := (∀ c ∈ codes, c ≠ []) ∧ ∀ c ∈ codes, ∀ d ∈ codes, c <+: d → c = d

theorem strip_exists (codes : List Bytes) : ∀ (n : Nat) (s : Bytes), ∃ ws : List Bytes, (∀ w ∈ ws, w ∈ codes) ∧ s = ws.flatten ++ stripCodes codes n s
  | 0, s => ⟨[], by simp, by simp [stripCodes]⟩
  | n + 1, s => by
    unfold stripCodes
    split
    · exact ⟨[], by simp, by simp⟩
    · rename_i c hc
      have hm := List.mem_of_find?_eq_some hc
      have hp := List.find?_some hc
      obtain ⟨t, ht⟩ := hasPrefix_iff.1 hp
      obtain ⟨ws, hw, he⟩ := strip_exists codes n (s.drop c.length)
      refine ⟨c :: ws, by simpa [hm] using hw, ?_⟩
      have : s.drop c.length = t := by rw [← ht]; simp
      rw [this] at he ⊢
      rw [List.flatten_cons, List.append_assoc, ← he, ht]

theorem strip_clean (codes : List Bytes) (hne : ∀ c ∈ codes, c ≠ []) : ∀ (n : Nat) (s : Bytes), s.length ≤ n →
    ∀ c ∈ codes, ¬ c <+: stripCodes codes n s
  | 0, s, hn, c, hc, hp => by
    have : s = [] := List.length_eq_zero_iff.1 (by omega)
    subst this
    simp only [stripCodes] at hp
    exact hne c hc (List.prefix_nil.1 hp)
  | n + 1, s, hn, c, hc, hp => by
    unfold stripCodes at hp
    split at hp
    · rename_i hf
      have := List.find?_eq_none.1 hf c hc
      exact this (hasPrefix_iff.2 hp)
    · rename_i d hd
      have hm := List.mem_of_find?_eq_some hd
      have hpos : 0 < d.length := List.length_pos_iff.2 (hne d hm)
      exact strip_clean codes hne n (s.drop d.length) (by simp; omega) c hc hp

theorem strip_unique (codes : List Bytes) (hpf : PrefixFree codes) : ∀ (ws : List Bytes) (n : Nat) (r : Bytes),
    (∀ w ∈ ws, w ∈ codes) → (∀ c ∈ codes, ¬ c <+: r) → (ws.flatten ++ r).length ≤ n → stripCodes codes n (ws.flatten ++ r) = r
  | [], n, r, _, hr, _ => by
    cases n with
    | zero => simp [stripCodes]
    | succ n =>
      unfold stripCodes
      rw [List.find?_eq_none.2 (fun c hc h => hr c hc (by simpa using hasPrefix_iff.1 h))]
      rfl
  | w :: ws, n, r, hw, hr, hn => by
    have hwc : w ∈ codes := hw w (by simp)
    have hpos : 0 < w.length := List.length_pos_iff.2 (hpf.1 w hwc)
    cases n with
    | zero => simp at hn; exact absurd hn.1 (hpf.1 w hwc)
    | succ n =>
      unfold stripCodes
      have hwp : w <+: ((w :: ws).flatten ++ r) := ⟨ws.flatten ++ r, by simp⟩
      cases hf : codes.find? (fun c => hasPrefix ((w :: ws).flatten ++ r) c) with
      | none => exact absurd (hasPrefix_iff.2 hwp) (by simpa using List.find?_eq_none.1 hf w hwc)
      | some c =>
        have hc := List.mem_of_find?_eq_some hf
        have hcp := hasPrefix_iff.1 (List.find?_some hf)
        have hcw : c = w := by
          rcases Nat.le_total c.length w.length with h | h
          · exact hpf.2 c hc w hwc (List.prefix_of_prefix_length_le hcp hwp h)
          · exact (hpf.2 w hwc c hc (List.prefix_of_prefix_length_le hwp hcp h)).symm
        subst hcw
        simp only [List.flatten_cons, List.append_assoc, List.drop_left]
        exact strip_unique codes hpf ws n r (fun x hx => hw x (by simp [hx])) hr (by simp at hn ⊢; omega)

instance (codes : List Bytes) : Decidable (PrefixFree codes) := by unfold PrefixFree; infer_instance

theorem space_prefixFree : PrefixFree spaceCodes := by decide +kernel
theorem space_suffixFree : PrefixFree (spaceCodes.map List.reverse) := by decide +kernel

/-- The characters with the Unicode property White_Space. -/
def WhiteSpace (c : Char) : Prop :=
  (9 ≤ c.toNat ∧ c.toNat ≤ 13) ∨ c.toNat = 0x20 ∨ c.toNat = 0x85 ∨ c.toNat = 0xA0 ∨ c.toNat = 0x1680 ∨
  (0x2000 ≤ c.toNat ∧ c.toNat ≤ 0x200A) ∨ c.toNat = 0x2028 ∨ c.toNat = 0x2029 ∨ c.toNat = 0x202F ∨ c.toNat = 0x205F ∨ c.toNat = 0x3000

def whitePoints : List Char := [9,10,11,12,13,0x20,0x85,0xA0,0x1680,0x2000,0x2001,0x2002,0x2003,0x2004,0x2005,0x2006,0x2007,0x2008,0x2009,0x200A,0x2028,0x2029,0x202F,0x205F,0x3000].map Char.ofNat

theorem mem_whitePoints (c : Char) : c ∈ whitePoints ↔ WhiteSpace c := by
  have h : c ∈ whitePoints ↔ c.toNat ∈ [9,10,11,12,13,0x20,0x85,0xA0,0x1680,0x2000,0x2001,0x2002,0x2003,0x2004,0x2005,0x2006,0x2007,0x2008,0x2009,0x200A,0x2028,0x2029,0x202F,0x205F,0x3000] := by
    unfold whitePoints
    rw [List.mem_map]
    constructor
    · rintro ⟨n, hn, rfl⟩
      have : ∀ n ∈ [9,10,11,12,13,0x20,0x85,0xA0,0x1680,0x2000,0x2001,0x2002,0x2003,0x2004,0x2005,0x2006,0x2007,0x2008,0x2009,0x200A,0x2028,0x2029,0x202F,0x205F,0x3000], (Char.ofNat n).toNat = n := by decide
      rw [this n hn]; exact hn
    · intro h
      exact ⟨c.toNat, h, Char.ofNat_toNat c⟩
  rw [h]
  unfold WhiteSpace
  simp only [List.mem_cons, List.not_mem_nil, or_false]
  omega

/-- The space characters that are trimmed are those of Unicode, in UTF-8. -/
theorem spaceCodes_iff (b : Bytes) : b ∈ spaceCodes ↔ ∃ c, WhiteSpace c ∧ b = String.utf8EncodeChar c := by
  have h : spaceCodes = whitePoints.map String.utf8EncodeChar := by decide +kernel
  rw [h, List.mem_map]
  constructor
  · rintro ⟨c, hc, rfl⟩; exact ⟨c, (mem_whitePoints c).1 hc, rfl⟩
  · rintro ⟨c, hc, rfl⟩; exact ⟨c, (mem_whitePoints c).2 hc, rfl⟩
/-- A string of space characters. -/
def Blank (w : Bytes) : Prop := ∃ ws : List Bytes, (∀ c ∈ ws, c ∈ spaceCodes) ∧ w = ws.flatten

/-- A string that does neither start nor end with a space character. -/
def Trimmed (c : Bytes) : Prop := ∀ k ∈ spaceCodes, ¬ k <+: c ∧ ¬ k <:+ c

theorem Blank.nil : Blank [] := ⟨[], by simp, rfl⟩

theorem Blank.append {a b : Bytes} (ha : Blank a) (hb : Blank b) : Blank (a ++ b) := by
  obtain ⟨u, hu, rfl⟩ := ha
  obtain ⟨v, hv, rfl⟩ := hb
  exact ⟨u ++ v, by simp only [List.mem_append]; exact (fun c h => h.elim (hu c) (hv c)), by simp⟩

theorem Blank.of_mem {c : Bytes} (h : c ∈ spaceCodes) : Blank c := ⟨[c], by simpa using h, by simp⟩

theorem trimLeft_spec (s : Bytes) : (∃ w, Blank w ∧ s = w ++ trimLeft s) ∧ ∀ k ∈ spaceCodes, ¬ k <+: trimLeft s := by
  obtain ⟨ws, hw, he⟩ := strip_exists spaceCodes s.length s
  exact ⟨⟨ws.flatten, ⟨ws, hw, rfl⟩, he⟩, strip_clean _ space_prefixFree.1 _ _ (Nat.le_refl _)⟩

theorem reverse_words {ws : List Bytes} : (ws.reverse.map List.reverse).flatten = ws.flatten.reverse := by
  rw [List.reverse_flatten, List.map_reverse]

theorem trimRight_spec (s : Bytes) : (∃ w, Blank w ∧ s = trimRight s ++ w) ∧ ∀ k ∈ spaceCodes, ¬ k <:+ trimRight s := by
  obtain ⟨ws, hw, he⟩ := strip_exists (spaceCodes.map List.reverse) s.length s.reverse
  refine ⟨⟨ws.flatten.reverse, ⟨ws.reverse.map List.reverse, ?_, reverse_words.symm⟩, ?_⟩, ?_⟩
  · intro c hc
    simp only [List.mem_map, List.mem_reverse] at hc
    obtain ⟨d, hd, rfl⟩ := hc
    obtain ⟨e, he', rfl⟩ := List.mem_map.1 (hw d hd)
    simpa using he'
  · unfold trimRight
    rw [← List.reverse_append, ← he, List.reverse_reverse]
  · intro k hk h
    have := strip_clean _ space_suffixFree.1 s.length s.reverse (by simp) k.reverse (List.mem_map_of_mem hk)
    apply this
    unfold trimRight at h
    rw [← List.reverse_prefix, List.reverse_reverse] at h
    exact h

theorem trimSpace_spec (s : Bytes) : (∃ a b, Blank a ∧ Blank b ∧ s = a ++ trimSpace s ++ b) ∧ Trimmed (trimSpace s) := by
  obtain ⟨⟨a, ha, e1⟩, h1⟩ := trimLeft_spec s
  obtain ⟨⟨b, hb, e2⟩, h2⟩ := trimRight_spec (trimLeft s)
  refine ⟨⟨a, b, ha, hb, ?_⟩, fun k hk => ⟨fun h => h1 k hk ?_, h2 k hk⟩⟩
  · unfold trimSpace
    rw [List.append_assoc, ← e2, ← e1]
  · rw [e2]; exact h.trans (List.prefix_append _ _)

/-- No byte after the first one of a space character starts a space character. -/
theorem space_first : ∀ k ∈ spaceCodes, ∀ d ∈ spaceCodes, ∀ b ∈ k.tail, d.head? ≠ some b := by decide +kernel

theorem trimLeft_of {a c b : Bytes} (ha : Blank a) (hb : Blank b) (hc : Trimmed c) (hne : c ≠ []) : trimLeft (a ++ c ++ b) = c ++ b := by
  obtain ⟨ws, hw, rfl⟩ := ha
  unfold trimLeft
  rw [List.append_assoc]
  refine strip_unique _ space_prefixFree ws _ (c ++ b) hw ?_ (by simp)
  intro k hk hp
  rcases Nat.lt_or_ge c.length k.length with hl | hl
  · obtain ⟨x, hx⟩ := List.prefix_of_prefix_length_le (List.prefix_append c b) hp (by omega)
    obtain ⟨ds, hd, rfl⟩ := hb
    subst hx
    have hxb : x <+: ds.flatten := (List.prefix_append_right_inj c).1 hp
    cases x with
    | nil => simp at hl
    | cons y x =>
      cases ds with
      | nil => simp at hxb
      | cons d ds =>
        have hdc := hd d (by simp)
        cases d with
        | nil => exact absurd rfl (space_prefixFree.1 _ hdc)
        | cons z d =>
          obtain ⟨t, ht⟩ := hxb
          simp at ht
          refine space_first _ hk _ hdc y ?_ (by simp [ht.1])
          cases c with
          | nil => exact absurd rfl hne
          | cons => simp
  · exact (hc k hk).1 (List.prefix_of_prefix_length_le hp (List.prefix_append c b) hl)

theorem trimRight_of {c b : Bytes} (hb : Blank b) (hc : Trimmed c) : trimRight (c ++ b) = c := by
  obtain ⟨ws, hw, rfl⟩ := hb
  unfold trimRight
  rw [List.reverse_append, ← reverse_words]
  rw [strip_unique _ space_suffixFree _ _ c.reverse, List.reverse_reverse]
  · intro w h
    simp only [List.mem_map, List.mem_reverse] at h
    obtain ⟨d, hd, rfl⟩ := h
    exact List.mem_map_of_mem (hw d hd)
  · intro k hk hp
    obtain ⟨d, hd, rfl⟩ := List.mem_map.1 hk
    exact (hc d hd).2 (List.reverse_prefix.1 hp)
  · rw [reverse_words]; simp; omega

theorem trimmed_nil : Trimmed [] := by
  intro k hk
  have := space_prefixFree.1 k hk
  exact ⟨fun h => this (List.prefix_nil.1 h), fun h => this (List.suffix_nil.1 h)⟩

/-- The result of `TrimSpace` is the only string without space at its ends that is left when removing spaces at the ends. -/
theorem trimSpace_of {a c b : Bytes} (ha : Blank a) (hb : Blank b) (hc : Trimmed c) : trimSpace (a ++ c ++ b) = c := by
  by_cases hne : c = []
  · subst hne
    obtain ⟨ws, hw, he⟩ := Blank.append ha hb
    unfold trimSpace
    have : trimLeft (a ++ [] ++ b) = [] := by
      have h := strip_unique _ space_prefixFree ws _ [] hw (fun k hk => (trimmed_nil k hk).1) (Nat.le_refl _)
      simp only [List.append_nil] at h ⊢
      rw [he]
      exact h
    rw [this]
    rfl
  · unfold trimSpace
    rw [trimLeft_of ha hb hc hne, trimRight_of hb hc]

theorem trimSpace_trimmed {c : Bytes} (hc : Trimmed c) : trimSpace c = c := by
  have := trimSpace_of Blank.nil Blank.nil hc
  simpa using this

/-- A nonempty string that starts and ends with visible ASCII characters. -/
theorem trimmed_of_ends {c : Bytes} (h1 : ∀ x, c.head? = some x → 33 ≤ x ∧ x ≤ 126) (h2 : ∀ x, c.getLast? = some x → 33 ≤ x ∧ x ≤ 126) : Trimmed c := by
  have hk1 : ∀ k ∈ spaceCodes, ∀ x, k.head? = some x → ¬ (33 ≤ x ∧ x ≤ 126) := by
    have : ∀ k ∈ spaceCodes, ¬ (33 ≤ k.headD 0 ∧ k.headD 0 ≤ 126) := by decide +kernel
    intro k hk x hx
    have := this k hk
    simpa [hx] using this
  have hk2 : ∀ k ∈ spaceCodes, ∀ x, k.getLast? = some x → ¬ (33 ≤ x ∧ x ≤ 126) := by
    have : ∀ k ∈ spaceCodes, ¬ (33 ≤ k.getLastD 0 ∧ k.getLastD 0 ≤ 126) := by decide +kernel
    intro k hk x hx
    have := this k hk
    simpa [List.getLastD_eq_getLast?, hx] using this
  intro k hk
  have hne := space_prefixFree.1 k hk
  constructor
  · rintro ⟨t, rfl⟩
    cases k with
    | nil => exact hne rfl
    | cons x k => exact hk1 _ hk x rfl (h1 x rfl)
  · rintro ⟨t, rfl⟩
    have : (t ++ k).getLast? = k.getLast? := by
      rw [List.getLast?_append]
      cases h : k.getLast? with
      | none => exact absurd (List.getLast?_eq_none_iff.1 h) hne
      | some x => rfl
    cases h : k.getLast? with
    | none => exact absurd (List.getLast?_eq_none_iff.1 h) hne
    | some x => exact hk2 _ hk x h (h2 x (by rw [this, h]))

/-! ## lines -/

theorem rawLines_flatten (d : Bytes) : (rawLines d).flatten = d := by
  induction d with
  | nil => rfl
  | cons a t ih =>
    unfold rawLines
    split
    · rename_i h; simp [h, ih]
    · split
      · rename_i h; rw [h] at ih; simp at ih; simp [← ih]
      · rename_i l ls h; rw [h] at ih; simp at ih; simp [ih]

/-- Lines: nonempty, with a line feed at the end and nowhere else; the last one may lack the line feed. -/
inductive IsLines : List Bytes → Prop
  | nil : IsLines []
  | last {l : Bytes} : l ≠ [] → 10 ∉ l → IsLines [l]
  | cons {b : Bytes} {ls : List Bytes} : 10 ∉ b → IsLines ls → IsLines ((b ++ [10]) :: ls)

theorem rawLines_line {b : Bytes} (hb : 10 ∉ b) (t : Bytes) : rawLines (b ++ 10 :: t) = (b ++ [10]) :: rawLines t := by
  induction b with
  | nil => simp [rawLines]
  | cons a b ih =>
    simp only [List.mem_cons, not_or] at hb
    rw [List.cons_append]
    rw [rawLines, if_neg (Ne.symm hb.1), ih hb.2]
    rfl

theorem rawLines_last {l : Bytes} (hne : l ≠ []) (hb : 10 ∉ l) : rawLines l = [l] := by
  induction l with
  | nil => exact absurd rfl hne
  | cons a b ih =>
    simp only [List.mem_cons, not_or] at hb
    unfold rawLines
    rw [if_neg (Ne.symm hb.1)]
    by_cases h : b = []
    · subst h; rfl
    · rw [ih h hb.2]

theorem rawLines_isLines (d : Bytes) : IsLines (rawLines d) := by
  induction d with
  | nil => exact .nil
  | cons a t ih =>
    unfold rawLines
    split
    · exact .cons (b := []) (by simp) ih
    · rename_i ha
      split
      · exact .last (by simp) (by simp; exact fun h => ha h.symm)
      · rename_i l ls h
        rw [h] at ih
        cases ih with
        | last h1 h2 => exact .last (by simp) (by simp [h2]; exact fun h => ha h.symm)
        | cons h1 h2 => exact .cons (b := a :: _) (by simp [h1]; exact fun h => ha h.symm) h2

theorem rawLines_of {ls : List Bytes} (h : IsLines ls) : rawLines ls.flatten = ls := by
  induction h with
  | nil => rfl
  | last h1 h2 => simpa using rawLines_last h1 h2
  | cons h1 h2 ih => simp only [List.flatten_cons, List.append_assoc, List.singleton_append]; rw [rawLines_line h1, ih]

/-- The lines of a text are determined by the text. -/
theorem lines_unique {ls : List Bytes} {d : Bytes} : (IsLines ls ∧ ls.flatten = d) ↔ rawLines d = ls :=
  ⟨fun ⟨h, e⟩ => by rw [← e, rawLines_of h], fun h => by subst h; exact ⟨rawLines_isLines d, rawLines_flatten d⟩⟩

theorem IsLines.filter {ls : List Bytes} (h : IsLines ls) (p : Bytes → Bool) : IsLines (ls.filter p) := by
  induction h with
  | nil => exact .nil
  | @last l h1 h2 =>
    by_cases h : p l = true
    · rw [List.filter_cons_of_pos h]; exact .last h1 h2
    · rw [List.filter_cons_of_neg h]; exact .nil
  | @cons b ls h1 h2 ih =>
    by_cases h : p (b ++ [10]) = true
    · rw [List.filter_cons_of_pos h]; exact .cons h1 ih
    · rw [List.filter_cons_of_neg h]; exact ih

/-- A text that is empty or ends with a line feed. -/
def Closed (x : Bytes) : Prop := x = [] ∨ x.getLast? = some 10

theorem rawLines_append {x : Bytes} (hx : Closed x) (y : Bytes) : rawLines (x ++ y) = rawLines x ++ rawLines y := by
  induction x with
  | nil => rfl
  | cons a t ih =>
    by_cases ha : a = 10
    · have ht : Closed t := by
        rcases hx with h | h
        · exact absurd h (by simp)
        · cases t with
          | nil => exact .inl rfl
          | cons b t => right; simpa [List.getLast?_cons_cons] using h
      simp [rawLines, ha, ih ht]
    · have ht : t ≠ [] ∧ Closed t := by
        rcases hx with h | h
        · exact absurd h (by simp)
        · cases t with
          | nil => simp at h; exact absurd h ha
          | cons b t => exact ⟨by simp, .inr (by simpa [List.getLast?_cons_cons] using h)⟩
      rw [List.cons_append, rawLines, if_neg ha, ih ht.2, rawLines, if_neg ha]
      have : rawLines t ≠ [] := by
        intro h
        apply ht.1
        have := rawLines_flatten t
        rw [h] at this
        exact this.symm
      cases h : rawLines t with
      | nil => exact absurd h this
      | cons l ls => rfl

theorem closed_append {x y : Bytes} (hx : Closed x) (hy : Closed y) : Closed (x ++ y) := by
  rcases hy with rfl | h
  · simpa using hx
  · right; rw [List.getLast?_append, h]; rfl

theorem rawLines_prefix {p : Bytes} (hne : p ≠ []) (hp : 10 ∉ p) (y : Bytes) :
    rawLines (p ++ y) = match rawLines y with | [] => [p] | l :: ls => (p ++ l) :: ls := by
  induction p with
  | nil => exact absurd rfl hne
  | cons a p ih =>
    simp only [List.mem_cons, not_or] at hp
    rw [List.cons_append, rawLines, if_neg (Ne.symm hp.1)]
    by_cases h : p = []
    · subst h
      rfl
    · rw [ih h hp.2]
      cases rawLines y <;> rfl

/-- A text has a line that starts with `p`. -/
theorem line_prefix_iff {p : Bytes} (hne : p ≠ []) (hp : 10 ∉ p) (t : Bytes) :
    (∃ l ∈ rawLines t, p <+: l) ↔ ∃ x y, Closed x ∧ t = x ++ p ++ y := by
  constructor
  · intro h
    have key : ∀ ls : List Bytes, IsLines ls → (∃ l ∈ ls, p <+: l) → ∃ x y, Closed x ∧ ls.flatten = x ++ p ++ y := by
      intro ls hls
      induction hls with
      | nil => simp
      | last h1 h2 =>
        rintro ⟨l', hl, y, rfl⟩
        simp only [List.mem_singleton] at hl
        subst hl
        exact ⟨[], y, .inl rfl, by simp⟩
      | @cons b ls h1 h2 ih =>
        rintro ⟨l, hl, hpl⟩
        rcases List.mem_cons.1 hl with rfl | hl
        · obtain ⟨y, hy⟩ := hpl
          exact ⟨[], y ++ ls.flatten, .inl rfl, by rw [List.flatten_cons, ← hy]; simp⟩
        · obtain ⟨x, y, hx, he⟩ := ih ⟨l, hl, hpl⟩
          refine ⟨(b ++ [10]) ++ x, y, ?_, by rw [List.flatten_cons, he]; simp⟩
          exact closed_append (.inr (by simp)) hx
    have := key _ (rawLines_isLines t) h
    rwa [rawLines_flatten] at this
  · rintro ⟨x, y, hx, rfl⟩
    rw [List.append_assoc, rawLines_append hx]
    have : ∃ l ∈ rawLines (p ++ y), p <+: l := by
      rw [rawLines_prefix hne hp]
      split
      · exact ⟨p, by simp, List.prefix_rfl⟩
      · exact ⟨_, List.mem_cons_self, List.prefix_append _ _⟩
    obtain ⟨l, h1, h2⟩ := this
    exact ⟨l, by simp [h1], h2⟩

/-! ## sorting -/

theorem strLe_refl : ∀ a : Bytes, strLe a a = true
  | [] => rfl
  | a :: s => by simp [strLe, strLe_refl s]

theorem strLe_total : ∀ a b : Bytes, strLe a b = true ∨ strLe b a = true
  | [], _ => .inl rfl
  | _ :: _, [] => .inr rfl
  | a :: s, b :: t => by
    by_cases h : a = b
    · subst h; simpa [strLe] using strLe_total s t
    · simp only [strLe, if_neg h, if_neg (Ne.symm h), decide_eq_true_eq]
      have h' : a.toNat ≠ b.toNat := fun e => h (UInt8.toNat_inj.1 e)
      simp only [UInt8.lt_iff_toNat_lt]
      omega

theorem strLe_antisymm : ∀ a b : Bytes, strLe a b = true → strLe b a = true → a = b
  | [], [], _, _ => rfl
  | [], _ :: _, _, h => by simp [strLe] at h
  | _ :: _, [], h, _ => by simp [strLe] at h
  | a :: s, b :: t, h1, h2 => by
    by_cases h : a = b
    · subst h
      simp only [strLe, if_true] at h1 h2
      rw [strLe_antisymm s t h1 h2]
    · simp only [strLe, if_neg h, if_neg (Ne.symm h), decide_eq_true_eq, UInt8.lt_iff_toNat_lt] at h1 h2
      omega

theorem strLe_trans : ∀ a b c : Bytes, strLe a b = true → strLe b c = true → strLe a c = true
  | [], _, _, _, _ => by simp [strLe]
  | _ :: _, [], _, h, _ => by simp [strLe] at h
  | _ :: _, _ :: _, [], _, h => by simp [strLe] at h
  | a :: s, b :: t, c :: u, h1, h2 => by
    by_cases h : a = b
    · subst h
      by_cases h' : a = c
      · subst h'
        simp only [strLe, if_true] at h1 h2 ⊢
        exact strLe_trans s t u h1 h2
      · simp only [strLe, if_neg h'] at h2 ⊢
        exact h2
    · by_cases h' : b = c
      · subst h'
        simp only [strLe, if_neg h] at h1 ⊢
        exact h1
      · simp only [strLe, if_neg h, if_neg h', decide_eq_true_eq, UInt8.lt_iff_toNat_lt] at h1 h2
        have h3 : a.toNat < c.toNat := by omega
        have h4 : a ≠ c := fun e => by subst e; omega
        simp only [strLe, if_neg h4, decide_eq_true_eq, UInt8.lt_iff_toNat_lt]
        exact h3

theorem mem_sortInsert (x y : Bytes) : ∀ l : List Bytes, y ∈ sortInsert x l ↔ y = x ∨ y ∈ l
  | [] => by simp [sortInsert]
  | z :: zs => by
    unfold sortInsert
    split
    · simp
    · simp only [List.mem_cons, mem_sortInsert x y zs]; grind

theorem mem_sortStrings (y : Bytes) : ∀ l : List Bytes, y ∈ sortStrings l ↔ y ∈ l
  | [] => by simp [sortStrings]
  | x :: xs => by simp [sortStrings, mem_sortInsert, mem_sortStrings y xs]

theorem sortInsert_sorted (x : Bytes) : ∀ l : List Bytes, l.Pairwise (fun a b => strLe a b = true) →
    (sortInsert x l).Pairwise (fun a b => strLe a b = true)
  | [], _ => by simp [sortInsert]
  | y :: ys, h => by
    rw [List.pairwise_cons] at h
    unfold sortInsert
    split
    · rename_i hxy
      refine List.pairwise_cons.2 ⟨?_, List.pairwise_cons.2 h⟩
      intro z hz
      rcases List.mem_cons.1 hz with rfl | hz
      · exact hxy
      · exact strLe_trans _ _ _ hxy (h.1 z hz)
    · rename_i hxy
      have hyx : strLe y x = true := (strLe_total x y).resolve_left hxy
      refine List.pairwise_cons.2 ⟨?_, sortInsert_sorted x ys h.2⟩
      intro z hz
      rcases (mem_sortInsert x z ys).1 hz with rfl | hz
      · exact hyx
      · exact h.1 z hz

theorem sortStrings_sorted : ∀ l : List Bytes, (sortStrings l).Pairwise (fun a b => strLe a b = true)
  | [] => List.Pairwise.nil
  | x :: xs => sortInsert_sorted x _ (sortStrings_sorted xs)

theorem mem_compact (y : Bytes) : ∀ l : List Bytes, y ∈ compact l ↔ y ∈ l
  | [] => by simp [compact]
  | [x] => by simp [compact]
  | a :: b :: r => by
    unfold compact
    split
    · rename_i h; subst h; rw [mem_compact y (a :: r)]; simp
    · rw [List.mem_cons, mem_compact y (b :: r)]; simp

theorem compact_strict : ∀ l : List Bytes, l.Pairwise (fun a b => strLe a b = true) →
    (compact l).Pairwise (fun a b => strLe a b = true ∧ a ≠ b)
  | [], _ => List.Pairwise.nil
  | [x], _ => by simp [compact]
  | a :: b :: r, h => by
    rw [List.pairwise_cons] at h
    unfold compact
    split
    · exact compact_strict (b :: r) h.2
    · rename_i hab
      refine List.pairwise_cons.2 ⟨?_, compact_strict (b :: r) h.2⟩
      intro z hz
      rw [mem_compact] at hz
      refine ⟨h.1 z hz, ?_⟩
      rintro rfl
      have h2 := (List.pairwise_cons.1 h.2).1
      rcases List.mem_cons.1 hz with e | hz
      · exact hab e
      · exact hab (strLe_antisymm _ _ (h.1 b (by simp)) (h2 a hz))

theorem strict_unique : ∀ l l' : List Bytes, l.Pairwise (fun a b => strLe a b = true ∧ a ≠ b) →
    l'.Pairwise (fun a b => strLe a b = true ∧ a ≠ b) → (∀ x, x ∈ l ↔ x ∈ l') → l = l'
  | [], [], _, _, _ => rfl
  | [], b :: l', _, _, h => absurd ((h b).2 (by simp)) (by simp)
  | a :: l, [], _, _, h => absurd ((h a).1 (by simp)) (by simp)
  | a :: l, b :: l', h1, h2, h => by
    rw [List.pairwise_cons] at h1 h2
    have hab : a = b := by
      have h3 := (h a).1 (by simp)
      have h4 := (h b).2 (by simp)
      rcases List.mem_cons.1 h3 with e | h3
      · exact e
      rcases List.mem_cons.1 h4 with e | h4
      · exact e.symm
      exact strLe_antisymm _ _ (h1.1 b h4).1 (h2.1 a h3).1
    subst hab
    congr 1
    refine strict_unique l l' h1.2 h2.2 (fun x => ?_)
    constructor
    · intro hx
      rcases List.mem_cons.1 ((h x).1 (by simp [hx])) with rfl | h'
      · exact absurd rfl (h1.1 x hx).2
      · exact h'
    · intro hx
      rcases List.mem_cons.1 ((h x).2 (by simp [hx])) with rfl | h'
      · exact absurd rfl (h2.1 x hx).2
      · exact h'

end Jess
