import Verif.Model.Dialogs
import Verif.Lemmas.Text

/-! # Lines, columns and words -/

namespace Jess

/-! ## Splitting and joining -/

theorem splitBytes_ne (p : UInt8 → Bool) (s : Bytes) : splitBytes p s ≠ [] := by
  cases s with
  | nil => simp [splitBytes]
  | cons c cs =>
    simp only [splitBytes]
    split
    · simp
    · split <;> simp

theorem splitBytes_none {p : UInt8 → Bool} {s : Bytes} (h : ∀ c ∈ s, p c = false) : splitBytes p s = [s] := by
  induction s with
  | nil => rfl
  | cons c cs ih =>
    have hc : p c = false := h c (by simp)
    simp only [splitBytes, hc, ih (fun x hx => h x (by simp [hx]))]
    simp

theorem splitBytes_at {p : UInt8 → Bool} {c : UInt8} (hc : p c = true) (s t : Bytes) :
    splitBytes p (s ++ c :: t) = splitBytes p s ++ splitBytes p t := by
  induction s with
  | nil => simp [splitBytes, hc]
  | cons a s ih =>
    by_cases ha : p a = true
    · simp only [List.cons_append, splitBytes, ha, if_true, ih]
    · have ha' : p a = false := by simpa using ha
      simp only [List.cons_append, splitBytes, ha', ih, Bool.false_eq_true, if_false]
      have hne := splitBytes_ne p s
      generalize splitBytes p s = l at *
      cases l with
      | nil => exact absurd rfl hne
      | cons x xs => simp

theorem splitBytes_join {p : UInt8 → Bool} {c : UInt8} (hc : p c = true) (ls : List Bytes) (hne : ls ≠ []) :
    splitBytes p (joinBytes [c] ls) = ls.flatMap (splitBytes p) := by
  induction ls with
  | nil => exact absurd rfl hne
  | cons x xs ih =>
    cases xs with
    | nil => simp [joinBytes]
    | cons y ys =>
      have : joinBytes [c] (x :: y :: ys) = x ++ c :: joinBytes [c] (y :: ys) := by simp [joinBytes]
      rw [this, splitBytes_at hc, ih (by simp)]
      simp

/-! ## White space and words -/

/-- A word: not empty, and without any white space character. -/
def IsWord (w : Bytes) : Prop := w ≠ [] ∧ ∀ c ∈ spaceCodes, ¬ c <:+: w

theorem spaceLen_zero {s : Bytes} (h : ∀ c ∈ spaceCodes, ¬ c <+: s) : spaceLen s = 0 := by
  unfold spaceLen
  rw [List.find?_eq_none.2]
  intro c hc
  simp only [hasPrefix, List.isPrefixOf_iff_prefix]
  exact h c hc

theorem spaceMarks_word {w : Bytes} (h : ∀ c ∈ spaceCodes, ¬ c <:+: w) : spaceMarks 0 w = w.map some := by
  induction w with
  | nil => rfl
  | cons a w ih =>
    have h0 : spaceLen (a :: w) = 0 := spaceLen_zero (fun c hc hp => h c hc hp.isInfix)
    simp only [spaceMarks, h0, List.map_cons]
    rw [ih (fun c hc hi => h c hc (hi.trans (List.suffix_cons a w).isInfix))]

theorem codes_no_blank : ∀ c ∈ spaceCodes, c = [32] ∨ (c ≠ [] ∧ 32 ∉ c) := by decide

/-- No white space character reaches beyond a blank. -/
theorem spaceLen_blank {x : Bytes} (hx : x ≠ []) (y : Bytes) : spaceLen (x ++ 32 :: y) = spaceLen x := by
  unfold spaceLen
  have : ∀ c ∈ spaceCodes, hasPrefix (x ++ 32 :: y) c = hasPrefix x c := by
    intro c hc
    rw [Bool.eq_iff_iff]
    simp only [hasPrefix, List.isPrefixOf_iff_prefix]
    constructor
    · intro hp
      rcases List.prefix_or_prefix_of_prefix hp (List.prefix_append x (32 :: y)) with h | h
      · exact h
      · obtain ⟨t, ht⟩ := h
        cases t with
        | nil => rw [List.append_nil] at ht; rw [← ht]; exact List.prefix_refl _
        | cons a t =>
          obtain ⟨u, hu⟩ := hp
          rw [← ht, List.append_assoc, List.append_cancel_left_eq] at hu
          simp only [List.cons_append, List.cons.injEq] at hu
          rcases codes_no_blank c hc with h1 | ⟨_, h2⟩
          · subst h1
            cases x with
            | nil => exact absurd rfl hx
            | cons b x => simp at ht
          · exact absurd (by rw [← ht, hu.1]; simp) h2
    · intro hp; exact hp.trans (List.prefix_append _ _)
  have hf : ∀ l : List Bytes, (∀ c ∈ l, hasPrefix (x ++ 32 :: y) c = hasPrefix x c) →
      l.find? (fun c => hasPrefix (x ++ 32 :: y) c) = l.find? (fun c => hasPrefix x c) := by
    intro l hl
    induction l with
    | nil => rfl
    | cons c l ih =>
      rw [List.find?_cons, List.find?_cons, hl c (by simp), ih (fun d hd => hl d (by simp [hd]))]
  rw [hf spaceCodes this]

theorem spaceLen_le (x : Bytes) : spaceLen x ≤ x.length := by
  unfold spaceLen
  split
  · omega
  · rename_i c hc
    have := List.find?_some hc
    simp only [hasPrefix, List.isPrefixOf_iff_prefix] at this
    exact this.length_le

theorem spaceLen_32 (y : Bytes) : spaceLen (32 :: y) = 1 := by
  simp [spaceLen, spaceCodes, hasPrefix, List.find?, List.isPrefixOf]

theorem spaceMarks_blank (x y : Bytes) : ∀ n, n ≤ x.length → spaceMarks n (x ++ 32 :: y) = spaceMarks n x ++ none :: spaceMarks 0 y := by
  induction x with
  | nil =>
    intro n hn
    have : n = 0 := by simpa using hn
    subst this
    simp [spaceMarks, spaceLen_32]
  | cons a x ih =>
    intro n hn
    cases n with
    | succ n =>
      simp only [List.cons_append, spaceMarks]
      rw [ih n (by simpa using hn)]
    | zero =>
      have h1 : spaceLen (a :: (x ++ 32 :: y)) = spaceLen (a :: x) := spaceLen_blank (x := a :: x) (by simp) y
      simp only [List.cons_append, spaceMarks, h1]
      have h2 := spaceLen_le (a :: x)
      split
      · rw [ih 0 (by omega)]; rfl
      · rename_i k hk
        rw [ih k (by rw [hk] at h2; simpa using h2)]; rfl

theorem markWords_append (m m' : List (Option UInt8)) :
    markWords (m ++ none :: m') = ((markWords m).1, (markWords m).2 ++ consWord (markWords m').1 (markWords m').2) := by
  induction m with
  | nil => simp [markWords]
  | cons a m ih =>
    cases a with
    | none =>
      simp only [List.cons_append, markWords, ih]
      unfold consWord
      split <;> simp
    | some a => simp only [List.cons_append, markWords, ih]

theorem consWord_append (w : Bytes) (a b : List Bytes) : consWord w (a ++ b) = consWord w a ++ b := by
  unfold consWord; split <;> simp

/-- A blank separates words. -/
theorem fields_blank (x y : Bytes) : fields (x ++ 32 :: y) = fields x ++ fields y := by
  unfold fields
  rw [spaceMarks_blank x y 0 (by omega), markWords_append]
  simp only [consWord_append]

theorem markWords_some (w : Bytes) : markWords (w.map some) = (w, []) := by
  induction w with
  | nil => rfl
  | cons a w ih => simp only [List.map_cons, markWords, ih]

theorem fields_word {w : Bytes} (h : IsWord w) : fields w = [w] := by
  unfold fields
  rw [spaceMarks_word h.2, markWords_some]
  simp [consWord, h.1]

theorem fields_blanks (n : Nat) (x y : Bytes) : fields (x ++ List.replicate (n + 1) 32 ++ y) = fields x ++ fields y := by
  induction n with
  | zero => simpa using fields_blank x y
  | succ n ih =>
    have : x ++ List.replicate (n + 1 + 1) 32 ++ y = x ++ 32 :: ([] ++ List.replicate (n + 1) 32 ++ y) := by
      rw [List.replicate_succ]; simp
    rw [this, fields_blank]
    have h2 : ∀ m, fields ([] ++ List.replicate (m + 1) 32 ++ y) = fields y := by
      intro m
      induction m with
      | zero => simpa [fields, spaceMarks, markWords, consWord] using fields_blank [] y
      | succ m ihm =>
        have : ([] : Bytes) ++ List.replicate (m + 1 + 1) 32 ++ y = [] ++ 32 :: ([] ++ List.replicate (m + 1) 32 ++ y) := by
          rw [List.replicate_succ]; simp
        rw [this, fields_blank, ihm]
        simp [fields, spaceMarks, markWords, consWord]
    rw [h2 n]

/-- The words of a row are the words of its cells. -/
theorem fields_cells (cells : List Bytes) : ∀ pad : Nat → Nat, fields (padCells pad cells) = cells.flatMap fields := by
  induction cells with
  | nil => intro pad; simp [padCells, fields, spaceMarks, markWords, consWord]
  | cons x xs ih =>
    intro pad
    cases xs with
    | nil => simp [padCells]
    | cons y ys =>
      have : 3 + pad 0 = (2 + pad 0) + 1 := by omega
      rw [padCells, this, fields_blanks, ih]
      simp

/-! ## Rows -/

/-- The cells which the tab writer sees in a row. -/
def cellsOf (row : List Bytes) : List Bytes := row.flatMap (splitBytes (fun c => c == 9 || c == 11))

/-- A row that stays on one line: no cell contains a line feed or a form feed, and the last one has no carriage return. -/
structure OneLine (row : List Bytes) : Prop where
  ne : row ≠ []
  feeds : ∀ x ∈ row, 10 ∉ x ∧ 12 ∉ x
  ret : ∀ x ∈ row.getLast?, 13 ∉ x

theorem splitBytes_mem {p : UInt8 → Bool} {s x : Bytes} (hx : x ∈ splitBytes p s) : ∀ b ∈ x, b ∈ s := by
  induction s generalizing x with
  | nil => simp [splitBytes] at hx; subst hx; simp
  | cons c cs ih =>
    intro b hb
    by_cases hc : p c = true
    · simp only [splitBytes, hc, if_true, List.mem_cons] at hx
      rcases hx with rfl | hx
      · cases hb
      · exact List.mem_cons_of_mem _ (ih hx b hb)
    · have hc' : p c = false := by simpa using hc
      simp only [splitBytes, hc', Bool.false_eq_true, if_false] at hx
      generalize hl : splitBytes p cs = l at *
      cases l with
      | nil => simp only [List.mem_singleton] at hx; subst hx; simpa using Or.inl (by simpa using hb)
      | cons y ys =>
        simp only [List.mem_cons] at hx
        rcases hx with rfl | hx
        · rcases List.mem_cons.1 hb with rfl | hb
          · simp
          · exact List.mem_cons_of_mem _ (ih (by simp) b hb)
        · exact List.mem_cons_of_mem _ (ih (by simp [hx]) b hb)

theorem joinBytes_mem {sep : Bytes} {ls : List Bytes} {b : UInt8} (hb : b ∈ joinBytes sep ls) : b ∈ sep ∨ ∃ x ∈ ls, b ∈ x := by
  induction ls with
  | nil => simp [joinBytes] at hb
  | cons x xs ih =>
    cases xs with
    | nil => exact Or.inr ⟨x, by simp, hb⟩
    | cons y ys =>
      simp only [joinBytes, List.mem_append] at hb
      rcases hb with (hb | hb) | hb
      · exact Or.inr ⟨x, by simp, hb⟩
      · exact Or.inl hb
      · rcases ih hb with h | ⟨z, hz, h⟩
        · exact Or.inl h
        · exact Or.inr ⟨z, by simp [hz], h⟩

theorem padCells_mem {cells : List Bytes} {b : UInt8} : ∀ pad : Nat → Nat, b ∈ padCells pad cells → b = 32 ∨ ∃ x ∈ cells, b ∈ x := by
  induction cells with
  | nil => intro pad hb; simp [padCells] at hb
  | cons x xs ih =>
    intro pad hb
    cases xs with
    | nil => exact Or.inr ⟨x, by simp, hb⟩
    | cons y ys =>
      simp only [padCells, List.mem_append] at hb
      rcases hb with (hb | hb) | hb
      · exact Or.inr ⟨x, by simp, hb⟩
      · exact Or.inl (List.mem_replicate.1 hb).2
      · rcases ih _ hb with h | ⟨z, hz, h⟩
        · exact Or.inl h
        · exact Or.inr ⟨z, by simp [hz], h⟩

/-- The last byte of a row is a blank or belongs to the last cell. -/
theorem padCells_last {cells : List Bytes} {b : UInt8} : ∀ pad : Nat → Nat, (padCells pad cells).getLast? = some b →
    b = 32 ∨ ∃ x ∈ cells.getLast?, b ∈ x := by
  induction cells with
  | nil => intro pad hb; simp [padCells] at hb
  | cons x xs ih =>
    intro pad hb
    cases xs with
    | nil => exact Or.inr ⟨x, by simp, List.mem_of_getLast? hb⟩
    | cons y ys =>
      rw [padCells, List.getLast?_append] at hb
      cases hl : (padCells (fun j => pad (j + 1)) (y :: ys)).getLast? with
      | none =>
        rw [hl, Option.none_or, List.getLast?_append, List.getLast?_replicate] at hb
        rw [if_neg (by omega), Option.some_or] at hb
        exact Or.inl (Option.some.inj hb).symm
      | some c =>
        rw [hl, Option.some_or] at hb
        cases hb
        rcases ih _ hl with h | ⟨z, hz, h⟩
        · exact Or.inl h
        · exact Or.inr ⟨z, by simpa [List.getLast?_cons_cons] using hz, h⟩

theorem padLines_get (pad : Nat → Nat → Nat) (t : List (List Bytes)) : ∀ i j, (padLines pad i t)[j]? = t[j]?.map (padCells (pad (i + j))) := by
  induction t with
  | nil => intro i j; simp [padLines]
  | cons l t ih =>
    intro i j
    cases j with
    | zero => simp [padLines]
    | succ j => simp only [padLines, List.getElem?_cons_succ, ih]; rw [Nat.add_right_comm, Nat.add_assoc]

theorem padLines_mem {pad : Nat → Nat → Nat} {t : List (List Bytes)} {l : Bytes} : ∀ i, l ∈ padLines pad i t → ∃ k, ∃ r ∈ t, l = padCells (pad k) r := by
  induction t with
  | nil => intro i h; simp [padLines] at h
  | cons r t ih =>
    intro i h
    simp only [padLines, List.mem_cons] at h
    rcases h with rfl | h
    · exact ⟨i, r, by simp, rfl⟩
    · obtain ⟨k, r', hr, h⟩ := ih _ h
      exact ⟨k, r', by simp [hr], h⟩

theorem padLines_last (pad : Nat → Nat → Nat) (t : List (List Bytes)) : ∀ i, ∃ k, (padLines pad i t).getLast? = t.getLast?.map (padCells (pad k)) := by
  induction t with
  | nil => intro i; exact ⟨0, rfl⟩
  | cons r t ih =>
    intro i
    cases t with
    | nil => exact ⟨i, rfl⟩
    | cons s t =>
      obtain ⟨k, hk⟩ := ih (i + 1)
      refine ⟨k, ?_⟩
      rw [List.getLast?_cons_cons, ← hk]
      simp only [padLines, List.getLast?_cons_cons]

/-- The lines of the scanner. -/
theorem scan_join {ls : List Bytes} (h10 : ∀ l ∈ ls, 10 ∉ l) (h13 : ∀ l ∈ ls, l.getLast? ≠ some 13) (hlast : ls.getLast? ≠ some []) :
    (rawLines (joinBytes [10] ls)).map scannedLine = ls := by
  have hd : ∀ l : Bytes, 10 ∉ l → l.getLast? ≠ some 13 → scannedLine (l ++ [10]) = l ∧ scannedLine l = l := by
    intro l h1 h2
    have hs : ∀ b : UInt8, l.getLast? ≠ some b → trimSuffix l [b] = l := by
      intro b hb
      unfold trimSuffix
      rw [if_neg]
      intro hs
      simp only [hasSuffix, List.isSuffixOf_iff_suffix] at hs
      obtain ⟨t, ht⟩ := hs
      exact hb (by rw [← ht]; simp)
    have h3 : l.getLast? ≠ some 10 := fun h => h1 (List.mem_of_getLast? h)
    constructor
    · have : trimSuffix (l ++ [10]) [10] = l := by
        unfold trimSuffix
        rw [if_pos (by simp [hasSuffix])]
        simp
      unfold scannedLine
      rw [this, hs 13 h2]
    · unfold scannedLine
      rw [hs 10 h3, hs 13 h2]
  induction ls with
  | nil => rfl
  | cons x xs ih =>
    cases xs with
    | nil =>
      have hx : x ≠ [] := by intro h; subst h; exact hlast rfl
      rw [joinBytes, rawLines_last hx (h10 x (by simp))]
      simp [(hd x (h10 x (by simp)) (h13 x (by simp))).2]
    | cons y ys =>
      have : joinBytes [10] (x :: y :: ys) = x ++ 10 :: joinBytes [10] (y :: ys) := by simp [joinBytes]
      rw [this, rawLines_line (h10 x (by simp)), List.map_cons, (hd x (h10 x (by simp)) (h13 x (by simp))).1,
        ih (fun l hl => h10 l (by simp [hl])) (fun l hl => h13 l (by simp [hl])) (by simpa [List.getLast?_cons_cons] using hlast)]

theorem flatMap_singletons {t : List Bytes} {f : Bytes → List Bytes} (h : ∀ x ∈ t, f x = [x]) : t.flatMap f = t := by
  induction t with
  | nil => rfl
  | cons x t ih => simp [h x (by simp), ih (fun y hy => h y (by simp [hy]))]

/-- The rows of a table, if each stays on one line. -/
theorem tabWrite_table {t : List (List Bytes)} (hne : t ≠ []) (h : ∀ r ∈ t, OneLine r) (pad : Nat → Nat → Nat) :
    tabWrite pad (tableText t) = joinBytes [10] (padLines pad 0 (t.map cellsOf)) := by
  unfold tabWrite tableText
  have h1 : splitBytes (fun c => c == 10 || c == 12) (joinBytes [10] (t.map (joinBytes [9]))) = t.map (joinBytes [9]) := by
    rw [splitBytes_join (by decide) _ (by simp [hne])]
    apply flatMap_singletons
    intro x hx
    apply splitBytes_none
    intro c hc
    obtain ⟨r, hr, rfl⟩ := List.mem_map.1 hx
    rcases joinBytes_mem hc with hc | ⟨y, hy, hc⟩
    · simp only [List.mem_singleton] at hc; subst hc; decide
    · have := (h r hr).feeds y hy
      have h10 : c ≠ 10 := fun he => this.1 (he ▸ hc)
      have h12 : c ≠ 12 := fun he => this.2 (he ▸ hc)
      simp [h10, h12]
  rw [h1, List.map_map]
  congr 2
  apply List.map_congr_left
  intro r hr
  simp only [Function.comp]
  rw [splitBytes_join (by decide) r (h r hr).ne]
  rfl

theorem cellsOf_mem {row : List Bytes} {x : Bytes} (hx : x ∈ cellsOf row) : ∃ y ∈ row, ∀ b ∈ x, b ∈ y := by
  obtain ⟨y, hy, h⟩ := List.mem_flatMap.1 hx
  exact ⟨y, hy, splitBytes_mem h⟩

theorem cellsOf_last {row : List Bytes} {x : Bytes} (hx : x ∈ (cellsOf row).getLast?) : ∃ y ∈ row.getLast?, x ∈ splitBytes (fun c => c == 9 || c == 11) y := by
  rcases List.eq_nil_or_concat row with h | ⟨init, y, h⟩
  · subst h; simp [cellsOf] at hx
  · subst h
    refine ⟨y, by simp, ?_⟩
    simp only [cellsOf, List.flatMap_append, List.flatMap_singleton, List.concat_eq_append] at hx
    rw [List.getLast?_append] at hx
    cases hl : (splitBytes (fun c => c == 9 || c == 11) y).getLast? with
    | none => exact absurd (List.getLast?_eq_none_iff.1 hl) (splitBytes_ne _ _)
    | some z =>
      rw [hl, Option.some_or] at hx
      cases hx
      exact List.mem_of_getLast? hl

theorem padCells_nil {cells : List Bytes} {pad : Nat → Nat} (h : padCells pad cells = []) : cells = [] ∨ cells = [[]] := by
  cases cells with
  | nil => exact Or.inl rfl
  | cons x xs =>
    cases xs with
    | nil => simp only [padCells] at h; subst h; exact Or.inr rfl
    | cons y ys => simp [padCells] at h

theorem cellsOf_ne {row : List Bytes} (h : row ≠ []) : cellsOf row ≠ [] := by
  cases row with
  | nil => exact absurd rfl h
  | cons x xs => simp [cellsOf, splitBytes_ne]

theorem splitBytes_empty {p : UInt8 → Bool} {s : Bytes} (h : splitBytes p s = [[]]) : s = [] := by
  cases s with
  | nil => rfl
  | cons c cs =>
    by_cases hc : p c = true
    · simp [splitBytes, hc, splitBytes_ne] at h
    · have hc' : p c = false := by simpa using hc
      simp only [splitBytes, hc', Bool.false_eq_true, if_false] at h
      split at h <;> simp at h

theorem cellsOf_empty {row : List Bytes} (h : cellsOf row = [[]]) : row = [[]] := by
  cases row with
  | nil => simp [cellsOf] at h
  | cons x xs =>
    cases xs with
    | nil =>
      simp only [cellsOf, List.flatMap_cons, List.flatMap_nil, List.append_nil] at h
      rw [splitBytes_empty h]
    | cons y ys =>
      exfalso
      have h1 := congrArg List.length h
      simp only [cellsOf, List.flatMap_cons, List.length_append, List.length_cons, List.length_nil] at h1
      have a := List.length_pos_iff.2 (splitBytes_ne (fun c => c == 9 || c == 11) x)
      have b := List.length_pos_iff.2 (splitBytes_ne (fun c => c == 9 || c == 11) y)
      omega

/-- The lines shown for a table whose rows stay on one line: none (a line is too long), or one for each row. -/
theorem formatColumns_rows {t : List (List Bytes)} (h : ∀ r ∈ t, OneLine r) (hlast : ∀ r ∈ t.getLast?, r ≠ [[]])
    (pad : List (List Bytes) → Nat → Nat → Nat) :
    formatColumns pad t = [] ∨ formatColumns pad t = padLines (pad t) 0 (t.map cellsOf) := by
  by_cases hne : t = []
  · subst hne; left; simp [formatColumns, tableText, joinBytes, tabWrite, splitBytes, padLines, padCells, scanLines, rawLines]
  unfold formatColumns scanLines
  split
  · exact Or.inl rfl
  · rename_i ls hls
    right
    split at hls
    · cases hls
      rw [tabWrite_table hne h]
      apply scan_join
      · intro l hl
        obtain ⟨k, r, hr, rfl⟩ := padLines_mem _ hl
        obtain ⟨row, hrow, rfl⟩ := List.mem_map.1 hr
        intro h10
        rcases padCells_mem _ h10 with h | ⟨x, hx, hb⟩
        · cases h
        · obtain ⟨y, hy, hxy⟩ := cellsOf_mem hx
          exact ((h row hrow).feeds y hy).1 (hxy _ hb)
      · intro l hl
        obtain ⟨k, r, hr, rfl⟩ := padLines_mem _ hl
        obtain ⟨row, hrow, rfl⟩ := List.mem_map.1 hr
        intro h13
        rcases padCells_last _ h13 with h | ⟨x, hx, hb⟩
        · cases h
        · obtain ⟨y, hy, hxy⟩ := cellsOf_last hx
          exact (h row hrow).ret y hy (splitBytes_mem hxy _ hb)
      · obtain ⟨k, hk⟩ := padLines_last (pad t) (t.map cellsOf) 0
        rw [hk]
        intro he
        cases hl : (t.map cellsOf).getLast? with
        | none => rw [hl] at he; cases he
        | some cells =>
          rw [hl, Option.map_some] at he
          have he := Option.some.inj he
          rw [List.getLast?_map] at hl
          cases ht : t.getLast? with
          | none => rw [ht] at hl; cases hl
          | some row =>
            rw [ht, Option.map_some] at hl
            cases hl
            rcases padCells_nil he with h1 | h1
            · exact cellsOf_ne (h row (List.mem_of_getLast? ht)).ne h1
            · exact hlast row (by simp [ht]) (cellsOf_empty h1)
    · cases hls

end Jess
