import Verif.Props.Dialogs

/-! When the lines of a dialog are short enough for the scanner. -/

namespace Jess

theorem scan_short {ls : List Bytes} (h10 : ∀ l ∈ ls, 10 ∉ l) (hlen : ∀ l ∈ ls, l.length < 65536) :
    (rawLines (joinBytes [10] ls)).all scanLine = true := by
  induction ls with
  | nil => rfl
  | cons x xs ih =>
    have hx := h10 x (by simp)
    have hl := hlen x (by simp)
    cases xs with
    | nil =>
      rw [joinBytes]
      by_cases he : x = []
      · subst he; rfl
      · rw [rawLines_last he hx]
        have hn : x.getLast? ≠ some 10 := fun h => hx (List.mem_of_getLast? h)
        simp [scanLine, hn, hl]
    | cons y ys =>
      have : joinBytes [10] (x :: y :: ys) = x ++ 10 :: joinBytes [10] (y :: ys) := by simp [joinBytes]
      rw [this, rawLines_line hx, List.all_cons, ih (fun l hl => h10 l (by simp [hl])) (fun l hl => hlen l (by simp [hl]))]
      have h1 : x.length + 1 ≤ 65536 := hl
      simp [scanLine, h1]

/-- A table is shown, if no line is too long. -/
theorem formatColumns_fit {t : List (List Bytes)} (hne : t ≠ []) (h : ∀ r ∈ t, OneLine r)
    (pad : List (List Bytes) → Nat → Nat → Nat) (hlen : ∀ l ∈ padLines (pad t) 0 (t.map cellsOf), l.length < 65536)
    (hlast : ∀ r ∈ t.getLast?, r ≠ [[]]) : formatColumns pad t ≠ [] := by
  have hs : scanLines (tabWrite (pad t) (tableText t)) = .ok (rawLines (tabWrite (pad t) (tableText t))) := by
    unfold scanLines
    rw [if_pos]
    rw [tabWrite_table hne h]
    refine scan_short ?_ hlen
    intro l hl h10
    obtain ⟨k, r, hr, rfl⟩ := padLines_mem _ hl
    obtain ⟨row, hrow, rfl⟩ := List.mem_map.1 hr
    rcases padCells_mem _ h10 with h' | ⟨x, hx, hb⟩
    · cases h'
    · obtain ⟨y, hy, hxy⟩ := cellsOf_mem hx
      exact ((h row hrow).feeds y hy).1 (hxy _ hb)
  rcases formatColumns_rows h hlast pad with h1 | h1
  · intro _
    unfold formatColumns at h1
    rw [hs] at h1
    dsimp only at h1
    rw [List.map_eq_nil_iff] at h1
    have h2 := rawLines_flatten (tabWrite (pad t) (tableText t))
    rw [h1, tabWrite_table hne h] at h2
    have h3 : joinBytes [10] (padLines (pad t) 0 (t.map cellsOf)) = [] := h2.symm
    cases t with
    | nil => exact hne rfl
    | cons r rs =>
      cases rs with
      | nil =>
        simp only [List.map_cons, List.map_nil, padLines, joinBytes] at h3
        rcases padCells_nil h3 with h4 | h4
        · exact cellsOf_ne (h r (by simp)).ne h4
        · exact hlast r (by simp) (cellsOf_empty h4)
      | cons q qs => simp [padLines, joinBytes] at h3
  · rw [h1]
    cases t with
    | nil => exact absurd rfl hne
    | cons r rs => simp [padLines]

theorem padCells_length {N M : Nat} {cells : List Bytes} : ∀ {pad : Nat → Nat}, (∀ x ∈ cells, x.length ≤ N) → (∀ j, pad j ≤ M) →
    (padCells pad cells).length ≤ cells.length * (N + 3 + M) := by
  induction cells with
  | nil => intro pad _ _; simp [padCells]
  | cons x xs ih =>
    intro pad hx hp
    have h1 := hx x (by simp)
    cases xs with
    | nil => simp only [padCells, List.length_cons, List.length_nil]; omega
    | cons y ys =>
      have h2 := ih (pad := fun j => pad (j + 1)) (fun z hz => hx z (by simp [hz])) (fun j => hp (j + 1))
      have h3 := hp 0
      simp only [padCells, List.length_append, List.length_replicate, List.length_cons] at h2 ⊢
      rw [Nat.add_mul (ys.length + 1) 1]
      omega

/-- Texts without tabs are one cell each. -/
theorem cellsOf_plain {row : List Bytes} (h : ∀ x ∈ row, ∀ c ∈ x, (c == 9 || c == 11) = false) : cellsOf row = row :=
  flatMap_singletons (fun x hx => splitBytes_none (h x hx))

theorem scan_long {ls : List Bytes} (h10 : ∀ l ∈ ls, 10 ∉ l) (hlen : ∃ l ∈ ls, 65536 ≤ l.length) :
    (rawLines (joinBytes [10] ls)).all scanLine = false := by
  induction ls with
  | nil => obtain ⟨l, hl, _⟩ := hlen; cases hl
  | cons x xs ih =>
    have hx := h10 x (by simp)
    cases xs with
    | nil =>
      obtain ⟨l, hl, hlen⟩ := hlen
      simp only [List.mem_singleton] at hl
      subst hl
      rw [joinBytes]
      have he : l ≠ [] := by intro h; subst h; simp at hlen
      rw [rawLines_last he hx]
      have hn : l.getLast? ≠ some 10 := fun h => hx (List.mem_of_getLast? h)
      simp [scanLine, hn, hlen]
    | cons y ys =>
      have : joinBytes [10] (x :: y :: ys) = x ++ 10 :: joinBytes [10] (y :: ys) := by simp [joinBytes]
      rw [this, rawLines_line hx, List.all_cons]
      obtain ⟨l, hl, hlen⟩ := hlen
      rcases List.mem_cons.1 hl with rfl | hl
      · have : ¬ l.length + 1 ≤ 65536 := by omega
        simp [scanLine, this]
      · rw [ih (fun l hl => h10 l (by simp [hl])) ⟨l, hl, hlen⟩]
        simp

theorem padCells_head {pad : Nat → Nat} {x : Bytes} {xs : List Bytes} : x.length ≤ (padCells pad (x :: xs)).length := by
  cases xs <;> simp [padCells]

/-- A table with a line of 64 KiB is not shown at all. -/
theorem formatColumns_long {t : List (List Bytes)} (h : ∀ r ∈ t, OneLine r) (pad : List (List Bytes) → Nat → Nat → Nat) {x : Bytes}
    {xs : List Bytes} (hr : x :: xs ∈ t) (htab : ∀ c ∈ x, (c == 9 || c == 11) = false) (hx : 65536 ≤ x.length) : formatColumns pad t = [] := by
  have hne : t ≠ [] := by intro he; rw [he] at hr; cases hr
  unfold formatColumns scanLines
  rw [if_neg]
  rw [tabWrite_table hne h, scan_long]
  · simp
  · intro l hl h10
    obtain ⟨k, r, hr, rfl⟩ := padLines_mem _ hl
    obtain ⟨row, hrow, rfl⟩ := List.mem_map.1 hr
    rcases padCells_mem _ h10 with h' | ⟨x, hx, hb⟩
    · cases h'
    · obtain ⟨y, hy, hxy⟩ := cellsOf_mem hx
      exact ((h row hrow).feeds y hy).1 (hxy _ hb)
  · obtain ⟨i, hi, hget⟩ := List.mem_iff_getElem.1 hr
    have hg := padLines_get (pad t) (t.map cellsOf) 0 i
    rw [List.getElem?_map, List.getElem?_eq_getElem hi, hget] at hg
    have hc : cellsOf (x :: xs) = x :: cellsOf xs := by
      unfold cellsOf
      rw [List.flatMap_cons, splitBytes_none htab]
      rfl
    rw [Option.map_some, Option.map_some, hc] at hg
    exact ⟨_, List.mem_of_getElem? hg, Nat.le_trans hx padCells_head⟩

end Jess
