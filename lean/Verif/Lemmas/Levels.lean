import Verif.Lemmas.Session

/-! Lemmas about the session level bookkeeping. -/

namespace Jess

theorem updLevels_level (cs : List Int) : ∀ (lv : Levels), (∀ c ∈ cs, 0 ≤ c) → 0 ≤ lv.level →
    ((∀ c ∈ cs, c = 0) ∧ (cs.foldl updLevels lv).level = lv.level) ∨
    (0 < (cs.foldl updLevels lv).level ∧
      ((cs.foldl updLevels lv).level ∈ cs ∨ (cs.foldl updLevels lv).level = lv.level) ∧
      (∀ c ∈ cs, c ≠ 0 → (cs.foldl updLevels lv).level ≤ c) ∧ (lv.level ≠ 0 → (cs.foldl updLevels lv).level ≤ lv.level)) := by
  induction cs with
  | nil => intro lv _ _; left; simp
  | cons c cs ih =>
    intro lv h0 hl
    have hc0 : 0 ≤ c := h0 c (by simp)
    rw [List.foldl_cons]
    have hup : 0 ≤ (updLevels lv c).level := by
      unfold updLevels; split
      · exact hl
      · simp only; split <;> omega
    have hu : (c = 0 ∧ (updLevels lv c).level = lv.level) ∨
        (c ≠ 0 ∧ 0 < (updLevels lv c).level ∧ (updLevels lv c).level ≤ c ∧ ((updLevels lv c).level = c ∨ (updLevels lv c).level = lv.level) ∧
          (lv.level ≠ 0 → (updLevels lv c).level ≤ lv.level)) := by
      unfold updLevels
      by_cases hz : c = 0
      · left; simp [hz]
      · right
        simp only [hz, if_false]
        split
        · rename_i h; refine ⟨by simp [hz], by omega, by omega, Or.inl rfl, fun hne => ?_⟩; omega
        · rename_i h; refine ⟨by simp [hz], by omega, by omega, Or.inr rfl, fun hne => ?_⟩; omega
    rcases ih (updLevels lv c) (fun d hd => h0 d (by simp [hd])) hup with ⟨i1, i2⟩ | ⟨i1, i2, i3, i4⟩
    · rcases hu with ⟨u1, u2⟩ | ⟨u0, u1, u2, u3, u4⟩
      · left
        refine ⟨?_, by rw [i2, u2]⟩
        intro d hd; rcases List.mem_cons.mp hd with rfl | hd
        · exact u1
        · exact i1 d hd
      · right
        rw [i2]
        refine ⟨u1, ?_, ?_, u4⟩
        · rcases u3 with h | h
          · left; rw [h]; simp
          · right; exact h
        · intro d hd hne
          rcases List.mem_cons.mp hd with rfl | hd
          · exact u2
          · exact absurd (i1 d hd) hne
    · right
      rcases hu with ⟨u1, u2⟩ | ⟨u0, u1, u2, u3, u4⟩
      · rw [u2] at i2 i4
        refine ⟨i1, ?_, ?_, i4⟩
        · rcases i2 with h | h
          · left; simp [h]
          · right; exact h
        · intro d hd hne
          rcases List.mem_cons.mp hd with rfl | hd
          · exact absurd u1 hne
          · exact i3 d hd hne
      · have i4' := i4 (by omega)
        refine ⟨i1, ?_, ?_, fun hne => by have := u4 hne; omega⟩
        · rcases i2 with h | h
          · left; simp [h]
          · rcases u3 with g | g
            · left; rw [h, g]; simp
            · right; rw [h, g]
        · intro d hd hne
          rcases List.mem_cons.mp hd with rfl | hd
          · omega
          · exact i3 d hd hne

/-- The session level: 0 if no level applied, otherwise the smallest level that applied. -/
theorem levelsOf_level (cs : List Int) (h : ∀ c ∈ cs, 0 ≤ c) :
    ((∀ c ∈ cs, c = 0) ∧ (levelsOf cs).level = 0) ∨
    (0 < (levelsOf cs).level ∧ (levelsOf cs).level ∈ cs ∧ ∀ c ∈ cs, c ≠ 0 → (levelsOf cs).level ≤ c) := by
  rcases updLevels_level cs {} h (by simp) with ⟨h1, h2⟩ | ⟨h1, h2, h3, _⟩
  · left; exact ⟨h1, h2⟩
  · right
    refine ⟨h1, ?_, h3⟩
    rcases h2 with h2 | h2
    · exact h2
    · have : ((cs.foldl updLevels {}).level : Int) = 0 := h2
      omega

theorem updLevels_max (cs : List Int) : ∀ (lv : Levels), 0 ≤ lv.max →
    lv.max ≤ (cs.foldl updLevels lv).max ∧ (∀ c ∈ cs, c ≤ (cs.foldl updLevels lv).max) ∧
      ((cs.foldl updLevels lv).max = lv.max ∨ (cs.foldl updLevels lv).max ∈ cs) := by
  induction cs with
  | nil => intro lv _; simp
  | cons c cs ih =>
    intro lv h0
    rw [List.foldl_cons]
    have hu : lv.max ≤ (updLevels lv c).max ∧ c ≤ (updLevels lv c).max ∧
        ((updLevels lv c).max = lv.max ∨ (updLevels lv c).max = c) := by
      unfold updLevels
      by_cases hz : c = 0
      · simp [hz]; exact h0
      · simp only [hz, if_false]; split <;> simp <;> omega
    obtain ⟨i1, i2, i3⟩ := ih (updLevels lv c) (by omega)
    refine ⟨by omega, ?_, ?_⟩
    · intro d hd
      rcases List.mem_cons.mp hd with rfl | hd
      · omega
      · exact i2 d hd
    · rcases i3 with h | h
      · rcases hu.2.2 with g | g
        · left; rw [h, g]
        · right; rw [h, g]; simp
      · right; simp [h]

/-- The maximum level: the largest level that applied, or 0. -/
theorem levelsOf_max (cs : List Int) :
    0 ≤ (levelsOf cs).max ∧ (∀ c ∈ cs, c ≤ (levelsOf cs).max) ∧ ((levelsOf cs).max = 0 ∨ (levelsOf cs).max ∈ cs) := by
  obtain ⟨h1, h2, h3⟩ := updLevels_max cs {} (by simp)
  exact ⟨h1, h2, h3⟩

theorem mem_map_ok {α β : Type} {f : α → Res β} {xs : List α} {cs : List β} (h : xs.map f = cs.map Except.ok) {x : α}
    (hx : x ∈ xs) : ∃ c ∈ cs, f x = .ok c := by
  have : f x ∈ xs.map f := List.mem_map_of_mem hx
  rw [h] at this
  obtain ⟨c, hc, he⟩ := List.mem_map.mp this
  exact ⟨c, hc, he.symm⟩

theorem mem_of_map_ok {α β : Type} {f : α → Res β} {xs : List α} {cs : List β} (h : xs.map f = cs.map Except.ok) {c : β}
    (hc : c ∈ cs) : ∃ x ∈ xs, f x = .ok c := by
  have : (Except.ok c : Res β) ∈ cs.map Except.ok := List.mem_map_of_mem hc
  rw [← h] at this
  obtain ⟨x, hx, he⟩ := List.mem_map.mp this
  exact ⟨x, hx, he⟩

/-- What an instance is made of. -/
theorem makeInst_spec {tid : Bytes} {i : ToolInst} (h : makeInst tid = .ok i) :
    getTool (parseToolID tid).1 = some i.info ∧ i.info ∈ toolTable ∧ i.info.name = (parseToolID tid).1 ∧
    resolveHash i.info (parseToolID tid).2 = .ok i.hash ∧ (∀ hh, i.hash = some hh → hh ∈ hashTable) := by
  unfold makeInst at h
  cases hg : getTool (parseToolID tid).1 with
  | none => rw [hg] at h; cases h
  | some t =>
    rw [hg] at h
    simp only at h
    cases hr : resolveHash t (parseToolID tid).2 with
    | error x => rw [hr] at h; cases h
    | ok hh =>
      rw [hr] at h
      simp only [Except.ok.injEq] at h
      subst h
      refine ⟨rfl, List.mem_of_find?_eq_some hg, ?_, hr, ?_⟩
      · simpa using List.find?_some hg
      · intro hh' e
        simp only at e
        subst e
        unfold resolveHash at hr
        split at hr
        · split at hr
          · split at hr
            · simp only [Except.ok.injEq, Option.some.injEq] at hr
              rename_i heq; rw [← hr]; exact List.mem_of_find?_eq_some heq
            · cases hr
          · cases hr
        · split at hr
          · split at hr
            · simp only [Except.ok.injEq, Option.some.injEq] at hr
              rename_i heq; rw [← hr]; exact List.mem_of_find?_eq_some heq
            · cases hr
          · cases hr

theorem inst_of_session {suite : Suite} {is : List ToolInst} (hm : suite.tools.map makeInst = is.map Except.ok)
    {i : ToolInst} (hi : i ∈ is) : ∃ tid ∈ suite.tools, makeInst tid = .ok i := mem_of_map_ok hm hi

theorem hashTable_pos : ∀ h ∈ hashTable, 0 < h.securityLevel := by decide +kernel

theorem toolTable_nonneg : ∀ t ∈ toolTable, 0 ≤ t.securityLevel ∧ t.name ≠ [] ∧ t.name ≠ schemeKey ∧ t.name ≠ schemePassword := by
  decide +kernel

/-- Tool names in the table are unique, so an entry is what looking up its name returns. -/
theorem getTool_name : ∀ t ∈ toolTable, getTool t.name = some t := by decide +kernel

end Jess
