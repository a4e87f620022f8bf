import Verif.Model.Version
import Verif.Lemmas.Basic

namespace Jess

/-! ## C115: what a binary says about itself -/

/-- The last value that a setting was given, empty without one (specification). -/
def LastSetting (settings : List (Bytes × Bytes)) (key value : Bytes) : Prop :=
  (∃ a b, settings = a ++ (key, value) :: b ∧ ∀ p ∈ b, p.1 ≠ key) ∨ ((∀ p ∈ settings, p.1 ≠ key) ∧ value = [])

theorem settingOf_step (settings : List (Bytes × Bytes)) (p : Bytes × Bytes) (key : Bytes) :
    settingOf (settings ++ [p]) key = if p.1 = key then p.2 else settingOf settings key := by
  unfold settingOf
  rw [List.foldl_append]
  rfl

/-- What is read from the build settings is the last value. -/
theorem settingOf_last (key : Bytes) (settings : List (Bytes × Bytes)) : LastSetting settings key (settingOf settings key) := by
  have h : ∀ n (settings : List (Bytes × Bytes)), settings.length = n → LastSetting settings key (settingOf settings key) := by
    intro n
    induction n with
    | zero =>
      intro settings h
      have : settings = [] := List.length_eq_zero_iff.1 h
      subst this
      exact .inr ⟨by simp, rfl⟩
    | succ n ih =>
      intro settings h
      have hne : settings ≠ [] := by intro h0; rw [h0] at h; cases h
      obtain ⟨l, p, rfl⟩ : ∃ l p, settings = l ++ [p] := ⟨settings.dropLast, settings.getLast hne, (List.dropLast_concat_getLast hne).symm⟩
      rw [settingOf_step]
      by_cases hp : p.1 = key
      · rw [if_pos hp]
        subst hp
        exact .inl ⟨l, [], rfl, by simp⟩
      · rw [if_neg hp]
        rcases ih l (by simpa using h) with ⟨a, b, h1, h2⟩ | ⟨h1, h2⟩
        · refine .inl ⟨a, b ++ [p], by conv => lhs; rw [h1]
                                       simp, ?_⟩
          intro q hq
          rcases List.mem_append.1 hq with hq | hq
          · exact h2 q hq
          · rw [List.mem_singleton.1 hq]; exact hp
        · refine .inr ⟨?_, h2⟩
          intro q hq
          rcases List.mem_append.1 hq with hq | hq
          · exact h1 q hq
          · rw [List.mem_singleton.1 hq]; exact hp
  exact h _ settings rfl

/-- `LastSetting` says what the value is. -/
theorem LastSetting.unique {settings : List (Bytes × Bytes)} {key v v' : Bytes} (h : LastSetting settings key v) (h' : LastSetting settings key v') : v = v' := by
  rcases h with ⟨a, b, h1, h2⟩ | ⟨h1, h2⟩ <;> rcases h' with ⟨a', b', h3, h4⟩ | ⟨h3, h4⟩
  · rw [h1] at h3
    rcases List.append_eq_append_iff.1 h3 with ⟨c, hc1, hc2⟩ | ⟨c, hc1, hc2⟩
    · cases c with
      | nil => simp at hc2; exact hc2.1
      | cons x c =>
        simp only [List.cons_append, List.cons.injEq] at hc2
        exact absurd rfl (h2 (key, v') (by rw [hc2.2]; simp))
    · cases c with
      | nil => simp at hc2; exact hc2.1.symm
      | cons x c =>
        simp only [List.cons_append, List.cons.injEq] at hc2
        exact absurd rfl (h4 (key, v) (by rw [hc2.2]; simp))
  · exact absurd rfl (h3 (key, v) (by rw [h1]; simp))
  · exact absurd rfl (h1 (key, v') (by rw [h3]; simp))
  · rw [h2, h4]

/-- C115 is REFUTED for binaries without build info (built without module support): every command crashes before it starts. They are the only ones. -/
theorem start_panics_iff (info : BuildInfo) (v : BuildVars) : initVersion info v = .error .panic ↔ info = none := by
  unfold initVersion
  cases info with
  | none => simp
  | some s =>
    dsimp only
    split <;> simp

/-- C115. The version that a binary shows: the one that it was built with, with blanks for underscores; if the working tree was modified, it ends with "dev build". -/
theorem shown_version (settings : List (Bytes × Bytes)) (v : BuildVars) :
    ∃ v', initVersion (some settings) v = .ok v' ∧ 95 ∉ v'.version ∧
      (¬ LastSetting settings b!"vcs.modified" b!"true" → v'.version = underscores v.version) ∧
      (LastSetting settings b!"vcs.modified" b!"true" → b!"dev build" <:+ v'.version ∧
        (v'.version = underscores v.version ∨ v'.version = underscores v.version ++ b!" dev build")) ∧
      v' = { v with version := v'.version, source := underscores v.source, time := underscores v.time } := by
  have hu : ∀ s : Bytes, 95 ∉ underscores s := by
    intro s h
    unfold underscores at h
    obtain ⟨c, _, hc⟩ := List.mem_map.1 h
    split at hc
    · exact absurd hc (by decide)
    · rename_i hne; exact hne hc
  have hiff : LastSetting settings b!"vcs.modified" b!"true" ↔ settingOf settings b!"vcs.modified" = b!"true" :=
    ⟨fun h => (settingOf_last _ settings).unique h, fun h => h ▸ settingOf_last _ settings⟩
  unfold initVersion
  dsimp only
  rw [hiff]
  split
  · rename_i h
    refine ⟨_, rfl, ?_, fun hn => absurd h.1 hn, fun _ => ⟨?_, .inr rfl⟩, rfl⟩
    · intro hm
      rcases List.mem_append.1 hm with hm | hm
      · exact hu _ hm
      · revert hm; decide
    · exact ⟨underscores v.version ++ [32], by simp⟩
  · rename_i h
    refine ⟨_, rfl, hu _, fun _ => rfl, ?_, rfl⟩
    intro hm
    refine ⟨?_, .inl rfl⟩
    cases hs : hasSuffix (underscores v.version) b!"dev build" with
    | false => exact absurd ⟨hm, hs⟩ h
    | true => exact List.isSuffixOf_iff_suffix.1 hs

/-- C115. A version that is built from a version without underscores and with "dev build" at its end, or from an unmodified tree, is shown as it is. -/
theorem shown_version_kept (settings : List (Bytes × Bytes)) (v v' : BuildVars) (h : initVersion (some settings) v = .ok v') :
    initVersion (some settings) v' = .ok v' := by
  have hi : ∀ s : Bytes, underscores (underscores s) = underscores s := by
    intro s
    unfold underscores
    rw [List.map_map]
    apply List.map_congr_left
    intro c _
    show (if (if c = 95 then 32 else c) = 95 then (32 : UInt8) else if c = 95 then 32 else c) = _
    by_cases h : c = 95
    · rw [if_pos h]; rfl
    · rw [if_neg h, if_neg h]
  have hua : ∀ s t : Bytes, underscores (s ++ t) = underscores s ++ underscores t := fun s t => List.map_append
  unfold initVersion at h
  dsimp only at h
  split at h
  · cases h
    rename_i hc
    unfold initVersion
    have h1 : underscores (underscores v.version ++ b!" dev build") = underscores v.version ++ b!" dev build" := by
      rw [hua, hi]; rfl
    have h2 : hasSuffix (underscores v.version ++ b!" dev build") b!"dev build" = true :=
      List.isSuffixOf_iff_suffix.2 ⟨underscores v.version ++ [32], by simp⟩
    simp only [h1, hi, h2, Bool.true_eq_false, and_false, if_false]
  · cases h
    rename_i hc
    unfold initVersion
    simp only [hi, hc, if_false]

/-- C115. What `jess version` prints, for a modified and for an unmodified tree: the version in the first line, and the commit with the word dirty exactly if it was modified. -/
theorem version_says (settings : List (Bytes × Bytes)) (v : BuildVars) (rev : Bytes) (hr : LastSetting settings b!"vcs.revision" rev) :
    ∃ v' out pre post word, initVersion (some settings) v = .ok v' ∧ versionCommand (some settings) v = .ok out ∧
      out = b!"Jess " ++ v'.version ++ b!"\n" ++ pre ++ b!"\ncommit " ++ rev ++ b!" (" ++ word ++ b!")\n" ++ post ∧
      (LastSetting settings b!"vcs.modified" b!"true" ∧ word = b!"dirty" ∨ ¬ LastSetting settings b!"vcs.modified" b!"true" ∧ word = b!"clean") := by
  obtain ⟨v', h1, _⟩ := shown_version settings v
  have hiff : LastSetting settings b!"vcs.modified" b!"true" ↔ settingOf settings b!"vcs.modified" = b!"true" :=
    ⟨fun h => (settingOf_last _ settings).unique h, fun h => h ▸ settingOf_last _ settings⟩
  have hrev : settingOf settings b!"vcs.revision" = rev := (settingOf_last _ settings).unique hr
  have h2 : versionCommand (some settings) v = versionText (some settings) v' := by
    unfold versionCommand
    rw [h1, ok_bind]
  by_cases hm : settingOf settings b!"vcs.modified" = b!"true"
  · refine ⟨v', _, b!"\nbuilt with " ++ v'.goVersion ++ b!" (" ++ v'.compiler ++ b!" " ++ (if settingOf settings b!"CGO_ENABLED" = b!"1" then b!"+cgo" else b!"-cgo") ++ b!") for " ++ v'.goos ++ b!"/" ++ v'.goarch ++ b!"\n  at " ++ v'.time ++ b!"\n",
      b!"  at " ++ settingOf settings b!"vcs.time" ++ b!"\n  from " ++ v'.source ++ b!"\n\nLicensed under the GPLv3 license.\n", b!"dirty", h1, h2.trans ?_, rfl, .inl ⟨hiff.2 hm, rfl⟩⟩
    unfold versionText
    simp only [hm, hrev, if_true, List.append_assoc, List.cons_append, List.nil_append]
  · refine ⟨v', _, b!"\nbuilt with " ++ v'.goVersion ++ b!" (" ++ v'.compiler ++ b!" " ++ (if settingOf settings b!"CGO_ENABLED" = b!"1" then b!"+cgo" else b!"-cgo") ++ b!") for " ++ v'.goos ++ b!"/" ++ v'.goarch ++ b!"\n  at " ++ v'.time ++ b!"\n",
      b!"  at " ++ settingOf settings b!"vcs.time" ++ b!"\n  from " ++ v'.source ++ b!"\n\nLicensed under the GPLv3 license.\n", b!"clean", h1, h2.trans ?_, rfl, .inr ⟨fun h => hm (hiff.1 h), rfl⟩⟩
    unfold versionText
    simp only [hm, hrev, if_false, List.append_assoc, List.cons_append, List.nil_append]

/-- Finding: a binary that knows nothing of its origin (built outside of a repository, or without VCS stamping) calls itself clean. -/
theorem unknown_is_clean (v : BuildVars) : ∃ pre post, versionCommand (some []) v = .ok (pre ++ b!"\ncommit  (clean)\n" ++ post) := by
  obtain ⟨v', out, pre, post, word, h1, h2, h3, h4⟩ := version_says [] v [] (.inr ⟨by simp, rfl⟩)
  rcases h4 with ⟨h, _⟩ | ⟨_, rfl⟩
  · exact absurd ((settingOf_last _ []).unique h) (by decide)
  · refine ⟨b!"Jess " ++ v'.version ++ b!"\n" ++ pre, post, ?_⟩
    rw [h2, h3]
    simp

/-- A release that was built from a modified tree, and its text. -/
theorem version_example :
    (initVersion (some [(b!"vcs.modified", b!"true")]) { version := b!"v0.3.4_beta" }).map (·.version) = .ok b!"v0.3.4 beta dev build" ∧
    (initVersion (some [(b!"vcs.modified", b!"true"), (b!"vcs.modified", b!"false")]) { version := b!"v1" }).map (·.version) = .ok b!"v1" ∧
    (initVersion (some [(b!"vcs.modified", b!"true")]) {}).map (·.version) = .ok b!"dev build" ∧
    versionCommand (some [(b!"CGO_ENABLED", b!"1"), (b!"vcs.revision", b!"abc"), (b!"vcs.time", b!"T")]) { version := b!"v1" } =
      .ok b!"Jess v1\n\nbuilt with go1.22 (gc +cgo) for linux/amd64\n  at unknown\n\ncommit abc (clean)\n  at T\n  from unknown\n\nLicensed under the GPLv3 license.\n" := by
  decide +kernel

end Jess
