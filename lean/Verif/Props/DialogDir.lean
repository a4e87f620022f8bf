import Verif.Props.DialogPanics
import Verif.Props.ConfigureExamples

/-! C72 on the directory trust store. -/

namespace Jess

/-- The library that reads and writes files does not crash. -/
structure Dsd.NoPanic (D : Dsd) : Prop where
  loadSignet : ∀ b, (D.loadSignet b).noPanic
  loadEnvelope : ∀ b, (D.loadEnvelope b).noPanic
  dumpEnvelope : ∀ e, (D.dumpEnvelope e).noPanic
  textEnvelope : ∀ e, (D.textEnvelope e).noPanic

/-- Every signet and every envelope in a file (specification): short texts without tabs and line ends. -/
def FS.Shown (D : Dsd) (fs : FS) : Prop :=
  ∀ n dir d, fs (n :: dir) = some (.file d) →
    ((b!".signet" <:+ n ∨ b!".recipient" <:+ n) → ∀ s, D.loadSignet d = .ok s → ShownSignet s) ∧
    (b!".envelope" <:+ n → ∀ e, D.loadEnvelope d = .ok e → ShownEnvelope e)

theorem np_readFS (fs : FS) (l : Loc) : (fs.read l).noPanic := by
  unfold FS.read
  split <;> intro h <;> cases h

theorem read_file {fs : FS} {l : Loc} {d : Bytes} (h : fs.read l = .ok d) : fs l = some (.file d) := by
  unfold FS.read at h
  split at h
  · cases h
  · cases h
  · cases h; assumption

theorem np_loadSignetFile {D : Dsd} (hD : D.NoPanic) (fs : FS) (l : Loc) : (loadSignetFromFile D fs l).noPanic := by
  unfold loadSignetFromFile
  have := np_readFS fs l
  split
  · rename_i e he
    rw [he] at this
    split
    · exact np_err (by decide)
    · exact np_err (fun h => this (by rw [h]))
  · exact hD.loadSignet _

theorem shown_file {D : Dsd} {fs : FS} (hI : fs.Shown D) {n : Bytes} {dir : Loc} (hn : b!".signet" <:+ n ∨ b!".recipient" <:+ n) {s : Signet}
    (h : loadSignetFromFile D fs (n :: dir) = .ok s) : ShownSignet s := by
  unfold loadSignetFromFile at h
  split at h
  · cases h
  · rename_i d hd
    exact (hI n dir d (read_file hd)).1 hn s h

theorem np_loadEnvelopeFile {D : Dsd} (hD : D.NoPanic) (reg : List Suite) (fs : FS) (l : Loc) : (loadEnvelopeFromFile D reg fs l).noPanic := by
  unfold loadEnvelopeFromFile
  have h1 := np_readFS fs l
  split
  · rename_i e he
    rw [he] at h1
    exact np_err (fun h => h1 (by rw [h]))
  · rename_i d hd
    have h2 := hD.loadEnvelope d
    split
    · rename_i e he
      rw [he] at h2
      exact np_err (fun h => h2 (by rw [h]))
    · unfold loadSuite
      repeat' split
      all_goals (intro h; cases h)

theorem shown_envelopeFile {D : Dsd} {reg : List Suite} {fs : FS} (hI : fs.Shown D) {n : Bytes} {dir : Loc} (hn : b!".envelope" <:+ n)
    {e : Envelope} (h : loadEnvelopeFromFile D reg fs (n :: dir) = .ok e) : ShownEnvelope e ∧ e.suite.isSome = true := by
  unfold loadEnvelopeFromFile at h
  split at h
  · cases h
  · rename_i d hd
    split at h
    · cases h
    · rename_i o ho
      have hs := (hI n dir d (read_file hd)).2 hn o ho
      unfold loadSuite at h
      split at h
      · rename_i su hsu
        cases h
        exact ⟨hs, by rw [hsu]; rfl⟩
      · split at h
        · cases h
        · cases h
          exact ⟨⟨hs.name, hs.suite, hs.signets⟩, rfl⟩

theorem suffix_parts {l : Loc} {t : Bytes} (ht : t ≠ []) (h : hasSuffix (l.headD []) t = true) : ∃ n dir, l = n :: dir ∧ t <:+ n := by
  cases l with
  | nil =>
    have := (hasSuffix_iff _ _).1 h
    simp at this
    exact absurd this ht
  | cons n dir => exact ⟨n, dir, rfl, (hasSuffix_iff _ _).1 h⟩

theorem selectLoop_shown {D : Dsd} (hD : D.NoPanic) {fs : FS} (hI : fs.Shown D) (filter : UInt8) (schemes : List Bytes) :
    ∀ (ls : List Loc) (acc : List Signet), (∀ s ∈ acc, ShownSignet s) →
      (dirSelectLoop D fs filter schemes acc ls).noPanic ∧
      ∀ l, dirSelectLoop D fs filter schemes acc ls = .ok l → ∀ s ∈ l, ShownSignet s
  | [], acc, ha => ⟨(np_ok _), by intro l h; rw [dirSelectLoop] at h; cases h; exact ha⟩
  | k :: ls, acc, ha => by
    rw [dirSelectLoop]
    split
    · exact selectLoop_shown hD hI filter schemes ls acc ha
    · rename_i hk
      have hk' : ∃ n dir, k = n :: dir ∧ (b!".signet" <:+ n ∨ b!".recipient" <:+ n) := by
        cases h1 : hasSuffix (k.headD []) b!".signet" with
        | true => obtain ⟨n, dir, he, h⟩ := suffix_parts (by decide) h1; exact ⟨n, dir, he, Or.inl h⟩
        | false =>
          cases h2 : hasSuffix (k.headD []) b!".recipient" with
          | true => obtain ⟨n, dir, he, h⟩ := suffix_parts (by decide) h2; exact ⟨n, dir, he, Or.inr h⟩
          | false => rw [h1, h2] at hk; simp at hk
      obtain ⟨n, dir, rfl, hn⟩ := hk'
      have h1 := np_loadSignetFile hD fs (n :: dir)
      split
      · rename_i e he
        rw [he] at h1
        exact ⟨np_err (fun h => h1 (by rw [h])), by intro l h; cases h⟩
      · rename_i s hs
        split
        · exact selectLoop_shown hD hI filter schemes ls acc ha
        · split
          · refine selectLoop_shown hD hI filter schemes ls (acc ++ [s]) ?_
            intro x hx
            rcases List.mem_append.1 hx with hx | hx
            · exact ha x hx
            · simp only [List.mem_singleton] at hx
              subst hx
              exact shown_file hI hn hs
          · exact selectLoop_shown hD hI filter schemes ls acc ha

theorem allLoop_shown {D : Dsd} (hD : D.NoPanic) {reg : List Suite} {fs : FS} (hI : fs.Shown D) :
    ∀ (ls : List Loc) (acc : List Envelope), (∀ e ∈ acc, ShownEnvelope e ∧ e.suite.isSome = true) →
      (allEnvelopesLoop D reg fs acc ls).noPanic ∧
      ∀ l, allEnvelopesLoop D reg fs acc ls = .ok l → ∀ e ∈ l, ShownEnvelope e ∧ e.suite.isSome = true
  | [], acc, ha => ⟨(np_ok _), by intro l h; rw [allEnvelopesLoop] at h; cases h; exact ha⟩
  | k :: ls, acc, ha => by
    rw [allEnvelopesLoop]
    split
    · exact allLoop_shown hD hI ls acc ha
    · rename_i hk
      obtain ⟨n, dir, rfl, hn⟩ := suffix_parts (t := b!".envelope") (by decide) (by simpa using hk)
      have h1 := np_loadEnvelopeFile hD reg fs (n :: dir)
      split
      · rename_i e he
        rw [he] at h1
        exact ⟨np_err (fun h => h1 (by rw [h])), by intro l h; cases h⟩
      · rename_i s hs
        refine allLoop_shown hD hI ls (acc ++ [s]) ?_
        intro x hx
        rcases List.mem_append.1 hx with hx | hx
        · exact ha x hx
        · simp only [List.mem_singleton] at hx
          subst hx
          exact shown_envelopeFile hI hn hs

theorem shown_removed {D : Dsd} {fs : FS} (hI : fs.Shown D) (l : Loc) : (fs.remove l).1.Shown D ∧ (fs.remove l).2.noPanic := by
  unfold FS.remove
  split
  · exact ⟨hI, np_err (by decide)⟩
  · exact ⟨hI, np_err (by decide)⟩
  · refine ⟨?_, np_ok _⟩
    intro n dir d h
    dsimp only [FS.set] at h
    split at h
    · cases h
    · exact hI n dir d h

theorem ShownSignet.stored {s : Signet} (h : ShownSignet s) : ShownSignet s.stored := h.of_same rfl rfl rfl

theorem ShownEnvelope.stored {e : Envelope} (h : ShownEnvelope e) : ShownEnvelope e.stored := by
  refine ⟨h.name, h.suite, ?_⟩
  intro s hs
  have : ∃ o ∈ e.secrets ++ e.senders ++ e.recipients, o.stored = s := by
    simpa [Envelope.stored, or_and_right, exists_or] using hs
  obtain ⟨o, ho, rfl⟩ := this
  exact (h.signets o ho).stored

theorem suffix_end {a b n : Bytes} (ha : a <:+ n) (hb : b <:+ n) (hab : a.getLast? ≠ b.getLast?) (hane : a ≠ []) (hbne : b ≠ []) : False := by
  obtain ⟨x, hx⟩ := ha
  obtain ⟨y, hy⟩ := hb
  apply hab
  have h1 := congrArg List.getLast? hx
  have h2 := congrArg List.getLast? hy
  rw [List.getLast?_append] at h1 h2
  cases ha : a.getLast? with
  | none => exact absurd (List.getLast?_eq_none_iff.1 ha) hane
  | some u =>
    cases hb : b.getLast? with
    | none => exact absurd (List.getLast?_eq_none_iff.1 hb) hbne
    | some v =>
      rw [ha] at h1
      rw [hb] at h2
      simp at h1 h2
      rw [← h2] at h1
      exact h1

theorem shown_written {D : Dsd} (hS : D.Sound) (hD : D.NoPanic) {S : DirStore} (hd : S.storageDir ≠ []) {fs : FS} (hI : fs.Shown D)
    {w : WriteEnd} (hw : ∀ n, w ≠ .stopped n) {e : Envelope} (he : ShownEnvelope e) :
    (S.storeEnvelope D fs w e).1.Shown D ∧ (S.storeEnvelope D fs w e).2.noPanic := by
  unfold DirStore.storeEnvelope writeEnvelopeToFile
  split
  · exact ⟨hI, np_err (by decide)⟩
  · split
    · exact ⟨hI, np_err (by decide)⟩
    · rename_i hp
      have hn : PermittedName e.name := (playsNice_iff _).1 (by simpa using hp)
      rw [file_envelope S hd e.name hn]
      have h1 := hD.dumpEnvelope e.stored
      split
      · rename_i x hx
        rw [hx] at h1
        exact ⟨hI, np_err (fun h => h1 (by rw [h]))⟩
      · rename_i data hdata
        unfold FS.write
        split
        · exact ⟨hI, np_err (by decide)⟩
        · split
          · exact ⟨hI, np_err (by decide)⟩
          · refine ⟨?_, np_ok _⟩
            intro n dir d h
            dsimp only [FS.set] at h
            split at h
            · rename_i hk
              cases hk
              cases h
              refine ⟨?_, ?_⟩
              · intro hsuf
                exfalso
                have h2 : b!".envelope" <:+ e.name ++ b!".envelope" := List.suffix_append _ _
                rcases hsuf with h | h
                · exact suffix_end h h2 (by decide) (by decide) (by decide)
                · exact suffix_end h h2 (by decide) (by decide) (by decide)
              · intro _ o ho
                rw [(hS.envelope _ _ hdata).2] at ho
                cases ho
                exact he.stored
            · exact hI n dir d h
          · exact absurd rfl (hw _)

/-- The directory trust store, with the built-in suites. -/
theorem dir_tidy {D : Dsd} (hS : D.Sound) (hD : D.NoPanic) {S : DirStore} (hd : S.storageDir ≠ []) (reg : List Suite) (walk : FS → List Loc)
    {w : WriteEnd} (hw : ∀ n, w ≠ .stopped n) : (dirTrust S D reg walk w).Tidy (FS.Shown D) where
  select := fun st f sch hI => selectLoop_shown hD hI f sch (walk st) [] (by simp)
  getSignet := by
    intro st id r hI
    show (S.getSignet D st id r).noPanic ∧ ∀ s, S.getSignet D st id r = .ok s → ShownSignet s
    unfold DirStore.getSignet
    split
    · exact ⟨np_err (by decide), by intro s h; cases h⟩
    · rename_i hp
      rw [file_signet S hd id r ((playsNice_iff _).1 (by simpa using hp))]
      refine ⟨np_loadSignetFile hD st _, fun s h => shown_file hI ?_ h⟩
      cases r
      · exact Or.inl (List.suffix_append _ _)
      · exact Or.inr (List.suffix_append _ _)
  getEnvelope := by
    intro st n hI
    dsimp only [dirTrust]
    split
    · exact ⟨np_err (by decide), by intro e h; cases h⟩
    · rename_i hp
      have hp' : PermittedName n := (playsNice_iff _).1 (by simpa using hp)
      split
      · exact ⟨(np_ok _), by intro e h; cases h⟩
      · unfold DirStore.getEnvelope
        rw [if_neg hp, file_envelope S hd n hp']
        have h1 := np_loadEnvelopeFile hD reg st ((n ++ b!".envelope") :: S.root)
        cases h : loadEnvelopeFromFile D reg st ((n ++ b!".envelope") :: S.root) with
        | error x =>
          rw [h] at h1
          exact ⟨np_err (fun he => h1 (by rw [he])), by intro e he; cases he⟩
        | ok o =>
          refine ⟨(np_ok _), ?_⟩
          intro e he
          cases he
          exact shown_envelopeFile hI (List.suffix_append _ _) h
  allEnvelopes := fun st hI => allLoop_shown hD hI (walk st) [] (by simp)
  deleteSignet := by
    intro st id r hI
    show (S.deleteSignet st id r).1.Shown D ∧ (S.deleteSignet st id r).2.noPanic
    unfold DirStore.deleteSignet
    split
    · exact ⟨hI, np_err (by decide)⟩
    · exact shown_removed hI _
  storeEnvelope := fun st e hI he => shown_written hS hD hd hI hw he
  deleteEnvelope := by
    intro st n hI
    show (S.deleteEnvelope st n).1.Shown D ∧ (S.deleteEnvelope st n).2.noPanic
    unfold DirStore.deleteEnvelope
    split
    · exact ⟨hI, np_err (by decide)⟩
    · exact shown_removed hI _

variable {E : DlgEnv} {D : Dsd}

/-- C72 on a directory: no history of `configure`, `manage signets` and `manage envelopes` crashes, if the texts in the files are short
and have no tabs and line ends; and that stays so. -/
theorem dir_dialogs_no_panic_partial (hP : E.P.NoPanic) (hreg : E.reg = suiteRegistry) (hpad : FillsColumns E.pad) (hS : D.Sound)
    (hD : D.NoPanic) {S : DirStore} (hd : S.storageDir ≠ []) (walk : FS → List Loc) {w : WriteEnd} (hw : ∀ n, w ≠ .stopped n) {fs : FS}
    (hfs : fs.Shown D) :
    (∀ args preset rows rounds, (∀ r ∈ rounds, EditRound.Prompts r) →
      (configureCommand E (dirTrust S D suiteRegistry walk w) D fs args preset rows rounds).2 ≠ .error .panic ∧
      (configureCommand E (dirTrust S D suiteRegistry walk w) D fs args preset rows rounds).1.Shown D) ∧
    (∀ rounds, (manageSignets E (dirTrust S D suiteRegistry walk w) rounds fs).2 ≠ .error .panic ∧
      (manageSignets E (dirTrust S D suiteRegistry walk w) rounds fs).1.Shown D) ∧
    (∀ rounds, (∀ p ∈ rounds, ∀ r ∈ p.2, EditRound.Prompts r) →
      (manageEnvelopes E (dirTrust S D suiteRegistry walk w) D rounds fs).2 ≠ .error .panic ∧
      (manageEnvelopes E (dirTrust S D suiteRegistry walk w) D rounds fs).1.Shown D) := by
  have hT := dir_tidy hS hD hd suiteRegistry walk hw
  refine ⟨?_, ?_, ?_⟩
  · intro args preset rows rounds hr
    exact configure_no_panic_partial hP hreg hpad hT hD.textEnvelope hfs args preset rows rounds hr
  · intro rounds
    exact manage_signets_no_panic_partial hT rounds hfs
  · intro rounds hr
    exact manage_envelopes_no_panic_partial hP hreg hpad hT hD.textEnvelope rounds hfs hr

end Jess
