import Verif.Props.DirStore
import Verif.Lemmas.List

/-! # Listing the entries of a directory store (C31, C65) -/

namespace Jess

/-- A file that a walk of `SelectSignets` reads. -/
def SignetFile (l : Loc) : Prop := b!".signet" <:+ l.headD [] ∨ b!".recipient" <:+ l.headD []

/-- A file that a walk of `AllEnvelopes` reads. -/
def EnvelopeFile (l : Loc) : Prop := b!".envelope" <:+ l.headD []

theorem hasSuffix_iff (s t : Bytes) : hasSuffix s t = true ↔ t <:+ s := by
  unfold hasSuffix; rw [List.isSuffixOf_iff_suffix]

theorem signetFile_iff (l : Loc) :
    (!hasSuffix (l.headD []) b!".signet" && !hasSuffix (l.headD []) b!".recipient") = true ↔ ¬ SignetFile l := by
  unfold SignetFile
  rw [Bool.and_eq_true, Bool.not_eq_true', Bool.not_eq_true', ← hasSuffix_iff, ← hasSuffix_iff]
  simp only [not_or, Bool.not_eq_true]

theorem dirSelectLoop_files (D : Dsd) (fs : FS) (filter : UInt8) (schemes : List Bytes) :
    ∀ (files : List Loc) (acc : List Signet),
      ((∃ l, dirSelectLoop D fs filter schemes acc files = .ok l) ↔ ∀ f ∈ files, SignetFile f → ∃ s, loadSignetFromFile D fs f = .ok s) ∧
      ∀ l, dirSelectLoop D fs filter schemes acc files = .ok l → ∀ s, s ∈ l ↔
        s ∈ acc ∨ ∃ f ∈ files, SignetFile f ∧ loadSignetFromFile D fs f = .ok s ∧ Wanted filter schemes s
  | [], acc => by
    refine ⟨by simp [dirSelectLoop], ?_⟩
    intro l h s
    simp only [dirSelectLoop] at h
    cases h
    simp
  | f :: files, acc => by
    unfold dirSelectLoop
    by_cases hf : SignetFile f
    · have hc : ¬ (!hasSuffix (f.headD []) b!".signet" && !hasSuffix (f.headD []) b!".recipient") = true :=
        fun h => (signetFile_iff f).1 h hf
      rw [if_neg hc]
      cases hl : loadSignetFromFile D fs f with
      | error e =>
        refine ⟨⟨fun ⟨l, h⟩ => (by cases h), fun h => ?_⟩, fun l h => (by cases h)⟩
        obtain ⟨s, hs⟩ := h f List.mem_cons_self hf
        rw [hl] at hs; cases hs
      | ok s =>
        have hall : (∀ g ∈ f :: files, SignetFile g → ∃ t, loadSignetFromFile D fs g = .ok t) ↔
            ∀ g ∈ files, SignetFile g → ∃ t, loadSignetFromFile D fs g = .ok t := by
          refine ⟨fun h g hg => h g (List.mem_cons_of_mem _ hg), fun h g hg hs => ?_⟩
          rcases List.mem_cons.1 hg with rfl | hg
          · exact ⟨s, hl⟩
          · exact h g hg hs
        have hmem : ∀ t, (∃ g ∈ f :: files, SignetFile g ∧ loadSignetFromFile D fs g = .ok t ∧ Wanted filter schemes t) ↔
            (t = s ∧ Wanted filter schemes s) ∨ ∃ g ∈ files, SignetFile g ∧ loadSignetFromFile D fs g = .ok t ∧ Wanted filter schemes t := by
          intro t
          constructor
          · rintro ⟨g, hg, h1, h2, h3⟩
            rcases List.mem_cons.1 hg with rfl | hg
            · rw [hl] at h2; cases h2; exact .inl ⟨rfl, h3⟩
            · exact .inr ⟨g, hg, h1, h2, h3⟩
          · rintro (⟨rfl, h⟩ | ⟨g, hg, h⟩)
            · exact ⟨f, List.mem_cons_self, hf, hl, h⟩
            · exact ⟨g, List.mem_cons_of_mem _ hg, h⟩
        rw [hall]
        simp only [hmem]
        have hw := passes_iff filter schemes s
        have skip : ¬ Wanted filter schemes s →
            ((∃ l, dirSelectLoop D fs filter schemes acc files = .ok l) ↔ ∀ g ∈ files, SignetFile g → ∃ t, loadSignetFromFile D fs g = .ok t) ∧
            ∀ l, dirSelectLoop D fs filter schemes acc files = .ok l → ∀ t, t ∈ l ↔
              t ∈ acc ∨ (t = s ∧ Wanted filter schemes s) ∨ ∃ g ∈ files, SignetFile g ∧ loadSignetFromFile D fs g = .ok t ∧ Wanted filter schemes t := by
          intro hn
          obtain ⟨h1, h2⟩ := dirSelectLoop_files D fs filter schemes files acc
          refine ⟨h1, fun l h t => ?_⟩
          rw [h2 l h t]
          simp [hn]
        split
        · rename_i hp
          exact skip (fun h => by rw [(hw.1 h).1] at hp; cases hp)
        · rename_i hp
          split
          · rename_i hq
            obtain ⟨h1, h2⟩ := dirSelectLoop_files D fs filter schemes files (acc ++ [s])
            refine ⟨h1, fun l h t => ?_⟩
            have hwt : Wanted filter schemes s := hw.2 ⟨by simpa using hp, hq⟩
            rw [h2 l h t, List.mem_append, List.mem_singleton, or_assoc]
            simp [hwt]
          · rename_i hq
            exact skip (fun h => hq (hw.1 h).2)
    · rw [if_pos ((signetFile_iff f).2 hf)]
      obtain ⟨h1, h2⟩ := dirSelectLoop_files D fs filter schemes files acc
      refine ⟨?_, fun l h t => ?_⟩
      · rw [h1]
        refine ⟨fun h g hg hs => ?_, fun h g hg => h g (List.mem_cons_of_mem _ hg)⟩
        rcases List.mem_cons.1 hg with rfl | hg
        · exact absurd hs hf
        · exact h g hg hs
      · rw [h2 l h t]
        refine or_congr Iff.rfl ⟨fun ⟨g, hg, h⟩ => ⟨g, List.mem_cons_of_mem _ hg, h⟩, fun ⟨g, hg, h⟩ => ?_⟩
        rcases List.mem_cons.1 hg with rfl | hg
        · exact absurd h.1 hf
        · exact ⟨g, hg, h⟩

/-- C31, on whatever files are in the directory: `SelectSignets` succeeds exactly if every signet and recipient file can be read - no
unreadable file is passed over in silence -, and then returns the signets of these files that are wanted. -/
theorem dir_select_files (D : Dsd) (fs : FS) (files : List Loc) (filter : UInt8) (schemes : List Bytes) :
    ((∃ l, DirStore.select D fs files filter schemes = .ok l) ↔ ∀ f ∈ files, SignetFile f → ∃ s, loadSignetFromFile D fs f = .ok s) ∧
    ∀ l, DirStore.select D fs files filter schemes = .ok l →
      ∀ s, s ∈ l ↔ ∃ f ∈ files, SignetFile f ∧ loadSignetFromFile D fs f = .ok s ∧ Wanted filter schemes s := by
  obtain ⟨h1, h2⟩ := dirSelectLoop_files D fs filter schemes files []
  exact ⟨h1, fun l h s => by rw [h2 l h s]; simp⟩

/-! ## C65 -/

theorem envelopeFile_iff (l : Loc) : (!hasSuffix (l.headD []) b!".envelope") = true ↔ ¬ EnvelopeFile l := by
  unfold EnvelopeFile
  rw [Bool.not_eq_true', ← hasSuffix_iff, Bool.not_eq_true]

theorem allEnvelopesLoop_files (D : Dsd) (reg : List Suite) (fs : FS) :
    ∀ (files : List Loc) (acc l : List Envelope), allEnvelopesLoop D reg fs acc files = .ok l ↔
      ∃ k, l = acc ++ k ∧ All2 (fun f e => loadEnvelopeFromFile D reg fs f = .ok e)
        (files.filter (fun f => hasSuffix (f.headD []) b!".envelope")) k
  | [], acc, l => by
    simp only [allEnvelopesLoop, List.filter_nil]
    constructor
    · intro h; cases h; exact ⟨[], by simp, .nil⟩
    · rintro ⟨k, rfl, h⟩; cases h; simp
  | f :: files, acc, l => by
    unfold allEnvelopesLoop
    rw [List.filter_cons]
    cases hs : hasSuffix (f.headD []) b!".envelope" with
    | false =>
      simp only [Bool.not_false, if_true, Bool.false_eq_true, if_false]
      exact allEnvelopesLoop_files D reg fs files acc l
    | true =>
      simp only [Bool.not_true, Bool.false_eq_true, if_false, if_true]
      cases hl : loadEnvelopeFromFile D reg fs f with
      | error e =>
        simp only
        refine ⟨fun h => (by cases h), ?_⟩
        rintro ⟨k, _, h⟩
        cases h with
        | cons h _ => rw [hl] at h; cases h
      | ok e =>
        simp only
        rw [allEnvelopesLoop_files D reg fs files (acc ++ [e]) l]
        constructor
        · rintro ⟨k, rfl, h⟩
          exact ⟨e :: k, by simp, .cons hl h⟩
        · rintro ⟨k, rfl, h⟩
          cases h with
          | @cons _ b _ bs h1 h2 =>
            rw [hl] at h1
            cases h1
            exact ⟨bs, by simp, h2⟩

/-- All files below the directory with the suffix of an envelope are entries of the store. -/
def NoStrangeEnvelopes (fs : FS) (root : Loc) : Prop :=
  ∀ rel d, rel ≠ [] → fs (rel ++ root) = some (.file d) → EnvelopeFile rel → ∃ n, PermittedName n ∧ rel = [n ++ b!".envelope"]

theorem signet_no_envelope_suffix (id : Bytes) (r : Bool) : ¬ b!".envelope" <:+ storageID id r := by
  rintro ⟨t, h⟩
  have := congrArg List.reverse h
  cases r <;> simp [storageID] at this

theorem envelopeChange_permitted (D : Dsd) (reg : List Suite) (S : DirStore) (fs : FS) (op : DirOp) (hp : ¬ PermittedName op.id) :
    (dirStep S D reg fs op).1 = fs := by
  have hn : playsNice op.id = false := by
    cases h : playsNice op.id with
    | false => rfl
    | true => exact absurd ((playsNice_iff _).1 h) hp
  cases op <;> simp only [DirOp.id] at hn <;>
    simp only [dirStep, DirStore.storeSignet, DirStore.deleteSignet, DirStore.storeEnvelope, DirStore.deleteEnvelope, writeSignetToFile,
      writeEnvelopeToFile, hn, Bool.not_false, if_true] <;> split <;> rfl

theorem noStrangeEnvelopes_step (D : Dsd) (reg : List Suite) (S : DirStore) (hS : S.storageDir ≠ []) (fs : FS) (op : DirOp)
    (h : NoStrangeEnvelopes fs S.root) : NoStrangeEnvelopes (dirStep S D reg fs op).1 S.root := by
  intro rel d hrel hf hs
  by_cases hc : (dirStep S D reg fs op).1 (rel ++ S.root) = fs (rel ++ S.root)
  · exact h rel d hrel (hc ▸ hf) hs
  · by_cases hp : PermittedName op.id
    · rcases dirStep_changes D reg S hS fs op _ hc with ⟨_, id, r, h1, h2⟩ | h2
      · have h3 : rel ++ S.root = [storageID id r] ++ S.root := h2
        have := List.append_cancel_right h3
        subst this
        exact absurd hs (signet_no_envelope_suffix id r)
      · have h3 : rel ++ S.root = [op.id ++ b!".envelope"] ++ S.root := h2
        exact ⟨op.id, hp, List.append_cancel_right h3⟩
    · rw [envelopeChange_permitted D reg S fs op hp] at hc
      exact absurd rfl hc

/-- Envelopes of the map are filed under their own name. -/
def AbsStore.Named (m : AbsStore) : Prop := ∀ n e, m.envelope n = some e → PermittedName n ∧ e.name = n

theorem named_step (D : Dsd) (reg : List Suite) (m : AbsStore) (op : DirOp) (h : m.Named) : (absStep D reg m op).1.Named := by
  cases op with
  | storeEnvelope w s =>
    simp only [absStep]
    split
    · exact h
    · rename_i hc
      simp only [not_or, Decidable.not_not] at hc
      split
      · exact h
      · split
        · intro n e ht
          simp only [AbsStore.setEnvelope] at ht
          split at ht
          · rename_i hi
            subst hi
            cases ht
            exact ⟨hc.2, rfl⟩
          · exact h n e ht
        · exact h
  | deleteEnvelope n =>
    simp only [absStep]
    split
    · exact h
    · split
      · intro i t ht
        simp only [AbsStore.setEnvelope] at ht
        split at ht
        · cases ht
        · exact h i t ht
      · exact h
  | storeSignet w s => simp only [absStep]; repeat' split
                       all_goals exact h
  | deleteSignet id r => simp only [absStep]; repeat' split
                         all_goals exact h
  | getSignet id r => simp only [absStep]; repeat' split
                      all_goals exact h
  | getEnvelope n => simp only [absStep]; repeat' split
                     all_goals exact h

/-- C65. After any use of a directory store that began in an empty directory: `AllEnvelopes` succeeds exactly if the suite of every stored
envelope is registered, and then returns each stored envelope once, with its suite, in whatever order the directory is walked. -/
theorem all_envelopes_partial (D : Dsd) (hD : D.Sound) (reg : List Suite) (cwd : Loc) (fs0 : FS) (dir : Bytes) (S : DirStore)
    (hS : newDirStore cwd fs0 dir = .ok S) (hempty : ∀ rel, rel ≠ [] → fs0 (rel ++ resolve cwd dir) = none)
    (ops : List DirOp) (hw : ∀ op ∈ ops, op.whole) (files : List Loc)
    (hf : IsWalk (dirRun S D reg fs0 ops).1 (resolve cwd dir) files) :
    ((∃ l, DirStore.allEnvelopes D reg (dirRun S D reg fs0 ops).1 files = .ok l) ↔
      ∀ n e, (absRun D reg .empty ops).1.envelope n = some e → ∃ e' s, loadSuite reg e = .ok (e', s)) ∧
    ∀ l, DirStore.allEnvelopes D reg (dirRun S D reg fs0 ops).1 files = .ok l →
      (l.map (·.name)).Nodup ∧
      ∀ e', e' ∈ l ↔ ∃ n e s, (absRun D reg .empty ops).1.envelope n = some e ∧ loadSuite reg e = .ok (e', s) := by
  obtain ⟨h0, hr, hd⟩ := newDirStore_spec cwd fs0 dir S hS
  have hinit : DirRefines D S fs0 .empty := by
    refine ⟨hd, fun id r _ => ?_, fun n _ => ?_⟩
    · exact hr ▸ hempty [storageID id r] (by simp)
    · exact hr ▸ hempty [n ++ b!".envelope"] (by simp)
  have href := (dirRun_refines D hD reg S h0 ops hw fs0 .empty hinit).2
  have hns : ∀ (ops : List DirOp) (fs : FS), NoStrangeEnvelopes fs S.root → NoStrangeEnvelopes (dirRun S D reg fs ops).1 S.root := by
    intro ops
    induction ops with
    | nil => intro fs h; exact h
    | cons op ops ih => intro fs h; exact ih _ (noStrangeEnvelopes_step D reg S h0 fs op h)
  have hky : ∀ (ops : List DirOp) (m : AbsStore), m.Named → (absRun D reg m ops).1.Named := by
    intro ops
    induction ops with
    | nil => intro m h; exact h
    | cons op ops ih => intro m h; exact ih _ (named_step D reg m op h)
  have hns := hns ops fs0 (by intro rel d h1 h2 _; rw [hr, hempty rel h1] at h2; cases h2)
  have hky := hky ops .empty (by intro n e h; cases h)
  generalize (dirRun S D reg fs0 ops).1 = fs at *
  generalize (absRun D reg AbsStore.empty ops).1 = m at *
  rw [← hr] at hf
  -- the files with the suffix are the entries
  have hload : ∀ n e, m.envelope n = some e →
      loadEnvelopeFromFile D reg fs ((n ++ b!".envelope") :: S.root) = (loadSuite reg e).map (·.1) := by
    intro n e he
    have hh := href.envelope n (hky n e he).1
    rw [he] at hh
    obtain ⟨d, hd', hl⟩ := hh
    simp only [loadEnvelopeFromFile, FS.read, hd', hl]
  have hfiles : ∀ f, f ∈ files.filter (fun f => hasSuffix (f.headD []) b!".envelope") ↔
      ∃ n e, m.envelope n = some e ∧ f = (n ++ b!".envelope") :: S.root := by
    intro f
    rw [List.mem_filter]
    constructor
    · rintro ⟨h1, h2⟩
      obtain ⟨⟨rel, h3, rfl⟩, d, h4⟩ := (hf.mem f).mp h1
      have hh : (rel ++ S.root).headD [] = rel.headD [] := by cases rel with | nil => exact absurd rfl h3 | cons a b => rfl
      rw [hh, hasSuffix_iff] at h2
      obtain ⟨n, hp, rfl⟩ := hns rel d h3 h4 h2
      have hx := href.envelope n hp
      cases he : m.envelope n with
      | none =>
        rw [he] at hx
        have h4 : fs ((n ++ b!".envelope") :: S.root) = some (.file d) := h4
        rw [show fs ((n ++ b!".envelope") :: S.root) = none from hx] at h4
        cases h4
      | some e => exact ⟨n, e, he, rfl⟩
    · rintro ⟨n, e, he, rfl⟩
      have hx := href.envelope n (hky n e he).1
      rw [he] at hx
      obtain ⟨d, h4, _⟩ := hx
      exact ⟨(hf.mem _).mpr ⟨⟨[n ++ b!".envelope"], by simp, rfl⟩, d, h4⟩, (hasSuffix_iff _ _).2 (List.suffix_append _ _)⟩
  have hnd : (files.filter (fun f => hasSuffix (f.headD []) b!".envelope")).Nodup := hf.nodup.filter _
  generalize hfl : files.filter (fun f => hasSuffix (f.headD []) b!".envelope") = fl at hfiles hnd
  have hiff : ∀ l, DirStore.allEnvelopes D reg fs files = .ok l ↔ All2 (fun f e => loadEnvelopeFromFile D reg fs f = .ok e) fl l := by
    intro l
    unfold DirStore.allEnvelopes
    rw [allEnvelopesLoop_files, hfl]
    simp
  have hmap : ∀ (e e' : Envelope), (loadSuite reg e).map (·.1) = .ok e' ↔ ∃ s, loadSuite reg e = .ok (e', s) := by
    intro e e'
    cases hl : loadSuite reg e with
    | error x => simp [Except.map]
    | ok p =>
      obtain ⟨a, b⟩ := p
      simp only [Except.map]
      constructor
      · intro h; cases h; exact ⟨b, rfl⟩
      · rintro ⟨s, h⟩; cases h; rfl
  have hname : ∀ (e e' : Envelope) s, loadSuite reg e = .ok (e', s) → e'.name = e.name := by
    intro e e' s h
    unfold loadSuite at h
    split at h
    · cases h; rfl
    · split at h
      · cases h
      · cases h; rfl
  refine ⟨⟨fun ⟨l, h⟩ n e he => ?_, fun h => ?_⟩, fun l h => ?_⟩
  · rw [hiff] at h
    obtain ⟨e', _, h1⟩ := h.mem_left ((hfiles _).2 ⟨n, e, he, rfl⟩)
    rw [hload n e he, hmap] at h1
    exact ⟨e', h1⟩
  · have : ∀ fl : List Loc, (∀ f ∈ fl, ∃ e', loadEnvelopeFromFile D reg fs f = .ok e') →
        ∃ l, All2 (fun f e => loadEnvelopeFromFile D reg fs f = .ok e) fl l := by
      intro fl
      induction fl with
      | nil => intro _; exact ⟨[], .nil⟩
      | cons f fl ih =>
        intro h
        obtain ⟨e, he⟩ := h f List.mem_cons_self
        obtain ⟨l, hl⟩ := ih (fun g hg => h g (List.mem_cons_of_mem _ hg))
        exact ⟨e :: l, .cons he hl⟩
    obtain ⟨l, hl⟩ := this fl (by
      intro f hf'
      obtain ⟨n, e, he, rfl⟩ := (hfiles f).1 hf'
      obtain ⟨e', hs⟩ := h n e he
      exact ⟨e', by rw [hload n e he, hmap]; exact hs⟩)
    exact ⟨l, (hiff l).2 hl⟩
  · rw [hiff] at h
    refine ⟨?_, fun e' => ⟨fun he' => ?_, ?_⟩⟩
    · -- different files have different names
      have hn : ∀ (fl : List Loc) (l : List Envelope), (∀ f ∈ fl, ∃ n e, m.envelope n = some e ∧ f = (n ++ b!".envelope") :: S.root) →
          All2 (fun f e => loadEnvelopeFromFile D reg fs f = .ok e) fl l →
          fl = l.map (fun e => (e.name ++ b!".envelope") :: S.root) := by
        intro fl l hfl hall
        induction hall with
        | nil => rfl
        | @cons f e' as bs h1 _ ih =>
          obtain ⟨n, e, he, rfl⟩ := hfl f List.mem_cons_self
          rw [hload n e he, hmap] at h1
          obtain ⟨s, h1⟩ := h1
          rw [List.map_cons, ← ih (fun g hg => hfl g (List.mem_cons_of_mem _ hg)), hname e e' s h1, (hky n e he).2]
      have h1 := hn fl l (fun f hf' => (hfiles f).1 hf') h
      rw [h1] at hnd
      have h2 : l.map (fun e => (e.name ++ b!".envelope") :: S.root) = (l.map (·.name)).map (fun n => (n ++ b!".envelope") :: S.root) := by simp
      rw [h2] at hnd
      exact List.Pairwise.of_map _ (fun a b hab e => hab (by rw [e])) hnd
    · obtain ⟨f, hf', h1⟩ := h.mem_right he'
      obtain ⟨n, e, he, rfl⟩ := (hfiles f).1 hf'
      rw [hload n e he, hmap] at h1
      obtain ⟨s, h1⟩ := h1
      exact ⟨n, e, s, he, h1⟩
    · rintro ⟨n, e, s, he, h1⟩
      obtain ⟨e'', he'', h2⟩ := h.mem_left ((hfiles _).2 ⟨n, e, he, rfl⟩)
      rw [hload n e he, hmap] at h2
      obtain ⟨s', h2⟩ := h2
      rw [h1] at h2
      cases h2
      exact he''

/-- An envelope of a suite that is registered, and one of a suite that is not. -/
def toyKnownEnv : Envelope := { version := 1, name := b!"known", suiteID := b!"pw_v1" }

def toyOtherEnv : Envelope := { version := 1, name := b!"other", suiteID := b!"my_suite" }

def toyListOps : List DirOp := [.storeEnvelope .done toyKnownEnv, .storeEnvelope .done toyOtherEnv]

/-- C65 is REFUTED: both envelopes are stored, each with success, but `AllEnvelopes` returns neither, because the suite of one of them is not
registered; without it, the other is returned. A file that is no signet makes `SelectSignets` fail as well. -/
theorem all_envelopes_refuted :
    (dirRun toyDirStore toyDsd suiteRegistry toyFS toyListOps).2 = [.done, .done] ∧
    DirStore.allEnvelopes toyDsd suiteRegistry (dirRun toyDirStore toyDsd suiteRegistry toyFS toyListOps).1
      [[b!"known.envelope", b!"keys"], [b!"other.envelope", b!"keys"], [b!"readme", b!"keys"]] = .error .notFound ∧
    (DirStore.allEnvelopes toyDsd suiteRegistry (dirRun toyDirStore toyDsd suiteRegistry toyFS (toyListOps ++ [.deleteEnvelope b!"other"])).1
      [[b!"known.envelope", b!"keys"], [b!"readme", b!"keys"]]).map (fun l => l.map (·.name)) = .ok [b!"known"] := by
  decide +kernel

end Jess
