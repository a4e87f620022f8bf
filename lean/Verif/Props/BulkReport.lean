import Verif.Model.BulkReport
import Verif.Props.CmdVerify
import Verif.Props.Report

/-!
# C79: the report of a bulk verification agrees with its result
-/

namespace Jess

/-! ## Specification -/

/-- The name under which a path is reported: a letter by its path, otherwise the signed file. -/
def ReportedAs (path name : Bytes) : Prop := (IsLetterPath path ∧ name = path) ∨ SignedTarget path name

/-- Who signed what the path names: the signers of the letter (nobody, if the user declined to load it), or of all signatures in the signature file. -/
def SignersOf (V : VerifyEnv) (path name : Bytes) (signers : List Bytes) : Prop :=
  (IsLetterPath path ∧ ((Declined V path ∧ signers = []) ∨
    ∃ data l rest, (path = b!"-" → V.stdin = some data) ∧ (path ≠ b!"-" → V.read path = some data) ∧
      letterFromFileFormat V.hc data = .ok (l, rest) ∧ signers = l.signatures.map (fun s => signerShown V.w s.id))) ∨
  (SignedTarget path name ∧ ∃ d sigs, V.read (name ++ b!".sig") = some d ∧ parseSigFile V.E.C.toLetterCodec d = (sigs, none) ∧
    signers = (sigs.flatMap (·.signatures)).map (fun s => signerShown V.w s.id))

/-- One line of the report. -/
inductive BulkEntry where
  | ok (path name : Bytes) (signers : List Bytes)
  | fail (path name : Bytes) (e : Err)
  | warn (path : Bytes)

/-- The text of the line. -/
def BulkEntry.line (V : VerifyEnv) (why : Bytes → Bytes) : BulkEntry → Bytes
  | .ok _ name signers => b!"[ OK ] " ++ name ++ b!" signed by " ++ joinBytes b!", " signers
  | .fail _ name e => b!"[FAIL] " ++ name ++ b!" failed to verify: " ++ V.errText e
  | .warn path => b!"[WARN] " ++ path ++ b!" failed to read: " ++ why path

/-- What the line says is true. -/
def BulkEntry.True (V : VerifyEnv) : BulkEntry → Prop
  | .ok path name signers => ReportedAs path name ∧ PathVerified V path ∧ SignersOf V path name signers
  | .fail path name e => ReportedAs path name ∧ e ≠ .panic ∧ (verifyPath V true [] path).1 = .error e
  | .warn path => V.stat path = none ∨ ∃ dir, WalkEvent.failed path ∈ V.walk dir

/-- The line is about this path. -/
def BulkEntry.About : BulkEntry → Bytes → Prop
  | .ok path name _, x => x = path ∨ (SignedTarget path name ∧ (x = name ∨ x = name ++ b!".sig"))
  | .fail path name _, x => x = path ∨ (SignedTarget path name ∧ (x = name ∨ x = name ++ b!".sig"))
  | .warn path, x => x = path

def BulkEntry.isFail : BulkEntry → Bool
  | .fail .. => true
  | _ => false

def BulkEntry.isWarn : BulkEntry → Bool
  | .warn .. => true
  | _ => false

/-! ## One path -/

theorem shown_reported (x : Bytes) : ReportedAs x (shownName x) := by
  unfold shownName
  split
  · rename_i h; exact .inl ⟨.inl h, rfl⟩
  · split
    · rename_i h; exact .inl ⟨(letterPath_iff x).mp (.inr h), rfl⟩
    · rename_i h1 h2
      refine .inr (target_of fun hl => ?_)
      rcases (letterPath_iff x).mpr hl with h | h
      · exact h1 h
      · exact h2 h

theorem remembered_about {x z : Bytes} (h : z ∈ remembered x) :
    z = x ∨ (SignedTarget x (shownName x) ∧ (z = shownName x ∨ z = shownName x ++ b!".sig")) := by
  unfold remembered at h
  unfold shownName
  split at h
  · left; simpa using h
  · rename_i h1
    split at h
    · left; simpa using h
    · rename_i h2
      right
      rw [if_neg h1, if_neg h2]
      have h' : z = trimSuffix x sigExt ∨ z = trimSuffix x sigExt ++ sigExt := by simpa using h
      refine ⟨target_of fun hl => ?_, h'⟩
      rcases (letterPath_iff x).mpr hl with h | h
      · exact h1 h
      · exact h2 h

theorem letter_signers {V : VerifyEnv} {bulk : Bool} {x : Bytes} {r : List Bytes × Bytes} (h : verifyLetterFile V bulk x = .ok r) :
    (Declined V x ∧ r.1 = []) ∨
    ∃ data l rest, (x = b!"-" → V.stdin = some data) ∧ (x ≠ b!"-" → V.read x = some data) ∧
      letterFromFileFormat V.hc data = .ok (l, rest) ∧ r.1 = l.signatures.map (fun s => signerShown V.w s.id) := by
  unfold verifyLetterFile at h
  split at h
  · cases h
  · simp only [bind_ok_iff] at h
    obtain ⟨go, hgo, h⟩ := h
    split at h
    · rename_i hg
      subst hg
      cases h
      left
      refine ⟨?_, rfl⟩
      unfold askBig at hgo
      split at hgo
      · cases hgo
      · rename_i hx
        split at hgo
        · cases hgo
        · rename_i i hi
          split at hgo
          · rename_i hs
            exact ⟨hx, i, hi, hs, hgo⟩
          · cases hgo
    · right
      split at h
      · cases h
      · rename_i data hd
        unfold verifyLetterData at h
        simp only [bind_ok_iff] at h
        obtain ⟨signers, ⟨⟨l, rest⟩, hl, _, _, hs⟩, h⟩ := h
        cases h
        unfold loadInput at hd
        refine ⟨data, l, rest, ?_, ?_, hl, ?_⟩
        · intro hx
          rwa [if_pos (show x = stdInOut from hx)] at hd
        · intro hx
          rwa [if_neg (show ¬ x = stdInOut from hx)] at hd
        · rw [signerTexts_shown hs]
          simp

theorem sig_signers {V : VerifyEnv} (hw : V.w.KeepsScheme) {t : Bytes} {r : List Bytes × Bytes} (h : verifySigFile V true t (t ++ sigExt) = .ok r) :
    r.2 = [] ∧ ∃ d sigs, V.read (t ++ b!".sig") = some d ∧ parseSigFile V.E.C.toLetterCodec d = (sigs, none) ∧
      r.1 = (sigs.flatMap (·.signatures)).map (fun s => signerShown V.w s.id) := by
  unfold verifySigFile at h
  split at h
  · cases h
  · rename_i fds hf
    obtain ⟨d, sigs, h1, h2, h3, h4, h5⟩ := verify_file_sound_partial V.E V.w hw _ _ _ fds hf
    rw [if_pos rfl] at h
    simp only [bind_ok_iff] at h
    obtain ⟨signers, hs, h⟩ := h
    cases h
    refine ⟨rfl, d, sigs, h1, h2, ?_⟩
    rw [signerTexts_shown hs]
    have : fds.flatMap FileData.signerIDs = (sigs.flatMap (·.signatures)).map (·.id) := by
      have h6 : ∀ (i : Nat) (l : Letter) (fd : FileData), sigs[i]? = some l → fds[i]? = some fd → fd.signature = some l :=
        fun i l fd a b => (h5 i l fd a b).letter
      clear hs hf h2 h3 h5
      induction sigs generalizing fds with
      | nil => cases fds with | nil => rfl | cons _ _ => cases h4
      | cons l sigs ih =>
        cases fds with
        | nil => cases h4
        | cons fd fds =>
          have e := h6 0 l fd rfl rfl
          have ih := ih fds (by simpa using h4) (fun i l fd a b => h6 (i + 1) l fd (by simpa using a) (by simpa using b))
          simp only [List.flatMap_cons, List.map_append, ih, FileData.signerIDs, e]
    rw [this]
    simp

/-- What is printed about a path that was not verified before. -/
theorem verifyKind_entry {V : VerifyEnv} (hw : V.w.KeepsScheme) (why : Bytes → Bytes) {m : List Bytes} {x t : Bytes} (hx : x ∉ m)
    (h : verifyPrints V true m x = some t) : ∃ e : BulkEntry, t = e.line V why ++ [10] ∧ e.True V ∧ (∀ z ∈ remembered x, e.About z) ∧ e.isWarn = false ∧
      (e.isFail = true ↔ ∃ er, er ≠ .panic ∧ (verifyPath V true m x).1 = .error er) ∧ (e.isFail = false ↔ (verifyPath V true m x).1 = .ok ()) := by
  have hp : ∀ m : List Bytes, x ∉ m → (verifyPath V true m x).1 = (verifyKind V true x).map (fun _ => ()) := by
    intro m hm
    unfold verifyPath
    rw [if_neg hm]
    rfl
  unfold verifyPrints at h
  rw [if_neg hx] at h
  cases hk : verifyKind V true x with
  | error er =>
    rw [hk] at h
    have hne : er ≠ .panic := by rintro rfl; cases h
    refine ⟨.fail x (shownName x) er, ?_, ⟨shown_reported x, hne, ?_⟩, fun z hz => remembered_about hz, rfl, ⟨fun _ => ⟨er, hne, ?_⟩, fun _ => rfl⟩, ⟨(by intro h; cases h), fun h => ?_⟩⟩
    · cases er <;> first | exact absurd rfl hne | (cases h; simp [bulkLine, BulkEntry.line])
    · rw [hp [] (by simp), hk]; rfl
    · rw [hp m hx, hk]; rfl
    · rw [hp m hx, hk] at h; cases h
  | ok r =>
    rw [hk] at h
    have hv : PathVerified V x := verifyFresh_ok (bulk := true) hw (by unfold verifyFresh; rw [hk]; rfl)
    have hr : r.2 = [] ∧ SignersOf V x (shownName x) r.1 := by
      unfold verifyKind at hk
      unfold shownName
      have letter : verifyLetterFile V true x = .ok r → IsLetterPath x → r.2 = [] ∧ SignersOf V x x r.1 := by
        intro h hl
        refine ⟨?_, .inl ⟨hl, letter_signers h⟩⟩
        unfold verifyLetterFile at h
        split at h
        · cases h
        · simp only [bind_ok_iff] at h
          obtain ⟨go, hgo, h⟩ := h
          split at h
          · cases h; rfl
          · split at h
            · cases h
            · simp only [bind_ok_iff] at h
              obtain ⟨_, _, h⟩ := h
              cases h
              rfl
      split at hk
      · rename_i h1
        rw [if_pos h1]
        exact letter hk ((letterPath_iff x).mp (.inl h1))
      · rename_i h1
        rw [if_neg h1]
        split at hk
        · rename_i h2
          rw [if_pos h2]
          exact letter hk ((letterPath_iff x).mp (.inr h2))
        · rename_i h2
          rw [if_neg h2]
          obtain ⟨g1, g2⟩ := sig_signers hw hk
          refine ⟨g1, .inr ⟨target_of fun hl => ?_, g2⟩⟩
          rcases (letterPath_iff x).mpr hl with h | h
          · exact h1 h
          · exact h2 h
    obtain ⟨signers, text⟩ := r
    obtain ⟨rfl, hs⟩ := hr
    refine ⟨.ok x (shownName x) signers, ?_, ⟨shown_reported x, hv, hs⟩, fun z hz => remembered_about hz, rfl,
      ⟨(by intro h; cases h), fun h => ?_⟩, ⟨fun _ => ?_, fun _ => rfl⟩⟩
    · cases h; simp [bulkLine, BulkEntry.line]
    · obtain ⟨er, _, h⟩ := h
      rw [hp m hx, hk] at h; cases h
    · rw [hp m hx, hk]; rfl

/-! ## All paths -/

/-- What holds after some paths were visited. -/
structure ReportedRun (V : VerifyEnv) (why : Bytes → Bytes) (r : BulkRun) (es : List BulkEntry) : Prop where
  out : r.out = unlines (es.map (·.line V why))
  holds : ∀ e ∈ es, e.True V
  fails : r.st.fails = es.countP (·.isFail)
  warnings : r.st.warnings = es.countP (·.isWarn)
  memo : ∀ z ∈ r.st.memo, ∃ e ∈ es, e.About z

theorem outVerify_reported {V : VerifyEnv} (hw : V.w.KeepsScheme) {why : Bytes → Bytes} {r r' : BulkRun} {es : List BulkEntry} {x : Bytes} (hr : ReportedRun V why r es)
    (h : outVerify V r x = .ok r') : ∃ new, ReportedRun V why r' (es ++ new) ∧ ∃ e ∈ es ++ new, e.About x := by
  unfold outVerify at h
  split at h
  · cases h
  · rename_i t ht
    simp only [bind_ok_iff] at h
    obtain ⟨st, hst, h⟩ := h
    cases h
    by_cases hm : x ∈ r.st.memo
    · have e1 : t = [] := by
        unfold verifyPrints at ht
        rw [if_pos hm] at ht
        cases ht; rfl
      have e2 : st = r.st := by
        unfold bulkVerify verifyPath at hst
        rw [if_pos hm] at hst
        cases hst; rfl
      subst e1 e2
      refine ⟨[], ?_, ?_⟩
      · simpa using hr
      · obtain ⟨e, he, ha⟩ := hr.memo x hm
        exact ⟨e, by simpa using he, ha⟩
    · obtain ⟨e, e1, e2, e3, e4, e5, e6⟩ := verifyKind_entry hw why hm ht
      have hmem : (verifyPath V true r.st.memo x).2 = r.st.memo ++ remembered x := by
        unfold verifyPath; rw [if_neg hm]; rfl
      have hx : x ∈ remembered x := by
        unfold remembered
        split
        · simp
        · split
          · simp
          · by_cases hs : hasSuffix x sigExt = true
            · obtain ⟨t, rfl⟩ := hasSuffix_iff.mp hs
              rw [trimSuffix_append]; simp
            · have : trimSuffix x sigExt = x := by unfold trimSuffix; rw [if_neg hs]
              rw [this]; simp
      have hst' : st.memo = r.st.memo ++ remembered x ∧ st.warnings = r.st.warnings ∧ st.fails = r.st.fails + (if e.isFail then 1 else 0) := by
        unfold bulkVerify at hst
        split at hst
        · cases hst
        · rename_i er memo hne hv
          cases hst
          have h1 : (verifyPath V true r.st.memo x).1 = .error er := by rw [hv]
          have h2 : (verifyPath V true r.st.memo x).2 = memo := by rw [hv]
          have hnp : er ≠ .panic := by
            rintro rfl
            exact hne rfl
          rw [if_pos (e5.mpr ⟨er, hnp, h1⟩)]
          exact ⟨by rw [← hmem, h2], rfl, rfl⟩
        · rename_i u memo hv
          cases hst
          have h1 : (verifyPath V true r.st.memo x).1 = .ok () := by rw [hv]
          have h2 : (verifyPath V true r.st.memo x).2 = memo := by rw [hv]
          rw [e6.mpr h1]
          exact ⟨by rw [← hmem, h2], rfl, rfl⟩
      obtain ⟨g1, g2, g3⟩ := hst'
      refine ⟨[e], ⟨?_, ?_, ?_, ?_, ?_⟩, e, by simp, e3 x hx⟩
      · simp only [hr.out, List.map_append, List.map_cons, List.map_nil, unlines_append, unlines_cons, e1]
        simp [unlines]
      · intro e' he'
        rcases List.mem_append.mp he' with he' | he'
        · exact hr.holds e' he'
        · rw [List.mem_singleton.mp he']; exact e2
      · simp only [g3, hr.fails, List.countP_append, List.countP_cons, List.countP_nil]
        cases e.isFail <;> simp
      · simp only [g2, hr.warnings, List.countP_append, List.countP_cons, List.countP_nil, e4]
        simp
      · intro z hz
        simp only [g1, List.mem_append] at hz
        rcases hz with hz | hz
        · obtain ⟨e', he', ha⟩ := hr.memo z hz
          exact ⟨e', by simp [he'], ha⟩
        · exact ⟨e, by simp, e3 z hz⟩

theorem outWarn_reported {V : VerifyEnv} {why : Bytes → Bytes} {r : BulkRun} {es : List BulkEntry} {p : Bytes} (hr : ReportedRun V why r es)
    (hp : V.stat p = none ∨ ∃ dir, WalkEvent.failed p ∈ V.walk dir) : ReportedRun V why (outWarn why r p) (es ++ [.warn p]) := by
  refine ⟨?_, ?_, ?_, ?_, ?_⟩
  · simp only [outWarn, hr.out, List.map_append, List.map_cons, List.map_nil, unlines_append, unlines_cons, warnLine, BulkEntry.line]
    simp [unlines]
  · intro e he
    rcases List.mem_append.mp he with he | he
    · exact hr.holds e he
    · rw [List.mem_singleton.mp he]; exact hp
  · simp only [outWarn, hr.fails, List.countP_append, List.countP_cons, List.countP_nil, BulkEntry.isFail]; simp
  · simp only [outWarn, hr.warnings, List.countP_append, List.countP_cons, List.countP_nil, BulkEntry.isWarn]; simp
  · intro z hz
    obtain ⟨e, he, ha⟩ := hr.memo z hz
    exact ⟨e, by simp [he], ha⟩

theorem outWalk_reported {V : VerifyEnv} (hw : V.w.KeepsScheme) {why : Bytes → Bytes} {dir : Bytes} : ∀ (evs : List WalkEvent) {r r' : BulkRun} {es : List BulkEntry},
    (∀ p, WalkEvent.failed p ∈ evs → WalkEvent.failed p ∈ V.walk dir) → ReportedRun V why r es → outWalk V why r evs = .ok r' →
    ∃ new, ReportedRun V why r' (es ++ new) ∧ ∀ x ∈ walkPaths evs, ∃ e ∈ es ++ new, e.About x := by
  intro evs
  induction evs with
  | nil => intro r r' es _ hr h; cases h; exact ⟨[], by simpa using hr, fun x hx => by simp [walkPaths] at hx⟩
  | cons ev evs ih =>
    intro r r' es hsub hr h
    rw [outWalk] at h
    simp only [bind_ok_iff] at h
    obtain ⟨r1, h1, h2⟩ := h
    have hsub' : ∀ p, WalkEvent.failed p ∈ evs → WalkEvent.failed p ∈ V.walk dir := fun p hp => hsub p (by simp [hp])
    cases ev with
    | failed p =>
      simp only [outEvent] at h1
      cases h1
      obtain ⟨new, g1, g2⟩ := ih hsub' (outWarn_reported hr (.inr ⟨dir, hsub p (by simp)⟩)) h2
      exact ⟨.warn p :: new, by simpa using g1, fun x hx => by simpa using g2 x hx⟩
    | path p =>
      rw [walkPaths_cons]
      simp only [outEvent] at h1
      split at h1
      · rename_i hs
        obtain ⟨new, g1, e, he, ha⟩ := outVerify_reported hw hr h1
        obtain ⟨new2, g3, g4⟩ := ih hsub' g1 h2
        rw [if_pos hs]
        refine ⟨new ++ new2, by simpa using g3, fun x hx => ?_⟩
        rw [← List.append_assoc]
        rcases List.mem_append.mp hx with hx | hx
        · rw [List.mem_singleton.mp hx]
          exact ⟨e, by rw [List.mem_append]; exact .inl he, ha⟩
        · exact g4 x hx
      · rename_i hs
        cases h1
        rw [if_neg hs]
        exact ih hsub' hr h2

theorem outFiles_reported {V : VerifyEnv} (hw : V.w.KeepsScheme) {why : Bytes → Bytes} : ∀ (fs : List Bytes) {r r' : BulkRun} {es : List BulkEntry},
    ReportedRun V why r es → outFiles V why r fs = .ok r' →
    ∃ new, ReportedRun V why r' (es ++ new) ∧ (∀ f ∈ fs, V.stat f = none → ∃ e ∈ es ++ new, e.About f) ∧ ∀ x ∈ fs.flatMap (visitsOf V), ∃ e ∈ es ++ new, e.About x := by
  intro fs
  induction fs with
  | nil => intro r r' es hr h; cases h; exact ⟨[], by simpa using hr, fun f hf => by simp at hf, fun x hx => by simp at hx⟩
  | cons f fs ih =>
    intro r r' es hr h
    rw [outFiles] at h
    simp only [bind_ok_iff] at h
    obtain ⟨r1, h1, h2⟩ := h
    have step : ∃ new, ReportedRun V why r1 (es ++ new) ∧ (V.stat f = none → ∃ e ∈ es ++ new, e.About f) ∧ ∀ x ∈ visitsOf V f, ∃ e ∈ es ++ new, e.About x := by
      unfold outFile at h1
      unfold visitsOf
      split at h1
      · rename_i hn
        cases h1
        rw [hn]
        exact ⟨[.warn f], outWarn_reported hr (.inl hn), fun _ => ⟨.warn f, by simp, rfl⟩, fun x hx => by simp at hx⟩
      · rename_i i hi
        rw [hi]
        dsimp only
        split at h1
        · rename_i hd
          obtain ⟨new, g1, g2⟩ := outWalk_reported hw (dir := f) _ (fun _ h => h) hr h1
          rw [if_pos hd]
          exact ⟨new, g1, (by intro h; cases h), g2⟩
        · rename_i hd
          obtain ⟨new, g1, g2⟩ := outVerify_reported hw hr h1
          rw [if_neg hd]
          refine ⟨new, g1, (by intro h; cases h), fun x hx => ?_⟩
          rw [List.mem_singleton.mp hx]
          exact g2
    obtain ⟨new, g1, g2, g3⟩ := step
    obtain ⟨new2, i1, i2, i3⟩ := ih g1 h2
    have up : ∀ x, (∃ e ∈ es ++ new, e.About x) → ∃ e ∈ es ++ (new ++ new2), e.About x := by
      rintro x ⟨e, he, ha⟩
      refine ⟨e, ?_, ha⟩
      rw [← List.append_assoc, List.mem_append]
      exact .inl he
    refine ⟨new ++ new2, by simpa using i1, ?_, ?_⟩
    · intro f' hf' hn
      rcases List.mem_cons.mp hf' with rfl | hf'
      · exact up _ (g2 hn)
      · simpa using i2 f' hf' hn
    · intro x hx
      rw [List.flatMap_cons, List.mem_append] at hx
      rcases hx with hx | hx
      · exact up _ (g3 x hx)
      · simpa using i3 x hx

/-! ## The report -/

/-- The result of the command is the result of the run that prints. -/
theorem bulk_result_same (V : VerifyEnv) (why : Bytes → Bytes) (args : List Bytes) (r : BulkRun) (h : outBulk V why args = .ok r) :
    verifyBulk V args = bulkResult r.st := by
  have hv : ∀ {r r' : BulkRun} {x : Bytes}, outVerify V r x = .ok r' → bulkVerify V r.st x = .ok r'.st := by
    intro r r' x h
    unfold outVerify at h
    split at h
    · cases h
    · simp only [bind_ok_iff] at h
      obtain ⟨st, h1, h⟩ := h
      cases h; exact h1
  have hwk : ∀ (evs : List WalkEvent) {r r' : BulkRun}, outWalk V why r evs = .ok r' → bulkWalk V r.st evs = .ok r'.st := by
    intro evs
    induction evs with
    | nil => intro r r' h; cases h; rfl
    | cons ev evs ih =>
      intro r r' h
      rw [outWalk] at h
      rw [bulkWalk]
      simp only [bind_ok_iff] at h ⊢
      obtain ⟨r1, h1, h2⟩ := h
      refine ⟨r1.st, ?_, ih h2⟩
      cases ev with
      | failed p => simp only [outEvent] at h1; cases h1; rfl
      | path p =>
        simp only [outEvent] at h1
        simp only [bulkEvent]
        split at h1
        · rename_i hs; rw [if_pos hs]; exact hv h1
        · rename_i hs; rw [if_neg hs]; cases h1; rfl
  have hfs : ∀ (fs : List Bytes) {r r' : BulkRun}, outFiles V why r fs = .ok r' → bulkFiles V r.st fs = .ok r'.st := by
    intro fs
    induction fs with
    | nil => intro r r' h; cases h; rfl
    | cons f fs ih =>
      intro r r' h
      rw [outFiles] at h
      rw [bulkFiles]
      simp only [bind_ok_iff] at h ⊢
      obtain ⟨r1, h1, h2⟩ := h
      refine ⟨r1.st, ?_, ih h2⟩
      unfold outFile at h1
      unfold bulkFile
      split at h1
      · rename_i hn; rw [hn]; cases h1; rfl
      · rename_i i hi
        rw [hi]
        dsimp only
        split at h1
        · rename_i hd; rw [if_pos hd]; exact hwk _ h1
        · rename_i hd; rw [if_neg hd]; exact hv h1
  unfold outBulk at h
  simp only [bind_ok_iff] at h
  obtain ⟨fs, h1, h2⟩ := h
  unfold verifyBulk
  rw [h1, ok_bind]
  have := hfs fs h2
  rw [show ({} : BulkRun).st = ({} : BulkState) from rfl] at this
  rw [this, ok_bind]

/-- C79. What a bulk verification prints is a list of lines of three kinds. Everything that the lines say is true: a file on an OK line is verified and signed by those named,
a file on a FAIL line does not verify, a path on a WARN line cannot be read. Every path that is visited, and every match that cannot be read, is on a line (or has its data or
signature file on one). The command succeeds exactly if all lines are OK lines, and reports failures exactly if there are FAIL lines. -/
theorem bulk_report (V : VerifyEnv) (hw : V.w.KeepsScheme) (why : Bytes → Bytes) (args : List Bytes) (r : BulkRun) (h : outBulk V why args = .ok r) :
    ∃ es : List BulkEntry, r.out = unlines (es.map (·.line V why)) ∧ (∀ e ∈ es, e.True V) ∧
      (∀ x ∈ visits V args, ∃ e ∈ es, e.About x) ∧ (∀ f ∈ args.flatMap (matchesOf V), V.stat f = none → ∃ e ∈ es, e.About f) ∧
      r.st.fails = es.countP (·.isFail) ∧ r.st.warnings = es.countP (·.isWarn) ∧
      (verifyBulk V args = .ok () ↔ ∀ e ∈ es, ∃ path name signers, e = .ok path name signers) ∧
      (verifyBulk V args = .error .signature ↔ ∃ path name er, .fail path name er ∈ es) := by
  have h0 := h
  unfold outBulk at h
  simp only [bind_ok_iff] at h
  obtain ⟨fs, h1, h2⟩ := h
  obtain ⟨rfl, _⟩ := globAll_spec args h1
  obtain ⟨es, g1, g2, g3⟩ := outFiles_reported hw (why := why) _ (es := []) ⟨rfl, by simp, rfl, rfl, by simp⟩ h2
  rw [List.nil_append] at g1 g2 g3
  refine ⟨es, g1.out, g1.holds, g3, g2, g1.fails, g1.warnings, ?_, ?_⟩
  · rw [bulk_result_same V why args r h0]
    have : bulkResult r.st = .ok () ↔ r.st.fails = 0 ∧ r.st.warnings = 0 := by
      unfold bulkResult
      split
      · constructor
        · intro h; cases h
        · intro h; omega
      · split
        · constructor
          · intro h; cases h
          · intro h; omega
        · constructor
          · intro _; omega
          · intro _; rfl
    rw [this, g1.fails, g1.warnings, List.countP_eq_zero, List.countP_eq_zero]
    constructor
    · rintro ⟨a, b⟩ e he
      cases e with
      | ok p n s => exact ⟨p, n, s, rfl⟩
      | fail p n er => exact absurd rfl (a _ he)
      | warn p => exact absurd rfl (b _ he)
    · intro a
      refine ⟨fun e he => ?_, fun e he => ?_⟩ <;> (obtain ⟨_, _, _, rfl⟩ := a e he; simp [BulkEntry.isFail, BulkEntry.isWarn])
  · rw [bulk_result_same V why args r h0]
    have : bulkResult r.st = .error .signature ↔ 0 < r.st.fails := by
      unfold bulkResult
      split
      · constructor
        · intro _; assumption
        · intro _; rfl
      · constructor
        · intro h; split at h <;> cases h
        · intro h; omega
    rw [this, g1.fails, List.countP_pos_iff]
    constructor
    · rintro ⟨e, he, hf⟩
      cases e with
      | ok p n s => cases hf
      | fail p n er => exact ⟨p, n, er, he⟩
      | warn p => cases hf
    · rintro ⟨p, n, er, he⟩
      exact ⟨_, he, rfl⟩

/-- C79, the strongest true part about the output as text. If the texts on the lines (paths, signers and errors) are without line ends, the lines of the output are the lines of
`bulk_report`, and the numbers of lines that begin with `[FAIL]` and `[WARN]` are the numbers of failures and warnings. -/
theorem bulk_lines_partial (V : VerifyEnv) (hw : V.w.KeepsScheme) (why : Bytes → Bytes) (args : List Bytes) (r : BulkRun) (h : outBulk V why args = .ok r) :
    ∃ es : List BulkEntry, (∀ e ∈ es, e.True V) ∧ (∀ x ∈ visits V args, ∃ e ∈ es, e.About x) ∧
      ((∀ e ∈ es, 10 ∉ e.line V why) → textLines r.out = es.map (·.line V why) ++ [[]] ∧
        (verifyBulk V args = .ok () ↔ ∀ l ∈ textLines r.out, l = [] ∨ hasPrefix l b!"[ OK ] " = true) ∧
        ((textLines r.out).filter (hasPrefix · b!"[FAIL] ")).length = r.st.fails ∧
        ((textLines r.out).filter (hasPrefix · b!"[WARN] ")).length = r.st.warnings) := by
  obtain ⟨es, h1, h2, h3, _, h5, h6, h7, _⟩ := bulk_report V hw why args r h
  refine ⟨es, h2, h3, fun hl => ?_⟩
  have ht : textLines r.out = es.map (·.line V why) ++ [[]] := by
    rw [h1]
    refine textLines_unlines fun l hl' => ?_
    obtain ⟨e, he, rfl⟩ := List.mem_map.mp hl'
    exact hl e he
  have hO : ∀ e : BulkEntry, e.line V why = [] ∨ hasPrefix (e.line V why) b!"[ OK ] " = true ↔ ∃ path name signers, e = .ok path name signers := by
    intro e
    cases e with
    | ok p n s => exact ⟨fun _ => ⟨p, n, s, rfl⟩, fun _ => .inr (by simp [hasPrefix, BulkEntry.line])⟩
    | fail p n er =>
      refine ⟨fun h => ?_, fun ⟨_, _, _, h⟩ => by cases h⟩
      simp [hasPrefix, BulkEntry.line] at h
    | warn p =>
      refine ⟨fun h => ?_, fun ⟨_, _, _, h⟩ => by cases h⟩
      simp [hasPrefix, BulkEntry.line] at h
  have hF : ∀ e : BulkEntry, hasPrefix (e.line V why) b!"[FAIL] " = e.isFail := by
    intro e; cases e <;> simp [hasPrefix, BulkEntry.line, BulkEntry.isFail, List.isPrefixOf]
  have hW : ∀ e : BulkEntry, hasPrefix (e.line V why) b!"[WARN] " = e.isWarn := by
    intro e; cases e <;> simp [hasPrefix, BulkEntry.line, BulkEntry.isWarn, List.isPrefixOf]
  refine ⟨ht, ?_, ?_, ?_⟩
  · rw [h7, ht]
    constructor
    · intro ha l hl'
      rcases List.mem_append.mp hl' with hl' | hl'
      · obtain ⟨e, he, rfl⟩ := List.mem_map.mp hl'
        exact (hO e).mpr (ha e he)
      · exact .inl (List.mem_singleton.mp hl')
    · intro ha e he
      exact (hO e).mp (ha _ (List.mem_append_left _ (List.mem_map_of_mem he)))
  · rw [ht, ← List.countP_eq_length_filter, List.countP_append, List.countP_map, h5]
    simp only [Function.comp_def, hF]
    rfl
  · rw [ht, ← List.countP_eq_length_filter, List.countP_append, List.countP_map, h6]
    simp only [Function.comp_def, hW]
    rfl

/-! ## Refuted, and examples -/

/-- C79 refuted for the output as text: the name of a file is printed as it is. A directory with a file whose name has a line end makes a line that reports any file as
verified, by anyone. (The command still fails.) -/
theorem bulk_lines_refuted :
    let tree : Tree := .dir [(b!"x\n[ OK ] good signed by alice (alice)\n.letter", .file)]
    let name := b!"d/x\n[ OK ] good signed by alice (alice)\n.letter"
    let V := toyVerify namedWorld [(name, b!"bad")] [] (some tree)
    (match outBulk V (fun _ => []) [b!"d"] with
    | .ok r => decide (b!"[ OK ] good signed by alice (alice)" ∈ textLines r.out ∧ b!"good" ∉ visits V [b!"d"] ∧ verifyBulk V [b!"d"] = .error .signature)
    | .error _ => false) = true := by
  decide +kernel

/-- The hypotheses are met: a directory with a letter, a signed file and a bad one, and an argument that does not exist any more. -/
theorem bulk_report_example :
    let tree : Tree := .dir [(b!"a.letter", .file), (b!"bad.sig", .file), (b!"f", .file), (b!"f.sig", .file), (b!"g", .lost)]
    let V := toyVerify namedWorld [(b!"d/a.letter", toyLetterFile b!"hi"), (b!"d/bad.sig", []), (b!"d/f", b!"content"), (b!"d/f.sig", toySigFile b!"content")] [] (some tree)
    (match outBulk { V with errText := fun _ => b!"error" } (fun _ => b!"gone") [b!"d"] with
    | .ok r => decide (textLines r.out = [b!"[ OK ] d/a.letter signed by alice (alice)", b!"[FAIL] d/bad failed to verify: error", b!"[ OK ] d/f signed by alice (alice)",
        b!"[WARN] d/g failed to read: gone", []] ∧ r.st.fails = 1 ∧ r.st.warnings = 1)
    | .error _ => false) = true := by
  decide +kernel

end Jess
