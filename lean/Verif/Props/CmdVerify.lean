import Verif.Model.CmdVerify
import Verif.Props.FileSig
import Verif.Lemmas.Text

/-! # C44: the verify command -/

namespace Jess

/-! ## Specification -/

/-- The path is taken as a letter. -/
def IsLetterPath (x : Bytes) : Prop := x = b!"-" ∨ b!".letter" <:+ x

/-- `x` is either the data file `t`, or its signature file. -/
def SignedTarget (x t : Bytes) : Prop := ¬ IsLetterPath x ∧ (x = t ++ b!".sig" ∨ (¬ b!".sig" <:+ x ∧ x = t))

/-- What the user asks for: the attributes given with `--no`; else integrity and sender authentication. -/
def AskedFor (V : VerifyEnv) (a : Attr) : Prop :=
  match V.reqs with
  | some r => a ∈ r
  | none => a = Integrity ∨ a = SenderAuthentication

/-- The content of the file (or standard input) is a letter with signatures, which are all valid for the public keys the trust store
holds for the stated signers; the suite of the letter provides what the user asks for. -/
def LetterVerified (V : VerifyEnv) (x : Bytes) : Prop :=
  V.metaFlag = [] ∧ ∃ data l rest suite, (x = b!"-" → V.stdin = some data) ∧ (x ≠ b!"-" → V.read x = some data) ∧
    letterFromFileFormat V.hc data = .ok (l, rest) ∧ getSuite suiteRegistry l.suiteID = some suite ∧
    l.signatures ≠ [] ∧ (∀ sig ∈ l.signatures, SignatureVerified V.E.P V.w suite l sig) ∧ ∀ a, AskedFor V a → a ∈ suite.provides

/-- The user declined to load a big letter. -/
def Declined (V : VerifyEnv) (x : Bytes) : Prop :=
  x ≠ b!"-" ∧ ∃ i, V.stat x = some i ∧ 12000000 < i.size ∧ V.confirm x = .ok false

/-- The signature file of `t` contains signatures, and each of them verifies the content of `t`. -/
def FileVerified (V : VerifyEnv) (t : Bytes) : Prop :=
  ∃ d sigs, V.read (t ++ b!".sig") = some d ∧ parseSigFile V.E.C.toLetterCodec d = (sigs, none) ∧ sigs ≠ [] ∧
    ∀ (i : Nat) (l : Letter), sigs[i]? = some l → ∃ fd, EntryVerified V.E V.w (V.source t i) V.metaFlag l fd

/-- What a path names is verified. -/
def PathVerified (V : VerifyEnv) (x : Bytes) : Prop :=
  (IsLetterPath x ∧ (LetterVerified V x ∨ Declined V x)) ∨ ∃ t, SignedTarget x t ∧ FileVerified V t

/-- The paths below a directory which the command looks at. -/
def walkPaths : List WalkEvent → List Bytes
  | [] => []
  | .failed _ :: evs => walkPaths evs
  | .path p :: evs => if b!".sig".isSuffixOf p || b!".letter".isSuffixOf p then p :: walkPaths evs else walkPaths evs

/-- The paths visited for a file or directory. -/
def visitsOf (V : VerifyEnv) (f : Bytes) : List Bytes :=
  match V.stat f with
  | none => []
  | some i => if i.isDir then walkPaths (V.walk f) else [f]

/-- The files an argument matches. -/
def matchesOf (V : VerifyEnv) (a : Bytes) : List Bytes := match V.glob a with | .ok ms => ms | .error _ => []

/-- All paths visited by the command, in order. -/
def visits (V : VerifyEnv) (args : List Bytes) : List Bytes := (args.flatMap (matchesOf V)).flatMap (visitsOf V)

/-- Nothing was skipped because of an error (specification): the arguments could be resolved, what they match could be read, and so could
everything below the directories. -/
def NothingSkipped (V : VerifyEnv) (args : List Bytes) : Prop :=
  (∀ a ∈ args, ∃ ms, V.glob a = .ok ms) ∧
  ∀ f ∈ args.flatMap (matchesOf V), ∃ i, V.stat f = some i ∧ (i.isDir = true → ∀ p, WalkEvent.failed p ∉ V.walk f)

/-! ## One path -/

theorem verifyLetterFile_ok {V : VerifyEnv} (hw : V.w.KeepsScheme) {bulk : Bool} {x : Bytes} {r : List Bytes × Bytes}
    (h : verifyLetterFile V bulk x = .ok r) :
    LetterVerified V x ∨ Declined V x := by
  unfold verifyLetterFile at h
  split at h
  · cases h
  · rename_i hm
    simp only [ne_eq, Decidable.not_not] at hm
    simp only [bind_ok_iff] at h
    obtain ⟨go, hgo, h⟩ := h
    split at h
    · rename_i hg
      subst hg
      right
      unfold askBig at hgo
      split at hgo
      · cases hgo
      · rename_i hx
        split at hgo
        · cases hgo
        · rename_i i hi
          split at hgo
          · rename_i hs
            exact ⟨hx, i, hi, hs, hgo⟩
          · cases hgo
    · left
      split at h
      · cases h
      · rename_i data hd
        unfold verifyLetterData at h
        simp only [bind_ok_iff] at h
        obtain ⟨_, ⟨⟨l, rest⟩, hl, _, hv, _⟩, _⟩ := h
        obtain ⟨suite, h1, _, h3, h4⟩ := verify_needs_signature _ _ _ hw _ _ hv
        unfold loadInput at hd
        have h5 : ∀ a, AskedFor V a → a ∈ suite.provides := by
          intro a ha
          obtain ⟨s, ho, _⟩ := verify_ok hv
          have g1 := ho.suite
          have g2 := ho.reqs
          simp only at g1
          rw [h1] at g1
          rw [Option.some.inj g1]
          refine g2 a ?_
          unfold AskedFor at ha
          unfold verifyReqs
          simp only [Option.getD_some]
          cases hr : V.reqs with
          | some r => rw [hr] at ha; exact ha
          | none =>
            rw [hr] at ha
            rcases ha with rfl | rfl <;> decide
        refine ⟨hm, data, l, rest, suite, ?_, ?_, hl, h1, h3, h4, h5⟩
        · intro hx
          rwa [if_pos (show x = stdInOut from hx)] at hd
        · intro hx
          rwa [if_neg (show ¬ x = stdInOut from hx)] at hd

theorem verifySigFile_ok {V : VerifyEnv} (hw : V.w.KeepsScheme) {bulk : Bool} {t : Bytes} {r : List Bytes × Bytes}
    (h : verifySigFile V bulk t (t ++ sigExt) = .ok r) :
    FileVerified V t := by
  unfold verifySigFile at h
  split at h
  · cases h
  · rename_i fds hf
    obtain ⟨d, sigs, h1, h2, h3, h4, h5⟩ := verify_file_sound_partial V.E V.w hw _ _ _ fds hf
    refine ⟨d, sigs, h1, h2, h3, ?_⟩
    intro i l hl
    have hi : i < sigs.length := (List.getElem?_eq_some_iff.mp hl).1
    exact ⟨fds[i]'(by omega), h5 i l _ hl (List.getElem?_eq_getElem (by omega))⟩

theorem letterPath_iff (x : Bytes) : (x = stdInOut ∨ hasSuffix x letterExt = true) ↔ IsLetterPath x := by
  unfold IsLetterPath
  rw [hasSuffix_iff]
  rfl

theorem trimSuffix_append (t : Bytes) : trimSuffix (t ++ sigExt) sigExt = t := by
  unfold trimSuffix
  have : hasSuffix (t ++ sigExt) sigExt = true := by rw [hasSuffix_iff]; exact List.suffix_append t sigExt
  rw [if_pos this]
  simp

theorem target_of {x : Bytes} (h : ¬ IsLetterPath x) : SignedTarget x (trimSuffix x sigExt) := by
  refine ⟨h, ?_⟩
  by_cases hs : hasSuffix x sigExt = true
  · left
    obtain ⟨t, rfl⟩ := hasSuffix_iff.mp hs
    rw [trimSuffix_append]; rfl
  · right
    refine ⟨fun hh => hs (hasSuffix_iff.mpr hh), ?_⟩
    unfold trimSuffix
    rw [if_neg hs]

theorem signedTarget_unique {x t t' : Bytes} (h : SignedTarget x t) (h' : SignedTarget x t') : t = t' := by
  obtain ⟨_, h⟩ := h
  obtain ⟨_, h'⟩ := h'
  rcases h with h | ⟨h0, h⟩ <;> rcases h' with h' | ⟨h0', h'⟩
  · rw [h] at h'; exact List.append_cancel_right h'
  · exact absurd ⟨t, h.symm⟩ h0'
  · exact absurd ⟨t', h'.symm⟩ h0
  · rw [← h, ← h']

/-- The names remembered for a path. -/
noncomputable def marks (x : Bytes) : List Bytes := by
  classical
  exact if IsLetterPath x then [x] else [trimSuffix x sigExt, trimSuffix x sigExt ++ sigExt]

theorem verifyFresh_ok {V : VerifyEnv} (hw : V.w.KeepsScheme) {bulk : Bool} {x : Bytes} (h : (verifyFresh V bulk x).1 = .ok ()) :
    PathVerified V x := by
  have hk : ∃ r, verifyKind V bulk x = .ok r := by
    unfold verifyFresh at h
    cases hr : verifyKind V bulk x with
    | error e => rw [hr] at h; cases h
    | ok r => exact ⟨r, rfl⟩
  obtain ⟨r, h⟩ := hk
  unfold verifyKind at h
  split at h
  · rename_i hx
    exact .inl ⟨.inl hx, verifyLetterFile_ok hw h⟩
  · rename_i hx
    split at h
    · rename_i hs
      exact .inl ⟨(letterPath_iff x).mp (.inr hs), verifyLetterFile_ok hw h⟩
    · rename_i hs
      refine .inr ⟨_, target_of (fun hl => ?_), verifySigFile_ok hw h⟩
      rcases (letterPath_iff x).mpr hl with h' | h'
      · exact hx h'
      · exact hs h'

theorem verifyFresh_marks (V : VerifyEnv) (bulk : Bool) (x : Bytes) : (verifyFresh V bulk x).2 = marks x := by
  unfold verifyFresh remembered marks
  dsimp only
  split
  · rename_i hx
    rw [if_pos ((letterPath_iff x).mp (.inl hx))]
  · rename_i hx
    split
    · rename_i hs
      rw [if_pos ((letterPath_iff x).mp (.inr hs))]
    · rename_i hs
      rw [if_neg (fun hl => ?_)]
      rcases (letterPath_iff x).mpr hl with h' | h'
      · exact hx h'
      · exact hs h'

/-- Paths which can be hidden: `x.sig` is not the signature file `verify` takes for `x`, although it names `x` as its data file. -/
def Shadowable (x : Bytes) : Prop := IsLetterPath x ∨ b!".sig" <:+ x

theorem not_letter_sig (t : Bytes) : ¬ IsLetterPath (t ++ sigExt) := by
  rintro (h | h)
  · have := congrArg List.length h
    simp [sigExt] at this
  · obtain ⟨p, hp⟩ := h
    have := congrArg List.reverse hp
    simp [sigExt] at this

theorem marks_verified {V : VerifyEnv} {x z : Bytes} (h : PathVerified V x) (hz : z ∈ marks x) :
    PathVerified V z ∨ (Shadowable z ∧ x = z ++ b!".sig") := by
  unfold marks at hz
  split at hz
  · simp only [List.mem_singleton] at hz
    subst hz
    exact .inl h
  · rename_i hl
    have ht := target_of hl
    generalize trimSuffix x sigExt = t at hz ht
    have hf : FileVerified V t := by
      rcases h with ⟨h, _⟩ | ⟨t', h1, h2⟩
      · exact absurd h hl
      · rwa [← signedTarget_unique h1 ht]
    simp only [List.mem_cons, List.not_mem_nil, or_false] at hz
    rcases hz with rfl | rfl
    · by_cases hs : Shadowable z
      · rcases ht with ⟨_, h' | ⟨h0, h'⟩⟩
        · exact .inr ⟨hs, h'⟩
        · subst h'
          rcases hs with hs | hs
          · exact absurd hs hl
          · exact absurd hs h0
      · left
        refine .inr ⟨z, ⟨fun hh => hs (.inl hh), .inr ⟨fun hh => hs (.inr hh), rfl⟩⟩, hf⟩
    · exact .inl (.inr ⟨t, ⟨not_letter_sig t, .inl rfl⟩, hf⟩)

/-! ## All paths -/

/-- The paths are verified one after the other, without error. -/
inductive BulkRuns (V : VerifyEnv) : List Bytes → List Bytes → List Bytes → Prop
  | nil (m : List Bytes) : BulkRuns V m [] m
  | cons {m : List Bytes} {x : Bytes} {xs m' : List Bytes} (h : (verifyPath V true m x).1 = .ok ())
      (hr : BulkRuns V (verifyPath V true m x).2 xs m') : BulkRuns V m (x :: xs) m'

theorem BulkRuns.append {V : VerifyEnv} {m m1 m2 xs ys : List Bytes} (h1 : BulkRuns V m xs m1) (h2 : BulkRuns V m1 ys m2) : BulkRuns V m (xs ++ ys) m2 := by
  induction h1 with
  | nil m => exact h2
  | cons h _ ih => exact .cons h (ih h2)

theorem runs_verified {V : VerifyEnv} (hw : V.w.KeepsScheme) {m xs m' : List Bytes} (hr : BulkRuns V m xs m') :
    ∀ seen : List Bytes, (∀ z ∈ m, PathVerified V z ∨ (Shadowable z ∧ z ++ b!".sig" ∈ seen)) →
      ∀ pre x post, xs = pre ++ x :: post → PathVerified V x ∨ (Shadowable x ∧ x ++ b!".sig" ∈ seen ++ pre) := by
  induction hr with
  | nil m => intro seen _ pre x post h; simp at h
  | @cons m y ys m' h hr ih =>
    intro seen hinv pre x post he
    have hy : PathVerified V y ∨ (Shadowable y ∧ y ++ b!".sig" ∈ seen) := by
      unfold verifyPath at h
      split at h
      · rename_i hm; exact hinv _ hm
      · exact .inl (verifyFresh_ok hw h)
    cases pre with
    | nil =>
      simp only [List.nil_append, List.cons.injEq] at he
      obtain ⟨rfl, _⟩ := he
      simpa using hy
    | cons p pre =>
      simp only [List.cons_append, List.cons.injEq] at he
      obtain ⟨rfl, rfl⟩ := he
      have := ih (seen ++ [y]) ?_ pre x post rfl
      · simpa using this
      · intro z hz
        unfold verifyPath at h hz
        split at hz
        · rcases hinv z hz with h1 | ⟨h1, h2⟩
          · exact .inl h1
          · exact .inr ⟨h1, List.mem_append_left _ h2⟩
        · rename_i hm
          rw [if_neg hm] at h
          simp only [List.mem_append] at hz
          rcases hz with hz | hz
          · rcases hinv z hz with h1 | ⟨h1, h2⟩
            · exact .inl h1
            · exact .inr ⟨h1, List.mem_append_left _ h2⟩
          · rw [verifyFresh_marks] at hz
            rcases marks_verified (verifyFresh_ok hw h) hz with h1 | ⟨h1, h2⟩
            · exact .inl h1
            · exact .inr ⟨h1, by rw [← h2]; simp⟩

theorem bulkVerify_spec {V : VerifyEnv} {st st' : BulkState} {x : Bytes} (h : bulkVerify V st x = .ok st') :
    st.fails ≤ st'.fails ∧ st.warnings = st'.warnings ∧ (st'.fails = st.fails → BulkRuns V st.memo [x] st'.memo) := by
  unfold bulkVerify at h
  split at h
  · cases h
  · cases h
    exact ⟨by simp, rfl, fun h => by simp at h⟩
  · rename_i memo hv
    cases h
    refine ⟨Nat.le_refl _, rfl, fun _ => ?_⟩
    have h1 : (verifyPath V true st.memo x).1 = .ok () := by rw [hv]
    have h2 : (verifyPath V true st.memo x).2 = memo := by rw [hv]
    refine .cons h1 ?_
    rw [h2]
    exact .nil _

theorem walkPaths_cons (p : Bytes) (evs : List WalkEvent) :
    walkPaths (.path p :: evs) = (if hasSuffix p sigExt || hasSuffix p letterExt then [p] else []) ++ walkPaths evs := by
  rw [walkPaths]
  change (if (hasSuffix p sigExt || hasSuffix p letterExt) = true then _ else _) = _
  cases hasSuffix p sigExt || hasSuffix p letterExt <;> rfl

theorem bulkWalk_spec {V : VerifyEnv} (evs : List WalkEvent) : ∀ {st st' : BulkState}, bulkWalk V st evs = .ok st' →
    st.fails ≤ st'.fails ∧ st.warnings ≤ st'.warnings ∧
    (st'.fails = st.fails → BulkRuns V st.memo (walkPaths evs) st'.memo) ∧ (st'.warnings = st.warnings → ∀ p, WalkEvent.failed p ∉ evs) := by
  induction evs with
  | nil => intro st st' h; cases h; exact ⟨Nat.le_refl _, Nat.le_refl _, fun _ => .nil _, fun _ p => by simp⟩
  | cons ev evs ih =>
    intro st st' h
    rw [bulkWalk] at h
    simp only [bind_ok_iff] at h
    obtain ⟨st1, h1, h2⟩ := h
    obtain ⟨i1, i2, i3, i4⟩ := ih h2
    cases ev with
    | failed p =>
      simp only [bulkEvent] at h1
      cases h1
      simp only at i1 i2 i3 i4
      exact ⟨i1, by omega, i3, fun h => by omega⟩
    | path p =>
      rw [walkPaths_cons]
      simp only [bulkEvent] at h1
      split at h1
      · rename_i hs
        obtain ⟨j1, j2, j3⟩ := bulkVerify_spec h1
        rw [if_pos hs]
        refine ⟨by omega, by omega, fun h => (j3 (by omega)).append (i3 (by omega)), fun h p' hp => ?_⟩
        simp only [List.mem_cons, reduceCtorEq, false_or] at hp
        exact i4 (by omega) p' hp
      · rename_i hs
        cases h1
        rw [if_neg hs]
        refine ⟨i1, i2, fun h => i3 h, fun h p' hp => ?_⟩
        simp only [List.mem_cons, reduceCtorEq, false_or] at hp
        exact i4 (by omega) p' hp

theorem bulkFiles_spec {V : VerifyEnv} (fs : List Bytes) : ∀ {st st' : BulkState}, bulkFiles V st fs = .ok st' →
    st.fails ≤ st'.fails ∧ st.warnings ≤ st'.warnings ∧
    (st'.fails = st.fails → BulkRuns V st.memo (fs.flatMap (visitsOf V)) st'.memo) ∧
    (st'.warnings = st.warnings → ∀ f ∈ fs, ∃ i, V.stat f = some i ∧ (i.isDir = true → ∀ p, WalkEvent.failed p ∉ V.walk f)) := by
  induction fs with
  | nil => intro st st' h; cases h; exact ⟨Nat.le_refl _, Nat.le_refl _, fun _ => .nil _, fun _ f hf => by simp at hf⟩
  | cons f fs ih =>
    intro st st' h
    rw [bulkFiles] at h
    simp only [bind_ok_iff] at h
    obtain ⟨st1, h1, h2⟩ := h
    obtain ⟨i1, i2, i3, i4⟩ := ih h2
    rw [List.flatMap_cons]
    unfold bulkFile at h1
    split at h1
    · rename_i hn
      cases h1
      simp only at i1 i2 i3 i4
      refine ⟨i1, by omega, fun h => ?_, fun h => by omega⟩
      have : visitsOf V f = [] := by unfold visitsOf; rw [hn]
      rw [this]
      exact i3 h
    · rename_i i hi
      split at h1
      · rename_i hd
        obtain ⟨j1, j2, j3, j4⟩ := bulkWalk_spec _ h1
        have hv : visitsOf V f = walkPaths (V.walk f) := by unfold visitsOf; rw [hi]; simp only [hd, if_true]
        rw [hv]
        refine ⟨by omega, by omega, fun h => (j3 (by omega)).append (i3 (by omega)), fun h g hg => ?_⟩
        simp only [List.mem_cons] at hg
        rcases hg with rfl | hg
        · exact ⟨i, hi, fun _ => j4 (by omega)⟩
        · exact i4 (by omega) g hg
      · rename_i hd
        obtain ⟨j1, j2, j3⟩ := bulkVerify_spec h1
        have hv : visitsOf V f = [f] := by unfold visitsOf; rw [hi]; simp only [hd]; rfl
        rw [hv]
        refine ⟨by omega, by omega, fun h => (j3 (by omega)).append (i3 (by omega)), fun h g hg => ?_⟩
        simp only [List.mem_cons] at hg
        rcases hg with rfl | hg
        · exact ⟨i, hi, fun hh => absurd hh hd⟩
        · exact i4 (by omega) g hg

theorem globAll_spec {V : VerifyEnv} (args : List Bytes) : ∀ {fs : List Bytes}, globAll V args = .ok fs →
    fs = args.flatMap (matchesOf V) ∧ ∀ a ∈ args, ∃ ms, V.glob a = .ok ms := by
  induction args with
  | nil => intro fs h; cases h; exact ⟨rfl, fun a ha => by simp at ha⟩
  | cons a args ih =>
    intro fs h
    rw [globAll] at h
    simp only [bind_ok_iff] at h
    obtain ⟨ms, h1, rest, h2, h3⟩ := h
    have h3 := Except.ok.inj h3
    subst h3
    obtain ⟨i1, i2⟩ := ih h2
    rw [List.flatMap_cons, ← i1]
    refine ⟨?_, ?_⟩
    · unfold matchesOf; rw [h1]
    · intro b hb
      simp only [List.mem_cons] at hb
      rcases hb with rfl | hb
      · exact ⟨ms, h1⟩
      · exact i2 b hb

theorem verifyBulk_spec {V : VerifyEnv} {args : List Bytes} (h : verifyBulk V args = .ok ()) :
    NothingSkipped V args ∧ ∃ m, BulkRuns V [] (visits V args) m := by
  unfold verifyBulk at h
  simp only [bind_ok_iff] at h
  obtain ⟨files, h1, st, h2, h3⟩ := h
  obtain ⟨rfl, hg⟩ := globAll_spec args h1
  obtain ⟨_, _, i3, i4⟩ := bulkFiles_spec _ h2
  unfold bulkResult at h3
  split at h3
  · cases h3
  · split at h3
    · cases h3
    · exact ⟨⟨hg, i4 (by simp only; omega)⟩, _, i3 (by simp only; omega)⟩

/-- C44 (partial). If the command succeeds, everything the arguments match was read, and every visited path is verified — except paths `x`
which are themselves letters or signature files and which come after `x.sig`: those are not looked at. Big letters which the user declined
to load count as verified. -/
theorem bulk_verify_partial (V : VerifyEnv) (hw : V.w.KeepsScheme) (args : List Bytes) (h : verifyCommand V args = .ok ()) :
    NothingSkipped V args ∧
    ∀ pre x post, visits V args = pre ++ x :: post → PathVerified V x ∨ (Shadowable x ∧ x ++ b!".sig" ∈ pre) := by
  have key : ∀ args, verifyBulk V args = .ok () → NothingSkipped V args ∧
      ∀ pre x post, visits V args = pre ++ x :: post → PathVerified V x ∨ (Shadowable x ∧ x ++ b!".sig" ∈ pre) := by
    intro args h
    obtain ⟨h1, m, h2⟩ := verifyBulk_spec h
    refine ⟨h1, fun pre x post he => ?_⟩
    simpa using runs_verified hw h2 [] (by simp) pre x post he
  unfold verifyCommand at h
  split at h
  · rename_i a
    simp only [bind_ok_iff] at h
    obtain ⟨ms, hg, h⟩ := h
    split at h
    · cases h
    · rename_i m
      split at h
      · cases h
      · rename_i i hi
        split at h
        · exact key _ h
        · rename_i hd
          have hm : [a].flatMap (matchesOf V) = [m] := by simp [matchesOf, hg]
          refine ⟨⟨?_, ?_⟩, ?_⟩
          · intro b hb
            simp only [List.mem_singleton] at hb
            subst hb
            exact ⟨_, hg⟩
          · rw [hm]
            intro f hf
            simp only [List.mem_singleton] at hf
            subst hf
            exact ⟨i, hi, fun hh => absurd hh hd⟩
          · have hv : visits V [a] = [m] := by
              unfold visits
              rw [hm]
              simp [visitsOf, hi, hd]
            rw [hv]
            intro pre x post he
            unfold verifyPath at h
            rw [if_neg (by simp)] at h
            have hp := verifyFresh_ok hw h
            cases pre with
            | cons p pre => simp at he
            | nil =>
              simp only [List.nil_append, List.cons.injEq] at he
              obtain ⟨rfl, _⟩ := he
              exact .inl hp
    · exact key _ h
  · exact key _ h

/-- C44 for arguments in any order in which no letter and no signature file comes after its own signature file. -/
theorem bulk_verify_ordered (V : VerifyEnv) (hw : V.w.KeepsScheme) (args : List Bytes)
    (hord : (visits V args).Pairwise (fun a b => a ≠ b ++ b!".sig")) (h : verifyCommand V args = .ok ()) :
    NothingSkipped V args ∧ ∀ x ∈ visits V args, PathVerified V x := by
  obtain ⟨h1, h2⟩ := bulk_verify_partial V hw args h
  refine ⟨h1, fun x hx => ?_⟩
  obtain ⟨pre, post, he⟩ := List.append_of_mem hx
  rcases h2 pre x post he with hp | ⟨_, hp⟩
  · exact hp
  · rw [he, List.pairwise_append] at hord
    exact absurd rfl (hord.2.2 _ hp x (by simp))

/-! ## Directories -/

mutual
/-- A file system tree (specification): names of entries are not empty, contain no slash, and are sorted. -/
def Tree.Valid : Tree → Prop
  | .dir es => es.Pairwise (fun a b => a.1 < b.1) ∧ validEntries es
  | _ => True

/-- All entries. -/
def validEntries : List (Bytes × Tree) → Prop
  | [] => True
  | (n, t) :: es => n ≠ [] ∧ (47 : UInt8) ∉ n ∧ t.Valid ∧ validEntries es
end

/-- The paths of all calls without error. -/
def eventPaths : List WalkEvent → List Bytes
  | [] => []
  | .failed _ :: evs => eventPaths evs
  | .path p :: evs => p :: eventPaths evs

theorem eventPaths_append (a b : List WalkEvent) : eventPaths (a ++ b) = eventPaths a ++ eventPaths b := by
  induction a with
  | nil => rfl
  | cons e a ih => cases e <;> simp [eventPaths, ih]

theorem walkPaths_sublist (evs : List WalkEvent) : (walkPaths evs).Sublist (eventPaths evs) := by
  induction evs with
  | nil => exact List.Sublist.slnil
  | cons e evs ih =>
    cases e with
    | failed p => exact ih
    | path p =>
      rw [walkPaths_cons, eventPaths]
      split
      · exact ih.cons_cons p
      · exact ih.cons p

theorem lt_append (n r : Bytes) (h : r ≠ []) : n < n ++ r := by
  induction n with
  | nil => cases r with
    | nil => exact absurd rfl h
    | cons a r => exact List.nil_lt_cons a r
  | cons a n ih => exact List.cons_lt_cons_self.mpr ih

/-- A slash free name is determined by what follows up to the first slash. -/
theorem name_split {n1 n2 r1 r2 : Bytes} (h1 : (47 : UInt8) ∉ n1) (h2 : (47 : UInt8) ∉ n2) (h : n1 ++ 47 :: r1 = n2 ++ 47 :: r2) : n1 = n2 := by
  induction n1 generalizing n2 with
  | nil => cases n2 with
    | nil => rfl
    | cons b n2 =>
      simp only [List.nil_append, List.cons_append, List.cons.injEq] at h
      exact absurd (by simp [← h.1]) h2
  | cons a n1 ih => cases n2 with
    | nil =>
      simp only [List.nil_append, List.cons_append, List.cons.injEq] at h
      exact absurd (by simp [h.1]) h1
    | cons b n2 =>
      simp only [List.cons_append, List.cons.injEq] at h
      obtain ⟨rfl, h⟩ := h
      rw [ih (fun hh => h1 (by simp [hh])) (fun hh => h2 (by simp [hh])) h]

mutual
theorem walkTree_paths (path base : Bytes) (t : Tree) : ∀ x ∈ eventPaths (walkTree path base t), x = path ∨ ∃ r, x = base ++ r := by
  match t with
  | .file => simp [walkTree, eventPaths]
  | .lost => simp [walkTree, eventPaths]
  | .unreadable => simp [walkTree, eventPaths]
  | .dir es =>
    intro x hx
    simp only [walkTree, eventPaths, List.mem_cons] at hx
    rcases hx with hx | hx
    · exact .inl hx
    · obtain ⟨n, r, h, _⟩ := walkEntries_paths base es x hx
      exact .inr ⟨n ++ r, by rw [h, List.append_assoc]⟩

theorem walkEntries_paths (base : Bytes) (es : List (Bytes × Tree)) : ∀ x ∈ eventPaths (walkEntries base es),
    ∃ n r, x = base ++ n ++ r ∧ (r = [] ∨ ∃ q, r = 47 :: q) ∧ n ∈ es.map (·.1) := by
  match es with
  | [] => simp [walkEntries, eventPaths]
  | (n, t) :: es =>
    intro x hx
    simp only [walkEntries, eventPaths_append, List.mem_append] at hx
    rcases hx with hx | hx
    · rcases walkTree_paths (base ++ n) (base ++ n ++ b!"/") t x hx with h | ⟨r, h⟩
      · exact ⟨n, [], by rw [h, List.append_nil], .inl rfl, by simp⟩
      · exact ⟨n, 47 :: r, by rw [h, List.append_assoc (base ++ n)]; rfl, .inr ⟨r, rfl⟩, by simp⟩
    · obtain ⟨n', r, h1, h2, h3⟩ := walkEntries_paths base es x hx
      exact ⟨n', r, h1, h2, by simp only [List.map_cons, List.mem_cons]; exact .inr h3⟩
end

theorem validEntries_noSlash {es : List (Bytes × Tree)} (hv : validEntries es) {n : Bytes} {t : Tree} (hm : (n, t) ∈ es) : (47 : UInt8) ∉ n := by
  induction es with
  | nil => simp at hm
  | cons e es ih =>
    obtain ⟨n', t'⟩ := e
    rw [validEntries] at hv
    simp only [List.mem_cons, Prod.mk.injEq] at hm
    rcases hm with ⟨rfl, _⟩ | hm
    · exact hv.2.1
    · exact ih hv.2.2.2 hm

mutual
theorem walkTree_order (path base : Bytes) (t : Tree) (hv : t.Valid) (hp : ∀ r, path ≠ base ++ r ++ b!".sig") :
    (eventPaths (walkTree path base t)).Pairwise (fun a b => a ≠ b ++ b!".sig") := by
  match t with
  | .file => simp [walkTree, eventPaths]
  | .lost => simp [walkTree, eventPaths]
  | .unreadable => simp [walkTree, eventPaths]
  | .dir es =>
    rw [Tree.Valid] at hv
    simp only [walkTree, eventPaths, List.pairwise_cons]
    refine ⟨?_, walkEntries_order base es hv.1 hv.2⟩
    intro x hx
    obtain ⟨n, r, h, _⟩ := walkEntries_paths base es x hx
    rw [h, List.append_assoc base]
    exact hp _

theorem walkEntries_order (base : Bytes) (es : List (Bytes × Tree)) (hs : es.Pairwise (fun a b => a.1 < b.1)) (hv : validEntries es) :
    (eventPaths (walkEntries base es)).Pairwise (fun a b => a ≠ b ++ b!".sig") := by
  match es with
  | [] => simp [walkEntries, eventPaths]
  | (n, t) :: es =>
    rw [validEntries] at hv
    obtain ⟨h1, h2, h3, h4⟩ := hv
    rw [List.pairwise_cons] at hs
    simp only [walkEntries, eventPaths_append, List.pairwise_append]
    refine ⟨walkTree_order _ _ t h3 ?_, walkEntries_order base es hs.2 h4, ?_⟩
    · intro r he
      have := congrArg List.length he
      simp only [List.length_append, List.length_cons] at this
      omega
    · intro a ha b hb he
      obtain ⟨n', r', g1, g2, g3⟩ := walkEntries_paths base es b hb
      obtain ⟨r, k1, k2⟩ : ∃ r, a = base ++ n ++ r ∧ (r = [] ∨ ∃ q, r = 47 :: q) := by
        rcases walkTree_paths (base ++ n) (base ++ n ++ b!"/") t a ha with h | ⟨r, h⟩
        · exact ⟨[], by rw [h, List.append_nil], .inl rfl⟩
        · exact ⟨47 :: r, by rw [h, List.append_assoc (base ++ n)]; rfl, .inr ⟨r, rfl⟩⟩
      obtain ⟨⟨n'', t'⟩, hm, hn⟩ := List.mem_map.mp g3
      simp only at hn
      subst hn
      have hlt : n < n'' := hs.1 _ hm
      have hns : (47 : UInt8) ∉ n'' := validEntries_noSlash h4 hm
      rw [k1, g1] at he
      simp only [List.append_assoc, List.append_cancel_left_eq] at he
      rcases g2 with rfl | ⟨q', rfl⟩
      · rcases k2 with rfl | ⟨q, rfl⟩
        · simp only [List.append_nil, List.nil_append] at he
          rw [he] at hlt
          exact absurd (List.lt_trans hlt (lt_append n'' _ (by simp))) (List.lt_irrefl _)
        · have : (47 : UInt8) ∈ n'' ++ ([] ++ b!".sig") := by rw [← he]; simp
          simp [hns] at this
      · rcases k2 with rfl | ⟨q, rfl⟩
        · rw [List.append_nil] at he
          exact h2 (by rw [he]; simp)
        · have := name_split h2 hns (r1 := q) (r2 := q' ++ b!".sig") (by simpa using he)
          subst this
          exact absurd hlt (List.lt_irrefl _)
end

/-- C44 for a directory. If the command succeeds for one directory, then everything below it was read, and every letter and every signature
file in it is verified (or is a big letter which the user declined to load). The paths of the entries start with `base`: that is `root/`, if
`root` is a clean path. -/
theorem bulk_verify_directory (V : VerifyEnv) (hw : V.w.KeepsScheme) (arg root base : Bytes) (t : Tree) (i : FileInfo)
    (hg : V.glob arg = .ok [root]) (hi : V.stat root = some i) (hd : i.isDir = true)
    (hwalk : V.walk root = walkTree root base t) (hv : t.Valid) (hb : base = root ++ b!"/" ∨ ¬ b!".sig" <:+ root)
    (h : verifyCommand V [arg] = .ok ()) :
    (∀ p, WalkEvent.failed p ∉ walkTree root base t) ∧
    ∀ x, WalkEvent.path x ∈ walkTree root base t → (b!".sig" <:+ x ∨ b!".letter" <:+ x) → PathVerified V x := by
  have hm : [arg].flatMap (matchesOf V) = [root] := by simp [matchesOf, hg]
  have hvis : visits V [arg] = walkPaths (walkTree root base t) := by
    unfold visits
    rw [hm]
    simp [visitsOf, hi, hd, hwalk]
  have hord : (visits V [arg]).Pairwise (fun a b => a ≠ b ++ b!".sig") := by
    rw [hvis]
    refine (walkTree_order root base t hv ?_).sublist (walkPaths_sublist _)
    intro r he
    rcases hb with hb | hb
    · have := congrArg List.length he
      simp only [hb, List.length_append, List.length_cons] at this
      omega
    · exact hb ⟨_, he.symm⟩
  obtain ⟨⟨h1, h2⟩, h3⟩ := bulk_verify_ordered V hw [arg] hord h
  refine ⟨?_, ?_⟩
  · obtain ⟨i', hi', h'⟩ := h2 root (by rw [hm]; simp)
    rw [hi] at hi'
    cases hi'
    have := h' hd
    rwa [hwalk] at this
  · intro x hx hs
    refine h3 x ?_
    rw [hvis]
    revert hx
    generalize walkTree root base t = evs
    intro hx
    induction evs with
    | nil => simp at hx
    | cons e evs ih =>
      simp only [List.mem_cons] at hx
      rcases hx with rfl | hx
      · rw [walkPaths_cons]
        have : (hasSuffix x sigExt || hasSuffix x letterExt) = true := by
          rw [Bool.or_eq_true, hasSuffix_iff, hasSuffix_iff]; exact hs
        rw [if_pos this]
        simp
      · cases e with
        | failed p => exact ih hx
        | path p =>
          rw [walkPaths_cons]
          exact List.mem_append_right _ (ih hx)

/-- The entry with path `x` in a tree at `path` (specification): the tree itself, or an entry of one of its directories. -/
inductive EntryAt : Bytes → Bytes → Tree → Bytes → Tree → Prop
  | here {path base : Bytes} {t : Tree} : EntryAt path base t path t
  | inside {path base n x : Bytes} {t u : Tree} {es : List (Bytes × Tree)} : (n, t) ∈ es → EntryAt (base ++ n) (base ++ n ++ b!"/") t x u →
      EntryAt path base (.dir es) x u

theorem walkEntries_mem {base n : Bytes} {t : Tree} {es : List (Bytes × Tree)} (h : (n, t) ∈ es) :
    ∀ ev ∈ walkTree (base ++ n) (base ++ n ++ b!"/") t, ev ∈ walkEntries base es := by
  induction es with
  | nil => simp at h
  | cons e es ih =>
    obtain ⟨n', t'⟩ := e
    intro ev hev
    rw [walkEntries, List.mem_append]
    rcases List.mem_cons.1 h with h | h
    · cases h; exact .inl hev
    · exact .inr (ih h ev hev)

def Tree.event (x : Bytes) : Tree → WalkEvent
  | .file => .path x
  | .dir _ => .path x
  | .unreadable => .failed x
  | .lost => .failed x

/-- Every entry is visited, with an error if it can not be read. -/
theorem entry_visited {path base x : Bytes} {t u : Tree} (h : EntryAt path base t x u) : u.event x ∈ walkTree path base t := by
  induction h with
  | here => rename_i path base t; cases t <;> simp [walkTree, Tree.event]
  | inside hm _ ih => rw [walkTree]; exact List.mem_cons_of_mem _ (walkEntries_mem hm _ ih)

/-- C44 for the tree of a directory: if the command succeeds for the directory, then all entries below it can be read, and each one whose
name ends with `.sig` or `.letter`, at any depth, is verified. -/
theorem bulk_verify_tree (V : VerifyEnv) (hw : V.w.KeepsScheme) (arg root : Bytes) (t : Tree) (i : FileInfo)
    (hg : V.glob arg = .ok [root]) (hi : V.stat root = some i) (hd : i.isDir = true)
    (hwalk : V.walk root = walkTree root (root ++ b!"/") t) (hv : t.Valid) (h : verifyCommand V [arg] = .ok ()) :
    ∀ x u, EntryAt root (root ++ b!"/") t x u → u ≠ .unreadable ∧ u ≠ .lost ∧ ((b!".sig" <:+ x ∨ b!".letter" <:+ x) → PathVerified V x) := by
  obtain ⟨h1, h2⟩ := bulk_verify_directory V hw arg root _ t i hg hi hd hwalk hv (.inl rfl) h
  intro x u hx
  have hvis := entry_visited hx
  cases u with
  | file => exact ⟨by simp, by simp, h2 x hvis⟩
  | dir es => exact ⟨by simp, by simp, h2 x hvis⟩
  | unreadable => exact absurd hvis (h1 x)
  | lost => exact absurd hvis (h1 x)

/-! ## Examples -/

/-- The toy world, with names. -/
def namedWorld : World :=
  { toyWorld with store := some (fun id r => match toyStore id r with
    | .ok s => .ok { s with info := some { name := id } }
    | .error e => .error e) }

theorem namedWorld_keeps : namedWorld.KeepsScheme := by
  constructor
  · intro cb s s' h1 h2; cases h1; cases h2; rfl
  · intro cb s l s' h1 h2; cases h1; cases h2; rfl

/-- Header serializer of the examples. -/
def toyHeader : HeaderCodec := { dump := fun l => .ok (toyDumpLetter l), load := toyLoadLetter }

/-- A file system with these files. `big`: a file which is too big. -/
def toyVerify (w : World) (files : List (Bytes × Bytes)) (big : List Bytes) (tree : Option Tree) : VerifyEnv where
  E := toySigEnv
  w := w
  hc := toyHeader
  reqs := none
  metaFlag := []
  glob a := if a ∈ files.map (·.1) ∨ (a = b!"d" ∧ tree.isSome) then .ok [a] else .ok []
  stat a := if a = b!"d" ∧ tree.isSome then some { isDir := true, size := 0 }
    else if a ∈ files.map (·.1) then some { isDir := false, size := if a ∈ big then 12000001 else 10 } else none
  walk a := match tree with | some t => walkTree a (a ++ b!"/") t | none => []
  read a := files.lookup a
  source a := match files.lookup a with | some c => .file c | none => fun _ => none
  stdin := none
  confirm _ := .ok false

/-- A letter file signed by alice. -/
def toyLetterFile (data : Bytes) : Bytes :=
  match toyClose (toyEnvelope b!"sign_v2" [] [b!"alice"] []) data with
  | .ok l => match (l.toFileFormat toyHeader).1 with | .ok d => d | .error _ => []
  | .error _ => []

/-- The signature file for a content. -/
def toySigFile (content : Bytes) : Bytes :=
  match toySign b!"signfile_v2" [] [b!"alice"] [] content .missing with
  | .ok (d, _) => d
  | .error _ => []

/-- The hypotheses are met: a directory with a letter, a signature of the letter, and a signed file is verified; when the letter, its
signature or the signature of the file is not valid, the command fails. -/
theorem bulk_example :
    let tree : Tree := .dir [(b!"a.letter", .file), (b!"a.letter.sig", .file), (b!"s", .dir [(b!"f", .file), (b!"f.sig", .file)])]
    let good := toyLetterFile b!"hi"
    let run := fun a as f fs => verifyCommand (toyVerify namedWorld [(b!"d/a.letter", a), (b!"d/a.letter.sig", as), (b!"d/s/f", f), (b!"d/s/f.sig", fs)] [] (some tree)) [b!"d"]
    tree.Valid ∧
    run good (toySigFile good) b!"content" (toySigFile b!"content") = .ok () ∧
    run b!"bad" (toySigFile b!"bad") b!"content" (toySigFile b!"content") = .error .signature ∧
    run good (toySigFile b!"bad") b!"content" (toySigFile b!"content") = .error .signature ∧
    run good (toySigFile good) b!"content" (toySigFile b!"other") = .error .signature := by
  refine ⟨?_, ?_⟩
  · simp only [Tree.Valid, validEntries, and_true]
    decide +kernel
  · decide +kernel

/-- C44 refuted. (1) A letter that is no letter is not looked at when its own signature file comes first, although the command fails when
they come in the other order. (2) The same for a signature file with its own signature. (3) A letter which the user declined to load counts
as verified. (4) One of several arguments may match nothing. (5) The program panics when a signer has no info. -/
theorem bulk_verify_refuted :
    (let V := toyVerify namedWorld [(b!"a.letter", b!"bad"), (b!"a.letter.sig", toySigFile b!"bad")] [] none
     verifyCommand V [b!"a.letter.sig", b!"a.letter"] = .ok () ∧ verifyCommand V [b!"a.letter", b!"a.letter.sig"] = .error .signature) ∧
    (let V := toyVerify namedWorld [(b!"f", b!"data"), (b!"f.sig", b!"bad"), (b!"f.sig.sig", toySigFile b!"bad")] [] none
     verifyCommand V [b!"f.sig.sig", b!"f.sig"] = .ok () ∧ verifyCommand V [b!"f.sig", b!"f.sig.sig"] = .error .signature) ∧
    (verifyCommand (toyVerify namedWorld [(b!"a.letter", b!"bad")] [b!"a.letter"] none) [b!"a.letter"] = .ok ()) ∧
    (verifyCommand (toyVerify namedWorld [(b!"a.letter", toyLetterFile b!"hi")] [] none) [b!"a.letter", b!"missing.letter"] = .ok ()) ∧
    (verifyCommand (toyVerify toyWorld [(b!"a.letter", toyLetterFile b!"hi")] [] none) [b!"a.letter"] = .error .panic) := by
  decide +kernel

end Jess
