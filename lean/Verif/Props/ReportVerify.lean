import Verif.Props.Report

/-! C73: what `jess verify` prints about a path it verified. -/

namespace Jess

/-! ## Specification -/

/-- The signature file of `t` consists of these signatures. -/
def SignaturesIn (V : VerifyEnv) (t : Bytes) (sigs : List Letter) : Prop :=
  ∃ d, V.read (t ++ b!".sig") = some d ∧ parseSigFile V.E.C.toLetterCodec d = (sigs, none)

/-- Everything signed or known about the signers fits on a line: the names and IDs of the signers, the signed metadata. -/
structure FitsOnLines (V : VerifyEnv) (sigs : List Letter) : Prop where
  signers : ∀ l ∈ sigs, ∀ s ∈ l.signatures, 10 ∉ signerShown V.w s.id
  metaData : ∀ l ∈ sigs, ∀ f, V.E.C.loadFile l.data = .ok f → ∀ p ∈ f.metaData, 10 ∉ p.1 ∧ 10 ∉ p.2

/-- The file data of the signatures, one for each, each verified. -/
def Entries (V : VerifyEnv) (t : Bytes) (sigs : List Letter) (fds : List FileData) : Prop :=
  fds.length = sigs.length ∧
  ∀ (i : Nat) (l : Letter) (fd : FileData), sigs[i]? = some l → fds[i]? = some fd → EntryVerified V.E V.w (V.source t i) V.metaFlag l fd

/-- The line about a hash. -/
def hashLine (h : LabeledHash) : Bytes := b!"Hash Sum: " ++ hexEncode h.digest

/-- The line about a piece of metadata. -/
def metadataLine (p : Bytes × Bytes) : Bytes := b!"    " ++ p.1 ++ b!": " ++ p.2

/-- The line about a signer. -/
def signerLine (w : World) (s : Seal) : Bytes := b!"Signed By: " ++ signerShown w s.id

/-! ## Proofs -/

theorem entries_mem {V : VerifyEnv} {t : Bytes} {sigs : List Letter} {fds : List FileData} (h : Entries V t sigs fds) {fd : FileData}
    (hfd : fd ∈ fds) : ∃ l ∈ sigs, ∃ i, EntryVerified V.E V.w (V.source t i) V.metaFlag l fd := by
  obtain ⟨i, hi, rfl⟩ := List.mem_iff_getElem.1 hfd
  have hi' : i < sigs.length := by rw [← h.1]; exact hi
  exact ⟨sigs[i], List.getElem_mem _, i, h.2 i _ _ (List.getElem?_eq_getElem hi') (List.getElem?_eq_getElem hi)⟩

theorem entries_map {V : VerifyEnv} {t : Bytes} {sigs : List Letter} {fds : List FileData} (h : Entries V t sigs fds) :
    fds.map (·.signature) = sigs.map some := by
  apply List.ext_getElem?
  intro i
  rw [List.getElem?_map, List.getElem?_map]
  by_cases hi : i < sigs.length
  · have hi' : i < fds.length := by rw [h.1]; exact hi
    have := h.2 i _ _ (List.getElem?_eq_getElem hi) (List.getElem?_eq_getElem hi')
    rw [List.getElem?_eq_getElem hi, List.getElem?_eq_getElem hi']
    simp [this.letter]
  · have hi' : ¬ i < fds.length := by rw [h.1]; exact hi
    rw [List.getElem?_eq_none (by omega), List.getElem?_eq_none (by omega)]
    rfl

theorem entries_signers {V : VerifyEnv} {t : Bytes} {sigs : List Letter} {fds : List FileData} (h : Entries V t sigs fds) :
    fds.flatMap FileData.signerIDs = sigs.flatMap (fun l => l.signatures.map (·.id)) := by
  have hm := entries_map h
  have : ∀ (fds : List FileData) (sigs : List Letter), fds.map (·.signature) = sigs.map some →
      fds.flatMap FileData.signerIDs = sigs.flatMap (fun l => l.signatures.map (·.id)) := by
    intro fds
    induction fds with
    | nil => intro sigs h; cases sigs with
      | nil => rfl
      | cons _ _ => cases h
    | cons fd fds ih => intro sigs h; cases sigs with
      | nil => cases h
      | cons l sigs =>
        simp only [List.map_cons, List.cons.injEq] at h
        rw [List.flatMap_cons, List.flatMap_cons, ih sigs h.2]
        unfold FileData.signerIDs
        rw [h.1]
  exact this _ _ hm

theorem entries_oneLine {V : VerifyEnv} {t : Bytes} {sigs : List Letter} {fds : List FileData} (h : Entries V t sigs fds) (hf : FitsOnLines V sigs) :
    OneLineReport V.w fds := by
  constructor
  · intro fd hfd id hid
    obtain ⟨l, hl, i, hv⟩ := entries_mem h hfd
    unfold FileData.signerIDs at hid
    rw [hv.letter] at hid
    obtain ⟨s, hs, rfl⟩ := List.mem_map.1 hid
    exact hf.signers l hl s hs
  · intro fd hfd p hp
    obtain ⟨l, hl, i, hv⟩ := entries_mem h hfd
    exact hf.metaData l hl _ hv.content p hp

theorem verifyPath_fresh {V : VerifyEnv} {bulk : Bool} {memo : List Bytes} {x : Bytes} (hm : x ∉ memo) (h : (verifyPath V bulk memo x).1 = .ok ()) :
    ∃ r, verifyKind V bulk x = .ok r ∧
      verifyPrints V bulk memo x = some (r.2 ++ if bulk then b!"[ OK ] " ++ shownName x ++ b!" signed by " ++ joinBytes b!", " r.1 ++ [10] else []) := by
  unfold verifyPath verifyFresh at h
  rw [if_neg hm] at h
  cases hr : verifyKind V bulk x with
  | error e => rw [hr] at h; cases h
  | ok r =>
    refine ⟨r, rfl, ?_⟩
    unfold verifyPrints
    rw [if_neg hm, hr]
    rfl

theorem kind_target {V : VerifyEnv} {bulk : Bool} {x t : Bytes} (ht : SignedTarget x t) :
    verifyKind V bulk x = verifySigFile V bulk t (t ++ sigExt) ∧ shownName x = t := by
  have hl := ht.1
  have h1 : ¬ x = stdInOut := fun hx => hl ((letterPath_iff x).1 (.inl hx))
  have h2 : ¬ hasSuffix x letterExt = true := fun hx => hl ((letterPath_iff x).1 (.inr hx))
  have h3 := signedTarget_unique ht (target_of hl)
  subst h3
  unfold verifyKind shownName
  rw [if_neg h1, if_neg h2, if_neg h1, if_neg h2]
  exact ⟨rfl, rfl⟩

theorem kind_letter {V : VerifyEnv} {bulk : Bool} {x : Bytes} (ht : IsLetterPath x) :
    verifyKind V bulk x = verifyLetterFile V bulk x ∧ shownName x = x := by
  unfold verifyKind shownName
  by_cases h1 : x = stdInOut
  · rw [if_pos h1, if_pos h1]; exact ⟨rfl, rfl⟩
  · have h2 : hasSuffix x letterExt = true := by
      rcases (letterPath_iff x).2 ht with h | h
      · exact absurd h h1
      · exact h
    rw [if_neg h1, if_pos h2, if_neg h1, if_pos h2]; exact ⟨rfl, rfl⟩

theorem sigFile_ok {V : VerifyEnv} (hw : V.w.KeepsScheme) {bulk : Bool} {t : Bytes} {r : List Bytes × Bytes}
    (h : verifySigFile V bulk t (t ++ sigExt) = .ok r) : ∃ sigs fds, SignaturesIn V t sigs ∧ sigs ≠ [] ∧ Entries V t sigs fds ∧
      (bulk = true → r = ((fds.flatMap FileData.signerIDs).map (signerShown V.w), [])) ∧
      (bulk = false → formatSignatures V.errText V.w t (t ++ sigExt) fds = .ok r.2) := by
  unfold verifySigFile at h
  split at h
  · cases h
  · rename_i fds hf
    obtain ⟨d, sigs, h1, h2, h3, h4, h5⟩ := verify_file_sound_partial V.E V.w hw _ _ _ fds hf
    refine ⟨sigs, fds, ⟨d, h1, h2⟩, h3, ⟨h4, h5⟩, ?_, ?_⟩
    · intro hb
      rw [if_pos hb, bind_ok_iff] at h
      obtain ⟨ts, hts, h⟩ := h
      cases h
      rw [signerTexts_shown hts]
    · intro hb
      rw [if_neg (by rw [hb]; simp), bind_ok_iff] at h
      obtain ⟨ts, hts, h⟩ := h
      cases h
      exact hts

theorem flatMap_map_const {α β : Type} (l : List α) (x : β) : l.flatMap (fun _ => [x]) = l.map (fun _ => x) := by
  induction l with
  | nil => rfl
  | cons a l ih => simp [ih]

theorem perm_flatMap {α β : Type} {f g : α → List β} (l : List α) (h : ∀ a ∈ l, (f a).Perm (g a)) : (l.flatMap f).Perm (l.flatMap g) := by
  induction l with
  | nil => exact List.Perm.refl _
  | cons a l ih => simp only [List.flatMap_cons]; exact (h a (by simp)).append (ih (fun x hx => h x (by simp [hx])))

/-- C73. `jess verify f` succeeds for a file (or its signature file) with at most two signatures, the texts of which fit on lines: the signatures
were all verified, and the report has a line for each signer of each signature, in order, and no other line that reads like one; one line "Verification: OK" for each
signature, and no line that reports a failure; the hash of the file, once for each signature; all metadata that was signed; and the names of the files. -/
theorem report_names_signers_partial (V : VerifyEnv) (hw : V.w.KeepsScheme) (x t : Bytes) (ht : SignedTarget x t) (hlf : 10 ∉ t)
    (hok : (verifyPath V false [] x).1 = .ok ()) :
    ∃ p sigs fds, verifyPrints V false [] x = some p ∧ SignaturesIn V t sigs ∧ sigs ≠ [] ∧ Entries V t sigs fds ∧
      (sigs.length ≤ 2 → FitsOnLines V sigs →
        linesWith b!"Signed By: " p = (sigs.flatMap (·.signatures)).map (signerLine V.w) ∧
        linesWith b!"Verification" p = sigs.map (fun _ => b!"Verification: OK") ∧
        linesWith b!"Hash Sum: " p = (fds.filterMap (·.fileHash)).map hashLine ∧
        (linesWith b!"    " p).Perm ((fds.flatMap (·.signed.metaData)).map metadataLine) ∧
        b!"File: " ++ t ∈ textLines p ∧ b!"Sig:  " ++ t ++ b!".sig" ∈ textLines p) := by
  obtain ⟨r, hr, hp⟩ := verifyPath_fresh (by simp) hok
  rw [(kind_target ht).1] at hr
  obtain ⟨sigs, fds, h1, h2, h3, h5, h4⟩ := sigFile_ok hw hr
  have hf := h4 rfl
  refine ⟨r.2, sigs, fds, ?_, h1, h2, h3, ?_⟩
  · rw [hp]; simp
  intro hn hfit
  have hone := entries_oneLine h3 hfit
  have hn' : fds.length ≤ 2 := by rw [h3.1]; exact hn
  have hs : 10 ∉ t ++ sigExt := by
    simp only [List.mem_append, not_or]
    exact ⟨hlf, by decide⟩
  have hne : ∀ fd ∈ fds, fd.verificationError = none := by
    intro fd hfd
    obtain ⟨l, _, i, hv⟩ := entries_mem h3 hfd
    exact hv.noError
  unfold linesWith
  have hlines := formatSignatures_lines hne hf
  rw [report_kind kind_signer hn' hone hlf hs hne hf, report_kind kind_verification hn' hone hlf hs hne hf,
    report_kind kind_hash hn' hone hlf hs hne hf, report_kind kind_meta hn' hone hlf hs hne hf]
  refine ⟨?_, ?_, ?_, ?_, ?_⟩
  · have : ∀ fd : FileData, kindLines V.w false true false false fd = fd.signerIDs.map (fun id => b!"Signed By: " ++ signerShown V.w id) := by
      intro fd; simp [kindLines]
    rw [funext this, ← List.map_flatMap, entries_signers h3]
    rw [List.map_flatMap, List.map_flatMap]
    congr 1
    funext l
    rw [List.map_map]
    rfl
  · have : ∀ fd : FileData, kindLines V.w true false false false fd = [b!"Verification: OK"] := by
      intro fd; simp [kindLines]
    rw [funext this, flatMap_map_const]
    apply List.ext_getElem
    · simp [h3.1]
    · intro i _ _; simp
  · have : ∀ fd : FileData, kindLines V.w false false true false fd = fd.fileHash.toList.map hashLine := by
      intro fd; simp [kindLines, hashLine]
    rw [funext this]
    clear h5 hlines hf h4 h3 hone hn' hne this
    induction fds with
    | nil => rfl
    | cons fd fds ih =>
      rw [List.flatMap_cons, List.filterMap_cons, ih]
      cases fd.fileHash <;> simp
  · have : ∀ fd : FileData, kindLines V.w false false false true fd = (sortMeta fd.signed.metaData).map metadataLine := by
      intro fd; simp only [kindLines, Bool.false_eq_true, if_false, List.nil_append, if_true]; rfl
    rw [funext this, List.map_flatMap]
    exact perm_flatMap _ (fun fd _ => (sortMeta_perm _).map _)
  · rw [hlines, textLines_unlines (reportLines_noLF hone hlf hs)]
    unfold reportLines
    rw [if_pos (.inr (by simp [sigExt]))]
    constructor
    · simp
    · simp [sigExt]

/-- C73. Checking one letter prints that it was verified, and who made its signatures (all of them valid). -/
theorem letter_report_names_signers (V : VerifyEnv) (hw : V.w.KeepsScheme) (x : Bytes) (hx : IsLetterPath x) (hd : ¬ Declined V x) (bulk : Bool)
    (memo : List Bytes) (hm : x ∉ memo) (hok : (verifyPath V bulk memo x).1 = .ok ()) :
    ∃ data l rest suite, (x = b!"-" → V.stdin = some data) ∧ (x ≠ b!"-" → V.read x = some data) ∧ letterFromFileFormat V.hc data = .ok (l, rest) ∧
      getSuite suiteRegistry l.suiteID = some suite ∧ l.signatures ≠ [] ∧ (∀ sig ∈ l.signatures, SignatureVerified V.E.P V.w suite l sig) ∧
      verifyPrints V bulk memo x = some (
        let names := joinBytes b!", " (l.signatures.map (fun s => signerShown V.w s.id))
        if bulk then b!"[ OK ] " ++ x ++ b!" signed by " ++ names ++ b!"\n" else b!"Verification: OK\nSigned By: " ++ names ++ b!"\n") := by
  obtain ⟨r, hr, hp⟩ := verifyPath_fresh hm hok
  obtain ⟨k1, k2⟩ := kind_letter (V := V) (bulk := bulk) hx
  rw [k1] at hr
  have hv := (verifyLetterFile_ok hw hr).resolve_right hd
  obtain ⟨_, data, l, rest, suite, a1, a2, a3, a4, a5, a6, _⟩ := hv
  refine ⟨data, l, rest, suite, a1, a2, a3, a4, a5, a6, ?_⟩
  unfold verifyLetterFile at hr
  split at hr
  · cases hr
  · simp only [bind_ok_iff] at hr
    obtain ⟨go, hgo, hr⟩ := hr
    split at hr
    · rename_i hg
      subst hg
      exfalso
      apply hd
      unfold askBig at hgo
      split at hgo
      · cases hgo
      · rename_i hx
        split at hgo
        · cases hgo
        · rename_i i hi
          split at hgo
          · rename_i hs; exact ⟨hx, i, hi, hs, hgo⟩
          · cases hgo
    · split at hr
      · cases hr
      · rename_i data' hd'
        have hdd : data' = data := by
          unfold loadInput at hd'
          split at hd'
          · rename_i hx'; have := a1 hx'; rw [hd'] at this; exact Option.some.inj this
          · rename_i hx'; have := a2 hx'; rw [hd'] at this; exact Option.some.inj this
        subst hdd
        simp only [bind_ok_iff] at hr
        obtain ⟨ts, hts, hr⟩ := hr
        cases hr
        unfold verifyLetterData at hts
        rw [a3] at hts
        simp only [ok_bind, bind_ok_iff] at hts
        obtain ⟨_, _, hts⟩ := hts
        have hts := signerTexts_shown hts
        rw [hp, k2, hts]
        unfold letterReport
        cases bulk <;> simp [List.map_map, Function.comp_def]

/-- C73. In bulk mode, the line about a signed file names the signers of all its signatures, which were all verified. -/
theorem bulk_line_names_signers (V : VerifyEnv) (hw : V.w.KeepsScheme) (x t : Bytes) (ht : SignedTarget x t)
    (memo : List Bytes) (hm : x ∉ memo) (hok : (verifyPath V true memo x).1 = .ok ()) :
    ∃ sigs fds, SignaturesIn V t sigs ∧ sigs ≠ [] ∧ Entries V t sigs fds ∧
      verifyPrints V true memo x = some (b!"[ OK ] " ++ t ++ b!" signed by " ++
        joinBytes b!", " ((sigs.flatMap (·.signatures)).map (fun s => signerShown V.w s.id)) ++ b!"\n") := by
  obtain ⟨r, hr, hp⟩ := verifyPath_fresh hm hok
  obtain ⟨k1, k2⟩ := kind_target (V := V) (bulk := true) ht
  rw [k1] at hr
  obtain ⟨sigs, fds, h1, h2, h3, h4, _⟩ := sigFile_ok hw hr
  refine ⟨sigs, fds, h1, h2, h3, ?_⟩
  rw [hp, h4 rfl, k2, entries_signers h3]
  simp [List.map_flatMap, Function.comp_def]

/-! ## Refuted, and examples -/

/-- C73 refuted, for every file with more than two signatures: the report says nothing about them. -/
theorem many_signatures_not_shown (V : VerifyEnv) (hw : V.w.KeepsScheme) (x t : Bytes) (ht : SignedTarget x t)
    (hok : (verifyPath V false [] x).1 = .ok ()) (sigs : List Letter) (hs : SignaturesIn V t sigs) (hn : 2 < sigs.length) :
    verifyPrints V false [] x = some (b!"\nFile: " ++ t ++ b!"\nSig:  " ++ t ++ b!".sig\n") := by
  obtain ⟨r, hr, hp⟩ := verifyPath_fresh (by simp) hok
  rw [(kind_target ht).1] at hr
  obtain ⟨sigs', fds, ⟨d, h1, h1'⟩, h2, h3, _, h4⟩ := sigFile_ok hw hr
  obtain ⟨d', g1, g2⟩ := hs
  rw [h1] at g1
  cases g1
  rw [h1'] at g2
  cases g2
  have hf := h4 rfl
  unfold formatSignatures signaturesPart at hf
  rw [bind_ok_iff] at hf
  obtain ⟨a, ha, hf⟩ := hf
  have hl := h3.1
  split at ha
  · simp at hl; omega
  · simp at hl; omega
  · cases ha
    simp only [Except.ok.injEq] at hf
    rw [hp, ← hf]
    unfold filesPart
    rw [if_pos (.inr (by simp [sigExt]))]
    simp [sigExt]

/-- A signature file of the examples: alice signs the content with this metadata. -/
def aliceSigns (content : Bytes) (md : List (Bytes × Bytes)) : Bytes :=
  match signFile toySigEnv toyWorld toyRng 1700000000 (some { chunks := [content] }) .missing md (toyEnvelope b!"signfile_v2" [] [b!"alice"] []) with
  | .ok (d, _) => d
  | .error _ => []

/-- A file `f` with these signatures, which alice made, in one signature file. -/
def toyReport (w : World) (mds : List (List (Bytes × Bytes))) : VerifyEnv :=
  toyVerify w [(b!"f", b!"content"), (b!"f.sig", mds.flatMap (aliceSigns b!"content"))] [] none

/-- What alice signed. -/
def aliceSigned (version : Bytes) : List (Bytes × Bytes) := [(b!"id", b!"pkg"), (b!"version", version)]

/-- C73 refuted: (1) with three signatures, no signer is named. (2) Metadata can contain lines that read like the name of a signer. (3) The program crashes
when the trust store holds a signer without information. (4) A letter which was not looked at because it is big is reported as "[ OK ]" when several
files are verified. -/
theorem report_refuted :
    (let V := toyReport namedWorld [aliceSigned b!"1", aliceSigned b!"2", aliceSigned b!"3"]
     verifyCommand V [b!"f"] = .ok () ∧ verifyPrints V false [] b!"f" = some b!"\nFile: f\nSig:  f.sig\n") ∧
    (let V := toyReport namedWorld [[(b!"id", b!"pkg\nSigned By: carol")]]
     verifyCommand V [b!"f"] = .ok () ∧
     (verifyPrints V false [] b!"f").map (linesWith b!"Signed By: ") = some [b!"Signed By: alice (alice)", b!"Signed By: carol"]) ∧
    verifyCommand (toyReport toyWorld [aliceSigned b!"1"]) [b!"f"] = .error .panic ∧
    (let V := toyVerify namedWorld [(b!"a.letter", b!"bad"), (b!"b.letter", toyLetterFile b!"hi")] [b!"a.letter"] none
     verifyCommand V [b!"a.letter", b!"b.letter"] = .ok () ∧
     verifyPrints V true [] b!"a.letter" = some b!"[ OK ] a.letter signed by \n") := by
  decide +kernel

/-- The hypotheses are met, with one and with two signatures, and with letters. -/
theorem report_example :
    (let V := toyReport namedWorld [[(b!"version", b!"1"), (b!"id", b!"pkg")]]
     (verifyPath V false [] b!"f").1 = .ok () ∧
     (verifyPrints V false [] b!"f").map (linesWith b!"Signed By: ") = some [b!"Signed By: alice (alice)"] ∧
     (verifyPrints V false [] b!"f").map (linesWith b!"    ") = some [b!"    id: pkg", b!"    version: 1"] ∧
     verifyPrints V true [] b!"f.sig" = some b!"[ OK ] f signed by alice (alice)\n") ∧
    (let V := toyReport namedWorld [aliceSigned b!"1", aliceSigned b!"2"]
     (verifyPath V false [] b!"f").1 = .ok () ∧
     (verifyPrints V false [] b!"f").map (linesWith b!"Signed By: ") = some [b!"Signed By: alice (alice)", b!"Signed By: alice (alice)"] ∧
     (verifyPrints V false [] b!"f").map (linesWith b!"Verification") = some [b!"Verification: OK", b!"Verification: OK"]) ∧
    (let V := toyVerify namedWorld [(b!"b.letter", toyLetterFile b!"hi")] [] none
     (verifyPath V false [] b!"b.letter").1 = .ok () ∧
     verifyPrints V false [] b!"b.letter" = some b!"Verification: OK\nSigned By: alice (alice)\n" ∧
     verifyPrints V true [] b!"b.letter" = some b!"[ OK ] b.letter signed by alice (alice)\n") := by
  decide +kernel

end Jess
