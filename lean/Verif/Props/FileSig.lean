import Verif.Model.FileSig
import Verif.Props.Armor
import Verif.Props.Signatures
import Verif.Props.LHash
import Verif.Props.FileText
import Verif.Props.CloseOpen

/-! # C41, C42: signing and verifying files -/

namespace Jess

open Requirements

/-! ## C41 -/

/-- The data of the letter is authenticated (specification): it carries signatures, which are all valid for the public keys the trust
store holds for the stated signers; or it was decrypted with a key derived from a shared secret (key or password). -/
def Authenticated (E : SigEnv) (w : World) (l : Letter) : Prop :=
  ∃ s : Session, getSuite suiteRegistry l.suiteID = some s.suite ∧
    ((l.signatures ≠ [] ∧ ∀ sig ∈ l.signatures, SignatureVerified E.P w s.suite l sig) ∨
     (∃ sl ∈ l.keys, sl.id ≠ [] ∧ ∃ secret d, SharedSecret E.P w s.suite l sl secret ∧ DecryptedWith E.P s l secret d))

/-- What an entry without verification error means (specification): it is the content of an authenticated letter `l`, has all required
metadata, and the hash it contains is the hash of what was read from the data source. -/
structure EntryVerified (E : SigEnv) (w : World) (read : Option ReadAll) (required : List (Bytes × Bytes)) (l : Letter) (fd : FileData) : Prop where
  letter : fd.signature = some l
  noError : fd.verificationError = none
  content : E.C.loadFile l.data = .ok fd.signed
  auth : Authenticated E w l
  required : ∀ kv ∈ required, fd.signed.metaData.lookup kv.1 = some kv.2
  hash : ∃ h r, lhashLoad fd.signed.labeledHash = .ok h ∧ fd.fileHash = some h ∧ read = some r ∧ r.failed = false ∧
    h.digest = E.H h.alg r.chunks.flatten

theorem checkMeta_ok {metaData required : List (Bytes × Bytes)} :
    checkMeta metaData required = .ok () ↔ ∀ kv ∈ required, metaData.lookup kv.1 = some kv.2 := by
  induction required with
  | nil => simp [checkMeta]
  | cons kv req ih =>
    obtain ⟨k, v⟩ := kv
    unfold checkMeta
    cases hl : metaData.lookup k with
    | none => simp [hl]
    | some x =>
      by_cases hx : x = v
      · subst hx; simp [hl, ih]
      · simp [hl, hx]

theorem foldl_append_flatten (l : List Bytes) (acc : Bytes) : l.foldl (· ++ ·) acc = acc ++ l.flatten := by
  induction l generalizing acc with
  | nil => simp
  | cons a l ih => simp [ih]

theorem hashSource_ok {H : Hashes} {alg : Nat} {src : Option ReadAll} {o : LabeledHash} (h : hashSource H alg src = .ok o) :
    ∃ r, src = some r ∧ r.failed = false ∧ o = { alg := alg, digest := H alg r.chunks.flatten } ∧ ∃ n, lhashSize alg = some n := by
  unfold hashSource at h
  split at h
  · cases h
  · rename_i r
    unfold lhashReader at h
    split at h
    · cases h
    · rename_i n hn
      split at h
      · cases h
      · rename_i hf
        cases h
        exact ⟨r, rfl, by simpa using hf, by rw [foldl_append_flatten]; rfl, n, hn⟩

theorem fileSig_sender : SenderAuthentication ∈ fileSigReqs := by decide

theorem verifyFileData_ok {E : SigEnv} {w : World} {l : Letter} {required : List (Bytes × Bytes)} {fd : FileData}
    (h : verifyFileData E w l required = (some fd, none)) :
    ∃ d x hh, E.C.loadFile l.data = .ok x ∧ l.open E.P E.cfg w suiteRegistry (some fileSigReqs) = .ok d ∧
      (∀ kv ∈ required, x.metaData.lookup kv.1 = some kv.2) ∧ lhashLoad x.labeledHash = .ok hh ∧
      fd = { signed := x, signature := some l, fileHash := some hh } := by
  unfold verifyFileData at h
  split at h
  · simp at h
  · rename_i x hx
    split at h
    · simp at h
    · rename_i d hd
      split at h
      · simp at h
      · rename_i u hm
        split at h
        · simp at h
        · rename_i hh hl
          simp only [Prod.mk.injEq, Option.some.injEq, and_true] at h
          exact ⟨d, x, hh, hx, hd, checkMeta_ok.mp hm, hl, h.symm⟩

theorem verifyOne_ok {E : SigEnv} {w : World} (hw : w.KeepsScheme) {src : Option ReadAll} {required : List (Bytes × Bytes)} {l : Letter}
    {fd : FileData} {r : Bool} (h : verifyOne E w src required l = (some fd, none, r)) : EntryVerified E w src required l fd := by
  unfold verifyOne at h
  split at h
  · simp at h
  · simp at h
  · rename_i fd' hv
    obtain ⟨d, x, hh, h1, h2, h3, h4, rfl⟩ := verifyFileData_ok hv
    simp only at h
    split at h
    · simp at h
    · rename_i o ho
      obtain ⟨ra, g1, g2, rfl, _⟩ := hashSource_ok ho
      split at h
      · rename_i heq
        simp only [Prod.mk.injEq, Option.some.injEq, true_and] at h
        obtain ⟨rfl, _⟩ := h
        obtain ⟨s, hs, hor⟩ := open_sender_authenticated E.P E.cfg w hw (some fileSigReqs) l d fileSig_sender h2
        refine ⟨rfl, rfl, h1, ⟨s, hs, ?_⟩, h3, hh, ra, h4, rfl, g1, g2, ?_⟩
        · rcases hor with h | ⟨sl, a1, a2, sec, a3, a4⟩
          · exact .inl h
          · exact .inr ⟨sl, a1, a2, sec, d, a3, a4⟩
        · unfold LabeledHash.equal at heq
          simpa using heq
      · simp at h

theorem verifyOne_err {E : SigEnv} {w : World} {src : Option ReadAll} {required : List (Bytes × Bytes)} {l : Letter} {x : Option FileData}
    {e : Option Err} {r : Bool} (h : verifyOne E w src required l = (x, e, r)) :
    (x = none → e ≠ none) ∧ (∀ fd e', x = some fd → e = some e' → fd.verificationError ≠ none) := by
  unfold verifyOne at h
  split at h
  · rename_i e0 hv
    simp only [Prod.mk.injEq] at h
    obtain ⟨rfl, rfl, _⟩ := h
    refine ⟨fun _ he => ?_, by simp⟩
    subst he
    unfold verifyFileData at hv
    split at hv
    · simp at hv
    · split at hv
      · simp at hv
      · split at hv
        · simp at hv
        · split at hv <;> simp at hv
  · simp only [Prod.mk.injEq] at h
    obtain ⟨rfl, rfl, _⟩ := h
    simp
  · split at h
    · simp only [Prod.mk.injEq] at h
      obtain ⟨rfl, rfl, _⟩ := h
      simp
    · split at h
      · simp only [Prod.mk.injEq] at h
        obtain ⟨rfl, rfl, _⟩ := h
        simp
      · split at h
        · simp only [Prod.mk.injEq] at h
          obtain ⟨rfl, rfl, _⟩ := h
          simp
        · simp only [Prod.mk.injEq] at h
          obtain ⟨rfl, rfl, _⟩ := h
          simp

theorem verifyLoop_some {E : SigEnv} {w : World} {src : DataSource} {required : List (Bytes × Bytes)} :
    ∀ (ls : List Letter) (n : Nat) (good bad : List FileData) (e : Err), (verifyLoop E w src required ls n good bad (some e)).2 ≠ none := by
  intro ls
  induction ls with
  | nil => intro n good bad e; simp [verifyLoop]
  | cons l ls ih =>
    intro n good bad e
    rw [verifyLoop]
    split
    · exact ih _ _ _ _
    · exact ih _ _ _ _
    · rename_i e' r hv
      cases e' with
      | none => exact absurd rfl ((verifyOne_err hv).1 rfl)
      | some e' => exact ih _ _ _ _

/-- No error in the loop: every signature verified. -/
theorem verifyLoop_ok {E : SigEnv} {w : World} (hw : w.KeepsScheme) {src : DataSource} {required : List (Bytes × Bytes)} :
    ∀ (ls : List Letter) (n : Nat) (good bad : List FileData) (last : Option Err),
      (verifyLoop E w src required ls n good bad last).2 = none →
      last = none ∧ ∃ new : List FileData, (verifyLoop E w src required ls n good bad last).1 = good ++ new ++ bad ∧
        new.length = ls.length ∧
        ∀ (i : Nat) (l : Letter) (fd : FileData), ls[i]? = some l → new[i]? = some fd → EntryVerified E w (src (n + i)) required l fd := by
  intro ls
  induction ls with
  | nil => intro n good bad last h; exact ⟨h, [], by simp [verifyLoop]⟩
  | cons l ls ih =>
    intro n good bad last h
    rw [verifyLoop] at h ⊢
    split at h
    · rename_i fd r hv
      obtain ⟨h1, new, h2, h3, h4⟩ := ih _ _ _ _ h
      refine ⟨h1, fd :: new, ?_, by simp [h3], ?_⟩
      · simpa using h2
      · intro i l' fd' hl hf
        cases i with
        | zero =>
          simp only [List.getElem?_cons_zero, Option.some.injEq] at hl hf
          subst hl hf
          exact verifyOne_ok hw hv
        | succ i =>
          simp only [List.getElem?_cons_succ] at hl hf
          have := h4 i l' fd' hl hf
          rwa [Nat.add_right_comm] at this
    · exact absurd h (verifyLoop_some _ _ _ _ _)
    · rename_i e r hv
      cases e with
      | none => exact absurd rfl ((verifyOne_err hv).1 rfl)
      | some e => exact absurd h (verifyLoop_some _ _ _ _ _)

/-- Every entry without error is verified, for one of the letters. -/
theorem verifyLoop_entries {E : SigEnv} {w : World} (hw : w.KeepsScheme) {src : DataSource} {required : List (Bytes × Bytes)} :
    ∀ (ls : List Letter) (n : Nat) (good bad : List FileData) (last : Option Err) (fd : FileData),
      fd ∈ (verifyLoop E w src required ls n good bad last).1 → fd.verificationError = none →
      fd ∈ good ∨ fd ∈ bad ∨ ∃ (l : Letter) (i : Nat), l ∈ ls ∧ EntryVerified E w (src i) required l fd := by
  intro ls
  induction ls with
  | nil =>
    intro n good bad last fd h _
    simp only [verifyLoop, List.mem_append] at h
    rcases h with h | h
    · exact .inl h
    · exact .inr (.inl h)
  | cons l ls ih =>
    intro n good bad last fd h he
    rw [verifyLoop] at h
    split at h
    · rename_i fd' r hv
      rcases ih _ _ _ _ _ h he with h | h | ⟨l', i, h1, h2⟩
      · simp only [List.mem_append, List.mem_singleton] at h
        rcases h with h | rfl
        · exact .inl h
        · exact .inr (.inr ⟨l, n, by simp, verifyOne_ok hw hv⟩)
      · exact .inr (.inl h)
      · exact .inr (.inr ⟨l', i, by simp [h1], h2⟩)
    · rename_i fd' e' r hv
      rcases ih _ _ _ _ _ h he with h | h | ⟨l', i, h1, h2⟩
      · exact .inl h
      · simp only [List.mem_append, List.mem_singleton] at h
        rcases h with h | rfl
        · exact .inr (.inl h)
        · exact absurd he ((verifyOne_err hv).2 _ _ rfl rfl)
      · exact .inr (.inr ⟨l', i, by simp [h1], h2⟩)
    · rcases ih _ _ _ _ _ h he with h | h | ⟨l', i, h1, h2⟩
      · exact .inl h
      · exact .inr (.inl h)
      · exact .inr (.inr ⟨l', i, by simp [h1], h2⟩)

/-- C41. `VerifyFile` without an error: the signature file could be read and parsed completely, it contains signatures, and for every
signature there is a verified entry, in order. `src i` is what is read for the i-th signature: see `verify_file_sound` for a file. -/
theorem verify_file_sound_partial (E : SigEnv) (w : World) (hw : w.KeepsScheme) (src : DataSource) (sigFile : Option Bytes)
    (required : List (Bytes × Bytes)) (fds : List FileData) (h : verifyFile E w src sigFile required = (fds, none)) :
    ∃ (d : Bytes) (sigs : List Letter), sigFile = some d ∧ parseSigFile E.C.toLetterCodec d = (sigs, none) ∧ sigs ≠ [] ∧
      fds.length = sigs.length ∧
      ∀ (i : Nat) (l : Letter) (fd : FileData), sigs[i]? = some l → fds[i]? = some fd → EntryVerified E w (src i) required l fd := by
  unfold verifyFile at h
  split at h
  · simp at h
  · rename_i d
    split at h
    · simp at h
    · simp at h
    · rename_i sigs warn hne1 hne2 hp
      obtain ⟨h1, new, h2, h3, h4⟩ := verifyLoop_ok hw sigs 0 [] [] warn (by rw [h])
      rw [h] at h2
      simp only [List.nil_append, List.append_nil] at h2
      subst h1 h2
      refine ⟨d, sigs, rfl, hp, ?_, h3, ?_⟩
      · intro hs
        subst hs
        exact hne2 rfl rfl
      · intro i l fd hl hf
        have := h4 i l fd hl hf
        rwa [Nat.zero_add] at this

/-- C41, for a data file with content `content`: at least one signature was found, and every returned entry is verified for that
content. -/
theorem verify_file_sound (E : SigEnv) (w : World) (hw : w.KeepsScheme) (content : Bytes) (sigFile : Option Bytes)
    (required : List (Bytes × Bytes)) (fds : List FileData) (h : verifyFile E w (DataSource.file content) sigFile required = (fds, none)) :
    fds ≠ [] ∧ ∀ fd ∈ fds, ∃ l, fd.signature = some l ∧ E.C.loadFile l.data = .ok fd.signed ∧ Authenticated E w l ∧
      (∀ kv ∈ required, fd.signed.metaData.lookup kv.1 = some kv.2) ∧
      ∃ hh, lhashLoad fd.signed.labeledHash = .ok hh ∧ fd.fileHash = some hh ∧ hh.digest = E.H hh.alg content := by
  obtain ⟨d, sigs, _, _, h3, h4, h5⟩ := verify_file_sound_partial E w hw _ sigFile required fds h
  refine ⟨?_, ?_⟩
  · intro hf; subst hf
    exact h3 (List.length_eq_zero_iff.mp h4.symm)
  · intro fd hfd
    obtain ⟨i, hi⟩ := List.mem_iff_getElem?.mp hfd
    have hlt : i < fds.length := (List.getElem?_eq_some_iff.mp hi).1
    obtain ⟨l, hl⟩ : ∃ l, sigs[i]? = some l := ⟨sigs[i]'(by omega), List.getElem?_eq_getElem (by omega)⟩
    have hv := h5 i l fd hl hi
    obtain ⟨hh, r, g1, g2, g3, g4, g5⟩ := hv.hash
    refine ⟨l, hv.letter, hv.content, hv.auth, hv.required, hh, g1, g2, ?_⟩
    simp only [DataSource.file, Option.some.injEq] at g3
    subst g3
    simpa using g5

/-- C41. Even when `VerifyFile` returns an error: an entry without verification error is verified, for one of the signatures in the
file. -/
theorem verify_file_entry_sound (E : SigEnv) (w : World) (hw : w.KeepsScheme) (src : DataSource) (sigFile : Option Bytes)
    (required : List (Bytes × Bytes)) (fd : FileData) (hm : fd ∈ (verifyFile E w src sigFile required).1) (he : fd.verificationError = none) :
    ∃ (d : Bytes) (l : Letter) (i : Nat), sigFile = some d ∧ l ∈ (parseSigFile E.C.toLetterCodec d).1 ∧ EntryVerified E w (src i) required l fd := by
  unfold verifyFile at hm
  split at hm
  · simp at hm
  · rename_i d
    split at hm
    · simp at hm
    · simp at hm
    · rename_i sigs warn _ _ hp
      rcases verifyLoop_entries hw sigs 0 [] [] warn fd hm he with h | h | ⟨l, i, h1, h2⟩
      · simp at h
      · simp at h
      · exact ⟨d, l, i, rfl, by rw [hp]; exact h1, h2⟩

/-! ## C42 -/

/-- The suites for signing without encryption. -/
def signSuites : List Bytes := [b!"sign_v1", b!"signfile_v1", b!"sign_v2", b!"signfile_v2"]

theorem signSuite_tools : ∀ id ∈ signSuites, ∃ su, getSuite suiteRegistry id = some su ∧
    (∀ tid ∈ su.tools, ∃ t, getTool (parseToolID tid).1 = some t ∧ t.purpose = .signing) ∧
    (∀ a ∈ fileSigReqs, a ∈ su.provides) := by
  intro id hid
  have key : (signSuites.all fun id =>
      match getSuite suiteRegistry id with
      | none => false
      | some su => (su.tools.all fun tid =>
          match getTool (parseToolID tid).1 with
          | none => false
          | some t => decide (t.purpose = .signing)) && (fileSigReqs.all fun a => su.provides.contains a)) = true := by decide +kernel
  have := List.all_eq_true.mp key id hid
  split at this
  · cases this
  · rename_i su hsu
    simp only [Bool.and_eq_true, List.all_eq_true] at this
    refine ⟨su, hsu, fun tid ht => ?_, fun a ha => by simpa using this.2 a ha⟩
    have h1 := this.1 tid ht
    split at h1
    · cases h1
    · rename_i t hg
      exact ⟨t, hg, by simpa using h1⟩

/-- The envelope has not loaded its suite yet, or has loaded the one it names. -/
def Envelope.SuiteLoaded (e : Envelope) : Prop := e.suite = none ∨ e.suite = getSuite suiteRegistry e.suiteID

theorem loadSuite_loaded {e e' : Envelope} {su : Suite} (he : e.SuiteLoaded) (h : loadSuite suiteRegistry e = .ok (e', su)) :
    getSuite suiteRegistry e.suiteID = some su ∧ e' = { e with suite := some su } := by
  unfold loadSuite at h
  split at h
  · rename_i s0 hs0
    cases h
    rcases he with he | he
    · rw [he] at hs0; cases hs0
    · rw [← he, hs0]
      refine ⟨rfl, ?_⟩
      cases e; simp_all
  · split at h
    · cases h
    · rename_i s0 hs0
      cases h
      exact ⟨hs0, rfl⟩

/-- Loading the suite beforehand makes no difference. -/
theorem correspondence_loaded {P : Prims} {cfg : Config} {w : World} {e e' : Envelope} {su : Suite} (he : e.SuiteLoaded)
    (h : loadSuite suiteRegistry e = .ok (e', su)) :
    correspondence P cfg w suiteRegistry e' = correspondence P cfg w suiteRegistry { e with suite := none } := by
  obtain ⟨h1, rfl⟩ := loadSuite_loaded he h
  simp only [correspondence, loadSuite, h1, ok_bind]

theorem close_plain {P : Prims} {cfg : Config} {rng : Rng} {s : Session} (hk : s.kdf = none) {data : Bytes} {l : Letter}
    (h : (s.close P cfg rng s.initState data).2 = .ok l) : l.data = data := by
  unfold Session.close at h
  split at h
  · cases h
  · simp only [hk] at h
    split at h
    · cases h
    · unfold signLetter at h
      split at h
      · cases h; rfl
      · simp only at h
        split at h
        · cases h
        · cases h; rfl

theorem sign_session {P : Prims} {cfg : Config} {w : World} {e : Envelope} {s : Session} (hid : e.suiteID ∈ signSuites)
    (hs : correspondence P cfg w suiteRegistry { e with suite := none } = .ok s) :
    s.kdf = none ∧ s.env.secrets = [] ∧ s.env.recipients = [] ∧ (∀ a ∈ fileSigReqs, a ∈ s.suite.provides) := by
  obtain ⟨su, h1, h2, h3⟩ := signSuite_tools _ hid
  simp only [correspondence, loadSuite, h1, ok_bind, bind_ok_iff] at hs
  obtain ⟨e2, hp, hn⟩ := hs
  have hsu : s.suite = su := by
    obtain ⟨g1, g2⟩ := newSession_env hn
    simp only [prepareSignets, bind_ok_iff] at hp
    obtain ⟨a, _, b, _, c, _, hx⟩ := hp
    cases hx
    simpa using g2.symm
  have hall : ∀ t ∈ s.insts, t.info.purpose = .signing := by
    intro t ht
    obtain ⟨tid, g1, g2⟩ := inst_tool hn ht
    rw [hsu] at g1
    obtain ⟨t', g3, g4⟩ := h2 tid g1
    rw [(makeInst_spec g2).1] at g3
    cases g3
    exact g4
  have hk : s.kdf = none := (kdf_none_iff s).mpr (fun t ht => by rw [hall t ht]; decide)
  have hmem : s.suite ∈ suiteRegistry := by rw [hsu]; exact List.mem_of_find?_eq_some h1
  have hnd := (registered_session hn hmem).1
  have hu := no_signet_ignored P cfg _ s hn hnd
  obtain ⟨k1, k2, _⟩ := no_kdf_no_keys hn hnd hk
  refine ⟨hk, ?_, ?_, ?_⟩
  · refine List.eq_nil_iff_forall_not_mem.mpr fun k hk => ?_
    have f : ∀ sch, sch ≠ [] → k.scheme = sch → ofScheme s.env.secrets sch ≠ [] := by
      intro sch hne hsch h0
      have := (mem_ofScheme (l := s.env.secrets) hne k).mpr ⟨hk, hsch⟩
      rw [h0] at this; simp at this
    rcases hu.secrets k hk with h | ⟨h, _⟩
    · exact f _ (by decide) h k1
    · exact f _ (by decide) h k2
  · refine List.eq_nil_iff_forall_not_mem.mpr fun k hk => ?_
    obtain ⟨t, ht, hp, _⟩ := hu.recipients k hk
    rw [hall t ht] at hp
    revert hp; decide
  · rw [hsu]; exact h3

/-- The signature file can take a signature (specification): it does not exist, or no armor start is left in it when its complete
signatures are removed. -/
def SigFileState.Usable : SigFileState → Prop
  | .missing => True
  | .content old => NotIn armorStart (removeSigs old.length old)
  | .unreadable => False

theorem removeSigs_section (C : LetterCodec) (hC : C.Sound) (l : Letter) (sec : Bytes) (h : makeSigSection C l = .ok sec) :
    removeSigs sec.length sec = [] := by
  obtain ⟨m, rfl, hm, _⟩ := section_spec C hC l sec h
  have := removeSigs_chain [] m (armorStart ++ (10 :: m) ++ armorEnd).length (by simpa using hm) (by simp [chain])
  simpa [chain] using this

theorem notIn_nil : NotIn armorStart [] := by
  intro q r e
  have := congrArg List.length e
  simp [armorStart] at this

/-- What `signFile` did. -/
theorem signFile_ok {E : SigEnv} {w : World} {rng : Rng} {now : Nat} {src : Option ReadAll} {sf : SigFileState}
    {metaData : List (Bytes × Bytes)} {e : Envelope} {out : Bytes} {fd : FileData}
    (h : signFile E w rng now src sf metaData e = .ok (out, fd)) :
    ∃ e' su alg hh s d l, loadSuite suiteRegistry e = .ok (e', su) ∧ suiteHash su = some alg ∧ hashSource E.H alg src = .ok hh ∧
      correspondence E.P E.cfg w suiteRegistry e' = .ok s ∧
      E.C.dumpFile { labeledHash := hh.bytes, signedAt := now, metaData := metaData } = .ok d ∧
      (s.close E.P E.cfg rng s.initState d).2 = .ok l ∧
      fd = { signed := { labeledHash := hh.bytes, signedAt := now, metaData := metaData }, fileHash := some hh } ∧
      ((sf = .missing ∧ makeSigSection E.C.toLetterCodec l = .ok out) ∨
       (∃ old, sf = .content old ∧ addToSigFile E.C.toLetterCodec l old true = .ok out)) := by
  simp only [signFile, bind_ok_iff] at h
  obtain ⟨⟨e', su⟩, h1, h⟩ := h
  simp only at h
  split at h
  · cases h
  · rename_i alg halg
    simp only [bind_ok_iff] at h
    obtain ⟨hh, h2, ⟨l, fd'⟩, h3, h⟩ := h
    simp only [signFileData, bind_ok_iff] at h3
    obtain ⟨s, g1, _, _, d, g3, l', g4, g5⟩ := h3
    cases g5
    refine ⟨e', su, alg, hh, s, d, l, h1, halg, h2, g1, g3, g4, ?_⟩
    split at h
    · cases h
    · simp only [bind_ok_iff] at h
      obtain ⟨dd, k1, k2⟩ := h
      cases k2
      exact ⟨rfl, .inl ⟨rfl, k1⟩⟩
    · rename_i old
      simp only [bind_ok_iff] at h
      obtain ⟨dd, k1, k2⟩ := h
      cases k2
      exact ⟨rfl, .inr ⟨old, rfl, k1⟩⟩

/-- The letter behind `sign_verify_file_partial`: the one that the session closed. -/
theorem sign_verify_letter (E : SigEnv) (hC : E.C.Sound) (hH : E.H.Sized) (pair : Bytes → Bytes → Bytes → Prop)
    (hP : E.P.Correct pair) (ws wv : World) (rng : Rng) (now : Nat) (r : ReadAll) (sf : SigFileState) (hsf : sf.Usable)
    (metaData : List (Bytes × Bytes)) (e : Envelope) (he : e.SuiteLoaded) (hev : e.version = 1) (hid : e.suiteID ∈ signSuites)
    (hlev : demandedLevel E.cfg 0 ≤ demandedLevel E.cfg e.securityLevel)
    (hsend : ∀ s, correspondence E.P E.cfg ws suiteRegistry { e with suite := none } = .ok s →
      ∀ k ∈ s.env.senders, k.id ≠ [] ∧ ∃ pub priv, k.loadedPub = some pub ∧ k.loadedPriv = some priv ∧ pair k.scheme pub priv ∧
        PublicKeyOf E.P wv k.id k.scheme pub)
    (out : Bytes) (fd : FileData) (h : signFile E ws rng now (some r) sf metaData e = .ok (out, fd))
    (required : List (Bytes × Bytes)) (hreq : ∀ kv ∈ required, metaData.lookup kv.1 = some kv.2)
    (src : DataSource) (hsrc : src = DataSource.file r.chunks.flatten ∨ src = DataSource.stdin r.chunks.flatten) :
    fd.signed.metaData = metaData ∧ fd.signed.signedAt = now ∧ (SigFileState.content out).Usable ∧
    ∃ s d l, correspondence E.P E.cfg ws suiteRegistry { e with suite := none } = .ok s ∧ E.C.dumpFile fd.signed = .ok d ∧
      (s.close E.P E.cfg rng s.initState d).2 = .ok l ∧ l.data = d ∧ parseSigFile E.C.toLetterCodec out = ([l], none) ∧
      verifyFile E wv src (some out) required = ([{ fd with signature := some l }], none) := by
  obtain ⟨e', su, alg, hh, s, d, l, h1, h2, h3, h4, h5, h6, rfl, h8⟩ := signFile_ok h
  have hcor := correspondence_loaded (P := E.P) (cfg := E.cfg) (w := ws) he h1
  rw [h4] at hcor
  obtain ⟨k1, k2, k3, k4⟩ := sign_session hid hcor.symm
  have hsn := hsend s hcor.symm
  have hld := close_plain k1 h6
  -- the letter opens
  have hopen : l.open E.P E.cfg wv suiteRegistry (some fileSigReqs) = .ok d := by
    refine close_open_roundtrip_partial E.P pair hP E.cfg ws wv rng { e with suite := none } rfl hev s hcor.symm hlev ?_ ?_ ?_ (some fileSigReqs) k4 d l h6
    · rw [k2, k3]
      exact ⟨by simp, fun k hk => (hsn k hk).1, by simp⟩
    · rw [k2]; simp
    · refine ⟨by rw [k2]; simp, by rw [k2]; simp, fun k hk => (hsn k hk).2, by rw [k3]; simp⟩
  -- the hash
  obtain ⟨r', g1, g2, g3, n, g4⟩ := hashSource_ok h3
  cases g1
  have hval : hh.Valid := by
    rw [valid_iff, g3]
    simp only
    rw [g4, hH alg n g4]
  have hload := lhash_round_trip hh hval
  -- the signature file
  have hfile : parseSigFile E.C.toLetterCodec out = ([l], none) ∧ (SigFileState.content out).Usable := by
    rcases h8 with ⟨_, hm⟩ | ⟨old, rfl, hm⟩
    · refine ⟨armor_section _ hC.letter l out hm, ?_⟩
      show NotIn armorStart (removeSigs out.length out)
      rw [removeSigs_section _ hC.letter l out hm]
      exact notIn_nil
    · refine ⟨(armor_replace_partial _ hC.letter l old out hsf hm).2, ?_⟩
      show NotIn armorStart (removeSigs out.length out)
      have : addAll E.C.toLetterCodec [l] (removeSigs old.length old) = .ok out := by
        simp only [addAll, bind_ok_iff]
        refine ⟨out, ?_, rfl⟩
        unfold addToSigFile at hm ⊢
        rw [bind_ok_iff] at hm ⊢
        obtain ⟨sec, hs, hm⟩ := hm
        exact ⟨sec, hs, by simpa using hm⟩
      rw [addAll_removed _ hC.letter _ _ _ hsf this]
      exact notIn_append_lf (by decide) armorStart_ne hsf
  refine ⟨rfl, rfl, hfile.2, s, d, l, hcor.symm, h5, h6, hld, hfile.1, ?_⟩
  have hfd : verifyFileData E wv l required =
      (some { signed := { labeledHash := hh.bytes, signedAt := now, metaData := metaData }, signature := some l, fileHash := some hh }, none) := by
    unfold verifyFileData
    rw [hld, hC.file _ _ h5]
    simp only [hopen, checkMeta_ok.mpr hreq, hload]
  have hhs : hashSource E.H hh.alg (src 0) = .ok hh := by
    have e0 : src 0 = some { chunks := [r.chunks.flatten] } := by
      rcases hsrc with rfl | rfl
      · rfl
      · rfl
    rw [e0, g3]
    simp only [hashSource, lhashReader, g4, Bool.false_eq_true, if_false, List.foldl_cons, List.foldl_nil, List.nil_append]
  simp only [verifyFile, hfile.1, verifyLoop, verifyOne, hfd, hhs]
  simp [LabeledHash.equal, verifyLoop]

/-- C42. What `SignFile` wrote is accepted by `VerifyFile`, by anyone who has the public keys of the signers, for the same content of
the data file (or of standard input) and for any required metadata that was signed; the verifier gets what was signed. And the
signature file can take the next signature. This holds for the suites that only sign; it needs that the signature file did not have
text with an incomplete signature block (both are necessary, see below). -/
theorem sign_verify_file_partial (E : SigEnv) (hC : E.C.Sound) (hH : E.H.Sized) (pair : Bytes → Bytes → Bytes → Prop)
    (hP : E.P.Correct pair) (ws wv : World) (rng : Rng) (now : Nat) (r : ReadAll) (sf : SigFileState) (hsf : sf.Usable)
    (metaData : List (Bytes × Bytes)) (e : Envelope) (he : e.SuiteLoaded) (hev : e.version = 1) (hid : e.suiteID ∈ signSuites)
    (hlev : demandedLevel E.cfg 0 ≤ demandedLevel E.cfg e.securityLevel)
    (hsend : ∀ s, correspondence E.P E.cfg ws suiteRegistry { e with suite := none } = .ok s →
      ∀ k ∈ s.env.senders, k.id ≠ [] ∧ ∃ pub priv, k.loadedPub = some pub ∧ k.loadedPriv = some priv ∧ pair k.scheme pub priv ∧
        PublicKeyOf E.P wv k.id k.scheme pub)
    (out : Bytes) (fd : FileData) (h : signFile E ws rng now (some r) sf metaData e = .ok (out, fd))
    (required : List (Bytes × Bytes)) (hreq : ∀ kv ∈ required, metaData.lookup kv.1 = some kv.2)
    (src : DataSource) (hsrc : src = DataSource.file r.chunks.flatten ∨ src = DataSource.stdin r.chunks.flatten) :
    fd.signed.metaData = metaData ∧ fd.signed.signedAt = now ∧ (SigFileState.content out).Usable ∧
    ∃ l, verifyFile E wv src (some out) required = ([{ fd with signature := some l }], none) := by
  obtain ⟨h1, h2, h3, _, _, l, _, _, _, _, _, h4⟩ := sign_verify_letter E hC hH pair hP ws wv rng now r sf hsf metaData e he hev hid hlev hsend out fd h required hreq src hsrc
  exact ⟨h1, h2, h3, l, h4⟩

/-! ## Examples and refutations -/

/-- A serialization of file data for the examples: four bytes that are ignored, then the fields. -/
def toyDumpFile (x : SignedData) : Bytes :=
  [0, 0, 0, 0] ++ block x.labeledHash ++ block (pack64 x.signedAt) ++ (x.metaData.map (fun kv => block kv.1 ++ block kv.2)).flatten

def toyLoadPairs : Nat → Bytes → Res (List (Bytes × Bytes))
  | 0, _ => .error .malformed
  | _, [] => .ok []
  | n + 1, a :: t => do
    let (k, r) ← getBlock (a :: t)
    let (v, r) ← getBlock r
    let rest ← toyLoadPairs n r
    .ok ((k, v) :: rest)

def toyLoadFile (d : Bytes) : Res SignedData := do
  let (h, r) ← getBlock (d.drop 4)
  let (t, r) ← getBlock r
  let (n, _) ← getN64 t
  let m ← toyLoadPairs (r.length + 1) r
  .ok { labeledHash := h, signedAt := n, metaData := m }

def toySeals (l : List Seal) : Bytes := (l.map (fun x => block x.scheme ++ block x.id ++ block x.value)).flatten

def toyLoadSeals : Nat → Bytes → Res (List Seal)
  | 0, _ => .error .malformed
  | _, [] => .ok []
  | n + 1, a :: t => do
    let (sc, r) ← getBlock (a :: t)
    let (id, r) ← getBlock r
    let (v, r) ← getBlock r
    let rest ← toyLoadSeals n r
    .ok ({ scheme := sc, id := id, value := v } :: rest)

def toyDumpLetter (l : Letter) : Bytes :=
  block [l.version] ++ block l.suiteID ++ block l.nonce ++ block (toySeals l.keys) ++ block l.data ++ block l.mac ++ block (toySeals l.signatures)

def toyLoadLetter (d : Bytes) : Res Letter := do
  let (v, r) ← getBlock d
  let (su, r) ← getBlock r
  let (no, r) ← getBlock r
  let (ks, r) ← getBlock r
  let (da, r) ← getBlock r
  let (ma, r) ← getBlock r
  let (si, _) ← getBlock r
  let ks ← toyLoadSeals (ks.length + 1) ks
  let si ← toyLoadSeals (si.length + 1) si
  .ok { version := v.headD 0, suiteID := su, nonce := no, keys := ks, data := da, mac := ma, signatures := si }

/-- What can not be read back is not written. -/
def toyFileCodec : FileCodec where
  dump l := if toyLoadLetter (toyDumpLetter l) = .ok l then .ok (toyDumpLetter l) else .error .unsupported
  load := toyLoadLetter
  dumpFile x := if toyLoadFile (toyDumpFile x) = .ok x then .ok (toyDumpFile x) else .error .unsupported
  loadFile := toyLoadFile

theorem toyFileCodec_sound : toyFileCodec.Sound where
  letter := by
    intro l d h
    simp only [toyFileCodec] at h ⊢
    split at h
    · rename_i h'; cases h; exact h'
    · cases h
  file := by
    intro x d h
    simp only [toyFileCodec] at h ⊢
    split at h
    · rename_i h'; cases h; exact h'
    · cases h

def toySigEnv : SigEnv := { P := toyPrims, cfg := toyConfig, C := toyFileCodec, H := toyHashes }

def toySign (suite : Bytes) (secrets senders rcpts : List Bytes) (content : Bytes) (sf : SigFileState) : Res (Bytes × FileData) :=
  signFile toySigEnv toyWorld toyRng 1700000000 (some { chunks := [content] }) sf [(b!"id", b!"pkg"), (b!"version", b!"1")]
    (toyEnvelope suite secrets senders rcpts)

/-- Sign, then verify; also the number of entries. -/
def toySignVerify (suite : Bytes) (secrets senders rcpts : List Bytes) (content : Bytes) (sf : SigFileState) (src : DataSource)
    (required : List (Bytes × Bytes)) : Res (Nat × Option Err) :=
  match toySign suite secrets senders rcpts content sf with
  | .error e => .error e
  | .ok (out, _) => .ok ((verifyFile toySigEnv toyWorld src (some out) required).1.length, (verifyFile toySigEnv toyWorld src (some out) required).2)

/-- The hypotheses are met: a file is signed and verified, from a file and from standard input, also when the signature file had text and
a signature before. A changed file and a wrong version are not accepted. -/
theorem sign_verify_example :
    toySignVerify b!"signfile_v2" [] [b!"alice"] [] b!"content" .missing (.file b!"content") [(b!"version", b!"1")] = .ok (1, none) ∧
    toySignVerify b!"sign_v1" [] [b!"alice"] [] b!"content" .missing (.stdin b!"content") [(b!"version", b!"1")] = .ok (1, none) ∧
    toySignVerify b!"signfile_v2" [] [b!"alice"] [] b!"content" .missing (.file b!"changed") [] = .ok (1, some .integrity) ∧
    toySignVerify b!"signfile_v2" [] [b!"alice"] [] b!"content" .missing (.file b!"content") [(b!"version", b!"2")] = .ok (1, some .malformed) ∧
    (match toySign b!"signfile_v1" [] [b!"alice"] [] b!"older" (.content b!"text\n") with
      | .ok (out, _) => decide (toySignVerify b!"signfile_v2" [] [b!"alice"] [] b!"content" (.content out) (.file b!"content") [] = .ok (1, none))
      | .error _ => false) = true ∧
    (toyEnvelope b!"signfile_v2" [] [b!"alice"] []).suiteID ∈ signSuites ∧ (toyEnvelope b!"signfile_v2" [] [b!"alice"] []).suite = none := by
  decide +kernel

/-- The signers of the example have their public keys in the trust store: the other hypotheses of `sign_verify_file_partial`. -/
theorem sign_verify_example_signers : ∀ s, correspondence toyPrims toyConfig toyWorld suiteRegistry (toyEnvelope b!"signfile_v2" [] [b!"alice"] []) = .ok s →
    ∀ k ∈ s.env.senders, k.id ≠ [] ∧ ∃ pub priv, k.loadedPub = some pub ∧ k.loadedPriv = some priv ∧ (fun _ pub priv => pub = priv) k.scheme pub priv ∧
      PublicKeyOf toyPrims toyWorld k.id k.scheme pub := by
  intro s hs
  have hb : (match correspondence toyPrims toyConfig toyWorld suiteRegistry (toyEnvelope b!"signfile_v2" [] [b!"alice"] []) with
      | .ok s => decide (s.env.senders = [toyAlice]) | .error _ => false) = true := by decide +kernel
  rw [hs] at hb
  simp only [decide_eq_true_eq] at hb
  rw [hb]
  intro k hk
  simp only [List.mem_singleton] at hk
  subst hk
  refine ⟨by decide, [42, 43], [42, 43], rfl, rfl, rfl, toyStore, _, _, rfl, rfl, rfl, rfl, rfl, rfl⟩

/-- C42 does not hold for suites that encrypt, although they pass the check of `SignFileData`: the file data is then parsed from the
encrypted data. Nor does it hold if the signature file contains an incomplete block. -/
theorem sign_verify_refuted :
    toySignVerify b!"v2" [] [b!"alice"] [b!"bob"] b!"content" .missing (.file b!"content") [] = .ok (0, some .short) ∧
    toySignVerify b!"v1" [] [b!"alice"] [b!"bob"] b!"content" .missing (.file b!"content") [] = .ok (0, some .short) ∧
    toySignVerify b!"key_v1" [b!"key"] [] [] b!"content" .missing (.file b!"content") [] = .ok (0, some .short) ∧
    toySignVerify b!"signfile_v2" [] [b!"alice"] [] b!"content" (.content b!"x -----BEGIN JESS SIGNATURE-----\n") (.file b!"content") [] =
      .ok (0, some .malformed) := by
  decide +kernel

/-- A letter for the given content, closed by `toyClose` with the given envelope; `plain`: without the four ignored bytes. -/
def toyFileLetter (e : Envelope) (plain : Bool) (content : Bytes) : Res Letter :=
  toyClose e ((toyDumpFile { labeledHash := ({ alg := 32, digest := toyHashes 32 content } : LabeledHash).bytes, signedAt := 1 }).drop (if plain then 4 else 0))

/-- The signature file with these letters, verified. -/
def toyVerifyLetters (ls : List (Res Letter)) (src : DataSource) : Res (List FileData × Option Err) :=
  match ls.mapM id with
  | .error e => .error e
  | .ok ls =>
    match addAll toyFileCodec.toLetterCodec ls [] with
    | .error e => .error e
    | .ok out => .ok (verifyFile toySigEnv toyWorld src (some out) [])

/-- C41 refuted: `VerifyFile` accepts a letter without any signature, made by someone who has a shared key in the verifier's trust store. And
for standard input, a second signature is verified against the empty rest of the input: a signature for the empty file is accepted, a
second good signature is not. -/
theorem verify_file_refuted :
    (match toyVerifyLetters [toyFileLetter (toyEnvelope b!"key_v2" [b!"key"] [] []) true b!"content"] (.file b!"content") with
      | .ok ([fd], none) => decide ((fd.signature.map (fun l => l.signatures)) = some [])
      | _ => false) = true ∧
    (match toyVerifyLetters [toyFileLetter (toyEnvelope b!"sign_v2" [] [b!"alice"] []) false b!"content",
          toyFileLetter (toyEnvelope b!"sign_v2" [] [b!"alice"] []) false b!""] (.stdin b!"content") with
      | .ok ([_, fd], none) => decide (fd.fileHash = some { alg := 32, digest := toyHashes 32 [] } ∧ toyHashes 32 [] ≠ toyHashes 32 b!"content")
      | _ => false) = true ∧
    (match toyVerifyLetters [toyFileLetter (toyEnvelope b!"sign_v2" [] [b!"alice"] []) false b!"content",
          toyFileLetter (toyEnvelope b!"sign_v2" [] [b!"alice"] []) false b!"content"] (.stdin b!"content") with
      | .ok ([_, _], some e) => decide (e = .integrity)
      | _ => false) = true := by
  decide +kernel

/-- C42. The hash that is signed is labelled with the hash tool of the suite: name and digest size are the same (names of labels are
written with underscores), for every suite. Every registered suite with which one can sign has such a hash. -/
theorem suite_hash_label :
    (∀ (su : Suite) (alg : Nat), suiteHash su = some alg → ∃ t ∈ su.tools, ∃ h, getHash (parseToolID t).2 = some h ∧
      lhashName alg = h.name.map (fun c => if c = 45 then 95 else c) ∧ lhashSize alg = some h.digestSize) ∧
    ∀ su ∈ suiteRegistry, (∃ t ∈ su.tools, toolPurpose t = some .signing) → (suiteHash su).isSome = true := by
  constructor
  · intro su alg h
    unfold suiteHash at h
    split at h
    · cases h
    · rename_i t ht
      split at h
      · cases h
      · rename_i hh hg
        refine ⟨t, List.mem_of_find?_eq_some ht, hh, hg, ?_⟩
        have hm : hh ∈ hashTable := List.mem_of_find?_eq_some hg
        have key : ∀ hh ∈ hashTable, ∀ alg ∈ labeledAlgs.lookup hh.name,
            lhashName alg = hh.name.map (fun c => if c = 45 then 95 else c) ∧ lhashSize alg = some hh.digestSize := by decide +kernel
        exact key hh hm alg h
  · decide +kernel

end Jess
