import Verif.Model.CmdFiles
import Verif.Props.Json
import Verif.Props.CmdVerify
import Verif.Props.FileText
import Verif.Props.Wire
import Verif.Props.Stores

/-!
# C61–C63: the commands that read and write files
-/

namespace Jess

/-! ## Specification -/

/-- The input named `file` has this content: standard input for `-`, a file otherwise. -/
def Reads (T : CmdEnv) (d : Disk) (file data : Bytes) : Prop :=
  (file = b!"-" ∧ T.stdin = .ok data) ∨ (file ≠ b!"-" ∧ d.fs (resolve T.cwd file) = some (.file data))

/-- From `d` to `d'` only this output has changed: standard output for `-`, otherwise the file, which now has exactly this content. -/
def Outputs (T : CmdEnv) (d d' : Disk) (target content : Bytes) : Prop :=
  (target = b!"-" ∧ d'.fs = d.fs ∧ d'.stdout = d.stdout ++ content) ∨
  (target ≠ b!"-" ∧ d'.stdout = d.stdout ∧ d'.fs (resolve T.cwd target) = some (.file content) ∧
    ∀ k, k ≠ resolve T.cwd target → d'.fs k = d.fs k)

/-- The output is there already. -/
def OutputExists (T : CmdEnv) (d : Disk) (target : Bytes) : Prop := target ≠ b!"-" ∧ d.fs (resolve T.cwd target) ≠ none

/-- The name of the output of a command that appends (or removes) an extension. -/
def NamedBy (flag target default : Bytes) : Prop := (flag ≠ [] ∧ target = flag) ∨ (flag = [] ∧ target = default)

/-- Reads the headers it writes. -/
def HeaderCodec.Sound (hc : HeaderCodec) : Prop := ∀ l hdr, hc.dump l = .ok hdr → hc.load (hdr ++ [10]) = .ok l

/-! ## Lemmas -/

theorem stdInOut_eq : stdInOut = b!"-" := rfl

theorem loadFile_iff (T : CmdEnv) (d : Disk) (file data : Bytes) : loadFile T d file = .ok data ↔ Reads T d file data := by
  unfold loadFile Reads FS.read
  rw [stdInOut_eq]
  by_cases hf : file = b!"-"
  · simp [hf]
  · rw [if_neg hf]
    simp only [hf, false_and, false_or, ne_eq, not_false_eq_true, true_and]
    cases h : d.fs (resolve T.cwd file) with
    | none => simp
    | some n => cases n <;> simp

theorem writeOutput_spec (T : CmdEnv) (d : Disk) (target content : Bytes) :
    (writeOutput T d target content).1 = d ∨ ∃ n, Outputs T d (writeOutput T d target content).1 target (content.take n) := by
  unfold writeOutput Outputs FS.write
  rw [stdInOut_eq]
  by_cases hf : target = b!"-"
  · rw [if_pos hf]
    cases T.out with
    | done => exact .inr ⟨content.length, .inl ⟨hf, rfl, by simp⟩⟩
    | refused => exact .inl rfl
    | stopped n => exact .inr ⟨n, .inl ⟨hf, rfl, rfl⟩⟩
  · rw [if_neg hf]
    split
    · exact .inl rfl
    · cases T.out with
      | done => exact .inr ⟨content.length, .inr ⟨hf, rfl, by simp [FS.set], fun k hk => by simp [FS.set, hk]⟩⟩
      | refused => exact .inl rfl
      | stopped n => exact .inr ⟨n, .inr ⟨hf, rfl, by simp [FS.set], fun k hk => by simp [FS.set, hk]⟩⟩

theorem writeOutput_ok (T : CmdEnv) (d : Disk) (target content : Bytes) (h : (writeOutput T d target content).2 = .ok ()) :
    Outputs T d (writeOutput T d target content).1 target content := by
  unfold writeOutput FS.write at h ⊢
  unfold Outputs
  rw [stdInOut_eq] at h ⊢
  by_cases hf : target = b!"-"
  · rw [if_pos hf] at h ⊢
    cases ho : T.out with
    | done => exact .inl ⟨hf, rfl, rfl⟩
    | refused => rw [ho] at h; cases h
    | stopped n => rw [ho] at h; cases h
  · rw [if_neg hf] at h ⊢
    split at h
    · cases h
    · rename_i hx
      rw [if_neg hx]
      cases ho : T.out with
      | done => exact .inr ⟨hf, rfl, by simp [FS.set], fun k hk => by simp [FS.set, hk]⟩
      | refused => rw [ho] at h; cases h
      | stopped n => rw [ho] at h; cases h

theorem closeTarget_iff (file flag target : Bytes) : closeTarget file flag = .ok target ↔
    NamedBy flag target (file ++ b!".letter") ∧ (flag = [] → ¬ b!".letter" <:+ file) := by
  unfold closeTarget NamedBy hasSuffix letterExt
  by_cases hf : flag = []
  · subst hf
    simp only [if_true, ne_eq, not_true_eq_false, false_and, true_and, false_or, true_implies]
    split
    · rename_i hs
      rw [List.isSuffixOf_iff_suffix] at hs
      simp [hs]
    · rename_i hs
      rw [List.isSuffixOf_iff_suffix] at hs
      simp [hs, eq_comm]
  · simp [hf, eq_comm]

theorem openTarget_iff (file flag target : Bytes) : openTarget file flag = .ok target ↔
    (flag ≠ [] ∧ target = flag) ∨ (flag = [] ∧ file = target ++ b!".letter" ∧ target ≠ []) := by
  unfold openTarget trimSuffix hasSuffix letterExt
  by_cases hf : flag = []
  · subst hf
    simp only [if_true, ne_eq, not_true_eq_false, false_and, true_and, false_or]
    by_cases hs : b!".letter" <:+ file
    · obtain ⟨t, rfl⟩ := hs
      have hh : (b!".letter").isSuffixOf (t ++ b!".letter") = true := List.isSuffixOf_iff_suffix.2 ⟨t, rfl⟩
      have hl : (b!".letter" : Bytes).length = 7 := rfl
      simp only [hh, if_true, List.length_append, hl]
      have htk : (t ++ b!".letter").take (t.length + 7 - 7) = t := by simp
      rw [htk]
      by_cases ht : t = []
      · subst ht
        simp
      · have hp : 0 < t.length := List.length_pos_iff.2 ht
        have hn : ¬ (true = false ∨ t.length + 7 < 8) := by simp; omega
        rw [if_neg hn]
        simp only [Except.ok.injEq, List.append_cancel_right_eq]
        constructor
        · rintro rfl; exact ⟨rfl, ht⟩
        · exact fun h => h.1
    · have hh : (b!".letter").isSuffixOf file = false := by
        rw [Bool.eq_false_iff]
        intro h; exact hs (List.isSuffixOf_iff_suffix.1 h)
      rw [hh]
      simp only [true_or, if_true]
      constructor
      · intro h; cases h
      · rintro ⟨h, _⟩; exact absurd ⟨target, h.symm⟩ hs
  · simp [hf, eq_comm]

theorem checkOutput_true (T : CmdEnv) (d : Disk) (target : Bytes) (h : checkOutput T d target = .ok true) (hx : OutputExists T d target) :
    T.answer (.overwrite target) = .ok true := by
  unfold checkOutput at h
  rw [stdInOut_eq, if_neg hx.1] at h
  cases hn : d.fs (resolve T.cwd target) with
  | none => exact absurd hn hx.2
  | some n => rw [hn] at h; exact h

theorem checkInput_false (T : CmdEnv) (d : Disk) (file : Bytes) (h : checkInput T d file = .ok false) : T.answer (.big file) = .ok false := by
  unfold checkInput at h
  split at h
  · cases h
  · split at h
    · cases h
    · split at h
      · exact h
      · cases h

theorem checkOutput_false (T : CmdEnv) (d : Disk) (file : Bytes) (h : checkOutput T d file = .ok false) :
    T.answer (.overwrite file) = .ok false := by
  unfold checkOutput at h
  split at h
  · cases h
  · split at h
    · cases h
    · exact h

/-- A question was answered with no. -/
def SaidNo (T : CmdEnv) : Prop := ∃ q, T.answer q = .ok false

theorem openPlan_some {T : CmdEnv} {d : Disk} {file flag target c : Bytes} (h : openPlan T d file flag = .ok (some (target, c))) :
    openTarget file flag = .ok target ∧ checkOutput T d target = .ok true ∧ openData T d file = .ok c := by
  simp only [openPlan, bind_ok_iff] at h
  obtain ⟨t, h1, g1, h2, h⟩ := h
  split at h
  · cases h
  · simp only [bind_ok_iff] at h
    obtain ⟨g2, h3, h⟩ := h
    split at h
    · cases h
    · simp only [bind_ok_iff] at h
      obtain ⟨c', h4, h⟩ := h
      cases h
      rename_i hg
      cases g2 with
      | false => exact absurd rfl hg
      | true => exact ⟨h1, h3, h4⟩

theorem openPlan_none {T : CmdEnv} {d : Disk} {file flag : Bytes} (h : openPlan T d file flag = .ok none) : SaidNo T := by
  simp only [openPlan, bind_ok_iff] at h
  obtain ⟨t, h1, g1, h2, h⟩ := h
  split at h
  · rename_i hg; subst hg; exact ⟨_, checkInput_false T d file h2⟩
  · simp only [bind_ok_iff] at h
    obtain ⟨g2, h3, h⟩ := h
    split at h
    · rename_i hg; subst hg; exact ⟨_, checkOutput_false T d t h3⟩
    · simp only [bind_ok_iff] at h
      obtain ⟨c', h4, h⟩ := h
      cases h

theorem closePlan_some {T : CmdEnv} {d : Disk} {file name flag target c : Bytes} (h : closePlan T d file name flag = .ok (some (target, c))) :
    ∃ e s, T.envelopes name = .ok e ∧ correspondence T.E.P T.E.cfg T.w suiteRegistry e = .ok s ∧
      closeTarget file flag = .ok target ∧ checkOutput T d target = .ok true ∧ closeData T d s file = .ok c := by
  simp only [closePlan, bind_ok_iff] at h
  obtain ⟨e, he, s, hs, t, h1, g1, h2, h⟩ := h
  split at h
  · cases h
  · simp only [bind_ok_iff] at h
    obtain ⟨g2, h3, h⟩ := h
    split at h
    · cases h
    · simp only [bind_ok_iff] at h
      obtain ⟨c', h4, h⟩ := h
      cases h
      rename_i hg
      cases g2 with
      | false => exact absurd rfl hg
      | true => exact ⟨e, s, he, hs, h1, h3, h4⟩

theorem closePlan_none {T : CmdEnv} {d : Disk} {file name flag : Bytes} (h : closePlan T d file name flag = .ok none) : SaidNo T := by
  simp only [closePlan, bind_ok_iff] at h
  obtain ⟨e, he, s, hs, t, h1, g1, h2, h⟩ := h
  split at h
  · rename_i hg; subst hg; exact ⟨_, checkInput_false T d file h2⟩
  · simp only [bind_ok_iff] at h
    obtain ⟨g2, h3, h⟩ := h
    split at h
    · rename_i hg; subst hg; exact ⟨_, checkOutput_false T d t h3⟩
    · simp only [bind_ok_iff] at h
      obtain ⟨c', h4, h⟩ := h
      cases h

/-- What `jess open` may write: the data of a letter that it read from the input and that opened, with the demanded requirements. -/
structure OpenedFile (T : CmdEnv) (d : Disk) (file flag target plain : Bytes) : Prop where
  named : (flag ≠ [] ∧ target = flag) ∨ (flag = [] ∧ file = target ++ b!".letter" ∧ target ≠ [])
  letter : ∃ data l rest, Reads T d file data ∧ letterFromFileFormat T.hc data = .ok (l, rest) ∧
    l.open T.E.P T.E.cfg T.w suiteRegistry (some (T.reqs.getD Requirements.full)) = .ok plain
  asked : OutputExists T d target → T.answer (.overwrite target) = .ok true

/-- What `jess close` may write: a letter with the content of the input, closed with the named envelope. -/
structure ClosedFile (T : CmdEnv) (d : Disk) (file name flag target content : Bytes) : Prop where
  named : NamedBy flag target (file ++ b!".letter") ∧ (flag = [] → ¬ b!".letter" <:+ file)
  letter : ∃ e s data l, T.envelopes name = .ok e ∧ correspondence T.E.P T.E.cfg T.w suiteRegistry e = .ok s ∧ Reads T d file data ∧
    (s.close T.E.P T.E.cfg T.rng s.initState data).2 = .ok l ∧ (l.toFileFormat T.hc).1 = .ok content
  asked : OutputExists T d target → T.answer (.overwrite target) = .ok true
  store : T.w.store ≠ none

theorem opened_of {T : CmdEnv} {d : Disk} {file flag target c : Bytes} (h : openPlan T d file flag = .ok (some (target, c))) :
    OpenedFile T d file flag target c := by
  obtain ⟨h1, h2, h3⟩ := openPlan_some h
  simp only [openData, bind_ok_iff] at h3
  obtain ⟨data, h4, ⟨l, rest⟩, h5, h6⟩ := h3
  exact ⟨(openTarget_iff _ _ _).1 h1, ⟨data, l, rest, (loadFile_iff T d file data).1 h4, h5, h6⟩, checkOutput_true T d target h2⟩

theorem requireTrustStore_ok {w : World} {u : Unit} (h : requireTrustStore w = .ok u) : w.store ≠ none := by
  unfold requireTrustStore at h
  split at h
  · cases h
  · rename_i hs; rw [hs]; intro h; cases h

theorem closed_of {T : CmdEnv} {d : Disk} {file name flag target c : Bytes} (hst : T.w.store ≠ none) (h : closePlan T d file name flag = .ok (some (target, c))) :
    ClosedFile T d file name flag target c := by
  obtain ⟨e, s, he, hs, h1, h2, h3⟩ := closePlan_some h
  simp only [closeData, bind_ok_iff] at h3
  obtain ⟨data, h4, l, h5, h6⟩ := h3
  exact ⟨(closeTarget_iff _ _ _).1 h1, ⟨e, s, data, l, he, hs, (loadFile_iff T d file data).1 h4, h5, h6⟩, checkOutput_true T d target h2, hst⟩

/-! ## C62 -/

/-- C62, `jess open`. Whatever the arguments, the input, the state of the disk and however writing ends: the command changes nothing, or only
its output, which then holds a prefix of the data of a letter that was accepted with all demanded requirements, and which did not exist before
unless the user agreed to overwrite it. If it reports success, the output is complete, or the user declined and nothing changed. -/
theorem open_command_safe (T : CmdEnv) (d : Disk) (args : List Bytes) (flag : Bytes) (d' : Disk) (r : Res Unit)
    (h : openCommand T d args flag = (d', r)) :
    (d' = d ∨ ∃ file target plain n, args = [file] ∧ OpenedFile T d file flag target plain ∧ Outputs T d d' target (plain.take n)) ∧
    (r = .ok () → (d' = d ∧ SaidNo T) ∨
      ∃ file target plain, args = [file] ∧ OpenedFile T d file flag target plain ∧ Outputs T d d' target plain) := by
  unfold openCommand at h
  split at h
  · rename_i file
    unfold runPlan at h
    split at h
    · cases h; exact ⟨.inl rfl, fun h => by cases h⟩
    · rename_i hp
      cases h; exact ⟨.inl rfl, fun _ => .inl ⟨rfl, openPlan_none hp⟩⟩
    · rename_i target plain hp
      have ho := opened_of hp
      have h1 : (writeOutput T d target plain).1 = d' := by rw [h]
      have h2 : (writeOutput T d target plain).2 = r := by rw [h]
      subst h1 h2
      constructor
      · rcases writeOutput_spec T d target plain with hx | ⟨n, hx⟩
        · exact .inl hx
        · exact .inr ⟨file, target, plain, n, rfl, ho, hx⟩
      · intro hr
        exact .inr ⟨file, target, plain, rfl, ho, writeOutput_ok T d target plain hr⟩
  · cases h; exact ⟨.inl rfl, fun h => by cases h⟩

/-- C62, `jess close`. The command changes nothing, or only its output, which then holds a prefix of a letter with the content of the input,
closed with the named envelope, and which did not exist before unless the user agreed to overwrite it. If it reports success, the output is
complete, or the user declined and nothing changed. -/
theorem close_command_safe (T : CmdEnv) (d : Disk) (args : List Bytes) (flag : Bytes) (d' : Disk) (r : Res Unit)
    (h : closeCommand T d args flag = (d', r)) :
    (d' = d ∨ ∃ file name target content n, args = [file, b!"with", name] ∧ ClosedFile T d file name flag target content ∧
      Outputs T d d' target (content.take n)) ∧
    (r = .ok () → (d' = d ∧ SaidNo T) ∨ ∃ file name target content, args = [file, b!"with", name] ∧
      ClosedFile T d file name flag target content ∧ Outputs T d d' target content) := by
  unfold closeCommand at h
  split at h
  · rename_i file w name
    unfold runPlan at h
    split at h
    · cases h; exact ⟨.inl rfl, fun h => by cases h⟩
    · rename_i hp
      simp only [bind_ok_iff] at hp
      obtain ⟨_, _, hp⟩ := hp
      split at hp
      · cases hp
      · cases h; exact ⟨.inl rfl, fun _ => .inl ⟨rfl, closePlan_none hp⟩⟩
    · rename_i target content hp
      simp only [bind_ok_iff] at hp
      obtain ⟨_, hst, hp⟩ := hp
      split at hp
      · cases hp
      · rename_i hw
        obtain rfl : w = b!"with" := Decidable.not_not.1 hw
        have ho := closed_of (requireTrustStore_ok hst) hp
        have h1 : (writeOutput T d target content).1 = d' := by rw [h]
        have h2 : (writeOutput T d target content).2 = r := by rw [h]
        subst h1 h2
        constructor
        · rcases writeOutput_spec T d target content with hx | ⟨n, hx⟩
          · exact .inl hx
          · exact .inr ⟨file, name, target, content, n, rfl, ho, hx⟩
        · intro hr
          exact .inr ⟨file, name, target, content, rfl, ho, writeOutput_ok T d target content hr⟩
  · cases h; exact ⟨.inl rfl, fun h => by cases h⟩

/-! ## C61 -/

/-- A file can be created or replaced here. -/
def Writable (T : CmdEnv) (d : Disk) (target : Bytes) : Prop :=
  target = b!"-" ∨ (resolve T.cwd target ≠ [] ∧ d.fs (resolve T.cwd target) ≠ some .dir ∧ d.fs (resolve T.cwd target).tail = some .dir)

theorem writeOutput_done {T : CmdEnv} {d : Disk} {target : Bytes} (hw : Writable T d target) (ho : T.out = .done) (content : Bytes) :
    (writeOutput T d target content).2 = .ok () := by
  unfold writeOutput
  rw [ho, stdInOut_eq]
  rcases hw with h | ⟨h1, h2, h3⟩
  · rw [if_pos h]
  · split
    · rfl
    · unfold FS.write
      rw [if_neg (by simp [h1, h2, h3])]

theorem checkInput_yes {T : CmdEnv} {d : Disk} {file data : Bytes} (h : Reads T d file data) (hy : ∀ q, T.answer q = .ok true) :
    checkInput T d file = .ok true := by
  unfold checkInput
  rw [stdInOut_eq]
  rcases h with ⟨h, _⟩ | ⟨h, hr⟩
  · rw [if_pos h]
  · rw [if_neg h]
    simp only [FS.size, hr]
    split
    · exact hy _
    · rfl

theorem checkOutput_yes {T : CmdEnv} (d : Disk) (file : Bytes) (hy : ∀ q, T.answer q = .ok true) : checkOutput T d file = .ok true := by
  unfold checkOutput
  split
  · rfl
  · split
    · rfl
    · exact hy _

theorem toFileFormat_parts {hc : HeaderCodec} {l : Letter} {c : Bytes} (h : (l.toFileFormat hc).1 = .ok c) :
    ∃ hdr, hc.dump { l with data := [] } = .ok hdr ∧ hdr.length + l.data.length < c.length := by
  unfold Letter.toFileFormat at h
  split at h
  · cases h
  · rename_i hdr hd
    cases h
    refine ⟨hdr, hd, ?_⟩
    simp [block]
    omega

/-- C61. `jess close` followed by `jess open`: if closing reported success, and nobody answered no, then opening what it wrote (the file, under
any name for it, or what it sent to the standard output) succeeds and writes exactly the original content. For every file, suite, environment
and trust store of the recipient that has the counterparts of the signets; the conditions on the envelope are those of C10. -/
theorem close_open_commands_partial (T T' : CmdEnv) (d d1 d1' : Disk) (file name flag : Bytes) (data : Bytes) (e : Envelope)
    (pair : Bytes → Bytes → Bytes → Prop) (hP : T.E.P.Correct pair) (hc : T.hc.Sound)
    -- the second command is the same program, and the user does not answer no
    (hE : T'.E = T.E) (hhc : T'.hc = T.hc) (hno : ¬ SaidNo T) (hyes : ∀ q, T'.answer q = .ok true)
    -- the file and the envelope
    (hin : Reads T d file data) (he : T.envelopes name = .ok e) (hsl : e.SuiteLoaded) (hev : e.version = 1)
    (hlev : demandedLevel T.E.cfg 0 ≤ demandedLevel T.E.cfg e.securityLevel)
    (hs : ∀ s, correspondence T.E.P T.E.cfg T.w suiteRegistry { e with suite := none } = .ok s →
      ((∀ k ∈ s.env.secrets, k.id ≠ []) ∧ (∀ k ∈ s.env.senders, k.id ≠ []) ∧ (∀ k ∈ s.env.recipients, k.id ≠ [])) ∧
      ((∀ k ∈ s.env.secrets, k.scheme ≠ schemeKey) ∨ (∀ k ∈ s.env.secrets, k.scheme ≠ schemePassword)) ∧
      Counterparts T.E.P pair T'.w s ∧ ∀ a ∈ T'.reqs.getD Requirements.full, a ∈ s.suite.provides)
    -- closing succeeds
    (h : closeCommand T d [file, b!"with", name] flag = (d1, .ok ()))
    -- the input of the second command is the output of the first
    (p : Bytes) (hp : ∀ target c, NamedBy flag target (file ++ b!".letter") → Outputs T d d1 target c → c.length < 2 ^ 64 ∧ Reads T' d1' p c)
    -- its output
    (flag' target' : Bytes) (ht : (flag' ≠ [] ∧ target' = flag') ∨ (flag' = [] ∧ p = target' ++ b!".letter" ∧ target' ≠ [])) (hw : Writable T' d1' target') (ho : T'.out = .done) :
    ∃ d2, openCommand T' d1' [p] flag' = (d2, .ok ()) ∧ Outputs T' d1' d2 target' data := by
  rcases (close_command_safe T d _ flag d1 _ h).2 rfl with ⟨_, hx⟩ | ⟨file', name', target, content, ha, hcl, hout⟩
  · exact absurd hx hno
  cases ha
  obtain ⟨hn, ⟨e', s, data', l, he', hcor, hr, hclose, hff⟩, _⟩ := hcl
  rw [he] at he'
  cases he'
  have hdd : data' = data := by
    have h1 := (loadFile_iff T d file data').2 hr
    rw [(loadFile_iff T d file data).2 hin] at h1
    cases h1; rfl
  subst hdd
  obtain ⟨hlen, hread⟩ := hp target content hn.1 hout
  have hcor' : correspondence T.E.P T.E.cfg T.w suiteRegistry { e with suite := none } = .ok s := by
    cases hl : loadSuite suiteRegistry e with
    | error er => simp only [correspondence, hl] at hcor; cases hcor
    | ok x =>
      obtain ⟨e2, su⟩ := x
      rw [← correspondence_loaded hsl hl]
      have h2 := (loadSuite_loaded hsl hl)
      simp only [correspondence, hl, ok_bind] at hcor
      simp only [correspondence, loadSuite]
      have h3 : e2.suite = some su := by
        unfold loadSuite at hl
        split at hl
        · rename_i hsu; cases hl; exact hsu
        · split at hl
          · cases hl
          · cases hl; rfl
      rw [h3]
      exact hcor
  obtain ⟨hids, hmix, hcp, hreq⟩ := hs s hcor'
  have hopen := close_open_roundtrip_partial T.E.P pair hP T.E.cfg T.w T'.w T.rng { e with suite := none } rfl hev s hcor' hlev hids hmix hcp
    (some (T'.reqs.getD Requirements.full)) hreq data' l hclose
  obtain ⟨hdr, hdump, hsz⟩ := toFileFormat_parts hff
  obtain ⟨out, ho1, ho2⟩ := file_roundtrip T.hc l [] hdr (by omega) (by omega) hdump (hc _ _ hdump)
  rw [ho1] at hff
  cases hff
  rw [List.append_nil] at ho2
  have hdata : openData T' d1' p = .ok data' := by
    simp only [openData, (loadFile_iff T' d1' p content).2 hread, ok_bind, hhc, ho2, hE]
    exact hopen
  have hplan : openPlan T' d1' p flag' = .ok (some (target', data')) := by
    simp [openPlan, (openTarget_iff p flag' target').2 ht, checkInput_yes hread hyes, checkOutput_yes d1' target' hyes, hdata, ok_bind]
  have hok := writeOutput_done hw ho data'
  refine ⟨(writeOutput T' d1' target' data').1, ?_, writeOutput_ok T' d1' target' data' hok⟩
  unfold openCommand runPlan
  simp only [hplan]
  rw [← hok]

/-! ## The output is another file than the input -/

theorem splitSlash_ext (s : Bytes) (hs : (47 : UInt8) ∉ s) : ∀ p : Bytes, ∃ init last, splitSlash p = init ++ [last] ∧
    splitSlash (p ++ s) = init ++ [last ++ s]
  | [] => ⟨[], [], rfl, by simpa using splitSlash_single s hs⟩
  | c :: cs => by
    obtain ⟨init, last, h1, h2⟩ := splitSlash_ext s hs cs
    simp only [List.cons_append, splitSlash, h1, h2]
    by_cases hc : c = 47
    · exact ⟨[] :: init, last, by simp [hc], by simp [hc]⟩
    · simp only [hc, if_false]
      cases init with
      | nil => exact ⟨[], c :: last, by simp, by simp⟩
      | cons x xs => exact ⟨(c :: x) :: xs, last, by simp, by simp⟩

/-- A file with an extension is never the file without it, in any working directory. -/
theorem resolve_ext_ne (cwd : Loc) (p s : Bytes) (hs : (47 : UInt8) ∉ s) (hd : s.head? = some 46) (h3 : 3 ≤ s.length) :
    resolve cwd (p ++ s) ≠ resolve cwd p := by
  obtain ⟨init, last, h1, h2⟩ := splitSlash_ext s hs p
  obtain ⟨b, rfl⟩ : ∃ b, s = 46 :: b := by cases s with | nil => cases hd | cons a b => cases hd; exact ⟨b, rfl⟩
  unfold resolve
  have hroot : isRooted (p ++ 46 :: b) = isRooted p := by
    unfold isRooted
    cases p with
    | nil => simp
    | cons a r => simp
  rw [h1, h2, hroot]
  simp only [List.foldl_append, List.foldl_cons, List.foldl_nil]
  generalize init.foldl resolveStep (if isRooted p = true then [] else cwd) = l
  have hb : 2 ≤ b.length := by simp at h3; omega
  have hl3 : 3 ≤ (last ++ 46 :: b).length := by simp; omega
  have e1 : resolveStep l (last ++ 46 :: b) = (last ++ 46 :: b) :: l := by
    unfold resolveStep
    have n1 : ¬ (last ++ 46 :: b = [] ∨ last ++ 46 :: b = b!".") := by
      rintro (h | h)
      · simp at h
      · rw [h] at hl3; simp at hl3
    have n2 : last ++ 46 :: b ≠ b!".." := by intro h; rw [h] at hl3; simp at hl3
    rw [if_neg n1, if_neg n2]
  rw [e1]
  unfold resolveStep
  split
  · intro h; have := congrArg List.length h; simp at this
  · split
    · intro h; have := congrArg List.length h; simp at this; omega
    · intro h
      have h' := (List.cons.inj h).1
      have := congrArg List.length h'
      simp at this

/-- C62: without the flag `--output`, closing, opening and signing never write to the file they read. -/
theorem default_output_not_input (cwd : Loc) (file target : Bytes) :
    (closeTarget file [] = .ok target → resolve cwd target ≠ resolve cwd file) ∧
    (openTarget file [] = .ok target → resolve cwd target ≠ resolve cwd file) ∧
    (signTarget file [] = .ok target → resolve cwd target ≠ resolve cwd file) := by
  refine ⟨fun h => ?_, fun h => ?_, fun h => ?_⟩
  · rcases ((closeTarget_iff _ _ _).1 h).1 with ⟨h, _⟩ | ⟨_, rfl⟩
    · exact absurd rfl h
    · exact resolve_ext_ne cwd file _ (by decide) rfl (by decide)
  · rcases (openTarget_iff _ _ _).1 h with ⟨h, _⟩ | ⟨_, rfl, _⟩
    · exact absurd rfl h
    · exact (resolve_ext_ne cwd target _ (by decide) rfl (by decide)).symm
  · unfold signTarget at h
    rw [if_pos rfl] at h
    split at h
    · cases h
    · cases h
      exact resolve_ext_ne cwd file _ (by decide) rfl (by decide)

/-! ## `jess sign` -/

/-- What `jess sign` may write: what `SignFile` makes for the content of the data file and the old content of the signature file. It signs a
hash of what it read. There is a trust store. -/
structure SignedFile (T : CmdEnv) (d : Disk) (file name flag target content : Bytes) : Prop where
  named : NamedBy flag target (file ++ b!".sig")
  signature : ∃ e fd data alg, T.envelopes name = .ok e ∧ Reads T d file data ∧
    signFile T.E T.w T.rng T.now (some { chunks := [data] }) (sigFileAt d.fs (resolve T.cwd target)) T.metaFlag e = .ok (content, fd) ∧
    fd.fileHash = some { alg := alg, digest := T.E.H alg data } ∧ fd.signed.labeledHash = LabeledHash.bytes { alg := alg, digest := T.E.H alg data }
  store : T.w.store ≠ none

/-- `SignFile` signs a hash of what it has read. -/
theorem signFile_hashes {E : SigEnv} {w : World} {rng : Rng} {now : Nat} {src : Option ReadAll} {f : SigFileState}
    {m : List (Bytes × Bytes)} {e : Envelope} {c : Bytes} {fd : FileData} (h : signFile E w rng now src f m e = .ok (c, fd)) :
    ∃ r alg, src = some r ∧ r.failed = false ∧
      fd.fileHash = some { alg := alg, digest := E.H alg (r.chunks.foldl (· ++ ·) []) } ∧
      fd.signed.labeledHash = LabeledHash.bytes { alg := alg, digest := E.H alg (r.chunks.foldl (· ++ ·) []) } := by
  simp only [signFile, bind_ok_iff] at h
  obtain ⟨⟨e1, su⟩, _, h⟩ := h
  simp only at h
  split at h
  · cases h
  · rename_i alg _
    simp only [bind_ok_iff] at h
    obtain ⟨x, hx, ⟨l, fd'⟩, hd, h⟩ := h
    obtain ⟨r, hr, hf, hxe⟩ : ∃ r, src = some r ∧ r.failed = false ∧ x = { alg := alg, digest := E.H alg (r.chunks.foldl (· ++ ·) []) } := by
      unfold hashSource lhashReader at hx
      split at hx
      · cases hx
      · rename_i r
        refine ⟨r, rfl, ?_⟩
        split at hx
        · cases hx
        · split at hx
          · cases hx
          · rename_i hf; cases hx
            exact ⟨by simpa using hf, rfl⟩
    have hfd : fd' = fd := by
      simp only at h
      split at h
      · cases h
      · simp only [bind_ok_iff] at h
        obtain ⟨_, _, h⟩ := h
        cases h; rfl
      · simp only [bind_ok_iff] at h
        obtain ⟨_, _, h⟩ := h
        cases h; rfl
    subst hfd
    simp only [signFileData, bind_ok_iff] at hd
    obtain ⟨_, _, _, _, _, _, _, _, hd⟩ := hd
    cases hd
    exact ⟨r, alg, hr, hf, by rw [hxe], by rw [hxe]⟩

theorem hashInput_reads {T : CmdEnv} {d : Disk} {file : Bytes} {r : ReadAll} (h : hashInput T d file = some r) (hf : r.failed = false) :
    ∃ data, Reads T d file data ∧ r = { chunks := [data] } := by
  unfold hashInput at h
  split at h
  · rename_i hs
    split at h
    · rename_i data hd; cases h; exact ⟨data, .inl ⟨hs, hd⟩, rfl⟩
    · cases h; cases hf
  · rename_i hs
    split at h
    · cases h
    · cases h; cases hf
    · rename_i data hd; cases h; exact ⟨data, .inr ⟨hs, hd⟩, rfl⟩

/-- C62, `jess sign`. The command changes nothing, or only the signature file, which then holds a prefix of a new signature file (all of it, if
the command succeeds). It never writes to standard output, although `--output` documents `-` for it: a file with that name is written. -/
theorem sign_command_safe (T : CmdEnv) (d : Disk) (args : List Bytes) (flag : Bytes) (d' : Disk) (r : Res Unit)
    (h : signCommand T d args flag = (d', r)) :
    d'.stdout = d.stdout ∧
    (d' = d ∨ ∃ file name target content n, args = [file, b!"with", name] ∧ SignedFile T d file name flag target content ∧
      d'.fs (resolve T.cwd target) = some (.file (content.take n)) ∧ ∀ k, k ≠ resolve T.cwd target → d'.fs k = d.fs k) ∧
    (r = .ok () → ∃ file name target content, args = [file, b!"with", name] ∧ SignedFile T d file name flag target content ∧
      d'.fs (resolve T.cwd target) = some (.file content) ∧ ∀ k, k ≠ resolve T.cwd target → d'.fs k = d.fs k) := by
  unfold signCommand at h
  split at h
  · rename_i file w name
    split at h
    · cases h; exact ⟨rfl, .inl rfl, fun h => by cases h⟩
    · rename_i target content hp
      simp only [bind_ok_iff] at hp
      obtain ⟨_, hst, hp⟩ := hp
      split at hp
      · cases hp
      · rename_i hw
        obtain rfl : w = b!"with" := Decidable.not_not.1 hw
        simp only [signPlan, bind_ok_iff] at hp
        obtain ⟨e, he, t, ht, ⟨c, fd⟩, hsf, hp⟩ := hp
        obtain ⟨rfl, rfl⟩ := Prod.mk.inj (Except.ok.inj hp)
        have hn : NamedBy flag t (file ++ b!".sig") := by
          unfold signTarget at ht
          split at ht
          · split at ht
            · cases ht
            · cases ht; rename_i hf _; exact .inr ⟨hf, rfl⟩
          · cases ht; rename_i hf; exact .inl ⟨hf, rfl⟩
        have hsig : SignedFile T d file name flag t c := by
          obtain ⟨r, alg, h1, h2, h3, h4⟩ := signFile_hashes hsf
          obtain ⟨data, h5, rfl⟩ := hashInput_reads h1 h2
          rw [h1] at hsf
          exact ⟨hn, ⟨e, fd, data, alg, he, h5, hsf, h3, h4⟩, requireTrustStore_ok hst⟩
        unfold writeSigFile FS.write at h
        split at h
        · cases h; exact ⟨rfl, .inl rfl, fun h => by cases h⟩
        · cases ho : T.out with
          | done =>
            rw [ho] at h; cases h
            exact ⟨rfl, .inr ⟨file, name, t, c, c.length, rfl, hsig, by simp [FS.set], fun k hk => by simp [FS.set, hk]⟩,
              fun _ => ⟨file, name, t, c, rfl, hsig, by simp [FS.set], fun k hk => by simp [FS.set, hk]⟩⟩
          | refused => rw [ho] at h; cases h; exact ⟨rfl, .inl rfl, fun h => by cases h⟩
          | stopped n =>
            rw [ho] at h; cases h
            exact ⟨rfl, .inr ⟨file, name, t, c, n, rfl, hsig, by simp [FS.set], fun k hk => by simp [FS.set, hk]⟩, fun h => by cases h⟩
  · cases h; exact ⟨rfl, .inl rfl, fun h => by cases h⟩

/-- The verify command looks at this file system. -/
structure VerifyEnv.OnDisk (V : VerifyEnv) (cwd : Loc) (fs : FS) : Prop where
  read : ∀ p c, fs (resolve cwd p) = some (.file c) → V.read p = some c
  source : ∀ p c, p ≠ b!"-" → fs (resolve cwd p) = some (.file c) → V.source p = .file c
  stat : ∀ p c, fs (resolve cwd p) = some (.file c) → V.stat p = some { isDir := false, size := c.length }

/-- The trust store has information about all signets in it. -/
def World.Named (w : World) : Prop := ∃ get, w.store = some get ∧ ∀ id s, get id true = .ok s → s.info ≠ none

theorem signerTexts_named {w : World} (h : w.Named) (ids : List Bytes) : ∃ ts, signerTexts w ids = .ok ts := by
  obtain ⟨get, hg, hi⟩ := h
  have h1 : ∀ id, ∃ t, signerText w id = .ok t := by
    intro id
    unfold signerText
    rw [hg]
    dsimp only
    split
    · exact ⟨_, rfl⟩
    · rename_i s hs
      have := hi id s hs
      cases hinf : s.info with
      | none => exact absurd hinf this
      | some i => exact ⟨_, rfl⟩
  induction ids with
  | nil => exact ⟨_, rfl⟩
  | cons id ids ih =>
    obtain ⟨t, ht⟩ := h1 id
    obtain ⟨ts, hts⟩ := ih
    exact ⟨t :: ts, by rw [signerTexts, ht, ok_bind, hts, ok_bind]⟩

theorem formatSignature_named {w : World} (h : w.Named) (et : Err → Bytes) (fd : FileData) : ∃ t, formatSignature et w fd = .ok t := by
  unfold formatSignature signerPart
  cases fd.signature with
  | none => exact ⟨_, by rw [ok_bind]⟩
  | some l =>
    obtain ⟨ts, hts⟩ := signerTexts_named h (l.signatures.map (·.id))
    exact ⟨_, by dsimp only; rw [hts, ok_bind, ok_bind]⟩

theorem formatSignatures_named {w : World} (h : w.Named) (et : Err → Bytes) (f s : Bytes) (fds : List FileData) :
    ∃ t, formatSignatures et w f s fds = .ok t := by
  have h1 : ∀ l, ∃ t, formatTwo et w l = .ok t := by
    intro l
    induction l with
    | nil => exact ⟨_, rfl⟩
    | cons fd l ih =>
      obtain ⟨a, ha⟩ := formatSignature_named h et fd
      obtain ⟨b, hb⟩ := ih
      exact ⟨_, by rw [formatTwo, ha, ok_bind, hb, ok_bind]⟩
  have h2 : ∃ t, signaturesPart et w fds = .ok t := by
    unfold signaturesPart
    split
    · exact formatSignature_named h et _
    · exact h1 _
    · exact ⟨_, rfl⟩
  obtain ⟨t, ht⟩ := h2
  exact ⟨_, by unfold formatSignatures; rw [ht, ok_bind]⟩

/-- C61. `jess sign` followed by `jess verify`: if signing a file reported success, then verifying the file succeeds, for any required metadata
that was signed, with the default name of the signature file. The conditions are those of C42, that the file is not itself named like a
letter or a signature, and that the signets in the trust store have a name (otherwise the report crashes, see C73). -/
theorem sign_verify_commands_partial (T : CmdEnv) (hC : T.E.C.Sound) (hH : T.E.H.Sized) (pair : Bytes → Bytes → Bytes → Prop)
    (hP : T.E.P.Correct pair) (d d1 : Disk) (file name data : Bytes) (e : Envelope)
    (hf : file ≠ b!"-") (hnl : ¬ b!".letter" <:+ file) (hin : d.fs (resolve T.cwd file) = some (.file data))
    (he : T.envelopes name = .ok e) (hsl : e.SuiteLoaded) (hev : e.version = 1) (hid : e.suiteID ∈ signSuites)
    (hlev : demandedLevel T.E.cfg 0 ≤ demandedLevel T.E.cfg e.securityLevel)
    (husable : ∀ old, d.fs (resolve T.cwd (file ++ b!".sig")) = some (.file old) → (SigFileState.content old).Usable)
    (h : signCommand T d [file, b!"with", name] [] = (d1, .ok ()))
    (V : VerifyEnv) (hV : V.OnDisk T.cwd d1.fs) (hE : V.E = T.E) (hglob : V.glob file = .ok [file])
    (hreq : ∀ kv ∈ V.metaFlag, T.metaFlag.lookup kv.1 = some kv.2)
    (hsend : ∀ s, correspondence T.E.P T.E.cfg T.w suiteRegistry { e with suite := none } = .ok s →
      ∀ k ∈ s.env.senders, k.id ≠ [] ∧ ∃ pub priv, k.loadedPub = some pub ∧ k.loadedPriv = some priv ∧ pair k.scheme pub priv ∧
        PublicKeyOf T.E.P V.w k.id k.scheme pub)
    (hinfo : V.w.Named) : verifyCommand V [file] = .ok () := by
  have hns : ¬ b!".sig" <:+ file := by
    intro hs
    have hx : signTarget file [] = .error .missing := by
      unfold signTarget hasSuffix sigExt
      rw [if_pos rfl, if_pos (List.isSuffixOf_iff_suffix.2 hs)]
    simp only [signCommand, signPlan, hx, he, ok_bind] at h
    cases hr : requireTrustStore T.w with
    | error er => rw [hr] at h; cases h
    | ok u => rw [hr] at h; cases h
  obtain ⟨_, _, h3⟩ := sign_command_safe T d _ [] d1 _ h
  obtain ⟨file', name', target, content, ha, hsig, hw, hother⟩ := h3 rfl
  cases ha
  obtain ⟨hn, ⟨e', fd, data', _, he', hrd, hsf, _⟩, _⟩ := hsig
  rw [he] at he'
  cases he'
  have htgt : target = file ++ b!".sig" := by
    rcases hn with ⟨hx, _⟩ | ⟨_, rfl⟩
    · exact absurd rfl hx
    · rfl
  subst htgt
  have hne := resolve_ext_ne T.cwd file b!".sig" (by decide) rfl (by decide)
  have hdata : d1.fs (resolve T.cwd file) = some (.file data) := by rw [hother _ (Ne.symm hne), hin]
  obtain rfl : data = data' := by
    rcases hrd with ⟨hx, _⟩ | ⟨_, hx⟩
    · exact absurd hx hf
    · rw [hin] at hx; cases hx; rfl
  have husf : (sigFileAt d.fs (resolve T.cwd (file ++ b!".sig"))).Usable := by
    unfold sigFileAt
    cases hx : d.fs (resolve T.cwd (file ++ b!".sig")) with
    | none => exact True.intro
    | some n =>
      cases n with
      | file old => exact husable old hx
      | dir =>
        -- a directory is not replaced
        simp only [signCommand, bind_ok_iff] at h
        split at h
        · cases h
        · rename_i t c hp
          simp only [bind_ok_iff, signPlan] at hp
          obtain ⟨_, _, hp⟩ := hp
          split at hp
          · cases hp
          · simp only [bind_ok_iff] at hp
            obtain ⟨_, _, t', ht', _, hcc, hp⟩ := hp
            have : t' = file ++ b!".sig" := by
              unfold signTarget at ht'
              rw [if_pos rfl] at ht'
              split at ht'
              · cases ht'
              · cases ht'; rfl
            subst this
            obtain ⟨rfl, rfl⟩ := Prod.mk.inj (Except.ok.inj hp)
            unfold writeSigFile FS.write at h
            rw [if_pos (Or.inl hx)] at h
            cases h
  obtain ⟨_, _, _, l, hv⟩ := sign_verify_file_partial T.E hC hH pair hP T.w V.w T.rng T.now { chunks := [data] } _ husf T.metaFlag e hsl hev hid
    hlev hsend content fd hsf V.metaFlag hreq (DataSource.file data) (.inl (by simp))
  have hls : hasSuffix file letterExt = false := by
    unfold hasSuffix letterExt
    rw [Bool.eq_false_iff]
    intro h; exact hnl (List.isSuffixOf_iff_suffix.1 h)
  have hss : trimSuffix file sigExt = file := by
    unfold trimSuffix hasSuffix sigExt
    rw [if_neg]
    intro h; exact hns (List.isSuffixOf_iff_suffix.1 h)
  have hsigf : (verifyPath V false [] file).1 = .ok () := by
    unfold verifyPath verifyFresh verifyKind
    rw [if_neg (by simp), stdInOut_eq, if_neg hf, hls, hss]
    simp only [Bool.false_eq_true, if_false]
    unfold verifySigFile
    have hrd : V.read (file ++ sigExt) = some content := hV.read _ _ hw
    rw [hV.source file data hf hdata, hrd, hE, hv]
    obtain ⟨t, ht⟩ := formatSignatures_named hinfo V.errText file (file ++ sigExt) _
    dsimp only
    rw [if_neg (by simp), ht]
    rfl
  simp only [verifyCommand, hglob, ok_bind, hV.stat file data hdata, Bool.false_eq_true, if_false]
  exact hsigf

/-! ## C63: `jess checksum` -/

theorem extRev_spec : ∀ (r acc e : Bytes), extRev r acc = 46 :: e ↔ ∃ a b, r = a ++ 46 :: b ∧ 46 ∉ a ∧ 47 ∉ a ∧ e = a.reverse ++ acc
  | [], acc, e => by simp [extRev]
  | c :: cs, acc, e => by
    unfold extRev
    split
    · rename_i hc
      subst hc
      constructor
      · intro h; cases h
      · rintro ⟨a, b, h, _, h2, _⟩
        cases a with
        | nil => simp at h
        | cons x xs => simp only [List.cons_append, List.cons.injEq] at h; rw [← h.1] at h2; simp at h2
    · rename_i hc
      split
      · rename_i hd
        subst hd
        constructor
        · intro h
          cases h
          exact ⟨[], cs, rfl, by simp, by simp, rfl⟩
        · rintro ⟨a, b, h, h1, _, rfl⟩
          cases a with
          | nil => rfl
          | cons x xs => simp only [List.cons_append, List.cons.injEq] at h; rw [← h.1] at h1; simp at h1
      · rename_i hd
        rw [extRev_spec cs (c :: acc) e]
        constructor
        · rintro ⟨a, b, rfl, h1, h2, rfl⟩
          exact ⟨c :: a, b, rfl, by simp [h1, Ne.symm hd], by simp [h2, Ne.symm hc], by simp⟩
        · rintro ⟨a, b, h, h1, h2, rfl⟩
          cases a with
          | nil => simp only [List.nil_append, List.cons.injEq] at h; exact absurd h.1 hd
          | cons x xs =>
            simp only [List.cons_append, List.cons.injEq] at h
            obtain ⟨rfl, rfl⟩ := h
            simp only [List.mem_cons, not_or] at h1 h2
            exact ⟨xs, b, rfl, h1.2, h2.2, by simp⟩

/-- The extension of a path is what follows its last dot, if no slash follows. -/
theorem pathExt_iff (p e : Bytes) : pathExt p = 46 :: e ↔ (∃ q, p = q ++ 46 :: e) ∧ (46 : UInt8) ∉ e ∧ (47 : UInt8) ∉ e := by
  unfold pathExt
  rw [extRev_spec]
  constructor
  · rintro ⟨a, b, h, h1, h2, rfl⟩
    refine ⟨⟨b.reverse, ?_⟩, by simpa using h1, by simpa using h2⟩
    rw [← List.reverse_reverse p, h]
    simp
  · rintro ⟨⟨q, rfl⟩, h1, h2⟩
    exact ⟨e.reverse, q.reverse, by simp, by simpa using h1, by simpa using h2, by simp⟩

/-- The kinds of files which the checksum commands know. -/
inductive SumKind | json | text
  deriving DecidableEq

/-- By extension. -/
def SumKind.Of (k : SumKind) (file : Bytes) : Prop :=
  match k with
  | .json => ∃ q, file = q ++ b!".json"
  | .text => ∃ q, file = q ++ b!".yml" ∨ file = q ++ b!".yaml" ∨ file = q ++ b!".txt"

theorem checksumAdded_json (T : CmdEnv) (file data : Bytes) (h : SumKind.json.Of file) : pathExt file = b!".json" := by
  obtain ⟨q, rfl⟩ := h
  exact (pathExt_iff _ _).2 ⟨⟨q, rfl⟩, by decide, by decide⟩

theorem pathExt_text (file : Bytes) (h : SumKind.text.Of file) : pathExt file = b!".yml" ∨ pathExt file = b!".yaml" ∨ pathExt file = b!".txt" := by
  obtain ⟨q, rfl | rfl | rfl⟩ := h
  · exact .inl ((pathExt_iff _ _).2 ⟨⟨q, rfl⟩, by decide, by decide⟩)
  · exact .inr (.inl ((pathExt_iff _ _).2 ⟨⟨q, rfl⟩, by decide, by decide⟩))
  · exact .inr (.inr ((pathExt_iff _ _).2 ⟨⟨q, rfl⟩, by decide, by decide⟩))

theorem added_json (T : CmdEnv) (file data : Bytes) (h : SumKind.json.Of file) : checksumAdded T file data = addJSONChecksum T.J T.E.H data := by
  unfold checksumAdded
  rw [checksumAdded_json T file data h, if_pos rfl]

theorem added_text (T : CmdEnv) (file data : Bytes) (h : SumKind.text.Of file) :
    checksumAdded T file data = addTextChecksum T.E.H data b!"#" .afterComment := by
  unfold checksumAdded addYAMLChecksum
  rcases pathExt_text file h with h | h | h <;> rw [h] <;> rfl

theorem added_known (T : CmdEnv) (file data out : Bytes) (h : checksumAdded T file data = .ok out) : ∃ k : SumKind, k.Of file := by
  unfold checksumAdded at h
  split at h
  · rename_i hx; obtain ⟨⟨q, hq⟩, _⟩ := (pathExt_iff _ _).1 hx; exact ⟨.json, q, hq⟩
  · split at h
    · rename_i hx
      rcases hx with hx | hx
      · obtain ⟨⟨q, hq⟩, _⟩ := (pathExt_iff _ _).1 hx; exact ⟨.text, q, .inl hq⟩
      · obtain ⟨⟨q, hq⟩, _⟩ := (pathExt_iff _ _).1 hx; exact ⟨.text, q, .inr (.inl hq)⟩
    · split at h
      · rename_i hx; obtain ⟨⟨q, hq⟩, _⟩ := (pathExt_iff _ _).1 hx; exact ⟨.text, q, .inr (.inr hq)⟩
      · cases h

/-- C63: `jess checksum add` changes nothing or only the file, which then holds a prefix of the content with the checksum added (all of it, if
the command succeeds). Other files than .json, .yml, .yaml and .txt are not changed. -/
theorem checksum_add_safe (T : CmdEnv) (d d' : Disk) (args : List Bytes) (r : Res Unit) (h : checksumAdd T d args = (d', r)) :
    (d' = d ∧ r ≠ .ok ()) ∨ ∃ file data out n, args = [file] ∧ (∃ k : SumKind, k.Of file) ∧ d.fs (resolve T.cwd file) = some (.file data) ∧
      checksumAdded T file data = .ok out ∧ d'.stdout = d.stdout ∧ (∀ k, k ≠ resolve T.cwd file → d'.fs k = d.fs k) ∧
      d'.fs (resolve T.cwd file) = some (.file (out.take n)) ∧ (r = .ok () → out.take n = out) := by
  unfold checksumAdd at h
  split at h
  · rename_i file
    split at h
    · cases h; exact .inl ⟨rfl, by simp⟩
    · rename_i out hp
      simp only [bind_ok_iff] at hp
      obtain ⟨data, hr, hp⟩ := hp
      have hin : d.fs (resolve T.cwd file) = some (.file data) := by
        unfold FS.read at hr
        split at hr
        · cases hr
        · cases hr
        · rename_i hx; cases hr; exact hx
      unfold FS.write at h
      split at h
      · cases h; exact .inl ⟨rfl, by simp⟩
      · cases ho : T.out with
        | done =>
          rw [ho] at h; cases h
          exact .inr ⟨file, data, out, out.length, rfl, added_known T file data out hp, hin, hp, rfl, fun k hk => by simp [FS.set, hk],
            by simp [FS.set], fun _ => by simp⟩
        | refused => rw [ho] at h; cases h; exact .inl ⟨rfl, by simp⟩
        | stopped n =>
          rw [ho] at h; cases h
          exact .inr ⟨file, data, out, n, rfl, added_known T file data out hp, hin, hp, rfl, fun k hk => by simp [FS.set, hk],
            by simp [FS.set], fun h => by cases h⟩
  · cases h; exact .inl ⟨rfl, by simp⟩

/-- C63. After a successful `jess checksum add`, `jess checksum verify` succeeds. The conditions are those of C38 and C43: a JSON document is an object,
checksums that were there before match, and a text is not entirely a comment. -/
theorem checksum_commands_partial (T : CmdEnv) (hH : T.E.H.Sized) {okKey : Bytes → Prop} {okVal : JVal → Prop} {okRaw : Bytes → Prop}
    (hJ : T.J.Sound okKey okVal okRaw) (d d1 : Disk) (file data : Bytes) (hin : d.fs (resolve T.cwd file) = some (.file data))
    (htext : SumKind.text.Of file → ∃ c ms, TextFile data b!"#" c ms ∧ CanAdd data b!"#" c .afterComment ∧
      ∀ m ∈ ms, textChecksumKey <+: m → ChecksumMatches T.E.H c m)
    (hjson : SumKind.json.Of file → ∃ c s ms, JsonFile T.J data c s (.obj ms) ∧ AsciiMeta T.J c s ∧
      (¬ HasKey T.J b!"_jess-checksum" ms ∧ ¬ HasKey T.J b!"_jess-signature" ms) ∧
      (∀ v x, c = some v → InValue T.J x v → SumMatches T.E.H (T.J.pretty (T.J.sortKeys (.obj ms))) x))
    (h : checksumAdd T d [file] = (d1, .ok ())) : checksumVerify T d1 [file] = .ok () := by
  rcases checksum_add_safe T d d1 _ _ h with ⟨_, hx⟩ | ⟨file', data', out, n, ha, ⟨k, hk⟩, hin', hadd, _, _, hw, hfull⟩
  · exact absurd rfl hx
  cases ha
  rw [hin] at hin'
  cases hin'
  rw [hfull rfl] at hw
  have hread : d1.fs.read (resolve T.cwd file) = .ok out := by unfold FS.read; rw [hw]
  simp only [checksumVerify, hread, ok_bind]
  cases k with
  | json =>
    rw [added_json T file data hk] at hadd
    obtain ⟨c, s, ms, h1, h2, h3, h4⟩ := hjson hk
    rw [checksumAdded_json T file data hk, if_pos rfl]
    exact (json_checksum_round_trip_partial hJ T.E.H hH T.E T.w data out c s _ h1 h2 ms rfl h3 h4 hadd).1
  | text =>
    rw [added_text T file data hk] at hadd
    obtain ⟨c, ms, h1, h2, h3⟩ := htext hk
    obtain ⟨out', ms', e1, _, _, _, e5, _⟩ := text_checksum_round_trip_partial T.E.H hH data b!"#" c .afterComment ms h1 h2
    rw [hadd] at e1
    cases e1
    have hv := e5.2 h3
    unfold verifyYAMLChecksum
    rcases pathExt_text file hk with hx | hx | hx <;> rw [hx] <;> exact hv

/-! ## Concrete cases -/

/-- A header serializer that reads what it writes. -/
def soundHeader : HeaderCodec where
  dump l := if toyLoadLetter (toyDumpLetter l ++ [10]) = .ok l then .ok (toyDumpLetter l) else .error .unsupported
  load := toyLoadLetter

theorem soundHeader_sound : soundHeader.Sound := by
  intro l hdr h
  simp only [soundHeader] at h
  split at h
  · cases h; assumption
  · cases h

/-- A user in the directory `/h`. -/
def toyCmd (e : Envelope) (out : WriteEnd) (yes : Bool) : CmdEnv where
  E := toySigEnv
  J := toyJson
  w := namedWorld
  rng := toyRng
  hc := soundHeader
  envelopes n := if n = b!"env" then .ok e else .error .notFound
  reqs := none
  metaFlag := [(b!"version", b!"1")]
  cwd := [b!"h"]
  stdin := .ok b!"typed"
  answer _ := .ok yes
  out := out
  now := 7

/-- A disk with these files in `/h`. -/
def toyDisk (files : List (Bytes × Bytes)) : Disk :=
  { fs := fun l =>
      match l with
      | [] => some .dir
      | [h] => if h = b!"h" then some .dir else none
      | [f, _] => (files.lookup f).map .file
      | _ => none
    stdout := [] }

/-- What is in a file of `/h`. -/
def Disk.content (d : Disk) (f : Bytes) : Option Node := d.fs [f, b!"h"]

/-- The hypotheses of the theorems are met: a file is closed, the letter is opened, under its default name and elsewhere; with an existing output
the user is asked; a changed letter is not written; a file is signed and verified; checksums are added and verified. -/
theorem commands_example :
    let T := toyCmd (toyEnvelope b!"v2" [] [b!"alice"] [b!"bob"]) .done true
    let N := toyCmd (toyEnvelope b!"v2" [] [b!"alice"] [b!"bob"]) .done false
    let d := toyDisk [(b!"f", b!"hello"), (b!"bad.letter", b!"bad")]
    let d1 := (closeCommand T d [b!"f", b!"with", b!"env"] []).1
    let d2 := (openCommand T d1 [b!"f.letter"] b!"g").1
    (closeCommand T d [b!"f", b!"with", b!"env"] []).2 = .ok () ∧ d1.content b!"f" = some (.file b!"hello") ∧
    (openCommand T d1 [b!"f.letter"] b!"g").2 = .ok () ∧ d2.content b!"g" = some (.file b!"hello") ∧ d2.content b!"f.letter" ≠ none ∧
    (openCommand T d1 [b!"../h/f.letter"] b!"-").1.stdout = b!"hello" ∧
    (openCommand N d1 [b!"f.letter"] []).2 = .ok () ∧ (openCommand N d1 [b!"f.letter"] []).1.content b!"f" = some (.file b!"hello") ∧
    (openCommand T d [b!"bad.letter"] []).2 ≠ .ok () ∧ (openCommand T d [b!"bad.letter"] []).1.content b!"bad" = none ∧
    (closeCommand T d [b!"bad.letter", b!"with", b!"env"] []).2 = .error .missing := by
  decide +kernel

theorem sums_example :
    let T := toyCmd (toyEnvelope b!"signfile_v2" [] [b!"alice"] []) .done true
    let d := toyDisk [(b!"f", b!"hello"), (b!"n.txt", b!"# top\nhello\n"), (b!"j.json", encD (.obj toyDoc))]
    let d1 := (signCommand T d [b!"f", b!"with", b!"env"] []).1
    let d2 := (checksumAdd T d1 [b!"n.txt"]).1
    let d3 := (checksumAdd T d2 [b!"j.json"]).1
    (signCommand T d [b!"f", b!"with", b!"env"] []).2 = .ok () ∧ 
    (match d1.content b!"f.sig" with
      | some (.file c) => decide (verifyCommand (toyVerify namedWorld [(b!"f", b!"hello"), (b!"f.sig", c)] [] none) [b!"f"] = .ok ())
      | _ => false) = true ∧
    checksumVerify T d [b!"n.txt"] ≠ .ok () ∧ checksumVerify T d2 [b!"n.txt"] = .ok () ∧
    checksumVerify T d [b!"j.json"] ≠ .ok () ∧ checksumVerify T d3 [b!"j.json"] = .ok () ∧
    (checksumAdd T d [b!"f"]).2 = .error .unsupported := by
  decide +kernel

/-- C61 to C63 are REFUTED where an existing output is concerned, and for the name `-`: (1) when writing fails, the old content of the output is
lost (opening, closing, signing, and the file itself when a checksum is added); (2) opening `-.letter` (the default output for closing
standard input) prints the decrypted data instead of writing the file; (3) signing with `--output -` writes a file. -/
theorem commands_refuted :
    let T := toyCmd (toyEnvelope b!"v2" [] [b!"alice"] [b!"bob"]) .done true
    let F := toyCmd (toyEnvelope b!"v2" [] [b!"alice"] [b!"bob"]) (.stopped 0) true
    let S := toyCmd (toyEnvelope b!"signfile_v2" [] [b!"alice"] []) .done true
    let FS := toyCmd (toyEnvelope b!"signfile_v2" [] [b!"alice"] []) (.stopped 0) true
    let d := toyDisk [(b!"f", b!"hello"), (b!"f.letter", b!"old"), (b!"f.sig", b!"old"), (b!"n.txt", b!"data\n")]
    ((closeCommand F d [b!"f", b!"with", b!"env"] []).2 ≠ .ok () ∧
      (closeCommand F d [b!"f", b!"with", b!"env"] []).1.content b!"f.letter" = some (.file [])) ∧
    ((signCommand FS d [b!"f", b!"with", b!"env"] []).2 ≠ .ok () ∧
      (signCommand FS d [b!"f", b!"with", b!"env"] []).1.content b!"f.sig" = some (.file [])) ∧
    ((checksumAdd FS d [b!"n.txt"]).2 ≠ .ok () ∧ (checksumAdd FS d [b!"n.txt"]).1.content b!"n.txt" = some (.file [])) ∧
    (let d1 := (closeCommand T d [b!"-", b!"with", b!"env"] []).1
     d1.content b!"-.letter" ≠ none ∧ d1.stdout = [] ∧
       (openCommand T d1 [b!"-.letter"] []).1.stdout = b!"typed" ∧ (openCommand T d1 [b!"-.letter"] []).1.content b!"-" = none) ∧
    ((signCommand S d [b!"f", b!"with", b!"env"] b!"-").2 = .ok () ∧ (signCommand S d [b!"f", b!"with", b!"env"] b!"-").1.content b!"-" ≠ none) := by
  decide +kernel

end Jess
