import Verif.Props.CmdFiles
import Verif.Lemmas.Rows

/-! C73: the report of `jess verify` names the signers. -/

namespace Jess

/-- The lines of a text. -/
def textLines (t : Bytes) : List Bytes := splitBytes (· == 10) t

/-- Lines with their line ends. -/
def unlines (ls : List Bytes) : Bytes := ls.flatMap (· ++ [10])

/-- How a signer has to be called (specification): by name and ID if the trust store knows the signer, otherwise by ID. -/
def signerShown (w : World) (id : Bytes) : Bytes :=
  match w.store.bind (fun get => (get id true).toOption) with
  | some s => (s.info.map (·.name)).getD [] ++ b!" (" ++ id ++ b!")"
  | none => id

/-- The texts in a report are on one line: the IDs and names of the signers, the metadata. -/
structure OneLineReport (w : World) (fds : List FileData) : Prop where
  signers : ∀ fd ∈ fds, ∀ id ∈ fd.signerIDs, 10 ∉ signerShown w id
  metaData : ∀ fd ∈ fds, ∀ p ∈ fd.signed.metaData, 10 ∉ p.1 ∧ 10 ∉ p.2

theorem unlines_append (a b : List Bytes) : unlines (a ++ b) = unlines a ++ unlines b := by simp [unlines]

theorem unlines_cons (a : Bytes) (b : List Bytes) : unlines (a :: b) = a ++ 10 :: unlines b := by simp [unlines]

theorem textLines_unlines {ls : List Bytes} (h : ∀ l ∈ ls, 10 ∉ l) : textLines (unlines ls) = ls ++ [[]] := by
  induction ls with
  | nil => rfl
  | cons l ls ih =>
    unfold textLines at *
    rw [unlines_cons, splitBytes_at (by decide), splitBytes_none, ih (fun x hx => h x (by simp [hx]))]
    · rfl
    · intro c hc
      rw [beq_eq_false_iff_ne]
      intro he
      subst he
      exact h l (by simp) hc

theorem signerText_shown {w : World} {id t : Bytes} (h : signerText w id = .ok t) : t = signerShown w id := by
  unfold signerText at h
  unfold signerShown
  cases hw : w.store with
  | none => rw [hw] at h; cases h
  | some get =>
    rw [hw] at h
    dsimp only at h
    simp only [Option.bind_some]
    split at h
    · rename_i e he
      cases h
      rw [he]; rfl
    · rename_i s hs
      rw [hs]
      split at h
      · cases h
      · rename_i i hi
        cases h
        simp [Except.toOption, hi]

theorem signerTexts_shown {w : World} : ∀ {ids ts : List Bytes}, signerTexts w ids = .ok ts → ts = ids.map (signerShown w)
  | [], ts, h => by cases h; rfl
  | id :: ids, ts, h => by
    rw [signerTexts] at h
    simp only [bind_ok_iff] at h
    obtain ⟨t, ht, us, hus, h⟩ := h
    cases h
    rw [signerText_shown ht, signerTexts_shown hus]
    rfl

/-- The lines of the parts of a report. -/
def fdLines (w : World) (fd : FileData) : List Bytes :=
  [b!"Verification: OK"] ++ (if fd.signature.isSome then [] :: fd.signerIDs.map (fun id => b!"Signed By: " ++ signerShown w id) else []) ++
  (match fd.fileHash with
    | none => []
    | some h => [[], b!"Hash Alg: " ++ lhashName h.alg, b!"Hash Sum: " ++ hexEncode h.digest]) ++
  (if fd.signed.metaData.isEmpty then []
    else [] :: b!"Metadata:" :: (sortMeta fd.signed.metaData).map (fun p => b!"    " ++ p.1 ++ b!": " ++ p.2))

theorem formatSignature_lines {et : Err → Bytes} {w : World} {fd : FileData} {t : Bytes} (hok : fd.verificationError = none)
    (h : formatSignature et w fd = .ok t) : t = unlines (fdLines w fd) := by
  unfold formatSignature at h
  rw [bind_ok_iff] at h
  obtain ⟨s, hs, h⟩ := h
  cases h
  unfold fdLines
  rw [unlines_append, unlines_append, unlines_append]
  congr 1
  · congr 1
    · congr 1
      · rw [hok]; rfl
      · unfold signerPart at hs
        unfold FileData.signerIDs
        cases hl : fd.signature with
        | none => rw [hl] at hs; cases hs; rfl
        | some l =>
          rw [hl] at hs
          simp only [bind_ok_iff] at hs
          obtain ⟨ts, hts, hs⟩ := hs
          cases hs
          rw [signerTexts_shown hts]
          simp [unlines, List.flatMap_map]
    · unfold hashPart
      cases fd.fileHash <;> simp [unlines]
  · unfold metaPart
    split
    · rfl
    · simp [unlines, List.flatMap_map]

/-- The lines of the loop over two signatures. -/
def twoLines (w : World) (fds : List FileData) : List Bytes :=
  fds.flatMap (fun fd => b!"2 Signatures:" :: [] :: [] :: fdLines w fd ++ [[], []])

theorem formatTwo_lines {et : Err → Bytes} {w : World} : ∀ {fds : List FileData} {t : Bytes}, (∀ fd ∈ fds, fd.verificationError = none) →
    formatTwo et w fds = .ok t → t = unlines (twoLines w fds)
  | [], t, _, h => by cases h; rfl
  | fd :: fds, t, hok, h => by
    rw [formatTwo] at h
    simp only [bind_ok_iff] at h
    obtain ⟨a, ha, b, hb, h⟩ := h
    cases h
    rw [formatSignature_lines (hok fd (by simp)) ha, formatTwo_lines (fun x hx => hok x (by simp [hx])) hb]
    simp [twoLines, unlines]

/-- The lines of the report. -/
def reportLines (w : World) (f s : Bytes) (fds : List FileData) : List Bytes :=
  (match fds with
    | [fd] => fdLines w fd
    | [_, _] => twoLines w fds
    | _ => []) ++ (if f ≠ [] ∨ s ≠ [] then [[], b!"File: " ++ f, b!"Sig:  " ++ s] else [])

theorem formatSignatures_lines {et : Err → Bytes} {w : World} {f s : Bytes} {fds : List FileData} {t : Bytes}
    (hok : ∀ fd ∈ fds, fd.verificationError = none) (h : formatSignatures et w f s fds = .ok t) : t = unlines (reportLines w f s fds) := by
  unfold formatSignatures at h
  rw [bind_ok_iff] at h
  obtain ⟨a, ha, h⟩ := h
  cases h
  unfold reportLines
  rw [unlines_append]
  congr 1
  · unfold signaturesPart at ha
    split at ha
    · exact formatSignature_lines (hok _ (by simp)) ha
    · exact formatTwo_lines hok ha
    · rename_i h1 h2
      cases ha
      split
      · exact absurd rfl (h1 _)
      · exact absurd rfl (h2 _ _)
      · rfl
  · unfold filesPart
    split
    · simp [unlines]
    · rfl

/-! ## Which lines there are -/

theorem hex_noLF (d : Bytes) : 10 ∉ hexEncode d := by
  intro h
  unfold hexEncode at h
  obtain ⟨b, _, hb⟩ := List.mem_flatMap.1 h
  have : ∀ n, hexChar n ≠ 10 ∨ 16 ≤ n := by
    intro n
    by_cases hn : n < 16
    · left
      have : n = 0 ∨ n = 1 ∨ n = 2 ∨ n = 3 ∨ n = 4 ∨ n = 5 ∨ n = 6 ∨ n = 7 ∨ n = 8 ∨ n = 9 ∨ n = 10 ∨ n = 11 ∨ n = 12 ∨ n = 13 ∨ n = 14 ∨ n = 15 := by omega
      rcases this with h | h | h | h | h | h | h | h | h | h | h | h | h | h | h | h <;> subst h <;> decide
    · right; omega
  simp only [List.mem_cons, List.not_mem_nil, or_false] at hb
  have hlt := b.toNat_lt
  rcases hb with hb | hb
  · rcases this (b.toNat / 16) with h | h
    · exact h hb.symm
    · omega
  · rcases this (b.toNat % 16) with h | h
    · exact h hb.symm
    · omega

theorem lhashName_noLF (n : Nat) : 10 ∉ lhashName n := by
  unfold lhashName
  cases h : lhashAlgs.find? (fun a => a.1 == n) with
  | none => decide
  | some a =>
    have hm := List.mem_of_find?_eq_some h
    have : ∀ a ∈ lhashAlgs, 10 ∉ a.2.1 := by decide +kernel
    exact this a hm

theorem insertMeta_perm (p : Bytes × Bytes) (l : List (Bytes × Bytes)) : (insertMeta p l).Perm (p :: l) := by
  induction l with
  | nil => exact List.Perm.refl _
  | cons q l ih =>
    rw [insertMeta]
    split
    · exact (List.Perm.cons q ih).trans (List.Perm.swap p q l)
    · exact List.Perm.refl _

theorem sortMeta_perm (l : List (Bytes × Bytes)) : (sortMeta l).Perm l := by
  induction l with
  | nil => exact List.Perm.refl _
  | cons p l ih => exact (insertMeta_perm p _).trans (List.Perm.cons p ih)

theorem fdLines_noLF {w : World} {fds : List FileData} (h : OneLineReport w fds) {fd : FileData} (hfd : fd ∈ fds) :
    ∀ l ∈ fdLines w fd, 10 ∉ l := by
  intro l hl
  unfold fdLines at hl
  simp only [List.mem_append, List.mem_singleton] at hl
  rcases hl with ((rfl | hl) | hl) | hl
  · decide
  · split at hl
    · rcases List.mem_cons.1 hl with rfl | hl
      · simp
      · obtain ⟨id, hid, rfl⟩ := List.mem_map.1 hl
        have := h.signers fd hfd id hid
        simp only [List.mem_append, not_or]
        exact ⟨by decide, this⟩
    · cases hl
  · split at hl
    · cases hl
    · simp only [List.mem_cons, List.not_mem_nil, or_false] at hl
      rcases hl with rfl | rfl | rfl
      · simp
      · simp only [List.mem_append, not_or]; exact ⟨by decide, lhashName_noLF _⟩
      · simp only [List.mem_append, not_or]; exact ⟨by decide, hex_noLF _⟩
  · split at hl
    · cases hl
    · rcases List.mem_cons.1 hl with rfl | hl
      · simp
      · rcases List.mem_cons.1 hl with rfl | hl
        · decide
        · obtain ⟨p, hp, rfl⟩ := List.mem_map.1 hl
          have := h.metaData fd hfd p ((sortMeta_perm _).mem_iff.1 hp)
          simp only [List.mem_append, not_or]
          exact ⟨⟨⟨by decide, this.1⟩, by decide⟩, this.2⟩

/-- The lines that begin with a word. -/
def linesWith (word : Bytes) (t : Bytes) : List Bytes := (textLines t).filter (hasPrefix · word)

theorem filter_map_const {α : Type} (p : Bytes → Bool) (f : α → Bytes) (b : Bool) (l : List α) (h : ∀ x ∈ l, p (f x) = b) :
    (l.map f).filter p = if b then l.map f else [] := by
  cases b with
  | true => simp only [if_true]; rw [List.filter_eq_self]; intro x hx; obtain ⟨y, hy, rfl⟩ := List.mem_map.1 hx; exact h y hy
  | false =>
    simp only [Bool.false_eq_true, if_false]
    rw [List.filter_eq_nil_iff]
    intro x hx
    obtain ⟨y, hy, rfl⟩ := List.mem_map.1 hx
    rw [h y hy]
    simp


/-- A kind of line: how the parts of a report answer to it. -/
structure LineKind (p : Bytes → Bool) (ok sg hs md : Bool) : Prop where
  ok : p b!"Verification: OK" = ok
  blank : p [] = false
  signer : ∀ t : Bytes, p (b!"Signed By: " ++ t) = sg
  alg : ∀ t : Bytes, p (b!"Hash Alg: " ++ t) = false
  hash : ∀ t : Bytes, p (b!"Hash Sum: " ++ t) = hs
  metaHead : p b!"Metadata:" = false
  metaLine : ∀ t : Bytes, p (b!"    " ++ t) = md
  two : p b!"2 Signatures:" = false
  file : ∀ t : Bytes, p (b!"File: " ++ t) = false
  sig : ∀ t : Bytes, p (b!"Sig:  " ++ t) = false

/-- The lines about a signature of a kind. -/
def kindLines (w : World) (ok sg hs md : Bool) (fd : FileData) : List Bytes :=
  (if ok then [b!"Verification: OK"] else []) ++
  (if sg then fd.signerIDs.map (fun id => b!"Signed By: " ++ signerShown w id) else []) ++
  (if hs then fd.fileHash.toList.map (fun h => b!"Hash Sum: " ++ hexEncode h.digest) else []) ++
  (if md then (sortMeta fd.signed.metaData).map (fun p => b!"    " ++ p.1 ++ b!": " ++ p.2) else [])

theorem fdLines_kind {p : Bytes → Bool} {ok sg hs md : Bool} (k : LineKind p ok sg hs md) (w : World) (fd : FileData) :
    (fdLines w fd).filter p = kindLines w ok sg hs md fd := by
  unfold fdLines kindLines
  rw [List.filter_append, List.filter_append, List.filter_append]
  have h2 : ∀ l : List Bytes, (([] : Bytes) :: l).filter p = l.filter p := by
    intro l; rw [List.filter_cons, k.blank]; rfl
  congr 1
  · congr 1
    · congr 1
      · rw [List.filter_cons, k.ok]; rfl
      · split
        · rw [h2, filter_map_const _ _ sg]
          intro x _; exact k.signer _
        · rename_i hs
          have : fd.signerIDs = [] := by
            unfold FileData.signerIDs
            cases hl : fd.signature with
            | none => rfl
            | some l => rw [hl] at hs; simp at hs
          rw [this]
          cases sg <;> rfl
    · cases fd.fileHash with
      | none => cases hs <;> rfl
      | some h =>
        dsimp only
        rw [h2, List.filter_cons, k.alg, List.filter_cons, k.hash]
        cases hs <;> rfl
  · split
    · rename_i he
      rw [List.isEmpty_iff.1 he]
      cases md <;> rfl
    · rw [h2, List.filter_cons, k.metaHead, if_neg (by simp), filter_map_const _ _ md]
      intro x _
      have := k.metaLine (x.1 ++ (b!": " ++ x.2))
      rwa [← List.append_assoc, ← List.append_assoc] at this

theorem reportLines_kind {p : Bytes → Bool} {ok sg hs md : Bool} (k : LineKind p ok sg hs md) (w : World) (f s : Bytes) (fds : List FileData)
    (hn : fds.length ≤ 2) : (reportLines w f s fds).filter p = fds.flatMap (kindLines w ok sg hs md) := by
  unfold reportLines
  rw [List.filter_append]
  have h1 : (if f ≠ [] ∨ s ≠ [] then [[], b!"File: " ++ f, b!"Sig:  " ++ s] else []).filter p = [] := by
    split
    · rw [List.filter_cons, k.blank, List.filter_cons, k.file, List.filter_cons, k.sig]; rfl
    · rfl
  rw [h1, List.append_nil]
  have h2 : ∀ l : List Bytes, (([] : Bytes) :: l).filter p = l.filter p := by
    intro l; rw [List.filter_cons, k.blank]; rfl
  match fds, hn with
  | [], _ => rfl
  | [fd], _ => simp [fdLines_kind k]
  | [a, b], _ =>
    dsimp only
    unfold twoLines
    rw [List.filter_flatMap]
    congr 1
    funext fd
    rw [List.cons_append, List.cons_append, List.cons_append, List.filter_cons, k.two, if_neg (by simp), h2, h2, List.filter_append, h2, h2, fdLines_kind k]
    simp

theorem reportLines_noLF {w : World} {f s : Bytes} {fds : List FileData} (h : OneLineReport w fds) (hf : 10 ∉ f) (hs : 10 ∉ s) :
    ∀ l ∈ reportLines w f s fds, 10 ∉ l := by
  intro l hl
  unfold reportLines at hl
  rcases List.mem_append.1 hl with hl | hl
  · split at hl
    · exact fdLines_noLF h (by simp) l hl
    · unfold twoLines at hl
      obtain ⟨fd, hfd, hl⟩ := List.mem_flatMap.1 hl
      simp only [List.cons_append, List.mem_cons, List.mem_append, List.not_mem_nil, or_false] at hl
      rcases hl with rfl | rfl | rfl | hl | rfl | rfl
      · decide
      · simp
      · simp
      · exact fdLines_noLF h hfd l hl
      · simp
      · simp
    · cases hl
  · split at hl
    · simp only [List.mem_cons, List.not_mem_nil, or_false] at hl
      rcases hl with rfl | rfl | rfl
      · simp
      · simp only [List.mem_append, not_or]; exact ⟨by decide, hf⟩
      · simp only [List.mem_append, not_or]; exact ⟨by decide, hs⟩
    · cases hl

/-- The lines of a kind in a report. -/
theorem report_kind {et : Err → Bytes} {w : World} {f s : Bytes} {fds : List FileData} {t : Bytes} {p : Bytes → Bool} {ok sg hs md : Bool}
    (k : LineKind p ok sg hs md) (hn : fds.length ≤ 2) (hone : OneLineReport w fds) (hf : 10 ∉ f) (hs' : 10 ∉ s)
    (hok : ∀ fd ∈ fds, fd.verificationError = none) (h : formatSignatures et w f s fds = .ok t) :
    (textLines t).filter p = fds.flatMap (kindLines w ok sg hs md) := by
  rw [formatSignatures_lines hok h, textLines_unlines (reportLines_noLF hone hf hs'), List.filter_append, reportLines_kind k _ _ _ _ hn]
  rw [List.filter_cons, k.blank]
  simp

theorem kind_signer : LineKind (hasPrefix · b!"Signed By: ") false true false false := by
  constructor <;> first | decide | (intro t; simp [hasPrefix, List.isPrefixOf])

theorem kind_verification : LineKind (hasPrefix · b!"Verification") true false false false := by
  constructor <;> first | decide | (intro t; simp [hasPrefix, List.isPrefixOf])

theorem kind_hash : LineKind (hasPrefix · b!"Hash Sum: ") false false true false := by
  constructor <;> first | decide | (intro t; simp [hasPrefix, List.isPrefixOf])

theorem kind_meta : LineKind (hasPrefix · b!"    ") false false false true := by
  constructor <;> first | decide | (intro t; simp [hasPrefix, List.isPrefixOf])

end Jess
