import Verif.Props.ReportVerify
import Verif.Props.TextFormat
import Verif.Props.Json
import Verif.Props.KeyCodec

/-! What the mutation tests found missing: the characters of names in texts (C28, C111), the order of metadata and the result of a failed verification in
reports (C73), what is kept of a letter in a JSON document (C43), generated signets. -/

namespace Jess

/-! ## Names in texts -/

/-- The characters of names in texts (specification): lower case letters, digits and the dash. -/
def NameChar (c : UInt8) : Prop := (97 ≤ c.toNat ∧ c.toNat ≤ 122) ∨ (48 ≤ c.toNat ∧ c.toNat ≤ 57) ∨ c.toNat = 45

theorem dashed_chars : ∀ (s : Bytes) (r : Bool), ∀ c ∈ dashed r s,
    (65 ≤ c.toNat ∧ c.toNat ≤ 90) ∨ (97 ≤ c.toNat ∧ c.toNat ≤ 122) ∨ (48 ≤ c.toNat ∧ c.toNat ≤ 57) ∨ c.toNat = 45
  | [], _ => by intro c hc; simp [dashed] at hc
  | x :: xs, r => by
    intro c hc
    rw [dashed] at hc
    split at hc
    · rename_i hx
      rcases List.mem_cons.1 hc with h | h
      · subst h
        simp only [isAlnum, Bool.or_eq_true, Bool.and_eq_true, decide_eq_true_eq, UInt8.le_iff_toNat_le] at hx
        rcases hx with (h | h) | h
        · exact Or.inl h
        · exact Or.inr (Or.inl h)
        · exact Or.inr (Or.inr (Or.inl h))
      · exact dashed_chars xs _ c h
    · split at hc
      · exact dashed_chars xs _ c hc
      · rcases List.mem_cons.1 hc with h | h
        · subst h; exact Or.inr (Or.inr (Or.inr rfl))
        · exact dashed_chars xs _ c h

theorem trimDash_mem {s : Bytes} {c : UInt8} (h : c ∈ trimDash s) : c ∈ s := by
  unfold trimDash at h
  rw [List.mem_reverse] at h
  have h1 := (List.dropWhile_sublist _).subset h
  rw [List.mem_reverse] at h1
  exact (List.dropWhile_sublist _).subset h1

/-- C28. A name in a text consists of lower case letters, digits and dashes, whatever the name of the signet is: in particular it has no colon. -/
theorem text_name_chars (s : Bytes) : ∀ c ∈ textName s, NameChar c := by
  intro c hc
  unfold textName asciiLower at hc
  obtain ⟨d, hd, rfl⟩ := List.mem_map.1 hc
  have := dashed_chars s false d (trimDash_mem hd)
  by_cases h : (65 ≤ d && d ≤ 90) = true
  · rw [if_pos h]
    simp only [Bool.and_eq_true, decide_eq_true_eq, UInt8.le_iff_toNat_le] at h
    have h1 : (65 : UInt8).toNat = 65 := rfl
    have h2 : (90 : UInt8).toNat = 90 := rfl
    left
    rw [UInt8.toNat_add]
    have h3 : (32 : UInt8).toNat = 32 := rfl
    omega
  · rw [if_neg h]
    simp only [Bool.and_eq_true, decide_eq_true_eq, UInt8.le_iff_toNat_le] at h
    have h1 : (65 : UInt8).toNat = 65 := rfl
    have h2 : (90 : UInt8).toNat = 90 := rfl
    unfold NameChar
    omega

theorem dashed_id : ∀ {s : Bytes} (r : Bool), (∀ c ∈ s, isAlnum c = true) → dashed r s = s
  | [], _, _ => by simp [dashed]
  | x :: xs, r, h => by
    rw [dashed, if_pos (h x (by simp)), dashed_id false (fun c hc => h c (by simp [hc]))]

theorem dropWhile_all_false {p : UInt8 → Bool} {s : Bytes} (h : ∀ c ∈ s, p c = false) : s.dropWhile p = s := by
  cases s with
  | nil => rfl
  | cons x xs => rw [List.dropWhile_cons, h x (by simp)]; simp

/-- C28. A name of lower case letters and digits only is kept. -/
theorem text_name_kept (s : Bytes) (h : ∀ c ∈ s, (97 ≤ c.toNat ∧ c.toNat ≤ 122) ∨ (48 ≤ c.toNat ∧ c.toNat ≤ 57)) : textName s = s := by
  have h1 : ∀ c ∈ s, isAlnum c = true := by
    intro c hc
    simp only [isAlnum, Bool.or_eq_true, Bool.and_eq_true, decide_eq_true_eq, UInt8.le_iff_toNat_le]
    rcases h c hc with h | h
    · exact Or.inl (Or.inr h)
    · exact Or.inr h
  have h2 : ∀ c ∈ s, (c == 45) = false := by
    intro c hc
    rw [beq_eq_false_iff_ne]
    rintro rfl
    have := h _ hc
    have h3 : (45 : UInt8).toNat = 45 := rfl
    omega
  have h3 : trimDash s = s := by
    unfold trimDash
    rw [dropWhile_all_false h2, dropWhile_all_false (fun c hc => h2 c (List.mem_reverse.1 hc)), List.reverse_reverse]
  unfold textName
  rw [dashed_id false h1, h3]
  unfold asciiLower
  conv => rhs; rw [← List.map_id s]
  apply List.map_congr_left
  intro c hc
  rw [if_neg]
  · rfl
  · simp only [Bool.and_eq_true, decide_eq_true_eq, UInt8.le_iff_toNat_le]
    have h4 : (65 : UInt8).toNat = 65 := rfl
    have h5 : (90 : UInt8).toNat = 90 := rfl
    have := h c hc
    omega

/-- Names as they are shown. -/
theorem text_name_example : textName b!"ECDH-X25519" = b!"ecdh-x25519" ∧ textName b!"  Alice [work]: A@B " = b!"alice-work-a-b" ∧
    textName b!"Ed25519(SHA2-256)" = b!"ed25519-sha2-256" := by decide +kernel

/-! ## Reports -/

theorem insertMeta_sorted {p : Bytes × Bytes} : ∀ {l : List (Bytes × Bytes)}, l.Pairwise (fun a b => a.1 < b.1) → (∀ q ∈ l, q.1 ≠ p.1) →
    (insertMeta p l).Pairwise (fun a b => a.1 < b.1)
  | [], _, _ => by simp [insertMeta]
  | q :: l, h, hne => by
    rw [insertMeta]
    have hq := List.pairwise_cons.1 h
    split
    · rename_i hlt
      refine List.pairwise_cons.2 ⟨?_, insertMeta_sorted hq.2 (fun x hx => hne x (by simp [hx]))⟩
      intro x hx
      have := (insertMeta_perm p l).mem_iff.1 hx
      rcases List.mem_cons.1 this with h1 | h1
      · rw [h1]; exact hlt
      · exact hq.1 x h1
    · rename_i hlt
      have hpq : p.1 < q.1 := by
        rcases List.le_iff_lt_or_eq.1 (List.not_lt.1 hlt) with h1 | h1
        · exact h1
        · exact absurd h1.symm (hne q (by simp))
      refine List.pairwise_cons.2 ⟨?_, h⟩
      intro x hx
      rcases List.mem_cons.1 hx with h1 | h1
      · rw [h1]; exact hpq
      · exact List.lt_trans hpq (hq.1 x h1)

/-- C73. The metadata of a report is in the order of the keys, whatever the order of the map is. (The keys of a map are different.) -/
theorem metadata_sorted : ∀ (l : List (Bytes × Bytes)), (l.map (·.1)).Nodup →
    (sortMeta l).Pairwise (fun a b => a.1 < b.1) ∧ (sortMeta l).Perm l
  | [], _ => by simp [sortMeta]
  | p :: l, h => by
    have hc := List.nodup_cons.1 (by simpa using h : (p.1 :: l.map (·.1)).Nodup)
    obtain ⟨h1, h2⟩ := metadata_sorted l hc.2
    refine ⟨insertMeta_sorted h1 ?_, sortMeta_perm _⟩
    intro q hq hqp
    exact hc.1 (hqp ▸ List.mem_map.2 ⟨q, h2.mem_iff.1 hq, rfl⟩)

/-- C73. The first line about a signature says whether its verification failed, and with which error. -/
theorem report_result (et : Err → Bytes) (w : World) (fd : FileData) (t : Bytes) (h : formatSignature et w fd = .ok t) :
    (fd.verificationError = none → ∃ r, t = b!"Verification: OK" ++ 10 :: r) ∧
    (∀ e, fd.verificationError = some e → ∃ r, t = b!"Verification FAILED: " ++ et e ++ 10 :: r) := by
  unfold formatSignature at h
  rw [bind_ok_iff] at h
  obtain ⟨s, hs, h⟩ := h
  cases h
  refine ⟨fun h => ⟨s ++ hashPart fd.fileHash ++ metaPart fd.signed.metaData, ?_⟩,
    fun e h => ⟨s ++ hashPart fd.fileHash ++ metaPart fd.signed.metaData, ?_⟩⟩ <;>
    simp [h, resultPart]

theorem report_result_example : (formatSignature (fun _ => b!"bad") toyWorld { verificationError := some .integrity, signed := { labeledHash := [], metaData := [(b!"b", b!"2"), (b!"a", b!"1")] } }).toOption =
    some (b!"Verification FAILED: bad" ++ 10 :: 10 :: b!"Metadata:" ++ 10 :: b!"    a: 1" ++ 10 :: b!"    b: 2" ++ [10]) := by decide +kernel

/-! ## Generated signets -/

/-- `GenerateSignet` gives a signet of the tool with a key pair of the tool, that is not stored yet, and nothing else: version 1, no name, no signature, not
protected and not public. -/
theorem generated_signet (P : Prims) (tool seed : Bytes) (g : Signet) (h : generateSignet P tool seed = .ok g) :
    ∃ t pub priv, getTool tool = some t ∧ t.purpose.usesSignets = true ∧ P.genKey t.name seed = .ok (pub, priv) ∧
      g = { version := 1, scheme := t.name, loadedPub := some pub, loadedPriv := some priv } := by
  unfold generateSignet at h
  split at h
  · cases h
  · rename_i t ht
    split at h
    · rename_i hu
      split at h
      · cases h
      · rename_i pub priv hg
        cases h
        exact ⟨t, pub, priv, ht, hu, hg, rfl⟩
    · cases h

theorem generated_signet_example : (generateSignet toyPrims b!"Ed25519" b!"seed").isOk = true := by decide +kernel

/-! ## JSON -/

/-- C43. What `AddJSONSignature` adds to an object is one signature: the letter without data, so that the document is not repeated in it. The other
signatures, the checksums and the content are kept. -/
theorem json_signature_detached {J : JsonLib} {okKey : Bytes → Prop} {okVal : JVal → Prop} {okRaw : Bytes → Prop} (hJ : J.Sound okKey okVal okRaw)
    (E : SigEnv) (hC : E.C.Sound) (w : World) (rng : Rng) (e : Envelope) (data out : Bytes) (c s : Option JVal) (u : JDoc) (hf : JsonFile J data c s u)
    (hx : AsciiMeta J c s) (ms : List (Bytes × JVal)) (ho : u = .obj ms) (h : addJSONSignature J E w rng data e = .ok out) :
    ∃ content checksums sigs checksums' sigs' new d l, jsonSplit J data = .ok (content, checksums, sigs) ∧ jsonSplit J out = .ok (content, checksums', sigs') ∧
      (∀ x, x ∈ checksums' ↔ x ∈ checksums) ∧ (∀ x, x ∈ sigs' ↔ x ∈ sigs ∨ x = new) ∧
      b64Decode true new = .ok d ∧ E.C.load d = .ok l ∧ l.data = [] := by
  have hsp := (jsonSplit_iff J data _ _ _).2 ⟨c, s, u, hf, rfl, rfl, rfl⟩
  simp only [addJSONSignature, bind_ok_iff, hsp, ok_bind] at h
  obtain ⟨ses, g1, _, _, l, g3, d, g4, g5⟩ := h
  have hsplit := addMeta_split hJ hf (by rw [ho]; trivial) (cs := dedup (metaStrings J c)) (ss := dedup (metaStrings J s ++ [b64Encode true d])) (by
      intro x hx'
      have ha := asciiMeta_mem hx
      simp only [List.mem_append, mem_dedup, List.mem_singleton] at hx'
      rcases hx' with h | h | h
      · exact ha x (by simp [h])
      · exact ha x (by simp [h])
      · subst h; exact b64_ascii _) (fun h0 => dedup_nil h0) (fun h0 => by have := dedup_nil h0; simp at this) g5
  refine ⟨_, _, _, _, _, b64Encode true d, d, _, hsp, hsplit, fun x => by simp [mem_dedup], fun x => by simp [mem_dedup], b64Decode_encode _ _, hC.letter _ _ g4, rfl⟩

end Jess
