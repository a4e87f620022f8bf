import Verif.Model.Json
import Verif.Props.FileSig
import Verif.Lemmas.Text

/-! # C43: checksums and signatures in JSON documents -/

namespace Jess

open Requirements

/-! ## Specification -/

/-- The key is that of a member. -/
def HasKey (J : JsonLib) (key : Bytes) (ms : List (Bytes × JVal)) : Prop := ∃ m ∈ ms, J.unesc m.1 = key

/-- `d'` is the document `d` without its first member with the key; `v` is the value of this member. -/
inductive TakenOut (J : JsonLib) (key : Bytes) : JDoc → Option JVal → JDoc → Prop
  | absent {ms : List (Bytes × JVal)} : ¬ HasKey J key ms → TakenOut J key (.obj ms) none (.obj ms)
  | present {a b : List (Bytes × JVal)} {k : Bytes} {v : JVal} : ¬ HasKey J key a → J.unesc k = key →
      TakenOut J key (.obj (a ++ (k, v) :: b)) (some v) (.obj (a ++ b))
  | other {r : Bytes} : TakenOut J key (.other r) none (.other r)

/-- A string is in the value: the value itself or an element of an array. -/
inductive InValue (J : JsonLib) : Bytes → JVal → Prop
  | str {raw : Bytes} : InValue J (J.unesc raw) (.str raw)
  | elem {raw : Bytes} {l : List JElem} : .str raw ∈ l → InValue J (J.unesc raw) (.arr l)

/-- The text is a JSON document with the metadata values `c` and `s`; `u` is the document without them. -/
def JsonFile (J : JsonLib) (data : Bytes) (c s : Option JVal) (u : JDoc) : Prop :=
  ∃ d d1, J.parse data = some d ∧ TakenOut J b!"_jess-checksum" d c d1 ∧ TakenOut J b!"_jess-signature" d1 s u

/-- The checksum is the hash of the content. -/
def SumMatches (H : Hashes) (content x : Bytes) : Prop := ∃ h : LabeledHash, lhashFromBase58 x = .ok h ∧ h.digest = H h.alg content

/-- The signature is a letter without data, whose signatures are valid for the content, for the public keys the trust store holds for the
stated signers. -/
def SigMatches (E : SigEnv) (w : World) (content x : Bytes) : Prop :=
  ∃ (d : Bytes) (l : Letter) (suite : Suite), b64Decode true x = .ok d ∧ E.C.load d = .ok l ∧ getSuite suiteRegistry l.suiteID = some suite ∧
    SenderAuthentication ∈ suite.provides ∧ Integrity ∈ suite.provides ∧
    l.signatures ≠ [] ∧ ∀ sig ∈ l.signatures, SignatureVerified E.P w suite { l with data := content } sig

/-! ## The model meets the specification -/

theorem find_none_iff {J : JsonLib} {key : Bytes} {ms : List (Bytes × JVal)} :
    ms.find? (fun m => J.unesc m.1 == key) = none ↔ ¬ HasKey J key ms := by
  rw [List.find?_eq_none]
  unfold HasKey
  simp

theorem eraseP_absent {J : JsonLib} {key : Bytes} {ms : List (Bytes × JVal)} (h : ¬ HasKey J key ms) (r : List (Bytes × JVal)) :
    (ms ++ r).eraseP (fun m => J.unesc m.1 == key) = ms ++ r.eraseP (fun m => J.unesc m.1 == key) := by
  induction ms with
  | nil => rfl
  | cons m ms ih =>
    have hm : J.unesc m.1 ≠ key := fun e => h ⟨m, by simp, e⟩
    have := ih (fun ⟨x, hx, e⟩ => h ⟨x, by simp [hx], e⟩)
    simp [List.eraseP_cons, hm, this]

/-- `takeMeta` takes the member out. -/
theorem takeMeta_iff (J : JsonLib) (key : Bytes) (d u : JDoc) (l : List Bytes) :
    takeMeta J d key = (u, l) ↔ ∃ v, TakenOut J key d v u ∧ l = metaStrings J v := by
  constructor
  · intro h
    unfold takeMeta jsonGet at h
    cases d with
    | other r => simp at h; obtain ⟨rfl, rfl⟩ := h; exact ⟨none, .other, rfl⟩
    | obj ms =>
      simp only at h
      cases hf : ms.find? (fun m => J.unesc m.1 == key) with
      | none =>
        rw [hf] at h
        simp at h
        obtain ⟨rfl, rfl⟩ := h
        exact ⟨none, .absent (find_none_iff.1 hf), rfl⟩
      | some m =>
        rw [hf] at h
        simp only [Option.map_some, jsonDelete, Prod.mk.injEq] at h
        obtain ⟨rfl, rfl⟩ := h
        obtain ⟨hm, a, b, rfl, hb⟩ := List.find?_eq_some_iff_append.1 hf
        have ha : ¬ HasKey J key a := by
          rintro ⟨x, hx, e⟩
          have := hb x hx
          simp [e] at this
        refine ⟨some m.2, ?_, rfl⟩
        rw [eraseP_absent ha]
        simp only [List.eraseP_cons, hm, cond_true]
        obtain ⟨k, v⟩ := m
        exact .present ha (by simpa using hm)
  · rintro ⟨v, h, rfl⟩
    unfold takeMeta jsonGet jsonDelete
    cases h with
    | absent h => simp only [find_none_iff.2 h, Option.map_none]; rfl
    | other => rfl
    | present ha hk =>
      simp only
      rw [List.find?_append, find_none_iff.2 ha, eraseP_absent ha]
      simp [hk]

theorem mem_metaStrings (J : JsonLib) (x : Bytes) (v : Option JVal) : x ∈ metaStrings J v ↔ ∃ v', v = some v' ∧ InValue J x v' := by
  cases v with
  | none => simp [metaStrings]
  | some v =>
    cases v with
    | str r =>
      simp only [metaStrings, List.mem_singleton, Option.some.injEq, exists_eq_left']
      constructor
      · rintro rfl; exact .str
      · rintro ⟨⟩; rfl
    | other r =>
      simp only [metaStrings, List.not_mem_nil, Option.some.injEq, exists_eq_left', false_iff]
      rintro ⟨⟩
    | arr l =>
      simp only [metaStrings, List.mem_filterMap, Option.some.injEq, exists_eq_left']
      constructor
      · rintro ⟨e, he, hx⟩
        split at hx
        · cases hx; exact .elem he
        · cases hx
      · rintro ⟨⟩
        rename_i r h
        exact ⟨_, h, rfl⟩

/-- `jsonSplit` finds the metadata and the content. -/
theorem jsonSplit_iff (J : JsonLib) (data content : Bytes) (cs ss : List Bytes) :
    jsonSplit J data = .ok (content, cs, ss) ↔ ∃ c s u, JsonFile J data c s u ∧ content = J.pretty (J.sortKeys u) ∧
      cs = metaStrings J c ∧ ss = metaStrings J s := by
  unfold jsonSplit
  constructor
  · intro h
    split at h
    · cases h
    · rename_i d hd
      cases h1 : takeMeta J d jsonChecksumKey with
      | mk d1 c1 =>
        cases h2 : takeMeta J d1 jsonSignatureKey with
        | mk u s1 =>
          simp only [h1, h2, Except.ok.injEq, Prod.mk.injEq] at h
          obtain ⟨rfl, rfl, rfl⟩ := h
          obtain ⟨c, t1, rfl⟩ := (takeMeta_iff _ _ _ _ _).1 h1
          obtain ⟨s, t2, rfl⟩ := (takeMeta_iff _ _ _ _ _).1 h2
          exact ⟨c, s, u, ⟨d, d1, hd, t1, t2⟩, rfl, rfl, rfl⟩
  · rintro ⟨c, s, u, ⟨d, d1, hd, t1, t2⟩, rfl, rfl, rfl⟩
    have h1 := (takeMeta_iff J jsonChecksumKey d d1 _).2 ⟨c, t1, rfl⟩
    have h2 := (takeMeta_iff J jsonSignatureKey d1 u _).2 ⟨s, t2, rfl⟩
    simp only [hd, h1, h2]

theorem checkEach_ok (f : Bytes → Res Unit) : ∀ l : List Bytes, checkEach f l = .ok () ↔ ∀ x ∈ l, f x = .ok ()
  | [] => by simp [checkEach]
  | x :: xs => by
    simp only [checkEach, bind_ok_iff, checkEach_ok f xs, List.mem_cons, forall_eq_or_imp]
    constructor
    · rintro ⟨⟨⟩, h1, h2⟩; exact ⟨h1, h2⟩
    · rintro ⟨h1, h2⟩; exact ⟨(), h1, h2⟩

theorem checkJSONSum_iff (H : Hashes) (content x : Bytes) : checkJSONSum H content x = .ok () ↔ SumMatches H content x := by
  unfold checkJSONSum SumMatches
  simp only [bind_ok_iff]
  constructor
  · rintro ⟨h, h1, m, h2, h3⟩
    refine ⟨h, h1, ?_⟩
    rw [(lhash_matches_iff H h (fromBase58_valid h1) content).1] at h2
    cases h2
    split at h3
    · rename_i hd; simpa using hd
    · cases h3
  · rintro ⟨h, h1, h2⟩
    refine ⟨h, h1, true, ?_, by simp⟩
    rw [(lhash_matches_iff H h (fromBase58_valid h1) content).1]
    simp [h2]

/-- C43. `VerifyJSONChecksum` succeeds exactly if the text is a JSON document which has at least one checksum, and all its checksums
are the hash of the sorted and formatted document without the metadata. -/
theorem json_checksum_iff (J : JsonLib) (H : Hashes) (data : Bytes) :
    verifyJSONChecksum J H data = .ok () ↔ ∃ c s u, JsonFile J data c s u ∧ (∃ v x, c = some v ∧ InValue J x v) ∧
      ∀ v x, c = some v → InValue J x v → SumMatches H (J.pretty (J.sortKeys u)) x := by
  unfold verifyJSONChecksum
  simp only [bind_ok_iff, checkEach_ok, Prod.exists]
  constructor
  · rintro ⟨content, cs, ss, h1, ⟨⟩, h2, h3⟩
    obtain ⟨c, s, u, hf, rfl, rfl, rfl⟩ := (jsonSplit_iff _ _ _ _ _).1 h1
    refine ⟨c, s, u, hf, ?_, ?_⟩
    · split at h3
      · cases h3
      · rename_i hne
        obtain ⟨x, hx⟩ := List.exists_mem_of_length_pos (Nat.pos_of_ne_zero hne)
        obtain ⟨v, e, hv⟩ := (mem_metaStrings _ _ _).1 hx
        exact ⟨v, x, e, hv⟩
    · intro v x hc hx
      exact (checkJSONSum_iff _ _ _).1 ((checkEach_ok _ _).1 h2 x ((mem_metaStrings _ _ _).2 ⟨v, hc, hx⟩))
  · rintro ⟨c, s, u, hf, ⟨v, x, hc, hx⟩, hall⟩
    refine ⟨_, _, _, (jsonSplit_iff _ _ _ _ _).2 ⟨c, s, u, hf, rfl, rfl, rfl⟩, (), ?_, ?_⟩
    · refine (checkEach_ok _ _).2 fun y hy => ?_
      obtain ⟨v', e, hv'⟩ := (mem_metaStrings _ _ _).1 hy
      exact (checkJSONSum_iff _ _ _).2 (hall v' y e hv')
    · have := (mem_metaStrings J x c).2 ⟨v, hc, hx⟩
      rw [if_neg]
      intro h0
      rw [List.length_eq_zero_iff.1 h0] at this
      simp at this

theorem checkJSONSig_sound (E : SigEnv) (w : World) (hw : w.KeepsScheme) (content x : Bytes)
    (h : checkJSONSig E w content x = .ok ()) : SigMatches E w content x := by
  unfold checkJSONSig at h
  simp only [bind_ok_iff] at h
  obtain ⟨d, h1, l, h2, h3⟩ := h
  obtain ⟨suite, g1, _, g3, g4⟩ := verify_needs_signature E.P E.cfg w hw (some fileSigReqs) _ h3
  obtain ⟨s, ho, _⟩ := verify_ok h3
  have hs : suite = s.suite := by
    have := ho.suite
    rw [g1] at this
    exact Option.some.inj this
  exact ⟨d, l, suite, h1, h2, g1, by rw [hs]; exact ho.reqs _ (by decide), by rw [hs]; exact ho.reqs _ (by decide), g3, g4⟩

/-- C43. If `VerifyJSONSignature` succeeds, the text is a JSON document with at least one signature, and all its signatures are valid
signatures of the sorted and formatted document without the metadata. -/
theorem json_signature_sound (J : JsonLib) (E : SigEnv) (w : World) (hw : w.KeepsScheme) (data : Bytes)
    (h : verifyJSONSignature J E w data = .ok ()) :
    ∃ c s u, JsonFile J data c s u ∧ (∃ v x, s = some v ∧ InValue J x v) ∧
      ∀ v x, s = some v → InValue J x v → SigMatches E w (J.pretty (J.sortKeys u)) x := by
  unfold verifyJSONSignature at h
  simp only [bind_ok_iff, checkEach_ok, Prod.exists] at h
  obtain ⟨content, cs, ss, h1, ⟨⟩, h2, h3⟩ := h
  obtain ⟨c, s, u, hf, rfl, rfl, rfl⟩ := (jsonSplit_iff _ _ _ _ _).1 h1
  refine ⟨c, s, u, hf, ?_, ?_⟩
  · split at h3
    · cases h3
    · rename_i hne
      obtain ⟨x, hx⟩ := List.exists_mem_of_length_pos (Nat.pos_of_ne_zero hne)
      obtain ⟨v, e, hv⟩ := (mem_metaStrings _ _ _).1 hx
      exact ⟨v, x, e, hv⟩
  · intro v x hc hx
    exact checkJSONSig_sound E w hw _ x ((checkEach_ok _ _).1 h2 x ((mem_metaStrings _ _ _).2 ⟨v, hc, hx⟩))

/-! ## The libraries -/

def Ascii (s : Bytes) : Prop := ∀ b ∈ s, b < 128

/-- What is assumed about the JSON libraries. `okKey`, `okVal`, `okRaw` say which tokens are well-formed. -/
structure JsonLib.Sound (J : JsonLib) (okKey : Bytes → Prop) (okVal : JVal → Prop) (okRaw : Bytes → Prop) : Prop where
  /-- what is parsed has well-formed tokens -/
  parse_obj : ∀ b ms, J.parse b = some (.obj ms) → ∀ m ∈ ms, okKey m.1 ∧ okVal m.2
  parse_other : ∀ b r, J.parse b = some (.other r) → okRaw r
  /-- formatting does not change the tokens -/
  pretty_obj : ∀ ms : List (Bytes × JVal), (∀ m ∈ ms, okKey m.1 ∧ okVal m.2) → J.parse (J.pretty (.obj ms)) = some (.obj ms)
  pretty_other : ∀ r, okRaw r → J.parse (J.pretty (.other r)) = some (.other r)
  /-- sorting permutes the members (and sorts nested objects), it is idempotent, and the order does not matter if there are no duplicates -/
  sort_obj : ∀ ms : List (Bytes × JVal), (∀ m ∈ ms, okKey m.1 ∧ okVal m.2) → ∃ ms' : List (Bytes × JVal), J.sortKeys (.obj ms) = .obj ms' ∧
    (ms'.map (·.1)).Perm (ms.map (·.1)) ∧ ∀ m ∈ ms', okKey m.1 ∧ okVal m.2
  sort_other : ∀ r, okRaw r → ∃ r', J.sortKeys (.other r) = .other r' ∧ okRaw r'
  sort_idem : ∀ d, J.sortKeys (J.sortKeys d) = J.sortKeys d
  sort_perm : ∀ ms ms' : List (Bytes × JVal), ms.Perm ms' → (ms.map (fun m => J.unesc m.1)).Nodup → J.sortKeys (.obj ms) = J.sortKeys (.obj ms')
  /-- tokens of strings -/
  esc_ascii : ∀ s, Ascii s → J.unesc (J.esc s) = s
  esc_key : ∀ s, okKey (J.esc s)
  esc_str : ∀ s, okVal (.str (J.esc s))
  esc_arr : ∀ l : List Bytes, okVal (.arr (l.map (fun s => .str (J.esc s))))

def JDoc.Ok (okKey : Bytes → Prop) (okVal : JVal → Prop) (okRaw : Bytes → Prop) : JDoc → Prop
  | .obj ms => ∀ m ∈ ms, okKey m.1 ∧ okVal m.2
  | .other r => okRaw r

/-- The document is an object. -/
def JDoc.IsObj : JDoc → Prop
  | .obj _ => True
  | .other _ => False

variable {J : JsonLib} {okKey : Bytes → Prop} {okVal : JVal → Prop} {okRaw : Bytes → Prop}

theorem parse_ok (hJ : J.Sound okKey okVal okRaw) {b : Bytes} {d : JDoc} (h : J.parse b = some d) : d.Ok okKey okVal okRaw := by
  cases d with
  | obj ms => exact hJ.parse_obj _ _ h
  | other r => exact hJ.parse_other _ _ h

theorem pretty_ok (hJ : J.Sound okKey okVal okRaw) {d : JDoc} (h : d.Ok okKey okVal okRaw) : J.parse (J.pretty d) = some d := by
  cases d with
  | obj ms => exact hJ.pretty_obj _ h
  | other r => exact hJ.pretty_other _ h

theorem sort_ok (hJ : J.Sound okKey okVal okRaw) {d : JDoc} (h : d.Ok okKey okVal okRaw) : (J.sortKeys d).Ok okKey okVal okRaw := by
  cases d with
  | obj ms => obtain ⟨ms', e, _, h'⟩ := hJ.sort_obj ms h; rw [e]; exact h'
  | other r => obtain ⟨r', e, h'⟩ := hJ.sort_other r h; rw [e]; exact h'

theorem takenOut_ok {key : Bytes} {d u : JDoc} {v : Option JVal} (h : TakenOut J key d v u) (hd : d.Ok okKey okVal okRaw) :
    u.Ok okKey okVal okRaw := by
  cases h with
  | absent _ => exact hd
  | other => exact hd
  | present _ _ => exact fun m hm => hd m (by simp at hm ⊢; rcases hm with h | h <;> simp [h])

theorem jsonFile_ok (hJ : J.Sound okKey okVal okRaw) {data : Bytes} {c s : Option JVal} {u : JDoc} (h : JsonFile J data c s u) :
    u.Ok okKey okVal okRaw := by
  obtain ⟨d, d1, h1, h2, h3⟩ := h
  exact takenOut_ok h3 (takenOut_ok h2 (parse_ok hJ h1))

/-- C43. A changed document is not accepted with the same checksum: if two documents have the same checksum and both verify, they
differ only in format and order of object members - provided that the hash function distinguishes the two contents. -/
theorem json_change_detected (hJ : J.Sound okKey okVal okRaw) (H : Hashes) (data data' : Bytes) (c s c' s' : Option JVal) (u u' : JDoc)
    (hf : JsonFile J data c s u) (hf' : JsonFile J data' c' s' u') (v v' : JVal) (x : Bytes)
    (hx : c = some v ∧ InValue J x v) (hx' : c' = some v' ∧ InValue J x v')
    (hH : ∀ alg, H alg (J.pretty (J.sortKeys u)) = H alg (J.pretty (J.sortKeys u')) → J.pretty (J.sortKeys u) = J.pretty (J.sortKeys u'))
    (h : verifyJSONChecksum J H data = .ok ()) (h' : verifyJSONChecksum J H data' = .ok ()) : J.sortKeys u = J.sortKeys u' := by
  have key : ∀ (data : Bytes) (c s : Option JVal) (u : JDoc) (v : JVal), JsonFile J data c s u → c = some v ∧ InValue J x v →
      verifyJSONChecksum J H data = .ok () → SumMatches H (J.pretty (J.sortKeys u)) x := by
    intro data c s u v hf hx h
    unfold verifyJSONChecksum at h
    simp only [bind_ok_iff, Prod.exists] at h
    obtain ⟨content, cs, ss, h1, ⟨⟩, h2, _⟩ := h
    rw [(jsonSplit_iff J data _ _ _).2 ⟨c, s, u, hf, rfl, rfl, rfl⟩] at h1
    simp only [Except.ok.injEq, Prod.mk.injEq] at h1
    obtain ⟨rfl, rfl, rfl⟩ := h1
    exact (checkJSONSum_iff _ _ _).1 ((checkEach_ok _ _).1 h2 x ((mem_metaStrings _ _ _).2 ⟨v, hx⟩))
  obtain ⟨g, g1, g2⟩ := key _ _ _ _ _ hf hx h
  obtain ⟨g', g1', g2'⟩ := key _ _ _ _ _ hf' hx' h'
  rw [g1] at g1'
  cases g1'
  have := hH g.alg (by rw [← g2, ← g2'])
  have p1 := pretty_ok hJ (sort_ok hJ (jsonFile_ok hJ hf))
  have p2 := pretty_ok hJ (sort_ok hJ (jsonFile_ok hJ hf'))
  rw [this, p2] at p1
  exact (Option.some.inj p1).symm

/-! ### Order of members and format do not matter -/

theorem nodup_perm_taken {key : Bytes} {ms ms' : List (Bytes × JVal)} (hp : ms.Perm ms') (hn : (ms.map (fun m => J.unesc m.1)).Nodup)
    {v : Option JVal} {u : JDoc} (h : TakenOut J key (.obj ms) v u) :
    ∃ us us', u = .obj us ∧ us.Perm us' ∧ (us.map (fun m => J.unesc m.1)).Nodup ∧ TakenOut J key (.obj ms') v (.obj us') := by
  cases h with
  | absent h => exact ⟨ms, ms', rfl, hp, hn, .absent (fun ⟨m, hm, e⟩ => h ⟨m, hp.mem_iff.2 hm, e⟩)⟩
  | present ha hk =>
    rename_i a b k v
    have hmem : (k, v) ∈ ms' := hp.mem_iff.1 (by simp)
    obtain ⟨a', b', rfl⟩ := List.append_of_mem hmem
    have hn' : ((a' ++ (k, v) :: b').map (fun m => J.unesc m.1)).Nodup := (hp.map _).nodup_iff.1 hn
    refine ⟨a ++ b, a' ++ b', rfl, ?_, ?_, .present ?_ hk⟩
    · exact (List.perm_cons (k, v)).1 ((List.perm_middle.symm.trans hp).trans List.perm_middle)
    · refine List.Sublist.nodup ?_ hn
      exact List.Sublist.map _ (List.Sublist.append (List.Sublist.refl _) (List.sublist_cons_self _ _))
    · rintro ⟨m, hm, e⟩
      simp only [List.map_append, List.map_cons] at hn'
      have := (List.nodup_append.1 hn').2.2 (J.unesc m.1) (List.mem_map_of_mem hm) (J.unesc k) (by simp)
      exact this (by rw [e, hk])

/-- C43. The verdicts do not depend on the format of the document or on the order of its members (without duplicate keys). -/
theorem json_verdict_invariant (hJ : J.Sound okKey okVal okRaw) (H : Hashes) (E : SigEnv) (w : World) (data data' : Bytes)
    (ms ms' : List (Bytes × JVal)) (h1 : J.parse data = some (.obj ms)) (h2 : J.parse data' = some (.obj ms')) (hp : ms.Perm ms')
    (hn : (ms.map (fun m => J.unesc m.1)).Nodup) :
    verifyJSONChecksum J H data = verifyJSONChecksum J H data' ∧ verifyJSONSignature J E w data = verifyJSONSignature J E w data' := by
  have key : jsonSplit J data = jsonSplit J data' := by
    unfold jsonSplit
    rw [h1, h2]
    cases e1 : takeMeta J (.obj ms) jsonChecksumKey with
    | mk d1 c1 =>
      obtain ⟨c, t1, rfl⟩ := (takeMeta_iff _ _ _ _ _).1 e1
      obtain ⟨us, us', rfl, p1, n1, t1'⟩ := nodup_perm_taken hp hn t1
      have e1' := (takeMeta_iff J jsonChecksumKey (.obj ms') _ _).2 ⟨c, t1', rfl⟩
      cases e2 : takeMeta J (.obj us) jsonSignatureKey with
      | mk d2 c2 =>
        obtain ⟨s, t2, rfl⟩ := (takeMeta_iff _ _ _ _ _).1 e2
        obtain ⟨vs, vs', rfl, p2, n2, t2'⟩ := nodup_perm_taken p1 n1 t2
        have e2' := (takeMeta_iff J jsonSignatureKey (.obj us') _ _).2 ⟨s, t2', rfl⟩
        simp only [e1, e1', e2, e2', hJ.sort_perm vs vs' p2 n2]
  unfold verifyJSONChecksum verifyJSONSignature
  rw [key]
  exact ⟨rfl, rfl⟩

/-! ### Adding metadata -/

theorem any_iff {key : Bytes} {ms : List (Bytes × JVal)} : ms.any (fun m => J.unesc m.1 == key) = true ↔ HasKey J key ms := by
  unfold HasKey; simp

theorem replaceFirst_absent {key : Bytes} {v : JVal} {a r : List (Bytes × JVal)} (h : ¬ HasKey J key a) :
    replaceFirst J key v (a ++ r) = a ++ replaceFirst J key v r := by
  induction a with
  | nil => rfl
  | cons m a ih =>
    have hm : J.unesc m.1 ≠ key := fun e => h ⟨m, by simp, e⟩
    simp only [List.cons_append, replaceFirst, hm, if_false]
    rw [ih (fun ⟨x, hx, e⟩ => h ⟨x, by simp [hx], e⟩)]

theorem replaceFirst_present {key : Bytes} {v : JVal} {a r : List (Bytes × JVal)} (h : HasKey J key a) :
    replaceFirst J key v (a ++ r) = replaceFirst J key v a ++ r := by
  induction a with
  | nil => obtain ⟨m, hm, _⟩ := h; simp at hm
  | cons m a ih =>
    by_cases hm : J.unesc m.1 = key
    · simp [replaceFirst, hm]
    · simp only [List.cons_append, replaceFirst, hm, if_false]
      rw [ih]
      obtain ⟨x, hx, e⟩ := h
      rcases List.mem_cons.1 hx with rfl | hx
      · exact absurd e hm
      · exact ⟨x, hx, e⟩

theorem replaceFirst_keys {key key2 : Bytes} {v : JVal} {a : List (Bytes × JVal)} :
    HasKey J key (replaceFirst J key2 v a) ↔ HasKey J key a := by
  have : (replaceFirst J key2 v a).map (·.1) = a.map (·.1) := by
    induction a with
    | nil => rfl
    | cons m a ih => unfold replaceFirst; split <;> simp [ih]
  have h : ∀ l : List (Bytes × JVal), HasKey J key l ↔ ∃ k ∈ l.map (·.1), J.unesc k = key := by
    intro l; unfold HasKey; simp
  rw [h, h, this]

theorem hasKey_append {key : Bytes} {a b : List (Bytes × JVal)} : HasKey J key (a ++ b) ↔ HasKey J key a ∨ HasKey J key b := by
  unfold HasKey
  constructor
  · rintro ⟨m, hm, e⟩
    rcases List.mem_append.1 hm with h | h
    · exact .inl ⟨m, h, e⟩
    · exact .inr ⟨m, h, e⟩
  · rintro (⟨m, h, e⟩ | ⟨m, h, e⟩)
    · exact ⟨m, List.mem_append_left _ h, e⟩
    · exact ⟨m, List.mem_append_right _ h, e⟩

theorem hasKey_cons {key : Bytes} {m : Bytes × JVal} {b : List (Bytes × JVal)} : HasKey J key (m :: b) ↔ J.unesc m.1 = key ∨ HasKey J key b := by
  unfold HasKey; simp

/-- What was set is taken out of an object. -/
theorem set_taken {key : Bytes} (hk : J.unesc (J.esc key) = key) {d u d' : JDoc} {v0 : Option JVal} {v : JVal} (h : TakenOut J key d v0 u)
    (ho : u.IsObj) (hs : jsonSet J d key v = .ok d') : TakenOut J key d' (some v) u := by
  cases h with
  | other => exact ho.elim
  | absent hno =>
    simp only [jsonSet] at hs
    rw [if_neg (fun h => hno (any_iff.1 h))] at hs
    cases hs
    split
    · exact TakenOut.present (J := J) (v := v) (a := []) (by rintro ⟨m, hm, _⟩; simp at hm) hk
    · have := TakenOut.present (v := v) (b := []) hno hk
      simpa using this
  | present ha hkk =>
    simp only [jsonSet] at hs
    rw [if_pos (any_iff.2 (hasKey_append.2 (.inr (hasKey_cons.2 (.inl hkk)))))] at hs
    cases hs
    rw [replaceFirst_absent ha]
    simp only [replaceFirst, hkk, if_true]
    exact .present ha hkk

/-- Setting another member does not change what is taken out. -/
theorem set_other {key key2 : Bytes} (hne : key ≠ key2) (hk : J.unesc (J.esc key2) = key2) {d u d' : JDoc} {v0 : Option JVal} {v : JVal}
    (h : TakenOut J key d v0 u) (ho : u.IsObj) (hs : jsonSet J d key2 v = .ok d') : ∃ u', jsonSet J u key2 v = .ok u' ∧ TakenOut J key d' v0 u' := by
  cases h with
  | other => exact ho.elim
  | absent hno =>
    refine ⟨d', hs, ?_⟩
    simp only [jsonSet] at hs
    split at hs
    · cases hs
      exact .absent (fun h => hno (replaceFirst_keys.1 h))
    · cases hs
      refine .absent fun h => ?_
      split at h
      · rcases hasKey_cons.1 h with h | h
        · exact hne (by rw [← h, hk])
        · exact hno h
      · rcases hasKey_append.1 h with h | h
        · exact hno h
        · obtain ⟨m, hm, e⟩ := h
          simp only [List.mem_singleton] at hm
          subst hm
          exact hne (by rw [← e, hk])
  | present ha hkk =>
    rename_i a b k v1
    have hk2 : J.unesc k ≠ key2 := fun e => hne (by rw [← hkk, e])
    simp only [jsonSet] at hs ⊢
    by_cases h1 : HasKey J key2 a
    · rw [if_pos (any_iff.2 (hasKey_append.2 (.inl h1)))] at hs
      rw [if_pos (any_iff.2 (hasKey_append.2 (.inl h1)))]
      cases hs
      rw [replaceFirst_present h1, replaceFirst_present h1]
      exact ⟨_, rfl, .present (fun h => ha (replaceFirst_keys.1 h)) hkk⟩
    · by_cases h2 : HasKey J key2 b
      · rw [if_pos (any_iff.2 (hasKey_append.2 (.inr (hasKey_cons.2 (.inr h2)))))] at hs
        rw [if_pos (any_iff.2 (hasKey_append.2 (.inr h2)))]
        cases hs
        rw [replaceFirst_absent h1, replaceFirst_absent h1]
        simp only [replaceFirst, hk2, if_false]
        exact ⟨_, rfl, .present ha hkk⟩
      · have hno : ¬ HasKey J key2 (a ++ (k, v1) :: b) := by
          intro h
          rcases hasKey_append.1 h with h | h
          · exact h1 h
          · rcases hasKey_cons.1 h with h | h
            · exact hk2 h
            · exact h2 h
        have hno' : ¬ HasKey J key2 (a ++ b) := fun h => (hasKey_append.1 h).elim h1 h2
        rw [if_neg (fun h => hno (any_iff.1 h))] at hs
        rw [if_neg (fun h => hno' (any_iff.1 h))]
        cases hs
        refine ⟨_, rfl, ?_⟩
        split
        · have hc : ¬ HasKey J key ((J.esc key2, v) :: a) := by
            intro h
            rcases hasKey_cons.1 h with h | h
            · exact hne (by rw [← h, hk])
            · exact ha h
          have := TakenOut.present (J := J) (a := (J.esc key2, v) :: a) (b := b) (v := v1) hc hkk
          simpa using this
        · have := TakenOut.present (J := J) (a := a) (b := b ++ [(J.esc key2, v)]) (v := v1) ha hkk
          simpa using this

theorem arr_strings (hJ : J.Sound okKey okVal okRaw) : ∀ xs : List Bytes, (∀ x ∈ xs, Ascii x) →
    metaStrings J (some (.arr (xs.map (fun x => .str (J.esc x))))) = xs
  | [], _ => rfl
  | x :: xs, hx => by
    have ih := arr_strings hJ xs (fun y hy => hx y (by simp [hy]))
    simp only [metaStrings, List.map_cons, List.filterMap_cons, hJ.esc_ascii x (hx x (by simp))] at ih ⊢
    rw [ih]

theorem setMeta_taken (hJ : J.Sound okKey okVal okRaw) {key : Bytes} (hk : Ascii key) {d u d' : JDoc} {v0 : Option JVal} {xs : List Bytes}
    (hx : ∀ x ∈ xs, Ascii x) (h0 : xs = [] → metaStrings J v0 = []) (h : TakenOut J key d v0 u) (ho : u.IsObj)
    (hs : setMeta J d key xs = .ok d') : ∃ v', TakenOut J key d' v' u ∧ metaStrings J v' = xs := by
  unfold setMeta at hs
  split at hs
  · cases hs; exact ⟨v0, h, h0 rfl⟩
  · rename_i x
    exact ⟨_, set_taken (hJ.esc_ascii _ hk) h ho hs, by simp [metaStrings, hJ.esc_ascii _ (hx x (by simp))]⟩
  · refine ⟨_, set_taken (hJ.esc_ascii _ hk) h ho hs, ?_⟩
    exact arr_strings hJ xs hx

theorem setMeta_other (hJ : J.Sound okKey okVal okRaw) {key key2 : Bytes} (hne : key ≠ key2) (hk : Ascii key2) {d u d' : JDoc} {v0 : Option JVal}
    {xs : List Bytes} (h : TakenOut J key d v0 u) (ho : u.IsObj) (hs : setMeta J d key2 xs = .ok d') :
    ∃ u', setMeta J u key2 xs = .ok u' ∧ TakenOut J key d' v0 u' := by
  unfold setMeta at hs ⊢
  split at hs
  · cases hs; exact ⟨u, rfl, h⟩
  · exact set_other hne (hJ.esc_ascii _ hk) h ho hs
  · exact set_other hne (hJ.esc_ascii _ hk) h ho hs

theorem takenOut_obj {key : Bytes} {d u : JDoc} {v : Option JVal} (h : TakenOut J key d v u) : d.IsObj ↔ u.IsObj := by
  cases h <;> exact Iff.rfl

theorem set_obj {key : Bytes} {d d' : JDoc} {v : JVal} (hd : d.IsObj) (h : jsonSet J d key v = .ok d') : d'.IsObj := by
  cases d with
  | other => exact hd.elim
  | obj ms =>
    simp only [jsonSet] at h
    split at h <;> (cases h; trivial)

theorem setMeta_obj {key : Bytes} {d d' : JDoc} {xs : List Bytes} (hd : d.IsObj) (h : setMeta J d key xs = .ok d') : d'.IsObj := by
  unfold setMeta at h
  split at h
  · cases h; exact hd
  · exact set_obj hd h
  · exact set_obj hd h

theorem set_ok (hJ : J.Sound okKey okVal okRaw) {key : Bytes} {d d' : JDoc} {v : JVal} (hv : okVal v) (ho : d.IsObj) (hd : d.Ok okKey okVal okRaw)
    (hs : jsonSet J d key v = .ok d') : d'.Ok okKey okVal okRaw := by
  unfold jsonSet at hs
  split at hs
  · rename_i ms
    split at hs
    · cases hs
      have : ∀ l : List (Bytes × JVal), (∀ m ∈ l, okKey m.1 ∧ okVal m.2) → ∀ m ∈ replaceFirst J key v l, okKey m.1 ∧ okVal m.2 := by
        intro l
        induction l with
        | nil => intro _ m hm; simp [replaceFirst] at hm
        | cons x l ih =>
          intro hl m hm
          unfold replaceFirst at hm
          split at hm
          · rcases List.mem_cons.1 hm with rfl | hm
            · exact ⟨(hl x (by simp)).1, hv⟩
            · exact hl m (by simp [hm])
          · rcases List.mem_cons.1 hm with rfl | hm
            · exact hl m (by simp)
            · exact ih (fun y hy => hl y (by simp [hy])) m hm
      exact this ms hd
    · cases hs
      intro m hm
      have hm : m ∈ ms ∨ m = (J.esc key, v) := by
        split at hm
        · rcases List.mem_cons.1 hm with h | h
          · exact .inr h
          · exact .inl h
        · rcases List.mem_append.1 hm with h | h
          · exact .inl h
          · exact .inr (by simpa using h)
      rcases hm with h | h
      · exact hd m h
      · subst h
        exact ⟨hJ.esc_key _, hv⟩
  · exact ho.elim

theorem setMeta_ok (hJ : J.Sound okKey okVal okRaw) {key : Bytes} {d d' : JDoc} {xs : List Bytes} (ho : d.IsObj) (hd : d.Ok okKey okVal okRaw)
    (hs : setMeta J d key xs = .ok d') : d'.Ok okKey okVal okRaw := by
  unfold setMeta at hs
  split at hs
  · cases hs; exact hd
  · exact set_ok hJ (hJ.esc_str _) ho hd hs
  · exact set_ok hJ (hJ.esc_arr _) ho hd hs

/-- Metadata that was added is found again, and the content is the same. -/
theorem addMeta_split (hJ : J.Sound okKey okVal okRaw) {data out : Bytes} {c s : Option JVal} {u : JDoc} {cs ss : List Bytes}
    (hf : JsonFile J data c s u) (ho : u.IsObj) (hx : ∀ x ∈ cs ++ ss, Ascii x) (hc : cs = [] → metaStrings J c = []) (hs : ss = [] → metaStrings J s = [])
    (h : jsonAddMeta J data cs ss = .ok out) : jsonSplit J out = .ok (J.pretty (J.sortKeys u), cs, ss) := by
  obtain ⟨d, d1, h1, h2, h3⟩ := hf
  have hd := parse_ok hJ h1
  unfold jsonAddMeta at h
  rw [h1] at h
  simp only [bind_ok_iff] at h
  obtain ⟨e1, g1, e2, g2, g3⟩ := h
  cases g3
  have ho1 := (takenOut_obj h3).2 ho
  have hod := (takenOut_obj h2).2 ho1
  have hk1 : Ascii jsonChecksumKey := by unfold Ascii; decide +kernel
  have hk2 : Ascii jsonSignatureKey := by unfold Ascii; decide +kernel
  obtain ⟨c', t1, m1⟩ := setMeta_taken hJ hk1 (fun x hx' => hx x (by simp [hx'])) hc h2 ho1 g1
  obtain ⟨u', k1, k2⟩ := setMeta_other hJ (show jsonChecksumKey ≠ jsonSignatureKey by decide) hk2 t1 ho1 g2
  obtain ⟨s', t2, m2⟩ := setMeta_taken hJ hk2 (fun x hx' => hx x (by simp [hx'])) hs h3 ho k1
  refine (jsonSplit_iff _ _ _ _ _).2 ⟨c', s', u, ⟨e2, u', ?_, k2, t2⟩, rfl, m1.symm, m2.symm⟩
  exact pretty_ok hJ (setMeta_ok hJ (setMeta_obj hod g1) (setMeta_ok hJ hod hd g1) g2)

theorem mem_dedup (x : Bytes) (l : List Bytes) : x ∈ dedup l ↔ x ∈ l := by
  unfold dedup; rw [mem_compact, mem_sortStrings]

theorem dedup_nil {l : List Bytes} (h : dedup l = []) : l = [] := by
  refine List.eq_nil_iff_forall_not_mem.2 fun x hx => ?_
  have := (mem_dedup x l).2 hx
  rw [h] at this
  simp at this

theorem base58_ascii (h : LabeledHash) : Ascii h.base58 := by
  intro b hb
  have := b58Encode_visible _ b hb
  exact UInt8.lt_of_le_of_lt this.2 (by decide)

theorem b64Char_ascii : ∀ url, ∀ g < 64, b64Char url g < 128 := by decide +kernel

theorem b64_ascii (d : Bytes) : Ascii (b64Encode true d) := by
  intro b hb
  unfold b64Encode at hb
  obtain ⟨g, hg, rfl⟩ := List.mem_map.1 hb
  exact b64Char_ascii true g (b64Groups_lt d g hg)

/-- The verdict on checksums, by the parts of the document. -/
theorem verifySum_iff (H : Hashes) {data content : Bytes} {cs ss : List Bytes} (h : jsonSplit J data = .ok (content, cs, ss)) :
    verifyJSONChecksum J H data = .ok () ↔ cs ≠ [] ∧ ∀ x ∈ cs, SumMatches H content x := by
  unfold verifyJSONChecksum
  rw [h]
  simp only [ok_bind, bind_ok_iff]
  constructor
  · rintro ⟨⟨⟩, h1, h2⟩
    refine ⟨?_, fun x hx => (checkJSONSum_iff _ _ _).1 ((checkEach_ok _ _).1 h1 x hx)⟩
    rintro rfl
    cases h2
  · rintro ⟨h1, h2⟩
    refine ⟨(), (checkEach_ok _ _).2 fun x hx => (checkJSONSum_iff _ _ _).2 (h2 x hx), ?_⟩
    rw [if_neg (fun h0 => h1 (List.length_eq_zero_iff.1 h0))]

/-- The verdict on signatures, by the parts of the document. -/
theorem verifySig_iff (E : SigEnv) (w : World) {data content : Bytes} {cs ss : List Bytes} (h : jsonSplit J data = .ok (content, cs, ss)) :
    verifyJSONSignature J E w data = .ok () ↔ ss ≠ [] ∧ ∀ x ∈ ss, checkJSONSig E w content x = .ok () := by
  unfold verifyJSONSignature
  rw [h]
  simp only [ok_bind, bind_ok_iff]
  constructor
  · rintro ⟨⟨⟩, h1, h2⟩
    refine ⟨?_, (checkEach_ok _ _).1 h1⟩
    rintro rfl
    cases h2
  · rintro ⟨h1, h2⟩
    refine ⟨(), (checkEach_ok _ _).2 h2, ?_⟩
    rw [if_neg (fun h0 => h1 (List.length_eq_zero_iff.1 h0))]

/-- All strings in the metadata are ASCII (as checksums and signatures are). -/
def AsciiMeta (J : JsonLib) (c s : Option JVal) : Prop := ∀ v x, (c = some v ∨ s = some v) → InValue J x v → Ascii x

theorem asciiMeta_mem {c s : Option JVal} (h : AsciiMeta J c s) : ∀ x ∈ metaStrings J c ++ metaStrings J s, Ascii x := by
  intro x hx
  rcases List.mem_append.1 hx with hx | hx
  · obtain ⟨v, e, hv⟩ := (mem_metaStrings _ _ _).1 hx
    exact h v x (.inl e) hv
  · obtain ⟨v, e, hv⟩ := (mem_metaStrings _ _ _).1 hx
    exact h v x (.inr e) hv

/-- C43. The output of `AddJSONChecksum` is accepted by `VerifyJSONChecksum`, if the document is an object, the checksums that were there before match (necessary:
they are kept) and the metadata keys are not there twice; the verdict on signatures stays the same. -/
theorem json_checksum_round_trip_partial (hJ : J.Sound okKey okVal okRaw) (H : Hashes) (hH : H.Sized) (E : SigEnv) (w : World) (data out : Bytes)
    (c s : Option JVal) (u : JDoc) (hf : JsonFile J data c s u) (hx : AsciiMeta J c s)
    (ms : List (Bytes × JVal)) (ho : u = .obj ms)
    (hdup : ¬ HasKey J b!"_jess-checksum" ms ∧ ¬ HasKey J b!"_jess-signature" ms)
    (hold : ∀ v x, c = some v → InValue J x v → SumMatches H (J.pretty (J.sortKeys u)) x)
    (h : addJSONChecksum J H data = .ok out) :
    verifyJSONChecksum J H out = .ok () ∧ (verifyJSONSignature J E w out = .ok () ↔ verifyJSONSignature J E w data = .ok ()) := by
  have hsp := (jsonSplit_iff J data _ _ _).2 ⟨c, s, u, hf, rfl, rfl, rfl⟩
  unfold addJSONChecksum at h
  rw [hsp] at h
  simp only [ok_bind, bind_ok_iff] at h
  obtain ⟨hh, h1, h2⟩ := h
  have hhe : hh = contentHash H (J.pretty (J.sortKeys u)) := by
    unfold lhashDigest at h1
    split at h1
    · cases h1
    · cases h1; rfl
  -- the content is a document without metadata
  have hu := sort_ok hJ (jsonFile_ok hJ hf)
  have hf2 : JsonFile J (J.pretty (J.sortKeys u)) none none (J.sortKeys u) := by
    obtain ⟨ms', e, hp, _⟩ := hJ.sort_obj ms (by have := jsonFile_ok hJ hf; rw [ho] at this; exact this)
    have key : ∀ k, ¬ HasKey J k ms → ¬ HasKey J k ms' := by
      rintro k hno ⟨m, hm, em⟩
      obtain ⟨m2, hm2, e2⟩ := List.mem_map.1 (hp.mem_iff.1 (List.mem_map_of_mem hm))
      exact hno ⟨m2, hm2, by rw [e2, em]⟩
    refine ⟨J.sortKeys u, J.sortKeys u, pretty_ok hJ hu, ?_, ?_⟩
    · rw [ho, e]; exact .absent (key _ hdup.1)
    · rw [ho, e]; exact .absent (key _ hdup.2)
  have hou : (J.sortKeys u).IsObj := by
    obtain ⟨ms', e, _⟩ := hJ.sort_obj ms (by have := jsonFile_ok hJ hf; rw [ho] at this; exact this)
    rw [ho, e]; trivial
  have hsplit := addMeta_split hJ hf2 hou (cs := dedup (metaStrings J c ++ [hh.base58])) (ss := dedup (metaStrings J s)) (by
      intro x hx'
      have ha := asciiMeta_mem hx
      simp only [List.mem_append, mem_dedup, List.mem_singleton] at hx'
      rcases hx' with (h | h) | h
      · exact ha x (by simp [h])
      · subst h; exact base58_ascii _
      · exact ha x (by simp [h])) (fun _ => rfl) (fun _ => rfl) h2
  rw [hJ.sort_idem] at hsplit
  refine ⟨(verifySum_iff H hsplit).2 ⟨?_, ?_⟩, ?_⟩
  · intro h0
    have := dedup_nil h0
    simp at this
  · intro x hx'
    rw [mem_dedup, List.mem_append, List.mem_singleton] at hx'
    rcases hx' with h | h
    · obtain ⟨v, e, hv⟩ := (mem_metaStrings _ _ _).1 h
      exact hold v x e hv
    · subst h
      obtain ⟨hv, _⟩ := contentHash_valid H hH (J.pretty (J.sortKeys u))
      rw [← hhe] at hv
      refine ⟨hh, (lhash_text_round_trip hh hv).2.2, ?_⟩
      rw [hhe]; rfl
  · rw [verifySig_iff E w hsplit, verifySig_iff E w hsp]
    simp only [mem_dedup]
    constructor
    · rintro ⟨h1, h2⟩
      refine ⟨fun h0 => h1 ?_, h2⟩
      rw [h0]; rfl
    · rintro ⟨h1, h2⟩
      exact ⟨fun h0 => h1 (dedup_nil h0), h2⟩

/-- A letter that only carries signatures and can be opened can be verified. -/
theorem verify_of_open {P : Prims} {cfg : Config} {w : World} {l : Letter} {d : Bytes} {reqs : Option Requirements} (hid : l.suiteID ∈ signSuites)
    (h : l.open P cfg w suiteRegistry reqs = .ok d) : l.verify P cfg w suiteRegistry reqs = .ok () := by
  simp only [Letter.open, bind_ok_iff] at h
  obtain ⟨e, he, s, hs, ho⟩ := h
  have hob := openedBy_iff he hs
  simp only [Letter.verify, bind_ok_iff]
  refine ⟨e, he, s, hs, ?_⟩
  have hq : (s.queue .signing).isEmpty = false := by
    obtain ⟨su, h1, h2, _⟩ := signSuite_tools _ hid
    have hsu : s.suite = su := by
      have := hob.suite
      rw [h1] at this
      exact (Option.some.inj this).symm
    have hne : s.insts ≠ [] := by
      obtain ⟨suite, is, lv, _, _, _, _, hm, _, _, _, hne, hse, _⟩ := (newSession_ok_iff P cfg s.env s).mp hob.session
      have hins : s.insts = is := by rw [hse]; rfl
      have hsuite : s.suite = suite := by rw [hse]; rfl
      intro h0
      rw [hins] at h0
      subst h0
      simp only [List.map_nil, List.map_eq_nil_iff] at hm
      have : ∀ id ∈ signSuites, ∀ su, getSuite suiteRegistry id = some su → su.tools ≠ [] := by
        intro id hid su hg hz
        have key : (signSuites.all fun id => match getSuite suiteRegistry id with | none => true | some su => !su.tools.isEmpty) = true := by
          decide +kernel
        have := List.all_eq_true.1 key id hid
        rw [hg] at this
        simp [hz] at this
      exact this _ hid su h1 (by rw [← hsu, hsuite, hm])
    obtain ⟨t, ht⟩ := List.exists_mem_of_ne_nil _ hne
    have hp : t.info.purpose = .signing := by
      obtain ⟨tid, g1, g2⟩ := inst_tool hob.session ht
      rw [hsu] at g1
      obtain ⟨t', g3, g4⟩ := h2 tid g1
      rw [(makeInst_spec g2).1] at g3
      cases g3
      exact g4
    have := (queue_ne_nil_iff s .signing).2 ⟨t, ht, hp⟩
    cases hq : s.queue .signing with
    | nil => exact absurd hq this
    | cons a b => rfl
  unfold Session.open at ho
  unfold Session.verify
  split at ho
  · cases ho
  · rename_i hv
    rw [if_neg hv, hq]
    simp only [Bool.false_eq_true, if_false]
    split at ho
    · cases ho
    · rename_i st hc
      rw [hc]

/-- C43. The output of `AddJSONSignature` is accepted by `VerifyJSONSignature` by anyone who has the public keys of the signers, if the
document is an object and the signatures that were there before are valid (they are kept); the verdict on checksums stays the same. For the suites that only
sign. -/
theorem json_signature_round_trip_partial (hJ : J.Sound okKey okVal okRaw) (H : Hashes) (E : SigEnv) (hC : E.C.Sound)
    (pair : Bytes → Bytes → Bytes → Prop) (hP : E.P.Correct pair) (ws wv : World) (rng : Rng) (e : Envelope) (he : e.suite = none)
    (hev : e.version = 1) (hid : e.suiteID ∈ signSuites) (hlev : demandedLevel E.cfg 0 ≤ demandedLevel E.cfg e.securityLevel)
    (hsend : ∀ s, correspondence E.P E.cfg ws suiteRegistry e = .ok s →
      ∀ k ∈ s.env.senders, k.id ≠ [] ∧ ∃ pub priv, k.loadedPub = some pub ∧ k.loadedPriv = some priv ∧ pair k.scheme pub priv ∧
        PublicKeyOf E.P wv k.id k.scheme pub)
    (data out : Bytes) (c s : Option JVal) (u : JDoc) (hf : JsonFile J data c s u) (hx : AsciiMeta J c s)
    (ms : List (Bytes × JVal)) (ho : u = .obj ms) (hold : ∀ v, s = some v → (∃ x, InValue J x v) → verifyJSONSignature J E wv data = .ok ())
    (h : addJSONSignature J E ws rng data e = .ok out) :
    verifyJSONSignature J E wv out = .ok () ∧ (verifyJSONChecksum J H out = .ok () ↔ verifyJSONChecksum J H data = .ok ()) := by
  have hsp := (jsonSplit_iff J data _ _ _).2 ⟨c, s, u, hf, rfl, rfl, rfl⟩
  simp only [addJSONSignature, bind_ok_iff, hsp, ok_bind] at h
  obtain ⟨ses, g1, _, _, l, g3, d, g4, g5⟩ := h
  have he' : { e with suite := none } = e := by cases e; simp_all
  obtain ⟨k1, k2, k3, k4⟩ := sign_session hid (by rw [he']; exact g1)
  have hsn := hsend ses g1
  have hld := close_plain k1 g3
  have hopen : l.open E.P E.cfg wv suiteRegistry (some fileSigReqs) = .ok (J.pretty (J.sortKeys u)) := by
    refine close_open_roundtrip_partial E.P pair hP E.cfg ws wv rng e he hev ses g1 hlev ?_ ?_ ?_ (some fileSigReqs) k4 _ l g3
    · rw [k2, k3]
      exact ⟨by simp, fun k hk => (hsn k hk).1, by simp⟩
    · rw [k2]; simp
    · refine ⟨by rw [k2]; simp, by rw [k2]; simp, fun k hk => (hsn k hk).2, by rw [k3]; simp⟩
  have hlid : l.suiteID ∈ signSuites := by
    have henv : ses.env.suiteID = e.suiteID := by
      obtain ⟨su, h1, _, _⟩ := signSuite_tools _ hid
      simp only [correspondence, loadSuite, he, h1, ok_bind, bind_ok_iff] at g1
      obtain ⟨e2, hp, hn⟩ := g1
      rw [(newSession_env hn).1]
      simp only [prepareSignets, bind_ok_iff] at hp
      obtain ⟨a, _, b, _, cc, _, hx⟩ := hp
      cases hx
      rfl
    have : l.suiteID = ses.env.suiteID := by
      unfold Session.close at g3
      split at g3
      · cases g3
      · simp only [k1] at g3
        split at g3
        · cases g3
        · unfold signLetter at g3
          split at g3
          · cases g3; rfl
          · simp only at g3
            split at g3
            · cases g3
            · cases g3; rfl
    rw [this, henv]; exact hid
  have hver := verify_of_open hlid hopen
  have hsplit := addMeta_split hJ hf (by rw [ho]; trivial) (cs := dedup (metaStrings J c)) (ss := dedup (metaStrings J s ++ [b64Encode true d])) (by
      intro x hx'
      have ha := asciiMeta_mem hx
      simp only [List.mem_append, mem_dedup, List.mem_singleton] at hx'
      rcases hx' with h | h | h
      · exact ha x (by simp [h])
      · exact ha x (by simp [h])
      · subst h; exact b64_ascii _) (fun h0 => dedup_nil h0) (fun h0 => by have := dedup_nil h0; simp at this) g5
  refine ⟨(verifySig_iff E wv hsplit).2 ⟨fun h0 => by have := dedup_nil h0; simp at this, ?_⟩, ?_⟩
  · intro x hx'
    rw [mem_dedup, List.mem_append, List.mem_singleton] at hx'
    rcases hx' with h | h
    · obtain ⟨v, e1, hv⟩ := (mem_metaStrings _ _ _).1 h
      exact ((verifySig_iff E wv hsp).1 (hold v e1 ⟨x, hv⟩)).2 x h
    · subst h
      unfold checkJSONSig
      rw [b64Decode_encode, ok_bind, hC.letter _ _ g4, ok_bind]
      have : ({ { l with data := [] } with data := J.pretty (J.sortKeys u) } : Letter) = l := by
        rw [← hld]
      rw [this]
      exact hver
  · rw [verifySum_iff H hsplit, verifySum_iff H hsp]
    simp only [mem_dedup]
    constructor
    · rintro ⟨h1, h2⟩
      refine ⟨fun h0 => h1 ?_, h2⟩
      rw [h0]; rfl
    · rintro ⟨h1, h2⟩
      exact ⟨fun h0 => h1 (dedup_nil h0), h2⟩

/-! ## Examples and refutations

A stand-in for the JSON libraries with a simple serialization: it shows that the assumptions can be met, and serves for examples. -/

def encB : Bytes → Bytes
  | [] => [0]
  | b :: t => 1 :: b :: encB t

def decB : Bytes → Option (Bytes × Bytes)
  | 0 :: r => some ([], r)
  | 1 :: b :: r => (decB r).map (fun x => (b :: x.1, x.2))
  | _ => none

theorem decB_encB : ∀ s r : Bytes, decB (encB s ++ r) = some (s, r)
  | [], r => by simp [encB, decB]
  | b :: t, r => by simp [encB, decB, decB_encB t r]

def encList {α : Type} (f : α → Bytes) : List α → Bytes
  | [] => [0]
  | x :: xs => 1 :: (f x ++ encList f xs)

def decList {α : Type} (dec : Bytes → Option (α × Bytes)) : Nat → Bytes → Option (List α × Bytes)
  | 0, _ => none
  | _ + 1, 0 :: r => some ([], r)
  | n + 1, 1 :: r =>
    match dec r with
    | none => none
    | some (x, r) => (decList dec n r).map (fun y => (x :: y.1, y.2))
  | _ + 1, _ => none

theorem decList_encList {α : Type} {f : α → Bytes} {dec : Bytes → Option (α × Bytes)} (h : ∀ x r, dec (f x ++ r) = some (x, r)) :
    ∀ (l : List α) (n : Nat) (r : Bytes), l.length < n → decList dec n (encList f l ++ r) = some (l, r)
  | [], n + 1, r, _ => by simp [encList, decList]
  | x :: xs, n + 1, r, hn => by
    have := decList_encList h xs n r (by simp at hn; omega)
    simp only [encList, List.cons_append, List.append_assoc, decList, h, this, Option.map_some]

theorem encList_length {α : Type} (f : α → Bytes) : ∀ l : List α, l.length < (encList f l).length
  | [] => by simp [encList]
  | x :: xs => by have := encList_length f xs; simp [encList]; omega

def encE : JElem → Bytes
  | .str r => 0 :: encB r
  | .other r => 1 :: encB r

def decE : Bytes → Option (JElem × Bytes)
  | 0 :: r => (decB r).map (fun x => (.str x.1, x.2))
  | 1 :: r => (decB r).map (fun x => (.other x.1, x.2))
  | _ => none

theorem decE_encE (e : JElem) (r : Bytes) : decE (encE e ++ r) = some (e, r) := by
  cases e <;> simp [encE, decE, decB_encB]

def encV : JVal → Bytes
  | .str r => 0 :: encB r
  | .arr l => 1 :: encList encE l
  | .other r => 2 :: encB r

def decV : Bytes → Option (JVal × Bytes)
  | 0 :: r => (decB r).map (fun x => (.str x.1, x.2))
  | 1 :: r => (decList decE (r.length + 1) r).map (fun x => (.arr x.1, x.2))
  | 2 :: r => (decB r).map (fun x => (.other x.1, x.2))
  | _ => none

theorem decV_encV (v : JVal) (r : Bytes) : decV (encV v ++ r) = some (v, r) := by
  cases v with
  | str x => simp [encV, decV, decB_encB]
  | other x => simp [encV, decV, decB_encB]
  | arr l =>
    have := encList_length encE l
    have h2 := decList_encList decE_encE l ((encList encE l ++ r).length + 1) r (by simp; omega)
    simp only [encV, decV, List.cons_append, h2, Option.map_some]

def encM (m : Bytes × JVal) : Bytes := encB m.1 ++ encV m.2

def decM (b : Bytes) : Option ((Bytes × JVal) × Bytes) :=
  match decB b with
  | none => none
  | some (k, r) => (decV r).map (fun x => ((k, x.1), x.2))

theorem decM_encM (m : Bytes × JVal) (r : Bytes) : decM (encM m ++ r) = some (m, r) := by
  simp [encM, decM, decB_encB, decV_encV]

def encD : JDoc → Bytes
  | .obj ms => 0 :: encList encM ms
  | .other r => 1 :: encB r

def decD : Bytes → Option JDoc
  | 0 :: r =>
    match decList decM (r.length + 1) r with
    | some (ms, []) => some (.obj ms)
    | _ => none
  | 1 :: r =>
    match decB r with
    | some (x, []) => some (.other x)
    | _ => none
  | _ => none

theorem decD_encD (d : JDoc) : decD (encD d) = some d := by
  cases d with
  | obj ms =>
    have h1 := encList_length encM ms
    have h2 := decList_encList decM_encM ms ((encList encM ms).length + 1) [] (by omega)
    rw [List.append_nil] at h2
    simp [encD, decD, h2]
  | other r =>
    have := decB_encB r []
    rw [List.append_nil] at this
    simp [encD, decD, this]

def insM (m : Bytes × JVal) : List (Bytes × JVal) → List (Bytes × JVal)
  | [] => [m]
  | x :: xs => if strLe m.1 x.1 then m :: x :: xs else x :: insM m xs

def sortM : List (Bytes × JVal) → List (Bytes × JVal)
  | [] => []
  | x :: xs => insM x (sortM xs)

theorem insM_perm (m : Bytes × JVal) : ∀ l, (insM m l).Perm (m :: l)
  | [] => by simp [insM]
  | x :: xs => by
    unfold insM
    split
    · exact .refl _
    · exact ((insM_perm m xs).cons x).trans (.swap m x xs)

theorem sortM_perm : ∀ l, (sortM l).Perm l
  | [] => .refl _
  | x :: xs => (insM_perm x _).trans ((sortM_perm xs).cons x)

theorem insM_sorted (m : Bytes × JVal) : ∀ l : List (Bytes × JVal), l.Pairwise (fun a b => strLe a.1 b.1 = true) →
    (insM m l).Pairwise (fun a b => strLe a.1 b.1 = true)
  | [], _ => by simp [insM]
  | x :: xs, h => by
    unfold insM
    rw [List.pairwise_cons] at h
    split
    · rename_i hle
      refine List.pairwise_cons.2 ⟨?_, List.pairwise_cons.2 h⟩
      intro y hy
      rcases List.mem_cons.1 hy with rfl | hy
      · exact hle
      · exact strLe_trans _ _ _ hle (h.1 y hy)
    · rename_i hle
      refine List.pairwise_cons.2 ⟨?_, insM_sorted m xs h.2⟩
      intro y hy
      rcases List.mem_cons.1 ((insM_perm m xs).mem_iff.1 hy) with rfl | hy
      · rcases strLe_total y.1 x.1 with h | h
        · exact absurd h hle
        · exact h
      · exact h.1 y hy

theorem sortM_sorted : ∀ l, (sortM l).Pairwise (fun a b => strLe a.1 b.1 = true)
  | [] => .nil
  | x :: xs => insM_sorted x _ (sortM_sorted xs)

theorem sortM_of_sorted : ∀ l : List (Bytes × JVal), l.Pairwise (fun a b => strLe a.1 b.1 = true) → sortM l = l
  | [], _ => rfl
  | [x], _ => rfl
  | x :: y :: l, h => by
    rw [List.pairwise_cons] at h
    unfold sortM
    rw [sortM_of_sorted (y :: l) h.2]
    unfold insM
    rw [if_pos (h.1 y (by simp))]

/-- The stand-in. As in sjson v1.2.5, setting a member fails for an array, and a string, a number, a truth value or null is replaced by an
object that only has the new member. -/
def toyJson : JsonLib where
  parse := decD
  pretty := encD
  sortKeys := fun d => match d with | .obj ms => .obj (sortM ms) | .other r => .other r
  unesc := id
  esc := id
  setOther := fun r key v => if r.head? = some 91 then .error .unsupported else .ok (.obj [(key, v)])
  newFirst := true

theorem toyJson_sound : toyJson.Sound (fun _ => True) (fun _ => True) (fun _ => True) where
  parse_obj := fun _ _ _ _ _ => ⟨trivial, trivial⟩
  parse_other := fun _ _ _ => trivial
  pretty_obj := fun ms _ => decD_encD (.obj ms)
  pretty_other := fun r _ => decD_encD (.other r)
  sort_obj := fun ms _ => ⟨sortM ms, rfl, (sortM_perm ms).map _, fun _ _ => ⟨trivial, trivial⟩⟩
  sort_other := fun r _ => ⟨r, rfl, trivial⟩
  sort_idem := by
    intro d
    cases d with
    | obj ms => simp only [toyJson]; rw [sortM_of_sorted _ (sortM_sorted ms)]
    | other r => rfl
  sort_perm := by
    intro ms ms' hp hn
    have : sortM ms = sortM ms' := by
      refine List.Perm.eq_of_pairwise (le := fun a b => strLe a.1 b.1 = true) ?_ (sortM_sorted ms) (sortM_sorted ms')
        ((sortM_perm ms).trans (hp.trans (sortM_perm ms').symm))
      intro a b ha hb h1 h2
      have he := strLe_antisymm _ _ h1 h2
      have ha' := (sortM_perm ms).mem_iff.1 ha
      have hb' := hp.mem_iff.2 ((sortM_perm ms').mem_iff.1 hb)
      obtain ⟨p, q, rfl⟩ := List.append_of_mem ha'
      simp only [List.map_append, List.map_cons, List.nodup_append, List.nodup_cons] at hn
      rcases List.mem_append.1 hb' with hb' | hb'
      · exact absurd he.symm (hn.2.2 _ (List.mem_map_of_mem hb') _ (by simp; exact .inl rfl))
      · rcases List.mem_cons.1 hb' with rfl | hb'
        · rfl
        · exact absurd (List.mem_map.2 ⟨b, hb', he.symm⟩) hn.2.1.1
    simp only [toyJson, this]
  esc_ascii := fun _ _ => rfl
  esc_key := fun _ => trivial
  esc_str := fun _ => trivial
  esc_arr := fun _ => trivial

/-- A document for the examples. -/
def toyDoc : List (Bytes × JVal) := [(b!"name", .str b!"x"), (b!"list", .arr [.str b!"a", .other b!"1"]), (b!"a", .other b!"true")]

def toyAddVerify (ms : List (Bytes × JVal)) : Res Unit := do
  let out ← addJSONChecksum toyJson toyHashes (encD (.obj ms))
  verifyJSONChecksum toyJson toyHashes out

def toyJsonSign (suite : Bytes) (senders rcpts : List Bytes) (ms : List (Bytes × JVal)) : Res Unit := do
  let out ← addJSONSignature toyJson toySigEnv toyWorld toyRng (encD (.obj ms)) (toyEnvelope suite [] senders rcpts)
  verifyJSONSignature toyJson toySigEnv toyWorld out

/-- Checksums and signatures are added and verified, also to a document which already has a checksum and a signature; a document without
checksum and a text that is not JSON are refused. -/
theorem json_example :
    toyAddVerify toyDoc = .ok () ∧
    (match addJSONChecksum toyJson toyHashes (encD (.obj toyDoc)) with
      | .error _ => false
      | .ok out =>
        match addJSONSignature toyJson toySigEnv toyWorld toyRng out (toyEnvelope b!"sign_v2" [] [b!"alice"] []) with
        | .error _ => false
        | .ok out2 => decide (verifyJSONChecksum toyJson toyHashes out2 = .ok () ∧ verifyJSONSignature toyJson toySigEnv toyWorld out2 = .ok ())) = true ∧
    verifyJSONChecksum toyJson toyHashes (encD (.obj toyDoc)) = .error .missing ∧
    verifyJSONSignature toyJson toySigEnv toyWorld (encD (.obj toyDoc)) = .error .missing ∧
    verifyJSONChecksum toyJson toyHashes b!"no json" = .error .malformed := by
  decide +kernel

/-- C43 refuted: what `AddJSONChecksum` returns is not accepted if the document was changed after a first checksum was added, or if a
metadata key is there twice. What `AddJSONSignature` returns is not accepted if the suite encrypts. And metadata that is no string is
ignored: a list with a good checksum and a number is accepted. And (with sjson v1.2.5) a document that is just a number or a string is
lost: the output of `AddJSONChecksum` and `AddJSONSignature` is an object that has the checksum or signature only, and is not
accepted. An array is refused. -/
theorem json_refuted :
    (match addJSONChecksum toyJson toyHashes (encD (.other b!"12")) with
      | .error _ => false
      | .ok out => decide (out = encD (.obj [(jsonChecksumKey, .str (contentHash toyHashes (encD (.other b!"12"))).base58)]) ∧
          verifyJSONChecksum toyJson toyHashes out = .error .integrity)) = true ∧
    (match addJSONSignature toyJson toySigEnv toyWorld toyRng (encD (.other b!"12")) (toyEnvelope b!"sign_v2" [] [b!"alice"] []) with
      | .error _ => false
      | .ok out => decide (verifyJSONSignature toyJson toySigEnv toyWorld out = .error .signature)) = true ∧
    addJSONChecksum toyJson toyHashes (encD (.other b!"[1]")) = .error .unsupported ∧
    toyAddVerify ((jsonChecksumKey, .str (contentHash toyHashes b!"older content").base58) :: toyDoc) = .error .integrity ∧
    toyAddVerify ((jsonChecksumKey, .other b!"1") :: (jsonChecksumKey, .other b!"2") :: toyDoc) = .error .integrity ∧
    toyJsonSign b!"v2" [b!"alice"] [b!"bob"] toyDoc = .error .signature ∧
    toyJsonSign b!"sign_v2" [b!"alice"] [] toyDoc = .ok () ∧
    verifyJSONChecksum toyJson toyHashes (encD (.obj ((jsonChecksumKey,
      .arr [.str (contentHash toyHashes (encD (.obj (sortM toyDoc)))).base58, .other b!"12"]) :: toyDoc))) = .ok () := by
  decide +kernel

/-- A document with a checksum. -/
def toySummed : List (Bytes × JVal) := toyDoc ++ [(jsonChecksumKey, .str b!"z")]

/-- The hypotheses of the round trips are met by a document with a checksum. -/
theorem json_file_example : JsonFile toyJson (encD (.obj toySummed)) (some (.str b!"z")) none (.obj toyDoc) ∧
    AsciiMeta toyJson (some (.str b!"z")) none ∧ (¬ HasKey toyJson b!"_jess-checksum" toyDoc ∧ ¬ HasKey toyJson b!"_jess-signature" toyDoc) := by
  have hno : ∀ k ∈ [jsonChecksumKey, jsonSignatureKey], ¬ HasKey toyJson k toyDoc := by
    intro k hk h
    rw [← any_iff] at h
    revert h
    revert k
    decide +kernel
  have h1 : toyJson.parse (encD (.obj toySummed)) = some (.obj toySummed) := decD_encD (.obj toySummed)
  have h2 : TakenOut toyJson jsonChecksumKey (.obj toySummed) (some (.str b!"z")) (.obj toyDoc) := by
    have := TakenOut.present (J := toyJson) (key := jsonChecksumKey) (a := toyDoc) (b := []) (k := jsonChecksumKey) (v := .str b!"z") (hno _ (by simp)) rfl
    rw [List.append_nil] at this
    exact this
  have h3 : TakenOut toyJson jsonSignatureKey (.obj toyDoc) none (.obj toyDoc) := .absent (hno _ (by simp))
  refine ⟨⟨_, _, h1, h2, h3⟩, ?_, hno _ (by simp [jsonChecksumKey]), hno _ (by simp [jsonSignatureKey])⟩
  · rintro v x (h | h) hv
    · cases h
      cases hv
      unfold Ascii
      decide +kernel
    · cases h

end Jess
