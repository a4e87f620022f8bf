import Verif.Lemmas.Formats
import Verif.Props.Exchange
import Verif.Props.DialogDir
import Verif.Props.CmdFiles

namespace Jess.Formats

/-! ## Structures -/

theorem get_cons (k k' : Bytes) (v : Val) (l : List (Bytes × Val)) : (Val.obj ((k, v) :: l)).get k' = if k' == k then v else (Val.obj l).get k' := by
  unfold Val.get
  simp only [List.lookup_cons]
  cases k' == k <;> rfl

theorem get_nil (k : Bytes) : (Val.obj []).get k = .null := rfl

theorem get_omitted (e : Bool) (k k' : Bytes) (v : Val) (l : List (Bytes × Val)) :
    (Val.obj (omitted e k v ++ l)).get k' = if (k' == k) && !e then v else (Val.obj l).get k' := by
  cases e
  · simp only [omitted, Bool.false_eq_true, if_false, List.cons_append, List.nil_append, get_cons]
    cases k' == k <;> rfl
  · simp [omitted]

theorem get_omitted_last (e : Bool) (k k' : Bytes) (v : Val) : (Val.obj (omitted e k v)).get k' = if (k' == k) && !e then v else .null := by
  have := get_omitted e k k' v []
  rw [List.append_nil] at this
  exact this

theorem asBytes_omit {w : Bytes → Val} (hw : ∀ b, (w b).asBytes = .ok b) (b : Bytes) : (if !b.isEmpty then w b else .null).asBytes = .ok b := by
  cases b with
  | nil => rfl
  | cons x b => exact hw _

theorem asBytes_null {w : Bytes → Val} (hw : ∀ b, (w b).asBytes = .ok b) (b : Bytes) : (orNull b.isEmpty (w b)).asBytes = .ok b := by
  cases b with
  | nil => rfl
  | cons x b => exact hw _

theorem asStr_omit (b : Bytes) : (if !b.isEmpty then Val.str b else .null).asStr = .ok b := by
  cases b <;> rfl

theorem mapRes_map {α β : Type} {f : β → Res α} {g : α → β} : ∀ (l : List α), (∀ x ∈ l, f (g x) = .ok x) → mapRes f (l.map g) = .ok l
  | [], _ => rfl
  | x :: l, h => by
    rw [List.map_cons, mapRes, h x (by simp), ok_bind, mapRes_map l (fun y hy => h y (by simp [hy])), ok_bind]

theorem asList_omit {α : Type} {f : Val → Res α} {g : α → Val} (l : List α) (h : ∀ x ∈ l, f (g x) = .ok x) :
    (if !l.isEmpty then Val.arr (l.map g) else .null).asList f = .ok l := by
  cases l with
  | nil => rfl
  | cons x l => exact mapRes_map _ h

theorem asList_null {α : Type} {f : Val → Res α} {g : α → Val} (l : List α) (h : ∀ x ∈ l, f (g x) = .ok x) :
    (orNull l.isEmpty (Val.arr (l.map g))).asList f = .ok l := by
  cases l with
  | nil => rfl
  | cons x l => exact mapRes_map _ h

theorem asBool_omit (b : Bool) : (if !(!b) then Val.bool b else .null).asBool = .ok b := by cases b <;> rfl

theorem asByte_num (b : UInt8) : (Val.num b.toNat).asByte = .ok b := by
  have := b.toNat_lt
  simp [Val.asByte, this]

theorem sealOf_val {w : Bytes → Val} (hw : ∀ b, (w b).asBytes = .ok b) (s : Seal) : sealOf (sealVal w s) = .ok s := by
  have h1 : (sealVal w s).get b!"Scheme" = if !s.scheme.isEmpty then .str s.scheme else .null := by
    unfold sealVal
    rw [List.append_assoc, get_omitted, get_omitted, get_omitted_last]
    simp
  have h2 : (sealVal w s).get b!"ID" = if !s.id.isEmpty then .str s.id else .null := by
    unfold sealVal
    rw [List.append_assoc, get_omitted, get_omitted, get_omitted_last]
    simp
  have h3 : (sealVal w s).get b!"Value" = if !s.value.isEmpty then w s.value else .null := by
    unfold sealVal
    rw [List.append_assoc, get_omitted, get_omitted, get_omitted_last]
    simp
  unfold sealOf
  rw [h1, h2, h3, asStr_omit, asStr_omit, asBytes_omit hw]
  rfl

theorem letterOf_val {w : Bytes → Val} (hw : ∀ b, (w b).asBytes = .ok b) (l : Letter) : letterOf (letterVal w l) = .ok l := by
  have e : ∀ k, (letterVal w l).get k =
      if k == b!"Version" then .num l.version.toNat else if k == b!"SuiteID" then .str l.suiteID else if k == b!"Nonce" then orNull l.nonce.isEmpty (w l.nonce)
      else if (k == b!"Keys") && !l.keys.isEmpty then .arr (l.keys.map (sealVal w)) else if (k == b!"Data") && !l.data.isEmpty then w l.data
      else if (k == b!"Mac") && !l.mac.isEmpty then w l.mac
      else if (k == b!"Signatures") && !l.signatures.isEmpty then .arr (l.signatures.map (sealVal w))
      else if (k == b!"ApplyKeys") && !(!l.applyKeys) then .bool l.applyKeys else .null := by
    intro k
    unfold letterVal
    simp only [List.append_assoc, List.cons_append, List.nil_append, get_cons, get_omitted, get_omitted_last]
  have h1 : (letterVal w l).get b!"Version" = .num l.version.toNat := by rw [e]; rfl
  have h2 : (letterVal w l).get b!"SuiteID" = .str l.suiteID := by rw [e]; rfl
  have h3 : (letterVal w l).get b!"Nonce" = orNull l.nonce.isEmpty (w l.nonce) := by rw [e]; rfl
  have h4 : (letterVal w l).get b!"Keys" = if !l.keys.isEmpty then .arr (l.keys.map (sealVal w)) else .null := by rw [e]; simp
  have h5 : (letterVal w l).get b!"Data" = if !l.data.isEmpty then w l.data else .null := by rw [e]; simp
  have h6 : (letterVal w l).get b!"Mac" = if !l.mac.isEmpty then w l.mac else .null := by rw [e]; simp
  have h7 : (letterVal w l).get b!"Signatures" = if !l.signatures.isEmpty then .arr (l.signatures.map (sealVal w)) else .null := by rw [e]; simp
  have h8 : (letterVal w l).get b!"ApplyKeys" = if !(!l.applyKeys) then .bool l.applyKeys else .null := by rw [e]; simp
  unfold letterOf
  rw [h1, h2, h3, h4, h5, h6, h7, h8, asByte_num, asBytes_null hw, asBytes_omit hw, asBytes_omit hw, asBool_omit,
    asList_omit _ (fun x _ => sealOf_val hw x), asList_omit _ (fun x _ => sealOf_val hw x)]
  rfl

theorem signedOf_val (x : SignedData) : signedOf (signedVal x) = .ok x := by
  have h1 : (signedVal x).get b!"LabeledHash" = orNull x.labeledHash.isEmpty (.bin x.labeledHash) := rfl
  have h2 : (signedVal x).get b!"SignedAt" = .time x.signedAt := rfl
  have h3 : (signedVal x).get b!"MetaData" = orNull x.metaData.isEmpty (.obj (x.metaData.map fun p => (p.1, .str p.2))) := rfl
  have h4 : (orNull x.metaData.isEmpty (.obj (x.metaData.map fun p => (p.1, .str p.2)))).asTexts = .ok x.metaData := by
    cases h : x.metaData with
    | nil => rfl
    | cons p l => exact mapRes_map (f := textPair) (g := fun p => (p.1, .str p.2)) (p :: l) (fun _ _ => rfl)
  unfold signedOf
  rw [h1, h2, h3, h4, asBytes_null (fun _ => rfl)]
  rfl

theorem cutZero_spec (s : Bytes) : s = (cutZero s).1 ++ match (cutZero s).2 with | none => [] | some r => 0 :: r := by
  unfold cutZero
  induction s with
  | nil => rfl
  | cons c s ih =>
    by_cases hc : c = 0
    · subst hc; simp
    · have h1 : (c != 0) = true := by simpa using hc
      have h2 : (c :: s).contains 0 = s.contains 0 := by
        simp only [List.contains_cons, Bool.or_eq_right_iff_imp, beq_iff_eq]
        intro h; exact absurd h.symm hc
      simp only [List.takeWhile_cons, List.dropWhile_cons, h1, if_true, h2, List.cons_append]
      exact congrArg (c :: ·) ih

theorem zeroText_opt (o : Option Bytes) : zeroText (optText o) = .ok (match o with | none => [] | some r => 0 :: r) := by
  cases o <;> rfl

theorem infoOf_val (i : SignetInfo) : infoOf (infoVal i) = .ok (some i) := by
  have h1 : (infoVal i).get b!"Name" = .str i.name := rfl
  have h2 : (infoVal i).get b!"Owner" = .str (cutZero i.rest).1 := rfl
  have h3 : (infoVal i).get b!"Created" = optText ((cutZero i.rest).2.map fun r => (cutZero r).1) := rfl
  have h4 : (infoVal i).get b!"Expires" = optText ((cutZero i.rest).2.bind fun r => (cutZero r).2) := rfl
  have h5 : infoOf (infoVal i) = ((infoVal i).get b!"Name").asStr.bind (fun name => ((infoVal i).get b!"Owner").asStr.bind fun owner =>
      (zeroText ((infoVal i).get b!"Created")).bind fun created => (zeroText ((infoVal i).get b!"Expires")).bind fun expires =>
      .ok (some { name := name, rest := owner ++ created ++ expires })) := rfl
  rw [h5, h1, h2, h3, h4, zeroText_opt, zeroText_opt]
  simp only [Val.asStr, Except.bind]
  congr 2
  cases i with
  | mk name rest =>
    congr 1
    have hs := cutZero_spec rest
    simp only
    cases hr : (cutZero rest).2 with
    | none =>
      rw [hr] at hs
      simp only [Option.map_none, Option.bind_none, List.append_nil] at hs ⊢
      exact hs.symm
    | some r =>
      rw [hr] at hs
      simp only [Option.map_some, Option.bind_some] at hs ⊢
      have hs2 := cutZero_spec r
      rw [List.append_assoc, List.cons_append, ← hs2]
      exact hs.symm

theorem infoOf_member (i : Option SignetInfo) : infoOf ((Val.obj (infoMember i)).get b!"Info") = .ok i := by
  cases i with
  | none => rfl
  | some i => exact infoOf_val i

theorem signetOf_val {w : Bytes → Val} (hw : ∀ b, (w b).asBytes = .ok b) (s : Signet) (hs : plainSignet s = true) : signetOf (signetVal w s) = .ok s := by
  have e : ∀ k, (signetVal w s).get k =
      if k == b!"Version" then .num s.version.toNat else if k == b!"ID" then .str s.id else if k == b!"Scheme" then .str s.scheme
      else if k == b!"Key" then orNull s.key.isEmpty (w s.key)
      else if (k == b!"Public") && !(!s.isPublic) then .bool s.isPublic else (Val.obj (infoMember s.info)).get k := by
    intro k
    unfold signetVal
    simp only [List.append_assoc, List.cons_append, List.nil_append, get_cons, get_omitted]
  have h1 : (signetVal w s).get b!"Version" = .num s.version.toNat := by rw [e]; rfl
  have h2 : (signetVal w s).get b!"ID" = .str s.id := by rw [e]; rfl
  have h3 : (signetVal w s).get b!"Scheme" = .str s.scheme := by rw [e]; rfl
  have h4 : (signetVal w s).get b!"Key" = orNull s.key.isEmpty (w s.key) := by rw [e]; rfl
  have h0 : (Val.obj (infoMember s.info)).get b!"Public" = .null := by cases s.info <;> rfl
  have h5 : (signetVal w s).get b!"Public" = if !(!s.isPublic) then .bool s.isPublic else .null := by rw [e, h0]; simp
  have h6 : (signetVal w s).get b!"Info" = (Val.obj (infoMember s.info)).get b!"Info" := by rw [e]; rfl
  unfold signetOf
  rw [h1, h2, h3, h4, h5, h6, asByte_num, asBytes_null hw, asBool_omit, infoOf_member]
  simp only [Val.asStr, ok_bind]
  simp only [plainSignet, Bool.and_eq_true, Option.isNone_iff_eq_none, Bool.not_eq_true'] at hs
  obtain ⟨⟨⟨a1, a2⟩, a3⟩, a4⟩ := hs
  cases s
  simp_all

theorem envelopeOf_val {w : Bytes → Val} (hw : ∀ b, (w b).asBytes = .ok b) (e : Envelope) (he : plainEnvelope e = true) :
    envelopeOf (envelopeVal w e) = .ok e := by
  simp only [plainEnvelope, Bool.and_eq_true, Option.isNone_iff_eq_none, Bool.not_eq_true', decide_eq_true_eq, List.all_eq_true] at he
  obtain ⟨⟨⟨a1, a2⟩, a3⟩, a4⟩ := he
  have h1 : (envelopeVal w e).get b!"Version" = .num e.version.toNat := rfl
  have h2 : (envelopeVal w e).get b!"Name" = .str e.name := rfl
  have h3 : (envelopeVal w e).get b!"SuiteID" = .str e.suiteID := rfl
  have h4 : (envelopeVal w e).get b!"Secrets" = orNull e.secrets.isEmpty (.arr (e.secrets.map (signetVal w))) := rfl
  have h5 : (envelopeVal w e).get b!"Senders" = orNull e.senders.isEmpty (.arr (e.senders.map (signetVal w))) := rfl
  have h6 : (envelopeVal w e).get b!"Recipients" = orNull e.recipients.isEmpty (.arr (e.recipients.map (signetVal w))) := rfl
  have h7 : (envelopeVal w e).get b!"SecurityLevel" = .num e.securityLevel.toNat := rfl
  unfold envelopeOf
  rw [h1, h2, h3, h4, h5, h6, h7, asByte_num, asList_null _ (fun x hx => signetOf_val hw x (a4 x (by simp [hx]))),
    asList_null _ (fun x hx => signetOf_val hw x (a4 x (by simp [hx]))), asList_null _ (fun x hx => signetOf_val hw x (a4 x (by simp [hx])))]
  have a6 : e.securityLevel.toNat < 2 ^ 63 := by omega
  simp only [Val.asStr, Val.asInt, a6, if_true, ok_bind]
  have a5 : Int.ofNat e.securityLevel.toNat = e.securityLevel := Int.toNat_of_nonneg a3.1
  rw [a5]
  cases e
  simp_all

/-! ## base64 in JSON -/

theorem unpad_padded (d : Bytes) : (jsonBin d).asBytes = .ok d := by
  show b64Decode false (unpad (b64Padded d)) = _
  have : unpad (b64Padded d) = b64Encode false d := by
    unfold unpad b64Padded
    rw [List.reverse_append, List.reverse_replicate]
    have h1 : ∀ (n : Nat) (x : Bytes), (List.replicate n (61 : UInt8) ++ x).dropWhile (· == 61) = x.dropWhile (· == 61) := by
      intro n x
      induction n with
      | zero => rfl
      | succ n ih => rw [List.replicate_succ, List.cons_append, List.dropWhile_cons, if_pos (by decide)]; exact ih
    rw [h1]
    have h2 : (b64Encode false d).reverse.dropWhile (· == 61) = (b64Encode false d).reverse := by
      have h3 : ∀ c ∈ (b64Encode false d).reverse, (c == 61) = false := by
        intro c hc
        rw [List.mem_reverse] at hc
        obtain ⟨g, hg, rfl⟩ := List.mem_map.1 hc
        have : ∀ g < 64, (b64Char false g == 61) = false := by decide
        exact this g (b64Groups_lt d g hg)
      cases h : (b64Encode false d).reverse with
      | nil => rfl
      | cons c r => rw [List.dropWhile_cons, h3 c (by rw [h]; simp)]; simp
    rw [h2, List.reverse_reverse]
  rw [this, b64Decode_encode]

/-! ## Dumping and loading -/

theorem load_cbor {v : Val} {b : Bytes} (h : dumpCbor v = .ok b) : dsdLoad b = .ok v ∧ b ≠ [] := by
  unfold dumpCbor at h
  split at h
  · rename_i hf
    cases h
    have := cbor_round 10 v [] hf
    rw [List.append_nil] at this
    refine ⟨?_, by simp⟩
    show (match cborRead 10 (cborWrite 10 v) with | some (v, []) => Except.ok v | _ => Except.error Err.malformed) = _
    rw [this]
  · cases h

theorem load_pack {v : Val} {b : Bytes} (h : dumpPack v = .ok b) : dsdLoad b = .ok v ∧ b ≠ [] := by
  unfold dumpPack at h
  split at h
  · rename_i hf
    cases h
    have := pack_round 10 v [] hf
    rw [List.append_nil] at this
    refine ⟨?_, by simp⟩
    show (match packRead 10 (packWrite 10 v) with | some (v, []) => Except.ok v | _ => Except.error Err.malformed) = _
    rw [this]
  · cases h

/-- JSON is also read with white space after it. -/
theorem load_json {v : Val} {b r : Bytes} (h : dumpJson v = .ok b) (hr : skipWs r = []) : dsdLoad (b ++ r) = .ok v ∧ b ≠ [] := by
  unfold dumpJson at h
  split at h
  · rename_i hf
    cases h
    have hst : Stop r := by
      intro c r' e
      subst e
      cases hc : isDigit c with
      | false => rfl
      | true => rw [skipWs_cons (digit_ws hc)] at hr; cases hr
    have := json_round 10 0 v r hf hst
    refine ⟨?_, by simp⟩
    show (match jsonParse (jsonWrite 10 0 v ++ r) with | some v => Except.ok v | none => Except.error Err.malformed) = _
    unfold jsonParse
    rw [this]
    simp only [hr, if_true]
  · cases h

/-! ## The codecs are sound -/

/-- What is written as a header is read. -/
theorem realHeader_sound : realHeader.Sound := by
  intro l hdr h
  show (do let v ← dsdLoad (hdr ++ [10]); letterOf v) = _
  rw [(load_json (r := [10]) h (by decide)).1, ok_bind, letterOf_val unpad_padded]

theorem realCodec_sound : realCodec.Sound := by
  refine ⟨?_, ?_⟩
  · intro l d h
    show (do let v ← dsdLoad d; letterOf v) = _
    rw [(load_cbor h).1, ok_bind, letterOf_val (fun _ => rfl)]
  · intro x d h
    show (do let v ← dsdLoad d; signedOf v) = _
    rw [(load_pack h).1, ok_bind, signedOf_val]

theorem realDsd_sound : realDsd.Sound := by
  refine ⟨?_, ?_, ?_, ?_⟩
  · intro s b h
    simp only [realDsd] at h ⊢
    split at h
    · rename_i hs
      obtain ⟨h1, h2⟩ := load_json (r := []) h rfl
      rw [List.append_nil] at h1
      refine ⟨h2, ?_⟩
      rw [loadSignetVal, h1, ok_bind, signetOf_val unpad_padded s hs]
    · cases h
  · intro s b h
    simp only [realDsd] at h ⊢
    split at h
    · rename_i hs
      obtain ⟨h1, h2⟩ := load_json (r := []) h rfl
      rw [List.append_nil] at h1
      refine ⟨h2, ?_⟩
      rw [loadEnvelopeVal, h1, ok_bind, envelopeOf_val unpad_padded s hs]
    · cases h
  · intro s b h
    simp only [realDsd] at h ⊢
    split at h
    · rename_i hs
      obtain ⟨h1, h2⟩ := load_cbor h
      refine ⟨h2, ?_⟩
      rw [loadSignetVal, h1, ok_bind, signetOf_val (fun _ => rfl) s hs]
    · cases h
  · intro s b h
    simp only [realDsd] at h ⊢
    split at h
    · rename_i hs
      obtain ⟨h1, h2⟩ := load_cbor h
      refine ⟨h2, ?_⟩
      rw [loadEnvelopeVal, h1, ok_bind, envelopeOf_val (fun _ => rfl) s hs]
    · cases h

/-! ## What can be written -/

/-- What all texts of a seal, of a letter, of a signet and of an envelope are (specification). -/
def SealTexts (T : Bytes → Prop) (s : Seal) : Prop := T s.scheme ∧ T s.id

def LetterTexts (T : Bytes → Prop) (l : Letter) : Prop := T l.suiteID ∧ ∀ s ∈ l.keys ++ l.signatures, SealTexts T s

def SignetTexts (T : Bytes → Prop) (s : Signet) : Prop := T s.id ∧ T s.scheme ∧ ∀ i, s.info = some i → T i.name ∧ T i.rest

def EnvelopeTexts (T : Bytes → Prop) (e : Envelope) : Prop :=
  T e.name ∧ T e.suiteID ∧ ∀ s ∈ e.secrets ++ e.senders ++ e.recipients, SignetTexts T s

/-- All texts are UTF-8 (specification). -/
def LetterText (l : Letter) : Prop := LetterTexts (fun s => utf8 s = true) l

def SignetText (s : Signet) : Prop := SignetTexts (fun s => utf8 s = true) s

def EnvelopeText (e : Envelope) : Prop := EnvelopeTexts (fun s => utf8 s = true) e

/-- A signet as files and texts have it: no protection, no signature. -/
def SignetOpen (s : Signet) : Prop := s.protection = false ∧ s.signature = none

/-- All parts of a letter (texts, bytes, lists) have a permitted size (specification). -/
def LetterSizes (small : Nat → Prop) (l : Letter) : Prop :=
  small l.suiteID.length ∧ small l.nonce.length ∧ small l.data.length ∧ small l.mac.length ∧ small l.keys.length ∧ small l.signatures.length ∧
  ∀ s ∈ l.keys ++ l.signatures, small s.scheme.length ∧ small s.id.length ∧ small s.value.length

def SignetSizes (small : Nat → Prop) (s : Signet) : Prop :=
  small s.id.length ∧ small s.scheme.length ∧ small s.key.length ∧ ∀ i, s.info = some i → small i.name.length ∧ small i.rest.length

def EnvelopeSizes (small : Nat → Prop) (e : Envelope) : Prop :=
  small e.name.length ∧ small e.suiteID.length ∧ small e.secrets.length ∧ small e.senders.length ∧ small e.recipients.length ∧
  ∀ s ∈ e.secrets ++ e.senders ++ e.recipients, SignetSizes small s

/-- What a format holds. -/
structure Kind.Holds (K : Kind) (w : Bytes → Val) (T : Bytes → Prop) (small : Nat → Prop) : Prop where
  utf8 : ∀ s, utf8 s = true → T s
  cut : ∀ s, T s → T (cutZero s).1 ∧ ∀ r, (cutZero s).2 = some r → T r
  str : ∀ s, T s → small s.length → K.str s = true
  bin : ∀ b f, small b.length → (w b).fits K (f + 1) = true
  num : ∀ n, n < 2 ^ 64 → K.num n = true
  len : ∀ n, small n → K.len n = true
  bool : K.bool = true
  down : ∀ n m, small n → m ≤ n → small m
  few : ∀ n, n ≤ 64 → small n

theorem cutZero_utf8 {s : Bytes} (h : utf8 s = true) : utf8 (cutZero s).1 = true ∧ ∀ r, (cutZero s).2 = some r → utf8 r = true := by
  have hs := cutZero_spec s
  cases hr : (cutZero s).2 with
  | none =>
    rw [hr] at hs
    simp only [List.append_nil] at hs
    refine ⟨by rw [← hs]; exact h, by intro r e; cases e⟩
  | some r =>
    rw [hr] at hs
    simp only at hs
    rw [hs, utf8_split (by decide), Bool.and_eq_true] at h
    refine ⟨h.1, ?_⟩
    intro r' e
    cases e
    exact h.2

theorem cutZero_length (s : Bytes) : (cutZero s).1.length ≤ s.length ∧ ∀ r, (cutZero s).2 = some r → r.length ≤ s.length := by
  have hs := cutZero_spec s
  cases hr : (cutZero s).2 with
  | none =>
    rw [hr] at hs
    simp only [List.append_nil] at hs
    refine ⟨by rw [← hs]; exact Nat.le_refl _, by intro r e; cases e⟩
  | some r =>
    rw [hr] at hs
    simp only at hs
    have := congrArg List.length hs
    simp only [List.length_append, List.length_cons] at this
    refine ⟨by omega, ?_⟩
    intro r' e
    cases e
    omega


/-! ### Each structure fits -/

section
variable {K : Kind} {w : Bytes → Val} {T : Bytes → Prop} {small : Nat → Prop}

theorem fits_obj {f : Nat} {l : List (Bytes × Val)} (hK : K.Holds w T small) (hl : small l.length) (h : ∀ p ∈ l, (T p.1 ∧ small p.1.length) ∧ p.2.fits K f = true) :
    (Val.obj l).fits K (f + 1) = true := by
  simp only [Val.fits, Bool.and_eq_true, List.all_eq_true]
  exact ⟨hK.len _ hl, fun p hp => ⟨hK.str _ (h p hp).1.1 (h p hp).1.2, (h p hp).2⟩⟩

theorem fits_arr {f : Nat} {l : List Val} (hK : K.Holds w T small) (hl : small l.length) (h : ∀ p ∈ l, p.fits K f = true) :
    (Val.arr l).fits K (f + 1) = true := by
  simp only [Val.fits, Bool.and_eq_true, List.all_eq_true]
  exact ⟨⟨hK.bool, hK.len _ hl⟩, h⟩

theorem key_ok (hK : K.Holds w T small) {k : Bytes} (h : utf8 k = true) (hl : Nat.ble k.length 64 = true) : T k ∧ small k.length :=
  ⟨hK.utf8 _ h, hK.few _ (Nat.le_of_ble_eq_true hl)⟩

theorem mem_omitted {e : Bool} {k : Bytes} {v : Val} {p : Bytes × Val} (h : p ∈ omitted e k v) : p = (k, v) := by
  unfold omitted at h
  split at h
  · cases h
  · simpa using h

theorem omitted_length (e : Bool) (k : Bytes) (v : Val) : (omitted e k v).length ≤ 1 := by
  unfold omitted
  split <;> simp

theorem fits_orNull {e : Bool} {v : Val} {f : Nat} (h : v.fits K (f + 1) = true) : (orNull e v).fits K (f + 1) = true := by
  unfold orNull
  split
  · rfl
  · exact h

theorem byte_small (b : UInt8) : b.toNat < 2 ^ 64 := by have := b.toNat_lt; omega

theorem seal_fits (hK : K.Holds w T small) {s : Seal} (ht : SealTexts T s) (hs : small s.scheme.length ∧ small s.id.length ∧ small s.value.length) (f : Nat) :
    (sealVal w s).fits K (f + 2) = true := by
  unfold sealVal
  refine fits_obj hK (hK.few _ ?_) ?_
  · have := omitted_length s.scheme.isEmpty b!"Scheme" (.str s.scheme)
    have := omitted_length s.id.isEmpty b!"ID" (.str s.id)
    have := omitted_length s.value.isEmpty b!"Value" (w s.value)
    simp only [List.length_append]
    omega
  · intro p hp
    simp only [List.mem_append] at hp
    rcases hp with (hp | hp) | hp <;> rw [mem_omitted hp]
    · exact ⟨key_ok hK rfl rfl, hK.str _ ht.1 hs.1⟩
    · exact ⟨key_ok hK rfl rfl, hK.str _ ht.2 hs.2.1⟩
    · exact ⟨key_ok hK rfl rfl, hK.bin _ _ hs.2.2⟩

theorem seals_fit (hK : K.Holds w T small) {l : List Seal} (ht : ∀ s ∈ l, SealTexts T s) (hl : small l.length)
    (hs : ∀ s ∈ l, small s.scheme.length ∧ small s.id.length ∧ small s.value.length) (f : Nat) :
    (Val.arr (l.map (sealVal w))).fits K (f + 3) = true := by
  refine fits_arr hK (by rw [List.length_map]; exact hl) ?_
  intro p hp
  obtain ⟨s, h, rfl⟩ := List.mem_map.1 hp
  exact seal_fits hK (ht s h) (hs s h) f

theorem letter_fits (hK : K.Holds w T small) {l : Letter} (ht : LetterTexts T l) (hs : LetterSizes small l) (f : Nat) :
    (letterVal w l).fits K (f + 4) = true := by
  obtain ⟨t1, t2⟩ := ht
  obtain ⟨s1, s2, s3, s4, s5, s6, s7⟩ := hs
  unfold letterVal
  refine fits_obj hK (hK.few _ ?_) ?_
  · have := omitted_length l.keys.isEmpty b!"Keys" (.arr (l.keys.map (sealVal w)))
    have := omitted_length l.data.isEmpty b!"Data" (w l.data)
    have := omitted_length l.mac.isEmpty b!"Mac" (w l.mac)
    have := omitted_length l.signatures.isEmpty b!"Signatures" (.arr (l.signatures.map (sealVal w)))
    have := omitted_length (!l.applyKeys) b!"ApplyKeys" (.bool l.applyKeys)
    simp only [List.length_append, List.length_cons, List.length_nil]
    omega
  · intro p hp
    simp only [List.mem_append, List.mem_cons, List.not_mem_nil, or_false] at hp
    rcases hp with (((((rfl | rfl | rfl) | hp) | hp) | hp) | hp) | hp
    · exact ⟨key_ok hK rfl rfl, hK.num _ (byte_small _)⟩
    · exact ⟨key_ok hK rfl rfl, hK.str _ t1 s1⟩
    · exact ⟨key_ok hK rfl rfl, fits_orNull (hK.bin _ _ s2)⟩
    · rw [mem_omitted hp]
      exact ⟨key_ok hK rfl rfl, seals_fit hK (fun s h => t2 s (by simp [h])) s5 (fun s h => s7 s (by simp [h])) f⟩
    · rw [mem_omitted hp]
      exact ⟨key_ok hK rfl rfl, hK.bin _ _ s3⟩
    · rw [mem_omitted hp]
      exact ⟨key_ok hK rfl rfl, hK.bin _ _ s4⟩
    · rw [mem_omitted hp]
      exact ⟨key_ok hK rfl rfl, seals_fit hK (fun s h => t2 s (by simp [h])) s6 (fun s h => s7 s (by simp [h])) f⟩
    · rw [mem_omitted hp]
      exact ⟨key_ok hK rfl rfl, hK.bool⟩

theorem fits_opt (hK : K.Holds w T small) {o : Option Bytes} (h : ∀ s, o = some s → T s ∧ small s.length) (f : Nat) : (optText o).fits K (f + 1) = true := by
  cases o with
  | none => rfl
  | some s => exact hK.str _ (h s rfl).1 (h s rfl).2

theorem info_fits (hK : K.Holds w T small) {i : SignetInfo} (ht : T i.name ∧ T i.rest) (hs : small i.name.length ∧ small i.rest.length)
    (f : Nat) : (infoVal i).fits K (f + 2) = true := by
  obtain ⟨u1, u2⟩ := hK.cut _ ht.2
  obtain ⟨l1, l2⟩ := cutZero_length i.rest
  unfold infoVal
  refine fits_obj hK (hK.few _ (Nat.le_of_ble_eq_true rfl)) ?_
  intro p hp
  simp only [List.mem_cons, List.not_mem_nil, or_false] at hp
  rcases hp with rfl | rfl | rfl | rfl | rfl
  · exact ⟨key_ok hK rfl rfl, hK.str _ ht.1 hs.1⟩
  · exact ⟨key_ok hK rfl rfl, hK.str _ u1 (hK.down _ _ hs.2 l1)⟩
  · refine ⟨key_ok hK rfl rfl, fits_opt hK ?_ _⟩
    intro s h
    obtain ⟨r, h1, rfl⟩ := Option.map_eq_some_iff.1 h
    exact ⟨(hK.cut _ (u2 r h1)).1, hK.down _ _ hs.2 (Nat.le_trans (cutZero_length r).1 (l2 r h1))⟩
  · refine ⟨key_ok hK rfl rfl, fits_opt hK ?_ _⟩
    intro s h
    obtain ⟨r, h1, h2⟩ := Option.bind_eq_some_iff.1 h
    exact ⟨(hK.cut _ (u2 r h1)).2 s h2, hK.down _ _ hs.2 (Nat.le_trans ((cutZero_length r).2 s h2) (l2 r h1))⟩
  · exact ⟨key_ok hK rfl rfl, rfl⟩

theorem signet_fits (hK : K.Holds w T small) {s : Signet} (ht : SignetTexts T s) (hs : SignetSizes small s) (f : Nat) :
    (signetVal w s).fits K (f + 3) = true := by
  obtain ⟨t1, t2, t3⟩ := ht
  obtain ⟨s1, s2, s3, s4⟩ := hs
  unfold signetVal
  refine fits_obj hK (hK.few _ ?_) ?_
  · have := omitted_length (!s.isPublic) b!"Public" (.bool s.isPublic)
    have : (infoMember s.info).length ≤ 1 := by unfold infoMember; split <;> simp
    simp only [List.length_append, List.length_cons, List.length_nil]
    omega
  · intro p hp
    simp only [List.mem_append, List.mem_cons, List.not_mem_nil, or_false] at hp
    rcases hp with ((rfl | rfl | rfl | rfl) | hp) | hp
    · exact ⟨key_ok hK rfl rfl, hK.num _ (byte_small _)⟩
    · exact ⟨key_ok hK rfl rfl, hK.str _ t1 s1⟩
    · exact ⟨key_ok hK rfl rfl, hK.str _ t2 s2⟩
    · exact ⟨key_ok hK rfl rfl, fits_orNull (hK.bin _ _ s3)⟩
    · rw [mem_omitted hp]
      exact ⟨key_ok hK rfl rfl, hK.bool⟩
    · cases hi : s.info with
      | none => rw [hi] at hp; cases hp
      | some i =>
        rw [hi] at hp
        simp only [infoMember, List.mem_cons, List.not_mem_nil, or_false] at hp
        rw [hp]
        exact ⟨key_ok hK rfl rfl, info_fits hK (t3 i hi) (s4 i hi) f⟩

theorem signets_fit (hK : K.Holds w T small) {l : List Signet} (ht : ∀ s ∈ l, SignetTexts T s) (hl : small l.length) (hs : ∀ s ∈ l, SignetSizes small s) (f : Nat) :
    (orNull l.isEmpty (Val.arr (l.map (signetVal w)))).fits K (f + 4) = true := by
  refine fits_orNull (fits_arr hK (by rw [List.length_map]; exact hl) ?_)
  intro p hp
  obtain ⟨s, h, rfl⟩ := List.mem_map.1 hp
  exact signet_fits hK (ht s h) (hs s h) f

theorem envelope_fits (hK : K.Holds w T small) {e : Envelope} (ht : EnvelopeTexts T e) (hs : EnvelopeSizes small e) (hl : e.securityLevel < 2 ^ 63) (f : Nat) :
    (envelopeVal w e).fits K (f + 5) = true := by
  obtain ⟨t1, t2, t3⟩ := ht
  obtain ⟨s1, s2, s3, s4, s5, s6⟩ := hs
  unfold envelopeVal
  refine fits_obj hK (hK.few _ (Nat.le_of_ble_eq_true rfl)) ?_
  intro p hp
  simp only [List.mem_cons, List.not_mem_nil, or_false] at hp
  rcases hp with rfl | rfl | rfl | rfl | rfl | rfl | rfl
  · exact ⟨key_ok hK rfl rfl, hK.num _ (byte_small _)⟩
  · exact ⟨key_ok hK rfl rfl, hK.str _ t1 s1⟩
  · exact ⟨key_ok hK rfl rfl, hK.str _ t2 s2⟩
  · exact ⟨key_ok hK rfl rfl, signets_fit hK (fun s h => t3 s (by simp [h])) s3 (fun s h => s6 s (by simp [h])) f⟩
  · exact ⟨key_ok hK rfl rfl, signets_fit hK (fun s h => t3 s (by simp [h])) s4 (fun s h => s6 s (by simp [h])) f⟩
  · exact ⟨key_ok hK rfl rfl, signets_fit hK (fun s h => t3 s (by simp [h])) s5 (fun s h => s6 s (by simp [h])) f⟩
  · exact ⟨key_ok hK rfl rfl, hK.num _ (by omega)⟩

end

/-! ### The formats -/

theorem b64Padded_ascii (d : Bytes) : ∀ c ∈ b64Padded d, c < 0x80 := by
  intro c hc
  unfold b64Padded at hc
  rw [List.mem_append] at hc
  rcases hc with hc | hc
  · obtain ⟨g, hg, rfl⟩ := List.mem_map.1 hc
    have : ∀ g < 64, b64Char false g < 0x80 := by decide
    exact this g (b64Groups_lt d g hg)
  · rw [List.eq_of_mem_replicate hc]; decide

/-- JSON holds texts and bytes of any size. -/
theorem json_holds : jsonKind.Holds jsonBin (fun s => utf8 s = true) (fun _ => True) where
  utf8 := fun _ h => h
  cut := fun _ h => cutZero_utf8 h
  str := fun s h _ => h
  bin := fun b _ _ => utf8_ascii _ (b64Padded_ascii b)
  num := fun n h => by show decide _ = true; rw [decide_eq_true_eq]; omega
  len := fun _ _ => rfl
  bool := rfl
  down := fun _ _ _ _ => trivial
  few := fun _ _ => trivial

theorem cbor_holds : cborKind.Holds .bin (fun s => utf8 s = true) (· < 2 ^ 64) where
  utf8 := fun _ h => h
  cut := fun _ h => cutZero_utf8 h
  str := fun s h hs => by show (_ && decide _) = true; rw [h, decide_eq_true hs]; rfl
  bin := fun b _ hb => by show decide _ = true; exact decide_eq_true hb
  num := fun n h => by show decide _ = true; exact decide_eq_true h
  len := fun n h => by show decide _ = true; exact decide_eq_true h
  bool := rfl
  down := fun _ _ h h' => by omega
  few := fun _ h => by omega

/-- Without regard to UTF-8. -/
theorem jsonAny_holds : jsonAny.Holds jsonBin (fun _ => True) (fun _ => True) where
  utf8 := fun _ _ => trivial
  cut := fun _ _ => ⟨trivial, fun _ _ => trivial⟩
  str := fun _ _ _ => rfl
  bin := fun _ _ _ => rfl
  num := json_holds.num
  len := fun _ _ => rfl
  bool := rfl
  down := fun _ _ _ _ => trivial
  few := fun _ _ => trivial

theorem cborAny_holds : cborAny.Holds .bin (fun _ => True) (· < 2 ^ 64) where
  utf8 := fun _ _ => trivial
  cut := fun _ _ => ⟨trivial, fun _ _ => trivial⟩
  str := fun s _ hs => by show decide _ = true; exact decide_eq_true hs
  bin := cbor_holds.bin
  num := cbor_holds.num
  len := cbor_holds.len
  bool := rfl
  down := cbor_holds.down
  few := cbor_holds.few

theorem any_letter (l : Letter) : LetterTexts (fun _ => True) l := ⟨trivial, fun _ _ => ⟨trivial, trivial⟩⟩
theorem any_signet (s : Signet) : SignetTexts (fun _ => True) s := ⟨trivial, trivial, fun _ _ => ⟨trivial, trivial⟩⟩
theorem any_envelope (e : Envelope) : EnvelopeTexts (fun _ => True) e := ⟨trivial, trivial, fun s _ => any_signet s⟩

/-! ## Round trips without assumptions -/

theorem dumpJson_ok {v : Val} (h : v.fits jsonKind 10 = true) : dumpJson v = .ok (74 :: jsonWrite 10 0 v) := by
  unfold dumpJson
  rw [if_pos h]

theorem dumpCbor_ok {v : Val} (h : v.fits cborKind 10 = true) : dumpCbor v = .ok (67 :: cborWrite 10 v) := by
  unfold dumpCbor
  rw [if_pos h]

theorem dumpPack_ok {v : Val} (h : v.fits packKind 10 = true) : dumpPack v = .ok (77 :: packWrite 10 v) := by
  unfold dumpPack
  rw [if_pos h]

/-- Every letter of which the texts are UTF-8 has a header. -/
theorem header_dumps (l : Letter) (h : LetterText l) : realHeader.dump l = goHeader.dump l ∧ ∃ hdr, realHeader.dump l = .ok hdr := by
  have := letter_fits json_holds h (small := fun _ => True) (f := 6) (by unfold LetterSizes; simp)
  exact ⟨dumpJson_ok this, _, dumpJson_ok this⟩

/-- C114. Every letter of which the texts are UTF-8 survives the file format, whatever follows it. (A header of 2^64 bytes can not be announced.) -/
theorem letter_file_survives (l : Letter) (rest : Bytes) (h : LetterText l) (hd : l.data.length < 2 ^ 64)
    (hh : ∀ hdr, goHeader.dump { l with data := [] } = .ok hdr → hdr.length < 2 ^ 64 - 1) :
    ∃ out, l.toFileFormat goHeader = (.ok out, l) ∧ letterFromFileFormat goHeader (out ++ rest) = .ok (l, rest) := by
  obtain ⟨h1, hdr, h2⟩ := header_dumps { l with data := [] } h
  rw [h1] at h2
  refine file_roundtrip goHeader l rest hdr hd (hh hdr h2) h2 ?_
  rw [← h1] at h2
  exact realHeader_sound _ _ h2

/-- C114. Every letter of which the texts are UTF-8 survives CBOR. -/
theorem letter_cbor_survives (l : Letter) (h : LetterText l) (hs : LetterSizes (· < 2 ^ 64) l) :
    ∃ d, goCodec.dump l = .ok d ∧ goCodec.load d = .ok l := by
  have := letter_fits cbor_holds h hs 6
  exact ⟨_, rfl, realCodec_sound.1 l _ (dumpCbor_ok this)⟩

/-- C114. Signed file data survives MsgPack, whatever the bytes of its texts are, if it was signed after 1970 and before 2514. -/
theorem signed_data_survives (x : SignedData) (ht : x.signedAt < 2 ^ 34) (hl : x.labeledHash.length < 2 ^ 32) (hm : x.metaData.length < 2 ^ 32)
    (hp : ∀ p ∈ x.metaData, p.1.length < 2 ^ 32 ∧ p.2.length < 2 ^ 32) : ∃ d, goCodec.dumpFile x = .ok d ∧ goCodec.loadFile d = .ok x := by
  have fo : ∀ (l : List (Bytes × Val)) (f : Nat), l.length < 2 ^ 32 → (∀ p ∈ l, p.1.length < 2 ^ 32 ∧ p.2.fits packKind f = true) →
      (Val.obj l).fits packKind (f + 1) = true := by
    intro l f hl h
    show (decide _ && l.all _) = true
    rw [decide_eq_true hl, Bool.true_and, List.all_eq_true]
    intro p hp
    rw [Bool.and_eq_true]
    exact ⟨decide_eq_true (h p hp).1, (h p hp).2⟩
  have : (signedVal x).fits packKind 10 = true := by
    unfold signedVal
    refine fo _ 9 (Nat.le_of_ble_eq_true rfl) ?_
    intro p h
    simp only [List.mem_cons, List.not_mem_nil, or_false] at h
    rcases h with rfl | rfl | rfl
    · exact ⟨Nat.le_of_ble_eq_true rfl, fits_orNull (v := .bin x.labeledHash) (decide_eq_true hl)⟩
    · exact ⟨Nat.le_of_ble_eq_true rfl, decide_eq_true ht⟩
    · refine ⟨Nat.le_of_ble_eq_true rfl, fits_orNull (fo _ 8 (by rw [List.length_map]; exact hm) ?_)⟩
      intro q hq
      obtain ⟨p, h, rfl⟩ := List.mem_map.1 hq
      exact ⟨(hp p h).1, decide_eq_true (hp p h).2⟩
  exact ⟨_, rfl, realCodec_sound.2 x _ (dumpPack_ok this)⟩

theorem plain_open {s : Signet} (h : SignetOpen s) : plainSignet s.stored = true := by
  unfold plainSignet Signet.stored
  simp [h.1, h.2]

theorem stored_text {s : Signet} (h : SignetText s) : SignetText s.stored := h

/-- C114. Signets of which the texts are UTF-8 survive the files of a trust store; loaded keys are not written. -/
theorem signet_file_survives (s : Signet) (h : SignetText s) (ho : SignetOpen s) :
    ∃ d, goDsd.dumpSignet s.stored = .ok d ∧ goDsd.loadSignet d = .ok s.stored := by
  have h1 := signet_fits json_holds (s := s.stored) h (small := fun _ => True) (f := 7) (by unfold SignetSizes; simp)
  have hp := plain_open ho
  refine ⟨74 :: jsonWrite 10 0 (signetVal jsonBin s.stored), by simp [goDsd, hp], ?_⟩
  exact (realDsd_sound.signet s.stored _ (by simp only [realDsd, hp, if_true]; exact dumpJson_ok h1)).2

/-- C114. Signets of which the texts are UTF-8 survive CBOR. -/
theorem signet_cbor_survives (s : Signet) (h : SignetText s) (ho : SignetOpen s) (hs : SignetSizes (· < 2 ^ 64) s) :
    ∃ d, goDsd.textSignet s.stored = .ok d ∧ goDsd.loadSignet d = .ok s.stored := by
  have h1 := signet_fits cbor_holds (s := s.stored) h hs 7
  have hp := plain_open ho
  refine ⟨67 :: cborWrite 10 (signetVal .bin s.stored), by simp [goDsd, hp], ?_⟩
  exact (realDsd_sound.textSignet s.stored _ (by simp only [realDsd, hp, if_true]; exact dumpCbor_ok h1)).2

/-- An envelope as files and texts have it. -/
def EnvelopeOpen (e : Envelope) : Prop := 0 ≤ e.securityLevel ∧ e.securityLevel < 2 ^ 63 ∧ ∀ s ∈ e.secrets ++ e.senders ++ e.recipients, SignetOpen s

theorem plain_openEnvelope {e : Envelope} (h : EnvelopeOpen e) : plainEnvelope e.stored = true := by
  unfold plainEnvelope Envelope.stored
  simp only [Option.isNone_none, Bool.not_false, Bool.true_and, Bool.and_eq_true, decide_eq_true_eq, List.all_eq_true, List.mem_append, List.mem_map]
  refine ⟨⟨h.1, h.2.1⟩, ?_⟩
  rintro x ((⟨s, hs, rfl⟩ | ⟨s, hs, rfl⟩) | ⟨s, hs, rfl⟩)
  all_goals exact plain_open (h.2.2 s (by simp [hs]))

theorem stored_envelope_text {e : Envelope} (h : EnvelopeText e) : EnvelopeText e.stored := by
  refine ⟨h.1, h.2.1, ?_⟩
  intro x hx
  simp only [Envelope.stored, List.mem_append, List.mem_map] at hx
  rcases hx with (⟨s, hs, rfl⟩ | ⟨s, hs, rfl⟩) | ⟨s, hs, rfl⟩
  all_goals exact stored_text (h.2.2 s (by simp [hs]))

theorem stored_envelope_sizes {small : Nat → Prop} {e : Envelope} (h : EnvelopeSizes small e) : EnvelopeSizes small e.stored := by
  obtain ⟨h1, h2, h3, h4, h5, h6⟩ := h
  refine ⟨h1, h2, ?_, ?_, ?_, ?_⟩
  · simpa [Envelope.stored] using h3
  · simpa [Envelope.stored] using h4
  · simpa [Envelope.stored] using h5
  · intro x hx
    simp only [Envelope.stored, List.mem_append, List.mem_map] at hx
    rcases hx with (⟨s, hs, rfl⟩ | ⟨s, hs, rfl⟩) | ⟨s, hs, rfl⟩
    all_goals exact h6 s (by simp [hs])

/-- C114. Envelopes of which the texts are UTF-8 survive the files of a trust store. -/
theorem envelope_file_survives (e : Envelope) (h : EnvelopeText e) (ho : EnvelopeOpen e) :
    ∃ d, goDsd.dumpEnvelope e.stored = .ok d ∧ goDsd.loadEnvelope d = .ok e.stored := by
  have h1 := envelope_fits json_holds (stored_envelope_text h) (small := fun _ => True) (f := 5) (by unfold EnvelopeSizes SignetSizes; simp) ho.2.1
  have hp := plain_openEnvelope ho
  refine ⟨74 :: jsonWrite 10 0 (envelopeVal jsonBin e.stored), by simp [goDsd, hp], ?_⟩
  exact (realDsd_sound.envelope e.stored _ (by simp only [realDsd, hp, if_true]; exact dumpJson_ok h1)).2

/-- C114. Envelopes of which the texts are UTF-8 survive CBOR. -/
theorem envelope_cbor_survives (e : Envelope) (h : EnvelopeText e) (ho : EnvelopeOpen e) (hs : EnvelopeSizes (· < 2 ^ 64) e) :
    ∃ d, goDsd.textEnvelope e.stored = .ok d ∧ goDsd.loadEnvelope d = .ok e.stored := by
  have h1 := envelope_fits cbor_holds (stored_envelope_text h) (stored_envelope_sizes hs) (f := 5) ho.2.1
  have hp := plain_openEnvelope ho
  refine ⟨67 :: cborWrite 10 (envelopeVal .bin e.stored), by simp [goDsd, hp], ?_⟩
  exact (realDsd_sound.textEnvelope e.stored _ (by simp only [realDsd, hp, if_true]; exact dumpCbor_ok h1)).2

/-! ## Loading -/

theorem dsdLoad_noPanic (b : Bytes) : (dsdLoad b).noPanic := by
  unfold dsdLoad
  repeat' split
  all_goals (intro h; cases h)

theorem np_mapRes {α β : Type} {f : α → Res β} (hf : ∀ x, (f x).noPanic) : ∀ l, (mapRes f l).noPanic
  | [] => np_ok _
  | x :: l => np_bind (hf x) fun _ _ => np_bind (np_mapRes hf l) fun _ _ => np_ok _

theorem np_asStr (v : Val) : v.asStr.noPanic := by unfold Val.asStr; split <;> (intro h; cases h)
theorem np_asByte (v : Val) : v.asByte.noPanic := by unfold Val.asByte; repeat' split
                                                     all_goals (intro h; cases h)
theorem np_asBool (v : Val) : v.asBool.noPanic := by unfold Val.asBool; split <;> (intro h; cases h)
theorem np_asInt (v : Val) : v.asInt.noPanic := by unfold Val.asInt; repeat' split
                                                   all_goals (intro h; cases h)
theorem np_zeroText (v : Val) : (zeroText v).noPanic := by unfold zeroText; split <;> (intro h; cases h)

theorem np_b64Bytes : ∀ vs : List Nat, (b64Bytes vs).noPanic
  | [] => np_ok _
  | [_] => np_err (by decide)
  | [_, _] => np_ok _
  | [_, _, _] => np_ok _
  | a :: b :: c :: d :: r => by
    have := np_b64Bytes r
    rw [b64Bytes]
    split
    · rename_i e he
      exact np_err (fun h => this (by rw [he, h]))
    · exact np_ok _

theorem np_b64Vals (url : Bool) : ∀ s : Bytes, (b64Vals url s).noPanic
  | [] => np_ok _
  | c :: r => by
    have := np_b64Vals url r
    rw [b64Vals]
    split
    · exact this
    · split
      · exact np_err (by decide)
      · split
        · rename_i e he
          exact np_err (fun h => this (by rw [he, h]))
        · exact np_ok _

theorem b64Decode_noPanic (url : Bool) (s : Bytes) : (b64Decode url s).noPanic := by
  have := np_b64Vals url s
  unfold b64Decode
  split
  · rename_i e he
    exact np_err (fun h => this (by rw [he, h]))
  · exact np_b64Bytes _

theorem np_asBytes (v : Val) : v.asBytes.noPanic := by
  unfold Val.asBytes
  split
  · exact np_ok _
  · exact np_ok _
  · exact b64Decode_noPanic _ _
  · exact np_err (by decide)

theorem np_asList {α : Type} {f : Val → Res α} (hf : ∀ x, (f x).noPanic) (v : Val) : (v.asList f).noPanic := by
  unfold Val.asList
  split
  · exact np_ok _
  · exact np_mapRes hf _
  · exact np_err (by decide)

theorem np_infoOf (v : Val) : (infoOf v).noPanic := by
  unfold infoOf
  split
  · exact np_ok _
  · exact np_bind (np_asStr _) fun _ _ => np_bind (np_asStr _) fun _ _ => np_bind (np_zeroText _) fun _ _ => np_bind (np_zeroText _) fun _ _ => np_ok _

theorem np_signetOf (v : Val) : (signetOf v).noPanic :=
  np_bind (np_asByte _) fun _ _ => np_bind (np_asStr _) fun _ _ => np_bind (np_asStr _) fun _ _ => np_bind (np_asBytes _) fun _ _ =>
    np_bind (np_asBool _) fun _ _ => np_bind (np_infoOf _) fun _ _ => np_ok _

theorem np_envelopeOf (v : Val) : (envelopeOf v).noPanic :=
  np_bind (np_asByte _) fun _ _ => np_bind (np_asStr _) fun _ _ => np_bind (np_asStr _) fun _ _ => np_bind (np_asList np_signetOf _) fun _ _ =>
    np_bind (np_asList np_signetOf _) fun _ _ => np_bind (np_asList np_signetOf _) fun _ _ => np_bind (np_asInt _) fun _ _ => np_ok _

/-- The serializers do not crash. -/
theorem realDsd_noPanic : realDsd.NoPanic where
  loadSignet := fun b => np_bind (dsdLoad_noPanic b) fun v _ => np_signetOf v
  loadEnvelope := fun b => np_bind (dsdLoad_noPanic b) fun v _ => np_envelopeOf v
  dumpEnvelope := fun e => by
    simp only [realDsd, dumpJson]
    repeat' split
    all_goals (intro h; cases h)
  textEnvelope := fun e => by
    simp only [realDsd, dumpCbor]
    repeat' split
    all_goals (intro h; cases h)

/-- Loaded keys are not read. -/
theorem realDsd_plain : realDsd.Plain := by
  intro b s h
  simp only [realDsd, loadSignetVal, bind_ok_iff] at h
  obtain ⟨v, _, h⟩ := h
  simp only [signetOf, bind_ok_iff] at h
  obtain ⟨_, _, _, _, _, _, _, _, _, _, _, _, h⟩ := h
  cases h
  exact ⟨rfl, rfl⟩

/-- C114. The serializers meet the assumptions of all other theorems about them: what they write is read as it was, nothing crashes, and loaded keys are not
read. -/
theorem formats_meet_assumptions : realHeader.Sound ∧ realCodec.Sound ∧ realDsd.Sound ∧ realDsd.NoPanic ∧ realDsd.Plain :=
  ⟨realHeader_sound, realCodec_sound, realDsd_sound, realDsd_noPanic, realDsd_plain⟩

/-! ## Texts that are not UTF-8 -/

theorem fix_omitted (f : Nat) (e : Bool) (k : Bytes) (v : Val) (hk : utf8 k = true) :
    (omitted e k v).map (fun p => (utf8Fix p.1, Val.fix f p.2)) = omitted e k (v.fix f) := by
  unfold omitted
  split
  · rfl
  · simp [utf8Fix_id hk]

theorem fix_isEmpty (s : Bytes) : (utf8Fix s).isEmpty = s.isEmpty := by
  unfold utf8Fix
  rcases utf8_cases s with rfl | ⟨ch, r, hc, rfl⟩ | ⟨a, r, rfl, _, h2⟩
  · rfl
  · rw [utf8Map_char hc]
    have := hc.length_pos
    cases ch with
    | nil => simp at this
    | cons a ch => rfl
  · rw [h2]; rfl

theorem fix_bin (f : Nat) (b : Bytes) : (jsonBin b).fix f = jsonBin b := by
  cases f with
  | zero => rfl
  | succ f =>
    show Val.str _ = _
    rw [utf8Fix_id (utf8_ascii _ (b64Padded_ascii b))]
    rfl

theorem fix_orNull (f : Nat) (e : Bool) (v : Val) : (orNull e v).fix f = orNull e (v.fix f) := by
  unfold orNull
  split
  · cases f <;> rfl
  · rfl

/-- What JSON makes of a seal and of a letter (specification): U+FFFD instead of what is not UTF-8. -/
def fixSeal (s : Seal) : Seal := { s with scheme := utf8Fix s.scheme, id := utf8Fix s.id }

def fixLetter (l : Letter) : Letter :=
  { l with suiteID := utf8Fix l.suiteID, keys := l.keys.map fixSeal, signatures := l.signatures.map fixSeal }

theorem fix_seal (f : Nat) (s : Seal) : (sealVal jsonBin s).fix (f + 2) = sealVal jsonBin (fixSeal s) := by
  unfold sealVal fixSeal
  rw [Val.fix]
  simp only [List.map_append]
  rw [fix_omitted _ _ _ _ (by decide), fix_omitted _ _ _ _ (by decide), fix_omitted _ _ _ _ (by decide), fix_bin]
  simp only [Val.fix, fix_isEmpty]

theorem fix_seals (f : Nat) (l : List Seal) : (Val.arr (l.map (sealVal jsonBin))).fix (f + 3) = .arr ((l.map fixSeal).map (sealVal jsonBin)) := by
  simp only [Val.fix, List.map_map]
  congr 1
  apply List.map_congr_left
  intro s _
  exact fix_seal f s

theorem fix_letter (f : Nat) (l : Letter) : (letterVal jsonBin l).fix (f + 4) = letterVal jsonBin (fixLetter l) := by
  unfold letterVal
  rw [Val.fix]
  simp only [List.map_append, List.map_cons, List.map_nil]
  rw [fix_omitted _ _ _ _ (by decide), fix_omitted _ _ _ _ (by decide), fix_omitted _ _ _ _ (by decide), fix_omitted _ _ _ _ (by decide),
    fix_omitted _ _ _ _ (by decide), fix_bin, fix_bin, fix_orNull, fix_bin, fix_seals, fix_seals]
  have e1 : utf8Fix b!"Version" = b!"Version" := utf8Fix_id (by decide)
  have e2 : utf8Fix b!"SuiteID" = b!"SuiteID" := utf8Fix_id (by decide)
  have e3 : utf8Fix b!"Nonce" = b!"Nonce" := utf8Fix_id (by decide)
  have e4 : (l.keys.map fixSeal).isEmpty = l.keys.isEmpty := by cases l.keys <;> rfl
  have e5 : (l.signatures.map fixSeal).isEmpty = l.signatures.isEmpty := by cases l.signatures <;> rfl
  simp only [Val.fix, e1, e2, e3, fixLetter, e4, e5]

theorem load_json_fix {v : Val} (r : Bytes) (h : v.fits jsonAny 10 = true) (hr : skipWs r = []) : dsdLoad (74 :: jsonWrite 10 0 v ++ r) = .ok (v.fix 10) := by
  have hst : Stop r := by
    intro c r' e
    subst e
    cases hc : isDigit c with
    | false => rfl
    | true => rw [skipWs_cons (digit_ws hc)] at hr; cases hr
  have := json_read 10 0 v r h hst
  show (match jsonParse (jsonWrite 10 0 v ++ r) with | some v => Except.ok v | none => Except.error Err.malformed) = _
  unfold jsonParse
  rw [this]
  simp only [hr, if_true]

theorem fixLetter_iff (l : Letter) : fixLetter l = l ↔ LetterText l := by
  have hl : ∀ ss : List Seal, ss.map fixSeal = ss ↔ ∀ s ∈ ss, SealTexts (fun s => utf8 s = true) s := by
    intro ss
    induction ss with
    | nil => simp
    | cons s ss ih =>
      rw [List.map_cons, List.cons.injEq, ih]
      have : fixSeal s = s ↔ SealTexts (fun s => utf8 s = true) s := by
        cases s
        simp only [fixSeal, Seal.mk.injEq, SealTexts, utf8Fix_iff, and_true]
      rw [this]
      simp
  cases l with
  | mk version suiteID nonce keys data mac signatures applyKeys =>
    simp only [fixLetter, LetterText, LetterTexts, Letter.mk.injEq, hl, utf8Fix_iff, true_and, and_true, List.mem_append]
    constructor
    · rintro ⟨h1, h2, h3⟩
      exact ⟨h1, fun s hs => hs.elim (h2 s) (h3 s)⟩
    · rintro ⟨h1, h2⟩
      exact ⟨h1, fun s hs => h2 s (.inl hs), fun s hs => h2 s (.inr hs)⟩

/-- C114, what becomes of every letter as header: it is read with U+FFFD instead of what is not UTF-8. -/
theorem header_read (l : Letter) : ∃ hdr, goHeader.dump l = .ok hdr ∧ goHeader.load (hdr ++ [10]) = .ok (fixLetter l) := by
  refine ⟨_, rfl, ?_⟩
  have h := letter_fits jsonAny_holds (any_letter l) (small := fun _ => True) (f := 6) (by unfold LetterSizes; simp)
  show (do let v ← dsdLoad (74 :: jsonWrite 10 0 (letterVal jsonBin l) ++ [10]); letterOf v) = _
  rw [load_json_fix [10] h (by decide), ok_bind, fix_letter 6, letterOf_val unpad_padded]

/-- C114 is REFUTED for letters with texts that are not UTF-8 (suite IDs, IDs and schemes of seals): the header that is read is that of another letter. It
survives if and only if all texts are UTF-8. -/
theorem header_survives_iff (l : Letter) : (∃ hdr, goHeader.dump l = .ok hdr ∧ goHeader.load (hdr ++ [10]) = .ok l) ↔ LetterText l := by
  obtain ⟨hdr, h1, h2⟩ := header_read l
  constructor
  · rintro ⟨hdr', h3, h4⟩
    rw [h1] at h3
    cases h3
    rw [h2] at h4
    cases h : fixLetter l
    rw [← fixLetter_iff]
    exact Except.ok.inj h4
  · intro h
    rw [(fixLetter_iff l).2 h] at h2
    exact ⟨hdr, h1, h2⟩

/-! ### CBOR -/

theorem load_cbor_iff {v : Val} (h : v.fits cborAny 10 = true) : dsdLoad (67 :: cborWrite 10 v) = if v.fits cborKind 10 then .ok v else .error .malformed := by
  have := cbor_read 10 v [] h
  rw [List.append_nil] at this
  show (match cborRead 10 (cborWrite 10 v) with | some (v, []) => Except.ok v | _ => Except.error Err.malformed) = _
  rw [this]
  cases v.fits cborKind 10 <;> rfl

theorem mem_fits {K : Kind} {f : Nat} {l : List (Bytes × Val)} (h : (Val.obj l).fits K (f + 1) = true) {k : Bytes} {v : Val} (hm : (k, v) ∈ l) : v.fits K f = true := by
  simp only [Val.fits, Bool.and_eq_true, List.all_eq_true] at h
  exact (h.2 _ hm).2

theorem mem_arr {K : Kind} {f : Nat} {l : List Val} (h : (Val.arr l).fits K (f + 1) = true) {v : Val} (hm : v ∈ l) : v.fits K f = true := by
  simp only [Val.fits, Bool.and_eq_true, List.all_eq_true] at h
  exact h.2 _ hm

theorem cbor_str {f : Nat} {s : Bytes} (h : (Val.str s).fits cborKind (f + 1) = true) : utf8 s = true := by
  simp only [Val.fits, cborKind, Bool.and_eq_true] at h
  exact h.1

theorem mem_omitted_self {e : Bool} (he : e = false) (k : Bytes) (v : Val) : (k, v) ∈ omitted e k v := by simp [omitted, he]

theorem cbor_omitted {l : List (Bytes × Val)} {f : Nat} {k s : Bytes} (h : (Val.obj l).fits cborKind (f + 2) = true)
    (hm : ∀ p ∈ omitted s.isEmpty k (.str s), p ∈ l) : utf8 s = true := by
  cases hs : s.isEmpty with
  | true =>
    have : s = [] := by simpa using hs
    subst this
    rfl
  | false => exact cbor_str (mem_fits h (hm _ (mem_omitted_self hs _ _)))

theorem seal_text {s : Seal} {w : Bytes → Val} {f : Nat} (h : (sealVal w s).fits cborKind (f + 2) = true) : SealTexts (fun s => utf8 s = true) s := by
  unfold sealVal at h
  exact ⟨cbor_omitted (k := b!"Scheme") h (fun p hp => by simp only [List.mem_append]; exact .inl (.inl hp)),
    cbor_omitted (k := b!"ID") h (fun p hp => by simp only [List.mem_append]; exact .inl (.inr hp))⟩

theorem list_text {α : Type} {l : List α} {m : List (Bytes × Val)} {g : α → Val} {k : Bytes} {f : Nat} (h : (Val.obj m).fits cborKind (f + 2) = true)
    (hm : ∀ p ∈ omitted l.isEmpty k (.arr (l.map g)), p ∈ m) : ∀ x ∈ l, (g x).fits cborKind f = true := by
  intro x hx
  have hne : l.isEmpty = false := by cases l with | nil => cases hx | cons _ _ => rfl
  have := mem_fits h (hm _ (mem_omitted_self hne _ _))
  simp only [Val.fits, Bool.and_eq_true, List.all_eq_true] at this
  exact this.2 _ (List.mem_map.2 ⟨x, hx, rfl⟩)

theorem letter_text {l : Letter} {w : Bytes → Val} {f : Nat} (h : (letterVal w l).fits cborKind (f + 4) = true) : LetterText l := by
  unfold letterVal at h
  refine ⟨cbor_str (mem_fits h (k := b!"SuiteID") (by simp)), ?_⟩
  intro s hs
  rcases List.mem_append.1 hs with hs | hs
  · exact seal_text (list_text (k := b!"Keys") h (fun p hp => by simp only [List.mem_append]; exact .inl (.inl (.inl (.inl (.inr hp))))) s hs)
  · exact seal_text (list_text (k := b!"Signatures") h (fun p hp => by simp only [List.mem_append]; exact .inl (.inr hp)) s hs)

/-- C114 is REFUTED for texts that are not UTF-8: a letter is written as CBOR (detached signatures, JSON signatures) whatever its texts are, but can be read if and only
if they are UTF-8. -/
theorem letter_cbor_iff (l : Letter) (hs : LetterSizes (· < 2 ^ 64) l) :
    ∃ d, goCodec.dump l = .ok d ∧ (LetterText l → goCodec.load d = .ok l) ∧ (¬ LetterText l → goCodec.load d = .error .malformed) := by
  refine ⟨_, rfl, ?_, ?_⟩
  · intro h
    obtain ⟨d, h1, h2⟩ := letter_cbor_survives l h hs
    cases h1
    exact h2
  · intro h
    have h1 := letter_fits cborAny_holds (any_letter l) hs 6
    have h2 : (letterVal .bin l).fits cborKind 10 = false := by
      cases hf : (letterVal .bin l).fits cborKind 10 with
      | false => rfl
      | true => exact absurd (letter_text (f := 6) hf) h
    show (do let v ← dsdLoad (67 :: cborWrite 10 (letterVal .bin l)); letterOf v) = _
    rw [load_cbor_iff h1, h2]
    rfl

theorem info_text {i : SignetInfo} {f : Nat} (h : (infoVal i).fits cborKind (f + 2) = true) : utf8 i.name = true ∧ utf8 i.rest = true := by
  unfold infoVal at h
  refine ⟨cbor_str (mem_fits h (k := b!"Name") (by simp)), ?_⟩
  have h1 : utf8 (cutZero i.rest).1 = true := cbor_str (mem_fits h (k := b!"Owner") (by simp))
  have h2 := mem_fits h (k := b!"Created") (v := optText ((cutZero i.rest).2.map fun r => (cutZero r).1)) (by simp)
  have h3 := mem_fits h (k := b!"Expires") (v := optText ((cutZero i.rest).2.bind fun r => (cutZero r).2)) (by simp)
  have hs := cutZero_spec i.rest
  cases hr : (cutZero i.rest).2 with
  | none =>
    rw [hr] at hs
    simp only [List.append_nil] at hs
    rw [hs]
    exact h1
  | some r =>
    rw [hr] at hs h2 h3
    simp only [Option.map_some, Option.bind_some] at hs h2 h3
    have h2 : utf8 (cutZero r).1 = true := cbor_str h2
    rw [hs, utf8_split (by decide), h1, Bool.true_and]
    have hs2 := cutZero_spec r
    cases hr2 : (cutZero r).2 with
    | none =>
      rw [hr2] at hs2
      simp only [List.append_nil] at hs2
      rw [hs2]
      exact h2
    | some r2 =>
      rw [hr2] at hs2 h3
      simp only at hs2
      have h3 : utf8 r2 = true := cbor_str h3
      rw [hs2, utf8_split (by decide), h2, h3]
      rfl

theorem signet_text {s : Signet} {w : Bytes → Val} {f : Nat} (h : (signetVal w s).fits cborKind (f + 3) = true) : SignetText s := by
  unfold signetVal at h
  refine ⟨cbor_str (mem_fits h (k := b!"ID") (by simp)), cbor_str (mem_fits h (k := b!"Scheme") (by simp)), ?_⟩
  intro i hi
  exact info_text (mem_fits h (k := b!"Info") (by simp [hi, infoMember]))

theorem signets_text {l : List Signet} {w : Bytes → Val} {f : Nat} (h : (orNull l.isEmpty (.arr (l.map (signetVal w)))).fits cborKind (f + 4) = true) :
    ∀ s ∈ l, SignetText s := by
  intro s hs
  have hne : l.isEmpty = false := by cases l with | nil => cases hs | cons _ _ => rfl
  rw [hne] at h
  have h : (Val.arr (l.map (signetVal w))).fits cborKind (f + 4) = true := h
  exact signet_text (mem_arr h (List.mem_map.2 ⟨s, hs, rfl⟩))

theorem envelope_text {e : Envelope} {w : Bytes → Val} {f : Nat} (h : (envelopeVal w e).fits cborKind (f + 5) = true) : EnvelopeText e := by
  unfold envelopeVal at h
  refine ⟨cbor_str (mem_fits h (k := b!"Name") (by simp)), cbor_str (mem_fits h (k := b!"SuiteID") (by simp)), ?_⟩
  intro s hs
  rcases List.mem_append.1 hs with hs | hs
  · rcases List.mem_append.1 hs with hs | hs
    · exact signets_text (w := w) (mem_fits h (k := b!"Secrets") (by simp)) s hs
    · exact signets_text (w := w) (mem_fits h (k := b!"Senders") (by simp)) s hs
  · exact signets_text (w := w) (mem_fits h (k := b!"Recipients") (by simp)) s hs

/-- C114: the same for the texts of signets ... -/
theorem signet_cbor_iff (s : Signet) (ho : SignetOpen s) (hs : SignetSizes (· < 2 ^ 64) s) :
    ∃ d, goDsd.textSignet s.stored = .ok d ∧ (SignetText s → goDsd.loadSignet d = .ok s.stored) ∧ (¬ SignetText s → goDsd.loadSignet d = .error .malformed) := by
  have hp := plain_open ho
  refine ⟨67 :: cborWrite 10 (signetVal .bin s.stored), by simp [goDsd, hp], ?_, ?_⟩
  · intro h
    obtain ⟨d, h1, h2⟩ := signet_cbor_survives s h ho hs
    simp only [goDsd, hp, if_true] at h1
    cases h1
    exact h2
  · intro h
    have h1 := signet_fits cborAny_holds (any_signet s.stored) (small := (· < 2 ^ 64)) hs 7
    have h2 : (signetVal .bin s.stored).fits cborKind 10 = false := by
      cases hf : (signetVal .bin s.stored).fits cborKind 10 with
      | false => rfl
      | true => exact absurd (signet_text (f := 7) hf) h
    show (do let v ← dsdLoad (67 :: cborWrite 10 (signetVal .bin s.stored)); signetOf v) = _
    rw [load_cbor_iff h1, h2]
    rfl

/-- C114: ... and of envelopes. -/
theorem envelope_cbor_iff (e : Envelope) (ho : EnvelopeOpen e) (hs : EnvelopeSizes (· < 2 ^ 64) e) :
    ∃ d, goDsd.textEnvelope e.stored = .ok d ∧ (EnvelopeText e.stored → goDsd.loadEnvelope d = .ok e.stored) ∧
      (¬ EnvelopeText e.stored → goDsd.loadEnvelope d = .error .malformed) := by
  have hp := plain_openEnvelope ho
  refine ⟨67 :: cborWrite 10 (envelopeVal .bin e.stored), by simp [goDsd, hp], ?_, ?_⟩
  · intro h
    have h1 := envelope_fits cbor_holds h (stored_envelope_sizes hs) (f := 5) ho.2.1
    exact (realDsd_sound.textEnvelope e.stored _ (by simp only [realDsd, hp, if_true]; exact dumpCbor_ok h1)).2
  · intro h
    have h1 := envelope_fits cborAny_holds (any_envelope e.stored) (small := (· < 2 ^ 64)) (stored_envelope_sizes hs) (f := 5) ho.2.1
    have h2 : (envelopeVal .bin e.stored).fits cborKind 10 = false := by
      cases hf : (envelopeVal .bin e.stored).fits cborKind 10 with
      | false => rfl
      | true => exact absurd (envelope_text (f := 5) hf) h
    show (do let v ← dsdLoad (67 :: cborWrite 10 (envelopeVal .bin e.stored)); envelopeOf v) = _
    rw [load_cbor_iff h1, h2]
    rfl

/-! ### Signets and envelopes in files -/

theorem cutZero_append {a : Bytes} (h : 0 ∉ a) (b : Bytes) : cutZero (a ++ 0 :: b) = (a, some b) := by
  have h1 : ∀ x : Bytes, 0 ∉ x → (x ++ 0 :: b).takeWhile (· != 0) = x ∧ (x ++ 0 :: b).dropWhile (· != 0) = 0 :: b := by
    intro x
    induction x with
    | nil => intro _; simp
    | cons c x ih =>
      intro hx
      have hc : (c != 0) = true := by
        simp only [bne_iff_ne, ne_eq]
        rintro rfl
        exact hx (by simp)
      obtain ⟨i1, i2⟩ := ih (fun h => hx (by simp [h]))
      simp only [List.cons_append, List.takeWhile_cons, List.dropWhile_cons, hc, if_true, i1, i2, and_self]
  obtain ⟨h2, h3⟩ := h1 a h
  unfold cutZero
  rw [h2, h3]
  simp

theorem cutZero_none {a : Bytes} (h : 0 ∉ a) : cutZero a = (a, none) := by
  have h1 : ∀ x : Bytes, 0 ∉ x → x.takeWhile (· != 0) = x := by
    intro x
    induction x with
    | nil => intro _; rfl
    | cons c x ih =>
      intro hx
      have hc : (c != 0) = true := by
        simp only [bne_iff_ne, ne_eq]
        rintro rfl
        exact hx (by simp)
      rw [List.takeWhile_cons, hc, if_pos rfl, ih (fun h => hx (by simp [h]))]
  unfold cutZero
  rw [h1 a h]
  simp [h]

theorem cutZero_noZero (s : Bytes) : 0 ∉ (cutZero s).1 := by
  have : ∀ x : Bytes, 0 ∉ x.takeWhile (· != 0) := by
    intro x
    induction x with
    | nil => simp
    | cons c x ih =>
      rw [List.takeWhile_cons]
      split
      · rename_i hc
        simp only [bne_iff_ne, ne_eq] at hc
        simp only [List.mem_cons, not_or]
        exact ⟨fun h => hc h.symm, ih⟩
      · simp
  exact this s

theorem cutZero_fix (s : Bytes) : cutZero (utf8Fix s) = (utf8Fix (cutZero s).1, (cutZero s).2.map utf8Fix) := by
  have hs := cutZero_spec s
  have hz : 0 ∉ utf8Fix (cutZero s).1 := fun h => cutZero_noZero s (utf8Fix_zero _ h)
  cases hr : (cutZero s).2 with
  | none =>
    rw [hr] at hs
    simp only [List.append_nil] at hs
    rw [← hs] at hz ⊢
    rw [cutZero_none hz]
    rfl
  | some r =>
    rw [hr] at hs
    simp only at hs
    conv => lhs; rw [hs, utf8Fix_split (by decide), cutZero_append hz]
    rfl

/-- What JSON makes of a signet and of an envelope (specification). -/
def fixInfo (i : SignetInfo) : SignetInfo := { name := utf8Fix i.name, rest := utf8Fix i.rest }

def fixSignet (s : Signet) : Signet := { s with id := utf8Fix s.id, scheme := utf8Fix s.scheme, info := s.info.map fixInfo }

def fixEnvelope (e : Envelope) : Envelope :=
  { e with name := utf8Fix e.name, suiteID := utf8Fix e.suiteID, secrets := e.secrets.map fixSignet, senders := e.senders.map fixSignet,
           recipients := e.recipients.map fixSignet }

theorem fix_opt (f : Nat) (o : Option Bytes) : (optText o).fix (f + 1) = optText (o.map utf8Fix) := by cases o <;> rfl

theorem fix_info (f : Nat) (i : SignetInfo) : (infoVal i).fix (f + 2) = infoVal (fixInfo i) := by
  unfold infoVal fixInfo
  rw [Val.fix]
  simp only [List.map_cons, List.map_nil, cutZero_fix, fix_opt]
  have e1 : utf8Fix b!"Name" = b!"Name" := utf8Fix_id (by decide)
  have e2 : utf8Fix b!"Owner" = b!"Owner" := utf8Fix_id (by decide)
  have e3 : utf8Fix b!"Created" = b!"Created" := utf8Fix_id (by decide)
  have e4 : utf8Fix b!"Expires" = b!"Expires" := utf8Fix_id (by decide)
  have e5 : utf8Fix b!"Details" = b!"Details" := utf8Fix_id (by decide)
  rw [e1, e2, e3, e4, e5]
  cases (cutZero i.rest).2 with
  | none => rfl
  | some r => simp only [Option.map_some, Option.bind_some, cutZero_fix, Val.fix]

theorem fix_infoMember (f : Nat) (i : Option SignetInfo) :
    (infoMember i).map (fun p => (utf8Fix p.1, Val.fix (f + 2) p.2)) = infoMember (i.map fixInfo) := by
  cases i with
  | none => rfl
  | some i =>
    simp only [infoMember, List.map_cons, List.map_nil, Option.map_some, fix_info]
    rw [utf8Fix_id (by decide)]

theorem fix_signet (f : Nat) (s : Signet) : (signetVal jsonBin s).fix (f + 3) = signetVal jsonBin (fixSignet s) := by
  unfold signetVal
  rw [Val.fix]
  simp only [List.map_append, List.map_cons, List.map_nil]
  rw [fix_omitted _ _ _ _ (by decide), fix_infoMember, fix_orNull, fix_bin]
  have e1 : utf8Fix b!"Version" = b!"Version" := utf8Fix_id (by decide)
  have e2 : utf8Fix b!"ID" = b!"ID" := utf8Fix_id (by decide)
  have e3 : utf8Fix b!"Scheme" = b!"Scheme" := utf8Fix_id (by decide)
  have e4 : utf8Fix b!"Key" = b!"Key" := utf8Fix_id (by decide)
  simp only [Val.fix, e1, e2, e3, e4, fixSignet]

theorem fix_signets (f : Nat) (l : List Signet) :
    (orNull l.isEmpty (Val.arr (l.map (signetVal jsonBin)))).fix (f + 4) = orNull (l.map fixSignet).isEmpty (.arr ((l.map fixSignet).map (signetVal jsonBin))) := by
  rw [fix_orNull, Val.fix]
  have e : (l.map fixSignet).isEmpty = l.isEmpty := by cases l <;> rfl
  rw [e, List.map_map, List.map_map]
  congr 2
  apply List.map_congr_left
  intro s _
  exact fix_signet f s

theorem fix_envelope (f : Nat) (e : Envelope) : (envelopeVal jsonBin e).fix (f + 5) = envelopeVal jsonBin (fixEnvelope e) := by
  unfold envelopeVal
  rw [Val.fix]
  simp only [List.map_cons, List.map_nil]
  rw [fix_signets, fix_signets, fix_signets]
  have e1 : utf8Fix b!"Version" = b!"Version" := utf8Fix_id (by decide)
  have e2 : utf8Fix b!"Name" = b!"Name" := utf8Fix_id (by decide)
  have e3 : utf8Fix b!"SuiteID" = b!"SuiteID" := utf8Fix_id (by decide)
  have e4 : utf8Fix b!"Secrets" = b!"Secrets" := utf8Fix_id (by decide)
  have e5 : utf8Fix b!"Senders" = b!"Senders" := utf8Fix_id (by decide)
  have e6 : utf8Fix b!"Recipients" = b!"Recipients" := utf8Fix_id (by decide)
  have e7 : utf8Fix b!"SecurityLevel" = b!"SecurityLevel" := utf8Fix_id (by decide)
  simp only [Val.fix, e1, e2, e3, e4, e5, e6, e7, fixEnvelope]

theorem fixSignet_iff (s : Signet) : fixSignet s = s ↔ SignetText s := by
  have hi : s.info.map fixInfo = s.info ↔ ∀ i, s.info = some i → utf8 i.name = true ∧ utf8 i.rest = true := by
    cases s.info with
    | none => simp
    | some i =>
      cases i
      simp only [Option.map_some, Option.some.injEq, fixInfo, SignetInfo.mk.injEq, utf8Fix_iff, forall_eq']
  constructor
  · intro h
    exact ⟨(utf8Fix_iff _).1 (congrArg Signet.id h), (utf8Fix_iff _).1 (congrArg Signet.scheme h), hi.1 (congrArg Signet.info h)⟩
  · rintro ⟨h1, h2, h3⟩
    unfold fixSignet
    rw [utf8Fix_id h1, utf8Fix_id h2, hi.2 h3]

/-- C114, what becomes of every signet in a file of a trust store. -/
theorem signet_file_read (s : Signet) (ho : SignetOpen s) :
    ∃ d, goDsd.dumpSignet s.stored = .ok d ∧ goDsd.loadSignet d = .ok (fixSignet s.stored) ∧ (fixSignet s.stored = s.stored ↔ SignetText s) := by
  have hp := plain_open ho
  have hf : plainSignet (fixSignet s.stored) = true := hp
  refine ⟨74 :: jsonWrite 10 0 (signetVal jsonBin s.stored), by simp [goDsd, hp], ?_, fixSignet_iff _⟩
  have h := signet_fits jsonAny_holds (any_signet s.stored) (small := fun _ => True) (f := 7) (by unfold SignetSizes; simp)
  have h2 := load_json_fix [] h rfl
  rw [List.append_nil] at h2
  show (do let v ← dsdLoad (74 :: jsonWrite 10 0 (signetVal jsonBin s.stored)); signetOf v) = _
  rw [h2, ok_bind, fix_signet 7, signetOf_val unpad_padded _ hf]

/-- C114, what becomes of every envelope in a file of a trust store. -/
theorem envelope_file_read (e : Envelope) (ho : EnvelopeOpen e) :
    ∃ d, goDsd.dumpEnvelope e.stored = .ok d ∧ goDsd.loadEnvelope d = .ok (fixEnvelope e.stored) := by
  have hp := plain_openEnvelope ho
  have hf : plainEnvelope (fixEnvelope e.stored) = true := by
    simp only [plainEnvelope, Bool.and_eq_true, List.all_eq_true, List.mem_append] at hp ⊢
    refine ⟨hp.1, ?_⟩
    intro x hx
    simp only [fixEnvelope, List.mem_map] at hx
    rcases hx with (⟨s, hs, rfl⟩ | ⟨s, hs, rfl⟩) | ⟨s, hs, rfl⟩
    · exact hp.2 s (.inl (.inl hs))
    · exact hp.2 s (.inl (.inr hs))
    · exact hp.2 s (.inr hs)
  refine ⟨74 :: jsonWrite 10 0 (envelopeVal jsonBin e.stored), by simp [goDsd, hp], ?_⟩
  have h := envelope_fits jsonAny_holds (any_envelope e.stored) (small := fun _ => True) (f := 5) (by unfold EnvelopeSizes SignetSizes; simp) ho.2.1
  have h2 := load_json_fix [] h rfl
  rw [List.append_nil] at h2
  show (do let v ← dsdLoad (74 :: jsonWrite 10 0 (envelopeVal jsonBin e.stored)); envelopeOf v) = _
  rw [h2, ok_bind, fix_envelope 5, envelopeOf_val unpad_padded _ hf]

/-! ### Texts that can not be imported -/

/-- C114 is REFUTED for the text format: the backup or export of a signet with an ID, scheme, name, owner or date that is not UTF-8 is produced, but no parser accepts it. -/
theorem text_not_importable (P : Prims) (short : Bool) (s s1 : Signet) (t : Bytes) (h1 : s.store P = .ok s1) (ho : SignetOpen s1)
    (hs : SignetSizes (· < 2 ^ 64) s1) (hbad : ¬ SignetText s1) (h : s.toTextFormat P goDsd short = .ok t) :
    ∀ kind, ∃ e, signetFromText P goDsd kind t = .error e := by
  obtain ⟨s2, b, kind, comment, mid, a1, a2, a3, a4, a5⟩ := text_shape P goDsd short s t h
  rw [h1] at a1
  cases a1
  obtain ⟨d, b1, _, b3⟩ := signet_cbor_iff s1 ho hs
  rw [b1] at a2
  have a2 : d = b := Except.ok.inj a2
  subst a2
  have hb := b3 hbad
  intro kind'
  unfold signetFromText
  split
  · rw [a5]
    unfold signetFromBase58
    have hne : d ≠ [] := by
      simp only [goDsd, plain_open ho, if_true] at b1
      cases b1
      exact List.cons_ne_nil _ _
    rw [b58Decode_encode hne, ok_bind]
    unfold signetFromBytes
    rw [hb]
    exact ⟨_, rfl⟩
  · exact ⟨_, rfl⟩

/-! ### Texts that can be imported -/

theorem store_keeps {P : Prims} {s s1 : Signet} (h : s.store P = .ok s1) :
    s1.id = s.id ∧ s1.scheme = s.scheme ∧ s1.info = s.info ∧ s1.protection = s.protection ∧ s1.signature = s.signature := by
  unfold Signet.store at h
  repeat' split at h
  all_goals cases h
  all_goals exact ⟨rfl, rfl, rfl, rfl, rfl⟩

/-- For signets with UTF-8 texts the serializer writes what the one writes that refuses the others. -/
theorem text_go (P : Prims) (short : Bool) (s : Signet) (ht : SignetText s) (ho : SignetOpen s)
    (hs : ∀ s1, s.store P = .ok s1 → SignetSizes (· < 2 ^ 64) s1) : s.toTextFormat P goDsd short = s.toTextFormat P realDsd short := by
  have hb : s.toBase58 P goDsd = s.toBase58 P realDsd := by
    unfold Signet.toBase58 Signet.toBytes
    cases h1 : s.store P with
    | error e => rfl
    | ok s1 =>
      obtain ⟨k1, k2, k3, k4, k5⟩ := store_keeps h1
      have ho1 : SignetOpen s1 := ⟨k4 ▸ ho.1, k5 ▸ ho.2⟩
      have ht1 : SignetText s1.stored := by
        refine ⟨?_, ?_, ?_⟩
        · show utf8 s1.id = true
          rw [k1]; exact ht.1
        · show utf8 s1.scheme = true
          rw [k2]; exact ht.2.1
        · intro i hi
          exact ht.2.2 i (by rw [← k3]; exact hi)
      have hp := plain_open ho1
      have h2 := signet_fits cbor_holds ht1 (hs s1 h1) 7
      have h3 : goDsd.textSignet s1.stored = realDsd.textSignet s1.stored := by
        simp only [goDsd, realDsd, hp, if_true]
        exact (dumpCbor_ok h2).symm
      simp only [ok_bind, h3]
  unfold Signet.toTextFormat
  rw [hb]

/-- Reading does not depend on what is written. -/
theorem fromText_go (P : Prims) (kind : TextKind) (t : Bytes) : signetFromText P goDsd kind t = signetFromText P realDsd kind t := rfl

/-- C111, C28. The round trip of backups with the real formats: every private signet with a key pair and UTF-8 texts. -/
theorem backup_round_trip_real (P : Prims) (K : KeyLib) (rsaPair : Bytes → Bytes → Prop) (hP : P.UsesCodec K)
    (hK : K.Sound rsaPair) (short : Bool) (s : Signet) (pub priv t : Bytes) (hk : s.key = []) (hpub0 : s.isPublic = false)
    (ht : SignetText s) (ho : SignetOpen s) (hs : ∀ s1, s.store P = .ok s1 → SignetSizes (· < 2 ^ 64) s1)
    (hpub : s.loadedPub = some pub) (hpriv : s.loadedPriv = some priv) (hpair : KeyPair K rsaPair s.scheme pub priv)
    (htool : ∃ t, getTool s.scheme = some t ∧ t.name = s.scheme ∧ t.purpose.usesSignets = true) (h : s.backup P goDsd short = .ok t) :
    ∃ s', s.store P = .ok s' ∧ signetFromText P goDsd .sender t = .ok s' ∧
      s'.loadedPub = some pub ∧ s'.loadedPriv = some priv ∧ s'.publicPart = s.publicPart ∧
      ∀ kind, kind ≠ .sender → signetFromText P goDsd kind t = .error .malformed := by
  have hb : s.backup P goDsd short = s.backup P realDsd short := by
    unfold Signet.backup
    rw [text_go P short s ht ho hs]
  rw [hb] at h
  exact backup_round_trip P realDsd realDsd_sound K rsaPair hP hK short s pub priv t hk hpub0 ho.1 hpub hpriv hpair htool h

theorem load_keeps {P : Prims} {s l : Signet} (h : s.load P = .ok l) : l.id = s.id ∧ l.scheme = s.scheme ∧ l.info = s.info := by
  unfold Signet.load at h
  repeat' split at h
  all_goals first | (cases h; done) | skip
  all_goals (first | cases h | skip)
  all_goals exact ⟨rfl, rfl, rfl⟩

/-- C111, C28. The round trip of exports with the real formats: every signet with a key pair and UTF-8 texts. -/
theorem export_round_trip_real (P : Prims) (K : KeyLib) (rsaPair : Bytes → Bytes → Prop) (hP : P.UsesCodec K)
    (hK : K.Sound rsaPair) (short : Bool) (s l : Signet) (pub priv t : Bytes) (hpub0 : s.isPublic = false) (ht : SignetText s)
    (hs : ∀ r r1, s.asRecipient P = .ok r → r.store P = .ok r1 → SignetSizes (· < 2 ^ 64) r1)
    (hl : s.load P = .ok l) (hpub : l.loadedPub = some pub) (hpair : KeyPair K rsaPair l.scheme pub priv)
    (htool : ∃ t, getTool l.scheme = some t ∧ t.name = l.scheme ∧ t.purpose.usesSignets = true) (h : s.export P goDsd short = .ok t) :
    ∃ r, signetFromText P goDsd .recipient t = .ok r ∧ r.isPublic = true ∧ r.loadedPriv = none ∧ r.publicPart = l.publicPart ∧
      ∀ kind, kind ≠ .recipient → signetFromText P goDsd kind t = .error .malformed := by
  have hb : s.export P goDsd short = s.export P realDsd short := by
    unfold Signet.export
    rw [hpub0]
    simp only [Bool.false_eq_true, if_false]
    cases h1 : s.asRecipient P with
    | error e => rfl
    | ok r =>
      rw [ok_bind, ok_bind]
      have hr : SignetText r ∧ SignetOpen r := by
        unfold Signet.asRecipient at h1
        split at h1
        · cases h1
        · rw [hl, ok_bind] at h1
          cases h1
          obtain ⟨k1, k2, k3⟩ := load_keeps hl
          refine ⟨⟨?_, ?_, ?_⟩, rfl, rfl⟩
          · show utf8 l.id = true
            rw [k1]; exact ht.1
          · show utf8 l.scheme = true
            rw [k2]; exact ht.2.1
          · intro i hi
            exact ht.2.2 i (by rw [← k3]; exact hi)
      exact text_go P short r hr.1 hr.2 (fun r1 h2 => hs r r1 h1 h2)
  rw [hb] at h
  exact export_round_trip P realDsd realDsd_sound K rsaPair hP hK short s l pub priv t hpub0 hl hpub hpair htool h

/-- C111, C28. The round trip of envelopes with the real formats: every envelope with UTF-8 texts and a level that is not negative. -/
theorem envelope_text_round_trip_real (P : Prims) (short : Bool) (e : Envelope) (t : Bytes) (ht : EnvelopeText e) (hv : 0 ≤ e.securityLevel)
    (hl : e.securityLevel < 2 ^ 63) (hs : EnvelopeSizes (· < 2 ^ 64) e) (h : (e.export goDsd short).2 = .ok t) :
    envelopeFromText goDsd t = .ok e.clean.stored ∧ (e.export goDsd short).1 = e.clean ∧
      ∀ kind, kind ≠ .envelope → signetFromText P goDsd kind t = .error .malformed := by
  have hc : EnvelopeText e.clean ∧ EnvelopeOpen e.clean ∧ EnvelopeSizes (· < 2 ^ 64) e.clean := by
    refine ⟨⟨ht.1, ht.2.1, ?_⟩, ⟨hv, hl, ?_⟩, ⟨hs.1, hs.2.1, ?_, ?_, ?_, ?_⟩⟩
    · intro x hx
      simp only [Envelope.clean, List.mem_append, List.mem_map] at hx
      rcases hx with (⟨s, hx, rfl⟩ | ⟨s, hx, rfl⟩) | ⟨s, hx, rfl⟩
      all_goals
        have := ht.2.2 s (by simp [hx])
        exact ⟨this.1, this.2.1, fun i hi => by cases hi⟩
    · intro x hx
      simp only [Envelope.clean, List.mem_append, List.mem_map] at hx
      rcases hx with (⟨s, hx, rfl⟩ | ⟨s, hx, rfl⟩) | ⟨s, hx, rfl⟩
      all_goals exact ⟨rfl, rfl⟩
    · simpa [Envelope.clean] using hs.2.2.1
    · simpa [Envelope.clean] using hs.2.2.2.1
    · simpa [Envelope.clean] using hs.2.2.2.2.1
    · intro x hx
      simp only [Envelope.clean, List.mem_append, List.mem_map] at hx
      rcases hx with (⟨s, hx, rfl⟩ | ⟨s, hx, rfl⟩) | ⟨s, hx, rfl⟩
      all_goals
        have := hs.2.2.2.2.2 s (by simp [hx])
        exact ⟨this.1, this.2.1, Nat.le_of_ble_eq_true rfl, fun i hi => by cases hi⟩
  have hb : goDsd.textEnvelope e.clean.stored = realDsd.textEnvelope e.clean.stored := by
    have h1 := envelope_fits cbor_holds (stored_envelope_text hc.1) (stored_envelope_sizes hc.2.2) (f := 5) hc.2.1.2.1
    have hp := plain_openEnvelope hc.2.1
    simp only [goDsd, realDsd, hp, if_true]
    exact (dumpCbor_ok h1).symm
  have hx : e.export goDsd short = e.export realDsd short := by
    have hcc : e.clean.clean = e.clean := by
      simp [Envelope.clean, Signet.clean, List.map_map, Function.comp_def]
    unfold Envelope.export Envelope.toBytes
    rw [hcc, hb]
  rw [hx] at h
  have := envelope_text_round_trip P realDsd realDsd_sound short e t h
  exact ⟨this.1, this.2.1, this.2.2⟩

/-- Bytes in JSON are padded to groups of four, as decoders expect it. -/
theorem b64Padded_length : ∀ d : Bytes, (b64Padded d).length = (d.length + 2) / 3 * 4
  | [] => rfl
  | [_] => by simp [b64Padded, b64Encode, b64Groups]
  | [_, _] => by simp [b64Padded, b64Encode, b64Groups]
  | a :: b :: c :: r => by
    have ih := b64Padded_length r
    simp only [b64Padded, b64Encode, List.length_append, List.length_map, List.length_replicate, b64Groups, List.length_cons] at ih ⊢
    omega

/-! ### Examples -/

/-- A letter with an umlaut, a line separator (U+2028), HTML, control characters, a zero and U+FFFD in its texts. -/
def umlautLetter : Letter :=
  { version := 1, suiteID := b!"key_v1", nonce := [0, 255, 128],
    keys := [{ scheme := b!"ECDH-X25519", id := [0x6d, 0xc3, 0xbc, 0xe2, 0x80, 0xa8, 60, 62, 38, 34, 92, 10, 0, 127, 0xef, 0xbf, 0xbd], value := [0xff, 0xfe] }],
    data := [1, 2, 3], mac := [4, 5], signatures := [{ scheme := b!"Ed25519", id := [0xf0, 0x9f, 0x94, 0x91] }] }

/-- The same letter, but the ID of the key is Latin-1. -/
def latinLetter : Letter := { umlautLetter with keys := [{ scheme := b!"ECDH-X25519", id := [0x6d, 0xfc], value := [1] }] }

/-- The hypotheses of the theorems on letters are met, and not by all letters: the Latin-1 ID is read as another one. -/
theorem letter_formats_example :
    LetterText umlautLetter ∧ LetterSizes (· < 2 ^ 64) umlautLetter ∧ ¬ LetterText latinLetter ∧
    (fixLetter latinLetter).keys.map (·.id) = [[0x6d, 0xef, 0xbf, 0xbd]] ∧
    ∀ hdr, goHeader.dump { umlautLetter with data := [] } = .ok hdr → hdr.length < 2 ^ 64 - 1 := by
  refine ⟨?_, ?_, ?_, by decide +kernel, ?_⟩
  · unfold LetterText LetterTexts SealTexts
    decide +kernel
  · unfold LetterSizes
    decide +kernel
  · unfold LetterText LetterTexts SealTexts
    decide +kernel
  · have h : (match goHeader.dump { umlautLetter with data := [] } with | .ok hdr => decide (hdr.length < 2 ^ 64 - 1) | .error _ => true) = true := by decide +kernel
    intro hdr hd
    rw [hd] at h
    exact of_decide_eq_true h

/-- The bytes of the header of a small letter, as Go's `encoding/json` writes them. -/
theorem header_bytes_example :
    goHeader.dump { version := 1, suiteID := b!"a<b", keys := [{ id := b!"k", value := [255] }], mac := [1, 2, 3], signatures := [{ value := [255, 255] }] } =
      .ok b!"J{\n\t\"Version\": 1,\n\t\"SuiteID\": \"a\\u003cb\",\n\t\"Nonce\": null,\n\t\"Keys\": [\n\t\t{\n\t\t\t\"ID\": \"k\",\n\t\t\t\"Value\": \"/w==\"\n\t\t}\n\t],\n\t\"Mac\": \"AQID\",\n\t\"Signatures\": [\n\t\t{\n\t\t\t\"Value\": \"//8=\"\n\t\t}\n\t]\n}" := by
  decide +kernel

/-- A signet with a Latin-1 name: its backup is produced, and nothing can read it. -/
def latinSigner : Signet := { toySigner with info := some { name := [0x6d, 0xfc] } }

theorem text_not_importable_example :
    (∃ s1 t, latinSigner.store toyCodecPrims = .ok s1 ∧ SignetOpen s1 ∧ SignetSizes (· < 2 ^ 64) s1 ∧ ¬ SignetText s1 ∧
      latinSigner.toTextFormat toyCodecPrims goDsd false = .ok t) ∧
    SignetText toySigner ∧ SignetOpen toySigner := by
  have h : (match latinSigner.store toyCodecPrims, latinSigner.toTextFormat toyCodecPrims goDsd false with
      | .ok s1, .ok _ => decide (s1.protection = false ∧ s1.signature = none ∧ s1.info = some { name := [0x6d, 0xfc] } ∧ s1.id.length < 100 ∧ s1.scheme.length < 100 ∧ s1.key.length < 100)
      | _, _ => false) = true := by decide +kernel
  refine ⟨?_, ?_, by unfold SignetOpen; decide +kernel⟩
  · split at h
    · rename_i s1 t h1 h2
      obtain ⟨a1, a2, a3, a4, a5, a6⟩ := of_decide_eq_true h
      refine ⟨s1, t, h1, ⟨a1, a2⟩, ⟨by omega, by omega, by omega, ?_⟩, ?_, h2⟩
      · intro i hi
        rw [a3] at hi
        cases hi
        exact ⟨Nat.le_of_ble_eq_true rfl, Nat.le_of_ble_eq_true rfl⟩
      · intro ht
        have := (ht.2.2 _ a3).1
        revert this
        decide
    · cases h
  · refine ⟨by decide +kernel, by decide +kernel, ?_⟩
    intro i hi
    have : ∀ i ∈ toySigner.info, utf8 i.name = true ∧ utf8 i.rest = true := by decide +kernel
    exact this i hi

/-- An envelope with such texts and signed data with other bytes. -/
theorem formats_example :
    (let e : Envelope := { name := [0xc3, 0xbc], suiteID := b!"v1", secrets := [{ version := 1, id := b!"k", scheme := b!"Key", key := [255], info := some { name := b!"n" } }], securityLevel := 128 }
     EnvelopeOpen e ∧ EnvelopeSizes (· < 2 ^ 64) e ∧ utf8 e.name = true ∧ utf8 e.suiteID = true) ∧
    (let x : SignedData := { labeledHash := [1, 2, 255], signedAt := 1700000000, metaData := [([0xff], [0x80])] }
     x.signedAt < 2 ^ 34 ∧ x.labeledHash.length < 2 ^ 32 ∧ ∀ p ∈ x.metaData, p.1.length < 2 ^ 32 ∧ p.2.length < 2 ^ 32) := by
  refine ⟨⟨⟨by decide, by decide, ?_⟩, ⟨by decide, by decide, by decide, by decide, by decide, ?_⟩, by decide, by decide⟩, by decide, by decide, by decide⟩
  · intro s hs
    simp only [List.append_nil, List.mem_cons, List.not_mem_nil, or_false] at hs
    subst hs
    exact ⟨rfl, rfl⟩
  · intro s hs
    simp only [List.append_nil, List.mem_cons, List.not_mem_nil, or_false] at hs
    subst hs
    refine ⟨Nat.le_of_ble_eq_true rfl, Nat.le_of_ble_eq_true rfl, Nat.le_of_ble_eq_true rfl, ?_⟩
    intro i hi
    cases hi
    exact ⟨Nat.le_of_ble_eq_true rfl, Nat.le_of_ble_eq_true rfl⟩

end Jess.Formats
