import Verif.Props.LetterJson
import Verif.Props.FormatsStore

/-!
# C117: what was read can be passed on

A letter, signet or envelope that was read from JSON or CBOR, whatever the bytes were that it was read from, is written and read again without any
change: as JSON, as letter file, as file of a trust store and as text. Nothing is lost by passing on what was received.
-/

namespace Jess
namespace Formats

/-- Values of which all texts are UTF-8. -/
private def textKind : Kind where
  str := utf8
  bin _ := true
  num _ := true
  time _ := true
  len _ := true
  bool := true

private theorem elems_text {p : Bytes → Option (Val × Bytes)} {f : Nat} (hp : ∀ b v r, p b = some (v, r) → v.fits textKind f = true) :
    ∀ (n : Nat) (b : Bytes) (l : List Val) (r : Bytes), jsonElems p n b = some (l, r) → ∀ v ∈ l, v.fits textKind f = true
  | 0, _, _, _, h => by cases h
  | n + 1, b, l, r, h => by
    rw [jsonElems] at h
    cases hb : p b with
    | none => rw [hb] at h; cases h
    | some x =>
      obtain ⟨v, r1⟩ := x
      rw [hb] at h
      simp only at h
      have hv := hp b v r1 hb
      split at h
      · cases h
      · split at h
        · rename_i c r2 _ hc
          cases hr : jsonElems p n r2 with
          | none => rw [hr] at h; cases h
          | some x =>
            rw [hr] at h
            cases h
            intro w hw
            rcases List.mem_cons.mp hw with rfl | hw
            · exact hv
            · exact elems_text hp n r2 x.1 x.2 hr w hw
        · split at h
          · cases h
            intro w hw
            rw [List.mem_singleton.mp hw]
            exact hv
          · cases h

private theorem members_text {p : Bytes → Option (Val × Bytes)} {f : Nat} (hp : ∀ b v r, p b = some (v, r) → v.fits textKind f = true) :
    ∀ (n : Nat) (b : Bytes) (l : List (Bytes × Val)) (r : Bytes), jsonMembers p n b = some (l, r) → ∀ q ∈ l, utf8 q.1 = true ∧ q.2.fits textKind f = true
  | 0, _, _, _, h => by cases h
  | n + 1, b, l, r, h => by
    rw [jsonMembers] at h
    split at h
    · cases h
    split at h
    case isFalse => cases h
    split at h
    · cases h
    split at h
    · cases h
    split at h
    case isFalse => cases h
    split at h
    · cases h
    rename_i k _ _ _ _ _ _ v r1 hb
    have hv := hp _ v r1 hb
    split at h
    · cases h
    split at h
    · rename_i c r2 _ hc
      cases hr : jsonMembers p n r2 with
      | none => rw [hr] at h; cases h
      | some x =>
        rw [hr] at h
        cases h
        intro w hw
        rcases List.mem_cons.mp hw with rfl | hw
        · exact ⟨utf8_fix _, hv⟩
        · exact members_text hp n r2 x.1 x.2 hr w hw
    · split at h
      · cases h
        intro w hw
        rw [List.mem_singleton.mp hw]
        exact ⟨utf8_fix _, hv⟩
      · cases h

private theorem jsonRead_text : ∀ (f : Nat) (b : Bytes) (v : Val) (r : Bytes), jsonRead f b = some (v, r) → v.fits textKind f = true
  | 0, _, _, _, h => by cases h
  | f + 1, b, v, r, h => by
    rw [jsonRead] at h
    split at h
    · cases h
    split at h
    · rename_i c r1 _ _
      cases hs : jsonStr r1 with
      | none => rw [hs] at h; cases h
      | some x =>
        rw [hs] at h
        cases h
        exact utf8_fix _
    split at h
    · split at h
      · cases h
        rfl
      · rename_i c r1 _ _ _ _
        cases hs : jsonElems (jsonRead f) (r1.length + 1) r1 with
        | none => rw [hs] at h; cases h
        | some x =>
          rw [hs] at h
          cases h
          simp only [Val.fits, textKind, Bool.true_and, List.all_eq_true]
          exact elems_text (jsonRead_text f) _ _ _ _ hs
    split at h
    · split at h
      · cases h
        rfl
      · rename_i c r1 _ _ _ _ _
        cases hs : jsonMembers (jsonRead f) (r1.length + 1) r1 with
        | none => rw [hs] at h; cases h
        | some x =>
          rw [hs] at h
          cases h
          simp only [Val.fits, textKind, Bool.true_and, List.all_eq_true, Bool.and_eq_true]
          exact members_text (jsonRead_text f) _ _ _ _ hs
    have word : ∀ w b v', (v' : Val).fits textKind (f + 1) = true → jsonWord w b v' = some (v, r) → v.fits textKind (f + 1) = true := by
      intro w b v' hv' hw
      unfold jsonWord at hw
      split at hw
      · cases hw
        exact hv'
      · cases hw
    split at h
    · exact word _ _ _ rfl h
    split at h
    · exact word _ _ _ rfl h
    split at h
    · exact word _ _ _ rfl h
    split at h
    · cases h
      rfl
    · cases h

private theorem items_text {p : Bytes → Option (Val × Bytes)} {f : Nat} (hp : ∀ b v r, p b = some (v, r) → v.fits textKind f = true) :
    ∀ (n : Nat) (b : Bytes) (l : List Val) (r : Bytes), readItems p n b = some (l, r) → ∀ v ∈ l, v.fits textKind f = true
  | 0, _, _, _, h => by cases h; intro v hv; cases hv
  | n + 1, b, l, r, h => by
    rw [readItems] at h
    split at h
    · cases h
    rename_i v r1 hb
    split at h
    · cases h
    rename_i vs r2 hr
    cases h
    intro w hw
    rcases List.mem_cons.mp hw with rfl | hw
    · exact hp _ _ _ hb
    · exact items_text hp n _ _ _ hr w hw

private theorem pairs_text {p : Bytes → Option (Val × Bytes)} {f : Nat} (hp : ∀ b v r, p b = some (v, r) → v.fits textKind f = true) :
    ∀ (n : Nat) (b : Bytes) (l : List (Bytes × Val)) (r : Bytes), readPairs p n b = some (l, r) → ∀ q ∈ l, utf8 q.1 = true ∧ q.2.fits textKind f = true
  | 0, _, _, _, h => by cases h; intro v hv; cases hv
  | n + 1, b, l, r, h => by
    rw [readPairs] at h
    split at h
    case h_2 => cases h
    rename_i k r0 hk
    split at h
    · cases h
    rename_i v r1 hb
    split at h
    · cases h
    rename_i vs r2 hr
    cases h
    intro w hw
    rcases List.mem_cons.mp hw with rfl | hw
    · refine ⟨?_, hp _ _ _ hb⟩
      have := hp _ _ _ hk
      cases f with
      | zero => simp [Val.fits] at this
      | succ f => exact this
    · exact pairs_text hp n _ _ _ hr w hw

private theorem cborRead_text : ∀ (f : Nat) (b : Bytes) (v : Val) (r : Bytes), cborRead f b = some (v, r) → v.fits textKind f = true
  | 0, _, _, _, h => by cases h
  | _ + 1, [], _, _, h => by cases h
  | f + 1, x :: b, v, r, h => by
    rw [cborRead] at h
    split at h
    · cases h
      rfl
    split at h
    · cases h
      rfl
    split at h
    · cases h
      rfl
    split at h
    · cases h
    rename_i n b1 _
    split at h
    · cases h
      rfl
    split at h
    · cases ht : takeN n b1 with
      | none => rw [ht] at h; cases h
      | some y =>
        rw [ht] at h
        cases h
        rfl
    split at h
    · cases ht : takeN n b1 with
      | none => rw [ht] at h; cases h
      | some y =>
        rw [ht, Option.bind_some] at h
        simp only at h
        split at h
        · rename_i hu
          cases h
          exact hu
        · cases h
    split at h
    · cases ht : readItems (cborRead f) n b1 with
      | none => rw [ht] at h; cases h
      | some y =>
        rw [ht] at h
        cases h
        simp only [Val.fits, textKind, Bool.true_and, List.all_eq_true]
        exact items_text (cborRead_text f) _ _ _ _ ht
    split at h
    · cases ht : readPairs (cborRead f) n b1 with
      | none => rw [ht] at h; cases h
      | some y =>
        rw [ht] at h
        cases h
        simp only [Val.fits, textKind, Bool.true_and, List.all_eq_true, Bool.and_eq_true]
        exact pairs_text (cborRead_text f) _ _ _ _ ht
    · cases h

/-! ## Structures -/

private theorem get_text {f : Nat} {v : Val} (h : v.fits textKind (f + 2) = true) (k : Bytes) : (v.get k).fits textKind (f + 1) = true := by
  unfold Val.get
  cases v with
  | obj l =>
    simp only [Val.fits, textKind, Bool.true_and, List.all_eq_true, Bool.and_eq_true] at h
    simp only []
    cases hl : l.lookup k with
    | none => rfl
    | some w =>
      have : ∃ q ∈ l, q.2 = w := by
        clear h
        induction l with
        | nil => cases hl
        | cons q l ih =>
          obtain ⟨a, b⟩ := q
          rw [List.lookup_cons] at hl
          split at hl
          · cases hl
            exact ⟨(a, w), by simp, rfl⟩
          · obtain ⟨q, h1, h2⟩ := ih hl
            exact ⟨q, List.mem_cons_of_mem _ h1, h2⟩
      obtain ⟨q, hq, rfl⟩ := this
      exact (h q hq).2
  | _ => rfl

private theorem asStr_text {f : Nat} {v : Val} {s : Bytes} (h : v.fits textKind (f + 1) = true) (hs : v.asStr = .ok s) : utf8 s = true := by
  cases v <;> simp only [Val.asStr] at hs <;> cases hs
  · rfl
  · exact h

private theorem asList_text {α : Type} {f : Nat} {v : Val} {g : Val → Res α} {Q : α → Prop} (hg : ∀ w x, w.fits textKind (f + 1) = true → g w = .ok x → Q x)
    (h : v.fits textKind (f + 2) = true) {l : List α} (hl : v.asList g = .ok l) : ∀ x ∈ l, Q x := by
  have key : ∀ (ws : List Val) (l : List α), (∀ w ∈ ws, w.fits textKind (f + 1) = true) → mapRes g ws = .ok l → ∀ x ∈ l, Q x := by
    intro ws
    induction ws with
    | nil =>
      intro l _ hm
      cases hm
      intro x hx
      cases hx
    | cons w ws ih =>
      intro l hw hm
      rw [mapRes, bind_ok_iff] at hm
      obtain ⟨y, h1, hm⟩ := hm
      rw [bind_ok_iff] at hm
      obtain ⟨ys, h2, hm⟩ := hm
      cases hm
      intro x hx
      rcases List.mem_cons.mp hx with rfl | hx
      · exact hg w _ (hw w (by simp)) h1
      · exact ih ys (fun w' hw' => hw w' (List.mem_cons_of_mem _ hw')) h2 x hx
  cases v <;> simp only [Val.asList] at hl
  case null =>
    cases hl
    intro x hx
    cases hx
  case arr ws =>
    simp only [Val.fits, textKind, Bool.true_and, List.all_eq_true] at h
    exact key ws l h hl
  all_goals cases hl

private theorem seal_text' {f : Nat} {v : Val} {s : Seal} (h : v.fits textKind (f + 2) = true) (hs : sealOf v = .ok s) : SealTexts (fun s => utf8 s = true) s := by
  unfold sealOf at hs
  rw [bind_ok_iff] at hs
  obtain ⟨scheme, h1, hs⟩ := hs
  rw [bind_ok_iff] at hs
  obtain ⟨id, h2, hs⟩ := hs
  rw [bind_ok_iff] at hs
  obtain ⟨value, h3, hs⟩ := hs
  cases hs
  exact ⟨asStr_text (get_text h _) h1, asStr_text (get_text h _) h2⟩

private theorem letter_text' {f : Nat} {v : Val} {l : Letter} (h : v.fits textKind (f + 4) = true) (hl : letterOf v = .ok l) : LetterText l := by
  unfold letterOf at hl
  simp only [bind_ok_iff] at hl
  obtain ⟨version, h1, suiteID, h2, nonce, h3, keys, h4, data, h5, mac, h6, sigs, h7, ak, h8, hl⟩ := hl
  cases hl
  refine ⟨asStr_text (get_text h _) h2, fun s hs => ?_⟩
  rcases List.mem_append.mp hs with hs | hs
  · exact asList_text (f := f + 1) (fun w x hw hx => seal_text' hw hx) (get_text h _) h4 s hs
  · exact asList_text (f := f + 1) (fun w x hw hx => seal_text' hw hx) (get_text h _) h7 s hs

private theorem zeroText_text {f : Nat} {v : Val} {s : Bytes} (h : v.fits textKind (f + 1) = true) (hs : zeroText v = .ok s) (a : Bytes) (ha : utf8 a = true) :
    utf8 (a ++ s) = true := by
  cases v <;> simp only [zeroText] at hs <;> cases hs
  · rw [List.append_nil]
    exact ha
  · rw [utf8_split (by decide), ha]
    exact h

private theorem info_text' {f : Nat} {v : Val} {i : SignetInfo} (h : v.fits textKind (f + 2) = true) (hi : infoOf v = .ok (some i)) :
    utf8 i.name = true ∧ utf8 i.rest = true := by
  unfold infoOf at hi
  split at hi
  · cases hi
  · simp only [bind_ok_iff] at hi
    obtain ⟨name, h1, owner, h2, created, h3, expires, h4, hi⟩ := hi
    cases hi
    exact ⟨asStr_text (get_text h _) h1, zeroText_text (get_text h _) h4 _ (zeroText_text (get_text h _) h3 _ (asStr_text (get_text h _) h2))⟩

private theorem signet_text' {f : Nat} {v : Val} {s : Signet} (h : v.fits textKind (f + 3) = true) (hs : signetOf v = .ok s) :
    SignetText s ∧ SignetOpen s ∧ s.stored = s := by
  unfold signetOf at hs
  simp only [bind_ok_iff] at hs
  obtain ⟨version, h1, id, h2, scheme, h3, key, h4, pub, h5, info, h6, hs⟩ := hs
  cases hs
  refine ⟨⟨asStr_text (get_text h _) h2, asStr_text (get_text h _) h3, ?_⟩, ⟨rfl, rfl⟩, rfl⟩
  rintro i rfl
  exact info_text' (get_text h _) h6

private theorem envelope_text' {f : Nat} {v : Val} {e : Envelope} (h : v.fits textKind (f + 5) = true) (he : envelopeOf v = .ok e) :
    EnvelopeText e ∧ EnvelopeOpen e ∧ e.stored = e := by
  unfold envelopeOf at he
  simp only [bind_ok_iff] at he
  obtain ⟨version, h1, name, h2, suiteID, h3, secrets, h4, senders, h5, recipients, h6, level, h7, he⟩ := he
  cases he
  have l4 := asList_text (f := f + 2) (fun w x hw hx => signet_text' hw hx) (get_text h _) h4
  have l5 := asList_text (f := f + 2) (fun w x hw hx => signet_text' hw hx) (get_text h _) h5
  have l6 := asList_text (f := f + 2) (fun w x hw hx => signet_text' hw hx) (get_text h _) h6
  have hall : ∀ s ∈ secrets ++ senders ++ recipients, SignetText s ∧ SignetOpen s ∧ s.stored = s := by
    intro s hs
    rcases List.mem_append.mp hs with hs | hs
    · exact (List.mem_append.mp hs).elim (l4 s) (l5 s)
    · exact l6 s hs
  have hlev : 0 ≤ level ∧ level < 2 ^ 63 := by
    cases hv : v.get b!"SecurityLevel" <;> rw [hv] at h7 <;> simp only [Val.asInt] at h7
    case null => cases h7; decide
    case num n =>
      split at h7
      · rename_i hn
        cases h7
        exact ⟨Int.natCast_nonneg n, by show (n : Int) < 2 ^ 63; omega⟩
      · cases h7
    all_goals cases h7
  refine ⟨⟨asStr_text (get_text h _) h2, asStr_text (get_text h _) h3, fun s hs => (hall s hs).1⟩, ⟨hlev.1, hlev.2, fun s hs => (hall s hs).2.1⟩, ?_⟩
  have m : ∀ l : List Signet, (∀ s ∈ l, s.stored = s) → l.map Signet.stored = l := by
    intro l hl
    rw [List.map_congr_left (g := id) hl, List.map_id]
  simp only [Envelope.stored]
  rw [m secrets (fun s hs => (l4 s hs).2.2), m senders (fun s hs => (l5 s hs).2.2), m recipients (fun s hs => (l6 s hs).2.2)]

private theorem dsdLoad_text {b : Bytes} {v : Val} (hb : b.head? ≠ some 77) (h : dsdLoad b = .ok v) : v.fits textKind 10 = true := by
  unfold dsdLoad at h
  split at h
  · cases h
  rename_i c r
  split at h
  · split at h
    · rename_i w hc
      cases h
      exact cborRead_text 10 _ _ _ hc
    · cases h
  split at h
  · rename_i hc
    subst hc
    exact absurd rfl hb
  split at h
  · split at h
    · rename_i w hj
      cases h
      unfold jsonParse at hj
      split at hj
      · rename_i v' r' hr
        split at hj
        · cases hj
          exact jsonRead_text 10 _ _ _ hr
        · cases hj
      · cases hj
    · cases h
  · cases h

/-! ## What was read survives -/

/-- C117. A letter that was read from any JSON is written as JSON and read again without change. -/
theorem letter_json_reread (b : Bytes) (l : Letter) (h : letterFromJSON b = .ok l) :
    ∃ out, letterToJSON l = .ok out ∧ letterFromJSON out = .ok l := by
  refine (letter_json_survives_iff l).mpr ?_
  unfold letterFromJSON jsonParse at h
  split at h
  · cases h
  rename_i v hj
  split at hj
  · rename_i v' r' hr
    split at hj
    · cases hj
      exact letter_text' (f := 6) (jsonRead_text 10 _ _ _ hr) h
    · cases hj
  · cases hj

/-- C117. A letter that was read from JSON or CBOR of any kind (the file of a detached signature, a JSON file, a header; not MsgPack) survives all formats:
as header of a letter file, as CBOR and as JSON. (The sizes of slices are below 2^64.) -/
theorem letter_reread (b : Bytes) (l : Letter) (hb : b.head? ≠ some 77) (h : goCodec.load b = .ok l) :
    (∃ out, letterToJSON l = .ok out ∧ letterFromJSON out = .ok l) ∧
    (∃ hdr, goHeader.dump l = .ok hdr ∧ goHeader.load (hdr ++ [10]) = .ok l) ∧
    (LetterSizes (· < 2 ^ 64) l → ∃ d, goCodec.dump l = .ok d ∧ goCodec.load d = .ok l) := by
  have h' : (do let v ← dsdLoad b; letterOf v) = .ok l := h
  rw [bind_ok_iff] at h'
  obtain ⟨v, h1, h2⟩ := h'
  have ht := letter_text' (f := 6) (dsdLoad_text hb h1) h2
  exact ⟨(letter_json_survives_iff l).mpr ht, (header_survives_iff l).mpr ht, fun hs => letter_cbor_survives l ht hs⟩

/-- C117. A signet that was read from a file or text (JSON or CBOR) can be stored and exported, and is read again without change. -/
theorem signet_reread (b : Bytes) (s : Signet) (hb : b.head? ≠ some 77) (h : goDsd.loadSignet b = .ok s) :
    (∃ d, goDsd.dumpSignet s = .ok d ∧ goDsd.loadSignet d = .ok s) ∧
    (SignetSizes (· < 2 ^ 64) s → ∃ d, goDsd.textSignet s = .ok d ∧ goDsd.loadSignet d = .ok s) := by
  have h' : (do let v ← dsdLoad b; signetOf v) = .ok s := h
  rw [bind_ok_iff] at h'
  obtain ⟨v, h1, h2⟩ := h'
  obtain ⟨ht, ho, hst⟩ := signet_text' (f := 7) (dsdLoad_text hb h1) h2
  have f1 := signet_file_survives s ht ho
  rw [hst] at f1
  refine ⟨f1, fun hs => ?_⟩
  obtain ⟨d, g1, g2, _⟩ := signet_cbor_iff s ho hs
  rw [hst] at g1 g2
  exact ⟨d, g1, g2 ht⟩

/-- C117. The same for envelopes. -/
theorem envelope_reread (b : Bytes) (e : Envelope) (hb : b.head? ≠ some 77) (h : goDsd.loadEnvelope b = .ok e) :
    (∃ d, goDsd.dumpEnvelope e = .ok d ∧ goDsd.loadEnvelope d = .ok e) ∧
    (EnvelopeSizes (· < 2 ^ 64) e → ∃ d, goDsd.textEnvelope e = .ok d ∧ goDsd.loadEnvelope d = .ok e) := by
  have h' : (do let v ← dsdLoad b; envelopeOf v) = .ok e := h
  rw [bind_ok_iff] at h'
  obtain ⟨v, h1, h2⟩ := h'
  obtain ⟨ht, ho, hst⟩ := envelope_text' (f := 5) (dsdLoad_text hb h1) h2
  have f1 := envelope_file_survives e ht ho
  rw [hst] at f1
  refine ⟨f1, fun hs => ?_⟩
  obtain ⟨d, g1, g2, _⟩ := envelope_cbor_iff e ho hs
  rw [hst] at g1 g2
  exact ⟨d, g1, g2 ht⟩

/-- A letter and a signet written by somebody else: members in another order, unknown members, blanks, escapes, bytes that are not UTF-8. -/
theorem reread_example :
    letterFromJSON (b!" { \"Mac\": \"AQ==\",\"X\":[1,{}], \"SuiteID\":\"a\\u00e9" ++ [0xff] ++ b!"\", \"Version\" :1 } ") =
      .ok { version := 1, suiteID := [97, 0xc3, 0xa9, 0xef, 0xbf, 0xbd], mac := [1] } ∧
    goDsd.loadSignet (b!"J{\"Public\":true,\"Scheme\":\"RSA-PSS\",\"ID\":\"\\u0061" ++ [0xff] ++ b!"\",\"Info\":{\"Owner\":\"me\"}}") =
      .ok { id := [97, 0xef, 0xbf, 0xbd], scheme := b!"RSA-PSS", isPublic := true, info := some { name := [], rest := b!"me" } } := by
  decide +kernel

end Formats
end Jess
