import Verif.Model.LetterJson
import Verif.Props.Formats
import Verif.Props.Generate

/-!
# C114: letters as JSON

A letter written with `ToJSON` is read by `LetterFromJSON` as the same letter if its texts are UTF-8, and otherwise as the letter with U+FFFD in its
texts. What is written is one line.
-/

namespace Jess
namespace Formats

private theorem compact_elems {p : Bytes → Option (Val × Bytes)} {g : Val → Bytes} {h : Val → Val} (l : List Val) (fuel : Nat) (r : Bytes) (hl : l ≠ [])
    (hf : l.length ≤ fuel) (hp : ∀ v ∈ l, ∀ r, Stop r → p (g v ++ r) = some (h v, r)) : jsonElems p fuel (commas g l ++ 93 :: r) = some (l.map h, r) := by
  refine jsonElems_append l fuel (93 :: r) r hl hf hp ?_ (skipWs_cons (by decide) r)
  intro c r' e
  cases e
  decide

private theorem compact_one {p : Bytes → Option (Val × Bytes)} {n : Nat} {g : Bytes} {key : Bytes} {v : Val} {x : Bytes} (hp : p (g ++ x) = some (v, x)) :
    jsonMembers p (n + 1) (jsonQuote key ++ 58 :: g ++ x) =
      match skipWs x with
      | [] => none
      | c :: r =>
        if c = 44 then (jsonMembers p n r).map fun x => ((utf8Fix key, v) :: x.1, x.2)
        else if c = 125 then some ([(utf8Fix key, v)], r)
        else none := by
  rw [jsonMembers]
  have h2 : jsonQuote key ++ 58 :: g ++ x = 34 :: (jsonText key ++ 34 :: 58 :: (g ++ x)) := by simp [jsonQuote]
  rw [h2, skipWs_cons (c := 34) (by decide)]
  simp only [if_true, jsonText_round, skipWs_cons (c := 58) (by decide), hp, utf8Fix_id (utf8_fix key)]
  cases skipWs x <;> rfl

private theorem compact_members {p : Bytes → Option (Val × Bytes)} {g : Val → Bytes} {h : Val → Val} : ∀ (l : List (Bytes × Val)) (fuel : Nat) (r : Bytes), l ≠ [] →
    l.length ≤ fuel → (∀ q ∈ l, ∀ r, Stop r → p (g q.2 ++ r) = some (h q.2, r)) →
    jsonMembers p fuel (commas (fun q => jsonQuote q.1 ++ 58 :: g q.2) l ++ 125 :: r) = some (l.map fun q => (utf8Fix q.1, h q.2), r)
  | [], _, _, h, _, _ => absurd rfl h
  | [q], fuel, r, _, hf, hp => by
    obtain ⟨n, rfl⟩ : ∃ n, fuel = n + 1 := ⟨fuel - 1, by simp at hf; omega⟩
    have hst : Stop (125 :: r) := by
      intro c r' e
      cases e
      decide
    rw [commas, compact_one (hp q (by simp) _ hst), skipWs_cons (c := 125) (by decide)]
    simp
  | q :: q' :: l, fuel, r, _, hf, hp => by
    obtain ⟨n, rfl⟩ : ∃ n, fuel = n + 1 := ⟨fuel - 1, by simp at hf; omega⟩
    have h1 := hp q (by simp) (44 :: commas (fun q => jsonQuote q.1 ++ 58 :: g q.2) (q' :: l) ++ 125 :: r) (stop_comma _)
    rw [commas, List.append_assoc (_ ++ 58 :: g q.2), compact_one h1, List.cons_append, skipWs_cons (c := 44) (by decide)]
    simp only [if_true]
    rw [compact_members (q' :: l) n r (by simp) (by simp at hf ⊢; omega) (fun x hx => hp x (List.mem_cons_of_mem _ hx))]
    rfl

private theorem compact_head (f : Nat) (v : Val) (h : v.fits jsonAny f = true) :
    ∃ c r, jsonCompact f v = c :: r ∧ isWs c = false ∧ c ≠ 93 ∧ c ≠ 125 := by
  cases f with
  | zero => simp [Val.fits] at h
  | succ f =>
    cases v with
    | null => exact ⟨_, _, rfl, by decide, by decide, by decide⟩
    | bool b => cases b <;> exact ⟨_, _, rfl, by decide, by decide, by decide⟩
    | num n =>
      have hn : n < 10 ^ 20 := by simpa [Val.fits, jsonAny, jsonKind] using h
      obtain ⟨h1, h2, h3⟩ := decimal_spec 20 n hn (by omega)
      obtain ⟨c, r, he⟩ := List.exists_cons_of_ne_nil h3
      have hc : isDigit c = true := h1 c (by rw [he]; simp)
      exact ⟨c, r, he, digit_ws hc, digit_ne hc (by decide), digit_ne hc (by decide)⟩
    | str s => exact ⟨_, _, rfl, by decide, by decide, by decide⟩
    | bin b => simp [Val.fits, jsonAny, jsonKind] at h
    | time n => simp [Val.fits, jsonAny, jsonKind] at h
    | arr l => exact ⟨_, _, rfl, by decide, by decide, by decide⟩
    | obj l => exact ⟨_, _, rfl, by decide, by decide, by decide⟩

private theorem commas_first {α : Type} {g : α → Bytes} {c0 : UInt8} : ∀ l : List α, l ≠ [] → (∀ x ∈ l, ∃ c r, g x = c :: r ∧ isWs c = false ∧ c ≠ c0) →
    ∀ t, (skipWs (commas g l ++ t)).head? ≠ some c0
  | [], hl, _, _ => absurd rfl hl
  | [x], _, h, t => by
    obtain ⟨c, r, h1, h2, h3⟩ := h x (by simp)
    rw [commas, h1, List.cons_append, skipWs_cons h2]
    simpa using h3
  | x :: y :: l, _, h, t => by
    obtain ⟨c, r, h1, h2, h3⟩ := h x (by simp)
    rw [commas, h1, List.cons_append, List.cons_append, skipWs_cons h2]
    simpa using h3

/-- What is written without blanks is read, except for what is not UTF-8. -/
theorem compact_read : ∀ (f : Nat) (v : Val) (r : Bytes), v.fits jsonAny f = true → Stop r → jsonRead f (jsonCompact f v ++ r) = some (v.fix f, r)
  | 0, v, r, h, _ => by simp [Val.fits] at h
  | f + 1, v, r, h, hr => by
    cases v with
    | null => exact json_read (f + 1) 0 .null r h hr
    | bool b => exact json_read (f + 1) 0 (.bool b) r h hr
    | num n => exact json_read (f + 1) 0 (.num n) r h hr
    | str s => exact json_read (f + 1) 0 (.str s) r h hr
    | bin b => simp [Val.fits, jsonAny, jsonKind] at h
    | time n => simp [Val.fits, jsonAny, jsonKind] at h
    | arr l =>
      by_cases hl : l = []
      · subst hl
        exact json_read (f + 1) 0 (.arr []) r h hr
      · simp only [Val.fits, Bool.and_eq_true, List.all_eq_true] at h
        rw [jsonCompact, jsonRead, List.cons_append, List.cons_append, List.append_assoc, skipWs_cons (c := 91) (by decide)]
        have e1 : (91 : UInt8) ≠ 34 := by decide
        simp only [e1, if_false, if_true]
        have hhead := commas_first (g := fun v => jsonCompact f v) (c0 := 93) l hl (by
          intro x hx
          obtain ⟨c, r, h1, h2, h3, _⟩ := compact_head f x (h.2 x hx)
          exact ⟨c, r, h1, h2, h3⟩) ([93] ++ r)
        rw [if_neg hhead]
        have hlen := commas_length (fun v => jsonCompact f v) l
        rw [show ([93] ++ r : Bytes) = 93 :: r from rfl,
          compact_elems (p := jsonRead f) (h := Val.fix f) l _ r hl (by rw [List.length_append]; omega) (fun v hv r hr => compact_read f v r (h.2 v hv) hr)]
        rfl
    | obj l =>
      by_cases hl : l = []
      · subst hl
        exact json_read (f + 1) 0 (.obj []) r h hr
      · simp only [Val.fits, Bool.and_eq_true, List.all_eq_true] at h
        rw [jsonCompact, jsonRead, List.cons_append, List.cons_append, List.append_assoc, skipWs_cons (c := 123) (by decide)]
        have e1 : (123 : UInt8) ≠ 34 := by decide
        have e2 : (123 : UInt8) ≠ 91 := by decide
        simp only [e1, e2, if_false, if_true]
        have hhead := commas_first (g := fun (p : Bytes × Val) => jsonQuote p.1 ++ 58 :: jsonCompact f p.2) (c0 := 125) l hl
          (fun x _ => ⟨34, _, rfl, by decide, by decide⟩) ([125] ++ r)
        rw [if_neg hhead]
        have hlen := commas_length (fun (p : Bytes × Val) => jsonQuote p.1 ++ 58 :: jsonCompact f p.2) l
        rw [show ([125] ++ r : Bytes) = 125 :: r from rfl,
          compact_members (p := jsonRead f) (g := jsonCompact f) (h := Val.fix f) l _ r hl (by rw [List.length_append]; omega)
            (fun q hq r hr => compact_read f q.2 r (h.2 q hq).2 hr)]
        rfl

/-- C114. What becomes of every letter written as JSON: it is read, with U+FFFD instead of what is not UTF-8 in its texts; also with blanks after it. -/
theorem letter_json_read (l : Letter) (ws : Bytes) (hws : skipWs ws = []) :
    ∃ out, letterToJSON l = .ok out ∧ letterFromJSON (out ++ ws) = .ok (fixLetter l) := by
  refine ⟨_, rfl, ?_⟩
  have h := letter_fits jsonAny_holds (any_letter l) (small := fun _ => True) (f := 6) (by unfold LetterSizes; simp)
  have hst : Stop ws := by
    intro c r' e
    subst e
    cases hc : isDigit c with
    | false => rfl
    | true => rw [skipWs_cons (digit_ws hc)] at hws; cases hws
  unfold letterFromJSON jsonParse
  rw [compact_read 10 _ ws h hst]
  simp only [hws, if_true]
  rw [fix_letter 6, letterOf_val unpad_padded]

/-- C114. A letter survives JSON iff its texts (suite ID, schemes and IDs of its seals) are UTF-8; bytes survive always. -/
theorem letter_json_survives_iff (l : Letter) : (∃ out, letterToJSON l = .ok out ∧ letterFromJSON out = .ok l) ↔ LetterText l := by
  obtain ⟨out, h1, h2⟩ := letter_json_read l [] rfl
  rw [List.append_nil] at h2
  constructor
  · rintro ⟨out', h3, h4⟩
    rw [h1] at h3
    cases h3
    rw [h2] at h4
    exact (fixLetter_iff l).mp (Except.ok.inj h4)
  · intro h
    exact ⟨out, h1, by rw [h2, (fixLetter_iff l).mpr h]⟩

/-! ## One line -/

private theorem hexChar_plain (d : Bytes) : ∀ c ∈ hexEncode d, 32 ≤ c := by
  intro c hc
  have := hexEncode_chars d c hc
  rw [UInt8.le_iff_toNat_le]
  show 32 ≤ c.toNat
  omega

private theorem jsonHex_plain (a b : UInt8) : ∀ c ∈ jsonHex a b, 32 ≤ c := by
  intro c hc
  rcases List.mem_cons.mp hc with rfl | hc
  · decide
  · rcases List.mem_cons.mp hc with rfl | hc
    · decide
    · exact hexChar_plain _ c hc

private theorem high_plain {c : UInt8} (h : ¬ c < 0x80) : 32 ≤ c := by
  rw [UInt8.lt_iff_toNat_lt] at h
  rw [UInt8.le_iff_toNat_le]
  show 32 ≤ c.toNat
  have : ¬ c.toNat < 128 := h
  omega

private theorem jsonByte_plain (a : UInt8) : ∀ c ∈ jsonByte a, 32 ≤ c := by
  intro c hc
  unfold jsonByte at hc
  split at hc
  · rename_i h
    rcases List.mem_cons.mp hc with rfl | hc
    · decide
    · rw [List.mem_singleton.mp hc]
      rcases h with rfl | rfl <;> decide
  · repeat' split at hc
    all_goals try (simp at hc; rcases hc with rfl | rfl <;> decide)
    · exact jsonHex_plain 0 a c hc
    · rename_i h
      rw [List.mem_singleton.mp hc, UInt8.le_iff_toNat_le]
      have h : ¬ a < 32 := fun hh => h (.inl hh)
      rw [UInt8.lt_iff_toNat_lt] at h
      exact Nat.le_of_not_lt h

private theorem jsonChar_plain {ch : Bytes} (h : IsChar ch) : ∀ c ∈ jsonChar ch, 32 ≤ c := by
  intro x hx
  cases h with
  | @one a ha => exact jsonByte_plain a x hx
  | @two a b ha hb =>
    have hb : contByte b = true := by simp only [Bool.and_eq_true] at hb; exact hb.2
    simp only [jsonChar, List.mem_cons, List.not_mem_nil, or_false] at hx
    rcases hx with rfl | rfl
    · exact high_plain ha
    · exact high_plain (contByte_ge hb)
  | @three a b c ha hb ht =>
    simp only [Bool.and_eq_true] at ht
    unfold jsonChar at hx
    split at hx
    · rename_i e
      cases e
    · rename_i e
      cases e
      split at hx
      · exact jsonHex_plain _ _ x hx
      · simp only [List.mem_cons, List.not_mem_nil, or_false] at hx
        rcases hx with rfl | rfl | rfl
        · exact high_plain ha
        · exact high_plain (two_ge ht.1)
        · exact high_plain (contByte_ge ht.2)
    · rename_i h1 h2
      exact absurd rfl (h2 a b c)
  | @four a b c d ha hb ht hf =>
    simp only [Bool.and_eq_true] at hf
    simp only [jsonChar, List.mem_cons, List.not_mem_nil, or_false] at hx
    rcases hx with rfl | rfl | rfl | rfl
    · exact high_plain ha
    · exact high_plain (three_ge hf.1.1)
    · exact high_plain (contByte_ge hf.1.2)
    · exact high_plain (contByte_ge hf.2)

private theorem jsonText_plain (s : Bytes) : ∀ c ∈ jsonText s, 32 ≤ c := by
  unfold jsonText
  refine utf8_ind (motive := fun s => ∀ c ∈ utf8Map jsonChar (jsonHex 0xff 0xfd) s, 32 ≤ c) ?_ ?_ ?_ s
  · intro c hc
    rw [utf8Map] at hc
    cases hc
  · intro ch r hch ih c hc
    rw [utf8Map_char hch] at hc
    exact (List.mem_append.mp hc).elim (jsonChar_plain hch c) (ih c)
  · intro a r _ h ih c hc
    rw [h] at hc
    exact (List.mem_append.mp hc).elim (jsonHex_plain _ _ c) (ih c)

private theorem jsonQuote_plain (s : Bytes) : ∀ c ∈ jsonQuote s, 32 ≤ c := by
  intro c hc
  unfold jsonQuote at hc
  rcases List.mem_append.mp hc with hc | hc
  · rcases List.mem_cons.mp hc with rfl | hc
    · decide
    · exact jsonText_plain s c hc
  · rw [List.mem_singleton.mp hc]
    decide

private theorem commas_plain {α : Type} {g : α → Bytes} : ∀ l : List α, (∀ x ∈ l, ∀ c ∈ g x, 32 ≤ c) → ∀ c ∈ commas g l, 32 ≤ c
  | [], _, c, hc => by cases hc
  | [x], h, c, hc => h x (by simp) c hc
  | x :: y :: l, h, c, hc => by
    rw [commas] at hc
    rcases List.mem_append.mp hc with hc | hc
    · exact h x (by simp) c hc
    · rcases List.mem_cons.mp hc with rfl | hc
      · decide
      · exact commas_plain (y :: l) (fun z hz => h z (List.mem_cons_of_mem _ hz)) c hc

private theorem decimal_plain : ∀ f n : Nat, ∀ c ∈ decimal f n, 32 ≤ c
  | 0, _, c, hc => by cases hc
  | f + 1, n, c, hc => by
    have dig : ∀ k, k < 10 → (32 : UInt8) ≤ UInt8.ofNat (48 + k) := by
      intro k hk
      rw [UInt8.le_iff_toNat_le, UInt8.toNat_ofNat', Nat.mod_eq_of_lt (by omega)]
      show 32 ≤ 48 + k
      omega
    rw [decimal] at hc
    split at hc
    · rw [List.mem_singleton.mp hc]
      exact dig n (by omega)
    · rcases List.mem_append.mp hc with hc | hc
      · exact decimal_plain f (n / 10) c hc
      · rw [List.mem_singleton.mp hc]
        exact dig _ (Nat.mod_lt _ (by omega))

private theorem compact_plain : ∀ (f : Nat) (v : Val), ∀ c ∈ jsonCompact f v, 32 ≤ c
  | 0, _, c, hc => by cases hc
  | f + 1, v, c, hc => by
    cases v with
    | null => exact (by decide : ∀ c ∈ (b!"null" : Bytes), 32 ≤ c) c hc
    | bool b =>
      cases b
      · exact (by decide : ∀ c ∈ (b!"false" : Bytes), 32 ≤ c) c hc
      · exact (by decide : ∀ c ∈ (b!"true" : Bytes), 32 ≤ c) c hc
    | num n => exact decimal_plain 20 n c hc
    | str s => exact jsonQuote_plain s c hc
    | bin b => cases hc
    | time n => cases hc
    | arr l =>
      rw [jsonCompact] at hc
      rcases List.mem_append.mp hc with hc | hc
      · rcases List.mem_cons.mp hc with rfl | hc
        · decide
        · exact commas_plain l (fun x _ => compact_plain f x) c hc
      · rw [List.mem_singleton.mp hc]
        decide
    | obj l =>
      rw [jsonCompact] at hc
      rcases List.mem_append.mp hc with hc | hc
      · rcases List.mem_cons.mp hc with rfl | hc
        · decide
        · refine commas_plain l (fun x _ y hy => ?_) c hc
          rcases List.mem_append.mp hy with hy | hy
          · exact jsonQuote_plain _ y hy
          · rcases List.mem_cons.mp hy with rfl | hy
            · decide
            · exact compact_plain f x.2 y hy
      · rw [List.mem_singleton.mp hc]
        decide

/-- C114. A letter written as JSON is one line without control characters, whatever its texts and bytes are. -/
theorem letter_json_one_line (l : Letter) (out : Bytes) (h : letterToJSON l = .ok out) : ∀ c ∈ out, 32 ≤ c := by
  cases h
  exact compact_plain 10 _

/-- A letter with a text that needs escapes: written, read, and the bytes. -/
theorem letter_json_example :
    let l : Letter := { version := 1, suiteID := b!"key_v1", nonce := [1, 2, 3, 4], keys := [⟨b!"key", [34, 10, 0xc3, 0xa9], [7]⟩], data := [255] }
    letterToJSON l = .ok (b!"{\"Version\":1,\"SuiteID\":\"key_v1\",\"Nonce\":\"AQIDBA==\",\"Keys\":[{\"Scheme\":\"key\",\"ID\":\"\\\"\\n" ++ [0xc3, 0xa9] ++
      b!"\",\"Value\":\"Bw==\"}],\"Data\":\"/w==\"}") ∧
    (letterToJSON l).bind letterFromJSON = .ok l ∧
    (letterToJSON { l with suiteID := [0xff] }).bind letterFromJSON = .ok { l with suiteID := [0xef, 0xbf, 0xbd] } := by
  decide +kernel

end Formats
end Jess
