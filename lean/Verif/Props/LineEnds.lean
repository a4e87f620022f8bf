import Verif.Props.FileText

/-! # Line ends of text files (C38) -/

namespace Jess

/-- Every line feed has a carriage return before it. -/
def CrLf (t : Bytes) : Prop := ∀ a b, t = a ++ 10 :: b → a.getLast? = some 13

theorem CrLf.append {a b : Bytes} (ha : CrLf a) (hb : CrLf b) : CrLf (a ++ b) := by
  intro x y h
  rcases List.append_eq_append_iff.1 h with ⟨u, h1, h2⟩ | ⟨u, h1, h2⟩
  · have := hb u y h2
    rw [h1, List.getLast?_append, this]; rfl
  · cases u with
    | nil => simp only [List.nil_append] at h2; exact absurd (hb [] y h2.symm) (by simp)
    | cons z u =>
      simp only [List.cons_append, List.cons.injEq] at h2
      exact ha x u (by rw [h1, h2.1])

theorem crlf_of_none {t : Bytes} (h : 10 ∉ t) : CrLf t := by
  intro a b e; rw [e] at h; simp at h

theorem crlf_end : CrLf [13, 10] := by
  intro a b h
  cases a with
  | nil => cases h
  | cons x a =>
    cases a with
    | nil => cases h; rfl
    | cons y a => have := congrArg List.length h; simp at this

theorem CrLf.left {a b : Bytes} (h : CrLf (a ++ b)) : CrLf a := by
  intro x y e; exact h x (y ++ b) (by rw [e]; simp)

/-- What follows and does not begin with a line feed. -/
theorem CrLf.right {a b : Bytes} (h : CrLf (a ++ b)) (hb : b.head? ≠ some 10) : CrLf b := by
  intro x y e
  have := h (a ++ x) y (by rw [e]; simp)
  cases x with
  | nil => rw [e] at hb; simp at hb
  | cons z x => rw [List.getLast?_append] at this; simpa using this

theorem CrLf.lines {ls : List Bytes} (h : IsLines ls) : CrLf ls.flatten → ∀ l ∈ ls, CrLf l := by
  induction h with
  | nil => intro _ l hl; cases hl
  | last _ h2 => intro _ l hl; rw [List.mem_singleton] at hl; subst hl; exact crlf_of_none h2
  | @cons b ls hb hls ih =>
    intro h l hl
    rw [List.flatten_cons] at h
    rcases List.mem_cons.1 hl with rfl | hl
    · exact h.left
    · refine ih (h.right ?_) l hl
      intro hh
      cases hf : ls.flatten with
      | nil => rw [hf] at hh; cases hh
      | cons z f =>
        rw [hf] at hh h
        simp at hh
        subst hh
        have := h (b ++ [10]) f rfl
        simp at this

theorem crlf_flatten {ls : List Bytes} (h : ∀ l ∈ ls, CrLf l) : CrLf ls.flatten := by
  induction ls with
  | nil => exact crlf_of_none (by simp)
  | cons l ls ih =>
    rw [List.flatten_cons]
    exact (h l List.mem_cons_self).append (ih (fun x hx => h x (List.mem_cons_of_mem _ hx)))

theorem lineEndOf_crlf {c : Bytes} (h : CrLf c) (h10 : 10 ∈ c) : lineEndOf c = [13, 10] := by
  obtain ⟨a, b, rfl, hn⟩ : ∃ a b, c = a ++ 10 :: b ∧ 10 ∉ a := by
    clear h
    induction c with
    | nil => cases h10
    | cons x c ih =>
      by_cases hx : x = 10
      · exact ⟨[], c, by rw [hx]; rfl, by simp⟩
      · rcases List.mem_cons.1 h10 with e | h10
        · exact absurd e.symm hx
        · obtain ⟨a, b, rfl, hn⟩ := ih h10
          exact ⟨x :: a, b, rfl, by simp [hn]; exact fun e => hx e.symm⟩
  have := h a b rfl
  unfold lineEndOf
  rw [rawLines_line hn]
  have hs : hasSuffix (a ++ [10]) [13, 10] = true := by
    unfold hasSuffix
    rw [List.isSuffixOf_iff_suffix]
    obtain ⟨x, rfl⟩ : ∃ x, a = x ++ [13] := List.getLast?_eq_some_iff.1 this
    exact ⟨x, by simp⟩
  simp [hs]

theorem lineEndOf_lf {c : Bytes} (h : 13 ∉ c ∨ 10 ∉ c) : lineEndOf c = [10] := by
  unfold lineEndOf
  split
  · rename_i l ls he
    have hl : l <+: c := by
      have := rawLines_flatten c
      rw [he, List.flatten_cons] at this
      exact ⟨_, this⟩
    have : ¬ hasSuffix l [13, 10] = true := by
      unfold hasSuffix
      rw [List.isSuffixOf_iff_suffix]
      rintro ⟨x, rfl⟩
      rcases h with h | h <;> exact h (hl.subset (by simp))
    simp [this]
  · rfl

theorem metaText_crlf {sign : Bytes} (hs : 10 ∉ sign) : ∀ ms : List Bytes, (∀ m ∈ ms, 10 ∉ m) → CrLf (metaText ms sign [13, 10]) := by
  intro ms
  induction ms with
  | nil => intro _; exact crlf_of_none (by simp [metaText])
  | cons m ms ih =>
    intro h
    unfold metaText
    rw [List.flatMap_cons]
    refine CrLf.append ?_ (ih (fun x hx => h x (List.mem_cons_of_mem _ hx)))
    refine CrLf.append (crlf_of_none ?_) crlf_end
    have := h m List.mem_cons_self
    simp [hs, this]

/-- Lines of metadata have no line feed. -/
theorem meta_no_lf {data sign c : Bytes} {ms : List Bytes} (hf : TextFile data sign c ms) : ∀ m ∈ ms, 10 ∉ m := by
  obtain ⟨ls, h1, _, _, _, h5⟩ := hf
  intro m hm h10
  obtain ⟨l, hl, r, he, hT, a, b, _, _, hr⟩ := h5.mem_right hm
  obtain ⟨x, hx, hlx⟩ := line_body h1 (List.mem_filter.1 hl).1
  have hml : ∃ p, l = p ++ m ++ b := ⟨sign ++ a, by rw [he, hr]; simp⟩
  obtain ⟨p, hp⟩ := hml
  rcases hlx with rfl | rfl
  · exact hx (by rw [hp]; simp [h10])
  · -- the line feed is the last byte, which belongs to the space after the line
    cases hb : b.getLast? with
    | none =>
      have : b = [] := List.getLast?_eq_none_iff.1 hb
      subst this
      rw [List.append_nil] at hp
      cases hg : m.getLast? with
      | none => rw [List.getLast?_eq_none_iff.1 hg] at h10; cases h10
      | some z =>
        have h2 := congrArg List.getLast? hp
        rw [List.getLast?_append, List.getLast?_append, hg] at h2
        simp at h2
        subst h2
        obtain ⟨m', rfl⟩ := List.getLast?_eq_some_iff.1 hg
        exact (hT [10] (by decide)).2 ⟨m', rfl⟩
    | some z =>
      obtain ⟨b', rfl⟩ := List.getLast?_eq_some_iff.1 hb
      have h2 : x = p ++ m ++ b' := by
        have h3 : x ++ [10] = (p ++ m ++ b') ++ [z] := by rw [hp]; simp
        exact (List.append_inj' h3 rfl).1
      exact hx (by rw [h2]; simp [h10])

theorem checksumLine_no_lf (h : LabeledHash) : 10 ∉ checksumLine h := by
  unfold checksumLine LabeledHash.base58
  have := b58Encode_visible h.bytes
  intro hm
  rw [List.mem_append] at hm
  rcases hm with hm | hm
  · revert hm; decide
  · exact absurd (this 10 hm).1 (by decide)


/-- What is written: the content, cut in two somewhere, with the metadata in the cut (or at the ends), and line ends. -/
theorem textAddMeta_parts {c sign out : Bytes} {ms : List Bytes} {p : Placement} (h : textAddMeta c ms sign p = .ok out) :
    out = [] ∨ (∃ A B : List Bytes, rawLines c = A ++ B ∧
      out = A.flatten ++ metaText ms sign (lineEndOf c) ++ B.flatten ++ lineEndOf c) ∨
    out = c ++ lineEndOf c ++ lineEndOf c ++ metaText ms sign (lineEndOf c) := by
  have key : ∀ out, (match scanLines c with
      | .error e => Except.error e
      | .ok ls => .ok ((afterComment sign (metaText ms sign (lineEndOf c)) ls).1 ++
        (if (afterComment sign (metaText ms sign (lineEndOf c)) ls).2 then [] else metaText ms sign (lineEndOf c)) ++ lineEndOf c)) = Except.ok (ε := Err) out →
      ∃ A B : List Bytes, rawLines c = A ++ B ∧ out = A.flatten ++ metaText ms sign (lineEndOf c) ++ B.flatten ++ lineEndOf c := by
    intro out h
    unfold scanLines at h
    split at h
    · cases h
    · rename_i ls hls
      split at hls
      · cases hls
        rcases afterComment_spec sign (metaText ms sign (lineEndOf c)) (rawLines c) with ⟨A, B, h1, _, h3⟩ | ⟨_, h3⟩
        · rw [h3] at h
          cases h
          exact ⟨A, B, h1, by simp⟩
        · rw [h3] at h
          cases h
          exact ⟨rawLines c, [], by simp, by simp⟩
      · cases hls
  cases p with
  | top =>
    cases h
    exact .inr (.inl ⟨[], rawLines c, rfl, by simp [rawLines_flatten]⟩)
  | bottom => cases h; exact .inr (.inr rfl)
  | other => cases h; exact .inl rfl
  | afterComment => exact .inr (.inl (key out h))
  | default => exact .inr (.inl (key out h))

/-- C38. Adding a checksum keeps the line ends of a text: if all line ends are CRLF and the content has more than one line, then all line
ends of the result are CRLF; if there is no carriage return, there is none in the result. -/
theorem text_line_ends_partial (H : Hashes) (data sign c out : Bytes) (p : Placement) (ms : List Bytes) (hs : 10 ∉ sign)
    (hf : TextFile data sign c ms) (h : addTextChecksum H data sign p = .ok out) :
    (CrLf data → 10 ∈ c → CrLf out) ∧ (13 ∉ data → 13 ∉ sign → 13 ∉ out) := by
  unfold addTextChecksum at h
  rw [(textSplit_iff _ _ _ _).2 hf] at h
  simp only [ok_bind] at h
  rw [bind_ok_iff] at h
  obtain ⟨x, _, h⟩ := h
  have hlf : ∀ m ∈ compact (sortStrings (ms ++ [checksumLine x])), 10 ∉ m := by
    intro m hm
    rw [mem_compact, mem_sortStrings, List.mem_append, List.mem_singleton] at hm
    rcases hm with hm | rfl
    · exact meta_no_lf hf m hm
    · exact checksumLine_no_lf x
  have hcr : 13 ∉ data → ∀ m ∈ compact (sortStrings (ms ++ [checksumLine x])), 13 ∉ m := by
    intro hd m hm
    rw [mem_compact, mem_sortStrings, List.mem_append, List.mem_singleton] at hm
    rcases hm with hm | rfl
    · obtain ⟨ls, _, h2, _, _, h5⟩ := hf
      obtain ⟨l, hl, r, he, hT, a, b, _, _, hr⟩ := h5.mem_right hm
      intro h13
      apply hd
      rw [← h2, List.mem_flatten]
      exact ⟨l, (List.mem_filter.1 hl).1, by rw [he, hr]; simp [h13]⟩
    · unfold checksumLine LabeledHash.base58
      intro hm
      rw [List.mem_append] at hm
      rcases hm with hm | hm
      · revert hm; decide
      · exact absurd (b58Encode_visible _ 13 hm).1 (by decide)
  generalize compact (sortStrings (ms ++ [checksumLine x])) = ms' at h hlf hcr
  obtain ⟨ls, h1, h2, _, ⟨hT, a, b, ha, hb, he⟩, _⟩ := hf
  have hparts := textAddMeta_parts h
  refine ⟨fun hd h10 => ?_, fun hd h13 => ?_⟩
  · have hc : CrLf c := by
      have h3 : CrLf (ls.filter (fun l => decide (¬ IsMeta sign l))).flatten :=
        crlf_flatten (fun l hl => CrLf.lines h1 (h2 ▸ hd) l (List.mem_filter.1 hl).1)
      rw [he] at h3
      refine h3.left.right ?_
      intro hh
      cases c with
      | nil => cases h10
      | cons z c =>
        simp at hh
        subst hh
        exact (hT [10] (by decide)).1 ⟨c, rfl⟩
    rw [lineEndOf_crlf hc h10] at hparts
    have hm := metaText_crlf hs ms' hlf
    rcases hparts with rfl | ⟨A, B, hAB, rfl⟩ | rfl
    · exact crlf_of_none (by simp)
    · have hl := CrLf.lines (rawLines_isLines c) (by rw [rawLines_flatten]; exact hc)
      rw [hAB] at hl
      exact (((crlf_flatten (fun l h => hl l (List.mem_append_left _ h))).append hm).append
        (crlf_flatten (fun l h => hl l (List.mem_append_right _ h)))).append crlf_end
    · exact ((hc.append crlf_end).append crlf_end).append hm
  · have hc : 13 ∉ c := by
      intro hx
      apply hd
      have : (13 : UInt8) ∈ (ls.filter (fun l => decide (¬ IsMeta sign l))).flatten := by rw [he]; simp [hx]
      obtain ⟨l, hl, hx⟩ := List.mem_flatten.1 this
      rw [← h2, List.mem_flatten]
      exact ⟨l, (List.mem_filter.1 hl).1, hx⟩
    rw [lineEndOf_lf (.inl hc)] at hparts
    have hm : 13 ∉ metaText ms' sign [10] := by
      unfold metaText
      rw [List.mem_flatMap]
      rintro ⟨m, hm, hx⟩
      simp only [List.mem_append] at hx
      rcases hx with ((hx | hx) | hx) | hx
      · exact h13 hx
      · revert hx; decide
      · exact hcr hd m hm hx
      · revert hx; decide
    rcases hparts with rfl | ⟨A, B, hAB, rfl⟩ | rfl
    · simp
    · have hfl := rawLines_flatten c
      rw [hAB, List.flatten_append] at hfl
      rw [← hfl] at hc
      simp only [List.mem_append, not_or] at hc ⊢
      exact ⟨⟨⟨hc.1, hm⟩, hc.2⟩, by decide⟩
    · simp only [List.mem_append, not_or]
      exact ⟨⟨⟨hc, by decide⟩, by decide⟩, hm⟩

/-- A text with two lines and CRLF; with one line, what is added ends with LF only. -/
theorem line_ends_example :
    CrLf b!"a\r\nb\r\n" ∧ TextFile b!"a\r\nb\r\n" b!"#" b!"a\r\nb" [] ∧
    (∃ out, addTextChecksum toyHashes b!"a\r\nb\r\n" b!"#" .top = .ok out ∧ b!"\r\na\r\nb\r\n" <:+ out) ∧
    (∃ out, addTextChecksum toyHashes b!"a\r\n" b!"#" .top = .ok out ∧ b!"\na\n" <:+ out ∧ 13 ∉ out) := by
  refine ⟨?_, (textSplit_iff _ _ _ _).1 (by decide +kernel), ?_, ?_⟩
  · have : b!"a\r\nb\r\n" = (b!"a" ++ [13, 10]) ++ (b!"b" ++ [13, 10]) := by decide
    rw [this]
    exact ((crlf_of_none (by decide)).append crlf_end).append ((crlf_of_none (by decide)).append crlf_end)
  · exact ⟨_, rfl, by decide +kernel⟩
  · exact ⟨_, rfl, by decide +kernel⟩

end Jess
