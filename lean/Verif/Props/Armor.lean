import Verif.Model.Armor
import Verif.Lemmas.Text

/-! # Signature files (C40) -/

namespace Jess

/-! ## Specification -/

/-- `pat` first occurs in `s` after `p`, and `r` follows. -/
def FirstAt (pat p s r : Bytes) : Prop := s = p ++ pat ++ r ∧ ∀ q r', s = q ++ pat ++ r' → p.length ≤ q.length

/-- `pat` does not occur in `s`. -/
def NotIn (pat s : Bytes) : Prop := ∀ q r, s ≠ q ++ pat ++ r

/-- A file that consists of other text and complete signature blocks: every block starts with the armor start and reaches to the next
armor end. The list has what is between start and end. -/
inductive Blocks : Bytes → List Bytes → Prop
  | text {t : Bytes} : NotIn armorStart t → Blocks t []
  | block {f pre t m rest : Bytes} {a : UInt8} {bs : List Bytes} : FirstAt armorStart pre f (a :: t) → FirstAt armorEnd m t rest →
      Blocks rest bs → Blocks f ((a :: m) :: bs)

/-! ## Lemmas -/

theorem cutAt_some {pat : Bytes} (hp : pat ≠ []) : ∀ {s p r : Bytes}, cutAt pat s = some (p, r) ↔ FirstAt pat p s r
  | [], p, r => by
    constructor
    · intro h; cases h
    · rintro ⟨h, _⟩
      have := congrArg List.length h
      have hl : 0 < pat.length := List.length_pos_iff.2 hp
      simp at this
      omega
  | a :: t, p, r => by
    unfold cutAt
    by_cases h : hasPrefix (a :: t) pat = true
    · rw [if_pos h]
      obtain ⟨x, hx⟩ := hasPrefix_iff.1 h
      have hd : (a :: t).drop pat.length = x := by rw [← hx]; simp
      rw [hd]
      constructor
      · intro e; cases e; exact ⟨by simp [hx], by simp⟩
      · rintro ⟨h1, h2⟩
        have h3 := h2 [] x (by simp [hx])
        have : p = [] := List.length_eq_zero_iff.1 (by simpa using h3)
        subst this
        rw [h1] at hx
        simp at hx
        subst hx; rfl
    · rw [if_neg h]
      have hne : ∀ q r', a :: t = q ++ pat ++ r' → ∃ q', q = a :: q' ∧ t = q' ++ pat ++ r' := by
        intro q r' e
        cases q with
        | nil => exact absurd (hasPrefix_iff.2 ⟨r', by simpa using e.symm⟩) h
        | cons b q => simp at e; exact ⟨q, by rw [e.1], by simpa using e.2⟩
      constructor
      · intro e
        cases hc : cutAt pat t with
        | none => rw [hc] at e; cases e
        | some x =>
          obtain ⟨p', r'⟩ := x
          rw [hc] at e
          cases e
          obtain ⟨h1, h2⟩ := (cutAt_some hp).1 hc
          refine ⟨by rw [h1]; simp, ?_⟩
          intro q r'' e
          obtain ⟨q', rfl, e'⟩ := hne q r'' e
          have := h2 q' r'' e'
          simpa using this
      · rintro ⟨h1, h2⟩
        obtain ⟨p', rfl, e'⟩ := hne p r h1
        have : cutAt pat t = some (p', r) := (cutAt_some hp).2 ⟨e', fun q r' e => by
          have := h2 (a :: q) r' (by rw [e]; simp)
          simpa using this⟩
        rw [this]

theorem cutAt_none {pat : Bytes} (hp : pat ≠ []) : ∀ {s : Bytes}, cutAt pat s = none ↔ NotIn pat s
  | [] => by
    constructor
    · intro _ q r e
      simp at e
      exact hp e.2.1
    · intro _; rfl
  | a :: t => by
    unfold cutAt
    by_cases h : hasPrefix (a :: t) pat = true
    · rw [if_pos h]
      obtain ⟨x, hx⟩ := hasPrefix_iff.1 h
      constructor
      · intro e; cases e
      · intro hn; exact absurd (by simpa using hx.symm) (hn [] x)
    · rw [if_neg h]
      constructor
      · intro e q r e2
        cases q with
        | nil => exact h (hasPrefix_iff.2 ⟨r, by simpa using e2.symm⟩)
        | cons b q =>
          simp at e2
          cases hc : cutAt pat t with
          | none => exact (cutAt_none hp).1 hc q r (by simpa using e2.2)
          | some x => rw [hc] at e; cases e
      · intro hn
        have : cutAt pat t = none := (cutAt_none hp).2 (fun q r e => hn (a :: q) r (by rw [e]; simp))
        rw [this]

theorem armorStart_ne : armorStart ≠ [] := by decide
theorem armorEnd_ne : armorEnd ≠ [] := by decide

/-- The first occurrence stays where it is when text is appended. -/
theorem FirstAt.append {pat p s r : Bytes} (h : FirstAt pat p s r) (z : Bytes) : FirstAt pat p (s ++ z) (r ++ z) := by
  refine ⟨by rw [h.1]; simp, ?_⟩
  intro q r' e
  refine Nat.le_of_not_lt fun hlt => ?_
  -- the occurrence is within `s`
  have hpre : (q ++ pat) <+: s := by
    refine List.prefix_of_prefix_length_le (l₃ := s ++ z) ⟨r', e.symm⟩ (List.prefix_append _ _) ?_
    rw [h.1]; simp; omega
  obtain ⟨r'', hr⟩ := hpre
  have := h.2 q r'' hr.symm
  omega

/-- A pattern within one line is found at the start of the line after a text without it. -/
theorem firstAt_line {pat t : Bytes} (h10 : 10 ∉ pat) (ht : NotIn pat t) (r : Bytes) : FirstAt pat (t ++ [10]) (t ++ [10] ++ pat ++ r) r := by
  refine ⟨rfl, ?_⟩
  intro q r' e
  refine Nat.le_of_not_lt fun hlt => ?_
  have hlt : q.length ≤ t.length := by simp at hlt; omega
  rcases Nat.lt_or_ge t.length (q ++ pat).length with h | h
  · have h1 : (t ++ [10] ++ pat ++ r)[t.length]? = some 10 := by simp
    rw [e, List.getElem?_append_left h, List.getElem?_append_right hlt] at h1
    exact h10 (List.mem_of_getElem? h1)
  · have hpre : (q ++ pat) <+: t :=
      List.prefix_of_prefix_length_le (l₃ := t ++ [10] ++ pat ++ r) ⟨r', e.symm⟩ ⟨[10] ++ pat ++ r, by simp⟩ h
    obtain ⟨x, hx⟩ := hpre
    exact ht q x hx.symm

/-- A pattern is found after a text without its first byte. -/
theorem firstAt_nomem {c : UInt8} {pat t : Bytes} (ht : c ∉ t) (r : Bytes) : FirstAt (c :: pat) t (t ++ (c :: pat) ++ r) r := by
  refine ⟨rfl, ?_⟩
  intro q r' e
  refine Nat.le_of_not_lt fun hlt => ht ?_
  have h1 : (q ++ (c :: pat) ++ r')[q.length]? = some c := by simp
  rw [← e, List.append_assoc, List.getElem?_append_left hlt] at h1
  exact List.mem_of_getElem? h1

theorem nextSig_some {s pre m rest : Bytes} {a : UInt8} {t : Bytes} (h1 : FirstAt armorStart pre s (a :: t)) (h2 : FirstAt armorEnd m t rest) :
    nextSig s = some (pre, a :: m, rest) := by
  unfold nextSig
  rw [(cutAt_some armorStart_ne).2 h1]
  simp only [(cutAt_some armorEnd_ne).2 h2]

theorem nextSig_none {s : Bytes} (h : NotIn armorStart s) : nextSig s = none := by
  unfold nextSig
  rw [(cutAt_none armorStart_ne).2 h]

theorem nextSig_inv {s pre cap rest : Bytes} (h : nextSig s = some (pre, cap, rest)) :
    ∃ a t m, cap = a :: m ∧ FirstAt armorStart pre s (a :: t) ∧ FirstAt armorEnd m t rest := by
  unfold nextSig at h
  split at h
  · cases h
  · cases h
  · rename_i a t hc
    split at h
    · cases h
    · rename_i m r hc2
      cases h
      exact ⟨a, t, m, rfl, (cutAt_some armorStart_ne).1 hc, (cutAt_some armorEnd_ne).1 hc2⟩

theorem firstAt_len {pat p s r : Bytes} (h : FirstAt pat p s r) : s.length = p.length + pat.length + r.length := by
  rw [h.1]; simp; omega

theorem findSigs_blocks {f : Bytes} {bs : List Bytes} (h : Blocks f bs) : ∀ n, f.length ≤ n → findSigs n f = bs := by
  induction h with
  | text ht =>
    intro n _
    cases n with
    | zero => rfl
    | succ n => unfold findSigs; rw [nextSig_none ht]
  | block h1 h2 h3 ih =>
    intro n hn
    have e1 := firstAt_len h1
    have e2 := firstAt_len h2
    simp at e1
    cases n with
    | zero => omega
    | succ n =>
      unfold findSigs
      rw [nextSig_some h1 h2]
      simp only
      rw [ih n (by omega)]

/-! ## Sections -/

theorem splitLines64_flatten : ∀ (n : Nat) (d : Bytes), d.length ≤ n → (splitLines64 n d).flatten = d
  | 0, d, h => by
    have : d = [] := List.length_eq_zero_iff.1 (by omega)
    subst this; rfl
  | n + 1, d, h => by
    unfold splitLines64
    split
    · rename_i h0; rw [List.length_eq_zero_iff.1 h0]; rfl
    · split
      · rw [List.flatten_cons, splitLines64_flatten n _ (by simp; omega), List.take_append_drop]
      · simp

/-- What is between start and end of a section. -/
def sectionBody (ls : List Bytes) : Bytes := 10 :: ls.flatMap (fun l => l ++ [10])

theorem joinLF_section : ∀ (x : Bytes) (ls : List Bytes) (e : Bytes), joinLF (x :: (ls ++ [e])) = x ++ sectionBody ls ++ e
  | x, [], e => by simp [joinLF, sectionBody]
  | x, l :: ls, e => by
    have := joinLF_section l ls e
    rw [List.cons_append, joinLF, this]
    · simp [sectionBody]
    · simp

theorem sectionBody_mem {ls : List Bytes} {b : UInt8} (h : b ∈ sectionBody ls) : b = 10 ∨ b ∈ ls.flatten := by
  unfold sectionBody at h
  rcases List.mem_cons.1 h with h | h
  · exact .inl h
  · obtain ⟨l, hl, hb⟩ := List.mem_flatMap.1 h
    rcases List.mem_append.1 hb with hb | hb
    · exact .inr (List.mem_flatten.2 ⟨l, hl, hb⟩)
    · exact .inl (by simpa using hb)

theorem sectionBody_text {ls : List Bytes} (h : ∀ b ∈ ls.flatten, isReSpace b = false) :
    (sectionBody ls).filter (fun b => !isReSpace b) = ls.flatten := by
  unfold sectionBody
  rw [List.filter_cons_of_neg (by decide)]
  induction ls with
  | nil => rfl
  | cons l ls ih =>
    rw [List.flatMap_cons, List.filter_append, List.filter_append, ih (fun b hb => h b (by simp only [List.flatten_cons, List.mem_append]; exact .inr hb))]
    rw [List.filter_eq_self.2 (fun b hb => by simp [h b (by simp only [List.flatten_cons, List.mem_append]; exact .inl hb)])]
    simp [show isReSpace 10 = true from by decide]

theorem b64Char_plain : ∀ n < 64, isReSpace (b64Char false n) = false ∧ b64Char false n ≠ 45 := by decide +kernel

theorem b64Encode_plain (d : Bytes) : ∀ b ∈ b64Encode false d, isReSpace b = false ∧ b ≠ 45 := by
  intro b hb
  obtain ⟨g, hg, rfl⟩ := List.mem_map.1 hb
  exact b64Char_plain g (b64Groups_lt d g hg)

theorem sigText_plain {t : Bytes} (h : ∀ b ∈ t, isReSpace b = false ∧ b ≠ 45) {cap : Bytes} (hc : cap.filter (fun b => !isReSpace b) = t) :
    sigText cap = t := by
  unfold sigText
  rw [hc]
  have h1 : trimSuffix t armorEnd = t := by
    unfold trimSuffix
    rw [if_neg]
    intro hs
    obtain ⟨x, hx⟩ := hasSuffix_iff.1 hs
    exact (h 45 (by rw [← hx]; exact List.mem_append_right _ (by decide))).2 rfl
  rw [h1]
  unfold trimPrefix
  rw [if_neg]
  intro hs
  obtain ⟨x, hx⟩ := hasPrefix_iff.1 hs
  exact (h 45 (by rw [← hx]; exact List.mem_append_left _ (by decide))).2 rfl

/-- A section is armor start, body, armor end; the body has no dash, and is parsed to the signature. -/
theorem section_spec (C : LetterCodec) (hC : C.Sound) (sig : Letter) (sec : Bytes) (h : makeSigSection C sig = .ok sec) :
    ∃ m : Bytes, sec = armorStart ++ (10 :: m) ++ armorEnd ∧ 45 ∉ m ∧ parseSig C (10 :: m) = .ok sig := by
  unfold makeSigSection at h
  rw [bind_ok_iff] at h
  obtain ⟨d, hd, h⟩ := h
  cases h
  have hpl := b64Encode_plain d
  have hfl := splitLines64_flatten (b64Encode false d).length (b64Encode false d) (Nat.le_refl _)
  refine ⟨(splitLines64 (b64Encode false d).length (b64Encode false d)).flatMap (fun l => l ++ [10]), ?_, ?_, ?_⟩
  · rw [joinLF_section]; rfl
  · intro hm
    rcases sectionBody_mem (List.mem_cons_of_mem _ hm) with h | h
    · revert h; decide
    · rw [hfl] at h; exact (hpl 45 h).2 rfl
  · unfold parseSig
    have := sigText_plain (cap := sectionBody (splitLines64 (b64Encode false d).length (b64Encode false d))) (t := b64Encode false d) hpl (by
      rw [sectionBody_text, hfl]
      intro b hb; rw [hfl] at hb; exact (hpl b hb).1)
    unfold sectionBody at this
    rw [this, b64Decode_encode]
    exact hC sig d hd

theorem parseSigs_append (C : LetterCodec) : ∀ (cs ds : List Bytes) (sigs : List Letter) (w : Option Err),
    parseSigs C (cs ++ ds) sigs w = parseSigs C ds (parseSigs C cs sigs w).1 (parseSigs C cs sigs w).2
  | [], ds, sigs, w => rfl
  | c :: cs, ds, sigs, w => by
    rw [List.cons_append, parseSigs, parseSigs]
    cases parseSig C c with
    | error e => exact parseSigs_append C cs ds sigs (some e)
    | ok l => exact parseSigs_append C cs ds (sigs ++ [l]) w

theorem blocks_add {f : Bytes} {bs : List Bytes} (h : Blocks f bs) {m : Bytes} (hm : 45 ∉ m) :
    Blocks (f ++ [10] ++ (armorStart ++ (10 :: m) ++ armorEnd)) (bs ++ [10 :: m]) := by
  have hend : FirstAt armorEnd m (m ++ armorEnd ++ []) [] := by
    have : armorEnd = 45 :: armorEnd.tail := by decide
    rw [this]
    exact firstAt_nomem hm []
  have hno : Blocks [] [] := .text (fun q r e => by
    have := congrArg List.length e
    simp [armorStart] at this)
  induction h with
  | @text t ht =>
    refine .block (pre := t ++ [10]) (t := m ++ armorEnd ++ []) (rest := []) ?_ hend hno
    have := firstAt_line (pat := armorStart) (by decide) ht ((10 :: m) ++ armorEnd)
    simpa using this
  | @block f pre t m' rest a bs h1 h2 h3 ih =>
    rw [List.cons_append]
    have e1 := h1.append ([10] ++ (armorStart ++ (10 :: m) ++ armorEnd))
    have e2 := h2.append ([10] ++ (armorStart ++ (10 :: m) ++ armorEnd))
    rw [← List.append_assoc] at e1
    rw [List.cons_append] at e1
    refine .block e1 e2 ?_
    rw [← List.append_assoc]
    exact ih

/-! ## C40 -/

/-- C40. Adding a signature to a file in which every signature block is complete: all other content stays as it is, the parser finds
exactly the signatures it found before and then the new one, with the same warning as before (if any). -/
theorem armor_add (C : LetterCodec) (hC : C.Sound) (sig : Letter) (f out : Bytes) (bs : List Bytes) (hf : Blocks f bs)
    (h : addToSigFile C sig f false = .ok out) :
    f <+: out ∧ (∃ bs', Blocks out bs') ∧ parseSigFile C out = ((parseSigFile C f).1 ++ [sig], (parseSigFile C f).2) := by
  unfold addToSigFile at h
  rw [bind_ok_iff] at h
  obtain ⟨sec, hs, h⟩ := h
  cases h
  obtain ⟨m, rfl, hm, hp⟩ := section_spec C hC sig sec hs
  have hb := blocks_add hf hm
  simp only [Bool.false_eq_true, if_false]
  refine ⟨⟨[10] ++ (armorStart ++ (10 :: m) ++ armorEnd), by simp⟩, ⟨_, hb⟩, ?_⟩
  unfold parseSigFile
  rw [findSigs_blocks hb _ (Nat.le_refl _), findSigs_blocks hf _ (Nat.le_refl _), parseSigs_append]
  simp only [parseSigs, hp]

/-- Add signatures one after the other. -/
def addAll (C : LetterCodec) : List Letter → Bytes → Res Bytes
  | [], f => .ok f
  | sig :: sigs, f => do
    let f' ← addToSigFile C sig f false
    addAll C sigs f'

/-- C40. After signatures were added to a file without armor start, the parser finds exactly these, in this order, without warning; the
text of the file is unchanged at its start. -/
theorem armor_round_trip (C : LetterCodec) (hC : C.Sound) (sigs : List Letter) (text out : Bytes) (ht : NotIn armorStart text)
    (h : addAll C sigs text = .ok out) : text <+: out ∧ parseSigFile C out = (sigs, none) := by
  have key : ∀ (sigs : List Letter) (f : Bytes) (bs : List Bytes), Blocks f bs → addAll C sigs f = .ok out →
      f <+: out ∧ parseSigFile C out = ((parseSigFile C f).1 ++ sigs, (parseSigFile C f).2) := by
    intro sigs
    induction sigs with
    | nil => intro f bs _ h; cases h; simp
    | cons sig sigs ih =>
      intro f bs hb h
      unfold addAll at h
      rw [bind_ok_iff] at h
      obtain ⟨f', h1, h2⟩ := h
      obtain ⟨p1, ⟨bs', hb'⟩, p2⟩ := armor_add C hC sig f f' bs hb h1
      obtain ⟨q1, q2⟩ := ih f' bs' hb' h2
      refine ⟨p1.trans q1, ?_⟩
      rw [q2, p2]; simp
  obtain ⟨h1, h2⟩ := key sigs text [] (.text ht) h
  refine ⟨h1, ?_⟩
  rw [h2]
  have : parseSigFile C text = ([], none) := by
    unfold parseSigFile
    rw [findSigs_blocks (.text ht) _ (Nat.le_refl _)]
    rfl
  rw [this]; simp

/-- C40. A section on its own is parsed to its signature. -/
theorem armor_section (C : LetterCodec) (hC : C.Sound) (sig : Letter) (sec : Bytes) (h : makeSigSection C sig = .ok sec) :
    parseSigFile C sec = ([sig], none) := by
  obtain ⟨m, rfl, hm, hp⟩ := section_spec C hC sig sec h
  have hb : Blocks (armorStart ++ (10 :: m) ++ armorEnd) [10 :: m] := by
    refine .block (pre := []) (t := m ++ armorEnd ++ []) (rest := []) ⟨by simp, by simp⟩ ?_ (.text ?_)
    · have : armorEnd = 45 :: armorEnd.tail := by decide
      rw [this]
      exact firstAt_nomem hm []
    · intro q r e
      have := congrArg List.length e
      simp [armorStart] at this
  unfold parseSigFile
  rw [findSigs_blocks hb _ (Nat.le_refl _)]
  simp only [parseSigs, hp, List.nil_append]

/-! ### Replacement -/

theorem notIn_append_lf {pat t : Bytes} (h10 : 10 ∉ pat) (hne : pat ≠ []) (ht : NotIn pat t) : NotIn pat (t ++ [10]) := by
  intro q r e
  rcases List.eq_nil_or_concat r with rfl | ⟨r', z, rfl⟩
  · rcases List.eq_nil_or_concat pat with rfl | ⟨p', y, rfl⟩
    · exact hne rfl
    · have := congrArg List.getLast? e
      simp at this
      subst this
      simp at h10
  · simp only [List.concat_eq_append, ← List.append_assoc] at e
    have := (List.append_inj' e rfl).1
    exact ht q r' this

/-- C40 (with a condition). When the existing signatures are replaced, the parser finds exactly the new signature, and the file has the
content without the signature blocks, then the new section - provided that what is left without the blocks has no armor start. -/
theorem armor_replace_partial (C : LetterCodec) (hC : C.Sound) (sig : Letter) (f out : Bytes) (hf : NotIn armorStart (removeSigs f.length f))
    (h : addToSigFile C sig f true = .ok out) :
    removeSigs f.length f <+: out ∧ parseSigFile C out = ([sig], none) := by
  have h' : addToSigFile C sig (removeSigs f.length f) false = .ok out := by
    unfold addToSigFile at h ⊢
    rw [bind_ok_iff] at h ⊢
    obtain ⟨sec, hs, h⟩ := h
    exact ⟨sec, hs, by simpa using h⟩
  obtain ⟨h1, _, h2⟩ := armor_add C hC sig _ out [] (.text hf) h'
  refine ⟨h1, ?_⟩
  rw [h2]
  have : parseSigFile C (removeSigs f.length f) = ([], none) := by
    unfold parseSigFile
    rw [findSigs_blocks (.text hf) _ (Nat.le_refl _)]
    rfl
  rw [this]; rfl

/-- A chain of sections, each after a line feed. -/
def chain : List Bytes → Bytes
  | [] => []
  | m :: ms => [10] ++ (armorStart ++ (10 :: m) ++ armorEnd) ++ chain ms

theorem addAll_chain (C : LetterCodec) (hC : C.Sound) : ∀ (sigs : List Letter) (f out : Bytes), addAll C sigs f = .ok out →
    ∃ ms : List Bytes, ms.length = sigs.length ∧ (∀ m ∈ ms, 45 ∉ m) ∧ out = f ++ chain ms
  | [], f, out, h => by cases h; exact ⟨[], rfl, by simp, by simp [chain]⟩
  | sig :: sigs, f, out, h => by
    unfold addAll at h
    rw [bind_ok_iff] at h
    obtain ⟨f', h1, h2⟩ := h
    unfold addToSigFile at h1
    rw [bind_ok_iff] at h1
    obtain ⟨sec, hs, h1⟩ := h1
    cases h1
    obtain ⟨m, rfl, hm, _⟩ := section_spec C hC sig sec hs
    obtain ⟨ms, e1, e2, e3⟩ := addAll_chain C hC sigs _ out h2
    refine ⟨m :: ms, by simp [e1], ?_, ?_⟩
    · intro x hx
      rcases List.mem_cons.1 hx with rfl | hx
      · exact hm
      · exact e2 x hx
    · rw [e3]; simp [chain]

theorem end_found {m : Bytes} (hm : 45 ∉ m) (r : Bytes) : FirstAt armorEnd m (m ++ armorEnd ++ r) r := by
  have : armorEnd = 45 :: armorEnd.tail := by decide
  rw [this]
  exact firstAt_nomem hm r

theorem removeSigs_chain : ∀ (ms : List Bytes) (m : Bytes) (n : Nat), (∀ x ∈ m :: ms, 45 ∉ x) →
    (armorStart ++ (10 :: m) ++ armorEnd ++ chain ms).length ≤ n → removeSigs n (armorStart ++ (10 :: m) ++ armorEnd ++ chain ms) = []
  | ms, m, 0, _, hn => by simp [armorStart] at hn
  | ms, m, n + 1, h, hn => by
    have h1 : FirstAt armorStart [] (armorStart ++ (10 :: m) ++ armorEnd ++ chain ms) (10 :: (m ++ armorEnd ++ chain ms)) := ⟨by simp, by simp⟩
    unfold removeSigs
    rw [nextSig_some h1 (end_found (h m (by simp)) _)]
    simp only [List.nil_append]
    cases ms with
    | nil =>
      simp only [chain, dropLineEnd]
      cases n with
      | zero => rfl
      | succ n => rfl
    | cons m' ms =>
      have hd : dropLineEnd (chain (m' :: ms)) = armorStart ++ (10 :: m') ++ armorEnd ++ chain ms := by
        simp [chain, dropLineEnd]
      rw [hd]
      refine removeSigs_chain ms m' n (fun x hx => h x (by simp at hx ⊢; exact .inr hx)) ?_
      simp [chain] at hn ⊢
      omega

theorem addAll_removed (C : LetterCodec) (hC : C.Sound) (sigs : List Letter) (text f : Bytes) (ht : NotIn armorStart text)
    (ha : addAll C sigs text = .ok f) : removeSigs f.length f = text ++ (if sigs = [] then [] else [10]) := by
  obtain ⟨ms, e1, e2, e3⟩ := addAll_chain C hC sigs text f ha
  cases ms with
  | nil =>
    have : sigs = [] := List.length_eq_zero_iff.1 e1.symm
    subst this
    simp only [chain, List.append_nil] at e3
    subst e3
    simp only [if_true, List.append_nil]
    cases hn : f.length with
    | zero => rfl
    | succ n => unfold removeSigs; rw [nextSig_none ht]
  | cons m ms =>
    have hne : sigs ≠ [] := by rintro rfl; simp at e1
    rw [if_neg hne]
    have h1 : FirstAt armorStart (text ++ [10]) f (10 :: (m ++ armorEnd ++ chain ms)) := by
      have := firstAt_line (pat := armorStart) (by decide) ht (10 :: (m ++ armorEnd ++ chain ms))
      rw [e3]
      simpa [chain] using this
    have hlen := firstAt_len h1
    cases hn : f.length with
    | zero => rw [hn] at hlen; simp at hlen
    | succ n =>
      unfold removeSigs
      rw [nextSig_some h1 (end_found (e2 m (by simp)) _)]
      simp only
      cases ms with
      | nil =>
        simp only [chain, dropLineEnd]
        cases n <;> simp [removeSigs, nextSig, cutAt]
      | cons m' ms =>
        have hd : dropLineEnd (chain (m' :: ms)) = armorStart ++ (10 :: m') ++ armorEnd ++ chain ms := by
          simp [chain, dropLineEnd]
        rw [hd, removeSigs_chain ms m' n (fun x hx => e2 x (List.mem_cons_of_mem _ hx)) (by
          simp [chain] at hlen ⊢; omega)]
        simp

/-- C40. Replacing the signatures of a file to which signatures were added: the text stays (followed by one line feed if there were
signatures), exactly the new signature is found, without warning. -/
theorem armor_replace (C : LetterCodec) (hC : C.Sound) (sigs : List Letter) (sig : Letter) (text f out : Bytes) (ht : NotIn armorStart text)
    (ha : addAll C sigs text = .ok f) (h : addToSigFile C sig f true = .ok out) :
    (∃ sec, makeSigSection C sig = .ok sec ∧ out = text ++ (if sigs = [] then [] else [10]) ++ [10] ++ sec) ∧
    parseSigFile C out = ([sig], none) := by
  have hrem := addAll_removed C hC sigs text f ht ha
  have hno : NotIn armorStart (removeSigs f.length f) := by
    rw [hrem]
    split
    · simpa using ht
    · exact notIn_append_lf (by decide) armorStart_ne ht
  refine ⟨?_, (armor_replace_partial C hC sig f out hno h).2⟩
  unfold addToSigFile at h
  rw [bind_ok_iff] at h
  obtain ⟨sec, hs, h⟩ := h
  cases h
  exact ⟨sec, hs, by simp [hrem]⟩

/-- The line end that follows a signature block: CR LF, LF or CR, or nothing (specification). -/
inductive BlockEnd : Bytes → Bytes → Prop
  | crlf (rest : Bytes) : BlockEnd (13 :: 10 :: rest) rest
  | lf (rest : Bytes) : BlockEnd (10 :: rest) rest
  | cr (rest : Bytes) : rest.head? ≠ some 10 → BlockEnd (13 :: rest) rest
  | none (rest : Bytes) : rest.head? ≠ some 10 → rest.head? ≠ some 13 → BlockEnd rest rest

theorem dropLineEnd_of {s rest : Bytes} (h : BlockEnd s rest) : dropLineEnd s = rest := by
  cases h with
  | crlf => rfl
  | lf => rfl
  | cr _ h =>
    cases rest with
    | nil => rfl
    | cons x r =>
      unfold dropLineEnd
      split
      · rename_i e; cases e; simp at h
      · rename_i e; cases e; rfl
      · rename_i e; cases e
      · rename_i h1 h2 h3; exact absurd rfl (h2 _)
  | none _ h h' =>
    unfold dropLineEnd
    split
    · simp at h'
    · simp at h'
    · simp at h
    · rfl

/-- C40. Replacing a signature block in the middle of a text, however its last line ends: the text before and the text after the
line stay as they are, the new signature is added at the end. -/
theorem armor_replace_inside (C : LetterCodec) (sig : Letter) (f out pre m t s rest : Bytes) (a : UInt8) (h1 : FirstAt armorStart pre f (a :: t))
    (h2 : FirstAt armorEnd m t s) (he : BlockEnd s rest) (hr : NotIn armorStart rest) (h : addToSigFile C sig f true = .ok out) :
    ∃ sec, makeSigSection C sig = .ok sec ∧ out = pre ++ rest ++ [10] ++ sec := by
  unfold addToSigFile at h
  rw [bind_ok_iff] at h
  obtain ⟨sec, hs, h⟩ := h
  cases h
  refine ⟨sec, hs, ?_⟩
  have hlen := firstAt_len h1
  have hrem : removeSigs f.length f = pre ++ rest := by
    cases hn : f.length with
    | zero => rw [hn] at hlen; simp at hlen
    | succ n =>
      unfold removeSigs
      rw [nextSig_some h1 h2]
      simp only [dropLineEnd_of he]
      cases n with
      | zero => rfl
      | succ n => unfold removeSigs; rw [nextSig_none hr]
  simp [hrem]

/-! ### Refutation -/

/-- A file that ends with a signature block that is not complete: there is an armor start, and no armor end follows (other than at once,
which does not count). -/
inductive Dangling : Bytes → List Bytes → Prop
  | start {f pre : Bytes} : FirstAt armorStart pre f [] → Dangling f []
  | text {f pre t : Bytes} {a : UInt8} : FirstAt armorStart pre f (a :: t) → NotIn armorEnd t → Dangling f []
  | block {f pre t m rest : Bytes} {a : UInt8} {bs : List Bytes} : FirstAt armorStart pre f (a :: t) → FirstAt armorEnd m t rest →
      Dangling rest bs → Dangling f ((a :: m) :: bs)

theorem findSigs_dangling {f : Bytes} {bs : List Bytes} (h : Dangling f bs) : ∀ n, f.length ≤ n → findSigs n f = bs := by
  induction h with
  | start h1 =>
    intro n _
    cases n with
    | zero => rfl
    | succ n => unfold findSigs nextSig; rw [(cutAt_some armorStart_ne).2 h1]
  | text h1 h2 =>
    intro n _
    cases n with
    | zero => rfl
    | succ n =>
      unfold findSigs nextSig
      rw [(cutAt_some armorStart_ne).2 h1]
      simp only [(cutAt_none armorEnd_ne).2 h2]
  | block h1 h2 h3 ih =>
    intro n hn
    have e1 := firstAt_len h1
    have e2 := firstAt_len h2
    simp at e1
    cases n with
    | zero => omega
    | succ n =>
      unfold findSigs
      rw [nextSig_some h1 h2]
      simp only
      rw [ih n (by omega)]

theorem notIn_line {pat t u : Bytes} (h10 : 10 ∉ pat) (hne : pat ≠ []) (ht : NotIn pat t) (hu : NotIn pat u) : NotIn pat (t ++ [10] ++ u) := by
  intro q r e
  rcases Nat.lt_or_ge t.length q.length with h | h
  · have hp : (t ++ [10]) <+: q :=
      List.prefix_of_prefix_length_le (l₃ := t ++ [10] ++ u) (List.prefix_append _ _) ⟨pat ++ r, by rw [e]; simp⟩ (by simp; omega)
    obtain ⟨q', rfl⟩ := hp
    refine hu q' r ?_
    simp only [List.append_assoc] at e
    simpa using e
  · rcases Nat.lt_or_ge t.length (q ++ pat).length with h' | h'
    · have h1 : (t ++ [10] ++ u)[t.length]? = some 10 := by simp
      rw [e, List.getElem?_append_left h', List.getElem?_append_right h] at h1
      exact h10 (List.mem_of_getElem? h1)
    · have hpre : (q ++ pat) <+: t :=
        List.prefix_of_prefix_length_le (l₃ := t ++ [10] ++ u) ⟨r, e.symm⟩ ⟨[10] ++ u, by simp⟩ h'
      obtain ⟨x, hx⟩ := hpre
      exact ht q x hx.symm

theorem b64_dash {s : Bytes} (h : 45 ∈ s) : ∃ e, b64Vals false s = .error e := by
  induction s with
  | nil => cases h
  | cons c r ih =>
    unfold b64Vals
    rcases List.mem_cons.1 h with rfl | h
    · exact ⟨_, rfl⟩
    · obtain ⟨e, he⟩ := ih h
      simp only [he]
      split
      · exact ⟨_, rfl⟩
      · split <;> exact ⟨_, rfl⟩

theorem firstAt_after {c : UInt8} {p Y m : Bytes} (h10 : 10 ∉ c :: p) (hY : NotIn (c :: p) Y) (hm : c ∉ m) (r : Bytes) :
    FirstAt (c :: p) (Y ++ [10] ++ m) (Y ++ [10] ++ m ++ (c :: p) ++ r) r := by
  refine ⟨rfl, ?_⟩
  intro q r' e
  refine Nat.le_of_not_lt fun hlt => ?_
  have hq : (q ++ (c :: p) ++ r')[q.length]? = some c := by simp
  rcases Nat.lt_or_ge Y.length q.length with h | h
  · rw [← e, List.append_assoc (Y ++ [10] ++ m), List.getElem?_append_left hlt, List.getElem?_append_right (by simp; omega)] at hq
    exact hm (List.mem_of_getElem? hq)
  · rcases Nat.lt_or_ge Y.length (q ++ (c :: p)).length with h' | h'
    · have h1 : (Y ++ [10] ++ m ++ (c :: p) ++ r)[Y.length]? = some 10 := by simp
      rw [e, List.getElem?_append_left h', List.getElem?_append_right h] at h1
      exact h10 (List.mem_of_getElem? h1)
    · have hpre : (q ++ (c :: p)) <+: Y :=
        List.prefix_of_prefix_length_le (l₃ := Y ++ [10] ++ m ++ (c :: p) ++ r) ⟨r', e.symm⟩ ⟨[10] ++ m ++ (c :: p) ++ r, by simp⟩ h'
      obtain ⟨x, hx⟩ := hpre
      exact hY q x hx.symm

theorem parseSig_dash (C : LetterCodec) {cap : Bytes} (h : 45 ∈ cap) : ∃ e, parseSig C cap = .error e := by
  have hw : ∀ b ∈ cap.filter (fun b => !isReSpace b), b ≠ 32 := by
    rintro b hb rfl
    have := (List.mem_filter.1 hb).2
    revert this; decide
  have h45 : 45 ∈ cap.filter (fun b => !isReSpace b) := List.mem_filter.2 ⟨h, by decide⟩
  have hst : sigText cap = cap.filter (fun b => !isReSpace b) := by
    unfold sigText
    have h1 : trimSuffix (cap.filter (fun b => !isReSpace b)) armorEnd = cap.filter (fun b => !isReSpace b) := by
      unfold trimSuffix
      rw [if_neg]
      intro hs
      obtain ⟨x, hx⟩ := hasSuffix_iff.1 hs
      exact hw 32 (by rw [← hx]; exact List.mem_append_right _ (by decide)) rfl
    rw [h1]
    unfold trimPrefix
    rw [if_neg]
    intro hs
    obtain ⟨x, hx⟩ := hasPrefix_iff.1 hs
    exact hw 32 (by rw [← hx]; exact List.mem_append_left _ (by decide)) rfl
  obtain ⟨e, he⟩ := b64_dash h45
  refine ⟨e, ?_⟩
  unfold parseSig b64Decode
  rw [hst, he]
  rfl

theorem dangling_add {f : Bytes} {bs : List Bytes} (h : Dangling f bs) {m : Bytes} (hm : 45 ∉ m) :
    ∃ cap, 45 ∈ cap ∧ Blocks (f ++ [10] ++ (armorStart ++ (10 :: m) ++ armorEnd)) (bs ++ [cap]) := by
  have hE : armorEnd = 45 :: armorEnd.tail := by decide
  have hno : Blocks [] [] := .text (fun q r e => by
    have := congrArg List.length e
    simp [armorStart] at this)
  have hns : NotIn armorEnd armorStart := (cutAt_none armorEnd_ne).1 (by decide +kernel)
  have hfind : ∀ Y : Bytes, NotIn armorEnd Y → FirstAt armorEnd (Y ++ [10] ++ m) (Y ++ [10] ++ m ++ armorEnd ++ []) [] := by
    intro Y hY
    have h10 : 10 ∉ armorEnd := by decide
    rw [hE] at hY h10 ⊢
    exact firstAt_after h10 hY hm []
  induction h with
  | @start f pre h1 =>
    refine ⟨10 :: (armorStart ++ [10] ++ m), by simp [armorStart], ?_⟩
    refine .block (pre := pre) (t := armorStart ++ [10] ++ m ++ armorEnd ++ []) ?_ (hfind armorStart hns) hno
    have := h1.append ([10] ++ (armorStart ++ (10 :: m) ++ armorEnd))
    simpa using this
  | @text f pre t a h1 h2 =>
    refine ⟨a :: ((t ++ [10] ++ armorStart) ++ [10] ++ m), by simp [armorStart], ?_⟩
    refine .block (pre := pre) (t := (t ++ [10] ++ armorStart) ++ [10] ++ m ++ armorEnd ++ []) ?_
      (hfind _ (notIn_line (by decide) armorEnd_ne h2 hns)) hno
    have := h1.append ([10] ++ (armorStart ++ (10 :: m) ++ armorEnd))
    simpa using this
  | @block f pre t m' rest a bs h1 h2 h3 ih =>
    obtain ⟨cap, hc, hb⟩ := ih
    refine ⟨cap, hc, ?_⟩
    have e1 := h1.append ([10] ++ (armorStart ++ (10 :: m) ++ armorEnd))
    have e2 := h2.append ([10] ++ (armorStart ++ (10 :: m) ++ armorEnd))
    rw [← List.append_assoc] at e1
    rw [List.cons_append] at e1 ⊢
    refine .block e1 e2 ?_
    rw [← List.append_assoc]
    exact hb

/-- C40 is refuted for files with an armor start that has no end (for example because the file mentions it, or because writing the file
was interrupted): a signature that is added to such a file is never found, the parser gives a warning instead. -/
theorem armor_dangling_loses (C : LetterCodec) (hC : C.Sound) (sig : Letter) (f out : Bytes) (bs : List Bytes) (hf : Dangling f bs)
    (h : addToSigFile C sig f false = .ok out) :
    (parseSigFile C out).1 = (parseSigFile C f).1 ∧ (parseSigFile C out).2 ≠ none := by
  unfold addToSigFile at h
  rw [bind_ok_iff] at h
  obtain ⟨sec, hs, h⟩ := h
  cases h
  obtain ⟨m, rfl, hm, _⟩ := section_spec C hC sig sec hs
  obtain ⟨cap, hc, hb⟩ := dangling_add hf hm
  obtain ⟨e, he⟩ := parseSig_dash C hc
  simp only [Bool.false_eq_true, if_false]
  unfold parseSigFile
  rw [findSigs_blocks hb _ (Nat.le_refl _), findSigs_dangling hf _ (Nat.le_refl _), parseSigs_append]
  simp only [parseSigs, he]
  exact ⟨trivial, by simp⟩

/-! ### Examples -/

/-- A codec for letters with short signatures. -/
def toyLetterCodec : LetterCodec where
  dump l := if l = { data := l.data } then .ok (7 :: l.data) else .error .unsupported
  load d := match d with | 7 :: r => .ok { data := r } | _ => .error .malformed

theorem toyLetterCodec_sound : toyLetterCodec.Sound := by
  intro l d h
  unfold toyLetterCodec at h ⊢
  simp only at h
  split at h
  · rename_i hl
    cases h
    simp only
    rw [← hl]
  · cases h

/-- The hypotheses are met; and removing blocks can leave an armor start. -/
theorem armor_example :
    NotIn armorStart b!"notes -----END JESS SIGNATURE-----" ∧
    (match addAll toyLetterCodec [{ data := List.replicate 100 9 }, { data := b!"x" }] b!"notes" with
      | .ok f => decide (parseSigFile toyLetterCodec f = ([{ data := List.replicate 100 9 }, { data := b!"x" }], none)) &&
          (match addToSigFile toyLetterCodec { data := b!"y" } f true with
            | .ok g => decide (parseSigFile toyLetterCodec g = ([{ data := b!"y" }], none))
            | .error _ => false)
      | .error _ => false) = true ∧
    (match addToSigFile toyLetterCodec { data := b!"y" }
        (b!"-----BEGIN JESS-----BEGIN JESS SIGNATURE-----x-----END JESS SIGNATURE----- SIGNATURE-----") true with
      | .ok g => decide (parseSigFile toyLetterCodec g = ([], some .malformed))
      | .error _ => false) = true ∧
    Dangling b!"see -----BEGIN JESS SIGNATURE----- below" [] := by
  refine ⟨(cutAt_none armorStart_ne).1 (by decide +kernel), by decide +kernel, by decide +kernel, ?_⟩
  exact .text (pre := b!"see ") (a := 32) (t := b!"below") ((cutAt_some armorStart_ne).1 (by decide +kernel)) ((cutAt_none armorEnd_ne).1 (by decide +kernel))

end Jess
