import Verif.Lemmas.Text
import Verif.Lemmas.List
import Verif.Props.LHash

/-! # Text file checksums (C38, C39) -/

namespace Jess

/-! ## Specification -/

/-- A line that the line reader can read: with more than 65536 bytes the reader fails; with exactly 65536 bytes, the last of
them has to be a line feed. -/
def ReadableLine (l : Bytes) : Prop := l.length < 65536 ∨ (l.length = 65536 ∧ l.getLast? = some 10)

/-- A metadata line: it starts with the comment sign, a space and `jess-`. -/
def IsMeta (sign l : Bytes) : Prop := (sign ++ b!" jess-") <+: l

instance (sign l : Bytes) : Decidable (IsMeta sign l) := by unfold IsMeta; infer_instance

/-- `c` is `s` without the space characters at both ends. -/
def TrimOf (s c : Bytes) : Prop := Trimmed c ∧ ∃ a b, Blank a ∧ Blank b ∧ s = a ++ c ++ b

/-- The text `data` consists of the content `c` and the metadata lines `ms` (without comment sign and surrounding space). -/
def TextFile (data sign c : Bytes) (ms : List Bytes) : Prop :=
  ∃ ls : List Bytes, IsLines ls ∧ ls.flatten = data ∧ (∀ l ∈ ls, ReadableLine l) ∧
    TrimOf (ls.filter (fun l => decide (¬ IsMeta sign l))).flatten c ∧
    All2 (fun l m => ∃ r, l = sign ++ r ∧ TrimOf r m) (ls.filter (fun l => decide (IsMeta sign l))) ms

/-- A checksum line has a well-formed labeled hash as value, and it is the hash of the content. -/
def ChecksumMatches (H : Hashes) (c m : Bytes) : Prop :=
  ∃ h : LabeledHash, lhashFromBase58 (checksumValue m) = .ok h ∧ h.digest = H h.alg c

/-! ## The model meets the specification -/

theorem scanLine_iff (l : Bytes) : scanLine l = true ↔ ReadableLine l := by
  unfold scanLine ReadableLine
  split
  · rename_i h; simp [h]; omega
  · rename_i h; simp [h]

theorem trimOf_iff (s c : Bytes) : TrimOf s c ↔ trimSpace s = c := by
  constructor
  · rintro ⟨hc, a, b, ha, hb, rfl⟩; exact trimSpace_of ha hb hc
  · rintro rfl; exact ⟨(trimSpace_spec s).2, (trimSpace_spec s).1⟩

theorem isMeta_iff (sign l : Bytes) : hasPrefix l (metaPrefix sign) = decide (IsMeta sign l) := by
  have : hasPrefix l (metaPrefix sign) = true ↔ IsMeta sign l := hasPrefix_iff
  by_cases h : IsMeta sign l
  · simp [h, this]
  · have : ¬ hasPrefix l (metaPrefix sign) = true := fun x => h (this.1 x)
    simp [h, this]

theorem metaLine_of {sign l : Bytes} (h : IsMeta sign l) (m : Bytes) : (∃ r, l = sign ++ r ∧ TrimOf r m) ↔ metaLine sign l = m := by
  obtain ⟨t, rfl⟩ := h
  unfold metaLine trimPrefix
  rw [if_pos (hasPrefix_iff.2 ⟨b!" jess-" ++ t, by simp⟩)]
  constructor
  · rintro ⟨r, hr, ht⟩
    rw [hr, List.drop_left]
    exact (trimOf_iff r m).1 ht
  · intro ht
    refine ⟨b!" jess-" ++ t, by simp, (trimOf_iff _ _).2 ?_⟩
    simpa using ht

theorem scanLines_ok (data : Bytes) (ls : List Bytes) :
    scanLines data = .ok ls ↔ IsLines ls ∧ ls.flatten = data ∧ ∀ l ∈ ls, ReadableLine l := by
  unfold scanLines
  rw [← and_assoc, lines_unique]
  split
  · rename_i h
    rw [List.all_eq_true] at h
    constructor
    · intro e; cases e; exact ⟨rfl, fun l hl => (scanLine_iff l).1 (h l hl)⟩
    · rintro ⟨rfl, _⟩; rfl
  · rename_i h
    constructor
    · intro e; cases e
    · rintro ⟨rfl, h'⟩
      exact absurd (List.all_eq_true.2 fun l hl => (scanLine_iff l).2 (h' l hl)) h

/-- `textSplit` finds the content and the metadata lines of a text. -/
theorem textSplit_iff (data sign c : Bytes) (ms : List Bytes) : textSplit data sign = .ok (c, ms) ↔ TextFile data sign c ms := by
  have hfm : ∀ ls : List Bytes, ls.filter (fun l => hasPrefix l (metaPrefix sign)) = ls.filter (fun l => decide (IsMeta sign l)) := by
    intro ls; congr 1; funext l; exact isMeta_iff sign l
  have hfn : ∀ ls : List Bytes, ls.filter (fun l => !hasPrefix l (metaPrefix sign)) = ls.filter (fun l => decide (¬ IsMeta sign l)) := by
    intro ls; congr 1; funext l; rw [isMeta_iff sign l]; simp
  have hmap : ∀ ls ms : List Bytes, All2 (fun l m => ∃ r, l = sign ++ r ∧ TrimOf r m) (ls.filter (fun l => decide (IsMeta sign l))) ms ↔
      (ls.filter (fun l => decide (IsMeta sign l))).map (metaLine sign) = ms := by
    intro ls ms
    constructor
    · intro h
      have := All2.map_eq (f := metaLine sign) (g := id) (h.mono_mem (S := fun l m => metaLine sign l = id m) (fun l hl m _ hr => by
        have := (List.mem_filter.1 hl).2
        exact (metaLine_of (by simpa using this) m).1 hr))
      simpa using this
    · rintro rfl
      refine All2.map_right.2 (All2.refl_of fun l hl => ?_)
      have := (List.mem_filter.1 hl).2
      exact (metaLine_of (by simpa using this) _).2 rfl
  unfold textSplit TextFile
  cases hs : scanLines data with
  | error e =>
    constructor
    · intro h; cases h
    · rintro ⟨ls, h1, h2, h3, _⟩
      have := (scanLines_ok data ls).2 ⟨h1, h2, h3⟩
      rw [hs] at this; cases this
  | ok ls =>
    obtain ⟨h1, h2, h3⟩ := (scanLines_ok data ls).1 hs
    simp only [hfm, hfn, Except.ok.injEq, Prod.mk.injEq]
    constructor
    · rintro ⟨e1, e2⟩
      exact ⟨ls, h1, h2, h3, (trimOf_iff _ _).2 e1, (hmap ls ms).2 e2⟩
    · rintro ⟨ls', h1', h2', h3', e1, e2⟩
      have : ls' = ls := by
        have := (scanLines_ok data ls').2 ⟨h1', h2', h3'⟩
        rw [hs] at this; exact (Except.ok.inj this).symm
      subst this
      exact ⟨(trimOf_iff _ _).1 e1, (hmap ls' ms).1 e2⟩

theorem lhashLoad_valid {b : Bytes} {h : LabeledHash} (hl : lhashLoad b = .ok h) : h.Valid := by
  unfold lhashLoad at hl
  split at hl
  · cases hl
  · split at hl
    · cases hl
    · split at hl
      · cases hl
      · split at hl
        · cases hl
        · rename_i n hn
          split at hl
          · cases hl
          · rename_i hne
            cases hl
            refine (valid_iff _).2 ?_
            rw [hn]; simp at hne; rw [hne]

theorem fromBase58_valid {s : Bytes} {h : LabeledHash} (hl : lhashFromBase58 s = .ok h) : h.Valid := by
  unfold lhashFromBase58 at hl
  rw [bind_ok_iff] at hl
  obtain ⟨b, _, hb⟩ := hl
  exact lhashLoad_valid hb

theorem checkLine_iff (H : Hashes) (c m : Bytes) : checkLine H c m = .ok () ↔ ChecksumMatches H c m := by
  unfold checkLine ChecksumMatches
  simp only [bind_ok_iff]
  constructor
  · rintro ⟨h, h1, ok, h2, h3⟩
    refine ⟨h, h1, ?_⟩
    rw [(lhash_matches_iff H h (fromBase58_valid h1) c).1] at h2
    cases h2
    split at h3
    · rename_i h; simpa using h
    · cases h3
  · rintro ⟨h, h1, h2⟩
    refine ⟨h, h1, true, ?_, by simp⟩
    rw [(lhash_matches_iff H h (fromBase58_valid h1) c).1, h2]; simp

theorem checkLines_iff (H : Hashes) (c : Bytes) (ms : List Bytes) (n k : Nat) :
    checkLines H c ms n = .ok k ↔ (∀ m ∈ ms, textChecksumKey <+: m → ChecksumMatches H c m) ∧
      k = n + (ms.filter (fun m => hasPrefix m textChecksumKey)).length := by
  induction ms generalizing n with
  | nil => simp [checkLines, eq_comm]
  | cons m ms ih =>
    unfold checkLines
    split
    · rename_i hm
      rw [bind_ok_iff, List.filter_cons_of_pos (p := fun m => hasPrefix m textChecksumKey) hm]
      constructor
      · rintro ⟨u, h1, h2⟩
        rw [ih] at h2
        refine ⟨?_, by simp [h2.2]; omega⟩
        intro x hx hp
        rcases List.mem_cons.1 hx with rfl | hx
        · exact (checkLine_iff H c x).1 h1
        · exact h2.1 x hx hp
      · rintro ⟨h1, h2⟩
        refine ⟨(), (checkLine_iff H c m).2 (h1 m (by simp) (hasPrefix_iff.1 hm)), ?_⟩
        rw [ih]
        exact ⟨fun x hx hp => h1 x (by simp [hx]) hp, by simp at h2; omega⟩
    · rename_i hm
      rw [ih, List.filter_cons_of_neg (p := fun m => hasPrefix m textChecksumKey) hm]
      constructor
      · rintro ⟨h1, h2⟩
        refine ⟨?_, h2⟩
        intro x hx hp
        rcases List.mem_cons.1 hx with rfl | hx
        · exact absurd (hasPrefix_iff.2 hp) hm
        · exact h1 x hx hp
      · rintro ⟨h1, h2⟩
        exact ⟨fun x hx hp => h1 x (by simp [hx]) hp, h2⟩

/-! ## C39 -/

/-- C39. `VerifyTextFileChecksum` succeeds exactly if the text can be read, has at least one checksum line among its metadata lines,
and every checksum line matches the content. -/
theorem text_verify_iff (H : Hashes) (data sign : Bytes) : verifyTextChecksum H data sign = .ok () ↔
    ∃ c ms, TextFile data sign c ms ∧ (∃ m ∈ ms, textChecksumKey <+: m) ∧ ∀ m ∈ ms, textChecksumKey <+: m → ChecksumMatches H c m := by
  unfold verifyTextChecksum
  simp only [bind_ok_iff]
  constructor
  · rintro ⟨⟨c, ms⟩, h1, n, h2, h3⟩
    rw [checkLines_iff] at h2
    refine ⟨c, ms, (textSplit_iff data sign c ms).1 h1, ?_, h2.1⟩
    split at h3
    · cases h3
    · rename_i hn
      have h4 := h2.2
      have : (ms.filter (fun m => hasPrefix m textChecksumKey)).length ≠ 0 := by simp only at h4; omega
      obtain ⟨m, hm⟩ := List.exists_mem_of_length_pos (Nat.pos_of_ne_zero this)
      exact ⟨m, (List.mem_filter.1 hm).1, hasPrefix_iff.1 (List.mem_filter.1 hm).2⟩
  · rintro ⟨c, ms, h1, ⟨m, hm, hp⟩, h2⟩
    refine ⟨(c, ms), (textSplit_iff data sign c ms).2 h1, _, (checkLines_iff H c ms 0 _).2 ⟨h2, rfl⟩, ?_⟩
    have : m ∈ ms.filter (fun m => hasPrefix m textChecksumKey) := List.mem_filter.2 ⟨hm, hasPrefix_iff.2 hp⟩
    have := List.length_pos_of_mem this
    rw [if_neg (by omega)]

theorem textFile_unique {data sign c c' : Bytes} {ms ms' : List Bytes} (h : TextFile data sign c ms) (h' : TextFile data sign c' ms') :
    c = c' ∧ ms = ms' := by
  have h1 := (textSplit_iff _ _ _ _).2 h
  have h2 := (textSplit_iff _ _ _ _).2 h'
  rw [h1] at h2
  cases h2
  exact ⟨rfl, rfl⟩

/-- C39. Two texts that both verify and have a checksum line in common have the same content, unless their contents are a collision of a hash function. -/
theorem text_change_detected (H : Hashes) (data data' sign sign' c c' : Bytes) (hcf : ∀ alg, H alg c = H alg c' → c = c')
    (ms ms' : List Bytes) (hf : TextFile data sign c ms) (hf' : TextFile data' sign' c' ms')
    (hv : verifyTextChecksum H data sign = .ok ()) (hv' : verifyTextChecksum H data' sign' = .ok ())
    (m : Bytes) (hm : m ∈ ms) (hm' : m ∈ ms') (hk : textChecksumKey <+: m) : c = c' := by
  obtain ⟨d, ns, g, _, g2⟩ := (text_verify_iff H data sign).1 hv
  obtain ⟨d', ns', g', _, g2'⟩ := (text_verify_iff H data' sign').1 hv'
  obtain ⟨rfl, rfl⟩ := textFile_unique hf g
  obtain ⟨rfl, rfl⟩ := textFile_unique hf' g'
  obtain ⟨h, e1, e2⟩ := g2 m hm hk
  obtain ⟨h', e1', e2'⟩ := g2' m hm' hk
  rw [e1] at e1'
  cases e1'
  exact hcf _ (e2.symm.trans e2')

/-- C39. The verdict depends on the content and on which metadata lines there are only: not on where these are, in which order or
how often, how they are indented after the comment sign, on line endings after them, or on space at the ends of the text. -/
theorem text_verdict_invariant (H : Hashes) (data data' sign sign' c : Bytes) (ms ms' : List Bytes)
    (hf : TextFile data sign c ms) (hf' : TextFile data' sign' c ms') (hms : ∀ m, m ∈ ms ↔ m ∈ ms') :
    verifyTextChecksum H data sign = .ok () ↔ verifyTextChecksum H data' sign' = .ok () := by
  rw [text_verify_iff, text_verify_iff]
  constructor
  · rintro ⟨d, ns, g, ⟨m, hm, hk⟩, g2⟩
    obtain ⟨rfl, rfl⟩ := textFile_unique hf g
    exact ⟨c, ms', hf', ⟨m, (hms m).1 hm, hk⟩, fun x hx => g2 x ((hms x).2 hx)⟩
  · rintro ⟨d, ns, g, ⟨m, hm, hk⟩, g2⟩
    obtain ⟨rfl, rfl⟩ := textFile_unique hf' g
    exact ⟨c, ms, hf, ⟨m, (hms m).2 hm, hk⟩, fun x hx => g2 x ((hms x).1 hx)⟩

theorem fromBase58_noPanic (s : Bytes) : lhashFromBase58 s ≠ .error .panic := by
  unfold lhashFromBase58
  intro h
  rcases bind_error_iff.1 h with h | ⟨b, _, h⟩
  · unfold b58Decode at h
    split at h
    · cases h
    · split at h
      · rename_i e he
        cases h
        have : ∀ s : Bytes, b58Vals s ≠ .error .panic := by
          intro s
          induction s with
          | nil => simp [b58Vals]
          | cons a r ih =>
            unfold b58Vals
            split
            · simp
            · split
              · rename_i e he; intro h; cases h; exact ih he
              · simp
        exact this _ he
      · cases h
  · exact lhash_load_total b h

/-- C39. Verification never panics, whatever the text is. -/
theorem text_verify_total (H : Hashes) (data sign : Bytes) : verifyTextChecksum H data sign ≠ .error .panic := by
  have hc : ∀ c m, checkLine H c m ≠ .error .panic := by
    intro c m h
    unfold checkLine at h
    rcases bind_error_iff.1 h with h | ⟨l, h1, h⟩
    · exact fromBase58_noPanic _ h
    · rw [(lhash_matches_iff H l (fromBase58_valid h1) c).1] at h
      simp only [ok_bind] at h
      split at h <;> cases h
  have hcs : ∀ c ms n, checkLines H c ms n ≠ .error .panic := by
    intro c ms
    induction ms with
    | nil => intro n h; cases h
    | cons m ms ih =>
      intro n h
      unfold checkLines at h
      split at h
      · rcases bind_error_iff.1 h with h | ⟨_, _, h⟩
        · exact hc _ _ h
        · exact ih _ h
      · exact ih _ h
  intro h
  unfold verifyTextChecksum at h
  rcases bind_error_iff.1 h with h | ⟨⟨c, ms⟩, _, h⟩
  · unfold textSplit scanLines at h
    split at h
    · rename_i e he; cases h; split at he <;> cases he
    · cases h
  · rcases bind_error_iff.1 h with h | ⟨n, _, h⟩
    · exact hcs _ _ _ h
    · split at h <;> cases h

/-! ## C38: lemmas -/

/-- Strings without line feed in `t` have at most `k` bytes. -/
def Runs (k : Nat) (t : Bytes) : Prop := ∀ u v w : Bytes, t = u ++ v ++ w → 10 ∉ v → v.length ≤ k

theorem runs_infix {k : Nat} {a t b : Bytes} (h : Runs k (a ++ t ++ b)) : Runs k t := by
  intro u v w e hv
  exact h (a ++ u) v (w ++ b) (by rw [e]; simp) hv

theorem runs_of_lines {k : Nat} {ls : List Bytes} (h : IsLines ls) (hk : ∀ l ∈ ls, l.length ≤ k) : Runs k ls.flatten := by
  induction h with
  | nil => intro u v w e _; simp at e; simp [e]
  | @last l h1 h2 =>
    intro u v w e _
    have := hk l (by simp)
    simp at e
    rw [e] at this; simp at this; omega
  | @cons b ls h1 h2 ih =>
    intro u v w e hv
    have hb := hk (b ++ [10]) (by simp)
    have ih := ih (fun l hl => hk l (by simp [hl]))
    have hlen := congrArg List.length e
    rcases Nat.lt_or_ge b.length u.length with hu | hu
    · have hp : (b ++ [10]) <+: u := by
        refine List.prefix_of_prefix_length_le (l₃ := ((b ++ [10]) :: ls).flatten) ⟨ls.flatten, by simp⟩ ⟨v ++ w, by rw [e]; simp⟩ (by simp; omega)
      obtain ⟨u', rfl⟩ := hp
      refine ih u' v w ?_ hv
      simp only [List.flatten_cons, List.append_assoc] at e
      simpa using e
    · rcases Nat.lt_or_ge b.length (u ++ v).length with huv | huv
      · exfalso
        apply hv
        have h1 : ((b ++ [10]) :: ls).flatten[b.length]? = some 10 := by simp
        rw [e, List.getElem?_append_left huv, List.getElem?_append_right hu] at h1
        exact List.mem_of_getElem? h1
      · simp at huv hb ⊢; omega

theorem line_body {ls : List Bytes} (h : IsLines ls) {l : Bytes} (hl : l ∈ ls) : ∃ b : Bytes, 10 ∉ b ∧ (l = b ∨ l = b ++ [10]) := by
  induction h with
  | nil => cases hl
  | last h1 h2 => simp at hl; subst hl; exact ⟨_, h2, .inl rfl⟩
  | cons h1 h2 ih =>
    rcases List.mem_cons.1 hl with rfl | hl
    · exact ⟨_, h1, .inr rfl⟩
    · exact ih hl

theorem lines_of_runs {k : Nat} {t : Bytes} (h : Runs k t) : ∀ l ∈ rawLines t, l.length ≤ k + 1 ∧ (l.getLast? ≠ some 10 → l.length ≤ k) := by
  intro l hl
  obtain ⟨b, hb, he⟩ := line_body (rawLines_isLines t) hl
  obtain ⟨p, q, hpq⟩ := List.append_of_mem hl
  have ht : t = p.flatten ++ l ++ q.flatten := by rw [← rawLines_flatten t, hpq]; simp
  rcases he with rfl | rfl
  · have := h _ _ _ ht hb; exact ⟨by omega, fun _ => this⟩
  · have := h p.flatten b ([10] ++ q.flatten) (by rw [ht]; simp) hb
    simp; omega

theorem runs_snoc {k : Nat} {t : Bytes} (h : Runs k t) (z : UInt8) : Runs (k + 1) (t ++ [z]) := by
  intro u v w e hv
  have hlen := congrArg List.length e
  rcases List.eq_nil_or_concat v with rfl | ⟨v', y, rfl⟩
  · simp
  · have hp : (u ++ v') <+: t := by
      refine List.prefix_of_prefix_length_le (l₃ := t ++ [z]) ⟨[y] ++ w, by rw [e]; simp⟩ (List.prefix_append _ _) (by simp at hlen ⊢; omega)
    obtain ⟨w', rfl⟩ := hp
    have := h u v' w' rfl (by intro h; apply hv; simp [h])
    simp; exact this

theorem runs_snoc_lf {k : Nat} {t : Bytes} (h : Runs k t) : Runs k (t ++ [10]) := by
  intro u v w e hv
  have hlen := congrArg List.length e
  rcases List.eq_nil_or_concat w with rfl | ⟨w', y, rfl⟩
  · rcases List.eq_nil_or_concat v with rfl | ⟨v', y, rfl⟩
    · simp
    · exfalso
      apply hv
      have := congrArg List.getLast? e
      simp at this
      simp [this]
  · have hp : (u ++ v) <+: t := by
      refine List.prefix_of_prefix_length_le (l₃ := t ++ [10]) ⟨w' ++ [y], by rw [e]; simp⟩ (List.prefix_append _ _) (by simp at hlen ⊢; omega)
    obtain ⟨w', rfl⟩ := hp
    exact h u v w' rfl hv

theorem closed_lines {x : Bytes} (h : Closed x) : ∀ l ∈ rawLines x, l.getLast? = some 10 := by
  have key : ∀ ls, IsLines ls → Closed ls.flatten → ∀ l ∈ ls, l.getLast? = some 10 := by
    intro ls hls
    induction hls with
    | nil => intro _ l hl; cases hl
    | @last l h1 h2 =>
      intro hc l' hl
      simp at hl hc
      subst hl
      rcases hc with hc | hc
      · exact absurd hc h1
      · exact hc
    | @cons b ls h1 h2 ih =>
      intro hc l hl
      rcases List.mem_cons.1 hl with rfl | hl
      · simp
      · refine ih ?_ l hl
        by_cases he : ls.flatten = []
        · exact .inl he
        · right
          rcases hc with hc | hc
          · simp at hc
          · rw [List.flatten_cons, List.getLast?_append] at hc
            cases hg : ls.flatten.getLast? with
            | none => exact absurd (List.getLast?_eq_none_iff.1 hg) he
            | some z => rw [hg] at hc; simpa using hc
  exact key _ (rawLines_isLines x) (by rwa [rawLines_flatten])

theorem isLines_left {A B : List Bytes} (h : IsLines (A ++ B)) (hB : B ≠ []) : Closed A.flatten := by
  induction A with
  | nil => exact .inl rfl
  | cons a A ih =>
    have : a.getLast? = some 10 ∧ IsLines (A ++ B) := by
      rw [List.cons_append] at h
      generalize hL : A ++ B = L at h
      cases h with
      | last _ _ => simp at hL; exact absurd hL.2 hB
      | cons h1 h2 => exact ⟨by simp, hL ▸ h2⟩
    rw [List.flatten_cons]
    exact closed_append (.inr this.1) (ih this.2)

/-- The two line ends. -/
def IsLineEnd (le : Bytes) : Prop := le = [10] ∨ le = [13, 10]

theorem lineEndOf_is (d : Bytes) : IsLineEnd (lineEndOf d) := by
  unfold lineEndOf IsLineEnd
  repeat' split
  all_goals simp

theorem IsLineEnd.blank {le : Bytes} (h : IsLineEnd le) : Blank le := by
  rcases h with rfl | rfl
  · exact Blank.of_mem (by decide)
  · exact ⟨[[13], [10]], by decide, rfl⟩

theorem IsLineEnd.closed {le : Bytes} (h : IsLineEnd le) (x : Bytes) : Closed (x ++ le) := by
  rcases h with rfl | rfl <;> exact .inr (by simp)

/-- Metadata lines that can be written and read again. -/
structure GoodMeta (sign m : Bytes) : Prop where
  line : 10 ∉ m
  key : b!"jess-" <+: m
  trimmed : Trimmed m
  short : sign.length + 1 + m.length ≤ 65534

theorem code_head : ∀ k ∈ spaceCodes, ∀ b ∈ b!"jess-", k.head? ≠ some b := by decide +kernel

theorem blank_head {w : Bytes} (h : Blank w) (hne : w ≠ []) : ∀ b ∈ b!"jess-", w.head? ≠ some b := by
  obtain ⟨ws, hw, rfl⟩ := h
  cases ws with
  | nil => exact absurd rfl hne
  | cons c ws =>
    have hc := hw c (by simp)
    have := space_prefixFree.1 c hc
    cases c with
    | nil => exact absurd rfl this
    | cons a c => exact fun b hb => by simpa using code_head _ hc b hb

theorem goodMeta_of {sign l r m : Bytes} (hl : IsMeta sign l) (he : l = sign ++ r) (ht : TrimOf r m) {ls : List Bytes} (hls : IsLines ls)
    (hm : l ∈ ls) (hs : l.length ≤ 65534) : GoodMeta sign m := by
  obtain ⟨hT, a, b, ha, hb, hr⟩ := ht
  have hr2 : ∃ t, r = b!" jess-" ++ t := by
    obtain ⟨t, ht⟩ := hl
    rw [he, List.append_assoc] at ht
    exact ⟨t, (List.append_cancel_left ht).symm⟩
  obtain ⟨t, hr2⟩ := hr2
  have htl : trimLeft r = b!"jess-" ++ t := by
    unfold trimLeft
    rw [hr2]
    refine strip_unique _ space_prefixFree [[32]] _ (b!"jess-" ++ t) (by decide) ?_ (by simp)
    intro k hk hp
    have hne := space_prefixFree.1 k hk
    obtain ⟨x, hx⟩ := hp
    cases k with
    | nil => exact hne rfl
    | cons y k =>
      simp at hx
      exact code_head _ hk 106 (by decide) (by simp [hx.1])
  have hmt : m = trimRight (b!"jess-" ++ t) := by
    have := trimSpace_of ha hb hT
    rw [← hr] at this
    rw [← this, trimSpace, htl]
  have hkey : b!"jess-" <+: m := by
    obtain ⟨⟨w, hw, e⟩, _⟩ := trimRight_spec (b!"jess-" ++ t)
    rw [← hmt] at e
    rcases Nat.lt_or_ge m.length 5 with hlt | hge
    · exfalso
      have hlen := congrArg List.length e
      have hne : w ≠ [] := by rintro rfl; simp at hlen; omega
      have h1 : w.head? = (b!"jess-")[m.length]? := by
        have : (m ++ w)[m.length]? = (b!"jess-")[m.length]? := by
          rw [← e]; exact List.getElem?_append_left (by simpa using hlt)
        rw [List.getElem?_append_right (Nat.le_refl _)] at this
        simpa [List.head?_eq_getElem?] using this
      have h2 : (b!"jess-")[m.length]? = some ((b!"jess-")[m.length]'(by simpa using hlt)) := List.getElem?_eq_getElem _
      exact blank_head hw hne _ (List.getElem_mem (by simpa using hlt)) (h1.trans h2)
    · exact List.prefix_of_prefix_length_le (l₃ := b!"jess-" ++ t) (List.prefix_append _ _) ⟨w, e.symm⟩ (by simpa using hge)
  refine ⟨?_, hkey, hT, ?_⟩
  · intro h10
    obtain ⟨u, v, rfl⟩ := List.append_of_mem h10
    obtain ⟨bd, hbd, hlb⟩ := line_body hls hm
    have hl2 : l = (sign ++ a ++ u) ++ 10 :: (v ++ b) := by rw [he, hr]; simp
    rcases hlb with rfl | rfl
    · exact hbd (by rw [hl2]; simp)
    · have hv : v = [] := by
        rcases List.eq_nil_or_concat (v ++ b) with h | ⟨y, z, h⟩
        · exact (List.append_eq_nil_iff.1 h).1
        · exfalso
          rw [h] at hl2
          have h3 : bd ++ [10] = ((sign ++ a ++ u) ++ 10 :: y) ++ [z] := by rw [hl2]; simp
          have := (List.append_inj' h3 rfl).1
          exact hbd (by rw [this]; simp)
      subst hv
      exact (hT [10] (by decide)).2 ⟨u, rfl⟩
  · have ha1 : a ≠ [] := by
      rintro rfl
      obtain ⟨x, rfl⟩ := hkey
      rw [hr2] at hr
      simp at hr
    have : 0 < a.length := List.length_pos_iff.2 ha1
    rw [he, hr] at hs
    simp at hs
    omega

theorem toDigits_length {b : Nat} (hb : 2 ≤ b) : ∀ (k n : Nat), n < b ^ k → (toDigits b n).length ≤ k
  | 0, n, h => by
    have : n = 0 := by simpa using h
    subst this; simp [toDigits_zero]
  | k + 1, n, h => by
    by_cases hn : n = 0
    · subst hn; simp [toDigits_zero]
    · rw [toDigits_pos hb hn]
      have := toDigits_length hb k (n / b) (by rw [Nat.div_lt_iff_lt_mul (by omega), ← Nat.pow_succ]; exact h)
      simp; omega

theorem ofDigits_bound (ds : List Nat) (h : ∀ d ∈ ds, d < 256) : ofDigits 256 ds < 256 ^ ds.length := by
  have key : ∀ (n : Nat) (ds : List Nat), ds.length = n → (∀ d ∈ ds, d < 256) → ofDigits 256 ds < 256 ^ n := by
    intro n
    induction n with
    | zero => intro ds h _; rw [List.length_eq_zero_iff.1 h]; simp [ofDigits]
    | succ n ih =>
      intro ds hl h
      rcases List.eq_nil_or_concat ds with rfl | ⟨ds', d, rfl⟩
      · simp at hl
      · rw [List.concat_eq_append, ofDigits_snoc]
        have h1 := ih ds' (by simpa using hl) (fun x hx => h x (by simp [hx]))
        have h2 := h d (by simp)
        rw [Nat.pow_succ]; omega
  exact key _ ds rfl h

theorem b58Encode_length (d : Bytes) : (b58Encode d).length ≤ 3 * d.length := by
  unfold b58Encode
  have h1 : leadingZeros (d.map UInt8.toNat) ≤ d.length := by
    unfold leadingZeros
    have := (List.takeWhile_sublist (· == 0) (l := d.map UInt8.toNat)).length_le
    simpa using this
  have h2 : (toDigits 58 (ofDigits 256 (d.map UInt8.toNat))).length ≤ 2 * d.length := by
    refine toDigits_length (by omega) _ _ ?_
    have := ofDigits_bound (d.map UInt8.toNat) (by intro x hx; obtain ⟨b, _, rfl⟩ := List.mem_map.1 hx; exact u8_lt b)
    rw [List.length_map] at this
    refine Nat.lt_of_lt_of_le this ?_
    rw [Nat.pow_mul]
    exact Nat.pow_le_pow_left (by decide) _
  simp
  omega

theorem b58Char_visible : ∀ n < 58, 48 ≤ b58Char n ∧ b58Char n ≤ 126 := by decide +kernel

theorem b58Char_delim : ∀ n < 58, (b!":= ").contains (b58Char n) = false := by decide +kernel

theorem b58Encode_visible (d : Bytes) : ∀ x ∈ b58Encode d, 48 ≤ x ∧ x ≤ 126 := by
  intro x hx
  unfold b58Encode at hx
  obtain ⟨g, hg, rfl⟩ := List.mem_map.1 hx
  exact b58Char_visible g (b58Digits_lt d g hg)

theorem lhash_bytes_ne (h : LabeledHash) : h.bytes ≠ [] := by
  unfold LabeledHash.bytes block
  intro e
  have h1 := (List.append_eq_nil_iff.1 e).1
  exact pack64_ne_nil _ h1

theorem dropWhile_none {p : UInt8 → Bool} {l : Bytes} (h : ∀ x ∈ l, p x = false) : l.dropWhile p = l := by
  cases l with
  | nil => rfl
  | cons a l => rw [List.dropWhile_cons_of_neg (by simp [h a (by simp)])]

theorem trimmed_of_visible {c : Bytes} (h1 : ∀ x ∈ c, 33 ≤ x ∧ x ≤ 126) : Trimmed c :=
  trimmed_of_ends (fun _ h => h1 _ (List.mem_of_mem_head? (by simp [h]))) (fun _ h => h1 _ (List.mem_of_mem_getLast? (by simp [h])))

theorem u8_ge {x : UInt8} (h : 48 ≤ x ∧ x ≤ 126) : 33 ≤ x ∧ x ≤ 126 :=
  ⟨by have := h.1; rw [UInt8.le_iff_toNat_le] at *; simp at *; omega, h.2⟩

theorem checksumLine_value (h : LabeledHash) : checksumValue (checksumLine h) = h.base58 := by
  have hvis := b58Encode_visible h.bytes
  unfold checksumValue checksumLine trimPrefix
  rw [if_pos (hasPrefix_iff.2 ⟨b!": " ++ h.base58, by simp⟩), List.append_assoc, List.drop_left]
  rw [trimSpace_trimmed]
  · have hset : ∀ x ∈ h.base58, (b!":= ").contains x = false := by
      intro x hx
      unfold LabeledHash.base58 b58Encode at hx
      obtain ⟨g, hg, rfl⟩ := List.mem_map.1 hx
      exact b58Char_delim g (b58Digits_lt h.bytes g hg)
    unfold trimSet
    have h1 : (b!": " ++ h.base58).dropWhile (b!":= ".contains ·) = h.base58 := by
      rw [List.cons_append, List.dropWhile_cons_of_pos (by decide), List.cons_append, List.dropWhile_cons_of_pos (by decide)]
      exact dropWhile_none hset
    rw [h1, dropWhile_none (by intro x hx; exact hset x (by simpa using hx)), List.reverse_reverse]
  · have hne := b58Encode_ne_nil (lhash_bytes_ne h)
    refine trimmed_of_ends ?_ ?_
    · intro x hx; simp at hx; subst hx; decide
    · intro x hx
      rw [List.getLast?_append] at hx
      cases hg : h.base58.getLast? with
      | none => exact absurd (List.getLast?_eq_none_iff.1 hg) hne
      | some y =>
        rw [hg] at hx
        simp at hx
        subst hx
        exact u8_ge (hvis _ (List.mem_of_mem_getLast? hg))

theorem checksumLine_good (h : LabeledHash) (hl : h.bytes.length ≤ 100) (sign : Bytes) (hs : sign.length ≤ 65000) : GoodMeta sign (checksumLine h) := by
  have hvis := b58Encode_visible h.bytes
  have hlen := b58Encode_length h.bytes
  have hne := b58Encode_ne_nil (lhash_bytes_ne h)
  refine ⟨?_, ⟨b!"checksum: " ++ h.base58, by simp [checksumLine, textChecksumKey]⟩, ?_, ?_⟩
  · unfold checksumLine
    rw [List.mem_append]
    rintro (h10 | h10)
    · revert h10; decide
    · have := (hvis 10 h10).1
      revert this; decide
  · refine trimmed_of_ends ?_ ?_
    · intro x hx; simp [checksumLine, textChecksumKey] at hx; subst hx; decide
    · intro x hx
      unfold checksumLine at hx
      rw [List.getLast?_append] at hx
      cases hg : h.base58.getLast? with
      | none => exact absurd (List.getLast?_eq_none_iff.1 hg) hne
      | some y =>
        rw [hg] at hx
        simp at hx
        subst hx
        exact u8_ge (hvis _ (List.mem_of_mem_getLast? hg))
  · simp only [checksumLine, textChecksumKey, LabeledHash.base58, List.length_append, List.length_cons, List.length_nil]
    omega

theorem metaText_lines {sign le : Bytes} (hs : 10 ∉ sign) (hle : IsLineEnd le) : ∀ ms : List Bytes, (∀ m ∈ ms, GoodMeta sign m) →
    IsLines (ms.map (fun m => sign ++ b!" " ++ m ++ le)) ∧ (ms.map (fun m => sign ++ b!" " ++ m ++ le)).flatten = metaText ms sign le ∧
    Closed (metaText ms sign le)
  | [], _ => ⟨.nil, rfl, .inl rfl⟩
  | m :: ms, h => by
    obtain ⟨h1, h2, h3⟩ := metaText_lines hs hle ms (fun x hx => h x (by simp [hx]))
    have hm := (h m (by simp)).line
    refine ⟨?_, ?_, ?_⟩
    · rw [List.map_cons]
      rcases hle with rfl | rfl
      · exact .cons (by simp [hs, hm]) h1
      · have := IsLines.cons (b := sign ++ b!" " ++ m ++ [13]) (by simp [hs, hm]) h1
        simpa using this
    · rw [List.map_cons, List.flatten_cons, h2]; rfl
    · have : metaText (m :: ms) sign le = (sign ++ b!" " ++ m ++ le) ++ metaText ms sign le := rfl
      rw [this]
      exact closed_append (hle.closed _) h3

/-- Put metadata lines between lines of a text. -/
theorem assemble {X Y c sign le : Bytes} {ms : List Bytes} (hs : 10 ∉ sign) (hle : IsLineEnd le) (hms : ∀ m ∈ ms, GoodMeta sign m) (hX : Closed X)
    (hXY : ∀ l ∈ rawLines (X ++ Y), ¬ IsMeta sign l ∧ ReadableLine l) (ht : TrimOf (X ++ Y) c) :
    TextFile (X ++ metaText ms sign le ++ Y) sign c ms := by
  obtain ⟨h1, h2, h3⟩ := metaText_lines hs hle ms hms
  rw [rawLines_append hX] at hXY
  have hno : ∀ l ∈ rawLines X, ¬ IsMeta sign l := fun l hl => (hXY l (by simp [hl])).1
  have hno' : ∀ l ∈ rawLines Y, ¬ IsMeta sign l := fun l hl => (hXY l (by simp [hl])).1
  have hyes : ∀ l ∈ ms.map (fun m => sign ++ b!" " ++ m ++ le), IsMeta sign l := by
    intro l hl
    obtain ⟨m, hm, rfl⟩ := List.mem_map.1 hl
    obtain ⟨t, rfl⟩ := (hms m hm).key
    exact ⟨t ++ le, by simp⟩
  have hraw : rawLines (X ++ metaText ms sign le ++ Y) = rawLines X ++ ms.map (fun m => sign ++ b!" " ++ m ++ le) ++ rawLines Y := by
    rw [rawLines_append (closed_append hX h3), rawLines_append hX, ← h2, rawLines_of h1]
  refine ⟨rawLines X ++ ms.map (fun m => sign ++ b!" " ++ m ++ le) ++ rawLines Y, ?_, ?_, ?_, ?_, ?_⟩
  · rw [← hraw]; exact rawLines_isLines _
  · rw [← hraw]; exact rawLines_flatten _
  · intro l hl
    simp only [List.mem_append] at hl
    rcases hl with (hl | hl) | hl
    · exact (hXY l (by simp [hl])).2
    · obtain ⟨m, hm, rfl⟩ := List.mem_map.1 hl
      have hsh := (hms m hm).short
      unfold ReadableLine
      rcases hle with rfl | rfl
      · left; simp only [List.length_append, List.length_cons, List.length_nil]; omega
      · rcases Nat.lt_or_ge (sign.length + 1 + m.length + 2) 65536 with h | h
        · left; simp only [List.length_append, List.length_cons, List.length_nil]; omega
        · right
          refine ⟨?_, by rw [List.getLast?_append]; rfl⟩
          simp only [List.length_append, List.length_cons, List.length_nil]; omega
    · exact (hXY l (by simp [hl])).2
  · rw [List.filter_append, List.filter_append]
    rw [List.filter_eq_self (l := rawLines X).2 (fun l hl => by simp [hno l hl]), List.filter_eq_self (l := rawLines Y).2 (fun l hl => by simp [hno' l hl]),
      List.filter_eq_nil_iff (l := ms.map _).2 (fun l hl => by simp [hyes l hl])]
    simpa [rawLines_flatten] using ht
  · rw [List.filter_append, List.filter_append]
    rw [List.filter_eq_nil_iff (l := rawLines X).2 (fun l hl => by simpa using hno l hl), List.filter_eq_nil_iff (l := rawLines Y).2 (fun l hl => by simpa using hno' l hl),
      List.filter_eq_self (l := ms.map _).2 (fun l hl => by simpa using hyes l hl)]
    simp only [List.nil_append, List.append_nil]
    refine All2.map_left.2 (All2.refl_of fun m hm => ?_)
    exact ⟨b!" " ++ m ++ le, by simp, (hms m hm).trimmed, b!" ", le, Blank.of_mem (by decide), hle.blank, rfl⟩

theorem no_meta_lines {c sign le N : Bytes} (hs : 10 ∉ sign) (hle : IsLineEnd le) (hN : ∀ l ∈ rawLines N, ¬ IsMeta sign l)
    {a b : Bytes} (he : N = a ++ c ++ b) (hc : ¬ IsMeta sign c) : ∀ l ∈ rawLines (c ++ le), ¬ IsMeta sign l := by
  have hp10 : 10 ∉ sign ++ b!" jess-" := by simp [hs]
  have hpne : sign ++ b!" jess-" ≠ [] := by simp
  have hpre : ∀ q : Bytes, (q ++ b!"-") <+: (c ++ le) → (q ++ b!"-") <+: c := by
    intro q hq
    rcases Nat.lt_or_ge c.length (q ++ b!"-").length with hl | hl
    · exfalso
      obtain ⟨x, hx⟩ := List.prefix_of_prefix_length_le (List.prefix_append c le) hq (by omega)
      have hxl : x <+: le := by rw [← hx] at hq; exact (List.prefix_append_right_inj c).1 hq
      have hxne : x ≠ [] := by rintro rfl; simp at hx; rw [hx] at hl; simp at hl
      have hlast : x.getLast? = some 45 := by
        have := congrArg List.getLast? hx
        rw [List.getLast?_append] at this
        cases hg : x.getLast? with
        | none => exact absurd (List.getLast?_eq_none_iff.1 hg) hxne
        | some z => rw [hg] at this; simpa using this
      have hmem : (45 : UInt8) ∈ le := hxl.subset (List.mem_of_mem_getLast? hlast)
      rcases hle with rfl | rfl <;> revert hmem <;> decide
    · exact List.prefix_of_prefix_length_le hq (List.prefix_append c le) hl
  intro l hl hm
  obtain ⟨x, y, hx, hxy⟩ := (line_prefix_iff hpne hp10 _).1 ⟨l, hl, hm⟩
  have h1 : (x ++ sign ++ b!" jess" ++ b!"-") <+: c := hpre _ ⟨y, by rw [hxy]; simp⟩
  obtain ⟨y', hy'⟩ := h1
  rcases hx with rfl | hx
  · exact hc ⟨y', by rw [← hy']; simp⟩
  · obtain ⟨l', hl', hp'⟩ := (line_prefix_iff hpne hp10 N).2 ⟨a ++ x, y' ++ b, .inr (by rw [List.getLast?_append, hx]; rfl), by
      rw [he, ← hy']; simp⟩
    exact hN l' hl' hp'

theorem afterComment_spec (sign mt : Bytes) : ∀ ls : List Bytes,
    (∃ A B, ls = A ++ B ∧ B ≠ [] ∧ afterComment sign mt ls = (A.flatten ++ mt ++ B.flatten, true)) ∨
    ((∀ l ∈ ls, sign <+: l) ∧ afterComment sign mt ls = (ls.flatten, false))
  | [] => .inr ⟨by simp, rfl⟩
  | l :: ls => by
    unfold afterComment
    split
    · rename_i hl
      rcases afterComment_spec sign mt ls with ⟨A, B, h1, h2, h3⟩ | ⟨h1, h3⟩
      · exact .inl ⟨l :: A, B, by rw [h1]; rfl, h2, by rw [h3]; simp⟩
      · refine .inr ⟨?_, by rw [h3]; simp⟩
        intro x hx
        rcases List.mem_cons.1 hx with rfl | hx
        · exact hasPrefix_iff.1 hl
        · exact h1 x hx
    · exact .inl ⟨[], l :: ls, rfl, by simp, by simp⟩

/-- The conditions under which a checksum can be added to a text with content `c` and found again: the comment sign is on one line and
has at most 65000 bytes; no line of the text has more than 65534 bytes; the first line of the content does not become a metadata
line when the space before it is removed; the placement is a known one; and for placement after the top comment the content is empty
or not entirely a comment. -/
structure CanAdd (data sign c : Bytes) (p : Placement) : Prop where
  sign_line : 10 ∉ sign
  sign_short : sign.length ≤ 65000
  lines_short : ∀ ls : List Bytes, IsLines ls → ls.flatten = data → ∀ l ∈ ls, l.length ≤ 65534
  start : ¬ IsMeta sign c
  known : p ≠ .other
  comment : p = .afterComment ∨ p = .default → c = [] ∨ ∀ ls : List Bytes, IsLines ls → ls.flatten = c → ∃ l ∈ ls, ¬ sign <+: l

/-- Metadata lines of a text can be written again. -/
theorem textFile_good {data sign c : Bytes} {ms : List Bytes} (hf : TextFile data sign c ms)
    (hsh : ∀ ls : List Bytes, IsLines ls → ls.flatten = data → ∀ l ∈ ls, l.length ≤ 65534) : ∀ m ∈ ms, GoodMeta sign m := by
  obtain ⟨ls, h1, h2, _, _, h5⟩ := hf
  intro m hm
  obtain ⟨l, hl, r, he, ht⟩ := h5.mem_right hm
  have hl' := List.mem_filter.1 hl
  exact goodMeta_of (by simpa using hl'.2) he ht h1 hl'.1 (hsh ls h1 h2 l hl'.1)

/-- Writing metadata lines to a content and reading the result gives content and metadata lines back. -/
theorem textAddMeta_ok {data sign c : Bytes} {p : Placement} {ms ms' : List Bytes} (hf : TextFile data sign c ms) (hc : CanAdd data sign c p)
    (hms : ∀ m ∈ ms', GoodMeta sign m) : ∃ out, textAddMeta c ms' sign p = .ok out ∧ TextFile out sign c ms' := by
  obtain ⟨ls, h1, h2, h3, ⟨hT, a, b, ha, hb, he⟩, h5⟩ := hf
  have hle := lineEndOf_is c
  generalize hgl : lineEndOf c = le at hle
  have hnl : IsLines (ls.filter (fun l => decide (¬ IsMeta sign l))) := h1.filter _
  have hruns : Runs 65534 (ls.filter (fun l => decide (¬ IsMeta sign l))).flatten :=
    runs_of_lines hnl (fun l hl => hc.lines_short ls h1 h2 l (List.mem_filter.1 hl).1)
  have hrc : Runs 65534 c := by rw [he] at hruns; exact runs_infix hruns
  have hnm : ∀ l ∈ rawLines (c ++ le), ¬ IsMeta sign l := by
    refine no_meta_lines hc.sign_line hle ?_ he hc.start
    rw [rawLines_of hnl]
    intro l hl
    have := (List.mem_filter.1 hl).2
    simpa using this
  have hrd : ∀ l ∈ rawLines (c ++ le), ReadableLine l := by
    have hr : Runs 65535 (c ++ le) := by
      rcases hle with rfl | rfl
      · have : Runs 65534 (c ++ [10]) := runs_snoc_lf hrc
        exact fun u v w e hv => Nat.le_succ_of_le (this u v w e hv)
      · have := runs_snoc_lf (runs_snoc hrc 13)
        simpa using this
    intro l hl
    have h10 := closed_lines (hle.closed c) l hl
    have := (lines_of_runs hr l hl).1
    unfold ReadableLine
    rcases Nat.lt_or_ge l.length 65536 with h | h
    · exact .inl h
    · exact .inr ⟨by omega, h10⟩
  have htr : TrimOf (c ++ le) c := ⟨hT, [], le, Blank.nil, hle.blank, by simp⟩
  have hafter : (p = .afterComment ∨ p = .default) → ∃ out, textAddMeta c ms' sign p = .ok out ∧ TextFile out sign c ms' := by
    intro hp
    have hsc : scanLines c = .ok (rawLines c) := by
      refine (scanLines_ok c _).2 ⟨rawLines_isLines c, rawLines_flatten c, fun l hl => .inl ?_⟩
      have := (lines_of_runs hrc l hl).1
      omega
    have hform : textAddMeta c ms' sign p = .ok ((afterComment sign (metaText ms' sign le) (rawLines c)).1 ++
        (if (afterComment sign (metaText ms' sign le) (rawLines c)).2 then [] else metaText ms' sign le) ++ le) := by
      rcases hp with rfl | rfl <;> simp [textAddMeta, hsc, hgl]
    refine ⟨_, hform, ?_⟩
    rcases afterComment_spec sign (metaText ms' sign le) (rawLines c) with ⟨A, B, e1, e2, e3⟩ | ⟨e1, e3⟩
    · rw [e3]
      simp only [if_true, List.append_nil, List.append_assoc]
      rw [← List.append_assoc]
      have hAB : A.flatten ++ (B.flatten ++ le) = c ++ le := by
        have := rawLines_flatten c
        rw [e1] at this
        rw [← this]; simp
      refine assemble hc.sign_line hle hms (isLines_left (e1 ▸ rawLines_isLines c) e2) ?_ ?_
      · rw [hAB]; exact fun l hl => ⟨hnm l hl, hrd l hl⟩
      · rw [hAB]; exact htr
    · rw [e3]
      have hc0 : c = [] := by
        rcases hc.comment hp with h | h
        · exact h
        · obtain ⟨l, hl, hn⟩ := h (rawLines c) (rawLines_isLines c) (rawLines_flatten c)
          exact absurd (e1 l hl) hn
      subst hc0
      simp only [rawLines, List.flatten_nil, Bool.false_eq_true, if_false]
      refine assemble (X := []) hc.sign_line hle hms (.inl rfl) ?_ ?_
      · intro l hl; exact ⟨hnm l hl, hrd l hl⟩
      · exact htr
  cases p with
  | other => exact absurd rfl hc.known
  | top =>
    refine ⟨_, rfl, ?_⟩
    rw [hgl]
    have := assemble (X := []) (Y := c ++ le) hc.sign_line hle hms (.inl rfl) (fun l hl => ⟨hnm l hl, hrd l hl⟩) htr
    simpa using this
  | bottom =>
    refine ⟨_, rfl, ?_⟩
    rw [hgl]
    have hlel : rawLines le = [le] := by rcases hle with rfl | rfl <;> decide
    have := assemble (X := c ++ le ++ le) (Y := []) (c := c) hc.sign_line hle hms (hle.closed _) ?_ ?_
    · simpa using this
    · rw [List.append_nil, rawLines_append (hle.closed c), hlel]
      intro l hl
      rcases List.mem_append.1 hl with hl | hl
      · exact ⟨hnm l hl, hrd l hl⟩
      · simp at hl
        subst hl
        refine ⟨fun h => ?_, ?_⟩
        · have := h.length_le
          rcases hle with rfl | rfl <;> simp at this <;> omega
        · rcases hle with rfl | rfl <;> exact .inl (by decide)
    · exact ⟨hT, [], le ++ le, Blank.nil, Blank.append hle.blank hle.blank, by simp⟩
  | afterComment => exact hafter (.inl rfl)
  | default => exact hafter (.inr rfl)

/-- The labeled hash of a content. -/
def contentHash (H : Hashes) (c : Bytes) : LabeledHash := { alg := 25, digest := H 25 c }

theorem contentHash_valid (H : Hashes) (hH : H.Sized) (c : Bytes) : (contentHash H c).Valid ∧ (contentHash H c).bytes.length ≤ 100 := by
  have hl : (H 25 c).length = 32 := hH 25 32 (by decide) c
  refine ⟨(valid_iff _).2 (by simp only [contentHash, hl]; decide), ?_⟩
  unfold contentHash LabeledHash.bytes block
  rw [hl]
  have h1 : pack64 25 = [25] := by decide +kernel
  have h2 : pack64 32 = [32] := by decide +kernel
  rw [h1, h2]
  simp [hl]

theorem checksum_matches (H : Hashes) (hH : H.Sized) (c : Bytes) : ChecksumMatches H c (checksumLine (contentHash H c)) := by
  refine ⟨contentHash H c, ?_, rfl⟩
  rw [checksumLine_value]
  have hv := (contentHash_valid H hH c).1
  exact (lhash_text_round_trip _ hv).2.2

/-- C38 (conditional). Under the conditions `CanAdd`: a checksum can be added; the content does not change; the metadata lines are the
old ones and the new checksum line, in order; the result verifies exactly if the checksum lines that were there before match the
content; and adding a checksum again (with any placement) gives what adding it to the original text would give - in particular,
adding it again with the same placement changes nothing. -/
theorem text_checksum_round_trip_partial (H : Hashes) (hH : H.Sized) (data sign c : Bytes) (p : Placement) (ms : List Bytes)
    (hf : TextFile data sign c ms) (hc : CanAdd data sign c p) :
    ∃ out ms', addTextChecksum H data sign p = .ok out ∧ TextFile out sign c ms' ∧
      (∀ m, m ∈ ms' ↔ m ∈ ms ∨ m = checksumLine (contentHash H c)) ∧
      ms'.Pairwise (fun a b => strLe a b = true ∧ a ≠ b) ∧
      (verifyTextChecksum H out sign = .ok () ↔ ∀ m ∈ ms, textChecksumKey <+: m → ChecksumMatches H c m) ∧
      (∀ q, addTextChecksum H out sign q = addTextChecksum H data sign q) := by
  have hsp := (textSplit_iff _ _ _ _).2 hf
  have hcv := contentHash_valid H hH c
  have hgood : ∀ m ∈ compact (sortStrings (ms ++ [checksumLine (contentHash H c)])), GoodMeta sign m := by
    intro m hm
    rw [mem_compact, mem_sortStrings, List.mem_append, List.mem_singleton] at hm
    rcases hm with hm | rfl
    · exact textFile_good hf hc.lines_short m hm
    · exact checksumLine_good _ hcv.2 sign hc.sign_short
  have hmem : ∀ m, m ∈ compact (sortStrings (ms ++ [checksumLine (contentHash H c)])) ↔ m ∈ ms ∨ m = checksumLine (contentHash H c) := by
    intro m
    rw [mem_compact, mem_sortStrings, List.mem_append, List.mem_singleton]
  have hstrict := compact_strict _ (sortStrings_sorted (ms ++ [checksumLine (contentHash H c)]))
  obtain ⟨out, h1, h2⟩ := textAddMeta_ok hf hc hgood
  have hdig : lhashDigest H 25 c = .ok (contentHash H c) := rfl
  refine ⟨out, _, ?_, h2, hmem, hstrict, ?_, ?_⟩
  · simp only [addTextChecksum, hsp, ok_bind, hdig, h1]
  · rw [text_verify_iff]
    constructor
    · rintro ⟨c', ns, g1, _, g3⟩ m hm hk
      obtain ⟨rfl, rfl⟩ := textFile_unique h2 g1
      exact g3 m ((hmem m).2 (.inl hm)) hk
    · intro hall
      refine ⟨c, _, h2, ⟨checksumLine (contentHash H c), (hmem _).2 (.inr rfl), ⟨b!": " ++ (contentHash H c).base58, by simp [checksumLine]⟩⟩, ?_⟩
      intro m hm hk
      rcases (hmem m).1 hm with hm | rfl
      · exact hall m hm hk
      · exact checksum_matches H hH c
  · intro q
    have hsp2 := (textSplit_iff _ _ _ _).2 h2
    simp only [addTextChecksum, hsp, hsp2, ok_bind, hdig]
    congr 1
    refine strict_unique _ _ (compact_strict _ (sortStrings_sorted _)) hstrict ?_
    intro m
    rw [mem_compact, mem_sortStrings, List.mem_append, List.mem_singleton, hmem m]
    grind

/-- Add a checksum and verify the result. -/
def addThenVerify (H : Hashes) (data sign : Bytes) (p : Placement) : Res Unit := do
  let out ← addTextChecksum H data sign p
  verifyTextChecksum H out sign

/-- C38 is refuted in general: each condition of `text_checksum_round_trip_partial` is needed. A checksum is added without error, but the
result does not verify: (1) an old checksum line is kept, although the content was changed; (2) the content is all comment, and the
checksum is glued to its last line; (3) the same with an empty comment sign; (4) an indented metadata line becomes one when the space
is removed; (5) with an unknown placement the text is dropped; (6) the comment sign has a line feed. -/
theorem text_checksum_refuted :
    addThenVerify toyHashes b!"# jess-checksum: 1\nhello\n" b!"#" .top = .error .short ∧
    addThenVerify toyHashes b!"# hello" b!"#" .default = .error .missing ∧
    addThenVerify toyHashes b!"hello" b!"" .default = .error .missing ∧
    addThenVerify toyHashes b!" # jess-note\n" b!"#" .top = .error .integrity ∧
    addTextChecksum toyHashes b!"hello" b!"#" .other = .ok [] ∧
    addThenVerify toyHashes b!"hello" b!"#\n" .top = .error .missing := by
  decide +kernel

/-- The hypotheses of the theorems are met: a text with a comment, a metadata line and content, for every placement. -/
theorem text_checksum_example :
    (textSplit b!"# top\r\n# jess-note: x \r\nkey: 1\r\n" b!"#" = .ok (b!"# top\r\nkey: 1", [b!"jess-note: x"])) ∧
    (∀ p ∈ [Placement.top, .bottom, .afterComment, .default],
      addThenVerify toyHashes b!"# top\r\n# jess-note: x \r\nkey: 1\r\n" b!"#" p = .ok ()) := by
  decide +kernel

theorem text_can_add_example : TextFile b!"# top\nkey: 1\n" b!"#" b!"# top\nkey: 1" [] ∧
    CanAdd b!"# top\nkey: 1\n" b!"#" b!"# top\nkey: 1" .default := by
  refine ⟨(textSplit_iff _ _ _ _).1 (by decide +kernel), by decide, by decide, ?_, by decide, by decide, fun _ => .inr ?_⟩
  · intro ls h1 h2 l hl
    have := lines_unique.1 ⟨h1, h2⟩
    rw [← this] at hl
    revert l
    decide +kernel
  · intro ls h1 h2
    have := lines_unique.1 ⟨h1, h2⟩
    rw [← this]
    decide +kernel

/-- C39. A change of the content is detected, a change of the surroundings is not. -/
theorem text_verify_example :
    verifyTextChecksum toyHashes b!"# jess-checksum: zKo\nhello" b!"#" ≠ .ok () ∧
    verifyTextChecksum toyHashes b!"hello" b!"#" = .error .missing := by
  decide +kernel

end Jess
