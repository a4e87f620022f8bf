import Verif.Lemmas.Rows
import Verif.Lemmas.Encoding

/-! # C69: a dialog acts on the entry that was chosen -/

namespace Jess

/-! ## Specification -/

/-- A text that stays on the line. -/
def NoFeed (x : Bytes) : Prop := 10 ∉ x ∧ 12 ∉ x

/-- A signet whose line in the dialogs is one line that ends with the ID: the name and the scheme contain no line breaks, and the ID is
a word. (The IDs of `jess generate` are words. The trust stores also permit IDs with blanks.) -/
structure PlainSignet (s : Signet) : Prop where
  name : NoFeed (formatSignetName s)
  scheme : NoFeed s.scheme
  id : IsWord s.id

/-- A name that looks like the entry "Done" of the list. -/
def LooksDone (n : Bytes) : Prop := ∃ rest, n = b!"Done" ++ rest ∧ ∀ c ∈ rest.head?, c = 32 ∨ c = 9 ∨ c = 11

/-- The lines of `jess manage` for signets: first "Done", then the signets. -/
def signetLines (E : DlgEnv) (S : List Signet) : List Bytes := formatColumns E.pad ([b!"Done"] :: S.map (signetRow E.P))

/-! ## Rows -/

theorem IsWord.no {w : Bytes} (h : IsWord w) {b : UInt8} (hb : [b] ∈ spaceCodes) : b ∉ w := by
  intro hm
  obtain ⟨s, t, hst⟩ := List.append_of_mem hm
  exact h.2 [b] hb ⟨s, t, by simp [hst]⟩

theorem IsWord.noFeed {w : Bytes} (h : IsWord w) : NoFeed w := ⟨h.no (by decide), h.no (by decide)⟩

theorem IsWord.noTab {w : Bytes} (h : IsWord w) : ∀ c ∈ w, (c == 9 || c == 11) = false := by
  intro c hc
  have a : c ≠ 9 := fun he => h.no (b := 9) (by decide) (he ▸ hc)
  have b : c ≠ 11 := fun he => h.no (b := 11) (by decide) (he ▸ hc)
  simp [a, b]

theorem noFeed_nil : NoFeed [] := ⟨by simp, by simp⟩

theorem NoFeed.append {a b : Bytes} (ha : NoFeed a) (hb : NoFeed b) : NoFeed (a ++ b) :=
  ⟨by simp [ha.1, hb.1], by simp [ha.2, hb.2]⟩

theorem decimal_bytes (n : Int) : ∀ b ∈ decimal n, b = 45 ∨ (48 ≤ b ∧ b ≤ 57) := by
  intro b hb
  unfold decimal at hb
  rw [List.mem_append] at hb
  rcases hb with hb | hb
  · split at hb
    · simp only [List.mem_singleton] at hb; exact Or.inl hb
    · cases hb
  · right
    split at hb
    · simp only [List.mem_singleton] at hb; subst hb; decide
    · obtain ⟨d, hd, rfl⟩ := List.mem_map.1 hb
      have := toDigits_lt (b := 10) (by omega) _ d hd
      have key : ∀ k : Fin 10, (48 : UInt8) ≤ UInt8.ofNat (48 + k.1) ∧ UInt8.ofNat (48 + k.1) ≤ 57 := by decide
      exact key ⟨d, this⟩

theorem noFeed_decimal (n : Int) : NoFeed (decimal n) := by
  constructor <;> intro h <;> rcases decimal_bytes n _ h with h | h <;> revert h <;> decide

theorem noFeed_level (n : Int) : NoFeed (formatSecurityLevel n) := (noFeed_decimal n).append ⟨by decide, by decide⟩

theorem signetRow_oneLine (P : Prims) {s : Signet} (h : PlainSignet s) : OneLine (signetRow P s) where
  ne := by simp [signetRow]
  feeds := by
    intro x hx
    simp only [signetRow, List.mem_cons, List.not_mem_nil, or_false] at hx
    rcases hx with rfl | rfl | rfl | rfl | rfl | rfl
    · exact h.name
    · unfold formatSignetType; split
      · decide
      · split
        · decide
        · split <;> decide
    · unfold formatSignetScheme; split
      · exact noFeed_nil
      · exact h.scheme
    · unfold formatSignetPurpose; split
      · exact noFeed_nil
      · split
        · decide
        · rename_i t _; cases t.purpose <;> decide
    · unfold formatSignetSecurityLevel; split
      · exact noFeed_nil
      · split
        · decide
        · split
          · decide
          · decide
          · exact noFeed_level _
    · exact h.id.noFeed
  ret := by
    intro x hx
    simp only [signetRow, List.getLast?_cons_cons, List.getLast?_singleton, Option.mem_def, Option.some.injEq] at hx
    subst hx
    exact h.id.no (by decide)

theorem cellsOf_append_word (init : List Bytes) {w : Bytes} (h : IsWord w) : cellsOf (init ++ [w]) = cellsOf init ++ [w] := by
  simp only [cellsOf, List.flatMap_append, List.flatMap_singleton]
  rw [splitBytes_none h.noTab]

/-- The last word of a signet's line is its ID. -/
theorem line_id (P : Prims) {s : Signet} (h : PlainSignet s) (pad : Nat → Nat) :
    (fields (padCells pad (cellsOf (signetRow P s)))).getLast? = some s.id := by
  have : signetRow P s = [formatSignetName s, formatSignetType s, formatSignetScheme s, formatSignetPurpose s,
    formatSignetSecurityLevel P s] ++ [s.id] := rfl
  rw [fields_cells, this, cellsOf_append_word _ h.id, List.flatMap_append, List.flatMap_singleton, fields_word h.id]
  simp

theorem done_word : IsWord b!"Done" := by
  refine ⟨by decide, ?_⟩
  decide

/-- The lines: one for each signet, after "Done". -/
theorem signetLines_eq {E : DlgEnv} {S : List Signet} (hS : ∀ s ∈ S, PlainSignet s) (hne : signetLines E S ≠ []) :
    signetLines E S = padLines (E.pad ([b!"Done"] :: S.map (signetRow E.P))) 0 (([b!"Done"] :: S.map (signetRow E.P)).map cellsOf) := by
  have h1 : ∀ r ∈ [b!"Done"] :: S.map (signetRow E.P), OneLine r := by
    intro r hr
    rcases List.mem_cons.1 hr with rfl | hr
    · exact ⟨by simp, by decide, by decide⟩
    · obtain ⟨s, hs, rfl⟩ := List.mem_map.1 hr
      exact signetRow_oneLine E.P (hS s hs)
  have h2 : ∀ r ∈ ([b!"Done"] :: S.map (signetRow E.P)).getLast?, r ≠ [[]] := by
    intro r hr
    have := List.mem_of_getLast? hr
    rcases List.mem_cons.1 this with rfl | hm
    · decide
    · obtain ⟨s, hs, rfl⟩ := List.mem_map.1 hm
      simp [signetRow]
  rcases formatColumns_rows h1 h2 E.pad with h | h
  · exact absurd h hne
  · exact h

theorem signetLines_get {E : DlgEnv} {S : List Signet} (hS : ∀ s ∈ S, PlainSignet s) (hne : signetLines E S ≠ []) {i : Nat} {s : Signet}
    (hi : S[i]? = some s) : ∃ pad, (signetLines E S)[i + 1]? = some (padCells pad (cellsOf (signetRow E.P s))) := by
  refine ⟨E.pad ([b!"Done"] :: S.map (signetRow E.P)) (i + 1), ?_⟩
  rw [signetLines_eq hS hne, padLines_get]
  simp [hi]

theorem signetLines_done {E : DlgEnv} {S : List Signet} (hS : ∀ s ∈ S, PlainSignet s) (hne : signetLines E S ≠ []) :
    (signetLines E S)[0]? = some b!"Done" := by
  rw [signetLines_eq hS hne, padLines_get]
  simp [cellsOf, splitBytes, padCells]

/-- A line that looks like "Done" has a name that looks like it. -/
theorem looksDone_of_line (P : Prims) {s : Signet} {pad : Nat → Nat}
    (h : hasPrefix (padCells pad (cellsOf (signetRow P s))) (b!"Done" ++ [32]) = true) : LooksDone (formatSignetName s) := by
  simp only [hasPrefix, List.isPrefixOf_iff_prefix] at h
  -- the name up to a tab
  have key : ∀ (n : Bytes) (rest : List Bytes), rest ≠ [] → ∀ pad : Nat → Nat,
      ∃ p q r, n = p ++ q ∧ (∀ c ∈ q.head?, c = 9 ∨ c = 11) ∧
        padCells pad (splitBytes (fun c => c == 9 || c == 11) n ++ rest) = p ++ 32 :: r := by
    intro n
    induction n with
    | nil =>
      intro rest hr pad
      cases rest with
      | nil => exact absurd rfl hr
      | cons y ys =>
        refine ⟨[], [], List.replicate (2 + pad 0) 32 ++ padCells (fun j => pad (j + 1)) (y :: ys), rfl, by simp, ?_⟩
        have : 3 + pad 0 = (2 + pad 0) + 1 := by omega
        simp only [splitBytes, List.cons_append, List.nil_append, padCells, this, List.replicate_succ]
    | cons c n ih =>
      intro rest hr pad
      by_cases hc : (c == 9 || c == 11) = true
      · refine ⟨[], c :: n, List.replicate (2 + pad 0) 32 ++
          padCells (fun j => pad (j + 1)) (splitBytes (fun c => c == 9 || c == 11) n ++ rest), rfl, ?_, ?_⟩
        · intro d hd
          simp only [List.head?_cons, Option.mem_def, Option.some.injEq] at hd
          subst hd
          simpa using hc
        · have : 3 + pad 0 = (2 + pad 0) + 1 := by omega
          simp only [splitBytes, hc, if_true, List.cons_append, List.nil_append]
          have hne : splitBytes (fun c => c == 9 || c == 11) n ++ rest ≠ [] := by simp [hr]
          generalize splitBytes (fun c => c == 9 || c == 11) n ++ rest = l at *
          cases l with
          | nil => exact absurd rfl hne
          | cons y ys => simp only [padCells, this, List.replicate_succ, List.nil_append, List.cons_append]
      · obtain ⟨p, q, r, h1, h2, h3⟩ := ih rest hr pad
        refine ⟨c :: p, q, r, by rw [h1]; rfl, h2, ?_⟩
        have hc' : (c == 9 || c == 11) = false := by simpa using hc
        simp only [splitBytes, hc', Bool.false_eq_true, if_false]
        have hne := splitBytes_ne (fun c => c == 9 || c == 11) n
        generalize splitBytes (fun c => c == 9 || c == 11) n = l at *
        cases l with
        | nil => exact absurd rfl hne
        | cons y ys =>
          simp only [List.cons_append] at h3 ⊢
          generalize hz : ys ++ rest = z at *
          cases z with
          | nil => simp [hr] at hz
          | cons u us =>
            simp only [padCells, List.cons_append] at h3 ⊢
            rw [h3]
  have hrow : cellsOf (signetRow P s) = splitBytes (fun c => c == 9 || c == 11) (formatSignetName s) ++
      cellsOf [formatSignetType s, formatSignetScheme s, formatSignetPurpose s, formatSignetSecurityLevel P s, s.id] := by
    simp [cellsOf, signetRow]
  rw [hrow] at h
  obtain ⟨p, q, r, h1, h2, h3⟩ := key (formatSignetName s)
    (cellsOf [formatSignetType s, formatSignetScheme s, formatSignetPurpose s, formatSignetSecurityLevel P s, s.id])
    (cellsOf_ne (List.cons_ne_nil _ _)) pad
  rw [h3] at h
  rw [h1]
  match p, h with
  | [], h => rw [List.prefix_iff_eq_take] at h; simp at h
  | [a], h =>
    rw [List.prefix_iff_eq_take] at h; simp at h
  | [a, b], h =>
    rw [List.prefix_iff_eq_take] at h; simp at h
  | [a, b, c], h =>
    rw [List.prefix_iff_eq_take] at h; simp at h
  | [a, b, c, d], h =>
    rw [List.prefix_iff_eq_take] at h
    simp only [List.length_append, List.length_cons, List.length_nil, Nat.reduceAdd, List.cons_append, List.nil_append, List.take_succ_cons,
      List.take_zero, List.cons.injEq, and_true] at h
    obtain ⟨ha, hb, hc, hd⟩ := h
    subst ha hb hc hd
    exact ⟨q, by simp, fun c hc => Or.inr (h2 c hc)⟩
  | a :: b :: c :: d :: e :: p, h =>
    rw [List.prefix_iff_eq_take] at h
    simp only [List.length_append, List.length_cons, List.length_nil, Nat.reduceAdd, List.cons_append, List.nil_append, List.take_succ_cons,
      List.take_zero, List.cons.injEq, and_true] at h
    obtain ⟨ha, hb, hc, hd, he⟩ := h
    subst ha hb hc hd he
    refine ⟨32 :: (p ++ q), by simp, by simp⟩

/-! ## C69: signets -/

theorem pickOne_eq (E : DlgEnv) (S : List Signet) (row : Option Nat) :
    pickOne E S b!"Done" row =
      match row.bind (fun i => (signetLines E S)[i]?) with
      | none => .error .env
      | some line => if hasPrefix line (b!"Done" ++ [32]) then .ok [] else (signetOfLine S line).map Option.toList := rfl

/-- C69. The signet for a chosen line is the first one in the list with the ID that the line shows. -/
theorem pick_shows_id {E : DlgEnv} {S : List Signet} (hS : ∀ s ∈ S, PlainSignet s) (hne : signetLines E S ≠ []) {i : Nat} {s : Signet}
    (hi : S[i]? = some s) (hd : ¬ LooksDone (formatSignetName s)) :
    pickOne E S b!"Done" (some (i + 1)) = .ok (S.find? (fun t => t.id == s.id)).toList := by
  obtain ⟨pad, hl⟩ := signetLines_get hS hne hi
  rw [pickOne_eq, Option.bind_some, hl]
  have hm : s ∈ S := List.mem_of_getElem? hi
  have : hasPrefix (padCells pad (cellsOf (signetRow E.P s))) (b!"Done" ++ [32]) = false := by
    rw [Bool.eq_false_iff]; intro h; exact hd (looksDone_of_line E.P h)
  simp only [this, signetOfLine, line_id E.P (hS s hm)]
  rfl

theorem find_id {S : List Signet} {i : Nat} {s : Signet} (hi : S[i]? = some s) (hu : ∀ t ∈ S, t.id = s.id → t = s) :
    S.find? (fun t => t.id == s.id) = some s := by
  have hm : s ∈ S := List.mem_of_getElem? hi
  cases hf : S.find? (fun t => t.id == s.id) with
  | none => have := List.find?_eq_none.1 hf s hm; simp at this
  | some t =>
    have h1 := List.find?_some hf
    simp only [beq_iff_eq] at h1
    rw [hu t (List.mem_of_find?_eq_some hf) h1]

/-- C69, signets, for lists without a second entry of the same ID: what is picked is what was chosen. -/
theorem pick_chosen_partial {E : DlgEnv} {S : List Signet} (hS : ∀ s ∈ S, PlainSignet s) (hne : signetLines E S ≠ []) {i : Nat} {s : Signet}
    (hi : S[i]? = some s) (hd : ¬ LooksDone (formatSignetName s)) (hu : ∀ t ∈ S, t.id = s.id → t = s) :
    pickOne E S b!"Done" (some (i + 1)) = .ok [s] := by
  rw [pick_shows_id hS hne hi hd, find_id hi hu]
  rfl

/-- C69. Choosing "Done" picks nothing, unless a signet has the ID "Done". -/
theorem pick_done {E : DlgEnv} {S : List Signet} (hS : ∀ s ∈ S, PlainSignet s) (hne : signetLines E S ≠ []) (hd : ∀ s ∈ S, s.id ≠ b!"Done") :
    pickOne E S b!"Done" (some 0) = .ok [] := by
  rw [pickOne_eq, Option.bind_some, signetLines_done hS hne]
  have h1 : hasPrefix b!"Done" (b!"Done" ++ [32]) = false := by decide
  have h2 : S.find? (fun t => t.id == b!"Done") = none := by
    rw [List.find?_eq_none]; intro s hs; simpa using hd s hs
  have h3 : (fields b!"Done").getLast? = some b!"Done" := by rw [fields_word done_word]; rfl
  simp only [h1, signetOfLine, h3, h2]
  rfl

/-- C69. `jess manage`, signets: choosing a line and "Delete" deletes that signet (of that kind) and goes on; choosing "Back to list"
changes nothing. -/
theorem manage_deletes_chosen_partial {σ : Type} {E : DlgEnv} {T : Trust σ} {st : σ} {S : List Signet} (hsel : T.select st 0 [] = .ok S)
    (hS : ∀ s ∈ S, PlainSignet s) (hne : signetLines E S ≠ []) {i : Nat} {s : Signet} (hi : S[i]? = some s)
    (hd : ¬ LooksDone (formatSignetName s)) (hu : ∀ t ∈ S, t.id = s.id → t = s) (rounds : List (Option Nat × Option Nat)) :
    (manageSignets E T ((some (i + 1), some 0) :: rounds) st =
      match T.deleteSignet st s.id s.isPublic with
      | (st', .error x) => (st', .error x)
      | (st', .ok _) => manageSignets E T rounds st') ∧
    manageSignets E T ((some (i + 1), some 1) :: rounds) st = manageSignets E T rounds st := by
  have := pick_chosen_partial hS hne hi hd hu
  constructor
  · simp only [manageSignets, hsel, this]
    generalize T.deleteSignet st s.id s.isPublic = y
    obtain ⟨st', r⟩ := y
    cases r <;> rfl
  · simp only [manageSignets, hsel, this]

/-- C69. "Done" ends the dialog without changes. -/
theorem manage_done {σ : Type} {E : DlgEnv} {T : Trust σ} {st : σ} {S : List Signet} (hsel : T.select st 0 [] = .ok S)
    (hS : ∀ s ∈ S, PlainSignet s) (hne : signetLines E S ≠ []) (hd : ∀ s ∈ S, s.id ≠ b!"Done") (a : Option Nat)
    (rounds : List (Option Nat × Option Nat)) : manageSignets E T ((some 0, a) :: rounds) st = (st, .ok ()) := by
  simp only [manageSignets, hsel, pick_done hS hne hd]

/-! ## C69: selecting signets for an envelope -/

/-- The signets offered in the dialog: the current ones of the envelope, then the others. -/
def offered (options pre : List Signet) : List Signet :=
  pre ++ options.filter (fun s => !pre.any (fun p => s.id == p.id && s.isPublic == p.isPublic))

/-- The offered signets whose lines were chosen. -/
def chosenOf (l : List Signet) (c : Nat → Bool) : List Signet := (l.zipIdx.filter (fun p => c p.2)).map (·.1)

theorem signetsOfLines_ids {S : List Signet} : ∀ l : List (Bytes × Bytes),
    (∀ p ∈ l, (fields p.1).getLast? = some p.2 ∧ ∃ s ∈ S, s.id = p.2) →
    ∃ picked, signetsOfLines S (l.map (·.1)) = .ok picked ∧ picked.map (·.id) = l.map (·.2) := by
  intro l
  induction l with
  | nil => intro _; exact ⟨[], rfl, rfl⟩
  | cons p l ih =>
    intro h
    obtain ⟨picked, h1, h2⟩ := ih (fun q hq => h q (by simp [hq]))
    obtain ⟨h3, s, hs, h4⟩ := h p (by simp)
    cases hf : S.find? (fun s => s.id == p.2) with
    | none => have := List.find?_eq_none.1 hf s hs; simp [h4] at this
    | some t =>
      have h5 := List.find?_some hf
      simp only [beq_iff_eq] at h5
      refine ⟨t :: picked, ?_, by simp [h2, h5]⟩
      simp only [List.map_cons, signetsOfLines, signetOfLine, h3, hf, h1]
      rfl

theorem padLines_zipIdx (pad : Nat → Nat → Nat) (P : Prims) : ∀ (S : List Signet) (i : Nat),
    padLines pad i ((S.map (signetRow P)).map cellsOf) = (S.zipIdx i).map (fun p => padCells (pad p.2) (cellsOf (signetRow P p.1))) := by
  intro S
  induction S with
  | nil => intro i; rfl
  | cons s S ih => intro i; simp only [List.map_cons, padLines, List.zipIdx_cons, ih]

theorem zipIdx_map_zipIdx {α β : Type} (f : α × Nat → β) : ∀ (S : List α) (i : Nat), ((S.zipIdx i).map f).zipIdx i = (S.zipIdx i).map (fun p => (f p, p.2)) := by
  intro S
  induction S with
  | nil => intro i; rfl
  | cons s S ih => intro i; simp only [List.zipIdx_cons, List.map_cons, ih]

/-- C69. The selection consists of signets with the IDs of the chosen lines, in the order of the lines. -/
theorem pickMany_chosen {E : DlgEnv} {options pre : List Signet} (hS : ∀ s ∈ pre ++ options, PlainSignet s)
    (hne : formatColumns E.pad (pickRows E.P options pre) ≠ []) (c : Nat → Bool) :
    ∃ picked, pickMany E options pre (some c) = .ok picked ∧
      picked.map (·.id) = (chosenOf (offered options pre) c).map (·.id) := by
  have hrows : pickRows E.P options pre = (offered options pre).map (signetRow E.P) := rfl
  have hin : ∀ s ∈ offered options pre, s ∈ pre ++ options := by
    intro s hs
    rcases List.mem_append.1 hs with h | h
    · exact List.mem_append.2 (Or.inl h)
    · exact List.mem_append.2 (Or.inr (List.mem_filter.1 h).1)
  have h1 : ∀ r ∈ pickRows E.P options pre, OneLine r := by
    intro r hr
    rw [hrows] at hr
    obtain ⟨s, hs, rfl⟩ := List.mem_map.1 hr
    exact signetRow_oneLine E.P (hS s (hin s hs))
  have h2 : ∀ r ∈ (pickRows E.P options pre).getLast?, r ≠ [[]] := by
    intro r hr
    have := List.mem_of_getLast? hr
    rw [hrows] at this
    obtain ⟨s, hs, rfl⟩ := List.mem_map.1 this
    simp [signetRow]
  rcases formatColumns_rows h1 h2 E.pad with h | h
  · exact absurd h hne
  · have hlines : formatColumns E.pad (pickRows E.P options pre) =
        ((offered options pre).zipIdx).map (fun p => padCells (E.pad (pickRows E.P options pre) p.2) (cellsOf (signetRow E.P p.1))) := by
      rw [h, hrows, padLines_zipIdx]
    have hlen : ¬ (formatColumns E.pad (pickRows E.P options pre)).length < pre.length := by
      rw [hlines]
      simp only [List.length_map, List.length_zipIdx, offered, List.length_append]
      omega
    unfold pickMany
    have hem : (formatColumns E.pad (pickRows E.P options pre)).isEmpty = false := by simpa using hne
    simp only [hlen, hem, if_false, Bool.false_eq_true]
    rw [hlines, zipIdx_map_zipIdx]
    have hsel : ((((offered options pre).zipIdx).map (fun p => (padCells (E.pad (pickRows E.P options pre) p.2) (cellsOf (signetRow E.P p.1)), p.2))).filter
        (fun p => c p.2)).map (·.1) =
        ((((offered options pre).zipIdx).filter (fun p => c p.2)).map
          (fun p => (padCells (E.pad (pickRows E.P options pre) p.2) (cellsOf (signetRow E.P p.1)), p.1.id))).map (·.1) := by
      rw [List.filter_map, List.map_map, List.map_map]
      rfl
    rw [hsel]
    obtain ⟨picked, hp, hids⟩ := signetsOfLines_ids (S := pre ++ options) ((((offered options pre).zipIdx).filter (fun p => c p.2)).map
          (fun p => (padCells (E.pad (pickRows E.P options pre) p.2) (cellsOf (signetRow E.P p.1)), p.1.id))) (by
      intro q hq
      obtain ⟨p, hp, rfl⟩ := List.mem_map.1 hq
      have hp := (List.mem_filter.1 hp).1
      have hm : p.1 ∈ offered options pre := by
        obtain ⟨i, hi⟩ := List.mem_iff_getElem?.1 hp
        rw [List.getElem?_zipIdx] at hi
        cases ho : (offered options pre)[i]? with
        | none => rw [ho] at hi; cases hi
        | some s =>
          rw [ho] at hi
          have := Option.some.inj hi
          rw [← this]
          exact List.mem_of_getElem? ho
      exact ⟨line_id E.P (hS _ (hin _ hm)) _, p.1, hin _ hm, rfl⟩)
    refine ⟨picked, hp, ?_⟩
    rw [hids, chosenOf, List.map_map, List.map_map]
    rfl

/-- C69. Selecting signets for an envelope puts references to exactly the chosen ones into it, in the order of the lines, and changes
nothing else. -/
theorem select_chosen {σ : Type} {E : DlgEnv} {T : Trust σ} {st : σ} {e : Envelope} {scope : Scope} {options : List Signet}
    (hsel : T.select st scope.filter scope.schemes = .ok options) (ho : options ≠ [])
    (hS : ∀ s ∈ scope.current e ++ options, PlainSignet s)
    (hne : formatColumns E.pad (pickRows E.P options (scope.current e)) ≠ []) (c : Nat → Bool) :
    selectSignets E T st e scope (some c) =
      .ok (scope.assign e ((chosenOf (offered options (scope.current e)) c).map (fun s => { id := s.id }))) := by
  obtain ⟨picked, hp, hids⟩ := pickMany_chosen hS hne c
  have hlen : ¬ options.length = 0 := by simpa using ho
  unfold selectSignets
  rw [hsel, ok_bind, if_neg hlen, hp, ok_bind]
  have : picked.map (fun s => ({ id := s.id } : Signet)) = (picked.map (·.id)).map (fun i => ({ id := i } : Signet)) := by
    rw [List.map_map]; rfl
  rw [this, hids, List.map_map]
  rfl

/-! ## C69: suites -/

/-- The list of suites is shown, one line for each. -/
theorem suite_lines (pad : List (List Bytes) → Nat → Nat → Nat) (h : formatColumns pad (suiteRegistry.map suiteRow) ≠ []) :
    formatColumns pad (suiteRegistry.map suiteRow) =
      padLines (pad (suiteRegistry.map suiteRow)) 0 ((suiteRegistry.map suiteRow).map cellsOf) := by
  have h1 : ∀ r ∈ suiteRegistry.map suiteRow, r ≠ [] ∧ (∀ x ∈ r, 10 ∉ x ∧ 12 ∉ x) ∧ (∀ x ∈ r.getLast?, 13 ∉ x) ∧ r ≠ [[]] := by
    decide +kernel
  rcases formatColumns_rows (t := suiteRegistry.map suiteRow) (fun r hr => ⟨(h1 r hr).1, (h1 r hr).2.1, (h1 r hr).2.2.1⟩)
    (fun r hr => (h1 r (List.mem_of_getLast? hr)).2.2.2) pad with h2 | h2
  · exact absurd h2 h
  · exact h2

/-- C69. Choosing a suite from the list sets this suite, and nothing else. -/
theorem suite_chosen {E : DlgEnv} (hreg : E.reg = suiteRegistry) (hne : formatColumns E.pad (suiteRegistry.map suiteRow) ≠ []) (e : Envelope)
    {i : Nat} {s : Suite} (hi : suiteRegistry[i]? = some s) :
    editEnvelopeSuite E e (some i) = .ok { e with suiteID := s.id, suite := some s } := by
  have hm : s ∈ suiteRegistry := List.mem_of_getElem? hi
  have h1 : ∀ s ∈ suiteRegistry, s.id ≠ [] ∧ (∀ c ∈ spaceCodes, ¬ c <:+: s.id) ∧ getSuite suiteRegistry s.id = some s := by decide +kernel
  obtain ⟨a, b, hg⟩ := h1 s hm
  unfold editEnvelopeSuite
  rw [hreg, Option.bind_some, suite_lines _ hne, padLines_get]
  simp only [List.getElem?_map, hi, Option.map_some]
  rw [fields_cells]
  have : cellsOf (suiteRow s) = [s.id] ++ cellsOf (suiteRow s).tail := by
    simp only [suiteRow, cellsOf, List.flatMap_cons, List.tail_cons]
    rw [splitBytes_none (IsWord.noTab ⟨a, b⟩)]
  rw [this, List.flatMap_append, List.flatMap_singleton, fields_word ⟨a, b⟩]
  simp only [List.cons_append, loadSuite, hg, Except.map]

/-! ## C69: envelopes -/

/-- An envelope whose line in `jess manage` is one line that begins with its name. -/
structure PlainEnvelope (e : Envelope) : Prop where
  suite : e.suite ≠ none
  name : IsWord e.name
  notDone : hasPrefix e.name b!"Done" = false
  suiteID : NoFeed e.suiteID
  signets : NoFeed (formatEnvelopeSignets e) ∧ 13 ∉ formatEnvelopeSignets e

/-- The lines of `jess manage` for envelopes. -/
def envelopeLines (E : DlgEnv) (table : List (List Bytes)) : List Bytes := formatColumns E.pad ([b!"Done"] :: table)

theorem envelopeRow_plain {e : Envelope} (h : PlainEnvelope e) :
    ∃ a b, envelopeRow e = some [e.name, e.suiteID, a, b] ∧ OneLine [e.name, e.suiteID, a, b] := by
  cases hs : e.suite with
  | none => exact absurd hs h.suite
  | some s =>
    refine ⟨b!"provides " ++ s.provides.shortString ++ b!" and " ++ formatSecurityLevel s.securityLevel, formatEnvelopeSignets e,
      by simp only [envelopeRow, hs, Option.map_some], by simp, ?_, ?_⟩
    · intro x hx
      simp only [List.mem_cons, List.not_mem_nil, or_false] at hx
      rcases hx with rfl | rfl | rfl | rfl
      · exact h.name.noFeed
      · exact h.suiteID
      · refine NoFeed.append (NoFeed.append (NoFeed.append ⟨by decide, by decide⟩ ?_) ⟨by decide, by decide⟩) (noFeed_level _)
        unfold Requirements.shortString
        constructor <;> intro hb <;> revert hb <;> (split <;> split <;> split <;> split <;> decide)
      · exact h.signets.1
    · intro x hx
      simp only [List.getLast?_cons_cons, List.getLast?_singleton, Option.mem_def, Option.some.injEq] at hx
      subst hx
      exact h.signets.2

theorem mapM_rows : ∀ {all : List Envelope}, (∀ e ∈ all, PlainEnvelope e) →
    ∃ table, all.mapM envelopeRow = some table ∧ (∀ r ∈ table, OneLine r ∧ r ≠ [[]]) ∧
      ∀ (i : Nat) (e : Envelope), all[i]? = some e → ∃ b c, table[i]? = some [e.name, e.suiteID, b, c] := by
  intro all
  induction all with
  | nil => intro _; exact ⟨[], rfl, by simp, by simp⟩
  | cons e all ih =>
    intro h
    obtain ⟨t, h1, h2, h3⟩ := ih (fun x hx => h x (by simp [hx]))
    obtain ⟨a, b, h4, h5⟩ := envelopeRow_plain (h e (by simp))
    refine ⟨[e.name, e.suiteID, a, b] :: t, ?_, ?_, ?_⟩
    · rw [List.mapM_cons, h4, h1]; rfl
    · intro r hr
      rcases List.mem_cons.1 hr with rfl | hr
      · exact ⟨h5, by simp⟩
      · exact h2 r hr
    · intro i x hi
      cases i with
      | zero => simp only [List.getElem?_cons_zero, Option.some.injEq] at hi; subst hi; exact ⟨a, b, rfl⟩
      | succ i => simpa using h3 i x (by simpa using hi)

/-- A line does not begin like "Done" if its first cell is a word that does not. -/
theorem word_line_prefix {w : Bytes} (hw : IsWord w) (hd : hasPrefix w b!"Done" = false) (rest : List Bytes) (hr : rest ≠ []) (pad : Nat → Nat) :
    hasPrefix (padCells pad (cellsOf (w :: rest))) b!"Done" = false ∧
      (fields (padCells pad (cellsOf (w :: rest)))).head? = some w := by
  have hc : cellsOf (w :: rest) = w :: cellsOf rest := by
    simp only [cellsOf, List.flatMap_cons]
    rw [splitBytes_none hw.noTab]
    rfl
  constructor
  · rw [hc]
    have hne := cellsOf_ne hr
    generalize cellsOf rest = l at *
    cases l with
    | nil => exact absurd rfl hne
    | cons y ys =>
      have h3 : 3 + pad 0 = (2 + pad 0) + 1 := by omega
      simp only [padCells, h3, List.replicate_succ, List.cons_append, List.append_assoc]
      generalize List.replicate (2 + pad 0) (32 : UInt8) ++ padCells (fun j => pad (j + 1)) (y :: ys) = r
      rw [Bool.eq_false_iff]
      intro h
      rw [Bool.eq_false_iff] at hd
      apply hd
      simp only [hasPrefix, List.isPrefixOf_iff_prefix] at h ⊢
      rcases List.prefix_or_prefix_of_prefix h (List.prefix_append w _) with h1 | h1
      · exact h1
      · -- the word is shorter: then a blank would be a letter of "Done"
        obtain ⟨t, ht⟩ := h1
        cases t with
        | nil => rw [List.append_nil] at ht; rw [ht]; exact List.prefix_refl _
        | cons a t =>
          obtain ⟨u, hu⟩ := h
          rw [← ht, List.append_assoc, List.append_cancel_left_eq] at hu
          simp only [List.cons_append, List.cons.injEq] at hu
          exfalso
          have : (32 : UInt8) ∈ b!"Done" := by rw [← ht, ← hu.1]; simp
          revert this; decide
  · rw [fields_cells, hc, List.flatMap_cons, fields_word hw]
    rfl

/-- C69. `jess manage`, envelopes: choosing a line edits that envelope, if its name is a word that does not begin with "Done". -/
theorem manage_edits_chosen_partial {σ : Type} {E : DlgEnv} {T : Trust σ} {D : Dsd} {st : σ} {all : List Envelope}
    (hall : T.allEnvelopes st = .ok all) (hp : ∀ e ∈ all, PlainEnvelope e) (table : List (List Bytes)) (ht : all.mapM envelopeRow = some table)
    (hne : envelopeLines E table ≠ []) {i : Nat} {e : Envelope}
    (hi : all[i]? = some e) (hu : ∀ x ∈ all, x.name = e.name → x = e) (edits : List EditRound) (rounds : List (Option Nat × List EditRound)) :
    manageEnvelopes E T D ((some (i + 1), edits) :: rounds) st =
      match editEnvelope E T D edits st e with
      | (st', .error x) => (st', .error x)
      | (st', .ok _) => manageEnvelopes E T D rounds st' := by
  obtain ⟨t, h1, h2, h3⟩ := mapM_rows hp
  rw [ht] at h1
  cases h1
  have hm : e ∈ all := List.mem_of_getElem? hi
  obtain ⟨b, c, hrow⟩ := h3 i e hi
  have hlines : envelopeLines E table = padLines (E.pad ([b!"Done"] :: table)) 0 (([b!"Done"] :: table).map cellsOf) := by
    have o : ∀ r ∈ [b!"Done"] :: table, OneLine r ∧ r ≠ [[]] := by
      intro r hr
      rcases List.mem_cons.1 hr with rfl | hr
      · exact ⟨⟨by simp, by decide, by decide⟩, by decide⟩
      · exact h2 r hr
    rcases formatColumns_rows (fun r hr => (o r hr).1) (fun r hr => (o r (List.mem_of_getLast? hr)).2) E.pad with h | h
    · exact absurd h hne
    · exact h
  have hl : (envelopeLines E table)[i + 1]? = some (padCells (E.pad ([b!"Done"] :: table) (0 + (i + 1))) (cellsOf [e.name, e.suiteID, b, c])) := by
    rw [hlines, padLines_get]
    simp [hrow]
  unfold envelopeLines at hl
  obtain ⟨w1, w2⟩ := word_line_prefix (hp e hm).name (hp e hm).notDone [e.suiteID, b, c] (by simp) (E.pad ([b!"Done"] :: table) (0 + (i + 1)))
  have hf : all.find? (fun x => x.name == e.name) = some e := by
    cases hf : all.find? (fun x => x.name == e.name) with
    | none => have := List.find?_eq_none.1 hf e hm; simp at this
    | some x =>
      have hx := List.find?_some hf
      simp only [beq_iff_eq] at hx
      rw [hu x (List.mem_of_find?_eq_some hf) hx]
  simp only [manageEnvelopes, hall, ht, Option.bind_some, hl, w1]
  generalize hfl : fields (padCells (E.pad ([b!"Done"] :: table) (0 + (i + 1))) (cellsOf [e.name, e.suiteID, b, c])) = ws at *
  cases ws with
  | nil => cases w2
  | cons n ws =>
    simp only [List.head?_cons, Option.some.injEq] at w2
    subst w2
    simp only [hf, Bool.false_eq_true, if_false]
    generalize editEnvelope E T D edits st e = y
    obtain ⟨st', r⟩ := y
    cases r <;> rfl

end Jess
