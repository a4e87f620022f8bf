import Verif.Props.Listing
import Verif.Props.DialogExamples

/-! # C81: how envelopes are shown -/

namespace Jess

/-! ## Specification -/

/-- The name by which a signet is shown: its name, or the ID if it has none. -/
def signetTitle (s : Signet) : Bytes :=
  match s.info with
  | some i => if i.name = [] then s.id else i.name
  | none => s.id

/-- A section of the text: the label and the enumeration of the names; nothing if there are no signets. -/
def ShowsSection (label : Bytes) (l : List Signet) (parts : List Bytes) : Prop :=
  (l = [] → parts = []) ∧ (l ≠ [] → ∃ x, Enumerates (l.map signetTitle) x ∧ parts = [label ++ x])

/-- The text tells who is involved. -/
def ShowsSignets (e : Envelope) (x : Bytes) : Prop :=
  ∃ p q r, Enumerates (p ++ q ++ r) x ∧ ShowsSection b!"Secrets: " e.secrets p ∧ ShowsSection b!"To: " e.recipients q ∧ ShowsSection b!"From: " e.senders r

/-- The columns for an envelope: the name, the ID of the suite, what it provides at which security level, and who is involved. -/
def EnvelopeColumns (e : Envelope) (line : Bytes) : Prop :=
  ∃ suite attrs level signets, e.suite = some suite ∧ InColumns [e.name, e.suiteID, b!"provides " ++ attrs ++ b!" and " ++ level, signets] line ∧
    ShowsAttrs suite.provides attrs ∧ ShowsLevel suite.securityLevel level ∧ ShowsSignets e signets

/-- The lines of the main menu of the envelope dialog. -/
def MenuLines (e : Envelope) (suite : Suite) (lines : List Bytes) : Prop :=
  ∃ attrs level secrets recipients senders : Bytes,
    All2 InColumns [[b!"Done", b!"save and return"], [[]], [b!"Suite", e.suiteID], [[], b!"provides " ++ attrs], [[], b!"and " ++ level],
      [b!"Secrets", secrets], [b!"Recipients", recipients], [b!"Senders", senders], [[]], [b!"Export", b!"export to text format"],
      [b!"Abort", b!"discard changes and return"], [b!"Delete", b!"delete and return"]] lines ∧
    NamesAttrs suite.provides attrs ∧ ShowsLevel suite.securityLevel level ∧ Enumerates (e.secrets.map signetTitle) secrets ∧
    Enumerates (e.recipients.map signetTitle) recipients ∧ Enumerates (e.senders.map signetTitle) senders

/-! ## Lines -/

theorem signetTitle_eq {s : Signet} (h : s.id ≠ []) : formatSignetName s = signetTitle s := by
  unfold formatSignetName signetTitle
  cases s.info with
  | none => simp [h]
  | some i => by_cases hi : i.name = [] <;> simp [hi, h]

theorem names_shown {l : List Signet} (h : ∀ s ∈ l, s.id ≠ []) : formatSignetNames l = joinBytes b!", " (l.map signetTitle) := by
  unfold formatSignetNames
  congr 1
  exact List.map_congr_left (fun s hs => signetTitle_eq (h s hs))

theorem section_shown (label : Bytes) {l : List Signet} (h : ∀ s ∈ l, s.id ≠ []) :
    ShowsSection label l (if l.isEmpty then [] else [label ++ formatSignetNames l]) := by
  cases l with
  | nil => exact ⟨fun _ => rfl, fun h => absurd rfl h⟩
  | cons s l =>
    refine ⟨fun h => (by cases h), fun _ => ⟨_, joinBytes_enumerates _, ?_⟩⟩
    rw [names_shown h]; rfl

theorem signets_shown {e : Envelope} (h : ∀ s ∈ e.secrets ++ e.senders ++ e.recipients, s.id ≠ []) : ShowsSignets e (formatEnvelopeSignets e) :=
  ⟨_, _, _, joinBytes_enumerates _, section_shown _ (fun s hs => h s (by simp [hs])), section_shown _ (fun s hs => h s (by simp [hs])),
    section_shown _ (fun s hs => h s (by simp [hs]))⟩

theorem shortString_len (r : Requirements) : r.shortString.length ≤ 4 := by
  unfold Requirements.shortString
  (repeat' split) <;> decide

/-- C81. `jess manage` for envelopes: there is one line for each stored envelope, with its name, suite, what the suite provides, its level, and
the names of the signets. -/
theorem envelope_list_shows {E : DlgEnv} (hpad : FillsColumns E.pad) {all : List Envelope} {table : List (List Bytes)}
    (htab : all.mapM envelopeRow = some table)
    (hall : ∀ e ∈ all, ShownEnvelope e ∧ e.name.length ≤ 5000 ∧ e.suiteID.length ≤ 5000 ∧ (formatEnvelopeSignets e).length ≤ 5000 ∧
      ∀ s ∈ e.suite, (decimal s.securityLevel).length ≤ 4000) :
    ∃ lines, envelopeLines E table = b!"Done" :: lines ∧ All2 EnvelopeColumns all lines := by
  have hrows : ∀ (all : List Envelope) (table : List (List Bytes)), all.mapM envelopeRow = some table →
      All2 (fun e r => ∃ s, e.suite = some s ∧ r = [e.name, e.suiteID,
        b!"provides " ++ s.provides.shortString ++ b!" and " ++ formatSecurityLevel s.securityLevel, formatEnvelopeSignets e]) all table := by
    intro all
    induction all with
    | nil => intro table h; cases h; exact .nil
    | cons e all ih =>
      intro table h
      rw [List.mapM_cons] at h
      cases hr : envelopeRow e with
      | none => rw [hr] at h; cases h
      | some r =>
        cases ht : all.mapM envelopeRow with
        | none => rw [hr, ht] at h; cases h
        | some t =>
          rw [hr, ht] at h
          cases h
          refine .cons ?_ (ih t ht)
          unfold envelopeRow at hr
          cases hs : e.suite with
          | none => rw [hs] at hr; cases hr
          | some s => rw [hs] at hr; cases hr; exact ⟨s, rfl, rfl⟩
  have h2 := hrows all table htab
  have hmem : ∀ r ∈ table, ∃ e ∈ all, ∃ s, e.suite = some s ∧ r = [e.name, e.suiteID,
        b!"provides " ++ s.provides.shortString ++ b!" and " ++ formatSecurityLevel s.securityLevel, formatEnvelopeSignets e] := by
    clear hall htab
    induction h2 with
    | nil => intro r hr; cases hr
    | cons h1 _ ih =>
      intro r hr
      rcases List.mem_cons.1 hr with rfl | hr
      · exact ⟨_, by simp, h1⟩
      · obtain ⟨e, he, x⟩ := ih r hr
        exact ⟨e, by simp [he], x⟩
  have h := table_shown hpad (t := [b!"Done"] :: table) (by simp) (by
    intro r hr
    rcases List.mem_cons.1 hr with rfl | hr
    · decide
    · obtain ⟨e, he, s, hs, rfl⟩ := hmem r hr
      obtain ⟨a1, a2, a3, a4, a5⟩ := hall e he
      have a5 := a5 s (by rw [hs]; rfl)
      refine ⟨by simp, by simp, ?_⟩
      intro x hx
      simp only [List.mem_cons, List.not_mem_nil, or_false] at hx
      rcases hx with rfl | rfl | rfl | rfl
      · exact ⟨a1.name, a2⟩
      · exact ⟨a1.suite, a3⟩
      · refine ⟨(((show CellText b!"provides " by decide).append (cellText_short _)).append (by decide)).append (cellText_level _), ?_⟩
        have := shortString_len s.provides
        simp only [List.length_append, formatSecurityLevel]
        have e1 : (b!"provides ").length = 9 := by decide
        have e2 : (b!" and ").length = 5 := by decide
        have e3 : (b!" b/s").length = 4 := by decide
        omega
      · exact ⟨cellText_signets a1, a4⟩) (by
    intro r hr
    rcases List.mem_cons.1 (List.mem_of_getLast? hr) with rfl | hr
    · decide
    · obtain ⟨e, _, s, _, rfl⟩ := hmem r hr
      simp)
  unfold envelopeLines
  generalize formatColumns E.pad ([b!"Done"] :: table) = f at *
  cases h with
  | cons g1 g2 =>
    refine ⟨_, by rw [show _ = b!"Done" from g1], ?_⟩
    rename_i ls
    clear hmem htab
    induction h2 generalizing ls with
    | nil => cases g2; exact .nil
    | @cons e r es rs h1 _ ih =>
      cases g2 with
      | cons k1 k2 =>
        refine .cons ?_ (ih (fun x hx => hall x (by simp [hx])) k2)
        obtain ⟨s, hs, rfl⟩ := h1
        exact ⟨s, _, _, _, hs, k1, attrs_shown _, level_shown _, signets_shown (fun x hx => ((hall e (by simp)).1.signets x hx).id.1)⟩

/-- C81. The main menu of the envelope dialog shows the suite, what it provides at which level, and the secrets, recipients and senders, each in its line. -/
theorem menu_shows {E : DlgEnv} (hpad : FillsColumns E.pad) {e : Envelope} {suite : Suite} (h : ShownEnvelope e) (hk : KnownAttrs suite.provides)
    (hlen : e.suiteID.length ≤ 5000 ∧ (formatSignetNames e.secrets).length ≤ 5000 ∧ (formatSignetNames e.recipients).length ≤ 5000 ∧
      (formatSignetNames e.senders).length ≤ 5000 ∧ (formatRequirements suite.provides).length ≤ 4000 ∧ (decimal suite.securityLevel).length ≤ 4000) :
    MenuLines e suite (formatColumns E.pad (editMenu e suite)) := by
  obtain ⟨l1, l2, l3, l4, l5, l6⟩ := hlen
  have hids := fun s hs => (h.signets s hs).id.1
  have hx := h.signets
  simp only [List.mem_append] at hx
  have names : ∀ l : List Signet, (∀ s ∈ l, ShownSignet s) → CellText (formatSignetNames l) := by
    intro l hl
    refine cellText_join (by decide) ?_
    intro x hm
    obtain ⟨s, hs, rfl⟩ := List.mem_map.1 hm
    exact (hl s hs).name
  have n1 := names e.secrets (fun s hs => hx s (.inl (.inl hs)))
  have n2 := names e.recipients (fun s hs => hx s (.inr hs))
  have n3 := names e.senders (fun s hs => hx s (.inl (.inr hs)))
  have n4 : CellText (formatRequirements suite.provides) := by
    unfold formatRequirements
    split
    · decide
    · refine cellText_join (by decide) ?_
      intro x hm
      obtain ⟨a, _, he⟩ := List.mem_filterMap.1 hm
      revert he
      (repeat' split) <;> intro he <;> cases he <;> decide
  have hids' : ∀ (l : List Signet), (∀ s ∈ l, ShownSignet s) → ∀ s ∈ l, s.id ≠ [] := fun l hl s hs => (hl s hs).id.1
  have t := table_shown hpad (t := editMenu e suite) (by simp [editMenu]) (by
    intro r hr
    simp only [editMenu, List.mem_cons, List.not_mem_nil, or_false] at hr
    have e1 : (b!"provides ").length = 9 := by decide
    have e2 : (b!"and ").length = 4 := by decide
    have e3 : (b!" b/s").length = 4 := by decide
    rcases hr with rfl | rfl | rfl | rfl | rfl | rfl | rfl | rfl | rfl | rfl | rfl | rfl <;>
      first
      | decide
      | (refine ⟨by simp, by simp, ?_⟩
         intro x hx
         simp only [List.mem_cons, List.not_mem_nil, or_false] at hx
         rcases hx with rfl | rfl
         · decide
         · first
           | exact ⟨h.suite, l1⟩
           | exact ⟨n1, l2⟩
           | exact ⟨n2, l3⟩
           | exact ⟨n3, l4⟩
           | exact ⟨(show CellText b!"provides " by decide).append n4, by rw [List.length_append]; omega⟩
           | exact ⟨(show CellText b!"and " by decide).append (cellText_level _), by
               simp only [List.length_append, formatSecurityLevel]; omega⟩)) (by
    intro r hr
    simp only [editMenu, List.getLast?_cons_cons, List.getLast?_singleton, Option.mem_def, Option.some.injEq] at hr
    subst hr
    decide)
  refine ⟨_, _, _, _, _, t, attr_names_shown _ hk, level_shown _, ?_, ?_, ?_⟩
  · rw [names_shown (hids' _ (fun s hs => hx s (.inl (.inl hs))))]; exact joinBytes_enumerates _
  · rw [names_shown (hids' _ (fun s hs => hx s (.inr hs)))]; exact joinBytes_enumerates _
  · rw [names_shown (hids' _ (fun s hs => hx s (.inl (.inr hs))))]; exact joinBytes_enumerates _

/-! ## What can be told from the text -/

theorem enumerates_inj {l l' : List Bytes} {x : Bytes} (h : Enumerates l x) (h' : Enumerates l' x)
    (hl : ∀ y ∈ l, y ≠ [] ∧ 44 ∉ y) (hl' : ∀ y ∈ l', y ≠ [] ∧ 44 ∉ y) : l = l' := by
  have cut : ∀ (a b : Bytes), 44 ∉ a → a = a.takeWhile (· ≠ 44) ∧ (44 ∉ a → (a ++ (44 :: b)).takeWhile (· ≠ 44) = a) := by
    intro a b
    induction a with
    | nil => intro _; exact ⟨rfl, fun _ => by simp⟩
    | cons c a ih =>
      intro hc
      have hc1 : c ≠ 44 := fun h => hc (by rw [h]; simp)
      have hc2 : 44 ∉ a := fun h => hc (by simp [h])
      obtain ⟨i1, i2⟩ := ih hc2
      refine ⟨?_, fun _ => ?_⟩
      · rw [List.takeWhile_cons_of_pos (by simpa using hc1), ← i1]
      · rw [List.cons_append, List.takeWhile_cons_of_pos (by simpa using hc1), i2 hc2]
  induction l generalizing l' x with
  | nil =>
    cases l' with
    | nil => rfl
    | cons y ys =>
      cases h
      cases ys with
      | nil => exact absurd h'.symm (hl' y (by simp)).1
      | cons z zs =>
        obtain ⟨r, hr, _⟩ := h'
        exact absurd hr.symm (by simp)
  | cons y ys ih =>
    have hy := hl y (by simp)
    cases l' with
    | nil =>
      cases h'
      cases ys with
      | nil => exact absurd h.symm hy.1
      | cons z zs =>
        obtain ⟨r, hr, _⟩ := h
        exact absurd hr.symm (by simp)
    | cons y' ys' =>
      have hy' := hl' y' (by simp)
      have hx : x.takeWhile (· ≠ 44) = y := by
        cases ys with
        | nil => rw [show x = y from h]; exact (cut y [] hy.2).1.symm
        | cons z zs =>
          obtain ⟨r, hr, _⟩ := h
          rw [hr, List.append_assoc]
          exact (cut y _ hy.2).2 hy.2
      have hx' : x.takeWhile (· ≠ 44) = y' := by
        cases ys' with
        | nil => rw [show x = y' from h']; exact (cut y' [] hy'.2).1.symm
        | cons z zs =>
          obtain ⟨r, hr, _⟩ := h'
          rw [hr, List.append_assoc]
          exact (cut y' _ hy'.2).2 hy'.2
      have he : y = y' := hx.symm.trans hx'
      subst he
      congr 1
      cases ys with
      | nil =>
        cases h
        cases ys' with
        | nil => rfl
        | cons z zs =>
          obtain ⟨r, hr, _⟩ := h'
          have := congrArg List.length hr
          have e2 : (b!", ").length = 2 := by decide
          simp only [List.length_append] at this
          omega
      | cons z zs =>
        obtain ⟨r, rfl, hr⟩ := h
        cases ys' with
        | nil =>
          have := congrArg List.length (show _ = _ from h')
          have e2 : (b!", ").length = 2 := by decide
          simp only [List.length_append] at this
          omega
        | cons z' zs' =>
          obtain ⟨r', hr', h'⟩ := h'
          rw [List.append_cancel_left hr'] at hr
          exact ih hr h' (fun y hy => hl y (by simp [hy])) (fun y hy => hl' y (by simp [hy]))

/-- A label in front of the first name. -/
def labelled (label : Bytes) : List Bytes → List Bytes
  | [] => []
  | x :: xs => (label ++ x) :: xs

theorem enumerates_join {l : List Bytes} {x : Bytes} (h : Enumerates l x) : x = joinBytes b!", " l := by
  induction l generalizing x with
  | nil => exact h
  | cons y l ih =>
    cases l with
    | nil => exact h
    | cons z l =>
      obtain ⟨r, rfl, hr⟩ := h
      rw [ih hr]; rfl

theorem join_append {sep : Bytes} : ∀ {l m : List Bytes}, l ≠ [] → m ≠ [] → joinBytes sep (l ++ m) = joinBytes sep l ++ sep ++ joinBytes sep m := by
  intro l m hl hm
  induction l with
  | nil => exact absurd rfl hl
  | cons x l ih =>
    cases l with
    | nil =>
      cases m with
      | nil => exact absurd rfl hm
      | cons y m => rfl
    | cons y l =>
      have := ih (by simp)
      rw [List.cons_append, List.cons_append, joinBytes, ← List.cons_append, this, joinBytes]
      simp only [List.append_assoc]

theorem join_labelled {label : Bytes} {l : List Bytes} (hl : l ≠ []) : joinBytes b!", " (labelled label l) = label ++ joinBytes b!", " l := by
  cases l with
  | nil => exact absurd rfl hl
  | cons x l =>
    cases l with
    | nil => rfl
    | cons y l => simp only [labelled, joinBytes, List.append_assoc]

theorem section_eq {label : Bytes} {l : List Signet} {p : List Bytes} (h : ShowsSection label l p) :
    (l = [] ∧ p = []) ∨ (l ≠ [] ∧ p = [joinBytes b!", " (labelled label (l.map signetTitle))]) := by
  by_cases hl : l = []
  · exact .inl ⟨hl, h.1 hl⟩
  · obtain ⟨x, hx, hp⟩ := h.2 hl
    right
    refine ⟨hl, ?_⟩
    rw [join_labelled (by simpa using hl), ← enumerates_join hx]; exact hp

theorem signets_flat {e : Envelope} {x : Bytes} (h : ShowsSignets e x) :
    Enumerates (labelled b!"Secrets: " (e.secrets.map signetTitle) ++ (labelled b!"To: " (e.recipients.map signetTitle) ++ labelled b!"From: " (e.senders.map signetTitle))) x := by
  obtain ⟨p, q, r, hx, hp, hq, hr⟩ := h
  have hx := enumerates_join hx
  have ne : ∀ {label : Bytes} {l : List Signet}, l ≠ [] → labelled label (l.map signetTitle) ≠ [] := by
    intro label l hl
    cases l with
    | nil => exact absurd rfl hl
    | cons s l => simp [labelled]
  suffices h : x = joinBytes b!", " _ by rw [h]; exact joinBytes_enumerates _
  rw [hx]
  have nil : ∀ (label : Bytes), labelled label (([] : List Signet).map signetTitle) = [] := fun _ => rfl
  rcases section_eq hp with ⟨a, rfl⟩ | ⟨a, rfl⟩ <;> rcases section_eq hq with ⟨b, rfl⟩ | ⟨b, rfl⟩ <;> rcases section_eq hr with ⟨c, rfl⟩ | ⟨c, rfl⟩
  · rw [a, b, c]; rfl
  · rw [a, b]; rfl
  · simp only [a, c, nil, List.append_nil, List.nil_append]; rfl
  · simp only [a, nil, List.nil_append]; rw [join_append (ne b) (ne c)]; rfl
  · simp only [b, c, nil, List.append_nil]; rfl
  · simp only [b, nil, List.nil_append, List.append_nil]; rw [join_append (ne a) (ne c)]; rfl
  · simp only [c, nil, List.append_nil]; rw [join_append (ne a) (ne b)]; rfl
  · rw [join_append (ne a) (by simp [ne b]), join_append (ne b) (ne c)]
    simp only [List.cons_append, List.nil_append, joinBytes, List.append_assoc]

theorem labelled_inj {A : Bytes} {as as' X X' : List Bytes} (h : labelled A as ++ X = labelled A as' ++ X')
    (ha : ∀ a ∈ as, 58 ∉ a) (ha' : ∀ a ∈ as', 58 ∉ a)
    (hX : ∀ y ∈ X.head?, 58 ∈ y ∧ ¬ A <+: y) (hX' : ∀ y ∈ X'.head?, 58 ∈ y ∧ ¬ A <+: y) : as = as' ∧ X = X' := by
  have plain : ∀ (l l' : List Bytes), (∀ a ∈ l, 58 ∉ a) → (∀ a ∈ l', 58 ∉ a) → l ++ X = l' ++ X' → l = l' ∧ X = X' := by
    intro l
    induction l with
    | nil =>
      intro l' _ hl' he
      cases l' with
      | nil => exact ⟨rfl, he⟩
      | cons b l' =>
        rw [List.nil_append] at he
        exact absurd (hX b (by rw [he]; rfl)).1 (hl' b (by simp))
    | cons a l ih =>
      intro l' hl hl' he
      cases l' with
      | nil =>
        rw [List.nil_append] at he
        exact absurd (hX' a (by rw [← he]; rfl)).1 (hl a (by simp))
      | cons b l' =>
        rw [List.cons_append, List.cons_append, List.cons.injEq] at he
        obtain ⟨rfl, he⟩ := he
        obtain ⟨rfl, h2⟩ := ih l' (fun x hx => hl x (by simp [hx])) (fun x hx => hl' x (by simp [hx])) he
        exact ⟨rfl, h2⟩
  cases as with
  | nil =>
    cases as' with
    | nil => exact ⟨rfl, h⟩
    | cons b bs =>
      have h : X = (A ++ b) :: (bs ++ X') := h
      exact absurd (List.prefix_append A b) (hX (A ++ b) (by rw [h]; rfl)).2
  | cons a as =>
    cases as' with
    | nil =>
      have h : (A ++ a) :: (as ++ X) = X' := h
      exact absurd (List.prefix_append A a) (hX' (A ++ a) (by rw [← h]; rfl)).2
    | cons b bs =>
      have h : (A ++ a) :: (as ++ X) = (A ++ b) :: (bs ++ X') := h
      rw [List.cons.injEq] at h
      obtain ⟨rfl, h2⟩ := plain as bs (fun x hx => ha x (by simp [hx])) (fun x hx => ha' x (by simp [hx])) h.2
      rw [List.append_cancel_left h.1]
      exact ⟨rfl, h2⟩

/-- C81. As long as the names have no commas and colons, the text tells the names of the secrets, the recipients and the senders. -/
theorem signets_unambiguous_partial {e e' : Envelope} {x : Bytes} (h : ShowsSignets e x) (h' : ShowsSignets e' x)
    (hn : ∀ s ∈ e.secrets ++ e.recipients ++ e.senders, signetTitle s ≠ [] ∧ 44 ∉ signetTitle s ∧ 58 ∉ signetTitle s)
    (hn' : ∀ s ∈ e'.secrets ++ e'.recipients ++ e'.senders, signetTitle s ≠ [] ∧ 44 ∉ signetTitle s ∧ 58 ∉ signetTitle s) :
    e.secrets.map signetTitle = e'.secrets.map signetTitle ∧ e.recipients.map signetTitle = e'.recipients.map signetTitle ∧
    e.senders.map signetTitle = e'.senders.map signetTitle := by
  have items : ∀ (label : Bytes) (l : List Signet), 44 ∉ label → (∀ s ∈ l, signetTitle s ≠ [] ∧ 44 ∉ signetTitle s ∧ 58 ∉ signetTitle s) →
      ∀ y ∈ labelled label (l.map signetTitle), y ≠ [] ∧ 44 ∉ y := by
    intro label l hc hl y hy
    cases l with
    | nil => cases hy
    | cons s l =>
      rcases List.mem_cons.1 hy with rfl | hy
      · refine ⟨fun h => (hl s (by simp)).1 (List.append_eq_nil_iff.1 h).2, ?_⟩
        rw [List.mem_append]
        rintro (h | h)
        · exact hc h
        · exact (hl s (by simp)).2.1 h
      · obtain ⟨s', hs', rfl⟩ := List.mem_map.1 hy
        exact ⟨(hl s' (by simp [hs'])).1, (hl s' (by simp [hs'])).2.1⟩
  have all : ∀ (e : Envelope), (∀ s ∈ e.secrets ++ e.recipients ++ e.senders, signetTitle s ≠ [] ∧ 44 ∉ signetTitle s ∧ 58 ∉ signetTitle s) →
      ∀ y ∈ labelled b!"Secrets: " (e.secrets.map signetTitle) ++ (labelled b!"To: " (e.recipients.map signetTitle) ++ labelled b!"From: " (e.senders.map signetTitle)), y ≠ [] ∧ 44 ∉ y := by
    intro e hn y hy
    rw [List.mem_append, List.mem_append] at hy
    rcases hy with hy | hy | hy
    · exact items _ _ (by decide) (fun s hs => hn s (by simp [hs])) y hy
    · exact items _ _ (by decide) (fun s hs => hn s (by simp [hs])) y hy
    · exact items _ _ (by decide) (fun s hs => hn s (by simp [hs])) y hy
  have he := enumerates_inj (signets_flat h) (signets_flat h') (all e hn) (all e' hn')
  have colon : ∀ (l : List Signet), (∀ s ∈ l, 58 ∉ signetTitle s) → ∀ a ∈ l.map signetTitle, 58 ∉ a := by
    intro l hl a ha
    obtain ⟨s, hs, rfl⟩ := List.mem_map.1 ha
    exact hl s hs
  have head : ∀ (A label : Bytes) (l : List Bytes), 58 ∈ label → (∀ b, ¬ A <+: label ++ b) → ∀ y ∈ (labelled label l).head?, 58 ∈ y ∧ ¬ A <+: y := by
    intro A label l hc hp y hy
    cases l with
    | nil => cases hy
    | cons b l =>
      cases hy
      exact ⟨by simp [hc], hp b⟩
  have p1 : ∀ b, ¬ b!"Secrets: " <+: b!"To: " ++ b := by rintro b ⟨t, ht⟩; have := congrArg List.head? ht; simp at this
  have p2 : ∀ b, ¬ b!"Secrets: " <+: b!"From: " ++ b := by rintro b ⟨t, ht⟩; have := congrArg List.head? ht; simp at this
  have p3 : ∀ b, ¬ b!"To: " <+: b!"From: " ++ b := by rintro b ⟨t, ht⟩; have := congrArg List.head? ht; simp at this
  have head2 : ∀ (l m : List Bytes), ∀ y ∈ (labelled b!"To: " l ++ labelled b!"From: " m).head?, 58 ∈ y ∧ ¬ b!"Secrets: " <+: y := by
    intro l m y hy
    cases l with
    | nil => exact head _ _ m (by decide) p2 y hy
    | cons b l => exact head _ _ (b :: l) (by decide) p1 y hy
  obtain ⟨h1, h2⟩ := labelled_inj he (colon _ (fun s hs => (hn s (by simp [hs])).2.2)) (colon _ (fun s hs => (hn' s (by simp [hs])).2.2)) (head2 _ _) (head2 _ _)
  obtain ⟨h3, h4⟩ := labelled_inj h2 (colon _ (fun s hs => (hn s (by simp [hs])).2.2)) (colon _ (fun s hs => (hn' s (by simp [hs])).2.2))
    (head _ _ _ (by decide) p3) (head _ _ _ (by decide) p3)
  have h4 : labelled b!"From: " (e.senders.map signetTitle) ++ [] = labelled b!"From: " (e'.senders.map signetTitle) ++ [] := by rw [h4]
  exact ⟨h1, h3, (labelled_inj h4 (colon _ (fun s hs => (hn s (by simp [hs])).2.2)) (colon _ (fun s hs => (hn' s (by simp [hs])).2.2))
    (by intro y hy; cases hy) (by intro y hy; cases hy)).1⟩

/-! ## Refutation and example -/

/-- A recipient in an envelope, as the dialog gets it from the store. -/
def recipientNamed (id name : Bytes) : Signet := { version := 1, id := id, scheme := b!"ECDH-X25519", isPublic := true, key := [1], info := some { name := name } }

/-- An envelope to some recipients. -/
def letterTo (rs : List Signet) : Envelope :=
  { version := 1, name := b!"mail", suiteID := b!"rcpt_v1", suite := getSuite suiteRegistry b!"rcpt_v1", recipients := rs }

/-- C81 refuted. Two envelopes which go to different recipients look the same, in the list of envelopes and in the menu: the lines have the names
but not the IDs of the signets. So do an envelope to two recipients and an envelope to one whose name has a comma. -/
theorem envelope_line_refuted :
    (let e := letterTo [recipientNamed b!"r1" b!"alice"]
     let e' := letterTo [recipientNamed b!"mallory" b!"alice"]
     ShownEnvelope e ∧ ShownEnvelope e' ∧ e.recipients.map (·.id) ≠ e'.recipients.map (·.id) ∧ (envelopeRow e).isSome ∧ envelopeRow e = envelopeRow e' ∧
     ∀ s, editMenu e s = editMenu e' s) ∧
    (let e := letterTo [recipientNamed b!"r1" b!"alice", recipientNamed b!"r2" b!"bob"]
     let e' := letterTo [recipientNamed b!"r3" b!"alice, bob"]
     ShownEnvelope e ∧ ShownEnvelope e' ∧ e.recipients.map signetTitle ≠ e'.recipients.map signetTitle ∧ (envelopeRow e).isSome ∧ envelopeRow e = envelopeRow e' ∧
     ∀ s, editMenu e s = editMenu e' s) := by
  have sh : ∀ id name, IsWord id → CellText name → name ≠ [] → id.length ≤ 5000 → name.length ≤ 5000 → ShownSignet (recipientNamed id name) := by
    intro id name h1 h2 h3 h4 h5
    have hn : formatSignetName (recipientNamed id name) = name := by unfold formatSignetName recipientNamed; simp [h3]
    exact ⟨by rw [hn]; exact h2, by rw [hn]; exact h5, (by decide : CellText b!"ECDH-X25519"), (by decide : (b!"ECDH-X25519").length ≤ 5000), h1, h4⟩
  have se : ∀ rs, (∀ s ∈ rs, ShownSignet s) → ShownEnvelope (letterTo rs) := by
    intro rs h
    exact ⟨(by decide : CellText b!"mail"), (by decide : CellText b!"rcpt_v1"), by simpa [letterTo] using h⟩
  refine ⟨⟨se _ ?_, se _ ?_, by decide, by decide, by decide +kernel, fun _ => rfl⟩, ⟨se _ ?_, se _ ?_, by decide, by decide, by decide +kernel, fun _ => rfl⟩⟩
  all_goals
    intro s hs
    simp only [List.mem_cons, List.not_mem_nil, or_false] at hs
  · subst hs; exact sh _ _ (by unfold IsWord; decide) (by decide) (by decide) (by decide) (by decide)
  · subst hs; exact sh _ _ (by unfold IsWord; decide) (by decide) (by decide) (by decide) (by decide)
  · rcases hs with rfl | rfl
    · exact sh _ _ (by unfold IsWord; decide) (by decide) (by decide) (by decide) (by decide)
    · exact sh _ _ (by unfold IsWord; decide) (by decide) (by decide) (by decide) (by decide)
  · subst hs; exact sh _ _ (by unfold IsWord; decide) (by decide) (by decide) (by decide) (by decide)

/-- The lines for some signets and envelopes; they meet the hypotheses of `signet_dialog_shows`, `envelope_list_shows`, `menu_shows` and
`signets_unambiguous_partial`. -/
theorem lines_example :
    (signetLines toyDlg [recipientNamed b!"r1" b!"alice", { version := 1, id := b!"k1", scheme := schemeKey, key := [1] }] =
      [b!"Done", b!"alice   recipient   ECDH-X25519   KeyExchange   128 b/s   r1", b!"k1   key            k1"]) ∧
    (envelopeRow (letterTo [recipientNamed b!"r1" b!"alice", recipientNamed b!"r2" []])).map (fun r => envelopeLines toyDlg [r]) =
      some [b!"Done", b!"mail   rcpt_v1   provides CIR and 128 b/s   To: alice, r2"] ∧
    ((getSuite suiteRegistry b!"rcpt_v1").map (fun s => formatColumns toyDlg.pad (editMenu (letterTo [recipientNamed b!"r1" b!"alice", recipientNamed b!"r2" []]) s))) =
      some [b!"Done   save and return", [], b!"Suite   rcpt_v1", b!"   provides Confidentiality, Integrity, RecipientAuthentication", b!"   and 128 b/s",
        b!"Secrets   ", b!"Recipients   alice, r2", b!"Senders   ", [], b!"Export   export to text format", b!"Abort   discard changes and return",
        b!"Delete   delete and return"] ∧
    FillsColumns toyDlg.pad ∧ (∀ s ∈ [recipientNamed b!"r1" b!"alice", recipientNamed b!"r2" []], signetTitle s ≠ [] ∧ 44 ∉ signetTitle s ∧ 58 ∉ signetTitle s) := by
  refine ⟨by decide +kernel, by decide +kernel, by decide +kernel, ?_, by decide⟩
  intro t N _ i j
  exact Nat.zero_le _

end Jess
