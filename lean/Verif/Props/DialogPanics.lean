import Verif.Lemmas.Fit
import Verif.Props.Configure
import Verif.Props.Stores
import Verif.Props.WirePanic

/-! C72: the dialogs do not crash, as long as the texts of the stored signets and envelopes are short and have no line ends or tabs. -/

namespace Jess

/-- A text without tabs and line ends. -/
def CellText (x : Bytes) : Prop := ∀ c ∈ x, ¬ (9 ≤ c ∧ c ≤ 13)

/-- A signet with short texts: name and scheme without tabs and line ends, the ID is a word. -/
structure ShownSignet (s : Signet) : Prop where
  name : CellText (formatSignetName s)
  nameLen : (formatSignetName s).length ≤ 5000
  scheme : CellText s.scheme
  schemeLen : s.scheme.length ≤ 5000
  id : IsWord s.id
  idLen : s.id.length ≤ 5000

/-- An envelope with short texts. -/
structure ShownEnvelope (e : Envelope) : Prop where
  name : CellText e.name
  suite : CellText e.suiteID
  signets : ∀ s ∈ e.secrets ++ e.senders ++ e.recipients, ShownSignet s

/-- What the tab writer of the Go standard library adds to a cell: at most the length of the longest cell (or the minimal width). -/
def FillsColumns (pad : List (List Bytes) → Nat → Nat → Nat) : Prop :=
  ∀ t N, (∀ r ∈ t, ∀ x ∈ cellsOf r, x.length ≤ N) → ∀ i j, pad t i j ≤ N + 8

/-- A trust store which does not crash, and in which texts are short as long as `I` holds. -/
structure Trust.Tidy {σ : Type} (T : Trust σ) (I : σ → Prop) : Prop where
  select : ∀ st f sch, I st → (T.select st f sch).noPanic ∧ ∀ l, T.select st f sch = .ok l → ∀ s ∈ l, ShownSignet s
  getSignet : ∀ st id r, I st → (T.getSignet st id r).noPanic ∧ ∀ s, T.getSignet st id r = .ok s → ShownSignet s
  getEnvelope : ∀ st n, I st → (T.getEnvelope st n).noPanic ∧
    ∀ e, T.getEnvelope st n = .ok (some e) → ShownEnvelope e ∧ e.suite.isSome = true
  allEnvelopes : ∀ st, I st → (T.allEnvelopes st).noPanic ∧
    ∀ l, T.allEnvelopes st = .ok l → ∀ e ∈ l, ShownEnvelope e ∧ e.suite.isSome = true
  deleteSignet : ∀ st id r, I st → I (T.deleteSignet st id r).1 ∧ (T.deleteSignet st id r).2.noPanic
  storeEnvelope : ∀ st e, I st → ShownEnvelope e → I (T.storeEnvelope st e).1 ∧ (T.storeEnvelope st e).2.noPanic
  deleteEnvelope : ∀ st n, I st → I (T.deleteEnvelope st n).1 ∧ (T.deleteEnvelope st n).2.noPanic

/-- The password prompt fills in the password and nothing else, and does not crash (password.go:31-38). -/
def EditRound.Prompts (r : EditRound) : Prop :=
  ∀ s l, (r.createPw s l).noPanic ∧ ∀ o, r.createPw s l = .ok o → ∃ k, o = { s with key := k }

/-! ## Texts -/

theorem CellText.noFeed {x : Bytes} (h : CellText x) : NoFeed x :=
  ⟨fun hm => h 10 hm (by decide), fun hm => h 12 hm (by decide)⟩

theorem CellText.noTab {x : Bytes} (h : CellText x) : ∀ c ∈ x, (c == 9 || c == 11) = false := by
  intro c hc
  have a : c ≠ 9 := by intro he; subst he; exact h 9 hc (by decide)
  have b : c ≠ 11 := by intro he; subst he; exact h 11 hc (by decide)
  simp [a, b]

theorem CellText.append {a b : Bytes} (ha : CellText a) (hb : CellText b) : CellText (a ++ b) := by
  intro c hc
  rcases List.mem_append.1 hc with h | h
  · exact ha c h
  · exact hb c h

theorem cellText_nil : CellText [] := by intro c hc; cases hc

instance (x : Bytes) : Decidable (CellText x) := inferInstanceAs (Decidable (∀ c ∈ x, ¬ (9 ≤ c ∧ c ≤ 13)))

theorem cellText_join {sep : Bytes} (hs : CellText sep) {l : List Bytes} (h : ∀ x ∈ l, CellText x) : CellText (joinBytes sep l) := by
  intro c hc
  rcases joinBytes_mem hc with h1 | ⟨x, hx, hb⟩
  · exact hs c h1
  · exact h x hx c hb

theorem IsWord.cellText {w : Bytes} (h : IsWord w) : CellText w := by
  intro c hc hr
  have : c = 9 ∨ c = 10 ∨ c = 11 ∨ c = 12 ∨ c = 13 := by
    revert hr; revert c
    intro c _ hr
    have h1 : 9 ≤ c.toNat := by simpa [UInt8.le_iff_toNat_le] using hr.1
    have h2 : c.toNat ≤ 13 := by simpa [UInt8.le_iff_toNat_le] using hr.2
    have h3 : c = UInt8.ofNat c.toNat := by simp
    have h4 : c.toNat = 9 ∨ c.toNat = 10 ∨ c.toNat = 11 ∨ c.toNat = 12 ∨ c.toNat = 13 := by omega
    rcases h4 with h | h | h | h | h <;> rw [h] at h3 <;> rw [h3] <;> decide
  rcases this with rfl | rfl | rfl | rfl | rfl <;> exact h.no (by decide) hc

theorem ShownSignet.plain {s : Signet} (h : ShownSignet s) : PlainSignet s := ⟨h.name.noFeed, h.scheme.noFeed, h.id⟩

theorem ShownSignet.of_same {s o : Signet} (h : ShownSignet s) (hi : o.id = s.id) (hs : o.scheme = s.scheme) (hf : o.info = s.info) :
    ShownSignet o := by
  have hn : formatSignetName o = formatSignetName s := by unfold formatSignetName; rw [hf, hi]
  exact ⟨by rw [hn]; exact h.name, by rw [hn]; exact h.nameLen, by rw [hs]; exact h.scheme, by rw [hs]; exact h.schemeLen,
    by rw [hi]; exact h.id, by rw [hi]; exact h.idLen⟩

/-- A reference has short texts, if the ID is short. -/
theorem shown_ref {s : Signet} (hid : IsWord s.id) (hl : s.id.length ≤ 5000) (hi : s.info = none) (hs : CellText s.scheme)
    (hsl : s.scheme.length ≤ 5000) : ShownSignet s := by
  have hn : formatSignetName s = s.id := by unfold formatSignetName; rw [hi]; simp [hid.1]
  exact ⟨by rw [hn]; exact hid.cellText, by rw [hn]; exact hl, hs, hsl, hid, hl⟩

theorem levelText_len (P : Prims) (s : Signet) : (formatSignetSecurityLevel P s).length ≤ 5000 := by
  unfold formatSignetSecurityLevel
  split
  · simp
  · split
    · decide
    · rename_i t ht
      have hm : t ∈ toolTable := List.mem_of_find?_eq_some ht
      have hb : ∀ t ∈ toolTable, (formatSecurityLevel t.securityLevel).length ≤ 5000 := by decide +kernel
      split
      · decide
      · decide
      · rename_i n hn
        unfold ToolInst.secLevel at hn
        split at hn
        · unfold rsaSignetLevel at hn
          rw [bind_ok_iff] at hn
          obtain ⟨l, _, hn⟩ := hn
          split at hn
          · cases hn
          · split at hn
            · cases hn
            · cases hn
              unfold rsaLevel
              (repeat' split) <;> decide +kernel
        · simp only [ToolInst.baseLevel] at hn
          cases hn
          exact hb t hm

theorem signetRow_len (P : Prims) {s : Signet} (h : ShownSignet s) : ∀ x ∈ signetRow P s, x.length ≤ 5000 := by
  intro x hx
  simp only [signetRow, List.mem_cons, List.not_mem_nil, or_false] at hx
  rcases hx with rfl | rfl | rfl | rfl | rfl | rfl
  · exact h.nameLen
  · unfold formatSignetType; (repeat' split) <;> decide
  · unfold formatSignetScheme; split
    · simp
    · exact h.schemeLen
  · unfold formatSignetPurpose; split
    · simp
    · split
      · decide
      · rename_i t _; cases t.purpose <;> decide
  · exact levelText_len P s
  · exact h.idLen

theorem cellText_decimal (n : Int) : CellText (decimal n) := by
  intro c hc hr
  rcases decimal_bytes n c hc with h | h
  · subst h; revert hr; decide
  · have h1 : 48 ≤ c.toNat := by simpa [UInt8.le_iff_toNat_le] using h.1
    have h2 : c.toNat ≤ 13 := by simpa [UInt8.le_iff_toNat_le] using hr.2
    omega

theorem cellText_level (n : Int) : CellText (formatSecurityLevel n) := (cellText_decimal n).append (by decide)

theorem signetRow_cells (P : Prims) {s : Signet} (h : ShownSignet s) : cellsOf (signetRow P s) = signetRow P s := by
  apply cellsOf_plain
  intro x hx
  refine CellText.noTab ?_
  simp only [signetRow, List.mem_cons, List.not_mem_nil, or_false] at hx
  rcases hx with rfl | rfl | rfl | rfl | rfl | rfl
  · exact h.name
  · unfold formatSignetType; (repeat' split) <;> decide
  · unfold formatSignetScheme; split
    · exact cellText_nil
    · exact h.scheme
  · unfold formatSignetPurpose; split
    · exact cellText_nil
    · split
      · decide
      · rename_i t _; cases t.purpose <;> decide
  · unfold formatSignetSecurityLevel; split
    · exact cellText_nil
    · split
      · decide
      · split
        · decide
        · decide
        · exact cellText_level _
  · exact h.id.cellText

/-! ## Lists of signets -/

/-- The list of signets is shown. -/
theorem signets_fit {E : DlgEnv} (hpad : FillsColumns E.pad) {S : List Signet} (hne : S ≠ []) (h : ∀ s ∈ S, ShownSignet s) :
    formatColumns E.pad (S.map (signetRow E.P)) ≠ [] := by
  have hmem : ∀ r ∈ S.map (signetRow E.P), ∃ s ∈ S, r = signetRow E.P s := by
    intro r hr
    obtain ⟨s, hs, rfl⟩ := List.mem_map.1 hr
    exact ⟨s, hs, rfl⟩
  apply formatColumns_fit
  · simpa using hne
  · intro r hr
    obtain ⟨s, hs, rfl⟩ := hmem r hr
    exact signetRow_oneLine E.P (h s hs).plain
  · intro l hl
    obtain ⟨k, c, hc, rfl⟩ := padLines_mem _ hl
    obtain ⟨r, hr, rfl⟩ := List.mem_map.1 hc
    obtain ⟨s, hs, rfl⟩ := hmem r hr
    have hp := hpad (S.map (signetRow E.P)) 5000 (by
      intro r hr x hx
      obtain ⟨s, hs, rfl⟩ := hmem r hr
      rw [signetRow_cells E.P (h s hs)] at hx
      exact signetRow_len E.P (h s hs) x hx)
    have := padCells_length (N := 5000) (M := 5008) (cells := cellsOf (signetRow E.P s)) (pad := E.pad (S.map (signetRow E.P)) k)
      (by rw [signetRow_cells E.P (h s hs)]; exact signetRow_len E.P (h s hs)) (hp k)
    rw [signetRow_cells E.P (h s hs)] at this ⊢
    have h6 : (signetRow E.P s).length = 6 := rfl
    rw [h6] at this
    omega
  · intro r hr
    obtain ⟨s, hs, rfl⟩ := hmem r (List.mem_of_getLast? hr)
    simp [signetRow]

theorem mem_padLines {E : DlgEnv} {t : List (List Bytes)} {pad : Nat → Nat → Nat} {i : Nat} {l : Bytes}
    (h : (padLines pad 0 (t.map cellsOf))[i]? = some l) : ∃ r ∈ t, ∃ p : Nat → Nat, l = padCells p (cellsOf r) := by
  obtain ⟨k, c, hc, rfl⟩ := padLines_mem _ (List.mem_of_getElem? h)
  obtain ⟨r, hr, rfl⟩ := List.mem_map.1 hc
  exact ⟨r, hr, _, rfl⟩

theorem np_pickOne {E : DlgEnv} {S : List Signet} (h : ∀ s ∈ S, ShownSignet s) (row : Option Nat) : (pickOne E S b!"Done" row).noPanic := by
  rw [pickOne_eq]
  split
  · exact np_err (by decide)
  · rename_i line hline
    split
    · exact np_ok _
    · refine np_map _ ?_
      unfold signetOfLine
      split
      · rename_i hf
        exfalso
        obtain ⟨i, _, hi⟩ := Option.bind_eq_some_iff.1 hline
        have hne : signetLines E S ≠ [] := by intro he; rw [he] at hi; cases hi
        rw [signetLines_eq (fun s hs => (h s hs).plain) hne] at hi
        obtain ⟨r, hr, p, rfl⟩ := mem_padLines (E := E) hi
        rcases List.mem_cons.1 hr with rfl | hr
        · have : fields (padCells p (cellsOf [b!"Done"])) = [b!"Done"] := by
            rw [fields_cells]; decide +kernel
          rw [this] at hf
          cases hf
        · obtain ⟨s, hs, rfl⟩ := List.mem_map.1 hr
          rw [line_id E.P (h s hs).plain] at hf
          cases hf
      · exact np_ok _

theorem np_pickMany {E : DlgEnv} (hpad : FillsColumns E.pad) {options pre : List Signet} (ho : options ≠ [])
    (h : ∀ s ∈ pre ++ options, ShownSignet s) (rows : Option (Nat → Bool)) : (pickMany E options pre rows).noPanic := by
  have hoff : ∀ s ∈ offered options pre, ShownSignet s := by
    intro s hs
    apply h
    rcases List.mem_append.1 hs with h | h
    · exact List.mem_append.2 (Or.inl h)
    · exact List.mem_append.2 (Or.inr (List.mem_filter.1 h).1)
  have hne : offered options pre ≠ [] := by
    intro he
    obtain ⟨h1, h2⟩ := List.append_eq_nil_iff.1 he
    subst h1
    simp only [List.any_nil, Bool.not_false] at h2
    rw [List.filter_eq_self.2 (by simp)] at h2
    exact ho h2
  have hf : formatColumns E.pad (pickRows E.P options pre) ≠ [] := signets_fit hpad hne hoff
  cases rows with
  | some c =>
    obtain ⟨picked, hp, _⟩ := pickMany_chosen (fun s hs => (h s hs).plain) hf c
    rw [hp]
    exact np_ok _
  | none =>
    have h1 := pickMany_chosen (fun s hs => (h s hs).plain) hf (fun _ => false)
    obtain ⟨picked, hp, _⟩ := h1
    unfold pickMany at hp ⊢
    dsimp only at hp ⊢
    by_cases hl : (formatColumns E.pad (pickRows E.P options pre)).length < pre.length
    · rw [if_pos hl] at hp; cases hp
    · rw [if_neg hl]
      exact np_err (by decide)

/-! ## Envelopes -/

/-- An envelope in the dialog: short texts, and the suite is loaded or known. -/
structure EditText (reg : List Suite) (e : Envelope) : Prop where
  shown : ShownEnvelope e
  known : e.suite.isSome = true ∨ (getSuite reg e.suiteID).isSome = true

theorem nameFromStore_cases {get : Bytes → Bool → Res Signet} {w : World} (hw : w.store = some get) (s : Signet) :
    nameFromStore w s = s ∨ ∃ n ni i, get s.id false = .ok n ∧ n.info = some ni ∧ nameFromStore w s = { s with info := some i } ∧ i.name = ni.name := by
  unfold nameFromStore
  simp only [hw]
  (repeat' split) <;> first | exact Or.inl rfl | skip
  all_goals
    right
    apply Exists.intro; apply Exists.intro; apply Exists.intro
    apply And.intro
    · assumption
    apply And.intro
    · assumption
    apply And.intro
    · rfl
    · rfl

theorem shown_name {get : Bytes → Bool → Res Signet} (hget : ∀ id r n, get id r = .ok n → ShownSignet n) {w : World}
    (hw : w.store = some get) {s : Signet} (h : ShownSignet s) : ShownSignet (nameFromStore w s) := by
  rcases nameFromStore_cases hw s with h1 | ⟨n, ni, i, hn, hni, h1, hin⟩
  · rw [h1]; exact h
  · rw [h1]
    have hsn := hget _ _ _ hn
    have key : CellText (formatSignetName { s with info := some i }) ∧ (formatSignetName { s with info := some i }).length ≤ 5000 := by
      unfold formatSignetName
      dsimp only
      by_cases hne : ni.name = []
      · rw [hin, if_neg (by simp [hne]), if_pos h.id.1]
        exact ⟨h.id.cellText, h.idLen⟩
      · rw [hin, if_pos hne]
        have : formatSignetName n = ni.name := by unfold formatSignetName; rw [hni]; dsimp only; rw [if_pos hne]
        rw [← this]
        exact ⟨hsn.name, hsn.nameLen⟩
    exact ⟨key.1, key.2, h.scheme, h.schemeLen, h.id, h.idLen⟩

theorem shown_finish {P : Prims} {s o : Signet} (h : ShownSignet s) (hf : finishPrep P s = .ok o) : ShownSignet o := by
  obtain ⟨_, h2, h3, _, h5⟩ := finishPrep_spec hf
  refine h.of_same h3 h2 ?_
  rcases h5 with ⟨_, rfl⟩ | ⟨_, _, hl⟩
  · rfl
  · exact (load_spec hl).2.2.2.2.2.1

/-- What the dialog uses as surroundings of a session. -/
def dialogWorld {σ : Type} (T : Trust σ) (st : σ) (r : EditRound) : World := { store := some (T.getSignet st), createPw := some r.createPw }

theorem shown_prepOne {P : Prims} {σ : Type} {T : Trust σ} {I : σ → Prop} (hT : T.Tidy I) {st : σ} (hI : I st) {r : EditRound} (hr : r.Prompts)
    (level : Int) (flag : Bool) {s : Signet} (h : ShownSignet s) :
    ShownSignet (prepOneIn P (dialogWorld T st r) level flag s).1 := by
  have hget : ∀ id r n, T.getSignet st id r = .ok n → ShownSignet n := fun id r n hn => (hT.getSignet st id r hI).2 n hn
  have hn := shown_name (w := dialogWorld T st r) hget rfl h
  have hfin : ∀ n : Signet, ShownSignet n → ∀ f : Bool, ShownSignet
      (match finishPrep P n with | .error x => (n, f, (.error x : Res Unit)) | .ok n => (n, f, .ok ())).1 := by
    intro n hs f
    split
    · exact hs
    · rename_i o ho; exact shown_finish hs ho
  unfold prepOneIn
  split
  · split
    · split
      · exact hn
      · rename_i o ho
        unfold fillPassword at ho
        split at ho
        · obtain ⟨k, hk⟩ := (hr _ _).2 _ ho
          rw [hk]
          exact hn.of_same rfl rfl rfl
        · cases ho; exact h
    · dsimp only
      split
      · exact h
      · rename_i n hf
        obtain ⟨_, ⟨get, hg, h3⟩, _⟩ := fetchSignet_spec hf
        cases hg
        exact hfin n (hget _ _ _ h3) _
  · exact hfin s h _

theorem shown_prep {P : Prims} {σ : Type} {T : Trust σ} {I : σ → Prop} (hT : T.Tidy I) {st : σ} (hI : I st) {r : EditRound} (hr : r.Prompts)
    (level : Int) : ∀ (l : List Signet) (flag : Bool), (∀ s ∈ l, ShownSignet s) →
      ∀ s ∈ (prepIn P (dialogWorld T st r) level flag l).1, ShownSignet s
  | [], _, _ => by intro s hs; cases hs
  | x :: l, flag, h => by
    rw [prepIn_cons]
    have h1 := shown_prepOne (P := P) hT hI hr level flag (h x (by simp))
    generalize prepOneIn P (dialogWorld T st r) level flag x = y at *
    obtain ⟨y, f, z⟩ := y
    cases z with
    | error e =>
      intro s hs
      rcases List.mem_cons.1 hs with rfl | hs
      · exact h1
      · exact h s (by simp [hs])
    | ok u =>
      intro s hs
      rcases List.mem_cons.1 hs with rfl | hs
      · exact h1
      · exact shown_prep hT hI hr level l f (fun z hz => h z (by simp [hz])) s hs

theorem shown_prepare {P : Prims} {σ : Type} {T : Trust σ} {I : σ → Prop} (hT : T.Tidy I) {st : σ} (hI : I st) {r : EditRound} (hr : r.Prompts)
    (level : Int) {e : Envelope} (h : ShownEnvelope e) :
    ShownEnvelope (prepareIn P (dialogWorld T st r) level e).1 ∧ (prepareIn P (dialogWorld T st r) level e).1.suite = e.suite := by
  have hp := fun (l : List Signet) (f : Bool) (hl : ∀ s ∈ l, ShownSignet s) => shown_prep (P := P) hT hI hr level l f hl
  have ha := hp e.secrets e.opening (fun s hs => h.signets s (by simp [hs]))
  have hb := hp e.senders e.opening (fun s hs => h.signets s (by simp [hs]))
  have hc := hp e.recipients (!e.opening) (fun s hs => h.signets s (by simp [hs]))
  unfold prepareIn
  generalize prepIn P (dialogWorld T st r) level e.opening e.secrets = x at *
  obtain ⟨x1, x2⟩ := x
  generalize prepIn P (dialogWorld T st r) level e.opening e.senders = y at *
  obtain ⟨y1, y2⟩ := y
  generalize prepIn P (dialogWorld T st r) level (!e.opening) e.recipients = z at *
  have hx : ∀ s ∈ e.secrets ++ e.senders ++ e.recipients, ShownSignet s := h.signets
  simp only [List.mem_append] at hx
  cases x2 with
  | error _ =>
    refine ⟨⟨h.name, h.suite, ?_⟩, rfl⟩
    intro s hs
    simp only [List.mem_append] at hs
    rcases hs with (hs | hs) | hs
    · exact ha s hs
    · exact hx s (Or.inl (Or.inr hs))
    · exact hx s (Or.inr hs)
  | ok _ =>
    cases y2 with
    | error _ =>
      refine ⟨⟨h.name, h.suite, ?_⟩, rfl⟩
      intro s hs
      simp only [List.mem_append] at hs
      rcases hs with (hs | hs) | hs
      · exact ha s hs
      · exact hb s hs
      · exact hx s (Or.inr hs)
    | ok _ =>
      refine ⟨⟨h.name, h.suite, ?_⟩, rfl⟩
      intro s hs
      simp only [List.mem_append] at hs
      rcases hs with (hs | hs) | hs
      · exact ha s hs
      · exact hb s hs
      · exact hc s hs

theorem loadSuite_text {reg : List Suite} {e : Envelope} (h : EditText reg e) :
    ∃ e' su, loadSuite reg e = .ok (e', su) ∧ ShownEnvelope e' ∧ e'.suite.isSome = true := by
  unfold loadSuite
  cases hs : e.suite with
  | some su => exact ⟨e, su, rfl, h.shown, by rw [hs]; rfl⟩
  | none =>
    rcases h.known with hk | hk
    · rw [hs] at hk; cases hk
    · cases hg : getSuite reg e.suiteID with
      | none => rw [hg] at hk; cases hk
      | some su => exact ⟨_, su, rfl, ⟨h.shown.name, h.shown.suite, h.shown.signets⟩, rfl⟩

theorem shown_correspondence {P : Prims} {cfg : Config} {reg : List Suite} {σ : Type} {T : Trust σ} {I : σ → Prop} (hT : T.Tidy I) {st : σ}
    (hI : I st) {r : EditRound} (hr : r.Prompts) {e : Envelope} (h : EditText reg e) :
    ShownEnvelope (correspondenceIn P cfg (dialogWorld T st r) reg e).1 ∧
    (correspondenceIn P cfg (dialogWorld T st r) reg e).1.suite.isSome = true := by
  obtain ⟨e', su, hl, h1, h2⟩ := loadSuite_text h
  unfold correspondenceIn
  rw [hl]
  dsimp only
  obtain ⟨h3, h4⟩ := shown_prepare (P := P) hT hI hr su.securityLevel h1
  generalize prepareIn P (dialogWorld T st r) su.securityLevel e' = y at *
  obtain ⟨y1, y2⟩ := y
  dsimp only at h3 h4
  cases y2 with
  | error _ => exact ⟨h3, by dsimp only; rw [h4]; exact h2⟩
  | ok _ => exact ⟨h3, by dsimp only; rw [h4]; exact h2⟩

theorem editStatus_text {E : DlgEnv} {σ : Type} {T : Trust σ} {I : σ → Prop} (hT : T.Tidy I) {st : σ}
    (hI : I st) {r : EditRound} (hr : r.Prompts) {e : Envelope} (h : EditText E.reg e) :
    ShownEnvelope (editStatus E T st r e) ∧ (editStatus E T st r e).suite.isSome = true := by
  have h0 : EditText E.reg { e with securityLevel := 0 } := ⟨⟨h.shown.name, h.shown.suite, h.shown.signets⟩, h.known⟩
  have h1 := shown_correspondence (P := E.P) (cfg := E.cfg) hT hI hr h0
  unfold editStatus
  unfold dialogWorld at h1
  generalize correspondenceIn E.P E.cfg { store := some (T.getSignet st), createPw := some r.createPw } E.reg { e with securityLevel := 0 } = y at *
  obtain ⟨y1, y2⟩ := y
  cases y2 with
  | error _ => exact h1
  | ok s => exact ⟨⟨h1.1.name, h1.1.suite, h1.1.signets⟩, h1.2⟩

theorem status_calm {E : DlgEnv} (hP : E.P.NoPanic) {σ : Type} {T : Trust σ} {I : σ → Prop} (hT : T.Tidy I) {st : σ}
    (hI : I st) {r : EditRound} (hr : r.Prompts) (e : Envelope) : statusCrashes E T st r e = false := by
  unfold statusCrashes
  rw [correspondenceIn_eq]
  have hc : World.Calm { store := some (T.getSignet st), createPw := some r.createPw } :=
    ⟨(by intro get hg id r; cases hg; exact (hT.getSignet st id r hI).1), (by intro cb hcb; cases hcb),
      (by intro cb hcb s l; cases hcb; exact (hr s l).1)⟩
  have := np_correspondence hP E.cfg hc E.reg { e with securityLevel := 0 }
  split
  · rename_i h; exact absurd h this
  · rfl

theorem clean_text {e : Envelope} (h : ShownEnvelope e) : ShownEnvelope e.clean := by
  refine ⟨h.name, h.suite, ?_⟩
  have key : ∀ s, ShownSignet s → ShownSignet s.clean := fun s hs =>
    shown_ref hs.id hs.idLen rfl hs.scheme hs.schemeLen
  intro s hs
  simp only [Envelope.clean, List.mem_append, List.mem_map] at hs
  have hx := h.signets
  simp only [List.mem_append] at hx
  rcases hs with (⟨x, hm, rfl⟩ | ⟨x, hm, rfl⟩) | ⟨x, hm, rfl⟩
  · exact key x (hx x (Or.inl (Or.inl hm)))
  · exact key x (hx x (Or.inl (Or.inr hm)))
  · exact key x (hx x (Or.inr hm))

theorem current_text {e : Envelope} (h : ShownEnvelope e) (scope : Scope) : ∀ s ∈ scope.current e, ShownSignet s := by
  have hx := h.signets
  simp only [List.mem_append] at hx
  intro s hs
  cases scope
  · cases hs
  · cases hs
  · exact hx s (Or.inl (Or.inl hs))
  · exact hx s (Or.inr hs)
  · exact hx s (Or.inl (Or.inr hs))

theorem signetsOfLines_mem {S : List Signet} : ∀ {ls : List Bytes} {l : List Signet}, signetsOfLines S ls = .ok l → ∀ s ∈ l, s ∈ S
  | [], l, h => by cases h; intro s hs; cases hs
  | x :: ls, l, h => by
    simp only [signetsOfLines, bind_ok_iff] at h
    obtain ⟨o, h1, r, h2, h3⟩ := h
    cases h3
    intro s hs
    rcases List.mem_append.1 hs with hs | hs
    · unfold signetOfLine at h1
      split at h1
      · cases h1
      · cases h1
        exact List.mem_of_find?_eq_some (Option.mem_toList.1 hs)
    · exact signetsOfLines_mem h2 s hs

theorem select_text {E : DlgEnv} (hpad : FillsColumns E.pad) {σ : Type} {T : Trust σ} {I : σ → Prop} (hT : T.Tidy I) {st : σ}
    (hI : I st) {e : Envelope} (h : ShownEnvelope e) (scope : Scope) (rows : Option (Nat → Bool)) :
    (selectSignets E T st e scope rows).noPanic ∧
    ∀ e', selectSignets E T st e scope rows = .ok e' → ShownEnvelope e' ∧ e'.suite = e.suite ∧ e'.suiteID = e.suiteID := by
  have hs := hT.select st scope.filter scope.schemes hI
  have hcur := current_text h scope
  constructor
  · unfold selectSignets
    refine np_bind hs.1 fun l hl => ?_
    split
    · exact np_err (by decide)
    · rename_i hne
      refine np_bind (np_pickMany hpad (fun he => hne (by rw [he]; rfl)) ?_ rows) fun _ _ => np_ok _
      intro s hm
      rcases List.mem_append.1 hm with hm | hm
      · exact hcur s hm
      · exact hs.2 l hl s hm
  · intro e' he
    unfold selectSignets at he
    rw [bind_ok_iff] at he
    obtain ⟨l, hl, he⟩ := he
    split at he
    · cases he
    · rw [bind_ok_iff] at he
      obtain ⟨picked, hp, he⟩ := he
      cases he
      have hpk : ∀ s ∈ picked, ShownSignet s := by
        intro s hm
        unfold pickMany at hp
        dsimp only at hp
        by_cases hlt : (formatColumns E.pad (pickRows E.P l (scope.current e))).length < (scope.current e).length
        · rw [if_pos hlt] at hp; cases hp
        · rw [if_neg hlt] at hp
          split at hp
          · cases hp
          · split at hp
            · cases hp
            · have := signetsOfLines_mem hp s hm
              rcases List.mem_append.1 this with hm | hm
              · exact hcur s hm
              · exact hs.2 l hl s hm
      have href : ∀ s ∈ picked.map (fun s => ({ id := s.id } : Signet)), ShownSignet s := by
        intro s hm
        obtain ⟨x, hx, rfl⟩ := List.mem_map.1 hm
        exact shown_ref (hpk x hx).id (hpk x hx).idLen rfl (by show CellText []; exact cellText_nil) (by show ([] : Bytes).length ≤ 5000; simp)
      have hx := h.signets
      simp only [List.mem_append] at hx
      cases scope <;> refine ⟨⟨h.name, h.suite, ?_⟩, rfl, rfl⟩ <;> intro s hm <;> simp only [Scope.assign, List.mem_append] at hm <;>
        rcases hm with (hm | hm) | hm <;>
        first
        | exact href s hm
        | exact hx s (Or.inl (Or.inl hm))
        | exact hx s (Or.inl (Or.inr hm))
        | exact hx s (Or.inr hm)

/-! ## The dialogs -/

theorem suite_text {E : DlgEnv} (hreg : E.reg = suiteRegistry) {e : Envelope} (h : ShownEnvelope e) (row : Option Nat) :
    (editEnvelopeSuite E e row).noPanic ∧ ∀ e', editEnvelopeSuite E e row = .ok e' → EditText E.reg e' := by
  cases row with
  | none => exact ⟨np_err (by decide), by intro e' he; cases he⟩
  | some i =>
    by_cases hne : formatColumns E.pad (suiteRegistry.map suiteRow) = []
    · have : editEnvelopeSuite E e (some i) = .error .env := by
        unfold editEnvelopeSuite
        rw [hreg, hne]
        rfl
      rw [this]
      exact ⟨np_err (by decide), by intro e' he; cases he⟩
    · cases hi : suiteRegistry[i]? with
      | none =>
        have : editEnvelopeSuite E e (some i) = .error .env := by
          unfold editEnvelopeSuite
          rw [hreg, Option.bind_some, suite_lines _ hne, padLines_get]
          simp only [List.getElem?_map, hi, Option.map_none]
        rw [this]
        exact ⟨np_err (by decide), by intro e' he; cases he⟩
      | some su =>
        rw [suite_chosen hreg hne e hi]
        refine ⟨np_ok _, ?_⟩
        intro e' he
        cases he
        have h1 : ∀ s ∈ suiteRegistry, CellText s.id := by decide +kernel
        exact ⟨⟨h.name, h1 su (List.mem_of_getElem? hi), h.signets⟩, Or.inl rfl⟩

/-- A round does not crash: the dialog goes on with an envelope with short texts, or ends without a crash. -/
def Next.Calm {σ : Type} (reg : List Suite) (I : σ → Prop) : Next σ → Prop
  | .again e => EditText reg e
  | .stop st r => I st ∧ r.noPanic

theorem calm_ofRes {σ : Type} {reg : List Suite} {I : σ → Prop} {st : σ} (hI : I st) {r : Res Envelope} (h1 : r.noPanic)
    (h2 : ∀ e, r = .ok e → EditText reg e) : (Next.ofRes st r).Calm reg I := by
  cases r with
  | error x => exact ⟨hI, np_err (fun h => h1 (by rw [h]))⟩
  | ok e => exact h2 e rfl

theorem np_export (D : Dsd) (hD : ∀ e, (D.textEnvelope e).noPanic) (s : Bool) (e : Envelope) : (e.export D s).2.noPanic := by
  unfold Envelope.export
  refine np_bind (hD _) fun b _ => ?_
  split <;> exact np_ok _

section

variable {σ : Type} {E : DlgEnv} {T : Trust σ} {D : Dsd} {I : σ → Prop}

theorem editRound_calm (hP : E.P.NoPanic) (hreg : E.reg = suiteRegistry) (hpad : FillsColumns E.pad) (hT : T.Tidy I)
    (hD : ∀ e, (D.textEnvelope e).noPanic) {st : σ} (hI : I st) {r : EditRound} (hr : r.Prompts) {e : Envelope} (he : EditText E.reg e) :
    (editRound E T D st r e).Calm E.reg I := by
  obtain ⟨h1, h2⟩ := editStatus_text (E := E) hT hI hr he
  unfold editRound
  rw [status_calm hP hT hI hr e]
  simp only [Bool.false_eq_true, if_false]
  generalize editStatus E T st r e = x at *
  have hsel : ∀ scope : Scope, (Next.ofRes st (selectSignets E T st x scope r.sub)).Calm E.reg I := by
    intro scope
    obtain ⟨a, b⟩ := select_text hpad hT hI h1 scope r.sub
    refine calm_ofRes hI a fun e' he' => ?_
    obtain ⟨c, d, _⟩ := b e' he'
    exact ⟨c, Or.inl (by rw [d]; exact h2)⟩
  have hx : EditText E.reg x := ⟨h1, Or.inl h2⟩
  split
  · rename_i hs; rw [hs] at h2; cases h2
  · split
    · exact ⟨hI, np_err (by decide)⟩
    · unfold editAction
      split
      · split
        · exact hx
        · exact hT.storeEnvelope st _ hI (clean_text h1)
      · split
        · split
          · exact hx
          · split
            · rename_i y hy
              exact ⟨hI, by have := np_export D hD false x.clean; rw [hy] at this; exact np_err (fun h => this (by rw [h]))⟩
            · exact ⟨clean_text (clean_text h1), Or.inl h2⟩
        · split
          · exact ⟨hI, np_ok _⟩
          · split
            · exact hT.deleteEnvelope st _ hI
            · split
              · obtain ⟨a, b⟩ := suite_text hreg h1 r.suiteRow
                exact calm_ofRes hI a b
              · split
                · exact hsel _
                · split
                  · exact hsel _
                  · split
                    · exact hsel _
                    · exact hx

theorem editEnvelope_calm (hP : E.P.NoPanic) (hreg : E.reg = suiteRegistry) (hpad : FillsColumns E.pad) (hT : T.Tidy I)
    (hD : ∀ e, (D.textEnvelope e).noPanic) : ∀ (rs : List EditRound) {st : σ} {e : Envelope}, I st → (∀ r ∈ rs, r.Prompts) → EditText E.reg e →
      I (editEnvelope E T D rs st e).1 ∧ (editEnvelope E T D rs st e).2.noPanic
  | [], st, e, hI, _, _ => ⟨hI, np_err (by decide)⟩
  | r :: rs, st, e, hI, hr, he => by
    have h1 := editRound_calm (D := D) hP hreg hpad hT hD hI (hr r (by simp)) he
    rw [editEnvelope]
    generalize editRound E T D st r e = y at *
    cases y with
    | stop st' x => exact h1
    | again e' => exact editEnvelope_calm hP hreg hpad hT hD rs hI (fun q hq => hr q (by simp [hq])) h1

theorem selectAll_text (hpad : FillsColumns E.pad) (hT : T.Tidy I) {st : σ} (hI : I st) : ∀ (ss : List Scope) (rows : List (Option (Nat → Bool)))
    {e : Envelope}, ShownEnvelope e → (selectAll E T st rows ss e).noPanic ∧
      ∀ e', selectAll E T st rows ss e = .ok e' → ShownEnvelope e' ∧ e'.suiteID = e.suiteID
  | [], rows, e, h => ⟨np_ok _, by intro e' he; cases he; exact ⟨h, rfl⟩⟩
  | s :: ss, rows, e, h => by
    obtain ⟨a, b⟩ := select_text hpad hT hI h s (rows.headD none)
    rw [selectAll]
    refine ⟨np_bind a fun e1 h1 => (selectAll_text hpad hT hI ss rows.tail (b e1 h1).1).1, ?_⟩
    intro e' he
    rw [bind_ok_iff] at he
    obtain ⟨e1, h1, h2⟩ := he
    obtain ⟨b1, _, b3⟩ := b e1 h1
    obtain ⟨c1, c2⟩ := (selectAll_text hpad hT hI ss rows.tail b1).2 e' h2
    exact ⟨c1, c2.trans b3⟩

theorem PermittedName.cellText {x : Bytes} (h : PermittedName x) : CellText x := by
  intro c hc hr
  have h1 : 9 ≤ c.toNat := by simpa [UInt8.le_iff_toNat_le] using hr.1
  have h2 : c.toNat ≤ 13 := by simpa [UInt8.le_iff_toNat_le] using hr.2
  rcases h c hc with h | h | h | h
  · omega
  · omega
  · omega
  · simp only [List.mem_cons, List.not_mem_nil, or_false] at h
    rcases h with rfl | rfl | rfl | rfl | rfl | rfl <;> revert h2 <;> decide

/-- C72. `jess configure` does not crash, and leaves a store with short texts, if the texts in the store are short. -/
theorem configure_no_panic_partial (hP : E.P.NoPanic) (hreg : E.reg = suiteRegistry) (hpad : FillsColumns E.pad) (hT : T.Tidy I)
    (hD : ∀ e, (D.textEnvelope e).noPanic) {st : σ} (hI : I st) (args : List Bytes) (preset : Option Nat)
    (rows : List (Option (Nat → Bool))) (rounds : List EditRound) (hr : ∀ r ∈ rounds, r.Prompts) :
    (configureCommand E T D st args preset rows rounds).2.noPanic ∧ I (configureCommand E T D st args preset rows rounds).1 := by
  have ht : ∀ {x : Bytes}, CellText x → CellText (trimSpace x) := by
    intro x hx c hc
    obtain ⟨⟨l, r, _, _, h1⟩, _⟩ := trimSpace_spec x
    exact hx c (by rw [h1]; simp [hc])
  unfold configureCommand
  split
  · exact ⟨np_err (by decide), hI⟩
  · rename_i name rest
    split
    · exact ⟨np_err (by decide), hI⟩
    · rename_i hnice
      have hname : CellText name := ((playsNice_iff name).1 (by simpa using hnice)).cellText
      obtain ⟨g1, g2⟩ := hT.getEnvelope st name hI
      split
      · rename_i x hx
        exact ⟨by rw [hx] at g1; exact np_err (fun h => g1 (by rw [h])), hI⟩
      · rename_i e he
        have := editEnvelope_calm (E := E) (D := D) hP hreg hpad hT hD rounds hI hr ⟨(g2 e he).1, Or.inl (g2 e he).2⟩
        exact ⟨this.2, this.1⟩
      · have hn : (newEnvelope E T st name preset rows).noPanic ∧
            ∀ e, newEnvelope E T st name preset rows = .ok e → EditText E.reg e := by
          unfold newEnvelope
          split
          · exact ⟨np_err (by decide), by intro e he; cases he⟩
          · split
            · exact ⟨np_err (by decide), by intro e he; cases he⟩
            · rename_i suiteID scopes hp
              obtain ⟨i, _, hp⟩ := Option.bind_eq_some_iff.1 hp
              have hm := List.mem_of_getElem? hp
              have hall : ∀ p ∈ presets, CellText p.1 ∧ (getSuite suiteRegistry p.1).isSome = true := by decide +kernel
              have hs := hall _ hm
              have h0 : ShownEnvelope { version := 1, name := trimSpace name, suiteID := suiteID } :=
                ⟨ht hname, hs.1, by intro s hs; cases hs⟩
              obtain ⟨a, b⟩ := selectAll_text (E := E) hpad hT hI scopes rows h0
              refine ⟨a, fun e he => ?_⟩
              obtain ⟨c, d⟩ := b e he
              exact ⟨c, Or.inr (by rw [d, hreg]; exact hs.2)⟩
        split
        · rename_i x hx
          exact ⟨by rw [hx] at hn; exact np_err (fun h => hn.1 (by rw [h])), hI⟩
        · rename_i e he
          have := editEnvelope_calm (E := E) (D := D) hP hreg hpad hT hD rounds hI hr (hn.2 e he)
          exact ⟨this.2, this.1⟩

/-- C72. `jess manage`, signets. -/
theorem manage_signets_no_panic_partial (hT : T.Tidy I) : ∀ (rounds : List (Option Nat × Option Nat)) {st : σ}, I st →
    (manageSignets E T rounds st).2.noPanic ∧ I (manageSignets E T rounds st).1
  | [], st, hI => ⟨np_err (by decide), hI⟩
  | (row, action) :: rounds, st, hI => by
    obtain ⟨a, b⟩ := hT.select st 0 [] hI
    rw [manageSignets]
    split
    · rename_i x hx
      exact ⟨by rw [hx] at a; exact np_err (fun h => a (by rw [h])), hI⟩
    · rename_i all hall
      have hp := np_pickOne (E := E) (b all hall) row
      split
      · rename_i x hx
        exact ⟨by rw [hx] at hp; exact np_err (fun h => hp (by rw [h])), hI⟩
      · exact ⟨np_ok _, hI⟩
      · rename_i s _ _
        have hd := hT.deleteSignet st s.id s.isPublic hI
        split
        · generalize T.deleteSignet st s.id s.isPublic = y at *
          obtain ⟨y1, y2⟩ := y
          cases y2 with
          | error x => exact ⟨np_err (fun h => hd.2 (by rw [h])), hd.1⟩
          | ok _ => exact manage_signets_no_panic_partial hT rounds hd.1
        · exact manage_signets_no_panic_partial hT rounds hI
        · exact ⟨np_err (by decide), hI⟩

end

theorem cellText_short (r : Requirements) : CellText r.shortString := by
  unfold Requirements.shortString
  (repeat' split) <;> decide

theorem cellText_signets {e : Envelope} (h : ShownEnvelope e) : CellText (formatEnvelopeSignets e) := by
  have hx := h.signets
  simp only [List.mem_append] at hx
  have names : ∀ l : List Signet, (∀ s ∈ l, ShownSignet s) → CellText (formatSignetNames l) := by
    intro l hl
    refine cellText_join (by decide) ?_
    intro x hm
    obtain ⟨s, hs, rfl⟩ := List.mem_map.1 hm
    exact (hl s hs).name
  unfold formatEnvelopeSignets
  refine cellText_join (by decide) ?_
  intro x hm
  simp only [List.mem_append] at hm
  rcases hm with (hm | hm) | hm <;> (split at hm; · cases hm) <;> rw [List.mem_singleton] at hm <;> subst hm <;>
    refine CellText.append (by decide) (names _ ?_) <;> intro s hs
  · exact hx s (Or.inl (Or.inl hs))
  · exact hx s (Or.inr hs)
  · exact hx s (Or.inl (Or.inr hs))

theorem envelopeRow_text {e : Envelope} (h : ShownEnvelope e) (hs : e.suite.isSome = true) :
    ∃ r, envelopeRow e = some r ∧ OneLine r ∧ r ≠ [[]] ∧ ∀ p : Nat → Nat, fields (padCells p (cellsOf r)) ≠ [] := by
  cases hsu : e.suite with
  | none => rw [hsu] at hs; cases hs
  | some su =>
    refine ⟨[e.name, e.suiteID, b!"provides " ++ su.provides.shortString ++ b!" and " ++ formatSecurityLevel su.securityLevel,
      formatEnvelopeSignets e], by simp only [envelopeRow, hsu, Option.map_some], ?_, by simp, ?_⟩
    all_goals
      have hc : ∀ x ∈ [e.name, e.suiteID, b!"provides " ++ su.provides.shortString ++ b!" and " ++ formatSecurityLevel su.securityLevel,
          formatEnvelopeSignets e], CellText x := by
        intro x hx
        simp only [List.mem_cons, List.not_mem_nil, or_false] at hx
        rcases hx with rfl | rfl | rfl | rfl
        · exact h.name
        · exact h.suite
        · exact (((show CellText b!"provides " by decide).append (cellText_short _)).append (by decide)).append (cellText_level _)
        · exact cellText_signets h
    · refine ⟨by simp, fun x hx => (hc x hx).noFeed, ?_⟩
      intro x hx h13
      exact hc x (List.mem_of_getLast? hx) 13 h13 (by decide)
    · intro p hf
      rw [fields_cells, cellsOf_plain (fun x hx => (hc x hx).noTab)] at hf
      have h3 : fields (b!"provides " ++ su.provides.shortString ++ b!" and " ++ formatSecurityLevel su.securityLevel) = [] := by
        rw [List.flatMap_eq_nil_iff] at hf
        exact hf _ (by simp)
      have h4 : b!"provides " ++ su.provides.shortString ++ b!" and " ++ formatSecurityLevel su.securityLevel =
          b!"provides" ++ 32 :: (su.provides.shortString ++ b!" and " ++ formatSecurityLevel su.securityLevel) := by
        have : b!"provides " = b!"provides" ++ [32] := by decide
        rw [this]
        simp
      rw [h4, fields_blank, fields_word ⟨by decide, by decide⟩] at h3
      cases h3

theorem mapM_text : ∀ {all : List Envelope}, (∀ e ∈ all, ShownEnvelope e ∧ e.suite.isSome = true) →
    ∃ table, all.mapM envelopeRow = some table ∧
      ∀ r ∈ table, OneLine r ∧ r ≠ [[]] ∧ ∀ p : Nat → Nat, fields (padCells p (cellsOf r)) ≠ []
  | [], _ => ⟨[], rfl, by simp⟩
  | e :: all, h => by
    obtain ⟨t, h1, h2⟩ := mapM_text (all := all) (fun x hx => h x (by simp [hx]))
    obtain ⟨r, h3, h4⟩ := envelopeRow_text (h e (by simp)).1 (h e (by simp)).2
    refine ⟨r :: t, by rw [List.mapM_cons, h3, h1]; rfl, ?_⟩
    intro q hq
    rcases List.mem_cons.1 hq with rfl | hq
    · exact h4
    · exact h2 q hq

/-- C72. `jess manage`, envelopes. -/
theorem manage_envelopes_no_panic_partial {σ : Type} {E : DlgEnv} {T : Trust σ} {D : Dsd} {I : σ → Prop} (hP : E.P.NoPanic)
    (hreg : E.reg = suiteRegistry) (hpad : FillsColumns E.pad) (hT : T.Tidy I) (hD : ∀ e, (D.textEnvelope e).noPanic) :
    ∀ (rounds : List (Option Nat × List EditRound)) {st : σ}, I st → (∀ p ∈ rounds, ∀ r ∈ p.2, r.Prompts) →
      (manageEnvelopes E T D rounds st).2.noPanic ∧ I (manageEnvelopes E T D rounds st).1
  | [], st, hI, _ => ⟨np_err (by decide), hI⟩
  | (row, edits) :: rounds, st, hI, hr => by
    have ih := fun {st : σ} (hI : I st) => manage_envelopes_no_panic_partial (E := E) (D := D) hP hreg hpad hT hD rounds hI
      (fun p hp => hr p (by simp [hp]))
    obtain ⟨a, b⟩ := hT.allEnvelopes st hI
    rw [manageEnvelopes]
    split
    · rename_i x hx
      exact ⟨by rw [hx] at a; exact np_err (fun h => a (by rw [h])), hI⟩
    · rename_i all hall
      obtain ⟨table, ht, hrows⟩ := mapM_text (b all hall)
      rw [ht]
      dsimp only
      split
      · exact ⟨np_err (by decide), hI⟩
      · rename_i line hline
        split
        · exact ⟨np_ok _, hI⟩
        · split
          · rename_i hf
            exfalso
            obtain ⟨i, _, hi⟩ := Option.bind_eq_some_iff.1 hline
            have ho : ∀ r ∈ [b!"Done"] :: table, OneLine r ∧ r ≠ [[]] ∧ ∀ p : Nat → Nat, fields (padCells p (cellsOf r)) ≠ [] := by
              intro r hr
              rcases List.mem_cons.1 hr with rfl | hr
              · refine ⟨⟨by simp, ?_, ?_⟩, by decide, ?_⟩
                · decide
                · decide
                · intro p; rw [fields_cells]; decide +kernel
              · exact hrows r hr
            rcases formatColumns_rows (fun r hr => (ho r hr).1) (fun r hr => (ho r (List.mem_of_getLast? hr)).2.1) E.pad with h1 | h1
            · rw [h1] at hi; cases hi
            · rw [h1] at hi
              obtain ⟨r, hr, p, rfl⟩ := mem_padLines (E := E) hi
              exact (ho r hr).2.2 p hf
          · split
            · exact ih hI
            · rename_i e he
              have hm := List.mem_of_find?_eq_some he
              have hc := editEnvelope_calm (E := E) (D := D) hP hreg hpad hT hD edits hI (fun r hr' => hr (row, edits) (by simp) r hr')
                ⟨(b all hall e hm).1, Or.inl (b all hall e hm).2⟩
              generalize editEnvelope E T D edits st e = y at *
              obtain ⟨y1, y2⟩ := y
              cases y2 with
              | error x => exact ⟨np_err (fun h => hc.2 (by rw [h])), hc.1⟩
              | ok _ => exact ih hc.1

end Jess
