import Verif.Model.Listing
import Verif.Props.DialogPanics
import Verif.Props.Suites

/-! # C81: lists and dialogs show what there is -/

namespace Jess

open Requirements

/-! ## Specification -/

/-- The columns of a line: separated by at least three blanks. -/
def InColumns : List Bytes → Bytes → Prop
  | [], l => l = []
  | [x], l => l = x
  | x :: y :: xs, l => ∃ n r, 3 ≤ n ∧ l = x ++ List.replicate n 32 ++ r ∧ InColumns (y :: xs) r

/-- An enumeration. -/
def Enumerates : List Bytes → Bytes → Prop
  | [], l => l = []
  | [x], l => l = x
  | x :: y :: xs, l => ∃ r, l = x ++ b!", " ++ r ∧ Enumerates (y :: xs) r

/-- Reads a natural number. -/
def readNat : Bytes → Option Nat
  | [] => none
  | ds => ds.foldl (fun a c => if 48 ≤ c.toNat ∧ c.toNat ≤ 57 then a.map (fun v => 10 * v + (c.toNat - 48)) else none) (some 0)

/-- Reads a number. -/
def readInt : Bytes → Option Int
  | 45 :: r => (readNat r).map (fun v : Nat => - Int.ofNat v)
  | r => (readNat r).map Int.ofNat

/-- The text tells the security level. -/
def ShowsLevel (n : Int) (x : Bytes) : Prop := ∃ d, x = d ++ b!" b/s" ∧ readInt d = some n

/-- The letters tell the attributes. -/
structure ShowsAttrs (r : Requirements) (x : Bytes) : Prop where
  letters : x.Nodup ∧ ∀ c ∈ x, c ∈ b!"CIRS"
  confidentiality : 67 ∈ x ↔ Confidentiality ∈ r
  integrity : 73 ∈ x ↔ Integrity ∈ r
  recipient : 82 ∈ x ↔ RecipientAuthentication ∈ r
  sender : 83 ∈ x ↔ SenderAuthentication ∈ r

/-- The names of the attributes. -/
def attrNames : List (Attr × Bytes) := [(Confidentiality, b!"Confidentiality"), (Integrity, b!"Integrity"),
  (RecipientAuthentication, b!"RecipientAuthentication"), (SenderAuthentication, b!"SenderAuthentication")]

/-- The text enumerates the attributes, or says that there are none. -/
def NamesAttrs (r : Requirements) (x : Bytes) : Prop :=
  (r = [] → x = b!"none (unsafe)") ∧
  (r ≠ [] → ∃ names, Enumerates names x ∧ (∀ n ∈ names, n ∈ attrNames.map (·.2)) ∧ ∀ a n, (a, n) ∈ attrNames → (n ∈ names ↔ a ∈ r))

/-- The names of the purposes (tools/tool.go:33-78). -/
def purposeNames : List (Purpose × Bytes) := [(.keyDerivation, b!"KeyDerivation"), (.passDerivation, b!"PassDerivation"),
  (.keyExchange, b!"KeyExchange"), (.keyEncapsulation, b!"KeyEncapsulation"), (.signing, b!"Signing"), (.integratedCipher, b!"IntegratedCipher"),
  (.cipher, b!"Cipher"), (.mac, b!"MAC")]

/-- suite.go:3-8: deprecated, permitted, recommended. -/
def ShowsStatus (s : Suite) (x : Bytes) : Prop :=
  (s.status = 0 ↔ x = b!"DEPRECATED") ∧ (s.status = 2 ↔ x = b!"recommended")

/-- The columns for a suite. The texts in front of the attributes and tools are different in the list and in the dialog. -/
def SuiteColumns (pre pre' : Bytes) (s : Suite) (line : Bytes) : Prop :=
  ∃ attrs level tools status, InColumns [s.id, pre ++ attrs, level, pre' ++ tools, status] line ∧ ShowsAttrs s.provides attrs ∧
    ShowsLevel s.securityLevel level ∧ Enumerates s.tools tools ∧ ShowsStatus s status

/-- The columns for a tool. -/
def ToolColumns (about : Bytes → Bytes × Bytes) (t : ToolInfo) (line : Bytes) : Prop :=
  ∃ purpose level, InColumns [t.name, purpose, level, (about t.name).1, (about t.name).2] line ∧ (t.purpose, purpose) ∈ purposeNames ∧
    (t.needsSecurityLevel = true → b!"dynamic" <+: level) ∧
    (t.needsSecurityLevel = false → (t.securityLevel = 0 → level = []) ∧ (t.securityLevel ≠ 0 → ShowsLevel t.securityLevel level))

/-- The columns for a hash tool. -/
def HashColumns (about : Bytes → Bytes × Bytes) (h : HashTool) (line : Bytes) : Prop :=
  ∃ level, InColumns [h.name, level, (about h.name).1, (about h.name).2] line ∧ ShowsLevel h.securityLevel level

/-- The security level of a signet: the one of its tool, or of the size of its key if the tool has none of its own. -/
def HasLevel (P : Prims) (t : ToolInfo) (s : Signet) (n : Int) : Prop :=
  (t.name ≠ b!"RSA-PSS" ∧ t.name ≠ b!"RSA-OAEP" ∧ n = t.securityLevel) ∨
  ((t.name = b!"RSA-PSS" ∨ t.name = b!"RSA-OAEP") ∧ ∃ l pub bits, s.load P = .ok l ∧ l.loadedPub = some pub ∧ P.rsaBits pub = some bits ∧ n = rsaLevel bits ∧ 0 < n)

/-- The columns for a signet. -/
structure SignetColumns (P : Prims) (s : Signet) (name kind scheme purpose level : Bytes) : Prop where
  /-- the name, or the ID if there is none -/
  name : name = match s.info with
    | some i => if i.name = [] then s.id else i.name
    | none => s.id
  key : s.scheme = b!"key" → kind = b!"key" ∧ scheme = [] ∧ purpose = [] ∧ level = []
  password : s.scheme = b!"pw" → kind = b!"password" ∧ scheme = [] ∧ purpose = [] ∧ level = []
  other : s.scheme ≠ b!"key" → s.scheme ≠ b!"pw" → kind = (if s.isPublic then b!"recipient" else b!"signet") ∧ scheme = s.scheme
  known : s.scheme ≠ b!"key" → s.scheme ≠ b!"pw" → ∀ t, getTool s.scheme = some t → (t.purpose, purpose) ∈ purposeNames ∧
    ((∃ n, HasLevel P t s n ∧ ShowsLevel n level) ∨ (¬ ∃ n, HasLevel P t s n) ∧ (level = b!"[protected]" ∨ level = b!"[fail]"))
  unknown : s.scheme ≠ b!"key" → s.scheme ≠ b!"pw" → getTool s.scheme = none → purpose = b!"[unknown]" ∧ level = b!"[fail]"

/-! ## Texts -/

theorem padCells_columns (cells : List Bytes) : ∀ pad : Nat → Nat, InColumns cells (padCells pad cells) := by
  induction cells with
  | nil => intro pad; rfl
  | cons x xs ih =>
    intro pad
    cases xs with
    | nil => rfl
    | cons y ys => exact ⟨3 + pad 0, _, by omega, rfl, ih _⟩

theorem joinBytes_enumerates (l : List Bytes) : Enumerates l (joinBytes b!", " l) := by
  induction l with
  | nil => rfl
  | cons x xs ih =>
    cases xs with
    | nil => rfl
    | cons y ys => exact ⟨_, rfl, ih⟩

/-- The cells of a table and the lines: one line for each row, with the cells as columns. -/
theorem table_shown {pad : List (List Bytes) → Nat → Nat → Nat} (hpad : FillsColumns pad) {t : List (List Bytes)} (hne : t ≠ [])
    (h : ∀ r ∈ t, r ≠ [] ∧ r.length ≤ 6 ∧ ∀ x ∈ r, CellText x ∧ x.length ≤ 5000) (hlast : ∀ r ∈ t.getLast?, r ≠ [[]]) :
    All2 InColumns t (formatColumns pad t) := by
  have hone : ∀ r ∈ t, OneLine r := by
    intro r hr
    refine ⟨(h r hr).1, fun x hx => ((h r hr).2.2 x hx).1.noFeed, ?_⟩
    intro x hx h13
    exact ((h r hr).2.2 x (List.mem_of_getLast? hx)).1 13 h13 (by decide)
  have hcells : t.map cellsOf = t := by
    conv => rhs; rw [← List.map_id t]
    refine List.map_congr_left ?_
    intro r hr
    exact cellsOf_plain (fun x hx => ((h r hr).2.2 x hx).1.noTab)
  have hp := hpad t 5000 (by
    intro r hr x hx
    rw [cellsOf_plain (fun x hx => ((h r hr).2.2 x hx).1.noTab)] at hx
    exact ((h r hr).2.2 x hx).2)
  have hfit : formatColumns pad t ≠ [] := by
    refine formatColumns_fit hne hone pad ?_ hlast
    intro l hl
    rw [hcells] at hl
    obtain ⟨k, r, hr, rfl⟩ := padLines_mem _ hl
    have := padCells_length (N := 5000) (M := 5008) (cells := r) (pad := pad t k) (fun x hx => ((h r hr).2.2 x hx).2) (hp k)
    have h6 := (h r hr).2.1
    have : r.length * (5000 + 3 + 5008) ≤ 6 * (5000 + 3 + 5008) := Nat.mul_le_mul_right _ h6
    omega
  rcases formatColumns_rows hone hlast pad with h0 | h0
  · exact absurd h0 hfit
  · rw [h0, hcells]
    generalize pad t = p
    have key : ∀ (t : List (List Bytes)) (i : Nat), All2 InColumns t (padLines p i t) := by
      intro t
      induction t with
      | nil => intro i; exact .nil
      | cons r t ih => intro i; exact .cons (padCells_columns r _) (ih _)
    exact key t 0

/-! ## Numbers -/

theorem readNat_digits (ds : List Nat) (hd : ∀ d ∈ ds, d < 10) : ∀ v : Nat,
    (ds.map (fun d => UInt8.ofNat (48 + d))).foldl
      (fun a c => if 48 ≤ c.toNat ∧ c.toNat ≤ 57 then a.map (fun v => 10 * v + (c.toNat - 48)) else none) (some v) =
    some (ds.foldl (fun a d => a * 10 + d) v) := by
  induction ds with
  | nil => intro v; rfl
  | cons d ds ih =>
    intro v
    have hd' := hd d (by simp)
    have e : (UInt8.ofNat (48 + d)).toNat = 48 + d := by rw [UInt8.toNat_ofNat']; omega
    simp only [List.map_cons, List.foldl_cons, e]
    rw [if_pos (by omega), Option.map_some, ih (fun x hx => hd x (by simp [hx]))]
    congr 2
    omega

theorem toDigits_nil {n : Nat} (h : toDigits 10 n = []) : n = 0 := by
  have := ofDigits_toDigits (b := 10) (by decide) n
  rw [h] at this
  exact this.symm

theorem readNat_toDigits (n : Nat) (hn : n ≠ 0) : readNat ((toDigits 10 n).map (fun d => UInt8.ofNat (48 + d))) = some n := by
  cases hd : toDigits 10 n with
  | nil => exact absurd (toDigits_nil hd) hn
  | cons d ds =>
    have := readNat_digits (toDigits 10 n) (toDigits_lt (by decide) n) 0
    rw [show (toDigits 10 n).foldl (fun a d => a * 10 + d) 0 = n from ofDigits_toDigits (b := 10) (by decide) n, hd] at this
    exact this

/-- The decimal representation is read back. -/
theorem decimal_read (n : Int) : readInt (decimal n) = some n := by
  unfold decimal
  by_cases h0 : n = 0
  · subst h0; decide
  · have hne : n.natAbs ≠ 0 := by omega
    have hr := readNat_toDigits n.natAbs hne
    rw [if_neg h0]
    by_cases hneg : n < 0
    · rw [if_pos hneg]
      simp only [List.singleton_append, readInt]
      rw [hr, Option.map_some]
      congr 1
      rw [Int.ofNat_eq_natCast]
      omega
    · rw [if_neg hneg, List.nil_append]
      cases hd : toDigits 10 n.natAbs with
      | nil => exact absurd (toDigits_nil hd) hne
      | cons d ds =>
        rw [hd] at hr
        have hlt : d < 10 := toDigits_lt (by decide) n.natAbs d (by rw [hd]; simp)
        have h45 : UInt8.ofNat (48 + d) ≠ 45 := by
          intro h
          have := congrArg UInt8.toNat h
          rw [UInt8.toNat_ofNat', show (45 : UInt8).toNat = 45 from rfl] at this
          omega
        simp only [List.map_cons] at hr ⊢
        unfold readInt
        split
        · rename_i heq; exact absurd (List.cons.inj heq).1 h45
        · rw [hr, Option.map_some]
          congr 1
          rw [Int.ofNat_eq_natCast]
          omega

theorem level_shown (n : Int) : ShowsLevel n (formatSecurityLevel n) := ⟨decimal n, rfl, decimal_read n⟩

theorem attrs_shown (r : Requirements) : ShowsAttrs r r.shortString := by
  obtain ⟨h1, h2, h3, h4⟩ := shortString_mem r
  refine ⟨?_, h1, h2, h3, h4⟩
  unfold Requirements.shortString
  constructor
  · (repeat' split) <;> decide
  · (repeat' split) <;> decide

/-- The attributes a suite can provide. -/
def KnownAttrs (r : Requirements) : Prop := ∀ a ∈ r, a ∈ attrNames.map (·.1)

theorem attr_names_shown (r : Requirements) : KnownAttrs r → NamesAttrs r (formatRequirements r) := by
  intro hk
  unfold NamesAttrs formatRequirements
  refine ⟨by rintro rfl; rfl, ?_⟩
  intro hne
  rw [if_neg (by simpa using hne)]
  refine ⟨_, joinBytes_enumerates _, ?_, ?_⟩
  · intro n hn
    obtain ⟨a, ha, he⟩ := List.mem_filterMap.1 hn
    revert he
    (repeat' split) <;> intro he <;> cases he <;> decide
  · intro a n hm
    simp only [attrNames, List.mem_cons, List.not_mem_nil, or_false, Prod.mk.injEq] at hm
    constructor
    · intro hn
      obtain ⟨b, hb, he⟩ := List.mem_filterMap.1 hn
      rcases hm with ⟨rfl, rfl⟩ | ⟨rfl, rfl⟩ | ⟨rfl, rfl⟩ | ⟨rfl, rfl⟩ <;> revert he <;> (repeat' split) <;> intro he <;>
        first
        | (rename_i h; exact h ▸ hb)
        | (exfalso; revert he; decide)
    · intro ha
      refine List.mem_filterMap.2 ⟨a, ha, ?_⟩
      rcases hm with ⟨rfl, rfl⟩ | ⟨rfl, rfl⟩ | ⟨rfl, rfl⟩ | ⟨rfl, rfl⟩ <;> decide

theorem purpose_shown (p : Purpose) : (p, formatPurpose p) ∈ purposeNames := by cases p <;> decide

theorem status_shown (s : Suite) (hs : s.status ≤ 2) : ShowsStatus s (formatSuiteStatus s) := by
  have : s.status = 0 ∨ s.status = 1 ∨ s.status = 2 := by omega
  unfold ShowsStatus formatSuiteStatus
  rcases this with h | h | h <;> rw [h] <;> decide

/-! ## Suites and tools -/

theorem all2_map {α β γ : Type} {f : α → β} {R : β → γ → Prop} {l : List α} {m : List γ} (h : All2 R (l.map f) m) :
    All2 (fun a c => R (f a) c) l m := by
  induction l generalizing m with
  | nil => cases h; exact .nil
  | cons a l ih => cases h with | cons h1 h2 => exact .cons h1 (ih h2)

theorem all2_imp {α β : Type} {R R' : α → β → Prop} {l : List α} {m : List β} (h : All2 R l m) (hi : ∀ a ∈ l, ∀ b, R a b → R' a b) : All2 R' l m := by
  induction h with
  | nil => exact .nil
  | cons h1 _ ih => exact .cons (hi _ (by simp) _ h1) (ih (fun a ha => hi a (by simp [ha])))

theorem suite_statuses : ∀ s ∈ suiteRegistry, s.status ≤ 2 ∧ KnownAttrs s.provides := by
  have : ∀ s ∈ suiteRegistry, s.status ≤ 2 ∧ ∀ a ∈ s.provides, a ∈ attrNames.map (·.1) := by decide +kernel
  exact this

/-- C81. Choosing a suite in the envelope dialog: there is one line for each registered suite, in the order of registration, with its ID, attributes, level, tools and status. -/
theorem suite_dialog_shows {pad : List (List Bytes) → Nat → Nat → Nat} (hpad : FillsColumns pad) :
    All2 (SuiteColumns b!"provides " b!"uses ") suiteRegistry (formatColumns pad (suiteRegistry.map suiteRow)) := by
  have hd : ∀ r ∈ suiteRegistry.map suiteRow, r ≠ [] ∧ r.length ≤ 6 ∧ ∀ x ∈ r, CellText x ∧ x.length ≤ 5000 := by decide +kernel
  have hl : ∀ r ∈ (suiteRegistry.map suiteRow).getLast?, r ≠ [[]] := by decide +kernel
  refine all2_imp (all2_map (table_shown hpad (by decide) hd hl)) ?_
  intro s hs line h
  exact ⟨_, _, _, _, h, attrs_shown _, level_shown _, joinBytes_enumerates _, status_shown s (suite_statuses s hs).1⟩

/-- The list of tools is a permutation of the registered tools, sorted by name. -/
theorem tools_listed : toolsAsList.Perm toolTable ∧ hashToolsAsList.Perm hashTable ∧
    (toolsAsList.Pairwise (fun a b => bytesLess a.name b.name = true)) ∧ (hashToolsAsList.Pairwise (fun a b => bytesLess a.name b.name = true)) := by
  refine ⟨by decide +kernel, by decide +kernel, by decide +kernel, by decide +kernel⟩

/-- C81. `jess list` prints every suite, every tool and every hash tool exactly once, with what it provides and its security level. -/
theorem list_shows {pad : List (List Bytes) → Nat → Nat → Nat} (hpad : FillsColumns pad) (aboutTool aboutHash : Bytes → Bytes × Bytes)
    (ht : ∀ n, CellText (aboutTool n).1 ∧ CellText (aboutTool n).2 ∧ (aboutTool n).1.length ≤ 5000 ∧ (aboutTool n).2.length ≤ 5000)
    (hh : ∀ n, CellText (aboutHash n).1 ∧ CellText (aboutHash n).2 ∧ (aboutHash n).1.length ≤ 5000 ∧ (aboutHash n).2.length ≤ 5000) :
    ∃ (h1 h2 h3 : Bytes) (L1 L2 L3 : List Bytes),
      listCommand pad aboutTool aboutHash = b!"Suites\n\n" ++ (h1 :: L1).flatMap (· ++ b!"\n") ++ b!"\n\nTools\n\n" ++ (h2 :: L2).flatMap (· ++ b!"\n") ++
        b!"\n\nHashTools\n\n" ++ (h3 :: L3).flatMap (· ++ b!"\n") ∧
      All2 (SuiteColumns [] []) suiteRegistry L1 ∧
      (∃ tools, tools.Perm toolTable ∧ All2 (ToolColumns aboutTool) tools L2) ∧
      (∃ hashes, hashes.Perm hashTable ∧ All2 (HashColumns aboutHash) hashes L3) := by
  have a1 : All2 InColumns (suitesTable suiteRegistry) (formatColumns pad (suitesTable suiteRegistry)) :=
    table_shown hpad (by decide) (by decide +kernel) (by decide +kernel)
  have tt : ∀ t ∈ toolsAsList, CellText t.name ∧ t.name.length ≤ 5000 ∧ CellText (formatPurpose t.purpose) ∧ (formatPurpose t.purpose).length ≤ 5000 ∧
      CellText (formatToolSecurityLevel t) ∧ (formatToolSecurityLevel t).length ≤ 5000 := by decide +kernel
  have th : ∀ h ∈ hashToolsAsList, CellText h.name ∧ h.name.length ≤ 5000 ∧ CellText (decimal h.securityLevel ++ b!" b/s") ∧ (decimal h.securityLevel ++ b!" b/s").length ≤ 5000 := by
    decide +kernel
  have a2 : All2 InColumns (toolsTable aboutTool) (formatColumns pad (toolsTable aboutTool)) := by
    refine table_shown hpad (by simp [toolsTable]) ?_ ?_
    · intro r hr
      rcases List.mem_cons.1 hr with rfl | hr
      · decide
      · obtain ⟨t, hm, rfl⟩ := List.mem_map.1 hr
        refine ⟨by simp, by simp, ?_⟩
        intro x hx
        have b := tt t hm
        have c := ht t.name
        simp only [List.mem_cons, List.not_mem_nil, or_false] at hx
        rcases hx with rfl | rfl | rfl | rfl | rfl
        · exact ⟨b.1, b.2.1⟩
        · exact ⟨b.2.2.1, b.2.2.2.1⟩
        · exact b.2.2.2.2
        · exact ⟨c.1, c.2.2.1⟩
        · exact ⟨c.2.1, c.2.2.2⟩
    · intro r hr
      rcases List.mem_cons.1 (List.mem_of_getLast? hr) with rfl | hr
      · decide
      · obtain ⟨t, _, rfl⟩ := List.mem_map.1 hr
        simp
  have a3 : All2 InColumns (hashToolsTable aboutHash) (formatColumns pad (hashToolsTable aboutHash)) := by
    refine table_shown hpad (by simp [hashToolsTable]) ?_ ?_
    · intro r hr
      rcases List.mem_cons.1 hr with rfl | hr
      · decide
      · obtain ⟨t, hm, rfl⟩ := List.mem_map.1 hr
        refine ⟨by simp, by simp, ?_⟩
        intro x hx
        have b := th t hm
        have c := hh t.name
        simp only [List.mem_cons, List.not_mem_nil, or_false] at hx
        rcases hx with rfl | rfl | rfl | rfl
        · exact ⟨b.1, b.2.1⟩
        · exact b.2.2
        · exact ⟨c.1, c.2.2.1⟩
        · exact ⟨c.2.1, c.2.2.2⟩
    · intro r hr
      rcases List.mem_cons.1 (List.mem_of_getLast? hr) with rfl | hr
      · decide
      · obtain ⟨t, _, rfl⟩ := List.mem_map.1 hr
        simp
  unfold listCommand
  revert a1 a2 a3
  generalize formatColumns pad (suitesTable suiteRegistry) = f1
  generalize formatColumns pad (toolsTable aboutTool) = f2
  generalize formatColumns pad (hashToolsTable aboutHash) = f3
  intro a1 a2 a3
  unfold suitesTable at a1
  unfold toolsTable at a2
  unfold hashToolsTable at a3
  cases a1 with
  | cons _ b1 =>
    cases a2 with
    | cons _ b2 =>
      cases a3 with
      | cons _ b3 =>
        refine ⟨_, _, _, _, _, _, rfl, ?_, ⟨_, tools_listed.1, ?_⟩, ⟨_, tools_listed.2.1, ?_⟩⟩
        · refine all2_imp (all2_map b1) ?_
          intro s hs line h
          exact ⟨_, _, _, _, h, attrs_shown _, level_shown _, joinBytes_enumerates _, status_shown s (suite_statuses s hs).1⟩
        · refine all2_imp (all2_map b2) ?_
          intro t _ line h
          refine ⟨_, _, h, purpose_shown _, ?_, ?_⟩
          · intro hn; unfold formatToolSecurityLevel; rw [if_pos hn]; decide
          · intro hn
            unfold formatToolSecurityLevel
            rw [if_neg (by rw [hn]; decide)]
            refine ⟨fun h0 => by rw [if_pos h0], fun h0 => ?_⟩
            rw [if_neg h0]; exact level_shown _
        · refine all2_imp (all2_map b3) ?_
          intro t _ line h
          exact ⟨_, h, ⟨_, rfl, decimal_read _⟩⟩

/-! ## Signets -/

theorem signet_columns (P : Prims) (s : Signet) (hid : s.id ≠ []) :
    SignetColumns P s (formatSignetName s) (formatSignetType s) (formatSignetScheme s) (formatSignetPurpose s) (formatSignetSecurityLevel P s) := by
  constructor
  · unfold formatSignetName
    cases s.info with
    | none => simp [hid]
    | some i => by_cases h : i.name = [] <;> simp [h, hid]
  · intro h
    have h : s.scheme = schemeKey := h
    unfold formatSignetType formatSignetScheme formatSignetPurpose formatSignetSecurityLevel
    simp [h]
  · intro h
    have h : s.scheme = schemePassword := h
    unfold formatSignetType formatSignetScheme formatSignetPurpose formatSignetSecurityLevel
    simp [h, show schemePassword ≠ schemeKey from by decide]
  · intro h1 h2
    have h1 : s.scheme ≠ schemeKey := h1
    have h2 : s.scheme ≠ schemePassword := h2
    unfold formatSignetType formatSignetScheme
    simp [h1, h2]
  · intro h1 h2 t ht
    have h1 : s.scheme ≠ schemeKey := h1
    have h2 : s.scheme ≠ schemePassword := h2
    have hn : ¬ (s.scheme = schemeKey ∨ s.scheme = schemePassword) := by rintro (h | h); exact h1 h; exact h2 h
    unfold formatSignetPurpose formatSignetSecurityLevel
    rw [if_neg hn, if_neg hn]
    simp only [ht]
    refine ⟨purpose_shown _, ?_⟩
    unfold ToolInst.secLevel
    by_cases hr : t.isRSA = true
    · have hname : t.name = b!"RSA-PSS" ∨ t.name = b!"RSA-OAEP" := by
        unfold ToolInfo.isRSA at hr
        simpa using hr
      simp only [hr, if_true]
      cases hl : rsaSignetLevel P s with
      | ok n =>
        left
        refine ⟨n, ?_, level_shown n⟩
        right
        refine ⟨hname, ?_⟩
        unfold rsaSignetLevel at hl
        simp only [bind_ok_iff] at hl
        obtain ⟨l, hload, hl⟩ := hl
        cases hb : l.loadedPub.bind P.rsaBits with
        | none => rw [hb] at hl; cases hl
        | some bits =>
          rw [hb] at hl
          obtain ⟨pub, hpub, hbits⟩ := Option.bind_eq_some_iff.1 hb
          simp only at hl
          split at hl
          · cases hl
          · cases hl
            refine ⟨l, pub, bits, hload, hpub, hbits, rfl, ?_⟩
            have := rsaLevel_ne_zero bits
            omega
      | error x =>
        right
        constructor
        · rintro ⟨n, h⟩
          rcases h with ⟨ha, hb, _⟩ | ⟨_, l, pub, bits, hload, hpub, hbits, rfl, hpos⟩
          · rcases hname with h | h; exact ha h; exact hb h
          · unfold rsaSignetLevel at hl
            rw [hload, ok_bind, hpub, Option.bind_some, hbits] at hl
            simp only at hl
            rw [if_neg (by omega)] at hl
            cases hl
        · cases x <;> simp
    · have hname : t.name ≠ b!"RSA-PSS" ∧ t.name ≠ b!"RSA-OAEP" := by
        unfold ToolInfo.isRSA at hr
        simpa using hr
      rw [if_neg hr]
      left
      exact ⟨t.securityLevel, .inl ⟨hname.1, hname.2, rfl⟩, level_shown _⟩
  · intro h1 h2 ht
    have hn : ¬ (s.scheme = schemeKey ∨ s.scheme = schemePassword) := by rintro (h | h); exact h1 h; exact h2 h
    unfold formatSignetPurpose formatSignetSecurityLevel
    rw [if_neg hn, if_neg hn]
    simp only [ht, and_self]

theorem signetRow_text (P : Prims) {s : Signet} (h : ShownSignet s) : signetRow P s ≠ [] ∧ (signetRow P s).length ≤ 6 ∧ ∀ x ∈ signetRow P s, CellText x ∧ x.length ≤ 5000 := by
  refine ⟨by simp [signetRow], by simp [signetRow], ?_⟩
  intro x hx
  refine ⟨?_, signetRow_len P h x hx⟩
  simp only [signetRow, List.mem_cons, List.not_mem_nil, or_false] at hx
  rcases hx with rfl | rfl | rfl | rfl | rfl | rfl
  · exact h.name
  · unfold formatSignetType; (repeat' split) <;> decide
  · unfold formatSignetScheme; split
    · exact cellText_nil
    · exact h.scheme
  · unfold formatSignetPurpose; split
    · exact cellText_nil
    · split
      · decide
      · rename_i t _; cases t.purpose <;> decide
  · unfold formatSignetSecurityLevel; split
    · exact cellText_nil
    · split
      · decide
      · split
        · decide
        · decide
        · exact cellText_level _
  · exact h.id.cellText

/-- C81. `jess manage`: there is one line for each signet, with its name, kind, scheme, purpose and level, and at the end its ID. -/
theorem signet_dialog_shows {E : DlgEnv} (hpad : FillsColumns E.pad) {S : List Signet} (hS : ∀ s ∈ S, ShownSignet s) :
    ∃ lines, signetLines E S = b!"Done" :: lines ∧
      All2 (fun s line => ∃ name kind scheme purpose level, InColumns [name, kind, scheme, purpose, level, s.id] line ∧ SignetColumns E.P s name kind scheme purpose level) S lines := by
  have h := table_shown hpad (t := [b!"Done"] :: S.map (signetRow E.P)) (by simp) (by
    intro r hr
    rcases List.mem_cons.1 hr with rfl | hr
    · decide
    · obtain ⟨s, hs, rfl⟩ := List.mem_map.1 hr
      exact signetRow_text E.P (hS s hs)) (by
    intro r hr
    rcases List.mem_cons.1 (List.mem_of_getLast? hr) with rfl | hr
    · decide
    · obtain ⟨s, _, rfl⟩ := List.mem_map.1 hr
      simp [signetRow])
  unfold signetLines
  generalize formatColumns E.pad ([b!"Done"] :: S.map (signetRow E.P)) = f at *
  cases h with
  | cons h1 h2 =>
    refine ⟨_, by rw [show _ = b!"Done" from h1], ?_⟩
    refine all2_imp (all2_map h2) ?_
    intro s hs line hl
    exact ⟨_, _, _, _, _, hl, signet_columns E.P s (hS s hs).id.1⟩

end Jess
