import Verif.Model.Registry
import Verif.Props.EnvelopeLines

/-! # C82: what is registered -/

namespace Jess

/-! ## Specification -/

/-- What `sort.Sort` guarantees: the same elements, and none is followed by a smaller one. -/
def SortsBy {α : Type} (name : α → Bytes) (sort : List α → List α) : Prop :=
  ∀ l, (sort l).Perm l ∧ (sort l).Pairwise (fun a b => bytesLess (name b) (name a) = false)

/-- The decimal number at the end of a text. -/
def endNumber (x : Bytes) : Option Nat := readNat (x.reverse.takeWhile (fun c => 48 ≤ c.toNat ∧ c.toNat ≤ 57)).reverse

/-- The decimal number after some letters. -/
def numberAfter (pre x : Bytes) : Option Nat := readNat ((x.drop pre.length).takeWhile (fun c => 48 ≤ c.toNat ∧ c.toNat ≤ 57))

/-! ## Registries -/

theorem bytesLess_irrefl (a : Bytes) : bytesLess a a = false := by
  induction a with
  | nil => rfl
  | cons x xs ih => simp only [bytesLess, Nat.lt_irrefl, if_false, ih]

theorem bytesLess_total : ∀ (a b : Bytes), bytesLess a b = false → bytesLess b a = false → a = b := by
  intro a
  induction a with
  | nil =>
    intro b h _
    cases b with
    | nil => rfl
    | cons y ys => cases h
  | cons x xs ih =>
    intro b h h'
    cases b with
    | nil => cases h'
    | cons y ys =>
      unfold bytesLess at h h'
      have h1 : ¬ x.toNat < y.toNat := by intro hl; rw [if_pos hl] at h; cases h
      have h2 : ¬ y.toNat < x.toNat := by intro hl; rw [if_pos hl] at h'; cases h'
      rw [if_neg h1, if_neg h2] at h
      rw [if_neg h2, if_neg h1] at h'
      rw [ih ys h h', UInt8.toNat_inj.1 (Nat.le_antisymm (Nat.le_of_not_lt h2) (Nat.le_of_not_lt h1))]

theorem register_map {α : Type} (name : α → Bytes) (sort : List α → List α) (l : List α) (hn : (l.map name).Nodup) :
    ∀ n x, (Registry.ofList name sort l).map n = some x ↔ x ∈ l ∧ name x = n := by
  have key : ∀ (l : List α) (r : Registry α), (l.map name).Nodup → (∀ n x, r.map n = some x → ∀ y ∈ l, name y ≠ n) →
      ∀ n x, (l.foldl (Registry.register name sort) r).map n = some x ↔ (x ∈ l ∧ name x = n) ∨ r.map n = some x := by
    intro l
    induction l with
    | nil => intro r _ _ n x; simp
    | cons y l ih =>
      intro r hn hr n x
      rw [List.map_cons, List.nodup_cons] at hn
      rw [List.foldl_cons, ih _ hn.2 ?_]
      · simp only [Registry.register, List.mem_cons]
        by_cases h : n = name y
        · rw [if_pos h]
          constructor
          · rintro (⟨h1, h2⟩ | h1)
            · exact .inl ⟨.inr h1, h2⟩
            · cases h1; exact .inl ⟨.inl rfl, h.symm⟩
          · rintro (⟨h1 | h1, h2⟩ | h1)
            · exact .inr (by rw [h1])
            · exact .inl ⟨h1, h2⟩
            · exact absurd h.symm (hr n x h1 y (by simp))
        · rw [if_neg h]
          constructor
          · rintro (⟨h1, h2⟩ | h1)
            · exact .inl ⟨.inr h1, h2⟩
            · exact .inr h1
          · rintro (⟨h1 | h1, h2⟩ | h1)
            · exact absurd (by rw [← h2, h1]) h
            · exact .inl ⟨h1, h2⟩
            · exact .inr h1
      · intro n x h z hz hzn
        simp only [Registry.register] at h
        split at h
        · rename_i he
          exact hn.1 (List.mem_map.2 ⟨z, hz, by rw [hzn, he]⟩)
        · exact hr n x h z (by simp [hz]) hzn
  intro n x
  have := key l (Registry.empty α) hn (by intro n x h; cases h) n x
  rw [Registry.ofList, this]
  simp [Registry.empty]

theorem register_list {α : Type} {name : α → Bytes} {sort : List α → List α} (hs : SortsBy name sort) (l : List α) :
    (Registry.ofList name sort l).list.Perm l ∧ (Registry.ofList name sort l).list.Pairwise (fun a b => bytesLess (name b) (name a) = false) := by
  have key : ∀ (l : List α) (r : Registry α), r.list.Pairwise (fun a b => bytesLess (name b) (name a) = false) →
      (l.foldl (Registry.register name sort) r).list.Perm (r.list ++ l) ∧
      (l.foldl (Registry.register name sort) r).list.Pairwise (fun a b => bytesLess (name b) (name a) = false) := by
    intro l
    induction l with
    | nil => intro r h; exact ⟨by simp, h⟩
    | cons y l ih =>
      intro r h
      obtain ⟨h1, h2⟩ := hs (r.list ++ [y])
      obtain ⟨h3, h4⟩ := ih (Registry.register name sort r y) h2
      refine ⟨?_, h4⟩
      refine h3.trans ?_
      have : (Registry.register name sort r y).list = sort (r.list ++ [y]) := rfl
      rw [this]
      refine (h1.append_right l).trans ?_
      rw [List.append_assoc]; rfl
  exact key l (Registry.empty α) List.Pairwise.nil

/-- C82. The order of registration and the sorting algorithm do not matter: the entry for a name is the one that was declared, and the list
is the same. -/
theorem registration_order {α : Type} {name : α → Bytes} {sort sort' : List α → List α} (hs : SortsBy name sort) (hs' : SortsBy name sort')
    {l l' : List α} (hl : l'.Perm l) (hn : (l.map name).Nodup) :
    (∀ n x, (Registry.ofList name sort' l').map n = some x ↔ x ∈ l ∧ name x = n) ∧
    (Registry.ofList name sort' l').list = (Registry.ofList name sort l).list := by
  have hn' : (l'.map name).Nodup := (hl.map name).nodup_iff.2 hn
  refine ⟨fun n x => by rw [register_map name sort' l' hn' n x, hl.mem_iff], ?_⟩
  obtain ⟨p1, s1⟩ := register_list hs' l'
  obtain ⟨p2, s2⟩ := register_list hs l
  refine List.Perm.eq_of_pairwise ?_ s1 s2 (p1.trans (hl.trans p2.symm))
  intro a b ha hb h1 h2
  have he := bytesLess_total _ _ h2 h1
  have ha : a ∈ l := hl.mem_iff.1 (p1.mem_iff.1 ha)
  have hb : b ∈ l := p2.mem_iff.1 hb
  obtain ⟨i, hi, rfl⟩ := List.getElem_of_mem ha
  obtain ⟨j, hj, rfl⟩ := List.getElem_of_mem hb
  have : (l.map name)[i]'(by simpa using hi) = (l.map name)[j]'(by simpa using hj) := by simpa using he
  have := (List.getElem_inj hn).1 this
  subst this
  rfl

/-- The insertion of the model sorts. -/
theorem insertByName_spec {α : Type} (name : α → Bytes) (x : α) (l : List α) (h : l.Pairwise (fun a b => bytesLess (name b) (name a) = false)) :
    (insertByName name x l).Perm (l ++ [x]) ∧ (insertByName name x l).Pairwise (fun a b => bytesLess (name b) (name a) = false) := by
  have trans : ∀ a b c : Bytes, bytesLess a b = false → bytesLess b c = false → bytesLess a c = false := by
    intro a
    induction a with
    | nil =>
      intro b c h1 h2
      cases b with
      | nil => exact h2
      | cons y ys => cases h1
    | cons x xs ih =>
      intro b c h1 h2
      cases c with
      | nil => rfl
      | cons z zs =>
        cases b with
        | nil => cases h2
        | cons y ys =>
          unfold bytesLess at h1 h2 ⊢
          have a1 : ¬ x.toNat < y.toNat := by intro hl; rw [if_pos hl] at h1; cases h1
          have a2 : ¬ y.toNat < z.toNat := by intro hl; rw [if_pos hl] at h2; cases h2
          rw [if_neg a1] at h1
          rw [if_neg a2] at h2
          rw [if_neg (by omega)]
          by_cases hz : z.toNat < x.toNat
          · rw [if_pos hz]
          · rw [if_neg hz]
            rw [if_neg (by omega)] at h1
            rw [if_neg (by omega)] at h2
            exact ih ys zs h1 h2
  have anti : ∀ a b : Bytes, bytesLess a b = true → bytesLess b a = false := by
    intro a
    induction a with
    | nil => intro b _; cases b <;> rfl
    | cons x xs ih =>
      intro b h
      cases b with
      | nil => cases h
      | cons y ys =>
        unfold bytesLess at h ⊢
        by_cases hx : x.toNat < y.toNat
        · rw [if_neg (by omega), if_pos hx]
        · rw [if_neg hx] at h
          by_cases hy : y.toNat < x.toNat
          · rw [if_pos hy] at h; cases h
          · rw [if_neg hy] at h
            rw [if_neg hy, if_neg hx]
            exact ih ys h
  induction l with
  | nil => exact ⟨List.Perm.refl _, List.pairwise_singleton _ _⟩
  | cons y l ih =>
    rw [List.pairwise_cons] at h
    obtain ⟨i1, i2⟩ := ih h.2
    unfold insertByName
    by_cases hl : bytesLess (name x) (name y) = true
    · rw [if_pos hl]
      refine ⟨?_, ?_⟩
      · exact (List.perm_append_singleton x (y :: l)).symm
      · rw [List.pairwise_cons]
        refine ⟨?_, List.pairwise_cons.2 h⟩
        intro z hz
        rcases List.mem_cons.1 hz with rfl | hz
        · exact anti _ _ hl
        · exact trans _ _ _ (h.1 z hz) (anti _ _ hl)
    · rw [if_neg hl]
      refine ⟨i1.cons y, List.pairwise_cons.2 ⟨?_, i2⟩⟩
      intro z hz
      rcases List.mem_append.1 (i1.mem_iff.1 hz) with hz | hz
      · exact h.1 z hz
      · rw [List.mem_singleton] at hz; subst hz; simpa using hl

/-- Sorting by insertion. -/
def sortByName {α : Type} (name : α → Bytes) (l : List α) : List α := l.foldl (fun l x => insertByName name x l) []

theorem sortByName_sorts {α : Type} (name : α → Bytes) : SortsBy name (sortByName name) := by
  have key : ∀ (l acc : List α), acc.Pairwise (fun a b => bytesLess (name b) (name a) = false) →
      (l.foldl (fun l x => insertByName name x l) acc).Perm (acc ++ l) ∧
      (l.foldl (fun l x => insertByName name x l) acc).Pairwise (fun a b => bytesLess (name b) (name a) = false) := by
    intro l
    induction l with
    | nil => intro acc h; exact ⟨by simp, h⟩
    | cons y l ih =>
      intro acc h
      obtain ⟨h1, h2⟩ := insertByName_spec name y acc h
      obtain ⟨h3, h4⟩ := ih _ h2
      refine ⟨h3.trans ?_, h4⟩
      refine (h1.append_right l).trans ?_
      rw [List.append_assoc]; rfl
  intro l
  exact key l [] List.Pairwise.nil

/-! ## Tools -/

theorem tool_names : (toolDecls.map ToolDecl.name).Nodup := by decide
theorem hash_names : (hashDecls.map HashDecl.name).Nodup := by decide

/-- C82. In whatever order the packages are initialised, `tools.Get` finds exactly the tools of the table `toolTable`, with the declared properties, and
`tools.AsList` is the list `toolsAsList`. -/
theorem tools_registered {sort : List ToolDecl → List ToolDecl} (hs : SortsBy ToolDecl.name sort) {order : List ToolDecl} (ho : order.Perm toolDecls) :
    (∀ n, ((Registry.ofList ToolDecl.name sort order).map n).bind ToolDecl.info = getTool n) ∧
    (Registry.ofList ToolDecl.name sort order).list.map ToolDecl.info = toolsAsList.map some := by
  obtain ⟨h1, h2⟩ := registration_order (sortByName_sorts ToolDecl.name) hs ho tool_names
  have hinfo : ∀ d ∈ toolDecls, ∃ t, d.info = some t ∧ getTool d.name = some t := by
    have : ∀ d ∈ toolDecls, d.info = getTool d.name ∧ d.info.isSome = true := by decide +kernel
    intro d hd
    obtain ⟨a, b⟩ := this d hd
    obtain ⟨t, ht⟩ := Option.isSome_iff_exists.1 b
    exact ⟨t, ht, by rw [← a, ht]⟩
  have htab : ∀ t ∈ toolTable, ∃ d ∈ toolDecls, d.name = t.name := by decide +kernel
  constructor
  · intro n
    cases hm : (Registry.ofList ToolDecl.name sort order).map n with
    | some d =>
      obtain ⟨hd, rfl⟩ := (h1 n d).1 hm
      obtain ⟨t, a, b⟩ := hinfo d hd
      rw [Option.bind_some, a, b]
    | none =>
      rw [Option.bind_none]
      cases hg : getTool n with
      | none => rfl
      | some t =>
        have hmem := List.mem_of_find?_eq_some hg
        have hname : t.name = n := by simpa using List.find?_some hg
        obtain ⟨d, hd, he⟩ := htab t hmem
        have := (h1 n d).2 ⟨hd, by rw [he, hname]⟩
        rw [hm] at this
        cases this
  · rw [h2]
    decide +kernel

/-- C82. The same for hash tools: `hashtools.Get`, `hashtools.AsList`, and the labeled hash algorithm of each. -/
theorem hash_tools_registered {sort : List HashDecl → List HashDecl} (hs : SortsBy HashDecl.name sort) {order : List HashDecl} (ho : order.Perm hashDecls) :
    (∀ n, ((Registry.ofList HashDecl.name sort order).map n).bind HashDecl.info = getHash n) ∧
    (∀ n, ((Registry.ofList HashDecl.name sort order).map n).map HashDecl.labeledAlg = labeledAlgs.lookup n) ∧
    (Registry.ofList HashDecl.name sort order).list.map HashDecl.info = hashToolsAsList.map some := by
  obtain ⟨h1, h2⟩ := registration_order (sortByName_sorts HashDecl.name) hs ho hash_names
  have hinfo : ∀ d ∈ hashDecls, ∃ t, d.info = some t ∧ getHash d.name = some t := by
    have : ∀ d ∈ hashDecls, d.info = getHash d.name ∧ d.info.isSome = true := by decide +kernel
    intro d hd
    obtain ⟨a, b⟩ := this d hd
    obtain ⟨t, ht⟩ := Option.isSome_iff_exists.1 b
    exact ⟨t, ht, by rw [← a, ht]⟩
  have hlab : ∀ d ∈ hashDecls, labeledAlgs.lookup d.name = some d.labeledAlg := by decide +kernel
  have htab : ∀ t ∈ hashTable, ∃ d ∈ hashDecls, d.name = t.name := by decide +kernel
  have hlt : ∀ p ∈ labeledAlgs, ∃ d ∈ hashDecls, d.name = p.1 := by decide +kernel
  refine ⟨?_, ?_, ?_⟩
  · intro n
    cases hm : (Registry.ofList HashDecl.name sort order).map n with
    | some d =>
      obtain ⟨hd, rfl⟩ := (h1 n d).1 hm
      obtain ⟨t, a, b⟩ := hinfo d hd
      rw [Option.bind_some, a, b]
    | none =>
      rw [Option.bind_none]
      cases hg : getHash n with
      | none => rfl
      | some t =>
        have hmem := List.mem_of_find?_eq_some hg
        have hname : t.name = n := by simpa using List.find?_some hg
        obtain ⟨d, hd, he⟩ := htab t hmem
        have := (h1 n d).2 ⟨hd, by rw [he, hname]⟩
        rw [hm] at this
        cases this
  · intro n
    cases hm : (Registry.ofList HashDecl.name sort order).map n with
    | some d =>
      obtain ⟨hd, rfl⟩ := (h1 n d).1 hm
      rw [Option.map_some, hlab d hd]
    | none =>
      rw [Option.map_none]
      cases hg : labeledAlgs.lookup n with
      | none => rfl
      | some a =>
        have hmem : (n, a) ∈ labeledAlgs := by
          rw [List.lookup_eq_some_iff] at hg
          obtain ⟨l1, l2, he, _⟩ := hg
          rw [he]; simp
        obtain ⟨d, hd, he⟩ := hlt _ hmem
        have := (h1 n d).2 ⟨hd, he⟩
        rw [hm] at this
        cases this
  · rw [h2]
    decide +kernel

/-- C82. `With` keeps what the template says about everything that the changes do not mention, and takes the rest from the changes. -/
theorem with_template (ti changes : ToolDecl) :
    (changes.name ≠ [] → (ti.with changes).name = changes.name) ∧ (changes.name = [] → (ti.with changes).name = ti.name) ∧
    (changes.purpose ≠ 0 → (ti.with changes).purpose = changes.purpose) ∧ (changes.purpose = 0 → (ti.with changes).purpose = ti.purpose) ∧
    (changes.options ≠ [] → (ti.with changes).options = changes.options) ∧ (changes.options = [] → (ti.with changes).options = ti.options) ∧
    (changes.keySize ≠ 0 → (ti.with changes).keySize = changes.keySize) ∧ (changes.keySize = 0 → (ti.with changes).keySize = ti.keySize) ∧
    (changes.nonceSize ≠ 0 → (ti.with changes).nonceSize = changes.nonceSize) ∧ (changes.nonceSize = 0 → (ti.with changes).nonceSize = ti.nonceSize) ∧
    (changes.securityLevel ≠ 0 → (ti.with changes).securityLevel = changes.securityLevel) ∧
    (changes.securityLevel = 0 → (ti.with changes).securityLevel = ti.securityLevel) ∧
    (changes.comment ≠ [] → (ti.with changes).comment = changes.comment) ∧ (changes.comment = [] → (ti.with changes).comment = ti.comment) ∧
    (changes.author ≠ [] → (ti.with changes).author = changes.author) ∧ (changes.author = [] → (ti.with changes).author = ti.author) := by
  refine ⟨?_, ?_, ?_, ?_, ?_, ?_, ?_, ?_, ?_, ?_, ?_, ?_, ?_, ?_, ?_, ?_⟩ <;> intro h <;> simp [ToolDecl.with, h]

/-- C82. The same for hash tools. -/
theorem hash_with_template (ht changes : HashDecl) :
    (changes.name ≠ [] → (ht.with changes).name = changes.name) ∧ (changes.name = [] → (ht.with changes).name = ht.name) ∧
    (changes.newHash ≠ none → (ht.with changes).newHash = changes.newHash) ∧ (changes.newHash = none → (ht.with changes).newHash = ht.newHash) ∧
    (changes.cryptoHashID ≠ none → (ht.with changes).cryptoHashID = changes.cryptoHashID) ∧
    (changes.cryptoHashID = none → (ht.with changes).cryptoHashID = ht.cryptoHashID) ∧
    (changes.digestOf ≠ none → (ht.with changes).digestOf = changes.digestOf) ∧ (changes.digestOf = none → (ht.with changes).digestOf = ht.digestOf) ∧
    (changes.blockOf ≠ none → (ht.with changes).blockOf = changes.blockOf) ∧ (changes.blockOf = none → (ht.with changes).blockOf = ht.blockOf) ∧
    (changes.securityLevel ≠ 0 → (ht.with changes).securityLevel = changes.securityLevel) ∧
    (changes.securityLevel = 0 → (ht.with changes).securityLevel = ht.securityLevel) ∧
    (changes.comment ≠ [] → (ht.with changes).comment = changes.comment) ∧ (changes.comment = [] → (ht.with changes).comment = ht.comment) ∧
    (changes.author ≠ [] → (ht.with changes).author = changes.author) ∧ (changes.author = [] → (ht.with changes).author = ht.author) ∧
    (changes.labeledAlg ≠ 0 → (ht.with changes).labeledAlg = changes.labeledAlg) ∧ (changes.labeledAlg = 0 → (ht.with changes).labeledAlg = ht.labeledAlg) := by
  refine ⟨?_, ?_, ?_, ?_, ?_, ?_, ?_, ?_, ?_, ?_, ?_, ?_, ?_, ?_, ?_, ?_, ?_, ?_⟩ <;> intro h <;> simp [HashDecl.with, h]

/-- C82. The names tell the truth: the number in the name of an AES tool is the size of its key and its level, a NIST curve is the one in the name, and
a cipher's or MAC's key is at least as long as its security level says. -/
theorem tool_names_true : ∀ t ∈ toolDecls,
    (b!"AES" <+: t.name → numberAfter b!"AES" t.name = some (8 * t.keySize.toNat) ∧ t.securityLevel = 8 * t.keySize) ∧
    (b!"ECDH-P" <+: t.name → t.logic = b!"NistCurve P" ++ t.name.drop 6) ∧
    (t.keySize ≠ 0 → t.securityLevel ≤ 8 * t.keySize) ∧ 0 ≤ t.keySize ∧ 0 ≤ t.nonceSize ∧ 0 ≤ t.securityLevel := by
  decide +kernel

/-- C82. The names of hash tools tell the truth: the number at the end is the size of the digest in bits (except for "BLAKE3"), and the level is half of it
(collisions). Digest, block size and the labeled algorithm (used for file signatures) are those of the function that computes the hash, and no two tools compute
the same function. -/
theorem hash_names_true :
    (∀ h ∈ hashDecls, ∃ f, h.newHash = some f ∧ h.digestOf = some f ∧ h.blockOf = some f ∧ lhashFn h.labeledAlg = some f ∧
      (h.name ≠ b!"BLAKE3" → endNumber h.name = some (8 * f.size)) ∧ h.securityLevel = 4 * f.size ∧
      lhashSize h.labeledAlg = some f.size ∧ (lhashName h.labeledAlg).map (fun c => if c = 95 then 45 else c) = h.name) ∧
    (hashDecls.map HashDecl.newHash).Nodup := by
  have h : ∀ h ∈ hashDecls, h.newHash.isSome = true ∧ h.digestOf = h.newHash ∧ h.blockOf = h.newHash ∧ lhashFn h.labeledAlg = h.newHash ∧
      (h.name ≠ b!"BLAKE3" → endNumber h.name = h.newHash.map (fun f => 8 * f.size)) ∧ some h.securityLevel = h.newHash.map (fun f => (4 * f.size : Int)) ∧
      lhashSize h.labeledAlg = h.newHash.map HashFn.size ∧ (lhashName h.labeledAlg).map (fun c => if c = 95 then 45 else c) = h.name := by
    decide +kernel
  refine ⟨?_, by decide⟩
  intro d hd
  obtain ⟨h1, h2, h3, h4, h5, h6, h7, h8⟩ := h d hd
  obtain ⟨f, hf⟩ := Option.isSome_iff_exists.1 h1
  rw [hf] at h2 h3 h4 h5 h6 h7
  exact ⟨f, hf, h2, h3, h4, h5, by simpa using h6, h7, h8⟩

/-- C82. The hash function that is named to RSA-PSS is the one that computes the digest, or none (then signing fails), except for BLAKE2s-256. -/
theorem pss_hash_named_partial : ∀ h ∈ hashDecls, h.name ≠ b!"BLAKE2s-256" → (pssHashes h).2 = (pssHashes h).1 ∨ (pssHashes h).2 = none ∧ h.name = b!"BLAKE3" := by
  decide +kernel

/-- C82 refuted. "RSA-PSS(BLAKE2s-256)" signs a BLAKE2s-256 digest as one of BLAKE2b-256: with the parameters that another tool has as well. -/
theorem pss_hash_refuted : ∃ h ∈ hashDecls, ∃ h' ∈ hashDecls, h.name = b!"BLAKE2s-256" ∧ h'.name = b!"BLAKE2b-256" ∧ (pssHashes h).1 = some .blake2s_256 ∧
    (pssHashes h).2 = some .blake2b_256 ∧ (pssHashes h).2 ≠ (pssHashes h).1 ∧ (pssHashes h).2 = (pssHashes h').2 := by
  decide +kernel

/-- C82. The recommended toolsets name registered tools and hash tools. -/
theorem recommended_registered : ∀ l ∈ recommendedToolsets, ∀ id ∈ l, ∃ t, getTool (parseToolID id).1 = some t ∧
    (t.needsManagedHasher = true ∨ t.needsDedicatedHasher = true ↔ ∃ h, getHash (parseToolID id).2 = some h) := by
  have h : ∀ l ∈ recommendedToolsets, ∀ id ∈ l, (getTool (parseToolID id).1).isSome = true ∧ ∀ t ∈ getTool (parseToolID id).1,
      (t.needsManagedHasher = true ∨ t.needsDedicatedHasher = true ↔ (getHash (parseToolID id).2).isSome = true) := by decide +kernel
  intro l hl id hid
  obtain ⟨h1, h2⟩ := h l hl id hid
  obtain ⟨t, ht⟩ := Option.isSome_iff_exists.1 h1
  exact ⟨t, ht, by rw [h2 t ht, Option.isSome_iff_exists]⟩

/-- The authors and comments of the declared tools, as `jess list` prints them. -/
def aboutTools (n : Bytes) : Bytes × Bytes := ((toolDecls.find? (fun d => d.name == n)).map (fun d => (d.author, d.comment))).getD ([], [])

/-- The authors and comments of the declared hash tools. -/
def aboutHashes (n : Bytes) : Bytes × Bytes := ((hashDecls.find? (fun d => d.name == n)).map (fun d => (d.author, d.comment))).getD ([], [])

/-- C81, C82. The declared authors and comments meet the hypotheses of `list_shows`: `jess list` shows what is registered. -/
theorem list_shows_registered {pad : List (List Bytes) → Nat → Nat → Nat} (hpad : FillsColumns pad) :
    ∃ (h1 h2 h3 : Bytes) (L1 L2 L3 : List Bytes),
      listCommand pad aboutTools aboutHashes = b!"Suites\n\n" ++ (h1 :: L1).flatMap (· ++ b!"\n") ++ b!"\n\nTools\n\n" ++ (h2 :: L2).flatMap (· ++ b!"\n") ++
        b!"\n\nHashTools\n\n" ++ (h3 :: L3).flatMap (· ++ b!"\n") ∧
      All2 (SuiteColumns [] []) suiteRegistry L1 ∧
      (∃ tools, tools.Perm toolTable ∧ All2 (ToolColumns aboutTools) tools L2) ∧
      (∃ hashes, hashes.Perm hashTable ∧ All2 (HashColumns aboutHashes) hashes L3) := by
  have ht : ∀ d ∈ toolDecls, CellText d.author ∧ CellText d.comment ∧ d.author.length ≤ 5000 ∧ d.comment.length ≤ 5000 := by decide +kernel
  have hh : ∀ d ∈ hashDecls, CellText d.author ∧ CellText d.comment ∧ d.author.length ≤ 5000 ∧ d.comment.length ≤ 5000 := by decide +kernel
  refine list_shows hpad aboutTools aboutHashes ?_ ?_
  · intro n
    unfold aboutTools
    cases hf : toolDecls.find? (fun d => d.name == n) with
    | none => exact ⟨cellText_nil, cellText_nil, by decide, by decide⟩
    | some d => exact ht d (List.mem_of_find?_eq_some hf)
  · intro n
    unfold aboutHashes
    cases hf : hashDecls.find? (fun d => d.name == n) with
    | none => exact ⟨cellText_nil, cellText_nil, by decide, by decide⟩
    | some d => exact hh d (List.mem_of_find?_eq_some hf)

end Jess
