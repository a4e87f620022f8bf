import Verif.Lemmas.Session
import Verif.Lemmas.Toy

/-!
# C19: the suite registry
-/

namespace Jess

open Requirements

/-- The attributes a tool purpose provides according to the documentation in tools/tool.go:33-78 (specification). -/
def providedBy : Purpose → List Attr
  | .keyDerivation => []
  | .passDerivation => [SenderAuthentication, RecipientAuthentication]
  | .keyExchange => [RecipientAuthentication]
  | .keyEncapsulation => [RecipientAuthentication]
  | .signing => [Integrity, SenderAuthentication]
  | .integratedCipher => [Confidentiality, Integrity]
  | .cipher => [Confidentiality]
  | .mac => [Integrity]

/-- The four attributes. -/
def allAttrs : List Attr := [Confidentiality, Integrity, RecipientAuthentication, SenderAuthentication]

/-- A suite that has no tool to bring in a key is meant for key secrets. -/
def usesKeySecret (is : List ToolInst) : Bool :=
  !is.any (fun i => i.info.purpose == .passDerivation || i.info.purpose == .keyExchange ||
    i.info.purpose == .keyEncapsulation || i.info.purpose == .signing)

/-- A suite is sound: all its tools resolve, no tool is listed twice, there is at most one key and password derivation
tool, keyed tools come with a key derivation, confidentiality comes with integrity, the attributes claimed are exactly
the ones the tools (and a key secret, if it is a key suite) provide, and every tool and hash tool used reaches the
claimed security level. -/
def SuiteSound (s : Suite) : Prop :=
  ∃ is : List ToolInst, s.tools.map makeInst = is.map Except.ok ∧ s.tools.Nodup ∧
    (is.map (fun i => i.info.name)).Nodup ∧
    AtMostOne is .keyDerivation ∧ AtMostOne is .passDerivation ∧
    ((∃ i ∈ is, i.info.purpose = .cipher ∨ i.info.purpose = .integratedCipher ∨ i.info.purpose = .mac) ↔
      ∃ i ∈ is, i.info.purpose = .keyDerivation) ∧
    (Confidentiality ∈ s.provides → Integrity ∈ s.provides) ∧
    (RecipientAuthentication ∈ s.provides → Confidentiality ∈ s.provides) ∧
    (∀ a, a ∈ s.provides ↔ (∃ i ∈ is, a ∈ providedBy i.info.purpose) ∨
      (usesKeySecret is = true ∧ (a = SenderAuthentication ∨ a = RecipientAuthentication))) ∧
    (∀ i ∈ is, (i.info.securityLevel ≠ 0 → s.securityLevel ≤ i.info.securityLevel) ∧
      ∀ h, i.hash = some h → s.securityLevel ≤ h.securityLevel)

/-- The instances of a suite (empty if a tool does not resolve). -/
def suiteInsts (s : Suite) : List ToolInst := s.tools.filterMap (fun t => (makeInst t).toOption)

/-- Decidable form of `SuiteSound` for a table entry. -/
def suiteSoundB (s : Suite) : Bool :=
  let is := suiteInsts s
  decide (s.tools.map makeInst = is.map Except.ok) && decide s.tools.Nodup && decide (is.map (fun i => i.info.name)).Nodup &&
  decide ((is.filter (fun t => t.info.purpose = .keyDerivation)).length ≤ 1) &&
  decide ((is.filter (fun t => t.info.purpose = .passDerivation)).length ≤ 1) &&
  decide ((∃ i ∈ is, i.info.purpose = .cipher ∨ i.info.purpose = .integratedCipher ∨ i.info.purpose = .mac) ↔
    ∃ i ∈ is, i.info.purpose = .keyDerivation) &&
  decide (Confidentiality ∈ s.provides → Integrity ∈ s.provides) &&
  decide (RecipientAuthentication ∈ s.provides → Confidentiality ∈ s.provides) &&
  decide (∀ a ∈ s.provides ++ allAttrs, a ∈ s.provides ↔ (∃ i ∈ is, a ∈ providedBy i.info.purpose) ∨
    (usesKeySecret is = true ∧ (a = SenderAuthentication ∨ a = RecipientAuthentication))) &&
  is.all (fun i => (i.info.securityLevel == 0 || decide (s.securityLevel ≤ i.info.securityLevel)) &&
    (match i.hash with | none => true | some h => decide (s.securityLevel ≤ h.securityLevel)))

theorem providedBy_sub (p : Purpose) (a : Attr) (h : a ∈ providedBy p) : a ∈ allAttrs := by
  cases p <;> simp [providedBy] at h <;> rcases h with h | h <;> simp_all [allAttrs]

theorem suiteSound_of_B (s : Suite) (h : suiteSoundB s = true) : SuiteSound s := by
  simp only [suiteSoundB, Bool.and_eq_true, decide_eq_true_eq, List.all_eq_true] at h
  obtain ⟨⟨⟨⟨⟨⟨⟨⟨⟨h1, h2⟩, h2'⟩, h3⟩, h4⟩, h5⟩, h6⟩, h7⟩, h8⟩, h9⟩ := h
  refine ⟨suiteInsts s, h1, h2, h2', h3, h4, h5, h6, h7, ?_, ?_⟩
  · intro a
    by_cases ha : a ∈ s.provides ++ allAttrs
    · exact h8 a ha
    · simp only [List.mem_append, not_or] at ha
      constructor
      · intro hp; exact absurd hp ha.1
      · rintro (⟨i, _, hp⟩ | ⟨_, rfl | rfl⟩)
        · exact absurd (providedBy_sub _ _ hp) ha.2
        · exact absurd (by simp [allAttrs]) ha.2
        · exact absurd (by simp [allAttrs]) ha.2
  · intro i hi
    have := h9 i hi
    simp only [Bool.or_eq_true, beq_iff_eq, decide_eq_true_eq] at this
    refine ⟨fun hn => this.1.resolve_left hn, fun h hh => ?_⟩
    have := this.2
    rw [hh] at this; simpa using this

/-- C19. Every suite in the registry after package initialization is sound. -/
theorem registered_suites_sound : ∀ s ∈ suiteRegistry, SuiteSound s := by
  intro s hs
  apply suiteSound_of_B
  have : suiteRegistry.all suiteSoundB = true := by decide +kernel
  exact List.all_eq_true.mp this s hs

/-- C19. Package initialization registers every suite under its own ID (no two suites share an ID, none is dropped). -/
theorem registered_ids_unique : suiteRegistry = builtinSuites ∧ (suiteRegistry.map Suite.id).Nodup ∧ suiteRegistry.length = 14 := by
  refine ⟨by decide +kernel, by decide +kernel, by decide +kernel⟩

/-- The names users refer to suites by (suites.go:4-19) all exist. -/
theorem recommended_suites_exist :
    ∀ id ∈ [b!"key_v1", b!"pw_v1", b!"rcpt_v1", b!"sign_v1", b!"signfile_v1", b!"v1", b!"w1"],
      ∃ s, getSuite suiteRegistry id = some s ∧ s.id = id := by
  have : ∀ id ∈ [b!"key_v1", b!"pw_v1", b!"rcpt_v1", b!"sign_v1", b!"signfile_v1", b!"v1", b!"w1"],
      (match getSuite suiteRegistry id with | some s => s.id == id | none => false) = true := by decide +kernel
  intro id hid
  have h := this id hid
  cases hg : getSuite suiteRegistry id with
  | none => rw [hg] at h; cases h
  | some s => rw [hg] at h; exact ⟨s, rfl, by simpa using h⟩

theorem getSuite_register_old {reg : List Suite} {id : Bytes} {s t : Suite} (h : getSuite reg id = some s) :
    getSuite (registerSuite reg t) id = some s := by
  unfold registerSuite
  split
  · exact h
  · unfold getSuite at *
    rw [List.find?_append, h]; rfl

/-- C19. Whatever is registered later, a registered suite is never replaced or removed. -/
theorem register_keeps (reg : List Suite) (ts : List Suite) (id : Bytes) (s : Suite) (h : getSuite reg id = some s) :
    getSuite (ts.foldl registerSuite reg) id = some s := by
  induction ts generalizing reg with
  | nil => exact h
  | cons t ts ih => exact ih _ (getSuite_register_old h)

/-- C19. A suite with a new ID becomes available and stays available. -/
theorem register_new (reg : List Suite) (t : Suite) (ts : List Suite) (h : getSuite reg t.id = none) :
    getSuite (ts.foldl registerSuite (registerSuite reg t)) t.id = some t := by
  apply register_keeps
  unfold registerSuite
  have hn : reg.any (fun u => u.id == t.id) = false := by
    rw [List.any_eq_false]
    intro x hx
    have := List.find?_eq_none.mp h x hx
    simpa using this
  rw [hn]
  simp only [Bool.false_eq_true, if_false]
  unfold getSuite at *
  rw [List.find?_append, h]
  simp

/-- C19. IDs stay unique over any history of registrations, so a suite is determined by its ID. -/
theorem register_nodup (reg ts : List Suite) (h : (reg.map Suite.id).Nodup) :
    ((ts.foldl registerSuite reg).map Suite.id).Nodup := by
  induction ts generalizing reg with
  | nil => exact h
  | cons t ts ih =>
    apply ih
    unfold registerSuite
    split
    · exact h
    · rename_i hn
      have hn' : ∀ x ∈ reg, x.id ≠ t.id := by simpa using hn
      rw [List.map_append, List.nodup_append]
      refine ⟨h, by simp, ?_⟩
      intro a ha b hb
      simp only [List.map_cons, List.map_nil, List.mem_singleton] at hb
      obtain ⟨x, hx, rfl⟩ := List.mem_map.mp ha
      rw [hb]; exact hn' x hx

/-- C19. `GetSuite` returns only suites that were registered, under their own ID. -/
theorem getSuite_sound (reg : List Suite) (id : Bytes) (s : Suite) (h : getSuite reg id = some s) : s ∈ reg ∧ s.id = id := by
  unfold getSuite at h
  exact ⟨List.mem_of_find?_eq_some h, by simpa using List.find?_some h⟩

/-- Non-vacuity: registering a second suite under a registered ID has no effect on look-ups. -/
example : getSuite (registerSuite suiteRegistry { id := b!"v1", tools := [], provides := [], securityLevel := 0, status := 0 })
    b!"v1" = getSuite builtinSuites b!"v1" ∧ getSuite builtinSuites b!"v1" ≠ none := by
  refine ⟨by decide +kernel, by decide +kernel⟩

/-! ## Tool IDs and the tool table -/

theorem splitParen_name (a r : Bytes) (ha : 40 ∉ a) : splitParen (a ++ 40 :: r) = (a, some (r.takeWhile (· ≠ 40))) := by
  induction a with
  | nil => simp [splitParen]
  | cons c a ih =>
    have h1 : c ≠ 40 := fun h => ha (by simp [h])
    have h2 : 40 ∉ a := fun h => ha (by simp [h])
    simp only [List.cons_append, splitParen, if_neg h1, ih h2]

theorem splitParen_plain (a : Bytes) (ha : 40 ∉ a) : splitParen a = (a, none) := by
  induction a with
  | nil => rfl
  | cons c a ih =>
    have h1 : c ≠ 40 := fun h => ha (by simp [h])
    have h2 : 40 ∉ a := fun h => ha (by simp [h])
    simp only [splitParen, if_neg h1, ih h2]

theorem takeWhile_all (p : UInt8 → Bool) (l : Bytes) (h : ∀ c ∈ l, p c = true) : l.takeWhile p = l := by
  induction l with
  | nil => rfl
  | cons c r ih => rw [List.takeWhile_cons, h c (by simp), if_pos rfl, ih (fun x hx => h x (by simp [hx]))]

theorem dropWhile_none (p : UInt8 → Bool) (l : Bytes) (h : ∀ c ∈ l, p c = false) : l.dropWhile p = l := by
  cases l with
  | nil => rfl
  | cons c r => rw [List.dropWhile_cons, h c (by simp)]; simp

theorem trimParens_closed (x : Bytes) (hx : ∀ c ∈ x, c ≠ 40 ∧ c ≠ 41) : trimParens (x ++ [41]) = x := by
  have hp : ∀ c ∈ x, (c == 40 || c == 41) = false := by intro c hc; simp [hx c hc]
  have hr : ∀ c ∈ x.reverse, (c == 40 || c == 41) = false := by intro c hc; exact hp c (List.mem_reverse.mp hc)
  unfold trimParens
  cases x with
  | nil => decide
  | cons c r =>
    have e : (c :: r ++ [41]).dropWhile (fun c => c == 40 || c == 41) = c :: r ++ [41] := by
      rw [List.cons_append, List.dropWhile_cons, hp c (by simp)]; simp
    simp only [e]
    rw [List.reverse_append, List.reverse_singleton, List.singleton_append, List.dropWhile_cons]
    simp only [beq_self_eq_true, Bool.or_true, if_true]
    rw [dropWhile_none _ _ hr, List.reverse_reverse]

/-- C19. How the tool of a suite is named: `name` is the tool of that name, `name(argument)` is that tool with the argument (for all names and arguments without parentheses). -/
theorem tool_id_read (name arg : Bytes) (hn : 40 ∉ name) (ha : ∀ c ∈ arg, c ≠ 40 ∧ c ≠ 41) :
    parseToolID name = (name, []) ∧ parseToolID (name ++ b!"(" ++ arg ++ b!")") = (name, arg) := by
  constructor
  · unfold parseToolID; rw [splitParen_plain name hn]
  · have e : name ++ b!"(" ++ arg ++ b!")" = name ++ 40 :: (arg ++ [41]) := by
      rw [show b!"(" = [40] from by decide, show b!")" = [41] from by decide]; simp
    unfold parseToolID
    rw [e, splitParen_name name _ hn]
    have : (arg ++ [41]).takeWhile (· ≠ 40) = arg ++ [41] := by
      refine takeWhile_all _ _ ?_
      intro c hc
      rcases List.mem_append.mp hc with hc | hc
      · simpa using (ha c hc).1
      · rw [List.mem_singleton.mp hc]; decide
    simp only [this, trimParens_closed arg ha]

/-- What a tool has to declare so that it can be used (specification). -/
structure ToolSound (t : ToolInfo) : Prop where
  /-- the name can be written in a tool ID -/
  name : t.name ≠ [] ∧ 40 ∉ t.name ∧ 41 ∉ t.name
  /-- tools that work on the data with a derived key keep that key and its nonce between setup and use -/
  state : t.purpose ∈ [Purpose.cipher, .integratedCipher, .mac] ↔ t.hasState = true
  /-- ciphers have a key as strong as the level they claim, and a nonce -/
  cipher : t.purpose = .cipher ∨ t.purpose = .integratedCipher → 0 < t.securityLevel ∧ t.securityLevel ≤ 8 * (t.keySize : Int) ∧ 8 ≤ t.nonceSize
  /-- the level comes from the tool, its hash function or its keys -/
  level : 0 < t.securityLevel ∨ t.needsManagedHasher = true ∨ t.needsDedicatedHasher = true ∨ t.needsSecurityLevel = true ∨ t.purpose = .passDerivation
  /-- the data is hashed for signatures, the others use their hash function themselves -/
  hash : t.needsManagedHasher = true ↔ t.purpose = .signing

def toolSoundB (t : ToolInfo) : Bool :=
  decide (t.name ≠ [] ∧ 40 ∉ t.name ∧ 41 ∉ t.name) && decide (t.purpose ∈ [Purpose.cipher, .integratedCipher, .mac] ↔ t.hasState = true) &&
  decide (t.purpose = .cipher ∨ t.purpose = .integratedCipher → 0 < t.securityLevel ∧ t.securityLevel ≤ 8 * (t.keySize : Int) ∧ 8 ≤ t.nonceSize) &&
  decide (0 < t.securityLevel ∨ t.needsManagedHasher = true ∨ t.needsDedicatedHasher = true ∨ t.needsSecurityLevel = true ∨ t.purpose = .passDerivation) &&
  decide (t.needsManagedHasher = true ↔ t.purpose = .signing)

/-- C19. Every registered tool can be named and looked up, no two have the same name, and each declares what it needs. -/
theorem registered_tools_sound : (toolTable.map ToolInfo.name).Nodup ∧ ∀ t ∈ toolTable, ToolSound t ∧ getTool (parseToolID t.name).1 = some t ∧
    (∀ h ∈ hashTable, getTool (parseToolID (t.name ++ b!"(" ++ h.name ++ b!")")).1 = some t ∧ getHash (parseToolID (t.name ++ b!"(" ++ h.name ++ b!")")).2 = some h) := by
  have hd : ∀ t ∈ toolTable, toolSoundB t = true := by decide
  have hg : ∀ t ∈ toolTable, getTool t.name = some t := by decide +kernel
  have hh : ∀ h ∈ hashTable, getHash h.name = some h ∧ ∀ c ∈ h.name, c ≠ 40 ∧ c ≠ 41 := by decide +kernel
  refine ⟨by decide, ?_⟩
  intro t ht
  have hs : ToolSound t := by
    have := hd t ht
    simp only [toolSoundB, Bool.and_eq_true, decide_eq_true_eq] at this
    obtain ⟨⟨⟨⟨h1, h2⟩, h3⟩, h4⟩, h5⟩ := this
    exact ⟨h1, h2, h3, h4, h5⟩
  refine ⟨hs, ?_, ?_⟩
  · rw [(tool_id_read t.name [] hs.name.2.1 (by simp)).1]; exact hg t ht
  · intro h hm
    rw [(tool_id_read t.name h.name hs.name.2.1 (hh h hm).2).2]
    exact ⟨hg t ht, (hh h hm).1⟩

end Jess
