import Verif.Model.Requirements

/-!
# C09: requirements algebra
-/

namespace Jess

open Requirements

theorem has_iff (r : Requirements) (a : Attr) : r.has a = true ↔ a ∈ r := by
  simp [has]

theorem any_missing_iff (r q : Requirements) : q.any (fun a => !r.has a) = true ↔ ∃ a ∈ q, a ∉ r := by
  simp only [List.any_eq_true, Bool.not_eq_true']
  constructor
  · rintro ⟨a, ha, hb⟩
    exact ⟨a, ha, fun hc => by rw [(has_iff r a).mpr hc] at hb; exact absurd hb (by decide)⟩
  · rintro ⟨a, ha, hb⟩
    refine ⟨a, ha, ?_⟩
    cases h : r.has a with
    | false => rfl
    | true => exact absurd ((has_iff r a).mp h) hb

/-- C09. Compliance holds exactly if every required attribute is present. -/
theorem compliance_iff (r q : Requirements) : r.checkComplianceTo q = .ok () ↔ ∀ a ∈ q, a ∈ r := by
  have h := any_missing_iff r q
  unfold checkComplianceTo
  split
  · rename_i hh
    obtain ⟨a, ha, hb⟩ := h.mp hh
    simp only [reduceCtorEq, false_iff]
    exact fun hc => hb (hc a ha)
  · rename_i hh
    simp only [true_iff]
    exact fun a ha => Decidable.byContradiction (fun hb => hh (h.mpr ⟨a, ha, hb⟩))

/-- A failed compliance check is an error, never a partial success. -/
theorem compliance_error_iff (r q : Requirements) :
    r.checkComplianceTo q = .error .requirements ↔ ∃ a ∈ q, a ∉ r := by
  rw [← any_missing_iff]
  unfold checkComplianceTo
  split <;> simp_all

/-- C09. Adding behaves like set insertion. -/
theorem mem_add (r : Requirements) (a b : Attr) : b ∈ r.add a ↔ b = a ∨ b ∈ r := by
  unfold add
  split
  · rename_i h
    rw [has_iff] at h
    constructor
    · exact .inr
    · rintro (rfl | h') <;> assumption
  · simp [or_comm]

theorem remove_sublist : ∀ (r : Requirements) (a : Attr), (r.remove a).Sublist r
  | [], _ => by simp [remove]
  | x :: xs, a => by
    simp only [remove]; split
    · exact List.sublist_cons_self x xs
    · exact (remove_sublist xs a).cons_cons x

theorem mem_remove_ne : ∀ (r : Requirements) (a b : Attr), b ≠ a → (b ∈ r.remove a ↔ b ∈ r)
  | [], _, _, _ => by simp [remove]
  | x :: xs, a, b, h => by
    simp only [remove]; split
    · rename_i hx
      simp only [beq_iff_eq] at hx
      subst hx
      simp [h]
    · simp [mem_remove_ne xs a b h]

theorem not_mem_remove : ∀ (r : Requirements) (a : Attr), r.Nodup → a ∉ r.remove a
  | [], _, _ => by simp [remove]
  | x :: xs, a, h => by
    simp only [remove]; split
    · rename_i hx
      simp only [beq_iff_eq] at hx
      subst hx
      exact (List.nodup_cons.mp h).1
    · rename_i hx
      simp only [beq_iff_eq] at hx
      simp only [List.mem_cons, not_or]
      exact ⟨fun e => hx e.symm, not_mem_remove xs a (List.nodup_cons.mp h).2⟩

/-- C09. On duplicate free requirements, removing behaves like set removal. -/
theorem mem_remove (r : Requirements) (a b : Attr) (h : r.Nodup) : b ∈ r.remove a ↔ b ≠ a ∧ b ∈ r := by
  by_cases hb : b = a
  · subst hb; simp [not_mem_remove r b h]
  · simp [hb, mem_remove_ne r a b hb]

theorem nodup_add (r : Requirements) (a : Attr) (h : r.Nodup) : (r.add a).Nodup := by
  unfold add; split
  · exact h
  · rename_i hh
    rw [has_iff] at hh
    rw [List.nodup_append]
    exact ⟨h, by simp, by intro x hx y hy; simp at hy; subst hy; intro e; exact hh (e ▸ hx)⟩

theorem nodup_remove (r : Requirements) (a : Attr) (h : r.Nodup) : (r.remove a).Nodup :=
  h.sublist (remove_sublist r a)

/-- The ways in which a user of the package can make requirements. -/
inductive ReqBuilt : Requirements → Prop
  | empty : ReqBuilt Requirements.empty
  | full : ReqBuilt Requirements.full
  | add {r} (a : Attr) : ReqBuilt r → ReqBuilt (r.add a)
  | remove {r} (a : Attr) : ReqBuilt r → ReqBuilt (r.remove a)

/-- C09. All requirements a user can build by any sequence of operations are duplicate free, so the two theorems
above apply to all of them. -/
theorem built_nodup {r : Requirements} (h : ReqBuilt r) : r.Nodup := by
  induction h with
  | empty => exact List.nodup_nil
  | full => decide
  | add a _ ih => exact nodup_add _ a ih
  | remove a _ ih => exact nodup_remove _ a ih

theorem parseLoop_spec : ∀ (s : Bytes) (r : Requirements), r.Nodup →
    (∀ q, parseNoSpecLoop r s = .ok q →
      (∀ c ∈ s, c = 67 ∨ c = 73 ∨ c = 82 ∨ c = 83) ∧ q.Nodup ∧
      ∀ a, a ∈ q ↔ a ∈ r ∧ ¬ ((a = 0 ∧ 67 ∈ s) ∨ (a = 1 ∧ 73 ∈ s) ∨ (a = 2 ∧ 82 ∈ s) ∨ (a = 3 ∧ 83 ∈ s))) ∧
    ((∀ c ∈ s, c = 67 ∨ c = 73 ∨ c = 82 ∨ c = 83) → ∃ q, parseNoSpecLoop r s = .ok q)
  | [], r, hr => by
    constructor
    · intro q h; simp [parseNoSpecLoop] at h; subst h; simp [hr]
    · intro _; exact ⟨r, rfl⟩
  | c :: cs, r, hr => by
    have step : ∀ (l : UInt8) (x : Attr), (l = 67 ∧ x = 0) ∨ (l = 73 ∧ x = 1) ∨ (l = 82 ∧ x = 2) ∨ (l = 83 ∧ x = 3) →
        (∀ q, parseNoSpecLoop (r.remove x) cs = .ok q →
          (∀ c ∈ l :: cs, c = 67 ∨ c = 73 ∨ c = 82 ∨ c = 83) ∧ q.Nodup ∧
          ∀ a, a ∈ q ↔ a ∈ r ∧ ¬ ((a = 0 ∧ 67 ∈ l :: cs) ∨ (a = 1 ∧ 73 ∈ l :: cs) ∨ (a = 2 ∧ 82 ∈ l :: cs) ∨
            (a = 3 ∧ 83 ∈ l :: cs))) ∧
        ((∀ c ∈ l :: cs, c = 67 ∨ c = 73 ∨ c = 82 ∨ c = 83) → ∃ q, parseNoSpecLoop (r.remove x) cs = .ok q) := by
      intro l x hlx
      obtain ⟨i1, i2⟩ := parseLoop_spec cs (r.remove x) (nodup_remove r x hr)
      constructor
      · intro q hq
        obtain ⟨a1, a2, a3⟩ := i1 q hq
        refine ⟨?_, a2, ?_⟩
        · intro c hc
          rcases List.mem_cons.mp hc with rfl | hc
          · rcases hlx with h | h | h | h <;> simp [h.1]
          · exact a1 c hc
        · intro a
          rw [a3 a, mem_remove r x a hr]
          rcases hlx with ⟨rfl, rfl⟩ | ⟨rfl, rfl⟩ | ⟨rfl, rfl⟩ | ⟨rfl, rfl⟩ <;> simp <;> grind
      · intro h
        exact i2 (fun c hc => h c (by simp [hc]))
    simp only [parseNoSpecLoop]
    split
    · rename_i h; subst h; exact step 67 _ (by simp [Confidentiality])
    · split
      · rename_i h; subst h; exact step 73 _ (by simp [Integrity])
      · split
        · rename_i h; subst h; exact step 82 _ (by simp [RecipientAuthentication])
        · split
          · rename_i h; subst h; exact step 83 _ (by simp [SenderAuthentication])
          · rename_i h1 h2 h3 h4
            constructor
            · intro q hq; simp at hq
            · intro h
              have := h c (by simp)
              simp_all

/-- C09. The negated specification is parsed to exactly the attributes that are not mentioned, and any other
character makes it fail. -/
theorem parse_iff (s : Bytes) :
    (∀ q, parseNoSpec s = .ok q →
      (∀ c ∈ s, c = 67 ∨ c = 73 ∨ c = 82 ∨ c = 83) ∧ q.Nodup ∧
      ∀ a, a ∈ q ↔ (a = Confidentiality ∧ 67 ∉ s) ∨ (a = Integrity ∧ 73 ∉ s) ∨
        (a = RecipientAuthentication ∧ 82 ∉ s) ∨ (a = SenderAuthentication ∧ 83 ∉ s)) ∧
    ((∀ c ∈ s, c = 67 ∨ c = 73 ∨ c = 82 ∨ c = 83) ↔ ∃ q, parseNoSpec s = .ok q) := by
  obtain ⟨i1, i2⟩ := parseLoop_spec s full (by decide)
  constructor
  · intro q hq
    obtain ⟨a1, a2, a3⟩ := i1 q hq
    refine ⟨a1, a2, fun a => ?_⟩
    rw [a3 a]
    simp only [full, List.mem_cons, List.not_mem_nil, or_false, Confidentiality, Integrity, RecipientAuthentication,
      SenderAuthentication]
    constructor
    · rintro ⟨h | h | h | h, hn⟩ <;> subst h <;> simp at hn ⊢ <;> exact hn
    · rintro (⟨h, hn⟩ | ⟨h, hn⟩ | ⟨h, hn⟩ | ⟨h, hn⟩) <;> subst h <;> simp [hn]
  · constructor
    · exact i2
    · rintro ⟨q, hq⟩; exact (i1 q hq).1

/-- C09. Serializing requirements to the negated form and parsing it gives back the same set of attributes. -/
theorem noSpec_roundtrip (r : Requirements)
    (hr : ∀ a ∈ r, a = Confidentiality ∨ a = Integrity ∨ a = RecipientAuthentication ∨ a = SenderAuthentication) :
    ∃ q, parseNoSpec r.serializeToNoSpec = .ok q ∧ ∀ a, a ∈ q ↔ a ∈ r := by
  obtain ⟨p1, p2⟩ := parse_iff r.serializeToNoSpec
  have hc : ∀ c ∈ r.serializeToNoSpec, c = 67 ∨ c = 73 ∨ c = 82 ∨ c = 83 := by
    intro c hc
    simp only [serializeToNoSpec, List.mem_append] at hc
    rcases hc with ((hc | hc) | hc) | hc <;> split at hc <;> simp at hc <;> simp [hc]
  obtain ⟨q, hq⟩ := p2.mp hc
  refine ⟨q, hq, fun a => ?_⟩
  rw [(p1 q hq).2.2 a]
  have m67 : 67 ∈ r.serializeToNoSpec ↔ Confidentiality ∉ r := by
    rw [← has_iff r Confidentiality]; simp only [serializeToNoSpec, List.mem_append]
    cases r.has Confidentiality <;> cases r.has Integrity <;> cases r.has RecipientAuthentication <;>
      cases r.has SenderAuthentication <;> simp
  have m73 : 73 ∈ r.serializeToNoSpec ↔ Integrity ∉ r := by
    rw [← has_iff r Integrity]; simp only [serializeToNoSpec, List.mem_append]
    cases r.has Confidentiality <;> cases r.has Integrity <;> cases r.has RecipientAuthentication <;>
      cases r.has SenderAuthentication <;> simp
  have m82 : 82 ∈ r.serializeToNoSpec ↔ RecipientAuthentication ∉ r := by
    rw [← has_iff r RecipientAuthentication]; simp only [serializeToNoSpec, List.mem_append]
    cases r.has Confidentiality <;> cases r.has Integrity <;> cases r.has RecipientAuthentication <;>
      cases r.has SenderAuthentication <;> simp
  have m83 : 83 ∈ r.serializeToNoSpec ↔ SenderAuthentication ∉ r := by
    rw [← has_iff r SenderAuthentication]; simp only [serializeToNoSpec, List.mem_append]
    cases r.has Confidentiality <;> cases r.has Integrity <;> cases r.has RecipientAuthentication <;>
      cases r.has SenderAuthentication <;> simp
  rw [m67, m73, m82, m83]
  constructor
  · rintro (⟨rfl, h⟩ | ⟨rfl, h⟩ | ⟨rfl, h⟩ | ⟨rfl, h⟩) <;> simpa using h
  · intro h
    rcases hr a h with rfl | rfl | rfl | rfl <;> simp [h]

/-- C09. The short form lists exactly the attributes present. -/
theorem shortString_mem (r : Requirements) :
    (67 ∈ r.shortString ↔ Confidentiality ∈ r) ∧ (73 ∈ r.shortString ↔ Integrity ∈ r) ∧
    (82 ∈ r.shortString ↔ RecipientAuthentication ∈ r) ∧ (83 ∈ r.shortString ↔ SenderAuthentication ∈ r) := by
  rw [← has_iff r, ← has_iff r, ← has_iff r, ← has_iff r]; simp only [shortString, List.mem_append]
  cases r.has Confidentiality <;> cases r.has Integrity <;> cases r.has RecipientAuthentication <;>
    cases r.has SenderAuthentication <;> simp

/-- Non-vacuity: a sequence of operations and its textual form. -/
example : ReqBuilt ((Requirements.full.remove SenderAuthentication).add Integrity) ∧
    ((Requirements.full.remove SenderAuthentication).add Integrity).serializeToNoSpec = b!"S" ∧
    parseNoSpec b!"S" = .ok [Confidentiality, Integrity, RecipientAuthentication] ∧
    parseNoSpec b!"CX" = .error .malformed :=
  ⟨.add _ (.remove _ .full), by decide, by decide, by decide⟩

end Jess
