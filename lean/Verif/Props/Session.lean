import Verif.Props.Suites

/-!
# C16–C18, C53: what an accepted session guarantees
-/

namespace Jess

open Requirements

/-! ## C16 -/

/-- The attribute is provided by a tool of the session, or by a key secret of the envelope (specification). -/
def SessionHas (s : Session) (a : Attr) : Prop :=
  (∃ t ∈ s.insts, a ∈ providedBy t.info.purpose) ∨
  ((∃ k ∈ s.env.secrets, k.scheme = schemeKey) ∧ (a = SenderAuthentication ∨ a = RecipientAuthentication))

/-- Tools that need a key from the key derivation. -/
def Purpose.keyed (p : Purpose) : Prop := p = .cipher ∨ p = .integratedCipher ∨ p = .mac

theorem mem_addPurpose (r : Requirements) (p : Purpose) (a : Attr) :
    a ∈ addPurpose r p ↔ a ∈ r ∨ a ∈ providedBy p := by
  cases p <;> simp only [addPurpose, providedBy, mem_add, List.mem_cons, List.not_mem_nil, or_false] <;>
    generalize (a ∈ r) = x <;> grind

theorem mem_foldl_addPurpose (is : List ToolInst) (r : Requirements) (a : Attr) :
    a ∈ is.foldl (fun r i => addPurpose r i.info.purpose) r ↔ a ∈ r ∨ ∃ t ∈ is, a ∈ providedBy t.info.purpose := by
  induction is generalizing r with
  | nil => simp
  | cons i is ih => rw [List.foldl_cons, ih, mem_addPurpose]; simp [or_assoc]

theorem mem_addKeyReqs_aux (ks : List Signet) (r : Requirements) (a : Attr) :
    a ∈ ks.foldl (fun r _ => (r.add SenderAuthentication).add RecipientAuthentication) r ↔
      a ∈ r ∨ (ks ≠ [] ∧ (a = SenderAuthentication ∨ a = RecipientAuthentication)) := by
  induction ks generalizing r with
  | nil => simp
  | cons k ks ih =>
    rw [List.foldl_cons, ih, mem_add, mem_add]
    constructor
    · rintro ((h | h | h) | ⟨_, h⟩) <;> simp [h]
    · rintro (h | ⟨_, h | h⟩) <;> simp [h]

theorem mem_keySecrets (e : Envelope) (k : Signet) : k ∈ keySecrets e ↔ k ∈ e.secrets ∧ k.scheme = schemeKey := by
  simp [keySecrets, ofScheme, schemeKey]

theorem keySecrets_ne_nil (e : Envelope) : keySecrets e ≠ [] ↔ ∃ k ∈ e.secrets, k.scheme = schemeKey := by
  constructor
  · intro h
    cases hk : keySecrets e with
    | nil => exact absurd hk h
    | cons k ks =>
      have : k ∈ keySecrets e := by simp [hk]
      exact ⟨k, (mem_keySecrets e k).mp this⟩
  · rintro ⟨k, h1, h2⟩ h
    have : k ∈ keySecrets e := (mem_keySecrets e k).mpr ⟨h1, h2⟩
    rw [h] at this; simp at this

theorem mkSession_reqs (cfg : Config) (e : Envelope) (suite : Suite) (is : List ToolInst) (cs : List Int) (a : Attr) :
    a ∈ (mkSession cfg e suite is cs).reqs ↔ SessionHas (mkSession cfg e suite is cs) a := by
  simp only [mkSession, addKeyReqs, mem_addKeyReqs_aux, mem_foldl_addPurpose, SessionHas, keySecrets_ne_nil, 
    List.not_mem_nil, false_or]

/-- C16. Everything a suite claims to provide is provided by the tools of the session, or a key secret of the envelope. -/
theorem session_provides (P : Prims) (cfg : Config) (e : Envelope) (s : Session) (h : newSession P cfg e = .ok s) :
    e.suite = some s.suite ∧ s.env = e ∧ (∀ a ∈ s.suite.provides, SessionHas s a) ∧ (∃ a, SessionHas s a) := by
  obtain ⟨suite, is, lv, h1, _, _, _, _, _, _, _, _, hs, _, _, hf⟩ := (newSession_ok_iff P cfg e s).mp h
  obtain ⟨f1, f2, _⟩ := (finalChecks_ok_iff cfg s _ _).mp hf
  refine ⟨by rw [h1, hs]; rfl, by rw [hs]; rfl, ?_, ?_⟩
  · intro a ha
    have := f2 a ha
    rw [hs] at this ⊢
    exact (mkSession_reqs _ _ _ _ _ _).mp this
  · cases hr : s.reqs with
    | nil => exact absurd hr f1
    | cons a as =>
      refine ⟨a, ?_⟩
      have : a ∈ s.reqs := by rw [hr]; simp
      rw [hs] at this ⊢
      exact (mkSession_reqs _ _ _ _ _ _).mp this

/-- C16. No recipient authentication without confidentiality, no confidentiality without integrity. -/
theorem session_no_confidentiality_without_integrity (P : Prims) (cfg : Config) (e : Envelope) (s : Session)
    (h : newSession P cfg e = .ok s) :
    (SessionHas s RecipientAuthentication → SessionHas s Confidentiality) ∧
    (SessionHas s Confidentiality → SessionHas s Integrity) := by
  obtain ⟨suite, is, lv, _, _, _, _, _, _, _, _, _, hs, _, _, hf⟩ := (newSession_ok_iff P cfg e s).mp h
  obtain ⟨_, _, f3, f4, _⟩ := (finalChecks_ok_iff cfg s _ _).mp hf
  rw [hs] at f3 f4 ⊢
  simp only [mkSession_reqs] at f3 f4
  exact ⟨f3, f4⟩

theorem makeInst_length {ts : List Bytes} {is : List ToolInst} (h : ts.map makeInst = is.map Except.ok) :
    is.length = ts.length := by
  have := congrArg List.length h
  simpa using this.symm

theorem kdf_none_iff (s : Session) : s.kdf = none ↔ ∀ t ∈ s.insts, t.info.purpose ≠ .keyDerivation := by
  unfold Session.kdf Session.queue
  rw [List.head?_eq_none_iff, List.filter_eq_nil_iff]
  simp

theorem queue_ne_nil_iff (s : Session) (p : Purpose) : s.queue p ≠ [] ↔ ∃ t ∈ s.insts, t.info.purpose = p := by
  unfold Session.queue
  rw [ne_eq, List.filter_eq_nil_iff]
  constructor
  · intro h
    exact Classical.byContradiction fun hn => h fun a ha => by
      intro hp; exact hn ⟨a, ha, by simpa using hp⟩
  · rintro ⟨t, ht, hp⟩ h
    exact h t ht (by simpa using hp)

/-- C16. Keyed tools are present exactly if there is a key derivation tool, and there is at most one of those. -/
theorem session_kdf (P : Prims) (cfg : Config) (e : Envelope) (s : Session) (h : newSession P cfg e = .ok s) :
    ((∃ t ∈ s.insts, t.info.purpose.keyed) ↔ ∃ t ∈ s.insts, t.info.purpose = .keyDerivation) ∧
    (s.insts.filter (fun t => t.info.purpose = .keyDerivation)).length ≤ 1 := by
  obtain ⟨suite, is, lv, _, _, _, _, hm, ha, _, _, _, hs, _, _, hf⟩ := (newSession_ok_iff P cfg e s).mp h
  obtain ⟨_, _, _, _, f5, f6, _⟩ := (finalChecks_ok_iff cfg s _ _).mp hf
  have hins : s.insts = is := by rw [hs]; rfl
  have hsu : s.suite = suite := by rw [hs]; rfl
  refine ⟨⟨?_, ?_⟩, by rw [hins]; exact ha⟩
  · rintro ⟨t, ht, hk⟩
    refine Classical.byContradiction fun hn => ?_
    have hnone : s.kdf = none := by
      rw [kdf_none_iff]; intro u hu hp; exact hn ⟨u, hu, hp⟩
    have hl := f5 hnone
    rw [hsu, ← makeInst_length hm, ← hins] at hl
    unfold Session.queue at hl
    have hall := List.length_filter_eq_length_iff.mp hl t ht
    simp only [decide_eq_true_eq] at hall
    rcases hk with hk | hk | hk <;> rw [hk] at hall <;> cases hall
  · rintro ⟨t, ht, hp⟩
    have : s.kdf ≠ none := by rw [ne_eq, kdf_none_iff]; intro hall; exact hall t ht hp
    rcases f6 this with q | q | q
    · obtain ⟨u, hu, hp⟩ := (queue_ne_nil_iff s _).mp q
      exact ⟨u, hu, Or.inr (Or.inl hp)⟩
    · obtain ⟨u, hu, hp⟩ := (queue_ne_nil_iff s _).mp q
      exact ⟨u, hu, Or.inl hp⟩
    · obtain ⟨u, hu, hp⟩ := (queue_ne_nil_iff s _).mp q
      exact ⟨u, hu, Or.inr (Or.inr hp)⟩

/-- A source of key material: a password, key exchange or key encapsulation tool (which is only accepted with a signet, see
`session_tools_have_signets`), or a key secret. -/
def HasKeySource (s : Session) : Prop :=
  (∃ t ∈ s.insts, t.info.purpose = .passDerivation ∨ t.info.purpose = .keyExchange ∨ t.info.purpose = .keyEncapsulation) ∨
  (∃ k ∈ s.env.secrets, k.scheme = schemeKey)

/-- C16 (key source). Proved for suites that provide recipient authentication or have no signing tool, which covers every
registered suite. What is missing: suites with keyed tools and signing tools that promise no recipient authentication,
see `session_without_key_source`. -/
theorem session_key_source_partial (P : Prims) (cfg : Config) (e : Envelope) (s : Session) (h : newSession P cfg e = .ok s)
    (hk : ∃ t ∈ s.insts, t.info.purpose.keyed)
    (hsu : RecipientAuthentication ∈ s.suite.provides ∨ ∀ t ∈ s.insts, t.info.purpose ≠ .signing) : HasKeySource s := by
  obtain ⟨suite, is, lv, _, _, _, _, _, _, _, _, _, hs, _, _, hf⟩ := (newSession_ok_iff P cfg e s).mp h
  obtain ⟨_, f2, _, _, _, _, f7, _⟩ := (finalChecks_ok_iff cfg s _ _).mp hf
  have hins : s.insts = is := by rw [hs]; rfl
  have henv : s.env = e := by rw [hs]; rfl
  rcases hsu with hr | hns
  · have hr' := f2 _ hr
    rw [hs, mkSession_reqs, ← hs] at hr'
    rcases hr' with ⟨t, ht, hp⟩ | ⟨hkk, _⟩
    · left; refine ⟨t, ht, ?_⟩
      cases hq : t.info.purpose <;> rw [hq] at hp <;>
        simp [providedBy, RecipientAuthentication, Confidentiality, Integrity, SenderAuthentication] at hp ⊢
    · right; exact hkk
  · have hIC : Integrity ∈ s.reqs ∨ Confidentiality ∈ s.reqs := by
      obtain ⟨t, ht, hp⟩ := hk
      rw [hs]
      simp only [mkSession_reqs]
      rw [← hs]
      rcases hp with hp | hp | hp
      · right; left; exact ⟨t, ht, by rw [hp]; simp [providedBy]⟩
      · right; left; exact ⟨t, ht, by rw [hp]; simp [providedBy]⟩
      · left; left; exact ⟨t, ht, by rw [hp]; simp [providedBy]⟩
    have hsrc := f7 hIC
    simp only [keySourceAvailable, Bool.or_eq_true, List.any_eq_true, Bool.not_eq_true', List.isEmpty_eq_false_iff] at hsrc
    rcases hsrc with ⟨t, ht, hp⟩ | hks
    · left
      rw [← hins] at ht
      refine ⟨t, ht, ?_⟩
      have hn := hns t ht
      unfold signetsFor at hp
      cases hq : t.info.purpose <;> rw [hq] at hp hn <;> simp at hp hn ⊢
    · right; rw [henv]; exact (keySecrets_ne_nil e).mp hks

/-- C16. Every tool that works with signets has at least one. -/
theorem session_tools_have_signets (P : Prims) (cfg : Config) (e : Envelope) (s : Session) (h : newSession P cfg e = .ok s)
    (t : ToolInst) (ht : t ∈ s.insts) :
    (t.info.purpose = .passDerivation → ∃ u ∈ e.secrets, u.scheme = schemePassword) ∧
    (t.info.purpose = .keyExchange ∨ t.info.purpose = .keyEncapsulation → ∃ u ∈ e.recipients, u.scheme = t.info.name) ∧
    (t.info.purpose = .signing → ∃ u ∈ e.senders, u.scheme = t.info.name) := by
  obtain ⟨suite, is, lv, _, _, _, _, hm, _, _, _, hne, hs, _⟩ := (newSession_ok_iff P cfg e s).mp h
  have hins : s.insts = is := by rw [hs]; rfl
  rw [hins] at ht
  have hne := hne t ht
  have hname : t.info.name ≠ [] := by
    have hmem : Except.ok t ∈ is.map (Except.ok : ToolInst → Res ToolInst) := List.mem_map_of_mem ht
    rw [← hm] at hmem
    obtain ⟨tid, _, hti⟩ := List.mem_map.mp hmem
    unfold makeInst at hti
    cases hg : getTool (parseToolID tid).1 with
    | none => rw [hg] at hti; cases hti
    | some ti =>
      rw [hg] at hti
      simp only at hti
      split at hti
      · cases hti
      · simp only [Except.ok.injEq] at hti
        rw [← hti]
        have hmem := List.mem_of_find?_eq_some hg
        have : ∀ x ∈ toolTable, x.name ≠ [] := by decide +kernel
        exact this ti hmem
  have ne_of : ∀ (l : List Signet) (n : Bytes), n ≠ [] → ofScheme l n ≠ [] → ∃ u ∈ l, u.scheme = n := by
    intro l n hn hl
    cases ho : ofScheme l n with
    | nil => exact absurd ho hl
    | cons u us =>
      have : u ∈ ofScheme l n := by rw [ho]; simp
      unfold ofScheme at this
      rw [List.mem_filter] at this
      refine ⟨u, this.1, ?_⟩
      have h2 := this.2
      simp only [Bool.or_eq_true, List.isEmpty_iff, beq_iff_eq] at h2
      exact h2.resolve_left hn
  refine ⟨fun hp => ?_, fun hp => ?_, fun hp => ?_⟩
  · apply ne_of _ _ (by decide)
    intro h0; exact hne (by simp [signetsFor, hp, h0])
  · apply ne_of _ _ hname
    intro h0; rcases hp with hp | hp <;> exact hne (by simp [signetsFor, hp, h0])
  · apply ne_of _ _ hname
    intro h0; exact hne (by simp [signetsFor, hp, h0])

/-- A signing key for the counterexamples. -/
def edSender : Signet := { version := 1, id := b!"alice", scheme := b!"Ed25519", key := [1, 42, 43] }

/-- A signing suite that also encrypts, but has nothing to take a key from. -/
def noSourceEnvelope : Envelope :=
  { suiteID := b!"custom",
    suite := some { id := b!"custom", tools := [b!"Ed25519(BLAKE2b-256)", b!"HKDF(BLAKE2b-256)", b!"CHACHA20-POLY1305"],
                    provides := [Confidentiality, Integrity, SenderAuthentication], securityLevel := 128, status := 1 },
    senders := [edSender] }

/-- C16 is refuted for custom suites: a signing tool counts as key source, so a session is accepted that can not derive
any key (closing such a letter then fails, see `no_key_material`). -/
theorem session_without_key_source :
    ∃ s, newSession toyPrims toyConfig noSourceEnvelope = .ok s ∧ (∃ t ∈ s.insts, t.info.purpose.keyed) ∧ ¬ HasKeySource s := by
  have : (match newSession toyPrims toyConfig noSourceEnvelope with
      | .ok s => decide (∃ t ∈ s.insts, t.info.purpose = .integratedCipher) &&
          decide (¬ ((∃ t ∈ s.insts, t.info.purpose = .passDerivation ∨ t.info.purpose = .keyExchange ∨
            t.info.purpose = .keyEncapsulation) ∨ (∃ k ∈ s.env.secrets, k.scheme = schemeKey)))
      | .error _ => false) = true := by decide +kernel
  cases hn : newSession toyPrims toyConfig noSourceEnvelope with
  | error x => rw [hn] at this; cases this
  | ok s =>
    rw [hn] at this
    simp only [Bool.and_eq_true, decide_eq_true_eq] at this
    obtain ⟨⟨t, ht, hp⟩, h2⟩ := this
    exact ⟨s, rfl, ⟨t, ht, Or.inr (Or.inl hp)⟩, h2⟩

end Jess
