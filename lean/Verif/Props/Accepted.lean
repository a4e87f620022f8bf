import Verif.Props.Check
import Verif.Lemmas.Levels

/-!
# C119: exactly the envelopes that fit their suite are accepted
-/

namespace Jess

open Requirements

/-! ## Specification -/

/-- The suites whose letters are only signed. -/
def signOnlySuites : List Bytes := [b!"sign_v1", b!"sign_v2", b!"signfile_v1", b!"signfile_v2"]

/-- The suites that work with senders. -/
def signingSuites : List Bytes := [b!"sign_v1", b!"sign_v2", b!"signfile_v1", b!"signfile_v2", b!"v1", b!"v2"]

/-- The suites that work with recipients. -/
def recipientSuites : List Bytes := [b!"rcpt_v1", b!"rcpt_v2", b!"v1", b!"v2", b!"w1", b!"w2"]

/-- The suites that work with passwords. -/
def passwordSuites : List Bytes := [b!"pw_v1", b!"pw_v2"]

/-- The suites that work with keys only. -/
def keySuites : List Bytes := [b!"key_v1", b!"key_v2"]

/-- The envelope fits the suite with the ID `id` (specification): it has senders, recipients, passwords and keys as the suite wants them and no others, and
nothing is below the security level that is demanded. (An empty password or key is not rated.) -/
structure Fits (cfg : Config) (id : Bytes) (e : Envelope) : Prop where
  senders : ∀ k ∈ e.senders, k.scheme = b!"Ed25519" ∧ id ∈ signingSuites
  hasSender : id ∈ signingSuites → e.senders ≠ []
  recipients : ∀ k ∈ e.recipients, k.scheme = b!"ECDH-X25519" ∧ id ∈ recipientSuites
  hasRecipient : id ∈ recipientSuites → e.recipients ≠ []
  secrets : ∀ k ∈ e.secrets, (k.scheme = schemeKey ∧ id ∉ signOnlySuites) ∨ (k.scheme = schemePassword ∧ id ∈ passwordSuites)
  hasPassword : id ∈ passwordSuites → ∃ k ∈ e.secrets, k.scheme = schemePassword
  hasKey : id ∈ keySuites → e.secrets ≠ []
  level : demandedLevel cfg e.securityLevel ≤ 128
  ownLevel : 0 < e.securityLevel → demandedLevel cfg e.securityLevel ≤ e.securityLevel
  passwordLevel : ∀ k ∈ e.secrets, k.scheme = schemePassword → k.key ≠ [] → cfg.pwLevel k.key (2 ^ 20) = 0 ∨
    (0 < cfg.pwLevel k.key (2 ^ 20) ∧ demandedLevel cfg e.securityLevel ≤ cfg.pwLevel k.key (2 ^ 20))
  keyLevel : ∀ k ∈ e.secrets, k.scheme = schemeKey → k.key = [] ∨ demandedLevel cfg e.securityLevel ≤ 8 * k.key.length

/-! ## The suites of the library -/

/-- The purposes of the tools of a suite. -/
def shapeOf (id : Bytes) : List Purpose :=
  if id ∈ signOnlySuites then [.signing]
  else if id ∈ [b!"v1", b!"v2"] then [.keyExchange, .signing, .keyDerivation, .integratedCipher]
  else if id ∈ recipientSuites then [.keyExchange, .keyDerivation, .integratedCipher]
  else if id ∈ passwordSuites then [.passDerivation, .keyDerivation, .integratedCipher]
  else [.keyDerivation, .integratedCipher]

theorem registry_shapes : ∀ su ∈ suiteRegistry,
    (instsOf su).map (·.info.purpose) = shapeOf su.id ∧ su.securityLevel = 128 ∧ su.tools.map makeInst = (instsOf su).map Except.ok ∧
    (∀ t ∈ su.tools, su.tools.count t ≤ 1) ∧ AtMostOne (instsOf su) .keyDerivation ∧ AtMostOne (instsOf su) .passDerivation ∧
    su.tools.length = (instsOf su).length := by
  unfold AtMostOne
  decide +kernel

theorem registry_instances : ∀ su ∈ suiteRegistry, ∀ t ∈ instsOf su,
    (t.info.purpose = .signing → t.info.name = b!"Ed25519") ∧ (t.info.purpose = .keyExchange → t.info.name = b!"ECDH-X25519") ∧
    (t.info.purpose = .passDerivation → t.info.name = b!"SCRYPT-20") ∧ t.info.needsSecurityLevel = false ∧
    (t.info.purpose = .passDerivation ∧ t.baseLevel = 0 ∨ t.info.purpose ≠ .passDerivation ∧ t.baseLevel = 128) ∧
    (t.info.purpose = .integratedCipher → t.info.keySize = 32) ∧ t.info.keySize ≤ 32 := by
  decide +kernel

theorem registry_promises : ∀ su ∈ suiteRegistry, ∀ a ∈ su.provides,
    (∃ p ∈ shapeOf su.id, a ∈ providedBy p) ∨ (su.id ∈ keySuites ∧ (a = SenderAuthentication ∨ a = RecipientAuthentication)) := by decide +kernel

set_option synthInstance.maxSize 4000 in
set_option synthInstance.maxHeartbeats 200000 in
theorem registry_ids : ∀ su ∈ suiteRegistry,
    (su.id ∈ signOnlySuites ∧ su.id ∈ signingSuites ∧ su.id ∉ recipientSuites ∧ su.id ∉ passwordSuites ∧ su.id ∉ keySuites ∧ shapeOf su.id = [.signing]) ∨
    (su.id ∉ signOnlySuites ∧ su.id ∈ signingSuites ∧ su.id ∈ recipientSuites ∧ su.id ∉ passwordSuites ∧ su.id ∉ keySuites ∧
      shapeOf su.id = [.keyExchange, .signing, .keyDerivation, .integratedCipher]) ∨
    (su.id ∉ signOnlySuites ∧ su.id ∉ signingSuites ∧ su.id ∈ recipientSuites ∧ su.id ∉ passwordSuites ∧ su.id ∉ keySuites ∧
      shapeOf su.id = [.keyExchange, .keyDerivation, .integratedCipher]) ∨
    (su.id ∉ signOnlySuites ∧ su.id ∉ signingSuites ∧ su.id ∉ recipientSuites ∧ su.id ∈ passwordSuites ∧ su.id ∉ keySuites ∧
      shapeOf su.id = [.passDerivation, .keyDerivation, .integratedCipher]) ∨
    (su.id ∉ signOnlySuites ∧ su.id ∉ signingSuites ∧ su.id ∉ recipientSuites ∧ su.id ∉ passwordSuites ∧ su.id ∈ keySuites ∧
      shapeOf su.id = [.keyDerivation, .integratedCipher]) := by decide +kernel

theorem key_suites_promise : ∀ su ∈ suiteRegistry, su.id ∈ keySuites → RecipientAuthentication ∈ su.provides := by decide +kernel

theorem registry_confidential : ∀ su ∈ suiteRegistry, Confidentiality ∈ su.provides ↔ su.id ∉ signOnlySuites := by decide +kernel

theorem has_shape {su : Suite} (hsu : su ∈ suiteRegistry) {p : Purpose} : (∃ t ∈ instsOf su, t.info.purpose = p) ↔ p ∈ shapeOf su.id := by
  rw [← (registry_shapes su hsu).1, List.mem_map]

/-! ## Counting -/

theorem secrets_split : ∀ l : List Signet, (∀ k ∈ l, k.scheme = schemeKey ∨ k.scheme = schemePassword) →
    l.length = (ofScheme l schemePassword).length + (ofScheme l schemeKey).length
  | [], _ => rfl
  | k :: l, h => by
    have ih := secrets_split l (fun x hx => h x (by simp [hx]))
    have e1 : ofScheme (k :: l) schemePassword = if k.scheme = schemePassword then k :: ofScheme l schemePassword else ofScheme l schemePassword := by
      unfold ofScheme
      by_cases hk : k.scheme = schemePassword <;> simp [List.filter_cons, hk, schemePassword]
    have e2 : ofScheme (k :: l) schemeKey = if k.scheme = schemeKey then k :: ofScheme l schemeKey else ofScheme l schemeKey := by
      unfold ofScheme
      by_cases hk : k.scheme = schemeKey <;> simp [List.filter_cons, hk, schemeKey]
    have hne : schemeKey ≠ schemePassword := by decide
    rw [e1, e2]
    rcases h k (by simp) with hk | hk
    · rw [if_neg (by rw [hk]; exact hne), if_pos hk]; simp only [List.length_cons]; omega
    · rw [if_pos hk, if_neg (by rw [hk]; exact hne.symm)]; simp only [List.length_cons]; omega

/-- The number of signets that a tool of a purpose works with. -/
def countFor (e : Envelope) : Purpose → Nat
  | .passDerivation => (ofScheme e.secrets schemePassword).length
  | .keyExchange => e.recipients.length
  | .signing => e.senders.length
  | _ => 0

theorem toolSignets_count {e : Envelope} (hs : ∀ k ∈ e.senders, k.scheme = b!"Ed25519") (hr : ∀ k ∈ e.recipients, k.scheme = b!"ECDH-X25519") :
    ∀ is : List ToolInst, (∀ t ∈ is, (t.info.purpose = .signing → t.info.name = b!"Ed25519") ∧
      (t.info.purpose = .keyExchange → t.info.name = b!"ECDH-X25519") ∧ t.info.purpose ≠ .keyEncapsulation) →
      (toolSignets e is).length = ((is.map (·.info.purpose)).map (countFor e)).sum
  | [], _ => rfl
  | t :: is, h => by
    have ih := toolSignets_count hs hr is (fun x hx => h x (by simp [hx]))
    obtain ⟨h1, h2, h3⟩ := h t (by simp)
    have : ((signetsFor e t).getD []).length = countFor e t.info.purpose := by
      unfold signetsFor countFor
      cases hp : t.info.purpose <;> simp only [Option.getD_some, Option.getD_none, List.length_nil]
      · rw [h2 hp, ofScheme_all hr]
      · exact absurd hp h3
      · rw [h1 hp, ofScheme_all hs]
    unfold toolSignets at ih ⊢
    simp only [List.flatMap_cons, List.length_append, List.length_map, List.map_cons, List.sum_cons, this, ih]

/-! ## Levels -/

/-- The level of a signet at a tool. -/
def rated (cfg : Config) (x : ToolInst × Signet) : Int :=
  if x.1.info.purpose = .passDerivation then (if x.2.key = [] then 0 else cfg.pwLevel x.2.key (2 ^ 20)) else 128

theorem toolSignets_mem {e : Envelope} {is : List ToolInst} {x : ToolInst × Signet} :
    x ∈ toolSignets e is ↔ x.1 ∈ is ∧ x.2 ∈ (signetsFor e x.1).getD [] := by
  unfold toolSignets
  simp only [List.mem_flatMap, List.mem_map]
  constructor
  · rintro ⟨t, ht, k, hk, rfl⟩; exact ⟨ht, hk⟩
  · rintro ⟨h1, h2⟩; exact ⟨_, h1, _, h2, rfl⟩

theorem mem_signetsFor {e : Envelope} {t : ToolInst} {k : Signet} (hn : t.info.name ≠ []) (hk : k ∈ (signetsFor e t).getD []) :
    (t.info.purpose = .passDerivation ∧ k ∈ e.secrets ∧ k.scheme = schemePassword) ∨
    (t.info.purpose ≠ .passDerivation ∧ k.scheme = t.info.name) := by
  unfold signetsFor at hk
  cases hp : t.info.purpose <;> rw [hp] at hk <;> simp only [Option.getD_some, Option.getD_none, List.not_mem_nil] at hk
  · exact .inl ⟨rfl, (mem_ofScheme (by decide) k).mp hk⟩
  · exact .inr ⟨by simp, ((mem_ofScheme hn k).mp hk).2⟩
  · exact .inr ⟨by simp, ((mem_ofScheme hn k).mp hk).2⟩
  · exact .inr ⟨by simp, ((mem_ofScheme hn k).mp hk).2⟩

/-- What the levels of an accepted envelope are. -/
theorem calcLevel_signet (P : Prims) {cfg : Config} {su : Suite} (hsu : su ∈ suiteRegistry) {e : Envelope}
    (hpw : ∀ k ∈ e.secrets, k.scheme = schemePassword → k.key ≠ [] → 0 ≤ cfg.pwLevel k.key (2 ^ 20))
    {x : ToolInst × Signet} (hx : x ∈ toolSignets e (instsOf su)) : calcLevel P cfg (some x.1) (some x.2) = .ok (rated cfg x) := by
  obtain ⟨t, k⟩ := x
  obtain ⟨h1, h2⟩ := toolSignets_mem.mp hx
  simp only at h1 h2
  obtain ⟨_, _, g3, g4, g5, g6⟩ := registry_named _ hsu t h1
  obtain ⟨_, _, i3, _, i5, _⟩ := registry_instances _ hsu t h1
  have hne : schemePassword ≠ schemeKey := by decide
  rcases mem_signetsFor g3 h2 with ⟨p, k1, k2⟩ | ⟨p, k2⟩
  · have hit : pwIterations t.info.name = 2 ^ 20 := by rw [i3 p]; decide
    simp only [calcLevel, k2, hne, if_false, if_true, hit, rated, p]
    by_cases hk : k.key = []
    · simp [hk]
    · have : 0 < k.key.length := List.length_pos_iff.mpr hk
      have h0 := hpw k k1 k2 hk
      simp only [this, if_true, hk, if_false]
      rw [if_neg (by omega)]
  · have hb : t.baseLevel = 128 := by
      rcases i5 with ⟨h, _⟩ | ⟨_, h⟩
      · exact absurd h p
      · exact h
    simp only [calcLevel, k2, g5, g6, if_false, ToolInst.secLevel, g4, Bool.false_eq_true, hb, rated, p]

/-- The levels of an accepted envelope. -/
def fittingLevels (P : Prims) (cfg : Config) {su : Suite} (hsu : su ∈ suiteRegistry) (e : Envelope)
    (hpw : ∀ k ∈ e.secrets, k.scheme = schemePassword → k.key ≠ [] → 0 ≤ cfg.pwLevel k.key (2 ^ 20)) : LevelLists P cfg e (instsOf su) where
  tools := (instsOf su).map ToolInst.baseLevel
  signets := (toolSignets e (instsOf su)).map (rated cfg)
  keys := (keySecrets e).map (fun k => (8 * k.key.length : Int))
  htools := by
    rw [List.map_map]
    apply List.map_congr_left
    intro i hi
    obtain ⟨_, _, _, g4, _⟩ := registry_named _ hsu i hi
    simp [calcLevel, ToolInst.secLevel, g4]
  hsignets := by
    rw [List.map_map]
    apply List.map_congr_left
    intro x hx
    exact calcLevel_signet P hsu hpw hx
  hkeys := by
    rw [List.map_map]
    apply List.map_congr_left
    intro k hk
    have := ((mem_keySecrets e k).mp hk).2
    simp [calcLevel, this]

/-- An envelope that fits passes every level check. -/
theorem fitting_ok (P : Prims) {cfg : Config} {su : Suite} (hsu : su ∈ suiteRegistry) {e : Envelope} (hf : Fits cfg su.id e)
    (hpw : ∀ k ∈ e.secrets, k.scheme = schemePassword → k.key ≠ [] → 0 ≤ cfg.pwLevel k.key (2 ^ 20)) :
    ∀ c ∈ (fittingLevels P cfg hsu e hpw).all, LevelOK cfg e.securityLevel c := by
  intro c hc
  have h128 : LevelOK cfg e.securityLevel 128 := .inr ⟨by decide, hf.level⟩
  simp only [LevelLists.all, fittingLevels, List.mem_append, List.mem_map] at hc
  rcases hc with (⟨t, ht, rfl⟩ | ⟨x, hx, rfl⟩) | ⟨k, hk, rfl⟩
  · obtain ⟨_, _, _, _, i5, _⟩ := registry_instances _ hsu t ht
    rcases i5 with ⟨_, h⟩ | ⟨_, h⟩
    · rw [h]; exact .inl rfl
    · rw [h]; exact h128
  · obtain ⟨h1, h2⟩ := toolSignets_mem.mp hx
    obtain ⟨_, _, g3, _⟩ := registry_named _ hsu _ h1
    unfold rated
    by_cases hp : x.1.info.purpose = .passDerivation
    · rw [if_pos hp]
      by_cases hk : x.2.key = []
      · rw [if_pos hk]; exact .inl rfl
      · rw [if_neg hk]
        rcases mem_signetsFor g3 h2 with ⟨_, k1, k2⟩ | ⟨p, _⟩
        · exact hf.passwordLevel _ k1 k2 hk
        · exact absurd hp p
    · rw [if_neg hp]; exact h128
  · obtain ⟨k1, k2⟩ := (mem_keySecrets e k).mp hk
    rcases hf.keyLevel k k1 k2 with h | h
    · rw [h]; exact .inl rfl
    · by_cases h0 : k.key = []
      · rw [h0]; exact .inl rfl
      · have := List.length_pos_iff.mpr h0
        exact .inr ⟨by omega, h⟩

/-! ## Accepted -/

theorem fits_accepted (P : Prims) {cfg : Config} {su : Suite} (hsu : su ∈ suiteRegistry) {e : Envelope} (he : e.suite = some su)
    (hf : Fits cfg su.id e) : ∃ s, newSession P cfg e = .ok s := by
  have hpw : ∀ k ∈ e.secrets, k.scheme = schemePassword → k.key ≠ [] → 0 ≤ cfg.pwLevel k.key (2 ^ 20) := by
    intro k h1 h2 h3
    rcases hf.passwordLevel k h1 h2 h3 with h | h <;> omega
  obtain ⟨q1, q2, q3, q4, q5, q6, q7⟩ := registry_shapes su hsu
  have hok := fitting_ok P hsu hf hpw
  have hlev : ∀ c ∈ (fittingLevels P cfg hsu e hpw).all, 0 ≤ c := by
    intro c hc; rcases hok c hc with h | h <;> omega
  have hsn := registry_ids su hsu
  have hcf := registry_confidential su hsu
  have hks : keySecrets e = ofScheme e.secrets schemeKey := rfl
  have mem_pw : ∀ k ∈ e.secrets, k.scheme = schemePassword → k ∈ ofScheme e.secrets schemePassword := fun k h1 h2 =>
    (mem_ofScheme (by decide) k).mpr ⟨h1, h2⟩
  refine ⟨mkSession cfg e su (instsOf su) (fittingLevels P cfg hsu e hpw).all, (newSession_ok_iff P cfg e _).mpr
    ⟨su, instsOf su, fittingLevels P cfg hsu e hpw, he, hf.ownLevel, by rw [q2]; exact hf.level, q4, q3, q5, q6, hok, ?_, rfl, ?_, ?_, ?_⟩⟩
  · intro t ht
    obtain ⟨i1, i2, i3, _⟩ := registry_instances _ hsu t ht
    have hin : t.info.purpose ∈ shapeOf su.id := (has_shape hsu).mp ⟨t, ht, rfl⟩
    unfold signetsFor
    cases hp : t.info.purpose <;> simp only [ne_eq, Option.some.injEq, reduceCtorEq, not_false_eq_true] <;> rw [hp] at hin
    · have : su.id ∈ passwordSuites := by
        rcases hsn with ⟨_, _, _, a, _, b⟩ | ⟨_, _, _, a, _, b⟩ | ⟨_, _, _, a, _, b⟩ | ⟨_, _, _, a, _, b⟩ | ⟨_, _, _, a, _, b⟩ <;> rw [b] at hin <;>
          first | exact a | simp at hin
      obtain ⟨k, k1, k2⟩ := hf.hasPassword this
      exact List.ne_nil_of_mem (mem_pw k k1 k2)
    · have : su.id ∈ recipientSuites := by
        rcases hsn with ⟨_, _, a, _, _, b⟩ | ⟨_, _, a, _, _, b⟩ | ⟨_, _, a, _, _, b⟩ | ⟨_, _, a, _, _, b⟩ | ⟨_, _, a, _, _, b⟩ <;> rw [b] at hin <;>
          first | exact a | simp at hin
      rw [i2 hp, ofScheme_all fun k hk => (hf.recipients k hk).1]
      exact hf.hasRecipient this
    · rcases hsn with ⟨_, _, a, _, _, b⟩ | ⟨_, _, a, _, _, b⟩ | ⟨_, _, a, _, _, b⟩ | ⟨_, _, a, _, _, b⟩ | ⟨_, _, a, _, _, b⟩ <;> rw [b] at hin <;> simp at hin
    · have : su.id ∈ signingSuites := by
        rcases hsn with ⟨_, a, _, _, _, b⟩ | ⟨_, a, _, _, _, b⟩ | ⟨_, a, _, _, _, b⟩ | ⟨_, a, _, _, _, b⟩ | ⟨_, a, _, _, _, b⟩ <;> rw [b] at hin <;>
          first | exact a | simp at hin
      rw [i1 hp, ofScheme_all fun k hk => (hf.senders k hk).1]
      exact hf.hasSender this
  · rintro ⟨i, hi, h⟩
    obtain ⟨_, _, _, g, _⟩ := registry_instances _ hsu i hi
    rw [g] at h; cases h
  · rintro ⟨i, hi, h⟩
    obtain ⟨_, _, r3, _, r5⟩ := registered_sizes su hsu
    obtain ⟨t, ht, hk⟩ := r3 ((r5 i hi (.inr h)).2.1)
    have := (fold_max (instsOf su) 0).2.1 t ht
    simp only [mkSession]
    split <;> omega
  · have ids : (su.id ∈ signOnlySuites ∧ su.id ∈ signingSuites ∧ su.id ∉ recipientSuites ∧ su.id ∉ passwordSuites ∧ shapeOf su.id = [.signing]) ∨
        (su.id ∉ signOnlySuites ∧ Purpose.integratedCipher ∈ shapeOf su.id ∧ Purpose.keyDerivation ∈ shapeOf su.id) := by
      rcases hsn with ⟨a, b, c, d, _, h⟩ | ⟨a, _, _, _, _, h⟩ | ⟨a, _, _, _, _, h⟩ | ⟨a, _, _, _, _, h⟩ | ⟨a, _, _, _, _, h⟩
      · exact .inl ⟨a, b, c, d, h⟩
      all_goals exact .inr ⟨a, by rw [h]; simp, by rw [h]; simp⟩
    have tool : ∀ {p a}, p ∈ shapeOf su.id → a ∈ providedBy p →
        a ∈ (mkSession cfg e su (instsOf su) (fittingLevels P cfg hsu e hpw).all).reqs := by
      intro p a hp ha
      obtain ⟨t, ht, h⟩ := (has_shape hsu).mpr hp
      exact (mkSession_reqs _ _ _ _ _ _).mpr (.inl ⟨t, ht, by rw [h]; exact ha⟩)
    have hint : Integrity ∈ (mkSession cfg e su (instsOf su) (fittingLevels P cfg hsu e hpw).all).reqs := by
      rcases ids with ⟨_, _, _, _, h⟩ | ⟨_, h, _⟩
      · exact tool (p := .signing) (by rw [h]; simp) (by simp [providedBy])
      · exact tool h (by simp [providedBy])
    have hq : ∀ p, (mkSession cfg e su (instsOf su) (fittingLevels P cfg hsu e hpw).all).queue p ≠ [] ↔ p ∈ shapeOf su.id := by
      intro p
      rw [← has_shape hsu]
      simp only [Session.queue, mkSession, ne_eq, List.filter_eq_nil_iff, decide_eq_true_eq]
      constructor
      · intro h
        refine Classical.byContradiction fun hc => h fun t ht hp => hc ⟨t, ht, hp⟩
      · rintro ⟨t, ht, hp⟩ h; exact h t ht hp
    have hkdf : (mkSession cfg e su (instsOf su) (fittingLevels P cfg hsu e hpw).all).kdf = none ↔ Purpose.keyDerivation ∉ shapeOf su.id := by
      rw [← hq, Session.kdf, List.head?_eq_none_iff, Decidable.not_not]
    refine (finalChecks_ok_iff _ _ _ _).mpr ⟨List.ne_nil_of_mem hint, ?_, ?_, fun _ => hint, ?_, ?_, ?_, ?_, ?_⟩
    · intro a ha
      rcases registry_promises su hsu a ha with ⟨p, h1, h2⟩ | ⟨h1, h2⟩
      · exact tool h1 h2
      · refine (mkSession_reqs _ _ _ _ _ _).mpr (.inr ⟨?_, h2⟩)
        have hnp : su.id ∉ passwordSuites := by
          rcases hsn with ⟨_, _, _, _, c, _⟩ | ⟨_, _, _, _, c, _⟩ | ⟨_, _, _, _, c, _⟩ | ⟨_, _, _, _, c, _⟩ | ⟨_, _, _, d, _, _⟩
          all_goals first | exact d | exact absurd h1 c
        obtain ⟨k, hk⟩ := List.exists_mem_of_ne_nil _ (hf.hasKey h1)
        rcases hf.secrets k hk with ⟨h, _⟩ | ⟨_, h⟩
        · exact ⟨k, hk, h⟩
        · exact absurd h hnp
    · intro hr
      rcases ids with ⟨hid, _, _, hnp, h⟩ | ⟨_, h, _⟩
      · exfalso
        rcases (mkSession_reqs _ _ _ _ _ _).mp hr with ⟨t, ht, h1⟩ | ⟨⟨k, hk, h1⟩, _⟩
        · have := (has_shape hsu).mp ⟨t, ht, rfl⟩
          rw [h, List.mem_singleton] at this
          rw [this] at h1
          simp [providedBy, RecipientAuthentication, Integrity, SenderAuthentication] at h1
        · rcases hf.secrets k hk with ⟨_, h2⟩ | ⟨_, h2⟩
          · exact h2 hid
          · exact hnp h2
      · exact tool h (by simp [providedBy])
    · intro hk
      rcases ids with ⟨_, _, _, _, h⟩ | ⟨_, _, h⟩
      · have hall : ∀ t ∈ instsOf su, t.info.purpose = .signing := by
          intro t ht
          have := (has_shape hsu).mp ⟨t, ht, rfl⟩
          rw [h, List.mem_singleton] at this
          exact this
        simp only [Session.queue, mkSession]
        rw [List.filter_eq_self.mpr fun t ht => by simp [hall t ht], q7]
      · exact absurd h (hkdf.mp hk)
    · intro hk
      rcases ids with ⟨_, _, _, _, h⟩ | ⟨_, h, _⟩
      · exact absurd (hkdf.mpr (by rw [h]; simp)) hk
      · exact .inl ((hq _).mpr h)
    · intro _
      unfold keySourceAvailable
      rw [Bool.or_eq_true, List.any_eq_true]
      have some_tool : ∀ p, p ∈ shapeOf su.id → p = .signing ∨ p = .keyExchange ∨ p = .passDerivation →
          ∃ t ∈ instsOf su, (signetsFor e t).isSome = true := by
        intro p hp hh
        obtain ⟨t, ht, h⟩ := (has_shape hsu).mpr hp
        refine ⟨t, ht, ?_⟩
        unfold signetsFor
        rcases hh with rfl | rfl | rfl <;> rw [h] <;> rfl
      rcases hsn with ⟨_, _, _, _, _, h⟩ | ⟨_, _, _, _, _, h⟩ | ⟨_, _, _, _, _, h⟩ | ⟨_, _, _, _, _, h⟩ | ⟨_, _, _, d, c, h⟩
      · exact .inl (some_tool .signing (by rw [h]; simp) (by simp))
      · exact .inl (some_tool .signing (by rw [h]; simp) (by simp))
      · exact .inl (some_tool .keyExchange (by rw [h]; simp) (by simp))
      · exact .inl (some_tool .passDerivation (by rw [h]; simp) (by simp))
      · right
        obtain ⟨k, hk⟩ := List.exists_mem_of_ne_nil _ (hf.hasKey c)
        rcases hf.secrets k hk with ⟨h1, _⟩ | ⟨_, h1⟩
        · have : k ∈ keySecrets e := (mem_keySecrets e k).mpr ⟨hk, h1⟩
          cases hh : keySecrets e with
          | nil => rw [hh] at this; cases this
          | cons _ _ => rfl
        · exact absurd h1 d
    · have hsum := toolSignets_count (e := e) (fun k hk => (hf.senders k hk).1) (fun k hk => (hf.recipients k hk).1) (instsOf su) (fun t ht => by
        obtain ⟨i1, i2, _⟩ := registry_instances _ hsu t ht
        refine ⟨i1, i2, fun hp => ?_⟩
        have hin := (has_shape hsu).mp ⟨t, ht, hp⟩
        rcases hsn with ⟨_, _, _, _, _, h⟩ | ⟨_, _, _, _, _, h⟩ | ⟨_, _, _, _, _, h⟩ | ⟨_, _, _, _, _, h⟩ | ⟨_, _, _, _, _, h⟩ <;> rw [h] at hin <;> simp at hin)
      rw [q1] at hsum
      have hsec := secrets_split e.secrets (fun k hk => by
        rcases hf.secrets k hk with ⟨h, _⟩ | ⟨h, _⟩
        · exact .inl h
        · exact .inr h)
      have none_of : ∀ {l : List Signet}, (∀ k ∈ l, False) → l.length = 0 := by
        intro l h
        cases l with
        | nil => rfl
        | cons k l => exact absurd (h k (by simp)) id
      have nosend : su.id ∉ signingSuites → e.senders.length = 0 := fun h => none_of fun k hk => h (hf.senders k hk).2
      have norcpt : su.id ∉ recipientSuites → e.recipients.length = 0 := fun h => none_of fun k hk => h (hf.recipients k hk).2
      have nopw : su.id ∉ passwordSuites → (ofScheme e.secrets schemePassword).length = 0 := fun h => none_of fun k hk => by
        obtain ⟨h1, h2⟩ := (mem_ofScheme (by decide) k).mp hk
        rcases hf.secrets k h1 with ⟨h3, _⟩ | ⟨_, h3⟩
        · rw [h2] at h3; exact absurd h3 (by decide)
        · exact h h3
      rw [hsum, hks]
      simp only [mkSession]
      rw [hsec]
      rcases hsn with ⟨a, b, c, d, _, h⟩ | ⟨a, b, c, d, _, h⟩ | ⟨a, b, c, d, _, h⟩ | ⟨a, b, c, d, _, h⟩ | ⟨a, b, c, d, _, h⟩
      · have := norcpt c; have := nopw d; rw [h]; simp only [List.map_cons, List.map_nil, List.sum_cons, List.sum_nil, countFor]; omega
      · have := nopw d; rw [h]; simp only [List.map_cons, List.map_nil, List.sum_cons, List.sum_nil, countFor]; omega
      · have := nosend b; have := nopw d; rw [h]; simp only [List.map_cons, List.map_nil, List.sum_cons, List.sum_nil, countFor]; omega
      · have := nosend b; have := norcpt c; rw [h]; simp only [List.map_cons, List.map_nil, List.sum_cons, List.sum_nil, countFor]; omega
      · have := nosend b; have := norcpt c; have := nopw d; rw [h]; simp only [List.map_cons, List.map_nil, List.sum_cons, List.sum_nil, countFor]; omega
    · have h128 : (128 : Int) ∈ (fittingLevels P cfg hsu e hpw).all := by
        have hne : ∃ t ∈ instsOf su, t.info.purpose ≠ .passDerivation := by
          rcases ids with ⟨_, _, _, _, h⟩ | ⟨_, h, _⟩
          · obtain ⟨t, ht, hp⟩ := (has_shape hsu).mpr (show Purpose.signing ∈ shapeOf su.id by rw [h]; simp)
            exact ⟨t, ht, by rw [hp]; simp⟩
          · obtain ⟨t, ht, hp⟩ := (has_shape hsu).mpr h
            exact ⟨t, ht, by rw [hp]; simp⟩
        obtain ⟨t, ht, hp⟩ := hne
        obtain ⟨_, _, _, _, i5, _⟩ := registry_instances _ hsu t ht
        have hb : t.baseLevel = 128 := by
          rcases i5 with ⟨h, _⟩ | ⟨_, h⟩
          · exact absurd h hp
          · exact h
        simp only [LevelLists.all, fittingLevels, List.mem_append, List.mem_map]
        exact .inl (.inl ⟨t, ht, hb⟩)
      have hl : demandedLevel cfg e.securityLevel ≤ (levelsOf (fittingLevels P cfg hsu e hpw).all).level := by
        rcases levelsOf_level _ hlev with ⟨h, _⟩ | ⟨h1, h2, _⟩
        · exact absurd (h _ h128) (by decide)
        · rcases hok _ h2 with h | ⟨_, h⟩
          · omega
          · exact h
      show demandedLevel cfg e.securityLevel ≤ if cfg.minLevel > 0 ∧ cfg.minLevel > (levelsOf (fittingLevels P cfg hsu e hpw).all).level then cfg.minLevel
        else (levelsOf (fittingLevels P cfg hsu e hpw).all).level
      split
      · rename_i h; omega
      · exact hl

/-- Whatever is accepted fits. -/
theorem accepted_fits (P : Prims) {cfg : Config} {su : Suite} (hsu : su ∈ suiteRegistry) {e : Envelope} (he : e.suite = some su)
    {s : Session} (h : newSession P cfg e = .ok s) : Fits cfg su.id e := by
  obtain ⟨suite, is, lv, h1, h2, h3, _, hm, _, _, hok, hne, hs, _, _, hfc⟩ := (newSession_ok_iff P cfg e s).mp h
  rw [he] at h1
  obtain rfl : su = suite := by injection h1
  obtain ⟨q1, q2, q3, _⟩ := registry_shapes su hsu
  have hsn := registry_ids su hsu
  have henv : s.env = e := by rw [hs]; rfl
  have hsuite : s.suite = su := by rw [hs]; rfl
  have hins : s.insts = instsOf su := by rw [session_insts h, hsuite]
  have his : is = instsOf su := by rw [← hins, hs]; rfl
  have used := no_signet_ignored P cfg e s h (registered_session h (by rw [hsuite]; exact hsu)).1
  have hsg := session_tools_have_signets P cfg e s h
  obtain ⟨_, f2, f3, _⟩ := (finalChecks_ok_iff cfg s _ _).mp hfc
  have shape : ∀ {t : ToolInst}, t ∈ instsOf su → t.info.purpose ∈ shapeOf su.id := fun ht => (has_shape hsu).mp ⟨_, ht, rfl⟩
  have in_sign : Purpose.signing ∈ shapeOf su.id ↔ su.id ∈ signingSuites := by
    rcases hsn with ⟨_, a, _, _, _, b⟩ | ⟨_, a, _, _, _, b⟩ | ⟨_, a, _, _, _, b⟩ | ⟨_, a, _, _, _, b⟩ | ⟨_, a, _, _, _, b⟩ <;> rw [b] <;> simp [a]
  have in_rcpt : Purpose.keyExchange ∈ shapeOf su.id ↔ su.id ∈ recipientSuites := by
    rcases hsn with ⟨_, _, a, _, _, b⟩ | ⟨_, _, a, _, _, b⟩ | ⟨_, _, a, _, _, b⟩ | ⟨_, _, a, _, _, b⟩ | ⟨_, _, a, _, _, b⟩ <;> rw [b] <;> simp [a]
  have no_kem : Purpose.keyEncapsulation ∉ shapeOf su.id := by
    rcases hsn with ⟨_, _, a, _, _, b⟩ | ⟨_, _, a, _, _, b⟩ | ⟨_, _, a, _, _, b⟩ | ⟨_, _, a, _, _, b⟩ | ⟨_, _, a, _, _, b⟩ <;> rw [b] <;> simp
  have in_pw : Purpose.passDerivation ∈ shapeOf su.id ↔ su.id ∈ passwordSuites := by
    rcases hsn with ⟨_, _, _, a, _, b⟩ | ⟨_, _, _, a, _, b⟩ | ⟨_, _, _, a, _, b⟩ | ⟨_, _, _, a, _, b⟩ | ⟨_, _, _, a, _, b⟩ <;> rw [b] <;> simp [a]
  have noconf : su.id ∈ signOnlySuites → Confidentiality ∉ s.reqs := by
    intro hid hc
    rw [hs] at hc
    rcases (mkSession_reqs _ _ _ _ _ _).mp hc with ⟨t, ht, h1⟩ | ⟨_, h1⟩
    · have := shape (by rw [← his]; exact ht)
      rcases hsn with ⟨_, _, _, _, _, b⟩ | ⟨a, _⟩ | ⟨a, _⟩ | ⟨a, _⟩ | ⟨a, _⟩
      · rw [b, List.mem_singleton] at this
        rw [this] at h1
        simp [providedBy, Confidentiality, Integrity, SenderAuthentication] at h1
      all_goals exact a hid
    · simp [SenderAuthentication, RecipientAuthentication, Confidentiality] at h1
  refine ⟨?_, ?_, ?_, ?_, ?_, ?_, ?_, ?_, h2, ?_, ?_⟩
  · intro k hk
    obtain ⟨t, ht, hp, hn⟩ := used.senders k (by rw [henv]; exact hk)
    rw [hins] at ht
    have hsh := shape ht
    rw [hp] at hsh
    exact ⟨by rw [← hn]; exact (registry_instances _ hsu t ht).1 hp, in_sign.mp hsh⟩
  · intro hid
    obtain ⟨t, ht, hp⟩ := (has_shape hsu).mpr (in_sign.mpr hid)
    obtain ⟨k, hk, _⟩ := (hsg t (by rw [hins]; exact ht)).2.2 hp
    exact List.ne_nil_of_mem hk
  · intro k hk
    obtain ⟨t, ht, hp, hn⟩ := used.recipients k (by rw [henv]; exact hk)
    rw [hins] at ht
    have hsh := shape ht
    rcases hp with hp | hp <;> rw [hp] at hsh
    · exact ⟨by rw [← hn]; exact (registry_instances _ hsu t ht).2.1 hp, in_rcpt.mp hsh⟩
    · exact absurd hsh no_kem
  · intro hid
    obtain ⟨t, ht, hp⟩ := (has_shape hsu).mpr (in_rcpt.mpr hid)
    obtain ⟨k, hk, _⟩ := (hsg t (by rw [hins]; exact ht)).2.1 (.inl hp)
    exact List.ne_nil_of_mem hk
  · intro k hk
    rcases used.secrets k (by rw [henv]; exact hk) with hsc | ⟨hsc, t, ht, hp⟩
    · refine .inl ⟨hsc, fun hid => noconf hid (f3 ?_)⟩
      rw [hs]
      exact (mkSession_reqs _ _ _ _ _ _).mpr (.inr ⟨⟨k, hk, hsc⟩, .inr rfl⟩)
    · rw [hins] at ht
      have hsh := shape ht
      rw [hp] at hsh
      exact .inr ⟨hsc, in_pw.mp hsh⟩
  · intro hid
    obtain ⟨t, ht, hp⟩ := (has_shape hsu).mpr (in_pw.mpr hid)
    exact (hsg t (by rw [hins]; exact ht)).1 hp
  · intro hid
    have hra := f2 RecipientAuthentication (by rw [hsuite]; exact key_suites_promise su hsu hid)
    rw [hs] at hra
    rcases (mkSession_reqs _ _ _ _ _ _).mp hra with ⟨t, ht, h1⟩ | ⟨⟨k, hk, _⟩, _⟩
    · exfalso
      have := shape (by rw [← his]; exact ht)
      rcases hsn with ⟨_, _, _, _, a, _⟩ | ⟨_, _, _, _, a, _⟩ | ⟨_, _, _, _, a, _⟩ | ⟨_, _, _, _, a, _⟩ | ⟨_, _, _, _, _, b⟩
      iterate 4 exact a hid
      rw [b] at this
      simp only [List.mem_cons, List.not_mem_nil, or_false] at this
      rcases this with h | h <;> rw [h] at h1 <;> simp [providedBy, RecipientAuthentication, Confidentiality, Integrity] at h1
    · exact List.ne_nil_of_mem hk
  · rw [← q2]; exact h3
  · intro k hk hsc hkey
    rcases used.secrets k (by rw [henv]; exact hk) with hsc' | ⟨_, t, ht, hp⟩
    · rw [hsc] at hsc'; exact absurd hsc' (by decide)
    · rw [hins] at ht
      have hmem : (t, k) ∈ toolSignets e is := by
        rw [his]
        exact toolSignets_mem.mpr ⟨ht, by simp only [signetsFor, hp, Option.getD_some]; exact (mem_ofScheme (by decide) k).mpr ⟨hk, hsc⟩⟩
      obtain ⟨c, hc, hce⟩ := mem_map_ok lv.hsignets hmem
      have hit : pwIterations t.info.name = 2 ^ 20 := by rw [(registry_instances _ hsu t ht).2.2.1 hp]; decide
      have hne : schemePassword ≠ schemeKey := by decide
      have hpos : 0 < k.key.length := List.length_pos_iff.mpr hkey
      simp only [calcLevel, hsc, hne, if_false, if_true, hit, hpos] at hce
      split at hce
      · cases hce
      · injection hce with hce
        rw [hce]
        exact hok c (by simp only [LevelLists.all, List.mem_append]; exact .inl (.inr hc))
  · intro k hk hsc
    obtain ⟨c, hc, hce⟩ := mem_map_ok lv.hkeys ((mem_keySecrets e k).mpr ⟨hk, hsc⟩)
    simp only [calcLevel, hsc, if_true] at hce
    injection hce with hce
    rcases hok c (by simp only [LevelLists.all, List.mem_append]; exact .inr hc) with h0 | ⟨_, h0⟩
    · left; exact List.length_eq_zero_iff.mp (by omega)
    · right; rw [hce]; exact h0

/-- C119. For the suites of the library, a session is made for exactly the envelopes that fit their suite: whatever fits is accepted, whatever is accepted fits.
What the tools and the caller's algorithms do has no influence. -/
theorem accepted_exactly (P : Prims) (cfg : Config) (su : Suite) (hsu : su ∈ suiteRegistry) (e : Envelope) (he : e.suite = some su) :
    (∃ s, newSession P cfg e = .ok s) ↔ Fits cfg su.id e :=
  ⟨fun ⟨_, h⟩ => accepted_fits P hsu he h, fits_accepted P hsu he⟩

/-- C119, for an envelope of a caller: there is a session exactly if the suite exists, the signets can be prepared (loaded from the trust store, passwords asked
for), and what is then in the envelope fits the suite. -/
theorem correspondence_exactly (P : Prims) (cfg : Config) (w : World) (e : Envelope) (he : e.suite = none) :
    (∃ s, correspondence P cfg w suiteRegistry e = .ok s) ↔
      ∃ su ∈ suiteRegistry, su.id = e.suiteID ∧
        ∃ e', prepareSignets P w 128 { e with suite := some su } = .ok e' ∧ Fits cfg e.suiteID e' := by
  have keeps : ∀ {su : Suite} {e' : Envelope}, prepareSignets P w 128 { e with suite := some su } = .ok e' → e'.suite = some su := by
    intro su e' h
    simp only [prepareSignets, bind_ok_iff] at h
    obtain ⟨a, _, b, _, c, _, hx⟩ := h
    cases hx
    rfl
  constructor
  · rintro ⟨s, h⟩
    simp only [correspondence, loadSuite, he, bind_ok_iff] at h
    obtain ⟨⟨e1, su⟩, h1, h2⟩ := h
    split at h1
    · cases h1
    · rename_i su' hsu
      cases h1
      obtain ⟨e2, hp, hn⟩ := h2
      have hmem := List.mem_of_find?_eq_some hsu
      have hid := List.find?_some hsu
      simp only [decide_eq_true_eq, beq_iff_eq] at hid
      simp only [(registry_shapes su hmem).2.1] at hp
      exact ⟨su, hmem, hid, e2, hp, by rw [← hid]; exact accepted_fits P hmem (keeps hp) hn⟩
  · rintro ⟨su, hmem, hid, e', hp, hf⟩
    have hget : getSuite suiteRegistry e.suiteID = some su := by
      have : ∀ su ∈ suiteRegistry, getSuite suiteRegistry su.id = some su := by decide +kernel
      rw [← hid]; exact this su hmem
    obtain ⟨s, hs⟩ := fits_accepted P hmem (keeps hp) (by rw [hid]; exact hf)
    refine ⟨s, ?_⟩
    simp only [correspondence, loadSuite, he, hget, ok_bind, (registry_shapes su hmem).2.1, hp]
    exact hs

/-- Whether the toy library accepts an envelope. -/
def toyAccepts (cfg : Config) (suite : Bytes) (secrets senders recipients : List Bytes) : Bool :=
  match correspondence toyPrims cfg toyWorld suiteRegistry (toyEnvelope suite secrets senders recipients) with
  | .ok _ => true
  | .error _ => false

set_option maxRecDepth 100000 in
/-- Envelopes of every kind are accepted; one with a signet too many, one with a signet too few, and ones below the demanded level are not. -/
theorem accepted_example :
    toyAccepts toyConfig b!"v2" [] [b!"alice"] [b!"bob"] = true ∧ toyAccepts toyConfig b!"sign_v2" [] [b!"alice"] [] = true ∧
    toyAccepts toyConfig b!"rcpt_v2" [] [] [b!"bob"] = true ∧ toyAccepts toyConfig b!"pw_v2" [b!"pw"] [] [] = true ∧
    toyAccepts toyConfig b!"key_v2" [b!"key"] [] [] = true ∧ toyAccepts toyConfig b!"rcpt_v2" [b!"key"] [] [b!"bob"] = true ∧
    toyAccepts toyConfig b!"rcpt_v2" [] [b!"alice"] [b!"bob"] = false ∧ toyAccepts toyConfig b!"v2" [] [] [b!"bob"] = false ∧
    toyAccepts toyConfig b!"sign_v2" [b!"key"] [b!"alice"] [] = false ∧ toyAccepts toyConfig b!"rcpt_v2" [] [] [b!"alice"] = false ∧
    toyAccepts toyConfig b!"key_v2" [b!"pw"] [] [] = false ∧ toyAccepts toyConfig b!"unknown" [] [] [b!"bob"] = false ∧
    toyAccepts { toyConfig with minLevel := 129 } b!"rcpt_v2" [] [] [b!"bob"] = false ∧
    toyAccepts { toyConfig with pwLevel := fun _ _ => 90, minLevel := 91 } b!"pw_v2" [b!"pw"] [] [] = false := by
  decide +kernel

end Jess
