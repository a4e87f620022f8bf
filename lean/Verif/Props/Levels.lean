import Verif.Lemmas.Levels
import Verif.Props.Session

/-!
# C17, C18, C53: security levels, unused signets, nonce size
-/

namespace Jess

open Requirements

/-! ## C17 -/

/-- How often the tools that derive keys from passwords run their function: with this number of iterations a password is rated (specification). -/
def PasswordCost (tool : Bytes) (n : Nat) : Prop := tool = b!"SCRYPT-20" ∧ n = 1048576 ∨ tool = b!"PBKDF2-SHA2-256" ∧ n = 20000

/-- Everything the levels of which are checked, as the specification of `C17`: `D` is the demanded level. -/
structure MeetsLevel (P : Prims) (cfg : Config) (s : Session) (D : Int) : Prop where
  /-- the suite claims at least the demanded level -/
  suite : D ≤ s.suite.securityLevel
  /-- an explicit level of the envelope is not below the demanded level -/
  envelope : s.env.securityLevel > 0 → D ≤ s.env.securityLevel
  /-- the level the session works with -/
  session : D ≤ s.level
  /-- tools other than RSA: the tool itself (unless it has no level of its own) and the hash function it uses -/
  tools : ∀ t ∈ s.insts, t.info.name ≠ b!"RSA-PSS" → t.info.name ≠ b!"RSA-OAEP" →
    (t.info.securityLevel ≠ 0 → D ≤ t.info.securityLevel) ∧ (∀ h, t.hash = some h → D ≤ h.securityLevel)
  /-- RSA tools: every key used -/
  rsaSenders : ∀ t ∈ s.insts, t.info.name = b!"RSA-PSS" → ∀ k ∈ s.env.senders, k.scheme = b!"RSA-PSS" →
    ∃ l pub bits, k.load P = .ok l ∧ l.loadedPub = some pub ∧ P.rsaBits pub = some bits ∧ D ≤ rsaLevel bits ∧ 0 < rsaLevel bits
  rsaRecipients : ∀ t ∈ s.insts, t.info.name = b!"RSA-OAEP" → ∀ k ∈ s.env.recipients, k.scheme = b!"RSA-OAEP" →
    ∃ l pub bits, k.load P = .ok l ∧ l.loadedPub = some pub ∧ P.rsaBits pub = some bits ∧ D ≤ rsaLevel bits ∧ 0 < rsaLevel bits
  /-- passwords, as far as they are known and rated -/
  passwords : ∀ t ∈ s.insts, t.info.purpose = .passDerivation → ∀ k ∈ s.env.secrets, k.scheme = schemePassword →
    ∃ n, PasswordCost t.info.name n ∧ (k.key = [] ∨ cfg.pwLevel k.key n = 0 ∨ (D ≤ cfg.pwLevel k.key n ∧ 0 < cfg.pwLevel k.key n))
  /-- symmetric keys: 8 bits of strength per byte -/
  keys : ∀ k ∈ s.env.secrets, k.scheme = schemeKey → k.key = [] ∨ D ≤ 8 * (k.key.length : Int)

theorem mem_ofScheme {l : List Signet} {n : Bytes} (hn : n ≠ []) (k : Signet) :
    k ∈ ofScheme l n ↔ k ∈ l ∧ k.scheme = n := by
  unfold ofScheme
  rw [List.mem_filter]
  have : n.isEmpty = false := by cases n with | nil => exact absurd rfl hn | cons _ _ => rfl
  simp [this]

theorem mem_toolSignets {e : Envelope} {is : List ToolInst} {t : ToolInst} {l : List Signet} {k : Signet}
    (ht : t ∈ is) (hl : signetsFor e t = some l) (hk : k ∈ l) : (t, k) ∈ toolSignets e is := by
  unfold toolSignets
  rw [List.mem_flatMap]
  exact ⟨t, ht, by simp [hl, hk]⟩

theorem rsa_of_level {P : Prims} {cfg : Config} {t : ToolInst} {k : Signet} {c : Int} (ht : t ∈ ([t] : List ToolInst))
    (hmem : t.info ∈ toolTable) (hr : t.info.isRSA = true) (hs : k.scheme = t.info.name)
    (h : calcLevel P cfg (some t) (some k) = .ok c) :
    ∃ l pub bits, k.load P = .ok l ∧ l.loadedPub = some pub ∧ P.rsaBits pub = some bits ∧ c = rsaLevel bits ∧ 0 ≤ c := by
  have hn := toolTable_nonneg t.info hmem
  unfold calcLevel at h
  simp only [hs, hn.2.2.1, if_false, hn.2.2.2, ToolInst.secLevel, hr, if_true] at h
  unfold rsaSignetLevel at h
  rw [bind_ok_iff] at h
  obtain ⟨l, h1, h2⟩ := h
  split at h2
  · cases h2
  · rename_i bits hb
    split at h2
    · cases h2
    · simp only [Except.ok.injEq] at h2
      rw [Option.bind_eq_some_iff] at hb
      obtain ⟨pub, hp, hb⟩ := hb
      exact ⟨l, pub, bits, h1, hp, hb, h2.symm, by omega⟩

theorem rsaLevel_ne_zero (n : Nat) : rsaLevel n ≠ 0 := by
  unfold rsaLevel; repeat' split
  all_goals decide

/-- C17. A session is only created if everything it uses has at least the demanded security level. -/
theorem min_level_enforced (P : Prims) (cfg : Config) (e : Envelope) (s : Session) (h : newSession P cfg e = .ok s) :
    MeetsLevel P cfg s (demandedLevel cfg e.securityLevel) := by
  obtain ⟨suite, is, lv, _, he, hsu, _, hm, _, _, hall, _, hs, _, _, hf⟩ := (newSession_ok_iff P cfg e s).mp h
  obtain ⟨_, _, _, _, _, _, _, _, f9⟩ := (finalChecks_ok_iff cfg s _ _).mp hf
  have hins : s.insts = is := by rw [hs]; rfl
  have henv : s.env = e := by rw [hs]; rfl
  have hsuite : s.suite = suite := by rw [hs]; rfl
  have hok : ∀ c, c ∈ lv.tools ∨ c ∈ lv.signets ∨ c ∈ lv.keys → LevelOK cfg e.securityLevel c := by
    intro c hc; apply hall; simp only [LevelLists.all, List.mem_append]; rcases hc with h | h | h <;> simp [h]
  have rsaCase : ∀ t ∈ is, t.info.isRSA = true → ∀ l, signetsFor e t = some l → ∀ k ∈ l, k.scheme = t.info.name →
      ∃ l pub bits, k.load P = .ok l ∧ l.loadedPub = some pub ∧ P.rsaBits pub = some bits ∧
        demandedLevel cfg e.securityLevel ≤ rsaLevel bits ∧ 0 < rsaLevel bits := by
    intro t ht hr l hl k hk hks
    obtain ⟨tid, _, hmk⟩ := inst_of_session hm ht
    obtain ⟨_, hmem, _⟩ := makeInst_spec hmk
    obtain ⟨c, hc, hce⟩ := mem_map_ok lv.hsignets (mem_toolSignets ht hl hk)
    obtain ⟨l', pub, bits, a1, a2, a3, a4, a5⟩ := rsa_of_level (by simp) hmem hr hks hce
    have := hok c (Or.inr (Or.inl hc))
    rcases this with h0 | ⟨h0, h1⟩
    · exact absurd (a4 ▸ h0) (rsaLevel_ne_zero bits)
    · exact ⟨l', pub, bits, a1, a2, a3, by omega, by omega⟩
  refine ⟨by rw [hsuite]; exact hsu, by rw [henv]; exact he, by rw [henv] at f9; exact f9, ?_, ?_, ?_, ?_, ?_⟩
  · rw [hins]
    intro t ht hr1 hr2
    have hr : t.info.isRSA = false := by simp [ToolInfo.isRSA, hr1, hr2]
    obtain ⟨tid, _, hmk⟩ := inst_of_session hm ht
    obtain ⟨_, hmem, _, _, hhash⟩ := makeInst_spec hmk
    obtain ⟨c, hc, hce⟩ := mem_map_ok lv.htools ht
    have hcb : c = t.baseLevel := by
      simp only [calcLevel, ToolInst.secLevel, hr, Bool.false_eq_true, if_false, Except.ok.injEq] at hce
      exact hce.symm
    have hl := hok c (Or.inl hc)
    have hn := (toolTable_nonneg t.info hmem).1
    have hp : ∀ hh, t.hash = some hh → 0 < hh.securityLevel := fun hh e => hashTable_pos hh (hhash hh e)
    unfold ToolInst.baseLevel at hcb
    constructor
    · intro hne
      cases hh : t.hash with
      | none => rw [hh] at hcb; simp only at hcb; rcases hl with hl | hl <;> omega
      | some x =>
        have := hp x hh
        rw [hh] at hcb; simp only [hne, if_false] at hcb
        split at hcb <;> (rcases hl with hl | hl <;> omega)
    · intro x hh
      have := hp x hh
      rw [hh] at hcb; simp only at hcb
      split at hcb
      · rcases hl with hl | hl <;> omega
      · split at hcb <;> (rcases hl with hl | hl <;> omega)
  · rw [hins, henv]
    intro t ht hn k hk hks
    have hr : t.info.isRSA = true := by simp [ToolInfo.isRSA, hn]
    obtain ⟨tid, _, hmk⟩ := inst_of_session hm ht
    obtain ⟨_, hmem, _⟩ := makeInst_spec hmk
    have hpur : t.info.purpose = .signing := (show ∀ i ∈ toolTable, i.name = b!"RSA-PSS" → i.purpose = .signing by decide) _ hmem hn
    rw [← hn] at hks
    exact rsaCase t ht hr (ofScheme e.senders t.info.name) (by simp [signetsFor, hpur]) k
      ((mem_ofScheme (toolTable_nonneg t.info hmem).2.1 k).mpr ⟨hk, hks⟩) hks
  · rw [hins, henv]
    intro t ht hn k hk hks
    have hr : t.info.isRSA = true := by simp [ToolInfo.isRSA, hn]
    obtain ⟨tid, _, hmk⟩ := inst_of_session hm ht
    obtain ⟨_, hmem, _⟩ := makeInst_spec hmk
    have hpur : t.info.purpose = .keyEncapsulation := (show ∀ i ∈ toolTable, i.name = b!"RSA-OAEP" → i.purpose = .keyEncapsulation by decide) _ hmem hn
    rw [← hn] at hks
    exact rsaCase t ht hr (ofScheme e.recipients t.info.name) (by simp [signetsFor, hpur]) k
      ((mem_ofScheme (toolTable_nonneg t.info hmem).2.1 k).mpr ⟨hk, hks⟩) hks
  · rw [hins, henv]
    intro t ht hpur k hk hks
    obtain ⟨tid, _, hmk⟩ := inst_of_session hm ht
    obtain ⟨_, hmem, _⟩ := makeInst_spec hmk
    have hcost : PasswordCost t.info.name (pwIterations t.info.name) := by
      rcases (show ∀ i ∈ toolTable, i.purpose = .passDerivation → i.name = b!"SCRYPT-20" ∨ i.name = b!"PBKDF2-SHA2-256" by decide) _ hmem hpur with hn | hn
      · rw [hn]; exact Or.inl ⟨rfl, by decide⟩
      · rw [hn]; exact Or.inr ⟨rfl, by decide⟩
    refine ⟨pwIterations t.info.name, hcost, ?_⟩
    have hmemk : k ∈ ofScheme e.secrets schemePassword := (mem_ofScheme (by decide) k).mpr ⟨hk, hks⟩
    obtain ⟨c, hc, hce⟩ := mem_map_ok lv.hsignets (mem_toolSignets ht (by simp [signetsFor, hpur]) hmemk)
    have hl := hok c (Or.inr (Or.inl hc))
    have hne : schemePassword ≠ schemeKey := by decide
    simp only [calcLevel, hks, hne, if_false, if_true] at hce
    by_cases h0 : k.key.length > 0
    · simp only [h0, if_true] at hce
      split at hce
      · cases hce
      · simp only [Except.ok.injEq] at hce
        right
        rcases hl with hl | ⟨hl, hl2⟩
        · left; omega
        · right; omega
    · left
      exact List.length_eq_zero_iff.mp (by omega)
  · rw [henv]
    intro k hk hks
    obtain ⟨c, hc, hce⟩ := mem_map_ok lv.hkeys ((mem_keySecrets e k).mpr ⟨hk, hks⟩)
    have hl := hok c (Or.inr (Or.inr hc))
    simp only [calcLevel, hks, if_true, Except.ok.injEq] at hce
    rcases hl with hl | ⟨hl, hl2⟩
    · left; exact List.length_eq_zero_iff.mp (by omega)
    · right; omega

/-- Every keyed or signing tool has a level of its own, a hash function, or is RSA. -/
theorem toolTable_level : ∀ t ∈ toolTable, (t.purpose = .cipher ∨ t.purpose = .integratedCipher ∨ t.purpose = .mac ∨ t.purpose = .signing) →
    t.securityLevel ≠ 0 ∧ t.isRSA = false ∨ (t.needsDedicatedHasher = true ∧ t.isRSA = false) ∨ (t.isRSA = true ∧ t.purpose = .signing) := by
  decide +kernel

/-- Every accepted session has some tool that encrypts, authenticates or signs. -/
theorem session_has_worker (P : Prims) (cfg : Config) (e : Envelope) (s : Session) (h : newSession P cfg e = .ok s) :
    ∃ t ∈ s.insts, t.info.purpose = .cipher ∨ t.info.purpose = .integratedCipher ∨ t.info.purpose = .mac ∨ t.info.purpose = .signing := by
  obtain ⟨_, _, _, a, ha⟩ := session_provides P cfg e s h
  obtain ⟨hRC, hCI⟩ := session_no_confidentiality_without_integrity P cfg e s h
  have hC : SessionHas s Confidentiality → ∃ t ∈ s.insts, t.info.purpose = .cipher ∨ t.info.purpose = .integratedCipher ∨ t.info.purpose = .mac ∨ t.info.purpose = .signing := by
    rintro (⟨t, ht, hp⟩ | ⟨_, hk⟩)
    · refine ⟨t, ht, ?_⟩
      cases hq : t.info.purpose <;> rw [hq] at hp <;>
        simp [providedBy, RecipientAuthentication, Confidentiality, Integrity, SenderAuthentication] at hp ⊢
    · rcases hk with hk | hk <;> exact absurd hk (by decide)
  rcases ha with ⟨t, ht, hp⟩ | ⟨hk, _⟩
  · cases hq : t.info.purpose with
    | cipher => exact ⟨t, ht, by simp [hq]⟩
    | integratedCipher => exact ⟨t, ht, by simp [hq]⟩
    | mac => exact ⟨t, ht, by simp [hq]⟩
    | signing => exact ⟨t, ht, by simp [hq]⟩
    | keyDerivation => rw [hq] at hp; simp [providedBy] at hp
    | passDerivation => exact hC (hRC (Or.inl ⟨t, ht, by rw [hq]; simp [providedBy]⟩))
    | keyExchange => exact hC (hRC (Or.inl ⟨t, ht, by rw [hq]; simp [providedBy]⟩))
    | keyEncapsulation => exact hC (hRC (Or.inl ⟨t, ht, by rw [hq]; simp [providedBy]⟩))
  · exact hC (hRC (Or.inr ⟨hk, Or.inr rfl⟩))

theorem baseLevel_ne_zero {t : ToolInst} {tid : Bytes} (h : makeInst tid = .ok t)
    (hw : t.info.securityLevel ≠ 0 ∨ t.info.needsDedicatedHasher = true) : 0 < t.baseLevel := by
  obtain ⟨_, hmem, _, hres, hhash⟩ := makeInst_spec h
  have hn := (toolTable_nonneg t.info hmem).1
  unfold ToolInst.baseLevel
  cases hh : t.hash with
  | some x =>
    have := hashTable_pos x (hhash x hh)
    dsimp only
    split
    · exact this
    · split <;> omega
  | none =>
    rcases hw with hw | hw
    · dsimp only; omega
    · rw [hh] at hres
      unfold resolveHash at hres
      split at hres
      · split at hres
        · split at hres <;> cases hres
        · cases hres
      · split at hres <;> cases hres

/-- In every accepted session some level applied, so the session level computed from the parts is positive. -/
theorem levels_pos {P : Prims} {cfg : Config} {e : Envelope} {s : Session} (h : newSession P cfg e = .ok s)
    {suite : Suite} {is : List ToolInst} (lv : LevelLists P cfg e is) (hm : suite.tools.map makeInst = is.map Except.ok)
    (hins : s.insts = is) (hall : ∀ c ∈ lv.all, LevelOK cfg e.securityLevel c) (hne : ∀ i ∈ is, signetsFor e i ≠ some []) :
    0 < (levelsOf lv.all).level ∧ (levelsOf lv.all).level ∈ lv.all := by
  have key : ∃ c ∈ lv.all, c ≠ 0 := by
    obtain ⟨t, ht, hp⟩ := session_has_worker P cfg e s h
    rw [hins] at ht
    obtain ⟨tid, _, hmk⟩ := inst_of_session hm ht
    obtain ⟨_, hmem, _⟩ := makeInst_spec hmk
    obtain ⟨c, hc, hce⟩ := mem_map_ok lv.htools ht
    rcases toolTable_level t.info hmem hp with ⟨h1, h2⟩ | ⟨h1, h2⟩ | ⟨h1, h2⟩
    · have := baseLevel_ne_zero hmk (Or.inl h1)
      simp only [calcLevel, ToolInst.secLevel, h2, Bool.false_eq_true, if_false, Except.ok.injEq] at hce
      exact ⟨c, by simp [LevelLists.all, hc], by omega⟩
    · have := baseLevel_ne_zero hmk (Or.inr h1)
      simp only [calcLevel, ToolInst.secLevel, h2, Bool.false_eq_true, if_false, Except.ok.injEq] at hce
      exact ⟨c, by simp [LevelLists.all, hc], by omega⟩
    · have hsf : signetsFor e t = some (ofScheme e.senders t.info.name) := by simp [signetsFor, h2]
      cases hl : ofScheme e.senders t.info.name with
      | nil => exact absurd (by rw [hsf, hl]) (hne t ht)
      | cons k ks =>
        have hk : k ∈ ofScheme e.senders t.info.name := by rw [hl]; simp
        have hks := ((mem_ofScheme (toolTable_nonneg t.info hmem).2.1 k).mp hk).2
        obtain ⟨c, hc, hce⟩ := mem_map_ok lv.hsignets (mem_toolSignets ht hsf hk)
        obtain ⟨_, _, bits, _, _, _, h4, _⟩ := rsa_of_level (by simp) hmem h1 hks hce
        exact ⟨c, by simp [LevelLists.all, hc], by rw [h4]; exact rsaLevel_ne_zero bits⟩
  have hnn : ∀ c ∈ lv.all, 0 ≤ c := by
    intro c hc; rcases hall c hc with h | h <;> omega
  rcases levelsOf_level lv.all hnn with ⟨h1, _⟩ | ⟨h1, h2, _⟩
  · obtain ⟨c, hc, hcz⟩ := key
    exact absurd (h1 c hc) hcz
  · exact ⟨h1, h2⟩

/-- C17. Lowering the demanded level never turns an accepted envelope into a refused one: whatever is accepted at a higher
demanded level is accepted at every lower one, with the same tools. -/
theorem acceptance_antitone (P : Prims) (cfg cfg' : Config) (e : Envelope) (l' : Int) (s : Session)
    (hpw : cfg'.pwLevel = cfg.pwLevel) (hks : cfg'.minKeySize = cfg.minKeySize)
    (hD : demandedLevel cfg' l' ≤ demandedLevel cfg e.securityLevel) (hl : l' > 0 → demandedLevel cfg' l' ≤ l')
    (h : newSession P cfg e = .ok s) :
    ∃ s', newSession P cfg' { e with securityLevel := l' } = .ok s' ∧ s'.insts = s.insts ∧ s'.reqs = s.reqs ∧
      s'.keySize = s.keySize ∧ s'.maxLevel = s.maxLevel := by
  obtain ⟨suite, is, lv, h1, he, hsu, hc, hm, ha, hb, hall, hne, hs, hq, hz, hf⟩ := (newSession_ok_iff P cfg e s).mp h
  have hins : s.insts = is := by rw [hs]; rfl
  obtain ⟨hpos, hin⟩ := levels_pos h lv hm hins hall hne
  have hcalc : ∀ t k, calcLevel P cfg' t k = calcLevel P cfg t k := by
    intro t k; simp only [calcLevel, hpw]
  let lv' : LevelLists P cfg' { e with securityLevel := l' } is :=
    { tools := lv.tools, signets := lv.signets, keys := lv.keys,
      htools := by simp only [hcalc]; exact lv.htools,
      hsignets := by simp only [hcalc]; exact lv.hsignets,
      hkeys := by simp only [hcalc]; exact lv.hkeys }
  have hsl : ∀ c ∈ lv'.all, LevelOK cfg' l' c := by
    intro c hc
    rcases hall c hc with h | ⟨h, h2⟩
    · exact Or.inl h
    · exact Or.inr ⟨h, by omega⟩
  have hlev : demandedLevel cfg' l' ≤ (levelsOf lv.all).level := by
    rcases hall _ hin with h | ⟨_, h2⟩ <;> omega
  refine ⟨mkSession cfg' { e with securityLevel := l' } suite is lv'.all, ?_, by rw [hins]; rfl, by rw [hs]; rfl, ?_, by rw [hs]; rfl⟩
  · rw [newSession_ok_iff]
    refine ⟨suite, is, lv', h1, hl, by simpa using Int.le_trans hD hsu, hc, hm, ha, hb, hsl, hne, rfl, ?_, ?_, ?_⟩
    · intro _
      simp only [mkSession]
      have : (levelsOf lv'.all).level = (levelsOf lv.all).level := rfl
      rw [this]
      split <;> omega
    · intro hx
      have := hz hx
      rw [hs] at this
      simpa [mkSession, hks] using this
    · rw [finalChecks_ok_iff] at hf ⊢
      obtain ⟨f1, f2, f3, f4, f5, f6, f7, f8, f9⟩ := hf
      rw [hs] at f1 f2 f3 f4 f5 f6 f7 f8
      refine ⟨f1, f2, f3, f4, f5, f6, f7, f8, ?_⟩
      simp only [mkSession]
      have : (levelsOf lv'.all).level = (levelsOf lv.all).level := rfl
      rw [this]
      split <;> omega
  · rw [hs]; simp [mkSession, hks]

/-- C17. `SetMinimumSecurityLevel`: what is accepted under a higher minimum is accepted under a lower one. A minimum that is not positive does
not override the level of an envelope, it only lowers the default. -/
theorem set_minimum_antitone (P : Prims) (cfg : Config) (e : Envelope) (m m' : Int) (s : Session) (hm : 0 < m ∨ e.securityLevel ≤ 0) (hmm : m ≤ m')
    (h : newSession P (cfg.setMinimumSecurityLevel m') e = .ok s) :
    ∃ s', newSession P (cfg.setMinimumSecurityLevel m) e = .ok s' ∧ s'.insts = s.insts := by
  have hD : ∀ x, 0 < x ∨ e.securityLevel ≤ 0 → demandedLevel (cfg.setMinimumSecurityLevel x) e.securityLevel = x := by
    intro x hx
    unfold demandedLevel Config.setMinimumSecurityLevel
    by_cases h1 : x > 0
    · simp [h1]
    · have h2 : ¬ e.securityLevel > 0 := by omega
      simp [h1, h2]
  have hm' : 0 < m' ∨ e.securityLevel ≤ 0 := by omega
  have hl := (min_level_enforced P _ e s h).envelope
  rw [(session_provides P _ e s h).2.1, hD m' hm'] at hl
  obtain ⟨s', h1, h2, _⟩ := acceptance_antitone P (cfg.setMinimumSecurityLevel m') (cfg.setMinimumSecurityLevel m) e
    e.securityLevel s rfl rfl (by rw [hD m hm, hD m' hm']; exact hmm) (by rw [hD m hm]; intro h0; have := hl h0; omega) h
  exact ⟨s', h1, h2⟩

/-- C17. After `SetMinimumSecurityLevel` with a level that is not positive, everything has to meet the level of the envelope, or that level if the envelope has none. -/
theorem set_minimum_off (P : Prims) (cfg : Config) (e : Envelope) (m : Int) (s : Session) (hm : m ≤ 0)
    (h : newSession P (cfg.setMinimumSecurityLevel m) e = .ok s) :
    MeetsLevel P (cfg.setMinimumSecurityLevel m) s (if 0 < e.securityLevel then e.securityLevel else m) := by
  have := min_level_enforced P _ e s h
  rwa [show demandedLevel (cfg.setMinimumSecurityLevel m) e.securityLevel = if 0 < e.securityLevel then e.securityLevel else m from by
    unfold demandedLevel Config.setMinimumSecurityLevel
    have h1 : ¬ m > 0 := by omega
    by_cases h2 : 0 < e.securityLevel <;> simp [h1, h2]] at this

/-- Such sessions exist. -/
theorem set_minimum_example : (newSession toyPrims (toyConfig.setMinimumSecurityLevel 0) { suiteID := b!"sign_v2", suite := getSuite suiteRegistry b!"sign_v2", senders := [edSender] }).isOk = true ∧
    (newSession toyPrims (toyConfig.setMinimumSecurityLevel 64) { suiteID := b!"sign_v2", suite := getSuite suiteRegistry b!"sign_v2", senders := [edSender] }).isOk = true ∧
    (newSession toyPrims (toyConfig.setMinimumSecurityLevel 0) { suiteID := b!"sign_v2", suite := getSuite suiteRegistry b!"sign_v2", senders := [edSender], securityLevel := 192 }) = .error .level := by
  decide +kernel

/-- C17 refuted (monotonicity across settings). Setting the global minimum replaces the envelope's level instead of
adding to it: an envelope that demands level 192 is refused without, and accepted with, a global minimum of 1. -/
theorem minimum_overrides_envelope :
    let e : Envelope := { suiteID := b!"sign_v2", suite := getSuite suiteRegistry b!"sign_v2", senders := [edSender],
                          securityLevel := 192 }
    newSession toyPrims toyConfig e = .error .level ∧
    ∃ s, newSession toyPrims (toyConfig.setMinimumSecurityLevel 1) e = .ok s ∧ s.level = 128 := by
  refine ⟨by decide +kernel, ?_⟩
  have : (match newSession toyPrims (toyConfig.setMinimumSecurityLevel 1)
      { suiteID := b!"sign_v2", suite := getSuite suiteRegistry b!"sign_v2", senders := [edSender], securityLevel := 192 } with
      | .ok s => decide (s.level = 128) | .error _ => false) = true := by decide +kernel
  split at this
  · rename_i s hs; exact ⟨s, hs, by simpa using this⟩
  · cases this

/-- A strong RSA signing key of the toy primitives (modulus size 3072 bits). -/
def rsaSender : Signet := { version := 1, id := b!"rsa", scheme := b!"RSA-PSS", key := [1, 12, 7] }

/-- An envelope with a weak hash function. -/
def rsaWeakHash : Envelope :=
  { suiteID := b!"custom",
    suite := some { id := b!"custom", tools := [b!"RSA-PSS(SHA2-224)"],
                    provides := [Integrity, SenderAuthentication], securityLevel := 128, status := 1 },
    senders := [rsaSender] }

/-- C17 refuted (hash of RSA tools). The hash function of an RSA tool is not rated: SHA2-224 (level 112) is used in a
session that demands level 128. -/
theorem rsa_hash_not_rated :
    demandedLevel toyConfig rsaWeakHash.securityLevel = 128 ∧
    ∃ s, newSession toyPrims toyConfig rsaWeakHash = .ok s ∧ ∃ t ∈ s.insts, ∃ h, t.hash = some h ∧ h.securityLevel = 112 := by
  refine ⟨by decide, ?_⟩
  have : (match newSession toyPrims toyConfig rsaWeakHash with
      | .ok s => decide (∃ t ∈ s.insts, t.hash.map (·.securityLevel) = some 112) | .error _ => false) = true := by decide +kernel
  split at this
  · rename_i s hs
    simp only [decide_eq_true_eq] at this
    obtain ⟨t, ht, hh⟩ := this
    rw [Option.map_eq_some_iff] at hh
    obtain ⟨x, hx, hl⟩ := hh
    exact ⟨s, hs, t, ht, x, hx, hl⟩
  · cases this

/-- An envelope with an empty key. -/
def emptyKeyEnvelope : Envelope :=
  { suiteID := b!"key_v2", suite := getSuite suiteRegistry b!"key_v2",
    secrets := [{ version := 1, id := b!"k", scheme := schemeKey, key := [] }] }

/-- C17 refuted (empty keys). A key secret without any key material is rated "not applicable" and accepted. -/
theorem empty_key_accepted : ∃ s, newSession toyPrims toyConfig emptyKeyEnvelope = .ok s := by
  have : (match newSession toyPrims toyConfig emptyKeyEnvelope with | .ok _ => true | .error _ => false) = true := by decide +kernel
  split at this
  · rename_i s hs; exact ⟨s, hs⟩
  · cases this

/-- An envelope for suite v2 with key exchange and signature. -/
def v2Envelope : Envelope :=
  { suiteID := b!"v2", suite := getSuite suiteRegistry b!"v2", senders := [edSender],
    recipients := [{ version := 1, id := b!"bob", scheme := b!"ECDH-X25519", key := [1, 8], isPublic := true }] }

/-- A concrete accepted session (the hypothesis of the theorems above is met). -/
theorem session_example : ∃ s, newSession toyPrims toyConfig v2Envelope = .ok s := by
  have : (match newSession toyPrims toyConfig v2Envelope with | .ok _ => true | .error _ => false) = true := by decide +kernel
  split at this
  · rename_i s hs; exact ⟨s, hs⟩
  · cases this

/-! ## C18 -/

/-- Every signet of the envelope is used by a tool of the session (specification): secrets are keys, or passwords for a
password tool; senders are keys of a signing tool; recipients are keys of a key exchange or encapsulation tool. -/
structure AllSignetsUsed (s : Session) : Prop where
  secrets : ∀ k ∈ s.env.secrets, k.scheme = schemeKey ∨
    (k.scheme = schemePassword ∧ ∃ t ∈ s.insts, t.info.purpose = .passDerivation)
  senders : ∀ k ∈ s.env.senders, ∃ t ∈ s.insts, t.info.purpose = .signing ∧ t.info.name = k.scheme
  recipients : ∀ k ∈ s.env.recipients,
    ∃ t ∈ s.insts, (t.info.purpose = .keyExchange ∨ t.info.purpose = .keyEncapsulation) ∧ t.info.name = k.scheme

/-- Summing the signets of each scheme over distinct schemes counts no signet twice. -/
theorem sum_ofScheme_le (l : List Signet) : ∀ ns : List Bytes, ns.Nodup → (∀ n ∈ ns, n ≠ []) →
    (ns.map (fun n => (ofScheme l n).length)).sum ≤ (l.filter (fun k => decide (k.scheme ∈ ns))).length := by
  induction l with
  | nil =>
    intro ns _ _
    have : ∀ ns : List Bytes, (ns.map (fun _ => 0)).sum = 0 := by intro ns; induction ns <;> simp_all
    simp [ofScheme, this]
  | cons k l ih =>
    intro ns hnd hne
    have step : ∀ ms : List Bytes, ms.Nodup → (∀ n ∈ ms, n ≠ []) →
        (ms.map (fun n => (ofScheme (k :: l) n).length)).sum =
          (ms.map (fun n => (ofScheme l n).length)).sum + (if k.scheme ∈ ms then 1 else 0) := by
      intro ms
      induction ms with
      | nil => intro _ _; simp
      | cons m ms im =>
        intro hn h0
        rw [List.nodup_cons] at hn
        have im' := im hn.2 (fun n hn => h0 n (by simp [hn]))
        have hme : m.isEmpty = false := by
          have := h0 m (by simp)
          cases m with | nil => exact absurd rfl this | cons _ _ => rfl
        simp only [List.map_cons, List.sum_cons, im']
        by_cases hk : k.scheme = m
        · have h1 : (ofScheme (k :: l) m).length = (ofScheme l m).length + 1 := by simp [ofScheme, hk]
          have h2 : k.scheme ∉ ms := by rw [hk]; exact hn.1
          rw [h1]; simp [hk, hn.1]; omega
        · have h1 : (ofScheme (k :: l) m).length = (ofScheme l m).length := by
            simp [ofScheme, hme, hk]
          rw [h1]; simp [hk]; omega
    rw [step ns hnd hne]
    have := ih ns hnd hne
    by_cases hk : k.scheme ∈ ns
    · simp [hk]; omega
    · simp [hk]; omega

theorem toolSignets_length (e : Envelope) (is : List ToolInst) :
    (toolSignets e is).length =
      (is.filter (fun t => t.info.purpose = .passDerivation)).length * (ofScheme e.secrets schemePassword).length +
      (((is.filter (fun t => t.info.purpose = .signing)).map (·.info.name)).map (fun n => (ofScheme e.senders n).length)).sum +
      (((is.filter (fun t => t.info.purpose = .keyExchange ∨ t.info.purpose = .keyEncapsulation)).map (·.info.name)).map
        (fun n => (ofScheme e.recipients n).length)).sum := by
  induction is with
  | nil => simp [toolSignets]
  | cons t is ih =>
    have hstep : (toolSignets e (t :: is)).length = ((signetsFor e t).getD []).length + (toolSignets e is).length := by
      simp [toolSignets]
    rw [hstep, ih]
    cases hq : t.info.purpose <;> simp [signetsFor, hq, Nat.add_mul] <;> omega

/-- C18. If the tools of the suite have distinct names, every secret, sender and recipient of the envelope is used by a
tool. -/
theorem no_signet_ignored (P : Prims) (cfg : Config) (e : Envelope) (s : Session) (h : newSession P cfg e = .ok s)
    (hnd : (s.insts.map (·.info.name)).Nodup) : AllSignetsUsed s := by
  obtain ⟨suite, is, lv, _, _, _, _, hm, _, hpd, _, _, hs, _, _, hf⟩ := (newSession_ok_iff P cfg e s).mp h
  obtain ⟨_, _, _, _, _, _, _, f8, _⟩ := (finalChecks_ok_iff cfg s _ _).mp hf
  have hins : s.insts = is := by rw [hs]; rfl
  have henv : s.env = e := by rw [hs]; rfl
  rw [hins] at hnd
  rw [henv, toolSignets_length] at f8
  have hnames : ∀ (p : ToolInst → Bool), ((is.filter p).map (·.info.name)).Nodup ∧
      ∀ n ∈ (is.filter p).map (·.info.name), n ≠ [] := by
    intro p
    refine ⟨(List.filter_sublist.map _).nodup hnd, ?_⟩
    intro n hn
    obtain ⟨t, ht, rfl⟩ := List.mem_map.mp hn
    obtain ⟨tid, _, hmk⟩ := inst_of_session hm (List.mem_filter.mp ht).1
    exact (toolTable_nonneg t.info (makeInst_spec hmk).2.1).2.1
  have b1 := sum_ofScheme_le e.senders _ (hnames (fun t => decide (t.info.purpose = .signing))).1
    (hnames (fun t => decide (t.info.purpose = .signing))).2
  have b2 := sum_ofScheme_le e.recipients _
    (hnames (fun t => decide (t.info.purpose = .keyExchange ∨ t.info.purpose = .keyEncapsulation))).1
    (hnames (fun t => decide (t.info.purpose = .keyExchange ∨ t.info.purpose = .keyEncapsulation))).2
  have c1 := List.length_filter_le (fun k : Signet => decide (k.scheme ∈ (is.filter (fun t => decide (t.info.purpose = .signing))).map (·.info.name))) e.senders
  have c2 := List.length_filter_le (fun k : Signet => decide (k.scheme ∈ (is.filter (fun t => decide (t.info.purpose = .keyExchange ∨ t.info.purpose = .keyEncapsulation))).map (·.info.name))) e.recipients
  have b3 : ∀ l : List Signet, (ofScheme l schemePassword).length + (ofScheme l schemeKey).length ≤
      (l.filter (fun k => decide (k.scheme = schemeKey ∨ k.scheme = schemePassword))).length := by
    intro l
    induction l with
    | nil => simp [ofScheme]
    | cons k l ih =>
      have h1 : (schemePassword.isEmpty) = false := by decide
      have h2 : (schemeKey.isEmpty) = false := by decide
      have h3 : schemeKey ≠ schemePassword := by decide
      simp only [ofScheme, h1, h2, Bool.false_or] at ih ⊢
      by_cases ha : k.scheme = schemeKey
      · simp [ha, h3] at ih ⊢; omega
      · by_cases hb : k.scheme = schemePassword
        · simp [hb, Ne.symm h3] at ih ⊢; omega
        · simp [ha, hb] at ih ⊢; omega
  have b3' := b3 e.secrets
  have c3 := List.length_filter_le (fun k : Signet => decide (k.scheme = schemeKey ∨ k.scheme = schemePassword)) e.secrets
  have hpd' : (is.filter (fun t => decide (t.info.purpose = .passDerivation))).length ≤ 1 := hpd
  have hks : (keySecrets e).length = (ofScheme e.secrets schemeKey).length := rfl
  have hmul : (is.filter (fun t => decide (t.info.purpose = .passDerivation))).length * (ofScheme e.secrets schemePassword).length
      ≤ (ofScheme e.secrets schemePassword).length := by
    have := Nat.mul_le_mul_right (ofScheme e.secrets schemePassword).length hpd'
    simpa using this
  have allOf : ∀ {l : List Signet} {p : Signet → Bool}, l.length ≤ (l.filter p).length → ∀ k ∈ l, p k = true := by
    intro l p hl
    exact List.length_filter_eq_length_iff.mp (Nat.le_antisymm (List.length_filter_le _ _) hl)
  refine ⟨?_, ?_, ?_⟩
  · rw [henv, hins]
    intro k hk
    have hall := allOf (l := e.secrets) (p := fun k => decide (k.scheme = schemeKey ∨ k.scheme = schemePassword)) (by omega) k hk
    simp only [decide_eq_true_eq] at hall
    rcases hall with hall | hall
    · exact Or.inl hall
    · right
      refine ⟨hall, ?_⟩
      cases hfl : is.filter (fun t => decide (t.info.purpose = .passDerivation)) with
      | cons t ts =>
        have : t ∈ is.filter (fun t => decide (t.info.purpose = .passDerivation)) := by rw [hfl]; simp
        rw [List.mem_filter] at this
        exact ⟨t, this.1, by simpa using this.2⟩
      | nil =>
        exfalso
        rw [hfl] at f8
        simp only [List.length_nil, Nat.zero_mul] at f8
        have hp : 0 < (ofScheme e.secrets schemePassword).length :=
          List.length_pos_of_mem ((mem_ofScheme (by decide) k).mpr ⟨hk, hall⟩)
        omega
  · rw [henv, hins]
    intro k hk
    have hall := allOf (l := e.senders) (p := fun k : Signet => decide (k.scheme ∈ (is.filter (fun t => decide (t.info.purpose = .signing))).map (·.info.name))) (by omega) k hk
    simp only [decide_eq_true_eq] at hall
    obtain ⟨t, ht, he⟩ := List.mem_map.mp hall
    rw [List.mem_filter] at ht
    exact ⟨t, ht.1, by simpa using ht.2, he⟩
  · rw [henv, hins]
    intro k hk
    have hall := allOf (l := e.recipients) (p := fun k : Signet => decide (k.scheme ∈ (is.filter (fun t => decide (t.info.purpose = .keyExchange ∨ t.info.purpose = .keyEncapsulation))).map (·.info.name))) (by omega) k hk
    simp only [decide_eq_true_eq] at hall
    obtain ⟨t, ht, he⟩ := List.mem_map.mp hall
    rw [List.mem_filter] at ht
    exact ⟨t, ht.1, by simpa using ht.2, he⟩

/-- The tool names of every registered suite are distinct. -/
theorem registered_names_nodup : ∀ su ∈ suiteRegistry, (su.tools.map (fun t => (parseToolID t).1)).Nodup := by
  decide +kernel

theorem inst_names {suite : Suite} {is : List ToolInst} (hm : suite.tools.map makeInst = is.map Except.ok) :
    is.map (·.info.name) = suite.tools.map (fun t => (parseToolID t).1) := by
  have : ∀ (ts : List Bytes) (is : List ToolInst), ts.map makeInst = is.map Except.ok →
      is.map (·.info.name) = ts.map (fun t => (parseToolID t).1) := by
    intro ts
    induction ts with
    | nil => intro is h; cases is with | nil => rfl | cons _ _ => cases h
    | cons t ts ih =>
      intro is h
      cases is with
      | nil => cases h
      | cons i is =>
        simp only [List.map_cons, List.cons.injEq] at h
        simp only [List.map_cons, List.cons.injEq]
        exact ⟨(makeInst_spec h.1).2.2.1, ih is h.2⟩
  exact this _ _ hm

/-- C18 for the suites of the library: without further conditions. -/
theorem no_signet_ignored_registered (P : Prims) (cfg : Config) (e : Envelope) (s : Session) (id : Bytes)
    (hsuite : e.suite = getSuite suiteRegistry id) (h : newSession P cfg e = .ok s) : AllSignetsUsed s := by
  refine no_signet_ignored P cfg e s h ?_
  obtain ⟨suite, is, lv, h1, _, _, _, hm, _, _, _, _, hs, _⟩ := (newSession_ok_iff P cfg e s).mp h
  have hins : s.insts = is := by rw [hs]; rfl
  rw [hins, inst_names hm]
  rw [h1] at hsuite
  exact registered_names_nodup suite (List.mem_of_find?_eq_some hsuite.symm)

/-- A suite that signs twice with the same algorithm, and an unused recipient. -/
def ignoredRecipient : Envelope :=
  { suiteID := b!"custom",
    suite := some { id := b!"custom", tools := [b!"Ed25519(SHA2-256)", b!"Ed25519(BLAKE3)"],
                    provides := [Integrity, SenderAuthentication], securityLevel := 128, status := 1 },
    senders := [edSender],
    recipients := [{ version := 1, id := b!"bob", scheme := b!"ECDH-X25519", key := [1, 8], isPublic := true }] }

/-- C18 refuted for custom suites with two tools of the same name: signets are counted per tool, so the double counting of
the sender hides that the recipient is not used by any tool. -/
theorem recipient_ignored : ∃ s, newSession toyPrims toyConfig ignoredRecipient = .ok s ∧ ¬ AllSignetsUsed s := by
  have : (match newSession toyPrims toyConfig ignoredRecipient with
      | .ok s => decide (s.env.recipients ≠ []) && decide (∀ t ∈ s.insts, t.info.purpose = .signing) | .error _ => false) = true := by
    decide +kernel
  split at this
  · rename_i s hs
    simp only [Bool.and_eq_true, decide_eq_true_eq] at this
    refine ⟨s, hs, fun hu => ?_⟩
    cases hr : s.env.recipients with
    | nil => exact this.1 hr
    | cons k ks =>
      obtain ⟨t, ht, hp, _⟩ := hu.recipients k (by rw [hr]; simp)
      rw [this.2 t ht] at hp
      rcases hp with hp | hp <;> cases hp
  · cases this

/-! ## C53 -/

/-- The levels that apply to a session: of its tools, and of the signets they use. -/
def AppliedLevel (P : Prims) (cfg : Config) (s : Session) (c : Int) : Prop :=
  (∃ t ∈ s.insts, calcLevel P cfg (some t) none = .ok c) ∨
  (∃ t ∈ s.insts, ∃ l, signetsFor s.env t = some l ∧ ∃ k ∈ l, calcLevel P cfg (some t) (some k) = .ok c) ∨
  (∃ k ∈ s.env.secrets, k.scheme = schemeKey ∧ calcLevel P cfg none (some k) = .ok c)

/-- C53. The nonce has at least 4 bytes and at least one byte per 32 bits of the highest security level in the session, and
is not longer than that. -/
theorem nonce_size (P : Prims) (cfg : Config) (e : Envelope) (s : Session) (h : newSession P cfg e = .ok s) :
    4 ≤ s.nonceSize ∧ (∀ c, AppliedLevel P cfg s c → c / 32 ≤ (s.nonceSize : Int)) ∧
    (s.nonceSize = 4 ∨ ∃ c, AppliedLevel P cfg s c ∧ (s.nonceSize : Int) = c / 32) := by
  obtain ⟨suite, is, lv, _, _, _, _, hm, _, hpd, hall, _, hs, _, _, hf⟩ := (newSession_ok_iff P cfg e s).mp h
  have hins : s.insts = is := by rw [hs]; rfl
  have henv : s.env = e := by rw [hs]; rfl
  have hmax : s.maxLevel = (levelsOf lv.all).max := by rw [hs]; rfl
  obtain ⟨m1, m2, m3⟩ := levelsOf_max lv.all
  rw [← hmax] at m1 m2 m3
  have happ : ∀ c, AppliedLevel P cfg s c ↔ c ∈ lv.all := by
    intro c
    simp only [AppliedLevel, hins, henv, LevelLists.all, List.mem_append]
    constructor
    · rintro (⟨t, ht, hc⟩ | ⟨t, ht, l, hl, k, hk, hc⟩ | ⟨k, hk, hks, hc⟩)
      · obtain ⟨d, hd, he⟩ := mem_map_ok lv.htools ht
        rw [hc] at he; cases he; simp [hd]
      · obtain ⟨d, hd, he⟩ := mem_map_ok lv.hsignets (mem_toolSignets ht hl hk)
        simp only [hc] at he; cases he; simp [hd]
      · obtain ⟨d, hd, he⟩ := mem_map_ok lv.hkeys ((mem_keySecrets e k).mpr ⟨hk, hks⟩)
        simp only [hc] at he; cases he; simp [hd]
    · rintro ((hc | hc) | hc)
      · obtain ⟨t, ht, hx⟩ := mem_of_map_ok lv.htools hc
        exact Or.inl ⟨t, ht, hx⟩
      · obtain ⟨⟨t, k⟩, ht, hx⟩ := mem_of_map_ok lv.hsignets hc
        simp only [toolSignets, List.mem_flatMap, List.mem_map, Prod.mk.injEq] at ht
        obtain ⟨i, hi, k', hk', rfl, rfl⟩ := ht
        cases hsf : signetsFor e i with
        | none => rw [hsf] at hk'; simp at hk'
        | some l => rw [hsf] at hk'; exact Or.inr (Or.inl ⟨i, hi, l, hsf, k', hk', hx⟩)
      · obtain ⟨k, hk, hx⟩ := mem_of_map_ok lv.hkeys hc
        obtain ⟨a, b⟩ := (mem_keySecrets e k).mp hk
        exact Or.inr (Or.inr ⟨k, a, b, hx⟩)
  have hns : s.nonceSize = if s.maxLevel.toNat / 32 < 4 then 4 else s.maxLevel.toNat / 32 := rfl
  refine ⟨by rw [hns]; split <;> omega, ?_, ?_⟩
  · intro c hc
    have := m2 c ((happ c).mp hc)
    rw [hns]; split <;> omega
  · by_cases h4 : s.maxLevel.toNat / 32 < 4
    · left; rw [hns, if_pos h4]
    · right
      rcases m3 with m3 | m3
      · rw [m3] at h4; simp at h4
      · exact ⟨s.maxLevel, (happ _).mpr m3, by rw [hns, if_neg h4]; omega⟩

end Jess
