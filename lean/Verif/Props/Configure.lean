import Verif.Lemmas.Editing
import Verif.Model.Dialogs

/-! C70: `configure` saves only envelopes that can be used, and no keys. -/

namespace Jess

/-- The iterations with which passwords are rated for SCRYPT-20, the only password tool of the registered suites. -/
def scryptCost : Nat := 2 ^ 20

/-- What must be known about the tools of the registered suites. -/
theorem registered_insts : ∀ su ∈ suiteRegistry,
    (∃ i ∈ instsOf su, i.info.isRSA = false ∧ 0 < i.baseLevel ∧ i.baseLevel ≤ su.securityLevel) ∧
    ∀ i ∈ instsOf su, i.info.name ≠ schemeKey ∧ i.info.name ≠ schemePassword ∧
      (i.info.purpose = .passDerivation → pwIterations i.info.name = scryptCost) := by decide +kernel

theorem mem_instsOf {su : Suite} {is : List ToolInst} (hm : su.tools.map makeInst = is.map Except.ok) (i : ToolInst) :
    i ∈ instsOf su ↔ i ∈ is := by
  have h1 : i ∈ instsOf su ↔ (Except.ok i : Res ToolInst) ∈ su.tools.map makeInst := by
    unfold instsOf
    simp only [List.mem_filterMap, List.mem_map]
    constructor
    · rintro ⟨t, ht, h⟩
      split at h
      · rename_i j hj; cases h; exact ⟨t, ht, hj⟩
      · cases h
    · rintro ⟨t, ht, h⟩
      exact ⟨t, ht, by rw [h]⟩
  rw [h1, hm]
  simp

/-- The level of a session does not exceed the level of its suite. -/
theorem session_level_le {P : Prims} {cfg : Config} {e : Envelope} {s : Session} (h : newSession P cfg e = .ok s)
    (hr : s.suite ∈ suiteRegistry) (h0 : e.securityLevel = 0) : s.level ≤ s.suite.securityLevel := by
  obtain ⟨suite, is, lv, h1, h2, h3, h4, hm, h5, h6, h7, h8, hs, n1, n2, hf⟩ := (newSession_ok_iff P cfg e s).mp h
  have hsuq : s.suite = suite := by rw [hs]; rfl
  have hlev : s.level = if cfg.minLevel > 0 ∧ cfg.minLevel > (levelsOf lv.all).level then cfg.minLevel else (levelsOf lv.all).level := by
    rw [hs]; rfl
  rw [hsuq] at hr ⊢
  rw [hlev]
  split
  · rename_i hc
    rw [h0] at h3
    unfold demandedLevel at h3
    simpa [hc.1] using h3
  · obtain ⟨⟨i, hi, hrsa, hpos, hle⟩, _⟩ := registered_insts suite hr
    rw [mem_instsOf hm] at hi
    obtain ⟨c, hc, hcl⟩ := mem_map_ok lv.htools hi
    have hcb : c = i.baseLevel := by
      simp only [calcLevel, ToolInst.secLevel, hrsa, Bool.false_eq_true, if_false, Except.ok.injEq] at hcl
      exact hcl.symm
    have hca : c ∈ lv.all := by simp [LevelLists.all, hc]
    rcases levelsOf_level lv.all (fun c hc => by rcases h7 c hc with h | h <;> omega) with ⟨g1, _⟩ | ⟨_, _, g3⟩
    · have := g1 c hca; omega
    · have := g3 c hca (by omega); omega

/-- The passwords that are given when the envelope is used are as strong as the envelope demands. -/
def GoodPasswords (cfg : Config) (w : World) (e : Envelope) : Prop :=
  ∀ su, getSuite suiteRegistry e.suiteID = some su → ∀ x ∈ e.secrets, x.scheme = schemePassword →
    ∃ cb o t, w.createPw = some cb ∧ ShownAs w x t ∧ cb t su.securityLevel = .ok o ∧ o.scheme = schemePassword ∧ o.key ≠ [] ∧
      e.securityLevel ≤ cfg.pwLevel o.key scryptCost

/-- Signets that are references only: no key, no name, nothing else. -/
def OnlyRefs (e : Envelope) : Prop := ∀ x ∈ e.secrets ++ e.senders ++ e.recipients, x = { version := x.version, id := x.id, scheme := x.scheme }

theorem clean_refs (e : Envelope) : OnlyRefs e.clean := by
  intro x hx
  simp only [Envelope.clean, ← List.map_append, List.mem_map] at hx
  obtain ⟨y, _, rfl⟩ := hx
  rfl

/-- What replaces a signet when the envelope is used later. -/
def Replaces (cfg : Config) (L : Int) (x o : Signet) : Prop :=
  o = x ∨ (x.scheme = schemePassword ∧ o.scheme = schemePassword ∧ o.key ≠ [] ∧ L ≤ cfg.pwLevel o.key scryptCost)

theorem Replaces.scheme {cfg : Config} {L : Int} {x o : Signet} (h : Replaces cfg L x o) : o.scheme = x.scheme := by
  rcases h with rfl | ⟨h1, h2, _⟩
  · rfl
  · rw [h1, h2]

theorem Replaces.strong {P : Prims} {cfg : Config} {L : Int} {x o : Signet} (h : Replaces cfg L x o) (hL : 0 < L) {i : ToolInst}
    (hi : pwIterations i.info.name = scryptCost) : AsStrong P cfg L (some i) x o := by
  rcases h with rfl | ⟨h1, h2, h3, h4⟩
  · exact Or.inl rfl
  · right
    have hl : o.key.length > 0 := List.length_pos_iff.mpr h3
    have hn : ¬ cfg.pwLevel o.key scryptCost < 0 := by omega
    exact ⟨cfg.pwLevel o.key scryptCost, by simp [calcLevel, h2, show schemePassword ≠ schemeKey from by decide, hl, hi, hn], h4⟩

/-- Preparing the references of a prepared list gives the list again, up to passwords. -/
theorem prep_refs {P : Prims} {cfg : Config} {w : World} {get : Bytes → Bool → Res Signet} {level L : Int} {flag : Bool}
    (hget : w.store = some get) : ∀ l : List Signet, (∀ x ∈ l, Ready P get flag x) → (flag = false ∨ ∀ x ∈ l, x.scheme ≠ schemeKey) →
      (∀ x ∈ l, x.scheme = schemePassword → flag = false ∧ ∃ cb o, w.createPw = some cb ∧ cb (nameFromStore w x.clean) level = .ok o ∧
        o.scheme = schemePassword ∧ o.key ≠ [] ∧ L ≤ cfg.pwLevel o.key scryptCost) →
      ∃ out, prepSignets P w level flag (l.map Signet.clean) = .ok out ∧ All2 (Replaces cfg L) l out
  | [], _, _, _ => ⟨[], rfl, .nil⟩
  | x :: l, hr, hf, hp => by
    have hn : nextFlag flag x.clean = flag := by
      unfold nextFlag
      rcases hf with rfl | hf
      · simp
      · rw [if_neg]; rintro ⟨_, b⟩; exact hf x (by simp) b
    obtain ⟨out, h1, h2⟩ := prep_refs (cfg := cfg) (level := level) (L := L) hget l (fun y hy => hr y (by simp [hy]))
      (hf.imp id (fun h y hy => h y (by simp [hy]))) (fun y hy => hp y (by simp [hy]))
    have hone : ∃ o, prepOne P w level flag x.clean = .ok o ∧ Replaces cfg L x o := by
      have hk : x.clean.key.length = 0 := rfl
      have hsc : x.clean.scheme = x.scheme := rfl
      have hid : x.clean.id = x.id := rfl
      unfold prepOne
      simp only [hk, if_true, hsc]
      by_cases hpw : x.scheme = schemePassword
      · obtain ⟨rfl, cb, o, c1, c2, c3, c4, c5⟩ := hp x (by simp) hpw
        refine ⟨o, ?_, Or.inr ⟨hpw, c3, c4, c5⟩⟩
        simp only [hpw, if_true, fillPassword, Bool.not_false, c1]
        exact c2
      · simp only [hpw, if_false]
        rcases hr x (by simp) with h | ⟨n, g1, g2, g3⟩
        · exact absurd h hpw
        · refine ⟨x, ?_, Or.inl rfl⟩
          have hfl : (if x.scheme = schemeKey then false else flag) = flag := by
            split
            · rename_i hs
              rcases hf with h | h
              · exact h.symm
              · exact absurd hs (h x (by simp))
            · rfl
          have hns : x.scheme = n.scheme := (finishPrep_spec g3).2.1
          have : fetchSignet w flag x.clean = .ok n := by
            unfold fetchSignet
            rw [if_neg (by rw [hid]; intro h; exact g1 (List.length_eq_zero_iff.mp h)), hget]
            dsimp only
            rw [hid, g2]
            simp [hsc, hns]
          rw [hfl, this, ok_bind, g3]
    obtain ⟨o, ho1, ho2⟩ := hone
    refine ⟨o :: out, ?_, .cons ho2 h2⟩
    rw [List.map_cons, prepSignets_cons, ho1, ok_bind, hn, h1, ok_bind]

/-- An envelope that was found valid is accepted again after its signets have been replaced by references. -/
theorem usable_after_clean {P : Prims} {cfg : Config} {get : Bytes → Bool → Res Signet} {s : Session}
    (h : newSession P cfg s.env = .ok s) (ho : s.env.opening = false) (h0 : s.env.securityLevel = 0) (hl : s.level ≠ 0)
    (hsu : s.env.suite = getSuite suiteRegistry s.env.suiteID)
    (r1 : ∀ y ∈ s.env.secrets, Ready P get false y) (r2 : ∀ y ∈ s.env.senders, Ready P get false y)
    (r3 : (∃ x ∈ s.env.recipients, x.scheme = schemeKey) ∨ ∀ y ∈ s.env.recipients, Ready P get true y)
    {w : World} (hget : w.store = some get) {e' : Envelope} (he' : e' = ({ s.env with securityLevel := s.level } : Envelope).clean)
    (hpw : GoodPasswords cfg w e') :
    ∃ s', correspondence P cfg w suiteRegistry e' = .ok s' ∧ s.level ≤ s'.level := by
  obtain ⟨_, hss⟩ := newSession_env h
  have hgs : getSuite suiteRegistry s.env.suiteID = some s.suite := by rw [← hsu]; exact hss
  have hreg := (getSuite_sound _ _ _ hgs).1
  have hused := no_signet_ignored_registered P cfg s.env s s.env.suiteID hsu h
  obtain ⟨suite, is, lv, h1, h2, h3, h4, hm, h5, h6, h7, h8, hs, n1, n2, hf⟩ := (newSession_ok_iff P cfg s.env s).mp h
  have hins : s.insts = is := by rw [hs]; rfl
  have hsq : s.suite = suite := by rw [hs]; rfl
  have hinfo : ∀ i ∈ s.insts, i.info.name ≠ schemeKey ∧ i.info.name ≠ schemePassword ∧
      (i.info.purpose = .passDerivation → pwIterations i.info.name = scryptCost) := by
    intro i hi
    rw [hins, ← mem_instsOf hm, ← hsq] at hi
    exact (registered_insts s.suite hreg).2 i hi
  have hpos : 0 < s.level := by
    have hge : 0 ≤ s.level := by
      have : s.level = if cfg.minLevel > 0 ∧ cfg.minLevel > (levelsOf lv.all).level then cfg.minLevel else (levelsOf lv.all).level := by
        exact congrArg Session.level hs
      rw [this]
      split
      · omega
      · rcases levelsOf_level lv.all (fun c hc => by rcases h7 c hc with h | h <;> omega) with ⟨_, g⟩ | ⟨g, _⟩ <;> omega
    omega
  -- the lists
  have hsend : ∀ x ∈ s.env.senders, x.scheme ≠ schemeKey ∧ x.scheme ≠ schemePassword := by
    intro x hx
    obtain ⟨t, ht, _, hn⟩ := hused.senders x hx
    rw [← hn]; exact ⟨(hinfo t ht).1, (hinfo t ht).2.1⟩
  have hrcpt : ∀ x ∈ s.env.recipients, x.scheme ≠ schemeKey ∧ x.scheme ≠ schemePassword := by
    intro x hx
    obtain ⟨t, ht, _, hn⟩ := hused.recipients x hx
    rw [← hn]; exact ⟨(hinfo t ht).1, (hinfo t ht).2.1⟩
  have r3' : ∀ y ∈ s.env.recipients, Ready P get true y := by
    rcases r3 with ⟨x, hx, hs⟩ | h
    · exact absurd hs (hrcpt x hx).1
    · exact h
  have hp' : ∀ x ∈ s.env.secrets, x.scheme = schemePassword → false = false ∧ ∃ cb o, w.createPw = some cb ∧
      cb (nameFromStore w x.clean) s.suite.securityLevel = .ok o ∧
      o.scheme = schemePassword ∧ o.key ≠ [] ∧ s.level ≤ cfg.pwLevel o.key scryptCost := by
    intro x hx hxs
    have := hpw s.suite (by rw [he']; exact hgs) x.clean (by rw [he']; exact List.mem_map_of_mem hx) hxs
    rw [he'] at this
    obtain ⟨cb, o, t, h1, ht, h2⟩ := this
    rw [ht.eq] at h2
    exact ⟨rfl, cb, o, h1, h2⟩
  obtain ⟨o1, p1, q1⟩ := prep_refs (cfg := cfg) (level := s.suite.securityLevel) (L := s.level) hget s.env.secrets r1 (Or.inl rfl) hp'
  obtain ⟨o2, p2, q2⟩ := prep_refs (cfg := cfg) (level := s.suite.securityLevel) (L := s.level) hget s.env.senders r2 (Or.inl rfl)
    (fun x hx hxs => absurd hxs (hsend x hx).2)
  obtain ⟨o3, p3, q3⟩ := prep_refs (cfg := cfg) (level := s.suite.securityLevel) (L := s.level) hget s.env.recipients r3'
    (Or.inr fun x hx => (hrcpt x hx).1) (fun x hx hxs => absurd hxs (hrcpt x hx).2)
  let e2 : Envelope := { e' with secrets := o1, senders := o2, recipients := o3 }
  have hsig : ∀ i ∈ s.insts, All2 (AsStrong P cfg s.level (some i)) ((signetsFor s.env i).getD []) ((signetsFor e2 i).getD []) := by
    intro i hi
    have hit := (hinfo i hi).2.2
    unfold signetsFor ofScheme
    cases hpu : i.info.purpose with
    | passDerivation =>
      exact (q1.filter (fun a b hab => by rw [hab.scheme])).mono fun a b hab => hab.strong hpos (hit hpu)
    | keyExchange =>
      refine (q3.filter (fun a b hab => by rw [hab.scheme])).mono_mem fun a ha b hb hab => ?_
      rcases hab with rfl | hab
      · exact Or.inl rfl
      · exact absurd hab.1 (hrcpt a (List.mem_filter.mp ha).1).2
    | keyEncapsulation =>
      refine (q3.filter (fun a b hab => by rw [hab.scheme])).mono_mem fun a ha b hb hab => ?_
      rcases hab with rfl | hab
      · exact Or.inl rfl
      · exact absurd hab.1 (hrcpt a (List.mem_filter.mp ha).1).2
    | signing =>
      refine (q2.filter (fun a b hab => by rw [hab.scheme])).mono_mem fun a ha b hb hab => ?_
      rcases hab with rfl | hab
      · exact Or.inl rfl
      · exact absurd hab.1 (hsend a (List.mem_filter.mp ha).1).2
    | _ => exact .nil
  have hkey : All2 (AsStrong P cfg s.level none) (keySecrets s.env) (keySecrets e2) := by
    unfold keySecrets ofScheme
    refine (q1.filter (fun a b hab => by rw [hab.scheme])).mono_mem fun a ha b hb hab => ?_
    rcases hab with rfl | hab
    · exact Or.inl rfl
    · have h1 := (List.mem_filter.mp ha).2
      have h2 : schemeKey.isEmpty = false := by decide
      rw [h2, Bool.false_or, beq_iff_eq, hab.1] at h1
      exact absurd h1 (by decide)
  obtain ⟨s', g1, g2, _⟩ := newSession_raise (e' := e2) h (by show e'.suite = _; rw [he']; rfl) (by show e'.securityLevel = _; rw [he']; rfl)
    hpos (session_level_le h hreg h0) hsig hkey
    (by show o1.length + o2.length + o3.length ≤ _; rw [← q1.length, ← q2.length, ← q3.length]; omega)
  refine ⟨s', ?_, g2⟩
  have hload : loadSuite suiteRegistry e' = .ok (e', s.suite) := by
    unfold loadSuite
    have : e'.suite = some s.suite := by rw [he']; exact hss
    rw [this]
  have hopen : e'.opening = false := by rw [he']; exact ho
  have e1 : e'.secrets = s.env.secrets.map Signet.clean := by rw [he']; rfl
  have e3 : e'.senders = s.env.senders.map Signet.clean := by rw [he']; rfl
  have e4 : e'.recipients = s.env.recipients.map Signet.clean := by rw [he']; rfl
  unfold correspondence
  rw [hload, ok_bind]
  dsimp only
  unfold prepareSignets
  rw [hopen, e1, e3, e4, p1, ok_bind, p2, ok_bind, Bool.not_false, p3, ok_bind, ok_bind]
  have h2 : e2 = { e' with secrets := o1, senders := o2, recipients := o3, opening := false } := by
    rw [← hopen]
  rw [h2] at g1
  exact g1

/-! ## The dialog -/

/-- An envelope that may be saved: references only, a loaded suite, and it can be used with the trust store `get`, at the level that is
written in it, if passwords are as strong. -/
structure Savable (E : DlgEnv) (get : Bytes → Bool → Res Signet) (e : Envelope) : Prop where
  refs : OnlyRefs e
  level : 0 < e.securityLevel
  opening : e.opening = false
  suite : e.suite = getSuite suiteRegistry e.suiteID ∧ e.suite ≠ none
  usable : ∀ w : World, w.store = some get → GoodPasswords E.cfg w e →
    ∃ s, correspondence E.P E.cfg w suiteRegistry e = .ok s ∧ e.securityLevel ≤ s.level

/-- How a dialog about the envelope `name` may end. -/
inductive DialogEnd {σ : Type} (E : DlgEnv) (T : Trust σ) (st : σ) (name : Bytes) : σ × Res Unit → Prop
  | unchanged (r : Res Unit) : DialogEnd E T st name (st, r)
  | deleted : DialogEnd E T st name (T.deleteEnvelope st name)
  | saved (e : Envelope) : e.name = name → Savable E (T.getSignet st) e → DialogEnd E T st name (T.storeEnvelope st e)

/-- The password prompts only fill in a password. -/
def EditRound.Keeps (r : EditRound) : Prop := ∀ s l o, r.createPw s l = .ok o → o.scheme = s.scheme

/-- The status: the envelope stays in order, and a level other than 0 means that it may be saved. -/
theorem editStatus_spec {σ : Type} {E : DlgEnv} {T : Trust σ} {st : σ} {r : EditRound} {e : Envelope} (hreg : E.reg = suiteRegistry)
    (hids : GivesAsked (T.getSignet st)) (hr : r.Keeps) (he : Editing E.P (T.getSignet st) e) :
    Editing E.P (T.getSignet st) (editStatus E T st r e) ∧ (editStatus E T st r e).name = e.name ∧
    ((editStatus E T st r e).securityLevel ≠ 0 → Savable E (T.getSignet st) (editStatus E T st r e).clean) := by
  have hw : World.KeepsScheme { store := some (T.getSignet st), createPw := some r.createPw } :=
    ⟨(by intro _ _ _ h; cases h), (by intro cb s l o h h2; cases h; exact hr s l o h2)⟩
  have he0 : Editing E.P (T.getSignet st) { e with securityLevel := 0 } := ⟨he.opening, he.suite, he.secrets, he.senders, he.recipients⟩
  unfold editStatus correspondenceIn
  rw [hreg]
  cases hl : loadSuite suiteRegistry { e with securityLevel := 0 } with
  | error x => exact ⟨he0, rfl, fun h => absurd rfl h⟩
  | ok p =>
    obtain ⟨e1, su⟩ := p
    obtain ⟨hsu, he1⟩ := loadSuite_loaded he0.suite hl
    have hed1 : Editing E.P (T.getSignet st) e1 := by
      rw [he1]; exact ⟨he.opening, Or.inr hsu.symm, he.secrets, he.senders, he.recipients⟩
    have hp := prepareIn_editing (level := su.securityLevel) hw rfl hids hed1
    have n1 : e1.name = e.name := by rw [he1]
    have l1 : e1.securityLevel = 0 := by rw [he1]
    have s1 : e1.suite = some su := by rw [he1]
    have i1 : e1.suiteID = e.suiteID := by rw [he1]
    dsimp only at hp ⊢
    generalize prepareIn E.P { store := some (T.getSignet st), createPw := some r.createPw } su.securityLevel e1 = q at *
    obtain ⟨e2, q⟩ := q
    dsimp only at hp
    obtain ⟨p1, p2, p3, p4, p5, p6⟩ := hp
    cases q with
    | error x => exact ⟨p1, by rw [← n1, ← p2], fun h => absurd (p5.trans l1) h⟩
    | ok u =>
      dsimp only
      cases hn : newSession E.P E.cfg e2 with
      | error x => exact ⟨p1, by rw [← n1, ← p2], fun h => absurd (p5.trans l1) h⟩
      | ok s =>
        dsimp only
        refine ⟨⟨p1.opening, p1.suite, p1.secrets, p1.senders, p1.recipients⟩, by rw [← n1, ← p2], fun hne => ?_⟩
        obtain ⟨henv, _⟩ := newSession_env hn
        subst henv
        obtain ⟨r1, r2, r3⟩ := p6 rfl
        have hs2 : s.env.suite = getSuite suiteRegistry s.env.suiteID := by rw [p4, s1, p3, i1]; exact hsu.symm
        have hlev : s.level ≠ 0 := hne
        refine ⟨clean_refs _, ?_, p1.opening, ⟨hs2, by show s.env.suite ≠ none; rw [p4, s1]; simp⟩, fun w hw2 hpw => ?_⟩
        · show 0 < s.level
          obtain ⟨suite, is, lv, _, _, _, _, _, _, _, h7, _, hs, _⟩ := (newSession_ok_iff E.P E.cfg s.env s).mp hn
          have : s.level = if E.cfg.minLevel > 0 ∧ E.cfg.minLevel > (levelsOf lv.all).level then E.cfg.minLevel
              else (levelsOf lv.all).level := congrArg Session.level hs
          have hge : 0 ≤ s.level := by
            rw [this]
            split
            · omega
            · rcases levelsOf_level lv.all (fun c hc => by rcases h7 c hc with h | h <;> omega) with ⟨_, g⟩ | ⟨g, _⟩ <;> omega
          omega
        · exact usable_after_clean hn p1.opening (p5.trans l1) hlev hs2 r1 r2 r3 hw2 rfl hpw

/-- References only. -/
theorem onlyRefs_key {e : Envelope} (h : OnlyRefs e) : ∀ x ∈ e.secrets ++ e.senders ++ e.recipients, x.key = [] := by
  intro x hx
  rw [h x hx]

theorem select_editing {σ : Type} {E : DlgEnv} {T : Trust σ} {st : σ} {e e' : Envelope} {scope : Scope} {rows : Option (Nat → Bool)}
    {P : Prims} {get : Bytes → Bool → Res Signet} (he : Editing P get e) (h : selectSignets E T st e scope rows = .ok e') :
    Editing P get e' ∧ e'.name = e.name := by
  unfold selectSignets at h
  simp only [bind_ok_iff] at h
  obtain ⟨c, _, h⟩ := h
  split at h
  · cases h
  · simp only [bind_ok_iff] at h
    obtain ⟨l, _, h⟩ := h
    cases h
    have hl : ∀ (f : Bool), ∀ x ∈ l.map (fun s => ({ id := s.id } : Signet)), Held P get f x := by
      intro f x hx
      obtain ⟨y, _, rfl⟩ := List.mem_map.mp hx
      exact Or.inl rfl
    cases scope with
    | pw => exact ⟨⟨he.opening, he.suite, hl false, he.senders, he.recipients⟩, rfl⟩
    | key => exact ⟨⟨he.opening, he.suite, hl false, he.senders, he.recipients⟩, rfl⟩
    | secrets => exact ⟨⟨he.opening, he.suite, hl false, he.senders, he.recipients⟩, rfl⟩
    | recipient => exact ⟨⟨he.opening, he.suite, he.secrets, he.senders, Or.inr (hl true)⟩, rfl⟩
    | sender => exact ⟨⟨he.opening, he.suite, he.secrets, hl false, he.recipients⟩, rfl⟩

theorem editSuite_editing {E : DlgEnv} {e e' : Envelope} {row : Option Nat} {P : Prims} {get : Bytes → Bool → Res Signet}
    (hreg : E.reg = suiteRegistry) (he : Editing P get e) (h : editEnvelopeSuite E e row = .ok e') :
    Editing P get e' ∧ e'.name = e.name := by
  unfold editEnvelopeSuite at h
  split at h
  · cases h
  · split at h
    · cases h
    · rename_i id _ _
      rw [hreg] at h
      cases hl : loadSuite suiteRegistry { e with suiteID := id, suite := none } with
      | error x => rw [hl] at h; cases h
      | ok p =>
        rw [hl] at h
        obtain ⟨e1, su⟩ := p
        cases h
        obtain ⟨h1, h2⟩ := loadSuite_loaded (e := { e with suiteID := id, suite := none }) (Or.inl rfl) hl
        dsimp only
        rw [h2]
        exact ⟨⟨he.opening, Or.inr h1.symm, he.secrets, he.senders, he.recipients⟩, rfl⟩

/-- What a round leads to. -/
def Next.OK {σ : Type} (E : DlgEnv) (T : Trust σ) (st : σ) (name : Bytes) : Next σ → Prop
  | .again e => Editing E.P (T.getSignet st) e ∧ e.name = name
  | .stop st' r => DialogEnd E T st name (st', r)

theorem editRound_ok {σ : Type} {E : DlgEnv} {T : Trust σ} {D : Dsd} {st : σ} {r : EditRound} {e : Envelope} (hreg : E.reg = suiteRegistry)
    (hids : GivesAsked (T.getSignet st)) (hr : r.Keeps) (he : Editing E.P (T.getSignet st) e) :
    (editRound E T D st r e).OK E T st e.name := by
  obtain ⟨h1, h2, h3⟩ := editStatus_spec hreg hids hr he
  unfold editRound
  by_cases hc : statusCrashes E T st r e = true
  · rw [if_pos hc]
    exact .unchanged _
  rw [if_neg hc]
  generalize editStatus E T st r e = x at *
  split
  · exact .unchanged _
  · split
    · exact .unchanged _
    · rename_i line _
      unfold editAction
      split
      · split
        · exact ⟨h1, h2⟩
        · rename_i hl
          show DialogEnd E T st e.name ((T.storeEnvelope st x.clean).1, (T.storeEnvelope st x.clean).2)
          exact .saved x.clean h2 (h3 hl)
      · split
        · split
          · exact ⟨h1, h2⟩
          · split
            · exact .unchanged _
            · refine ⟨editing_refs h1.opening h1.suite ?_, h2⟩
              intro y hy
              exact onlyRefs_key (clean_refs x.clean) y hy
        · split
          · exact .unchanged _
          · split
            · show DialogEnd E T st e.name ((T.deleteEnvelope st x.name).1, (T.deleteEnvelope st x.name).2)
              rw [h2]
              exact .deleted
            · split
              · cases hs : editEnvelopeSuite E x r.suiteRow with
                | error _ => exact .unchanged _
                | ok e' => have := editSuite_editing hreg h1 hs; exact ⟨this.1, this.2.trans h2⟩
              · split
                · cases hs : selectSignets E T st x .secrets r.sub with
                  | error _ => exact .unchanged _
                  | ok e' => have := select_editing h1 hs; exact ⟨this.1, this.2.trans h2⟩
                · split
                  · cases hs : selectSignets E T st x .recipient r.sub with
                    | error _ => exact .unchanged _
                    | ok e' => have := select_editing h1 hs; exact ⟨this.1, this.2.trans h2⟩
                  · split
                    · cases hs : selectSignets E T st x .sender r.sub with
                      | error _ => exact .unchanged _
                      | ok e' => have := select_editing h1 hs; exact ⟨this.1, this.2.trans h2⟩
                    · exact ⟨h1, h2⟩

/-- C70, the dialog: whatever the user does, the trust store stays as it is, the envelope is deleted, or an envelope of that name is
saved, that has no keys and can be used. -/
theorem edit_saves_usable {σ : Type} {E : DlgEnv} {T : Trust σ} {D : Dsd} {st : σ} (hreg : E.reg = suiteRegistry)
    (hids : GivesAsked (T.getSignet st)) : ∀ (rounds : List EditRound) (e : Envelope), (∀ r ∈ rounds, r.Keeps) →
    Editing E.P (T.getSignet st) e → DialogEnd E T st e.name (editEnvelope E T D rounds st e)
  | [], e, _, _ => .unchanged _
  | r :: rs, e, hk, he => by
    have h1 := editRound_ok (D := D) hreg hids (hk r (by simp)) he
    unfold editEnvelope
    cases hr : editRound E T D st r e with
    | stop st' x => rw [hr] at h1; exact h1
    | again e' =>
      rw [hr] at h1
      obtain ⟨h2, h3⟩ := h1
      have := edit_saves_usable (D := D) hreg hids rs e' (fun r hr => hk r (by simp [hr])) h2
      rw [h3] at this
      exact this

theorem selectAll_editing {σ : Type} {E : DlgEnv} {T : Trust σ} {st : σ} {P : Prims} {get : Bytes → Bool → Res Signet} :
    ∀ (scopes : List Scope) (rows : List (Option (Nat → Bool))) (e e' : Envelope), Editing P get e →
      selectAll E T st rows scopes e = .ok e' → Editing P get e' ∧ e'.name = e.name
  | [], _, e, e', he, h => by cases h; exact ⟨he, rfl⟩
  | s :: ss, rows, e, e', he, h => by
    simp only [selectAll, bind_ok_iff] at h
    obtain ⟨e1, h1, h2⟩ := h
    obtain ⟨g1, g2⟩ := select_editing he h1
    obtain ⟨k1, k2⟩ := selectAll_editing ss _ e1 e' g1 h2
    exact ⟨k1, k2.trans g2⟩

theorem newEnvelope_editing {σ : Type} {E : DlgEnv} {T : Trust σ} {st : σ} {name : Bytes} {preset : Option Nat}
    {rows : List (Option (Nat → Bool))} {e : Envelope} {P : Prims} {get : Bytes → Bool → Res Signet}
    (h : newEnvelope E T st name preset rows = .ok e) : Editing P get e ∧ e.name = trimSpace name := by
  unfold newEnvelope at h
  split at h
  · cases h
  · split at h
    · cases h
    · rename_i suiteID scopes _
      exact selectAll_editing scopes rows _ e (editing_refs rfl (Or.inl rfl) (by simp)) h

/-- The envelopes of the trust store are as jess writes and reads them: references only, the suite is loaded, and they have the name
they are stored under. -/
def KeptEnvelopes {σ : Type} (T : Trust σ) (st : σ) : Prop :=
  ∀ name e, T.getEnvelope st name = .ok (some e) → e.name = name ∧ OnlyRefs e ∧ e.opening = false ∧ e.SuiteLoaded

/-- C70: `jess configure`. The name is the given one, or (for a new envelope) the given one without surrounding blanks. -/
theorem configure_saves_usable {σ : Type} {E : DlgEnv} {T : Trust σ} {D : Dsd} {st : σ} (hreg : E.reg = suiteRegistry)
    (hids : GivesAsked (T.getSignet st)) (hkept : KeptEnvelopes T st) (args : List Bytes) (preset : Option Nat)
    (rows : List (Option (Nat → Bool))) (rounds : List EditRound) (hk : ∀ r ∈ rounds, r.Keeps) :
    configureCommand E T D st args preset rows rounds = (st, .error .missing) ∨
    ∃ arg ∈ args.head?, ∃ name, (name = arg ∨ (T.getEnvelope st arg = .ok none ∧ name = trimSpace arg)) ∧
      DialogEnd E T st name (configureCommand E T D st args preset rows rounds) := by
  unfold configureCommand
  split
  · exact Or.inl rfl
  · rename_i name _
    right
    refine ⟨name, by simp, ?_⟩
    split
    · exact ⟨name, Or.inl rfl, .unchanged _⟩
    · split
      · exact ⟨name, Or.inl rfl, .unchanged _⟩
      · rename_i e he
        obtain ⟨h1, h2, h3, h4⟩ := hkept name e he
        have := edit_saves_usable (D := D) hreg hids rounds e hk (editing_refs h3 h4 (onlyRefs_key h2))
        rw [h1] at this
        exact ⟨name, Or.inl rfl, this⟩
      · rename_i hnone
        split
        · exact ⟨name, Or.inl rfl, .unchanged _⟩
        · rename_i e he
          obtain ⟨h1, h2⟩ := newEnvelope_editing (get := T.getSignet st) (P := E.P) he
          have := edit_saves_usable (D := D) hreg hids rounds e hk h1
          rw [h2] at this
          exact ⟨_, Or.inr ⟨hnone, rfl⟩, this⟩

end Jess
