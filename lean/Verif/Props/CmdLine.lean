import Verif.Model.CmdLine
import Verif.Props.CmdFiles
import Verif.Props.KeySizes
import Verif.Props.TextFormat
import Verif.Props.Requirements

/-!
# C77: global flags
-/

namespace Jess

open Requirements

/-- The first of some settings that is given (specification). -/
def firstGiven : List Bytes → Option Bytes
  | [] => none
  | x :: xs => if x = [] then firstGiven xs else some x

/-- The trust store that is asked for (specification): a directory if there is one in the flag or one of the variables, else a keyring. -/
def askedStore (M : Machine) (f : Flags) : Option StoreRef :=
  match firstGiven [f.tsdir, M.env b!"JESS_TS_DIR", M.env b!"JESS_TSDIR"] with
  | some d => some (.dir d)
  | none => (firstGiven [f.tskeyring, M.env b!"JESS_TS_KEYRING", M.env b!"JESS_TSKEYRING"]).map .keyring

/-- Whether the trust store can be opened (specification). -/
def StoreRef.opens (M : Machine) : StoreRef → Prop
  | .dir d => M.openDir d = .ok ()
  | .keyring k => M.openKeyring k = .ok ()

theorem storeDir_first (M : Machine) (f : Flags) :
    firstGiven [f.tsdir, M.env b!"JESS_TS_DIR", M.env b!"JESS_TSDIR"] = if storeDir M f = [] then none else some (storeDir M f) := by
  unfold storeDir
  simp only [firstGiven]
  split
  · split
    · rename_i h1 h2
      simp only [h2, if_true]
    · rename_i h1 h2
      simp only [h2, if_false]
  · rename_i h1
    simp only [h1, if_false]

theorem storeKeyring_first (M : Machine) (f : Flags) :
    firstGiven [f.tskeyring, M.env b!"JESS_TS_KEYRING", M.env b!"JESS_TSKEYRING"] = if storeKeyring M f = [] then none else some (storeKeyring M f) := by
  unfold storeKeyring
  simp only [firstGiven]
  split
  · split
    · rename_i h1 h2
      simp only [h2, if_true]
    · rename_i h1 h2
      simp only [h2, if_false]
  · rename_i h1
    simp only [h1, if_false]

/-- C77. Every command works with the trust store that is asked for, and with no other one: if that cannot be opened, the command fails instead of using another one. -/
theorem flags_trust_store (M : Machine) (f : Flags) :
    (∀ st, openStore M f = .ok st → st = askedStore M f ∧ ∀ r, st = some r → r.opens M) ∧
    ((∀ r, askedStore M f = some r → r.opens M) → openStore M f = .ok (askedStore M f)) := by
  unfold askedStore
  rw [storeDir_first, storeKeyring_first]
  unfold openStore
  by_cases hd : storeDir M f = []
  · by_cases hk : storeKeyring M f = []
    · simp [hd, hk]
    · simp only [hd, hk, ne_eq, not_true_eq_false, not_false_eq_true, if_false, if_true, bind_ok_iff, Option.map_some]
      refine ⟨?_, ?_⟩
      · rintro st ⟨u, h1, h2⟩
        cases h2
        exact ⟨rfl, by intro r hr; cases hr; exact h1⟩
      · intro h
        have := h _ rfl
        exact ⟨(), this, trivial⟩
  · simp only [hd, ne_eq, not_false_eq_true, if_false, if_true, bind_ok_iff]
    refine ⟨?_, ?_⟩
    · rintro st ⟨u, h1, h2⟩
      cases h2
      exact ⟨rfl, by intro r hr; cases hr; exact h1⟩
    · intro h
      have := h _ rfl
      exact ⟨(), this, trivial⟩

/-- C77. Exactly when the flags are accepted, and what they set. -/
theorem flags_accepted (M : Machine) (cfg : Config) (f : Flags) :
    (∃ G, initGlobalFlags M cfg f = .ok G) ↔
      (∀ r, askedStore M f = some r → r.opens M) ∧ (∀ c ∈ f.no, c = 67 ∨ c = 73 ∨ c = 82 ∨ c = 83) := by
  obtain ⟨a1, a2⟩ := flags_trust_store M f
  obtain ⟨_, p2⟩ := parse_iff f.no
  simp only [initGlobalFlags, bind_ok_iff, flagReqs]
  constructor
  · rintro ⟨G, st, h1, q, h2, _⟩
    obtain ⟨b1, b2⟩ := a1 st h1
    refine ⟨fun r hr => b2 r (by rw [b1]; exact hr), ?_⟩
    by_cases hn : f.no = []
    · simp [hn]
    · simp only [hn, ne_eq, not_false_eq_true, if_true] at h2
      cases hp : parseNoSpec f.no with
      | error e => rw [hp] at h2; cases h2
      | ok q' => exact p2.mpr ⟨q', hp⟩
  · rintro ⟨h1, h2⟩
    obtain ⟨q, hq⟩ := p2.mp h2
    by_cases hn : f.no = []
    · exact ⟨_, _, a2 h1, none, by simp [hn], rfl⟩
    · exact ⟨_, _, a2 h1, some q, by simp [hn, hq, Except.map], rfl⟩

/-- C77. `--seclevel`: whatever is closed, opened, signed or verified after it was given, everything it uses has that security level. -/
theorem seclevel_enforced (M : Machine) (cfg : Config) (f : Flags) (G : CmdGlobals) (h : initGlobalFlags M cfg f = .ok G) (hl : 0 < f.seclevel)
    (P : Prims) (e : Envelope) (s : Session) (hs : newSession P G.cfg e = .ok s) : MeetsLevel P G.cfg s f.seclevel := by
  simp only [initGlobalFlags, bind_ok_iff] at h
  obtain ⟨st, _, q, _, h⟩ := h
  cases h
  have := min_level_enforced P _ e s hs
  have hd : demandedLevel (flagConfig cfg f) e.securityLevel = f.seclevel := by
    unfold demandedLevel flagConfig
    simp only [gt_iff_lt, hl, if_true]
    split <;> simp [Config.setMinimumSecurityLevel, Config.setDefaultKeySize, hl]
  rw [hd] at this
  exact this

/-- C77. `--symkeysize`: every session that encrypts has that key size, or the 32 bytes of its cipher if that is more. Without the flags nothing changes. -/
theorem symkeysize_applied (M : Machine) (cfg : Config) (f : Flags) (G : CmdGlobals) (h : initGlobalFlags M cfg f = .ok G) :
    (0 < f.symkeysize → G.cfg.minKeySize = f.symkeysize.toNat ∧ G.cfg.defaultKeySize = f.symkeysize.toNat) ∧
    (f.symkeysize ≤ 0 → G.cfg.minKeySize = cfg.minKeySize ∧ G.cfg.defaultKeySize = cfg.defaultKeySize) ∧
    (f.seclevel ≤ 0 → G.cfg.minLevel = cfg.minLevel ∧ G.cfg.defaultLevel = cfg.defaultLevel) ∧ G.cfg.pwLevel = cfg.pwLevel := by
  simp only [initGlobalFlags, bind_ok_iff] at h
  obtain ⟨st, _, q, _, h⟩ := h
  cases h
  unfold flagConfig
  by_cases h1 : 0 < f.seclevel <;> by_cases h2 : 0 < f.symkeysize <;>
    simp [h1, h2, Config.setMinimumSecurityLevel, Config.setDefaultKeySize] <;> omega

/-- C77. `--no`: `jess open` only writes data of a letter whose suite provides all attributes that are not named; all four if the flag is not given. -/
theorem no_flag_applied (M : Machine) (cfg : Config) (f : Flags) (G : CmdGlobals) (h : initGlobalFlags M cfg f = .ok G) (T : CmdEnv) (hT : T.reqs = G.reqs)
    (d : Disk) (file data : Bytes) (ho : openData T d file = .ok data) :
    ∃ (content rest : Bytes) (l : Letter) (suite : Suite), loadFile T d file = .ok content ∧ letterFromFileFormat T.hc content = .ok (l, rest) ∧
      getSuite suiteRegistry l.suiteID = some suite ∧ l.open T.E.P T.E.cfg T.w suiteRegistry (some (T.reqs.getD full)) = .ok data ∧
      (67 ∉ f.no → Confidentiality ∈ suite.provides) ∧ (73 ∉ f.no → Integrity ∈ suite.provides) ∧
      (82 ∉ f.no → RecipientAuthentication ∈ suite.provides) ∧ (83 ∉ f.no → SenderAuthentication ∈ suite.provides) := by
  simp only [openData, bind_ok_iff] at ho
  obtain ⟨c, hc, ⟨l, r⟩, hl, ho⟩ := ho
  obtain ⟨s, hob, _⟩ := open_ok ho
  have hq := hob.reqs
  rw [Option.getD_some] at hq
  simp only [initGlobalFlags, bind_ok_iff] at h
  obtain ⟨st, _, q, hr, h⟩ := h
  cases h
  simp only at hT
  rw [hT] at hq
  refine ⟨c, r, l, s.suite, hc, hl, hob.suite, ho, ?_⟩
  unfold flagReqs at hr
  by_cases hn : f.no = []
  · simp only [hn, ne_eq, not_true_eq_false, if_false] at hr
    cases hr
    have hf : ∀ a ∈ full, a ∈ s.suite.provides := hq
    exact ⟨fun _ => hf _ (by decide), fun _ => hf _ (by decide), fun _ => hf _ (by decide), fun _ => hf _ (by decide)⟩
  · simp only [hn, ne_eq, not_false_eq_true, if_true] at hr
    cases hp : parseNoSpec f.no with
    | error e => rw [hp] at hr; cases hr
    | ok q' =>
      rw [hp] at hr
      cases hr
      have hm := ((parse_iff f.no).1 q' hp).2.2
      have hf : ∀ a ∈ q', a ∈ s.suite.provides := hq
      exact ⟨fun hx => hf _ ((hm _).mpr (by simp [hx])), fun hx => hf _ ((hm _).mpr (by simp [hx])),
        fun hx => hf _ ((hm _).mpr (by simp [hx])), fun hx => hf _ ((hm _).mpr (by simp [hx]))⟩

/-- C77, the strongest true part. Without a trust store `jess close` and `jess sign` fail with an error, and change nothing. -/
theorem no_trust_store_partial (T : CmdEnv) (hT : T.w.store = none) (d : Disk) (args : List Bytes) (flag : Bytes) :
    (∃ e, e ≠ .panic ∧ closeCommand T d args flag = (d, .error e)) ∧ (∃ e, e ≠ .panic ∧ signCommand T d args flag = (d, .error e)) := by
  have hr : requireTrustStore T.w = .error .missing := by unfold requireTrustStore; rw [hT]
  refine ⟨?_, ?_⟩
  · unfold closeCommand
    split
    · exact ⟨.missing, by decide, by simp [hr, error_bind, runPlan]⟩
    · exact ⟨.malformed, by decide, rfl⟩
  · unfold signCommand
    split
    · exact ⟨.missing, by decide, by simp [hr, error_bind]⟩
    · exact ⟨.malformed, by decide, rfl⟩

/-- C77 refuted: without a trust store `jess export` and `jess backup` of anything, and `jess import` of every valid text, crash: these commands do not check that there is one. -/
theorem no_trust_store_refuted (P : Prims) (D : Dsd) (id text : Bytes) (x : Imported) (h : cmdImport P D text = .ok x) :
    exportCommand P D none [id] = .error .panic ∧ backupCommand none [id] = .error .panic ∧ importCommand P D none [text] = .error .panic := by
  refine ⟨rfl, rfl, ?_⟩
  simp only [importCommand, h, ok_bind]

/-- A machine with one directory and a working keyring. -/
def toyMachine (vars : Bytes → Bytes) : Machine where
  env := vars
  openDir := fun d => if d = b!"/trust" then .ok () else .error .notFound
  openKeyring := fun _ => .ok ()

/-- The hypotheses are met: the flag is used instead of the variable, a missing directory is an error although there is a keyring, the keyring is used if there is no directory,
and the other flags take effect. With a trust store, the text commands do not crash. -/
theorem flags_example :
    let both : Bytes → Bytes := fun v => if v = b!"JESS_TSDIR" then b!"/old" else if v = b!"JESS_TS_KEYRING" then b!"ring" else []
    let none' : Bytes → Bytes := fun _ => []
    openStore (toyMachine both) { tsdir := b!"/trust" } = .ok (some (.dir b!"/trust")) ∧
    openStore (toyMachine both) { tskeyring := b!"mine" } = .error .notFound ∧
    openStore (toyMachine none') { tskeyring := b!"mine" } = .ok (some (.keyring b!"mine")) ∧
    openStore (toyMachine none') {} = .ok none ∧
    flagReqs { no := b!"SR" } = .ok (some [Confidentiality, Integrity]) ∧ flagReqs { no := b!"X" } = .error .malformed ∧
    (flagConfig toyConfig { seclevel := 192, symkeysize := 48 }).minLevel = 192 ∧
    (flagConfig toyConfig { seclevel := 192, symkeysize := 48 }).minKeySize = 48 ∧
    cmdImport toyPrims toyDsd (b!"envelope:" ++ b58Encode (block b!"work" ++ (block b!"v2" ++ []))) = .ok (.envelope { version := 1, name := b!"work", suiteID := b!"v2" }) ∧
    exportCommand toyPrims toyDsd (some { getSignet := fun _ _ => .error .signetNotFound, getEnvelope := fun _ => .error .notFound }) [b!"x"] = .error .notFound := by
  refine ⟨by decide +kernel, by decide +kernel, by decide +kernel, by decide +kernel, by decide +kernel, by decide +kernel, by decide +kernel, by decide +kernel,
    by decide +kernel, by decide +kernel⟩

end Jess
