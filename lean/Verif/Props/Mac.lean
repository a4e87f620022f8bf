import Verif.Props.CloseOpen
import Verif.Props.AssocData
import Verif.Props.Support

/-!
# C60: letters protected by MAC tools; C47 in sessions
-/

namespace Jess

open Requirements

/-- C47, the connection to sessions: the MAC step of a session is the `MAC` call of the tool, with its guards, on the data followed by the
associated data. -/
theorem session_mac_is_poly (P : Prims) (t : ToolInst) (ht : t.info.name = b!"POLY1305") (st : ToolState) (data ad mac : Bytes) :
    toolMAC P t st data ad = .ok mac ↔ ∃ key msg, (Poly.call { key := st.key, setUp := st.ready, used := st.used } (.mac (data ++ ad))).2 =
      .ok (some (key, msg)) ∧ mac = P.mac b!"POLY1305" t.hashName key msg := by
  unfold toolMAC Poly.call
  rw [ht]
  cases st.ready <;> cases st.used <;> simp [eq_comm]
  constructor
  · rintro rfl; exact ⟨_, _, ⟨rfl, rfl⟩, rfl⟩
  · rintro ⟨_, _, ⟨rfl, rfl⟩, h⟩; exact h

/-- The MAC of a letter (specification): for each MAC tool of the suite, in order, its MAC over the encrypted data followed by the letter's
version, suite, nonce and key seals, under a key that is derived from the key material and the letter's nonce. -/
inductive MacParts (P : Prims) (k : ToolInst) (nonce : Bytes) (material : List Bytes) (size : ToolInst → Nat) (msg : Bytes) :
    List ToolInst → Bytes → Prop
  | nil : MacParts P k nonce material size msg [] []
  | cons {t : ToolInst} {ts : List ToolInst} {key rest : Bytes} {off : Nat} :
      P.kdf k.info.name k.hashName nonce material.flatten off (size t) = .ok key → MacParts P k nonce material size msg ts rest →
      MacParts P k nonce material size msg (t :: ts) (P.mac t.info.name t.hashName key msg ++ rest)

section
variable {P : Prims} {cfg : Config} {s : Session}

theorem mac_tools_stateful : ∀ t ∈ toolTable, t.purpose = .mac → t.hasState = true := by decide +kernel

theorem setupTools_keys {k : ToolInst} {nonce : Bytes} {mat : List Bytes} :
    ∀ (ts : List ToolInst) (off : Nat) (os : List ToolState) (tools : List ToolState), os.length = ts.length →
      setupTools P s k nonce mat off ts os = (tools, .ok ()) →
      All2 (fun t st => ∃ off, P.kdf k.info.name k.hashName nonce mat.flatten off (s.toolKeySize t) = .ok st.key) ts tools
  | [], _, [], tools, _, h => by simp [setupTools] at h; subst h; exact .nil
  | [], _, _ :: _, _, hl, _ => by cases hl
  | t :: ts, off, [], tools, hl, h => by cases hl
  | t :: ts, off, o :: os, tools, hl, h => by
    rw [setupTools] at h
    cases hs : setupTool P s k nonce mat off t o with
    | error e => rw [hs] at h; cases h
    | ok x =>
      obtain ⟨st, off'⟩ := x
      rw [hs] at h
      simp only at h
      obtain ⟨h1, h2⟩ := Prod.mk.inj h
      subst h1
      refine .cons ?_ (setupTools_keys ts off' os _ (by simpa using hl) (by rw [← h2]))
      unfold setupTool at hs
      split at hs
      · cases hs
      · rename_i key hk
        split at hs
        · cases hs
        · cases hs; exact ⟨off, hk⟩

theorem ready_all2 {R : ToolInst → ToolState → Prop} {p : ToolInst → Bool} : ∀ {ts : List ToolInst} {sts : List ToolState}, All2 R ts sts →
    All2 (fun t (x : ToolInst × ToolState) => x.1 = t ∧ R t x.2) (ts.filter p) ((ts.zip sts).filter (fun x => p x.1))
  | _, _, .nil => .nil
  | _, _, .cons (a := a) (b := b) hr ht => by
    have ih := ready_all2 (p := p) ht
    simp only [List.zip_cons_cons, List.filter_cons]
    cases p a with
    | true => exact .cons ⟨rfl, hr⟩ ih
    | false => exact ih

theorem runMACs_parts {k : ToolInst} {nonce : Bytes} {mat : List Bytes} {data ad : Bytes} :
    ∀ {ts : List ToolInst} {xs : List (ToolInst × ToolState)} {acc out : Bytes},
      All2 (fun t (x : ToolInst × ToolState) => x.1 = t ∧ ∃ off, P.kdf k.info.name k.hashName nonce mat.flatten off (s.toolKeySize t) = .ok x.2.key)
        ts xs →
      foldRes (fun acc x => do let m ← toolMAC P x.1 x.2 data ad; .ok (acc ++ m)) acc xs = .ok out →
      ∃ m, out = acc ++ m ∧ MacParts P k nonce mat s.toolKeySize (data ++ ad) ts m
  | _, _, acc, out, .nil, h => by cases h; exact ⟨[], by simp, .nil⟩
  | _, _, acc, out, .cons (b := x) hr ht, h => by
    obtain ⟨rfl, off, hk⟩ := hr
    obtain ⟨b', h1, h2⟩ := (foldRes_cons_ok_iff _ _ _ _ _).mp h
    simp only [bind_ok_iff] at h1
    obtain ⟨m, hm, h1⟩ := h1
    cases h1
    obtain ⟨m', rfl, hp⟩ := runMACs_parts ht h2
    refine ⟨m ++ m', by simp, ?_⟩
    unfold toolMAC at hm
    split at hm
    · cases hm
    · cases hm; exact .cons hk hp

theorem queue_mac_stateful (hs : newSession P cfg s.env = .ok s) : s.queue .mac = s.stateful.filter (fun t => t.info.purpose = .mac) := by
  unfold Session.queue Session.stateful
  rw [List.filter_filter]
  apply List.filter_congr
  intro t ht
  obtain ⟨tid, _, hmk⟩ := inst_tool hs ht
  by_cases hp : t.info.purpose = .mac
  · rw [mac_tools_stateful _ (makeInst_spec hmk).2.1 hp]; simp
  · simp [hp]

end

/-- C60, part one. Whatever the suite: a letter that opens, and whose suite has MAC tools, carries exactly the MACs of its encrypted data,
version, suite, nonce and key seals, under keys derived from the key material and the nonce. -/
theorem open_checks_macs (P : Prims) (cfg : Config) (w : World) (reg : List Suite) (reqs : Option Requirements) (l : Letter) (d : Bytes)
    (h : l.open P cfg w reg reqs = .ok d) :
    ∃ s, OpenedBy P cfg w reg reqs l s ∧ (s.queue .mac ≠ [] → ∃ k material, s.kdf = some k ∧ setupOpening P cfg s l = .ok material ∧
      MacParts P k l.nonce material s.toolKeySize (l.data ++ l.compileAD) (s.queue .mac) l.mac) := by
  obtain ⟨s, ho, hop⟩ := open_ok h
  refine ⟨s, ho, fun hq => ?_⟩
  have hs : newSession P cfg s.env = .ok s := by
    have := newSession_env ho.session
    rw [this.1]; exact ho.session
  have hqm := queue_mac_stateful hs
  unfold Session.open at hop
  split at hop
  · cases hop
  · have hcl := (checkSignatures_clean (P := P) (clean_init s) l).1
    generalize checkSignatures P s s.initState l = cs at hop hcl
    obtain ⟨st, r⟩ := cs
    cases r with
    | error e => cases hop
    | ok u =>
      simp only at hop hcl
      cases hk : s.kdf with
      | none =>
        rw [hk] at hop
        have : s.needsAD = true := by
          unfold Session.needsAD
          cases hqq : s.queue .mac with
          | nil => exact absurd hqq hq
          | cons _ _ => simp
        simp only [this, Bool.or_true, if_true] at hop
        cases hop
      | some k =>
        rw [hk] at hop
        simp only at hop
        split at hop
        · cases hop
        · rename_i mat hmat
          split at hop
          · unfold decryptLetter at hop
            split at hop
            · cases hop
            · rename_i tools hset
              refine ⟨k, mat, rfl, hmat, ?_⟩
              simp only [unprotect, bind_ok_iff] at hop
              obtain ⟨mac, hm, hop⟩ := hop
              have hne : (s.queue .mac).isEmpty = false := by cases hqq : s.queue .mac with | nil => exact absurd hqq hq | cons _ _ => rfl
              have hmac : l.mac = mac := by
                split at hop
                · cases hop
                · rename_i hc
                  simpa [hne] using hc
              have had : s.adOf l = l.compileAD := by
                unfold Session.adOf Session.needsAD
                rw [hne]; simp
              have ha := ready_all2 (p := fun t => decide (t.info.purpose = .mac)) (setupTools_keys s.stateful 0 st.tools tools hcl.len hset)
              rw [had] at hm
              obtain ⟨m, e1, e2⟩ := runMACs_parts (s := s) ha hm
              rw [List.nil_append] at e1
              rw [hmac, e1, hqm]
              exact e2
          · cases hop

/-- C60, part two. Whatever the suite: `Close` gives a letter whose suite has MAC tools exactly these MACs. -/
theorem close_makes_macs (P : Prims) (pair : Bytes → Bytes → Bytes → Prop) (hP : P.Correct pair) (cfg : Config) (rng : Rng) (s : Session)
    (hs : newSession P cfg s.env = .ok s) (data : Bytes) (l : Letter)
    (h : (s.close P cfg rng s.initState data).2 = .ok l) (hq : s.queue .mac ≠ []) :
    ∃ k km, s.kdf = some k ∧ setupClosing P cfg rng s l.nonce = .ok km ∧ l.keys = km.keys ∧
      MacParts P k l.nonce km.material s.toolKeySize (l.data ++ l.compileAD) (s.queue .mac) l.mac := by
  have hqm := queue_mac_stateful hs
  have hne : (s.queue .mac).isEmpty = false := by cases hqq : s.queue .mac with | nil => exact absurd hqq hq | cons _ _ => rfl
  have hnd : s.needsAD = true := by unfold Session.needsAD; rw [hne]; simp
  unfold Session.close at h
  split at h
  · cases h
  · rename_i nonce _
    simp only at h
    cases hk : s.kdf with
    | none =>
      rw [hk] at h
      simp only [hnd, Bool.or_true, if_true] at h
      cases h
    | some k =>
      rw [hk] at h
      simp only at h
      cases hm : setupClosing P cfg rng s nonce with
      | error e => rw [hm] at h; cases h
      | ok km =>
        rw [hm] at h
        simp only at h
        split at h
        · generalize he : encryptLetter P s s.initState k km.material 0
            { version := s.env.version, suiteID := s.env.suiteID, nonce := nonce, keys := km.keys } data = x at h
          obtain ⟨st, r⟩ := x
          cases r with
          | error e => cases h
          | ok l0 =>
            simp only at h
            have hcl := (encryptLetter_clean (P := P) (clean_init s) k km.material 0
              { version := s.env.version, suiteID := s.env.suiteID, nonce := nonce, keys := km.keys } data).1
            rw [he] at hcl
            unfold encryptLetter at he
            split at he
            · cases he
            · rename_i tools hset
              obtain ⟨_, he⟩ := Prod.mk.inj he
              simp only [protect, bind_ok_iff] at he
              obtain ⟨d1, _, d2, _, mac, hmac, he⟩ := he
              cases he
              obtain ⟨sigs, rfl, _⟩ := signLetter_ok hP hcl.fed rfl h
              refine ⟨k, km, rfl, hm, rfl, ?_⟩
              have had : ∀ l : Letter, s.adOf l = l.compileAD := fun l => by unfold Session.adOf; rw [hnd]; rfl
              have ha := ready_all2 (p := fun t => decide (t.info.purpose = .mac))
                (setupTools_keys s.stateful 0 s.initState.tools tools (clean_init s).len hset)
              rw [had] at hmac
              obtain ⟨m, e1, e2⟩ := runMACs_parts (s := s) ha hmac
              rw [List.nil_append] at e1
              rw [hqm, e1]
              exact e2
        · cases h

theorem macParts_inj {P : Prims} {k : ToolInst} {nonce : Bytes} {material : List Bytes} {size : ToolInst → Nat} {msg msg' mac : Bytes}
    {t : ToolInst} (hinj : ∀ key key', P.mac t.info.name t.hashName key msg = mac → P.mac t.info.name t.hashName key' msg' = mac → msg = msg')
    (h : MacParts P k nonce material size msg [t] mac) {k' : ToolInst} {nonce' : Bytes} {material' : List Bytes} {size' : ToolInst → Nat}
    (h' : MacParts P k' nonce' material' size' msg' [t] mac) : msg = msg' := by
  cases h with
  | cons _ h =>
    cases h
    rw [List.append_nil] at h' hinj
    generalize hx : P.mac t.info.name t.hashName _ msg = x at h' hinj
    cases h' with
    | cons _ h' =>
      cases h'
      rw [List.append_nil] at hx hinj
      exact hinj _ _ hx rfl

/-- C60, part three, if one of the letters has at most 16 key seals. Two letters that open with a suite with one MAC tool and have the same MAC, while the messages
of these two letters (data followed by associated data) do not collide under the MAC: they have the same data and the same version, suite, nonce and key seals if their data is equally long.
(Missing: without that condition bytes could move between the data and the rest, see `mac_boundary_collision`.) -/
theorem mac_binds_partial (P : Prims) (cfg : Config) (w : World) (reg : List Suite) (reqs : Option Requirements) (l l' : Letter) (d d' : Bytes)
    (suite : Suite) (hsu : getSuite reg l.suiteID = some suite) (hsu' : getSuite reg l'.suiteID = some suite) (t : ToolInst)
    (ht : ∀ s : Session, s.suite = suite → OpenedBy P cfg w reg reqs l s ∨ OpenedBy P cfg w reg reqs l' s → s.queue .mac = [t])
    (hinj : ∀ key key', P.mac t.info.name t.hashName key (l.data ++ l.compileAD) = l.mac →
      P.mac t.info.name t.hashName key' (l'.data ++ l'.compileAD) = l.mac → l.data ++ l.compileAD = l'.data ++ l'.compileAD)
    (hl : l.Sized) (hl' : l'.Sized) (hk : l.keys.length ≤ 16 ∨ l'.keys.length ≤ 16)
    (h : l.open P cfg w reg reqs = .ok d) (h' : l'.open P cfg w reg reqs = .ok d') (hm : l.mac = l'.mac)
    (hlen : l.data.length = l'.data.length) :
    l.version = l'.version ∧ l.suiteID = l'.suiteID ∧ l.nonce = l'.nonce ∧ l.keys = l'.keys ∧ l.data = l'.data := by
  obtain ⟨s, ho, hs⟩ := open_checks_macs P cfg w reg reqs l d h
  obtain ⟨s', ho', hs'⟩ := open_checks_macs P cfg w reg reqs l' d' h'
  have e1 : s.suite = suite := by have := ho.suite; rw [hsu] at this; exact (Option.some.inj this).symm
  have e2 : s'.suite = suite := by have := ho'.suite; rw [hsu'] at this; exact (Option.some.inj this).symm
  have q1 := ht s e1 (Or.inl ho)
  have q2 := ht s' e2 (Or.inr ho')
  obtain ⟨k, mat, _, _, m1⟩ := hs (by rw [q1]; simp)
  obtain ⟨k', mat', _, _, m2⟩ := hs' (by rw [q2]; simp)
  rw [q1] at m1
  rw [q2, ← hm] at m2
  have hx := macParts_inj hinj m1 m2
  obtain ⟨x1, x2⟩ := List.append_inj hx hlen
  obtain ⟨c1, c2, c3, c4⟩ := ad_binds_partial l l' hl hl' hk x2
  exact ⟨c1, c2, c3, c4, x1⟩

/-- A letter whose nonce ends with the associated data of another letter. -/
def innerLetter : Letter := { version := 1, suiteID := b!"v", nonce := [7, 7], data := [5] ++ [1, 1, 2, 1, 118, 3, 11, 0, 0] }
/-- The other letter. -/
def outerLetter : Letter := { version := 1, suiteID := b!"v", nonce := [0, 0, 1, 1, 2, 1, 118, 3, 2, 7, 7], data := [5] }

/-- C60 is REFUTED for letters of different lengths: the MAC is made over the data directly followed by the associated data, so two different
letters (same version and suite, both without keys) can have the same MAC input. -/
theorem mac_boundary_collision : innerLetter ≠ outerLetter ∧ innerLetter.data ≠ outerLetter.data ∧ innerLetter.version = outerLetter.version ∧
    innerLetter.suiteID = outerLetter.suiteID ∧
    innerLetter.data ++ innerLetter.compileAD = outerLetter.data ++ outerLetter.compileAD := by decide +kernel


/-- The toy primitives with a MAC that no two messages share. -/
def macPrims : Prims := { toyPrims with mac := fun _ _ key msg => [toySum key] ++ msg }

/-- A suite with a stream cipher and two MAC tools, as `registerSuite` would accept it, and one with one MAC tool. -/
def macRegistry : List Suite :=
  [{ id := b!"two", tools := [b!"HKDF(SHA2-256)", b!"AES256-CTR", b!"HMAC(SHA2-256)", b!"POLY1305"], provides := full, securityLevel := 128, status := 1 },
   { id := b!"one", tools := [b!"HKDF(SHA2-256)", b!"AES256-CTR", b!"HMAC(SHA2-256)"], provides := full, securityLevel := 128, status := 1 }]

/-- Closes with the suites above. -/
def macClose (P : Prims) (suite data : Bytes) : Res Letter := do
  let s ← correspondence P toyConfig toyWorld macRegistry (toyEnvelope suite [b!"key"] [] [])
  (s.close P toyConfig toyRng s.initState data).2

/-- Letters with MACs are closed and opened (the hypotheses of `open_checks_macs`, `close_makes_macs`); they are not accepted without, with a
changed or with a shortened MAC, or with changed data. With unique MACs, two letters as in `mac_binds_partial` exist that are not equal. -/
theorem mac_example :
    (match macClose toyPrims b!"two" b!"hello" with
      | .ok l => decide (l.mac.length = 6) && decide (l.open toyPrims toyConfig toyWorld macRegistry none = .ok b!"hello") &&
          decide ({ l with mac := [] }.open toyPrims toyConfig toyWorld macRegistry none ≠ .ok b!"hello") &&
          decide ({ l with mac := l.mac.take 3 }.open toyPrims toyConfig toyWorld macRegistry none ≠ .ok b!"hello") &&
          decide ({ l with mac := l.mac.map (· + 1) }.open toyPrims toyConfig toyWorld macRegistry none ≠ .ok b!"hello") &&
          decide ({ l with data := [] }.open toyPrims toyConfig toyWorld macRegistry none ≠ .ok [])
      | .error _ => false) = true ∧
    (match macClose macPrims b!"one" b!"hello" with
      | .ok l => decide (l.open macPrims toyConfig toyWorld macRegistry none = .ok b!"hello") &&
          decide ({ l with applyKeys := true } ≠ l) &&
          decide ({ l with applyKeys := true }.open macPrims toyConfig toyWorld macRegistry none = .ok b!"hello")
      | .error _ => false) = true := by decide +kernel

/-- No two messages have the same MAC under `macPrims`. -/
theorem macPrims_inj (tool hash key key' x y : Bytes) (h : macPrims.mac tool hash key x = macPrims.mac tool hash key' y) : x = y := by
  change [toySum key] ++ x = [toySum key'] ++ y at h
  simp at h
  exact h.2

end Jess
