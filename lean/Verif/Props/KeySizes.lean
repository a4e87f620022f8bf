import Verif.Props.Levels
import Verif.Props.Mac
import Verif.Props.Tamper
import Verif.Props.CloseOpen
import Verif.Props.Nonce

/-!
# C76: key sizes, and letters between users with different settings
-/

namespace Jess

open Requirements

/-! ## The key size of a session -/

theorem fold_max (is : List ToolInst) : ∀ k0 : Nat,
    k0 ≤ is.foldl (fun k i => if i.info.keySize > k then i.info.keySize else k) k0 ∧
    (∀ i ∈ is, i.info.keySize ≤ is.foldl (fun k i => if i.info.keySize > k then i.info.keySize else k) k0) ∧
    (is.foldl (fun k i => if i.info.keySize > k then i.info.keySize else k) k0 = k0 ∨
      ∃ i ∈ is, is.foldl (fun k i => if i.info.keySize > k then i.info.keySize else k) k0 = i.info.keySize) := by
  induction is with
  | nil => intro k0; simp
  | cons i is ih =>
    intro k0
    simp only [List.foldl_cons]
    obtain ⟨h1, h2, h3⟩ := ih (if i.info.keySize > k0 then i.info.keySize else k0)
    refine ⟨?_, ?_, ?_⟩
    · refine Nat.le_trans ?_ h1; split <;> omega
    · intro j hj
      rcases List.mem_cons.mp hj with rfl | hj
      · refine Nat.le_trans ?_ h1; split <;> omega
      · exact h2 j hj
    · rcases h3 with h | ⟨j, hj, h⟩
      · by_cases hgt : i.info.keySize > k0
        · right; exact ⟨i, by simp, by rw [h]; simp [hgt]⟩
        · left; rw [h]; simp [hgt]
      · right; exact ⟨j, by simp [hj], h⟩

/-- The key size that a session has to have (specification): the largest of the key sizes that its tools declare and of what was set globally. -/
structure IsKeySize (cfg : Config) (ts : List ToolInst) (n : Nat) : Prop where
  global : cfg.minKeySize ≤ n
  tools : ∀ t ∈ ts, t.info.keySize ≤ n
  attained : n = cfg.minKeySize ∨ ∃ t ∈ ts, n = t.info.keySize

/-- C76. The key size of every session is the largest key size of its tools, or what was set with `SetDefaultKeySize` if that is more. -/
theorem session_key_size (P : Prims) (cfg : Config) (e : Envelope) (s : Session) (h : newSession P cfg e = .ok s) :
    IsKeySize cfg s.insts s.keySize ∧ ((∃ t ∈ s.insts, t.info.purpose = .passDerivation) → 0 < s.keySize) := by
  obtain ⟨suite, is, lv, _, _, _, _, hm, _, _, _, _, hs, _, hz, _⟩ := (newSession_ok_iff P cfg e s).mp h
  have hins : s.insts = is := by rw [hs]; rfl
  obtain ⟨_, g2, g3⟩ := fold_max is 0
  have hk : s.keySize = (let k := is.foldl (fun k i => if i.info.keySize > k then i.info.keySize else k) 0
      if cfg.minKeySize > 0 ∧ cfg.minKeySize > k then cfg.minKeySize else k) := by rw [hs]; rfl
  have htab : ∀ t ∈ toolTable, t.purpose = .passDerivation → t.needsDefaultKeySize = true := by decide
  rw [hins]
  refine ⟨?_, ?_⟩
  · generalize is.foldl (fun k i => if i.info.keySize > k then i.info.keySize else k) 0 = K at *
    simp only at hk
    constructor
    · rw [hk]; split <;> omega
    · intro t ht
      have := g2 t ht
      rw [hk]; split <;> omega
    · rw [hk]
      split
      · exact .inl rfl
      · rename_i hn
        rcases g3 with h0 | h0
        · left; omega
        · exact .inr h0
  · rintro ⟨t, ht, hp⟩
    obtain ⟨tid, _, hmk⟩ := inst_tool h (by rw [hins]; exact ht)
    exact Nat.pos_of_ne_zero (hz ⟨t, ht, htab t.info (makeInst_spec hmk).2.1 hp⟩)

/-- Two sizes with the same specification are the same. -/
theorem isKeySize_unique {cfg : Config} {ts : List ToolInst} {n m : Nat} (h : IsKeySize cfg ts n) (h' : IsKeySize cfg ts m) : n = m := by
  have key : ∀ {n m : Nat}, IsKeySize cfg ts n → IsKeySize cfg ts m → n ≤ m := by
    intro n m h h'
    rcases h.attained with h1 | ⟨t, ht, h1⟩
    · rw [h1]; exact h'.global
    · rw [h1]; exact h'.tools t ht
  exact Nat.le_antisymm (key h h') (key h' h)

/-! ## The keys of the tools -/

/-- A key derivation returns as many bytes as it is asked for (`DeriveKey` of hkdf.go, kdf.go: `io.ReadFull` into a new slice). -/
def Prims.KdfSizes (P : Prims) : Prop := ∀ tool hash nonce material off size key, P.kdf tool hash nonce material off size = .ok key → key.length = size

/-- C76. Whatever the suite: every tool that works with a derived key gets a key of the size it declares, and of the session's key size if it does not declare one. Every
cipher gets a nonce of the size it declares. -/
theorem tool_key_sizes (P : Prims) (hP : P.KdfSizes) (cfg : Config) (e : Envelope) (s : Session) (h : newSession P cfg e = .ok s)
    (k : ToolInst) (nonce : Bytes) (material : List Bytes) (off : Nat) (sts tools : List ToolState) (hl : sts.length = s.stateful.length)
    (hset : setupTools P s k nonce material off s.stateful sts = (tools, .ok ())) :
    All2 (fun t st => (0 < t.info.keySize → st.key.length = t.info.keySize) ∧ (t.info.keySize = 0 → st.key.length = s.keySize) ∧
      (t.info.purpose = .cipher ∨ t.info.purpose = .integratedCipher → 0 < st.nonce.length ∧ st.nonce.length = t.info.nonceSize)) s.stateful tools := by
  have htab : ∀ t ∈ toolTable, t.purpose = .cipher ∨ t.purpose = .integratedCipher → 0 < t.nonceSize := by decide
  have hmem : ∀ t ∈ s.stateful, t.info ∈ toolTable := by
    intro t ht
    obtain ⟨tid, _, hmk⟩ := inst_tool h (List.mem_filter.mp ht).1
    exact (makeInst_spec hmk).2.1
  generalize s.stateful = ts at *
  induction ts generalizing off sts tools with
  | nil =>
    cases sts with
    | nil => simp [setupTools] at hset; subst hset; exact .nil
    | cons _ _ => cases hl
  | cons t ts ih =>
    cases sts with
    | nil => cases hl
    | cons o os =>
      rw [setupTools] at hset
      cases hs : setupTool P s k nonce material off t o with
      | error e => rw [hs] at hset; cases hset
      | ok x =>
        obtain ⟨st, off'⟩ := x
        rw [hs] at hset
        simp only at hset
        obtain ⟨h1, h2⟩ := Prod.mk.inj hset
        subst h1
        refine .cons ?_ (ih off' os _ (by simpa using hl) (by rw [← h2]) (fun t ht => hmem t (by simp [ht])))
        unfold setupTool at hs
        split at hs
        · cases hs
        · rename_i key hk
          split at hs
          · cases hs
          · rename_i n off2 hn
            cases hs
            have hlen := hP _ _ _ _ _ _ _ hk
            refine ⟨?_, ?_, ?_⟩
            · intro hp; rw [hlen]; exact if_pos hp
            · intro hp; simp [hlen, Session.toolKeySize, hp]
            · intro hp
              have hw : t.wantsNonce = true := by unfold ToolInst.wantsNonce; rcases hp with hp | hp <;> rw [hp] <;> decide
              have hpos := htab t.info (hmem t (by simp)) hp
              unfold setupNonce at hn
              rw [hw] at hn
              simp only [if_true] at hn
              split at hn
              · cases hn
              · rename_i n' hk'
                cases hn
                have hlen' := hP _ _ _ _ _ _ _ hk'
                have e : n.length = t.info.nonceSize := by rw [hlen']; exact if_pos hpos
                exact ⟨by rw [e]; exact hpos, e⟩

/-- C76. Whatever the suite: the key derived from a password has the key size of the session, which is not zero. -/
theorem password_key_size (P : Prims) (cfg : Config) (e : Envelope) (s : Session) (h : newSession P cfg e = .ok s) (nonce : Bytes) (k : Signet) (m : Bytes)
    (hm : passKey P cfg s nonce k = .ok m) :
    ∃ t ∈ s.insts, t.info.purpose = .passDerivation ∧ P.passKdf t.info.name k.key nonce s.keySize = .ok m ∧ 0 < s.keySize := by
  unfold passKey at hm
  split at hm
  · cases hm
  · split at hm
    · cases hm
    · rename_i t ht
      have htm := mem_queue.mp (List.mem_of_mem_head? ht)
      have hpos := (session_key_size P cfg e s h).2 ⟨t, htm⟩
      refine ⟨t, htm.1, htm.2, ?_, hpos⟩
      have : s.helperKeySize cfg = s.keySize := if_pos hpos
      rw [← this]; exact hm

/-- C76. Whatever the suite: a key that is made to be encapsulated has the key size of the session, or the global default if no tool has a key size. -/
theorem encapsulated_key_size (P : Prims) (cfg : Config) (rng : Rng) (s : Session) (ctr : Nat) (t : ToolInst) (rcpt : Signet) (key : Bytes) (sl : Seal)
    (h : keOffer P cfg rng s ctr t rcpt = .ok (key, sl)) :
    (0 < s.keySize → key.length = s.keySize) ∧ (s.keySize = 0 → key.length = cfg.defaultKeySize) ∧ rng.read ctr key.length = .ok key := by
  simp only [keOffer, bind_ok_iff] at h
  obtain ⟨k, h1, wr, _, h2⟩ := h
  cases h2
  obtain ⟨g1, g2⟩ := randomBytes_ok h1
  refine ⟨fun hp => by rw [g2]; exact if_pos hp, fun h0 => by rw [g2]; exact if_neg (by omega), by rw [g2]; exact g1⟩

/-! ## Other settings -/

/-- The session with other settings. -/
def Session.under (s : Session) (level : Int) (keySize : Nat) : Session := { s with level := level, keySize := keySize }

/-- An envelope that is accepted is accepted under all settings that do not demand more, and the sessions only differ in level and key size. -/
theorem session_settings {P : Prims} {cfg cfg' : Config} {e : Envelope} {s : Session} (hpw : cfg'.pwLevel = cfg.pwLevel)
    (hD : demandedLevel cfg' e.securityLevel ≤ demandedLevel cfg e.securityLevel)
    (hk : (∃ t ∈ s.insts, t.info.needsDefaultKeySize = true) → cfg.minKeySize ≤ cfg'.minKeySize ∨ ∃ t ∈ s.insts, 0 < t.info.keySize) (h : newSession P cfg e = .ok s) :
    ∃ level keySize, newSession P cfg' e = .ok (s.under level keySize) := by
  obtain ⟨suite, is, lv, h1, he, hsu, hc, hm, ha, hb, hall, hne, hs, hq, hz, hf⟩ := (newSession_ok_iff P cfg e s).mp h
  have hins : s.insts = is := by rw [hs]; rfl
  obtain ⟨hpos, hin⟩ := levels_pos h lv hm hins hall hne
  have hcalc : ∀ t k, calcLevel P cfg' t k = calcLevel P cfg t k := by
    intro t k; simp only [calcLevel, hpw]
  let lv' : LevelLists P cfg' e is :=
    { tools := lv.tools, signets := lv.signets, keys := lv.keys,
      htools := by simp only [hcalc]; exact lv.htools,
      hsignets := by simp only [hcalc]; exact lv.hsignets,
      hkeys := by simp only [hcalc]; exact lv.hkeys }
  have hsl : ∀ c ∈ lv'.all, LevelOK cfg' e.securityLevel c := by
    intro c hc
    rcases hall c hc with h | ⟨h, h2⟩
    · exact Or.inl h
    · exact Or.inr ⟨h, by omega⟩
  have hlev : demandedLevel cfg' e.securityLevel ≤ (levelsOf lv.all).level := by
    rcases hall _ hin with h | ⟨_, h2⟩ <;> omega
  have hsame : mkSession cfg' e suite is lv'.all =
      s.under (mkSession cfg' e suite is lv'.all).level (mkSession cfg' e suite is lv'.all).keySize := by rw [hs]; rfl
  refine ⟨(mkSession cfg' e suite is lv'.all).level, (mkSession cfg' e suite is lv'.all).keySize, ?_⟩
  rw [← hsame]
  rw [newSession_ok_iff]
  refine ⟨suite, is, lv', h1, fun h0 => Int.le_trans hD (he h0), Int.le_trans hD hsu, hc, hm, ha, hb, hsl, hne, rfl, ?_, ?_, ?_⟩
  · intro _
    simp only [mkSession]
    have : (levelsOf lv'.all).level = (levelsOf lv.all).level := rfl
    rw [this]
    split <;> omega
  · intro hx
    have h0 := hz hx
    rw [hs] at h0
    have g2 := (fold_max is 0).2.1
    simp only [mkSession] at h0 ⊢
    generalize is.foldl (fun k i => if i.info.keySize > k then i.info.keySize else k) 0 = K at *
    rcases hk (by rw [hins]; exact hx) with hk | ⟨t, ht, hk⟩
    · split at h0 <;> split <;> omega
    · have := g2 t (by rw [← hins]; exact ht)
      split <;> omega
  · rw [finalChecks_ok_iff] at hf ⊢
    obtain ⟨f1, f2, f3, f4, f5, f6, f7, f8, f9⟩ := hf
    rw [hs] at f1 f2 f3 f4 f5 f6 f7 f8
    refine ⟨f1, f2, f3, f4, f5, f6, f7, f8, ?_⟩
    simp only [mkSession]
    have : (levelsOf lv'.all).level = (levelsOf lv.all).level := rfl
    rw [this]
    split <;> omega

theorem setupTools_under {P : Prims} {s : Session} {level : Int} {ks : Nat} {k : ToolInst} {nonce : Bytes} {mat : List Bytes} :
    ∀ (ts : List ToolInst) (off : Nat) (os : List ToolState),
      (∀ t ∈ ts, 0 < t.info.keySize ∧ (t.wantsNonce = true → 0 < t.info.nonceSize)) →
      setupTools P (s.under level ks) k nonce mat off ts os = setupTools P s k nonce mat off ts os
  | [], _, _, _ => by simp [setupTools]
  | _ :: _, _, [], _ => by simp [setupTools]
  | t :: ts, off, o :: os, h => by
    obtain ⟨h1, h2⟩ := h t (by simp)
    have e1 : setupTool P (s.under level ks) k nonce mat off t o = setupTool P s k nonce mat off t o := by
      have hk : (s.under level ks).toolKeySize t = s.toolKeySize t := by simp [Session.toolKeySize, h1]
      have hn : setupNonce P (s.under level ks) k nonce mat (off + s.toolKeySize t) t = setupNonce P s k nonce mat (off + s.toolKeySize t) t := by
        unfold setupNonce
        split
        · rename_i hw
          have : (s.under level ks).toolNonceSize t = s.toolNonceSize t := by simp [Session.toolNonceSize, h2 hw]
          rw [this]
        · rfl
      unfold setupTool
      rw [hk, hn]
    simp only [setupTools, e1]
    split
    · rfl
    · rename_i st off' _
      rw [setupTools_under ts off' os fun t ht => h t (by simp [ht])]

theorem open_under {P : Prims} {cfg cfg' : Config} {s : Session} {level : Int} {ks : Nat} (st : SState) (l : Letter)
    (hst : ∀ t ∈ s.stateful, 0 < t.info.keySize ∧ (t.wantsNonce = true → 0 < t.info.nonceSize))
    (hpw : s.passDerivator = none ∨ (s.under level ks).helperKeySize cfg' = s.helperKeySize cfg) :
    (s.under level ks).open P cfg' st l = s.open P cfg st l := by
  have hpk : ∀ k, passKey P cfg' (s.under level ks) l.nonce k = passKey P cfg s l.nonce k := by
    intro k
    unfold passKey
    have hd : (s.under level ks).passDerivator = s.passDerivator := rfl
    rw [hd]
    rcases hpw with h | h
    · rw [h]
    · rw [h]
  have hop : openPw P cfg' (s.under level ks) l.nonce = openPw P cfg s l.nonce := by
    funext om k
    unfold openPw
    rw [hpk]
  have hso : setupOpening P cfg' (s.under level ks) l = setupOpening P cfg s l := by
    unfold setupOpening
    rw [hop]
    rfl
  have hdec : ∀ st k m, decryptLetter P (s.under level ks) st k m 0 l = decryptLetter P s st k m 0 l := by
    intro st k m
    unfold decryptLetter
    have : (s.under level ks).stateful = s.stateful := rfl
    rw [this, setupTools_under s.stateful 0 st.tools hst]
    rfl
  unfold Session.open
  rw [hso]
  simp only [hdec]
  rfl

theorem registered_sizes : ∀ su ∈ suiteRegistry,
    (∀ t ∈ instsOf su, t.info.hasState = true → 0 < t.info.keySize ∧ (t.wantsNonce = true → 0 < t.info.nonceSize)) ∧
    (∀ t ∈ instsOf su, t.info.keySize ≤ 32) ∧
    (Confidentiality ∈ su.provides → ∃ t ∈ instsOf su, t.info.keySize = 32) ∧
    (su.id ≠ b!"pw_v1" → su.id ≠ b!"pw_v2" → ∀ t ∈ instsOf su, t.info.purpose ≠ .passDerivation) ∧
    (∀ t ∈ instsOf su, t.info.purpose = .passDerivation ∨ t.info.needsDefaultKeySize = true →
      t.info.name = b!"SCRYPT-20" ∧ Confidentiality ∈ su.provides ∧ ∀ u ∈ instsOf su, u.info.purpose ≠ .keyExchange ∧ u.info.purpose ≠ .keyEncapsulation) := by
  have h1 : ∀ su ∈ suiteRegistry, ∀ t ∈ instsOf su, t.info.hasState = true → 0 < t.info.keySize ∧ (t.wantsNonce = true → 0 < t.info.nonceSize) := by decide +kernel
  have h2 : ∀ su ∈ suiteRegistry, ∀ t ∈ instsOf su, t.info.keySize ≤ 32 := by decide +kernel
  have h3 : ∀ su ∈ suiteRegistry, Confidentiality ∈ su.provides → ∃ t ∈ instsOf su, t.info.keySize = 32 := by decide +kernel
  have h4 : ∀ su ∈ suiteRegistry, su.id ≠ b!"pw_v1" → su.id ≠ b!"pw_v2" → ∀ t ∈ instsOf su, t.info.purpose ≠ .passDerivation := by decide +kernel
  have h5 : ∀ su ∈ suiteRegistry, ∀ t ∈ instsOf su, t.info.purpose = .passDerivation ∨ t.info.needsDefaultKeySize = true →
      t.info.name = b!"SCRYPT-20" ∧ Confidentiality ∈ su.provides ∧ ∀ u ∈ instsOf su, u.info.purpose ≠ .keyExchange ∧ u.info.purpose ≠ .keyEncapsulation := by decide +kernel
  exact fun su hsu => ⟨h1 su hsu, h2 su hsu, h3 su hsu, h4 su hsu, h5 su hsu⟩

/-- C76. The key size of every session for a suite of the library that encrypts is 32 bytes, or what was set globally if that is more: never less than the 256 bits of its
cipher. -/
theorem registered_key_size (P : Prims) (cfg : Config) (e : Envelope) (s : Session) (h : newSession P cfg e = .ok s)
    (hr : s.suite ∈ suiteRegistry) (hc : Confidentiality ∈ s.suite.provides) : s.keySize = max 32 cfg.minKeySize := by
  obtain ⟨_, r2, r3, _⟩ := registered_sizes s.suite hr
  have hi := session_insts h
  have hk := (session_key_size P cfg e s h).1
  rw [hi] at hk
  refine isKeySize_unique hk ⟨Nat.le_max_right _ _, fun t ht => Nat.le_trans (r2 t ht) (Nat.le_max_left _ _), ?_⟩
  obtain ⟨t, ht, h32⟩ := r3 hc
  by_cases hm : cfg.minKeySize ≤ 32
  · right; exact ⟨t, ht, by omega⟩
  · left; omega

/-- C76. A letter closed with passwords: the material for the cipher's key is made of the shared keys, and of a key of 32 bytes (or of the size that was set globally, if that is
more) from each password with the salt of the letter. -/
theorem close_password_keys (P : Prims) (cfg : Config) (rng : Rng) (s : Session) (hs : newSession P cfg s.env = .ok s)
    (hr : s.suite ∈ suiteRegistry) (hp : ∃ t ∈ s.insts, t.info.purpose = .passDerivation) (data : Bytes) (l : Letter)
    (h : (s.close P cfg rng s.initState data).2 = .ok l) :
    ∃ pws key nonce, All2 (fun k m => k.key ≠ [] ∧ P.passKdf b!"SCRYPT-20" k.key l.nonce (max 32 cfg.minKeySize) = .ok m) (ofScheme s.env.secrets schemePassword) pws ∧
      CipherKey P s l ((ofScheme s.env.secrets schemeKey).map (·.key) ++ pws) key nonce ∧
      P.aeadSeal b!"CHACHA20-POLY1305" key nonce l.compileAD data = .ok l.data := by
  obtain ⟨t, ht, hp⟩ := hp
  have hi := session_insts hs
  have hreg := registered_sizes s.suite hr
  obtain ⟨_, hc, hno⟩ := hreg.2.2.2.2 t (by rw [← hi]; exact ht) (.inl hp)
  rw [← hi] at hno
  obtain ⟨material, key, n, hck, hseal, _, _, _, _, km, hkm, rfl, _⟩ := close_authenticates P cfg rng s hs hr hc data l h
  obtain ⟨_, hone⟩ := registered_session hs hr
  rw [setupClosing_eq P cfg rng s l.nonce (hone _ (by simp)) (hone _ (by simp))] at hkm
  simp only [closingMaterial, bind_ok_iff] at hkm
  obtain ⟨pws, g1, kxs, g2, kes, g3, g4⟩ := hkm
  have q1 : s.queue .keyExchange = [] := by
    unfold Session.queue; rw [List.filter_eq_nil_iff]; intro u hu; simp [(hno u hu).1]
  have q2 : s.queue .keyEncapsulation = [] := by
    unfold Session.queue; rw [List.filter_eq_nil_iff]; intro u hu; simp [(hno u hu).2]
  have e1 : s.pairs .keyExchange = [] := by unfold Session.pairs; rw [q1]; rfl
  have e2 : s.pairs .keyEncapsulation = [] := by unfold Session.pairs; rw [q2]; rfl
  rw [e1] at g2 g3
  rw [e2] at g3
  cases g2
  cases g3
  cases g4
  refine ⟨pws, key, n, ?_, ?_, hseal⟩
  · refine (collectFrom_const.mp g1).mono fun k m hk => ?_
    unfold passKey at hk
    split at hk
    · cases hk
    · rename_i hne
      split at hk
      · cases hk
      · rename_i u hu
        have hum := List.mem_of_mem_head? hu
        have hname := (hreg.2.2.2.2 u (by rw [← hi]; exact (mem_queue.mp hum).1) (.inl (mem_queue.mp hum).2)).1
        have hks : s.helperKeySize cfg = max 32 cfg.minKeySize := by
          have h0 := registered_key_size P cfg s.env s hs hr hc
          unfold Session.helperKeySize
          rw [if_pos (show s.keySize > 0 by rw [h0]; omega), h0]
        rw [hname, hks] at hk
        exact ⟨fun h0 => hne (by simp [h0]), hk⟩
  · simpa using hck

/-- C76, the strongest true part. Between users with different settings: a letter that opens for someone opens, with the same data, for everyone with the same signets who does not
demand more security, if it does not use passwords (that is, its suite is not one of the two password suites), or if the key sizes that were set are the same or at most 32. -/
theorem open_other_settings_partial (P : Prims) (cfg cfg' : Config) (hpw : cfg'.pwLevel = cfg.pwLevel) (hD : demandedLevel cfg' 0 ≤ demandedLevel cfg 0)
    (w : World) (reqs : Option Requirements) (l : Letter)
    (hk : (l.suiteID ≠ b!"pw_v1" ∧ l.suiteID ≠ b!"pw_v2") ∨ max 32 cfg'.minKeySize = max 32 cfg.minKeySize)
    (d : Bytes) (h : l.open P cfg w suiteRegistry reqs = .ok d) : l.open P cfg' w suiteRegistry reqs = .ok d := by
  simp only [Letter.open, bind_ok_iff] at h ⊢
  obtain ⟨e, he, s, hs, ho⟩ := h
  have hob := openedBy_iff he hs
  obtain ⟨hr, hid⟩ := getSuite_sound _ _ _ hob.suite
  obtain ⟨r1, r2, r3, r4, r5⟩ := registered_sizes s.suite hr
  have hi := session_insts hob.session
  have hks : (∃ t ∈ s.insts, t.info.needsDefaultKeySize = true) → cfg.minKeySize ≤ cfg'.minKeySize ∨ ∃ t ∈ s.insts, 0 < t.info.keySize := by
    rintro ⟨t, ht, hn⟩
    rw [hi] at ht ⊢
    obtain ⟨u, hu, h32⟩ := r3 (r5 t ht (.inr hn)).2.1
    exact .inr ⟨u, hu, by omega⟩
  obtain ⟨level, ks, hnew⟩ := session_settings (cfg' := cfg') hpw (by rw [hob.envLevel]; exact hD) hks hob.session
  refine ⟨e, he, s.under level ks, ?_, ?_⟩
  · simp only [correspondence, bind_ok_iff] at hs ⊢
    obtain ⟨a, h1, b, h2, h3⟩ := hs
    refine ⟨a, h1, b, h2, ?_⟩
    rw [(newSession_env h3).1] at hnew
    exact hnew
  · have hst : ∀ t ∈ s.stateful, 0 < t.info.keySize ∧ (t.wantsNonce = true → 0 < t.info.nonceSize) := by
      intro t ht
      obtain ⟨h1, h2⟩ := List.mem_filter.mp ht
      exact r1 t (by rw [← hi]; exact h1) h2
    have hpd : s.passDerivator = none ∨ (s.under level ks).helperKeySize cfg' = s.helperKeySize cfg := by
      cases hd : s.passDerivator with
      | none => exact .inl rfl
      | some t =>
        right
        have htm := mem_queue.mp (List.mem_of_mem_head? hd)
        have hti : t ∈ instsOf s.suite := by rw [← hi]; exact htm.1
        have hc := (r5 t hti (.inl htm.2)).2.1
        have k1 := registered_key_size P cfg _ s hob.session hr hc
        have k2 := registered_key_size P cfg' _ (s.under level ks) hnew hr hc
        rcases hk with ⟨a, b⟩ | hk
        · exact absurd htm.2 (r4 (by rw [hid]; exact a) (by rw [hid]; exact b) t hti)
        · unfold Session.helperKeySize
          rw [if_pos (show (s.under level ks).keySize > 0 by rw [k2]; omega), if_pos (show s.keySize > 0 by rw [k1]; omega), k1, k2, hk]
    have := open_under (P := P) (cfg := cfg) (cfg' := cfg') (s := s) (level := level) (ks := ks) s.initState l hst hpd
    exact (congrArg Prod.snd this).trans ho

/-- C76. From closing to opening: what is closed under one setting is opened under another one. -/
theorem close_open_settings_partial (P : Prims) (pair : Bytes → Bytes → Bytes → Prop) (hP : P.Correct pair) (cfg cfg' : Config)
    (hpw : cfg'.pwLevel = cfg.pwLevel) (hD : demandedLevel cfg' 0 ≤ demandedLevel cfg 0)
    (wc wo : World) (rng : Rng) (e : Envelope) (hes : e.suite = none) (hev : e.version = 1)
    (s : Session) (hs : correspondence P cfg wc suiteRegistry e = .ok s)
    (hlev : demandedLevel cfg 0 ≤ demandedLevel cfg e.securityLevel)
    (hids : (∀ k ∈ s.env.secrets, k.id ≠ []) ∧ (∀ k ∈ s.env.senders, k.id ≠ []) ∧ (∀ k ∈ s.env.recipients, k.id ≠ []))
    (hmix : (∀ k ∈ s.env.secrets, k.scheme ≠ schemeKey) ∨ (∀ k ∈ s.env.secrets, k.scheme ≠ schemePassword))
    (hcp : Counterparts P pair wo s) (reqs : Option Requirements) (hreq : ∀ a ∈ reqs.getD full, a ∈ s.suite.provides)
    (data : Bytes) (l : Letter) (hc : (s.close P cfg rng s.initState data).2 = .ok l)
    (hk : (l.suiteID ≠ b!"pw_v1" ∧ l.suiteID ≠ b!"pw_v2") ∨ max 32 cfg'.minKeySize = max 32 cfg.minKeySize) :
    l.open P cfg' wo suiteRegistry reqs = .ok data :=
  open_other_settings_partial P cfg cfg' hpw hD wo reqs l hk data
    (close_open_roundtrip_partial P pair hP cfg wc wo rng e hes hev s hs hlev hids hmix hcp reqs hreq data l hc)

/-! ## Refuted, and examples -/

/-- Closes a letter under one setting and opens it under another one. -/
def closeAndOpen (cfg cfg' : Config) (e : Envelope) (data : Bytes) : Res Bytes := do
  let s ← correspondence toyPrims cfg toyWorld suiteRegistry e
  let l ← (s.close toyPrims cfg toyRng s.initState data).2
  l.open toyPrims cfg' toyWorld suiteRegistry none

/-- C76 refuted: `SetDefaultKeySize` (or `--symkeysize`) is documented as a fallback for when no key size is known. But it raises the key size of every session, and with it the
size of the keys derived from passwords, which is not part of the letter: a letter that was closed with a password after `SetDefaultKeySize(64)` is not opened by someone with
the same password and the default settings, and the other way round. -/
theorem key_size_refuted :
    let other := toyConfig.setDefaultKeySize 64
    closeAndOpen other toyConfig (toyEnvelope b!"pw_v2" [b!"pw"] [] []) b!"hello" = .error .integrity ∧
    closeAndOpen toyConfig other (toyEnvelope b!"pw_v2" [b!"pw"] [] []) b!"hello" = .error .integrity ∧
    (∃ s, correspondence toyPrims other toyWorld suiteRegistry (toyEnvelope b!"pw_v2" [b!"pw"] [] []) = .ok s ∧ s.keySize = 64 ∧
      chacha ∈ s.insts ∧ chacha.info.keySize = 32) := by
  refine ⟨by decide +kernel, by decide +kernel, ?_⟩
  have : (match correspondence toyPrims (toyConfig.setDefaultKeySize 64) toyWorld suiteRegistry (toyEnvelope b!"pw_v2" [b!"pw"] [] []) with
    | .ok s => decide (s.keySize = 64 ∧ chacha ∈ s.insts)
    | .error _ => false) = true := by decide +kernel
  split at this
  · rename_i s hs
    have := of_decide_eq_true this
    exact ⟨s, hs, this.1, this.2, rfl⟩
  · cases this

/-- The hypotheses are met: with sizes up to 32 passwords work, and without passwords any size does. -/
theorem key_size_example :
    closeAndOpen toyConfig toyConfig (toyEnvelope b!"pw_v2" [b!"pw"] [] []) b!"hello" = .ok b!"hello" ∧
    closeAndOpen (toyConfig.setDefaultKeySize 24) toyConfig (toyEnvelope b!"pw_v2" [b!"pw"] [] []) b!"hello" = .ok b!"hello" ∧
    closeAndOpen (toyConfig.setDefaultKeySize 64) (toyConfig.setDefaultKeySize 64) (toyEnvelope b!"pw_v2" [b!"pw"] [] []) b!"hello" = .ok b!"hello" ∧
    closeAndOpen (toyConfig.setDefaultKeySize 64) toyConfig (toyEnvelope b!"v2" [] [b!"alice"] [b!"bob"]) b!"hello" = .ok b!"hello" ∧
    closeAndOpen (toyConfig.setDefaultKeySize 64) toyConfig (toyEnvelope b!"key_v2" [b!"key"] [] []) b!"hello" = .ok b!"hello" ∧
    toyPrims.KdfSizes := by
  refine ⟨by decide +kernel, by decide +kernel, by decide +kernel, by decide +kernel, by decide +kernel, ?_⟩
  intro tool hash nonce material off size key h
  cases h
  cases size <;> simp [toyBytes]

end Jess
