import Verif.Model.Check
import Verif.Props.LibraryKeys
import Verif.Props.Reset
import Verif.Props.Prepare
import Verif.Props.WireMemoryRun

/-!
# C118: an envelope that passes the check can be used
-/

namespace Jess

open Requirements

/-- The algorithms do their work (specification): key derivation yields at least 8160 bytes, of the size that was asked for; passwords give keys; key
pairs for key exchange can be made and exported, and shared keys are not empty; the cipher encrypts what is not longer than it can encrypt. -/
structure Prims.Work (P : Prims) : Prop where
  kdf : P.KdfUpTo 8160
  kdfSize : P.KdfSized
  pass : ∀ t ∈ toolTable, t.purpose = .passDerivation → ∀ pw salt n, pw ≠ [] → 0 < n → ∃ k, P.passKdf t.name pw salt n = .ok k ∧ k ≠ []
  gen : ∀ t ∈ toolTable, t.purpose = .keyExchange → ∀ seed, ∃ pub priv k, P.genKey t.name seed = .ok (pub, priv) ∧ P.storeKey t.name pub none = .ok k
  dh : ∀ t ∈ toolTable, t.purpose = .keyExchange → ∀ priv pub, P.dh t.name priv pub ≠ []
  aead : ∀ key nonce ad data, key.length = 32 → nonce.length = 12 → data.length ≤ 2 ^ 38 - 64 →
    ∃ c, P.aeadSeal b!"CHACHA20-POLY1305" key nonce ad data = .ok c

/-- The source of random numbers delivers (specification). -/
def Rng.Delivers (rng : Rng) : Prop := ∀ i n, ∃ b, rng.read i n = .ok b ∧ b.length = n

/-- The private keys of the senders sign (specification). -/
def SendersSign (P : Prims) (e : Envelope) : Prop :=
  ∀ k ∈ e.senders, ∀ priv, k.loadedPriv = some priv → ∀ hash digest seed, ∃ sig, P.sign k.scheme hash priv digest seed = .ok sig

/-- What else it takes to close a letter with an envelope (specification): its passwords are not empty, its first raw key is not empty, and its senders
have private keys. -/
structure CanClose (e : Envelope) : Prop where
  passwords : ∀ k ∈ e.secrets, k.scheme = schemePassword → k.key ≠ []
  firstKey : ∀ k, (e.secrets.filter (fun k => k.scheme == schemeKey)).head? = some k → k.key ≠ []
  senders : ∀ k ∈ e.senders, k.loadedPriv ≠ none

theorem collectFrom_total {α β : Type} {g : Nat → α → Res β} : ∀ (xs : List α) (i : Nat), (∀ x ∈ xs, ∀ i, ∃ y, g i x = .ok y) →
    ∃ ys, collectFrom g i xs = .ok ys
  | [], _, _ => ⟨[], rfl⟩
  | x :: xs, i, h => by
    obtain ⟨y, hy⟩ := h x (by simp) i
    obtain ⟨ys, hys⟩ := collectFrom_total xs (i + 1) (fun z hz => h z (by simp [hz]))
    exact ⟨y :: ys, by simp [collectFrom, hy, hys]⟩

theorem registry_named : ∀ su ∈ suiteRegistry, ∀ t ∈ instsOf su, getTool t.info.name = some t.info ∧ t.info ∈ toolTable ∧ t.info.name ≠ [] ∧
    t.info.isRSA = false ∧ t.info.name ≠ schemeKey ∧ t.info.name ≠ schemePassword := by decide +kernel

/-- What `PrepareSignets` leaves is loaded, unless it is a raw key or a password. -/
theorem prepared_loaded {P : Prims} {w : World} (hw : w.KeepsScheme) {level : Int} {flag : Bool} {l out : List Signet}
    (h : prepSignets P w level flag l = .ok out) : ∀ o ∈ out, o.scheme ≠ schemeKey → o.scheme ≠ schemePassword → o.loadedPub.isSome = true := by
  have H : All2 (fun s o => ∃ f, prepOne P w level f s = .ok o) l out := (prepSignets_flags P w level l out flag h).mono fun _ _ hab =>
    hab.elim (fun h => ⟨_, h⟩) (fun h => ⟨_, h.1⟩)
  have one : ∀ f s o, prepOne P w level f s = .ok o → o.scheme ≠ schemeKey → o.scheme ≠ schemePassword → o.loadedPub.isSome = true := by
    intro f s o ho h1 h2
    have fin : ∀ {n : Signet}, finishPrep P n = .ok o → o.loadedPub.isSome = true := by
      intro n hn
      obtain ⟨_, hs, _, _, h5⟩ := finishPrep_spec hn
      rcases h5 with ⟨ha, _⟩ | ⟨_, _, hl⟩
      · rw [hs] at h1 h2
        exact absurd ha (fun h => h.elim h1 h2)
      · unfold Signet.load at hl
        split at hl
        · rename_i hp; cases hl; exact hp
        · split at hl
          · cases hl
          · split at hl
            · cases hl
            · split at hl
              · split at hl
                · cases hl
                · cases hl; rfl
              · cases hl
    by_cases hk : s.key = []
    · by_cases hp : s.scheme = schemePassword
      · simp only [prepOne, hk, hp, List.length_nil, if_true] at ho
        have := fillPassword_scheme hw ho
        first
          | exact absurd (this.trans hp) h2
          | exact absurd (this.1.trans hp) h2
      · obtain ⟨_, _, _, _, _, _, hf⟩ := prepOne_fetch hk hp ho
        exact fin hf
    · have : s.key.length ≠ 0 := fun h => hk (List.length_eq_zero_iff.mp h)
      simp only [prepOne, this, if_false] at ho
      exact fin ho
  clear h
  induction H with
  | nil => intro o ho; cases ho
  | cons hh _ ih =>
    intro o ho
    rcases List.mem_cons.mp ho with rfl | ho
    · obtain ⟨f, hh⟩ := hh
      exact one _ _ _ hh
    · exact ih o ho

/-- What is known about a session for an envelope of a caller. -/
structure LoadedSession (P : Prims) (cfg : Config) (s : Session) : Prop where
  made : newSession P cfg s.env = .ok s
  mem : s.suite ∈ suiteRegistry
  used : AllSignetsUsed s
  loaded : ∀ k ∈ s.env.recipients, k.loadedPub.isSome = true

theorem ready_session {P : Prims} {cfg : Config} {w : World} (hw : w.KeepsScheme) {e : Envelope} (he : e.suite = none) {s : Session}
    (h : correspondence P cfg w suiteRegistry e = .ok s) : LoadedSession P cfg s := by
  have L := library_session he h
  have U := no_signet_ignored P cfg s.env s L.made (registered_session L.made L.mem).1
  refine ⟨L.made, L.mem, U, ?_⟩
  intro k hk
  have hsch : k.scheme ≠ schemeKey ∧ k.scheme ≠ schemePassword := by
    obtain ⟨t, ht, _, hn⟩ := U.recipients k hk
    rw [session_insts L.made] at ht
    obtain ⟨_, _, _, _, h1, h2⟩ := registry_named _ L.mem t ht
    rw [← hn]; exact ⟨h1, h2⟩
  simp only [correspondence, bind_ok_iff] at h
  obtain ⟨⟨e1, su⟩, _, e2, hp, hn⟩ := h
  rw [(newSession_env hn).1] at hk
  simp only [prepareSignets, bind_ok_iff] at hp
  obtain ⟨a, _, b, _, c, hc, hx⟩ := hp
  cases hx
  exact prepared_loaded hw hc k hk hsch.1 hsch.2

section
variable {P : Prims} {cfg : Config} {s : Session} (R : LoadedSession P cfg s)
include R

theorem plain_no_secrets (hcf : Confidentiality ∉ s.suite.provides) : s.env.secrets = [] ∧ (∀ t ∈ s.insts, t.info.purpose = .signing) := by
  obtain ⟨_, hplain, _⟩ := registry_tools s.suite R.mem
  have hall := (hplain hcf).1
  rw [← session_insts R.made] at hall
  have hno : ¬ SessionHas s Confidentiality := by
    rintro (⟨t, ht, ha⟩ | ⟨_, h | h⟩)
    · rw [hall t ht] at ha; exact absurd ha (by decide)
    · exact absurd h (by decide)
    · exact absurd h (by decide)
  refine ⟨List.eq_nil_iff_forall_not_mem.mpr ?_, hall⟩
  intro k hk
  rcases R.used.secrets k hk with h | ⟨_, t, ht, hp⟩
  · exact hno ((session_no_confidentiality_without_integrity P cfg s.env s R.made).1 (.inr ⟨⟨k, hk, h⟩, .inr rfl⟩))
  · rw [hall t ht] at hp; cases hp

theorem passKey_total (W : P.Work) (hc : Confidentiality ∈ s.suite.provides) (nonce : Bytes) {k : Signet} (hk : k ∈ s.env.secrets)
    (hs : k.scheme = schemePassword) (hne : k.key ≠ []) : ∃ y, passKey P cfg s nonce k = .ok y ∧ y ≠ [] := by
  have hp : ∃ t, s.passDerivator = some t ∧ t.info ∈ toolTable ∧ t.info.purpose = .passDerivation := by
    rcases R.used.secrets k hk with h | ⟨_, t, ht, hp⟩
    · rw [hs] at h; exact absurd h (by decide)
    · have hm : t ∈ s.queue .passDerivation := mem_queue.mpr ⟨ht, hp⟩
      unfold Session.passDerivator
      cases hq : s.queue .passDerivation with
      | nil => rw [hq] at hm; cases hm
      | cons u us =>
        have hu := mem_queue.mp (show u ∈ s.queue .passDerivation by rw [hq]; simp)
        refine ⟨u, rfl, ?_, hu.2⟩
        have := hu.1
        rw [session_insts R.made] at this
        exact (registry_named _ R.mem u this).2.1
  obtain ⟨t, h1, h2, h3⟩ := hp
  have hsz : 0 < s.helperKeySize cfg := by
    have := registered_key_size P cfg s.env s R.made R.mem hc
    unfold Session.helperKeySize
    rw [if_pos (by omega)]; omega
  have hlen : ¬ k.key.length = 0 := fun h => hne (List.length_eq_zero_iff.mp h)
  unfold passKey
  rw [if_neg hlen, h1]
  exact W.pass _ h2 h3 _ _ _ hne hsz

theorem kxKey_total (W : P.Work) (rng : Rng) (i : Nat) {x : ToolInst × Signet} (hx : x ∈ s.pairs .keyExchange) :
    ∃ y, closeKXKey P rng i x = .ok y ∧ y.1 ≠ [] := by
  obtain ⟨t, r⟩ := x
  obtain ⟨h1, h2, h3⟩ := mem_pairs hx
  simp only at h1 h2 h3
  rw [session_insts R.made] at h1
  obtain ⟨g1, g2, g3, _, g5, g6⟩ := registry_named _ R.mem t h1
  have hr := (mem_ofScheme g3 r).mp h3
  obtain ⟨pub, hpub⟩ := Option.isSome_iff_exists.mp (R.loaded r hr.1)
  obtain ⟨p, q, k, e1, e2⟩ := W.gen _ g2 h2 (rng.seed i)
  have hus : t.info.purpose.usesSignets = true := by rw [h2]; decide
  have hsig : generateSignet P t.info.name (rng.seed i) = .ok { version := 1, scheme := t.info.name, loadedPub := some p, loadedPriv := some q } := by
    unfold generateSignet
    rw [g1]
    simp only [hus, if_true, e1]
  unfold closeKXKey kxOffer
  simp only [hsig, ok_bind, makeShared, hpub, Signet.asRecipient, g5, g6, or_self, if_false, Signet.load, Option.isSome_some, if_true,
    Signet.store, List.length_nil, ne_eq, not_true_eq_false, g1, hus, e2]
  exact ⟨_, rfl, W.dh _ g2 h2 _ _⟩

theorem closing_total (W : P.Work) (hc : Confidentiality ∈ s.suite.provides) (rng : Rng) (nonce : Bytes) (hn : nonce ≠ [])
    (C : CanClose s.env) : ∃ km, setupClosing P cfg rng s nonce = .ok km ∧ kdfInitOK nonce km.material = true := by
  obtain ⟨hnd, hone⟩ := registered_session R.made R.mem
  rw [setupClosing_eq P cfg rng s nonce (hone _ (by simp)) (hone _ (by simp))]
  have hke : s.pairs .keyEncapsulation = [] := by
    apply List.eq_nil_iff_forall_not_mem.mpr
    intro x hx
    obtain ⟨a, b, _⟩ := mem_pairs hx
    rw [session_insts R.made] at a
    exact (registry_exchange _ R.mem _ a).2.2 b
  have hpw : ∀ k ∈ ofScheme s.env.secrets schemePassword, ∀ i : Nat, ∃ y, (fun _ : Nat => passKey P cfg s nonce) i k = .ok y := by
    intro k hk _
    obtain ⟨a, b⟩ := (mem_ofScheme (by decide) k).mp hk
    obtain ⟨y, hy, _⟩ := passKey_total R W hc nonce a b (C.passwords k a b)
    exact ⟨y, hy⟩
  obtain ⟨pws, h1⟩ := collectFrom_total (g := fun _ => passKey P cfg s nonce) _ 0 hpw
  obtain ⟨kxs, h2⟩ := collectFrom_total (g := closeKXKey P rng) (s.pairs .keyExchange) 1
    (fun x hx i => (kxKey_total R W rng i hx).imp fun _ h => h.1)
  unfold closingMaterial
  simp only [h1, h2, hke, collectFrom, ok_bind, List.map_nil, List.append_nil]
  refine ⟨_, rfl, ?_⟩
  -- the first secret is not empty
  have hnl : nonce.length ≠ 0 := fun h => hn (List.length_eq_zero_iff.mp h)
  have first : ∀ m : List Bytes, (∀ x, m.head? = some x → x ≠ []) → m ≠ [] → kdfInitOK nonce m = true := by
    intro m h1 h2
    cases m with
    | nil => exact absurd rfl h2
    | cons a m =>
      have : a.length ≠ 0 := fun h => h1 a rfl (List.length_eq_zero_iff.mp h)
      simp [kdfInitOK, this, hnl]
  apply first
  · intro x hx
    cases hk : ofScheme s.env.secrets schemeKey with
    | cons k ks =>
      rw [hk] at hx
      simp only [List.map_cons, List.cons_append, List.head?_cons, Option.some.injEq] at hx
      subst hx
      apply C.firstKey k
      have : ofScheme s.env.secrets schemeKey = s.env.secrets.filter (fun k => k.scheme == schemeKey) := by
        unfold ofScheme; rfl
      rw [← this, hk]; rfl
    | nil =>
      rw [hk] at hx
      simp only [List.map_nil, List.nil_append] at hx
      cases hp : pws with
      | cons p ps =>
        rw [hp] at hx h1
        simp only [List.cons_append, List.head?_cons, Option.some.injEq] at hx
        subst hx
        cases hq : ofScheme s.env.secrets schemePassword with
        | nil => rw [hq] at h1; cases h1
        | cons k ks =>
          rw [hq] at h1
          obtain ⟨y, zs, g1, _, g3⟩ := collectFrom_cons_ok.mp h1
          cases g3
          obtain ⟨a, b⟩ := (mem_ofScheme (by decide) k).mp (show k ∈ ofScheme s.env.secrets schemePassword by rw [hq]; simp)
          obtain ⟨y', hy', hne⟩ := passKey_total R W hc nonce a b (C.passwords k a b)
          rw [g1] at hy'
          cases hy'
          exact hne
      | nil =>
        rw [hp] at hx
        cases hq : s.pairs .keyExchange with
        | nil => rw [hq] at h2; cases h2; cases hx
        | cons y ys =>
          have hm : y ∈ s.pairs .keyExchange := by rw [hq]; simp
          rw [hq] at h2
          obtain ⟨z, zs, g1, _, g3⟩ := collectFrom_cons_ok.mp h2
          subst g3
          simp only [List.nil_append, List.map_cons, List.head?_cons, Option.some.injEq] at hx
          obtain ⟨z', hz', hne⟩ := kxKey_total R W rng 1 hm
          rw [g1] at hz'
          cases hz'
          rw [← hx]
          exact hne
  · -- there is one
    intro hnil
    simp only [List.append_eq_nil_iff, List.map_eq_nil_iff] at hnil
    obtain ⟨⟨n1, n2⟩, n3⟩ := hnil
    obtain ⟨_, _, hconf, _⟩ := registry_tools s.suite R.mem
    obtain ⟨hra, _, t, ht, hp⟩ := hconf hc
    rw [← session_insts R.made] at ht
    rcases session_key_source_partial P cfg s.env s R.made ⟨t, ht, .inr (.inl hp)⟩ (.inl hra) with ⟨u, hu, hpu⟩ | ⟨k, hk, hks⟩
    · have hsig := session_tools_have_signets P cfg s.env s R.made u hu
      rcases hpu with hpu | hpu | hpu
      · obtain ⟨v, hv, hv2⟩ := hsig.1 hpu
        have hm : v ∈ ofScheme s.env.secrets schemePassword := (mem_ofScheme (by decide) v).mpr ⟨hv, hv2⟩
        obtain ⟨j, hj⟩ := mem_getElem? hm
        obtain ⟨y, hy, _⟩ := collectFrom_get h1 hj
        rw [n2] at hy; cases hy
      · obtain ⟨v, hv, hv2⟩ := hsig.2.1 (.inl hpu)
        have hu' := hu
        rw [session_insts R.made] at hu'
        have hm : (u, v) ∈ s.pairs .keyExchange := by
          rw [pairs_eq]
          unfold toolPairs
          simp only [List.mem_flatMap, List.mem_map]
          exact ⟨u, mem_queue.mpr ⟨hu, hpu⟩, v, (mem_ofScheme (registry_named _ R.mem u hu').2.2.1 v).mpr ⟨hv, hv2⟩, rfl⟩
        obtain ⟨j, hj⟩ := mem_getElem? hm
        obtain ⟨y, hy, _⟩ := collectFrom_get h2 hj
        rw [n3] at hy; cases hy
      · rw [session_insts R.made] at hu
        exact (registry_exchange _ R.mem _ hu).2.2 hpu
    · have hm : k ∈ ofScheme s.env.secrets schemeKey := (mem_ofScheme (by decide) k).mpr ⟨hk, hks⟩
      rw [n1] at hm; cases hm

theorem encrypt_total (W : P.Work) (hc : Confidentiality ∈ s.suite.provides) {k : ToolInst} (m : List Bytes) (l : Letter) (data : Bytes)
    (hd : data.length ≤ 2 ^ 38 - 64) : ∃ st l', encryptLetter P s s.initState k m 0 l data = (st, .ok l') := by
  obtain ⟨q1, q2, _, _, _⟩ := encrypting_session R.made R.mem hc
  have hb := library_letter_bytes R.made R.mem
  have hlen := (clean_init s).len
  obtain ⟨r, hr⟩ := setupTools_ok W.kdf (s := s) (k := k) (nonce := l.nonce) (m := m) s.stateful s.initState.tools 0 hlen (by
    have : (s.stateful.map s.setupBytes).sum ≤ 44 := hb
    omega)
  have hl1 := hlen
  rw [q1] at hl1
  obtain ⟨o, hst⟩ := List.length_eq_one_iff.mp hl1
  obtain ⟨key, n, u', k1, k2, rfl⟩ := setup_chacha q1 hst hr
  obtain ⟨r1, r2, r3⟩ := ready_chacha q1 { key := key, nonce := n, ready := true, used := u' }
  obtain ⟨c, hcc⟩ := W.aead key n (s.adOf l) data (W.kdfSize _ _ _ _ _ _ _ k1) (W.kdfSize _ _ _ _ _ _ _ k2) hd
  unfold encryptLetter
  rw [hr]
  refine ⟨{ s.initState with tools := s.resetTools [{ key := key, nonce := n, ready := true, used := u' }] }, { l with data := c, mac := [] }, ?_⟩
  have hn : chacha.info.name = b!"CHACHA20-POLY1305" := rfl
  simp only [protect, r1, r2, r3, runEncrypt, runSeal, runMACs, foldRes, hn, hcc, ok_bind]

theorem signs_iff (hS : SendersSign P s.env) (rng : Rng) (fed : Bytes) : ∀ (ps : List (ToolInst × Signet)) (ctr : Nat), (∀ x ∈ ps, x ∈ s.signerPairs) →
    ((∃ sigs, signAll P rng fed ctr ps = .ok sigs) ↔ ∀ x ∈ ps, x.2.loadedPriv ≠ none) := by
  intro ps
  induction ps with
  | nil => intro ctr _; exact ⟨fun _ x hx => (by cases hx), fun _ => ⟨[], rfl⟩⟩
  | cons x ps ih =>
    intro ctr hx
    obtain ⟨t, k⟩ := x
    have hp := hx (t, k) (by simp)
    unfold Session.signerPairs at hp
    simp only [List.mem_flatMap, List.mem_map, Prod.mk.injEq] at hp
    obtain ⟨t', ht, k', hk, rfl, rfl⟩ := hp
    have ht' := (mem_queue.mp ht).1
    rw [session_insts R.made] at ht'
    obtain ⟨_, _, g3, g4, _⟩ := registry_named _ R.mem _ ht'
    obtain ⟨hk1, hk2⟩ := (mem_ofScheme g3 k').mp hk
    have hu : t'.hashUnusable = false := by unfold ToolInst.hashUnusable; rw [g4]; rfl
    have hone : (∃ sig, toolSign P t' (P.hash t'.hashName fed) (rng.seed ctr) k' = .ok sig) ↔ k'.loadedPriv ≠ none := by
      unfold toolSign
      cases hl : k'.loadedPriv with
      | none => simp [g4]
      | some priv =>
        simp only [hu, Bool.false_eq_true, if_false]
        have := hS k' hk1 priv hl t'.hashName (P.hash t'.hashName fed) (rng.seed ctr)
        rw [hk2] at this
        exact ⟨fun _ => (by simp), fun _ => this⟩
    have ih := ih (ctr + 1) (fun y hy => hx y (by simp [hy]))
    simp only [signAll, bind_ok_iff, List.forall_mem_cons]
    rw [← hone, ← ih]
    constructor
    · rintro ⟨sigs, sig, h1, rest, h2, _⟩; exact ⟨⟨sig, h1⟩, rest, h2⟩
    · rintro ⟨⟨sig, h1⟩, rest, h2⟩; exact ⟨_, sig, h1, rest, h2, rfl⟩

theorem signer_mem (k : Signet) : k ∈ s.env.senders ↔ ∃ t, (t, k) ∈ s.signerPairs := by
  unfold Session.signerPairs
  simp only [List.mem_flatMap, List.mem_map, Prod.mk.injEq]
  constructor
  · intro hk
    obtain ⟨t, ht, hp, hn⟩ := R.used.senders k hk
    have ht' := ht
    rw [session_insts R.made] at ht'
    exact ⟨t, t, mem_queue.mpr ⟨ht, hp⟩, k, (mem_ofScheme (registry_named _ R.mem t ht').2.2.1 k).mpr ⟨hk, hn.symm⟩, rfl, rfl⟩
  · rintro ⟨t, t', ht, k', hk, rfl, rfl⟩
    have ht' := (mem_queue.mp ht).1
    rw [session_insts R.made] at ht'
    exact ((mem_ofScheme (registry_named _ R.mem _ ht').2.2.1 _).mp hk).1

theorem signLetter_iff (hS : SendersSign P s.env) (rng : Rng) (st : SState) (ctr : Nat) (ad : Bytes) (l : Letter) :
    (∃ l', (signLetter P rng s st ctr ad l).2 = .ok l') ↔ ∀ k ∈ s.env.senders, k.loadedPriv ≠ none := by
  have hiff := signs_iff R hS rng (st.fed ++ l.data ++ l.compileSigningData ad) s.signerPairs ctr (fun _ h => h)
  have hall : (∀ x ∈ s.signerPairs, x.2.loadedPriv ≠ none) ↔ ∀ k ∈ s.env.senders, k.loadedPriv ≠ none := by
    constructor
    · intro h k hk
      obtain ⟨t, ht⟩ := (signer_mem R k).mp hk
      exact h _ ht
    · intro h x hx
      exact h _ ((signer_mem R x.2).mpr ⟨x.1, hx⟩)
  rw [← hall, ← hiff]
  unfold signLetter
  split
  · rename_i he
    have : s.signerPairs = [] := by unfold Session.signerPairs; rw [List.isEmpty_iff.mp he]; rfl
    rw [this]
    exact ⟨fun _ => ⟨[], rfl⟩, fun _ => ⟨_, rfl⟩⟩
  · dsimp only
    constructor
    · rintro ⟨l', h⟩
      split at h
      · cases h
      · rename_i sigs hs; exact ⟨sigs, hs⟩
    · rintro ⟨sigs, h⟩
      rw [h]; exact ⟨_, rfl⟩

theorem close_iff (W : P.Work) (hS : SendersSign P s.env) {rng : Rng} (hr : rng.Delivers) (data : Bytes) (hd : data.length ≤ 2 ^ 38 - 64) :
    (∃ l, (s.close P cfg rng s.initState data).2 = .ok l) ↔ CanClose s.env := by
  obtain ⟨nonce, hn1, hn2⟩ := hr 0 s.nonceSize
  have hnon : randomBytes rng 0 s.nonceSize = .ok nonce := by unfold randomBytes; rw [hn1, ok_bind]; simp [hn2]
  have hne : nonce ≠ [] := by
    intro h
    rw [h] at hn2
    have : 4 ≤ s.nonceSize := by unfold Session.nonceSize; split <;> omega
    simp at hn2; omega
  unfold Session.close
  rw [hnon]
  dsimp only
  by_cases hc : Confidentiality ∈ s.suite.provides
  · obtain ⟨_, _, _, _, k, q5⟩ := encrypting_session R.made R.mem hc
    rw [q5]
    dsimp only
    constructor
    · rintro ⟨l, h⟩
      split at h
      · cases h
      · rename_i km hkm
        split at h
        · rename_i hini
          split at h
          · cases h
          · rename_i st l1 _
            have hsend := (signLetter_iff R hS rng st km.ctr (s.adOf l1) l1).mp ⟨l, h⟩
            obtain ⟨_, hone⟩ := registered_session R.made R.mem
            rw [setupClosing_eq P cfg rng s nonce (hone _ (by simp)) (hone _ (by simp))] at hkm
            simp only [closingMaterial, bind_ok_iff] at hkm
            obtain ⟨pws, h1, kxs, h2, kes, h3, h4⟩ := hkm
            cases h4
            refine ⟨?_, ?_, hsend⟩
            · intro p hp hps hpe
              obtain ⟨j, hj⟩ := mem_getElem? ((mem_ofScheme (by decide) p).mpr ⟨hp, hps⟩)
              obtain ⟨y, _, hy⟩ := collectFrom_get h1 hj
              simp [passKey, hpe] at hy
            · intro p hp hpe
              have : ofScheme s.env.secrets schemeKey = s.env.secrets.filter (fun k => k.scheme == schemeKey) := by
                unfold ofScheme; rfl
              rw [← this] at hp
              cases hk : ofScheme s.env.secrets schemeKey with
              | nil => rw [hk] at hp; cases hp
              | cons a as =>
                rw [hk] at hp hini
                cases hp
                simp [kdfInitOK, hpe] at hini
        · cases h
    · intro C
      obtain ⟨km, hkm, hini⟩ := closing_total R W hc rng nonce hne C
      rw [hkm]
      simp only [hini, if_true]
      obtain ⟨st, l', hl⟩ := encrypt_total R W hc (k := k) km.material
        { version := s.env.version, suiteID := s.env.suiteID, nonce := nonce, keys := km.keys } data hd
      rw [hl]
      exact (signLetter_iff R hS rng st km.ctr (s.adOf l') l').mpr C.senders
  · obtain ⟨hsec, hall⟩ := plain_no_secrets R hc
    have hq : ∀ p, p ≠ .signing → s.queue p = [] := by
      intro p hp
      apply List.eq_nil_iff_forall_not_mem.mpr
      intro t ht
      obtain ⟨a, b⟩ := mem_queue.mp ht
      exact hp (b.symm.trans (hall t a))
    have hk : s.kdf = none := by unfold Session.kdf; rw [hq _ (by decide)]; rfl
    have had : s.needsAD = false := by unfold Session.needsAD; rw [hq _ (by decide), hq _ (by decide)]; rfl
    rw [hk]
    simp only [hq .cipher (by decide), had, List.isEmpty_nil, Bool.not_true, Bool.or_self, Bool.false_eq_true, if_false]
    rw [signLetter_iff R hS]
    constructor
    · intro h
      refine ⟨fun k hk => ?_, fun k hk => ?_, h⟩
      · rw [hsec] at hk; cases hk
      · rw [hsec] at hk; cases hk
    · intro C; exact C.senders

end

/-- C118, exactly when. If the algorithms and the source of random numbers do their work, a session for an envelope that passed the check closes a letter if and only
if the passwords and the first key of the envelope are not empty and its senders have private keys. The check itself does not look at these three. -/
theorem checked_envelope_closes_partial (P : Prims) (W : P.Work) (cfg : Config) (w : World) (hw : w.KeepsScheme) (rng : Rng) (hr : rng.Delivers) (e : Envelope)
    (he : e.suite = none) (e' : Envelope) (h : e.check P cfg w suiteRegistry = .ok e') (hS : SendersSign P e') (data : Bytes)
    (hd : data.length ≤ 2 ^ 38 - 64) :
    ∃ s, correspondence P cfg w suiteRegistry e = .ok s ∧ s.env = e' ∧
      ((∃ l, (s.close P cfg rng s.initState data).2 = .ok l) ↔ CanClose e') := by
  simp only [Envelope.check, bind_ok_iff] at h
  obtain ⟨s, hs, hx⟩ := h
  cases hx
  exact ⟨s, hs, rfl, close_iff (ready_session hw he hs) W hS hr data hd⟩

/-! ## Using it again -/

theorem finishPrep_again {P : Prims} {n o : Signet} (h : finishPrep P n = .ok o) : finishPrep P o = .ok o := by
  obtain ⟨hp, hs, _, _, h5⟩ := finishPrep_spec h
  rcases h5 with ⟨_, rfl⟩ | ⟨a, b, hl⟩
  · exact h
  · have key : o.protection = false ∧ o.loadedPub.isSome = true := by
      unfold Signet.load at hl
      split at hl
      · rename_i hx; cases hl; exact ⟨hp, hx⟩
      · split at hl
        · cases hl
        · split at hl
          · cases hl
          · split at hl
            · split at hl
              · cases hl
              · cases hl; exact ⟨hp, rfl⟩
            · cases hl
    unfold finishPrep Signet.load
    rw [hs]
    simp [key.1, key.2, a, b]

theorem prepared_again {P : Prims} {w : World} (hw : w.KeepsScheme) {level : Int} {flag : Bool} {l out : List Signet}
    (h : prepSignets P w level flag l = .ok out) : ∀ o ∈ out, o.scheme = schemePassword ∨ finishPrep P o = .ok o := by
  have H : All2 (fun s o => ∃ f, prepOne P w level f s = .ok o) l out := (prepSignets_flags P w level l out flag h).mono fun _ _ hab =>
    hab.elim (fun h => ⟨_, h⟩) (fun h => ⟨_, h.1⟩)
  have one : ∀ f s o, prepOne P w level f s = .ok o → o.scheme = schemePassword ∨ finishPrep P o = .ok o := by
    intro f s o ho
    by_cases hk : s.key = []
    · by_cases hp : s.scheme = schemePassword
      · simp only [prepOne, hk, hp, List.length_nil, if_true] at ho
        exact .inl ((fillPassword_scheme hw ho).trans hp)
      · obtain ⟨_, _, _, _, _, _, hf⟩ := prepOne_fetch hk hp ho
        exact .inr (finishPrep_again hf)
    · have : s.key.length ≠ 0 := fun h => hk (List.length_eq_zero_iff.mp h)
      simp only [prepOne, this, if_false] at ho
      exact .inr (finishPrep_again ho)
  clear h
  induction H with
  | nil => intro o ho; cases ho
  | cons hh _ ih =>
    intro o ho
    rcases List.mem_cons.mp ho with rfl | ho
    · obtain ⟨f, hh⟩ := hh
      exact one _ _ _ hh
    · exact ih o ho

theorem prep_fixed {P : Prims} (w : World) (level : Int) : ∀ (l : List Signet) (flag : Bool), (∀ o ∈ l, o.key ≠ [] ∧ finishPrep P o = .ok o) →
    prepSignets P w level flag l = .ok l
  | [], _, _ => rfl
  | o :: l, flag, h => by
    obtain ⟨h1, h2⟩ := h o (by simp)
    have hl : ¬ o.key.length = 0 := fun h => h1 (List.length_eq_zero_iff.mp h)
    have ih := prep_fixed w level l flag (fun x hx => h x (by simp [hx]))
    simp only [prepSignets, hl, if_false, h2, ok_bind, ih]

/-- C118, again. An envelope that passed the check, with no empty signet and no protected password left in it, can be used without a trust store and without
callbacks, even if the suites were gone: it gives the same session as before. -/
theorem checked_envelope_again (P : Prims) (cfg : Config) (w : World) (hw : w.KeepsScheme) (reg : List Suite) (e e' : Envelope)
    (h : e.check P cfg w reg = .ok e') (hk : ∀ k ∈ e'.secrets ++ e'.senders ++ e'.recipients, k.key ≠ [] ∧ (k.scheme = schemePassword → k.protection = false))
    (w' : World) (reg' : List Suite) :
    e'.check P cfg w' reg' = .ok e' ∧ correspondence P cfg w' reg' e' = correspondence P cfg w reg e := by
  have hmain : correspondence P cfg w' reg' e' = correspondence P cfg w reg e := by
    simp only [Envelope.check, bind_ok_iff] at h
    obtain ⟨s, hs, hx⟩ := h
    cases hx
    rw [hs]
    simp only [correspondence, bind_ok_iff] at hs
    obtain ⟨⟨e1, su⟩, h1, e2, hp, hn⟩ := hs
    obtain ⟨henv, hsuite⟩ := newSession_env hn
    rw [henv] at hk ⊢
    have hsu : e2.suite = some su := by
      simp only [prepareSignets, bind_ok_iff] at hp
      obtain ⟨a, _, b, _, c, _, hx⟩ := hp
      cases hx
      show e1.suite = some su
      unfold loadSuite at h1
      split at h1
      · rename_i hq; cases h1; exact hq
      · split at h1
        · cases h1
        · cases h1; rfl
    have hfix : prepareSignets P w' su.securityLevel e2 = .ok e2 := by
      simp only [prepareSignets, bind_ok_iff] at hp
      obtain ⟨a, ha, b, hb, c, hc, hx⟩ := hp
      cases hx
      have fix : ∀ (x : List Signet) flag0 l0, prepSignets P w su.securityLevel flag0 l0 = .ok x → (∀ k ∈ x, k ∈ a ++ b ++ c) → ∀ flag,
          prepSignets P w' su.securityLevel flag x = .ok x := by
        intro x f0 l0 hx hin flag
        apply prep_fixed
        intro o ho
        obtain ⟨k1, k2⟩ := hk o (hin o ho)
        refine ⟨k1, ?_⟩
        rcases prepared_again hw hx o ho with hpw | hf
        · unfold finishPrep
          simp [k2 hpw, hpw]
        · exact hf
      simp only [prepareSignets]
      rw [fix a _ _ ha (fun k hk => by simp [hk]), ok_bind, fix b _ _ hb (fun k hk => by simp [hk]), ok_bind, fix c _ _ hc (fun k hk => by simp [hk]), ok_bind]
    unfold correspondence loadSuite
    rw [hsu]
    simp only [ok_bind, hfix]
    exact hn
  refine ⟨?_, hmain⟩
  unfold Envelope.check at h ⊢
  rw [hmain]; exact h

/-! ## Examples -/

/-- The toy algorithms do their work. -/
theorem toy_work : toyPrims.Work := by
  refine ⟨toy_kdf_total, toyPrims_kdfSized, ?_, ?_, ?_, ?_⟩
  · intro t _ _ pw salt n _ hn
    refine ⟨_, rfl, ?_⟩
    obtain ⟨m, rfl⟩ := Nat.exists_eq_succ_of_ne_zero (Nat.pos_iff_ne_zero.mp hn)
    simp [toyBytes]
  · intro t _ _ seed; exact ⟨_, _, _, rfl, rfl⟩
  · intro t _ _ priv pub; simp [toyPrims, toyMix]
  · intro key nonce ad data _ _ _; exact ⟨_, rfl⟩

theorem toy_delivers : toyRng.Delivers := fun _ _ => ⟨_, rfl, by simp⟩

/-- Without callbacks. -/
def storeOnly : World := { store := some toyStore }

/-- A trust store with public signets only, for whatever it is asked. -/
def publicOnly : World := { store := some (fun id _ => toyStore id true) }

/-- A trust store that has an empty key. -/
def emptyKey : World := { store := some (fun id r => (toyStore id r).map (fun k => { k with key := [] })) }

/-- What closing "hello" gives after a check: nothing, if the check fails; the error, if closing fails. -/
def checkThenClose (w : World) (e : Envelope) : Option (Option Err) :=
  match e.check toyPrims toyConfig w suiteRegistry with
  | .error _ => none
  | .ok e' =>
    match correspondence toyPrims toyConfig {} suiteRegistry e' with
    | .error err => some (some err)
    | .ok s =>
      match (s.close toyPrims toyConfig toyRng s.initState b!"hello").2 with
      | .ok _ => some none
      | .error err => some (some err)

/-- C118 refuted: an envelope passes the check although it cannot be used, if there is no callback that asks for its password, if the sender has only a public
key, or if the trust store has an empty key. The other envelopes pass and can be used, without the trust store; and an envelope with an unknown signet
does not pass. -/
theorem check_passes_unusable :
    checkThenClose storeOnly (toyEnvelope b!"pw_v2" [b!"pw"] [] []) = some (some .missing) ∧
    checkThenClose publicOnly (toyEnvelope b!"sign_v2" [] [b!"alice"] []) = some (some .invalidKey) ∧
    checkThenClose emptyKey (toyEnvelope b!"key_v2" [b!"key"] [] []) = some (some .missing) ∧
    checkThenClose toyWorld (toyEnvelope b!"pw_v2" [b!"pw"] [] []) = some none ∧
    checkThenClose toyWorld (toyEnvelope b!"v2" [] [b!"alice"] [b!"bob"]) = some none ∧
    checkThenClose toyWorld (toyEnvelope b!"key_v2" [b!"key"] [] []) = some none ∧
    checkThenClose toyWorld (toyEnvelope b!"v2" [] [b!"alice"] [b!"carol"]) = none := by
  decide +kernel

/-- The hypotheses are met: with the toy algorithms, the checked envelope for alice and bob is one that closes; its senders sign, and it has no empty signet. -/
theorem check_example : toyPrims.Work ∧ toyRng.Delivers ∧ toyWorld.KeepsScheme ∧
    ∃ e', (toyEnvelope b!"v2" [] [b!"alice"] [b!"bob"]).check toyPrims toyConfig toyWorld suiteRegistry = .ok e' ∧ SendersSign toyPrims e' ∧ CanClose e' ∧
      (∀ k ∈ e'.secrets ++ e'.senders ++ e'.recipients, k.key ≠ [] ∧ (k.scheme = schemePassword → k.protection = false)) ∧
      e'.senders.length = 1 ∧ e'.recipients.length = 1 := by
  refine ⟨toy_work, toy_delivers, toyWorld_keeps, ?_⟩
  have hx : (match (toyEnvelope b!"v2" [] [b!"alice"] [b!"bob"]).check toyPrims toyConfig toyWorld suiteRegistry with
      | .error _ => false
      | .ok e' => decide (e'.secrets = []) && decide (∀ k ∈ e'.senders, k.loadedPriv ≠ none) &&
        decide (∀ k ∈ e'.secrets ++ e'.senders ++ e'.recipients, k.key ≠ [] ∧ (k.scheme = schemePassword → k.protection = false)) &&
        decide (e'.senders.length = 1) && decide (e'.recipients.length = 1)) = true := by decide +kernel
  split at hx
  · cases hx
  · rename_i e' he
    simp only [Bool.and_eq_true, decide_eq_true_eq] at hx
    obtain ⟨⟨⟨⟨h1, h2⟩, h3⟩, h4⟩, h5⟩ := hx
    refine ⟨e', he, fun k _ priv _ hash d seed => ⟨_, rfl⟩, ⟨fun k hk => ?_, fun k hk => ?_, h2⟩, h3, h4, h5⟩
    · rw [h1] at hk; cases hk
    · rw [h1] at hk; cases hk

end Jess
