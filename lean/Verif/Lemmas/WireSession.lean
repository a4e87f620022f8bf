import Verif.Model.WireSession
import Verif.Props.CloseOpen

/-! Lemmas about wire sessions. -/

namespace Jess

theorem ratchet_env (P : Prims) (s : Session) (eo : Envelope) (k : ToolInst) (n : Nat) (c nonce : Bytes) (m : List Bytes) :
    ratchet P { s with env := eo } k n c nonce m = ratchet P s k n c nonce m := rfl

theorem ratchet_pos (P : Prims) (s : Session) (k : ToolInst) {n : Nat} (hn : n ≠ 0) (c nonce : Bytes) (m : List Bytes) :
    ratchet P s k n c nonce m = ratchet P s k 1 c nonce m := by
  unfold ratchet; simp [hn]

theorem clean_env {s : Session} {st : SState} (eo : Envelope) : Clean { s with env := eo } st ↔ Clean s st :=
  ⟨fun h => ⟨h.len, h.unused, h.fed⟩, fun h => ⟨h.len, h.unused, h.fed⟩⟩

/-- The letter opens to `d` with the given key material, for either side of a wire session. -/
def Sealed (P : Prims) (s : Session) (k : ToolInst) (mat : List Bytes) (off : Nat) (l : Letter) (d : Bytes) : Prop :=
  ∀ (eo : Envelope) (st : SState), Clean s st → (decryptLetter P { s with env := eo } st k mat off l).2 = .ok d

theorem encryptLetter_sealed {P : Prims} {pair} (hP : P.Correct pair) {s : Session} {st st' : SState} {k : ToolInst}
    {mat : List Bytes} {off : Nat} {l0 l : Letter} {data : Bytes} (hc : Clean s st)
    (h : encryptLetter P s st k mat off l0 data = (st', .ok l)) :
    (∃ d m, l = { l0 with data := d, mac := m }) ∧ Sealed P s k mat off l data ∧ Clean s st' := by
  have hcl := (encryptLetter_clean (P := P) hc k mat off l0 data).1
  rw [h] at hcl
  refine ⟨?_, ?_, hcl⟩
  · unfold encryptLetter at h
    split at h
    · cases h
    · simp only [Prod.mk.injEq, protect, bind_ok_iff] at h
      obtain ⟨_, d1, _, d2, _, m, _, h4⟩ := h
      cases h4; exact ⟨d2, m, rfl⟩
  · intro eo st2 hc2
    unfold encryptLetter at h
    split at h
    · cases h
    · rename_i tools hset
      simp only [Prod.mk.injEq] at h
      obtain ⟨_, hprot⟩ := h
      have hl : l.nonce = l0.nonce ∧ l = { l with signatures := l.signatures } := by
        simp only [protect, bind_ok_iff] at hprot
        obtain ⟨_, _, _, _, _, _, h4⟩ := hprot
        cases h4; exact ⟨rfl, rfl⟩
      obtain ⟨p1, p2, _⟩ := setupTools_spec P s { s with env := eo } k l0.nonce mat rfl s.stateful off st.tools st2.tools
        hc.len hc2.len hc.unused hc2.unused
      rw [hset] at p1 p2
      unfold decryptLetter
      have hst : ({ s with env := eo } : Session).stateful = s.stateful := rfl
      rw [hst, hl.1]
      generalize setupTools P { s with env := eo } k l0.nonce mat off s.stateful st2.tools = q at p1 p2 ⊢
      obtain ⟨q1, q2⟩ := q
      simp only at p1 p2
      subst p1
      have := p2 trivial
      subst this
      simp only
      rw [hl.2]
      exact unprotect_protect (s' := { s with env := eo }) hP rfl hprot l.signatures

/-! ## Ephemeral keys -/

/-- A tool of a session that uses signets. -/
def GoodTool (t : ToolInst) : Prop :=
  getTool t.info.name = some t.info ∧ t.info.purpose.usesSignets = true ∧ t.info.name ≠ schemeKey ∧ t.info.name ≠ schemePassword

/-- A signet with a key pair. -/
def HasPair (pair : Bytes → Bytes → Bytes → Prop) (t : ToolInst) (g : Signet) (pub : Bytes) : Prop :=
  ∃ priv, g.loadedPub = some pub ∧ g.loadedPriv = some priv ∧ pair t.info.name pub priv

/-- A stored public key that loads to `pub`. -/
def LoadsTo (P : Prims) (t : ToolInst) (value pub : Bytes) : Prop := ∃ r, P.loadKey t.info.name value true = .ok (pub, r)

theorem generateSignet_spec {P : Prims} {pair} (hP : P.Correct pair) {t : ToolInst} (ht : GoodTool t) {seed : Bytes} {g : Signet}
    (h : generateSignet P t.info.name seed = .ok g) :
    ∃ pub, HasPair pair t g pub ∧ g.scheme = t.info.name ∧ g.key = [] ∧ g.protection = false := by
  simp only [generateSignet, ht.1, ht.2.1, if_true] at h
  split at h
  · cases h
  · rename_i pub priv hg
    cases h
    exact ⟨pub, ⟨priv, rfl, rfl, hP.gen _ _ _ _ hg⟩, rfl, rfl, rfl⟩

theorem store_spec {P : Prims} {s g : Signet} (h : s.store P = .ok g) :
    g.loadedPub = s.loadedPub ∧ g.loadedPriv = s.loadedPriv ∧ g.scheme = s.scheme := by
  unfold Signet.store at h
  split at h
  · cases h; exact ⟨rfl, rfl, rfl⟩
  · split at h
    · cases h
    · split at h
      · split at h
        · cases h
        · rename_i hpub
          split at h
          · cases h
          · cases h; exact ⟨rfl, rfl, rfl⟩
      · cases h

/-- The public signet of a signet with a key pair, stored. -/
theorem recipient_stored {P : Prims} {pair} (hP : P.Correct pair) {t : ToolInst} (ht : GoodTool t) {g r r' : Signet} {pub : Bytes}
    (hg : HasPair pair t g pub) (hsc : g.scheme = t.info.name) (h1 : g.asRecipient P = .ok r) (h2 : r.store P = .ok r') :
    LoadsTo P t r'.key pub := by
  obtain ⟨priv, g1, g2, g3⟩ := hg
  unfold Signet.asRecipient at h1
  rw [if_neg (by rw [hsc]; exact fun h => h.elim ht.2.2.1 ht.2.2.2)] at h1
  simp only [Signet.load, g1, Option.isSome_some, if_true, ok_bind] at h1
  cases h1
  simp only [Signet.store, hsc, ht.1, ht.2.1, if_true, g1, List.length_nil, ne_eq, not_true_eq_false, if_false] at h2
  split at h2
  · cases h2
  · rename_i k hk
    cases h2
    exact hP.store _ _ _ _ g3 hk

theorem newLocal_spec {P : Prims} {pair} (hP : P.Correct pair) {t : ToolInst} (ht : GoodTool t) {seed : Bytes} {g : Signet} {v : Bytes}
    (h : newLocal P t seed = (g, .ok v)) : ∃ pub, HasPair pair t g pub ∧ LoadsTo P t v pub := by
  unfold newLocal at h
  split at h
  · cases h
  · rename_i g0 hg0
    obtain ⟨pub, ⟨priv, a1, a2, a3⟩, b1, b2, b3⟩ := generateSignet_spec hP ht hg0
    split at h
    · cases h
    · rename_i g1 hg1
      obtain ⟨s1, s2, s3⟩ := store_spec hg1
      split at h
      · cases h
      · rename_i r hr
        split at h
        · cases h
        · rename_i r' hr'
          simp only [Prod.mk.injEq, Except.ok.injEq] at h
          obtain ⟨rfl, rfl⟩ := h
          have hp : HasPair pair t g1 pub := ⟨priv, by rw [s1, a1], by rw [s2, a2], a3⟩
          exact ⟨pub, hp, recipient_stored hP ht hp (by rw [s3, b1]) hr hr'⟩

theorem kxOffer_signet {P : Prims} {pair} (hP : P.Correct pair) {t : ToolInst} (ht : GoodTool t) {seed : Bytes} {rcpt : Signet}
    {r : Signet × Bytes × Seal} (h : kxOffer P t seed rcpt = .ok r) : ∃ pub, HasPair pair t r.1 pub ∧ LoadsTo P t r.2.2.value pub := by
  simp only [kxOffer, bind_ok_iff] at h
  obtain ⟨g, h1, sh, _, p, h3, st, h4, h5⟩ := h
  cases h5
  obtain ⟨pub, hp, b1, _, _⟩ := generateSignet_spec hP ht h1
  exact ⟨pub, hp, recipient_stored hP ht hp b1 h3 h4⟩

/-- Generation for pairs that all have a signet. -/
theorem genKX_all {P : Prims} {rng : Rng} : ∀ {ps : List KxPair} {ctr : Nat}, (∀ p ∈ ps, p.signet.isSome = true) →
    genKX P rng ctr ps = (ps, .ok [])
  | [], _, _ => rfl
  | p :: ps, ctr, h => by
    obtain ⟨g, hg⟩ := Option.isSome_iff_exists.mp (h p (by simp))
    have ih := genKX_all (P := P) (rng := rng) (ps := ps) (ctr := ctr + 1) fun q hq => h q (by simp [hq])
    simp only [genKX, hg, ih]

theorem genKE_all {P : Prims} {rng : Rng} : ∀ {ps : List KePair} {ctr : Nat}, (∀ p ∈ ps, p.signet.isSome = true) →
    genKE P rng ctr ps = (ps, .ok [])
  | [], _, _ => rfl
  | p :: ps, ctr, h => by
    obtain ⟨g, hg⟩ := Option.isSome_iff_exists.mp (h p (by simp))
    have ih := genKE_all (P := P) (rng := rng) (ps := ps) (ctr := ctr + 1) fun q hq => h q (by simp [hq])
    simp only [genKE, hg, ih]

/-- What generation does to a pair without signet. -/
def GenKX (P : Prims) (pair : Bytes → Bytes → Bytes → Prop) (p q : KxPair) (sl : Seal) : Prop :=
  q.tool = p.tool ∧ q.peer = p.peer ∧ sl.id = [] ∧ ∃ g pub, q.signet = some g ∧ HasPair pair p.tool g pub ∧ LoadsTo P p.tool sl.value pub

theorem genKX_none {P : Prims} {pair} (hP : P.Correct pair) {rng : Rng} : ∀ {ps qs : List KxPair} {ctr : Nat} {seals : List Seal},
    (∀ p ∈ ps, p.signet = none ∧ GoodTool p.tool) → genKX P rng ctr ps = (qs, .ok seals) →
    ∃ xs : List (KxPair × Seal), qs = xs.map (·.1) ∧ seals = xs.map (·.2) ∧ All2 (fun p x => GenKX P pair p x.1 x.2) ps xs
  | [], qs, ctr, seals, _, h => by
    cases h; exact ⟨[], rfl, rfl, .nil⟩
  | p :: ps, qs, ctr, seals, hall, h => by
    obtain ⟨hn, ht⟩ := hall p (by simp)
    simp only [genKX, hn] at h
    split at h
    · cases h
    · rename_i g v hl
      simp only [Prod.mk.injEq] at h
      obtain ⟨h1, h2⟩ := h
      generalize hr : genKX P rng (ctr + 1) ps = r at h1 h2
      obtain ⟨qs', res⟩ := r
      cases res with
      | error e => cases h2
      | ok sl' =>
        obtain ⟨xs, e1, e2, e3⟩ := genKX_none hP (fun q hq => hall q (by simp [hq])) hr
        simp only [Except.map] at h2
        cases h2
        obtain ⟨pub, hp, hv⟩ := newLocal_spec hP ht hl
        refine ⟨({ p with signet := some g }, { value := v }) :: xs, ?_, ?_, .cons ⟨rfl, rfl, rfl, g, pub, rfl, hp, hv⟩ e3⟩
        · rw [← h1, e1]; rfl
        · rw [e2]; rfl

/-- What generation does to a pair without signet. -/
def GenKE (P : Prims) (pair : Bytes → Bytes → Bytes → Prop) (p q : KePair) (sl : Seal) : Prop :=
  q.tool = p.tool ∧ sl.id = [] ∧ ∃ g pub, q.signet = some g ∧ HasPair pair p.tool g pub ∧ LoadsTo P p.tool sl.value pub

theorem genKE_none {P : Prims} {pair} (hP : P.Correct pair) {rng : Rng} : ∀ {ps qs : List KePair} {ctr : Nat} {seals : List Seal},
    (∀ p ∈ ps, p.signet = none ∧ GoodTool p.tool) → genKE P rng ctr ps = (qs, .ok seals) →
    ∃ xs : List (KePair × Seal), qs = xs.map (·.1) ∧ seals = xs.map (·.2) ∧ All2 (fun p x => GenKE P pair p x.1 x.2) ps xs
  | [], qs, ctr, seals, _, h => by
    cases h; exact ⟨[], rfl, rfl, .nil⟩
  | p :: ps, qs, ctr, seals, hall, h => by
    obtain ⟨hn, ht⟩ := hall p (by simp)
    simp only [genKE, hn] at h
    split at h
    · cases h
    · rename_i g v hl
      simp only [Prod.mk.injEq] at h
      obtain ⟨h1, h2⟩ := h
      generalize hr : genKE P rng (ctr + 1) ps = r at h1 h2
      obtain ⟨qs', res⟩ := r
      cases res with
      | error e => cases h2
      | ok sl' =>
        obtain ⟨xs, e1, e2, e3⟩ := genKE_none hP (fun q hq => hall q (by simp [hq])) hr
        simp only [Except.map] at h2
        cases h2
        obtain ⟨pub, hp, hv⟩ := newLocal_spec hP ht hl
        refine ⟨({ p with signet := some g }, { value := v }) :: xs, ?_, ?_, .cons ⟨rfl, rfl, g, pub, rfl, hp, hv⟩ e3⟩
        · rw [← h1, e1]; rfl
        · rw [e2]; rfl

/-! ## Shared keys -/

theorem sharedKeys_ok {P : Prims} : ∀ {ps qs : List KxPair} {ks : List Bytes},
    sharedKeys P ps = (qs, .ok ks) ↔ qs = ps.map (fun p => (sharedKey P p).1) ∧ All2 (fun p k => (sharedKey P p).2 = .ok k) ps ks
  | [], qs, ks => by
    simp only [sharedKeys, Prod.mk.injEq, Except.ok.injEq, List.map_nil]
    constructor
    · rintro ⟨rfl, rfl⟩; exact ⟨rfl, .nil⟩
    · rintro ⟨rfl, h⟩; cases h; exact ⟨rfl, rfl⟩
  | p :: ps, qs, ks => by
    simp only [sharedKeys]
    generalize hp : sharedKey P p = x
    obtain ⟨p', r⟩ := x
    cases r with
    | error e =>
      simp only [Prod.mk.injEq, reduceCtorEq, and_false, false_iff, not_and]
      rintro _ h
      cases h with
      | cons h _ => rw [hp] at h; cases h
    | ok k =>
      generalize hr : sharedKeys P ps = y
      obtain ⟨qs', r'⟩ := y
      simp only [Prod.mk.injEq]
      cases r' with
      | error e =>
        simp only [Except.map, reduceCtorEq, and_false, false_iff, not_and]
        rintro _ h
        cases h with
        | cons _ h =>
          have := sharedKeys_ok.mpr ⟨rfl, h⟩
          rw [hr] at this
          cases this
      | ok ks' =>
        obtain ⟨i1, i2⟩ := sharedKeys_ok.mp hr
        simp only [Except.map, Except.ok.injEq, List.map_cons, hp]
        constructor
        · rintro ⟨rfl, rfl⟩
          exact ⟨by rw [i1], .cons (by rw [hp]) i2⟩
        · rintro ⟨h1, h2⟩
          cases h2 with
          | cons h2 h3 =>
            rw [hp] at h2; cases h2
            have := sharedKeys_ok.mpr ⟨rfl, h3⟩
            rw [hr] at this
            cases this
            exact ⟨by rw [h1, i1], rfl⟩

theorem encapAll_ok {P : Prims} {rng : Rng} {s : Session} : ∀ {ps qs : List KePair} {ctr : Nat} {ms : List (Bytes × Seal)},
    encapAll P rng s ctr ps = (qs, .ok ms) → All2 (fun p m => ∃ c, (encapOne P rng s c p).2 = .ok m) ps ms
  | [], qs, ctr, ms, h => by cases h; exact .nil
  | p :: ps, qs, ctr, ms, h => by
    simp only [encapAll] at h
    generalize hp : encapOne P rng s ctr p = x at h
    obtain ⟨p', r⟩ := x
    cases r with
    | error e => cases h
    | ok k =>
      generalize hr : encapAll P rng s (ctr + 1) ps = y at h
      obtain ⟨qs', r'⟩ := y
      simp only [Prod.mk.injEq] at h
      cases r' with
      | error e => cases h.2
      | ok ms' =>
        simp only [Except.map, Except.ok.injEq] at h
        rw [← h.2]
        exact .cons ⟨ctr, by rw [hp]⟩ (encapAll_ok hr)

theorem unwrapAll_ok {P : Prims} : ∀ {ps : List KePair} {ks : List Bytes},
    All2 (fun p k => unwrapOne P p = .ok k) ps ks → unwrapAll P ps = .ok ks
  | [], _, h => by cases h; rfl
  | p :: ps, _, h => by
    cases h with
    | cons h1 h2 => rw [unwrapAll, h1, ok_bind, unwrapAll_ok h2, ok_bind]

/-- The peer of a key exchange pair that is assigned from a seal. -/
def peerOf (version : UInt8) (t : ToolInst) (value : Bytes) : Signet :=
  { version := version, scheme := t.info.name, key := value, isPublic := true }

theorem load_peer {P : Prims} {t : ToolInst} (ht : GoodTool t) {value pub : Bytes} (h : LoadsTo P t value pub) (version : UInt8) :
    ∃ q, (peerOf version t value).load P = .ok q ∧ q.loadedPub = some pub := by
  obtain ⟨r, hr⟩ := h
  refine ⟨{ peerOf version t value with loadedPub := some pub, loadedPriv := r }, ?_, rfl⟩
  simp [Signet.load, peerOf, ht.1, ht.2.1, hr]

theorem assignKX_ok {version : UInt8} {keys : List Seal} : ∀ {ps : List KxPair} {seals pre post : List Seal},
    keys = pre ++ seals ++ post → ps.length = seals.length →
    assignKX version keys pre.length ps =
      (List.zipWith (fun p sl => { p with peer := some (peerOf version p.tool sl.value) }) ps seals, .ok ())
  | [], [], pre, post, _, _ => rfl
  | [], _ :: _, pre, post, _, h => by simp at h
  | _ :: _, [], pre, post, _, h => by simp at h
  | p :: ps, sl :: seals, pre, post, hk, hl => by
    have hg : keys[pre.length]? = some sl := by rw [hk]; simp
    have ih := assignKX_ok (version := version) (keys := keys) (ps := ps) (seals := seals) (pre := pre ++ [sl]) (post := post)
      (by rw [hk]; simp) (by simpa using hl)
    rw [List.length_append, List.length_singleton] at ih
    simp only [assignKX, hg, ih, List.zipWith_cons_cons]
    rfl

theorem assignSeals_ok {keys : List Seal} : ∀ {ps : List KePair} {seals pre post : List Seal},
    keys = pre ++ seals ++ post → ps.length = seals.length →
    assignSeals keys pre.length ps = (List.zipWith (fun p sl => { p with sl := some sl }) ps seals, .ok ())
  | [], [], pre, post, _, _ => rfl
  | [], _ :: _, pre, post, _, h => by simp at h
  | _ :: _, [], pre, post, _, h => by simp at h
  | p :: ps, sl :: seals, pre, post, hk, hl => by
    have hg : keys[pre.length]? = some sl := by rw [hk]; simp
    have ih := assignSeals_ok (keys := keys) (ps := ps) (seals := seals) (pre := pre ++ [sl]) (post := post)
      (by rw [hk]; simp) (by simpa using hl)
    rw [List.length_append, List.length_singleton] at ih
    simp only [assignSeals, hg, ih, List.zipWith_cons_cons]

theorem assignKE_ok {version : UInt8} {keys : List Seal} : ∀ {ps : List KePair} {seals ids pre post : List Seal},
    keys = pre ++ ids ++ seals ++ post → ps.length = seals.length → (∀ sl ∈ ids, sl.id ≠ []) → (∀ sl ∈ seals, sl.id = []) →
    assignKE version keys pre.length ps =
      (List.zipWith (fun p sl => { p with signet := some (peerOf version p.tool sl.value) }) ps seals, .ok ())
  | [], [], ids, pre, post, _, _, _, _ => rfl
  | [], _ :: _, ids, pre, post, _, h, _, _ => by simp at h
  | _ :: _, [], ids, pre, post, _, h, _, _ => by simp at h
  | p :: ps, sl :: seals, ids, pre, post, hk, hl, hi, hs => by
    have hdrop : keys.drop pre.length = ids ++ (sl :: seals ++ post) := by rw [hk]; simp
    have hfind : (ids ++ (sl :: seals ++ post)).findIdx? (fun sl => sl.id.isEmpty) = some ids.length := by
      rw [List.findIdx?_append]
      have h1 : ids.findIdx? (fun sl => sl.id.isEmpty) = none := by
        rw [List.findIdx?_eq_none_iff]
        intro x hx
        have := hi x hx
        cases hxi : x.id with
        | nil => exact absurd hxi this
        | cons _ _ => rfl
      have h2 : sl.id.isEmpty = true := by rw [hs sl (by simp)]; rfl
      rw [h1]
      simp [List.findIdx?_cons, h2]
    have hn : nextAnon keys pre.length = some (ids.length + pre.length) := by
      unfold nextAnon; rw [hdrop, hfind]; rfl
    have hg : keys[ids.length + pre.length]? = some sl := by
      rw [hk, Nat.add_comm]
      have : pre.length + ids.length = (pre ++ ids).length := by simp
      rw [this]; simp
    have ih := assignKE_ok (version := version) (keys := keys) (ps := ps) (seals := seals) (ids := []) (pre := pre ++ ids ++ [sl])
      (post := post) (by rw [hk]; simp) (by simpa using hl) (by simp) (fun x hx => hs x (by simp [hx]))
    have hlen : (pre ++ ids ++ [sl]).length = ids.length + pre.length + 1 := by simp; omega
    rw [hlen] at ih
    simp only [assignKE, hn, hg, ih, List.zipWith_cons_cons]
    rfl

/-- A key exchange pair of the client and the corresponding pair of the server, which knows the client's public key. -/
def MatchKX (P : Prims) (pair : Bytes → Bytes → Bytes → Prop) (c v : KxPair) : Prop :=
  v.tool = c.tool ∧ GoodTool c.tool ∧ v.signet = none ∧ ∃ g pub q q', c.signet = some g ∧ HasPair pair c.tool g pub ∧
    v.peer = some q ∧ q.load P = .ok q' ∧ q'.loadedPub = some pub

/-- A key encapsulation pair of the client and the corresponding pair of the server. -/
def MatchKE (P : Prims) (pair : Bytes → Bytes → Bytes → Prop) (c v : KePair) : Prop :=
  v.tool = c.tool ∧ GoodTool c.tool ∧ ∃ g pub q q', c.signet = some g ∧ HasPair pair c.tool g pub ∧
    v.signet = some q ∧ q.load P = .ok q' ∧ q'.loadedPub = some pub

theorem All2.comp {α β γ : Type} {R : α → β → Prop} {S : β → γ → Prop} {T : α → γ → Prop} {as : List α} {bs : List β} {cs : List γ}
    (h1 : All2 R as bs) (h2 : All2 S bs cs) (H : ∀ a b c, R a b → S b c → T a c) : All2 T as cs := by
  induction h1 generalizing cs with
  | nil => cases h2; exact .nil
  | cons hr _ ih =>
    cases h2 with
    | cons hs hs' => exact .cons (H _ _ _ hr hs) (ih hs')

theorem All2.zip {α β γ δ : Type} {R : α → β → Prop} {S : β → γ → Prop} {T : δ → γ → Prop} {f : α → β → δ}
    {as : List α} {bs : List β} {cs : List γ}
    (h1 : All2 R as bs) (h2 : All2 S bs cs) (H : ∀ a b c, R a b → S b c → T (f a b) c) : All2 T (List.zipWith f as bs) cs := by
  induction h1 generalizing cs with
  | nil => cases h2; exact .nil
  | cons hr _ ih =>
    cases h2 with
    | cons hs hs' => exact .cons (H _ _ _ hr hs) (ih hs')

theorem sharedKey_ok {P : Prims} {p : KxPair} {g q q' : Signet} {priv pub : Bytes} (h1 : p.signet = some g) (h2 : p.peer = some q)
    (h3 : q.load P = .ok q') (h4 : g.loadedPriv = some priv) (h5 : q'.loadedPub = some pub) :
    (sharedKey P p).2 = .ok (P.dh p.tool.info.name priv pub) := by
  simp only [sharedKey, h1, h2, h3, makeShared, h4, h5]

theorem encapOne_ok {P : Prims} {pair} (hP : P.Correct pair) {rng : Rng} {s : Session} {c : Nat} {p : KePair} {m : Bytes × Seal}
    (h : (encapOne P rng s c p).2 = .ok m) {q q' : Signet} {pub : Bytes} (h2 : p.signet = some q) (h3 : q.load P = .ok q')
    (h5 : q'.loadedPub = some pub) {priv : Bytes} (hp : pair p.tool.info.name pub priv) :
    m.2.id = [] ∧ P.unwrap p.tool.info.name p.tool.hashName priv m.2.value = .ok m.1 := by
  simp only [encapOne, h2, h3] at h
  split at h
  · cases h
  · rename_i key hkey
    split at h
    · cases h
    · rename_i w hw
      cases h
      refine ⟨rfl, ?_⟩
      simp only [encapsulate, h5] at hw
      split at hw
      · rename_i bits hh hb hhash
        split at hw
        · cases hw
        · have : p.tool.hashName = hh.name := by unfold ToolInst.hashName; rw [hhash]
          rw [this]
          exact hP.encap _ _ _ _ _ _ _ hp hw
      · cases hw

/-- The server's answer is understood by the client: both derive the same new key material. -/
theorem answer_spec {P : Prims} {pair} (hP : P.Correct pair) {rng : Rng} {s : Session} {w w' : Wire} {out : SendOut}
    {ckx : List KxPair} {cke : List KePair} (hx : All2 (MatchKX P pair) ckx w.kx) (he : All2 (MatchKE P pair) cke w.ke)
    (h : complete P rng s w = (w', .ok out)) :
    (∃ kx ke, w' = { w with kx := kx, ke := ke, newMaterial := out.material, hs := .awaitApply }) ∧
    out.apply = false ∧ out.burn = false ∧ out.keys.length = ckx.length + cke.length ∧
    ∀ (wc : Wire) (l : Letter), wc.kx = ckx → wc.ke = cke → l.keys = out.keys → out.keys.length ≠ 0 →
      ∃ kx ke, recvAnswer P wc l = ({ wc with kx := kx, ke := ke, newMaterial := out.material, hs := .sendApply }, .ok out.material) := by
  have hkeall : ∀ p ∈ w.ke, p.signet.isSome = true := by
    intro p hp
    obtain ⟨c, _, _, _, g, pub, q, q', _, _, h3, _⟩ := he.mem_right hp
    rw [h3]; rfl
  unfold complete at h
  generalize hg : genKX P rng 1 w.kx = x at h
  obtain ⟨kx1, r1⟩ := x
  cases r1 with
  | error e => cases h
  | ok a =>
    simp only at h
    generalize hsh : sharedKeys P kx1 = x at h
    obtain ⟨kx2, r2⟩ := x
    cases r2 with
    | error e => cases h
    | ok shared =>
      simp only [genKE_all (P := P) (rng := rng) (ctr := 1 + w.kx.length) hkeall] at h
      generalize hen : encapAll P rng s (1 + w.kx.length + w.ke.length) w.ke = x at h
      obtain ⟨ke2, r3⟩ := x
      cases r3 with
      | error e => cases h
      | ok c =>
        simp only [Prod.mk.injEq, Except.ok.injEq] at h
        obtain ⟨hw, ho⟩ := h
        subst ho
        obtain ⟨xs, e1, e2, e3⟩ := genKX_none hP (pair := pair) (by
          intro p hp
          obtain ⟨cp, _, h1, h2, h3, _⟩ := hx.mem_right hp
          exact ⟨h3, by rw [h1]; exact h2⟩) hg
        obtain ⟨_, f2⟩ := sharedKeys_ok.mp hsh
        rw [e1, All2.map_left] at f2
        have f3 := encapAll_ok hen
        have lx := hx.length
        have l3 := e3.length
        have le := he.length
        have lc := f3.length
        have hlen : (a ++ [] ++ c.map (fun m : Bytes × Seal => m.2)).length = ckx.length + cke.length := by
          rw [e2]; simp only [List.length_append, List.length_map, List.length_nil]; omega
        refine ⟨⟨kx2, ke2, hw.symm⟩, rfl, rfl, hlen, ?_⟩
        intro wc l hk1 hk2 hl hne
        have hl' : l.keys = [] ++ a ++ c.map (fun m : Bytes × Seal => m.2) := by rw [hl]; simp
        have a1 := assignKX_ok (version := l.version) (keys := l.keys) (ps := ckx) (seals := a) (pre := []) (post := c.map (fun m : Bytes × Seal => m.2)) hl'
          (by rw [e2]; simp only [List.length_map]; omega)
        have a2 := assignSeals_ok (keys := l.keys) (ps := cke) (seals := c.map (fun m : Bytes × Seal => m.2)) (pre := a) (post := [])
          (by rw [hl]; simp) (by simp only [List.length_map]; omega)
        have hal : a.length = ckx.length := by rw [e2]; simp only [List.length_map]; omega
        rw [hal] at a2
        -- relation between client pairs and generated server pairs
        have b1 : All2 (fun (cp : KxPair) (x : KxPair × Seal) => x.1.tool = cp.tool ∧ GoodTool cp.tool ∧
            ∃ g pub priv q q' g' pub' priv', cp.signet = some g ∧ g.loadedPriv = some priv ∧ pair cp.tool.info.name pub priv ∧
              x.1.peer = some q ∧ q.load P = .ok q' ∧ q'.loadedPub = some pub ∧ x.1.signet = some g' ∧ g'.loadedPriv = some priv' ∧
              pair cp.tool.info.name pub' priv' ∧ LoadsTo P cp.tool x.2.value pub') ckx xs := by
          refine All2.comp hx e3 ?_
          rintro cp v x ⟨m1, m2, m3, g, pub, q, q', m4, ⟨priv, _, m5, m6⟩, m7, m8, m9⟩ ⟨n1, n2, n3, g', pub', n4, ⟨priv', _, n5, n6⟩, n7⟩
          rw [m1] at n6 n7
          exact ⟨by rw [n1, m1], m2, g, pub, priv, q, q', g', pub', priv', m4, m5, m6, by rw [n2, m7], m8, m9, n4, n5, n6, n7⟩
        have s1 : All2 (fun p k => (sharedKey P p).2 = .ok k)
            (List.zipWith (fun p sl => { p with peer := some (peerOf l.version p.tool sl.value) }) ckx a) shared := by
          rw [e2, List.zipWith_map_right]
          refine All2.zip b1 f2 ?_
          rintro cp x k ⟨m1, m2, g, pub, priv, q, q', g', pub', priv', o1, o2, o3, o4, o5, o6, o7, o8, o9, o10⟩ hk
          obtain ⟨pq, l1, l2⟩ := load_peer m2 o10 l.version
          rw [sharedKey_ok (p := { cp with peer := some (peerOf l.version cp.tool x.2.value) }) o1 rfl l1 o2 l2]
          rw [sharedKey_ok o7 o4 o5 o8 o6, m1] at hk
          rw [← hk, hP.dh _ _ _ _ _ o3 o9]
        have b2 : All2 (fun (cp : KePair) (m : Bytes × Seal) => ∃ g priv, cp.signet = some g ∧ g.loadedPriv = some priv ∧
            P.unwrap cp.tool.info.name cp.tool.hashName priv m.2.value = .ok m.1) cke c := by
          refine All2.comp he f3 ?_
          rintro cp v m ⟨m1, m2, g, pub, q, q', m4, ⟨priv, _, m5, m6⟩, m7, m8, m9⟩ ⟨ctr, hm⟩
          have := (encapOne_ok hP hm m7 m8 m9 (by rw [m1]; exact m6)).2
          rw [m1] at this
          exact ⟨g, priv, m4, m5, this⟩
        have s2 : unwrapAll P (List.zipWith (fun p sl => { p with sl := some sl }) cke (c.map (fun m : Bytes × Seal => m.2))) = .ok (c.map (fun m : Bytes × Seal => m.1)) := by
          apply unwrapAll_ok
          rw [List.zipWith_map_right, All2.map_right]
          refine All2.zip b2 (All2.refl_of (R := Eq) (as := c) (fun _ _ => rfl)) ?_
          rintro cp m k ⟨g, priv, h1, h2, h3⟩ rfl
          simp only [unwrapOne, h1, unwrapKey, h2, h3]
        refine ⟨(List.zipWith (fun p sl => { p with peer := some (peerOf l.version p.tool sl.value) }) ckx a).map
            (fun p => (sharedKey P p).1),
          List.zipWith (fun p sl => { p with sl := some sl }) cke (c.map (fun m : Bytes × Seal => m.2)), ?_⟩
        unfold recvAnswer
        have z1 : l.keys.length ≠ 0 := by rw [hl]; exact hne
        have z2 : l.keys.length = ckx.length + cke.length := by rw [hl]; exact hlen
        rw [if_neg z1, hk1, hk2, if_neg (by rw [z2]; simp)]
        simp only [List.length_nil] at a1
        rw [a1]
        simp only
        rw [a2]
        simp only
        rw [sharedKeys_ok.mpr ⟨rfl, s1⟩]
        simp only
        rw [s2]

/-! ## The first message -/

theorem collectFrom_map {α β γ : Type} {g : Nat → α → Res β} (f : β → γ) : ∀ {xs : List α} {i : Nat} {ys : List β},
    collectFrom g i xs = .ok ys → collectFrom (fun c x => g c x >>= fun r => .ok (f r)) i xs = .ok (ys.map f)
  | [], _, _, h => by cases h; rfl
  | x :: xs, i, ys, h => by
    obtain ⟨y, zs, h1, h2, rfl⟩ := collectFrom_cons_ok.mp h
    exact collectFrom_cons_ok.mpr ⟨f y, zs.map f, by rw [h1, ok_bind], collectFrom_map f h2, rfl⟩

theorem loop_wkx {P : Prims} {rng : Rng} : ∀ {xs : List (ToolInst × Signet)} {x x' : WKM},
    loopKM (fun x (p : ToolInst × Signet) => wCloseKX P rng p.1 x p.2) x xs = (x', .ok ()) →
    ∃ rs : List (Signet × Bytes × Seal), collectFrom (fun c (p : ToolInst × Signet) => kxOffer P p.1 (rng.seed c) p.2) x.km.ctr xs = .ok rs ∧
      x' = { km := { keys := x.km.keys ++ rs.map (·.2.2), material := x.km.material ++ rs.map (·.2.1), ctr := x.km.ctr + xs.length },
             kx := x.kx ++ List.zipWith (fun (p : ToolInst × Signet) (r : Signet × Bytes × Seal) => { tool := p.1, signet := some r.1 }) xs rs,
             ke := x.ke }
  | [], x, x', h => by
    cases h; exact ⟨[], rfl, by simp⟩
  | p :: xs, x, x', h => by
    rw [loopKM] at h
    simp only [wCloseKX] at h
    cases hk : kxOffer P p.1 (rng.seed x.km.ctr) p.2 with
    | error e => rw [hk] at h; cases h
    | ok r =>
      obtain ⟨a, b, c⟩ := r
      rw [hk] at h
      simp only at h
      obtain ⟨rs, h1, h2⟩ := loop_wkx h
      refine ⟨(a, b, c) :: rs, collectFrom_cons_ok.mpr ⟨_, _, hk, h1, rfl⟩, ?_⟩
      rw [h2]
      simp only [List.map_cons, List.append_assoc, List.cons_append, List.nil_append, List.zipWith_cons_cons, List.length_cons]
      congr 2
      omega

theorem loop_wke {P : Prims} {cfg : Config} {rng : Rng} {s : Session} : ∀ {xs : List (ToolInst × Signet)} {x x' : WKM},
    loopKM (fun x (p : ToolInst × Signet) => wCloseKE P cfg rng s p.1 x p.2) x xs = (x', .ok ()) →
    ∃ ms : List (Bytes × Seal), collectFrom (fun c (p : ToolInst × Signet) => keOffer P cfg rng s c p.1 p.2) x.km.ctr xs = .ok ms ∧
      x' = { km := { keys := x.km.keys ++ ms.map (·.2), material := x.km.material ++ ms.map (·.1), ctr := x.km.ctr + xs.length },
             kx := x.kx, ke := x.ke ++ xs.map (fun p => { tool := p.1 }) }
  | [], x, x', h => by
    cases h; exact ⟨[], rfl, by simp⟩
  | p :: xs, x, x', h => by
    rw [loopKM] at h
    simp only [wCloseKE, closeKE] at h
    cases hk : keOffer P cfg rng s x.km.ctr p.1 p.2 with
    | error e => rw [hk] at h; cases h
    | ok r =>
      obtain ⟨a, b⟩ := r
      rw [hk] at h
      simp only at h
      obtain ⟨rs, h1, h2⟩ := loop_wke h
      refine ⟨(a, b) :: rs, collectFrom_cons_ok.mpr ⟨_, _, hk, h1, rfl⟩, ?_⟩
      rw [h2]
      simp only [List.map_cons, List.append_assoc, List.cons_append, List.nil_append, List.length_cons]
      congr 2
      omega

theorem wSetupClosing_spec {P : Prims} {cfg : Config} {rng : Rng} {s : Session} {nonce : Bytes} {x : WKM}
    (hx : (s.queue .keyExchange).length ≤ 1) (he : (s.queue .keyEncapsulation).length ≤ 1)
    (hk : ofScheme s.env.secrets schemeKey = []) (hp : ofScheme s.env.secrets schemePassword = [])
    (h : wSetupClosing P cfg rng s nonce [] [] = (x, .ok ())) :
    closingMaterial P cfg rng s nonce = .ok x.km ∧
    ∃ (rs : List (Signet × Bytes × Seal)) (ids : List Seal),
      collectFrom (fun c (p : ToolInst × Signet) => kxOffer P p.1 (rng.seed c) p.2) 1 (s.pairs .keyExchange) = .ok rs ∧
      x.kx = List.zipWith (fun (p : ToolInst × Signet) (r : Signet × Bytes × Seal) => { tool := p.1, signet := some r.1 }) (s.pairs .keyExchange) rs ∧
      x.ke = (s.pairs .keyEncapsulation).map (fun p => { tool := p.1 }) ∧
      x.km.keys = rs.map (fun r => r.2.2) ++ ids := by
  unfold wSetupClosing at h
  rw [hk, hp] at h
  simp only [loopKM, closeKeys] at h
  have o1 := overTools_one (fun x t k => wCloseKX P rng t x k) s .keyExchange hx
  have o2 := overTools_one (fun x t k => wCloseKE P cfg rng s t x k) s .keyEncapsulation he
  have e1 : ∀ x, overTools (fun x t => loopKM (wCloseKX P rng t) x (ofScheme s.env.recipients t.info.name)) x (.ok ())
      (s.queue .keyExchange) = _ := fun x => o1 x
  have e2 : ∀ x, overTools (fun x t => loopKM (wCloseKE P cfg rng s t) x (ofScheme s.env.recipients t.info.name)) x (.ok ())
      (s.queue .keyEncapsulation) = _ := fun x => o2 x
  simp only [e1, e2] at h
  generalize hl : loopKM (fun x (p : ToolInst × Signet) => wCloseKX P rng p.1 x p.2) _ (s.pairs .keyExchange) = y at h
  obtain ⟨y, r⟩ := y
  cases r with
  | error e => cases h
  | ok u =>
    simp only at h
    obtain ⟨rs, r1, r2⟩ := loop_wkx hl
    obtain ⟨ms, m1, m2⟩ := loop_wke h
    subst r2
    simp only [List.map_nil, List.append_nil, List.nil_append] at r1 m1 m2
    subst m2
    have c1 : collectFrom (closeKXKey P rng) 1 (s.pairs .keyExchange) = .ok (rs.map (fun r => r.2)) := collectFrom_map (fun r : Signet × Bytes × Seal => r.2) r1
    refine ⟨?_, rs, ms.map (·.2), r1, rfl, rfl, rfl⟩
    unfold closingMaterial
    rw [hk, hp]
    simp only [collectFrom, ok_bind, c1, m1, List.map_nil, List.nil_append, List.map_map]
    rfl

theorem loop_wokx {P : Prims} {l : Letter} : ∀ {xs : List (ToolInst × Signet)} {x : WOM} {ms : List Bytes},
    collectFrom (openKXKey P l) x.om.idx xs = .ok ms →
    ∃ kx : List KxPair, All2 (fun (p : ToolInst × Signet) (q : KxPair) => q.tool = p.1 ∧ q.signet = none) xs kx ∧
    loopKM (fun x (p : ToolInst × Signet) => wOpenKX P l p.1 x p.2) x xs =
      ({ om := { material := x.om.material ++ ms, idx := x.om.idx + xs.length }, kx := x.kx ++ kx, ke := x.ke }, .ok ())
  | [], x, ms, h => by
    cases h; exact ⟨[], .nil, by simp [loopKM]⟩
  | p :: xs, x, ms, h => by
    obtain ⟨y, zs, h1, h2, rfl⟩ := collectFrom_cons_ok.mp h
    unfold openKXKey at h1
    split at h1
    · cases h1
    · rename_i sl hsl
      simp only [bind_ok_iff] at h1
      obtain ⟨peer, h3, h4⟩ := h1
      obtain ⟨kx, i1, i2⟩ := loop_wokx (x := { om := { material := x.om.material ++ [y], idx := x.om.idx + 1 }, kx := x.kx ++ [{ tool := p.1, peer := some peer }], ke := x.ke }) h2
      refine ⟨{ tool := p.1, peer := some peer } :: kx, .cons ⟨rfl, rfl⟩ i1, ?_⟩
      have hst : wOpenKX P l p.1 x p.2 = ({ om := { material := x.om.material ++ [y], idx := x.om.idx + 1 }, kx := x.kx ++ [{ tool := p.1, peer := some peer }], ke := x.ke }, .ok ()) := by
        simp only [wOpenKX, hsl, h3, h4]
      rw [loopKM, hst]
      dsimp only
      rw [i2]
      simp only [List.append_assoc, List.cons_append, List.nil_append, List.length_cons]
      congr 3
      omega

theorem loop_woke {P : Prims} {l : Letter} : ∀ {xs : List (ToolInst × Signet)} {x : WOM} {ms : List Bytes},
    collectFrom (openKEKey P l) x.om.idx xs = .ok ms →
    loopKM (fun x (p : ToolInst × Signet) => wOpenKE P l p.1 x p.2) x xs =
      ({ om := { material := x.om.material ++ ms, idx := x.om.idx + xs.length }, kx := x.kx, ke := x.ke ++ xs.map (fun p => { tool := p.1 }) }, .ok ())
  | [], x, ms, h => by
    cases h; simp [loopKM]
  | p :: xs, x, ms, h => by
    obtain ⟨y, zs, h1, h2, rfl⟩ := collectFrom_cons_ok.mp h
    unfold openKEKey at h1
    split at h1
    · cases h1
    · rename_i sl hsl
      have ih := loop_woke (x := { om := { material := x.om.material ++ [y], idx := x.om.idx + 1 }, kx := x.kx, ke := x.ke ++ [{ tool := p.1 }] }) h2
      have hst : wOpenKE P l p.1 x p.2 = ({ om := { material := x.om.material ++ [y], idx := x.om.idx + 1 }, kx := x.kx, ke := x.ke ++ [{ tool := p.1 }] }, .ok ()) := by
        simp only [wOpenKE, openKE, hsl, h1]
      rw [loopKM, hst]
      dsimp only
      rw [ih]
      simp only [List.append_assoc, List.cons_append, List.nil_append, List.length_cons, List.map_cons]
      congr 3
      omega

theorem wSetupOpening_spec {P : Prims} {cfg : Config} {s : Session} {l : Letter} {m : List Bytes}
    (hx : (s.queue .keyExchange).length ≤ 1) (he : (s.queue .keyEncapsulation).length ≤ 1)
    (hk : ofScheme s.env.secrets schemeKey = []) (hp : ofScheme s.env.secrets schemePassword = [])
    (h : openingMaterial P cfg s l = .ok m) :
    ∃ x : WOM, wSetupOpening P cfg s l [] [] = (x, .ok ()) ∧ x.om.material = m ∧
      All2 (fun (p : ToolInst × Signet) (q : KxPair) => q.tool = p.1 ∧ q.signet = none) (s.pairs .keyExchange) x.kx ∧
      x.ke = (s.pairs .keyEncapsulation).map (fun p => { tool := p.1 }) := by
  simp only [openingMaterial, hk, hp, bind_ok_iff, List.length_nil, collectFrom, List.map_nil, Nat.zero_add] at h
  obtain ⟨pws, h0, kxs, h1, kes, h2, h3⟩ := h
  cases h0
  cases h3
  have o1 := overTools_one (fun x t k => wOpenKX P l t x k) s .keyExchange hx
  have o2 := overTools_one (fun x t k => wOpenKE P l t x k) s .keyEncapsulation he
  have e1 : ∀ x, overTools (fun x t => loopKM (wOpenKX P l t) x (ofScheme s.env.recipients t.info.name)) x (.ok ())
      (s.queue .keyExchange) = _ := fun x => o1 x
  have e2 : ∀ x, overTools (fun x t => loopKM (wOpenKE P l t) x (ofScheme s.env.recipients t.info.name)) x (.ok ())
      (s.queue .keyEncapsulation) = _ := fun x => o2 x
  unfold wSetupOpening
  dsimp only
  rw [hk, hp]
  simp only [loopKM, e1, e2, List.map_nil, List.length_nil]
  obtain ⟨kx, k1, k2⟩ := loop_wokx (P := P) (l := l) (x := { om := { material := [], idx := 0 }, kx := [], ke := [] }) h1
  rw [k2]
  dsimp only
  have k3 := loop_woke (P := P) (l := l) (xs := s.pairs .keyEncapsulation)
    (x := { om := { material := [] ++ kxs, idx := 0 + (s.pairs .keyExchange).length }, kx := [] ++ kx, ke := [] }) (ms := kes)
    (by simpa using h2)
  rw [k3]
  exact ⟨_, rfl, rfl, by simpa using k1, by simp⟩

end Jess
