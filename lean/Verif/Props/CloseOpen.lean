import Verif.Props.RoundTrip

/-!
# C10: what was closed can be opened
-/

namespace Jess

open Requirements

/-- What a valid signature for a signer means to whoever holds the signer's public key. -/
def SignedFor (P : Prims) (pair : Bytes → Bytes → Bytes → Prop) (fed : Bytes) (x : ToolInst × Signet) (sig : Seal) : Prop :=
  sig.scheme = x.1.info.name ∧ sig.id = x.2.id ∧
  (∀ pub priv o, x.2.loadedPub = some pub → x.2.loadedPriv = some priv → pair x.1.info.name pub priv → o.loadedPub = some pub →
    toolVerify P x.1 (P.hash x.1.hashName fed) sig.value o = .ok ())

theorem signLetter_ok {P : Prims} {pair} (hP : P.Correct pair) {rng : Rng} {s : Session} {st : SState} {ctr : Nat} {ad : Bytes}
    {l l' : Letter} (hf : st.fed = []) (hsig : l.signatures = []) (h : (signLetter P rng s st ctr ad l).2 = .ok l') :
    ∃ sigs, l' = { l with signatures := sigs } ∧
      All2 (SignedFor P pair (l.data ++ l.compileSigningData ad)) s.signerPairs sigs := by
  unfold signLetter at h
  split at h
  · rename_i he
    cases h
    refine ⟨[], by rw [← hsig], ?_⟩
    have : s.signerPairs = [] := by
      unfold Session.signerPairs; rw [List.isEmpty_iff.mp he]; rfl
    rw [this]; exact .nil
  · simp only at h
    rw [hf, List.nil_append] at h
    split at h
    · cases h
    · rename_i sigs hs
      cases h
      rw [hsig, List.nil_append]
      exact ⟨sigs, rfl, signAll_spec hP hs⟩

/-- The signature check of the session that opens. -/
theorem checkSignatures_of_signed {P : Prims} {pair} {s : Session} {eo : Envelope} {l : Letter} {st : SState} (hf : st.fed = [])
    (hnames : ∀ t ∈ s.insts, t.info.name ≠ [])
    (hsg : All2 (SignedFor P pair (l.data ++ l.compileSigningData (s.adOf l))) s.signerPairs l.signatures)
    (hlen : eo.senders.length = l.signatures.length)
    (hS : ∀ t ∈ s.queue .signing, All2 (fun k o => ∃ pub priv, k.loadedPub = some pub ∧ k.loadedPriv = some priv ∧
        pair k.scheme pub priv ∧ o.loadedPub = some pub) (ofScheme s.env.senders t.info.name) (ofScheme eo.senders t.info.name)) :
    (checkSignatures P { s with env := eo } st l).2 = .ok () := by
  have hq : ({ s with env := eo } : Session).queue .signing = s.queue .signing := rfl
  have had : ({ s with env := eo } : Session).adOf l = s.adOf l := rfl
  unfold checkSignatures
  rw [hq, had]
  split
  · rfl
  · simp only [hlen, ne_eq, not_true_eq_false, if_false]
    rw [hf, List.nil_append]
    have h0 := verifyAll_of_all2 (P := P) (fed := l.data ++ l.compileSigningData (s.adOf l)) l.signatures
      (({ s with env := eo } : Session).signerPairs) [] l.signatures rfl
    apply h0
    have hp := all2_toolPairs (R := fun x o => x.2.scheme = x.1.info.name ∧ ∃ pub priv, x.2.loadedPub = some pub ∧ x.2.loadedPriv = some priv ∧
        pair x.2.scheme pub priv ∧ o.loadedPub = some pub)
      (fun t => ofScheme s.env.senders t.info.name) (fun t => ofScheme eo.senders t.info.name) (s.queue .signing)
      (fun t ht => (hS t ht).mono_mem fun a ha b _ h =>
        ⟨((mem_ofScheme (hnames t (mem_queue.mp ht).1) a).mp ha).2, h⟩)
    have hp' : All2 (fun x y => x.1 = y.1 ∧ x.2.scheme = x.1.info.name ∧ ∃ pub priv, x.2.loadedPub = some pub ∧ x.2.loadedPriv = some priv ∧
        pair x.2.scheme pub priv ∧ y.2.loadedPub = some pub) s.signerPairs (({ s with env := eo } : Session).signerPairs) := hp
    have comb : ∀ {xs ys : List (ToolInst × Signet)} {zs : List Seal},
        All2 (fun x y => x.1 = y.1 ∧ x.2.scheme = x.1.info.name ∧ ∃ pub priv, x.2.loadedPub = some pub ∧ x.2.loadedPriv = some priv ∧
          pair x.2.scheme pub priv ∧ y.2.loadedPub = some pub) xs ys →
        All2 (SignedFor P pair (l.data ++ l.compileSigningData (s.adOf l))) xs zs →
        All2 (fun x (sig : Seal) => toolVerify P x.1 (P.hash x.1.hashName (l.data ++ l.compileSigningData (s.adOf l))) sig.value x.2 = .ok ()) ys zs := by
      intro xs ys zs h1 h2
      induction h1 generalizing zs with
      | nil => cases h2; exact .nil
      | cons hr _ ih =>
        cases h2 with
        | cons g1 g2 =>
          refine .cons ?_ (ih g2)
          obtain ⟨e1, e2, pub, priv, a, b, c, d⟩ := hr
          rw [← e1]
          exact g1.2.2 pub priv _ a b (e2 ▸ c) d
    exact comb hp' hsg

theorem all2_map_eq {α β γ : Type} {f : α → γ} {g : β → γ} {xs : List α} {ys : List β} (h : All2 (fun a b => g b = f a) xs ys) :
    ys.map g = xs.map f := by
  induction h with
  | nil => rfl
  | cons hr _ ih => rw [List.map_cons, List.map_cons, hr, ih]

theorem all2_trans {α β γ : Type} {R : α → β → Prop} {S : α → γ → Prop} {T : β → γ → Prop}
    (hT : ∀ a b c, R a b → S a c → T b c) {xs : List α} {ys : List β} {zs : List γ}
    (h1 : All2 R xs ys) (h2 : All2 S xs zs) : All2 T ys zs := by
  induction h1 generalizing zs with
  | nil => cases h2; exact .nil
  | cons hr _ ih => cases h2 with | cons g1 g2 => exact .cons (hT _ _ _ hr g1) (ih g2)

/-- The session that opens establishes the same key material as the session that closed the letter. -/
theorem same_material {P : Prims} {pair} (hP : P.Correct pair) {cfg : Config} {rng : Rng} {s : Session} {nonce : Bytes} {km : KM}
    (hins : ∀ t ∈ s.insts, getTool t.info.name = some t.info ∧ t.info.name ≠ [] ∧ t.info.name ≠ schemeKey ∧ t.info.name ≠ schemePassword)
    (h : closingMaterial P cfg rng s nonce = .ok km) :
    (∃ rs, km.keys = keySeals (ofScheme s.env.secrets schemeKey) ++ pwSeals (ofScheme s.env.secrets schemePassword) ++ rs ∧
      All2 (fun x sl => sl.scheme = [] ∧ sl.id = x.2.id)
        (toolPairs s.rcptTools (fun t => ofScheme s.env.recipients t.info.name)) rs) ∧
    ∀ (eo : Envelope) (l : Letter) (ext : List Seal), l.keys = km.keys ++ ext → l.nonce = nonce →
      All2 (fun k o => o.key = k.key) (ofScheme s.env.secrets schemeKey) (ofScheme eo.secrets schemeKey) →
      All2 (fun k o => o.key = k.key) (ofScheme s.env.secrets schemePassword) (ofScheme eo.secrets schemePassword) →
      (∀ t ∈ s.rcptTools, All2 (PrivOf pair) (ofScheme s.env.recipients t.info.name) (ofScheme eo.recipients t.info.name)) →
      openingMaterial P cfg { s with env := eo } l = .ok km.material := by
  simp only [closingMaterial, bind_ok_iff] at h
  obtain ⟨pws, h1, kxs, h2, kes, h3, h4⟩ := h
  cases h4
  have qin : ∀ p, ∀ x ∈ s.pairs p, x.1 ∈ s.insts ∧ x.1.info.purpose = p ∧ x.2.scheme = x.1.info.name := by
    intro p x hx
    obtain ⟨t, ht, hx⟩ := List.mem_flatMap.mp hx
    obtain ⟨k, hk, rfl⟩ := List.mem_map.mp hx
    obtain ⟨m1, m2⟩ := mem_queue.mp ht
    exact ⟨m1, m2, ((mem_ofScheme (hins t m1).2.1 k).mp hk).2⟩
  have kx2 : All2 (fun (x : ToolInst × Signet) (m : Bytes × Seal) => m.2.scheme = [] ∧ m.2.id = x.2.id ∧
      (∀ o v, PrivOf pair x.2 o → (peerSignet P v x.1 m.2.value >>= fun peer => makeShared P x.1.info.name o peer) = .ok m.1))
      (s.pairs .keyExchange) kxs := by
    refine collectFrom_all2 h2 ?_
    intro j x y hx hy
    obtain ⟨m1, m2, m3⟩ := qin _ x hx
    simp only [closeKXKey, bind_ok_iff] at hy
    obtain ⟨r, hr, hy⟩ := hy
    cases hy
    obtain ⟨t1, t2, t3, t4⟩ := hins x.1 m1
    obtain ⟨a, b, c⟩ := kxOffer_spec hP t1 (by rw [m2]; rfl) hr t3 t4
    exact ⟨a, b, c m3⟩
  have ke2 : All2 (fun (x : ToolInst × Signet) (m : Bytes × Seal) => m.2.scheme = [] ∧ m.2.id = x.2.id ∧
      (∀ o, PrivOf pair x.2 o → unwrapKey P x.1 m.2.value o = .ok m.1))
      (s.pairs .keyEncapsulation) kes := by
    refine collectFrom_all2 h3 ?_
    intro j x y hx hy
    obtain ⟨m1, m2, m3⟩ := qin _ x hx
    obtain ⟨a, b, c⟩ := keOffer_spec hP hy
    exact ⟨a, b, c m3⟩
  refine ⟨⟨kxs.map (·.2) ++ kes.map (·.2), ?_, ?_⟩, ?_⟩
  · simp only [keySeals, pwSeals, List.append_assoc]
  · unfold Session.rcptTools
    rw [toolPairs_append, ← pairs_eq, ← pairs_eq]
    refine All2.append ?_ ?_
    · rw [All2.map_right]; exact kx2.mono fun a b h => ⟨h.1, h.2.1⟩
    · rw [All2.map_right]; exact ke2.mono fun a b h => ⟨h.1, h.2.1⟩
  · intro eo l ext hk hn hK hW hR
    have rel : ∀ p, (∀ t ∈ s.queue p, t ∈ s.rcptTools) →
        All2 (fun x y => x.1 = y.1 ∧ PrivOf pair x.2 y.2) (s.pairs p) (({ s with env := eo } : Session).pairs p) := by
      intro p hp
      exact all2_toolPairs (R := fun x o => PrivOf pair x.2 o) (fun t => ofScheme s.env.recipients t.info.name)
        (fun t => ofScheme eo.recipients t.info.name) (s.queue p) (fun t ht => hR t (hp t ht))
    have relX := rel .keyExchange (fun t ht => List.mem_append.mpr (Or.inl ht))
    have relE := rel .keyEncapsulation (fun t ht => List.mem_append.mpr (Or.inr ht))
    have p2 := collectFrom_const.mp h1
    have o1 : ∀ i, collectFrom (fun _ => passKey P cfg { s with env := eo } l.nonce) i (ofScheme eo.secrets schemePassword) = .ok pws := by
      intro i
      rw [collectFrom_const]
      refine all2_trans ?_ hW p2
      intro a b c hab hac
      rw [← hac, hn]
      simp only [passKey, hab]
      rfl
    have lk := hK.length
    have lw := hW.length
    have o2 : collectFrom (openKXKey P l) ((ofScheme eo.secrets schemeKey).length + (ofScheme eo.secrets schemePassword).length)
        (({ s with env := eo } : Session).pairs .keyExchange) = .ok (kxs.map (·.1)) := by
      have := collect_seals (fun sl (x : ToolInst × Signet) =>
          peerSignet P l.version x.1 sl.value >>= fun peer => makeShared P x.1.info.name x.2 peer) l.keys
        (({ s with env := eo } : Session).pairs .keyExchange) kxs
        (keySeals (ofScheme s.env.secrets schemeKey) ++ pwSeals (ofScheme s.env.secrets schemePassword)) (kes.map (·.2) ++ ext)
        (by rw [hk]; simp only [keySeals, pwSeals, List.append_assoc])
        (all2_trans (fun a b c hab hac => by
          have := hac.2.2 b.2 l.version hab.2
          rw [hab.1] at this
          exact this) relX kx2)
      rw [← this]
      congr 1
      simp only [keySeals, pwSeals, List.length_append, List.length_map]
      omega
    have o3 : collectFrom (openKEKey P l) ((ofScheme eo.secrets schemeKey).length + (ofScheme eo.secrets schemePassword).length +
        (({ s with env := eo } : Session).pairs .keyExchange).length)
        (({ s with env := eo } : Session).pairs .keyEncapsulation) = .ok (kes.map (·.1)) := by
      have := collect_seals (fun sl (x : ToolInst × Signet) => unwrapKey P x.1 sl.value x.2) l.keys
        (({ s with env := eo } : Session).pairs .keyEncapsulation) kes
        (keySeals (ofScheme s.env.secrets schemeKey) ++ pwSeals (ofScheme s.env.secrets schemePassword) ++ kxs.map (·.2)) ext
        (by rw [hk]; simp only [keySeals, pwSeals, List.append_assoc])
        (all2_trans (fun a b c hab hac => by
          have := hac.2.2 b.2 hab.2
          rw [hab.1] at this
          exact this) relE ke2)
      rw [← this]
      have l1 := relX.length
      have l2 := kx2.length
      congr 1
      simp only [keySeals, pwSeals, List.length_append, List.length_map]
      omega
    unfold openingMaterial
    have q1 : ofScheme ({ s with env := eo } : Session).env.secrets schemeKey = ofScheme eo.secrets schemeKey := rfl
    have q2 : ofScheme ({ s with env := eo } : Session).env.secrets schemePassword = ofScheme eo.secrets schemePassword := rfl
    dsimp only
    rw [o1, ok_bind, o2, ok_bind, o3, ok_bind, all2_map_eq hK]

theorem session_reqs_iff {P : Prims} {cfg : Config} {e : Envelope} {s : Session} (h : newSession P cfg e = .ok s) (a : Attr) :
    a ∈ s.reqs ↔ SessionHas s a := by
  obtain ⟨suite, is, lv, _, _, _, _, _, _, _, _, _, hs, _⟩ := (newSession_ok_iff P cfg e s).mp h
  rw [hs]; exact mkSession_reqs _ _ _ _ _ _

/-- A session without key derivation has no secrets and no tools for recipients. -/
theorem no_kdf_no_keys {P : Prims} {cfg : Config} {e : Envelope} {s : Session} (h : newSession P cfg e = .ok s)
    (hnd : (s.insts.map (·.info.name)).Nodup) (hk : s.kdf = none) :
    ofScheme s.env.secrets schemeKey = [] ∧ ofScheme s.env.secrets schemePassword = [] ∧ s.rcptTools = [] := by
  have hno : ¬ SessionHas s RecipientAuthentication := fun hr =>
    kdfTool_of_secret h ((session_reqs_iff h _).mpr hr) hk
  have hu := no_signet_ignored P cfg e s h hnd
  have hq : ∀ p, RecipientAuthentication ∈ providedBy p → s.queue p = [] := by
    intro p hp
    refine Classical.byContradiction fun hn => ?_
    obtain ⟨t, ht, htp⟩ := (queue_ne_nil_iff s p).mp hn
    exact hno (Or.inl ⟨t, ht, by rw [htp]; exact hp⟩)
  refine ⟨?_, ?_, ?_⟩
  · refine Classical.byContradiction fun hn => ?_
    obtain ⟨k, hk⟩ := List.exists_mem_of_ne_nil _ hn
    have := (mem_ofScheme (by decide) k).mp hk
    exact hno (Or.inr ⟨⟨k, this⟩, Or.inr rfl⟩)
  · refine Classical.byContradiction fun hn => ?_
    obtain ⟨k, hk⟩ := List.exists_mem_of_ne_nil _ hn
    have := (mem_ofScheme (by decide) k).mp hk
    rcases hu.secrets k this.1 with h1 | ⟨_, t, ht, hp⟩
    · rw [this.2] at h1; exact absurd h1 (by decide)
    · exact hno (Or.inl ⟨t, ht, by rw [hp]; decide⟩)
  · unfold Session.rcptTools
    rw [hq .keyExchange (by decide), hq .keyEncapsulation (by decide)]; rfl

/-- The part of `Session.open` after the signature check. -/
def openRest (P : Prims) (cfg : Config) (s s' : Session) (st : SState) (l : Letter) : SState × Res Bytes :=
  match s.kdf with
  | none => if !(s.queue .cipher).isEmpty || s.needsAD then (st, .error .config) else (st, .ok l.data)
  | some k =>
    match setupOpening P cfg s' l with
    | .error e => (st, .error e)
    | .ok material =>
      if kdfInitOK l.nonce material then decryptLetter P s' st k material 0 l
      else (st, .error .config)

/-- The general form: any suite with distinct tools and at most one key exchange and one key encapsulation tool. -/
theorem close_open_general {P : Prims} {pair : Bytes → Bytes → Bytes → Prop} (hP : P.Correct pair) {cfg : Config} {w : World}
    {reg : List Suite} {reqs : Option Requirements} {rng : Rng} {s : Session} {data : Bytes} {l : Letter}
    (hs : newSession P cfg s.env = .ok s) (hnd : (s.insts.map (·.info.name)).Nodup)
    (hx1 : (s.queue .keyExchange).length ≤ 1) (he1 : (s.queue .keyEncapsulation).length ≤ 1)
    (hv : s.env.version = 1) (hsu : getSuite reg s.env.suiteID = some s.suite) (hsid : s.env.suiteID ≠ [])
    (hlev : demandedLevel cfg 0 ≤ demandedLevel cfg s.env.securityLevel)
    (hids : (∀ k ∈ s.env.secrets, k.id ≠ []) ∧ (∀ k ∈ s.env.senders, k.id ≠ []) ∧ (∀ k ∈ s.env.recipients, k.id ≠ []))
    (hmix : ofScheme s.env.secrets schemeKey = [] ∨ ofScheme s.env.secrets schemePassword = [])
    (hcp : Counterparts P pair w s) (hreq : ∀ a ∈ reqs.getD full, a ∈ s.suite.provides)
    (hc : (s.close P cfg rng s.initState data).2 = .ok l) : l.open P cfg w reg reqs = .ok data := by
  have hins : ∀ t ∈ s.insts, getTool t.info.name = some t.info ∧ t.info.name ≠ [] ∧ t.info.name ≠ schemeKey ∧
      t.info.name ≠ schemePassword := by
    intro t ht
    obtain ⟨tid, _, hmk⟩ := inst_tool hs ht
    have := (makeInst_spec hmk).2.1
    exact ⟨getTool_name _ this, (toolTable_nonneg t.info this).2⟩
  have hfed : s.initState.fed = [] := rfl
  -- it suffices to know the letter
  have key : ∀ (rs : List Seal),
      l.keys = keySeals (ofScheme s.env.secrets schemeKey) ++ pwSeals (ofScheme s.env.secrets schemePassword) ++ rs →
      All2 (fun x sl => sl.scheme = [] ∧ sl.id = x.2.id) (toolPairs s.rcptTools (fun t => ofScheme s.env.recipients t.info.name)) rs →
      l.version = 1 → l.suiteID = s.env.suiteID →
      All2 (SignedFor P pair (l.data ++ l.compileSigningData (s.adOf l))) s.signerPairs l.signatures →
      (∀ eo : Envelope,
        All2 (fun k o => o.key = k.key) (ofScheme s.env.secrets schemeKey) (ofScheme eo.secrets schemeKey) →
        All2 (fun k o => o.key = k.key) (ofScheme s.env.secrets schemePassword) (ofScheme eo.secrets schemePassword) →
        (∀ t ∈ s.rcptTools, All2 (PrivOf pair) (ofScheme s.env.recipients t.info.name) (ofScheme eo.recipients t.info.name)) →
        l.keys.length ≤ eo.secrets.length + eo.senders.length + eo.recipients.length →
        ∀ st, Clean s st →
        (openRest P cfg s { s with env := eo } st l).2 = .ok data) →
      l.open P cfg w reg reqs = .ok data := by
    intro rs hk hrs hlv hlid hsg hrest
    obtain ⟨e0, eo, g1, g2, g3, g4, g5, g6, g7, g8⟩ := opener_session hs hnd hsu hsid hlev hids hmix hcp hreq hlv hlid hk hrs
      (hsg.mono fun a b h => ⟨h.1, h.2.1⟩)
    have hck := checkSignatures_of_signed (P := P) (pair := pair) (s := s) (eo := eo) (l := l)
      (st := ({ s with env := eo } : Session).initState) rfl (fun t ht => (hins t ht).2.1) hsg g7 g6
    have hcl := (checkSignatures_clean (P := P) (clean_init { s with env := eo }) l).1
    unfold Letter.open
    rw [g1, ok_bind, g2, ok_bind]
    unfold Session.open
    rw [if_neg (by rw [hlv]; decide)]
    generalize hce : checkSignatures P { s with env := eo } ({ s with env := eo } : Session).initState l = r at hck hcl ⊢
    obtain ⟨st, r⟩ := r
    simp only at hck hcl
    subst hck
    have hcl' : Clean s st := ⟨hcl.len, hcl.unused, hcl.fed⟩
    exact hrest eo g3 g4 g5 g8 st hcl'
  unfold Session.close at hc
  split at hc
  · cases hc
  · rename_i nonce hnon
    dsimp only at hc
    cases hk : s.kdf with
    | none =>
      rw [hk] at hc
      simp only at hc
      split at hc
      · cases hc
      · rename_i hcond
        obtain ⟨sigs, rfl, hsg⟩ := signLetter_ok hP hfed rfl hc
        obtain ⟨n1, n2, n3⟩ := no_kdf_no_keys hs hnd hk
        have hnad : s.needsAD = false := by
          cases hna : s.needsAD with
          | false => rfl
          | true => rw [hna, Bool.or_true] at hcond; exact absurd rfl hcond
        refine key [] ?_ ?_ hv rfl ?_ ?_
        · rw [n1, n2]; rfl
        · rw [n3]; exact .nil
        · unfold Session.adOf; rw [hnad]; exact hsg
        · intro eo _ _ _ _ st _
          unfold openRest
          rw [hk]
          simp only
          rw [if_neg hcond]
    | some k =>
      rw [hk] at hc
      simp only at hc
      rw [setupClosing_eq P cfg rng s nonce hx1 he1] at hc
      split at hc
      · cases hc
      · rename_i km hkm
        obtain ⟨⟨rs, hrk, hrs⟩, hmat⟩ := same_material hP hins hkm
        split at hc
        · rename_i hkdf
          split at hc
          · cases hc
          · rename_i st1 l1 henc
            unfold encryptLetter at henc
            split at henc
            · cases henc
            · rename_i tools hset
              simp only [Prod.mk.injEq] at henc
              obtain ⟨rfl, hprot⟩ := henc
              obtain ⟨sigs, rfl, hsg⟩ := signLetter_ok hP (by rfl) (by
                simp only [protect, bind_ok_iff] at hprot
                obtain ⟨_, _, _, _, _, _, h4⟩ := hprot
                cases h4; rfl) hc
              have hl1 : l1.keys = km.keys ∧ l1.version = 1 ∧ l1.suiteID = s.env.suiteID ∧ l1.nonce = nonce := by
                simp only [protect, bind_ok_iff] at hprot
                obtain ⟨_, _, _, _, _, _, h4⟩ := hprot
                cases h4; exact ⟨rfl, hv, rfl, rfl⟩
              refine key rs (by rw [← hrk]; exact hl1.1) hrs hl1.2.1 hl1.2.2.1 hsg ?_
              intro eo e1 e2 e3 e4 st hst
              unfold openRest
              rw [hk]
              simp only
              have hx1' : (({ s with env := eo } : Session).queue .keyExchange).length ≤ 1 := hx1
              have he1' : (({ s with env := eo } : Session).queue .keyEncapsulation).length ≤ 1 := he1
              rw [setupOpening_eq P cfg { s with env := eo } _ hx1' he1', if_neg (by simp only at e4 ⊢; omega)]
              rw [hmat eo { l1 with signatures := sigs } [] (by rw [List.append_nil]; exact hl1.1) hl1.2.2.2 e1 e2 e3]
              simp only
              rw [if_pos (by rw [hl1.2.2.2]; exact hkdf)]
              have hst' : ({ s with env := eo } : Session).stateful = s.stateful := rfl
              have hsp := setupTools_spec P s { s with env := eo } k nonce km.material rfl s.stateful 0 s.initState.tools st.tools
                (clean_init s).len hst.len (clean_init s).unused hst.unused
              obtain ⟨p1, p2, _⟩ := hsp
              have hset' : setupTools P s k nonce km.material 0 s.stateful s.initState.tools = (tools, .ok ()) := hset
              rw [hset'] at p1 p2
              unfold decryptLetter
              rw [hl1.2.2.2, hst']
              generalize setupTools P { s with env := eo } k nonce km.material 0 s.stateful st.tools = q at p1 p2 ⊢
              obtain ⟨q1, q2⟩ := q
              simp only at p1 p2
              subst p1
              have := p2 trivial
              subst this
              simp only
              have hup := unprotect_protect (s' := { s with env := eo }) hP rfl hprot sigs
              rw [← hl1.2.2.2]
              exact hup
        · cases hc

theorem registered_ids : ∀ su ∈ suiteRegistry, su.id ≠ [] := by decide +kernel

/-- C10. A letter closed by a session for one of the library's suites is opened by everyone who has the counterparts of the
signets (public keys of the senders, private keys of the recipients, the shared keys and passwords, each under the same ID),
and yields exactly the data that was closed, for every choice of requirements the suite meets. The conditions:
- the envelope does not demand less security than whoever opens the letter (else see C52);
- every signet of the session has an ID;
- not both a shared key and a password (else see `key_and_password_spill`, C50). -/
theorem close_open_roundtrip_partial (P : Prims) (pair : Bytes → Bytes → Bytes → Prop) (hP : P.Correct pair) (cfg : Config)
    (wc wo : World) (rng : Rng) (e : Envelope) (hes : e.suite = none) (hev : e.version = 1)
    (s : Session) (hs : correspondence P cfg wc suiteRegistry e = .ok s)
    (hlev : demandedLevel cfg 0 ≤ demandedLevel cfg e.securityLevel)
    (hids : (∀ k ∈ s.env.secrets, k.id ≠ []) ∧ (∀ k ∈ s.env.senders, k.id ≠ []) ∧ (∀ k ∈ s.env.recipients, k.id ≠ []))
    (hmix : (∀ k ∈ s.env.secrets, k.scheme ≠ schemeKey) ∨ (∀ k ∈ s.env.secrets, k.scheme ≠ schemePassword))
    (hcp : Counterparts P pair wo s) (reqs : Option Requirements) (hreq : ∀ a ∈ reqs.getD full, a ∈ s.suite.provides)
    (data : Bytes) (l : Letter) (hc : (s.close P cfg rng s.initState data).2 = .ok l) :
    l.open P cfg wo suiteRegistry reqs = .ok data := by
  simp only [correspondence, loadSuite, hes, bind_ok_iff] at hs
  obtain ⟨⟨e1, su⟩, h1, h2⟩ := hs
  split at h1
  · cases h1
  · rename_i su' hsu
    cases h1
    obtain ⟨e2, hp, hn⟩ := h2
    simp only [prepareSignets, bind_ok_iff] at hp
    obtain ⟨a, _, b, _, c, _, hx⟩ := hp
    cases hx
    obtain ⟨g1, g2⟩ := newSession_env hn
    simp only [Option.some.injEq] at g2
    have hmem := List.mem_of_find?_eq_some hsu
    have hidm : su.id = e.suiteID := by
      have := List.find?_some hsu
      simpa using this
    have hn' : newSession P cfg s.env = .ok s := by rw [g1]; exact hn
    obtain ⟨hnd, hone⟩ := registered_session hn' (by rw [← g2]; exact hmem)
    refine close_open_general hP hn' hnd (hone _ (by simp)) (hone _ (by simp)) (by rw [g1]; exact hev)
      (by rw [g1, ← g2]; exact hsu) (by rw [g1]; show e.suiteID ≠ []; rw [← hidm]; exact registered_ids su hmem)
      (by rw [g1]; exact hlev) hids ?_ hcp hreq hc
    rcases hmix with h | h
    · exact Or.inl (ofScheme_none (by decide) h)
    · exact Or.inr (ofScheme_none (by decide) h)

/-! ## The hypotheses can be met -/

/-- In the toy primitives, public and private keys are the same bytes, of length 3. -/
theorem toyPrims_correct : toyPrims.Correct (fun _ pub priv => pub = priv) where
  gen := by intro tool seed pub priv h; cases h; rfl
  dh := by
    intro tool a x b y h1 h2
    subst h1; subst h2
    show toyMix a b = toyMix b a
    unfold toyMix
    congr 1
    exact List.zipWith_comm_of_comm (fun x y => UInt8.add_comm x y)
  store := by
    intro tool pub priv k _ h
    cases h
    exact ⟨none, rfl⟩
  encap := by intro tool hash pub priv key seed w _ h; cases h; rfl
  cipher := by
    intro tool key nonce d c h
    cases h
    show Except.ok _ = _
    simp [List.map_map, Function.comp_def]
  aead := by
    intro tool key nonce ad d c h
    cases h
    show (if _ then _ else _) = _
    have h4 : (toyTag key nonce ad d).length = 4 := rfl
    rw [← h4, List.take_left, List.drop_left, if_pos rfl]
  sign := by
    intro tool hash pub priv digest seed sig h1 h2
    cases h2
    subst h1
    show (_ == _) = true
    simp

/-- The sender and the recipient of the example, as prepared by the session. -/
def toyAlice : Signet :=
  { version := 1, id := b!"alice", scheme := b!"Ed25519", key := [1, 42, 43], loadedPub := some [42, 43], loadedPriv := some [42, 43] }
def toyBob : Signet :=
  { version := 1, id := b!"bob", scheme := b!"ECDH-X25519", key := [1, 8, 9, 10], isPublic := true, loadedPub := some [8, 9, 10] }
/-- The same recipient as the opener's trust store returns it. -/
def toyBobPriv : Signet :=
  { version := 1, id := b!"bob", scheme := b!"ECDH-X25519", key := [1, 8, 9, 10], loadedPub := some [8, 9, 10], loadedPriv := some [8, 9, 10] }

/-- All hypotheses of `close_open_roundtrip_partial` are met by a signed and encrypted letter. -/
theorem roundtrip_example : ∃ s l,
    correspondence toyPrims toyConfig toyWorld suiteRegistry (toyEnvelope b!"v2" [] [b!"alice"] [b!"bob"]) = .ok s ∧
    Counterparts toyPrims (fun _ pub priv => pub = priv) toyWorld s ∧
    ((∀ k ∈ s.env.secrets, k.id ≠ []) ∧ (∀ k ∈ s.env.senders, k.id ≠ []) ∧ (∀ k ∈ s.env.recipients, k.id ≠ [])) ∧
    (∀ k ∈ s.env.secrets, k.scheme ≠ schemeKey) ∧
    (∀ a ∈ (none : Option Requirements).getD full, a ∈ s.suite.provides) ∧
    (s.close toyPrims toyConfig toyRng s.initState b!"hello").2 = .ok l := by
  have h : (match correspondence toyPrims toyConfig toyWorld suiteRegistry (toyEnvelope b!"v2" [] [b!"alice"] [b!"bob"]) with
    | .ok s => decide (s.env.secrets = []) && decide (s.env.senders = [toyAlice]) && decide (s.env.recipients = [toyBob]) &&
        decide (∀ a ∈ (none : Option Requirements).getD full, a ∈ s.suite.provides) &&
        (match (s.close toyPrims toyConfig toyRng s.initState b!"hello").2 with | .ok _ => true | .error _ => false)
    | .error _ => false) = true := by decide +kernel
  split at h
  · rename_i s hs
    simp only [Bool.and_eq_true, decide_eq_true_eq] at h
    obtain ⟨⟨⟨⟨h1, h2⟩, h3⟩, h4⟩, h5⟩ := h
    split at h5
    · rename_i l hl
      refine ⟨s, l, hs, ⟨?_, ?_, ?_, ?_⟩, ⟨?_, ?_, ?_⟩, ?_, h4, hl⟩
      · rw [h1]; simp
      · rw [h1]; simp
      · rw [h2]; intro k hk; rw [List.mem_singleton.mp hk]
        refine ⟨[42, 43], [42, 43], rfl, rfl, rfl, toyStore, { toyAlice with isPublic := true, loadedPub := none, loadedPriv := none },
          { toyAlice with isPublic := true, loadedPriv := none }, rfl, ?_, rfl, rfl, ?_, rfl⟩
        · decide +kernel
        · decide +kernel
      · rw [h3]; intro k hk; rw [List.mem_singleton.mp hk]
        refine ⟨toyStore, { version := 1, id := b!"bob", scheme := b!"ECDH-X25519", key := [1, 8, 9, 10] }, toyBobPriv, [8, 9, 10], [8, 9, 10],
          rfl, ?_, rfl, rfl, ?_, rfl, rfl, rfl, rfl⟩
        · decide +kernel
        · decide +kernel
      · rw [h1]; simp
      · rw [h2]; intro k hk; rw [List.mem_singleton.mp hk]; decide
      · rw [h3]; intro k hk; rw [List.mem_singleton.mp hk]; decide
      · rw [h1]; simp
    · cases h5
  · cases h

/-! ## C52 and the other conditions are needed -/

/-- A trust store with a short key (96 bits). -/
def weakStore (id : Bytes) (recipient : Bool) : Res Signet :=
  if id = b!"weak" then .ok { version := 1, id := id, scheme := schemeKey, key := List.replicate 12 7 }
  else toyStore id recipient

def weakWorld : World := { toyWorld with store := some weakStore }

/-- An envelope that accepts 96 bits of security. -/
def weakEnvelope : Envelope := { suiteID := b!"key_v2", secrets := [{ id := b!"weak" }], securityLevel := 96 }

/-- C52 is false: an envelope that lowers the security level can be used to close letters, but `Letter.Open` does not know
about the envelope's level and refuses the letter under the same settings and with the same trust store. -/
theorem lowered_level_not_openable :
    (match correspondence toyPrims toyConfig weakWorld suiteRegistry weakEnvelope with
    | .ok s =>
      match (s.close toyPrims toyConfig toyRng s.initState b!"hello").2 with
      | .ok l => decide (l.open toyPrims toyConfig weakWorld suiteRegistry none = .error .level)
      | .error _ => false
    | .error _ => false) = true := by decide +kernel

/-- C52, what holds: with an envelope level that is not below what the settings demand anyway. -/
theorem level_kept_openable_partial (P : Prims) (pair : Bytes → Bytes → Bytes → Prop) (hP : P.Correct pair) (cfg : Config)
    (wc wo : World) (rng : Rng) (e : Envelope) (hes : e.suite = none) (hev : e.version = 1)
    (s : Session) (hs : correspondence P cfg wc suiteRegistry e = .ok s)
    (hlev : 0 < cfg.minLevel ∨ cfg.defaultLevel ≤ e.securityLevel)
    (hids : (∀ k ∈ s.env.secrets, k.id ≠ []) ∧ (∀ k ∈ s.env.senders, k.id ≠ []) ∧ (∀ k ∈ s.env.recipients, k.id ≠ []))
    (hmix : (∀ k ∈ s.env.secrets, k.scheme ≠ schemeKey) ∨ (∀ k ∈ s.env.secrets, k.scheme ≠ schemePassword))
    (hcp : Counterparts P pair wo s) (reqs : Option Requirements) (hreq : ∀ a ∈ reqs.getD full, a ∈ s.suite.provides)
    (data : Bytes) (l : Letter) (hc : (s.close P cfg rng s.initState data).2 = .ok l) :
    l.open P cfg wo suiteRegistry reqs = .ok data := by
  refine close_open_roundtrip_partial P pair hP cfg wc wo rng e hes hev s hs ?_ hids hmix hcp reqs hreq data l hc
  unfold demandedLevel
  rcases hlev with h | h
  · rw [if_pos h, if_pos h]; exact Int.le_refl _
  · split
    · exact Int.le_refl _
    · rw [if_neg (by decide)]
      split
      · exact h
      · exact Int.le_refl _

/-- An inline key without an ID. -/
def anonymousEnvelope : Envelope := { suiteID := b!"key_v2", secrets := [{ scheme := schemeKey, key := List.replicate 32 7 }] }

/-- The condition on IDs in C10 is needed: a letter closed with a signet without an ID cannot be opened by anyone, whatever
the trust store holds; closing does not warn about this. -/
theorem anonymous_signet_not_openable :
    ∃ s l, correspondence toyPrims toyConfig toyWorld suiteRegistry anonymousEnvelope = .ok s ∧
      (s.close toyPrims toyConfig toyRng s.initState b!"hello").2 = .ok l ∧
      ∀ (P : Prims) (cfg : Config) (w : World) (reqs : Option Requirements) (d : Bytes), l.open P cfg w suiteRegistry reqs ≠ .ok d := by
  have h : (match correspondence toyPrims toyConfig toyWorld suiteRegistry anonymousEnvelope with
    | .ok s =>
      match (s.close toyPrims toyConfig toyRng s.initState b!"hello").2 with
      | .ok l => decide (l.suiteID = b!"key_v2") && decide (l.keys = [{ scheme := schemeKey }])
      | .error _ => false
    | .error _ => false) = true := by decide +kernel
  split at h
  · rename_i s hs
    split at h
    · rename_i l hl
      simp only [Bool.and_eq_true, decide_eq_true_eq] at h
      refine ⟨s, l, hs, hl, ?_⟩
      intro P cfg w reqs d hop
      obtain ⟨s', ho, hop⟩ := open_ok hop
      have h1 : l.secretStubs = [] := by unfold Letter.secretStubs; rw [h.2]; rfl
      have h2 := ho.secrets
      rw [h1] at h2
      have h3 : s'.env.secrets = [] := by
        have h4 : prepSignets P w s'.suite.securityLevel true [] = .ok [] := rfl
        rw [h4] at h2; exact (Except.ok.inj h2).symm
      -- no secrets and no key exchange tools: no key source
      have hsu : s'.suite ∈ suiteRegistry := List.mem_of_find?_eq_some ho.suite
      have hsu2 : getSuite suiteRegistry b!"key_v2" = some s'.suite := by rw [← h.1]; exact ho.suite
      have hprov := session_provides P cfg _ s' ho.session
      have hR : RecipientAuthentication ∈ s'.suite.provides := by
        have hdec : ((getSuite suiteRegistry b!"key_v2").map (fun s => decide (RecipientAuthentication ∈ s.provides))) = some true := by
          decide +kernel
        rw [hsu2] at hdec
        simpa using hdec
      rcases hprov.2.2.1 _ hR with ⟨t, ht, hp⟩ | ⟨⟨k, hk, _⟩, _⟩
      · obtain ⟨tid, htid, hmk⟩ := inst_tool ho.session ht
        have hdec : ((getSuite suiteRegistry b!"key_v2").map (fun s => s.tools.all (fun t => 
            match makeInst t with | .ok i => decide (RecipientAuthentication ∉ providedBy i.info.purpose) | .error _ => true))) = some true := by
          decide +kernel
        rw [hsu2] at hdec
        simp only [Option.map_some, Option.some.injEq, List.all_eq_true] at hdec
        have := hdec tid htid
        rw [hmk] at this
        simp only [decide_eq_true_eq] at this
        exact this hp
      · rw [h3] at hk; cases hk
    · cases h
  · cases h

end Jess
