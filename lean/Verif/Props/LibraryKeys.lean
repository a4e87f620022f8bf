import Verif.Props.KeyFailures
import Verif.Props.OnlyWithWire
import Verif.Props.Promises

/-!
# C16 and C51 for everything that can be reached through the API

Suites can only be registered inside the package (suites.go:30 `registerSuite`) and an envelope refers to its suite by ID (the field
`suite` of envelope.go is not exported), so the sessions of the API are those of the 14 registered suites.
-/

namespace Jess

open Requirements

/-! ## C16: the source of keys -/

/-- C16: every session that `Correspondence` returns and that has a tool with a key also has a source of key material: a password,
key exchange or key encapsulation tool, or a shared key. -/
theorem library_key_source (P : Prims) (cfg : Config) (w : World) (e : Envelope) (he : e.suite = none) (s : Session)
    (h : correspondence P cfg w suiteRegistry e = .ok s) (hk : ∃ t ∈ s.insts, t.info.purpose.keyed) : HasKeySource s := by
  have L := library_session he h
  refine session_key_source_partial P cfg s.env s L.made hk ?_
  obtain ⟨_, hplain, hconf, _⟩ := registry_tools s.suite L.mem
  by_cases hc : Confidentiality ∈ s.suite.provides
  · exact .inl (hconf hc).1
  · exfalso
    obtain ⟨t, ht, hp⟩ := hk
    have hi := session_insts L.made
    rw [hi] at ht
    have := (hplain hc).1 t ht
    rw [this] at hp
    rcases hp with hp | hp | hp | hp <;> cases hp

/-! ## C51: keys are established with every recipient -/

/-- If the key material for closing was set up, a key was established with every recipient. -/
theorem closing_established {P : Prims} {cfg : Config} {rng : Rng} {s : Session} {nonce : Bytes} {km : KM}
    (hs : newSession P cfg s.env = .ok s) (hnd : (s.insts.map (·.info.name)).Nodup)
    (hx1 : (s.queue .keyExchange).length ≤ 1) (he1 : (s.queue .keyEncapsulation).length ≤ 1)
    (hkm : setupClosing P cfg rng s nonce = .ok km) :
    ∀ k ∈ s.env.recipients, ∃ sl ∈ km.keys, ∃ secret ∈ km.material, sl.id = k.id ∧ Established P cfg rng s k sl secret := by
  rw [setupClosing_eq P cfg rng s nonce hx1 he1] at hkm
  simp only [closingMaterial, bind_ok_iff] at hkm
  obtain ⟨pws, h1, kxs, h2, kes, h3, h4⟩ := hkm
  cases h4
  intro r hr
  obtain ⟨t, ht, hn, hp⟩ := recipient_pair hs hnd hr
  rcases hp with hp | hp
  · obtain ⟨j, hj⟩ := mem_getElem? hp
    obtain ⟨y, hy, hg⟩ := collectFrom_get h2 hj
    simp only [closeKXKey, bind_ok_iff] at hg
    obtain ⟨⟨sender, shared, sl⟩, hoff, hy2⟩ := hg
    cases hy2
    have hmem := List.mem_of_getElem? hy
    have hid : sl.id = r.id := by
      have hoff' := hoff
      simp only [kxOffer, bind_ok_iff] at hoff'
      obtain ⟨_, _, _, _, _, _, _, _, h5⟩ := hoff'
      cases h5; rfl
    refine ⟨sl, ?_, shared, ?_, hid, t, ht, hn, Or.inl ⟨(mem_pairs hp).2.1, _, _, hoff⟩⟩
    · simp only [List.mem_append, List.mem_map]
      exact Or.inl (Or.inr ⟨_, hmem, rfl⟩)
    · simp only [List.mem_append, List.mem_map]
      exact Or.inl (Or.inr ⟨_, hmem, rfl⟩)
  · obtain ⟨j, hj⟩ := mem_getElem? hp
    obtain ⟨⟨key, sl⟩, hy, hg⟩ := collectFrom_get h3 hj
    have hmem := List.mem_of_getElem? hy
    have hid2 : sl.id = r.id := by
      have hg' := hg
      simp only [keOffer, bind_ok_iff] at hg'
      obtain ⟨_, _, _, _, h5⟩ := hg'
      cases h5; rfl
    refine ⟨sl, ?_, key, ?_, hid2, t, ht, hn, Or.inr ⟨(mem_pairs hp).2.1, _, hg⟩⟩
    · simp only [List.mem_append, List.mem_map]
      exact Or.inr ⟨_, hmem, rfl⟩
    · simp only [List.mem_append, List.mem_map]
      exact Or.inr ⟨_, hmem, rfl⟩

/-- C51, closing: if `Close` of a session for an envelope of the caller succeeds, a key was established with every recipient, is
part of the key material from which the letter's keys are derived, and the letter carries the seal for the recipient. -/
theorem library_close_establishes (P : Prims) (cfg : Config) (w : World) (rng : Rng) (e : Envelope) (he : e.suite = none) (s : Session)
    (h : correspondence P cfg w suiteRegistry e = .ok s) (data : Bytes) (l : Letter)
    (hc : (s.close P cfg rng s.initState data).2 = .ok l) :
    ∃ material, (∀ k ∈ s.env.recipients, ∃ sl ∈ l.keys, ∃ secret ∈ material, sl.id = k.id ∧ Established P cfg rng s k sl secret) ∧
      (s.env.recipients ≠ [] → ∃ kdf nonce l', s.kdf = some kdf ∧ randomBytes rng 0 s.nonceSize = .ok nonce ∧
        (encryptLetter P s s.initState kdf material 0
          { version := s.env.version, suiteID := s.env.suiteID, nonce := nonce, keys := l.keys } data).2 = .ok l' ∧
        l.data = l'.data ∧ l.mac = l'.mac ∧ l.keys = l'.keys ∧ l.nonce = nonce) := by
  have L := library_session he h
  obtain ⟨hnd, hone⟩ := registered_session L.made L.mem
  exact close_establishes L.made hnd (hone _ (by simp)) (hone _ (by simp)) hc

/-- C51, closing, the other way round: if no key can be established with one of the recipients, `Close` fails. -/
theorem library_close_fails (P : Prims) (cfg : Config) (w : World) (rng : Rng) (e : Envelope) (he : e.suite = none) (s : Session)
    (h : correspondence P cfg w suiteRegistry e = .ok s) (data : Bytes) (k : Signet) (hk : k ∈ s.env.recipients)
    (hfail : ∀ sl secret, ¬ Established P cfg rng s k sl secret) : ∃ err, (s.close P cfg rng s.initState data).2 = .error err :=
  close_fails_if_not_established (library_session he h).made (library_session he h).mem k hk hfail

/-- The key that was established from a seal of the letter with the private key of the recipient (specification). -/
def EstablishedFrom (P : Prims) (s : Session) (l : Letter) (k : Signet) (sl : Seal) (secret : Bytes) : Prop :=
  ∃ t ∈ s.insts, t.info.name = k.scheme ∧
    ((t.info.purpose = .keyExchange ∧ ∃ peer, peerSignet P l.version t sl.value = .ok peer ∧ makeShared P t.info.name k peer = .ok secret) ∨
     (t.info.purpose = .keyEncapsulation ∧ unwrapKey P t sl.value k = .ok secret))

/-- C51, opening: if a letter is opened, whatever the requirements, the key of every recipient signet was established from a seal
of the letter and is part of the key material from which the keys are derived. -/
theorem library_open_establishes (P : Prims) (cfg : Config) (w : World) (reqs : Option Requirements) (l : Letter) (d : Bytes)
    (h : l.open P cfg w suiteRegistry reqs = .ok d) :
    ∃ s, OpenedBy P cfg w suiteRegistry reqs l s ∧ (s.env.recipients ≠ [] →
      ∃ kdf material, s.kdf = some kdf ∧ (decryptLetter P s s.initState kdf material 0 l).2 = .ok d ∧
        ∀ k ∈ s.env.recipients, ∃ sl ∈ l.keys, ∃ secret ∈ material, EstablishedFrom P s l k sl secret) := by
  simp only [Letter.open, bind_ok_iff] at h
  obtain ⟨e, h1, s, h2, h3⟩ := h
  have O := openedBy_iff h1 h2
  have hr : s.suite ∈ suiteRegistry := (getSuite_sound _ _ _ O.suite).1
  obtain ⟨hnd, hone⟩ := registered_session O.session hr
  refine ⟨s, O, fun hne => ?_⟩
  obtain ⟨kdf, material, e1, e2, e3⟩ := open_establishes O.session hnd (hone _ (by simp)) (hone _ (by simp)) hne h3
  refine ⟨kdf, material, e1, e2, fun k hk => ?_⟩
  obtain ⟨t, ht, hn, sl, hsl, secret, hsec, hor⟩ := e3 k hk
  rcases hor with ⟨a, b⟩ | hb
  · exact ⟨sl, hsl, secret, hsec, t, ht, hn, .inl ⟨a, b⟩⟩
  · exact ⟨sl, hsl, secret, hsec, t, ht, hn, .inr hb⟩

/-! ## C51: wire sessions -/

/-- C51, first letter of a wire session: if it is closed, a key was established with every recipient, is part of the material from
which the letter's key is derived, and the letter carries the seal. -/
theorem wire_first_close_establishes {P : Prims} {cfg : Config} {rng : Rng} {s : Session} (B : WireOf P cfg s) {data : Bytes} {l : Letter}
    (h : (s.wireClose P cfg rng s.initState {} data).2 = .ok l) :
    ∃ material key nonce, FirstKey P s l material key nonce ∧ P.aeadSeal b!"CHACHA20-POLY1305" key nonce l.compileAD data = .ok l.data ∧
      ∀ k ∈ s.env.recipients, ∃ sl ∈ l.keys, ∃ secret ∈ material, sl.id = k.id ∧ Established P cfg rng s k sl secret := by
  obtain ⟨_, _, _, km, key, nonce, h1, h2, h3, h4⟩ := first_close B h
  obtain ⟨hnd, hone⟩ := registered_session B.session B.registered
  refine ⟨km.material, key, nonce, h3, h4, ?_⟩
  rw [← h2]
  exact closing_established B.session hnd (hone _ (by simp)) (hone _ (by simp)) h1

/-- C51, first letter that a wire session receives. -/
theorem wire_first_open_establishes {P : Prims} {cfg : Config} {s : Session} (B : WireOf P cfg s) {b : Bool} {l : Letter} {d : Bytes}
    (h : (s.wireOpen P cfg s.initState { server := b } l).2 = .ok d) :
    ∃ material key nonce, FirstKey P s l material key nonce ∧ P.aeadOpen b!"CHACHA20-POLY1305" key nonce l.compileAD l.data = .ok d ∧
      ∀ k ∈ s.env.recipients, ∃ sl ∈ l.keys, ∃ secret ∈ material, EstablishedFrom P s l k sl secret := by
  obtain ⟨m, key, nonce, h1, h2, h3⟩ := first_open B h
  obtain ⟨hnd, hone⟩ := registered_session B.session B.registered
  refine ⟨m, key, nonce, h2, h3, ?_⟩
  simp only [openingMaterial, bind_ok_iff] at h1
  obtain ⟨pws, _, kxs, g2, kes, g3, h4⟩ := h1
  cases h4
  intro k hk
  obtain ⟨t, ht, hn, hp⟩ := recipient_pair B.session hnd hk
  rcases hp with hp | hp
  · obtain ⟨j, hj⟩ := mem_getElem? hp
    obtain ⟨y, hy, hg⟩ := collectFrom_get g2 hj
    unfold openKXKey at hg
    split at hg
    · cases hg
    · rename_i sl hsl
      simp only [bind_ok_iff] at hg
      obtain ⟨peer, p1, p2⟩ := hg
      refine ⟨sl, List.mem_of_getElem? hsl, y, ?_, t, ht, hn, Or.inl ⟨(mem_pairs hp).2.1, peer, p1, p2⟩⟩
      simp only [List.mem_append]
      exact Or.inl (Or.inr (List.mem_of_getElem? hy))
  · obtain ⟨j, hj⟩ := mem_getElem? hp
    obtain ⟨y, hy, hg⟩ := collectFrom_get g3 hj
    unfold openKEKey at hg
    split at hg
    · cases hg
    · rename_i sl hsl
      refine ⟨sl, List.mem_of_getElem? hsl, y, ?_, t, ht, hn, Or.inr ⟨(mem_pairs hp).2.1, hg⟩⟩
      simp only [List.mem_append]
      exact Or.inr (List.mem_of_getElem? hy)

/-- The key of one pair of ephemeral keys of a wire session: the other party's key could be loaded and the key exchange with it
succeeded (specification). -/
def PairKey (P : Prims) (p : KxPair) (g : Signet) (secret : Bytes) : Prop :=
  ∃ peer q, p.peer = some peer ∧ peer.load P = .ok q ∧ makeShared P p.tool.info.name g q = .ok secret

theorem sharedKey_pairKey {P : Prims} {p : KxPair} {secret : Bytes} (h : (sharedKey P p).2 = .ok secret) :
    ∃ g, p.signet = some g ∧ PairKey P p g secret := by
  unfold sharedKey at h
  split at h
  · cases h
  · cases h
  · rename_i g q hg hq
    split at h
    · cases h
    · rename_i q' hl
      exact ⟨g, hg, q, q', hq, hl, h⟩

theorem genKX_pairs {P : Prims} {rng : Rng} : ∀ {ps qs : List KxPair} {ctr : Nat} {seals : List Seal},
    genKX P rng ctr ps = (qs, .ok seals) → ∀ p ∈ ps, ∃ q ∈ qs, q.tool = p.tool ∧ q.peer = p.peer ∧
      ((∃ g, p.signet = some g ∧ q.signet = some g) ∨
       (p.signet = none ∧ ∃ i g v, newLocal P p.tool (rng.seed i) = (g, .ok v) ∧ q.signet = some g ∧ ({ value := v } : Seal) ∈ seals))
  | [], qs, ctr, seals, h, p, hp => by cases hp
  | p :: ps, qs, ctr, seals, h, x, hx => by
    rw [genKX] at h
    split at h
    · rename_i g hg
      obtain ⟨h1, h2⟩ := Prod.mk.inj h
      have hr : genKX P rng (ctr + 1) ps = ((genKX P rng (ctr + 1) ps).1, .ok seals) := by rw [← h2]
      rcases List.mem_cons.mp hx with rfl | hx
      · exact ⟨x, by rw [← h1]; simp, rfl, rfl, .inl ⟨g, hg, hg⟩⟩
      · obtain ⟨q, hq, rest⟩ := genKX_pairs hr x hx
        exact ⟨q, by rw [← h1]; simp [hq], rest⟩
    · rename_i hn
      split at h
      · cases h
      · rename_i g v hl
        obtain ⟨h1, h2⟩ := Prod.mk.inj h
        cases hr : (genKX P rng (ctr + 1) ps).2 with
        | error e => rw [hr] at h2; cases h2
        | ok rest =>
          rw [hr] at h2
          have h2 : { value := v } :: rest = seals := by simpa [Except.map] using h2
          have hr' : genKX P rng (ctr + 1) ps = ((genKX P rng (ctr + 1) ps).1, .ok rest) := by rw [← hr]
          rcases List.mem_cons.mp hx with rfl | hx
          · exact ⟨{ x with signet := some g }, by rw [← h1]; exact List.mem_cons_self, rfl, rfl, .inr ⟨hn, ctr, g, v, hl, rfl, by rw [← h2]; simp⟩⟩
          · obtain ⟨q, hq, t1, t2, t3⟩ := genKX_pairs hr' x hx
            refine ⟨q, by rw [← h1]; simp [hq], t1, t2, ?_⟩
            rcases t3 with t3 | ⟨t3, i, g', v', t4, t5, t6⟩
            · exact .inl t3
            · exact .inr ⟨t3, i, g', v', t4, t5, by rw [← h2]; simp [t6]⟩

theorem all2_mem {α β : Type} {R : α → β → Prop} {as : List α} {bs : List β} (h : All2 R as bs) : ∀ a ∈ as, ∃ b ∈ bs, R a b := by
  induction h with
  | nil => intro a ha; cases ha
  | cons h _ ih =>
    intro a ha
    rcases List.mem_cons.mp ha with rfl | ha
    · exact ⟨_, List.mem_cons_self, h⟩
    · obtain ⟨b, hb, hr⟩ := ih a ha
      exact ⟨b, List.mem_cons_of_mem _ hb, hr⟩

/-- C51, the answer of a wire session to the other party's new keys, in any state and after any history: if it is closed, a key was
established with every ephemeral key of the other party, from a key pair that was made before or is new and whose public part is in
the letter, and all these keys are part of the material from which the letter's key is derived. -/
theorem wire_answer_establishes {P : Prims} {cfg : Config} {rng : Rng} {s : Session} (B : WireOf P cfg s) {st : SState} {w : Wire}
    (hw : w.hs = .sendKey) {data : Bytes} {l : Letter} (h : (s.wireClose P cfg rng st w data).2 = .ok l) :
    ∃ kdf material off, s.kdf = some kdf ∧
      (encryptLetter P s st kdf material off { wireHeader s w l.nonce with keys := l.keys, applyKeys := l.applyKeys } data).2 = .ok l ∧
      ∀ p ∈ w.kx, ∃ g, ∃ secret ∈ material, PairKey P p g secret ∧
        (p.signet = some g ∨ ∃ i v, newLocal P p.tool (rng.seed i) = (g, .ok v) ∧ ({ value := v } : Seal) ∈ l.keys) := by
  obtain ⟨_, e2, _, _, _, _, hc⟩ := wire_shape B
  obtain ⟨_, _, _, _, k, q5⟩ := encrypting_session B.session B.registered hc
  unfold Session.wireClose at h
  split at h
  · cases h
  · rename_i nonce hnon
    rw [q5] at h
    dsimp only at h
    split at h
    · cases h
    · rename_i w' hk hsend
      split at h
      · cases h
      · rename_i st1 l1 henc
        have hl : l = l1 := by
          unfold signLetter at h
          rw [e2] at h
          simpa using h.symm
        subst hl
        have hl1 : l.keys = hk.keys ∧ l.applyKeys = hk.apply ∧ l.nonce = nonce := by
          unfold encryptLetter at henc
          split at henc
          · cases henc
          · simp only [Prod.mk.injEq, protect, bind_ok_iff] at henc
            obtain ⟨_, _, _, _, _, _, _, h4⟩ := henc
            cases h4
            refine ⟨rfl, rfl, ?_⟩
            show (wireHeader s w nonce).nonce = nonce
            unfold wireHeader; split <;> rfl
        refine ⟨k, hk.material, hk.off, q5, ?_, ?_⟩
        · rw [hl1.1, hl1.2.1, hl1.2.2, henc]
        · unfold sendHandshake sendSwitch at hsend
          rw [hw] at hsend
          dsimp only at hsend
          split at hsend
          · cases hsend
          · rename_i w1 out hcm
            unfold complete at hcm
            split at hcm
            · cases hcm
            · rename_i kx1 a hg
              split at hcm
              · cases hcm
              · rename_i kx2 shared hsh
                split at hcm
                · cases hcm
                · rename_i ke b hgke
                  split at hcm
                  · cases hcm
                  · rename_i ke' c henc2
                    obtain ⟨_, hout⟩ := Prod.mk.inj hcm
                    have hout := (Except.ok.inj hout).symm
                    subst hout
                    dsimp only at hsend
                    split at hsend
                    · cases hsend
                    · rename_i c2 mat off hrat
                      obtain ⟨_, hkk⟩ := Prod.mk.inj hsend
                      have hkk := (Except.ok.inj hkk).symm
                      subst hkk
                      have hsub : ∀ x ∈ shared, x ∈ mat := by
                        intro x hx
                        unfold ratchet at hrat
                        split at hrat
                        · split at hrat
                          · cases hrat
                          · split at hrat
                            · split at hrat
                              · cases hrat
                              · cases hrat; simp [hx]
                            · cases hrat
                        · split at hrat
                          · split at hrat
                            · cases hrat
                            · cases hrat; simp [hx]
                          · cases hrat
                      intro p hp
                      obtain ⟨q, hq, t1, t2, t3⟩ := genKX_pairs hg p hp
                      obtain ⟨secret, hsec, hkq⟩ := all2_mem (sharedKeys_ok.mp hsh).2 q hq
                      obtain ⟨g, hg1, peer, q', hg2, hg3, hg4⟩ := sharedKey_pairKey hkq
                      refine ⟨g, secret, hsub _ hsec, ⟨peer, q', by rw [← t2]; exact hg2, hg3, by rw [← t1]; exact hg4⟩, ?_⟩
                      rcases t3 with ⟨g', u1, u2⟩ | ⟨u1, i, g', v, u2, u3, u4⟩
                      · left; rw [u1, ← hg1, u2]
                      · right
                        have : g' = g := by rw [u3] at hg1; exact Option.some.inj hg1
                        subst this
                        refine ⟨i, v, u2, ?_⟩
                        rw [hl1.1]
                        simp [u4]

theorem assignKX_pairs {v : UInt8} {keys : List Seal} : ∀ {ps qs : List KxPair} {i : Nat}, assignKX v keys i ps = (qs, .ok ()) →
    ∀ p ∈ ps, ∃ q ∈ qs, ∃ sl ∈ keys, q = { p with peer := some { version := v, scheme := p.tool.info.name, key := sl.value, isPublic := true } }
  | [], qs, i, h, p, hp => by cases hp
  | p :: ps, qs, i, h, x, hx => by
    rw [assignKX] at h
    split at h
    · cases h
    · rename_i sl hsl
      obtain ⟨h1, h2⟩ := Prod.mk.inj h
      rcases List.mem_cons.mp hx with rfl | hx
      · exact ⟨_, by rw [← h1]; exact List.mem_cons_self, sl, List.mem_of_getElem? hsl, rfl⟩
      · obtain ⟨q, hq, rest⟩ := assignKX_pairs (i := i + 1) (qs := (assignKX v keys (i + 1) ps).1) (by rw [← h2]) x hx
        exact ⟨q, by rw [← h1]; simp [hq], rest⟩

/-- C51, the answer a wire session receives, in any state and after any history: if a letter with keys is accepted while an answer is
awaited, a key was established between every own ephemeral key and a key of the letter, and all these keys are part of the material
from which the letter's key is derived. -/
theorem wire_answer_accepted_establishes {P : Prims} {cfg : Config} {s : Session} (B : WireOf P cfg s) {st : SState} {w : Wire}
    (hw : w.hs = .awaitKey) {l : Letter} (hl : l.keys ≠ []) {d : Bytes} (h : (s.wireOpen P cfg st w l).2 = .ok d) :
    ∃ kdf material off st', s.kdf = some kdf ∧ (decryptLetter P s st' kdf material off l).2 = .ok d ∧
      ∀ p ∈ w.kx, ∃ g, p.signet = some g ∧ ∃ sl ∈ l.keys, ∃ q, ∃ secret ∈ material,
        ({ version := l.version, scheme := p.tool.info.name, key := sl.value, isPublic := true } : Signet).load P = .ok q ∧
        makeShared P p.tool.info.name g q = .ok secret := by
  obtain ⟨_, _, _, _, _, _, hc⟩ := wire_shape B
  obtain ⟨_, _, _, _, k, q5⟩ := encrypting_session B.session B.registered hc
  unfold Session.wireOpen at h
  split at h
  · cases h
  · rename_i st' hcs
    rw [q5] at h
    dsimp only at h
    split at h
    · cases h
    · rename_i w' material off hrecv
      refine ⟨k, material, off, st', q5, h, ?_⟩
      unfold recvHandshake recvSwitch at hrecv
      rw [hw] at hrecv
      dsimp only at hrecv
      split at hrecv
      · cases hrecv
      · rename_i w1 m burn hsw
        split at hsw
        · cases hsw
        · rename_i w2 m' hans
          cases hsw
          unfold recvAnswer at hans
          rw [if_neg (by simpa using hl)] at hans
          split at hans
          · cases hans
          · split at hans
            · cases hans
            · rename_i kx1 hkx
              split at hans
              · cases hans
              · split at hans
                · cases hans
                · rename_i kx2 shared hsh
                  split at hans
                  · cases hans
                  · rename_i keys hun
                    obtain ⟨_, hm⟩ := Prod.mk.inj hans
                    have hm := (Except.ok.inj hm).symm
                    subst hm
                    split at hrecv
                    · cases hrecv
                    · rename_i c2 mat off2 hrat
                      obtain ⟨_, hkk⟩ := Prod.mk.inj hrecv
                      cases hkk
                      have hsub : ∀ x ∈ shared, x ∈ material := by
                        intro x hx
                        unfold ratchet at hrat
                        split at hrat
                        · split at hrat
                          · cases hrat
                          · split at hrat
                            · split at hrat
                              · cases hrat
                              · cases hrat; simp [hx]
                            · cases hrat
                        · split at hrat
                          · split at hrat
                            · cases hrat
                            · cases hrat; simp [hx]
                          · cases hrat
                      intro p hp
                      obtain ⟨q, hq, sl, hsl, rfl⟩ := assignKX_pairs hkx p hp
                      obtain ⟨secret, hsec, hkq⟩ := all2_mem (sharedKeys_ok.mp hsh).2 _ hq
                      obtain ⟨g, hg1, peer, q', hg2, hg3, hg4⟩ := sharedKey_pairKey hkq
                      cases hg2
                      exact ⟨g, hg1, sl, hsl, q', secret, hsub _ hsec, hg3, hg4⟩

/-- The hypotheses of the theorems of C51 are met: a letter for bob that is closed and opened; a wire session whose first letter, whose
answer (from a session that is about to send its keys, with a pair of keys) and the acceptance of that answer succeed; and with primitives
whose key generation fails, closing fails. -/
def establishCheck : Bool :=
  (match correspondence toyPrims toyConfig toyWorld suiteRegistry (toyEnvelope b!"rcpt_v2" [] [] [b!"bob"]) with
  | .ok s => decide (s.env.recipients.length = 1) && (match (s.close toyPrims toyConfig toyRng s.initState b!"hello").2 with
    | .ok l => decide (l.keys.map (·.id) = [b!"bob"]) &&
      decide (l.open toyPrims toyConfig toyWorld suiteRegistry (some (full.remove SenderAuthentication)) = .ok b!"hello")
    | .error _ => false)
  | .error _ => false) &&
  (match toyWire with
  | .ok (s, w) => match s.wireClose toyPrims toyConfig toyRng s.initState w b!"hello" with
    | (p, .ok l) => match l.wireCorrespondence toyPrims toyConfig toyWorld suiteRegistry with
      | .ok (v, wv) => match v.wireOpen toyPrims toyConfig v.initState wv.asServer l with
        | (q, .ok d) => decide (d = b!"hello") && decide (q.2.hs = .sendKey) && decide (q.2.kx.length = 1) &&
          (match v.wireClose toyPrims toyConfig toyRng q.1 q.2 b!"answer" with
          | (_, .ok a) => decide (p.2.hs = .awaitKey) && decide (p.2.kx.length = 1) && decide (a.keys.length = 1) &&
            decide ((s.wireOpen toyPrims toyConfig p.1 p.2 a).2 = .ok b!"answer")
          | _ => false) &&
          (match (v.wireClose brokenX25519 toyConfig toyRng q.1 q.2 b!"answer").2 with | .ok _ => false | .error _ => true)
        | _ => false
      | .error _ => false
    | _ => false
  | .error _ => false) &&
  (match correspondence brokenX25519 toyConfig toyWorld suiteRegistry (toyEnvelope b!"rcpt_v2" [] [] [b!"bob"]) with
  | .ok s => decide ((s.close brokenX25519 toyConfig toyRng s.initState b!"hello").2 = .error .env)
  | .error _ => false)

theorem establish_example : establishCheck = true := by decide +kernel

end Jess
