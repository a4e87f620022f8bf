import Verif.Props.OnlyWith
import Verif.Props.KeyStream
import Verif.Props.StoryWire

/-!
# C100: only the holders of the private keys read the first letter of a wire session
-/

namespace Jess

open Requirements

/-- Key and nonce of the cipher for the first letter of a wire session (specification): 32 and 12 bytes which the suite's key derivation produces from the
key material and the letter's nonce, after the key that is kept for the following letters. -/
def FirstKey (P : Prims) (s : Session) (l : Letter) (material : List Bytes) (key nonce : Bytes) : Prop :=
  ∃ k, s.kdf = some k ∧ P.kdf k.info.name k.hashName l.nonce material.flatten s.keySize 32 = .ok key ∧
    P.kdf k.info.name k.hashName l.nonce material.flatten (s.keySize + 32) 12 = .ok nonce

/-- The cryptography of a first letter holds against one server (specification): if the data opens with the key that is derived from what this server's
private keys make of the letter, then this is the key the letter was closed with, derived from the same material. -/
def HoldsOnWire (P : Prims) (s : Session) (l : Letter) (data : Bytes) (s' : Session) : Prop :=
  ∀ material key nonce, FirstKey P s l material key nonce → P.aeadSeal b!"CHACHA20-POLY1305" key nonce l.compileAD data = .ok l.data →
  ∀ material' key' nonce' d, FirstKey P s' l material' key' nonce' → P.aeadOpen b!"CHACHA20-POLY1305" key' nonce' l.compileAD l.data = .ok d →
    key' = key ∧ material'.flatten = material.flatten

/-! ## The client -/

theorem ratchet_first {P : Prims} {s : Session} {k : ToolInst} {carry salt : Bytes} {m : List Bytes} {c : Bytes} {mat : List Bytes} {off : Nat}
    (h : ratchet P s k 0 carry salt m = .ok (c, mat, off)) : mat = m ∧ off = s.keySize := by
  unfold ratchet at h
  rw [if_pos rfl] at h
  split at h
  · cases h
  · split at h
    · split at h
      · cases h
      · cases h; exact ⟨rfl, rfl⟩
    · cases h

/-- What a session of the library's wire protocol looks like. -/
theorem wire_shape {P : Prims} {cfg : Config} {s : Session} (B : WireOf P cfg s) :
    s.queue .keyEncapsulation = [] ∧ s.queue .signing = [] ∧ ofScheme s.env.secrets schemeKey = [] ∧ ofScheme s.env.secrets schemePassword = [] ∧
      s.env.secrets = [] ∧ (s.queue .keyExchange).length ≤ 1 ∧ Confidentiality ∈ s.suite.provides := by
  obtain ⟨_, hreq, hsg, _, hk⟩ := initWire_spec B.wire
  have hS : SessionHas s Confidentiality := by
    have hR : Confidentiality ∈ s.reqs := hreq _ (by decide)
    obtain ⟨suite, is, lv, _, _, _, _, _, _, _, _, _, hs, _⟩ := (newSession_ok_iff P cfg s.env s).mp B.session
    rw [hs] at hR ⊢
    exact (mkSession_reqs _ _ _ _ _ _).mp hR
  refine ⟨B.noKE, hsg, hk, by rw [B.secrets]; rfl, B.secrets, (registered_session B.session B.registered).2 _ (by simp), ?_⟩
  rcases hS with h | ⟨_, h | h⟩
  · rw [session_insts B.session] at h
    exact registered_encrypts _ B.registered h
  · cases h
  · cases h

/-- What the first letter of a wire session is closed with. -/
theorem first_close {P : Prims} {cfg : Config} {rng : Rng} {s : Session} (B : WireOf P cfg s) {data : Bytes} {l : Letter}
    (h : (s.wireClose P cfg rng s.initState {} data).2 = .ok l) :
    l.version = s.env.version ∧ l.suiteID = s.env.suiteID ∧ l.signatures = [] ∧
    ∃ km key nonce, setupClosing P cfg rng s l.nonce = .ok km ∧ km.keys = l.keys ∧ FirstKey P s l km.material key nonce ∧
      P.aeadSeal b!"CHACHA20-POLY1305" key nonce l.compileAD data = .ok l.data := by
  obtain ⟨e1, e2, e3, e4, _, e6, hc⟩ := wire_shape B
  obtain ⟨q1, q2, q3, q4, k, q5⟩ := encrypting_session B.session B.registered hc
  have had : ∀ l : Letter, s.adOf l = l.compileAD := by
    intro l; unfold Session.adOf Session.needsAD; rw [q2]; rfl
  unfold Session.wireClose at h
  split at h
  · cases h
  · rename_i nonce hnon
    rw [q5] at h
    dsimp only at h
    split at h
    · cases h
    · rename_i w' hk hsend
      split at h
      · cases h
      · rename_i st1 l1 henc
        have hl : l = l1 := by
          unfold signLetter at h
          rw [e2] at h
          simpa using h.symm
        subst hl
        have hsend' : ∃ km, setupClosing P cfg rng s nonce = .ok km ∧ hk.keys = km.keys ∧ hk.material = km.material ∧ hk.off = s.keySize := by
          unfold sendHandshake sendSwitch at hsend
          dsimp only at hsend
          split at hsend
          · cases hsend
          · rename_i w1 out hsw
            generalize hx : wSetupClosing P cfg rng s nonce [] [] = x at hsw
            obtain ⟨x, r⟩ := x
            cases r with
            | error e => cases hsw
            | ok u =>
              dsimp only at hsw
              obtain ⟨c1, rs, ids, c2, c3, c4, c5⟩ := wSetupClosing_spec e6 (by rw [e1]; simp) e3 e4 hx
              have hoff := wSetupClosing_offered B rng nonce
              rw [hx] at hoff
              unfold initiate at hsw
              rw [if_pos (Or.inl rfl)] at hsw
              dsimp only at hsw hoff
              rw [genKX_offered rng _ _ hoff.1, hoff.2] at hsw
              simp only [genKE, List.append_nil] at hsw
              obtain ⟨hw1, ho⟩ := Prod.mk.inj hsw
              cases ho
              subst hw1
              dsimp only at hsend
              split at hsend
              · cases hsend
              · rename_i c mat off hrat
                obtain ⟨rfl, rfl⟩ := ratchet_first hrat
                cases hsend
                exact ⟨x.km, by rw [setupClosing_eq P cfg rng s nonce e6 (by rw [e1]; simp)]; exact c1, rfl, rfl, rfl⟩
        obtain ⟨km, hkm, h1, h2, h3⟩ := hsend'
        unfold encryptLetter at henc
        split at henc
        · cases henc
        · rename_i tools hset
          have hini : s.initState.tools = [{}] := by unfold Session.initState; rw [q1]; rfl
          obtain ⟨key, n, u', k1, k2, rfl⟩ := setup_chacha_at q1 hini hset
          simp only [Prod.mk.injEq] at henc
          obtain ⟨_, hprot⟩ := henc
          obtain ⟨r1, r2, r3⟩ := ready_chacha q1 { key := key, nonce := n, ready := true, used := u' }
          have hn : chacha.info.name = b!"CHACHA20-POLY1305" := rfl
          simp only [protect, bind_ok_iff, r1, r2, r3, runEncrypt, runSeal, runMACs, foldRes, had, hn] at hprot
          obtain ⟨d1, g1, d2, g2, m, g3, g4⟩ := hprot
          cases g1
          cases g3
          cases g4
          have hnon' : (wireHeader s {} nonce).nonce = nonce := rfl
          refine ⟨rfl, rfl, rfl, km, key, n, hkm, h1.symm, ⟨k, q5, ?_, ?_⟩, ?_⟩
          · rw [← h2, ← h3]; exact k1
          · rw [← h2, ← h3]; exact k2
          · split at g2
            · cases g2
            · rename_i b hb
              cases g2
              exact hb

/-! ## The server -/

theorem loop_wokx_inv {P : Prims} {l : Letter} : ∀ {xs : List (ToolInst × Signet)} {x x' : WOM},
    loopKM (fun x (p : ToolInst × Signet) => wOpenKX P l p.1 x p.2) x xs = (x', .ok ()) →
    ∃ ms, collectFrom (openKXKey P l) x.om.idx xs = .ok ms ∧ x'.om.material = x.om.material ++ ms
  | [], x, x', h => by
    cases h
    exact ⟨[], rfl, by simp⟩
  | p :: xs, x, x', h => by
    rw [loopKM] at h
    unfold wOpenKX at h
    dsimp only at h
    cases hsl : l.keys[x.om.idx]? with
    | none => rw [hsl] at h; cases h
    | some sl =>
      rw [hsl] at h
      dsimp only at h
      cases hp : peerSignet P l.version p.1 sl.value with
      | error e => rw [hp] at h; cases h
      | ok peer =>
        rw [hp] at h
        dsimp only at h
        cases hm : makeShared P p.1.info.name p.2 peer with
        | error e => rw [hm] at h; cases h
        | ok shared =>
          rw [hm] at h
          dsimp only at h
          obtain ⟨ms, h1, h2⟩ := loop_wokx_inv h
          refine ⟨shared :: ms, collectFrom_cons_ok.mpr ⟨_, _, ?_, h1, rfl⟩, by rw [h2]; simp⟩
          simp only [openKXKey, hsl, hp, ok_bind, hm]

theorem wSetupOpening_inv {P : Prims} {cfg : Config} {s : Session} (B : WireOf P cfg s) {l : Letter} {x : WOM}
    (h : wSetupOpening P cfg s l [] [] = (x, .ok ())) : openingMaterial P cfg s l = .ok x.om.material := by
  obtain ⟨e1, e2, e3, e4, _, e6, _⟩ := wire_shape B
  have o1 := overTools_one (fun x t k => wOpenKX P l t x k) s .keyExchange e6
  have f1 : ∀ x, overTools (fun x t => loopKM (wOpenKX P l t) x (ofScheme s.env.recipients t.info.name)) x (.ok ())
      (s.queue .keyExchange) = _ := fun x => o1 x
  unfold wSetupOpening at h
  dsimp only at h
  rw [e3, e4, e1] at h
  simp only [loopKM, f1, List.map_nil, List.length_nil, overTools] at h
  split at h
  · cases h
  · rename_i y hy
    cases h
    obtain ⟨ms, h1, h2⟩ := loop_wokx_inv hy
    have hp : s.pairs .keyEncapsulation = [] := by simp [Session.pairs, e1]
    simp only [openingMaterial, e3, e4, hp, collectFrom, List.map_nil, List.length_nil, ok_bind, Nat.zero_add, List.nil_append, List.append_nil]
    dsimp only at h1 h2
    rw [h1, h2]
    simp [ok_bind]

/-- What the first letter that a wire session receives is opened with. -/
theorem first_open {P : Prims} {cfg : Config} {s : Session} (B : WireOf P cfg s) {b : Bool} {l : Letter} {d : Bytes}
    (h : (s.wireOpen P cfg s.initState { server := b } l).2 = .ok d) :
    ∃ m key nonce, openingMaterial P cfg s l = .ok m ∧ FirstKey P s l m key nonce ∧
      P.aeadOpen b!"CHACHA20-POLY1305" key nonce l.compileAD l.data = .ok d := by
  obtain ⟨e1, e2, e3, e4, _, e6, hc⟩ := wire_shape B
  obtain ⟨q1, q2, q3, q4, k, q5⟩ := encrypting_session B.session B.registered hc
  have had : ∀ l : Letter, s.adOf l = l.compileAD := by
    intro l; unfold Session.adOf Session.needsAD; rw [q2]; rfl
  unfold Session.wireOpen at h
  rw [B.noSig] at h
  dsimp only at h
  rw [q5] at h
  dsimp only at h
  split at h
  · cases h
  · rename_i w' mat off hrecv
    dsimp only at h
    have hm : openingMaterial P cfg s l = .ok mat ∧ off = s.keySize := by
      unfold recvHandshake recvSwitch at hrecv
      dsimp only at hrecv
      split at hrecv
      · cases hrecv
      · rename_i w1 m burn hsw
        generalize hx : wSetupOpening P cfg s l [] [] = x at hsw
        obtain ⟨x, r⟩ := x
        cases r with
        | error e => cases hsw
        | ok u =>
          dsimp only at hsw
          split at hsw
          · cases hsw
          · rename_i w2 hof
            have hn : w2.msgNo = 0 := by
              unfold recvOffer at hof
              repeat' split at hof
              all_goals cases hof
              all_goals rfl
            cases hsw
            rw [hn] at hrecv
            split at hrecv
            · cases hrecv
            · rename_i c mat' off' hrat
              obtain ⟨rfl, rfl⟩ := ratchet_first hrat
              cases hrecv
              exact ⟨wSetupOpening_inv B hx, rfl⟩
    obtain ⟨h1, rfl⟩ := hm
    unfold decryptLetter at h
    split at h
    · cases h
    · rename_i tools hset
      have hini : s.initState.tools = [{}] := by unfold Session.initState; rw [q1]; rfl
      obtain ⟨key, n, u', k1, k2, rfl⟩ := setup_chacha_at q1 hini hset
      obtain ⟨r1, r2, r3⟩ := ready_chacha q1 { key := key, nonce := n, ready := true, used := u' }
      have hn : chacha.info.name = b!"CHACHA20-POLY1305" := rfl
      simp only [unprotect, r1, r2, r3, q4, runMACs, foldRes, ok_bind, List.isEmpty_nil, Bool.not_true, Bool.false_and,
        Bool.false_eq_true, if_false, runUnseal, List.reverse_cons, List.reverse_nil, List.nil_append, openOne, runDecrypt, had, hn] at h
      refine ⟨mat, key, n, h1, ⟨k, q5, k1, k2⟩, ?_⟩
      cases ha : P.aeadOpen b!"CHACHA20-POLY1305" key n l.compileAD l.data with
      | ok x => rw [ha] at h; simp only [ok_bind] at h; exact h
      | error e =>
        rw [ha] at h
        cases e <;> simp [error_bind] at h

/-! ## The property -/

theorem wire_participants {P : Prims} {cfg : Config} {s : Session} (B : WireOf P cfg s) : participants s.env = s.env.recipients := by
  unfold participants
  rw [B.secrets]
  rfl

theorem wire_openedBy {P : Prims} {cfg : Config} {w : World} {l : Letter} {s : Session} {x : Wire}
    (h : l.wireCorrespondence P cfg w suiteRegistry = .ok (s, x)) : OpenedBy P cfg w suiteRegistry (some (full.remove SenderAuthentication)) l s := by
  simp only [Letter.wireCorrespondence, bind_ok_iff] at h
  obtain ⟨e, he, h⟩ := h
  exact openedBy_iff he ((wire_correspondence_iff P cfg w _ e s x).mp h).1

/-- C100. The first letter of a wire session, sent to recipients with IDs, is read only by a server that has the private keys of all recipients: what the
server's trust store gives for the recipients the letter names makes, of the ephemeral key in the letter, the very key that the client established. -/
theorem first_letter_only_with_keys (P : Prims) (hP : P.SecretSizes) (cfg : Config) (w : World) (rng : Rng) (e : Envelope) (he : e.suite = none)
    (s : Session) (wc : Wire) (hs : wireCorrespondence P cfg w suiteRegistry e = .ok (s, wc)) (hid : ∀ x ∈ s.env.recipients, x.id ≠ []) (data : Bytes)
    (l : Letter) (hc : (s.wireClose P cfg rng s.initState wc data).2 = .ok l) (w' : World) (hw : w'.KeepsScheme) (s' : Session) (ws : Wire)
    (ho : l.wireCorrespondence P cfg w' suiteRegistry = .ok (s', ws)) (hb : HoldsOnWire P s l data s') (d : Bytes)
    (hd : (s'.wireOpen P cfg s'.initState ws.asServer l).2 = .ok d) :
    s'.suite = s.suite ∧ s'.env.recipients.length = s.env.recipients.length ∧
      ∀ (i : Nat) (x : Signet), s.env.recipients[i]? = some x → ∃ y sl secret, s'.env.recipients[i]? = some y ∧ l.keys[i]? = some sl ∧
        OpenerHas P w' s.suite.securityLevel l.version x y ∧ Established P cfg rng s x sl secret ∧ OpensSeal P cfg s' l i y secret := by
  obtain ⟨B, rfl⟩ := wireOf_envelope (by rw [he]; intro su h; cases h) hs
  obtain ⟨B', rfl⟩ := wireOf_letter ho
  obtain ⟨hl1, hl2, hl3, km, key, nonce, c1, c2, c3, c4⟩ := first_close B hc
  obtain ⟨m', key', nonce', o2, o3, o4⟩ := first_open B' hd
  have o1 := wire_openedBy ho
  have hl := library_session he ((wire_correspondence_iff P cfg w _ e s _).mp hs).1
  have hss : s'.suite = s.suite := by
    have := o1.suite
    rw [hl2, hl.suiteID, hl.suite] at this
    exact (Option.some.inj this).symm
  obtain ⟨_, hflat⟩ := hb km.material key nonce c3 c4 m' key' nonce' d o3 o4
  have hlab := (closing_labels B.session B.registered c1).1
  rw [c2] at hlab
  have hpart := opener_participants B.session B.registered (by rw [wire_participants B]; exact hid) hlab hw o1
  rw [wire_participants B, wire_participants B'] at hpart
  have hlen := hpart.length
  obtain ⟨p1, p2⟩ := closing_pairs (l := l) B.session B.registered c1
  rw [c2, wire_participants B] at p2
  rw [c2] at p1
  have hkl : s.env.recipients.length = km.material.length := by
    have := p2.length
    rw [List.length_zip, p1, Nat.min_self] at this
    rw [this, p1]
  have hset : setupOpening P cfg s' l = .ok m' := by
    have hone := (registered_session B'.session B'.registered).2
    rw [setupOpening_eq P cfg s' l (hone _ (by simp)) (hone _ (by simp)), if_neg (by omega)]
    exact o2
  obtain ⟨u1, u2⟩ := opening_pairs B'.session B'.registered hset
  rw [wire_participants B'] at u1 u2
  have hn : w'.KeysSized s.env := by
    intro x hx
    rw [B.secrets] at hx
    cases hx
  have hsz : km.material.map List.length = m'.map List.length := by
    apply List.ext_getElem?
    intro i
    rw [List.getElem?_map, List.getElem?_map]
    cases hx : s.env.recipients[i]? with
    | none =>
      have : s.env.recipients.length ≤ i := List.getElem?_eq_none_iff.mp hx
      rw [List.getElem?_eq_none_iff.mpr (by omega), List.getElem?_eq_none_iff.mpr (by omega)]
    | some x =>
      obtain ⟨y, hy, r1, r2⟩ := hpart.getElem?_left i hx
      obtain ⟨p, hp, r3⟩ := p2.getElem?_left i hx
      obtain ⟨b, hb', r4⟩ := u2 i y hy
      rw [List.getElem?_zip_eq_some] at hp
      rw [hp.2, hb']
      exact congrArg some (secret_lengths hP B.session B'.session B.registered hss.symm hn r2 r1 r3 r4)
  have hmm := material_unambiguous_partial km.material m' hsz hflat.symm
  subst hmm
  refine ⟨hss, hlen.symm, ?_⟩
  intro i x hx
  obtain ⟨y, hy, r1, r2⟩ := hpart.getElem?_left i hx
  obtain ⟨p, hp, r3⟩ := p2.getElem?_left i hx
  obtain ⟨b, hb', r4⟩ := u2 i y hy
  rw [List.getElem?_zip_eq_some] at hp
  rw [hp.2] at hb'
  cases hb'
  rw [hss] at r1
  obtain ⟨nk, np⟩ := participant_kinds B.session B.registered (List.mem_of_getElem? hx)
  refine ⟨y, p.1, p.2, hy, hp.1, r1, ?_, r4⟩
  rcases r3 with ⟨h, _⟩ | ⟨h, _⟩ | ⟨_, _, h⟩
  · exact absurd h nk
  · exact absurd h np
  · exact h

/-- C100: if no private key that a server's trust store has under the ID of a recipient agrees with the client on the key that was established with the
recipient, the server cannot read the first letter. -/
theorem wire_wrong_key_rejected (P : Prims) (hP : P.SecretSizes) (cfg : Config) (w : World) (rng : Rng) (e : Envelope) (he : e.suite = none)
    (s : Session) (wc : Wire) (hs : wireCorrespondence P cfg w suiteRegistry e = .ok (s, wc)) (hid : ∀ x ∈ s.env.recipients, x.id ≠ []) (data : Bytes)
    (l : Letter) (hc : (s.wireClose P cfg rng s.initState wc data).2 = .ok l) (w' : World) (hw : w'.KeepsScheme)
    (x : Signet) (hx : x ∈ s.env.recipients)
    (hwrong : ∀ t ∈ s.insts, ∀ sl ∈ l.keys, ∀ secret, Established P cfg rng s x sl secret → ∀ peer, peerSignet P l.version t sl.value = .ok peer →
      ∀ get r k y, w'.store = some get → get x.id r = .ok k → finishPrep P k = .ok y → makeShared P t.info.name y peer ≠ .ok secret)
    (s' : Session) (ws : Wire) (ho : l.wireCorrespondence P cfg w' suiteRegistry = .ok (s', ws)) (hb : HoldsOnWire P s l data s') (d : Bytes) :
    (s'.wireOpen P cfg s'.initState ws.asServer l).2 ≠ .ok d := by
  intro hd
  obtain ⟨hss, _, hall⟩ := first_letter_only_with_keys P hP cfg w rng e he s wc hs hid data l hc w' hw s' ws ho hb d hd
  obtain ⟨B, _⟩ := wireOf_envelope (by rw [he]; intro su h; cases h) hs
  obtain ⟨B', _⟩ := wireOf_letter ho
  obtain ⟨i, hi⟩ := List.getElem?_of_mem hx
  obtain ⟨y, sl, secret, hy, hsl, ⟨f, hf⟩, hest, hop⟩ := hall i x hi
  obtain ⟨nk, np⟩ := participant_kinds B.session B.registered hx
  obtain ⟨nk', np'⟩ := participant_kinds B'.session B'.registered (List.mem_of_getElem? hy)
  rw [if_neg (fun h => h.elim nk np)] at hf
  obtain ⟨get, n, g1, g2, _, _, g5⟩ := prepOne_fetch (s := { version := l.version, id := x.id, scheme := [] }) rfl (show ([] : Bytes) ≠ schemePassword by decide) hf
  have hins := queue_same B.session B'.session hss.symm
  rcases hop with ⟨h, _⟩ | ⟨h, _⟩ | ⟨t, ht, _, sl', hsl', h⟩
  · exact absurd h nk'
  · exact absurd h np'
  · rw [← hins] at ht
    rw [hsl] at hsl'
    cases hsl'
    rcases h with ⟨_, peer, hpeer, hmk⟩ | ⟨hp, _⟩
    · exact hwrong t ht sl (List.mem_of_getElem? hsl) secret hest peer hpeer get _ n y g1 g2 g5 hmk
    · rw [session_insts B.session] at ht
      exact absurd hp (registry_exchange _ B.registered t ht).2.2

theorem openPrims_holds_wire (s s' : Session) (l : Letter) (data : Bytes) : HoldsOnWire openPrims s l data s' := by
  rintro material key nonce ⟨_, _, h2, _⟩ hs m' key' n' d ⟨_, _, h1, _⟩ h'
  simp only [openPrims, Except.ok.injEq] at h1 h2
  simp only [openPrims] at h' hs
  split at h'
  · rename_i hk
    split at hs
    · rename_i hl
      have : key' = key := by
        rw [← hk.2, ← Except.ok.inj hs]
        simp [← hl]
      exact ⟨this, by rw [h1, h2, this]⟩
    · cases hs
  · cases h'

/-- What the example computes: the server with the right key reads the first letter, and the stranger with another key under the same ID gets a session
for the letter, but cannot read it. -/
def wireOpenCheck (suite : Bytes) : Bool :=
  match wireCorrespondence openPrims toyConfig toyWorld suiteRegistry (toyEnvelope suite [] [] [b!"bob"]) with
  | .ok (s, wc) => decide (∀ x ∈ s.env.recipients, x.id ≠ []) && decide (s.env.recipients ≠ []) &&
      (match (s.wireClose openPrims toyConfig toyRng s.initState wc b!"hello").2 with
      | .ok l =>
        (match l.wireCorrespondence openPrims toyConfig toyWorld suiteRegistry, l.wireCorrespondence openPrims toyConfig strangerWorld suiteRegistry with
        | .ok (s1, w1), .ok (s2, w2) => decide ((s1.wireOpen openPrims toyConfig s1.initState w1.asServer l).2 = .ok b!"hello") &&
            decide ((s2.wireOpen openPrims toyConfig s2.initState w2.asServer l).2 ≠ .ok b!"hello")
        | _, _ => false)
      | .error _ => false)
  | .error _ => false

theorem wire_only_with_runs : wireOpenCheck b!"w1" = true ∧ wireOpenCheck b!"w2" = true := by decide +kernel

/-- The hypotheses of C100 are met, both by a server that reads the letter and by one that does not. -/
theorem wire_only_with_example (suite : Bytes) (h : wireOpenCheck suite = true) :
    ∃ s wc l s1 w1 s2 w2, wireCorrespondence openPrims toyConfig toyWorld suiteRegistry (toyEnvelope suite [] [] [b!"bob"]) = .ok (s, wc) ∧
      (∀ x ∈ s.env.recipients, x.id ≠ []) ∧ s.env.recipients ≠ [] ∧ (s.wireClose openPrims toyConfig toyRng s.initState wc b!"hello").2 = .ok l ∧
      l.wireCorrespondence openPrims toyConfig toyWorld suiteRegistry = .ok (s1, w1) ∧ HoldsOnWire openPrims s l b!"hello" s1 ∧
      (s1.wireOpen openPrims toyConfig s1.initState w1.asServer l).2 = .ok b!"hello" ∧
      l.wireCorrespondence openPrims toyConfig strangerWorld suiteRegistry = .ok (s2, w2) ∧ HoldsOnWire openPrims s l b!"hello" s2 ∧
      (s2.wireOpen openPrims toyConfig s2.initState w2.asServer l).2 ≠ .ok b!"hello" := by
  unfold wireOpenCheck at h
  split at h
  · rename_i s wc hs
    simp only [Bool.and_eq_true, decide_eq_true_eq] at h
    obtain ⟨⟨h1, h2⟩, h3⟩ := h
    split at h3
    · rename_i l hl
      split at h3
      · rename_i s1 w1 s2 w2 g1 g2
        simp only [Bool.and_eq_true, decide_eq_true_eq] at h3
        exact ⟨s, wc, l, s1, w1, s2, w2, hs, h1, h2, hl, g1, openPrims_holds_wire _ _ _ _, h3.1, g2, openPrims_holds_wire _ _ _ _, h3.2⟩
      · cases h3
    · cases h3
  · cases h

end Jess
