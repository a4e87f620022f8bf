import Verif.Props.WireProgress
import Verif.Props.StoryWire
import Verif.Props.GenerateSucceeds

/-!
# C125: conversations, from nothing
-/

namespace Jess

open Requirements

/-- Whatever data a party wants to send next over the streams, it can be sent (specification). -/
def BNet.CanSend (P : Prims) (cfg : Config) (s : Session) (n : BNet) : Prop :=
  ∀ rng : Rng, rng.Delivers → ∀ data : Bytes, data.length ≤ 2 ^ 38 - 64 →
    (∃ x l, s.wireClose P cfg rng n.client.1 n.client.2 data = (x, .ok l)) ∧
    ∀ v y, n.server = some (v, y) → ∃ x l, v.wireClose P cfg rng y.1 y.2 data = (x, .ok l)

/-- C124 over byte streams. -/
theorem stream_never_stuck (P : Prims) (W : P.Work) (hS : P.StoresPrivate) (pair : Bytes → Bytes → Bytes → Prop) (hP : P.Correct pair) (cfg : Config)
    (hmin : cfg.minKeySize ≤ 8000) (wc wo : World) (hwc : wc.KeepsScheme)
    (e : Envelope) (hes : e.suite = none) (hev : e.version = 1) (s : Session) (w : Wire)
    (hs : wireCorrespondence P cfg wc suiteRegistry e = .ok (s, w))
    (hlev : demandedLevel cfg 0 ≤ demandedLevel cfg e.securityLevel) (hids : ∀ r ∈ s.env.recipients, r.id ≠ []) (hrec : s.env.recipients.length ≤ 255)
    (hcp : Counterparts P pair wo s) (asServer : Bool) (n : BNet)
    (hn : BReach P cfg wo suiteRegistry s { client := (s.initState, if asServer then w.asServer else w) } n) :
    n.CanSend P cfg s ∧ ServerReads P cfg wo suiteRegistry n ∧ ClientReads P cfg s n := by
  refine ⟨?_, wire_stream_delivery P pair hP cfg wc wo e hes hev s w hs hlev hids hrec hcp asServer n hn⟩
  obtain ⟨WO, _⟩ := wireOf_envelope (by intro su hsu; rw [hes] at hsu; cases hsu) hs
  obtain ⟨rfl, k, B⟩ := wireBase_of hes hev hs hlev hids hcp
  have hb : (if asServer = true then ({} : Wire).asServer else {}) = { server := asServer } := by cases asServer <;> rfl
  rw [hb] at hn
  have h0 : Conv P pair cfg wo suiteRegistry s k { client := (s.initState, { server := asServer }) } := .idle (clean_init s)
  have key : ∃ m, Carries P cfg wo s { client := (s.initState, { server := asServer }) } n m := by
    induction hn with
    | refl =>
      refine ⟨_, ⟨.refl, rfl, rfl, rfl, rfl, rfl, rfl, ?_, ?_, Or.inl ⟨_, rfl⟩, ?_⟩⟩
      · intro p hp; cases hp
      · intro p hp; cases hp
      · intro v st w h; cases h
    | step _ hst ih => exact carries_step hP B WO hrec h0 hst ih
  obtain ⟨m, C⟩ := key
  have hm := C.reach
  rw [← hb] at hm
  have := (wire_never_stuck P W hS pair hP cfg hmin wc wo hwc e hes hev s {} hs hlev hids hcp asServer m hm).1
  intro rng hr data hd
  obtain ⟨a, b⟩ := this rng hr data hd
  rw [C.client] at a
  rw [C.server] at b
  exact ⟨a, b⟩

/-! ## All letters arrive -/

section
variable {P : Prims} {cfg : Config} {wo : World} {reg : List Suite} {s : Session}

theorem BReach.trans {a b c : BNet} (h1 : BReach P cfg wo reg s a b) (h2 : BReach P cfg wo reg s b c) : BReach P cfg wo reg s a c := by
  induction h2 with
  | refl => exact h1
  | step _ hst ih => exact .step ih hst

theorem breach_drains {n0 : BNet} (hall : ∀ n, BReach P cfg wo reg s n0 n → ServerReads P cfg wo reg n ∧ ClientReads P cfg s n) :
    ∀ (k : Nat) (n : BNet), BReach P cfg wo reg s n0 n → (n.clientSent.length - n.serverGot.length) + (n.serverSent.length - n.clientGot.length) ≤ k →
      ∃ n', BReach P cfg wo reg s n n' ∧ n'.clientSent = n.clientSent ∧ n'.serverSent = n.serverSent ∧ n'.serverGot = n.clientSent ∧ n'.clientGot = n.serverSent ∧
        n'.c2s = [] ∧ n'.s2c = [] := by
  intro k
  induction k with
  | zero =>
    intro n hn hk
    obtain ⟨a, b⟩ := hall n hn
    rcases a with ⟨a1, a2⟩ | ⟨d, ds, _, _, a1, _⟩
    · rcases b with ⟨b1, b2⟩ | ⟨d, ds, _, _, b1, _⟩
      · exact ⟨n, .refl, rfl, rfl, a1.symm, b1.symm, a2, b2⟩
      · exfalso; rw [b1] at hk; simp at hk
    · exfalso; rw [a1] at hk; simp at hk
  | succ k ih =>
    intro n hn hk
    obtain ⟨a, b⟩ := hall n hn
    have go : ∀ n1, BStep P cfg wo reg s n n1 → n1.clientSent = n.clientSent → n1.serverSent = n.serverSent →
        (n1.clientSent.length - n1.serverGot.length) + (n1.serverSent.length - n1.clientGot.length) ≤ k →
        ∃ n', BReach P cfg wo reg s n n' ∧ n'.clientSent = n.clientSent ∧ n'.serverSent = n.serverSent ∧ n'.serverGot = n.clientSent ∧ n'.clientGot = n.serverSent ∧
          n'.c2s = [] ∧ n'.s2c = [] := by
      intro n1 h1 e1 e2 h2
      obtain ⟨n', r1, r2, r3, r4, r5, r6⟩ := ih n1 (.step hn h1) h2
      rw [e1] at r2 r4
      rw [e2] at r3 r5
      exact ⟨n', BReach.trans (.step .refl h1) r1, r2, r3, r4, r5, r6⟩
    rcases a with ⟨a1, a2⟩ | ⟨d, ds, l, rest, a1, a2, a3⟩
    · rcases b with ⟨b1, b2⟩ | ⟨d, ds, l, rest, b1, b2, b3⟩
      · exact ⟨n, .refl, rfl, rfl, a1.symm, b1.symm, a2, b2⟩
      · obtain ⟨x, hx⟩ : ∃ x, s.wireOpen P cfg n.client.1 n.client.2 l = (x, .ok d) := ⟨_, Prod.ext rfl b3⟩
        refine go _ (.clientRecv b2 hx) rfl rfl ?_
        simp only [List.length_append, List.length_cons, List.length_nil]
        rw [b1] at hk ⊢
        simp only [List.length_append, List.length_cons] at hk ⊢
        omega
    · have hlt : (n.clientSent.length - (n.serverGot ++ [d]).length) + (n.serverSent.length - n.clientGot.length) ≤ k := by
        rw [a1] at hk ⊢
        simp only [List.length_append, List.length_cons, List.length_nil] at hk ⊢
        omega
      cases hsv : n.server with
      | none =>
        rw [hsv] at a3
        obtain ⟨v, wv, c1, c2, _⟩ := a3
        obtain ⟨x, hx⟩ : ∃ x, v.wireOpen P cfg v.initState wv l = (x, .ok d) := ⟨_, Prod.ext rfl c2⟩
        exact go _ (.accept false hsv a2 c1 hx) rfl rfl hlt
      | some y =>
        obtain ⟨v, st, w⟩ := y
        rw [hsv] at a3
        obtain ⟨x, hx⟩ : ∃ x, v.wireOpen P cfg st w l = (x, .ok d) := ⟨_, Prod.ext rfl a3⟩
        exact go _ (.serverRecv hsv a2 hx) rfl rfl hlt

end

/-- C125, C58. After everything sent and received, in whatever interleaving, the two parties can read all that is on its way: then each has got exactly what the other one has
sent, and the streams are empty. -/
theorem stream_drains (P : Prims) (pair : Bytes → Bytes → Bytes → Prop) (hP : P.Correct pair) (cfg : Config) (wc wo : World)
    (e : Envelope) (hes : e.suite = none) (hev : e.version = 1) (s : Session) (w : Wire)
    (hs : wireCorrespondence P cfg wc suiteRegistry e = .ok (s, w))
    (hlev : demandedLevel cfg 0 ≤ demandedLevel cfg e.securityLevel) (hids : ∀ r ∈ s.env.recipients, r.id ≠ [])
    (hrec : s.env.recipients.length ≤ 255)
    (hcp : Counterparts P pair wo s) (asServer : Bool) (n : BNet)
    (hn : BReach P cfg wo suiteRegistry s { client := (s.initState, if asServer then w.asServer else w) } n) :
    ∃ n', BReach P cfg wo suiteRegistry s n n' ∧ n'.clientSent = n.clientSent ∧ n'.serverSent = n.serverSent ∧ n'.serverGot = n.clientSent ∧
      n'.clientGot = n.serverSent ∧ n'.c2s = [] ∧ n'.s2c = [] :=
  breach_drains (fun m hm => wire_stream_delivery P pair hP cfg wc wo e hes hev s w hs hlev hids hrec hcp asServer m hm) _ n hn (Nat.le_refl _)

/-! ## Starting -/

/-- The suites for wire sessions (specification). -/
def wireSuites : List Bytes := [b!"w1", b!"w2"]

/-- Everybody who has the public keys of the recipients can start a wire session. -/
theorem wire_starts (P : Prims) (cfg : Config) (wc : World) (getC : Bytes → Bool → Res Signet) (hwc : wc.store = some getC)
    (e : Envelope) (hes : e.suite = none) (heo : e.opening = false) (hid : e.suiteID ∈ wireSuites) (hsec : e.secrets = []) (hsend : e.senders = [])
    (hne : e.recipients ≠ [])
    (hrcpt : ∀ k ∈ e.recipients, k.id ≠ [] ∧ k.key = [] ∧ (k.scheme = [] ∨ k.scheme = b!"ECDH-X25519") ∧ ∃ pub, PublicStored P getC k.id b!"ECDH-X25519" pub)
    (hl1 : demandedLevel cfg e.securityLevel ≤ 128) (hl2 : 0 < e.securityLevel → demandedLevel cfg e.securityLevel ≤ e.securityLevel) :
    ∃ s, correspondence P cfg wc suiteRegistry e = .ok s ∧ wireCorrespondence P cfg wc suiteRegistry e = .ok (s, {}) := by
  have tx : ∃ t, getTool b!"ECDH-X25519" = some t := ⟨_, rfl⟩
  have hids : ∀ id ∈ wireSuites, id ∉ passwordSuites ∧ id ∉ keySuites ∧ id ∉ signingSuites ∧ id ∈ recipientSuites ∧ ∃ su ∈ suiteRegistry, su.id = id := by decide +kernel
  obtain ⟨np, nk, ns, yr, su, hsu, hsid⟩ := hids e.suiteID hid
  obtain ⟨rn, hrn⟩ : ∃ out, All2 (fun s o => prepOne P wc 128 true s = .ok o ∧ o.scheme = b!"ECDH-X25519" ∧ o.loadedPub.isSome = true) e.recipients out := by
    refine all2_exists _ fun k hk => ?_
    obtain ⟨k1, k2, k3, pub, n, o, s1, _, _, s4, s5, s7, s8⟩ := hrcpt k hk
    exact ⟨o, prepOne_stored hwc k1 k2 k3 tx s1 s4 s5 s7, (load_spec s7).2.1.trans s5, (load_spec s7).2.2.2.2.2.2.2⟩
  have noStub : NoKeyStub e.recipients := by
    intro k hk _
    obtain ⟨_, _, h, _⟩ := hrcpt k hk
    rcases h with h | h <;> rw [h] <;> decide
  have hprep : prepareSignets P wc 128 { e with suite := some su } = .ok { e with suite := some su, secrets := [], senders := [], recipients := rn } := by
    simp only [prepareSignets, heo, hsec, hsend, Bool.not_false]
    rw [(prepSignets_all2 P wc 128 false [] [] (.inl rfl)).mpr .nil,
      (prepSignets_all2 P wc 128 true _ rn (.inr noStub)).mpr (hrn.mono fun _ _ h => h.1)]
    rfl
  have hrne : rn ≠ [] := by
    intro h
    subst h
    generalize e.recipients = l at hrn hne
    cases hrn
    exact hne rfl
  have hfit : Fits cfg e.suiteID { e with suite := some su, secrets := [], senders := [], recipients := rn } := by
    refine ⟨?_, fun h => absurd h ns, ?_, fun _ => hrne, ?_, fun h => absurd h np, fun h => absurd h nk, hl1, hl2, ?_, ?_⟩
    · intro o ho; cases ho
    · intro o ho
      exact ⟨(hrn.mem_right ho).elim fun _ h => h.2.2.1, yr⟩
    all_goals (intro k hk; cases hk)
  obtain ⟨s, hs⟩ := (fits_accepted P hsu (e := { e with suite := some su, secrets := [], senders := [], recipients := rn }) rfl (by rw [hsid]; exact hfit))
  have hget : getSuite suiteRegistry e.suiteID = some su := by
    have : ∀ su ∈ suiteRegistry, getSuite suiteRegistry su.id = some su := by decide +kernel
    rw [← hsid]; exact this su hsu
  have hcor : correspondence P cfg wc suiteRegistry e = .ok s := by
    simp only [correspondence, loadSuite, hes, hget, ok_bind, (registry_shapes su hsu).2.1, hprep]
    exact hs
  obtain ⟨g1, g2⟩ := newSession_env hs
  have hsuite : s.suite = su := by simpa using g2.symm
  have hall : ∀ su ∈ suiteRegistry, su.id ∈ wireSuites → (∀ a ∈ wireRequirements, ∃ t ∈ instsOf su, a ∈ providedBy t.info.purpose) ∧
      (instsOf su).any (fun t => t.info.purpose == .passDerivation || t.info.purpose == .signing) = false := by decide +kernel
  obtain ⟨q1, q2⟩ := hall su hsu (by rw [hsid]; exact hid)
  have hins := session_insts hs
  rw [hsuite] at hins
  refine ⟨s, hcor, ?_⟩
  have c : s.reqs.checkComplianceTo wireRequirements = .ok () := by
    rw [compliance_iff]
    intro a ha
    rw [session_reqs_iff hs a]
    obtain ⟨t, t1, t2⟩ := q1 a ha
    exact .inl ⟨t, by rw [hins]; exact t1, t2⟩
  have hw : initWire s = .ok {} := by
    unfold initWire
    rw [c, hins, q2, g1]
    rfl
  unfold wireCorrespondence
  rw [hcor, ok_bind, hw, ok_bind]

/-- Key pairs of the codec can be stored. -/
theorem stores_private {P : Prims} {K : KeyLib} {rsaPair : Bytes → Bytes → Prop} (hKL : K.Sound rsaPair) (hP : P.UsesCodec K) (hG : GenPairs P K rsaPair) :
    P.StoresPrivate := by
  intro t _ _ seed pub priv h
  obtain ⟨⟨k, e1, _⟩, _⟩ := key_round_trip K rsaPair hKL t.name pub priv (hG _ _ _ _ h)
  refine ⟨k, ?_⟩
  rw [hP.store]
  simp only [e1]
  rfl

/-- C125. Bob has a directory and no keys. He generates a key pair and exports it under its ID, Alice imports the text. Then Alice can start a wire session with Bob; and after
everything that the two have sent and received, in whatever interleaving, over byte streams, each of them can send the next message, whatever it is, what has arrived can be
read, and each got exactly what the other sent. None of it fails. -/
theorem conversation_from_nothing (K : KeyLib) (rsaPair : Bytes → Bytes → Prop) (hKL : K.Sound rsaPair)
    (P : Prims) (hP : P.UsesCodec K) (hG : GenPairs P K rsaPair) (W : P.Work) (pair : Bytes → Bytes → Bytes → Prop) (hC : P.Correct pair)
    (hK : ∀ scheme pub k, P.storeKey scheme pub none = .ok k → k ≠ []) (D : Dsd) (hD : D.Sound) (hL : D.Plain) (hW : D.Rewrites)
    (cfg : Config) (hmin : cfg.minKeySize ≤ 8000)
    (SA SB : DirStore) (hSA : SA.storageDir ≠ []) (hSB : SB.storageDir ≠ []) (fsA fsB : FS) (mA mB : AbsStore) (hmA : DirRefines D SA fsA mA)
    (hmB : DirRefines D SB fsB mB)
    -- the one who generates
    (EB : GenEnv FS) (hEB : EB.inDir SB D (fun _ => .done)) (hPB : EB.P = P)
    (nameB nmB uB pubB privB : Bytes) (hnB : flagOrAsk nameB EB.askName = .ok nmB)
    (huB : EB.uuid = .ok uB) (hgB : P.genKey b!"ECDH-X25519" EB.seed = .ok (pubB, privB))
    (hdB : ∀ half, half = none ∨ half = some privB → ∀ key, P.storeKey b!"ECDH-X25519" pubB half = .ok key →
      ∃ d, D.dumpSignet { version := 1, id := uuidText (uuidMark uB), scheme := b!"ECDH-X25519", key := key, isPublic := half.isNone, info := some { name := nmB } } = .ok d)
    (envsB : Bytes → Res Envelope) :
    ∃ fsB1 b textB fsA1, newSignet EB fsB nameB b!"ECDH-X25519" true = (fsB1, .ok b) ∧
      cmdExport P D { getSignet := SB.getSignet D fsB1, getEnvelope := envsB } b.id = .ok textB ∧ importDir P D SA fsA .done textB = (fsA1, .ok ()) ∧
      ∀ wc wo : World, wc.store = some (SA.getSignet D fsA1) → wc.KeepsScheme → wo.store = some (SB.getSignet D fsB1) →
        -- an envelope with Bob as recipient
        ∀ e : Envelope, e.suite = none → e.version = 1 → e.opening = false → e.suiteID ∈ wireSuites → e.secrets = [] → e.senders = [] → e.recipients ≠ [] →
          e.recipients.length ≤ 255 → (∀ k ∈ e.recipients, k.id = b.id ∧ k.key = [] ∧ (k.scheme = [] ∨ k.scheme = b!"ECDH-X25519")) →
          demandedLevel cfg e.securityLevel ≤ 128 → (0 < e.securityLevel → demandedLevel cfg e.securityLevel ≤ e.securityLevel) →
          demandedLevel cfg 0 ≤ demandedLevel cfg e.securityLevel →
          ∃ s w, wireCorrespondence P cfg wc suiteRegistry e = .ok (s, w) ∧
            ∀ n, BReach P cfg wo suiteRegistry s { client := (s.initState, w) } n →
              n.CanSend P cfg s ∧ (ServerReads P cfg wo suiteRegistry n ∧ ClientReads P cfg s n) ∧
              -- what is on its way can be read to the end
              ∃ n', BReach P cfg wo suiteRegistry s n n' ∧ n'.clientSent = n.clientSent ∧ n'.serverSent = n.serverSent ∧ n'.serverGot = n.clientSent ∧
                n'.clientGot = n.serverSent ∧ n'.c2s = [] ∧ n'.s2c = [] := by
  have fl : flagOrAsk b!"ECDH-X25519" EB.askScheme = .ok b!"ECDH-X25519" := by
    have h : trimSpace b!"ECDH-X25519" = b!"ECDH-X25519" := by decide +kernel
    unfold flagOrAsk; rw [h]; rfl
  have gB : ∃ t, getTool b!"ECDH-X25519" = some t ∧ t.purpose.usesSignets = true ∧ t.needsSecurityLevel = false ∧ t.needsDefaultKeySize = false := ⟨_, rfl, rfl, rfl, rfl⟩
  obtain ⟨tB, tB1, tB2, tB3, tB4⟩ := gB
  subst hPB
  obtain ⟨fsB1, b, b1, b2, b3, b4, mB', b5⟩ := generate_succeeds K rsaPair hKL D hD SB hSB EB hEB hP hG fsB mB hmB nameB b!"ECDH-X25519" nmB
    b!"ECDH-X25519" uB pubB privB hnB fl huB tB tB1 tB2 (by rw [tB3]; intro h; cases h) (by rw [tB4]; intro h; cases h) hgB hdB
  have hid : b.id ≠ [] := by rw [b2]; exact (uuidText_permitted _).2
  obtain ⟨textB, c1, c2⟩ := exchange_succeeds EB.P hK D hD hL hW SB hSB fsB1 mB' b5 b.id b!"ECDH-X25519" nmB pubB privB hid ⟨_, tB1⟩ b4 envsB
  obtain ⟨fsA1, c3⟩ := c2 SA hSA fsA mA hmA
  obtain ⟨p1, _⟩ := export_import_same EB.P D hD hL SB fsB1 b.id b!"ECDH-X25519" nmB pubB privB b4 envsB textB c1 SA hSA fsA fsA1 mA hmA .done (.inl rfl) c3
  refine ⟨fsB1, b, textB, fsA1, b1, c1, c3, ?_⟩
  intro wc wo hwc hkeep hwo e hes hev heo hsu hsec hsend hne hlen hrcpt hl1 hl2 hl3
  obtain ⟨s, hcor, hs⟩ := wire_starts EB.P cfg wc _ hwc e hes heo hsu hsec hsend hne (by
    intro k hk
    obtain ⟨k1, k2, k3⟩ := hrcpt k hk
    rw [k1]
    exact ⟨hid, k2, k3, pubB, p1⟩) hl1 hl2
  obtain ⟨⟨_, _, i1⟩, _, i2⟩ := stored_counterparts EB.P pair cfg wc wo _ _ hwc hwo e hes heo hsec (by rw [hsend]; intro k hk; cases hk)
    (by
      intro k hk
      obtain ⟨k1, k2, k3⟩ := hrcpt k hk
      rw [k1]
      exact ⟨k2, _, pubB, privB, k3, ⟨_, tB1⟩, hC.gen _ _ _ _ hgB, p1, b4.priv⟩) s hcor
  have hlen' : s.env.recipients.length ≤ 255 := by rw [session_recipients_length hes hcor]; exact hlen
  exact ⟨s, {}, hs, fun n hn =>
    have h := stream_never_stuck EB.P W (stores_private hKL hP hG) pair hC cfg hmin wc wo hkeep e hes hev s {} hs hl3 i1 hlen' i2 false n hn
    ⟨h.1, h.2, stream_drains EB.P pair hC cfg wc wo e hes hev s {} hs hl3 i1 hlen' i2 false n hn⟩⟩

/-! ## The hypotheses are met -/

/-- Bob starts with an empty directory. He generates and exports his key, Alice imports it, they talk. -/
theorem conversation_from_nothing_example : ∃ fsB1 b tb fsA1, newSignet (storyGen 9) toyFS b!"Bob" b!"ECDH-X25519" true = (fsB1, .ok b) ∧
    cmdExport storyPrims toyDsd { getSignet := toyDirStore.getSignet toyDsd fsB1, getEnvelope := noEnvelopes } b.id = .ok tb ∧
    importDir storyPrims toyDsd toyDirStore toyFS .done tb = (fsA1, .ok ()) ∧
    ∃ s w, wireCorrespondence storyPrims toyConfig { store := some (toyDirStore.getSignet toyDsd fsA1) } suiteRegistry { suiteID := b!"w2", recipients := [{ id := b.id }] } = .ok (s, w) ∧
      ∀ n, BReach storyPrims toyConfig { store := some (toyDirStore.getSignet toyDsd fsB1) } suiteRegistry s { client := (s.initState, w) } n →
        n.CanSend storyPrims toyConfig s ∧ (ServerReads storyPrims toyConfig { store := some (toyDirStore.getSignet toyDsd fsB1) } suiteRegistry n ∧
          ClientReads storyPrims toyConfig s n) ∧
        ∃ n', BReach storyPrims toyConfig { store := some (toyDirStore.getSignet toyDsd fsB1) } suiteRegistry s n n' ∧ n'.clientSent = n.clientSent ∧
          n'.serverSent = n.serverSent ∧ n'.serverGot = n.clientSent ∧ n'.clientGot = n.serverSent ∧ n'.c2s = [] ∧ n'.s2c = [] := by
  have hdB : ∀ half, half = none ∨ half = some (padSeed (List.replicate 32 9)) → ∀ key,
      storyPrims.storeKey b!"ECDH-X25519" (padSeed (List.replicate 32 9)) half = .ok key → ∃ d, toyDsd.dumpSignet { version := 1, id := uuidText (uuidMark (List.replicate 16 9)), scheme := b!"ECDH-X25519", key := key, isPublic := half.isNone, info := some { name := b!"Bob" } } = .ok d := by
    rintro half (rfl | rfl) key h
    · have : storyPrims.storeKey b!"ECDH-X25519" (padSeed (List.replicate 32 9)) none = .ok (1 :: List.replicate 32 9) := by decide +kernel
      rw [this] at h; cases h
      exact ok_of_isOk (by decide +kernel)
    · have : storyPrims.storeKey b!"ECDH-X25519" (padSeed (List.replicate 32 9)) (some (padSeed (List.replicate 32 9))) = .ok (1 :: List.replicate 64 9) := by
        decide +kernel
      rw [this] at h; cases h
      exact ok_of_isOk (by decide +kernel)
  obtain ⟨fsB1, b, tb, fsA1, h1, h2, h3, h4⟩ := conversation_from_nothing toyLib (fun pub priv => pub = priv) toyLib_sound storyPrims story_uses
    story_pairs story_work StoryPair story_correct story_key toyDsd toyDsd_sound toyDsd_plain toyDsd_rewrites.1
    toyConfig (by decide) toyDirStore toyDirStore (by decide) (by decide) toyFS toyFS _ _ toyDir_empty toyDir_empty (storyGen 9) rfl rfl
    b!"Bob" b!"Bob" (List.replicate 16 9) _ _ (by decide +kernel) rfl rfl hdB noEnvelopes
  refine ⟨fsB1, b, tb, fsA1, h1, h2, h3, ?_⟩
  exact h4 { store := some (toyDirStore.getSignet toyDsd fsA1) } { store := some (toyDirStore.getSignet toyDsd fsB1) } rfl
    ⟨(by intro cb s s' h; cases h), (by intro cb s l s' h; cases h)⟩ rfl { suiteID := b!"w2", recipients := [{ id := b.id }] } rfl rfl rfl
    (by show b!"w2" ∈ wireSuites; decide) rfl rfl (by simp) (by show 1 ≤ 255; decide)
    (by intro k hk; rw [List.mem_singleton.mp hk]; exact ⟨rfl, rfl, .inl rfl⟩)
    (by show demandedLevel toyConfig 0 ≤ 128; decide) (by show (0 : Int) < 0 → demandedLevel toyConfig 0 ≤ 0; decide) (Int.le_refl _)

end Jess
