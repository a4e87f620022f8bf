import Verif.Props.Generate
import Verif.Props.CloseOpen

/-! # Generated keys work (C66) -/

namespace Jess

theorem dir_get_iff {D : Dsd} (hD : D.Sound) {S : DirStore} (hS : S.storageDir ≠ []) {fs : FS} {m : AbsStore} (h : DirRefines D S fs m)
    {id : Bytes} {r : Bool} {s : Signet} : S.getSignet D fs id r = .ok s ↔ PermittedName id ∧ m.signet id r = some s := by
  have h1 := (dirStep_refines D hD [] S hS fs m h (.getSignet id r) trivial).1
  simp only [dirStep, absStep] at h1
  constructor
  · intro hg
    rw [hg] at h1
    by_cases hp : PermittedName id
    · simp only [hp, not_true, if_false] at h1
      cases hm : m.signet id r with
      | none => rw [hm] at h1; cases h1
      | some t => rw [hm] at h1; cases h1; exact ⟨hp, rfl⟩
    · simp only [hp, not_false_eq_true, if_true] at h1; cases h1
  · rintro ⟨hp, hm⟩
    exact dir_get hD hS h hp hm

/-- C66. A key pair that was generated stays when others are generated under other IDs, whether that succeeds or not. -/
theorem generated_pair_stays (D : Dsd) (hD : D.Sound) (S : DirStore) (hS : S.storageDir ≠ []) (E : GenEnv FS) (w : Nat → WriteEnd)
    (hE : E.inDir S D w) (hw : ∀ i, w i = .done ∨ w i = .refused) (fs fs' : FS) (m : AbsStore) (hm : DirRefines D S fs m)
    (name scheme : Bytes) (save : Bool) (r : Res Signet) (h : newSignet E fs name scheme save = (fs', r))
    (P : Prims) (id tool nm pub priv : Bytes) (hp : PairStored P (S.getSignet D fs) id tool nm pub priv)
    (hid : ∀ u, E.uuid = .ok u → uuidText (uuidMark u) ≠ id) :
    (∃ m', DirRefines D S fs' m') ∧ PairStored P (S.getSignet D fs') id tool nm pub priv := by
  have keep : ∀ m', DirRefines D S fs' m' → (∀ r, m'.signet id r = m.signet id r) →
      (∃ m', DirRefines D S fs' m') ∧ PairStored P (S.getSignet D fs') id tool nm pub priv := by
    intro m' hm' he
    have hg : ∀ r s, S.getSignet D fs id r = .ok s → S.getSignet D fs' id r = .ok s := by
      intro r s hs
      rw [dir_get_iff hD hS hm] at hs
      rw [dir_get_iff hD hS hm', he]
      exact hs
    refine ⟨⟨m', hm'⟩, ?_, ?_⟩
    · obtain ⟨n, o, h1, h2⟩ := hp.signet
      exact ⟨n, o, hg _ _ h1, h2⟩
    · obtain ⟨n, o, h1, h2⟩ := hp.recipient
      exact ⟨n, o, hg _ _ h1, h2⟩
  have other : ∀ (m : AbsStore) (id' : Bytes) r x, id' ≠ id → ∀ r', (m.setSignet id' r x).signet id r' = m.signet id r' := by
    intro m id' r x hne r'
    simp only [AbsStore.setSignet]
    rw [if_neg (fun e => hne e.1.symm)]
  unfold newSignet at h
  split at h
  · obtain ⟨rfl, _⟩ := Prod.mk.inj h; exact keep m hm fun _ => rfl
  · rename_i s0 sc hg
    have hs0 : s0.id ≠ id := by
      simp only [genSignet, bind_ok_iff] at hg
      obtain ⟨_, _, _, _, s1, _, u, h4, h5⟩ := hg
      rw [← (Prod.mk.inj (Except.ok.inj h5)).1]
      exact hid u h4
    cases save with
    | false => obtain ⟨rfl, _⟩ := Prod.mk.inj h; exact keep m hm fun _ => rfl
    | true =>
      simp only [if_true] at h
      have h' : (saveSignet E fs s0 sc).1 = fs' := by
        split at h <;> (rename_i e; rw [e]; exact (Prod.mk.inj h).1)
      clear h
      unfold saveSignet at h'
      rw [hE] at h'
      simp only at h'
      cases hput : S.storeSignet D fs (w 0) s0 with
      | mk fs1 q =>
        rw [hput] at h'
        have hq := dir_put hD hS hm (hw 0) hput
        cases q with
        | error e => simp only at h'; subst h'; exact keep m (hq.2 e rfl) fun _ => rfl
        | ok x =>
          have h1 := (hq.1 x rfl).1
          simp only at h'
          have k1 : ∀ r, (m.setSignet s0.id s0.isPublic (some s0.stored)).signet id r = m.signet id r := other m _ _ _ hs0
          split at h'
          · subst h'; exact keep _ h1 k1
          · unfold saveRecipient at h'
            cases hr : s0.asRecipient E.P with
            | error e => rw [hr] at h'; simp only at h'; subst h'; exact keep _ h1 k1
            | ok r1 =>
              rw [hr] at h'
              simp only at h'
              cases hr2 : r1.store E.P with
              | error e => rw [hr2] at h'; simp only at h'; subst h'; exact keep _ h1 k1
              | ok r2 =>
                rw [hr2] at h'
                simp only at h'
                rw [hE] at h'
                simp only at h'
                have hi1 : r1.id = s0.id := by
                  unfold Signet.asRecipient at hr
                  split at hr
                  · cases hr
                  · rw [bind_ok_iff] at hr
                    obtain ⟨l, hl, hr⟩ := hr
                    cases hr
                    exact (load_spec hl).1
                have hi2 : r2.id = r1.id := by
                  unfold Signet.store at hr2
                  repeat' split at hr2
                  all_goals first
                    | (cases hr2; done)
                    | (cases hr2; rfl)
                cases hput2 : S.storeSignet D fs1 (w 1) r2 with
                | mk fs2 q2 =>
                  rw [hput2] at h'
                  simp only at h'
                  subst h'
                  have hq2 := dir_put hD hS h1 (hw 1) hput2
                  cases q2 with
                  | error e => exact keep _ (hq2.2 e rfl) k1
                  | ok y =>
                    refine keep _ (hq2.1 y rfl).1 fun r => ?_
                    rw [other _ _ _ _ (by rw [hi2, hi1]; exact hs0)]
                    exact k1 r

/-- C66. Letters closed with generated keys can be opened with them: an envelope that names the IDs of generated key pairs (senders and
recipients) and of shared keys, a session for it, a letter closed by this session: it opens with the same store to the same data.
(Under the condition of C10 that the level of the envelope is not below the one for opening.) -/
theorem generated_keys_work (P : Prims) (pair : Bytes → Bytes → Bytes → Prop) (hP : P.Correct pair) (cfg : Config) (w : World)
    (get : Bytes → Bool → Res Signet) (hw : w.store = some get) (rng : Rng) (e : Envelope)
    (hes : e.suite = none) (hev : e.version = 1) (hlev : demandedLevel cfg 0 ≤ demandedLevel cfg e.securityLevel) (heo : e.opening = false)
    (hkeys : ∀ k ∈ e.secrets, k.key = [] ∧ k.scheme ≠ schemePassword ∧
      ∃ n, get k.id false = .ok n ∧ n.id = k.id ∧ n.scheme = schemeKey ∧ n.protection = false)
    (hpairs : ∀ k ∈ e.senders ++ e.recipients, k.key = [] ∧ k.scheme ≠ schemePassword ∧ k.scheme ≠ schemeKey ∧
      ∃ scheme nm seed pub priv, P.genKey scheme seed = .ok (pub, priv) ∧ (∃ t, getTool scheme = some t) ∧ PairStored P get k.id scheme nm pub priv)
    (s : Session) (hs : correspondence P cfg w suiteRegistry e = .ok s) (reqs : Option Requirements)
    (hreq : ∀ a ∈ reqs.getD Requirements.full, a ∈ s.suite.provides) (data : Bytes) (l : Letter) (hc : (s.close P cfg rng s.initState data).2 = .ok l) :
    l.open P cfg w suiteRegistry reqs = .ok data := by
  have hs0 := hs
  simp only [correspondence, loadSuite, hes, bind_ok_iff] at hs
  obtain ⟨⟨e1, su⟩, h1, h2⟩ := hs
  split at h1
  · cases h1
  · rename_i su' hsu
    cases h1
    obtain ⟨e2, hp, hn⟩ := h2
    simp only [prepareSignets, bind_ok_iff] at hp
    obtain ⟨a, ha, b, hb, c, hcc, hx⟩ := hp
    cases hx
    obtain ⟨g1, g2⟩ := newSession_env hn
    simp only [heo, Bool.not_false] at ha hb hcc
    have noStub : NoKeyStub e.recipients := by
      intro k hk _
      exact (hpairs k (by simp [hk])).2.2.1
    rw [prepSignets_all2 _ _ _ _ _ _ (.inl rfl)] at ha hb
    rw [prepSignets_all2 _ _ _ _ _ _ (.inr noStub)] at hcc
    have sec : ∀ k ∈ s.env.secrets, k.id ≠ [] ∧ k.scheme = schemeKey ∧ ∃ n, get k.id false = .ok n ∧ n.scheme = schemeKey ∧ n.key = k.key ∧
        n.protection = false := by
      intro o ho
      rw [g1] at ho
      obtain ⟨k, hk, hko⟩ := ha.mem_right ho
      obtain ⟨k1, k2, n, k3, k4, k5, k6⟩ := hkeys k hk
      obtain ⟨get', n', f1, f2, f3, f4, f5⟩ := prepOne_fetch k1 k2 hko
      rw [hw] at f1; cases f1
      rw [show (if k.scheme = schemeKey then false else false) = false by split <;> rfl, k3] at f2
      cases f2
      obtain ⟨_, p2, p3, p4, _⟩ := finishPrep_spec f5
      have hid : o.id = k.id := by rw [p3, k4]
      exact ⟨by rw [hid]; exact f3, by rw [p2]; exact k5, n, by rw [hid]; exact k3, k5, p4.symm, k6⟩
    have snd : ∀ o ∈ s.env.senders, o.id ≠ [] ∧ ∃ pub priv, o.loadedPub = some pub ∧ o.loadedPriv = some priv ∧ pair o.scheme pub priv ∧
        PublicKeyOf P w o.id o.scheme pub := by
      intro o ho
      rw [g1] at ho
      obtain ⟨k, hk, hko⟩ := hb.mem_right ho
      obtain ⟨k1, k2, k3, sch, nm, seed, pub, priv, q1, ⟨t, q2⟩, q3⟩ := hpairs k (by simp [hk])
      obtain ⟨get', n', f1, f2, f3, f4, f5⟩ := prepOne_fetch k1 k2 hko
      rw [hw] at f1; cases f1
      rw [if_neg k3] at f2
      obtain ⟨n, x, s1, s2, s3, s4, s5, s6, s7, s8, s9⟩ := q3.signet
      rw [s1] at f2; cases f2
      obtain ⟨_, p2, p3, p4, p5⟩ := finishPrep_spec f5
      have hns := tool_not_secret q2
      rcases p5 with ⟨p5, _⟩ | ⟨_, _, p5⟩
      · rw [s5] at p5; exact absurd p5 (by simp [hns])
      · rw [s7] at p5; cases p5
        obtain ⟨n2, x2, r1, r2, r3, r4, r5, r6, r7, r8, r9, r10⟩ := q3.recipient
        have hid : o.id = k.id := by rw [p3, s2]
        refine ⟨by rw [hid]; exact f3, pub, priv, s8, s9, by rw [p2, s5]; exact hP.gen _ _ _ _ q1, get, n2, x2, hw, by rw [hid]; exact r1, r4, ?_, r8, r9⟩
        rw [p2, s5, r5]
    have rcp : ∀ o ∈ s.env.recipients, o.id ≠ [] ∧ ∃ n x pub priv, get o.id false = .ok n ∧ n.protection = false ∧
        n.scheme = o.scheme ∧ n.load P = .ok x ∧ o.loadedPub = some pub ∧ x.loadedPub = some pub ∧ x.loadedPriv = some priv ∧
        pair o.scheme pub priv := by
      intro o ho
      rw [g1] at ho
      obtain ⟨k, hk, hko⟩ := hcc.mem_right ho
      obtain ⟨k1, k2, k3, sch, nm, seed, pub, priv, q1, ⟨t, q2⟩, q3⟩ := hpairs k (by simp [hk])
      obtain ⟨get', n', f1, f2, f3, f4, f5⟩ := prepOne_fetch k1 k2 hko
      rw [hw] at f1; cases f1
      rw [if_neg k3] at f2
      obtain ⟨n, x, s1, s2, s3, s4, s5, s6, s7, s8, s9⟩ := q3.signet
      obtain ⟨n2, x2, r1, r2, r3, r4, r5, r6, r7, r8, r9, r10⟩ := q3.recipient
      rw [r1] at f2; cases f2
      obtain ⟨_, p2, p3, p4, p5⟩ := finishPrep_spec f5
      have hns := tool_not_secret q2
      rcases p5 with ⟨p5, _⟩ | ⟨_, _, p5⟩
      · rw [r5] at p5; exact absurd p5 (by simp [hns])
      · rw [r8] at p5; cases p5
        have hid : o.id = k.id := by rw [p3, r2]
        refine ⟨by rw [hid]; exact f3, n, x, pub, priv, by rw [hid]; exact s1, s4, by rw [p2, r5, s5], s7, r9, s8, s9, ?_⟩
        rw [p2, r5]; exact hP.gen _ _ _ _ q1
    have hne : schemeKey ≠ schemePassword := by decide
    refine close_open_roundtrip_partial P pair hP cfg w w rng e hes hev s hs0 hlev
      ⟨fun k hk => (sec k hk).1, fun k hk => (snd k hk).1, fun k hk => (rcp k hk).1⟩ (.inr fun k hk => by rw [(sec k hk).2.1]; exact hne)
      ⟨?_, ?_, ?_, ?_⟩ reqs hreq data l hc
    · intro k hk _
      obtain ⟨_, _, n, x1, x2⟩ := sec k hk
      exact ⟨get, n, hw, x1, x2⟩
    · intro k hk e; rw [(sec k hk).2.1] at e; exact absurd e hne
    · intro k hk; exact (snd k hk).2
    · intro k hk
      obtain ⟨_, n, x, pub, priv, y⟩ := rcp k hk
      exact ⟨get, n, x, pub, priv, hw, y⟩

/-! ## Examples -/

/-- Keys of 32 bytes are generated for one tool only. -/
def toyGenPrims : Prims :=
  { toyCodecPrims with genKey := fun tool seed => if tool = b!"ECDH-X25519" ∧ seed.length = 32 then .ok (seed, seed) else .error .unsupported }

theorem toyGen_uses : toyGenPrims.UsesCodec toyLib where
  load := fun _ _ _ => rfl
  store := fun _ _ _ => rfl

theorem toyGen_pairs : GenPairs toyGenPrims toyLib (fun pub priv => pub = priv) := by
  intro tool seed pub priv h
  simp only [toyGenPrims] at h
  split at h
  · rename_i hc
    cases h
    obtain ⟨rfl, hl⟩ := hc
    have hk : keyKind b!"ECDH-X25519" = some .x25519 := by decide +kernel
    unfold KeyPair
    rw [hk]
    exact ⟨hl, hl, rfl⟩
  · cases h

/-- The generator for the example: the key pair and the ID are made of the byte `x`. -/
def toyGenEnv (x : UInt8) (w : Nat → WriteEnd) : GenEnv FS where
  P := toyGenPrims
  symKeySize := 0
  minLevel := 0
  askName := .error .missing
  askScheme := .ok b!"ECDH-X25519"
  seed := List.replicate 32 x
  random := fun n => .ok (List.replicate n x)
  uuid := .ok (List.replicate 16 x)
  put := fun i fs s => toyDirStore.storeSignet toyDsd fs (w i) s

def toyDone : Nat → WriteEnd := fun _ => .done

/-- `toyDone`, except that the second write is refused. -/
def toyFull : Nat → WriteEnd := fun i => if i = 1 then .refused else .done

theorem toyDir_empty : DirRefines toyDsd toyDirStore toyFS .empty := by
  have hr : toyDirStore.root = [b!"keys"] := by decide +kernel
  refine ⟨by rw [hr]; decide +kernel, fun id r _ => ?_, fun n _ => ?_⟩
  · show toyFS (storageID id r :: toyDirStore.root) = none
    rw [hr]
    unfold toyFS storageID
    rw [if_neg (by simp), if_neg (by simp), if_neg ?_]
    intro h
    have h := (List.cons.inj h).1
    have := congrArg List.reverse h
    cases r <;> simp at this
  · show toyFS ((n ++ b!".envelope") :: toyDirStore.root) = none
    rw [hr]
    unfold toyFS
    rw [if_neg (by simp), if_neg (by simp), if_neg ?_]
    intro h
    have h := (List.cons.inj h).1
    have := congrArg List.reverse h
    simp at this

/-- A key pair is generated in a directory store: the hypotheses of `generate_stores_pair` are met. With `--textonly` the texts are printed. -/
theorem generate_example :
    (∃ fs s, newSignet (toyGenEnv 7 toyDone) toyFS b!" Alice " [] true = (fs, .ok s) ∧ s.scheme = b!"ECDH-X25519" ∧
      s.id = b!"07070707-0707-4707-8707-070707070707" ∧ s.info = some { name := b!"Alice" } ∧
      (toyDirStore.getSignet toyDsd fs s.id false).isOk = true ∧ (toyDirStore.getSignet toyDsd fs s.id true).isOk = true) ∧
    (generateCommand (toyGenEnv 7 toyDone) toyDsd toyFS b!"Alice" [] true).2.isOk = true := by
  have h : (match newSignet (toyGenEnv 7 toyDone) toyFS b!" Alice " [] true with
    | (fs, .ok s) => decide (s.scheme = b!"ECDH-X25519") && decide (s.id = b!"07070707-0707-4707-8707-070707070707") &&
        decide (s.info = some { name := b!"Alice" }) && (toyDirStore.getSignet toyDsd fs s.id false).isOk &&
        (toyDirStore.getSignet toyDsd fs s.id true).isOk
    | (_, .error _) => false) = true := by decide +kernel
  refine ⟨?_, by decide +kernel⟩
  split at h
  · rename_i fs s hs
    simp only [Bool.and_eq_true, decide_eq_true_eq] at h
    exact ⟨fs, s, hs, h.1.1.1.1, h.1.1.1.2, h.1.1.2, h.1.2, h.2⟩
  · cases h

/-- C66: generating is not atomic: if the second write is refused, a private signet stays without its recipient, although the command
fails. -/
theorem generate_not_atomic : ∃ fs e,
    newSignet (toyGenEnv 7 toyFull) toyFS b!"Alice" [] true = (fs, .error e) ∧
      (toyDirStore.getSignet toyDsd fs b!"07070707-0707-4707-8707-070707070707" false).isOk = true ∧
      (toyDirStore.getSignet toyDsd fs b!"07070707-0707-4707-8707-070707070707" true).isOk = false ∧
      (toyDirStore.getSignet toyDsd toyFS b!"07070707-0707-4707-8707-070707070707" false).isOk = false := by
  have h : (match newSignet (toyGenEnv 7 toyFull) toyFS b!"Alice" [] true with
    | (_, .ok _) => false
    | (fs, .error _) => (toyDirStore.getSignet toyDsd fs b!"07070707-0707-4707-8707-070707070707" false).isOk &&
       !(toyDirStore.getSignet toyDsd fs b!"07070707-0707-4707-8707-070707070707" true).isOk &&
       !(toyDirStore.getSignet toyDsd toyFS b!"07070707-0707-4707-8707-070707070707" false).isOk) = true := by decide +kernel
  split at h
  · cases h
  · rename_i fs e hs
    simp only [Bool.and_eq_true, Bool.not_eq_true'] at h
    exact ⟨fs, e, hs, h.1.1, h.1.2, h.2⟩

theorem toyGen_correct : toyGenPrims.Correct (fun tool pub priv => tool = b!"ECDH-X25519" ∧ pub.length = 32 ∧ pub = priv) where
  gen := by
    intro tool seed pub priv h
    simp only [toyGenPrims] at h
    split at h
    · rename_i hc; cases h; exact ⟨hc.1, hc.2, rfl⟩
    · cases h
  dh := by
    intro tool a x b y h1 h2
    exact toyPrims_correct.dh tool a x b y h1.2.2 h2.2.2
  store := by
    intro tool pub priv k h1 h2
    obtain ⟨rfl, hl, rfl⟩ := h1
    have hkp : KeyPair toyLib (fun pub priv => pub = priv) b!"ECDH-X25519" pub pub := by
      have hk : keyKind b!"ECDH-X25519" = some .x25519 := by decide +kernel
      unfold KeyPair
      rw [hk]
      exact ⟨hl, hl, rfl⟩
    obtain ⟨_, k', e1, p, e2, _⟩ := key_round_trip toyLib (fun pub priv => pub = priv) toyLib_sound b!"ECDH-X25519" pub pub hkp
    change (toolStoreKey toyLib b!"ECDH-X25519" pub .nil).map (·.1) = .ok k at h2
    rw [e1] at h2
    cases h2
    refine ⟨p.toOption, ?_⟩
    show (toolLoadKey toyLib b!"ECDH-X25519" k' true).map _ = _
    rw [e2]
    rfl
  encap := by intro tool hash pub priv key seed w h1 h; exact toyPrims_correct.encap tool hash pub priv key seed w h1.2.2 h
  cipher := toyPrims_correct.cipher
  aead := toyPrims_correct.aead
  sign := by intro tool hash pub priv digest seed sig h1 h2; exact toyPrims_correct.sign tool hash pub priv digest seed sig h1.2.2 h2

/-- Everything except sender authentication. -/
def toyUnsigned : Requirements := Requirements.full.remove SenderAuthentication

/-- A reader with seeds of 32 bytes. -/
def toyLongRng : Rng := { toyRng with seed := fun i => List.replicate 32 (UInt8.ofNat (i + 7)) }

/-- The trust store with the generated key pair. -/
def toyGenWorld (fs : FS) : World := { store := some (toyDirStore.getSignet toyDsd fs) }

/-- Generate, close, open, in a directory store: all hypotheses of `generated_keys_work` are met. -/
theorem generated_use_example : ∃ fs s se l,
    newSignet (toyGenEnv 7 toyDone) toyFS b!"Alice" [] true = (fs, .ok s) ∧
    (∃ nm, PairStored toyGenPrims (toyDirStore.getSignet toyDsd fs) s.id b!"ECDH-X25519" nm (List.replicate 32 7) (List.replicate 32 7)) ∧
    correspondence toyGenPrims toyConfig (toyGenWorld fs) suiteRegistry { suiteID := b!"rcpt_v2", recipients := [{ id := s.id }] } = .ok se ∧
    (se.close toyGenPrims toyConfig toyLongRng se.initState b!"hello").2 = .ok l ∧
    (∀ a ∈ (some toyUnsigned).getD Requirements.full, a ∈ se.suite.provides) ∧
    l.open toyGenPrims toyConfig (toyGenWorld fs) suiteRegistry (some toyUnsigned) = .ok b!"hello" := by
  have h : (match newSignet (toyGenEnv 7 toyDone) toyFS b!"Alice" [] true with
    | (_, .error _) => false
    | (fs, .ok s) => decide (s.scheme = b!"ECDH-X25519") &&
      match correspondence toyGenPrims toyConfig (toyGenWorld fs) suiteRegistry { suiteID := b!"rcpt_v2", recipients := [{ id := s.id }] } with
      | .error _ => false
      | .ok se => decide (∀ a ∈ (some toyUnsigned).getD Requirements.full, a ∈ se.suite.provides) &&
        match (se.close toyGenPrims toyConfig toyLongRng se.initState b!"hello").2 with
        | .error _ => false
        | .ok _ => true) = true := by decide +kernel
  split at h
  · cases h
  · rename_i fs s hs
    simp only [Bool.and_eq_true, decide_eq_true_eq] at h
    obtain ⟨h0, h⟩ := h
    split at h
    · cases h
    · rename_i se hse
      simp only [Bool.and_eq_true, decide_eq_true_eq] at h
      obtain ⟨h1, h⟩ := h
      split at h
      · cases h
      · rename_i l hl
        obtain ⟨u, nm, pub, priv, a, b, _, _, _, e4, _, e6⟩ := generate_stores_pair toyLib (fun pub priv => pub = priv) toyLib_sound toyDsd
          toyDsd_sound toyDirStore (by decide) (toyGenEnv 7 toyDone) toyDone rfl (fun _ => .inl rfl) toyGen_uses toyGen_pairs toyFS fs .empty
          toyDir_empty b!"Alice" [] s (by rw [h0]; decide +kernel) hs
        rw [h0] at e4 e6
        have e5 : toyGenPrims.genKey b!"ECDH-X25519" (List.replicate 32 7) = .ok (List.replicate 32 7, List.replicate 32 7) := by decide +kernel
        have e7 : (toyGenEnv 7 toyDone).P.genKey b!"ECDH-X25519" (toyGenEnv 7 toyDone).seed = .ok (List.replicate 32 7, List.replicate 32 7) := e5
        rw [e7] at e4
        cases e4
        refine ⟨fs, s, se, l, hs, ⟨nm, e6⟩, hse, hl, h1, ?_⟩
        refine generated_keys_work toyGenPrims _ toyGen_correct toyConfig (toyGenWorld fs) _ rfl toyLongRng _ rfl rfl ?_ rfl ?_ ?_ se hse _ h1 _ l hl
        · exact Int.le_refl _
        · intro k hk; cases hk
        · intro k hk
          have hk : k = { id := s.id } := by simpa using hk
          subst hk
          exact ⟨rfl, (show ([] : Bytes) ≠ schemePassword by decide), (show ([] : Bytes) ≠ schemeKey by decide), _, nm, _, _, _, e5, (by exact ⟨_, rfl⟩), e6⟩

end Jess
