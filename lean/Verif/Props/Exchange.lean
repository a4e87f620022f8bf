import Verif.Model.Exchange
import Verif.Props.GenerateUse
import Verif.Model.CmdLine

/-!
# C88: two people who exchange their exported keys can write to each other
-/

namespace Jess

/-- `importDir` is the command `jess import` with a directory trust store. -/
theorem importDir_is_command (P : Prims) (D : Dsd) (S : DirStore) (fs : FS) (w : WriteEnd) (text : Bytes) :
    (importDir P D S fs w text).2 = importCommand P D (some fun x => match x with
      | .signet s => (S.storeSignet D fs w s).2
      | .envelope e => (S.storeEnvelope D fs w e).2) [text] := by
  unfold importDir importCommand
  match h : cmdImport P D text with
  | .error e => simp only [h, error_bind]
  | .ok (.signet s) => simp only [h, ok_bind]
  | .ok (.envelope e) => simp only [h, ok_bind]

/-- Decoders of the serialization library only fill the exported fields of a signet (specification; the loaded keys are not exported,
signet.go:24-47). -/
def Dsd.Plain (D : Dsd) : Prop := ∀ b s, D.loadSignet b = .ok s → s.loadedPub = none ∧ s.loadedPriv = none

/-- A trust store knows the public key of somebody's ID (specification). -/
def PublicStored (P : Prims) (get : Bytes → Bool → Res Signet) (id scheme pub : Bytes) : Prop :=
  ∃ n o, get id true = .ok n ∧ n.id = id ∧ n.isPublic = true ∧ n.protection = false ∧ n.scheme = scheme ∧ n.load P = .ok o ∧ o.loadedPub = some pub

/-- A trust store holds the private key of an ID (specification). -/
def PrivateStored (P : Prims) (get : Bytes → Bool → Res Signet) (id scheme pub priv : Bytes) : Prop :=
  ∃ n o, get id false = .ok n ∧ n.id = id ∧ n.isPublic = false ∧ n.protection = false ∧ n.scheme = scheme ∧ n.load P = .ok o ∧
    o.loadedPub = some pub ∧ o.loadedPriv = some priv

theorem PairStored.pub {P : Prims} {get : Bytes → Bool → Res Signet} {id scheme nm pub priv : Bytes} (h : PairStored P get id scheme nm pub priv) :
    PublicStored P get id scheme pub := by
  obtain ⟨n, o, h1, h2, h3, h4, h5, _, _, h8, h9, _⟩ := h.recipient
  exact ⟨n, o, h1, h2, h3, h4, h5, h8, h9⟩

theorem PairStored.priv {P : Prims} {get : Bytes → Bool → Res Signet} {id scheme nm pub priv : Bytes} (h : PairStored P get id scheme nm pub priv) :
    PrivateStored P get id scheme pub priv := by
  obtain ⟨n, o, h1, h2, h3, h4, h5, _, h7, h8, h9⟩ := h.signet
  exact ⟨n, o, h1, h2, h3, h4, h5, h7, h8, h9⟩

theorem dir_plain {D : Dsd} (hL : D.Plain) {S : DirStore} {fs : FS} {id : Bytes} {r : Bool} {n : Signet} (h : S.getSignet D fs id r = .ok n) :
    n.loadedPub = none ∧ n.loadedPriv = none := by
  unfold DirStore.getSignet at h
  split at h
  · cases h
  · unfold loadSignetFromFile at h
    split at h
    · cases h
    · exact hL _ _ h

/-- What is imported is what was exported. -/
theorem export_import_same (P : Prims) (D : Dsd) (hD : D.Sound) (hL : D.Plain) (SB : DirStore) (fsB : FS) (id scheme nm pub priv : Bytes)
    (hB : PairStored P (SB.getSignet D fsB) id scheme nm pub priv) (envs : Bytes → Res Envelope) (text : Bytes)
    (hx : cmdExport P D { getSignet := SB.getSignet D fsB, getEnvelope := envs } id = .ok text)
    (SA : DirStore) (hSA : SA.storageDir ≠ []) (fs fs' : FS) (m : AbsStore) (hm : DirRefines D SA fs m) (w : WriteEnd) (hw : w = .done ∨ w = .refused)
    (hi : importDir P D SA fs w text = (fs', .ok ())) :
    PublicStored P (SA.getSignet D fs') id scheme pub ∧ SA.getSignet D fs' id true = SB.getSignet D fsB id true ∧ (∃ n, DirRefines D SA fs' (m.setSignet id true (some n))) ∧
      ∀ id' r, ¬ (id' = id ∧ r = true) → ∀ n, SA.getSignet D fs' id' r = .ok n ↔ SA.getSignet D fs id' r = .ok n := by
  obtain ⟨n, o, h1, h2, h3, h4, h5, h6, h7, h8, h9, h10⟩ := hB.recipient
  obtain ⟨p1, p2⟩ := dir_plain hL h1
  simp only [cmdExport, h1, Signet.export, h3, if_true] at hx
  obtain ⟨s1, kind, c, a1, a2, a3, _⟩ := text_parses P D hD false n text hx
  have hs1 : s1 = n := by
    unfold Signet.store at a1
    split at a1
    · cases a1; rfl
    · split at a1
      · cases a1
      · split at a1
        · rw [p1] at a1; cases a1
        · cases a1
  subst hs1
  have hst : s1.stored = s1 := by
    have : ∀ s : Signet, s.loadedPub = none → s.loadedPriv = none → s.stored = s := by
      intro s q1 q2
      cases s
      simp only at q1 q2
      subst q1 q2
      rfl
    exact this s1 p1 p2
  rw [hst, h8] at a3
  have nk : kind ≠ .envelope := by
    unfold textHead at a2
    (repeat' split at a2) <;> cases a2 <;> decide
  have himp := (import_of_parsed P D text).1 kind o a3 nk
  unfold importDir at hi
  rw [himp] at hi
  simp only at hi
  have hload : o = { s1 with loadedPub := some pub, loadedPriv := none } := by
    have h8' := h8
    unfold Signet.load at h8'
    rw [p1] at h8'
    simp only [Option.isSome_none, Bool.false_eq_true, if_false, h4] at h8'
    split at h8'
    · cases h8'
    · split at h8'
      · split at h8'
        · cases h8'
        · cases h8'
          simp only [Option.some.injEq] at h9
          simp only at h10
          subst h9
          cases h10
          rw [h4]
      · cases h8'
  have hos : o.stored = s1 := by rw [hload]; exact hst
  have hid : o.id = id := by rw [hload]; exact h2
  have hpubl : o.isPublic = true := by rw [hload]; exact h3
  obtain ⟨hr, hperm, _⟩ := (dir_put hD hSA hm hw hi).1 () rfl
  rw [hos, hid, hpubl] at hr
  rw [hid] at hperm
  have hget := dir_get hD hSA hr hperm (id := id) (r := true) (s := s1) (by simp [AbsStore.setSignet])
  refine ⟨⟨s1, o, hget, h2, h3, h4, h5, h8, h9⟩, hget.trans h1.symm, ⟨s1, hr⟩, ?_⟩
  intro id' r hne k
  rw [dir_get_iff hD hSA hr, dir_get_iff hD hSA hm]
  simp only [AbsStore.setSignet]
  rw [if_neg]
  intro h
  exact hne h

/-- C88, first step. Somebody exports the ID of a key pair in his directory trust store, somebody else imports the text into hers, successfully: then her
store knows the public key under this ID, and everything else in it is as before, in particular all private signets. -/
theorem export_import_stores (P : Prims) (D : Dsd) (hD : D.Sound) (hL : D.Plain) (SB : DirStore) (fsB : FS) (id scheme nm pub priv : Bytes)
    (hB : PairStored P (SB.getSignet D fsB) id scheme nm pub priv) (envs : Bytes → Res Envelope) (text : Bytes)
    (hx : cmdExport P D { getSignet := SB.getSignet D fsB, getEnvelope := envs } id = .ok text)
    (SA : DirStore) (hSA : SA.storageDir ≠ []) (fs fs' : FS) (m : AbsStore) (hm : DirRefines D SA fs m) (w : WriteEnd) (hw : w = .done ∨ w = .refused)
    (hi : importDir P D SA fs w text = (fs', .ok ())) :
    PublicStored P (SA.getSignet D fs') id scheme pub ∧ (∃ n, DirRefines D SA fs' (m.setSignet id true (some n))) ∧
      ∀ id' r, ¬ (id' = id ∧ r = true) → ∀ n, SA.getSignet D fs' id' r = .ok n ↔ SA.getSignet D fs id' r = .ok n := by
  obtain ⟨h1, _, h2⟩ := export_import_same P D hD hL SB fsB id scheme nm pub priv hB envs text hx SA hSA fs fs' m hm w hw hi
  exact ⟨h1, h2⟩

/-- The session of an envelope that refers to key pairs, one half of which each of two stores has: the second store has the counterparts of its signets. -/
theorem stored_counterparts (P : Prims) (pair : Bytes → Bytes → Bytes → Prop) (cfg : Config) (wc wo : World)
    (getC getO : Bytes → Bool → Res Signet) (hwc : wc.store = some getC) (hwo : wo.store = some getO) (e : Envelope)
    (hes : e.suite = none) (heo : e.opening = false) (hsec : e.secrets = [])
    (hsend : ∀ k ∈ e.senders, k.key = [] ∧ ∃ scheme pub priv, (k.scheme = [] ∨ k.scheme = scheme) ∧ (∃ t, getTool scheme = some t) ∧ pair scheme pub priv ∧
      PrivateStored P getC k.id scheme pub priv ∧ PublicStored P getO k.id scheme pub)
    (hrcpt : ∀ k ∈ e.recipients, k.key = [] ∧ ∃ scheme pub priv, (k.scheme = [] ∨ k.scheme = scheme) ∧ (∃ t, getTool scheme = some t) ∧ pair scheme pub priv ∧
      PublicStored P getC k.id scheme pub ∧ PrivateStored P getO k.id scheme pub priv)
    (s : Session) (hs : correspondence P cfg wc suiteRegistry e = .ok s) :
    ((∀ k ∈ s.env.secrets, k.id ≠ []) ∧ (∀ k ∈ s.env.senders, k.id ≠ []) ∧ (∀ k ∈ s.env.recipients, k.id ≠ [])) ∧
      ((∀ k ∈ s.env.secrets, k.scheme ≠ schemeKey) ∨ (∀ k ∈ s.env.secrets, k.scheme ≠ schemePassword)) ∧ Counterparts P pair wo s := by
  have n1 : ([] : Bytes) ≠ schemePassword := by decide
  have n2 : ([] : Bytes) ≠ schemeKey := by decide
  have ns : ∀ {k : Signet} {scheme : Bytes}, (k.scheme = [] ∨ k.scheme = scheme) → (∃ t, getTool scheme = some t) →
      k.scheme ≠ schemeKey ∧ k.scheme ≠ schemePassword := by
    intro k scheme h ⟨t, ht⟩
    have := tool_not_secret ht
    rcases h with h | h
    · rw [h]; exact ⟨n2, n1⟩
    · rw [h]; exact ⟨this.1, this.2⟩
  simp only [correspondence, loadSuite, hes, bind_ok_iff] at hs
  obtain ⟨⟨e1, su⟩, h1, h2⟩ := hs
  split at h1
  · cases h1
  · rename_i su' hsu
    cases h1
    obtain ⟨e2, hp, hn⟩ := h2
    simp only [prepareSignets, bind_ok_iff] at hp
    obtain ⟨a, ha, b, hb, c, hcc, hx⟩ := hp
    cases hx
    obtain ⟨g1, g2⟩ := newSession_env hn
    simp only [heo, Bool.not_false] at ha hb hcc
    have noStub : NoKeyStub e.recipients := by
      intro k hk _
      obtain ⟨_, _, _, _, h, h', _⟩ := hrcpt k hk
      exact (ns h h').1
    rw [prepSignets_all2 _ _ _ _ _ _ (.inl rfl)] at ha hb
    rw [prepSignets_all2 _ _ _ _ _ _ (.inr noStub)] at hcc
    have sec : s.env.secrets = [] := by
      rw [g1]; simp only [hsec] at ha; cases ha; rfl
    have snd : ∀ o ∈ s.env.senders, o.id ≠ [] ∧ ∃ pub priv, o.loadedPub = some pub ∧ o.loadedPriv = some priv ∧ pair o.scheme pub priv ∧
        PublicKeyOf P wo o.id o.scheme pub := by
      intro o ho
      rw [g1] at ho
      obtain ⟨k, hk, hko⟩ := hb.mem_right ho
      obtain ⟨k1, sch, pub, priv, k2, ⟨t, q2⟩, q1, ⟨n, x, s1, s2, s3, s4, s5, s7, s8, s9⟩, ⟨n2', x2, r1, r2, r3, r4, r5, r8, r9⟩⟩ := hsend k hk
      obtain ⟨get', n', f1, f2, f3, f4, f5⟩ := prepOne_fetch k1 (ns k2 ⟨t, q2⟩).2 hko
      rw [hwc] at f1; cases f1
      rw [if_neg (ns k2 ⟨t, q2⟩).1, s1] at f2; cases f2
      obtain ⟨_, p2, p3, p4, p5⟩ := finishPrep_spec f5
      have hns := tool_not_secret q2
      rcases p5 with ⟨p5, _⟩ | ⟨_, _, p5⟩
      · rw [s5] at p5; exact absurd p5 (by simp [hns])
      · rw [s7] at p5; cases p5
        have hid : o.id = k.id := by rw [p3, s2]
        refine ⟨by rw [hid]; exact f3, pub, priv, s8, s9, by rw [p2, s5]; exact q1, getO, n2', x2, hwo, by rw [hid]; exact r1, r4, ?_, r8, r9⟩
        rw [p2, s5, r5]
    have rcp : ∀ o ∈ s.env.recipients, o.id ≠ [] ∧ ∃ n x pub priv, getO o.id false = .ok n ∧ n.protection = false ∧
        n.scheme = o.scheme ∧ n.load P = .ok x ∧ o.loadedPub = some pub ∧ x.loadedPub = some pub ∧ x.loadedPriv = some priv ∧
        pair o.scheme pub priv := by
      intro o ho
      rw [g1] at ho
      obtain ⟨k, hk, hko⟩ := hcc.mem_right ho
      obtain ⟨k1, sch, pub, priv, k2, ⟨t, q2⟩, q1, ⟨n2', x2, r1, r2, r3, r4, r5, r8, r9⟩, ⟨n, x, s1, s2, s3, s4, s5, s7, s8, s9⟩⟩ := hrcpt k hk
      obtain ⟨get', n', f1, f2, f3, f4, f5⟩ := prepOne_fetch k1 (ns k2 ⟨t, q2⟩).2 hko
      rw [hwc] at f1; cases f1
      rw [if_neg (ns k2 ⟨t, q2⟩).1, r1] at f2; cases f2
      obtain ⟨_, p2, p3, p4, p5⟩ := finishPrep_spec f5
      have hns := tool_not_secret q2
      rcases p5 with ⟨p5, _⟩ | ⟨_, _, p5⟩
      · rw [r5] at p5; exact absurd p5 (by simp [hns])
      · rw [r8] at p5; cases p5
        have hid : o.id = k.id := by rw [p3, r2]
        refine ⟨by rw [hid]; exact f3, n, x, pub, priv, by rw [hid]; exact s1, s4, by rw [p2, r5, s5], s7, r9, s8, s9, ?_⟩
        rw [p2, r5]; exact q1
    refine ⟨⟨fun k hk => (by rw [sec] at hk; cases hk), fun k hk => (snd k hk).1, fun k hk => (rcp k hk).1⟩, .inl fun k hk => (by rw [sec] at hk; cases hk),
      ⟨fun k hk => (by rw [sec] at hk; cases hk), fun k hk => (by rw [sec] at hk; cases hk), fun k hk => (snd k hk).2, ?_⟩⟩
    intro k hk
    obtain ⟨_, n, x, pub, priv, y⟩ := rcp k hk
    exact ⟨getO, n, x, pub, priv, hwo, y⟩

/-- C88, second step. Whoever closes a letter with the private keys of the senders and the public keys of the recipients in his trust store, and whoever
opens it with the public keys of the senders and the private keys of the recipients in hers: she gets the data. -/
theorem two_stores_work (P : Prims) (pair : Bytes → Bytes → Bytes → Prop) (hP : P.Correct pair) (cfg : Config) (wc wo : World)
    (getC getO : Bytes → Bool → Res Signet) (hwc : wc.store = some getC) (hwo : wo.store = some getO) (rng : Rng) (e : Envelope)
    (hes : e.suite = none) (hev : e.version = 1) (hlev : demandedLevel cfg 0 ≤ demandedLevel cfg e.securityLevel) (heo : e.opening = false)
    (hsec : e.secrets = [])
    (hsend : ∀ k ∈ e.senders, k.key = [] ∧ ∃ scheme pub priv, (k.scheme = [] ∨ k.scheme = scheme) ∧ (∃ t, getTool scheme = some t) ∧ pair scheme pub priv ∧
      PrivateStored P getC k.id scheme pub priv ∧ PublicStored P getO k.id scheme pub)
    (hrcpt : ∀ k ∈ e.recipients, k.key = [] ∧ ∃ scheme pub priv, (k.scheme = [] ∨ k.scheme = scheme) ∧ (∃ t, getTool scheme = some t) ∧ pair scheme pub priv ∧
      PublicStored P getC k.id scheme pub ∧ PrivateStored P getO k.id scheme pub priv)
    (s : Session) (hs : correspondence P cfg wc suiteRegistry e = .ok s) (reqs : Option Requirements)
    (hreq : ∀ a ∈ reqs.getD Requirements.full, a ∈ s.suite.provides) (data : Bytes) (l : Letter) (hc : (s.close P cfg rng s.initState data).2 = .ok l) :
    l.open P cfg wo suiteRegistry reqs = .ok data := by
  obtain ⟨h1, h2, h3⟩ := stored_counterparts P pair cfg wc wo getC getO hwc hwo e hes heo hsec hsend hrcpt s hs
  exact close_open_roundtrip_partial P pair hP cfg wc wo rng e hes hev s hs hlev h1 h2 h3 reqs hreq data l hc

/-- After the exchange each store has the own key pair and the public key of the other. -/
theorem exchange_stores (P : Prims) (D : Dsd) (hD : D.Sound) (hL : D.Plain)
    (SA SB : DirStore) (hSA : SA.storageDir ≠ []) (hSB : SB.storageDir ≠ []) (fsA fsB : FS) (mA mB : AbsStore) (hmA : DirRefines D SA fsA mA)
    (hmB : DirRefines D SB fsB mB) (idA schemeA nmA pubA privA idB schemeB nmB pubB privB : Bytes)
    (hA : PairStored P (SA.getSignet D fsA) idA schemeA nmA pubA privA) (hB : PairStored P (SB.getSignet D fsB) idB schemeB nmB pubB privB)
    (envsA envsB : Bytes → Res Envelope) (textA textB : Bytes)
    (hxA : cmdExport P D { getSignet := SA.getSignet D fsA, getEnvelope := envsA } idA = .ok textA)
    (hxB : cmdExport P D { getSignet := SB.getSignet D fsB, getEnvelope := envsB } idB = .ok textB)
    (w1 w2 : WriteEnd) (hw1 : w1 = .done ∨ w1 = .refused) (hw2 : w2 = .done ∨ w2 = .refused) (fsA' fsB' : FS)
    (hiA : importDir P D SA fsA w1 textB = (fsA', .ok ())) (hiB : importDir P D SB fsB w2 textA = (fsB', .ok ())) :
    (PrivateStored P (SA.getSignet D fsA') idA schemeA pubA privA ∧ PublicStored P (SA.getSignet D fsA') idB schemeB pubB) ∧
      PrivateStored P (SB.getSignet D fsB') idB schemeB pubB privB ∧ PublicStored P (SB.getSignet D fsB') idA schemeA pubA := by
  obtain ⟨a1, _, a3⟩ := export_import_stores P D hD hL SB fsB idB schemeB nmB pubB privB hB envsB textB hxB SA hSA fsA fsA' mA hmA w1 hw1 hiA
  obtain ⟨b1, _, b3⟩ := export_import_stores P D hD hL SA fsA idA schemeA nmA pubA privA hA envsA textA hxA SB hSB fsB fsB' mB hmB w2 hw2 hiB
  have qA : PrivateStored P (SA.getSignet D fsA') idA schemeA pubA privA := by
    obtain ⟨n, o, h1, h2⟩ := hA.priv
    exact ⟨n, o, (a3 idA false (by simp) n).2 h1, h2⟩
  have qB : PrivateStored P (SB.getSignet D fsB') idB schemeB pubB privB := by
    obtain ⟨n, o, h1, h2⟩ := hB.priv
    exact ⟨n, o, (b3 idB false (by simp) n).2 h1, h2⟩
  exact ⟨⟨qA, a1⟩, qB, b1⟩

/-- C88. Alice and Bob each have a key pair in their own directory trust store. Each exports the own ID and imports the text of the other, successfully.
Then a letter that Alice closes, as sender or not, for Bob, opens in Bob's store and gives him her data. (Under the condition of C10 that the level of
the envelope is not below the one for opening.) -/
theorem exchange_works (P : Prims) (pair : Bytes → Bytes → Bytes → Prop) (hP : P.Correct pair) (D : Dsd) (hD : D.Sound) (hL : D.Plain) (cfg : Config)
    (SA SB : DirStore) (hSA : SA.storageDir ≠ []) (hSB : SB.storageDir ≠ []) (fsA fsB : FS) (mA mB : AbsStore) (hmA : DirRefines D SA fsA mA)
    (hmB : DirRefines D SB fsB mB) (idA schemeA nmA pubA privA idB schemeB nmB pubB privB : Bytes)
    (hA : PairStored P (SA.getSignet D fsA) idA schemeA nmA pubA privA) (hB : PairStored P (SB.getSignet D fsB) idB schemeB nmB pubB privB)
    (hpA : pair schemeA pubA privA) (hpB : pair schemeB pubB privB) (htA : ∃ t, getTool schemeA = some t) (htB : ∃ t, getTool schemeB = some t)
    (envsA envsB : Bytes → Res Envelope) (textA textB : Bytes)
    (hxA : cmdExport P D { getSignet := SA.getSignet D fsA, getEnvelope := envsA } idA = .ok textA)
    (hxB : cmdExport P D { getSignet := SB.getSignet D fsB, getEnvelope := envsB } idB = .ok textB)
    (w1 w2 : WriteEnd) (hw1 : w1 = .done ∨ w1 = .refused) (hw2 : w2 = .done ∨ w2 = .refused) (fsA' fsB' : FS)
    (hiA : importDir P D SA fsA w1 textB = (fsA', .ok ())) (hiB : importDir P D SB fsB w2 textA = (fsB', .ok ()))
    (wc wo : World) (hwc : wc.store = some (SA.getSignet D fsA')) (hwo : wo.store = some (SB.getSignet D fsB')) (rng : Rng) (e : Envelope)
    (hes : e.suite = none) (hev : e.version = 1) (hlev : demandedLevel cfg 0 ≤ demandedLevel cfg e.securityLevel) (heo : e.opening = false)
    (hsec : e.secrets = []) 
    (hsend : ∀ k ∈ e.senders, k.id = idA ∧ k.key = [] ∧ (k.scheme = [] ∨ k.scheme = schemeA))
    (hrcpt : ∀ k ∈ e.recipients, k.id = idB ∧ k.key = [] ∧ (k.scheme = [] ∨ k.scheme = schemeB))
    (s : Session) (hs : correspondence P cfg wc suiteRegistry e = .ok s) (reqs : Option Requirements)
    (hreq : ∀ a ∈ reqs.getD Requirements.full, a ∈ s.suite.provides) (data : Bytes) (l : Letter) (hc : (s.close P cfg rng s.initState data).2 = .ok l) :
    l.open P cfg wo suiteRegistry reqs = .ok data := by
  obtain ⟨⟨qA, a1⟩, qB, b1⟩ := exchange_stores P D hD hL SA SB hSA hSB fsA fsB mA mB hmA hmB idA schemeA nmA pubA privA idB schemeB nmB pubB privB hA hB
    envsA envsB textA textB hxA hxB w1 w2 hw1 hw2 fsA' fsB' hiA hiB
  refine two_stores_work P pair hP cfg wc wo _ _ hwc hwo rng e hes hev hlev heo hsec ?_ ?_ s hs reqs hreq data l hc
  · intro k hk
    obtain ⟨k1, k2, k3⟩ := hsend k hk
    rw [k1]
    exact ⟨k2, schemeA, pubA, privA, k3, htA, hpA, qA, b1⟩
  · intro k hk
    obtain ⟨k1, k2, k3⟩ := hrcpt k hk
    rw [k1]
    exact ⟨k2, schemeB, pubB, privB, k3, htB, hpB, a1, qB⟩

theorem toyDsd_plain : toyDsd.Plain := by
  intro b s h
  simp only [toyDsd, bind_ok_iff] at h
  obtain ⟨_, _, _, _, _, _, _, _, _, _, h⟩ := h
  cases h
  exact ⟨rfl, rfl⟩

/-- The envelopes of the stores of the example: none. -/
def noEnvelopes : Bytes → Res Envelope := fun _ => .error .notFound

/-- Alice and Bob generate their keys, export, import, Alice closes a letter for Bob: the steps of `exchange_works` succeed. -/
def exchangeRun : Bool :=
  match newSignet (toyGenEnv 7 toyDone) toyFS b!"Alice" [] true, newSignet (toyGenEnv 9 toyDone) toyFS b!"Bob" [] true with
  | (fsA, .ok a), (fsB, .ok b) =>
    decide (a.scheme = b!"ECDH-X25519") && decide (b.scheme = b!"ECDH-X25519") &&
    match cmdExport toyGenPrims toyDsd { getSignet := toyDirStore.getSignet toyDsd fsA, getEnvelope := noEnvelopes } a.id,
      cmdExport toyGenPrims toyDsd { getSignet := toyDirStore.getSignet toyDsd fsB, getEnvelope := noEnvelopes } b.id with
    | .ok ta, .ok tb =>
      match importDir toyGenPrims toyDsd toyDirStore fsA .done tb, importDir toyGenPrims toyDsd toyDirStore fsB .done ta with
      | (fsA', .ok ()), (_, .ok ()) =>
        match correspondence toyGenPrims toyConfig (toyGenWorld fsA') suiteRegistry { suiteID := b!"rcpt_v2", recipients := [{ id := b.id }] } with
        | .ok se => decide (∀ x ∈ (some toyUnsigned).getD Requirements.full, x ∈ se.suite.provides) &&
          (se.close toyGenPrims toyConfig toyLongRng se.initState b!"hello").2.isOk
        | _ => false
      | _, _ => false
    | _, _ => false
  | _, _ => false

theorem toyGen_pair (x : UInt8) (name : Bytes) (fs : FS) (s : Signet) (h0 : s.scheme = b!"ECDH-X25519")
    (hs : newSignet (toyGenEnv x toyDone) toyFS name [] true = (fs, .ok s)) :
    ∃ nm, PairStored toyGenPrims (toyDirStore.getSignet toyDsd fs) s.id b!"ECDH-X25519" nm (List.replicate 32 x) (List.replicate 32 x) ∧
      ∃ m, DirRefines toyDsd toyDirStore fs m := by
  obtain ⟨u, nm, pub, priv, a, b, _, _, _, e4, e5, e6⟩ := generate_stores_pair toyLib (fun pub priv => pub = priv) toyLib_sound toyDsd
    toyDsd_sound toyDirStore (by decide) (toyGenEnv x toyDone) toyDone rfl (fun _ => .inl rfl) toyGen_uses toyGen_pairs toyFS fs .empty
    toyDir_empty name [] s (by rw [h0]; decide +kernel) hs
  rw [h0] at e4 e6
  have e7 : (toyGenEnv x toyDone).P.genKey b!"ECDH-X25519" (toyGenEnv x toyDone).seed = .ok (List.replicate 32 x, List.replicate 32 x) := by
    show toyGenPrims.genKey _ _ = _
    simp [toyGenPrims, toyGenEnv]
  rw [e7] at e4
  cases e4
  exact ⟨nm, e6, _, e5⟩

/-- All hypotheses of `exchange_works` are met: Alice and Bob generate their keys, export them, import the other's, and Bob opens the letter that Alice
closed for him. -/
theorem exchange_example : ∃ fsA fsB a b ta tb fsA' fsB' se l,
    newSignet (toyGenEnv 7 toyDone) toyFS b!"Alice" [] true = (fsA, .ok a) ∧ newSignet (toyGenEnv 9 toyDone) toyFS b!"Bob" [] true = (fsB, .ok b) ∧
    cmdExport toyGenPrims toyDsd { getSignet := toyDirStore.getSignet toyDsd fsA, getEnvelope := noEnvelopes } a.id = .ok ta ∧
    cmdExport toyGenPrims toyDsd { getSignet := toyDirStore.getSignet toyDsd fsB, getEnvelope := noEnvelopes } b.id = .ok tb ∧
    importDir toyGenPrims toyDsd toyDirStore fsA .done tb = (fsA', .ok ()) ∧ importDir toyGenPrims toyDsd toyDirStore fsB .done ta = (fsB', .ok ()) ∧
    correspondence toyGenPrims toyConfig (toyGenWorld fsA') suiteRegistry { suiteID := b!"rcpt_v2", recipients := [{ id := b.id }] } = .ok se ∧
    (se.close toyGenPrims toyConfig toyLongRng se.initState b!"hello").2 = .ok l ∧
    l.open toyGenPrims toyConfig (toyGenWorld fsB') suiteRegistry (some toyUnsigned) = .ok b!"hello" := by
  have h : exchangeRun = true := by decide +kernel
  unfold exchangeRun at h
  split at h
  · rename_i fsA a fsB b hgA hgB
    simp only [Bool.and_eq_true, decide_eq_true_eq] at h
    obtain ⟨⟨sA, sB⟩, h⟩ := h
    split at h
    · rename_i ta tb hxA hxB
      split at h
      · rename_i fsA' fsB' hiA hiB
        split at h
        · rename_i se hse
          simp only [Bool.and_eq_true, decide_eq_true_eq] at h
          obtain ⟨h1, h⟩ := h
          match hl : (se.close toyGenPrims toyConfig toyLongRng se.initState b!"hello").2 with
          | .error _ => rw [hl] at h; cases h
          | .ok l =>
            obtain ⟨nmA, pA, mA, rA⟩ := toyGen_pair 7 _ fsA a sA hgA
            obtain ⟨nmB, pB, mB, rB⟩ := toyGen_pair 9 _ fsB b sB hgB
            refine ⟨fsA, fsB, a, b, ta, tb, fsA', fsB', se, l, hgA, hgB, hxA, hxB, hiA, hiB, hse, hl, ?_⟩
            exact exchange_works toyGenPrims _ toyGen_correct toyDsd toyDsd_sound toyDsd_plain toyConfig toyDirStore toyDirStore (by decide) (by decide)
              fsA fsB mA mB rA rB _ _ nmA _ _ _ _ nmB _ _ pA pB ⟨rfl, rfl, rfl⟩ ⟨rfl, rfl, rfl⟩ ⟨_, rfl⟩ ⟨_, rfl⟩ noEnvelopes noEnvelopes ta tb hxA hxB
              .done .done (.inl rfl) (.inl rfl) fsA' fsB' hiA hiB (toyGenWorld fsA') (toyGenWorld fsB') rfl rfl toyLongRng _ rfl rfl (Int.le_refl _) rfl rfl
              (by intro k hk; cases hk) (by intro k hk; rw [List.mem_singleton.mp hk]; exact ⟨rfl, rfl, Or.inl rfl⟩) se hse _ h1 _ l hl
        · cases h
      · cases h
    · cases h
  · cases h

end Jess
