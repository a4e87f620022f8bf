import Verif.Props.DeliverSig

/-!
# C120 after an exchange of keys
-/

namespace Jess

open Requirements

/-- C120 after C88. Alice and Bob have a key pair each, one for signing, one for receiving; each imported what the other exported. Then Alice can write letters to Bob, signed or not,
and Bob reads them; nothing fails. -/
theorem exchange_delivers (P : Prims) (W : P.Work) (pair : Bytes → Bytes → Bytes → Prop) (hP : P.Correct pair)
    (hsig : ∀ pub priv, pair b!"Ed25519" pub priv → ∀ hash digest seed, ∃ sig, P.sign b!"Ed25519" hash priv digest seed = .ok sig)
    (D : Dsd) (hD : D.Sound) (hL : D.Plain) (cfg : Config)
    (SA SB : DirStore) (hSA : SA.storageDir ≠ []) (hSB : SB.storageDir ≠ []) (fsA fsB : FS) (mA mB : AbsStore) (hmA : DirRefines D SA fsA mA)
    (hmB : DirRefines D SB fsB mB) (idA nmA pubA privA idB nmB pubB privB : Bytes)
    (hA : PairStored P (SA.getSignet D fsA) idA b!"Ed25519" nmA pubA privA) (hB : PairStored P (SB.getSignet D fsB) idB b!"ECDH-X25519" nmB pubB privB)
    (hpA : pair b!"Ed25519" pubA privA) (hpB : pair b!"ECDH-X25519" pubB privB)
    (envsA envsB : Bytes → Res Envelope) (textA textB : Bytes)
    (hxA : cmdExport P D { getSignet := SA.getSignet D fsA, getEnvelope := envsA } idA = .ok textA)
    (hxB : cmdExport P D { getSignet := SB.getSignet D fsB, getEnvelope := envsB } idB = .ok textB)
    (fsA' fsB' : FS) (hiA : importDir P D SA fsA .done textB = (fsA', .ok ())) (hiB : importDir P D SB fsB .done textA = (fsB', .ok ()))
    (wc wo : World) (hwc : wc.store = some (SA.getSignet D fsA')) (hwo : wo.store = some (SB.getSignet D fsB')) (rng : Rng) (hr : rng.Delivers)
    -- an envelope from Alice (or nobody) to Bob
    (e : Envelope) (hes : e.suite = none) (hev : e.version = 1) (heo : e.opening = false) (hsec : e.secrets = [])
    (hsend : ∀ k ∈ e.senders, k.id = idA ∧ k.key = [] ∧ (k.scheme = [] ∨ k.scheme = b!"Ed25519"))
    (hrcpt : ∀ k ∈ e.recipients, k.id = idB ∧ k.key = [] ∧ (k.scheme = [] ∨ k.scheme = b!"ECDH-X25519"))
    (hidA : idA ≠ []) (hidB : idB ≠ []) (hS : SuiteFor e)
    (hl1 : demandedLevel cfg e.securityLevel ≤ 128) (hl2 : 0 < e.securityLevel → demandedLevel cfg e.securityLevel ≤ e.securityLevel)
    (hl3 : demandedLevel cfg 0 ≤ demandedLevel cfg e.securityLevel)
    (reqs : Option Requirements) (hreq : ∀ su ∈ suiteRegistry, su.id = e.suiteID → ∀ a ∈ reqs.getD full, a ∈ su.provides)
    (data : Bytes) (hd : data.length ≤ 2 ^ 38 - 64) :
    ∃ s l, correspondence P cfg wc suiteRegistry e = .ok s ∧ (s.close P cfg rng s.initState data).2 = .ok l ∧
      l.open P cfg wo suiteRegistry reqs = .ok data := by
  obtain ⟨⟨qA, a1⟩, qB, b1⟩ := exchange_stores P D hD hL SA SB hSA hSB fsA fsB mA mB hmA hmB idA b!"Ed25519" nmA pubA privA idB b!"ECDH-X25519" nmB pubB privB
    hA hB envsA envsB textA textB hxA hxB .done .done (.inl rfl) (.inl rfl) fsA' fsB' hiA hiB
  refine letters_are_delivered P W pair hP hsig cfg wc wo _ _ hwc hwo rng hr e hes hev heo ⟨hsec, ?_, ?_⟩ hS hl1 hl2 hl3 reqs hreq data hd
  · intro k hk
    obtain ⟨rfl, k2, k3⟩ := hsend k hk
    exact ⟨hidA, k2, k3, pubA, privA, hpA, qA, b1⟩
  · intro k hk
    obtain ⟨rfl, k2, k3⟩ := hrcpt k hk
    exact ⟨hidB, k2, k3, pubB, privB, hpB, a1, qB⟩

/-! ## The exchange succeeds -/

/-- What the serializer reads, it can write: in the format for texts and in the one for files (specification). -/
def Dsd.Rewrites (D : Dsd) : Prop := ∀ b s, D.loadSignet b = .ok s → (∃ t, D.textSignet s = .ok t) ∧ ∃ d, D.dumpSignet s = .ok d

/-- A directory store takes every signet that has a permitted ID, if the file can be written. -/
theorem dir_store_succeeds {D : Dsd} (hD : D.Sound) {S : DirStore} (hS : S.storageDir ≠ []) {fs : FS} {m : AbsStore} (h : DirRefines D S fs m) {s : Signet}
    (hid : s.id ≠ []) (hp : PermittedName s.id) {d : Bytes} (hd : D.dumpSignet s.stored = .ok d) : ∃ fs', S.storeSignet D fs .done s = (fs', .ok ()) := by
  have h1 := (dirStep_refines D hD [] S hS fs m h (.storeSignet .done s) (.inl rfl)).1
  have hc : ¬ (s.id = [] ∨ ¬ PermittedName s.id) := by simp [hid, hp]
  simp only [dirStep, absStep, if_neg hc, hd, if_true] at h1
  match hx : S.storeSignet D fs .done s with
  | (fs', .ok ()) => exact ⟨fs', rfl⟩
  | (fs', .error e) => rw [hx] at h1; simp [DirOut.ofUnit] at h1

/-- C120, C88. A key pair in a directory trust store can be exported under its ID, and everybody with a directory trust store in which files can be written can import
the text. -/
theorem exchange_succeeds (P : Prims) (hK : ∀ scheme pub k, P.storeKey scheme pub none = .ok k → k ≠ []) (D : Dsd) (hD : D.Sound) (hL : D.Plain) (hW : D.Rewrites)
    (SB : DirStore) (hSB : SB.storageDir ≠ []) (fsB : FS) (mB : AbsStore) (hmB : DirRefines D SB fsB mB) (id scheme nm pub priv : Bytes) (hid : id ≠ [])
    (hsch : ∃ t, getTool scheme = some t) (hB : PairStored P (SB.getSignet D fsB) id scheme nm pub priv) (envs : Bytes → Res Envelope) :
    ∃ text, cmdExport P D { getSignet := SB.getSignet D fsB, getEnvelope := envs } id = .ok text ∧
      ∀ (SA : DirStore), SA.storageDir ≠ [] → ∀ (fs : FS) (m : AbsStore), DirRefines D SA fs m → ∃ fs', importDir P D SA fs .done text = (fs', .ok ()) := by
  obtain ⟨n, o, h1, h2, h3, h4, h5, h6, h7, h8, h9, h10⟩ := hB.recipient
  obtain ⟨p1, p2⟩ := dir_plain hL h1
  obtain ⟨b, hb⟩ : ∃ b, D.loadSignet b = .ok n := by
    have := h1
    unfold DirStore.getSignet loadSignetFromFile at this
    (repeat' split at this) <;> first | cases this | exact ⟨_, this⟩
  obtain ⟨⟨t, ht⟩, d, hd⟩ := hW b n hb
  have hst : n.stored = n := by
    cases n
    simp only at p1 p2
    subst p1 p2
    rfl
  have hkey : n.key.length ≠ 0 := by
    intro h
    exact hK _ _ _ h7 (List.length_eq_zero_iff.1 h)
  have hstore : n.store P = .ok n := by unfold Signet.store; rw [if_pos hkey]
  obtain ⟨tool, htool⟩ := hsch
  have hns := tool_not_secret htool
  have hhead : textHead n = .ok (.recipient, b!"public-" ++ textName n.scheme ++ b!"-key") := by
    unfold textHead
    rw [h5, if_neg hns.2, if_neg hns.1, h3]
    rfl
  have hx : cmdExport P D { getSignet := SB.getSignet D fsB, getEnvelope := envs } id =
      .ok (TextKind.recipient.keyword ++ [58] ++ (b!"public-" ++ textName n.scheme ++ b!"-key") ++ [58] ++ textName nm ++ [58] ++ b58Encode t) := by
    simp [cmdExport, h1, Signet.export, h3, Signet.toTextFormat, Signet.toBase58, Signet.toBytes, hstore, hst, ht, ok_bind, hhead, h6]
  refine ⟨_, hx, fun SA hSA fs m hm => ?_⟩
  have hx' := hx
  simp only [cmdExport, h1, Signet.export, h3, if_true] at hx'
  obtain ⟨s1, kind, c, a1, a2, a3, _⟩ := text_parses P D hD false n _ hx'
  rw [hstore] at a1
  cases a1
  rw [hhead] at a2
  cases a2
  rw [hst, h8] at a3
  have himp := (import_of_parsed P D _).1 .recipient o a3 (by decide)
  have hload : o = { n with loadedPub := some pub, loadedPriv := none } := by
    have h8' := h8
    unfold Signet.load at h8'
    rw [p1] at h8'
    simp only [Option.isSome_none, Bool.false_eq_true, if_false, h4] at h8'
    (repeat' split at h8') <;> cases h8'
    simp only [Option.some.injEq] at h9
    simp only at h10
    subst h9
    cases h10
    rw [h4]
  have hos : o.stored = n := by rw [hload]; exact hst
  have hoid : o.id = id := by rw [hload]; exact h2
  unfold importDir
  rw [himp]
  exact dir_store_succeeds hD hSA hm (by rw [hoid]; exact hid) (by rw [hoid]; exact ((dir_get_iff hD hSB hmB).1 h1).1) (d := d) (by rw [hos]; exact hd)

/-- C120, C88. Two people with a key pair each, who have never met: each exports the own ID, each imports the text of the other, one writes letters to the other, and they
are read. None of it fails. -/
theorem strangers_can_write (P : Prims) (W : P.Work) (pair : Bytes → Bytes → Bytes → Prop) (hP : P.Correct pair)
    (hsig : ∀ pub priv, pair b!"Ed25519" pub priv → ∀ hash digest seed, ∃ sig, P.sign b!"Ed25519" hash priv digest seed = .ok sig)
    (hK : ∀ scheme pub k, P.storeKey scheme pub none = .ok k → k ≠ []) (D : Dsd) (hD : D.Sound) (hL : D.Plain) (hW : D.Rewrites) (cfg : Config)
    (SA SB : DirStore) (hSA : SA.storageDir ≠ []) (hSB : SB.storageDir ≠ []) (fsA fsB : FS) (mA mB : AbsStore) (hmA : DirRefines D SA fsA mA)
    (hmB : DirRefines D SB fsB mB) (idA nmA pubA privA idB nmB pubB privB : Bytes) (hidA : idA ≠ []) (hidB : idB ≠ [])
    (hA : PairStored P (SA.getSignet D fsA) idA b!"Ed25519" nmA pubA privA) (hB : PairStored P (SB.getSignet D fsB) idB b!"ECDH-X25519" nmB pubB privB)
    (hpA : pair b!"Ed25519" pubA privA) (hpB : pair b!"ECDH-X25519" pubB privB) (envsA envsB : Bytes → Res Envelope) :
    ∃ textA textB fsA' fsB', cmdExport P D { getSignet := SA.getSignet D fsA, getEnvelope := envsA } idA = .ok textA ∧
      cmdExport P D { getSignet := SB.getSignet D fsB, getEnvelope := envsB } idB = .ok textB ∧
      importDir P D SA fsA .done textB = (fsA', .ok ()) ∧ importDir P D SB fsB .done textA = (fsB', .ok ()) ∧
      ∀ (wc wo : World), wc.store = some (SA.getSignet D fsA') → wo.store = some (SB.getSignet D fsB') → ∀ (rng : Rng), rng.Delivers →
        -- an envelope from Alice (or nobody) to Bob
        ∀ (e : Envelope), e.suite = none → e.version = 1 → e.opening = false → e.secrets = [] →
          (∀ k ∈ e.senders, k.id = idA ∧ k.key = [] ∧ (k.scheme = [] ∨ k.scheme = b!"Ed25519")) →
          (∀ k ∈ e.recipients, k.id = idB ∧ k.key = [] ∧ (k.scheme = [] ∨ k.scheme = b!"ECDH-X25519")) → SuiteFor e →
          demandedLevel cfg e.securityLevel ≤ 128 → (0 < e.securityLevel → demandedLevel cfg e.securityLevel ≤ e.securityLevel) →
          demandedLevel cfg 0 ≤ demandedLevel cfg e.securityLevel →
          ∀ (reqs : Option Requirements), (∀ su ∈ suiteRegistry, su.id = e.suiteID → ∀ a ∈ reqs.getD full, a ∈ su.provides) →
            ∀ data : Bytes, data.length ≤ 2 ^ 38 - 64 → ∃ s l, correspondence P cfg wc suiteRegistry e = .ok s ∧
              (s.close P cfg rng s.initState data).2 = .ok l ∧ l.open P cfg wo suiteRegistry reqs = .ok data := by
  obtain ⟨textA, hxA, kA⟩ := exchange_succeeds P hK D hD hL hW SA hSA fsA mA hmA idA b!"Ed25519" nmA pubA privA hidA ⟨_, rfl⟩ hA envsA
  obtain ⟨textB, hxB, kB⟩ := exchange_succeeds P hK D hD hL hW SB hSB fsB mB hmB idB b!"ECDH-X25519" nmB pubB privB hidB ⟨_, rfl⟩ hB envsB
  obtain ⟨fsA', hiA⟩ := kB SA hSA fsA mA hmA
  obtain ⟨fsB', hiB⟩ := kA SB hSB fsB mB hmB
  refine ⟨textA, textB, fsA', fsB', hxA, hxB, hiA, hiB, ?_⟩
  intro wc wo hwc hwo rng hr e hes hev heo hsec hsend hrcpt hS hl1 hl2 hl3 reqs hreq data hd
  exact exchange_delivers P W pair hP hsig D hD hL cfg SA SB hSA hSB fsA fsB mA mB hmA hmB idA nmA pubA privA idB nmB pubB privB hA hB hpA hpB envsA envsB textA textB
    hxA hxB fsA' fsB' hiA hiB wc wo hwc hwo rng hr e hes hev heo hsec hsend hrcpt hidA hidB hS hl1 hl2 hl3 reqs hreq data hd

/-- The serializer of the examples reads what it can write, the keys of the examples are not empty. -/
theorem toyDsd_rewrites : toyDsd.Rewrites ∧ ∀ scheme pub k, toyPrims.storeKey scheme pub none = .ok k → k ≠ [] := by
  refine ⟨?_, by intro _ _ _ h; cases h; simp⟩
  intro b s h
  unfold toyDsd at h
  simp only [bind_ok_iff] at h
  obtain ⟨⟨a, b1⟩, _, ⟨i, b2⟩, hi, ⟨c, b3⟩, hc, ⟨k, b4⟩, hk, ⟨n, b5⟩, hn, h⟩ := h
  cases h
  have hd : ∃ d, toyDsd.dumpSignet { version := 1, id := i, scheme := c, key := k, isPublic := a == 1, info := some { name := n } } = .ok d := by
    unfold toyDsd
    simp only
    rw [if_pos ⟨trivial, getBlock_lt hi, getBlock_lt hc, getBlock_lt hk, getBlock_lt hn⟩]
    exact ⟨_, rfl⟩
  exact ⟨hd, hd⟩

/-! ## The hypotheses are met -/

/-- A key of the example, as it is stored. -/
def pairKey (id scheme : Bytes) (x : UInt8) (isPublic : Bool) : Signet :=
  { version := 1, id := id, scheme := scheme, key := [1, x, x], isPublic := isPublic, info := some { name := id } }

/-- A directory with a key pair. -/
def pairDir (id scheme : Bytes) (x : UInt8) : FS :=
  (dirRun toyDirStore toyDsd suiteRegistry toyFS [.storeSignet .done (pairKey id scheme x false), .storeSignet .done (pairKey id scheme x true)]).1

def aliceDir : FS := pairDir b!"alice" b!"Ed25519" 42
def bobDir : FS := pairDir b!"bob" b!"ECDH-X25519" 9

/-- Alice and Bob, who have a key pair each, exchange their keys; a signed letter from Alice to Bob is written and read, whatever Alice says. -/
theorem exchange_delivers_example : ∃ ta tb fsA fsB,
    cmdExport toyPrims toyDsd { getSignet := toyDirStore.getSignet toyDsd aliceDir, getEnvelope := noEnvelopes } b!"alice" = .ok ta ∧
    cmdExport toyPrims toyDsd { getSignet := toyDirStore.getSignet toyDsd bobDir, getEnvelope := noEnvelopes } b!"bob" = .ok tb ∧
    importDir toyPrims toyDsd toyDirStore aliceDir .done tb = (fsA, .ok ()) ∧ importDir toyPrims toyDsd toyDirStore bobDir .done ta = (fsB, .ok ()) ∧
    ∀ data : Bytes, data.length ≤ 2 ^ 38 - 64 → ∃ s l,
      correspondence toyPrims toyConfig { store := some (toyDirStore.getSignet toyDsd fsA) } suiteRegistry (toyEnvelope b!"v1" [] [b!"alice"] [b!"bob"]) = .ok s ∧
      (s.close toyPrims toyConfig toyRng s.initState data).2 = .ok l ∧
      l.open toyPrims toyConfig { store := some (toyDirStore.getSignet toyDsd fsB) } suiteRegistry none = .ok data := by
  have hmA := (dirRun_refines toyDsd toyDsd_sound suiteRegistry toyDirStore (by decide)
    [.storeSignet .done (pairKey b!"alice" b!"Ed25519" 42 false), .storeSignet .done (pairKey b!"alice" b!"Ed25519" 42 true)]
    (by intro op h; simp at h; rcases h with rfl | rfl <;> exact .inl rfl) toyFS .empty toyDir_empty).2
  have hmB := (dirRun_refines toyDsd toyDsd_sound suiteRegistry toyDirStore (by decide)
    [.storeSignet .done (pairKey b!"bob" b!"ECDH-X25519" 9 false), .storeSignet .done (pairKey b!"bob" b!"ECDH-X25519" 9 true)]
    (by intro op h; simp at h; rcases h with rfl | rfl <;> exact .inl rfl) toyFS .empty toyDir_empty).2
  have hA : PairStored toyPrims (toyDirStore.getSignet toyDsd aliceDir) b!"alice" b!"Ed25519" b!"alice" [42, 42] [42, 42] :=
    ⟨⟨pairKey b!"alice" b!"Ed25519" 42 false, _, by decide +kernel, rfl, rfl, rfl, rfl, rfl, rfl, rfl, rfl⟩,
      ⟨pairKey b!"alice" b!"Ed25519" 42 true, _, by decide +kernel, rfl, rfl, rfl, rfl, rfl, rfl, rfl, rfl, rfl⟩⟩
  have hB : PairStored toyPrims (toyDirStore.getSignet toyDsd bobDir) b!"bob" b!"ECDH-X25519" b!"bob" [9, 9] [9, 9] :=
    ⟨⟨pairKey b!"bob" b!"ECDH-X25519" 9 false, _, by decide +kernel, rfl, rfl, rfl, rfl, rfl, rfl, rfl, rfl⟩,
      ⟨pairKey b!"bob" b!"ECDH-X25519" 9 true, _, by decide +kernel, rfl, rfl, rfl, rfl, rfl, rfl, rfl, rfl, rfl⟩⟩
  obtain ⟨ta, tb, fsA, fsB, hxA, hxB, hiA, hiB, h⟩ := strangers_can_write toyPrims toy_work (fun _ pub priv => pub = priv) toyPrims_correct
    (by intro _ _ _ _ _ _; exact ⟨_, rfl⟩) toyDsd_rewrites.2 toyDsd toyDsd_sound toyDsd_plain toyDsd_rewrites.1 toyConfig toyDirStore toyDirStore (by decide) (by decide)
    aliceDir bobDir _ _ hmA hmB b!"alice" b!"alice" _ _ b!"bob" b!"bob" _ _ (by decide) (by decide) hA hB rfl rfl noEnvelopes noEnvelopes
  refine ⟨ta, tb, fsA, fsB, hxA, hxB, hiA, hiB, fun data hd => ?_⟩
  exact h _ _ rfl rfl toyRng toy_delivers (toyEnvelope b!"v1" [] [b!"alice"] [b!"bob"]) rfl rfl rfl rfl
    (by
      intro k hk
      simp only [toyEnvelope, List.map_cons, List.map_nil, List.mem_singleton] at hk
      subst hk
      exact ⟨by decide, rfl, .inl (by decide)⟩)
    (by
      intro k hk
      simp only [toyEnvelope, List.map_cons, List.map_nil, List.mem_singleton] at hk
      subst hk
      exact ⟨by decide, rfl, .inl (by decide)⟩)
    ⟨by decide, by decide, by decide⟩ (by show demandedLevel toyConfig 0 ≤ 128; decide)
    (by show (0 : Int) < 0 → demandedLevel toyConfig 0 ≤ 0; decide) (Int.le_refl _) none
    (by show ∀ su ∈ suiteRegistry, su.id = b!"v1" → ∀ a ∈ full, a ∈ su.provides; decide +kernel) data hd

end Jess
