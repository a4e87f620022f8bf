import Verif.Props.Formats
import Verif.Props.DirStore

namespace Jess.Formats

/-! ## Trust stores with the real formats -/

/-- The operation stores a signet or an envelope of which the texts are UTF-8, or nothing (specification). -/
def DirText : DirOp → Prop
  | .storeSignet _ s => SignetText s ∧ SignetOpen s
  | .storeEnvelope _ e => EnvelopeText e ∧ EnvelopeOpen e
  | _ => True

theorem dump_go (s : Signet) (h : SignetText s) (ho : SignetOpen s) : goDsd.dumpSignet s.stored = realDsd.dumpSignet s.stored := by
  have h1 := signet_fits json_holds (s := s.stored) h (small := fun _ => True) (f := 7) (by unfold SignetSizes; simp)
  simp only [goDsd, realDsd, plain_open ho, if_true]
  exact (dumpJson_ok h1).symm

theorem dumpEnvelope_go (e : Envelope) (h : EnvelopeText e) (ho : EnvelopeOpen e) : goDsd.dumpEnvelope e.stored = realDsd.dumpEnvelope e.stored := by
  have h1 := envelope_fits json_holds (stored_envelope_text h) (small := fun _ => True) (f := 5) (by unfold EnvelopeSizes SignetSizes; simp) ho.2.1
  simp only [goDsd, realDsd, plain_openEnvelope ho, if_true]
  exact (dumpJson_ok h1).symm

theorem dirStep_go (S : DirStore) (reg : List Suite) (fs : FS) (op : DirOp) (h : DirText op) :
    dirStep S goDsd reg fs op = dirStep S realDsd reg fs op := by
  cases op with
  | storeSignet w s =>
    have : S.storeSignet goDsd fs w s = S.storeSignet realDsd fs w s := by
      unfold DirStore.storeSignet writeSignetToFile
      rw [dump_go s h.1 h.2]
    simp only [dirStep, this]
  | storeEnvelope w e =>
    have : S.storeEnvelope goDsd fs w e = S.storeEnvelope realDsd fs w e := by
      unfold DirStore.storeEnvelope writeEnvelopeToFile
      rw [dumpEnvelope_go e h.1 h.2]
    simp only [dirStep, this]
  | deleteSignet id r => rfl
  | getSignet id r => rfl
  | deleteEnvelope n => rfl
  | getEnvelope n => rfl

theorem dirRun_go (S : DirStore) (reg : List Suite) : ∀ (ops : List DirOp) (fs : FS), (∀ op ∈ ops, DirText op) →
    dirRun S goDsd reg fs ops = dirRun S realDsd reg fs ops
  | [], _, _ => rfl
  | op :: ops, fs, h => by
    simp only [dirRun, dirStep_go S reg fs op (h op (by simp)), dirRun_go S reg ops _ (fun o ho => h o (by simp [ho]))]

theorem absRun_go (reg : List Suite) : ∀ (ops : List DirOp) (m : AbsStore), (∀ op ∈ ops, DirText op) →
    absRun goDsd reg m ops = absRun realDsd reg m ops
  | [], _, _ => rfl
  | op :: ops, m, h => by
    have h1 : absStep goDsd reg m op = absStep realDsd reg m op := by
      have h2 := h op (by simp)
      cases op with
      | storeSignet w s => simp only [absStep, dump_go s h2.1 h2.2]
      | storeEnvelope w e => simp only [absStep, dumpEnvelope_go e h2.1 h2.2]
      | deleteSignet id r => rfl
      | getSignet id r => rfl
      | deleteEnvelope n => rfl
      | getEnvelope n => rfl
    simp only [absRun, h1, absRun_go reg ops _ (fun o ho => h o (by simp [ho]))]

/-- C33, C114. A store in a directory with the real file format answers as a map, for every history in which signets and envelopes with UTF-8 texts are stored. -/
theorem dir_store_is_map_real (reg : List Suite) (cwd : Loc) (fs : FS) (dir : Bytes) (S : DirStore) (hS : newDirStore cwd fs dir = .ok S)
    (hempty : ∀ name suffix, suffix ∈ [b!".signet", b!".recipient", b!".envelope"] → fs ((name ++ suffix) :: resolve cwd dir) = none)
    (ops : List DirOp) (hw : ∀ op ∈ ops, op.whole) (ht : ∀ op ∈ ops, DirText op) :
    (dirRun S goDsd reg fs ops).2 = (absRun goDsd reg .empty ops).2 := by
  rw [dirRun_go S reg ops fs ht, absRun_go reg ops _ ht]
  exact dir_store_is_map realDsd realDsd_sound reg cwd fs dir S hS hempty ops hw

/-- C114 is REFUTED for the files of a trust store: storing a signet with texts that are not UTF-8 (a name from a Latin-1 terminal) is reported as done, but getting it gives
another signet; what is returned has U+FFFD in its place. The same holds for every signet: it is got as it was stored if and only if its texts are UTF-8. -/
theorem dir_store_get_real (S : DirStore) (hS : S.storageDir ≠ []) (fs : FS) (s : Signet) (ho : SignetOpen s) (hid : s.id ≠ []) (hn : PermittedName s.id)
    (hroot : fs S.root = some .dir) (hfree : fs (storageID s.id s.isPublic :: S.root) = none) :
    (S.storeSignet goDsd fs .done s).2 = .ok () ∧
    S.getSignet goDsd (S.storeSignet goDsd fs .done s).1 s.id s.isPublic = .ok (fixSignet s.stored) ∧
    (S.getSignet goDsd (S.storeSignet goDsd fs .done s).1 s.id s.isPublic = .ok s.stored ↔ SignetText s) := by
  obtain ⟨d, h1, h2, h3⟩ := signet_file_read s ho
  have hnice : playsNice s.id = true := by
    exact (playsNice_iff s.id).2 hn
  have hfile : S.file (storageID s.id s.isPublic) = storageID s.id s.isPublic :: S.root := by
    exact file_signet S hS _ _ hn
  have hst : S.storeSignet goDsd fs .done s = (fs.set (storageID s.id s.isPublic :: S.root) (some (.file d)), .ok ()) := by
    unfold DirStore.storeSignet writeSignetToFile
    rw [if_neg hid, hnice, hfile, h1]
    simp [FS.write, hfree, hroot]
  have hget : S.getSignet goDsd (S.storeSignet goDsd fs .done s).1 s.id s.isPublic = .ok (fixSignet s.stored) := by
    rw [hst]
    unfold DirStore.getSignet loadSignetFromFile
    rw [hnice, hfile]
    simp [FS.read, FS.set, h2]
  refine ⟨by rw [hst], hget, ?_⟩
  rw [hget, ← h3]
  exact ⟨fun h => Except.ok.inj h, fun h => by rw [h]⟩

/-- The operation stores a signet or an envelope of which the texts are UTF-8, or nothing (specification). -/
def RingText (P : Prims) : RingOp → Prop
  | .storeSignet _ s => SignetText s ∧ SignetOpen s ∧ ∀ s1, s.store P = .ok s1 → SignetSizes (· < 2 ^ 64) s1
  | .storeEnvelope _ e => EnvelopeText e.clean ∧ EnvelopeOpen e.clean ∧ EnvelopeSizes (· < 2 ^ 64) e.clean
  | _ => True

theorem textSignet_go (s : Signet) (h : SignetText s) (ho : SignetOpen s) (hs : SignetSizes (· < 2 ^ 64) s) : goDsd.textSignet s.stored = realDsd.textSignet s.stored := by
  have h2 := signet_fits cbor_holds (s := s.stored) h hs 7
  simp only [goDsd, realDsd, plain_open ho, if_true]
  exact (dumpCbor_ok h2).symm

theorem textEnvelope_go (e : Envelope) (h : EnvelopeText e) (ho : EnvelopeOpen e) (hs : EnvelopeSizes (· < 2 ^ 64) e) :
    goDsd.textEnvelope e.stored = realDsd.textEnvelope e.stored := by
  have h1 := envelope_fits cbor_holds (stored_envelope_text h) (stored_envelope_sizes hs) (f := 5) ho.2.1
  simp only [goDsd, realDsd, plain_openEnvelope ho, if_true]
  exact (dumpCbor_ok h1).symm

theorem store_text {P : Prims} {s s1 : Signet} (h : s.store P = .ok s1) (ht : SignetText s) (ho : SignetOpen s) : SignetText s1 ∧ SignetOpen s1 := by
  obtain ⟨k1, k2, k3, k4, k5⟩ := store_keeps h
  refine ⟨⟨?_, ?_, ?_⟩, k4 ▸ ho.1, k5 ▸ ho.2⟩
  · show utf8 s1.id = true
    rw [k1]; exact ht.1
  · show utf8 s1.scheme = true
    rw [k2]; exact ht.2.1
  · intro i hi
    exact ht.2.2 i (by rw [← k3]; exact hi)

/-- C57, C114. A store in a keyring with the real format answers as a map, for every history in which signets and envelopes with UTF-8 texts are stored. -/
theorem keyring_store_is_map_real (P : Prims) (selfcheck : Bytes) (ops : List RingOp) (ht : ∀ op ∈ ops, RingText P op) :
    ringRun P goDsd (fun x => if x = b!"_selfcheck" then some selfcheck else none) ops = absRingRun P goDsd .empty ops := by
  have h1 : ∀ (ops : List RingOp) (k : Keyring), (∀ op ∈ ops, RingText P op) → ringRun P goDsd k ops = ringRun P realDsd k ops := by
    intro ops
    induction ops with
    | nil => intro k _; rfl
    | cons op ops ih =>
      intro k h
      have h0 := h op (by simp)
      have hstep : ringStep P goDsd k op = ringStep P realDsd k op := by
        cases op with
        | storeSignet f s =>
          have : s.toBase58 P goDsd = s.toBase58 P realDsd := by
            unfold Signet.toBase58 Signet.toBytes
            cases hs : s.store P with
            | error e => rfl
            | ok s1 =>
              obtain ⟨a, b⟩ := store_text hs h0.1 h0.2.1
              simp only [ok_bind, textSignet_go s1 a b (h0.2.2 s1 hs)]
          simp only [ringStep, Keyring.storeSignet, this]
        | storeEnvelope f e => simp only [ringStep, Keyring.storeEnvelope, Envelope.toBytes, textEnvelope_go e.clean h0.1 h0.2.1 h0.2.2]
        | deleteSignet id r => rfl
        | getSignet id r => rfl
        | deleteEnvelope n => rfl
        | getEnvelope n => rfl
      simp only [ringRun, hstep, ih _ (fun o ho => h o (by simp [ho]))]
  have h2 : ∀ (ops : List RingOp) (m : AbsStore), (∀ op ∈ ops, RingText P op) → absRingRun P goDsd m ops = absRingRun P realDsd m ops := by
    intro ops
    induction ops with
    | nil => intro m _; rfl
    | cons op ops ih =>
      intro m h
      have h0 := h op (by simp)
      have hstep : absRingStep P goDsd m op = absRingStep P realDsd m op := by
        cases op with
        | storeSignet f s =>
          cases hs : s.store P with
          | error e => simp only [absRingStep, hs]
          | ok s1 =>
            obtain ⟨a, b⟩ := store_text hs h0.1 h0.2.1
            simp only [absRingStep, hs, textSignet_go s1 a b (h0.2.2 s1 hs)]
        | storeEnvelope f e => simp only [absRingStep, textEnvelope_go e.clean h0.1 h0.2.1 h0.2.2]
        | deleteSignet id r => rfl
        | getSignet id r => rfl
        | deleteEnvelope n => rfl
        | getEnvelope n => rfl
      simp only [absRingRun, hstep, ih _ (fun o ho => h o (by simp [ho]))]
  rw [h1 ops _ ht, h2 ops _ ht]
  exact keyring_store_is_map P realDsd realDsd_sound selfcheck ops

/-- The hypotheses are met: a signet with an umlaut and one with the same name in Latin-1; both are stored, one is got as it was. -/
theorem dir_store_real_example :
    let s : Bytes → Signet := fun name => { version := 1, id := b!"anna", scheme := b!"Ed25519", key := [1, 2], info := some { name := name } }
    newDirStore [] toyFS b!"./keys/" = .ok toyDirStore ∧ toyDirStore.storageDir ≠ [] ∧ toyFS toyDirStore.root = some .dir ∧
    toyFS (storageID b!"anna" false :: toyDirStore.root) = none ∧ playsNice b!"anna" = true ∧
    toyDirStore.getSignet goDsd (toyDirStore.storeSignet goDsd toyFS .done (s [0xc3, 0xbc])).1 b!"anna" false = .ok (s [0xc3, 0xbc]) ∧
    toyDirStore.getSignet goDsd (toyDirStore.storeSignet goDsd toyFS .done (s [0xfc])).1 b!"anna" false = .ok (s [0xef, 0xbf, 0xbd]) := by
  decide +kernel

/-- A history that meets the hypotheses, and its answers. -/
theorem dir_history_real_example :
    let s : Signet := { version := 1, id := b!"anna", scheme := b!"Ed25519", key := [1, 2], info := some { name := [0xc3, 0xbc] } }
    let ops : List DirOp := [.storeSignet .done s, .getSignet b!"anna" false, .deleteSignet b!"anna" false, .getSignet b!"anna" false]
    (∀ op ∈ ops, DirText op ∧ op.whole) ∧
    (dirRun toyDirStore goDsd suiteRegistry toyFS ops).2 = [.done, .signet s, .done, .failed .signetNotFound] := by
  refine ⟨?_, by decide +kernel⟩
  intro op h
  simp only [List.mem_cons, List.not_mem_nil, or_false] at h
  rcases h with rfl | rfl | rfl | rfl
  · refine ⟨⟨⟨by decide, by decide, ?_⟩, rfl, rfl⟩, .inl rfl⟩
    intro i hi
    cases hi
    exact ⟨by decide, by decide⟩
  all_goals exact ⟨trivial, trivial⟩

end Jess.Formats
