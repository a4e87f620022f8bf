import Verif.Props.Frame
import Verif.Props.ConfigureExamples

/-!
# C99: a trust store can be restored from texts
-/

namespace Jess

open Requirements

/-- The text is what `Backup` (for private signets) or `Export` (for recipients) makes of the entry of an ID in a trust store, in the short or the long
format (specification). The signet has the ID and the kind under which it is stored. -/
def TextOf (P : Prims) (D : Dsd) (get : Bytes → Bool → Res Signet) (id : Bytes) (r : Bool) (text : Bytes) : Prop :=
  ∃ n short, get id r = .ok n ∧ n.id = id ∧ n.isPublic = r ∧ (if r then n.export P D short else n.backup P D short) = .ok text

/-- Importing the text of an entry stores the entry as it was, under the same ID and kind, and changes nothing else. -/
theorem text_restores (P : Prims) (D : Dsd) (hD : D.Sound) (hL : D.Plain) (SB : DirStore) (fsB : FS) (id : Bytes) (r : Bool) (text : Bytes)
    (ht : TextOf P D (SB.getSignet D fsB) id r text)
    (SA : DirStore) (hSA : SA.storageDir ≠ []) (fs fs' : FS) (m : AbsStore) (hm : DirRefines D SA fs m) (w : WriteEnd) (hw : w = .done ∨ w = .refused)
    (hi : importDir P D SA fs w text = (fs', .ok ())) :
    ∃ n, SB.getSignet D fsB id r = .ok n ∧ SA.getSignet D fs' id r = .ok n ∧ DirRefines D SA fs' (m.setSignet id r (some n)) := by
  obtain ⟨n, short, h1, h2, h3, hx⟩ := ht
  obtain ⟨p1, p2⟩ := dir_plain hL h1
  have hx' : n.toTextFormat P D short = .ok text := by
    cases r with
    | true => simpa only [if_true, Signet.export, h3] using hx
    | false => simpa [Signet.backup, h3] using hx
  obtain ⟨s1, kind, c, a1, a2, a3, a4⟩ := text_parses P D hD short n text hx'
  have hs1 : s1 = n := by
    unfold Signet.store at a1
    split at a1
    · cases a1; rfl
    · split at a1
      · cases a1
      · split at a1
        · rw [p1] at a1; cases a1
        · cases a1
  subst hs1
  have hst : s1.stored = s1 := by
    have : ∀ s : Signet, s.loadedPub = none → s.loadedPriv = none → s.stored = s := by
      intro s q1 q2
      cases s
      simp only at q1 q2
      subst q1 q2
      rfl
    exact this s1 p1 p2
  rw [hst] at a3
  have nk : kind ≠ .envelope := by
    unfold textHead at a2
    (repeat' split at a2) <;> cases a2 <;> decide
  unfold importDir at hi
  cases hl : s1.load P with
  | error e =>
    exfalso
    rw [hl] at a3
    obtain ⟨s2, b, kind', c', mid, b1, _, b3, b4, _⟩ := text_shape P D short s1 text hx'
    rw [a1] at b1
    cases b1
    rw [a2] at b3
    cases b3
    have himp : cmdImport P D text = .error e := by
      subst b4
      obtain ⟨_, i2, i3, i4, _⟩ := import_dispatch P D mid
      cases kind with
      | envelope => exact absurd rfl nk
      | sender => rw [show TextKind.sender.keyword ++ [58] = b!"sender:" from rfl] at a3 ⊢; rw [i2, a3]; rfl
      | recipient => rw [show TextKind.recipient.keyword ++ [58] = b!"recipient:" from rfl] at a3 ⊢; rw [i3, a3]; rfl
      | secret => rw [show TextKind.secret.keyword ++ [58] = b!"secret:" from rfl] at a3 ⊢; rw [i4, a3]; rfl
    rw [himp] at hi
    cases hi
  | ok o =>
    rw [hl] at a3
    have himp := (import_of_parsed P D text).1 kind o a3 nk
    rw [himp] at hi
    simp only at hi
    have hos : o.stored = s1 ∧ o.id = s1.id ∧ o.isPublic = s1.isPublic := by
      unfold Signet.load at hl
      rw [p1] at hl
      simp only [Option.isSome_none, Bool.false_eq_true, if_false] at hl
      split at hl
      · cases hl
      · split at hl
        · cases hl
        · split at hl
          · split at hl
            · cases hl
            · cases hl; exact ⟨hst, rfl, rfl⟩
          · cases hl
    obtain ⟨hr, hperm, _⟩ := (dir_put hD hSA hm hw hi).1 () rfl
    rw [hos.1, hos.2.1, hos.2.2, h2, h3] at hr
    rw [hos.2.1, h2] at hperm
    exact ⟨s1, h1, dir_get hD hSA hr hperm (by simp [AbsStore.setSignet]), hr⟩

/-- The text is what `Export` makes of an envelope in a trust store, in the short or the long format (specification). The envelope is stored under its name and
has references only: what `CleanSignets` leaves of a signet. -/
def EnvelopeTextOf (D : Dsd) (get : Bytes → Res Envelope) (name : Bytes) (text : Bytes) : Prop :=
  ∃ e short, get name = .ok e ∧ e.name = name ∧ e.opening = false ∧ e.suite = getSuite suiteRegistry e.suiteID ∧
    (∀ k ∈ e.secrets ++ e.senders ++ e.recipients, k = { version := k.version, id := k.id, scheme := k.scheme }) ∧ (e.export D short).2 = .ok text

theorem dir_put_envelope {D : Dsd} (hD : D.Sound) {S : DirStore} (hS : S.storageDir ≠ []) {fs fs' : FS} {m : AbsStore} (h : DirRefines D S fs m)
    {w : WriteEnd} (hw : w = .done ∨ w = .refused) {e : Envelope} (he : S.storeEnvelope D fs w e = (fs', .ok ())) :
    DirRefines D S fs' (m.setEnvelope e.name (some e.stored)) ∧ PermittedName e.name := by
  have h1 := dirStep_refines D hD [] S hS fs m h (.storeEnvelope w e) hw
  simp only [dirStep, he] at h1
  obtain ⟨h1, h2⟩ := h1
  simp only [DirOut.ofUnit, absStep] at h1 h2
  by_cases hc : e.name = [] ∨ ¬ PermittedName e.name
  · rw [if_pos hc] at h1; cases h1
  · rw [if_neg hc] at h1 h2
    simp only [not_or, Decidable.not_not] at hc
    cases hd : D.dumpEnvelope e.stored with
    | error e => rw [hd] at h1; cases h1
    | ok b =>
      rw [hd] at h1 h2
      simp only at h1 h2
      by_cases hwd : w = .done
      · rw [if_pos hwd] at h2; exact ⟨h2, hc.2⟩
      · rw [if_neg hwd] at h1; cases h1

theorem clean_references {e : Envelope} (ho : e.opening = false)
    (hr : ∀ k ∈ e.secrets ++ e.senders ++ e.recipients, k = { version := k.version, id := k.id, scheme := k.scheme }) :
    e.clean.stored = { e with suite := none } ∧ e.stored = { e with suite := none } := by
  have aux : ∀ ss : List Signet, (∀ k ∈ ss, k = { version := k.version, id := k.id, scheme := k.scheme }) →
      ss.map Signet.clean = ss ∧ ss.map Signet.stored = ss := by
    intro ss h
    constructor
    · rw [List.map_congr_left (f := Signet.clean) (g := id) (fun k hk => (h k hk).symm), List.map_id]
    · rw [List.map_congr_left (g := id) (fun k hk => by rw [h k hk]; rfl), List.map_id]
  have a1 := aux e.secrets (fun k hk => hr k (by simp [hk]))
  have a2 := aux e.senders (fun k hk => hr k (by simp [hk]))
  have a3 := aux e.recipients (fun k hk => hr k (by simp [hk]))
  have h1 : e.clean = e := by
    unfold Envelope.clean
    rw [a1.1, a2.1, a3.1]
  have h2 : e.stored = { e with suite := none } := by
    unfold Envelope.stored
    rw [a1.2, a2.2, a3.2, ← ho]
  exact ⟨by rw [h1, h2], h2⟩

theorem dir_get_envelope {D : Dsd} (hD : D.Sound) {S : DirStore} (hS : S.storageDir ≠ []) {fs : FS} {m : AbsStore} (h : DirRefines D S fs m)
    (reg : List Suite) {name : Bytes} (hp : PermittedName name) {e : Envelope} (hm : m.envelope name = some e) :
    S.getEnvelope D reg fs name = (loadSuite reg e).map (·.1) := by
  have h1 := (dirStep_refines D hD reg S hS fs m h (.getEnvelope name) trivial).1
  simp only [dirStep, absStep, hp, not_true, if_false, hm] at h1
  generalize S.getEnvelope D reg fs name = x at h1 ⊢
  generalize (loadSuite reg e).map (·.1) = y at h1 ⊢
  cases x <;> cases y <;> simp_all [DirOut.ofEnvelope]

/-- Importing the text of an envelope stores the envelope as it was and changes nothing else. -/
theorem envelope_text_restores (P : Prims) (D : Dsd) (hD : D.Sound) (get : Bytes → Res Envelope) (name text : Bytes) (ht : EnvelopeTextOf D get name text)
    (SA : DirStore) (hSA : SA.storageDir ≠ []) (fs fs' : FS) (m : AbsStore) (hm : DirRefines D SA fs m) (w : WriteEnd) (hw : w = .done ∨ w = .refused)
    (hi : importDir P D SA fs w text = (fs', .ok ())) :
    ∃ e, get name = .ok e ∧ e.suite = getSuite suiteRegistry e.suiteID ∧ PermittedName name ∧
      DirRefines D SA fs' (m.setEnvelope name (some { e with suite := none })) := by
  obtain ⟨e, short, h1, h2, h3, h4, h5, h6⟩ := ht
  obtain ⟨c1, c2⟩ := clean_references h3 h5
  have hp := (envelope_text_round_trip P D hD short e text h6).1
  have himp := (import_of_parsed P D text).2 _ hp
  unfold importDir at hi
  rw [himp, c1] at hi
  simp only at hi
  obtain ⟨q1, q2⟩ := dir_put_envelope hD hSA hm hw hi
  have c3 : ({ e with suite := none } : Envelope).stored = { e with suite := none } := by
    have : ({ e with suite := none } : Envelope).stored = e.stored := rfl
    rw [this, c2]
  rw [c3] at q1
  subst h2
  exact ⟨e, h1, h4, q2, q1⟩

/-- A text to import, with the entry it comes from, and how the write of its file ends. -/
structure Restoring where
  entry : Entry
  write : WriteEnd
  text : Bytes

/-- The text comes from its entry in the trust store (specification). -/
def Restoring.From (P : Prims) (D : Dsd) (S : DirStore) (fs : FS) (x : Restoring) : Prop :=
  match x.entry with
  | .signet id r => TextOf P D (S.getSignet D fs) id r x.text
  | .envelope name => EnvelopeTextOf D (S.getEnvelope D suiteRegistry fs) name x.text

/-- `jess import` of one text after the other, until one fails. -/
def importAll (P : Prims) (D : Dsd) (S : DirStore) : FS → List Restoring → FS × Res Unit
  | fs, [] => (fs, .ok ())
  | fs, x :: xs =>
    match importDir P D S fs x.write x.text with
    | (fs', .error e) => (fs', .error e)
    | (fs', .ok ()) => importAll P D S fs' xs

theorem importAll_spec (P : Prims) (D : Dsd) (hD : D.Sound) (hL : D.Plain) (SB : DirStore) (fsB : FS) (SA : DirStore) (hSA : SA.storageDir ≠ []) :
    ∀ (todo : List Restoring) (fs fs' : FS) (m : AbsStore), DirRefines D SA fs m →
    (∀ x ∈ todo, x.From P D SB fsB ∧ (x.write = .done ∨ x.write = .refused)) →
    importAll P D SA fs todo = (fs', .ok ()) →
    ∃ m', DirRefines D SA fs' m' ∧
      (∀ id r, (∃ x ∈ todo, x.entry = .signet id r) → ∃ n, SB.getSignet D fsB id r = .ok n ∧ PermittedName id ∧ m'.signet id r = some n) ∧
      (∀ name, (∃ x ∈ todo, x.entry = .envelope name) → ∃ e, SB.getEnvelope D suiteRegistry fsB name = .ok e ∧ e.suite = getSuite suiteRegistry e.suiteID ∧
        PermittedName name ∧ m'.envelope name = some { e with suite := none }) ∧
      (∀ id r, (¬ ∃ x ∈ todo, x.entry = .signet id r) → m'.signet id r = m.signet id r) ∧
      (∀ name, (¬ ∃ x ∈ todo, x.entry = .envelope name) → m'.envelope name = m.envelope name)
  | [], fs, fs', m, hm, _, h => by
    cases h
    exact ⟨m, hm, by simp, by simp, by simp, by simp⟩
  | x :: xs, fs, fs', m, hm, hall, h => by
    simp only [importAll] at h
    split at h
    · cases h
    · rename_i fs1 h1
      obtain ⟨ht, hw⟩ := hall x List.mem_cons_self
      have hall' : ∀ y ∈ xs, y.From P D SB fsB ∧ (y.write = .done ∨ y.write = .refused) := fun y hy => hall y (List.mem_cons_of_mem _ hy)
      unfold Restoring.From at ht
      split at ht
      · rename_i id r hen
        obtain ⟨n, q1, q2, q3⟩ := text_restores P D hD hL SB fsB id r x.text ht SA hSA fs fs1 m hm x.write hw h1
        obtain ⟨m', r1, r2, r3, r4, r5⟩ := importAll_spec P D hD hL SB fsB SA hSA xs fs1 fs' _ q3 hall' h
        refine ⟨m', r1, ?_, ?_, ?_, ?_⟩
        · rintro i q ⟨y, hy, hye⟩
          by_cases hx : ∃ z ∈ xs, z.entry = .signet i q
          · exact r2 _ _ hx
          · rcases List.mem_cons.mp hy with rfl | hy
            · rw [hen] at hye
              cases hye
              refine ⟨n, q1, ((dir_get_iff hD hSA q3).1 q2).1, ?_⟩
              rw [r4 id r hx]
              simp [AbsStore.setSignet]
            · exact absurd ⟨y, hy, hye⟩ hx
        · rintro name ⟨y, hy, hye⟩
          rcases List.mem_cons.mp hy with rfl | hy
          · rw [hen] at hye; cases hye
          · exact r3 name ⟨y, hy, hye⟩
        · intro i q hne
          rw [r4 i q (fun ⟨z, hz, e⟩ => hne ⟨z, List.mem_cons_of_mem _ hz, e⟩)]
          simp only [AbsStore.setSignet]
          rw [if_neg]
          rintro ⟨rfl, rfl⟩
          exact hne ⟨x, List.mem_cons_self, hen⟩
        · intro name hne
          exact r5 name (fun ⟨z, hz, e⟩ => hne ⟨z, List.mem_cons_of_mem _ hz, e⟩)
      · rename_i nm hen
        obtain ⟨e, q1, q2, q3, q4⟩ := envelope_text_restores P D hD _ nm x.text ht SA hSA fs fs1 m hm x.write hw h1
        obtain ⟨m', r1, r2, r3, r4, r5⟩ := importAll_spec P D hD hL SB fsB SA hSA xs fs1 fs' _ q4 hall' h
        refine ⟨m', r1, ?_, ?_, ?_, ?_⟩
        · rintro i q ⟨y, hy, hye⟩
          rcases List.mem_cons.mp hy with rfl | hy
          · rw [hen] at hye; cases hye
          · exact r2 i q ⟨y, hy, hye⟩
        · rintro name ⟨y, hy, hye⟩
          by_cases hx : ∃ z ∈ xs, z.entry = .envelope name
          · exact r3 _ hx
          · rcases List.mem_cons.mp hy with rfl | hy
            · rw [hen] at hye
              cases hye
              refine ⟨e, q1, q2, q3, ?_⟩
              rw [r5 nm hx]
              simp [AbsStore.setEnvelope]
            · exact absurd ⟨y, hy, hye⟩ hx
        · intro i q hne
          exact r4 i q (fun ⟨z, hz, e⟩ => hne ⟨z, List.mem_cons_of_mem _ hz, e⟩)
        · intro name hne
          rw [r5 name (fun ⟨z, hz, e⟩ => hne ⟨z, List.mem_cons_of_mem _ hz, e⟩)]
          simp only [AbsStore.setEnvelope]
          rw [if_neg]
          rintro rfl
          exact hne ⟨x, List.mem_cons_self, hen⟩

/-- C99. The texts of entries of a directory trust store - backups of private signets, exports of recipients and of envelopes with references - are imported
into another one, in any order, all successfully. Then these entries are the same in both stores, and all other signets in the second store are as
before. -/
theorem restore_entries (P : Prims) (D : Dsd) (hD : D.Sound) (hL : D.Plain) (SB : DirStore) (fsB : FS) (SA : DirStore) (hSA : SA.storageDir ≠ [])
    (todo : List Restoring) (hall : ∀ x ∈ todo, x.From P D SB fsB ∧ (x.write = .done ∨ x.write = .refused))
    (fs fs' : FS) (m : AbsStore) (hm : DirRefines D SA fs m) (h : importAll P D SA fs todo = (fs', .ok ())) :
    (∀ x ∈ todo, ∀ id r, x.entry = .signet id r → SA.getSignet D fs' id r = SB.getSignet D fsB id r) ∧
    (∀ x ∈ todo, ∀ name, x.entry = .envelope name → SA.getEnvelope D suiteRegistry fs' name = SB.getEnvelope D suiteRegistry fsB name) ∧
    (∀ id r, (∀ x ∈ todo, x.entry ≠ .signet id r) → ∀ n, SA.getSignet D fs' id r = .ok n ↔ SA.getSignet D fs id r = .ok n) := by
  obtain ⟨m', r1, r2, r3, r4, _⟩ := importAll_spec P D hD hL SB fsB SA hSA todo fs fs' m hm hall h
  refine ⟨fun x hx id r he => ?_, fun x hx name he => ?_, fun id r hne n => ?_⟩
  · obtain ⟨n, a, b, c⟩ := r2 id r ⟨x, hx, he⟩
    rw [a, dir_get hD hSA r1 b c]
  · obtain ⟨e, a, b, c, d⟩ := r3 name ⟨x, hx, he⟩
    rw [a, dir_get_envelope hD hSA r1 suiteRegistry c d]
    have hes : e.suite.isSome := by
      unfold DirStore.getEnvelope at a
      split at a
      · cases a
      · unfold loadEnvelopeFromFile at a
        split at a
        · cases a
        · split at a
          · cases a
          · rename_i env _
            cases hl : loadSuite suiteRegistry env with
            | error x => rw [hl] at a; cases a
            | ok p =>
              rw [hl] at a
              cases a
              unfold loadSuite at hl
              split at hl
              · rename_i hsu; cases hl; rw [hsu]; rfl
              · split at hl
                · cases hl
                · cases hl; rfl
    unfold loadSuite
    simp only
    cases hg : getSuite suiteRegistry e.suiteID with
    | none => rw [hg] at b; rw [b] at hes; cases hes
    | some su =>
      simp only [Except.map]
      rw [← hg, ← b]
  · rw [dir_get_iff hD hSA r1, dir_get_iff hD hSA hm, r4 id r (fun ⟨x, hx, e⟩ => hne x hx e)]

/-- C99. After that, every letter whose key seals refer to restored private signets and whose signatures to restored recipients opens, verifies or fails
in the second store exactly as in the first one; and every envelope whose senders refer to restored private signets and whose recipients to restored
recipients gives the same session. So whoever has backups of the private keys, and the recipients of the correspondents, has lost nothing. (Shared
keys can not be restored this way, see C28; letters and envelopes with passwords need the same prompts, and for shared keys and passwords among the
signatures or recipients also the private entry is needed.) -/
theorem restored_store_works (P : Prims) (D : Dsd) (hD : D.Sound) (hL : D.Plain) (cfg : Config) (SB : DirStore) (fsB : FS) (SA : DirStore)
    (hSA : SA.storageDir ≠ []) (todo : List Restoring)
    (hall : ∀ x ∈ todo, x.From P D SB fsB ∧ (x.write = .done ∨ x.write = .refused))
    (fs fs' : FS) (m : AbsStore) (hm : DirRefines D SA fs m) (h : importAll P D SA fs todo = (fs', .ok ()))
    (w w' : World) (hw : w.store = some (SB.getSignet D fsB)) (hw' : w'.store = some (SA.getSignet D fs')) (hg : w'.getPw = w.getPw)
    (hc : w'.createPw = w.createPw) :
    (∀ (l : Letter) (reqs : Option Requirements), (∀ k ∈ l.keys, ∃ x ∈ todo, x.entry = .signet k.id false) →
      (∀ k ∈ l.signatures, k.scheme ≠ schemeKey ∧ k.scheme ≠ schemePassword ∧ ∃ x ∈ todo, x.entry = .signet k.id true) →
      l.open P cfg w' suiteRegistry reqs = l.open P cfg w suiteRegistry reqs ∧ l.verify P cfg w' suiteRegistry reqs = l.verify P cfg w suiteRegistry reqs ∧
        l.wireCorrespondence P cfg w' suiteRegistry = l.wireCorrespondence P cfg w suiteRegistry) ∧
    (∀ e : Envelope, e.opening = false → (∀ k ∈ e.secrets ++ e.senders, ∃ x ∈ todo, x.entry = .signet k.id false) →
      (∀ k ∈ e.recipients, k.scheme ≠ schemeKey ∧ k.scheme ≠ schemePassword ∧ ∃ x ∈ todo, x.entry = .signet k.id true) →
      correspondence P cfg w' suiteRegistry e = correspondence P cfg w suiteRegistry e ∧
        wireCorrespondence P cfg w' suiteRegistry e = wireCorrespondence P cfg w suiteRegistry e) := by
  obtain ⟨hsame, _⟩ := restore_entries P D hD hL SB fsB SA hSA todo hall fs fs' m hm h
  have hsm : ∀ id r, (∃ x ∈ todo, x.entry = .signet id r) → SA.getSignet D fs' id r = SB.getSignet D fsB id r := by
    rintro id r ⟨x, hx, he⟩
    exact hsame x hx id r he
  constructor
  · intro l reqs hk hs
    refine letter_uses_named P cfg suiteRegistry w' w _ _ hw' hw hg.symm hc.symm l (fun k hk' => hsm _ _ (hk k hk')) ⟨?_, ?_⟩ reqs
    · intro _ k hk' _ _
      obtain ⟨x, hx, rfl⟩ := List.mem_map.mp hk'
      exact hsm _ _ (hs x hx).2.2
    · rintro (h0 | ⟨k, hk', h0⟩)
      · cases h0
      · obtain ⟨x, hx, rfl⟩ := List.mem_map.mp hk'
        rcases h0 with h0 | h0
        · exact absurd h0 (hs x hx).1
        · exact absurd h0 (hs x hx).2.1
  · intro e heo hk hr
    refine envelope_uses_named P cfg suiteRegistry w' w _ _ hw' hw hg.symm hc.symm e heo (fun k hk' => hsm _ _ (hk k hk')) ⟨?_, ?_⟩
    · intro _ k hk' _ _
      obtain ⟨x, hx, rfl⟩ := List.mem_map.mp hk'
      exact hsm _ _ (hr x hx).2.2
    · rintro (h0 | ⟨k, hk', h0⟩)
      · cases h0
      · obtain ⟨x, hx, rfl⟩ := List.mem_map.mp hk'
        rcases h0 with h0 | h0
        · exact absurd h0 (hr x hx).1
        · exact absurd h0 (hr x hx).2.1

/-- Bob's ID in the example. -/
def restoreID : Bytes := uuidText (uuidMark (List.replicate 16 9))

/-- The envelope in Bob's store. -/
def restoreEnvelope : Envelope := { name := b!"me", suiteID := b!"rcpt_v2", recipients := [{ id := restoreID }] }

/-- The serialization library of the example. -/
def restoreDsd : Dsd := refDsd [restoreEnvelope]

/-- Bob's store: a generated key pair, and an envelope. -/
def restoreFS : FS :=
  (toyDirStore.storeEnvelope restoreDsd (newSignet (toyGenEnv 9 toyDone) toyFS b!"Bob" [] true).1 .done restoreEnvelope).1

/-- The result, or the default. -/
def orEmpty {α : Type} [Inhabited α] (r : Res α) : α := match r with | .ok x => x | .error _ => default

/-- The texts of the example: a backup of the private signet, exports of the recipient and of the envelope. -/
def restoreTodo : List Restoring :=
  [{ entry := .signet restoreID false, write := .done, text := orEmpty ((toyDirStore.getSignet restoreDsd restoreFS restoreID false).bind (·.backup toyGenPrims restoreDsd false)) },
   { entry := .envelope b!"me", write := .done, text := orEmpty ((toyDirStore.getEnvelope restoreDsd suiteRegistry restoreFS b!"me").bind (fun e => (e.export restoreDsd false).2)) },
   { entry := .signet restoreID true, write := .done, text := orEmpty ((toyDirStore.getSignet restoreDsd restoreFS restoreID true).bind (·.export toyGenPrims restoreDsd true)) }]

/-- The new store. -/
def restoredFS : FS := (importAll toyGenPrims restoreDsd toyDirStore toyFS restoreTodo).1

/-- A letter for Bob, closed with his old store. -/
def restoreLetter : Res Letter := do
  let e ← toyDirStore.getEnvelope restoreDsd suiteRegistry restoreFS b!"me"
  let s ← correspondence toyGenPrims toyConfig { store := some (toyDirStore.getSignet restoreDsd restoreFS) } suiteRegistry e
  (s.close toyGenPrims toyConfig toyLongRng s.initState b!"hello").2

theorem restoreDsd_plain : restoreDsd.Plain := toyDsd_plain

/-- All hypotheses of `restored_store_works` are met: the texts come from Bob's store, all of them are imported into an empty one, and a letter closed
with the old store opens with the new one, where it did not open before. -/
theorem restore_example :
    (∀ x ∈ restoreTodo, x.From toyGenPrims restoreDsd toyDirStore restoreFS ∧ (x.write = .done ∨ x.write = .refused)) ∧
    DirRefines restoreDsd toyDirStore toyFS .empty ∧
    importAll toyGenPrims restoreDsd toyDirStore toyFS restoreTodo = (restoredFS, .ok ()) ∧
    (∃ l, restoreLetter = .ok l ∧ l.keys.map (·.id) = [restoreID] ∧ l.signatures = [] ∧
      l.open toyGenPrims toyConfig { store := some (toyDirStore.getSignet restoreDsd restoreFS) } suiteRegistry (some toyUnsigned) = .ok b!"hello" ∧
      l.open toyGenPrims toyConfig { store := some (toyDirStore.getSignet restoreDsd toyFS) } suiteRegistry (some toyUnsigned) = .error .signetNotFound ∧
      l.open toyGenPrims toyConfig { store := some (toyDirStore.getSignet restoreDsd restoredFS) } suiteRegistry (some toyUnsigned) = .ok b!"hello") := by
  have hf : ∀ x ∈ restoreTodo, x.From toyGenPrims restoreDsd toyDirStore restoreFS ∧ (x.write = .done ∨ x.write = .refused) := by
    have h1 : (match toyDirStore.getSignet restoreDsd restoreFS restoreID false with
        | .ok n => decide (n.id = restoreID) && decide (n.isPublic = false) && (n.backup toyGenPrims restoreDsd false).isOk
        | .error _ => false) = true := by decide +kernel
    have h2 : (match toyDirStore.getSignet restoreDsd restoreFS restoreID true with
        | .ok n => decide (n.id = restoreID) && decide (n.isPublic = true) && (n.export toyGenPrims restoreDsd true).isOk
        | .error _ => false) = true := by decide +kernel
    have h3 : (match toyDirStore.getEnvelope restoreDsd suiteRegistry restoreFS b!"me" with
        | .ok e => decide (e = { restoreEnvelope with suite := getSuite suiteRegistry b!"rcpt_v2" }) && (e.export restoreDsd false).2.isOk
        | .error _ => false) = true := by decide +kernel
    intro x hx
    simp only [restoreTodo, List.mem_cons, List.not_mem_nil, or_false] at hx
    rcases hx with rfl | rfl | rfl
    · refine ⟨?_, .inl rfl⟩
      cases hg : toyDirStore.getSignet restoreDsd restoreFS restoreID false with
      | error e => rw [hg] at h1; cases h1
      | ok n =>
        rw [hg] at h1
        simp only [Bool.and_eq_true, decide_eq_true_eq] at h1
        cases hb : n.backup toyGenPrims restoreDsd false with
        | error e => rw [hb] at h1; cases h1.2
        | ok t => exact ⟨n, false, hg, h1.1.1, h1.1.2, by simp [hb, Except.bind, orEmpty]⟩
    · refine ⟨?_, .inl rfl⟩
      cases hg : toyDirStore.getEnvelope restoreDsd suiteRegistry restoreFS b!"me" with
      | error e => rw [hg] at h3; cases h3
      | ok e =>
        rw [hg] at h3
        simp only [Bool.and_eq_true, decide_eq_true_eq] at h3
        obtain ⟨rfl, h3⟩ := h3
        cases hb : (({ restoreEnvelope with suite := getSuite suiteRegistry b!"rcpt_v2" } : Envelope).export restoreDsd false).2 with
        | error e => rw [hb] at h3; cases h3
        | ok t => exact ⟨_, false, hg, rfl, rfl, rfl, by intro k hk; simp [restoreEnvelope] at hk; rw [hk], by simp [hb, Except.bind, orEmpty]⟩
    · refine ⟨?_, .inl rfl⟩
      cases hg : toyDirStore.getSignet restoreDsd restoreFS restoreID true with
      | error e => rw [hg] at h2; cases h2
      | ok n =>
        rw [hg] at h2
        simp only [Bool.and_eq_true, decide_eq_true_eq] at h2
        cases hb : n.export toyGenPrims restoreDsd true with
        | error e => rw [hb] at h2; cases h2.2
        | ok t => exact ⟨n, true, hg, h2.1.1, h2.1.2, by simp [hb, Except.bind, orEmpty]⟩
  have hm : DirRefines restoreDsd toyDirStore toyFS .empty := ⟨toyDir_empty.root, toyDir_empty.signet, toyDir_empty.envelope⟩
  have hi : importAll toyGenPrims restoreDsd toyDirStore toyFS restoreTodo = (restoredFS, .ok ()) := by
    have : (importAll toyGenPrims restoreDsd toyDirStore toyFS restoreTodo).2 = .ok () := by decide +kernel
    have pr : ∀ (p : FS × Res Unit) (y : Res Unit), p.2 = y → p = (p.1, y) := by
      intro p y hp; rw [← hp]
    unfold restoredFS
    exact pr _ _ this
  refine ⟨hf, hm, hi, ?_⟩
  have hl : (match restoreLetter with
      | .ok l => decide (l.keys.map (·.id) = [restoreID]) && decide (l.signatures = []) &&
          decide (l.open toyGenPrims toyConfig { store := some (toyDirStore.getSignet restoreDsd restoreFS) } suiteRegistry (some toyUnsigned) = .ok b!"hello") &&
          decide (l.open toyGenPrims toyConfig { store := some (toyDirStore.getSignet restoreDsd toyFS) } suiteRegistry (some toyUnsigned) = .error .signetNotFound)
      | .error _ => false) = true := by decide +kernel
  cases h : restoreLetter with
  | error e => rw [h] at hl; cases hl
  | ok l =>
    rw [h] at hl
    simp only [Bool.and_eq_true, decide_eq_true_eq] at hl
    obtain ⟨⟨⟨a, b⟩, c⟩, d⟩ := hl
    refine ⟨l, rfl, a, b, c, d, ?_⟩
    have := (restored_store_works toyGenPrims restoreDsd (refDsd_sound _) restoreDsd_plain toyConfig toyDirStore restoreFS toyDirStore (by decide) restoreTodo hf toyFS
      restoredFS .empty hm hi { store := some (toyDirStore.getSignet restoreDsd restoreFS) } { store := some (toyDirStore.getSignet restoreDsd restoredFS) } rfl rfl rfl rfl).1
      l (some toyUnsigned) (by
        intro k hk
        have : k.id ∈ l.keys.map (·.id) := List.mem_map.mpr ⟨k, hk, rfl⟩
        rw [a] at this
        rw [List.mem_singleton.mp this]
        exact ⟨_, List.mem_cons_self, rfl⟩) (by rw [b]; intro k hk; cases hk)
    rw [this.1]
    exact c

/-- A history of C98: another signet is stored, first with a crash; Bob's recipient is deleted; the envelope is overwritten with a crash and deleted. -/
def restoreOps : List DirOp :=
  [.storeSignet (.stopped 1) { version := 1, id := b!"carol", scheme := b!"ECDH-X25519", key := [1, 2], info := some { name := b!"Carol" } },
   .storeSignet .done { version := 1, id := b!"carol", scheme := b!"ECDH-X25519", key := [1, 2], info := some { name := b!"Carol" } },
   .deleteSignet restoreID true, .storeEnvelope (.stopped 0) restoreEnvelope, .deleteEnvelope b!"me"]

/-- The hypotheses of `history_keeps_letter` are met: after the history, which changed the store, Bob still opens the letter; nobody can close another one
for him with the envelope of before. -/
theorem history_example : newDirStore [] toyFS b!"./keys/" = .ok toyDirStore ∧
    (dirRun toyDirStore restoreDsd suiteRegistry restoreFS restoreOps).2 = [.failed .env, .done, .done, .failed .env, .done] ∧
    ∃ l, restoreLetter = .ok l ∧ (∀ k ∈ l.keys, ∀ op ∈ restoreOps, op.entry ≠ .signet k.id false) ∧ l.signatures = [] ∧
      l.open toyGenPrims toyConfig { store := some (toyDirStore.getSignet restoreDsd (dirRun toyDirStore restoreDsd suiteRegistry restoreFS restoreOps).1) }
        suiteRegistry (some toyUnsigned) = .ok b!"hello" ∧
      (correspondence toyGenPrims toyConfig
        { store := some (toyDirStore.getSignet restoreDsd (dirRun toyDirStore restoreDsd suiteRegistry restoreFS restoreOps).1) } suiteRegistry restoreEnvelope).isOk = false := by
  have hS : newDirStore [] toyFS b!"./keys/" = .ok toyDirStore := by decide +kernel
  refine ⟨hS, by decide +kernel, ?_⟩
  obtain ⟨_, _, _, l, h1, h2, h3, h4, _⟩ := restore_example
  have hk : ∀ k ∈ l.keys, ∀ op ∈ restoreOps, op.entry ≠ .signet k.id false := by
    intro k hk
    have : k.id ∈ l.keys.map (·.id) := List.mem_map.mpr ⟨k, hk, rfl⟩
    rw [h2] at this
    rw [List.mem_singleton.mp this]
    decide +kernel
  refine ⟨l, h1, hk, h3, ?_, by decide +kernel⟩
  have := (history_keeps_letter toyGenPrims toyConfig suiteRegistry restoreDsd [] toyFS b!"./keys/" toyDirStore hS restoreFS restoreOps l hk
    (by rw [h3]; intro k hk; cases hk) {} (some toyUnsigned)).1
  rw [this]
  exact h4

end Jess
