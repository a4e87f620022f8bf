import Verif.Props.Configure
import Verif.Props.GenerateUse

/-! C70 and C71 for the directory trust store. -/

namespace Jess

/-- The envelopes of the map are as the command writes them: references only, under their names. -/
def AbsStore.Kept (m : AbsStore) : Prop :=
  ∀ n e, m.envelope n = some e → e.name = n ∧ OnlyRefs e ∧ e.opening = false ∧ e.suite = none

theorem ref_stored {x : Signet} (h : x = { version := x.version, id := x.id, scheme := x.scheme }) : x.stored = x := by
  rw [h]; rfl

theorem refs_stored {l : List Signet} (h : ∀ x ∈ l, x = { version := x.version, id := x.id, scheme := x.scheme }) :
    l.map Signet.stored = l := by
  induction l with
  | nil => rfl
  | cons x l ih => rw [List.map_cons, ref_stored (h x (by simp)), ih fun y hy => h y (by simp [hy])]

theorem onlyRefs_stored {e : Envelope} (h : OnlyRefs e) : e.stored = { e with suite := none, opening := false } := by
  unfold Envelope.stored
  rw [refs_stored fun x hx => h x (by simp [hx]), refs_stored fun x hx => h x (by simp [hx]), refs_stored fun x hx => h x (by simp [hx])]

/-- Reading back a saved envelope gives it again. -/
theorem savable_reads_back {E : DlgEnv} {get : Bytes → Bool → Res Signet} {e : Envelope} (h : Savable E get e) :
    ∃ su, loadSuite suiteRegistry e.stored = .ok (e, su) := by
  rw [onlyRefs_stored h.refs]
  cases hs : e.suite with
  | none => exact absurd hs h.suite.2
  | some su =>
    refine ⟨su, ?_⟩
    have hg : getSuite suiteRegistry e.suiteID = some su := by rw [← h.suite.1, hs]
    unfold loadSuite
    simp only [hg]
    have ho := h.opening
    cases e
    simp_all

section
variable {D : Dsd} {S : DirStore} {fs : FS} {m : AbsStore}

theorem dir_asked (hD : D.Sound) (hS : S.storageDir ≠ []) (h : DirRefines D S fs m) (hk : m.Keyed) : GivesAsked (S.getSignet D fs) := by
  intro id flag n hg
  exact (hk id flag n ((dir_get_iff hD hS h).mp hg).2).2.1

/-- `GetEnvelope` of the directory store. -/
theorem dir_envelope (hS : S.storageDir ≠ []) (h : DirRefines D S fs m) (walk : FS → List Loc) (w : WriteEnd)
    {name : Bytes} (hp : PermittedName name) :
    (dirTrust S D suiteRegistry walk w).getEnvelope fs name =
      match m.envelope name with
      | none => .ok none
      | some e => (loadSuite suiteRegistry e).map (fun p => some p.1) := by
  have hn : playsNice name = true := (playsNice_iff name).mpr hp
  have hh := h.envelope name hp
  simp only [dirTrust, hn, Bool.not_true, Bool.false_eq_true, if_false, file_envelope S hS name hp]
  cases hm : m.envelope name with
  | none =>
    rw [hm] at hh
    have : fs ((name ++ b!".envelope") :: S.root) = none := hh
    simp [FS.read, this]
  | some e =>
    rw [hm] at hh
    obtain ⟨d, h1, h2⟩ := hh
    simp only [FS.read, h1, DirStore.getEnvelope, hn, Bool.not_true, Bool.false_eq_true, if_false, file_envelope S hS name hp,
      loadEnvelopeFromFile, h2]
    cases loadSuite suiteRegistry e <;> rfl

theorem dir_kept (hS : S.storageDir ≠ []) (h : DirRefines D S fs m) (hk : m.Kept) (walk : FS → List Loc) (w : WriteEnd) :
    KeptEnvelopes (dirTrust S D suiteRegistry walk w) fs := by
  intro name e he
  by_cases hp : PermittedName name
  · rw [dir_envelope hS h walk w hp] at he
    cases hm : m.envelope name with
    | none => rw [hm] at he; cases he
    | some e0 =>
      rw [hm] at he
      obtain ⟨k1, k2, k3, k4⟩ := hk name e0 hm
      dsimp only at he
      cases hl : loadSuite suiteRegistry e0 with
      | error x => rw [hl] at he; cases he
      | ok p =>
        obtain ⟨e1, su⟩ := p
        rw [hl] at he
        cases he
        obtain ⟨l1, l2⟩ := loadSuite_loaded (Or.inl k4) hl
        dsimp only
        rw [l2]
        exact ⟨k1, k2, k3, Or.inr l1.symm⟩
  · have hn : playsNice name = false := by
      cases hq : playsNice name with
      | false => rfl
      | true => exact absurd ((playsNice_iff name).mp hq) hp
    simp [dirTrust, hn] at he

/-- What a dialog about one envelope may do to the map: nothing, or change the entry of that name. -/
structure OnlyEntry (E : DlgEnv) (D : Dsd) (S : DirStore) (m m' : AbsStore) (name : Bytes) (fs' : FS) : Prop where
  refines : DirRefines D S fs' m'
  signets : m'.signet = m.signet
  others : ∀ n, n ≠ name → m'.envelope n = m.envelope n
  entry : m'.envelope name = m.envelope name ∨ m'.envelope name = none ∨
    ∃ e, e.name = name ∧ m'.envelope name = some e.stored ∧ Savable E (S.getSignet D fs') e

theorem onlyEntry_same {E : DlgEnv} (h : DirRefines D S fs m) (name : Bytes) : OnlyEntry E D S m m name fs :=
  ⟨h, rfl, fun _ _ => rfl, Or.inl rfl⟩

/-- Two directories that hold the same signets give the same answers. -/
theorem same_signets (hD : D.Sound) (hS : S.storageDir ≠ []) {fs' : FS} {m' : AbsStore} (h : DirRefines D S fs m)
    (h' : DirRefines D S fs' m') (hs : m'.signet = m.signet) (id : Bytes) (r : Bool) :
    S.getSignet D fs' id r = S.getSignet D fs id r := by
  have e1 := (dirStep_refines D hD [] S hS fs m h (.getSignet id r) trivial).1
  have e2 := (dirStep_refines D hD [] S hS fs' m' h' (.getSignet id r) trivial).1
  simp only [dirStep, absStep] at e1 e2
  rw [hs] at e2
  have : DirOut.ofSignet (S.getSignet D fs' id r) = DirOut.ofSignet (S.getSignet D fs id r) := by
    rw [e1, e2]
    split
    · rfl
    · split <;> rfl
  revert this
  cases S.getSignet D fs' id r <;> cases S.getSignet D fs id r <;> simp [DirOut.ofSignet]

theorem Savable.same {E : DlgEnv} {get get' : Bytes → Bool → Res Signet} {e : Envelope} (h : Savable E get e)
    (hg : get' = get) : Savable E get' e := hg ▸ h

/-- The end of a dialog, with the directory store. -/
theorem dialogEnd_dir (hD : D.Sound) (hS : S.storageDir ≠ []) (h : DirRefines D S fs m) {E : DlgEnv} {walk : FS → List Loc}
    {w : WriteEnd} (hw : w = .done ∨ w = .refused) {name : Bytes} {r : FS × Res Unit}
    (hr : DialogEnd E (dirTrust S D suiteRegistry walk w) fs name r) : ∃ m', OnlyEntry E D S m m' name r.1 := by
  cases hr with
  | unchanged x => exact ⟨m, onlyEntry_same h name⟩
  | deleted =>
    have h1 := dirStep_refines D hD [] S hS fs m h (.deleteEnvelope name) trivial
    refine ⟨(absStep D [] m (.deleteEnvelope name)).1, h1.2, ?_, ?_, ?_⟩
    · simp only [absStep]
      split
      · rfl
      · split <;> rfl
    · intro n hn
      simp only [absStep]
      split
      · rfl
      · split
        · simp [AbsStore.setEnvelope, hn]
        · rfl
    · simp only [absStep]
      split
      · exact Or.inl rfl
      · split
        · right; left; simp [AbsStore.setEnvelope]
        · exact Or.inl rfl
  | saved e hn hs =>
    have h1 := dirStep_refines D hD [] S hS fs m h (.storeEnvelope w e) hw
    have hsig : (absStep D [] m (.storeEnvelope w e)).1.signet = m.signet := by
      simp only [absStep]
      split
      · rfl
      · split
        · rfl
        · split <;> rfl
    have hget : S.getSignet D (dirStep S D [] fs (.storeEnvelope w e)).1 = S.getSignet D fs := by
      funext id q
      exact same_signets hD hS h h1.2 hsig id q
    refine ⟨(absStep D [] m (.storeEnvelope w e)).1, h1.2, hsig, ?_, ?_⟩
    · intro n hne
      simp only [absStep]
      split
      · rfl
      · split
        · rfl
        · split
          · simp [AbsStore.setEnvelope, hn, hne]
          · rfl
    · have hs' : Savable E (S.getSignet D (dirStep S D [] fs (.storeEnvelope w e)).1) e := hs.same hget
      have hkeep : (absStep D [] m (.storeEnvelope w e)).1.envelope name = m.envelope name ∨
          (absStep D [] m (.storeEnvelope w e)).1.envelope name = some e.stored := by
        simp only [absStep]
        split
        · exact Or.inl rfl
        · split
          · exact Or.inl rfl
          · split
            · right; simp [AbsStore.setEnvelope, hn]
            · exact Or.inl rfl
      rcases hkeep with hk | hk
      · exact Or.inl hk
      · exact Or.inr (Or.inr ⟨e, hn, hk, hs'⟩)

/-- C71 (and C70): `jess configure` with a directory trust store, no write of which stops in the middle. Signets and other envelopes
stay; the entry of that name stays, is deleted, or is an envelope that can be used. Missing: for a new envelope the name is the given one
without surrounding blanks, which may be the name of another envelope (`configure_blank_refuted`). -/
theorem configure_keeps_others_partial (hD : D.Sound) (hS : S.storageDir ≠ []) (h : DirRefines D S fs m) (hk : m.Keyed) (hkept : m.Kept)
    {E : DlgEnv} (hreg : E.reg = suiteRegistry) (walk : FS → List Loc) {w : WriteEnd} (hw : w = .done ∨ w = .refused)
    (args : List Bytes) (preset : Option Nat) (rows : List (Option (Nat → Bool))) (rounds : List EditRound)
    (hr : ∀ r ∈ rounds, r.Keeps) :
    (configureCommand E (dirTrust S D suiteRegistry walk w) D fs args preset rows rounds).1 = fs ∨
    ∃ arg ∈ args.head?, ∃ name, (name = arg ∨ (m.envelope arg = none ∧ name = trimSpace arg)) ∧
      ∃ m', OnlyEntry E D S m m' name (configureCommand E (dirTrust S D suiteRegistry walk w) D fs args preset rows rounds).1 := by
  have h1 := configure_saves_usable (E := E) (T := dirTrust S D suiteRegistry walk w) (D := D) (st := fs) hreg
    (dir_asked hD hS h hk) (dir_kept hS h hkept walk w) args preset rows rounds hr
  rcases h1 with h1 | ⟨arg, ha, name, hn, hend⟩
  · left; rw [h1]
  · right
    refine ⟨arg, ha, name, ?_, dialogEnd_dir hD hS h hw hend⟩
    rcases hn with hn | ⟨hn, ht⟩
    · exact Or.inl hn
    · right
      refine ⟨?_, ht⟩
      by_cases hp : PermittedName arg
      · rw [dir_envelope hS h walk w hp] at hn
        cases hm : m.envelope arg with
        | none => rfl
        | some e =>
          rw [hm] at hn
          dsimp only at hn
          cases hl : loadSuite suiteRegistry e with
          | error x => rw [hl] at hn; cases hn
          | ok p => rw [hl] at hn; cases hn
      · have hq : playsNice arg = false := by
          cases hq : playsNice arg with
          | false => rfl
          | true => exact absurd ((playsNice_iff arg).mp hq) hp
        simp [dirTrust, hq] at hn

/-- C70: the envelope that is read after a dialog that has saved it can be used, at the level that is written in it. -/
theorem saved_envelope_works {E : DlgEnv} {m' : AbsStore} {name : Bytes} {fs' : FS} (hS : S.storageDir ≠ []) (hp : PermittedName name)
    (h : OnlyEntry E D S m m' name fs') (hch : m'.envelope name ≠ m.envelope name) (hne : m'.envelope name ≠ none)
    (walk : FS → List Loc) (w : WriteEnd) :
    ∃ e, (dirTrust S D suiteRegistry walk w).getEnvelope fs' name = .ok (some e) ∧ OnlyRefs e ∧ 0 < e.securityLevel ∧
      ∀ w : World, w.store = some (S.getSignet D fs') → GoodPasswords E.cfg w e →
        ∃ s, correspondence E.P E.cfg w suiteRegistry e = .ok s ∧ e.securityLevel ≤ s.level := by
  rcases h.entry with h1 | h1 | ⟨e, h1, h2, h3⟩
  · exact absurd h1 hch
  · exact absurd h1 hne
  · obtain ⟨su, hl⟩ := savable_reads_back h3
    refine ⟨e, ?_, h3.refs, h3.level, h3.usable⟩
    rw [dir_envelope hS h.refines walk w hp, h2]
    dsimp only
    rw [hl]
    rfl

end

end Jess
