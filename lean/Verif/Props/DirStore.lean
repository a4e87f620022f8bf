import Verif.Props.Stores

/-!
# The directory trust store as a map (C31, C33, C34)
-/

namespace Jess

instance (s : Bytes) : Decidable (PermittedName s) := decidable_of_iff _ (playsNice_iff s)

/-! ## C33 -/

/-- The specification: a map of signets from ID and kind, and a map of envelopes from names. -/
structure AbsStore where
  signet : Bytes → Bool → Option Signet
  envelope : Bytes → Option Envelope

def AbsStore.setSignet (m : AbsStore) (id : Bytes) (r : Bool) (v : Option Signet) : AbsStore :=
  { m with signet := fun i q => if i = id ∧ q = r then v else m.signet i q }

def AbsStore.setEnvelope (m : AbsStore) (name : Bytes) (v : Option Envelope) : AbsStore :=
  { m with envelope := fun n => if n = name then v else m.envelope n }

/-- The operations on the map. Storing keeps what is serialized of a signet or an envelope; loading an envelope also loads its suite. A
failed write is one that is refused; `D.dumpSignet` and `D.dumpEnvelope` tell whether a value can be serialized. -/
def absStep (D : Dsd) (reg : List Suite) (m : AbsStore) : DirOp → AbsStore × DirOut
  | .storeSignet w s =>
    if s.id = [] ∨ ¬ PermittedName s.id then (m, .failed .malformed)
    else
      match D.dumpSignet s.stored with
      | .error e => (m, .failed e)
      | .ok _ => if w = .done then (m.setSignet s.id s.isPublic (some s.stored), .done) else (m, .failed .env)
  | .deleteSignet id r =>
    if ¬ PermittedName id then (m, .failed .malformed)
    else if (m.signet id r).isSome then (m.setSignet id r none, .done) else (m, .failed .notFound)
  | .getSignet id r =>
    if ¬ PermittedName id then (m, .failed .malformed)
    else
      match m.signet id r with
      | some s => (m, .signet s)
      | none => (m, .failed .signetNotFound)
  | .storeEnvelope w e =>
    if e.name = [] ∨ ¬ PermittedName e.name then (m, .failed .malformed)
    else
      match D.dumpEnvelope e.stored with
      | .error e => (m, .failed e)
      | .ok _ => if w = .done then (m.setEnvelope e.name (some e.stored), .done) else (m, .failed .env)
  | .deleteEnvelope n =>
    if ¬ PermittedName n then (m, .failed .malformed)
    else if (m.envelope n).isSome then (m.setEnvelope n none, .done) else (m, .failed .notFound)
  | .getEnvelope n =>
    if ¬ PermittedName n then (m, .failed .malformed)
    else
      match m.envelope n with
      | none => (m, .failed .notFound)
      | some e => (m, .ofEnvelope ((loadSuite reg e).map (·.1)))

def dirRun (S : DirStore) (D : Dsd) (reg : List Suite) (fs : FS) : List DirOp → FS × List DirOut
  | [] => (fs, [])
  | op :: ops => ((dirRun S D reg (dirStep S D reg fs op).1 ops).1, (dirStep S D reg fs op).2 :: (dirRun S D reg (dirStep S D reg fs op).1 ops).2)

def absRun (D : Dsd) (reg : List Suite) (m : AbsStore) : List DirOp → AbsStore × List DirOut
  | [] => (m, [])
  | op :: ops => ((absRun D reg (absStep D reg m op).1 ops).1, (absStep D reg m op).2 :: (absRun D reg (absStep D reg m op).1 ops).2)

/-- No write of the operation stops in the middle. -/
def DirOp.whole : DirOp → Prop
  | .storeSignet w _ => w = .done ∨ w = .refused
  | .storeEnvelope w _ => w = .done ∨ w = .refused
  | _ => True

/-- A file of the store holds an entry of the map. -/
def Holds {α : Type} (load : Bytes → Res α) (fs : FS) (l : Loc) (v : Option α) : Prop :=
  match v with
  | none => fs l = none
  | some s => ∃ d, fs l = some (.file d) ∧ load d = .ok s

/-- The directory holds the map. -/
structure DirRefines (D : Dsd) (S : DirStore) (fs : FS) (m : AbsStore) : Prop where
  root : fs S.root = some .dir
  signet : ∀ id r, PermittedName id → Holds D.loadSignet fs (storageID id r :: S.root) (m.signet id r)
  envelope : ∀ n, PermittedName n → Holds D.loadEnvelope fs ((n ++ b!".envelope") :: S.root) (m.envelope n)

theorem Holds.frame {α : Type} {load : Bytes → Res α} {fs : FS} {l k : Loc} {v : Option α} (x : Option Node) (h : Holds load fs l v)
    (hk : l ≠ k) : Holds load (fs.set k x) l v := by
  unfold Holds at *
  simpa [FS.set, hk] using h

theorem Holds.here {α : Type} {load : Bytes → Res α} (fs : FS) (l : Loc) (d : Bytes) (s : α) (h : load d = .ok s) :
    Holds load (fs.set l (some (.file d))) l (some s) := ⟨d, by simp [FS.set], h⟩

theorem child_ne (n : Bytes) (root : Loc) : root ≠ n :: root := by
  intro h; have := congrArg List.length h; simp at this

theorem refines_setSignet (D : Dsd) (S : DirStore) (fs : FS) (m : AbsStore) (h : DirRefines D S fs m) (id : Bytes) (r : Bool)
    (x : Option Node) (v : Option Signet) (hx : Holds D.loadSignet (fs.set (storageID id r :: S.root) x) (storageID id r :: S.root) v) :
    DirRefines D S (fs.set (storageID id r :: S.root) x) (m.setSignet id r v) where
  root := by simp [FS.set, child_ne, h.root]
  signet := by
    intro i q hp
    simp only [AbsStore.setSignet]
    by_cases hi : i = id ∧ q = r
    · obtain ⟨rfl, rfl⟩ := hi; simpa using hx
    · rw [if_neg hi]
      refine (h.signet i q hp).frame x ?_
      intro e
      exact hi ((storageID_inj _ _ _ _).mp (List.cons.inj e).1)
  envelope := by
    intro n hp
    exact (h.envelope n hp).frame x (fun e => storageID_ne_envelope _ _ _ (List.cons.inj e).1.symm)

theorem refines_setEnvelope (D : Dsd) (S : DirStore) (fs : FS) (m : AbsStore) (h : DirRefines D S fs m) (name : Bytes)
    (x : Option Node) (v : Option Envelope)
    (hx : Holds D.loadEnvelope (fs.set ((name ++ b!".envelope") :: S.root) x) ((name ++ b!".envelope") :: S.root) v) :
    DirRefines D S (fs.set ((name ++ b!".envelope") :: S.root) x) (m.setEnvelope name v) where
  root := by simp [FS.set, child_ne, h.root]
  signet := by
    intro i q hp
    exact (h.signet i q hp).frame x (fun e => storageID_ne_envelope _ _ _ (List.cons.inj e).1)
  envelope := by
    intro n hp
    simp only [AbsStore.setEnvelope]
    by_cases hi : n = name
    · subst hi; simpa using hx
    · rw [if_neg hi]
      refine (h.envelope n hp).frame x ?_
      intro e
      exact hi ((envelopeName_inj _ _).mp (List.cons.inj e).1)

theorem write_entry {α : Type} {load : Bytes → Res α} (fs : FS) (root : Loc) (n : Bytes) (v : Option α) (w : WriteEnd) (data : Bytes)
    (hr : fs root = some .dir) (h : Holds load fs (n :: root) v) (hw : w = .done ∨ w = .refused) :
    fs.write w (n :: root) data =
      if w = .done then (fs.set (n :: root) (some (.file data)), .ok ()) else (fs, .error .env) := by
  have hnd : fs (n :: root) ≠ some .dir := by
    unfold Holds at h
    split at h
    · rw [h]; simp
    · obtain ⟨d, hd, _⟩ := h; rw [hd]; simp
  unfold FS.write
  simp only [List.tail_cons, hr, hnd, false_or, ne_eq, not_true, or_false]
  rw [if_neg (by simp)]
  rcases hw with rfl | rfl <;> rfl

theorem remove_entry {α : Type} {load : Bytes → Res α} (fs : FS) (l : Loc) (v : Option α) (h : Holds load fs l v) :
    fs.remove l = if v.isSome then (fs.set l none, .ok ()) else (fs, .error .notFound) := by
  unfold FS.remove
  cases v with
  | none => rw [show fs l = none from h]; rfl
  | some s => obtain ⟨d, hd, _⟩ := h; rw [hd]; rfl

theorem permitted_cases (s : Bytes) : (PermittedName s ∧ playsNice s = true) ∨ (¬ PermittedName s ∧ playsNice s = false) := by
  by_cases h : playsNice s = true
  · exact Or.inl ⟨(playsNice_iff s).mp h, h⟩
  · exact Or.inr ⟨fun hp => h ((playsNice_iff s).mpr hp), by simpa using h⟩

/-- One operation does to the directory what it does to the map. -/
theorem dirStep_refines (D : Dsd) (hD : D.Sound) (reg : List Suite) (S : DirStore) (hS : S.storageDir ≠ []) (fs : FS) (m : AbsStore)
    (h : DirRefines D S fs m) (op : DirOp) (hw : op.whole) :
    (dirStep S D reg fs op).2 = (absStep D reg m op).2 ∧ DirRefines D S (dirStep S D reg fs op).1 (absStep D reg m op).1 := by
  cases op with
  | storeSignet w s =>
    by_cases h0 : s.id = []
    · simp [dirStep, absStep, DirStore.storeSignet, writeSignetToFile, h0, DirOut.ofUnit, h]
    rcases permitted_cases s.id with ⟨hp, hn⟩ | ⟨hp, hn⟩
    · simp only [dirStep, absStep, DirStore.storeSignet, writeSignetToFile, h0, hn, hp, not_true, or_false, if_false, Bool.not_true,
        Bool.false_eq_true]
      cases hd : D.dumpSignet s.stored with
      | error e => exact ⟨rfl, h⟩
      | ok data =>
        simp only
        rw [file_signet S hS s.id s.isPublic hp, write_entry fs S.root _ _ w data h.root (h.signet s.id s.isPublic hp) hw]
        rcases hw with rfl | rfl
        · refine ⟨rfl, refines_setSignet D S fs m h s.id s.isPublic _ _ (Holds.here _ _ _ _ (hD.signet _ _ hd).2)⟩
        · exact ⟨rfl, h⟩
    · simp [dirStep, absStep, DirStore.storeSignet, writeSignetToFile, h0, hn, hp, DirOut.ofUnit, h]
  | deleteSignet id r =>
    rcases permitted_cases id with ⟨hp, hn⟩ | ⟨hp, hn⟩
    · simp only [dirStep, absStep, DirStore.deleteSignet, hn, hp, not_true, if_false, Bool.not_true, Bool.false_eq_true]
      rw [file_signet S hS id r hp, remove_entry fs _ _ (h.signet id r hp)]
      split
      · exact ⟨rfl, refines_setSignet D S fs m h id r _ _ (by simp [Holds, FS.set])⟩
      · exact ⟨rfl, h⟩
    · simp [dirStep, absStep, DirStore.deleteSignet, hn, hp, DirOut.ofUnit, h]
  | getSignet id r =>
    rcases permitted_cases id with ⟨hp, hn⟩ | ⟨hp, hn⟩
    · simp only [dirStep, absStep, DirStore.getSignet, hn, hp, not_true, if_false, Bool.not_true, Bool.false_eq_true]
      rw [file_signet S hS id r hp]
      have hh := h.signet id r hp
      cases hm : m.signet id r with
      | none =>
        rw [hm] at hh
        simp only [loadSignetFromFile, FS.read, show fs (storageID id r :: S.root) = none from hh]
        exact ⟨rfl, h⟩
      | some s =>
        rw [hm] at hh
        obtain ⟨d, hd, hl⟩ := hh
        simp only [loadSignetFromFile, FS.read, hd, hl]
        exact ⟨rfl, h⟩
    · simp [dirStep, absStep, DirStore.getSignet, hn, hp, DirOut.ofSignet, h]
  | storeEnvelope w s =>
    by_cases h0 : s.name = []
    · simp [dirStep, absStep, DirStore.storeEnvelope, writeEnvelopeToFile, h0, DirOut.ofUnit, h]
    rcases permitted_cases s.name with ⟨hp, hn⟩ | ⟨hp, hn⟩
    · simp only [dirStep, absStep, DirStore.storeEnvelope, writeEnvelopeToFile, h0, hn, hp, not_true, or_false, if_false, Bool.not_true,
        Bool.false_eq_true]
      cases hd : D.dumpEnvelope s.stored with
      | error e => exact ⟨rfl, h⟩
      | ok data =>
        simp only
        rw [file_envelope S hS s.name hp, write_entry fs S.root _ _ w data h.root (h.envelope s.name hp) hw]
        rcases hw with rfl | rfl
        · refine ⟨rfl, refines_setEnvelope D S fs m h s.name _ _ (Holds.here _ _ _ _ (hD.envelope _ _ hd).2)⟩
        · exact ⟨rfl, h⟩
    · simp [dirStep, absStep, DirStore.storeEnvelope, writeEnvelopeToFile, h0, hn, hp, DirOut.ofUnit, h]
  | deleteEnvelope n =>
    rcases permitted_cases n with ⟨hp, hn⟩ | ⟨hp, hn⟩
    · simp only [dirStep, absStep, DirStore.deleteEnvelope, hn, hp, not_true, if_false, Bool.not_true, Bool.false_eq_true]
      rw [file_envelope S hS n hp, remove_entry fs _ _ (h.envelope n hp)]
      split
      · exact ⟨rfl, refines_setEnvelope D S fs m h n _ _ (by simp [Holds, FS.set])⟩
      · exact ⟨rfl, h⟩
    · simp [dirStep, absStep, DirStore.deleteEnvelope, hn, hp, DirOut.ofUnit, h]
  | getEnvelope n =>
    rcases permitted_cases n with ⟨hp, hn⟩ | ⟨hp, hn⟩
    · simp only [dirStep, absStep, DirStore.getEnvelope, hn, hp, not_true, if_false, Bool.not_true, Bool.false_eq_true]
      rw [file_envelope S hS n hp]
      have hh := h.envelope n hp
      cases hm : m.envelope n with
      | none =>
        rw [hm] at hh
        simp only [loadEnvelopeFromFile, FS.read, show fs ((n ++ b!".envelope") :: S.root) = none from hh]
        exact ⟨rfl, h⟩
      | some s =>
        rw [hm] at hh
        obtain ⟨d, hd, hl⟩ := hh
        simp only [loadEnvelopeFromFile, FS.read, hd, hl]
        exact ⟨trivial, h⟩
    · simp [dirStep, absStep, DirStore.getEnvelope, hn, hp, DirOut.ofEnvelope, h]

theorem dirRun_refines (D : Dsd) (hD : D.Sound) (reg : List Suite) (S : DirStore) (hS : S.storageDir ≠ []) (ops : List DirOp)
    (hw : ∀ op ∈ ops, op.whole) : ∀ (fs : FS) (m : AbsStore), DirRefines D S fs m →
      (dirRun S D reg fs ops).2 = (absRun D reg m ops).2 ∧ DirRefines D S (dirRun S D reg fs ops).1 (absRun D reg m ops).1 := by
  induction ops with
  | nil => intro fs m h; exact ⟨rfl, h⟩
  | cons op ops ih =>
    intro fs m h
    obtain ⟨h1, h2⟩ := dirStep_refines D hD reg S hS fs m h op (hw op List.mem_cons_self)
    obtain ⟨h3, h4⟩ := ih (fun o ho => hw o (List.mem_cons_of_mem _ ho)) _ _ h2
    exact ⟨by simp only [dirRun, absRun, h1, h3], h4⟩

/-- The empty map. -/
def AbsStore.empty : AbsStore := ⟨fun _ _ => none, fun _ => none⟩

/-- C33. Whatever is done with a store in a directory without entries of the store (other files do not matter), its answers are those of a
map, as long as no write stops in the middle. -/
theorem dir_store_is_map (D : Dsd) (hD : D.Sound) (reg : List Suite) (cwd : Loc) (fs : FS) (dir : Bytes) (S : DirStore)
    (hS : newDirStore cwd fs dir = .ok S)
    (hempty : ∀ name suffix, suffix ∈ [b!".signet", b!".recipient", b!".envelope"] → fs ((name ++ suffix) :: resolve cwd dir) = none)
    (ops : List DirOp) (hw : ∀ op ∈ ops, op.whole) :
    (dirRun S D reg fs ops).2 = (absRun D reg .empty ops).2 := by
  obtain ⟨h0, hr, hd⟩ := newDirStore_spec cwd fs dir S hS
  refine (dirRun_refines D hD reg S h0 ops hw fs .empty ⟨hd, fun id r _ => ?_, fun n _ => ?_⟩).1
  · rw [hr]
    show fs (storageID id r :: resolve cwd dir) = none
    cases r
    · exact hempty id b!".signet" (by simp)
    · exact hempty id b!".recipient" (by simp)
  · rw [hr]; exact hempty n b!".envelope" (by simp)

/-! ## C31, directory store -/

/-- The files below a directory, each once (what the walk visits). -/
structure IsWalk (fs : FS) (root : Loc) (files : List Loc) : Prop where
  nodup : files.Nodup
  mem : ∀ l, l ∈ files ↔ (∃ rel, rel ≠ [] ∧ l = rel ++ root) ∧ ∃ d, fs l = some (.file d)

/-- All files below the directory with the suffix of a signet are entries of the store. -/
def NoStrangers (fs : FS) (root : Loc) : Prop :=
  ∀ rel d, rel ≠ [] → fs (rel ++ root) = some (.file d) → hasSuffix (rel.headD []) b!".signet" = true ∨ hasSuffix (rel.headD []) b!".recipient" = true →
    ∃ id r, PermittedName id ∧ rel = [storageID id r]

theorem dirStep_changes (D : Dsd) (reg : List Suite) (S : DirStore) (hS : S.storageDir ≠ []) (fs : FS) (op : DirOp) (l : Loc)
    (h : (dirStep S D reg fs op).1 l ≠ fs l) :
    PermittedName op.id ∧ (∃ id r, op.id = id ∧ l = storageID id r :: S.root) ∨ l = (op.id ++ b!".envelope") :: S.root := by
  rcases permitted_cases op.id with ⟨hp, hn⟩ | ⟨hp, hn⟩
  · cases op with
    | storeSignet w s =>
      simp only [dirStep, DirStore.storeSignet, writeSignetToFile] at h
      split at h
      · exact absurd rfl h
      · split at h
        · exact absurd rfl h
        · split at h
          · exact absurd rfl h
          · have := write_frame _ _ _ _ _ h
            rw [file_signet S hS s.id _ hp] at this
            exact Or.inl ⟨hp, _, _, rfl, this⟩
    | deleteSignet id r =>
      simp only [dirStep, DirStore.deleteSignet] at h
      split at h
      · exact absurd rfl h
      · have := remove_frame _ _ _ h
        rw [file_signet S hS id _ hp] at this
        exact Or.inl ⟨hp, _, _, rfl, this⟩
    | getSignet id r => exact absurd rfl h
    | storeEnvelope w s =>
      simp only [dirStep, DirStore.storeEnvelope, writeEnvelopeToFile] at h
      split at h
      · exact absurd rfl h
      · split at h
        · exact absurd rfl h
        · split at h
          · exact absurd rfl h
          · have := write_frame _ _ _ _ _ h
            rw [file_envelope S hS s.name hp] at this
            exact Or.inr this
    | deleteEnvelope n =>
      simp only [dirStep, DirStore.deleteEnvelope] at h
      split at h
      · exact absurd rfl h
      · have := remove_frame _ _ _ h
        rw [file_envelope S hS n hp] at this
        exact Or.inr this
    | getEnvelope n => exact absurd rfl h
  · rw [dir_store_refuses S D reg fs op hp] at h
    exact absurd rfl h

theorem suffix_append (a b : Bytes) : hasSuffix (a ++ b) b = true := by
  unfold hasSuffix
  rw [List.isSuffixOf_iff_suffix]
  exact List.suffix_append a b

theorem envelope_no_signet_suffix (n : Bytes) :
    hasSuffix (n ++ b!".envelope") b!".signet" = false ∧ hasSuffix (n ++ b!".envelope") b!".recipient" = false := by
  constructor <;>
  · apply Bool.eq_false_iff.mpr
    intro h
    unfold hasSuffix at h
    rw [List.isSuffixOf_iff_suffix] at h
    obtain ⟨t, ht⟩ := h
    have := congrArg List.reverse ht
    simp at this

theorem noStrangers_step (D : Dsd) (reg : List Suite) (S : DirStore) (hS : S.storageDir ≠ []) (fs : FS) (op : DirOp)
    (h : NoStrangers fs S.root) : NoStrangers (dirStep S D reg fs op).1 S.root := by
  intro rel d hrel hf hs
  by_cases hc : (dirStep S D reg fs op).1 (rel ++ S.root) = fs (rel ++ S.root)
  · exact h rel d hrel (hc ▸ hf) hs
  · rcases dirStep_changes D reg S hS fs op _ hc with ⟨hp, id, r, h1, h2⟩ | h2
    · subst h1
      refine ⟨op.id, r, hp, ?_⟩
      have : rel ++ S.root = [storageID op.id r] ++ S.root := h2
      exact List.append_cancel_right this
    · have h3 : rel ++ S.root = [op.id ++ b!".envelope"] ++ S.root := h2
      have := List.append_cancel_right h3
      subst this
      simp only [List.headD_cons, envelope_no_signet_suffix, Bool.false_eq_true, or_self] at hs

/-- Entries of the map are filed under their own ID and kind. -/
def AbsStore.Keyed (m : AbsStore) : Prop := ∀ id r s, m.signet id r = some s → PermittedName id ∧ s.id = id ∧ s.isPublic = r

theorem keyed_step (D : Dsd) (reg : List Suite) (m : AbsStore) (op : DirOp) (h : m.Keyed) : (absStep D reg m op).1.Keyed := by
  cases op with
  | storeSignet w s =>
    simp only [absStep]
    split
    · exact h
    · rename_i hc
      simp only [not_or, Decidable.not_not] at hc
      split
      · exact h
      · split
        · intro id r t ht
          simp only [AbsStore.setSignet] at ht
          split at ht
          · rename_i hi
            obtain ⟨rfl, rfl⟩ := hi
            cases ht
            exact ⟨hc.2, rfl, rfl⟩
          · exact h id r t ht
        · exact h
  | deleteSignet id r =>
    simp only [absStep]
    split
    · exact h
    · split
      · intro i q t ht
        simp only [AbsStore.setSignet] at ht
        split at ht
        · cases ht
        · exact h i q t ht
      · exact h
  | getSignet id r =>
    simp only [absStep]
    repeat' split
    all_goals exact h
  | storeEnvelope w e =>
    simp only [absStep]
    repeat' split
    all_goals exact h
  | deleteEnvelope n =>
    simp only [absStep]
    repeat' split
    all_goals exact h
  | getEnvelope n =>
    simp only [absStep]
    repeat' split
    all_goals exact h

/-- What a run of the loop returns: the entries of the visited files that are wanted, in order. -/
theorem dirSelectLoop_spec (D : Dsd) (S : DirStore) (fs : FS) (m : AbsStore) (h : DirRefines D S fs m) (hk : m.Keyed) (filter : UInt8)
    (schemes : List Bytes) (files : List Loc)
    (hf : ∀ l ∈ files, (hasSuffix (l.headD []) b!".signet" = true ∨ hasSuffix (l.headD []) b!".recipient" = true) →
      (∃ d, fs l = some (.file d)) ∧ ∃ id r, PermittedName id ∧ l = storageID id r :: S.root) :
    ∀ acc, ∃ l, dirSelectLoop D fs filter schemes acc files = .ok (acc ++ l) ∧
      (l.map (fun s => storageID s.id s.isPublic :: S.root)).Sublist files ∧
      ∀ s, s ∈ l ↔ (∃ id r, storageID id r :: S.root ∈ files ∧ m.signet id r = some s) ∧ Wanted filter schemes s := by
  induction files with
  | nil => intro acc; exact ⟨[], by simp [dirSelectLoop]⟩
  | cons f files ih =>
    intro acc
    have ih := ih (fun l hl => hf l (List.mem_cons_of_mem _ hl))
    by_cases hs : hasSuffix (f.headD []) b!".signet" = true ∨ hasSuffix (f.headD []) b!".recipient" = true
    · obtain ⟨⟨d, hd⟩, id, r, hp, rfl⟩ := hf f List.mem_cons_self hs
      have hh := h.signet id r hp
      cases hm : m.signet id r with
      | none => rw [hm] at hh; rw [show fs (storageID id r :: S.root) = none from hh] at hd; cases hd
      | some s =>
        rw [hm] at hh
        obtain ⟨d', hd', hl⟩ := hh
        obtain ⟨_, hid, hpub⟩ := hk id r s hm
        have hload : loadSignetFromFile D fs (storageID id r :: S.root) = .ok s := by
          simp only [loadSignetFromFile, FS.read, hd', hl]
        have hcond : (!hasSuffix ((storageID id r :: S.root).headD []) b!".signet" &&
            !hasSuffix ((storageID id r :: S.root).headD []) b!".recipient") = false := by
          rcases hs with hs | hs <;> simp only [hs] <;> simp
        have hmem : ∀ i q, storageID i q :: S.root ∈ (storageID id r :: S.root) :: files ↔
            (i = id ∧ q = r) ∨ storageID i q :: S.root ∈ files := by
          intro i q
          simp [storageID_inj]
        have hkeep : ∀ t, (∃ i q, storageID i q :: S.root ∈ (storageID id r :: S.root) :: files ∧ m.signet i q = some t) ↔
            t = s ∨ ∃ i q, storageID i q :: S.root ∈ files ∧ m.signet i q = some t := by
          intro t
          constructor
          · rintro ⟨i, q, h1, h2⟩
            rcases (hmem i q).mp h1 with ⟨rfl, rfl⟩ | h1
            · rw [hm] at h2; cases h2; exact Or.inl rfl
            · exact Or.inr ⟨i, q, h1, h2⟩
          · rintro (rfl | ⟨i, q, h1, h2⟩)
            · exact ⟨id, r, (hmem id r).mpr (Or.inl ⟨rfl, rfl⟩), hm⟩
            · exact ⟨i, q, (hmem i q).mpr (Or.inr h1), h2⟩
        unfold dirSelectLoop
        rw [hcond, hload]
        simp only [Bool.false_eq_true, if_false]
        have hpass := passes_iff filter schemes s
        cases h1 : passesSchemes schemes s
        · obtain ⟨l, e1, e2, e3⟩ := ih acc
          refine ⟨l, by simpa using e1, e2.cons _, fun t => ?_⟩
          rw [e3 t, hkeep t]
          rw [h1] at hpass
          constructor
          · rintro ⟨a, b⟩; exact ⟨Or.inr a, b⟩
          · rintro ⟨rfl | a, b⟩
            · simp [hpass] at b
            · exact ⟨a, b⟩
        · cases h2 : passesFilter filter s
          · obtain ⟨l, e1, e2, e3⟩ := ih acc
            refine ⟨l, by simpa using e1, e2.cons _, fun t => ?_⟩
            rw [e3 t, hkeep t]
            rw [h2] at hpass
            constructor
            · rintro ⟨a, b⟩; exact ⟨Or.inr a, b⟩
            · rintro ⟨rfl | a, b⟩
              · simp [hpass] at b
              · exact ⟨a, b⟩
          · obtain ⟨l, e1, e2, e3⟩ := ih (acc ++ [s])
            refine ⟨s :: l, by simpa using e1, ?_, fun t => ?_⟩
            · rw [List.map_cons, hid, hpub]
              exact e2.cons_cons _
            · rw [List.mem_cons, e3 t, hkeep t]
              rw [h1, h2] at hpass
              constructor
              · rintro (rfl | ⟨a, b⟩)
                · exact ⟨Or.inl rfl, hpass.mpr ⟨rfl, rfl⟩⟩
                · exact ⟨Or.inr a, b⟩
              · rintro ⟨rfl | a, b⟩
                · exact Or.inl rfl
                · exact Or.inr ⟨a, b⟩
    · obtain ⟨l, e1, e2, e3⟩ := ih acc
      have hcond : (!hasSuffix (f.headD []) b!".signet" && !hasSuffix (f.headD []) b!".recipient") = true := by
        simp only [not_or, Bool.not_eq_true] at hs
        simp only [hs]; rfl
      refine ⟨l, ?_, e2.cons _, fun t => ?_⟩
      · unfold dirSelectLoop; rw [hcond]; simpa using e1
      · rw [e3 t]
        have : ∀ i q, storageID i q :: S.root ∈ f :: files ↔ storageID i q :: S.root ∈ files := by
          intro i q
          rw [List.mem_cons]
          refine ⟨fun hx => hx.resolve_left ?_, Or.inr⟩
          rintro rfl
          apply hs
          cases q
          · exact Or.inl (suffix_append i _)
          · exact Or.inr (suffix_append i _)
        simp only [this]

/-- C31. After any use of a directory store that began in an empty directory: `SelectSignets` succeeds and returns exactly the stored
signets that are wanted, each once, and in whatever order the directory is walked. -/
theorem dir_select_complete (D : Dsd) (hD : D.Sound) (reg : List Suite) (cwd : Loc) (fs0 : FS) (dir : Bytes) (S : DirStore)
    (hS : newDirStore cwd fs0 dir = .ok S) (hempty : ∀ rel, rel ≠ [] → fs0 (rel ++ resolve cwd dir) = none)
    (ops : List DirOp) (hw : ∀ op ∈ ops, op.whole) (filter : UInt8) (schemes : List Bytes) (files : List Loc)
    (hf : IsWalk (dirRun S D reg fs0 ops).1 (resolve cwd dir) files) :
    ∃ l, DirStore.select D (dirRun S D reg fs0 ops).1 files filter schemes = .ok l ∧
      (l.map (fun s => (s.id, s.isPublic))).Nodup ∧
      ∀ s, s ∈ l ↔ (absRun D reg .empty ops).1.signet s.id s.isPublic = some s ∧ Wanted filter schemes s := by
  obtain ⟨h0, hr, hd⟩ := newDirStore_spec cwd fs0 dir S hS
  have hinit : DirRefines D S fs0 .empty := by
    refine ⟨hd, fun id r _ => ?_, fun n _ => ?_⟩
    · exact hr ▸ hempty [storageID id r] (by simp)
    · exact hr ▸ hempty [n ++ b!".envelope"] (by simp)
  have href := (dirRun_refines D hD reg S h0 ops hw fs0 .empty hinit).2
  have hns : ∀ (ops : List DirOp) (fs : FS), NoStrangers fs S.root → NoStrangers (dirRun S D reg fs ops).1 S.root := by
    intro ops
    induction ops with
    | nil => intro fs h; exact h
    | cons op ops ih => intro fs h; exact ih _ (noStrangers_step D reg S h0 fs op h)
  have hky : ∀ (ops : List DirOp) (m : AbsStore), m.Keyed → (absRun D reg m ops).1.Keyed := by
    intro ops
    induction ops with
    | nil => intro m h; exact h
    | cons op ops ih => intro m h; exact ih _ (keyed_step D reg m op h)
  have hns := hns ops fs0 (by intro rel d h1 h2 _; rw [hr, hempty rel h1] at h2; cases h2)
  have hky := hky ops .empty (by intro id r s h; cases h)
  generalize (dirRun S D reg fs0 ops).1 = fs at *
  generalize (absRun D reg AbsStore.empty ops).1 = m at *
  rw [← hr] at hf
  obtain ⟨l, e1, e2, e3⟩ := dirSelectLoop_spec D S fs m href hky filter schemes files (by
    intro l hl hs
    obtain ⟨⟨rel, h1, rfl⟩, d, h3⟩ := (hf.mem l).mp hl
    refine ⟨⟨d, h3⟩, ?_⟩
    have hh : (rel ++ S.root).headD [] = rel.headD [] := by cases rel with | nil => exact absurd rfl h1 | cons a b => rfl
    rw [hh] at hs
    obtain ⟨id, r, hp, rfl⟩ := hns rel d h1 h3 hs
    exact ⟨id, r, hp, rfl⟩) []
  refine ⟨l, e1, ?_, fun s => ?_⟩
  · have h1 := e2.nodup hf.nodup
    have h2 : l.map (fun s => storageID s.id s.isPublic :: S.root) =
        (l.map (fun s => (s.id, s.isPublic))).map (fun k => storageID k.1 k.2 :: S.root) := by simp
    rw [h2] at h1
    exact List.Pairwise.of_map _ (fun a b hab e => hab (by rw [e])) h1
  · rw [e3 s]
    constructor
    · rintro ⟨⟨id, r, h1, h2⟩, h3⟩
      obtain ⟨_, rfl, rfl⟩ := hky id r s h2
      exact ⟨h2, h3⟩
    · rintro ⟨h1, h2⟩
      refine ⟨⟨s.id, s.isPublic, ?_, h1⟩, h2⟩
      have hp := (hky _ _ _ h1).1
      have hh := href.signet s.id s.isPublic hp
      rw [h1] at hh
      obtain ⟨d, hd, _⟩ := hh
      exact (hf.mem _).mpr ⟨⟨[storageID s.id s.isPublic], by simp, rfl⟩, d, hd⟩

/-! ## C34 -/

/-- C34 is REFUTED: whatever signet is stored, if the process stops after the file has been opened for storing another version, the entry
is lost: getting it fails (given that no data is no signet). -/
theorem crash_loses_signet (D : Dsd) (hD : ∀ s, D.loadSignet [] ≠ .ok s) (S : DirStore) (hS : S.storageDir ≠ []) (fs : FS) (m : AbsStore)
    (h : DirRefines D S fs m) (old new : Signet) (hold : m.signet new.id new.isPublic = some old) (hid : PermittedName new.id)
    (hne : new.id ≠ []) (hdump : ∃ data, D.dumpSignet new.stored = .ok data) :
    S.getSignet D fs new.id new.isPublic = .ok old ∧
    ∃ e, S.getSignet D (S.storeSignet D fs (.stopped 0) new).1 new.id new.isPublic = .error e := by
  have hn := (playsNice_iff _).mpr hid
  have hh := h.signet new.id new.isPublic hid
  rw [hold] at hh
  obtain ⟨d, hd, hl⟩ := hh
  obtain ⟨data, hdump⟩ := hdump
  simp only [DirStore.getSignet, DirStore.storeSignet, writeSignetToFile, hn, hne, hdump, file_signet S hS _ _ hid, Bool.not_true,
    Bool.false_eq_true, if_false]
  constructor
  · simp only [loadSignetFromFile, FS.read, hd, hl]
  · have hw : (fs.write (.stopped 0) (storageID new.id new.isPublic :: S.root) data).1 (storageID new.id new.isPublic :: S.root) =
        some (.file []) := by
      unfold FS.write
      rw [if_neg (by simp [hd, h.root])]
      simp [FS.set]
    simp only [loadSignetFromFile, FS.read, hw]
    cases hx : D.loadSignet [] with
    | error e => exact ⟨e, rfl⟩
    | ok s => exact absurd hx (hD s)

/-- The entry of an operation. -/
inductive Entry where
  | signet (id : Bytes) (recipient : Bool)
  | envelope (name : Bytes)
  deriving DecidableEq

def DirOp.entry : DirOp → Entry
  | .storeSignet _ s => .signet s.id s.isPublic
  | .deleteSignet id r => .signet id r
  | .getSignet id r => .signet id r
  | .storeEnvelope _ e => .envelope e.name
  | .deleteEnvelope n => .envelope n
  | .getEnvelope n => .envelope n

/-- C34, what holds: however an operation ends, a later operation on another entry behaves as if it had not been executed. -/
theorem crash_damages_one_entry_partial (D : Dsd) (reg : List Suite) (cwd : Loc) (fs0 : FS) (dir : Bytes) (S : DirStore)
    (hS : newDirStore cwd fs0 dir = .ok S) (fs : FS) (op other : DirOp) (h : other.entry ≠ op.entry) :
    (dirStep S D reg (dirStep S D reg fs op).1 other).2 = (dirStep S D reg fs other).2 := by
  obtain ⟨h1, _⟩ := dir_store_confined cwd fs0 dir S hS D reg fs op
  have hname : other.name ≠ op.name := by
    intro e
    apply h
    cases op <;> cases other <;> simp only [DirOp.name, DirOp.entry] at e ⊢ <;>
      first
        | exact absurd e (storageID_ne_envelope _ _ _)
        | exact absurd e.symm (storageID_ne_envelope _ _ _)
        | (obtain ⟨e1, e2⟩ := (storageID_inj _ _ _ _).mp e; rw [e1, e2])
        | (rw [(envelopeName_inj _ _).mp e])
  refine (dir_store_confined cwd fs0 dir S hS D reg fs other).2 _ ?_ ?_
  · by_cases hc : (dirStep S D reg fs op).1 (other.name :: resolve cwd dir) = fs (other.name :: resolve cwd dir)
    · exact hc
    · exact absurd (List.cons.inj (h1 _ hc)).1 hname
  · by_cases hc : (dirStep S D reg fs op).1 (resolve cwd dir) = fs (resolve cwd dir)
    · exact hc
    · exact absurd (h1 _ hc) (child_ne _ _)

/-- Writing that gets through before the crash, or does not begin, leaves the new or the old signet; deleting is atomic. -/
theorem crash_outside_write_partial (D : Dsd) (S : DirStore) (fs : FS) (s : Signet) (data : Bytes) (n : Nat)
    (hd : D.dumpSignet s.stored = .ok data) (hn : data.length ≤ n) :
    (S.storeSignet D fs (.stopped n) s).1 = (S.storeSignet D fs .done s).1 ∧ (S.storeSignet D fs .refused s).1 = fs := by
  have ht : data.take n = data := List.take_of_length_le hn
  simp only [DirStore.storeSignet, writeSignetToFile, hd]
  constructor
  · split
    · rfl
    · split
      · rfl
      · unfold FS.write; split <;> simp [ht]
  · split
    · rfl
    · split
      · rfl
      · unfold FS.write; split <;> rfl

/-! ## Findings about what is stored -/

/-- A signet that has been generated but whose key has not been stored in the signet (`StoreKey`) loses its key in a directory store: what
is read back has no key, and loading it fails. (The in-memory store keeps the key, the keyring store calls `StoreKey`.) -/
theorem dir_store_loses_key (P : Prims) (K : KeyLib) (hP : P.UsesCodec K) (D : Dsd) (hD : D.Sound) (reg : List Suite) (S : DirStore)
    (hS : S.storageDir ≠ []) (fs : FS) (m : AbsStore) (h : DirRefines D S fs m) (s : Signet) (hk : s.key = []) (hp : PermittedName s.id)
    (hst : (dirStep S D reg fs (.storeSignet .done s)).2 = .done) :
    ∃ t, S.getSignet D (S.storeSignet D fs .done s).1 s.id s.isPublic = .ok t ∧ t.key = [] ∧ t.loadedPub = none ∧ t.loadedPriv = none ∧
      ∃ e, t.load P = .error e := by
  have h1 := dirStep_refines D hD reg S hS fs m h (.storeSignet .done s) (Or.inl rfl)
  have h2 := dirStep_refines D hD reg S hS _ _ h1.2 (.getSignet s.id s.isPublic) trivial
  rw [hst] at h1
  have hm : (absStep D reg m (.storeSignet .done s)).1 = m.setSignet s.id s.isPublic (some s.stored) := by
    have h1 := h1.1
    simp only [absStep] at h1 ⊢
    split at h1
    · cases h1
    · rename_i hc
      rw [if_neg hc]
      split at h1
      · cases h1
      · rename_i hd; simp only [if_true]
  rw [hm] at h2
  have h3 := h2.1
  simp only [dirStep, absStep, AbsStore.setSignet, hp, not_true, if_false, and_self, if_true] at h3
  refine ⟨s.stored, ?_, hk, rfl, rfl, ?_⟩
  · cases hg : S.getSignet D (S.storeSignet D fs .done s).1 s.id s.isPublic with
    | ok t => rw [hg] at h3; simp only [DirOut.ofSignet, DirOut.signet.injEq] at h3; rw [h3]
    | error e => rw [hg] at h3; simp [DirOut.ofSignet] at h3
  · unfold Signet.load
    simp only [Signet.stored, hk]
    cases s.protection with
    | true => exact ⟨_, rfl⟩
    | false =>
      cases ht : getTool s.scheme with
      | none => exact ⟨_, rfl⟩
      | some t =>
        cases hu : t.purpose.usesSignets with
        | false => exact ⟨.unsupported, by simp [hu]⟩
        | true =>
          have : ∃ e, P.loadKey t.name [] s.isPublic = .error e := by
            rw [hP.load]
            cases hx : toolLoadKey K t.name [] s.isPublic with
            | error e => exact ⟨e, rfl⟩
            | ok x => obtain ⟨r, hr⟩ := key_version_checked K t.name [] s.isPublic x hx; cases hr
          obtain ⟨e, he⟩ := this
          exact ⟨e, by simp [hu, he]⟩

/-- A directory store writes envelopes as they are, with the keys and passwords of inline signets (unlike `Envelope.ToBytes`, which removes
them): they are there when the envelope is read back. C27 is REFUTED for this serialization. -/
theorem dir_envelope_keeps_secrets (D : Dsd) (hD : D.Sound) (reg : List Suite) (S : DirStore) (hS : S.storageDir ≠ []) (fs : FS)
    (m : AbsStore) (h : DirRefines D S fs m) (e e' : Envelope) (hst : (dirStep S D reg fs (.storeEnvelope .done e)).2 = .done)
    (hg : S.getEnvelope D reg (dirStep S D reg fs (.storeEnvelope .done e)).1 e.name = .ok e') :
    e'.secrets.map (·.key) = e.secrets.map (·.key) ∧ e'.senders.map (·.key) = e.senders.map (·.key) := by
  have h1 := dirStep_refines D hD reg S hS fs m h (.storeEnvelope .done e) (Or.inl rfl)
  have h2 := (dirStep_refines D hD reg S hS _ _ h1.2 (.getEnvelope e.name) trivial).1
  have h1 := h1.1
  rw [hst] at h1
  simp only [absStep] at h1
  split at h1
  · cases h1
  · rename_i hc
    split at h1
    · cases h1
    · rename_i data hd
      have hp : PermittedName e.name := by simp only [not_or, Decidable.not_not] at hc; exact hc.2
      have hn : e.name ≠ [] := by simp only [not_or] at hc; exact hc.1
      simp only [dirStep, absStep, hn, if_false, hd, if_true, AbsStore.setEnvelope, hp, not_true, or_self] at h2
      simp only [dirStep] at hg
      rw [hg] at h2
      cases hl : loadSuite reg e.stored with
      | error x => rw [hl] at h2; cases h2
      | ok x =>
        rw [hl] at h2
        simp only [DirOut.ofEnvelope, Except.map, DirOut.envelope.injEq] at h2
        subst h2
        unfold loadSuite at hl
        have hs : e.stored.suite = none := rfl
        rw [hs] at hl
        simp only at hl
        split at hl
        · cases hl
        · cases hl
          simp only [Envelope.stored, List.map_map]
          exact ⟨rfl, rfl⟩

/-! ## C57: keyring store -/

/-- What the keyring store is used for. -/
inductive RingOp where
  | storeSignet (refused : Bool) (s : Signet)
  | deleteSignet (id : Bytes) (recipient : Bool)
  | getSignet (id : Bytes) (recipient : Bool)
  | storeEnvelope (refused : Bool) (e : Envelope)
  | deleteEnvelope (name : Bytes)
  | getEnvelope (name : Bytes)

def ringStep (P : Prims) (D : Dsd) (k : Keyring) : RingOp → Keyring × DirOut
  | .storeSignet f s => ((k.storeSignet P D f s).1, .ofUnit (k.storeSignet P D f s).2)
  | .deleteSignet id r => ((k.deleteSignet id r).1, .ofUnit (k.deleteSignet id r).2)
  | .getSignet id r => (k, .ofSignet (k.getSignet P D id r))
  | .storeEnvelope f e => ((k.storeEnvelope D f e).1, .ofUnit (k.storeEnvelope D f e).2)
  | .deleteEnvelope n => ((k.deleteEnvelope n).1, .ofUnit (k.deleteEnvelope n).2)
  | .getEnvelope n => (k, .ofEnvelope (k.getEnvelope D n))

/-- The specification: maps of the serialized signets (with their stored keys) and cleaned envelopes. Getting a signet also loads its
key. -/
def absRingStep (P : Prims) (D : Dsd) (m : AbsStore) : RingOp → AbsStore × DirOut
  | .storeSignet f s =>
    match s.store P with
    | .error e => (m, .failed e)
    | .ok s' =>
      match D.textSignet s'.stored with
      | .error e => (m, .failed e)
      | .ok _ => if f then (m, .failed .env) else (m.setSignet s.id s.isPublic (some s'.stored), .done)
  | .deleteSignet id r =>
    if (m.signet id r).isSome then (m.setSignet id r none, .done) else (m, .failed .notFound)
  | .getSignet id r =>
    match m.signet id r with
    | some s => (m, .ofSignet (s.load P))
    | none => (m, .failed .signetNotFound)
  | .storeEnvelope f e =>
    match D.textEnvelope e.clean.stored with
    | .error e => (m, .failed e)
    | .ok _ => if f then (m, .failed .env) else (m.setEnvelope e.name (some e.clean.stored), .done)
  | .deleteEnvelope n =>
    if (m.envelope n).isSome then (m.setEnvelope n none, .done) else (m, .failed .notFound)
  | .getEnvelope n =>
    match m.envelope n with
    | none => (m, .failed .notFound)
    | some e => (m, .envelope e)

def ringRun (P : Prims) (D : Dsd) (k : Keyring) : List RingOp → List DirOut
  | [] => []
  | op :: ops => (ringStep P D k op).2 :: ringRun P D (ringStep P D k op).1 ops

def absRingRun (P : Prims) (D : Dsd) (m : AbsStore) : List RingOp → List DirOut
  | [] => []
  | op :: ops => (absRingStep P D m op).2 :: absRingRun P D (absRingStep P D m op).1 ops

/-- A keyring entry holds a value. -/
def RingHolds {α : Type} (load : Bytes → Res α) (x : Option Bytes) (v : Option α) : Prop :=
  match v with
  | none => x = none
  | some s => ∃ d, d ≠ [] ∧ x = some (b58Encode d) ∧ load d = .ok s

structure RingRefines (D : Dsd) (k : Keyring) (m : AbsStore) : Prop where
  signet : ∀ id r, RingHolds D.loadSignet (k (storageID id r)) (m.signet id r)
  envelope : ∀ n, RingHolds D.loadEnvelope (k (n ++ b!".envelope")) (m.envelope n)

theorem ring_setSignet (D : Dsd) (k : Keyring) (m : AbsStore) (h : RingRefines D k m) (id : Bytes) (r : Bool) (x : Option Bytes)
    (v : Option Signet) (hx : RingHolds D.loadSignet x v) :
    RingRefines D (fun y => if y = storageID id r then x else k y) (m.setSignet id r v) where
  signet := by
    intro i q
    simp only [AbsStore.setSignet, storageID_inj]
    split
    · exact hx
    · exact h.signet i q
  envelope := by
    intro n
    rw [if_neg (fun e => storageID_ne_envelope _ _ _ e.symm)]
    exact h.envelope n

theorem ring_setEnvelope (D : Dsd) (k : Keyring) (m : AbsStore) (h : RingRefines D k m) (name : Bytes) (x : Option Bytes)
    (v : Option Envelope) (hx : RingHolds D.loadEnvelope x v) :
    RingRefines D (fun y => if y = name ++ b!".envelope" then x else k y) (m.setEnvelope name v) where
  signet := by
    intro i q
    rw [if_neg (storageID_ne_envelope _ _ _)]
    exact h.signet i q
  envelope := by
    intro n
    simp only [AbsStore.setEnvelope, envelopeName_inj]
    split
    · exact hx
    · exact h.envelope n

theorem ringStep_refines (P : Prims) (D : Dsd) (hD : D.Sound) (k : Keyring) (m : AbsStore) (h : RingRefines D k m) (op : RingOp) :
    (ringStep P D k op).2 = (absRingStep P D m op).2 ∧ RingRefines D (ringStep P D k op).1 (absRingStep P D m op).1 := by
  cases op with
  | storeSignet f s =>
    simp only [ringStep, absRingStep, Keyring.storeSignet, Signet.toBase58, Signet.toBytes]
    cases hs : s.store P with
    | error e => exact ⟨rfl, h⟩
    | ok s' =>
      simp only [ok_bind]
      cases hd : D.textSignet s'.stored with
      | error e => exact ⟨rfl, h⟩
      | ok data =>
        simp only [ok_bind]
        cases f with
        | true => exact ⟨rfl, h⟩
        | false =>
          obtain ⟨h1, h2⟩ := hD.textSignet _ _ hd
          exact ⟨rfl, ring_setSignet D k m h s.id s.isPublic _ _ ⟨data, h1, rfl, h2⟩⟩
  | deleteSignet id r =>
    simp only [ringStep, absRingStep, Keyring.deleteSignet]
    have hh := h.signet id r
    cases hm : m.signet id r with
    | none => rw [hm] at hh; rw [show k (storageID id r) = none from hh]; exact ⟨rfl, h⟩
    | some s =>
      rw [hm] at hh
      obtain ⟨d, _, hd, _⟩ := hh
      rw [hd]
      exact ⟨rfl, ring_setSignet D k m h id r none none rfl⟩
  | getSignet id r =>
    simp only [ringStep, absRingStep, Keyring.getSignet]
    have hh := h.signet id r
    cases hm : m.signet id r with
    | none => rw [hm] at hh; rw [show k (storageID id r) = none from hh]; exact ⟨rfl, h⟩
    | some s =>
      rw [hm] at hh
      obtain ⟨d, h1, hd, hl⟩ := hh
      simp only [hd, signetFromBase58, signetFromBytes, b58Decode_encode h1, ok_bind, hl]
      exact ⟨trivial, h⟩
  | storeEnvelope f e =>
    simp only [ringStep, absRingStep, Keyring.storeEnvelope, Envelope.toBytes]
    cases hd : D.textEnvelope e.clean.stored with
    | error e => exact ⟨rfl, h⟩
    | ok data =>
      cases f with
      | true => exact ⟨rfl, h⟩
      | false =>
        obtain ⟨h1, h2⟩ := hD.textEnvelope _ _ hd
        exact ⟨rfl, ring_setEnvelope D k m h e.name _ _ ⟨data, h1, rfl, h2⟩⟩
  | deleteEnvelope n =>
    simp only [ringStep, absRingStep, Keyring.deleteEnvelope]
    have hh := h.envelope n
    cases hm : m.envelope n with
    | none => rw [hm] at hh; rw [show k (n ++ b!".envelope") = none from hh]; exact ⟨rfl, h⟩
    | some s =>
      rw [hm] at hh
      obtain ⟨d, _, hd, _⟩ := hh
      rw [hd]
      exact ⟨rfl, ring_setEnvelope D k m h n none none rfl⟩
  | getEnvelope n =>
    simp only [ringStep, absRingStep, Keyring.getEnvelope]
    have hh := h.envelope n
    cases hm : m.envelope n with
    | none => rw [hm] at hh; rw [show k (n ++ b!".envelope") = none from hh]; exact ⟨rfl, h⟩
    | some s =>
      rw [hm] at hh
      obtain ⟨d, h1, hd, hl⟩ := hh
      simp only [hd, b58Decode_encode h1, ok_bind, hl]
      exact ⟨rfl, h⟩

/-- C57. Whatever is done with a keyring store that has no entries yet (its own self check entry does not matter), its answers are those of
a map; getting a signet loads its key. -/
theorem keyring_store_is_map (P : Prims) (D : Dsd) (hD : D.Sound) (selfcheck : Bytes) (ops : List RingOp) :
    ringRun P D (fun x => if x = b!"_selfcheck" then some selfcheck else none) ops = absRingRun P D .empty ops := by
  have key : ∀ (k : Keyring) (m : AbsStore), RingRefines D k m → ringRun P D k ops = absRingRun P D m ops := by
    induction ops with
    | nil => intros; rfl
    | cons op ops ih =>
      intro k m h
      obtain ⟨h1, h2⟩ := ringStep_refines P D hD k m h op
      simp only [ringRun, absRingRun, h1, ih _ _ h2]
  refine key _ _ ⟨fun id r => ?_, fun n => ?_⟩
  · have : storageID id r ≠ b!"_selfcheck" := by
      intro e; have := congrArg List.reverse e; cases r <;> simp [storageID] at this
    simp [RingHolds, AbsStore.empty, this]
  · have : n ++ b!".envelope" ≠ b!"_selfcheck" := by
      intro e; have := congrArg List.reverse e; simp at this
    simp [RingHolds, AbsStore.empty, this]

/-- C57, what a caller might not expect (REFUTED for secrets): a key or password that was stored in the keyring can never be read back. -/
theorem keyring_secret_lost (P : Prims) (D : Dsd) (hD : D.Sound) (k : Keyring) (m : AbsStore) (h : RingRefines D k m) (s : Signet)
    (hs : s.scheme = schemeKey ∨ s.scheme = schemePassword) (hk : s.key ≠ []) (hl : s.loadedPub = none)
    (hst : (k.storeSignet P D false s).2 = .ok ()) :
    ∃ e, (k.storeSignet P D false s).1.getSignet P D s.id s.isPublic = .error e := by
  have h1 := ringStep_refines P D hD k m h (.storeSignet false s)
  have h2 := (ringStep_refines P D hD _ _ h1.2 (.getSignet s.id s.isPublic)).1
  have hstore : s.store P = .ok s := by unfold Signet.store; rw [if_pos (by simpa using hk)]
  have hload : ∃ e, s.stored.load P = .error e := by
    have ht : getTool s.scheme = none := by
      rcases hs with hs | hs <;> rw [hs]
      · exact special_no_tool.1
      · exact special_no_tool.2
    unfold Signet.load
    simp only [Signet.stored, ht]
    cases s.protection
    · exact ⟨_, rfl⟩
    · exact ⟨_, rfl⟩
  obtain ⟨e, he⟩ := hload
  have hm : (absRingStep P D m (.storeSignet false s)).1 = m.setSignet s.id s.isPublic (some s.stored) := by
    have h1 := h1.1
    simp only [ringStep, hst, absRingStep, hstore] at h1 ⊢
    cases hd : D.textSignet s.stored with
    | error e => rw [hd] at h1; cases h1
    | ok data => simp
  rw [hm] at h2
  simp only [ringStep, absRingStep, AbsStore.setSignet, and_self, if_true, he] at h2
  cases hg : (k.storeSignet P D false s).1.getSignet P D s.id s.isPublic with
  | error e => exact ⟨e, rfl⟩
  | ok t => rw [hg] at h2; cases h2

/-! ## Examples -/

/-- The root directory is empty, except for one file that does not belong to the store. -/
def toyFS : FS := fun l => if l = [b!"keys"] then some .dir else if l = [] then some .dir else if l = [b!"readme", b!"keys"] then some (.file [1]) else none

def toyDirStore : DirStore := { cwd := [], storageDir := b!"keys" }

def toyKept : Signet := { version := 1, id := b!"a", scheme := b!"Ed25519", key := [1, 2], info := some { name := b!"A" } }

/-- A signet is stored in a keyring and deleted. -/
theorem keyring_example :
    ringRun toyCodecPrims toyDsd (fun _ => none)
      [.storeSignet false { toySigner with key := [] }, .storeSignet true toySigner, .deleteSignet toySigner.id true,
       .deleteSignet toySigner.id false, .getSignet toySigner.id false] =
      [.done, .failed .env, .failed .notFound, .done, .failed .signetNotFound] := by
  decide +kernel

/-- A signet is stored, replaced, read, and deleted; an ID with a slash is refused; a crash damages the entry. -/
theorem dir_store_example :
    newDirStore [] toyFS b!"./keys/" = .ok toyDirStore ∧
    (dirRun toyDirStore toyDsd [] toyFS
      [.getSignet b!"a" false, .storeSignet .done toyKept, .getSignet b!"a" false, .storeSignet .done { toyKept with key := [1, 3] },
       .getSignet b!"a" false, .getSignet b!"a" true, .storeSignet .refused toyKept, .getSignet b!"a" false,
       .storeSignet .done { toyKept with id := b!"../a" }, .deleteSignet b!"a" false, .deleteSignet b!"a" false]).2 =
      [.failed .signetNotFound, .done, .signet toyKept, .done, .signet { toyKept with key := [1, 3] }, .failed .signetNotFound,
       .failed .env, .signet { toyKept with key := [1, 3] }, .failed .malformed, .done, .failed .notFound] ∧
    (dirRun toyDirStore toyDsd [] toyFS [.storeSignet .done toyKept, .storeSignet (.stopped 0) toyKept, .getSignet b!"a" false]).2 =
      [.done, .failed .env, .failed .short] ∧
    DirStore.select toyDsd (dirRun toyDirStore toyDsd [] toyFS [.storeSignet .done toyKept, .storeSignet .done { toyKept with isPublic := true }]).1
      [[b!"a.recipient", b!"keys"], [b!"a.signet", b!"keys"], [b!"readme", b!"keys"]] 1 [b!"Ed25519"] = .ok [toyKept] := by
  decide +kernel

end Jess
