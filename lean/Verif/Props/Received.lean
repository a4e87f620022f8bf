import Verif.Props.WirePanic
import Verif.Props.DialogPanicExamples
import Verif.Props.GenerateUse
import Verif.Props.Wire

/-!
# C85: whatever bytes arrive, reading and opening them does not crash
-/

namespace Jess

/-- The map holds only what is serialized of a signet. -/
def AbsStore.Plain (m : AbsStore) : Prop := ∀ id r s, m.signet id r = some s → s.loadedPub = none

theorem plain_step (D : Dsd) (reg : List Suite) (m : AbsStore) (op : DirOp) (h : m.Plain) : (absStep D reg m op).1.Plain := by
  cases op with
  | storeSignet w s =>
    simp only [absStep]
    split
    · exact h
    · split
      · exact h
      · split
        · intro id r t ht
          simp only [AbsStore.setSignet] at ht
          split at ht
          · cases ht; rfl
          · exact h id r t ht
        · exact h
  | deleteSignet id r =>
    simp only [absStep]
    split
    · exact h
    · split
      · intro i q t ht
        simp only [AbsStore.setSignet] at ht
        split at ht
        · cases ht
        · exact h i q t ht
      · exact h
  | getSignet id r =>
    simp only [absStep]
    repeat' split
    all_goals exact h
  | storeEnvelope w e =>
    simp only [absStep]
    repeat' split
    all_goals exact h
  | deleteEnvelope n =>
    simp only [absStep]
    repeat' split
    all_goals exact h
  | getEnvelope n =>
    simp only [absStep]
    repeat' split
    all_goals exact h

/-- A directory that holds entries of the store only under their own names, as `NewDirTrustStore` finds it when it was only used through the
store so far (specification): the file of an ID and kind holds a signet of this kind, if it can be read at all. -/
def OwnEntries (D : Dsd) (S : DirStore) (fs : FS) : Prop :=
  ∀ id s, S.getSignet D fs id false = .ok s → s.isPublic = false ∧ s.loadedPub = none

/-- After any use of a directory store that began in a directory without entries, asked for a private signet the store does not return
a public one. -/
theorem dir_own_entries (D : Dsd) (hD : D.Sound) (reg : List Suite) (cwd : Loc) (fs : FS) (dir : Bytes) (S : DirStore)
    (hS : newDirStore cwd fs dir = .ok S)
    (hempty : ∀ name suffix, suffix ∈ [b!".signet", b!".recipient", b!".envelope"] → fs ((name ++ suffix) :: resolve cwd dir) = none)
    (ops : List DirOp) (hw : ∀ op ∈ ops, op.whole) : OwnEntries D S (dirRun S D reg fs ops).1 := by
  obtain ⟨h0, hr, hd⟩ := newDirStore_spec cwd fs dir S hS
  have hinit : DirRefines D S fs .empty := by
    refine ⟨hd, fun id r _ => ?_, fun n _ => ?_⟩
    · rw [hr]
      show fs (storageID id r :: resolve cwd dir) = none
      cases r
      · exact hempty id b!".signet" (by simp)
      · exact hempty id b!".recipient" (by simp)
    · rw [hr]; exact hempty n b!".envelope" (by simp)
  have href := (dirRun_refines D hD reg S h0 ops hw fs .empty hinit).2
  have hky : ∀ (ops : List DirOp) (m : AbsStore), m.Keyed → m.Plain → (absRun D reg m ops).1.Keyed ∧ (absRun D reg m ops).1.Plain := by
    intro ops
    induction ops with
    | nil => intro m h h'; exact ⟨h, h'⟩
    | cons op ops ih => intro m h h'; exact ih _ (keyed_step D reg m op h) (plain_step D reg m op h')
  obtain ⟨hk, hp⟩ := hky ops .empty (by intro id r s h; cases h) (by intro id r s h; cases h)
  intro id s hs
  have hstep := (dirStep_refines D hD reg S h0 _ _ href (.getSignet id false) trivial).1
  simp only [dirStep, hs, absStep] at hstep
  split at hstep
  · cases hstep
  · split at hstep
    · rename_i t ht
      cases hstep
      exact ⟨(hk id false s ht).2.2, hp id false s ht⟩
    · cases hstep

theorem dir_world_sound {D : Dsd} (hD : D.NoPanic) {S : DirStore} {fs : FS} (ho : OwnEntries D S fs) {getPw : Option (Signet → Res Signet)}
    {createPw : Option (Signet → Int → Res Signet)} (hg : ∀ cb, getPw = some cb → ∀ s, (cb s).noPanic)
    (hc : ∀ cb, createPw = some cb → ∀ s l, (cb s l).noPanic) :
    World.Sound { store := some (S.getSignet D fs), getPw := getPw, createPw := createPw } where
  store := by
    intro get h id r
    cases h
    unfold DirStore.getSignet
    split
    · exact np_err (by decide)
    · exact np_loadSignetFile hD fs _
  priv := by
    intro get h id n hn
    cases h
    obtain ⟨a, b⟩ := ho id n hn
    exact ⟨a, by rw [b]; intro h; cases h⟩
  getPw := hg
  createPw := hc

/-- C85. A program that keeps its keys in a directory trust store (used only through the store, from an empty directory on, `ops` being
everything done with it so far) and receives `bytes`: parsing them does not crash, and if they are a letter, then neither opening nor verifying
it does. Nor does setting up a wire session from it, opening it with that session, nor, once it was accepted, opening any other letter with it
after whatever was sent and received (`ls`). The password callbacks and the dependencies do not crash on their own. -/
theorem received_bytes_do_not_crash (P : Prims) (hP : P.NoPanic) (cfg : Config) (D : Dsd) (hD : D.Sound) (hD' : D.NoPanic) (cwd : Loc) (fs : FS)
    (dir : Bytes) (S : DirStore) (hS : newDirStore cwd fs dir = .ok S)
    (hempty : ∀ name suffix, suffix ∈ [b!".signet", b!".recipient", b!".envelope"] → fs ((name ++ suffix) :: resolve cwd dir) = none)
    (ops : List DirOp) (hw : ∀ op ∈ ops, op.whole) (w : World)
    (hstore : w.store = some (S.getSignet D (dirRun S D suiteRegistry fs ops).1))
    (hg : ∀ cb, w.getPw = some cb → ∀ s, (cb s).noPanic) (hc : ∀ cb, w.createPw = some cb → ∀ s l, (cb s l).noPanic) (bytes : Bytes) :
    (letterFromWire bytes).noPanic ∧ ∀ l rest, letterFromWire bytes = .ok (l, rest) →
      (∀ reqs, (l.open P cfg w suiteRegistry reqs).noPanic ∧ (l.verify P cfg w suiteRegistry reqs).noPanic) ∧
      (l.wireCorrespondence P cfg w suiteRegistry).noPanic ∧
      ∀ s x, l.wireCorrespondence P cfg w suiteRegistry = .ok (s, x) → ∀ server : Bool,
        (s.wireOpen P cfg s.initState { server := server } l).2.noPanic ∧
        ∀ p data, s.wireOpen P cfg s.initState { server := server } l = (p, .ok data) →
          ∀ ls q, History P cfg s p ls q → ∀ l', (s.wireOpen P cfg q.1 q.2 l').2.noPanic := by
  refine ⟨wire_parse_no_panic bytes, fun l rest hl => ?_⟩
  have hs : w.Sound := by
    have := dir_world_sound hD' (dir_own_entries D hD suiteRegistry cwd fs dir S hS hempty ops hw) hg hc
    rw [← hstore] at this
    exact this
  refine ⟨fun reqs => letters_do_not_panic_partial P hP cfg _ hs reqs l, ?_, ?_⟩
  · unfold Letter.wireCorrespondence wireCorrespondence
    refine np_bind (np_envelope _ _ _) fun e _ => np_bind (np_correspondence hP _ hs.calm _ _) fun s _ => np_bind ?_ fun _ _ => np_ok _
    unfold initWire
    refine np_bind (np_compliance _ _) fun _ _ => ?_
    split
    · exact np_err (by decide)
    · split
      · exact np_err (by decide)
      · exact np_ok _
  · exact (wire_open_no_panic_partial P hP cfg w).2 hs l

/-- What was done with the store of the example: the private signet of Bob is in it. -/
def toyReceiving : List DirOp :=
  [.storeSignet .done { toyBobPriv with info := some { name := b!"Bob" } }, .storeSignet .done toyKept, .deleteSignet b!"a" false]

/-- Bob's program. -/
def receivingWorld : World := { store := some (toyDirStore.getSignet (refDsd []) (dirRun toyDirStore (refDsd []) suiteRegistry toyFS toyReceiving).1) }

/-- What Bob receives: an encrypted letter of suite rcpt_v2 with one key seal, in the wire format. -/
def receivedBytes : Bytes :=
  [1, 3, 1, 7, 114, 99, 112, 116, 95, 118, 50, 1, 3, 98, 111, 98, 4, 1, 8, 5, 9, 4, 1, 1, 1, 1, 9, 39, 11, 79, 20, 104, 101, 108, 108, 111, 0]

theorem toyFS_empty (name suffix : Bytes) (h : suffix ∈ [b!".signet", b!".recipient", b!".envelope"]) :
    toyFS ((name ++ suffix) :: resolve [] b!"./keys/") = none := by
  have hr : resolve [] b!"./keys/" = [b!"keys"] := by decide +kernel
  rw [hr]
  unfold toyFS
  rw [if_neg (by simp), if_neg (by simp), if_neg ?_]
  intro hx
  have hx := (List.cons.inj hx).1
  have := congrArg List.reverse hx
  simp only [List.mem_cons, List.not_mem_nil, or_false] at h
  rcases h with rfl | rfl | rfl <;> simp at this

/-- The hypotheses of C85 are met by a program that receives a letter and opens it; also, a letter with a seal for a key that is not there,
bytes that are no letter and a letter of an unknown suite give errors. -/
theorem received_example :
    toyPrims.NoPanic ∧ (refDsd []).Sound ∧ (refDsd []).NoPanic ∧ newDirStore [] toyFS b!"./keys/" = .ok toyDirStore ∧
    (∀ op ∈ toyReceiving, op.whole) ∧
    (match letterFromWire receivedBytes with
      | .ok (l, rest) => decide (l.open toyPrims toyConfig receivingWorld suiteRegistry (some toyUnsigned) = .ok b!"hello") && decide (rest = []) &&
          decide ({ l with keys := [{ id := b!"carol", value := [1, 2] }] }.open toyPrims toyConfig receivingWorld suiteRegistry (some toyUnsigned) =
            .error .signetNotFound)
      | .error _ => false) = true ∧
    letterFromWire [1, 2] = .error .short ∧
    (match letterFromWire [1, 1, 1, 1, 120, 0, 0, 0] with
      | .ok (l, _) => decide (l.open toyPrims toyConfig receivingWorld suiteRegistry none = .error .notFound)
      | .error _ => false) = true := by
  refine ⟨toyPrims_noPanic, refDsd_sound [], refDsd_noPanic [], by decide +kernel, ?_, by decide +kernel, by decide +kernel, by decide +kernel⟩
  intro op hop
  simp only [toyReceiving, List.mem_cons, List.not_mem_nil, or_false] at hop
  rcases hop with rfl | rfl | rfl
  · exact .inl rfl
  · exact .inl rfl
  · trivial

end Jess
