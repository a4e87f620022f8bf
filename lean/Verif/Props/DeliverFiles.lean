import Mathlib.Logic.Equiv.List
import Mathlib.Data.Countable.Basic
import Verif.Props.Deliver
import Verif.Props.CmdFiles

/-!
# C120 for files: `jess close` and `jess open` succeed
-/

namespace Jess

open Requirements

theorem unloaded_correspondence {P : Prims} {cfg : Config} {w : World} {e : Envelope} (hsl : e.SuiteLoaded) {s : Session}
    (h : correspondence P cfg w suiteRegistry { e with suite := none } = .ok s) : correspondence P cfg w suiteRegistry e = .ok s := by
  have hget : ∃ su, getSuite suiteRegistry e.suiteID = some su := by
    simp only [correspondence, loadSuite, bind_ok_iff] at h
    obtain ⟨_, h1, _⟩ := h
    split at h1
    · cases h1
    · rename_i su hsu; exact ⟨su, hsu⟩
  obtain ⟨su, hsu⟩ := hget
  have hl : ∃ x, loadSuite suiteRegistry e = .ok x := by
    unfold loadSuite
    split
    · exact ⟨_, rfl⟩
    · rw [hsu]; exact ⟨_, rfl⟩
  obtain ⟨⟨e2, su2⟩, hl⟩ := hl
  have h2 := correspondence_loaded (P := P) (cfg := cfg) (w := w) hsl hl
  rw [h] at h2
  rw [← h2]
  obtain ⟨_, rfl⟩ := loadSuite_loaded hsl hl
  simp only [correspondence, hl, ok_bind]
  rfl

/-- What is delivered between two trust stores (the conclusion of C120) is delivered between files: closing the file writes a letter, and whoever gets the letter opens it. -/
theorem files_of_letters (T T' : CmdEnv) (hc : T.hc.Sound) (hdump : ∀ l, ∃ b, T.hc.dump l = .ok b) (hE : T'.E = T.E) (hhc : T'.hc = T.hc)
    (hyes : ∀ q, T.answer q = .ok true) (hyes' : ∀ q, T'.answer q = .ok true) (ho : T.out = .done) (ho' : T'.out = .done)
    (hst : T.w.store ≠ none) (d : Disk) (file name flag target data : Bytes) (e : Envelope) (hin : Reads T d file data) (he : T.envelopes name = .ok e)
    (hsl : e.SuiteLoaded) (hn : NamedBy flag target (file ++ b!".letter")) (hnl : flag = [] → ¬ b!".letter" <:+ file) (hw : Writable T d target)
    (hdel : ∃ s l, correspondence T.E.P T.E.cfg T.w suiteRegistry { e with suite := none } = .ok s ∧
      (s.close T.E.P T.E.cfg T.rng s.initState data).2 = .ok l ∧
      l.open T.E.P T.E.cfg T'.w suiteRegistry (some (T'.reqs.getD full)) = .ok data) :
    ∃ d1 c, closeCommand T d [file, b!"with", name] flag = (d1, .ok ()) ∧ Outputs T d d1 target c ∧
      ∀ (d1' : Disk) (p flag' target' : Bytes), c.length < 2 ^ 64 → Reads T' d1' p c →
        (flag' ≠ [] ∧ target' = flag') ∨ (flag' = [] ∧ p = target' ++ b!".letter" ∧ target' ≠ []) → Writable T' d1' target' →
        ∃ d2, openCommand T' d1' [p] flag' = (d2, .ok ()) ∧ Outputs T' d1' d2 target' data := by
  obtain ⟨s, l, hcor, hcl, hop⟩ := hdel
  obtain ⟨hdr, hhdr⟩ := hdump { l with data := [] }
  obtain ⟨c, hff⟩ : ∃ c, (l.toFileFormat T.hc).1 = .ok c := by simp [Letter.toFileFormat, hhdr]
  have hplan : closePlan T d file name flag = .ok (some (target, c)) := by
    simp [closePlan, he, unloaded_correspondence hsl hcor, (closeTarget_iff file flag target).mpr ⟨hn, hnl⟩, checkInput_yes hin hyes,
      checkOutput_yes d target hyes, closeData, (loadFile_iff T d file data).mpr hin, hcl, hff, ok_bind]
  have hok := writeOutput_done hw ho c
  have hstore : requireTrustStore T.w = .ok () := by
    unfold requireTrustStore
    split
    · rename_i h; exact absurd h hst
    · rfl
  refine ⟨(writeOutput T d target c).1, c, ?_, writeOutput_ok T d target c hok, ?_⟩
  · unfold closeCommand runPlan
    simp only [hstore, ok_bind, ne_eq, not_true_eq_false, if_false, hplan]
    rw [← hok]
  · intro d1' p flag' target' hlen hread ht hw'
    obtain ⟨hdr', hd', hsz⟩ := toFileFormat_parts hff
    obtain ⟨out, ho1, ho2⟩ := file_roundtrip T.hc l [] hdr' (by omega) (by omega) hd' (hc _ _ hd')
    rw [ho1] at hff
    cases hff
    rw [List.append_nil] at ho2
    have hdata : openData T' d1' p = .ok data := by
      simp only [openData, (loadFile_iff T' d1' p c).2 hread, ok_bind, hhc, ho2, hE]
      exact hop
    have hplan' : openPlan T' d1' p flag' = .ok (some (target', data)) := by
      simp [openPlan, (openTarget_iff p flag' target').2 ht, checkInput_yes hread hyes', checkOutput_yes d1' target' hyes', hdata, ok_bind]
    have hok' := writeOutput_done hw' ho' data
    refine ⟨(writeOutput T' d1' target' data).1, ?_, writeOutput_ok T' d1' target' data hok'⟩
    unfold openCommand runPlan
    simp only [hplan']
    rw [← hok']

/-- C120, for files. `jess close` succeeds for every file that can be read and every output that can be written, if the writer's trust store has the private keys of the
senders and the public keys of the recipients of the named envelope; and `jess open` of what it wrote succeeds with a trust store that has the counterparts, and writes
the content of the file. -/
theorem files_are_delivered (T T' : CmdEnv) (W : T.E.P.Work) (pair : Bytes → Bytes → Bytes → Prop) (hP : T.E.P.Correct pair)
    (hsig : ∀ pub priv, pair b!"Ed25519" pub priv → ∀ hash digest seed, ∃ sig, T.E.P.sign b!"Ed25519" hash priv digest seed = .ok sig)
    (hr : T.rng.Delivers) (hc : T.hc.Sound) (hdump : ∀ l, ∃ b, T.hc.dump l = .ok b) (hE : T'.E = T.E) (hhc : T'.hc = T.hc)
    (hyes : ∀ q, T.answer q = .ok true) (hyes' : ∀ q, T'.answer q = .ok true) (ho : T.out = .done) (ho' : T'.out = .done)
    -- the trust stores
    (getC getO : Bytes → Bool → Res Signet) (hwc : T.w.store = some getC) (hwo : T'.w.store = some getO)
    -- the file and the envelope
    (d : Disk) (file name flag target data : Bytes) (e : Envelope) (hin : Reads T d file data) (hd : data.length ≤ 2 ^ 38 - 64) (he : T.envelopes name = .ok e)
    (hsl : e.SuiteLoaded) (hev : e.version = 1) (heo : e.opening = false) (hA : Addressed T.E.P pair getC getO e) (hS : SuiteFor e)
    (hl1 : demandedLevel T.E.cfg e.securityLevel ≤ 128) (hl2 : 0 < e.securityLevel → demandedLevel T.E.cfg e.securityLevel ≤ e.securityLevel)
    (hl3 : demandedLevel T.E.cfg 0 ≤ demandedLevel T.E.cfg e.securityLevel)
    (hreq : ∀ su ∈ suiteRegistry, su.id = e.suiteID → ∀ a ∈ T'.reqs.getD full, a ∈ su.provides)
    (hn : NamedBy flag target (file ++ b!".letter")) (hnl : flag = [] → ¬ b!".letter" <:+ file) (hw : Writable T d target) :
    ∃ d1 c, closeCommand T d [file, b!"with", name] flag = (d1, .ok ()) ∧ Outputs T d d1 target c ∧
      ∀ (d1' : Disk) (p flag' target' : Bytes), c.length < 2 ^ 64 → Reads T' d1' p c →
        (flag' ≠ [] ∧ target' = flag') ∨ (flag' = [] ∧ p = target' ++ b!".letter" ∧ target' ≠ []) → Writable T' d1' target' →
        ∃ d2, openCommand T' d1' [p] flag' = (d2, .ok ()) ∧ Outputs T' d1' d2 target' data :=
  files_of_letters T T' hc hdump hE hhc hyes hyes' ho ho' (by rw [hwc]; simp) d file name flag target data e hin he hsl hn hnl hw
    (letters_are_delivered T.E.P W pair hP hsig T.E.cfg T.w T'.w getC getO hwc hwo T.rng hr { e with suite := none } rfl hev heo
      ⟨hA.1, hA.2, hA.3⟩ ⟨hS.1, hS.2, hS.3⟩ hl1 hl2 hl3 (some (T'.reqs.getD full)) hreq data hd)

/-- C120, for files closed with keys or passwords. -/
theorem secret_files_are_delivered (T T' : CmdEnv) (W : T.E.P.Work) (pair : Bytes → Bytes → Bytes → Prop) (hP : T.E.P.Correct pair)
    (hr : T.rng.Delivers) (hc : T.hc.Sound) (hdump : ∀ l, ∃ b, T.hc.dump l = .ok b) (hE : T'.E = T.E) (hhc : T'.hc = T.hc)
    (hyes : ∀ q, T.answer q = .ok true) (hyes' : ∀ q, T'.answer q = .ok true) (ho : T.out = .done) (ho' : T'.out = .done) (hst : T.w.store ≠ none)
    -- the file and the envelope
    (d : Disk) (file name flag target data : Bytes) (e : Envelope) (hin : Reads T d file data) (hd : data.length ≤ 2 ^ 38 - 64) (he : T.envelopes name = .ok e)
    (hsl : e.SuiteLoaded) (hev : e.version = 1) (heo : e.opening = false) (hse : e.senders = []) (hre : e.recipients = []) (hne : e.secrets ≠ [])
    (hA : e.suiteID ∈ keySuites ∧ SharedKeys T.E.cfg T.w T'.w e ∨ e.suiteID ∈ passwordSuites ∧ SharedPasswords T.E.cfg T.w T'.w e)
    (hl1 : demandedLevel T.E.cfg e.securityLevel ≤ 128) (hl2 : 0 < e.securityLevel → demandedLevel T.E.cfg e.securityLevel ≤ e.securityLevel)
    (hl3 : demandedLevel T.E.cfg 0 ≤ demandedLevel T.E.cfg e.securityLevel)
    (hreq : ∀ su ∈ suiteRegistry, su.id = e.suiteID → ∀ a ∈ T'.reqs.getD full, a ∈ su.provides)
    (hn : NamedBy flag target (file ++ b!".letter")) (hnl : flag = [] → ¬ b!".letter" <:+ file) (hw : Writable T d target) :
    ∃ d1 c, closeCommand T d [file, b!"with", name] flag = (d1, .ok ()) ∧ Outputs T d d1 target c ∧
      ∀ (d1' : Disk) (p flag' target' : Bytes), c.length < 2 ^ 64 → Reads T' d1' p c →
        (flag' ≠ [] ∧ target' = flag') ∨ (flag' = [] ∧ p = target' ++ b!".letter" ∧ target' ≠ []) → Writable T' d1' target' →
        ∃ d2, openCommand T' d1' [p] flag' = (d2, .ok ()) ∧ Outputs T' d1' d2 target' data :=
  files_of_letters T T' hc hdump hE hhc hyes hyes' ho ho' hst d file name flag target data e hin he hsl hn hnl hw
    (secret_letters_are_delivered T.E.P W pair hP T.E.cfg T.w T'.w T.rng hr { e with suite := none } rfl hev heo hse hre hne hA hl1 hl2 hl3
      (some (T'.reqs.getD full)) hreq data hd)

/-! ## Examples -/

theorem countable_byte : Countable UInt8 := Function.Injective.countable (f := UInt8.toNat) (fun _ _ h => UInt8.toNat_inj.1 h)
theorem countable_bytes : Countable Bytes :=
  haveI := countable_byte
  inferInstanceAs (Countable (List UInt8))
theorem countable_seal : Countable Seal :=
  haveI := countable_bytes
  Function.Injective.countable (f := fun s : Seal => (s.scheme, s.id, s.value)) (by
    intro a b h; cases a; cases b; simp only [Prod.mk.injEq] at h; obtain ⟨rfl, rfl, rfl⟩ := h; rfl)
theorem countable_letter : Countable Letter :=
  haveI := countable_bytes
  haveI := countable_byte
  haveI := countable_seal
  Function.Injective.countable (f := fun l : Letter => (l.version, l.suiteID, l.nonce, l.keys, l.data, l.mac, l.signatures, l.applyKeys)) (by
    intro a b h; cases a; cases b; simp only [Prod.mk.injEq] at h; obtain ⟨rfl, rfl, rfl, rfl, rfl, rfl, rfl, rfl⟩ := h; rfl)

/-- There are header serializers that dump every letter and read what they write. -/
theorem total_header : ∃ hc : HeaderCodec, hc.Sound ∧ ∀ l, ∃ b, hc.dump l = .ok b := by
  obtain ⟨f, hf⟩ := countable_letter.exists_injective_nat'
  classical
  refine ⟨{ dump := fun l => .ok (List.replicate (f l) 0), load := fun b => if h : ∃ l, List.replicate (f l) 0 ++ [10] = b then .ok h.choose else .error .unsupported }, ?_, fun l => ⟨_, rfl⟩⟩
  intro l hdr h
  cases h
  have hx : ∃ l', List.replicate (f l') 0 ++ [10] = List.replicate (f l) (0 : UInt8) ++ [10] := ⟨l, rfl⟩
  have key : ∀ m, List.replicate (f m) 0 ++ [10] = List.replicate (f l) (0 : UInt8) ++ [10] → m = l := by
    intro m hm
    have hm := congrArg List.length hm
    simp only [List.length_append, List.length_replicate] at hm
    exact hf (Nat.add_right_cancel hm)
  simp only [dif_pos hx, key _ hx.choose_spec]

/-- The hypotheses are met: alice closes a file for bob, and bob opens it, with the toy algorithms. -/
theorem deliver_files_example : ∃ hc : HeaderCodec, hc.Sound ∧ ∃ d1 c,
    closeCommand { toyCmd (toyEnvelope b!"v2" [] [b!"alice"] [b!"bob"]) .done true with hc := hc } (toyDisk [(b!"f", b!"hello")]) [b!"f", b!"with", b!"env"] [] = (d1, .ok ()) ∧
    Outputs { toyCmd (toyEnvelope b!"v2" [] [b!"alice"] [b!"bob"]) .done true with hc := hc } (toyDisk [(b!"f", b!"hello")]) d1 b!"f.letter" c ∧
    (c.length < 2 ^ 64 → ∃ d2,
      openCommand { toyCmd (toyEnvelope b!"v2" [] [b!"alice"] [b!"bob"]) .done true with hc := hc } d1 [b!"f.letter"] b!"g" = (d2, .ok ()) ∧
      Outputs { toyCmd (toyEnvelope b!"v2" [] [b!"alice"] [b!"bob"]) .done true with hc := hc } d1 d2 b!"g" b!"hello") := by
  obtain ⟨hc, h1, h2⟩ := total_header
  refine ⟨hc, h1, ?_⟩
  let T : CmdEnv := { toyCmd (toyEnvelope b!"v2" [] [b!"alice"] [b!"bob"]) .done true with hc := hc }
  obtain ⟨getN, hget⟩ : ∃ g, namedWorld.store = some g := ⟨_, rfl⟩
  have hA : Addressed toyPrims (fun _ pub priv => pub = priv) getN getN (toyEnvelope b!"v2" [] [b!"alice"] [b!"bob"]) := by
    cases hget
    refine ⟨rfl, ?_, ?_⟩
    · intro k hk
      simp only [toyEnvelope, List.map_cons, List.map_nil, List.mem_singleton] at hk
      subst hk
      exact ⟨by decide, rfl, .inl (by decide), [42, 43], [42, 43], rfl, ⟨_, _, rfl, rfl, rfl, rfl, rfl, rfl, rfl, rfl⟩, ⟨_, _, rfl, rfl, rfl, rfl, rfl, rfl, rfl⟩⟩
    · intro k hk
      simp only [toyEnvelope, List.map_cons, List.map_nil, List.mem_singleton] at hk
      subst hk
      exact ⟨by decide, rfl, .inl (by decide), [8, 9, 10], [8, 9, 10], rfl, ⟨_, _, rfl, rfl, rfl, rfl, rfl, rfl, rfl⟩, ⟨_, _, rfl, rfl, rfl, rfl, rfl, rfl, rfl, rfl⟩⟩
  obtain ⟨d1, c, g1, g2, g3⟩ := files_are_delivered T T toy_work (fun _ pub priv => pub = priv) toyPrims_correct (by intro _ _ _ _ _ _; exact ⟨_, rfl⟩) toy_delivers h1 h2 rfl rfl
    (fun _ => rfl) (fun _ => rfl) rfl rfl getN getN hget hget (toyDisk [(b!"f", b!"hello")]) b!"f" b!"env" [] b!"f.letter" b!"hello" (toyEnvelope b!"v2" [] [b!"alice"] [b!"bob"])
    ((loadFile_iff _ _ _ _).mp rfl) (by decide) rfl (.inl rfl) rfl rfl hA ⟨by decide, by decide, by decide⟩
    (by show demandedLevel toyConfig 0 ≤ 128; decide) (by show (0 : Int) < 0 → demandedLevel toyConfig 0 ≤ 0; decide) (Int.le_refl _)
    (by show ∀ su ∈ suiteRegistry, su.id = b!"v2" → ∀ a ∈ full, a ∈ su.provides; decide +kernel)
    (.inr ⟨rfl, rfl⟩) (by intro _; decide) (.inr ⟨by show resolve [b!"h"] b!"f.letter" ≠ []; decide, by show (toyDisk [(b!"f", b!"hello")]).fs (resolve [b!"h"] b!"f.letter") ≠ some .dir; decide, rfl⟩)
  refine ⟨d1, c, g1, g2, fun hlen => ?_⟩
  rcases g2 with ⟨h, _⟩ | ⟨_, _, hfile, hrest⟩
  · exact absurd h (by decide)
  · obtain ⟨d2, k1, k2⟩ := g3 d1 b!"f.letter" b!"g" b!"g" hlen (.inr ⟨by decide, hfile⟩) (.inl ⟨by decide, rfl⟩)
      (.inr ⟨by show resolve [b!"h"] b!"g" ≠ []; decide, by
        rw [hrest _ (by show resolve [b!"h"] b!"g" ≠ resolve [b!"h"] b!"f.letter"; decide)]
        show (toyDisk [(b!"f", b!"hello")]).fs (resolve [b!"h"] b!"g") ≠ some .dir
        decide, by
        rw [hrest _ (by show (resolve [b!"h"] b!"g").tail ≠ resolve [b!"h"] b!"f.letter"; decide)]
        rfl⟩)
    exact ⟨d2, k1, k2⟩

end Jess
