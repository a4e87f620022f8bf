import Verif.Props.ConfigureDir
import Verif.Props.DialogExamples

/-! # C70, C71: examples and counterexamples -/

namespace Jess

/-- A serialization library that can only serialize the given envelopes. -/
def refDsd (known : List Envelope) : Dsd where
  dumpSignet := toyDsd.dumpSignet
  loadSignet := toyDsd.loadSignet
  dumpEnvelope := fun e => if known.idxOf e < 256 ∧ e ∈ known then .ok [UInt8.ofNat (known.idxOf e)] else .error .malformed
  loadEnvelope := fun b => match b with
    | [i] => (match known[i.toNat]? with | some e => .ok e | none => .error .malformed)
    | _ => .error .malformed

theorem refDsd_envelope (known : List Envelope) : ∀ e b, (refDsd known).dumpEnvelope e = .ok b → b ≠ [] ∧ (refDsd known).loadEnvelope b = .ok e := by
  intro e b h
  simp only [refDsd] at h ⊢
  split at h
  · rename_i hk
    cases h
    refine ⟨by simp, ?_⟩
    have h1 : (UInt8.ofNat (known.idxOf e)).toNat = known.idxOf e := by
      rw [UInt8.toNat_ofNat']; omega
    have h2 : known.idxOf e < known.length := List.idxOf_lt_length_iff.mpr hk.2
    simp only [h1, List.getElem?_eq_getElem h2, List.getElem_idxOf h2]
  · cases h

theorem refDsd_sound (known : List Envelope) : (refDsd known).Sound :=
  ⟨toyDsd_sound.signet, refDsd_envelope known, toyDsd_sound.signet, refDsd_envelope known⟩

/-- An envelope for signing, that refers to a signet. -/
def signWith (n id : Bytes) : Envelope :=
  { version := 1, name := n, suiteID := b!"sign_v1", senders := [{ version := 1, id := id, scheme := b!"Ed25519" }], securityLevel := 128 }

def refD : Dsd := refDsd [signWith b!"mail" b!"a1", signWith b!"x" b!"a1", signWith b!"x" b!"b2"]
def refTrust (names : List Bytes) : Trust FS := dirTrust toyDirStore refD suiteRegistry (toyWalk names) .done
def refOps (ss : List Signet) (es : List Envelope) : List DirOp := ss.map (.storeSignet .done) ++ es.map (.storeEnvelope .done)
def refFS (ss : List Signet) (es : List Envelope) : FS := (dirRun toyDirStore refD suiteRegistry toyFS (refOps ss es)).1
def refMap (ss : List Signet) (es : List Envelope) : AbsStore := (absRun refD suiteRegistry .empty (refOps ss es)).1

/-- The directory of the examples: one signet. -/
def oneFS : FS := refFS [listed b!"a1" b!"Alice" false] []

/-- C70: a new envelope is configured (preset "Sign a file (wrapped)", the first signet, "Done"). It can be read and used. -/
theorem configure_example :
    (let r := configureCommand toyDlg (refTrust [b!"a1.signet"]) refD oneFS [b!"mail"] (some 4) [some (fun i => i == 0)] [choose 0]
     r.2 = .ok () ∧
     (refTrust []).getEnvelope r.1 b!"mail" =
       .ok (some { signWith b!"mail" b!"a1" with suite := getSuite suiteRegistry b!"sign_v1" }) ∧
     (correspondence toyPrims toyConfig { store := some (toyDirStore.getSignet refD r.1) } suiteRegistry
       { signWith b!"mail" b!"a1" with suite := getSuite suiteRegistry b!"sign_v1" }).toOption.map (·.level) = some 128) ∧
    (refMap [listed b!"a1" b!"Alice" false] []).signet b!"a1" false = some (listed b!"a1" b!"Alice" false) := by
  refine ⟨⟨?_, ?_, ?_⟩, ?_⟩ <;> decide +kernel

/-- The hypotheses of C70 and C71 are met by any directory store that began in an empty directory, and in which only references were
saved. -/
theorem configure_hypotheses (ss : List Signet) (es : List Envelope) (he : ∀ e ∈ es, OnlyRefs e) :
    DirRefines refD toyDirStore (refFS ss es) (refMap ss es) ∧ (refMap ss es).Keyed ∧ (refMap ss es).Kept := by
  have hempty : DirRefines refD toyDirStore toyFS .empty := by
    refine ⟨rfl, fun id r _ => ?_, fun n _ => ?_⟩
    · show toyFS (storageID id r :: [b!"keys"]) = none
      unfold toyFS
      have h1 : storageID id r ≠ b!"readme" := by
        intro h
        have := congrArg List.getLast? h
        cases r <;> simp [storageID] at this
      simp [h1]
    · show toyFS ((n ++ b!".envelope") :: [b!"keys"]) = none
      unfold toyFS
      have h1 : n ++ b!".envelope" ≠ b!"readme" := by
        intro h
        have h2 := congrArg List.length h
        simp at h2
      simp [h1]
  have hk : ∀ (ops : List DirOp) (m : AbsStore), (∀ w e, DirOp.storeEnvelope w e ∈ ops → OnlyRefs e) → m.Keyed → m.Kept →
      (absRun refD suiteRegistry m ops).1.Keyed ∧ (absRun refD suiteRegistry m ops).1.Kept := by
    intro ops
    induction ops with
    | nil => intro m _ h1 h2; exact ⟨h1, h2⟩
    | cons op ops ih =>
      intro m ho h1 h2
      refine ih _ (fun w e h => ho w e (List.mem_cons_of_mem _ h)) (keyed_step refD suiteRegistry m op h1) ?_
      intro n e hn
      cases op with
      | storeSignet w s =>
        refine h2 n e ?_
        simp only [absStep] at hn
        split at hn
        · exact hn
        · split at hn
          · exact hn
          · split at hn <;> exact hn
      | deleteSignet id r =>
        refine h2 n e ?_
        simp only [absStep] at hn
        split at hn
        · exact hn
        · split at hn <;> exact hn
      | getSignet id r =>
        refine h2 n e ?_
        simp only [absStep] at hn
        split at hn
        · exact hn
        · split at hn <;> exact hn
      | getEnvelope id =>
        refine h2 n e ?_
        simp only [absStep] at hn
        split at hn
        · exact hn
        · split at hn <;> exact hn
      | deleteEnvelope id =>
        simp only [absStep] at hn
        split at hn
        · exact h2 n e hn
        · split at hn
          · simp only [AbsStore.setEnvelope] at hn
            split at hn
            · cases hn
            · exact h2 n e hn
          · exact h2 n e hn
      | storeEnvelope w x =>
        simp only [absStep] at hn
        split at hn
        · exact h2 n e hn
        · split at hn
          · exact h2 n e hn
          · split at hn
            · simp only [AbsStore.setEnvelope] at hn
              split at hn
              · rename_i hnn
                cases hn
                have hr := ho w x (by simp)
                rw [onlyRefs_stored hr]
                exact ⟨hnn.symm, hr, rfl, rfl⟩
              · exact h2 n e hn
            · exact h2 n e hn
  have hrun := dirRun_refines refD (refDsd_sound _) suiteRegistry toyDirStore (by decide) (refOps ss es) (by
    intro op hop
    simp only [refOps, List.mem_append, List.mem_map] at hop
    rcases hop with ⟨s, _, rfl⟩ | ⟨s, _, rfl⟩ <;> exact Or.inl rfl) toyFS .empty hempty
  have h2 := hk (refOps ss es) .empty (by
    intro w e h
    simp only [refOps, List.mem_append, List.mem_map] at h
    rcases h with ⟨s, _, h⟩ | ⟨s, hs, h⟩
    · cases h
    · cases h; exact he _ hs) (by intro id r s h; cases h) (by intro n e h; cases h)
  exact ⟨hrun.2, h2⟩

/-- C71 refuted. `jess configure " x"` (a name with a blank, for which there is no envelope) overwrites the envelope "x". -/
theorem configure_blank_refuted :
    (let fs := refFS [listed b!"a1" b!"Alice" false, listed b!"b2" b!"Bob" false] [signWith b!"x" b!"a1"]
     let r := configureCommand toyDlg (refTrust [b!"a1.signet", b!"b2.signet"]) refD fs [b!" x"] (some 4) [some (fun i => i == 1)] [choose 0]
     (refTrust []).getEnvelope fs b!" x" = .ok none ∧
     (refTrust []).getEnvelope fs b!"x" = .ok (some { signWith b!"x" b!"a1" with suite := getSuite suiteRegistry b!"sign_v1" }) ∧
     r.2 = .ok () ∧
     (refTrust []).getEnvelope r.1 b!"x" = .ok (some { signWith b!"x" b!"b2" with suite := getSuite suiteRegistry b!"sign_v1" }) ∧
     (refTrust []).getEnvelope r.1 b!" x" = .ok none) := by
  refine ⟨?_, ?_, ?_, ?_, ?_⟩ <;> decide +kernel

/-- An envelope with a key in it, as a program that uses the library may store it. -/
def inlineKey (key : Bytes) : Envelope :=
  { version := 1, name := b!"own", suiteID := b!"key_v1", secrets := [{ version := 1, scheme := schemeKey, key := key }] }

/-- What is saved of it. -/
def inlineRef : Envelope :=
  { version := 1, name := b!"own", suiteID := b!"key_v1", secrets := [{ version := 1, scheme := schemeKey }], securityLevel := 128 }

/-- Outside of C70: an envelope that has a key in it (which only a program that uses the library can have stored). `jess configure` shows
it as valid and, with "Done", replaces it by one that cannot be used: the key is lost. -/
theorem configure_inline_lost :
    (let D := refDsd [inlineKey (List.replicate 16 7), inlineRef]
     let T := dirTrust toyDirStore D suiteRegistry (toyWalk []) .done
     let fs := (dirRun toyDirStore D suiteRegistry toyFS [.storeEnvelope .done (inlineKey (List.replicate 16 7))]).1
     let r := configureCommand toyDlg T D fs [b!"own"] none [] [choose 0]
     r.2 = .ok () ∧
     T.getEnvelope fs b!"own" = .ok (some { inlineKey (List.replicate 16 7) with suite := getSuite suiteRegistry b!"key_v1" }) ∧
     (correspondence toyPrims toyConfig { store := some (toyDirStore.getSignet D fs) } suiteRegistry (inlineKey (List.replicate 16 7))).isOk = true ∧
     T.getEnvelope r.1 b!"own" = .ok (some { inlineRef with suite := getSuite suiteRegistry b!"key_v1" }) ∧
     (correspondence toyPrims toyConfig { store := some (toyDirStore.getSignet D r.1) } suiteRegistry inlineRef).isOk = false) := by
  refine ⟨?_, ?_, ?_, ?_, ?_⟩ <;> decide +kernel

/-! ## The presets and what the menu says -/

/-- What the dialogs of a preset must ask for (specification): senders for signing, recipients for key exchange and encapsulation, a
password for password derivation, and a key if there is nothing else. -/
def AsksFor (scopes : List Scope) (su : Suite) : Prop :=
  let has := fun p => su.tools.any (fun t => toolPurpose t == some p)
  (Scope.sender ∈ scopes ↔ has .signing = true) ∧
  (Scope.recipient ∈ scopes ↔ (has .keyExchange || has .keyEncapsulation) = true) ∧
  (Scope.pw ∈ scopes ↔ has .passDerivation = true) ∧
  (Scope.key ∈ scopes ↔ (has .signing || has .keyExchange || has .keyEncapsulation || has .passDerivation) = false)

instance (scopes : List Scope) (su : Suite) : Decidable (AsksFor scopes su) := by unfold AsksFor; infer_instance

/-- C70. Every preset has a registered suite, and its dialogs ask for all signets that the suite uses, and for nothing else. -/
theorem presets_ask_for_all : ∀ p ∈ presets, ∃ su, getSuite suiteRegistry p.1 = some su ∧ AsksFor p.2 su := by
  have h : ∀ p ∈ presets, (getSuite suiteRegistry p.1).any (fun su => decide (AsksFor p.2 su)) = true := by decide +kernel
  intro p hp
  have h1 := h p hp
  cases hg : getSuite suiteRegistry p.1 with
  | none => rw [hg] at h1; cases h1
  | some su =>
    rw [hg] at h1
    exact ⟨su, rfl, by simpa using h1⟩

/-- C70. The menu says "none (unsafe)" exactly if the suite provides nothing. -/
theorem unsafe_shown (r : Requirements) : formatRequirements r = b!"none (unsafe)" ↔ r = [] := by
  unfold formatRequirements
  constructor
  · intro h
    cases r with
    | nil => rfl
    | cons a l =>
      rw [if_neg (by simp)] at h
      exfalso
      have hm : (40 : UInt8) ∈ requirementNames (a :: l) := by rw [h]; decide
      unfold requirementNames at hm
      rcases joinBytes_mem hm with h1 | ⟨x, hx, hb⟩
      · exact absurd h1 (by decide)
      · obtain ⟨b, _, hb'⟩ := List.mem_filterMap.1 hx
        repeat' split at hb'
        all_goals (cases hb'; try exact absurd hb (by decide))
  · intro h
    subst h
    rfl

end Jess
