import Verif.Props.DialogDir
import Verif.Props.KeyCodec

/-! C72: examples and counterexamples. -/

namespace Jess

/-- The signet whose name is "A", a line feed, a blank, a line feed and "B". -/
def brokenName : Signet := listed b!"a1" [65, 10, 32, 10, 66] false

/-- C72 refuted (line ends in names). The name of a signet may contain line ends; then the list of `jess manage` has a blank line. Choosing it
crashes. -/
theorem manage_crash_refuted :
    (dirWith [brokenName] []) [b!"a1.signet", b!"keys"] ≠ none ∧
    (toyTrust [b!"a1.signet"]).select (dirWith [brokenName] []) 0 [] = .ok [brokenName] ∧
    (manageSignets toyDlg (toyTrust [b!"a1.signet"]) [(some 2, none)] (dirWith [brokenName] [])).2 = .error .panic := by
  refine ⟨?_, ?_, ?_⟩ <;> decide +kernel

/-- C72 refuted (long names). If the trust store has a signet with a name of 64 KiB, changing the signets of an envelope crashes: the list
cannot be shown, but signets of the envelope are preselected in it. -/
theorem long_name_crash_refuted {σ : Type} {E : DlgEnv} {T : Trust σ} {st : σ} {e : Envelope} {scope : Scope} {rows : Option (Nat → Bool)}
    {cands : List Signet} (hsel : T.select st scope.filter scope.schemes = .ok cands) {s : Signet} (hs : s ∈ cands) (hcur : scope.current e ≠ [])
    (hnew : ∀ p ∈ scope.current e, p.id ≠ s.id) (hplain : ∀ o ∈ scope.current e ++ cands, PlainSignet o) (hcell : CellText (formatSignetName s))
    (hlong : 65536 ≤ (formatSignetName s).length) : selectSignets E T st e scope rows = .error .panic := by
  have hf : formatColumns E.pad (pickRows E.P cands (scope.current e)) = [] := by
    refine formatColumns_long (x := formatSignetName s) (xs := (signetRow E.P s).tail) ?_ E.pad ?_ hcell.noTab hlong
    · intro r hr
      obtain ⟨o, ho, rfl⟩ := List.mem_map.1 hr
      refine signetRow_oneLine E.P (hplain o ?_)
      rcases List.mem_append.1 ho with ho | ho
      · exact List.mem_append_left _ ho
      · exact List.mem_append_right _ (List.mem_filter.1 ho).1
    · refine List.mem_map.2 ⟨s, List.mem_append_right _ (List.mem_filter.2 ⟨hs, ?_⟩), rfl⟩
      simp only [Bool.not_eq_true', List.any_eq_false, Bool.and_eq_true, beq_iff_eq, not_and]
      intro p hp he
      exact absurd he.symm (hnew p hp)
  unfold selectSignets
  rw [hsel, ok_bind]
  have hc : cands.length ≠ 0 := by
    intro h0
    rw [List.length_eq_zero_iff.1 h0] at hs
    cases hs
  rw [if_neg hc]
  unfold pickMany
  rw [hf]
  have : ([] : List Bytes).length < (scope.current e).length := by
    cases h : scope.current e with
    | nil => exact absurd h hcur
    | cons a l => simp
  dsimp only
  rw [if_pos this]
  rfl

/-- The hypotheses of `long_name_crash_refuted` are met. -/
theorem long_name_example : ∃ (T : Trust Unit) (e : Envelope) (s : Signet),
    T.select () (Scope.filter .sender) (Scope.schemes .sender) = .ok [listed b!"a1" b!"Alice" false, s] ∧
    selectSignets toyDlg T () e .sender none = .error .panic := by
  obtain ⟨x, hlen, hrep⟩ : ∃ x : Bytes, x.length = 65536 ∧ ∀ c ∈ x, c = 65 :=
    ⟨List.replicate 65536 65, List.length_replicate, fun c hc => List.eq_of_mem_replicate hc⟩
  have hn : formatSignetName (listed b!"b2" x false) = x := by
    have : x ≠ [] := by intro h; subst h; simp at hlen
    simp [formatSignetName, listed, this]
  let T : Trust Unit :=
    { select := fun _ _ _ => .ok [listed b!"a1" b!"Alice" false, listed b!"b2" x false], getSignet := fun _ _ _ => .error .signetNotFound,
      deleteSignet := fun _ _ _ => ((), .ok ()), getEnvelope := fun _ _ => .ok none, storeEnvelope := fun _ _ => ((), .ok ()),
      deleteEnvelope := fun _ _ => ((), .ok ()), allEnvelopes := fun _ => .ok [] }
  refine ⟨T, signWith b!"mail" b!"a1", listed b!"b2" x false, rfl, ?_⟩
  refine long_name_crash_refuted (s := listed b!"b2" x false) rfl (by simp) (by simp [Scope.current, signWith]) ?_ ?_ ?_ ?_
  · intro p hp
    simp only [Scope.current, signWith, List.mem_singleton] at hp
    subst hp
    show (b!"a1" : Bytes) ≠ b!"b2"
    decide
  · intro o ho
    have : o = { version := 1, id := b!"a1", scheme := b!"Ed25519" } ∨ o = listed b!"a1" b!"Alice" false ∨ o = listed b!"b2" x false := by
      simpa [Scope.current, signWith] using ho
    rcases this with rfl | rfl | rfl
    · exact ⟨⟨by decide, by decide⟩, ⟨by decide, by decide⟩, ⟨by decide, by decide⟩⟩
    · exact ⟨⟨by decide, by decide⟩, ⟨by decide, by decide⟩, ⟨by decide, by decide⟩⟩
    · have h0 : PlainSignet (listed b!"b2" b!"B" false) := ⟨⟨by decide, by decide⟩, ⟨by decide, by decide⟩, ⟨by decide, by decide⟩⟩
      refine ⟨?_, h0.scheme, h0.id⟩
      rw [hn]
      exact ⟨fun h => by have := hrep _ h; revert this; decide, fun h => by have := hrep _ h; revert this; decide⟩
  · rw [hn]
    intro c hc
    rw [hrep c hc]
    decide
  · rw [hn, hlen]
    exact Nat.le_refl _

/-- C72 refuted (unknown suites in the keyring). The keyring trust store does not load the suite of an envelope; if it is not known, editing
the envelope crashes. -/
theorem configure_crash_refuted :
    (let D := refDsd [{ signWith b!"mail" b!"a1" with suiteID := b!"sign_v9" }]
     let k : Keyring := fun x => if x = b!"mail.envelope" then some (b58Encode [0]) else none
     (keyringTrust toyPrims D).getEnvelope k b!"mail" = .ok (some { signWith b!"mail" b!"a1" with suiteID := b!"sign_v9" }) ∧
     (configureCommand toyDlg (keyringTrust toyPrims D) D k [b!"mail"] none [] [choose 0]).2 = .error .panic) := by
  refine ⟨?_, ?_⟩ <;> decide +kernel

theorem refDsd_noPanic (known : List Envelope) : (refDsd known).NoPanic where
  loadSignet := by
    intro b
    show (toyDsd.loadSignet b).noPanic
    unfold toyDsd
    dsimp only
    refine np_bind ?_ fun a _ => np_bind (getBlock_noPanic _) fun b _ => np_bind (getBlock_noPanic _) fun c _ =>
      np_bind (getBlock_noPanic _) fun d _ => np_bind (getBlock_noPanic _) fun e _ => np_ok _
    cases b
    · exact np_err (by decide)
    · exact np_ok _
  loadEnvelope := by
    intro b
    show (match b with
      | [i] => (match known[i.toNat]? with | some e => .ok e | none => .error .malformed)
      | _ => .error .malformed : Res Envelope).noPanic
    repeat' split
    all_goals (intro h; cases h)
  dumpEnvelope := by
    intro e
    show (if known.idxOf e < 256 ∧ e ∈ known then .ok [UInt8.ofNat (known.idxOf e)] else .error .malformed : Res Bytes).noPanic
    split <;> (intro h; cases h)
  textEnvelope := by
    intro e
    show (if known.idxOf e < 256 ∧ e ∈ known then .ok [UInt8.ofNat (known.idxOf e)] else .error .malformed : Res Bytes).noPanic
    split <;> (intro h; cases h)

/-- The hypotheses of `dir_dialogs_no_panic_partial` are met: the directory of `configure_example`. -/
theorem dialogs_no_panic_example : toyDlg.P.NoPanic ∧ FillsColumns toyDlg.pad ∧ refD.Sound ∧ refD.NoPanic ∧ oneFS.Shown refD ∧
    (choose 0).Prompts := by
  refine ⟨toyPrims_noPanic, fun _ _ _ _ _ => Nat.zero_le _, refDsd_sound _, refDsd_noPanic _, ?_, ?_⟩
  · have h : oneFS = toyFS.set [b!"a1.signet", b!"keys"] (some (.file (match toyDsd.dumpSignet (listed b!"a1" b!"Alice" false) with
        | .ok b => b | _ => []))) := rfl
    rw [h]
    intro n dir d hd
    dsimp only [FS.set] at hd
    split at hd
    · rename_i hk
      cases hk
      cases hd
      refine ⟨?_, fun hs => absurd hs (by decide)⟩
      intro _ s hs
      have : s = listed b!"a1" b!"Alice" false := by
        have h2 : refD.loadSignet (match toyDsd.dumpSignet (listed b!"a1" b!"Alice" false) with | .ok b => b | _ => []) =
          .ok (listed b!"a1" b!"Alice" false) := by decide +kernel
        rw [h2] at hs
        cases hs
        rfl
      subst this
      exact ⟨by decide, by decide, by decide, by decide, ⟨by decide, by decide⟩, by decide⟩
    · unfold toyFS at hd
      split at hd
      · cases hd
      · split at hd
        · cases hd
        · split at hd
          · rename_i hk
            cases hk
            refine ⟨fun hs => ?_, fun hs => absurd hs (by decide)⟩
            rcases hs with hs | hs <;> exact absurd hs (by decide)
          · cases hd
  · intro s l
    exact ⟨np_err (by decide), by intro o h; cases h⟩

end Jess
