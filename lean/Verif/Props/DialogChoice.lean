import Verif.Props.ConfigureExamples
import Verif.Props.StoreLists

/-! C69: what is offered in the dialogs, and what is selected at the beginning. -/

namespace Jess

/-- The signets that can be used for something (specification): public ones of key exchange and encapsulation tools as recipients, private
ones of signing tools as senders, passwords and keys as secrets. -/
def Scope.Fits : Scope → Signet → Prop
  | .pw, s => s.isPublic = false ∧ s.scheme = schemePassword
  | .key, s => s.isPublic = false ∧ s.scheme = schemeKey
  | .secrets, s => s.isPublic = false ∧ (s.scheme = schemePassword ∨ s.scheme = schemeKey)
  | .recipient, s => s.isPublic = true ∧ ∃ t ∈ toolTable, t.name = s.scheme ∧ (t.purpose = .keyExchange ∨ t.purpose = .keyEncapsulation)
  | .sender, s => s.isPublic = false ∧ ∃ t ∈ toolTable, t.name = s.scheme ∧ t.purpose = .signing

theorem wanted_fits (scope : Scope) (s : Signet) : Wanted scope.filter scope.schemes s ↔ scope.Fits s := by
  have h12 : ¬ (1 : UInt8) = 2 := by decide
  have h21 : ¬ (2 : UInt8) = 1 := by decide
  unfold Wanted
  cases scope with
  | pw => simp [Scope.filter, Scope.schemes, Scope.Fits]
  | key => simp [Scope.filter, Scope.schemes, Scope.Fits]
  | secrets => simp [Scope.filter, Scope.schemes, Scope.Fits]
  | recipient =>
    have hne : Scope.schemes .recipient ≠ [] := by decide +kernel
    have hm : s.scheme ∈ Scope.schemes .recipient ↔
        ∃ t ∈ toolTable, t.name = s.scheme ∧ (t.purpose = .keyExchange ∨ t.purpose = .keyEncapsulation) := by
      unfold Scope.schemes
      rw [List.mem_map]
      constructor
      · rintro ⟨t, ht, hn⟩
        have := List.mem_filter.1 ht
        exact ⟨t, this.1, hn, by simpa using this.2⟩
      · rintro ⟨t, ht, hn, hp⟩
        exact ⟨t, List.mem_filter.2 ⟨ht, by simpa using hp⟩, hn⟩
    simp only [Scope.filter, Scope.Fits, h21, false_implies, true_implies, true_and, hne, ne_eq, not_false_eq_true, hm]
  | sender =>
    have hne : Scope.schemes .sender ≠ [] := by decide +kernel
    have hm : s.scheme ∈ Scope.schemes .sender ↔ ∃ t ∈ toolTable, t.name = s.scheme ∧ t.purpose = .signing := by
      unfold Scope.schemes
      rw [List.mem_map]
      constructor
      · rintro ⟨t, ht, hn⟩
        have := List.mem_filter.1 ht
        exact ⟨t, this.1, hn, by simpa using this.2⟩
      · rintro ⟨t, ht, hn, hp⟩
        exact ⟨t, List.mem_filter.2 ⟨ht, by simpa using hp⟩, hn⟩
    simp only [Scope.filter, Scope.Fits, h12, false_implies, true_implies, true_and, hne, ne_eq, not_false_eq_true, hm]

/-- C69. On a directory store, the dialogs for recipients, senders and secrets offer exactly the stored signets that can be used for it. -/
theorem choices_fit {S : DirStore} {D : Dsd} {reg : List Suite} {walk : FS → List Loc} {w : WriteEnd} {fs : FS} {scope : Scope}
    {cands : List Signet} (h : (dirTrust S D reg walk w).select fs scope.filter scope.schemes = .ok cands) (s : Signet) :
    s ∈ cands ↔ (∃ f ∈ walk fs, SignetFile f ∧ loadSignetFromFile D fs f = .ok s) ∧ scope.Fits s := by
  rw [(dir_select_files D fs (walk fs) scope.filter scope.schemes).2 cands h s, ← wanted_fits]
  constructor
  · rintro ⟨f, h1, h2, h3, h4⟩; exact ⟨⟨f, h1, h2, h3⟩, h4⟩
  · rintro ⟨⟨f, h1, h2, h3⟩, h4⟩; exact ⟨f, h1, h2, h3, h4⟩

theorem zipIdx_beyond (l : List Signet) : ∀ (k : Nat) (n : Nat), n ≤ k → (l.zipIdx k).filter (fun p => decide (p.2 < n)) = [] := by
  induction l with
  | nil => intro k n _; rfl
  | cons a l ih =>
    intro k n h
    rw [List.zipIdx_cons, List.filter_cons]
    have : ¬ k < n := by omega
    simp only [this, decide_false]
    exact ih (k + 1) n (by omega)

theorem zipIdx_first (pre rest : List Signet) : ∀ k, ((pre ++ rest).zipIdx k).filter (fun p => decide (p.2 < k + pre.length)) = pre.zipIdx k := by
  induction pre with
  | nil => intro k; exact zipIdx_beyond rest k _ (Nat.le_refl _)
  | cons a l ih =>
    intro k
    have h := ih (k + 1)
    rw [List.cons_append, List.zipIdx_cons, List.zipIdx_cons, List.filter_cons]
    have h1 : k < k + (a :: l).length := by simp
    simp only [h1, decide_true, if_true]
    have h2 : k + 1 + l.length = k + (a :: l).length := by simp only [List.length_cons]; omega
    rw [h2] at h
    rw [h]

theorem chosen_first (pre rest : List Signet) : chosenOf (pre ++ rest) (fun i => decide (i < pre.length)) = pre := by
  unfold chosenOf
  have h := zipIdx_first pre rest 0
  rw [Nat.zero_add] at h
  rw [h]
  exact List.zipIdx_map_fst 0 pre

/-- The envelope refers to the same signets, in the same order. -/
def SameRefs (a b : Envelope) : Prop :=
  a.secrets.map (·.id) = b.secrets.map (·.id) ∧ a.senders.map (·.id) = b.senders.map (·.id) ∧ a.recipients.map (·.id) = b.recipients.map (·.id)

/-- C69. The signets of the envelope are shown first and selected at the beginning: whoever leaves the selection as it is, leaves the envelope
as it is. -/
theorem untouched_selection {σ : Type} {E : DlgEnv} {T : Trust σ} {st : σ} {e : Envelope} {options : List Signet} {scope : Scope} {n : Nat}
    (hscope : scope = .secrets ∧ n = e.secrets.length ∨ scope = .recipient ∧ n = e.recipients.length ∨ scope = .sender ∧ n = e.senders.length)
    (hsel : T.select st scope.filter scope.schemes = .ok options) (ho : options ≠ [])
    (hS : ∀ s ∈ scope.current e ++ options, PlainSignet s)
    (hne : formatColumns E.pad (pickRows E.P options (scope.current e)) ≠ []) :
    ∃ e', selectSignets E T st e scope (some (fun i => decide (i < n))) = .ok e' ∧ SameRefs e' e := by
  refine ⟨_, select_chosen hsel ho hS hne _, ?_⟩
  unfold offered
  have hid : ∀ l : List Signet, (l.map (fun s => ({ id := s.id } : Signet))).map (·.id) = l.map (·.id) := by
    intro l; rw [List.map_map]; rfl
  rcases hscope with ⟨rfl, rfl⟩ | ⟨rfl, rfl⟩ | ⟨rfl, rfl⟩
  all_goals
    rw [show Scope.current e _ = _ from rfl]
    dsimp only [Scope.current]
    rw [chosen_first]
    simp only [SameRefs, Scope.assign, hid, and_self]

/-- C71. A new envelope cannot have a blank name: nothing is asked and nothing is changed. -/
theorem configure_blank_name {σ : Type} {E : DlgEnv} {T : Trust σ} {D : Dsd} {st : σ} {name : Bytes} {args : List Bytes} {preset : Option Nat}
    {rows : List (Option (Nat → Bool))} {rounds : List EditRound} (hb : Blank name) (hn : T.getEnvelope st name = .ok none) :
    (configureCommand E T D st (name :: args) preset rows rounds).1 = st ∧
    ∃ x, (configureCommand E T D st (name :: args) preset rows rounds).2 = .error x ∧
      ∀ preset' rows' rounds', configureCommand E T D st (name :: args) preset' rows' rounds' = (st, .error x) := by
  have ht : trimSpace name = [] := by
    have h := trimSpace_of hb Blank.nil trimmed_nil
    simpa using h
  unfold configureCommand newEnvelope
  simp only [hn, ht, if_true]
  split
  · exact ⟨rfl, _, rfl, fun _ _ _ => rfl⟩
  · exact ⟨rfl, _, rfl, fun _ _ _ => rfl⟩

/-- The hypotheses are met: the selection of a new envelope, and the name " ". -/
theorem untouched_example :
    (let T := refTrust [b!"a1.signet"]
     let e := signWith b!"mail" b!"a1"
     T.select oneFS (Scope.filter .sender) (Scope.schemes .sender) = .ok [listed b!"a1" b!"Alice" false] ∧
     formatColumns toyDlg.pad (pickRows toyDlg.P [listed b!"a1" b!"Alice" false] (Scope.current e .sender)) ≠ [] ∧
     (selectSignets toyDlg T oneFS e .sender (some (fun i => decide (i < e.senders.length)))).map (·.senders.map (·.id)) = .ok [b!"a1"] ∧
     T.getEnvelope oneFS b!" " = .ok none) ∧ Blank b!" " := by
  refine ⟨⟨?_, ?_, ?_, ?_⟩, Blank.of_mem (by decide)⟩ <;> decide +kernel

end Jess
