import Verif.Model.Dialogs
import Verif.Lemmas.Prepare
import Verif.Lemmas.Transfer

/-! The preparation of an envelope in place, and the preparation as a function, are the same. -/

namespace Jess

/-- One pass in place: result, flag and signet. -/
theorem prepOneIn_eq (P : Prims) (w : World) (level : Int) (flag : Bool) (s : Signet) :
    (prepOneIn P w level flag s).2.1 = nextFlag flag s ∧
    prepOne P w level flag s = (prepOneIn P w level flag s).2.2.map (fun _ => (prepOneIn P w level flag s).1) := by
  unfold prepOneIn prepOne nextFlag
  by_cases hk : s.key.length = 0
  · by_cases hp : s.scheme = schemePassword
    · have hne : schemePassword ≠ schemeKey := by decide
      simp only [hk, hp, if_true, hne, and_false, if_false]
      cases fillPassword w s (!flag) level <;> simp [Except.map]
    · simp only [hk, hp, if_true, if_false, true_and]
      cases hf : fetchSignet w (if s.scheme = schemeKey then false else flag) s with
      | error x => simp [Except.map]
      | ok n =>
        simp only [ok_bind]
        cases finishPrep P n <;> simp [Except.map]
  · simp only [hk, if_false, false_and]
    cases finishPrep P s <;> simp [Except.map]

theorem prepIn_cons (P : Prims) (w : World) (level : Int) (flag : Bool) (s : Signet) (ss : List Signet) :
    prepIn P w level flag (s :: ss) =
      match prepOneIn P w level flag s with
      | (s, _, .error x) => (s :: ss, .error x)
      | (s, r, .ok _) => (s :: (prepIn P w level r ss).1, (prepIn P w level r ss).2) := rfl

theorem prepIn_eq (P : Prims) (w : World) (level : Int) : ∀ (l : List Signet) (flag : Bool),
    prepSignets P w level flag l = (prepIn P w level flag l).2.map (fun _ => (prepIn P w level flag l).1)
  | [], flag => rfl
  | s :: ss, flag => by
    obtain ⟨h1, h2⟩ := prepOneIn_eq P w level flag s
    rw [prepSignets_cons, prepIn_cons, h2, ← h1]
    generalize prepOneIn P w level flag s = r
    obtain ⟨s', f, r⟩ := r
    cases r with
    | error x => simp [Except.map]
    | ok u =>
      dsimp only
      rw [prepIn_eq P w level ss f]
      cases (prepIn P w level f ss).2 <;> simp [Except.map]

theorem prepareIn_eq (P : Prims) (w : World) (level : Int) (e : Envelope) :
    prepareSignets P w level e = (prepareIn P w level e).2.map (fun _ => (prepareIn P w level e).1) := by
  unfold prepareSignets prepareIn
  rw [prepIn_eq, prepIn_eq, prepIn_eq]
  generalize prepIn P w level e.opening e.secrets = a
  obtain ⟨a, ra⟩ := a
  cases ra with
  | error x => simp [Except.map]
  | ok u =>
    generalize prepIn P w level e.opening e.senders = b
    obtain ⟨b, rb⟩ := b
    cases rb with
    | error x => simp [Except.map]
    | ok u =>
      generalize prepIn P w level (!e.opening) e.recipients = c
      obtain ⟨c, rc⟩ := c
      cases rc <;> simp [Except.map]

/-- `Correspondence` gives the same session, whether its effects on the envelope are modelled or not. -/
theorem correspondenceIn_eq (P : Prims) (cfg : Config) (w : World) (reg : List Suite) (e : Envelope) :
    (correspondenceIn P cfg w reg e).2 = correspondence P cfg w reg e := by
  unfold correspondenceIn correspondence
  cases loadSuite reg e with
  | error x => rfl
  | ok p =>
    obtain ⟨e, su⟩ := p
    simp only [ok_bind]
    rw [prepareIn_eq]
    generalize prepareIn P w su.securityLevel e = r
    obtain ⟨e', r⟩ := r
    cases r <;> rfl

/-- What a successful `Correspondence` leaves in the envelope is the envelope of the session. -/
theorem correspondenceIn_env {P : Prims} {cfg : Config} {w : World} {reg : List Suite} {e : Envelope} {s : Session}
    (h : (correspondenceIn P cfg w reg e).2 = .ok s) : s.env = (correspondenceIn P cfg w reg e).1 := by
  unfold correspondenceIn at h ⊢
  cases hl : loadSuite reg e with
  | error x => rw [hl] at h; cases h
  | ok p =>
    obtain ⟨e1, su⟩ := p
    rw [hl] at h
    dsimp only at h ⊢
    generalize prepareIn P w su.securityLevel e1 = r at *
    obtain ⟨e2, r⟩ := r
    cases r with
    | error x => cases h
    | ok u => exact (newSession_env h).1

end Jess
