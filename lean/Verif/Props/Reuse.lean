import Verif.Lemmas.Core
import Verif.Props.Levels

/-!
# C11: a session can be used any number of times
-/

namespace Jess

/-- An operation on a session; `close` comes with the random numbers it draws. -/
inductive Op where
  | close (rng : Rng) (data : Bytes)
  | open (l : Letter)
  | verify (l : Letter)

/-- What an operation returns. -/
inductive Outcome where
  | closed (r : Res Letter)
  | opened (r : Res Bytes)
  | verified (r : Res Unit)
  deriving DecidableEq

/-- Runs one operation. -/
def runOp (P : Prims) (cfg : Config) (s : Session) (st : SState) : Op → SState × Outcome
  | .close rng data => let r := s.close P cfg rng st data; (r.1, .closed r.2)
  | .open l => let r := s.open P cfg st l; (r.1, .opened r.2)
  | .verify l => let r := s.verify P st l; (r.1, .verified r.2)

/-- Runs a sequence of operations on one session. -/
def runOps (P : Prims) (cfg : Config) (s : Session) : SState → List Op → List Outcome
  | _, [] => []
  | st, op :: ops => (runOp P cfg s st op).2 :: runOps P cfg s (runOp P cfg s st op).1 ops

theorem runOp_clean (P : Prims) (cfg : Config) (s : Session) (st : SState) (hc : Clean s st) (op : Op) :
    Clean s (runOp P cfg s st op).1 ∧ (runOp P cfg s st op).2 = (runOp P cfg s s.initState op).2 := by
  cases op with
  | close rng data => obtain ⟨h1, h2⟩ := close_clean (P := P) (cfg := cfg) (rng := rng) hc data; exact ⟨h1, by simp [runOp, h2]⟩
  | «open» l => obtain ⟨h1, h2⟩ := open_clean (P := P) (cfg := cfg) hc l; exact ⟨h1, by simp [runOp, h2]⟩
  | verify l => obtain ⟨h1, h2⟩ := verify_clean (P := P) hc l; exact ⟨h1, by simp [runOp, h2]⟩

/-- C11. Any sequence of operations on one session — with failures anywhere in it — gives exactly the results that each
operation gives on a new session. -/
theorem session_reusable (P : Prims) (cfg : Config) (s : Session) (ops : List Op) :
    runOps P cfg s s.initState ops = ops.map (fun op => (runOp P cfg s s.initState op).2) := by
  have : ∀ st, Clean s st → runOps P cfg s st ops = ops.map (fun op => (runOp P cfg s s.initState op).2) := by
    induction ops with
    | nil => intro st _; rfl
    | cons op ops ih =>
      intro st hc
      obtain ⟨h1, h2⟩ := runOp_clean P cfg s st hc op
      simp only [runOps, List.map_cons, h2]
      rw [ih _ h1]
  exact this _ (clean_init s)

/-- A suite with POLY1305, whose key must not be used twice. -/
def polyEnvelope : Envelope :=
  { suiteID := b!"poly", version := 1,
    suite := some { id := b!"poly", tools := [b!"HKDF(SHA2-256)", b!"SALSA20", b!"POLY1305", b!"Ed25519(SHA2-256)"],
                    provides := [], securityLevel := 128, status := 1 },
    secrets := [{ id := b!"k", scheme := schemeKey, key := List.replicate 16 7 }],
    senders := [{ edSender with loadedPub := some [42, 43], loadedPriv := some [42, 43] }] }

/-- The theorem is not about failures only: on a session with a one-time MAC, three letters are closed one after the other
and the second one is opened in between. -/
theorem session_reusable_example :
    (match newSession toyPrims toyConfig polyEnvelope with
    | .ok s =>
      match runOps toyPrims toyConfig s s.initState [.close toyRng [1, 2, 3], .close toyRng [4], .close toyRng []] with
      | [.closed (.ok a), .closed (.ok b), .closed (.ok _)] =>
        decide (runOps toyPrims toyConfig s s.initState [.close toyRng [9], .open b, .open a, .verify a, .open { a with mac := [] }] =
          (match (s.close toyPrims toyConfig toyRng s.initState [9]).2 with
            | r => [.closed r, .opened (.ok [4]), .opened (.ok [1, 2, 3]), .verified (.ok ()), .opened (.error .signature)]))
      | _ => false
    | .error _ => false) = true := by decide +kernel

end Jess
