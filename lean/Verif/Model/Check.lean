import Verif.Model.LetterOps

/-!
# Checking an envelope: `envelope.go`
-/

namespace Jess

/-- envelope.go:95-98 `Envelope.Check`: makes a session and drops it. `LoadSuite` and `PrepareSignets` change the envelope in place; the result is the
envelope as it is left if the check succeeds (what is left after a failure is not modelled). -/
def Envelope.check (P : Prims) (cfg : Config) (w : World) (reg : List Suite) (e : Envelope) : Res Envelope := do
  let s ← correspondence P cfg w reg e
  .ok s.env

end Jess
