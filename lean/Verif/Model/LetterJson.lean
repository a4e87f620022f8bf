import Verif.Model.Formats

/-!
# Letters as JSON

`Letter.ToJSON` and `LetterFromJSON` (letter.go:147-162): `json.Marshal` (without blanks) and `json.Unmarshal`. Not modelled, as in `Model/Formats`:
names of members in other case, numbers that are not whole, null instead of a seal (that is `Model/Dispatch`).
-/

namespace Jess
namespace Formats

/-- `json.Marshal`: without blanks and new lines. -/
def jsonCompact : Nat → Val → Bytes
  | 0, _ => []
  | f + 1, v =>
    match v with
    | .null => b!"null"
    | .bool b => if b then b!"true" else b!"false"
    | .num n => decimal 20 n
    | .time _ => []
    | .bin _ => []
    | .str b => jsonQuote b
    | .arr l => 91 :: commas (fun v => jsonCompact f v) l ++ [93]
    | .obj l => 123 :: commas (fun p => jsonQuote p.1 ++ 58 :: jsonCompact f p.2) l ++ [125]

/-- letter.go:147-150, `Letter.ToJSON` -/
def letterToJSON (l : Letter) : Res Bytes := .ok (jsonCompact 10 (letterVal jsonBin l))

/-- letter.go:152-162, `LetterFromJSON` -/
def letterFromJSON (b : Bytes) : Res Letter :=
  match jsonParse b with
  | none => .error .malformed
  | some v => letterOf v

end Formats
end Jess
