/-!
# Basic types of the model

Byte strings, error values, and literals.  Go's `[]byte` and `string` are both modelled as lists of
bytes: Go strings are arbitrary byte strings and the code converts between the two freely.
-/

namespace Jess

/-- Go `[]byte` and `string` (both are byte sequences). A nil slice is identified with an empty one. -/
abbrev Bytes := List UInt8

/-- `b!"text"` is the byte string of a literal (expanded to an explicit list, so the kernel can compute with it). -/
macro:max "b!" s:str : term => do
  let bs := s.getString.toUTF8.toList.map fun b =>
    (Lean.Syntax.mkNumLit (toString b.toNat) : Lean.TSyntax `term)
  let arr := bs.toArray
  `(([$arr,*] : List UInt8))

/-- Error classes.  Go error values are only distinguished as far as a property needs it; `panic`
stands for a Go run time panic (index out of range, nil dereference). -/
inductive Err where
  /-- a Go run time panic -/
  | panic
  /-- an input ended early / `container` and `varint` errors -/
  | short
  /-- number too large for its type -/
  | overflow
  /-- unsupported version of a format or letter -/
  | version
  /-- a name was not found in a registry or store -/
  | notFound
  /-- a signet could not be found in the trust store -/
  | signetNotFound
  /-- missing security requirement -/
  | requirements
  /-- security level too low / broken -/
  | level
  /-- configuration error of suite, tool set or envelope -/
  | config
  /-- cryptographic integrity violation -/
  | integrity
  /-- signature verification failed -/
  | signature
  /-- invalid key serialization -/
  | invalidKey
  /-- malformed input -/
  | malformed
  /-- missing element -/
  | missing
  /-- operation is not implemented / not supported -/
  | unsupported
  /-- a fault of the environment (RNG, file system, callback) -/
  | env
  deriving DecidableEq, Repr

/-- Result of a fallible Go function. -/
abbrev Res (α : Type) := Except Err α

instance {α : Type} [DecidableEq α] : DecidableEq (Res α) := fun a b =>
  match a, b with
  | .ok x, .ok y => if h : x = y then isTrue (by rw [h]) else isFalse (by simpa using h)
  | .error x, .error y => if h : x = y then isTrue (by rw [h]) else isFalse (by simpa using h)
  | .ok _, .error _ => isFalse (by simp)
  | .error _, .ok _ => isFalse (by simp)

/-- The result is not a panic. -/
def Res.noPanic {α : Type} (r : Res α) : Prop := r ≠ .error .panic

/-- Go's `len(s) > 0`. -/
def nonempty (b : Bytes) : Bool := !b.isEmpty

/-- Go's `strings.HasPrefix` / `bytes.HasPrefix`. -/
def hasPrefix (s pre : Bytes) : Bool := pre.isPrefixOf s

/-- Go's `strings.HasSuffix`. -/
def hasSuffix (s suf : Bytes) : Bool := suf.isSuffixOf s

/-- Go's `strings.TrimPrefix`. -/
def trimPrefix (s pre : Bytes) : Bytes := if hasPrefix s pre then s.drop pre.length else s

/-- Go's `strings.TrimSuffix`. -/
def trimSuffix (s suf : Bytes) : Bytes := if hasSuffix s suf then s.take (s.length - suf.length) else s

end Jess
