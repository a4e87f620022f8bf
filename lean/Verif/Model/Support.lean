import Verif.Model.Session

/-!
# Supporting code: password strength (`password.go`), random numbers (`random.go`), RSA key sizes (`tools/gostdlib/rsa-keys.go`),
the state of POLY1305 (`tools/gostdlib/poly1305.go`), callbacks (`password.go`)
-/

namespace Jess

/-! ## Password strength -/

/-- password.go:10-17 `passwordCharSets`. -/
def passwordCharSets : List Bytes :=
  [b!"abcdefghijklmnopqrstuvwxyz", b!"ABCDEFGHIJKLMNOPQRSTUVWXYZ", b!"0123456789", b!"- .,_", b!"!\"#$%&'()*+/:;<=>?@[\\]^`{|}~"]

/-- password.go:94-103 `countRuneInString`. All listed characters are ASCII, so this counts bytes. -/
def countRune (s : Bytes) (c : UInt8) : Nat := s.count c

/-- The counters of password.go:44-46. -/
structure PwScan where
  found : Nat := 0
  distinct : Nat := 0
  pool : Nat := 0
  deriving DecidableEq, Repr

/-- password.go:53-67 the loop over one character set: `none` for `return -1`; the flag is `foundInCharSet`. -/
def scanSet (pw : Bytes) : Bytes → PwScan × Bool → Option (PwScan × Bool)
  | [], x => some x
  | c :: cs, (x, b) =>
    if countRune pw c * 4 ≥ pw.length then none
    else if countRune pw c > 0 then
      scanSet pw cs ({ x with found := x.found + countRune pw c, distinct := x.distinct + 1 }, true)
    else scanSet pw cs (x, b)

/-- password.go:49-73 the loop over the character sets. -/
def scanSets (pw : Bytes) : List Bytes → PwScan → Option PwScan
  | [], x => some x
  | cs :: css, x =>
    match scanSet pw cs (x, false) with
    | none => none
    | some (x, b) => scanSets pw css (if b then { x with pool := x.pool + cs.length } else x)

/-- math.MinInt64, the result of converting ±Inf and NaN to `int` on amd64 (the Go specification leaves it open). -/
def minInt : Int := -9223372036854775808

/-- password.go:86-92: `Log2(pool^len / 2 * iterations)`, rounded down. Floating point is idealized: there are no rounding errors, but
numbers from 2^1024 on are +Inf, and the logarithm of 0 is -Inf; both are converted to `minInt`. -/
def pwEstimate (pool len iterations : Nat) : Int :=
  if iterations = 0 then minInt
  else if 2 ^ 1024 ≤ pool ^ len ∨ 2 ^ 1025 ≤ pool ^ len * iterations then minInt
  else (Nat.log2 (pool ^ len * iterations) : Int) - 1

/-- password.go:40-92 `CalculatePasswordSecurityLevel`. -/
def passwordLevel (pw : Bytes) (iterations : Nat) : Int :=
  match scanSets pw passwordCharSets {} with
  | none => -1
  | some x =>
    if x.distinct * 4 ≤ pw.length then -1
    else pwEstimate (if x.found < pw.length then x.pool + 32 else x.pool) pw.length iterations

/-! ## RSA key sizes -/

/-- tools/gostdlib/rsa-keys.go:181-194 `getRSAKeySizeBySecurityLevel`. -/
def rsaKeySize (level : Int) : Int :=
  if level ≤ 112 then 2048 else if level ≤ 128 then 3072 else if level ≤ 192 then 7680 else if level ≤ 256 then 15360 else 256

/-! ## POLY1305 -/

/-- tools/gostdlib/poly1305.go:27-32. -/
structure Poly where
  key : Bytes := []
  setUp : Bool := false
  used : Bool := false
  deriving DecidableEq, Repr

/-- The calls of the tool. The key stream of the session is an input: what `FillNewSessionKey` leaves in the key, and whether it fails. -/
inductive PolyCall where
  | setup (key : Bytes) (fails : Bool)
  | reset
  | mac (msg : Bytes)
  deriving DecidableEq, Repr

/-- tools/gostdlib/poly1305.go:35-84. The result of `MAC` is the key and the message that the MAC was made with. -/
def Poly.call (p : Poly) : PolyCall → Poly × Res (Option (Bytes × Bytes))
  | .setup key true => ({ p with key := key }, .error .config)
  | .setup key false => ({ p with key := key, setUp := true }, .ok none)
  | .reset => ({ key := p.key.map (fun _ => 255), setUp := false, used := false }, .ok none)
  | .mac msg =>
    if !p.setUp then (p, .error .config)
    else if p.used then (p, .error .config)
    else ({ p with used := true }, .ok (some (p.key, msg)))

/-- A sequence of calls: the results in order. -/
def Poly.run : Poly → List PolyCall → List (Res (Option (Bytes × Bytes)))
  | _, [] => []
  | p, c :: cs => (p.call c).2 :: (p.call c).1.run cs

/-! ## Global settings that can be set once -/

/-- random.go:10-13, password.go:23-24. Readers and callbacks are identified by a number; `none` is nil. -/
structure Globals where
  rng : Option Nat := none
  rngSet : Bool := false
  create : Option Nat := none
  get : Option Nat := none
  deriving DecidableEq, Repr

/-- random.go:40-45 `SetCustomRNG` (also with a nil reader). -/
def Globals.setRNG (g : Globals) (r : Option Nat) : Globals := if g.rngSet then g else { g with rng := r, rngSet := true }

/-- password.go:27-37 `SetPasswordCallbacks`. -/
def Globals.setCallbacks (g : Globals) (create get : Option Nat) : Globals :=
  let g := if g.create.isNone then { g with create := create } else g
  if g.get.isNone then { g with get := get } else g

/-- What `Random()` (random.go:16-21) returns: the default reader, or the custom one (which may be nil). -/
inductive Reader where
  | default
  | custom (r : Option Nat)
  deriving DecidableEq, Repr

/-- random.go:16-21 `Random`. -/
def Globals.random (g : Globals) : Reader := if g.rngSet then .custom g.rng else .default

/-- A call that changes the settings. -/
inductive SetCall where
  | rng (r : Option Nat)
  | callbacks (create get : Option Nat)

def Globals.apply (g : Globals) : SetCall → Globals
  | .rng r => g.setRNG r
  | .callbacks c t => g.setCallbacks c t

/-! ### The same, with concurrent callers -/

/-- The program counter of a goroutine in `SetCustomRNG`: before the check, before the assignment, before setting the flag, done. -/
inductive SetPC where
  | check | assign | flag | done
  deriving DecidableEq, Repr

/-- random.go:40-45 one step of a goroutine that sets the reader `r`. -/
def setRNGStep (g : Globals) (r : Nat) : SetPC → Globals × SetPC
  | .check => (g, if g.rngSet then .done else .assign)
  | .assign => ({ g with rng := some r }, .flag)
  | .flag => ({ g with rngSet := true }, .done)
  | .done => (g, .done)

/-- Two goroutines that call `SetCustomRNG` with reader 1 and 2; the schedule says which one makes a step (`true`: the first). -/
def setRNGRace : List Bool → Globals × SetPC × SetPC → List Globals
  | [], x => [x.1]
  | true :: sched, (g, a, b) => g :: setRNGRace sched ((setRNGStep g 1 a).1, (setRNGStep g 1 a).2, b)
  | false :: sched, (g, a, b) => g :: setRNGRace sched ((setRNGStep g 2 b).1, a, (setRNGStep g 2 b).2)

end Jess
