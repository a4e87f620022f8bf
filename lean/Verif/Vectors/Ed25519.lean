import Verif.Vectors.Hash

/-!
# Ed25519 (RFC 8032), for replaying artifacts of the repository through the model

As in `Verif.Vectors.Hash`: nothing here models code of /repo, and no theorem about a property rests on it.
-/

namespace Jess.Vectors

def edP : Nat := 2 ^ 255 - 19
def edL : Nat := 2 ^ 252 + 27742317777372353535851937790883648493

/-- `b ^ e` modulo `m`, times `acc`. -/
def powMod (m : Nat) : (fuel b e acc : Nat) → Nat
  | 0, _, _, acc => acc
  | f + 1, b, e, acc =>
    force (if e % 2 = 1 then acc * b % m else acc) fun acc =>
    force (b * b % m) fun b =>
    force (e / 2) fun e => powMod m f b e acc

def edInv (x : Nat) : Nat := powMod edP 255 x (edP - 2) 1
def edD : Nat := (edP - 121665) * edInv 121666 % edP
def edSqrtM1 : Nat := powMod edP 255 2 ((edP - 1) / 4) 1

/-- Points in extended coordinates. -/
def edAdd (d : Nat) (p q : List Nat) : List Nat :=
  match p, q with
  | [x1, y1, z1, t1], [x2, y2, z2, t2] =>
    force ((y1 + edP - x1) * (y2 + edP - x2) % edP) fun a =>
    force ((y1 + x1) * (y2 + x2) % edP) fun b =>
    force (2 * t1 * t2 % edP * d % edP) fun c =>
    force (2 * z1 * z2 % edP) fun dd =>
    force (b + edP - a) fun e =>
    force (dd + edP - c) fun f =>
    force (dd + c) fun g =>
    force (b + a) fun h =>
    forceL [e * f % edP, g * h % edP, f * g % edP, e * h % edP] fun r => r
  | _, _ => []

def edMul (d : Nat) : (fuel s : Nat) → (p acc : List Nat) → List Nat
  | 0, _, _, acc => acc
  | f + 1, s, p, acc =>
    forceL (if s % 2 = 1 then edAdd d acc p else acc) fun acc =>
    forceL (edAdd d p p) fun p =>
    force (s / 2) fun s => edMul d f s p acc

/-- The point of 32 bytes. -/
def edDecode (d : Nat) (b : List Nat) : Option (List Nat) :=
  if b.length ≠ 32 then none else
  force (leNat b) fun n =>
  force (n % 2 ^ 255) fun y =>
  force ((y * y + edP - 1) % edP * edInv ((d * (y * y % edP) + 1) % edP) % edP) fun x2 =>
  force (powMod edP 255 x2 ((edP + 3) / 8) 1) fun x =>
  force (if x * x % edP = x2 then x else x * edSqrtM1 % edP) fun x =>
    if x * x % edP ≠ x2 then none
    else if x = 0 ∧ n / 2 ^ 255 = 1 then none
    else force (if x % 2 = n / 2 ^ 255 then x else edP - x) fun x =>
      force (x * y % edP) fun t => some [x, y % edP, 1, t]

def edEncode (p : List Nat) : List Nat :=
  match p with
  | [x, y, z, _] =>
    force (edInv z) fun i =>
    force (x * i % edP) fun x =>
    force (y * i % edP) fun y => natLE 32 (y + (x % 2) * 2 ^ 255)
  | _ => []

def edBase (d : Nat) : List Nat := (edDecode d (natLE 32 (4 * edInv 5 % edP))).getD []

/-- `ed25519.Verify`. -/
def edVerify (pub msg sig : List Nat) : Bool :=
  force edD fun d =>
  match edDecode d pub with
  | some [x, y, z, t] =>
    force (leNat (sig.drop 32)) fun s =>
      if sig.length ≠ 64 ∨ s ≥ edL then false
      else
        force (leNat (sha512 (sig.take 32 ++ pub ++ msg)) % edL) fun k =>
        forceL (edBase d) fun b =>
        forceL (edMul d 256 s b [0, 1, 1, 0]) fun sb =>
        forceL (edMul d 256 k [edP - x, y, z, edP - t] [0, 1, 1, 0]) fun ka =>
        decide (edEncode (edAdd d sb ka) = sig.take 32)
  | _ => false

/-- `ed25519.Sign` with the private key as Go stores it: seed and public key. -/
def edSign (priv msg : List Nat) : List Nat :=
  force edD fun d =>
  forceL (sha512 (priv.take 32)) fun h =>
  force (leNat (h.take 32) % 2 ^ 254 / 8 * 8 + 2 ^ 254) fun a =>
  force (leNat (sha512 (h.drop 32 ++ msg)) % edL) fun r =>
  forceL (edBase d) fun b =>
  forceL (edEncode (edMul d 256 r b [0, 1, 1, 0])) fun rb =>
  force (leNat (sha512 (rb ++ priv.drop 32 ++ msg)) % edL) fun k =>
    rb ++ natLE 32 ((r + k * a) % edL)

end Jess.Vectors
