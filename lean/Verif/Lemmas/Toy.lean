import Verif.Model.Session

/-! A toy instance of the primitives: functionally correct, not secure. It only serves to show that hypotheses about
primitives can be met and to evaluate concrete counterexamples. -/

namespace Jess

/-- Adds up the bytes of a string. -/
def toySum (b : Bytes) : UInt8 := b.foldl (· + ·) 0

/-- A commutative combination of two keys. -/
def toyMix (a b : Bytes) : Bytes := 1 :: List.zipWith (· + ·) a b

/-- `n` bytes that depend on `x`. -/
def toyBytes (n : Nat) (x : UInt8) : Bytes := match n with | 0 => [] | n + 1 => x :: List.replicate n 3

/-- A short checksum used as toy tag. -/
def toyTag (key nonce ad data : Bytes) : Bytes := [toySum key, toySum nonce, toySum ad, toySum data]

/-- Toy primitives: public and private key are the same byte string (the seed). -/
def toyPrims : Prims where
  kdf := fun tool hash nonce material off size =>
    .ok (toyBytes size (toySum tool + toySum hash + toySum nonce + toySum material + UInt8.ofNat off))
  passKdf := fun tool pw salt size => .ok (toyBytes size (toySum tool + toySum pw + toySum salt))
  genKey := fun _ seed => .ok (seed, seed)
  loadKey := fun _ key isPublic =>
    match key with
    | 1 :: k => .ok (k, if isPublic then none else some k)
    | _ => .error .invalidKey
  storeKey := fun _ pub _ => .ok (1 :: pub)
  dh := fun _ a b => toyMix a b
  encap := fun _ _ _ key _ => .ok key
  unwrap := fun _ _ _ w => .ok w
  encrypt := fun _ _ _ d => .ok (d.map (· + 1))
  decrypt := fun _ _ _ d => .ok (d.map (· - 1))
  aeadSeal := fun _ key nonce ad d => .ok (toyTag key nonce ad d ++ d)
  aeadOpen := fun _ key nonce ad c =>
    if c.take 4 = toyTag key nonce ad (c.drop 4) then .ok (c.drop 4) else .error .integrity
  mac := fun tool _ key msg => [toySum tool, toySum key, toySum msg]
  hash := fun _ m => m
  sign := fun _ _ priv digest _ => .ok (priv ++ digest)
  verify := fun _ _ pub digest sig => sig == pub ++ digest
  rsaBits := fun k => match k with | [] => none | x :: _ => some (x.toNat * 256)

/-- Default settings; every password is rated 128 bits. -/
def toyConfig : Config := { pwLevel := fun _ _ => 128 }

/-- A deterministic reader. -/
def toyRng : Rng := { read := fun i n => .ok (List.replicate n (UInt8.ofNat (i + 1))), seed := fun i => [UInt8.ofNat (i + 7), 5, 9] }

end Jess
