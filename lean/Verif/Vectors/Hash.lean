import Verif.Model.LHash

/-!
# The real hash functions, for replaying artifacts of the repository through the model

Nothing here models code of /repo: these are the hash functions behind `Hashes` and `Prims.hash`, written after their standards
(FIPS 180-4, FIPS 202, RFC 7693, the BLAKE3 paper) so that the kernel can run them. They are used only in `Verif.Vectors`, to run
the model on files that the real program wrote and on the vectors of its tests. No theorem about a property rests on them.

Words are natural numbers. `force` makes the kernel evaluate a number before it goes on.
-/

namespace Jess.Vectors

/-- Evaluate a number. -/
def force {α : Sort u} (n : Nat) (f : Nat → α) : α :=
  match n with
  | 0 => f 0
  | k + 1 => f (k + 1)

/-- Evaluate the numbers of a list. -/
def forceL {α : Sort u} : List Nat → (List Nat → α) → α
  | [], f => f []
  | x :: xs, f => force x fun x => forceL xs fun xs => f (x :: xs)

/-- Bytes to a number, the first byte first. -/
def beNat (b : List Nat) : Nat := b.foldl (fun a x => a * 256 + x) 0
/-- Bytes to a number, the last byte first. -/
def leNat (b : List Nat) : Nat := b.foldr (fun x a => a * 256 + x) 0

/-- A number as `n` bytes, the first byte first. -/
def natBE : Nat → Nat → List Nat
  | 0, _ => []
  | n + 1, x => (x >>> (8 * n)) % 256 :: natBE n x
/-- A number as `n` bytes, the last byte first. -/
def natLE : Nat → Nat → List Nat
  | 0, _ => []
  | n + 1, x => x % 256 :: natLE n (x / 256)

/-- Cut a list into pieces of `n` elements (the last one may be shorter). -/
def pieces (n : Nat) (fuel : Nat) (l : List Nat) : List (List Nat) :=
  match fuel, l with
  | _, [] => []
  | 0, _ => []
  | k + 1, l => l.take n :: pieces n k (l.drop n)

def ror (w x n : Nat) : Nat := ((x >>> n) ||| (x <<< (w - n))) % 2 ^ w

/-! ## SHA-2 -/

structure Sha2 where
  w : Nat
  k : List Nat
  big0 : Nat × Nat × Nat
  big1 : Nat × Nat × Nat
  small0 : Nat × Nat × Nat
  small1 : Nat × Nat × Nat

def Sha2.sum (c : Sha2) (r : Nat × Nat × Nat) (x : Nat) : Nat := (ror c.w x r.1 ^^^ ror c.w x r.2.1) ^^^ ror c.w x r.2.2
def Sha2.sig (c : Sha2) (r : Nat × Nat × Nat) (x : Nat) : Nat := (ror c.w x r.1 ^^^ ror c.w x r.2.1) ^^^ (x >>> r.2.2)

def Sha2.rounds (c : Sha2) : List Nat → List Nat → List Nat → List Nat
  | [], _, st => st
  | k :: ks, win, st =>
    match st with
    | [a, b, cc, d, e, f, g, h] =>
      force ((h + c.sum c.big1 e + ((e &&& f) ^^^ ((2 ^ c.w - 1 - e) &&& g)) + k + win.getD 0 0) % 2 ^ c.w) fun t1 =>
      force ((t1 + c.sum c.big0 a + (((a &&& b) ^^^ (a &&& cc)) ^^^ (b &&& cc))) % 2 ^ c.w) fun a' =>
      force ((d + t1) % 2 ^ c.w) fun e' =>
      forceL (win.tail ++ [(c.sig c.small1 (win.getD 14 0) + win.getD 9 0 + c.sig c.small0 (win.getD 1 0) + win.getD 0 0) % 2 ^ c.w])
        fun win => c.rounds ks win [a', a, b, cc, e', e, f, g]
    | _ => []

def Sha2.block (c : Sha2) (h : List Nat) (b : List Nat) : List Nat :=
  forceL ((pieces (c.w / 8) 16 b).map beNat) fun win =>
  forceL (List.zipWith (fun x y => (x + y) % 2 ^ c.w) h (c.rounds c.k win h)) fun h => h

def Sha2.blocks (c : Sha2) : List (List Nat) → List Nat → List Nat
  | [], h => h
  | b :: bs, h => c.blocks bs (c.block h b)

def Sha2.pad (c : Sha2) (m : List Nat) : List Nat :=
  let blk := 2 * c.w
  let len := c.w / 4
  m ++ 0x80 :: List.replicate ((2 * blk - 1 - len - m.length % blk) % blk) 0 ++ natBE len (8 * m.length)

def Sha2.run (c : Sha2) (iv : List Nat) (size : Nat) (m : List Nat) : List Nat :=
  forceL (c.pad m) fun p =>
    ((c.blocks (pieces (2 * c.w) (p.length) p) iv).flatMap (natBE (c.w / 8))).take size

def sha2Small : Sha2 where
  w := 32
  k := [0x428a2f98, 0x71374491, 0xb5c0fbcf, 0xe9b5dba5, 0x3956c25b, 0x59f111f1, 0x923f82a4, 0xab1c5ed5,
   0xd807aa98, 0x12835b01, 0x243185be, 0x550c7dc3, 0x72be5d74, 0x80deb1fe, 0x9bdc06a7, 0xc19bf174,
   0xe49b69c1, 0xefbe4786, 0xfc19dc6, 0x240ca1cc, 0x2de92c6f, 0x4a7484aa, 0x5cb0a9dc, 0x76f988da,
   0x983e5152, 0xa831c66d, 0xb00327c8, 0xbf597fc7, 0xc6e00bf3, 0xd5a79147, 0x6ca6351, 0x14292967,
   0x27b70a85, 0x2e1b2138, 0x4d2c6dfc, 0x53380d13, 0x650a7354, 0x766a0abb, 0x81c2c92e, 0x92722c85,
   0xa2bfe8a1, 0xa81a664b, 0xc24b8b70, 0xc76c51a3, 0xd192e819, 0xd6990624, 0xf40e3585, 0x106aa070,
   0x19a4c116, 0x1e376c08, 0x2748774c, 0x34b0bcb5, 0x391c0cb3, 0x4ed8aa4a, 0x5b9cca4f, 0x682e6ff3,
   0x748f82ee, 0x78a5636f, 0x84c87814, 0x8cc70208, 0x90befffa, 0xa4506ceb, 0xbef9a3f7, 0xc67178f2]
  big0 := (2, 13, 22)
  big1 := (6, 11, 25)
  small0 := (7, 18, 3)
  small1 := (17, 19, 10)

def sha2Big : Sha2 where
  w := 64
  k := [0x428a2f98d728ae22, 0x7137449123ef65cd, 0xb5c0fbcfec4d3b2f, 0xe9b5dba58189dbbc, 0x3956c25bf348b538,
   0x59f111f1b605d019, 0x923f82a4af194f9b, 0xab1c5ed5da6d8118, 0xd807aa98a3030242, 0x12835b0145706fbe,
   0x243185be4ee4b28c, 0x550c7dc3d5ffb4e2, 0x72be5d74f27b896f, 0x80deb1fe3b1696b1, 0x9bdc06a725c71235,
   0xc19bf174cf692694, 0xe49b69c19ef14ad2, 0xefbe4786384f25e3, 0xfc19dc68b8cd5b5, 0x240ca1cc77ac9c65,
   0x2de92c6f592b0275, 0x4a7484aa6ea6e483, 0x5cb0a9dcbd41fbd4, 0x76f988da831153b5, 0x983e5152ee66dfab,
   0xa831c66d2db43210, 0xb00327c898fb213f, 0xbf597fc7beef0ee4, 0xc6e00bf33da88fc2, 0xd5a79147930aa725,
   0x6ca6351e003826f, 0x142929670a0e6e70, 0x27b70a8546d22ffc, 0x2e1b21385c26c926, 0x4d2c6dfc5ac42aed,
   0x53380d139d95b3df, 0x650a73548baf63de, 0x766a0abb3c77b2a8, 0x81c2c92e47edaee6, 0x92722c851482353b,
   0xa2bfe8a14cf10364, 0xa81a664bbc423001, 0xc24b8b70d0f89791, 0xc76c51a30654be30, 0xd192e819d6ef5218,
   0xd69906245565a910, 0xf40e35855771202a, 0x106aa07032bbd1b8, 0x19a4c116b8d2d0c8, 0x1e376c085141ab53,
   0x2748774cdf8eeb99, 0x34b0bcb5e19b48a8, 0x391c0cb3c5c95a63, 0x4ed8aa4ae3418acb, 0x5b9cca4f7763e373,
   0x682e6ff3d6b2b8a3, 0x748f82ee5defb2fc, 0x78a5636f43172f60, 0x84c87814a1f0ab72, 0x8cc702081a6439ec,
   0x90befffa23631e28, 0xa4506cebde82bde9, 0xbef9a3f7b2c67915, 0xc67178f2e372532b, 0xca273eceea26619c,
   0xd186b8c721c0c207, 0xeada7dd6cde0eb1e, 0xf57d4f7fee6ed178, 0x6f067aa72176fba, 0xa637dc5a2c898a6,
   0x113f9804bef90dae, 0x1b710b35131c471b, 0x28db77f523047d84, 0x32caab7b40c72493, 0x3c9ebe0a15c9bebc,
   0x431d67c49c100d4c, 0x4cc5d4becb3e42b6, 0x597f299cfc657e2a, 0x5fcb6fab3ad6faec, 0x6c44198c4a475817]
  big0 := (28, 34, 39)
  big1 := (14, 18, 41)
  small0 := (1, 8, 7)
  small1 := (19, 61, 6)

def sha224 : List Nat → List Nat := sha2Small.run [0xc1059ed8, 0x367cd507, 0x3070dd17, 0xf70e5939, 0xffc00b31, 0x68581511, 0x64f98fa7, 0xbefa4fa4] 28
def sha256 : List Nat → List Nat := sha2Small.run [0x6a09e667, 0xbb67ae85, 0x3c6ef372, 0xa54ff53a, 0x510e527f, 0x9b05688c, 0x1f83d9ab, 0x5be0cd19] 32
def sha384 : List Nat → List Nat := sha2Big.run [0xcbbb9d5dc1059ed8, 0x629a292a367cd507, 0x9159015a3070dd17, 0x152fecd8f70e5939, 0x67332667ffc00b31,
   0x8eb44a8768581511, 0xdb0c2e0d64f98fa7, 0x47b5481dbefa4fa4] 48
def sha512 : List Nat → List Nat := sha2Big.run [0x6a09e667f3bcc908, 0xbb67ae8584caa73b, 0x3c6ef372fe94f82b, 0xa54ff53a5f1d36f1, 0x510e527fade682d1,
   0x9b05688c2b3e6c1f, 0x1f83d9abfb41bd6b, 0x5be0cd19137e2179] 64
def sha512_224 : List Nat → List Nat := sha2Big.run [0x8c3d37c819544da2, 0x73e1996689dcd4d6, 0x1dfab7ae32ff9c82, 0x679dd514582f9fcf, 0xf6d2b697bd44da8,
   0x77e36f7304c48942, 0x3f9d85a86a1d36c8, 0x1112e6ad91d692a1] 28
def sha512_256 : List Nat → List Nat := sha2Big.run [0x22312194fc2bf72c, 0x9f555fa3c84c64c2, 0x2393b86b6f53b151, 0x963877195940eabd, 0x96283ee2a88effe3,
   0xbe5e1e2553863992, 0x2b0199fc2c85b8aa, 0xeb72ddc81c52ca2] 32

/-! ## SHA-3 -/

def keccakRC : List Nat := [1, 0x8082, 0x800000000000808a, 0x8000000080008000, 0x808b,
   0x80000001, 0x8000000080008081, 0x8000000000008009, 0x8a, 0x88,
   0x80008009, 0x8000000a, 0x8000808b, 0x800000000000008b, 0x8000000000008089,
   0x8000000000008003, 0x8000000000008002, 0x8000000000000080, 0x800a, 0x800000008000000a,
   0x8000000080008081, 0x8000000000008080, 0x80000001, 0x8000000080008008]

def keccakRho : List Nat := [0, 1, 62, 28, 27, 36, 44, 6, 55, 20, 3, 10, 43, 25, 39, 41, 45, 15, 21, 8, 18, 2, 61, 56, 14]

def rol64 (x n : Nat) : Nat := ((x <<< n) ||| (x >>> (64 - n))) % 2 ^ 64

def keccakRounds : List Nat → List Nat → List Nat
  | [], s => s
  | rc :: rcs, s =>
    forceL ((List.range 5).map fun x =>
      (((s.getD x 0 ^^^ s.getD (x + 5) 0) ^^^ s.getD (x + 10) 0) ^^^ s.getD (x + 15) 0) ^^^ s.getD (x + 20) 0) fun c =>
    forceL ((List.range 5).map fun x => c.getD ((x + 4) % 5) 0 ^^^ rol64 (c.getD ((x + 1) % 5) 0) 1) fun d =>
    forceL ((List.range 25).map fun i => rol64 (s.getD i 0 ^^^ d.getD (i % 5) 0) (keccakRho.getD i 0)) fun r =>
    -- pi: the lane at (x, y) comes from (x + 3 y, x)
    forceL ((List.range 25).map fun i => r.getD ((i % 5 + 3 * (i / 5)) % 5 + 5 * (i % 5)) 0) fun b =>
    forceL ((List.range 25).map fun i =>
      (b.getD i 0 ^^^ ((2 ^ 64 - 1 - b.getD ((i % 5 + 1) % 5 + 5 * (i / 5)) 0) &&& b.getD ((i % 5 + 2) % 5 + 5 * (i / 5)) 0)) ^^^
        (if i = 0 then rc else 0)) fun s =>
    keccakRounds rcs s

def keccakAbsorb : List (List Nat) → List Nat → List Nat
  | [], s => s
  | b :: bs, s =>
    forceL ((pieces 8 25 b).map leNat) fun w =>
    forceL ((List.range 25).map fun i => s.getD i 0 ^^^ w.getD i 0) fun s =>
    keccakAbsorb bs (keccakRounds keccakRC s)

def sha3 (size : Nat) (m : List Nat) : List Nat :=
  let rate := 200 - 2 * size
  let z := rate - m.length % rate
  let pad := if z = 1 then [0x86] else 6 :: List.replicate (z - 2) 0 ++ [0x80]
  forceL (m ++ pad) fun p =>
    ((keccakAbsorb (pieces rate p.length p) (List.replicate 25 0)).flatMap (natLE 8)).take size

/-! ## BLAKE2 -/

def blakeSigma : List (List Nat) :=
  [[0, 1, 2, 3, 4, 5, 6, 7, 8, 9, 10, 11, 12, 13, 14, 15],
   [14, 10, 4, 8, 9, 15, 13, 6, 1, 12, 0, 2, 11, 7, 5, 3],
   [11, 8, 12, 0, 5, 2, 15, 13, 10, 14, 3, 6, 7, 1, 9, 4],
   [7, 9, 3, 1, 13, 12, 11, 14, 2, 6, 5, 10, 4, 0, 15, 8],
   [9, 0, 5, 7, 2, 4, 10, 15, 14, 1, 11, 12, 6, 8, 3, 13],
   [2, 12, 6, 10, 0, 11, 8, 3, 4, 13, 7, 5, 15, 14, 1, 9],
   [12, 5, 1, 15, 14, 13, 4, 10, 0, 7, 6, 3, 9, 2, 8, 11],
   [13, 11, 7, 14, 12, 1, 3, 9, 5, 0, 15, 4, 8, 6, 2, 10],
   [6, 15, 14, 9, 11, 3, 0, 8, 12, 2, 13, 7, 1, 4, 10, 5],
   [10, 2, 8, 4, 7, 6, 1, 5, 15, 11, 9, 14, 3, 12, 13, 0]]

structure Blake where
  w : Nat
  rounds : Nat
  r1 : Nat
  r2 : Nat
  r3 : Nat
  r4 : Nat
  iv : List Nat

def Blake.g (B : Blake) (v : List Nat) (a b c d x y : Nat) : List Nat :=
  force ((v.getD a 0 + v.getD b 0 + x) % 2 ^ B.w) fun va =>
  force (ror B.w (v.getD d 0 ^^^ va) B.r1) fun vd =>
  force ((v.getD c 0 + vd) % 2 ^ B.w) fun vc =>
  force (ror B.w (v.getD b 0 ^^^ vc) B.r2) fun vb =>
  force ((va + vb + y) % 2 ^ B.w) fun va =>
  force (ror B.w (vd ^^^ va) B.r3) fun vd =>
  force ((vc + vd) % 2 ^ B.w) fun vc =>
  force (ror B.w (vb ^^^ vc) B.r4) fun vb =>
  forceL ((((v.set a va).set b vb).set c vc).set d vd) fun v => v

def Blake.mix (B : Blake) (m : List Nat) : List (Nat × Nat × Nat × Nat) → List Nat → List Nat → List Nat
  | (a, b, c, d) :: is, x :: y :: s, v => B.mix m is s (B.g v a b c d (m.getD x 0) (m.getD y 0))
  | _, _, v => v

def blakePattern : List (Nat × Nat × Nat × Nat) :=
  [(0, 4, 8, 12), (1, 5, 9, 13), (2, 6, 10, 14), (3, 7, 11, 15), (0, 5, 10, 15), (1, 6, 11, 12), (2, 7, 8, 13), (3, 4, 9, 14)]

def Blake.mixes (B : Blake) (m : List Nat) : List (List Nat) → List Nat → List Nat
  | [], v => v
  | s :: ss, v => forceL (B.mix m blakePattern s v) fun v => B.mixes m ss v

def Blake.compress (B : Blake) (h : List Nat) (blk : List Nat) (t : Nat) (last : Bool) : List Nat :=
  forceL ((List.range 16).map fun i => leNat ((pieces (B.w / 8) 16 blk).getD i [])) fun m =>
  forceL (h ++ B.iv.take 4 ++
    [B.iv.getD 4 0 ^^^ (t % 2 ^ B.w), B.iv.getD 5 0 ^^^ (t / 2 ^ B.w), if last then 2 ^ B.w - 1 - B.iv.getD 6 0 else B.iv.getD 6 0,
     B.iv.getD 7 0]) fun v =>
  forceL (B.mixes m ((List.range B.rounds).map fun i => blakeSigma.getD (i % 10) []) v) fun v =>
  forceL ((List.range 8).map fun i => (h.getD i 0 ^^^ v.getD i 0) ^^^ v.getD (i + 8) 0) fun h => h

def Blake.blocks (B : Blake) (len : Nat) : List (List Nat) → Nat → List Nat → List Nat
  | [], _, h => h
  | [b], _, h => B.compress h b len true
  | b :: bs, t, h => B.blocks len bs (t + 2 * B.w) (B.compress h b (t + 2 * B.w) false)

def Blake.run (B : Blake) (size : Nat) (m : List Nat) : List Nat :=
  forceL m fun m =>
  forceL (B.iv.set 0 (B.iv.getD 0 0 ^^^ 0x01010000 ^^^ size)) fun h =>
    ((B.blocks m.length (if m = [] then [[]] else pieces (2 * B.w) m.length m) 0 h).flatMap (natLE (B.w / 8))).take size

def blake2b : Nat → List Nat → List Nat :=
  Blake.run { w := 64, rounds := 12, r1 := 32, r2 := 24, r3 := 16, r4 := 63, iv := [0x6a09e667f3bcc908, 0xbb67ae8584caa73b, 0x3c6ef372fe94f82b, 0xa54ff53a5f1d36f1, 0x510e527fade682d1, 0x9b05688c2b3e6c1f, 0x1f83d9abfb41bd6b, 0x5be0cd19137e2179] }
def blake2s : Nat → List Nat → List Nat :=
  Blake.run { w := 32, rounds := 10, r1 := 16, r2 := 12, r3 := 8, r4 := 7, iv := [0x6a09e667, 0xbb67ae85, 0x3c6ef372, 0xa54ff53a, 0x510e527f, 0x9b05688c, 0x1f83d9ab, 0x5be0cd19] }

/-! ## BLAKE3 -/

def blake3Core : Blake := { w := 32, rounds := 7, r1 := 16, r2 := 12, r3 := 8, r4 := 7, iv := [0x6a09e667, 0xbb67ae85, 0x3c6ef372, 0xa54ff53a, 0x510e527f, 0x9b05688c, 0x1f83d9ab, 0x5be0cd19] }

def blake3Perm : List Nat := [2, 6, 3, 10, 7, 0, 4, 13, 1, 11, 12, 5, 9, 14, 15, 8]

def blake3Rounds : Nat → List Nat → List Nat → List Nat
  | 0, _, v => v
  | n + 1, m, v =>
    forceL (blake3Core.mix m blakePattern (List.range 16) v) fun v =>
    forceL (blake3Perm.map fun i => m.getD i 0) fun m =>
    blake3Rounds n m v

/-- The first eight words of the output. -/
def blake3Compress (cv m : List Nat) (counter len flags : Nat) : List Nat :=
  forceL (cv ++ blake3Core.iv.take 4 ++ [counter % 2 ^ 32, counter / 2 ^ 32, len, flags]) fun v =>
  forceL (blake3Rounds 7 m v) fun v =>
  forceL ((List.range 8).map fun i => v.getD i 0 ^^^ v.getD (i + 8) 0) fun h => h

def blake3Words (b : List Nat) : List Nat := (List.range 16).map fun i => leNat ((pieces 4 16 b).getD i [])

def blake3Chunk (counter flags : Nat) : List (List Nat) → Bool → List Nat → List Nat
  | [], _, cv => cv
  | b :: bs, start, cv =>
    forceL (blake3Words b) fun m =>
    blake3Chunk counter flags bs false
      (blake3Compress cv m counter b.length ((if start then 1 else 0) + (if bs.isEmpty then 2 + flags else 0)))

def largestPow2Below : Nat → Nat → Nat
  | 0, _ => 1
  | k + 1, n => if 2 ^ (k + 1) < n then 2 ^ (k + 1) else largestPow2Below k n

/-- The chaining value of a subtree; `root` is the flag of the root node or 0. -/
def blake3Tree : Nat → (counter root : Nat) → List (List Nat) → List Nat
  | 0, _, _, _ => []
  | fuel + 1, counter, root, chunks =>
    if chunks.length ≤ 1 then
      blake3Chunk counter root (match chunks.flatten with | [] => [[]] | c => pieces 64 16 c) true blake3Core.iv
    else
      let n := largestPow2Below 64 chunks.length
      forceL (blake3Tree fuel counter 0 (chunks.take n) ++ blake3Tree fuel (counter + n) 0 (chunks.drop n)) fun m =>
      blake3Compress blake3Core.iv m 0 64 (4 + root)

def blake3 (m : List Nat) : List Nat :=
  forceL m fun m => (blake3Tree 64 0 8 (pieces 1024 m.length m)).flatMap (natLE 4)

/-! ## The hash functions of the model -/

def hashNats (alg : Nat) (m : List Nat) : List Nat :=
  match alg with
  | 8 => sha224 m | 9 => sha256 m | 10 => sha384 m | 11 => sha512 m | 12 => sha512_224 m | 13 => sha512_256 m
  | 16 => sha3 28 m | 17 => sha3 32 m | 18 => sha3 48 m | 19 => sha3 64 m
  | 24 => blake2s 32 m | 25 => blake2b 32 m | 26 => blake2b 48 m | 27 => blake2b 64 m
  | 32 => blake3 m
  | _ => []

/-- lhash/algs.go:52-95: the hash functions, by algorithm. -/
def realHashes : Hashes := fun alg m => (hashNats alg (m.map UInt8.toNat)).map UInt8.ofNat

end Jess.Vectors
