import Verif.Model.Basic

/-!
# The serialization dependency `github.com/safing/structures` (varint, container)

Not part of `/repo` (the dependency's source is not available in the sandbox).  These definitions are
therefore in the trusted base: they follow Go's `encoding/binary` unsigned varint (LEB128) which
`varint.Pack64/Unpack64` wrap, and the documented behaviour of `container`.
-/

namespace Jess

/-- The loop of `binary.PutUvarint`; `fuel` bounds the number of rounds. -/
def pack64Loop : (fuel n : Nat) → Bytes
  | 0, n => [UInt8.ofNat n]
  | f + 1, n => if n < 128 then [UInt8.ofNat n] else UInt8.ofNat (n % 128 + 128) :: pack64Loop f (n / 128)

/-- `varint.Pack64` = `binary.PutUvarint`: LEB128. Used by `container.AppendNumber/AppendInt`. (`pack64_step` in Lemmas/Container:
the loop has enough fuel.) -/
def pack64 (n : Nat) : Bytes := pack64Loop n n

/-- `binary.Uvarint` loop: at byte index `i` with the value `acc` read so far. Fails on a short buffer and on
values that do not fit 64 bits (more than 10 bytes, or a tenth byte larger than 1). Non-minimal encodings are
accepted, as in Go. (`x | b<<s` is `acc + b*128^i`: the bits are disjoint.) -/
def uvarint (i acc : Nat) : Bytes → Res (Nat × Bytes)
  | [] => .error .short
  | b :: bs =>
    if i = 10 then .error .overflow
    else if b.toNat < 128 then
      if i = 9 ∧ b.toNat > 1 then .error .overflow
      else .ok (acc + b.toNat * 128 ^ i, bs)
    else uvarint (i + 1) (acc + (b.toNat - 128) * 128 ^ i) bs

/-- `container.GetNextN64`: reads the next varint. Returns the value and the remaining data. -/
def getN64 (c : Bytes) : Res (Nat × Bytes) := uvarint 0 0 c

/-- `container.GetNextN8` via `varint.Unpack8`: one byte below 128, or a byte ≥ 128 followed by 0x01. -/
def getN8 : Bytes → Res (Nat × Bytes)
  | [] => .error .short
  | b :: bs =>
    if b.toNat < 128 then .ok (b.toNat, bs)
    else match bs with
      | [] => .error .short
      | b1 :: bs' => if b1 = 1 then .ok (b.toNat, bs') else .error .overflow

/-- `container.Get(n)`: the next `n` bytes, or an error if there are fewer. -/
def getBytes (n : Nat) (c : Bytes) : Res (Bytes × Bytes) :=
  if n ≤ c.length then .ok (c.take n, c.drop n) else .error .short

/-- `container.GetNextBlock`: a varint length and that many bytes. -/
def getBlock (c : Bytes) : Res (Bytes × Bytes) :=
  match getN64 c with
  | .error e => .error e
  | .ok (n, c') => getBytes n c'

/-- `container.AppendAsBlock`: the data prefixed with its length. -/
def block (d : Bytes) : Bytes := pack64 d.length ++ d

end Jess
