import Verif.Model.Core

/-! # Closing and opening on memory: which bytes are overwritten

`Verif.Model.Core` takes byte strings by value. Here the data is a Go slice of a memory with arrays, and the ciphers work on it as the code
does. Headers of letters (nonce, keys, MAC, signatures) are made anew by the code and stay values. -/

namespace Jess

/-- The memory: arrays by number. -/
structure Heap where
  arrays : List Bytes
  deriving DecidableEq, Repr

/-- A Go slice: `len` bytes of an array from `off`; `cap` bytes may be used. -/
structure Slice where
  arr : Nat
  off : Nat
  len : Nat
  cap : Nat
  deriving DecidableEq, Repr

/-- The bytes of a slice. -/
def Heap.read (h : Heap) (s : Slice) : Bytes := (((h.arrays[s.arr]?).getD []).drop s.off).take s.len

/-- Overwrites bytes from the start of the slice. -/
def Heap.write (h : Heap) (s : Slice) (d : Bytes) : Heap :=
  let a := (h.arrays[s.arr]?).getD []
  { arrays := h.arrays.set s.arr (a.take s.off ++ d ++ a.drop (s.off + d.length)) }

/-- `make` and `copy`: a new array. -/
def Heap.alloc (h : Heap) (d : Bytes) : Heap × Slice :=
  ({ arrays := h.arrays ++ [d] }, { arr := h.arrays.length, off := 0, len := d.length, cap := d.length })

/-- aes-ctr.go:89-102, salsa20.go:59-72 `Encrypt`, `Decrypt`: in place. `op` is the cipher. -/
def memStream (op : Bytes → ToolInst × ToolState → Res Bytes) (h : Heap) (s : Slice) (x : ToolInst × ToolState) : Heap × Res Slice :=
  match op (h.read s) x with
  | .error e => (h, .error e)
  | .ok d => (h.write s d, .ok { s with len := d.length })

/-- aes-gcm.go:94-99, chacha20-poly1305.go:67-72 `AuthenticatedEncrypt`: `Seal(data[:0], ...)` appends to `data[:0]`, that is: in place if
the capacity suffices, else to a new array. -/
def memSeal (op : Bytes → ToolInst × ToolState → Res Bytes) (h : Heap) (s : Slice) (x : ToolInst × ToolState) : Heap × Res Slice :=
  match op (h.read s) x with
  | .error e => (h, .error e)
  | .ok d =>
    if d.length ≤ s.cap then (h.write s d, .ok { s with len := d.length })
    else ((h.alloc d).1, .ok (h.alloc d).2)

/-- aes-gcm.go:102-108, chacha20-poly1305.go:75-81 `AuthenticatedDecrypt`: `Open(data[:0], ...)`, in place if the capacity suffices. When
the tag does not match, the place of the plain text is overwritten with zeros (crypto/cipher gcm.Open, chacha20poly1305.open). -/
def memUnseal (op : Bytes → ToolInst × ToolState → Res Bytes) (h : Heap) (s : Slice) (x : ToolInst × ToolState) : Heap × Res Slice :=
  match op (h.read s) x with
  | .error e => (h.write s (List.replicate (s.len - 16) 0), .error e)
  | .ok d =>
    if d.length ≤ s.cap then (h.write s d, .ok { s with len := d.length })
    else ((h.alloc d).1, .ok (h.alloc d).2)

/-- One tool after the other; stops at the first error. -/
def memFold (f : Heap → Slice → ToolInst × ToolState → Heap × Res Slice) : Heap → Slice → List (ToolInst × ToolState) → Heap × Res Slice
  | h, s, [] => (h, .ok s)
  | h, s, x :: xs =>
    match f h s x with
    | (h, .error e) => (h, .error e)
    | (h, .ok s) => memFold f h s xs

/-- A letter in memory: the `data` field of the first component is not used. -/
abbrev MemLetter := Letter × Slice

/-- The letter as a value. -/
def MemLetter.value (h : Heap) (m : MemLetter) : Letter := { m.1 with data := h.read m.2 }

/-- core.go:75-122 the encryption part of `Close`. -/
def memProtect (P : Prims) (s : Session) (sts : List ToolState) (l : Letter) (h : Heap) (data : Slice) : Heap × Res MemLetter :=
  match memFold (memStream (fun d x => P.encrypt x.1.info.name x.2.key x.2.nonce d)) h data (s.ready sts .cipher) with
  | (h, .error e) => (h, .error e)
  | (h, .ok data) =>
    match memFold (memSeal (fun d x => P.aeadSeal x.1.info.name x.2.key x.2.nonce (s.adOf l) d)) h data (s.ready sts .integratedCipher) with
    | (h, .error e) => (h, .error e)
    | (h, .ok data) =>
      match runMACs P (s.ready sts .mac) (h.read data) (s.adOf l) with
      | .error e => (h, .error e)
      | .ok mac => (h, .ok ({ l with mac := mac }, data))

/-- core.go:127-162 the signing part of `Close`: reads the data. -/
def memSign (P : Prims) (rng : Rng) (s : Session) (st : SState) (ctr : Nat) (ad : Bytes) (h : Heap) (m : MemLetter) : SState × Res MemLetter :=
  match signLetter P rng s st ctr ad (m.value h) with
  | (st, .error e) => (st, .error e)
  | (st, .ok l) => (st, .ok (l, m.2))

/-- core.go:22-29: a copy, if there is more data behind the slice. -/
def memCopy (h : Heap) (data : Slice) : Heap × Slice :=
  if data.len ≠ data.cap then h.alloc (h.read data) else (h, data)

/-- core.go:68-117 with the deferred reset. -/
def memEncrypt (P : Prims) (s : Session) (st : SState) (k : ToolInst) (material : List Bytes) (l : Letter) (h : Heap) (data : Slice) :
    Heap × SState × Res MemLetter :=
  match setupTools P s k l.nonce material 0 s.stateful st.tools with
  | (tools, .error e) => (h, { st with tools := tools }, .error e)
  | (tools, .ok ()) =>
    match memProtect P s tools l h data with
    | (h, r) => (h, { st with tools := s.resetTools tools }, r)

/-- core.go:32-165 `Close` after the copy. -/
def memCloseCopied (P : Prims) (cfg : Config) (rng : Rng) (s : Session) (st : SState) (h : Heap) (data : Slice) : Heap × SState × Res MemLetter :=
  match randomBytes rng 0 s.nonceSize with
  | .error e => (h, st, .error e)
  | .ok nonce =>
    let l : Letter := { version := s.env.version, suiteID := s.env.suiteID, nonce := nonce }
    match s.kdf with
    | none =>
      if !(s.queue .cipher).isEmpty || s.needsAD then (h, st, .error .config)
      else (h, memSign P rng s st 1 [] h (l, data))
    | some k =>
      match setupClosing P cfg rng s nonce with
      | .error e => (h, st, .error e)
      | .ok km =>
        if kdfInitOK nonce km.material then
          match memEncrypt P s st k km.material { l with keys := km.keys } h data with
          | (h, st, .error e) => (h, st, .error e)
          | (h, st, .ok m) => (h, memSign P rng s st km.ctr (s.adOf m.1) h m)
        else (h, st, .error .config)

/-- core.go:12-165 `Close` for a non-wire session. -/
def memClose (P : Prims) (cfg : Config) (rng : Rng) (s : Session) (st : SState) (h : Heap) (data : Slice) : Heap × SState × Res MemLetter :=
  match memCopy h data with
  | (h, data) => memCloseCopied P cfg rng s st h data

/-- core.go:277-319 the decryption part of `Open`, in the letter's data. -/
def memUnprotect (P : Prims) (s : Session) (sts : List ToolState) (h : Heap) (m : MemLetter) : Heap × Res Slice :=
  match runMACs P (s.ready sts .mac) (h.read m.2) (s.adOf m.1) with
  | .error e => (h, .error e)
  | .ok mac =>
    if !(s.queue .mac).isEmpty && m.1.mac != mac then (h, .error .integrity)
    else
      match memFold (memUnseal (openOne P (s.adOf m.1))) h m.2 (s.ready sts .integratedCipher).reverse with
      | (h, .error e) => (h, .error e)
      | (h, .ok data) =>
        memFold (memStream (fun d x => P.decrypt x.1.info.name x.2.key x.2.nonce d)) h data (s.ready sts .cipher).reverse

/-- core.go:270-319 with the deferred reset. -/
def memDecrypt (P : Prims) (s : Session) (st : SState) (k : ToolInst) (material : List Bytes) (h : Heap) (m : MemLetter) :
    Heap × SState × Res Slice :=
  match setupTools P s k m.1.nonce material 0 s.stateful st.tools with
  | (tools, .error e) => (h, { st with tools := tools }, .error e)
  | (tools, .ok ()) =>
    match memUnprotect P s tools h m with
    | (h, r) => (h, { st with tools := s.resetTools tools }, r)

/-- core.go:168-320 `Open` for a non-wire session: the result is a slice, too. -/
def memOpen (P : Prims) (cfg : Config) (s : Session) (st : SState) (h : Heap) (m : MemLetter) : Heap × SState × Res Slice :=
  if m.1.version ≠ 1 then (h, st, .error .version)
  else
    match checkSignatures P s st (m.value h) with
    | (st, .error e) => (h, st, .error e)
    | (st, .ok ()) =>
      match s.kdf with
      | none => if !(s.queue .cipher).isEmpty || s.needsAD then (h, st, .error .config) else (h, st, .ok m.2)
      | some k =>
        match setupOpening P cfg s (m.value h) with
        | .error e => (h, st, .error e)
        | .ok material =>
          if kdfInitOK m.1.nonce material then memDecrypt P s st k material h m
          else (h, st, .error .config)

end Jess
