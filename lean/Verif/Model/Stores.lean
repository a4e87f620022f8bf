import Verif.Model.TextFormat
import Verif.Model.LetterOps

/-!
# Trust stores (`truststore.go`, `truststores/dir.go`, `truststores/io.go`, `truststores/keyring.go`)

All operations hold the mutex of their store from the first access to the last one (truststore.go:36, 55, 65, 75, dir.go:43, 59, 76, 86,
158, 174, 191, 201), so that every concurrent history is a sequence of whole operations.
-/

namespace Jess

/-! ## In-memory store -/

/-- truststore.go:111-116 and dir.go:286-291 `makeStorageID` (both are the same function). -/
def storageID (id : Bytes) (recipient : Bool) : Bytes := if recipient then id ++ b!".recipient" else id ++ b!".signet"

/-- A pointer to a signet. The in-memory store holds pointers: the signets can be changed from outside. -/
abbrev Ptr := Nat

/-- truststore.go:29-32 `MemTrustStore`. -/
abbrev MemStore := Bytes → Option Ptr

/-- truststore.go:35-46 `GetSignet`. -/
def MemStore.get (m : MemStore) (id : Bytes) (recipient : Bool) : Res Ptr :=
  match m (storageID id recipient) with
  | none => .error .signetNotFound
  | some p => .ok p

/-- truststore.go:49-61 `StoreSignet`. -/
def MemStore.store (m : MemStore) (heap : Ptr → Signet) (p : Ptr) : MemStore × Res Unit :=
  if (heap p).id = [] then (m, .error .malformed)
  else (fun k => if k = storageID (heap p).id (heap p).isPublic then some p else m k, .ok ())

/-- truststore.go:64-71 `DeleteSignet`. -/
def MemStore.delete (m : MemStore) (id : Bytes) (recipient : Bool) : MemStore × Res Unit :=
  (fun k => if k = storageID id recipient then none else m k, .ok ())

/-- truststore.go:86-95 and dir.go:123-133: the type filter (0 any, 1 signets only, 2 recipients only). -/
def passesFilter (filter : UInt8) (s : Signet) : Bool :=
  if filter = 1 then !s.isPublic else if filter = 2 then s.isPublic else true

/-- truststore.go:82-84 and dir.go:118-120: no schemes are given, or the scheme is one of them. -/
def passesSchemes (schemes : List Bytes) (s : Signet) : Bool := schemes.isEmpty || schemes.contains s.scheme

/-- truststore.go:79-101, the loop of `SelectSignets` over the map entries in iteration order. A signet of another scheme ends it with an
empty result. -/
def memSelectLoop (heap : Ptr → Signet) (filter : UInt8) (schemes : List Bytes) : List Ptr → List Ptr → List Ptr
  | acc, [] => acc
  | acc, p :: ps =>
    if !passesSchemes schemes (heap p) then []
    else if passesFilter filter (heap p) then memSelectLoop heap filter schemes (acc ++ [p]) ps
    else memSelectLoop heap filter schemes acc ps

/-- truststore.go:74-102 `SelectSignets`; `order` is the sequence of map values that the iteration happens to produce. -/
def memSelect (heap : Ptr → Signet) (order : List Ptr) (filter : UInt8) (schemes : List Bytes) : Res (List Ptr) :=
  .ok (memSelectLoop heap filter schemes [] order)

/-! ## Paths -/

/-- `strings.Split(s, "/")`. -/
def splitSlash : Bytes → List Bytes
  | [] => [[]]
  | c :: cs =>
    if c = 47 then [] :: splitSlash cs
    else
      match splitSlash cs with
      | [] => [[c]]
      | x :: xs => (c :: x) :: xs

/-- `strings.Join(l, "/")`. -/
def joinSlash : List Bytes → Bytes
  | [] => []
  | [x] => x
  | x :: y :: r => x ++ [47] ++ joinSlash (y :: r)

def isRooted (p : Bytes) : Bool := p.head? == some 47

/-- Go standard library `filepath.Clean` (Unix): the effect of one path element on the (reversed) output. -/
def cleanStep (rooted : Bool) (out : List Bytes) (c : Bytes) : List Bytes :=
  if c = [] ∨ c = b!"." then out
  else if c = b!".." then
    match out with
    | [] => if rooted then [] else [b!".."]
    | t :: r => if t = b!".." then b!".." :: t :: r else r
  else c :: out

/-- Go standard library `filepath.Clean` (Unix). -/
def cleanPath (p : Bytes) : Bytes :=
  let out := (if isRooted p then [47] else []) ++ joinSlash ((splitSlash p).foldl (cleanStep (isRooted p)) []).reverse
  if out = [] then b!"." else out

/-- Go standard library `filepath.Join` (Unix) of two elements. -/
def joinPath (a b : Bytes) : Bytes :=
  if a ≠ [] then cleanPath (a ++ [47] ++ b) else if b ≠ [] then cleanPath b else []

/-! ## File system

Files are identified by the elements of their absolute path, the last one first. There are no symbolic links. -/

abbrev Loc := List Bytes

inductive Node where
  | file (content : Bytes)
  | dir
  deriving DecidableEq, Repr

abbrev FS := Loc → Option Node

/-- How the operating system resolves one path element. -/
def resolveStep (loc : Loc) (c : Bytes) : Loc :=
  if c = [] ∨ c = b!"." then loc else if c = b!".." then loc.tail else c :: loc

/-- How the operating system resolves a path, in the working directory `cwd`. -/
def resolve (cwd : Loc) (p : Bytes) : Loc := (splitSlash p).foldl resolveStep (if isRooted p then [] else cwd)

/-- How writing a file ends: completely, with an error before the file is opened, or (by an error or a crash) after the file has been
truncated and some bytes have been written. -/
inductive WriteEnd where
  | done
  | refused
  | stopped (n : Nat)
  deriving DecidableEq, Repr

def FS.set (fs : FS) (l : Loc) (n : Option Node) : FS := fun k => if k = l then n else fs k

/-- Go standard library `os.WriteFile`: open with truncation, then write. -/
def FS.write (fs : FS) (w : WriteEnd) (l : Loc) (data : Bytes) : FS × Res Unit :=
  if fs l = some .dir ∨ l = [] ∨ fs l.tail ≠ some .dir then (fs, .error .env)
  else
    match w with
    | .refused => (fs, .error .env)
    | .done => (fs.set l (some (.file data)), .ok ())
    | .stopped n => (fs.set l (some (.file (data.take n))), .error .env)

/-- Go standard library `os.ReadFile`. (Faults of the device are not modelled.) -/
def FS.read (fs : FS) (l : Loc) : Res Bytes :=
  match fs l with
  | none => .error .notFound
  | some .dir => .error .env
  | some (.file d) => .ok d

/-- Go standard library `os.Remove`, of a file (a directory with the name of a file of the store is left alone). -/
def FS.remove (fs : FS) (l : Loc) : FS × Res Unit :=
  match fs l with
  | none => (fs, .error .notFound)
  | some .dir => (fs, .error .env)
  | some (.file _) => (fs.set l none, .ok ())

/-! ## Directory store -/

/-- dir.go:18 -/
def permittedCharacters : Bytes := b!"abcdefghijklmnopqrstuvwxyzABCDEFGHIJKLMNOPQRSTUVWXYZ0123456789- ._+@"

/-- dir.go:275-284 `countRuneInString` (the characters are ASCII characters). -/
def countIn (s : Bytes) (c : UInt8) : Nat := (s.filter (· == c)).length

/-- dir.go:265-273 `NamePlaysNiceWithFS`. The code loops over characters: a byte beyond ASCII always belongs to a character that is not
permitted. -/
def playsNice (s : Bytes) : Bool := s.all (fun c => countIn permittedCharacters c != 0)

/-- dir.go:29-32 `DirTrustStore`, and the working directory of the process. -/
structure DirStore where
  cwd : Loc
  storageDir : Bytes
  deriving DecidableEq

/-- dir.go:244-262 `NewDirTrustStore`. -/
def newDirStore (cwd : Loc) (fs : FS) (dir : Bytes) : Res DirStore :=
  match fs (resolve cwd (cleanPath dir)) with
  | none => .error .notFound
  | some (.file _) => .error .malformed
  | some .dir => .ok { cwd := cwd, storageDir := cleanPath dir }

/-- dir.go:48, 63, 80, 163, 178, 195: the file of a store entry. -/
def DirStore.file (S : DirStore) (name : Bytes) : Loc := resolve S.cwd (joinPath S.storageDir name)

/-- io.go:13-36 `WriteSignetToFile`. -/
def writeSignetToFile (D : Dsd) (fs : FS) (w : WriteEnd) (s : Signet) (l : Loc) : FS × Res Unit :=
  if s.id = [] then (fs, .error .malformed)
  else if !playsNice s.id then (fs, .error .malformed)
  else
    match D.dumpSignet s.stored with
    | .error e => (fs, .error e)
    | .ok data => fs.write w l data

/-- io.go:39-55 `LoadSignetFromFile`. -/
def loadSignetFromFile (D : Dsd) (fs : FS) (l : Loc) : Res Signet :=
  match fs.read l with
  | .error e => .error (if e = .notFound then .signetNotFound else e)
  | .ok data => D.loadSignet data

/-- io.go:58-81 `WriteEnvelopeToFile`. -/
def writeEnvelopeToFile (D : Dsd) (fs : FS) (w : WriteEnd) (e : Envelope) (l : Loc) : FS × Res Unit :=
  if e.name = [] then (fs, .error .malformed)
  else if !playsNice e.name then (fs, .error .malformed)
  else
    match D.dumpEnvelope e.stored with
    | .error e => (fs, .error e)
    | .ok data => fs.write w l data

/-- io.go:84-107 `LoadEnvelopeFromFile`. -/
def loadEnvelopeFromFile (D : Dsd) (reg : List Suite) (fs : FS) (l : Loc) : Res Envelope :=
  match fs.read l with
  | .error e => .error e
  | .ok data =>
    match D.loadEnvelope data with
    | .error e => .error e
    | .ok env => (loadSuite reg env).map (·.1)

/-- dir.go:35-54 `GetSignet`. -/
def DirStore.getSignet (S : DirStore) (D : Dsd) (fs : FS) (id : Bytes) (recipient : Bool) : Res Signet :=
  if !playsNice id then .error .malformed else loadSignetFromFile D fs (S.file (storageID id recipient))

/-- dir.go:57-65 `StoreSignet`. -/
def DirStore.storeSignet (S : DirStore) (D : Dsd) (fs : FS) (w : WriteEnd) (s : Signet) : FS × Res Unit :=
  writeSignetToFile D fs w s (S.file (storageID s.id s.isPublic))

/-- dir.go:68-82 `DeleteSignet`. -/
def DirStore.deleteSignet (S : DirStore) (fs : FS) (id : Bytes) (recipient : Bool) : FS × Res Unit :=
  if !playsNice id then (fs, .error .malformed) else fs.remove (S.file (storageID id recipient))

/-- dir.go:150-169 `GetEnvelope`. -/
def DirStore.getEnvelope (S : DirStore) (D : Dsd) (reg : List Suite) (fs : FS) (name : Bytes) : Res Envelope :=
  if !playsNice name then .error .malformed else loadEnvelopeFromFile D reg fs (S.file (name ++ b!".envelope"))

/-- dir.go:172-180 `StoreEnvelope`. -/
def DirStore.storeEnvelope (S : DirStore) (D : Dsd) (fs : FS) (w : WriteEnd) (e : Envelope) : FS × Res Unit :=
  writeEnvelopeToFile D fs w e (S.file (e.name ++ b!".envelope"))

/-- dir.go:183-197 `DeleteEnvelope`. -/
def DirStore.deleteEnvelope (S : DirStore) (fs : FS) (name : Bytes) : FS × Res Unit :=
  if !playsNice name then (fs, .error .malformed) else fs.remove (S.file (name ++ b!".envelope"))

/-- dir.go:92-140, the walk of `SelectSignets` over the given files. The suffix of the path is the suffix of its last element (suffixes
have no slash). -/
def dirSelectLoop (D : Dsd) (fs : FS) (filter : UInt8) (schemes : List Bytes) : List Signet → List Loc → Res (List Signet)
  | acc, [] => .ok acc
  | acc, l :: ls =>
    if !hasSuffix (l.headD []) b!".signet" && !hasSuffix (l.headD []) b!".recipient" then dirSelectLoop D fs filter schemes acc ls
    else
      match loadSignetFromFile D fs l with
      | .error e => .error e
      | .ok s =>
        if !passesSchemes schemes s then dirSelectLoop D fs filter schemes acc ls
        else if passesFilter filter s then dirSelectLoop D fs filter schemes (acc ++ [s]) ls
        else dirSelectLoop D fs filter schemes acc ls

/-- dir.go:85-147 `SelectSignets`; `files` are the files below the storage directory in the order of the walk (directories are
skipped). -/
def DirStore.select (D : Dsd) (fs : FS) (files : List Loc) (filter : UInt8) (schemes : List Bytes) : Res (List Signet) :=
  dirSelectLoop D fs filter schemes [] files

/-- dir.go:207-234, the walk of `AllEnvelopes` over the given files. -/
def allEnvelopesLoop (D : Dsd) (reg : List Suite) (fs : FS) : List Envelope → List Loc → Res (List Envelope)
  | acc, [] => .ok acc
  | acc, l :: ls =>
    if !hasSuffix (l.headD []) b!".envelope" then allEnvelopesLoop D reg fs acc ls
    else
      match loadEnvelopeFromFile D reg fs l with
      | .error e => .error e
      | .ok e => allEnvelopesLoop D reg fs (acc ++ [e]) ls

/-- dir.go:200-241 `AllEnvelopes`. -/
def DirStore.allEnvelopes (D : Dsd) (reg : List Suite) (fs : FS) (files : List Loc) : Res (List Envelope) :=
  allEnvelopesLoop D reg fs [] files

/-! ## Keyring store -/

/-- The system keyring, the entries of the service name of the store. -/
abbrev Keyring := Bytes → Option Bytes

/-- keyring.go:50-66 `GetSignet`. -/
def Keyring.getSignet (P : Prims) (D : Dsd) (k : Keyring) (id : Bytes) (recipient : Bool) : Res Signet :=
  match k (storageID id recipient) with
  | none => .error .signetNotFound
  | some t => signetFromBase58 P D t

/-- keyring.go:69-86 `StoreSignet`; `refused` tells whether the keyring refuses the entry. The storage ID is built before `ToBase58`,
which can set the public flag. -/
def Keyring.storeSignet (P : Prims) (D : Dsd) (k : Keyring) (refused : Bool) (s : Signet) : Keyring × Res Unit :=
  match s.toBase58 P D with
  | .error e => (k, .error e)
  | .ok (_, t) =>
    if refused then (k, .error .env)
    else (fun x => if x = storageID s.id s.isPublic then some t else k x, .ok ())

/-- keyring.go:89-99 `DeleteSignet`. -/
def Keyring.deleteSignet (k : Keyring) (id : Bytes) (recipient : Bool) : Keyring × Res Unit :=
  match k (storageID id recipient) with
  | none => (k, .error .notFound)
  | some _ => (fun x => if x = storageID id recipient then none else k x, .ok ())

/-- keyring.go:107-119 `GetEnvelope`, envelope.go:332-351. -/
def Keyring.getEnvelope (D : Dsd) (k : Keyring) (name : Bytes) : Res Envelope :=
  match k (name ++ b!".envelope") with
  | none => .error .notFound
  | some t => do
    let b ← b58Decode t
    D.loadEnvelope b

/-- keyring.go:122-134 `StoreEnvelope`. -/
def Keyring.storeEnvelope (D : Dsd) (k : Keyring) (refused : Bool) (e : Envelope) : Keyring × Res Unit :=
  match (e.toBytes D).2 with
  | .error e => (k, .error e)
  | .ok b =>
    if refused then (k, .error .env)
    else (fun x => if x = e.name ++ b!".envelope" then some (b58Encode b) else k x, .ok ())

/-- keyring.go:137-143 `DeleteEnvelope`. -/
def Keyring.deleteEnvelope (k : Keyring) (name : Bytes) : Keyring × Res Unit :=
  match k (name ++ b!".envelope") with
  | none => (k, .error .notFound)
  | some _ => (fun x => if x = name ++ b!".envelope" then none else k x, .ok ())

end Jess
