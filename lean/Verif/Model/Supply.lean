import Verif.Model.Tools

/-!
# Signet supply (`supply/supply.go`)

A generated signet is represented by the number of its generation. `ok n` tells whether the n-th generation (`GenerateKey`) succeeds.
-/

namespace Jess

/-- supply.go:21-28 `signetCache`. -/
structure SCache where
  stock : List (Option Nat)
  iter : Nat := 0
  level : Int := 0
  deriving DecidableEq, Repr

/-- supply.go:60-63. -/
def SCache.new (size : Nat) : SCache := { stock := List.replicate size none }

/-- supply.go:98-118 `signetCache.get`. -/
def SCache.get (c : SCache) : Res (SCache × Option Nat) :=
  match c.stock[c.iter]? with
  | none => .error .panic
  | some none => .ok (c, none)
  | some (some s) =>
    .ok ({ stock := c.stock.set c.iter none, iter := (c.iter + 1) % c.stock.length, level := c.level - 1 }, some s)

/-- Go `int` arithmetic on 64 bit platforms. -/
def wrapInt (x : Int) : Int := (x + 2 ^ 63) % 2 ^ 64 - 2 ^ 63

/-- supply.go:152-174, the loop. Each round raises the level by one, or returns; `rounds` is `fillUpTo - level`. The result is the cache,
the number of the next generation, whether it is full, and whether there was an error. -/
def SCache.fillLoop (ok : Nat → Bool) : (rounds : Nat) → (i : Nat) → SCache → (next : Nat) → Res (SCache × Nat × Bool × Bool)
  | 0, _, c, n => .ok (c, n, c.level == c.stock.length, false)
  | k + 1, i, c, n =>
    match c.stock[i]? with
    | none => .error .panic
    | some (some _) => .ok (c, n, true, false)
    | some none =>
      if ok n then
        fillLoop ok k ((i + 1) % c.stock.length) { c with stock := c.stock.set i (some n), level := c.level + 1 } (n + 1)
      else .ok (c, n + 1, false, true)

/-- supply.go:139-177 `signetCache.fill`. -/
def SCache.fill (ok : Nat → Bool) (c : SCache) (amount : Int) (next : Nat) : Res (SCache × Nat × Bool × Bool) :=
  let upTo := wrapInt (c.level + amount)
  let upTo := if upTo > c.stock.length then (c.stock.length : Int) else upTo
  SCache.fillLoop ok (upTo - c.level).toNat ((c.iter + c.level.toNat) % c.stock.length) c next

/-! ## Concurrent calls

Every access to a cache holds its mutex (`get`, `fill`, `status`), accesses to the map hold the lock of the supply: `GetSignet` for the
lookup (supply.go:47-49) and for saving a new cache (65-67), `Fill` during the whole call (122-123). -/

/-- Where a call is. -/
inductive SThread where
  /-- `GetSignet`, before the lookup -/
  | getStart (scheme : Bytes)
  /-- `GetSignet`, there was no cache -/
  | getMake (scheme : Bytes)
  /-- `GetSignet`, with a cache -/
  | getFrom (scheme : Bytes) (cache : Nat)
  /-- `GetSignet`, the cache was empty -/
  | adhoc (scheme : Bytes)
  /-- `GetSignet` has returned a signet -/
  | got (scheme : Bytes) (signet : Nat)
  /-- `GetSignet` has failed -/
  | failed (scheme : Bytes)
  /-- `Fill`, at the beginning -/
  | fillStart (amount : Int)
  /-- `Fill`, with the caches that remain -/
  | filling (amount : Int) (rest : List Nat) (full err : Bool)
  /-- `Fill` has returned -/
  | filled (full err : Bool)
  deriving DecidableEq, Repr

/-- supply.go:12-19 `SignetSupply` (the notification channels have no effect on it), all caches that were made with the scheme they were
made for, the schemes of all generations, and the calls. -/
structure SupplyState where
  size : Nat
  map : Bytes → Option Nat := fun _ => none
  caches : List (Bytes × SCache) := []
  gens : List Bytes := []
  threads : List SThread

def SupplyState.setThread (s : SupplyState) (i : Nat) (t : SThread) : SupplyState := { s with threads := s.threads.set i t }

def SThread.isFilling : SThread → Bool
  | .filling .. => true
  | _ => false

/-- One step of the i-th call. -/
inductive SupplyStep (ok : Nat → Bool) (s : SupplyState) (i : Nat) : SupplyState → Prop where
  /-- supply.go:47-49 -/
  | lookupHit (scheme : Bytes) (c : Nat) : s.threads[i]? = some (.getStart scheme) → s.map scheme = some c →
      SupplyStep ok s i (s.setThread i (.getFrom scheme c))
  /-- supply.go:47-54 -/
  | lookupMiss (scheme : Bytes) (t : ToolInfo) : s.threads[i]? = some (.getStart scheme) → s.map scheme = none →
      getTool scheme = some t → SupplyStep ok s i (s.setThread i (.getMake scheme))
  /-- supply.go:55-57 -/
  | unknownTool (scheme : Bytes) : s.threads[i]? = some (.getStart scheme) → s.map scheme = none → getTool scheme = none →
      SupplyStep ok s i (s.setThread i (.failed scheme))
  /-- supply.go:59-67; the write lock excludes running calls of `Fill`. -/
  | make (scheme : Bytes) : s.threads[i]? = some (.getMake scheme) → (∀ t ∈ s.threads, t.isFilling = false) →
      SupplyStep ok s i ({ s with map := fun x => if x = scheme then some s.caches.length else s.map x,
                                  caches := s.caches ++ [(scheme, SCache.new s.size)] }.setThread i (.getFrom scheme s.caches.length))
  /-- supply.go:70-81, 98-118 -/
  | take (scheme : Bytes) (c : Nat) (m : Bytes) (k k' : SCache) (x : Nat) : s.threads[i]? = some (.getFrom scheme c) →
      s.caches[c]? = some (m, k) → k.get = .ok (k', some x) →
      SupplyStep ok s i ({ s with caches := s.caches.set c (m, k') }.setThread i (.got scheme x))
  /-- supply.go:70-87, 98-105 -/
  | empty (scheme : Bytes) (c : Nat) (m : Bytes) (k k' : SCache) : s.threads[i]? = some (.getFrom scheme c) →
      s.caches[c]? = some (m, k) → k.get = .ok (k', none) →
      SupplyStep ok s i ({ s with caches := s.caches.set c (m, k') }.setThread i (.adhoc scheme))
  /-- supply.go:89-95 (the tool of the cache is the one of the scheme) -/
  | adhocOk (scheme : Bytes) : s.threads[i]? = some (.adhoc scheme) → ok s.gens.length = true →
      SupplyStep ok s i ({ s with gens := s.gens ++ [scheme] }.setThread i (.got scheme s.gens.length))
  /-- supply.go:89-93 -/
  | adhocFail (scheme : Bytes) : s.threads[i]? = some (.adhoc scheme) → ok s.gens.length = false →
      SupplyStep ok s i ({ s with gens := s.gens ++ [scheme] }.setThread i (.failed scheme))
  /-- supply.go:122-126: the caches of the map, in any order -/
  | fillStart (amount : Int) (l : List Nat) : s.threads[i]? = some (.fillStart amount) → l.Nodup →
      (∀ c, c ∈ l ↔ ∃ scheme, s.map scheme = some c) → SupplyStep ok s i (s.setThread i (.filling amount l true false))
  /-- supply.go:126-134, 139-177 -/
  | fillOne (amount : Int) (c : Nat) (rest : List Nat) (full err : Bool) (m : Bytes) (k k' : SCache) (n : Nat) (f e : Bool) :
      s.threads[i]? = some (.filling amount (c :: rest) full err) → s.caches[c]? = some (m, k) →
      k.fill ok amount s.gens.length = .ok (k', n, f, e) →
      SupplyStep ok s i ({ s with caches := s.caches.set c (m, k'), gens := s.gens ++ List.replicate (n - s.gens.length) m }.setThread i
        (.filling amount rest (full && f) (err || e)))
  /-- supply.go:136 -/
  | fillEnd (amount : Int) (full err : Bool) : s.threads[i]? = some (.filling amount [] full err) →
      SupplyStep ok s i (s.setThread i (.filled full err))

/-- supply.go:31-43 `NewSignetSupply`, and calls that have not begun. -/
def newSupply (cacheSize : Int) (calls : List SThread) : SupplyState :=
  { size := (if cacheSize < 1 then 1 else cacheSize).toNat, threads := calls }

/-- The states that any schedule reaches. -/
inductive SupplyReach (ok : Nat → Bool) : SupplyState → SupplyState → Prop where
  | refl (s : SupplyState) : SupplyReach ok s s
  | step {s s' s'' : SupplyState} {i : Nat} : SupplyReach ok s s' → SupplyStep ok s' i s'' → SupplyReach ok s s''

/-- supply.go:187-213 `Status`: total size and fill level, over the caches of the map. -/
def supplyStatus (size : Nat) (caches : List SCache) : Nat × Int := (size * caches.length, (caches.map (·.level)).sum)

end Jess
