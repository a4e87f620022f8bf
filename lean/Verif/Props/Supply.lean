import Verif.Model.Supply
import Verif.Lemmas.Basic

/-!
# Signet supply (C35)
-/

namespace Jess

/-! ## A cache is a bounded queue -/

theorem ring_index (size it a : Nat) (hit : it < size) (ha : a < size) : (it + a) % size = if it + a < size then it + a else it + a - size := by
  split
  · rename_i h; exact Nat.mod_eq_of_lt h
  · rename_i h
    rw [Nat.mod_eq_sub_mod (by omega), Nat.mod_eq_of_lt (by omega)]

theorem ring_inj (size it a b : Nat) (hit : it < size) (ha : a < size) (hb : b < size) (h : (it + a) % size = (it + b) % size) : a = b := by
  rw [ring_index size it a hit ha, ring_index size it b hit hb] at h
  split at h <;> split at h <;> omega

/-- The cache holds the queue: the slots from the iterator on are the elements of the queue, the others are empty. -/
structure CacheHolds (size : Nat) (c : SCache) (q : List Nat) : Prop where
  len : c.stock.length = size
  pos : 0 < size
  iter : c.iter < size
  level : c.level = q.length
  bound : q.length ≤ size
  slots : ∀ j, j < size → c.stock[(c.iter + j) % size]? = some q[j]?

theorem cacheHolds_new (size : Nat) (h : 0 < size) : CacheHolds size (SCache.new size) [] where
  len := by simp [SCache.new]
  pos := h
  iter := h
  level := rfl
  bound := by simp
  slots := by
    intro j _
    simp [SCache.new, Nat.mod_lt _ h]

/-- Getting a signet takes the front of the queue. -/
theorem cache_get (size : Nat) (c : SCache) (q : List Nat) (h : CacheHolds size c q) :
    ∃ c', c.get = .ok (c', q.head?) ∧ CacheHolds size c' q.tail := by
  have h0 := h.slots 0 h.pos
  rw [Nat.add_zero, Nat.mod_eq_of_lt h.iter] at h0
  unfold SCache.get
  rw [h0]
  cases q with
  | nil => exact ⟨c, rfl, h⟩
  | cons x q =>
    simp only [List.getElem?_cons_zero, List.head?_cons, List.tail_cons]
    refine ⟨_, rfl, ?_, h.pos, ?_, ?_, ?_, ?_⟩
    · simpa using h.len
    · rw [h.len]; exact Nat.mod_lt _ h.pos
    · have := h.level; simp only [List.length_cons] at this; simp only [this]; omega
    · have := h.bound; simp only [List.length_cons] at this; omega
    · intro j hj
      have hb := h.bound
      simp only [List.length_cons] at hb
      simp only [h.len]
      have hidx : ((c.iter + 1) % size + j) % size = (c.iter + (j + 1)) % size := by
        rw [Nat.mod_add_mod]; congr 1; omega
      rw [hidx]
      by_cases hl : j + 1 < size
      · rw [List.getElem?_set_ne]
        · rw [h.slots (j + 1) hl]; simp
        · intro e
          have : (c.iter + 0) % size = (c.iter + (j + 1)) % size := by
            rw [Nat.add_zero, Nat.mod_eq_of_lt h.iter]; exact e
          have := ring_inj size c.iter 0 (j + 1) h.iter h.pos hl this
          omega
      · have hj' : j + 1 = size := by omega
        rw [hj', Nat.add_mod_right, Nat.mod_eq_of_lt h.iter]
        rw [List.getElem?_set_self (by rw [h.len]; exact h.iter)]
        rw [List.getElem?_eq_none (by omega)]

/-- How many of the next generations succeed before one fails, at most `k`. -/
def goodRun (ok : Nat → Bool) : Nat → Nat → Nat
  | 0, _ => 0
  | k + 1, n => if ok n then goodRun ok k (n + 1) + 1 else 0

theorem goodRun_le (ok : Nat → Bool) (k : Nat) : ∀ n, goodRun ok k n ≤ k := by
  induction k with
  | zero => intro n; simp [goodRun]
  | succ k ih =>
    intro n
    simp only [goodRun]
    split
    · have := ih (n + 1); omega
    · omega

theorem goodRun_ok (ok : Nat → Bool) (k : Nat) : ∀ n i, i < goodRun ok k n → ok (n + i) = true := by
  induction k with
  | zero => intro n i h; simp [goodRun] at h
  | succ k ih =>
    intro n i h
    simp only [goodRun] at h
    split at h
    · rename_i hn
      cases i with
      | zero => exact hn
      | succ i =>
        have := ih (n + 1) i (by omega)
        rw [show n + (i + 1) = n + 1 + i by omega]; exact this
    · omega

theorem cache_fillLoop (ok : Nat → Bool) (size : Nat) (k : Nat) : ∀ (c : SCache) (q : List Nat) (n : Nat), CacheHolds size c q →
    q.length + k ≤ size →
    ∃ c' n', SCache.fillLoop ok k ((c.iter + q.length) % size) c n =
        .ok (c', n', decide (goodRun ok k n = k ∧ q.length + k = size), decide (goodRun ok k n < k)) ∧
      CacheHolds size c' (q ++ List.range' n (goodRun ok k n)) ∧ n + goodRun ok k n ≤ n' ∧
      n' = n + goodRun ok k n + (if goodRun ok k n < k then 1 else 0) := by
  induction k with
  | zero =>
    intro c q n h hk
    refine ⟨c, n, ?_, by simpa [goodRun] using h, by simp [goodRun], by simp [goodRun]⟩
    simp only [SCache.fillLoop, goodRun, h.len, h.level]
    congr 4
    simp only [Nat.add_zero, true_and]
    rw [Bool.eq_iff_iff]
    simp
    omega
  | succ k ih =>
    intro c q n h hk
    have hql : q.length < size := by omega
    have hslot := h.slots q.length hql
    rw [List.getElem?_eq_none (Nat.le_refl _)] at hslot
    by_cases hn : ok n = true
    case neg =>
      have hg : goodRun ok (k + 1) n = 0 := by simp [goodRun, hn]
      rw [hg]
      simp only [SCache.fillLoop, hslot, hn]
      exact ⟨c, n + 1, by simp, by simpa using h, by simp, by simp⟩
    case pos =>
      have hg : goodRun ok (k + 1) n = goodRun ok k (n + 1) + 1 := by simp [goodRun, hn]
      rw [hg]
      simp only [SCache.fillLoop, hslot, hn, if_true]
      have hnew : CacheHolds size { c with stock := c.stock.set ((c.iter + q.length) % size) (some n), level := c.level + 1 } (q ++ [n]) := by
        refine ⟨by simpa using h.len, h.pos, h.iter, by simp [h.level], by simp; omega, ?_⟩
        intro j hj
        simp only
        by_cases e : j = q.length
        · subst e
          rw [List.getElem?_set_self (by rw [h.len]; exact Nat.mod_lt _ h.pos)]
          simp
        · rw [List.getElem?_set_ne (fun e' => e (ring_inj size c.iter _ _ h.iter hql hj e').symm), h.slots j hj]
          congr 1
          by_cases hlt : j < q.length
          · rw [List.getElem?_append_left hlt]
          · rw [List.getElem?_eq_none (by omega), List.getElem?_eq_none (by simp; omega)]
      obtain ⟨c', n', e1, e2, e3, e4⟩ := ih _ (q ++ [n]) (n + 1) hnew (by simp; omega)
      have hidx : ((c.iter + q.length) % size + 1) % c.stock.length = (c.iter + (q ++ [n]).length) % size := by
        rw [h.len, Nat.mod_add_mod]; simp [Nat.add_assoc]
      rw [hidx]
      refine ⟨c', n', ?_, ?_, by omega, ?_⟩
      · rw [e1]
        congr 4
        · rw [decide_eq_decide]; simp; omega
        · rw [decide_eq_decide]; omega
      · have : q ++ List.range' n (goodRun ok k (n + 1) + 1) = q ++ [n] ++ List.range' (n + 1) (goodRun ok k (n + 1)) := by
          rw [List.range'_succ]; simp
        rw [this]; exact e2
      · rw [e4]; split <;> split <;> omega

/-- How many signets `fill` is to add to a cache (for sizes and amounts that are 64 bit integers). -/
def wantedFill (size level : Nat) (amount : Int) : Nat := min amount.toNat (size - level)

theorem wrapInt_id (x : Int) (h1 : -2 ^ 63 ≤ x) (h2 : x < 2 ^ 63) : wrapInt x = x := by
  unfold wrapInt; omega

/-- Filling appends new signets to the queue: as many as asked for, or as there is space for, or until a generation fails. -/
theorem cache_fill (ok : Nat → Bool) (size : Nat) (c : SCache) (q : List Nat) (h : CacheHolds size c q) (amount : Int) (n : Nat)
    (ha : -2 ^ 63 ≤ amount) (ho : q.length + amount < 2 ^ 63) :
    ∃ c' n', c.fill ok amount n =
        .ok (c', n', decide (goodRun ok (wantedFill size q.length amount) n = wantedFill size q.length amount ∧
                             q.length + wantedFill size q.length amount = size),
                     decide (goodRun ok (wantedFill size q.length amount) n < wantedFill size q.length amount)) ∧
      CacheHolds size c' (q ++ List.range' n (goodRun ok (wantedFill size q.length amount) n)) ∧
      n + goodRun ok (wantedFill size q.length amount) n ≤ n' := by
  have hb := h.bound
  have hk : ((if wrapInt (c.level + amount) > (c.stock.length : Int) then (c.stock.length : Int) else wrapInt (c.level + amount)) - c.level).toNat
      = wantedFill size q.length amount := by
    rw [h.level, h.len, wrapInt_id _ (by omega) (by omega)]
    unfold wantedFill
    split <;> omega
  obtain ⟨c', n', e1, e2, e3, _⟩ := cache_fillLoop ok size (wantedFill size q.length amount) c q n h (by unfold wantedFill; omega)
  refine ⟨c', n', ?_, e2, e3⟩
  unfold SCache.fill
  simp only
  rw [hk, h.level, Int.toNat_natCast, h.len]
  exact e1

/-- An amount so large that adding the level exceeds the largest integer fills nothing (unless the cache is empty). -/
theorem fill_overflow (ok : Nat → Bool) (size : Nat) (c : SCache) (q : List Nat) (h : CacheHolds size c q) (amount : Int) (n : Nat)
    (hs : size < 2 ^ 62) (ha : amount < 2 ^ 63) (ho : 2 ^ 63 ≤ q.length + amount) :
    c.fill ok amount n = .ok (c, n, decide (q.length = size), false) := by
  have hb := h.bound
  have hw : wrapInt (c.level + amount) = q.length + amount - 2 ^ 64 := by
    rw [h.level]; unfold wrapInt; omega
  have hk : ((if wrapInt (c.level + amount) > (c.stock.length : Int) then (c.stock.length : Int) else wrapInt (c.level + amount)) - c.level).toNat = 0 := by
    rw [hw, h.level, h.len]; split <;> omega
  unfold SCache.fill
  simp only
  rw [hk]
  simp only [SCache.fillLoop, h.len, h.level]
  congr 4
  rw [Bool.eq_iff_iff]
  simp
  omega

/-- The fill level is the number of signets in the cache. -/
theorem cache_level_exact (size : Nat) (c : SCache) (q : List Nat) (h : CacheHolds size c q) :
    c.level = (c.stock.filter Option.isSome).length ∧ (c.stock.filter Option.isSome).length ≤ size := by
  have hrot : c.stock.drop c.iter ++ c.stock.take c.iter = q.map some ++ List.replicate (size - q.length) none := by
    apply List.ext_getElem?
    intro j
    have hl := h.len
    have hi := h.iter
    have hb := h.bound
    by_cases hj : j < size
    · have hs := h.slots j hj
      rw [ring_index size c.iter j h.iter hj] at hs
      have hrhs : (q.map some ++ List.replicate (size - q.length) none)[j]? = some q[j]? := by
        by_cases hq : j < q.length
        · rw [List.getElem?_append_left (by simpa using hq), List.getElem?_map, List.getElem?_eq_getElem hq]; rfl
        · rw [List.getElem?_append_right (by simp; omega), List.getElem?_replicate_of_lt (by simp; omega), List.getElem?_eq_none (by omega)]
      rw [hrhs, ← hs]
      split
      · rename_i hlt
        rw [List.getElem?_append_left (by simp; omega), List.getElem?_drop]
      · rename_i hlt
        rw [List.getElem?_append_right (by simp; omega), List.getElem?_take_of_lt (by simp; omega)]
        congr 1
        simp
        omega
    · rw [List.getElem?_eq_none (by simp; omega), List.getElem?_eq_none (by simp; omega)]
  have hcount : (c.stock.filter Option.isSome).length = q.length := by
    have h1 : c.stock.filter Option.isSome = (c.stock.take c.iter).filter Option.isSome ++ (c.stock.drop c.iter).filter Option.isSome := by
      rw [← List.filter_append, List.take_append_drop]
    have h2 := congrArg (fun l => (l.filter Option.isSome).length) hrot
    simp only [List.filter_append, List.length_append] at h2
    have h3 : ((q.map some).filter Option.isSome).length = q.length := by
      rw [List.filter_eq_self.mpr]
      · simp
      · intro x hx; obtain ⟨y, _, rfl⟩ := List.mem_map.mp hx; rfl
    have h4 : ((List.replicate (size - q.length) (none : Option Nat)).filter Option.isSome).length = 0 := by simp
    rw [h1, List.length_append]
    omega
  exact ⟨by rw [hcount, h.level], by rw [hcount]; exact h.bound⟩

/-! ## C35: all sequences of cache operations -/

inductive CacheOp where
  | get
  | fill (amount : Int)

inductive CacheOut where
  | signet (n : Option Nat)
  | filled (full err : Bool)
  | panic
  deriving DecidableEq

/-- The code, over a sequence of operations. The result is what the callers see, and the level after each operation. -/
def cacheRun (ok : Nat → Bool) : SCache → Nat → List CacheOp → List (CacheOut × Int)
  | _, _, [] => []
  | c, n, .get :: ops =>
    match c.get with
    | .ok (c', x) => (.signet x, c'.level) :: cacheRun ok c' n ops
    | .error _ => [(.panic, 0)]
  | c, n, .fill a :: ops =>
    match c.fill ok a n with
    | .ok (c', n', f, e) => (.filled f e, c'.level) :: cacheRun ok c' n' ops
    | .error _ => [(.panic, 0)]

/-- The specification: a queue of at most `size` signets. Filling generates signets until the amount or the size is reached, or a
generation fails (which consumes a generation, too); it reports whether the queue is full (not after a failure), and the failure. -/
def queueRun (ok : Nat → Bool) (size : Nat) : List Nat → Nat → List CacheOp → List (CacheOut × Int)
  | _, _, [] => []
  | q, n, .get :: ops => (.signet q.head?, q.tail.length) :: queueRun ok size q.tail n ops
  | q, n, .fill a :: ops =>
    let want := wantedFill size q.length a
    let good := goodRun ok want n
    let q' := q ++ List.range' n good
    (.filled (decide (good = want ∧ q'.length = size)) (decide (good < want)), q'.length) ::
      queueRun ok size q' (n + good + (if good < want then 1 else 0)) ops

theorem cache_run_holds (ok : Nat → Bool) (size : Nat) (ops : List CacheOp)
    (hops : ∀ a, CacheOp.fill a ∈ ops → -2 ^ 63 ≤ a ∧ size + a < 2 ^ 63) :
    ∀ (c : SCache) (q : List Nat) (n : Nat), CacheHolds size c q → cacheRun ok c n ops = queueRun ok size q n ops := by
  induction ops with
  | nil => intros; rfl
  | cons op ops ih =>
    have ih := ih (fun a h => hops a (List.mem_cons_of_mem _ h))
    intro c q n h
    cases op with
    | get =>
      obtain ⟨c', h1, h2⟩ := cache_get size c q h
      simp only [cacheRun, queueRun, h1, h2.level, ih _ _ _ h2]
    | fill a =>
      obtain ⟨ha, hb⟩ := hops a List.mem_cons_self
      have hbnd := h.bound
      have hk : ((if wrapInt (c.level + a) > (c.stock.length : Int) then (c.stock.length : Int) else wrapInt (c.level + a)) - c.level).toNat
          = wantedFill size q.length a := by
        rw [h.level, h.len, wrapInt_id _ (by omega) (by omega)]
        unfold wantedFill
        split <;> omega
      obtain ⟨c', n', e1, e2, e3, e4⟩ := cache_fillLoop ok size (wantedFill size q.length a) c q n h (by unfold wantedFill; omega)
      have hf : c.fill ok a n = .ok (c', n', decide (goodRun ok (wantedFill size q.length a) n = wantedFill size q.length a ∧
          q.length + wantedFill size q.length a = size), decide (goodRun ok (wantedFill size q.length a) n < wantedFill size q.length a)) := by
        unfold SCache.fill
        simp only
        rw [hk, h.level, Int.toNat_natCast, h.len]
        exact e1
      simp only [cacheRun, queueRun, hf, e2.level, ih _ _ _ e2, e4]
      congr 2
      congr 1
      rw [decide_eq_decide]
      simp only [List.length_append, List.length_range']
      omega

/-- C35. A new cache behaves like a bounded queue, whatever is done with it: signets come out in the order of their generation, the level is
the length of the queue. (Amounts beyond the 64 bit range, with the size added, are `fill_overflow`.) -/
theorem cache_is_queue (ok : Nat → Bool) (size : Nat) (hs : 0 < size) (n : Nat) (ops : List CacheOp)
    (hops : ∀ a, CacheOp.fill a ∈ ops → -2 ^ 63 ≤ a ∧ size + a < 2 ^ 63) :
    cacheRun ok (SCache.new size) n ops = queueRun ok size [] n ops :=
  cache_run_holds ok size ops hops _ _ _ (cacheHolds_new size hs)

theorem cache_example :
    cacheRun (fun n => n != 3) (SCache.new 3) 0 [.get, .fill 2, .get, .fill 5, .fill 5, .get, .fill 1, .get, .get, .get] =
      [(.signet none, 0), (.filled false false, 2), (.signet (some 0), 1), (.filled false true, 2), (.filled true false, 3),
       (.signet (some 1), 2), (.filled true false, 3), (.signet (some 2), 2), (.signet (some 4), 1), (.signet (some 5), 0)] := by
  decide +kernel

/-! ## C35: all interleavings of calls -/

/-- Filling with any amount appends some new signets. -/
theorem cache_fill_any (ok : Nat → Bool) (size : Nat) (c : SCache) (q : List Nat) (h : CacheHolds size c q) (amount : Int) (n : Nat) :
    ∃ c' n' f e g, c.fill ok amount n = .ok (c', n', f, e) ∧ CacheHolds size c' (q ++ List.range' n g) ∧ n + g ≤ n' ∧
      ∀ i, i < g → ok (n + i) = true := by
  have hb := h.bound
  unfold SCache.fill
  simp only
  generalize hk : ((if wrapInt (c.level + amount) > (c.stock.length : Int) then (c.stock.length : Int) else wrapInt (c.level + amount)) - c.level).toNat = k
  have hle : q.length + k ≤ size := by
    rw [← hk, h.level, h.len]; split <;> omega
  obtain ⟨c', n', e1, e2, e3, _⟩ := cache_fillLoop ok size k c q n h hle
  have e0 : (c.iter + c.level.toNat) % c.stock.length = (c.iter + q.length) % size := by
    rw [h.level, Int.toNat_natCast, h.len]
  rw [e0]
  exact ⟨c', n', _, _, _, e1, e2, e3, goodRun_ok ok k n⟩

/-- The invariant of a supply: `qs` are the queues of the caches. -/
structure SupplyInv (ok : Nat → Bool) (st : SupplyState) (qs : Nat → List Nat) : Prop where
  holds : ∀ c m k, st.caches[c]? = some (m, k) → CacheHolds st.size k (qs c)
  pos : 0 < st.size
  outside : ∀ c, st.caches.length ≤ c → qs c = []
  kinds : ∀ c m k, st.caches[c]? = some (m, k) → ∀ x ∈ qs c, st.gens[x]? = some m ∧ ok x = true
  nodup : ∀ c, (qs c).Nodup
  disj : ∀ c c' x, x ∈ qs c → x ∈ qs c' → c = c'
  gone : ∀ (i : Nat) s x c, st.threads[i]? = some (.got s x) → x ∉ qs c
  once : ∀ (i j : Nat) s s' x, st.threads[i]? = some (.got s x) → st.threads[j]? = some (.got s' x) → i = j
  result : ∀ (i : Nat) s x, st.threads[i]? = some (.got s x) → st.gens[x]? = some s ∧ ok x = true
  mapped : ∀ s c, st.map s = some c → ∃ k, st.caches[c]? = some (s, k)
  held : ∀ (i : Nat) s c, st.threads[i]? = some (.getFrom s c) → ∃ k, st.caches[c]? = some (s, k)
  filling : ∀ (i : Nat) a l f e, st.threads[i]? = some (.filling a l f e) → ∀ c ∈ l, c < st.caches.length

/-- A thread that moves on without getting a signet, taking a cache or filling. -/
theorem SupplyInv.thread {ok : Nat → Bool} {st : SupplyState} {qs : Nat → List Nat} (h : SupplyInv ok st qs) (i : Nat) (t : SThread)
    (h1 : ∀ s x, t ≠ .got s x) (h2 : ∀ s c, t = .getFrom s c → ∃ k, st.caches[c]? = some (s, k))
    (h3 : ∀ a l f e, t = .filling a l f e → ∀ c ∈ l, c < st.caches.length) : SupplyInv ok (st.setThread i t) qs := by
  have key : ∀ (j : Nat) (u : SThread), (st.threads.set i t)[j]? = some u → st.threads[j]? = some u ∨ u = t := by
    intro j u hu
    rw [List.getElem?_set] at hu
    split at hu
    · split at hu
      · right; cases hu; rfl
      · cases hu
    · exact Or.inl hu
  refine ⟨h.holds, h.pos, h.outside, h.kinds, h.nodup, h.disj, ?_, ?_, ?_, h.mapped, ?_, ?_⟩
  · intro j s x c hj
    rcases key j _ hj with hj | hj
    · exact h.gone j s x c hj
    · exact absurd hj.symm (h1 s x)
  · intro j j' s s' x hj hj'
    rcases key j _ hj with hj | hj
    · rcases key j' _ hj' with hj' | hj'
      · exact h.once j j' s s' x hj hj'
      · exact absurd hj'.symm (h1 s' x)
    · exact absurd hj.symm (h1 s x)
  · intro j s x hj
    rcases key j _ hj with hj | hj
    · exact h.result j s x hj
    · exact absurd hj.symm (h1 s x)
  · intro j s c hj
    rcases key j _ hj with hj | hj
    · exact h.held j s c hj
    · exact h2 s c hj.symm
  · intro j a l f e hj
    rcases key j _ hj with hj | hj
    · exact h.filling j a l f e hj
    · exact h3 a l f e hj.symm

/-- A thread that gets a signet that nobody has. -/
theorem SupplyInv.gets {ok : Nat → Bool} {st : SupplyState} {qs : Nat → List Nat} (h : SupplyInv ok st qs) (i : Nat) (s : Bytes) (x : Nat)
    (h1 : ∀ c, x ∉ qs c) (h2 : ∀ (j : Nat) s', st.threads[j]? ≠ some (.got s' x)) (h3 : st.gens[x]? = some s ∧ ok x = true) :
    SupplyInv ok (st.setThread i (.got s x)) qs := by
  have key : ∀ (j : Nat) (u : SThread), (st.threads.set i (.got s x))[j]? = some u →
      (j ≠ i ∧ st.threads[j]? = some u) ∨ (j = i ∧ u = .got s x) := by
    intro j u hu
    rw [List.getElem?_set] at hu
    split at hu
    · rename_i e
      split at hu
      · right; cases hu; exact ⟨e.symm, rfl⟩
      · cases hu
    · rename_i e; exact Or.inl ⟨fun e' => e e'.symm, hu⟩
  refine ⟨h.holds, h.pos, h.outside, h.kinds, h.nodup, h.disj, ?_, ?_, ?_, h.mapped, ?_, ?_⟩
  · intro j s' y c hj
    rcases key j _ hj with ⟨_, hj⟩ | ⟨_, hj⟩
    · exact h.gone j s' y c hj
    · cases hj; exact h1 c
  · intro j j' a b y hj hj'
    rcases key j _ hj with ⟨_, hj⟩ | ⟨e, hj⟩
    · rcases key j' _ hj' with ⟨_, hj'⟩ | ⟨e', hj'⟩
      · exact h.once j j' a b y hj hj'
      · cases hj'; exact absurd hj (h2 j a)
    · rcases key j' _ hj' with ⟨_, hj'⟩ | ⟨e', hj'⟩
      · cases hj; exact absurd hj' (h2 j' b)
      · rw [e, e']
  · intro j s' y hj
    rcases key j _ hj with ⟨_, hj⟩ | ⟨_, hj⟩
    · exact h.result j s' y hj
    · cases hj; exact h3
  · intro j s' c hj
    rcases key j _ hj with ⟨_, hj⟩ | ⟨_, hj⟩
    · exact h.held j s' c hj
    · cases hj
  · intro j a l f e hj
    rcases key j _ hj with ⟨_, hj⟩ | ⟨_, hj⟩
    · exact h.filling j a l f e hj
    · cases hj

theorem getElem?_lt_of {α : Type} {l : List α} {i : Nat} {x : α} (h : l[i]? = some x) : i < l.length := by
  by_cases hi : i < l.length
  · exact hi
  · rw [List.getElem?_eq_none (by omega)] at h; cases h

/-- A cache changes, and generations are added. -/
theorem SupplyInv.cache {ok : Nat → Bool} {st : SupplyState} {qs : Nat → List Nat} (h : SupplyInv ok st qs) (c : Nat) (m : Bytes)
    (k k' : SCache) (q' : List Nat) (g : List Bytes) (hc : st.caches[c]? = some (m, k)) (hh : CacheHolds st.size k' q')
    (hk : ∀ x ∈ q', (st.gens ++ g)[x]? = some m ∧ ok x = true) (hn : q'.Nodup) (hnew : ∀ x ∈ q', x ∈ qs c ∨ st.gens.length ≤ x) :
    SupplyInv ok { st with caches := st.caches.set c (m, k'), gens := st.gens ++ g } (fun d => if d = c then q' else qs d) := by
  have hcl := getElem?_lt_of hc
  have hgen : ∀ (x : Nat) (y : Bytes), st.gens[x]? = some y → (st.gens ++ g)[x]? = some y := by
    intro x y hx
    rw [List.getElem?_append_left (getElem?_lt_of hx)]; exact hx
  have hold : ∀ d x, x ∈ qs d → x < st.gens.length := by
    intro d x hx
    by_cases hd : d < st.caches.length
    · exact getElem?_lt_of (h.kinds d _ _ (List.getElem?_eq_getElem hd) x hx).1
    · rw [h.outside d (by omega)] at hx; cases hx
  have hcache : ∀ (d : Nat) m' k'', (st.caches.set c (m, k'))[d]? = some (m', k'') →
      (d = c ∧ m' = m ∧ k'' = k') ∨ (d ≠ c ∧ st.caches[d]? = some (m', k'')) := by
    intro d m' k'' hd
    rw [List.getElem?_set] at hd
    split at hd
    · rename_i e
      cases hd; exact Or.inl ⟨e.symm, rfl, rfl⟩
    · rename_i e; exact Or.inr ⟨fun e' => e e'.symm, hd⟩
  have hkeep : ∀ (d : Nat) s, (∃ k, st.caches[d]? = some (s, k)) → ∃ k, (st.caches.set c (m, k'))[d]? = some (s, k) := by
    rintro d s ⟨k1, h1⟩
    rw [List.getElem?_set]
    by_cases e : c = d
    · subst e
      rw [hc] at h1
      cases h1
      exact ⟨k', by simp [hcl]⟩
    · exact ⟨k1, by simp [e, h1]⟩
  refine ⟨?_, h.pos, ?_, ?_, ?_, ?_, ?_, h.once, ?_, ?_, ?_, ?_⟩
  · intro d m' k'' hd
    rcases hcache d m' k'' hd with ⟨rfl, rfl, rfl⟩ | ⟨hne, hd⟩
    · simpa using hh
    · simpa [hne] using h.holds d m' k'' hd
  · intro d hd
    simp only [List.length_set] at hd
    have : d ≠ c := by omega
    simpa [this] using h.outside d hd
  · intro d m' k'' hd x hx
    rcases hcache d m' k'' hd with ⟨rfl, rfl, rfl⟩ | ⟨hne, hd⟩
    · simp only [if_true] at hx; exact hk x hx
    · simp only [hne, if_false] at hx
      obtain ⟨a, b⟩ := h.kinds d m' k'' hd x hx
      exact ⟨hgen _ _ a, b⟩
  · intro d
    by_cases e : d = c
    · simpa [e] using hn
    · simpa [e] using h.nodup d
  · intro d d' x hx hx'
    by_cases e : d = c
    · by_cases e' : d' = c
      · rw [e, e']
      · simp only [e, if_true] at hx
        simp only [e', if_false] at hx'
        rcases hnew x hx with hx1 | hx1
        · exact absurd (h.disj _ _ x hx' hx1) e'
        · have := hold d' x hx'; omega
    · by_cases e' : d' = c
      · simp only [e, if_false] at hx
        simp only [e', if_true] at hx'
        rcases hnew x hx' with hx1 | hx1
        · exact absurd (h.disj _ _ x hx hx1) e
        · have := hold d x hx; omega
      · simp only [e, if_false] at hx
        simp only [e', if_false] at hx'
        exact h.disj d d' x hx hx'
  · intro i s x d hi
    by_cases e : d = c
    · simp only [e, if_true]
      intro hx
      rcases hnew x hx with hx1 | hx1
      · exact h.gone i s x c hi hx1
      · have := getElem?_lt_of (h.result i s x hi).1; omega
    · simpa [e] using h.gone i s x d hi
  · intro i s x hi
    obtain ⟨a, b⟩ := h.result i s x hi
    exact ⟨hgen _ _ a, b⟩
  · intro s d hd; exact hkeep d s (h.mapped s d hd)
  · intro i s d hi; exact hkeep d s (h.held i s d hi)
  · intro i a l f e hi; simpa using h.filling i a l f e hi

theorem supplyInv_step (ok : Nat → Bool) (st st' : SupplyState) (i : Nat) (qs : Nat → List Nat) (h : SupplyInv ok st qs)
    (hstep : SupplyStep ok st i st') : ∃ qs', SupplyInv ok st' qs' := by
  cases hstep with
  | lookupHit scheme c h1 h2 =>
    exact ⟨qs, h.thread i _ (by simp) (by rintro s d e; cases e; exact h.mapped _ _ h2) (by simp)⟩
  | lookupMiss scheme t h1 h2 h3 => exact ⟨qs, h.thread i _ (by simp) (by simp) (by simp)⟩
  | unknownTool scheme h1 h2 h3 => exact ⟨qs, h.thread i _ (by simp) (by simp) (by simp)⟩
  | make scheme h1 h2 =>
    have hget : ∀ (d : Nat) x, st.caches[d]? = some x → (st.caches ++ [(scheme, SCache.new st.size)])[d]? = some x := by
      intro d x hd; rw [List.getElem?_append_left (getElem?_lt_of hd)]; exact hd
    have hinv : SupplyInv ok { st with map := fun x => if x = scheme then some st.caches.length else st.map x, caches := st.caches ++ [(scheme, SCache.new st.size)] } qs := by
      have hcase : ∀ (d : Nat) m k, (st.caches ++ [(scheme, SCache.new st.size)])[d]? = some (m, k) →
          st.caches[d]? = some (m, k) ∨ (d = st.caches.length ∧ k = SCache.new st.size) := by
        intro d m k hd
        by_cases hlt : d < st.caches.length
        · rw [List.getElem?_append_left hlt] at hd; exact Or.inl hd
        · rw [List.getElem?_append_right (by omega)] at hd
          have := getElem?_lt_of hd
          simp only [List.length_singleton] at this
          have e : d - st.caches.length = 0 := by omega
          rw [e] at hd
          simp only [List.getElem?_cons_zero] at hd
          cases hd
          exact Or.inr ⟨by omega, rfl⟩
      refine ⟨?_, h.pos, ?_, ?_, h.nodup, h.disj, h.gone, h.once, h.result, ?_, ?_, ?_⟩
      · intro d m k hd
        rcases hcase d m k hd with hd | ⟨rfl, rfl⟩
        · exact h.holds d m k hd
        · rw [h.outside _ (Nat.le_refl _)]; exact cacheHolds_new _ h.pos
      · intro d hd
        simp only [List.length_append, List.length_singleton] at hd
        exact h.outside d (by omega)
      · intro d m k hd x hx
        rcases hcase d m k hd with hd | ⟨rfl, rfl⟩
        · exact h.kinds d m k hd x hx
        · rw [h.outside _ (Nat.le_refl _)] at hx; cases hx
      · intro s c hs
        simp only at hs
        split at hs
        · rename_i e
          cases hs
          exact ⟨SCache.new st.size, by simp [e]⟩
        · obtain ⟨k, hk⟩ := h.mapped s c hs
          exact ⟨k, hget _ _ hk⟩
      · intro j s c hj
        obtain ⟨k, hk⟩ := h.held j s c hj
        exact ⟨k, hget _ _ hk⟩
      · intro j a l f e hj c hc
        have := h.filling j a l f e hj c hc
        simp only [List.length_append]
        omega
    exact ⟨qs, hinv.thread i _ (by simp) (by rintro s d e; cases e; exact ⟨SCache.new st.size, by simp⟩) (by simp)⟩
  | take scheme c m k k' x h1 h2 h3 =>
    obtain ⟨k1, h4⟩ := h.held i scheme c h1
    rw [h2] at h4
    cases h4
    obtain ⟨c', e1, e2⟩ := cache_get st.size k (qs c) (h.holds c _ _ h2)
    rw [h3] at e1
    have e3 := Except.ok.inj e1
    cases hq : qs c with
    | nil => rw [hq] at e3; cases e3
    | cons y ys =>
      rw [hq] at e3 e2
      simp only [List.head?_cons, List.tail_cons, Prod.mk.injEq, Option.some.injEq] at e3 e2
      obtain ⟨rfl, rfl⟩ := e3
      have hinv := h.cache c scheme k k' ys [] h2 e2
        (by intro z hz; rw [List.append_nil]; exact h.kinds c _ _ h2 z (by rw [hq]; exact List.mem_cons_of_mem _ hz))
        (by have := h.nodup c; rw [hq] at this; exact (List.nodup_cons.mp this).2)
        (fun z hz => Or.inl (by rw [hq]; exact List.mem_cons_of_mem _ hz))
      simp only [List.append_nil] at hinv
      refine ⟨_, hinv.gets i scheme x ?_ ?_ (h.kinds c _ _ h2 x (by rw [hq]; exact List.mem_cons_self))⟩
      · intro d
        by_cases e : d = c
        · have := h.nodup c
          rw [hq] at this
          simpa [e] using (List.nodup_cons.mp this).1
        · simp only [e, if_false]
          intro hx
          exact e (h.disj d c x hx (by rw [hq]; exact List.mem_cons_self))
      · intro j s' hj
        exact h.gone j s' x c hj (by rw [hq]; exact List.mem_cons_self)
  | empty scheme c m k k' h1 h2 h3 =>
    obtain ⟨c', e1, e2⟩ := cache_get st.size k (qs c) (h.holds c _ _ h2)
    rw [h3] at e1
    have e3 := Except.ok.inj e1
    simp only [Prod.mk.injEq] at e3
    obtain ⟨rfl, _⟩ := e3
    have hinv := h.cache c m k k' (qs c).tail [] h2 e2
      (by intro z hz; rw [List.append_nil]; exact h.kinds c _ _ h2 z (List.mem_of_mem_tail hz))
      ((h.nodup c).sublist (List.tail_sublist _)) (fun z hz => Or.inl (List.mem_of_mem_tail hz))
    simp only [List.append_nil] at hinv
    exact ⟨_, hinv.thread i _ (by simp) (by simp) (by simp)⟩
  | adhocOk scheme h1 h2 =>
    have hgen : ∀ (x : Nat) (y : Bytes), st.gens[x]? = some y → (st.gens ++ [scheme])[x]? = some y := by
      intro x y hx
      rw [List.getElem?_append_left (getElem?_lt_of hx)]; exact hx
    have hinv : SupplyInv ok { st with gens := st.gens ++ [scheme] } qs :=
      { h with
        kinds := fun c m k hc x hx => ⟨hgen _ _ (h.kinds c m k hc x hx).1, (h.kinds c m k hc x hx).2⟩
        result := fun j s x hj => ⟨hgen _ _ (h.result j s x hj).1, (h.result j s x hj).2⟩ }
    refine ⟨qs, hinv.gets i scheme st.gens.length ?_ ?_ ⟨by simp, h2⟩⟩
    · intro c hx
      by_cases hd : c < st.caches.length
      · have := getElem?_lt_of (h.kinds c _ _ (List.getElem?_eq_getElem hd) _ hx).1; omega
      · rw [h.outside c (by omega)] at hx; cases hx
    · intro j s' hj
      have := getElem?_lt_of (h.result j s' _ hj).1; omega
  | adhocFail scheme h1 h2 =>
    have hgen : ∀ (x : Nat) (y : Bytes), st.gens[x]? = some y → (st.gens ++ [scheme])[x]? = some y := by
      intro x y hx
      rw [List.getElem?_append_left (getElem?_lt_of hx)]; exact hx
    have hinv : SupplyInv ok { st with gens := st.gens ++ [scheme] } qs :=
      { h with
        kinds := fun c m k hc x hx => ⟨hgen _ _ (h.kinds c m k hc x hx).1, (h.kinds c m k hc x hx).2⟩
        result := fun j s x hj => ⟨hgen _ _ (h.result j s x hj).1, (h.result j s x hj).2⟩ }
    exact ⟨qs, hinv.thread i _ (by simp) (by simp) (by simp)⟩
  | fillStart amount l h1 h2 h3 =>
    refine ⟨qs, h.thread i _ (by simp) (by simp) ?_⟩
    rintro a l' f e he c hc
    cases he
    obtain ⟨s, hs⟩ := (h3 c).mp hc
    obtain ⟨k, hk⟩ := h.mapped s c hs
    exact getElem?_lt_of hk
  | fillOne amount c rest full err m k k' n f e h1 h2 h3 =>
    obtain ⟨c', n', f', e', g, e1, e2, e3, e4⟩ := cache_fill_any ok st.size k (qs c) (h.holds c _ _ h2) amount st.gens.length
    rw [h3] at e1
    have e5 := Except.ok.inj e1
    simp only [Prod.mk.injEq] at e5
    obtain ⟨rfl, rfl, rfl, rfl⟩ := e5
    have hrange : ∀ x, x ∈ List.range' st.gens.length g ↔ st.gens.length ≤ x ∧ x < st.gens.length + g := by
      intro x; rw [List.mem_range'_1]
    have hold : ∀ x ∈ qs c, x < st.gens.length := fun x hx => getElem?_lt_of (h.kinds c _ _ h2 x hx).1
    have hinv := h.cache c m k k' (qs c ++ List.range' st.gens.length g) (List.replicate (n - st.gens.length) m) h2 e2
      (by
        intro x hx
        rcases List.mem_append.mp hx with hx | hx
        · obtain ⟨a, b⟩ := h.kinds c _ _ h2 x hx
          exact ⟨by rw [List.getElem?_append_left (getElem?_lt_of a)]; exact a, b⟩
        · obtain ⟨a, b⟩ := (hrange x).mp hx
          refine ⟨?_, ?_⟩
          · rw [List.getElem?_append_right a, List.getElem?_replicate_of_lt (by omega)]
          · have := e4 (x - st.gens.length) (by omega)
            rwa [show st.gens.length + (x - st.gens.length) = x by omega] at this)
      (by
        rw [List.nodup_append]
        refine ⟨h.nodup c, List.nodup_range', ?_⟩
        intro a ha b hb e
        have := hold a ha
        have := (hrange b).mp hb
        omega)
      (by
        intro x hx
        rcases List.mem_append.mp hx with hx | hx
        · exact Or.inl hx
        · exact Or.inr ((hrange x).mp hx).1)
    refine ⟨_, hinv.thread i _ (by simp) (by simp) ?_⟩
    rintro a l' f2 f3 he d hd
    cases he
    have := h.filling i _ _ _ _ h1 d (List.mem_cons_of_mem _ hd)
    simpa using this
  | fillEnd amount full err h1 => exact ⟨qs, h.thread i _ (by simp) (by simp) (by simp)⟩

/-- Calls that have not begun. -/
def SThread.isStart : SThread → Prop
  | .getStart _ | .fillStart _ => True
  | _ => False

theorem supply_inv (ok : Nat → Bool) (cacheSize : Int) (calls : List SThread) (hc : ∀ t ∈ calls, t.isStart) (st : SupplyState)
    (h : SupplyReach ok (newSupply cacheSize calls) st) : ∃ qs, SupplyInv ok st qs := by
  generalize h0 : newSupply cacheSize calls = s0 at h
  induction h with
  | refl =>
    subst h0
    have hno : ∀ (i : Nat) t, calls[i]? = some t → t.isStart := fun i t ht => hc t (List.mem_of_getElem? ht)
    refine ⟨fun _ => [], ?_, ?_, fun _ _ => rfl, ?_, fun _ => List.nodup_nil, ?_, ?_, ?_, ?_, ?_, ?_, ?_⟩
    · intro c m k hk; simp [newSupply] at hk
    · simp only [newSupply]; split <;> omega
    · intro c m k hk; simp [newSupply] at hk
    · intro c c' x hx; cases hx
    · intro i s x c hi; cases hno i _ hi
    · intro i j s s' x hi; cases hno i _ hi
    · intro i s x hi; cases hno i _ hi
    · intro s c hs; cases hs
    · intro i s c hi; cases hno i _ hi
    · intro i a l f e hi; cases hno i _ hi
  | step _ hs ih =>
    obtain ⟨qs, hq⟩ := ih
    exact supplyInv_step ok _ _ _ qs hq hs

/-- C35. Whatever calls of `GetSignet` and `Fill` run concurrently, in whatever order their steps are executed and whichever generations
fail: no signet is handed out twice, and each one was successfully generated for the scheme that it is handed out for. -/
theorem supply_hands_out_once (ok : Nat → Bool) (cacheSize : Int) (calls : List SThread) (hc : ∀ t ∈ calls, t.isStart) (st : SupplyState)
    (h : SupplyReach ok (newSupply cacheSize calls) st) :
    (∀ (i j : Nat) s s' x, st.threads[i]? = some (.got s x) → st.threads[j]? = some (.got s' x) → i = j) ∧
    (∀ (i : Nat) s x, st.threads[i]? = some (.got s x) → st.gens[x]? = some s ∧ ok x = true) := by
  obtain ⟨qs, hq⟩ := supply_inv ok cacheSize calls hc st h
  exact ⟨hq.once, hq.result⟩

/-- C35. At all times the fill level of each cache is the number of signets in it, and at most the cache size (which is at least one);
neither getting nor filling panics. -/
theorem supply_levels (ok : Nat → Bool) (cacheSize : Int) (calls : List SThread) (hc : ∀ t ∈ calls, t.isStart) (st : SupplyState)
    (h : SupplyReach ok (newSupply cacheSize calls) st) :
    st.size = (max cacheSize 1).toNat ∧
    ∀ m k, (m, k) ∈ st.caches → k.level = (k.stock.filter Option.isSome).length ∧ k.level ≤ max cacheSize 1 ∧
      k.stock.length = (max cacheSize 1).toNat ∧ k.get.noPanic ∧ ∀ amount n, (k.fill ok amount n).noPanic := by
  have hsize : st.size = (max cacheSize 1).toNat := by
    have hstep : ∀ (s s' : SupplyState) (i : Nat), SupplyStep ok s i s' → s'.size = s.size := by
      intro s s' i hs; cases hs <;> rfl
    generalize h0 : newSupply cacheSize calls = s0 at h
    induction h with
    | refl => subst h0; simp only [newSupply]; split <;> omega
    | step _ hs ih => rw [hstep _ _ _ hs]; exact ih
  refine ⟨hsize, ?_⟩
  obtain ⟨qs, hq⟩ := supply_inv ok cacheSize calls hc st h
  intro m k hk
  obtain ⟨c, hc'⟩ := List.mem_iff_getElem?.mp hk
  have hh := hq.holds c m k hc'
  obtain ⟨h1, h2⟩ := cache_level_exact _ _ _ hh
  refine ⟨h1, ?_, by rw [hh.len, hsize], ?_, fun amount n => ?_⟩
  · rw [h1]; omega
  · obtain ⟨c', e1, _⟩ := cache_get _ _ _ hh
    rw [e1]; intro e; cases e
  · obtain ⟨c', n', f, e, g, e1, _⟩ := cache_fill_any ok _ _ _ hh amount n
    rw [e1]; intro e; cases e

/-- C35. What `Status` reports for any of the caches: the size of a cache for each of them, and the number of signets in them. -/
theorem supply_status (ok : Nat → Bool) (cacheSize : Int) (calls : List SThread) (hc : ∀ t ∈ calls, t.isStart) (st : SupplyState)
    (h : SupplyReach ok (newSupply cacheSize calls) st) (ks : List SCache) (hk : ∀ k ∈ ks, ∃ m, (m, k) ∈ st.caches) :
    ((supplyStatus st.size ks).1 : Int) = max cacheSize 1 * ks.length ∧
    (supplyStatus st.size ks).2 = (ks.flatMap (fun k => k.stock.filter Option.isSome)).length ∧
    (supplyStatus st.size ks).2 ≤ (supplyStatus st.size ks).1 := by
  obtain ⟨h1, h2⟩ := supply_levels ok cacheSize calls hc st h
  have hs : ((max cacheSize 1).toNat : Int) = max cacheSize 1 := by omega
  have hlev : ∀ ks : List SCache, (∀ k ∈ ks, ∃ m, (m, k) ∈ st.caches) →
      (ks.map (·.level)).sum = ((ks.flatMap (fun k => k.stock.filter Option.isSome)).length : Int) ∧
      (ks.map (·.level)).sum ≤ max cacheSize 1 * ks.length := by
    intro ks
    induction ks with
    | nil => intro _; simp
    | cons k ks ih =>
      intro hk
      obtain ⟨m, hm⟩ := hk k List.mem_cons_self
      obtain ⟨a, b⟩ := ih (fun k' hk' => hk k' (List.mem_cons_of_mem _ hk'))
      obtain ⟨c, d, _⟩ := h2 m k hm
      rw [List.map_cons, List.sum_cons, List.flatMap_cons, List.length_append, a, c, List.length_cons]
      refine ⟨by omega, ?_⟩
      rw [← a, ← c, Int.natCast_add, Int.mul_add]
      simp only [Int.natCast_one, Int.mul_one]
      omega
  obtain ⟨a, b⟩ := hlev ks hk
  simp only [supplyStatus, h1, Int.natCast_mul, hs]
  exact ⟨trivial, a, b⟩

/-- A schedule of two first calls of `GetSignet` for a scheme and a call of `Fill`: both calls make a cache. The calls get different
signets, but the other signet that `Fill` has put into the first cache is in no cache of the map and held by no call: it is lost. -/
theorem supply_lost_stock :
    ∃ st, SupplyReach (fun _ => true) (newSupply 2 [.getStart b!"Ed25519", .getStart b!"Ed25519", .fillStart 2]) st ∧
      st.threads = [.got b!"Ed25519" 0, .got b!"Ed25519" 2, .filled true false] ∧
      st.map b!"Ed25519" = some 1 ∧ (∀ x, x ≠ b!"Ed25519" → st.map x = none) ∧
      st.caches.map (fun c => c.2.stock) = [[none, some 1], [none, none]] := by
  have h0 := SupplyReach.refl (ok := fun _ => true) (newSupply 2 [.getStart b!"Ed25519", .getStart b!"Ed25519", .fillStart 2])
  have ht : ∃ t, getTool b!"Ed25519" = some t := ⟨_, rfl⟩
  obtain ⟨t, ht⟩ := ht
  have h1 := h0.step (.lookupMiss (i := 0) b!"Ed25519" t rfl rfl ht)
  have h2 := h1.step (.lookupMiss (i := 1) b!"Ed25519" t rfl rfl ht)
  have h3 := h2.step (.make (i := 0) b!"Ed25519" rfl (by decide))
  have h4 := h3.step (.fillStart (i := 2) 2 [0] rfl (by simp) (by
    intro c
    simp only [List.mem_singleton, SupplyState.setThread, newSupply]
    constructor
    · rintro rfl; exact ⟨b!"Ed25519", by simp⟩
    · rintro ⟨x, hx⟩; split at hx
      · cases hx; rfl
      · cases hx))
  have h5 := h4.step (.fillOne (i := 2) 2 0 [] true false b!"Ed25519" (SCache.new 2) ⟨[some 0, some 1], 0, 2⟩ 2 true false rfl rfl (by decide +kernel))
  have h6 := h5.step (.fillEnd (i := 2) 2 true false rfl)
  have h7 := h6.step (.make (i := 1) b!"Ed25519" rfl (by decide))
  have h8 := h7.step (.take (i := 0) b!"Ed25519" 0 b!"Ed25519" ⟨[some 0, some 1], 0, 2⟩ ⟨[none, some 1], 1, 1⟩ 0 rfl rfl (by decide +kernel))
  have h9 := h8.step (.empty (i := 1) b!"Ed25519" 1 b!"Ed25519" (SCache.new 2) (SCache.new 2) rfl rfl (by decide +kernel))
  have h10 := h9.step (.adhocOk (i := 1) b!"Ed25519" rfl rfl)
  refine ⟨_, h10, rfl, rfl, ?_, rfl⟩
  intro x hx
  simp only [SupplyState.setThread, newSupply, hx, if_false]

end Jess
