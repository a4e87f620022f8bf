import Verif.Model.Support
import Verif.Model.Core
import Verif.Lemmas.Basic

/-! C37: password strength. C45: random numbers and settings. C46: RSA key sizes. C47: POLY1305. C48: key material. -/

namespace Jess

/-! ## C37 -/

/-- All listed characters (specification). -/
def listedChars : Bytes := passwordCharSets.flatten

/-- The password is disqualified: a listed character makes up a quarter of it, or the listed characters are repeated four or more
times on average (specification). -/
def WeakPassword (pw : Bytes) : Prop :=
  (∃ c ∈ listedChars, pw.length ≤ 4 * pw.count c) ∨ 4 * (listedChars.filter (fun c => decide (c ∈ pw))).length ≤ pw.length

/-- The size of the alphabet that an attacker has to try: the sizes of the character sets that are used, and 32 for all other
characters (specification). -/
def poolSize (pw : Bytes) : Nat :=
  (passwordCharSets.map (fun cs => if cs.any (fun c => decide (c ∈ pw)) then cs.length else 0)).sum +
    (if pw.all (fun c => decide (c ∈ listedChars)) then 0 else 32)

theorem scanSet_spec (pw : Bytes) : ∀ (cs : Bytes) (x : PwScan) (b : Bool),
    scanSet pw cs (x, b) = if ∃ c ∈ cs, pw.length ≤ 4 * pw.count c then none
      else some ({ x with found := x.found + (cs.map pw.count).sum, distinct := x.distinct + (cs.filter (fun c => decide (c ∈ pw))).length },
        b || cs.any (fun c => decide (c ∈ pw)))
  | [], x, b => by simp [scanSet]
  | c :: cs, x, b => by
    unfold scanSet countRune
    by_cases h : pw.length ≤ 4 * pw.count c
    · rw [if_pos (by omega), if_pos ⟨c, by simp, h⟩]
    · rw [if_neg (by omega)]
      have hex : (∃ d ∈ c :: cs, pw.length ≤ 4 * pw.count d) ↔ ∃ d ∈ cs, pw.length ≤ 4 * pw.count d := by
        simp [h]
      by_cases hc : c ∈ pw
      · have h0 : pw.count c > 0 := List.count_pos_iff.mpr hc
        rw [if_pos h0, scanSet_spec pw cs]
        simp only [hex]
        congr 1
        simp [hc, Nat.add_assoc, Nat.add_comm, Nat.add_left_comm]
      · have h0 : pw.count c = 0 := List.count_eq_zero.mpr hc
        rw [if_neg (by omega), scanSet_spec pw cs]
        simp only [hex]
        congr 1
        simp [hc, h0]

theorem scanSets_spec (pw : Bytes) : ∀ (css : List Bytes) (x : PwScan),
    scanSets pw css x = if ∃ c ∈ css.flatten, pw.length ≤ 4 * pw.count c then none
      else some { found := x.found + (css.flatten.map pw.count).sum,
                  distinct := x.distinct + (css.flatten.filter (fun c => decide (c ∈ pw))).length,
                  pool := x.pool + (css.map (fun cs => if cs.any (fun c => decide (c ∈ pw)) then cs.length else 0)).sum }
  | [], x => by simp [scanSets]
  | cs :: css, x => by
    unfold scanSets
    rw [scanSet_spec]
    by_cases h : ∃ c ∈ cs, pw.length ≤ 4 * pw.count c
    · rw [if_pos h]
      obtain ⟨c, hc, h⟩ := h
      rw [if_pos ⟨c, by simp [hc], h⟩]
    · rw [if_neg h]
      simp only [Bool.false_or]
      rw [scanSets_spec pw css]
      have hex : (∃ c ∈ (cs :: css).flatten, pw.length ≤ 4 * pw.count c) ↔ ∃ c ∈ css.flatten, pw.length ≤ 4 * pw.count c := by
        constructor
        · rintro ⟨c, hc, hl⟩
          rw [List.flatten_cons, List.mem_append] at hc
          rcases hc with hc | hc
          · exact absurd ⟨c, hc, hl⟩ h
          · exact ⟨c, hc, hl⟩
        · rintro ⟨c, hc, hl⟩
          exact ⟨c, by rw [List.flatten_cons, List.mem_append]; exact Or.inr hc, hl⟩
      by_cases h2 : ∃ c ∈ css.flatten, pw.length ≤ 4 * pw.count c
      · rw [if_pos h2, if_pos (hex.mpr h2)]
      · rw [if_neg h2, if_neg (fun h => h2 (hex.mp h))]
        simp only [List.flatten_cons, List.map_append, List.sum_append, List.filter_append, List.length_append, List.map_cons,
          List.sum_cons]
        cases cs.any (fun c => decide (c ∈ pw)) <;> simp [Nat.add_assoc]

/-- Each byte of the password is counted for one listed character at most. -/
theorem count_listed (L : Bytes) (hL : L.Nodup) : ∀ pw : Bytes, (L.map pw.count).sum = (pw.filter (fun c => decide (c ∈ L))).length
  | [] => by
    have : ∀ L : Bytes, (L.map (List.count · ([] : Bytes))).sum = 0 := by
      intro L; induction L with
      | nil => rfl
      | cons a as ih => rw [List.map_cons, List.sum_cons, ih]; rfl
    exact this L
  | b :: pw => by
    have ih := count_listed L hL pw
    have : (L.map (b :: pw).count).sum = (L.map pw.count).sum + (if b ∈ L then 1 else 0) := by
      clear ih
      induction L with
      | nil => rfl
      | cons a as ih2 =>
        have hn := List.nodup_cons.mp hL
        rw [List.map_cons, List.sum_cons, List.map_cons, List.sum_cons, ih2 hn.2, List.count_cons]
        by_cases hab : b = a
        · subst hab
          simp [hn.1]; omega
        · have : (b == a) = false := by simpa using hab
          simp [this, hab, Nat.add_assoc]
    rw [this, ih, List.filter_cons]
    by_cases h : b ∈ L <;> simp [h]

theorem listed_nodup : listedChars.Nodup := by decide +kernel

/-- The estimate in terms of the specification. -/
theorem passwordLevel_spec (pw : Bytes) (it : Nat) :
    (WeakPassword pw → passwordLevel pw it = -1) ∧ (¬ WeakPassword pw → passwordLevel pw it = pwEstimate (poolSize pw) pw.length it) := by
  unfold passwordLevel
  rw [scanSets_spec]
  have hl : passwordCharSets.flatten = listedChars := rfl
  rw [hl]
  by_cases h : ∃ c ∈ listedChars, pw.length ≤ 4 * pw.count c
  · rw [if_pos h]
    exact ⟨fun _ => rfl, fun hn => absurd (Or.inl h) hn⟩
  · rw [if_neg h]
    simp only [Nat.zero_add]
    by_cases hd : 4 * (listedChars.filter (fun c => decide (c ∈ pw))).length ≤ pw.length
    · rw [if_pos (by omega)]
      exact ⟨fun _ => rfl, fun hn => absurd (Or.inr hd) hn⟩
    · rw [if_neg (by omega)]
      refine ⟨fun hw => ?_, fun _ => ?_⟩
      · rcases hw with hw | hw
        · exact absurd hw h
        · exact absurd hw hd
      · congr 1
        rw [count_listed _ listed_nodup]
        unfold poolSize
        have : (pw.filter (fun c => decide (c ∈ listedChars))).length < pw.length ↔ ¬ pw.all (fun c => decide (c ∈ listedChars)) = true := by
          rw [List.length_filter_lt_length_iff_exists]
          simp
        split <;> rename_i hx <;> simp_all

theorem pool_pos {pw : Bytes} (h : ¬ WeakPassword pw) : 5 ≤ poolSize pw ∧ 5 ≤ pw.length := by
  obtain ⟨h1, h2⟩ := not_or.mp h
  have hd : listedChars.filter (fun c => decide (c ∈ pw)) ≠ [] := by
    intro h0; rw [h0] at h2; simp at h2
  obtain ⟨c, hc⟩ := List.exists_mem_of_ne_nil _ hd
  rw [List.mem_filter] at hc
  obtain ⟨hc, hcp⟩ := hc
  have hcp : c ∈ pw := by simpa using hcp
  have hlen : 5 ≤ pw.length := by
    have : ¬ pw.length ≤ 4 * pw.count c := fun h => h1 ⟨c, hc, h⟩
    have := List.count_pos_iff.mpr hcp
    omega
  refine ⟨?_, hlen⟩
  obtain ⟨cs, hcs, hcc⟩ := List.mem_flatten.mp (show c ∈ passwordCharSets.flatten from hc)
  have h5 : ∀ cs ∈ passwordCharSets, 5 ≤ cs.length := by decide
  have hsum : ∀ (l : List Bytes), cs ∈ l → cs.length ≤ (l.map (fun cs => if cs.any (fun c => decide (c ∈ pw)) then cs.length else 0)).sum := by
    intro l hl
    induction l with
    | nil => cases hl
    | cons a as ih =>
      rw [List.map_cons, List.sum_cons]
      rcases List.mem_cons.mp hl with rfl | hl
      · rw [if_pos (List.any_eq_true.mpr ⟨c, hcc, by simpa using hcp⟩)]; omega
      · have := ih hl; omega
  have := hsum _ hcs
  have := h5 _ hcs
  unfold poolSize
  omega

/-- C37. A password is rated -1 exactly if it is disqualified. -/
theorem password_rejected_iff (pw : Bytes) (it : Nat) (hit : it ≠ 0) : passwordLevel pw it = -1 ↔ WeakPassword pw := by
  obtain ⟨h1, h2⟩ := passwordLevel_spec pw it
  refine ⟨fun h => ?_, h1⟩
  apply Classical.byContradiction
  intro hw
  rw [h2 hw] at h
  obtain ⟨p1, p2⟩ := pool_pos hw
  unfold pwEstimate at h
  rw [if_neg hit] at h
  split at h
  · unfold minInt at h; omega
  · have : Nat.log2 (poolSize pw ^ pw.length * it) = 0 := by omega
    have hpos : 2 ≤ poolSize pw ^ pw.length * it := by
      have a : 2 ≤ poolSize pw ^ pw.length := by
        calc 2 ≤ poolSize pw ^ 1 := by rw [Nat.pow_one]; omega
          _ ≤ poolSize pw ^ pw.length := Nat.pow_le_pow_right (by omega) (by omega)
      calc 2 ≤ poolSize pw ^ pw.length := a
        _ = poolSize pw ^ pw.length * 1 := by omega
        _ ≤ _ := Nat.mul_le_mul_left _ (by omega)
    have := (Nat.le_log2 (n := poolSize pw ^ pw.length * it) (k := 1) (by omega)).mpr (by simpa using hpos)
    omega

/-- C37. The empty password, and every password without a listed character, is disqualified. -/
theorem password_unlisted_rejected (pw : Bytes) (it : Nat) (h : ∀ c ∈ pw, c ∉ listedChars) : passwordLevel pw it = -1 := by
  refine (passwordLevel_spec pw it).1 (Or.inr ?_)
  have : listedChars.filter (fun c => decide (c ∈ pw)) = [] := by
    rw [List.filter_eq_nil_iff]
    intro c hc hp
    exact h c (by simpa using hp) hc
  rw [this]; simp

/-- The numbers in the estimate are small enough for floating point. -/
def Estimable (pw : Bytes) (it : Nat) : Prop := poolSize pw ^ pw.length < 2 ^ 1024 ∧ poolSize pw ^ pw.length * it < 2 ^ 1025

/-- C37. Otherwise the level is the (rounded down) logarithm of half the number of possible passwords times the iterations. In
particular it does not exceed the entropy of the pool. -/
theorem password_level_bound_partial (pw : Bytes) (it : Nat) (hit : it ≠ 0) (hw : ¬ WeakPassword pw) (he : Estimable pw it) :
    ∃ n : Nat, passwordLevel pw it = n ∧ 2 ^ (n + 1) ≤ poolSize pw ^ pw.length * it ∧ poolSize pw ^ pw.length * it < 2 ^ (n + 2) := by
  obtain ⟨p1, p2⟩ := pool_pos hw
  have hpow : poolSize pw ^ pw.length * it ≠ 0 := Nat.mul_ne_zero (by
    have : 0 < poolSize pw ^ pw.length := Nat.pow_pos (by omega)
    omega) hit
  have h := (passwordLevel_spec pw it).2 hw
  unfold pwEstimate at h
  rw [if_neg hit, if_neg (by unfold Estimable at he; omega)] at h
  have hne : passwordLevel pw it ≠ -1 := fun h0 => hw ((password_rejected_iff pw it hit).mp h0)
  refine ⟨Nat.log2 (poolSize pw ^ pw.length * it) - 1, by omega, ?_, ?_⟩
  · have : Nat.log2 (poolSize pw ^ pw.length * it) - 1 + 1 = Nat.log2 (poolSize pw ^ pw.length * it) := by omega
    rw [this]
    exact (Nat.le_log2 hpow).mp (Nat.le_refl _)
  · have : Nat.log2 (poolSize pw ^ pw.length * it) - 1 + 2 = Nat.log2 (poolSize pw ^ pw.length * it) + 1 := by omega
    rw [this]
    exact (Nat.log2_lt hpow).mp (by omega)

/-- C37. More iterations do not lower the level. -/
theorem password_monotone_partial (pw : Bytes) (it it' : Nat) (hit : it ≠ 0) (hle : it ≤ it') (he : Estimable pw it') :
    passwordLevel pw it ≤ passwordLevel pw it' := by
  by_cases hw : WeakPassword pw
  · rw [(passwordLevel_spec pw it).1 hw, (passwordLevel_spec pw it').1 hw]; omega
  · have he' : Estimable pw it := ⟨he.1, Nat.lt_of_le_of_lt (Nat.mul_le_mul_left _ hle) he.2⟩
    obtain ⟨n, h1, h2, h3⟩ := password_level_bound_partial pw it hit hw he'
    obtain ⟨m, k1, k2, k3⟩ := password_level_bound_partial pw it' (by omega) hw he
    rw [h1, k1]
    have : 2 ^ (n + 1) < 2 ^ (m + 2) := Nat.lt_of_le_of_lt (Nat.le_trans h2 (Nat.mul_le_mul_left _ hle)) k3
    have := (Nat.pow_lt_pow_iff_right (a := 2) (by omega)).mp this
    omega

/-- A password of 186 characters: each of the 62 letters and digits three times. -/
def longPassword : Bytes :=
  (b!"abcdefghijklmnopqrstuvwxyzABCDEFGHIJKLMNOPQRSTUVWXYZ0123456789").flatMap (fun c => [c, c, c])

instance (pw : Bytes) : Decidable (WeakPassword pw) := by unfold WeakPassword; infer_instance

/-- C37 is REFUTED for very long passwords: a password of 186 different enough characters (with an estimated entropy of more than
1100 bits) is rated -2^63, because the number of combinations is not representable in floating point; a third of the same password
is rated 300. -/
theorem long_password_rejected : ¬ WeakPassword longPassword ∧ passwordLevel longPassword 1 = minInt ∧
    ¬ WeakPassword (longPassword.take 60) ∧ passwordLevel (longPassword.take 60) 1 > 256 := by
  decide +kernel

/-- C37. Monotonicity in the iterations fails as well: with the number of iterations the rating drops to -2^63. -/
theorem iterations_lower_rating : passwordLevel (longPassword.take 171) 1 > 1000 ∧
    passwordLevel (longPassword.take 171) 1000000 = minInt := by
  decide +kernel

/-! ## C45 -/

/-- C45. Success means exactly the requested number of bytes, which are those that the reader delivered. -/
theorem random_bytes_complete (rng : Rng) (i n : Nat) (b : Bytes) :
    randomBytes rng i n = .ok b ↔ rng.read i n = .ok b ∧ b.length = n := by
  unfold randomBytes
  cases h : rng.read i n with
  | error e => simp [error_bind]
  | ok x =>
    rw [ok_bind]
    by_cases hx : x.length = n
    · rw [if_neg (by simpa using hx)]
      constructor
      · intro h; cases h; exact ⟨rfl, hx⟩
      · rintro ⟨h, _⟩; exact h
    · rw [if_pos hx]
      constructor
      · intro h; cases h
      · rintro ⟨h, h2⟩; cases h; exact absurd h2 hx

theorem setCallbacks_rng (g : Globals) (a b : Option Nat) :
    (g.setCallbacks a b).rngSet = g.rngSet ∧ (g.setCallbacks a b).rng = g.rng := by
  obtain ⟨r, f, c, d⟩ := g
  cases c <;> cases d <;> exact ⟨rfl, rfl⟩

/-- C45. For one caller after the other: the reader in use after any calls is the one given to the first `SetCustomRNG`. -/
theorem first_rng_wins : ∀ (calls : List SetCall) (g : Globals), g.random = .default →
    (calls.foldl Globals.apply g).random =
      match calls.filterMap (fun c => match c with | .rng r => some r | .callbacks _ _ => none) with
      | [] => .default
      | r :: _ => .custom r := by
  have keep : ∀ (calls : List SetCall) (g : Globals), g.rngSet = true → (calls.foldl Globals.apply g).random = .custom g.rng := by
    intro calls
    induction calls with
    | nil => intro g h; simp [Globals.random, h]
    | cons c cs ih =>
      intro g h
      rw [List.foldl_cons]
      cases c with
      | rng r =>
        have : g.apply (.rng r) = g := by simp [Globals.apply, Globals.setRNG, h]
        rw [this]; exact ih g h
      | callbacks a b =>
        have h1 : (g.apply (.callbacks a b)).rngSet = true ∧ (g.apply (.callbacks a b)).rng = g.rng := by
          exact ⟨(setCallbacks_rng g a b).1.trans h, (setCallbacks_rng g a b).2⟩
        rw [ih _ h1.1, h1.2]
  intro calls
  induction calls with
  | nil => intro g h; simpa using h
  | cons c cs ih =>
    intro g h
    have hs : g.rngSet = false := by
      unfold Globals.random at h
      cases hg : g.rngSet
      · rfl
      · rw [hg] at h; cases h
    rw [List.foldl_cons]
    cases c with
    | rng r =>
      have : g.apply (.rng r) = { g with rng := r, rngSet := true } := by simp [Globals.apply, Globals.setRNG, hs]
      rw [this, keep _ _ rfl]
      simp
    | callbacks a b =>
      have h1 : (g.apply (.callbacks a b)).random = .default := by
        unfold Globals.apply Globals.random
        rw [(setCallbacks_rng g a b).1, hs]; rfl
      rw [ih _ h1]
      simp

/-- C45. A password callback, once set to something, stays. -/
theorem callbacks_stay (calls : List SetCall) : ∀ (g : Globals) (n : Nat),
    (g.create = some n → (calls.foldl Globals.apply g).create = some n) ∧
    (g.get = some n → (calls.foldl Globals.apply g).get = some n) := by
  induction calls with
  | nil => intro g n; exact ⟨id, id⟩
  | cons c cs ih =>
    intro g n
    rw [List.foldl_cons]
    cases c with
    | rng r =>
      have : (g.apply (.rng r)).create = g.create ∧ (g.apply (.rng r)).get = g.get := by
        unfold Globals.apply Globals.setRNG; cases g.rngSet <;> exact ⟨rfl, rfl⟩
      have := ih (g.apply (.rng r)) n
      simp_all
    | callbacks a b =>
      constructor
      · intro h
        refine (ih _ n).1 ?_
        unfold Globals.apply Globals.setCallbacks
        cases hg : g.get <;> simp [h, hg]
      · intro h
        refine (ih _ n).2 ?_
        unfold Globals.apply Globals.setCallbacks
        cases hc : g.create <;> simp [h, hc]

/-- C45. The callback that is set first wins. -/
theorem first_callback_wins (calls : List SetCall) (g : Globals) (c t : Nat) (hc : g.create = none) (ht : g.get = none) :
    let g' := (SetCall.callbacks (some c) (some t) :: calls).foldl Globals.apply g
    g'.create = some c ∧ g'.get = some t := by
  have h : (g.apply (.callbacks (some c) (some t))).create = some c ∧ (g.apply (.callbacks (some c) (some t))).get = some t := by
    simp [Globals.apply, Globals.setCallbacks, hc, ht]
  exact ⟨(callbacks_stay calls _ c).1 h.1, (callbacks_stay calls _ t).2 h.2⟩

example : ([SetCall.callbacks (some 4) none, .rng (some 1), .rng (some 2), .callbacks (some 5) (some 6)].foldl Globals.apply {}) =
    { rng := some 1, rngSet := true, create := some 4, get := some 6 } := by decide

/-- C45, finding: a nil reader is accepted, and then it stays: `Random()` returns nil for good (and `RandomBytes` panics). -/
theorem nil_rng_stays (calls : List SetCall) : ((SetCall.rng none :: calls).foldl Globals.apply {}).random = .custom none := by
  rw [first_rng_wins _ _ rfl]; rfl

/-- C55 is REFUTED: two goroutines call `SetCustomRNG`; with this schedule `Random()` returns the reader of the second one at some
time, and the reader of the first one afterwards, so a reader that is in use gets replaced. -/
theorem concurrent_rng_replaced : ∃ sched : List Bool, ∃ i j : Nat, i < j ∧
    ((setRNGRace sched ({}, .check, .check)).map Globals.random)[i]? = some (Reader.custom (some 2)) ∧
    ((setRNGRace sched ({}, .check, .check)).map Globals.random)[j]? = some (Reader.custom (some 1)) :=
  ⟨[true, false, false, false, true], 4, 5, by decide, by decide, by decide⟩

/-- The invariant of the race, from any state of the two goroutines. -/
theorem race_inv : ∀ (sched : List Bool) (g : Globals) (a b : SetPC),
    (g.rngSet = true ∨ a = .flag ∨ b = .flag → g.rng = some 1 ∨ g.rng = some 2) →
    (∀ x ∈ setRNGRace sched (g, a, b), x.random = .default ∨ x.random = .custom (some 1) ∨ x.random = .custom (some 2)) ∧
    (g.rngSet = true → ∀ x ∈ setRNGRace sched (g, a, b), x.random ≠ .default) := by
  have rd : ∀ g : Globals, (g.rngSet = true → g.rng = some 1 ∨ g.rng = some 2) →
      (g.random = .default ∨ g.random = .custom (some 1) ∨ g.random = .custom (some 2)) ∧ (g.rngSet = true → g.random ≠ .default) := by
    intro g h
    unfold Globals.random
    cases hg : g.rngSet
    · simp
    · rcases h hg with h | h <;> simp [h]
  intro sched
  induction sched with
  | nil =>
    intro g a b h
    have := rd g (fun hg => h (Or.inl hg))
    simpa [setRNGRace] using this
  | cons t ts ih =>
    intro g a b h
    have hg := rd g (fun hg => h (Or.inl hg))
    cases t with
    | true =>
      unfold setRNGRace
      have inv : ((setRNGStep g 1 a).1.rngSet = true ∨ (setRNGStep g 1 a).2 = .flag ∨ b = .flag →
          (setRNGStep g 1 a).1.rng = some 1 ∨ (setRNGStep g 1 a).1.rng = some 2) ∧
          (g.rngSet = true → (setRNGStep g 1 a).1.rngSet = true) := by
        cases a <;> simp_all [setRNGStep]
        · intro hx; rcases hx with hx | hx | hx
          · exact h (Or.inl hx)
          · split at hx <;> cases hx
          · exact h (Or.inr hx)
      obtain ⟨i1, i2⟩ := ih _ _ _ inv.1
      constructor
      · intro x hx
        rcases List.mem_cons.mp hx with rfl | hx
        · exact hg.1
        · exact i1 x hx
      · intro hs x hx
        rcases List.mem_cons.mp hx with rfl | hx
        · exact hg.2 hs
        · exact i2 (inv.2 hs) x hx
    | false =>
      unfold setRNGRace
      have inv : ((setRNGStep g 2 b).1.rngSet = true ∨ a = .flag ∨ (setRNGStep g 2 b).2 = .flag →
          (setRNGStep g 2 b).1.rng = some 1 ∨ (setRNGStep g 2 b).1.rng = some 2) ∧
          (g.rngSet = true → (setRNGStep g 2 b).1.rngSet = true) := by
        cases b <;> simp_all [setRNGStep]
        · intro hx; rcases hx with hx | hx | hx
          · exact h (Or.inl hx)
          · exact h (Or.inr hx)
          · split at hx <;> cases hx
      obtain ⟨i1, i2⟩ := ih _ _ _ inv.1
      constructor
      · intro x hx
        rcases List.mem_cons.mp hx with rfl | hx
        · exact hg.1
        · exact i1 x hx
      · intro hs x hx
        rcases List.mem_cons.mp hx with rfl | hx
        · exact hg.2 hs
        · exact i2 (inv.2 hs) x hx

/-- The states of the race from a later point on are a race from there. -/
theorem race_suffix : ∀ (sched : List Bool) (g : Globals) (a b : SetPC) (i : Nat) (x : Globals),
    (g.rngSet = true ∨ a = .flag ∨ b = .flag → g.rng = some 1 ∨ g.rng = some 2) →
    (setRNGRace sched (g, a, b))[i]? = some x → x.rngSet = true → ∀ j y, i ≤ j → (setRNGRace sched (g, a, b))[j]? = some y →
    y.random ≠ .default := by
  intro sched
  induction sched with
  | nil =>
    intro g a b i x hinv hi hx j y hij hj
    refine (race_inv [] g a b hinv).2 ?_ y (List.mem_of_getElem? hj)
    cases i with
    | zero => simp [setRNGRace] at hi; rw [hi]; exact hx
    | succ i => simp [setRNGRace] at hi
  | cons t ts ih =>
    intro g a b i x hinv hi hx j y hij hj
    cases i with
    | zero =>
      refine (race_inv (t :: ts) g a b hinv).2 ?_ y (List.mem_of_getElem? hj)
      cases t <;> (simp [setRNGRace] at hi; rw [hi]; exact hx)
    | succ i =>
      cases j with
      | zero => omega
      | succ j =>
        cases t with
        | true =>
          simp only [setRNGRace, List.getElem?_cons_succ] at hi hj
          refine ih _ _ _ i x ?_ hi hx j y (by omega) hj
          cases a <;> simp_all [setRNGStep]
          intro hx; rcases hx with hx | hx | hx
          · exact hinv (Or.inl hx)
          · split at hx <;> cases hx
          · exact hinv (Or.inr hx)
        | false =>
          simp only [setRNGRace, List.getElem?_cons_succ] at hi hj
          refine ih _ _ _ i x ?_ hi hx j y (by omega) hj
          cases b <;> simp_all [setRNGStep]
          intro hx; rcases hx with hx | hx | hx
          · exact hinv (Or.inl hx)
          · exact hinv (Or.inr hx)
          · split at hx <;> cases hx

/-- C55, what remains true: with any schedule, the reader in use is the default one or one that was given to `SetCustomRNG` (never
nil), and once a custom reader is in use, the default reader never is again. -/
theorem concurrent_rng_partial (sched : List Bool) :
    (∀ x ∈ setRNGRace sched ({}, .check, .check), x.random = .default ∨ x.random = .custom (some 1) ∨ x.random = .custom (some 2)) ∧
    (∀ (i j : Nat) (x y : Globals), i ≤ j → (setRNGRace sched ({}, .check, .check))[i]? = some x → (setRNGRace sched ({}, .check, .check))[j]? = some y →
      x.random ≠ .default → y.random ≠ .default) := by
  have hinv : (({} : Globals).rngSet = true ∨ SetPC.check = .flag ∨ SetPC.check = .flag →
      ({} : Globals).rng = some 1 ∨ ({} : Globals).rng = some 2) := by
    intro h; rcases h with h | h | h <;> cases h
  refine ⟨(race_inv sched _ _ _ hinv).1, fun i j x y hij hi hj hx => ?_⟩
  refine race_suffix sched _ _ _ i x hinv hi ?_ j y hij hj
  unfold Globals.random at hx
  cases h : x.rngSet
  · rw [h] at hx; exact absurd rfl hx
  · rfl

/-! ## C46 -/

/-- The specification of C46: the security strength (in bits) of RSA keys by modulus size, from NIST SP 800-57 part 1, table 2, with the usual
56 bits for keys of 512 bits. -/
def rsaStrengths : List (Nat × Int) := [(512, 56), (1024, 80), (2048, 112), (3072, 128), (7680, 192), (15360, 256)]

/-- A key of this size has at least this strength. -/
def RsaProvides (bits : Nat) (level : Int) : Prop := ∃ row ∈ rsaStrengths, row.1 ≤ bits ∧ level ≤ row.2

/-- C46. The level a key is rated with is the greatest one in the table; keys below the table are rejected. -/
theorem rsa_level_exact (bits : Nat) (n : Int) : (RsaProvides bits n ↔ n ≤ rsaLevel bits ∧ rsaLevel bits ≠ -1) ∧
    (rsaLevel bits = -1 ↔ bits < 512) := by
  simp only [RsaProvides, rsaStrengths, List.mem_cons, List.not_mem_nil, or_false, exists_eq_or_imp, exists_eq_left]
  unfold rsaLevel; repeat' split
  all_goals omega

/-- C46. For the levels that RSA is available for (up to 256), the key that is generated has at least that strength; and it is the smallest
such size of at least 2048 bits in the table. -/
theorem rsa_key_size_provides_partial (level : Int) (h : level ≤ 256) : ∃ bits : Nat, rsaKeySize level = bits ∧ RsaProvides bits level ∧
    2048 ≤ bits ∧ ∀ row ∈ rsaStrengths, 2048 ≤ row.1 → level ≤ row.2 → bits ≤ row.1 := by
  simp only [RsaProvides, rsaStrengths, List.mem_cons, List.not_mem_nil, or_false, exists_eq_or_imp, exists_eq_left, forall_eq_or_imp,
    forall_eq]
  unfold rsaKeySize
  by_cases h1 : level ≤ 112
  · exact ⟨2048, by simp [h1], by omega, by omega, by omega⟩
  by_cases h2 : level ≤ 128
  · exact ⟨3072, by simp [h1, h2], by omega, by omega, by omega⟩
  by_cases h3 : level ≤ 192
  · exact ⟨7680, by simp [h1, h2, h3], by omega, by omega, by omega⟩
  · exact ⟨15360, by simp [h1, h2, h3, h], by omega, by omega, by omega⟩

/-- C46. For the levels that RSA is available for (up to 256), the key size that is chosen provides at least the level. -/
theorem rsa_key_size_sufficient_partial (level : Int) (h : level ≤ 256) :
    ∃ bits : Nat, rsaKeySize level = bits ∧ level ≤ rsaLevel bits := by
  unfold rsaKeySize
  by_cases h1 : level ≤ 112
  · exact ⟨2048, by simp [h1], by simp [rsaLevel]; omega⟩
  by_cases h2 : level ≤ 128
  · exact ⟨3072, by simp [h1, h2], by simp [rsaLevel]; omega⟩
  by_cases h3 : level ≤ 192
  · exact ⟨7680, by simp [h1, h2, h3], by simp [rsaLevel]; omega⟩
  · exact ⟨15360, by simp [h1, h2, h3, h], by simp [rsaLevel]; omega⟩

/-- C46. Up to 256, a higher level does not yield a smaller key. -/
theorem rsa_key_size_monotone_partial (l l' : Int) (h : l ≤ l') (h' : l' ≤ 256) : rsaKeySize l ≤ rsaKeySize l' := by
  unfold rsaKeySize; repeat' split
  all_goals omega

/-- C46. The level of a key never decreases with its size. -/
theorem rsa_level_monotone (b b' : Nat) (h : b ≤ b') : rsaLevel b ≤ rsaLevel b' := by
  unfold rsaLevel; repeat' split
  all_goals omega

/-- C46 is REFUTED above 256: the key has 256 bits, which is less than for any other level and has no security level at all. -/
theorem rsa_high_level_weak_key (level : Int) (h : 256 < level) :
    rsaKeySize level = 256 ∧ rsaLevel 256 = -1 ∧ ∀ l, l ≤ 256 → rsaKeySize level < rsaKeySize l := by
  have h1 : rsaKeySize level = 256 := by unfold rsaKeySize; repeat' split
                                         all_goals omega
  refine ⟨h1, by decide, fun l hl => ?_⟩
  rw [h1]
  unfold rsaKeySize; repeat' split
  all_goals omega

/-! ## C47 -/

/-- Call `i` returned a MAC, made with this key over this message. -/
def MacAt (calls : List PolyCall) (i : Nat) (key msg : Bytes) : Prop := (Poly.run {} calls)[i]? = some (.ok (some (key, msg)))

theorem poly_needs_setup : ∀ (calls : List PolyCall) (p : Poly) (j : Nat) (x : Bytes × Bytes), p.setUp = false →
    (p.run calls)[j]? = some (.ok (some x)) → ∃ s key, s < j ∧ calls[s]? = some (.setup key false)
  | [], p, j, x, _, h => by simp [Poly.run] at h
  | c :: cs, p, 0, x, hp, h => by
    exfalso
    simp only [Poly.run, List.getElem?_cons_zero, Option.some.injEq] at h
    cases c with
    | setup k f => cases f <;> cases h
    | reset => cases h
    | mac m => simp [Poly.call, hp] at h
  | c :: cs, p, j + 1, x, hp, h => by
    simp only [Poly.run, List.getElem?_cons_succ] at h
    by_cases hc : ∃ key, c = .setup key false
    · obtain ⟨key, rfl⟩ := hc
      exact ⟨0, key, by omega, rfl⟩
    · have : (p.call c).1.setUp = false := by
        cases c with
        | setup k f =>
          cases f with
          | false => exact absurd ⟨k, rfl⟩ hc
          | true => exact hp
        | reset => rfl
        | mac m => simp [Poly.call, hp]
      obtain ⟨s, key, hs, h2⟩ := poly_needs_setup cs _ j x this h
      exact ⟨s + 1, key, by omega, by simpa using h2⟩

theorem poly_used_needs_reset : ∀ (calls : List PolyCall) (p : Poly) (j : Nat) (x : Bytes × Bytes), p.used = true →
    (p.run calls)[j]? = some (.ok (some x)) →
    ∃ r s key, r < s ∧ s < j ∧ calls[r]? = some .reset ∧ calls[s]? = some (.setup key false)
  | [], p, j, x, _, h => by simp [Poly.run] at h
  | c :: cs, p, 0, x, hp, h => by
    exfalso
    simp only [Poly.run, List.getElem?_cons_zero, Option.some.injEq] at h
    cases c with
    | setup k f => cases f <;> cases h
    | reset => cases h
    | mac m =>
      unfold Poly.call at h
      cases hs : p.setUp <;> simp [hp, hs] at h
  | c :: cs, p, j + 1, x, hp, h => by
    simp only [Poly.run, List.getElem?_cons_succ] at h
    by_cases hc : c = .reset
    · subst hc
      obtain ⟨s, key, hs, h2⟩ := poly_needs_setup cs _ j x rfl h
      exact ⟨0, s + 1, key, by omega, by omega, rfl, by simpa using h2⟩
    · have : (p.call c).1.used = true := by
        cases c with
        | setup k f => cases f <;> exact hp
        | reset => exact absurd rfl hc
        | mac m =>
          unfold Poly.call
          cases hs : p.setUp <;> simp [hp]
      obtain ⟨r, s, key, h1, h2, h3, h4⟩ := poly_used_needs_reset cs _ j x this h
      exact ⟨r + 1, s + 1, key, by omega, by omega, by simpa using h3, by simpa using h4⟩

/-- C47. In every sequence of calls, between two calls that return a MAC there is a `Reset` followed by a successful `Setup`, which
fetches a new key. -/
theorem poly_one_mac_per_setup (calls : List PolyCall) (i j : Nat) (k m k' m' : Bytes) (hij : i < j)
    (hi : MacAt calls i k m) (hj : MacAt calls j k' m') :
    ∃ r s key, i < r ∧ r < s ∧ s < j ∧ calls[r]? = some .reset ∧ calls[s]? = some (.setup key false) := by
  unfold MacAt at hi hj
  generalize ({} : Poly) = p at hi hj
  induction calls generalizing p i j with
  | nil => simp [Poly.run] at hi
  | cons c cs ih =>
    cases j with
    | zero => omega
    | succ j =>
      simp only [Poly.run, List.getElem?_cons_succ] at hj
      cases i with
      | zero =>
        simp only [Poly.run, List.getElem?_cons_zero, Option.some.injEq] at hi
        have hu : (p.call c).1.used = true := by
          cases c with
          | setup k f => cases f <;> cases hi
          | reset => cases hi
          | mac m =>
            unfold Poly.call at hi ⊢
            cases hs : p.setUp <;> cases hus : p.used <;> simp [hs, hus] at hi ⊢
        obtain ⟨r, s, key, h1, h2, h3, h4⟩ := poly_used_needs_reset cs _ j _ hu hj
        exact ⟨r + 1, s + 1, key, by omega, by omega, by omega, by simpa using h3, by simpa using h4⟩
      | succ i =>
        simp only [Poly.run, List.getElem?_cons_succ] at hi
        obtain ⟨r, s, key, h1, h2, h3, h4, h5⟩ := ih i j (by omega) _ hi hj
        exact ⟨r + 1, s + 1, key, by omega, by omega, by omega, by simpa using h4, by simpa using h5⟩

theorem poly_key_source : ∀ (calls : List PolyCall) (p : Poly) (j : Nat) (k m : Bytes),
    (p.run calls)[j]? = some (.ok (some (k, m))) →
    (k = p.key ∧ p.setUp = true ∧ ∀ r, r < j → ∃ msg, calls[r]? = some (.mac msg)) ∨
    ∃ s f, s < j ∧ calls[s]? = some (.setup k f) ∧ ∀ r, s < r → r < j → ∃ msg, calls[r]? = some (.mac msg)
  | [], p, j, k, m, h => by simp [Poly.run] at h
  | c :: cs, p, 0, k, m, h => by
    simp only [Poly.run, List.getElem?_cons_zero, Option.some.injEq] at h
    cases c with
    | setup k f => cases f <;> cases h
    | reset => cases h
    | mac msg =>
      unfold Poly.call at h
      cases hs : p.setUp <;> cases hu : p.used <;> simp [hs, hu] at h
      exact Or.inl ⟨h.1.symm, rfl, fun r hr => absurd hr (by omega)⟩
  | c :: cs, p, j + 1, k, m, h => by
    simp only [Poly.run, List.getElem?_cons_succ] at h
    rcases poly_key_source cs _ j k m h with ⟨h1, h2, h3⟩ | ⟨s, f, h1, h2, h3⟩
    · have tail : ∀ r, 0 < r → r < j + 1 → ∃ msg, (c :: cs)[r]? = some (.mac msg) := by
        intro r hr hr2
        obtain ⟨msg, hm⟩ := h3 (r - 1) (by omega)
        exact ⟨msg, by rw [List.getElem?_cons, if_neg (by omega)]; exact hm⟩
      cases c with
      | reset => simp [Poly.call] at h2
      | setup key f =>
        have : k = key := by cases f <;> exact h1
        subst this
        exact Or.inr ⟨0, f, by omega, rfl, tail⟩
      | mac msg =>
        refine Or.inl ?_
        have : (p.call (.mac msg)).1.key = p.key ∧ (p.call (.mac msg)).1.setUp = p.setUp := by
          unfold Poly.call
          cases hs : p.setUp <;> cases hu : p.used <;> simp [hs]
        refine ⟨by rw [h1, this.1], by rw [← this.2]; exact h2, fun r hr => ?_⟩
        by_cases h0 : r = 0
        · subst h0; exact ⟨msg, rfl⟩
        · exact tail r (by omega) hr
    · refine Or.inr ⟨s + 1, f, by omega, by simpa using h2, fun r hr hr2 => ?_⟩
      obtain ⟨msg, hm⟩ := h3 (r - 1) (by omega) (by omega)
      exact ⟨msg, by rw [List.getElem?_cons, if_neg (by omega)]; exact hm⟩

/-- C47. The key of a MAC is the one that the last `Setup` before fetched, with neither `Reset` nor `Setup` in between. (That
`Setup` may have failed halfway, after an earlier successful one; sessions stop at a failing `Setup`.) -/
theorem poly_mac_key (calls : List PolyCall) (j : Nat) (k m : Bytes) (h : MacAt calls j k m) :
    ∃ s f, s < j ∧ calls[s]? = some (.setup k f) ∧ ∀ r, s < r → r < j → ∃ msg, calls[r]? = some (.mac msg) := by
  rcases poly_key_source calls {} j k m h with ⟨_, h2, _⟩ | h
  · cases h2
  · exact h

/-- C47. After a reset, whatever calls were made before, no byte of a key is left in the tool. -/
theorem poly_reset_burns (p : Poly) : ∀ b ∈ (p.call .reset).1.key, b = 255 := by
  simp [Poly.call]

/-- Two MACs with a reset and setup in between; without, the second is refused. -/
theorem poly_example :
    Poly.run {} [.setup [1] false, .mac [7], .mac [8], .reset, .mac [8], .setup [2] false, .mac [8]] =
      [.ok none, .ok (some ([1], [7])), .error .config, .ok none, .error .config, .ok none, .ok (some ([2], [8]))] := by decide

/-! ## C48 -/

/-- C48 is REFUTED: all material is concatenated, so different lists with the same concatenation are the same input. -/
theorem material_ambiguous (P : Prims) (k : ToolInst) (nonce : Bytes) (m m' : List Bytes) (h : m.flatten = m'.flatten) (off size : Nat) :
    kdfRead P k nonce m off size = kdfRead P k nonce m' off size := by
  unfold kdfRead; rw [h]

/-- C48, what remains true: with the lengths of the elements fixed, the input determines the list. -/
theorem material_unambiguous_partial : ∀ (m m' : List Bytes), m.map List.length = m'.map List.length → m.flatten = m'.flatten → m = m'
  | [], [], _, _ => rfl
  | [], _ :: _, h, _ => by simp at h
  | _ :: _, [], h, _ => by simp at h
  | a :: m, b :: m', h, h2 => by
    rw [List.map_cons, List.map_cons, List.cons.injEq] at h
    rw [List.flatten_cons, List.flatten_cons] at h2
    obtain ⟨h3, h4⟩ := List.append_inj h2 h.1
    rw [h3, material_unambiguous_partial m m' h.2 h4]

theorem setupTools_flatten (P : Prims) (s s' : Session) (hs : s.keySize = s'.keySize) (k : ToolInst) (nonce : Bytes) (m m' : List Bytes)
    (h : m.flatten = m'.flatten) : ∀ (ts : List ToolInst) (off : Nat) (os : List ToolState),
      setupTools P s k nonce m off ts os = setupTools P s' k nonce m' off ts os
  | [], _, _ => rfl
  | _ :: _, _, [] => rfl
  | t :: ts, off, o :: os => by
    have ht : setupTool P s k nonce m off t o = setupTool P s' k nonce m' off t o := by
      unfold setupTool setupNonce Session.toolKeySize Session.toolNonceSize
      simp only [material_ambiguous P k nonce m m' h, hs]
    unfold setupTools
    rw [ht]
    split
    · rfl
    · rw [setupTools_flatten P s s' hs k nonce m m' h ts]

/-- The session with other secrets. -/
def Session.withSecrets (s : Session) (secrets : List Signet) : Session := { s with env := { s.env with secrets := secrets } }

theorem setupOpening_keys (P : Prims) (cfg : Config) (s : Session) (l : Letter) (keys : List Signet)
    (hk : ∀ k ∈ keys, k.scheme = schemeKey) (hr : s.env.recipients = []) :
    setupOpening P cfg (s.withSecrets keys) l =
      if keys.length + s.env.senders.length < l.keys.length then .error .missing else .ok (keys.map (·.key)) := by
  have h1 : ofScheme keys schemeKey = keys := by
    unfold ofScheme
    rw [List.filter_eq_self]
    intro k hm; simp [hk k hm]
  have h2 : ofScheme keys schemePassword = [] := by
    unfold ofScheme
    rw [List.filter_eq_nil_iff]
    intro k hm; rw [hk k hm]; decide
  have h3 : ∀ n, ofScheme (s.withSecrets keys).env.recipients n = [] := by
    intro n
    have : (s.withSecrets keys).env.recipients = [] := hr
    rw [this]; rfl
  have h4 : ∀ (f : OM → ToolInst → Signet → OM × Res Unit) (ts : List ToolInst) (om : OM),
      overTools (fun om t => loopKM (f om t |> fun g => fun o k => f o t k) om (ofScheme (s.withSecrets keys).env.recipients t.info.name)) om (.ok ()) ts = (om, .ok ()) := by
    intro f ts
    induction ts with
    | nil => intro om; rfl
    | cons t ts ih =>
      intro om
      unfold overTools
      simp only [h3, loopKM]
      have := ih om
      simp only [h3, loopKM] at this
      exact this
  unfold setupOpening
  have e1 : (s.withSecrets keys).env.secrets = keys := rfl
  have e2 : (s.withSecrets keys).env.recipients.length = 0 := by
    show s.env.recipients.length = 0; rw [hr]; rfl
  have e3 : (s.withSecrets keys).env.senders = s.env.senders := rfl
  rw [e2, e1, e3, Nat.add_zero, h1, h2]
  split
  · rfl
  · simp only [loopKM]
    rw [h4 (fun om t k => openKX P l t om k)]
    simp only
    rw [h4 (fun om t k => openKE P l t om k)]

/-- C48, the consequence for letters that are protected with keys: a session with other keys, of which the concatenation is the
same, opens the same letters with the same result. -/
theorem split_keys_open (P : Prims) (cfg : Config) (s : Session) (st : SState) (l : Letter) (keys keys' : List Signet)
    (hk : ∀ k ∈ keys, k.scheme = schemeKey) (hk' : ∀ k ∈ keys', k.scheme = schemeKey) (hr : s.env.recipients = [])
    (hlen : keys.length = keys'.length) (hflat : (keys.map (·.key)).flatten = (keys'.map (·.key)).flatten)
    (hfirst : ((keys.map (·.key)).head?.map List.isEmpty) = ((keys'.map (·.key)).head?.map List.isEmpty)) :
    ((s.withSecrets keys).open P cfg st l).2 = ((s.withSecrets keys').open P cfg st l).2 := by
  unfold Session.open
  have hc : checkSignatures P (s.withSecrets keys) st l = checkSignatures P (s.withSecrets keys') st l := rfl
  have hkdf : (s.withSecrets keys).kdf = (s.withSecrets keys').kdf := rfl
  have hq : (!((s.withSecrets keys).queue .cipher).isEmpty || (s.withSecrets keys).needsAD) =
      (!((s.withSecrets keys').queue .cipher).isEmpty || (s.withSecrets keys').needsAD) := rfl
  rw [setupOpening_keys P cfg s l keys hk hr, setupOpening_keys P cfg s l keys' hk' hr, hc, hkdf, hq, hlen]
  have hinit : kdfInitOK l.nonce (keys.map (·.key)) = kdfInitOK l.nonce (keys'.map (·.key)) := by
    cases h1 : keys.map (·.key) <;> cases h2 : keys'.map (·.key)
    · rfl
    · rw [h1, h2] at hfirst; cases hfirst
    · rw [h1, h2] at hfirst; cases hfirst
    · rename_i a as b bs
      rw [h1, h2] at hfirst
      simp only [List.head?_cons, Option.map_some, Option.some.injEq] at hfirst
      unfold kdfInitOK
      cases a <;> cases b <;> simp_all
  have hd : ∀ (st : SState) (k : ToolInst),
      decryptLetter P (s.withSecrets keys) st k (keys.map (·.key)) 0 l =
        decryptLetter P (s.withSecrets keys') st k (keys'.map (·.key)) 0 l := by
    intro st k
    unfold decryptLetter
    rw [setupTools_flatten P (s.withSecrets keys) (s.withSecrets keys') rfl k l.nonce _ _ hflat]
    rfl
  split
  · rfl
  · split
    · rfl
    · split
      · rfl
      · split
        · rename_i h; split at h
          · rename_i hlt; cases h; simp [hlt]
          · cases h
        · rename_i h; split at h
          · cases h
          · cases h
            rename_i hlt
            simp only [hlt, if_false]
            rw [hinit]
            split
            · rw [hd]
            · rfl

/-- For example the keys `abcdefghijklmnop`, `qrstuvwxyz012345` and `abcdefghijklmnopq`, `rstuvwxyz012345`. -/
theorem split_keys_example :
    let key (b : Bytes) : Signet := { version := 1, scheme := schemeKey, key := b }
    let a := [key b!"abcdefghijklmnop", key b!"qrstuvwxyz012345"]
    let b := [key b!"abcdefghijklmnopq", key b!"rstuvwxyz012345"]
    a ≠ b ∧ a.length = b.length ∧ (a.map (·.key)).flatten = (b.map (·.key)).flatten := by decide

end Jess
