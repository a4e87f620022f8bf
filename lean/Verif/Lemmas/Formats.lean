import Verif.Lemmas.Utf8
import Verif.Lemmas.Encoding

/-! Reading what was written: CBOR, MsgPack, JSON. -/

namespace Jess.Formats

theorem takeN_append (x r : Bytes) : takeN x.length (x ++ r) = some (x, r) := by
  unfold takeN
  rw [if_neg (by simp)]
  simp

theorem beBytes_length : ∀ n x, (beBytes n x).length = n
  | 0, _ => rfl
  | n + 1, x => by simp [beBytes, beBytes_length n x]

theorem be_foldl : ∀ n x a, (beBytes n x).foldl (fun a y => a * 256 + y.toNat) a = a * 256 ^ n + x % 256 ^ n
  | 0, x, a => by simp [beBytes, Nat.mod_one]
  | n + 1, x, a => by
    rw [beBytes, List.foldl_cons, be_foldl n x]
    have h1 : (UInt8.ofNat (x / 256 ^ n % 256)).toNat = x / 256 ^ n % 256 := by
      rw [UInt8.toNat_ofNat']
      omega
    rw [h1, Nat.pow_succ, Nat.mod_mul, Nat.add_mul]
    rw [Nat.mul_assoc, Nat.mul_comm (x / 256 ^ n % 256)]
    rw [Nat.mul_comm 256 (256 ^ n)]
    omega

theorem be_beBytes {n x : Nat} (h : x < 256 ^ n) : be (beBytes n x) = x := by
  unfold be
  rw [be_foldl, Nat.mod_eq_of_lt h]
  omega

theorem takeBe_append {n x : Nat} (r : Bytes) (h : x < 256 ^ n) : takeBe n (beBytes n x ++ r) = some (x, r) := by
  unfold takeBe
  have := takeN_append (beBytes n x) r
  rw [beBytes_length] at this
  rw [this, Option.map_some]
  simp only [be_beBytes h]

theorem readItems_append {p : Bytes → Option (Val × Bytes)} {g : Val → Bytes} : ∀ (l : List Val) (r : Bytes),
    (∀ v ∈ l, ∀ r, p (g v ++ r) = some (v, r)) → readItems p l.length (l.flatMap g ++ r) = some (l, r)
  | [], r, _ => rfl
  | v :: l, r, h => by
    rw [List.length_cons, readItems, List.flatMap_cons, List.append_assoc, h v (by simp)]
    simp only []
    rw [readItems_append l r (fun x hx => h x (by simp [hx]))]

theorem readPairs_append {p : Bytes → Option (Val × Bytes)} {gk : Bytes → Bytes} {g : Val → Bytes} : ∀ (l : List (Bytes × Val)) (r : Bytes),
    (∀ q ∈ l, ∀ r, p (gk q.1 ++ r) = some (.str q.1, r) ∧ p (g q.2 ++ r) = some (q.2, r)) →
    readPairs p l.length (l.flatMap (fun q => gk q.1 ++ g q.2) ++ r) = some (l, r)
  | [], r, _ => rfl
  | q :: l, r, h => by
    rw [List.length_cons, readPairs, List.flatMap_cons, List.append_assoc, List.append_assoc, (h q (by simp) _).1]
    simp only []
    rw [(h q (by simp) _).2]
    simp only []
    rw [readPairs_append l r (fun x hx => h x (by simp [hx]))]

/-! ## CBOR -/

theorem ofNat_toNat {n : Nat} (h : n < 256) : (UInt8.ofNat n).toNat = n := by
  rw [UInt8.toNat_ofNat']; omega

/-- The head of an item is read. -/
theorem cborHead_spec {m n : Nat} (hm : m < 7) (hn : n < 2 ^ 64) (r : Bytes) :
    ∃ h t, cborHead m n = h :: t ∧ h.toNat / 32 = m ∧ cborArg (h.toNat % 32) (t ++ r) = some (n, r) := by
  unfold cborHead
  split
  · refine ⟨_, _, rfl, ?_, ?_⟩
    · rw [ofNat_toNat (by omega)]; omega
    · rw [ofNat_toNat (by omega)]
      unfold cborArg
      rw [if_pos (by omega)]
      simp
      omega
  · split
    · refine ⟨_, _, rfl, ?_, ?_⟩
      · rw [ofNat_toNat (by omega)]; omega
      · rw [ofNat_toNat (by omega)]
        unfold cborArg
        rw [if_neg (by omega), if_pos (by omega)]
        exact takeBe_append r (by omega)
    · split
      · refine ⟨_, _, rfl, ?_, ?_⟩
        · rw [ofNat_toNat (by omega)]; omega
        · rw [ofNat_toNat (by omega)]
          unfold cborArg
          rw [if_neg (by omega), if_neg (by omega), if_pos (by omega)]
          exact takeBe_append r (by omega)
      · split
        · refine ⟨_, _, rfl, ?_, ?_⟩
          · rw [ofNat_toNat (by omega)]; omega
          · rw [ofNat_toNat (by omega)]
            unfold cborArg
            rw [if_neg (by omega), if_neg (by omega), if_neg (by omega), if_pos (by omega)]
            exact takeBe_append r (by omega)
        · refine ⟨_, _, rfl, ?_, ?_⟩
          · rw [ofNat_toNat (by omega)]; omega
          · rw [ofNat_toNat (by omega)]
            unfold cborArg
            rw [if_neg (by omega), if_neg (by omega), if_neg (by omega), if_neg (by omega), if_pos (by omega)]
            exact takeBe_append r (by omega)

/-- Reading an item with a head. -/
theorem cborRead_head {m n f : Nat} (hm : m < 7) (hn : n < 2 ^ 64) (r : Bytes) :
    cborRead (f + 1) (cborHead m n ++ r) =
      if m = 0 then some (.num n, r)
      else if m = 2 then (takeN n r).map fun (x, r) => (.bin x, r)
      else if m = 3 then (takeN n r).bind fun (x, r) => if utf8 x then some (.str x, r) else none
      else if m = 4 then (readItems (cborRead f) n r).map fun (x, r) => (.arr x, r)
      else if m = 5 then (readPairs (cborRead f) n r).map fun (x, r) => (.obj x, r)
      else none := by
  obtain ⟨h, t, h1, h2, h3⟩ := cborHead_spec hm hn r
  rw [h1, List.cons_append, cborRead]
  have hne : ∀ k : Nat, 224 ≤ k → k < 256 → h ≠ UInt8.ofNat k := by
    intro k hk hk2 he
    rw [he, ofNat_toNat hk2] at h2
    omega
  have e1 : h ≠ 0xf6 := hne 0xf6 (by omega) (by omega)
  have e2 : h ≠ 0xf5 := hne 0xf5 (by omega) (by omega)
  have e3 : h ≠ 0xf4 := hne 0xf4 (by omega) (by omega)
  rw [if_neg e1, if_neg e2, if_neg e3, h3]
  simp only [h2]

/-- What CBOR writes: texts need not be UTF-8. -/
def cborAny : Kind := { cborKind with str := fun s => decide (s.length < 2 ^ 64) }

theorem readItems_iff {p : Bytes → Option (Val × Bytes)} {g : Val → Bytes} {ok : Val → Bool} : ∀ (l : List Val) (r : Bytes),
    (∀ v ∈ l, ∀ r, p (g v ++ r) = if ok v then some (v, r) else none) →
    readItems p l.length (l.flatMap g ++ r) = if l.all ok then some (l, r) else none
  | [], r, _ => rfl
  | v :: l, r, h => by
    rw [List.length_cons, readItems, List.flatMap_cons, List.append_assoc, h v (by simp), List.all_cons]
    cases hv : ok v with
    | false => rfl
    | true =>
      simp only [if_true, Bool.true_and]
      rw [readItems_iff l r (fun x hx => h x (by simp [hx]))]
      cases l.all ok <;> rfl

theorem readPairs_iff {p : Bytes → Option (Val × Bytes)} {gk : Bytes → Bytes} {g : Val → Bytes} {okk : Bytes → Bool} {ok : Val → Bool} :
    ∀ (l : List (Bytes × Val)) (r : Bytes),
    (∀ q ∈ l, ∀ r, (p (gk q.1 ++ r) = if okk q.1 then some (.str q.1, r) else none) ∧ (p (g q.2 ++ r) = if ok q.2 then some (q.2, r) else none)) →
    readPairs p l.length (l.flatMap (fun q => gk q.1 ++ g q.2) ++ r) = if l.all (fun q => okk q.1 && ok q.2) then some (l, r) else none
  | [], r, _ => rfl
  | q :: l, r, h => by
    rw [List.length_cons, readPairs, List.flatMap_cons, List.append_assoc, List.append_assoc, (h q (by simp) _).1, List.all_cons]
    cases hk : okk q.1 with
    | false => rfl
    | true =>
      simp only [if_true, Bool.true_and]
      rw [(h q (by simp) _).2]
      cases hv : ok q.2 with
      | false => rfl
      | true =>
        simp only [if_true, Bool.true_and]
        rw [readPairs_iff l r (fun x hx => h x (by simp [hx]))]
        cases l.all (fun q => okk q.1 && ok q.2) <;> rfl

theorem cborStr_read {f : Nat} {s : Bytes} (r : Bytes) (h : s.length < 2 ^ 64) :
    cborRead (f + 1) (cborHead 3 s.length ++ s ++ r) = if cborKind.str s then some (.str s, r) else none := by
  rw [List.append_assoc, cborRead_head (by omega) h]
  rw [if_neg (by omega), if_neg (by omega), if_pos rfl, takeN_append]
  have : cborKind.str s = utf8 s := by show (utf8 s && decide _) = _; rw [decide_eq_true h, Bool.and_true]
  rw [this]
  rfl

/-- What is written as CBOR is read if all texts are UTF-8, otherwise it is refused. -/
theorem cbor_read : ∀ (f : Nat) (v : Val) (r : Bytes), v.fits cborAny f = true →
    cborRead f (cborWrite f v ++ r) = if v.fits cborKind f then some (v, r) else none
  | 0, v, r, h => by simp [Val.fits] at h
  | f + 1, v, r, h => by
    cases v with
    | null => rfl
    | bool b => cases b <;> rfl
    | num n =>
      have hn : n < 2 ^ 64 := by simpa [Val.fits, cborAny, cborKind] using h
      rw [cborWrite, cborRead_head (by omega) hn]
      have : (Val.num n).fits cborKind (f + 1) = true := decide_eq_true hn
      rw [this]
      rfl
    | str s => exact cborStr_read r (by simpa [Val.fits, cborAny] using h)
    | bin b =>
      have hn : b.length < 2 ^ 64 := by simpa [Val.fits, cborAny, cborKind] using h
      rw [cborWrite, List.append_assoc, cborRead_head (by omega) hn]
      rw [if_neg (by omega), if_pos rfl, takeN_append]
      have : (Val.bin b).fits cborKind (f + 1) = true := decide_eq_true hn
      rw [this]
      rfl
    | time n => simp [Val.fits, cborAny, cborKind] at h
    | arr l =>
      simp only [Val.fits, Bool.and_eq_true, List.all_eq_true] at h
      have hn : l.length < 2 ^ 64 := by simpa [cborAny, cborKind] using h.1.2
      rw [cborWrite, List.append_assoc, cborRead_head (by omega) hn]
      rw [if_neg (by omega), if_neg (by omega), if_neg (by omega), if_pos rfl]
      rw [readItems_iff l r (fun v hv r => cbor_read f v r (h.2 v hv))]
      have : (Val.arr l).fits cborKind (f + 1) = l.all (Val.fits cborKind f) := by
        show (true && decide _ && _) = _
        rw [decide_eq_true hn]
        rfl
      rw [this]
      cases l.all (Val.fits cborKind f) <;> rfl
    | obj l =>
      simp only [Val.fits, Bool.and_eq_true, List.all_eq_true] at h
      have hn : l.length < 2 ^ 64 := by simpa [cborAny, cborKind] using h.1
      rw [cborWrite, List.append_assoc, cborRead_head (by omega) hn]
      rw [if_neg (by omega), if_neg (by omega), if_neg (by omega), if_neg (by omega), if_pos rfl]
      have : ∀ q ∈ l, ∀ r, (cborRead f ((cborHead 3 q.1.length ++ q.1) ++ r) = if cborKind.str q.1 then some (.str q.1, r) else none) ∧
          (cborRead f (cborWrite f q.2 ++ r) = if q.2.fits cborKind f then some (q.2, r) else none) := by
        intro q hq r
        obtain ⟨h1, h2⟩ := h.2 q hq
        refine ⟨?_, cbor_read f q.2 r h2⟩
        cases f with
        | zero => simp [Val.fits] at h2
        | succ f => exact cborStr_read r (by simpa [cborAny] using h1)
      rw [readPairs_iff (gk := fun s => cborHead 3 s.length ++ s) l r this]
      have : (Val.obj l).fits cborKind (f + 1) = l.all (fun q => cborKind.str q.1 && q.2.fits cborKind f) := by
        show (decide _ && _) = _
        rw [decide_eq_true hn]
        rfl
      rw [this]
      cases l.all (fun q => cborKind.str q.1 && q.2.fits cborKind f) <;> rfl

/-- What CBOR reads again, it can write. -/
theorem cborAny_of : ∀ (f : Nat) (v : Val), v.fits cborKind f = true → v.fits cborAny f = true
  | 0, v, h => by simp [Val.fits] at h
  | f + 1, v, h => by
    have hs : ∀ s, cborKind.str s = true → cborAny.str s = true := by
      intro s h
      simp only [cborKind, Bool.and_eq_true] at h
      exact h.2
    cases v with
    | str s => exact hs s h
    | arr l =>
      simp only [Val.fits, Bool.and_eq_true, List.all_eq_true] at h ⊢
      exact ⟨h.1, fun v hv => cborAny_of f v (h.2 v hv)⟩
    | obj l =>
      simp only [Val.fits, Bool.and_eq_true, List.all_eq_true] at h ⊢
      exact ⟨h.1, fun v hv => ⟨hs _ (h.2 v hv).1, cborAny_of f v.2 (h.2 v hv).2⟩⟩
    | _ => exact h

/-- What is written as CBOR is read. -/
theorem cbor_round (f : Nat) (v : Val) (r : Bytes) (h : v.fits cborKind f = true) : cborRead f (cborWrite f v ++ r) = some (v, r) := by
  rw [cbor_read f v r (cborAny_of f v h), h]
  rfl

/-! ## MsgPack -/

theorem packRead_cons {f : Nat} {h : UInt8} {b : Bytes} {n : Nat} (hh : h.toNat = n) : packRead (f + 1) (h :: b) = 
    if 0x80 ≤ n ∧ n < 0x90 then (readPairs (packRead f) (n - 0x80) b).map fun (x, r) => (.obj x, r)
    else if 0xa0 ≤ n ∧ n < 0xc0 then (takeN (n - 0xa0) b).map fun (x, r) => (.str x, r)
    else if n = 0xc0 then some (.null, b)
    else if n = 0xc4 then (takeBe 1 b).bind fun (n, b) => (takeN n b).map fun (x, r) => (.bin x, r)
    else if n = 0xc5 then (takeBe 2 b).bind fun (n, b) => (takeN n b).map fun (x, r) => (.bin x, r)
    else if n = 0xc6 then (takeBe 4 b).bind fun (n, b) => (takeN n b).map fun (x, r) => (.bin x, r)
    else if n = 0xd9 then (takeBe 1 b).bind fun (n, b) => (takeN n b).map fun (x, r) => (.str x, r)
    else if n = 0xda then (takeBe 2 b).bind fun (n, b) => (takeN n b).map fun (x, r) => (.str x, r)
    else if n = 0xdb then (takeBe 4 b).bind fun (n, b) => (takeN n b).map fun (x, r) => (.str x, r)
    else if n = 0xde then (takeBe 2 b).bind fun (n, b) => (readPairs (packRead f) n b).map fun (x, r) => (.obj x, r)
    else if n = 0xdf then (takeBe 4 b).bind fun (n, b) => (readPairs (packRead f) n b).map fun (x, r) => (.obj x, r)
    else if n = 0xd6 then (takeBe 1 b).bind fun (t, b) => if t = 0xff then (takeBe 4 b).map fun (n, r) => (.time n, r) else none
    else if n = 0xd7 then (takeBe 1 b).bind fun (t, b) => if t = 0xff then (takeBe 8 b).map fun (n, r) => (.time n, r) else none
    else none := by
  subst hh; rfl

theorem packRead_str {f k : Nat} {h : UInt8} {s : Bytes} (r : Bytes) (hs : s.length < 256 ^ k)
    (hr : ∀ b, packRead (f + 1) (h :: b) = (takeBe k b).bind fun (n, b) => (takeN n b).map fun (x, r) => (.str x, r)) :
    packRead (f + 1) (h :: (beBytes k s.length ++ s) ++ r) = some (.str s, r) := by
  rw [List.cons_append, List.append_assoc, hr, takeBe_append _ hs]
  simp only [Option.bind_some, takeN_append, Option.map_some]

theorem packRead_bin {f k : Nat} {h : UInt8} {s : Bytes} (r : Bytes) (hs : s.length < 256 ^ k)
    (hr : ∀ b, packRead (f + 1) (h :: b) = (takeBe k b).bind fun (n, b) => (takeN n b).map fun (x, r) => (.bin x, r)) :
    packRead (f + 1) (h :: (beBytes k s.length ++ s) ++ r) = some (.bin s, r) := by
  rw [List.cons_append, List.append_assoc, hr, takeBe_append _ hs]
  simp only [Option.bind_some, takeN_append, Option.map_some]

theorem packStr_round {f : Nat} {s : Bytes} (r : Bytes) (h : s.length < 2 ^ 32) : packRead (f + 1) (packStr s ++ r) = some (.str s, r) := by
  unfold packStr
  split
  · rw [List.cons_append, packRead_cons (n := 0xa0 + s.length) (ofNat_toNat (by omega))]
    rw [if_neg (by omega), if_pos (by omega), Nat.add_sub_cancel_left, takeN_append]
    rfl
  · split
    · exact packRead_str r (by omega) (fun b => rfl)
    · split
      · exact packRead_str r (by omega) (fun b => rfl)
      · exact packRead_str r (by omega) (fun b => rfl)

theorem packBin_round {f : Nat} {s : Bytes} (r : Bytes) (h : s.length < 2 ^ 32) : packRead (f + 1) (packBin s ++ r) = some (.bin s, r) := by
  unfold packBin
  split
  · exact packRead_bin r (by omega) (fun b => rfl)
  · split
    · exact packRead_bin r (by omega) (fun b => rfl)
    · exact packRead_bin r (by omega) (fun b => rfl)

theorem packMap_round {f n : Nat} (r : Bytes) (h : n < 2 ^ 32) :
    packRead (f + 1) (packMap n ++ r) = (readPairs (packRead f) n r).map fun (x, r) => (.obj x, r) := by
  unfold packMap
  split
  · rw [List.cons_append, packRead_cons (n := 0x80 + n) (ofNat_toNat (by omega))]
    rw [if_pos (by omega), Nat.add_sub_cancel_left]
    rfl
  · split
    · have : ∀ b, packRead (f + 1) (0xde :: b) = (takeBe 2 b).bind fun (n, b) => (readPairs (packRead f) n b).map fun (x, r) => (.obj x, r) := fun b => rfl
      rw [List.cons_append, this, takeBe_append _ (by omega)]
      rfl
    · have : ∀ b, packRead (f + 1) (0xdf :: b) = (takeBe 4 b).bind fun (n, b) => (readPairs (packRead f) n b).map fun (x, r) => (.obj x, r) := fun b => rfl
      rw [List.cons_append, this, takeBe_append _ (by omega)]
      rfl

theorem packTime_round {f n : Nat} (r : Bytes) (h : n < 2 ^ 34) : packRead (f + 1) (packTime n ++ r) = some (.time n, r) := by
  unfold packTime
  split
  · have : ∀ b, packRead (f + 1) (0xd6 :: 0xff :: b) = (takeBe 4 b).map fun (n, r) => (.time n, r) := fun b => rfl
    rw [List.cons_append, List.cons_append, this, takeBe_append _ (by omega)]
    rfl
  · have : ∀ b, packRead (f + 1) (0xd7 :: 0xff :: b) = (takeBe 8 b).map fun (n, r) => (.time n, r) := fun b => rfl
    rw [List.cons_append, List.cons_append, this, takeBe_append _ (by omega)]
    rfl

theorem packStr_len {s : Bytes} (h : packKind.str s = true) : s.length < 2 ^ 32 := by
  simp only [packKind, decide_eq_true_eq] at h
  exact h

/-- What is written as MsgPack is read. -/
theorem pack_round : ∀ (f : Nat) (v : Val) (r : Bytes), v.fits packKind f = true → packRead f (packWrite f v ++ r) = some (v, r)
  | 0, v, r, h => by simp [Val.fits] at h
  | f + 1, v, r, h => by
    cases v with
    | null => rfl
    | bool b => simp [Val.fits, packKind] at h
    | num n => simp [Val.fits, packKind] at h
    | str s => exact packStr_round r (packStr_len h)
    | bin b => exact packBin_round r (by simpa [Val.fits, packKind] using h)
    | time n => exact packTime_round r (by simpa [Val.fits, packKind] using h)
    | arr l => simp [Val.fits, packKind] at h
    | obj l =>
      simp only [Val.fits, Bool.and_eq_true, List.all_eq_true] at h
      rw [packWrite, List.append_assoc, packMap_round _ (by simpa [packKind] using h.1)]
      have : ∀ q ∈ l, ∀ r, packRead f (packStr q.1 ++ r) = some (.str q.1, r) ∧ packRead f (packWrite f q.2 ++ r) = some (q.2, r) := by
        intro q hq r
        obtain ⟨h1, h2⟩ := h.2 q hq
        refine ⟨?_, pack_round f q.2 r h2⟩
        cases f with
        | zero => simp [Val.fits] at h2
        | succ f => exact packStr_round r (packStr_len h1)
      rw [readPairs_append (gk := packStr) l r this]
      rfl

/-! ## JSON -/

theorem skipWs_cons {c : UInt8} (h : isWs c = false) (r : Bytes) : skipWs (c :: r) = c :: r := by
  simp [skipWs, h]

theorem skipWs_newLine (k : Nat) (r : Bytes) : skipWs (newLine k ++ r) = skipWs r := by
  unfold skipWs newLine
  rw [List.cons_append, List.dropWhile_cons, if_pos (by decide)]
  induction k with
  | zero => rfl
  | succ k ih => rw [List.replicate_succ, List.cons_append, List.dropWhile_cons, if_pos (by decide)]; exact ih

theorem jsonStr_plain {c : UInt8} (h1 : c ≠ 34) (h2 : c ≠ 92) (h3 : ¬ c < 32) (r : Bytes) :
    jsonStr (c :: r) = (jsonStr r).map fun x => (c :: x.1, x.2) := by
  rw [jsonStr.eq_def]
  simp only [h1, h2, h3, if_false]

theorem jsonStr_escape {e u : UInt8} (h : e ≠ 117) (hu : jsonEscape e = some u) (r : Bytes) :
    jsonStr (92 :: e :: r) = (jsonStr r).map fun x => (u :: x.1, x.2) := by
  rw [jsonStr.eq_def]
  have h1 : (92 : UInt8) ≠ 34 := by decide
  simp only [h1, h, hu, if_false, if_true]

theorem jsonStr_hex {a b : UInt8} {u : Bytes} (hu : utf8Char (a.toNat * 256 + b.toNat) = some u) (r : Bytes) :
    jsonStr (jsonHex a b ++ r) = (jsonStr r).map fun x => (u ++ x.1, x.2) := by
  have hd := hexDecode_encode [a, b]
  obtain ⟨h1, h2, h3, h4, he⟩ : ∃ h1 h2 h3 h4, hexEncode [a, b] = [h1, h2, h3, h4] := ⟨_, _, _, _, rfl⟩
  unfold jsonHex
  rw [he] at hd ⊢
  show jsonStr (92 :: 117 :: h1 :: h2 :: h3 :: h4 :: r) = _
  rw [jsonStr.eq_def]
  have e1 : (92 : UInt8) ≠ 34 := by decide
  have e2 : jsonUnicode h1 h2 h3 h4 = some u := by
    unfold jsonUnicode
    rw [hd]
    exact hu
  simp only [e1, e2, if_false, if_true]

theorem jsonStr_byte (c : UInt8) (r : Bytes) : jsonStr (jsonByte c ++ r) = (jsonStr r).map fun x => (c :: x.1, x.2) := by
  unfold jsonByte
  split
  · rename_i h
    rcases h with rfl | rfl
    · exact jsonStr_escape (by decide) (by decide) r
    · exact jsonStr_escape (by decide) (by decide) r
  rename_i h0
  split
  · rename_i h; subst h; exact jsonStr_escape (by decide) (by decide) r
  split
  · rename_i h; subst h; exact jsonStr_escape (by decide) (by decide) r
  split
  · rename_i h; subst h; exact jsonStr_escape (by decide) (by decide) r
  split
  · rename_i h; subst h; exact jsonStr_escape (by decide) (by decide) r
  split
  · rename_i h; subst h; exact jsonStr_escape (by decide) (by decide) r
  split
  · rename_i h
    have : c.toNat < 128 := by
      rcases h with h | rfl | rfl | rfl
      · have := UInt8.lt_iff_toNat_lt.1 h
        have h3 : (32 : UInt8).toNat = 32 := rfl
        omega
      · decide
      · decide
      · decide
    have hu : utf8Char ((0 : UInt8).toNat * 256 + c.toNat) = some [c] := by
      have h0 : (0 : UInt8).toNat = 0 := rfl
      rw [h0]
      unfold utf8Char
      rw [if_pos (by omega)]
      simp
    exact jsonStr_hex hu r
  · rename_i h
    exact jsonStr_plain (fun e => h0 (Or.inl e)) (fun e => h0 (Or.inr e)) (fun e => h (Or.inl e)) r

theorem jsonStr_high {c : UInt8} (h : ¬ c < 0x80) (r : Bytes) : jsonStr (c :: r) = (jsonStr r).map fun x => (c :: x.1, x.2) := by
  have hn : 128 ≤ c.toNat := by
    rw [UInt8.lt_iff_toNat_lt] at h
    have : (0x80 : UInt8).toNat = 128 := rfl
    omega
  refine jsonStr_plain ?_ ?_ ?_ r
  · rintro rfl; exact absurd hn (by decide)
  · rintro rfl; exact absurd hn (by decide)
  · rw [UInt8.lt_iff_toNat_lt]
    have : (32 : UInt8).toNat = 32 := rfl
    omega

/-- A character is read as it was written. -/
theorem jsonStr_char {ch : Bytes} (h : IsChar ch) (r : Bytes) : jsonStr (jsonChar ch ++ r) = (jsonStr r).map fun x => (ch ++ x.1, x.2) := by
  cases h with
  | one h1 => exact jsonStr_byte _ r
  | two h1 h2 =>
    simp only [Bool.and_eq_true] at h2
    simp only [jsonChar, List.cons_append, List.nil_append]
    rw [jsonStr_high h1, jsonStr_high (contByte_ge h2.2), Option.map_map]
    rfl
  | @three a b c h1 h2 h3 =>
    simp only [Bool.and_eq_true] at h3
    rw [jsonChar]
    split
    · rename_i h
      obtain ⟨rfl, rfl, h⟩ := h
      rcases h with rfl | rfl
      · exact jsonStr_hex (u := [0xe2, 0x80, 0xa8]) (by decide) r
      · exact jsonStr_hex (u := [0xe2, 0x80, 0xa9]) (by decide) r
    · simp only [List.cons_append, List.nil_append]
      rw [jsonStr_high h1, jsonStr_high (two_ge h3.1), jsonStr_high (contByte_ge h3.2), Option.map_map, Option.map_map]
      rfl
  | four h1 h2 h3 h4 =>
    simp only [Bool.and_eq_true] at h4
    simp only [jsonChar, List.cons_append, List.nil_append]
    rw [jsonStr_high h1, jsonStr_high (three_ge h4.1.1), jsonStr_high (contByte_ge h4.1.2), jsonStr_high (contByte_ge h4.2), Option.map_map, Option.map_map,
      Option.map_map]
    rfl

/-- A text is read as it was written, except for what is not UTF-8. -/
theorem jsonText_round (s r : Bytes) : jsonStr (jsonText s ++ 34 :: r) = some (utf8Fix s, r) := by
  unfold jsonText utf8Fix
  induction s using utf8_ind with
  | nil =>
    show jsonStr (34 :: r) = some ([], r)
    rw [jsonStr.eq_def]; simp
  | char ch s hc ih =>
    rw [utf8Map_char hc, utf8Map_char hc, List.append_assoc, jsonStr_char hc, ih]
    rfl
  | bad a s _ h2 ih =>
    rw [h2, h2, List.append_assoc, jsonStr_hex (u := [0xef, 0xbf, 0xbd]) (by decide), ih]
    rfl

/-- What may follow a number. -/
def Stop (r : Bytes) : Prop := ∀ c r', r = c :: r' → isDigit c = false

theorem jsonDigits_stop {r : Bytes} (h : Stop r) (n : Nat) : jsonDigits r n = (n, r) := by
  cases r with
  | nil => rfl
  | cons c r => rw [jsonDigits, h c r rfl]; simp

/-- The number of some digits. -/
def digitsNum (ds : Bytes) (n : Nat) : Nat := ds.foldl (fun n c => n * 10 + (c.toNat - 48)) n

theorem jsonDigits_append : ∀ (ds r : Bytes) (n : Nat), (∀ c ∈ ds, isDigit c = true) → Stop r → jsonDigits (ds ++ r) n = (digitsNum ds n, r)
  | [], r, n, _, h => jsonDigits_stop h n
  | c :: ds, r, n, hd, h => by
    rw [List.cons_append, jsonDigits, if_pos (hd c (by simp)), jsonDigits_append ds r _ (fun x hx => hd x (by simp [hx])) h]
    rfl

theorem digit_char {n : Nat} (h : n < 10) : isDigit (UInt8.ofNat (48 + n)) = true ∧ (UInt8.ofNat (48 + n)).toNat - 48 = n := by
  have := ofNat_toNat (n := 48 + n) (by omega)
  refine ⟨?_, by omega⟩
  simp only [isDigit, Bool.and_eq_true, decide_eq_true_eq, UInt8.le_iff_toNat_le, this]
  have h1 : (48 : UInt8).toNat = 48 := rfl
  have h2 : (57 : UInt8).toNat = 57 := rfl
  omega

theorem decimal_spec : ∀ (f n : Nat), n < 10 ^ f → 0 < f → (∀ c ∈ decimal f n, isDigit c = true) ∧ digitsNum (decimal f n) 0 = n ∧ decimal f n ≠ []
  | 0, n, _, h => by omega
  | f + 1, n, hn, _ => by
    rw [decimal]
    split
    · rename_i h
      obtain ⟨h1, h2⟩ := digit_char h
      refine ⟨by simpa using h1, ?_, by simp⟩
      simpa [digitsNum] using h2
    · rename_i h
      have hf : 0 < f := by
        rcases Nat.eq_zero_or_pos f with rfl | hf
        · omega
        · exact hf
      obtain ⟨h1, h2, h3⟩ := decimal_spec f (n / 10) (by rw [Nat.pow_succ] at hn; omega) hf
      obtain ⟨h4, h5⟩ := digit_char (n := n % 10) (by omega)
      refine ⟨?_, ?_, by simp⟩
      · intro c hc
        rcases List.mem_append.1 hc with h | h
        · exact h1 c h
        · rw [List.mem_singleton.1 h]; exact h4
      · unfold digitsNum at h2 ⊢
        rw [List.foldl_append, h2]
        simp only [List.foldl_cons, List.foldl_nil, h5]
        omega

theorem stop_comma (r : Bytes) : Stop (44 :: r) := by
  intro c r' h
  cases h
  decide

theorem stop_newLine (k : Nat) (r : Bytes) : Stop (newLine k ++ r) := by
  intro c r' h
  cases h
  decide

theorem jsonElems_append {p : Bytes → Option (Val × Bytes)} {g : Val → Bytes} {h : Val → Val} : ∀ (l : List Val) (fuel : Nat) (t r : Bytes), l ≠ [] → l.length ≤ fuel →
    (∀ v ∈ l, ∀ r, Stop r → p (g v ++ r) = some (h v, r)) → Stop t → skipWs t = 93 :: r → jsonElems p fuel (commas g l ++ t) = some (l.map h, r)
  | [], _, _, _, h, _, _, _, _ => absurd rfl h
  | [v], fuel, t, r, _, hf, hp, ht, hs => by
    obtain ⟨n, rfl⟩ : ∃ n, fuel = n + 1 := ⟨fuel - 1, by simp at hf; omega⟩
    rw [commas, jsonElems, hp v (by simp) t ht]
    simp only [hs]
    simp
  | v :: v' :: l, fuel, t, r, _, hf, hp, ht, hs => by
    obtain ⟨n, rfl⟩ : ∃ n, fuel = n + 1 := ⟨fuel - 1, by simp at hf; omega⟩
    rw [commas, jsonElems, List.append_assoc, List.cons_append, hp v (by simp) _ (stop_comma _)]
    simp only [skipWs_cons (c := 44) (by decide), if_true]
    rw [jsonElems_append (v' :: l) n t r (by simp) (by simp at hf ⊢; omega) (fun x hx => hp x (List.mem_cons_of_mem _ hx)) ht hs]
    rfl

theorem jsonMembers_one {p : Bytes → Option (Val × Bytes)} {k n : Nat} {g : Bytes} {key : Bytes} {v : Val} {x : Bytes}
    (hp : p (32 :: (g ++ x)) = some (v, x)) :
    jsonMembers p (n + 1) (newLine k ++ jsonQuote key ++ [58, 32] ++ g ++ x) =
      match skipWs x with
      | [] => none
      | c :: r =>
        if c = 44 then (jsonMembers p n r).map fun x => ((utf8Fix key, v) :: x.1, x.2)
        else if c = 125 then some ([(utf8Fix key, v)], r)
        else none := by
  rw [jsonMembers]
  have h2 : newLine k ++ jsonQuote key ++ [58, 32] ++ g ++ x = newLine k ++ 34 :: (jsonText key ++ 34 :: 58 :: 32 :: (g ++ x)) := by simp [jsonQuote]
  rw [h2, skipWs_newLine, skipWs_cons (c := 34) (by decide)]
  simp only [if_true, jsonText_round, skipWs_cons (c := 58) (by decide), hp, utf8Fix_id (utf8_fix key)]
  cases skipWs x <;> rfl

theorem jsonMembers_append {p : Bytes → Option (Val × Bytes)} {k : Nat} {g : Val → Bytes} {h : Val → Val} : ∀ (l : List (Bytes × Val)) (fuel : Nat) (t r : Bytes), l ≠ [] →
    l.length ≤ fuel → (∀ q ∈ l, ∀ r, Stop r → p (32 :: (g q.2 ++ r)) = some (h q.2, r)) → Stop t → skipWs t = 125 :: r →
    jsonMembers p fuel (commas (fun q => newLine k ++ jsonQuote q.1 ++ [58, 32] ++ g q.2) l ++ t) = some (l.map fun q => (utf8Fix q.1, h q.2), r)
  | [], _, _, _, h, _, _, _, _ => absurd rfl h
  | [q], fuel, t, r, _, hf, hp, ht, hs => by
    obtain ⟨n, rfl⟩ : ∃ n, fuel = n + 1 := ⟨fuel - 1, by simp at hf; omega⟩
    rw [commas, jsonMembers_one (hp q (by simp) t ht), hs]
    simp
  | q :: q' :: l, fuel, t, r, _, hf, hp, ht, hs => by
    obtain ⟨n, rfl⟩ : ∃ n, fuel = n + 1 := ⟨fuel - 1, by simp at hf; omega⟩
    have h1 := hp q (by simp) (44 :: commas (fun q => newLine k ++ jsonQuote q.1 ++ [58, 32] ++ g q.2) (q' :: l) ++ t) (stop_comma _)
    rw [commas, List.append_assoc (_ ++ g q.2), jsonMembers_one h1, List.cons_append, skipWs_cons (c := 44) (by decide)]
    simp only [if_true]
    rw [jsonMembers_append (q' :: l) n t r (by simp) (by simp at hf ⊢; omega) (fun x hx => hp x (List.mem_cons_of_mem _ hx)) ht hs]
    rfl

theorem commas_length {α : Type} (g : α → Bytes) : ∀ l : List α, l.length ≤ (commas g l).length + 1
  | [] => by simp
  | [x] => by simp
  | x :: y :: l => by
    have := commas_length g (y :: l)
    simp only [commas, List.length_append, List.length_cons] at this ⊢
    omega

theorem commas_head {α : Type} {g : α → Bytes} {k : Nat} {h : α → Bytes} (hg : ∀ x, g x = newLine k ++ h x) : ∀ l : List α, l ≠ [] → ∀ t,
    ∃ x ∈ l, ∃ r, skipWs (commas g l ++ t) = skipWs (h x ++ r)
  | [], hl, _ => absurd rfl hl
  | [x], _, t => ⟨x, by simp, t, by rw [commas, hg, List.append_assoc, skipWs_newLine]⟩
  | x :: y :: l, _, t => ⟨x, by simp, 44 :: commas g (y :: l) ++ t, by rw [commas, hg, List.append_assoc, List.append_assoc, skipWs_newLine]⟩

theorem isDigit_range {c : UInt8} (h : isDigit c = true) : 48 ≤ c.toNat ∧ c.toNat ≤ 57 := by
  simp only [isDigit, Bool.and_eq_true, decide_eq_true_eq, UInt8.le_iff_toNat_le] at h
  exact h

theorem digit_ne {c d : UInt8} (h : isDigit c = true) (hd : d.toNat < 48 ∨ 57 < d.toNat) : c ≠ d := by
  rintro rfl
  have := isDigit_range h
  omega

theorem digit_ws {c : UInt8} (h : isDigit c = true) : isWs c = false := by
  simp only [isWs, Bool.or_eq_false_iff, beq_eq_false_iff_ne]
  exact ⟨⟨⟨digit_ne h (by decide), digit_ne h (by decide)⟩, digit_ne h (by decide)⟩, digit_ne h (by decide)⟩

/-- What JSON writes: texts need not be UTF-8. -/
def jsonAny : Kind := { jsonKind with str := fun _ => true }

/-- What is not UTF-8 is replaced in all texts. -/
def Val.fix : Nat → Val → Val
  | 0, v => v
  | f + 1, v =>
    match v with
    | .str s => .str (utf8Fix s)
    | .arr l => .arr (l.map (Val.fix f))
    | .obj l => .obj (l.map fun p => (utf8Fix p.1, Val.fix f p.2))
    | v => v

/-- The first byte of a value. -/
theorem jsonWrite_head (f k : Nat) (v : Val) (h : v.fits jsonAny f = true) :
    ∃ c r, jsonWrite f k v = c :: r ∧ isWs c = false ∧ c ≠ 93 ∧ c ≠ 125 := by
  cases f with
  | zero => simp [Val.fits] at h
  | succ f =>
    cases v with
    | null => exact ⟨_, _, rfl, by decide, by decide, by decide⟩
    | bool b => cases b <;> exact ⟨_, _, rfl, by decide, by decide, by decide⟩
    | num n =>
      have hn : n < 10 ^ 20 := by simpa [Val.fits, jsonAny, jsonKind] using h
      obtain ⟨h1, h2, h3⟩ := decimal_spec 20 n hn (by omega)
      obtain ⟨c, r, he⟩ := List.exists_cons_of_ne_nil h3
      have hc : isDigit c = true := h1 c (by rw [he]; simp)
      exact ⟨c, r, he, digit_ws hc, digit_ne hc (by decide), digit_ne hc (by decide)⟩
    | str s => exact ⟨_, _, rfl, by decide, by decide, by decide⟩
    | bin b => simp [Val.fits, jsonAny, jsonKind] at h
    | time n => simp [Val.fits, jsonAny, jsonKind] at h
    | arr l =>
      rw [jsonWrite]
      split
      · exact ⟨_, _, rfl, by decide, by decide, by decide⟩
      · exact ⟨_, _, rfl, by decide, by decide, by decide⟩
    | obj l =>
      rw [jsonWrite]
      split
      · exact ⟨_, _, rfl, by decide, by decide, by decide⟩
      · exact ⟨_, _, rfl, by decide, by decide, by decide⟩

theorem jsonRead_skip (f : Nat) (b b' : Bytes) (h : skipWs b = skipWs b') : jsonRead f b = jsonRead f b' := by
  cases f with
  | zero => rfl
  | succ f => rw [jsonRead, jsonRead, h]

/-- What is written as JSON is read, except for what is not UTF-8. -/
theorem json_read : ∀ (f k : Nat) (v : Val) (r : Bytes), v.fits jsonAny f = true → Stop r → jsonRead f (jsonWrite f k v ++ r) = some (v.fix f, r)
  | 0, _, v, r, h, _ => by simp [Val.fits] at h
  | f + 1, k, v, r, h, hr => by
    cases v with
    | null => simp [jsonWrite, jsonRead, skipWs_cons, isWs, jsonWord, Val.fix]
    | bool b =>
      cases b
      · simp [jsonWrite, jsonRead, skipWs_cons, isWs, jsonWord, Val.fix]
      · simp [jsonWrite, jsonRead, skipWs_cons, isWs, jsonWord, Val.fix]
    | num n =>
      have hn : n < 10 ^ 20 := by simpa [Val.fits, jsonAny, jsonKind] using h
      obtain ⟨h1, h2, h3⟩ := decimal_spec 20 n hn (by omega)
      obtain ⟨c, ds, he⟩ := List.exists_cons_of_ne_nil h3
      have hc : isDigit c = true := h1 c (by rw [he]; simp)
      have hj : jsonDigits (c :: (ds ++ r)) 0 = (n, r) := by
        have := jsonDigits_append (decimal 20 n) r 0 h1 hr
        rw [h2, he] at this
        exact this
      rw [jsonWrite, jsonRead, he, List.cons_append, skipWs_cons (digit_ws hc)]
      simp only []
      rw [if_neg (digit_ne hc (by decide)), if_neg (digit_ne hc (by decide)), if_neg (digit_ne hc (by decide)), if_neg (digit_ne hc (by decide)),
        if_neg (digit_ne hc (by decide)), if_neg (digit_ne hc (by decide)), if_pos hc, hj]
      rfl
    | str s =>
      rw [jsonWrite, jsonRead]
      have h2 : jsonQuote s ++ r = 34 :: (jsonText s ++ 34 :: r) := by simp [jsonQuote]
      rw [h2, skipWs_cons (c := 34) (by decide)]
      simp only [if_true, jsonText_round, Option.map_some, utf8Fix_id (utf8_fix s)]
      rfl
    | bin b => simp [Val.fits, jsonAny, jsonKind] at h
    | time n => simp [Val.fits, jsonAny, jsonKind] at h
    | arr l =>
      simp only [Val.fits, Bool.and_eq_true, List.all_eq_true] at h
      rw [jsonWrite]
      split
      · rename_i hl
        have : l = [] := by simpa using hl
        subst this
        simp [jsonRead, skipWs_cons, isWs, Val.fix]
      · rename_i hl
        have hl : l ≠ [] := by simpa using hl
        rw [jsonRead, List.cons_append, List.cons_append, List.cons_append, skipWs_cons (c := 91) (by decide)]
        have e1 : (91 : UInt8) ≠ 34 := by decide
        simp only [e1, if_false, if_true]
        have hg : ∀ v ∈ l, ∀ r, Stop r → jsonRead f (newLine (k + 1) ++ jsonWrite f (k + 1) v ++ r) = some (v.fix f, r) := by
          intro v hv r hr
          rw [jsonRead_skip f _ (jsonWrite f (k + 1) v ++ r) (by rw [List.append_assoc, skipWs_newLine])]
          exact json_read f (k + 1) v r (h.2 v hv) hr
        have hlen := commas_length (fun v => newLine (k + 1) ++ jsonWrite f (k + 1) v) l
        obtain ⟨x, hx, rr, hh⟩ := commas_head (g := fun v => newLine (k + 1) ++ jsonWrite f (k + 1) v) (fun v => rfl) l hl (newLine k ++ [93] ++ r)
        obtain ⟨c, cr, hw, hws, hne, _⟩ := jsonWrite_head f (k + 1) x (h.2 x hx)
        have hhead : (skipWs (commas (fun v => newLine (k + 1) ++ jsonWrite f (k + 1) v) l ++ (newLine k ++ [93] ++ r))).head? ≠ some 93 := by
          rw [hh, hw, List.cons_append, skipWs_cons hws]
          simpa using hne
        have hread := jsonElems_append (p := jsonRead f) l ((commas (fun v => newLine (k + 1) ++ jsonWrite f (k + 1) v) l ++ (newLine k ++ [93] ++ r)).length + 1)
          (newLine k ++ [93] ++ r) r hl (by rw [List.length_append]; omega) hg (by rw [List.append_assoc]; exact stop_newLine _ _)
          (by rw [List.append_assoc, skipWs_newLine]; exact skipWs_cons (by decide) r)
        simp only [List.append_assoc] at hhead hread ⊢
        rw [if_neg hhead, hread]
        rfl
    | obj l =>
      simp only [Val.fits, Bool.and_eq_true, List.all_eq_true] at h
      rw [jsonWrite]
      split
      · rename_i hl
        have : l = [] := by simpa using hl
        subst this
        simp [jsonRead, skipWs_cons, isWs, Val.fix]
      · rename_i hl
        have hl : l ≠ [] := by simpa using hl
        rw [jsonRead, List.cons_append, List.cons_append, List.cons_append, skipWs_cons (c := 123) (by decide)]
        have e1 : (123 : UInt8) ≠ 34 := by decide
        have e2 : (123 : UInt8) ≠ 91 := by decide
        simp only [e1, e2, if_false, if_true]
        have hg : ∀ q ∈ l, ∀ r, Stop r → jsonRead f (32 :: (jsonWrite f (k + 1) q.2 ++ r)) = some (q.2.fix f, r) := by
          intro q hq r hr
          rw [jsonRead_skip f _ (jsonWrite f (k + 1) q.2 ++ r) (by simp [skipWs, isWs])]
          exact json_read f (k + 1) q.2 r (h.2 q hq).2 hr
        have hlen := commas_length (fun (p : Bytes × Val) => newLine (k + 1) ++ jsonQuote p.1 ++ [58, 32] ++ jsonWrite f (k + 1) p.2) l
        obtain ⟨x, hx, rr, hh⟩ := commas_head (g := fun (p : Bytes × Val) => newLine (k + 1) ++ jsonQuote p.1 ++ [58, 32] ++ jsonWrite f (k + 1) p.2)
          (k := k + 1) (h := fun p => jsonQuote p.1 ++ [58, 32] ++ jsonWrite f (k + 1) p.2) (fun v => by simp only [List.append_assoc]) l hl (newLine k ++ [125] ++ r)
        have hhead : (skipWs (commas (fun (p : Bytes × Val) => newLine (k + 1) ++ jsonQuote p.1 ++ [58, 32] ++ jsonWrite f (k + 1) p.2) l ++ (newLine k ++ [125] ++ r))).head? ≠ some 125 := by
          rw [hh]
          unfold jsonQuote
          rw [List.cons_append, List.cons_append, List.cons_append, List.cons_append, skipWs_cons (c := 34) (by decide)]
          simp
        have hread := jsonMembers_append (p := jsonRead f) (k := k + 1) l
          ((commas (fun (p : Bytes × Val) => newLine (k + 1) ++ jsonQuote p.1 ++ [58, 32] ++ jsonWrite f (k + 1) p.2) l ++ (newLine k ++ [125] ++ r)).length + 1)
          (newLine k ++ [125] ++ r) r hl (by rw [List.length_append]; omega) hg (by rw [List.append_assoc]; exact stop_newLine _ _)
          (by rw [List.append_assoc, skipWs_newLine]; exact skipWs_cons (by decide) r)
        simp only [List.append_assoc] at hhead hread ⊢
        rw [if_neg hhead, hread]
        rfl

theorem jsonFix_id : ∀ (f : Nat) (v : Val), v.fits jsonKind f = true → v.fits jsonAny f = true ∧ v.fix f = v
  | 0, v, h => by simp [Val.fits] at h
  | f + 1, v, h => by
    cases v with
    | str s => exact ⟨rfl, by rw [Val.fix, utf8Fix_id h]⟩
    | arr l =>
      simp only [Val.fits, Bool.and_eq_true, List.all_eq_true] at h ⊢
      refine ⟨⟨h.1, fun v hv => (jsonFix_id f v (h.2 v hv)).1⟩, ?_⟩
      rw [Val.fix]
      congr 1
      have : ∀ v ∈ l, v.fix f = id v := fun v hv => (jsonFix_id f v (h.2 v hv)).2
      rw [List.map_congr_left this, List.map_id]
    | obj l =>
      simp only [Val.fits, Bool.and_eq_true, List.all_eq_true] at h ⊢
      refine ⟨⟨h.1, fun v hv => ⟨rfl, (jsonFix_id f v.2 (h.2 v hv).2).1⟩⟩, ?_⟩
      rw [Val.fix]
      congr 1
      have : ∀ q ∈ l, (utf8Fix q.1, q.2.fix f) = id q := by
        intro q hq
        rw [utf8Fix_id (h.2 q hq).1, (jsonFix_id f q.2 (h.2 q hq).2).2]
        rfl
      rw [List.map_congr_left this, List.map_id]
    | _ => exact ⟨h, rfl⟩

/-- What is written as JSON is read. -/
theorem json_round (f k : Nat) (v : Val) (r : Bytes) (h : v.fits jsonKind f = true) (hr : Stop r) : jsonRead f (jsonWrite f k v ++ r) = some (v, r) := by
  obtain ⟨h1, h2⟩ := jsonFix_id f v h
  rw [json_read f k v r h1 hr, h2]

end Jess.Formats
