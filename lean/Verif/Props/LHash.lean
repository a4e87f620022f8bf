import Verif.Model.LHash
import Verif.Lemmas.Container
import Verif.Lemmas.Encoding

/-! C36: labeled hashes. -/

namespace Jess

/-- A labeled hash with a supported algorithm and a digest of the right size (specification). -/
def LabeledHash.Valid (h : LabeledHash) : Prop :=
  (h.alg, h.digest.length) ∈ [(8, 28), (9, 32), (10, 48), (11, 64), (12, 28), (13, 32), (16, 28), (17, 32), (18, 48), (19, 64), (24, 32),
    (25, 32), (26, 48), (27, 64), (32, 32)]

theorem lhashSize_find {alg n : Nat} : lhashSize alg = some n ↔ ∃ x ∈ lhashAlgs, x.1 = alg ∧ x.2.2 = n := by
  unfold lhashSize
  constructor
  · intro h
    simp only [Option.map_eq_some_iff] at h
    obtain ⟨x, hx, rfl⟩ := h
    exact ⟨x, List.mem_of_find?_eq_some hx, by simpa using List.find?_some hx, rfl⟩
  · rintro ⟨x, hx, rfl, rfl⟩
    have : ∀ x ∈ lhashAlgs, (lhashAlgs.find? (fun a => a.1 == x.1)).map (fun a => a.2.2) = some x.2.2 := by decide
    exact this x hx

theorem valid_iff (h : LabeledHash) : h.Valid ↔ lhashSize h.alg = some h.digest.length := by
  rw [lhashSize_find]
  unfold LabeledHash.Valid
  rw [show [(8, 28), (9, 32), (10, 48), (11, 64), (12, 28), (13, 32), (16, 28), (17, 32), (18, 48), (19, 64), (24, 32),
    (25, 32), (26, 48), (27, 64), (32, 32)] = lhashAlgs.map (fun x => (x.1, x.2.2)) from rfl, List.mem_map]
  constructor
  · rintro ⟨x, hx, h⟩; exact ⟨x, hx, congrArg Prod.fst h, congrArg Prod.snd h⟩
  · rintro ⟨x, hx, h1, h2⟩; exact ⟨x, hx, by rw [h1, h2]⟩

theorem lhashSize_lt {alg n : Nat} (h : lhashSize alg = some n) : alg < 2 ^ 64 ∧ n < 2 ^ 64 := by
  obtain ⟨x, hx, rfl, rfl⟩ := lhashSize_find.mp h
  have : ∀ x ∈ lhashAlgs, x.1 < 2 ^ 64 ∧ x.2.2 < 2 ^ 64 := by decide
  exact this x hx

/-- C36. What is loaded is what the bytes encode: a supported algorithm, a digest of the size of that algorithm, and nothing else.
(The numbers may be encoded with more bytes than necessary, as everywhere in the format, so `Load` accepts several encodings of the
same hash.) -/
theorem lhash_load_iff (b : Bytes) (h : LabeledHash) :
    lhashLoad b = .ok h ↔ h.Valid ∧ ∃ r, getN64 b = .ok (h.alg, r) ∧ getBlock r = .ok (h.digest, []) := by
  rw [valid_iff]
  unfold lhashLoad
  constructor
  · intro hl
    split at hl
    · cases hl
    · rename_i alg r ha
      split at hl
      · cases hl
      · rename_i digest rest hd
        split at hl
        · cases hl
        · rename_i hrest
          split at hl
          · cases hl
          · rename_i n hn
            split at hl
            · cases hl
            · rename_i hlen
              cases hl
              have : rest = [] := List.length_eq_zero_iff.mp (by omega)
              subst this
              exact ⟨by rw [hn]; congr 1; simpa using hlen, r, ha, hd⟩
  · rintro ⟨hv, r, h1, h2⟩
    simp only [h1, h2, hv]
    simp

/-- C36. Loading the serialization returns the hash. -/
theorem lhash_round_trip (h : LabeledHash) (hv : h.Valid) : lhashLoad h.bytes = .ok h := by
  refine (lhash_load_iff _ _).mpr ⟨hv, block h.digest, ?_, ?_⟩
  · exact getN64_pack64 (lhashSize_lt ((valid_iff h).mp hv)).1 _
  · have := getBlock_block (d := h.digest) (lhashSize_lt ((valid_iff h).mp hv)).2 []
    rwa [List.append_nil] at this

/-- C36. The text forms are read back. -/
theorem lhash_text_round_trip (h : LabeledHash) (hv : h.Valid) :
    lhashFromHex h.hex = .ok h ∧ lhashFromBase64 h.base64 = .ok h ∧ lhashFromBase58 h.base58 = .ok h := by
  have hb := lhash_round_trip h hv
  have hne : h.bytes ≠ [] := by
    unfold LabeledHash.bytes
    intro h0
    exact pack64_ne_nil _ (List.append_eq_nil_iff.mp h0).1
  refine ⟨?_, ?_, ?_⟩
  · unfold lhashFromHex LabeledHash.hex; rw [hexDecode_encode]; exact hb
  · unfold lhashFromBase64 LabeledHash.base64; rw [b64Decode_encode]; exact hb
  · unfold lhashFromBase58 LabeledHash.base58; rw [b58Decode_encode hne]; exact hb

/-- C36. Data after the hash is rejected. -/
theorem lhash_rejects_trailing (h : LabeledHash) (hv : h.Valid) (x : Bytes) (hx : x ≠ []) : ∃ e, lhashLoad (h.bytes ++ x) = .error e := by
  cases hl : lhashLoad (h.bytes ++ x) with
  | error e => exact ⟨e, rfl⟩
  | ok o =>
    obtain ⟨_, r, h1, h2⟩ := (lhash_load_iff _ _).mp hl
    unfold LabeledHash.bytes at h1
    rw [List.append_assoc, getN64_pack64 (lhashSize_lt ((valid_iff h).mp hv)).1] at h1
    obtain ⟨_, rfl⟩ := Prod.mk.inj (Except.ok.inj h1)
    rw [getBlock_block (lhashSize_lt ((valid_iff h).mp hv)).2] at h2
    simp only [Except.ok.injEq, Prod.mk.injEq] at h2
    exact absurd h2.2 hx

/-- C36. Loading never panics (in particular not because of an unknown algorithm). -/
theorem lhash_load_total (b : Bytes) : lhashLoad b ≠ .error .panic := by
  have u : ∀ (i acc : Nat) (c : Bytes), uvarint i acc c ≠ .error .panic := by
    intro i acc c
    induction c generalizing i acc with
    | nil => unfold uvarint; simp
    | cons b bs ih =>
      unfold uvarint
      repeat' split
      all_goals first | (intro h; cases h) | exact ih _ _
  unfold lhashLoad
  split
  · rename_i e he; intro h; cases h; exact u _ _ _ he
  · split
    · rename_i e he
      intro h; cases h
      unfold getBlock at he
      split at he
      · rename_i e h'; cases he; exact u _ _ _ h'
      · unfold getBytes at he; split at he <;> cases he
    · repeat' split
      all_goals (intro h; cases h)

/-- C36. `Equal` holds exactly if algorithm and digest agree. -/
theorem lhash_equal_iff (h o : LabeledHash) : h.equal o = true ↔ h.alg = o.alg ∧ h.digest = o.digest := by
  simp [LabeledHash.equal]

/-- C36. `EqualRaw` compares the whole digest. -/
theorem lhash_equalRaw_iff (h : LabeledHash) (d : Bytes) : h.equalRaw d = true ↔ h.digest = d := by
  simp [LabeledHash.equalRaw]

/-- C36. A digest of a supported algorithm is valid. -/
theorem lhash_digest_valid (H : Hashes) (hH : H.Sized) (alg : Nat) (data : Bytes) (h : LabeledHash) (hd : lhashDigest H alg data = .ok h) :
    h.Valid ∧ h.alg = alg ∧ h.digest = H alg data := by
  unfold lhashDigest at hd
  split at hd
  · cases hd
  · rename_i n hn
    cases hd
    refine ⟨(valid_iff _).mpr ?_, rfl, rfl⟩
    rw [hH alg n hn]; exact hn

/-- C36. A valid hash matches exactly the data with its digest, whether it is given at once or by a reader in chunks, and a reader
that fails is not matched. In particular, a digest matches the data it was made from. -/
theorem lhash_matches_iff (H : Hashes) (h : LabeledHash) (hv : h.Valid) (data : Bytes) :
    h.matches H data = .ok (decide (h.digest = H h.alg data)) ∧
    (∀ chunks, chunks.flatten = data → h.matchesReader H { chunks := chunks } = .ok (decide (h.digest = H h.alg data)) ∧
      h.matchesReader H { chunks := chunks, failed := true } = .error .env) := by
  have hs := (valid_iff h).mp hv
  have key : (h.digest == H h.alg data) = decide (h.digest = H h.alg data) := by
    by_cases e : h.digest = H h.alg data <;> simp [e]
  refine ⟨?_, ?_⟩
  · simp only [LabeledHash.matches, lhashDigest, hs, ok_bind, LabeledHash.equal, beq_self_eq_true, Bool.true_and, key]
  · intro chunks hc
    have hf : ∀ (cs : List Bytes) (a : Bytes), cs.foldl (· ++ ·) a = a ++ cs.flatten := by
      intro cs
      induction cs with
      | nil => intro a; simp
      | cons c cs ih => intro a; rw [List.foldl_cons, ih]; simp
    have hfl : chunks.foldl (· ++ ·) [] = data := by rw [hf, hc]; rfl
    refine ⟨?_, ?_⟩
    · simp only [LabeledHash.matchesReader, lhashReader, hs, hfl, Bool.false_eq_true, if_false, ok_bind, LabeledHash.equal, beq_self_eq_true,
        Bool.true_and, key]
    · simp only [LabeledHash.matchesReader, lhashReader, hs]; rfl

/-- The digest of data (of any supported algorithm) is serialized, loaded and matches the data. -/
theorem lhash_digest_matches (H : Hashes) (hH : H.Sized) (alg : Nat) (data : Bytes) (h : LabeledHash)
    (hd : lhashDigest H alg data = .ok h) : ∃ o, lhashLoad h.bytes = .ok o ∧ o.matches H data = .ok true := by
  obtain ⟨hv, h1, h2⟩ := lhash_digest_valid H hH alg data h hd
  refine ⟨h, lhash_round_trip h hv, ?_⟩
  rw [(lhash_matches_iff H h hv data).1, h1, h2]; simp

/-- Hash functions of the right sizes exist; the toy ones repeat a checksum byte. -/
def toyHashes : Hashes := fun alg d => List.replicate ((lhashSize alg).getD 0) (d.foldl (· + ·) 7)

theorem toyHashes_sized : toyHashes.Sized := by
  intro alg n h d
  simp [toyHashes, h]

theorem lhash_example : (lhashDigest toyHashes 25 b!"data").isOk = true ∧ (lhashDigest toyHashes 14 b!"data") = .error .panic ∧
    lhashLoad [14, 1, 5] = .error .unsupported ∧ lhashLoad [9, 1, 5] = .error .malformed := by decide +kernel

end Jess
