import Verif.Model.Container

/-! Lemmas about the container/varint model. -/

namespace Jess

theorem toNat_ofNat_lt {n : Nat} (h : n < 256) : (UInt8.ofNat n).toNat = n := by
  simp [UInt8.toNat_ofNat']; omega

theorem pack64Loop_fuel (f : Nat) : ∀ g n, n ≤ f → n ≤ g → pack64Loop f n = pack64Loop g n := by
  induction f with
  | zero =>
    intro g n h1 _
    cases g with
    | zero => rfl
    | succ g => simp only [pack64Loop]; rw [if_pos (by omega)]
  | succ f ih =>
    intro g n h1 h2
    cases g with
    | zero => simp only [pack64Loop]; rw [if_pos (by omega)]
    | succ g =>
      simp only [pack64Loop]
      by_cases h : n < 128
      · rw [if_pos h, if_pos h]
      · rw [if_neg h, if_neg h, ih g (n / 128) (by omega) (by omega)]

/-- The equation of `pack64`. -/
theorem pack64_step (n : Nat) : pack64 n = if n < 128 then [UInt8.ofNat n] else UInt8.ofNat (n % 128 + 128) :: pack64 (n / 128) := by
  unfold pack64
  cases n with
  | zero => rfl
  | succ n =>
    show (if n + 1 < 128 then _ else _ :: pack64Loop n ((n + 1) / 128)) = _
    by_cases h : n + 1 < 128
    · rw [if_pos h, if_pos h]
    · rw [if_neg h, if_neg h, pack64Loop_fuel n ((n + 1) / 128) ((n + 1) / 128) (by omega) (by omega)]

theorem pack64_lt {n : Nat} (h : n < 128) : pack64 n = [UInt8.ofNat n] := by
  rw [pack64_step]; simp [h]

theorem pack64_ge {n : Nat} (h : ¬ n < 128) :
    pack64 n = UInt8.ofNat (n % 128 + 128) :: pack64 (n / 128) := by
  rw [pack64_step]; simp [h]

theorem pack64_ne_nil (n : Nat) : pack64 n ≠ [] := by
  rw [pack64_step]; split <;> simp

theorem pack64_length_pos (n : Nat) : 0 < (pack64 n).length :=
  List.length_pos_iff.mpr (pack64_ne_nil n)

theorem pow128_lt {i : Nat} (h : 128 ^ i < 2 ^ 64) : i ≤ 9 := by
  rcases Nat.lt_or_ge i 10 with h' | h'
  · omega
  · exfalso
    have : (128:Nat) ^ 10 ≤ 128 ^ i := Nat.pow_le_pow_right (by decide) h'
    have h2 : (2:Nat) ^ 64 < 128 ^ 10 := by decide
    omega

theorem uvarint_pack64 (n : Nat) : ∀ (i acc : Nat) (r : Bytes), i ≤ 9 → n * 128 ^ i < 2 ^ 64 →
    uvarint i acc (pack64 n ++ r) = .ok (acc + n * 128 ^ i, r) := by
  induction n using Nat.strongRecOn with
  | ind n ih =>
    intro i acc r hi hlt
    by_cases h : n < 128
    · rw [pack64_lt h]
      simp only [List.cons_append, List.nil_append, uvarint]
      rw [toNat_ofNat_lt (by omega)]
      have h10 : i ≠ 10 := by omega
      have h9 : ¬ (i = 9 ∧ n > 1) := by
        rintro ⟨rfl, hn⟩
        have h1 : 2 * 128 ^ 9 ≤ n * 128 ^ 9 := Nat.mul_le_mul_right _ hn
        have h2 : (2:Nat) * 128 ^ 9 = 2 ^ 64 := by decide
        omega
      simp [h10, h, h9]
    · rw [pack64_ge h]
      simp only [List.cons_append, uvarint]
      rw [toNat_ofNat_lt (by omega)]
      have h10 : i ≠ 10 := by omega
      have hb : ¬ (n % 128 + 128 < 128) := by omega
      simp only [h10, hb, if_false]
      have hdiv : 1 ≤ n / 128 := by omega
      have hmod : n % 128 + 128 * (n / 128) = n := Nat.mod_add_div n 128
      have hmul : n / 128 * 128 ^ (i + 1) ≤ n * 128 ^ i := by
        rw [Nat.pow_succ, Nat.mul_comm (128 ^ i) 128, ← Nat.mul_assoc]
        exact Nat.mul_le_mul_right _ (by omega)
      have hpow : 128 ^ (i + 1) ≤ n / 128 * 128 ^ (i + 1) := Nat.le_mul_of_pos_left _ hdiv
      have hi' : i + 1 ≤ 9 := pow128_lt (by omega)
      rw [ih (n / 128) (by omega) (i + 1) _ r hi' (by omega)]
      have : acc + (n % 128 + 128 - 128) * 128 ^ i + n / 128 * 128 ^ (i + 1) = acc + n * 128 ^ i := by
        have e1 : n % 128 + 128 - 128 = n % 128 := by omega
        have e2 : n / 128 * 128 ^ (i + 1) = (128 * (n / 128)) * 128 ^ i := by
          rw [Nat.pow_succ, Nat.mul_comm (128 ^ i) 128, ← Nat.mul_assoc, Nat.mul_comm (n/128) 128]
        rw [e1, e2, Nat.add_assoc, ← Nat.add_mul, hmod]
      rw [this]

/-- Numbers are read back, whatever follows them. -/
theorem getN64_pack64 {n : Nat} (h : n < 2 ^ 64) (r : Bytes) : getN64 (pack64 n ++ r) = .ok (n, r) := by
  have := uvarint_pack64 n 0 0 r (by omega) (by simpa using h)
  simpa [getN64] using this

theorem getN8_pack64 {n : Nat} (h : n < 256) (r : Bytes) : getN8 (pack64 n ++ r) = .ok (n, r) := by
  by_cases h' : n < 128
  · rw [pack64_lt h']
    simp only [List.cons_append, List.nil_append, getN8]
    rw [toNat_ofNat_lt (by omega)]; simp [h']
  · rw [pack64_ge h', pack64_lt (by omega)]
    simp only [List.cons_append, List.nil_append, getN8]
    rw [toNat_ofNat_lt (by omega)]
    have e : n / 128 = 1 := by omega
    have e2 : n % 128 + 128 = n := by omega
    simp [e, e2, h']

/-- A number above 255 is rejected by the 8 bit reader. -/
theorem getN8_pack64_big {n : Nat} (h : 256 ≤ n) (r : Bytes) :
    getN8 (pack64 n ++ r) = .error .overflow := by
  have h' : ¬ n < 128 := by omega
  rw [pack64_ge h']
  simp only [List.cons_append, getN8]
  rw [toNat_ofNat_lt (by omega)]
  have hb : ¬ (n % 128 + 128 < 128) := by omega
  simp only [hb, if_false]
  by_cases h2 : n / 128 < 128
  · rw [pack64_lt h2]
    simp only [List.cons_append, List.nil_append]
    have : UInt8.ofNat (n / 128) ≠ 1 := by
      intro hh
      have := congrArg UInt8.toNat hh
      rw [toNat_ofNat_lt (by omega)] at this
      simp at this
      omega
    simp [this]
  · rw [pack64_ge h2]
    simp only [List.cons_append]
    have : UInt8.ofNat (n / 128 % 128 + 128) ≠ 1 := by
      intro hh
      have := congrArg UInt8.toNat hh
      rw [toNat_ofNat_lt (by omega)] at this
      simp at this
    simp only [this, if_false]

theorem getBytes_append (d r : Bytes) : getBytes d.length (d ++ r) = .ok (d, r) := by
  simp [getBytes]

/-- Blocks are read back, whatever follows them. -/
theorem getBlock_block {d : Bytes} (h : d.length < 2 ^ 64) (r : Bytes) :
    getBlock (block d ++ r) = .ok (d, r) := by
  simp only [getBlock, block, List.append_assoc]
  rw [getN64_pack64 h]
  exact getBytes_append d r

/-! Readers consume a prefix of their input. -/

theorem uvarint_suffix {i acc : Nat} {c : Bytes} {n : Nat} {c' : Bytes}
    (h : uvarint i acc c = .ok (n, c')) : ∃ p, p ≠ [] ∧ c = p ++ c' := by
  induction c generalizing i acc with
  | nil => simp [uvarint] at h
  | cons b bs ih =>
    simp only [uvarint] at h
    split at h
    · simp at h
    · split at h
      · split at h
        · simp at h
        · simp only [Except.ok.injEq, Prod.mk.injEq] at h
          exact ⟨[b], by simp, by simp [h.2]⟩
      · obtain ⟨p, _, hp⟩ := ih h
        exact ⟨b :: p, by simp, by simp [hp]⟩

theorem getN64_suffix {c : Bytes} {n : Nat} {c' : Bytes}
    (h : getN64 c = .ok (n, c')) : ∃ p, p ≠ [] ∧ c = p ++ c' := uvarint_suffix h

theorem uvarint_lt {i acc : Nat} {c : Bytes} {n : Nat} {c' : Bytes} (hacc : acc < 128 ^ i) (hi : i ≤ 10)
    (h : uvarint i acc c = .ok (n, c')) : n < 2 ^ 64 := by
  induction c generalizing i acc with
  | nil => simp [uvarint] at h
  | cons b bs ih =>
    simp only [uvarint] at h
    have hb := b.toNat_lt
    split at h
    · simp at h
    · rename_i hi10
      have hmono : (128:Nat) ^ i ≤ 128 ^ 9 := Nat.pow_le_pow_right (by decide) (by omega)
      split at h
      · rename_i hb128
        split at h
        · simp at h
        · rename_i h9
          simp only [Except.ok.injEq, Prod.mk.injEq] at h
          rw [← h.1]
          by_cases hi9 : i = 9
          · subst hi9
            have hb1 : b.toNat ≤ 1 := by omega
            have : b.toNat * 128 ^ 9 ≤ 1 * 128 ^ 9 := Nat.mul_le_mul_right _ hb1
            have e : (128:Nat) ^ 9 * 2 = 2 ^ 64 := by decide
            omega
          · have h8 : (128:Nat) ^ i ≤ 128 ^ 8 := Nat.pow_le_pow_right (by decide) (by omega)
            have : b.toNat * 128 ^ i ≤ 127 * 128 ^ i := Nat.mul_le_mul_right _ (by omega)
            have e : (128:Nat) ^ 8 * 128 < 2 ^ 64 := by decide
            omega
      · refine ih ?_ (by omega) h
        have : (b.toNat - 128) * 128 ^ i ≤ 127 * 128 ^ i := Nat.mul_le_mul_right _ (by omega)
        rw [Nat.pow_succ]; omega

/-- Numbers read are 64 bit numbers. -/
theorem getN64_lt {c : Bytes} {n : Nat} {c' : Bytes} (h : getN64 c = .ok (n, c')) : n < 2 ^ 64 :=
  uvarint_lt (by simp) (by omega) h

theorem getN8_suffix {c : Bytes} {n : Nat} {c' : Bytes}
    (h : getN8 c = .ok (n, c')) : ∃ p, p ≠ [] ∧ c = p ++ c' := by
  match c, h with
  | [], h => simp [getN8] at h
  | [b], h =>
    simp only [getN8] at h
    split at h
    · simp only [Except.ok.injEq, Prod.mk.injEq] at h; exact ⟨[b], by simp, by simp [← h.2]⟩
    · simp at h
  | b :: b1 :: bs, h =>
    simp only [getN8] at h
    split at h
    · simp only [Except.ok.injEq, Prod.mk.injEq] at h; exact ⟨[b], by simp, by simp [← h.2]⟩
    · split at h
      · simp only [Except.ok.injEq, Prod.mk.injEq] at h; exact ⟨[b, b1], by simp, by simp [← h.2]⟩
      · simp at h

theorem getN8_lt {c : Bytes} {n : Nat} {c' : Bytes} (h : getN8 c = .ok (n, c')) : n < 256 := by
  match c, h with
  | [], h => simp [getN8] at h
  | [b], h =>
    simp only [getN8] at h
    have := b.toNat_lt
    split at h
    · simp only [Except.ok.injEq, Prod.mk.injEq] at h; omega
    · simp at h
  | b :: b1 :: bs, h =>
    simp only [getN8] at h
    have := b.toNat_lt
    split at h
    · simp only [Except.ok.injEq, Prod.mk.injEq] at h; omega
    · split at h
      · simp only [Except.ok.injEq, Prod.mk.injEq] at h; omega
      · simp at h

theorem getBlock_suffix {c d c' : Bytes} (h : getBlock c = .ok (d, c')) :
    ∃ p, p ≠ [] ∧ c = p ++ d ++ c' := by
  simp only [getBlock] at h
  split at h
  · simp at h
  · rename_i n c1 h1
    obtain ⟨p, hp, rfl⟩ := getN64_suffix h1
    simp only [getBytes] at h
    split at h
    · simp only [Except.ok.injEq, Prod.mk.injEq] at h
      refine ⟨p, hp, ?_⟩
      rw [← h.1, ← h.2]; simp
    · simp at h

theorem getBlock_lt {c d c' : Bytes} (h : getBlock c = .ok (d, c')) : d.length < 2 ^ 64 := by
  simp only [getBlock] at h
  split at h
  · simp at h
  · rename_i n c1 h1
    have := getN64_lt h1
    simp only [getBytes] at h
    split at h
    · simp only [Except.ok.injEq, Prod.mk.injEq] at h
      rw [← h.1, List.length_take]; omega
    · simp at h

/-! Prefix freeness / injectivity. -/

theorem pack64_append_inj {m n : Nat} (hm : m < 2 ^ 64) (hn : n < 2 ^ 64) {r s : Bytes}
    (h : pack64 m ++ r = pack64 n ++ s) : m = n ∧ r = s := by
  have h1 := getN64_pack64 hm r
  rw [h, getN64_pack64 hn s] at h1
  simp only [Except.ok.injEq, Prod.mk.injEq] at h1
  exact ⟨h1.1.symm, h1.2.symm⟩

theorem block_append_inj {a b : Bytes} (ha : a.length < 2 ^ 64) (hb : b.length < 2 ^ 64) {r s : Bytes}
    (h : block a ++ r = block b ++ s) : a = b ∧ r = s := by
  have h1 := getBlock_block ha r
  rw [h, getBlock_block hb s] at h1
  simp only [Except.ok.injEq, Prod.mk.injEq] at h1
  exact ⟨h1.1.symm, h1.2.symm⟩

end Jess
