import Verif.Props.Wire

/-!
# C03: the language the wire parser accepts

A grammar of the wire format, written down without the reader: numbers are little endian base 128, a block is its
length and its bytes, a letter is the version 1, the flags, the setup part and the seals if their flags are set, and
three blocks.  The parser accepts exactly the inputs that begin with a string of this grammar and yields exactly the
letter the grammar assigns to it.
-/

namespace Jess

/-- `p` is a little endian base 128 number with the value `v`: every byte but the last is at least 128. -/
inductive Base128 : Bytes → Nat → Prop where
  | last (b : UInt8) : b.toNat < 128 → Base128 [b] b.toNat
  | more (b : UInt8) (p : Bytes) (v : Nat) : 128 ≤ b.toNat → Base128 p v → Base128 (b :: p) (b.toNat - 128 + 128 * v)

/-- A number of the format: at most ten bytes and a value that fits 64 bits. -/
def Num64 (p : Bytes) (v : Nat) : Prop := Base128 p v ∧ p.length ≤ 10 ∧ v < 2 ^ 64

/-- A small number of the format: one byte, or two bytes of which the second is 1. -/
def Num8 (p : Bytes) (v : Nat) : Prop := Base128 p v ∧ (p.length = 1 ∨ p.length = 2 ∧ 128 ≤ v ∧ v < 256)

/-- A block: the length as a number and that many bytes. -/
def Block (p d : Bytes) : Prop := ∃ q, Num64 q d.length ∧ p = q ++ d

/-- A list of seals: the ID and the value of each as blocks. -/
inductive SealList : Bytes → List Seal → Prop where
  | nil : SealList [] []
  | cons (a b p : Bytes) (s : Seal) (ss : List Seal) : s.scheme = [] → Block a s.id → Block b s.value → SealList p ss →
      SealList (a ++ b ++ p) (s :: ss)

/-- The setup part of a letter with its flag set: the version and the suite. -/
def SetupPart (p : Bytes) (version : UInt8) (suiteID : Bytes) : Prop :=
  ∃ a b, Num8 a version.toNat ∧ Block b suiteID ∧ p = a ++ b

/-- The seals of a letter with their flag set: their number and the seals. -/
def KeysPart (p : Bytes) (keys : List Seal) : Prop :=
  ∃ a b, Num8 a keys.length ∧ SealList b keys ∧ p = a ++ b

/-- The grammar of the wire format. -/
structure WireForm (p : Bytes) (l : Letter) : Prop where
  signatures : l.signatures = []
  parts : ∃ version flagBytes setup keys nonce data mac : Bytes, ∃ flags : Nat,
    p = version ++ flagBytes ++ setup ++ keys ++ nonce ++ data ++ mac ∧
    Num8 version 1 ∧ Num64 flagBytes flags ∧
    (if flags.testBit 0 then SetupPart setup l.version l.suiteID else setup = [] ∧ l.version = 0 ∧ l.suiteID = []) ∧
    (if flags.testBit 1 then KeysPart keys l.keys else keys = [] ∧ l.keys = []) ∧
    l.applyKeys = flags.testBit 2 ∧
    Block nonce l.nonce ∧ Block data l.data ∧ Block mac l.mac

theorem base128_ne {p : Bytes} {v : Nat} (h : Base128 p v) : p ≠ [] := by cases h <;> simp

theorem uvarint_form : ∀ (c : Bytes) (i acc v : Nat) (r : Bytes), i ≤ 10 → uvarint i acc c = .ok (v, r) →
    ∃ p w, c = p ++ r ∧ Base128 p w ∧ p.length + i ≤ 10 ∧ v = acc + w * 128 ^ i ∧ w * 128 ^ i < 2 ^ 64
  | [], i, acc, v, r, _, h => by simp [uvarint] at h
  | b :: bs, i, acc, v, r, hi, h => by
    simp only [uvarint] at h
    split at h
    · simp at h
    rename_i h10
    split at h
    · rename_i hb
      split at h
      · simp at h
      rename_i h9
      simp only [Except.ok.injEq, Prod.mk.injEq] at h
      obtain ⟨rfl, rfl⟩ := h
      refine ⟨[b], b.toNat, rfl, .last b hb, by simp; omega, rfl, ?_⟩
      by_cases hi9 : i = 9
      · subst hi9
        have : b.toNat ≤ 1 := by omega
        have : (128 : Nat) ^ 9 = 2 ^ 63 := by decide
        rw [this]
        omega
      · have h1 : i ≤ 8 := by omega
        have h2 : (128 : Nat) ^ i ≤ 128 ^ 8 := Nat.pow_le_pow_right (by decide) h1
        have h3 : (128 : Nat) ^ 8 = 2 ^ 56 := by decide
        have h4 : b.toNat * 128 ^ i ≤ 127 * 2 ^ 56 := Nat.mul_le_mul (by omega) (by omega)
        omega
    · rename_i hb
      obtain ⟨p, w, rfl, hp, hl, rfl, hw⟩ := uvarint_form bs (i + 1) _ v r (by omega) h
      refine ⟨b :: p, b.toNat - 128 + 128 * w, rfl, .more b p w (by omega) hp, by simp; omega, ?_, ?_⟩
      · rw [Nat.pow_succ, Nat.add_mul, Nat.add_assoc, Nat.mul_comm 128 w, Nat.mul_assoc w 128, Nat.mul_comm 128 (128 ^ i)]
      · have hbl : b.toNat < 256 := UInt8.toNat_lt b
        have hne : p.length ≠ 0 := fun e => base128_ne hp (List.eq_nil_of_length_eq_zero e)
        have hi8 : i ≤ 8 := by omega
        have hpow : (128 : Nat) ^ (i + 1) * 128 ^ (8 - i) = 2 ^ 63 := by
          rw [← Nat.pow_add]
          have : i + 1 + (8 - i) = 9 := by omega
          rw [this]
        -- w * 128^(i+1) is a multiple of 128^(i+1) below 2^64, which is itself a multiple
        have hdvd : (2 : Nat) ^ 64 = 128 ^ (i + 1) * (2 * 128 ^ (8 - i)) := by
          rw [Nat.mul_left_comm, hpow]
        have hlt : w < 2 * 128 ^ (8 - i) := by
          rw [hdvd, Nat.mul_comm w] at hw
          exact Nat.lt_of_mul_lt_mul_left hw
        have hle : w + 1 ≤ 2 * 128 ^ (8 - i) := hlt
        have h5 : (b.toNat - 128 + 128 * w) * 128 ^ i < 128 ^ (i + 1) * (w + 1) := by
          have h6 : b.toNat - 128 + 128 * w < 128 * (w + 1) := by omega
          have h7 : (128 : Nat) ^ (i + 1) * (w + 1) = 128 * (w + 1) * 128 ^ i := by
            rw [Nat.pow_succ, Nat.mul_comm (128 ^ i) 128, Nat.mul_assoc, Nat.mul_comm (128 ^ i), ← Nat.mul_assoc]
          rw [h7]
          exact Nat.mul_lt_mul_of_pos_right h6 (Nat.pow_pos (by decide))
        refine Nat.lt_of_lt_of_le h5 ?_
        rw [hdvd]
        exact Nat.mul_le_mul_left _ hle

theorem uvarint_of_form {p : Bytes} {w : Nat} (h : Base128 p w) : ∀ (i acc : Nat) (r : Bytes), p.length + i ≤ 10 →
    w * 128 ^ i < 2 ^ 64 → uvarint i acc (p ++ r) = .ok (acc + w * 128 ^ i, r) := by
  induction h with
  | last b hb =>
    intro i acc r hl hw
    simp only [List.length_singleton] at hl
    simp only [List.cons_append, List.nil_append, uvarint]
    rw [if_neg (by omega), if_pos hb, if_neg]
    rintro ⟨rfl, h1⟩
    have : (128 : Nat) ^ 9 = 2 ^ 63 := by decide
    rw [this] at hw
    omega
  | more b p v hb _ ih =>
    intro i acc r hl hw
    simp only [List.length_cons] at hl
    simp only [List.cons_append, uvarint]
    rw [if_neg (by omega), if_neg (by omega)]
    have e : (b.toNat - 128 + 128 * v) * 128 ^ i = (b.toNat - 128) * 128 ^ i + v * 128 ^ (i + 1) := by
      rw [Nat.pow_succ, Nat.add_mul, Nat.mul_comm 128 v, Nat.mul_assoc v 128, Nat.mul_comm 128 (128 ^ i)]
    rw [e] at hw ⊢
    rw [ih (i + 1) _ r (by omega) (by omega), Nat.add_assoc]

theorem getN64_iff (c : Bytes) (v : Nat) (r : Bytes) : getN64 c = .ok (v, r) ↔ ∃ p, c = p ++ r ∧ Num64 p v := by
  constructor
  · intro h
    obtain ⟨p, w, hc, hp, hl, hv, hw⟩ := uvarint_form c 0 0 v r (by decide) h
    simp only [Nat.pow_zero, Nat.mul_one, Nat.zero_add] at hv hw
    subst hv
    exact ⟨p, hc, hp, by omega, hw⟩
  · rintro ⟨p, rfl, hp, hl, hv⟩
    have := uvarint_of_form hp 0 0 r (by omega) (by simpa using hv)
    simpa [getN64] using this

theorem getN8_iff (c : Bytes) (v : Nat) (r : Bytes) : getN8 c = .ok (v, r) ↔ ∃ p, c = p ++ r ∧ Num8 p v := by
  constructor
  · intro h
    match c, h with
    | [], h => simp [getN8] at h
    | [b], h =>
      simp only [getN8] at h
      split at h
      · rename_i hb
        simp only [Except.ok.injEq, Prod.mk.injEq] at h
        obtain ⟨rfl, rfl⟩ := h
        exact ⟨[b], rfl, .last b hb, .inl rfl⟩
      · simp at h
    | b :: b1 :: bs, h =>
      simp only [getN8] at h
      split at h
      · rename_i hb
        simp only [Except.ok.injEq, Prod.mk.injEq] at h
        obtain ⟨rfl, rfl⟩ := h
        exact ⟨[b], rfl, .last b hb, .inl rfl⟩
      · rename_i hb
        split at h
        · rename_i h1
          simp only [Except.ok.injEq, Prod.mk.injEq] at h
          obtain ⟨rfl, rfl⟩ := h
          subst h1
          have hbl : b.toNat < 256 := UInt8.toNat_lt b
          have := Base128.more b [1] 1 (by omega) (.last 1 (by decide))
          have e : b.toNat - 128 + 128 * 1 = b.toNat := by omega
          rw [e] at this
          exact ⟨[b, 1], rfl, this, .inr ⟨rfl, by omega, hbl⟩⟩
        · simp at h
  · rintro ⟨p, rfl, hp, hs⟩
    cases hp with
    | last b hb =>
      simp [getN8, hb]
    | more b q w hb hq =>
      cases hq with
      | last c hc =>
        rcases hs with h | ⟨_, h1, h2⟩
        · simp at h
        · have hbl : b.toNat < 256 := UInt8.toNat_lt b
          have hc1 : c.toNat = 1 := by omega
          have hc' : c = 1 := UInt8.toNat_inj.mp (by simpa using hc1)
          subst hc'
          have e : b.toNat - 128 + 128 * (1 : UInt8).toNat = b.toNat := by
            have : (1 : UInt8).toNat = 1 := rfl
            omega
          rw [e]
          simp only [List.cons_append, List.nil_append, getN8]
          rw [if_neg (by omega)]
          simp
      | more c q2 w2 hc hq2 =>
        have := base128_ne hq2
        have : q2.length ≠ 0 := fun e => this (List.eq_nil_of_length_eq_zero e)
        rcases hs with h | ⟨h, _⟩
        · simp at h
        · simp only [List.length_cons] at h; omega

theorem getBlock_iff (c d r : Bytes) : getBlock c = .ok (d, r) ↔ ∃ p, c = p ++ r ∧ Block p d := by
  unfold getBlock
  constructor
  · intro h
    split at h
    · simp at h
    · rename_i n c' hn
      obtain ⟨q, rfl, hq⟩ := (getN64_iff _ _ _).mp hn
      simp only [getBytes] at h
      split at h
      · rename_i hlen
        simp only [Except.ok.injEq, Prod.mk.injEq] at h
        obtain ⟨rfl, rfl⟩ := h
        refine ⟨q ++ c'.take n, by simp, q, ?_, rfl⟩
        simpa [Nat.min_eq_left hlen] using hq
      · simp at h
  · rintro ⟨p, rfl, q, hq, rfl⟩
    rw [List.append_assoc, (getN64_iff _ _ _).mpr ⟨q, rfl, hq⟩]
    simp [getBytes]

theorem readSeals_iff : ∀ (n : Nat) (c : Bytes) (ks : List Seal) (r : Bytes),
    readSeals n c = .ok (ks, r) ↔ ks.length = n ∧ ∃ p, c = p ++ r ∧ SealList p ks
  | 0, c, ks, r => by
    simp only [readSeals, Except.ok.injEq, Prod.mk.injEq]
    constructor
    · rintro ⟨rfl, rfl⟩
      exact ⟨rfl, [], rfl, .nil⟩
    · rintro ⟨h, p, rfl, hp⟩
      cases hp with
      | nil => exact ⟨rfl, rfl⟩
      | cons => simp at h
  | n + 1, c, ks, r => by
    simp only [readSeals, bind_ok_iff]
    constructor
    · rintro ⟨⟨id, c1⟩, x1, ⟨value, c2⟩, x2, ⟨rest, c3⟩, x3, h⟩
      simp only [Except.ok.injEq, Prod.mk.injEq] at h x1 x2 x3
      obtain ⟨rfl, rfl⟩ := h
      obtain ⟨p1, rfl, h1⟩ := (getBlock_iff _ _ _).mp x1
      obtain ⟨p2, rfl, h2⟩ := (getBlock_iff _ _ _).mp x2
      obtain ⟨hl, p3, rfl, h3⟩ := (readSeals_iff n _ _ _).mp x3
      exact ⟨by simp [hl], p1 ++ p2 ++ p3, by simp, .cons p1 p2 p3 _ _ rfl h1 h2 h3⟩
    · rintro ⟨hl, p, rfl, hp⟩
      cases hp with
      | nil => simp at hl
      | cons a b q s ss hs ha hb hq =>
        refine ⟨(s.id, b ++ (q ++ r)), (getBlock_iff _ _ _).mpr ⟨a, by simp, ha⟩,
          (s.value, q ++ r), (getBlock_iff _ _ _).mpr ⟨b, rfl, hb⟩,
          (ss, r), (readSeals_iff n _ _ _).mpr ⟨by simpa using hl, q, rfl, hq⟩, ?_⟩
        cases s
        simp only at hs
        subst hs
        rfl

theorem bit_set (flags k : Nat) : decide (flags &&& 2 ^ k > 0) = flags.testBit k := by
  have e : flags &&& 2 ^ k = if flags.testBit k then 2 ^ k else 0 := by
    apply Nat.eq_of_testBit_eq
    intro i
    rw [Nat.testBit_and, Nat.testBit_two_pow]
    by_cases hi : k = i
    · subst hi
      cases flags.testBit k <;> simp [Nat.testBit_two_pow]
    · cases flags.testBit k <;> simp [Nat.testBit_two_pow, hi]
  rw [e]
  cases flags.testBit k
  · simp
  · simp [Nat.pow_pos]

/-- C03. The parser accepts exactly the inputs that begin with a string of the grammar, and its result is the letter
the grammar assigns to that string and what follows it. In particular a number of more than ten bytes or beyond 64
bits, a small number beyond 255 or written in more bytes than needed, a length beyond the end of the input, and any
version but 1 make it fail, wherever they stand. -/
theorem wire_parse_iff (c : Bytes) (l : Letter) (rest : Bytes) :
    letterFromWire c = .ok (l, rest) ↔ ∃ p, c = p ++ rest ∧ WireForm p l := by
  have b0 : ∀ f : Nat, decide (f &&& 1 > 0) = f.testBit 0 := fun f => bit_set f 0
  have b1 : ∀ f : Nat, decide (f &&& 2 > 0) = f.testBit 1 := fun f => bit_set f 1
  have b2 : ∀ f : Nat, decide (f &&& 4 > 0) = f.testBit 2 := fun f => bit_set f 2
  simp only [letterFromWire, bind_ok_iff, b0, b1, b2]
  constructor
  · rintro ⟨⟨wv, c1⟩, x1, h⟩
    obtain ⟨p1, rfl, h1⟩ := (getN8_iff _ _ _).mp x1
    simp only [] at h
    split at h
    · simp at h
    rename_i hwv
    have hwv : wv = 1 := Decidable.not_not.mp hwv
    subst hwv
    simp only [bind_ok_iff] at h
    obtain ⟨⟨flags, c2⟩, x2, ⟨⟨ver, suite⟩, c3⟩, x3, ⟨keys, c4⟩, x4, ⟨nonce, c5⟩, x5, ⟨data, c6⟩, x6, ⟨mac, c7⟩, x7, h⟩ := h
    simp only [] at x2 x3 x4 x5 x6 x7 h
    obtain ⟨p2, rfl, h2⟩ := (getN64_iff _ _ _).mp x2
    obtain ⟨p5, rfl, h5⟩ := (getBlock_iff _ _ _).mp x5
    obtain ⟨p6, rfl, h6⟩ := (getBlock_iff _ _ _).mp x6
    obtain ⟨p7, rfl, h7⟩ := (getBlock_iff _ _ _).mp x7
    simp only [Except.ok.injEq, Prod.mk.injEq] at h
    obtain ⟨rfl, rfl⟩ := h
    have hsetup : ∃ q, c2 = q ++ c3 ∧ (if flags.testBit 0 then SetupPart q ver suite else q = [] ∧ ver = 0 ∧ suite = []) := by
      revert x3
      cases flags.testBit 0
      · intro x3
        simp only [readWireSetup, Except.ok.injEq, Prod.mk.injEq] at x3
        obtain ⟨⟨rfl, rfl⟩, rfl⟩ := x3
        exact ⟨[], rfl, by simp⟩
      · intro x3
        simp only [readWireSetup, bind_ok_iff] at x3
        obtain ⟨⟨n, d1⟩, y1, ⟨s, d2⟩, y2, x3⟩ := x3
        simp only [Except.ok.injEq, Prod.mk.injEq] at x3 y1 y2
        obtain ⟨⟨rfl, rfl⟩, rfl⟩ := x3
        have hn := getN8_lt y1
        obtain ⟨q1, rfl, g1⟩ := (getN8_iff _ _ _).mp y1
        obtain ⟨q2, rfl, g2⟩ := (getBlock_iff _ _ _).mp y2
        refine ⟨q1 ++ q2, by simp, ?_⟩
        rw [if_pos rfl]
        refine ⟨q1, q2, ?_, g2, rfl⟩
        have : (UInt8.ofNat n).toNat = n := by simpa using hn
        rwa [this]
    obtain ⟨p3, rfl, h3⟩ := hsetup
    have hkeys : ∃ q, c3 = q ++ (p5 ++ (p6 ++ (p7 ++ c7))) ∧ (if flags.testBit 1 then KeysPart q keys else q = [] ∧ keys = []) := by
      revert x4
      cases flags.testBit 1
      · intro x4
        simp only [readWireKeys, Except.ok.injEq, Prod.mk.injEq] at x4
        obtain ⟨rfl, rfl⟩ := x4
        exact ⟨[], rfl, by simp⟩
      · intro x4
        simp only [readWireKeys, bind_ok_iff] at x4
        obtain ⟨⟨n, d1⟩, y1, x4⟩ := x4
        simp only [] at x4 y1
        obtain ⟨q1, rfl, g1⟩ := (getN8_iff _ _ _).mp y1
        obtain ⟨rfl, q2, rfl, g2⟩ := (readSeals_iff _ _ _ _).mp x4
        refine ⟨q1 ++ q2, by simp, ?_⟩
        rw [if_pos rfl]
        exact ⟨q1, q2, g1, g2, rfl⟩
    obtain ⟨p4, rfl, h4⟩ := hkeys
    exact ⟨p1 ++ p2 ++ p3 ++ p4 ++ p5 ++ p6 ++ p7, by simp, rfl,
      p1, p2, p3, p4, p5, p6, p7, flags, rfl, h1, h2, h3, h4, rfl, h5, h6, h7⟩
  · rintro ⟨p, rfl, hsig, p1, p2, p3, p4, p5, p6, p7, flags, rfl, h1, h2, h3, h4, hak, h5, h6, h7⟩
    refine ⟨(1, p2 ++ (p3 ++ (p4 ++ (p5 ++ (p6 ++ (p7 ++ rest)))))), (getN8_iff _ _ _).mpr ⟨p1, by simp, h1⟩, ?_⟩
    simp only [ne_eq, not_true_eq_false, if_false, bind_ok_iff]
    refine ⟨(flags, p3 ++ (p4 ++ (p5 ++ (p6 ++ (p7 ++ rest))))), (getN64_iff _ _ _).mpr ⟨p2, rfl, h2⟩,
      ((l.version, l.suiteID), p4 ++ (p5 ++ (p6 ++ (p7 ++ rest)))), ?_,
      (l.keys, p5 ++ (p6 ++ (p7 ++ rest))), ?_,
      (l.nonce, p6 ++ (p7 ++ rest)), (getBlock_iff _ _ _).mpr ⟨p5, rfl, h5⟩,
      (l.data, p7 ++ rest), (getBlock_iff _ _ _).mpr ⟨p6, rfl, h6⟩,
      (l.mac, rest), (getBlock_iff _ _ _).mpr ⟨p7, rfl, h7⟩, ?_⟩
    · revert h3
      cases flags.testBit 0
      · intro h3
        simp only [Bool.false_eq_true, if_false] at h3
        obtain ⟨rfl, hv, hs⟩ := h3
        simp [readWireSetup, hv, hs]
      · intro h3
        simp only [if_true] at h3
        obtain ⟨a, b, ha, hb, rfl⟩ := h3
        simp only [readWireSetup, bind_ok_iff]
        refine ⟨(l.version.toNat, b ++ (p4 ++ (p5 ++ (p6 ++ (p7 ++ rest))))), (getN8_iff _ _ _).mpr ⟨a, by simp, ha⟩,
          (l.suiteID, p4 ++ (p5 ++ (p6 ++ (p7 ++ rest)))), (getBlock_iff _ _ _).mpr ⟨b, rfl, hb⟩, by simp⟩
    · revert h4
      cases flags.testBit 1
      · intro h4
        simp only [Bool.false_eq_true, if_false] at h4
        obtain ⟨rfl, hk⟩ := h4
        simp [readWireKeys, hk]
      · intro h4
        simp only [if_true] at h4
        obtain ⟨a, b, ha, hb, rfl⟩ := h4
        simp only [readWireKeys, bind_ok_iff]
        exact ⟨(l.keys.length, b ++ (p5 ++ (p6 ++ (p7 ++ rest)))), (getN8_iff _ _ _).mpr ⟨a, by simp, ha⟩,
          (readSeals_iff _ _ _ _).mpr ⟨rfl, b, rfl, hb⟩⟩
    · cases l
      simp only at hsig hak
      subst hsig hak
      rfl

/-- The grammar is not empty: an applying letter with one seal. -/
example : ∃ l, WireForm [1, 7, 1, 1, 65, 1, 1, 97, 2, 5, 6, 0, 1, 9, 0] l ∧
    l.suiteID = [65] ∧ l.keys = [{ id := [97], value := [5, 6] }] ∧ l.data = [9] ∧ l.applyKeys = true := by
  have h : letterFromWire [1, 7, 1, 1, 65, 1, 1, 97, 2, 5, 6, 0, 1, 9, 0] =
      .ok ({ version := 1, suiteID := [65], nonce := [], keys := [{ id := [97], value := [5, 6] }], data := [9],
             mac := [], applyKeys := true }, []) := by rfl
  obtain ⟨p, hp, hw⟩ := (wire_parse_iff _ _ _).mp h
  simp only [List.append_nil] at hp
  subst hp
  exact ⟨_, hw, rfl, rfl, rfl, rfl⟩

end Jess
