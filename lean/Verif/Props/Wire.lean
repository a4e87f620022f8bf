import Verif.Model.Letter
import Verif.Lemmas.Container
import Verif.Lemmas.Basic

/-!
# C01–C04: wire and file format of letters
-/

namespace Jess

/-! ## Specification

What the wire format documentation (letter-wire.go:9-26) promises to transport. -/

/-- All byte fields of the letter fit into memory of a 64 bit machine, i.e. lengths are 64 bit numbers. Every Go
value satisfies this; it is needed because Lean lists may be longer. -/
def Letter.Sized (l : Letter) : Prop :=
  l.suiteID.length < 2 ^ 64 ∧ l.nonce.length < 2 ^ 64 ∧ l.data.length < 2 ^ 64 ∧ l.mac.length < 2 ^ 64 ∧
  (∀ s ∈ l.keys, s.scheme.length < 2 ^ 64 ∧ s.id.length < 2 ^ 64 ∧ s.value.length < 2 ^ 64) ∧
  l.keys.length < 2 ^ 64

/-- What remains of a seal on the wire: the scheme is not transported. -/
def Seal.wireView (s : Seal) : Seal := { s with scheme := [] }

/-- What remains of a letter after transport over the wire: seal schemes and signatures are not transported, and
the suite is only transported with a version ("setup message"). -/
def Letter.wireView (l : Letter) : Letter :=
  { l with suiteID := if l.version > 0 then l.suiteID else [], keys := l.keys.map Seal.wireView, signatures := [] }

theorem readSeals_wireSeals : ∀ (ks : List Seal) (r : Bytes),
    (∀ s ∈ ks, s.scheme.length < 2 ^ 64 ∧ s.id.length < 2 ^ 64 ∧ s.value.length < 2 ^ 64) →
    readSeals ks.length (wireSeals ks ++ r) = .ok (ks.map Seal.wireView, r)
  | [], r, _ => by simp [readSeals, wireSeals]
  | k :: ks, r, h => by
    have hk := h k (by simp)
    have ih := readSeals_wireSeals ks r (fun s hs => h s (by simp [hs]))
    simp only [List.length_cons, readSeals, wireSeals, List.append_assoc]
    rw [getBlock_block hk.2.1]
    simp only [bind, Except.bind]
    rw [getBlock_block hk.2.2]
    simp only []
    rw [ih]
    simp [Seal.wireView]

theorem wireFlags_lt (l : Letter) : l.wireFlags < 2 ^ 64 := by
  unfold Letter.wireFlags; repeat' split
  all_goals decide

theorem wireFlags_bits (l : Letter) :
    decide (l.wireFlags &&& 1 > 0) = decide (l.version > 0) ∧
    decide (l.wireFlags &&& 2 > 0) = decide (l.keys.length > 0) ∧
    decide (l.wireFlags &&& 4 > 0) = l.applyKeys := by
  unfold Letter.wireFlags
  by_cases a : l.version > 0 <;> by_cases c : l.keys.length > 0 <;> cases e : l.applyKeys <;>
    simp only [a, c, if_true, if_false] <;> simp <;> decide

theorem version_zero {v : UInt8} (h : ¬ v > 0) : v = 0 := by
  apply UInt8.toNat_inj.mp
  have : ¬ (0 < v.toNat) := by simpa [UInt8.lt_iff_toNat_lt] using h
  simpa using this

/-- C01. A letter with at most 255 seals survives serialization to the wire format: everything the format
transports is read back, exactly the serialized bytes are consumed, and whatever follows is left alone. -/
theorem wire_roundtrip (l : Letter) (rest : Bytes) (hs : l.Sized) (hk : l.keys.length ≤ 255) :
    letterFromWire (l.toWire ++ rest) = .ok (l.wireView, rest) := by
  obtain ⟨h1, h2, h3, h4, h5, h6⟩ := hs
  have hv : l.version.toNat < 256 := l.version.toNat_lt
  obtain ⟨f1, f2, f4⟩ := wireFlags_bits l
  simp only [letterFromWire, Letter.toWire, List.append_assoc]
  rw [getN8_pack64 (by omega)]
  simp only [ok_bind, ne_eq, not_true_eq_false, if_false]
  rw [getN64_pack64 (wireFlags_lt l)]
  simp only [ok_bind, f1, f2, f4]
  have setup : ∀ r, readWireSetup (decide (l.version > 0))
      ((if l.version > 0 then pack64 l.version.toNat ++ block l.suiteID else []) ++ r) =
      .ok ((l.version, if l.version > 0 then l.suiteID else []), r) := by
    intro r
    by_cases h : l.version > 0
    · simp only [h, decide_true, if_true, readWireSetup, List.append_assoc]
      rw [getN8_pack64 hv, ok_bind]
      simp only []
      rw [getBlock_block h1, ok_bind]
      simp
    · simp [readWireSetup, version_zero h]
  have keys : ∀ r, readWireKeys (decide (l.keys.length > 0))
      ((if l.keys.length > 0 then pack64 l.keys.length ++ wireSeals l.keys else []) ++ r) =
      .ok (l.keys.map Seal.wireView, r) := by
    intro r
    by_cases h : l.keys.length > 0
    · simp only [h, decide_true, if_true, readWireKeys, List.append_assoc]
      rw [getN8_pack64 (by omega), ok_bind]
      simp only []
      rw [readSeals_wireSeals _ _ h5]
    · have hk0 : l.keys = [] := List.eq_nil_of_length_eq_zero (by omega)
      simp [readWireKeys, hk0]
  rw [setup, ok_bind]; simp only []
  rw [keys, ok_bind]; simp only []
  rw [getBlock_block h2, ok_bind]; simp only []
  rw [getBlock_block h3, ok_bind]; simp only []
  rw [getBlock_block h4, ok_bind]
  simp [Letter.wireView]

/-- A letter that uses the wire format's fields only is transported unchanged. -/
theorem wire_roundtrip_exact (l : Letter) (rest : Bytes) (hs : l.Sized) (hk : l.keys.length ≤ 255)
    (hsig : l.signatures = []) (hscheme : ∀ s ∈ l.keys, s.scheme = [])
    (hsuite : l.version = 0 → l.suiteID = []) :
    letterFromWire (l.toWire ++ rest) = .ok (l, rest) := by
  rw [wire_roundtrip l rest hs hk]
  have e : l.wireView = l := by
    have hkeys : l.keys.map Seal.wireView = l.keys := by
      conv => rhs; rw [← List.map_id l.keys]
      apply List.map_congr_left
      intro s hs
      have := hscheme s hs
      cases s; simp_all [Seal.wireView]
    have hv : (if l.version > 0 then l.suiteID else []) = l.suiteID := by
      split
      · rfl
      · rename_i hver
        have hv0 : l.version = 0 := by
          apply UInt8.toNat_inj.mp
          have : ¬ (0 < l.version.toNat) := by simpa [UInt8.lt_iff_toNat_lt] using hver
          simpa using this
        exact (hsuite hv0).symm
    cases l; simp_all [Letter.wireView]
  rw [e]

/-- The other half of C01: a letter with more than 255 seals can be serialized, but its serialization is always
rejected by the parser (the seal count is written as a 64 bit and read as an 8 bit number). -/
theorem wire_too_many_seals (l : Letter) (rest : Bytes) (hs : l.Sized) (hk : 255 < l.keys.length) :
    letterFromWire (l.toWire ++ rest) = .error .overflow := by
  obtain ⟨h1, h2, h3, h4, h5, h6⟩ := hs
  have hv : l.version.toNat < 256 := l.version.toNat_lt
  have hkeys : l.keys.length > 0 := by omega
  obtain ⟨f1, f2, f4⟩ := wireFlags_bits l
  simp only [letterFromWire, Letter.toWire, List.append_assoc]
  rw [getN8_pack64 (by omega)]
  simp only [ok_bind, ne_eq, not_true_eq_false, if_false]
  rw [getN64_pack64 (wireFlags_lt l)]
  simp only [ok_bind, f1, f2, f4]
  have setup : ∀ r, readWireSetup (decide (l.version > 0))
      ((if l.version > 0 then pack64 l.version.toNat ++ block l.suiteID else []) ++ r) =
      .ok ((l.version, if l.version > 0 then l.suiteID else []), r) := by
    intro r
    by_cases h : l.version > 0
    · simp only [h, decide_true, if_true, readWireSetup, List.append_assoc]
      rw [getN8_pack64 hv, ok_bind]
      simp only []
      rw [getBlock_block h1, ok_bind]
      simp
    · simp [readWireSetup, version_zero h]
  rw [setup, ok_bind]
  simp only [hkeys, if_true, decide_true, readWireKeys, List.append_assoc]
  rw [getN8_pack64_big (by omega), error_bind, error_bind]

theorem wireSeals_append_inj : ∀ (ks ls : List Seal) (r t : Bytes), ks.length = ls.length →
    (∀ s ∈ ks, s.scheme.length < 2 ^ 64 ∧ s.id.length < 2 ^ 64 ∧ s.value.length < 2 ^ 64) →
    (∀ s ∈ ls, s.scheme.length < 2 ^ 64 ∧ s.id.length < 2 ^ 64 ∧ s.value.length < 2 ^ 64) →
    wireSeals ks ++ r = wireSeals ls ++ t → ks.map Seal.wireView = ls.map Seal.wireView ∧ r = t
  | [], [], r, t, _, _, _, h => by simpa [wireSeals] using h
  | k :: ks, l :: ls, r, t, hlen, hk, hl, h => by
    simp only [wireSeals, List.append_assoc] at h
    have k1 := hk k (by simp)
    have l1 := hl l (by simp)
    obtain ⟨e1, h⟩ := block_append_inj k1.2.1 l1.2.1 h
    obtain ⟨e2, h⟩ := block_append_inj k1.2.2 l1.2.2 h
    obtain ⟨e3, h⟩ := wireSeals_append_inj ks ls r t (by simpa using hlen)
      (fun s hs => hk s (by simp [hs])) (fun s hs => hl s (by simp [hs])) h
    simp [Seal.wireView, e1, e2, h] at e3 ⊢
    exact e3

/-- C02. Two letters (with any number of seals) whose wire encodings agree - even as prefixes of longer streams -
agree on everything the wire format transports. -/
theorem wire_unambiguous (l m : Letter) (r t : Bytes) (hl : l.Sized) (hm : m.Sized)
    (h : l.toWire ++ r = m.toWire ++ t) : l.wireView = m.wireView ∧ r = t := by
  obtain ⟨h1, h2, h3, h4, h5, h6⟩ := hl
  obtain ⟨g1, g2, g3, g4, g5, g6⟩ := hm
  have hlv := l.version.toNat_lt
  have hmv := m.version.toNat_lt
  simp only [Letter.toWire, List.append_assoc] at h
  obtain ⟨_, h⟩ := pack64_append_inj (by omega) (by omega) h
  obtain ⟨hf, h⟩ := pack64_append_inj (wireFlags_lt l) (wireFlags_lt m) h
  have ff : (l.version > 0 ↔ m.version > 0) ∧ (l.keys.length > 0 ↔ m.keys.length > 0) ∧ l.applyKeys = m.applyKeys := by
    unfold Letter.wireFlags at hf
    by_cases a : l.version > 0 <;> by_cases b : m.version > 0 <;>
    by_cases c : l.keys.length > 0 <;> by_cases d : m.keys.length > 0 <;>
    cases e : l.applyKeys <;> cases f : m.applyKeys <;>
    simp only [a, b, c, d, e, f, if_true, if_false] at hf ⊢ <;> simp_all
  obtain ⟨fv, fk, fa⟩ := ff
  -- version and suite
  have step1 : l.version = m.version ∧ (if l.version > 0 then l.suiteID else []) = (if m.version > 0 then m.suiteID else []) ∧
      (if l.keys.length > 0 then pack64 l.keys.length ++ wireSeals l.keys else []) ++ (block l.nonce ++ (block l.data ++ (block l.mac ++ r))) =
      (if m.keys.length > 0 then pack64 m.keys.length ++ wireSeals m.keys else []) ++ (block m.nonce ++ (block m.data ++ (block m.mac ++ t))) := by
    by_cases a : l.version > 0
    · have b := fv.mp a
      simp only [a, b, if_true, List.append_assoc] at h ⊢
      obtain ⟨e1, h⟩ := pack64_append_inj (by omega) (by omega) h
      obtain ⟨e2, h⟩ := block_append_inj h1 g1 h
      exact ⟨UInt8.toNat_inj.mp e1, e2, h⟩
    · have b : ¬ m.version > 0 := fun hh => a (fv.mpr hh)
      simp only [a, b, if_false, List.nil_append] at h ⊢
      have z : ∀ v : UInt8, ¬ v > 0 → v = 0 := by
        intro v hv
        apply UInt8.toNat_inj.mp
        have : ¬ (0 < v.toNat) := by simpa [UInt8.lt_iff_toNat_lt] using hv
        simpa using this
      exact ⟨by rw [z _ a, z _ b], trivial, h⟩
  obtain ⟨ev, es, h⟩ := step1
  have step2 : l.keys.map Seal.wireView = m.keys.map Seal.wireView ∧
      block l.nonce ++ (block l.data ++ (block l.mac ++ r)) = block m.nonce ++ (block m.data ++ (block m.mac ++ t)) := by
    by_cases a : l.keys.length > 0
    · have b := fk.mp a
      simp only [a, b, if_true, List.append_assoc] at h
      obtain ⟨e1, h⟩ := pack64_append_inj h6 g6 h
      exact wireSeals_append_inj _ _ _ _ e1 h5 g5 h
    · have b : ¬ m.keys.length > 0 := fun hh => a (fk.mpr hh)
      simp only [a, b, if_false, List.nil_append] at h
      have la : l.keys = [] := List.eq_nil_of_length_eq_zero (by omega)
      have lb : m.keys = [] := List.eq_nil_of_length_eq_zero (by omega)
      exact ⟨by rw [la, lb], h⟩
  obtain ⟨ek, h⟩ := step2
  obtain ⟨en, h⟩ := block_append_inj h2 g2 h
  obtain ⟨ed, h⟩ := block_append_inj h3 g3 h
  obtain ⟨em, h⟩ := block_append_inj h4 g4 h
  refine ⟨?_, h⟩
  simp only [Letter.wireView, ev] at es ⊢
  simp [ek, en, ed, em, fa, es]

/-! ## C03: the parser on arbitrary input -/

theorem readSeals_spec : ∀ (n : Nat) (c : Bytes) (ks : List Seal) (c' : Bytes), readSeals n c = .ok (ks, c') →
    ks.length = n ∧ ∃ p, c = p ++ c' ∧ 2 * n ≤ p.length ∧
      (∀ s ∈ ks, s.scheme = [] ∧ s.id <:+: p ∧ s.value <:+: p) ∧
      (ks.map (fun s => s.id.length + s.value.length)).sum + 2 * n ≤ p.length
  | 0, c, ks, c', h => by
    simp [readSeals] at h; obtain ⟨rfl, rfl⟩ := h
    exact ⟨rfl, [], by simp⟩
  | n + 1, c, ks, c', h => by
    simp only [readSeals, bind_ok_iff] at h
    obtain ⟨⟨id, c1⟩, x1, ⟨value, c2⟩, x2, ⟨rest, c3⟩, x3, h⟩ := h
    simp only [Except.ok.injEq, Prod.mk.injEq] at h x1 x2 x3
    obtain ⟨rfl, rfl⟩ := h
    obtain ⟨p1, hp1, rfl⟩ := getBlock_suffix x1
    obtain ⟨p2, hp2, rfl⟩ := getBlock_suffix x2
    obtain ⟨hl, p3, rfl, hp3, hs, hsum⟩ := readSeals_spec n _ _ _ x3
    refine ⟨by simp [hl], p1 ++ id ++ p2 ++ value ++ p3, by simp, ?_, ?_, ?_⟩
    · have := List.length_pos_iff.mpr hp1
      have := List.length_pos_iff.mpr hp2
      simp; omega
    · intro s hs'
      rcases List.mem_cons.mp hs' with rfl | hs'
      · refine ⟨rfl, ⟨p1, p2 ++ value ++ p3, by simp⟩, ⟨p1 ++ id ++ p2, p3, by simp⟩⟩
      · obtain ⟨a, ⟨u, v, huv⟩, ⟨w, x, hwx⟩⟩ := hs s hs'
        refine ⟨a, ⟨p1 ++ id ++ p2 ++ value ++ u, v, by simp [← huv]⟩, ⟨p1 ++ id ++ p2 ++ value ++ w, x, by simp [← hwx]⟩⟩
    · have := List.length_pos_iff.mpr hp1
      have := List.length_pos_iff.mpr hp2
      simp only [List.map_cons, List.sum_cons, List.length_append]
      omega

/-- C03. Whatever bytes are given to the parser: if it succeeds, it consumed a prefix of the input, the letter has
at most 255 seals, all of its contents are slices of the consumed prefix (so they are no larger than it), and nothing
but the documented fields is set. -/
theorem wire_parse_sound (c : Bytes) (l : Letter) (rest : Bytes) (h : letterFromWire c = .ok (l, rest)) :
    ∃ p, c = p ++ rest ∧ p ≠ [] ∧ l.keys.length ≤ 255 ∧ 2 * l.keys.length ≤ p.length ∧
      l.suiteID <:+: p ∧ l.nonce <:+: p ∧ l.data <:+: p ∧ l.mac <:+: p ∧
      (∀ s ∈ l.keys, s.scheme = [] ∧ s.id <:+: p ∧ s.value <:+: p) ∧ l.signatures = [] ∧
      l.suiteID.length + l.nonce.length + l.data.length + l.mac.length +
        (l.keys.map (fun s => s.id.length + s.value.length)).sum ≤ p.length := by
  simp only [letterFromWire, bind_ok_iff] at h
  obtain ⟨⟨wv, c1⟩, x1, h⟩ := h
  obtain ⟨p1, hp1, rfl⟩ := getN8_suffix x1
  simp only [] at h
  split at h
  · simp at h
  simp only [bind_ok_iff] at h
  obtain ⟨⟨flags, c2⟩, x2, ⟨⟨ver, suite⟩, c3⟩, x3, ⟨keys, c4⟩, x4, ⟨nonce, c5⟩, x5, ⟨data, c6⟩, x6, ⟨mac, c7⟩, x7, h⟩ := h
  simp only [] at x2 x3 x4 x5 x6 x7 h
  obtain ⟨p2, hp2, rfl⟩ := getN64_suffix x2
  have hsetup : ∃ q, c2 = q ++ suite ++ c3 := by
    revert x3
    cases decide (flags &&& 1 > 0)
    · intro x3
      simp only [readWireSetup, Except.ok.injEq, Prod.mk.injEq] at x3
      obtain ⟨⟨_, rfl⟩, rfl⟩ := x3
      exact ⟨[], by simp⟩
    · intro x3
      simp only [readWireSetup, bind_ok_iff] at x3
      obtain ⟨⟨n, d1⟩, y1, ⟨s, d2⟩, y2, x3⟩ := x3
      simp only [Except.ok.injEq, Prod.mk.injEq] at x3 y1 y2
      obtain ⟨⟨_, rfl⟩, rfl⟩ := x3
      obtain ⟨q1, _, rfl⟩ := getN8_suffix y1
      obtain ⟨q2, _, rfl⟩ := getBlock_suffix y2
      exact ⟨q1 ++ q2, by simp⟩
  obtain ⟨p3, rfl⟩ := hsetup
  have hkeys : keys.length ≤ 255 ∧ ∃ q, c3 = q ++ c4 ∧ 2 * keys.length ≤ q.length ∧
      (∀ s ∈ keys, s.scheme = [] ∧ s.id <:+: q ∧ s.value <:+: q) ∧
      (keys.map (fun s => s.id.length + s.value.length)).sum ≤ q.length := by
    revert x4
    cases decide (flags &&& 2 > 0)
    · intro x4
      simp only [readWireKeys, Except.ok.injEq, Prod.mk.injEq] at x4
      obtain ⟨rfl, rfl⟩ := x4
      exact ⟨by simp, [], by simp⟩
    · intro x4
      simp only [readWireKeys, bind_ok_iff] at x4
      obtain ⟨⟨n, d1⟩, y1, x4⟩ := x4
      simp only [] at x4 y1
      have hn := getN8_lt y1
      obtain ⟨q1, _, rfl⟩ := getN8_suffix y1
      obtain ⟨hl, q2, rfl, hq, hs, hsum⟩ := readSeals_spec _ _ _ _ x4
      refine ⟨by omega, q1 ++ q2, by simp, by simp; omega, ?_, by simp only [List.length_append]; omega⟩
      intro s hss
      obtain ⟨a, b, c⟩ := hs s hss
      exact ⟨a, b.trans ⟨q1, [], by simp⟩, c.trans ⟨q1, [], by simp⟩⟩
  obtain ⟨hk255, p4, rfl, hp4, hseals, hsum⟩ := hkeys
  obtain ⟨p5, _, rfl⟩ := getBlock_suffix x5
  obtain ⟨p6, _, rfl⟩ := getBlock_suffix x6
  obtain ⟨p7, _, rfl⟩ := getBlock_suffix x7
  simp only [Except.ok.injEq, Prod.mk.injEq] at h
  obtain ⟨rfl, rfl⟩ := h
  refine ⟨p1 ++ p2 ++ p3 ++ suite ++ p4 ++ p5 ++ nonce ++ p6 ++ data ++ p7 ++ mac, by simp, by simp [hp1], hk255,
    by simp only [List.length_append]; omega, ⟨p1 ++ p2 ++ p3, p4 ++ p5 ++ nonce ++ p6 ++ data ++ p7 ++ mac, by simp⟩,
    ⟨p1 ++ p2 ++ p3 ++ suite ++ p4 ++ p5, p6 ++ data ++ p7 ++ mac, by simp⟩,
    ⟨p1 ++ p2 ++ p3 ++ suite ++ p4 ++ p5 ++ nonce ++ p6, p7 ++ mac, by simp⟩,
    ⟨p1 ++ p2 ++ p3 ++ suite ++ p4 ++ p5 ++ nonce ++ p6 ++ data ++ p7, [], by simp⟩, ?_, rfl,
    by simp only [List.length_append]; omega⟩
  intro s hs
  obtain ⟨a, ⟨u, v, huv⟩, ⟨w, x, hwx⟩⟩ := hseals s hs
  exact ⟨a, ⟨p1 ++ p2 ++ p3 ++ suite ++ u, v ++ p5 ++ nonce ++ p6 ++ data ++ p7 ++ mac, by simp [← huv]⟩,
    ⟨p1 ++ p2 ++ p3 ++ suite ++ w, x ++ p5 ++ nonce ++ p6 ++ data ++ p7 ++ mac, by simp [← hwx]⟩⟩

/-- C03. The parser returns an error or a letter for every input and never panics. -/
theorem wire_parse_no_panic (c : Bytes) : (letterFromWire c).noPanic := by
  intro h
  have n8 : ∀ c, getN8 c ≠ .error .panic := by
    intro c; unfold getN8; repeat' split
    all_goals simp
  have u64 : ∀ c i acc, uvarint i acc c ≠ .error .panic := by
    intro c; induction c with
    | nil => intro i acc; simp [uvarint]
    | cons b bs ih =>
      intro i acc; simp only [uvarint]; repeat' split
      all_goals first | exact ih _ _ | simp
  have bl : ∀ c, getBlock c ≠ .error .panic := by
    intro c; unfold getBlock; split
    · rename_i e he; intro hh; simp only [Except.error.injEq] at hh; subst hh; exact u64 _ _ _ he
    · unfold getBytes; split <;> simp
  have rs : ∀ n c, readSeals n c ≠ .error .panic := by
    intro n; induction n with
    | zero => simp [readSeals]
    | succ n ih =>
      intro c
      simp only [readSeals, ne_eq, bind_error_iff, not_or, not_exists, not_and]
      exact ⟨bl _, fun _ _ => ⟨bl _, fun _ _ => ⟨ih _, by simp⟩⟩⟩
  have su : ∀ b c, readWireSetup b c ≠ .error .panic := by
    intro b c; cases b
    · simp [readWireSetup]
    · simp only [readWireSetup, ne_eq, bind_error_iff, not_or, not_exists, not_and]
      exact ⟨n8 _, fun _ _ => ⟨bl _, by simp⟩⟩
  have ky : ∀ b c, readWireKeys b c ≠ .error .panic := by
    intro b c; cases b
    · simp [readWireKeys]
    · simp only [readWireKeys, ne_eq, bind_error_iff, not_or, not_exists, not_and]
      exact ⟨n8 _, fun _ _ => rs _ _⟩
  revert h
  simp only [letterFromWire, bind_error_iff, imp_false, not_or, not_exists, not_and]
  refine ⟨n8 _, fun a _ => ?_⟩
  split
  · simp
  · simp only [bind_error_iff, not_or, not_exists, not_and]
    exact ⟨u64 _ _ _, fun _ _ => ⟨su _ _, fun _ _ => ⟨ky _ _, fun _ _ => ⟨bl _, fun _ _ => ⟨bl _, fun _ _ =>
      ⟨bl _, by simp⟩⟩⟩⟩⟩⟩

/-! ### More data after a letter does not change how it is read -/

theorem uvarint_append (c : Bytes) : ∀ (i acc n : Nat) (r q : Bytes), uvarint i acc c = .ok (n, r) →
    uvarint i acc (c ++ q) = .ok (n, r ++ q) := by
  induction c with
  | nil => intro i acc n r q h; simp [uvarint] at h
  | cons b bs ih =>
    intro i acc n r q h
    simp only [List.cons_append, uvarint] at h ⊢
    split at h
    · simp at h
    · rename_i h10
      simp only [h10, if_false]
      split at h
      · rename_i hb
        simp only [hb, if_true]
        split at h
        · simp at h
        · rename_i h9
          simp only [Except.ok.injEq, Prod.mk.injEq] at h
          obtain ⟨rfl, rfl⟩ := h
          simp only [h9, if_false]
      · rename_i hb
        simp only [hb, if_false]
        exact ih _ _ _ _ _ h

theorem getN8_append {c : Bytes} {n : Nat} {r : Bytes} (q : Bytes) (h : getN8 c = .ok (n, r)) :
    getN8 (c ++ q) = .ok (n, r ++ q) := by
  match c, h with
  | [], h => simp [getN8] at h
  | [b], h =>
    simp only [getN8] at h
    split at h
    · rename_i hb
      simp only [Except.ok.injEq, Prod.mk.injEq] at h; obtain ⟨rfl, rfl⟩ := h
      simp [getN8, hb]
    · simp at h
  | b :: b1 :: bs, h =>
    simp only [getN8] at h
    split at h
    · simp only [Except.ok.injEq, Prod.mk.injEq] at h; obtain ⟨rfl, rfl⟩ := h
      simp [getN8, *]
    · split at h
      · simp_all [getN8]
      · simp at h

theorem getBlock_append {c d r : Bytes} (q : Bytes) (h : getBlock c = .ok (d, r)) :
    getBlock (c ++ q) = .ok (d, r ++ q) := by
  simp only [getBlock] at h ⊢
  split at h
  · simp at h
  · rename_i n c1 h1
    rw [show getN64 (c ++ q) = .ok (n, c1 ++ q) from uvarint_append c _ _ _ _ _ h1]
    simp only [getBytes] at h ⊢
    split at h
    · rename_i hl
      simp only [Except.ok.injEq, Prod.mk.injEq] at h
      obtain ⟨rfl, rfl⟩ := h
      have : n ≤ (c1 ++ q).length := by simp; omega
      simp only [this, if_true, List.take_append_of_le_length hl, List.drop_append_of_le_length hl]
    · simp at h

theorem readSeals_append (q : Bytes) : ∀ (n : Nat) (c : Bytes) (ks : List Seal) (r : Bytes),
    readSeals n c = .ok (ks, r) → readSeals n (c ++ q) = .ok (ks, r ++ q)
  | 0, c, ks, r, h => by simp [readSeals] at h ⊢; simp [h]
  | n + 1, c, ks, r, h => by
    simp only [readSeals, bind_ok_iff] at h
    obtain ⟨⟨id, c1⟩, x1, ⟨value, c2⟩, x2, ⟨rest, c3⟩, x3, h⟩ := h
    simp only [Except.ok.injEq, Prod.mk.injEq] at h x1 x2 x3
    obtain ⟨rfl, rfl⟩ := h
    simp only [readSeals]
    rw [getBlock_append q x1, ok_bind]; simp only []
    rw [getBlock_append q x2, ok_bind]; simp only []
    rw [readSeals_append q n _ _ _ x3, ok_bind]

/-- Appending data to an input the parser accepts does not change the letter read. -/
theorem wire_parse_append (c : Bytes) (l : Letter) (r q : Bytes) (h : letterFromWire c = .ok (l, r)) :
    letterFromWire (c ++ q) = .ok (l, r ++ q) := by
  simp only [letterFromWire, bind_ok_iff] at h
  obtain ⟨⟨wv, c1⟩, x1, h⟩ := h
  simp only [] at h
  split at h
  · simp at h
  rename_i hwv
  simp only [bind_ok_iff] at h
  obtain ⟨⟨flags, c2⟩, x2, ⟨⟨ver, suite⟩, c3⟩, x3, ⟨keys, c4⟩, x4, ⟨nonce, c5⟩, x5, ⟨data, c6⟩, x6, ⟨mac, c7⟩, x7, h⟩ := h
  simp only [Except.ok.injEq, Prod.mk.injEq] at x2 x3 x4 x5 x6 x7 h
  obtain ⟨rfl, rfl⟩ := h
  have y3 : readWireSetup (decide (flags &&& 1 > 0)) (c2 ++ q) = .ok ((ver, suite), c3 ++ q) := by
    revert x3
    cases decide (flags &&& 1 > 0)
    · intro x3; simp_all [readWireSetup]
    · intro x3
      simp only [readWireSetup, bind_ok_iff] at x3
      obtain ⟨⟨n, d1⟩, y1, ⟨s, d2⟩, y2, x3⟩ := x3
      simp only [Except.ok.injEq, Prod.mk.injEq] at x3 y1 y2
      obtain ⟨⟨rfl, rfl⟩, rfl⟩ := x3
      simp only [readWireSetup]
      rw [getN8_append q y1, ok_bind]; simp only []
      rw [getBlock_append q y2, ok_bind]
  have y4 : readWireKeys (decide (flags &&& 2 > 0)) (c3 ++ q) = .ok (keys, c4 ++ q) := by
    revert x4
    cases decide (flags &&& 2 > 0)
    · intro x4; simp_all [readWireKeys]
    · intro x4
      simp only [readWireKeys, bind_ok_iff] at x4
      obtain ⟨⟨n, d1⟩, y1, x4⟩ := x4
      simp only [readWireKeys]
      rw [getN8_append q y1, ok_bind]; simp only []
      rw [readSeals_append q _ _ _ _ x4]
  simp only [letterFromWire]
  rw [getN8_append q x1, ok_bind]; simp only [hwv, if_false]
  rw [show getN64 (c1 ++ q) = _ from uvarint_append _ _ _ _ _ q x2, ok_bind]; simp only []
  rw [y3, ok_bind]; simp only []
  rw [y4, ok_bind]; simp only []
  rw [getBlock_append q x5, ok_bind]; simp only []
  rw [getBlock_append q x6, ok_bind]; simp only []
  rw [getBlock_append q x7, ok_bind]

/-- C03. Truncated input is rejected: no strict prefix of an encoded letter is accepted (wherever it is cut). -/
theorem wire_truncation_rejected (l : Letter) (p q : Bytes) (hs : l.Sized) (hk : l.keys.length ≤ 255)
    (hpq : l.toWire = p ++ q) (hq : q ≠ []) : ∃ e, letterFromWire p = .error e := by
  cases h : letterFromWire p with
  | error e => exact ⟨e, rfl⟩
  | ok v =>
    obtain ⟨m, r⟩ := v
    have h1 := wire_parse_append p m r q h
    have h2 := wire_roundtrip l [] hs hk
    rw [List.append_nil, hpq, h1] at h2
    simp only [Except.ok.injEq, Prod.mk.injEq, List.append_eq_nil_iff] at h2
    exact absurd h2.2.2 hq

/-- C03. A wire format version other than 1 is rejected as incompatible, whatever follows. -/
theorem wire_version_rejected (v : Nat) (rest : Bytes) (hv : v < 256) (hne : v ≠ 1) :
    letterFromWire (pack64 v ++ rest) = .error .version := by
  simp only [letterFromWire]
  rw [getN8_pack64 hv, ok_bind]
  simp [hne]

/-! ## C04: file format -/

/-- C04. Given a header serializer that reads back the headers it writes, a letter survives the file format, and
exactly the written bytes are consumed; writing leaves the letter unchanged. -/
theorem file_roundtrip (hc : HeaderCodec) (l : Letter) (rest hdr : Bytes) (hd : l.data.length < 2 ^ 64)
    (hh : hdr.length < 2 ^ 64 - 1) (hdump : hc.dump { l with data := [] } = .ok hdr)
    (hload : hc.load (hdr ++ [10]) = .ok { l with data := [] }) :
    ∃ out, l.toFileFormat hc = (.ok out, l) ∧ letterFromFileFormat hc (out ++ rest) = .ok (l, rest) := by
  refine ⟨pack64 1 ++ block (hdr ++ [10]) ++ block l.data, by simp [Letter.toFileFormat, hdump], ?_⟩
  simp only [letterFromFileFormat, List.append_assoc]
  rw [getN8_pack64 (by omega), ok_bind]
  simp only [ne_eq, not_true_eq_false, if_false]
  have : (hdr ++ [10]).length < 2 ^ 64 := by simp; omega
  rw [getBlock_block (d := hdr ++ [10]) this (block l.data ++ rest), ok_bind]; simp only []
  rw [hload, ok_bind]; simp only []
  rw [getBlock_block hd, ok_bind]

/-- C04, error side: a failing header serializer is reported, never ignored. -/
theorem file_dump_error (hc : HeaderCodec) (l : Letter) (e : Err) (hdump : hc.dump { l with data := [] } = .error e) :
    (l.toFileFormat hc).1 = .error e := by
  simp [Letter.toFileFormat, hdump]

/-- Finding on C04: when the header serializer fails, `ToFileFormat` returns before it restores the letter's data, so
the caller's letter has lost its payload. -/
theorem file_dump_error_loses_data : ∃ (hc : HeaderCodec) (l : Letter), l.data ≠ [] ∧
    (l.toFileFormat hc).1 = .error .env ∧ (l.toFileFormat hc).2.data = [] :=
  ⟨⟨fun _ => .error .env, fun _ => .error .env⟩, { data := [1] }, by decide, rfl, rfl⟩

/-- C04: what the file reader accepts, it took from the input: the payload is a slice of the consumed prefix and the
header is what the serializer read from another slice of it. -/
theorem file_parse_sound (hc : HeaderCodec) (c : Bytes) (l : Letter) (rest : Bytes)
    (h : letterFromFileFormat hc c = .ok (l, rest)) :
    ∃ p, c = p ++ rest ∧ l.data <:+: p ∧ ∃ hdr l0, hdr <:+: p ∧ hc.load hdr = .ok l0 ∧ l = { l0 with data := l.data } := by
  simp only [letterFromFileFormat, bind_ok_iff] at h
  obtain ⟨⟨wv, c1⟩, x1, h⟩ := h
  simp only [] at h
  split at h
  · simp at h
  simp only [bind_ok_iff] at h
  obtain ⟨⟨hd, c2⟩, x2, l0, x3, ⟨data, c3⟩, x4, h⟩ := h
  simp only [Except.ok.injEq, Prod.mk.injEq] at x2 x3 x4 h
  obtain ⟨rfl, rfl⟩ := h
  obtain ⟨p1, _, rfl⟩ := getN8_suffix x1
  obtain ⟨p2, _, rfl⟩ := getBlock_suffix x2
  obtain ⟨p3, _, rfl⟩ := getBlock_suffix x4
  exact ⟨p1 ++ p2 ++ hd ++ p3 ++ data, by simp, ⟨p1 ++ p2 ++ hd ++ p3, [], by simp⟩, hd, l0,
    ⟨p1 ++ p2, p3 ++ data, by simp⟩, x3, rfl⟩

/-! ## Non-vacuity: concrete letters -/

/-- A setup letter with two seals. -/
def exampleLetter : Letter :=
  { version := 1, suiteID := b!"w1", nonce := [1, 2, 3, 4], data := b!"hello", mac := [9, 9],
    keys := [{ id := b!"server", value := [7] }, { value := [8, 8] }], applyKeys := true }

theorem exampleLetter_sized : exampleLetter.Sized := by
  refine ⟨by decide, by decide, by decide, by decide, ?_, by decide⟩
  intro s hs
  simp [exampleLetter] at hs
  rcases hs with rfl | rfl <;> decide

example : exampleLetter.toWire.length = 34 ∧ letterFromWire exampleLetter.toWire = .ok (exampleLetter, []) := by
  constructor
  · decide +kernel
  · have := wire_roundtrip exampleLetter [] exampleLetter_sized (by decide)
    simpa [exampleLetter, Letter.wireView, Seal.wireView] using this

/-- A letter whose serialization the parser rejects: the hypotheses of `wire_too_many_seals` are met (for every such
number of seals). -/
example (n : Nat) (h : 255 < n) (hn : n < 2 ^ 64) :
    letterFromWire ({ version := 1, suiteID := b!"w1", keys := List.replicate n {} : Letter }.toWire ++ []) =
    .error .overflow := by
  refine wire_too_many_seals _ [] ⟨by simp, by simp, by simp, by simp, ?_, by simpa using hn⟩ (by simpa using h)
  intro s hs
  have := List.eq_of_mem_replicate hs
  subst this
  exact ⟨by decide, by decide, by decide⟩

end Jess
