import Verif.Model.Letter
import Verif.Lemmas.Container
import Verif.Lemmas.Basic
import Verif.Props.Wire

/-!
# C05–C08: what associated data and signing data bind
-/

namespace Jess

/-- `r` is empty or starts with the number of a field that satisfies `S`. -/
def Starts (S : Nat → Prop) (r : Bytes) : Prop := r = [] ∨ ∃ k r', S k ∧ k < 2 ^ 64 ∧ r = pack64 k ++ r'

theorem Starts.mono {S T : Nat → Prop} {r : Bytes} (h : Starts S r) (hST : ∀ k, S k → T k) : Starts T r := by
  rcases h with h | ⟨k, r', a, b, c⟩
  · exact .inl h
  · exact .inr ⟨k, r', hST k a, b, c⟩

theorem starts_pack64 {S : Nat → Prop} {k : Nat} (r : Bytes) (hk : k < 2 ^ 64) (hS : S k) :
    Starts S (pack64 k ++ r) := .inr ⟨k, r, hS, hk, rfl⟩

theorem nonempty_iff (v : Bytes) : nonempty v = true ↔ v ≠ [] := by
  cases v <;> simp [nonempty]

/-- An optional field (number and block, left out if empty) can be read back if what follows is not that field. -/
theorem optField_inj {id : Nat} (hid : id < 2 ^ 64) {v w r t : Bytes} (hv : v.length < 2 ^ 64)
    (hw : w.length < 2 ^ 64) (hr : Starts (· ≠ id) r) (ht : Starts (· ≠ id) t)
    (h : (if nonempty v then pack64 id ++ block v else []) ++ r =
         (if nonempty w then pack64 id ++ block w else []) ++ t) : v = w ∧ r = t := by
  have key : ∀ {x y : Bytes}, Starts (· ≠ id) y → pack64 id ++ x = y → False := by
    intro x y hy e
    rcases hy with rfl | ⟨k, r', a, b, rfl⟩
    · have := pack64_ne_nil id
      simp_all
    · exact a (pack64_append_inj hid b e).1.symm
  by_cases a : nonempty v = true <;> by_cases b : nonempty w = true
  · simp only [a, b, if_true, List.append_assoc] at h
    obtain ⟨_, h⟩ := pack64_append_inj hid hid h
    exact block_append_inj hv hw h
  · simp only [a, b, if_true, List.append_assoc] at h
    exact (key ht (by simpa using h)).elim
  · simp only [a, b, if_true, List.append_assoc] at h
    exact (key hr (by simpa using h.symm)).elim
  · simp only [a, b] at h
    rw [nonempty_iff] at a b
    simp only [ne_eq, Decidable.not_not] at a b
    exact ⟨by rw [a, b], by simpa using h⟩

/-- The seal part. `r` and `t` must not look like the field of a seal. -/
theorem Seal.compileAD_inj {s s' : Seal} {r t : Bytes}
    (hs : s.scheme.length < 2 ^ 64 ∧ s.id.length < 2 ^ 64 ∧ s.value.length < 2 ^ 64)
    (hs' : s'.scheme.length < 2 ^ 64 ∧ s'.id.length < 2 ^ 64 ∧ s'.value.length < 2 ^ 64)
    (hr : Starts (fun k => k ≠ 16 ∧ k ≠ 17 ∧ k ≠ 18) r) (ht : Starts (fun k => k ≠ 16 ∧ k ≠ 17 ∧ k ≠ 18) t)
    (h : s.compileAD ++ r = s'.compileAD ++ t) : s = s' ∧ r = t := by
  have start : ∀ {S : Nat → Prop} {i : Nat} {v x : Bytes}, i < 2 ^ 64 → S i → Starts S x →
      Starts S ((if nonempty v then pack64 i ++ block v else []) ++ x) := by
    intro S i v x hi hS hx
    split
    · rw [List.append_assoc]; exact starts_pack64 _ hi hS
    · simpa using hx
  simp only [Seal.compileAD, fieldIDSealScheme, fieldIDSealID, fieldIDSealValue, List.append_assoc] at h
  obtain ⟨e1, h⟩ := optField_inj (by omega) hs.1 hs'.1
    (start (by omega) (by decide) (start (by omega) (by decide) (hr.mono (fun _ a => a.1))))
    (start (by omega) (by decide) (start (by omega) (by decide) (ht.mono (fun _ a => a.1)))) h
  obtain ⟨e2, h⟩ := optField_inj (by omega) hs.2.1 hs'.2.1
    (start (by omega) (by decide) (hr.mono (fun _ a => a.2.1)))
    (start (by omega) (by decide) (ht.mono (fun _ a => a.2.1))) h
  obtain ⟨e3, h⟩ := optField_inj (by omega) hs.2.2 hs'.2.2
    (hr.mono (fun _ a => a.2.2)) (ht.mono (fun _ a => a.2.2)) h
  cases s; cases s'; simp_all

theorem compileADKeys_starts {S : Nat → Prop} : ∀ (ks : List Seal) (i : Nat) (r : Bytes), i < 2 ^ 64 → S i → Starts S r →
    Starts S (compileADKeys i ks ++ r)
  | [], _, _, _, _, hr => by simpa [compileADKeys] using hr
  | k :: ks, i, r, hi, hS, _ => by
    simp only [compileADKeys, List.append_assoc]
    exact starts_pack64 _ hi hS

/-- With indices below 16 (no confusion with seal field numbers) the list of seals can be read back. -/
theorem compileADKeys_inj : ∀ (ks ls : List Seal) (i : Nat) (r t : Bytes), ks.length = ls.length → i + ks.length ≤ 16 →
    (∀ s ∈ ks, s.scheme.length < 2 ^ 64 ∧ s.id.length < 2 ^ 64 ∧ s.value.length < 2 ^ 64) →
    (∀ s ∈ ls, s.scheme.length < 2 ^ 64 ∧ s.id.length < 2 ^ 64 ∧ s.value.length < 2 ^ 64) →
    Starts (fun k => k ≠ 16 ∧ k ≠ 17 ∧ k ≠ 18) r → Starts (fun k => k ≠ 16 ∧ k ≠ 17 ∧ k ≠ 18) t →
    compileADKeys i ks ++ r = compileADKeys i ls ++ t → ks = ls ∧ r = t
  | [], [], _, _, _, _, _, _, _, _, _, h => by simpa [compileADKeys] using h
  | k :: ks, l :: ls, i, r, t, hlen, hi, hk, hl, hr, ht, h => by
    simp only [compileADKeys, List.append_assoc] at h
    simp only [List.length_cons] at hlen hi
    obtain ⟨_, h⟩ := pack64_append_inj (by omega) (by omega) h
    have st : ∀ (q : List Seal) (x : Bytes), q.length ≤ ks.length → Starts (fun k => k ≠ 16 ∧ k ≠ 17 ∧ k ≠ 18) x →
        Starts (fun k => k ≠ 16 ∧ k ≠ 17 ∧ k ≠ 18) (compileADKeys (i + 1) q ++ x) := by
      intro q x hq hx
      cases q with
      | nil => simpa [compileADKeys] using hx
      | cons a q =>
        simp only [List.length_cons] at hq
        exact compileADKeys_starts _ _ _ (by omega) (by omega) hx
    obtain ⟨e, h⟩ := Seal.compileAD_inj (hk k (by simp)) (hl l (by simp)) (st ks r (by omega) hr) (st ls t (by omega) ht) h
    obtain ⟨e2, h⟩ := compileADKeys_inj ks ls (i + 1) r t (by omega) (by omega)
      (fun s hs => hk s (by simp [hs])) (fun s hs => hl s (by simp [hs])) hr ht h
    exact ⟨by rw [e, e2], h⟩

/-- Main lemma: the associated data followed by nothing or by a MAC field. -/
theorem compileAD_append_inj (l m : Letter) (r t : Bytes) (hl : l.Sized) (hm : m.Sized)
    (hk : l.keys.length ≤ 16 ∨ m.keys.length ≤ 16)
    (hr : Starts (· = 5) r) (ht : Starts (· = 5) t) (h : l.compileAD ++ r = m.compileAD ++ t) :
    l.version = m.version ∧ l.suiteID = m.suiteID ∧ l.nonce = m.nonce ∧ l.keys = m.keys ∧ r = t := by
  obtain ⟨h1, h2, h3, h4, h5, h6⟩ := hl
  obtain ⟨g1, g2, g3, g4, g5, g6⟩ := hm
  have start : ∀ {S : Nat → Prop} {i : Nat} {v x : Bytes}, i < 2 ^ 64 → S i → Starts S x →
      Starts S ((if nonempty v then pack64 i ++ block v else []) ++ x) := by
    intro S i v x hi hS hx
    split
    · rw [List.append_assoc]; exact starts_pack64 _ hi hS
    · simpa using hx
  have startK : ∀ (S : Nat → Prop) (q : List Seal) (x : Bytes), S 4 → Starts S x →
      Starts S ((if q.length > 0 then pack64 fieldIDLetterKeys ++ (pack64 q.length ++ compileADKeys 0 q) else []) ++ x) := by
    intro S q x hS hx
    split
    · rw [List.append_assoc]; exact starts_pack64 _ (by decide) hS
    · simpa using hx
  have no5 : ∀ {x : Bytes} {S : Nat → Prop}, S 5 → Starts (· = 5) x → Starts S x := by
    intro x S hS hx; exact hx.mono (by intro k hk; rw [hk]; exact hS)
  simp only [Letter.compileAD, fieldIDLetterVersion, fieldIDLetterSuiteID, fieldIDLetterNonce, List.append_assoc] at h
  -- version
  have sx : ∀ (q : Letter) (x : Bytes), Starts (· = 5) x → Starts (· ≠ 1)
      ((if nonempty q.suiteID then pack64 2 ++ block q.suiteID else []) ++
       ((if nonempty q.nonce then pack64 3 ++ block q.nonce else []) ++
        ((if q.keys.length > 0 then pack64 fieldIDLetterKeys ++ (pack64 q.keys.length ++ compileADKeys 0 q.keys) else []) ++ x))) :=
    fun q x hx => start (by omega) (by decide) (start (by omega) (by decide) (startK _ _ _ (by decide) (no5 (by decide) hx)))
  have step1 : l.version = m.version ∧
      ((if nonempty l.suiteID then pack64 2 ++ block l.suiteID else []) ++
       ((if nonempty l.nonce then pack64 3 ++ block l.nonce else []) ++
        ((if l.keys.length > 0 then pack64 fieldIDLetterKeys ++ (pack64 l.keys.length ++ compileADKeys 0 l.keys) else []) ++ r))) =
      ((if nonempty m.suiteID then pack64 2 ++ block m.suiteID else []) ++
       ((if nonempty m.nonce then pack64 3 ++ block m.nonce else []) ++
        ((if m.keys.length > 0 then pack64 fieldIDLetterKeys ++ (pack64 m.keys.length ++ compileADKeys 0 m.keys) else []) ++ t))) := by
    have clash : ∀ {x y : Bytes}, Starts (· ≠ 1) y → pack64 1 ++ x = y → False := by
      intro x y hy e
      rcases hy with rfl | ⟨k, r', a, b, rfl⟩
      · have := pack64_ne_nil 1
        simp_all
      · exact a (pack64_append_inj (by omega) b e).1.symm
    by_cases a : l.version > 0 <;> by_cases b : m.version > 0
    · simp only [a, b, if_true, List.append_assoc] at h
      obtain ⟨_, h⟩ := pack64_append_inj (by omega) (by omega) h
      have := l.version.toNat_lt
      have := m.version.toNat_lt
      obtain ⟨e, h⟩ := pack64_append_inj (by omega) (by omega) h
      exact ⟨UInt8.toNat_inj.mp e, h⟩
    · simp only [a, b, if_true, if_false, List.append_assoc, List.nil_append] at h
      exact (clash (sx m t ht) h).elim
    · simp only [a, b, if_true, if_false, List.append_assoc, List.nil_append] at h
      exact (clash (sx l r hr) h.symm).elim
    · simp only [a, b, if_false, List.nil_append] at h
      exact ⟨by rw [version_zero a, version_zero b], h⟩
  obtain ⟨ev, h⟩ := step1
  obtain ⟨es, h⟩ := optField_inj (by omega) h1 g1
    (start (by omega) (by decide) (startK _ _ _ (by decide) (no5 (by decide) hr)))
    (start (by omega) (by decide) (startK _ _ _ (by decide) (no5 (by decide) ht))) h
  obtain ⟨en, h⟩ := optField_inj (by omega) h2 g2
    (startK _ _ _ (by decide) (no5 (by decide) hr)) (startK _ _ _ (by decide) (no5 (by decide) ht)) h
  refine ⟨ev, es, en, ?_⟩
  have clash4 : ∀ {x y : Bytes}, Starts (· = 5) y → pack64 fieldIDLetterKeys ++ x = y → False := by
    intro x y hy e
    rcases hy with rfl | ⟨k, r', a, b, rfl⟩
    · have := pack64_ne_nil fieldIDLetterKeys
      simp_all
    · have := (pack64_append_inj (by decide) b e).1
      rw [a] at this
      exact absurd this (by decide)
  by_cases a : l.keys.length > 0 <;> by_cases b : m.keys.length > 0
  · simp only [a, b, if_true, List.append_assoc] at h
    obtain ⟨_, h⟩ := pack64_append_inj (by decide) (by decide) h
    obtain ⟨e, h⟩ := pack64_append_inj h6 g6 h
    exact compileADKeys_inj _ _ 0 _ _ e (by omega) h5 g5 (no5 (by decide) hr) (no5 (by decide) ht) h
  · simp only [a, b, if_true, if_false, List.append_assoc, List.nil_append] at h
    exact (clash4 ht h).elim
  · simp only [a, b, if_true, if_false, List.append_assoc, List.nil_append] at h
    exact (clash4 hr h.symm).elim
  · simp only [a, b, if_false, List.nil_append] at h
    have la : l.keys = [] := List.eq_nil_of_length_eq_zero (by omega)
    have lb : m.keys = [] := List.eq_nil_of_length_eq_zero (by omega)
    exact ⟨by rw [la, lb], h⟩

/-- C05, if one of the two letters has at most 16 key seals: the associated data determines version, suite, nonce and every seal.
Missing for the full claim: two letters with more than 16 seals, for which it is false (`ad_collision`). -/
theorem ad_binds_partial (l m : Letter) (hl : l.Sized) (hm : m.Sized)
    (hk : l.keys.length ≤ 16 ∨ m.keys.length ≤ 16) (h : l.compileAD = m.compileAD) :
    l.version = m.version ∧ l.suiteID = m.suiteID ∧ l.nonce = m.nonce ∧ l.keys = m.keys := by
  obtain ⟨a, b, c, d, _⟩ := compileAD_append_inj l m [] [] hl hm hk (.inl rfl) (.inl rfl) (by simpa using h)
  exact ⟨a, b, c, d⟩

/-- The two letters of the collision: 15 empty seals, then in one letter an empty seal followed by one with a 16 byte
scheme, in the other a seal with a (different) 16 byte scheme followed by an empty one. -/
def adCollisionA (x : Bytes) : Letter :=
  { version := 1, suiteID := b!"rcpt_v1", nonce := [1, 2, 3, 4],
    keys := List.replicate 16 {} ++ [{ scheme := x ++ [16] }] }
/-- See `adCollisionA`. -/
def adCollisionB (x : Bytes) : Letter :=
  { version := 1, suiteID := b!"rcpt_v1", nonce := [1, 2, 3, 4],
    keys := List.replicate 15 {} ++ [{ scheme := 16 :: x }, {}] }

theorem compileADKeys_append : ∀ (as bs : List Seal) (i : Nat),
    compileADKeys i (as ++ bs) = compileADKeys i as ++ compileADKeys (i + as.length) bs
  | [], bs, i => by simp [compileADKeys]
  | a :: as, bs, i => by
    simp only [List.cons_append, compileADKeys, compileADKeys_append as bs (i + 1), List.length_cons, List.append_assoc]
    rw [show i + 1 + as.length = i + (as.length + 1) by omega]

/-- Finding on C05: seal indices share their number space with the field numbers 16–18 of seals, so from 17 seals on the
associated data is ambiguous: different key seals with identical associated data. -/
theorem ad_collision (x : Bytes) (hx : x.length = 15) :
    (adCollisionA x).keys ≠ (adCollisionB x).keys ∧ (adCollisionA x).compileAD = (adCollisionB x).compileAD := by
  have hA : (adCollisionA x).keys = List.replicate 15 ({} : Seal) ++ [({} : Seal), { scheme := x ++ [16] }] := by
    simp [adCollisionA, List.replicate]
  have hB : (adCollisionB x).keys = List.replicate 15 ({} : Seal) ++ [{ scheme := 16 :: x }, ({} : Seal)] := rfl
  constructor
  · rw [hA, hB]
    intro h
    have := List.append_cancel_left h
    simp at this
  · have hk : compileADKeys 0 (adCollisionA x).keys = compileADKeys 0 (adCollisionB x).keys := by
      rw [hA, hB, compileADKeys_append, compileADKeys_append]
      congr 1
      simp [compileADKeys, Seal.compileAD, nonempty, fieldIDSealScheme, block, pack64_lt, hx]
    have hl : (adCollisionA x).keys.length = (adCollisionB x).keys.length := by rw [hA, hB]; rfl
    unfold Letter.compileAD
    rw [hk, hl]
    rfl

/-- C06 is false: the associated data does not depend on `ApplyKeys`, so flipping the flag on a letter in transit is
not noticed by any cipher, MAC or signature. -/
theorem applyKeys_not_authenticated (l : Letter) (b : Bool) (ad : Bytes) :
    { l with applyKeys := b }.compileAD = l.compileAD ∧
    { l with applyKeys := b }.compileSigningData ad = l.compileSigningData ad := by
  exact ⟨rfl, rfl⟩

/-- C07, if one of the two letters has at most 16 key seals: the data that is signed in addition to the letter's data determines
MAC, version, suite, nonce and seals. -/
theorem signing_data_binds_partial (l m : Letter) (hl : l.Sized) (hm : m.Sized)
    (hk : l.keys.length ≤ 16 ∨ m.keys.length ≤ 16) (h : l.compileSigningData l.compileAD = m.compileSigningData m.compileAD) :
    l.mac = m.mac ∧ l.version = m.version ∧ l.suiteID = m.suiteID ∧ l.nonce = m.nonce ∧ l.keys = m.keys := by
  have unf : ∀ q : Letter, q.compileSigningData q.compileAD =
      q.compileAD ++ (if nonempty q.mac then pack64 5 ++ block q.mac else []) := by
    intro q
    simp only [Letter.compileSigningData, fieldIDLetterMac]
    cases hq : q.mac with
    | nil => simp [nonempty]
    | cons a as => simp [nonempty]
  rw [unf, unf] at h
  have st : ∀ q : Letter, Starts (· = 5) (if nonempty q.mac then pack64 5 ++ block q.mac else []) := by
    intro q; split
    · exact starts_pack64 _ (by omega) rfl
    · exact .inl rfl
  obtain ⟨a, b, c, d, e⟩ := compileAD_append_inj l m _ _ hl hm hk (st l) (st m) h
  obtain ⟨e1, _⟩ := optField_inj (id := 5) (r := []) (t := []) (by omega) hl.2.2.2.1 hm.2.2.2.1
    (.inl rfl) (.inl rfl) (by simpa using e)
  exact ⟨e1, a, b, c, d⟩

/-- What is hashed for a signature: the letter's data followed by the signing data (core.go:137-143). -/
def Letter.signedBytes (l : Letter) : Bytes := l.data ++ l.compileSigningData l.compileAD

/-- C08, for letters whose metadata has the same length (in particular, letters of one suite without key seals, with
nonces of the same size and MACs of the same size): a signature binds data and metadata.
Missing for the full claim: metadata of different length, for which it is false (`signature_boundary_collision`). -/
theorem signature_binds_partial (l m : Letter) (hl : l.Sized) (hm : m.Sized)
    (hk : l.keys.length ≤ 16 ∨ m.keys.length ≤ 16)
    (hlen : (l.compileSigningData l.compileAD).length = (m.compileSigningData m.compileAD).length)
    (h : l.signedBytes = m.signedBytes) :
    l.data = m.data ∧ l.mac = m.mac ∧ l.version = m.version ∧ l.suiteID = m.suiteID ∧ l.nonce = m.nonce ∧
      l.keys = m.keys := by
  obtain ⟨h1, h2⟩ := List.append_inj' h hlen
  exact ⟨h1, signing_data_binds_partial l m hl hm hk h2⟩

/-- C08 for signature-only letters (no key seals, no MAC) of one suite: the nonce length is all that is needed. -/
theorem signature_binds_same_suite (l m : Letter) (hl : l.Sized) (hm : m.Sized) (hkl : l.keys = []) (hkm : m.keys = [])
    (hml : l.mac = []) (hmm : m.mac = []) (hv : l.version = 1) (hv' : m.version = 1) (hs : l.suiteID = m.suiteID)
    (hn : l.nonce.length = m.nonce.length) (h : l.signedBytes = m.signedBytes) : l.data = m.data ∧ l.nonce = m.nonce := by
  have := signature_binds_partial l m hl hm (.inl (by simp [hkl])) (by
    simp only [Letter.compileSigningData, hml, hmm, Letter.compileAD, hkl, hkm, hv, hv', hs, block]
    have : nonempty l.nonce = nonempty m.nonce := by
      cases a : l.nonce <;> cases b : m.nonce <;> simp_all [nonempty]
    simp [this]
    split <;> simp [hn]) h
  exact ⟨this.1, this.2.2.2.2.1⟩

/-- A text a user might be asked to sign: it ends in bytes that look like a letter header up to the length of a nonce
(21 bytes: the end marker `!` of this text, the genuine metadata and 4 bytes of nonce). -/
def boundaryText : Bytes := b!"pay 1" ++ ([1, 1, 2, 7] ++ b!"sign_v1" ++ [3, 18] ++ b!"!")
/-- The genuine signed letter. -/
def boundaryGenuine : Letter :=
  { version := 1, suiteID := b!"sign_v1", nonce := [10, 11, 12, 13], data := boundaryText }
/-- The letter an attacker makes of it without knowing any key: the data is cut short. -/
def boundaryForged : Letter :=
  { version := 1, suiteID := b!"sign_v1", data := b!"pay 1",
    nonce := b!"!" ++ [1, 1, 2, 7] ++ b!"sign_v1" ++ [3, 4] ++ [10, 11, 12, 13] }

/-- Finding on C08: data and metadata are hashed without a separator, and the nonce length is not checked, so a
signature made for one letter is valid for another one with different data (here: truncated data). -/
theorem signature_boundary_collision :
    boundaryGenuine.data ≠ boundaryForged.data ∧ boundaryGenuine.signedBytes = boundaryForged.signedBytes ∧
    boundaryGenuine.suiteID = boundaryForged.suiteID ∧ boundaryGenuine.version = boundaryForged.version := by
  refine ⟨by decide, ?_, rfl, rfl⟩
  decide +kernel

/-- C07 refuted beyond 16 seals: letters with different key seals and the same signing data. -/
theorem signing_data_collision (x : Bytes) (hx : x.length = 15) :
    (adCollisionA x).keys ≠ (adCollisionB x).keys ∧
    (adCollisionA x).compileSigningData (adCollisionA x).compileAD = (adCollisionB x).compileSigningData (adCollisionB x).compileAD := by
  obtain ⟨h1, h2⟩ := ad_collision x hx
  refine ⟨h1, ?_⟩
  simp only [Letter.compileSigningData, h2]
  rfl

/-- Non-vacuity of `ad_binds_partial` and `signing_data_binds_partial`. -/
example : exampleLetter.Sized ∧ exampleLetter.keys.length ≤ 16 ∧ exampleLetter.compileAD ≠ [] :=
  ⟨exampleLetter_sized, by decide, by
    simp [exampleLetter, Letter.compileAD, fieldIDLetterVersion, pack64_lt]⟩

end Jess
