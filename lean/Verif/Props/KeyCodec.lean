import Verif.Model.KeyCodec
import Verif.Lemmas.Container
import Verif.Lemmas.Encoding
import Verif.Lemmas.Basic
import Verif.Lemmas.Toy

/-! C29: key serialization. -/

namespace Jess

/-- The assumptions about the PKCS #1 functions of the Go library: they are inverse to each other on valid keys. -/
structure KeyLib.Sound (K : KeyLib) (rsaPair : Bytes → Bytes → Prop) : Prop where
  pub : ∀ pub priv, rsaPair pub priv → K.parsePub (K.marshalPub pub) = some pub
  priv : ∀ pub priv, rsaPair pub priv → K.parsePriv (K.marshalPriv priv) = some (pub, priv)

/-- A key pair of a tool (specification): sizes for X25519 and Ed25519 (of which the private key includes the public key), a point of
the curve for the NIST curves, valid keys for RSA. -/
def KeyPair (K : KeyLib) (rsaPair : Bytes → Bytes → Prop) (tool pub priv : Bytes) : Prop :=
  match keyKind tool with
  | some .x25519 => pub.length = 32 ∧ priv.length = 32 ∧ K.checkX pub = true
  | some .nist => ∃ x y, pub = point x y ∧ K.checkNist tool x y = true ∧ (natBytes x).length < 2 ^ 64 ∧ (natBytes y).length < 2 ^ 64
  | some .ed25519 => priv.length = 64 ∧ pub = priv.drop 32
  | some .rsa => rsaPair pub priv
  | none => False

theorem natOfBytes_natBytes (n : Nat) : natOfBytes (natBytes n) = n := by
  unfold natOfBytes natBytes
  rw [List.map_map]
  have : (toDigits 256 n).map (UInt8.toNat ∘ UInt8.ofNat) = toDigits 256 n := by
    conv => rhs; rw [← List.map_id (toDigits 256 n)]
    apply List.map_congr_left
    intro d hd
    exact toNat_ofNat_lt (toDigits_lt (by omega) n d hd)
  rw [this, ofDigits_toDigits (by omega)]

theorem keyVersion_iff (key r : Bytes) : keyVersion key = .ok r ↔ key = 1 :: r := by
  unfold keyVersion
  constructor
  · intro h
    split at h
    · cases h
    · rename_i v r' hr
      split at h
      · rename_i hv
        cases h
        subst hv
        match key, hr with
        | [], hr => simp [getN8] at hr
        | [b], hr =>
          simp only [getN8] at hr
          split at hr
          · simp only [Except.ok.injEq, Prod.mk.injEq] at hr
            have : b = 1 := UInt8.toNat_inj.mp hr.1
            rw [hr.2, this]
          · cases hr
        | b :: b1 :: bs, hr =>
          simp only [getN8] at hr
          split at hr
          · simp only [Except.ok.injEq, Prod.mk.injEq] at hr
            have : b = 1 := UInt8.toNat_inj.mp hr.1
            rw [hr.2, this]
          · split at hr
            · simp only [Except.ok.injEq, Prod.mk.injEq] at hr
              omega
            · cases hr
      · cases h
  · rintro rfl
    rfl

theorem pack64_one : pack64 1 = [1] := by rw [pack64_lt (by omega)]; rfl

/-- C29. Storing and loading a key pair restores it; storing and loading the public key only restores that. -/
theorem key_round_trip (K : KeyLib) (rsaPair : Bytes → Bytes → Prop) (hK : K.Sound rsaPair) (tool pub priv : Bytes)
    (h : KeyPair K rsaPair tool pub priv) :
    (∃ k, toolStoreKey K tool pub (.key priv) = .ok (k, false) ∧ toolLoadKey K tool k false = .ok (pub, .key priv)) ∧
    (∃ k, toolStoreKey K tool pub .nil = .ok (k, true) ∧ ∃ p, toolLoadKey K tool k true = .ok (pub, p) ∧ p.toOption = none) := by
  unfold KeyPair at h
  unfold toolStoreKey toolLoadKey
  cases hk : keyKind tool with
  | none => rw [hk] at h; exact h.elim
  | some kind =>
    rw [hk] at h
    cases kind with
    | x25519 =>
      obtain ⟨h1, h2, h3⟩ := h
      constructor
      · refine ⟨_, rfl, ?_⟩
        show loadX25519 K _ false = _
        unfold loadX25519
        rw [pack64_one, (keyVersion_iff _ (pub ++ priv)).mpr (by simp), ok_bind]
        have e1 : getBytes 32 (pub ++ priv) = .ok (pub, priv) := by rw [← h1]; exact getBytes_append pub priv
        have e2 : getBytes 32 priv = .ok (priv, []) := by
          have := getBytes_append priv []; rw [List.append_nil, h2] at this; exact this
        rw [e1]
        simp only [h3, if_true]
        rw [e2]
        rfl
      · refine ⟨_, rfl, .nil, ?_, rfl⟩
        show loadX25519 K _ true = _
        unfold loadX25519
        rw [pack64_one, (keyVersion_iff _ pub).mpr (by simp), ok_bind]
        have e1 : getBytes 32 pub = .ok (pub, []) := by
          have := getBytes_append pub []; rw [List.append_nil, h1] at this; exact this
        rw [e1]
        simp [h3]
    | nist =>
      obtain ⟨x, y, rfl, h3, hx, hy⟩ := h
      have key : ∀ (r : Bytes) (b : Bool), loadNist K tool (1 :: (point x y ++ r)) b = .ok (point x y, if b then .nil else .key r) := by
        intro r b
        unfold loadNist
        rw [(keyVersion_iff _ (point x y ++ r)).mpr rfl, ok_bind]
        unfold point
        rw [List.append_assoc, getBlock_block hx, ok_bind]
        simp only
        rw [getBlock_block hy, ok_bind]
        simp only [natOfBytes_natBytes, h3, if_true]
      constructor
      · refine ⟨_, rfl, ?_⟩
        show loadNist K tool _ false = _
        rw [pack64_one]
        exact key priv false
      · refine ⟨_, rfl, .nil, ?_, rfl⟩
        show loadNist K tool _ true = _
        rw [pack64_one]
        have := key [] true
        rw [List.append_nil] at this
        exact this
    | ed25519 =>
      obtain ⟨h1, rfl⟩ := h
      constructor
      · refine ⟨_, rfl, ?_⟩
        show loadEd25519 _ false = _
        unfold loadEd25519
        rw [pack64_one, (keyVersion_iff _ priv).mpr (by simp), ok_bind]
        simp [h1]
      · refine ⟨_, rfl, .typedNil, ?_, rfl⟩
        show loadEd25519 _ true = _
        unfold loadEd25519
        rw [pack64_one, (keyVersion_iff _ (priv.drop 32)).mpr (by simp), ok_bind]
        simp [h1]
    | rsa =>
      have h : rsaPair pub priv := h
      constructor
      · refine ⟨_, rfl, ?_⟩
        show loadRSA K _ false = _
        unfold loadRSA
        rw [pack64_one, (keyVersion_iff _ (K.marshalPriv priv)).mpr (by simp), ok_bind]
        simp [hK.priv _ _ h]
      · refine ⟨_, rfl, .typedNil, ?_, rfl⟩
        show loadRSA K _ true = _
        unfold loadRSA
        rw [pack64_one, (keyVersion_iff _ (K.marshalPub pub)).mpr (by simp), ok_bind]
        simp [hK.pub _ _ h]

/-- C29. Loading a key as public never yields a private key, whatever the stored bytes contain. -/
theorem public_never_private (K : KeyLib) (tool key pub : Bytes) (priv : PrivKey)
    (h : toolLoadKey K tool key true = .ok (pub, priv)) : priv.toOption = none := by
  unfold toolLoadKey at h
  cases hk : keyKind tool with
  | none => rw [hk] at h; cases h
  | some kind =>
    rw [hk] at h
    cases kind with
    | x25519 =>
      have h : loadX25519 K key true = .ok (pub, priv) := h
      unfold loadX25519 at h
      rw [bind_ok_iff] at h
      obtain ⟨r, _, h⟩ := h
      split at h
      · cases h
      · split at h
        · cases h; rfl
        · cases h
    | nist =>
      have h : loadNist K tool key true = .ok (pub, priv) := h
      unfold loadNist at h
      simp only [bind_ok_iff] at h
      obtain ⟨r, _, ⟨x, r⟩, _, ⟨y, r2⟩, _, h⟩ := h
      simp only at h
      split at h
      · cases h; rfl
      · cases h
    | ed25519 =>
      have h : loadEd25519 key true = .ok (pub, priv) := h
      unfold loadEd25519 at h
      rw [bind_ok_iff] at h
      obtain ⟨r, _, h⟩ := h
      simp only [if_true] at h
      split at h
      · cases h
      · cases h; rfl
    | rsa =>
      have h : loadRSA K key true = .ok (pub, priv) := h
      unfold loadRSA at h
      rw [bind_ok_iff] at h
      obtain ⟨r, _, h⟩ := h
      simp only [if_true] at h
      split at h
      · cases h
      · cases h; rfl

/-- C29. What X25519 accepts: version 1, a public key that passes the check, and for private signets 32 bytes of private key. Anything
that follows is ignored. -/
theorem load_x25519_iff (K : KeyLib) (key : Bytes) (isPublic : Bool) (pub : Bytes) (priv : PrivKey) :
    loadX25519 K key isPublic = .ok (pub, priv) ↔
      pub.length = 32 ∧ K.checkX pub = true ∧
      ((isPublic = true ∧ priv = .nil ∧ ∃ rest, key = 1 :: (pub ++ rest)) ∨
       (isPublic = false ∧ ∃ p rest, p.length = 32 ∧ priv = .key p ∧ key = 1 :: (pub ++ p ++ rest))) := by
  have gb : ∀ (r p q : Bytes), getBytes 32 r = .ok (p, q) ↔ p.length = 32 ∧ r = p ++ q := by
    intro r p q
    unfold getBytes
    constructor
    · intro h
      split at h
      · rename_i hl
        cases h
        exact ⟨by simp; omega, (List.take_append_drop 32 r).symm⟩
      · cases h
    · rintro ⟨h1, rfl⟩
      have := getBytes_append p q
      rw [h1] at this
      exact this
  unfold loadX25519
  rw [bind_ok_iff]
  constructor
  · rintro ⟨r, hr, h⟩
    rw [keyVersion_iff] at hr
    subst hr
    split at h
    · cases h
    · rename_i p r2 hp
      obtain ⟨hl, rfl⟩ := (gb _ _ _).mp hp
      split at h
      · rename_i hc
        split at h
        · rename_i hpub
          cases h
          exact ⟨hl, hc, Or.inl ⟨hpub, rfl, r2, rfl⟩⟩
        · rename_i hpub
          split at h
          · cases h
          · rename_i q r3 hq
            obtain ⟨hl2, rfl⟩ := (gb _ _ _).mp hq
            cases h
            exact ⟨hl, hc, Or.inr ⟨by simpa using hpub, q, r3, hl2, rfl, by simp⟩⟩
      · cases h
  · rintro ⟨hl, hc, ⟨hp, rfl, rest, rfl⟩ | ⟨hp, p, rest, hl2, rfl, rfl⟩⟩
    · refine ⟨pub ++ rest, (keyVersion_iff _ _).mpr rfl, ?_⟩
      rw [(gb _ pub rest).mpr ⟨hl, rfl⟩]
      simp [hc, hp]
    · refine ⟨pub ++ p ++ rest, (keyVersion_iff _ _).mpr rfl, ?_⟩
      rw [(gb _ pub (p ++ rest)).mpr ⟨hl, by simp⟩]
      simp only [hc, if_true, hp]
      rw [(gb _ p rest).mpr ⟨hl2, rfl⟩]
      rfl

/-- C29. What Ed25519 accepts: version 1 and exactly 32 or 64 bytes. -/
theorem load_ed25519_iff (key : Bytes) (isPublic : Bool) (pub : Bytes) (priv : PrivKey) :
    loadEd25519 key isPublic = .ok (pub, priv) ↔
      (isPublic = true ∧ pub.length = 32 ∧ priv = .typedNil ∧ key = 1 :: pub) ∨
      (isPublic = false ∧ ∃ p, p.length = 64 ∧ pub = p.drop 32 ∧ priv = .key p ∧ key = 1 :: p) := by
  unfold loadEd25519
  rw [bind_ok_iff]
  constructor
  · rintro ⟨r, hr, h⟩
    rw [keyVersion_iff] at hr
    subst hr
    split at h
    · rename_i hp
      split at h
      · cases h
      · rename_i hl
        cases h
        exact Or.inl ⟨hp, by simpa using hl, rfl, rfl⟩
    · rename_i hp
      split at h
      · cases h
      · rename_i hl
        cases h
        exact Or.inr ⟨by simpa using hp, r, by simpa using hl, rfl, rfl, rfl⟩
  · rintro (⟨hp, hl, rfl, rfl⟩ | ⟨hp, p, hl, rfl, rfl, rfl⟩)
    · exact ⟨pub, (keyVersion_iff _ _).mpr rfl, by simp [hp, hl]⟩
    · exact ⟨p, (keyVersion_iff _ _).mpr rfl, by simp [hp, hl]⟩

/-- C29. Everything that is accepted has version 1. -/
theorem key_version_checked (K : KeyLib) (tool key : Bytes) (isPublic : Bool) (x : Bytes × PrivKey)
    (h : toolLoadKey K tool key isPublic = .ok x) : ∃ r, key = 1 :: r := by
  have aux : ∀ (f : Bytes → Res (Bytes × PrivKey)), (keyVersion key >>= f) = .ok x → ∃ r, key = 1 :: r := by
    intro f h
    rw [bind_ok_iff] at h
    obtain ⟨r, hr, _⟩ := h
    exact ⟨r, (keyVersion_iff _ _).mp hr⟩
  unfold toolLoadKey at h
  cases hk : keyKind tool with
  | none => rw [hk] at h; cases h
  | some kind =>
    rw [hk] at h
    cases kind <;> exact aux _ h

theorem keyVersion_noPanic (key : Bytes) : (keyVersion key).noPanic := by
  unfold keyVersion Res.noPanic
  repeat' split
  all_goals simp

theorem getBlock_noPanic (c : Bytes) : (getBlock c).noPanic := by
  have hu : ∀ (c : Bytes) (i acc : Nat), uvarint i acc c ≠ .error .panic := by
    intro c
    induction c with
    | nil => intro i acc; simp [uvarint]
    | cons b bs ih =>
      intro i acc
      unfold uvarint
      repeat' split
      all_goals first | exact ih _ _ | simp
  unfold getBlock Res.noPanic
  split
  · rename_i e he
    intro h; cases h
    exact hu _ _ _ he
  · unfold getBytes; split <;> simp

/-- C29. Loading any bytes never panics. -/
theorem load_total (K : KeyLib) (tool key : Bytes) (isPublic : Bool) : (toolLoadKey K tool key isPublic).noPanic := by
  have hb : ∀ {α β : Type} (x : Res α) (f : α → Res β), x.noPanic → (∀ a, x = .ok a → (f a).noPanic) → (x >>= f).noPanic := by
    intro α β x f hx hf
    cases x with
    | error e => rw [error_bind]; intro h; cases h; exact hx rfl
    | ok a => rw [ok_bind]; exact hf a rfl
  unfold toolLoadKey
  cases hk : keyKind tool with
  | none => simp [Res.noPanic]
  | some kind =>
    cases kind with
    | x25519 =>
      show (loadX25519 K key isPublic).noPanic
      unfold loadX25519
      refine hb _ _ (keyVersion_noPanic key) fun r _ => ?_
      unfold Res.noPanic
      repeat' split
      all_goals simp
    | nist =>
      show (loadNist K tool key isPublic).noPanic
      unfold loadNist
      refine hb _ _ (keyVersion_noPanic key) fun r _ => hb _ _ (getBlock_noPanic _) fun a _ => ?_
      obtain ⟨x, r1⟩ := a
      refine hb _ _ (getBlock_noPanic _) fun a _ => ?_
      obtain ⟨y, r2⟩ := a
      unfold Res.noPanic
      simp only
      split <;> simp
    | ed25519 =>
      show (loadEd25519 key isPublic).noPanic
      unfold loadEd25519
      refine hb _ _ (keyVersion_noPanic key) fun r _ => ?_
      unfold Res.noPanic
      repeat' split
      all_goals simp
    | rsa =>
      show (loadRSA K key isPublic).noPanic
      unfold loadRSA
      refine hb _ _ (keyVersion_noPanic key) fun r _ => ?_
      unfold Res.noPanic
      repeat' split
      all_goals simp

/-- C29. What the NIST curves accept: version 1, two coordinates of a point that passes the check; the rest is the private key. -/
theorem load_nist_iff (K : KeyLib) (curve key : Bytes) (isPublic : Bool) (pub : Bytes) (priv : PrivKey) :
    loadNist K curve key isPublic = .ok (pub, priv) ↔
      ∃ r x r1 y r2, key = 1 :: r ∧ getBlock r = .ok (x, r1) ∧ getBlock r1 = .ok (y, r2) ∧
        K.checkNist curve (natOfBytes x) (natOfBytes y) = true ∧ pub = point (natOfBytes x) (natOfBytes y) ∧
        priv = if isPublic then .nil else .key r2 := by
  unfold loadNist
  simp only [bind_ok_iff, keyVersion_iff]
  constructor
  · rintro ⟨r, hr, ⟨x, r1⟩, hx, ⟨y, r2⟩, hy, h⟩
    simp only at h hx hy
    split at h
    · rename_i hc
      cases h
      exact ⟨r, x, r1, y, r2, hr, hx, hy, hc, rfl, rfl⟩
    · cases h
  · rintro ⟨r, x, r1, y, r2, hr, hx, hy, hc, rfl, rfl⟩
    exact ⟨r, hr, (x, r1), hx, (y, r2), hy, by simp [hc]⟩

/-- C29, finding: a private key of a NIST curve that was cut off is not rejected, the signet has an empty private key. -/
theorem nist_truncated_accepted (K : KeyLib) (tool : Bytes) (hk : keyKind tool = some .nist) (x y : Nat)
    (hc : K.checkNist tool x y = true) (hx : (natBytes x).length < 2 ^ 64) (hy : (natBytes y).length < 2 ^ 64) :
    toolLoadKey K tool (1 :: point x y) false = .ok (point x y, .key []) := by
  unfold toolLoadKey
  rw [hk]
  simp only
  rw [load_nist_iff]
  refine ⟨point x y, natBytes x, block (natBytes y), natBytes y, [], rfl, getBlock_block hx _, ?_, ?_, ?_, rfl⟩
  · have := getBlock_block hy []
    rwa [List.append_nil] at this
  · rw [natOfBytes_natBytes, natOfBytes_natBytes]; exact hc
  · rw [natOfBytes_natBytes, natOfBytes_natBytes]

/-- C29, finding: a public Ed25519 signet that was loaded holds a typed nil as private key. If its stored key is cleared and stored
again, it becomes a private signet without key, that can not be loaded any more. -/
theorem ed25519_public_restore (K : KeyLib) (key pub : Bytes) (priv : PrivKey)
    (h : toolLoadKey K b!"Ed25519" key true = .ok (pub, priv)) :
    ∃ k, toolStoreKey K b!"Ed25519" pub priv = .ok (k, false) ∧ ∀ b, toolLoadKey K b!"Ed25519" k b = .error .invalidKey := by
  have h : loadEd25519 key true = .ok (pub, priv) := h
  rcases (load_ed25519_iff _ _ _ _).mp h with ⟨_, _, rfl, _⟩ | ⟨h, _⟩
  · refine ⟨pack64 1 ++ [], rfl, fun b => ?_⟩
    show loadEd25519 (pack64 1 ++ []) b = _
    rw [pack64_one]
    cases b <;> rfl
  · cases h

/-- C29. `GenerateKey` only ever adds keys to a signet without any: otherwise it fails, and the signet is unchanged. -/
theorem generate_never_overwrites (P : Prims) (seed : Bytes) (s s' : Signet) (r : Res Unit)
    (h : s.generateKey P seed = (s', r)) :
    (s.key ≠ [] ∨ s.loadedPub ≠ none ∨ s.loadedPriv ≠ none → s' = s ∧ ∃ e, r = .error e) ∧
    (∀ e, r = .error e → s' = s) ∧
    (r = .ok () → s.key = [] ∧ s.loadedPub = none ∧ s.loadedPriv = none ∧
      ∃ pub priv, s' = { s with loadedPub := some pub, loadedPriv := some priv }) := by
  unfold Signet.generateKey at h
  split at h
  · rename_i hc
    cases h
    exact ⟨fun _ => ⟨rfl, _, rfl⟩, fun _ _ => rfl, fun h => by cases h⟩
  · rename_i hc
    simp only [Bool.or_eq_true, decide_eq_true_eq, not_or, Bool.not_eq_true, Option.isSome_eq_false_iff, Option.isNone_iff_eq_none,
      Nat.not_lt, Nat.le_zero_eq, List.length_eq_zero_iff] at hc
    obtain ⟨⟨h1, h2⟩, h3⟩ := hc
    have hno : ¬ (s.key ≠ [] ∨ s.loadedPub ≠ none ∨ s.loadedPriv ≠ none) := by simp [h1, h2, h3]
    split at h
    · cases h
      exact ⟨fun h => absurd h hno, fun _ _ => rfl, fun h => by cases h⟩
    · split at h
      · split at h
        · cases h
          exact ⟨fun h => absurd h hno, fun _ _ => rfl, fun h => by cases h⟩
        · rename_i pub priv hg
          cases h
          exact ⟨fun h => absurd h hno, (fun e h => by cases h), fun _ => ⟨h1, h3, h2, pub, priv, rfl⟩⟩
      · cases h
        exact ⟨fun h => absurd h hno, fun _ _ => rfl, fun h => by cases h⟩

/-- C29 for signets: a signet with a loaded key pair (or public key) that is stored, written and read (which keeps only the stored
key) and loaded again is the same signet. -/
theorem signet_key_round_trip (P : Prims) (K : KeyLib) (rsaPair : Bytes → Bytes → Prop) (hP : P.UsesCodec K) (hK : K.Sound rsaPair)
    (s : Signet) (pub priv : Bytes) (hk : s.key = []) (hprot : s.protection = false) (hpub : s.loadedPub = some pub)
    (hpriv : s.loadedPriv = some priv ∨ s.loadedPriv = none) (hpair : KeyPair K rsaPair s.scheme pub priv)
    (htool : ∃ t, getTool s.scheme = some t ∧ t.name = s.scheme ∧ t.purpose.usesSignets = true) :
    ∃ s', s.store P = .ok s' ∧ s'.isPublic = s.loadedPriv.isNone ∧ s'.loadedPub = s.loadedPub ∧ s'.loadedPriv = s.loadedPriv ∧
      { s' with loadedPub := none, loadedPriv := none }.load P = .ok s' := by
  obtain ⟨t, ht, hn, hu⟩ := htool
  obtain ⟨⟨k1, a1, a2⟩, ⟨k2, b1, p, b2, b3⟩⟩ := key_round_trip K rsaPair hK s.scheme pub priv hpair
  rcases hpriv with hpriv | hpriv
  · refine ⟨{ s with key := k1, isPublic := false }, ?_, by rw [hpriv]; rfl, rfl, rfl, ?_⟩
    · unfold Signet.store
      rw [hk, ht]
      simp only [hu, if_true, hpub, hpriv]
      rw [hP.store, hn]
      simp only [a1]
      rfl
    · unfold Signet.load
      simp only [Option.isSome_none, hprot, ht, hu, if_true]
      rw [hP.load, hn, a2]
      simp [Except.map, PrivKey.toOption, hpub, hpriv, hprot]
  · refine ⟨{ s with key := k2, isPublic := true }, ?_, by rw [hpriv]; rfl, rfl, rfl, ?_⟩
    · unfold Signet.store
      rw [hk, ht]
      simp only [hu, if_true, hpub, hpriv]
      rw [hP.store, hn]
      simp only [b1]
      rfl
    · unfold Signet.load
      simp only [Option.isSome_none, hprot, ht, hu, if_true]
      rw [hP.load, hn, b2]
      simp [Except.map, b3, hpub, hpriv, hprot]

/-- All tools that use signets have an implementation, and no others. -/
theorem keyKind_tools : ∀ t ∈ toolTable, (keyKind t.name).isSome = t.purpose.usesSignets := by decide +kernel

/-! Example: toy libraries. -/

/-- All keys pass the checks, RSA keys are stored as they are. -/
def toyLib : KeyLib where
  checkX := fun _ => true
  checkNist := fun _ x y => x + 1 == y
  parsePub := some
  parsePriv := fun b => some (b, b)
  marshalPub := id
  marshalPriv := id

theorem toyLib_sound : toyLib.Sound (fun pub priv => pub = priv) where
  pub := fun _ _ _ => rfl
  priv := fun _ _ h => by subst h; rfl

/-- The toy primitives, with the key serialization of the code. -/
def toyCodecPrims : Prims :=
  { toyPrims with
    loadKey := fun tool key isPublic => (toolLoadKey toyLib tool key isPublic).map (fun x => (x.1, x.2.toOption))
    storeKey := fun tool pub priv => (toolStoreKey toyLib tool pub (match priv with | none => .nil | some p => .key p)).map (·.1) }

theorem toyCodec_uses : toyCodecPrims.UsesCodec toyLib where
  load := fun _ _ _ => rfl
  store := fun _ _ _ => rfl

/-- The hypotheses can be met for all implementations. -/
theorem keyPair_examples :
    KeyPair toyLib (fun pub priv => pub = priv) b!"ECDH-X25519" (List.replicate 32 7) (List.replicate 32 9) ∧
    KeyPair toyLib (fun pub priv => pub = priv) b!"ECDH-P256" (point 1000 1001) [1, 2, 3] ∧
    KeyPair toyLib (fun pub priv => pub = priv) b!"Ed25519" (List.replicate 32 3) (List.replicate 64 3) ∧
    KeyPair toyLib (fun pub priv => pub = priv) b!"RSA-PSS" [5, 6] [5, 6] := by
  refine ⟨⟨by decide, by decide, rfl⟩, ⟨1000, 1001, rfl, rfl, ?_, ?_⟩, ⟨by decide, by decide⟩, rfl⟩ <;> decide +kernel

/-- A generated signet, stored and loaded. -/
theorem signet_key_example :
    let s : Signet := { version := 1, id := b!"a", scheme := b!"Ed25519", loadedPub := some (List.replicate 32 3), loadedPriv := some (List.replicate 64 3) }
    ∃ s', s.store toyCodecPrims = .ok s' ∧ s'.key = 1 :: List.replicate 64 3 ∧ s'.isPublic = false := by
  refine ⟨_, rfl, ?_, rfl⟩
  decide +kernel

end Jess
