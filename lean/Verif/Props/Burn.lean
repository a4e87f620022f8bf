import Verif.Model.Burn
import Verif.Props.Memory
import Verif.Props.KeyCodec

/-! # C83: what is left of a key after `Signet.Burn` -/

namespace Jess

/-! ## Specification -/

/-- What a program that holds the key sees of it. -/
inductive KeyValue where
  | bytes (b : Bytes)
  | point (x y : Nat)
  | rsaPub (n e : Nat)
  | rsaPriv (c : RsaCell)
  deriving DecidableEq, Repr

/-- The value of a loaded key; `none`: there is no key. -/
def LoadedKey.value (m : KeyMem) : LoadedKey → Option KeyValue
  | .nil => none
  | .typedNil => none
  | .array b => some (.bytes b)
  | .point x y => some (.point x y)
  | .bytes s => some (.bytes (m.heap.read s))
  | .edKey s => some (.bytes (m.heap.read s))
  | .rsaPub a => (m.rsa[a]?).map (fun c => .rsaPub c.n c.e)
  | .rsaPriv a => (m.rsa[a]?).map .rsaPriv

/-- The types and the memory that loaded keys have: those of a new, of a loaded and of a recipient signet (`loaded_keys`,
`generated_keys`, `recipient_keys`). -/
def KeyTypes (k : KeyKind) (m : KeyMem) (pub priv : LoadedKey) : Prop :=
  match k with
  | .x25519 => (∃ b, pub = .array b) ∧ (priv = .nil ∨ ∃ b, priv = .array b)
  | .nist => (∃ x y, pub = .point x y) ∧ (priv = .nil ∨ ∃ s : Slice, priv = .bytes s ∧ s.Wf m.heap)
  | .ed25519 => (∃ s : Slice, pub = .edKey s ∧ s.Wf m.heap) ∧ (priv = .nil ∨ priv = .typedNil ∨ ∃ s : Slice, priv = .edKey s ∧ s.Wf m.heap)
  | .rsa => ∃ a, a < m.rsa.length ∧ pub = .rsaPub a ∧ (priv = .nil ∨ priv = .typedNil ∨ priv = .rsaPriv a)

/-- The documentation of `Burn`, in a weak form: afterwards the loaded private key is not the one it was. -/
def BurnDestroys : Prop :=
  ∀ (K : KeyLib) (R : RsaLib) (m m1 m2 : KeyMem) (s s1 : MemSignet) (v : KeyValue), s.keySlice.Wf m.heap →
    s.loadKey K R m = (m1, s1, .ok ()) → s1.priv.value m1 = some v → s1.burn m1 = (m2, .ok ()) → s1.priv.value m2 ≠ some v

/-- An all-zero RSA key. -/
def RsaCell.Zero (c : RsaCell) : Prop :=
  c.n = 0 ∧ c.e = 0 ∧ ∀ s, c.secret = some s → s.d = 0 ∧ (∀ p ∈ s.primes, p = 0) ∧ ∀ p ∈ s.pre, p = 0

/-! ## Memory -/

theorem read_of_bytes {h h' : Heap} {s : Slice} (hs : s.Wf h)
    (hb : ∀ i b, byteAt h s.arr i = some b → s.off ≤ i → i < s.off + s.len → byteAt h' s.arr i = some b) : h'.read s = h.read s := by
  obtain ⟨a, h1, h2, h3⟩ := hs
  have hbyte : ∀ i, i < a.length → byteAt h s.arr i = a[i]? := fun i _ => by simp only [byteAt, h1, Option.bind_some]
  by_cases hz : s.len = 0
  · simp only [Heap.read, hz, List.take_zero]
  have h0 := hb s.off (a[s.off]'(by omega)) (by rw [hbyte _ (by omega)]; exact List.getElem?_eq_getElem _) (Nat.le_refl _) (by omega)
  unfold byteAt at h0
  obtain ⟨a', ha', _⟩ := Option.bind_eq_some_iff.mp h0
  simp only [Heap.read, h1, ha', Option.getD_some]
  apply List.ext_getElem?
  intro i
  simp only [List.getElem?_take, List.getElem?_drop]
  split
  · rename_i hi
    have hlt : s.off + i < a.length := by omega
    have := hb (s.off + i) a[s.off + i] (by rw [hbyte _ hlt]; exact List.getElem?_eq_getElem _) (by omega) (by omega)
    simp only [byteAt, ha', Option.bind_some] at this
    rw [this, List.getElem?_eq_getElem hlt]
  · rfl

theorem read_of_unchanged {h h' : Heap} {s : Slice} (hs : s.Wf h) (hu : Unchanged h h') : h'.read s = h.read s :=
  read_of_bytes hs (fun i b hb _ _ => hu _ i b hb)

theorem burnSlice_read {h : Heap} {s : Slice} (hs : s.Wf h) : (burnSlice h s).read s = List.replicate s.len 255 := by
  have hl : (List.replicate s.len (255 : UInt8)).length ≤ s.cap := by
    obtain ⟨a, _, _, h3⟩ := hs
    simpa using h3
  have := read_write hs hl
  simpa [burnSlice] using this

theorem burnSlice_only {h : Heap} {s : Slice} (hs : s.Wf h) : OnlyChanged h (burnSlice h s) s := by
  intro arr i b hb hn
  have hl : (List.replicate s.len (255 : UInt8)).length ≤ s.cap := by
    obtain ⟨a, _, _, h3⟩ := hs
    simpa using h3
  unfold burnSlice
  rw [byteAt_write hs hl (by simpa using hn)]
  exact hb

theorem burnCopy_unchanged (m : KeyMem) (k : LoadedKey) : Unchanged m.heap (burnCopy m k).heap ∧ (burnCopy m k).rsa = m.rsa := by
  cases k
  case array b =>
    refine ⟨?_, rfl⟩
    intro arr i x hx
    have h1 := alloc_unchanged m.heap b arr i x hx
    refine burnSlice_only (alloc_wf _ _) arr i x h1 ?_
    intro hh
    have := byteAt_lt hx
    simp only [Heap.alloc] at hh
    omega
  all_goals exact ⟨unchanged_refl _, rfl⟩

/-! ## Which keys signets have -/

theorem keyKind_tool {n : Bytes} {k : KeyKind} (h : keyKind n = some k) : ∃ t, getTool n = some t ∧ t.name = n := by
  have hn : n ∈ [b!"ECDH-X25519", b!"ECDH-P224", b!"ECDH-P256", b!"ECDH-P384", b!"ECDH-P521", b!"Ed25519", b!"RSA-PSS", b!"RSA-OAEP"] := by
    unfold keyKind at h
    split at h
    · rename_i h1; simp [h1]
    · split at h
      · rename_i h1
        simp only [List.mem_cons, List.not_mem_nil, or_false] at h1 ⊢
        rcases h1 with h1 | h1 | h1 | h1 <;> simp [h1]
      · split at h
        · rename_i h1; simp [h1]
        · split at h
          · rename_i h1
            simp only [List.mem_cons, List.not_mem_nil, or_false] at h1 ⊢
            rcases h1 with h1 | h1 <;> simp [h1]
          · cases h
  have hall : ∀ n ∈ [b!"ECDH-X25519", b!"ECDH-P224", b!"ECDH-P256", b!"ECDH-P384", b!"ECDH-P521", b!"Ed25519", b!"RSA-PSS", b!"RSA-OAEP"],
      (getTool n).map (·.name) = some n := by decide +kernel
  have := hall n hn
  cases hg : getTool n with
  | none => rw [hg] at this; cases this
  | some t => rw [hg] at this; exact ⟨t, rfl, by simpa using this⟩

theorem rest_wf {h : Heap} {s : Slice} (hs : s.Wf h) {n : Nat} (hn : n ≤ s.len) : (s.rest n).Wf h := by
  obtain ⟨a, h1, h2, h3⟩ := hs
  exact ⟨a, h1, by simp only [Slice.rest]; omega, by simp only [Slice.rest]; omega⟩

theorem rest_read {h : Heap} {s : Slice} (hs : s.Wf h) {p r : Bytes} (hr : h.read s = p ++ r) : h.read (s.rest r.length) = r := by
  have hl := wf_len hs
  obtain ⟨a, h1, h2, h3⟩ := hs
  have hlen : p.length + r.length = s.len := by rw [← hl, hr, List.length_append]
  have he : h.read (s.rest r.length) = (h.read s).drop p.length := by
    simp only [Heap.read, Slice.rest, h1, Option.getD_some]
    rw [List.drop_take, List.drop_drop]
    congr 2
    · omega
    · omega
  rw [he, hr, List.drop_left]

/-- Overwriting the end of a slice. -/
theorem write_tail {h : Heap} {s : Slice} (hs : s.Wf h) {p r d : Bytes} (hr : h.read s = p ++ r) (hd : d.length = r.length) :
    (h.write (s.rest r.length) d).read s = p ++ d := by
  have hl := wf_len hs
  obtain ⟨a, h1, h2, h3⟩ := hs
  have hlen : p.length + r.length = s.len := by rw [← hl, hr, List.length_append]
  have hlt : s.arr < h.arrays.length := (List.getElem?_eq_some_iff.mp h1).1
  have hread : (a.drop s.off).take s.len = p ++ r := by rw [← hr]; simp only [Heap.read, h1, Option.getD_some]
  have hsub : s.len - r.length = p.length := by omega
  have ht : a.take (s.off + p.length) = a.take s.off ++ p := by
    rw [List.take_add]
    congr 1
    have := congrArg (List.take p.length) hread
    rw [List.take_take, Nat.min_eq_left (by omega), List.take_left] at this
    exact this
  simp only [Heap.read, Heap.write, Slice.rest, h1, Option.getD_some, List.getElem?_set, hlt, if_true, hsub, ht]
  have hA : (a.take s.off).length = s.off := by simp only [List.length_take]; omega
  rw [List.append_assoc, List.append_assoc]
  rw [List.drop_append, List.drop_of_length_le (by omega), hA, Nat.sub_self, List.drop_zero, List.nil_append, ← List.append_assoc,
    List.take_append, List.take_of_length_le (by rw [List.length_append]; omega)]
  have : s.len - (p ++ d).length = 0 := by rw [List.length_append]; omega
  rw [this, List.take_zero, List.append_nil]

theorem keyVersion_len {h : Heap} {s : Slice} (hs : s.Wf h) {r : Bytes} (hv : keyVersion (h.read s) = .ok r) : r.length < s.len := by
  rw [keyVersion_iff] at hv
  have := wf_len hs
  rw [hv] at this
  simp only [List.length_cons] at this
  omega

theorem wf_alloc {h : Heap} {s : Slice} (hs : s.Wf h) (d : Bytes) : s.Wf (h.alloc d).1 := by
  obtain ⟨a, h1, h2⟩ := hs
  have hlt : s.arr < h.arrays.length := (List.getElem?_eq_some_iff.mp h1).1
  exact ⟨a, by simp only [Heap.alloc]; rw [List.getElem?_append_left hlt]; exact h1, h2⟩

/-- Loaded keys in memory are those of `toolLoadKey`. -/
def SameKeys (R : RsaLib) (k : KeyKind) (m : KeyMem) (pub priv : LoadedKey) (pb : Bytes) (pv : PrivKey) : Prop :=
  match k with
  | .x25519 | .ed25519 => pub.value m = some (.bytes pb) ∧ priv.value m = pv.toOption.map .bytes
  | .nist => (∃ x y, pub.value m = some (.point x y) ∧ pb = point x y) ∧ priv.value m = pv.toOption.map .bytes
  | .rsa => pub.value m = some (.rsaPub (R.pubOf pb).1 (R.pubOf pb).2) ∧
      priv.value m = pv.toOption.map (fun p => .rsaPriv { n := (R.pubOf pb).1, e := (R.pubOf pb).2, secret := some (R.secretOf p) })

/-- `LoadKey` in memory: the keys of the value model, with the expected types; existing memory stays. -/
theorem memLoad_spec {K : KeyLib} {R : RsaLib} {k : KeyKind} {tool : Bytes} {m m1 : KeyMem} {key : Slice} {isPublic : Bool}
    {pub priv : LoadedKey} (hk : keyKind tool = some k) (hw : key.Wf m.heap)
    (h : memLoadKey K R k tool m key isPublic = .ok (m1, pub, priv)) :
    Unchanged m.heap m1.heap ∧ key.Wf m1.heap ∧ KeyTypes k m1 pub priv ∧
    ∃ pb pv, toolLoadKey K tool (m.heap.read key) isPublic = .ok (pb, pv) ∧ SameKeys R k m1 pub priv pb pv := by
  cases k with
  | x25519 =>
    simp only [memLoadKey] at h
    simp only [toolLoadKey, hk]
    cases hl : loadX25519 K (m.heap.read key) isPublic with
    | error e => rw [hl] at h; cases h
    | ok x =>
      obtain ⟨pb, pv⟩ := x
      rw [hl] at h
      cases pv with
      | key b =>
        cases h
        exact ⟨unchanged_refl _, hw, ⟨⟨_, rfl⟩, .inr ⟨_, rfl⟩⟩, _, _, rfl, rfl, rfl⟩
      | nil =>
        cases h
        exact ⟨unchanged_refl _, hw, ⟨⟨_, rfl⟩, .inl rfl⟩, _, _, rfl, rfl, rfl⟩
      | typedNil =>
        cases h
        exact ⟨unchanged_refl _, hw, ⟨⟨_, rfl⟩, .inl rfl⟩, _, _, rfl, rfl, rfl⟩
  | nist =>
    simp only [memLoadKey, bind_ok_iff] at h
    obtain ⟨r, hr, ⟨x, r1⟩, hx, ⟨y, r2⟩, hy, h⟩ := h
    simp only [toolLoadKey, hk, loadNist, hr, hx, hy, ok_bind]
    simp only at h
    by_cases hc : K.checkNist tool (natOfBytes x) (natOfBytes y) = true
    · simp only [hc, if_true] at h ⊢
      cases h
      have hv := (keyVersion_iff _ _).mp hr
      obtain ⟨p1, _, e1⟩ := getBlock_suffix hx
      obtain ⟨p2, _, e2⟩ := getBlock_suffix hy
      simp only at e1 e2
      have hall : m.heap.read key = (1 :: (p1 ++ x ++ (p2 ++ y))) ++ r2 := by
        rw [hv, e1, e2]
        simp only [List.append_assoc, List.cons_append]
      have hle : r2.length ≤ key.len := by
        have := wf_len hw
        rw [hall, List.length_append] at this
        omega
      refine ⟨unchanged_refl _, hw, ⟨⟨_, _, rfl⟩, ?_⟩, _, _, rfl, ⟨_, _, rfl, rfl⟩, ?_⟩
      · cases isPublic with
        | true => exact .inl rfl
        | false => exact .inr ⟨_, rfl, rest_wf hw hle⟩
      · cases isPublic with
        | true => rfl
        | false =>
          show some (KeyValue.bytes (m.heap.read (key.rest r2.length))) = some (.bytes r2)
          rw [rest_read hw hall]
    · simp only [hc] at h
      cases h
  | ed25519 =>
    simp only [memLoadKey, bind_ok_iff] at h
    obtain ⟨r, hr, h⟩ := h
    have hv := (keyVersion_iff _ _).mp hr
    have hlt := keyVersion_len hw hr
    simp only [toolLoadKey, hk, loadEd25519, hr, ok_bind]
    have hr' : m.heap.read key = [1] ++ r := hv
    cases isPublic with
    | true =>
      simp only [if_true] at h ⊢
      by_cases hn : r.length = 32
      · simp only [hn, ne_eq, not_true_eq_false, if_false] at h ⊢
        cases h
        have := rest_read hw hr'
        rw [hn] at this
        exact ⟨unchanged_refl _, hw, ⟨⟨_, rfl, rest_wf hw (by omega)⟩, .inr (.inl rfl)⟩, _, _, rfl,
          congrArg (fun b => some (KeyValue.bytes b)) this, rfl⟩
      · simp only [hn, ne_eq, not_false_eq_true, if_true] at h
        cases h
    | false =>
      simp only [Bool.false_eq_true, if_false] at h ⊢
      by_cases hn : r.length = 64
      · simp only [hn, ne_eq, not_true_eq_false, if_false] at h ⊢
        cases h
        have hrd := rest_read hw hr'
        rw [hn] at hrd
        have hrw := rest_wf hw (n := 64) (by omega)
        refine ⟨alloc_unchanged _ _, wf_alloc hw _, ⟨⟨_, rfl, alloc_wf _ _⟩, .inr (.inr ⟨_, rfl, wf_alloc hrw _⟩)⟩, _, _, rfl, ?_, ?_⟩
        · exact congrArg (fun b => some (KeyValue.bytes b)) (alloc_read _ _)
        · exact congrArg (fun b => some (KeyValue.bytes b)) ((read_of_unchanged hrw (alloc_unchanged _ _)).trans hrd)
      · simp only [hn, ne_eq, not_false_eq_true, if_true] at h
        cases h
  | rsa =>
    simp only [memLoadKey, bind_ok_iff] at h
    obtain ⟨r, hr, h⟩ := h
    simp only [toolLoadKey, hk, loadRSA, hr, ok_bind]
    cases isPublic with
    | true =>
      simp only [if_true] at h ⊢
      cases hp : K.parsePub r with
      | none => rw [hp] at h; cases h
      | some pb =>
        rw [hp] at h
        cases h
        refine ⟨unchanged_refl _, hw, ⟨_, by simp [KeyMem.newRsa], rfl, .inr (.inl rfl)⟩, _, _, rfl, ?_, rfl⟩
        simp [LoadedKey.value, KeyMem.newRsa]
    | false =>
      simp only [Bool.false_eq_true, if_false] at h ⊢
      cases hp : K.parsePriv r with
      | none => rw [hp] at h; cases h
      | some x =>
        obtain ⟨pb, pv⟩ := x
        rw [hp] at h
        cases h
        refine ⟨unchanged_refl _, hw, ⟨_, by simp [KeyMem.newRsa], rfl, .inr (.inr rfl)⟩, _, _, rfl, ?_, ?_⟩
        · simp [LoadedKey.value, KeyMem.newRsa]
        · simp [LoadedKey.value, KeyMem.newRsa, PrivKey.toOption]

/-- New keys have the expected types. -/
theorem generated_keys (k : KeyKind) (m : KeyMem) (pub priv : Bytes) (x y : Nat) (c : RsaCell) :
    KeyTypes k (memNewKeys k m pub priv x y c).1 (memNewKeys k m pub priv x y c).2.1 (memNewKeys k m pub priv x y c).2.2 := by
  cases k with
  | x25519 => exact ⟨⟨_, rfl⟩, .inr ⟨_, rfl⟩⟩
  | nist => exact ⟨⟨_, _, rfl⟩, .inr ⟨_, rfl, alloc_wf _ _⟩⟩
  | ed25519 => exact ⟨⟨_, rfl, wf_alloc (alloc_wf _ _) _⟩, .inr (.inr ⟨_, rfl, alloc_wf _ _⟩)⟩
  | rsa => exact ⟨_, by simp [memNewKeys, KeyMem.newRsa], rfl, .inr (.inr rfl)⟩

/-- Loading a signet whose keys are not loaded. -/
theorem loadKey_fresh {K : KeyLib} {R : RsaLib} {m m1 : KeyMem} {s s1 : MemSignet} {k : KeyKind} (hk : keyKind s.scheme = some k)
    (hp : s.pub = .nil) (h : s.loadKey K R m = (m1, s1, .ok ())) :
    ∃ pub priv, memLoadKey K R k s.scheme m s.keySlice s.isPublic = .ok (m1, pub, priv) ∧ s1 = { s with pub := pub, priv := priv } := by
  obtain ⟨t, ht, hn⟩ := keyKind_tool hk
  unfold MemSignet.loadKey at h
  simp only [hp, ne_eq, not_true_eq_false, if_false, ht, hn, hk] at h
  split at h
  · cases h
  · cases hl : memLoadKey K R k s.scheme m s.keySlice s.isPublic with
    | error e => rw [hl] at h; cases h
    | ok x =>
      obtain ⟨m', pub, priv⟩ := x
      rw [hl] at h
      cases h
      exact ⟨_, _, rfl, rfl⟩

/-- A recipient has keys of the expected types, if the signet has. -/
theorem recipient_keys {k : KeyKind} {m : KeyMem} {pub priv : LoadedKey} (h : KeyTypes k m pub priv) : KeyTypes k m pub .nil := by
  cases k with
  | x25519 => exact ⟨h.1, .inl rfl⟩
  | nist => exact ⟨h.1, .inl rfl⟩
  | ed25519 => exact ⟨h.1, .inl rfl⟩
  | rsa =>
    obtain ⟨a, h1, h2, _⟩ := h
    exact ⟨a, h1, h2, .inl rfl⟩

/-! ## What burning does -/

/-- What `Burn` does to a signet with loaded keys: X25519 and Ed25519 keys stay as they are, although no error is returned. The private key of a
NIST curve is overwritten; its public key stays. All numbers of an RSA key become zero. Nothing else in memory changes. -/
theorem burn_effect_partial {k : KeyKind} {m : KeyMem} {s : MemSignet} (hk : keyKind s.scheme = some k) (ht : KeyTypes k m s.pub s.priv) :
    ∃ m', s.burn m = (m', .ok ()) ∧
    (k = .x25519 ∨ k = .ed25519 → Unchanged m.heap m'.heap ∧ m'.rsa = m.rsa ∧ s.pub.value m' = s.pub.value m ∧ s.priv.value m' = s.priv.value m) ∧
    (k = .nist → m'.rsa = m.rsa ∧ s.pub.value m' = s.pub.value m ∧ (s.priv = .nil → m' = m) ∧
      ∀ sl, s.priv = .bytes sl → OnlyChanged m.heap m'.heap sl ∧ s.priv.value m' = some (.bytes (List.replicate sl.len 255))) ∧
    (k = .rsa → m'.heap = m.heap ∧ s.pub.value m' = some (.rsaPub 0 0) ∧ (∀ c, s.priv.value m' = some (.rsaPriv c) → c.Zero) ∧
      ∀ a, s.pub ≠ .rsaPub a → m'.rsa[a]? = m.rsa[a]?) := by
  obtain ⟨t, hg, hn⟩ := keyKind_tool hk
  simp only [MemSignet.burn, hg, hn, toolBurnKey, hk]
  cases k with
  | x25519 =>
    obtain ⟨⟨b, hb⟩, hp⟩ := ht
    refine ⟨_, rfl, fun _ => ?_, by simp, by simp⟩
    obtain ⟨u1, r1⟩ := burnCopy_unchanged m s.pub
    obtain ⟨u2, r2⟩ := burnCopy_unchanged (burnCopy m s.pub) s.priv
    refine ⟨unchanged_trans u1 u2, r2.trans r1, by rw [hb]; rfl, ?_⟩
    rcases hp with hp | ⟨b', hp⟩ <;> rw [hp] <;> rfl
  | nist =>
    obtain ⟨⟨x, y, hb⟩, hp⟩ := ht
    refine ⟨_, rfl, by simp, fun _ => ?_, by simp⟩
    rcases hp with hp | ⟨sl, hp, hw⟩
    · simp only [burnNist, hp]
      exact ⟨trivial, trivial, fun _ => trivial, fun sl h => (by cases h)⟩
    · simp only [burnNist, hp]
      refine ⟨trivial, by rw [hb]; rfl, fun h => (by cases h), fun sl' h => ?_⟩
      cases h
      exact ⟨burnSlice_only hw, congrArg (fun b => some (KeyValue.bytes b)) (burnSlice_read hw)⟩
  | ed25519 =>
    obtain ⟨⟨sl, hb, _⟩, hp⟩ := ht
    have he : burnEd25519 m s.pub s.priv = m := by
      simp only [burnEd25519, hb, burnBytes]
      rcases hp with hp | hp | ⟨sl', hp, _⟩ <;> rw [hp]
    rw [he]
    exact ⟨_, rfl, fun _ => ⟨unchanged_refl _, rfl, rfl, rfl⟩, by simp, by simp⟩
  | rsa =>
    obtain ⟨a, ha, hb, hp⟩ := ht
    refine ⟨_, rfl, by simp, by simp, fun _ => ?_⟩
    obtain ⟨c, hc⟩ : ∃ c, m.rsa[a]? = some c := ⟨_, List.getElem?_eq_getElem ha⟩
    rcases hp with hp | hp | hp
    · simp only [burnRSA, hb, hp, burnRsaPub, burnRsaPriv]
      refine ⟨trivial, ?_, fun c h => (by cases h), fun a' h => ?_⟩
      · simp [LoadedKey.value, List.getElem?_modify, hc, RsaCell.burnPub, burnBigInt]
      · have hne : a ≠ a' := by rintro rfl; exact h rfl
        simp [List.getElem?_modify, hne]
    · simp only [burnRSA, hb, hp, burnRsaPub, burnRsaPriv]
      refine ⟨trivial, ?_, fun c h => (by cases h), fun a' h => ?_⟩
      · simp [LoadedKey.value, List.getElem?_modify, hc, RsaCell.burnPub, burnBigInt]
      · have hne : a ≠ a' := by rintro rfl; exact h rfl
        simp [List.getElem?_modify, hne]
    · simp only [burnRSA, hb, hp, burnRsaPub, burnRsaPriv]
      refine ⟨trivial, ?_, fun c' h => ?_, fun a' h => ?_⟩
      · simp [LoadedKey.value, List.getElem?_modify, hc, RsaCell.burnPub, RsaCell.burnPriv, burnBigInt]
      · simp only [LoadedKey.value, List.getElem?_modify, hc, if_true, Option.map_eq_map, Option.map_some, Option.some.injEq, KeyValue.rsaPriv.injEq] at h
        subst h
        refine ⟨rfl, rfl, fun x hx => ?_⟩
        simp only [RsaCell.burnPriv, RsaCell.burnPub, Option.map_eq_some_iff] at hx
        obtain ⟨y, _, rfl⟩ := hx
        refine ⟨rfl, fun p hp => ?_, fun p hp => ?_⟩
        · simp only [RsaSecret.burn, List.mem_map] at hp
          obtain ⟨_, _, rfl⟩ := hp
          rfl
        · simp only [RsaSecret.burn, List.mem_map] at hp
          obtain ⟨_, _, rfl⟩ := hp
          rfl
      · have hne : a ≠ a' := by rintro rfl; exact h rfl
        simp [List.getElem?_modify, hne]

/-- Schemes without a tool that keeps keys: an error, and nothing changes. Passwords and keys in signets cannot be burnt. -/
theorem burn_unsupported (m : KeyMem) (s : MemSignet) (hk : keyKind s.scheme = none) : ∃ e, s.burn m = (m, .error e) := by
  unfold MemSignet.burn
  cases hg : getTool s.scheme with
  | none => exact ⟨_, rfl⟩
  | some t =>
    have hn : t.name = s.scheme := by
      have := List.find?_some hg
      simpa using this
    simp only [toolBurnKey, hn, hk]
    exact ⟨_, rfl⟩

/-! ## The stored key -/

theorem uvarint_stable : ∀ (c : Bytes) (i acc n : Nat) (r : Bytes), uvarint i acc c = .ok (n, r) →
    ∃ p, c = p ++ r ∧ ∀ q, uvarint i acc (p ++ q) = .ok (n, q)
  | [], i, acc, n, r, h => by simp [uvarint] at h
  | b :: bs, i, acc, n, r, h => by
    unfold uvarint at h
    split at h
    · cases h
    · rename_i h1
      split at h
      · rename_i h2
        split at h
        · cases h
        · rename_i h3
          cases h
          refine ⟨[b], rfl, fun q => ?_⟩
          show uvarint i acc (b :: q) = _
          unfold uvarint
          rw [if_neg h1, if_pos h2, if_neg h3]
      · rename_i h2
        obtain ⟨p, hp, hq⟩ := uvarint_stable bs _ _ _ _ h
        refine ⟨b :: p, by rw [hp]; rfl, fun q => ?_⟩
        show uvarint i acc (b :: (p ++ q)) = _
        unfold uvarint
        rw [if_neg h1, if_neg h2]
        exact hq q

theorem getBlock_stable {c x r : Bytes} (h : getBlock c = .ok (x, r)) : ∃ p, c = p ++ r ∧ ∀ q, getBlock (p ++ q) = .ok (x, q) := by
  unfold getBlock at h
  split at h
  · cases h
  · rename_i n c' hn
    obtain ⟨p, hp, hq⟩ := uvarint_stable _ _ _ _ _ hn
    simp only [getBytes] at h
    split at h
    · rename_i hle
      cases h
      refine ⟨p ++ c'.take n, by rw [List.append_assoc, List.take_append_drop]; exact hp, fun q => ?_⟩
      have hx : (c'.take n).length = n := by simp only [List.length_take]; omega
      simp only [getBlock, getN64, List.append_assoc, hq]
      have := getBytes_append (c'.take n) q
      rwa [hx] at this
    · cases h

/-- The stored key after `Burn`: with a NIST curve the private key is the end of the stored key, and is overwritten there as well; loading
the stored key then gives the public key and a private key of 0xFF. With the other tools the stored key is left as it is. -/
theorem burn_stored_partial {K : KeyLib} {R : RsaLib} {k : KeyKind} {m m1 : KeyMem} {s s1 : MemSignet} (hk : keyKind s.scheme = some k)
    (hw : s.keySlice.Wf m.heap) (hf : s.pub = .nil) (h : s.loadKey K R m = (m1, s1, .ok ())) :
    ∃ m2, s1.burn m1 = (m2, .ok ()) ∧
    (k ≠ .nist ∨ s.isPublic = true → m2.heap.read s.keySlice = m.heap.read s.keySlice) ∧
    (k = .nist → s.isPublic = false → ∃ front p pb, m.heap.read s.keySlice = front ++ p ∧ s1.priv.value m1 = some (.bytes p) ∧
      toolLoadKey K s.scheme (m.heap.read s.keySlice) false = .ok (pb, .key p) ∧
      m2.heap.read s.keySlice = front ++ List.replicate p.length 255 ∧
      toolLoadKey K s.scheme (m2.heap.read s.keySlice) false = .ok (pb, .key (List.replicate p.length 255))) := by
  obtain ⟨pub, priv, hl, rfl⟩ := loadKey_fresh hk hf h
  obtain ⟨hu, hw1, hty, pb, pv, htl, _⟩ := memLoad_spec hk hw hl
  obtain ⟨m2, hb, e1, e2, e3⟩ := burn_effect_partial (s := { s with pub := pub, priv := priv }) hk hty
  refine ⟨m2, hb, fun hh => ?_, fun hn hp => ?_⟩
  · have hold := read_of_unchanged hw hu
    cases k with
    | x25519 => rw [← hold]; exact read_of_unchanged hw1 (e1 (.inl rfl)).1
    | ed25519 => rw [← hold]; exact read_of_unchanged hw1 (e1 (.inr rfl)).1
    | rsa => rw [← hold, (e3 rfl).1]
    | nist =>
      have hp : s.isPublic = true := by
        rcases hh with hh | hh
        · exact absurd rfl hh
        · exact hh
      simp only [memLoadKey, bind_ok_iff, hp] at hl
      obtain ⟨r, hr, ⟨x, r1⟩, hx, ⟨y, r2⟩, hy, hl⟩ := hl
      simp only [if_true] at hl
      split at hl
      · cases hl
        rw [(e2 rfl).2.2.1 rfl]
      · cases hl
  · subst hn
    simp only [memLoadKey, bind_ok_iff, hp] at hl
    obtain ⟨r, hr, ⟨x, r1⟩, hx, ⟨y, r2⟩, hy, hl⟩ := hl
    simp only [Bool.false_eq_true, if_false] at hl
    split at hl
    · rename_i hc
      cases hl
      have hv := (keyVersion_iff _ _).mp hr
      obtain ⟨p1, a1, b1⟩ := getBlock_stable hx
      obtain ⟨p2, a2, b2⟩ := getBlock_stable hy
      simp only at a1 a2 b1 b2
      have hall : m.heap.read s.keySlice = (1 :: (p1 ++ p2)) ++ r2 := by
        rw [hv, a1, a2]
        simp only [List.append_assoc, List.cons_append]
      have hlen := wf_len hw
      have hle : r2.length ≤ s.keySlice.len := by
        rw [hall, List.length_append] at hlen
        omega
      obtain ⟨_, _, _, e2⟩ := e2 rfl
      obtain ⟨ho, hval⟩ := e2 _ rfl
      have hback : m2.heap.read s.keySlice = (1 :: (p1 ++ p2)) ++ List.replicate r2.length 255 := by
        obtain ⟨m', hm', hm2⟩ : ∃ m', m' = burnSlice m.heap (s.keySlice.rest r2.length) ∧ m2.heap = m' := by
          refine ⟨_, rfl, ?_⟩
          obtain ⟨t, hg, hn⟩ := keyKind_tool hk
          simp only [MemSignet.burn, hg, hn, toolBurnKey, hk, burnNist, Prod.mk.injEq, and_true] at hb
          rw [← hb]
        rw [hm2, hm']
        exact write_tail hw hall (by simp [Slice.rest])
      refine ⟨_, _, point (natOfBytes x) (natOfBytes y), hall, ?_, ?_, hback, ?_⟩
      · show some (KeyValue.bytes (m.heap.read (s.keySlice.rest r2.length))) = some (.bytes r2)
        rw [rest_read hw hall]
      · simp only [toolLoadKey, hk, loadNist, hr, hx, hy, ok_bind, hc, if_true]
        rfl
      · rw [hback]
        have hv2 : keyVersion ((1 :: (p1 ++ p2)) ++ List.replicate r2.length 255) = .ok (p1 ++ (p2 ++ List.replicate r2.length 255)) := by
          rw [keyVersion_iff]
          simp only [List.append_assoc, List.cons_append]
        simp only [toolLoadKey, hk, loadNist, hv2, b1, b2, ok_bind, hc, if_true]
        rfl
    · cases hl

/-! ## Refutations and examples -/

/-- A library that accepts every key. -/
def laxKeys : KeyLib :=
  { checkX := fun _ => true, checkNist := fun _ _ _ => true, parsePub := some, parsePriv := fun b => some (b.take 1, b),
    marshalPub := id, marshalPriv := id }

/-- RSA keys of two primes that are the first two bytes. -/
def smallRsa : RsaLib :=
  { pubOf := fun b => ((b.headD 0).toNat, 65537),
    secretOf := fun b => { d := 7, primes := b.map UInt8.toNat, pre := [3] } }

/-- A signet with the stored key in the only array. -/
def storedSignet (scheme : Bytes) (n : Nat) : MemSignet := { scheme := scheme, key := some { arr := 0, off := 0, len := n, cap := n } }

/-- A stored X25519 key pair. -/
def x25519Mem : KeyMem := { heap := { arrays := [1 :: (List.replicate 32 5 ++ List.replicate 32 9)] }, rsa := [] }

/-- A stored key pair of a NIST curve: two coordinates of a byte, and a private key of three bytes. -/
def nistMem : KeyMem := { heap := { arrays := [[1, 1, 5, 1, 6, 7, 8, 9]] }, rsa := [] }

/-- A stored RSA key. -/
def rsaMem : KeyMem := { heap := { arrays := [[1, 11, 13]] }, rsa := [] }

/-- `Burn` returns no error and leaves the private key of an X25519 signet as it is. -/
theorem burn_refuted : ¬ BurnDestroys := by
  intro h
  refine h laxKeys smallRsa x25519Mem x25519Mem
    (MemSignet.burn x25519Mem (MemSignet.loadKey laxKeys smallRsa x25519Mem (storedSignet b!"ECDH-X25519" 65)).2.1).1
    (storedSignet b!"ECDH-X25519" 65) (MemSignet.loadKey laxKeys smallRsa x25519Mem (storedSignet b!"ECDH-X25519" 65)).2.1
    (.bytes (List.replicate 32 9)) ⟨1 :: (List.replicate 32 5 ++ List.replicate 32 9), rfl, by decide, by decide⟩ ?_ ?_ ?_ ?_
  all_goals decide +kernel

/-- Burning a recipient leaves the signet it was made of alone. -/
def BurnRecipientOnly (k : KeyKind) : Prop :=
  ∀ (K : KeyLib) (R : RsaLib) (m m1 m2 : KeyMem) (s s1 r : MemSignet), keyKind s.scheme = some k → s.keySlice.Wf m.heap → s.pub = .nil →
    s.asRecipient K R m = (m1, s1, .ok r) → r.burn m1 = (m2, .ok ()) →
    s1.pub.value m2 = s1.pub.value m1 ∧ s1.priv.value m2 = s1.priv.value m1 ∧ m2.heap.read s1.keySlice = m1.heap.read s1.keySlice

/-- The signet and the recipient made of it, of tools other than RSA. -/
theorem burn_recipient_partial {k : KeyKind} (hr : k ≠ .rsa) : BurnRecipientOnly k := by
  intro K R m m1 m2 s s1 r hk hw hf ha hb
  unfold MemSignet.asRecipient at ha
  split at ha
  · cases ha
  · cases hl : s.loadKey K R m with
    | mk m' x =>
      obtain ⟨s', x⟩ := x
      rw [hl] at ha
      cases x with
      | error e => cases ha
      | ok u =>
        cases ha
        obtain ⟨pub, priv, hm, rfl⟩ := loadKey_fresh hk hf hl
        obtain ⟨hu, hw1, hty, _⟩ := memLoad_spec hk hw hm
        obtain ⟨m3, hb3, e1, e2, _⟩ := burn_effect_partial (m := m1)
          (s := { scheme := s.scheme, key := none, isPublic := true, isProtected := false, pub := pub, priv := .nil }) hk (recipient_keys hty)
        have hm : m2 = m3 := by
          have := hb.symm.trans hb3
          cases this
          rfl
        subst hm
        cases k with
        | rsa => exact absurd rfl hr
        | nist =>
          rw [(e2 rfl).2.2.1 rfl]
          exact ⟨rfl, rfl, rfl⟩
        | x25519 =>
          obtain ⟨u1, u2, u3, _⟩ := e1 (.inl rfl)
          refine ⟨u3, ?_, read_of_unchanged hw1 u1⟩
          rcases hty.2 with hp | ⟨b, hp⟩ <;> simp only [hp, LoadedKey.value]
        | ed25519 =>
          obtain ⟨u1, u2, u3, _⟩ := e1 (.inr rfl)
          refine ⟨u3, ?_, read_of_unchanged hw1 u1⟩
          rcases hty.2 with hp | hp | ⟨b, hp, hbw⟩
          · simp only [hp, LoadedKey.value]
          · simp only [hp, LoadedKey.value]
          · simp only [hp, LoadedKey.value, read_of_unchanged hbw u1]

/-- An RSA recipient shares its public key with the signet: burning the recipient destroys the modulus of the private key. -/
theorem burn_recipient_refuted : ¬ BurnRecipientOnly .rsa := by
  intro h
  have := h laxKeys smallRsa rsaMem (MemSignet.asRecipient laxKeys smallRsa rsaMem (storedSignet b!"RSA-OAEP" 3)).1
    { heap := rsaMem.heap, rsa := [{ n := 0, e := 0, secret := some { d := 7, primes := [11, 13], pre := [3] } }] }
    (storedSignet b!"RSA-OAEP" 3) (MemSignet.asRecipient laxKeys smallRsa rsaMem (storedSignet b!"RSA-OAEP" 3)).2.1
    { scheme := b!"RSA-OAEP", key := none, isPublic := true, isProtected := false, pub := .rsaPub 0, priv := .nil }
    (by decide +kernel) ⟨[1, 11, 13], rfl, by decide, by decide⟩ rfl (by decide +kernel) (by decide +kernel)
  revert this
  decide +kernel

/-- Burning a stored key of a NIST curve: the private key is gone from the loaded and from the stored key. -/
example : (storedSignet b!"ECDH-P256" 8).loadKey laxKeys smallRsa nistMem =
      (nistMem, { storedSignet b!"ECDH-P256" 8 with pub := .point 5 6, priv := .bytes { arr := 0, off := 5, len := 3, cap := 3 } }, .ok ()) ∧
    MemSignet.burn nistMem { storedSignet b!"ECDH-P256" 8 with pub := .point 5 6, priv := .bytes { arr := 0, off := 5, len := 3, cap := 3 } } =
      ({ heap := { arrays := [[1, 1, 5, 1, 6, 255, 255, 255]] }, rsa := [] }, .ok ()) := by
  decide +kernel

/-- Burning an RSA key. -/
theorem burn_example :
    let x := (storedSignet b!"RSA-PSS" 3).loadKey laxKeys smallRsa rsaMem
    x.2.1.priv.value x.1 = some (.rsaPriv { n := 11, e := 65537, secret := some { d := 7, primes := [11, 13], pre := [3] } }) ∧
    x.2.1.burn x.1 = ({ heap := rsaMem.heap, rsa := [{ n := 0, e := 0, secret := some { d := 0, primes := [0, 0], pre := [0] } }] }, .ok ()) ∧
    (storedSignet b!"pw" 3).burn rsaMem = (rsaMem, .error .notFound) := by
  decide +kernel

end Jess
