import Verif.Model.Generate
import Verif.Props.DirStore
import Verif.Props.StoreLists
import Verif.Lemmas.Text

/-! # `jess generate` (C66) -/

namespace Jess

/-! ## IDs -/

/-- The bits of a byte of a UUID that are random: four bits tell the version, two the variant. -/
def uuidRandomBits (i : Nat) : UInt8 := if i = 6 then 0x0f else if i = 8 then 0x3f else 0xff

theorem u8_all {p : UInt8 → Prop} (h : ∀ n < 256, p (UInt8.ofNat n)) (x : UInt8) : p x := by
  have := h x.toNat x.toNat_lt
  rwa [UInt8.ofNat_toNat] at this

theorem hexChar_ok : ∀ n < 16, (48 ≤ (hexChar n).toNat ∧ (hexChar n).toNat ≤ 57) ∨ (97 ≤ (hexChar n).toNat ∧ (hexChar n).toNat ≤ 102) := by
  decide

theorem hexEncode_chars (d : Bytes) : ∀ c ∈ hexEncode d, (48 ≤ c.toNat ∧ c.toNat ≤ 57) ∨ (97 ≤ c.toNat ∧ c.toNat ≤ 102) := by
  intro c hc
  unfold hexEncode at hc
  obtain ⟨b, _, hc⟩ := List.mem_flatMap.1 hc
  have hb := b.toNat_lt
  simp only [List.mem_cons, List.not_mem_nil, or_false] at hc
  rcases hc with rfl | rfl
  · exact hexChar_ok _ (by omega)
  · exact hexChar_ok _ (by omega)

theorem hexEncode_length (d : Bytes) : (hexEncode d).length = 2 * d.length := by
  unfold hexEncode
  induction d with
  | nil => rfl
  | cons a d ih => rw [List.flatMap_cons, List.length_append, ih]; simp; omega

theorem hexEncode_inj {a b : Bytes} (h : hexEncode a = hexEncode b) : a = b := by
  have := hexDecode_encode a
  rw [h, hexDecode_encode] at this
  exact (Except.ok.inj this).symm

/-- C66. The ID of a new signet is a name that the directory store accepts. -/
theorem uuid_permitted (u : Bytes) (h : u.length = 16) : PermittedName (uuidText u) ∧ (uuidText u).length = 36 := by
  constructor
  · intro c hc
    have hx : ∀ d, c ∈ hexEncode d → (97 ≤ c.toNat ∧ c.toNat ≤ 122) ∨ (65 ≤ c.toNat ∧ c.toNat ≤ 90) ∨ (48 ≤ c.toNat ∧ c.toNat ≤ 57) ∨
        c ∈ [45, 32, 46, 95, 43, 64] := by
      intro d hd
      rcases hexEncode_chars d c hd with h | h
      · exact .inr (.inr (.inl h))
      · exact .inl ⟨h.1, by omega⟩
    unfold uuidText at hc
    simp only [List.mem_append, List.mem_cons, List.not_mem_nil, or_false] at hc
    rcases hc with (((((((h | rfl) | h) | rfl) | h) | rfl) | h) | rfl) | h
    all_goals first
      | exact hx _ h
      | exact .inr (.inr (.inr (by decide)))
  · unfold uuidText
    simp only [List.length_append, hexEncode_length, List.length_take, List.length_drop, List.length_cons, List.length_nil, h]
    rfl

theorem uuidText_inj {u v : Bytes} (hu : u.length = 16) (hv : v.length = 16) (h : uuidText u = uuidText v) : u = v := by
  unfold uuidText at h
  have e : ∀ (n m : Nat), (hexEncode ((u.drop n).take m)).length = (hexEncode ((v.drop n).take m)).length := by
    intro n m; simp [hexEncode_length, hu, hv]
  have e0 : ∀ (m : Nat), (hexEncode (u.take m)).length = (hexEncode (v.take m)).length := by
    intro m; simp [hexEncode_length, hu, hv]
  have e1 : ∀ (m : Nat), (hexEncode (u.drop m)).length = (hexEncode (v.drop m)).length := by
    intro m; simp [hexEncode_length, hu, hv]
  obtain ⟨h, p5⟩ := List.append_inj' h (e1 _)
  obtain ⟨h, _⟩ := List.append_inj' h rfl
  obtain ⟨h, p4⟩ := List.append_inj' h (e _ _)
  obtain ⟨h, _⟩ := List.append_inj' h rfl
  obtain ⟨h, p3⟩ := List.append_inj' h (e _ _)
  obtain ⟨h, _⟩ := List.append_inj' h rfl
  obtain ⟨h, p2⟩ := List.append_inj' h (e _ _)
  obtain ⟨p1, _⟩ := List.append_inj' h rfl
  have p1 := hexEncode_inj p1
  have p2 := hexEncode_inj p2
  have p3 := hexEncode_inj p3
  have p4 := hexEncode_inj p4
  have p5 := hexEncode_inj p5
  have split : ∀ w : Bytes, w = w.take 4 ++ ((w.drop 4).take 2 ++ ((w.drop 6).take 2 ++ ((w.drop 8).take 2 ++ w.drop 10))) := by
    intro w
    have a : ∀ (n m k : Nat), n + m = k → (w.drop n).take m ++ w.drop k = w.drop n := by
      intro n m k hk
      rw [← hk, ← List.drop_drop, List.take_append_drop]
    rw [a 8 2 10 rfl, a 6 2 8 rfl, a 4 2 6 rfl, List.take_append_drop]
  rw [split u, split v, p1, p2, p3, p4, p5]

/-- C66. Two IDs are the same only if all of the 122 random bits are the same. -/
theorem uuid_collision_iff (u v : Bytes) (hu : u.length = 16) (hv : v.length = 16) :
    uuidText (uuidMark u) = uuidText (uuidMark v) ↔ ∀ i, i < 16 → u.getD i 0 &&& uuidRandomBits i = v.getD i 0 &&& uuidRandomBits i := by
  have hlen : ∀ w : Bytes, w.length = 16 → (uuidMark w).length = 16 := by intro w hw; simp [uuidMark, hw]
  have hget : ∀ w : Bytes, w.length = 16 → ∀ i, i < 16 → (uuidMark w).getD i 0 =
      if i = 8 then (w.getD 8 0 &&& 0x3f) ||| 0x80 else if i = 6 then (w.getD 6 0 &&& 0x0f) ||| 0x40 else w.getD i 0 := by
    intro w hw i hi
    unfold uuidMark
    rw [List.getD_eq_getElem?_getD, List.getElem?_set, List.getElem?_set]
    by_cases h8 : i = 8
    · subst h8; simp [hw]
    · by_cases h6 : i = 6
      · subst h6; simp [hw]
      · have h8' : ¬ 8 = i := fun e => h8 e.symm
        have h6' : ¬ 6 = i := fun e => h6 e.symm
        simp [h8, h6, h8', h6', List.getD_eq_getElem?_getD]
  have b8 : ∀ x y : UInt8, (x &&& 0x3f) ||| 0x80 = (y &&& 0x3f) ||| 0x80 ↔ x &&& 0x3f = y &&& 0x3f := by
    intro x y
    constructor
    · intro h
      have := congrArg (fun z : UInt8 => z &&& 0x3f) h
      have key : ∀ x : UInt8, ((x &&& 0x3f) ||| 0x80) &&& 0x3f = x &&& 0x3f := u8_all (by decide +kernel)
      simp only [key] at this
      exact this
    · intro h; rw [h]
  have b6 : ∀ x y : UInt8, (x &&& 0x0f) ||| 0x40 = (y &&& 0x0f) ||| 0x40 ↔ x &&& 0x0f = y &&& 0x0f := by
    intro x y
    constructor
    · intro h
      have := congrArg (fun z : UInt8 => z &&& 0x0f) h
      have key : ∀ x : UInt8, ((x &&& 0x0f) ||| 0x40) &&& 0x0f = x &&& 0x0f := u8_all (by decide +kernel)
      simp only [key] at this
      exact this
    · intro h; rw [h]
  have bf : ∀ x : UInt8, x &&& 0xff = x := u8_all (by decide +kernel)
  constructor
  · intro h i hi
    have h1 := uuidText_inj (hlen u hu) (hlen v hv) h
    have h2 := congrArg (fun w : Bytes => w.getD i 0) h1
    simp only [hget u hu i hi, hget v hv i hi] at h2
    unfold uuidRandomBits
    by_cases h8 : i = 8
    · subst h8; simp only [if_true] at h2 ⊢; exact (b8 _ _).1 h2
    · by_cases h6 : i = 6
      · subst h6; simp at h2 ⊢; exact (b6 _ _).1 h2
      · simp only [h8, h6, if_false] at h2 ⊢; rw [h2]
  · intro h
    congr 1
    apply List.ext_getElem?
    intro i
    by_cases hi : i < 16
    · have h1 := h i hi
      have h2 : (uuidMark u).getD i 0 = (uuidMark v).getD i 0 := by
        rw [hget u hu i hi, hget v hv i hi]
        unfold uuidRandomBits at h1
        by_cases h8 : i = 8
        · subst h8; simp only [if_true]; rw [b8]; simpa using h1
        · by_cases h6 : i = 6
          · subst h6; simp; rw [b6]; simpa using h1
          · simp only [h8, h6, if_false, bf] at h1 ⊢; exact h1
      have hu' : i < (uuidMark u).length := by rw [hlen u hu]; exact hi
      have hv' : i < (uuidMark v).length := by rw [hlen v hv]; exact hi
      rw [List.getD_eq_getElem?_getD, List.getD_eq_getElem?_getD, List.getElem?_eq_getElem hu', List.getElem?_eq_getElem hv'] at h2
      rw [List.getElem?_eq_getElem hu', List.getElem?_eq_getElem hv']
      exact congrArg some h2
    · rw [List.getElem?_eq_none (by rw [hlen u hu]; omega), List.getElem?_eq_none (by rw [hlen v hv]; omega)]

/-! ## What is generated -/

/-- A key pair was generated for a tool: the signet with both keys, marked with the given ID and name (specification). -/
structure GeneratedPair (P : Prims) (seed u nm pub priv : Bytes) (s : Signet) : Prop where
  tool : ∃ t, getTool s.scheme = some t ∧ t.name = s.scheme ∧ t.purpose.usesSignets = true
  gen : P.genKey s.scheme seed = .ok (pub, priv)
  ident : s.id = uuidText (uuidMark u)
  named : s.info = some { name := nm }
  pub : s.loadedPub = some pub
  priv : s.loadedPriv = some priv
  kind : s.isPublic = false ∧ s.protection = false ∧ s.version = 1 ∧ s.signature = none
  stored : { s with key := [] }.store P = .ok s

theorem getTool_named {n : Bytes} {t : ToolInfo} (h : getTool n = some t) : t.name = n := by
  unfold getTool at h
  have := List.find?_some h
  simpa using this

theorem genSignet_tool {σ : Type} {E : GenEnv σ} {name scheme : Bytes} {s : Signet} {sc : Bytes} (h : genSignet E name scheme = .ok (s, sc))
    (hp : sc ≠ schemePassword) (hk : sc ≠ schemeKey) :
    s.scheme = sc ∧ ∃ nm u pub priv, flagOrAsk name E.askName = .ok nm ∧ flagOrAsk scheme E.askScheme = .ok sc ∧ E.uuid = .ok u ∧
      GeneratedPair E.P E.seed u nm pub priv s := by
  simp only [genSignet, bind_ok_iff] at h
  obtain ⟨nm, h1, sc', h2, s0, h3, u, h4, h5⟩ := h
  obtain ⟨rfl, rfl⟩ := Prod.mk.inj (Except.ok.inj h5)
  unfold genKey at h3
  rw [if_neg hp, if_neg hk] at h3
  unfold genToolKey at h3
  split at h3
  · cases h3
  · rename_i t ht
    have hn := getTool_named ht
    split at h3
    · cases h3
    · split at h3
      · cases h3
      · unfold Signet.generateKey at h3
        simp only [List.length_nil, Nat.lt_irrefl, decide_false, Option.isSome_none, Bool.or_self, Bool.false_eq_true, if_false, gt_iff_lt] at h3
        rw [hn, ht] at h3
        simp only at h3
        cases hu : t.purpose.usesSignets with
        | false => rw [hu] at h3; cases h3
        | true =>
          rw [hu] at h3
          simp only [if_true] at h3
          rw [hn] at h3
          cases hg : E.P.genKey sc' E.seed with
          | error e => rw [hg] at h3; cases h3
          | ok pp =>
            obtain ⟨pub, priv⟩ := pp
            rw [hg] at h3
            simp only at h3
            unfold Signet.store at h3
            simp only [List.length_nil, ne_eq, not_true, if_false, ht, hu, if_true] at h3
            rw [hn] at h3
            cases hs : E.P.storeKey sc' pub (some priv) with
            | error e => rw [hs] at h3; cases h3
            | ok k =>
              rw [hs] at h3
              cases h3
              refine ⟨rfl, nm, u, pub, priv, h1, h2, h4, ⟨t, ht, hn, hu⟩, hg, rfl, rfl, rfl, rfl, ⟨rfl, rfl, rfl, rfl⟩, ?_⟩
              unfold Signet.store
              simp only [List.length_nil, ne_eq, not_true, if_false, ht, hu, if_true]
              rw [hn, hs]

theorem genSignet_scheme {σ : Type} {E : GenEnv σ} {name scheme : Bytes} {s : Signet} {sc : Bytes} (h : genSignet E name scheme = .ok (s, sc)) :
    s.scheme = sc := by
  by_cases hp : sc = schemePassword
  · simp only [genSignet, bind_ok_iff] at h
    obtain ⟨nm, _, sc', _, s1, h3, u, _, h5⟩ := h
    obtain ⟨rfl, rfl⟩ := Prod.mk.inj (Except.ok.inj h5)
    unfold genKey at h3
    rw [if_pos hp] at h3
    cases h3; exact hp.symm
  · by_cases hk : sc = schemeKey
    · simp only [genSignet, bind_ok_iff] at h
      obtain ⟨nm, _, sc', _, s1, h3, u, _, h5⟩ := h
      obtain ⟨rfl, rfl⟩ := Prod.mk.inj (Except.ok.inj h5)
      unfold genKey at h3
      rw [if_neg hp, if_pos hk] at h3
      unfold genSecretKey at h3
      repeat' split at h3
      · cases h3
      · cases h3
      · rw [bind_ok_iff] at h3; obtain ⟨k, _, h3⟩ := h3; cases h3; exact hk.symm
    · exact (genSignet_tool h hp hk).1

/-- The keys that are generated are key pairs. -/
def GenPairs (P : Prims) (K : KeyLib) (rsaPair : Bytes → Bytes → Prop) : Prop :=
  ∀ tool seed pub priv, P.genKey tool seed = .ok (pub, priv) → KeyPair K rsaPair tool pub priv

/-- The public half of a signet (specification). -/
def Signet.publicHalf (s : Signet) : Signet :=
  { version := s.version, id := s.id, scheme := s.scheme, isPublic := true, info := s.info, loadedPub := s.loadedPub }

theorem tool_not_secret {n : Bytes} {t : ToolInfo} (h : getTool n = some t) : n ≠ schemeKey ∧ n ≠ schemePassword := by
  have h1 : getTool schemeKey = none := by decide +kernel
  have h2 : getTool schemePassword = none := by decide +kernel
  constructor <;> intro e <;> rw [e] at h
  · rw [h1] at h; cases h
  · rw [h2] at h; cases h

/-- What is stored of a generated signet loads to the key pair, and so does its public half, without the private key. -/
theorem generated_loads {P : Prims} {K : KeyLib} {rsaPair : Bytes → Bytes → Prop} (hP : P.UsesCodec K) (hK : K.Sound rsaPair)
    (hG : GenPairs P K rsaPair) {seed u nm pub priv : Bytes} {s : Signet} (h : GeneratedPair P seed u nm pub priv s) :
    s.stored.load P = .ok s ∧ s.asRecipient P = .ok s.publicHalf ∧ ∃ k, s.publicHalf.store P = .ok { s.publicHalf with key := k } ∧
      { s.publicHalf with key := k }.stored.load P = .ok { s.publicHalf with key := k } := by
  have hpair := hG _ _ _ _ h.gen
  have hns : s.scheme ≠ schemeKey ∧ s.scheme ≠ schemePassword := by
    obtain ⟨t, ht, _, _⟩ := h.tool
    exact tool_not_secret ht
  have hload : s.load P = .ok s := by unfold Signet.load; rw [h.pub]; rfl
  obtain ⟨s', a1, a2, a3, a4, a5⟩ := signet_key_round_trip P K rsaPair hP hK { s with key := [] } pub priv rfl h.kind.2.1 h.pub (.inl h.priv) hpair h.tool
  rw [h.stored] at a1
  cases a1
  refine ⟨a5, ?_, ?_⟩
  · unfold Signet.asRecipient
    rw [if_neg (by simp [hns]), hload]
    rfl
  · obtain ⟨r', b1, b2, b3, b4, b5⟩ := signet_key_round_trip P K rsaPair hP hK s.publicHalf pub priv rfl rfl h.pub (.inr rfl) hpair h.tool
    have hshape : ∃ k, r' = { s.publicHalf with key := k } := by
      unfold Signet.store at b1
      have hl : s.publicHalf.key.length = 0 := rfl
      simp only [hl, ne_eq, not_true, if_false] at b1
      repeat' split at b1
      all_goals first
        | (cases b1; done)
        | (cases b1; exact ⟨_, rfl⟩)
    obtain ⟨k, rfl⟩ := hshape
    exact ⟨k, b1, b5⟩

/-! ## In a directory store -/

/-- `newSignet` with a directory trust store; `w i` tells how the write of the `i`-th signet ends. -/
def GenEnv.inDir (E : GenEnv FS) (S : DirStore) (D : Dsd) (w : Nat → WriteEnd) : Prop :=
  E.put = fun i fs s => S.storeSignet D fs (w i) s

theorem dir_put {D : Dsd} (hD : D.Sound) {S : DirStore} (hS : S.storageDir ≠ []) {fs fs' : FS} {m : AbsStore} (h : DirRefines D S fs m)
    {w : WriteEnd} (hw : w = .done ∨ w = .refused) {s : Signet} {r : Res Unit} (he : S.storeSignet D fs w s = (fs', r)) :
    (∀ x, r = .ok x → DirRefines D S fs' (m.setSignet s.id s.isPublic (some s.stored)) ∧ PermittedName s.id ∧ s.id ≠ []) ∧
    (∀ e, r = .error e → DirRefines D S fs' m) := by
  have h1 := dirStep_refines D hD [] S hS fs m h (.storeSignet w s) hw
  simp only [dirStep, he] at h1
  obtain ⟨h1, h2⟩ := h1
  constructor
  · rintro x rfl
    simp only [DirOut.ofUnit, absStep] at h1 h2
    by_cases hc : s.id = [] ∨ ¬ PermittedName s.id
    · rw [if_pos hc] at h1; cases h1
    · rw [if_neg hc] at h1 h2
      simp only [not_or, Decidable.not_not] at hc
      cases hd : D.dumpSignet s.stored with
      | error e => rw [hd] at h1; cases h1
      | ok b =>
        rw [hd] at h1 h2
        simp only at h1 h2
        by_cases hwd : w = .done
        · rw [if_pos hwd] at h2; exact ⟨h2, hc.2, hc.1⟩
        · rw [if_neg hwd] at h1; cases h1
  · rintro e rfl
    simp only [DirOut.ofUnit, absStep] at h1 h2
    by_cases hc : s.id = [] ∨ ¬ PermittedName s.id
    · rw [if_pos hc] at h2; exact h2
    · rw [if_neg hc] at h1 h2
      cases hd : D.dumpSignet s.stored with
      | error e => rw [hd] at h2; exact h2
      | ok b =>
        rw [hd] at h1 h2
        simp only at h1 h2
        by_cases hwd : w = .done
        · rw [if_pos hwd] at h1; cases h1
        · rw [if_neg hwd] at h2; exact h2

theorem dir_get {D : Dsd} (hD : D.Sound) {S : DirStore} (hS : S.storageDir ≠ []) {fs : FS} {m : AbsStore} (h : DirRefines D S fs m)
    {id : Bytes} (hp : PermittedName id) {r : Bool} {s : Signet} (hm : m.signet id r = some s) : S.getSignet D fs id r = .ok s := by
  have h1 := (dirStep_refines D hD [] S hS fs m h (.getSignet id r) trivial).1
  simp only [dirStep, absStep, hp, not_true, if_false, hm] at h1
  cases hg : S.getSignet D fs id r with
  | ok t => rw [hg] at h1; simp only [DirOut.ofSignet, DirOut.signet.injEq] at h1; rw [h1]
  | error e => rw [hg] at h1; simp [DirOut.ofSignet] at h1

/-- The trust store holds a key pair under an ID: the private signet, and a recipient without secrets (specification). -/
structure PairStored (P : Prims) (get : Bytes → Bool → Res Signet) (id scheme nm pub priv : Bytes) : Prop where
  signet : ∃ n o, get id false = .ok n ∧ n.id = id ∧ n.isPublic = false ∧ n.protection = false ∧ n.scheme = scheme ∧ n.info = some { name := nm } ∧
    n.load P = .ok o ∧ o.loadedPub = some pub ∧ o.loadedPriv = some priv
  recipient : ∃ n o, get id true = .ok n ∧ n.id = id ∧ n.isPublic = true ∧ n.protection = false ∧ n.scheme = scheme ∧ n.info = some { name := nm } ∧
    P.storeKey scheme pub none = .ok n.key ∧ n.load P = .ok o ∧ o.loadedPub = some pub ∧ o.loadedPriv = none

/-- C66. If `jess generate` (with a directory trust store, no write of which stops in the middle) has succeeded for a tool, the store holds the
new key pair under the new ID, which has the random bits; nothing else in the store has changed. -/
theorem generate_stores_pair (K : KeyLib) (rsaPair : Bytes → Bytes → Prop) (hK : K.Sound rsaPair) (D : Dsd) (hD : D.Sound) (S : DirStore)
    (hS : S.storageDir ≠ []) (E : GenEnv FS) (w : Nat → WriteEnd) (hE : E.inDir S D w) (hw : ∀ i, w i = .done ∨ w i = .refused)
    (hP : E.P.UsesCodec K) (hG : GenPairs E.P K rsaPair) (fs fs' : FS) (m : AbsStore) (hm : DirRefines D S fs m) (name scheme : Bytes)
    (s : Signet) (hs : s.scheme ≠ schemeKey ∧ s.scheme ≠ schemePassword) (h : newSignet E fs name scheme true = (fs', .ok s)) :
    ∃ u nm pub priv a b, E.uuid = .ok u ∧ s.id = uuidText (uuidMark u) ∧ flagOrAsk name E.askName = .ok nm ∧
      E.P.genKey s.scheme E.seed = .ok (pub, priv) ∧
      DirRefines D S fs' ((m.setSignet s.id false (some a)).setSignet s.id true (some b)) ∧
      PairStored E.P (S.getSignet D fs') s.id s.scheme nm pub priv := by
  unfold newSignet at h
  split at h
  · cases (Prod.mk.inj h).2
  · rename_i s0 sc hg
    simp only [if_true] at h
    have hs0 : s0 = s := by
      split at h
      · cases (Prod.mk.inj h).2
      · exact Except.ok.inj (Prod.mk.inj h).2
    subst hs0
    have hsc : s0.scheme = sc := genSignet_scheme hg
    obtain ⟨_, nm, u, pub, priv, g1, _, g3, g4⟩ := genSignet_tool hg (hsc ▸ hs.2) (hsc ▸ hs.1)
    obtain ⟨l1, l2, k, l3, l4⟩ := generated_loads hP hK hG g4
    unfold saveSignet at h
    rw [hE] at h
    simp only at h
    cases hput : S.storeSignet D fs (w 0) s0 with
    | mk fs1 r =>
      rw [hput] at h
      cases r with
      | error e => cases (Prod.mk.inj h).2
      | ok x =>
        simp only at h
        obtain ⟨p1, p2, p3⟩ := (dir_put hD hS hm (hw 0) hput).1 x rfl
        rw [if_neg (by rw [← hsc]; simp [hs])] at h
        unfold saveRecipient at h
        rw [l2] at h
        simp only [l3] at h
        rw [hE] at h
        simp only at h
        cases hput2 : S.storeSignet D fs1 (w 1) { s0.publicHalf with key := k } with
        | mk fs2 r =>
          rw [hput2] at h
          cases r with
          | error e => cases (Prod.mk.inj h).2
          | ok y =>
            simp only at h
            obtain ⟨rfl, _⟩ := Prod.mk.inj h
            obtain ⟨q1, q2, q3⟩ := (dir_put hD hS p1 (hw 1) hput2).1 y rfl
            rw [g4.kind.1] at q1 p1
            refine ⟨u, nm, pub, priv, _, _, g3, g4.ident, g1, g4.gen, q1, ?_, ?_⟩
            · refine ⟨s0.stored, s0, dir_get hD hS q1 p2 ?_, rfl, g4.kind.1, g4.kind.2.1, rfl, g4.named, l1, g4.pub, g4.priv⟩
              simp [AbsStore.setSignet, Signet.publicHalf]
            · refine ⟨{ s0.publicHalf with key := k }.stored, { s0.publicHalf with key := k }, dir_get hD hS q1 p2 ?_, rfl, rfl, rfl, rfl, g4.named, ?_, l4, g4.pub, rfl⟩
              · simp [AbsStore.setSignet, Signet.publicHalf]
              · unfold Signet.store at l3
                obtain ⟨t, ht, hn, hu⟩ := g4.tool
                have hl : s0.publicHalf.key.length = 0 := rfl
                have hsch : s0.publicHalf.scheme = s0.scheme := rfl
                have hpb : s0.publicHalf.loadedPub = some pub := g4.pub
                have hpv : s0.publicHalf.loadedPriv = none := rfl
                simp only [hl, ne_eq, not_true, if_false, hsch, ht, hu, if_true, hpb, hpv] at l3
                rw [hn] at l3
                cases hst : E.P.storeKey s0.scheme pub none with
                | error e => rw [hst] at l3; cases l3
                | ok k' =>
                  rw [hst] at l3
                  have := congrArg Signet.key (Except.ok.inj l3)
                  simp only at this
                  rw [this]
                  rfl

/-- C66. A shared key: the store holds a signet with the random key, under the new ID. A password: the store holds a signet without it. -/
theorem generate_stores_secret (D : Dsd) (hD : D.Sound) (S : DirStore) (hS : S.storageDir ≠ []) (E : GenEnv FS) (w : Nat → WriteEnd)
    (hE : E.inDir S D w) (hw : ∀ i, w i = .done ∨ w i = .refused) (fs fs' : FS) (m : AbsStore) (hm : DirRefines D S fs m)
    (name scheme : Bytes) (s : Signet) (hs : s.scheme = schemeKey ∨ s.scheme = schemePassword)
    (h : newSignet E fs name scheme true = (fs', .ok s)) :
    ∃ u nm k, E.uuid = .ok u ∧ flagOrAsk name E.askName = .ok nm ∧
      (s.scheme = schemeKey → 0 < E.symKeySize ∧ E.random E.symKeySize.toNat = .ok k) ∧ (s.scheme = schemePassword → k = []) ∧
      s = { version := 1, id := uuidText (uuidMark u), scheme := s.scheme, key := k, info := some { name := nm } } ∧
      DirRefines D S fs' (m.setSignet s.id false (some s)) ∧ S.getSignet D fs' s.id false = .ok s := by
  unfold newSignet at h
  split at h
  · cases (Prod.mk.inj h).2
  · rename_i s0 sc hg
    simp only [if_true] at h
    have hs0 : s0 = s := by
      split at h
      · cases (Prod.mk.inj h).2
      · exact Except.ok.inj (Prod.mk.inj h).2
    subst hs0
    have hsc := genSignet_scheme hg
    unfold saveSignet at h
    rw [hE] at h
    simp only at h
    have hg0 := hg
    simp only [genSignet, bind_ok_iff] at hg
    obtain ⟨nm, h1, sc', h2, s1, h3, u, h4, h5⟩ := hg
    obtain ⟨e1, e2⟩ := Prod.mk.inj (Except.ok.inj h5)
    subst e2
    have hk : ∃ k, s1 = { version := 1, scheme := sc', key := k } ∧
        (sc' = schemeKey → 0 < E.symKeySize ∧ E.random E.symKeySize.toNat = .ok k) ∧ (sc' = schemePassword → k = []) := by
      have hne : schemePassword ≠ schemeKey := by decide
      unfold genKey at h3
      split at h3
      · rename_i e; cases h3; subst e; exact ⟨[], rfl, fun e => absurd e hne, fun _ => rfl⟩
      · rename_i hnp
        split at h3
        · rename_i e
          unfold genSecretKey at h3
          repeat' split at h3
          · cases h3
          · cases h3
          · rename_i z1 z2
            rw [bind_ok_iff] at h3; obtain ⟨k, hk, h3⟩ := h3; cases h3; subst e
            exact ⟨k, rfl, fun _ => ⟨by omega, hk⟩, fun e => absurd e hnp⟩
        · rename_i hnk
          rw [← hsc] at hnp hnk
          exact absurd hs (by simp [hnp, hnk])
    obtain ⟨k, rfl, k2, k3⟩ := hk
    have hst : s0.stored = s0 := by rw [← e1]; rfl
    have hip : s0.isPublic = false := by rw [← e1]
    cases hput : S.storeSignet D fs (w 0) s0 with
    | mk fs1 r =>
      rw [hput] at h
      cases r with
      | error e => cases (Prod.mk.inj h).2
      | ok x =>
        simp only at h
        rw [if_pos (by rw [← hsc]; exact Or.symm hs)] at h
        obtain ⟨rfl, _⟩ := Prod.mk.inj h
        obtain ⟨p1, p2, p3⟩ := (dir_put hD hS hm (hw 0) hput).1 x rfl
        rw [hst, hip] at p1
        refine ⟨u, nm, k, h4, h1, by rw [hsc]; exact k2, by rw [hsc]; exact k3, by rw [hsc]; exact e1.symm, p1, dir_get hD hS p1 p2 ?_⟩
        simp [AbsStore.setSignet]

/-- C66. If generating fails (and no write stops in the middle), the store is what it was, or it has gained the private signet: never a
recipient whose private key is lost. A shared key or a password is stored or not. -/
theorem generate_failure_partial (D : Dsd) (hD : D.Sound) (S : DirStore) (hS : S.storageDir ≠ []) (E : GenEnv FS) (w : Nat → WriteEnd)
    (hE : E.inDir S D w) (hw : ∀ i, w i = .done ∨ w i = .refused) (fs fs' : FS) (m : AbsStore) (hm : DirRefines D S fs m)
    (name scheme : Bytes) (save : Bool) (e : Err) (h : newSignet E fs name scheme save = (fs', .error e)) :
    DirRefines D S fs' m ∨ ∃ s sc, genSignet E name scheme = .ok (s, sc) ∧ save = true ∧ sc ≠ schemeKey ∧ sc ≠ schemePassword ∧
      DirRefines D S fs' (m.setSignet s.id s.isPublic (some s.stored)) := by
  unfold newSignet at h
  split at h
  · obtain ⟨rfl, _⟩ := Prod.mk.inj h; exact .inl hm
  · rename_i s0 sc hg
    cases save with
    | false => cases (Prod.mk.inj h).2
    | true =>
      simp only [if_true] at h
      cases hput : S.storeSignet D fs (w 0) s0 with
      | mk fs1 r =>
        unfold saveSignet at h
        rw [hE] at h
        simp only [hput] at h
        have hp := dir_put hD hS hm (hw 0) hput
        cases r with
        | error e =>
          simp only at h
          obtain ⟨rfl, _⟩ := Prod.mk.inj h
          exact .inl (hp.2 e rfl)
        | ok x =>
          simp only at h
          obtain ⟨p1, p2, p3⟩ := hp.1 x rfl
          by_cases hc : sc = schemePassword ∨ sc = schemeKey
          · rw [if_pos hc] at h; cases (Prod.mk.inj h).2
          · rw [if_neg hc] at h
            simp only [not_or] at hc
            refine .inr ⟨s0, sc, hg, rfl, hc.2, hc.1, ?_⟩
            unfold saveRecipient at h
            cases hr : s0.asRecipient E.P with
            | error e => rw [hr] at h; simp only at h; obtain ⟨rfl, _⟩ := Prod.mk.inj h; exact p1
            | ok r =>
              rw [hr] at h
              simp only at h
              cases hr2 : r.store E.P with
              | error e => rw [hr2] at h; simp only at h; obtain ⟨rfl, _⟩ := Prod.mk.inj h; exact p1
              | ok r2 =>
                rw [hr2] at h
                simp only at h
                rw [hE] at h
                simp only at h
                cases hput2 : S.storeSignet D fs1 (w 1) r2 with
                | mk fs2 q =>
                  rw [hput2] at h
                  cases q with
                  | ok y => cases (Prod.mk.inj h).2
                  | error e =>
                    simp only at h
                    obtain ⟨rfl, _⟩ := Prod.mk.inj h
                    exact (dir_put hD hS p1 (hw 1) hput2).2 e rfl

/-! ## Texts -/

/-- C66. With `--textonly` nothing is stored, and the two texts that are printed for a tool are imported again: as the signet with both keys,
and as the recipient. Neither is printed without the other. -/
theorem generate_texts_import (K : KeyLib) (rsaPair : Bytes → Bytes → Prop) (hK : K.Sound rsaPair) (D : Dsd) (hD : D.Sound) {σ : Type}
    (E : GenEnv σ) (hP : E.P.UsesCodec K) (hG : GenPairs E.P K rsaPair) (st st' : σ) (name scheme : Bytes) (r : Res (Option (Bytes × Bytes)))
    (h : generateCommand E D st name scheme true = (st', r)) :
    st' = st ∧ ∀ x, r = .ok x → ∃ u nm pub priv a b s t, E.uuid = .ok u ∧ flagOrAsk name E.askName = .ok nm ∧ x = some (a, b) ∧
      E.P.genKey s.scheme E.seed = .ok (pub, priv) ∧
      cmdImport E.P D a = .ok (.signet s) ∧ s.id = uuidText (uuidMark u) ∧ s.info = some { name := nm } ∧ s.isPublic = false ∧
        s.loadedPub = some pub ∧ s.loadedPriv = some priv ∧
      cmdImport E.P D b = .ok (.signet t) ∧ t.id = s.id ∧ t.scheme = s.scheme ∧ t.info = s.info ∧ t.isPublic = true ∧
        t.loadedPub = some pub ∧ t.loadedPriv = none := by
  unfold generateCommand newSignet at h
  cases hg : genSignet E name scheme with
  | error e => rw [hg] at h; simp only at h; obtain ⟨rfl, rfl⟩ := Prod.mk.inj h; exact ⟨rfl, fun x hx => by cases hx⟩
  | ok p =>
    obtain ⟨s, sc⟩ := p
    rw [hg] at h
    simp only [Bool.not_true, Bool.false_eq_true, if_false, if_true] at h
    obtain ⟨rfl, rfl⟩ := Prod.mk.inj h
    refine ⟨rfl, fun x hx => ?_⟩
    cases ht : genTexts E.P D s with
    | error e => rw [ht] at hx; cases hx
    | ok ab =>
      rw [ht] at hx
      cases hx
      simp only [genTexts, bind_ok_iff] at ht
      obtain ⟨a, ha, r0, hr0, r1, hr1, b, hb, hx⟩ := ht
      cases hx
      obtain ⟨_, _, _, _, _, n1, n2, _⟩ := recipient_is_public _ _ _ hr0
      have hsc := genSignet_scheme hg
      obtain ⟨_, nm, u, pub, priv, g1, _, g3, g4⟩ := genSignet_tool hg (hsc ▸ n2) (hsc ▸ n1)
      obtain ⟨l1, l2, k, l3, l4⟩ := generated_loads hP hK hG g4
      rw [l2] at hr0; cases hr0
      rw [l3] at hr1; cases hr1
      unfold Signet.backup at ha
      rw [g4.kind.1] at ha
      obtain ⟨s1, kind, c, a1, a2, a3, _⟩ := text_parses _ D hD false s a ha
      have hss : s1.stored.load E.P = .ok s := by
        unfold Signet.store at a1
        split at a1
        · cases a1; exact l1
        · rename_i hk0
          have hk0 : s.key = [] := List.length_eq_zero_iff.1 (Decidable.not_not.1 hk0)
          have hs' : { s with key := [] } = s := by rw [← hk0]
          have := g4.stored
          rw [hs'] at this
          unfold Signet.store at this
          rw [if_neg (by simp [hk0])] at this
          rw [this] at a1
          cases a1
          exact l1
      unfold Signet.export at hb
      simp only [Signet.publicHalf, if_true] at hb
      obtain ⟨r1, kind', c', b1, b2, b3, _⟩ := text_parses _ D hD false _ b hb
      have hrr : r1.stored.load E.P = .ok { s.publicHalf with key := k } := by
        unfold Signet.store at b1
        split at b1
        · cases b1; exact l4
        · rename_i hk0
          have hk0 : k = [] := List.length_eq_zero_iff.1 (Decidable.not_not.1 hk0)
          subst hk0
          have : r1 = { s.publicHalf with key := [] } := by
            have e : ({ s.publicHalf with key := [] } : Signet) = s.publicHalf := rfl
            rw [e] at l3
            unfold Signet.store at l3
            rw [if_neg (by simp [Signet.publicHalf])] at l3
            exact Except.ok.inj (b1.symm.trans l3)
          rw [this]; exact l4
      have nk : ∀ {x : Signet} {kd : TextKind} {cm : Bytes}, textHead x = .ok (kd, cm) → kd ≠ .envelope := by
        intro x kd cm hx
        unfold textHead at hx
        (repeat' split at hx) <;> cases hx <;> decide
      refine ⟨u, nm, pub, priv, a, b, s, { s.publicHalf with key := k }, g3, g1, rfl, g4.gen, ?_, g4.ident, g4.named, g4.kind.1, g4.pub, g4.priv,
        ?_, rfl, rfl, rfl, rfl, g4.pub, rfl⟩
      · exact (import_of_parsed E.P D a).1 kind s (by rw [a3, hss]) (nk a2)
      · exact (import_of_parsed E.P D b).1 kind' _ (by rw [b3, hrr]) (nk b2)

/-- C66, the limits: (a) for shared keys and passwords `--textonly` always fails; (b) a negative `--symkeysize` is not refused: the
generator panics. -/
theorem generate_refuted {σ : Type} (E : GenEnv σ) (D : Dsd) (st : σ) (name : Bytes) :
    (∀ scheme, scheme = schemeKey ∨ scheme = schemePassword → ∃ e, generateCommand E D st name scheme true = (st, .error e)) ∧
    (E.symKeySize < 0 → ∀ nm, flagOrAsk name E.askName = .ok nm → ∀ t, generateCommand E D st name schemeKey t = (st, .error .panic)) := by
  have htk : ∀ a, flagOrAsk schemeKey a = .ok schemeKey := fun a => by
    have h1 : trimSpace schemeKey = schemeKey := by decide +kernel
    unfold flagOrAsk; rw [h1, if_neg (by decide)]
  have htp : ∀ a, flagOrAsk schemePassword a = .ok schemePassword := fun a => by
    have h1 : trimSpace schemePassword = schemePassword := by decide +kernel
    unfold flagOrAsk; rw [h1, if_neg (by decide)]
  constructor
  · intro scheme hs
    unfold generateCommand newSignet
    cases hg : genSignet E name scheme with
    | error e => exact ⟨e, rfl⟩
    | ok p =>
      obtain ⟨s, sc⟩ := p
      simp only [Bool.not_true, Bool.false_eq_true, if_false, if_true]
      have hsc := genSignet_scheme hg
      have hsch : s.scheme = schemeKey ∨ s.scheme = schemePassword := by
        rw [hsc]
        simp only [genSignet, bind_ok_iff] at hg
        obtain ⟨nm, _, sc', h2, s1, h3, u, _, h5⟩ := hg
        obtain ⟨_, rfl⟩ := Prod.mk.inj (Except.ok.inj h5)
        rcases hs with rfl | rfl
        · rw [htk] at h2; cases h2; exact .inl rfl
        · rw [htp] at h2; cases h2; exact .inr rfl
      cases ht : genTexts E.P D s with
      | error e => exact ⟨e, rfl⟩
      | ok ab =>
        simp only [genTexts, bind_ok_iff] at ht
        obtain ⟨a, ha, r0, hr0, _⟩ := ht
        obtain ⟨_, _, _, _, _, n1, n2, _⟩ := recipient_is_public _ _ _ hr0
        exact absurd hsch (by simp [n1, n2])
  · intro hneg nm hn t
    have hg : genSignet E name schemeKey = .error .panic := by
      unfold genSignet
      rw [hn, ok_bind, htk, ok_bind]
      unfold genKey
      rw [if_neg (by decide), if_pos rfl]
      unfold genSecretKey
      rw [if_neg (by omega), if_pos hneg]
      rfl
    unfold generateCommand newSignet
    rw [hg]

end Jess
