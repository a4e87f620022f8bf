import Verif.Lemmas.Transfer
import Verif.Props.Signatures

/-! Lemmas for the round trip through Close and Open. -/

namespace Jess

open Requirements

/-- Functional correctness of the primitives: what a correct implementation of the algorithms guarantees. `pair tool pub priv`
says that `pub` and `priv` belong together. -/
structure Prims.Correct (P : Prims) (pair : Bytes → Bytes → Bytes → Prop) : Prop where
  gen : ∀ tool seed pub priv, P.genKey tool seed = .ok (pub, priv) → pair tool pub priv
  dh : ∀ tool a x b y, pair tool a x → pair tool b y → P.dh tool x b = P.dh tool y a
  store : ∀ tool pub priv k, pair tool pub priv → P.storeKey tool pub none = .ok k → ∃ r, P.loadKey tool k true = .ok (pub, r)
  encap : ∀ tool hash pub priv key seed w, pair tool pub priv → P.encap tool hash pub key seed = .ok w →
    P.unwrap tool hash priv w = .ok key
  cipher : ∀ tool key nonce d c, P.encrypt tool key nonce d = .ok c → P.decrypt tool key nonce c = .ok d
  aead : ∀ tool key nonce ad d c, P.aeadSeal tool key nonce ad d = .ok c → P.aeadOpen tool key nonce ad c = .ok d
  sign : ∀ tool hash pub priv digest seed sig, pair tool pub priv → P.sign tool hash priv digest seed = .ok sig →
    P.verify tool hash pub digest sig = true

/-- The same public key. -/
def SamePub (k o : Signet) : Prop := o.scheme = k.scheme ∧ o.loadedPub = k.loadedPub ∧ k.loadedPub.isSome = true

/-- The private counterpart of a recipient. -/
def PrivOf (pair : Bytes → Bytes → Bytes → Prop) (k o : Signet) : Prop :=
  SamePub k o ∧ ∃ pub priv, k.loadedPub = some pub ∧ o.loadedPriv = some priv ∧ pair k.scheme pub priv

/-! ## Ciphers -/

theorem foldRes_append {α β : Type} (f : β → α → Res β) : ∀ (xs ys : List α) (b : β),
    foldRes f b (xs ++ ys) = (foldRes f b xs >>= fun c => foldRes f c ys)
  | [], ys, b => rfl
  | x :: xs, ys, b => by
    rw [List.cons_append, foldRes, foldRes]
    cases f b x with
    | error e => rfl
    | ok c => exact foldRes_append f xs ys c

/-- Undoing a chain of operations in reversed order. -/
theorem foldRes_reverse {α β : Type} (f g : β → α → Res β) (hfg : ∀ a b c, f b a = .ok c → g c a = .ok b) :
    ∀ (xs : List α) (b c : β), foldRes f b xs = .ok c → foldRes g c xs.reverse = .ok b
  | [], b, c, h => by cases h; rfl
  | x :: xs, b, c, h => by
    obtain ⟨b', h1, h2⟩ := (foldRes_cons_ok_iff f b c x xs).mp h
    rw [List.reverse_cons, foldRes_append, foldRes_reverse f g hfg xs b' c h2, ok_bind]
    simp only [foldRes]
    rw [hfg x b b' h1]

theorem unprotect_protect {P : Prims} {pair} (hP : P.Correct pair) {s : Session} {sts : List ToolState} {l l' : Letter} {data : Bytes}
    {s' : Session} (hs' : s'.insts = s.insts) (h : protect P s sts l data = .ok l') (sigs : List Seal) :
    unprotect P s' sts { l' with signatures := sigs } = .ok data := by
  simp only [protect, bind_ok_iff] at h
  obtain ⟨d1, h1, d2, h2, m, h3, h4⟩ := h
  cases h4
  have hq : ∀ p, s'.queue p = s.queue p := fun p => by unfold Session.queue; rw [hs']
  have hst : s'.stateful = s.stateful := by unfold Session.stateful; rw [hs']
  have hr : ∀ p, s'.ready sts p = s.ready sts p := fun p => by unfold Session.ready; rw [hst]
  have had : s'.adOf { l with data := d2, mac := m, signatures := sigs } = s.adOf l := by
    unfold Session.adOf Session.needsAD
    rw [hq, hq]
    rfl
  unfold unprotect
  dsimp only
  rw [had]
  simp only [hr, h3, ok_bind, bne_self_eq_false, Bool.and_false, Bool.false_eq_true, if_false]
  have e1 : runUnseal P (s.ready sts .integratedCipher) (s.adOf l) d2 = .ok d1 := by
    refine foldRes_reverse _ _ ?_ _ _ _ h2
    intro a b c hc
    simp only [openOne, hP.aead _ _ _ _ _ _ hc]
  have e2 : runDecrypt P (s.ready sts .cipher) d1 = .ok data := by
    refine foldRes_reverse _ _ ?_ _ _ _ h1
    intro a b c hc
    exact hP.cipher _ _ _ _ _ hc
  rw [e1, ok_bind, e2]

/-! ## Lists -/

theorem exists_all2 {α β : Type} {R : α → β → Prop} : ∀ (as : List α), (∀ a ∈ as, ∃ b, R a b) → ∃ bs, All2 R as bs
  | [], _ => ⟨[], .nil⟩
  | a :: as, h => by
    obtain ⟨b, hb⟩ := h a (by simp)
    obtain ⟨bs, hbs⟩ := exists_all2 as fun x hx => h x (by simp [hx])
    exact ⟨b :: bs, .cons hb hbs⟩

theorem nodup_map_inj {α β : Type} {f : α → β} {l : List α} (h : (l.map f).Nodup) {a b : α} (ha : a ∈ l) (hb : b ∈ l)
    (hf : f a = f b) : a = b := by
  induction l with
  | nil => simp at ha
  | cons x l ih =>
    rw [List.map_cons, List.nodup_cons] at h
    rcases List.mem_cons.mp ha with ha' | ha' <;> rcases List.mem_cons.mp hb with hb' | hb'
    · rw [ha', hb']
    · subst ha'; exact absurd (hf ▸ List.mem_map_of_mem hb') h.1
    · subst hb'; exact absurd (hf ▸ List.mem_map_of_mem ha') h.1
    · exact ih h.2 ha' hb'

/-- Tool and signet pairs, tool by tool. -/
def toolPairs (ts : List ToolInst) (g : ToolInst → List Signet) : List (ToolInst × Signet) :=
  ts.flatMap (fun t => (g t).map (fun k => (t, k)))

/-- Signets that correspond to tool pairs, split by scheme again. -/
theorem regroup_pairs {R : ToolInst × Signet → Signet → Prop} (g : ToolInst → List Signet) (ts : List ToolInst)
    (hnd : (ts.map (·.info.name)).Nodup) (hne : ∀ t ∈ ts, t.info.name ≠ []) (hR : ∀ x o, R x o → o.scheme = x.1.info.name)
    {os : List Signet} (h : All2 R (toolPairs ts g) os) :
    ∀ t ∈ ts, All2 (fun k o => R (t, k) o) (g t) (ofScheme os t.info.name) := by
  intro t ht
  have hemp : t.info.name.isEmpty = false := by
    cases hn : t.info.name with
    | nil => exact absurd hn (hne t ht)
    | cons _ _ => rfl
  have h1 := h.filter (p := fun x => x.1.info.name == t.info.name) (q := fun o => t.info.name.isEmpty || o.scheme == t.info.name)
    (fun a b hab => by simp [hemp, hR a b hab])
  have h2 : (toolPairs ts g).filter (fun x => x.1.info.name == t.info.name) = (g t).map (fun k => (t, k)) := by
    clear h h1
    induction ts with
    | nil => simp at ht
    | cons a ts ih =>
      rw [List.map_cons, List.nodup_cons] at hnd
      have hsplit : toolPairs (a :: ts) g = (g a).map (fun k => (a, k)) ++ toolPairs ts g := rfl
      rw [hsplit, List.filter_append]
      rcases List.mem_cons.mp ht with rfl | ht'
      · have e1 : ((g t).map (fun k => (t, k))).filter (fun x => x.1.info.name == t.info.name) = (g t).map (fun k => (t, k)) := by
          rw [List.filter_eq_self]; intro x hx; obtain ⟨k, _, rfl⟩ := List.mem_map.mp hx; simp
        have e2 : (toolPairs ts g).filter (fun x => x.1.info.name == t.info.name) = [] := by
          rw [List.filter_eq_nil_iff]
          intro x hx
          obtain ⟨b, hb, hxb⟩ := List.mem_flatMap.mp hx
          obtain ⟨k, _, rfl⟩ := List.mem_map.mp hxb
          simp only [beq_iff_eq]
          intro h; exact hnd.1 (by rw [← h]; exact List.mem_map_of_mem hb)
        rw [e1, e2, List.append_nil]
      · have e1 : ((g a).map (fun k => (a, k))).filter (fun x => x.1.info.name == t.info.name) = [] := by
          rw [List.filter_eq_nil_iff]; intro x hx; obtain ⟨k, _, rfl⟩ := List.mem_map.mp hx
          simp only [beq_iff_eq]
          intro h; exact hnd.1 (by rw [h]; exact List.mem_map_of_mem ht')
        rw [e1, List.nil_append]
        exact ih hnd.2 (fun x hx => hne x (by simp [hx])) ht'
  rw [h2, All2.map_left] at h1
  exact h1

theorem all2_toolPairs {R : ToolInst × Signet → Signet → Prop} (g g' : ToolInst → List Signet) : ∀ (ts : List ToolInst),
    (∀ t ∈ ts, All2 (fun k o => R (t, k) o) (g t) (g' t)) →
    All2 (fun x y => x.1 = y.1 ∧ R x y.2) (toolPairs ts g) (toolPairs ts g')
  | [], _ => .nil
  | t :: ts, h => by
    refine All2.append ?_ (all2_toolPairs g g' ts fun x hx => h x (by simp [hx]))
    rw [All2.map_left, All2.map_right]
    exact (h t (by simp)).mono fun a b hab => ⟨rfl, hab⟩

theorem toolPairs_length (ts : List ToolInst) (l : List Signet) (hnd : (ts.map (·.info.name)).Nodup)
    (hne : ∀ t ∈ ts, t.info.name ≠ []) : (toolPairs ts (fun t => ofScheme l t.info.name)).length ≤ l.length := by
  have h := sum_ofScheme_le l (ts.map (·.info.name)) hnd (by
    intro n hn; obtain ⟨t, ht, rfl⟩ := List.mem_map.mp hn; exact hne t ht)
  have h2 := List.length_filter_le (fun k : Signet => decide (k.scheme ∈ ts.map (·.info.name))) l
  have h3 : (toolPairs ts (fun t => ofScheme l t.info.name)).length =
      ((ts.map (·.info.name)).map (fun n => (ofScheme l n).length)).sum := by
    unfold toolPairs
    rw [List.length_flatMap, List.map_map]
    congr 1
    apply List.map_congr_left
    intro t _
    simp
  omega

/-- Reading the seals of offers one after the other. -/
theorem collect_seals {α : Type} (g : Seal → α → Res Bytes) (keys : List Seal) :
    ∀ (xs : List α) (ms : List (Bytes × Seal)) (pre post : List Seal), keys = pre ++ ms.map (·.2) ++ post →
      All2 (fun x m => g m.2 x = .ok m.1) xs ms →
      collectFrom (fun i x => match keys[i]? with | none => .error .panic | some sl => g sl x) pre.length xs = .ok (ms.map (·.1))
  | [], ms, _, _, _, h => by cases h; rfl
  | x :: xs, ms, pre, post, hk, h => by
    cases h with
    | cons h1 h2 =>
    rename_i m ms
    have hget : keys[pre.length]? = some m.2 := by rw [hk]; simp
    have := collect_seals g keys xs ms (pre ++ [m.2]) post (by rw [hk]; simp) h2
    rw [List.length_append, List.length_singleton] at this
    rw [collectFrom_cons_ok]
    refine ⟨m.1, ms.map (·.1), ?_, this, rfl⟩
    simp only [hget]
    exact h1

/-! ## Offers -/

theorem kxOffer_spec {P : Prims} {pair} (hP : P.Correct pair) {t : ToolInst} {seed : Bytes} {rcpt : Signet} {r : Signet × Bytes × Seal}
    (ht : getTool t.info.name = some t.info) (hu : t.info.purpose.usesSignets = true)
    (h : kxOffer P t seed rcpt = .ok r) (hk : t.info.name ≠ schemeKey) (hp : t.info.name ≠ schemePassword) :
    r.2.2.scheme = [] ∧ r.2.2.id = rcpt.id ∧
    (rcpt.scheme = t.info.name → ∀ o v, PrivOf pair rcpt o →
      (peerSignet P v t r.2.2.value >>= fun peer => makeShared P t.info.name o peer) = .ok r.2.1) := by
  simp only [kxOffer, generateSignet, ht, hu, if_true, bind_ok_iff] at h
  obtain ⟨sender, h1, shared, h2, pb, h3, stored, h4, h5⟩ := h
  split at h1
  · cases h1
  · rename_i pub priv hgen
    cases h1
    cases h5
    have hpair := hP.gen _ _ _ _ hgen
    simp only [Signet.asRecipient, hk, hp, or_self, if_false, Signet.load, Option.isSome_some, if_true, ok_bind, Except.ok.injEq] at h3
    subst h3
    simp only [Signet.store, List.length_nil, ne_eq, not_true_eq_false, if_false, ht, hu, if_true] at h4
    refine ⟨rfl, rfl, ?_⟩
    intro hs o v ⟨⟨_, _, _⟩, rp, rpriv, g1, g2, g3⟩
    split at h4
    · cases h4
    · rename_i kk hst
      cases h4
      simp only [makeShared, g1, Except.ok.injEq] at h2
      obtain ⟨x, hx⟩ := hP.store _ _ _ _ hpair hst
      simp only [peerSignet, Signet.load, Option.isSome_none, ht, hu, if_true, hx, Bool.false_eq_true, if_false, ok_bind, makeShared, g2]
      rw [← h2]
      rw [hs] at g3
      exact congrArg Except.ok (hP.dh _ _ _ _ _ hpair g3).symm

theorem keOffer_spec {P : Prims} {pair} (hP : P.Correct pair) {cfg : Config} {rng : Rng} {s : Session} {c : Nat} {t : ToolInst}
    {rcpt : Signet} {r : Bytes × Seal} (h : keOffer P cfg rng s c t rcpt = .ok r) :
    r.2.scheme = [] ∧ r.2.id = rcpt.id ∧
    (rcpt.scheme = t.info.name → ∀ o, PrivOf pair rcpt o → unwrapKey P t r.2.value o = .ok r.1) := by
  simp only [keOffer, bind_ok_iff] at h
  obtain ⟨key, _, wrapped, h2, h3⟩ := h
  cases h3
  refine ⟨rfl, rfl, ?_⟩
  intro hs o ⟨_, rp, rpriv, g1, g2, g3⟩
  simp only [encapsulate, g1] at h2
  split at h2
  · rename_i bits hh hb hth
    split at h2
    · cases h2
    · simp only [unwrapKey, g2, ToolInst.hashName, hth]
      rw [hs] at g3
      exact hP.encap _ _ _ _ _ _ _ g3 h2
  · cases h2

/-! ## Signatures -/

theorem signAll_spec {P : Prims} {pair} (hP : P.Correct pair) {rng : Rng} {fed : Bytes} :
    ∀ {xs : List (ToolInst × Signet)} {ctr : Nat} {sigs : List Seal}, signAll P rng fed ctr xs = .ok sigs →
      All2 (fun x sig => sig.scheme = x.1.info.name ∧ sig.id = x.2.id ∧
        (∀ pub priv o, x.2.loadedPub = some pub → x.2.loadedPriv = some priv → pair x.1.info.name pub priv → o.loadedPub = some pub →
          toolVerify P x.1 (P.hash x.1.hashName fed) sig.value o = .ok ())) xs sigs
  | [], _, _, h => by cases h; exact .nil
  | (t, k) :: xs, ctr, sigs, h => by
    simp only [signAll, bind_ok_iff] at h
    obtain ⟨sig, h1, rest, h2, h3⟩ := h
    cases h3
    refine .cons ⟨rfl, rfl, ?_⟩ (signAll_spec hP h2)
    intro pub priv o hp1 hp2 hpair ho
    dsimp only at hp1 hp2 hpair ⊢
    unfold toolSign at h1
    rw [hp2] at h1
    dsimp only at h1
    unfold toolVerify
    rw [ho]
    dsimp only
    by_cases hc : t.hashUnusable = true
    · rw [if_pos hc] at h1; cases h1
    · rw [if_neg hc] at h1 ⊢
      rw [if_pos (hP.sign _ _ _ _ _ _ _ hpair h1)]

theorem verifyAll_of_all2 {P : Prims} {fed : Bytes} (sigs : List Seal) : ∀ (xs : List (ToolInst × Signet)) (pre rest : List Seal),
    sigs = pre ++ rest → All2 (fun x (sig : Seal) => toolVerify P x.1 (P.hash x.1.hashName fed) sig.value x.2 = .ok ()) xs rest →
    verifyAll P fed sigs pre.length xs = .ok ()
  | [], _, _, _, _ => rfl
  | (t, k) :: xs, pre, rest, hs, h => by
    cases h with
    | cons h1 h2 =>
    rename_i sig rest
    rw [verifyAll]
    have hget : sigs[pre.length]? = some sig := by rw [hs]; simp
    rw [hget]
    dsimp only at h1 ⊢
    rw [h1]
    have := verifyAll_of_all2 sigs xs (pre ++ [sig]) rest (by rw [hs]; simp) h2
    rw [List.length_append, List.length_singleton] at this
    exact this

theorem prepSignets_keys {P : Prims} {w : World} {level : Int} : ∀ (l out : List Signet) (f : Bool),
    (∀ s ∈ l, s.key = [] ∧ s.scheme = schemeKey) →
    All2 (fun s o => prepOne P w level f s = .ok o) l out → prepSignets P w level f l = .ok out
  | [], _, _, _, h => by cases h; rfl
  | s :: ss, out, f, hk, h => by
    cases h with
    | cons h1 h2 =>
    rename_i o os
    rw [prepSignets_cons, h1, ok_bind]
    have hc' : All2 (fun a o => prepOne P w level (nextFlag f s) a = .ok o) ss os := by
      refine h2.mono_mem fun a ha b _ hab => ?_
      have := hk a (by simp [ha])
      have hfl : ∀ g, prepOne P w level g a = prepOne P w level f a := by
        intro g; simp [prepOne, this.1, this.2, schemeKey_ne_pw]
      rw [hfl]; exact hab
    rw [prepSignets_keys ss os _ (fun x hx => hk x (by simp [hx])) hc', ok_bind]

theorem prepSignets_of_all2 {P : Prims} {w : World} {level : Int} {flag : Bool} {l out : List Signet}
    (h : flag = false ∨ NoKeyStub l ∨ ∀ s ∈ l, s.key = [] ∧ s.scheme = schemeKey)
    (hall : All2 (fun s o => prepOne P w level flag s = .ok o) l out) : prepSignets P w level flag l = .ok out := by
  rcases h with h | h | h
  · exact (prepSignets_all2 P w level flag l out (Or.inl h)).mpr hall
  · exact (prepSignets_all2 P w level flag l out (Or.inr h)).mpr hall
  · exact prepSignets_keys l out flag h hall

end Jess
