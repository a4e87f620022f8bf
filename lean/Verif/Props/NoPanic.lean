import Verif.Props.Signatures
import Verif.Props.RoundTrip

/-!
# C26: letters from others cannot make the library panic
-/

namespace Jess

open Requirements

/-- The primitives (dependencies) do not panic on their inputs, and a private key is returned when one was loaded. -/
structure Prims.NoPanic (P : Prims) : Prop where
  kdf : ∀ t h n m o s, (P.kdf t h n m o s).noPanic
  passKdf : ∀ t p s n, (P.passKdf t p s n).noPanic
  loadKey : ∀ t k b, (P.loadKey t k b).noPanic
  loadPriv : ∀ t k pub priv, P.loadKey t k false = .ok (pub, priv) → priv.isSome = true
  unwrap : ∀ t h k w, (P.unwrap t h k w).noPanic
  decrypt : ∀ t k n d, (P.decrypt t k n d).noPanic
  aeadOpen : ∀ t k n a d, (P.aeadOpen t k n a d).noPanic

/-- The caller's trust store and callbacks do not panic; asked for a private signet, the trust store does not return a public
one, and signets it returns with loaded keys are loaded completely. -/
structure World.Sound (w : World) : Prop where
  store : ∀ get, w.store = some get → ∀ id r, (get id r).noPanic
  priv : ∀ get, w.store = some get → ∀ id n, get id false = .ok n → n.isPublic = false ∧ (n.loadedPub.isSome = true → n.loadedPriv.isSome = true)
  getPw : ∀ cb, w.getPw = some cb → ∀ s, (cb s).noPanic
  createPw : ∀ cb, w.createPw = some cb → ∀ s l, (cb s l).noPanic

/-- The part of it that is needed to create sessions. -/
structure World.Calm (w : World) : Prop where
  store : ∀ get, w.store = some get → ∀ id r, (get id r).noPanic
  getPw : ∀ cb, w.getPw = some cb → ∀ s, (cb s).noPanic
  createPw : ∀ cb, w.createPw = some cb → ∀ s l, (cb s l).noPanic

theorem World.Sound.calm {w : World} (hw : w.Sound) : w.Calm := ⟨hw.store, hw.getPw, hw.createPw⟩

theorem np_ok {α : Type} (a : α) : Res.noPanic (.ok a : Res α) := by intro h; cases h
theorem np_err {α : Type} {e : Err} (h : e ≠ .panic) : Res.noPanic (.error e : Res α) := by intro h'; cases h'; exact h rfl

theorem np_bind {α β : Type} {r : Res α} {f : α → Res β} (h1 : r.noPanic) (h2 : ∀ a, r = .ok a → (f a).noPanic) : (r >>= f).noPanic := by
  cases r with
  | error e => rw [error_bind]; intro h; cases h; exact h1 rfl
  | ok a => rw [ok_bind]; exact h2 a rfl

theorem np_foldRes {α β : Type} {f : β → α → Res β} : ∀ (xs : List α) (b : β), (∀ b, ∀ a ∈ xs, (f b a).noPanic) → (foldRes f b xs).noPanic
  | [], b, _ => np_ok b
  | x :: xs, b, h => by
    rw [foldRes]
    have hx := h b x (by simp)
    cases hf : f b x with
    | error e => rw [hf] at hx; intro h'; cases h'; exact hx rfl
    | ok b' => exact np_foldRes xs b' fun b a ha => h b a (by simp [ha])

theorem np_load {P : Prims} (hP : P.NoPanic) (s : Signet) : (s.load P).noPanic := by
  unfold Signet.load
  split
  · exact np_ok _
  · split
    · exact np_err (by decide)
    · split
      · exact np_err (by decide)
      · split
        · rename_i t _ _
          have := hP.loadKey t.name s.key s.isPublic
          split
          · rename_i e he; rw [he] at this; intro h; cases h; exact this rfl
          · exact np_ok _
        · exact np_err (by decide)

theorem np_fill {w : World} (hw : w.Calm) (s : Signet) (c : Bool) (l : Int) : (fillPassword w s c l).noPanic := by
  unfold fillPassword
  split
  · split
    · exact np_ok _
    · rename_i cb hcb; exact hw.createPw cb hcb _ _
  · split
    · exact np_ok _
    · rename_i cb hcb; exact hw.getPw cb hcb _

theorem np_finish {P : Prims} (hP : P.NoPanic) (s : Signet) : (finishPrep P s).noPanic := by
  unfold finishPrep
  split
  · exact np_err (by decide)
  · split
    · exact np_ok _
    · exact np_load hP s

theorem np_fetch {w : World} (hw : w.Calm) (r : Bool) (s : Signet) : (fetchSignet w r s).noPanic := by
  unfold fetchSignet
  split
  · exact np_err (by decide)
  · split
    · exact np_err (by decide)
    · rename_i get hget
      have := hw.store get hget s.id r
      split
      · rename_i e he; rw [he] at this; intro h; cases h; exact this rfl
      · split
        · exact np_err (by decide)
        · exact np_ok _

theorem np_prep {P : Prims} (hP : P.NoPanic) {w : World} (hw : w.Calm) (level : Int) : ∀ (l : List Signet) (f : Bool),
    (prepSignets P w level f l).noPanic
  | [], _ => np_ok _
  | s :: ss, f => by
    rw [prepSignets_cons]
    refine np_bind ?_ fun o _ => np_bind (np_prep hP hw level ss _) fun _ _ => np_ok _
    unfold prepOne
    split
    · split
      · exact np_fill hw _ _ _
      · exact np_bind (np_fetch hw _ _) fun n _ => np_finish hP n
    · exact np_finish hP s

theorem np_checkLevel (cfg : Config) (a b : Int) : (checkLevel cfg a b).noPanic := by
  unfold checkLevel
  (repeat' split) <;> first | exact np_ok _ | exact np_err (by decide)

theorem np_secLevel {P : Prims} (hP : P.NoPanic) (t : ToolInst) (s : Option Signet) : (t.secLevel P s).noPanic := by
  unfold ToolInst.secLevel
  split
  · split
    · exact np_ok _
    · unfold rsaSignetLevel
      refine np_bind (np_load hP _) fun l _ => ?_
      split
      · exact np_err (by decide)
      · split
        · exact np_err (by decide)
        · exact np_ok _
  · exact np_ok _

theorem np_calc {P : Prims} (hP : P.NoPanic) (cfg : Config) (el : Int) (lv : Levels) {t : Option ToolInst} {s : Option Signet}
    (h : t.isSome = true ∨ ∃ k, s = some k ∧ k.scheme = schemeKey) : (calcAndCheck P cfg el lv t s).noPanic := by
  unfold calcAndCheck
  refine np_bind ?_ fun c _ => ?_
  · unfold calcLevel
    cases s with
    | some s =>
      simp only
      split
      · exact np_ok _
      · rename_i hs
        cases t with
        | none =>
          rcases h with h | ⟨k, h1, h2⟩
          · cases h
          · cases h1; exact absurd h2 hs
        | some t =>
          simp only
          split
          · split
            · split
              · exact np_err (by decide)
              · exact np_ok _
            · exact np_ok _
          · exact np_secLevel hP t _
    | none =>
      cases t with
      | some t => exact np_secLevel hP t _
      | none =>
        rcases h with h | ⟨k, h1, _⟩
        · cases h
        · cases h1
  · unfold applyLevel
    split
    · exact np_ok _
    · split
      · exact np_err (by decide)
      · exact np_bind (np_checkLevel _ _ _) fun _ _ => np_ok _

theorem np_makeInst (t : Bytes) : (makeInst t).noPanic := by
  unfold makeInst
  split
  · exact np_err (by decide)
  · split
    · rename_i e he
      unfold resolveHash at he
      intro h; cases h
      revert he
      (repeat' split) <;> intro h <;> cases h
    · exact np_ok _

theorem np_compliance (a b : Requirements) : (a.checkComplianceTo b).noPanic := by
  intro h
  unfold checkComplianceTo at h
  split at h
  · cases h
  · cases h

theorem np_newSession {P : Prims} (hP : P.NoPanic) (cfg : Config) (e : Envelope) : (newSession P cfg e).noPanic := by
  unfold newSession
  split
  · exact np_err (by decide)
  · refine np_bind ?_ fun _ _ => np_bind ?_ fun b _ => np_bind ?_ fun x _ => ?_
    · unfold checkEnvelopeLevels
      dsimp only
      split
      · exact np_bind (np_checkLevel _ _ _) fun _ _ => np_checkLevel _ _ _
      · exact np_bind (np_ok _) fun _ _ => np_checkLevel _ _ _
    · refine np_foldRes _ _ fun b t _ => ?_
      unfold stepTool
      split
      · exact np_err (by decide)
      · refine np_bind (np_makeInst t) fun i _ => ?_
        split
        · exact np_err (by decide)
        · exact np_bind (np_calc hP _ _ _ (Or.inl rfl)) fun _ _ => np_ok _
    · refine np_foldRes _ _ fun b t _ => ?_
      unfold stepSignets
      split
      · exact np_ok _
      · rename_i l _
        have := np_foldRes (f := fun lv s => calcAndCheck P cfg e.securityLevel lv (some t) (some s)) l b.1
          (fun b a _ => np_calc hP _ _ _ (Or.inl rfl))
        split
        · rename_i er he; rw [he] at this; intro h; cases h; exact this rfl
        · split
          · exact np_err (by decide)
          · exact np_ok _
    · obtain ⟨lv, seen⟩ := x
      refine np_bind ?_ fun lv _ => np_bind ?_ fun y _ => np_bind ?_ fun _ _ => np_ok _
      · refine np_foldRes _ _ fun b k hk => np_calc hP _ _ _ (Or.inr ⟨k, rfl, ((mem_keySecrets e k).mp hk).2⟩)
      · unfold applyMinimums
        dsimp only
        (repeat' split) <;> first | exact np_ok _ | exact np_err (by decide)
      · unfold finalChecks
        split
        · exact np_err (by decide)
        · refine np_bind (np_compliance _ _) fun _ _ => ?_
          (repeat' split) <;> first | exact np_err (by decide) | exact np_checkLevel _ _ _

theorem np_correspondence {P : Prims} (hP : P.NoPanic) (cfg : Config) {w : World} (hw : w.Calm) (reg : List Suite) (e : Envelope) :
    (correspondence P cfg w reg e).noPanic := by
  unfold correspondence
  refine np_bind ?_ fun x _ => np_bind ?_ fun _ _ => np_newSession hP _ _
  · unfold loadSuite
    split
    · exact np_ok _
    · split
      · exact np_err (by decide)
      · exact np_ok _
  · unfold prepareSignets
    exact np_bind (np_prep hP hw _ _ _) fun _ _ => np_bind (np_prep hP hw _ _ _) fun _ _ => np_bind (np_prep hP hw _ _ _) fun _ _ => np_ok _

theorem np_envelope (reg : List Suite) (reqs : Option Requirements) (l : Letter) : (l.envelope reg reqs).noPanic := by
  unfold Letter.envelope
  split
  · exact np_err (by decide)
  · split
    · exact np_err (by decide)
    · split
      · exact np_err (by decide)
      · exact np_bind (np_compliance _ _) fun _ _ => np_ok _

/-! ## Opening -/

theorem np_setupTools {P : Prims} (hP : P.NoPanic) (s : Session) (k : ToolInst) (nonce : Bytes) (m : List Bytes) :
    ∀ (ts : List ToolInst) (off : Nat) (os : List ToolState), (setupTools P s k nonce m off ts os).2.noPanic
  | [], _, _ => np_ok _
  | _ :: _, _, [] => np_ok _
  | t :: ts, off, o :: os => by
    rw [setupTools]
    have h1 : (setupTool P s k nonce m off t o).noPanic := by
      unfold setupTool
      have := hP.kdf k.info.name k.hashName nonce m.flatten off (s.toolKeySize t)
      split
      · rename_i e he
        unfold kdfRead at he
        rw [he] at this; intro h; cases h; exact this rfl
      · have : (setupNonce P s k nonce m (off + s.toolKeySize t) t).noPanic := by
          unfold setupNonce
          split
          · have := hP.kdf k.info.name k.hashName nonce m.flatten (off + s.toolKeySize t) (s.toolNonceSize t)
            split
            · rename_i e he
              unfold kdfRead at he
              rw [he] at this; intro h; cases h; exact this rfl
            · exact np_ok _
          · exact np_ok _
        split
        · rename_i e he; rw [he] at this; intro h; cases h; exact this rfl
        · exact np_ok _
    split
    · rename_i e he; rw [he] at h1; intro h; cases h; exact h1 rfl
    · exact np_setupTools hP s k nonce m ts _ os

theorem np_unprotect {P : Prims} (hP : P.NoPanic) (s : Session) (sts : List ToolState) (l : Letter) : (unprotect P s sts l).noPanic := by
  unfold unprotect
  refine np_bind ?_ fun mac _ => ?_
  · unfold runMACs
    refine np_foldRes _ _ fun b x _ => np_bind ?_ fun _ _ => np_ok _
    unfold toolMAC
    split
    · exact np_err (by decide)
    · exact np_ok _
  · split
    · exact np_err (by decide)
    · refine np_bind ?_ fun d _ => ?_
      · unfold runUnseal
        refine np_foldRes _ _ fun d x _ => ?_
        unfold openOne
        have := hP.aeadOpen x.1.info.name x.2.key x.2.nonce (s.adOf l) d
        split
        · exact np_ok _
        · rename_i he; exact absurd he this
        · exact np_err (by decide)
      · unfold runDecrypt
        exact np_foldRes _ _ fun d x _ => hP.decrypt _ _ _ _

theorem np_decryptLetter {P : Prims} (hP : P.NoPanic) (s : Session) (st : SState) (k : ToolInst) (m : List Bytes) (off : Nat) (l : Letter) :
    (decryptLetter P s st k m off l).2.noPanic := by
  unfold decryptLetter
  have := np_setupTools hP s k l.nonce m s.stateful off st.tools
  split
  · rename_i e he; rw [he] at this; intro h; cases h; exact this rfl
  · exact np_unprotect hP s _ l

theorem np_verifyAll {P : Prims} (fed : Bytes) (sigs : List Seal) : ∀ (xs : List (ToolInst × Signet)) (i : Nat),
    i + xs.length ≤ sigs.length → (verifyAll P fed sigs i xs).noPanic
  | [], _, _ => np_ok _
  | (t, k) :: xs, i, h => by
    rw [List.length_cons] at h
    rw [verifyAll]
    split
    · rename_i hn
      have := List.getElem?_eq_none_iff.mp hn
      omega
    · rename_i sl _
      have ht : (toolVerify P t (P.hash t.hashName fed) sl.value k).noPanic := by
        unfold toolVerify
        (repeat' split) <;> first | exact np_err (by decide) | exact np_ok _
      split
      · rename_i e he; rw [he] at ht; intro h; cases h; exact ht rfl
      · exact np_verifyAll fed sigs xs (i + 1) (by omega)

theorem np_collect {α β : Type} {g : Nat → α → Res β} : ∀ (xs : List α) (i : Nat),
    (∀ j x, xs[j]? = some x → (g (i + j) x).noPanic) → (collectFrom g i xs).noPanic := by
  intro xs i h hp
  obtain ⟨j, x, hx, hg⟩ := collectFrom_error hp
  exact h j x hx hg

/-- What holds for the session that opens a letter with a registered suite: every tool finds a seal for each of its signets. -/
structure OpenSafe (P : Prims) (s : Session) (l : Letter) : Prop where
  kx : (s.queue .keyExchange).length ≤ 1
  ke : (s.queue .keyEncapsulation).length ≤ 1
  sigs : s.signerPairs.length ≤ s.env.senders.length
  keys : (ofScheme s.env.secrets schemeKey).length + (ofScheme s.env.secrets schemePassword).length +
    (s.pairs .keyExchange).length + (s.pairs .keyEncapsulation).length ≤ l.keys.length
  priv : ∀ p, p = Purpose.keyExchange ∨ p = .keyEncapsulation → ∀ x ∈ s.pairs p, x.2.loadedPriv.isSome = true
  pw : ofScheme s.env.secrets schemePassword ≠ [] → s.passDerivator ≠ none

theorem np_peer {P : Prims} (hP : P.NoPanic) (v : UInt8) (t : ToolInst) (b : Bytes) (loc : Signet) (hl : loc.loadedPriv.isSome = true) :
    (peerSignet P v t b >>= fun peer => makeShared P t.info.name loc peer).noPanic := by
  refine np_bind (np_load hP _) fun peer hp => ?_
  have := (load_spec hp).2.2.2.2.2.2.2
  unfold makeShared
  split
  · exact np_ok _
  · rename_i hn
    obtain ⟨a, ha⟩ := Option.isSome_iff_exists.mp hl
    obtain ⟨b, hb⟩ := Option.isSome_iff_exists.mp this
    exact absurd hb (hn a b ha)

theorem np_open {P : Prims} (hP : P.NoPanic) {cfg : Config} {s : Session} {st : SState} {l : Letter} (hs : OpenSafe P s l) :
    (s.open P cfg st l).2.noPanic := by
  unfold Session.open
  split
  · exact np_err (by decide)
  · have hck : (checkSignatures P s st l).2.noPanic := by
      unfold checkSignatures
      split
      · exact np_ok _
      · simp only
        split
        · exact np_err (by decide)
        · rename_i hlen
          have hlen' : s.env.senders.length = l.signatures.length := by omega
          exact np_verifyAll _ _ _ _ (by have := hs.sigs; omega)
    split
    · rename_i e he; rw [he] at hck; intro h; cases h; exact hck rfl
    · split
      · split
        · exact np_err (by decide)
        · exact np_ok _
      · rw [setupOpening_eq P cfg s l hs.kx hs.ke]
        have hm : (if s.env.secrets.length + s.env.senders.length + s.env.recipients.length < l.keys.length then .error .missing
            else openingMaterial P cfg s l : Res (List Bytes)).noPanic := by
          split
          · exact np_err (by decide)
          · unfold openingMaterial
            dsimp only
            refine np_bind ?_ fun a _ => np_bind ?_ fun b _ => np_bind ?_ fun c _ => np_ok _
            · refine np_collect _ _ fun j x hx => ?_
              unfold passKey
              split
              · exact np_err (by decide)
              · split
                · rename_i hn
                  have : x ∈ ofScheme s.env.secrets schemePassword := List.mem_of_getElem? hx
                  exact absurd hn (hs.pw (List.ne_nil_of_mem this))
                · exact hP.passKdf _ _ _ _
            · refine np_collect _ _ fun j x hx => ?_
              unfold openKXKey
              split
              · rename_i hn
                have h1 := List.getElem?_eq_none_iff.mp hn
                have h2 := (List.getElem?_eq_some_iff.mp hx).1
                have := hs.keys
                omega
              · exact np_peer hP _ _ _ _ (hs.priv _ (Or.inl rfl) x (List.mem_of_getElem? hx))
            · refine np_collect _ _ fun j x hx => ?_
              unfold openKEKey
              split
              · rename_i hn
                have h1 := List.getElem?_eq_none_iff.mp hn
                have h2 := (List.getElem?_eq_some_iff.mp hx).1
                have := hs.keys
                omega
              · unfold unwrapKey
                obtain ⟨a, ha⟩ := Option.isSome_iff_exists.mp (hs.priv _ (Or.inr rfl) x (List.mem_of_getElem? hx))
                rw [ha]
                exact hP.unwrap _ _ _ _
        split
        · rename_i e he; rw [he] at hm; intro h; cases h; exact hm rfl
        · split
          · exact np_decryptLetter hP s _ _ _ _ l
          · exact np_err (by decide)

theorem load_priv {P : Prims} (hP : P.NoPanic) {n o : Signet} (h : n.load P = .ok o) (hpub : n.isPublic = false)
    (hl : n.loadedPub.isSome = true → n.loadedPriv.isSome = true) : o.loadedPriv.isSome = true := by
  unfold Signet.load at h
  split at h
  · rename_i hs; cases h; exact hl hs
  · split at h
    · cases h
    · split at h
      · cases h
      · split at h
        · split at h
          · cases h
          · rename_i pub priv he
            cases h
            rw [hpub] at he
            exact hP.loadPriv _ _ _ _ he
        · cases h

theorem openSafe_of {P : Prims} (hP : P.NoPanic) {cfg : Config} {w : World} (hw : w.Sound) {reqs : Option Requirements} {l : Letter}
    {s : Session} (ho : OpenedBy P cfg w suiteRegistry reqs l s) : OpenSafe P s l := by
  have hmem := List.mem_of_find?_eq_some ho.suite
  obtain ⟨hnd, hone⟩ := registered_session ho.session hmem
  have hu := no_signet_ignored P cfg _ s ho.session hnd
  have htool : ∀ t ∈ s.insts, t.info.name ≠ [] ∧ t.info.name ≠ schemeKey ∧ t.info.name ≠ schemePassword := by
    intro t ht
    obtain ⟨tid, _, hmk⟩ := inst_tool ho.session ht
    exact (toolTable_nonneg t.info (makeInst_spec hmk).2.1).2
  have hrt : ∀ t ∈ s.rcptTools, t ∈ s.insts := by
    intro t ht
    rcases List.mem_append.mp ht with h | h
    · exact (mem_queue.mp h).1
    · exact (mem_queue.mp h).1
  have hrec := (prepSignets_all2 P w _ false _ _ (Or.inl rfl)).mp ho.recipients
  refine ⟨hone _ (by simp), hone _ (by simp), ?_, ?_, ?_, ?_⟩
  · rw [signerPairs_eq]
    exact toolPairs_length _ _ ((List.filter_sublist.map _).nodup hnd) (fun t ht => (htool t (mem_queue.mp ht).1).1)
  · have l1 := (prepSignets_flags P w _ _ _ _ ho.secrets).length
    have l2 := hrec.length
    have c1 := secretSignets_count s.env.secrets
    have c2 := toolPairs_length s.rcptTools s.env.recipients (rcptTools_nodup hnd) (fun t ht => (htool t (hrt t ht)).1)
    unfold Session.rcptTools at c2
    rw [toolPairs_append, ← pairs_eq, ← pairs_eq, List.length_append] at c2
    have c3 : l.secretStubs.length + l.recipientStubs.length ≤ l.keys.length := by
      unfold Letter.secretStubs Letter.recipientStubs
      rw [List.length_map, List.length_map]
      generalize l.keys = ks
      induction ks with
      | nil => simp
      | cons k ks ih =>
        simp only [List.filter_cons, List.length_cons]
        cases h1 : k.id.isEmpty <;> cases h2 : k.isSecret <;>
          simp only [Bool.not_true, Bool.not_false, Bool.true_and, Bool.false_and, if_true, Bool.false_eq_true, if_false, List.length_cons] <;> omega
    omega
  · intro p hp x hx
    obtain ⟨t, ht, hx⟩ := List.mem_flatMap.mp hx
    obtain ⟨k, hk, rfl⟩ := List.mem_map.mp hx
    have hti := mem_queue.mp ht
    have htn := htool t hti.1
    have hk' := (mem_ofScheme htn.1 k).mp hk
    obtain ⟨st, hst, hpo⟩ := hrec.mem_right hk'.1
    obtain ⟨sl, hsl, rfl⟩ := List.mem_map.mp hst
    have hns : sl.isSecret = false := by
      have := (List.mem_filter.mp hsl).2
      simp only [Bool.and_eq_true, Bool.not_eq_true'] at this
      exact this.2
    have hnp : sl.scheme ≠ schemePassword := by
      intro h; unfold Seal.isSecret at hns; rw [h] at hns; simp at hns
    have hnk : sl.scheme ≠ schemeKey := by
      intro h; unfold Seal.isSecret at hns; rw [h] at hns; simp at hns
    obtain ⟨get, n, h1, h2, h3, h4, h5⟩ := prepOne_fetch (s := stubOf l.version sl) rfl hnp hpo
    have hns' : (stubOf l.version sl).scheme ≠ schemeKey := hnk
    rw [if_neg hns'] at h2
    obtain ⟨f1, f2, f3, f4, f5⟩ := finishPrep_spec h5
    obtain ⟨g1, g2⟩ := hw.priv get h1 _ n h2
    rcases f5 with ⟨hbad, _⟩ | ⟨_, _, hl⟩
    · rw [← f2, hk'.2] at hbad
      rcases hbad with h | h
      · exact absurd h htn.2.1
      · exact absurd h htn.2.2
    · exact load_priv hP hl g1 g2
  · intro hne
    obtain ⟨k, hk⟩ := List.exists_mem_of_ne_nil _ hne
    have hk' := (mem_ofScheme (by decide) k).mp hk
    rcases hu.secrets k hk'.1 with h | ⟨_, t, ht, htp⟩
    · rw [hk'.2] at h; exact absurd h (by decide)
    · unfold Session.passDerivator
      rw [ne_eq, List.head?_eq_none_iff]
      exact List.ne_nil_of_mem (mem_queue.mpr ⟨ht, htp⟩)

/-- C26 for letters whose seals are all present. No letter makes `Letter.Open` or `Letter.Verify` panic, whatever its version,
suite ID, nonce, seals, data, MAC and signatures are. -/
theorem letters_do_not_panic_partial (P : Prims) (hP : P.NoPanic) (cfg : Config) (w : World) (hw : w.Sound)
    (reqs : Option Requirements) (l : Letter) :
    (l.open P cfg w suiteRegistry reqs).noPanic ∧ (l.verify P cfg w suiteRegistry reqs).noPanic := by
  constructor
  · unfold Letter.open
    refine np_bind (np_envelope _ _ _) fun e he => np_bind (np_correspondence hP _ hw.calm _ _) fun s hs => ?_
    exact np_open hP (openSafe_of hP hw (openedBy_iff he hs))
  · unfold Letter.verify
    refine np_bind (np_envelope _ _ _) fun e he => np_bind (np_correspondence hP _ hw.calm _ _) fun s hs => ?_
    have ho := openSafe_of hP hw (openedBy_iff he hs)
    unfold Session.verify
    split
    · exact np_err (by decide)
    · split
      · exact np_err (by decide)
      · unfold checkSignatures
        split
        · exact np_ok _
        · simp only
          split
          · exact np_err (by decide)
          · rename_i hlen
            have hlen' : s.env.senders.length = l.signatures.length := by omega
            exact np_verifyAll _ _ _ _ (by have := ho.sigs; omega)

theorem toyPrims_noPanic : toyPrims.NoPanic where
  kdf := fun _ _ _ _ _ _ => np_ok _
  passKdf := fun _ _ _ _ => np_ok _
  loadKey := by
    intro t k b
    show Res.noPanic (match k with | 1 :: k => _ | _ => _)
    split
    · exact np_ok _
    · exact np_err (by decide)
  loadPriv := by
    intro t k pub priv h
    simp only [toyPrims] at h
    split at h
    · cases h; rfl
    · cases h
  unwrap := fun _ _ _ _ => np_ok _
  decrypt := fun _ _ _ _ => np_ok _
  aeadOpen := by
    intro t k n a d
    show Res.noPanic (if _ then _ else _)
    split
    · exact np_ok _
    · exact np_err (by decide)

theorem toyWorld_sound : toyWorld.Sound where
  store := by
    intro get h id r; cases h
    unfold toyStore
    (repeat' split) <;> first | exact np_ok _ | exact np_err (by decide)
  priv := by
    intro get h id n hn; cases h
    unfold toyStore at hn
    (repeat' split at hn) <;> first | (cases hn; exact ⟨rfl, by simp⟩) | cases hn
  getPw := by intro cb h s; cases h; exact np_ok _
  createPw := by intro cb h s l; cases h; exact np_ok _

/-! ## Letters as they are parsed from JSON or from a file

`Letter.Keys` and `Letter.Signatures` are lists of pointers (letter.go:19-31), and a parser for JSON (or CBOR) fills `null` entries
with nil pointers. `Letter.Envelope` dereferences every entry (letter.go:75-99). -/

/-- A parsed letter: a seal may be missing. -/
structure ParsedLetter where
  letter : Letter
  keys : List (Option Seal)
  signatures : List (Option Seal)

/-- letter.go:108-120 `Letter.Open` on a parsed letter: the checks of letter.go:49-73 come first, then letter.go:75-99 dereferences
all seals. `letter` holds the other fields. -/
def ParsedLetter.open (P : Prims) (cfg : Config) (w : World) (reg : List Suite) (reqs : Option Requirements) (p : ParsedLetter) : Res Bytes :=
  match ({ p.letter with keys := [], signatures := [] } : Letter).envelope reg reqs with
  | .error e => .error e
  | .ok _ =>
    if p.keys.any Option.isNone || p.signatures.any Option.isNone then .error .panic
    else Letter.open P cfg w reg reqs { p.letter with keys := p.keys.filterMap id, signatures := p.signatures.filterMap id }

/-- C26 is false for letters with null seals (a finding): any such letter for an acceptable suite makes `Letter.Open` panic,
before anything is authenticated. -/
theorem null_seal_panics (P : Prims) (cfg : Config) (w : World) (reqs : Option Requirements) (p : ParsedLetter)
    (hn : none ∈ p.keys ∨ none ∈ p.signatures) (hv : p.letter.version ≠ 0) (suite : Suite)
    (hs : getSuite suiteRegistry p.letter.suiteID = some suite) (hreq : ∀ a ∈ reqs.getD full, a ∈ suite.provides) :
    p.open P cfg w suiteRegistry reqs = .error .panic := by
  have hid : p.letter.suiteID ≠ [] := by
    have h1 := List.mem_of_find?_eq_some hs
    have h2 : suite.id = p.letter.suiteID := by simpa using List.find?_some hs
    have : ∀ su ∈ suiteRegistry, su.id ≠ [] := by decide +kernel
    rw [← h2]; exact this suite h1
  have he := (envelope_ok_iff suiteRegistry reqs ({ p.letter with keys := [], signatures := [] } : Letter) _).mpr
    ⟨hv, hid, suite, hs, hreq, rfl⟩
  unfold ParsedLetter.open
  rw [he]
  simp only
  rw [if_pos]
  simp only [Bool.or_eq_true, List.any_eq_true]
  rcases hn with h | h
  · exact Or.inl ⟨none, h, rfl⟩
  · exact Or.inr ⟨none, h, rfl⟩

/-- A letter that meets these hypotheses. -/
theorem null_seal_example :
    (ParsedLetter.open toyPrims toyConfig toyWorld suiteRegistry none
      { letter := { version := 1, suiteID := b!"v2" }, keys := [none], signatures := [] }) = .error .panic :=
  null_seal_panics _ _ _ _ _ (Or.inl (by simp)) (by decide) ((getSuite suiteRegistry b!"v2").get (by decide +kernel))
    (by decide +kernel) (by decide +kernel)

/-- Without null seals, a parsed letter is a letter: no panic. -/
theorem parsed_letters_do_not_panic (P : Prims) (hP : P.NoPanic) (cfg : Config) (w : World) (hw : w.Sound)
    (reqs : Option Requirements) (p : ParsedLetter) (hk : none ∉ p.keys) (hs : none ∉ p.signatures) :
    (p.open P cfg w suiteRegistry reqs).noPanic := by
  unfold ParsedLetter.open
  have h1 := np_envelope suiteRegistry reqs ({ p.letter with keys := [], signatures := [] } : Letter)
  split
  · rename_i e he; rw [he] at h1; intro h; cases h; exact h1 rfl
  · rw [if_neg]
    · exact (letters_do_not_panic_partial P hP cfg w hw reqs _).1
    · simp only [Bool.or_eq_true, List.any_eq_true]
      rintro (⟨x, hx, hn⟩ | ⟨x, hx, hn⟩)
      · cases x with | none => exact hk hx | some _ => cases hn
      · cases x with | none => exact hs hx | some _ => cases hn

end Jess
