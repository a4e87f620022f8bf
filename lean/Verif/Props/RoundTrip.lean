import Verif.Lemmas.RoundTrip
import Verif.Props.Prepare

/-!
# C10: closing and opening
-/

namespace Jess

open Requirements

/-- What the recipient of a letter needs to have: for every signet the closing session uses, the counterpart under the same ID
(specification). -/
structure Counterparts (P : Prims) (pair : Bytes → Bytes → Bytes → Prop) (w : World) (s : Session) : Prop where
  /-- shared keys are in the trust store -/
  keys : ∀ k ∈ s.env.secrets, k.scheme = schemeKey → ∃ get n, w.store = some get ∧ get k.id false = .ok n ∧
    n.scheme = schemeKey ∧ n.key = k.key ∧ n.protection = false
  /-- the password callback returns the password -/
  passwords : ∀ k ∈ s.env.secrets, k.scheme = schemePassword → ∃ cb o t, w.getPw = some cb ∧
    ShownAs w { version := 1, id := k.id, scheme := schemePassword } t ∧ cb t = .ok o ∧ o.scheme = schemePassword ∧ o.key = k.key
  /-- the trust store holds the public keys of the senders -/
  senders : ∀ k ∈ s.env.senders, ∃ pub priv, k.loadedPub = some pub ∧ k.loadedPriv = some priv ∧ pair k.scheme pub priv ∧
    PublicKeyOf P w k.id k.scheme pub
  /-- the trust store holds the private keys of the recipients -/
  recipients : ∀ k ∈ s.env.recipients, ∃ get n o pub priv, w.store = some get ∧ get k.id false = .ok n ∧ n.protection = false ∧
    n.scheme = k.scheme ∧ n.load P = .ok o ∧ k.loadedPub = some pub ∧ o.loadedPub = some pub ∧ o.loadedPriv = some priv ∧
    pair k.scheme pub priv

/-- The pairs of key exchange or encapsulation tools and recipients, in the order of their seals. -/
def Session.rcptTools (s : Session) : List ToolInst := s.queue .keyExchange ++ s.queue .keyEncapsulation

theorem rcptTools_nodup {s : Session} (hnd : (s.insts.map (·.info.name)).Nodup) : (s.rcptTools.map (·.info.name)).Nodup := by
  unfold Session.rcptTools
  rw [List.map_append, List.nodup_append]
  refine ⟨(List.filter_sublist.map _).nodup hnd, (List.filter_sublist.map _).nodup hnd, ?_⟩
  intro a ha b hb hab
  obtain ⟨x, hx, rfl⟩ := List.mem_map.mp ha
  obtain ⟨y, hy, rfl⟩ := List.mem_map.mp hb
  obtain ⟨hx1, hx2⟩ := mem_queue.mp hx
  obtain ⟨hy1, hy2⟩ := mem_queue.mp hy
  have := nodup_map_inj hnd hx1 hy1 hab
  rw [this, hy2] at hx2; cases hx2

theorem pairs_eq (s : Session) (p : Purpose) :
    s.pairs p = toolPairs (s.queue p) (fun t => ofScheme s.env.recipients t.info.name) := rfl

theorem signerPairs_eq (s : Session) :
    s.signerPairs = toolPairs (s.queue .signing) (fun t => ofScheme s.env.senders t.info.name) := rfl

theorem toolPairs_append (ts us : List ToolInst) (g : ToolInst → List Signet) :
    toolPairs (ts ++ us) g = toolPairs ts g ++ toolPairs us g := by
  unfold toolPairs; rw [List.flatMap_append]

theorem ofScheme_append (l m : List Signet) (n : Bytes) : ofScheme (l ++ m) n = ofScheme l n ++ ofScheme m n := by
  unfold ofScheme; rw [List.filter_append]

theorem ofScheme_all {l : List Signet} {n : Bytes} (h : ∀ k ∈ l, k.scheme = n) : ofScheme l n = l := by
  unfold ofScheme; rw [List.filter_eq_self]; intro k hk; simp [h k hk]

theorem ofScheme_none {l : List Signet} {n : Bytes} (hn : n ≠ []) (h : ∀ k ∈ l, k.scheme ≠ n) : ofScheme l n = [] := by
  unfold ofScheme; rw [List.filter_eq_nil_iff]; intro k hk
  have : n.isEmpty = false := by cases n with | nil => exact absurd rfl hn | cons _ _ => rfl
  simp [h k hk, this]

theorem secretSignets_count (l : List Signet) : (ofScheme l schemeKey).length + (ofScheme l schemePassword).length ≤ l.length := by
  induction l with
  | nil => simp [ofScheme]
  | cons k l ih =>
    have h1 : schemePassword.isEmpty = false := by decide
    have h2 : schemeKey.isEmpty = false := by decide
    simp only [ofScheme, h1, h2, Bool.false_or, List.filter_cons] at ih ⊢
    by_cases ha : k.scheme = schemeKey
    · have : (k.scheme == schemePassword) = false := by rw [ha]; decide
      simp only [ha, beq_self_eq_true, if_true, List.length_cons]
      rw [ha] at this
      simp only [this, Bool.false_eq_true, if_false]
      omega
    · have : (k.scheme == schemeKey) = false := by simpa using ha
      simp only [this, Bool.false_eq_true, if_false]
      split <;> simp only [List.length_cons] <;> omega

/-- The seals of shared keys and passwords. -/
def keySeals (l : List Signet) : List Seal := l.map (fun k => { scheme := schemeKey, id := k.id })
def pwSeals (l : List Signet) : List Seal := l.map (fun k => { scheme := schemePassword, id := k.id })

/-- The session that opens a letter which refers to the signets of a closing session. -/
theorem opener_session {P : Prims} {pair : Bytes → Bytes → Bytes → Prop} {cfg : Config} {w : World} {reg : List Suite}
    {reqs : Option Requirements} {s : Session} (hs : newSession P cfg s.env = .ok s)
    (hnd : (s.insts.map (·.info.name)).Nodup) (hsu : getSuite reg s.env.suiteID = some s.suite) (hsid : s.env.suiteID ≠ [])
    (hlev : demandedLevel cfg 0 ≤ demandedLevel cfg s.env.securityLevel)
    (hids : (∀ k ∈ s.env.secrets, k.id ≠ []) ∧ (∀ k ∈ s.env.senders, k.id ≠ []) ∧ (∀ k ∈ s.env.recipients, k.id ≠ []))
    (hmix : ofScheme s.env.secrets schemeKey = [] ∨ ofScheme s.env.secrets schemePassword = [])
    (hcp : Counterparts P pair w s) (hreq : ∀ a ∈ reqs.getD full, a ∈ s.suite.provides)
    {l : Letter} (hv : l.version = 1) (hlid : l.suiteID = s.env.suiteID) {rs : List Seal}
    (hkeys : l.keys = keySeals (ofScheme s.env.secrets schemeKey) ++ pwSeals (ofScheme s.env.secrets schemePassword) ++ rs)
    (hrs : All2 (fun x sl => sl.scheme = [] ∧ sl.id = x.2.id) (toolPairs s.rcptTools (fun t => ofScheme s.env.recipients t.info.name)) rs)
    (hsg : All2 (fun x sl => sl.scheme = x.1.info.name ∧ sl.id = x.2.id) s.signerPairs l.signatures) :
    ∃ e0 eo, l.envelope reg reqs = .ok e0 ∧ correspondence P cfg w reg e0 = .ok { s with env := eo } ∧
      All2 (fun k o => o.key = k.key) (ofScheme s.env.secrets schemeKey) (ofScheme eo.secrets schemeKey) ∧
      All2 (fun k o => o.key = k.key) (ofScheme s.env.secrets schemePassword) (ofScheme eo.secrets schemePassword) ∧
      (∀ t ∈ s.rcptTools, All2 (PrivOf pair) (ofScheme s.env.recipients t.info.name) (ofScheme eo.recipients t.info.name)) ∧
      (∀ t ∈ s.queue .signing, All2 (fun k o => ∃ pub priv, k.loadedPub = some pub ∧ k.loadedPriv = some priv ∧
        pair k.scheme pub priv ∧ o.loadedPub = some pub) (ofScheme s.env.senders t.info.name) (ofScheme eo.senders t.info.name)) ∧
      eo.senders.length = l.signatures.length ∧ l.keys.length ≤ eo.secrets.length + eo.senders.length + eo.recipients.length := by
  have hkne : schemeKey ≠ [] := by decide
  have hpne : schemePassword ≠ [] := by decide
  have htool : ∀ t ∈ s.insts, t.info.name ≠ [] ∧ t.info.name ≠ schemeKey ∧ t.info.name ≠ schemePassword := by
    intro t ht
    obtain ⟨tid, _, hmk⟩ := inst_tool hs ht
    exact (toolTable_nonneg t.info (makeInst_spec hmk).2.1).2
  have hrt : ∀ t ∈ s.rcptTools, t ∈ s.insts := by
    intro t ht
    rcases List.mem_append.mp ht with h | h
    · exact (mem_queue.mp h).1
    · exact (mem_queue.mp h).1
  -- abbreviations
  generalize hKS : ofScheme s.env.secrets schemeKey = KS at *
  generalize hPW : ofScheme s.env.secrets schemePassword = PW at *
  have hKSm : ∀ k ∈ KS, k ∈ s.env.secrets ∧ k.scheme = schemeKey := by
    intro k hk; rw [← hKS] at hk; exact (mem_ofScheme hkne k).mp hk
  have hPWm : ∀ k ∈ PW, k ∈ s.env.secrets ∧ k.scheme = schemePassword := by
    intro k hk; rw [← hPW] at hk; exact (mem_ofScheme hpne k).mp hk
  have hRm : ∀ x ∈ toolPairs s.rcptTools (fun t => ofScheme s.env.recipients t.info.name),
      x.1 ∈ s.rcptTools ∧ x.2 ∈ s.env.recipients ∧ x.2.scheme = x.1.info.name := by
    intro x hx
    obtain ⟨t, ht, hx⟩ := List.mem_flatMap.mp hx
    obtain ⟨k, hk, rfl⟩ := List.mem_map.mp hx
    have := (mem_ofScheme (htool t (hrt t ht)).1 k).mp hk
    exact ⟨ht, this.1, this.2⟩
  have hSm : ∀ x ∈ s.signerPairs, x.1 ∈ s.queue .signing ∧ x.2 ∈ s.env.senders ∧ x.2.scheme = x.1.info.name := by
    intro x hx
    obtain ⟨t, ht, hx⟩ := List.mem_flatMap.mp hx
    obtain ⟨k, hk, rfl⟩ := List.mem_map.mp hx
    have := (mem_ofScheme (htool t (mem_queue.mp ht).1).1 k).mp hk
    exact ⟨ht, this.1, this.2⟩
  -- the stubs of the letter
  have hstubS : l.secretStubs = KS.map (fun k => ({ version := 1, id := k.id, scheme := schemeKey } : Signet)) ++
      PW.map (fun k => ({ version := 1, id := k.id, scheme := schemePassword } : Signet)) := by
    unfold Letter.secretStubs
    rw [hkeys, List.filter_append, List.filter_append]
    have e1 : (keySeals KS).filter (fun s => !s.id.isEmpty && s.isSecret) = keySeals KS := by
      rw [List.filter_eq_self]; intro sl hsl
      obtain ⟨k, hk, rfl⟩ := List.mem_map.mp hsl
      have := hids.1 k (hKSm k hk).1
      simp [Seal.isSecret, this]
    have e2 : (pwSeals PW).filter (fun s => !s.id.isEmpty && s.isSecret) = pwSeals PW := by
      rw [List.filter_eq_self]; intro sl hsl
      obtain ⟨k, hk, rfl⟩ := List.mem_map.mp hsl
      have := hids.1 k (hPWm k hk).1
      simp [Seal.isSecret, this]
    have e3 : rs.filter (fun s => !s.id.isEmpty && s.isSecret) = [] := by
      rw [List.filter_eq_nil_iff]; intro sl hsl
      obtain ⟨x, hx, h1, h2⟩ := hrs.mem_right hsl
      have : Seal.isSecret sl = false := by unfold Seal.isSecret; rw [h1]; decide
      simp [this]
    rw [e1, e2, e3, List.append_nil, List.map_append]
    simp [keySeals, pwSeals, hv]
    rfl
  have hstubR : l.recipientStubs = rs.map (stubOf 1) := by
    unfold Letter.recipientStubs
    rw [hkeys, List.filter_append, List.filter_append]
    have e1 : (keySeals KS).filter (fun s => !s.id.isEmpty && !s.isSecret) = [] := by
      rw [List.filter_eq_nil_iff]; intro sl hsl
      obtain ⟨k, hk, rfl⟩ := List.mem_map.mp hsl
      simp [Seal.isSecret]
    have e2 : (pwSeals PW).filter (fun s => !s.id.isEmpty && !s.isSecret) = [] := by
      rw [List.filter_eq_nil_iff]; intro sl hsl
      obtain ⟨k, hk, rfl⟩ := List.mem_map.mp hsl
      simp [Seal.isSecret]
    have e3 : rs.filter (fun s => !s.id.isEmpty && !s.isSecret) = rs := by
      rw [List.filter_eq_self]; intro sl hsl
      obtain ⟨x, hx, h1, h2⟩ := hrs.mem_right hsl
      have h3 := hids.2.2 x.2 (hRm x hx).2.1
      have : Seal.isSecret sl = false := by unfold Seal.isSecret; rw [h1]; decide
      simp [this, h2, h3]
    rw [e1, e2, e3, List.nil_append, List.nil_append, hv]
  -- preparing them
  obtain ⟨ksO, hksO⟩ := exists_all2 (R := fun k o => prepOne P w s.suite.securityLevel true
      ({ version := 1, id := k.id, scheme := schemeKey } : Signet) = .ok o ∧ o.scheme = schemeKey ∧ o.key = k.key) KS (by
    intro k hk
    obtain ⟨get, n, h1, h2, h3, h4, h5⟩ := hcp.keys k (hKSm k hk).1 (hKSm k hk).2
    have hid := hids.1 k (hKSm k hk).1
    have hidl : k.id.length ≠ 0 := fun h => hid (List.length_eq_zero_iff.mp h)
    refine ⟨n, ?_, h3, h4⟩
    simp [prepOne, fetchSignet, schemeKey_ne_pw, hid, h1, h2, h3, finishPrep, h5])
  obtain ⟨pwO, hpwO⟩ := exists_all2 (R := fun k o => prepOne P w s.suite.securityLevel true
      ({ version := 1, id := k.id, scheme := schemePassword } : Signet) = .ok o ∧ o.scheme = schemePassword ∧ o.key = k.key) PW (by
    intro k hk
    obtain ⟨cb, o, t, h1, ht, h2, h3, h4⟩ := hcp.passwords k (hPWm k hk).1 (hPWm k hk).2
    rw [ht.eq] at h2
    exact ⟨o, by simp [prepOne, fillPassword, h1, h2], h3, h4⟩)
  obtain ⟨rO, hrO⟩ := exists_all2 (R := fun (x : ToolInst × Signet) o => ∀ sl : Seal, sl.scheme = [] → sl.id = x.2.id →
      prepOne P w s.suite.securityLevel false (stubOf 1 sl) = .ok o ∧ o.scheme = x.1.info.name ∧ PrivOf pair x.2 o)
      (toolPairs s.rcptTools (fun t => ofScheme s.env.recipients t.info.name)) (by
    intro x hx
    obtain ⟨m1, m2, m3⟩ := hRm x hx
    obtain ⟨get, n, o, pub, priv, h1, h2, h3, h4, h5, h6, h7, h8, h9⟩ := hcp.recipients x.2 m2
    have hld := load_spec h5
    have hsch := htool x.1 (hrt x.1 m1)
    refine ⟨o, ?_⟩
    intro sl hsc hid
    have hidn := hids.2.2 x.2 m2
    have hidl : x.2.id.length ≠ 0 := fun h => hidn (List.length_eq_zero_iff.mp h)
    have hnk : n.scheme ≠ schemeKey := by rw [h4, m3]; exact hsch.2.1
    have hnp : n.scheme ≠ schemePassword := by rw [h4, m3]; exact hsch.2.2
    refine ⟨?_, by rw [hld.2.1, h4, m3], ⟨by rw [hld.2.1, h4], by rw [h6, h7], by rw [h6]; rfl⟩, pub, priv, h6, h8, h9⟩
    simp [prepOne, fetchSignet, stubOf, hsc, hid, hidn, h1, h2, finishPrep, h3, h5, hnk, hnp, Ne.symm hpne, Ne.symm hkne])
  obtain ⟨sO, hsO⟩ := exists_all2 (R := fun (x : ToolInst × Signet) o => ∀ sl : Seal, sl.scheme = x.1.info.name → sl.id = x.2.id →
      prepOne P w s.suite.securityLevel true (stubOf 1 sl) = .ok o ∧ o.scheme = x.1.info.name ∧
      ∃ pub priv, x.2.loadedPub = some pub ∧ x.2.loadedPriv = some priv ∧ pair x.2.scheme pub priv ∧ o.loadedPub = some pub)
      s.signerPairs (by
    intro x hx
    obtain ⟨m1, m2, m3⟩ := hSm x hx
    obtain ⟨pub, priv, h1, h2, h3, get, n, o, h4, h5, h6, h7, h8, h9⟩ := hcp.senders x.2 m2
    have hld := load_spec h8
    have hsch := htool x.1 (mem_queue.mp m1).1
    refine ⟨o, ?_⟩
    intro sl hsc hid
    have hidn := hids.2.1 x.2 m2
    have hidl : x.2.id.length ≠ 0 := fun h => hidn (List.length_eq_zero_iff.mp h)
    have hns : n.scheme = x.1.info.name := by rw [h7, m3]
    refine ⟨?_, by rw [hld.2.1, hns], pub, priv, h1, h2, h3, h9⟩
    simp [prepOne, fetchSignet, stubOf, hsc, hid, hidn, h4, h5, finishPrep, h6, h8, hns, hsch])
  have pSec : prepSignets P w s.suite.securityLevel true l.secretStubs = .ok (ksO ++ pwO) := by
    apply prepSignets_of_all2
    · right
      rw [hstubS]
      rcases hmix with h | h
      · left
        subst h
        intro st hst
        simp only [List.map_nil, List.nil_append] at hst
        obtain ⟨k, _, rfl⟩ := List.mem_map.mp hst
        intro _
        exact Ne.symm schemeKey_ne_pw
      · right
        subst h
        intro st hst
        simp only [List.map_nil, List.append_nil] at hst
        obtain ⟨k, _, rfl⟩ := List.mem_map.mp hst
        exact ⟨rfl, rfl⟩
    · rw [hstubS]
      refine All2.append ?_ ?_
      · rw [All2.map_left]; exact hksO.mono fun a b h => h.1
      · rw [All2.map_left]; exact hpwO.mono fun a b h => h.1
  have comb : ∀ {α β γ : Type} {R : α → β → Prop} {S : α → γ → Prop} {xs : List α} {ys : List β} {zs : List γ},
      All2 R xs ys → All2 S xs zs → All2 (fun y z => ∃ x ∈ xs, R x y ∧ S x z) ys zs := by
    intro α β γ R S xs ys zs h1 h2
    induction h1 generalizing zs with
    | nil => cases h2; exact .nil
    | cons hr _ ih =>
      cases h2 with
      | cons hs hs' =>
        refine .cons ⟨_, by simp, hr, hs⟩ ((ih hs').mono fun a b h => ?_)
        obtain ⟨x, hx, hh⟩ := h
        exact ⟨x, by simp [hx], hh⟩
  have pRcp : prepSignets P w s.suite.securityLevel false l.recipientStubs = .ok rO := by
    apply prepSignets_of_all2 (Or.inl rfl)
    rw [hstubR, All2.map_left]
    refine (comb hrs hrO).mono fun sl o h => ?_
    obtain ⟨x, _, ⟨a, b⟩, c⟩ := h
    exact (c sl a b).1
  have pSnd : prepSignets P w s.suite.securityLevel true (l.signatures.map (stubOf l.version)) = .ok sO := by
    have hnk : ∀ sl ∈ l.signatures, sl.scheme ≠ schemeKey := by
      intro sl hsl
      obtain ⟨x, hx, h1, _⟩ := hsg.mem_right hsl
      rw [h1]; exact (htool x.1 (mem_queue.mp (hSm x hx).1).1).2.1
    apply prepSignets_of_all2
    · right; left
      intro st hst _
      obtain ⟨sl, hsl, rfl⟩ := List.mem_map.mp hst
      exact hnk sl hsl
    · rw [All2.map_left, hv]
      refine (comb hsg hsO).mono fun sl o h => ?_
      obtain ⟨x, _, ⟨a, b⟩, c⟩ := h
      exact (c sl a b).1
  -- the prepared envelope
  let eo : Envelope := { version := l.version, suiteID := l.suiteID, suite := some s.suite, secrets := ksO ++ pwO,
                         recipients := rO, senders := sO, opening := true }
  let e0 : Envelope := { version := l.version, suiteID := l.suiteID, suite := some s.suite, secrets := l.secretStubs,
                         recipients := l.recipientStubs, senders := l.signatures.map (stubOf l.version), opening := true }
  have henv : l.envelope reg reqs = .ok e0 := by
    rw [envelope_ok_iff]
    exact ⟨by rw [hv]; decide, by rw [hlid]; exact hsid, s.suite, by rw [hlid]; exact hsu, hreq, rfl⟩
  -- relations by scheme
  have hks1 : ∀ o ∈ ksO, o.scheme = schemeKey := by
    intro o ho; obtain ⟨k, _, h⟩ := hksO.mem_right ho; exact h.2.1
  have hpw1 : ∀ o ∈ pwO, o.scheme = schemePassword := by
    intro o ho; obtain ⟨k, _, h⟩ := hpwO.mem_right ho; exact h.2.1
  have hoK : ofScheme eo.secrets schemeKey = ksO := by
    show ofScheme (ksO ++ pwO) schemeKey = ksO
    rw [ofScheme_append, ofScheme_all hks1, ofScheme_none hkne (fun k hk => by rw [hpw1 k hk]; exact Ne.symm schemeKey_ne_pw), List.append_nil]
  have hoP : ofScheme eo.secrets schemePassword = pwO := by
    show ofScheme (ksO ++ pwO) schemePassword = pwO
    rw [ofScheme_append, ofScheme_all hpw1, ofScheme_none hpne (fun k hk => by rw [hks1 k hk]; exact schemeKey_ne_pw), List.nil_append]
  have hexR : ∀ x : ToolInst × Signet, ∃ sl : Seal, sl.scheme = [] ∧ sl.id = x.2.id := fun x => ⟨{ id := x.2.id }, rfl, rfl⟩
  have hexS : ∀ x : ToolInst × Signet, ∃ sl : Seal, sl.scheme = x.1.info.name ∧ sl.id = x.2.id :=
    fun x => ⟨{ scheme := x.1.info.name, id := x.2.id }, rfl, rfl⟩
  have hrO' : All2 (fun (x : ToolInst × Signet) o => o.scheme = x.1.info.name ∧ PrivOf pair x.2 o)
      (toolPairs s.rcptTools (fun t => ofScheme s.env.recipients t.info.name)) rO :=
    hrO.mono fun x o h => by
      obtain ⟨sl, a, b⟩ := hexR x
      exact (h sl a b).2
  have hsO' : All2 (fun (x : ToolInst × Signet) o => o.scheme = x.1.info.name ∧
      ∃ pub priv, x.2.loadedPub = some pub ∧ x.2.loadedPriv = some priv ∧ pair x.2.scheme pub priv ∧ o.loadedPub = some pub)
      s.signerPairs sO :=
    hsO.mono fun x o h => by
      obtain ⟨sl, a, b⟩ := hexS x
      exact (h sl a b).2
  have grpR := regroup_pairs (fun t => ofScheme s.env.recipients t.info.name) s.rcptTools (rcptTools_nodup hnd)
    (fun t ht => (htool t (hrt t ht)).1) (fun x o h => h.1) hrO'
  have grpS := regroup_pairs (fun t => ofScheme s.env.senders t.info.name) (s.queue .signing)
    ((List.filter_sublist.map _).nodup hnd) (fun t ht => (htool t (mem_queue.mp ht).1).1) (fun x o h => h.1) hsO'
  -- the session
  have hsess : newSession P cfg eo = .ok { s with env := eo } := by
    refine newSession_transfer hs (by rw [(newSession_env hs).2]) rfl hlev ?_ ?_ ?_
    · intro i hi
      have hin := htool i hi
      unfold signetsFor
      cases hp : i.info.purpose <;> simp only [Option.getD_some, Option.getD_none]
      case keyDerivation => exact .nil
      case integratedCipher => exact .nil
      case cipher => exact .nil
      case mac => exact .nil
      case passDerivation =>
        rw [hoP, hPW]
        exact hpwO.mono_mem fun a ha b _ h => calcLevel_pw (hPWm a ha).2 h.2.1 h.2.2
      case signing =>
        refine (grpS i (mem_queue.mpr ⟨hi, hp⟩)).mono_mem fun a ha b _ h => ?_
        obtain ⟨h1, pub, priv, h2, _, _, h5⟩ := h
        have hsa := ((mem_ofScheme hin.1 a).mp ha).2
        exact calcLevel_tool (by rw [h1, hsa]) (by rw [hsa]; exact hin.2.1) (by rw [hsa]; exact hin.2.2) (by rw [h2]; rfl) (by rw [h2, h5])
      case keyExchange =>
        refine (grpR i (List.mem_append.mpr (Or.inl (mem_queue.mpr ⟨hi, hp⟩)))).mono_mem fun a ha b _ h => ?_
        obtain ⟨h1, ⟨_, h2, h3⟩, _⟩ := h
        have hsa := ((mem_ofScheme hin.1 a).mp ha).2
        exact calcLevel_tool (by rw [h1, hsa]) (by rw [hsa]; exact hin.2.1) (by rw [hsa]; exact hin.2.2) h3 h2
      case keyEncapsulation =>
        refine (grpR i (List.mem_append.mpr (Or.inr (mem_queue.mpr ⟨hi, hp⟩)))).mono_mem fun a ha b _ h => ?_
        obtain ⟨h1, ⟨_, h2, h3⟩, _⟩ := h
        have hsa := ((mem_ofScheme hin.1 a).mp ha).2
        exact calcLevel_tool (by rw [h1, hsa]) (by rw [hsa]; exact hin.2.1) (by rw [hsa]; exact hin.2.2) h3 h2
    · unfold keySecrets
      rw [hoK, hKS]
      exact hksO.mono_mem fun a ha b _ h => calcLevel_key (hKSm a ha).2 h.2.1 h.2.2
    · have c1 := secretSignets_count s.env.secrets
      rw [hKS, hPW] at c1
      have c2 := toolPairs_length (s.queue .signing) s.env.senders ((List.filter_sublist.map _).nodup hnd)
        (fun t ht => (htool t (mem_queue.mp ht).1).1)
      have c3 := toolPairs_length s.rcptTools s.env.recipients (rcptTools_nodup hnd) (fun t ht => (htool t (hrt t ht)).1)
      have l1 := hksO.length
      have l2 := hpwO.length
      have l3 := hrO.length
      have l4 := hsO.length
      rw [signerPairs_eq] at l4
      show (ksO ++ pwO).length + sO.length + rO.length ≤ _
      rw [List.length_append]
      omega
  refine ⟨_, eo, henv, ?_, ?_, ?_, ?_, ?_, ?_, ?_⟩
  · have e0l : loadSuite reg e0 = .ok (e0, s.suite) := rfl
    have e0p : prepareSignets P w s.suite.securityLevel e0 = .ok eo := by
      have q1 : prepSignets P w s.suite.securityLevel e0.opening e0.secrets = .ok (ksO ++ pwO) := pSec
      have q2 : prepSignets P w s.suite.securityLevel e0.opening e0.senders = .ok sO := pSnd
      have q3 : prepSignets P w s.suite.securityLevel (!e0.opening) e0.recipients = .ok rO := pRcp
      unfold prepareSignets
      rw [q1, ok_bind, q2, ok_bind, q3, ok_bind]
    unfold correspondence
    rw [e0l, ok_bind]
    simp only
    rw [e0p, ok_bind]
    exact hsess
  · rw [hoK]; exact hksO.mono fun a b h => h.2.2
  · rw [hoP]; exact hpwO.mono fun a b h => h.2.2
  · intro t ht; exact (grpR t ht).mono fun a b h => h.2
  · intro t ht; exact (grpS t ht).mono fun a b h => h.2
  · show sO.length = _
    rw [← hsO.length, hsg.length]
  · have l1 := hksO.length
    have l2 := hpwO.length
    have l3 := hrO.length
    have l5 := hrs.length
    show l.keys.length ≤ (ksO ++ pwO).length + sO.length + rO.length
    rw [hkeys]
    simp only [List.length_append, keySeals, pwSeals, List.length_map]
    omega

end Jess
