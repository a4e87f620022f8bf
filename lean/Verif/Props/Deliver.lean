import Verif.Props.Accepted
import Verif.Props.Exchange

/-!
# C120: whoever has the keys can write, and whoever has the counterparts can read
-/

namespace Jess

open Requirements

/-! ## Specification -/

/-- The envelope names key pairs by their IDs, and two trust stores have the halves that they need (specification): the writer has the private keys of the senders and
the public keys of the recipients, the reader the public keys of the senders and the private keys of the recipients. Signatures are Ed25519, recipients X25519. -/
structure Addressed (P : Prims) (pair : Bytes → Bytes → Bytes → Prop) (getC getO : Bytes → Bool → Res Signet) (e : Envelope) : Prop where
  noSecrets : e.secrets = []
  senders : ∀ k ∈ e.senders, k.id ≠ [] ∧ k.key = [] ∧ (k.scheme = [] ∨ k.scheme = b!"Ed25519") ∧ ∃ pub priv, pair b!"Ed25519" pub priv ∧
    PrivateStored P getC k.id b!"Ed25519" pub priv ∧ PublicStored P getO k.id b!"Ed25519" pub
  recipients : ∀ k ∈ e.recipients, k.id ≠ [] ∧ k.key = [] ∧ (k.scheme = [] ∨ k.scheme = b!"ECDH-X25519") ∧ ∃ pub priv, pair b!"ECDH-X25519" pub priv ∧
    PublicStored P getC k.id b!"ECDH-X25519" pub ∧ PrivateStored P getO k.id b!"ECDH-X25519" pub priv

/-- The suite is one for the signets of the envelope (specification): it signs exactly if there are senders, and works with recipients exactly if there are
recipients. -/
structure SuiteFor (e : Envelope) : Prop where
  signs : e.suiteID ∈ signingSuites ↔ e.senders ≠ []
  encrypts : e.suiteID ∈ recipientSuites ↔ e.recipients ≠ []
  known : e.suiteID ∈ signingSuites ∨ e.suiteID ∈ recipientSuites

/-! ## Preparing -/

theorem all2_exists {α β : Type} {R : α → β → Prop} : ∀ l : List α, (∀ a ∈ l, ∃ b, R a b) → ∃ out, All2 R l out
  | [], _ => ⟨[], .nil⟩
  | a :: l, h => by
    obtain ⟨b, hb⟩ := h a (by simp)
    obtain ⟨out, ho⟩ := all2_exists l fun x hx => h x (by simp [hx])
    exact ⟨b :: out, .cons hb ho⟩

theorem prepOne_stored {P : Prims} {w : World} {get : Bytes → Bool → Res Signet} (hw : w.store = some get) {level : Int} {flag : Bool} {k n o : Signet}
    {scheme : Bytes} (hid : k.id ≠ []) (hk : k.key = []) (hs : k.scheme = [] ∨ k.scheme = scheme) (ht : ∃ t, getTool scheme = some t)
    (hg : get k.id flag = .ok n) (hp : n.protection = false) (hn : n.scheme = scheme) (ho : n.load P = .ok o) : prepOne P w level flag k = .ok o := by
  obtain ⟨t, ht⟩ := ht
  obtain ⟨t1, t2⟩ := tool_not_secret ht
  have e1 : k.scheme ≠ schemeKey := by
    rcases hs with h | h <;> rw [h]
    · decide
    · exact t1
  have e2 : k.scheme ≠ schemePassword := by
    rcases hs with h | h <;> rw [h]
    · decide
    · exact t2
  have hlen : k.id.length ≠ 0 := fun h => hid (List.length_eq_zero_iff.mp h)
  have hsch : ¬ (k.scheme ≠ [] ∧ k.scheme ≠ n.scheme) := by
    rintro ⟨h1, h2⟩
    rcases hs with h | h
    · exact h1 h
    · exact h2 (h.trans hn.symm)
  simp only [prepOne, hk, List.length_nil, if_true, e2, e1, if_false, fetchSignet, hlen, hw, hg, hsch, ok_bind]
  unfold finishPrep
  rw [hn, hp]
  simp [t1, t2, ho]

/-- C120. Whoever has the private keys of the senders and the public keys of the recipients in his trust store can write a letter, whatever is written; and whoever
has the public keys of the senders and the private keys of the recipients reads it, and gets what was written. Neither fails, if the algorithms and the source of
random numbers do their work. -/
theorem letters_are_delivered (P : Prims) (W : P.Work) (pair : Bytes → Bytes → Bytes → Prop) (hP : P.Correct pair)
    (hsig : ∀ pub priv, pair b!"Ed25519" pub priv → ∀ hash digest seed, ∃ sig, P.sign b!"Ed25519" hash priv digest seed = .ok sig)
    (cfg : Config) (wc wo : World) (getC getO : Bytes → Bool → Res Signet) (hwc : wc.store = some getC) (hwo : wo.store = some getO)
    (rng : Rng) (hr : rng.Delivers) (e : Envelope) (hes : e.suite = none) (hev : e.version = 1) (heo : e.opening = false)
    (hA : Addressed P pair getC getO e) (hS : SuiteFor e)
    (hl1 : demandedLevel cfg e.securityLevel ≤ 128) (hl2 : 0 < e.securityLevel → demandedLevel cfg e.securityLevel ≤ e.securityLevel)
    (hl3 : demandedLevel cfg 0 ≤ demandedLevel cfg e.securityLevel)
    (reqs : Option Requirements) (hreq : ∀ su ∈ suiteRegistry, su.id = e.suiteID → ∀ a ∈ reqs.getD full, a ∈ su.provides)
    (data : Bytes) (hd : data.length ≤ 2 ^ 38 - 64) :
    ∃ s l, correspondence P cfg wc suiteRegistry e = .ok s ∧ (s.close P cfg rng s.initState data).2 = .ok l ∧
      l.open P cfg wo suiteRegistry reqs = .ok data := by
  have te : ∃ t, getTool b!"Ed25519" = some t := ⟨_, rfl⟩
  have tx : ∃ t, getTool b!"ECDH-X25519" = some t := ⟨_, rfl⟩
  have hids : ∀ id ∈ signingSuites ++ recipientSuites, id ∉ passwordSuites ∧ id ∉ keySuites ∧ ∃ su ∈ suiteRegistry, su.id = id := by decide +kernel
  obtain ⟨np, nk, su, hsu, hid⟩ := hids e.suiteID (List.mem_append.mpr hS.known)
  -- the signets that are prepared
  obtain ⟨sn, hsn⟩ : ∃ out, All2 (fun s o => prepOne P wc 128 false s = .ok o ∧ o.scheme = b!"Ed25519" ∧
      ∃ pub priv, o.loadedPriv = some priv ∧ pair b!"Ed25519" pub priv) e.senders out := by
    refine all2_exists _ fun k hk => ?_
    obtain ⟨k1, k2, k3, pub, priv, q, ⟨n, o, s1, _, _, s4, s5, s7, _, s9⟩, _⟩ := hA.senders k hk
    exact ⟨o, prepOne_stored hwc k1 k2 k3 te s1 s4 s5 s7, (load_spec s7).2.1.trans s5, pub, priv, s9, q⟩
  obtain ⟨rn, hrn⟩ : ∃ out, All2 (fun s o => prepOne P wc 128 true s = .ok o ∧ o.scheme = b!"ECDH-X25519" ∧ o.loadedPub.isSome = true) e.recipients out := by
    refine all2_exists _ fun k hk => ?_
    obtain ⟨k1, k2, k3, pub, priv, q, ⟨n, o, s1, _, _, s4, s5, s7, s8⟩, _⟩ := hA.recipients k hk
    exact ⟨o, prepOne_stored hwc k1 k2 k3 tx s1 s4 s5 s7, (load_spec s7).2.1.trans s5, (load_spec s7).2.2.2.2.2.2.2⟩
  have noStub : NoKeyStub e.recipients := by
    intro k hk _
    obtain ⟨_, _, h, _⟩ := hA.recipients k hk
    rcases h with h | h <;> rw [h] <;> decide
  have hprep : prepareSignets P wc 128 { e with suite := some su } = .ok { e with suite := some su, secrets := [], senders := sn, recipients := rn } := by
    simp only [prepareSignets, heo, hA.noSecrets, Bool.not_false]
    rw [(prepSignets_all2 P wc 128 false [] [] (.inl rfl)).mpr .nil,
      (prepSignets_all2 P wc 128 false _ sn (.inl rfl)).mpr (hsn.mono fun _ _ h => h.1),
      (prepSignets_all2 P wc 128 true _ rn (.inr noStub)).mpr (hrn.mono fun _ _ h => h.1)]
    rfl
  have ne_of : ∀ {R : Signet → Signet → Prop} {a b : List Signet}, All2 R a b → (a ≠ [] ↔ b ≠ []) := by
    intro R a b h
    cases h <;> simp
  have hfit : Fits cfg e.suiteID { e with suite := some su, secrets := [], senders := sn, recipients := rn } := by
    refine ⟨?_, fun h => (ne_of hsn).mp (hS.signs.mp h), ?_, fun h => (ne_of hrn).mp (hS.encrypts.mp h), ?_, fun h => absurd h np, fun h => absurd h nk, hl1, hl2, ?_, ?_⟩
    · intro o ho
      exact ⟨(hsn.mem_right ho).elim fun _ h => h.2.2.1, hS.signs.mpr ((ne_of hsn).mpr (List.ne_nil_of_mem ho))⟩
    · intro o ho
      exact ⟨(hrn.mem_right ho).elim fun _ h => h.2.2.1, hS.encrypts.mpr ((ne_of hrn).mpr (List.ne_nil_of_mem ho))⟩
    all_goals (intro k hk; cases hk)
  obtain ⟨s, hs⟩ := (fits_accepted P hsu (e := { e with suite := some su, secrets := [], senders := sn, recipients := rn }) rfl (by rw [hid]; exact hfit))
  have hget : getSuite suiteRegistry e.suiteID = some su := by
    have : ∀ su ∈ suiteRegistry, getSuite suiteRegistry su.id = some su := by decide +kernel
    rw [← hid]; exact this su hsu
  have hcor : correspondence P cfg wc suiteRegistry e = .ok s := by
    simp only [correspondence, loadSuite, hes, hget, ok_bind, (registry_shapes su hsu).2.1, hprep]
    exact hs
  obtain ⟨g1, g2⟩ := newSession_env hs
  have hsuite : s.suite = su := by simpa using g2.symm
  have R : LoadedSession P cfg s := by
    have L := library_session hes hcor
    refine ⟨L.made, L.mem, no_signet_ignored P cfg s.env s L.made (registered_session L.made L.mem).1, ?_⟩
    intro k hk
    rw [g1] at hk
    exact (hrn.mem_right hk).elim fun _ h => h.2.2.2
  obtain ⟨l, hl⟩ := (close_iff R W (by
      intro k hk priv hpriv hash digest seed
      rw [g1] at hk
      obtain ⟨_, _, _, hsch, pub, priv', h1, h2⟩ := hsn.mem_right hk
      rw [hpriv] at h1
      cases h1
      rw [hsch]
      exact hsig pub priv h2 hash digest seed) hr data hd).mpr (by
    rw [g1]
    refine ⟨fun k hk => (by cases hk), fun k hk => (by cases hk), ?_⟩
    intro k hk
    obtain ⟨_, _, _, _, pub, priv, h1, _⟩ := hsn.mem_right hk
    rw [h1]; simp)
  refine ⟨s, l, hcor, hl, two_stores_work P pair hP cfg wc wo getC getO hwc hwo rng e hes hev hl3 heo hA.noSecrets ?_ ?_ s hcor reqs ?_ data l hl⟩
  · intro k hk
    obtain ⟨_, k2, k3, pub, priv, q, h⟩ := hA.senders k hk
    exact ⟨k2, _, pub, priv, k3, te, q, h⟩
  · intro k hk
    obtain ⟨_, k2, k3, pub, priv, q, h⟩ := hA.recipients k hk
    exact ⟨k2, _, pub, priv, k3, tx, q, h⟩
  · rw [hsuite]; exact hreq su hsu hid

/-- The hypotheses are met: with the toy algorithms and one trust store for alice and bob, for each of the suites with senders and recipients. -/
theorem deliver_example : toyPrims.Work ∧ toyPrims.Correct (fun _ pub priv => pub = priv) ∧ toyRng.Delivers ∧
    (∀ hash pub digest seed, ∃ sig, toyPrims.sign b!"Ed25519" hash pub digest seed = .ok sig) ∧
    (∀ id ∈ [b!"v1", b!"v2"], SuiteFor (toyEnvelope id [] [b!"alice"] [b!"bob"])) ∧ SuiteFor (toyEnvelope b!"sign_v2" [] [b!"alice"] []) ∧
    SuiteFor (toyEnvelope b!"rcpt_v2" [] [] [b!"bob"]) ∧ ∀ id, Addressed toyPrims (fun _ pub priv => pub = priv) toyStore toyStore (toyEnvelope id [] [b!"alice"] [b!"bob"]) := by
  have priv : PrivateStored toyPrims toyStore b!"alice" b!"Ed25519" [42, 43] [42, 43] := ⟨_, _, rfl, rfl, rfl, rfl, rfl, rfl, rfl, rfl⟩
  have pub : PublicStored toyPrims toyStore b!"alice" b!"Ed25519" [42, 43] := ⟨_, _, rfl, rfl, rfl, rfl, rfl, rfl, rfl⟩
  have priv' : PrivateStored toyPrims toyStore b!"bob" b!"ECDH-X25519" [8, 9, 10] [8, 9, 10] := ⟨_, _, rfl, rfl, rfl, rfl, rfl, rfl, rfl, rfl⟩
  have pub' : PublicStored toyPrims toyStore b!"bob" b!"ECDH-X25519" [8, 9, 10] := ⟨_, _, rfl, rfl, rfl, rfl, rfl, rfl, rfl⟩
  refine ⟨toy_work, toyPrims_correct, toy_delivers, fun hash pub digest seed => ⟨_, rfl⟩, ?_, ⟨by decide, by decide, by decide⟩, ⟨by decide, by decide, by decide⟩,
    fun id => ⟨rfl, ?_, ?_⟩⟩
  · intro id hid
    simp only [List.mem_cons, List.not_mem_nil, or_false] at hid
    rcases hid with rfl | rfl <;> exact ⟨by decide, by decide, by decide⟩
  · intro k hk
    simp only [toyEnvelope, List.map_cons, List.map_nil, List.mem_singleton] at hk
    subst hk
    exact ⟨by decide, rfl, .inl (by decide), [42, 43], [42, 43], rfl, priv, pub⟩
  · intro k hk
    simp only [toyEnvelope, List.map_cons, List.map_nil, List.mem_singleton] at hk
    subst hk
    exact ⟨by decide, rfl, .inl (by decide), [8, 9, 10], [8, 9, 10], rfl, pub', priv'⟩

/-! ## Shared secrets -/

/-- The envelope names keys by their IDs, and both trust stores have them (specification); none is empty or below the level. -/
def SharedKeys (cfg : Config) (wc wo : World) (e : Envelope) : Prop :=
  ∀ k ∈ e.secrets, k.id ≠ [] ∧ k.key = [] ∧ k.scheme = schemeKey ∧ ∃ getC getO n m, wc.store = some getC ∧ wo.store = some getO ∧
    getC k.id false = .ok n ∧ n.id = k.id ∧ n.scheme = schemeKey ∧ n.protection = false ∧
    getO k.id false = .ok m ∧ m.scheme = schemeKey ∧ m.protection = false ∧ m.key = n.key ∧
    n.key ≠ [] ∧ demandedLevel cfg e.securityLevel ≤ 8 * n.key.length

/-- The envelope names passwords by their IDs, and the writer and the reader enter the same one when they are asked for it (specification); none is empty or below
the level. -/
def SharedPasswords (cfg : Config) (wc wo : World) (e : Envelope) : Prop :=
  ∀ k ∈ e.secrets, k.id ≠ [] ∧ k.key = [] ∧ k.scheme = schemePassword ∧ ∃ ask ask' o o' t, wc.createPw = some ask ∧ wo.getPw = some ask' ∧
    ask (nameFromStore wc k) 128 = .ok o ∧ o.id = k.id ∧ o.scheme = schemePassword ∧
    ShownAs wo { version := 1, id := k.id, scheme := schemePassword } t ∧ ask' t = .ok o' ∧ o'.scheme = schemePassword ∧ o'.key = o.key ∧
    o.key ≠ [] ∧ 0 < cfg.pwLevel o.key (2 ^ 20) ∧ demandedLevel cfg e.securityLevel ≤ cfg.pwLevel o.key (2 ^ 20)

/-- C120, with secrets. Whoever has the keys of an envelope, or enters its passwords, can write a letter, and whoever has the same keys, or enters the same
passwords, reads it. -/
theorem secret_letters_are_delivered (P : Prims) (W : P.Work) (pair : Bytes → Bytes → Bytes → Prop) (hP : P.Correct pair)
    (cfg : Config) (wc wo : World) (rng : Rng) (hr : rng.Delivers) (e : Envelope) (hes : e.suite = none) (hev : e.version = 1) (heo : e.opening = false)
    (hse : e.senders = []) (hre : e.recipients = []) (hne : e.secrets ≠ [])
    (hA : e.suiteID ∈ keySuites ∧ SharedKeys cfg wc wo e ∨ e.suiteID ∈ passwordSuites ∧ SharedPasswords cfg wc wo e)
    (hl1 : demandedLevel cfg e.securityLevel ≤ 128) (hl2 : 0 < e.securityLevel → demandedLevel cfg e.securityLevel ≤ e.securityLevel)
    (hl3 : demandedLevel cfg 0 ≤ demandedLevel cfg e.securityLevel)
    (reqs : Option Requirements) (hreq : ∀ su ∈ suiteRegistry, su.id = e.suiteID → ∀ a ∈ reqs.getD full, a ∈ su.provides)
    (data : Bytes) (hd : data.length ≤ 2 ^ 38 - 64) :
    ∃ s l, correspondence P cfg wc suiteRegistry e = .ok s ∧ (s.close P cfg rng s.initState data).2 = .ok l ∧
      l.open P cfg wo suiteRegistry reqs = .ok data := by
  have hids : ∀ id ∈ keySuites ++ passwordSuites, id ∉ signingSuites ∧ id ∉ signOnlySuites ∧ id ∉ recipientSuites ∧ (id ∈ passwordSuites → id ∉ keySuites) ∧
      ∃ su ∈ suiteRegistry, su.id = id := by decide +kernel
  obtain ⟨n1, n0, n2, n3, su, hsu, hid⟩ := hids e.suiteID (List.mem_append.mpr (hA.imp And.left And.left))
  have hks : schemeKey ≠ schemePassword := by decide
  have e1 : ∀ x : Bytes, x ≠ [] → x.length ≠ 0 := fun x h h' => h (List.length_eq_zero_iff.mp h')
  -- what the secrets become
  obtain ⟨out, hout⟩ : ∃ out, All2 (fun s o => prepOne P wc 128 false s = .ok o ∧ o.id ≠ [] ∧ o.key ≠ [] ∧
      ((e.suiteID ∈ keySuites ∧ o.scheme = schemeKey ∧ demandedLevel cfg e.securityLevel ≤ 8 * o.key.length ∧
        ∃ get n, wo.store = some get ∧ get o.id false = .ok n ∧ n.scheme = schemeKey ∧ n.key = o.key ∧ n.protection = false) ∨
      (e.suiteID ∈ passwordSuites ∧ o.scheme = schemePassword ∧ 0 < cfg.pwLevel o.key (2 ^ 20) ∧ demandedLevel cfg e.securityLevel ≤ cfg.pwLevel o.key (2 ^ 20) ∧
        ∃ cb o' t, wo.getPw = some cb ∧ ShownAs wo { version := 1, id := o.id, scheme := schemePassword } t ∧ cb t = .ok o' ∧ o'.scheme = schemePassword ∧
          o'.key = o.key))) e.secrets out := by
    refine all2_exists _ fun k hk => ?_
    rcases hA with ⟨hi, h⟩ | ⟨hi, h⟩
    · obtain ⟨k1, k2, k3, getC, getO, n, m, a1, a2, a3, a4, a5, a6, a7, a8, a9, a10, a11, a12⟩ := h k hk
      refine ⟨n, ?_, by rw [a4]; exact k1, a11, .inl ⟨hi, a5, a12, getO, m, a2, by rw [a4]; exact a7, a8, a10, a9⟩⟩
      simp [prepOne, k2, k3, hks, fetchSignet, e1 _ k1, a1, a3, a5, ok_bind, finishPrep, a6]
    · obtain ⟨k1, k2, k3, ask, ask', o, o', t, a1, a2, a3, a4, a5, a6, a7, a8, a9, a10, a11, a12⟩ := h k hk
      refine ⟨o, ?_, by rw [a4]; exact k1, a10, .inr ⟨hi, a5, a11, a12, ask', o', t, a2, by rw [a4]; exact a6, a7, a8, a9⟩⟩
      simp [prepOne, k2, k3, fillPassword, a1, a3]
  have hprep : prepareSignets P wc 128 { e with suite := some su } = .ok { e with suite := some su, secrets := out, senders := [], recipients := [] } := by
    simp only [prepareSignets, heo, hse, hre, Bool.not_false]
    rw [(prepSignets_all2 P wc 128 false e.secrets out (.inl rfl)).mpr (hout.mono fun _ _ h => h.1),
      (prepSignets_all2 P wc 128 false [] [] (.inl rfl)).mpr .nil, (prepSignets_all2 P wc 128 true [] [] (.inr fun _ h => by cases h)).mpr .nil]
    rfl
  have hon : out ≠ [] := by
    intro h
    rw [h] at hout
    have := hout.length
    exact hne (List.length_eq_zero_iff.mp this)
  have hfit : Fits cfg e.suiteID { e with suite := some su, secrets := out, senders := [], recipients := [] } := by
    refine ⟨fun k hk => (by cases hk), fun h => absurd h n1, fun k hk => (by cases hk), fun h => absurd h n2, ?_, ?_, fun _ => hon, hl1, hl2, ?_, ?_⟩
    · intro o ho
      obtain ⟨_, _, _, _, _, h⟩ := hout.mem_right ho
      rcases h with ⟨_, h, _⟩ | ⟨hi, h, _⟩
      · exact .inl ⟨h, n0⟩
      · exact .inr ⟨h, hi⟩
    · intro hi
      obtain ⟨o, ho⟩ := List.exists_mem_of_ne_nil _ hon
      obtain ⟨_, _, _, _, _, h⟩ := hout.mem_right ho
      rcases h with ⟨h, _⟩ | ⟨_, h, _⟩
      · exact absurd h (n3 hi)
      · exact ⟨o, ho, h⟩
    · intro o ho hsc _
      obtain ⟨_, _, _, _, _, h⟩ := hout.mem_right ho
      rcases h with ⟨_, h, _⟩ | ⟨_, _, h, h', _⟩
      · rw [hsc] at h; exact absurd h.symm hks
      · exact .inr ⟨h, h'⟩
    · intro o ho hsc
      obtain ⟨_, _, _, _, _, h⟩ := hout.mem_right ho
      rcases h with ⟨_, _, h, _⟩ | ⟨_, h, _⟩
      · exact .inr h
      · rw [hsc] at h; exact absurd h hks
  obtain ⟨s, hs⟩ := (fits_accepted P hsu (e := { e with suite := some su, secrets := out, senders := [], recipients := [] }) rfl (by rw [hid]; exact hfit))
  have hget : getSuite suiteRegistry e.suiteID = some su := by
    have : ∀ su ∈ suiteRegistry, getSuite suiteRegistry su.id = some su := by decide +kernel
    rw [← hid]; exact this su hsu
  have hcor : correspondence P cfg wc suiteRegistry e = .ok s := by
    simp only [correspondence, loadSuite, hes, hget, ok_bind, (registry_shapes su hsu).2.1, hprep]
    exact hs
  obtain ⟨g1, g2⟩ := newSession_env hs
  have hsuite : s.suite = su := by simpa using g2.symm
  have secs : s.env.secrets = out := by rw [g1]
  have snd : s.env.senders = [] := by rw [g1]
  have rcp : s.env.recipients = [] := by rw [g1]
  have R : LoadedSession P cfg s := by
    have L := library_session hes hcor
    refine ⟨L.made, L.mem, no_signet_ignored P cfg s.env s L.made (registered_session L.made L.mem).1, ?_⟩
    intro k hk
    rw [rcp] at hk; cases hk
  obtain ⟨l, hl⟩ := (close_iff R W (by intro k hk; rw [snd] at hk; cases hk) hr data hd).mpr (by
    refine ⟨?_, ?_, ?_⟩
    · intro k hk _
      rw [secs] at hk
      exact (hout.mem_right hk).elim fun _ h => h.2.2.2.1
    · intro k hk
      have : k ∈ s.env.secrets := (List.mem_filter.mp (List.mem_of_head? hk)).1
      rw [secs] at this
      exact (hout.mem_right this).elim fun _ h => h.2.2.2.1
    · intro k hk; rw [snd] at hk; cases hk)
  refine ⟨s, l, hcor, hl, close_open_roundtrip_partial P pair hP cfg wc wo rng e hes hev s hcor hl3 ⟨?_, ?_, ?_⟩ ?_ ⟨?_, ?_, ?_, ?_⟩ reqs
    (by rw [hsuite]; exact hreq su hsu hid) data l hl⟩
  · intro k hk
    rw [secs] at hk
    exact (hout.mem_right hk).elim fun _ h => h.2.2.1
  · intro k hk; rw [snd] at hk; cases hk
  · intro k hk; rw [rcp] at hk; cases hk
  · rw [secs]
    rcases hA with ⟨hi, _⟩ | ⟨hi, _⟩
    · right
      intro k hk hsc
      obtain ⟨_, _, _, _, _, h⟩ := hout.mem_right hk
      rcases h with ⟨_, h, _⟩ | ⟨h, _⟩
      · rw [hsc] at h; exact hks h.symm
      · exact n3 h hi
    · left
      intro k hk hsc
      obtain ⟨_, _, _, _, _, h⟩ := hout.mem_right hk
      rcases h with ⟨h, _⟩ | ⟨_, h, _⟩
      · exact n3 hi h
      · rw [hsc] at h; exact hks h
  · intro k hk hsc
    rw [secs] at hk
    obtain ⟨_, _, _, _, _, h⟩ := hout.mem_right hk
    rcases h with ⟨_, _, _, h⟩ | ⟨_, h, _⟩
    · exact h
    · rw [hsc] at h; exact absurd h hks
  · intro k hk hsc
    rw [secs] at hk
    obtain ⟨_, _, _, _, _, h⟩ := hout.mem_right hk
    rcases h with ⟨_, h, _⟩ | ⟨_, _, _, _, h⟩
    · rw [hsc] at h; exact absurd h.symm hks
    · exact h
  · intro k hk; rw [snd] at hk; cases hk
  · intro k hk; rw [rcp] at hk; cases hk

/-- The hypotheses are met: with the toy algorithms, for a key that both trust stores have and for a password that both enter. -/
theorem secret_example : SharedKeys toyConfig toyWorld toyWorld { suiteID := b!"key_v2", secrets := [{ id := b!"key", scheme := schemeKey }] } ∧
    SharedPasswords toyConfig toyWorld toyWorld (toyEnvelope b!"pw_v2" [b!"pw"] [] []) := by
  constructor
  · intro k hk
    simp only [List.mem_singleton] at hk
    subst hk
    exact ⟨by decide, rfl, rfl, toyStore, toyStore, _, _, rfl, rfl, rfl, rfl, rfl, rfl, rfl, rfl, rfl, rfl, by decide, by decide⟩
  · intro k hk
    simp only [toyEnvelope, List.map_cons, List.map_nil, List.mem_singleton] at hk
    subst hk
    exact ⟨by decide, rfl, rfl, _, _, _, _, _, rfl, rfl, rfl, by decide, by decide, nameFromStore_shown _ _, rfl, rfl, rfl, by decide, by decide, by decide⟩

end Jess
