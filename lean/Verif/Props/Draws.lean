import Verif.Props.OnlyWith
import Verif.Props.Isolation

/-!
# C94: closing a letter uses every random value for one thing only
-/

namespace Jess

open Requirements

/-- What the random numbers of a closed letter were used for (specification): the draw 0 is the nonce, the draws 1, 2, ... are the key pairs made for the
recipients, in order, whose public keys are in the seals of the recipients (behind those of the secrets); the draws after these are used for the
signatures, in the order of the senders. -/
structure Draws (P : Prims) (rng : Rng) (s : Session) (l : Letter) : Prop where
  nonce : rng.read 0 s.nonceSize = .ok l.nonce ∧ l.nonce.length = s.nonceSize
  ephemeral : ∀ i r, s.env.recipients[i]? = some r → ∃ pair pub stored sl, generateSignet P r.scheme (rng.seed (1 + i)) = .ok pair ∧
    pair.asRecipient P = .ok pub ∧ pub.store P = .ok stored ∧ l.keys[s.env.secrets.length + i]? = some sl ∧ sl.value = stored.key
  signatures : ∀ j k, s.env.senders[j]? = some k → ∃ tool ∈ s.insts, tool.info.name = k.scheme ∧ ∃ signed sig, l.signatures[j]? = some sig ∧
    toolSign P tool (P.hash tool.hashName signed) (rng.seed (1 + s.env.recipients.length + j)) k = .ok sig.value

theorem signAll_get {P : Prims} {rng : Rng} {fed : Bytes} : ∀ {l : List (ToolInst × Signet)} {ctr : Nat} {sigs : List Seal},
    signAll P rng fed ctr l = .ok sigs → ∀ {j : Nat} {x : ToolInst × Signet}, l[j]? = some x →
      ∃ sig, sigs[j]? = some sig ∧ toolSign P x.1 (P.hash x.1.hashName fed) (rng.seed (ctr + j)) x.2 = .ok sig.value
  | [], _, _, _, j, x, hx => by simp at hx
  | (t, k) :: xs, ctr, sigs, h, j, x, hx => by
    simp only [signAll, bind_ok_iff] at h
    obtain ⟨sig, h1, rest, h2, he⟩ := h
    cases he
    cases j with
    | zero => simp at hx; subst hx; exact ⟨{ scheme := t.info.name, id := k.id, value := sig }, by simp, h1⟩
    | succ j =>
      simp at hx
      obtain ⟨z, hz, hg⟩ := signAll_get h2 hx
      exact ⟨z, by simpa using hz, by rw [show ctr + (j + 1) = ctr + 1 + j by omega]; exact hg⟩

theorem getElem?_of_map {α β : Type} {f : α → β} {l : List α} {l' : List β} (h : l.map f = l') {i : Nat} {y : β} (hy : l'[i]? = some y) :
    ∃ x, l[i]? = some x ∧ f x = y := by
  rw [← h, List.getElem?_map] at hy
  cases hx : l[i]? with
  | none => rw [hx] at hy; cases hy
  | some x => rw [hx] at hy; exact ⟨x, rfl, by simpa using hy⟩

theorem sign_draws {P : Prims} {cfg : Config} {rng : Rng} {s : Session} (hs : newSession P cfg s.env = .ok s) (hr : s.suite ∈ suiteRegistry)
    {st : SState} {ctr : Nat} {ad : Bytes} {l l' : Letter} (hl : l.signatures = []) (h : (signLetter P rng s st ctr ad l).2 = .ok l') :
    l'.nonce = l.nonce ∧ l'.keys = l.keys ∧ ∀ j k, s.env.senders[j]? = some k → ∃ tool ∈ s.insts, tool.info.name = k.scheme ∧
      ∃ signed sig, l'.signatures[j]? = some sig ∧ toolSign P tool (P.hash tool.hashName signed) (rng.seed (ctr + j)) k = .ok sig.value := by
  obtain ⟨hnd, hone⟩ := registered_session hs hr
  have hsend := (no_signet_ignored P cfg s.env s hs hnd).senders
  have hpairs := one_tool_pairs (l := s.env.senders) (hone .signing (by simp)) (by
    intro k hk
    obtain ⟨t, ht, hp, hn⟩ := hsend k hk
    exact ⟨t, mem_queue.mpr ⟨ht, hp⟩, hn⟩)
  rw [← signerPairs_eq] at hpairs
  unfold signLetter at h
  split at h
  · rename_i hemp
    cases h
    refine ⟨rfl, rfl, fun j k hk => ?_⟩
    obtain ⟨t, ht, hp, hn⟩ := hsend k (List.mem_of_getElem? hk)
    have := mem_queue.mpr ⟨ht, hp⟩
    rw [List.isEmpty_iff] at hemp
    rw [hemp] at this
    cases this
  · dsimp only at h
    split at h
    · cases h
    · rename_i sigs hsig
      cases h
      refine ⟨rfl, rfl, fun j k hk => ?_⟩
      obtain ⟨x, hx, rfl⟩ := getElem?_of_map hpairs.1 hk
      obtain ⟨sig, h1, h2⟩ := signAll_get hsig hx
      exact ⟨x.1, (mem_signerPairs (List.mem_of_getElem? hx)).1, hpairs.2 x (List.mem_of_getElem? hx), _, sig, by simpa [hl] using h1, h2⟩

theorem closing_draws {P : Prims} {cfg : Config} {rng : Rng} {s : Session} (hs : newSession P cfg s.env = .ok s) (hr : s.suite ∈ suiteRegistry)
    {nonce : Bytes} {km : KM} (h : setupClosing P cfg rng s nonce = .ok km) :
    km.ctr = 1 + s.env.recipients.length ∧ ∀ i r, s.env.recipients[i]? = some r → ∃ pair pub stored sl,
      generateSignet P r.scheme (rng.seed (1 + i)) = .ok pair ∧ pair.asRecipient P = .ok pub ∧ pub.store P = .ok stored ∧
      km.keys[s.env.secrets.length + i]? = some sl ∧ sl.value = stored.key := by
  obtain ⟨hnd, hone⟩ := registered_session hs hr
  have hused := no_signet_ignored P cfg s.env s hs hnd
  have hne : s.queue .keyEncapsulation = [] := by
    apply List.eq_nil_iff_forall_not_mem.mpr
    intro t ht
    obtain ⟨h1, h2⟩ := mem_queue.mp ht
    rw [session_insts hs] at h1
    exact (registry_exchange s.suite hr t h1).2.2 h2
  have hpairs := one_tool_pairs (l := s.env.recipients) (hone .keyExchange (by simp)) (by
    intro k hk
    obtain ⟨t, ht, hp, hn⟩ := hused.recipients k hk
    refine ⟨t, ?_, hn⟩
    rcases hp with hp | hp
    · exact mem_queue.mpr ⟨ht, hp⟩
    · have := mem_queue.mpr ⟨ht, hp⟩
      rw [hne] at this
      cases this)
  rw [← pairs_eq] at hpairs
  have hke : s.pairs .keyEncapsulation = [] := by rw [pairs_eq, hne]; rfl
  have hlen : (s.pairs .keyExchange).length = s.env.recipients.length := by
    have := congrArg List.length hpairs.1
    simpa using this
  have hsec : (ofScheme s.env.secrets schemeKey).length + (ofScheme s.env.secrets schemePassword).length = s.env.secrets.length := by
    have hc : ∀ l : List Signet, (∀ k ∈ l, k.scheme = schemeKey ∨ k.scheme = schemePassword) →
        (ofScheme l schemeKey).length + (ofScheme l schemePassword).length = l.length := by
      intro l hl
      rw [ofScheme_filter (n := schemeKey) (by decide), ofScheme_filter (n := schemePassword) (by decide)]
      induction l with
      | nil => rfl
      | cons k ks ih =>
        have := ih fun x hx => hl x (by simp [hx])
        have hd : schemeKey ≠ schemePassword := by decide
        rcases hl k (by simp) with hk | hk
        · simp only [List.filter_cons, hk, List.length_cons, decide_true, if_true, hd, decide_false, Bool.false_eq_true, if_false]
          omega
        · simp only [List.filter_cons, hk, List.length_cons, decide_true, if_true, hd.symm, decide_false, Bool.false_eq_true, if_false]
          omega
    exact hc _ fun k hk => by rcases hused.secrets k hk with h | h; exact .inl h; exact .inr h.1
  rw [setupClosing_eq P cfg rng s nonce (hone _ (by simp)) (hone _ (by simp))] at h
  simp only [closingMaterial, bind_ok_iff] at h
  obtain ⟨pws, h1, kxs, h2, kes, h3, h4⟩ := h
  cases h4
  dsimp only
  rw [hke] at h3 ⊢
  cases h3
  refine ⟨by simp [hlen], fun i r hi => ?_⟩
  obtain ⟨x, hx, rfl⟩ := getElem?_of_map hpairs.1 hi
  obtain ⟨y, hy, hg⟩ := collectFrom_get h2 hx
  simp only [closeKXKey, bind_ok_iff] at hg
  obtain ⟨⟨sender, shared, sl⟩, hoff, hy2⟩ := hg
  cases hy2
  simp only [kxOffer, bind_ok_iff] at hoff
  obtain ⟨g, hgen, sh, _, pub, hpub, stored, hst, he⟩ := hoff
  cases he
  refine ⟨_, pub, stored, { id := x.2.id, value := stored.key }, ?_, hpub, hst, ?_, rfl⟩
  · rw [← hpairs.2 x (List.mem_of_getElem? hx)]
    exact hgen
  · rw [← hsec]
    have hpl : pws.length = (ofScheme s.env.secrets schemePassword).length := collectFrom_length h1
    have : ∀ (a b c : List Seal), (a ++ b ++ c ++ [])[a.length + b.length + i]? = c[i]? := by
      intro a b c
      rw [List.append_nil, List.getElem?_append_right (by simp)]
      congr 1
      simp
    have h9 := this ((ofScheme s.env.secrets schemeKey).map (fun k => { scheme := schemeKey, id := k.id }))
      ((ofScheme s.env.secrets schemePassword).map (fun k => { scheme := schemePassword, id := k.id })) (kxs.map (·.2))
    simp only [List.length_map] at h9
    rw [List.map_nil, h9, List.getElem?_map, hy]
    rfl

/-- C94. Closing a letter uses every random value for one thing only: the nonce, the key pairs made for the recipients and the signatures are made with
random values from different draws. For every letter that a session for an envelope of a caller closes. -/
theorem close_draws (P : Prims) (cfg : Config) (w : World) (rng : Rng) (e : Envelope) (he : e.suite = none) (s : Session)
    (hs : correspondence P cfg w suiteRegistry e = .ok s) (st : SState) (data : Bytes) (l : Letter)
    (hc : (s.close P cfg rng st data).2 = .ok l) : Draws P rng s l := by
  have hls := library_session he hs
  have hm := hls.made
  have hnonce : ∀ {n : Bytes}, randomBytes rng 0 s.nonceSize = .ok n → rng.read 0 s.nonceSize = .ok n ∧ n.length = s.nonceSize := by
    intro n hn
    simp only [randomBytes, bind_ok_iff] at hn
    obtain ⟨b, hb, hn⟩ := hn
    split at hn
    · cases hn
    · cases hn
      exact ⟨hb, by rename_i h; exact Decidable.not_not.mp h⟩
  unfold Session.close at hc
  split at hc
  · cases hc
  · rename_i nonce hnon
    dsimp only at hc
    split at hc
    · rename_i hkdf
      split at hc
      · cases hc
      · obtain ⟨a, b, c⟩ := sign_draws hm hls.mem rfl hc
        have hnr : s.env.recipients = [] := by
          have hk := session_kdf P cfg s.env s hm
          have hreg := registry_tools s.suite hls.mem
          rw [← session_insts hm] at hreg
          apply List.eq_nil_iff_forall_not_mem.mpr
          intro r hr
          obtain ⟨t, ht, hp, hn⟩ := (no_signet_ignored P cfg s.env s hm (registered_session hm hls.mem).1).recipients r hr
          by_cases hcf : Confidentiality ∈ s.suite.provides
          · obtain ⟨_, _, t', ht', hp'⟩ := hreg.2.2.1 hcf
            obtain ⟨u, hu, hup⟩ := hk.1.mp ⟨t', ht', .inr (.inl hp')⟩
            exact absurd hup ((kdf_none_iff s).mp hkdf u hu)
          · have := (hreg.2.1 hcf).1 t ht
            rw [this] at hp
            rcases hp with hp | hp <;> cases hp
        refine ⟨by rw [a]; exact hnonce hnon, fun i r hi => ?_, fun j k hj => ?_⟩
        · rw [hnr] at hi; simp at hi
        · have := c j k hj
          rw [hnr]
          exact this
    · rename_i k hkdf
      split at hc
      · cases hc
      · rename_i km hkm
        obtain ⟨d1, d2⟩ := closing_draws hm hls.mem hkm
        split at hc
        · split at hc
          · cases hc
          · rename_i st' l' henc
            have hp : l'.nonce = nonce ∧ l'.keys = km.keys ∧ l'.signatures = [] := by
              unfold encryptLetter at henc
              split at henc
              · cases henc
              · have h2 := congrArg Prod.snd henc
                dsimp only at h2
                simp only [protect, bind_ok_iff] at h2
                obtain ⟨_, _, _, _, _, _, h2⟩ := h2
                cases h2
                exact ⟨rfl, rfl, rfl⟩
            obtain ⟨a, b, c⟩ := sign_draws hm hls.mem hp.2.2 hc
            refine ⟨by rw [a, hp.1]; exact hnonce hnon, fun i r hi => ?_, fun j k hj => ?_⟩
            · rw [b, hp.2.1]
              exact d2 i r hi
            · have := c j k hj
              rw [d1] at this
              exact this
        · cases hc

/-- A random value makes a key pair whose stored public key is `key` (specification). -/
def MakesPublic (P : Prims) (tool seed key : Bytes) : Prop :=
  ∃ pair pub stored, generateSignet P tool seed = .ok pair ∧ pair.asRecipient P = .ok pub ∧ pub.store P = .ok stored ∧ stored.key = key

/-- C94, for the seals: no two recipients of a letter are given the same public key, if different draws make different public keys. -/
theorem ephemeral_keys_differ (P : Prims) (cfg : Config) (w : World) (rng : Rng) (e : Envelope) (he : e.suite = none) (s : Session)
    (hs : correspondence P cfg w suiteRegistry e = .ok s) (st : SState) (data : Bytes) (l : Letter)
    (hc : (s.close P cfg rng st data).2 = .ok l)
    (hrng : ∀ a b, a ≤ s.env.recipients.length → b ≤ s.env.recipients.length → a ≠ b → ∀ tool tool' key, MakesPublic P tool (rng.seed a) key → ¬ MakesPublic P tool' (rng.seed b) key)
    (i j : Nat) (hi : i < s.env.recipients.length) (hj : j < s.env.recipients.length) (hij : i ≠ j) (x y : Seal)
    (hx : l.keys[s.env.secrets.length + i]? = some x) (hy : l.keys[s.env.secrets.length + j]? = some y) : x.value ≠ y.value := by
  have h := close_draws P cfg w rng e he s hs st data l hc
  obtain ⟨g1, p1, s1, x', a1, a2, a3, a4, a5⟩ := h.ephemeral i _ (List.getElem?_eq_getElem hi)
  obtain ⟨g2, p2, s2, y', b1, b2, b3, b4, b5⟩ := h.ephemeral j _ (List.getElem?_eq_getElem hj)
  rw [hx] at a4
  rw [hy] at b4
  cases a4
  cases b4
  intro hv
  refine hrng (1 + i) (1 + j) (by omega) (by omega) (by omega) _ _ x.value ⟨g1, p1, s1, a1, a2, a3, a5.symm⟩ ⟨g2, p2, s2, b1, b2, b3, ?_⟩
  rw [hv, b5]

theorem toy_makes_public {tool seed key : Bytes} (h : MakesPublic toyPrims tool seed key) : key = 1 :: seed := by
  obtain ⟨pair, pub, stored, h1, h2, h3, rfl⟩ := h
  unfold generateSignet at h1
  split at h1
  · cases h1
  · split at h1
    · dsimp only [toyPrims] at h1
      cases h1
      unfold Signet.asRecipient at h2
      split at h2
      · cases h2
      · simp only [Signet.load, Option.isSome_some, if_true, ok_bind] at h2
        cases h2
        unfold Signet.store at h3
        simp only [List.length_nil, ne_eq, not_true_eq_false, if_false] at h3
        split at h3
        · cases h3
        · split at h3
          · dsimp only [toyPrims] at h3
            cases h3
            rfl
          · cases h3
    · cases h1

/-- The condition of `ephemeral_keys_differ` is met by the toy library and random source for up to 200 recipients. -/
theorem toy_draws_differ (a b : Nat) (ha : a ≤ 200) (hb : b ≤ 200) (hab : a ≠ b) (tool tool' key : Bytes)
    (h : MakesPublic toyPrims tool (toyRng.seed a) key) : ¬ MakesPublic toyPrims tool' (toyRng.seed b) key := by
  intro h'
  have := (toy_makes_public h).symm.trans (toy_makes_public h')
  simp only [toyRng, List.cons.injEq, and_true, true_and] at this
  have h2 := congrArg UInt8.toNat this
  simp only [UInt8.toNat_ofNat'] at h2
  omega

/-- A letter for two recipients with a secret, signed by two senders: the seals have keys of different draws, the nonce and the signatures others. -/
theorem draws_example :
    (match correspondence toyPrims toyConfig toyWorld suiteRegistry (toyEnvelope b!"v2" [b!"key"] [b!"alice", b!"alice"] [b!"bob", b!"bob"]) with
      | .ok s =>
        (match (s.close toyPrims toyConfig toyRng s.initState b!"hello").2 with
        | .ok l => decide (l.keys.map (·.value) = [[], 1 :: toyRng.seed 1, 1 :: toyRng.seed 2]) && decide (toyRng.seed 1 ≠ toyRng.seed 2) &&
            decide (l.signatures.length = 2) && decide (toyRng.read 0 s.nonceSize = .ok l.nonce)
        | .error _ => false)
      | .error _ => false) = true := by
  decide +kernel

end Jess
