import Verif.Props.Promises

/-!
# C87: every key seal has its secret, and all secrets enter the key of the letter
-/

namespace Jess

open Requirements

/-- The secrets and recipients of an envelope in the order of the key seals of its letters: keys, passwords, recipients. -/
def participants (e : Envelope) : List Signet :=
  e.secrets.filter (fun k => k.scheme = schemeKey) ++ e.secrets.filter (fun k => k.scheme = schemePassword) ++ e.recipients

/-- The seal and the secret that closing a letter makes for a participant (specification): the key itself; what the password tool of the suite
derives from the password and the letter's nonce; or a key that was established with the recipient. -/
def SealedFor (P : Prims) (cfg : Config) (rng : Rng) (s : Session) (l : Letter) (x : Signet) (sl : Seal) (secret : Bytes) : Prop :=
  (x.scheme = schemeKey ∧ sl = { scheme := schemeKey, id := x.id } ∧ secret = x.key) ∨
  (x.scheme = schemePassword ∧ sl = { scheme := schemePassword, id := x.id } ∧ ∃ t ∈ s.insts, t.info.purpose = .passDerivation ∧ x.key ≠ [] ∧
    P.passKdf t.info.name x.key l.nonce (s.helperKeySize cfg) = .ok secret) ∨
  (sl.scheme = [] ∧ sl.id = x.id ∧ Established P cfg rng s x sl secret)

/-- The secret that opening a letter gets for a participant, which may need a seal of the letter (specification). -/
def OpensSeal (P : Prims) (cfg : Config) (s : Session) (l : Letter) (i : Nat) (x : Signet) (secret : Bytes) : Prop :=
  (x.scheme = schemeKey ∧ secret = x.key) ∨
  (x.scheme = schemePassword ∧ ∃ t ∈ s.insts, t.info.purpose = .passDerivation ∧ x.key ≠ [] ∧
    P.passKdf t.info.name x.key l.nonce (s.helperKeySize cfg) = .ok secret) ∨
  ∃ t ∈ s.insts, t.info.name = x.scheme ∧ ∃ sl, l.keys[i]? = some sl ∧
    ((t.info.purpose = .keyExchange ∧ ∃ peer, peerSignet P l.version t sl.value = .ok peer ∧ makeShared P t.info.name x peer = .ok secret) ∨
     (t.info.purpose = .keyEncapsulation ∧ unwrapKey P t sl.value x = .ok secret))

theorem passKey_spec {P : Prims} {cfg : Config} {s : Session} {nonce : Bytes} {x : Signet} {secret : Bytes}
    (h : passKey P cfg s nonce x = .ok secret) :
    ∃ t ∈ s.insts, t.info.purpose = .passDerivation ∧ x.key ≠ [] ∧ P.passKdf t.info.name x.key nonce (s.helperKeySize cfg) = .ok secret := by
  unfold passKey at h
  split at h
  · cases h
  · rename_i hk
    split at h
    · cases h
    · rename_i t ht
      obtain ⟨a, b⟩ := mem_queue.mp (List.mem_of_head? ht)
      exact ⟨t, a, b, by intro hn; rw [hn] at hk; exact hk rfl, h⟩

theorem closing_pairs {P : Prims} {cfg : Config} {rng : Rng} {s : Session} (hs : newSession P cfg s.env = .ok s)
    (hr : s.suite ∈ suiteRegistry) {l : Letter} {km : KM} (h : setupClosing P cfg rng s l.nonce = .ok km) :
    km.material.length = km.keys.length ∧
      All2 (fun x y => SealedFor P cfg rng s l x y.1 y.2) (participants s.env) (km.keys.zip km.material) := by
  refine ⟨(closing_labels hs hr h).2, ?_⟩
  obtain ⟨hnd, hone⟩ := registered_session hs hr
  have hreg := (registry_tools s.suite hr).1
  rw [← session_insts hs] at hreg
  have hqs : (s.queue .keyExchange ++ s.queue .keyEncapsulation).length ≤ 1 := by
    rw [List.length_append]; exact hreg
  have hrec := (no_signet_ignored P cfg s.env s hs hnd).recipients
  have hpairs := one_tool_pairs (l := s.env.recipients) hqs (by
    intro k hk
    obtain ⟨t, ht, hp, hn⟩ := hrec k hk
    refine ⟨t, ?_, hn⟩
    rcases hp with hp | hp
    · exact List.mem_append.mpr (.inl (mem_queue.mpr ⟨ht, hp⟩))
    · exact List.mem_append.mpr (.inr (mem_queue.mpr ⟨ht, hp⟩)))
  rw [toolPairs_append, ← pairs_eq, ← pairs_eq] at hpairs
  rw [setupClosing_eq P cfg rng s l.nonce (hone _ (by simp)) (hone _ (by simp))] at h
  simp only [closingMaterial, bind_ok_iff] at h
  obtain ⟨pws, h1, kxs, h2, kes, h3, h4⟩ := h
  cases h4
  dsimp only
  have c1 := collectFrom_length h1
  rw [ofScheme_filter (n := schemeKey) (by decide)]
  rw [ofScheme_filter (n := schemePassword) (by decide)] at h1 c1 ⊢
  have a2 : All2 (fun x y => SealedFor P cfg rng s l x.2 y.2 y.1) (s.pairs .keyExchange) kxs := by
    refine collectFrom_all2 h2 ?_
    intro j x y hx hy
    obtain ⟨m1, m2, m3⟩ := mem_pairs hx
    simp only [closeKXKey, bind_ok_iff] at hy
    obtain ⟨⟨sender, shared, sl⟩, hoff, hy2⟩ := hy
    cases hy2
    have ho := hoff
    simp only [kxOffer, bind_ok_iff] at ho
    obtain ⟨_, _, _, _, _, _, _, _, he⟩ := ho
    cases he
    exact .inr (.inr ⟨rfl, rfl, x.1, m1, hpairs.2 x (List.mem_append.mpr (.inl hx)), .inl ⟨m2, j, sender, hoff⟩⟩)
  have a3 : All2 (fun x y => SealedFor P cfg rng s l x.2 y.2 y.1) (s.pairs .keyEncapsulation) kes := by
    refine collectFrom_all2 h3 ?_
    intro j x y hx hy
    obtain ⟨m1, m2, m3⟩ := mem_pairs hx
    obtain ⟨key, sl⟩ := y
    have ho := hy
    simp only [keOffer, bind_ok_iff] at ho
    obtain ⟨_, _, _, _, he⟩ := ho
    cases he
    exact .inr (.inr ⟨rfl, rfl, x.1, m1, hpairs.2 x (List.mem_append.mpr (.inr hx)), .inr ⟨m2, j, hy⟩⟩)
  have a23 := a2.append a3
  have a1 : All2 (fun x y => SealedFor P cfg rng s l x y.1 y.2) (s.env.secrets.filter (fun k => k.scheme = schemePassword))
      (((s.env.secrets.filter (fun k => k.scheme = schemePassword)).map (fun k => ({ scheme := schemePassword, id := k.id } : Seal))).zip pws) := by
    have hall := collectFrom_const.mp h1
    have hsch : ∀ k ∈ s.env.secrets.filter (fun k => k.scheme = schemePassword), k.scheme = schemePassword := by
      intro k hk; simpa using (List.mem_filter.mp hk).2
    revert hall hsch
    generalize s.env.secrets.filter (fun k => k.scheme = schemePassword) = ps
    intro hall hsch
    clear h1 c1
    induction hall with
    | nil => exact .nil
    | cons hx _ ih =>
      exact .cons (.inr (.inl ⟨hsch _ (by simp), rfl, passKey_spec hx⟩)) (ih fun k hk => hsch k (by simp [hk]))
  have a0 : All2 (fun x y => SealedFor P cfg rng s l x y.1 y.2) (s.env.secrets.filter (fun k => k.scheme = schemeKey))
      (((s.env.secrets.filter (fun k => k.scheme = schemeKey)).map (fun k => ({ scheme := schemeKey, id := k.id } : Seal))).zip
        ((s.env.secrets.filter (fun k => k.scheme = schemeKey)).map (·.key))) := by
    have hsch : ∀ k ∈ s.env.secrets.filter (fun k => k.scheme = schemeKey), k.scheme = schemeKey := by
      intro k hk; simpa using (List.mem_filter.mp hk).2
    revert hsch
    generalize s.env.secrets.filter (fun k => k.scheme = schemeKey) = ks
    intro hsch
    induction ks with
    | nil => exact .nil
    | cons k ks ih => exact .cons (.inl ⟨hsch _ (by simp), rfl, rfl⟩) (ih fun k hk => hsch k (by simp [hk]))
  have ar : All2 (fun x y => SealedFor P cfg rng s l x y.1 y.2) s.env.recipients
      (((kxs ++ kes).map (·.2)).zip ((kxs ++ kes).map (·.1))) := by
    have hq := (All2.map_left (f := fun x : ToolInst × Signet => x.2)
      (R := fun x (y : Bytes × Seal) => SealedFor P cfg rng s l x y.2 y.1)).mpr a23
    rw [hpairs.1] at hq
    clear a23 a2 a3 h2 h3
    revert hq
    generalize kxs ++ kes = rs
    generalize s.env.recipients = rr
    intro hq
    induction hq with
    | nil => exact .nil
    | cons h _ ih => exact .cons h ih
  unfold participants
  simp only [List.map_append, List.append_assoc] at ar ⊢
  rw [List.zip_append (by simp), List.zip_append (by simp [c1])]
  exact a0.append (a1.append ar)

/-- C87, closing. A letter of a suite that encrypts is sealed with a key derived from the secrets of all its key seals, one for each secret
and recipient of the envelope, in this order; each secret was established with the key of its participant. -/
theorem closed_with_all_secrets (P : Prims) (cfg : Config) (w : World) (rng : Rng) (e : Envelope) (he : e.suite = none) (s : Session)
    (hs : correspondence P cfg w suiteRegistry e = .ok s) (hcf : Confidentiality ∈ s.suite.provides) (data : Bytes) (l : Letter)
    (hc : (s.close P cfg rng s.initState data).2 = .ok l) :
    ∃ material key nonce, material.length = l.keys.length ∧
      All2 (fun x y => SealedFor P cfg rng s l x y.1 y.2) (participants s.env) (l.keys.zip material) ∧
      CipherKey P s l material key nonce ∧ P.aeadSeal b!"CHACHA20-POLY1305" key nonce l.compileAD data = .ok l.data := by
  have hls := library_session he hs
  obtain ⟨mat, key, nonce, hck, hse, _, _, _, _, km, hkm, hmat, hkeys⟩ := close_authenticates P cfg rng s hls.made hls.mem hcf data l hc
  obtain ⟨a, b⟩ := closing_pairs hls.made hls.mem hkm
  rw [hmat, hkeys] at a b
  exact ⟨mat, key, nonce, a, b, hck, hse⟩

/-- C87, closing: if there is a recipient with whom no key can be established, or a password from which no key can be derived, closing fails. -/
theorem closing_fails_without_secret (P : Prims) (cfg : Config) (w : World) (rng : Rng) (e : Envelope) (he : e.suite = none) (s : Session)
    (hs : correspondence P cfg w suiteRegistry e = .ok s) (hcf : Confidentiality ∈ s.suite.provides) (data : Bytes) (x : Signet)
    (hx : x ∈ participants s.env) (hfail : ∀ l sl secret, ¬ SealedFor P cfg rng s l x sl secret) :
    ∃ err, (s.close P cfg rng s.initState data).2 = .error err := by
  cases hc : (s.close P cfg rng s.initState data).2 with
  | error err => exact ⟨err, rfl⟩
  | ok l =>
    obtain ⟨mat, _, _, _, h, _⟩ := closed_with_all_secrets P cfg w rng e he s hs hcf data l hc
    obtain ⟨y, _, hy⟩ := h.mem_left hx
    exact absurd hy (hfail l y.1 y.2)

theorem opening_pairs {P : Prims} {cfg : Config} {s : Session} (hs : newSession P cfg s.env = .ok s) (hr : s.suite ∈ suiteRegistry)
    {l : Letter} {mat : List Bytes} (h : setupOpening P cfg s l = .ok mat) :
    mat.length = (participants s.env).length ∧
      ∀ i x, (participants s.env)[i]? = some x → ∃ secret, mat[i]? = some secret ∧ OpensSeal P cfg s l i x secret := by
  obtain ⟨hnd, hone⟩ := registered_session hs hr
  have hreg := (registry_tools s.suite hr).1
  rw [← session_insts hs] at hreg
  have hqs : (s.queue .keyExchange ++ s.queue .keyEncapsulation).length ≤ 1 := by
    rw [List.length_append]; exact hreg
  have hrec := (no_signet_ignored P cfg s.env s hs hnd).recipients
  have hpairs := one_tool_pairs (l := s.env.recipients) hqs (by
    intro k hk
    obtain ⟨t, ht, hp, hn⟩ := hrec k hk
    refine ⟨t, ?_, hn⟩
    rcases hp with hp | hp
    · exact List.mem_append.mpr (.inl (mem_queue.mpr ⟨ht, hp⟩))
    · exact List.mem_append.mpr (.inr (mem_queue.mpr ⟨ht, hp⟩)))
  rw [toolPairs_append, ← pairs_eq, ← pairs_eq] at hpairs
  rw [setupOpening_eq P cfg s l (hone _ (by simp)) (hone _ (by simp))] at h
  split at h
  · cases h
  simp only [openingMaterial, bind_ok_iff] at h
  obtain ⟨pws, h1, kxs, h2, kes, h3, h4⟩ := h
  cases h4
  have c1 := collectFrom_length h1
  have c2 := collectFrom_length h2
  have c3 := collectFrom_length h3
  rw [ofScheme_filter (n := schemeKey) (by decide)] at h2 h3 h1 ⊢
  rw [ofScheme_filter (n := schemePassword) (by decide)] at h1 h2 h3 c1
  have cr : s.env.recipients.length = (s.pairs .keyExchange).length + (s.pairs .keyEncapsulation).length := by
    rw [← hpairs.1, List.length_map, List.length_append]
  have hks : ∀ k ∈ s.env.secrets.filter (fun k => k.scheme = schemeKey), k.scheme = schemeKey := by
    intro k hk; simpa using (List.mem_filter.mp hk).2
  have hps : ∀ k ∈ s.env.secrets.filter (fun k => k.scheme = schemePassword), k.scheme = schemePassword := by
    intro k hk; simpa using (List.mem_filter.mp hk).2
  unfold participants
  revert h1 h2 h3 c1 hks hps
  generalize s.env.secrets.filter (fun k => k.scheme = schemeKey) = ks
  generalize s.env.secrets.filter (fun k => k.scheme = schemePassword) = ps
  intro h1 h2 h3 c1 hks hps
  refine ⟨by simp only [List.length_append, List.length_map]; omega, ?_⟩
  intro i x hx
  rw [List.append_assoc] at hx
  by_cases hi : i < ks.length
  · rw [List.getElem?_append_left hi] at hx
    refine ⟨x.key, ?_, .inl ⟨hks x (List.mem_of_getElem? hx), rfl⟩⟩
    rw [List.append_assoc, List.append_assoc, List.getElem?_append_left (by simpa using hi), List.getElem?_map, hx]
    rfl
  · rw [List.getElem?_append_right (by omega)] at hx
    by_cases hj : i - ks.length < ps.length
    · rw [List.getElem?_append_left hj] at hx
      obtain ⟨y, hy, hg⟩ := collectFrom_get h1 hx
      refine ⟨y, ?_, .inr (.inl ⟨hps x (List.mem_of_getElem? hx), passKey_spec hg⟩)⟩
      rw [List.append_assoc, List.append_assoc, List.getElem?_append_right (by simp; omega), List.getElem?_append_left (by simp; omega)]
      simpa using hy
    · rw [List.getElem?_append_right (by omega)] at hx
      have hx' : (s.pairs .keyExchange ++ s.pairs .keyEncapsulation)[i - ks.length - ps.length]?.map (·.2) = some x := by
        rw [← List.getElem?_map, hpairs.1]; exact hx
      obtain ⟨p, hp, rfl⟩ := Option.map_eq_some_iff.mp hx'
      have hname := hpairs.2 p (List.mem_of_getElem? hp)
      by_cases hm : i - ks.length - ps.length < (s.pairs .keyExchange).length
      · rw [List.getElem?_append_left hm] at hp
        obtain ⟨y, hy, hg⟩ := collectFrom_get h2 hp
        obtain ⟨m1, m2, _⟩ := mem_pairs (List.mem_of_getElem? hp)
        rw [show ks.length + ps.length + (i - ks.length - ps.length) = i by omega] at hg
        unfold openKXKey at hg
        split at hg
        · cases hg
        · rename_i sl hsl
          simp only [bind_ok_iff] at hg
          obtain ⟨peer, g1, g2⟩ := hg
          refine ⟨y, ?_, .inr (.inr ⟨p.1, m1, hname, sl, hsl, .inl ⟨m2, peer, g1, g2⟩⟩)⟩
          rw [List.append_assoc, List.getElem?_append_right (by simp; omega), List.getElem?_append_left (by simp; omega)]
          rw [← hy]; congr 1; simp; omega
      · rw [List.getElem?_append_right (by omega)] at hp
        obtain ⟨y, hy, hg⟩ := collectFrom_get h3 hp
        obtain ⟨m1, m2, _⟩ := mem_pairs (List.mem_of_getElem? hp)
        rw [show ks.length + ps.length + (s.pairs .keyExchange).length + (i - ks.length - ps.length - (s.pairs .keyExchange).length) = i by
          omega] at hg
        unfold openKEKey at hg
        split at hg
        · cases hg
        · rename_i sl hsl
          refine ⟨y, ?_, .inr (.inr ⟨p.1, m1, hname, sl, hsl, .inr ⟨m2, hg⟩⟩)⟩
          rw [List.getElem?_append_right (by simp; omega)]
          rw [← hy]; congr 1; simp; omega

/-- C87, opening. A letter of a suite that encrypts opens only with a key derived from the secrets of all its participants: the keys, the passwords and
the keys established from the seals at their positions with the private keys of the recipients. -/
theorem opened_with_all_secrets (P : Prims) (cfg : Config) (w : World) (reqs : Option Requirements) (l : Letter) (d : Bytes)
    (suite : Suite) (hsu : getSuite suiteRegistry l.suiteID = some suite) (hcf : Confidentiality ∈ suite.provides)
    (h : l.open P cfg w suiteRegistry reqs = .ok d) :
    ∃ s material key nonce, OpenedBy P cfg w suiteRegistry reqs l s ∧ material.length = (participants s.env).length ∧
      (∀ i x, (participants s.env)[i]? = some x → ∃ secret, material[i]? = some secret ∧ OpensSeal P cfg s l i x secret) ∧
      CipherKey P s l material key nonce ∧ P.aeadOpen b!"CHACHA20-POLY1305" key nonce l.compileAD l.data = .ok d := by
  obtain ⟨s, mat, key, nonce, ho, hm, hck, hao⟩ := open_authenticates P cfg w reqs l d suite hsu hcf h
  obtain ⟨a, b⟩ := opening_pairs ho.session (List.mem_of_find?_eq_some ho.suite) hm
  exact ⟨s, mat, key, nonce, ho, a, b, hck, hao⟩

/-- The hypotheses of C87 are met: letters for a recipient, a key and a password are closed and opened, each with its participants; if the key
exchange fails, so does closing. -/
theorem key_secrets_example :
    (∀ x ∈ [(b!"v2", ([] : List Bytes), [b!"alice"], [b!"bob", b!"bob"]), (b!"key_v1", [b!"key", b!"key"], [], []), (b!"pw_v1", [b!"pw"], [], [])],
      (match correspondence toyPrims toyConfig toyWorld suiteRegistry (toyEnvelope x.1 x.2.1 x.2.2.1 x.2.2.2) with
      | .ok s => decide (Confidentiality ∈ s.suite.provides) && decide ((participants s.env).map (·.id) = x.2.1 ++ x.2.2.2) &&
          (match (s.close toyPrims toyConfig toyRng s.initState b!"hello").2 with
          | .ok l => decide (l.open toyPrims toyConfig toyWorld suiteRegistry none = .ok b!"hello")
          | .error _ => false)
      | .error _ => false) = true) ∧
    (match correspondence brokenX25519 toyConfig toyWorld suiteRegistry honestEnvelope with
      | .ok s => decide ((s.close brokenX25519 toyConfig toyRng s.initState b!"hello").2 = .error .env)
      | .error _ => false) = true := by
  decide +kernel

end Jess
