import Verif.Props.KeySecrets
import Verif.Props.KeySizes
import Verif.Props.Support

/-!
# C90: a letter opens only with the secrets it was closed with
-/

namespace Jess

open Requirements

/-- Sizes of secrets (specification): a key derived from a password has the size that was asked for, and keys established with a key exchange tool have
one length. -/
structure Prims.SecretSizes (P : Prims) : Prop where
  pass : ∀ t pw salt n k, P.passKdf t pw salt n = .ok k → k.length = n
  dh : ∀ t a b a' b', (P.dh t a b).length = (P.dh t a' b').length

/-- Somebody who opens a letter, with the session `s'`, derives this key from the secrets that were got for the participants, in order, and the data opens
with it (specification). -/
structure OpensWithKey (P : Prims) (cfg : Config) (s' : Session) (l : Letter) (material : List Bytes) (key nonce d : Bytes) : Prop where
  count : material.length = (participants s'.env).length
  each : ∀ i x, (participants s'.env)[i]? = some x → ∃ secret, material[i]? = some secret ∧ OpensSeal P cfg s' l i x secret
  derived : CipherKey P s' l material key nonce
  opens : P.aeadOpen b!"CHACHA20-POLY1305" key nonce l.compileAD l.data = .ok d

/-- The cryptography of a letter holds against one opener (specification): if the data opens with the key that is derived from the secrets this opener has,
then this is the key the letter was closed with, and it was derived from the same material. It fails only if for these particular values the cipher
text is accepted under two keys, or two inputs of the key derivation collide. -/
def HoldsAgainst (P : Prims) (cfg : Config) (w' : World) (reqs : Option Requirements) (s : Session) (l : Letter) (data : Bytes) : Prop :=
  ∀ material key nonce, CipherKey P s l material key nonce → P.aeadSeal b!"CHACHA20-POLY1305" key nonce l.compileAD data = .ok l.data →
  ∀ s' material' key' nonce' d, OpenedBy P cfg w' suiteRegistry reqs l s' → OpensWithKey P cfg s' l material' key' nonce' d →
    key' = key ∧ material'.flatten = material.flatten

/-- The shared keys that the trust store of the opener has under the IDs that the letter names are as long as those of the closer (specification). -/
def World.KeysSized (w : World) (e : Envelope) : Prop :=
  ∀ x ∈ e.secrets, x.scheme = schemeKey → ∀ get r k, w.store = some get → get x.id r = .ok k → k.scheme = schemeKey → k.key.length = x.key.length

theorem registry_exchange : ∀ su ∈ suiteRegistry, ∀ t ∈ instsOf su,
    t.info.name ≠ schemeKey ∧ t.info.name ≠ schemePassword ∧ t.info.purpose ≠ .keyEncapsulation := by decide +kernel

theorem prep_any {P : Prims} {w : World} {level : Int} {flag : Bool} {l out : List Signet} (h : prepSignets P w level flag l = .ok out) :
    All2 (fun x o => ∃ f, prepOne P w level f x = .ok o) l out :=
  (prepSignets_flags P w level l out flag h).mono fun _ _ h => h.elim (fun h => ⟨_, h⟩) (fun h => ⟨_, h.1⟩)

/-- What an opener has for a participant of a letter (specification): the letter names the participant by ID, and says whether it is a shared key or a
password; this is what the trust store or the password callback gives for it. -/
def OpenerHas (P : Prims) (w : World) (level : Int) (v : UInt8) (x y : Signet) : Prop :=
  ∃ f, prepOne P w level f { version := v, id := x.id, scheme := if x.scheme = schemeKey ∨ x.scheme = schemePassword then x.scheme else [] } = .ok y

/-- Participants correspond: both shared keys, both passwords or both recipients. -/
def SameKind (s s' : Session) (x y : Signet) : Prop :=
  (x ∈ s.env.secrets ∧ x.scheme = schemeKey ∧ y.scheme = schemeKey) ∨ (x.scheme = schemePassword ∧ y.scheme = schemePassword) ∨
    (x ∈ s.env.recipients ∧ y ∈ s'.env.recipients)

def labelStub (v : UInt8) (p : Bytes × Bytes) : Signet := { version := v, id := p.2, scheme := p.1 }

/-- The key seals of a letter refer to the secrets by scheme, in order; the others refer to recipients. -/
theorem stubs_of_labels {l : Letter} {K W R : List Signet} (hid : ∀ x ∈ K ++ W ++ R, x.id ≠ [])
    (h : sealLabels l.keys = K.map (fun k => (schemeKey, k.id)) ++ W.map (fun k => (schemePassword, k.id)) ++ R.map (fun k => (([] : Bytes), k.id))) :
    l.secretStubs = K.map (fun k => labelStub l.version (schemeKey, k.id)) ++ W.map (fun k => labelStub l.version (schemePassword, k.id)) ∧
      l.recipientStubs = R.map (fun k => labelStub l.version ([], k.id)) := by
  have e1 : ∀ p : Bytes × Bytes → Bool, (l.keys.filter (fun x => p (x.scheme, x.id))).map (stubOf l.version) =
      ((sealLabels l.keys).filter p).map (labelStub l.version) := by
    intro p
    unfold sealLabels
    rw [List.filter_map, List.map_map]
    rfl
  have nid : ∀ x : Signet, x.id ≠ [] → x.id.isEmpty = false := by
    intro x hx
    cases hxi : x.id with
    | nil => exact absurd hxi hx
    | cons _ _ => rfl
  have hk0 : ¬ ([] : Bytes) = schemeKey := by decide
  have hp0 : ¬ ([] : Bytes) = schemePassword := by decide
  have s1 : (sealLabels l.keys).filter (fun x => !x.2.isEmpty && (x.1 == schemeKey || x.1 == schemePassword)) =
      K.map (fun k => (schemeKey, k.id)) ++ W.map (fun k => (schemePassword, k.id)) := by
    rw [h, List.filter_append, List.filter_append]
    rw [List.filter_eq_self.mpr, List.filter_eq_self.mpr, List.filter_eq_nil_iff.mpr, List.append_nil]
    · intro x hx
      obtain ⟨k, hk, rfl⟩ := List.mem_map.mp hx
      simp only [Bool.and_eq_true, not_and]
      intro _
      decide
    · intro x hx
      obtain ⟨k, hk, rfl⟩ := List.mem_map.mp hx
      simp [nid k (hid k (by simp [hk]))]
    · intro x hx
      obtain ⟨k, hk, rfl⟩ := List.mem_map.mp hx
      simp [nid k (hid k (by simp [hk]))]
  have s2 : (sealLabels l.keys).filter (fun x => !x.2.isEmpty && !(x.1 == schemeKey || x.1 == schemePassword)) = R.map (fun k => (([] : Bytes), k.id)) := by
    rw [h, List.filter_append, List.filter_append]
    rw [List.filter_eq_nil_iff.mpr, List.filter_eq_nil_iff.mpr, List.filter_eq_self.mpr, List.nil_append, List.nil_append]
    · intro x hx
      obtain ⟨k, hk, rfl⟩ := List.mem_map.mp hx
      have : (([] : Bytes) == schemeKey || ([] : Bytes) == schemePassword) = false := by decide
      rw [this, nid k (hid k (by simp [hk]))]
      rfl
    · intro x hx
      obtain ⟨k, hk, rfl⟩ := List.mem_map.mp hx
      simp
    · intro x hx
      obtain ⟨k, hk, rfl⟩ := List.mem_map.mp hx
      simp
  constructor
  · have := e1 (fun x => !x.2.isEmpty && (x.1 == schemeKey || x.1 == schemePassword))
    rw [s1, List.map_append, List.map_map, List.map_map] at this
    exact this
  · have := e1 (fun x => !x.2.isEmpty && !(x.1 == schemeKey || x.1 == schemePassword))
    rw [s2, List.map_map] at this
    exact this

theorem registry_one_pass : ∀ su ∈ suiteRegistry, ∀ t ∈ instsOf su, ∀ t' ∈ instsOf su, t.info.purpose = .passDerivation →
    t'.info.purpose = .passDerivation → t = t' := by decide +kernel

theorem participant_kinds {P : Prims} {cfg : Config} {s : Session} (h : newSession P cfg s.env = .ok s) (hr : s.suite ∈ suiteRegistry) {x : Signet} :
    x ∈ s.env.recipients → x.scheme ≠ schemeKey ∧ x.scheme ≠ schemePassword := by
  intro hx
  obtain ⟨nd, _⟩ := registered_session h hr
  obtain ⟨t, ht, _, hn⟩ := (no_signet_ignored P cfg _ s h nd).recipients x hx
  rw [session_insts h] at ht
  rw [← hn]
  exact ⟨(registry_exchange _ hr t ht).1, (registry_exchange _ hr t ht).2.1⟩

theorem filter_all {K : List Signet} {c : Bytes} (h : ∀ x ∈ K, x.scheme = c) : K.filter (fun k => k.scheme = c) = K :=
  List.filter_eq_self.mpr fun x hx => by simp [h x hx]

theorem filter_none {K : List Signet} {c d : Bytes} (hcd : c ≠ d) (h : ∀ x ∈ K, x.scheme = c) : K.filter (fun k => k.scheme = d) = [] :=
  List.filter_eq_nil_iff.mpr fun x hx => by simp [h x hx, hcd]

/-- The participants of the opening session are what the opener has for those of the closing session, in order. -/
theorem opener_participants {P : Prims} {cfg : Config} {w' : World} {reqs : Option Requirements} {l : Letter} {s s' : Session}
    (hs : newSession P cfg s.env = .ok s) (hr : s.suite ∈ suiteRegistry)
    (hid : ∀ x ∈ participants s.env, x.id ≠ []) (h : sealLabels l.keys = expectedSeals s.env) (hw : w'.KeepsScheme)
    (ho : OpenedBy P cfg w' suiteRegistry reqs l s') :
    All2 (fun x y => OpenerHas P w' s'.suite.securityLevel l.version x y ∧ SameKind s s' x y) (participants s.env) (participants s'.env) := by
  obtain ⟨e1, e2⟩ := stubs_of_labels (l := l) hid h
  have hsec := prep_any ho.secrets
  rw [e1] at hsec
  obtain ⟨K', W', hKW, aK, aW⟩ := hsec.append_left
  have aR := prep_any ho.recipients
  rw [e2] at aR
  rw [All2.map_left] at aK aW aR
  have sch : ∀ {c : Bytes} (_ : c = schemeKey ∨ c = schemePassword) {f : Bool} {id : Bytes} {y : Signet},
      prepOne P w' s'.suite.securityLevel f (labelStub l.version (c, id)) = .ok y → y.scheme = c := by
    intro c hc f id y hy
    rcases prepOne_scheme hw hy with h | ⟨h, _⟩
    · exact h
    · have : c = [] := h
      subst this
      rcases hc with hc | hc <;> exact absurd hc (by decide)
  have sK : ∀ y ∈ K', y.scheme = schemeKey := by
    intro y hy
    obtain ⟨x, _, f, hf⟩ := aK.mem_right hy
    exact sch (Or.inl rfl) hf
  have sW : ∀ y ∈ W', y.scheme = schemePassword := by
    intro y hy
    obtain ⟨x, _, f, hf⟩ := aW.mem_right hy
    exact sch (Or.inr rfl) hf
  have hp' : participants s'.env = K' ++ W' ++ s'.env.recipients := by
    unfold participants
    rw [hKW, List.filter_append, List.filter_append, filter_all sK, filter_all sW, filter_none (by decide) sK, filter_none (by decide) sW]
    simp
  rw [hp']
  refine ((aK.mono_mem ?_).append (aW.mono_mem ?_)).append (aR.mono_mem ?_)
  · rintro x hx y hy ⟨f, hf⟩
    rw [List.mem_filter] at hx
    have hxs : x.scheme = schemeKey := by simpa using hx.2
    exact ⟨⟨f, by rw [if_pos (Or.inl hxs), hxs]; exact hf⟩, Or.inl ⟨hx.1, hxs, sK y hy⟩⟩
  · rintro x hx y hy ⟨f, hf⟩
    rw [List.mem_filter] at hx
    have hxs : x.scheme = schemePassword := by simpa using hx.2
    exact ⟨⟨f, by rw [if_pos (Or.inr hxs), hxs]; exact hf⟩, Or.inr (Or.inl ⟨hxs, sW y hy⟩)⟩
  · rintro x hx y hy ⟨f, hf⟩
    have hxr := participant_kinds hs hr hx
    exact ⟨⟨f, by rw [if_neg (fun h => h.elim hxr.1 hxr.2)]; exact hf⟩, Or.inr (Or.inr ⟨hx, hy⟩)⟩

theorem queue_same {P : Prims} {cfg : Config} {e e' : Envelope} {s s' : Session} (h : newSession P cfg e = .ok s) (h' : newSession P cfg e' = .ok s')
    (hs : s.suite = s'.suite) : s.insts = s'.insts := by
  rw [session_insts h, session_insts h', hs]

/-- Corresponding participants have secrets of the same length. -/
theorem secret_lengths {P : Prims} (hP : P.SecretSizes) {cfg : Config} {rng : Rng} {s s' : Session} (h : newSession P cfg s.env = .ok s)
    (h' : newSession P cfg s'.env = .ok s') (hr : s.suite ∈ suiteRegistry) (hsu : s.suite = s'.suite) {w' : World} (hn : w'.KeysSized s.env)
    {v : UInt8} {level : Int} {l : Letter} {i : Nat} {x y : Signet} {sl : Seal} {a b : Bytes} (hk : SameKind s s' x y) (hh : OpenerHas P w' level v x y)
    (hx : SealedFor P cfg rng s l x sl a) (hy : OpensSeal P cfg s' l i y b) : a.length = b.length := by
  have hins := queue_same h h' hsu
  have hr' : s'.suite ∈ suiteRegistry := hsu ▸ hr
  have rx : ∀ t ∈ s.insts, t.info.name ≠ schemeKey ∧ t.info.name ≠ schemePassword ∧ t.info.purpose ≠ .keyEncapsulation := by
    rw [session_insts h]; exact registry_exchange _ hr
  have hks : s.helperKeySize cfg = s'.helperKeySize cfg := by
    have k1 := (session_key_size P cfg _ _ h).1
    have k2 := (session_key_size P cfg _ _ h').1
    rw [← hins] at k2
    unfold Session.helperKeySize
    rw [isKeySize_unique k1 k2]
  have hkp : schemeKey ≠ schemePassword := by decide
  -- the third case is for recipients
  have ex : Established P cfg rng s x sl a → x.scheme ≠ schemeKey ∧ x.scheme ≠ schemePassword := by
    rintro ⟨t, ht, hn, _⟩
    rw [← hn]; exact ⟨(rx t ht).1, (rx t ht).2.1⟩
  rcases hk with ⟨hm, k1, k2⟩ | ⟨k1, k2⟩ | ⟨k1, k2⟩
  · have ha : a = x.key := by
      rcases hx with ⟨_, _, h⟩ | ⟨h, _⟩ | ⟨_, _, h⟩
      · exact h
      · rw [k1] at h; exact absurd h hkp
      · exact absurd k1 (ex h).1
    have hb : b = y.key := by
      rcases hy with ⟨_, h⟩ | ⟨h, _⟩ | ⟨t, ht, h, _⟩
      · exact h
      · rw [k2] at h; exact absurd h hkp
      · rw [← hins] at ht; rw [k2] at h; exact absurd h (rx t ht).1
    obtain ⟨f, hf⟩ := hh
    rw [if_pos (Or.inl k1), k1] at hf
    obtain ⟨get, n, g1, g2, _, _, g5⟩ := prepOne_fetch rfl hkp hf
    obtain ⟨_, f2, _, f4, _⟩ := finishPrep_spec g5
    rw [ha, hb, f4]
    exact (hn x hm k1 get _ n g1 g2 (by rw [← f2]; exact k2)).symm
  · rcases hx with ⟨h, _⟩ | ⟨_, _, t, ht, _, _, hp⟩ | ⟨_, _, h⟩
    · rw [k1] at h; exact absurd h.symm hkp
    · rcases hy with ⟨h, _⟩ | ⟨_, t', ht', _, _, hp'⟩ | ⟨t', ht', h, _⟩
      · rw [k2] at h; exact absurd h.symm hkp
      · rw [hP.pass _ _ _ _ _ hp, hP.pass _ _ _ _ _ hp', hks]
      · rw [← hins] at ht'; rw [k2] at h; exact absurd h (rx t' ht').2.1
    · exact absurd k1 (ex h).2
  · obtain ⟨nd, one⟩ := registered_session h hr
    obtain ⟨nd', _⟩ := registered_session h' hr'
    obtain ⟨tx, htx, _, hnx⟩ := (no_signet_ignored P cfg _ s h nd).recipients x k1
    obtain ⟨ty, hty, _, hny⟩ := (no_signet_ignored P cfg _ s' h' nd').recipients y k2
    have nx := rx tx htx
    rw [hnx] at nx
    have ny := rx ty (by rw [hins]; exact hty)
    rw [hny] at ny
    rcases hx with ⟨h, _⟩ | ⟨h, _⟩ | ⟨_, _, t, ht, _, h⟩
    · exact absurd h nx.1
    · exact absurd h nx.2.1
    · rcases hy with ⟨h, _⟩ | ⟨h, _⟩ | ⟨t', ht', _, sl', _, h2⟩
      · exact absurd h ny.1
      · exact absurd h ny.2.1
      · rcases h with ⟨p1, j, sender, hof⟩ | ⟨p1, _⟩
        · rcases h2 with ⟨p2, peer, _, hmk⟩ | ⟨p2, _⟩
          · rw [← hins] at ht'
            have q1 : t ∈ s.queue .keyExchange := mem_queue.mpr ⟨ht, p1⟩
            have q2 : t' ∈ s.queue .keyExchange := mem_queue.mpr ⟨ht', p2⟩
            have hone := one .keyExchange (by simp)
            have htt : t = t' := by
              match hq : s.queue .keyExchange, hone with
              | [], _ => rw [hq] at q1; cases q1
              | [u], _ =>
                rw [hq] at q1 q2
                rw [List.mem_singleton.mp q1, List.mem_singleton.mp q2]
            subst htt
            unfold kxOffer at hof
            simp only [bind_ok_iff] at hof
            obtain ⟨g, _, sh, hsh, pub, _, stored, _, hq⟩ := hof
            cases hq
            unfold makeShared at hsh hmk
            split at hsh
            · split at hmk
              · cases hsh; cases hmk
                exact hP.dh _ _ _ _ _
              · cases hmk
            · cases hsh
          · exact absurd p2 (rx t' (by rw [hins]; exact ht')).2.2
        · exact absurd p1 (rx t ht).2.2

/-- C90. A letter of an encrypting suite that was closed for participants with IDs opens only for somebody who has the secrets it was closed with: what the
opener's trust store and password callback give for the participants the letter names yields, at every position, the very secret that the closer used there. -/
theorem opens_only_with_all_secrets (P : Prims) (hP : P.SecretSizes) (cfg : Config) (w : World) (rng : Rng) (e : Envelope) (he : e.suite = none)
    (s : Session) (hs : correspondence P cfg w suiteRegistry e = .ok s) (hcf : Confidentiality ∈ s.suite.provides)
    (hid : ∀ x ∈ participants s.env, x.id ≠ []) (data : Bytes) (l : Letter) (hc : (s.close P cfg rng s.initState data).2 = .ok l)
    (w' : World) (hw : w'.KeepsScheme) (hn : w'.KeysSized s.env) (reqs : Option Requirements) (hb : HoldsAgainst P cfg w' reqs s l data) (d : Bytes)
    (ho : l.open P cfg w' suiteRegistry reqs = .ok d) :
    ∃ s', OpenedBy P cfg w' suiteRegistry reqs l s' ∧ s'.suite = s.suite ∧ (participants s'.env).length = (participants s.env).length ∧
      ∀ (i : Nat) (x : Signet), (participants s.env)[i]? = some x → ∃ y sl secret, (participants s'.env)[i]? = some y ∧ l.keys[i]? = some sl ∧
        OpenerHas P w' s.suite.securityLevel l.version x y ∧ SameKind s s' x y ∧
        SealedFor P cfg rng s l x sl secret ∧ OpensSeal P cfg s' l i y secret := by
  obtain ⟨hl, hh⟩ := closed_letter_has P cfg w rng e he s hs data l hc
  obtain ⟨m, key, nonce, c1, c2, c3, c4⟩ := closed_with_all_secrets P cfg w rng e he s hs hcf data l hc
  have hsid : l.suiteID = e.suiteID := by
    rw [(close_shape hl.made hl.mem hc).2.1, hl.suiteID]
  have hsu : getSuite suiteRegistry l.suiteID = some s.suite := by rw [hsid]; exact hl.suite
  obtain ⟨s', m', key', nonce', o1, o2, o3, o4, o5⟩ := opened_with_all_secrets P cfg w' reqs l d s.suite hsu hcf ho
  have hss : s'.suite = s.suite := by
    have := o1.suite
    rw [hsu] at this
    exact (Option.some.inj this).symm
  obtain ⟨_, hflat⟩ := hb m key nonce c3 c4 s' m' key' nonce' d o1 ⟨o2, o3, o4, o5⟩
  have hpart := opener_participants hl.made hl.mem hid hh.seals hw o1
  have hlen := hpart.length
  have hkl : (participants s.env).length = m.length := by
    have := c2.length
    rw [List.length_zip, c1, Nat.min_self] at this
    rw [this, c1]
  have hsz : m.map List.length = m'.map List.length := by
    apply List.ext_getElem?
    intro i
    rw [List.getElem?_map, List.getElem?_map]
    cases hx : (participants s.env)[i]? with
    | none =>
      have : (participants s.env).length ≤ i := List.getElem?_eq_none_iff.mp hx
      rw [List.getElem?_eq_none_iff.mpr (by omega), List.getElem?_eq_none_iff.mpr (by omega)]
    | some x =>
      obtain ⟨y, hy, r1, r2⟩ := hpart.getElem?_left i hx
      obtain ⟨p, hp, r3⟩ := c2.getElem?_left i hx
      obtain ⟨b, hb', r4⟩ := o3 i y hy
      rw [List.getElem?_zip_eq_some] at hp
      rw [hp.2, hb']
      exact congrArg some (secret_lengths hP hl.made o1.session hl.mem hss.symm hn r2 r1 r3 r4)
  have hmm := material_unambiguous_partial m m' hsz hflat.symm
  subst hmm
  refine ⟨s', o1, hss, hlen.symm, ?_⟩
  intro i x hx
  obtain ⟨y, hy, r1, r2⟩ := hpart.getElem?_left i hx
  obtain ⟨p, hp, r3⟩ := c2.getElem?_left i hx
  obtain ⟨b, hb', r4⟩ := o3 i y hy
  rw [List.getElem?_zip_eq_some] at hp
  rw [hp.2] at hb'
  cases hb'
  rw [hss] at r1
  exact ⟨y, p.1, p.2, hy, hp.1, r1, r2, r3, r4⟩

/-- A letter, closed for participants with IDs by an encrypting session of the library, whose cryptography holds against an opener with this trust store
and these callbacks (specification of the hypotheses). -/
structure BoundLetter (P : Prims) (cfg : Config) (w : World) (rng : Rng) (e : Envelope) (s : Session) (data : Bytes) (l : Letter) (w' : World)
    (reqs : Option Requirements) : Prop where
  sizes : P.SecretSizes
  noSuite : e.suite = none
  session : correspondence P cfg w suiteRegistry e = .ok s
  encrypts : Confidentiality ∈ s.suite.provides
  ids : ∀ x ∈ participants s.env, x.id ≠ []
  closed : (s.close P cfg rng s.initState data).2 = .ok l
  holds : HoldsAgainst P cfg w' reqs s l data

/-- C90: if all that the opener's trust store has under the ID of a shared key is another key, the letter does not open. -/
theorem wrong_shared_key_rejected {P : Prims} {cfg : Config} {w : World} {rng : Rng} {e : Envelope} {s : Session} {data : Bytes} {l : Letter}
    {w' : World} {reqs : Option Requirements} (b : BoundLetter P cfg w rng e s data l w' reqs) (x : Signet) (hx : x ∈ s.env.secrets) (hk : x.scheme = schemeKey)
    (hw : w'.KeepsScheme) (hn : w'.KeysSized s.env) (hwrong : ∀ get r k, w'.store = some get → get x.id r = .ok k → k.key ≠ x.key)
    (d : Bytes) : l.open P cfg w' suiteRegistry reqs ≠ .ok d := by
  intro ho
  obtain ⟨s', ho', hss, _, hall⟩ := opens_only_with_all_secrets P b.sizes cfg w rng e b.noSuite s b.session b.encrypts b.ids data l b.closed w' hw hn reqs b.holds d ho
  have hl := library_session b.noSuite b.session
  have hmem : x ∈ participants s.env := by
    unfold participants
    simp [hx, hk]
  obtain ⟨i, hi⟩ := List.getElem?_of_mem hmem
  obtain ⟨y, sl, secret, _, _, ⟨f, hf⟩, hsame, hsx, hsy⟩ := hall i x hi
  have hkp : schemeKey ≠ schemePassword := by decide
  have hys : y.scheme = schemeKey := by
    rcases hsame with ⟨_, _, h⟩ | ⟨h, _⟩ | ⟨h, _⟩
    · exact h
    · rw [hk] at h; exact absurd h hkp
    · exact absurd hk (participant_kinds hl.made hl.mem h).1
  rw [if_pos (Or.inl hk), hk] at hf
  obtain ⟨get, n, g1, g2, _, _, g5⟩ := prepOne_fetch rfl hkp hf
  obtain ⟨_, f2, _, f4, _⟩ := finishPrep_spec g5
  have rx : ∀ t ∈ s.insts, t.info.name ≠ schemeKey := by
    rw [session_insts hl.made]; exact fun t ht => (registry_exchange _ hl.mem t ht).1
  have hsec : secret = x.key := by
    rcases hsx with ⟨_, _, h⟩ | ⟨h, _⟩ | ⟨_, _, t, ht, h, _⟩
    · exact h
    · rw [hk] at h; exact absurd h hkp
    · rw [hk] at h; exact absurd h (rx t ht)
  have hsec' : secret = y.key := by
    rcases hsy with ⟨_, h⟩ | ⟨h, _⟩ | ⟨t, ht, h, _⟩
    · exact h
    · rw [hys] at h; exact absurd h hkp
    · rw [session_insts ho'.session, hss] at ht
      rw [hys] at h
      exact absurd h (registry_exchange _ hl.mem t ht).1
  exact hwrong get _ n g1 g2 (by rw [← f4, ← hsec', hsec])

/-- The password tools of a session derive different keys from two passwords, for this letter (specification). -/
def OtherPassword (P : Prims) (cfg : Config) (s : Session) (l : Letter) (pw pw' : Bytes) : Prop :=
  ∀ t ∈ s.insts, ∀ k, P.passKdf t.info.name pw l.nonce (s.helperKeySize cfg) = .ok k → P.passKdf t.info.name pw' l.nonce (s.helperKeySize cfg) ≠ .ok k

/-- C90: if the opener is asked for a password of the letter and gives one from which the password tool does not derive the same key, the letter does not
open. -/
theorem wrong_password_rejected {P : Prims} {cfg : Config} {w : World} {rng : Rng} {e : Envelope} {s : Session} {data : Bytes} {l : Letter}
    {w' : World} {reqs : Option Requirements} (b : BoundLetter P cfg w rng e s data l w' reqs) (x : Signet) (hx : x ∈ s.env.secrets) (hk : x.scheme = schemePassword)
    (hw : w'.KeepsScheme) (hn : w'.KeysSized s.env)
    (hget : ∀ cb st y, w'.getPw = some cb → st.id = x.id → cb st = .ok y → OtherPassword P cfg s l x.key y.key)
    (hcreate : ∀ cb st lv y, w'.createPw = some cb → st.id = x.id → cb st lv = .ok y → OtherPassword P cfg s l x.key y.key)
    (d : Bytes) : l.open P cfg w' suiteRegistry reqs ≠ .ok d := by
  intro ho
  obtain ⟨s', ho', hss, _, hall⟩ := opens_only_with_all_secrets P b.sizes cfg w rng e b.noSuite s b.session b.encrypts b.ids data l b.closed w' hw hn reqs b.holds d ho
  have hl := library_session b.noSuite b.session
  have hmem : x ∈ participants s.env := by
    unfold participants
    simp [hx, hk]
  obtain ⟨i, hi⟩ := List.getElem?_of_mem hmem
  obtain ⟨y, sl, secret, _, _, ⟨f, hf⟩, hsame, hsx, hsy⟩ := hall i x hi
  have hkp : schemePassword ≠ schemeKey := by decide
  have hys : y.scheme = schemePassword := by
    rcases hsame with ⟨_, h, _⟩ | ⟨_, h⟩ | ⟨h, _⟩
    · rw [hk] at h; exact absurd h hkp
    · exact h
    · exact absurd hk (participant_kinds hl.made hl.mem h).2
  have hins := queue_same hl.made ho'.session hss.symm
  have rx : ∀ t ∈ s.insts, t.info.name ≠ schemePassword := by
    rw [session_insts hl.made]; exact fun t ht => (registry_exchange _ hl.mem t ht).2.1
  have hks : s.helperKeySize cfg = s'.helperKeySize cfg := by
    have k1 := (session_key_size P cfg _ _ hl.made).1
    have k2 := (session_key_size P cfg _ _ ho'.session).1
    rw [← hins] at k2
    unfold Session.helperKeySize
    rw [isKeySize_unique k1 k2]
  have one : ∀ t ∈ s.insts, ∀ t' ∈ s.insts, t.info.purpose = .passDerivation → t'.info.purpose = .passDerivation → t = t' := by
    rw [session_insts hl.made]
    exact registry_one_pass _ hl.mem
  have hkeys : ¬ OtherPassword P cfg s l x.key y.key := by
    intro hother
    rcases hsx with ⟨h, _⟩ | ⟨_, _, t, ht, hp, _, hx'⟩ | ⟨_, _, t, ht, h, _⟩
    · rw [hk] at h; exact absurd h hkp
    · rcases hsy with ⟨h, _⟩ | ⟨_, t', ht', hp', _, hy'⟩ | ⟨t', ht', h, _⟩
      · rw [hys] at h; exact absurd h hkp
      · rw [← hins] at ht'
        have := one t ht t' ht' hp hp'
        subst this
        rw [← hks] at hy'
        exact hother t ht _ hx' hy'
      · rw [← hins] at ht'
        rw [hys] at h
        exact absurd h (rx t' ht')
    · rw [hk] at h; exact absurd h (rx t ht)
  have hyne : y.key ≠ [] := by
    rcases hsy with ⟨h, _⟩ | ⟨_, t', _, _, h, _⟩ | ⟨t', ht', h, _⟩
    · rw [hys] at h; exact absurd h hkp
    · exact h
    · rw [← hins] at ht'
      rw [hys] at h
      exact absurd h (rx t' ht')
  rw [if_pos (Or.inr hk), hk] at hf
  have hfill : fillPassword w' { version := l.version, id := x.id, scheme := schemePassword } (!f) s.suite.securityLevel = .ok y := by
    simpa [prepOne] using hf
  unfold fillPassword at hfill
  split at hfill
  · split at hfill
    · cases hfill; exact hyne rfl
    · rename_i cb hcb
      exact hkeys (hcreate cb _ _ y hcb (nameFromStore_scheme w' { version := l.version, id := x.id, scheme := schemePassword }).2.1 hfill)
  · split at hfill
    · cases hfill; exact hyne rfl
    · rename_i cb hcb
      exact hkeys (hget cb _ y hcb (nameFromStore_scheme w' { version := l.version, id := x.id, scheme := schemePassword }).2.1 hfill)

/-- C90: if no private key that the opener's trust store has under the ID of a recipient agrees with the closer on the key that was established with the
recipient, the letter does not open. -/
theorem wrong_private_key_rejected {P : Prims} {cfg : Config} {w : World} {rng : Rng} {e : Envelope} {s : Session} {data : Bytes} {l : Letter}
    {w' : World} {reqs : Option Requirements} (b : BoundLetter P cfg w rng e s data l w' reqs) (x : Signet) (hx : x ∈ s.env.recipients)
    (hw : w'.KeepsScheme) (hn : w'.KeysSized s.env)
    (hwrong : ∀ t ∈ s.insts, ∀ sl ∈ l.keys, ∀ secret, Established P cfg rng s x sl secret → ∀ peer, peerSignet P l.version t sl.value = .ok peer →
      ∀ get r k y, w'.store = some get → get x.id r = .ok k → finishPrep P k = .ok y → makeShared P t.info.name y peer ≠ .ok secret)
    (d : Bytes) : l.open P cfg w' suiteRegistry reqs ≠ .ok d := by
  intro ho
  obtain ⟨s', ho', hss, _, hall⟩ := opens_only_with_all_secrets P b.sizes cfg w rng e b.noSuite s b.session b.encrypts b.ids data l b.closed w' hw hn reqs b.holds d ho
  have hl := library_session b.noSuite b.session
  have hr' : s'.suite ∈ suiteRegistry := by rw [hss]; exact hl.mem
  have hmem : x ∈ participants s.env := by
    unfold participants
    simp [hx]
  obtain ⟨i, hi⟩ := List.getElem?_of_mem hmem
  obtain ⟨y, sl, secret, _, hsl, ⟨f, hf⟩, hsame, hsx, hsy⟩ := hall i x hi
  obtain ⟨nk, np⟩ := participant_kinds hl.made hl.mem hx
  have hyr : y ∈ s'.env.recipients := by
    rcases hsame with ⟨_, h, _⟩ | ⟨h, _⟩ | ⟨_, h⟩
    · exact absurd h nk
    · exact absurd h np
    · exact h
  obtain ⟨nk', np'⟩ := participant_kinds ho'.session hr' hyr
  have hins := queue_same hl.made ho'.session hss.symm
  rw [if_neg (fun h => h.elim nk np)] at hf
  obtain ⟨get, n, g1, g2, _, _, g5⟩ := prepOne_fetch (s := { version := l.version, id := x.id, scheme := [] }) rfl (show ([] : Bytes) ≠ schemePassword by decide) hf
  rcases hsx with ⟨h, _⟩ | ⟨h, _⟩ | ⟨_, _, hest⟩
  · exact absurd h nk
  · exact absurd h np
  · rcases hsy with ⟨h, _⟩ | ⟨h, _⟩ | ⟨t, ht, _, sl', hsl', h⟩
    · exact absurd h nk'
    · exact absurd h np'
    · rw [← hins] at ht
      rw [hsl] at hsl'
      cases hsl'
      rcases h with ⟨_, peer, hpeer, hmk⟩ | ⟨hp, _⟩
      · exact hwrong t ht sl (List.mem_of_getElem? hsl) secret hest peer hpeer get _ n y g1 g2 g5 hmk
      · rw [session_insts hl.made] at ht
        exact absurd hp (registry_exchange _ hl.mem t ht).2.2

/-! ## The hypotheses hold for some primitives -/

/-- Primitives for which all this holds: the key of a letter is its key material, the cipher text tells the key, and a password is its own key. -/
def openPrims : Prims := { toyPrims with
  kdf := fun _ _ _ material _ _ => .ok material
  passKdf := fun _ pw _ n => if pw.length < n then .ok (List.replicate (n - 1 - pw.length) 0 ++ 1 :: pw) else .error .env
  dh := fun _ a b => toyBytes 32 (toySum a + toySum b)
  aeadSeal := fun _ key _ _ d => if key.length = 32 then .ok (key ++ d) else .error .env
  aeadOpen := fun _ key _ _ c => if key.length = 32 ∧ c.take 32 = key then .ok (c.drop 32) else .error .integrity }

theorem openPrims_sizes : openPrims.SecretSizes where
  pass := by
    intro t pw salt n k h
    simp only [openPrims] at h
    split at h
    · cases h
      simp
      omega
    · cases h
  dh := by intro t a b a' b'; simp [openPrims, toyBytes]

theorem openPrims_holds (cfg : Config) (w' : World) (reqs : Option Requirements) (s : Session) (l : Letter) (data : Bytes) :
    HoldsAgainst openPrims cfg w' reqs s l data := by
  rintro material key nonce ⟨_, _, h2, _⟩ hs s' m' key' n' d _ ⟨_, _, ⟨_, _, h1, _⟩, h'⟩
  simp only [openPrims, Except.ok.injEq] at h1 h2
  simp only [openPrims] at h' hs
  split at h'
  · rename_i hk
    split at hs
    · rename_i hl
      have : key' = key := by
        rw [← hk.2, ← Except.ok.inj hs]
        simp [← hl]
      exact ⟨this, by rw [h1, h2, this]⟩
    · cases hs
  · cases h'

theorem pad_inj : ∀ (a b : Nat) (p q : Bytes), List.replicate a (0 : UInt8) ++ 1 :: p = List.replicate b 0 ++ 1 :: q → p = q
  | 0, 0, _, _, h => by simpa using h
  | 0, b + 1, _, _, h => by simp [List.replicate_succ] at h
  | a + 1, 0, _, _, h => by simp [List.replicate_succ] at h
  | a + 1, b + 1, p, q, h => pad_inj a b p q (by simpa [List.replicate_succ] using h)

theorem openPrims_password (t pw pw' salt : Bytes) (n : Nat) (k : Bytes) (h : openPrims.passKdf t pw salt n = .ok k) (h' : openPrims.passKdf t pw' salt n = .ok k) :
    pw' = pw := by
  simp only [openPrims] at h h'
  split at h
  · split at h'
    · cases h
      exact pad_inj _ _ _ _ (Except.ok.inj h')
    · cases h'
  · cases h

/-- Somebody with other secrets under the same IDs. -/
def strangerStore (id : Bytes) (recipient : Bool) : Res Signet :=
  if id = b!"bob" then .ok { version := 1, id := id, scheme := b!"ECDH-X25519", key := [1, 8, 9, 11], isPublic := recipient }
  else if id = b!"key" then .ok { version := 1, id := id, scheme := schemeKey, key := List.replicate 32 8 }
  else toyStore id recipient

def strangerWorld : World :=
  { store := some strangerStore, getPw := some (fun s => .ok { s with key := b!"guess" }), createPw := some (fun s _ => .ok { s with key := b!"guess" }) }

theorem stranger_keeps : strangerWorld.KeepsScheme := ⟨by intro cb s s' h h'; cases h; cases h'; rfl, by intro cb s l s' h h'; cases h; cases h'; rfl⟩

theorem stranger_sized (e : Envelope) (h : ∀ x ∈ e.secrets, x.scheme = schemeKey → x.key.length = 32) : strangerWorld.KeysSized e := by
  intro x hx hk get r k hget hg hks
  cases hget
  rw [h x hx hk]
  have n1 : ¬ b!"ECDH-X25519" = schemeKey := by decide
  have n2 : ¬ b!"Ed25519" = schemeKey := by decide
  unfold strangerStore toyStore at hg
  (repeat' split at hg) <;> cases hg <;> first | rfl | exact absurd hks n1 | exact absurd hks n2

/-- What the examples compute: with one secret of each kind, and with two recipients, the session encrypts and names its participants; the letter opens with
the right secrets, and the stranger's attempt is an error. -/
def openCheck (suite : Bytes) (secrets senders rcpts : List Bytes) : Bool :=
  match correspondence openPrims toyConfig toyWorld suiteRegistry (toyEnvelope suite secrets senders rcpts) with
  | .ok s => decide (Confidentiality ∈ s.suite.provides) && decide (∀ x ∈ participants s.env, x.id ≠ []) && decide (participants s.env ≠ []) &&
      decide (∀ x ∈ s.env.secrets, x.scheme = schemeKey → x.key.length = 32) &&
      (match (s.close openPrims toyConfig toyRng s.initState b!"hello").2 with
      | .ok l => decide (l.open openPrims toyConfig toyWorld suiteRegistry none = .ok b!"hello") &&
          decide (l.open openPrims toyConfig strangerWorld suiteRegistry none ≠ .ok b!"hello")
      | .error _ => false)
  | .error _ => false

theorem only_with_runs : openCheck b!"pw_v1" [b!"pw"] [] [] = true ∧ openCheck b!"key_v1" [b!"key"] [] [] = true ∧
    openCheck b!"v1" [] [b!"alice"] [b!"bob"] = true := by decide +kernel

/-- The hypotheses of C90 are met, and opening is possible with the right secrets and not for the stranger. -/
theorem only_with_example (suite : Bytes) (secrets senders rcpts : List Bytes) (h : openCheck suite secrets senders rcpts = true) :
    ∃ s l, BoundLetter openPrims toyConfig toyWorld toyRng (toyEnvelope suite secrets senders rcpts) s b!"hello" l strangerWorld none ∧ participants s.env ≠ [] ∧
      strangerWorld.KeysSized s.env ∧ l.open openPrims toyConfig toyWorld suiteRegistry none = .ok b!"hello" ∧
      l.open openPrims toyConfig strangerWorld suiteRegistry none ≠ .ok b!"hello" := by
  unfold openCheck at h
  split at h
  · rename_i s hs
    simp only [Bool.and_eq_true, decide_eq_true_eq] at h
    obtain ⟨⟨⟨⟨h1, h2⟩, h3⟩, h4⟩, h5⟩ := h
    split at h5
    · rename_i l hl
      simp only [Bool.and_eq_true, decide_eq_true_eq] at h5
      exact ⟨s, l, ⟨openPrims_sizes, rfl, hs, h1, h2, hl, openPrims_holds _ _ _ s l _⟩, h3, stranger_sized _ h4, h5.1, h5.2⟩
    · cases h5
  · cases h

end Jess
