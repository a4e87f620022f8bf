import Verif.Props.CloseOpen

/-!
# C51: failures of key establishment are not ignored
-/

namespace Jess

open Requirements

/-- A key was established with the recipient, and the seal carries what the recipient needs (specification): a key exchange with
a fresh key pair, or an encapsulated random key. -/
def Established (P : Prims) (cfg : Config) (rng : Rng) (s : Session) (rcpt : Signet) (sl : Seal) (secret : Bytes) : Prop :=
  ∃ t ∈ s.insts, t.info.name = rcpt.scheme ∧
    ((t.info.purpose = .keyExchange ∧ ∃ i sender, kxOffer P t (rng.seed i) rcpt = .ok (sender, secret, sl)) ∨
     (t.info.purpose = .keyEncapsulation ∧ ∃ i, keOffer P cfg rng s i t rcpt = .ok (secret, sl)))

theorem recipient_pair {P : Prims} {cfg : Config} {e : Envelope} {s : Session} (h : newSession P cfg e = .ok s)
    (hnd : (s.insts.map (·.info.name)).Nodup) {k : Signet} (hk : k ∈ s.env.recipients) :
    ∃ t ∈ s.insts, t.info.name = k.scheme ∧ ((t, k) ∈ s.pairs .keyExchange ∨ (t, k) ∈ s.pairs .keyEncapsulation) := by
  obtain ⟨t, ht, hp, hn⟩ := (no_signet_ignored P cfg e s h hnd).recipients k hk
  refine ⟨t, ht, hn, ?_⟩
  have hmem : k ∈ ofScheme s.env.recipients t.info.name := by
    unfold ofScheme; rw [List.mem_filter]; exact ⟨hk, by rw [hn]; simp⟩
  rcases hp with hp | hp
  · left
    exact List.mem_flatMap.mpr ⟨t, mem_queue.mpr ⟨ht, hp⟩, List.mem_map.mpr ⟨k, hmem, rfl⟩⟩
  · right
    exact List.mem_flatMap.mpr ⟨t, mem_queue.mpr ⟨ht, hp⟩, List.mem_map.mpr ⟨k, hmem, rfl⟩⟩

theorem mem_pairs {s : Session} {p : Purpose} {x : ToolInst × Signet} (hx : x ∈ s.pairs p) :
    x.1 ∈ s.insts ∧ x.1.info.purpose = p ∧ x.2 ∈ ofScheme s.env.recipients x.1.info.name := by
  obtain ⟨t, ht, hx⟩ := List.mem_flatMap.mp hx
  obtain ⟨k, hk, rfl⟩ := List.mem_map.mp hx
  obtain ⟨m1, m2⟩ := mem_queue.mp ht
  exact ⟨m1, m2, hk⟩

theorem mem_getElem? {α : Type} {l : List α} {a : α} (h : a ∈ l) : ∃ i : Nat, l[i]? = some a := by
  obtain ⟨i, hi, he⟩ := List.getElem_of_mem h
  exact ⟨i, by rw [List.getElem?_eq_getElem hi, he]⟩

/-- C51, closing with at most one key exchange and one encapsulation tool: if `Close` succeeds, a key was established with every
recipient, is part of the key material that the letter's keys are derived from, and the letter carries the seal. -/
theorem close_establishes {P : Prims} {cfg : Config} {rng : Rng} {s : Session} {data : Bytes} {l : Letter}
    (hs : newSession P cfg s.env = .ok s) (hnd : (s.insts.map (·.info.name)).Nodup)
    (hx1 : (s.queue .keyExchange).length ≤ 1) (he1 : (s.queue .keyEncapsulation).length ≤ 1)
    (hc : (s.close P cfg rng s.initState data).2 = .ok l) :
    ∃ material, (∀ k ∈ s.env.recipients, ∃ sl ∈ l.keys, ∃ secret ∈ material, sl.id = k.id ∧ Established P cfg rng s k sl secret) ∧
      (s.env.recipients ≠ [] → ∃ kdf nonce l', s.kdf = some kdf ∧ randomBytes rng 0 s.nonceSize = .ok nonce ∧
        (encryptLetter P s s.initState kdf material 0
          { version := s.env.version, suiteID := s.env.suiteID, nonce := nonce, keys := l.keys } data).2 = .ok l' ∧
        l.data = l'.data ∧ l.mac = l'.mac ∧ l.keys = l'.keys ∧ l.nonce = nonce) := by
  unfold Session.close at hc
  split at hc
  · cases hc
  · rename_i nonce hnon
    dsimp only at hc
    cases hk : s.kdf with
    | none =>
      obtain ⟨_, _, n3⟩ := no_kdf_no_keys hs hnd hk
      have hnr : s.env.recipients = [] := by
        refine Classical.byContradiction fun hne => ?_
        obtain ⟨k, hk⟩ := List.exists_mem_of_ne_nil _ hne
        obtain ⟨t, _, _, h⟩ := recipient_pair hs hnd hk
        unfold Session.rcptTools at n3
        obtain ⟨q1, q2⟩ := List.append_eq_nil_iff.mp n3
        rcases h with h | h
        · unfold Session.pairs at h; rw [q1] at h; cases h
        · unfold Session.pairs at h; rw [q2] at h; cases h
      exact ⟨[], by rw [hnr]; simp, fun h => absurd hnr h⟩
    | some k =>
      rw [hk] at hc
      simp only at hc
      rw [setupClosing_eq P cfg rng s nonce hx1 he1] at hc
      split at hc
      · cases hc
      · rename_i km hkm
        split at hc
        · rename_i hkdf
          split at hc
          · cases hc
          · rename_i st1 l1 henc
            have hl : ∃ sigs, l = { l1 with signatures := sigs } := by
              unfold signLetter at hc
              split at hc
              · cases hc; exact ⟨l.signatures, rfl⟩
              · simp only at hc
                split at hc
                · cases hc
                · cases hc; exact ⟨_, rfl⟩
            have hl1 : l1.keys = km.keys ∧ l1.nonce = nonce := by
              unfold encryptLetter at henc
              split at henc
              · cases henc
              · simp only [Prod.mk.injEq, protect, bind_ok_iff] at henc
                obtain ⟨_, _, _, _, _, _, _, h4⟩ := henc
                cases h4; exact ⟨rfl, rfl⟩
            obtain ⟨sigs, rfl⟩ := hl
            refine ⟨km.material, ?_, ?_⟩
            · simp only [closingMaterial, bind_ok_iff] at hkm
              obtain ⟨pws, h1, kxs, h2, kes, h3, h4⟩ := hkm
              cases h4
              intro r hr
              obtain ⟨t, ht, hn, hp⟩ := recipient_pair hs hnd hr
              have hid : (∀ i sender shared sl, kxOffer P t (rng.seed i) r = .ok (sender, shared, sl) → sl.id = r.id) := by
                intro i sender shared sl h
                simp only [kxOffer, bind_ok_iff] at h
                obtain ⟨_, _, _, _, _, _, _, _, h5⟩ := h
                cases h5; rfl
              rcases hp with hp | hp
              · obtain ⟨j, hj⟩ := mem_getElem? hp
                obtain ⟨y, hy, hg⟩ := collectFrom_get h2 hj
                simp only [closeKXKey, bind_ok_iff] at hg
                obtain ⟨⟨sender, shared, sl⟩, hoff, hy2⟩ := hg
                cases hy2
                have hmem := List.mem_of_getElem? hy
                refine ⟨sl, ?_, shared, ?_, hid _ _ _ _ hoff, t, ht, hn, Or.inl ⟨(mem_pairs hp).2.1, _, _, hoff⟩⟩
                · show sl ∈ l1.keys
                  rw [hl1.1]; simp only [List.mem_append, List.mem_map]
                  exact Or.inl (Or.inr ⟨_, hmem, rfl⟩)
                · simp only [List.mem_append, List.mem_map]
                  exact Or.inl (Or.inr ⟨_, hmem, rfl⟩)
              · obtain ⟨j, hj⟩ := mem_getElem? hp
                obtain ⟨⟨key, sl⟩, hy, hg⟩ := collectFrom_get h3 hj
                have hmem := List.mem_of_getElem? hy
                have hid2 : sl.id = r.id := by
                  have hg' := hg
                  simp only [keOffer, bind_ok_iff] at hg'
                  obtain ⟨_, _, _, _, h5⟩ := hg'
                  cases h5; rfl
                refine ⟨sl, ?_, key, ?_, hid2, t, ht, hn, Or.inr ⟨(mem_pairs hp).2.1, _, hg⟩⟩
                · show sl ∈ l1.keys
                  rw [hl1.1]; simp only [List.mem_append, List.mem_map]
                  exact Or.inr ⟨_, hmem, rfl⟩
                · simp only [List.mem_append, List.mem_map]
                  exact Or.inr ⟨_, hmem, rfl⟩
            · intro _
              refine ⟨k, nonce, l1, rfl, hnon, ?_, rfl, rfl, rfl, hl1.2⟩
              show (encryptLetter P s s.initState k km.material 0
                { version := s.env.version, suiteID := s.env.suiteID, nonce := nonce, keys := l1.keys } data).2 = .ok l1
              rw [hl1.1, henc]
        · cases hc

/-- C51, closing: if no key can be established with a recipient, `Close` fails. -/
theorem close_fails_if_not_established {P : Prims} {cfg : Config} {rng : Rng} {s : Session} {data : Bytes}
    (hs : newSession P cfg s.env = .ok s) (hr : s.suite ∈ suiteRegistry) (k : Signet) (hk : k ∈ s.env.recipients)
    (hfail : ∀ sl secret, ¬ Established P cfg rng s k sl secret) : ∃ e, (s.close P cfg rng s.initState data).2 = .error e := by
  cases hc : (s.close P cfg rng s.initState data).2 with
  | error e => exact ⟨e, rfl⟩
  | ok l =>
    obtain ⟨hnd, hone⟩ := registered_session hs hr
    obtain ⟨m, h, _⟩ := close_establishes hs hnd (hone _ (by simp)) (hone _ (by simp)) hc
    obtain ⟨sl, _, secret, _, _, he⟩ := h k hk
    exact absurd he (hfail sl secret)

/-- C51, opening: if `Open` succeeds, the key of every recipient signet was established from its seal and is part of the key
material that the keys are derived from. -/
theorem open_establishes {P : Prims} {cfg : Config} {s : Session} {l : Letter} {d : Bytes}
    (hs : newSession P cfg s.env = .ok s) (hnd : (s.insts.map (·.info.name)).Nodup)
    (hx1 : (s.queue .keyExchange).length ≤ 1) (he1 : (s.queue .keyEncapsulation).length ≤ 1)
    (hne : s.env.recipients ≠ [])
    (ho : (s.open P cfg s.initState l).2 = .ok d) :
    ∃ kdf material, s.kdf = some kdf ∧ (decryptLetter P s s.initState kdf material 0 l).2 = .ok d ∧
      ∀ k ∈ s.env.recipients, ∃ t ∈ s.insts, t.info.name = k.scheme ∧ ∃ sl ∈ l.keys, ∃ secret ∈ material,
        (t.info.purpose = .keyExchange ∧ ∃ peer, peerSignet P l.version t sl.value = .ok peer ∧ makeShared P t.info.name k peer = .ok secret) ∨
        (t.info.purpose = .keyEncapsulation ∧ unwrapKey P t sl.value k = .ok secret) := by
  unfold Session.open at ho
  split at ho
  · cases ho
  · have hcl := checkSignatures_clean (P := P) (clean_init s) l
    generalize checkSignatures P s s.initState l = cs at ho hcl
    obtain ⟨st, r⟩ := cs
    cases r with
    | error e => cases ho
    | ok u =>
      simp only at ho hcl
      cases hk : s.kdf with
      | none =>
        obtain ⟨_, _, n3⟩ := no_kdf_no_keys hs hnd hk
        obtain ⟨k, hk⟩ := List.exists_mem_of_ne_nil _ hne
        obtain ⟨t, _, _, h⟩ := recipient_pair hs hnd hk
        unfold Session.rcptTools at n3
        obtain ⟨q1, q2⟩ := List.append_eq_nil_iff.mp n3
        rcases h with h | h
        · unfold Session.pairs at h; rw [q1] at h; cases h
        · unfold Session.pairs at h; rw [q2] at h; cases h
      | some kdf =>
        rw [hk] at ho
        simp only at ho
        rw [setupOpening_eq P cfg s l hx1 he1] at ho
        split at ho
        · cases ho
        · rename_i mat hmat
          split at ho
          · split at hmat
            · cases hmat
            · refine ⟨kdf, mat, rfl, by rw [← (decryptLetter_clean hcl.1 kdf mat 0 l).2]; exact ho, ?_⟩
              simp only [openingMaterial, bind_ok_iff] at hmat
              obtain ⟨pws, h1, kxs, h2, kes, h3, h4⟩ := hmat
              cases h4
              intro k hk
              obtain ⟨t, ht, hn, hp⟩ := recipient_pair hs hnd hk
              refine ⟨t, ht, hn, ?_⟩
              rcases hp with hp | hp
              · obtain ⟨j, hj⟩ := mem_getElem? hp
                obtain ⟨y, hy, hg⟩ := collectFrom_get h2 hj
                unfold openKXKey at hg
                split at hg
                · cases hg
                · rename_i sl hsl
                  simp only [bind_ok_iff] at hg
                  obtain ⟨peer, g1, g2⟩ := hg
                  refine ⟨sl, List.mem_of_getElem? hsl, y, ?_, Or.inl ⟨(mem_pairs hp).2.1, peer, g1, g2⟩⟩
                  simp only [List.mem_append]
                  exact Or.inl (Or.inr (List.mem_of_getElem? hy))
              · obtain ⟨j, hj⟩ := mem_getElem? hp
                obtain ⟨y, hy, hg⟩ := collectFrom_get h3 hj
                unfold openKEKey at hg
                split at hg
                · cases hg
                · rename_i sl hsl
                  refine ⟨sl, List.mem_of_getElem? hsl, y, ?_, Or.inr ⟨(mem_pairs hp).2.1, hg⟩⟩
                  simp only [List.mem_append]
                  exact Or.inr (List.mem_of_getElem? hy)
          · cases ho

/-! ## Suites with two key exchange tools -/

/-- Primitives for which X25519 key generation fails. -/
def brokenX25519 : Prims :=
  { toyPrims with genKey := fun tool seed => if tool = b!"ECDH-X25519" then .error .env else .ok (seed, seed) }

/-- A suite with two key exchange tools, and a recipient for each. -/
def twoExchanges : Envelope :=
  { suiteID := b!"custom",
    suite := some { id := b!"custom", tools := [b!"ECDH-X25519", b!"ECDH-P256", b!"BLAKE3-KDF", b!"CHACHA20-POLY1305"],
                    provides := full.remove SenderAuthentication, securityLevel := 128, status := 1 },
    recipients := [{ id := b!"x", scheme := b!"ECDH-X25519", key := [1, 8, 9], isPublic := true },
                   { id := b!"p", scheme := b!"ECDH-P256", key := [1, 8, 9], isPublic := true }] }

/-- C51 is false for suites with two key exchange tools (only possible inside the package, as suites cannot be registered from
outside): the failure of the first is overwritten by the success of the second, and `Close` succeeds without a key for the first
recipient. -/
theorem failure_of_first_tool_ignored :
    (match correspondence brokenX25519 toyConfig toyWorld suiteRegistry twoExchanges with
    | .ok s =>
      match (s.close brokenX25519 toyConfig toyRng s.initState b!"hello").2 with
      | .ok l => decide (s.env.recipients.map (·.id) = [b!"x", b!"p"]) && decide (l.keys.map (·.id) = [b!"p"])
      | .error _ => false
    | .error _ => false) = true := by decide +kernel

/-- With a registered suite, a failing key generation makes `Close` fail; and the hypotheses of the theorems above are met. -/
theorem failure_example :
    (match correspondence brokenX25519 toyConfig toyWorld suiteRegistry (toyEnvelope b!"rcpt_v2" [] [] [b!"bob"]) with
    | .ok s => decide (s.suite ∈ suiteRegistry) && decide ((s.close brokenX25519 toyConfig toyRng s.initState b!"hello").2 = .error .env)
    | .error _ => false) = true ∧
    (match correspondence toyPrims toyConfig toyWorld suiteRegistry (toyEnvelope b!"rcpt_v2" [] [] [b!"bob"]) with
    | .ok s => decide (s.suite ∈ suiteRegistry) &&
      (match (s.close toyPrims toyConfig toyRng s.initState b!"hello").2 with | .ok l => decide (l.keys.map (·.id) = [b!"bob"]) | .error _ => false)
    | .error _ => false) = true := by decide +kernel

end Jess
