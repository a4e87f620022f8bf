import Verif.Props.Library
import Verif.Props.Tamper

/-!
# C92: the results of a session depend on no algorithm but those of its suite
-/

namespace Jess

open Requirements

/-- Two cryptographic libraries agree on a tool, with the hash function it was given (specification): whatever is done with the tool, according to its
purpose, has the same result. About all other algorithms, nothing is said. -/
structure SameTool (P Q : Prims) (t : ToolInst) : Prop where
  kdf : t.info.purpose = .keyDerivation → P.kdf t.info.name t.hashName = Q.kdf t.info.name t.hashName
  pass : t.info.purpose = .passDerivation → P.passKdf t.info.name = Q.passKdf t.info.name
  exchange : t.info.purpose = .keyExchange → P.dh t.info.name = Q.dh t.info.name ∧ P.genKey t.info.name = Q.genKey t.info.name ∧
    P.loadKey t.info.name = Q.loadKey t.info.name ∧ P.storeKey t.info.name = Q.storeKey t.info.name
  encapsulation : t.info.purpose = .keyEncapsulation → P.rsaBits = Q.rsaBits ∧ P.encap t.info.name t.hashName = Q.encap t.info.name t.hashName ∧
    P.unwrap t.info.name t.hashName = Q.unwrap t.info.name t.hashName
  cipher : t.info.purpose = .cipher → P.encrypt t.info.name = Q.encrypt t.info.name ∧ P.decrypt t.info.name = Q.decrypt t.info.name
  integrated : t.info.purpose = .integratedCipher → P.aeadSeal t.info.name = Q.aeadSeal t.info.name ∧ P.aeadOpen t.info.name = Q.aeadOpen t.info.name
  mac : t.info.purpose = .mac → P.mac t.info.name t.hashName = Q.mac t.info.name t.hashName
  signing : t.info.purpose = .signing → P.hash t.hashName = Q.hash t.hashName ∧ P.sign t.info.name t.hashName = Q.sign t.info.name t.hashName ∧
    P.verify t.info.name t.hashName = Q.verify t.info.name t.hashName

/-- The tools of a suite are what they are registered as: this holds for the tools of every session. -/
def Registered (ts : List ToolInst) : Prop := ∀ t ∈ ts, getTool t.info.name = some t.info

theorem foldRes_congr {α β : Type} {f g : β → α → Res β} : ∀ {l : List α} (b : β), (∀ b, ∀ x ∈ l, f b x = g b x) → foldRes f b l = foldRes g b l
  | [], _, _ => rfl
  | x :: xs, b, h => by
    rw [foldRes, foldRes, h b x (by simp)]
    cases g b x with
    | error e => rfl
    | ok c => exact foldRes_congr c fun b y hy => h b y (by simp [hy])

theorem loopKM_congr {σ α : Type} {f g : σ → α → σ × Res Unit} : ∀ {l : List α} (b : σ), (∀ b, ∀ x ∈ l, f b x = g b x) → loopKM f b l = loopKM g b l
  | [], _, _ => rfl
  | x :: xs, b, h => by
    rw [loopKM, loopKM, h b x (by simp)]
    split
    · rfl
    · exact loopKM_congr _ fun b y hy => h b y (by simp [hy])

theorem overTools_congr {σ : Type} {f g : σ → ToolInst → σ × Res Unit} : ∀ {l : List ToolInst} (b : σ) (r : Res Unit),
    (∀ b, ∀ x ∈ l, f b x = g b x) → overTools f b r l = overTools g b r l
  | [], _, _, _ => rfl
  | x :: xs, b, r, h => by
    rw [overTools, overTools, h b x (by simp)]
    split
    · rfl
    · exact overTools_congr _ _ fun b y hy => h b y (by simp [hy])

variable {P Q : Prims}

theorem kdfRead_same {k : ToolInst} (h : SameTool P Q k) (hp : k.info.purpose = .keyDerivation) : kdfRead P k = kdfRead Q k := by
  unfold kdfRead
  rw [h.kdf hp]

theorem setupTools_same {s : Session} {k : ToolInst} (h : SameTool P Q k) (hp : k.info.purpose = .keyDerivation) (nonce : Bytes) (material : List Bytes) :
    ∀ (ts : List ToolInst) (os : List ToolState) (off : Nat), setupTools P s k nonce material off ts os = setupTools Q s k nonce material off ts os
  | [], os, off => by cases os <;> rfl
  | t :: ts, [], off => rfl
  | t :: ts, o :: os, off => by
    have e : setupTool P s k nonce material off t o = setupTool Q s k nonce material off t o := by
      unfold setupTool setupNonce
      rw [kdfRead_same h hp]
    rw [setupTools, setupTools, e]
    split
    · rfl
    · rename_i off' _
      rw [setupTools_same h hp nonce material ts os off']

theorem mem_ready {s : Session} {sts : List ToolState} {p : Purpose} {x : ToolInst × ToolState} (hx : x ∈ s.ready sts p) :
    x.1 ∈ s.insts ∧ x.1.info.purpose = p := by
  unfold Session.ready at hx
  rw [List.mem_filter] at hx
  have h1 := (List.of_mem_zip hx.1).1
  unfold Session.stateful at h1
  exact ⟨(List.mem_filter.mp h1).1, by simpa using hx.2⟩

theorem runEncrypt_same {s : Session} (h : ∀ t ∈ s.insts, SameTool P Q t) (sts : List ToolState) (d : Bytes) :
    runEncrypt P (s.ready sts .cipher) d = runEncrypt Q (s.ready sts .cipher) d := by
  refine foldRes_congr _ fun b x hx => ?_
  rw [((h x.1 (mem_ready hx).1).cipher (mem_ready hx).2).1]

theorem runDecrypt_same {s : Session} (h : ∀ t ∈ s.insts, SameTool P Q t) (sts : List ToolState) (d : Bytes) :
    runDecrypt P (s.ready sts .cipher) d = runDecrypt Q (s.ready sts .cipher) d := by
  refine foldRes_congr _ fun b x hx => ?_
  have hx := List.mem_reverse.mp hx
  rw [((h x.1 (mem_ready hx).1).cipher (mem_ready hx).2).2]

theorem runSeal_same {s : Session} (h : ∀ t ∈ s.insts, SameTool P Q t) (sts : List ToolState) (ad d : Bytes) :
    runSeal P (s.ready sts .integratedCipher) ad d = runSeal Q (s.ready sts .integratedCipher) ad d := by
  refine foldRes_congr _ fun b x hx => ?_
  rw [((h x.1 (mem_ready hx).1).integrated (mem_ready hx).2).1]

theorem runUnseal_same {s : Session} (h : ∀ t ∈ s.insts, SameTool P Q t) (sts : List ToolState) (ad d : Bytes) :
    runUnseal P (s.ready sts .integratedCipher) ad d = runUnseal Q (s.ready sts .integratedCipher) ad d := by
  refine foldRes_congr _ fun b x hx => ?_
  have hx := List.mem_reverse.mp hx
  unfold openOne
  rw [((h x.1 (mem_ready hx).1).integrated (mem_ready hx).2).2]

theorem runMACs_same {s : Session} (h : ∀ t ∈ s.insts, SameTool P Q t) (sts : List ToolState) (d ad : Bytes) :
    runMACs P (s.ready sts .mac) d ad = runMACs Q (s.ready sts .mac) d ad := by
  refine foldRes_congr _ fun b x hx => ?_
  unfold toolMAC
  rw [(h x.1 (mem_ready hx).1).mac (mem_ready hx).2]

theorem protect_same {s : Session} (h : ∀ t ∈ s.insts, SameTool P Q t) (sts : List ToolState) (l : Letter) (d : Bytes) :
    protect P s sts l d = protect Q s sts l d := by
  unfold protect
  simp only [runEncrypt_same h, runSeal_same h, runMACs_same h]

theorem unprotect_same {s : Session} (h : ∀ t ∈ s.insts, SameTool P Q t) (sts : List ToolState) (l : Letter) :
    unprotect P s sts l = unprotect Q s sts l := by
  unfold unprotect
  simp only [runDecrypt_same h, runUnseal_same h, runMACs_same h]

theorem passKey_same {s : Session} (h : ∀ t ∈ s.insts, SameTool P Q t) (cfg : Config) (nonce : Bytes) (k : Signet) :
    passKey P cfg s nonce k = passKey Q cfg s nonce k := by
  unfold passKey
  split
  · rfl
  · split
    · rfl
    · rename_i t ht
      have hm := mem_queue.mp (List.mem_of_mem_head? ht)
      rw [(h t hm.1).pass hm.2]

theorem load_same {t : ToolInst} (hr : getTool t.info.name = some t.info) (h : P.loadKey t.info.name = Q.loadKey t.info.name) {x : Signet}
    (hx : x.scheme = t.info.name) : x.load P = x.load Q := by
  unfold Signet.load
  rw [hx, hr]
  simp only [h]

theorem store_same {t : ToolInst} (hr : getTool t.info.name = some t.info) (h : P.storeKey t.info.name = Q.storeKey t.info.name) {x : Signet}
    (hx : x.scheme = t.info.name) : x.store P = x.store Q := by
  unfold Signet.store
  rw [hx, hr]
  simp only [h]

theorem generate_same {t : ToolInst} (hr : getTool t.info.name = some t.info) (h : P.genKey t.info.name = Q.genKey t.info.name) (seed : Bytes) :
    generateSignet P t.info.name seed = generateSignet Q t.info.name seed := by
  unfold generateSignet
  rw [hr]
  simp only [h]

theorem kxOffer_same {t : ToolInst} (h : SameTool P Q t) (hr : getTool t.info.name = some t.info) (hp : t.info.purpose = .keyExchange) (seed : Bytes)
    (rcpt : Signet) : kxOffer P t seed rcpt = kxOffer Q t seed rcpt := by
  obtain ⟨h1, h2, h3, h4⟩ := h.exchange hp
  unfold kxOffer
  rw [generate_same hr h2]
  cases hg : generateSignet Q t.info.name seed with
  | error e => rfl
  | ok g =>
    have hgs : g.scheme = t.info.name := by
      unfold generateSignet at hg
      rw [hr] at hg
      simp only at hg
      split at hg
      · split at hg
        · cases hg
        · cases hg; rfl
      · cases hg
    have e1 : makeShared P t.info.name g rcpt = makeShared Q t.info.name g rcpt := by
      unfold makeShared
      rw [h1]
    have e2 : g.asRecipient P = g.asRecipient Q := by
      unfold Signet.asRecipient
      rw [load_same hr h3 hgs]
    simp only [ok_bind, e1, e2]
    cases makeShared Q t.info.name g rcpt with
    | error e => rfl
    | ok sh =>
      simp only [ok_bind]
      cases hr2 : g.asRecipient Q with
      | error e => rfl
      | ok r =>
        have hrs : r.scheme = t.info.name := by
          unfold Signet.asRecipient at hr2
          split at hr2
          · cases hr2
          · simp only [bind_ok_iff] at hr2
            obtain ⟨x, hx, he⟩ := hr2
            cases he
            unfold Signet.load at hx
            split at hx
            · cases hx; exact hgs
            · split at hx
              · cases hx
              · split at hx
                · cases hx
                · split at hx
                  · split at hx
                    · cases hx
                    · cases hx; exact hgs
                  · cases hx
        simp only [ok_bind, store_same hr h4 hrs]

theorem setupClosing_same {s : Session} (h : ∀ t ∈ s.insts, SameTool P Q t) (hr : Registered s.insts) (cfg : Config) (rng : Rng) (nonce : Bytes) :
    setupClosing P cfg rng s nonce = setupClosing Q cfg rng s nonce := by
  unfold setupClosing
  have e1 : closePw P cfg s nonce = closePw Q cfg s nonce := by
    funext km k
    unfold closePw
    rw [passKey_same h]
  have e2 : ∀ (km : KM) (r : Res Unit), overTools (fun km t => loopKM (closeKX P rng t) km (ofScheme s.env.recipients t.info.name)) km r (s.queue .keyExchange) =
      overTools (fun km t => loopKM (closeKX Q rng t) km (ofScheme s.env.recipients t.info.name)) km r (s.queue .keyExchange) := by
    intro km r
    refine overTools_congr _ _ fun b t ht => ?_
    have ht := mem_queue.mp ht
    refine loopKM_congr _ fun b x _ => ?_
    unfold closeKX
    rw [kxOffer_same (h t ht.1) (hr t ht.1) ht.2]
  have e3 : ∀ (km : KM) (r : Res Unit), overTools (fun km t => loopKM (closeKE P cfg rng s t) km (ofScheme s.env.recipients t.info.name)) km r (s.queue .keyEncapsulation) =
      overTools (fun km t => loopKM (closeKE Q cfg rng s t) km (ofScheme s.env.recipients t.info.name)) km r (s.queue .keyEncapsulation) := by
    intro km r
    refine overTools_congr _ _ fun b t ht => ?_
    have ht := mem_queue.mp ht
    refine loopKM_congr _ fun b x _ => ?_
    obtain ⟨g1, g2, _⟩ := (h t ht.1).encapsulation ht.2
    have : ∀ key seed, encapsulate P t key seed x = encapsulate Q t key seed x := by
      intro key seed
      unfold encapsulate
      rw [g1]
      split
      · rfl
      · split
        · rename_i hh _ hth
          have : t.hashName = hh.name := by unfold ToolInst.hashName; rw [hth]
          rw [← this, g2]
        · rfl
    unfold closeKE keOffer
    simp only [this]
  simp only [e1, e2, e3]

theorem setupOpening_same {s : Session} (h : ∀ t ∈ s.insts, SameTool P Q t) (hr : Registered s.insts) (cfg : Config) (l : Letter) :
    setupOpening P cfg s l = setupOpening Q cfg s l := by
  unfold setupOpening
  have e1 : openPw P cfg s l.nonce = openPw Q cfg s l.nonce := by
    funext km k
    unfold openPw
    rw [passKey_same h]
  have e2 : ∀ (km : OM) (r : Res Unit), overTools (fun km t => loopKM (openKX P l t) km (ofScheme s.env.recipients t.info.name)) km r (s.queue .keyExchange) =
      overTools (fun km t => loopKM (openKX Q l t) km (ofScheme s.env.recipients t.info.name)) km r (s.queue .keyExchange) := by
    intro km r
    refine overTools_congr _ _ fun b t ht => ?_
    have ht := mem_queue.mp ht
    refine loopKM_congr _ fun b x _ => ?_
    obtain ⟨g1, _, g3, _⟩ := (h t ht.1).exchange ht.2
    unfold openKX peerSignet makeShared
    rw [g1]
    simp only [load_same (hr t ht.1) g3 (x := { version := l.version, scheme := t.info.name, key := _, isPublic := true }) rfl]
  have e3 : ∀ (km : OM) (r : Res Unit), overTools (fun km t => loopKM (openKE P l t) km (ofScheme s.env.recipients t.info.name)) km r (s.queue .keyEncapsulation) =
      overTools (fun km t => loopKM (openKE Q l t) km (ofScheme s.env.recipients t.info.name)) km r (s.queue .keyEncapsulation) := by
    intro km r
    refine overTools_congr _ _ fun b t ht => ?_
    have ht := mem_queue.mp ht
    refine loopKM_congr _ fun b x _ => ?_
    obtain ⟨_, _, g3⟩ := (h t ht.1).encapsulation ht.2
    unfold openKE unwrapKey
    rw [g3]
  simp only [e1, e2, e3]

theorem mem_signerPairs {s : Session} {x : ToolInst × Signet} (hx : x ∈ s.signerPairs) : x.1 ∈ s.insts ∧ x.1.info.purpose = .signing := by
  unfold Session.signerPairs at hx
  obtain ⟨t, ht, hx⟩ := List.mem_flatMap.mp hx
  obtain ⟨k, _, rfl⟩ := List.mem_map.mp hx
  exact mem_queue.mp ht

theorem signAll_same (rng : Rng) (fed : Bytes) : ∀ (l : List (ToolInst × Signet)) (ctr : Nat),
    (∀ x ∈ l, SameTool P Q x.1 ∧ x.1.info.purpose = .signing) → signAll P rng fed ctr l = signAll Q rng fed ctr l
  | [], _, _ => rfl
  | (t, k) :: xs, ctr, h => by
    obtain ⟨h1, h2⟩ := h (t, k) (by simp)
    obtain ⟨g1, g2, _⟩ := h1.signing h2
    rw [signAll, signAll, signAll_same rng fed xs (ctr + 1) fun x hx => h x (by simp [hx]), g1]
    unfold toolSign
    rw [g2]

theorem verifyAll_same (fed : Bytes) (sigs : List Seal) : ∀ (l : List (ToolInst × Signet)) (i : Nat),
    (∀ x ∈ l, SameTool P Q x.1 ∧ x.1.info.purpose = .signing) → verifyAll P fed sigs i l = verifyAll Q fed sigs i l
  | [], _, _ => rfl
  | (t, k) :: xs, i, h => by
    obtain ⟨h1, h2⟩ := h (t, k) (by simp)
    obtain ⟨g1, _, g3⟩ := h1.signing h2
    rw [verifyAll, verifyAll, verifyAll_same fed sigs xs (i + 1) fun x hx => h x (by simp [hx]), g1]
    unfold toolVerify
    rw [g3]

theorem signLetter_same {s : Session} (h : ∀ t ∈ s.insts, SameTool P Q t) (rng : Rng) (st : SState) (ctr : Nat) (ad : Bytes) (l : Letter) :
    signLetter P rng s st ctr ad l = signLetter Q rng s st ctr ad l := by
  unfold signLetter
  rw [signAll_same rng _ s.signerPairs ctr fun x hx => ⟨h x.1 (mem_signerPairs hx).1, (mem_signerPairs hx).2⟩]

theorem checkSignatures_same {s : Session} (h : ∀ t ∈ s.insts, SameTool P Q t) (st : SState) (l : Letter) :
    checkSignatures P s st l = checkSignatures Q s st l := by
  unfold checkSignatures
  rw [verifyAll_same _ _ s.signerPairs 0 fun x hx => ⟨h x.1 (mem_signerPairs hx).1, (mem_signerPairs hx).2⟩]

theorem kdf_mem {s : Session} {k : ToolInst} (h : s.kdf = some k) : k ∈ s.insts ∧ k.info.purpose = .keyDerivation :=
  mem_queue.mp (List.mem_of_mem_head? h)

theorem session_registered {cfg : Config} {e : Envelope} {s : Session} {P : Prims} (h : newSession P cfg e = .ok s) : Registered s.insts := by
  intro t ht
  obtain ⟨tid, _, hm⟩ := inst_tool h ht
  obtain ⟨h1, _, h3, _⟩ := makeInst_spec hm
  rw [h3]
  exact h1

/-- C92. Closing a letter gives the same result with any two cryptographic libraries that agree on the tools of the session, however they differ on all
other algorithms. -/
theorem close_uses_suite_only {cfg : Config} {s : Session} (hr : Registered s.insts) (h : ∀ t ∈ s.insts, SameTool P Q t) (rng : Rng) (st : SState)
    (data : Bytes) : s.close P cfg rng st data = s.close Q cfg rng st data := by
  unfold Session.close
  split
  · rfl
  · simp only
    split
    · simp only [signLetter_same h]
    · rename_i k hk
      obtain ⟨k1, k2⟩ := kdf_mem hk
      rw [setupClosing_same h hr]
      unfold encryptLetter
      simp only [setupTools_same (h k k1) k2, protect_same h, signLetter_same h]

/-- C92 for opening. -/
theorem open_uses_suite_only {cfg : Config} {s : Session} (hr : Registered s.insts) (h : ∀ t ∈ s.insts, SameTool P Q t) (st : SState) (l : Letter) :
    s.open P cfg st l = s.open Q cfg st l := by
  unfold Session.open
  split
  · rfl
  · rw [checkSignatures_same h]
    split
    · rfl
    · split
      · rfl
      · rename_i k hk
        obtain ⟨k1, k2⟩ := kdf_mem hk
        rw [setupOpening_same h hr]
        unfold decryptLetter
        simp only [setupTools_same (h k k1) k2, unprotect_same h]

/-- C92 for verifying. -/
theorem verify_uses_suite_only {s : Session} (h : ∀ t ∈ s.insts, SameTool P Q t) (st : SState) (l : Letter) : s.verify P st l = s.verify Q st l := by
  unfold Session.verify
  rw [checkSignatures_same h]

/-- C92, for the callers of the library: two cryptographic libraries that agree on the tools named by the suite close the same letters, open the same
letters with the same results and accept the same signatures, in every session of that suite. -/
theorem suite_isolated {cfg : Config} {e : Envelope} {s : Session} (hs : newSession P cfg e = .ok s)
    (h : ∀ tid ∈ s.suite.tools, ∀ t, makeInst tid = .ok t → SameTool P Q t) :
    (∀ rng st data, s.close P cfg rng st data = s.close Q cfg rng st data) ∧
    (∀ st l, s.open P cfg st l = s.open Q cfg st l) ∧ (∀ st l, s.verify P st l = s.verify Q st l) := by
  have ht : ∀ t ∈ s.insts, SameTool P Q t := fun t ht => by
    obtain ⟨tid, h1, h2⟩ := inst_tool hs ht
    exact h tid h1 t h2
  exact ⟨close_uses_suite_only (session_registered hs) ht, open_uses_suite_only (session_registered hs) ht, verify_uses_suite_only ht⟩

/-- A library in which everything is broken but the algorithms of the suite `v2`. -/
def brokenOthers : Prims := { toyPrims with
  kdf := fun tool hash nonce material off size => if tool = b!"BLAKE3-KDF" then toyPrims.kdf tool hash nonce material off size else .error .env
  passKdf := fun _ _ _ _ => .error .panic
  genKey := fun tool seed => if tool = b!"ECDH-X25519" then toyPrims.genKey tool seed else .error .env
  encap := fun _ _ _ _ _ => .error .panic
  unwrap := fun _ _ _ _ => .error .panic
  encrypt := fun _ _ _ _ => .ok []
  aeadSeal := fun tool key nonce ad d => if tool = b!"CHACHA20-POLY1305" then toyPrims.aeadSeal tool key nonce ad d else .ok d
  mac := fun _ _ _ _ => []
  sign := fun tool hash priv digest seed => if tool = b!"Ed25519" then toyPrims.sign tool hash priv digest seed else .ok [] }

/-- The hypotheses can be met by libraries that differ: the suite `v2`, with everything else broken. -/
theorem isolated_example :
    (∀ tid ∈ [b!"ECDH-X25519", b!"Ed25519(BLAKE3)", b!"BLAKE3-KDF", b!"CHACHA20-POLY1305"], ∀ t, makeInst tid = .ok t → SameTool toyPrims brokenOthers t) ∧
    brokenOthers.encrypt b!"SALSA20" [1] [2] [3] ≠ toyPrims.encrypt b!"SALSA20" [1] [2] [3] ∧
    (getSuite suiteRegistry b!"v2").map (·.tools) = some [b!"ECDH-X25519", b!"Ed25519(BLAKE3)", b!"BLAKE3-KDF", b!"CHACHA20-POLY1305"] := by
  refine ⟨?_, by decide +kernel, by decide +kernel⟩
  intro tid htid t ht
  have key : ∀ tid ∈ [b!"ECDH-X25519", b!"Ed25519(BLAKE3)", b!"BLAKE3-KDF", b!"CHACHA20-POLY1305"], ∀ t, makeInst tid = .ok t →
      (t.info.purpose = .keyDerivation ∧ t.info.name = b!"BLAKE3-KDF") ∨ (t.info.purpose = .keyExchange ∧ t.info.name = b!"ECDH-X25519") ∨
      (t.info.purpose = .signing ∧ t.info.name = b!"Ed25519") ∨ (t.info.purpose = .integratedCipher ∧ t.info.name = b!"CHACHA20-POLY1305") := by
    intro tid htid t ht
    have : ∀ tid ∈ [b!"ECDH-X25519", b!"Ed25519(BLAKE3)", b!"BLAKE3-KDF", b!"CHACHA20-POLY1305"], (match makeInst tid with
        | .ok t => decide ((t.info.purpose = .keyDerivation ∧ t.info.name = b!"BLAKE3-KDF") ∨ (t.info.purpose = .keyExchange ∧ t.info.name = b!"ECDH-X25519") ∨
      (t.info.purpose = .signing ∧ t.info.name = b!"Ed25519") ∨ (t.info.purpose = .integratedCipher ∧ t.info.name = b!"CHACHA20-POLY1305"))
        | .error _ => true) = true := by decide +kernel
    have := this tid htid
    rw [ht] at this
    exact of_decide_eq_true this
  rcases key tid htid t ht with ⟨h1, h2⟩ | ⟨h1, h2⟩ | ⟨h1, h2⟩ | ⟨h1, h2⟩
  all_goals constructor <;> intro hp <;> rw [h1] at hp <;> first | exact absurd hp (by decide) | skip
  all_goals rw [h2]
  · funext _ _ _ _; simp [brokenOthers]
  · exact ⟨rfl, by funext _; simp [brokenOthers], rfl, rfl⟩
  · exact ⟨rfl, by funext _ _ _; simp [brokenOthers], rfl⟩
  · exact ⟨by funext _ _ _ _; simp [brokenOthers], rfl⟩

end Jess
