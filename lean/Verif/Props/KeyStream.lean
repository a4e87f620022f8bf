import Verif.Props.KeySizes

/-!
# C78: every tool gets its own part of the derived key stream; encapsulated keys fit
-/

namespace Jess

/-- Where a tool's key (and nonce) were read: the key at `o`, the nonce right after it. -/
structure ReadAt (P : Prims) (k : ToolInst) (salt : Bytes) (material : List Bytes) (t : ToolInst) (o : Nat) (st : ToolState) : Prop where
  key : P.kdf k.info.name k.hashName salt material.flatten o st.key.length = .ok st.key
  nonce : t.info.purpose = .cipher ∨ t.info.purpose = .integratedCipher →
    P.kdf k.info.name k.hashName salt material.flatten (o + st.key.length) st.nonce.length = .ok st.nonce
  noNonce : t.info.purpose ≠ .cipher → t.info.purpose ≠ .integratedCipher → st.nonce = []

/-- C78. For every suite (also for one with several ciphers and message authentication codes), the tools' keys and nonces are read from one stream, derived from all the key
material of the letter, at places that do not overlap: everything of a tool is before everything of the next ones, beginning at `off`. -/
theorem key_stream_disjoint (P : Prims) (hP : P.KdfSizes) (s : Session) (k : ToolInst) (salt : Bytes) (material : List Bytes) :
    ∀ (ts : List ToolInst) (off : Nat) (sts tools : List ToolState), sts.length = ts.length →
      setupTools P s k salt material off ts sts = (tools, .ok ()) →
      ∃ places : List Nat, All2 (fun t (x : Nat × ToolState) => ReadAt P k salt material t x.1 x.2) ts (places.zip tools) ∧
        places.length = tools.length ∧ (∀ o ∈ places, off ≤ o) ∧
        (places.zip tools).Pairwise (fun x y => x.1 + x.2.key.length + x.2.nonce.length ≤ y.1) := by
  intro ts
  induction ts with
  | nil =>
    intro off sts tools hl hset
    cases sts with
    | nil => simp [setupTools] at hset; subst hset; exact ⟨[], .nil, rfl, by simp, .nil⟩
    | cons _ _ => cases hl
  | cons t ts ih =>
    intro off sts tools hl hset
    cases sts with
    | nil => cases hl
    | cons o os =>
      rw [setupTools] at hset
      cases hs : setupTool P s k salt material off t o with
      | error e => rw [hs] at hset; cases hset
      | ok x =>
        obtain ⟨st, off'⟩ := x
        rw [hs] at hset
        simp only at hset
        obtain ⟨h1, h2⟩ := Prod.mk.inj hset
        subst h1
        obtain ⟨places, i1, i2, i3, i4⟩ := ih off' os _ (by simpa using hl) (Prod.ext rfl h2)
        have key : ReadAt P k salt material t off st ∧ off + st.key.length + st.nonce.length ≤ off' := by
          unfold setupTool at hs
          split at hs
          · cases hs
          · rename_i key hk
            split at hs
            · cases hs
            · rename_i n off2 hn
              cases hs
              have hlen : key.length = s.toolKeySize t := hP _ _ _ _ _ _ _ hk
              unfold setupNonce at hn
              split at hn
              · rename_i hw
                split at hn
                · cases hn
                · rename_i n' hk'
                  cases hn
                  have hlen' : n.length = s.toolNonceSize t := hP _ _ _ _ _ _ _ hk'
                  refine ⟨⟨?_, ?_, ?_⟩, ?_⟩
                  · simp only [hlen]; exact hk
                  · intro _; simp only [hlen, hlen']; exact hk'
                  · intro a b
                    unfold ToolInst.wantsNonce at hw
                    simp [a, b] at hw
                  · simp only; omega
              · rename_i hw
                cases hn
                refine ⟨⟨?_, ?_, ?_⟩, ?_⟩
                · simp only [hlen]; exact hk
                · intro hp
                  exfalso
                  apply hw
                  unfold ToolInst.wantsNonce
                  rcases hp with hp | hp <;> rw [hp] <;> decide
                · intro _ _; rfl
                · simp only [List.length_nil]; omega
        refine ⟨off :: places, ?_, by simp [i2], ?_, ?_⟩
        · simp only [List.zip_cons_cons]
          exact .cons key.1 i1
        · intro o' ho'
          rcases List.mem_cons.mp ho' with rfl | ho'
          · omega
          · have := i3 o' ho'; omega
        · simp only [List.zip_cons_cons, List.pairwise_cons]
          refine ⟨?_, i4⟩
          intro y hy
          have := i3 y.1 (List.of_mem_zip hy).1
          omega

/-- C78. Stated for the bytes: if the key derivation is a stream (what is read somewhere are the bytes of the stream there), the keys and nonces of all tools, one after the
other, are bytes of the stream at increasing positions, so no byte of the stream is used twice. -/
theorem key_stream_positions (P : Prims) (hP : P.KdfSizes) (s : Session) (k : ToolInst) (salt : Bytes) (material : List Bytes) (ts : List ToolInst) (off : Nat)
    (sts tools : List ToolState) (hl : sts.length = ts.length) (hset : setupTools P s k salt material off ts sts = (tools, .ok ()))
    (stream : Nat → UInt8)
    (hstream : ∀ o n b, P.kdf k.info.name k.hashName salt material.flatten o n = .ok b → ∀ i (h : i < b.length), b[i] = stream (o + i)) :
    ∃ pos : List (List Nat), pos.flatten.Pairwise (· < ·) ∧ (∀ i ∈ pos.flatten, off ≤ i) ∧
      All2 (fun (st : ToolState) (p : List Nat) => st.key ++ st.nonce = p.map stream) tools pos := by
  obtain ⟨places, i1, i2, i3, i4⟩ := key_stream_disjoint P hP s k salt material ts off sts tools hl hset
  clear hset hl
  induction ts generalizing off tools places with
  | nil =>
    cases places with
    | nil =>
      cases tools with
      | nil => exact ⟨[], .nil, by simp, .nil⟩
      | cons _ _ => cases i2
    | cons _ _ =>
      cases tools with
      | nil => cases i2
      | cons _ _ => cases i1
  | cons t ts ih =>
    cases places with
    | nil => cases i1
    | cons o places =>
      cases tools with
      | nil => cases i2
      | cons st tools =>
        simp only [List.zip_cons_cons] at i1 i4
        rw [List.pairwise_cons] at i4
        cases i1 with
        | cons hr i1 =>
          have hr : ReadAt P k salt material t o st := hr
          have hge : ∀ o' ∈ places, o + st.key.length + st.nonce.length ≤ o' := by
            intro o' ho'
            obtain ⟨j, hj, rfl⟩ := List.mem_iff_getElem.mp ho'
            have hj2 : j < tools.length := by simp at i2; omega
            have hjz : j < (places.zip tools).length := by rw [List.length_zip]; omega
            have := i4.1 ((places.zip tools)[j]) (List.getElem_mem hjz)
            simpa using this
          obtain ⟨pos, p1, p2, p3⟩ := ih (o + st.key.length + st.nonce.length) tools places i1 (by simpa using i2) hge i4.2
          have hoff := i3 o (by simp)
          refine ⟨(List.range (st.key.length + st.nonce.length)).map (o + ·) :: pos, ?_, ?_, .cons ?_ p3⟩
          · rw [List.flatten_cons, List.pairwise_append]
            refine ⟨?_, p1, ?_⟩
            · rw [List.pairwise_map]
              exact List.pairwise_lt_range.imp (fun h => by omega)
            · intro a ha b hb
              simp only [List.mem_map, List.mem_range] at ha
              obtain ⟨i, hi, rfl⟩ := ha
              have := p2 b hb
              omega
          · intro i hi
            rw [List.flatten_cons, List.mem_append] at hi
            rcases hi with hi | hi
            · simp only [List.mem_map, List.mem_range] at hi
              obtain ⟨j, _, rfl⟩ := hi
              omega
            · have := p2 i hi; omega
          · apply List.ext_getElem
            · simp
            · intro i h1 h2
              simp only [List.getElem_map, List.getElem_range]
              have hlen : i < st.key.length + st.nonce.length := by simpa using h1
              by_cases hi : i < st.key.length
              · rw [List.getElem_append_left hi]
                exact hstream _ _ _ hr.key i hi
              · rw [List.getElem_append_right (by omega)]
                by_cases hp : t.info.purpose = .cipher ∨ t.info.purpose = .integratedCipher
                · have := hstream _ _ _ (hr.nonce hp) (i - st.key.length) (by omega)
                  rw [this]
                  congr 1
                  omega
                · have h0 := hr.noNonce (fun a => hp (.inl a)) (fun a => hp (.inr a))
                  rw [h0] at hlen
                  simp at hlen
                  omega

/-! ## Wire sessions: the key for the next letter -/

theorem ratchet_place {P : Prims} (hP : P.KdfSizes) {s : Session} {k : ToolInst} {n : Nat} {carry salt : Bytes} {m : List Bytes} {c : Bytes} {mat : List Bytes} {off : Nat}
    (h : ratchet P s k n carry salt m = .ok (c, mat, off)) : P.kdf k.info.name k.hashName salt mat.flatten 0 off = .ok c ∧ c.length = off := by
  have key : ∀ {m : List Bytes} {size : Nat} {c' : Bytes}, kdfRead P k salt m 0 size = .ok c' →
      P.kdf k.info.name k.hashName salt m.flatten 0 size = .ok c' ∧ c'.length = size := fun h => ⟨h, hP _ _ _ _ _ _ _ h⟩
  unfold ratchet at h
  split at h
  · split at h
    · cases h
    · split at h
      · split at h
        · cases h
        · rename_i hr; cases h; exact key hr
      · cases h
  · split at h
    · split at h
      · cases h
      · rename_i hr; cases h; exact key hr
    · cases h

theorem sent_carry (w : Wire) (c : Bytes) (b : Bool) : (w.sent c b).sendCarry = c := by
  unfold Wire.sent; cases b <;> rfl

/-- C78. In a wire session, the key that is kept for the following letter is the beginning of the key stream of a letter, and key and nonce of the cipher are the parts that
follow it: the cipher's key says nothing about the kept key that the stream does not say. -/
theorem wire_close_keys (P : Prims) (hP : P.KdfSizes) (cfg : Config) (rng : Rng) (s : Session) (hs : newSession P cfg s.env = .ok s)
    (hr : s.suite ∈ suiteRegistry) (hc : Confidentiality ∈ s.suite.provides) (st : SState) (hcl : Clean s st) (w : Wire) (data : Bytes)
    (x : SState × Wire) (l : Letter) (h : s.wireClose P cfg rng st w data = (x, .ok l)) :
    ∃ k material key nonce, s.kdf = some k ∧ P.kdf k.info.name k.hashName l.nonce material 0 x.2.sendCarry.length = .ok x.2.sendCarry ∧
      P.kdf k.info.name k.hashName l.nonce material x.2.sendCarry.length 32 = .ok key ∧
      P.kdf k.info.name k.hashName l.nonce material (x.2.sendCarry.length + 32) 12 = .ok nonce ∧
      P.aeadSeal b!"CHACHA20-POLY1305" key nonce l.compileAD data = .ok l.data := by
  obtain ⟨q1, q2, q3, q4, k, q5⟩ := encrypting_session hs hr hc
  have had : ∀ l : Letter, s.adOf l = l.compileAD := by
    intro l; unfold Session.adOf Session.needsAD; rw [q2]; rfl
  unfold Session.wireClose at h
  split at h
  · cases h
  · rename_i nonce hnon
    rw [q5] at h
    dsimp only at h
    split at h
    · cases h
    · rename_i w' hk hsend
      split at h
      · cases h
      · rename_i st1 l1 henc
        have hl : (∃ sigs, l = { l1 with signatures := sigs }) ∧ x.2 = w' := by
          obtain ⟨h1, h2⟩ := Prod.mk.inj h
          refine ⟨?_, by rw [← h1]⟩
          unfold signLetter at h2
          split at h2
          · cases h2; exact ⟨l.signatures, rfl⟩
          · simp only at h2
            split at h2
            · cases h2
            · cases h2; exact ⟨_, rfl⟩
        obtain ⟨⟨sigs, rfl⟩, hw⟩ := hl
        unfold encryptLetter at henc
        split at henc
        · cases henc
        · rename_i tools hset
          have hlen := hcl.len
          rw [q1] at hlen
          obtain ⟨o, hst⟩ := List.length_eq_one_iff.mp hlen
          obtain ⟨key, n, u', k1, k2, rfl⟩ := setup_chacha_at q1 hst hset
          simp only [Prod.mk.injEq] at henc
          obtain ⟨_, hprot⟩ := henc
          obtain ⟨r1, r2, r3⟩ := ready_chacha q1 { key := key, nonce := n, ready := true, used := u' }
          have hn : chacha.info.name = b!"CHACHA20-POLY1305" := rfl
          simp only [protect, bind_ok_iff, r1, r2, r3, runEncrypt, runSeal, runMACs, foldRes, had, hn] at hprot
          obtain ⟨d1, h1, d2, h2, m, h3, h4⟩ := hprot
          cases h1
          cases h3
          cases h4
          have hcarry : w'.sendCarry.length = hk.off ∧ P.kdf k.info.name k.hashName nonce hk.material.flatten 0 hk.off = .ok w'.sendCarry := by
            unfold sendHandshake at hsend
            split at hsend
            · cases hsend
            · split at hsend
              · cases hsend
              · rename_i hrat
                cases hsend
                obtain ⟨a, b⟩ := ratchet_place hP hrat
                rw [sent_carry]
                exact ⟨b, a⟩
          have hnon' : (wireHeader s w nonce).nonce = nonce := by unfold wireHeader; split <;> rfl
          rw [hw, hcarry.1]
          refine ⟨k, hk.material.flatten, key, n, q5, ?_, k1, k2, ?_⟩
          · simp only [hnon']; exact hcarry.2
          · split at h2
            · cases h2
            · rename_i b hb
              cases h2
              exact hb

/-! ## Encapsulated keys -/

/-- C78. A key is encapsulated exactly if it fits: the message of RSA-OAEP (RFC 8017, 7.1.1) has at most as many bytes as the modulus, less two digests and two bytes. A key that
does not fit is refused with an error, never cut. -/
theorem encapsulation_fits (P : Prims) (t : ToolInst) (key seed pub : Bytes) (rcpt : Signet) (bits : Nat) (h : HashTool)
    (hp : rcpt.loadedPub = some pub) (hb : P.rsaBits pub = some bits) (hh : t.hash = some h) (k : Nat) (hk : 8 * (k - 1) < bits) (hk' : bits ≤ 8 * k) :
    (key.length + 2 * h.digestSize + 2 ≤ k → encapsulate P t key seed rcpt = P.encap t.info.name h.name pub key seed) ∧
    (k < key.length + 2 * h.digestSize + 2 → encapsulate P t key seed rcpt = .error .config) := by
  have e : (bits + 7) / 8 = k := by omega
  unfold encapsulate
  simp only [hp, hb, hh, e]
  refine ⟨fun hle => if_neg (by omega), fun hlt => if_pos (by omega)⟩

/-! ## Examples -/

/-- A key derivation that is a stream: the byte at a position is the position. -/
def posPrims : Prims := { toyPrims with kdf := fun _ _ _ _ off size => .ok ((List.range size).map (fun i => UInt8.ofNat (off + i))) }

/-- The hypotheses are met: with three tools (a stream cipher and two MAC tools), each has its own part of the stream. -/
theorem key_stream_example :
    (match correspondence posPrims toyConfig toyWorld macRegistry (toyEnvelope b!"two" [b!"key"] [] []) with
      | .ok s =>
        match s.kdf with
        | some k =>
          match setupTools posPrims s k [1] [[1]] 0 s.stateful s.initState.tools with
          | (tools, .ok ()) => decide (s.stateful.length = 3) && decide (tools.map (fun t => t.key.length + t.nonce.length) = [48, 32, 32]) &&
              decide ((tools.map (fun t => t.key ++ t.nonce)).flatten = (List.range 112).map UInt8.ofNat)
          | _ => false
        | none => false
      | .error _ => false) = true ∧ posPrims.KdfSizes ∧
    (∀ tool hash salt material o n b, posPrims.kdf tool hash salt material o n = .ok b → ∀ i (h : i < b.length), b[i] = UInt8.ofNat (o + i)) := by
  refine ⟨by decide +kernel, ?_, ?_⟩
  · intro tool hash nonce material off size key h
    cases h
    simp
  · intro tool hash salt material o n b h i hi
    cases h
    simp

end Jess
