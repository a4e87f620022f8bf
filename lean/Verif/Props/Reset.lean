import Verif.Props.Library
import Verif.Props.Reuse
import Verif.Props.WireOrder
import Verif.Props.WireDelivery

/-!
# C89: the keys of a letter do not stay in the session's tools
-/

namespace Jess

/-- No key or nonce of a letter is left in the tools of a session, and nothing of a letter in its hashers (specification): whatever was there is
overwritten. -/
def Burned (st : SState) : Prop := (∀ t ∈ st.tools, ∀ b ∈ t.key ++ t.nonce, b = 0xFF) ∧ st.fed = []

/-- Key derivation does not fail for the first `n` bytes of the key stream (specification). HKDF gives 255 digests, at least 8160 bytes for digests of 32
bytes. -/
def Prims.KdfUpTo (P : Prims) (n : Nat) : Prop := ∀ t h nonce m off size, off + size ≤ n → ∃ b, P.kdf t h nonce m off size = .ok b

/-- The bytes that `Setup` of a tool takes from the key stream. -/
def Session.setupBytes (s : Session) (t : ToolInst) : Nat := s.toolKeySize t + if t.wantsNonce then s.toolNonceSize t else 0

/-- The bytes that the tools of a session take from the key stream for a letter. -/
def Session.letterBytes (s : Session) : Nat := (s.stateful.map s.setupBytes).sum

theorem setupTools_ok {P : Prims} {n : Nat} (hP : P.KdfUpTo n) {s : Session} {k : ToolInst} {nonce : Bytes} {m : List Bytes} :
    ∀ (ts : List ToolInst) (os : List ToolState) (off : Nat), os.length = ts.length → off + (ts.map s.setupBytes).sum ≤ n →
      ∃ r, setupTools P s k nonce m off ts os = (r, .ok ()) := by
  intro ts
  induction ts with
  | nil => intro os off _ _; exact ⟨[], by simp [setupTools]⟩
  | cons t ts ih =>
    intro os off hl hn
    match os, hl with
    | o :: os, hl =>
      simp only [List.map_cons, List.sum_cons, Session.setupBytes] at hn
      have hk : ∃ b, kdfRead P k nonce m off (s.toolKeySize t) = .ok b := hP _ _ _ _ _ _ (by omega)
      obtain ⟨key, hk⟩ := hk
      have hno : ∃ b, setupNonce P s k nonce m (off + s.toolKeySize t) t = .ok (b, off + s.setupBytes t) := by
        unfold setupNonce Session.setupBytes
        split
        · rename_i hw
          rw [if_pos hw] at hn
          have : ∃ b, kdfRead P k nonce m (off + s.toolKeySize t) (s.toolNonceSize t) = .ok b := hP _ _ _ _ _ _ (by omega)
          obtain ⟨b, hb⟩ := this
          exact ⟨b, by rw [hb]; simp [Nat.add_assoc]⟩
        · exact ⟨[], by simp⟩
      obtain ⟨b, hno⟩ := hno
      obtain ⟨r, hr⟩ := ih os (off + s.setupBytes t) (by simpa using hl) (by simp only [Session.setupBytes]; omega)
      simp only [setupTools, setupTool, hk, hno, hr]
      exact ⟨_, rfl⟩

theorem reset_burned (s : Session) (ts : List ToolState) : ∀ t ∈ s.resetTools ts, ∀ b ∈ t.key ++ t.nonce, b = 0xFF := by
  intro t ht b hb
  simp only [Session.resetTools, List.mem_map] at ht
  obtain ⟨x, _, rfl⟩ := ht
  simp only [ToolState.reset, List.mem_append, List.mem_map] at hb
  rcases hb with ⟨_, _, rfl⟩ | ⟨_, _, rfl⟩ <;> rfl

section
variable {P : Prims} {n : Nat} (hP : P.KdfUpTo n) {cfg : Config} {s : Session}
include hP

theorem encrypt_burned {st : SState} (hc : Clean s st) (k : ToolInst) (m : List Bytes) {off : Nat} (ho : off + s.letterBytes ≤ n) (l : Letter)
    (data : Bytes) : Burned (encryptLetter P s st k m off l data).1 := by
  obtain ⟨r, hr⟩ := setupTools_ok hP (k := k) (nonce := l.nonce) (m := m) s.stateful st.tools off hc.len ho
  unfold encryptLetter
  rw [hr]
  exact ⟨reset_burned s r, hc.fed⟩

theorem decrypt_burned {st : SState} (hc : Clean s st) (k : ToolInst) (m : List Bytes) {off : Nat} (ho : off + s.letterBytes ≤ n) (l : Letter) :
    Burned (decryptLetter P s st k m off l).1 := by
  obtain ⟨r, hr⟩ := setupTools_ok hP (k := k) (nonce := l.nonce) (m := m) s.stateful st.tools off hc.len ho
  unfold decryptLetter
  rw [hr]
  exact ⟨reset_burned s r, hc.fed⟩

omit hP in
theorem sign_burned {rng : Rng} {st : SState} (hb : Burned st) (ctr : Nat) (ad : Bytes) (l : Letter) : Burned (signLetter P rng s st ctr ad l).1 := by
  unfold signLetter
  split
  · exact hb
  · exact ⟨hb.1, rfl⟩

omit hP in
theorem check_burned {st : SState} (hb : Burned st) (l : Letter) : Burned (checkSignatures P s st l).1 := by
  unfold checkSignatures
  split
  · exact hb
  · exact ⟨hb.1, rfl⟩

theorem close_burned {rng : Rng} {st : SState} (hc : Clean s st) (hb : Burned st) (hn : s.letterBytes ≤ n) (data : Bytes) :
    Burned (s.close P cfg rng st data).1 := by
  unfold Session.close
  split
  · exact hb
  · rename_i nonce _
    dsimp only
    split
    · split
      · exact hb
      · exact sign_burned hb _ _ _
    · rename_i k hk
      split
      · exact hb
      · rename_i km hkm
        split
        · split
          · rename_i st' e he
            have := encrypt_burned hP hc k km.material (off := 0) (by omega) { version := s.env.version, suiteID := s.env.suiteID, nonce := nonce, keys := km.keys } data
            rw [he] at this
            exact this
          · rename_i st' l he
            have := encrypt_burned hP hc k km.material (off := 0) (by omega) { version := s.env.version, suiteID := s.env.suiteID, nonce := nonce, keys := km.keys } data
            rw [he] at this
            exact sign_burned this _ _ _
        · exact hb

theorem open_burned {st : SState} (hc : Clean s st) (hb : Burned st) (hn : s.letterBytes ≤ n) (l : Letter) : Burned (s.open P cfg st l).1 := by
  unfold Session.open
  split
  · exact hb
  · have h1 := check_burned (P := P) (s := s) hb l
    have h2 := (checkSignatures_clean (P := P) hc l).1
    split
    · rename_i he; rw [he] at h1; exact h1
    · rename_i st' he
      rw [he] at h1 h2
      split
      · split <;> exact h1
      · split
        · exact h1
        · split
          · exact decrypt_burned hP h2 _ _ (by omega) l
          · exact h1

omit hP in
theorem verify_burned {st : SState} (hb : Burned st) (l : Letter) : Burned (s.verify P st l).1 := by
  unfold Session.verify
  split
  · exact hb
  · split
    · exact hb
    · exact check_burned hb l

end

/-- The state of a session after a sequence of operations. -/
def stateAfter (P : Prims) (cfg : Config) (s : Session) (ops : List Op) : SState := ops.foldl (fun st op => (runOp P cfg s st op).1) s.initState

theorem init_burned (s : Session) : Burned s.initState := by
  refine ⟨?_, rfl⟩
  intro t ht
  simp only [Session.initState, List.mem_map] at ht
  obtain ⟨_, _, rfl⟩ := ht
  intro b hb
  cases hb

theorem run_burned {P : Prims} {n : Nat} (hP : P.KdfUpTo n) (cfg : Config) (s : Session) (hn : s.letterBytes ≤ n) (ops : List Op) :
    Burned (stateAfter P cfg s ops) := by
  have : ∀ st, Clean s st → Burned st → Burned (ops.foldl (fun st op => (runOp P cfg s st op).1) st) := by
    induction ops with
    | nil => intro st _ h; exact h
    | cons op ops ih =>
      intro st hc hb
      refine ih _ (runOp_clean P cfg s st hc op).1 ?_
      cases op with
      | close rng data => exact close_burned hP hc hb hn data
      | «open» l => exact open_burned hP hc hb hn l
      | verify l => exact verify_burned hb l
  exact this _ (clean_init s) (init_burned s)

/-- The tools of the suites of the library take at most 44 bytes of the key stream. -/
theorem library_letter_bytes {P : Prims} {cfg : Config} {s : Session} (hs : newSession P cfg s.env = .ok s) (hr : s.suite ∈ suiteRegistry) :
    s.letterBytes ≤ 44 := by
  have hreg : ∀ su ∈ suiteRegistry, (∀ t ∈ (instsOf su).filter (fun t => t.info.hasState), t.info.keySize > 0 ∧ t.info.nonceSize > 0) ∧
      (((instsOf su).filter (fun t => t.info.hasState)).map (fun t => t.info.keySize + if t.wantsNonce then t.info.nonceSize else 0)).sum ≤ 44 := by
    decide +kernel
  obtain ⟨h1, h2⟩ := hreg _ hr
  unfold Session.letterBytes Session.stateful
  rw [session_insts hs]
  refine Nat.le_trans (Nat.le_of_eq (congrArg List.sum (List.map_congr_left ?_))) h2
  intro t ht
  obtain ⟨a, b⟩ := h1 t ht
  simp only [Session.setupBytes, Session.toolKeySize, Session.toolNonceSize, if_pos a, if_pos b]

/-- C89. After any sequence of closing, opening and verifying letters with a session of a caller, whether they succeeded or not, no key or nonce of a
letter is left in its tools and nothing in its hashers. -/
theorem session_keys_burned (P : Prims) (hP : P.KdfUpTo 8160) (cfg : Config) (w : World) (e : Envelope) (he : e.suite = none) (s : Session)
    (hs : correspondence P cfg w suiteRegistry e = .ok s) (ops : List Op) : Burned (stateAfter P cfg s ops) := by
  have L := library_session he hs
  have := library_letter_bytes L.made L.mem
  exact run_burned hP cfg s (by omega) ops

/-! ## Wire sessions -/

/-- A wire session between two operations: clean, and its keys for the next letters are not longer than the key size. -/
structure Rested (s : Session) (q : SState × Wire) : Prop where
  clean : Clean s q.1
  burned : Burned q.1
  sendCarry : q.2.sendCarry.length ≤ s.keySize
  recvCarry : q.2.recvCarry.length ≤ s.keySize

theorem ratchet_size {P : Prims} (hZ : P.KdfSized) {s : Session} {k : ToolInst} {i : Nat} {carry nonce c : Bytes} {m mat : List Bytes} {off : Nat}
    (hc : carry.length ≤ s.keySize) (h : ratchet P s k i carry nonce m = .ok (c, mat, off)) : off ≤ s.keySize ∧ c.length ≤ s.keySize := by
  unfold ratchet at h
  split at h
  · split at h
    · cases h
    · split at h
      · split at h
        · cases h
        · rename_i hk
          cases h
          exact ⟨Nat.le_refl _, Nat.le_of_eq (hZ _ _ _ _ _ _ _ hk)⟩
      · cases h
  · split at h
    · split at h
      · cases h
      · rename_i hk
        cases h
        exact ⟨hc, by rw [hZ _ _ _ _ _ _ _ hk]; exact hc⟩
    · cases h

theorem Wire.burn_carry (w : Wire) : w.burn.sendCarry = w.sendCarry ∧ w.burn.recvCarry = w.recvCarry := ⟨rfl, rfl⟩

section
variable {P : Prims} {n : Nat} (hP : P.KdfUpTo n) (hZ : P.KdfSized) {cfg : Config} {s : Session} (hn : s.keySize + s.letterBytes ≤ n)
include hP hZ hn

theorem wireClose_rested {rng : Rng} {q : SState × Wire} (hq : Rested s q) (data : Bytes) : Rested s (s.wireClose P cfg rng q.1 q.2 data).1 := by
  obtain ⟨hc, hb, h1, h2⟩ := hq
  unfold Session.wireClose
  split
  · exact ⟨hc, hb, h1, h2⟩
  · split
    · split
      · exact ⟨hc, hb, h1, h2⟩
      · exact ⟨(signLetter_clean hc _ _ _).1, sign_burned hb _ _ _, h1, h2⟩
    · rename_i nonce _ _ k _
      have hw : ∀ w' r, sendHandshake P cfg rng s k q.2 nonce = (w', r) → w'.sendCarry.length ≤ s.keySize ∧ w'.recvCarry.length ≤ s.keySize ∧
          ∀ h, r = .ok h → h.off ≤ s.keySize := by
        intro w' r hsh
        unfold sendHandshake at hsh
        obtain ⟨_, f2, f3⟩ := sendSwitch_frame (P := P) (cfg := cfg) (s := s) (rng := rng) (w := q.2) (nonce := nonce)
        split at hsh
        · rename_i w1 e hx
          cases hsh
          rw [hx] at f2 f3
          exact ⟨by rw [f2]; exact h1, by rw [f3]; exact h2, fun h hh => (by cases hh)⟩
        · rename_i w1 out hx
          rw [hx] at f2 f3
          simp only at f2 f3
          split at hsh
          · cases hsh
            exact ⟨by rw [f2]; exact h1, by rw [f3]; exact h2, fun h hh => (by cases hh)⟩
          · rename_i c mat off hr
            cases hsh
            obtain ⟨g1, g2⟩ := ratchet_size hZ (by rw [f2]; exact h1) hr
            refine ⟨?_, ?_, fun h hh => (by cases hh; exact g1)⟩
            · unfold Wire.sent
              dsimp only
              split <;> exact g2
            · unfold Wire.sent
              dsimp only
              split <;> (first | rw [(Wire.burn_carry _).2] | skip) <;> dsimp only <;> split <;> first | exact g2 | (rw [f3]; exact h2)
      split
      · rename_i hsh
        obtain ⟨a, b, _⟩ := hw _ _ hsh
        exact ⟨hc, hb, a, b⟩
      · rename_i w' h hsh
        obtain ⟨a, b, c⟩ := hw _ _ hsh
        have ho := c h rfl
        have e1 := encrypt_burned hP hc k h.material (off := h.off) (by omega) { wireHeader s q.2 nonce with keys := h.keys, applyKeys := h.apply } data
        have e2 := (encryptLetter_clean (P := P) hc k h.material h.off { wireHeader s q.2 nonce with keys := h.keys, applyKeys := h.apply } data).1
        split
        · rename_i he; rw [he] at e1 e2; exact ⟨e2, e1, a, b⟩
        · rename_i he; rw [he] at e1 e2; exact ⟨(signLetter_clean e2 _ _ _).1, sign_burned e1 _ _ _, a, b⟩

theorem wireOpen_rested {q : SState × Wire} (hq : Rested s q) (l : Letter) : Rested s (s.wireOpen P cfg q.1 q.2 l).1 := by
  obtain ⟨hc, hb, h1, h2⟩ := hq
  unfold Session.wireOpen
  have c1 := check_burned (P := P) (s := s) hb l
  have c2 := (checkSignatures_clean (P := P) hc l).1
  split
  · rename_i he; rw [he] at c1 c2; exact ⟨c2, c1, h1, h2⟩
  · rename_i st' he
    rw [he] at c1 c2
    split
    · split <;> exact ⟨c2, c1, h1, h2⟩
    · rename_i k _
      have hw : ∀ w' r, recvHandshake P cfg s k q.2 l = (w', r) → w'.sendCarry.length ≤ s.keySize ∧ w'.recvCarry.length ≤ s.keySize ∧
          ∀ h, r = .ok h → h.2 ≤ s.keySize := by
        intro w' r hsh
        unfold recvHandshake at hsh
        obtain ⟨_, f2, f3⟩ := recvSwitch_frame (P := P) (cfg := cfg) (s := s) (w := q.2) (l := l)
        split at hsh
        · rename_i w1 e hx
          cases hsh
          rw [hx] at f2 f3
          exact ⟨by rw [f2]; exact h1, by rw [f3]; exact h2, fun h hh => (by cases hh)⟩
        · rename_i w1 m burn hx
          rw [hx] at f2 f3
          simp only at f2 f3
          split at hsh
          · cases hsh
            exact ⟨by rw [f2]; exact h1, by rw [f3]; exact h2, fun h hh => (by cases hh)⟩
          · rename_i c mat off hr
            cases hsh
            obtain ⟨g1, g2⟩ := ratchet_size hZ (by rw [f3]; exact h2) hr
            refine ⟨?_, ?_, fun h hh => (by cases hh; exact g1)⟩
            · unfold Wire.received
              dsimp only
              split <;> (first | rw [(Wire.burn_carry _).1] | skip) <;> dsimp only <;> split <;> first | exact g2 | (rw [f2]; exact h1)
            · unfold Wire.received
              dsimp only
              split <;> exact g2
      split
      · rename_i hsh
        obtain ⟨a, b, _⟩ := hw _ _ hsh
        exact ⟨c2, c1, a, b⟩
      · rename_i w' material off hsh
        obtain ⟨a, b, c⟩ := hw _ _ hsh
        have ho := c (material, off) rfl
        simp only at ho
        exact ⟨(decryptLetter_clean c2 _ _ _ _).1, decrypt_burned hP c2 _ _ (by omega) _, a, b⟩

end

/-- C89 for wire sessions: at every moment of the history of a party between two operations, the tools hold no key or nonce of a letter. -/
theorem wire_keys_burned (P : Prims) (hP : P.KdfUpTo 8160) (hZ : P.KdfSized) (cfg : Config) (s : Session) (B : WireOf P cfg s) (hk : s.keySize ≤ 8000)
    (b : Bool) (ls : List Letter) (q : SState × Wire) (h : History (P := P) (cfg := cfg) (s := s) (s.initState, { server := b }) ls q) : Burned q.1 := by
  have hb := library_letter_bytes B.session B.registered
  have : Rested s q := by
    induction h with
    | start => exact ⟨clean_init s, init_burned s, Nat.zero_le _, Nat.zero_le _⟩
    | sent rng data _ hq ih => have := wireClose_rested hP hZ (cfg := cfg) (rng := rng) (by omega) ih data; rw [hq] at this; exact this
    | failed rng data _ hq ih => have := wireClose_rested hP hZ (cfg := cfg) (rng := rng) (by omega) ih data; rw [hq] at this; exact this
    | opened l _ hq ih => have := wireOpen_rested hP hZ (cfg := cfg) (by omega) ih l; rw [hq] at this; exact this
  exact this.burned

theorem toy_kdf_total : toyPrims.KdfUpTo 8160 := by
  intro t h nonce m off size _
  exact ⟨_, rfl⟩

/-- The hypotheses are met, and there is something to burn: a session closes a letter and opens it, and its tool is left with 32 and 12 bytes of 0xFF. -/
theorem keys_burned_example : toyPrims.KdfUpTo 8160 ∧ (match correspondence toyPrims toyConfig toyWorld suiteRegistry (toyEnvelope b!"key_v2" [b!"key"] [] []) with
    | .ok s =>
      match (s.close toyPrims toyConfig toyRng s.initState b!"hello").2 with
      | .ok l => decide ((stateAfter toyPrims toyConfig s [.close toyRng b!"hello", .open l, .verify l, .open { l with data := [] }]).tools =
          [{ key := List.replicate 32 0xFF, nonce := List.replicate 12 0xFF }])
      | .error _ => false
    | .error _ => false) = true := ⟨toy_kdf_total, by decide +kernel⟩

end Jess
