import Verif.Props.WireAttacks

/-!
# C21: a wire session accepts the letters of its peer in order, each once, and none after a lost one
-/

namespace Jess

open Requirements

/-! ## Specification -/

/-- What happens to one party of a wire session: it sends (`Close` is called), or it is given a letter (`Open` is called). -/
inductive WEvent where
  | sent (data : Bytes) (r : Res Letter)
  | opened (l : Letter) (r : Res Bytes)

/-- The letters a party has sent, with the data. -/
def sentIn (es : List WEvent) : List (Letter × Bytes) :=
  es.filterMap (fun e => match e with | .sent d (.ok l) => some (l, d) | _ => none)

/-- The letters a party was given. -/
def givenIn (es : List WEvent) : List Letter :=
  es.filterMap (fun e => match e with | .opened l _ => some l | _ => none)

/-- The letters a party has accepted, with the data `Open` returned. -/
def acceptedIn (es : List WEvent) : List (Letter × Bytes) :=
  es.filterMap (fun e => match e with | .opened l (.ok d) => some (l, d) | _ => none)

/-- An input of the key derivation: nonce and (concatenated) key material. -/
abbrev KeyInput := Bytes × Bytes

/-- The input of the key derivation when sending (none if it fails before). -/
def sendInput (P : Prims) (cfg : Config) (rng : Rng) (s : Session) (w : Wire) : List KeyInput :=
  match randomBytes rng 0 s.nonceSize with
  | .error _ => []
  | .ok nonce =>
    match sendSwitch P cfg rng s w nonce with
    | (_, .error _) => []
    | (w, .ok out) => [(nonce, if w.msgNo = 0 then out.material.flatten else (out.material ++ [w.sendCarry]).flatten)]

/-- The input of the key derivation when opening a letter (none if it fails before). -/
def openInput (P : Prims) (cfg : Config) (s : Session) (w : Wire) (l : Letter) : List KeyInput :=
  match recvSwitch P cfg s w l with
  | (_, .error _) => []
  | (w, .ok (m, _)) => [(l.nonce, if w.msgNo = 0 then m.flatten else (m ++ [w.recvCarry]).flatten)]

/-- A run of one party from state `p` to state `q`: what it did, and the inputs of the key derivation on the way. Sends and opens
may succeed or fail, with any data, random numbers and letters. -/
inductive PartyRun (P : Prims) (cfg : Config) (s : Session) (p : SState × Wire) : List WEvent → List KeyInput → SState × Wire → Prop
  | start : PartyRun P cfg s p [] [] p
  | send {es : List WEvent} {xs : List KeyInput} {q q' : SState × Wire} {r : Res Letter} (rng : Rng) (data : Bytes) :
      PartyRun P cfg s p es xs q → s.wireClose P cfg rng q.1 q.2 data = (q', r) →
      PartyRun P cfg s p (es ++ [.sent data r]) (xs ++ sendInput P cfg rng s q.2) q'
  | open {es : List WEvent} {xs : List KeyInput} {q q' : SState × Wire} {r : Res Bytes} (l : Letter) :
      PartyRun P cfg s p es xs q → s.wireOpen P cfg q.1 q.2 l = (q', r) →
      PartyRun P cfg s p (es ++ [.opened l r]) (xs ++ openInput P cfg s q.2 l) q'

/-- Key derivation. -/
def derive (P : Prims) (k : ToolInst) (x : KeyInput) (off size : Nat) : Res Bytes := P.kdf k.info.name k.hashName x.1 x.2 off size

/-- The data of the letter is an authentic cipher text of `d` for the letter's other fields under the key and nonce which are
derived (at the offset `off`) from the input `x`. -/
def OpensUnder (P : Prims) (k : ToolInst) (off : Nat) (x : KeyInput) (l : Letter) (d : Bytes) : Prop :=
  ∃ key n, derive P k x off 32 = .ok key ∧ derive P k x (off + 32) 12 = .ok n ∧
    P.aeadOpen b!"CHACHA20-POLY1305" key n l.compileAD l.data = .ok d

/-- "Ideal crypto" for one conversation: `x0` is the input of the key derivation for the first letter, `xs` are all inputs after that,
`ls` are the letters that are sent, and `size` is the size of the keys. Different inputs give different next keys, `x0` is not an
input again, and no letter opens under the keys of two different inputs. (This is not a condition for all inputs: it speaks of the
values that occur.) -/
structure NoBreak (P : Prims) (k : ToolInst) (size : Nat) (x0 : KeyInput) (xs : List KeyInput) (ls : List Letter) : Prop where
  next : ∀ x ∈ x0 :: xs, ∀ y ∈ x0 :: xs, ∀ c, derive P k x 0 size = .ok c → derive P k y 0 size = .ok c → x = y
  fresh : x0 ∉ xs
  letters : ∀ l ∈ ls, ∀ x ∈ x0 :: xs, ∀ y ∈ x0 :: xs, ∀ d d', OpensUnder P k size x l d → OpensUnder P k size y l d' → x = y

/-- Key derivation returns as many bytes as are asked for. -/
def Prims.KdfSized (P : Prims) : Prop := ∀ t h n m off size b, P.kdf t h n m off size = .ok b → b.length = size

/-! ## Decryption -/

section
variable {P : Prims} {pair : Bytes → Bytes → Bytes → Prop} {cfg : Config} {s : Session} {k : ToolInst}

theorem setup_chacha_off {nonce : Bytes} {m : List Bytes} {off : Nat} {o : ToolState} (hst : s.stateful = [chacha]) :
    (∀ key n, P.kdf k.info.name k.hashName nonce m.flatten off 32 = .ok key → P.kdf k.info.name k.hashName nonce m.flatten (off + 32) 12 = .ok n →
      setupTools P s k nonce m off s.stateful [o] = ([{ key := key, nonce := n, ready := true, used := o.used }], .ok ())) ∧
    (∀ tools, setupTools P s k nonce m off s.stateful [o] = (tools, .ok ()) →
      ∃ key n, P.kdf k.info.name k.hashName nonce m.flatten off 32 = .ok key ∧ P.kdf k.info.name k.hashName nonce m.flatten (off + 32) 12 = .ok n) := by
  have hw : chacha.wantsNonce = true := by decide
  have hks : s.toolKeySize chacha = 32 := rfl
  have hns : s.toolNonceSize chacha = 12 := rfl
  rw [hst]
  simp only [setupTools, setupTool, setupNonce, hw, if_true, hks, hns, kdfRead]
  constructor
  · intro key n h1 h2
    rw [h1]
    simp only
    rw [h2]
  · intro tools h
    cases h1 : P.kdf k.info.name k.hashName nonce m.flatten off 32 with
    | error e => rw [h1] at h; simp at h
    | ok key =>
      rw [h1] at h
      simp only at h
      cases h2 : P.kdf k.info.name k.hashName nonce m.flatten (off + 32) 12 with
      | error e => rw [h2] at h; simp at h
      | ok n => exact ⟨key, n, rfl, rfl⟩

/-- Decryption succeeds exactly if the letter opens under the input of the key derivation. -/
theorem decrypt_iff (h1 : s.stateful = [chacha]) (h2 : s.queue .integratedCipher = [chacha]) (h4 : s.queue .mac = []) {st : SState}
    (hc : Clean s st) {mat : List Bytes} {off : Nat} {l : Letter} {d : Bytes} :
    (decryptLetter P s st k mat off l).2 = .ok d ↔ OpensUnder P k off (l.nonce, mat.flatten) l d := by
  have hlen := hc.len
  rw [h1] at hlen
  obtain ⟨o, hst⟩ := List.length_eq_one_iff.mp hlen
  have had : s.adOf l = l.compileAD := by
    unfold Session.adOf Session.needsAD; rw [h2]; rfl
  have hcha : chacha.info.name = b!"CHACHA20-POLY1305" := rfl
  have hun : ∀ key n u, unprotect P s [{ key := key, nonce := n, ready := true, used := u }] l = .ok d ↔
      P.aeadOpen b!"CHACHA20-POLY1305" key n l.compileAD l.data = .ok d := by
    intro key n u
    obtain ⟨r1, r2, r3⟩ := ready_chacha h1 { key := key, nonce := n, ready := true, used := u }
    simp only [unprotect, r1, r2, r3, h4, runMACs, foldRes, ok_bind, List.isEmpty_nil, Bool.not_true, Bool.false_and,
      Bool.false_eq_true, if_false, runUnseal, List.reverse_cons, List.reverse_nil, List.nil_append, openOne, runDecrypt, had, hcha]
    cases ha : P.aeadOpen b!"CHACHA20-POLY1305" key n l.compileAD l.data with
    | ok x => simp only [ok_bind]
    | error e => cases e <;> simp [error_bind]
  unfold decryptLetter
  rw [hst]
  constructor
  · intro h
    generalize hset : setupTools P s k l.nonce mat off s.stateful [o] = x at h
    obtain ⟨tools, r⟩ := x
    cases r with
    | error e => cases h
    | ok u =>
      obtain ⟨key, n, k1, k2⟩ := (setup_chacha_off h1).2 tools hset
      have := (setup_chacha_off (o := o) h1).1 key n k1 k2
      rw [hset] at this
      simp only [Prod.mk.injEq] at this
      rw [this.1] at h
      exact ⟨key, n, k1, k2, (hun _ _ _).mp h⟩
  · rintro ⟨key, n, k1, k2, h⟩
    rw [(setup_chacha_off h1).1 key n k1 k2]
    exact (hun _ _ _).mpr h

/-! ## Frames -/

theorem initiate_frame {rng : Rng} {w : Wire} {km : KM} : (initiate P rng w km).1.msgNo = w.msgNo ∧
    (initiate P rng w km).1.sendCarry = w.sendCarry ∧ (initiate P rng w km).1.recvCarry = w.recvCarry := by
  unfold initiate
  repeat' split
  all_goals exact ⟨rfl, rfl, rfl⟩

theorem complete_frame {rng : Rng} {w : Wire} : (complete P rng s w).1.msgNo = w.msgNo ∧
    (complete P rng s w).1.sendCarry = w.sendCarry ∧ (complete P rng s w).1.recvCarry = w.recvCarry := by
  unfold complete
  repeat' split
  all_goals exact ⟨rfl, rfl, rfl⟩

theorem sendSwitch_frame {rng : Rng} {w : Wire} {nonce : Bytes} : (sendSwitch P cfg rng s w nonce).1.msgNo = w.msgNo ∧
    (sendSwitch P cfg rng s w nonce).1.sendCarry = w.sendCarry ∧ (sendSwitch P cfg rng s w nonce).1.recvCarry = w.recvCarry := by
  unfold sendSwitch
  split
  · split
    · exact ⟨rfl, rfl, rfl⟩
    · rename_i x _
      exact initiate_frame (w := { w with kx := x.kx, ke := x.ke })
  · exact initiate_frame
  · exact complete_frame
  all_goals exact ⟨rfl, rfl, rfl⟩

theorem recvOffer_frame {w : Wire} {l : Letter} : (recvOffer s w l).1.msgNo = w.msgNo ∧
    (recvOffer s w l).1.sendCarry = w.sendCarry ∧ (recvOffer s w l).1.recvCarry = w.recvCarry := by
  unfold recvOffer
  repeat' split
  all_goals exact ⟨rfl, rfl, rfl⟩

theorem recvAnswer_frame {w : Wire} {l : Letter} : (recvAnswer P w l).1.msgNo = w.msgNo ∧
    (recvAnswer P w l).1.sendCarry = w.sendCarry ∧ (recvAnswer P w l).1.recvCarry = w.recvCarry := by
  unfold recvAnswer
  repeat' split
  all_goals exact ⟨rfl, rfl, rfl⟩

theorem recvSwitch_frame {w : Wire} {l : Letter} : (recvSwitch P cfg s w l).1.msgNo = w.msgNo ∧
    (recvSwitch P cfg s w l).1.sendCarry = w.sendCarry ∧ (recvSwitch P cfg s w l).1.recvCarry = w.recvCarry := by
  unfold recvSwitch
  split
  · split
    · exact ⟨rfl, rfl, rfl⟩
    · rename_i x _
      have := recvOffer_frame (s := s) (w := { w with kx := x.kx, ke := x.ke }) (l := l)
      split <;> (rename_i h; rw [h] at this; exact this)
  · have := recvOffer_frame (s := s) (w := w) (l := l)
    split <;> (rename_i h; rw [h] at this; exact this)
  · have := recvAnswer_frame (P := P) (w := w) (l := l)
    split <;> (rename_i h; rw [h] at this; exact this)
  · split <;> exact ⟨rfl, rfl, rfl⟩
  all_goals exact ⟨rfl, rfl, rfl⟩

theorem sent_frame (w : Wire) (hn : w.msgNo ≠ 0) (c : Bytes) (b : Bool) : (w.sent c b).msgNo ≠ 0 ∧ (w.sent c b).sendCarry = c ∧
    (w.sent c b).recvCarry = w.recvCarry := by
  cases b <;> simp [Wire.sent, Wire.burn, hn]

theorem received_frame (w : Wire) (hn : w.msgNo ≠ 0) (c : Bytes) (b : Bool) : (w.received c b).msgNo ≠ 0 ∧
    (w.received c b).recvCarry = c ∧ (w.received c b).sendCarry = w.sendCarry := by
  cases b <;> simp [Wire.received, Wire.burn, hn]


/-! ## Steps -/

/-- The tools of a wire session of the library. -/
structure WireTools (s : Session) (k : ToolInst) : Prop where
  kdf : s.kdf = some k
  signing : s.queue .signing = []
  stateful : s.stateful = [chacha]
  aead : s.queue .integratedCipher = [chacha]
  mac : s.queue .mac = []

theorem registered_encrypts : ∀ su ∈ suiteRegistry, (∃ i ∈ instsOf su, Confidentiality ∈ providedBy i.info.purpose) →
    Confidentiality ∈ su.provides := by decide +kernel

theorem WireOf.tools (B : WireOf P cfg s) : ∃ k, WireTools s k := by
  have hR : Confidentiality ∈ s.reqs := (initWire_spec B.wire).2.1 _ (by decide)
  have hS : SessionHas s Confidentiality := by
    obtain ⟨suite, is, lv, _, _, _, _, _, _, _, _, _, hs, _⟩ := (newSession_ok_iff P cfg s.env s).mp B.session
    rw [hs] at hR ⊢
    exact (mkSession_reqs _ _ _ _ _ _).mp hR
  have hp : Confidentiality ∈ s.suite.provides := by
    rcases hS with h | ⟨_, h | h⟩
    · rw [session_insts B.session] at h
      exact registered_encrypts _ B.registered h
    · cases h
    · cases h
  obtain ⟨q1, q2, q3, q4, k, q5⟩ := encrypting_session B.session B.registered hp
  exact ⟨k, q5, (initWire_spec B.wire).2.2.1, q1, q2, q4⟩

theorem WireTools.env {k : ToolInst} (T : WireTools s k) (eo : Envelope) : WireTools { s with env := eo } k :=
  ⟨T.kdf, T.signing, T.stateful, T.aead, T.mac⟩

theorem ratchet_next {n : Nat} (hn : n ≠ 0) {carry nonce c : Bytes} {m mat : List Bytes} {off : Nat}
    (h : ratchet P s k n carry nonce m = .ok (c, mat, off)) :
    mat = m ++ [carry] ∧ off = carry.length ∧ derive P k (nonce, (m ++ [carry]).flatten) 0 carry.length = .ok c := by
  unfold ratchet at h
  rw [if_neg hn] at h
  split at h
  · split at h
    · cases h
    · rename_i c' hc
      cases h
      exact ⟨rfl, rfl, hc⟩
  · cases h

/-- What a call of `Close` does to the sending key. -/
theorem close_step (hP : P.Correct pair) (T : WireTools s k) {rng : Rng} {st : SState} {w : Wire} {data : Bytes} {q : SState × Wire}
    {r : Res Letter} (hc : Clean s st) (hn : w.msgNo ≠ 0) (h : s.wireClose P cfg rng st w data = (q, r)) :
    Clean s q.1 ∧ q.2.msgNo ≠ 0 ∧ q.2.recvCarry = w.recvCarry ∧
    ((q.2.sendCarry = w.sendCarry ∧ ∀ l, r ≠ .ok l) ∨
      ∃ x m, x ∈ sendInput P cfg rng s w ∧ x.2 = m ++ w.sendCarry ∧ derive P k x 0 w.sendCarry.length = .ok q.2.sendCarry ∧
        ∀ l, r = .ok l → l.nonce = x.1 ∧ OpensUnder P k w.sendCarry.length x l data) := by
  unfold Session.wireClose at h
  unfold sendInput
  split at h
  · cases h
    exact ⟨hc, hn, rfl, Or.inl ⟨rfl, fun l hl => (by cases hl)⟩⟩
  · rename_i nonce hno
    rw [hno]
    simp only
    rw [T.kdf] at h
    simp only [sendHandshake] at h
    have hf := sendSwitch_frame (P := P) (cfg := cfg) (s := s) (rng := rng) (w := w) (nonce := nonce)
    generalize hsw : sendSwitch P cfg rng s w nonce = y at h hf
    obtain ⟨w1, ro⟩ := y
    simp only at hf
    cases ro with
    | error e =>
      cases h
      refine ⟨hc, ?_, hf.2.2, Or.inl ⟨hf.2.1, fun l hl => (by cases hl)⟩⟩
      rw [hf.1]; exact hn
    | ok out =>
      simp only at h
      have hn1 : w1.msgNo ≠ 0 := by rw [hf.1]; exact hn
      cases hr : ratchet P s k w1.msgNo w1.sendCarry nonce out.material with
      | error e =>
        rw [hr] at h
        cases h
        exact ⟨hc, hn1, hf.2.2, Or.inl ⟨hf.2.1, fun l hl => (by cases hl)⟩⟩
      | ok y =>
        obtain ⟨c, mat, off⟩ := y
        rw [hr] at h
        simp only at h
        obtain ⟨rfl, rfl, hd⟩ := ratchet_next hn1 hr
        obtain ⟨f1, f2, f3⟩ := sent_frame w1 hn1 c out.burn
        rw [hf.2.1] at hd
        generalize henc : encryptLetter P s st k (out.material ++ [w1.sendCarry]) w1.sendCarry.length
          { wireHeader s w nonce with keys := out.keys, applyKeys := out.apply } data = z at h
        have hcl := (encryptLetter_clean (P := P) hc k (out.material ++ [w1.sendCarry]) w1.sendCarry.length
          { wireHeader s w nonce with keys := out.keys, applyKeys := out.apply } data).1
        rw [henc] at hcl
        obtain ⟨st1, r2⟩ := z
        simp only at hcl
        have hx : (nonce, (out.material ++ [w.sendCarry]).flatten) ∈
            (match ((w1, .ok out) : Wire × Res SendOut) with
            | (_, .error _) => []
            | (w, .ok out) => [(nonce, if w.msgNo = 0 then out.material.flatten else (out.material ++ [w.sendCarry]).flatten)]) := by
          simp only [if_neg hn1, List.mem_singleton, hf.2.1]
        have hfl : (out.material ++ [w.sendCarry]).flatten = out.material.flatten ++ w.sendCarry := by simp
        cases r2 with
        | error e =>
          cases h
          refine ⟨hcl, f1, by rw [f3]; exact hf.2.2, Or.inr ⟨_, _, hx, hfl, by rw [f2]; exact hd, fun l hl => (by cases hl)⟩⟩
        | ok l1 =>
          simp only [signLetter, T.signing, List.isEmpty_nil, if_true, Prod.mk.injEq] at h
          obtain ⟨rfl, rfl⟩ := h
          refine ⟨hcl, f1, by rw [f3]; exact hf.2.2, Or.inr ⟨_, _, hx, hfl, by rw [f2]; exact hd, ?_⟩⟩
          intro l hl
          cases hl
          obtain ⟨⟨d, m, hl⟩, hse, _⟩ := encryptLetter_sealed hP hc henc
          have hln : l1.nonce = nonce := by rw [hl]; unfold wireHeader; split <;> rfl
          refine ⟨hln, ?_⟩
          have := (decrypt_iff T.stateful T.aead T.mac hc).mp (hse s.env st hc)
          rw [hln, hf.2.1] at this
          exact this

/-- What a call of `Open` does to the receiving key. -/
theorem open_step (T : WireTools s k) {st : SState} {w : Wire} {l : Letter} {q : SState × Wire}
    {r : Res Bytes} (hc : Clean s st) (hn : w.msgNo ≠ 0) (h : s.wireOpen P cfg st w l = (q, r)) :
    Clean s q.1 ∧ q.2.msgNo ≠ 0 ∧ q.2.sendCarry = w.sendCarry ∧
    ((q.2.recvCarry = w.recvCarry ∧ ∀ d, r ≠ .ok d) ∨
      ∃ x m, x ∈ openInput P cfg s w l ∧ x.1 = l.nonce ∧ x.2 = m ++ w.recvCarry ∧ derive P k x 0 w.recvCarry.length = .ok q.2.recvCarry ∧
        ∀ d, r = .ok d ↔ OpensUnder P k w.recvCarry.length x l d) := by
  unfold Session.wireOpen at h
  unfold openInput
  simp only [checkSignatures, T.signing, List.isEmpty_nil, if_true, T.kdf, recvHandshake] at h
  have hf := recvSwitch_frame (P := P) (cfg := cfg) (s := s) (w := w) (l := l)
  generalize hsw : recvSwitch P cfg s w l = y at h hf
  obtain ⟨w1, ro⟩ := y
  simp only at hf
  have hn1 : w1.msgNo ≠ 0 := by rw [hf.1]; exact hn
  cases ro with
  | error e =>
    cases h
    exact ⟨hc, hn1, hf.2.1, Or.inl ⟨hf.2.2, fun l hl => (by cases hl)⟩⟩
  | ok out =>
    obtain ⟨m, burn⟩ := out
    simp only at h
    cases hr : ratchet P s k w1.msgNo w1.recvCarry l.nonce m with
    | error e =>
      rw [hr] at h
      cases h
      exact ⟨hc, hn1, hf.2.1, Or.inl ⟨hf.2.2, fun l hl => (by cases hl)⟩⟩
    | ok y =>
      obtain ⟨c, mat, off⟩ := y
      rw [hr] at h
      simp only [Prod.mk.injEq] at h
      obtain ⟨rfl, rfl⟩ := h
      obtain ⟨rfl, rfl, hd⟩ := ratchet_next hn1 hr
      obtain ⟨f1, f2, f3⟩ := received_frame w1 hn1 c burn
      have hcl := (decryptLetter_clean (P := P) hc k (m ++ [w1.recvCarry]) w1.recvCarry.length l).1
      rw [hf.2.2] at hd
      have hfl : (m ++ [w.recvCarry]).flatten = m.flatten ++ w.recvCarry := by simp
      refine ⟨hcl, f1, by rw [f3]; exact hf.2.1, Or.inr ⟨(l.nonce, (m ++ [w.recvCarry]).flatten), _, ?_, rfl, hfl, by rw [f2]; exact hd, ?_⟩⟩
      · simp only [if_neg hn1, List.mem_singleton, hf.2.2]
      · intro d
        rw [decrypt_iff T.stateful T.aead T.mac hc, hf.2.2]

/-! ## Chains of keys -/

variable (P k) in
/-- The keys that follow each other from `c0`. -/
inductive Ratcheted (c0 : Bytes) : List KeyInput → Bytes → Prop
  | nil : Ratcheted c0 [] c0
  | snoc {xs : List KeyInput} {c c' m : Bytes} {x : KeyInput} : Ratcheted c0 xs c → x.2 = m ++ c → derive P k x 0 c0.length = .ok c' →
      Ratcheted c0 (xs ++ [x]) c'

theorem Ratcheted.len (hS : P.KdfSized) {c0 c : Bytes} {xs : List KeyInput} (h : Ratcheted P k c0 xs c) : c.length = c0.length := by
  cases h with
  | nil => rfl
  | snoc _ _ h => exact hS _ _ _ _ _ _ _ h

theorem Ratcheted.unique (hS : P.KdfSized) {x0 : KeyInput} {c0 c : Bytes} {all : List KeyInput} {ls : List Letter}
    (hB : NoBreak P k c0.length x0 all ls) (h0 : derive P k x0 0 c0.length = .ok c0) {xs ys : List KeyInput}
    (hx : Ratcheted P k c0 xs c) (hy : Ratcheted P k c0 ys c) (hxa : ∀ x ∈ xs, x ∈ all) (hya : ∀ y ∈ ys, y ∈ all) : xs = ys := by
  have hstart : ∀ x ∈ all, derive P k x 0 c0.length ≠ .ok c0 := by
    intro x hx h
    have := hB.next x0 (by simp) x (by simp [hx]) _ h0 h
    rw [this] at hB
    exact hB.fresh hx
  induction hx generalizing ys with
  | nil =>
    cases hy with
    | nil => rfl
    | snoc _ _ h => exact absurd h (hstart _ (hya _ (by simp)))
  | snoc h1 h2 h3 ih =>
    cases hy with
    | nil => exact absurd h3 (hstart _ (hxa _ (by simp)))
    | snoc g1 g2 g3 =>
      have e := hB.next _ (List.mem_cons_of_mem _ (hxa _ (by simp))) _ (List.mem_cons_of_mem _ (hya _ (by simp))) _ h3 g3
      subst e
      rw [h2] at g2
      have hc := (List.append_inj' g2 (by rw [h1.len hS, g1.len hS])).2
      subst hc
      rw [ih g1 (fun x hx => hxa x (by simp [hx])) (fun x hx => hya x (by simp [hx]))]

/-- The start of a chain. -/
theorem Ratcheted.take {c0 c : Bytes} {xs ys : List KeyInput} {x : KeyInput} (h : Ratcheted P k c0 (xs ++ x :: ys) c) :
    ∃ c1 m, Ratcheted P k c0 xs c1 ∧ x.2 = m ++ c1 := by
  generalize hz : xs ++ x :: ys = zs at h
  induction h generalizing ys with
  | nil => simp at hz
  | snoc h1 h2 h3 ih =>
    rcases List.eq_nil_or_concat ys with rfl | ⟨ys', y, rfl⟩
    · have := List.append_inj' hz rfl
      simp only [List.cons.injEq, and_true] at this
      obtain ⟨rfl, rfl⟩ := this
      exact ⟨_, _, h1, h2⟩
    · rw [List.concat_eq_append, ← List.cons_append, ← List.append_assoc] at hz
      have := List.append_inj' hz rfl
      exact ih this.1

/-- The sends of a run: for each input of the key derivation the letter that was sent (if encryption did not fail). -/
theorem run_sends (hP : P.Correct pair) (hS : P.KdfSized) (T : WireTools s k) {p q : SState × Wire} (hc : Clean s p.1) (hn : p.2.msgNo ≠ 0)
    {es : List WEvent} {log : List KeyInput} (h : PartyRun P cfg s p es log q) :
    Clean s q.1 ∧ q.2.msgNo ≠ 0 ∧ ∃ σ : List (KeyInput × Option (Letter × Bytes)), Ratcheted P k p.2.sendCarry (σ.map (·.1)) q.2.sendCarry ∧
      σ.filterMap (·.2) = sentIn es ∧ (∀ a ∈ σ, a.1 ∈ log) ∧
      (∀ x l d, (x, some (l, d)) ∈ σ → l.nonce = x.1 ∧ OpensUnder P k p.2.sendCarry.length x l d) ∧
      (∀ x, (x, none) ∈ σ → ∃ d e, WEvent.sent d (.error e) ∈ es) := by
  induction h with
  | start => exact ⟨hc, hn, [], .nil, rfl, by simp, by simp, by simp⟩
  | send rng data h1 h2 ih =>
    rename_i es xs q q' r
    obtain ⟨i1, i2, σ, i3, i4, i5, i6, i7⟩ := ih
    obtain ⟨j1, j2, _, j⟩ := close_step hP T i1 i2 h2
    have i8 : ∀ x, (x, none) ∈ σ → ∃ d e, WEvent.sent d (.error e) ∈ es ++ [.sent data r] := by
      intro x hx; obtain ⟨d, e, he⟩ := i7 x hx; exact ⟨d, e, by simp [he]⟩
    refine ⟨j1, j2, ?_⟩
    have hl := i3.len hS
    rcases j with ⟨j3, j4⟩ | ⟨x, m, j3, j4, j5, j6⟩
    · refine ⟨σ, by rw [j3]; exact i3, ?_, fun a ha => List.mem_append_left _ (i5 a ha), i6, i8⟩
      rw [i4, sentIn, sentIn, List.filterMap_append]
      cases r with
      | ok l => exact absurd rfl (j4 l)
      | error e => simp
    · rw [hl] at j5 j6
      refine ⟨σ ++ [(x, match r with | .ok l => some (l, data) | .error _ => none)], ?_, ?_, ?_, ?_, ?_⟩
      · rw [List.map_append]
        exact .snoc i3 j4 j5
      · rw [List.filterMap_append, i4, sentIn, sentIn, List.filterMap_append]
        cases r with
        | ok l => rfl
        | error e => rfl
      · intro a ha
        rcases List.mem_append.mp ha with ha | ha
        · exact List.mem_append_left _ (i5 a ha)
        · simp only [List.mem_singleton] at ha
          subst ha
          exact List.mem_append_right _ j3
      · intro y l d ha
        rcases List.mem_append.mp ha with ha | ha
        · exact i6 y l d ha
        · simp only [List.mem_singleton, Prod.mk.injEq] at ha
          obtain ⟨rfl, he⟩ := ha
          cases r with
          | error e => cases he
          | ok l' =>
            simp only [Option.some.injEq, Prod.mk.injEq] at he
            obtain ⟨rfl, rfl⟩ := he
            exact j6 _ rfl
      · intro y ha
        rcases List.mem_append.mp ha with ha | ha
        · exact i8 y ha
        · simp only [List.mem_singleton, Prod.mk.injEq] at ha
          cases r with
          | error e => exact ⟨data, e, by simp⟩
          | ok l' => cases ha.2
  | «open» l h1 h2 ih =>
    rename_i es xs q q' r
    obtain ⟨i1, i2, σ, i3, i4, i5, i6, i7⟩ := ih
    obtain ⟨j1, j2, j3, _⟩ := open_step T i1 i2 h2
    refine ⟨j1, j2, σ, by rw [j3]; exact i3, ?_, fun a ha => List.mem_append_left _ (i5 a ha), i6,
      fun x hx => (by obtain ⟨d, e, he⟩ := i7 x hx; exact ⟨d, e, by simp [he]⟩)⟩
    rw [i4, sentIn, sentIn, List.filterMap_append]
    simp

/-- The opens of a run, as far as they use the key derivation. -/
theorem run_opens (hP : P.Correct pair) (hS : P.KdfSized) (T : WireTools s k) {p q : SState × Wire} (hc : Clean s p.1) (hn : p.2.msgNo ≠ 0)
    {es : List WEvent} {log : List KeyInput} (h : PartyRun P cfg s p es log q) :
    Clean s q.1 ∧ q.2.msgNo ≠ 0 ∧ ∃ τ : List (KeyInput × Letter × Option Bytes), Ratcheted P k p.2.recvCarry (τ.map (·.1)) q.2.recvCarry ∧
      τ.filterMap (fun a => a.2.2.map (fun d => (a.2.1, d))) = acceptedIn es ∧ (∀ a ∈ τ, a.1 ∈ log ∧ a.2.1 ∈ givenIn es) ∧
      (∀ x l o, (x, l, o) ∈ τ → l.nonce = x.1 ∧ ∀ d, o = some d ↔ OpensUnder P k p.2.recvCarry.length x l d) := by
  induction h with
  | start => exact ⟨hc, hn, [], .nil, rfl, by simp, by simp⟩
  | send rng data h1 h2 ih =>
    rename_i es xs q q' r
    obtain ⟨i1, i2, σ, i3, i4, i5, i6⟩ := ih
    obtain ⟨j1, j2, j3, _⟩ := close_step hP T i1 i2 h2
    refine ⟨j1, j2, σ, by rw [j3]; exact i3, ?_, fun a ha => ⟨List.mem_append_left _ (i5 a ha).1, ?_⟩, i6⟩
    · rw [i4, acceptedIn, acceptedIn, List.filterMap_append]
      simp
    · rw [givenIn, List.filterMap_append]
      exact List.mem_append_left _ (i5 a ha).2
  | «open» l h1 h2 ih =>
    rename_i es xs q q' r
    obtain ⟨i1, i2, σ, i3, i4, i5, i6⟩ := ih
    obtain ⟨j1, j2, _, j⟩ := open_step T i1 i2 h2
    refine ⟨j1, j2, ?_⟩
    have hl := i3.len hS
    have hg : ∀ a ∈ σ, a.1 ∈ xs ++ openInput P cfg s q.2 l ∧ a.2.1 ∈ givenIn (es ++ [.opened l r]) := by
      intro a ha
      refine ⟨List.mem_append_left _ (i5 a ha).1, ?_⟩
      rw [givenIn, List.filterMap_append]
      exact List.mem_append_left _ (i5 a ha).2
    rcases j with ⟨j3, j4⟩ | ⟨x, m, j3, j7, j4, j5, j6⟩
    · refine ⟨σ, by rw [j3]; exact i3, ?_, hg, i6⟩
      rw [i4, acceptedIn, acceptedIn, List.filterMap_append]
      cases r with
      | ok l => exact absurd rfl (j4 l)
      | error e => simp
    · rw [hl] at j5 j6
      refine ⟨σ ++ [(x, l, match r with | .ok d => some d | .error _ => none)], ?_, ?_, ?_, ?_⟩
      · rw [List.map_append]
        exact .snoc i3 j4 j5
      · rw [List.filterMap_append, i4, acceptedIn, acceptedIn, List.filterMap_append]
        cases r with
        | ok d => rfl
        | error e => rfl
      · intro a ha
        rcases List.mem_append.mp ha with ha | ha
        · exact hg a ha
        · simp only [List.mem_singleton] at ha
          subst ha
          exact ⟨List.mem_append_right _ j3, by simp [givenIn]⟩
      · intro y l' o ha
        rcases List.mem_append.mp ha with ha | ha
        · exact i6 y l' o ha
        · simp only [List.mem_singleton, Prod.mk.injEq] at ha
          obtain ⟨rfl, rfl, rfl⟩ := ha
          refine ⟨j7.symm, fun d => ?_⟩
          rw [← j6]
          cases r with
          | error e => simp
          | ok l' => simp

/-- No input of a chain occurs twice. -/
theorem Ratcheted.nodup (hS : P.KdfSized) {x0 : KeyInput} {c0 c : Bytes} {all : List KeyInput} {ls : List Letter}
    (hB : NoBreak P k c0.length x0 all ls) (h0 : derive P k x0 0 c0.length = .ok c0) {xs : List KeyInput}
    (hx : Ratcheted P k c0 xs c) (hxa : ∀ x ∈ xs, x ∈ all) : xs.Nodup := by
  induction hx with
  | nil => simp
  | snoc h1 h2 h3 ih =>
    rename_i xs c c' m x
    have hxa' : ∀ x ∈ xs, x ∈ all := fun x hx => hxa x (by simp [hx])
    rw [List.nodup_append]
    refine ⟨ih hxa', by simp, ?_⟩
    rintro a ha b hb rfl
    simp only [List.mem_singleton] at hb
    subst hb
    obtain ⟨as, bs, rfl⟩ := List.append_of_mem ha
    obtain ⟨c1, m', g1, g2⟩ := h1.take
    rw [h2] at g2
    have hc := (List.append_inj' g2 (by rw [h1.len hS, g1.len hS])).2
    subst hc
    have := Ratcheted.unique hS hB h0 h1 g1 hxa' (fun y hy => hxa' y (by simp [hy]))
    simp at this

theorem filterMap_pointwise {α β γ δ : Type} {f : β → Option δ} {g : γ → Option δ} : ∀ {τ : List (α × β)} {σ : List (α × γ)},
    τ.map (·.1) = σ.map (·.1) → (∀ x b c, (x, b) ∈ τ → (x, c) ∈ σ → f b = g c) →
    τ.filterMap (fun a => f a.2) = σ.filterMap (fun a => g a.2)
  | [], [], _, _ => rfl
  | [], _ :: _, h, _ => by simp at h
  | _ :: _, [], h, _ => by simp at h
  | (x, b) :: τ, (y, c) :: σ, h, hp => by
    simp only [List.map_cons, List.cons.injEq] at h
    obtain ⟨rfl, h⟩ := h
    have e := hp x b c (by simp) (by simp)
    have ih := filterMap_pointwise h (fun z b' c' h1 h2 => hp z b' c' (List.mem_cons_of_mem _ h1) (List.mem_cons_of_mem _ h2))
    simp only [List.filterMap_cons, e, ih]

theorem snoc_ind {α : Type} {p : List α → Prop} (h0 : p []) (hs : ∀ l a, p l → p (l ++ [a])) (l : List α) : p l := by
  have : ∀ l : List α, p l.reverse := by
    intro l
    induction l with
    | nil => exact h0
    | cons a l ih => rw [List.reverse_cons]; exact hs _ _ ih
  have h := this l.reverse
  rwa [List.reverse_reverse] at h

theorem map_inj {α β : Type} {f : α → β} : ∀ {l : List α} {a b : α}, (l.map f).Nodup → a ∈ l → b ∈ l → f a = f b → a = b
  | [], _, _, _, h, _, _ => by simp at h
  | c :: l, a, b, hn, ha, hb, he => by
    simp only [List.map_cons, List.nodup_cons] at hn
    rcases List.mem_cons.mp ha with rfl | ha' <;> rcases List.mem_cons.mp hb with rfl | hb'
    · rfl
    · exact absurd (List.mem_map.mpr ⟨b, hb', he.symm⟩) hn.1
    · exact absurd (List.mem_map.mpr ⟨a, ha', he⟩) hn.1
    · exact map_inj hn.2 ha' hb' he

theorem fst_inj {α β : Type} {l : List (α × β)} {x : α} {b c : β} (hn : (l.map (·.1)).Nodup) (h1 : (x, b) ∈ l) (h2 : (x, c) ∈ l) : b = c :=
  congrArg (·.2) (map_inj hn h1 h2 rfl)

/-- The order of acceptance in one direction: `σ` are the sends, `τ` the opens, `old` the letters that were used to get `c0`. -/
theorem accepted_prefix (hS : P.KdfSized) {x0 : KeyInput} {c0 c c' : Bytes} {all : List KeyInput} {ls old : List Letter}
    (hB : NoBreak P k c0.length x0 all ls) (h0 : derive P k x0 0 c0.length = .ok c0)
    {σ : List (KeyInput × Option (Letter × Bytes))} {τ : List (KeyInput × Letter × Option Bytes)}
    (hσ : Ratcheted P k c0 (σ.map (·.1)) c) (hσa : ∀ a ∈ σ, a.1 ∈ all)
    (hσs : ∀ x l d, (x, some (l, d)) ∈ σ → l.nonce = x.1 ∧ OpensUnder P k c0.length x l d)
    (hτ : Ratcheted P k c0 (τ.map (·.1)) c') (hτa : ∀ a ∈ τ, a.1 ∈ all)
    (hτs : ∀ x l o, (x, l, o) ∈ τ → l.nonce = x.1 ∧ ∀ d, o = some d ↔ OpensUnder P k c0.length x l d)
    (hold : ∀ l ∈ old, l ∈ ls ∧ ∃ d, OpensUnder P k c0.length x0 l d)
    (hls : ∀ a ∈ σ.filterMap (·.2), a.1 ∈ ls)
    (hno : ∀ l ∈ old, ∀ a ∈ σ.filterMap (·.2), l.nonce ≠ a.1.nonce)
    (hnd : ((σ.filterMap (·.2)).map (·.1.nonce)).Nodup)
    (hgen : ∀ a ∈ τ, a.2.1 ∈ old ∨ a.2.1 ∈ (σ.filterMap (·.2)).map (·.1)) :
    τ.filterMap (fun a => a.2.2.map (fun d => (a.2.1, d))) <+: σ.filterMap (·.2) := by
  have hxnd := Ratcheted.nodup hS hB h0 hσ (by
    intro x hx; obtain ⟨a, ha, rfl⟩ := List.mem_map.mp hx; exact hσa a ha)
  -- a letter that opens under an input of the run was sent with that input
  have hfrom : ∀ x l d, x ∈ all → (l ∈ old ∨ l ∈ (σ.filterMap (·.2)).map (·.1)) → OpensUnder P k c0.length x l d →
      ∃ d', (x, some (l, d')) ∈ σ := by
    intro x l d hx hl ho
    rcases hl with hl | hl
    · obtain ⟨h1, d', h2⟩ := hold l hl
      have := hB.letters l h1 x0 (by simp) x (by simp [hx]) _ _ h2 ho
      rw [this] at hB
      exact absurd hx hB.fresh
    · obtain ⟨⟨l', d'⟩, h1, rfl⟩ := List.mem_map.mp hl
      obtain ⟨⟨y, o⟩, h2, h3⟩ := List.mem_filterMap.mp h1
      simp only at h3
      subst h3
      have := hB.letters l' (hls _ h1) y (by simp [hσa _ h2]) x (by simp [hx]) _ _ (hσs _ _ _ h2).2 ho
      subst this
      exact ⟨d', h2⟩
  revert c' hτ hτa hτs hgen
  refine snoc_ind (p := fun τ => ∀ {c' : Bytes}, Ratcheted P k c0 (τ.map (·.1)) c' → (∀ a ∈ τ, a.1 ∈ all) →
    (∀ x l o, (x, l, o) ∈ τ → l.nonce = x.1 ∧ ∀ d, o = some d ↔ OpensUnder P k c0.length x l d) →
    (∀ a ∈ τ, a.2.1 ∈ old ∨ a.2.1 ∈ (σ.filterMap (·.2)).map (·.1)) →
    τ.filterMap (fun a => a.2.2.map (fun d => (a.2.1, d))) <+: σ.filterMap (·.2)) ?_ ?_ τ
  · intros; exact List.nil_prefix
  · rintro τ ⟨x, l, o⟩ ih c' hτ hτa hτs hgen
    rw [List.map_append] at hτ
    obtain ⟨c1, m, g1, g2⟩ := hτ.take (ys := [])
    have ih' := ih g1 (fun a ha => hτa a (by simp [ha])) (fun y l' o' ha => hτs y l' o' (by simp [ha]))
      (fun a ha => hgen a (by simp [ha]))
    rw [List.filterMap_append]
    cases o with
    | none => simpa using ih'
    | some d =>
      have hx : x ∈ all := hτa (x, l, some d) (by simp)
      have ho := ((hτs x l (some d) (by simp)).2 d).mp rfl
      obtain ⟨d', hin⟩ := hfrom x l d hx (hgen (x, l, some d) (by simp)) ho
      have hd : d' = d := by
        have := (hσs x l d' hin).2
        obtain ⟨key, n, a1, a2, a3⟩ := this
        obtain ⟨key', n', b1, b2, b3⟩ := ho
        rw [a1] at b1; cases b1
        rw [a2] at b2; cases b2
        rw [a3] at b3; cases b3; rfl
      subst hd
      obtain ⟨σ1, σ2, rfl⟩ := List.append_of_mem hin
      have hσ' := hσ
      rw [List.map_append, List.map_cons] at hσ'
      obtain ⟨c2, m2, f1, f2⟩ := hσ'.take
      simp only at f2 g2
      rw [f2] at g2
      have hc := (List.append_inj' g2 (by rw [f1.len hS, g1.len hS])).2
      subst hc
      have hmap : τ.map (·.1) = σ1.map (·.1) := Ratcheted.unique hS hB h0 g1 f1
        (fun y hy => by obtain ⟨a, ha, rfl⟩ := List.mem_map.mp hy; exact hτa a (by simp [ha]))
        (fun y hy => by obtain ⟨a, ha, rfl⟩ := List.mem_map.mp hy; exact hσa a (by simp [ha]))
      have hpt : τ.filterMap (fun a => a.2.2.map (fun d => (a.2.1, d))) = σ1.filterMap (·.2) := by
        refine filterMap_pointwise (f := fun b : Letter × Option Bytes => b.2.map (fun d => (b.1, d))) (g := fun c => c) hmap ?_
        rintro y ⟨l1, o1⟩ b h1 h2
        have hy := hτs y l1 o1 (by simp [h1])
        have hg := hgen (y, l1, o1) (by simp [h1])
        have h2' : (y, b) ∈ σ1 ++ (x, some (l, d')) :: σ2 := by simp [h2]
        simp only
        cases b with
        | none =>
          cases o1 with
          | none => rfl
          | some e =>
            obtain ⟨e', he⟩ := hfrom y l1 e (hτa (y, l1, some e) (by simp [h1])) hg ((hy.2 e).mp rfl)
            have := fst_inj hxnd h2' he
            cases this
        | some b =>
          obtain ⟨l2, d2⟩ := b
          have hs2 := hσs y l2 d2 h2'
          have hmem : (l2, d2) ∈ (σ1 ++ (x, some (l, d')) :: σ2).filterMap (·.2) := List.mem_filterMap.mpr ⟨_, h2', rfl⟩
          have hl : l1 = l2 := by
            have hnn : l1.nonce = l2.nonce := by rw [hy.1, hs2.1]
            rcases hg with hg | hg
            · exact absurd hnn (hno l1 hg _ hmem)
            · obtain ⟨⟨l3, d3⟩, h3, rfl⟩ := List.mem_map.mp hg
              exact congrArg (·.1) (map_inj hnd h3 hmem hnn)
          subst hl
          rw [(hy.2 d2).mpr hs2.2]
          rfl
      rw [hpt, List.filterMap_append]
      simp only [List.filterMap_cons, List.filterMap_nil, Option.map_some]
      exact ⟨σ2.filterMap (·.2), by simp⟩

theorem filterMap_sublist {α β γ δ : Type} {f : β → Option δ} {g : γ → Option δ} : ∀ {τ : List (α × β)} {σ : List (α × γ)},
    τ.map (·.1) = σ.map (·.1) → (∀ x b c, (x, b) ∈ τ → (x, c) ∈ σ → f b = none ∨ f b = g c) →
    (τ.filterMap (fun a => f a.2)).Sublist (σ.filterMap (fun a => g a.2))
  | [], [], _, _ => by simp
  | [], _ :: _, h, _ => by simp at h
  | _ :: _, [], h, _ => by simp at h
  | (x, b) :: τ, (y, c) :: σ, h, hp => by
    simp only [List.map_cons, List.cons.injEq] at h
    obtain ⟨rfl, h⟩ := h
    have ih := filterMap_sublist h (fun z b' c' h1 h2 => hp z b' c' (List.mem_cons_of_mem _ h1) (List.mem_cons_of_mem _ h2))
    rcases hp x b c (by simp) (by simp) with e | e
    · simp only [List.filterMap_cons, e]
      cases g c with
      | none => exact ih
      | some z => exact List.Sublist.cons _ ih
    · simp only [List.filterMap_cons, e]
      cases g c with
      | none => exact ih
      | some z => exact List.Sublist.cons₂ _ ih

/-- The order of acceptance in one direction, whatever letters are opened. -/
theorem accepted_sublist (hS : P.KdfSized) {x0 : KeyInput} {c0 c c' : Bytes} {all : List KeyInput} {ls old : List Letter}
    (hB : NoBreak P k c0.length x0 all ls) (h0 : derive P k x0 0 c0.length = .ok c0)
    {σ : List (KeyInput × Option (Letter × Bytes))} {τ : List (KeyInput × Letter × Option Bytes)}
    (hσ : Ratcheted P k c0 (σ.map (·.1)) c) (hσa : ∀ a ∈ σ, a.1 ∈ all)
    (hσs : ∀ x l d, (x, some (l, d)) ∈ σ → l.nonce = x.1 ∧ OpensUnder P k c0.length x l d)
    (hτ : Ratcheted P k c0 (τ.map (·.1)) c') (hτa : ∀ a ∈ τ, a.1 ∈ all)
    (hτs : ∀ x l o, (x, l, o) ∈ τ → l.nonce = x.1 ∧ ∀ d, o = some d ↔ OpensUnder P k c0.length x l d)
    (hold : ∀ l ∈ old, l ∈ ls ∧ ∃ d, OpensUnder P k c0.length x0 l d)
    (hls : ∀ a ∈ σ.filterMap (·.2), a.1 ∈ ls)
    (hgen : ∀ x l d, (x, l, some d) ∈ τ → l ∈ old ∨ l ∈ (σ.filterMap (·.2)).map (·.1)) :
    (τ.filterMap (fun a => a.2.2.map (fun d => (a.2.1, d)))).Sublist (σ.filterMap (·.2)) := by
  have hxnd := Ratcheted.nodup hS hB h0 hσ (by
    intro x hx; obtain ⟨a, ha, rfl⟩ := List.mem_map.mp hx; exact hσa a ha)
  have hfrom : ∀ x l d, x ∈ all → (l ∈ old ∨ l ∈ (σ.filterMap (·.2)).map (·.1)) → OpensUnder P k c0.length x l d →
      (x, some (l, d)) ∈ σ := by
    intro x l d hx hl ho
    rcases hl with hl | hl
    · obtain ⟨h1, d', h2⟩ := hold l hl
      have := hB.letters l h1 x0 (by simp) x (by simp [hx]) _ _ h2 ho
      rw [this] at hB
      exact absurd hx hB.fresh
    · obtain ⟨⟨l', d'⟩, h1, rfl⟩ := List.mem_map.mp hl
      obtain ⟨⟨y, o⟩, h2, h3⟩ := List.mem_filterMap.mp h1
      simp only at h3
      subst h3
      have := hB.letters l' (hls _ h1) y (by simp [hσa _ h2]) x (by simp [hx]) _ _ (hσs _ _ _ h2).2 ho
      subst this
      obtain ⟨key, n, a1, a2, a3⟩ := (hσs _ _ _ h2).2
      obtain ⟨key', n', b1, b2, b3⟩ := ho
      rw [a1] at b1; cases b1
      rw [a2] at b2; cases b2
      rw [a3] at b3; cases b3
      exact h2
  revert c' hτ hτa hτs hgen
  refine snoc_ind (p := fun τ => ∀ {c' : Bytes}, Ratcheted P k c0 (τ.map (·.1)) c' → (∀ a ∈ τ, a.1 ∈ all) →
    (∀ x l o, (x, l, o) ∈ τ → l.nonce = x.1 ∧ ∀ d, o = some d ↔ OpensUnder P k c0.length x l d) →
    (∀ x l d, (x, l, some d) ∈ τ → l ∈ old ∨ l ∈ (σ.filterMap (·.2)).map (·.1)) →
    (τ.filterMap (fun a => a.2.2.map (fun d => (a.2.1, d)))).Sublist (σ.filterMap (·.2))) ?_ ?_ τ
  · intros; exact List.nil_sublist _
  · rintro τ ⟨x, l, o⟩ ih c' hτ hτa hτs hgen
    rw [List.map_append] at hτ
    obtain ⟨c1, m, g1, g2⟩ := hτ.take (ys := [])
    have ih' := ih g1 (fun a ha => hτa a (by simp [ha])) (fun y l' o' ha => hτs y l' o' (by simp [ha]))
      (fun y l' d ha => hgen y l' d (by simp [ha]))
    rw [List.filterMap_append]
    cases o with
    | none => simpa using ih'
    | some d =>
      have hx : x ∈ all := hτa (x, l, some d) (by simp)
      have hin := hfrom x l d hx (hgen x l d (by simp)) (((hτs x l (some d) (by simp)).2 d).mp rfl)
      obtain ⟨σ1, σ2, rfl⟩ := List.append_of_mem hin
      have hσ' := hσ
      rw [List.map_append, List.map_cons] at hσ'
      obtain ⟨c2, m2, f1, f2⟩ := hσ'.take
      simp only at f2 g2
      rw [f2] at g2
      have hc := (List.append_inj' g2 (by rw [f1.len hS, g1.len hS])).2
      subst hc
      have hmap : τ.map (·.1) = σ1.map (·.1) := Ratcheted.unique hS hB h0 g1 f1
        (fun y hy => by obtain ⟨a, ha, rfl⟩ := List.mem_map.mp hy; exact hτa a (by simp [ha]))
        (fun y hy => by obtain ⟨a, ha, rfl⟩ := List.mem_map.mp hy; exact hσa a (by simp [ha]))
      have hpt : (τ.filterMap (fun a => a.2.2.map (fun d => (a.2.1, d)))).Sublist (σ1.filterMap (·.2)) := by
        refine filterMap_sublist (f := fun b : Letter × Option Bytes => b.2.map (fun d => (b.1, d))) (g := fun c => c) hmap ?_
        rintro y ⟨l1, o1⟩ b h1 h2
        cases o1 with
        | none => exact Or.inl rfl
        | some e =>
          right
          have hy := hτs y l1 (some e) (by simp [h1])
          have := hfrom y l1 e (hτa (y, l1, some e) (by simp [h1])) (hgen y l1 e (by simp [h1])) ((hy.2 e).mp rfl)
          exact (fst_inj hxnd (by simp [h2]) this).symm
      rw [List.filterMap_append]
      refine List.Sublist.append hpt ?_
      simp only [List.filterMap_cons, List.filterMap_nil, Option.map_some]
      exact List.Sublist.cons₂ _ (List.nil_sublist _)

/-- The first letter. -/
theorem first_step (hP : P.Correct pair) (T : WireTools s k) {rng : Rng} {b : Bool} {st st' : SState} {w' : Wire} {data : Bytes} {l : Letter}
    (hc : Clean s st) (h : s.wireClose P cfg rng st { server := b } data = ((st', w'), .ok l)) :
    ∃ x0, sendInput P cfg rng s { server := b } = [x0] ∧ derive P k x0 0 s.keySize = .ok w'.sendCarry ∧ OpensUnder P k s.keySize x0 l data := by
  obtain ⟨w1, out, c, mat, off, hsw, hr, hw, hse, hcl, d, m, hl⟩ := wireClose_ok hP T.kdf T.signing hc h
  have hf := sendSwitch_frame (P := P) (cfg := cfg) (s := s) (rng := rng) (w := { server := b }) (nonce := l.nonce)
  rw [hsw] at hf
  simp only at hf
  rw [hf.1] at hr
  have hno : randomBytes rng 0 s.nonceSize = .ok l.nonce := by
    unfold Session.wireClose at h
    split at h
    · cases h
    · rename_i nonce hno
      rw [T.kdf] at h
      simp only at h
      split at h
      · cases h
      · split at h
        · cases h
        · rename_i st1 l1 henc
          simp only [signLetter, T.signing, List.isEmpty_nil, if_true, Prod.mk.injEq, Except.ok.injEq] at h
          obtain ⟨_, rfl⟩ := h
          obtain ⟨⟨d, m, hl⟩, _⟩ := encryptLetter_sealed hP hc henc
          have hln : l1.nonce = nonce := by rw [hl]; unfold wireHeader; split <;> rfl
          rw [hln]; exact hno
  have hc' : w'.sendCarry = c := by
    rw [hw]; cases out.burn <;> simp [Wire.sent, Wire.burn]
  unfold ratchet at hr
  rw [if_pos rfl] at hr
  split at hr
  · cases hr
  · split at hr
    · split at hr
      · cases hr
      · rename_i c1 hd
        cases hr
        refine ⟨(l.nonce, out.material.flatten), ?_, by rw [hc']; exact hd, ?_⟩
        · unfold sendInput
          simp only [hno, hsw, hf.1, if_true]
        · exact (decrypt_iff T.stateful T.aead T.mac hc).mp (hse s.env st hc)
    · cases hr

end

/-- The start of a conversation (as in C20): the client has a wire session `s` for recipients whose private keys the server holds, sends
the first letter `m0`, and is then in state `p`; the server has created its session `v` from `m0`, has opened it, and is in state `q`. -/
structure Started (P : Prims) (pair : Bytes → Bytes → Bytes → Prop) (cfg : Config) (wo : World) (s : Session) (m0 : Letter) (x0 : KeyInput)
    (data0 : Bytes) (p : SState × Wire) (v : Session) (q : SState × Wire) : Prop where
  client : ∃ (wc : World) (e : Envelope) (w : Wire) (rng : Rng), e.suite = none ∧ e.version = 1 ∧
    wireCorrespondence P cfg wc suiteRegistry e = .ok (s, w) ∧ demandedLevel cfg 0 ≤ demandedLevel cfg e.securityLevel ∧
    s.wireClose P cfg rng s.initState w data0 = (p, .ok m0) ∧ sendInput P cfg rng s w = [x0]
  ids : ∀ r ∈ s.env.recipients, r.id ≠ []
  keys : Counterparts P pair wo s
  server : ∃ (asServer : Bool) (wv : Wire) (d0 : Bytes), m0.wireCorrespondence P cfg wo suiteRegistry = .ok (v, wv) ∧
    v.wireOpen P cfg v.initState (if asServer then wv.asServer else wv) m0 = (q, .ok d0)

section
variable {P : Prims} {pair : Bytes → Bytes → Bytes → Prop} {cfg : Config} {wo : World} {s v : Session} {k : ToolInst}

theorem started_spec (hP : P.Correct pair) (hS : P.KdfSized) {m0 : Letter} {x0 : KeyInput} {data0 : Bytes} {p q : SState × Wire}
    (h : Started P pair cfg wo s m0 x0 data0 p v q) (hk : s.kdf = some k) :
    ∃ C0 eo, v = { s with env := eo } ∧ WireTools s k ∧ p.2.msgNo ≠ 0 ∧ q.2.msgNo ≠ 0 ∧ Clean s p.1 ∧ Clean { s with env := eo } q.1 ∧
      p.2.sendCarry = C0 ∧ p.2.recvCarry = C0 ∧ q.2.sendCarry = C0 ∧ q.2.recvCarry = C0 ∧ C0.length = s.keySize ∧
      derive P k x0 0 s.keySize = .ok C0 ∧ OpensUnder P k s.keySize x0 m0 data0 := by
  obtain ⟨⟨wc, e, w, rng, hes, hev, hs, hlev, h0, hx0⟩, hids, hcp, asServer, wv, d0, hv, hq⟩ := h
  obtain ⟨rfl, k', B⟩ := wireBase_of hes hev hs hlev hids hcp
  have hkk : k' = k := by
    have := B.kdf; rw [hk] at this; exact (Option.some.inj this).symm
  subst hkk
  have hWO := (wireOf_envelope (by rw [hes]; simp) hs).1
  obtain ⟨k2, T⟩ := hWO.tools
  have : k2 = k' := by
    have := T.kdf; rw [hk] at this; exact (Option.some.inj this).symm
  subst this
  obtain ⟨st', w'⟩ := p
  have hci := clean_init s
  obtain ⟨C0, kx, ke, eo, hw', hcl, _, hco, hop⟩ := first_message (b := false) hP B hci h0
  obtain ⟨y0, hy0, hd0, ho0⟩ := first_step (b := false) hP T hci h0
  have hxy : y0 = x0 := by
    rw [show (({} : Wire)) = { server := false } from rfl, hy0] at hx0
    simpa using hx0
  subst hxy
  rw [hco] at hv
  simp only [Except.ok.injEq, Prod.mk.injEq] at hv
  obtain ⟨rfl, rfl⟩ := hv
  obtain ⟨stv, vkx, vke, hclv, _, _, hov⟩ := hop asServer
  have hb : (if asServer = true then ({} : Wire).asServer else {}) = { server := asServer } := by cases asServer <;> rfl
  rw [hb, hov] at hq
  simp only [Prod.mk.injEq, Except.ok.injEq] at hq
  obtain ⟨rfl, rfl⟩ := hq
  subst hw'
  exact ⟨C0, eo, rfl, T, by simp, by simp, hcl, (clean_env eo).mpr hclv, rfl, rfl, rfl, rfl, hS _ _ _ _ _ _ _ hd0, hd0, ho0⟩

end

/-- C21. A conversation with an unreliable network: after the first letter `m0` the two parties send and open (`ec` and `ev`), where
each is given only letters which the other one has sent, but in any order, any number of times, or never. Then what each party
accepts is a prefix of what the other one sent: no letter is accepted twice, or out of order, or after one that was lost. The
conditions: the random nonces of the letters of a party differ, and the cryptography is not broken in this conversation (`NoBreak`).
(Letters of one's own that come back are not excluded by the library, see C54.) -/
theorem wire_accepts_in_order (P : Prims) (pair : Bytes → Bytes → Bytes → Prop) (hP : P.Correct pair) (hS : P.KdfSized) (cfg : Config) (wo : World)
    (s v : Session) (m0 : Letter) (x0 : KeyInput) (data0 : Bytes) (p p' q q' : SState × Wire)
    (h0 : Started P pair cfg wo s m0 x0 data0 p v q) (k : ToolInst) (hk : s.kdf = some k)
    -- the rest of the conversation
    (ec ev : List WEvent) (xc xv : List KeyInput) (hc : PartyRun P cfg s p ec xc p') (hv : PartyRun P cfg v q ev xv q')
    -- the network
    (hnetc : ∀ l ∈ givenIn ev, l = m0 ∨ l ∈ (sentIn ec).map (·.1)) (hnets : ∀ l ∈ givenIn ec, l ∈ (sentIn ev).map (·.1))
    -- nonces and cryptography
    (hnc : (m0.nonce :: (sentIn ec).map (·.1.nonce)).Nodup) (hns : ((sentIn ev).map (·.1.nonce)).Nodup)
    (hB : NoBreak P k s.keySize x0 (xc ++ xv) (m0 :: (sentIn ec ++ sentIn ev).map (·.1))) :
    acceptedIn ev <+: sentIn ec ∧ acceptedIn ec <+: sentIn ev := by
  obtain ⟨C0, eo, rfl, T, n1, n2, hcl, hclv, e1, e2, e3, e4, hlen, hd0, ho0⟩ := started_spec hP hS h0 hk
  rw [← hlen] at hd0 ho0 hB
  obtain ⟨_, _, σc, a1, a2, a3, a4, _⟩ := run_sends hP hS T hcl n1 hc
  obtain ⟨_, _, τc, b1, b2, b3, b4⟩ := run_opens hP hS T hcl n1 hc
  obtain ⟨_, _, σv, c1, c2, c3, c4, _⟩ := run_sends hP hS (T.env eo) hclv n2 hv
  obtain ⟨_, _, τv, d1, d2, d3, d4⟩ := run_opens hP hS (T.env eo) hclv n2 hv
  rw [e1] at a1 a4
  rw [e2] at b1 b4
  rw [e3] at c1 c4
  rw [e4] at d1 d4
  constructor
  · rw [← d2, ← a2]
    refine accepted_prefix hS hB hd0 (old := [m0]) a1 (fun a ha => by simp [a3 a ha]) a4 d1 (fun a ha => by simp [(d3 a ha).1]) d4 ?_ ?_ ?_ ?_ ?_
    · intro l hl
      simp only [List.mem_singleton] at hl
      subst hl
      exact ⟨by simp, _, ho0⟩
    · intro a ha
      rw [a2] at ha
      exact List.mem_cons_of_mem _ (List.mem_map.mpr ⟨a, List.mem_append_left _ ha, rfl⟩)
    · intro l hl a ha he
      simp only [List.mem_singleton] at hl
      subst hl
      rw [a2] at ha
      rw [List.nodup_cons] at hnc
      exact hnc.1 (by rw [he]; exact List.mem_map.mpr ⟨a, ha, rfl⟩)
    · rw [a2]; exact (List.nodup_cons.mp hnc).2
    · intro a ha
      rw [a2]
      rcases hnetc _ (d3 a ha).2 with h | h
      · exact Or.inl (by simp [h])
      · exact Or.inr h
  · rw [← b2, ← c2]
    refine accepted_prefix hS hB hd0 (old := []) c1 (fun a ha => by simp [c3 a ha]) c4 b1 (fun a ha => by simp [(b3 a ha).1]) b4 (by simp) ?_ (by simp) ?_ ?_
    · intro a ha
      rw [c2] at ha
      exact List.mem_cons_of_mem _ (List.mem_map.mpr ⟨a, List.mem_append_right _ ha, rfl⟩)
    · rw [c2]; exact hns
    · intro a ha
      rw [c2]
      exact Or.inr (hnets _ (b3 a ha).2)

/-- C21, against an active attacker: the parties are given any letters, in any order, and the cipher is unforgeable in so far as only
letters of the peer are accepted. Then what each party accepts is a subsequence of what the other one sent: no letter is accepted
twice or out of order. (No condition on nonces. A letter after a lost one can be accepted in this case, if the attacker replaces
the lost one by a letter with the same nonce: `replaced_letter_refuted`.) -/
theorem wire_accepts_once (P : Prims) (pair : Bytes → Bytes → Bytes → Prop) (hP : P.Correct pair) (hS : P.KdfSized) (cfg : Config) (wo : World)
    (s v : Session) (m0 : Letter) (x0 : KeyInput) (data0 : Bytes) (p p' q q' : SState × Wire)
    (h0 : Started P pair cfg wo s m0 x0 data0 p v q) (k : ToolInst) (hk : s.kdf = some k)
    (ec ev : List WEvent) (xc xv : List KeyInput) (hc : PartyRun P cfg s p ec xc p') (hv : PartyRun P cfg v q ev xv q')
    (hauthc : ∀ a ∈ acceptedIn ev, a.1 = m0 ∨ a.1 ∈ (sentIn ec).map (·.1)) (hauths : ∀ a ∈ acceptedIn ec, a.1 ∈ (sentIn ev).map (·.1))
    (hB : NoBreak P k s.keySize x0 (xc ++ xv) (m0 :: (sentIn ec ++ sentIn ev).map (·.1))) :
    (acceptedIn ev).Sublist (sentIn ec) ∧ (acceptedIn ec).Sublist (sentIn ev) := by
  obtain ⟨C0, eo, rfl, T, n1, n2, hcl, hclv, e1, e2, e3, e4, hlen, hd0, ho0⟩ := started_spec hP hS h0 hk
  rw [← hlen] at hd0 ho0 hB
  obtain ⟨_, _, σc, a1, a2, a3, a4, _⟩ := run_sends hP hS T hcl n1 hc
  obtain ⟨_, _, τc, b1, b2, b3, b4⟩ := run_opens hP hS T hcl n1 hc
  obtain ⟨_, _, σv, c1, c2, c3, c4, _⟩ := run_sends hP hS (T.env eo) hclv n2 hv
  obtain ⟨_, _, τv, d1, d2, d3, d4⟩ := run_opens hP hS (T.env eo) hclv n2 hv
  rw [e1] at a1 a4
  rw [e2] at b1 b4
  rw [e3] at c1 c4
  rw [e4] at d1 d4
  constructor
  · rw [← d2] at hauthc
    rw [← d2, ← a2]
    refine accepted_sublist hS hB hd0 (old := [m0]) a1 (fun a ha => by simp [a3 a ha]) a4 d1 (fun a ha => by simp [(d3 a ha).1]) d4 ?_ ?_ ?_
    · intro l hl
      simp only [List.mem_singleton] at hl
      subst hl
      exact ⟨by simp, _, ho0⟩
    · intro a ha
      rw [a2] at ha
      exact List.mem_cons_of_mem _ (List.mem_map.mpr ⟨a, List.mem_append_left _ ha, rfl⟩)
    · intro x l d ha
      rw [a2]
      rcases hauthc (l, d) (List.mem_filterMap.mpr ⟨_, ha, rfl⟩) with h | h
      · exact Or.inl (by simpa using h)
      · exact Or.inr h
  · rw [← b2] at hauths
    rw [← b2, ← c2]
    refine accepted_sublist hS hB hd0 (old := []) c1 (fun a ha => by simp [c3 a ha]) c4 b1 (fun a ha => by simp [(b3 a ha).1]) b4 (by simp) ?_ ?_
    · intro a ha
      rw [c2] at ha
      exact List.mem_cons_of_mem _ (List.mem_map.mpr ⟨a, List.mem_append_right _ ha, rfl⟩)
    · intro x l d ha
      rw [c2]
      exact Or.inr (hauths (l, d) (List.mem_filterMap.mpr ⟨_, ha, rfl⟩))

/-! ## Concrete conversations -/

/-- A conversation after the first letter, as a program. -/
structure Sim where
  ec : List WEvent := []
  xc : List KeyInput := []
  pc : SState × Wire
  ev : List WEvent := []
  xv : List KeyInput := []
  pv : SState × Wire

/-- The steps: sending with the given random numbers, and opening a letter (number `i` of the peer, or any letter). -/
inductive SimOp where
  | clientSend (rng : Rng) (data : Bytes) | serverSend (rng : Rng) (data : Bytes)
  | clientOpen (i : Nat) | serverOpen (i : Nat) | serverGets (f : List Letter → Letter)

/-- One step. -/
def Sim.op (P : Prims) (cfg : Config) (s v : Session) (m0 : Letter) (x : Sim) : SimOp → Sim
  | .clientSend rng data =>
    { x with ec := x.ec ++ [.sent data (s.wireClose P cfg rng x.pc.1 x.pc.2 data).2], xc := x.xc ++ sendInput P cfg rng s x.pc.2,
             pc := (s.wireClose P cfg rng x.pc.1 x.pc.2 data).1 }
  | .serverSend rng data =>
    { x with ev := x.ev ++ [.sent data (v.wireClose P cfg rng x.pv.1 x.pv.2 data).2], xv := x.xv ++ sendInput P cfg rng v x.pv.2,
             pv := (v.wireClose P cfg rng x.pv.1 x.pv.2 data).1 }
  | .clientOpen i =>
    let l := ((sentIn x.ev).map (·.1)).getD i {}
    { x with ec := x.ec ++ [.opened l (s.wireOpen P cfg x.pc.1 x.pc.2 l).2], xc := x.xc ++ openInput P cfg s x.pc.2 l,
             pc := (s.wireOpen P cfg x.pc.1 x.pc.2 l).1 }
  | .serverOpen i =>
    let l := (m0 :: (sentIn x.ec).map (·.1)).getD i {}
    { x with ev := x.ev ++ [.opened l (v.wireOpen P cfg x.pv.1 x.pv.2 l).2], xv := x.xv ++ openInput P cfg v x.pv.2 l,
             pv := (v.wireOpen P cfg x.pv.1 x.pv.2 l).1 }
  | .serverGets f =>
    let l := f (m0 :: (sentIn x.ec).map (·.1))
    { x with ev := x.ev ++ [.opened l (v.wireOpen P cfg x.pv.1 x.pv.2 l).2], xv := x.xv ++ openInput P cfg v x.pv.2 l,
             pv := (v.wireOpen P cfg x.pv.1 x.pv.2 l).1 }

theorem sim_runs {P : Prims} {cfg : Config} {s v : Session} {m0 : Letter} {p q : SState × Wire} : ∀ (ops : List SimOp) (x : Sim),
    PartyRun P cfg s p x.ec x.xc x.pc → PartyRun P cfg v q x.ev x.xv x.pv →
    PartyRun P cfg s p (ops.foldl (Sim.op P cfg s v m0) x).ec (ops.foldl (Sim.op P cfg s v m0) x).xc (ops.foldl (Sim.op P cfg s v m0) x).pc ∧
    PartyRun P cfg v q (ops.foldl (Sim.op P cfg s v m0) x).ev (ops.foldl (Sim.op P cfg s v m0) x).xv (ops.foldl (Sim.op P cfg s v m0) x).pv
  | [], _, h1, h2 => ⟨h1, h2⟩
  | op :: ops, x, h1, h2 => by
    rw [List.foldl_cons]
    apply sim_runs ops
    · cases op with
      | clientSend rng data => exact .send rng data h1 rfl
      | serverSend rng data => exact h1
      | clientOpen i => exact .open _ h1 rfl
      | serverOpen i => exact h1
      | serverGets f => exact h1
    · cases op with
      | clientSend rng data => exact h2
      | serverSend rng data => exact .send rng data h2 rfl
      | clientOpen i => exact h2
      | serverOpen i => exact .open _ h2 rfl
      | serverGets f => exact .open _ h2 rfl

/-- A reader that returns only the byte `n`. -/
def byteRng (n : UInt8) : Rng := { read := fun _ len => .ok (List.replicate len n), seed := toyRng.seed }

/-- Toy primitives with a key derivation that depends on the order of its input. -/
def orderPrims : Prims :=
  { toyPrims with
    kdf := fun _ _ nonce material off size =>
      .ok (toyBytes size ((nonce ++ material).foldl (fun a x => a * 37 + x + 11) (UInt8.ofNat off))) }

/-- The start of the example: sessions, first letter, its input, and the states. -/
def toyStart : Option (Session × Session × Letter × KeyInput × Sim) :=
  match wireCorrespondence orderPrims toyConfig toyWorld suiteRegistry (toyEnvelope b!"w1" [] [] [b!"bob"]) with
  | .error _ => none
  | .ok (s, w) =>
    match s.wireClose orderPrims toyConfig toyRng s.initState w b!"hello", sendInput orderPrims toyConfig toyRng s w with
    | (p, .ok m0), [x0] =>
      match m0.wireCorrespondence orderPrims toyConfig toyWorld suiteRegistry with
      | .error _ => none
      | .ok (v, wv) =>
        match v.wireOpen orderPrims toyConfig v.initState wv.asServer m0 with
        | (q, .ok _) => some (s, v, m0, x0, { pc := p, pv := q })
        | _ => none
    | _, _ => none

/-- The cipher text opens (executable). -/
def opensUnder (P : Prims) (k : ToolInst) (off : Nat) (x : KeyInput) (l : Letter) : Bool :=
  match derive P k x off 32, derive P k x (off + 32) 12 with
  | .ok key, .ok n => match P.aeadOpen b!"CHACHA20-POLY1305" key n l.compileAD l.data with | .ok _ => true | .error _ => false
  | _, _ => false

theorem opensUnder_of {P : Prims} {k : ToolInst} {off : Nat} {x : KeyInput} {l : Letter} {d : Bytes} (h : OpensUnder P k off x l d) :
    opensUnder P k off x l = true := by
  obtain ⟨key, n, h1, h2, h3⟩ := h
  simp only [opensUnder, h1, h2, h3]

/-- `NoBreak`, executable. -/
def noBreak (P : Prims) (k : ToolInst) (size : Nat) (x0 : KeyInput) (xs : List KeyInput) (ls : List Letter) : Bool :=
  (x0 :: xs).all (fun x => (x0 :: xs).all (fun y => decide (x = y) || decide (derive P k x 0 size ≠ derive P k y 0 size))) &&
  decide (x0 ∉ xs) &&
  ls.all (fun l => (x0 :: xs).all (fun x => (x0 :: xs).all (fun y => decide (x = y) || !(opensUnder P k size x l && opensUnder P k size y l))))

theorem noBreak_of {P : Prims} {k : ToolInst} {size : Nat} {x0 : KeyInput} {xs : List KeyInput} {ls : List Letter}
    (h : noBreak P k size x0 xs ls = true) : NoBreak P k size x0 xs ls := by
  simp only [noBreak, Bool.and_eq_true, decide_eq_true_eq] at h
  obtain ⟨⟨h1, h2⟩, h3⟩ := h
  refine ⟨?_, h2, ?_⟩
  · intro x hx y hy c e1 e2
    have := List.all_eq_true.mp (List.all_eq_true.mp h1 x hx) y hy
    simp only [Bool.or_eq_true, decide_eq_true_eq, e1, e2, ne_eq, not_true, or_false] at this
    exact this
  · intro l hl x hx y hy d d' e1 e2
    have := List.all_eq_true.mp (List.all_eq_true.mp (List.all_eq_true.mp h3 l hl) x hx) y hy
    simp only [Bool.or_eq_true, decide_eq_true_eq, opensUnder_of e1, opensUnder_of e2, Bool.and_self, Bool.not_true, Bool.false_eq_true, or_false] at this
    exact this

theorem orderPrims_correct : orderPrims.Correct (fun _ pub priv => pub = priv) :=
  { gen := toyPrims_correct.gen, dh := toyPrims_correct.dh, store := toyPrims_correct.store, encap := toyPrims_correct.encap,
    cipher := toyPrims_correct.cipher, aead := toyPrims_correct.aead, sign := toyPrims_correct.sign }

theorem orderPrims_sized : orderPrims.KdfSized := by
  intro t h n m off size b hb
  simp only [orderPrims] at hb
  cases hb
  unfold toyBytes
  split
  · rfl
  · simp

theorem toyStart_started {s v : Session} {m0 : Letter} {x0 : KeyInput} {z : Sim} (h : toyStart = some (s, v, m0, x0, z))
    (hr : s.env.recipients = [toyBob]) (h1 : s.env.secrets = []) (h2 : s.env.senders = []) :
    Started orderPrims (fun _ pub priv => pub = priv) toyConfig toyWorld s m0 x0 b!"hello" z.pc v z.pv ∧
      z.ec = [] ∧ z.xc = [] ∧ z.ev = [] ∧ z.xv = [] := by
  unfold toyStart at h
  split at h
  · cases h
  · rename_i s' w' hw
    split at h
    · rename_i p m x hc hx
      split at h
      · cases h
      · rename_i v' wv hv
        split at h
        · rename_i q d ho
          cases h
          refine ⟨⟨⟨_, _, _, _, ?_, ?_, hw, by decide +kernel, hc, hx⟩, ?_, ?_, true, wv, d, hv, ho⟩, rfl, rfl, rfl, rfl⟩
          · decide +kernel
          · decide +kernel
          · rw [hr]; decide
          · refine ⟨by rw [h1]; simp, by rw [h1]; simp, by rw [h2]; simp, ?_⟩
            intro k hk
            rw [hr] at hk
            simp only [List.mem_singleton] at hk
            subst hk
            exact ⟨toyStore, { version := 1, id := b!"bob", scheme := b!"ECDH-X25519", key := [1, 8, 9, 10] }, toyBobPriv, [8, 9, 10], [8, 9, 10], rfl, by decide +kernel, rfl, rfl, by decide +kernel, rfl, rfl, rfl, rfl⟩
        · cases h
    · cases h

/-- A conversation with the complete handshake, in which letters of the client are reordered and replayed. -/
def unreliableTalk : List SimOp :=
  [.clientSend (byteRng 3) b!"a", .clientSend (byteRng 8) b!"b", .serverSend (byteRng 18) b!"x", .serverOpen 1, .clientOpen 0,
   .clientSend (byteRng 55) b!"c", .serverSend (byteRng 40) b!"y", .clientOpen 1, .clientOpen 1, .serverOpen 3, .serverOpen 2,
   .serverOpen 1, .serverOpen 0]

/-- The hypotheses of `wire_accepts_in_order` are met: "a", "b", "c" are sent, "c" arrives before "b", then "a" and the first letter
arrive again; only "a" is accepted. In the other direction "x" and "y" arrive, and "y" a second time. -/
theorem wire_order_example : ∃ s v m0 x0 p p' q q' k ec ev xc xv,
    Started orderPrims (fun _ pub priv => pub = priv) toyConfig toyWorld s m0 x0 b!"hello" p v q ∧ s.kdf = some k ∧
    PartyRun orderPrims toyConfig s p ec xc p' ∧ PartyRun orderPrims toyConfig v q ev xv q' ∧
    (∀ l ∈ givenIn ev, l = m0 ∨ l ∈ (sentIn ec).map (·.1)) ∧ (∀ l ∈ givenIn ec, l ∈ (sentIn ev).map (·.1)) ∧
    (m0.nonce :: (sentIn ec).map (·.1.nonce)).Nodup ∧ ((sentIn ev).map (·.1.nonce)).Nodup ∧
    NoBreak orderPrims k s.keySize x0 (xc ++ xv) (m0 :: (sentIn ec ++ sentIn ev).map (·.1)) ∧
    (sentIn ec).map (·.2) = [b!"a", b!"b", b!"c"] ∧ (acceptedIn ev).map (·.2) = [b!"a"] ∧ (givenIn ev).length = 5 ∧
    (sentIn ev).map (·.2) = [b!"x", b!"y"] ∧ (acceptedIn ec).map (·.2) = [b!"x", b!"y"] ∧ (givenIn ec).length = 3 := by
  have h : (match toyStart with
    | some (s, v, m0, x0, z) => decide (s.env.secrets = []) && decide (s.env.senders = []) && decide (s.env.recipients = [toyBob]) &&
      (match s.kdf with
        | none => false
        | some k =>
          let y := unreliableTalk.foldl (Sim.op orderPrims toyConfig s v m0) z
          decide (∀ l ∈ givenIn y.ev, l = m0 ∨ l ∈ (sentIn y.ec).map (·.1)) && decide (∀ l ∈ givenIn y.ec, l ∈ (sentIn y.ev).map (·.1)) &&
          decide ((m0.nonce :: (sentIn y.ec).map (·.1.nonce)).Nodup) && decide (((sentIn y.ev).map (·.1.nonce)).Nodup) &&
          noBreak orderPrims k s.keySize x0 (y.xc ++ y.xv) (m0 :: (sentIn y.ec ++ sentIn y.ev).map (·.1)) &&
          decide ((sentIn y.ec).map (·.2) = [b!"a", b!"b", b!"c"]) && decide ((acceptedIn y.ev).map (·.2) = [b!"a"]) &&
          decide ((givenIn y.ev).length = 5) && decide ((sentIn y.ev).map (·.2) = [b!"x", b!"y"]) &&
          decide ((acceptedIn y.ec).map (·.2) = [b!"x", b!"y"]) && decide ((givenIn y.ec).length = 3))
    | none => false) = true := by decide +kernel
  split at h
  · rename_i s v m0 x0 z hz
    simp only [Bool.and_eq_true, decide_eq_true_eq] at h
    obtain ⟨⟨⟨h1, h2⟩, h3⟩, h4⟩ := h
    split at h4
    · cases h4
    · rename_i k hk
      simp only [Bool.and_eq_true, decide_eq_true_eq] at h4
      obtain ⟨⟨⟨⟨⟨⟨⟨⟨⟨⟨a1, a2⟩, a3⟩, a4⟩, a5⟩, a6⟩, a7⟩, a8⟩, a9⟩, a10⟩, a11⟩ := h4
      obtain ⟨hst, e1, e2, e3, e4⟩ := toyStart_started hz h3 h1 h2
      obtain ⟨r1, r2⟩ := sim_runs (P := orderPrims) (cfg := toyConfig) (s := s) (v := v) (m0 := m0) (p := z.pc) (q := z.pv) unreliableTalk z
        (by rw [e1, e2]; exact .start) (by rw [e3, e4]; exact .start)
      exact ⟨s, v, m0, x0, z.pc, _, z.pv, _, k, _, _, _, _, hst, hk, r1, r2, a1, a2, a3, a4, noBreak_of a5, a6, a7, a8, a9, a10, a11⟩
  · cases h

/-- A conversation in which an attacker replaces the data of the client's second letter. -/
def replacingTalk : List SimOp :=
  [.clientSend (byteRng 3) b!"a", .clientSend (byteRng 8) b!"b",
   .serverGets (fun ls => { ls.getD 1 {} with data := [1, 2, 3, 4, 5] }), .serverOpen 2]

/-- The hypotheses of `wire_accepts_once` are met, and its conclusion cannot be strengthened to that of `wire_accepts_in_order`: an attacker
replaces the data of the letter "a". The server rejects it, but then accepts the next letter "b": its user gets "b" without "a". -/
theorem replaced_letter_refuted : ∃ s v m0 x0 p p' q q' k ec ev xc xv,
    Started orderPrims (fun _ pub priv => pub = priv) toyConfig toyWorld s m0 x0 b!"hello" p v q ∧ s.kdf = some k ∧
    PartyRun orderPrims toyConfig s p ec xc p' ∧ PartyRun orderPrims toyConfig v q ev xv q' ∧
    (∀ a ∈ acceptedIn ev, a.1 = m0 ∨ a.1 ∈ (sentIn ec).map (·.1)) ∧ (∀ a ∈ acceptedIn ec, a.1 ∈ (sentIn ev).map (·.1)) ∧
    NoBreak orderPrims k s.keySize x0 (xc ++ xv) (m0 :: (sentIn ec ++ sentIn ev).map (·.1)) ∧
    (sentIn ec).map (·.2) = [b!"a", b!"b"] ∧ (acceptedIn ev).map (·.2) = [b!"b"] := by
  have h : (match toyStart with
    | some (s, v, m0, x0, z) => decide (s.env.secrets = []) && decide (s.env.senders = []) && decide (s.env.recipients = [toyBob]) &&
      (match s.kdf with
        | none => false
        | some k =>
          let y := replacingTalk.foldl (Sim.op orderPrims toyConfig s v m0) z
          decide (∀ a ∈ acceptedIn y.ev, a.1 = m0 ∨ a.1 ∈ (sentIn y.ec).map (·.1)) && decide (∀ a ∈ acceptedIn y.ec, a.1 ∈ (sentIn y.ev).map (·.1)) &&
          noBreak orderPrims k s.keySize x0 (y.xc ++ y.xv) (m0 :: (sentIn y.ec ++ sentIn y.ev).map (·.1)) &&
          decide ((sentIn y.ec).map (·.2) = [b!"a", b!"b"]) && decide ((acceptedIn y.ev).map (·.2) = [b!"b"]))
    | none => false) = true := by decide +kernel
  split at h
  · rename_i s v m0 x0 z hz
    simp only [Bool.and_eq_true, decide_eq_true_eq] at h
    obtain ⟨⟨⟨h1, h2⟩, h3⟩, h4⟩ := h
    split at h4
    · cases h4
    · rename_i k hk
      simp only [Bool.and_eq_true, decide_eq_true_eq] at h4
      obtain ⟨⟨⟨⟨a1, a2⟩, a3⟩, a4⟩, a5⟩ := h4
      obtain ⟨hst, e1, e2, e3, e4⟩ := toyStart_started hz h3 h1 h2
      obtain ⟨r1, r2⟩ := sim_runs (P := orderPrims) (cfg := toyConfig) (s := s) (v := v) (m0 := m0) (p := z.pc) (q := z.pv) replacingTalk z
        (by rw [e1, e2]; exact .start) (by rw [e3, e4]; exact .start)
      exact ⟨s, v, m0, x0, z.pc, _, z.pv, _, k, _, _, _, _, hst, hk, r1, r2, a1, a2, noBreak_of a3, a4, a5⟩
  · cases h

end Jess
