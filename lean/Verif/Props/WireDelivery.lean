import Verif.Lemmas.WireFirst
import Verif.Props.Tamper

/-! C20: messages of a wire session that arrive in order are delivered. -/

namespace Jess

open Requirements

/-- Two parties, and the letters that are on the way in each direction (with the data that was sent). -/
structure Net where
  client : SState × Wire
  server : Option (Session × SState × Wire) := none
  c2s : List (Letter × Bytes) := []
  s2c : List (Letter × Bytes) := []

/-- What can happen between the two parties: either side sends (with any data and any random numbers), and letters arrive in
order. `s` is the client's session, `wo` and `reg` are the trust store and suites of the server. -/
inductive WStep (P : Prims) (cfg : Config) (wo : World) (reg : List Suite) (s : Session) : Net → Net → Prop
  /-- The client sends. -/
  | clientSend {n : Net} (rng : Rng) (data : Bytes) {x : SState × Wire} {l : Letter} :
      s.wireClose P cfg rng n.client.1 n.client.2 data = (x, .ok l) →
      WStep P cfg wo reg s n { n with client := x, c2s := n.c2s ++ [(l, data)] }
  /-- The first letter arrives: the server creates its session from it and opens it. -/
  | accept {n : Net} (asServer : Bool) {l : Letter} {d d' : Bytes} {q : List (Letter × Bytes)} {v : Session} {wv : Wire} {x : SState × Wire} :
      n.server = none → n.c2s = (l, d) :: q → l.wireCorrespondence P cfg wo reg = .ok (v, wv) →
      v.wireOpen P cfg v.initState (if asServer then wv.asServer else wv) l = (x, .ok d') →
      WStep P cfg wo reg s n { n with server := some (v, x), c2s := q }
  /-- The server sends. -/
  | serverSend {n : Net} (rng : Rng) (data : Bytes) {v : Session} {y x : SState × Wire} {l : Letter} :
      n.server = some (v, y) → v.wireClose P cfg rng y.1 y.2 data = (x, .ok l) →
      WStep P cfg wo reg s n { n with server := some (v, x), s2c := n.s2c ++ [(l, data)] }
  /-- A letter arrives at the server. -/
  | serverRecv {n : Net} {v : Session} {y x : SState × Wire} {l : Letter} {d d' : Bytes} {q : List (Letter × Bytes)} :
      n.server = some (v, y) → n.c2s = (l, d) :: q → v.wireOpen P cfg y.1 y.2 l = (x, .ok d') →
      WStep P cfg wo reg s n { n with server := some (v, x), c2s := q }
  /-- A letter arrives at the client. -/
  | clientRecv {n : Net} {x : SState × Wire} {l : Letter} {d d' : Bytes} {q : List (Letter × Bytes)} :
      n.s2c = (l, d) :: q → s.wireOpen P cfg n.client.1 n.client.2 l = (x, .ok d') →
      WStep P cfg wo reg s n { n with client := x, s2c := q }

/-- The states that can be reached from a state. -/
inductive WReach (P : Prims) (cfg : Config) (wo : World) (reg : List Suite) (s : Session) (n0 : Net) : Net → Prop
  | refl : WReach P cfg wo reg s n0 n0
  | step {n n' : Net} : WReach P cfg wo reg s n0 n → WStep P cfg wo reg s n n' → WReach P cfg wo reg s n0 n'

/-! ## The invariant -/

section
variable (P : Prims) (s : Session) (k : ToolInst)

/-- Letters without handshake between the carryover keys `c` and `c'`. -/
inductive Plain : Bytes → List (Letter × Bytes) → Bytes → Prop
  | nil {c : Bytes} : Plain c [] c
  | cons {c c1 c' : Bytes} {mat : List Bytes} {off : Nat} {l : Letter} {d : Bytes} {q : List (Letter × Bytes)} :
      ratchet P s k 1 c l.nonce [] = .ok (c1, mat, off) → Sealed P s k mat off l d → l.keys = [] → l.applyKeys = false →
      Plain c1 q c' → Plain c ((l, d) :: q) c'

/-- Letters from the client between the server's and the client's view of the new key material. -/
inductive Chain : List Bytes → Bytes → List (Letter × Bytes) → List Bytes → Bytes → Prop
  | nil {M : List Bytes} {c : Bytes} : Chain M c [] M c
  | plain {M M' : List Bytes} {c c1 c' : Bytes} {mat : List Bytes} {off : Nat} {l : Letter} {d : Bytes} {q : List (Letter × Bytes)} :
      ratchet P s k 1 c l.nonce [] = .ok (c1, mat, off) → Sealed P s k mat off l d → l.applyKeys = false →
      Chain M c1 q M' c' → Chain M c ((l, d) :: q) M' c'
  | apply {M M' : List Bytes} {c c1 c' : Bytes} {mat : List Bytes} {off : Nat} {l : Letter} {d : Bytes} {q : List (Letter × Bytes)} :
      ratchet P s k 1 c l.nonce M = .ok (c1, mat, off) → Sealed P s k mat off l d → l.applyKeys = true →
      Chain [] c1 q M' c' → Chain M c ((l, d) :: q) M' c'

end

section
variable {P : Prims} {s : Session} {k : ToolInst}

theorem Plain.snoc {c c' c2 : Bytes} {q : List (Letter × Bytes)} {mat : List Bytes} {off : Nat} {l : Letter} {d : Bytes}
    (h : Plain P s k c q c') (h1 : ratchet P s k 1 c' l.nonce [] = .ok (c2, mat, off)) (h2 : Sealed P s k mat off l d)
    (h3 : l.keys = []) (h4 : l.applyKeys = false) : Plain P s k c (q ++ [(l, d)]) c2 := by
  induction h with
  | nil => exact .cons h1 h2 h3 h4 .nil
  | cons a1 a2 a3 a4 _ ih => exact .cons a1 a2 a3 a4 (ih h1)

theorem Plain.chain {c c' : Bytes} {q : List (Letter × Bytes)} (h : Plain P s k c q c') (M : List Bytes) : Chain P s k M c q M c' := by
  induction h with
  | nil => exact .nil
  | cons a1 a2 a3 a4 _ ih => exact .plain a1 a2 a4 ih

theorem Chain.snoc {M M' : List Bytes} {c c' c2 : Bytes} {q : List (Letter × Bytes)} {mat : List Bytes} {off : Nat} {l : Letter} {d : Bytes}
    (h : Chain P s k M c q M' c') (h1 : ratchet P s k 1 c' l.nonce M' = .ok (c2, mat, off)) (h2 : Sealed P s k mat off l d)
    (h4 : l.applyKeys = true) : Chain P s k M c (q ++ [(l, d)]) [] c2 := by
  induction h with
  | nil => exact .apply h1 h2 h4 .nil
  | plain a1 a2 a3 _ ih => exact .plain a1 a2 a3 (ih h1)
  | apply a1 a2 a3 _ ih => exact .apply a1 a2 a3 (ih h1)

end

/-- The invariant of a conversation, by the progress of the handshake. -/
inductive Conv (P : Prims) (pair : Bytes → Bytes → Bytes → Prop) (cfg : Config) (wo : World) (reg : List Suite) (s : Session)
    (k : ToolInst) : Net → Prop
  /-- Nothing was sent. -/
  | idle {st : SState} {b : Bool} (hc : Clean s st) : Conv P pair cfg wo reg s k { client := (st, { server := b }) }
  /-- The first letter is on the way. -/
  | offered {st : SState} {wc : Wire} {C0 : Bytes} {m0 : Letter} {d0 : Bytes} {q : List (Letter × Bytes)} {eo : Envelope}
      (hc : Clean s st) (hs : wc.hs = .awaitKey) (hn : wc.msgNo ≠ 0) (hr : wc.recvCarry = C0)
      (hne : wc.kx.length + wc.ke.length ≠ 0)
      (hco : m0.wireCorrespondence P cfg wo reg = .ok ({ s with env := eo }, {}))
      (hop : ∀ b', ∃ stv vkx vke, Clean s stv ∧ All2 (MatchKX P pair) wc.kx vkx ∧ All2 (MatchKE P pair) wc.ke vke ∧
        ({ s with env := eo } : Session).wireOpen P cfg ({ s with env := eo } : Session).initState { server := b' } m0 =
          ((stv, { server := b', msgNo := 1, sendCarry := C0, recvCarry := C0, kx := vkx, ke := vke, hs := .sendKey }), .ok d0))
      (hq : Plain P s k C0 q wc.sendCarry) :
      Conv P pair cfg wo reg s k { client := (st, wc), c2s := (m0, d0) :: q }
  /-- The server has the client's keys. -/
  | accepted {st stv : SState} {wc wv : Wire} {q : List (Letter × Bytes)} {eo : Envelope}
      (hc : Clean s st) (hs : wc.hs = .awaitKey) (hn : wc.msgNo ≠ 0) (hne : wc.kx.length + wc.ke.length ≠ 0)
      (hcv : Clean s stv) (hsv : wv.hs = .sendKey) (hnv : wv.msgNo ≠ 0)
      (hx : All2 (MatchKX P pair) wc.kx wv.kx) (he : All2 (MatchKE P pair) wc.ke wv.ke)
      (hq : Plain P s k wv.recvCarry q wc.sendCarry) (hr : wv.sendCarry = wc.recvCarry) :
      Conv P pair cfg wo reg s k { client := (st, wc), server := some ({ s with env := eo }, stv, wv), c2s := q }
  /-- The server has answered. -/
  | answered {st stv : SState} {wc wv : Wire} {q q' : List (Letter × Bytes)} {eo : Envelope} {k0 : Letter} {d0 c1 : Bytes}
      {mat : List Bytes} {off : Nat}
      (hc : Clean s st) (hs : wc.hs = .awaitKey) (hn : wc.msgNo ≠ 0)
      (hcv : Clean s stv) (hsv : wv.hs = .awaitApply) (hnv : wv.msgNo ≠ 0)
      (hans : ∀ w : Wire, w.kx = wc.kx → w.ke = wc.ke → ∃ kx ke, recvAnswer P w k0 = ({ w with kx := kx, ke := ke, newMaterial := wv.newMaterial, hs := .sendApply }, .ok wv.newMaterial))
      (h1 : ratchet P s k 1 wc.recvCarry k0.nonce wv.newMaterial = .ok (c1, mat, off)) (h2 : Sealed P s k mat off k0 d0)
      (hq : Plain P s k wv.recvCarry q wc.sendCarry) (hq' : Plain P s k c1 q' wv.sendCarry) :
      Conv P pair cfg wo reg s k { client := (st, wc), server := some ({ s with env := eo }, stv, wv), c2s := q, s2c := (k0, d0) :: q' }
  /-- The client has the answer. -/
  | established {st stv : SState} {wc wv : Wire} {q q' : List (Letter × Bytes)} {eo : Envelope}
      (hc : Clean s st) (hs : wc.hs = .sendApply) (hn : wc.msgNo ≠ 0)
      (hcv : Clean s stv) (hsv : wv.hs = .awaitApply) (hnv : wv.msgNo ≠ 0)
      (hq : Chain P s k wv.newMaterial wv.recvCarry q wc.newMaterial wc.sendCarry) (hq' : Plain P s k wc.recvCarry q' wv.sendCarry) :
      Conv P pair cfg wo reg s k { client := (st, wc), server := some ({ s with env := eo }, stv, wv), c2s := q, s2c := q' }

/-! ## Single steps -/

section
variable {P : Prims} {pair : Bytes → Bytes → Bytes → Prop} {cfg : Config} {wo : World} {reg : List Suite} {s : Session} {k : ToolInst}

theorem sealed_env (eo : Envelope) {mat : List Bytes} {off : Nat} {l : Letter} {d : Bytes} (h : Sealed P { s with env := eo } k mat off l d) :
    Sealed P s k mat off l d := fun e st hc => h e st ((clean_env eo).mpr hc)

/-- Sending, after the first message. -/
theorem later_send (hP : P.Correct pair) (B : WireBase P pair cfg wo reg s k) (eo : Envelope) {rng : Rng} {st : SState} {w : Wire} {data : Bytes}
    {x : SState × Wire} {l : Letter} (hc : Clean s st) (hn : w.msgNo ≠ 0) (hi : w.hs ≠ .init)
    (h : ({ s with env := eo } : Session).wireClose P cfg rng st w data = (x, .ok l)) :
    ∃ w1 out c mat off, sendSwitch P cfg rng { s with env := eo } w l.nonce = (w1, .ok out) ∧
      (w1.msgNo = w.msgNo → ratchet P s k 1 w1.sendCarry l.nonce out.material = .ok (c, mat, off)) ∧ x.2 = w1.sent c out.burn ∧
      Sealed P s k mat off l data ∧ Clean s x.1 ∧ l.keys = out.keys ∧ l.applyKeys = out.apply := by
  obtain ⟨st', w'⟩ := x
  obtain ⟨w1, out, c, mat, off, h1, h2, h3, h4, h5, d, m, h6⟩ := wireClose_ok (s := { s with env := eo }) hP B.kdf B.signing
    ((clean_env eo).mpr hc) h
  refine ⟨w1, out, c, mat, off, h1, ?_, h3, sealed_env eo h4, (clean_env eo).mp h5, by rw [h6], by rw [h6]⟩
  intro hm
  have hn1 : w1.msgNo ≠ 0 := by rw [hm]; exact hn
  rw [← ratchet_pos P s k hn1]
  exact h2

/-- Sending while waiting. -/
theorem waiting_send (hP : P.Correct pair) (B : WireBase P pair cfg wo reg s k) (eo : Envelope) {rng : Rng} {st : SState} {w : Wire} {data : Bytes}
    {x : SState × Wire} {l : Letter} (hc : Clean s st) (hn : w.msgNo ≠ 0) (hi : w.hs = .awaitKey ∨ w.hs = .awaitApply)
    (h : ({ s with env := eo } : Session).wireClose P cfg rng st w data = (x, .ok l)) :
    ∃ c mat off, ratchet P s k 1 w.sendCarry l.nonce [] = .ok (c, mat, off) ∧ x.2 = w.sent c false ∧
      Sealed P s k mat off l data ∧ Clean s x.1 ∧ l.keys = [] ∧ l.applyKeys = false := by
  obtain ⟨w1, out, c, mat, off, h1, h2, h3, h4, h5, h6, h7⟩ := later_send hP B eo hc hn (by rcases hi with h | h <;> rw [h] <;> simp) h
  have : (w1, (.ok out : Res SendOut)) = (w, .ok {}) := by
    rw [← h1]; unfold sendSwitch; rcases hi with h | h <;> rw [h]
  simp only [Prod.mk.injEq, Except.ok.injEq] at this
  obtain ⟨rfl, rfl⟩ := this
  exact ⟨c, mat, off, h2 rfl, h3, h4, h5, h6, h7⟩

theorem sent_false {w : Wire} (hn : w.msgNo ≠ 0) (c : Bytes) : w.sent c false = { w with sendCarry := c, msgNo := w.msgNo + 1 } := by
  simp [Wire.sent, hn]

theorem sent_true {w : Wire} (hn : w.msgNo ≠ 0) (c : Bytes) :
    w.sent c true = ({ w with sendCarry := c, msgNo := w.msgNo + 1 } : Wire).burn := by
  simp [Wire.sent, hn]

theorem received_false {w : Wire} (hn : w.msgNo ≠ 0) (c : Bytes) : w.received c false = { w with recvCarry := c, msgNo := w.msgNo + 1 } := by
  simp [Wire.received, hn]

theorem received_true {w : Wire} (hn : w.msgNo ≠ 0) (c : Bytes) :
    w.received c true = ({ w with recvCarry := c, msgNo := w.msgNo + 1 } : Wire).burn := by
  simp [Wire.received, hn]

/-- Receiving a letter without handshake. -/
theorem plain_recv (B : WireBase P pair cfg wo reg s k) (eo : Envelope) {st : SState} {w : Wire} {l : Letter} {d c : Bytes} {mat : List Bytes}
    {off : Nat} (hc : Clean s st) (hn : w.msgNo ≠ 0)
    (hh : w.hs = .sendKey ∨ w.hs = .sendApply ∨ (w.hs = .awaitApply ∧ l.applyKeys = false))
    (h1 : ratchet P s k 1 w.recvCarry l.nonce [] = .ok (c, mat, off)) (h2 : Sealed P s k mat off l d) :
    ∃ st', Clean s st' ∧ ({ s with env := eo } : Session).wireOpen P cfg st w l =
      ((st', { w with recvCarry := c, msgNo := w.msgNo + 1 }), .ok d) := by
  rw [← ratchet_pos P s k hn] at h1
  have hsw : recvSwitch P cfg { s with env := eo } w l = (w, .ok ([], false)) := by
    unfold recvSwitch
    rcases hh with h | h | ⟨h, h'⟩
    · rw [h]
    · rw [h]
    · rw [h]; simp [h']
  obtain ⟨st', a, b⟩ := wireOpen_ok eo B.kdf B.signing hc hsw h1 h2
  exact ⟨st', a, by rw [b, received_false hn]⟩

/-- Receiving a letter that applies the new keys. -/
theorem apply_recv (B : WireBase P pair cfg wo reg s k) (eo : Envelope) {st : SState} {w : Wire} {l : Letter} {d c : Bytes} {mat : List Bytes}
    {off : Nat} (hc : Clean s st) (hn : w.msgNo ≠ 0) (hh : w.hs = .awaitApply) (ha : l.applyKeys = true)
    (h1 : ratchet P s k 1 w.recvCarry l.nonce w.newMaterial = .ok (c, mat, off)) (h2 : Sealed P s k mat off l d) :
    ∃ st', Clean s st' ∧ ({ s with env := eo } : Session).wireOpen P cfg st w l =
      ((st', ({ w with recvCarry := c, msgNo := w.msgNo + 1 } : Wire).burn), .ok d) := by
  rw [← ratchet_pos P s k hn] at h1
  have hsw : recvSwitch P cfg { s with env := eo } w l = (w, .ok (w.newMaterial, true)) := by
    unfold recvSwitch; rw [hh]; simp [ha]
  obtain ⟨st', a, b⟩ := wireOpen_ok eo B.kdf B.signing hc hsw h1 h2
  exact ⟨st', a, by rw [b, received_true hn]⟩

end

/-! ## Delivery -/

/-- The next letter in each direction is delivered (specification). -/
def Delivers (P : Prims) (cfg : Config) (wo : World) (reg : List Suite) (s : Session) (n : Net) : Prop :=
  (∀ l d q, n.c2s = (l, d) :: q →
    match n.server with
    | none => ∃ v wv, l.wireCorrespondence P cfg wo reg = .ok (v, wv) ∧
        (v.wireOpen P cfg v.initState wv l).2 = .ok d ∧ (v.wireOpen P cfg v.initState wv.asServer l).2 = .ok d
    | some (v, st, w) => (v.wireOpen P cfg st w l).2 = .ok d) ∧
  (∀ l d q, n.s2c = (l, d) :: q → (s.wireOpen P cfg n.client.1 n.client.2 l).2 = .ok d)

section
variable {P : Prims} {pair : Bytes → Bytes → Bytes → Prop} {cfg : Config} {wo : World} {reg : List Suite} {s : Session} {k : ToolInst}

/-- What the client does with the server's answer. -/
theorem answer_recv (B : WireBase P pair cfg wo reg s k) {st : SState} {w : Wire} {l : Letter} {d c : Bytes} {M mat : List Bytes}
    {off : Nat} (hc : Clean s st) (hn : w.msgNo ≠ 0) (hh : w.hs = .awaitKey)
    (ha : ∃ kx ke, recvAnswer P w l = ({ w with kx := kx, ke := ke, newMaterial := M, hs := .sendApply }, .ok M))
    (h1 : ratchet P s k 1 w.recvCarry l.nonce M = .ok (c, mat, off)) (h2 : Sealed P s k mat off l d) :
    ∃ st' kx ke, Clean s st' ∧ s.wireOpen P cfg st w l =
      ((st', { w with recvCarry := c, msgNo := w.msgNo + 1, kx := kx, ke := ke, newMaterial := M, hs := .sendApply }), .ok d) := by
  obtain ⟨kx, ke, ha⟩ := ha
  rw [← ratchet_pos P s k hn] at h1
  have hsw : recvSwitch P cfg { s with env := s.env } w l =
      ({ w with kx := kx, ke := ke, newMaterial := M, hs := .sendApply }, .ok (M, false)) := by
    unfold recvSwitch; rw [hh]; simp only [ha]
  obtain ⟨st', a, b⟩ := wireOpen_ok s.env B.kdf B.signing hc hsw h1 h2
  exact ⟨st', kx, ke, a, by
    rw [received_false (w := { w with kx := kx, ke := ke, newMaterial := M, hs := .sendApply }) hn] at b; exact b⟩

theorem conv_delivers (B : WireBase P pair cfg wo reg s k) {n : Net} (h : Conv P pair cfg wo reg s k n) : Delivers P cfg wo reg s n := by
  cases h with
  | idle hc => exact ⟨by simp, by simp⟩
  | offered hc hs hn hr hne hco hop hq =>
    refine ⟨?_, by simp⟩
    intro l d q' hl
    simp only [List.cons.injEq, Prod.mk.injEq] at hl
    obtain ⟨⟨rfl, rfl⟩, rfl⟩ := hl
    obtain ⟨_, _, _, _, _, _, o1⟩ := hop false
    obtain ⟨_, _, _, _, _, _, o2⟩ := hop true
    exact ⟨_, _, hco, by rw [o1], by rw [show ({} : Wire).asServer = { server := true } from rfl, o2]⟩
  | accepted hc hs hn hne hcv hsv hnv hx he hq hr =>
    refine ⟨?_, by simp⟩
    intro l d q' hl
    simp only at hl
    subst hl
    cases hq with
    | cons a1 a2 a3 a4 a5 =>
      exact (plain_recv (cfg := cfg) B _ hcv hnv (Or.inl hsv) a1 a2).elim fun _ h => congrArg Prod.snd h.2
  | answered hc hs hn hcv hsv hnv hans h1 h2 hq hq' =>
    constructor
    · intro l d q' hl
      simp only at hl
      subst hl
      cases hq with
      | cons a1 a2 a3 a4 a5 =>
        exact (plain_recv (cfg := cfg) B _ hcv hnv (Or.inr (Or.inr ⟨hsv, a4⟩)) a1 a2).elim fun _ h => congrArg Prod.snd h.2
    · intro l d q' hl
      simp only [List.cons.injEq, Prod.mk.injEq] at hl
      obtain ⟨⟨rfl, rfl⟩, rfl⟩ := hl
      obtain ⟨_, _, _, _, h⟩ := answer_recv (cfg := cfg) B hc hn hs (hans _ rfl rfl) h1 h2
      simp only [h]
  | established hc hs hn hcv hsv hnv hq hq' =>
    constructor
    · intro l d q' hl
      simp only at hl
      subst hl
      cases hq with
      | plain a1 a2 a4 a5 =>
        exact (plain_recv (cfg := cfg) B _ hcv hnv (Or.inr (Or.inr ⟨hsv, a4⟩)) a1 a2).elim fun _ h => congrArg Prod.snd h.2
      | apply a1 a2 a4 a5 =>
        exact (apply_recv (cfg := cfg) B _ hcv hnv hsv a4 a1 a2).elim fun _ h => congrArg Prod.snd h.2
    · intro l d q' hl
      simp only at hl
      subst hl
      cases hq' with
      | cons a1 a2 a3 a4 a5 =>
        obtain ⟨_, _, h⟩ := plain_recv (cfg := cfg) B s.env hc hn (Or.inr (Or.inl hs)) a1 a2
        rw [show ({ s with env := s.env } : Session) = s from rfl] at h
        simp only [h]

theorem answer_len {w : Wire} {rng : Rng} {w' : Wire} {out : SendOut} (hP : P.Correct pair) {ckx : List KxPair} {cke : List KePair}
    (hx : All2 (MatchKX P pair) ckx w.kx) (he : All2 (MatchKE P pair) cke w.ke) (h : complete P rng s w = (w', .ok out))
    (hne : ckx.length + cke.length ≠ 0) : out.keys.length ≠ 0 := by
  rw [(answer_spec hP hx he h).2.2.2.1]; exact hne

theorem conv_step (hP : P.Correct pair) (B : WireBase P pair cfg wo reg s k) {n n' : Net} (h : Conv P pair cfg wo reg s k n)
    (hstep : WStep P cfg wo reg s n n') : Conv P pair cfg wo reg s k n' := by
  cases h with
  | idle hc =>
    cases hstep with
    | clientSend rng data h =>
      rename_i x l
      obtain ⟨st', w'⟩ := x
      obtain ⟨C0, kx, ke, eo, rfl, h2, h3, h4, h5⟩ := first_message hP B hc h
      exact .offered h2 rfl (by simp) rfl h3 h4 h5 .nil
    | accept _ h1 h2 => simp at h2
    | serverSend _ _ h1 => simp at h1
    | serverRecv h1 => simp at h1
    | clientRecv h1 => simp at h1
  | offered hc hs hn hr hne hco hop hq =>
    rename_i st wc C0 m0 d0 q eo
    cases hstep with
    | clientSend rng data h =>
      rename_i x l
      obtain ⟨st', w'⟩ := x
      obtain ⟨c, mat, off, a1, a2, a3, a4, a5, a6⟩ := waiting_send hP B s.env hc hn (Or.inl hs) h
      rw [sent_false hn] at a2
      simp only at a2 a4
      subst a2
      have hq' := hq.snoc a1 a3 a5 a6
      exact .offered (wc := { wc with sendCarry := c, msgNo := wc.msgNo + 1 }) a4 hs (by simp) hr hne hco hop hq'
    | accept b h1 h2 h3 h4 =>
      simp only [List.cons.injEq, Prod.mk.injEq] at h2
      obtain ⟨⟨rfl, rfl⟩, rfl⟩ := h2
      rw [hco] at h3
      simp only [Except.ok.injEq, Prod.mk.injEq] at h3
      obtain ⟨rfl, rfl⟩ := h3
      obtain ⟨stv, vkx, vke, o1, o2, o3, o4⟩ := hop b
      have hb : (if b = true then ({} : Wire).asServer else {}) = { server := b } := by cases b <;> rfl
      rw [hb, o4] at h4
      simp only [Prod.mk.injEq] at h4
      obtain ⟨rfl, _⟩ := h4
      exact .accepted hc hs hn hne o1 rfl (by simp) o2 o3 hq hr.symm
    | serverSend _ _ h1 => simp at h1
    | serverRecv h1 => simp at h1
    | clientRecv h1 => simp at h1
  | accepted hc hs hn hne hcv hsv hnv hx he hq hr =>
    rename_i st stv wc wv q eo
    cases hstep with
    | clientSend rng data h =>
      rename_i x l
      obtain ⟨st', w'⟩ := x
      obtain ⟨c, mat, off, a1, a2, a3, a4, a5, a6⟩ := waiting_send hP B s.env hc hn (Or.inl hs) h
      rw [sent_false hn] at a2
      simp only at a2 a4
      subst a2
      have hq' := hq.snoc a1 a3 a5 a6
      exact .accepted (wc := { wc with sendCarry := c, msgNo := wc.msgNo + 1 }) a4 hs (by simp) hne hcv hsv hnv hx he hq' hr
    | accept b h1 => simp at h1
    | serverSend rng data h1 h =>
      rename_i v y x l
      obtain ⟨st', w'⟩ := x
      simp only [Option.some.injEq, Prod.mk.injEq] at h1
      obtain ⟨rfl, rfl⟩ := h1
      obtain ⟨w1, out, c, mat, off, a1, a2, a3, a4, a5, a6, a7⟩ := later_send hP B eo hcv hnv (by rw [hsv]; simp) h
      simp only at a3 a5
      have hcm : complete P rng { s with env := eo } wv = (w1, .ok out) := by
        rw [← a1]; unfold sendSwitch; rw [hsv]
      have hlen := answer_len hP hx he hcm hne
      obtain ⟨⟨kx, ke, s1⟩, s2, s3, s4, s5⟩ := answer_spec hP hx he hcm
      subst s1
      have a2' := a2 rfl
      rw [s3, sent_false (by simpa using hnv)] at a3
      subst a3
      simp only at a2'
      rw [hr] at a2'
      refine .answered (wv := { wv with kx := kx, ke := ke, newMaterial := out.material, hs := .awaitApply, sendCarry := c, msgNo := wv.msgNo + 1 })
        hc hs hn a5 rfl (by simp) ?_ a2' a4 hq .nil
      intro w e1 e2
      exact s5 w l e1 e2 a6 hlen
    | serverRecv h1 h2 h3 =>
      simp only [Option.some.injEq, Prod.mk.injEq] at h1
      obtain ⟨rfl, rfl⟩ := h1
      simp only at h2
      subst h2
      cases hq with
      | cons a1 a2 a3 a4 a5 =>
        obtain ⟨st', p1, p2⟩ := plain_recv (cfg := cfg) B eo hcv hnv (Or.inl hsv) a1 a2
        rw [p2] at h3
        simp only [Prod.mk.injEq] at h3
        obtain ⟨rfl, _⟩ := h3
        exact .accepted (wv := { wv with recvCarry := _, msgNo := wv.msgNo + 1 }) hc hs hn hne p1 hsv (by simp) hx he a5 hr
    | clientRecv h1 => simp at h1
  | answered hc hs hn hcv hsv hnv hans h1 h2 hq hq' =>
    rename_i st stv wc wv q q' eo k0 d0 c1 mat off
    cases hstep with
    | clientSend rng data h =>
      rename_i x l
      obtain ⟨st', w'⟩ := x
      obtain ⟨c, mat, off, a1, a2, a3, a4, a5, a6⟩ := waiting_send hP B s.env hc hn (Or.inl hs) h
      rw [sent_false hn] at a2
      simp only at a2 a4
      subst a2
      have hqs := hq.snoc a1 a3 a5 a6
      exact .answered (wc := { wc with sendCarry := c, msgNo := wc.msgNo + 1 }) a4 hs (by simp) hcv hsv hnv hans h1 h2 hqs hq'
    | accept b h1 => simp at h1
    | serverSend rng data g1 h =>
      rename_i v y x l
      obtain ⟨st', w'⟩ := x
      simp only [Option.some.injEq, Prod.mk.injEq] at g1
      obtain ⟨rfl, rfl⟩ := g1
      obtain ⟨c, mat, off, a1, a2, a3, a4, a5, a6⟩ := waiting_send hP B eo hcv hnv (Or.inr hsv) h
      rw [sent_false hnv] at a2
      simp only at a2 a4
      subst a2
      have hqs := hq'.snoc a1 a3 a5 a6
      exact .answered (wv := { wv with sendCarry := c, msgNo := wv.msgNo + 1 }) hc hs hn a4 hsv (by simp) hans h1 h2 hq hqs
    | serverRecv g1 g2 g3 =>
      simp only [Option.some.injEq, Prod.mk.injEq] at g1
      obtain ⟨rfl, rfl⟩ := g1
      simp only at g2
      subst g2
      cases hq with
      | cons a1 a2 a3 a4 a5 =>
        obtain ⟨st', p1, p2⟩ := plain_recv (cfg := cfg) B eo hcv hnv (Or.inr (Or.inr ⟨hsv, a4⟩)) a1 a2
        rw [p2] at g3
        simp only [Prod.mk.injEq] at g3
        obtain ⟨rfl, _⟩ := g3
        exact .answered (wv := { wv with recvCarry := _, msgNo := wv.msgNo + 1 }) hc hs hn p1 hsv (by simp) hans h1 h2 a5 hq'
    | clientRecv g2 g3 =>
      simp only [List.cons.injEq, Prod.mk.injEq] at g2
      obtain ⟨⟨rfl, rfl⟩, rfl⟩ := g2
      obtain ⟨st', kx, ke, p1, p2⟩ := answer_recv (cfg := cfg) B hc hn hs (hans _ rfl rfl) h1 h2
      rw [p2] at g3
      simp only [Prod.mk.injEq] at g3
      obtain ⟨rfl, _⟩ := g3
      exact .established p1 rfl (by simp) hcv hsv hnv (hq.chain _) hq'
  | established hc hs hn hcv hsv hnv hq hq' =>
    rename_i st stv wc wv q q' eo
    cases hstep with
    | clientSend rng data h =>
      rename_i x l
      obtain ⟨st', w'⟩ := x
      obtain ⟨w1, out, c, mat, off, a1, a2, a3, a4, a5, a6, a7⟩ := later_send hP B s.env hc hn (by rw [hs]; simp) h
      have : (w1, (.ok out : Res SendOut)) = (wc, .ok { material := wc.newMaterial, apply := true, burn := true }) := by
        rw [← a1]; unfold sendSwitch; rw [hs]
      simp only [Prod.mk.injEq, Except.ok.injEq] at this
      obtain ⟨rfl, rfl⟩ := this
      simp only at a3 a5 a7
      rw [sent_true hn] at a3
      subst a3
      exact .established a5 hs (by simp [Wire.burn]) hcv hsv hnv (hq.snoc (a2 rfl) a4 a7) hq'
    | accept b h1 => simp at h1
    | serverSend rng data g1 h =>
      rename_i v y x l
      obtain ⟨st', w'⟩ := x
      simp only [Option.some.injEq, Prod.mk.injEq] at g1
      obtain ⟨rfl, rfl⟩ := g1
      obtain ⟨c, mat, off, a1, a2, a3, a4, a5, a6⟩ := waiting_send hP B eo hcv hnv (Or.inr hsv) h
      rw [sent_false hnv] at a2
      simp only at a2 a4
      subst a2
      have hqs := hq'.snoc a1 a3 a5 a6
      exact .established (wv := { wv with sendCarry := c, msgNo := wv.msgNo + 1 }) hc hs hn a4 hsv (by simp) hq hqs
    | serverRecv g1 g2 g3 =>
      simp only [Option.some.injEq, Prod.mk.injEq] at g1
      obtain ⟨rfl, rfl⟩ := g1
      simp only at g2
      subst g2
      cases hq with
      | plain a1 a2 a4 a5 =>
        obtain ⟨st', p1, p2⟩ := plain_recv (cfg := cfg) B eo hcv hnv (Or.inr (Or.inr ⟨hsv, a4⟩)) a1 a2
        rw [p2] at g3
        simp only [Prod.mk.injEq] at g3
        obtain ⟨rfl, _⟩ := g3
        exact .established (wv := { wv with recvCarry := _, msgNo := wv.msgNo + 1 }) hc hs hn p1 hsv (by simp) a5 hq'
      | apply a1 a2 a4 a5 =>
        obtain ⟨st', p1, p2⟩ := apply_recv (cfg := cfg) B eo hcv hnv hsv a4 a1 a2
        rw [p2] at g3
        simp only [Prod.mk.injEq] at g3
        obtain ⟨rfl, _⟩ := g3
        exact .established (wv := ({ wv with recvCarry := _, msgNo := wv.msgNo + 1 } : Wire).burn) hc hs hn p1 hsv (by simp [Wire.burn]) a5 hq'
    | clientRecv g2 g3 =>
      simp only at g2
      subst g2
      cases hq' with
      | cons a1 a2 a3 a4 a5 =>
        obtain ⟨st', p1, p2⟩ := plain_recv (cfg := cfg) B s.env hc hn (Or.inr (Or.inl hs)) a1 a2
        rw [show ({ s with env := s.env } : Session) = s from rfl] at p2
        rw [p2] at g3
        simp only [Prod.mk.injEq] at g3
        obtain ⟨rfl, _⟩ := g3
        exact .established (wc := { wc with recvCarry := _, msgNo := wc.msgNo + 1 }) p1 hs (by simp) hcv hsv hnv hq a5

theorem conv_reach (hP : P.Correct pair) (B : WireBase P pair cfg wo reg s k) {n0 n : Net} (h0 : Conv P pair cfg wo reg s k n0)
    (h : WReach P cfg wo reg s n0 n) : Conv P pair cfg wo reg s k n := by
  induction h with
  | refl => exact h0
  | step _ hs ih => exact conv_step hP B ih hs

end

theorem registered_tools_provide : ∀ su ∈ suiteRegistry, ∀ t ∈ instsOf su, ∀ a ∈ full.remove SenderAuthentication,
    a ∈ providedBy t.info.purpose → a ∈ su.provides := by decide +kernel

theorem wireBase_of {P : Prims} {pair : Bytes → Bytes → Bytes → Prop} {cfg : Config} {wc wo : World} {e : Envelope} (hes : e.suite = none)
    (hev : e.version = 1) {s : Session} {w : Wire} (hs : wireCorrespondence P cfg wc suiteRegistry e = .ok (s, w))
    (hlev : demandedLevel cfg 0 ≤ demandedLevel cfg e.securityLevel) (hids : ∀ r ∈ s.env.recipients, r.id ≠ [])
    (hcp : Counterparts P pair wo s) : w = {} ∧ ∃ k, WireBase P pair cfg wo suiteRegistry s k := by
  simp only [wireCorrespondence, correspondence, loadSuite, hes, bind_ok_iff] at hs
  obtain ⟨s', ⟨⟨e1, su⟩, h1, h2⟩, wi, hwi, hx⟩ := hs
  cases hx
  split at h1
  · cases h1
  · rename_i su' hsu
    cases h1
    obtain ⟨e2, hp, hn⟩ := h2
    simp only [prepareSignets, bind_ok_iff] at hp
    obtain ⟨a, _, b, _, c, _, hx⟩ := hp
    cases hx
    obtain ⟨g1, g2⟩ := newSession_env hn
    simp only [Option.some.injEq] at g2
    have hmem := List.mem_of_find?_eq_some hsu
    have hidm : su.id = e.suiteID := by
      have := List.find?_some hsu
      simpa using this
    have hn' : newSession P cfg s.env = .ok s := by rw [g1]; exact hn
    obtain ⟨hnd, hone⟩ := registered_session hn' (by rw [← g2]; exact hmem)
    obtain ⟨w1, w2, w3, w4, w5⟩ := initWire_spec hwi
    have hR : RecipientAuthentication ∈ s.reqs := w2 _ (by decide)
    obtain ⟨k, hk⟩ := Option.ne_none_iff_exists'.mp (kdfTool_of_secret hn' hR)
    have hsid : s.env.suiteID ≠ [] := by
      rw [g1]; show e.suiteID ≠ []; rw [← hidm]; exact registered_ids su hmem
    have hsu' : getSuite suiteRegistry s.env.suiteID = some s.suite := by rw [g1, ← g2]; exact hsu
    have hv' : s.env.version = 1 := by rw [g1]; exact hev
    have hl' : demandedLevel cfg 0 ≤ demandedLevel cfg s.env.securityLevel := by rw [g1]; exact hlev
    refine ⟨w1, k, hn', hnd, hone _ (by simp), hone _ (by simp), hv', hsu', hsid, hl', hids, hcp, ?_, w1 ▸ hwi, hk⟩
    intro a ha
    have hin := session_insts hn'
    rcases (session_reqs_iff hn' a).mp (w2 a ha) with ⟨t, ht, hta⟩ | ⟨⟨q, hq, hqs⟩, _⟩
    · rw [hin] at ht
      exact registered_tools_provide s.suite (by rw [← g2]; exact hmem) t ht a ha hta
    · have : q ∈ ofScheme s.env.secrets schemeKey := (mem_ofScheme (by decide) q).mpr ⟨hq, hqs⟩
      rw [w5] at this; simp at this

/-- C20. Whatever the two parties of a wire session (with one of the library's suites) send, in whatever interleaving, and for
any random numbers: the next letter of each direction always opens to the data that was sent. This covers the handshake, that
is the first letter, from which the server creates its session, the answer with new keys, and the switch to the new keys. The
conditions are those of C10: the server holds the private keys of the recipients, every recipient has an ID, and the client does
not demand less security than the server. -/
theorem wire_in_order_delivery (P : Prims) (pair : Bytes → Bytes → Bytes → Prop) (hP : P.Correct pair) (cfg : Config) (wc wo : World)
    (e : Envelope) (hes : e.suite = none) (hev : e.version = 1) (s : Session) (w : Wire)
    (hs : wireCorrespondence P cfg wc suiteRegistry e = .ok (s, w))
    (hlev : demandedLevel cfg 0 ≤ demandedLevel cfg e.securityLevel) (hids : ∀ r ∈ s.env.recipients, r.id ≠ [])
    (hcp : Counterparts P pair wo s) (asServer : Bool) (n : Net)
    (hn : WReach P cfg wo suiteRegistry s { client := (s.initState, if asServer then w.asServer else w) } n) :
    Delivers P cfg wo suiteRegistry s n := by
  obtain ⟨rfl, k, B⟩ := wireBase_of hes hev hs hlev hids hcp
  have hb : (if asServer = true then ({} : Wire).asServer else {}) = { server := asServer } := by cases asServer <;> rfl
  rw [hb] at hn
  exact conv_delivers B (conv_reach hP B (.idle (clean_init s)) hn)

/-! ## A concrete conversation -/

/-- The steps as a program. -/
inductive NetOp where
  | clientSend (data : Bytes) | accept | serverSend (data : Bytes) | serverRecv | clientRecv

/-- One step, if it succeeds. -/
def Net.run (P : Prims) (cfg : Config) (wo : World) (reg : List Suite) (s : Session) (rng : Rng) (n : Net) : NetOp → Option Net
  | .clientSend data =>
    match s.wireClose P cfg rng n.client.1 n.client.2 data with
    | (x, .ok l) => some { n with client := x, c2s := n.c2s ++ [(l, data)] }
    | _ => none
  | .accept =>
    match n.server, n.c2s with
    | none, (l, _) :: q =>
      match l.wireCorrespondence P cfg wo reg with
      | .ok (v, wv) =>
        match v.wireOpen P cfg v.initState wv.asServer l with
        | (x, .ok _) => some { n with server := some (v, x), c2s := q }
        | _ => none
      | _ => none
    | _, _ => none
  | .serverSend data =>
    match n.server with
    | some (v, y) =>
      match v.wireClose P cfg rng y.1 y.2 data with
      | (x, .ok l) => some { n with server := some (v, x), s2c := n.s2c ++ [(l, data)] }
      | _ => none
    | none => none
  | .serverRecv =>
    match n.server, n.c2s with
    | some (v, y), (l, _) :: q =>
      match v.wireOpen P cfg y.1 y.2 l with
      | (x, .ok _) => some { n with server := some (v, x), c2s := q }
      | _ => none
    | _, _ => none
  | .clientRecv =>
    match n.s2c with
    | (l, _) :: q =>
      match s.wireOpen P cfg n.client.1 n.client.2 l with
      | (x, .ok _) => some { n with client := x, s2c := q }
      | _ => none
    | [] => none

/-- Several steps. -/
def Net.runs (P : Prims) (cfg : Config) (wo : World) (reg : List Suite) (s : Session) (rng : Rng) : Net → List NetOp → Option Net
  | n, [] => some n
  | n, op :: ops =>
    match n.run P cfg wo reg s rng op with
    | some n => Net.runs P cfg wo reg s rng n ops
    | none => none

theorem run_step {P : Prims} {cfg : Config} {wo : World} {reg : List Suite} {s : Session} {rng : Rng} {n n' : Net} {op : NetOp}
    (h : n.run P cfg wo reg s rng op = some n') : WStep P cfg wo reg s n n' := by
  unfold Net.run at h
  split at h
  · split at h
    · rename_i x l hc; cases h; exact .clientSend rng _ hc
    · cases h
  · split at h
    · rename_i l d q h1 h2
      split at h
      · rename_i v wv hv
        split at h
        · rename_i x d' ho
          cases h; exact .accept true h1 h2 hv ho
        · cases h
      · cases h
    · cases h
  · split at h
    · rename_i v y h1
      split at h
      · rename_i x l hc; cases h; exact .serverSend rng _ h1 hc
      · cases h
    · cases h
  · split at h
    · rename_i v y l d q h1 h2
      split at h
      · rename_i x d' hc; cases h; exact .serverRecv h1 h2 hc
      · cases h
    · cases h
  · split at h
    · rename_i l d q h2
      split at h
      · rename_i x d' hc; cases h; exact .clientRecv h2 hc
      · cases h
    · cases h

theorem runs_reach {P : Prims} {cfg : Config} {wo : World} {reg : List Suite} {s : Session} {rng : Rng} {n0 : Net} : ∀ {ops : List NetOp} {n n' : Net},
    WReach P cfg wo reg s n0 n → n.runs P cfg wo reg s rng ops = some n' → WReach P cfg wo reg s n0 n'
  | [], n, n', h0, h => by cases h; exact h0
  | op :: ops, n, n', h0, h => by
    rw [Net.runs] at h
    split at h
    · rename_i n1 h1; exact runs_reach (.step h0 (run_step h1)) h
    · cases h

/-- A wire session with the toy primitives, to the recipient "bob". -/
def toyWire : Res (Session × Wire) := wireCorrespondence toyPrims toyConfig toyWorld suiteRegistry (toyEnvelope b!"w1" [] [] [b!"bob"])

/-- A conversation with all parts of the handshake; two letters are on the way at the end. -/
def toyTalk : List NetOp :=
  [.clientSend b!"one", .clientSend b!"two", .accept, .serverSend b!"three", .serverRecv, .serverSend b!"four", .clientSend b!"five",
   .clientRecv, .clientSend b!"six", .serverRecv, .serverRecv, .clientRecv, .serverSend b!"seven", .clientSend b!"eight"]

/-- The hypotheses of `wire_in_order_delivery` are met, with a state that is only reached after the complete handshake. -/
theorem wire_delivery_example : ∃ s w n, toyWire = .ok (s, w) ∧
    demandedLevel toyConfig 0 ≤ demandedLevel toyConfig (toyEnvelope b!"w1" [] [] [b!"bob"]).securityLevel ∧
    (∀ r ∈ s.env.recipients, r.id ≠ []) ∧ Counterparts toyPrims (fun _ pub priv => pub = priv) toyWorld s ∧
    WReach toyPrims toyConfig toyWorld suiteRegistry s { client := (s.initState, w) } n ∧
    n.c2s.map (·.2) = [b!"eight"] ∧ n.s2c.map (·.2) = [b!"seven"] ∧ n.client.2.hs = .sendApply := by
  have h : (match toyWire with
    | .ok (s, w) => decide (s.env.secrets = []) && decide (s.env.senders = []) && decide (s.env.recipients = [toyBob]) &&
      (match Net.runs toyPrims toyConfig toyWorld suiteRegistry s toyRng { client := (s.initState, w) } toyTalk with
        | some n => decide (n.c2s.map (·.2) = [b!"eight"]) && decide (n.s2c.map (·.2) = [b!"seven"]) && decide (n.client.2.hs = .sendApply)
        | none => false)
    | .error _ => false) = true := by decide +kernel
  split at h
  · rename_i s w hs
    simp only [Bool.and_eq_true, decide_eq_true_eq] at h
    obtain ⟨⟨⟨h1, h2⟩, h3⟩, h4⟩ := h
    split at h4
    · rename_i n hn
      simp only [Bool.and_eq_true, decide_eq_true_eq] at h4
      refine ⟨s, w, n, hs, by decide +kernel, ?_, ?_, runs_reach .refl hn, h4.1.1, h4.1.2, h4.2⟩
      · rw [h3]; decide
      · refine ⟨by rw [h1]; simp, by rw [h1]; simp, by rw [h2]; simp, ?_⟩
        intro k hk
        rw [h3] at hk
        simp only [List.mem_singleton] at hk
        subst hk
        exact ⟨toyStore, { version := 1, id := b!"bob", scheme := b!"ECDH-X25519", key := [1, 8, 9, 10] }, toyBobPriv, [8, 9, 10], [8, 9, 10], rfl, by decide +kernel, rfl, rfl, by decide +kernel, rfl, rfl, rfl, rfl⟩
    · cases h4
  · cases h

end Jess
