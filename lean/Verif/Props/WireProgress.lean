import Verif.Props.Check
import Verif.Props.WireStream
import Verif.Props.DrawsWire
import Verif.Props.WirePanic

/-!
# C124: a wire session never gets stuck
-/

namespace Jess

open Requirements

/-- The tools can store the private keys which they make (specification). -/
def Prims.StoresPrivate (P : Prims) : Prop :=
  ∀ t ∈ toolTable, t.purpose = .keyExchange → ∀ seed pub priv, P.genKey t.name seed = .ok (pub, priv) → ∃ k, P.storeKey t.name pub (some priv) = .ok k

/-- What sending takes from the session. -/
structure SendTools (s : Session) (k : ToolInst) : Prop where
  tools : WireTools s k
  listed : ∀ t ∈ s.insts, getTool t.info.name = some t.info ∧ t.info ∈ toolTable ∧ t.info.name ≠ schemeKey ∧ t.info.name ≠ schemePassword
  noKE : s.queue .keyEncapsulation = []
  size : s.keySize ≠ 0 ∧ s.keySize ≤ 8000
  bytes : s.letterBytes ≤ 44

theorem SendTools.env {s : Session} {k : ToolInst} (T : SendTools s k) (eo : Envelope) : SendTools { s with env := eo } k :=
  ⟨T.tools.env eo, T.listed, T.noKE, T.size, T.bytes⟩

/-- What a party keeps between two operations. -/
structure Prepared (s : Session) (w : Wire) : Prop where
  carry : w.msgNo ≠ 0 → w.sendCarry.length = s.keySize ∧ w.recvCarry.length = s.keySize
  material : ∀ m ∈ w.newMaterial, m ≠ []
  pairs : w.PairsIn s

theorem Prepared.env {s : Session} {w : Wire} (h : Prepared s w) (eo : Envelope) : Prepared { s with env := eo } w := ⟨h.carry, h.material, ⟨h.pairs.kx, h.pairs.ke⟩⟩

theorem Prepared.of_env {s : Session} {w : Wire} {eo : Envelope} (h : Prepared { s with env := eo } w) : Prepared s w := ⟨h.carry, h.material, ⟨h.pairs.kx, h.pairs.ke⟩⟩

section
variable {P : Prims} {cfg : Config} {s : Session} {k : ToolInst}

theorem SendTools.ke_nil (T : SendTools s k) {kx : List KxPair} {ke : List KePair} (h : PairsIn s kx ke) : ke = [] := by
  apply List.eq_nil_iff_forall_not_mem.mpr
  intro p hp
  have := mem_queue.mpr (h.ke p hp)
  rw [T.noKE] at this
  cases this

/-- Shared keys are not empty. -/
theorem sharedKeys_filled (W : P.Work) : ∀ {l l' : List KxPair} {ms : List Bytes}, (∀ p ∈ l, p.tool.info ∈ toolTable ∧ p.tool.info.purpose = .keyExchange) →
    sharedKeys P l = (l', .ok ms) → ∀ m ∈ ms, m ≠ []
  | [], _, _, _, h => by cases h; intro m hm; cases hm
  | p :: ps, l', ms, ht, h => by
    rw [sharedKeys] at h
    split at h
    · cases h
    · rename_i q key hq
      generalize hr : sharedKeys P ps = r at h
      obtain ⟨ps', r⟩ := r
      cases r with
      | error e => cases h
      | ok ks =>
        cases h
        intro m hm
        rcases List.mem_cons.mp hm with rfl | hm
        · obtain ⟨h1, h2⟩ := ht p (by simp)
          unfold sharedKey at hq
          split at hq
          · cases hq
          · cases hq
          · split at hq
            · cases hq
            · simp only [Prod.mk.injEq] at hq
              have := hq.2
              unfold makeShared at this
              split at this
              · cases this; exact W.dh _ h1 h2 _ _
              · cases this
        · exact sharedKeys_filled W (fun p hp => ht p (by simp [hp])) hr m hm

theorem SendTools.kxTools (T : SendTools s k) {kx : List KxPair} {ke : List KePair} (h : PairsIn s kx ke) :
    ∀ p ∈ kx, p.tool.info ∈ toolTable ∧ p.tool.info.purpose = .keyExchange := fun p hp => ⟨(T.listed _ (h.kx p hp).1).2.1, (h.kx p hp).2⟩

/-! ## The invariant is kept -/

theorem ratchet_len (hZ : P.KdfSized) {i : Nat} {carry nonce c : Bytes} {m mat : List Bytes} {off : Nat} (hc : i ≠ 0 → carry.length = s.keySize)
    (h : ratchet P s k i carry nonce m = .ok (c, mat, off)) : c.length = s.keySize ∧ off = s.keySize := by
  unfold ratchet at h
  split at h
  · split at h
    · cases h
    · split at h
      · split at h
        · cases h
        · rename_i hk; cases h; exact ⟨hZ _ _ _ _ _ _ _ hk, rfl⟩
      · cases h
  · rename_i hi
    split at h
    · split at h
      · cases h
      · rename_i hk; cases h; exact ⟨by rw [hZ _ _ _ _ _ _ _ hk]; exact hc hi, hc hi⟩
    · cases h

theorem initiate_newMaterial {rng : Rng} {w : Wire} {km : KM} : (initiate P rng w km).1.newMaterial = w.newMaterial := by
  unfold initiate
  repeat' split
  all_goals rfl

theorem complete_newMaterial (T : SendTools s k) (W : P.Work) {rng : Rng} {w w' : Wire} {out : SendOut} (hp : w.PairsIn s)
    (h : complete P rng s w = (w', .ok out)) : ∀ m ∈ w'.newMaterial, m ≠ [] := by
  have hke : w.ke = [] := T.ke_nil hp
  unfold complete at h
  rw [hke] at h
  simp only [genKE, encapAll, List.map_nil, List.append_nil] at h
  split at h
  · cases h
  · rename_i kx a hg
    split at h
    · cases h
    · rename_i kx' shared hs
      cases h
      have ht : kx.map (·.tool) = w.kx.map (·.tool) := by
        have := genKX_tools P rng 1 w.kx
        rw [hg] at this
        exact this
      exact sharedKeys_filled W (T.kxTools (PairsIn.of_tools hp ht rfl)) hs

theorem sendSwitch_newMaterial (T : SendTools s k) (W : P.Work) {rng : Rng} {w w' : Wire} {nonce : Bytes} {out : SendOut} (hw : Prepared s w)
    (h : sendSwitch P cfg rng s w nonce = (w', .ok out)) : ∀ m ∈ w'.newMaterial, m ≠ [] := by
  unfold sendSwitch at h
  split at h
  · split at h
    · cases h
    · rename_i x _
      have := initiate_newMaterial (P := P) (rng := rng) (w := { w with kx := x.kx, ke := x.ke }) (km := x.km)
      rw [h] at this
      rw [this]; exact hw.material
  · have := initiate_newMaterial (P := P) (rng := rng) (w := w) (km := {})
    rw [h] at this
    rw [this]; exact hw.material
  · exact complete_newMaterial T W hw.pairs h
  all_goals (cases h; exact hw.material)

theorem recvOffer_newMaterial {w : Wire} {l : Letter} : (recvOffer s w l).1.newMaterial = w.newMaterial := by
  unfold recvOffer
  repeat' split
  all_goals rfl

theorem recvAnswer_newMaterial (T : SendTools s k) (W : P.Work) {w w' : Wire} {l : Letter} {m : List Bytes} (hw : Prepared s w)
    (h : recvAnswer P w l = (w', .ok m)) : ∀ m ∈ w'.newMaterial, m ≠ [] := by
  have hke : w.ke = [] := T.ke_nil hw.pairs
  unfold recvAnswer at h
  rw [hke] at h
  split at h
  · cases h; exact hw.material
  · split at h
    · cases h
    · split at h
      · cases h
      · rename_i kx hg
        simp only [assignSeals, unwrapAll, List.append_nil] at h
        split at h
        · cases h
        · rename_i kx' shared hs
          cases h
          have ht : kx.map (·.tool) = w.kx.map (·.tool) := by
            have := assignKX_tools l.version l.keys 0 w.kx
            rw [hg] at this
            exact this
          exact sharedKeys_filled W (T.kxTools (PairsIn.of_tools hw.pairs ht rfl)) hs

theorem recvSwitch_newMaterial (T : SendTools s k) (W : P.Work) {w w' : Wire} {l : Letter} {r : List Bytes × Bool} (hw : Prepared s w)
    (h : recvSwitch P cfg s w l = (w', .ok r)) : ∀ m ∈ w'.newMaterial, m ≠ [] := by
  unfold recvSwitch at h
  split at h
  · split at h
    · cases h
    · rename_i x _
      have := recvOffer_newMaterial (s := s) (w := { w with kx := x.kx, ke := x.ke }) (l := l)
      split at h
      · cases h
      · rename_i ho
        cases h
        rw [ho] at this
        rw [this]; exact hw.material
  · have := recvOffer_newMaterial (s := s) (w := w) (l := l)
    split at h
    · cases h
    · rename_i ho
      cases h
      rw [ho] at this
      rw [this]; exact hw.material
  · split at h
    · cases h
    · rename_i ha
      cases h
      exact recvAnswer_newMaterial T W hw ha
  · split at h <;> (cases h; exact hw.material)
  all_goals (cases h; exact hw.material)

theorem wireClose_ready (T : SendTools s k) (W : P.Work) {rng : Rng} {st : SState} {w : Wire} {data : Bytes} {x : SState × Wire} {l : Letter} (hw : Prepared s w)
    (h : s.wireClose P cfg rng st w data = (x, .ok l)) : Prepared s x.2 := by
  have hin := wireClose_in (P := P) (cfg := cfg) (rng := rng) (st := st) (data := data) hw.pairs
  rw [h] at hin
  suffices hh : (x.2.msgNo ≠ 0 → x.2.sendCarry.length = s.keySize ∧ x.2.recvCarry.length = s.keySize) ∧ ∀ m ∈ x.2.newMaterial, m ≠ [] from ⟨hh.1, hh.2, hin⟩
  unfold Session.wireClose at h
  split at h
  · cases h
  · rename_i nonce _
    rw [T.tools.kdf] at h
    simp only at h
    split at h
    · cases h
    · rename_i w' hd hs
      have hx : x.2 = w' := by
        split at h
        · cases h
        · simp only [Prod.mk.injEq] at h
          rw [← h.1]
      rw [hx]
      unfold sendHandshake at hs
      split at hs
      · cases hs
      · rename_i w1 out ho
        split at hs
        · cases hs
        · rename_i c mat off hr
          cases hs
          obtain ⟨f1, f2, f3⟩ := sendSwitch_frame (P := P) (cfg := cfg) (s := s) (rng := rng) (w := w) (nonce := nonce)
          rw [ho] at f1 f2 f3
          simp only at f1 f2 f3
          obtain ⟨g1, _⟩ := ratchet_len W.kdfSize (s := s) (by rw [f1, f2]; intro h; exact (hw.carry h).1) hr
          have hm := sendSwitch_newMaterial T W hw ho
          unfold Wire.sent
          by_cases h0 : w1.msgNo = 0
          · cases hb : out.burn <;> simp only [hb, h0, if_true, if_false, Bool.false_eq_true, Wire.burn] <;> refine ⟨fun _ => ⟨g1, g1⟩, ?_⟩
            · exact hm
            · intro m hm; cases hm
          · have := (hw.carry (by rw [← f1]; exact h0)).2
            cases hb : out.burn <;> simp only [hb, h0, if_true, if_false, Bool.false_eq_true, Wire.burn] <;>
              refine ⟨fun _ => ⟨g1, by rw [f3]; exact this⟩, ?_⟩
            · exact hm
            · intro m hm; cases hm

theorem wireOpen_ready (T : SendTools s k) (W : P.Work) {st : SState} {w : Wire} {x : SState × Wire} {l : Letter} {d : Bytes} (hw : Prepared s w)
    (h : s.wireOpen P cfg st w l = (x, .ok d)) : Prepared s x.2 := by
  have hin := wireOpen_in (P := P) (cfg := cfg) (st := st) (l := l) hw.pairs
  rw [h] at hin
  suffices hh : (x.2.msgNo ≠ 0 → x.2.sendCarry.length = s.keySize ∧ x.2.recvCarry.length = s.keySize) ∧ ∀ m ∈ x.2.newMaterial, m ≠ [] from ⟨hh.1, hh.2, hin⟩
  unfold Session.wireOpen at h
  split at h
  · cases h
  · rw [T.tools.kdf] at h
    simp only at h
    split at h
    · cases h
    · rename_i w' material off hs
      have hx : x.2 = w' := by
        simp only [Prod.mk.injEq] at h
        rw [← h.1]
      rw [hx]
      unfold recvHandshake at hs
      split at hs
      · cases hs
      · rename_i w1 m burn ho
        split at hs
        · cases hs
        · rename_i c mat off' hr
          cases hs
          obtain ⟨f1, f2, f3⟩ := recvSwitch_frame (P := P) (cfg := cfg) (s := s) (w := w) (l := l)
          rw [ho] at f1 f2 f3
          simp only at f1 f2 f3
          obtain ⟨g1, _⟩ := ratchet_len W.kdfSize (s := s) (by rw [f1, f3]; intro h; exact (hw.carry h).2) hr
          have hm := recvSwitch_newMaterial T W hw ho
          unfold Wire.received
          by_cases h0 : w1.msgNo = 0
          · cases burn <;> simp only [h0, if_true, if_false, Bool.false_eq_true, Wire.burn] <;> refine ⟨fun _ => ⟨g1, g1⟩, ?_⟩
            · exact hm
            · intro m hm; cases hm
          · have := (hw.carry (by rw [← f1]; exact h0)).1
            cases burn <;> simp only [h0, if_true, if_false, Bool.false_eq_true, Wire.burn] <;>
              refine ⟨fun _ => ⟨by rw [f2]; exact this, g1⟩, ?_⟩
            · exact hm
            · intro m hm; cases hm

/-! ## Sending succeeds -/

theorem encryptWire_total (T : SendTools s k) (W : P.Work) {st : SState} (hc : Clean s st) (m : List Bytes) (off : Nat) (ho : off ≤ 8000) (l : Letter)
    (data : Bytes) (hd : data.length ≤ 2 ^ 38 - 64) : ∃ st' l', encryptLetter P s st k m off l data = (st', .ok l') := by
  have q1 := T.tools.stateful
  have hlen := hc.len
  obtain ⟨r, hr⟩ := setupTools_ok W.kdf (s := s) (k := k) (nonce := l.nonce) (m := m) s.stateful st.tools off hlen (by
    have : (s.stateful.map s.setupBytes).sum ≤ 44 := T.bytes
    omega)
  rw [q1] at hlen
  obtain ⟨o, hst⟩ := List.length_eq_one_iff.mp hlen
  rw [hst] at hr
  obtain ⟨key, n, k1, k2⟩ := (setup_chacha_off q1).2 r hr
  have hs := (setup_chacha_off (o := o) q1).1 key n k1 k2
  obtain ⟨r1, r2, r3⟩ := ready_chacha q1 { key := key, nonce := n, ready := true, used := o.used }
  obtain ⟨c, hcc⟩ := W.aead key n (s.adOf l) data (W.kdfSize _ _ _ _ _ _ _ k1) (W.kdfSize _ _ _ _ _ _ _ k2) hd
  unfold encryptLetter
  rw [hst, hs]
  refine ⟨{ st with tools := s.resetTools [{ key := key, nonce := n, ready := true, used := o.used }] }, { l with data := c, mac := [] }, ?_⟩
  have hn : chacha.info.name = b!"CHACHA20-POLY1305" := rfl
  simp only [protect, r1, r2, r3, runEncrypt, runSeal, runMACs, foldRes, hn, hcc, ok_bind]

theorem ratchet_total (T : SendTools s k) (W : P.Work) {i : Nat} {carry nonce : Bytes} {m : List Bytes} (hn : nonce ≠ [])
    (hc : i ≠ 0 → carry.length = s.keySize) (hm : ∀ x ∈ m, x ≠ []) (h0 : i = 0 → m ≠ []) :
    ∃ c mat off, ratchet P s k i carry nonce m = .ok (c, mat, off) := by
  have hnl : nonce.length ≠ 0 := fun h => hn (List.length_eq_zero_iff.mp h)
  have first : ∀ m : List Bytes, (∀ x, m.head? = some x → x ≠ []) → m ≠ [] → kdfInitOK nonce m = true := by
    intro m h1 h2
    cases m with
    | nil => exact absurd rfl h2
    | cons a m =>
      have : a.length ≠ 0 := fun h => h1 a rfl (List.length_eq_zero_iff.mp h)
      simp [kdfInitOK, this, hnl]
  have hsz := T.size
  unfold ratchet
  by_cases hi : i = 0
  · rw [if_pos hi, if_neg hsz.1, if_pos (first m (fun x hx => hm x (List.mem_of_head? hx)) (h0 hi))]
    obtain ⟨b, hb⟩ := W.kdf k.info.name k.hashName nonce m.flatten 0 s.keySize (by omega)
    unfold kdfRead
    rw [hb]
    exact ⟨_, _, _, rfl⟩
  · have hcl := hc hi
    have hk : kdfInitOK nonce (m ++ [carry]) = true := by
      apply first
      · intro x hx
        have : x ∈ m ++ [carry] := List.mem_of_head? hx
        rcases List.mem_append.mp this with h | h
        · exact hm x h
        · rw [List.mem_singleton.mp h]
          intro h
          rw [h] at hcl
          exact hsz.1 hcl.symm
      · simp
    rw [if_neg hi, if_pos hk]
    obtain ⟨b, hb⟩ := W.kdf k.info.name k.hashName nonce (m ++ [carry]).flatten 0 carry.length (by omega)
    unfold kdfRead
    rw [hb]
    exact ⟨_, _, _, rfl⟩

theorem send_total (T : SendTools s k) (W : P.Work) {rng : Rng} (hr : rng.Delivers) {st : SState} {w : Wire} (hc : Clean s st) (hw : Prepared s w) (data : Bytes)
    (hd : data.length ≤ 2 ^ 38 - 64)
    (h : ∀ nonce, nonce ≠ [] → ∃ w1 out, sendSwitch P cfg rng s w nonce = (w1, .ok out) ∧ (w.msgNo ≠ 0 → ∀ m ∈ out.material, m ≠ []) ∧
      (w.msgNo = 0 → kdfInitOK nonce out.material = true)) :
    ∃ x l, s.wireClose P cfg rng st w data = (x, .ok l) := by
  obtain ⟨nonce, hn1, hn2⟩ := hr 0 s.nonceSize
  have hnon : randomBytes rng 0 s.nonceSize = .ok nonce := by unfold randomBytes; rw [hn1, ok_bind]; simp [hn2]
  have hne : nonce ≠ [] := by
    intro h
    rw [h] at hn2
    have : 4 ≤ s.nonceSize := by unfold Session.nonceSize; split <;> omega
    simp at hn2; omega
  obtain ⟨w1, out, ho, g1, g2⟩ := h nonce hne
  obtain ⟨f1, f2, _⟩ := sendSwitch_frame (P := P) (cfg := cfg) (s := s) (rng := rng) (w := w) (nonce := nonce)
  rw [ho] at f1 f2
  simp only at f1 f2
  have hra : ∃ c mat off, ratchet P s k w1.msgNo w1.sendCarry nonce out.material = .ok (c, mat, off) := by
    by_cases h0 : w.msgNo = 0
    · have hsz := T.size
      obtain ⟨b, hb⟩ := W.kdf k.info.name k.hashName nonce out.material.flatten 0 s.keySize (by omega)
      unfold ratchet
      rw [f1, if_pos h0, if_neg hsz.1, if_pos (g2 h0)]
      unfold kdfRead
      rw [hb]
      exact ⟨_, _, _, rfl⟩
    · exact ratchet_total T W hne (by rw [f1, f2]; exact fun h => (hw.carry h).1) (g1 h0) (by rw [f1]; intro h; exact absurd h h0)
  obtain ⟨c, mat, off, hra⟩ := hra
  obtain ⟨_, hoff⟩ := ratchet_len W.kdfSize (s := s) (by rw [f1, f2]; exact fun h => (hw.carry h).1) hra
  obtain ⟨st', l', he⟩ := encryptWire_total T W hc mat off (by have := T.size; omega) { wireHeader s w nonce with keys := out.keys, applyKeys := out.apply } data hd
  unfold Session.wireClose
  rw [hnon]
  simp only [T.tools.kdf, sendHandshake, ho, hra, he]
  have hsg : ∃ l2, (signLetter P rng s st' 1 (s.adOf l') l').2 = .ok l2 := by
    unfold signLetter
    rw [T.tools.signing]
    exact ⟨_, rfl⟩
  obtain ⟨l2, hsg⟩ := hsg
  exact ⟨_, l2, by rw [hsg]⟩

/-! ## The steps of the handshake -/

theorem newLocal_total (T : SendTools s k) (W : P.Work) (hS : P.StoresPrivate) {t : ToolInst} (ht : t ∈ s.insts) (hp : t.info.purpose = .keyExchange) (seed : Bytes) :
    ∃ g v, newLocal P t seed = (g, .ok v) ∧ g.loadedPriv ≠ none := by
  obtain ⟨h1, h2, h3, h4⟩ := T.listed t ht
  obtain ⟨pub, priv, key, e1, e2⟩ := W.gen _ h2 hp seed
  obtain ⟨full, e3⟩ := hS _ h2 hp _ _ _ e1
  have hus : t.info.purpose.usesSignets = true := by rw [hp]; decide
  have hsig : generateSignet P t.info.name seed = .ok { version := 1, scheme := t.info.name, loadedPub := some pub, loadedPriv := some priv } := by
    unfold generateSignet
    rw [h1]
    simp only [hus, if_true, e1]
  unfold newLocal
  simp only [hsig, Signet.store, Signet.asRecipient, Signet.load, List.length_nil, ne_eq, not_true_eq_false, if_false, h1, h3, h4, hus, if_true, e3, or_self,
    Option.isSome_some, ok_bind, e2]
  exact ⟨_, _, rfl, by simp⟩

/-- Pairs of the server with the client's key but without own keys get own keys. -/
theorem genKX_total {pair : Bytes → Bytes → Bytes → Prop} (T : SendTools s k) (W : P.Work) (hS : P.StoresPrivate) (rng : Rng) {cs vs : List KxPair}
    (h : All2 (MatchKX P pair) cs vs) : ∀ (ctr : Nat), (∀ p ∈ vs, p.tool ∈ s.insts ∧ p.tool.info.purpose = .keyExchange) →
    ∃ vs' a, genKX P rng ctr vs = (vs', .ok a) ∧ ∀ p ∈ vs', ∃ g q q', p.signet = some g ∧ g.loadedPriv ≠ none ∧ p.peer = some q ∧ q.load P = .ok q' ∧ q'.loadedPub ≠ none := by
  induction h with
  | nil => intro ctr _; exact ⟨[], [], rfl, by simp⟩
  | @cons c v cs vs hcv _ ih =>
    intro ctr hin
    obtain ⟨_, _, m3, g, pub, q, q', _, _, m6, m7, m8⟩ := hcv
    obtain ⟨vs', a, i1, i2⟩ := ih (ctr + 1) (fun p hp => hin p (by simp [hp]))
    obtain ⟨n1, n2⟩ := hin v (by simp)
    obtain ⟨g', val, g1, g2⟩ := newLocal_total T W hS n1 n2 (rng.seed ctr)
    rw [genKX, m3]
    simp only [g1, i1, Except.map]
    refine ⟨_, _, rfl, ?_⟩
    intro p hp
    rcases List.mem_cons.mp hp with rfl | hp
    · exact ⟨g', q, q', rfl, g2, m6, m7, by rw [m8]; simp⟩
    · exact i2 p hp

theorem sharedKeys_total : ∀ {vs : List KxPair},
    (∀ p ∈ vs, ∃ g q q', p.signet = some g ∧ g.loadedPriv ≠ none ∧ p.peer = some q ∧ q.load P = .ok q' ∧ q'.loadedPub ≠ none) →
    ∃ vs' ms, sharedKeys P vs = (vs', .ok ms)
  | [], _ => ⟨[], [], rfl⟩
  | p :: ps, h => by
    obtain ⟨g, q, q', h1, h2, h3, h4, h5⟩ := h p (by simp)
    obtain ⟨ps', ms, ih⟩ := sharedKeys_total (vs := ps) (fun p hp => h p (by simp [hp]))
    obtain ⟨priv, hpriv⟩ := Option.ne_none_iff_exists'.mp h2
    obtain ⟨pub, hpub⟩ := Option.ne_none_iff_exists'.mp h5
    rw [sharedKeys]
    unfold sharedKey
    rw [h1, h3]
    simp only [h4, makeShared, hpriv, hpub, ih, Except.map]
    exact ⟨_, _, rfl⟩

/-- The server answers. -/
theorem answer_total {pair : Bytes → Bytes → Bytes → Prop} (T : SendTools s k) (W : P.Work) (hS : P.StoresPrivate) (rng : Rng) {cs : List KxPair} {w : Wire} (hw : Prepared s w)
    (hm : All2 (MatchKX P pair) cs w.kx) : ∃ w1 out, complete P rng s w = (w1, .ok out) ∧ ∀ m ∈ out.material, m ≠ [] := by
  have hke : w.ke = [] := T.ke_nil hw.pairs
  obtain ⟨kx, a, h1, h2⟩ := genKX_total T W hS rng hm 1 hw.pairs.kx
  obtain ⟨kx', ms, h3⟩ := sharedKeys_total h2
  have ht : kx.map (·.tool) = w.kx.map (·.tool) := by
    have := genKX_tools P rng 1 w.kx
    rw [h1] at this
    exact this
  have hf := sharedKeys_filled W (T.kxTools (PairsIn.of_tools hw.pairs ht rfl)) h3
  unfold complete
  rw [h1, hke]
  simp only [h3, genKE, encapAll, List.map_nil, List.append_nil]
  exact ⟨_, _, rfl, hf⟩

/-- A loop of steps that succeed succeeds. -/
theorem loopKM_total {σ α : Type} {f : σ → α → σ × Res Unit} : ∀ (l : List α), (∀ x ∈ l, ∀ b, ∃ b', f b x = (b', .ok ())) → ∀ b, ∃ b', loopKM f b l = (b', .ok ())
  | [], _, b => ⟨b, rfl⟩
  | x :: xs, h, b => by
    obtain ⟨b1, h1⟩ := h x (by simp) b
    obtain ⟨b2, h2⟩ := loopKM_total xs (fun y hy => h y (by simp [hy])) b1
    exact ⟨b2, by rw [loopKM, h1]; exact h2⟩

theorem overTools_total {σ : Type} {f : σ → ToolInst → σ × Res Unit} : ∀ (l : List ToolInst), (∀ t ∈ l, ∀ b, ∃ b', f b t = (b', .ok ())) → ∀ b,
    ∃ b', overTools f b (.ok ()) l = (b', .ok ())
  | [], _, b => ⟨b, rfl⟩
  | t :: ts, h, b => by
    obtain ⟨b1, h1⟩ := h t (by simp) b
    obtain ⟨b2, h2⟩ := overTools_total ts (fun y hy => h y (by simp [hy])) b1
    exact ⟨b2, by rw [overTools, h1]; exact h2⟩

end

/-- The key material of the first letter can be set up. -/
theorem wSetupClosing_total {P : Prims} {pair : Bytes → Bytes → Bytes → Prop} {cfg : Config} {wo : World} {s : Session} {k : ToolInst}
    (B : WireBase P pair cfg wo suiteRegistry s k) (R : LoadedSession P cfg s) (T : SendTools s k) (W : P.Work) (rng : Rng) (nonce : Bytes) :
    ∃ x, wSetupClosing P cfg rng s nonce [] [] = (x, .ok ()) := by
  obtain ⟨x, hx⟩ := overTools_total (f := fun (x : WKM) t => loopKM (wCloseKX P rng t) x (ofScheme s.env.recipients t.info.name)) (s.queue .keyExchange)
    (by
      intro t ht b
      obtain ⟨t1, t2⟩ := mem_queue.mp ht
      obtain ⟨l1, l2, l3, l4⟩ := T.listed t t1
      apply loopKM_total
      intro r hr b
      have hm := (mem_ofScheme (B.insts t t1).2.1 r).mp hr
      have hpair : (t, r) ∈ s.pairs .keyExchange := by
        rw [pairs_eq]
        unfold toolPairs
        simp only [List.mem_flatMap, List.mem_map]
        exact ⟨t, ht, r, hr, rfl⟩
      obtain ⟨y, hy, _⟩ := kxKey_total R W rng b.km.ctr hpair
      unfold closeKXKey at hy
      unfold wCloseKX
      cases ho : kxOffer P t (rng.seed b.km.ctr) r with
      | error e => simp only [ho, error_bind] at hy; cases hy
      | ok z => exact ⟨_, rfl⟩)
    { km := closeKeys {} [], kx := [], ke := [] }
  unfold wSetupClosing
  rw [B.keys, B.passwords]
  simp only [loopKM, hx, T.noKE, overTools]
  exact ⟨_, rfl⟩

/-- The switch when the first letter is sent. -/
theorem first_switch {P : Prims} {pair : Bytes → Bytes → Bytes → Prop} {cfg : Config} {wo : World} {s : Session} {k : ToolInst}
    (B : WireBase P pair cfg wo suiteRegistry s k) (R : LoadedSession P cfg s) (T : SendTools s k) (W : P.Work) (hc : Confidentiality ∈ s.suite.provides)
    (C : CanClose s.env) (rng : Rng) (b : Bool) (nonce : Bytes) (hn : nonce ≠ []) :
    ∃ w1 out, sendSwitch P cfg rng s { server := b } nonce = (w1, .ok out) ∧ kdfInitOK nonce out.material = true := by
  obtain ⟨x, hx⟩ := wSetupClosing_total B R T W rng nonce
  obtain ⟨hkm, rs, ids, _, hxk, hxe, _⟩ := wSetupClosing_spec B.kx1 B.ke1 B.keys B.passwords hx
  obtain ⟨km, h1, h2⟩ := closing_total R W hc rng nonce hn C
  obtain ⟨_, hone⟩ := registered_session R.made R.mem
  rw [setupClosing_eq P cfg rng s nonce (hone _ (by simp)) (hone _ (by simp)), hkm] at h1
  cases h1
  have hksome : ∀ p ∈ x.kx, p.signet.isSome = true := by
    intro p hp
    rw [hxk] at hp
    obtain ⟨i, hi, rfl⟩ := List.mem_iff_getElem.mp hp
    simp
  have hke : x.ke = [] := by
    rw [hxe, List.map_eq_nil_iff]
    apply List.eq_nil_iff_forall_not_mem.mpr
    intro y hy
    obtain ⟨a, b, _⟩ := mem_pairs hy
    have := mem_queue.mpr ⟨a, b⟩
    rw [T.noKE] at this
    cases this
  simp only [sendSwitch, hx, initiate, true_or, if_true, genKX_all (P := P) (rng := rng) (ctr := x.km.ctr) hksome, hke, genKE]
  exact ⟨_, _, rfl, h2⟩

/-! ## Both parties are ready in every reachable state -/

section
variable {P : Prims} {pair : Bytes → Bytes → Bytes → Prop} {cfg : Config} {wo : World} {s : Session} {k : ToolInst}

theorem ready_start (s : Session) (b : Bool) : Prepared s { server := b } :=
  ⟨fun h => absurd rfl h, fun _ h => (by cases h), ⟨fun _ h => (by cases h), fun _ h => (by cases h)⟩⟩

theorem net_ready (hP : P.Correct pair) (B : WireBase P pair cfg wo suiteRegistry s k) (T : SendTools s k) (W : P.Work) {b : Bool} {n : Net}
    (h : WReach P cfg wo suiteRegistry s { client := (s.initState, { server := b }) } n) :
    Prepared s n.client.2 ∧ ∀ v y, n.server = some (v, y) → Prepared s y.2 := by
  induction h with
  | refl => exact ⟨ready_start s b, fun v y h => by cases h⟩
  | @step n n' hr hst ih =>
    have hC := conv_reach hP B (.idle (clean_init s)) hr
    have hC' := conv_reach hP B (.idle (clean_init s)) (.step hr hst)
    have henv := (conv_server hC).2
    have henv' := (conv_server hC').2
    cases hst with
    | clientSend rng data hx => exact ⟨wireClose_ready T W ih.1 hx, ih.2⟩
    | accept b' h1 h2 h3 h4 =>
      rename_i l d d' q v wv x
      refine ⟨ih.1, ?_⟩
      intro v' y' hv
      simp only [Option.some.injEq, Prod.mk.injEq] at hv
      obtain ⟨rfl, rfl⟩ := hv
      obtain ⟨eo, hv, _⟩ := henv' _ _ _ rfl
      have hw0 : wv = {} := by
        unfold Letter.wireCorrespondence Jess.wireCorrespondence at h3
        simp only [bind_ok_iff] at h3
        obtain ⟨_, _, _, _, w0, hi, hz⟩ := h3
        cases hz
        exact (initWire_spec hi).1
      subst hw0
      subst hv
      have hb : (if b' then ({} : Wire).asServer else {}) = { server := b' } := by cases b' <;> rfl
      rw [hb] at h4
      exact (wireOpen_ready (T.env eo) W (ready_start _ _) h4).of_env
    | serverSend rng data h1 h2 =>
      rename_i v y x l
      refine ⟨ih.1, ?_⟩
      intro v' y' hv
      simp only [Option.some.injEq, Prod.mk.injEq] at hv
      obtain ⟨rfl, rfl⟩ := hv
      obtain ⟨eo, hv, _⟩ := henv _ _ _ h1
      have hr := ih.2 _ _ h1
      subst hv
      exact (wireClose_ready (T.env eo) W (hr.env eo) h2).of_env
    | serverRecv h1 h2 h3 =>
      rename_i v y x l d d' q
      refine ⟨ih.1, ?_⟩
      intro v' y' hv
      simp only [Option.some.injEq, Prod.mk.injEq] at hv
      obtain ⟨rfl, rfl⟩ := hv
      obtain ⟨eo, hv, _⟩ := henv _ _ _ h1
      have hr := ih.2 _ _ h1
      subst hv
      exact (wireOpen_ready (T.env eo) W (hr.env eo) h3).of_env
    | clientRecv h1 h2 => exact ⟨wireOpen_ready T W ih.1 h2, ih.2⟩

end

/-- Whatever data a party wants to send next, it can be sent (specification). -/
def CanSend (P : Prims) (cfg : Config) (s : Session) (n : Net) : Prop :=
  ∀ rng : Rng, rng.Delivers → ∀ data : Bytes, data.length ≤ 2 ^ 38 - 64 →
    (∃ x l, s.wireClose P cfg rng n.client.1 n.client.2 data = (x, .ok l)) ∧
    ∀ v y, n.server = some (v, y) → ∃ x l, v.wireClose P cfg rng y.1 y.2 data = (x, .ok l)

/-- C124. Two parties of a wire session with one of the library's suites never get stuck: after everything that they have sent and received, in whatever
interleaving, each of them can send the next message, whatever it is, and the next letter of each direction opens to what was sent. -/
theorem wire_never_stuck (P : Prims) (W : P.Work) (hS : P.StoresPrivate) (pair : Bytes → Bytes → Bytes → Prop) (hP : P.Correct pair) (cfg : Config)
    (hmin : cfg.minKeySize ≤ 8000) (wc wo : World) (hwc : wc.KeepsScheme)
    (e : Envelope) (hes : e.suite = none) (hev : e.version = 1) (s : Session) (w : Wire)
    (hs : wireCorrespondence P cfg wc suiteRegistry e = .ok (s, w))
    (hlev : demandedLevel cfg 0 ≤ demandedLevel cfg e.securityLevel) (hids : ∀ r ∈ s.env.recipients, r.id ≠ [])
    (hcp : Counterparts P pair wo s) (asServer : Bool) (n : Net)
    (hn : WReach P cfg wo suiteRegistry s { client := (s.initState, if asServer then w.asServer else w) } n) :
    CanSend P cfg s n ∧ Delivers P cfg wo suiteRegistry s n := by
  refine ⟨?_, wire_in_order_delivery P pair hP cfg wc wo e hes hev s w hs hlev hids hcp asServer n hn⟩
  obtain ⟨rfl, k, B⟩ := wireBase_of hes hev hs hlev hids hcp
  have hb : (if asServer = true then ({} : Wire).asServer else {}) = { server := asServer } := by cases asServer <;> rfl
  rw [hb] at hn
  have WO : WireOf P cfg s := (wireOf_envelope (by rw [hes]; intro su h; cases h) hs).1
  have hs' := hs
  simp only [wireCorrespondence, bind_ok_iff] at hs'
  obtain ⟨s1, c1, w1, _, c3⟩ := hs'
  cases c3
  have R := ready_session hwc hes c1
  have hconf : Confidentiality ∈ s.suite.provides := B.provides _ (by decide)
  have hsz := registered_key_size P cfg s.env s R.made R.mem hconf
  obtain ⟨k', T'⟩ := WO.tools
  have hkk : k' = k := by have := T'.kdf; rw [B.kdf] at this; cases this; rfl
  subst hkk
  have T : SendTools s k' := by
    refine ⟨T', ?_, WO.noKE, by omega, library_letter_bytes R.made R.mem⟩
    intro t ht
    rw [session_insts R.made] at ht
    obtain ⟨a, b, _, _, c, d⟩ := registry_named _ R.mem t ht
    exact ⟨a, b, c, d⟩
  have C : CanClose s.env := by
    refine ⟨?_, ?_, ?_⟩
    · rw [B.secrets]; intro k hk; cases hk
    · rw [B.secrets]; intro k hk; cases hk
    · rw [B.senders]; intro k hk; cases hk
  have hC := conv_reach hP B (.idle (clean_init s)) hn
  obtain ⟨rc, rs⟩ := net_ready hP B T W hn
  intro rng hr data hd
  -- a party that waits
  have waiting : ∀ (v : Session) (st : SState) (w : Wire), SendTools v k' → Clean v st → Prepared v w → w.msgNo ≠ 0 →
      (w.hs = .awaitKey ∨ w.hs = .awaitApply ∨ w.hs = .sendApply) → ∃ x l, v.wireClose P cfg rng st w data = (x, .ok l) := by
    intro v st w Tv hc hw h0 hh
    apply send_total Tv W hr hc hw data hd
    intro nonce _
    rcases hh with h | h | h
    · exact ⟨w, {}, by unfold sendSwitch; rw [h], fun _ m hm => by (cases hm), fun h' => absurd h' h0⟩
    · exact ⟨w, {}, by unfold sendSwitch; rw [h], fun _ m hm => by (cases hm), fun h' => absurd h' h0⟩
    · exact ⟨w, { material := w.newMaterial, apply := true, burn := true }, by unfold sendSwitch; rw [h], fun _ => hw.material, fun h' => absurd h' h0⟩
  cases hC with
  | @idle st b hc =>
    refine ⟨?_, fun v y h => by cases h⟩
    apply send_total T W hr hc rc data hd
    intro nonce hne
    obtain ⟨w1, out, h1, h2⟩ := first_switch B R T W hconf C rng b nonce hne
    exact ⟨w1, out, h1, fun h => absurd rfl h, fun _ => h2⟩
  | offered hc h1 h2 => exact ⟨waiting _ _ _ T hc rc h2 (.inl h1), fun v y h => by cases h⟩
  | @accepted st stv wc' wv q eo hc h1 h2 _ hcv hsv hnv hx =>
    refine ⟨waiting _ _ _ T hc rc h2 (.inl h1), ?_⟩
    intro v y hv
    have hv0 := rs _ _ hv
    cases hv
    apply send_total (T.env eo) W hr ((clean_env eo).mpr hcv) (hv0.env eo) data hd
    intro nonce _
    obtain ⟨w1, out, a1, a2⟩ := answer_total (s := { s with env := eo }) (T.env eo) W hS rng (hv0.env eo) hx
    exact ⟨w1, out, by unfold sendSwitch; rw [hsv]; exact a1, fun _ => a2, fun h => absurd h hnv⟩
  | @answered st stv wc' wv q q' eo k0 d0 c1 mat off hc h1 h2 hcv hsv hnv =>
    refine ⟨waiting _ _ _ T hc rc h2 (.inl h1), ?_⟩
    intro v y hv
    have hv0 := rs _ _ hv
    cases hv
    exact waiting _ _ _ (T.env eo) ((clean_env eo).mpr hcv) (hv0.env eo) hnv (.inr (.inl hsv))
  | @established st stv wc' wv q q' eo hc h1 h2 hcv hsv hnv =>
    refine ⟨waiting _ _ _ T hc rc h2 (.inr (.inr h1)), ?_⟩
    intro v y hv
    have hv0 := rs _ _ hv
    cases hv
    exact waiting _ _ _ (T.env eo) ((clean_env eo).mpr hcv) (hv0.env eo) hnv (.inr (.inl hsv))

/-! ## The hypotheses are met -/

theorem toy_stores_private : toyPrims.StoresPrivate := by
  intro t _ _ seed pub priv h
  exact ⟨_, rfl⟩

/-- The conversation of `wire_delivery_example`, which goes on. -/
theorem wire_never_stuck_example : toyPrims.Work ∧ toyPrims.StoresPrivate ∧ ∃ s w n, toyWire = .ok (s, w) ∧
    WReach toyPrims toyConfig toyWorld suiteRegistry s { client := (s.initState, w) } n ∧
    n.c2s.map (·.2) = [b!"eight"] ∧ n.s2c.map (·.2) = [b!"seven"] ∧ n.client.2.hs = .sendApply ∧
    CanSend toyPrims toyConfig s n ∧ Delivers toyPrims toyConfig toyWorld suiteRegistry s n := by
  obtain ⟨s, w, n, h1, h2, h3, h4, h5, h6, h7, h8⟩ := wire_delivery_example
  have := wire_never_stuck toyPrims toy_work toy_stores_private _ toyPrims_correct toyConfig (by decide) toyWorld toyWorld toyWorld_keeps
    (toyEnvelope b!"w1" [] [] [b!"bob"]) rfl rfl s w h1 h2 h3 h4 false n (by simpa using h5)
  exact ⟨toy_work, toy_stores_private, s, w, n, h1, h5, h6, h7, h8, this.1, this.2⟩

end Jess
