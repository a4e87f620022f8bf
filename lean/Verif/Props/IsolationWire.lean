import Verif.Props.DrawsWire

/-!
# C92 for wire sessions: a wire session depends on no algorithm but those of its suite
-/

namespace Jess

open Requirements

/-- The public keys that a party has got from its peer are labelled with the tools they are used with. -/
def PeersOf (kx : List KxPair) : Prop := ∀ p ∈ kx, ∀ q, p.peer = some q → q.scheme = p.tool.info.name

variable {P Q : Prims} {cfg : Config} {s : Session} {rng : Rng}

theorem PeersOf.nil : PeersOf [] := fun _ h => absurd h (by simp)

theorem PeersOf.cons {p : KxPair} {ps : List KxPair} (h : ∀ q, p.peer = some q → q.scheme = p.tool.info.name) (h' : PeersOf ps) : PeersOf (p :: ps) := by
  intro x hx
  rcases List.mem_cons.mp hx with rfl | hx
  · exact h
  · exact h' x hx

theorem PeersOf.append {ps ps' : List KxPair} (h : PeersOf ps) (h' : PeersOf ps') : PeersOf (ps ++ ps') := by
  intro x hx
  rcases List.mem_append.mp hx with hx | hx
  · exact h x hx
  · exact h' x hx

theorem load_scheme {x y : Signet} (h : x.load P = .ok y) : y.scheme = x.scheme := by
  unfold Signet.load at h
  split at h
  · cases h; rfl
  · split at h
    · cases h
    · split at h
      · cases h
      · split at h
        · split at h
          · cases h
          · cases h; rfl
        · cases h

theorem wCloseKX_labels {t : ToolInst} (x : WKM) (r : Signet) (h : PeersOf x.kx) : PeersOf (wCloseKX P rng t x r).1.kx := by
  unfold wCloseKX
  split
  · exact h
  · exact h.append (.cons (by simp) .nil)

theorem wOpenKX_labels {l : Letter} {t : ToolInst} (x : WOM) (r : Signet) (h : PeersOf x.kx) : PeersOf (wOpenKX P l t x r).1.kx := by
  unfold wOpenKX
  split
  · exact h
  · split
    · exact h
    · rename_i peer hp
      have hs : peer.scheme = t.info.name := by
        unfold peerSignet at hp
        exact load_scheme hp
      split <;> exact h.append (.cons (by simp [hs]) .nil)

theorem wSetupClosing_labels (nonce : Bytes) {kx : List KxPair} (ke : List KePair) (h : PeersOf kx) : PeersOf (wSetupClosing P cfg rng s nonce kx ke).1.kx := by
  unfold wSetupClosing
  split
  · exact h
  · rename_i km _
    have h1 := overTools_inv (I := fun x : WKM => PeersOf x.kx) (f := fun x t => loopKM (wCloseKX P rng t) x (ofScheme s.env.recipients t.info.name))
      (fun x t hx => loopKM_inv (I := fun x : WKM => PeersOf x.kx) (fun y r hy => wCloseKX_labels y r hy) _ _ hx)
      (s.queue .keyExchange) { km := km, kx := kx, ke := ke } (.ok ()) h
    split
    · rename_i he; rw [he] at h1; exact h1
    · rename_i he; rw [he] at h1
      exact overTools_inv (I := fun x : WKM => PeersOf x.kx) (fun x t hx => loopKM_inv (I := fun x : WKM => PeersOf x.kx) (fun y r hy => hy) _ _ hx) _ _ _ h1

theorem wSetupOpening_labels (l : Letter) {kx : List KxPair} (ke : List KePair) (h : PeersOf kx) : PeersOf (wSetupOpening P cfg s l kx ke).1.kx := by
  unfold wSetupOpening
  dsimp only
  split
  · exact h
  · rename_i om _
    have h1 := overTools_inv (I := fun x : WOM => PeersOf x.kx) (f := fun x t => loopKM (wOpenKX P l t) x (ofScheme s.env.recipients t.info.name))
      (fun x t hx => loopKM_inv (I := fun x : WOM => PeersOf x.kx) (fun y r hy => wOpenKX_labels y r hy) _ _ hx)
      (s.queue .keyExchange) { om := om, kx := kx, ke := ke } (.ok ()) h
    split
    · rename_i he; rw [he] at h1; exact h1
    · rename_i he; rw [he] at h1
      exact overTools_inv (I := fun x : WOM => PeersOf x.kx) (fun x t hx => loopKM_inv (I := fun x : WOM => PeersOf x.kx) (fun y r hy => hy) _ _ hx) _ _ _ h1

theorem genKX_labels : ∀ (ps : List KxPair) (c : Nat), PeersOf ps → PeersOf (genKX P rng c ps).1
  | [], _, _ => .nil
  | p :: ps, c, h => by
    have ht : PeersOf ps := fun q hq => h q (by simp [hq])
    have ih := genKX_labels ps (c + 1) ht
    have hp := h p (by simp)
    rw [genKX]
    split
    · exact .cons hp ih
    · split
      · exact .cons hp ht
      · exact .cons hp ih

theorem sharedKey_labels (p : KxPair) (h : ∀ q, p.peer = some q → q.scheme = p.tool.info.name) :
    ∀ q, (sharedKey P p).1.peer = some q → q.scheme = (sharedKey P p).1.tool.info.name := by
  unfold sharedKey
  split
  · exact h
  · exact h
  · rename_i g q hg hq
    split
    · exact h
    · rename_i q' hl
      intro x hx
      simp only [Option.some.injEq] at hx
      subst hx
      rw [load_scheme hl]
      exact h q hq

theorem sharedKeys_labels : ∀ (ps : List KxPair), PeersOf ps → PeersOf (sharedKeys P ps).1
  | [], _ => .nil
  | p :: ps, h => by
    have ht : PeersOf ps := fun q hq => h q (by simp [hq])
    have hp := sharedKey_labels (P := P) p (h p (by simp))
    rw [sharedKeys]
    split
    · rename_i he; rw [he] at hp; exact .cons hp ht
    · rename_i he; rw [he] at hp; exact .cons hp (sharedKeys_labels ps ht)

theorem assignKX_labels (version : UInt8) (keys : List Seal) : ∀ (ps : List KxPair) (i : Nat), PeersOf ps → PeersOf (assignKX version keys i ps).1
  | [], _, _ => .nil
  | p :: ps, i, h => by
    have ht : PeersOf ps := fun q hq => h q (by simp [hq])
    rw [assignKX]
    split
    · exact h
    · exact .cons (by simp) (assignKX_labels version keys ps (i + 1) ht)

theorem initiate_labels {w : Wire} {km : KM} (h : PeersOf w.kx) : PeersOf (initiate P rng w km).1.kx := by
  unfold initiate
  split
  · have t1 := genKX_labels (P := P) (rng := rng) w.kx km.ctr h
    split
    · rename_i he; rw [he] at t1; exact t1
    · rename_i he; rw [he] at t1
      split <;> exact t1
  · exact h

theorem complete_labels {w : Wire} (h : PeersOf w.kx) : PeersOf (complete P rng s w).1.kx := by
  unfold complete
  have t1 := genKX_labels (P := P) (rng := rng) w.kx 1 h
  split
  · rename_i he; rw [he] at t1; exact t1
  · rename_i kx _ he; rw [he] at t1
    have t2 := sharedKeys_labels (P := P) kx t1
    split
    · rename_i he; rw [he] at t2; exact t2
    · rename_i he; rw [he] at t2
      split
      · exact t2
      · split <;> exact t2

theorem sendSwitch_labels {w : Wire} (nonce : Bytes) (h : PeersOf w.kx) : PeersOf (sendSwitch P cfg rng s w nonce).1.kx := by
  unfold sendSwitch
  split
  · have h1 := wSetupClosing_labels (P := P) (cfg := cfg) (s := s) (rng := rng) nonce w.ke h
    split
    · rename_i he; rw [he] at h1; exact h1
    · rename_i x he; rw [he] at h1; exact initiate_labels (w := { w with kx := x.kx, ke := x.ke }) h1
  · exact initiate_labels h
  · exact complete_labels h
  · exact h
  · exact h
  · exact h

theorem burn_labels (w : Wire) : PeersOf w.burn.kx := by
  intro p hp q hq
  simp only [Wire.burn] at hp
  obtain ⟨x, _, rfl⟩ := List.mem_map.mp hp
  cases hq

theorem recvOffer_labels {w : Wire} {l : Letter} (h : PeersOf w.kx) : PeersOf (recvOffer s w l).1.kx := by
  unfold recvOffer
  split
  · exact h
  · split
    · exact h
    · have t1 := assignKX_labels l.version l.keys w.kx 0 h
      split
      · rename_i he; rw [he] at t1; exact t1
      · rename_i he; rw [he] at t1
        split <;> exact t1

theorem recvAnswer_labels {w : Wire} {l : Letter} (h : PeersOf w.kx) : PeersOf (recvAnswer P w l).1.kx := by
  unfold recvAnswer
  split
  · exact h
  · split
    · exact h
    · have t1 := assignKX_labels l.version l.keys w.kx 0 h
      split
      · rename_i he; rw [he] at t1; exact t1
      · rename_i kx he; rw [he] at t1
        split
        · exact t1
        · have t2 := sharedKeys_labels (P := P) kx t1
          split
          · rename_i he; rw [he] at t2; exact t2
          · rename_i he; rw [he] at t2
            split <;> exact t2

theorem recvSwitch_labels {w : Wire} {l : Letter} (h : PeersOf w.kx) : PeersOf (recvSwitch P cfg s w l).1.kx := by
  unfold recvSwitch
  split
  · have h1 := wSetupOpening_labels (P := P) (cfg := cfg) (s := s) l w.ke h
    split
    · rename_i he; rw [he] at h1; exact h1
    · rename_i x he; rw [he] at h1
      have h2 := recvOffer_labels (s := s) (w := { w with kx := x.kx, ke := x.ke }) (l := l) h1
      split <;> (rename_i he; rw [he] at h2; exact h2)
  · have h2 := recvOffer_labels (s := s) (w := w) (l := l) h
    split <;> (rename_i he; rw [he] at h2; exact h2)
  · have h2 := recvAnswer_labels (P := P) (w := w) (l := l) h
    split <;> (rename_i he; rw [he] at h2; exact h2)
  · split <;> exact h
  · exact h
  · exact h

theorem wireClose_labels {st : SState} {w : Wire} {data : Bytes} (h : PeersOf w.kx) : PeersOf (s.wireClose P cfg rng st w data).1.2.kx := by
  unfold Session.wireClose
  split
  · exact h
  · rename_i nonce _
    split
    · split <;> exact h
    · rename_i k _
      have h1 : PeersOf (sendHandshake P cfg rng s k w nonce).1.kx := by
        unfold sendHandshake
        have h1 := sendSwitch_labels (P := P) (cfg := cfg) (s := s) (rng := rng) nonce h
        split
        · rename_i he; rw [he] at h1; exact h1
        · rename_i w' out he
          rw [he] at h1
          split
          · exact h1
          · unfold Wire.sent
            dsimp only
            split
            · exact burn_labels _
            · exact h1
      split
      · rename_i he; rw [he] at h1; exact h1
      · rename_i he; rw [he] at h1
        split <;> exact h1

theorem wireOpen_labels {st : SState} {w : Wire} {l : Letter} (h : PeersOf w.kx) : PeersOf (s.wireOpen P cfg st w l).1.2.kx := by
  unfold Session.wireOpen
  split
  · exact h
  · split
    · split <;> exact h
    · rename_i k _
      have h1 : PeersOf (recvHandshake P cfg s k w l).1.kx := by
        unfold recvHandshake
        have h1 := recvSwitch_labels (P := P) (cfg := cfg) (s := s) (l := l) h
        split
        · rename_i he; rw [he] at h1; exact h1
        · rename_i w' m b he
          rw [he] at h1
          split
          · exact h1
          · unfold Wire.received
            dsimp only
            split
            · exact burn_labels _
            · exact h1
      split <;> (rename_i he; rw [he] at h1; exact h1)

theorem history_labels {p q : SState × Wire} {ls : List Letter} (hp : PeersOf p.2.kx) (h : History P cfg s p ls q) : PeersOf q.2.kx := by
  induction h with
  | start => exact hp
  | @sent q _ rng data q' _ _ hc ih => have := wireClose_labels (P := P) (cfg := cfg) (s := s) (rng := rng) (st := q.1) (data := data) ih; rw [hc] at this; exact this
  | @failed q _ rng data q' _ _ hc ih => have := wireClose_labels (P := P) (cfg := cfg) (s := s) (rng := rng) (st := q.1) (data := data) ih; rw [hc] at this; exact this
  | @opened q _ l q' _ _ hc ih => have := wireOpen_labels (P := P) (cfg := cfg) (s := s) (st := q.1) (l := l) ih; rw [hc] at this; exact this

/-! ## The same results -/

theorem generate_scheme {tool seed : Bytes} {g : Signet} {t : ToolInst} (hr : getTool t.info.name = some t.info) (ht : tool = t.info.name)
    (h : generateSignet P tool seed = .ok g) : g.scheme = t.info.name := by
  subst ht
  unfold generateSignet at h
  rw [hr] at h
  dsimp only at h
  split at h
  · split at h
    · cases h
    · cases h; rfl
  · cases h

theorem store_scheme {x y : Signet} (h : x.store P = .ok y) : y.scheme = x.scheme := by
  unfold Signet.store at h
  split at h
  · cases h; rfl
  · split at h
    · cases h
    · split at h
      · split at h
        · cases h
        · split at h
          · cases h
          · cases h; rfl
      · cases h

theorem asRecipient_scheme {x y : Signet} (h : x.asRecipient P = .ok y) : y.scheme = x.scheme := by
  unfold Signet.asRecipient at h
  split at h
  · cases h
  · simp only [bind_ok_iff] at h
    obtain ⟨z, hz, h⟩ := h
    cases h
    exact (load_scheme hz : z.scheme = x.scheme)

theorem asRecipient_same {t : ToolInst} (hr : getTool t.info.name = some t.info) (h : P.loadKey t.info.name = Q.loadKey t.info.name) {x : Signet}
    (hx : x.scheme = t.info.name) : x.asRecipient P = x.asRecipient Q := by
  unfold Signet.asRecipient
  rw [load_same hr h hx]

theorem newLocal_same {t : ToolInst} (h : SameTool P Q t) (hr : getTool t.info.name = some t.info) (hp : t.info.purpose = .keyExchange) (seed : Bytes) :
    newLocal P t seed = newLocal Q t seed := by
  obtain ⟨h1, h2, h3, h4⟩ := h.exchange hp
  unfold newLocal
  rw [generate_same hr h2]
  split
  · rfl
  · rename_i g hg
    have e1 := generate_scheme hr rfl hg
    rw [store_same hr h4 e1]
    split
    · rfl
    · rename_i g1 hg1
      have e2 := (store_scheme hg1).trans e1
      rw [asRecipient_same hr h3 e2]
      split
      · rfl
      · rename_i r hr1
        rw [store_same hr h4 ((asRecipient_scheme hr1).trans e2)]

theorem genKX_same (hs : ∀ t ∈ s.insts, SameTool P Q t) (hr : Registered s.insts) : ∀ (ps : List KxPair) (c : Nat),
    (∀ p ∈ ps, p.tool ∈ s.insts ∧ p.tool.info.purpose = .keyExchange) → genKX P rng c ps = genKX Q rng c ps
  | [], _, _ => rfl
  | p :: ps, c, h => by
    obtain ⟨h1, h2⟩ := h p (by simp)
    rw [genKX, genKX, genKX_same hs hr ps (c + 1) fun q hq => h q (by simp [hq]), newLocal_same (hs _ h1) (hr _ h1) h2]

theorem sharedKeys_same (hs : ∀ t ∈ s.insts, SameTool P Q t) (hr : Registered s.insts) : ∀ (ps : List KxPair),
    (∀ p ∈ ps, p.tool ∈ s.insts ∧ p.tool.info.purpose = .keyExchange) → PeersOf ps → sharedKeys P ps = sharedKeys Q ps
  | [], _, _ => rfl
  | p :: ps, h, hp => by
    obtain ⟨h1, h2⟩ := h p (by simp)
    have e : sharedKey P p = sharedKey Q p := by
      unfold sharedKey
      split
      · rfl
      · rfl
      · rename_i g q hg hq
        rw [load_same (hr _ h1) ((hs _ h1).exchange h2).2.2.1 (hp p (by simp) q hq), makeShared_same (hs _ h1) h2]
    rw [sharedKeys, sharedKeys, sharedKeys_same hs hr ps (fun q hq => h q (by simp [hq])) (fun q hq => hp q (by simp [hq])), e]

theorem initiate_same (hs : ∀ t ∈ s.insts, SameTool P Q t) (hr : Registered s.insts) (B : WireOf P cfg s) {w : Wire} (hw : w.PairsIn s) (km : KM) :
    initiate P rng w km = initiate Q rng w km := by
  unfold initiate
  rw [genKX_same hs hr w.kx km.ctr hw.kx, pairs_noKE B hw]
  rfl

theorem complete_same (hs : ∀ t ∈ s.insts, SameTool P Q t) (hr : Registered s.insts) (B : WireOf P cfg s) {w : Wire} (hw : w.PairsIn s)
    (hp : PeersOf w.kx) : complete P rng s w = complete Q rng s w := by
  unfold complete
  rw [genKX_same hs hr w.kx 1 hw.kx, pairs_noKE B hw]
  have t1 := genKX_tools Q rng 1 w.kx
  have p1 := genKX_labels (P := Q) (rng := rng) w.kx 1 hp
  split
  · rfl
  · rename_i kx a he
    rw [he] at t1 p1
    rw [sharedKeys_same hs hr kx ((PairsIn.of_tools hw t1 rfl).kx) p1]
    rfl

theorem sendSwitch_same (hs : ∀ t ∈ s.insts, SameTool P Q t) (hr : Registered s.insts) (B : WireOf P cfg s) {w : Wire} (hw : w.PairsIn s)
    (hp : PeersOf w.kx) (nonce : Bytes) : sendSwitch P cfg rng s w nonce = sendSwitch Q cfg rng s w nonce := by
  unfold sendSwitch
  split
  · rw [wSetupClosing_same hs hr]
    have h1 := wSetupClosing_in (P := Q) (cfg := cfg) (rng := rng) (nonce := nonce) hw
    split
    · rfl
    · rename_i x he
      rw [he] at h1
      exact initiate_same (w := { w with kx := x.kx, ke := x.ke }) hs hr B h1 _
  · exact initiate_same hs hr B hw {}
  · exact complete_same hs hr B hw hp
  · rfl
  · rfl
  · rfl

theorem recvAnswer_same (hs : ∀ t ∈ s.insts, SameTool P Q t) (hr : Registered s.insts) (B : WireOf P cfg s) {w : Wire} (hw : w.PairsIn s)
    (hp : PeersOf w.kx) (l : Letter) : recvAnswer P w l = recvAnswer Q w l := by
  unfold recvAnswer
  rw [pairs_noKE B hw]
  split
  · rfl
  · split
    · rfl
    · have t1 := assignKX_tools l.version l.keys 0 w.kx
      have p1 := assignKX_labels l.version l.keys w.kx 0 hp
      split
      · rfl
      · rename_i kx he
        rw [he] at t1 p1
        rw [sharedKeys_same hs hr kx ((PairsIn.of_tools hw t1 rfl).kx) p1]
        rfl

theorem recvSwitch_same (hs : ∀ t ∈ s.insts, SameTool P Q t) (hr : Registered s.insts) (B : WireOf P cfg s) {w : Wire} (hw : w.PairsIn s)
    (hp : PeersOf w.kx) (l : Letter) : recvSwitch P cfg s w l = recvSwitch Q cfg s w l := by
  unfold recvSwitch
  split
  · rw [wSetupOpening_same hs hr]
  · rfl
  · rw [recvAnswer_same hs hr B hw hp]
  · rfl
  · rfl
  · rfl

theorem wireClose_same (hs : ∀ t ∈ s.insts, SameTool P Q t) (hr : Registered s.insts) (B : WireOf P cfg s) (rng : Rng) (st : SState) {w : Wire}
    (hw : w.PairsIn s) (hp : PeersOf w.kx) (data : Bytes) : s.wireClose P cfg rng st w data = s.wireClose Q cfg rng st w data := by
  unfold Session.wireClose
  split
  · rfl
  · split
    · rw [signLetter_same hs]
    · rename_i k hk
      obtain ⟨k1, k2⟩ := kdf_mem hk
      unfold sendHandshake encryptLetter
      simp only [sendSwitch_same hs hr B hw hp, ratchet_same (hs k k1) k2, setupTools_same (hs k k1) k2, protect_same hs, signLetter_same hs]

theorem wireOpen_same (hs : ∀ t ∈ s.insts, SameTool P Q t) (hr : Registered s.insts) (B : WireOf P cfg s) (st : SState) {w : Wire}
    (hw : w.PairsIn s) (hp : PeersOf w.kx) (l : Letter) : s.wireOpen P cfg st w l = s.wireOpen Q cfg st w l := by
  unfold Session.wireOpen
  rw [checkSignatures_same hs]
  split
  · rfl
  · split
    · rfl
    · rename_i k hk
      obtain ⟨k1, k2⟩ := kdf_mem hk
      unfold recvHandshake decryptLetter
      simp only [recvSwitch_same hs hr B hw hp, ratchet_same (hs k k1) k2, setupTools_same (hs k k1) k2, unprotect_same hs]

/-- C92 for wire sessions: two cryptographic libraries that agree on the tools named by the suite have the same histories (letters sent, letters that
could not be sent, letters received, honest or not), and send and read the same afterwards, however they differ on all other algorithms. -/
theorem wire_isolated (B : WireOf P cfg s) (h : ∀ tid ∈ s.suite.tools, ∀ t, makeInst tid = .ok t → SameTool P Q t) (b : Bool) {ls : List Letter}
    {q : SState × Wire} (hq : History P cfg s (s.initState, { server := b }) ls q) :
    History Q cfg s (s.initState, { server := b }) ls q ∧
    (∀ rng data, s.wireClose P cfg rng q.1 q.2 data = s.wireClose Q cfg rng q.1 q.2 data) ∧
    (∀ l, s.wireOpen P cfg q.1 q.2 l = s.wireOpen Q cfg q.1 q.2 l) := by
  have hs : ∀ t ∈ s.insts, SameTool P Q t := by
    intro t ht
    obtain ⟨tid, h1, h2⟩ := inst_tool B.session ht
    exact h tid h1 t h2
  have hr := session_registered B.session
  have key : ∀ ls q, History P cfg s (s.initState, { server := b }) ls q →
      (∀ rng data, s.wireClose P cfg rng q.1 q.2 data = s.wireClose Q cfg rng q.1 q.2 data) ∧
      (∀ l, s.wireOpen P cfg q.1 q.2 l = s.wireOpen Q cfg q.1 q.2 l) := by
    intro ls q hq
    have hin : q.2.PairsIn s := history_in (p := (s.initState, { server := b })) ⟨by simp, by simp⟩ hq
    have hp : PeersOf q.2.kx := history_labels (p := (s.initState, { server := b })) .nil hq
    exact ⟨fun rng data => wireClose_same hs hr B rng q.1 hin hp data, fun l => wireOpen_same hs hr B q.1 hin hp l⟩
  refine ⟨?_, key ls q hq⟩
  induction hq with
  | start => exact .start
  | sent rng data hq hc ih => exact .sent rng data ih ((((key _ _ hq).1 rng data).symm).trans hc)
  | failed rng data hq hc ih => exact .failed rng data ih ((((key _ _ hq).1 rng data).symm).trans hc)
  | opened l hq hc ih => exact .opened l ih ((((key _ _ hq).2 l).symm).trans hc)

/-- The hypotheses can be met by libraries that differ: the tools of the suite `w2` are the same in `brokenOthers`, in which everything else is broken
(`isolated_example`), and a conversation with all parts of the handshake works with it. -/
theorem wire_isolated_example :
    (∀ su, getSuite suiteRegistry b!"w2" = some su → ∀ tid ∈ su.tools, ∀ t, makeInst tid = .ok t → SameTool toyPrims brokenOthers t) ∧
    (match wireCorrespondence brokenOthers toyConfig toyWorld suiteRegistry (toyEnvelope b!"w2" [] [] [b!"bob"]) with
      | .ok (s, w) =>
        (match Net.runs brokenOthers toyConfig toyWorld suiteRegistry s toyRng { client := (s.initState, w) } toyTalk with
        | some n => decide (n.c2s.map (·.2) = [b!"eight"]) && decide (n.s2c.map (·.2) = [b!"seven"]) && decide (n.client.2.hs = .sendApply)
        | none => false)
      | .error _ => false) = true := by
  refine ⟨?_, by decide +kernel⟩
  have hsub : ∀ su, getSuite suiteRegistry b!"w2" = some su → ∀ tid ∈ su.tools,
      tid ∈ [b!"ECDH-X25519", b!"Ed25519(BLAKE3)", b!"BLAKE3-KDF", b!"CHACHA20-POLY1305"] := by
    have : (match getSuite suiteRegistry b!"w2" with
      | some su => su.tools.all (fun tid => [b!"ECDH-X25519", b!"Ed25519(BLAKE3)", b!"BLAKE3-KDF", b!"CHACHA20-POLY1305"].contains tid)
      | none => true) = true := by decide +kernel
    intro su hsu tid ht
    rw [hsu] at this
    have := List.all_eq_true.mp this tid ht
    simpa using this
  exact fun su hsu tid ht t hm => isolated_example.1 tid (hsub su hsu tid ht) t hm

end Jess
