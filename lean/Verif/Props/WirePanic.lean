import Verif.Props.WireOrder
import Verif.Props.NoPanic

/-!
# C26 for wire sessions: which letters can make `Open` panic
-/

namespace Jess

open Requirements

variable {P : Prims} {cfg : Config} {s : Session}

theorem registered_no_ke : ∀ su ∈ suiteRegistry, ∀ i ∈ instsOf su, i.info.purpose ≠ .keyEncapsulation := by decide +kernel

theorem WireOf.noKE (B : WireOf P cfg s) : s.queue .keyEncapsulation = [] := by
  cases h : s.queue .keyEncapsulation with
  | nil => rfl
  | cons t ts =>
    have ht : t ∈ s.queue .keyEncapsulation := by rw [h]; simp
    obtain ⟨h1, h2⟩ := mem_queue.mp ht
    rw [session_insts B.session] at h1
    exact absurd h2 (registered_no_ke _ B.registered t h1)

/-- After the first message: there are no key encapsulation pairs, and a party that waits for keys has private keys. -/
structure WSafe (w : Wire) : Prop where
  ke : w.ke = []
  hs : w.hs ≠ .init
  idle : w.hs ≠ .idle
  priv : w.hs = .awaitKey → ∀ p ∈ w.kx, ∀ g, p.signet = some g → g.loadedPriv.isSome = true

theorem assignKX_spec (v : UInt8) (keys : List Seal) : ∀ (ps : List KxPair) (i : Nat), i + ps.length ≤ keys.length →
    (assignKX v keys i ps).2 = .ok () ∧ (assignKX v keys i ps).1.map (·.signet) = ps.map (·.signet)
  | [], _, _ => ⟨rfl, rfl⟩
  | p :: ps, i, h => by
    rw [List.length_cons] at h
    obtain ⟨a, b⟩ := assignKX_spec v keys ps (i + 1) (by omega)
    rw [assignKX]
    split
    · rename_i hn
      have := List.getElem?_eq_none_iff.mp hn
      omega
    · exact ⟨a, by simp only [List.map_cons, b]⟩

theorem sharedKey_signet (p : KxPair) : (sharedKey P p).1.signet = p.signet := by
  unfold sharedKey
  split
  · rfl
  · rfl
  · split <;> rfl

theorem sharedKeys_signets : ∀ ps : List KxPair, (sharedKeys P ps).1.map (·.signet) = ps.map (·.signet)
  | [] => rfl
  | p :: ps => by
    have h1 := sharedKey_signet (P := P) p
    have h2 := sharedKeys_signets ps
    rw [sharedKeys]
    split
    · rename_i h; rw [h] at h1; simp only [List.map_cons]; rw [h1]
    · rename_i h; rw [h] at h1; simp only [List.map_cons]; rw [h1, h2]

theorem np_map {α β : Type} {r : Res α} (f : α → β) (h : r.noPanic) : Res.noPanic (r.map f : Res β) := by
  cases r with
  | error e => intro h'; cases h'; exact h rfl
  | ok a => exact np_ok _

theorem np_sharedKey (hP : P.NoPanic) (p : KxPair) (h : ∀ g, p.signet = some g → g.loadedPriv.isSome = true) : (sharedKey P p).2.noPanic := by
  unfold sharedKey
  split
  · exact np_err (by decide)
  · exact np_err (by decide)
  · rename_i g q hg _
    have hl := np_load hP q
    split
    · rename_i e he; rw [he] at hl; intro h'; cases h'; exact hl rfl
    · rename_i q' he
      have := (load_spec he).2.2.2.2.2.2.2
      obtain ⟨a, ha⟩ := Option.isSome_iff_exists.mp (h g hg)
      obtain ⟨b, hb⟩ := Option.isSome_iff_exists.mp this
      unfold makeShared
      rw [ha, hb]
      exact np_ok _

theorem np_sharedKeys (hP : P.NoPanic) : ∀ ps : List KxPair, (∀ p ∈ ps, ∀ g, p.signet = some g → g.loadedPriv.isSome = true) →
    (sharedKeys P ps).2.noPanic
  | [], _ => np_ok _
  | p :: ps, h => by
    have h1 := np_sharedKey hP p (h p (by simp))
    have h2 := np_sharedKeys hP ps (fun p hp => h p (by simp [hp]))
    rw [sharedKeys]
    split
    · rename_i e he; rw [he] at h1; intro h'; cases h'; exact h1 rfl
    · exact np_map _ h2

theorem signets_mem {a b : List KxPair} (h : a.map (·.signet) = b.map (·.signet))
    (hb : ∀ p ∈ b, ∀ g, p.signet = some g → g.loadedPriv.isSome = true) : ∀ p ∈ a, ∀ g, p.signet = some g → g.loadedPriv.isSome = true := by
  intro p hp g hg
  have : some g ∈ a.map (·.signet) := List.mem_map.mpr ⟨p, hp, hg⟩
  rw [h] at this
  obtain ⟨q, hq, hqg⟩ := List.mem_map.mp this
  exact hb q hq g hqg

theorem recvAnswer_safe (hP : P.NoPanic) {w : Wire} {l : Letter} (hw : WSafe w) (ha : w.hs = .awaitKey) :
    (recvAnswer P w l).2.noPanic ∧ WSafe (recvAnswer P w l).1 := by
  unfold recvAnswer
  split
  · exact ⟨np_ok _, hw⟩
  · split
    · exact ⟨np_err (by decide), hw⟩
    · rename_i hlen
      rw [hw.ke] at hlen ⊢
      simp only [List.length_nil, Nat.add_zero, ne_eq, Decidable.not_not] at hlen
      obtain ⟨a1, a2⟩ := assignKX_spec l.version l.keys w.kx 0 (by omega)
      generalize hx : assignKX l.version l.keys 0 w.kx = x at a1 a2
      obtain ⟨kx, r⟩ := x
      simp only at a1 a2
      subst a1
      simp only [assignSeals]
      have hpriv := signets_mem a2 (hw.priv ha)
      have n1 := np_sharedKeys hP kx hpriv
      have s1 := sharedKeys_signets (P := P) kx
      generalize hy : sharedKeys P kx = y at n1 s1
      obtain ⟨kx', r⟩ := y
      have hpriv' := signets_mem s1 hpriv
      cases r with
      | error e => exact ⟨fun h => n1 (by cases h; rfl), ⟨rfl, hw.hs, hw.idle, fun _ => hpriv'⟩⟩
      | ok sh =>
        simp only [unwrapAll]
        exact ⟨np_ok _, ⟨rfl, by simp, by simp, by simp⟩⟩

theorem recvSwitch_safe (hP : P.NoPanic) {w : Wire} {l : Letter} (hw : WSafe w) :
    (recvSwitch P cfg s w l).2.noPanic ∧ WSafe (recvSwitch P cfg s w l).1 := by
  unfold recvSwitch
  split
  · rename_i h; exact absurd h hw.hs
  · rename_i h; exact absurd h hw.idle
  · rename_i h
    have := recvAnswer_safe hP (l := l) hw h
    split
    · rename_i e he
      rw [he] at this
      exact ⟨fun h => this.1 (by cases h; rfl), this.2⟩
    · rename_i e he
      rw [he] at this
      exact ⟨np_ok _, this.2⟩
  · split <;> exact ⟨np_ok _, hw⟩
  · exact ⟨np_ok _, hw⟩
  · exact ⟨np_ok _, hw⟩

theorem np_ratchet (hP : P.NoPanic) (k : ToolInst) (n : Nat) (c nonce : Bytes) (m : List Bytes) : (ratchet P s k n c nonce m).noPanic := by
  unfold ratchet
  split
  · split
    · exact np_err (by decide)
    · split
      · have := hP.kdf k.info.name k.hashName nonce m.flatten 0 s.keySize
        split
        · rename_i e he; unfold kdfRead at he; rw [he] at this; intro h; cases h; exact this rfl
        · exact np_ok _
      · exact np_err (by decide)
  · split
    · have := hP.kdf k.info.name k.hashName nonce (m ++ [c]).flatten 0 c.length
      split
      · rename_i e he; unfold kdfRead at he; rw [he] at this; intro h; cases h; exact this rfl
      · exact np_ok _
    · exact np_err (by decide)

theorem received_safe {w : Wire} (hw : WSafe w) (c : Bytes) (b : Bool) : WSafe (w.received c b) := by
  cases b with
  | false => exact ⟨hw.ke, hw.hs, hw.idle, hw.priv⟩
  | true =>
    refine ⟨?_, hw.hs, hw.idle, ?_⟩
    · show (List.map _ w.ke) = []
      rw [hw.ke]; rfl
    · intro _ p hp g hg
      obtain ⟨q, _, rfl⟩ := List.mem_map.mp (show p ∈ w.kx.map _ from hp)
      cases hg

theorem sent_safe {w : Wire} (hw : WSafe w) (c : Bytes) (b : Bool) : WSafe (w.sent c b) := by
  cases b with
  | false => exact ⟨hw.ke, hw.hs, hw.idle, hw.priv⟩
  | true =>
    refine ⟨?_, hw.hs, hw.idle, ?_⟩
    · show (List.map _ w.ke) = []
      rw [hw.ke]; rfl
    · intro _ p hp g hg
      obtain ⟨q, _, rfl⟩ := List.mem_map.mp (show p ∈ w.kx.map _ from hp)
      cases hg

theorem WireOf.noSig (B : WireOf P cfg s) (st : SState) (l : Letter) : checkSignatures P s st l = (st, .ok ()) := by
  unfold checkSignatures
  rw [(initWire_spec B.wire).2.2.1]
  rfl

theorem wireOpen_safe (hP : P.NoPanic) (B : WireOf P cfg s) {st : SState} {w : Wire} (hw : WSafe w) (l : Letter) :
    (s.wireOpen P cfg st w l).2.noPanic ∧ WSafe (s.wireOpen P cfg st w l).1.2 := by
  unfold Session.wireOpen
  rw [B.noSig]
  simp only
  split
  · split
    · exact ⟨np_err (by decide), hw⟩
    · exact ⟨np_ok _, hw⟩
  · rename_i k _
    unfold recvHandshake
    obtain ⟨h1, h2⟩ := recvSwitch_safe (cfg := cfg) (s := s) hP (l := l) hw
    generalize hr : recvSwitch P cfg s w l = y at h1 h2
    obtain ⟨w', r⟩ := y
    cases r with
    | error e => exact ⟨fun h => h1 (by cases h; rfl), h2⟩
    | ok x =>
      obtain ⟨m, b⟩ := x
      simp only
      have h3 := np_ratchet (s := s) hP k w'.msgNo w'.recvCarry l.nonce m
      generalize hz : ratchet P s k w'.msgNo w'.recvCarry l.nonce m = z at h3
      cases z with
      | error e => exact ⟨fun h => h3 (by cases h; rfl), h2⟩
      | ok x => exact ⟨np_decryptLetter hP _ _ _ _ _ _, received_safe h2 _ _⟩

theorem sendSwitch_safe {rng : Rng} {nonce : Bytes} {w : Wire} (hw : WSafe w) : WSafe (sendSwitch P cfg rng s w nonce).1 := by
  unfold sendSwitch
  split
  · rename_i h; exact absurd h hw.hs
  · rename_i h; exact absurd h hw.idle
  · rename_i h
    unfold complete
    rw [hw.ke]
    simp only [genKE, encapAll]
    have key : ∀ kx, WSafe { w with kx := kx, ke := [] } := fun kx =>
      ⟨rfl, hw.hs, hw.idle, fun h' => by rw [show w.hs = .sendKey from h] at h'; cases h'⟩
    split
    · exact key _
    · split
      · exact key _
      · exact ⟨rfl, by simp, by simp, by simp⟩
  all_goals exact hw

theorem wireClose_safe (B : WireOf P cfg s) {rng : Rng} {st : SState} {w : Wire} (hw : WSafe w) (d : Bytes) :
    WSafe (s.wireClose P cfg rng st w d).1.2 := by
  unfold Session.wireClose
  split
  · exact hw
  · rename_i nonce _
    split
    · split <;> exact hw
    · rename_i k _
      have h2 := sendSwitch_safe (P := P) (cfg := cfg) (s := s) (rng := rng) (nonce := nonce) hw
      have h3 : WSafe (sendHandshake P cfg rng s k w nonce).1 := by
        unfold sendHandshake
        generalize sendSwitch P cfg rng s w nonce = y at h2
        obtain ⟨w', r⟩ := y
        cases r with
        | error e => exact h2
        | ok out =>
          simp only
          split
          · exact h2
          · exact sent_safe h2 _ _
      split
      · rename_i he; rw [he] at h3; exact h3
      · rename_i he
        rw [he] at h3
        split <;> exact h3

theorem history_safe (hP : P.NoPanic) (B : WireOf P cfg s) {p q : SState × Wire} {ls : List Letter} (h : History P cfg s p ls q)
    (hp : WSafe p.2) : WSafe q.2 := by
  induction h with
  | start => exact hp
  | @sent q ls rng data _ _ _ hc ih => have := wireClose_safe B (rng := rng) (st := q.1) ih data; rw [hc] at this; exact this
  | @failed q ls rng data _ _ _ hc ih => have := wireClose_safe B (rng := rng) (st := q.1) ih data; rw [hc] at this; exact this
  | @opened q ls l _ _ _ ho ih => have := (wireOpen_safe hP B (st := q.1) ih l).2; rw [ho] at this; exact this

/-! ## The first message -/

theorem loopKM_inv {σ α : Type} {f : σ → α → σ × Res Unit} {I : σ → Prop} (hf : ∀ x a, I x → I (f x a).1) :
    ∀ (l : List α) (x : σ), I x → I (loopKM f x l).1
  | [], x, h => h
  | a :: l, x, h => by
    have h1 := hf x a h
    rw [loopKM]
    split
    · rename_i he; rw [he] at h1; exact h1
    · rename_i he; rw [he] at h1; exact loopKM_inv hf l _ h1

theorem overTools_inv {σ : Type} {f : σ → ToolInst → σ × Res Unit} {I : σ → Prop} (hf : ∀ x a, I x → I (f x a).1) :
    ∀ (l : List ToolInst) (x : σ) (r : Res Unit), I x → I (overTools f x r l).1
  | [], x, _, h => h
  | a :: l, x, r, h => by
    have h1 := hf x a h
    unfold overTools
    split
    · rename_i he; rw [he] at h1; exact h1
    · rename_i he; rw [he] at h1; exact overTools_inv hf l _ _ h1

/-- All pairs have a private key. -/
def Offered (kx : List KxPair) : Prop := ∀ p ∈ kx, ∃ g, p.signet = some g ∧ g.loadedPriv.isSome = true

theorem wCloseKX_offered (rng : Rng) (t : ToolInst) (x : WKM) (r : Signet) (h : Offered x.kx) : Offered (wCloseKX P rng t x r).1.kx := by
  unfold wCloseKX
  split
  · exact h
  · rename_i snd sh sl ho
    intro p hp
    rcases List.mem_append.mp hp with hp | hp
    · exact h p hp
    · cases List.mem_singleton.mp hp
      refine ⟨snd, rfl, ?_⟩
      unfold kxOffer at ho
      simp only [bind_ok_iff] at ho
      obtain ⟨g, _, sh', hsh, _, _, _, _, he⟩ := ho
      cases Except.ok.inj he
      unfold makeShared at hsh
      split at hsh
      · rename_i ha _; rw [ha]; rfl
      · cases hsh

theorem wSetupClosing_offered (B : WireOf P cfg s) (rng : Rng) (nonce : Bytes) :
    Offered (wSetupClosing P cfg rng s nonce [] []).1.kx ∧ (wSetupClosing P cfg rng s nonce [] []).1.ke = [] := by
  have o1 : ofScheme s.env.secrets schemeKey = [] := by rw [B.secrets]; rfl
  have o2 : ofScheme s.env.secrets schemePassword = [] := by rw [B.secrets]; rfl
  unfold wSetupClosing
  rw [o1, o2, B.noKE]
  simp only [loopKM, closeKeys, overTools]
  have h := overTools_inv (f := fun x t => loopKM (wCloseKX P rng t) x (ofScheme s.env.recipients t.info.name))
    (I := fun x : WKM => Offered x.kx ∧ x.ke = [])
    (fun x t hx => loopKM_inv (I := fun x : WKM => Offered x.kx ∧ x.ke = [])
      (fun x r hx => ⟨wCloseKX_offered rng t x r hx.1, by unfold wCloseKX; split <;> exact hx.2⟩) _ x hx)
    (s.queue .keyExchange) { km := { keys := [] ++ [], material := [] ++ [], ctr := 1 }, kx := [], ke := [] } (.ok ())
    ⟨(by intro p hp; cases hp), rfl⟩
  split
  · rename_i he; erw [he] at h; exact h
  · rename_i he; erw [he] at h; exact h

theorem genKX_offered (rng : Rng) : ∀ (ps : List KxPair) (c : Nat), Offered ps → genKX P rng c ps = (ps, .ok [])
  | [], _, _ => rfl
  | p :: ps, c, h => by
    obtain ⟨g, hg, _⟩ := h p (by simp)
    have ih := genKX_offered rng ps (c + 1) (fun p hp => h p (by simp [hp]))
    rw [genKX, hg]
    simp only [ih]

theorem first_send_safe (B : WireOf P cfg s) {b : Bool} {rng : Rng} {data : Bytes} {p : SState × Wire} {l : Letter}
    (h : s.wireClose P cfg rng s.initState { server := b } data = (p, .ok l)) : WSafe p.2 := by
  obtain ⟨k, T⟩ := B.tools
  unfold Session.wireClose at h
  split at h
  · cases h
  · rename_i nonce _
    rw [T.kdf] at h
    simp only [sendHandshake, sendSwitch] at h
    obtain ⟨c1, c2⟩ := wSetupClosing_offered B rng nonce
    generalize wSetupClosing P cfg rng s nonce [] [] = x at h c1 c2
    obtain ⟨x, r⟩ := x
    cases r with
    | error e => cases h
    | ok u =>
      simp only at h c1 c2
      have hi : initiate P rng { server := b, kx := x.kx, ke := x.ke } x.km =
          ({ server := b, kx := x.kx, ke := [], hs := .awaitKey }, .ok { keys := x.km.keys ++ [] ++ [], material := x.km.material }) := by
        unfold initiate
        rw [if_pos (Or.inl rfl)]
        simp only [genKX_offered rng _ _ c1, c2, genKE]
      rw [hi] at h
      simp only at h
      have hw : WSafe { server := b, kx := x.kx, ke := [], hs := .awaitKey } :=
        ⟨rfl, by simp, by simp, fun _ p hp g hg => by
          obtain ⟨g', h1, h2⟩ := c1 p hp
          rw [h1] at hg; cases hg; exact h2⟩
      split at h
      · cases h
      · rename_i he
        split at he
        · cases he
        · cases he
          split at h
          · cases h
          · obtain ⟨rfl, _⟩ := Prod.mk.inj h
            exact sent_safe hw _ false

/-! ## The first letter -/

theorem wOpenKX_ke (l : Letter) (t : ToolInst) (x : WOM) (r : Signet) (h : x.ke = []) : (wOpenKX P l t x r).1.ke = [] := by
  unfold wOpenKX
  repeat' split
  all_goals exact h

theorem wSetupOpening_ke (B : WireOf P cfg s) (l : Letter) (kx : List KxPair) : (wSetupOpening P cfg s l kx []).1.ke = [] := by
  have o1 : ofScheme s.env.secrets schemeKey = [] := by rw [B.secrets]; rfl
  have o2 : ofScheme s.env.secrets schemePassword = [] := by rw [B.secrets]; rfl
  unfold wSetupOpening
  rw [o1, o2, B.noKE]
  simp only [loopKM, overTools, List.map_nil, List.length_nil]
  have h := overTools_inv (f := fun x t => loopKM (wOpenKX P l t) x (ofScheme s.env.recipients t.info.name))
    (I := fun x : WOM => x.ke = [])
    (fun x t hx => loopKM_inv (I := fun x : WOM => x.ke = []) (fun x r hx => wOpenKX_ke l t x r hx) _ x hx)
    (s.queue .keyExchange) { om := { material := [], idx := 0 }, kx := kx, ke := [] } (.ok ()) rfl
  split
  · rename_i he; erw [he] at h; exact h
  · rename_i he; erw [he] at h; exact h

theorem first_open_safe (B : WireOf P cfg s) {b : Bool} {p : SState × Wire} {l : Letter} {d : Bytes}
    (h : s.wireOpen P cfg s.initState { server := b } l = (p, .ok d)) : WSafe p.2 := by
  obtain ⟨k, T⟩ := B.tools
  unfold Session.wireOpen at h
  rw [B.noSig, T.kdf] at h
  simp only [recvHandshake, recvSwitch] at h
  have c := wSetupOpening_ke B l []
  generalize hx : wSetupOpening P cfg s l [] [] = x at h c
  obtain ⟨x, r⟩ := x
  cases r with
  | error e => cases h
  | ok u =>
    simp only at h c
    by_cases hl : l.keys = []
    · obtain rfl := setupOpening_nokeys hl B.secrets hx
      simp only [recvOffer, hl, List.length_nil, ratchet, if_true, kdfInitOK, Bool.false_eq_true, if_false] at h
      split at h
      · cases h
      · rename_i he
        split at he
        · cases he
        · rename_i hz
          split at hz <;> cases hz
    · generalize hr : recvOffer s { server := b, kx := x.kx, ke := x.ke } l = y at h
      obtain ⟨w', r⟩ := y
      cases r with
      | error e => cases h
      | ok u =>
        simp only at h
        have hw : WSafe w' := by
          unfold recvOffer at hr
          rw [if_neg (by simpa using hl)] at hr
          split at hr
          · cases hr
          · split at hr
            · cases hr
            · simp only [c, assignKE] at hr
              cases hr
              exact ⟨rfl, by simp, by simp, by simp⟩
        split at h
        · cases h
        · rename_i he
          split at he
          · cases he
          · cases he
            obtain ⟨rfl, _⟩ := Prod.mk.inj h
            exact received_safe hw _ false

theorem np_loop_wOpenKX (hP : P.NoPanic) (l : Letter) : ∀ (ps : List (ToolInst × Signet)) (x : WOM),
    x.om.idx + ps.length ≤ l.keys.length → (∀ p ∈ ps, p.2.loadedPriv.isSome = true) →
    (loopKM (fun x (p : ToolInst × Signet) => wOpenKX P l p.1 x p.2) x ps).2.noPanic
  | [], _, _, _ => np_ok _
  | p :: ps, x, h, hp => by
    rw [List.length_cons] at h
    rw [loopKM]
    have key : (wOpenKX P l p.1 x p.2).2.noPanic ∧ (wOpenKX P l p.1 x p.2).1.om.idx = x.om.idx + 1 := by
      unfold wOpenKX
      split
      · rename_i hn
        have := List.getElem?_eq_none_iff.mp hn
        omega
      · rename_i sl _
        have hpe := np_peer hP l.version p.1 sl.value p.2 (hp p (by simp))
        generalize peerSignet P l.version p.1 sl.value = y at hpe
        cases y with
        | error e => exact ⟨fun h => hpe (by cases h; rfl), rfl⟩
        | ok peer =>
          rw [ok_bind] at hpe
          simp only
          generalize makeShared P p.1.info.name p.2 peer = z at hpe
          cases z with
          | error e => exact ⟨fun h => hpe (by cases h; rfl), rfl⟩
          | ok sh => exact ⟨np_ok _, rfl⟩
    split
    · rename_i he; rw [he] at key; exact fun h => key.1 (by cases h; rfl)
    · rename_i he
      rw [he] at key
      exact np_loop_wOpenKX hP l ps _ (by have := key.2; simp only at this; omega) (fun p hq => hp p (by simp [hq]))

theorem first_open_no_panic (hP : P.NoPanic) (B : WireOf P cfg s) {l : Letter} (hs : OpenSafe P s l) (b : Bool) :
    (s.wireOpen P cfg s.initState { server := b } l).2.noPanic := by
  obtain ⟨k, T⟩ := B.tools
  have o1 : ofScheme s.env.secrets schemeKey = [] := by rw [B.secrets]; rfl
  have o2 : ofScheme s.env.secrets schemePassword = [] := by rw [B.secrets]; rfl
  have hset : (wSetupOpening P cfg s l [] []).2.noPanic := by
    have e1 := overTools_one (fun x t k => wOpenKX P l t x k) s .keyExchange hs.kx
    have hl := hs.keys
    rw [o1, o2] at hl
    simp only [List.length_nil, Nat.zero_add] at hl
    have h := np_loop_wOpenKX hP l (s.pairs .keyExchange) { om := { material := [], idx := 0 }, kx := [], ke := [] }
      (by simp only; omega) (hs.priv _ (Or.inl rfl))
    rw [← e1] at h
    unfold wSetupOpening
    rw [o1, o2, B.noKE]
    simp only [loopKM, overTools, List.map_nil, List.length_nil]
    split
    · rename_i he; erw [he] at h; exact fun h' => h (by cases h'; rfl)
    · exact np_ok _
  have c := wSetupOpening_ke B l []
  unfold Session.wireOpen
  rw [B.noSig, T.kdf]
  simp only [recvHandshake, recvSwitch]
  generalize wSetupOpening P cfg s l [] [] = x at hset c
  obtain ⟨x, r⟩ := x
  simp only at c
  cases r with
  | error e => exact fun h => hset (by cases h; rfl)
  | ok u =>
    simp only [c]
    have ho : (recvOffer s { server := b, kx := x.kx } l).2.noPanic := by
      unfold recvOffer
      split
      · exact np_ok _
      · split
        · exact np_err (by decide)
        · rename_i hne
          rw [B.noKE] at hne
          simp only [List.isEmpty_nil, List.length_nil, Nat.add_zero, true_and, ne_eq, Decidable.not_not] at hne
          obtain ⟨a1, _⟩ := assignKX_spec l.version l.keys x.kx 0 (by omega)
          split
          · rename_i he; rw [he] at a1; cases a1
          · exact np_ok _
    generalize recvOffer s { server := b, kx := x.kx } l = y at ho
    obtain ⟨w', r⟩ := y
    cases r with
    | error e => exact fun h => ho (by cases h; rfl)
    | ok u =>
      simp only
      have h3 := np_ratchet (s := s) hP k w'.msgNo w'.recvCarry l.nonce x.om.material
      generalize ratchet P s k w'.msgNo w'.recvCarry l.nonce x.om.material = z at h3
      cases z with
      | error e => exact fun h => h3 (by cases h; rfl)
      | ok x => exact np_decryptLetter hP _ _ _ _ _ _

/-- C26 for wire sessions, the part that holds. No letter makes `Open` of a wire session panic
* once the session has sent its first letter (the client), whatever it was given and has sent after that;
* if the session was made from a letter and is given that letter first (the server), nor once it has accepted that letter, whatever it was
  given and has sent after that.
(Missing: sessions which have neither sent nor accepted a letter, see `wire_open_panics`.) -/
theorem wire_open_no_panic_partial (P : Prims) (hP : P.NoPanic) (cfg : Config) (w : World) :
    (∀ (e : Envelope) (s : Session) (x : Wire), e.suite = none → wireCorrespondence P cfg w suiteRegistry e = .ok (s, x) →
      ∀ (server : Bool) (rng : Rng) (data : Bytes) (p : SState × Wire) (l0 : Letter),
        s.wireClose P cfg rng s.initState { server := server } data = (p, .ok l0) →
        ∀ ls q, History P cfg s p ls q → ∀ l, (s.wireOpen P cfg q.1 q.2 l).2.noPanic) ∧
    (w.Sound → ∀ (l0 : Letter) (s : Session) (x : Wire), l0.wireCorrespondence P cfg w suiteRegistry = .ok (s, x) → ∀ server : Bool,
      (s.wireOpen P cfg s.initState { server := server } l0).2.noPanic ∧
      ∀ p data, s.wireOpen P cfg s.initState { server := server } l0 = (p, .ok data) →
        ∀ ls q, History P cfg s p ls q → ∀ l, (s.wireOpen P cfg q.1 q.2 l).2.noPanic) := by
  refine ⟨fun e s x he h server rng data p l0 hc ls q hq l => ?_, fun hw l0 s x h server => ⟨?_, fun p data ho ls q hq l => ?_⟩⟩
  · obtain ⟨B, _⟩ := wireOf_envelope (by intro su hsu; rw [he] at hsu; cases hsu) h
    exact (wireOpen_safe hP B (history_safe hP B hq (first_send_safe B hc)) l).1
  · obtain ⟨B, _⟩ := wireOf_letter h
    simp only [Letter.wireCorrespondence, wireCorrespondence, bind_ok_iff] at h
    obtain ⟨e, he, s', hs, _, _, h⟩ := h
    cases h
    exact first_open_no_panic hP B (openSafe_of hP hw (openedBy_iff he hs)) server
  · obtain ⟨B, _⟩ := wireOf_letter h
    exact (wireOpen_safe hP B (history_safe hP B hq (first_open_safe B ho)) l).1

theorem WireOf.kxPairs (B : WireOf P cfg s) : ∃ t k, t ∈ s.queue .keyExchange ∧ k ∈ ofScheme s.env.recipients t.info.name := by
  have hR : RecipientAuthentication ∈ s.reqs := (initWire_spec B.wire).2.1 _ (by decide)
  have hS : SessionHas s RecipientAuthentication := by
    obtain ⟨suite, is, lv, _, _, _, _, _, _, _, _, _, hs, _⟩ := (newSession_ok_iff P cfg s.env s).mp B.session
    rw [hs] at hR ⊢
    exact (mkSession_reqs _ _ _ _ _ _).mp hR
  rcases hS with ⟨t, ht, hp⟩ | ⟨⟨k, hk, _⟩, _⟩
  · have hq : t.info.purpose = .keyExchange := by
      cases h : t.info.purpose <;> rw [h] at hp <;> simp only [providedBy] at hp <;> try (first | rfl | (exfalso; revert hp; decide))
      · have := mem_queue.mpr ⟨ht, h⟩
        rw [(initWire_spec B.wire).2.2.2.1] at this; cases this
      · have := mem_queue.mpr ⟨ht, h⟩
        rw [B.noKE] at this; cases this
    obtain ⟨u, hu, hus⟩ := (session_tools_have_signets P cfg _ s B.session t ht).2.1 (Or.inl hq)
    obtain ⟨tid, _, hmk⟩ := inst_tool B.session ht
    have hne := (toolTable_nonneg t.info (makeInst_spec hmk).2.1).2.1
    exact ⟨t, u, mem_queue.mpr ⟨ht, hq⟩, (mem_ofScheme hne u).mpr ⟨hu, hus⟩⟩
  · rw [B.secrets] at hk; cases hk

/-- C26 is REFUTED for wire sessions which have neither sent nor accepted a letter (also after they rejected some): every letter without
key seals makes `Open` panic (with an index out of range), before anything is authenticated. -/
theorem wire_open_panics (P : Prims) (cfg : Config) (s : Session) (hs : WireOf P cfg s) (st : SState) (w : Wire) (hw : w.hs = .init) (l : Letter)
    (hl : l.keys = []) : (s.wireOpen P cfg st w l).2 = .error .panic := by
  obtain ⟨k, T⟩ := hs.tools
  have o1 : ofScheme s.env.secrets schemeKey = [] := by rw [hs.secrets]; rfl
  have o2 : ofScheme s.env.secrets schemePassword = [] := by rw [hs.secrets]; rfl
  obtain ⟨_, hone⟩ := registered_session hs.session hs.registered
  obtain ⟨t, r, ht, hr⟩ := hs.kxPairs
  have hq : s.queue .keyExchange = [t] := by
    have h1 := hone .keyExchange (by simp)
    cases h : s.queue .keyExchange with
    | nil => rw [h] at ht; cases ht
    | cons a as =>
      rw [h] at ht h1
      cases as with
      | nil => cases List.mem_singleton.mp ht; rfl
      | cons _ _ => simp only [List.length_cons] at h1; omega
  have hset : (wSetupOpening P cfg s l w.kx w.ke).2 = .error .panic := by
    unfold wSetupOpening
    rw [o1, o2, hq]
    simp only [loopKM, overTools, List.map_nil, List.length_nil]
    cases hre : ofScheme s.env.recipients t.info.name with
    | nil => rw [hre] at hr; cases hr
    | cons a as => simp [loopKM, wOpenKX, hl]
  unfold Session.wireOpen
  rw [hs.noSig, T.kdf]
  simp only [recvHandshake, recvSwitch, hw]
  generalize wSetupOpening P cfg s l w.kx w.ke = x at hset
  obtain ⟨x, r⟩ := x
  simp only at hset
  subst hset
  rfl

/-- The hypotheses of `wire_open_no_panic_partial` are met: a client that has sent its first letter, a server made from that letter which
accepts it, and both then given a forged letter, which they reject. -/
theorem wire_no_panic_example : ∃ s w p l0 v wv q, toyWire = .ok (s, w) ∧
    s.wireClose toyPrims toyConfig toyRng s.initState { server := false } [1, 2, 3] = (p, .ok l0) ∧
    l0.wireCorrespondence toyPrims toyConfig toyWorld suiteRegistry = .ok (v, wv) ∧
    v.wireOpen toyPrims toyConfig v.initState { server := true } l0 = (q, .ok [1, 2, 3]) ∧
    (s.wireOpen toyPrims toyConfig p.1 p.2 forgedLetter).2 = .error .integrity ∧
    (v.wireOpen toyPrims toyConfig q.1 q.2 forgedLetter).2 = .error .integrity := by
  have h : (match toyWire with
    | .ok (s, _) =>
      (match s.wireClose toyPrims toyConfig toyRng s.initState { server := false } [1, 2, 3] with
      | (p, .ok l0) =>
        (match l0.wireCorrespondence toyPrims toyConfig toyWorld suiteRegistry with
        | .ok (v, _) =>
          (match v.wireOpen toyPrims toyConfig v.initState { server := true } l0 with
          | (q, .ok d) => decide (d = [1, 2, 3]) &&
            (match (s.wireOpen toyPrims toyConfig p.1 p.2 forgedLetter).2, (v.wireOpen toyPrims toyConfig q.1 q.2 forgedLetter).2 with
            | .error .integrity, .error .integrity => true
            | _, _ => false)
          | _ => false)
        | .error _ => false)
      | _ => false)
    | .error _ => false) = true := by decide +kernel
  split at h
  · rename_i s w hs
    split at h
    · rename_i p l0 hp
      split at h
      · rename_i v wv hv
        split at h
        · rename_i q d hq
          simp only [Bool.and_eq_true, decide_eq_true_eq] at h
          obtain ⟨rfl, h⟩ := h
          split at h
          · rename_i h1 h2
            exact ⟨s, w, p, l0, v, wv, q, hs, hp, hv, hq, h1, h2⟩
          · cases h
        · cases h
      · cases h
    · cases h
  · cases h

/-- A first letter for bob whose key is garbage: an attacker needs no secrets to make it. -/
def garbageFirst : Letter :=
  { version := 1, suiteID := b!"w1", nonce := [9, 9, 9], keys := [{ id := b!"bob", value := [] }], data := [1, 2, 3, 4, 5] }

/-- C26 is REFUTED: a new client session panics on a forged letter; and a server, made from a forged first letter that it rejects, then panics
on the next forged letter. -/
theorem wire_open_panics_example : (∃ s w, toyWire = .ok (s, w) ∧
      (s.wireOpen toyPrims toyConfig s.initState { server := false } forgedLetter).2 = .error .panic) ∧
    (∃ v wv q e, garbageFirst.wireCorrespondence toyPrims toyConfig toyWorld suiteRegistry = .ok (v, wv) ∧
      v.wireOpen toyPrims toyConfig v.initState { server := true } garbageFirst = (q, .error e) ∧ e ≠ .panic ∧
      (v.wireOpen toyPrims toyConfig q.1 q.2 forgedLetter).2 = .error .panic) := by
  constructor
  · have h : toyWire.isOk = true := by decide +kernel
    cases hs : toyWire with
    | error e => rw [hs] at h; cases h
    | ok x =>
      obtain ⟨s, w⟩ := x
      obtain ⟨B, _⟩ := wireOf_envelope (by intro su h; cases h) hs
      exact ⟨s, w, rfl, wire_open_panics _ _ s B _ _ rfl _ rfl⟩
  · have h : (match garbageFirst.wireCorrespondence toyPrims toyConfig toyWorld suiteRegistry with
      | .ok (v, _) =>
        (match v.wireOpen toyPrims toyConfig v.initState { server := true } garbageFirst with
        | (q, .error e) => decide (e ≠ .panic ∧ q.2.hs = .init)
        | _ => false)
      | .error _ => false) = true := by decide +kernel
    split at h
    · rename_i v wv hv
      split at h
      · rename_i q e hq
        obtain ⟨h1, h2⟩ := decide_eq_true_eq.mp h
        obtain ⟨B, _⟩ := wireOf_letter hv
        exact ⟨v, wv, q, e, hv, hq, h1, wire_open_panics _ _ v B _ _ h2 _ rfl⟩
      · cases h
    · cases h

end Jess
