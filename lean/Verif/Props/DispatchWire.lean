import Verif.Props.Dispatch
import Verif.Props.WireState
import Verif.Props.WireDelivery

/-!
# C93 for wire sessions
-/

namespace Jess

open Requirements

/-- The key pairs of a wire session belong to the tools of the session, which have the purpose they are used for. -/
structure PairsIn (s : Session) (kx : List KxPair) (ke : List KePair) : Prop where
  kx : ∀ p ∈ kx, p.tool ∈ s.insts ∧ p.tool.info.purpose = .keyExchange
  ke : ∀ p ∈ ke, p.tool ∈ s.insts ∧ p.tool.info.purpose = .keyEncapsulation

theorem PairsIn.of_tools {s : Session} {kx kx' : List KxPair} {ke ke' : List KePair} (h : PairsIn s kx ke)
    (h1 : kx'.map (·.tool) = kx.map (·.tool)) (h2 : ke'.map (·.tool) = ke.map (·.tool)) : PairsIn s kx' ke' := by
  constructor
  · intro p hp
    have : p.tool ∈ kx.map (·.tool) := h1 ▸ List.mem_map_of_mem hp
    obtain ⟨q, hq, he⟩ := List.mem_map.mp this
    rw [← he]
    exact h.kx q hq
  · intro p hp
    have : p.tool ∈ ke.map (·.tool) := h2 ▸ List.mem_map_of_mem hp
    obtain ⟨q, hq, he⟩ := List.mem_map.mp this
    rw [← he]
    exact h.ke q hq

theorem loopKM_mem_inv {σ α : Type} {f : σ → α → σ × Res Unit} {I : σ → Prop} : ∀ {l : List α} {b : σ}, I b → (∀ b, ∀ x ∈ l, I b → I (f b x).1) →
    I (loopKM f b l).1
  | [], _, h, _ => h
  | x :: xs, b, h, hf => by
    have h1 := hf b x (by simp) h
    rw [loopKM]
    split
    · rename_i he; rw [he] at h1; exact h1
    · rename_i he; rw [he] at h1
      exact loopKM_mem_inv h1 fun b y hy => hf b y (by simp [hy])

theorem overTools_mem_inv {σ : Type} {f : σ → ToolInst → σ × Res Unit} {I : σ → Prop} : ∀ {l : List ToolInst} {b : σ} {r : Res Unit}, I b →
    (∀ b, ∀ x ∈ l, I b → I (f b x).1) → I (overTools f b r l).1
  | [], _, _, h, _ => h
  | x :: xs, b, r, h, hf => by
    have h1 := hf b x (by simp) h
    rw [overTools]
    split
    · rename_i he; rw [he] at h1; exact h1
    · rename_i he; rw [he] at h1
      exact overTools_mem_inv h1 fun b y hy => hf b y (by simp [hy])

section tools

theorem genKX_tools (P : Prims) (rng : Rng) : ∀ (ctr : Nat) (l : List KxPair), (genKX P rng ctr l).1.map (·.tool) = l.map (·.tool)
  | _, [] => rfl
  | ctr, p :: ps => by
    rw [genKX]
    split
    · simp [genKX_tools P rng (ctr + 1) ps]
    · split
      · simp
      · simp [genKX_tools P rng (ctr + 1) ps]

theorem genKE_tools (P : Prims) (rng : Rng) : ∀ (ctr : Nat) (l : List KePair), (genKE P rng ctr l).1.map (·.tool) = l.map (·.tool)
  | _, [] => rfl
  | ctr, p :: ps => by
    rw [genKE]
    split
    · simp [genKE_tools P rng (ctr + 1) ps]
    · split
      · simp
      · simp [genKE_tools P rng (ctr + 1) ps]

theorem sharedKey_tool (P : Prims) (p : KxPair) : (sharedKey P p).1.tool = p.tool := by
  unfold sharedKey
  split
  · rfl
  · rfl
  · split <;> rfl

theorem sharedKeys_tools (P : Prims) : ∀ l : List KxPair, (sharedKeys P l).1.map (·.tool) = l.map (·.tool)
  | [] => rfl
  | p :: ps => by
    have := sharedKey_tool P p
    rw [sharedKeys]
    split
    · rename_i he; rw [he] at this; dsimp only at this; simp [this]
    · rename_i he; rw [he] at this; dsimp only at this; simp [this, sharedKeys_tools P ps]

theorem encapOne_tool (P : Prims) (rng : Rng) (s : Session) (ctr : Nat) (p : KePair) : (encapOne P rng s ctr p).1.tool = p.tool := by
  unfold encapOne
  split
  · rfl
  · split
    · rfl
    · split
      · rfl
      · split <;> rfl

theorem encapAll_tools (P : Prims) (rng : Rng) (s : Session) : ∀ (ctr : Nat) (l : List KePair), (encapAll P rng s ctr l).1.map (·.tool) = l.map (·.tool)
  | _, [] => rfl
  | ctr, p :: ps => by
    have := encapOne_tool P rng s ctr p
    rw [encapAll]
    split
    · rename_i he; rw [he] at this; dsimp only at this; simp [this]
    · rename_i he; rw [he] at this; dsimp only at this; simp [this, encapAll_tools P rng s (ctr + 1) ps]

theorem assignKX_tools (v : UInt8) (keys : List Seal) : ∀ (i : Nat) (l : List KxPair), (assignKX v keys i l).1.map (·.tool) = l.map (·.tool)
  | _, [] => rfl
  | i, p :: ps => by
    rw [assignKX]
    split
    · rfl
    · simp [assignKX_tools v keys (i + 1) ps]

theorem assignKE_tools (v : UInt8) (keys : List Seal) : ∀ (i : Nat) (l : List KePair), (assignKE v keys i l).1.map (·.tool) = l.map (·.tool)
  | _, [] => rfl
  | i, p :: ps => by
    rw [assignKE]
    split
    · rfl
    · split
      · rfl
      · simp [assignKE_tools v keys _ ps]

theorem assignSeals_tools (keys : List Seal) : ∀ (i : Nat) (l : List KePair), (assignSeals keys i l).1.map (·.tool) = l.map (·.tool)
  | _, [] => rfl
  | i, p :: ps => by
    rw [assignSeals]
    split
    · rfl
    · simp [assignSeals_tools keys (i + 1) ps]

end tools

/-! ## The invariant -/

def Wire.PairsIn (s : Session) (w : Wire) : Prop := Jess.PairsIn s w.kx w.ke

variable {P Q : Prims} {cfg : Config} {s : Session}

theorem wCloseKX_in {rng : Rng} {t : ToolInst} (ht : t ∈ s.insts) (hp : t.info.purpose = .keyExchange) {x : WKM} (h : PairsIn s x.kx x.ke) (r : Signet) :
    PairsIn s (wCloseKX P rng t x r).1.kx (wCloseKX P rng t x r).1.ke := by
  unfold wCloseKX
  split
  · exact h
  · refine ⟨fun p hpm => ?_, h.ke⟩
    rcases List.mem_append.mp hpm with hpm | hpm
    · exact h.kx p hpm
    · simp only [List.mem_singleton] at hpm
      subst hpm
      exact ⟨ht, hp⟩

theorem wCloseKE_in {rng : Rng} {t : ToolInst} (ht : t ∈ s.insts) (hp : t.info.purpose = .keyEncapsulation) {x : WKM} (h : PairsIn s x.kx x.ke) (r : Signet) :
    PairsIn s (wCloseKE P cfg rng s t x r).1.kx (wCloseKE P cfg rng s t x r).1.ke := by
  unfold wCloseKE
  refine ⟨h.kx, fun p hpm => ?_⟩
  rcases List.mem_append.mp hpm with hpm | hpm
  · exact h.ke p hpm
  · simp only [List.mem_singleton] at hpm
    subst hpm
    exact ⟨ht, hp⟩

theorem wOpenKX_in {l : Letter} {t : ToolInst} (ht : t ∈ s.insts) (hp : t.info.purpose = .keyExchange) {x : WOM} (h : PairsIn s x.kx x.ke) (r : Signet) :
    PairsIn s (wOpenKX P l t x r).1.kx (wOpenKX P l t x r).1.ke := by
  have h2 : ∀ q : Option Signet, PairsIn s (x.kx ++ [{ tool := t, peer := q }]) x.ke := by
    intro q
    refine ⟨fun p hpm => ?_, h.ke⟩
    rcases List.mem_append.mp hpm with hpm | hpm
    · exact h.kx p hpm
    · simp only [List.mem_singleton] at hpm
      subst hpm
      exact ⟨ht, hp⟩
  unfold wOpenKX
  split
  · exact h
  · split
    · exact h
    · split
      · exact h2 _
      · exact h2 _

theorem wOpenKE_in {l : Letter} {t : ToolInst} (ht : t ∈ s.insts) (hp : t.info.purpose = .keyEncapsulation) {x : WOM} (h : PairsIn s x.kx x.ke) (r : Signet) :
    PairsIn s (wOpenKE P l t x r).1.kx (wOpenKE P l t x r).1.ke := by
  unfold wOpenKE
  refine ⟨h.kx, fun p hpm => ?_⟩
  rcases List.mem_append.mp hpm with hpm | hpm
  · exact h.ke p hpm
  · simp only [List.mem_singleton] at hpm
    subst hpm
    exact ⟨ht, hp⟩

theorem wSetupClosing_in {rng : Rng} {nonce : Bytes} {kx : List KxPair} {ke : List KePair} (h : PairsIn s kx ke) :
    PairsIn s (wSetupClosing P cfg rng s nonce kx ke).1.kx (wSetupClosing P cfg rng s nonce kx ke).1.ke := by
  unfold wSetupClosing
  split
  · exact h
  · rename_i km _
    have h1 : (fun x : WKM => PairsIn s x.kx x.ke) (overTools (fun x t => loopKM (wCloseKX P rng t) x (ofScheme s.env.recipients t.info.name))
        { km := km, kx := kx, ke := ke } (.ok ()) (s.queue .keyExchange)).1 := by
      refine overTools_mem_inv (I := fun x : WKM => PairsIn s x.kx x.ke) h fun b t ht hb => ?_
      have ht := mem_queue.mp ht
      exact loopKM_mem_inv (I := fun x : WKM => PairsIn s x.kx x.ke) hb fun b r _ hb => wCloseKX_in ht.1 ht.2 hb r
    split
    · rename_i he; rw [he] at h1; exact h1
    · rename_i he; rw [he] at h1
      refine overTools_mem_inv (I := fun x : WKM => PairsIn s x.kx x.ke) h1 fun b t ht hb => ?_
      have ht := mem_queue.mp ht
      exact loopKM_mem_inv (I := fun x : WKM => PairsIn s x.kx x.ke) hb fun b r _ hb => wCloseKE_in ht.1 ht.2 hb r

theorem wSetupOpening_in {l : Letter} {kx : List KxPair} {ke : List KePair} (h : PairsIn s kx ke) :
    PairsIn s (wSetupOpening P cfg s l kx ke).1.kx (wSetupOpening P cfg s l kx ke).1.ke := by
  unfold wSetupOpening
  dsimp only
  split
  · exact h
  · rename_i om _
    have h1 : (fun x : WOM => PairsIn s x.kx x.ke) (overTools (fun x t => loopKM (wOpenKX P l t) x (ofScheme s.env.recipients t.info.name))
        { om := om, kx := kx, ke := ke } (.ok ()) (s.queue .keyExchange)).1 := by
      refine overTools_mem_inv (I := fun x : WOM => PairsIn s x.kx x.ke) h fun b t ht hb => ?_
      have ht := mem_queue.mp ht
      exact loopKM_mem_inv (I := fun x : WOM => PairsIn s x.kx x.ke) hb fun b r _ hb => wOpenKX_in ht.1 ht.2 hb r
    split
    · rename_i he; rw [he] at h1; exact h1
    · rename_i he; rw [he] at h1
      refine overTools_mem_inv (I := fun x : WOM => PairsIn s x.kx x.ke) h1 fun b t ht hb => ?_
      have ht := mem_queue.mp ht
      exact loopKM_mem_inv (I := fun x : WOM => PairsIn s x.kx x.ke) hb fun b r _ hb => wOpenKE_in ht.1 ht.2 hb r

/-- The first component of a match on a pair, with what is known about the matched pair. -/
theorem initiate_in {rng : Rng} {w : Wire} {km : KM} (h : w.PairsIn s) : (initiate P rng w km).1.PairsIn s := by
  unfold initiate
  split
  · have t1 := genKX_tools P rng km.ctr w.kx
    split
    · rename_i he; rw [he] at t1
      exact PairsIn.of_tools h t1 rfl
    · rename_i he; rw [he] at t1
      have t2 := genKE_tools P rng (km.ctr + w.kx.length) w.ke
      split
      · rename_i he2; rw [he2] at t2
        exact PairsIn.of_tools h t1 t2
      · rename_i he2; rw [he2] at t2
        exact PairsIn.of_tools h t1 t2
  · exact h

theorem complete_in {rng : Rng} {w : Wire} (h : w.PairsIn s) : (complete P rng s w).1.PairsIn s := by
  unfold complete
  have t1 := genKX_tools P rng 1 w.kx
  split
  · rename_i he; rw [he] at t1
    exact PairsIn.of_tools h t1 rfl
  · rename_i kx _ he; rw [he] at t1
    have t2 := (sharedKeys_tools P kx).trans t1
    split
    · rename_i he; rw [he] at t2
      exact PairsIn.of_tools h t2 rfl
    · rename_i he; rw [he] at t2
      have t3 := genKE_tools P rng (1 + w.kx.length) w.ke
      split
      · rename_i he; rw [he] at t3
        exact PairsIn.of_tools h t2 t3
      · rename_i ke _ he; rw [he] at t3
        have t4 := (encapAll_tools P rng s (1 + w.kx.length + w.ke.length) ke).trans t3
        split
        · rename_i he; rw [he] at t4
          exact PairsIn.of_tools h t2 t4
        · rename_i he; rw [he] at t4
          exact PairsIn.of_tools h t2 t4

theorem sendSwitch_in {rng : Rng} {w : Wire} {nonce : Bytes} (h : w.PairsIn s) : (sendSwitch P cfg rng s w nonce).1.PairsIn s := by
  unfold sendSwitch
  split
  · have h1 := wSetupClosing_in (P := P) (cfg := cfg) (rng := rng) (nonce := nonce) h
    split
    · rename_i he; rw [he] at h1; exact h1
    · rename_i he; rw [he] at h1; exact initiate_in h1
  · exact initiate_in h
  · exact complete_in h
  · exact h
  · exact h
  · exact h

theorem burn_in {w : Wire} (h : w.PairsIn s) : w.burn.PairsIn s :=
  PairsIn.of_tools h (by simp [Wire.burn, Function.comp_def]) (by simp [Wire.burn, Function.comp_def])

theorem sendHandshake_in {rng : Rng} {k : ToolInst} {w : Wire} {nonce : Bytes} (h : w.PairsIn s) :
    (sendHandshake P cfg rng s k w nonce).1.PairsIn s := by
  unfold sendHandshake
  have h1 := sendSwitch_in (P := P) (cfg := cfg) (rng := rng) (nonce := nonce) h
  split
  · rename_i he; rw [he] at h1; exact h1
  · rename_i w' out he
    rw [he] at h1
    split
    · exact h1
    · unfold Wire.sent
      dsimp only
      split
      · exact burn_in (w := { w' with sendCarry := _, recvCarry := _, msgNo := _ }) h1
      · exact h1

theorem recvOffer_in {w : Wire} {l : Letter} (h : w.PairsIn s) : (recvOffer s w l).1.PairsIn s := by
  unfold recvOffer
  split
  · exact h
  · split
    · exact h
    · have t1 := assignKX_tools l.version l.keys 0 w.kx
      split
      · rename_i he; rw [he] at t1
        exact PairsIn.of_tools h t1 rfl
      · rename_i he; rw [he] at t1
        have t2 := assignKE_tools l.version l.keys w.kx.length w.ke
        split
        · rename_i he; rw [he] at t2
          exact PairsIn.of_tools h t1 t2
        · rename_i he; rw [he] at t2
          exact PairsIn.of_tools h t1 t2

theorem recvAnswer_in {w : Wire} {l : Letter} (h : w.PairsIn s) : (recvAnswer P w l).1.PairsIn s := by
  unfold recvAnswer
  split
  · exact h
  · split
    · exact h
    · have t1 := assignKX_tools l.version l.keys 0 w.kx
      split
      · rename_i he; rw [he] at t1
        exact PairsIn.of_tools h t1 rfl
      · rename_i kx he; rw [he] at t1
        have t2 := assignSeals_tools l.keys w.kx.length w.ke
        split
        · rename_i he; rw [he] at t2
          exact PairsIn.of_tools h t1 t2
        · rename_i he; rw [he] at t2
          have t3 := (sharedKeys_tools P kx).trans t1
          split
          · rename_i he; rw [he] at t3
            exact PairsIn.of_tools h t3 t2
          · rename_i he; rw [he] at t3
            split
            · exact PairsIn.of_tools h t3 t2
            · exact PairsIn.of_tools h t3 t2

theorem recvSwitch_in {w : Wire} {l : Letter} (h : w.PairsIn s) : (recvSwitch P cfg s w l).1.PairsIn s := by
  unfold recvSwitch
  split
  · have h1 := wSetupOpening_in (P := P) (cfg := cfg) (l := l) h
    split
    · rename_i he; rw [he] at h1; exact h1
    · rename_i x he; rw [he] at h1
      have h2 := recvOffer_in (s := s) (w := { w with kx := x.kx, ke := x.ke }) (l := l) h1
      split
      · rename_i he; rw [he] at h2; exact h2
      · rename_i he; rw [he] at h2; exact h2
  · have h2 := recvOffer_in (s := s) (w := w) (l := l) h
    split
    · rename_i he; rw [he] at h2; exact h2
    · rename_i he; rw [he] at h2; exact h2
  · have h2 := recvAnswer_in (P := P) (s := s) (w := w) (l := l) h
    split
    · rename_i he; rw [he] at h2; exact h2
    · rename_i he; rw [he] at h2; exact h2
  · split
    · exact h
    · exact h
  · exact h
  · exact h

theorem recvHandshake_in {k : ToolInst} {w : Wire} {l : Letter} (h : w.PairsIn s) : (recvHandshake P cfg s k w l).1.PairsIn s := by
  unfold recvHandshake
  have h1 := recvSwitch_in (P := P) (cfg := cfg) (l := l) h
  split
  · rename_i he; rw [he] at h1; exact h1
  · rename_i w' m b he
    rw [he] at h1
    split
    · exact h1
    · unfold Wire.received
      dsimp only
      split
      · exact burn_in (w := { w' with sendCarry := _, recvCarry := _, msgNo := _ }) h1
      · exact h1

theorem wireClose_in {rng : Rng} {st : SState} {w : Wire} {data : Bytes} (h : w.PairsIn s) : (s.wireClose P cfg rng st w data).1.2.PairsIn s := by
  unfold Session.wireClose
  split
  · exact h
  · rename_i nonce _
    split
    · split
      · exact h
      · exact h
    · rename_i k _
      have h1 := sendHandshake_in (P := P) (cfg := cfg) (rng := rng) (k := k) (nonce := nonce) h
      split
      · rename_i he; rw [he] at h1; exact h1
      · rename_i he; rw [he] at h1
        split
        · exact h1
        · exact h1

theorem wireOpen_in {st : SState} {w : Wire} {l : Letter} (h : w.PairsIn s) : (s.wireOpen P cfg st w l).1.2.PairsIn s := by
  unfold Session.wireOpen
  split
  · exact h
  · split
    · split
      · exact h
      · exact h
    · rename_i k _
      have h1 := recvHandshake_in (P := P) (cfg := cfg) (k := k) (l := l) h
      split
      · rename_i he; rw [he] at h1; exact h1
      · rename_i he; rw [he] at h1; exact h1

/-! ## The same results -/

theorem makeShared_same {t : ToolInst} (h : SameTool P Q t) (hp : t.info.purpose = .keyExchange) : makeShared P t.info.name = makeShared Q t.info.name := by
  funext g q
  unfold makeShared
  rw [(h.exchange hp).1]

theorem encapsulate_same {t : ToolInst} (h : SameTool P Q t) (hp : t.info.purpose = .keyEncapsulation) : encapsulate P t = encapsulate Q t := by
  obtain ⟨g1, g2, _⟩ := h.encapsulation hp
  funext key seed x
  unfold encapsulate
  rw [g1]
  split
  · rfl
  · split
    · rename_i hh _ hth
      have : t.hashName = hh.name := by unfold ToolInst.hashName; rw [hth]
      rw [← this, g2]
    · rfl

theorem unwrapKey_same {t : ToolInst} (h : SameTool P Q t) (hp : t.info.purpose = .keyEncapsulation) : unwrapKey P t = unwrapKey Q t := by
  obtain ⟨_, _, g3⟩ := h.encapsulation hp
  funext v k
  unfold unwrapKey
  rw [g3]

theorem wSetupClosing_same (h : ∀ t ∈ s.insts, SameTool P Q t) (hr : Registered s.insts) (cfg : Config) (rng : Rng) (nonce : Bytes)
    (kx : List KxPair) (ke : List KePair) : wSetupClosing P cfg rng s nonce kx ke = wSetupClosing Q cfg rng s nonce kx ke := by
  unfold wSetupClosing
  have e1 : closePw P cfg s nonce = closePw Q cfg s nonce := by
    funext km k
    unfold closePw
    rw [passKey_same h]
  have e2 : ∀ (km : WKM) (r : Res Unit), overTools (fun km t => loopKM (wCloseKX P rng t) km (ofScheme s.env.recipients t.info.name)) km r (s.queue .keyExchange) =
      overTools (fun km t => loopKM (wCloseKX Q rng t) km (ofScheme s.env.recipients t.info.name)) km r (s.queue .keyExchange) := by
    intro km r
    refine overTools_congr _ _ fun b t ht => ?_
    have ht := mem_queue.mp ht
    refine loopKM_congr _ fun b x _ => ?_
    unfold wCloseKX
    rw [kxOffer_same (h t ht.1) (hr t ht.1) ht.2]
  have e3 : ∀ (km : WKM) (r : Res Unit), overTools (fun km t => loopKM (wCloseKE P cfg rng s t) km (ofScheme s.env.recipients t.info.name)) km r (s.queue .keyEncapsulation) =
      overTools (fun km t => loopKM (wCloseKE Q cfg rng s t) km (ofScheme s.env.recipients t.info.name)) km r (s.queue .keyEncapsulation) := by
    intro km r
    refine overTools_congr _ _ fun b t ht => ?_
    have ht := mem_queue.mp ht
    refine loopKM_congr _ fun b x _ => ?_
    unfold wCloseKE closeKE keOffer
    simp only [encapsulate_same (h t ht.1) ht.2]
  simp only [e1, e2, e3]

theorem wSetupOpening_same (h : ∀ t ∈ s.insts, SameTool P Q t) (hr : Registered s.insts) (cfg : Config) (l : Letter)
    (kx : List KxPair) (ke : List KePair) : wSetupOpening P cfg s l kx ke = wSetupOpening Q cfg s l kx ke := by
  unfold wSetupOpening
  have e1 : openPw P cfg s l.nonce = openPw Q cfg s l.nonce := by
    funext km k
    unfold openPw
    rw [passKey_same h]
  have e2 : ∀ (km : WOM) (r : Res Unit), overTools (fun km t => loopKM (wOpenKX P l t) km (ofScheme s.env.recipients t.info.name)) km r (s.queue .keyExchange) =
      overTools (fun km t => loopKM (wOpenKX Q l t) km (ofScheme s.env.recipients t.info.name)) km r (s.queue .keyExchange) := by
    intro km r
    refine overTools_congr _ _ fun b t ht => ?_
    have ht := mem_queue.mp ht
    refine loopKM_congr _ fun b x _ => ?_
    obtain ⟨g1, _, g3, _⟩ := (h t ht.1).exchange ht.2
    unfold wOpenKX peerSignet makeShared
    rw [g1]
    simp only [load_same (hr t ht.1) g3 (x := { version := l.version, scheme := t.info.name, key := _, isPublic := true }) rfl]
  have e3 : ∀ (km : WOM) (r : Res Unit), overTools (fun km t => loopKM (wOpenKE P l t) km (ofScheme s.env.recipients t.info.name)) km r (s.queue .keyEncapsulation) =
      overTools (fun km t => loopKM (wOpenKE Q l t) km (ofScheme s.env.recipients t.info.name)) km r (s.queue .keyEncapsulation) := by
    intro km r
    refine overTools_congr _ _ fun b t ht => ?_
    have ht := mem_queue.mp ht
    refine loopKM_congr _ fun b x _ => ?_
    unfold wOpenKE openKE
    simp only [unwrapKey_same (h t ht.1) ht.2]
  simp only [e1, e2, e3]

section available

variable (H : SameAvailable P Q)
include H

theorem newLocal_available : newLocal P = newLocal Q := by
  funext t seed
  unfold newLocal
  simp only [generate_available H, store_available H, asRecipient_available H]

theorem genKX_available (rng : Rng) : ∀ (ctr : Nat) (l : List KxPair), genKX P rng ctr l = genKX Q rng ctr l
  | _, [] => rfl
  | ctr, p :: ps => by
    rw [genKX, genKX, genKX_available rng (ctr + 1) ps, newLocal_available H]

theorem genKE_available (rng : Rng) : ∀ (ctr : Nat) (l : List KePair), genKE P rng ctr l = genKE Q rng ctr l
  | _, [] => rfl
  | ctr, p :: ps => by
    rw [genKE, genKE, genKE_available rng (ctr + 1) ps, newLocal_available H]

theorem sharedKeys_available : ∀ (l : List KxPair), (∀ p ∈ l, SameTool P Q p.tool ∧ p.tool.info.purpose = .keyExchange) → sharedKeys P l = sharedKeys Q l
  | [], _ => rfl
  | p :: ps, h => by
    obtain ⟨h1, h2⟩ := h p (by simp)
    have e : sharedKey P p = sharedKey Q p := by
      unfold sharedKey
      simp only [load_available H, makeShared_same h1 h2]
    rw [sharedKeys, sharedKeys, sharedKeys_available ps fun q hq => h q (by simp [hq]), e]

theorem encapAll_available (rng : Rng) : ∀ (ctr : Nat) (l : List KePair), (∀ p ∈ l, SameTool P Q p.tool ∧ p.tool.info.purpose = .keyEncapsulation) →
    encapAll P rng s ctr l = encapAll Q rng s ctr l
  | _, [], _ => rfl
  | ctr, p :: ps, h => by
    obtain ⟨h1, h2⟩ := h p (by simp)
    have e : encapOne P rng s ctr p = encapOne Q rng s ctr p := by
      unfold encapOne
      simp only [load_available H, encapsulate_same h1 h2]
    rw [encapAll, encapAll, encapAll_available rng (ctr + 1) ps fun q hq => h q (by simp [hq]), e]

theorem unwrapAll_available : ∀ (l : List KePair), (∀ p ∈ l, SameTool P Q p.tool ∧ p.tool.info.purpose = .keyEncapsulation) → unwrapAll P l = unwrapAll Q l
  | [], _ => rfl
  | p :: ps, h => by
    obtain ⟨h1, h2⟩ := h p (by simp)
    have e : unwrapOne P p = unwrapOne Q p := by
      unfold unwrapOne
      simp only [unwrapKey_same h1 h2]
    rw [unwrapAll, unwrapAll, unwrapAll_available ps fun q hq => h q (by simp [hq]), e]

end available

theorem ratchet_same {k : ToolInst} (h : SameTool P Q k) (hp : k.info.purpose = .keyDerivation) : ratchet P s k = ratchet Q s k := by
  funext n carry nonce m
  unfold ratchet
  rw [kdfRead_same h hp]

theorem PairsIn.kx_same {kx : List KxPair} {ke : List KePair} (h : PairsIn s kx ke) (hs : ∀ t ∈ s.insts, SameTool P Q t) :
    ∀ p ∈ kx, SameTool P Q p.tool ∧ p.tool.info.purpose = .keyExchange := fun p hp => ⟨hs _ (h.kx p hp).1, (h.kx p hp).2⟩

theorem PairsIn.ke_same {kx : List KxPair} {ke : List KePair} (h : PairsIn s kx ke) (hs : ∀ t ∈ s.insts, SameTool P Q t) :
    ∀ p ∈ ke, SameTool P Q p.tool ∧ p.tool.info.purpose = .keyEncapsulation := fun p hp => ⟨hs _ (h.ke p hp).1, (h.ke p hp).2⟩

theorem initiate_available (H : SameAvailable P Q) (rng : Rng) (w : Wire) (km : KM) : initiate P rng w km = initiate Q rng w km := by
  unfold initiate
  simp only [genKX_available H, genKE_available H]

theorem complete_available (H : SameAvailable P Q) (hs : ∀ t ∈ s.insts, SameTool P Q t) (rng : Rng) {w : Wire} (hw : w.PairsIn s) :
    complete P rng s w = complete Q rng s w := by
  unfold complete
  rw [genKX_available H]
  have t1 := genKX_tools Q rng 1 w.kx
  split
  · rfl
  · rename_i kx _ he
    rw [he] at t1
    have hk := PairsIn.of_tools hw t1 rfl
    rw [sharedKeys_available H kx (hk.kx_same hs)]
    split
    · rfl
    · rw [genKE_available H]
      have t3 := genKE_tools Q rng (1 + w.kx.length) w.ke
      split
      · rfl
      · rename_i ke _ he; rw [he] at t3
        rw [encapAll_available H rng _ ke ((PairsIn.of_tools hw rfl t3).ke_same hs)]

theorem sendSwitch_available (H : SameAvailable P Q) (hs : ∀ t ∈ s.insts, SameTool P Q t) (hr : Registered s.insts) (rng : Rng) {w : Wire}
    (hw : w.PairsIn s) (nonce : Bytes) : sendSwitch P cfg rng s w nonce = sendSwitch Q cfg rng s w nonce := by
  unfold sendSwitch
  split
  · rw [wSetupClosing_same hs hr]
    simp only [initiate_available H]
  · exact initiate_available H rng w {}
  · exact complete_available H hs rng hw
  · rfl
  · rfl
  · rfl

theorem recvAnswer_available (H : SameAvailable P Q) (hs : ∀ t ∈ s.insts, SameTool P Q t) {w : Wire} (hw : w.PairsIn s) (l : Letter) :
    recvAnswer P w l = recvAnswer Q w l := by
  unfold recvAnswer
  split
  · rfl
  · split
    · rfl
    · have t1 := assignKX_tools l.version l.keys 0 w.kx
      split
      · rfl
      · rename_i kx he; rw [he] at t1
        have t2 := assignSeals_tools l.keys w.kx.length w.ke
        split
        · rfl
        · rename_i ke he; rw [he] at t2
          have hp := PairsIn.of_tools hw t1 t2
          rw [sharedKeys_available H kx (hp.kx_same hs)]
          split
          · rfl
          · rw [unwrapAll_available H ke (hp.ke_same hs)]

theorem recvSwitch_available (H : SameAvailable P Q) (hs : ∀ t ∈ s.insts, SameTool P Q t) (hr : Registered s.insts) {w : Wire}
    (hw : w.PairsIn s) (l : Letter) : recvSwitch P cfg s w l = recvSwitch Q cfg s w l := by
  unfold recvSwitch
  split
  · rw [wSetupOpening_same hs hr]
  · rfl
  · rw [recvAnswer_available H hs hw]
  · rfl
  · rfl
  · rfl

/-- C93 for sending in a wire session whose key pairs belong to its tools. -/
theorem wireClose_available (H : SameAvailable P Q) (hs : ∀ t ∈ s.insts, SameTool P Q t) (hr : Registered s.insts) (rng : Rng) (st : SState) {w : Wire}
    (hw : w.PairsIn s) (data : Bytes) : s.wireClose P cfg rng st w data = s.wireClose Q cfg rng st w data := by
  unfold Session.wireClose
  split
  · rfl
  · split
    · rw [signLetter_same hs]
    · rename_i k hk
      obtain ⟨k1, k2⟩ := kdf_mem hk
      unfold sendHandshake encryptLetter
      simp only [sendSwitch_available H hs hr rng hw, ratchet_same (hs k k1) k2, setupTools_same (hs k k1) k2, protect_same hs, signLetter_same hs]

/-- C93 for receiving in a wire session whose key pairs belong to its tools. -/
theorem wireOpen_available (H : SameAvailable P Q) (hs : ∀ t ∈ s.insts, SameTool P Q t) (hr : Registered s.insts) (st : SState) {w : Wire}
    (hw : w.PairsIn s) (l : Letter) : s.wireOpen P cfg st w l = s.wireOpen Q cfg st w l := by
  unfold Session.wireOpen
  rw [checkSignatures_same hs]
  split
  · rfl
  · split
    · rfl
    · rename_i k hk
      obtain ⟨k1, k2⟩ := kdf_mem hk
      unfold recvHandshake decryptLetter
      simp only [recvSwitch_available H hs hr hw, ratchet_same (hs k k1) k2, setupTools_same (hs k k1) k2, unprotect_same hs]

/-- C93 for creating wire sessions. -/
theorem wireCorrespondence_available (H : SameAvailable P Q) (cfg : Config) (w : World) (reg : List Suite) (e : Envelope) :
    wireCorrespondence P cfg w reg e = wireCorrespondence Q cfg w reg e := by
  unfold wireCorrespondence
  rw [correspondence_available H]

theorem history_in {p q : SState × Wire} {ls : List Letter} (hp : p.2.PairsIn s) (h : History P cfg s p ls q) : q.2.PairsIn s := by
  induction h with
  | start => exact hp
  | @sent q _ rng data q' _ _ hc ih => have := wireClose_in (P := P) (cfg := cfg) (rng := rng) (st := q.1) (data := data) ih; rw [hc] at this; exact this
  | @failed q _ rng data q' _ _ hc ih => have := wireClose_in (P := P) (cfg := cfg) (rng := rng) (st := q.1) (data := data) ih; rw [hc] at this; exact this
  | @opened q _ l q' _ _ hc ih => have := wireOpen_in (P := P) (cfg := cfg) (st := q.1) (l := l) ih; rw [hc] at this; exact this

/-- C93 for wire sessions: whatever two libraries do for calls of methods that are not implemented, or without the hash function they ask for, every
history of a wire session (letters sent, letters that could not be sent, letters received, honest or not) is the same, and so is what comes next. -/
theorem wire_history_available (H : SameAvailable P Q) {w : World} {reg : List Suite} {e : Envelope} {s : Session} {w0 : Wire}
    (h : wireCorrespondence P cfg w reg e = .ok (s, w0)) (b : Bool) {ls : List Letter} {q : SState × Wire}
    (hq : History P cfg s (s.initState, { w0 with server := b }) ls q) :
    History Q cfg s (s.initState, { w0 with server := b }) ls q ∧
    (∀ rng data, s.wireClose P cfg rng q.1 q.2 data = s.wireClose Q cfg rng q.1 q.2 data) ∧
    (∀ l, s.wireOpen P cfg q.1 q.2 l = s.wireOpen Q cfg q.1 q.2 l) := by
  unfold wireCorrespondence at h
  simp only [bind_ok_iff] at h
  obtain ⟨s', hc, w1, hi, he⟩ := h
  cases he
  obtain ⟨e', hn⟩ := correspondence_session hc
  have hs := session_same H hn
  have hr := session_registered hn
  have h0 : ({ w0 with server := b } : Wire).PairsIn s := by
    have : w0 = {} := by
      unfold initWire at hi
      simp only [bind_ok_iff] at hi
      obtain ⟨_, _, hi⟩ := hi
      split at hi
      · cases hi
      · split at hi
        · cases hi
        · cases hi; rfl
    subst this
    exact ⟨fun p hp => absurd hp (by simp), fun p hp => absurd hp (by simp)⟩
  have key : ∀ ls q, History P cfg s (s.initState, { w0 with server := b }) ls q →
      (∀ rng data, s.wireClose P cfg rng q.1 q.2 data = s.wireClose Q cfg rng q.1 q.2 data) ∧
      (∀ l, s.wireOpen P cfg q.1 q.2 l = s.wireOpen Q cfg q.1 q.2 l) := by
    intro ls q hq
    have hin := history_in h0 hq
    exact ⟨fun rng data => wireClose_available H hs hr rng q.1 hin data, fun l => wireOpen_available H hs hr q.1 hin l⟩
  refine ⟨?_, key ls q hq⟩
  induction hq with
  | start => exact .start
  | sent rng data hq hc ih => exact .sent rng data ih ((((key _ _ hq).1 rng data).symm).trans hc)
  | failed rng data hq hc ih => exact .failed rng data ih ((((key _ _ hq).1 rng data).symm).trans hc)
  | opened l hq hc ih => exact .opened l ih ((((key _ _ hq).2 l).symm).trans hc)

/-- C93. Going through the interface of the tools changes nothing in wire sessions. -/
theorem wire_dispatch_never_fails (P : Prims) (cfg : Config) (w : World) (reg : List Suite) (e : Envelope) :
    wireCorrespondence P.dispatched cfg w reg e = wireCorrespondence P cfg w reg e ∧
    ∀ s w0, wireCorrespondence P.dispatched cfg w reg e = .ok (s, w0) → ∀ b ls q,
      History P.dispatched cfg s (s.initState, { w0 with server := b }) ls q →
      History P cfg s (s.initState, { w0 with server := b }) ls q ∧
      (∀ rng data, s.wireClose P.dispatched cfg rng q.1 q.2 data = s.wireClose P cfg rng q.1 q.2 data) ∧
      (∀ l, s.wireOpen P.dispatched cfg q.1 q.2 l = s.wireOpen P cfg q.1 q.2 l) :=
  ⟨wireCorrespondence_available (dispatched_same P) cfg w reg e, fun _ _ h b _ _ hq => wire_history_available (dispatched_same P) h b hq⟩

/-- A conversation with all parts of the handshake, through the interface of the tools. -/
theorem wire_dispatch_example :
    (match wireCorrespondence toyPrims.dispatched toyConfig toyWorld suiteRegistry (toyEnvelope b!"w1" [] [] [b!"bob"]) with
      | .ok (s, w) =>
        (match Net.runs toyPrims.dispatched toyConfig toyWorld suiteRegistry s toyRng { client := (s.initState, w) } toyTalk with
        | some n => decide (n.c2s.map (·.2) = [b!"eight"]) && decide (n.s2c.map (·.2) = [b!"seven"]) && decide (n.client.2.hs = .sendApply)
        | none => false)
      | .error _ => false) = true := by
  decide +kernel

end Jess
