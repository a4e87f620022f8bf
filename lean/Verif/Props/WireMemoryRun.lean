import Verif.Props.WireMemory
import Verif.Props.WirePanic
import Verif.Props.WireDelivery

/-! # C80: memory handed to a wire session

A session may be used over any stretch of time, while the caller works on with his memory. Which memory has to stay as it is? -/

namespace Jess

/-! ## Specification -/

/-- The letters which a call returned. -/
def returned : Res Letter → List Letter
  | .ok l => [l]
  | .error _ => []

/-- A wire session in use: letters are closed and opened, from any memory that is not the session's own; in between, the caller changes
anything but the session's own memory and the memory it refers to. `ls` are the letters that were returned, as they were then. -/
inductive MemRun (P : Prims) (cfg : Config) (s : Session) (b : Bool) : List Letter → Heap → SState × MemWire → Prop
  | start (h : Heap) : MemRun P cfg s b [] h (s.initState, { server := b })
  | closed {ls : List Letter} {h h' : Heap} {q q' : SState × MemWire} {r : Res MemLetter} (rng : Rng) (d : Slice) : MemRun P cfg s b ls h q →
      d.Wf h → d.arr ∉ q.2.own.map (·.arr) → memWireClose P cfg rng s q.1 h q.2 d = (h', q', r) →
      MemRun P cfg s b (ls ++ returned (resValue h' r)) h' q'
  | opened {ls : List Letter} {h h' : Heap} {q q' : SState × MemWire} {r : Res Slice} (l : WireLetter) : MemRun P cfg s b ls h q →
      (∀ k ∈ l.keys, InMemory h k ∧ k.arr ∉ q.2.own.map (·.arr)) → l.data.Wf h → l.data.arr ∉ q.2.own.map (·.arr) →
      (∀ k, k ∈ q.2.refs ∨ k ∈ l.keys → k.Apart l.data) → memWireOpen P cfg s q.1 h q.2 l = (h', q', r) → MemRun P cfg s b ls h' q'
  | caller {ls : List Letter} {h : Heap} {q : SState × MemWire} (h' : Heap) : MemRun P cfg s b ls h q → h.arrays.length ≤ h'.arrays.length →
      (∀ x ∈ q.2.own, h'.arrays[x.arr]? = h.arrays[x.arr]?) → (∀ k ∈ q.2.refs, h'.read k = h.read k ∧ InMemory h' k) → MemRun P cfg s b ls h' q

variable {P : Prims} {cfg : Config} {s : Session}

theorem WireOf.noStream (B : WireOf P cfg s) : s.queue .cipher = [] := by
  cases h : s.queue .cipher with
  | nil => rfl
  | cons t ts =>
    have ht : t ∈ s.queue .cipher := by rw [h]; simp
    obtain ⟨h1, h2⟩ := mem_queue.mp ht
    obtain ⟨tid, htid, hmk⟩ := inst_tool B.session h1
    exact absurd h2 (registered_no_stream _ B.registered tid htid t.info (makeInst_spec hmk).1)

theorem initState_inv (h : Heap) (b : Bool) : MemInv h { server := b } :=
  ⟨fun x hx => (by cases hx), List.nodup_nil, fun r hr => (by cases hr), fun r hr => (by cases hr)⟩

theorem memRun_history (hP : P.Sizes) (hS : P.KdfSized) (B : WireOf P cfg s) {b : Bool} {ls : List Letter} {h : Heap}
    {q : SState × MemWire} (run : MemRun P cfg s b ls h q) :
    History P cfg s (s.initState, { server := b }) ls (q.1, q.2.value h) ∧ MemInv h q.2 := by
  induction run with
  | start h => exact ⟨.start, initState_inv h b⟩
  | @closed ls h h' q q' r rng d _ hd ha he ih =>
    obtain ⟨i1, i2⟩ := ih
    obtain ⟨st', m'⟩ := q'
    obtain ⟨c1, c2, _⟩ := memWireClose_spec hP hS cfg rng B.noStream q.1 i2 hd ha he
    refine ⟨?_, c2.inv⟩
    cases r with
    | ok x => exact .sent rng (h.read d) i1 c1
    | error e =>
      simp only [resValue, returned, List.append_nil]
      exact .failed rng (h.read d) i1 c1
  | @opened ls h h' q q' r l _ hk hd ha hap he ih =>
    obtain ⟨i1, i2⟩ := ih
    obtain ⟨st', m'⟩ := q'
    obtain ⟨c1, c2, _⟩ := memWireOpen_spec hP hS cfg (by rw [B.noKE]; rfl) q.1 i2 (l := l) hk hd ha hap he
    exact ⟨.opened (l.value h) i1 c1, c2⟩
  | @caller ls h q h' _ hl ho hr ih =>
    obtain ⟨i1, i2⟩ := ih
    rw [value_same (h := h) (h' := h') (fun x hx => (same_array (ho x hx)).1) (fun k hk => (hr k hk).1)]
    exact ⟨i1, fun x hx => (same_array (ho x hx)).2.1 (i2.wf x hx), i2.nodup, fun k hk => (hr k hk).2, i2.out⟩

/-- C80, the part that holds. Let the caller change only memory that is not the session's own and to which it does not refer. Then the letters
that were returned, and the state of the session, are those of the model on values: all that was proved about wire sessions holds for the
sessions in memory. No call changes memory of the caller, except that `Open` overwrites the letter's data with its result; the memory of a
letter that is returned is not the session's own. The session refers to keys of letters that were opened, and to nothing else. Missing: it
should refer to nothing (`wire_reuse_refuted`). -/
theorem wire_memory_partial (P : Prims) (hP : P.Sizes) (hS : P.KdfSized) (cfg : Config) (s : Session) (B : WireOf P cfg s) (b : Bool)
    (ls : List Letter) (h : Heap) (q : SState × MemWire) (run : MemRun P cfg s b ls h q) :
    History P cfg s (s.initState, { server := b }) ls (q.1, q.2.value h) ∧
    (∀ (rng : Rng) (d : Slice) (h' : Heap) (q' : SState × MemWire) (r : Res MemLetter), d.Wf h → d.arr ∉ q.2.own.map (·.arr) →
      memWireClose P cfg rng s q.1 h q.2 d = (h', q', r) →
      s.wireClose P cfg rng q.1 (q.2.value h) (h.read d) = ((q'.1, q'.2.value h'), resValue h' r) ∧
      (∀ arr i x, arr ∉ q.2.own.map (·.arr) → byteAt h arr i = some x → byteAt h' arr i = some x) ∧
      (∀ x ∈ q'.2.own, x.arr ∈ q.2.own.map (·.arr) ∨ h.arrays.length ≤ x.arr) ∧ (∀ k ∈ q'.2.refs, k ∈ q.2.refs) ∧
      (∀ m, r = .ok m → m.2.arr ∉ q'.2.own.map (·.arr))) ∧
    (∀ (l : WireLetter) (h' : Heap) (q' : SState × MemWire) (r : Res Slice), (∀ k ∈ l.keys, InMemory h k ∧ k.arr ∉ q.2.own.map (·.arr)) →
      l.data.Wf h → l.data.arr ∉ q.2.own.map (·.arr) → (∀ k, k ∈ q.2.refs ∨ k ∈ l.keys → k.Apart l.data) →
      memWireOpen P cfg s q.1 h q.2 l = (h', q', r) →
      s.wireOpen P cfg q.1 (q.2.value h) (l.value h) = ((q'.1, q'.2.value h'), resRead h' r) ∧
      (∀ arr i x, arr ∉ q.2.own.map (·.arr) → ¬ (arr = l.data.arr ∧ l.data.off ≤ i ∧ i < l.data.off + l.data.len) → byteAt h arr i = some x →
        byteAt h' arr i = some x) ∧
      (∀ x ∈ q'.2.own, x.arr ∈ q.2.own.map (·.arr) ∨ h.arrays.length ≤ x.arr) ∧ (∀ k ∈ q'.2.refs, k ∈ q.2.refs ∨ k ∈ l.keys) ∧
      (∀ x, r = .ok x → x.Wf h' ∧ x.arr = l.data.arr ∧ x.off = l.data.off ∧ x.len ≤ l.data.len)) := by
  obtain ⟨i1, i2⟩ := memRun_history hP hS B run
  refine ⟨i1, ?_, ?_⟩
  · intro rng d h' q' r hd ha he
    obtain ⟨c1, c2, c3⟩ := memWireClose_spec hP hS cfg rng B.noStream q.1 i2 hd ha he
    exact ⟨c1, c2.kept.2, c2.own, fun k hk => (c2.refs k hk).elim id (fun h => (by cases h)), c3⟩
  · intro l h' q' r hk hd ha hap he
    obtain ⟨c1, _, c3, _, c5, c6, c7⟩ := memWireOpen_spec hP hS cfg (by rw [B.noKE]; rfl) q.1 i2 (l := l) hk hd ha hap he
    exact ⟨c1, c5, c6, c3, c7⟩

/-! ## How long the memory is needed -/

theorem sharedKeys_done : ∀ (kx : List KxPair) {sh : List Bytes} {kx' : List KxPair}, sharedKeys P kx = (kx', .ok sh) →
    ∀ p ∈ kx', peerDone p = true
  | [], sh, kx', h, p, hp => by
    simp only [sharedKeys] at h
    cases h; cases hp
  | p :: ps, sh, kx', h, x, hx => by
    rw [sharedKeys] at h
    split at h
    · cases h
    · rename_i p' k he
      have hp' : peerDone p' = true := by
        unfold sharedKey at he
        split at he
        · cases he
        · cases he
        · split at he
          · cases he
          · rename_i q' hl
            have he1 := congrArg Prod.fst he
            simp only at he1
            rw [← he1]
            exact (load_spec hl).2.2.2.2.2.2.2
      generalize hs : sharedKeys P ps = y at h
      obtain ⟨kx2, r2⟩ := y
      cases r2 with
      | error e => cases h
      | ok sh2 =>
        cases h
        rcases List.mem_cons.mp hx with rfl | hx
        · exact hp'
        · exact sharedKeys_done ps hs x hx

theorem holdRefs_done : ∀ (kx : List KxPair) (rs : List (Option Slice)), (∀ p ∈ kx, peerDone p = true) → (holdRefs rs kx).filterMap (·.ref) = []
  | [], _, _ => rfl
  | p :: ps, rs, h => by
    rw [holdRefs, List.filterMap_cons, if_pos (h p (by simp))]
    exact holdRefs_done ps rs.tail (fun q hq => h q (by simp [hq]))

/-- Only while an offer is to be answered, or an answer is awaited. -/
def RefInv (m : MemWire) : Prop := m.ke = [] ∧ (m.hs ≠ .sendKey → m.hs ≠ .awaitKey → m.refs = [])

theorem wSetupClosing_ke (B : WireOf P cfg s) (rng : Rng) (nonce : Bytes) (kx : List KxPair) :
    (wSetupClosing P cfg rng s nonce kx []).1.ke = [] := by
  have o1 : ofScheme s.env.secrets schemeKey = [] := by rw [B.secrets]; rfl
  have o2 : ofScheme s.env.secrets schemePassword = [] := by rw [B.secrets]; rfl
  unfold wSetupClosing
  rw [o1, o2, B.noKE]
  simp only [loopKM, closeKeys, overTools]
  have h := overTools_inv (f := fun x t => loopKM (wCloseKX P rng t) x (ofScheme s.env.recipients t.info.name))
    (I := fun x : WKM => x.ke = [])
    (fun x t hx => loopKM_inv (I := fun x : WKM => x.ke = []) (fun x r hx => by unfold wCloseKX; split <;> exact hx) _ x hx)
    (s.queue .keyExchange) { km := { keys := [] ++ [], material := [] ++ [], ctr := 1 }, kx := kx, ke := [] } (.ok ()) rfl
  split
  · rename_i he; erw [he] at h; exact h
  · rename_i he; erw [he] at h; exact h

theorem initiate_ke {rng : Rng} {w : Wire} {km : KM} (h : w.ke = []) :
    (initiate P rng w km).1.ke = [] ∧ ((initiate P rng w km).1.hs = w.hs ∨ (initiate P rng w km).1.hs = .awaitKey) := by
  unfold initiate
  rw [h]
  split
  · split
    · exact ⟨rfl, .inl rfl⟩
    · simp only [genKE]
      exact ⟨trivial, .inr trivial⟩
  · exact ⟨h, .inl rfl⟩

theorem complete_ke {rng : Rng} {w : Wire} (h : w.ke = []) :
    (complete P rng s w).1.ke = [] ∧ ((complete P rng s w).1.hs = w.hs ∨ ∀ p ∈ (complete P rng s w).1.kx, peerDone p = true) := by
  unfold complete
  split
  · exact ⟨h, .inl rfl⟩
  · rename_i kx a he
    split
    · exact ⟨h, .inl rfl⟩
    · rename_i kx' sh hs
      rw [h]
      simp only [genKE, encapAll]
      exact ⟨trivial, .inr (sharedKeys_done kx hs)⟩

theorem sendSwitch_ke (B : WireOf P cfg s) {rng : Rng} {w : Wire} {nonce : Bytes} (h : w.ke = []) :
    (sendSwitch P cfg rng s w nonce).1.ke = [] ∧ ((sendSwitch P cfg rng s w nonce).1.hs = w.hs ∨ (sendSwitch P cfg rng s w nonce).1.hs = .awaitKey ∨
      ∀ p ∈ (sendSwitch P cfg rng s w nonce).1.kx, peerDone p = true) := by
  unfold sendSwitch
  rw [h]
  split
  · have hk := wSetupClosing_ke B rng nonce w.kx
    split
    · rename_i x e hs
      rw [hs] at hk
      exact ⟨hk, .inl rfl⟩
    · rename_i x hs
      rw [hs] at hk
      obtain ⟨i1, i2⟩ := initiate_ke (P := P) (rng := rng) (w := { w with kx := x.kx, ke := x.ke }) (km := x.km) hk
      exact ⟨i1, i2.elim .inl (fun h => .inr (.inl h))⟩
  · obtain ⟨i1, i2⟩ := initiate_ke (P := P) (rng := rng) (w := w) (km := {}) h
    exact ⟨i1, i2.elim .inl (fun h => .inr (.inl h))⟩
  · obtain ⟨i1, i2⟩ := complete_ke (P := P) (s := s) (rng := rng) (w := w) h
    exact ⟨i1, i2.elim .inl (fun h => .inr (.inr h))⟩
  · exact ⟨h, .inl rfl⟩
  · exact ⟨h, .inl rfl⟩
  · exact ⟨h, .inl rfl⟩

theorem no_refs {m : MemWire} {w : Wire} {news : List Slice} (h : m.refs = []) : (m.update w (m.kx.map (·.ref)) news).refs = [] := by
  cases hr : (m.update w (m.kx.map (·.ref)) news).refs with
  | nil => rfl
  | cons r rs =>
    have : r ∈ m.refs := kept_refs_mem (update_refs (by rw [hr]; simp))
    rw [h] at this; cases this

theorem memSendSwitch_refs (B : WireOf P cfg s) {rng : Rng} {nonce : Bytes} {h h' : Heap} {m m' : MemWire} {r : Res SendOut} (hi : RefInv m)
    (he : memSendSwitch P cfg rng s h m nonce = (h', m', r)) : RefInv m' := by
  obtain ⟨k1, k2⟩ := sendSwitch_ke B (rng := rng) (w := m.value h) (nonce := nonce) hi.1
  unfold memSendSwitch at he
  generalize sendSwitch P cfg rng s (m.value h) nonce = sw at he k1 k2
  obtain ⟨w, res⟩ := sw
  simp only at k1 k2
  have key : ∀ news, RefInv (m.update w (m.kx.map (·.ref)) news) := by
    intro news
    refine ⟨k1, fun h1 h2 => ?_⟩
    rcases k2 with k2 | k2 | k2
    · have e : (m.update w (m.kx.map (·.ref)) news).hs = m.hs := k2
      rw [e] at h1 h2
      exact no_refs (hi.2 h1 h2)
    · exact absurd k2 h2
    · exact holdRefs_done _ _ k2
  cases res with
  | error e => simp only at he; cases he; exact key _
  | ok out =>
    simp only at he
    split at he
    · cases he; exact key _
    · cases he; exact key _

theorem memBurn_refs {h : Heap} {m : MemWire} (hi : RefInv m) : RefInv (memBurn h m).2 := by
  refine ⟨by simp only [memBurn, hi.1, List.map_nil], fun _ _ => ?_⟩
  simp only [MemWire.refs, memBurn, List.filterMap_map]
  rw [List.filterMap_eq_nil_iff]
  intro x _; rfl

theorem memSent_refs {h : Heap} {m : MemWire} {c : Option Slice} {burn : Bool} (hi : RefInv m) : RefInv (memSent h m c burn).2 := by
  unfold memSent
  simp only
  split
  · exact memBurn_refs hi
  · exact hi

theorem memReceived_refs {h : Heap} {m : MemWire} {c : Option Slice} {burn : Bool} (hi : RefInv m) : RefInv (memReceived h m c burn).2 := by
  unfold memReceived
  simp only
  split
  · exact memBurn_refs hi
  · exact hi

theorem memSendHandshake_refs (B : WireOf P cfg s) {rng : Rng} {k : ToolInst} {nonce : Bytes} {h h' : Heap} {m m' : MemWire} {r : Res Keyed}
    (hi : RefInv m) (he : memSendHandshake P cfg rng s k h m nonce = (h', m', r)) : RefInv m' := by
  unfold memSendHandshake at he
  split at he
  · rename_i hs; cases he; exact memSendSwitch_refs B hi hs
  · rename_i hs
    have := memSendSwitch_refs B hi hs
    split at he
    · cases he; exact this
    · cases he; exact memSent_refs this

theorem memOffer_refs (B : WireOf P cfg s) {h : Heap} {m m' : MemWire} {l : WireLetter} {r : Res Unit} (hi : RefInv m)
    (he : memOffer s h m l = (m', r)) : RefInv m' := by
  have hke : (s.queue .keyEncapsulation).isEmpty = true := by rw [B.noKE]; rfl
  obtain ⟨_, _, k3⟩ := recvOffer_kept hke (m.value h) (l.value h)
  have e1 : (m.value h).kx.length = m.kx.length := by simp [MemWire.value]
  have e2 : (m.value h).ke = [] := hi.1
  unfold memOffer at he
  generalize hsw : recvOffer s (m.value h) (l.value h) = sw at he k3
  obtain ⟨w, res⟩ := sw
  simp only at he k3
  split at he
  · rename_i hc
    rw [e1, show (m.value h).ke.length = m.ke.length from rfl, if_pos hc] at k3
    cases he
    subst k3
    exact ⟨hi.1, fun h1 h2 => no_refs (hi.2 h1 h2)⟩
  · rename_i hc
    cases he
    unfold recvOffer at hsw
    have hlen : (m.value h).kx.length ≤ (l.value h).keys.length := by
      rw [hi.1, List.length_nil] at hc
      rw [e1]
      rcases Nat.lt_or_ge (l.value h).keys.length m.kx.length with hx | hx
      · exact absurd (.inr ⟨hke, by omega⟩) hc
      · exact hx
    rw [if_neg (fun h => hc (.inl h)), if_neg (fun h => hc (.inr ⟨h.1, by rw [e1] at h; exact h.2⟩))] at hsw
    have ha := (assignKX_spec (l.value h).version (l.value h).keys (m.value h).kx 0 (by omega)).1
    generalize assignKX (l.value h).version (l.value h).keys 0 (m.value h).kx = ak at ha hsw
    obtain ⟨kx, ar⟩ := ak
    simp only at ha
    subst ha
    rw [e2] at hsw
    simp only [assignKE] at hsw
    cases hsw
    exact ⟨rfl, fun h1 => absurd rfl h1⟩

theorem memAnswer_refs {h h' : Heap} {m m' : MemWire} {l : WireLetter} {r : Res (List Bytes)} (hi : RefInv m) (ha : m.hs = .awaitKey)
    (he : memAnswer P h m l = (h', m', r)) : RefInv m' := by
  obtain ⟨_, k3⟩ := recvAnswer_kept P (m.value h) (l.value h)
  have e1 : (m.value h).kx.length = m.kx.length := by simp [MemWire.value]
  have e2 : (m.value h).ke = [] := hi.1
  have e3 : (m.value h).hs = .awaitKey := ha
  unfold memAnswer at he
  generalize hsw : recvAnswer P (m.value h) (l.value h) = sw at he k3
  obtain ⟨w, res⟩ := sw
  simp only at he k3
  split at he
  · rename_i hc
    rw [e1, show (m.value h).ke.length = m.ke.length from rfl, if_pos hc] at k3
    cases he
    subst k3
    exact ⟨hi.1, fun h1 h2 => no_refs (hi.2 h1 h2)⟩
  · rename_i hc
    unfold recvAnswer at hsw
    rw [if_neg (fun h => hc (.inl h)), if_neg (fun h => hc (.inr (by rw [e1] at h; exact h)))] at hsw
    have key : w.ke = [] ∧ (w.hs = .awaitKey ∨ ∀ p ∈ w.kx, peerDone p = true) := by
      rw [e2] at hsw
      split at hsw
      · cases hsw; exact ⟨rfl, .inl e3⟩
      · simp only [assignSeals] at hsw
        split at hsw
        · cases hsw; exact ⟨rfl, .inl e3⟩
        · rename_i kx' sh hs
          simp only [unwrapAll] at hsw
          cases hsw
          exact ⟨rfl, .inr (sharedKeys_done _ hs)⟩
    have key2 : ∀ news, RefInv (m.update w (l.keys.map some) news) := fun news =>
      ⟨key.1, fun h1 h2 => key.2.elim (fun h => absurd h h2) (fun h => holdRefs_done _ _ h)⟩
    cases res with
    | error e => simp only at he; cases he; exact key2 _
    | ok x => simp only at he; cases he; exact key2 _

theorem memRecvSwitch_refs (B : WireOf P cfg s) {h h' : Heap} {m m' : MemWire} {l : WireLetter} {r : Res (List Bytes × Bool)} (hi : RefInv m)
    (he : memRecvSwitch P cfg s h m l = (h', m', r)) : RefInv m' := by
  unfold memRecvSwitch at he
  split at he
  · rename_i hh
    have hk := wSetupOpening_ke B (l.value h) (m.value h).kx
    have e2 : (m.value h).ke = [] := hi.1
    have key : ∀ x : WOM, x.ke = [] → RefInv (m.update { m.value h with kx := x.kx, ke := x.ke } (m.kx.map (·.ref)) m.news) := fun x hx =>
      ⟨hx, fun h1 h2 => no_refs (hi.2 h1 h2)⟩
    rw [e2] at he
    split at he
    · rename_i x e hs
      rw [hs] at hk
      cases he
      exact key x hk
    · rename_i x hs
      rw [hs] at hk
      split at he
      · rename_i hof; cases he; exact memOffer_refs B (key x hk) hof
      · rename_i hof; cases he; exact memOffer_refs B (key x hk) hof
  · split at he
    · rename_i hof; cases he; exact memOffer_refs B hi hof
    · rename_i hof; cases he; exact memOffer_refs B hi hof
  · rename_i hh
    split at he
    · rename_i hof; cases he; exact memAnswer_refs hi hh hof
    · rename_i hof; cases he; exact memAnswer_refs hi hh hof
  · split at he
    · cases he; exact hi
    · cases he; exact hi
  · cases he; exact hi
  · cases he; exact hi

theorem memRecvHandshake_refs (B : WireOf P cfg s) {k : ToolInst} {h h' : Heap} {m m' : MemWire} {l : WireLetter} {r : Res (List Bytes × Nat)}
    (hi : RefInv m) (he : memRecvHandshake P cfg s k h m l = (h', m', r)) : RefInv m' := by
  unfold memRecvHandshake at he
  split at he
  · rename_i hs; cases he; exact memRecvSwitch_refs B hi hs
  · rename_i hs
    have := memRecvSwitch_refs B hi hs
    split at he
    · cases he; exact this
    · cases he; exact memReceived_refs this

theorem memRun_refs (B : WireOf P cfg s) {b : Bool} {ls : List Letter} {h : Heap} {q : SState × MemWire} (run : MemRun P cfg s b ls h q) :
    RefInv q.2 := by
  induction run with
  | start h => exact ⟨rfl, fun _ _ => rfl⟩
  | @closed ls h h' q q' r rng d _ _ _ he ih =>
    unfold memWireClose memWireCloseCopied at he
    split at he
    · cases he; exact ih
    · split at he
      · split at he
        · cases he; exact ih
        · cases he; exact ih
      · split at he
        · rename_i hs; cases he; exact memSendHandshake_refs B ih hs
        · rename_i hs
          split at he
          · cases he; exact memSendHandshake_refs B ih hs
          · cases he; exact memSendHandshake_refs B ih hs
  | @opened ls h h' q q' r l _ _ _ _ _ he ih =>
    unfold memWireOpen at he
    split at he
    · cases he; exact ih
    · split at he
      · split at he
        · cases he; exact ih
        · cases he; exact ih
      · split at he
        · rename_i hs; cases he; exact memRecvHandshake_refs B ih hs
        · rename_i hs
          cases he; exact memRecvHandshake_refs B ih hs
  | caller h' _ _ _ _ ih => exact ih

/-- C80: how long the caller has to keep the memory. The session refers to memory of the caller only in two states: a first letter was opened
and no letter has been closed since (`sendKey`), or the session sent the first letter and has not yet opened an answer with valid keys
(`awaitKey`). -/
theorem wire_memory_released_partial (P : Prims) (cfg : Config) (s : Session) (B : WireOf P cfg s) (b : Bool)
    (ls : List Letter) (h : Heap) (q : SState × MemWire) (run : MemRun P cfg s b ls h q) (h1 : q.2.hs ≠ .sendKey) (h2 : q.2.hs ≠ .awaitKey) :
    q.2.refs = [] := (memRun_refs B run).2 h1 h2

/-! ## Refutation -/

/-- The letter in memory: its data is array 0, its keys are the arrays from 1. -/
def placed (l : Letter) : WireLetter :=
  { hdr := l, data := ⟨0, 0, l.data.length, l.data.length⟩,
    keys := l.keys.zipIdx.map (fun x => ⟨x.2 + 1, 0, x.1.value.length, x.1.value.length⟩) }

/-- The memory of a caller who received this letter and will send "reply". -/
def placedHeap (l : Letter) : Heap := { arrays := [l.data] ++ l.keys.map (·.value) ++ [b!"reply"] }

/-- A client sends a first letter. The server opens it; then the caller may overwrite the memory of its first key (`over`); the server sends a
reply, the client opens it. The result: what the server opened, and what the client opened or where it failed. -/
def toyReuse (over : Option Bytes) : Res (Res Bytes × Res Bytes) := do
  let (s, w) ← toyWire
  match s.wireClose toyPrims toyConfig toyRng s.initState w b!"one" with
  | (_, .error e) => .error e
  | (q, .ok l) => do
    let (sv, _) ← l.wireCorrespondence toyPrims toyConfig toyWorld suiteRegistry
    match memWireOpen toyPrims toyConfig sv sv.initState (placedHeap l) { server := true } (placed l) with
    | (h, (st, m), r) =>
      let h1 := match over with
        | none => h
        | some b => h.write ⟨1, 0, b.length, b.length⟩ b
      match memWireClose toyPrims toyConfig toyRng sv st h1 m ⟨2, 0, 5, 5⟩ with
      | (_, _, .error e) => .ok (resRead h r, .error e)
      | (h2, _, .ok l2) => .ok (resRead h r, (s.wireOpen toyPrims toyConfig q.1 q.2 (l2.value h2)).2)

/-- C80 refuted. After the server has opened the first letter, the caller may still not reuse the memory it came in: the session needs the
letter's keys when it sends the reply. If they are overwritten, the server cannot send; or it sends a letter which the client cannot open. -/
theorem wire_reuse_refuted :
    toyReuse none = .ok (.ok b!"one", .ok b!"reply") ∧
    toyReuse (some [0, 0, 0, 0]) = .ok (.ok b!"one", .error .invalidKey) ∧
    toyReuse (some [1, 9, 9, 9]) = .ok (.ok b!"one", .error .integrity) := by
  decide +kernel

theorem toyPrims_kdfSized : toyPrims.KdfSized := by
  intro t h n m off size b hb
  cases hb
  unfold toyBytes
  split
  · rfl
  · simp

/-- The hypotheses of `wire_memory_partial` are met by a session that opened a first letter in memory (then it refers to the caller's memory) and
sent a reply (then it does not). -/
theorem wire_memory_example : ∃ (s : Session) (h1 h2 : Heap) (q1 q2 : SState × MemWire) (l : Letter), WireOf toyPrims toyConfig s ∧
    MemRun toyPrims toyConfig s true [] h1 q1 ∧ q1.2.refs ≠ [] ∧ MemRun toyPrims toyConfig s true [l] h2 q2 ∧ q2.2.refs = [] ∧ q2.2.msgNo = 2 := by
  have hx : (match toyWire with
    | .error _ => false
    | .ok (s, w) =>
      match s.wireClose toyPrims toyConfig toyRng s.initState w b!"one" with
      | (_, .error _) => false
      | (_, .ok l) =>
        match l.wireCorrespondence toyPrims toyConfig toyWorld suiteRegistry with
        | .error _ => false
        | .ok (sv, _) =>
          decide (l.keys.length = 1) &&
          (match memWireOpen toyPrims toyConfig sv sv.initState (placedHeap l) { server := true } (placed l) with
          | (h1, q1, _) =>
            decide (q1.2.refs ≠ []) &&
            (match memWireClose toyPrims toyConfig toyRng sv q1.1 h1 q1.2 ⟨2, 0, 5, 5⟩ with
            | (_, _, .error _) => false
            | (_, q2, .ok _) => decide (q2.2.refs = [] ∧ q2.2.msgNo = 2)))) = true := by decide +kernel
  split at hx
  · cases hx
  · rename_i s w _
    split at hx
    · cases hx
    · rename_i q l _
      split at hx
      · cases hx
      · rename_i sv w' hcorr
        simp only [Bool.and_eq_true, decide_eq_true_eq] at hx
        obtain ⟨hlen, hx⟩ := hx
        obtain ⟨B, _⟩ := wireOf_letter hcorr
        generalize hopen : memWireOpen toyPrims toyConfig sv sv.initState (placedHeap l) { server := true } (placed l) = o at hx
        obtain ⟨h1, q1, r1⟩ := o
        simp only [Bool.and_eq_true, decide_eq_true_eq] at hx
        obtain ⟨href, hx⟩ := hx
        generalize hclose : memWireClose toyPrims toyConfig toyRng sv q1.1 h1 q1.2 ⟨2, 0, 5, 5⟩ = c at hx
        obtain ⟨h2, q2, r2⟩ := c
        have hk : ∃ k, l.keys = [k] := by
          cases hl : l.keys with
          | nil => rw [hl] at hlen; cases hlen
          | cons k ks => rw [hl] at hlen; cases ks with
            | nil => exact ⟨k, rfl⟩
            | cons a b => simp at hlen
        obtain ⟨k, hk⟩ := hk
        have hheap : placedHeap l = { arrays := [l.data, k.value, b!"reply"] } := by simp [placedHeap, hk]
        have hkeys : (placed l).keys = [⟨1, 0, k.value.length, k.value.length⟩] := by simp [placed, hk]
        have hkw : (⟨1, 0, k.value.length, k.value.length⟩ : Slice).Wf (placedHeap l) := by
          rw [hheap]; exact ⟨k.value, rfl, by simp, Nat.le_refl _⟩
        have hdw : (placed l).data.Wf (placedHeap l) := by
          rw [hheap]; exact ⟨l.data, rfl, by simp [placed], Nat.le_refl _⟩
        have c1 : ∀ x ∈ (placed l).keys, InMemory (placedHeap l) x ∧ x.arr ∉ ({ server := true } : MemWire).own.map (·.arr) := by
          intro x hx
          rw [hkeys] at hx
          cases List.mem_singleton.mp hx
          exact ⟨wf_held hkw, by simp [MemWire.own]⟩
        have c2 : (placed l).data.arr ∉ ({ server := true } : MemWire).own.map (·.arr) := by simp [MemWire.own]
        have c3 : ∀ x, x ∈ ({ server := true } : MemWire).refs ∨ x ∈ (placed l).keys → x.Apart (placed l).data := by
          rintro x (hx | hx)
          · cases hx
          · rw [hkeys] at hx
            cases List.mem_singleton.mp hx
            exact .inl (by simp [placed])
        have run0 : MemRun toyPrims toyConfig sv true [] (placedHeap l) (sv.initState, { server := true }) := .start _
        have run1 : MemRun toyPrims toyConfig sv true [] h1 q1 := .opened (placed l) run0 c1 hdw c2 c3 hopen
        obtain ⟨_, _, w3⟩ := wire_memory_partial toyPrims toyPrims_sizes toyPrims_kdfSized toyConfig sv B true _ _ _ run0
        obtain ⟨_, b2, b3, _, _⟩ := w3 (placed l) h1 q1 r1 c1 hdw c2 c3 hopen
        have hle : (placedHeap l).arrays.length ≤ h1.arrays.length :=
          (memWireOpen_spec toyPrims_sizes toyPrims_kdfSized toyConfig (by rw [B.noKE]; rfl) sv.initState (initState_inv _ true) c1 hdw c2 c3
            (st' := q1.1) (m' := q1.2) hopen).2.2.2.1
        have hrw : (⟨2, 0, 5, 5⟩ : Slice).Wf h1 := by
          refine wf_kept (A := [0]) (h := placedHeap l) ⟨hle, fun arr i b hn hb => b2 arr i b (by simp [MemWire.own]) (fun ⟨e, _⟩ => hn (by rw [e]; simp [placed])) hb⟩ ?_
            (by simp)
          rw [hheap]; exact ⟨b!"reply", rfl, by decide, Nat.le_refl _⟩
        have hro : (⟨2, 0, 5, 5⟩ : Slice).arr ∉ q1.2.own.map (·.arr) := by
          intro hm
          obtain ⟨x, hx, he⟩ := List.mem_map.mp hm
          rcases b3 x hx with h | h
          · cases h
          · rw [hheap] at h
            simp only [List.length_cons, List.length_nil] at h he
            omega
        have run2 := MemRun.closed toyRng _ run1 hrw hro hclose
        cases r2 with
        | error e => cases hx
        | ok m =>
          simp only [decide_eq_true_eq] at hx
          exact ⟨sv, h1, h2, q1, q2, m.value h2, B, run1, href, run2, hx.1, hx.2⟩

end Jess
