import Verif.Model.WireMemory
import Verif.Props.Memory
import Verif.Props.WireOrder

/-! # C80: memory of the caller and of a wire session -/

namespace Jess

/-! ## Specification -/

/-- The bytes of the slice exist. -/
def InMemory (h : Heap) (r : Slice) : Prop := r.arr < h.arrays.length ∧ ∀ i, r.off ≤ i → i < r.off + r.len → ∃ b, byteAt h r.arr i = some b

/-- The slices do not overlap. -/
def Slice.Apart (r d : Slice) : Prop := r.arr ≠ d.arr ∨ r.off + r.len ≤ d.off ∨ d.off + d.len ≤ r.off

/-- The memory of the session itself: the two carryover keys and the new key material. -/
def MemWire.own (m : MemWire) : List Slice := m.send.toList ++ m.recv.toList ++ m.news

/-- The memory of the caller that the session still refers to: keys of a letter that was opened. -/
def MemWire.refs (m : MemWire) : List Slice := m.kx.filterMap (·.ref)

/-- No array that existed has changed. -/
def Grown (h h' : Heap) : Prop := ∃ ext, h'.arrays = h.arrays ++ ext

/-! ## Memory -/

theorem Grown.refl (h : Heap) : Grown h h := ⟨[], by simp⟩

theorem Grown.trans {a b c : Heap} (h : Grown a b) (g : Grown b c) : Grown a c := by
  obtain ⟨x, hx⟩ := h; obtain ⟨y, hy⟩ := g
  exact ⟨x ++ y, by rw [hy, hx, List.append_assoc]⟩

theorem Grown.alloc (h : Heap) (d : Bytes) : Grown h (h.alloc d).1 := ⟨[d], rfl⟩

theorem Grown.get {h h' : Heap} (g : Grown h h') {i : Nat} (hi : i < h.arrays.length) : h'.arrays[i]? = h.arrays[i]? := by
  obtain ⟨x, hx⟩ := g
  rw [hx, List.getElem?_append_left hi]

theorem Grown.le {h h' : Heap} (g : Grown h h') : h.arrays.length ≤ h'.arrays.length := by
  obtain ⟨x, hx⟩ := g
  rw [hx]; simp

theorem wf_lt {h : Heap} {s : Slice} (hs : s.Wf h) : s.arr < h.arrays.length := by
  obtain ⟨a, h1, _⟩ := hs
  exact (List.getElem?_eq_some_iff.mp h1).1

/-- Reading and being there depend on one array only. -/
theorem same_array {h h' : Heap} {r : Slice} (he : h'.arrays[r.arr]? = h.arrays[r.arr]?) :
    h'.read r = h.read r ∧ (r.Wf h → r.Wf h') ∧ (InMemory h r → InMemory h' r) := by
  refine ⟨by simp only [Heap.read, he], fun ⟨a, h1, h2⟩ => ⟨a, by rw [he]; exact h1, h2⟩, fun ⟨h1, h2⟩ => ⟨?_, fun i a b => ?_⟩⟩
  · have := List.getElem?_eq_getElem h1
    rw [← he] at this
    exact (List.getElem?_eq_some_iff.mp this).1
  · obtain ⟨x, hx⟩ := h2 i a b
    exact ⟨x, by unfold byteAt at hx ⊢; rw [he]; exact hx⟩

theorem grown_same {h h' : Heap} (g : Grown h h') {r : Slice} (hr : r.arr < h.arrays.length) :
    h'.read r = h.read r ∧ (r.Wf h → r.Wf h') ∧ (InMemory h r → InMemory h' r) := same_array (g.get hr)

theorem write_other (h : Heap) {s : Slice} (d : Bytes) {i : Nat} (hi : i ≠ s.arr) : (h.write s d).arrays[i]? = h.arrays[i]? := by
  simp only [Heap.write]
  rw [List.getElem?_set]
  rw [if_neg (fun e => hi e.symm)]

theorem write_same {h : Heap} {s : Slice} (hs : s.Wf h) {d : Bytes} (hd : d.length = s.len) :
    (h.write s d).read s = d ∧ s.Wf (h.write s d) := by
  have hc : d.length ≤ s.cap := by obtain ⟨_, _, _, h3⟩ := hs; omega
  have e : ({ s with len := d.length } : Slice) = s := by rw [hd]
  have h1 := read_write hs hc
  have h2 := write_wf hs hc
  rw [e] at h1 h2
  exact ⟨h1, h2⟩

theorem wf_held {h : Heap} {s : Slice} (hs : s.Wf h) : InMemory h s := by
  obtain ⟨a, h1, h2, h3⟩ := hs
  refine ⟨(List.getElem?_eq_some_iff.mp h1).1, fun i a1 a2 => ?_⟩
  unfold byteAt
  rw [h1]
  exact ⟨a[i]'(by omega), by simp only [Option.bind_some]; exact List.getElem?_eq_getElem (by omega)⟩

/-- Bytes outside of the changed slice are as before. -/
theorem apart_same {h h' : Heap} {r d : Slice} (hr : InMemory h r) (ho : OnlyChanged h h' d) (hg : h.arrays.length ≤ h'.arrays.length)
    (ha : r.Apart d) : h'.read r = h.read r ∧ InMemory h' r := by
  obtain ⟨h1, h2⟩ := hr
  have hb : ∀ i, r.off ≤ i → i < r.off + r.len → byteAt h' r.arr i = byteAt h r.arr i := by
    intro i a b
    obtain ⟨x, hx⟩ := h2 i a b
    rw [hx]
    refine ho _ _ _ hx (fun ⟨c1, c2, c3⟩ => ?_)
    rcases ha with h | h | h
    · exact h c1
    · omega
    · omega
  refine ⟨?_, by omega, fun i a b => by obtain ⟨x, hx⟩ := h2 i a b; exact ⟨x, by rw [hb i a b]; exact hx⟩⟩
  apply List.ext_getElem?
  intro i
  simp only [Heap.read, List.getElem?_take, List.getElem?_drop]
  split
  · rename_i hi
    have := hb (r.off + i) (by omega) (by omega)
    unfold byteAt at this
    cases e1 : h'.arrays[r.arr]? <;> cases e2 : h.arrays[r.arr]? <;> rw [e1, e2] at this <;> simpa using this
  · rfl

/-- Copies: new arrays, one each. -/
theorem copyMaterial_spec : ∀ (ds : List Bytes) (h : Heap), Grown h (copyMaterial h ds).1 ∧
    (copyMaterial h ds).2.map (copyMaterial h ds).1.read = ds ∧ (∀ x ∈ (copyMaterial h ds).2, x.Wf (copyMaterial h ds).1 ∧ h.arrays.length ≤ x.arr) ∧
    ((copyMaterial h ds).2.map (·.arr)).Nodup
  | [], h => ⟨Grown.refl h, rfl, fun x hx => (by cases hx), List.nodup_nil⟩
  | d :: ds, h => by
    obtain ⟨g1, g2, g3, g4⟩ := copyMaterial_spec ds (h.alloc d).1
    have ha : (h.alloc d).2.arr = h.arrays.length := rfl
    have hl : (h.alloc d).1.arrays.length = h.arrays.length + 1 := by simp [Heap.alloc]
    obtain ⟨s1, s2, _⟩ := grown_same g1 (r := (h.alloc d).2) (by rw [ha, hl]; omega)
    refine ⟨(Grown.alloc h d).trans g1, ?_, ?_, ?_⟩
    · simp only [copyMaterial, List.map_cons]
      rw [g2, s1, alloc_read]
    · intro x hx
      simp only [copyMaterial, List.mem_cons] at hx
      rcases hx with rfl | hx
      · exact ⟨s2 (alloc_wf h d), by rw [ha]; omega⟩
      · have := g3 x hx
        exact ⟨this.1, by omega⟩
    · simp only [copyMaterial, List.map_cons, List.nodup_cons]
      refine ⟨fun hm => ?_, g4⟩
      obtain ⟨x, hx, he⟩ := List.mem_map.mp hm
      have := (g3 x hx).2
      omega

/-! ## Pairs -/

theorem holdRefs_value (h : Heap) : ∀ (kx : List KxPair) (rs : List (Option Slice)),
    (∀ (i : Nat) (p : KxPair) (q : Signet) (r : Slice), kx[i]? = some p → p.peer = some q → q.loadedPub = none → rs[i]? = some (some r) → q.key = h.read r) →
    (holdRefs rs kx).map (·.value h) = kx
  | [], _, _ => rfl
  | p :: ps, rs, hk => by
    rw [holdRefs, List.map_cons]
    congr 1
    · cases hp : p.peer with
      | none => simp [MemKx.value, peerDone, hp]
      | some q =>
        cases hq : q.loadedPub with
        | some _ => simp [MemKx.value, peerDone, hp, hq]
        | none =>
          cases rs with
          | nil => simp [MemKx.value]
          | cons r rs =>
            cases r with
            | none => simp [MemKx.value]
            | some r =>
              have := hk 0 p q r rfl hp hq rfl
              have e : ({ q with key := h.read r } : Signet) = q := by rw [← this]
              obtain ⟨pt, pg, pp⟩ := p
              simp only at hp
              subst hp
              simp only [MemKx.value, peerDone, hq, Option.isSome_none, Bool.false_eq_true, if_false, List.head?_cons, Option.join_some,
                Option.map_some]
              rw [hq] at e
              rw [e]
    · refine holdRefs_value h ps rs.tail (fun i p q r a b c d => hk (i + 1) p q r (by simpa using a) b c ?_)
      cases rs with
      | nil => simp at d
      | cons r rs => simpa using d

theorem holdRefs_mem : ∀ (kx : List KxPair) (rs : List (Option Slice)) {r : Slice}, r ∈ (holdRefs rs kx).filterMap (·.ref) → some r ∈ rs
  | [], _, r, h => by simp [holdRefs] at h
  | p :: ps, rs, r, h => by
    rw [holdRefs, List.mem_filterMap] at h
    obtain ⟨x, hx, he⟩ := h
    rcases List.mem_cons.mp hx with rfl | hx
    · simp only at he
      split at he
      · cases he
      · cases rs with
        | nil => simp at he
        | cons a rs =>
          simp only [List.head?_cons, Option.join_some] at he
          rw [he]; simp
    · have := holdRefs_mem ps rs.tail (List.mem_filterMap.mpr ⟨x, hx, he⟩)
      exact List.mem_of_mem_tail this

theorem holdRefs_length : ∀ (kx : List KxPair) (rs : List (Option Slice)), (holdRefs rs kx).length = kx.length
  | [], _ => rfl
  | p :: ps, rs => by simp [holdRefs, holdRefs_length ps]

/-- The peers of the pairs are kept, or loaded. -/
def KeptPeers (old new : List KxPair) : Prop :=
  ∀ i p, new[i]? = some p → i < old.length → peerDone p = true ∨ ∃ o, old[i]? = some o ∧ p.peer = o.peer

theorem KeptPeers.refl (l : List KxPair) : KeptPeers l l := fun _ p h _ => .inr ⟨p, h, rfl⟩

theorem keptPeers_append (l ext : List KxPair) : KeptPeers l (l ++ ext) := by
  intro i p h hi
  rw [List.getElem?_append_left hi] at h
  exact .inr ⟨p, h, rfl⟩

theorem KeptPeers.trans {a b c : List KxPair} (h : KeptPeers a b) (g : KeptPeers b c) (hl : a.length ≤ b.length) : KeptPeers a c := by
  intro i p hp hi
  rcases g i p hp (by omega) with g | ⟨o, ho, hpo⟩
  · exact .inl g
  · rcases h i o ho hi with h | ⟨x, hx, hxo⟩
    · left; unfold peerDone at h ⊢; rw [hpo]; exact h
    · exact .inr ⟨x, hx, hpo.trans hxo⟩

theorem genKX_peers (P : Prims) (rng : Rng) : ∀ (kx : List KxPair) (c : Nat), (genKX P rng c kx).1.map (·.peer) = kx.map (·.peer)
  | [], _ => rfl
  | p :: ps, c => by
    rw [genKX]
    split
    · simp [genKX_peers P rng ps (c + 1)]
    · split
      · rfl
      · simp [genKX_peers P rng ps (c + 1)]

theorem keptPeers_map {a b : List KxPair} (h : b.map (·.peer) = a.map (·.peer)) : KeptPeers a b := by
  intro i p hp hi
  have h1 : (b.map (·.peer))[i]? = some p.peer := by rw [List.getElem?_map, hp]; rfl
  rw [h, List.getElem?_map] at h1
  cases ho : a[i]? with
  | none => rw [ho] at h1; cases h1
  | some o => rw [ho] at h1; exact .inr ⟨o, rfl, by simpa using h1.symm⟩

theorem map_peer_length {a b : List KxPair} (h : b.map (·.peer) = a.map (·.peer)) : b.length = a.length := by
  have := congrArg List.length h
  simpa using this

theorem sharedKeys_peers (P : Prims) : ∀ kx : List KxPair, KeptPeers kx (sharedKeys P kx).1 ∧ (sharedKeys P kx).1.length = kx.length
  | [] => ⟨fun i p h => by simp [sharedKeys] at h, rfl⟩
  | p :: ps => by
    obtain ⟨g1, g2⟩ := sharedKeys_peers P ps
    have hone : peerDone (sharedKey P p).1 = true ∨ (sharedKey P p).1.peer = p.peer := by
      unfold sharedKey
      split
      · exact .inr rfl
      · exact .inr rfl
      · rename_i g q _ hq
        split
        · exact .inr rfl
        · rename_i q' hl
          exact .inl (load_spec hl).2.2.2.2.2.2.2
    rw [sharedKeys]
    split
    · rename_i p' e he
      rw [he] at hone
      refine ⟨fun i q hq hi => ?_, rfl⟩
      cases i with
      | zero =>
        simp only [List.getElem?_cons_zero, Option.some.injEq] at hq
        subst hq
        exact hone.imp id (fun h => ⟨p, rfl, h⟩)
      | succ i => exact .inr ⟨q, by simpa using hq, rfl⟩
    · rename_i p' e he
      rw [he] at hone
      refine ⟨fun i q hq hi => ?_, by simp [g2]⟩
      cases i with
      | zero =>
        simp only [List.getElem?_cons_zero, Option.some.injEq] at hq
        subst hq
        exact hone.imp id (fun h => ⟨p, rfl, h⟩)
      | succ i =>
        rcases g1 i q (by simpa using hq) (by simpa using hi) with h | ⟨o, h1, h2⟩
        · exact .inl h
        · exact .inr ⟨o, by simpa using h1, h2⟩

/-- The peers get the keys of the letter. -/
theorem assignKX_peers (v : UInt8) (keys : List Seal) : ∀ (kx : List KxPair) (i : Nat), i + kx.length ≤ keys.length →
    (assignKX v keys i kx).1.length = kx.length ∧ ∀ (j : Nat) (p : KxPair), (assignKX v keys i kx).1[j]? = some p →
      ∃ (sl : Seal) (q : Signet), keys[i + j]? = some sl ∧ p.peer = some q ∧ q.key = sl.value
  | [], i, _ => ⟨rfl, fun j p h => by simp [assignKX] at h⟩
  | p :: ps, i, hl => by
    simp only [List.length_cons] at hl
    obtain ⟨g1, g2⟩ := assignKX_peers v keys ps (i + 1) (by omega)
    have hk : keys[i]? = some (keys[i]'(by omega)) := List.getElem?_eq_getElem (by omega)
    rw [assignKX, hk]
    refine ⟨by simp [g1], fun j q hq => ?_⟩
    cases j with
    | zero =>
      simp only [List.getElem?_cons_zero, Option.some.injEq] at hq
      subst hq
      exact ⟨_, _, hk, rfl, rfl⟩
    | succ j =>
      obtain ⟨sl, q', a, b⟩ := g2 j q (by simpa using hq)
      exact ⟨sl, q', by rw [← a]; congr 1; omega, b⟩

theorem loopKM_grows {σ α : Type} {f : σ → α → σ × Res Unit} (kx : σ → List KxPair) (hf : ∀ x a, ∃ ext, kx (f x a).1 = kx x ++ ext) :
    ∀ (as : List α) (x : σ), ∃ ext, kx (loopKM f x as).1 = kx x ++ ext
  | [], x => ⟨[], by simp [loopKM]⟩
  | a :: as, x => by
    obtain ⟨e1, h1⟩ := hf x a
    rw [loopKM]
    split
    · rename_i y e hy
      rw [hy] at h1
      exact ⟨e1, h1⟩
    · rename_i y hy
      rw [hy] at h1
      obtain ⟨e2, h2⟩ := loopKM_grows kx hf as y
      simp only at h1
      exact ⟨e1 ++ e2, by rw [h2, h1, List.append_assoc]⟩

theorem overTools_grows {σ : Type} {f : σ → ToolInst → σ × Res Unit} (kx : σ → List KxPair) (hf : ∀ x t, ∃ ext, kx (f x t).1 = kx x ++ ext) :
    ∀ (ts : List ToolInst) (x : σ) (r : Res Unit), ∃ ext, kx (overTools f x r ts).1 = kx x ++ ext
  | [], x, r => ⟨[], by simp [overTools]⟩
  | t :: ts, x, r => by
    obtain ⟨e1, h1⟩ := hf x t
    rw [overTools]
    split
    · rename_i y hy
      rw [hy] at h1
      exact ⟨e1, h1⟩
    · rename_i y r' _ hy
      rw [hy] at h1
      obtain ⟨e2, h2⟩ := overTools_grows kx hf ts y r'
      simp only at h1
      exact ⟨e1 ++ e2, by rw [h2, h1, List.append_assoc]⟩

theorem wSetupClosing_grows (P : Prims) (cfg : Config) (rng : Rng) (s : Session) (nonce : Bytes) (kx : List KxPair) (ke : List KePair) :
    ∃ ext, (wSetupClosing P cfg rng s nonce kx ke).1.kx = kx ++ ext := by
  unfold wSetupClosing
  have hx : ∀ x t, ∃ ext, ((loopKM (wCloseKX P rng t) x (ofScheme s.env.recipients t.info.name)).1 : WKM).kx = x.kx ++ ext :=
    fun x t => loopKM_grows (fun x => x.kx) (fun x a => by
      unfold wCloseKX
      split
      · exact ⟨[], by simp⟩
      · exact ⟨_, rfl⟩) _ x
  have he : ∀ x t, ∃ ext, ((loopKM (wCloseKE P cfg rng s t) x (ofScheme s.env.recipients t.info.name)).1 : WKM).kx = x.kx ++ ext :=
    fun x t => loopKM_grows (fun x => x.kx) (fun x a => ⟨[], by simp [wCloseKE]⟩) _ x
  split
  · exact ⟨[], by simp⟩
  · rename_i km _
    obtain ⟨e1, h1⟩ := overTools_grows (fun x : WKM => x.kx) hx (s.queue .keyExchange) { km := km, kx := kx, ke := ke } (.ok ())
    split
    · rename_i x e hs; rw [hs] at h1; exact ⟨e1, h1⟩
    · rename_i x hs
      rw [hs] at h1
      obtain ⟨e2, h2⟩ := overTools_grows (fun x : WKM => x.kx) he (s.queue .keyEncapsulation) x (.ok ())
      simp only at h1
      exact ⟨e1 ++ e2, by rw [h2, h1, List.append_assoc]⟩

theorem wSetupOpening_grows (P : Prims) (cfg : Config) (s : Session) (l : Letter) (kx : List KxPair) (ke : List KePair) :
    ∃ ext, (wSetupOpening P cfg s l kx ke).1.kx = kx ++ ext := by
  unfold wSetupOpening
  have hx : ∀ x t, ∃ ext, ((loopKM (wOpenKX P l t) x (ofScheme s.env.recipients t.info.name)).1 : WOM).kx = x.kx ++ ext :=
    fun x t => loopKM_grows (fun x => x.kx) (fun x a => by
      unfold wOpenKX
      split
      · exact ⟨[], by simp⟩
      · split
        · exact ⟨[], by simp⟩
        · split
          · exact ⟨_, rfl⟩
          · exact ⟨_, rfl⟩) _ x
  have he : ∀ x t, ∃ ext, ((loopKM (wOpenKE P l t) x (ofScheme s.env.recipients t.info.name)).1 : WOM).kx = x.kx ++ ext :=
    fun x t => loopKM_grows (fun x => x.kx) (fun x a => ⟨[], by simp [wOpenKE]⟩) _ x
  simp only
  split
  · exact ⟨[], by simp⟩
  · rename_i om _
    obtain ⟨e1, h1⟩ := overTools_grows (fun x : WOM => x.kx) hx (s.queue .keyExchange) { om := om, kx := kx, ke := ke } (.ok ())
    split
    · rename_i x e hs; rw [hs] at h1; exact ⟨e1, h1⟩
    · rename_i x hs
      rw [hs] at h1
      obtain ⟨e2, h2⟩ := overTools_grows (fun x : WOM => x.kx) he (s.queue .keyEncapsulation) x (.ok ())
      simp only at h1
      exact ⟨e1 ++ e2, by rw [h2, h1, List.append_assoc]⟩

/-! ## Frames of the handshake steps -/

/-- What the switch over the handshake state leaves alone. -/
def Wire.Frame (w w' : Wire) : Prop :=
  w'.server = w.server ∧ w'.msgNo = w.msgNo ∧ w'.lastReKey = w.lastReKey ∧ w'.sendCarry = w.sendCarry ∧ w'.recvCarry = w.recvCarry

theorem Wire.Frame.refl (w : Wire) : w.Frame w := ⟨rfl, rfl, rfl, rfl, rfl⟩

theorem initiate_kept (P : Prims) (rng : Rng) (w : Wire) (km : KM) :
    w.Frame (initiate P rng w km).1 ∧ (initiate P rng w km).1.newMaterial = w.newMaterial ∧
    (initiate P rng w km).1.kx.map (·.peer) = w.kx.map (·.peer) := by
  have hg := genKX_peers P rng w.kx km.ctr
  unfold initiate
  split
  · split
    · rename_i kx e he
      rw [he] at hg
      exact ⟨⟨rfl, rfl, rfl, rfl, rfl⟩, rfl, hg⟩
    · rename_i kx a he
      rw [he] at hg
      split
      · exact ⟨⟨rfl, rfl, rfl, rfl, rfl⟩, rfl, hg⟩
      · exact ⟨⟨rfl, rfl, rfl, rfl, rfl⟩, rfl, hg⟩
  · exact ⟨.refl w, rfl, rfl⟩

theorem complete_kept (P : Prims) (rng : Rng) (s : Session) (w : Wire) :
    w.Frame (complete P rng s w).1 ∧ KeptPeers w.kx (complete P rng s w).1.kx ∧
    (∀ e, (complete P rng s w).2 = .error e → (complete P rng s w).1.newMaterial = w.newMaterial) := by
  have hg := genKX_peers P rng w.kx 1
  unfold complete
  split
  · rename_i kx e he
    rw [he] at hg
    exact ⟨⟨rfl, rfl, rfl, rfl, rfl⟩, keptPeers_map hg, fun _ _ => rfl⟩
  · rename_i kx a he
    rw [he] at hg
    have hk := sharedKeys_peers P kx
    have hT : KeptPeers w.kx (sharedKeys P kx).1 := (keptPeers_map hg).trans hk.1 (by rw [map_peer_length hg]; exact Nat.le_refl _)
    split
    · rename_i kx' e hs
      rw [hs] at hT
      exact ⟨⟨rfl, rfl, rfl, rfl, rfl⟩, hT, fun _ _ => rfl⟩
    · rename_i kx' sh hs
      rw [hs] at hT
      split
      · exact ⟨⟨rfl, rfl, rfl, rfl, rfl⟩, hT, fun _ _ => rfl⟩
      · split
        · exact ⟨⟨rfl, rfl, rfl, rfl, rfl⟩, hT, fun _ _ => rfl⟩
        · exact ⟨⟨rfl, rfl, rfl, rfl, rfl⟩, hT, fun e he => (by cases he)⟩

/-- Sending keeps the peers; new key material is only made when an offer is answered. -/
theorem sendSwitch_kept (P : Prims) (cfg : Config) (rng : Rng) (s : Session) (w : Wire) (nonce : Bytes) :
    w.Frame (sendSwitch P cfg rng s w nonce).1 ∧ KeptPeers w.kx (sendSwitch P cfg rng s w nonce).1.kx ∧
    (w.hs = .sendKey → ∀ e, (sendSwitch P cfg rng s w nonce).2 = .error e → (sendSwitch P cfg rng s w nonce).1.newMaterial = w.newMaterial) ∧
    (w.hs ≠ .sendKey → (sendSwitch P cfg rng s w nonce).1.newMaterial = w.newMaterial) := by
  unfold sendSwitch
  split
  · rename_i hh
    have hg := wSetupClosing_grows P cfg rng s nonce w.kx w.ke
    split
    · rename_i x e hs
      rw [hs] at hg
      obtain ⟨ext, hx⟩ := hg
      exact ⟨⟨rfl, rfl, rfl, rfl, rfl⟩, by simp only at hx ⊢; rw [hx]; exact keptPeers_append _ _, fun _ _ _ => rfl, fun _ => rfl⟩
    · rename_i x hs
      rw [hs] at hg
      obtain ⟨ext, hx⟩ := hg
      simp only at hx
      obtain ⟨i1, i2, i3⟩ := initiate_kept P rng { w with kx := x.kx, ke := x.ke } x.km
      refine ⟨i1, ?_, fun h => (by rw [hh] at h; cases h), fun _ => i2⟩
      refine KeptPeers.trans (b := x.kx) ?_ (keptPeers_map i3) (by rw [hx]; simp)
      rw [hx]; exact keptPeers_append _ _
  · rename_i hh
    obtain ⟨i1, i2, i3⟩ := initiate_kept P rng w {}
    exact ⟨i1, keptPeers_map i3, fun h => (by rw [hh] at h; cases h), fun _ => i2⟩
  · rename_i hh
    obtain ⟨i1, i2, i3⟩ := complete_kept P rng s w
    exact ⟨i1, i2, fun _ => i3, fun h => absurd hh h⟩
  · exact ⟨.refl w, KeptPeers.refl _, fun _ _ _ => rfl, fun _ => rfl⟩
  · exact ⟨.refl w, KeptPeers.refl _, fun _ _ _ => rfl, fun _ => rfl⟩
  · exact ⟨.refl w, KeptPeers.refl _, fun _ _ _ => rfl, fun _ => rfl⟩

/-- The peers are loaded or hold the keys of the letter. -/
def FromLetter (keys : List Seal) (kx : List KxPair) : Prop :=
  ∀ (j : Nat) (p : KxPair), kx[j]? = some p → peerDone p = true ∨ ∃ (sl : Seal) (q : Signet), keys[j]? = some sl ∧ p.peer = some q ∧ q.key = sl.value

theorem assigned_fromLetter {v : UInt8} {keys : List Seal} {kx : List KxPair} (hl : kx.length ≤ keys.length) :
    FromLetter keys (assignKX v keys 0 kx).1 := by
  intro j p hp
  obtain ⟨sl, q, h1, h2⟩ := (assignKX_peers v keys kx 0 (by omega)).2 j p hp
  exact .inr ⟨sl, q, by rw [← h1]; simp, h2⟩

theorem FromLetter.kept {keys : List Seal} {a b : List KxPair} (h : FromLetter keys a) (hk : KeptPeers a b) (hl : b.length = a.length) :
    FromLetter keys b := by
  intro j p hp
  have hj : j < b.length := (List.getElem?_eq_some_iff.mp hp).1
  rcases hk j p hp (by omega) with h1 | ⟨o, h1, h2⟩
  · exact .inl h1
  · rcases h j o h1 with h3 | ⟨sl, q, h3, h4, h5⟩
    · left; unfold peerDone at h3 ⊢; rw [h2]; exact h3
    · exact .inr ⟨sl, q, h3, by rw [h2]; exact h4, h5⟩

theorem recvOffer_kept {s : Session} (hke : (s.queue .keyEncapsulation).isEmpty = true) (w : Wire) (l : Letter) :
    w.Frame (recvOffer s w l).1 ∧ (recvOffer s w l).1.newMaterial = w.newMaterial ∧
    (if l.keys.length = 0 ∨ ((s.queue .keyEncapsulation).isEmpty ∧ l.keys.length ≠ w.kx.length + w.ke.length) then (recvOffer s w l).1 = w
      else FromLetter l.keys (recvOffer s w l).1.kx) := by
  unfold recvOffer
  by_cases h1 : l.keys.length = 0
  · rw [if_pos h1, if_pos (.inl h1)]
    exact ⟨.refl w, rfl, rfl⟩
  · rw [if_neg h1]
    by_cases h2 : (s.queue .keyEncapsulation).isEmpty ∧ l.keys.length ≠ w.kx.length + w.ke.length
    · rw [if_pos h2, if_pos (.inr h2)]
      exact ⟨.refl w, rfl, rfl⟩
    · rw [if_neg h2, if_neg (by rintro (h | h); exact h1 h; exact h2 h)]
      have hlen : w.kx.length ≤ l.keys.length := by
        have : ¬ l.keys.length ≠ w.kx.length + w.ke.length := fun h => h2 ⟨hke, h⟩
        omega
      have hf := assigned_fromLetter (v := l.version) hlen
      split
      · rename_i kx e he
        rw [he] at hf
        exact ⟨⟨rfl, rfl, rfl, rfl, rfl⟩, rfl, hf⟩
      · rename_i kx he
        rw [he] at hf
        split
        · exact ⟨⟨rfl, rfl, rfl, rfl, rfl⟩, rfl, hf⟩
        · exact ⟨⟨rfl, rfl, rfl, rfl, rfl⟩, rfl, hf⟩

theorem recvAnswer_kept (P : Prims) (w : Wire) (l : Letter) :
    w.Frame (recvAnswer P w l).1 ∧
    (if l.keys.length = 0 ∨ l.keys.length ≠ w.kx.length + w.ke.length then (recvAnswer P w l).1 = w
      else FromLetter l.keys (recvAnswer P w l).1.kx ∧ ∀ e, (recvAnswer P w l).2 = .error e → (recvAnswer P w l).1.newMaterial = w.newMaterial) := by
  unfold recvAnswer
  by_cases h1 : l.keys.length = 0
  · rw [if_pos h1, if_pos (.inl h1)]
    exact ⟨.refl w, rfl⟩
  · rw [if_neg h1]
    by_cases h2 : l.keys.length ≠ w.kx.length + w.ke.length
    · rw [if_pos h2, if_pos (.inr h2)]
      exact ⟨.refl w, rfl⟩
    · rw [if_neg h2, if_neg (by rintro (h | h); exact h1 h; exact h2 h)]
      have hlen : w.kx.length ≤ l.keys.length := by omega
      have hf := assigned_fromLetter (v := l.version) hlen
      split
      · rename_i kx e he
        rw [he] at hf
        exact ⟨⟨rfl, rfl, rfl, rfl, rfl⟩, hf, fun _ _ => rfl⟩
      · rename_i kx he
        rw [he] at hf
        have hk := sharedKeys_peers P kx
        have hf' := FromLetter.kept hf hk.1 hk.2
        split
        · exact ⟨⟨rfl, rfl, rfl, rfl, rfl⟩, hf, fun _ _ => rfl⟩
        · split
          · rename_i kx' e hs
            rw [hs] at hf'
            exact ⟨⟨rfl, rfl, rfl, rfl, rfl⟩, hf', fun _ _ => rfl⟩
          · rename_i kx' sh hs
            rw [hs] at hf'
            split
            · exact ⟨⟨rfl, rfl, rfl, rfl, rfl⟩, hf', fun _ _ => rfl⟩
            · exact ⟨⟨rfl, rfl, rfl, rfl, rfl⟩, hf', fun e he => (by cases he)⟩

/-! ## The invariant -/

/-- The bytes of all other arrays are as before. -/
def KeptBut (A : List Nat) (h h' : Heap) : Prop :=
  h.arrays.length ≤ h'.arrays.length ∧ ∀ arr i b, arr ∉ A → byteAt h arr i = some b → byteAt h' arr i = some b

theorem KeptBut.refl (A : List Nat) (h : Heap) : KeptBut A h h := ⟨Nat.le_refl _, fun _ _ _ _ h => h⟩

theorem Grown.kept {h h' : Heap} (g : Grown h h') (A : List Nat) : KeptBut A h h' := by
  refine ⟨g.le, fun arr i b _ hb => ?_⟩
  have hl := byteAt_lt hb
  unfold byteAt at hb ⊢
  rw [g.get hl]; exact hb

theorem KeptBut.mono {A B : List Nat} {h h' : Heap} (k : KeptBut A h h') (hs : ∀ x ∈ A, x ∈ B) : KeptBut B h h' :=
  ⟨k.1, fun arr i b hn hb => k.2 arr i b (fun hm => hn (hs _ hm)) hb⟩

theorem held_kept {A : List Nat} {h h' : Heap} {r : Slice} (k : KeptBut A h h') (hr : InMemory h r) (ha : r.arr ∉ A) :
    h'.read r = h.read r ∧ InMemory h' r := by
  obtain ⟨h1, h2⟩ := hr
  have hb : ∀ i, r.off ≤ i → i < r.off + r.len → byteAt h' r.arr i = byteAt h r.arr i := by
    intro i a b
    obtain ⟨x, hx⟩ := h2 i a b
    rw [hx]
    exact k.2 _ _ _ ha hx
  have := k.1
  refine ⟨?_, by omega, fun i a b => by obtain ⟨x, hx⟩ := h2 i a b; exact ⟨x, by rw [hb i a b]; exact hx⟩⟩
  apply List.ext_getElem?
  intro i
  simp only [Heap.read, List.getElem?_take, List.getElem?_drop]
  split
  · rename_i hi
    have := hb (r.off + i) (by omega) (by omega)
    unfold byteAt at this
    cases e1 : h'.arrays[r.arr]? <;> cases e2 : h.arrays[r.arr]? <;> rw [e1, e2] at this <;> simpa using this
  · rfl

theorem wf_kept {A : List Nat} {h h' : Heap} {r : Slice} (k : KeptBut A h h') (hr : r.Wf h) (ha : r.arr ∉ A) : r.Wf h' := by
  obtain ⟨a, h1, h2, h3⟩ := hr
  have hl : r.arr < h.arrays.length := (List.getElem?_eq_some_iff.mp h1).1
  have hl' : r.arr < h'.arrays.length := by have := k.1; omega
  refine ⟨h'.arrays[r.arr], List.getElem?_eq_getElem hl', ?_, h3⟩
  by_cases hz : r.off + r.cap = 0
  · omega
  · have hb : byteAt h r.arr (r.off + r.cap - 1) = some (a[r.off + r.cap - 1]'(by omega)) := by
      unfold byteAt
      rw [h1]
      exact List.getElem?_eq_getElem (by omega)
    have := k.2 _ _ _ ha hb
    unfold byteAt at this
    rw [List.getElem?_eq_getElem hl'] at this
    have := (List.getElem?_eq_some_iff.mp (this : h'.arrays[r.arr][r.off + r.cap - 1]? = _)).1
    omega

/-- The session's own memory is there and separate, also from the memory of the caller it refers to. -/
structure MemInv (h : Heap) (m : MemWire) : Prop where
  wf : ∀ x ∈ m.own, x.Wf h
  nodup : (m.own.map (·.arr)).Nodup
  held : ∀ r ∈ m.refs, InMemory h r
  out : ∀ r ∈ m.refs, r.arr ∉ m.own.map (·.arr)

/-- A step of the session: it changes its own memory only, and takes new memory. -/
structure MemStep (h : Heap) (m : MemWire) (h' : Heap) (m' : MemWire) (ext : List Slice) : Prop where
  kept : KeptBut (m.own.map (·.arr)) h h'
  own : ∀ x ∈ m'.own, x.arr ∈ m.own.map (·.arr) ∨ h.arrays.length ≤ x.arr
  refs : ∀ r ∈ m'.refs, r ∈ m.refs ∨ r ∈ ext
  inv : MemInv h' m'

theorem MemStep.refl {h : Heap} {m : MemWire} (hi : MemInv h m) : MemStep h m h m [] :=
  ⟨.refl _ h, fun x hx => .inl (List.mem_map.mpr ⟨x, hx, rfl⟩), fun r hr => .inl hr, hi⟩

theorem MemStep.trans {h h1 h2 : Heap} {m m1 m2 : MemWire} {ext : List Slice} (a : MemStep h m h1 m1 ext) (b : MemStep h1 m1 h2 m2 []) :
    MemStep h m h2 m2 ext := by
  have hown : ∀ x ∈ m2.own, x.arr ∈ m.own.map (·.arr) ∨ h.arrays.length ≤ x.arr := by
    intro x hx
    rcases b.own x hx with h1' | h1'
    · obtain ⟨y, hy, he⟩ := List.mem_map.mp h1'
      rw [← he]
      exact a.own y hy
    · have := a.kept.1
      exact .inr (by omega)
  refine ⟨⟨Nat.le_trans a.kept.1 b.kept.1, fun arr i x hn hb => ?_⟩, hown, fun r hr => ?_, b.inv⟩
  · refine b.kept.2 arr i x (fun hm => ?_) (a.kept.2 arr i x hn hb)
    obtain ⟨y, hy, he⟩ := List.mem_map.mp hm
    rcases a.own y hy with h1' | h1'
    · exact hn (he ▸ h1')
    · have := byteAt_lt hb
      omega
  · rcases b.refs r hr with h1' | h1'
    · exact a.refs r h1'
    · cases h1'

theorem own_mem_send {m : MemWire} {x : Slice} (h : m.send = some x) : x ∈ m.own := by simp [MemWire.own, h]
theorem own_mem_recv {m : MemWire} {x : Slice} (h : m.recv = some x) : x ∈ m.own := by simp [MemWire.own, h]
theorem own_mem_news {m : MemWire} {x : Slice} (h : x ∈ m.news) : x ∈ m.own := by simp [MemWire.own, h]

theorem readOpt_eq {h h' : Heap} {o : Option Slice} (hr : ∀ x, o = some x → h'.read x = h.read x) : h'.readOpt o = h.readOpt o := by
  cases o with
  | none => rfl
  | some x => exact hr x rfl

theorem value_kx (h : Heap) (m : MemWire) : (m.value h).kx = m.kx.map (·.value h) := rfl

/-- The references are good for what the session kept. -/
theorem keptRefs_good {h h' : Heap} {m : MemWire} {kx : List KxPair} (hk : KeptPeers (m.value h).kx kx) (hr : ∀ r ∈ m.refs, h'.read r = h.read r) :
    (holdRefs (m.kx.map (·.ref)) kx).map (·.value h') = kx := by
  refine holdRefs_value h' kx _ (fun i p q r h1 h2 h3 h4 => ?_)
  rw [List.getElem?_map] at h4
  cases hm : m.kx[i]? with
  | none => rw [hm] at h4; cases h4
  | some o =>
    rw [hm] at h4
    simp only [Option.map_some, Option.some.injEq] at h4
    have hlt : i < m.kx.length := (List.getElem?_eq_some_iff.mp hm).1
    rcases hk i p h1 (by rw [value_kx, List.length_map]; exact hlt) with hd | ⟨x, hx, hxp⟩
    · unfold peerDone at hd
      rw [h2] at hd
      simp only at hd
      rw [h3] at hd
      cases hd
    · rw [value_kx, List.getElem?_map, hm] at hx
      simp only [Option.map_some, Option.some.injEq] at hx
      rw [← hx] at hxp
      unfold MemKx.value at hxp
      rw [h4] at hxp
      simp only at hxp
      rw [h2] at hxp
      have hin : r ∈ m.refs := List.mem_filterMap.mpr ⟨o, List.mem_of_getElem? hm, h4⟩
      cases ho : o.pair.peer with
      | none => rw [ho] at hxp; cases hxp
      | some z =>
        rw [ho] at hxp
        simp only [Option.map_some, Option.some.injEq] at hxp
        rw [hxp, hr r hin]

/-- The references are good for what came with the letter. -/
theorem letterRefs_good {h h' : Heap} {l : WireLetter} {kx : List KxPair} (hk : FromLetter (l.value h).keys kx) (hr : ∀ r ∈ l.keys, h'.read r = h.read r) :
    (holdRefs (l.keys.map some) kx).map (·.value h') = kx := by
  refine holdRefs_value h' kx _ (fun i p q r h1 h2 h3 h4 => ?_)
  rw [List.getElem?_map] at h4
  cases hm : l.keys[i]? with
  | none => rw [hm] at h4; cases h4
  | some o =>
    rw [hm] at h4
    simp only [Option.map_some, Option.some.injEq] at h4
    subst h4
    rcases hk i p h1 with hd | ⟨sl, x, hx, hxp, hxk⟩
    · unfold peerDone at hd
      rw [h2] at hd
      simp only at hd
      rw [h3] at hd
      cases hd
    · rw [h2] at hxp
      cases hxp
      simp only [WireLetter.value, List.getElem?_zipWith, hm] at hx
      cases hk' : l.hdr.keys[i]? with
      | none => rw [hk'] at hx; cases hx
      | some z =>
        rw [hk'] at hx
        simp only [Option.some.injEq] at hx
        rw [hxk, ← hx, hr o (List.mem_of_getElem? hm)]

theorem update_refs {m : MemWire} {w : Wire} {refs : List (Option Slice)} {news : List Slice} {r : Slice}
    (h : r ∈ (m.update w refs news).refs) : some r ∈ refs := holdRefs_mem _ _ h

theorem kept_refs_mem {m : MemWire} {r : Slice} (h : some r ∈ m.kx.map (·.ref)) : r ∈ m.refs := by
  obtain ⟨x, hx, he⟩ := List.mem_map.mp h
  exact List.mem_filterMap.mpr ⟨x, hx, he⟩

theorem update_value {h h' : Heap} {m : MemWire} {w : Wire} {refs : List (Option Slice)} {news : List Slice} (hf : (m.value h).Frame w)
    (hs : h'.readOpt m.send = h.readOpt m.send) (hr : h'.readOpt m.recv = h.readOpt m.recv)
    (hk : (holdRefs refs w.kx).map (·.value h') = w.kx) (hn : news.map h'.read = w.newMaterial) : (m.update w refs news).value h' = w := by
  obtain ⟨f1, f2, f3, f4, f5⟩ := hf
  obtain ⟨w1, w2, w3, w4, w5, w6, w7, w8, w9⟩ := w
  simp only [MemWire.value] at f1 f2 f3 f4 f5 hk hn
  simp only [MemWire.value, MemWire.update, hk, hn, hs, hr, f1, f2, f3, f4, f5]

/-- A change of the handshake state without new key material. -/
theorem update_step {h : Heap} {m : MemWire} (hi : MemInv h m) (w : Wire) {refs : List (Option Slice)} {ext : List Slice}
    (hr : ∀ r, some r ∈ refs → r ∈ m.refs ∨ r ∈ ext) (he : ∀ r ∈ ext, InMemory h r ∧ r.arr ∉ m.own.map (·.arr)) :
    MemStep h m h (m.update w refs m.news) ext := by
  refine ⟨.refl _ h, fun x hx => .inl (List.mem_map.mpr ⟨x, hx, rfl⟩), fun r hx => hr r (update_refs hx), hi.wf, hi.nodup, ?_, ?_⟩
  · intro r hx
    rcases hr r (update_refs hx) with h1 | h1
    · exact hi.held r h1
    · exact (he r h1).1
  · intro r hx
    rcases hr r (update_refs hx) with h1 | h1
    · exact hi.out r h1
    · exact (he r h1).2

/-- A change of the handshake state with new key material. -/
theorem update_step_new {h : Heap} {m : MemWire} (hi : MemInv h m) (w : Wire) (ds : List Bytes) {refs : List (Option Slice)} {ext : List Slice}
    (hr : ∀ r, some r ∈ refs → r ∈ m.refs ∨ r ∈ ext) (he : ∀ r ∈ ext, InMemory h r ∧ r.arr ∉ m.own.map (·.arr)) :
    MemStep h m (copyMaterial h ds).1 (m.update w refs (copyMaterial h ds).2) ext := by
  obtain ⟨g, _, g2, g3⟩ := copyMaterial_spec ds h
  have hrd : ∀ r, r ∈ m.refs ∨ r ∈ ext → InMemory h r ∧ r.arr ∉ m.own.map (·.arr) := by
    rintro r (h1 | h1)
    · exact ⟨hi.held r h1, hi.out r h1⟩
    · exact he r h1
  have hcar : ∀ x ∈ m.send.toList ++ m.recv.toList, x ∈ m.own := by
    intro x hx
    rw [MemWire.own]
    exact List.mem_append_left _ hx
  have hown : ∀ x ∈ (m.update w refs (copyMaterial h ds).2).own, x ∈ m.send.toList ++ m.recv.toList ∨ x ∈ (copyMaterial h ds).2 := by
    intro x hx
    exact List.mem_append.mp hx
  refine ⟨g.kept _, fun x hx => ?_, fun r hx => hr r (update_refs hx), ?_, ?_, ?_, ?_⟩
  · rcases hown x hx with h1 | h1
    · exact .inl (List.mem_map.mpr ⟨x, hcar x h1, rfl⟩)
    · exact .inr (g2 x h1).2
  · intro x hx
    rcases hown x hx with h1 | h1
    · exact (grown_same g (wf_lt (hi.wf x (hcar x h1)))).2.1 (hi.wf x (hcar x h1))
    · exact (g2 x h1).1
  · have hn := hi.nodup
    rw [MemWire.own, List.map_append, List.nodup_append] at hn
    show (((m.send.toList ++ m.recv.toList) ++ (copyMaterial h ds).2).map (·.arr)).Nodup
    rw [List.map_append, List.nodup_append]
    refine ⟨hn.1, g3, fun a ha b hb => ?_⟩
    obtain ⟨x, hx, rfl⟩ := List.mem_map.mp ha
    obtain ⟨y, hy, rfl⟩ := List.mem_map.mp hb
    have h1 := wf_lt (hi.wf x (hcar x hx))
    have h2 := (g2 y hy).2
    omega
  · intro r hx
    have := (hrd r (hr r (update_refs hx))).1
    exact (grown_same g this.1).2.2 this
  · intro r hx hm
    have hh := hrd r (hr r (update_refs hx))
    obtain ⟨x, hx', he'⟩ := List.mem_map.mp hm
    rcases hown x hx' with h1 | h1
    · exact hh.2 (List.mem_map.mpr ⟨x, hcar x h1, he'⟩)
    · have h2 := (g2 x h1).2
      have h3 := hh.1.1
      omega

theorem copied_carry {h : Heap} {m : MemWire} (hi : MemInv h m) (ds : List Bytes) :
    (copyMaterial h ds).1.readOpt m.send = h.readOpt m.send ∧ (copyMaterial h ds).1.readOpt m.recv = h.readOpt m.recv := by
  obtain ⟨g, _⟩ := copyMaterial_spec ds h
  exact ⟨readOpt_eq (fun x hx => (grown_same g (wf_lt (hi.wf x (own_mem_send hx)))).1),
    readOpt_eq (fun x hx => (grown_same g (wf_lt (hi.wf x (own_mem_recv hx)))).1)⟩

/-! ## Sending -/

theorem memSendSwitch_spec (P : Prims) (cfg : Config) (rng : Rng) (s : Session) {h : Heap} {m : MemWire} (hi : MemInv h m) (nonce : Bytes)
    {h' : Heap} {m' : MemWire} {r : Res SendOut} (he : memSendSwitch P cfg rng s h m nonce = (h', m', r)) :
    sendSwitch P cfg rng s (m.value h) nonce = (m'.value h', r) ∧ MemStep h m h' m' [] ∧ m'.msgNo = m.msgNo ∧ Grown h h' := by
  obtain ⟨k1, k2, k3, k4⟩ := sendSwitch_kept P cfg rng s (m.value h) nonce
  unfold memSendSwitch at he
  generalize hsw : sendSwitch P cfg rng s (m.value h) nonce = sw at he k1 k2 k3 k4
  obtain ⟨w, res⟩ := sw
  simp only at k1 k2 k3 k4
  have hst := update_step hi w (refs := m.kx.map (·.ref)) (ext := []) (fun r hr => .inl (kept_refs_mem hr)) (fun r hr => (by cases hr))
  have hn0 : m.news.map h.read = (m.value h).newMaterial := rfl
  cases res with
  | error e =>
    simp only [Prod.mk.injEq] at he
    obtain ⟨rfl, rfl, rfl⟩ := he
    have hn : w.newMaterial = (m.value h).newMaterial := by
      by_cases hk : (m.value h).hs = .sendKey
      · exact k3 hk e rfl
      · exact k4 hk
    exact ⟨by rw [update_value k1 rfl rfl (keptRefs_good k2 (fun _ _ => rfl)) (by rw [hn0, hn])], hst, rfl, .refl h⟩
  | ok out =>
    simp only at he
    split at he
    · rename_i hk
      simp only [Prod.mk.injEq] at he
      obtain ⟨rfl, rfl, rfl⟩ := he
      obtain ⟨g, g1, _⟩ := copyMaterial_spec w.newMaterial h
      have hst' := update_step_new hi w w.newMaterial (refs := m.kx.map (·.ref)) (ext := []) (fun r hr => .inl (kept_refs_mem hr))
        (fun r hr => (by cases hr))
      obtain ⟨c1, c2⟩ := copied_carry hi w.newMaterial
      exact ⟨by rw [update_value k1 c1 c2 (keptRefs_good k2 (fun r hr => (grown_same g (hi.held r hr).1).1)) g1], hst', rfl, g⟩
    · rename_i hk
      simp only [Prod.mk.injEq] at he
      obtain ⟨rfl, rfl, rfl⟩ := he
      exact ⟨by rw [update_value k1 rfl rfl (keptRefs_good k2 (fun _ _ => rfl)) (by rw [hn0, k4 hk])], hst, rfl, .refl h⟩

theorem burnNews_other : ∀ (news : List Slice) (h : Heap),
    (news.foldl (fun h s => h.write s (List.replicate s.len 255)) h).arrays.length = h.arrays.length ∧
    ∀ i, i ∉ news.map (·.arr) → (news.foldl (fun h s => h.write s (List.replicate s.len 255)) h).arrays[i]? = h.arrays[i]?
  | [], h => ⟨rfl, fun _ _ => rfl⟩
  | x :: xs, h => by
    obtain ⟨h1, h2⟩ := burnNews_other xs (h.write x (List.replicate x.len 255))
    refine ⟨by rw [List.foldl_cons, h1, write_length], fun i hi => ?_⟩
    simp only [List.map_cons, List.mem_cons, not_or] at hi
    rw [List.foldl_cons, h2 i hi.2, write_other h _ hi.1]

/-- The new key material is overwritten, nothing else. -/
theorem memBurn_spec {h : Heap} {m : MemWire} (hi : MemInv h m) :
    (memBurn h m).2.value (memBurn h m).1 = (m.value h).burn ∧ MemStep h m (memBurn h m).1 (memBurn h m).2 [] := by
  obtain ⟨b1, b2⟩ := burnNews_other m.news h
  have hn := hi.nodup
  rw [MemWire.own, List.map_append, List.nodup_append] at hn
  have hcar : ∀ x ∈ m.send.toList ++ m.recv.toList, x ∈ m.own ∧ x.arr ∉ m.news.map (·.arr) := by
    intro x hx
    exact ⟨List.mem_append_left _ hx, fun hm => hn.2.2 x.arr (List.mem_map.mpr ⟨x, hx, rfl⟩) x.arr hm rfl⟩
  have hrefs : (memBurn h m).2.refs = [] := by
    simp only [MemWire.refs, memBurn, List.filterMap_map]
    rw [List.filterMap_eq_nil_iff]
    intro x _; rfl
  have hown : ∀ x ∈ (memBurn h m).2.own, x ∈ m.send.toList ++ m.recv.toList := by
    intro x hx
    have : (memBurn h m).2.own = m.send.toList ++ m.recv.toList ++ [] := rfl
    rw [this, List.append_nil] at hx
    exact hx
  have hsame : ∀ x ∈ m.send.toList ++ m.recv.toList, (memBurn h m).1.arrays[x.arr]? = h.arrays[x.arr]? := fun x hx => b2 _ (hcar x hx).2
  refine ⟨?_, ?_, ?_, ?_, ?_, ?_, ?_, ?_⟩
  · have e1 : (memBurn h m).1.readOpt m.send = h.readOpt m.send :=
      readOpt_eq (fun x hx => (same_array (hsame x (by simp [hx]))).1)
    have e2 : (memBurn h m).1.readOpt m.recv = h.readOpt m.recv :=
      readOpt_eq (fun x hx => (same_array (hsame x (by simp [hx]))).1)
    simp only [MemWire.value, Wire.burn]
    have e3 : (memBurn h m).2.send = m.send := rfl
    have e4 : (memBurn h m).2.recv = m.recv := rfl
    rw [e3, e4, e1, e2]
    simp only [memBurn, List.map_map, Wire.mk.injEq, true_and, List.map_nil, and_true]
    refine List.map_congr_left (fun x hx => ?_)
    simp only [Function.comp, MemKx.value]
    split <;> rfl
  · refine ⟨by rw [show (memBurn h m).1.arrays.length = _ from b1]; exact Nat.le_refl _, fun arr i b hx hb => ?_⟩
    have : arr ∉ m.news.map (·.arr) := fun hm => hx (by
      obtain ⟨x, hx', he⟩ := List.mem_map.mp hm
      exact List.mem_map.mpr ⟨x, own_mem_news hx', he⟩)
    unfold byteAt at hb ⊢
    rw [show (memBurn h m).1.arrays[arr]? = _ from b2 arr this]
    exact hb
  · exact fun x hx => .inl (List.mem_map.mpr ⟨x, (hcar x (hown x hx)).1, rfl⟩)
  · intro r hr; rw [hrefs] at hr; cases hr
  · intro x hx
    exact (same_array (hsame x (hown x hx))).2.1 (hi.wf x (hcar x (hown x hx)).1)
  · show (((m.send.toList ++ m.recv.toList) ++ ([] : List Slice)).map (·.arr)).Nodup
    rw [List.append_nil]; exact hn.1
  · intro r hr; rw [hrefs] at hr; cases hr
  · intro r hr; rw [hrefs] at hr; cases hr

theorem kdfRead_len {P : Prims} (hS : P.KdfSized) {k : ToolInst} {nonce : Bytes} {mat : List Bytes} {off n : Nat} {c : Bytes}
    (h : kdfRead P k nonce mat off n = .ok c) : c.length = n := hS _ _ _ _ _ _ _ h

/-- The next carryover key is written over the last one, or to new memory. -/
theorem memRatchet_spec {P : Prims} (hS : P.KdfSized) (s : Session) (k : ToolInst) {h h' : Heap} {msgNo : Nat} {carry : Option Slice}
    {nonce : Bytes} {material : List Bytes} {r : Res (Option Slice × List Bytes × Nat)} (hc : ∀ x : Slice, carry = some x → x.Wf h)
    (he : memRatchet P s k h msgNo carry nonce material = (h', r)) :
    (∀ e, r = .error e → h' = h ∧ ratchet P s k msgNo (h.readOpt carry) nonce material = .error e) ∧
    (∀ c mat off, r = .ok (c, mat, off) → ratchet P s k msgNo (h.readOpt carry) nonce material = .ok (h'.readOpt c, mat, off) ∧
      h.arrays.length ≤ h'.arrays.length ∧
      (∀ i, i < h.arrays.length → (∀ x : Slice, carry = some x → msgNo ≠ 0 → i ≠ x.arr) → h'.arrays[i]? = h.arrays[i]?) ∧
      (msgNo = 0 → ∃ x : Slice, c = some x ∧ x.Wf h' ∧ x.arr = h.arrays.length) ∧
      (msgNo ≠ 0 → c = carry ∧ ∀ x : Slice, c = some x → x.Wf h')) := by
  unfold memRatchet at he
  unfold ratchet
  by_cases hm : msgNo = 0
  · rw [if_pos hm] at he
    rw [if_pos hm]
    split at he
    · rename_i hz
      rw [if_pos hz]
      cases he
      exact ⟨fun e h => by cases h; exact ⟨rfl, rfl⟩, fun c mat off h => (by cases h)⟩
    · rename_i hz
      rw [if_neg hz]
      split at he
      · rename_i hk
        rw [if_pos hk]
        split at he
        · rename_i e hr
          rw [hr]
          cases he
          exact ⟨fun e h => by cases h; exact ⟨rfl, rfl⟩, fun c mat off h => (by cases h)⟩
        · rename_i c hr
          rw [hr]
          cases he
          have hw := write_same (alloc_wf h (List.replicate s.keySize 0)) (d := c)
            (by rw [kdfRead_len hS hr]; simp [Heap.alloc])
          refine ⟨fun e h => (by cases h), fun c' mat off h' => ?_⟩
          cases h'
          refine ⟨by simp only [Heap.readOpt, hw.1], by rw [write_length]; simp [Heap.alloc], fun i hi _ => ?_, fun _ => ⟨_, rfl, hw.2, rfl⟩,
            fun h => absurd hm h⟩
          rw [write_other _ _ (by show i ≠ h.arrays.length; omega)]
          exact (Grown.alloc h _).get hi
      · rename_i hk
        rw [if_neg hk]
        cases he
        exact ⟨fun e h => by cases h; exact ⟨rfl, rfl⟩, fun c mat off h => (by cases h)⟩
  · rw [if_neg hm] at he
    rw [if_neg hm]
    split at he
    · rename_i hk
      rw [if_pos hk]
      split at he
      · rename_i e hr
        rw [hr]
        cases he
        exact ⟨fun e h => by cases h; exact ⟨rfl, rfl⟩, fun c mat off h => (by cases h)⟩
      · rename_i c hr
        rw [hr]
        have hlen := kdfRead_len hS hr
        cases carry with
        | none =>
          simp only at he
          cases he
          refine ⟨fun e h => (by cases h), fun c' mat off h' => ?_⟩
          cases h'
          have hnil : c = [] := List.eq_nil_of_length_eq_zero hlen
          refine ⟨by rw [hnil]; rfl, Nat.le_refl _, fun _ _ _ => rfl, fun h => absurd h hm, fun _ => ⟨rfl, fun x h => (by cases h)⟩⟩
        | some x =>
          simp only at he
          cases he
          refine ⟨fun e h => (by cases h), fun c' mat off h' => ?_⟩
          cases h'
          have hw := write_same (hc x rfl) (d := c) (by rw [hlen]; exact wf_len (hc x rfl))
          refine ⟨by simp only [Heap.readOpt, hw.1], by rw [write_length]; exact Nat.le_refl _, fun i hi hn => ?_, fun h => absurd h hm,
            fun _ => ⟨rfl, fun y hy => by cases hy; exact hw.2⟩⟩
          exact write_other _ _ (hn x rfl hm)
    · rename_i hk
      rw [if_neg hk]
      cases he
      exact ⟨fun e h => by cases h; exact ⟨rfl, rfl⟩, fun c mat off h => (by cases h)⟩

/-- Other carryover keys, in the memory of the old ones or in new memory. -/
theorem carry_step {h h2 : Heap} {m : MemWire} (hi : MemInv h m) (s' r' : Option Slice) (n : Nat) (hl : h.arrays.length ≤ h2.arrays.length)
    (hsame : ∀ i, i < h.arrays.length → i ∉ (m.send.toList ++ m.recv.toList).map (·.arr) → h2.arrays[i]? = h.arrays[i]?)
    (hw : ∀ x ∈ s'.toList ++ r'.toList, x.Wf h2 ∧ (x.arr ∈ (m.send.toList ++ m.recv.toList).map (·.arr) ∨ h.arrays.length ≤ x.arr))
    (hn : ((s'.toList ++ r'.toList).map (·.arr)).Nodup) :
    MemStep h m h2 { m with send := s', recv := r', msgNo := n } [] ∧
    ({ m with send := s', recv := r', msgNo := n } : MemWire).value h2 =
      { m.value h with sendCarry := h2.readOpt s', recvCarry := h2.readOpt r', msgNo := n } := by
  have hnd := hi.nodup
  rw [MemWire.own, List.map_append, List.nodup_append] at hnd
  have hown : ∀ a ∈ (m.send.toList ++ m.recv.toList).map (·.arr), a ∈ m.own.map (·.arr) := by
    intro a ha
    rw [MemWire.own, List.map_append]
    exact List.mem_append_left _ ha
  have hnews : ∀ x ∈ m.news, h2.arrays[x.arr]? = h.arrays[x.arr]? := fun x hx =>
    hsame _ (wf_lt (hi.wf x (own_mem_news hx))) (fun ha => hnd.2.2 x.arr ha x.arr (List.mem_map.mpr ⟨x, hx, rfl⟩) rfl)
  have hrefs : ∀ r ∈ m.refs, h2.arrays[r.arr]? = h.arrays[r.arr]? := fun r hr =>
    hsame _ (hi.held r hr).1 (fun ha => hi.out r hr (hown _ ha))
  have hmem : ∀ x ∈ ({ m with send := s', recv := r', msgNo := n } : MemWire).own, x ∈ s'.toList ++ r'.toList ∨ x ∈ m.news :=
    fun x hx => List.mem_append.mp hx
  have hplace : ∀ x ∈ ({ m with send := s', recv := r', msgNo := n } : MemWire).own, x.arr ∈ m.own.map (·.arr) ∨ h.arrays.length ≤ x.arr := by
    intro x hx
    rcases hmem x hx with h1 | h1
    · exact (hw x h1).2.imp (hown _) id
    · exact .inl (List.mem_map.mpr ⟨x, own_mem_news h1, rfl⟩)
  refine ⟨⟨⟨hl, fun arr i b hx hb => ?_⟩, hplace, fun r hr => .inl hr, fun x hx => ?_, ?_, fun r hr => ?_, fun r hr hm => ?_⟩, ?_⟩
  · have := hsame arr (byteAt_lt hb) (fun ha => hx (hown _ ha))
    unfold byteAt at hb ⊢
    rw [this]; exact hb
  · rcases hmem x hx with h1 | h1
    · exact (hw x h1).1
    · exact (same_array (hnews x h1)).2.1 (hi.wf x (own_mem_news h1))
  · show (((s'.toList ++ r'.toList) ++ m.news).map (·.arr)).Nodup
    rw [List.map_append, List.nodup_append]
    refine ⟨hn, hnd.2.1, fun a ha b hb => ?_⟩
    obtain ⟨x, hx, rfl⟩ := List.mem_map.mp ha
    obtain ⟨y, hy, rfl⟩ := List.mem_map.mp hb
    rcases (hw x hx).2 with h1 | h1
    · exact hnd.2.2 _ h1 _ hb
    · have := wf_lt (hi.wf y (own_mem_news hy))
      omega
  · exact (same_array (hrefs r hr)).2.2 (hi.held r hr)
  · obtain ⟨x, hx, he⟩ := List.mem_map.mp hm
    rcases hplace x hx with h1 | h1
    · exact hi.out r hr (he ▸ h1)
    · have := (hi.held r hr).1
      omega
  · simp only [MemWire.value, Wire.mk.injEq, true_and]
    refine ⟨List.map_congr_left (fun p hp => ?_), List.map_congr_left (fun x hx => (same_array (hnews x hx)).1)⟩
    cases hr : p.ref with
    | none => simp only [MemKx.value, hr]
    | some r => simp only [MemKx.value, hr, (same_array (hrefs r (List.mem_filterMap.mpr ⟨p, hp, hr⟩))).1]

theorem nodup_pair {a b : Slice} (h : a.arr ≠ b.arr) : (((some a).toList ++ (some b).toList).map (·.arr)).Nodup := by
  simp [h]

theorem carry_sep {h : Heap} {m : MemWire} (hi : MemInv h m) {a b : Slice} (ha : m.send = some a) (hb : m.recv = some b) : a.arr ≠ b.arr := by
  have hnd := hi.nodup
  rw [MemWire.own, List.map_append, List.nodup_append, List.map_append, List.nodup_append, ha, hb] at hnd
  exact hnd.1.2.2 a.arr (by simp) b.arr (by simp)

theorem carry_nodup {h : Heap} {m : MemWire} (hi : MemInv h m) : ((m.send.toList ++ m.recv.toList).map (·.arr)).Nodup := by
  have hnd := hi.nodup
  rw [MemWire.own, List.map_append, List.nodup_append] at hnd
  exact hnd.1

theorem memSent_spec {P : Prims} (hS : P.KdfSized) (s : Session) (k : ToolInst) {h h' : Heap} {m : MemWire} (hi : MemInv h m) {nonce : Bytes}
    {material mat : List Bytes} {c : Option Slice} {off : Nat} (burn : Bool)
    (he : memRatchet P s k h m.msgNo m.send nonce material = (h', .ok (c, mat, off))) :
    MemStep h m (memSent h' m c burn).1 (memSent h' m c burn).2 [] ∧
    (memSent h' m c burn).2.value (memSent h' m c burn).1 = (m.value h).sent (h'.readOpt c) burn := by
  obtain ⟨_, r2⟩ := memRatchet_spec hS s k (fun x hx => hi.wf x (own_mem_send hx)) he
  obtain ⟨_, r3, r4, r5, r6⟩ := r2 c mat off rfl
  have key : MemStep h m (memSent h' m c false).1 (memSent h' m c false).2 [] ∧
      (memSent h' m c false).2.value (memSent h' m c false).1 = (m.value h).sent (h'.readOpt c) false := by
    unfold memSent Wire.sent
    simp only [Bool.false_eq_true, if_false]
    by_cases hm : m.msgNo = 0
    · obtain ⟨x, rfl, hx, hxa⟩ := r5 hm
      have hg := Grown.alloc h' (h'.readOpt (some x))
      have hxl := wf_lt hx
      have hal : (h'.alloc (h'.readOpt (some x))).2.arr = h'.arrays.length := rfl
      rw [if_pos hm]
      obtain ⟨s1, s2⟩ := carry_step (h2 := (h'.alloc (h'.readOpt (some x))).1) hi (some x) (some (h'.alloc (h'.readOpt (some x))).2) (m.msgNo + 1)
        (Nat.le_trans r3 hg.le)
        (fun i hi' hn => by rw [hg.get (by omega)]; exact r4 i hi' (fun _ _ h0 => absurd hm h0))
        (fun y hy => by
          simp only [Option.toList_some, List.cons_append, List.nil_append, List.mem_cons, List.not_mem_nil, or_false] at hy
          rcases hy with rfl | rfl
          · exact ⟨(grown_same hg hxl).2.1 hx, .inr (by omega)⟩
          · exact ⟨alloc_wf _ _, .inr (by omega)⟩)
        (nodup_pair (by rw [hal]; omega))
      refine ⟨s1, ?_⟩
      rw [s2]
      have e : (m.value h).msgNo = m.msgNo := rfl
      rw [e, if_pos hm]
      have e1 : (h'.alloc (h'.readOpt (some x))).1.readOpt (some x) = h'.readOpt (some x) := (grown_same hg hxl).1
      have e2 : (h'.alloc (h'.readOpt (some x))).1.readOpt (some (h'.alloc (h'.readOpt (some x))).2) = h'.readOpt (some x) := alloc_read _ _
      rw [e1, e2]
    · obtain ⟨rfl, hcw⟩ := r6 hm
      rw [if_neg hm]
      have hrw : ∀ x, m.recv = some x → h'.arrays[x.arr]? = h.arrays[x.arr]? := fun x hx =>
        r4 _ (wf_lt (hi.wf x (own_mem_recv hx))) (fun y hy _ => fun e => carry_sep hi hy hx e.symm)
      obtain ⟨s1, s2⟩ := carry_step (h2 := h') hi m.send m.recv (m.msgNo + 1) r3
        (fun i hi' hn => r4 i hi' (fun y hy _ e => hn (by subst e; rw [hy]; simp)))
        (fun y hy => by
          refine ⟨?_, .inl (List.mem_map.mpr ⟨y, hy, rfl⟩)⟩
          simp only [List.mem_append, Option.mem_toList] at hy
          rcases hy with hy | hy
          · exact hcw y hy
          · exact (same_array (hrw y hy)).2.1 (hi.wf y (own_mem_recv hy)))
        (carry_nodup hi)
      refine ⟨s1, ?_⟩
      simp only at s2 ⊢
      rw [s2]
      have e : (m.value h).msgNo = m.msgNo := rfl
      rw [e, if_neg hm]
      have e1 : h'.readOpt m.recv = (m.value h).recvCarry := readOpt_eq (fun x hx => (same_array (hrw x hx)).1)
      rw [e1]
  cases burn with
  | false => exact key
  | true =>
    obtain ⟨b1, b2⟩ := memBurn_spec key.1.inv
    have e : memSent h' m c true = memBurn (memSent h' m c false).1 (memSent h' m c false).2 := rfl
    rw [e]
    refine ⟨key.1.trans b2, ?_⟩
    rw [b1, key.2]
    rfl

theorem memReceived_spec {P : Prims} (hS : P.KdfSized) (s : Session) (k : ToolInst) {h h' : Heap} {m : MemWire} (hi : MemInv h m) {nonce : Bytes}
    {material mat : List Bytes} {c : Option Slice} {off : Nat} (burn : Bool)
    (he : memRatchet P s k h m.msgNo m.recv nonce material = (h', .ok (c, mat, off))) :
    MemStep h m (memReceived h' m c burn).1 (memReceived h' m c burn).2 [] ∧
    (memReceived h' m c burn).2.value (memReceived h' m c burn).1 = (m.value h).received (h'.readOpt c) burn := by
  obtain ⟨_, r2⟩ := memRatchet_spec hS s k (fun x hx => hi.wf x (own_mem_recv hx)) he
  obtain ⟨_, r3, r4, r5, r6⟩ := r2 c mat off rfl
  have key : MemStep h m (memReceived h' m c false).1 (memReceived h' m c false).2 [] ∧
      (memReceived h' m c false).2.value (memReceived h' m c false).1 = (m.value h).received (h'.readOpt c) false := by
    unfold memReceived Wire.received
    simp only [Bool.false_eq_true, if_false]
    by_cases hm : m.msgNo = 0
    · obtain ⟨x, rfl, hx, hxa⟩ := r5 hm
      have hg := Grown.alloc h' (h'.readOpt (some x))
      have hxl := wf_lt hx
      have hal : (h'.alloc (h'.readOpt (some x))).2.arr = h'.arrays.length := rfl
      rw [if_pos hm]
      obtain ⟨s1, s2⟩ := carry_step (h2 := (h'.alloc (h'.readOpt (some x))).1) hi (some (h'.alloc (h'.readOpt (some x))).2) (some x) (m.msgNo + 1)
        (Nat.le_trans r3 hg.le)
        (fun i hi' hn => by rw [hg.get (by omega)]; exact r4 i hi' (fun _ _ h0 => absurd hm h0))
        (fun y hy => by
          simp only [Option.toList_some, List.cons_append, List.nil_append, List.mem_cons, List.not_mem_nil, or_false] at hy
          rcases hy with rfl | rfl
          · exact ⟨alloc_wf _ _, .inr (by omega)⟩
          · exact ⟨(grown_same hg hxl).2.1 hx, .inr (by omega)⟩)
        (nodup_pair (by rw [hal]; omega))
      refine ⟨s1, ?_⟩
      rw [s2]
      have e : (m.value h).msgNo = m.msgNo := rfl
      rw [e, if_pos hm]
      have e1 : (h'.alloc (h'.readOpt (some x))).1.readOpt (some x) = h'.readOpt (some x) := (grown_same hg hxl).1
      have e2 : (h'.alloc (h'.readOpt (some x))).1.readOpt (some (h'.alloc (h'.readOpt (some x))).2) = h'.readOpt (some x) := alloc_read _ _
      rw [e1, e2]
    · obtain ⟨rfl, hcw⟩ := r6 hm
      rw [if_neg hm]
      have hrw : ∀ x, m.send = some x → h'.arrays[x.arr]? = h.arrays[x.arr]? := fun x hx =>
        r4 _ (wf_lt (hi.wf x (own_mem_send hx))) (fun y hy _ => carry_sep hi hx hy)
      obtain ⟨s1, s2⟩ := carry_step (h2 := h') hi m.send m.recv (m.msgNo + 1) r3
        (fun i hi' hn => r4 i hi' (fun y hy _ e => hn (by subst e; rw [hy]; simp)))
        (fun y hy => by
          refine ⟨?_, .inl (List.mem_map.mpr ⟨y, hy, rfl⟩)⟩
          simp only [List.mem_append, Option.mem_toList] at hy
          rcases hy with hy | hy
          · exact (same_array (hrw y hy)).2.1 (hi.wf y (own_mem_send hy))
          · exact hcw y hy)
        (carry_nodup hi)
      refine ⟨s1, ?_⟩
      simp only at s2 ⊢
      rw [s2]
      have e : (m.value h).msgNo = m.msgNo := rfl
      rw [e, if_neg hm]
      have e1 : h'.readOpt m.send = (m.value h).sendCarry := readOpt_eq (fun x hx => (same_array (hrw x hx)).1)
      rw [e1]
  cases burn with
  | false => exact key
  | true =>
    obtain ⟨b1, b2⟩ := memBurn_spec key.1.inv
    have e : memReceived h' m c true = memBurn (memReceived h' m c false).1 (memReceived h' m c false).2 := rfl
    rw [e]
    refine ⟨key.1.trans b2, ?_⟩
    rw [b1, key.2]
    rfl

theorem memSendHandshake_spec {P : Prims} (hS : P.KdfSized) (cfg : Config) (rng : Rng) (s : Session) (k : ToolInst) {h h' : Heap}
    {m m' : MemWire} (hi : MemInv h m) (nonce : Bytes) {r : Res Keyed} (he : memSendHandshake P cfg rng s k h m nonce = (h', m', r)) :
    sendHandshake P cfg rng s k (m.value h) nonce = (m'.value h', r) ∧ MemStep h m h' m' [] := by
  unfold memSendHandshake at he
  generalize hsw : memSendSwitch P cfg rng s h m nonce = sw at he
  obtain ⟨h1, m1, r1⟩ := sw
  obtain ⟨k1, k2, k3, k4⟩ := memSendSwitch_spec P cfg rng s hi nonce hsw
  unfold sendHandshake
  rw [k1]
  cases r1 with
  | error e =>
    simp only at he
    cases he
    exact ⟨rfl, k2⟩
  | ok out =>
    simp only at he ⊢
    generalize hra : memRatchet P s k h1 m1.msgNo m1.send nonce out.material = ra at he
    obtain ⟨h2, r2⟩ := ra
    obtain ⟨q1, q2⟩ := memRatchet_spec hS s k (fun x hx => k2.inv.wf x (own_mem_send hx)) hra
    have e1 : (m1.value h1).msgNo = m1.msgNo := rfl
    have e2 : (m1.value h1).sendCarry = h1.readOpt m1.send := rfl
    rw [e1, e2]
    cases r2 with
    | error e =>
      simp only at he
      cases he
      obtain ⟨rfl, hq⟩ := q1 e rfl
      rw [hq]
      exact ⟨rfl, k2⟩
    | ok x =>
      obtain ⟨c, mat, off⟩ := x
      simp only at he
      cases he
      obtain ⟨hq, _⟩ := q2 c mat off rfl
      rw [hq]
      obtain ⟨z1, z2⟩ := memSent_spec hS s k k2.inv out.burn hra
      exact ⟨by rw [z2], k2.trans z1⟩

/-! ## Receiving -/

/-- The memory of a letter: it is there, and it is not the session's. -/
def LetterOut (h : Heap) (m : MemWire) (l : WireLetter) : Prop := ∀ r ∈ l.keys, InMemory h r ∧ r.arr ∉ m.own.map (·.arr)

theorem some_mem_map {l : List Slice} {r : Slice} (h : some r ∈ l.map some) : r ∈ l := by
  obtain ⟨x, hx, he⟩ := List.mem_map.mp h
  cases he; exact hx

theorem memOffer_spec {s : Session} (hke : (s.queue .keyEncapsulation).isEmpty = true) {h : Heap} {m m' : MemWire} (hi : MemInv h m)
    {l : WireLetter} (hl : LetterOut h m l) {r : Res Unit} (he : memOffer s h m l = (m', r)) :
    recvOffer s (m.value h) (l.value h) = (m'.value h, r) ∧ MemStep h m h m' l.keys ∧ m'.msgNo = m.msgNo := by
  obtain ⟨k1, k2, k3⟩ := recvOffer_kept hke (m.value h) (l.value h)
  unfold memOffer at he
  generalize hsw : recvOffer s (m.value h) (l.value h) = sw at he k1 k2 k3
  obtain ⟨w, res⟩ := sw
  have e1 : (m.value h).kx.length = m.kx.length := by simp [MemWire.value]
  have e2 : (m.value h).ke.length = m.ke.length := rfl
  rw [e1, e2] at k3
  simp only at k1 k2 k3 he
  have hn : m.news.map h.read = w.newMaterial := k2.symm
  split at he
  · rename_i hc
    rw [if_pos hc] at k3
    cases he
    refine ⟨by rw [update_value k1 rfl rfl (keptRefs_good (by rw [k3]; exact KeptPeers.refl _) (fun _ _ => rfl)) hn], ?_, rfl⟩
    have := update_step hi w (refs := m.kx.map (·.ref)) (ext := l.keys) (fun r hr => .inl (kept_refs_mem hr)) hl
    exact this
  · rename_i hc
    rw [if_neg hc] at k3
    cases he
    refine ⟨by rw [update_value k1 rfl rfl (letterRefs_good k3 (fun _ _ => rfl)) hn], ?_, rfl⟩
    exact update_step hi w (refs := l.keys.map some) (ext := l.keys) (fun r hr => .inr (some_mem_map hr)) hl

theorem memAnswer_spec (P : Prims) {h h' : Heap} {m m' : MemWire} (hi : MemInv h m) {l : WireLetter} (hl : LetterOut h m l)
    {r : Res (List Bytes)} (he : memAnswer P h m l = (h', m', r)) :
    recvAnswer P (m.value h) (l.value h) = (m'.value h', r) ∧ MemStep h m h' m' l.keys ∧ m'.msgNo = m.msgNo ∧ Grown h h' := by
  obtain ⟨k1, k3⟩ := recvAnswer_kept P (m.value h) (l.value h)
  unfold memAnswer at he
  generalize hsw : recvAnswer P (m.value h) (l.value h) = sw at he k1 k3
  obtain ⟨w, res⟩ := sw
  have e1 : (m.value h).kx.length = m.kx.length := by simp [MemWire.value]
  have e2 : (m.value h).ke.length = m.ke.length := rfl
  rw [e1, e2] at k3
  simp only at k1 k3 he
  split at he
  · rename_i hc
    rw [if_pos hc] at k3
    cases he
    refine ⟨by rw [update_value k1 rfl rfl (keptRefs_good (by rw [k3]; exact KeptPeers.refl _) (fun _ _ => rfl)) (by rw [k3]; rfl)], ?_, rfl, .refl h⟩
    exact update_step hi w (refs := m.kx.map (·.ref)) (ext := l.keys) (fun r hr => .inl (kept_refs_mem hr)) hl
  · rename_i hc
    rw [if_neg hc] at k3
    cases res with
    | error e =>
      simp only at he
      cases he
      refine ⟨by rw [update_value k1 rfl rfl (letterRefs_good k3.1 (fun _ _ => rfl)) (by rw [k3.2 e rfl]; rfl)], ?_, rfl, .refl h⟩
      exact update_step hi w (refs := l.keys.map some) (ext := l.keys) (fun r hr => .inr (some_mem_map hr)) hl
    | ok x =>
      simp only at he
      cases he
      obtain ⟨g, g1, _⟩ := copyMaterial_spec w.newMaterial h
      obtain ⟨c1, c2⟩ := copied_carry hi w.newMaterial
      refine ⟨by rw [update_value k1 c1 c2 (letterRefs_good k3.1 (fun r hr => (grown_same g (hl r hr).1.1).1)) g1], ?_, rfl, g⟩
      exact update_step_new hi w w.newMaterial (refs := l.keys.map some) (ext := l.keys) (fun r hr => .inr (some_mem_map hr)) hl

theorem MemStep.weaken {h h' : Heap} {m m' : MemWire} (a : MemStep h m h' m' []) (ext : List Slice) : MemStep h m h' m' ext :=
  ⟨a.kept, a.own, fun r hr => (a.refs r hr).elim .inl (fun h => (by cases h)), a.inv⟩

theorem recvSwitch_init (P : Prims) (cfg : Config) (s : Session) {w : Wire} (l : Letter) (h : w.hs = .init) :
    recvSwitch P cfg s w l = (match wSetupOpening P cfg s l w.kx w.ke with
      | (x, .error e) => ({ w with kx := x.kx, ke := x.ke }, .error e)
      | (x, .ok ()) =>
        match recvOffer s { w with kx := x.kx, ke := x.ke } l with
        | (w, .error e) => (w, .error e)
        | (w, .ok ()) => (w, .ok (x.om.material, false))) := by
  obtain ⟨a, b, c, d, e, f, g, h', i⟩ := w
  simp only at h
  subst h
  rfl

theorem recvSwitch_rest (P : Prims) (cfg : Config) (s : Session) {w : Wire} (l : Letter) :
    (w.hs = .idle → recvSwitch P cfg s w l = (match recvOffer s w l with
      | (w, .error e) => (w, .error e)
      | (w, .ok ()) => (w, .ok ([], false)))) ∧
    (w.hs = .awaitKey → recvSwitch P cfg s w l = (match recvAnswer P w l with
      | (w, .error e) => (w, .error e)
      | (w, .ok m) => (w, .ok (m, false)))) ∧
    (w.hs = .awaitApply → recvSwitch P cfg s w l = if l.applyKeys then (w, .ok (w.newMaterial, true)) else (w, .ok ([], false))) ∧
    (w.hs = .sendKey ∨ w.hs = .sendApply → recvSwitch P cfg s w l = (w, .ok ([], false))) := by
  obtain ⟨a, b, c, d, e, f, g, h', i⟩ := w
  simp only
  refine ⟨?_, ?_, ?_, ?_⟩
  · intro h; subst h; rfl
  · intro h; subst h; rfl
  · intro h; subst h; rfl
  · intro h; rcases h with h | h <;> subst h <;> rfl

theorem memRecvSwitch_spec (P : Prims) (cfg : Config) {s : Session} (hke : (s.queue .keyEncapsulation).isEmpty = true) {h h' : Heap}
    {m m' : MemWire} (hi : MemInv h m) {l : WireLetter} (hl : LetterOut h m l) {r : Res (List Bytes × Bool)}
    (he : memRecvSwitch P cfg s h m l = (h', m', r)) :
    recvSwitch P cfg s (m.value h) (l.value h) = (m'.value h', r) ∧ MemStep h m h' m' l.keys ∧ m'.msgNo = m.msgNo ∧ Grown h h' := by
  have hst : MemStep h m h m l.keys := (MemStep.refl hi).weaken _
  obtain ⟨v1, v2, v3, v4⟩ := recvSwitch_rest P cfg s (w := m.value h) (l.value h)
  unfold memRecvSwitch at he
  split at he
  · rename_i hh
    rw [recvSwitch_init P cfg s (w := m.value h) (l.value h) hh]
    have hg := wSetupOpening_grows P cfg s (l.value h) (m.value h).kx (m.value h).ke
    split at he
    · rename_i x e hs
      rw [hs] at hg ⊢
      obtain ⟨ext, hx⟩ := hg
      simp only at hx
      cases he
      have hv := update_value (h := h) (h' := h) (m := m) (w := { m.value h with kx := x.kx, ke := x.ke }) (refs := m.kx.map (·.ref)) (news := m.news)
        ⟨rfl, rfl, rfl, rfl, rfl⟩ rfl rfl (keptRefs_good (by simp only; rw [hx]; exact keptPeers_append _ _) (fun _ _ => rfl)) rfl
      refine ⟨by rw [hv], ?_, rfl, .refl h⟩
      exact update_step hi _ (refs := m.kx.map (·.ref)) (ext := l.keys) (fun r hr => .inl (kept_refs_mem hr)) hl
    · rename_i x hs
      rw [hs] at hg ⊢
      obtain ⟨ext, hx⟩ := hg
      simp only at hx
      have hv := update_value (h := h) (h' := h) (m := m) (w := { m.value h with kx := x.kx, ke := x.ke }) (refs := m.kx.map (·.ref)) (news := m.news)
        ⟨rfl, rfl, rfl, rfl, rfl⟩ rfl rfl (keptRefs_good (by simp only; rw [hx]; exact keptPeers_append _ _) (fun _ _ => rfl)) rfl
      have hs1 := update_step hi { m.value h with kx := x.kx, ke := x.ke } (refs := m.kx.map (·.ref)) (ext := []) (fun r hr => .inl (kept_refs_mem hr))
        (fun r hr => (by cases hr))
      generalize hof : memOffer s h (m.update { m.value h with kx := x.kx, ke := x.ke } (m.kx.map (·.ref)) m.news) l = of at he
      obtain ⟨m1, r1⟩ := of
      obtain ⟨o1, o2, o3⟩ := memOffer_spec hke hs1.inv (l := l) hl hof
      rw [hv] at o1
      have hstep : MemStep h m h m1 l.keys := by
        refine ⟨.refl _ h, fun y hy => ?_, fun r hr => ?_, o2.inv⟩
        · exact o2.own y hy
        · rcases o2.refs r hr with h1 | h1
          · exact .inl ((hs1.refs r h1).elim id (fun h => (by cases h)))
          · exact .inr h1
      cases r1 with
      | error e =>
        simp only at he o1 ⊢
        cases he
        rw [o1]
        exact ⟨rfl, hstep, o3, .refl h⟩
      | ok u =>
        simp only at he o1 ⊢
        cases he
        rw [o1]
        exact ⟨rfl, hstep, o3, .refl h⟩
  · rename_i hh
    rw [v1 hh]
    generalize hof : memOffer s h m l = of at he
    obtain ⟨m1, r1⟩ := of
    obtain ⟨o1, o2, o3⟩ := memOffer_spec hke hi hl hof
    rw [o1]
    cases r1 with
    | error e => simp only at he ⊢; cases he; exact ⟨rfl, o2, o3, .refl h⟩
    | ok u => simp only at he ⊢; cases he; exact ⟨rfl, o2, o3, .refl h⟩
  · rename_i hh
    rw [v2 hh]
    generalize hof : memAnswer P h m l = of at he
    obtain ⟨h1, m1, r1⟩ := of
    obtain ⟨o1, o2, o3, o4⟩ := memAnswer_spec P hi hl hof
    rw [o1]
    cases r1 with
    | error e => simp only at he ⊢; cases he; exact ⟨rfl, o2, o3, o4⟩
    | ok u => simp only at he ⊢; cases he; exact ⟨rfl, o2, o3, o4⟩
  · rename_i hh
    have e : (l.value h).applyKeys = l.hdr.applyKeys := rfl
    rw [v3 hh, e]
    split at he
    · rename_i ha
      rw [if_pos ha]
      cases he
      exact ⟨rfl, hst, rfl, .refl h⟩
    · rename_i ha
      rw [if_neg ha]
      cases he
      exact ⟨rfl, hst, rfl, .refl h⟩
  · rename_i hh
    rw [v4 (.inl hh)]
    cases he; exact ⟨rfl, hst, rfl, .refl h⟩
  · rename_i hh
    rw [v4 (.inr hh)]
    cases he; exact ⟨rfl, hst, rfl, .refl h⟩

theorem memRecvHandshake_spec {P : Prims} (hS : P.KdfSized) (cfg : Config) {s : Session} (hke : (s.queue .keyEncapsulation).isEmpty = true)
    (k : ToolInst) {h h' : Heap} {m m' : MemWire} (hi : MemInv h m) {l : WireLetter} (hl : LetterOut h m l) {r : Res (List Bytes × Nat)}
    (he : memRecvHandshake P cfg s k h m l = (h', m', r)) :
    recvHandshake P cfg s k (m.value h) (l.value h) = (m'.value h', r) ∧ MemStep h m h' m' l.keys := by
  unfold memRecvHandshake at he
  generalize hsw : memRecvSwitch P cfg s h m l = sw at he
  obtain ⟨h1, m1, r1⟩ := sw
  obtain ⟨k1, k2, k3, k4⟩ := memRecvSwitch_spec P cfg hke hi hl hsw
  unfold recvHandshake
  rw [k1]
  cases r1 with
  | error e =>
    simp only at he
    cases he
    exact ⟨rfl, k2⟩
  | ok x =>
    obtain ⟨mat0, burn⟩ := x
    simp only at he ⊢
    generalize hra : memRatchet P s k h1 m1.msgNo m1.recv l.hdr.nonce mat0 = ra at he
    obtain ⟨h2, r2⟩ := ra
    obtain ⟨q1, q2⟩ := memRatchet_spec hS s k (fun x hx => k2.inv.wf x (own_mem_recv hx)) hra
    have e1 : (m1.value h1).msgNo = m1.msgNo := rfl
    have e2 : (m1.value h1).recvCarry = h1.readOpt m1.recv := rfl
    have e3 : (l.value h).nonce = l.hdr.nonce := rfl
    rw [e1, e2, e3]
    cases r2 with
    | error e =>
      simp only at he
      cases he
      obtain ⟨rfl, hq⟩ := q1 e rfl
      rw [hq]
      exact ⟨rfl, k2⟩
    | ok x =>
      obtain ⟨c, mat, off⟩ := x
      simp only at he
      cases he
      obtain ⟨hq, _⟩ := q2 c mat off rfl
      rw [hq]
      obtain ⟨z1, z2⟩ := memReceived_spec hS s k k2.inv burn hra
      exact ⟨by rw [z2], k2.trans z1⟩

/-! ## The data -/

theorem value_same {h h' : Heap} {m : MemWire} (ho : ∀ x ∈ m.own, h'.read x = h.read x) (hr : ∀ r ∈ m.refs, h'.read r = h.read r) :
    m.value h' = m.value h := by
  simp only [MemWire.value, Wire.mk.injEq, true_and]
  refine ⟨readOpt_eq (fun x hx => ho x (own_mem_send hx)), readOpt_eq (fun x hx => ho x (own_mem_recv hx)), List.map_congr_left (fun p hp => ?_),
    List.map_congr_left (fun x hx => ho x (own_mem_news hx))⟩
  cases hr' : p.ref with
  | none => simp only [MemKx.value, hr']
  | some r => simp only [MemKx.value, hr', hr r (List.mem_filterMap.mpr ⟨p, hp, hr'⟩)]

/-- What the session does not own may grow. -/
theorem kept_step {h h' : Heap} {m : MemWire} (hi : MemInv h m) (hk : KeptBut [] h h') : MemStep h m h' m [] ∧ m.value h' = m.value h := by
  refine ⟨⟨hk.mono (fun x hx => (by cases hx)), fun x hx => .inl (List.mem_map.mpr ⟨x, hx, rfl⟩), fun r hr => .inl hr,
    fun x hx => wf_kept hk (hi.wf x hx) (by simp), hi.nodup, fun r hr => (held_kept hk (hi.held r hr) (by simp)).2, hi.out⟩, ?_⟩
  exact value_same (fun x hx => (held_kept hk (wf_held (hi.wf x hx)) (by simp)).1) (fun r hr => (held_kept hk (hi.held r hr) (by simp)).1)

/-- Where the result of a tool is. -/
def Places (f : Heap → Slice → ToolInst × ToolState → Heap × Res Slice) : Prop :=
  ∀ h s x h' r, f h s x = (h', r) → h.arrays.length ≤ h'.arrays.length ∧ ∀ d, r = .ok d → d.arr = s.arr ∨ h.arrays.length ≤ d.arr

theorem memFold_places {f : Heap → Slice → ToolInst × ToolState → Heap × Res Slice} (hf : Places f) : ∀ (xs : List (ToolInst × ToolState))
    (h : Heap) (s : Slice) (h' : Heap) (r : Res Slice), memFold f h s xs = (h', r) →
    h.arrays.length ≤ h'.arrays.length ∧ ∀ d, r = .ok d → d.arr = s.arr ∨ h.arrays.length ≤ d.arr
  | [], h, s, h', r, he => by
    simp only [memFold] at he
    cases he
    exact ⟨Nat.le_refl _, fun d hd => by cases hd; exact .inl rfl⟩
  | x :: xs, h, s, h', r, he => by
    rw [memFold] at he
    split at he
    · rename_i h1 e h2
      cases he
      exact ⟨(hf h s x _ _ h2).1, fun d hd => (by cases hd)⟩
    · rename_i h1 s1 h2
      obtain ⟨a1, a2⟩ := hf h s x _ _ h2
      obtain ⟨b1, b2⟩ := memFold_places hf xs h1 s1 h' r he
      refine ⟨by omega, fun d hd => ?_⟩
      rcases b2 d hd with h3 | h3
      · rcases a2 s1 rfl with h4 | h4
        · exact .inl (by omega)
        · exact .inr (by omega)
      · exact .inr (by omega)

theorem memStream_places (op : Bytes → ToolInst × ToolState → Res Bytes) : Places (memStream op) := by
  intro h s x h' r he
  unfold memStream at he
  split at he
  · cases he; exact ⟨Nat.le_refl _, fun d hd => (by cases hd)⟩
  · cases he
    exact ⟨by rw [write_length]; exact Nat.le_refl _, fun d hd => by cases hd; exact .inl rfl⟩

theorem memSeal_places (op : Bytes → ToolInst × ToolState → Res Bytes) : Places (memSeal op) := by
  intro h s x h' r he
  unfold memSeal at he
  split at he
  · cases he; exact ⟨Nat.le_refl _, fun d hd => (by cases hd)⟩
  · split at he
    · cases he
      exact ⟨by rw [write_length]; exact Nat.le_refl _, fun d hd => by cases hd; exact .inl rfl⟩
    · cases he
      exact ⟨(Grown.alloc h _).le, fun d hd => by cases hd; exact .inr (Nat.le_refl _)⟩

theorem memProtect_places {P : Prims} {s : Session} {sts : List ToolState} {l : Letter} {h h' : Heap} {d : Slice} {r : Res MemLetter}
    (he : memProtect P s sts l h d = (h', r)) :
    h.arrays.length ≤ h'.arrays.length ∧ ∀ m, r = .ok m → m.2.arr = d.arr ∨ h.arrays.length ≤ m.2.arr := by
  unfold memProtect at he
  split at he
  · rename_i h1 e h2
    cases he
    exact ⟨(memFold_places (memStream_places _) _ _ _ _ _ h2).1, fun m hm => (by cases hm)⟩
  · rename_i h1 d1 h2
    obtain ⟨a1, a2⟩ := memFold_places (memStream_places _) _ _ _ _ _ h2
    split at he
    · rename_i h3 e h4
      cases he
      exact ⟨Nat.le_trans a1 (memFold_places (memSeal_places _) _ _ _ _ _ h4).1, fun m hm => (by cases hm)⟩
    · rename_i h3 d3 h4
      obtain ⟨b1, b2⟩ := memFold_places (memSeal_places _) _ _ _ _ _ h4
      split at he
      · cases he
        exact ⟨Nat.le_trans a1 b1, fun m hm => (by cases hm)⟩
      · cases he
        refine ⟨Nat.le_trans a1 b1, fun m hm => ?_⟩
        cases hm
        rcases b2 d3 rfl with h5 | h5
        · rcases a2 d1 rfl with h6 | h6
          · exact .inl (by rw [← h6]; exact h5)
          · exact .inr (by rw [← h5] at h6; exact h6)
        · exact .inr (Nat.le_trans a1 h5)

/-- Encrypting: the letter by value; no byte of the memory changes; the data is where it was or in new memory. -/
theorem memEncryptAt_spec {P : Prims} (hP : P.Sizes) {s : Session} (hq : s.queue .cipher = []) (st : SState) (k : ToolInst) (material : List Bytes)
    (off : Nat) (l : Letter) {h h' : Heap} {d : Slice} (hd : d.Wf h) (ht : d.cap = d.len) {st' : SState} {r : Res MemLetter}
    (he : memEncryptAt P s st k material off l h d = (h', st', r)) :
    encryptLetter P s st k material off l (h.read d) = (st', resValue h' r) ∧ KeptBut [] h h' ∧
    ∀ m, r = .ok m → m.2.arr = d.arr ∨ h.arrays.length ≤ m.2.arr := by
  unfold memEncryptAt at he
  unfold encryptLetter
  generalize setupTools P s k l.nonce material off s.stateful st.tools = sp at he
  obtain ⟨tools, res⟩ := sp
  cases res with
  | error e =>
    simp only at he
    cases he
    exact ⟨rfl, .refl _ _, fun m hm => (by cases hm)⟩
  | ok u =>
    simp only at he ⊢
    generalize hm : memProtect P s tools l h d = mp at he
    obtain ⟨h1, r1⟩ := mp
    simp only at he
    cases he
    obtain ⟨p1, _, _⟩ := protect_refines hP hd ht hm
    have hu := protect_unchanged hP hq hd ht hm
    obtain ⟨q1, q2⟩ := memProtect_places hm
    exact ⟨by rw [p1]; cases r <;> rfl, ⟨q1, fun arr i b _ hb => hu arr i b hb⟩, q2⟩

/-- Decrypting: the data by value; only the letter's data changes. -/
theorem memDecryptAt_spec {P : Prims} (hP : P.Sizes) (s : Session) (st : SState) (k : ToolInst) (material : List Bytes)
    (off : Nat) {m : MemLetter} {h h' : Heap} (hd : m.2.Wf h) {st' : SState} {r : Res Slice}
    (he : memDecryptAt P s st k material off h m = (h', st', r)) :
    decryptLetter P s st k material off (m.value h) = (st', resRead h' r) ∧ (OnlyChanged h h' m.2 ∧ h.arrays.length ≤ h'.arrays.length) ∧
    ∀ d, r = .ok d → d.Wf h' ∧ d.arr = m.2.arr ∧ d.off = m.2.off ∧ d.len ≤ m.2.len := by
  unfold memDecryptAt at he
  unfold decryptLetter
  have e : (m.value h).nonce = m.1.nonce := rfl
  rw [e]
  generalize setupTools P s k m.1.nonce material off s.stateful st.tools = sp at he
  obtain ⟨tools, res⟩ := sp
  cases res with
  | error e =>
    simp only at he
    cases he
    exact ⟨rfl, ⟨only_of_unchanged _ (unchanged_refl h), Nat.le_refl _⟩, fun m hm => (by cases hm)⟩
  | ok u =>
    simp only at he ⊢
    generalize hm : memUnprotect P s tools h m = mp at he
    obtain ⟨h1, r1⟩ := mp
    simp only at he
    cases he
    obtain ⟨p1, p2, p3⟩ := unprotect_refines hP hd hm
    exact ⟨by rw [p1], p2, p3⟩

/-! ## Close and Open -/

theorem memWireCloseCopied_spec {P : Prims} (hP : P.Sizes) (hS : P.KdfSized) (cfg : Config) (rng : Rng) {s : Session} (hq : s.queue .cipher = [])
    (st : SState) {h h' : Heap} {m m' : MemWire} (hi : MemInv h m) {d : Slice} (hd : d.Wf h) (ht : d.cap = d.len) (ha : d.arr ∉ m.own.map (·.arr))
    {st' : SState} {r : Res MemLetter} (he : memWireCloseCopied P cfg rng s st h m d = (h', (st', m'), r)) :
    s.wireClose P cfg rng st (m.value h) (h.read d) = ((st', m'.value h'), resValue h' r) ∧ MemStep h m h' m' [] ∧
    ∀ x, r = .ok x → x.2.arr ∉ m'.own.map (·.arr) := by
  unfold memWireCloseCopied at he
  unfold Session.wireClose
  cases hr : randomBytes rng 0 s.nonceSize with
  | error e =>
    rw [hr] at he
    simp only at he
    cases he
    exact ⟨rfl, .refl hi, fun x hx => (by cases hx)⟩
  | ok nonce =>
    rw [hr] at he
    simp only at he ⊢
    cases hk : s.kdf with
    | none =>
      rw [hk] at he
      simp only at he ⊢
      split at he
      · rename_i hc
        rw [if_pos hc]
        cases he
        exact ⟨rfl, .refl hi, fun x hx => (by cases hx)⟩
      · rename_i hc
        rw [if_neg hc]
        have hv := memSign_value P rng s st 1 [] h (wireHeader s (m.value h) nonce, d)
        generalize hsg : memSign P rng s st 1 [] h (wireHeader s (m.value h) nonce, d) = sg at he hv
        obtain ⟨st2, r2⟩ := sg
        simp only at he
        cases he
        have e : ({ wireHeader s (m.value h) nonce with data := h.read d } : Letter) = MemLetter.value h (wireHeader s (m.value h) nonce, d) := rfl
        refine ⟨by rw [e, hv], .refl hi, fun x hx => ?_⟩
        rw [hx] at hsg
        unfold memSign at hsg
        split at hsg
        · cases hsg
        · cases hsg; exact ha
    | some k =>
      rw [hk] at he
      simp only at he ⊢
      generalize hsh : memSendHandshake P cfg rng s k h m nonce = sh at he
      obtain ⟨h1, m1, r1⟩ := sh
      obtain ⟨s1, s2⟩ := memSendHandshake_spec hS cfg rng s k hi nonce hsh
      rw [s1]
      have hdl := wf_lt hd
      have ha1 : d.arr ∉ m1.own.map (·.arr) := by
        intro hm
        obtain ⟨x, hx, hxe⟩ := List.mem_map.mp hm
        rcases s2.own x hx with h2 | h2
        · exact ha (hxe ▸ h2)
        · omega
      have hdw := wf_kept s2.kept hd ha
      have hdr := (held_kept s2.kept (wf_held hd) ha).1
      cases r1 with
      | error e =>
        simp only at he
        cases he
        exact ⟨rfl, s2, fun x hx => (by cases hx)⟩
      | ok x =>
        simp only at he ⊢
        generalize hen : memEncryptAt P s st k x.material x.off { wireHeader s (m.value h) nonce with keys := x.keys, applyKeys := x.apply } h1 d = en at he
        obtain ⟨h2, st2, r2⟩ := en
        obtain ⟨e1, e2, e3⟩ := memEncryptAt_spec hP hq st k x.material x.off _ hdw ht hen
        rw [hdr] at e1
        rw [e1]
        obtain ⟨t1, t2⟩ := kept_step s2.inv e2
        cases r2 with
        | error e =>
          simp only at he
          cases he
          exact ⟨by simp only [resValue]; rw [t2], s2.trans t1, fun x hx => (by cases hx)⟩
        | ok l =>
          simp only at he
          have hv := memSign_value P rng s st2 1 (s.adOf l.1) h2 l
          generalize hsg : memSign P rng s st2 1 (s.adOf l.1) h2 l = sg at he hv
          obtain ⟨st3, r3⟩ := sg
          simp only at he
          have e : s.adOf (MemLetter.value h2 l) = s.adOf l.1 := rfl
          cases he
          refine ⟨by simp only [resValue]; rw [e, hv, t2]; rfl, s2.trans t1, fun x hx hm => ?_⟩
          have hx2 : x.2 = l.2 := by
            rw [hx] at hsg
            unfold memSign at hsg
            split at hsg
            · cases hsg
            · cases hsg; rfl
          rw [hx2] at hm
          rcases e3 l rfl with h4 | h4
          · exact ha1 (h4 ▸ hm)
          · obtain ⟨y, hy, hye⟩ := List.mem_map.mp hm
            have := wf_lt (s2.inv.wf y hy)
            omega

theorem memWireClose_spec {P : Prims} (hP : P.Sizes) (hS : P.KdfSized) (cfg : Config) (rng : Rng) {s : Session} (hq : s.queue .cipher = [])
    (st : SState) {h h' : Heap} {m m' : MemWire} (hi : MemInv h m) {d : Slice} (hd : d.Wf h) (ha : d.arr ∉ m.own.map (·.arr))
    {st' : SState} {r : Res MemLetter} (he : memWireClose P cfg rng s st h m d = (h', (st', m'), r)) :
    s.wireClose P cfg rng st (m.value h) (h.read d) = ((st', m'.value h'), resValue h' r) ∧ MemStep h m h' m' [] ∧
    ∀ x, r = .ok x → x.2.arr ∉ m'.own.map (·.arr) := by
  obtain ⟨c1, c2, c3, c4, c5⟩ := memCopy_spec hd
  have hk : KeptBut [] h (memCopy h d).1 := by
    refine ⟨?_, fun arr i b _ hb => c4 arr i b hb⟩
    unfold memCopy
    split
    · exact (Grown.alloc h _).le
    · exact Nat.le_refl _
  obtain ⟨t1, t2⟩ := kept_step hi hk
  have ha' : (memCopy h d).2.arr ∉ m.own.map (·.arr) := by
    rcases c5 with ⟨h1, _⟩ | h1
    · rw [h1]; exact ha
    · intro hm
      obtain ⟨y, hy, hye⟩ := List.mem_map.mp hm
      have := wf_lt (hi.wf y hy)
      omega
  unfold memWireClose at he
  obtain ⟨s1, s2, s3⟩ := memWireCloseCopied_spec hP hS cfg rng hq st t1.inv c1 c2 ha' he
  rw [t2, c3] at s1
  exact ⟨s1, t1.trans s2, s3⟩

/-- A change of one slice, apart from all memory of the session. -/
theorem changed_step {h h' : Heap} {m : MemWire} (hi : MemInv h m) {d : Slice} (ho : OnlyChanged h h' d) (hg : h.arrays.length ≤ h'.arrays.length)
    (ha : d.arr ∉ m.own.map (·.arr)) (hr : ∀ r ∈ m.refs, r.Apart d) : MemInv h' m ∧ m.value h' = m.value h := by
  have hne : ∀ x ∈ m.own, x.arr ≠ d.arr := fun x hx e => ha (List.mem_map.mpr ⟨x, hx, e⟩)
  refine ⟨⟨fun x hx => wf_unchanged (hi.wf x hx) ho hg (hne x hx), hi.nodup, fun r hx => (apart_same (hi.held r hx) ho hg (hr r hx)).2, hi.out⟩, ?_⟩
  exact value_same (fun x hx => (apart_same (wf_held (hi.wf x hx)) ho hg (.inl (hne x hx))).1)
    (fun r hx => (apart_same (hi.held r hx) ho hg (hr r hx)).1)

theorem memWireOpen_spec {P : Prims} (hP : P.Sizes) (hS : P.KdfSized) (cfg : Config) {s : Session} (hke : (s.queue .keyEncapsulation).isEmpty = true)
    (st : SState) {h h' : Heap} {m m' : MemWire} (hi : MemInv h m) {l : WireLetter} (hl : LetterOut h m l) (hd : l.data.Wf h)
    (ha : l.data.arr ∉ m.own.map (·.arr)) (hr : ∀ r, r ∈ m.refs ∨ r ∈ l.keys → r.Apart l.data) {st' : SState} {r : Res Slice}
    (he : memWireOpen P cfg s st h m l = (h', (st', m'), r)) :
    s.wireOpen P cfg st (m.value h) (l.value h) = ((st', m'.value h'), resRead h' r) ∧ MemInv h' m' ∧
    (∀ r ∈ m'.refs, r ∈ m.refs ∨ r ∈ l.keys) ∧ h.arrays.length ≤ h'.arrays.length ∧
    (∀ arr i b, arr ∉ m.own.map (·.arr) → ¬ (arr = l.data.arr ∧ l.data.off ≤ i ∧ i < l.data.off + l.data.len) → byteAt h arr i = some b →
      byteAt h' arr i = some b) ∧
    (∀ x ∈ m'.own, x.arr ∈ m.own.map (·.arr) ∨ h.arrays.length ≤ x.arr) ∧
    (∀ x, r = .ok x → x.Wf h' ∧ x.arr = l.data.arr ∧ x.off = l.data.off ∧ x.len ≤ l.data.len) := by
  unfold memWireOpen at he
  unfold Session.wireOpen
  have h0 : MemStep h m h m [] := .refl hi
  have fin : ∀ {q : Res Slice}, (∀ x, q = .ok x → x = l.data) → MemInv h m ∧ (∀ r ∈ m.refs, r ∈ m.refs ∨ r ∈ l.keys) ∧ h.arrays.length ≤ h.arrays.length ∧
      (∀ arr i b, arr ∉ m.own.map (·.arr) → ¬ (arr = l.data.arr ∧ l.data.off ≤ i ∧ i < l.data.off + l.data.len) → byteAt h arr i = some b →
        byteAt h arr i = some b) ∧ (∀ x ∈ m.own, x.arr ∈ m.own.map (·.arr) ∨ h.arrays.length ≤ x.arr) ∧
      (∀ x, q = .ok x → x.Wf h ∧ x.arr = l.data.arr ∧ x.off = l.data.off ∧ x.len ≤ l.data.len) := fun hq =>
    ⟨hi, fun r hr => .inl hr, Nat.le_refl _, fun _ _ _ _ _ h => h, h0.own, fun x hx => by rw [hq x hx]; exact ⟨hd, rfl, rfl, Nat.le_refl _⟩⟩
  generalize hcs : checkSignatures P s st (l.value h) = cs at he
  obtain ⟨st1, r1⟩ := cs
  cases r1 with
  | error e =>
    simp only at he
    cases he
    exact ⟨rfl, fin (fun x hx => (by cases hx))⟩
  | ok u =>
    simp only at he ⊢
    cases hk : s.kdf with
    | none =>
      rw [hk] at he
      simp only at he ⊢
      split at he
      · rename_i hc
        rw [if_pos hc]
        cases he
        exact ⟨rfl, fin (fun x hx => (by cases hx))⟩
      · rename_i hc
        rw [if_neg hc]
        cases he
        exact ⟨rfl, fin (fun x hx => by cases hx; rfl)⟩
    | some k =>
      rw [hk] at he
      simp only at he ⊢
      generalize hsh : memRecvHandshake P cfg s k h m l = sh at he
      obtain ⟨h1, m1, r1⟩ := sh
      obtain ⟨s1, s2⟩ := memRecvHandshake_spec hS cfg hke k hi hl hsh
      rw [s1]
      cases r1 with
      | error e =>
        simp only at he
        cases he
        exact ⟨rfl, s2.inv, s2.refs, s2.kept.1, fun arr i b h1 _ h3 => s2.kept.2 arr i b h1 h3, s2.own, fun x hx => (by cases hx)⟩
      | ok x =>
        obtain ⟨mat, off⟩ := x
        simp only at he ⊢
        have hdw := wf_kept s2.kept hd ha
        have hdr := (held_kept s2.kept (wf_held hd) ha).1
        have hkr : ∀ r ∈ l.keys, h1.read r = h.read r := fun r hr => (held_kept s2.kept (hl r hr).1 (hl r hr).2).1
        have hval : MemLetter.value h1 ({ l.hdr with keys := (l.value h1).keys }, l.data) = l.value h := by
          simp only [MemLetter.value, WireLetter.value, hdr, Letter.mk.injEq, true_and, and_true]
          have : ∀ (ks : List Seal) (rs : List Slice), (∀ r ∈ rs, h1.read r = h.read r) →
              List.zipWith (fun (sl : Seal) r => { sl with value := h1.read r }) ks rs = List.zipWith (fun (sl : Seal) r => { sl with value := h.read r }) ks rs := by
            intro ks
            induction ks with
            | nil => intro rs _; rfl
            | cons a ks ih =>
              intro rs hrs
              cases rs with
              | nil => rfl
              | cons b rs =>
                simp only [List.zipWith_cons_cons]
                rw [hrs b (by simp), ih rs (fun r hr => hrs r (by simp [hr]))]
          exact this _ _ hkr
        generalize hde : memDecryptAt P s st1 k mat off h1 ({ l.hdr with keys := (l.value h1).keys }, l.data) = de at he
        obtain ⟨h2, st2, r2⟩ := de
        obtain ⟨e1, e2, e3⟩ := memDecryptAt_spec hP s st1 k mat off (m := ({ l.hdr with keys := (l.value h1).keys }, l.data)) hdw hde
        rw [hval] at e1
        rw [e1]
        have ha1 : l.data.arr ∉ m1.own.map (·.arr) := by
          intro hm
          obtain ⟨x, hx, hxe⟩ := List.mem_map.mp hm
          rcases s2.own x hx with h2 | h2
          · exact ha (hxe ▸ h2)
          · have := wf_lt hd; omega
        simp only at he
        cases he
        obtain ⟨t1, t2⟩ := changed_step s2.inv e2.1 e2.2 ha1 (fun r hx => hr r (s2.refs r hx))
        refine ⟨by rw [t2], t1, s2.refs, Nat.le_trans s2.kept.1 e2.2, fun arr i b h1 h2 h3 => ?_, s2.own, e3⟩
        exact e2.1 arr i b (s2.kept.2 arr i b h1 h3) h2

end Jess
