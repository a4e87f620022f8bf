import Verif.Lemmas.WireSession

/-! The first message of a wire session. -/

namespace Jess

open Requirements

/-- A session that can open a wire conversation with someone who holds the counterparts of its recipients. -/
structure WireBase (P : Prims) (pair : Bytes → Bytes → Bytes → Prop) (cfg : Config) (w : World) (reg : List Suite) (s : Session)
    (k : ToolInst) : Prop where
  session : newSession P cfg s.env = .ok s
  nodup : (s.insts.map (·.info.name)).Nodup
  kx1 : (s.queue .keyExchange).length ≤ 1
  ke1 : (s.queue .keyEncapsulation).length ≤ 1
  version : s.env.version = 1
  suite : getSuite reg s.env.suiteID = some s.suite
  suiteID : s.env.suiteID ≠ []
  level : demandedLevel cfg 0 ≤ demandedLevel cfg s.env.securityLevel
  ids : ∀ r ∈ s.env.recipients, r.id ≠ []
  counterparts : Counterparts P pair w s
  provides : ∀ a ∈ full.remove SenderAuthentication, a ∈ s.suite.provides
  wire : initWire s = .ok {}
  kdf : s.kdf = some k

theorem initWire_spec {s : Session} {w : Wire} (h : initWire s = .ok w) :
    w = {} ∧ (∀ a ∈ wireRequirements, a ∈ s.reqs) ∧ s.queue .signing = [] ∧ s.queue .passDerivation = [] ∧
    ofScheme s.env.secrets schemeKey = [] := by
  simp only [initWire, bind_ok_iff, compliance_iff s.reqs] at h
  obtain ⟨_, h1, h2⟩ := h
  split at h2
  · cases h2
  · rename_i hno
    split at h2
    · cases h2
    · rename_i hk
      cases h2
      simp only [List.any_eq_true, not_exists, not_and, Bool.or_eq_true, beq_iff_eq, not_or] at hno
      refine ⟨rfl, h1, ?_, ?_, by simpa using hk⟩
      · rw [Session.queue, List.filter_eq_nil_iff]; intro t ht; simpa using (hno t ht).2
      · rw [Session.queue, List.filter_eq_nil_iff]; intro t ht; simpa using (hno t ht).1

namespace WireBase

variable {P : Prims} {pair : Bytes → Bytes → Bytes → Prop} {cfg : Config} {wo : World} {reg : List Suite} {s : Session} {k : ToolInst}

theorem insts (B : WireBase P pair cfg wo reg s k) : ∀ t ∈ s.insts, getTool t.info.name = some t.info ∧ t.info.name ≠ [] ∧
    t.info.name ≠ schemeKey ∧ t.info.name ≠ schemePassword := by
  intro t ht
  obtain ⟨tid, _, hmk⟩ := inst_tool B.session ht
  have := (makeInst_spec hmk).2.1
  exact ⟨getTool_name _ this, (toolTable_nonneg t.info this).2⟩

theorem signing (B : WireBase P pair cfg wo reg s k) : s.queue .signing = [] := (initWire_spec B.wire).2.2.1
theorem keys (B : WireBase P pair cfg wo reg s k) : ofScheme s.env.secrets schemeKey = [] := (initWire_spec B.wire).2.2.2.2

theorem secrets (B : WireBase P pair cfg wo reg s k) : s.env.secrets = [] := by
  obtain ⟨_, _, _, hp, hk⟩ := initWire_spec B.wire
  have hu := no_signet_ignored P cfg s.env s B.session B.nodup
  cases hs : s.env.secrets with
  | nil => rfl
  | cons a as =>
    exfalso
    rcases hu.secrets a (by simp [hs]) with h | ⟨_, t, ht, h⟩
    · have : a ∈ ofScheme s.env.secrets schemeKey := (mem_ofScheme (by decide) a).mpr ⟨by simp [hs], h⟩
      rw [hk] at this; simp at this
    · have : t ∈ s.queue .passDerivation := mem_queue.mpr ⟨ht, h⟩
      rw [hp] at this; simp at this

theorem senders (B : WireBase P pair cfg wo reg s k) : s.env.senders = [] := by
  have hu := no_signet_ignored P cfg s.env s B.session B.nodup
  cases hs : s.env.senders with
  | nil => rfl
  | cons a as =>
    exfalso
    obtain ⟨t, ht, h, _⟩ := hu.senders a (by simp [hs])
    have : t ∈ s.queue .signing := mem_queue.mpr ⟨ht, h⟩
    rw [B.signing] at this; simp at this

theorem passwords (B : WireBase P pair cfg wo reg s k) : ofScheme s.env.secrets schemePassword = [] := by
  rw [B.secrets]; rfl

theorem good (B : WireBase P pair cfg wo reg s k) {p : Purpose} (hp : p.usesSignets = true) {x : ToolInst × Signet} (hx : x ∈ s.pairs p) :
    GoodTool x.1 := by
  obtain ⟨t, ht, hx⟩ := List.mem_flatMap.mp hx
  obtain ⟨r, hr, rfl⟩ := List.mem_map.mp hx
  obtain ⟨m1, m2⟩ := mem_queue.mp ht
  obtain ⟨t1, t2, t3, t4⟩ := B.insts t m1
  exact ⟨t1, by rw [m2]; exact hp, t3, t4⟩

end WireBase

/-! ## Close and Open in terms of the handshake -/

theorem wireClose_ok {P : Prims} {pair} (hP : P.Correct pair) {cfg : Config} {rng : Rng} {s : Session} {k : ToolInst}
    (hk : s.kdf = some k) (hsg : s.queue .signing = []) {st st' : SState} {w w' : Wire} {data : Bytes} {l : Letter} (hc : Clean s st)
    (h : s.wireClose P cfg rng st w data = ((st', w'), .ok l)) :
    ∃ w1 out c mat off, sendSwitch P cfg rng s w l.nonce = (w1, .ok out) ∧
      ratchet P s k w1.msgNo w1.sendCarry l.nonce out.material = .ok (c, mat, off) ∧ w' = w1.sent c out.burn ∧
      Sealed P s k mat off l data ∧ Clean s st' ∧
      ∃ d m, l = { wireHeader s w l.nonce with keys := out.keys, applyKeys := out.apply, data := d, mac := m } := by
  unfold Session.wireClose at h
  split at h
  · cases h
  · rename_i nonce hn
    rw [hk] at h
    simp only at h
    unfold sendHandshake at h
    generalize hsw : sendSwitch P cfg rng s w nonce = x at h
    obtain ⟨w1, r⟩ := x
    cases r with
    | error e => cases h
    | ok out =>
      simp only at h
      cases hr : ratchet P s k w1.msgNo w1.sendCarry nonce out.material with
      | error e => rw [hr] at h; cases h
      | ok y =>
        obtain ⟨c, mat, off⟩ := y
        rw [hr] at h
        simp only at h
        generalize henc : encryptLetter P s st k mat off { wireHeader s w nonce with keys := out.keys, applyKeys := out.apply } data = z at h
        obtain ⟨st1, r2⟩ := z
        cases r2 with
        | error e => cases h
        | ok l1 =>
          simp only [signLetter, hsg, List.isEmpty_nil, if_true, Prod.mk.injEq, Except.ok.injEq] at h
          obtain ⟨⟨rfl, rfl⟩, rfl⟩ := h
          obtain ⟨⟨d, m, hl⟩, hse, hcl⟩ := encryptLetter_sealed hP hc henc
          have hln : l1.nonce = nonce := by rw [hl]; unfold wireHeader; split <;> rfl
          subst hln
          exact ⟨w1, out, c, mat, off, hsw, hr, rfl, hse, hcl, d, m, hl⟩

theorem wireOpen_ok {P : Prims} {cfg : Config} {s : Session} (eo : Envelope) {k : ToolInst} (hk : s.kdf = some k)
    (hsg : s.queue .signing = []) {st : SState} {w w1 : Wire} {l : Letter} {d : Bytes} (hc : Clean s st) {m : List Bytes} {burn : Bool}
    (h1 : recvSwitch P cfg { s with env := eo } w l = (w1, .ok (m, burn))) {c : Bytes} {mat : List Bytes} {off : Nat}
    (h2 : ratchet P s k w1.msgNo w1.recvCarry l.nonce m = .ok (c, mat, off)) (h3 : Sealed P s k mat off l d) :
    ∃ st', Clean s st' ∧ ({ s with env := eo } : Session).wireOpen P cfg st w l = ((st', w1.received c burn), .ok d) := by
  unfold Session.wireOpen
  have e1 : ({ s with env := eo } : Session).queue .signing = [] := hsg
  have e2 : ({ s with env := eo } : Session).kdf = some k := hk
  have e3 : ratchet P { s with env := eo } k w1.msgNo w1.recvCarry l.nonce m = .ok (c, mat, off) := h2
  simp only [checkSignatures, e1, List.isEmpty_nil, if_true, e2, recvHandshake, h1, e3]
  have hcl := (decryptLetter_clean (P := P) ((clean_env eo).mpr hc) k mat off l).1
  exact ⟨_, (clean_env eo).mp hcl, by rw [h3 eo st hc]⟩

theorem ratchet_zero (P : Prims) (s : Session) (k : ToolInst) (c c' nonce : Bytes) (m : List Bytes) :
    ratchet P s k 0 c nonce m = ratchet P s k 0 c' nonce m := rfl

theorem ratchet_material {P : Prims} {s : Session} {k : ToolInst} {c nonce : Bytes} {m : List Bytes} {x : Bytes × List Bytes × Nat}
    (h : ratchet P s k 0 c nonce m = .ok x) : m ≠ [] := by
  rintro rfl
  simp only [ratchet, if_true, kdfInitOK] at h
  split at h <;> simp at h

theorem All2.zip2 {α β γ δ ε : Type} {R : α → β → Prop} {S : α → γ → Prop} {T : δ → ε → Prop} {f : α → β → δ} {g : γ → β → ε}
    {as : List α} {bs : List β} {cs : List γ} (h1 : All2 R as bs) (h2 : All2 S as cs)
    (H : ∀ a b c, R a b → S a c → T (f a b) (g c b)) : All2 T (List.zipWith f as bs) (List.zipWith g cs bs) := by
  induction h1 generalizing cs with
  | nil => cases h2; exact .nil
  | cons hr _ ih =>
    cases h2 with
    | cons hs hs' => exact .cons (H _ _ _ hr hs) (ih hs')

theorem All2.zip3 {α β γ ε : Type} {R : α → β → Prop} {S : α → γ → Prop} {T : β → ε → Prop} {g : γ → β → ε}
    {as : List α} {bs : List β} {cs : List γ} (h1 : All2 R as bs) (h2 : All2 S as cs)
    (H : ∀ a b c, R a b → S a c → T b (g c b)) : All2 T bs (List.zipWith g cs bs) := by
  induction h1 generalizing cs with
  | nil => cases h2; exact .nil
  | cons hr _ ih =>
    cases h2 with
    | cons hs hs' => exact .cons (H _ _ _ hr hs) (ih hs')

theorem envelope_drop_anon {reg : List Suite} {reqs : Option Requirements} {l : Letter} {rs ext : List Seal} (hk : l.keys = rs ++ ext)
    (he : ∀ sl ∈ ext, sl.id = []) : l.envelope reg reqs = ({ l with keys := rs } : Letter).envelope reg reqs := by
  have f : ∀ q : Seal → Bool, ext.filter (fun s => !s.id.isEmpty && q s) = [] := by
    intro q
    rw [List.filter_eq_nil_iff]
    intro sl hs
    rw [he sl hs]; simp
  unfold Letter.envelope
  rw [hk, List.filter_append, List.filter_append, f, f, List.append_nil, List.append_nil]

/-- What the client and the server hold after the first message. -/
theorem first_message {P : Prims} {pair} (hP : P.Correct pair) {cfg : Config} {wo : World} {reg : List Suite} {s : Session}
    {k : ToolInst} (B : WireBase P pair cfg wo reg s k) {rng : Rng} {b : Bool} {st st' : SState} {w' : Wire} {data : Bytes} {l : Letter}
    (hc : Clean s st) (h : s.wireClose P cfg rng st { server := b } data = ((st', w'), .ok l)) :
    ∃ C0 kx ke eo, w' = { server := b, msgNo := 1, sendCarry := C0, recvCarry := C0, kx := kx, ke := ke, hs := .awaitKey } ∧
      Clean s st' ∧ kx.length + ke.length ≠ 0 ∧ l.wireCorrespondence P cfg wo reg = .ok ({ s with env := eo }, {}) ∧
      ∀ b', ∃ stv vkx vke, Clean s stv ∧ All2 (MatchKX P pair) kx vkx ∧ All2 (MatchKE P pair) ke vke ∧
        ({ s with env := eo } : Session).wireOpen P cfg ({ s with env := eo } : Session).initState { server := b' } l =
          ((stv, { server := b', msgNo := 1, sendCarry := C0, recvCarry := C0, kx := vkx, ke := vke, hs := .sendKey }), .ok data) := by
  obtain ⟨w1, out, c, mat, off, hsw, hr, hw, hse, hcl, d, m, hl⟩ := wireClose_ok hP B.kdf B.signing hc h
  simp only [sendSwitch] at hsw
  generalize hset : wSetupClosing P cfg rng s l.nonce [] [] = x at hsw
  obtain ⟨x, r⟩ := x
  cases r with
  | error e => cases hsw
  | ok u =>
    simp only [initiate, true_or, if_true] at hsw
    obtain ⟨hkm, rs', ids, hcol, hxk, hxe, hids⟩ := wSetupClosing_spec B.kx1 B.ke1 B.keys B.passwords hset
    have hksome : ∀ p ∈ x.kx, p.signet.isSome = true := by
      intro p hp
      rw [hxk] at hp
      obtain ⟨i, hi, rfl⟩ := List.mem_iff_getElem.mp hp
      simp
    rw [genKX_all (P := P) (rng := rng) (ctr := x.km.ctr) hksome] at hsw
    simp only at hsw
    generalize hg : genKE P rng (x.km.ctr + x.kx.length) x.ke = y at hsw
    obtain ⟨ke, r⟩ := y
    cases r with
    | error e => cases hsw
    | ok ext =>
      simp only [Prod.mk.injEq, Except.ok.injEq] at hsw
      obtain ⟨rfl, rfl⟩ := hsw
      obtain ⟨xs, e1, e2, e3⟩ := genKE_none hP (pair := pair) (by
        intro p hp
        rw [hxe] at hp
        obtain ⟨q, hq, rfl⟩ := List.mem_map.mp hp
        exact ⟨rfl, B.good rfl hq⟩) hg
      obtain ⟨⟨rs, hrs1, hrs2⟩, hmat⟩ := same_material hP B.insts hkm
      rw [B.keys, B.passwords] at hrs1
      simp only [keySeals, pwSeals, List.map_nil, List.nil_append] at hrs1
      simp only [List.append_nil] at hl
      have hlk : l.keys = rs ++ ext := by rw [hl, ← hrs1]
      have hlv : l.version = 1 := by rw [hl]; exact B.version
      have hli : l.suiteID = s.env.suiteID := by rw [hl]; rfl
      have hls : l.signatures = [] := by rw [hl]; rfl
      have hext : ∀ sl ∈ ext, sl.id = [] := by
        intro sl hs
        rw [e2] at hs
        obtain ⟨q, hq, rfl⟩ := List.mem_map.mp hs
        obtain ⟨_, _, h⟩ := e3.mem_right hq
        exact h.2.1
      have hRm : ∀ x ∈ toolPairs s.rcptTools (fun t => ofScheme s.env.recipients t.info.name), x.2.id ≠ [] := by
        intro x hx
        obtain ⟨t, ht, hx⟩ := List.mem_flatMap.mp hx
        obtain ⟨r, hr, rfl⟩ := List.mem_map.mp hx
        have ht' : t ∈ s.insts := by
          rcases List.mem_append.mp ht with h | h
          · exact (mem_queue.mp h).1
          · exact (mem_queue.mp h).1
        exact B.ids r ((mem_ofScheme (B.insts t ht').2.1 r).mp hr).1
      have hidr : ∀ sl ∈ rs, sl.id ≠ [] := by
        intro sl hs
        obtain ⟨p, hp, h⟩ := hrs2.mem_right hs
        rw [h.2]; exact hRm p hp
      -- the server's session
      obtain ⟨e0, eo, g1, g2, g3, g4, g5, _, _, _⟩ := opener_session (reqs := some (full.remove SenderAuthentication))
        (l := { l with keys := rs }) B.session B.nodup B.suite B.suiteID B.level
        ⟨by rw [B.secrets]; simp, by rw [B.senders]; simp, B.ids⟩ (Or.inl B.keys) B.counterparts
        (by simpa using B.provides) hlv hli (rs := rs) (by rw [B.keys, B.passwords]; rfl) hrs2
        (by rw [hls]; unfold Session.signerPairs; rw [B.signing]; exact .nil)
      rw [← envelope_drop_anon hlk hext] at g1
      have hK : ofScheme eo.secrets schemeKey = [] := by
        rw [B.keys] at g3; exact List.length_eq_zero_iff.mp g3.length.symm
      have hW : ofScheme eo.secrets schemePassword = [] := by
        rw [B.passwords] at g4; exact List.length_eq_zero_iff.mp g4.length.symm
      have hcorr : l.wireCorrespondence P cfg wo reg = .ok ({ s with env := eo }, {}) := by
        unfold Letter.wireCorrespondence Jess.wireCorrespondence
        have hi : initWire { s with env := eo } = .ok {} := by
          have := B.wire
          unfold initWire at this ⊢
          rw [B.keys] at this
          rw [show ({ s with env := eo } : Session).env.secrets = eo.secrets from rfl, hK]
          exact this
        rw [g1, ok_bind, g2, ok_bind, hi, ok_bind]
      have hom := hmat eo l ext (by rw [hlk, ← hrs1]) rfl (by rw [B.keys, hK]; exact .nil) (by rw [B.passwords, hW]; exact .nil) g5
      obtain ⟨y, y1, y2, y3, y4⟩ := wSetupOpening_spec (s := { s with env := eo }) B.kx1 B.ke1 hK hW hom
      have rel : ∀ p, (∀ t ∈ s.queue p, t ∈ s.rcptTools) →
          All2 (fun x y => x.1 = y.1 ∧ PrivOf pair x.2 y.2) (s.pairs p) (({ s with env := eo } : Session).pairs p) := by
        intro p hp
        exact all2_toolPairs (R := fun x o => PrivOf pair x.2 o) (fun t => ofScheme s.env.recipients t.info.name)
          (fun t => ofScheme eo.recipients t.info.name) (s.queue p) (fun t ht => g5 t (hp t ht))
      have relX := rel .keyExchange (fun t ht => List.mem_append.mpr (Or.inl ht))
      have relE := rel .keyEncapsulation (fun t ht => List.mem_append.mpr (Or.inr ht))
      have colA := collectFrom_all2 (R := fun (p : ToolInst × Signet) (r : Signet × Bytes × Seal) =>
          GoodTool p.1 ∧ ∃ pub, HasPair pair p.1 r.1 pub ∧ LoadsTo P p.1 r.2.2.value pub) hcol (by
        intro j p r hp hr
        exact ⟨B.good rfl hp, kxOffer_signet hP (B.good rfl hp) hr⟩)
      have lX := relX.length
      have lE := relE.length
      have lA := colA.length
      have lG := e3.length
      have lY := y3.length
      have lR := hrs2.length
      have hext' : ext.length = (s.pairs .keyEncapsulation).length := by
        rw [e2, List.length_map, ← lG, hxe, List.length_map]
      have hrsl : rs.length = (s.pairs .keyExchange).length + (s.pairs .keyEncapsulation).length := by
        rw [← lR]; unfold Session.rcptTools
        rw [toolPairs_append, List.length_append, ← pairs_eq, ← pairs_eq]
      have hkxl : x.kx.length = (s.pairs .keyExchange).length := by
        rw [hxk, List.length_zipWith, ← lA, Nat.min_self]
      have hkel : ke.length = (s.pairs .keyEncapsulation).length := by
        rw [e1, List.length_map, ← lG, hxe, List.length_map]
      have hne : x.kx.length + ke.length ≠ 0 := by
        rw [hkxl, hkel, ← hrsl]
        intro h0
        have hmn := ratchet_material hr
        have p1 : s.pairs .keyExchange = [] := List.length_eq_zero_iff.mp (by omega)
        have p2 : s.pairs .keyEncapsulation = [] := List.length_eq_zero_iff.mp (by omega)
        simp only [closingMaterial, B.keys, B.passwords, p1, p2, collectFrom, ok_bind, List.map_nil, List.append_nil] at hkm
        have := Except.ok.inj hkm
        apply hmn
        show x.km.material = []
        rw [← this]
      have hrm : mat = x.km.material := by
        have := hr
        simp only [ratchet, if_true] at this
        split at this
        · cases this
        · split at this
          · split at this
            · cases this
            · cases this; rfl
          · cases this
      refine ⟨c, x.kx, ke, eo, by rw [hw]; rfl, hcl, hne, hcorr, ?_⟩
      intro b'
      -- the offer
      have hrec : recvSwitch P cfg { s with env := eo } { server := b' } l =
          ({ server := b', kx := List.zipWith (fun p sl => { p with peer := some (peerOf l.version p.tool sl.value) }) y.kx (rs'.map (fun r => r.2.2)),
             ke := List.zipWith (fun p sl => { p with signet := some (peerOf l.version p.tool sl.value) }) y.ke ext, hs := .sendKey },
            .ok (x.km.material, false)) := by
        have hkeys : l.keys = [] ++ rs'.map (fun r => r.2.2) ++ (ids ++ ext) := by
          rw [hlk, ← hrs1, hids]; simp
        have a1 := assignKX_ok (version := l.version) (ps := y.kx) hkeys (by simp only [List.length_map]; omega)
        have hkeys2 : l.keys = rs'.map (fun r => r.2.2) ++ ids ++ ext ++ [] := by rw [hkeys]; simp
        have a2 := assignKE_ok (version := l.version) (ps := y.ke) hkeys2
          (by rw [y4, List.length_map]; omega)
          (by intro sl hs; apply hidr; rw [← hrs1, hids]; simp [hs]) hext
        have hl1 : (rs'.map (fun r : Signet × Bytes × Seal => r.2.2)).length = y.kx.length := by simp only [List.length_map]; omega
        rw [hl1] at a2
        simp only [recvSwitch, y1, recvOffer]
        have z1 : l.keys.length ≠ 0 := by rw [hlk, List.length_append, hrsl]; omega
        have z2 : ¬ ((({ s with env := eo } : Session).queue .keyEncapsulation).isEmpty = true ∧ l.keys.length ≠ y.kx.length + y.ke.length) := by
          rintro ⟨q1, q2⟩
          have q3 : s.queue .keyEncapsulation = [] := List.isEmpty_iff.mp q1
          have q4 : (s.pairs .keyEncapsulation).length = 0 := by rw [pairs_eq, q3]; rfl
          apply q2
          rw [hlk, List.length_append, y4, List.length_map]
          omega
        rw [if_neg z1, if_neg z2]
        simp only [List.length_nil] at a1
        rw [a1]
        simp only
        rw [a2]
        simp only [y2]
      have hr' : ratchet P s k 0 [] l.nonce x.km.material = .ok (c, mat, off) := hr
      obtain ⟨stv, v1, v2⟩ := wireOpen_ok (s := s) (P := P) (cfg := cfg) eo B.kdf B.signing
        ((clean_env eo).mp (clean_init { s with env := eo })) hrec hr' hse
      refine ⟨stv, _, _, v1, ?_, ?_, v2⟩
      · rw [hxk, List.zipWith_map_right]
        refine All2.zip2 colA (All2.comp relX y3 (T := fun (p : ToolInst × Signet) (q : KxPair) => q.tool = p.1 ∧ q.signet = none) ?_) ?_
        · rintro p q r ⟨h1, _⟩ ⟨h2, h3⟩; exact ⟨by rw [h2, h1], h3⟩
        · rintro p r q ⟨gt, pub, hp, hld⟩ ⟨q1, q2⟩
          obtain ⟨pq, l1, l2⟩ := load_peer gt hld l.version
          exact ⟨q1, gt, q2, r.1, pub, peerOf l.version q.tool r.2.2.value, pq, rfl, hp, rfl, by rw [q1]; exact l1, l2⟩
      · dsimp only
        rw [e1, e2, List.zipWith_map_right, All2.map_left, y4]
        rw [hxe, All2.map_left] at e3
        refine All2.zip3 (e3.mono_mem (S := fun p z => GoodTool p.1 ∧ GenKE P pair { tool := p.1 } z.1 z.2)
            fun p hp z _ h => ⟨B.good rfl hp, h⟩)
          (cs := (({ s with env := eo } : Session).pairs .keyEncapsulation).map (fun p => ({ tool := p.1 } : KePair)))
          (S := fun p q => q.tool = p.1) ?_ ?_
        · rw [All2.map_right]; exact relE.mono fun a b h => h.1.symm
        · rintro p z q ⟨gt, z1, z2, g, pub, z3, z4, z5⟩ hq
          have hz : z.1.tool = p.1 := z1
          obtain ⟨pq, l1, l2⟩ := load_peer gt z5 l.version
          exact ⟨by rw [hz]; exact hq, by rw [hz]; exact gt, g, pub, peerOf l.version q.tool z.2.value, pq, z3, by rw [hz]; exact z4, rfl,
            by rw [hq]; exact l1, l2⟩

end Jess
