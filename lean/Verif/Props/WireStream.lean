import Verif.Props.WirePanic

/-!
# C58: wire sessions over a byte stream
-/

namespace Jess

open Requirements

/-! ## Specification -/

/-- Two parties of a wire session that are connected by a pair of byte streams. `clientSent`, `serverSent`: the data given to `Close` so far;
`clientGot`, `serverGot`: the data `Open` returned so far. -/
structure BNet where
  client : SState × Wire
  server : Option (Session × SState × Wire) := none
  c2s : Bytes := []
  s2c : Bytes := []
  clientSent : List Bytes := []
  serverGot : List Bytes := []
  serverSent : List Bytes := []
  clientGot : List Bytes := []

/-- What can happen: a party closes data and writes the letter to its stream with `ToWire`; or it reads one letter from the stream with
`LetterFromWire` and opens it. (`Sized`: nothing is longer than a Go slice can be.) -/
inductive BStep (P : Prims) (cfg : Config) (wo : World) (reg : List Suite) (s : Session) : BNet → BNet → Prop
  | clientSend {n : BNet} (rng : Rng) (data : Bytes) {x : SState × Wire} {l : Letter} :
      s.wireClose P cfg rng n.client.1 n.client.2 data = (x, .ok l) → l.Sized →
      BStep P cfg wo reg s n { n with client := x, c2s := n.c2s ++ l.toWire, clientSent := n.clientSent ++ [data] }
  | accept {n : BNet} (asServer : Bool) {l : Letter} {d rest : Bytes} {v : Session} {wv : Wire} {x : SState × Wire} :
      n.server = none → letterFromWire n.c2s = .ok (l, rest) → l.wireCorrespondence P cfg wo reg = .ok (v, wv) →
      v.wireOpen P cfg v.initState (if asServer then wv.asServer else wv) l = (x, .ok d) →
      BStep P cfg wo reg s n { n with server := some (v, x), c2s := rest, serverGot := n.serverGot ++ [d] }
  | serverSend {n : BNet} (rng : Rng) (data : Bytes) {v : Session} {y x : SState × Wire} {l : Letter} :
      n.server = some (v, y) → v.wireClose P cfg rng y.1 y.2 data = (x, .ok l) → l.Sized →
      BStep P cfg wo reg s n { n with server := some (v, x), s2c := n.s2c ++ l.toWire, serverSent := n.serverSent ++ [data] }
  | serverRecv {n : BNet} {v : Session} {y x : SState × Wire} {l : Letter} {d rest : Bytes} :
      n.server = some (v, y) → letterFromWire n.c2s = .ok (l, rest) → v.wireOpen P cfg y.1 y.2 l = (x, .ok d) →
      BStep P cfg wo reg s n { n with server := some (v, x), c2s := rest, serverGot := n.serverGot ++ [d] }
  | clientRecv {n : BNet} {x : SState × Wire} {l : Letter} {d rest : Bytes} :
      letterFromWire n.s2c = .ok (l, rest) → s.wireOpen P cfg n.client.1 n.client.2 l = (x, .ok d) →
      BStep P cfg wo reg s n { n with client := x, s2c := rest, clientGot := n.clientGot ++ [d] }

inductive BReach (P : Prims) (cfg : Config) (wo : World) (reg : List Suite) (s : Session) (n0 : BNet) : BNet → Prop
  | refl : BReach P cfg wo reg s n0 n0
  | step {n n' : BNet} : BReach P cfg wo reg s n0 n → BStep P cfg wo reg s n n' → BReach P cfg wo reg s n0 n'

/-- Everything that was sent to the server and not received yet is in the stream: nothing is missing, and if there is something, then the
next letter can be read from the stream and opens to the next data. -/
def ServerReads (P : Prims) (cfg : Config) (wo : World) (reg : List Suite) (n : BNet) : Prop :=
  (n.clientSent = n.serverGot ∧ n.c2s = []) ∨
  ∃ d ds l rest, n.clientSent = n.serverGot ++ d :: ds ∧ letterFromWire n.c2s = .ok (l, rest) ∧
    match n.server with
    | none => ∃ v wv, l.wireCorrespondence P cfg wo reg = .ok (v, wv) ∧
        (v.wireOpen P cfg v.initState wv l).2 = .ok d ∧ (v.wireOpen P cfg v.initState wv.asServer l).2 = .ok d
    | some (v, st, w) => (v.wireOpen P cfg st w l).2 = .ok d

/-- The same for the client. -/
def ClientReads (P : Prims) (cfg : Config) (s : Session) (n : BNet) : Prop :=
  (n.serverSent = n.clientGot ∧ n.s2c = []) ∨
  ∃ d ds l rest, n.serverSent = n.clientGot ++ d :: ds ∧ letterFromWire n.s2c = .ok (l, rest) ∧
    (s.wireOpen P cfg n.client.1 n.client.2 l).2 = .ok d

/-! ## Letters of wire sessions fit the format -/

section
variable {P : Prims} {cfg : Config} {s : Session}

/-- The pairs after the first message. -/
structure WFits (N : Nat) (w : Wire) : Prop where
  ke : w.ke = []
  hs : w.hs ≠ .init
  idle : w.hs ≠ .idle
  kx : w.kx.length ≤ N

/-- A letter that uses only what the wire format transports. -/
structure Transportable (l : Letter) : Prop where
  keys : l.keys.length ≤ 255
  signatures : l.signatures = []
  schemes : ∀ k ∈ l.keys, k.scheme = []
  suite : l.version = 0 → l.suiteID = []

theorem sent_fits {N : Nat} {w : Wire} (h : WFits N w) (c : Bytes) (b : Bool) : WFits N (w.sent c b) := by
  cases b with
  | false => exact ⟨h.ke, h.hs, h.idle, h.kx⟩
  | true =>
    refine ⟨?_, h.hs, h.idle, ?_⟩
    · show (List.map _ w.ke) = []
      rw [h.ke]; rfl
    · show (List.map _ w.kx).length ≤ N
      rw [List.length_map]; exact h.kx

theorem received_fits {N : Nat} {w : Wire} (h : WFits N w) (c : Bytes) (b : Bool) : WFits N (w.received c b) := by
  cases b with
  | false => exact ⟨h.ke, h.hs, h.idle, h.kx⟩
  | true =>
    refine ⟨?_, h.hs, h.idle, ?_⟩
    · show (List.map _ w.ke) = []
      rw [h.ke]; rfl
    · show (List.map _ w.kx).length ≤ N
      rw [List.length_map]; exact h.kx

theorem assignKX_length (v : UInt8) (keys : List Seal) : ∀ (ps : List KxPair) (i : Nat), (assignKX v keys i ps).1.length = ps.length
  | [], _ => rfl
  | p :: ps, i => by
    rw [assignKX]
    split
    · rfl
    · simp only [List.length_cons, assignKX_length v keys ps (i + 1)]

theorem sharedKeys_length : ∀ ps : List KxPair, (sharedKeys P ps).1.length = ps.length := fun ps => by
  have := congrArg List.length (sharedKeys_signets (P := P) ps)
  simpa using this

theorem genKX_fits (rng : Rng) : ∀ (ps : List KxPair) (c : Nat), (genKX P rng c ps).1.length = ps.length ∧
    ∀ a, (genKX P rng c ps).2 = .ok a → a.length ≤ ps.length ∧ ∀ k ∈ a, k.scheme = []
  | [], _ => ⟨rfl, fun a h => by cases h; exact ⟨Nat.le_refl _, by simp⟩⟩
  | p :: ps, c => by
    obtain ⟨i1, i2⟩ := genKX_fits rng ps (c + 1)
    rw [genKX]
    split
    · refine ⟨by simp [i1], fun a h => ?_⟩
      obtain ⟨j1, j2⟩ := i2 a h
      exact ⟨by simp only [List.length_cons]; omega, j2⟩
    · split
      · exact ⟨rfl, fun a h => by cases h⟩
      · refine ⟨by simp [i1], fun a h => ?_⟩
        cases hr : (genKX P rng (c + 1) ps).2 with
        | error e => rw [hr] at h; cases h
        | ok b =>
          rw [hr] at h
          cases h
          obtain ⟨j1, j2⟩ := i2 b hr
          refine ⟨by simp only [List.length_cons]; omega, fun k hk => ?_⟩
          rcases List.mem_cons.mp hk with rfl | hk
          · rfl
          · exact j2 k hk

theorem recvSwitch_fits {N : Nat} {w : Wire} {l : Letter} (h : WFits N w) : WFits N (recvSwitch P cfg s w l).1 := by
  unfold recvSwitch
  split
  · rename_i e; exact absurd e h.hs
  · rename_i e; exact absurd e h.idle
  · have key : WFits N (recvAnswer P w l).1 := by
      unfold recvAnswer
      rw [h.ke]
      split
      · exact h
      · split
        · exact h
        · have a1 := assignKX_length l.version l.keys w.kx 0
          generalize assignKX l.version l.keys 0 w.kx = x at a1
          obtain ⟨kx, r⟩ := x
          simp only at a1
          cases r with
          | error e => exact ⟨rfl, h.hs, h.idle, by have := h.kx; simp only; omega⟩
          | ok u =>
            simp only [assignSeals]
            have a2 := sharedKeys_length (P := P) kx
            generalize sharedKeys P kx = y at a2
            obtain ⟨kx', r⟩ := y
            simp only at a2
            cases r with
            | error e => exact ⟨rfl, h.hs, h.idle, by have := h.kx; simp only; omega⟩
            | ok sh =>
              simp only [unwrapAll]
              exact ⟨rfl, by simp, by simp, by have := h.kx; simp only; omega⟩
    split <;> (rename_i e; rw [e] at key; exact key)
  · split <;> exact h
  · exact h
  · exact h

theorem sendSwitch_fits {N : Nat} {rng : Rng} {nonce : Bytes} {w : Wire} (h : WFits N w) : WFits N (sendSwitch P cfg rng s w nonce).1 ∧
    ∀ out, (sendSwitch P cfg rng s w nonce).2 = .ok out → out.keys.length ≤ N ∧ ∀ k ∈ out.keys, k.scheme = [] := by
  unfold sendSwitch
  split
  · rename_i e; exact absurd e h.hs
  · rename_i e; exact absurd e h.idle
  · rename_i e
    unfold complete
    rw [h.ke]
    simp only [genKE, encapAll]
    obtain ⟨g1, g2⟩ := genKX_fits (P := P) rng w.kx 1
    generalize genKX P rng 1 w.kx = x at g1 g2
    obtain ⟨kx, r⟩ := x
    simp only at g1 g2
    have hk := h.kx
    cases r with
    | error e => exact ⟨⟨rfl, h.hs, h.idle, by simp only; omega⟩, fun out ho => by cases ho⟩
    | ok a =>
      simp only
      have a2 := sharedKeys_length (P := P) kx
      generalize sharedKeys P kx = y at a2
      obtain ⟨kx', r⟩ := y
      simp only at a2
      cases r with
      | error e => exact ⟨⟨rfl, h.hs, h.idle, by simp only; omega⟩, fun out ho => by cases ho⟩
      | ok sh =>
        simp only [List.map_nil, List.append_nil]
        refine ⟨⟨rfl, by simp, by simp, by simp only; omega⟩, fun out ho => ?_⟩
        cases ho
        obtain ⟨j1, j2⟩ := g2 a rfl
        exact ⟨by simp only; omega, j2⟩
  all_goals exact ⟨h, fun out ho => by cases ho; exact ⟨Nat.zero_le _, by simp⟩⟩

theorem pairs_length_le (s : Session) (p : Purpose) (h : (s.queue p).length ≤ 1) : (s.pairs p).length ≤ s.env.recipients.length := by
  unfold Session.pairs
  cases hq : s.queue p with
  | nil => simp
  | cons t ts =>
    rw [hq] at h
    have : ts = [] := List.eq_nil_of_length_eq_zero (by simp only [List.length_cons] at h; omega)
    subst this
    simp only [List.flatMap_cons, List.flatMap_nil, List.append_nil, List.length_map]
    exact List.length_filter_le _ _

/-- What the first letter offers. -/
def Offering (x : WKM) : Prop := x.ke = [] ∧ x.km.keys.length = x.kx.length ∧ ∀ k ∈ x.km.keys, k.scheme = []

theorem wCloseKX_offering (rng : Rng) (t : ToolInst) (x : WKM) (r : Signet) (h : Offering x) : Offering (wCloseKX P rng t x r).1 := by
  unfold wCloseKX
  split
  · exact h
  · rename_i ho
    unfold kxOffer at ho
    simp only [bind_ok_iff] at ho
    obtain ⟨_, _, _, _, _, _, _, _, he⟩ := ho
    cases Except.ok.inj he
    refine ⟨h.1, by simp [h.2.1], fun k hk => ?_⟩
    rcases List.mem_append.mp hk with hk | hk
    · exact h.2.2 k hk
    · cases List.mem_singleton.mp hk; rfl

theorem wSetupClosing_offering (B : WireOf P cfg s) (rng : Rng) (nonce : Bytes) : Offering (wSetupClosing P cfg rng s nonce [] []).1 := by
  have o1 : ofScheme s.env.secrets schemeKey = [] := by rw [B.secrets]; rfl
  have o2 : ofScheme s.env.secrets schemePassword = [] := by rw [B.secrets]; rfl
  unfold wSetupClosing
  rw [o1, o2, B.noKE]
  simp only [loopKM, closeKeys, overTools]
  have h := overTools_inv (f := fun x t => loopKM (wCloseKX P rng t) x (ofScheme s.env.recipients t.info.name))
    (I := Offering) (fun x t hx => loopKM_inv (I := Offering) (fun x r hx => wCloseKX_offering rng t x r hx) _ x hx)
    (s.queue .keyExchange) { km := { keys := [] ++ [], material := [] ++ [], ctr := 1 }, kx := [], ke := [] } (.ok ())
    ⟨rfl, rfl, (by intro k hk; cases hk)⟩
  split
  · rename_i he; erw [he] at h; exact h
  · rename_i he; erw [he] at h; exact h

theorem first_send_fits (B : WireOf P cfg s) {b : Bool} {rng : Rng} {nonce : Bytes} {w1 : Wire} {out : SendOut}
    (h : sendSwitch P cfg rng s { server := b } nonce = (w1, .ok out)) :
    WFits s.env.recipients.length w1 ∧ out.keys.length ≤ s.env.recipients.length ∧ ∀ k ∈ out.keys, k.scheme = [] := by
  have o1 : ofScheme s.env.secrets schemeKey = [] := by rw [B.secrets]; rfl
  have o2 : ofScheme s.env.secrets schemePassword = [] := by rw [B.secrets]; rfl
  obtain ⟨_, hone⟩ := registered_session B.session B.registered
  simp only [sendSwitch] at h
  obtain ⟨c1, c2⟩ := wSetupClosing_offered B rng nonce
  obtain ⟨_, d1, d2⟩ := wSetupClosing_offering B rng nonce
  generalize hx : wSetupClosing P cfg rng s nonce [] [] = x at h c1 c2 d1 d2
  obtain ⟨x, r⟩ := x
  cases r with
  | error e => cases h
  | ok u =>
    simp only at h c1 c2 d1 d2
    obtain ⟨_, rs, ids, hr, hkx, _, _⟩ := wSetupClosing_spec (hone _ (by simp)) (hone _ (by simp)) o1 o2 hx
    have hlen : x.kx.length ≤ s.env.recipients.length := by
      have := pairs_length_le s .keyExchange (hone _ (by simp))
      rw [hkx, List.length_zipWith]
      omega
    unfold initiate at h
    rw [if_pos (Or.inl rfl)] at h
    simp only [genKX_offered rng _ _ c1, c2, genKE, List.append_nil] at h
    cases h
    exact ⟨⟨rfl, by simp, by simp, hlen⟩, by simp only; omega, d2⟩

theorem first_open_fits (B : WireOf P cfg s) {b : Bool} {p : SState × Wire} {l : Letter} {d : Bytes}
    (h : s.wireOpen P cfg s.initState { server := b } l = (p, .ok d)) : WFits l.keys.length p.2 := by
  have hsafe := first_open_safe B h
  refine ⟨hsafe.ke, hsafe.hs, hsafe.idle, ?_⟩
  obtain ⟨k, T⟩ := B.tools
  unfold Session.wireOpen at h
  rw [B.noSig, T.kdf] at h
  simp only [recvHandshake, recvSwitch] at h
  have c := wSetupOpening_ke B l []
  generalize hx : wSetupOpening P cfg s l [] [] = x at h c
  obtain ⟨x, r⟩ := x
  cases r with
  | error e => cases h
  | ok u =>
    simp only at h c
    generalize hr : recvOffer s { server := b, kx := x.kx, ke := x.ke } l = y at h
    obtain ⟨w', r⟩ := y
    cases r with
    | error e => cases h
    | ok u =>
      simp only at h
      have hw : w'.kx.length ≤ l.keys.length := by
        unfold recvOffer at hr
        rw [B.noKE] at hr
        split at hr
        · rename_i hl
          cases hr
          obtain rfl := setupOpening_nokeys (List.eq_nil_of_length_eq_zero hl) B.secrets hx
          exact Nat.zero_le _
        · split at hr
          · cases hr
          · rename_i hne
            simp only [List.isEmpty_nil, c, List.length_nil, Nat.add_zero, true_and, ne_eq, Decidable.not_not] at hne
            have a1 := assignKX_length l.version l.keys x.kx 0
            generalize assignKX l.version l.keys 0 x.kx = z at a1 hr
            obtain ⟨kx, r⟩ := z
            cases r with
            | error e => cases hr
            | ok u =>
              simp only [c, assignKE] at hr a1
              cases hr
              simp only; omega
      split at h
      · cases h
      · rename_i he
        split at he
        · cases he
        · cases he
          obtain ⟨rfl, _⟩ := Prod.mk.inj h
          exact hw

theorem wireClose_fits {pair : Bytes → Bytes → Bytes → Prop} (hP : P.Correct pair) {k : ToolInst} (hk : s.kdf = some k)
    (hsg : s.queue .signing = []) {rng : Rng} {st : SState} {w : Wire} {data : Bytes} {x : SState × Wire} {l : Letter} (hc : Clean s st)
    (hv : w.msgNo = 0 → s.env.version ≠ 0)
    (hw : ∀ w1 out, sendSwitch P cfg rng s w l.nonce = (w1, .ok out) →
      WFits 255 w1 ∧ out.keys.length ≤ 255 ∧ ∀ k ∈ out.keys, k.scheme = [])
    (h : s.wireClose P cfg rng st w data = (x, .ok l)) : WFits 255 x.2 ∧ x.2.msgNo ≠ 0 ∧ Transportable l := by
  obtain ⟨st', w'⟩ := x
  obtain ⟨w1, out, c, mat, off, h1, h2, h3, _, _, d, m, hl⟩ := wireClose_ok hP hk hsg hc h
  obtain ⟨f1, f2, f3⟩ := hw w1 out h1
  simp only at h3 ⊢
  subst h3
  refine ⟨sent_fits f1 _ _, by rw [(sent_hs _ _ _).2]; omega, ?_⟩
  rw [hl]
  refine ⟨f2, ?_, f3, ?_⟩
  · simp only [wireHeader]; split <;> rfl
  · simp only [wireHeader]
    split
    · rename_i h0; intro hz; exact absurd hz (hv h0)
    · intro _; rfl

theorem wireOpen_fits {k : ToolInst} (hk : s.kdf = some k) (hsg : s.queue .signing = []) {st : SState} {w : Wire} {x : SState × Wire}
    {l : Letter} {d : Bytes} (hw : WFits 255 w) (h : s.wireOpen P cfg st w l = (x, .ok d)) : WFits 255 x.2 ∧ x.2.msgNo ≠ 0 := by
  unfold Session.wireOpen at h
  have hs : checkSignatures P s st l = (st, .ok ()) := by unfold checkSignatures; rw [hsg]; rfl
  rw [hs, hk] at h
  simp only [recvHandshake] at h
  have f := recvSwitch_fits (P := P) (cfg := cfg) (s := s) (l := l) hw
  generalize recvSwitch P cfg s w l = y at h f
  obtain ⟨w', r⟩ := y
  cases r with
  | error e => cases h
  | ok z =>
    obtain ⟨m, b⟩ := z
    simp only at h f
    generalize ratchet P s k w'.msgNo w'.recvCarry l.nonce m = y at h
    cases y with
    | error e => cases h
    | ok z =>
      obtain ⟨c, mat, off⟩ := z
      simp only at h
      obtain ⟨rfl, _⟩ := Prod.mk.inj h
      exact ⟨received_fits f _ _, by rw [(received_hs _ _ _).2]; omega⟩

end

/-! ## The simulation -/

/-- The bytes of the letters that are on the way. -/
def onTheWire (q : List (Letter × Bytes)) : Bytes := (q.map (fun p => p.1.toWire)).flatten

/-- Letters that are read back unchanged. -/
def AllExact (q : List (Letter × Bytes)) : Prop := ∀ p ∈ q, ∀ rest, letterFromWire (p.1.toWire ++ rest) = .ok (p.1, rest)

theorem transported {l : Letter} (h : Transportable l) (hs : l.Sized) (rest : Bytes) : letterFromWire (l.toWire ++ rest) = .ok (l, rest) :=
  wire_roundtrip_exact l rest hs h.keys h.signatures h.schemes h.suite

theorem onTheWire_snoc (q : List (Letter × Bytes)) (l : Letter) (d : Bytes) : onTheWire (q ++ [(l, d)]) = onTheWire q ++ l.toWire := by
  simp [onTheWire]

theorem allExact_snoc {q : List (Letter × Bytes)} {l : Letter} {d : Bytes} (h : AllExact q) (ht : Transportable l) (hs : l.Sized) :
    AllExact (q ++ [(l, d)]) := by
  intro p hp rest
  rcases List.mem_append.mp hp with hp | hp
  · exact h p hp rest
  · cases List.mem_singleton.mp hp; exact transported ht hs rest

theorem fromWire_nil (r : Letter × Bytes) : letterFromWire [] ≠ .ok r := by
  intro h
  obtain ⟨p, hp, hne, _⟩ := wire_parse_sound [] r.1 r.2 h
  exact hne (List.append_eq_nil_iff.mp hp.symm).1

theorem read_next {q : List (Letter × Bytes)} (h : AllExact q) {l : Letter} {rest : Bytes} (hr : letterFromWire (onTheWire q) = .ok (l, rest)) :
    ∃ d q', q = (l, d) :: q' ∧ rest = onTheWire q' ∧ AllExact q' := by
  cases q with
  | nil => exact absurd hr (fromWire_nil _)
  | cons p q' =>
    have e : onTheWire (p :: q') = p.1.toWire ++ onTheWire q' := by simp [onTheWire]
    rw [e, h p (by simp)] at hr
    cases hr
    exact ⟨p.2, q', rfl, rfl, fun p hp => h p (by simp [hp])⟩

section
variable {P : Prims} {pair : Bytes → Bytes → Bytes → Prop} {cfg : Config} {wo : World} {s : Session} {k : ToolInst}

/-- The stream network `n` behaves like the network of letters `m`. -/
structure Carries (P : Prims) (cfg : Config) (wo : World) (s : Session) (m0 : Net) (n : BNet) (m : Net) : Prop where
  reach : WReach P cfg wo suiteRegistry s m0 m
  client : m.client = n.client
  server : m.server = n.server
  c2s : n.c2s = onTheWire m.c2s
  s2c : n.s2c = onTheWire m.s2c
  sentC : n.clientSent = n.serverGot ++ m.c2s.map (·.2)
  sentS : n.serverSent = n.clientGot ++ m.s2c.map (·.2)
  exactC : AllExact m.c2s
  exactS : AllExact m.s2c
  fitsC : (∃ b, n.client.2 = { server := b }) ∨ (WFits 255 n.client.2 ∧ n.client.2.msgNo ≠ 0)
  fitsS : ∀ v st w, n.server = some (v, st, w) → WFits 255 w ∧ w.msgNo ≠ 0

theorem conv_server {m : Net} (h : Conv P pair cfg wo suiteRegistry s k m) : Clean s m.client.1 ∧
    ∀ v st w, m.server = some (v, st, w) → ∃ eo, v = { s with env := eo } ∧ Clean s st ∧ w.msgNo ≠ 0 := by
  cases h with
  | idle hc => exact ⟨hc, fun v st w h => by cases h⟩
  | offered hc => exact ⟨hc, fun v st w h => by cases h⟩
  | accepted hc _ _ _ hcv _ hn => exact ⟨hc, fun v st w h => by cases h; exact ⟨_, rfl, hcv, hn⟩⟩
  | answered hc _ _ hcv _ hn => exact ⟨hc, fun v st w h => by cases h; exact ⟨_, rfl, hcv, hn⟩⟩
  | established hc _ _ hcv _ hn => exact ⟨hc, fun v st w h => by cases h; exact ⟨_, rfl, hcv, hn⟩⟩

theorem carries_step (hP : P.Correct pair) (B : WireBase P pair cfg wo suiteRegistry s k) (W : WireOf P cfg s)
    (hrec : s.env.recipients.length ≤ 255) {m0 : Net} (h0 : Conv P pair cfg wo suiteRegistry s k m0) {n n' : BNet}
    (h : BStep P cfg wo suiteRegistry s n n') (hi : ∃ m, Carries P cfg wo s m0 n m) : ∃ m, Carries P cfg wo s m0 n' m := by
  obtain ⟨m, C⟩ := hi
  have hconv := conv_reach hP B h0 C.reach
  have hdel := conv_delivers B hconv
  obtain ⟨hcl, hsv⟩ := conv_server hconv
  cases h with
  | clientSend rng data hc hsz =>
    rename_i x l
    rw [← C.client] at hc
    have hf : WFits 255 x.2 ∧ x.2.msgNo ≠ 0 ∧ Transportable l := by
      refine wireClose_fits hP B.kdf B.signing hcl (fun _ => by rw [B.version]; decide) (fun w1 out hs => ?_) hc
      rw [C.client] at hs
      rcases C.fitsC with ⟨b, hb⟩ | ⟨hw, _⟩
      · rw [hb] at hs
        obtain ⟨a1, a2, a3⟩ := first_send_fits W hs
        exact ⟨⟨a1.ke, a1.hs, a1.idle, by have := a1.kx; omega⟩, by omega, a3⟩
      · have := sendSwitch_fits (P := P) (cfg := cfg) (s := s) (rng := rng) (nonce := l.nonce) hw
        rw [hs] at this
        exact ⟨this.1, this.2 out rfl⟩
    obtain ⟨f1, f2, f3⟩ := hf
    refine ⟨_, ⟨.step C.reach (.clientSend rng data hc), rfl, C.server, ?_, C.s2c, ?_, C.sentS, allExact_snoc C.exactC f3 hsz, C.exactS,
      Or.inr ⟨f1, f2⟩, C.fitsS⟩⟩
    · simp only [C.c2s, onTheWire_snoc]
    · simp [C.sentC]
  | accept asServer hn hr hco ho =>
    rename_i l d rest v wv x
    rw [C.c2s] at hr
    obtain ⟨d0, q, hq, rfl, hex⟩ := read_next C.exactC hr
    obtain ⟨Wv, rfl⟩ := wireOf_letter hco
    have hms : m.server = none := by rw [C.server, hn]
    have hd : d = d0 := by
      have := hdel.1 l d0 q hq
      rw [hms] at this
      obtain ⟨v', wv', e1, e2, e3⟩ := this
      rw [hco] at e1
      cases e1
      cases asServer
      · simp only [Bool.false_eq_true, if_false] at ho; rw [ho] at e2; cases e2; rfl
      · simp only [if_true] at ho; rw [ho] at e3; cases e3; rfl
    subst hd
    refine ⟨_, ⟨.step C.reach (.accept asServer hms hq hco ho), C.client, rfl, rfl, C.s2c, ?_, C.sentS, hex, C.exactS, C.fitsC, ?_⟩⟩
    · simp [C.sentC, hq]
    · intro v' st w he
      cases he
      have hb : (if asServer = true then ({} : Wire).asServer else {}) = { server := asServer } := by cases asServer <;> rfl
      rw [hb] at ho
      have hf := first_open_fits Wv ho
      have hl : l.keys.length ≤ 255 := by
        obtain ⟨_, _, _, h, _⟩ := wire_parse_sound _ _ _ hr
        exact h
      refine ⟨⟨hf.ke, hf.hs, hf.idle, by have := hf.kx; simp only at this; omega⟩, ?_⟩
      have hconv' := conv_reach hP B h0 (.step C.reach (.accept asServer hms hq hco (by rw [hb]; exact ho)))
      obtain ⟨_, _, _, h⟩ := (conv_server hconv').2 v st w rfl
      exact h
  | serverSend rng data hn hc hsz =>
    rename_i v y x l
    obtain ⟨st, w⟩ := y
    obtain ⟨hw, hw0⟩ := C.fitsS v st w hn
    have hms : m.server = some (v, st, w) := by rw [C.server, hn]
    obtain ⟨eo, rfl, hcv, _⟩ := hsv v st w hms
    have hf : WFits 255 x.2 ∧ x.2.msgNo ≠ 0 ∧ Transportable l := by
      refine wireClose_fits (s := { s with env := eo }) hP (k := k) B.kdf B.signing ((clean_env eo).mpr hcv) (fun h => absurd h hw0)
        (fun w1 out hs => ?_) hc
      have := sendSwitch_fits (P := P) (cfg := cfg) (s := { s with env := eo }) (rng := rng) (nonce := l.nonce) hw
      rw [hs] at this
      exact ⟨this.1, this.2 out rfl⟩
    obtain ⟨f1, f2, f3⟩ := hf
    refine ⟨_, ⟨.step C.reach (.serverSend rng data hms hc), C.client, rfl, C.c2s, ?_, C.sentC, ?_, C.exactC, allExact_snoc C.exactS f3 hsz,
      C.fitsC, ?_⟩⟩
    · simp only [C.s2c, onTheWire_snoc]
    · simp [C.sentS]
    · intro v' st' w' he; cases he; exact ⟨f1, f2⟩
  | serverRecv hn hr ho =>
    rename_i v y x l d rest
    obtain ⟨st, w⟩ := y
    rw [C.c2s] at hr
    obtain ⟨d0, q, hq, rfl, hex⟩ := read_next C.exactC hr
    obtain ⟨hw, hw0⟩ := C.fitsS v st w hn
    have hms : m.server = some (v, st, w) := by rw [C.server, hn]
    obtain ⟨eo, rfl, hcv, _⟩ := hsv v st w hms
    have hd : d = d0 := by
      have := hdel.1 l d0 q hq
      rw [hms] at this
      simp only at this ho
      rw [ho] at this
      cases this; rfl
    subst hd
    refine ⟨_, ⟨.step C.reach (.serverRecv hms hq ho), C.client, rfl, rfl, C.s2c, ?_, C.sentS, hex, C.exactS, C.fitsC, ?_⟩⟩
    · simp [C.sentC, hq]
    · intro v' st' w' he
      cases he
      exact wireOpen_fits (s := { s with env := eo }) (k := k) B.kdf B.signing hw ho
  | clientRecv hr ho =>
    rename_i x l d rest
    rw [C.s2c] at hr
    obtain ⟨d0, q, hq, rfl, hex⟩ := read_next C.exactS hr
    have hd : d = d0 := by
      have := hdel.2 l d0 q hq
      rw [C.client, ho] at this
      cases this; rfl
    subst hd
    rw [← C.client] at ho
    refine ⟨_, ⟨.step C.reach (.clientRecv hq ho), rfl, C.server, C.c2s, rfl, C.sentC, ?_, C.exactC, hex, ?_, C.fitsS⟩⟩
    · simp [C.sentS, hq]
    · rcases C.fitsC with ⟨b, hb⟩ | ⟨hw, _⟩
      · exfalso
        generalize hm : m = m' at hconv
        cases hconv with
        | idle => rw [hm] at hq; cases hq
        | offered => rw [hm] at hq; cases hq
        | accepted => rw [hm] at hq; cases hq
        | answered _ _ hn => rw [← C.client, hm] at hb; simp only at hb; rw [hb] at hn; exact hn rfl
        | established _ _ hn => rw [← C.client, hm] at hb; simp only at hb; rw [hb] at hn; exact hn rfl
      · rw [C.client] at ho
        exact Or.inr (wireOpen_fits B.kdf B.signing hw ho)

end

/-- C58. Two parties of a wire session (with one of the library's suites, for at most 255 recipients) that write their letters to byte
streams with `ToWire` and read them with `LetterFromWire`: whatever they send, in whatever interleaving, and for any random numbers, every
byte in the streams is read as part of exactly one letter, and each side gets exactly the data that the other side sent, in order, with
nothing missing, added or repeated. The other conditions are those of C20. -/
theorem wire_stream_delivery (P : Prims) (pair : Bytes → Bytes → Bytes → Prop) (hP : P.Correct pair) (cfg : Config) (wc wo : World)
    (e : Envelope) (hes : e.suite = none) (hev : e.version = 1) (s : Session) (w : Wire)
    (hs : wireCorrespondence P cfg wc suiteRegistry e = .ok (s, w))
    (hlev : demandedLevel cfg 0 ≤ demandedLevel cfg e.securityLevel) (hids : ∀ r ∈ s.env.recipients, r.id ≠ [])
    (hrec : s.env.recipients.length ≤ 255)
    (hcp : Counterparts P pair wo s) (asServer : Bool) (n : BNet)
    (hn : BReach P cfg wo suiteRegistry s { client := (s.initState, if asServer then w.asServer else w) } n) :
    ServerReads P cfg wo suiteRegistry n ∧ ClientReads P cfg s n := by
  obtain ⟨W, _⟩ := wireOf_envelope (by intro su hsu; rw [hes] at hsu; cases hsu) hs
  obtain ⟨rfl, k, B⟩ := wireBase_of hes hev hs hlev hids hcp
  have hb : (if asServer = true then ({} : Wire).asServer else {}) = { server := asServer } := by cases asServer <;> rfl
  rw [hb] at hn
  have h0 : Conv P pair cfg wo suiteRegistry s k { client := (s.initState, { server := asServer }) } := .idle (clean_init s)
  have key : ∃ m, Carries P cfg wo s { client := (s.initState, { server := asServer }) } n m := by
    induction hn with
    | refl =>
      refine ⟨_, ⟨.refl, rfl, rfl, rfl, rfl, rfl, rfl, ?_, ?_, Or.inl ⟨_, rfl⟩, ?_⟩⟩
      · intro p hp; cases hp
      · intro p hp; cases hp
      · intro v st w h; cases h
    | step _ hst ih => exact carries_step hP B W hrec h0 hst ih
  obtain ⟨m, C⟩ := key
  obtain ⟨d1, d2⟩ := conv_delivers B (conv_reach hP B h0 C.reach)
  constructor
  · cases hq : m.c2s with
    | nil => exact Or.inl ⟨by rw [C.sentC, hq]; simp, by rw [C.c2s, hq]; rfl⟩
    | cons p q =>
      obtain ⟨l, d⟩ := p
      refine Or.inr ⟨d, q.map (·.2), l, onTheWire q, by rw [C.sentC, hq]; rfl, ?_, ?_⟩
      · have := C.exactC
        rw [C.c2s, hq] at *
        exact (by simpa [onTheWire] using this (l, d) (by simp) (onTheWire q))
      · have := d1 l d q hq
        rw [C.server] at this
        exact this
  · cases hq : m.s2c with
    | nil => exact Or.inl ⟨by rw [C.sentS, hq]; simp, by rw [C.s2c, hq]; rfl⟩
    | cons p q =>
      obtain ⟨l, d⟩ := p
      refine Or.inr ⟨d, q.map (·.2), l, onTheWire q, by rw [C.sentS, hq]; rfl, ?_, ?_⟩
      · have := C.exactS
        rw [C.s2c, hq] at *
        exact (by simpa [onTheWire] using this (l, d) (by simp) (onTheWire q))
      · have := d2 l d q hq
        rw [C.client] at this
        exact this

/-! ## A concrete conversation -/

instance (l : Letter) : Decidable l.Sized := by unfold Letter.Sized; exact inferInstance

/-- One step, if it succeeds. -/
def BNet.run (P : Prims) (cfg : Config) (wo : World) (reg : List Suite) (s : Session) (rng : Rng) (n : BNet) : NetOp → Option BNet
  | .clientSend data =>
    match s.wireClose P cfg rng n.client.1 n.client.2 data with
    | (x, .ok l) => if l.Sized then some { n with client := x, c2s := n.c2s ++ l.toWire, clientSent := n.clientSent ++ [data] } else none
    | _ => none
  | .accept =>
    match n.server, letterFromWire n.c2s with
    | none, .ok (l, rest) =>
      match l.wireCorrespondence P cfg wo reg with
      | .ok (v, wv) =>
        match v.wireOpen P cfg v.initState wv.asServer l with
        | (x, .ok d) => some { n with server := some (v, x), c2s := rest, serverGot := n.serverGot ++ [d] }
        | _ => none
      | _ => none
    | _, _ => none
  | .serverSend data =>
    match n.server with
    | some (v, y) =>
      match v.wireClose P cfg rng y.1 y.2 data with
      | (x, .ok l) =>
        if l.Sized then some { n with server := some (v, x), s2c := n.s2c ++ l.toWire, serverSent := n.serverSent ++ [data] } else none
      | _ => none
    | none => none
  | .serverRecv =>
    match n.server, letterFromWire n.c2s with
    | some (v, y), .ok (l, rest) =>
      match v.wireOpen P cfg y.1 y.2 l with
      | (x, .ok d) => some { n with server := some (v, x), c2s := rest, serverGot := n.serverGot ++ [d] }
      | _ => none
    | _, _ => none
  | .clientRecv =>
    match letterFromWire n.s2c with
    | .ok (l, rest) =>
      match s.wireOpen P cfg n.client.1 n.client.2 l with
      | (x, .ok d) => some { n with client := x, s2c := rest, clientGot := n.clientGot ++ [d] }
      | _ => none
    | _ => none

/-- Several steps. -/
def BNet.runs (P : Prims) (cfg : Config) (wo : World) (reg : List Suite) (s : Session) (rng : Rng) : BNet → List NetOp → Option BNet
  | n, [] => some n
  | n, op :: ops =>
    match n.run P cfg wo reg s rng op with
    | some n => BNet.runs P cfg wo reg s rng n ops
    | none => none

theorem brun_step {P : Prims} {cfg : Config} {wo : World} {reg : List Suite} {s : Session} {rng : Rng} {n n' : BNet} {op : NetOp}
    (h : n.run P cfg wo reg s rng op = some n') : BStep P cfg wo reg s n n' := by
  unfold BNet.run at h
  split at h
  · split at h
    · rename_i x l hc
      split at h
      · rename_i hs; cases h; exact .clientSend rng _ hc hs
      · cases h
    · cases h
  · split at h
    · rename_i l rest h1 h2
      split at h
      · rename_i v wv hv
        split at h
        · rename_i x d' ho
          cases h; exact .accept true h1 h2 hv ho
        · cases h
      · cases h
    · cases h
  · split at h
    · rename_i v y h1
      split at h
      · rename_i x l hc
        split at h
        · rename_i hs; cases h; exact .serverSend rng _ h1 hc hs
        · cases h
      · cases h
    · cases h
  · split at h
    · rename_i v y l rest h1 h2
      split at h
      · rename_i x d' hc; cases h; exact .serverRecv h1 h2 hc
      · cases h
    · cases h
  · split at h
    · rename_i l rest h2
      split at h
      · rename_i x d' hc; cases h; exact .clientRecv h2 hc
      · cases h
    · cases h

theorem bruns_reach {P : Prims} {cfg : Config} {wo : World} {reg : List Suite} {s : Session} {rng : Rng} {n0 : BNet} :
    ∀ {ops : List NetOp} {n n' : BNet}, BReach P cfg wo reg s n0 n → n.runs P cfg wo reg s rng ops = some n' → BReach P cfg wo reg s n0 n'
  | [], n, n', h0, h => by cases h; exact h0
  | op :: ops, n, n', h0, h => by
    rw [BNet.runs] at h
    split at h
    · rename_i n1 h1; exact bruns_reach (.step h0 (brun_step h1)) h
    · cases h

/-- The hypotheses of `wire_stream_delivery` are met, with a state after the complete handshake in which both streams have bytes. -/
theorem wire_stream_example : ∃ s w n, toyWire = .ok (s, w) ∧ s.env.recipients.length ≤ 255 ∧
    BReach toyPrims toyConfig toyWorld suiteRegistry s { client := (s.initState, w) } n ∧
    n.clientSent = [b!"one", b!"two", b!"five", b!"six", b!"eight"] ∧ n.serverGot = [b!"one", b!"two", b!"five", b!"six"] ∧
    n.serverSent = [b!"three", b!"four", b!"seven"] ∧ n.clientGot = [b!"three", b!"four"] ∧ n.c2s ≠ [] ∧ n.s2c ≠ [] := by
  have h : (match toyWire with
    | .ok (s, w) => decide (s.env.recipients.length ≤ 255) &&
      (match BNet.runs toyPrims toyConfig toyWorld suiteRegistry s toyRng { client := (s.initState, w) } toyTalk with
        | some n => decide (n.clientSent = [b!"one", b!"two", b!"five", b!"six", b!"eight"] ∧
            n.serverGot = [b!"one", b!"two", b!"five", b!"six"] ∧ n.serverSent = [b!"three", b!"four", b!"seven"] ∧
            n.clientGot = [b!"three", b!"four"] ∧ n.c2s ≠ [] ∧ n.s2c ≠ [])
        | none => false)
    | .error _ => false) = true := by decide +kernel
  split at h
  · rename_i s w hs
    simp only [Bool.and_eq_true, decide_eq_true_eq] at h
    obtain ⟨h1, h⟩ := h
    split at h
    · rename_i n hn
      exact ⟨s, w, n, hs, h1, bruns_reach .refl hn, of_decide_eq_true h⟩
    · cases h
  · cases h

end Jess
