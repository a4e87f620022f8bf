import Verif.Model.Core
import Verif.Lemmas.Basic
import Verif.Lemmas.List

/-! Key establishment as plain list computations (for suites with at most one key exchange and one encapsulation tool). -/

namespace Jess

/-- Evaluates `g` on the elements with consecutive indices, up to the first error. -/
def collectFrom {α β : Type} (g : Nat → α → Res β) : Nat → List α → Res (List β)
  | _, [] => .ok []
  | i, x :: xs =>
    match g i x with
    | .error e => .error e
    | .ok y =>
      match collectFrom g (i + 1) xs with
      | .error e => .error e
      | .ok ys => .ok (y :: ys)

theorem collectFrom_cons_ok {α β : Type} {g : Nat → α → Res β} {i : Nat} {x : α} {xs : List α} {ys : List β} :
    collectFrom g i (x :: xs) = .ok ys ↔ ∃ y zs, g i x = .ok y ∧ collectFrom g (i + 1) xs = .ok zs ∧ ys = y :: zs := by
  rw [collectFrom]
  cases g i x with
  | error e => simp
  | ok y =>
    cases collectFrom g (i + 1) xs with
    | error e => simp
    | ok zs => simp [eq_comm]

theorem collectFrom_length {α β : Type} {g : Nat → α → Res β} : ∀ {xs : List α} {i : Nat} {ys : List β},
    collectFrom g i xs = .ok ys → ys.length = xs.length
  | [], _, _, h => by cases h; rfl
  | x :: xs, i, ys, h => by
    obtain ⟨y, zs, _, h2, rfl⟩ := collectFrom_cons_ok.mp h
    simp [collectFrom_length h2]

/-- If `g` does not depend on the index. -/
theorem collectFrom_const {α β : Type} {g : α → Res β} : ∀ {xs : List α} {i : Nat} {ys : List β},
    collectFrom (fun _ x => g x) i xs = .ok ys ↔ All2 (fun x y => g x = .ok y) xs ys
  | [], _, ys => by
    constructor
    · intro h; cases h; exact .nil
    · intro h; cases h; rfl
  | x :: xs, i, ys => by
    rw [collectFrom_cons_ok]
    constructor
    · rintro ⟨y, zs, h1, h2, rfl⟩; exact .cons h1 (collectFrom_const.mp h2)
    · intro h; cases h with | cons h1 h2 => exact ⟨_, _, h1, collectFrom_const.mpr h2, rfl⟩

/-- Position-wise reading. -/
theorem collectFrom_get {α β : Type} {g : Nat → α → Res β} : ∀ {xs : List α} {i : Nat} {ys : List β},
    collectFrom g i xs = .ok ys → ∀ {j : Nat} {x : α}, xs[j]? = some x → ∃ y, ys[j]? = some y ∧ g (i + j) x = .ok y
  | [], _, _, _, j, x, hx => by simp at hx
  | a :: xs, i, ys, h, j, x, hx => by
    obtain ⟨y, zs, h1, h2, rfl⟩ := collectFrom_cons_ok.mp h
    cases j with
    | zero => simp at hx; subst hx; exact ⟨y, by simp, by simpa using h1⟩
    | succ j =>
      simp at hx
      obtain ⟨z, hz, hg⟩ := collectFrom_get h2 hx
      exact ⟨z, by simpa using hz, by rw [show i + (j + 1) = i + 1 + j by omega]; exact hg⟩

theorem collectFrom_all2 {α β : Type} {g : Nat → α → Res β} {R : α → β → Prop} : ∀ {xs : List α} {i : Nat} {ys : List β},
    collectFrom g i xs = .ok ys → (∀ j x y, x ∈ xs → g j x = .ok y → R x y) → All2 R xs ys
  | [], _, _, h, _ => by cases h; exact .nil
  | a :: xs, i, ys, h, hR => by
    obtain ⟨y, zs, h1, h2, rfl⟩ := collectFrom_cons_ok.mp h
    exact .cons (hR _ _ _ (by simp) h1) (collectFrom_all2 h2 fun j x y hx => hR j x y (by simp [hx]))

theorem collectFrom_error {α β : Type} {g : Nat → α → Res β} : ∀ {xs : List α} {i : Nat} {e : Err},
    collectFrom g i xs = .error e → ∃ j x, xs[j]? = some x ∧ g (i + j) x = .error e
  | a :: xs, i, e, h => by
    rw [collectFrom] at h
    cases hg : g i a with
    | error e' => rw [hg] at h; cases h; exact ⟨0, a, by simp, by simpa using hg⟩
    | ok y =>
      rw [hg] at h
      cases hc : collectFrom g (i + 1) xs with
      | error e' =>
        rw [hc] at h; cases h
        obtain ⟨j, x, hx, hj⟩ := collectFrom_error hc
        exact ⟨j + 1, x, by simpa using hx, by rw [show i + (j + 1) = i + 1 + j by omega]; exact hj⟩
      | ok ys => rw [hc] at h; cases h

/-! ## Loops -/

/-- One step adds what `g` computes, or stops with its error. -/
def StepOM (f : OM → α → OM × Res Unit) (g : Nat → α → Res Bytes) : Prop :=
  ∀ om x, (∀ m, g om.idx x = .ok m → f om x = ({ material := om.material ++ [m], idx := om.idx + 1 }, .ok ())) ∧
    (∀ e, g om.idx x = .error e → (f om x).2 = .error e)

theorem loop_open {α : Type} {f : OM → α → OM × Res Unit} {g : Nat → α → Res Bytes} (hf : StepOM f g) :
    ∀ (xs : List α) (om : OM),
      (∀ ms, collectFrom g om.idx xs = .ok ms →
        loopKM f om xs = ({ material := om.material ++ ms, idx := om.idx + xs.length }, .ok ())) ∧
      (∀ e, collectFrom g om.idx xs = .error e → (loopKM f om xs).2 = .error e)
  | [], om => by
    constructor
    · intro ms h; cases h; simp [loopKM]
    · intro e h; cases h
  | x :: xs, om => by
    obtain ⟨h1, h2⟩ := hf om x
    cases hg : g om.idx x with
    | error e =>
      constructor
      · intro ms h; simp [collectFrom, hg] at h
      · intro e' h
        simp [collectFrom, hg] at h
        subst h
        have := h2 e hg
        rw [loopKM]
        generalize f om x = y at *
        obtain ⟨a, b⟩ := y
        simp only at this; subst this; rfl
    | ok m =>
      have ih := loop_open hf xs { material := om.material ++ [m], idx := om.idx + 1 }
      have hstep := h1 m hg
      constructor
      · intro ms h
        obtain ⟨y, zs, hy, hz, rfl⟩ := collectFrom_cons_ok.mp h
        rw [hg] at hy; cases hy
        rw [loopKM, hstep]
        simp only
        rw [ih.1 zs hz]
        simp only [List.append_assoc, List.cons_append, List.nil_append, List.length_cons, OM.mk.injEq, Prod.mk.injEq]
        exact ⟨⟨trivial, by omega⟩, trivial⟩
      · intro e h
        rw [loopKM, hstep]
        simp only
        apply ih.2
        simp only [collectFrom, hg] at h
        cases hc : collectFrom g (om.idx + 1) xs with
        | error e' => rw [hc] at h; cases h; rfl
        | ok ys => rw [hc] at h; cases h

/-- The tool and signet pairs of a queue. -/
def Session.pairs (s : Session) (p : Purpose) : List (ToolInst × Signet) :=
  (s.queue p).flatMap (fun t => (ofScheme s.env.recipients t.info.name).map (fun k => (t, k)))

/-- At most one tool: the loop over tools is the loop over its signets. -/
theorem overTools_one {σ : Type} (f : σ → ToolInst → Signet → σ × Res Unit) (s : Session) (p : Purpose)
    (h1 : (s.queue p).length ≤ 1) (st : σ) :
    overTools (fun st t => loopKM (fun st k => f st t k) st (ofScheme s.env.recipients t.info.name)) st (.ok ()) (s.queue p) =
      loopKM (fun st x => f st x.1 x.2) st (s.pairs p) := by
  have lmap : ∀ (t : ToolInst) (l : List Signet) (st : σ),
      loopKM (fun st x => f st x.1 x.2) st (l.map (fun k => (t, k))) = loopKM (fun st k => f st t k) st l := by
    intro t l
    induction l with
    | nil => intro st; rfl
    | cons k l ih =>
      intro st
      rw [List.map_cons, loopKM, loopKM]
      simp only [ih]
  unfold Session.pairs
  match hq : s.queue p with
  | [] => simp [overTools, loopKM]
  | [t] =>
    simp only [overTools, List.flatMap_cons, List.flatMap_nil, List.append_nil, lmap]
    generalize loopKM (fun st k => f st t k) st (ofScheme s.env.recipients t.info.name) = y
    obtain ⟨a, b⟩ := y
    cases b with
    | ok u => rfl
    | error e => cases e <;> rfl
  | t :: t' :: ts => rw [hq] at h1; simp at h1

/-! ## Opening -/

/-- The shared key for one recipient signet and the seal at the index. -/
def openKXKey (P : Prims) (l : Letter) (i : Nat) (x : ToolInst × Signet) : Res Bytes :=
  match l.keys[i]? with
  | none => .error .panic
  | some sl => do
    let peer ← peerSignet P l.version x.1 sl.value
    makeShared P x.1.info.name x.2 peer

/-- The unwrapped key. -/
def openKEKey (P : Prims) (l : Letter) (i : Nat) (x : ToolInst × Signet) : Res Bytes :=
  match l.keys[i]? with
  | none => .error .panic
  | some sl => unwrapKey P x.1 sl.value x.2

/-- Opening as a list computation. -/
def openingMaterial (P : Prims) (cfg : Config) (s : Session) (l : Letter) : Res (List Bytes) := do
  let ks := ofScheme s.env.secrets schemeKey
  let pwSignets := ofScheme s.env.secrets schemePassword
  let pws ← collectFrom (fun _ => passKey P cfg s l.nonce) ks.length pwSignets
  let kxs ← collectFrom (openKXKey P l) (ks.length + pwSignets.length) (s.pairs .keyExchange)
  let kes ← collectFrom (openKEKey P l) (ks.length + pwSignets.length + (s.pairs .keyExchange).length) (s.pairs .keyEncapsulation)
  .ok (ks.map (·.key) ++ pws ++ kxs ++ kes)

theorem stepOM_pw (P : Prims) (cfg : Config) (s : Session) (nonce : Bytes) :
    StepOM (openPw P cfg s nonce) (fun _ => passKey P cfg s nonce) := by
  intro om x
  constructor
  · intro m h; simp only [openPw, h]
  · intro e h; simp only [openPw, h]

theorem stepOM_kx (P : Prims) (l : Letter) :
    StepOM (fun om (x : ToolInst × Signet) => openKX P l x.1 om x.2) (openKXKey P l) := by
  intro om x
  simp only [openKX, openKXKey]
  cases l.keys[om.idx]? with
  | none => simp
  | some sl =>
    dsimp only
    cases peerSignet P l.version x.1 sl.value with
    | error e => simp
    | ok peer =>
      simp only [ok_bind]
      cases makeShared P x.1.info.name x.2 peer with
      | error e => simp
      | ok sh => simp

theorem stepOM_ke (P : Prims) (l : Letter) :
    StepOM (fun om (x : ToolInst × Signet) => openKE P l x.1 om x.2) (openKEKey P l) := by
  intro om x
  simp only [openKE, openKEKey]
  cases l.keys[om.idx]? with
  | none => simp
  | some sl =>
    dsimp only
    cases unwrapKey P x.1 sl.value x.2 with
    | error e => simp
    | ok key => simp

theorem setupOpening_eq (P : Prims) (cfg : Config) (s : Session) (l : Letter)
    (hx : (s.queue .keyExchange).length ≤ 1) (he : (s.queue .keyEncapsulation).length ≤ 1) :
    setupOpening P cfg s l =
      if s.env.secrets.length + s.env.senders.length + s.env.recipients.length < l.keys.length then .error .missing
      else openingMaterial P cfg s l := by
  unfold setupOpening
  split
  · rfl
  · dsimp only
    have o1 := overTools_one (fun om t k => openKX P l t om k) s .keyExchange hx
    have o2 := overTools_one (fun om t k => openKE P l t om k) s .keyEncapsulation he
    have e1 : ∀ om, overTools (fun om t => loopKM (openKX P l t) om (ofScheme s.env.recipients t.info.name)) om (.ok ())
        (s.queue .keyExchange) = _ := fun om => o1 om
    have e2 : ∀ om, overTools (fun om t => loopKM (openKE P l t) om (ofScheme s.env.recipients t.info.name)) om (.ok ())
        (s.queue .keyEncapsulation) = _ := fun om => o2 om
    simp only [e1, e2]
    unfold openingMaterial
    dsimp only
    generalize hom : ({ material := (ofScheme s.env.secrets schemeKey).map (·.key), idx := (ofScheme s.env.secrets schemeKey).length } : OM) = om
    have hidx : om.idx = (ofScheme s.env.secrets schemeKey).length := by rw [← hom]
    have hmat : om.material = (ofScheme s.env.secrets schemeKey).map (·.key) := by rw [← hom]
    rw [← hidx, ← hmat]
    have p1 := loop_open (stepOM_pw P cfg s l.nonce) (ofScheme s.env.secrets schemePassword) om
    cases h1 : collectFrom (fun _ => passKey P cfg s l.nonce) om.idx (ofScheme s.env.secrets schemePassword) with
    | error e =>
      have := p1.2 e h1
      generalize loopKM (openPw P cfg s l.nonce) om (ofScheme s.env.secrets schemePassword) = y at *
      obtain ⟨a, b⟩ := y
      simp only at this; subst this; rfl
    | ok pws =>
      rw [p1.1 pws h1]
      dsimp only
      have p2 := loop_open (stepOM_kx P l) (s.pairs .keyExchange)
        { material := om.material ++ pws, idx := om.idx + (ofScheme s.env.secrets schemePassword).length }
      dsimp only at p2
      simp only [ok_bind]
      cases h2 : collectFrom (openKXKey P l) (om.idx + (ofScheme s.env.secrets schemePassword).length) (s.pairs .keyExchange) with
      | error e =>
        have := p2.2 e h2
        generalize loopKM (fun om (x : ToolInst × Signet) => openKX P l x.1 om x.2) _ (s.pairs .keyExchange) = y at *
        obtain ⟨a, b⟩ := y
        simp only at this; subst this; rfl
      | ok kxs =>
        rw [p2.1 kxs h2]
        dsimp only
        have p3 := loop_open (stepOM_ke P l) (s.pairs .keyEncapsulation)
          { material := om.material ++ pws ++ kxs,
            idx := om.idx + (ofScheme s.env.secrets schemePassword).length + (s.pairs .keyExchange).length }
        dsimp only at p3
        simp only [ok_bind]
        cases h3 : collectFrom (openKEKey P l)
            (om.idx + (ofScheme s.env.secrets schemePassword).length + (s.pairs .keyExchange).length) (s.pairs .keyEncapsulation) with
        | error e =>
          have := p3.2 e h3
          generalize loopKM (fun om (x : ToolInst × Signet) => openKE P l x.1 om x.2) _ (s.pairs .keyEncapsulation) = y at *
          obtain ⟨a, b⟩ := y
          simp only at this; subst this; rfl
        | ok kes =>
          rw [p3.1 kes h3]
          rfl

/-! ## Closing -/

/-- One step appends a seal and a key and uses `n` random numbers. -/
def StepKM (n : Nat) (f : KM → α → KM × Res Unit) (g : Nat → α → Res (Bytes × Seal)) : Prop :=
  ∀ km x, (∀ m, g km.ctr x = .ok m →
      f km x = ({ keys := km.keys ++ [m.2], material := km.material ++ [m.1], ctr := km.ctr + n }, .ok ())) ∧
    (∀ e, g km.ctr x = .error e → (f km x).2 = .error e)

theorem loop_close {α : Type} {f : KM → α → KM × Res Unit} {g : Nat → α → Res (Bytes × Seal)} (hf : StepKM 1 f g) :
    ∀ (xs : List α) (km : KM),
      (∀ ms, collectFrom g km.ctr xs = .ok ms →
        loopKM f km xs = ({ keys := km.keys ++ ms.map (·.2), material := km.material ++ ms.map (·.1),
                            ctr := km.ctr + xs.length }, .ok ())) ∧
      (∀ e, collectFrom g km.ctr xs = .error e → (loopKM f km xs).2 = .error e)
  | [], km => by
    constructor
    · intro ms h; cases h; simp [loopKM]
    · intro e h; cases h
  | x :: xs, km => by
    obtain ⟨h1, h2⟩ := hf km x
    cases hg : g km.ctr x with
    | error e =>
      constructor
      · intro ms h; simp [collectFrom, hg] at h
      · intro e' h
        simp [collectFrom, hg] at h
        subst h
        have := h2 e hg
        rw [loopKM]
        generalize f km x = y at *
        obtain ⟨a, b⟩ := y
        simp only at this; subst this; rfl
    | ok m =>
      have ih := loop_close hf xs { keys := km.keys ++ [m.2], material := km.material ++ [m.1], ctr := km.ctr + 1 }
      have hstep := h1 m hg
      constructor
      · intro ms h
        obtain ⟨y, zs, hy, hz, rfl⟩ := collectFrom_cons_ok.mp h
        rw [hg] at hy; cases hy
        rw [loopKM, hstep]
        simp only
        rw [ih.1 zs hz]
        simp only [List.append_assoc, List.cons_append, List.nil_append, List.length_cons, KM.mk.injEq, Prod.mk.injEq,
          List.map_cons]
        exact ⟨⟨trivial, trivial, by omega⟩, trivial⟩
      · intro e h
        rw [loopKM, hstep]
        simp only
        apply ih.2
        simp only [collectFrom, hg] at h
        cases hc : collectFrom g (km.ctr + 1) xs with
        | error e' => rw [hc] at h; cases h; rfl
        | ok ys => rw [hc] at h; cases h

/-- The passwords do not use randomness. -/
theorem loop_close_pw (P : Prims) (cfg : Config) (s : Session) (nonce : Bytes) : ∀ (xs : List Signet) (km : KM) (i : Nat),
    (∀ ms, collectFrom (fun _ => passKey P cfg s nonce) i xs = .ok ms →
      loopKM (closePw P cfg s nonce) km xs =
        ({ keys := km.keys ++ xs.map (fun k => { scheme := schemePassword, id := k.id }), material := km.material ++ ms,
           ctr := km.ctr }, .ok ())) ∧
    (∀ e, collectFrom (fun _ => passKey P cfg s nonce) i xs = .error e → (loopKM (closePw P cfg s nonce) km xs).2 = .error e)
  | [], km, i => by
    constructor
    · intro ms h; cases h; simp [loopKM]
    · intro e h; cases h
  | x :: xs, km, i => by
    cases hg : passKey P cfg s nonce x with
    | error e =>
      constructor
      · intro ms h; simp [collectFrom, hg] at h
      · intro e' h
        simp [collectFrom, hg] at h
        subst h
        simp [loopKM, closePw, hg]
    | ok m =>
      have ih := loop_close_pw P cfg s nonce xs
        { km with keys := km.keys ++ [{ scheme := schemePassword, id := x.id }], material := km.material ++ [m] } (i + 1)
      constructor
      · intro ms h
        obtain ⟨y, zs, hy, hz, rfl⟩ := collectFrom_cons_ok.mp h
        rw [hg] at hy; cases hy
        simp only [loopKM, closePw, hg]
        rw [ih.1 zs hz]
        simp [List.append_assoc]
      · intro e h
        simp only [loopKM, closePw, hg]
        apply ih.2
        simp only [collectFrom, hg] at h
        cases hc : collectFrom (fun _ => passKey P cfg s nonce) (i + 1) xs with
        | error e' => rw [hc] at h; cases h; rfl
        | ok ys => rw [hc] at h; cases h

/-- The offer for one recipient of a key exchange. -/
def closeKXKey (P : Prims) (rng : Rng) (ctr : Nat) (x : ToolInst × Signet) : Res (Bytes × Seal) := do
  let r ← kxOffer P x.1 (rng.seed ctr) x.2
  .ok r.2

/-- Closing as a list computation. -/
def closingMaterial (P : Prims) (cfg : Config) (rng : Rng) (s : Session) (nonce : Bytes) : Res KM := do
  let ks := ofScheme s.env.secrets schemeKey
  let pwSignets := ofScheme s.env.secrets schemePassword
  let pws ← collectFrom (fun _ => passKey P cfg s nonce) 0 pwSignets
  let kxs ← collectFrom (closeKXKey P rng) 1 (s.pairs .keyExchange)
  let kes ← collectFrom (fun c (x : ToolInst × Signet) => keOffer P cfg rng s c x.1 x.2) (1 + (s.pairs .keyExchange).length)
    (s.pairs .keyEncapsulation)
  .ok { keys := ks.map (fun k => { scheme := schemeKey, id := k.id }) ++
                pwSignets.map (fun k => { scheme := schemePassword, id := k.id }) ++ kxs.map (·.2) ++ kes.map (·.2),
        material := ks.map (·.key) ++ pws ++ kxs.map (·.1) ++ kes.map (·.1),
        ctr := 1 + (s.pairs .keyExchange).length + (s.pairs .keyEncapsulation).length }

theorem stepKM_kx (P : Prims) (rng : Rng) :
    StepKM 1 (fun km (x : ToolInst × Signet) => closeKX P rng x.1 km x.2) (closeKXKey P rng) := by
  intro km x
  simp only [closeKX, closeKXKey]
  cases kxOffer P x.1 (rng.seed km.ctr) x.2 with
  | error e => simp
  | ok r => obtain ⟨a, b, c⟩ := r; simp

theorem stepKM_ke (P : Prims) (cfg : Config) (rng : Rng) (s : Session) :
    StepKM 1 (fun km (x : ToolInst × Signet) => closeKE P cfg rng s x.1 km x.2)
      (fun c (x : ToolInst × Signet) => keOffer P cfg rng s c x.1 x.2) := by
  intro km x
  simp only [closeKE]
  cases keOffer P cfg rng s km.ctr x.1 x.2 with
  | error e => simp
  | ok r => obtain ⟨a, b⟩ := r; simp

theorem setupClosing_eq (P : Prims) (cfg : Config) (rng : Rng) (s : Session) (nonce : Bytes)
    (hx : (s.queue .keyExchange).length ≤ 1) (he : (s.queue .keyEncapsulation).length ≤ 1) :
    setupClosing P cfg rng s nonce = closingMaterial P cfg rng s nonce := by
  unfold setupClosing
  dsimp only
  have o1 := overTools_one (fun km t k => closeKX P rng t km k) s .keyExchange hx
  have o2 := overTools_one (fun km t k => closeKE P cfg rng s t km k) s .keyEncapsulation he
  have e1 : ∀ km, overTools (fun km t => loopKM (closeKX P rng t) km (ofScheme s.env.recipients t.info.name)) km (.ok ())
      (s.queue .keyExchange) = _ := fun km => o1 km
  have e2 : ∀ km, overTools (fun km t => loopKM (closeKE P cfg rng s t) km (ofScheme s.env.recipients t.info.name)) km (.ok ())
      (s.queue .keyEncapsulation) = _ := fun km => o2 km
  simp only [e1, e2]
  unfold closingMaterial
  dsimp only
  generalize hkm : closeKeys {} (ofScheme s.env.secrets schemeKey) = km
  have hkeys : km.keys = (ofScheme s.env.secrets schemeKey).map (fun k => { scheme := schemeKey, id := k.id }) := by
    rw [← hkm]; simp [closeKeys]
  have hmat : km.material = (ofScheme s.env.secrets schemeKey).map (·.key) := by rw [← hkm]; simp [closeKeys]
  have hctr : km.ctr = 1 := by rw [← hkm]; rfl
  rw [← hkeys, ← hmat]
  have p1 := loop_close_pw P cfg s nonce (ofScheme s.env.secrets schemePassword) km 0
  cases h1 : collectFrom (fun _ => passKey P cfg s nonce) 0 (ofScheme s.env.secrets schemePassword) with
  | error e =>
    have := p1.2 e h1
    generalize loopKM (closePw P cfg s nonce) km (ofScheme s.env.secrets schemePassword) = y at *
    obtain ⟨a, b⟩ := y
    simp only at this; subst this; rfl
  | ok pws =>
    rw [p1.1 pws h1]
    dsimp only
    have p2 := loop_close (stepKM_kx P rng) (s.pairs .keyExchange)
      { keys := km.keys ++ (ofScheme s.env.secrets schemePassword).map (fun k => { scheme := schemePassword, id := k.id }),
        material := km.material ++ pws, ctr := km.ctr }
    dsimp only at p2
    rw [hctr] at p2 ⊢
    simp only [ok_bind]
    cases h2 : collectFrom (closeKXKey P rng) 1 (s.pairs .keyExchange) with
    | error e =>
      have := p2.2 e h2
      generalize loopKM (fun km (x : ToolInst × Signet) => closeKX P rng x.1 km x.2) _ (s.pairs .keyExchange) = y at *
      obtain ⟨a, b⟩ := y
      simp only at this; subst this; rfl
    | ok kxs =>
      rw [p2.1 kxs h2]
      dsimp only
      have p3 := loop_close (stepKM_ke P cfg rng s) (s.pairs .keyEncapsulation)
        { keys := km.keys ++ (ofScheme s.env.secrets schemePassword).map (fun k => { scheme := schemePassword, id := k.id }) ++ kxs.map (·.2),
          material := km.material ++ pws ++ kxs.map (·.1), ctr := 1 + (s.pairs .keyExchange).length }
      dsimp only at p3
      simp only [ok_bind]
      cases h3 : collectFrom (fun c (x : ToolInst × Signet) => keOffer P cfg rng s c x.1 x.2) (1 + (s.pairs .keyExchange).length)
          (s.pairs .keyEncapsulation) with
      | error e =>
        have := p3.2 e h3
        generalize loopKM (fun km (x : ToolInst × Signet) => closeKE P cfg rng s x.1 km x.2) _ (s.pairs .keyEncapsulation) = y at *
        obtain ⟨a, b⟩ := y
        simp only at this; subst this; rfl
      | ok kes =>
        rw [p3.1 kes h3]
        rfl

end Jess
