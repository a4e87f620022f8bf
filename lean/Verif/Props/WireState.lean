import Verif.Props.WireDelivery

/-!
C25: wire sessions refuse unsupported material. C23 (refuted): the keys of a wire session are exchanged once and never again.
-/

namespace Jess

open Requirements

/-! ## C25 -/

/-- C25. `WireCorrespondence` succeeds exactly if the envelope yields a session, that session provides confidentiality,
integrity and recipient authentication, and it uses neither a password derivation, nor a signature, nor a pre-shared key. -/
theorem wire_correspondence_iff (P : Prims) (cfg : Config) (w : World) (reg : List Suite) (e : Envelope) (s : Session) (x : Wire) :
    wireCorrespondence P cfg w reg e = .ok (s, x) ↔
      correspondence P cfg w reg e = .ok s ∧ x = {} ∧
      (SessionHas s Confidentiality ∧ SessionHas s Integrity ∧ SessionHas s RecipientAuthentication) ∧
      (∀ t ∈ s.insts, t.info.purpose ≠ .passDerivation ∧ t.info.purpose ≠ .signing) ∧
      (∀ k ∈ s.env.secrets, k.scheme ≠ schemeKey) := by
  constructor
  · intro h
    simp only [wireCorrespondence, bind_ok_iff] at h
    obtain ⟨s', h1, x', h2, h3⟩ := h
    cases h3
    obtain ⟨a1, a2, a3, a4, a5⟩ := initWire_spec h2
    have hs : ∃ e', newSession P cfg e' = .ok s := by
      simp only [correspondence, bind_ok_iff] at h1
      obtain ⟨_, _, e2, _, h⟩ := h1
      exact ⟨e2, h⟩
    obtain ⟨e2, hs⟩ := hs
    refine ⟨h1, a1, ⟨(session_reqs_iff hs _).mp (a2 _ (by decide)), (session_reqs_iff hs _).mp (a2 _ (by decide)),
      (session_reqs_iff hs _).mp (a2 _ (by decide))⟩, ?_, ?_⟩
    · intro t ht
      refine ⟨fun hp => ?_, fun hp => ?_⟩
      · have : t ∈ s.queue .passDerivation := mem_queue.mpr ⟨ht, hp⟩
        rw [a4] at this; cases this
      · have : t ∈ s.queue .signing := mem_queue.mpr ⟨ht, hp⟩
        rw [a3] at this; cases this
    · intro k hk hks
      have : k ∈ ofScheme s.env.secrets schemeKey := (mem_ofScheme (by decide) k).mpr ⟨hk, hks⟩
      rw [a5] at this; cases this
  · rintro ⟨h1, rfl, ⟨c1, c2, c3⟩, c4, c5⟩
    obtain ⟨e2, hs⟩ : ∃ e', newSession P cfg e' = .ok s := by
      simp only [correspondence, bind_ok_iff] at h1
      obtain ⟨_, _, e2, _, h⟩ := h1
      exact ⟨e2, h⟩
    simp only [wireCorrespondence, bind_ok_iff]
    refine ⟨s, h1, {}, ?_, rfl⟩
    simp only [initWire, bind_ok_iff, compliance_iff s.reqs]
    refine ⟨(), ?_, ?_⟩
    · intro a ha
      have : wireRequirements = [Confidentiality, Integrity, RecipientAuthentication] := by decide
      rw [this] at ha
      simp only [List.mem_cons, List.not_mem_nil, or_false] at ha
      rcases ha with rfl | rfl | rfl
      · exact (session_reqs_iff hs _).mpr c1
      · exact (session_reqs_iff hs _).mpr c2
      · exact (session_reqs_iff hs _).mpr c3
    · rw [if_neg, if_neg]
      · have : ofScheme s.env.secrets schemeKey = [] := by
          cases hq : ofScheme s.env.secrets schemeKey with
          | nil => rfl
          | cons a as =>
            have := (mem_ofScheme (n := schemeKey) (by decide) a).mp (by rw [hq]; exact List.mem_cons_self)
            exact absurd this.2 (c5 a this.1)
        rw [this]; simp
      · intro h
        obtain ⟨t, ht, h⟩ := List.any_eq_true.mp h
        simp only [Bool.or_eq_true, beq_iff_eq] at h
        rcases h with h | h
        · exact (c4 t ht).1 h
        · exact (c4 t ht).2 h

/-- The sessions that a wire session of the library can have. -/
structure WireOf (P : Prims) (cfg : Config) (s : Session) : Prop where
  session : newSession P cfg s.env = .ok s
  registered : s.suite ∈ suiteRegistry
  wire : initWire s = .ok {}

theorem wireOf_envelope {P : Prims} {cfg : Config} {w : World} {e : Envelope} (he : ∀ su, e.suite = some su → su ∈ suiteRegistry)
    {s : Session} {x : Wire} (h : wireCorrespondence P cfg w suiteRegistry e = .ok (s, x)) : WireOf P cfg s ∧ x = {} := by
  simp only [wireCorrespondence, bind_ok_iff] at h
  obtain ⟨s', h1, x', h2, h3⟩ := h
  cases h3
  obtain rfl := (initWire_spec h2).1
  simp only [correspondence, bind_ok_iff] at h1
  obtain ⟨⟨e1, su⟩, hl, e2, hp, hn⟩ := h1
  obtain ⟨g1, g2⟩ := newSession_env hn
  have hsu : e1.suite = some su ∧ su ∈ suiteRegistry := by
    unfold loadSuite at hl
    split at hl
    · rename_i su' hs
      cases hl
      exact ⟨hs, he _ hs⟩
    · split at hl
      · cases hl
      · rename_i su' hs
        cases hl
        exact ⟨rfl, List.mem_of_find?_eq_some hs⟩
  simp only [prepareSignets, bind_ok_iff] at hp
  obtain ⟨a, _, b, _, c, _, hx⟩ := hp
  cases hx
  simp only [hsu.1, Option.some.injEq] at g2
  exact ⟨⟨by rw [g1]; exact hn, by rw [← g2]; exact hsu.2, h2⟩, rfl⟩

theorem wireOf_letter {P : Prims} {cfg : Config} {w : World} {l : Letter} {s : Session} {x : Wire}
    (h : l.wireCorrespondence P cfg w suiteRegistry = .ok (s, x)) : WireOf P cfg s ∧ x = {} := by
  simp only [Letter.wireCorrespondence, bind_ok_iff] at h
  obtain ⟨e, he, h⟩ := h
  refine wireOf_envelope ?_ h
  intro su hsu
  unfold Letter.envelope at he
  split at he
  · cases he
  · split at he
    · cases he
    · split at he
      · cases he
      · rename_i su' hg
        simp only [bind_ok_iff] at he
        obtain ⟨_, _, he⟩ := he
        cases he
        cases hsu
        exact List.mem_of_find?_eq_some hg

namespace WireOf

variable {P : Prims} {cfg : Config} {s : Session}

theorem secrets (B : WireOf P cfg s) : s.env.secrets = [] := by
  obtain ⟨_, _, _, hp, hk⟩ := initWire_spec B.wire
  have hu := no_signet_ignored P cfg s.env s B.session (registered_session B.session B.registered).1
  cases hs : s.env.secrets with
  | nil => rfl
  | cons a as =>
    exfalso
    rcases hu.secrets a (by simp [hs]) with h | ⟨_, t, ht, h⟩
    · have : a ∈ ofScheme s.env.secrets schemeKey := (mem_ofScheme (by decide) a).mpr ⟨by simp [hs], h⟩
      rw [hk] at this; simp at this
    · have : t ∈ s.queue .passDerivation := mem_queue.mpr ⟨ht, h⟩
      rw [hp] at this; simp at this

theorem senders (B : WireOf P cfg s) : s.env.senders = [] := by
  have hu := no_signet_ignored P cfg s.env s B.session (registered_session B.session B.registered).1
  obtain ⟨_, _, hsg, _⟩ := initWire_spec B.wire
  cases hs : s.env.senders with
  | nil => rfl
  | cons a as =>
    exfalso
    obtain ⟨t, ht, h, _⟩ := hu.senders a (by simp [hs])
    have : t ∈ s.queue .signing := mem_queue.mpr ⟨ht, h⟩
    rw [hsg] at this; simp at this

end WireOf

/-- C25, for the library's suites: a wire session has no secrets (neither keys nor passwords) and no senders at all. -/
theorem wire_session_material (P : Prims) (cfg : Config) (w : World) (e : Envelope) (hes : e.suite = none) (s : Session) (x : Wire)
    (h : wireCorrespondence P cfg w suiteRegistry e = .ok (s, x)) : s.env.secrets = [] ∧ s.env.senders = [] := by
  obtain ⟨B, _⟩ := wireOf_envelope (by rw [hes]; intro su h; cases h) h
  exact ⟨B.secrets, B.senders⟩

/-- C25, for letters: the same holds for the session that a received letter creates. -/
theorem wire_letter_material (P : Prims) (cfg : Config) (w : World) (l : Letter) (s : Session) (x : Wire)
    (h : l.wireCorrespondence P cfg w suiteRegistry = .ok (s, x)) :
    s.env.secrets = [] ∧ s.env.senders = [] ∧
      (SessionHas s Confidentiality ∧ SessionHas s Integrity ∧ SessionHas s RecipientAuthentication) := by
  obtain ⟨B, _⟩ := wireOf_letter h
  simp only [Letter.wireCorrespondence, bind_ok_iff] at h
  obtain ⟨e, _, h⟩ := h
  exact ⟨B.secrets, B.senders, ((wire_correspondence_iff P cfg w _ e s x).mp h).2.2.1⟩

/-- `WireCorrespondence` accepts a session with a recipient, and refuses one with a key secret, one with a password, and one with
a signature. -/
theorem wire_refuses_example : (toyWire.isOk = true) ∧
    (wireCorrespondence toyPrims toyConfig toyWorld suiteRegistry (toyEnvelope b!"key_v1" [b!"k1"] [] [])).isOk = false ∧
    (wireCorrespondence toyPrims toyConfig toyWorld suiteRegistry (toyEnvelope b!"pw_v1" [b!"pw"] [] [])).isOk = false ∧
    (wireCorrespondence toyPrims toyConfig toyWorld suiteRegistry (toyEnvelope b!"v1" [] [b!"alice"] [b!"bob"])).isOk = false := by
  decide +kernel

/-! ## C23 -/

section
variable (P : Prims) (cfg : Config) (s : Session)

/-- The history of one party of a wire session: it sends (any data, any random numbers, successful or not) and it is given letters
to open (any letters, accepted or not). `History p ls q`: from state `p` to state `q`, with the sent letters `ls`. -/
inductive History (p : SState × Wire) : List Letter → SState × Wire → Prop
  | start : History p [] p
  | sent {q : SState × Wire} {ls : List Letter} (rng : Rng) (data : Bytes) {q' : SState × Wire} {l : Letter} : History p ls q →
      s.wireClose P cfg rng q.1 q.2 data = (q', .ok l) → History p (ls ++ [l]) q'
  | failed {q : SState × Wire} {ls : List Letter} (rng : Rng) (data : Bytes) {q' : SState × Wire} {er : Err} : History p ls q →
      s.wireClose P cfg rng q.1 q.2 data = (q', .error er) → History p ls q'
  | opened {q : SState × Wire} {ls : List Letter} (l : Letter) {q' : SState × Wire} {r : Res Bytes} : History p ls q →
      s.wireOpen P cfg q.1 q.2 l = (q', r) → History p ls q'

end

/-- The letters of a list that carry keys. -/
def keyLetters (ls : List Letter) : List Letter := ls.filter (fun l => decide (l.keys ≠ []))

/-- What a party has sent, by handshake state. -/
def KeyInv (ls : List Letter) (w : Wire) : Prop :=
  match w.hs with
  | .init => w.msgNo = 0 ∧ keyLetters ls = []
  | .sendKey => keyLetters ls = []
  | .idle => False
  | _ => (keyLetters ls).length ≤ 1

section
variable {P : Prims} {cfg : Config} {s : Session}

theorem sent_hs (w : Wire) (c : Bytes) (b : Bool) : (w.sent c b).hs = w.hs ∧ (w.sent c b).msgNo = w.msgNo + 1 := by
  cases b <;> exact ⟨rfl, rfl⟩

theorem received_hs (w : Wire) (c : Bytes) (b : Bool) : (w.received c b).hs = w.hs ∧ (w.received c b).msgNo = w.msgNo + 1 := by
  cases b <;> exact ⟨rfl, rfl⟩

theorem initiate_hs {rng : Rng} {w w' : Wire} {km : KM} {r : Res SendOut} (hm : w.msgNo = 0) (h : initiate P rng w km = (w', r)) :
    w'.msgNo = 0 ∧ (w'.hs = w.hs ∧ r.isOk = false ∨ w'.hs = .awaitKey) := by
  unfold initiate at h
  rw [if_pos (Or.inl hm)] at h
  split at h
  · cases h; exact ⟨hm, Or.inl ⟨rfl, rfl⟩⟩
  · split at h
    · cases h; exact ⟨hm, Or.inl ⟨rfl, rfl⟩⟩
    · cases h; exact ⟨hm, Or.inr rfl⟩

theorem complete_hs {rng : Rng} {w w' : Wire} {r : Res SendOut} (h : complete P rng s w = (w', r)) :
    w'.hs = w.hs ∧ r.isOk = false ∨ w'.hs = .awaitApply := by
  unfold complete at h
  repeat' split at h
  all_goals cases h
  all_goals first | exact Or.inl ⟨rfl, rfl⟩ | exact Or.inr rfl

/-- What the switch of the handshake does to the state when sending. -/
theorem sendSwitch_hs {rng : Rng} {w w' : Wire} {nonce : Bytes} {r : Res SendOut} (hi : w.hs ≠ .idle) (hz : w.hs = .init → w.msgNo = 0)
    (h : sendSwitch P cfg rng s w nonce = (w', r)) :
    (w.hs = .init ∧ w'.hs = .init ∧ w'.msgNo = 0 ∧ r.isOk = false) ∨ (w.hs = .init ∧ w'.hs = .awaitKey) ∨
    (w.hs = .sendKey ∧ w'.hs = .sendKey ∧ r.isOk = false) ∨ (w.hs = .sendKey ∧ w'.hs = .awaitApply) ∨
    ((w.hs = .awaitKey ∨ w.hs = .sendApply ∨ w.hs = .awaitApply) ∧ w' = w ∧ ∀ out, r = .ok out → out.keys = []) := by
  unfold sendSwitch at h
  cases hw : w.hs <;> rw [hw] at h <;> simp only at h
  · split at h
    · cases h; exact Or.inl ⟨rfl, rfl, hz hw, rfl⟩
    · obtain ⟨a, b | b⟩ := initiate_hs (by exact hz hw) h
      · exact Or.inl ⟨rfl, b.1, a, b.2⟩
      · exact Or.inr (Or.inl ⟨rfl, b⟩)
  · exact absurd hw hi
  · rcases complete_hs h with a | a
    · exact Or.inr (Or.inr (Or.inl ⟨rfl, a.1.trans hw, a.2⟩))
    · exact Or.inr (Or.inr (Or.inr (Or.inl ⟨rfl, a⟩)))
  all_goals
    cases h
    refine Or.inr (Or.inr (Or.inr (Or.inr ⟨by simp, rfl, ?_⟩)))
    intro out ho
    cases ho
    rfl

theorem keyLetters_snoc (ls : List Letter) (l : Letter) :
    keyLetters (ls ++ [l]) = keyLetters ls ++ (if l.keys = [] then [] else [l]) := by
  unfold keyLetters
  rw [List.filter_append]
  congr 1
  by_cases h : l.keys = [] <;> simp [h]

theorem keyInv_of {ls : List Letter} {w : Wire} (h : (keyLetters ls).length ≤ 1)
    (hh : w.hs = .awaitKey ∨ w.hs = .sendApply ∨ w.hs = .awaitApply) : KeyInv ls w := by
  unfold KeyInv; rcases hh with h1 | h1 | h1 <;> rw [h1] <;> exact h

theorem keyInv_hs {ls : List Letter} {w : Wire} (h : KeyInv ls w) : w.hs ≠ .idle ∧ (w.hs = .init → w.msgNo = 0) := by
  unfold KeyInv at h
  cases hw : w.hs <;> rw [hw] at h <;> simp_all

theorem keyInv_len {ls : List Letter} {w : Wire} (h : KeyInv ls w) : (keyLetters ls).length ≤ 1 := by
  unfold KeyInv at h
  cases hw : w.hs <;> rw [hw] at h <;> simp_all

theorem signLetter_keys {rng : Rng} {st : SState} {ctr : Nat} {ad : Bytes} {l l' : Letter} (h : (signLetter P rng s st ctr ad l).2 = .ok l') :
    l'.keys = l.keys := by
  unfold signLetter at h
  split at h
  · cases h; rfl
  · simp only at h
    split at h
    · cases h
    · cases h; rfl

/-- A send keeps the invariant. -/
theorem keyInv_send {rng : Rng} {st : SState} {w : Wire} {data : Bytes} {ls : List Letter} {q : SState × Wire} {r : Res Letter} (hi : KeyInv ls w)
    (hk : s.kdf ≠ none) (h : s.wireClose P cfg rng st w data = (q, r)) :
    (∀ er, r = .error er → KeyInv ls q.2) ∧ (∀ l, r = .ok l → KeyInv (ls ++ [l]) q.2) := by
  obtain ⟨k, hk⟩ := Option.ne_none_iff_exists'.mp hk
  obtain ⟨i1, i2⟩ := keyInv_hs hi
  unfold Session.wireClose at h
  split at h
  · cases h
    exact ⟨fun _ _ => hi, fun _ h => by cases h⟩
  · rename_i nonce _
    rw [hk] at h
    simp only [sendHandshake] at h
    generalize hsw : sendSwitch P cfg rng s w nonce = x at h
    obtain ⟨w1, r1⟩ := x
    have hcase := sendSwitch_hs i1 i2 hsw
    -- the state without a new letter
    have hno : KeyInv ls w1 := by
      have hlen := keyInv_len hi
      rcases hcase with ⟨a, b, c, _⟩ | ⟨a, b⟩ | ⟨a, b, _⟩ | ⟨a, b⟩ | ⟨_, b, _⟩
      · unfold KeyInv at hi ⊢; rw [a] at hi; rw [b]; exact ⟨c, hi.2⟩
      · exact keyInv_of hlen (by simp [b])
      · unfold KeyInv at hi ⊢; rw [a] at hi; rw [b]; exact hi
      · exact keyInv_of hlen (by simp [b])
      · rw [b]; exact hi
    cases r1 with
    | error er => cases h; exact ⟨fun _ _ => hno, fun _ h => by cases h⟩
    | ok out =>
      simp only at h
      -- the state with a new letter with these keys
      have hyes : ∀ (c : Bytes) (l : Letter), l.keys = out.keys → KeyInv (ls ++ [l]) (w1.sent c out.burn) ∧ KeyInv ls (w1.sent c out.burn) := by
        intro c l hl
        obtain ⟨e1, e2⟩ := sent_hs w1 c out.burn
        rcases hcase with ⟨_, _, _, z⟩ | ⟨a, b⟩ | ⟨_, _, z⟩ | ⟨a, b⟩ | ⟨a, b, z⟩
        · cases z
        · unfold KeyInv at hi; rw [a] at hi
          refine ⟨keyInv_of ?_ (by simp [e1, b]), keyInv_of (by simp [hi.2]) (by simp [e1, b])⟩
          rw [keyLetters_snoc, hi.2]; split <;> simp
        · cases z
        · unfold KeyInv at hi; rw [a] at hi
          refine ⟨keyInv_of ?_ (by simp [e1, b]), keyInv_of (by simp at hi; simp [hi]) (by simp [e1, b])⟩
          rw [keyLetters_snoc, hi]; split <;> simp
        · have hlen := keyInv_len hi
          have hke : l.keys = [] := by rw [hl]; exact z out rfl
          refine ⟨keyInv_of ?_ (by rw [e1, b]; exact a), keyInv_of hlen (by rw [e1, b]; exact a)⟩
          rw [keyLetters_snoc, hke]; simpa using hlen
      cases hr : ratchet P s k w1.msgNo w1.sendCarry nonce out.material with
      | error e => rw [hr] at h; cases h; exact ⟨fun _ _ => hno, fun _ h => by cases h⟩
      | ok y =>
        obtain ⟨c, mat, off⟩ := y
        rw [hr] at h
        simp only at h
        have hdummy := (hyes c { keys := out.keys } rfl).2
        split at h
        · cases h; exact ⟨fun _ _ => hdummy, fun _ h => by cases h⟩
        · rename_i st1 l1 henc
          cases h
          refine ⟨fun _ _ => hdummy, fun l hl => (hyes c l ?_).1⟩
          have h1 : l1.keys = out.keys := by
            unfold encryptLetter at henc
            split at henc
            · cases henc
            · simp only [Prod.mk.injEq, protect, bind_ok_iff] at henc
              obtain ⟨_, d1, _, d2, _, m, _, h4⟩ := henc
              cases h4; rfl
          rw [← h1]
          exact signLetter_keys hl

/-- Loops over tools in which nothing happens. -/
theorem overTools_still {σ : Type} {f : σ → ToolInst → σ × Res Unit} {x x' : σ} (hf : ∀ t, f x t = (x, .ok ()) ∨ (f x t).2 = .error .panic) :
    ∀ (ts : List ToolInst) (r : Res Unit) {u : Unit}, overTools f x r ts = (x', .ok u) → x' = x
  | [], r, u, h => by cases h; rfl
  | t :: ts, r, u, h => by
    unfold overTools at h
    rcases hf t with h1 | h1
    · rw [h1] at h; exact overTools_still hf ts _ h
    · generalize f x t = y at h h1
      obtain ⟨a, b⟩ := y
      simp only at h1
      subst h1
      cases h

theorem loopKM_still {σ α : Type} {f : σ → α → σ × Res Unit} {x : σ} (hf : ∀ a, (f x a).2 = .error .panic) (as : List α) :
    loopKM f x as = (x, .ok ()) ∨ (loopKM f x as).2 = .error .panic := by
  cases as with
  | nil => exact Or.inl rfl
  | cons a as =>
    right
    have := hf a
    unfold loopKM
    generalize f x a = y at this
    obtain ⟨a, b⟩ := y
    simp only at this
    subst this
    rfl

/-- A letter without keys gives no key material to a session without secrets. -/
theorem setupOpening_nokeys {l : Letter} (hl : l.keys = []) (hsec : s.env.secrets = []) {kx : List KxPair} {ke : List KePair} {x : WOM}
    {u : Unit} (h : wSetupOpening P cfg s l kx ke = (x, .ok u)) : x = { om := { material := [], idx := 0 }, kx := kx, ke := ke } := by
  have o1 : ofScheme s.env.secrets schemeKey = [] := by rw [hsec]; rfl
  have o2 : ofScheme s.env.secrets schemePassword = [] := by rw [hsec]; rfl
  simp only [wSetupOpening, o1, o2, loopKM, List.map_nil, List.length_nil] at h
  generalize hq : overTools (fun x t => loopKM (wOpenKX P l t) x (ofScheme s.env.recipients t.info.name))
        { om := { material := [], idx := 0 }, kx := kx, ke := ke } (.ok ()) (s.queue .keyExchange) = y at h
  obtain ⟨y, r⟩ := y
  cases r with
  | error e => cases h
  | ok u' =>
    obtain rfl := overTools_still (by intro t; apply loopKM_still; intro a; simp [wOpenKX, hl]) _ _ hq
    exact overTools_still (by intro t; apply loopKM_still; intro a; simp [wOpenKE, openKE, hl]) _ _ h

theorem recvOffer_hs {w w' : Wire} {l : Letter} {r : Res Unit} (hl : l.keys ≠ []) (h : recvOffer s w l = (w', r)) :
    w'.msgNo = w.msgNo ∧ (w'.hs = w.hs ∧ r.isOk = false ∨ w'.hs = .sendKey) := by
  have : ¬ l.keys.length = 0 := by simpa using hl
  simp only [recvOffer, if_neg this] at h
  repeat' split at h
  all_goals cases h
  all_goals first | exact ⟨rfl, Or.inl ⟨rfl, rfl⟩⟩ | exact ⟨rfl, Or.inr rfl⟩

theorem recvAnswer_hs {w w' : Wire} {l : Letter} {r : Res (List Bytes)} (h : recvAnswer P w l = (w', r)) :
    w'.msgNo = w.msgNo ∧ (w'.hs = w.hs ∨ w'.hs = .sendApply) := by
  unfold recvAnswer at h
  repeat' split at h
  all_goals cases h
  all_goals first | exact ⟨rfl, Or.inl rfl⟩ | exact ⟨rfl, Or.inr rfl⟩

/-- Opening a letter keeps the invariant. -/
theorem keyInv_open {st : SState} {w : Wire} {l : Letter} {ls : List Letter} {q : SState × Wire} {r : Res Bytes} (hi : KeyInv ls w)
    (hk : s.kdf ≠ none) (hsec : s.env.secrets = []) (h : s.wireOpen P cfg st w l = (q, r)) : KeyInv ls q.2 := by
  obtain ⟨k, hk⟩ := Option.ne_none_iff_exists'.mp hk
  obtain ⟨i1, i2⟩ := keyInv_hs hi
  have hlen := keyInv_len hi
  unfold Session.wireOpen at h
  split at h
  · cases h; exact hi
  · rw [hk] at h
    simp only at h
    generalize hrh : recvHandshake P cfg s k w l = x at h
    obtain ⟨w2, r2⟩ := x
    have hq : q.2 = w2 := by cases r2 <;> (cases h; rfl)
    rw [hq]
    unfold recvHandshake at hrh
    generalize hsw : recvSwitch P cfg s w l = y at hrh
    obtain ⟨w1, r1⟩ := y
    -- the state after the switch, and after the ratchet
    have hsent : KeyInv ls w1 ∧ ∀ m b c mat off, r1 = .ok (m, b) → ratchet P s k w1.msgNo w1.recvCarry l.nonce m = .ok (c, mat, off) →
        KeyInv ls (w1.received c b) := by
      unfold recvSwitch at hsw
      cases hw : w.hs <;> rw [hw] at hsw <;> simp only at hsw
      · have hm := i2 hw
        have hkl : keyLetters ls = [] := by unfold KeyInv at hi; rw [hw] at hi; exact hi.2
        generalize hset : wSetupOpening P cfg s l w.kx w.ke = z at hsw
        obtain ⟨z, r3⟩ := z
        cases r3 with
        | error e =>
          cases hsw
          exact ⟨by unfold KeyInv; exact ⟨hm, hkl⟩, fun _ _ _ _ _ h => by cases h⟩
        | ok u =>
          simp only at hsw
          by_cases hlk : l.keys = []
          · have hlk' : l.keys.length = 0 := by simp [hlk]
            simp only [recvOffer, hlk', if_true] at hsw
            cases hsw
            refine ⟨by unfold KeyInv; exact ⟨hm, hkl⟩, ?_⟩
            intro m b c mat off hx hr
            cases hx
            exfalso
            rw [setupOpening_nokeys hlk hsec hset] at hr
            simp only [hm] at hr
            exact ratchet_material hr rfl
          · generalize hro : recvOffer s { w with kx := z.kx, ke := z.ke, hs := .init } l = v at hsw
            obtain ⟨w3, r4⟩ := v
            obtain ⟨a1, a2⟩ := recvOffer_hs hlk hro
            have : KeyInv ls w3 := by
              unfold KeyInv
              rcases a2 with a2 | a2
              · rw [a2.1]; exact ⟨by rw [a1]; exact hm, hkl⟩
              · rw [a2]; exact hkl
            cases r4 with
            | error e => cases hsw; exact ⟨this, fun _ _ _ _ _ h => by cases h⟩
            | ok u =>
              cases hsw
              refine ⟨this, ?_⟩
              intro m b c mat off _ _
              rcases a2 with a2 | a2
              · cases a2.2
              · unfold KeyInv; rw [(received_hs _ _ _).1, a2]; exact hkl
      · exact absurd hw i1
      · have hkl : keyLetters ls = [] := by unfold KeyInv at hi; rw [hw] at hi; exact hi
        cases hsw
        exact ⟨by unfold KeyInv; rw [hw]; exact hkl, fun _ _ _ _ _ _ _ => by unfold KeyInv; rw [(received_hs _ _ _).1, hw]; exact hkl⟩
      · generalize hro : recvAnswer P w l = v at hsw
        obtain ⟨w3, r4⟩ := v
        obtain ⟨a1, a2⟩ := recvAnswer_hs hro
        have a3 : w3.hs = .awaitKey ∨ w3.hs = .sendApply ∨ w3.hs = .awaitApply := by rcases a2 with a | a <;> simp [a, hw]
        cases r4 with
        | error e => cases hsw; exact ⟨keyInv_of hlen a3, fun _ _ _ _ _ h => by cases h⟩
        | ok u =>
          cases hsw
          exact ⟨keyInv_of hlen a3, fun _ _ _ _ _ _ _ => keyInv_of hlen (by rw [(received_hs _ _ _).1]; exact a3)⟩
      · cases hsw
        exact ⟨keyInv_of hlen (by simp [hw]), fun _ _ _ _ _ _ _ => keyInv_of hlen (by rw [(received_hs _ _ _).1]; simp [hw])⟩
      · split at hsw
        all_goals
          cases hsw
          exact ⟨keyInv_of hlen (by simp [hw]), fun _ _ _ _ _ _ _ => keyInv_of hlen (by rw [(received_hs _ _ _).1]; simp [hw])⟩
    cases r1 with
    | error e => cases hrh; exact hsent.1
    | ok m =>
      obtain ⟨m, b⟩ := m
      simp only at hrh
      split at hrh
      · cases hrh; exact hsent.1
      · rename_i c mat off hr
        cases hrh
        exact hsent.2 m b c mat off rfl hr

theorem keyInv_history {b : Bool} {st : SState} {ls : List Letter} {q : SState × Wire} (hk : s.kdf ≠ none) (hsec : s.env.secrets = [])
    (h : History P cfg s (st, { server := b }) ls q) : KeyInv ls q.2 := by
  induction h with
  | start => exact ⟨rfl, rfl⟩
  | sent rng data _ h ih => exact (keyInv_send ih hk h).2 _ rfl
  | failed rng data _ h ih => exact (keyInv_send ih hk h).1 _ rfl
  | opened l _ h ih => exact keyInv_open ih hk hsec h

end

/-- C23 is REFUTED: in a wire session (of either side, whatever is sent and received) at most one letter with keys is ever sent,
that is the first one, so that no key exchange follows the first, however many messages there are. -/
theorem wire_never_rekeys (P : Prims) (cfg : Config) (s : Session) (hs : WireOf P cfg s) (server : Bool) (ls : List Letter)
    (q : SState × Wire) (h : History P cfg s (s.initState, { server := server }) ls q) : (ls.filter (fun l => decide (l.keys ≠ []))).length ≤ 1 := by
  have hR : RecipientAuthentication ∈ s.reqs := (initWire_spec hs.wire).2.1 _ (by decide)
  exact keyInv_len (keyInv_history (kdfTool_of_secret hs.session hR) hs.secrets h)

/-- C23, what holds: the first letter of a session carries the keys of a key exchange. (Missing: any later exchange, see
`wire_never_rekeys`.) -/
theorem wire_first_letter_keys_partial (P : Prims) (cfg : Config) (s : Session) (hs : WireOf P cfg s) (server : Bool) (rng : Rng)
    (data : Bytes) (q : SState × Wire) (l : Letter) (h : s.wireClose P cfg rng s.initState { server := server } data = (q, .ok l)) :
    l.keys ≠ [] := by
  obtain ⟨_, h1⟩ := registered_session hs.session hs.registered
  have hR : RecipientAuthentication ∈ s.reqs := (initWire_spec hs.wire).2.1 _ (by decide)
  obtain ⟨k, hk⟩ := Option.ne_none_iff_exists'.mp (kdfTool_of_secret hs.session hR)
  have o1 : ofScheme s.env.secrets schemeKey = [] := by rw [hs.secrets]; rfl
  have o2 : ofScheme s.env.secrets schemePassword = [] := by rw [hs.secrets]; rfl
  unfold Session.wireClose at h
  split at h
  · cases h
  · rename_i nonce _
    rw [hk] at h
    simp only [sendHandshake, sendSwitch] at h
    generalize hset : wSetupClosing P cfg rng s nonce [] [] = x at h
    obtain ⟨x, r⟩ := x
    cases r with
    | error e => cases h
    | ok u =>
      simp only at h
      obtain ⟨hm, _⟩ := wSetupClosing_spec (h1 _ (by simp)) (h1 _ (by simp)) o1 o2 hset
      simp only [closingMaterial, o1, o2, List.map_nil, collectFrom, ok_bind, bind_ok_iff] at hm
      obtain ⟨kxs, _, kes, _, hm⟩ := hm
      have hm := Except.ok.inj hm
      have hlen : x.km.keys.length = x.km.material.length := by rw [← hm]; simp
      generalize hin : initiate P rng { server := server, kx := x.kx, ke := x.ke } x.km = y at h
      obtain ⟨w1, r⟩ := y
      cases r with
      | error e => cases h
      | ok out =>
        have hout : (∃ a, out.keys = x.km.keys ++ a) ∧ out.material = x.km.material ∧ w1.msgNo = 0 := by
          unfold initiate at hin
          rw [if_pos (Or.inl rfl)] at hin
          split at hin
          · cases hin
          · split at hin
            · cases hin
            · cases hin; exact ⟨⟨_, List.append_assoc ..⟩, rfl, rfl⟩
        obtain ⟨⟨a, ha⟩, hmat, hmsg⟩ := hout
        simp only [hmsg] at h
        split at h
        · cases h
        · rename_i w' hh hrr
          have hne : out.keys ≠ [] ∧ hh.keys = out.keys := by
            split at hrr
            · cases hrr
            · rename_i c mat off hrat
              cases hrr
              have := ratchet_material hrat
              rw [hmat] at this
              refine ⟨?_, rfl⟩
              rw [ha]
              intro h0
              have h0 := (List.append_eq_nil_iff.mp h0).1
              rw [h0] at hlen
              exact this (List.length_eq_zero_iff.mp hlen.symm)
          split at h
          · cases h
          · rename_i st1 l1 henc
            simp only [Prod.mk.injEq] at h
            have h1 : l1.keys = hh.keys := by
              unfold encryptLetter at henc
              split at henc
              · cases henc
              · simp only [Prod.mk.injEq, protect, bind_ok_iff] at henc
                obtain ⟨_, d1, _, d2, _, m, _, h4⟩ := henc
                cases h4; rfl
            rw [signLetter_keys h.2, h1, hne.2]
            exact hne.1

/-! ### A party that has sent any number of messages -/

/-- Sending while waiting does not depend on the message number. -/
theorem waiting_shift {P : Prims} {cfg : Config} {rng : Rng} {s : Session} {st st' : SState} {w w' : Wire} {data : Bytes} {l : Letter}
    (hw : w.hs = .awaitKey) (hm : w.msgNo = 1) (n : Nat) (h : s.wireClose P cfg rng st w data = ((st', w'), .ok l)) (hk : s.kdf ≠ none)  :
    s.wireClose P cfg rng st { w with msgNo := n + 1 } data = ((st', { w' with msgNo := n + 2 }), .ok l) := by
  obtain ⟨k, hk⟩ := Option.ne_none_iff_exists'.mp hk
  unfold Session.wireClose at h ⊢
  split at h
  · cases h
  · rename_i nonce _
    rw [hk] at h ⊢
    have e1 : ∀ w0 : Wire, w0.hs = .awaitKey → sendSwitch P cfg rng s w0 nonce = (w0, .ok {}) := by
      intro w0 h0; unfold sendSwitch; rw [h0]
    have e2 : ratchet P s k (n + 1) w.sendCarry nonce [] = ratchet P s k 1 w.sendCarry nonce [] :=
      ratchet_pos P s k (by omega) _ _ _
    have e3 : wireHeader s { w with msgNo := n + 1 } nonce = { nonce := nonce } := by simp [wireHeader]
    have e4 : wireHeader s w nonce = { nonce := nonce } := by simp [wireHeader, hm]
    simp only [sendHandshake, e1 w hw, e1 { w with msgNo := n + 1 } hw, hm, e2, e3, e4] at h ⊢
    cases hr : ratchet P s k 1 w.sendCarry nonce [] with
    | error e => rw [hr] at h; cases h
    | ok y =>
      obtain ⟨c, mat, off⟩ := y
      rw [hr] at h
      simp only at h ⊢
      generalize hen : encryptLetter P s st k mat off { nonce := nonce } data = z at h ⊢
      obtain ⟨st1, r⟩ := z
      cases r with
      | error e => cases h
      | ok l1 =>
        simp only at h ⊢
        simp only [Prod.mk.injEq] at h ⊢
        obtain ⟨⟨h1, h2⟩, h3⟩ := h
        refine ⟨⟨h1, ?_⟩, h3⟩
        rw [← h2]
        simp [Wire.sent, hm]

/-- A reader with which the carryover key of the toy key derivation happens to stay the same. -/
def longRng : Rng := { read := fun _ n => .ok (201 :: List.replicate (n - 1) 0), seed := fun i => [UInt8.ofNat (i + 7), 5, 9] }

/-- The history that C23 is about exists: more than ten million messages, so that re-keying is needed and the client is to start
it, but the next letter has no keys. -/
theorem wire_rekey_example : ∃ s w ls q q' l, toyWire = .ok (s, w) ∧ WireOf toyPrims toyConfig s ∧
    History toyPrims toyConfig s (s.initState, w) ls q ∧ q.2.reKeyNeeded = true ∧ q.2.server = false ∧
    s.wireClose toyPrims toyConfig longRng q.1 q.2 [1] = (q', .ok l) ∧ l.keys = [] ∧ q'.2.hs = q.2.hs := by
  have h : (match toyWire with
    | .ok (s, w) => s.kdf.isSome &&
      (match s.wireClose toyPrims toyConfig longRng s.initState w [1] with
      | (q, .ok _) => decide (q.2.hs = .awaitKey ∧ q.2.msgNo = 1 ∧ q.2.server = false ∧ q.2.lastReKey = 0) &&
        (match s.wireClose toyPrims toyConfig longRng q.1 q.2 [1] with
        | (q2, .ok l) => decide (q2.1 = q.1) && decide (q2.2 = { q.2 with msgNo := 2 }) && decide (l.keys = [])
        | _ => false)
      | _ => false)
    | .error _ => false) = true := by decide +kernel
  split at h
  · rename_i s w hs
    obtain ⟨B, hw⟩ := wireOf_envelope (by intro su h; cases h) hs
    simp only [Bool.and_eq_true] at h
    obtain ⟨hk, h⟩ := h
    have hk : s.kdf ≠ none := by intro h; rw [h] at hk; cases hk
    split at h
    · rename_i q l0 hq
      simp only [Bool.and_eq_true, decide_eq_true_eq] at h
      obtain ⟨⟨a1, a2, a3, a4⟩, h⟩ := h
      split at h
      · rename_i q2 l hq2
        simp only [Bool.and_eq_true, decide_eq_true_eq] at h
        obtain ⟨⟨b1, b2⟩, b3⟩ := h
        obtain ⟨st, wq⟩ := q
        obtain ⟨st2, w2⟩ := q2
        simp only at a1 a2 a3 a4 b1 b2 hq2
        subst b1 b2
        have step : ∀ n, s.wireClose toyPrims toyConfig longRng st2 { wq with msgNo := n + 1 } [1] =
            ((st2, { wq with msgNo := n + 2 }), .ok l) := by
          intro n; have := waiting_shift a1 a2 n hq2 hk; exact this
        have reach : ∀ n, ∃ ls, History toyPrims toyConfig s (s.initState, w) ls (st2, { wq with msgNo := n + 1 }) := by
          intro n
          induction n with
          | zero =>
            have := History.sent (p := (s.initState, w)) (q := (s.initState, w)) (P := toyPrims) (cfg := toyConfig) (s := s) longRng [1] .start hq
            refine ⟨[l0], ?_⟩
            rw [show ({ wq with msgNo := 0 + 1 } : Wire) = wq by rw [Nat.zero_add, ← a2]]
            exact this
          | succ n ih => obtain ⟨ls, ih⟩ := ih; exact ⟨_, .sent longRng [1] ih (step n)⟩
        obtain ⟨ls, hls⟩ := reach (wireReKeyAfter + 1)
        exact ⟨s, w, ls, _, _, l, hs, B, hls, by simp [Wire.reKeyNeeded, a4, wireReKeyAfter], a3, step _, b3, rfl⟩
      · cases h
    · cases h
  · cases h

end Jess
