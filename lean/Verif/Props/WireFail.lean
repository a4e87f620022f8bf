import Verif.Props.WirePanic
import Verif.Props.WireOrder

/-!
C68: a failing `Close` of a wire session can be repeated. It holds for every failing `Close` except the one that answers the handshake and
the first one to several recipients; for those two it is REFUTED.
-/

namespace Jess

open Requirements

section
variable {P : Prims} {cfg : Config} {s : Session}

/-- The first generation of a key with this source of random numbers fails. -/
def NoKey (P : Prims) (rng : Rng) : Prop := ∀ tool, ∃ e, P.genKey tool (rng.seed 1) = .error e

/-- The states in which sending generates no key. -/
def HState.Late (h : HState) : Prop := h = .awaitKey ∨ h = .sendApply ∨ h = .awaitApply

theorem recvSwitch_late {w : Wire} {l : Letter} (h : w.hs.Late) : (recvSwitch P cfg s w l).1.hs.Late := by
  unfold recvSwitch
  rcases h with h | h | h <;> rw [h] <;> simp only
  · unfold recvAnswer
    repeat' split
    all_goals (rename_i he; repeat' split at he)
    all_goals cases he
    all_goals simp [HState.Late, h]
  · simp [HState.Late, h]
  · split <;> simp [HState.Late, h]

theorem wireOpen_hs {st : SState} {w : Wire} {l : Letter} {q : SState × Wire} {r : Res Bytes}
    (h : s.wireOpen P cfg st w l = (q, r)) : q.2 = w ∨ q.2 = (recvSwitch P cfg s w l).1 ∨
      ∃ c m b, (recvSwitch P cfg s w l).2 = .ok (m, b) ∧ q.2 = (recvSwitch P cfg s w l).1.received c b := by
  unfold Session.wireOpen at h
  split at h
  · cases h; exact Or.inl rfl
  · split at h
    · split at h <;> (cases h; exact Or.inl rfl)
    · unfold recvHandshake at h
      generalize recvSwitch P cfg s w l = x at h ⊢
      obtain ⟨w1, r1⟩ := x
      refine Or.inr ?_
      cases r1 with
      | error e => cases h; exact Or.inl rfl
      | ok o =>
        obtain ⟨m, b⟩ := o
        simp only at h
        split at h
        · rename_i he
          split at he
          · cases he; cases h; exact Or.inl rfl
          · cases he
        · rename_i he
          split at he
          · cases he
          · rename_i c _ _ _
            cases he; cases h; exact Or.inr ⟨c, m, b, rfl, rfl⟩

theorem wireOpen_late {st : SState} {w : Wire} {l : Letter} {q : SState × Wire} {r : Res Bytes} (hw : w.hs.Late)
    (h : s.wireOpen P cfg st w l = (q, r)) : q.2.hs.Late := by
  rcases wireOpen_hs h with e | e | ⟨c, m, b, hb, e⟩
  · rw [e]; exact hw
  · rw [e]; exact recvSwitch_late hw
  · rw [e, (received_hs _ c b).1]; exact recvSwitch_late hw

/-- After a successful send. -/
theorem wireClose_late {rng : Rng} {st : SState} {w : Wire} {data : Bytes} {q : SState × Wire} {r : Res Letter} (hi : w.hs ≠ .idle)
    (hz : w.hs = .init → w.msgNo = 0) (hk : s.kdf ≠ none) (hr : r.isOk = true ∨ w.hs.Late) (h : s.wireClose P cfg rng st w data = (q, r)) :
    q.2.hs.Late := by
  obtain ⟨k, hk⟩ := Option.ne_none_iff_exists'.mp hk
  unfold Session.wireClose at h
  split at h
  · cases h
    rcases hr with hr | hr
    · cases hr
    · exact hr
  · rename_i nonce _
    rw [hk] at h
    simp only [sendHandshake] at h
    generalize hsw : sendSwitch P cfg rng s w nonce = x at h
    obtain ⟨w1, r1⟩ := x
    have hc := sendSwitch_hs hi hz hsw
    cases r1 with
    | error e =>
      cases h
      rcases hr with hr | hr
      · cases hr
      · rcases hc with ⟨a, _⟩ | ⟨a, _⟩ | ⟨a, _⟩ | ⟨a, _⟩ | ⟨_, b, _⟩
        · rw [a] at hr; simp [HState.Late] at hr
        · rw [a] at hr; simp [HState.Late] at hr
        · rw [a] at hr; simp [HState.Late] at hr
        · rw [a] at hr; simp [HState.Late] at hr
        · rw [b]; exact hr
    | ok out =>
      have h1 : w1.hs.Late := by
        rcases hc with ⟨_, _, _, b⟩ | ⟨_, b⟩ | ⟨_, _, b⟩ | ⟨_, b⟩ | ⟨a, b, _⟩
        · cases b
        · exact Or.inl b
        · cases b
        · exact Or.inr (Or.inr b)
        · rw [b]; exact a
      simp only at h
      split at h
      · rename_i he
        split at he <;> cases he
        cases h; exact h1
      · rename_i he
        split at he <;> cases he
        split at h <;> (cases h; rw [(sent_hs _ _ _).1]; exact h1)

theorem history_late {b : Bool} {st : SState} {ls : List Letter} {q : SState × Wire} (hk : s.kdf ≠ none) (hsec : s.env.secrets = [])
    (h : History P cfg s (st, { server := b }) ls q) (hl : ls ≠ []) : q.2.hs.Late := by
  induction h with
  | start => exact absurd rfl hl
  | sent rng data hh h ih =>
    obtain ⟨h1, h2⟩ := keyInv_hs (keyInv_history hk hsec hh)
    exact wireClose_late h1 h2 hk (Or.inl rfl) h
  | failed rng data hh h ih =>
    obtain ⟨h1, h2⟩ := keyInv_hs (keyInv_history hk hsec hh)
    exact wireClose_late h1 h2 hk (Or.inr (ih hl)) h
  | opened l hh h ih => exact wireOpen_late (ih hl) h

theorem WireOf.hasKdf (B : WireOf P cfg s) : s.kdf ≠ none := by
  have hR : RecipientAuthentication ∈ s.reqs := (initWire_spec B.wire).2.1 _ (by decide)
  exact kdfTool_of_secret B.session hR

theorem signLetter_rng (hsg : s.queue .signing = []) (rng : Rng) (st : SState) (n : Nat) (ad : Bytes) (l : Letter) :
    signLetter P rng s st n ad l = (st, .ok l) := by
  unfold signLetter; rw [hsg]; rfl

end

/-! ## What holds -/

/-- C68. If the nonce cannot be read, nothing has happened. -/
theorem wire_close_no_nonce (P : Prims) (cfg : Config) (s : Session) (rng : Rng) (st : SState) (w : Wire) (data : Bytes) (e : Err)
    (h : randomBytes rng 0 s.nonceSize = .error e) : s.wireClose P cfg rng st w data = ((st, w), .error e) := by
  unfold Session.wireClose; rw [h]

/-- C68. A party that has sent a letter needs no random numbers but the nonce for all further ones, whatever happened before. -/
theorem wire_later_sends_read_nonce (P : Prims) (cfg : Config) (s : Session) (hs : WireOf P cfg s) (server : Bool) (ls : List Letter)
    (q : SState × Wire) (h : History P cfg s (s.initState, { server := server }) ls q) (hl : ls ≠ []) (rng rng' : Rng)
    (hr : rng.read 0 s.nonceSize = rng'.read 0 s.nonceSize) (data : Bytes) :
    s.wireClose P cfg rng q.1 q.2 data = s.wireClose P cfg rng' q.1 q.2 data := by
  have hlate := history_late hs.hasKdf hs.secrets h hl
  obtain ⟨k, T⟩ := hs.tools
  have hn : randomBytes rng 0 s.nonceSize = randomBytes rng' 0 s.nonceSize := by unfold randomBytes; rw [hr]
  have hsw : ∀ nonce, sendSwitch P cfg rng s q.2 nonce = sendSwitch P cfg rng' s q.2 nonce := by
    intro nonce
    unfold sendSwitch
    rcases hlate with h | h | h <;> rw [h]
  unfold Session.wireClose
  rw [hn, T.kdf]
  simp only [sendHandshake, hsw, signLetter_rng T.signing]

theorem noKey_offer {P : Prims} {rng : Rng} (h : NoKey P rng) (t : ToolInst) (r : Signet) : ∃ e, kxOffer P t (rng.seed 1) r = .error e := by
  unfold kxOffer generateSignet
  cases getTool t.info.name with
  | none => exact ⟨_, rfl⟩
  | some t =>
    simp only
    split
    · obtain ⟨e, he⟩ := h t.name
      rw [he]
      exact ⟨e, rfl⟩
    · exact ⟨_, rfl⟩

/-- C68. If the first letter fails because no key can be generated, nothing has happened. -/
theorem wire_first_close_no_key (P : Prims) (cfg : Config) (s : Session) (hs : WireOf P cfg s) (server : Bool) (st : SState) (rng : Rng)
    (hr : NoKey P rng) (data : Bytes) :
    ∃ e, s.wireClose P cfg rng st { server := server } data = ((st, { server := server }), .error e) := by
  obtain ⟨k, T⟩ := hs.tools
  have o1 : ofScheme s.env.secrets schemeKey = [] := by rw [hs.secrets]; rfl
  have o2 : ofScheme s.env.secrets schemePassword = [] := by rw [hs.secrets]; rfl
  obtain ⟨_, hone⟩ := registered_session hs.session hs.registered
  obtain ⟨t, r, ht, hre⟩ := hs.kxPairs
  have hq : s.queue .keyExchange = [t] := by
    have h1 := hone .keyExchange (by simp)
    cases h : s.queue .keyExchange with
    | nil => rw [h] at ht; cases ht
    | cons a as =>
      rw [h] at ht h1
      cases as with
      | nil => cases List.mem_singleton.mp ht; rfl
      | cons _ _ => simp only [List.length_cons] at h1; omega
  unfold Session.wireClose
  cases hn : randomBytes rng 0 s.nonceSize with
  | error e => exact ⟨e, rfl⟩
  | ok nonce =>
    simp only [T.kdf, sendHandshake, sendSwitch, wSetupClosing, o1, o2, hq, loopKM, closeKeys, overTools]
    cases hrs : ofScheme s.env.recipients t.info.name with
    | nil => rw [hrs] at hre; cases hre
    | cons a as =>
      obtain ⟨e, he⟩ := noKey_offer hr t a
      refine ⟨e, ?_⟩
      simp only [loopKM, wCloseKX, he, List.nil_append, List.append_nil, List.map_nil]
      cases e <;> rfl

/-- C68, what holds: a party with any past whose `Close` fails because the source of random numbers fails — when reading the nonce, or for the
first letter when generating the (first) key — is in the state it was in before, so that the next `Close` does what this one would have done.
(Missing: the answer to the first letter, see `wire_answer_lost`; a first letter to several recipients for which the generation of a later key
fails, see `wire_retry_refuted`.) -/
theorem wire_close_repeats_partial (P : Prims) (cfg : Config) (s : Session) (hs : WireOf P cfg s) (server : Bool) (ls : List Letter)
    (q : SState × Wire) (h : History P cfg s (s.initState, { server := server }) ls q) (rng : Rng) (data : Bytes)
    (hr : (randomBytes rng 0 s.nonceSize).isOk = false ∨ (NoKey P rng ∧ (ls ≠ [] ∨ q.2 = { server := server }))) :
    (∃ e, s.wireClose P cfg rng q.1 q.2 data = (q, .error e)) ∨
    ∀ rng', rng'.read 0 s.nonceSize = rng.read 0 s.nonceSize → s.wireClose P cfg rng q.1 q.2 data = s.wireClose P cfg rng' q.1 q.2 data := by
  rcases hr with hr | ⟨hr, hl | hq⟩
  · cases hn : randomBytes rng 0 s.nonceSize with
    | error e => exact Or.inl ⟨e, wire_close_no_nonce P cfg s rng q.1 q.2 data e hn⟩
    | ok n => rw [hn] at hr; cases hr
  · exact Or.inr (fun rng' hr' => wire_later_sends_read_nonce P cfg s hs server ls q h hl rng rng' hr'.symm data)
  · obtain ⟨st, w⟩ := q
    cases hq
    exact Or.inl (wire_first_close_no_key P cfg s hs server st rng hr data)

/-! ## What does not hold -/

section
variable {P : Prims} {cfg : Config} {s : Session}

/-- The state of a party that is to answer, but has a pair without a private key. -/
def Stuck (w : Wire) : Prop := w.hs = .sendKey ∧ ∃ p ∈ w.kx, ∃ g, p.signet = some g ∧ g.loadedPriv = none

theorem genKX_keeps (rng : Rng) : ∀ (ps : List KxPair) (c : Nat) (p : KxPair), p ∈ ps → p.signet.isSome = true → p ∈ (genKX P rng c ps).1
  | [], _, _, h, _ => by cases h
  | a :: ps, c, p, h, hp => by
    rw [genKX]
    rcases List.mem_cons.mp h with rfl | h
    · cases hs : p.signet with
      | none => rw [hs] at hp; cases hp
      | some g => exact List.mem_cons_self
    · have ih := genKX_keeps rng ps (c + 1) p h hp
      split
      · exact List.mem_cons_of_mem _ ih
      · split
        · exact List.mem_cons_of_mem _ h
        · exact List.mem_cons_of_mem _ ih

theorem sharedKeys_stuck : ∀ (ps : List KxPair) (p : KxPair) (g : Signet), p ∈ ps → p.signet = some g → g.loadedPriv = none →
    ∃ e, (sharedKeys P ps).2 = .error e
  | [], _, _, h, _, _ => by cases h
  | a :: ps, p, g, h, h1, h2 => by
    rw [sharedKeys]
    rcases List.mem_cons.mp h with rfl | h
    · have : ∃ e, (sharedKey P p).2 = .error e := by
        unfold sharedKey
        rw [h1]
        cases p.peer with
        | none => exact ⟨_, rfl⟩
        | some q =>
          simp only
          split
          · exact ⟨_, rfl⟩
          · unfold makeShared; rw [h2]; exact ⟨_, rfl⟩
      obtain ⟨e, he⟩ := this
      generalize sharedKey P p = x at he
      obtain ⟨x1, x2⟩ := x
      simp only at he
      subst he
      exact ⟨e, rfl⟩
    · obtain ⟨e, he⟩ := sharedKeys_stuck ps p g h h1 h2
      split
      · exact ⟨_, rfl⟩
      · rw [he]; exact ⟨e, rfl⟩

theorem sharedKeys_has {ps : List KxPair} {p : KxPair} {g : Signet} (h : p ∈ ps) (h1 : p.signet = some g) :
    ∃ p' ∈ (sharedKeys P ps).1, p'.signet = some g := by
  have := sharedKeys_signets (P := P) ps
  have hm : some g ∈ (sharedKeys P ps).1.map (·.signet) := by
    rw [this]; exact List.mem_map.mpr ⟨p, h, h1⟩
  obtain ⟨p', a, b⟩ := List.mem_map.mp hm
  exact ⟨p', a, b⟩

theorem complete_stuck {rng : Rng} {w : Wire} (h : Stuck w) : ∃ e, (complete P rng s w).2 = .error e ∧ Stuck (complete P rng s w).1 := by
  obtain ⟨h0, p, hp, g, h1, h2⟩ := h
  have hk := genKX_keeps (P := P) rng w.kx 1 p hp (by rw [h1]; rfl)
  unfold complete
  generalize genKX P rng 1 w.kx = x at hk
  obtain ⟨kx, r⟩ := x
  simp only at hk
  cases r with
  | error e => exact ⟨e, rfl, h0, p, hk, g, h1, h2⟩
  | ok a =>
    simp only
    obtain ⟨e, he⟩ := sharedKeys_stuck (P := P) kx p g hk h1 h2
    obtain ⟨p', hp', hg⟩ := sharedKeys_has (P := P) hk h1
    generalize sharedKeys P kx = y at he hp'
    obtain ⟨y1, y2⟩ := y
    simp only at he hp'
    subst he
    exact ⟨e, rfl, h0, p', hp', g, hg, h2⟩

/-- A stuck party never sends again. -/
theorem stuck_close (hk : s.kdf ≠ none) (rng : Rng) (st : SState) {w : Wire} (h : Stuck w) (data : Bytes) :
    (∃ e, (s.wireClose P cfg rng st w data).2 = .error e) ∧ Stuck (s.wireClose P cfg rng st w data).1.2 := by
  obtain ⟨k, hk⟩ := Option.ne_none_iff_exists'.mp hk
  unfold Session.wireClose
  split
  · exact ⟨⟨_, rfl⟩, h⟩
  · rw [hk]
    simp only [sendHandshake, sendSwitch, h.1]
    obtain ⟨e, he, hst⟩ := complete_stuck (P := P) (s := s) (rng := rng) h
    generalize complete P rng s w = x at he hst
    obtain ⟨x1, x2⟩ := x
    simp only at he hst
    subst he
    exact ⟨⟨e, rfl⟩, hst⟩

theorem stuck_history (hk : s.kdf ≠ none) {q q' : SState × Wire} {ls : List Letter} (hq : Stuck q.2) (h : History P cfg s q ls q') :
    ls = [] ∧ Stuck q'.2 := by
  induction h with
  | start => exact ⟨rfl, hq⟩
  | sent rng data _ h ih =>
    obtain ⟨e, he⟩ := (stuck_close (P := P) (cfg := cfg) hk rng _ ih.2 data).1
    rw [h] at he; cases he
  | @failed q ls rng data q' er _ h ih =>
    refine ⟨ih.1, ?_⟩
    have := (stuck_close (P := P) (cfg := cfg) hk rng q.1 ih.2 data).2
    rw [h] at this; exact this
  | opened l _ h ih =>
    refine ⟨ih.1, ?_⟩
    have hsw : ∀ w : Wire, Stuck w → (recvSwitch P cfg s w l).1 = w := by
      intro w hw; unfold recvSwitch; rw [hw.1]
    rcases wireOpen_hs h with e | e | ⟨c, m, b, hb, e⟩
    · rw [e]; exact ih.2
    · rw [e, hsw _ ih.2]; exact ih.2
    · rw [e, hsw _ ih.2]
      have hf : b = false := by
        unfold recvSwitch at hb; rw [ih.2.1] at hb; cases hb; rfl
      subst hf
      exact ih.2

theorem wOpenKX_anon (l : Letter) (t : ToolInst) (x : WOM) (r : Signet) (h : ∀ p ∈ x.kx, p.signet = none) :
    ∀ p ∈ (wOpenKX P l t x r).1.kx, p.signet = none := by
  have hx : ∀ peer, ∀ p ∈ x.kx ++ [{ tool := t, peer := peer }], p.signet = none := by
    intro peer p hp
    rcases List.mem_append.mp hp with hp | hp
    · exact h p hp
    · cases List.mem_singleton.mp hp; rfl
  unfold wOpenKX
  repeat' split
  · exact h
  · exact h
  · exact hx _
  · exact hx _

theorem wSetupOpening_anon (B : WireOf P cfg s) (l : Letter) : ∀ p ∈ (wSetupOpening P cfg s l [] []).1.kx, p.signet = none := by
  have o1 : ofScheme s.env.secrets schemeKey = [] := by rw [B.secrets]; rfl
  have o2 : ofScheme s.env.secrets schemePassword = [] := by rw [B.secrets]; rfl
  unfold wSetupOpening
  rw [o1, o2, B.noKE]
  simp only [loopKM, overTools, List.map_nil, List.length_nil]
  have h := overTools_inv (f := fun x t => loopKM (wOpenKX P l t) x (ofScheme s.env.recipients t.info.name))
    (I := fun x : WOM => ∀ p ∈ x.kx, p.signet = none)
    (fun x t hx => loopKM_inv (I := fun x : WOM => ∀ p ∈ x.kx, p.signet = none) (fun x r hx => wOpenKX_anon l t x r hx) _ x hx)
    (s.queue .keyExchange) { om := { material := [], idx := 0 }, kx := [], ke := [] } (.ok ()) (by intro p hp; cases hp)
  split
  · rename_i he; erw [he] at h; exact h
  · rename_i he; erw [he] at h; exact h

theorem assignKX_anon (v : UInt8) (keys : List Seal) : ∀ (ps : List KxPair) (i : Nat), (∀ p ∈ ps, p.signet = none) →
    (∀ p ∈ (assignKX v keys i ps).1, p.signet = none) ∧ (assignKX v keys i ps).1.length = ps.length
  | [], _, h => ⟨h, rfl⟩
  | p :: ps, i, h => by
    obtain ⟨a, b⟩ := assignKX_anon v keys ps (i + 1) (fun p hp => h p (List.mem_cons_of_mem _ hp))
    rw [assignKX]
    split
    · exact ⟨h, rfl⟩
    · refine ⟨?_, by simp [b]⟩
      intro p' hp'
      rcases List.mem_cons.mp hp' with rfl | hp'
      · exact h p List.mem_cons_self
      · exact a p' hp'

/-- The state of a party that has accepted its first letter. -/
theorem accepted_state (B : WireOf P cfg s) {b : Bool} {st : SState} {q : SState × Wire} {l : Letter} {d : Bytes}
    (h : s.wireOpen P cfg st { server := b } l = (q, .ok d)) :
    q.2.hs = .sendKey ∧ ∃ p ps, q.2.kx = p :: ps ∧ p.signet = none := by
  have hl : l.keys ≠ [] := by
    intro hl
    have := wire_open_panics P cfg s B st { server := b } rfl l hl
    rw [h] at this; cases this
  have hn : l.keys.length ≠ 0 := fun h => hl (List.eq_nil_of_length_eq_zero h)
  obtain ⟨k, T⟩ := B.tools
  have han := wSetupOpening_anon B l
  have hke := wSetupOpening_ke B l []
  unfold Session.wireOpen at h
  rw [B.noSig, T.kdf] at h
  simp only [recvHandshake, recvSwitch] at h
  generalize wSetupOpening P cfg s l [] [] = x at h han hke
  obtain ⟨x, r⟩ := x
  cases r with
  | error e => cases h
  | ok u =>
    simp only at h han hke
    simp only [recvOffer, hn, if_false, B.noKE, List.isEmpty_nil, true_and, hke, List.length_nil, Nat.add_zero, ite_not] at h
    by_cases hle : l.keys.length = x.kx.length
    · simp only [hle, if_true] at h
      obtain ⟨a1, a2⟩ := assignKX_anon l.version l.keys x.kx 0 han
      have hok := (assignKX_spec l.version l.keys x.kx 0 (by omega)).1
      generalize assignKX l.version l.keys 0 x.kx = y at h a1 a2 hok
      obtain ⟨kx, r⟩ := y
      simp only at a1 a2 hok
      subst hok
      simp only [assignKE] at h
      split at h
      · cases h
      · rename_i he
        split at he
        · cases he
        · cases he
          obtain ⟨rfl, _⟩ := Prod.mk.inj h
          refine ⟨rfl, ?_⟩
          cases kx with
          | nil => simp at a2; omega
          | cons p ps => exact ⟨p, ps, rfl, a1 p List.mem_cons_self⟩
    · simp only [hle, if_false] at h
      cases h

theorem noKey_newLocal {rng : Rng} (h : NoKey P rng) (t : ToolInst) :
    ∃ g e, newLocal P t (rng.seed 1) = (g, .error e) ∧ g.loadedPriv = none := by
  have : ∃ e, generateSignet P t.info.name (rng.seed 1) = .error e := by
    unfold generateSignet
    cases getTool t.info.name with
    | none => exact ⟨_, rfl⟩
    | some t =>
      simp only
      split
      · obtain ⟨e, he⟩ := h t.name
        rw [he]
        exact ⟨e, rfl⟩
      · exact ⟨_, rfl⟩
  obtain ⟨e, he⟩ := this
  unfold newLocal
  rw [he]
  exact ⟨_, e, rfl, rfl⟩

end

/-- C68 is REFUTED for the answer to the first letter: a party accepts the first letter of its peer, reads a nonce for the answer, but the
generation of the key fails. Whatever happens afterwards — with working random numbers, with any letters received —, it never sends a letter
again. -/
theorem wire_answer_lost (P : Prims) (cfg : Config) (s : Session) (hs : WireOf P cfg s) (server : Bool) (st : SState) (l : Letter)
    (d : Bytes) (q : SState × Wire) (ho : s.wireOpen P cfg st { server := server } l = (q, .ok d)) (rng : Rng) (nonce : Bytes)
    (hn : randomBytes rng 0 s.nonceSize = .ok nonce) (hr : NoKey P rng) (data : Bytes) :
    ∃ q' e, s.wireClose P cfg rng q.1 q.2 data = (q', .error e) ∧
      ∀ ls q'', History P cfg s q' ls q'' → ls = [] ∧
        ∀ (rng' : Rng) data', ∃ e, (s.wireClose P cfg rng' q''.1 q''.2 data').2 = .error e := by
  obtain ⟨h1, p, ps, h2, h3⟩ := accepted_state hs ho
  obtain ⟨k, T⟩ := hs.tools
  obtain ⟨g, e, he, hg⟩ := noKey_newLocal hr p.tool
  have hc : s.wireClose P cfg rng q.1 q.2 data = ((q.1, { q.2 with kx := { p with signet := some g } :: ps }), .error e) := by
    unfold Session.wireClose
    rw [hn, T.kdf]
    simp only [sendHandshake, sendSwitch, h1, complete, h2, genKX, h3, he]
  have hst : Stuck { q.2 with kx := { p with signet := some g } :: ps } := ⟨h1, _, List.mem_cons_self, g, rfl, hg⟩
  refine ⟨_, e, hc, ?_⟩
  intro ls q'' hh
  obtain ⟨a, b⟩ := stuck_history hs.hasKdf hst hh
  exact ⟨a, fun rng' data' => (stuck_close hs.hasKdf rng' q''.1 b data').1⟩

/-! ## Concrete cases -/

/-- Primitives that can generate no key from an empty seed. -/
def seedPrims : Prims := { toyPrims with genKey := fun _ seed => if seed = [] then .error .env else .ok (seed, seed) }

/-- A source of random numbers that delivers a nonce, but nothing for keys. -/
def dryRng : Rng := { toyRng with seed := fun _ => [] }

/-- A source of random numbers that delivers a nonce and one key. -/
def scarceRng : Rng := { toyRng with seed := fun i => if i = 1 then [8, 5, 9] else [] }

theorem dryRng_noKey : NoKey seedPrims dryRng := fun _ => ⟨.env, rfl⟩

/-- A trust store with two recipients. -/
def twoWorld : World :=
  { store := some (fun id recipient =>
      if id = b!"carol" then .ok { version := 1, id := id, scheme := b!"ECDH-X25519", key := [1, 20, 30, 40], isPublic := recipient }
      else toyStore id recipient) }

/-- A wire session to the given recipients. -/
def seedWire (to : List Bytes) : Res (Session × Wire) :=
  wireCorrespondence seedPrims toyConfig twoWorld suiteRegistry (toyEnvelope b!"w1" [] [] to)

/-- The client sends (it needs the given attempts), the server opens the letter and answers, the client opens the answer: how often the client
failed, what the server got, and what the client got. -/
def seedTalk (attempts : List Rng) (to : List Bytes) : Option (List Bool × Bytes × Res Bytes) :=
  match seedWire to with
  | .error _ => none
  | .ok (s, w) =>
    let c := attempts.foldl (fun (x : (SState × Wire) × List Bool × Option Letter) rng =>
        let r := s.wireClose seedPrims toyConfig rng x.1.1 x.1.2 b!"hello"
        (r.1, x.2.1 ++ [r.2.isOk], match r.2 with | .ok l => some l | .error _ => none)) ((s.initState, w), [], none)
    match c with
    | (_, _, none) => none
    | (c, oks, some l) =>
      match l.wireCorrespondence seedPrims toyConfig twoWorld suiteRegistry with
      | .error _ => none
      | .ok (v, wv) =>
        match v.wireOpen seedPrims toyConfig v.initState wv.asServer l with
        | (_, .error _) => none
        | (q, .ok d) =>
          match v.wireClose seedPrims toyConfig toyRng q.1 q.2 b!"welcome" with
          | (_, .error _) => none
          | (_, .ok a) => some (oks, d, (s.wireOpen seedPrims toyConfig c.1 c.2 a).2)

/-- C68 is REFUTED for a first letter to several recipients: if the generation of the second key fails and `Close` is repeated, the
letter is accepted, but its answer is rejected as malformed (the client holds three pairs for two keys). Without the failure, with a failure of
the first key, or with one recipient, the answer is accepted. -/
theorem wire_retry_refuted :
    seedTalk [scarceRng, toyRng] [b!"bob", b!"carol"] = some ([false, true], b!"hello", .error .malformed) ∧
    seedTalk [toyRng] [b!"bob", b!"carol"] = some ([true], b!"hello", .ok b!"welcome") ∧
    seedTalk [dryRng, toyRng] [b!"bob", b!"carol"] = some ([false, true], b!"hello", .ok b!"welcome") ∧
    seedTalk [dryRng, dryRng, toyRng] [b!"bob"] = some ([false, false, true], b!"hello", .ok b!"welcome") := by
  refine ⟨?_, ?_, ?_, ?_⟩ <;> decide +kernel

/-- The hypotheses of `wire_answer_lost` and of `wire_later_sends_read_nonce` are met: the client sends, the server accepts; and the client can
go on sending with `dryRng`. -/
theorem wire_lost_example : ∃ s w c l v wv q, seedWire [b!"bob"] = .ok (s, w) ∧ WireOf seedPrims toyConfig s ∧
    s.wireClose seedPrims toyConfig toyRng s.initState { server := false } b!"hello" = (c, .ok l) ∧
    History seedPrims toyConfig s (s.initState, { server := false }) [l] c ∧
    (s.wireClose seedPrims toyConfig dryRng c.1 c.2 b!"more").2.isOk = true ∧
    l.wireCorrespondence seedPrims toyConfig twoWorld suiteRegistry = .ok (v, wv) ∧ WireOf seedPrims toyConfig v ∧
    v.wireOpen seedPrims toyConfig v.initState { server := true } l = (q, .ok b!"hello") ∧
    (randomBytes dryRng 0 v.nonceSize).isOk = true ∧ (v.wireClose seedPrims toyConfig dryRng q.1 q.2 b!"answer").2 = .error .env ∧
    (v.wireClose seedPrims toyConfig toyRng (v.wireClose seedPrims toyConfig dryRng q.1 q.2 b!"answer").1.1
      (v.wireClose seedPrims toyConfig dryRng q.1 q.2 b!"answer").1.2 b!"answer").2 = .error .panic := by
  have h : (match seedWire [b!"bob"] with
    | .error _ => false
    | .ok (s, _) =>
      match s.wireClose seedPrims toyConfig toyRng s.initState { server := false } b!"hello" with
      | (_, .error _) => false
      | (c, .ok l) => (s.wireClose seedPrims toyConfig dryRng c.1 c.2 b!"more").2.isOk &&
        match l.wireCorrespondence seedPrims toyConfig twoWorld suiteRegistry with
        | .error _ => false
        | .ok (v, _) =>
          match v.wireOpen seedPrims toyConfig v.initState { server := true } l with
          | (_, .error _) => false
          | (q, .ok d) => decide (d = b!"hello") && (randomBytes dryRng 0 v.nonceSize).isOk &&
            decide ((v.wireClose seedPrims toyConfig dryRng q.1 q.2 b!"answer").2 = .error .env) &&
            decide ((v.wireClose seedPrims toyConfig toyRng (v.wireClose seedPrims toyConfig dryRng q.1 q.2 b!"answer").1.1
              (v.wireClose seedPrims toyConfig dryRng q.1 q.2 b!"answer").1.2 b!"answer").2 = .error .panic)) = true := by decide +kernel
  split at h
  · cases h
  · rename_i s w hs
    split at h
    · cases h
    · rename_i c l hc
      rw [Bool.and_eq_true] at h
      obtain ⟨h1, h⟩ := h
      split at h
      · cases h
      · rename_i v wv hv
        split at h
        · cases h
        · rename_i q d hq
          simp only [Bool.and_eq_true, decide_eq_true_eq] at h
          obtain ⟨⟨⟨rfl, h2⟩, h3⟩, h4⟩ := h
          exact ⟨s, w, c, l, v, wv, q, hs, (wireOf_envelope (by intro su h; cases h) hs).1, hc, .sent toyRng b!"hello" .start hc, h1, hv,
            (wireOf_letter hv).1, hq, h2, h3, h4⟩

end Jess
