import Verif.Props.WireStream
import Verif.Props.CloseOpen

/-!
# C59: which letters can be sent in the wire format
-/

namespace Jess

open Requirements

section
variable {P : Prims} {pair : Bytes → Bytes → Bytes → Prop} {cfg : Config} {s : Session}

theorem collectFrom_all {α β : Type} {g : Nat → α → Res β} {Q : β → Prop} (hg : ∀ i a b, g i a = .ok b → Q b) :
    ∀ {xs : List α} {i : Nat} {ys : List β}, collectFrom g i xs = .ok ys → ∀ y ∈ ys, Q y
  | [], _, ys, h => by cases h; intro y hy; cases hy
  | x :: xs, i, ys, h => by
    obtain ⟨b, bs, h1, h2, rfl⟩ := collectFrom_cons_ok.mp h
    intro y hy
    rcases List.mem_cons.mp hy with rfl | hy
    · exact hg _ _ _ h1
    · exact collectFrom_all hg h2 y hy

/-- The key seals of a closed letter: those of the shared secrets have their scheme, those of the recipients have none. -/
theorem closing_seals {rng : Rng} {nonce : Bytes} {km : KM} (h : closingMaterial P cfg rng s nonce = .ok km) :
    (∀ k ∈ ofScheme s.env.secrets schemeKey, ({ scheme := schemeKey, id := k.id } : Seal) ∈ km.keys) ∧
    (∀ k ∈ ofScheme s.env.secrets schemePassword, ({ scheme := schemePassword, id := k.id } : Seal) ∈ km.keys) ∧
    (ofScheme s.env.secrets schemeKey = [] → ofScheme s.env.secrets schemePassword = [] → ∀ k ∈ km.keys, k.scheme = []) := by
  simp only [closingMaterial, bind_ok_iff] at h
  obtain ⟨pws, _, kxs, h1, kes, h2, h3⟩ := h
  cases h3
  refine ⟨fun k hk => ?_, fun k hk => ?_, fun e1 e2 k hk => ?_⟩
  · simp only [List.mem_append, List.mem_map]
    exact Or.inl (Or.inl (Or.inl ⟨k, hk, rfl⟩))
  · simp only [List.mem_append, List.mem_map]
    exact Or.inl (Or.inl (Or.inr ⟨k, hk, rfl⟩))
  · rw [e1, e2] at hk
    simp only [List.map_nil, List.nil_append] at hk
    have a1 : ∀ y ∈ kxs, y.2.scheme = [] := collectFrom_all (fun i a b hb => by
      simp only [closeKXKey, kxOffer, bind_ok_iff] at hb
      obtain ⟨r, ⟨_, _, _, _, _, _, _, _, he⟩, hb⟩ := hb
      cases Except.ok.inj he; cases hb; rfl) h1
    have a2 : ∀ y ∈ kes, y.2.scheme = [] := collectFrom_all (fun i a b hb => by
      simp only [keOffer, bind_ok_iff] at hb
      obtain ⟨_, _, _, _, hb⟩ := hb
      cases hb; rfl) h2
    rcases List.mem_append.mp hk with hk | hk
    · obtain ⟨y, hy, rfl⟩ := List.mem_map.mp hk; exact a1 y hy
    · obtain ⟨y, hy, rfl⟩ := List.mem_map.mp hk; exact a2 y hy

/-- A closed letter, in terms of its envelope. -/
structure ClosedShape (s : Session) (l : Letter) : Prop where
  version : l.version = s.env.version
  suite : l.suiteID = s.env.suiteID
  signatures : l.signatures.length = s.signerPairs.length
  plain : s.env.secrets = [] → ∀ k ∈ l.keys, k.scheme = []
  secrets : ∀ k ∈ s.env.secrets, ∃ sl ∈ l.keys, sl.scheme = k.scheme ∧ sl.id = k.id

theorem closed_shape (hP : P.Correct pair) (hs : newSession P cfg s.env = .ok s) (hr : s.suite ∈ suiteRegistry) {rng : Rng} {data : Bytes}
    {l : Letter} (h : (s.close P cfg rng s.initState data).2 = .ok l) : ClosedShape s l := by
  obtain ⟨hnd, hone⟩ := registered_session hs hr
  have hu := no_signet_ignored P cfg _ s hs hnd
  unfold Session.close at h
  split at h
  · cases h
  · rename_i nonce _
    simp only at h
    split at h
    · rename_i hk
      split at h
      · cases h
      · obtain ⟨sigs, rfl, ha⟩ := signLetter_ok hP (l := { version := s.env.version, suiteID := s.env.suiteID, nonce := nonce, data := data })
          rfl rfl h
        obtain ⟨n1, n2, _⟩ := no_kdf_no_keys hs hnd hk
        refine ⟨rfl, rfl, ha.length.symm, (fun _ k hk => by cases hk), fun k hk => ?_⟩
        rcases hu.secrets k hk with h1 | ⟨h1, _⟩
        · have := (mem_ofScheme (by decide) k).mpr ⟨hk, h1⟩
          rw [n1] at this; cases this
        · have := (mem_ofScheme (by decide) k).mpr ⟨hk, h1⟩
          rw [n2] at this; cases this
    · rename_i k hk
      rw [setupClosing_eq _ _ _ _ _ (hone _ (by simp)) (hone _ (by simp))] at h
      cases hm : closingMaterial P cfg rng s nonce with
      | error e => rw [hm] at h; cases h
      | ok km =>
        rw [hm] at h
        simp only at h
        split at h
        · generalize he : encryptLetter P s s.initState k km.material 0
            { version := s.env.version, suiteID := s.env.suiteID, nonce := nonce, keys := km.keys } data = x at h
          obtain ⟨st, r⟩ := x
          cases r with
          | error e => cases h
          | ok l0 =>
            simp only at h
            obtain ⟨⟨d, m, hl⟩, _, hcl⟩ := encryptLetter_sealed hP (clean_init s) he
            obtain ⟨sigs, rfl, ha⟩ := signLetter_ok hP hcl.fed (by rw [hl]) h
            obtain ⟨c1, c2, c3⟩ := closing_seals hm
            rw [hl] at ha ⊢
            refine ⟨rfl, rfl, ha.length.symm, fun e => c3 (by rw [e]; rfl) (by rw [e]; rfl), fun k hk => ?_⟩
            rcases hu.secrets k hk with h1 | ⟨h1, _⟩
            · exact ⟨_, c1 k ((mem_ofScheme (by decide) k).mpr ⟨hk, h1⟩), h1.symm, rfl⟩
            · exact ⟨_, c2 k ((mem_ofScheme (by decide) k).mpr ⟨hk, h1⟩), h1.symm, rfl⟩
        · cases h

theorem wireView_eq {l : Letter} (h : l.wireView = l) : l.signatures = [] ∧ ∀ k ∈ l.keys, k.scheme = [] := by
  have h1 : l.wireView.signatures = l.signatures := by rw [h]
  have h2 : l.wireView.keys = l.keys := by rw [h]
  refine ⟨h1.symm, fun k hk => ?_⟩
  simp only [Letter.wireView] at h2
  rw [← h2] at hk
  obtain ⟨y, _, rfl⟩ := List.mem_map.mp hk
  rfl

end

/-- C59. Exactly which closed letters (of the library's suites) survive `ToWire` and `LetterFromWire`: those without shared keys, passwords
and senders, with at most 255 key seals. -/
theorem closed_letter_on_wire (P : Prims) (pair : Bytes → Bytes → Bytes → Prop) (hP : P.Correct pair) (cfg : Config) (wc : World) (rng : Rng)
    (e : Envelope) (hes : e.suite = none) (hev : e.version = 1) (s : Session) (hs : correspondence P cfg wc suiteRegistry e = .ok s)
    (data : Bytes) (l : Letter) (hc : (s.close P cfg rng s.initState data).2 = .ok l) (hz : l.Sized) (rest : Bytes) :
    letterFromWire (l.toWire ++ rest) = .ok (l, rest) ↔ s.env.secrets = [] ∧ s.env.senders = [] ∧ l.keys.length ≤ 255 := by
  simp only [correspondence, loadSuite, hes, bind_ok_iff] at hs
  obtain ⟨⟨e1, su⟩, h1, h2⟩ := hs
  split at h1
  · cases h1
  · rename_i su' hsu
    cases h1
    obtain ⟨e2, hp, hn⟩ := h2
    simp only [prepareSignets, bind_ok_iff] at hp
    obtain ⟨a, _, b, _, c, _, hx⟩ := hp
    cases hx
    obtain ⟨g1, g2⟩ := newSession_env hn
    simp only [Option.some.injEq] at g2
    have hmem := List.mem_of_find?_eq_some hsu
    have hn' : newSession P cfg s.env = .ok s := by rw [g1]; exact hn
    have hr : s.suite ∈ suiteRegistry := by rw [← g2]; exact hmem
    obtain ⟨hnd, _⟩ := registered_session hn' hr
    have hu := no_signet_ignored P cfg _ s hn' hnd
    have S := closed_shape hP hn' hr hc
    constructor
    · intro h
      have hk : l.keys.length ≤ 255 := by
        apply Decidable.byContradiction
        intro hk
        rw [wire_too_many_seals l rest hz (by omega)] at h
        cases h
      rw [wire_roundtrip l rest hz hk] at h
      obtain ⟨w1, w2⟩ := wireView_eq (Prod.mk.inj (Except.ok.inj h)).1
      refine ⟨?_, ?_, hk⟩
      · cases hse : s.env.secrets with
        | nil => rfl
        | cons k ks =>
          obtain ⟨sl, hsl, e1, _⟩ := S.secrets k (by rw [hse]; simp)
          rw [w2 sl hsl] at e1
          rcases hu.secrets k (by rw [hse]; simp) with h1 | ⟨h1, _⟩ <;> rw [h1] at e1 <;> cases e1
      · cases hse : s.env.senders with
        | nil => rfl
        | cons k ks =>
          exfalso
          obtain ⟨t, ht, hpt, hsc⟩ := hu.senders k (by rw [hse]; simp)
          obtain ⟨tid, _, hmk⟩ := inst_tool hn' ht
          have hne := (toolTable_nonneg t.info (makeInst_spec hmk).2.1).2.1
          have hmem : (t, k) ∈ s.signerPairs := by
            unfold Session.signerPairs
            exact List.mem_flatMap.mpr ⟨t, mem_queue.mpr ⟨ht, hpt⟩, List.mem_map.mpr ⟨k, (mem_ofScheme hne k).mpr ⟨by rw [hse]; simp, hsc.symm⟩, rfl⟩⟩
          have h0 : s.signerPairs = [] := List.eq_nil_of_length_eq_zero (by rw [← S.signatures, w1]; rfl)
          rw [h0] at hmem; cases hmem
    · rintro ⟨h1, h2, h3⟩
      refine wire_roundtrip_exact l rest hz h3 ?_ (S.plain h1) ?_
      · apply List.eq_nil_of_length_eq_zero
        rw [S.signatures]
        unfold Session.signerPairs
        rw [h2]
        induction s.queue .signing with
        | nil => rfl
        | cons t ts ih => simpa [ofScheme] using ih
      · intro hv
        rw [S.version, g1] at hv
        rw [show e.version = 0 from hv] at hev
        cases hev

/-- C59. A letter for recipients only, closed and written with `ToWire`, then read with `LetterFromWire`, is opened by the recipient and yields the
data. (The conditions are those of C10.) -/
theorem close_wire_open_partial (P : Prims) (pair : Bytes → Bytes → Bytes → Prop) (hP : P.Correct pair) (cfg : Config)
    (wc wo : World) (rng : Rng) (e : Envelope) (hes : e.suite = none) (hev : e.version = 1)
    (s : Session) (hs : correspondence P cfg wc suiteRegistry e = .ok s)
    (hlev : demandedLevel cfg 0 ≤ demandedLevel cfg e.securityLevel)
    (hsec : s.env.secrets = []) (hsen : s.env.senders = []) (hids : ∀ k ∈ s.env.recipients, k.id ≠ [])
    (hcp : Counterparts P pair wo s) (reqs : Option Requirements) (hreq : ∀ a ∈ reqs.getD full, a ∈ s.suite.provides)
    (data : Bytes) (l : Letter) (hc : (s.close P cfg rng s.initState data).2 = .ok l) (hz : l.Sized) (hk : l.keys.length ≤ 255) (rest : Bytes) :
    ∃ l', letterFromWire (l.toWire ++ rest) = .ok (l', rest) ∧ l'.open P cfg wo suiteRegistry reqs = .ok data :=
  ⟨l, (closed_letter_on_wire P pair hP cfg wc rng e hes hev s hs data l hc hz rest).mpr ⟨hsec, hsen, hk⟩,
    close_open_roundtrip_partial P pair hP cfg wc wo rng e hes hev s hs hlev
      ⟨by rw [hsec]; simp, by rw [hsen]; simp, hids⟩ (Or.inl (by rw [hsec]; simp)) hcp reqs hreq data l hc⟩

/-- Close, send in the wire format, and open. -/
def overWire (e : Envelope) (data : Bytes) (reqs : Option Requirements) : Res Bytes := do
  let l ← toyClose e data
  let (l', _) ← letterFromWire l.toWire
  l'.open toyPrims toyConfig toyWorld suiteRegistry reqs

/-- Close and open. -/
def notOverWire (e : Envelope) (data : Bytes) (reqs : Option Requirements) : Res Bytes := do
  let l ← toyClose e data
  l.open toyPrims toyConfig toyWorld suiteRegistry reqs

/-- C59 is REFUTED in general: a letter with a shared key, a letter with a password and a signed letter can be opened, but not any more after they
were sent in the wire format. A letter for a recipient can. -/
theorem wire_loses_letters :
    (∃ e, notOverWire (toyEnvelope b!"key_v2" [b!"key"] [] []) b!"hello" (some (full.remove SenderAuthentication)) = .ok b!"hello" ∧
      overWire (toyEnvelope b!"key_v2" [b!"key"] [] []) b!"hello" (some (full.remove SenderAuthentication)) = .error e) ∧
    (∃ e, notOverWire (toyEnvelope b!"pw_v2" [b!"pw"] [] []) b!"hello" (some (full.remove SenderAuthentication)) = .ok b!"hello" ∧
      overWire (toyEnvelope b!"pw_v2" [b!"pw"] [] []) b!"hello" (some (full.remove SenderAuthentication)) = .error e) ∧
    (∃ e, notOverWire (toyEnvelope b!"v2" [] [b!"alice"] [b!"bob"]) b!"hello" none = .ok b!"hello" ∧
      overWire (toyEnvelope b!"v2" [] [b!"alice"] [b!"bob"]) b!"hello" none = .error e) ∧
    overWire (toyEnvelope b!"rcpt_v2" [] [] [b!"bob"]) b!"hello" (some (full.remove SenderAuthentication)) = .ok b!"hello" := by
  refine ⟨⟨.requirements, ?_⟩, ⟨.signetNotFound, ?_⟩, ⟨.config, ?_⟩, ?_⟩ <;> decide +kernel

end Jess
