import Verif.Props.Draws
import Verif.Props.DispatchWire
import Verif.Props.OnlyWithWire
import Verif.Props.WireFail

/-!
# C94 for wire sessions: sending a letter uses every random value for one thing only
-/

namespace Jess

open Requirements

/-- What the random numbers of a letter of a wire session were used for (specification): the draw 0 is the nonce, and each key in the letter is the public
key of a key pair, for a tool of the session, that was made with a later draw of its own. `draws` are the numbers of these draws, in the order of the keys. -/
structure WireDraws (P : Prims) (rng : Rng) (s : Session) (l : Letter) (draws : List Nat) : Prop where
  nonce : rng.read 0 s.nonceSize = .ok l.nonce ∧ l.nonce.length = s.nonceSize
  later : ∀ n ∈ draws, 1 ≤ n
  own : draws.Pairwise (· < ·)
  keys : All2 (fun n (sl : Seal) => ∃ t ∈ s.insts, MakesPublic P t.info.name (rng.seed n) sl.value) draws l.keys

/-- Keys made with draws from `a` up to `b`. -/
def MadeIn (P : Prims) (rng : Rng) (s : Session) (a b : Nat) (keys : List Seal) : Prop :=
  ∃ draws : List Nat, (∀ n ∈ draws, a ≤ n ∧ n < b) ∧ draws.Pairwise (· < ·) ∧
    All2 (fun n (sl : Seal) => ∃ t ∈ s.insts, MakesPublic P t.info.name (rng.seed n) sl.value) draws keys

variable {P : Prims} {cfg : Config} {s : Session} {rng : Rng}

theorem MadeIn.nil (a b : Nat) : MadeIn P rng s a b [] := ⟨[], by simp, .nil, .nil⟩

theorem MadeIn.mono {a b a' b' : Nat} {keys : List Seal} (h : MadeIn P rng s a b keys) (ha : a' ≤ a) (hb : b ≤ b') : MadeIn P rng s a' b' keys := by
  obtain ⟨d, h1, h2, h3⟩ := h
  exact ⟨d, fun n hn => ⟨by have := (h1 n hn).1; omega, by have := (h1 n hn).2; omega⟩, h2, h3⟩

theorem MadeIn.append {a b c : Nat} {ks ks' : List Seal} (h : MadeIn P rng s a b ks) (h' : MadeIn P rng s b c ks') (hab : a ≤ b) (hbc : b ≤ c) :
    MadeIn P rng s a c (ks ++ ks') := by
  obtain ⟨d, h1, h2, h3⟩ := h
  obtain ⟨d', h1', h2', h3'⟩ := h'
  refine ⟨d ++ d', fun n hn => ?_, List.pairwise_append.mpr ⟨h2, h2', fun x hx y hy => ?_⟩, h3.append h3'⟩
  · rcases List.mem_append.mp hn with hn | hn
    · have := h1 n hn; omega
    · have := h1' n hn; omega
  · have := h1 x hx
    have := h1' y hy
    omega

theorem MadeIn.one {t : ToolInst} (ht : t ∈ s.insts) {n : Nat} {sl : Seal} (h : MakesPublic P t.info.name (rng.seed n) sl.value) :
    MadeIn P rng s n (n + 1) [sl] :=
  ⟨[n], by simp, by simp, .cons ⟨t, ht, h⟩ .nil⟩

/-- A key that is made during the handshake, core-wire.go:277-296. -/
theorem newLocal_public {t : ToolInst} {seed : Bytes} {g : Signet} {v : Bytes} (h : newLocal P t seed = (g, .ok v)) :
    MakesPublic P t.info.name seed v := by
  unfold newLocal at h
  split at h
  · cases h
  · rename_i g0 hg
    split at h
    · cases h
    · rename_i g1 hst
      split at h
      · cases h
      · rename_i r hr
        split at h
        · cases h
        · rename_i r1 hr1
          cases h
          refine ⟨g0, r, r1, hg, ?_, hr1, rfl⟩
          have hp : g0.loadedPub.isSome = true := by
            unfold generateSignet at hg
            split at hg
            · cases hg
            · split at hg
              · split at hg
                · cases hg
                · cases hg; rfl
              · cases hg
          rw [← hr]
          unfold Signet.store at hst
          split at hst
          · cases hst; rfl
          · split at hst
            · cases hst
            · split at hst
              · split at hst
                · cases hst
                · split at hst
                  · cases hst
                  · cases hst
                    simp only [Signet.asRecipient, Signet.load, hp, if_true]
                    rfl
              · cases hst

theorem genKX_made : ∀ {ps ps' : List KxPair} {c : Nat} {a : List Seal}, (∀ p ∈ ps, p.tool ∈ s.insts) → genKX P rng c ps = (ps', .ok a) →
    MadeIn P rng s c (c + ps.length) a
  | [], _, c, a, _, h => by
    cases h
    exact .nil _ _
  | p :: ps, ps', c, a, hin, h => by
    rw [genKX] at h
    split at h
    · have ih := genKX_made (ps := ps) (c := c + 1) (a := a) (fun q hq => hin q (by simp [hq]))
        (show genKX P rng (c + 1) ps = ((genKX P rng (c + 1) ps).1, .ok a) by
          have h2 : (genKX P rng (c + 1) ps).2 = .ok a := congrArg Prod.snd h
          rw [← h2])
      exact ih.mono (by omega) (by simp; omega)
    · split at h
      · cases h
      · rename_i g v hn
        have h2 := congrArg Prod.snd h
        dsimp only at h2
        cases hr : (genKX P rng (c + 1) ps).2 with
        | error e => rw [hr] at h2; cases h2
        | ok rest =>
          rw [hr] at h2
          cases h2
          have ih := genKX_made (ps := ps) (c := c + 1) (a := rest) (fun q hq => hin q (by simp [hq]))
            (show genKX P rng (c + 1) ps = ((genKX P rng (c + 1) ps).1, .ok rest) by rw [← hr])
          have h1 : MadeIn P rng s c (c + 1) [{ value := v }] := .one (hin p (by simp)) (newLocal_public hn)
          have := h1.append ih (by omega) (by omega)
          exact this.mono (by omega) (by simp; omega)

/-- The keys of the letter under construction, for recipients: draws from 1 up to the counter. -/
def KeysMade (P : Prims) (rng : Rng) (s : Session) (x : WKM) : Prop := 1 ≤ x.km.ctr ∧ MadeIn P rng s 1 x.km.ctr x.km.keys

theorem wCloseKX_made {t : ToolInst} (ht : t ∈ s.insts) (x : WKM) (r : Signet) (h : KeysMade P rng s x) : KeysMade P rng s (wCloseKX P rng t x r).1 := by
  obtain ⟨h0, h1⟩ := h
  unfold wCloseKX
  split
  · exact ⟨by simp, h1.mono (by omega) (by simp)⟩
  · rename_i sender shared sl ho
    simp only [kxOffer, bind_ok_iff] at ho
    obtain ⟨g, hgen, sh, _, pub, hpub, stored, hst, he⟩ := ho
    cases he
    exact ⟨by simp, h1.append (c := x.km.ctr + 1) (.one ht ⟨_, pub, stored, hgen, hpub, hst, rfl⟩) (by omega) (by omega)⟩

theorem wSetupClosing_made (B : WireOf P cfg s) (nonce : Bytes) (kx : List KxPair) (ke : List KePair) :
    KeysMade P rng s (wSetupClosing P cfg rng s nonce kx ke).1 := by
  obtain ⟨q1, q2, q3, q4, q5, q6, q7⟩ := wire_shape B
  unfold wSetupClosing
  rw [q3, q4, q1]
  simp only [loopKM, overTools, show closeKeys {} [] = {} from rfl]
  have h0 : KeysMade P rng s { km := {}, kx := kx, ke := ke } := ⟨by simp, .nil _ _⟩
  have := overTools_mem_inv (I := KeysMade P rng s) (f := fun x t => loopKM (wCloseKX P rng t) x (ofScheme s.env.recipients t.info.name))
    (l := s.queue .keyExchange) (r := .ok ()) h0 (fun b t ht hb => loopKM_mem_inv hb fun x r _ hx => wCloseKX_made (mem_queue.mp ht).1 x r hx)
  split <;> (rename_i he; rw [he] at this; exact this)

theorem initiate_made {w w' : Wire} {km : KM} {out : SendOut} (hin : w.PairsIn s) (hke : w.ke = []) (h1 : 1 ≤ km.ctr)
    (hm : MadeIn P rng s 1 km.ctr km.keys) (h : initiate P rng w km = (w', .ok out)) : ∃ b, MadeIn P rng s 1 b out.keys := by
  unfold initiate at h
  split at h
  · split at h
    · cases h
    · rename_i kx a hkx
      rw [hke] at h
      simp only [genKE] at h
      cases h
      refine ⟨km.ctr + w.kx.length, ?_⟩
      rw [List.append_nil]
      exact hm.append (genKX_made (fun p hp => (hin.kx p hp).1) hkx) h1 (by omega)
  · cases h
    exact ⟨_, hm⟩

theorem complete_made {w w' : Wire} {out : SendOut} (hin : w.PairsIn s) (hke : w.ke = []) (h : complete P rng s w = (w', .ok out)) :
    ∃ b, MadeIn P rng s 1 b out.keys := by
  unfold complete at h
  split at h
  · cases h
  · rename_i kx a hkx
    split at h
    · cases h
    · rw [hke] at h
      simp only [genKE, encapAll] at h
      cases h
      refine ⟨1 + w.kx.length, ?_⟩
      rw [List.append_nil, List.map_nil, List.append_nil]
      exact genKX_made (fun p hp => (hin.kx p hp).1) hkx

theorem pairs_noKE (B : WireOf P cfg s) {kx : List KxPair} {ke : List KePair} (h : PairsIn s kx ke) : ke = [] := by
  apply List.eq_nil_iff_forall_not_mem.mpr
  intro p hp
  have := mem_queue.mpr (h.ke p hp)
  rw [B.noKE] at this
  cases this

theorem sendSwitch_made (B : WireOf P cfg s) {w w' : Wire} {nonce : Bytes} {out : SendOut} (hin : w.PairsIn s)
    (h : sendSwitch P cfg rng s w nonce = (w', .ok out)) : ∃ b, MadeIn P rng s 1 b out.keys := by
  have hke := pairs_noKE B hin
  unfold sendSwitch at h
  split at h
  · have hm := wSetupClosing_made (rng := rng) B nonce w.kx w.ke
    have hp := wSetupClosing_in (P := P) (cfg := cfg) (rng := rng) (nonce := nonce) hin
    split at h
    · cases h
    · rename_i x hx
      rw [hx] at hm hp
      exact initiate_made (w := { w with kx := x.kx, ke := x.ke }) hp (pairs_noKE B hp) hm.1 hm.2 h
  · exact initiate_made hin hke (by simp) (.nil _ _) h
  · exact complete_made hin hke h
  · cases h; exact ⟨1, .nil _ _⟩
  · cases h; exact ⟨1, .nil _ _⟩
  · cases h; exact ⟨1, .nil _ _⟩

/-- C94 for wire sessions. Every letter a party sends, at any point of a session, uses every random value for one thing only. -/
theorem wire_draws (B : WireOf P cfg s) (b : Bool) {ls : List Letter} {q : SState × Wire}
    (hq : History P cfg s (s.initState, { server := b }) ls q) (rng : Rng) (data : Bytes) (l : Letter)
    (hc : (s.wireClose P cfg rng q.1 q.2 data).2 = .ok l) : ∃ draws, WireDraws P rng s l draws := by
  have hin : q.2.PairsIn s := history_in (p := (s.initState, { server := b })) ⟨by simp, by simp⟩ hq
  have hsg := (wire_shape B).2.1
  have hsign : ∀ st c ad l, signLetter P rng s st c ad l = (st, .ok l) := by
    intro st c ad l
    unfold signLetter
    rw [hsg]
    rfl
  unfold Session.wireClose at hc
  split at hc
  · cases hc
  · rename_i nonce hnon
    simp only [randomBytes, bind_ok_iff] at hnon
    obtain ⟨nb, hnb, hnon⟩ := hnon
    split at hnon
    · cases hnon
    rename_i hlen
    cases hnon
    have hlen := Decidable.not_not.mp hlen
    split at hc
    · rename_i hk
      exact absurd hk B.hasKdf
    · rename_i k hk
      split at hc
      · cases hc
      · rename_i w' h hsend
        split at hc
        · cases hc
        · rename_i st' l' henc
          rw [hsign] at hc
          cases hc
          have hp : l.nonce = nonce ∧ l.keys = h.keys := by
            unfold encryptLetter at henc
            split at henc
            · cases henc
            · have h2 := congrArg Prod.snd henc
              dsimp only at h2
              simp only [protect, bind_ok_iff] at h2
              obtain ⟨_, _, _, _, _, _, h2⟩ := h2
              cases h2
              exact ⟨by unfold wireHeader; split <;> rfl, rfl⟩
          unfold sendHandshake at hsend
          split at hsend
          · cases hsend
          · rename_i w1 out hsw
            split at hsend
            · cases hsend
            · cases hsend
              obtain ⟨top, draws, h1, h2, h3⟩ := sendSwitch_made B hin hsw
              refine ⟨draws, ⟨by rw [hp.1]; exact ⟨hnb, hlen⟩, fun n hn => (h1 n hn).1, h2, ?_⟩⟩
              rw [hp.2]
              exact h3

/-- C94 for wire sessions, for the keys: no two keys in a letter are the same, if different draws make different public keys. -/
theorem wire_keys_differ (B : WireOf P cfg s) (b : Bool) {ls : List Letter} {q : SState × Wire}
    (hq : History P cfg s (s.initState, { server := b }) ls q) (rng : Rng) (data : Bytes) (l : Letter)
    (hc : (s.wireClose P cfg rng q.1 q.2 data).2 = .ok l)
    (hrng : ∀ draws, WireDraws P rng s l draws → ∀ a ∈ draws, ∀ b ∈ draws, a ≠ b → ∀ tool tool' key, MakesPublic P tool (rng.seed a) key → ¬ MakesPublic P tool' (rng.seed b) key)
    (i j : Nat) (hij : i < j) (x y : Seal) (hx : l.keys[i]? = some x) (hy : l.keys[j]? = some y) : x.value ≠ y.value := by
  obtain ⟨draws, h⟩ := wire_draws B b hq rng data l hc
  obtain ⟨m, hm, t, _, h1⟩ := h.keys.getElem? i hx
  obtain ⟨n, hn, t', _, h2⟩ := h.keys.getElem? j hy
  have hlt : m < n := by
    obtain ⟨hi', rfl⟩ := List.getElem?_eq_some_iff.mp hm
    obtain ⟨hj', rfl⟩ := List.getElem?_eq_some_iff.mp hn
    exact List.pairwise_iff_getElem.mp h.own i j hi' hj' hij
  intro he
  rw [he] at h1
  exact hrng draws h m (List.mem_of_getElem? hm) n (List.mem_of_getElem? hn) (by omega) _ _ _ h1 h2

/-- The seal values of the letters with keys of a conversation over a wire session with two recipients: the client's first letter has the keys of the
draws 1 and 2. The answer of the server has keys of its own draws. -/
theorem wire_draws_example :
    (match wireCorrespondence toyPrims toyConfig toyWorld suiteRegistry (toyEnvelope b!"w1" [] [] [b!"bob", b!"bob"]) with
      | .ok (s, w) =>
        (match s.wireClose toyPrims toyConfig toyRng s.initState w b!"hello" with
        | (_, .ok l) => decide (l.keys.map (·.value) = [1 :: toyRng.seed 1, 1 :: toyRng.seed 2]) && decide (toyRng.seed 1 ≠ toyRng.seed 2) &&
            (match l.wireCorrespondence toyPrims toyConfig toyWorld suiteRegistry with
            | .ok (s', w') =>
              (match s'.wireOpen toyPrims toyConfig s'.initState w'.asServer l with
              | (q, .ok _) =>
                (match (s'.wireClose toyPrims toyConfig toyRng q.1 q.2 b!"answer").2 with
                | .ok l' => decide (l'.keys.map (·.value) = [1 :: toyRng.seed 1, 1 :: toyRng.seed 2]) && decide (toyRng.read 0 s'.nonceSize = .ok l'.nonce)
                | .error _ => false)
              | _ => false)
            | .error _ => false)
        | _ => false)
      | .error _ => false) = true := by
  decide +kernel

end Jess
