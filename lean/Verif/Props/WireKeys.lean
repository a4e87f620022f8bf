import Verif.Props.WireOrder

/-!
# C22: the keys of the messages of a wire session
-/

namespace Jess

open Requirements

/-- Two letters are protected with the keys of the same input of the key derivation (one of `xs`). -/
def ShareKey (P : Prims) (k : ToolInst) (size : Nat) (xs : List KeyInput) (a b : Letter) : Prop :=
  ∃ x ∈ xs, ∃ d d', OpensUnder P k size x a d ∧ OpensUnder P k size x b d'

section
variable {P : Prims} {pair : Bytes → Bytes → Bytes → Prop} {cfg : Config} {s : Session} {k : ToolInst}

theorem sends_distinct (hS : P.KdfSized) {x0 : KeyInput} {c0 c : Bytes} {all : List KeyInput} {ls : List Letter}
    (hB : NoBreak P k c0.length x0 all ls) (h0 : derive P k x0 0 c0.length = .ok c0)
    {σ : List (KeyInput × Option (Letter × Bytes))}
    (hσ : Ratcheted P k c0 (σ.map (·.1)) c) (hσa : ∀ a ∈ σ, a.1 ∈ all)
    (hσs : ∀ x l d, (x, some (l, d)) ∈ σ → l.nonce = x.1 ∧ OpensUnder P k c0.length x l d)
    (hls : ∀ a ∈ σ.filterMap (·.2), a.1 ∈ ls) :
    ((σ.filterMap (·.2)).map (·.1)).Pairwise (fun a b => ¬ ShareKey P k c0.length (x0 :: all) a b) := by
  have hxnd := Ratcheted.nodup hS hB h0 hσ (by
    intro x hx; obtain ⟨a, ha, rfl⟩ := List.mem_map.mp hx; exact hσa a ha)
  rw [List.pairwise_map, List.pairwise_filterMap]
  have h1 : σ.Pairwise (fun a b => a.1 ≠ b.1) := List.pairwise_map.mp hxnd
  refine List.Pairwise.imp_of_mem ?_ h1
  rintro ⟨x, o⟩ ⟨y, o'⟩ ha hb hne ⟨l, d⟩ e1 ⟨l', d'⟩ e2 ⟨z, hz, e, e', g1, g2⟩
  simp only at e1 e2 hne
  subst e1; subst e2
  have m1 : l ∈ ls := hls (l, d) (List.mem_filterMap.mpr ⟨_, ha, rfl⟩)
  have m2 : l' ∈ ls := hls (l', d') (List.mem_filterMap.mpr ⟨_, hb, rfl⟩)
  have f1 := hB.letters l m1 x (by simp [hσa _ ha]) z hz _ _ (hσs _ _ _ ha).2 g1
  have f2 := hB.letters l' m2 y (by simp [hσa _ hb]) z hz _ _ (hσs _ _ _ hb).2 g2
  exact hne (f1.trans f2.symm)

end

/-- C22, what holds: no two letters of the same party are protected with the same key (even if their nonces are the same), and no two
letters of different parties, unless their nonces are the same. (Missing: letters of different parties with the same nonce, see
`same_key_both_directions_refuted`.) -/
theorem message_keys_distinct_partial (P : Prims) (pair : Bytes → Bytes → Bytes → Prop) (hP : P.Correct pair) (hS : P.KdfSized) (cfg : Config) (wo : World)
    (s v : Session) (m0 : Letter) (x0 : KeyInput) (data0 : Bytes) (p p' q q' : SState × Wire)
    (h0 : Started P pair cfg wo s m0 x0 data0 p v q) (k : ToolInst) (hk : s.kdf = some k)
    (ec ev : List WEvent) (xc xv : List KeyInput) (hc : PartyRun P cfg s p ec xc p') (hv : PartyRun P cfg v q ev xv q')
    (hB : NoBreak P k s.keySize x0 (xc ++ xv) (m0 :: (sentIn ec ++ sentIn ev).map (·.1))) :
    (m0 :: (sentIn ec).map (·.1)).Pairwise (fun a b => ¬ ShareKey P k s.keySize (x0 :: (xc ++ xv)) a b) ∧
    ((sentIn ev).map (·.1)).Pairwise (fun a b => ¬ ShareKey P k s.keySize (x0 :: (xc ++ xv)) a b) ∧
    (∀ a ∈ m0 :: (sentIn ec).map (·.1), ∀ b ∈ (sentIn ev).map (·.1), a.nonce ≠ b.nonce →
      ¬ ShareKey P k s.keySize (x0 :: (xc ++ xv)) a b) := by
  have hm0 : m0.nonce = x0.1 := by
    obtain ⟨wc, e, w, rng, _, _, _, _, hcl, hx⟩ := h0.client
    obtain ⟨C0, eo, _, T, _⟩ := started_spec hP hS h0 hk
    obtain ⟨st, w'⟩ := p
    obtain ⟨w1, out, c, mat, off, hsw, _⟩ := wireClose_ok hP T.kdf T.signing (clean_init s) hcl
    unfold sendInput at hx
    split at hx
    · cases hx
    · rename_i nonce hno
      have hnn : m0.nonce = nonce := by
        unfold Session.wireClose at hcl
        rw [hno] at hcl
        simp only [T.kdf] at hcl
        split at hcl
        · cases hcl
        · split at hcl
          · cases hcl
          · rename_i st1 l1 henc
            simp only [signLetter, T.signing, List.isEmpty_nil, if_true, Prod.mk.injEq, Except.ok.injEq] at hcl
            obtain ⟨_, rfl⟩ := hcl
            obtain ⟨⟨d, m, hl⟩, _⟩ := encryptLetter_sealed hP (clean_init s) henc
            rw [hl]; unfold wireHeader; split <;> rfl
      split at hx
      · cases hx
      · simp only [List.cons.injEq, and_true] at hx
        rw [← hx]; exact hnn
  obtain ⟨C0, eo, rfl, T, n1, n2, hcl, hclv, e1, e2, e3, e4, hlen, hd0, ho0⟩ := started_spec hP hS h0 hk
  rw [← hlen] at hd0 ho0 hB ⊢
  obtain ⟨_, _, σc, a1, a2, a3, a4, _⟩ := run_sends hP hS T hcl n1 hc
  obtain ⟨_, _, σv, c1, c2, c3, c4, _⟩ := run_sends hP hS (T.env eo) hclv n2 hv
  rw [e1] at a1 a4
  rw [e3] at c1 c4
  have hlc : ∀ a ∈ σc.filterMap (·.2), a.1 ∈ m0 :: (sentIn ec ++ sentIn ev).map (·.1) := by
    intro a ha
    rw [a2] at ha
    exact List.mem_cons_of_mem _ (List.mem_map.mpr ⟨a, List.mem_append_left _ ha, rfl⟩)
  have hlv : ∀ a ∈ σv.filterMap (·.2), a.1 ∈ m0 :: (sentIn ec ++ sentIn ev).map (·.1) := by
    intro a ha
    rw [c2] at ha
    exact List.mem_cons_of_mem _ (List.mem_map.mpr ⟨a, List.mem_append_right _ ha, rfl⟩)
  -- the input of a letter of the client
  have hin : ∀ l ∈ (sentIn ec).map (·.1), ∃ x ∈ xc ++ xv, ∃ d, x.1 = l.nonce ∧ OpensUnder P k C0.length x l d := by
    intro l hl
    rw [← a2] at hl
    obtain ⟨⟨l', d⟩, h1, rfl⟩ := List.mem_map.mp hl
    obtain ⟨⟨x, o⟩, h2, h3⟩ := List.mem_filterMap.mp h1
    simp only at h3
    subst h3
    exact ⟨x, by simp [a3 _ h2], d, (a4 _ _ _ h2).1.symm, (a4 _ _ _ h2).2⟩
  have hiv : ∀ l ∈ (sentIn ev).map (·.1), ∃ x ∈ xc ++ xv, ∃ d, x.1 = l.nonce ∧ OpensUnder P k C0.length x l d := by
    intro l hl
    rw [← c2] at hl
    obtain ⟨⟨l', d⟩, h1, rfl⟩ := List.mem_map.mp hl
    obtain ⟨⟨x, o⟩, h2, h3⟩ := List.mem_filterMap.mp h1
    simp only at h3
    subst h3
    exact ⟨x, by simp [c3 _ h2], d, (c4 _ _ _ h2).1.symm, (c4 _ _ _ h2).2⟩
  have memc : ∀ l ∈ (sentIn ec).map (·.1), l ∈ m0 :: (sentIn ec ++ sentIn ev).map (·.1) := by
    intro l hl; simp only [List.map_append, List.mem_cons, List.mem_append]; exact Or.inr (Or.inl hl)
  have memv : ∀ l ∈ (sentIn ev).map (·.1), l ∈ m0 :: (sentIn ec ++ sentIn ev).map (·.1) := by
    intro l hl; simp only [List.map_append, List.mem_cons, List.mem_append]; exact Or.inr (Or.inr hl)
  refine ⟨?_, ?_, ?_⟩
  · rw [List.pairwise_cons]
    constructor
    · rintro b hb ⟨z, hz, d, d', g1, g2⟩
      obtain ⟨x, hx, e, _, h1⟩ := hin b hb
      have f1 := hB.letters m0 (by simp) x0 (by simp) z hz _ _ ho0 g1
      have f2 := hB.letters b (memc b hb) x (List.mem_cons_of_mem _ hx) z hz _ _ h1 g2
      rw [f1, ← f2] at hB
      exact hB.fresh hx
    · rw [← a2]
      exact sends_distinct hS hB hd0 a1 (fun a ha => by simp [a3 a ha]) a4 hlc
  · rw [← c2]
    exact sends_distinct hS hB hd0 c1 (fun a ha => by simp [c3 a ha]) c4 hlv
  · rintro a ha b hb hne ⟨z, hz, d, d', g1, g2⟩
    obtain ⟨y, hy, e, hyn, h2⟩ := hiv b hb
    have f2 := hB.letters b (memv b hb) y (List.mem_cons_of_mem _ hy) z hz _ _ h2 g2
    rcases List.mem_cons.mp ha with rfl | ha'
    · have f1 := hB.letters a (by simp) x0 (by simp) z hz _ _ ho0 g1
      apply hne
      rw [hm0, f1, ← f2, hyn]
    · obtain ⟨x, hx, e, hxn, h1⟩ := hin a ha'
      have f1 := hB.letters a (memc a ha') x (List.mem_cons_of_mem _ hx) z hz _ _ h1 g1
      apply hne
      rw [← hxn, ← hyn, f1, f2]

/-! ## Keys of earlier messages -/

/-- What someone can try who learns the keys `held`: inputs of the key derivation whose material ends with one of these keys, or with a key
that was derived by an earlier attempt. The nonces and the rest of the material are arbitrary (the nonces of all letters, the other
parts of the state and all other keys may be known). -/
inductive Attempts (P : Prims) (k : ToolInst) (size : Nat) (held : List Bytes) : List KeyInput → Prop
  | nil : Attempts P k size held []
  | snoc {att : List KeyInput} {x : KeyInput} {m c : Bytes} : Attempts P k size held att → x.2 = m ++ c → c.length = size →
      (c ∈ held ∨ ∃ y ∈ att, derive P k y 0 size = .ok c) → Attempts P k size held (att ++ [x])

section
variable {P : Prims} {pair : Bytes → Bytes → Bytes → Prop} {cfg : Config} {s : Session} {k : ToolInst}

/-- The input of a chain is no attempt, if the held keys are none of the keys of the chain (apart from those after its end). -/
theorem chain_not_attempted (hS : P.KdfSized) {x0 : KeyInput} {c0 c : Bytes} {all : List KeyInput} {ls : List Letter}
    (hB : NoBreak P k c0.length x0 all ls) (h0 : derive P k x0 0 c0.length = .ok c0) {held : List Bytes} {att : List KeyInput}
    (hatt : Attempts P k c0.length held att) (haa : ∀ x ∈ att, x ∈ all) :
    ∀ {xs : List KeyInput}, Ratcheted P k c0 xs c → (∀ x ∈ xs, x ∈ all) →
      (∀ ys zs : List KeyInput, ∀ d, xs = ys ++ zs → zs ≠ [] → Ratcheted P k c0 ys d → d ∉ held) → ∀ x ∈ xs, x ∉ att := by
  intro xs hxs hxa hheld
  -- it suffices to look at the keys
  induction hatt with
  | nil => simp
  | snoc h1 h2 h3 h4 ih =>
    rename_i att x m d
    have ih' := ih (fun y hy => haa y (by simp [hy]))
    intro y hy hmem
    rcases List.mem_append.mp hmem with hm | hm
    · exact ih' y hy hm
    · simp only [List.mem_singleton] at hm
      subst hm
      obtain ⟨as, bs, rfl⟩ := List.append_of_mem hy
      obtain ⟨c1, m', g1, g2⟩ := hxs.take
      rw [h2] at g2
      have hc := (List.append_inj' g2 (by rw [h3, g1.len hS])).2
      subst hc
      rcases h4 with h4 | ⟨z, hz, h4⟩
      · exact hheld as (y :: bs) d rfl (by simp) g1 h4
      · cases g1 with
        | nil =>
          have hz' := haa z (by simp [hz])
          have := hB.next x0 (by simp) z (by simp [hz']) _ h0 h4
          rw [this] at hB
          exact hB.fresh hz'
        | snoc f1 f2 f3 =>
          rename_i as' c2 m2 a
          have hz' := haa z (by simp [hz])
          have := hB.next a (by simp [hxa a (by simp)]) z (by simp [hz']) _ f3 h4
          subst this
          exact ih' a (by simp) hz

/-- The letters of a party that has sent and accepted something cannot be opened with the keys it still holds. -/
theorem forward_secret (hP : P.Correct pair) (hS : P.KdfSized) (T : WireTools s k) {p q : SState × Wire} {c0 : Bytes} (hc : Clean s p.1) (hn : p.2.msgNo ≠ 0)
    (e1 : p.2.sendCarry = c0) (e2 : p.2.recvCarry = c0) {es : List WEvent} {xs : List KeyInput} (h : PartyRun P cfg s p es xs q)
    (hok : ∀ d e, WEvent.sent d (.error e) ∉ es) (hno : ∀ a ∈ sentIn es, ∀ l ∈ givenIn es, a.1.nonce ≠ l.nonce)
    (hs1 : sentIn es ≠ []) (hs2 : acceptedIn es ≠ []) {att all : List KeyInput} (hatt : Attempts P k c0.length [q.2.sendCarry, q.2.recvCarry] att)
    {x0 : KeyInput} {ls : List Letter} (hxs : ∀ x ∈ xs, x ∈ all) (haa : ∀ x ∈ att, x ∈ all)
    (hls : ∀ a ∈ sentIn es ++ acceptedIn es, a.1 ∈ ls)
    (hB : NoBreak P k c0.length x0 all ls) (h0 : derive P k x0 0 c0.length = .ok c0) :
    ∀ a ∈ sentIn es ++ acceptedIn es, ∀ x ∈ att, ∀ d, ¬ OpensUnder P k c0.length x a.1 d := by
  obtain ⟨_, _, σ, a1, a2, a3, a4, a5⟩ := run_sends hP hS T hc hn h
  obtain ⟨_, _, τ, b1, b2, b3, b4⟩ := run_opens hP hS T hc hn h
  rw [e1] at a1 a4
  rw [e2] at b1 b4
  have hσa : ∀ x ∈ σ.map (·.1), x ∈ all := by
    intro x hx; obtain ⟨a, ha, rfl⟩ := List.mem_map.mp hx; exact hxs _ (a3 a ha)
  have hτa : ∀ x ∈ τ.map (·.1), x ∈ all := by
    intro x hx; obtain ⟨a, ha, rfl⟩ := List.mem_map.mp hx; exact hxs _ (b3 a ha).1
  -- a send and an open never have the same input
  have hcross : ∀ x, x ∈ σ.map (·.1) → x ∉ τ.map (·.1) := by
    intro x h1 h2
    obtain ⟨⟨x1, o⟩, m1, rfl⟩ := List.mem_map.mp h1
    obtain ⟨⟨y1, l, r⟩, m2, he⟩ := List.mem_map.mp h2
    simp only at he
    subst he
    cases o with
    | none => obtain ⟨d, e, he⟩ := a5 _ m1; exact hok d e he
    | some b =>
      obtain ⟨l', d'⟩ := b
      have g1 := (a4 _ _ _ m1).1
      have g2 := (b4 _ _ _ m2).1
      refine hno (l', d') (by rw [← a2]; exact List.mem_filterMap.mpr ⟨_, m1, rfl⟩) l (b3 _ m2).2 ?_
      rw [g1, g2]
  have hσn : σ ≠ [] := by
    rintro rfl
    exact hs1 (by rw [← a2]; rfl)
  have hτn : τ ≠ [] := by
    rintro rfl
    exact hs2 (by rw [← b2]; rfl)
  have key : ∀ {c c' : Bytes} {us vs : List KeyInput}, Ratcheted P k c0 us c → Ratcheted P k c0 vs c' → us ≠ [] → vs ≠ [] →
      (∀ x ∈ us, x ∈ all) → (∀ x ∈ vs, x ∈ all) → (∀ x, x ∈ us → x ∉ vs) → ∀ ys zs : List KeyInput, ∀ d, us = ys ++ zs → zs ≠ [] →
      Ratcheted P k c0 ys d → d ≠ c ∧ d ≠ c' := by
    intro c c' us vs hu hv hun hvn hua hva hx ys zs d hy hz hd
    constructor
    · rintro rfl
      have := Ratcheted.unique hS hB h0 hd hu (fun x hx => hua x (by rw [hy]; simp [hx])) hua
      rw [this] at hy
      have := congrArg List.length hy
      simp only [List.length_append] at this
      exact hz (List.length_eq_zero_iff.mp (by omega))
    · rintro rfl
      have := Ratcheted.unique hS hB h0 hd hv (fun x hx => hua x (by rw [hy]; simp [hx])) hva
      subst this
      cases ys with
      | nil => exact hvn rfl
      | cons y ys => exact hx y (by rw [hy]; simp) (by simp)
  have hσn' : σ.map (·.1) ≠ [] := by simpa using hσn
  have hτn' : τ.map (·.1) ≠ [] := by simpa using hτn
  have n1 := chain_not_attempted hS hB h0 hatt haa a1 hσa (by
    intro ys zs d hy hz hd
    have := key a1 b1 hσn' hτn' hσa hτa hcross ys zs d hy hz hd
    simp [this])
  have n2 := chain_not_attempted hS hB h0 hatt haa b1 hτa (by
    intro ys zs d hy hz hd
    have := key b1 a1 hτn' hσn' hτa hσa (fun x hx hx' => hcross x hx' hx) ys zs d hy hz hd
    simp [this])
  intro a ha x hx d ho
  rcases List.mem_append.mp ha with h1 | h1
  · rw [← a2] at h1
    obtain ⟨⟨y, o⟩, h2, h3⟩ := List.mem_filterMap.mp h1
    simp only at h3
    subst h3
    have := hB.letters a.1 (hls a ha) y (by simp [hxs _ (a3 _ h2)]) x (by simp [haa x hx]) _ _ (a4 _ _ _ h2).2 ho
    subst this
    exact n1 y (List.mem_map.mpr ⟨_, h2, rfl⟩) hx
  · rw [← b2] at h1
    obtain ⟨⟨y, l, o⟩, h2, h3⟩ := List.mem_filterMap.mp h1
    simp only [Option.map_eq_some_iff] at h3
    obtain ⟨d1, rfl, rfl⟩ := h3
    have := hB.letters l (hls _ ha) y (by simp [hxs _ (b3 _ h2).1]) x (by simp [haa x hx]) _ _ (((b4 _ _ _ h2).2 d1).mp rfl) ho
    subst this
    exact n2 y (List.mem_map.mpr ⟨_, h2, rfl⟩) hx

end

/-- C22, second half, what holds: once a party has sent and accepted a letter (after the first letter `m0`), the letters it has sent
and accepted since `m0` cannot be opened with anything that is derived from the keys it still holds (`Attempts`), even if all nonces and
all other key material are known. (The conditions: no send failed, and the nonces of its letters differ from those it was given.
Missing: before that, see `sent_keys_recomputable_refuted`.) -/
theorem old_letters_safe_partial (P : Prims) (pair : Bytes → Bytes → Bytes → Prop) (hP : P.Correct pair) (hS : P.KdfSized) (cfg : Config) (wo : World)
    (s v : Session) (m0 : Letter) (x0 : KeyInput) (data0 : Bytes) (p p' q q' : SState × Wire)
    (h0 : Started P pair cfg wo s m0 x0 data0 p v q) (k : ToolInst) (hk : s.kdf = some k) :
    (∀ (ec : List WEvent) (xc att : List KeyInput), PartyRun P cfg s p ec xc p' → (∀ d e, WEvent.sent d (.error e) ∉ ec) →
      (∀ a ∈ sentIn ec, ∀ l ∈ givenIn ec, a.1.nonce ≠ l.nonce) → sentIn ec ≠ [] → acceptedIn ec ≠ [] →
      Attempts P k s.keySize [p'.2.sendCarry, p'.2.recvCarry] att →
      NoBreak P k s.keySize x0 (xc ++ att) ((sentIn ec ++ acceptedIn ec).map (·.1)) →
      ∀ a ∈ sentIn ec ++ acceptedIn ec, ∀ x ∈ att, ∀ d, ¬ OpensUnder P k s.keySize x a.1 d) ∧
    (∀ (ev : List WEvent) (xv att : List KeyInput), PartyRun P cfg v q ev xv q' → (∀ d e, WEvent.sent d (.error e) ∉ ev) →
      (∀ a ∈ sentIn ev, ∀ l ∈ givenIn ev, a.1.nonce ≠ l.nonce) → sentIn ev ≠ [] → acceptedIn ev ≠ [] →
      Attempts P k s.keySize [q'.2.sendCarry, q'.2.recvCarry] att →
      NoBreak P k s.keySize x0 (xv ++ att) ((sentIn ev ++ acceptedIn ev).map (·.1)) →
      ∀ a ∈ sentIn ev ++ acceptedIn ev, ∀ x ∈ att, ∀ d, ¬ OpensUnder P k s.keySize x a.1 d) := by
  obtain ⟨C0, eo, rfl, T, n1, n2, hcl, hclv, e1, e2, e3, e4, hlen, hd0, ho0⟩ := started_spec hP hS h0 hk
  rw [← hlen] at hd0
  constructor
  · intro ec xc att hr hok hno h1 h2 ha hB
    rw [← hlen] at ha hB ⊢
    exact forward_secret hP hS T hcl n1 e1 e2 hr hok hno h1 h2 ha (fun x hx => by simp [hx]) (fun x hx => by simp [hx])
      (fun a ha => List.mem_map.mpr ⟨a, ha, rfl⟩) hB hd0
  · intro ev xv att hr hok hno h1 h2 ha hB
    rw [← hlen] at ha hB ⊢
    exact forward_secret hP hS (T.env eo) hclv n2 e3 e4 hr hok hno h1 h2 ha (fun x hx => by simp [hx]) (fun x hx => by simp [hx])
      (fun a ha => List.mem_map.mpr ⟨a, ha, rfl⟩) hB hd0

/-- C22, second half, refuted in general: in every conversation, when the client has sent its second letter and the answer of the server
has not arrived, the key of this letter can be recomputed from the client's state (the key for receiving is still the one the letter
was derived from) and the nonce of the letter. -/
theorem sent_keys_recomputable_refuted (P : Prims) (pair : Bytes → Bytes → Bytes → Prop) (hP : P.Correct pair) (hS : P.KdfSized) (cfg : Config)
    (wo : World) (s v : Session) (m0 : Letter) (x0 : KeyInput) (data0 : Bytes) (p p' q : SState × Wire)
    (h0 : Started P pair cfg wo s m0 x0 data0 p v q) (k : ToolInst) (hk : s.kdf = some k)
    (rng : Rng) (data : Bytes) (l : Letter) (h : s.wireClose P cfg rng p.1 p.2 data = (p', .ok l)) :
    OpensUnder P k s.keySize (l.nonce, p'.2.recvCarry) l data := by
  obtain ⟨C0, eo, rfl, T, n1, n2, hcl, hclv, e1, e2, e3, e4, hlen, hd0, ho0⟩ := started_spec hP hS h0 hk
  obtain ⟨⟨wc, e, w, rng0, hes, hev, hs, hlev, hc0, hx0⟩, hids, hcp, _⟩ := h0
  obtain ⟨rfl, k', B⟩ := wireBase_of hes hev hs hlev hids hcp
  have hkk : k' = k := by
    have := B.kdf; rw [hk] at this; exact (Option.some.inj this).symm
  subst hkk
  obtain ⟨st, w⟩ := p
  obtain ⟨C1, kx, ke, eo', hw', _, _, _, _⟩ := first_message (b := false) hP B (clean_init s) hc0
  obtain ⟨c, mat, off, hr, hw, hse, _⟩ := waiting_send hP B s.env hcl n1 (Or.inl (by rw [hw'])) h
  obtain ⟨rfl, rfl, _⟩ := ratchet_next (by simp) hr
  have hrc : p'.2.recvCarry = w.sendCarry := by
    rw [hw, sent_false n1]
    simp only at e1 e2 ⊢
    rw [e1, e2]
  have := (decrypt_iff T.stateful T.aead T.mac hcl).mp (hse s.env st hcl)
  simp only at e1
  rw [hrc, ← hlen, ← e1]
  simpa using this

/-! ## Examples -/

/-- The hypotheses of `message_keys_distinct_partial` are met by the conversation `unreliableTalk`: five letters, of which
no two share a key; and those of `old_letters_safe_partial` for the client in the same conversation, with attempts to open. -/
theorem wire_keys_example : ∃ s v m0 x0 p p' q q' k ec ev xc xv,
    Started orderPrims (fun _ pub priv => pub = priv) toyConfig toyWorld s m0 x0 b!"hello" p v q ∧ s.kdf = some k ∧
    PartyRun orderPrims toyConfig s p ec xc p' ∧ PartyRun orderPrims toyConfig v q ev xv q' ∧
    NoBreak orderPrims k s.keySize x0 (xc ++ xv) (m0 :: (sentIn ec ++ sentIn ev).map (·.1)) ∧
    (sentIn ec).map (·.2) = [b!"a", b!"b", b!"c"] ∧ (sentIn ev).map (·.2) = [b!"x", b!"y"] ∧
    (∀ a ∈ m0 :: (sentIn ec).map (·.1), ∀ b ∈ (sentIn ev).map (·.1), a.nonce ≠ b.nonce) ∧
    (∀ d e, WEvent.sent d (.error e) ∉ ec) ∧
    (∀ a ∈ sentIn ec, ∀ l ∈ givenIn ec, a.1.nonce ≠ l.nonce) ∧ acceptedIn ec ≠ [] ∧
    ∃ c, Attempts orderPrims k s.keySize [p'.2.sendCarry, p'.2.recvCarry] [([3], p'.2.sendCarry), ([8], [1] ++ p'.2.recvCarry), ([9], [2, 3] ++ c)] ∧
      NoBreak orderPrims k s.keySize x0 (xc ++ [([3], p'.2.sendCarry), ([8], [1] ++ p'.2.recvCarry), ([9], [2, 3] ++ c)])
        ((sentIn ec ++ acceptedIn ec).map (·.1)) := by
  have h : (match toyStart with
    | some (s, v, m0, x0, z) => decide (s.env.secrets = []) && decide (s.env.senders = []) && decide (s.env.recipients = [toyBob]) &&
      (match s.kdf with
        | none => false
        | some k =>
          let y := unreliableTalk.foldl (Sim.op orderPrims toyConfig s v m0) z
          noBreak orderPrims k s.keySize x0 (y.xc ++ y.xv) (m0 :: (sentIn y.ec ++ sentIn y.ev).map (·.1)) &&
          decide ((sentIn y.ec).map (·.2) = [b!"a", b!"b", b!"c"]) && decide ((sentIn y.ev).map (·.2) = [b!"x", b!"y"]) &&
          decide (∀ a ∈ m0 :: (sentIn y.ec).map (fun x : Letter × Bytes => x.1), ∀ b ∈ (sentIn y.ev).map (fun x : Letter × Bytes => x.1), a.nonce ≠ b.nonce) &&
          y.ec.all (fun e => match e with | .sent _ (.error _) => false | _ => true) &&
          decide (∀ a ∈ sentIn y.ec, ∀ l ∈ givenIn y.ec, a.1.nonce ≠ l.nonce) && decide ((acceptedIn y.ec).length ≠ 0) &&
          decide (y.pc.2.sendCarry.length = s.keySize) && decide (y.pc.2.recvCarry.length = s.keySize) &&
          (match derive orderPrims k ([8], [1] ++ y.pc.2.recvCarry) 0 s.keySize with
          | .error _ => false
          | .ok c => noBreak orderPrims k s.keySize x0 (y.xc ++ [([3], y.pc.2.sendCarry), ([8], [1] ++ y.pc.2.recvCarry), ([9], [2, 3] ++ c)])
            ((sentIn y.ec ++ acceptedIn y.ec).map (·.1))))
    | none => false) = true := by decide +kernel
  split at h
  · rename_i s v m0 x0 z hz
    simp only [Bool.and_eq_true, decide_eq_true_eq] at h
    obtain ⟨⟨⟨h1, h2⟩, h3⟩, h4⟩ := h
    split at h4
    · cases h4
    · rename_i k hk
      simp only [Bool.and_eq_true, decide_eq_true_eq] at h4
      obtain ⟨⟨⟨⟨⟨⟨⟨⟨⟨a1, a2⟩, a3⟩, a4⟩, a5⟩, a6⟩, a7⟩, a8⟩, a9⟩, a10⟩ := h4
      obtain ⟨hst, e1, e2, e3, e4⟩ := toyStart_started hz h3 h1 h2
      obtain ⟨r1, r2⟩ := sim_runs (P := orderPrims) (cfg := toyConfig) (s := s) (v := v) (m0 := m0) (p := z.pc) (q := z.pv) unreliableTalk z
        (by rw [e1, e2]; exact .start) (by rw [e3, e4]; exact .start)
      split at a10
      · cases a10
      · rename_i c hc
        refine ⟨s, v, m0, x0, z.pc, _, z.pv, _, k, _, _, _, _, hst, hk, r1, r2, noBreak_of a1, a2, a3, a4, ?_, a6, ?_, c, ?_, noBreak_of a10⟩
        · intro d e he
          have := List.all_eq_true.mp a5 _ he
          simp at this
        · intro he; rw [he] at a7; exact a7 rfl
        · refine .snoc (att := [_, _]) (.snoc (att := [_]) (.snoc (att := []) .nil (m := []) (c := _) rfl a8 (Or.inl (by simp))) rfl a9 (Or.inl (by simp))) rfl
            (orderPrims_sized _ _ _ _ _ _ _ hc) (Or.inr ⟨([8], _), by simp, hc⟩)
  · cases h

/-- The handshake with an unlucky random number generator: the answer of the server and the next letter of the client have the same nonce. -/
def unluckyTalk : List SimOp :=
  [.serverSend (byteRng 18) b!"x", .clientOpen 0, .clientSend (byteRng 18) b!"a", .serverOpen 1]

/-- C22, first half, refuted: the answer of the server and the letter with which the client applies the keys are derived from the
same material (the new keys and the key of the first letter). If their random nonces (4 bytes with the suite `w1`) are the same, both letters
are protected with the same key and nonce of the cipher. Both are accepted. -/
theorem same_key_both_directions_refuted : ∃ s v m0 x0 p p' q q' k ec ev xc xv a b x,
    Started orderPrims (fun _ pub priv => pub = priv) toyConfig toyWorld s m0 x0 b!"hello" p v q ∧ s.kdf = some k ∧
    PartyRun orderPrims toyConfig s p ec xc p' ∧ PartyRun orderPrims toyConfig v q ev xv q' ∧
    NoBreak orderPrims k s.keySize x0 (xc ++ xv) (m0 :: (sentIn ec ++ sentIn ev).map (·.1)) ∧
    sentIn ec = [(a, b!"a")] ∧ acceptedIn ev = sentIn ec ∧ sentIn ev = [(b, b!"x")] ∧ acceptedIn ec = sentIn ev ∧
    x ∈ xc ∧ x ∈ xv ∧ OpensUnder orderPrims k s.keySize x a b!"a" ∧ OpensUnder orderPrims k s.keySize x b b!"x" := by
  have h : (match toyStart with
    | some (s, v, m0, x0, z) => decide (s.env.secrets = []) && decide (s.env.senders = []) && decide (s.env.recipients = [toyBob]) &&
      (match s.kdf with
        | none => false
        | some k =>
          let y := unluckyTalk.foldl (Sim.op orderPrims toyConfig s v m0) z
          noBreak orderPrims k s.keySize x0 (y.xc ++ y.xv) (m0 :: (sentIn y.ec ++ sentIn y.ev).map (·.1)) &&
          (match sentIn y.ec, sentIn y.ev, y.xc with
          | [(a, d)], [(b, e)], x :: xs =>
            decide (d = b!"a") && decide (e = b!"x") && decide (acceptedIn y.ev = sentIn y.ec) && decide (acceptedIn y.ec = sentIn y.ev) &&
            decide (x ∈ y.xv) &&
            (match derive orderPrims k x s.keySize 32, derive orderPrims k x (s.keySize + 32) 12 with
            | .ok key, .ok n => decide (orderPrims.aeadOpen b!"CHACHA20-POLY1305" key n a.compileAD a.data = .ok b!"a") &&
              decide (orderPrims.aeadOpen b!"CHACHA20-POLY1305" key n b.compileAD b.data = .ok b!"x")
            | _, _ => false)
          | _, _, _ => false))
    | none => false) = true := by decide +kernel
  split at h
  · rename_i s v m0 x0 z hz
    simp only [Bool.and_eq_true, decide_eq_true_eq] at h
    obtain ⟨⟨⟨h1, h2⟩, h3⟩, h4⟩ := h
    split at h4
    · cases h4
    · rename_i k hk
      simp only [Bool.and_eq_true] at h4
      obtain ⟨a1, a2⟩ := h4
      split at a2
      · rename_i a d b e x xs g1 g2 g3
        simp only [Bool.and_eq_true, decide_eq_true_eq] at a2
        obtain ⟨⟨⟨⟨⟨rfl, rfl⟩, b3⟩, b4⟩, b5⟩, b6⟩ := a2
        split at b6
        · rename_i key n k1 k2
          simp only [Bool.and_eq_true, decide_eq_true_eq] at b6
          obtain ⟨hst, e1, e2, e3, e4⟩ := toyStart_started hz h3 h1 h2
          obtain ⟨r1, r2⟩ := sim_runs (P := orderPrims) (cfg := toyConfig) (s := s) (v := v) (m0 := m0) (p := z.pc) (q := z.pv) unluckyTalk z
            (by rw [e1, e2]; exact .start) (by rw [e3, e4]; exact .start)
          exact ⟨s, v, m0, x0, z.pc, _, z.pv, _, k, _, _, _, _, a, b, x, hst, hk, r1, r2, noBreak_of a1, g1, b3, g2, b4,
            by rw [g3]; simp, b5, ⟨key, n, k1, k2, b6.1⟩, ⟨key, n, k1, k2, b6.2⟩⟩
        · cases b6
      · cases a2
  · cases h

end Jess
