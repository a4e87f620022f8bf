import Verif.Props.WireState

/-!
C24 (refuted): what a letter that is rejected does to a wire session. C54 (refuted): letters that a wire session accepts although
the peer did not send them.
-/

namespace Jess

open Requirements

/-! ## C24 -/

section
variable {P : Prims} {cfg : Config} {s : Session}

/-- The states in which a party has exchanged its first letters. -/
def HState.settled (h : HState) : Prop := h = .sendKey ∨ h = .sendApply ∨ h = .awaitApply

/-- C24, mechanism of the refutation: whatever letter is opened by a settled wire session (no keys, `ApplyKeys` not set), the
receiving key is replaced by one that is derived with the nonce of that letter, also if the letter is rejected. -/
theorem any_letter_advances (P : Prims) (cfg : Config) (s : Session) (hs : WireOf P cfg s) (k : ToolInst) (hk : s.kdf = some k)
    (st : SState) (w : Wire) (l : Letter) (hw : w.hs.settled) (hm : w.msgNo ≠ 0) (hl : l.applyKeys = false) (hn : l.nonce ≠ [])
    (hc : w.recvCarry ≠ []) (c : Bytes) (hr : kdfRead P k l.nonce [w.recvCarry] 0 w.recvCarry.length = .ok c) :
    (s.wireOpen P cfg st w l).1.2 = { w with recvCarry := c, msgNo := w.msgNo + 1 } := by
  have hsg := (initWire_spec hs.wire).2.2.1
  have hsw : recvSwitch P cfg s w l = (w, .ok ([], false)) := by
    unfold recvSwitch
    rcases hw with h | h | h <;> rw [h]
    simp [hl]
  have hrat : ratchet P s k w.msgNo w.recvCarry l.nonce [] = .ok (c, [w.recvCarry], w.recvCarry.length) := by
    unfold ratchet
    have hi : kdfInitOK l.nonce [w.recvCarry] = true := by
      simp [kdfInitOK]; exact ⟨hc, hn⟩
    simp only [if_neg hm, List.nil_append, hi, if_true, hr]
  unfold Session.wireOpen
  simp only [checkSignatures, hsg, List.isEmpty_nil, if_true, hk, recvHandshake, hsw, hrat]
  rw [received_false hm]

/-- C24, what holds: a letter without nonce is rejected by a settled session before anything is changed. (Missing: every letter
with a nonce, see `any_letter_advances` and `forged_letter_breaks_session`.) -/
theorem letter_without_nonce_partial (P : Prims) (cfg : Config) (s : Session) (hs : WireOf P cfg s) (st : SState) (w : Wire) (l : Letter)
    (hw : w.hs.settled) (hm : w.msgNo ≠ 0) (hn : l.nonce = []) :
    (s.wireOpen P cfg st w l).1 = (st, w) ∧ (s.wireOpen P cfg st w l).2.isOk = false := by
  have hsg := (initWire_spec hs.wire).2.2.1
  have hR : RecipientAuthentication ∈ s.reqs := (initWire_spec hs.wire).2.1 _ (by decide)
  obtain ⟨k, hk⟩ := Option.ne_none_iff_exists'.mp (kdfTool_of_secret hs.session hR)
  have hrat : ∀ m, ratchet P s k w.msgNo w.recvCarry l.nonce m = .error .config := by
    intro m
    unfold ratchet
    have hi : kdfInitOK l.nonce (m ++ [w.recvCarry]) = false := by
      unfold kdfInitOK; split <;> simp [hn]
    simp only [if_neg hm, hi]; rfl
  have hsw : ∃ m, recvSwitch P cfg s w l = (w, .ok m) := by
    unfold recvSwitch
    rcases hw with h | h | h <;> rw [h]
    · exact ⟨_, rfl⟩
    · exact ⟨_, rfl⟩
    · simp only; split <;> exact ⟨_, rfl⟩
  obtain ⟨⟨m, b⟩, hsw⟩ := hsw
  unfold Session.wireOpen
  simp only [checkSignatures, hsg, List.isEmpty_nil, if_true, hk, recvHandshake, hsw, hrat]
  exact ⟨trivial, rfl⟩

end

/-- The forged letter: any nonce, no data. -/
def forgedLetter : Letter := { nonce := [200, 17], data := [1, 2, 3, 4, 5] }

/-- C24 is REFUTED: after a forged letter (which is rejected) the server rejects the genuine next letter, which it would have accepted
otherwise. -/
theorem forged_letter_breaks_session : ∃ s w n v st wv l d q, toyWire = .ok (s, w) ∧
    WReach toyPrims toyConfig toyWorld suiteRegistry s { client := (s.initState, w) } n ∧ n.server = some (v, st, wv) ∧ n.c2s = (l, d) :: q ∧
    (v.wireOpen toyPrims toyConfig st wv l).2 = .ok d ∧
    (v.wireOpen toyPrims toyConfig st wv forgedLetter).2 = .error .integrity ∧
    (v.wireOpen toyPrims toyConfig (v.wireOpen toyPrims toyConfig st wv forgedLetter).1.1
      (v.wireOpen toyPrims toyConfig st wv forgedLetter).1.2 l).2 = .error .integrity := by
  have h : (match toyWire with
    | .ok (s, w) =>
      (match Net.runs toyPrims toyConfig toyWorld suiteRegistry s toyRng { client := (s.initState, w) } toyTalk with
        | some n =>
          (match n.server, n.c2s with
          | some (v, st, wv), (l, d) :: _ =>
            decide ((v.wireOpen toyPrims toyConfig st wv l).2.toOption = some d) &&
            (match v.wireOpen toyPrims toyConfig st wv forgedLetter with
            | (x, .error .integrity) => (match (v.wireOpen toyPrims toyConfig x.1 x.2 l).2 with
              | .error .integrity => true
              | _ => false)
            | _ => false)
          | _, _ => false)
        | none => false)
    | .error _ => false) = true := by decide +kernel
  split at h
  · rename_i s w hs
    split at h
    · rename_i n hn
      split at h
      · rename_i v st wv l d q h1 h2
        simp only [Bool.and_eq_true, decide_eq_true_eq] at h
        obtain ⟨a, h⟩ := h
        split at h
        · rename_i x hx
          split at h
          · rename_i hy
            refine ⟨s, w, n, v, st, wv, l, d, q, hs, runs_reach .refl hn, h1, h2, ?_, by rw [hx], by rw [hx]; exact hy⟩
            cases ho : (v.wireOpen toyPrims toyConfig st wv l).2 with
            | error e => rw [ho] at a; cases a
            | ok y => rw [ho] at a; cases a; rfl
          · cases h
        · cases h
      · cases h
    · cases h
  · cases h

/-! ## C54 -/

section
variable {P : Prims} {pair : Bytes → Bytes → Bytes → Prop} {cfg : Config} {wo : World} {reg : List Suite} {s : Session} {k : ToolInst}

/-- The state in which the receiving key is the sending key (of the first two letters). -/
theorem reflect_waiting (hP : P.Correct pair) (B : WireBase P pair cfg wo reg s k) {rng : Rng} {st : SState} {w : Wire} {data : Bytes}
    {x : SState × Wire} {l : Letter} (hc : Clean s st) (hn : w.msgNo ≠ 0) (hi : w.hs = .awaitKey) (hcarry : w.recvCarry = w.sendCarry)
    (h : s.wireClose P cfg rng st w data = (x, .ok l)) : (s.wireOpen P cfg x.1 x.2 l).2 = .ok data := by
  obtain ⟨c, mat, off, h1, h2, h3, h4, h5, h6⟩ := waiting_send hP B s.env hc hn (Or.inl hi) h
  obtain ⟨st', w'⟩ := x
  simp only at h2 h4
  subst h2
  have hsw : recvSwitch P cfg { s with env := s.env } (w.sent c false) l = (w.sent c false, .ok ([], false)) := by
    unfold recvSwitch
    rw [(sent_hs w c false).1, hi]
    simp [recvAnswer, h5]
  have hr : ratchet P s k (w.sent c false).msgNo (w.sent c false).recvCarry l.nonce [] = .ok (c, mat, off) := by
    rw [ratchet_pos P s k (by rw [(sent_hs w c false).2]; omega)]
    rw [sent_false hn]
    simp only [hcarry]
    exact h1
  obtain ⟨st2, _, b⟩ := wireOpen_ok s.env B.kdf B.signing h4 hsw hr h3
  rw [show ({ s with env := s.env } : Session) = s from rfl] at b
  simp only [b]

theorem decryptLetter_apply (st : SState) (mat : List Bytes) (off : Nat) (l : Letter) (b : Bool) :
    decryptLetter P s st k mat off { l with applyKeys := b } = decryptLetter P s st k mat off l := rfl

theorem reflect_answer (hP : P.Correct pair) (B : WireBase P pair cfg wo reg s k) (eo : Envelope) {rng : Rng} {st : SState} {w : Wire}
    {data : Bytes} {x : SState × Wire} {l : Letter} (hc : Clean s st) (hn : w.msgNo ≠ 0) (hi : w.hs = .sendKey) {ckx : List KxPair}
    {cke : List KePair} (hx : All2 (MatchKX P pair) ckx w.kx) (he : All2 (MatchKE P pair) cke w.ke) (hcarry : w.recvCarry = w.sendCarry)
    (h : ({ s with env := eo } : Session).wireClose P cfg rng st w data = (x, .ok l)) :
    (({ s with env := eo } : Session).wireOpen P cfg x.1 x.2 { l with applyKeys := true }).2 = .ok data := by
  obtain ⟨w1, out, c, mat, off, h1, h2, h3, h4, h5, h6, h7⟩ := later_send hP B eo hc hn (by rw [hi]; simp) h
  obtain ⟨st', w'⟩ := x
  simp only at h3 h5
  subst h3
  have h1' : complete P rng { s with env := eo } w = (w1, .ok out) := by
    rw [← h1]; unfold sendSwitch; rw [hi]
  obtain ⟨⟨kx, ke, rfl⟩, a2, a3, _, _⟩ := answer_spec hP hx he h1'
  have h2 := h2 rfl
  rw [a3]
  rw [sent_false (by exact hn)]
  have hsw : recvSwitch P cfg { s with env := eo }
      { w with kx := kx, ke := ke, newMaterial := out.material, hs := .awaitApply, sendCarry := c, msgNo := w.msgNo + 1 }
      { l with applyKeys := true } = (_, .ok (out.material, true)) := rfl
  have hr : ratchet P s k (w.msgNo + 1) w.recvCarry ({ l with applyKeys := true } : Letter).nonce out.material = .ok (c, mat, off) := by
    rw [ratchet_pos P s k (by omega), hcarry]
    exact h2
  obtain ⟨st2, _, b⟩ := wireOpen_ok eo B.kdf B.signing h5 hsw hr (by intro eo st hcl; rw [decryptLetter_apply]; exact h4 eo st hcl)
  rw [b]

end

/-- C54 is REFUTED: for any primitives that work, the client's session accepts the second letter that it sent itself (reflected by
an attacker) as a letter from the server. -/
theorem client_accepts_own_letter (P : Prims) (pair : Bytes → Bytes → Bytes → Prop) (hP : P.Correct pair) (cfg : Config) (wc wo : World)
    (e : Envelope) (hes : e.suite = none) (hev : e.version = 1) (s : Session) (w : Wire)
    (hs : wireCorrespondence P cfg wc suiteRegistry e = .ok (s, w))
    (hlev : demandedLevel cfg 0 ≤ demandedLevel cfg e.securityLevel) (hids : ∀ r ∈ s.env.recipients, r.id ≠ [])
    (hcp : Counterparts P pair wo s) (rng1 rng2 : Rng) (data1 data2 : Bytes) (x1 x2 : SState × Wire) (l1 l2 : Letter)
    (h1 : s.wireClose P cfg rng1 s.initState w data1 = (x1, .ok l1)) (h2 : s.wireClose P cfg rng2 x1.1 x1.2 data2 = (x2, .ok l2)) :
    (s.wireOpen P cfg x2.1 x2.2 l2).2 = .ok data2 := by
  obtain ⟨rfl, k, B⟩ := wireBase_of hes hev hs hlev hids hcp
  obtain ⟨st1, w1⟩ := x1
  obtain ⟨C0, kx, ke, eo, hw, hc, hne, _, _⟩ := first_message hP B (b := false) (clean_init s) h1
  subst hw
  exact reflect_waiting hP B hc (by simp) rfl rfl h2

/-- C54 is REFUTED, for the server: it accepts its own answer if it is reflected to it with the flag `ApplyKeys` set. -/
theorem server_accepts_own_letter (P : Prims) (pair : Bytes → Bytes → Bytes → Prop) (hP : P.Correct pair) (cfg : Config) (wc wo : World)
    (e : Envelope) (hes : e.suite = none) (hev : e.version = 1) (s : Session) (w : Wire)
    (hs : wireCorrespondence P cfg wc suiteRegistry e = .ok (s, w))
    (hlev : demandedLevel cfg 0 ≤ demandedLevel cfg e.securityLevel) (hids : ∀ r ∈ s.env.recipients, r.id ≠ [])
    (hcp : Counterparts P pair wo s) (rng1 rng2 : Rng) (data1 data1' data2 : Bytes) (x1 y1 y2 : SState × Wire) (l1 l2 : Letter)
    (v : Session) (wv : Wire) (h1 : s.wireClose P cfg rng1 s.initState w data1 = (x1, .ok l1))
    (hv : l1.wireCorrespondence P cfg wo suiteRegistry = .ok (v, wv)) (ho : v.wireOpen P cfg v.initState wv.asServer l1 = (y1, .ok data1'))
    (h2 : v.wireClose P cfg rng2 y1.1 y1.2 data2 = (y2, .ok l2)) :
    (v.wireOpen P cfg y2.1 y2.2 { l2 with applyKeys := true }).2 = .ok data2 := by
  obtain ⟨rfl, k, B⟩ := wireBase_of hes hev hs hlev hids hcp
  obtain ⟨st1, w1⟩ := x1
  obtain ⟨C0, kx, ke, eo, hw, hc, hne, hcor, hop⟩ := first_message hP B (b := false) (clean_init s) h1
  rw [hcor] at hv
  cases hv
  obtain ⟨stv, vkx, vke, c1, c2, c3, c4⟩ := hop true
  rw [show ({} : Wire).asServer = { server := true } from rfl, c4] at ho
  cases ho
  exact reflect_answer hP B eo c1 (by simp) rfl c2 c3 rfl h2

/-- The hypotheses of `client_accepts_own_letter` and `server_accepts_own_letter` are met (those about the session are those of
`wire_delivery_example`). -/
theorem reflection_example : ∃ s w x1 l1 x2 l2 v wv y1 y2 l3, toyWire = .ok (s, w) ∧
    s.wireClose toyPrims toyConfig toyRng s.initState w b!"one" = (x1, .ok l1) ∧
    s.wireClose toyPrims toyConfig toyRng x1.1 x1.2 b!"two" = (x2, .ok l2) ∧
    (s.wireOpen toyPrims toyConfig x2.1 x2.2 l2).2 = .ok b!"two" ∧
    l1.wireCorrespondence toyPrims toyConfig toyWorld suiteRegistry = .ok (v, wv) ∧
    v.wireOpen toyPrims toyConfig v.initState wv.asServer l1 = (y1, .ok b!"one") ∧
    v.wireClose toyPrims toyConfig toyRng y1.1 y1.2 b!"three" = (y2, .ok l3) ∧
    (v.wireOpen toyPrims toyConfig y2.1 y2.2 { l3 with applyKeys := true }).2 = .ok b!"three" := by
  have h : (match toyWire with
    | .ok (s, w) =>
      (match s.wireClose toyPrims toyConfig toyRng s.initState w b!"one" with
      | (x1, .ok l1) =>
        (match s.wireClose toyPrims toyConfig toyRng x1.1 x1.2 b!"two" with
        | (x2, .ok l2) => decide ((s.wireOpen toyPrims toyConfig x2.1 x2.2 l2).2.toOption = some b!"two")
        | _ => false) &&
        (match l1.wireCorrespondence toyPrims toyConfig toyWorld suiteRegistry with
        | .ok (v, wv) =>
          (match v.wireOpen toyPrims toyConfig v.initState wv.asServer l1 with
          | (y1, .ok d) => decide (d = b!"one") &&
            (match v.wireClose toyPrims toyConfig toyRng y1.1 y1.2 b!"three" with
            | (y2, .ok l3) => decide ((v.wireOpen toyPrims toyConfig y2.1 y2.2 { l3 with applyKeys := true }).2.toOption = some b!"three")
            | _ => false)
          | _ => false)
        | .error _ => false)
      | _ => false)
    | .error _ => false) = true := by decide +kernel
  have opt : ∀ {r : Res Bytes} {d : Bytes}, r.toOption = some d → r = .ok d := by
    intro r d h; cases r with
    | error e => cases h
    | ok y => cases h; rfl
  split at h
  · rename_i s w hs
    split at h
    · rename_i x1 l1 hx1
      rw [Bool.and_eq_true] at h
      obtain ⟨ha, hb⟩ := h
      split at ha
      · rename_i x2 l2 hx2
        split at hb
        · rename_i v wv hv
          split at hb
          · rename_i y1 d hy1
            rw [Bool.and_eq_true] at hb
            obtain ⟨hd, hb⟩ := hb
            obtain rfl := of_decide_eq_true hd
            split at hb
            · rename_i y2 l3 hy2
              exact ⟨s, w, x1, l1, x2, l2, v, wv, y1, y2, l3, hs, hx1, hx2, opt (of_decide_eq_true ha), hv, hy1, hy2, opt (of_decide_eq_true hb)⟩
            · cases hb
          · cases hb
        · cases hb
      · cases ha
    · cases h
  · cases h

end Jess
