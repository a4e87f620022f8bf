import Verif.Props.Story
import Verif.Props.Password
import Verif.Props.OnlyWith

/-!
# C97: a file protected with passwords
-/

namespace Jess

open Requirements

/-- A password that is asked for while an envelope is prepared for closing. -/
theorem created_one {sha1 : Bytes → Bytes} {D : Bytes → PwDialog} {P : Prims} {w : World} {level : Int}
    (hw : w.createPw = some (fun s => createPasswordInterface sha1 (D s.id) s)) {x o : Signet} (hk : x.key = []) (hsch : x.scheme = schemePassword)
    (h : prepOne P w level false x = .ok o) : (createPassword sha1 (D x.id) level).1 = .ok o.key ∧ o.id = x.id ∧ o.scheme = schemePassword := by
  simp only [prepOne, hk, hsch, List.length_nil, if_true, fillPassword, Bool.not_false, hw, createPasswordInterface, bind_ok_iff] at h
  obtain ⟨pw, h1, h2⟩ := h
  cases h2
  have hid := nameFromStore_id w x
  rw [hid.1] at h1
  exact ⟨h1, hid.1, hid.2.1.trans hsch⟩

/-- The secrets of a session for an envelope with passwords that are asked for. -/
theorem created_secrets {sha1 : Bytes → Bytes} {D : Bytes → PwDialog} {P : Prims} {cfg : Config} {w : World} {e : Envelope} (hes : e.suite = none)
    (heo : e.opening = false) (hw : w.createPw = some (fun s => createPasswordInterface sha1 (D s.id) s))
    (hsec : ∀ k ∈ e.secrets, k.scheme = schemePassword ∧ k.key = []) {s : Session} (hs : correspondence P cfg w suiteRegistry e = .ok s) :
    All2 (fun x o => (createPassword sha1 (D x.id) s.suite.securityLevel).1 = .ok o.key ∧ o.id = x.id ∧ o.scheme = schemePassword) e.secrets s.env.secrets := by
  have hsu := (library_session hes hs).suite
  simp only [correspondence, loadSuite, hes, bind_ok_iff] at hs
  obtain ⟨⟨e1, su⟩, h1, h2⟩ := hs
  split at h1
  · cases h1
  · rename_i su' hg
    cases h1
    obtain ⟨e2, hp, hn⟩ := h2
    rw [hsu] at hg
    cases hg
    simp only [prepareSignets, bind_ok_iff] at hp
    obtain ⟨a, ha, b, hb, c, hcc, hx⟩ := hp
    cases hx
    obtain ⟨g1, _⟩ := newSession_env hn
    simp only [heo] at ha
    rw [prepSignets_all2 _ _ _ _ _ _ (.inl rfl)] at ha
    rw [g1]
    exact ha.mono_mem fun x hx o _ hxo => created_one hw (hsec x hx).2 (hsec x hx).1 hxo

theorem correspondence_none {P : Prims} {cfg : Config} {w : World} {e : Envelope} (hsl : e.SuiteLoaded) {s : Session}
    (hcor : correspondence P cfg w suiteRegistry e = .ok s) : correspondence P cfg w suiteRegistry { e with suite := none } = .ok s := by
  cases hl : loadSuite suiteRegistry e with
  | error er => simp only [correspondence, hl] at hcor; cases hcor
  | ok x =>
    obtain ⟨e2, su⟩ := x
    rw [← correspondence_loaded hsl hl]
    simp only [correspondence, hl, ok_bind] at hcor
    simp only [correspondence, loadSuite]
    have h3 : e2.suite = some su := by
      unfold loadSuite at hl
      split at hl
      · rename_i hsu; cases hl; exact hsu
      · split at hl
        · cases hl
        · cases hl; rfl
    rw [h3]
    exact hcor

/-- Alice gives the passwords for an envelope at the prompt: `D id` is what she types for the password with this ID. -/
def Prompted (sha1 : Bytes → Bytes) (D : Bytes → PwDialog) (w : World) : Prop := w.createPw = some (fun s => createPasswordInterface sha1 (D s.id) s)

/-- Bob gives the passwords of a letter at the prompt: `typed id` is what he types for the password with this ID. -/
def Answered (typed : Bytes → Res Bytes) (w : World) : Prop := w.getPw = some (fun s => getPasswordInterface (typed s.id) s)

/-- An envelope with nothing but passwords that are asked for, each with an ID. -/
structure PasswordsOnly (e : Envelope) : Prop where
  secrets : ∀ k ∈ e.secrets, k.scheme = schemePassword ∧ k.key = [] ∧ k.id ≠ []
  senders : e.senders = []
  recipients : e.recipients = []

theorem passwords_session {sha1 : Bytes → Bytes} {D : Bytes → PwDialog} {P : Prims} {cfg : Config} {w : World} {e : Envelope} (hes : e.suite = none)
    (heo : e.opening = false) (hw : Prompted sha1 D w) (he : PasswordsOnly e) {s : Session} (hs : correspondence P cfg w suiteRegistry e = .ok s) :
    (∀ k ∈ s.env.secrets, k.scheme = schemePassword ∧ k.id ≠ [] ∧ ∃ x ∈ e.secrets, x.id = k.id ∧ (createPassword sha1 (D x.id) s.suite.securityLevel).1 = .ok k.key) ∧
      (∀ x ∈ e.secrets, ∃ k ∈ s.env.secrets, k.id = x.id ∧ (createPassword sha1 (D x.id) s.suite.securityLevel).1 = .ok k.key) ∧
      s.env.senders = [] ∧ s.env.recipients = [] := by
  have hall := created_secrets hes heo hw (fun k hk => ⟨(he.secrets k hk).1, (he.secrets k hk).2.1⟩) hs
  have hl := library_session hes hs
  refine ⟨?_, ?_, ?_, ?_⟩
  · intro k hk
    obtain ⟨x, hx, h1, h2, h3⟩ := hall.mem_right hk
    exact ⟨h3, by rw [h2]; exact (he.secrets x hx).2.2, x, hx, h2.symm, h1⟩
  · intro x hx
    obtain ⟨k, hk, h1, h2, _⟩ := hall.mem_left hx
    exact ⟨k, hk, h2, h1⟩
  · exact List.eq_nil_of_length_eq_zero (by rw [hl.senders, he.senders]; rfl)
  · exact List.eq_nil_of_length_eq_zero (by rw [hl.recipients, he.recipients]; rfl)

/-- A created password is the one that was typed the second time. -/
theorem created_again {sha1 : Bytes → Bytes} {D : PwDialog} {min : Int} {pw : Bytes} (h : (createPassword sha1 D min).1 = .ok pw) : D.again = .ok pw := by
  unfold createPassword at h
  split at h
  · cases h
  · rename_i pw1 hf
    split at h
    · cases h
    · rename_i pw2 ha
      split at h
      · cases h
      · rename_i hne
        have : pw1 = pw2 := Decidable.byContradiction hne
        subst this
        unfold pwCheck at h
        split at h
        · cases h
        · cases h; exact ha
        · split at h
          · cases h
          · cases h; exact ha

/-- C97. Alice closes a file with an envelope that has nothing but passwords, which she gives at the prompt, and `jess close` reports success. Then every
password she typed was typed twice and reaches the level of the suite. And Bob, who types the same passwords when `jess open` asks for them, gets
exactly the content of the file; he needs nothing else: no trust store, no keys. (The condition of C10 on the security level; `hp`: the letter has
arrived.) -/
theorem password_file_opens (pair : Bytes → Bytes → Bytes → Prop) (T T' : CmdEnv) (hP : T.E.P.Correct pair) (hc : T.hc.Sound)
    (hE : T'.E = T.E) (hhc : T'.hc = T.hc) (hno : ¬ SaidNo T) (hyes : ∀ q, T'.answer q = .ok true)
    -- the prompts
    (sha1 : Bytes → Bytes) (hsha : ∀ x, (sha1 x).length = 20) (D : Bytes → PwDialog) (hA : Prompted sha1 D T.w)
    (typed : Bytes → Res Bytes) (hB : Answered typed T'.w)
    -- the file and the envelope
    (d d1 d1' : Disk) (file name flag data : Bytes) (e : Envelope) (hin : Reads T d file data) (he : T.envelopes name = .ok e)
    (hsl : e.SuiteLoaded) (hev : e.version = 1) (heo : e.opening = false) (hlev : demandedLevel T.E.cfg 0 ≤ demandedLevel T.E.cfg e.securityLevel)
    (hpw : PasswordsOnly e) (hsame : ∀ k ∈ e.secrets, typed k.id = (D k.id).again)
    (su : Suite) (hsu : getSuite suiteRegistry e.suiteID = some su) (hreq : ∀ a ∈ T'.reqs.getD Requirements.full, a ∈ su.provides)
    -- closing succeeds, the letter arrives
    (h : closeCommand T d [file, b!"with", name] flag = (d1, .ok ()))
    (p : Bytes) (hp : ∀ target c, NamedBy flag target (file ++ b!".letter") → Outputs T d d1 target c → c.length < 2 ^ 64 ∧ Reads T' d1' p c)
    -- Bob's output
    (flag' target' : Bytes) (ht : (flag' ≠ [] ∧ target' = flag') ∨ (flag' = [] ∧ p = target' ++ b!".letter" ∧ target' ≠ []))
    (hw : Writable T' d1' target') (ho : T'.out = .done) :
    (∀ k ∈ e.secrets, ∃ pw, (D k.id).again = .ok pw ∧ pw ∈ (D k.id).tries ∧ su.securityLevel ≤ passwordLevel pw 20000) ∧
      ∃ d2, openCommand T' d1' [p] flag' = (d2, .ok ()) ∧ Outputs T' d1' d2 target' data := by
  refine ⟨?_, ?_⟩
  · rcases (close_command_safe T d _ flag d1 _ h).2 rfl with ⟨_, hx⟩ | ⟨file', name', target, content, ha, hcl, hout⟩
    · exact absurd hx hno
    cases ha
    obtain ⟨_, ⟨e', s, data', l, he', hcor, _⟩, _⟩ := hcl
    rw [he] at he'
    cases he'
    have hcor' := correspondence_none hsl hcor
    have hsu' := (library_session (e := { e with suite := none }) rfl hcor').suite
    rw [hsu] at hsu'
    cases hsu'
    obtain ⟨_, i2, _⟩ := passwords_session (e := { e with suite := none }) rfl heo hA ⟨hpw.secrets, hpw.senders, hpw.recipients⟩ hcor'
    intro x hx
    obtain ⟨k, _, _, h2⟩ := i2 x hx
    obtain ⟨⟨pre, post, h3, _⟩, h4, h5, _⟩ := created_password_partial sha1 hsha _ _ _ h2
    exact ⟨k.key, h5, by rw [h3]; simp, h4⟩
  · refine close_open_commands_partial T T' d d1 d1' file name flag data e pair hP hc hE hhc hno hyes hin he hsl hev hlev ?_ h p hp flag' target' ht hw ho
    intro s hs
    have hsu' := (library_session (e := { e with suite := none }) rfl hs).suite
    rw [hsu] at hsu'
    cases hsu'
    obtain ⟨i1, _, i3, i4⟩ := passwords_session (e := { e with suite := none }) rfl heo hA ⟨hpw.secrets, hpw.senders, hpw.recipients⟩ hs
    have hne : schemePassword ≠ schemeKey := by decide
    refine ⟨⟨fun k hk => (i1 k hk).2.1, by simp [i3], by simp [i4]⟩, .inl (fun k hk => by rw [(i1 k hk).1]; exact hne), ⟨?_, ?_, by simp [i3], by simp [i4]⟩, hreq⟩
    · intro k hk hkk
      rw [(i1 k hk).1] at hkk
      exact absurd hkk hne
    · intro k hk _
      obtain ⟨_, _, x, hx, h2, h3⟩ := i1 k hk
      have hid := nameFromStore_id T'.w { version := 1, id := k.id, scheme := schemePassword }
      refine ⟨_, { nameFromStore T'.w { version := 1, id := k.id, scheme := schemePassword } with key := k.key }, _, hB, nameFromStore_shown _ _, ?_, hid.2.1, rfl⟩
      have ht : typed (nameFromStore T'.w { version := 1, id := k.id, scheme := schemePassword }).id = .ok k.key := by
        rw [hid.1]
        show typed k.id = _
        rw [← h2, hsame x hx]
        exact created_again h3
      unfold getPasswordInterface
      rw [ht]
      rfl

/-- C97. If for one of the passwords Bob types something from which the password tool derives another key than from the one Alice typed (also at the prompt
for a new password, which he may get to see, C50), `jess open` writes nothing and does not report success, unless he answered no to a question. The
cipher and the key derivation have to hold for the letter against what Bob typed. -/
theorem wrong_password_no_output (T T' : CmdEnv) (hP : T.E.P.SecretSizes) (hc : T.hc.Sound) (hE : T'.E = T.E) (hhc : T'.hc = T.hc) (hno : ¬ SaidNo T)
    -- the prompts
    (sha1 : Bytes → Bytes) (D D' : Bytes → PwDialog) (hA : Prompted sha1 D T.w)
    (typed : Bytes → Res Bytes) (hB : Answered typed T'.w) (hB' : Prompted sha1 D' T'.w)
    -- the file and the envelope
    (d d1 d1' : Disk) (file name flag data : Bytes) (e : Envelope) (hin : Reads T d file data) (he : T.envelopes name = .ok e)
    (hsl : e.SuiteLoaded) (heo : e.opening = false) (hpw : PasswordsOnly e)
    (hcf : ∀ su, getSuite suiteRegistry e.suiteID = some su → Confidentiality ∈ su.provides)
    (x : Signet) (hx : x ∈ e.secrets)
    -- closing succeeds, the letter arrives
    (h : closeCommand T d [file, b!"with", name] flag = (d1, .ok ()))
    (p : Bytes) (hp : ∀ target c, NamedBy flag target (file ++ b!".letter") → Outputs T d d1 target c → c.length < 2 ^ 64 ∧ Reads T' d1' p c)
    -- Bob types another password; the cryptography of the letter holds
    (hdiff : ∀ s l, correspondence T.E.P T.E.cfg T.w suiteRegistry { e with suite := none } = .ok s → (s.close T.E.P T.E.cfg T.rng s.initState data).2 = .ok l →
      HoldsAgainst T.E.P T.E.cfg T'.w (some (T'.reqs.getD Requirements.full)) s l data ∧
      ∀ pw pw', (D x.id).again = .ok pw → typed x.id = .ok pw' ∨ (D' x.id).again = .ok pw' → OtherPassword T.E.P T.E.cfg s l pw pw')
    (flag' : Bytes) (d2 : Disk) (r : Res Unit) (hopen : openCommand T' d1' [p] flag' = (d2, r)) :
    d2 = d1' ∧ (r = .ok () → SaidNo T') := by
  rcases (close_command_safe T d _ flag d1 _ h).2 rfl with ⟨_, hx'⟩ | ⟨file', name', target, content, ha, hcl, hout⟩
  · exact absurd hx' hno
  cases ha
  obtain ⟨hn, ⟨e', s, data', l, he', hcor, hr, hclose, hff⟩, _⟩ := hcl
  rw [he] at he'
  cases he'
  have hdd : data' = data := by
    have h1 := (loadFile_iff T d file data').2 hr
    rw [(loadFile_iff T d file data).2 hin] at h1
    cases h1; rfl
  subst hdd
  obtain ⟨hlen, hread⟩ := hp target content hn.1 hout
  have hcor' := correspondence_none hsl hcor
  have hsu := (library_session (e := { e with suite := none }) rfl hcor').suite
  obtain ⟨i1, i2, i3, i4⟩ := passwords_session (e := { e with suite := none }) rfl heo hA ⟨hpw.secrets, hpw.senders, hpw.recipients⟩ hcor'
  obtain ⟨k, hk, k1, k2⟩ := i2 x hx
  have hagain := created_again k2
  obtain ⟨hdr, hdump, hsz⟩ := toFileFormat_parts hff
  obtain ⟨out, ho1, ho2⟩ := file_roundtrip T.hc l [] hdr (by omega) (by omega) hdump (hc _ _ hdump)
  rw [ho1] at hff
  cases hff
  rw [List.append_nil] at ho2
  have hids : ∀ y ∈ participants s.env, y.id ≠ [] := by
    intro y hy
    simp only [participants, i4, List.append_nil, List.mem_append, List.mem_filter] at hy
    rcases hy with ⟨hy, _⟩ | ⟨hy, _⟩ <;> exact (i1 y hy).2.1
  obtain ⟨hholds, hother⟩ := hdiff s l hcor' hclose
  have hb : BoundLetter T.E.P T.E.cfg T.w T.rng { e with suite := none } s data' l T'.w (some (T'.reqs.getD Requirements.full)) :=
    ⟨hP, rfl, hcor', hcf _ hsu, hids, hclose, hholds⟩
  have hkeeps : T'.w.KeepsScheme := by
    constructor
    · intro cb st st' h1 h2
      rw [hB] at h1
      cases h1
      simp only [getPasswordInterface, bind_ok_iff] at h2
      obtain ⟨pw, _, h3⟩ := h2
      cases h3; rfl
    · intro cb st lv st' h1 h2
      rw [hB'] at h1
      cases h1
      simp only [createPasswordInterface, bind_ok_iff] at h2
      obtain ⟨pw, _, h3⟩ := h2
      cases h3; rfl
  have hsized : T'.w.KeysSized s.env := by
    intro y hy hyk
    rw [(i1 y hy).1] at hyk
    exact absurd hyk (by decide)
  have hfail : ∀ dd, l.open T.E.P T.E.cfg T'.w suiteRegistry (some (T'.reqs.getD Requirements.full)) ≠ .ok dd := by
    intro dd
    refine wrong_password_rejected hb k hk (i1 k hk).1 hkeeps hsized ?_ ?_ dd
    · intro cb st y h1 h2 h3
      rw [hB] at h1
      cases h1
      simp only [getPasswordInterface, bind_ok_iff] at h3
      obtain ⟨pw, h4, h5⟩ := h3
      cases h5
      rw [h2, k1] at h4
      exact hother _ _ hagain (.inl h4)
    · intro cb st lv y h1 h2 h3
      rw [hB'] at h1
      cases h1
      simp only [createPasswordInterface, bind_ok_iff] at h3
      obtain ⟨pw, h4, h5⟩ := h3
      cases h5
      rw [h2, k1] at h4
      exact hother _ _ hagain (.inr (created_again h4))
  have hnone : ∀ file target plain, [p] = [file] → ¬ OpenedFile T' d1' file flag' target plain := by
    intro file target plain hf hof
    cases hf
    obtain ⟨data2, l2, rest, q1, q2, q3⟩ := hof.letter
    have h1 := (loadFile_iff T' d1' p data2).2 q1
    rw [(loadFile_iff T' d1' p content).2 hread] at h1
    cases h1
    rw [hhc, ho2] at q2
    cases q2
    rw [hE] at q3
    exact hfail _ q3
  obtain ⟨g1, g2⟩ := open_command_safe T' d1' [p] flag' d2 r hopen
  refine ⟨?_, ?_⟩
  · rcases g1 with g1 | ⟨file, target, plain, n, h1, h2, _⟩
    · exact g1
    · exact absurd h2 (hnone _ _ _ h1)
  · intro hr'
    rcases g2 hr' with ⟨_, g⟩ | ⟨file, target, plain, h1, h2, _⟩
    · exact g
    · exact absurd h2 (hnone _ _ _ h1)

/-! ## Example -/

theorem openPrims_correct : openPrims.Correct (fun _ pub priv => pub = priv) where
  gen := toyPrims_correct.gen
  dh := by
    intro tool a x b y h1 h2
    subst h1; subst h2
    show toyBytes 32 _ = toyBytes 32 _
    rw [UInt8.add_comm]
  store := toyPrims_correct.store
  encap := toyPrims_correct.encap
  cipher := toyPrims_correct.cipher
  aead := by
    intro tool key nonce ad d c h
    simp only [openPrims] at h ⊢
    split at h
    · rename_i hl
      cases h
      rw [if_pos ⟨hl, by rw [← hl, List.take_left]⟩, ← hl, List.drop_left]
    · cases h
  sign := toyPrims_correct.sign

/-- What Alice types for every password. -/
def pwDialog : PwDialog := { asksWith goodPassword { status := 200, body := [], failed := false } with check := .ok false }

/-- What Bob would type if he were asked for a new password. -/
def pwOther : PwDialog := { pwDialog with again := .ok b!"guess" }

def pwEnvelope : Envelope := { suiteID := b!"pw_v2", secrets := [{ id := b!"my password", scheme := schemePassword }] }

/-- Alice, with a trust store that has nothing. -/
def pwCmdA : CmdEnv :=
  { toyCmd pwEnvelope .done true with
    E := { toySigEnv with P := openPrims }
    w := { store := some (fun _ _ => .error .notFound), createPw := some (fun s => createPasswordInterface toySha ((fun _ => pwDialog) s.id) s) } }

/-- Bob, without a trust store, types this password. -/
def pwCmdB (pw : Bytes) : CmdEnv :=
  { pwCmdA with
    w := { getPw := some (fun s => getPasswordInterface ((fun _ => .ok pw) s.id) s), createPw := some (fun s => createPasswordInterface toySha ((fun _ => pwOther) s.id) s) } }

def pwRun : Bool :=
  match closeCommand pwCmdA (toyDisk [(b!"f", b!"hello")]) [b!"f", b!"with", b!"env"] [] with
  | (d1, .ok ()) => match d1.content b!"f.letter" with
    | some (.file c) => decide (c.length < 1000)
    | _ => false
  | _ => false

/-- All hypotheses of `password_file_opens` and `wrong_password_no_output` are met. -/
theorem password_file_example : ∃ d1 c, closeCommand pwCmdA (toyDisk [(b!"f", b!"hello")]) [b!"f", b!"with", b!"env"] [] = (d1, .ok ()) ∧
    d1.content b!"f.letter" = some (.file c) ∧
    (∃ d2, openCommand (pwCmdB goodPassword) (toyDisk [(b!"g.letter", c)]) [b!"g.letter"] [] = (d2, .ok ()) ∧ d2.content b!"g" = some (.file b!"hello")) ∧
    (openCommand (pwCmdB b!"guess") (toyDisk [(b!"g.letter", c)]) [b!"g.letter"] []).1 = toyDisk [(b!"g.letter", c)] ∧
    (openCommand (pwCmdB b!"guess") (toyDisk [(b!"g.letter", c)]) [b!"g.letter"] []).2 ≠ .ok () := by
  have h : pwRun = true := by decide +kernel
  unfold pwRun at h
  split at h
  · rename_i d1 hd1
    split at h
    · rename_i c hcc
      have hlen : c.length < 1000 := of_decide_eq_true h
      have hin : Reads pwCmdA (toyDisk [(b!"f", b!"hello")]) b!"f" b!"hello" :=
        .inr ⟨by decide, by show (toyDisk [(b!"f", b!"hello")]).fs (resolve [b!"h"] b!"f") = _; decide +kernel⟩
      have hpw : PasswordsOnly pwEnvelope := ⟨by intro k hk; rw [List.mem_singleton.mp hk]; exact ⟨rfl, rfl, by decide⟩, rfl, rfl⟩
      have hp : ∀ pw target c', NamedBy [] target (b!"f" ++ b!".letter") → Outputs pwCmdA (toyDisk [(b!"f", b!"hello")]) d1 target c' →
          c'.length < 2 ^ 64 ∧ Reads (pwCmdB pw) (toyDisk [(b!"g.letter", c)]) b!"g.letter" c' := by
        intro pw target c' ht ho
        rcases ht with ⟨h1, _⟩ | ⟨_, rfl⟩
        · exact absurd rfl h1
        · rcases ho with ⟨h1, _⟩ | ⟨_, _, h2, _⟩
          · exact absurd h1 (by decide)
          · have hr : resolve pwCmdA.cwd (b!"f" ++ b!".letter") = [b!"f.letter", b!"h"] := by
              show resolve [b!"h"] _ = _
              decide +kernel
            rw [hr] at h2
            have h3 : d1.fs [b!"f.letter", b!"h"] = some (.file c) := hcc
            rw [h3] at h2
            cases h2
            refine ⟨by omega, .inr ⟨by decide, ?_⟩⟩
            have hr2 : resolve (pwCmdB pw).cwd b!"g.letter" = [b!"g.letter", b!"h"] := by
              show resolve [b!"h"] _ = _
              decide +kernel
            rw [hr2]
            rfl
      have hsu : (match getSuite suiteRegistry b!"pw_v2" with
          | some su => decide (∀ a ∈ (none : Option Requirements).getD full, a ∈ su.provides) && decide (Confidentiality ∈ su.provides)
          | none => false) = true := by decide +kernel
      refine ⟨d1, c, hd1, hcc, ?_, ?_⟩
      · split at hsu
        · rename_i su hg
          simp only [Bool.and_eq_true, decide_eq_true_eq] at hsu
          obtain ⟨_, d2, g1, g2⟩ := password_file_opens (fun _ pub priv => pub = priv) pwCmdA (pwCmdB goodPassword) openPrims_correct soundHeader_sound rfl rfl
            (by rintro ⟨q, hq⟩; cases hq) (fun _ => rfl) toySha (by intro x; simp [toySha]) (fun _ => pwDialog) rfl (fun _ => .ok goodPassword) rfl
            (toyDisk [(b!"f", b!"hello")]) d1 (toyDisk [(b!"g.letter", c)]) b!"f" b!"env" [] b!"hello" pwEnvelope hin rfl (.inl rfl) rfl rfl (Int.le_refl _)
            hpw (fun _ _ => rfl) su hg hsu.1 hd1 b!"g.letter" (hp goodPassword) [] b!"g" (.inr ⟨rfl, by decide, by decide⟩)
            (by
              right
              have hr2 : resolve (pwCmdB goodPassword).cwd b!"g" = [b!"g", b!"h"] := by
                show resolve [b!"h"] _ = _
                decide +kernel
              rw [hr2]
              refine ⟨by decide, ?_, rfl⟩
              show ((List.lookup b!"g" [(b!"g.letter", c)]).map Node.file) ≠ some .dir
              cases List.lookup b!"g" [(b!"g.letter", c)] <;> simp) rfl
          refine ⟨d2, g1, ?_⟩
          rcases g2 with ⟨h1, _⟩ | ⟨_, _, h2, _⟩
          · exact absurd h1 (by decide)
          · have hr2 : resolve (pwCmdB goodPassword).cwd b!"g" = [b!"g", b!"h"] := by
              show resolve [b!"h"] _ = _
              decide +kernel
            rw [hr2] at h2
            exact h2
        · cases hsu
      · obtain ⟨g1, g2⟩ := wrong_password_no_output pwCmdA (pwCmdB b!"guess") openPrims_sizes soundHeader_sound rfl rfl (by rintro ⟨q, hq⟩; cases hq) toySha
          (fun _ => pwDialog) (fun _ => pwOther) rfl (fun _ => .ok b!"guess") rfl rfl (toyDisk [(b!"f", b!"hello")]) d1 (toyDisk [(b!"g.letter", c)])
          b!"f" b!"env" [] b!"hello" pwEnvelope hin rfl (.inl rfl) rfl hpw
          (by
            intro su hg
            have hg' : getSuite suiteRegistry b!"pw_v2" = some su := hg
            rw [hg'] at hsu
            simp only [Bool.and_eq_true, decide_eq_true_eq] at hsu
            exact hsu.2) _ (by exact List.mem_singleton.mpr rfl) hd1 b!"g.letter" (hp b!"guess")
          (by
            intro s l _ _
            refine ⟨openPrims_holds _ _ _ _ _ _, ?_⟩
            intro pw pw' h1 h2 t _ k h3 h4
            have e1 : pw = goodPassword := by cases h1; rfl
            have e2 : pw' = b!"guess" := by
              rcases h2 with h2 | h2
              · cases h2; rfl
              · cases h2; rfl
            have := openPrims_password _ _ _ _ _ _ h3 h4
            rw [e1, e2] at this
            exact absurd this (by decide)) [] _ _ rfl
        refine ⟨g1, fun hr => ?_⟩
        obtain ⟨q, hq⟩ := g2 hr
        cases hq
    · cases h
  · cases h

end Jess
