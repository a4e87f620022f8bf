import Verif.Props.CloseOpen
import Verif.Model.Password
import Verif.Props.Support
import Verif.Props.Configure
import Verif.Lemmas.Rows

/-! C74: creating a password. -/

namespace Jess

/-! ## Specification -/

/-- The hexadecimal digit of a number below 16, in upper case. -/
def hexDigit (n : Nat) : UInt8 := (b!"0123456789ABCDEF").getD n 0

/-- The digits of a hash. -/
def hexDigits (h : Bytes) : Bytes := h.flatMap (fun b => [hexDigit (b.toNat / 16), hexDigit (b.toNat % 16)])

/-- The service reports the password: a line of its answer begins with all digits of the hash but the first five. -/
def Reported (sha1 : Bytes → Bytes) (pw body : Bytes) : Prop :=
  ∃ l ∈ splitBytes (· == 10) body, (hexDigits (sha1 pw)).drop 5 <+: l

/-- The address of the service for a password: five digits of its hash. -/
def serviceURL (sha1 : Bytes → Bytes) (pw : Bytes) : Bytes :=
  b!"https://api.pwnedpasswords.com/range/" ++ (hexDigits (sha1 pw)).take 5

/-! ## Proofs -/

theorem upper_hex (h : Bytes) : toUpper (hexEncode h) = hexDigits h := by
  have hd : ∀ n, n < 16 → (if 97 ≤ hexChar n ∧ hexChar n ≤ 122 then hexChar n - 32 else hexChar n) = hexDigit n := by
    intro n hn
    have : n = 0 ∨ n = 1 ∨ n = 2 ∨ n = 3 ∨ n = 4 ∨ n = 5 ∨ n = 6 ∨ n = 7 ∨ n = 8 ∨ n = 9 ∨ n = 10 ∨ n = 11 ∨ n = 12 ∨ n = 13 ∨ n = 14 ∨ n = 15 := by omega
    rcases this with h | h | h | h | h | h | h | h | h | h | h | h | h | h | h | h <;> subst h <;> decide
  unfold toUpper hexEncode hexDigits
  rw [List.map_flatMap]
  congr 1
  funext b
  have := b.toNat_lt
  simp only [List.map_cons, List.map_nil]
  rw [hd _ (by omega), hd _ (by omega)]

theorem upper_take (n : Nat) (h : Bytes) : toUpper ((hexEncode h).take n) = (hexDigits h).take n := by
  rw [← upper_hex]; unfold toUpper; rw [List.map_take]

theorem upper_drop (n : Nat) (h : Bytes) : toUpper ((hexEncode h).drop n) = (hexDigits h).drop n := by
  rw [← upper_hex]; unfold toUpper; rw [List.map_drop]

theorem hibpLines_ok {suffix : Bytes} {ls : List Bytes} (h : hibpLines suffix ls = .ok ()) : ∀ l ∈ ls, ¬ suffix <+: scannedLine l := by
  induction ls with
  | nil => simp
  | cons a ls ih =>
    rw [hibpLines] at h
    split at h
    · cases h
    · split at h
      · cases h
      · rename_i h1 h2
        intro l hl
        rcases List.mem_cons.1 hl with rfl | hl
        · unfold hasPrefix at h2
          rwa [List.isPrefixOf_iff_prefix] at h2
        · exact ih h l hl

theorem pwFirst_ok {min : Int} {tries : List Bytes} {pw : Bytes} (h : pwFirst min tries = .ok pw) :
    ∃ pre post, tries = pre ++ pw :: post ∧ (∀ x ∈ pre, passwordLevel x 20000 < min) ∧ min ≤ passwordLevel pw 20000 := by
  induction tries with
  | nil => cases h
  | cons a ts ih =>
    rw [pwFirst] at h
    split at h
    · rename_i hv
      cases h
      refine ⟨[], ts, rfl, by simp, ?_⟩
      simp only [pwValid, decide_eq_true_eq] at hv
      omega
    · rename_i hv
      obtain ⟨pre, post, h1, h2, h3⟩ := ih h
      refine ⟨a :: pre, post, by rw [h1]; rfl, ?_, h3⟩
      intro x hx
      rcases List.mem_cons.1 hx with rfl | hx
      · simp only [pwValid, decide_eq_true_eq] at hv
        omega
      · exact h2 x hx


/-- Where the lines of a text are among the scanned lines. -/
theorem split_raw {ls : List Bytes} (h : IsLines ls) : ∀ x ∈ splitBytes (· == 10) ls.flatten, x ≠ [] → 10 ∉ x ∧ (x ∈ ls ∨ x ++ [10] ∈ ls) := by
  have hn : ∀ {b : Bytes}, 10 ∉ b → ∀ c ∈ b, (c == (10 : UInt8)) = false := by
    intro b hb c hc
    rw [beq_eq_false_iff_ne]
    rintro rfl
    exact hb hc
  induction h with
  | nil => intro x hx hne; simp [splitBytes] at hx; exact absurd hx hne
  | last h1 h2 =>
    intro x hx _
    rw [List.flatten_cons, List.flatten_nil, List.append_nil, splitBytes_none (hn h2)] at hx
    simp only [List.mem_singleton] at hx
    subst hx
    exact ⟨h2, .inl (by simp)⟩
  | cons h1 h2 ih =>
    intro x hx hne
    rw [List.flatten_cons, List.append_assoc, List.singleton_append, splitBytes_at (by decide), splitBytes_none (hn h1)] at hx
    rcases List.mem_append.1 hx with hx | hx
    · simp only [List.mem_singleton] at hx
      subst hx
      exact ⟨h1, .inr (by simp)⟩
    · obtain ⟨a, b | b⟩ := ih x hx hne
      · exact ⟨a, .inl (by simp [b])⟩
      · exact ⟨a, .inr (by simp [b])⟩

theorem trimSuffix_one (x : Bytes) (c : UInt8) : trimSuffix (x ++ [c]) [c] = x := by
  unfold trimSuffix
  rw [if_pos]
  · simp
  · rw [hasSuffix_iff]; exact List.suffix_append _ _

theorem trimSuffix_not {x : Bytes} {c : UInt8} (h : c ∉ x) : trimSuffix x [c] = x := by
  unfold trimSuffix
  rw [if_neg]
  rw [hasSuffix_iff]
  rintro ⟨t, rfl⟩
  exact h (by simp)

/-- Scanning a line does not remove its beginning. -/
theorem scanned_prefix {x r s : Bytes} (hx : 10 ∉ x) (hr : r = x ∨ r = x ++ [10]) (hs : s <+: x) (h13 : 13 ∉ s) : s <+: scannedLine r := by
  have h1 : trimSuffix r [10] = x := by
    rcases hr with rfl | rfl
    · exact trimSuffix_not hx
    · exact trimSuffix_one _ _
  unfold scannedLine
  rw [h1]
  unfold trimSuffix
  split
  · rename_i h2
    obtain ⟨m, rfl⟩ := hasSuffix_iff.1 h2
    have : (m ++ [13]).take ((m ++ [13]).length - ([13] : Bytes).length) = m := by simp
    rw [this]
    rcases List.prefix_or_prefix_of_prefix hs (List.prefix_append m [13]) with h | h
    · exact h
    · obtain ⟨u, rfl⟩ := h
      obtain ⟨v, hv⟩ := hs
      rw [List.append_assoc] at hv
      have hv := List.append_cancel_left hv
      cases u with
      | nil => rw [List.append_nil]; exact List.prefix_refl _
      | cons a u =>
        simp only [List.cons_append, List.cons.injEq] at hv
        exact absurd (by simp [hv.1]) h13
  · exact hs

theorem hexDigits_no13 (h : Bytes) : 13 ∉ hexDigits h := by
  intro hm
  unfold hexDigits at hm
  obtain ⟨b, _, hb⟩ := List.mem_flatMap.1 hm
  have hd : ∀ n, n < 16 → hexDigit n ≠ 13 := by
    intro n hn
    have : n = 0 ∨ n = 1 ∨ n = 2 ∨ n = 3 ∨ n = 4 ∨ n = 5 ∨ n = 6 ∨ n = 7 ∨ n = 8 ∨ n = 9 ∨ n = 10 ∨ n = 11 ∨ n = 12 ∨ n = 13 ∨ n = 14 ∨ n = 15 := by omega
    rcases this with h | h | h | h | h | h | h | h | h | h | h | h | h | h | h | h <;> subst h <;> decide
  have := b.toNat_lt
  simp only [List.mem_cons, List.not_mem_nil, or_false] at hb
  rcases hb with hb | hb
  · exact hd _ (by omega) hb.symm
  · exact hd _ (by omega) hb.symm

theorem hexDigits_length (h : Bytes) : (hexDigits h).length = 2 * h.length := by
  unfold hexDigits
  induction h with
  | nil => rfl
  | cons a h ih => simp only [List.flatMap_cons, List.length_append, ih, List.length_cons, List.length_nil]; omega

/-- If the lines pass, the password is not reported. -/
theorem hibp_not_reported {sha1 : Bytes → Bytes} {pw body : Bytes} (hl : (sha1 pw).length = 20)
    (h : hibpLines ((hexDigits (sha1 pw)).drop 5) (rawLines body) = .ok ()) : ¬ Reported sha1 pw body := by
  rintro ⟨x, hx, hp⟩
  have hne : x ≠ [] := by
    rintro rfl
    have := hp.length_le
    rw [List.length_drop, hexDigits_length, hl] at this
    simp at this
  have hx' := hx
  rw [← rawLines_flatten body] at hx'
  obtain ⟨h10, hm⟩ := split_raw (rawLines_isLines body) x hx' hne
  have h13 : 13 ∉ (hexDigits (sha1 pw)).drop 5 := fun hm => hexDigits_no13 _ (List.mem_of_mem_drop hm)
  rcases hm with hm | hm
  · exact hibpLines_ok h x hm (scanned_prefix h10 (.inl rfl) hp h13)
  · exact hibpLines_ok h _ hm (scanned_prefix h10 (.inr rfl) hp h13)

/-- C74. A created password is the first one of those typed that reaches the demanded level, was typed a second time; and if the user asked for the check,
then the service answered completely and did not report it. -/
theorem created_password_partial (sha1 : Bytes → Bytes) (hsha : ∀ x, (sha1 x).length = 20) (D : PwDialog) (min : Int) (pw : Bytes)
    (h : (createPassword sha1 D min).1 = .ok pw) :
    (∃ pre post, D.tries = pre ++ pw :: post ∧ (∀ x ∈ pre, passwordLevel x 20000 < min)) ∧ min ≤ passwordLevel pw 20000 ∧ D.again = .ok pw ∧
    (D.check = .ok false ∨ (D.check = .ok true ∧ ∃ r, D.http (serviceURL sha1 pw) = .ok r ∧ r.failed = false ∧ ¬ Reported sha1 pw r.body)) := by
  unfold createPassword at h
  split at h
  · cases h
  · rename_i pw1 h1
    obtain ⟨pre, post, k1, k2, k3⟩ := pwFirst_ok h1
    split at h
    · cases h
    · rename_i pw2 h2
      split at h
      · cases h
      · rename_i he
        simp only [ne_eq, Decidable.not_not] at he
        subst he
        unfold pwCheck at h
        split at h
        · cases h
        · rename_i hc
          cases h
          exact ⟨⟨pre, post, k1, k2⟩, k3, h2, .inl hc⟩
        · rename_i hc
          unfold checkForWeakPassword at h
          dsimp only at h
          rw [upper_take, upper_drop] at h
          split at h
          · cases h
          · rename_i x u hu
            simp only [Prod.mk.injEq] at hu
            obtain ⟨hu, _⟩ := hu
            cases h
            refine ⟨⟨pre, post, k1, k2⟩, k3, h2, .inr ⟨hc, ?_⟩⟩
            split at hu
            · cases hu
            · rename_i r hr
              unfold hibpResponse at hu
              rw [bind_ok_iff] at hu
              obtain ⟨_, hu, hf⟩ := hu
              refine ⟨r, hr, ?_, hibp_not_reported (hsha _) hu⟩
              cases hfl : r.failed with
              | false => rfl
              | true => rw [hfl] at hf; cases hf

/-- C74. A password typed twice, strong enough, is created, if the user does not ask for the check. -/
theorem strong_password_created (sha1 : Bytes → Bytes) (D : PwDialog) (min : Int) (pw : Bytes) (pre post : List Bytes)
    (ht : D.tries = pre ++ pw :: post) (hpre : ∀ x ∈ pre, passwordLevel x 20000 < min) (hpw : min ≤ passwordLevel pw 20000)
    (ha : D.again = .ok pw) (hc : D.check = .ok false) : createPassword sha1 D min = (.ok pw, []) := by
  have : pwFirst min D.tries = .ok pw := by
    rw [ht]
    clear ht
    induction pre with
    | nil =>
      rw [List.nil_append, pwFirst, if_pos]
      simp only [pwValid, decide_eq_true_eq]; omega
    | cons a pre ih =>
      rw [List.cons_append, pwFirst, if_neg, ih (fun x hx => hpre x (by simp [hx]))]
      have := hpre a (by simp)
      simp only [pwValid, decide_eq_true_eq]; omega
  unfold createPassword
  rw [this, ha]
  simp [pwCheck, hc]

/-- C74. Nothing is sent before the user agrees; then only the first five digits of the hash of the password typed twice. -/
theorem only_five_digits_sent (sha1 : Bytes → Bytes) (D : PwDialog) (min : Int) (u : Bytes) (hu : u ∈ (createPassword sha1 D min).2) :
    D.check = .ok true ∧ ∃ pw, D.again = .ok pw ∧ (createPassword sha1 D min).2 = [u] ∧ u = serviceURL sha1 pw := by
  unfold createPassword at hu ⊢
  split at hu
  · cases hu
  · rename_i pw1 h1
    split at hu
    · cases hu
    · rename_i pw2 h2
      split at hu
      · cases hu
      · rename_i he
        rw [if_neg he]
        simp only [ne_eq, Decidable.not_not] at he
        subst he
        unfold pwCheck at hu ⊢
        split at hu
        · cases hu
        · cases hu
        · rename_i hc
          refine ⟨hc, pw1, h2, ?_⟩
          unfold checkForWeakPassword at hu ⊢
          dsimp only at hu ⊢
          rw [upper_take, upper_drop] at hu ⊢
          split at hu
          · rename_i e u' he
            simp only [Prod.mk.injEq] at he
            obtain ⟨_, rfl⟩ := he
            simp only [List.mem_singleton] at hu
            subst hu
            exact ⟨rfl, rfl⟩
          · rename_i e u' he
            simp only [Prod.mk.injEq] at he
            obtain ⟨_, rfl⟩ := he
            simp only [List.mem_singleton] at hu
            subst hu
            exact ⟨rfl, rfl⟩

/-- C74. What is sent does not distinguish passwords whose hashes agree in the first 20 bits. -/
theorem same_request (sha1 : Bytes → Bytes) (pw pw' : Bytes) (a b c c' : UInt8) (r r' : Bytes) (h : sha1 pw = a :: b :: c :: r)
    (h' : sha1 pw' = a :: b :: c' :: r') (hc : c.toNat / 16 = c'.toNat / 16) : serviceURL sha1 pw = serviceURL sha1 pw' := by
  unfold serviceURL hexDigits
  rw [h, h']
  simp [hc]

/-! ## Using the password -/

/-- C74. The level the prompt asks for is also reached when an envelope is used: a session rates the password with at least as many iterations. -/
theorem prompted_password_rated_partial (pw : Bytes) (min : Int) (h : min ≤ passwordLevel pw 20000) (he : Estimable pw (2 ^ 20)) :
    min ≤ passwordLevel pw (2 ^ 20) :=
  Int.le_trans h (password_monotone_partial pw 20000 (2 ^ 20) (by decide) (by decide) he)

/-- C74. Passwords created at the prompt are good enough for an envelope with a suite that derives keys from passwords, if the envelope demands at
most the level of its suite: they satisfy the condition under which the envelope dialog's envelopes can be used (C70). -/
theorem prompt_good_passwords_partial (sha1 : Bytes → Bytes) (hsha : ∀ x, (sha1 x).length = 20) (D : PwDialog) (cfg : Config)
    (hcfg : cfg.pwLevel = passwordLevel) (w : World) (hw : w.createPw = some (createPasswordInterface sha1 D)) (e : Envelope)
    (hlev : ∀ su, getSuite suiteRegistry e.suiteID = some su → 0 < su.securityLevel ∧ e.securityLevel ≤ su.securityLevel ∧
      ∃ pw, (createPassword sha1 D su.securityLevel).1 = .ok pw ∧ Estimable pw (2 ^ 20)) : GoodPasswords cfg w e := by
  intro su hsu x hx hsch
  obtain ⟨h0, h1, pw, h2, h3⟩ := hlev su hsu
  obtain ⟨_, h4, _⟩ := created_password_partial sha1 hsha D _ pw h2
  refine ⟨_, { nameFromStore w x with key := pw }, _, hw, nameFromStore_shown _ _, ?_, ?_, ?_, ?_⟩
  · unfold createPasswordInterface
    rw [h2]; rfl
  · have : (nameFromStore w x).scheme = x.scheme := by
      unfold nameFromStore
      repeat' split
      all_goals rfl
    rw [← hsch]; exact this
  · rintro hk
    dsimp only at hk
    subst hk
    have : passwordLevel [] 20000 = -1 := by decide +kernel
    omega
  · rw [hcfg]
    exact Int.le_trans h1 (prompted_password_rated_partial pw _ h4 h3)

theorem nameFromStore_id (w : World) (s : Signet) : (nameFromStore w s).id = s.id ∧ (nameFromStore w s).scheme = s.scheme ∧ (nameFromStore w s).key = s.key := by
  unfold nameFromStore
  repeat' split
  all_goals exact ⟨rfl, rfl, rfl⟩

/-- C74. A password signet without a password gets the password that was created at the prompt: the one typed twice. -/
theorem created_password_used (sha1 : Bytes → Bytes) (D : Bytes → PwDialog) (P : Prims) (w : World) (level : Int) (hw : w.createPw = some (fun s => createPasswordInterface sha1 (D s.id) s))
    (x o : Signet) (hk : x.key = []) (hsch : x.scheme = schemePassword) (h : prepSignets P w level false [x] = .ok [o]) :
    (D x.id).again = .ok o.key ∧ o.key ∈ (D x.id).tries ∧ o.id = x.id ∧ o.scheme = schemePassword := by
  simp only [prepSignets, hk, hsch, List.length_nil, if_true, bind_ok_iff, fillPassword, Bool.not_false, hw, createPasswordInterface] at h
  obtain ⟨o', ⟨pw, h1, h2⟩, rest, h3, h4⟩ := h
  cases h2; cases h3; cases h4
  dsimp only
  have hid := (nameFromStore_id w x)
  rw [hid.1] at h1
  refine ⟨?_, ?_, hid.1, hid.2.1.trans hsch⟩
  · unfold createPassword at h1
    split at h1
    · cases h1
    · rename_i pw1 hf
      split at h1
      · cases h1
      · rename_i pw2 ha
        split at h1
        · cases h1
        · rename_i hne
          have : pw1 = pw2 := Decidable.byContradiction hne
          subst this
          unfold pwCheck at h1
          split at h1
          · cases h1
          · cases h1; exact ha
          · split at h1
            · cases h1
            · cases h1; exact ha
  · unfold createPassword at h1
    split at h1
    · cases h1
    · rename_i pw1 hf
      obtain ⟨pre, post, hx, _⟩ := pwFirst_ok hf
      have hm : pw1 ∈ (D x.id).tries := by rw [hx]; simp
      split at h1
      · cases h1
      · split at h1
        · cases h1
        · unfold pwCheck at h1
          split at h1
          · cases h1
          · cases h1; exact hm
          · split at h1
            · cases h1
            · cases h1; exact hm

/-- C74. A letter that is closed with passwords can be opened by whoever types the same passwords at the prompt, and nothing else is needed. -/
theorem typed_password_opens_partial (P : Prims) (pair : Bytes → Bytes → Bytes → Prop) (hP : P.Correct pair) (cfg : Config)
    (wc wo : World) (typed : Bytes → Res Bytes) (hwo : wo.getPw = some (fun s => getPasswordInterface (typed s.id) s))
    (rng : Rng) (e : Envelope) (hes : e.suite = none) (hev : e.version = 1)
    (s : Session) (hs : correspondence P cfg wc suiteRegistry e = .ok s) (hlev : demandedLevel cfg 0 ≤ demandedLevel cfg e.securityLevel)
    (hpw : ∀ k ∈ s.env.secrets, k.scheme = schemePassword ∧ k.id ≠ [] ∧ typed k.id = .ok k.key)
    (hsn : s.env.senders = []) (hrc : s.env.recipients = [])
    (reqs : Option Requirements) (hreq : ∀ a ∈ reqs.getD Requirements.full, a ∈ s.suite.provides)
    (data : Bytes) (l : Letter) (hc : (s.close P cfg rng s.initState data).2 = .ok l) :
    l.open P cfg wo suiteRegistry reqs = .ok data := by
  have hne : schemePassword ≠ schemeKey := by decide
  refine close_open_roundtrip_partial P pair hP cfg wc wo rng e hes hev s hs hlev ⟨fun k hk => (hpw k hk).2.1, by simp [hsn], by simp [hrc]⟩
    (Or.inl (fun k hk => by rw [(hpw k hk).1]; exact hne)) ⟨?_, ?_, by simp [hsn], by simp [hrc]⟩ reqs hreq data l hc
  · intro k hk hkk
    rw [(hpw k hk).1] at hkk
    exact absurd hkk hne
  · intro k hk _
    obtain ⟨h1, h2, h3⟩ := hpw k hk
    have hid := nameFromStore_id wo { version := 1, id := k.id, scheme := schemePassword }
    refine ⟨_, { nameFromStore wo { version := 1, id := k.id, scheme := schemePassword } with key := k.key }, _, hwo, nameFromStore_shown _ _, ?_, hid.2.1, rfl⟩
    have ht : typed (nameFromStore wo { version := 1, id := k.id, scheme := schemePassword }).id = .ok k.key := by rw [hid.1]; exact h3
    unfold getPasswordInterface
    rw [ht]
    rfl

/-! ## Refuted, and examples -/

/-- A toy hash: 20 bytes. -/
def toySha (b : Bytes) : Bytes := (b ++ List.replicate 20 171).take 20

/-- A password with more than 128 bits. -/
def goodPassword : Bytes := b!"correct horse battery staple"

/-- The user types the password twice and asks for the check; the service answers like this. -/
def asksWith (pw : Bytes) (r : HttpResponse) : PwDialog :=
  { tries := [b!"secret", pw], again := .ok pw, check := .ok true, http := fun _ => .ok r }

/-- C74 refuted: (1) an error page of the service counts as "not compromised": the status of the answer is not looked at. (2) A very long password that the prompt accepts
for 128 bits is then refused by the session, which rates it below zero. -/
theorem password_refuted :
    (let d := asksWith goodPassword { status := 503, body := b!"Service Unavailable", failed := false }
     createPassword toySha d 128 = (.ok goodPassword, [serviceURL toySha goodPassword])) ∧
    (let pw := longPassword.take 169
     passwordLevel pw 20000 ≥ 128 ∧ passwordLevel pw (2 ^ 20) = minInt ∧
     createPassword toySha { asksWith pw { status := 200, body := [], failed := false } with check := .ok false } 128 = (.ok pw, [])) := by
  decide +kernel

/-- The hypotheses are met: the weak password is not accepted, the other one is; if it is reported, if reading fails, or if the second one differs, there is an error. -/
theorem password_example :
    let line := (hexDigits (toySha goodPassword)).drop 5 ++ b!":12\r\n"
    let other := b!"0018A45C4D1DEF81644B54AB7F969B88D65:1\r\n"
    (createPassword toySha (asksWith goodPassword { status := 200, body := other, failed := false }) 128).1 = .ok goodPassword ∧
    (createPassword toySha (asksWith goodPassword { status := 200, body := other ++ line ++ other, failed := false }) 128).1 = .error .level ∧
    (createPassword toySha (asksWith goodPassword { status := 200, body := other, failed := true }) 128).1 = .error .env ∧
    (createPassword toySha { asksWith goodPassword { status := 200, body := other, failed := false } with again := .ok b!"x" } 128).1 = .error .malformed ∧
    (createPassword toySha (asksWith b!"secret" { status := 200, body := other, failed := false }) 128).1 = .error .env ∧
    Estimable goodPassword (2 ^ 20) ∧ (toySha goodPassword).length = 20 := by
  refine ⟨?_, ?_, ?_, ?_, ?_, ?_, ?_⟩
  all_goals first | decide +kernel | (unfold Estimable; decide +kernel)

/-- The hypotheses are met: a letter is closed with the password created at the prompt, and opened with the same password; a misspelt one does not open it. -/
theorem typed_password_example :
    let wc : World := { createPw := some (fun s => createPasswordInterface toySha { asksWith goodPassword { status := 200, body := [], failed := false } with check := .ok false } s) }
    let wo := fun (pw : Bytes) => ({ getPw := some (fun s => getPasswordInterface (.ok pw) s) } : World)
    let e : Envelope := { suiteID := b!"pw_v2", secrets := [{ id := b!"my password", scheme := schemePassword }] }
    (match correspondence toyPrims { pwLevel := passwordLevel } wc suiteRegistry e with
      | .ok s =>
        match (s.close toyPrims { pwLevel := passwordLevel } toyRng s.initState b!"hello").2 with
        | .ok l => decide (l.open toyPrims { pwLevel := passwordLevel } (wo goodPassword) suiteRegistry none = .ok b!"hello") &&
            decide (l.open toyPrims { pwLevel := passwordLevel } (wo (goodPassword ++ b!"!")) suiteRegistry none ≠ .ok b!"hello") &&
            decide (s.env.secrets.map (·.key) = [goodPassword])
        | .error _ => false
      | .error _ => false) = true := by
  decide +kernel

end Jess
