import Verif.Model.Methods
import Verif.Props.Isolation

/-!
# C93: no operation reaches a method its tool does not implement, or a hash function it was not given

All tools share one interface, with a dummy implementation for every method: whether a call is answered by an algorithm or by `ErrNotImplemented`, and
whether the hash function it asks for is there, is nothing a compiler checks. The model of sessions applies the cryptographic libraries directly, as if
every call was answered. This is justified here: two libraries that agree wherever a method is implemented and its hash function is there give the same
results for all operations, whatever they do for the other calls.
-/

namespace Jess

open Requirements

/-- A method of an instance can be called (specification): the tool overrides it, and the instance has the hash functions the method asks for;
hash functions are those that are registered. -/
def Available (t : ToolInst) (m : Method) : Prop :=
  (∃ u, (m, u) ∈ overridden t.info.name) ∧ (∀ u, (m, u) ∈ overridden t.info.name → t.has u = true) ∧ ∀ h, t.hash = some h → h ∈ hashTable

/-- The tool of a signet, as `Signet` uses it (tools.go:12-13): it was never given a hash function. -/
def static (i : ToolInfo) : ToolInst := { info := i, hash := none }

/-- Two cryptographic libraries agree on all calls that are available (specification). What they do when a method is called that the tool does not
implement, or without the hash function it asks for, is not restricted. -/
structure SameAvailable (P Q : Prims) : Prop where
  kdf : ∀ t : ToolInst, Available t .deriveKey → P.kdf t.info.name t.hashName = Q.kdf t.info.name t.hashName
  pass : ∀ t : ToolInst, Available t .deriveKeyFromPassword → P.passKdf t.info.name = Q.passKdf t.info.name
  dh : ∀ t : ToolInst, Available t .makeSharedKey → P.dh t.info.name = Q.dh t.info.name
  encap : ∀ t : ToolInst, Available t .encapsulateKey → P.encap t.info.name t.hashName = Q.encap t.info.name t.hashName
  unwrap : ∀ t : ToolInst, Available t .unwrapKey → P.unwrap t.info.name t.hashName = Q.unwrap t.info.name t.hashName
  encrypt : ∀ t : ToolInst, Available t .encrypt → P.encrypt t.info.name = Q.encrypt t.info.name
  decrypt : ∀ t : ToolInst, Available t .decrypt → P.decrypt t.info.name = Q.decrypt t.info.name
  aeadSeal : ∀ t : ToolInst, Available t .authenticatedEncrypt → P.aeadSeal t.info.name = Q.aeadSeal t.info.name
  aeadOpen : ∀ t : ToolInst, Available t .authenticatedDecrypt → P.aeadOpen t.info.name = Q.aeadOpen t.info.name
  mac : ∀ t : ToolInst, Available t .mac → P.mac t.info.name t.hashName = Q.mac t.info.name t.hashName
  sign : ∀ t : ToolInst, Available t .sign → P.sign t.info.name t.hashName = Q.sign t.info.name t.hashName
  verify : ∀ t : ToolInst, Available t .verify → P.verify t.info.name t.hashName = Q.verify t.info.name t.hashName
  /-- the managed hashers, which are fed by sessions that have one -/
  hash : ∀ t : ToolInst, t.has .managed = true → (∀ h, t.hash = some h → h ∈ hashTable) → P.hash t.hashName = Q.hash t.hashName
  /-- methods of keys are called without a session -/
  load : ∀ i ∈ toolTable, Available (static i) .loadKey → P.loadKey i.name = Q.loadKey i.name
  store : ∀ i ∈ toolTable, Available (static i) .storeKey → P.storeKey i.name = Q.storeKey i.name
  generate : ∀ i ∈ toolTable, Available (static i) .generateKey → P.genKey i.name = Q.genKey i.name
  /-- the size of an RSA key, which is not a method of a tool -/
  rsaBits : P.rsaBits = Q.rsaBits

/-- The methods a session calls on a tool of a given purpose (specification; the comments of toollogic.go:11-125 say which methods "must be overridden
by tools that declare" the purpose). -/
def requiredMethods : Purpose → List Method
  | .keyDerivation => [.deriveKey]
  | .passDerivation => [.deriveKeyFromPassword]
  | .keyExchange => [.makeSharedKey, .loadKey, .storeKey, .generateKey, .burnKey]
  | .keyEncapsulation => [.encapsulateKey, .unwrapKey, .loadKey, .storeKey, .generateKey, .burnKey]
  | .signing => [.sign, .verify, .loadKey, .storeKey, .generateKey, .burnKey]
  | .integratedCipher => [.setup, .reset, .authenticatedEncrypt, .authenticatedDecrypt]
  | .cipher => [.setup, .reset, .encrypt, .decrypt]
  | .mac => [.setup, .reset, .mac]

/-- The methods that are called without a session. -/
def keyMethodNames : List Method := [.loadKey, .storeKey, .generateKey, .burnKey]

/-- Which hash functions an instance has, seen from the options its tool declares. -/
def providesUse (i : ToolInfo) : HashUse → Bool
  | .no => true
  | .tool => i.needsManagedHasher || i.needsDedicatedHasher
  | .managed => i.needsManagedHasher

theorem methods_table : ∀ i ∈ toolTable, (∀ m ∈ requiredMethods i.purpose, (overridden i.name).any (fun x => x.1 == m)) ∧
    (∀ x ∈ overridden i.name, providesUse i x.2 = true) ∧ (∀ x ∈ overridden i.name, x.1 ∈ keyMethodNames → x.2 = .no) ∧
    ((∃ x ∈ overridden i.name, x.1 = .setup) ↔ i.hasState = true) := by
  decide +kernel

theorem methods_only : ∀ i ∈ toolTable, ∀ x ∈ overridden i.name, x.1 ∈ requiredMethods i.purpose := by decide +kernel

theorem resolveHash_has {i : ToolInfo} {arg : Bytes} {h : Option HashTool} (hr : resolveHash i arg = .ok h) (u : HashUse) (hu : providesUse i u = true) :
    ({ info := i, hash := h } : ToolInst).has u = true := by
  unfold resolveHash at hr
  cases u with
  | no => rfl
  | tool =>
    unfold providesUse at hu
    unfold ToolInst.has
    split at hr
    · split at hr
      · split at hr
        · cases hr; rfl
        · cases hr
      · cases hr
    · rename_i h1
      split at hr
      · split at hr
        · cases hr; rfl
        · cases hr
      · rename_i h2
        simp only [h1, h2] at hu
        cases hu
  | managed =>
    unfold providesUse at hu
    unfold ToolInst.has
    rw [if_pos hu] at hr
    split at hr
    · split at hr
      · cases hr; simp [hu]
      · cases hr
    · cases hr

/-- C93. Every method that a session calls on one of its tools is implemented by the tool, and the hash functions the method asks for are there: for
every tool ID, registered or not, that a session accepts. -/
theorem required_available {tid : Bytes} {t : ToolInst} (h : makeInst tid = .ok t) {m : Method} (hm : m ∈ requiredMethods t.info.purpose) :
    Available t m := by
  obtain ⟨_, h2, _, h4, h5⟩ := makeInst_spec h
  obtain ⟨g1, g2, _, _⟩ := methods_table t.info h2
  refine ⟨?_, fun u hu => resolveHash_has h4 u (g2 _ hu), h5⟩
  have := g1 m hm
  rw [List.any_eq_true] at this
  obtain ⟨⟨m', u⟩, hx, he⟩ := this
  exact ⟨u, by rw [← (beq_iff_eq.mp he : m' = m)]; exact hx⟩

/-- C93. The methods of keys are implemented by every tool that keys can be made for, and need no hash function: they work with the tool that all
signets share, which has none. -/
theorem key_methods_available {i : ToolInfo} (hi : i ∈ toolTable) (hu : i.purpose.usesSignets = true) {m : Method} (hm : m ∈ keyMethodNames) :
    Available (static i) m := by
  obtain ⟨g1, _, g3, _⟩ := methods_table i hi
  have hreq : m ∈ requiredMethods i.purpose := by
    have : ∀ p : Purpose, p.usesSignets = true → ∀ m ∈ keyMethodNames, m ∈ requiredMethods p := by
      intro p; cases p <;> decide
    exact this _ hu m hm
  have := g1 m hreq
  rw [List.any_eq_true] at this
  obtain ⟨⟨m', u⟩, hx, he⟩ := this
  refine ⟨⟨u, by rw [← (beq_iff_eq.mp he : m' = m)]; exact hx⟩, fun u hu => ?_, by intro h hh; cases hh⟩
  rw [show u = .no from g3 _ hu hm]
  rfl

theorem getTool_mem {n : Bytes} {i : ToolInfo} (h : getTool n = some i) : i ∈ toolTable := List.mem_of_find?_eq_some h

/-- C93. A registered tool has the methods of its purpose and no others: whatever hash function it is given, it says that it does not implement a method
exactly if a session has no use for the method with such a tool. -/
theorem implements_exactly {i : ToolInfo} (hi : i ∈ toolTable) (hash : Bytes) (m : Method) :
    answer i.name hash m = .notImplemented ↔ m ∉ requiredMethods i.purpose := by
  have h1 : (overridden i.name).any (fun x => x.1 == m) = true ↔ m ∈ requiredMethods i.purpose := by
    constructor
    · intro h
      rw [List.any_eq_true] at h
      obtain ⟨x, hx, he⟩ := h
      rw [← (beq_iff_eq.mp he : x.1 = m)]
      exact methods_only i hi x hx
    · exact (methods_table i hi).1 m
  rw [← h1]
  unfold answer
  cases (overridden i.name).any (fun x => x.1 == m) <;> simp
  split <;> simp

variable {P Q : Prims}

theorem sameTool_of_available (H : SameAvailable P Q) {tid : Bytes} {t : ToolInst} (h : makeInst tid = .ok t) : SameTool P Q t := by
  have hav : ∀ m, m ∈ requiredMethods t.info.purpose → Available t m := fun m hm => required_available h hm
  obtain ⟨_, h2, _, h4, h5⟩ := makeInst_spec h
  have hst : t.info.purpose.usesSignets = true → ∀ m ∈ keyMethodNames, Available (static t.info) m := fun hu m hm => key_methods_available h2 hu hm
  constructor
  · intro hp; rw [hp] at hav
    exact H.kdf t (hav _ (by decide))
  · intro hp; rw [hp] at hav
    exact H.pass t (hav _ (by decide))
  · intro hp; rw [hp] at hav hst
    exact ⟨H.dh t (hav _ (by decide)), H.generate _ h2 (hst rfl _ (by decide)), H.load _ h2 (hst rfl _ (by decide)), H.store _ h2 (hst rfl _ (by decide))⟩
  · intro hp; rw [hp] at hav
    exact ⟨H.rsaBits, H.encap t (hav _ (by decide)), H.unwrap t (hav _ (by decide))⟩
  · intro hp; rw [hp] at hav
    exact ⟨H.encrypt t (hav _ (by decide)), H.decrypt t (hav _ (by decide))⟩
  · intro hp; rw [hp] at hav
    exact ⟨H.aeadSeal t (hav _ (by decide)), H.aeadOpen t (hav _ (by decide))⟩
  · intro hp; rw [hp] at hav
    exact H.mac t (hav _ (by decide))
  · intro hp
    have hm : t.has .managed = true := by
      refine resolveHash_has h4 .managed ?_
      have : ∀ i ∈ toolTable, i.purpose = .signing → providesUse i .managed = true := by decide +kernel
      exact this _ h2 hp
    rw [hp] at hav
    exact ⟨H.hash t hm h5, H.sign t (hav _ (by decide)), H.verify t (hav _ (by decide))⟩

theorem load_available (H : SameAvailable P Q) (x : Signet) : x.load P = x.load Q := by
  unfold Signet.load
  split
  · rfl
  · split
    · rfl
    · split
      · rfl
      · rename_i i hi
        split
        · rename_i hu
          rw [H.load i (getTool_mem hi) (key_methods_available (getTool_mem hi) hu (by decide))]
        · rfl

theorem store_available (H : SameAvailable P Q) (x : Signet) : x.store P = x.store Q := by
  unfold Signet.store
  split
  · rfl
  · split
    · rfl
    · rename_i i hi
      split
      · rename_i hu
        rw [H.store i (getTool_mem hi) (key_methods_available (getTool_mem hi) hu (by decide))]
      · rfl

/-- C93 for generating keys. -/
theorem generate_available (H : SameAvailable P Q) (tool seed : Bytes) : generateSignet P tool seed = generateSignet Q tool seed := by
  unfold generateSignet
  split
  · rfl
  · rename_i i hi
    split
    · rename_i hu
      rw [H.generate i (getTool_mem hi) (key_methods_available (getTool_mem hi) hu (by decide))]
    · rfl

theorem asRecipient_available (H : SameAvailable P Q) (x : Signet) : x.asRecipient P = x.asRecipient Q := by
  unfold Signet.asRecipient
  rw [load_available H]

theorem calcAndCheck_available (H : SameAvailable P Q) : calcAndCheck P = calcAndCheck Q := by
  funext cfg lvl lv t x
  unfold calcAndCheck calcLevel ToolInst.secLevel rsaSignetLevel
  simp only [load_available H, H.rsaBits]

theorem newSession_available (H : SameAvailable P Q) (cfg : Config) (e : Envelope) : newSession P cfg e = newSession Q cfg e := by
  unfold newSession stepTool stepSignets
  rw [calcAndCheck_available H]

theorem prepSignets_available (H : SameAvailable P Q) (w : World) (level : Int) : ∀ (b : Bool) (l : List Signet),
    prepSignets P w level b l = prepSignets Q w level b l
  | _, [] => rfl
  | b, x :: xs => by
    have e : finishPrep P = finishPrep Q := by
      funext y
      unfold finishPrep
      simp only [load_available H]
    rw [prepSignets, prepSignets]
    simp only [prepSignets_available H w level _ xs, e]

/-- C93 for creating sessions. -/
theorem correspondence_available (H : SameAvailable P Q) (cfg : Config) (w : World) (reg : List Suite) (e : Envelope) :
    correspondence P cfg w reg e = correspondence Q cfg w reg e := by
  unfold correspondence prepareSignets
  simp only [prepSignets_available H, newSession_available H]

/-- The tools of a session are tools that sessions accept. -/
theorem session_same (H : SameAvailable P Q) {P' : Prims} {cfg : Config} {e : Envelope} {s : Session} (h : newSession P' cfg e = .ok s) :
    ∀ t ∈ s.insts, SameTool P Q t := by
  intro t ht
  obtain ⟨tid, _, hm⟩ := inst_tool h ht
  exact sameTool_of_available H hm

theorem correspondence_session {cfg : Config} {w : World} {reg : List Suite} {e : Envelope} {s : Session} (h : correspondence P cfg w reg e = .ok s) :
    ∃ e', newSession P cfg e' = .ok s := by
  unfold correspondence at h
  simp only [bind_ok_iff] at h
  obtain ⟨⟨e1, su⟩, _, e2, _, h3⟩ := h
  exact ⟨e2, h3⟩

/-- C93 for closing. -/
theorem close_available (H : SameAvailable P Q) {cfg : Config} {w : World} {reg : List Suite} {e : Envelope} {s : Session}
    (h : correspondence P cfg w reg e = .ok s) (rng : Rng) (st : SState) (data : Bytes) : s.close P cfg rng st data = s.close Q cfg rng st data := by
  obtain ⟨e', h⟩ := correspondence_session h
  exact close_uses_suite_only (session_registered h) (session_same H h) rng st data

/-- C93 for opening with a session. -/
theorem open_available (H : SameAvailable P Q) {cfg : Config} {w : World} {reg : List Suite} {e : Envelope} {s : Session}
    (h : correspondence P cfg w reg e = .ok s) (st : SState) (l : Letter) : s.open P cfg st l = s.open Q cfg st l := by
  obtain ⟨e', h⟩ := correspondence_session h
  exact open_uses_suite_only (session_registered h) (session_same H h) st l

/-- C93 for opening a letter. -/
theorem letter_open_available (H : SameAvailable P Q) (cfg : Config) (w : World) (reg : List Suite) (reqs : Option Requirements) (l : Letter) :
    l.open P cfg w reg reqs = l.open Q cfg w reg reqs := by
  unfold Letter.open
  cases l.envelope reg reqs with
  | error x => rfl
  | ok e =>
    simp only [ok_bind, ← correspondence_available H]
    cases hs : correspondence P cfg w reg e with
    | error x => rfl
    | ok s => simp only [ok_bind, open_available H hs]

/-- C93 for verifying a letter. -/
theorem letter_verify_available (H : SameAvailable P Q) (cfg : Config) (w : World) (reg : List Suite) (reqs : Option Requirements) (l : Letter) :
    l.verify P cfg w reg reqs = l.verify Q cfg w reg reqs := by
  unfold Letter.verify
  cases l.envelope reg reqs with
  | error x => rfl
  | ok e =>
    simp only [ok_bind, ← correspondence_available H]
    cases hs : correspondence P cfg w reg e with
    | error x => rfl
    | ok s =>
      obtain ⟨e', h⟩ := correspondence_session hs
      simp only [ok_bind, verify_uses_suite_only (session_same H h)]

theorem hashTable_get : ∀ h ∈ hashTable, getHash h.name = some h := by decide +kernel

/-- A method that is available does its work when it is called. -/
theorem answer_works {t : ToolInst} {m : Method} (h : Available t m) : answer t.info.name t.hashName m = .works := by
  obtain ⟨⟨u, h1⟩, h2, h3⟩ := h
  unfold answer
  have e1 : (overridden t.info.name).any (fun x => x.1 == m) = true := List.any_eq_true.mpr ⟨_, h1, by simp⟩
  rw [e1]
  simp only [Bool.not_true, Bool.false_eq_true, if_false]
  cases hh : t.hash with
  | some hs =>
    have : getHash t.hashName = some hs := by
      unfold ToolInst.hashName
      rw [hh]
      exact hashTable_get hs (h3 hs hh)
    rw [this]
    simp
  | none =>
    rw [if_neg]
    intro hc
    rw [Bool.and_eq_true, List.any_eq_true] at hc
    obtain ⟨⟨⟨m', u'⟩, hx, hc⟩, _⟩ := hc
    simp only [Bool.and_eq_true, beq_iff_eq] at hc
    obtain ⟨rfl, hc⟩ := hc
    have := h2 u' hx
    unfold ToolInst.has at this
    rw [hh] at this
    cases u' with
    | no => exact absurd hc (by decide)
    | tool => cases this
    | managed => cases this

/-- Methods that ask for no hash function work with any. -/
theorem answer_hash {tool hash : Bytes} {m : Method} (hn : ∀ i ∈ toolTable, ∀ x ∈ overridden i.name, x.1 = m → x.2 = .no) {t : ToolInst}
    (h : Available t m) (ht : t.info.name = tool) : answer tool hash m = .works := by
  have ho : ∀ tool : Bytes, overridden tool ≠ [] → ∃ i ∈ toolTable, i.name = tool := by
    intro tool hne
    unfold overridden at hne
    split at hne
    · exact absurd rfl hne
    · rename_i d hd
      have h1 : d.name = tool := by simpa using List.find?_some hd
      have h2 : ∀ d ∈ toolDecls, ∃ i ∈ toolTable, i.name = d.name := by decide +kernel
      obtain ⟨i, hi, he⟩ := h2 d (List.mem_of_find?_eq_some hd)
      exact ⟨i, hi, he.trans h1⟩
  obtain ⟨⟨u, h1⟩, _, _⟩ := h
  rw [ht] at h1
  obtain ⟨i, hi, he⟩ := ho tool (by intro hc; rw [hc] at h1; cases h1)
  unfold answer
  have e1 : (overridden tool).any (fun x => x.1 == m) = true := List.any_eq_true.mpr ⟨_, h1, by simp⟩
  have e2 : (overridden tool).any (fun x => x.1 == m && x.2 != .no) = false := by
    rw [List.any_eq_false]
    intro x hx hc
    simp only [Bool.and_eq_true, beq_iff_eq, bne_iff_ne] at hc
    exact hc.2 (hn i hi x (by rw [he]; exact hx) hc.1)
  rw [e1, e2]
  rfl

/-- The libraries as sessions reach them agree with the libraries themselves on all calls that are available. -/
theorem dispatched_same (P : Prims) : SameAvailable P.dispatched P := by
  have hr : ∀ {α : Type} {a : Answer} {r : Res α}, a = .works → a.result r = r := by
    intro α a r h; rw [h]; rfl
  constructor
  · intro t h; funext _ _ _ _; exact hr (answer_works h)
  · intro t h; funext _ _ _; exact hr (answer_hash (by decide +kernel) h rfl)
  · intro t h; funext _ _; exact if_pos (answer_hash (by decide +kernel) h rfl)
  · intro t h; funext _ _ _; exact hr (answer_works h)
  · intro t h; funext _ _; exact hr (answer_works h)
  · intro t h; funext _ _ _; exact hr (answer_hash (by decide +kernel) h rfl)
  · intro t h; funext _ _ _; exact hr (answer_hash (by decide +kernel) h rfl)
  · intro t h; funext _ _ _ _; exact hr (answer_hash (by decide +kernel) h rfl)
  · intro t h; funext _ _ _ _; exact hr (answer_hash (by decide +kernel) h rfl)
  · intro t h; funext _ _; exact if_pos (answer_works h)
  · intro t h; funext _ _ _; exact hr (answer_works h)
  · intro t h; funext _ _ _
    show (answer t.info.name t.hashName .verify == .works && _) = _
    rw [answer_works h]
    rfl
  · intro t h1 h2
    unfold ToolInst.has at h1
    rw [Bool.and_eq_true] at h1
    obtain ⟨hs, hh⟩ := Option.isSome_iff_exists.mp h1.1
    funext msg
    have : getHash t.hashName = some hs := by
      unfold ToolInst.hashName
      rw [hh]
      exact hashTable_get hs (h2 hs hh)
    exact if_pos (by rw [this]; rfl)
  · intro i _ h; funext _ _; exact hr (answer_hash (by decide +kernel) h rfl)
  · intro i _ h; funext _ _; exact hr (answer_hash (by decide +kernel) h rfl)
  · intro i _ h; funext _; exact hr (answer_hash (by decide +kernel) h rfl)
  · rfl

/-- C93. Going through the interface of the tools, with its dummy methods and missing hash functions, changes no result: `Correspondence`, closing,
opening and verifying letters and generating keys return what they return with the algorithms themselves. -/
theorem dispatch_never_fails (P : Prims) (cfg : Config) (w : World) (reg : List Suite) :
    (∀ e, correspondence P.dispatched cfg w reg e = correspondence P cfg w reg e) ∧
    (∀ e s, correspondence P.dispatched cfg w reg e = .ok s → ∀ rng st data, s.close P.dispatched cfg rng st data = s.close P cfg rng st data) ∧
    (∀ reqs l, Letter.open P.dispatched cfg w reg reqs l = Letter.open P cfg w reg reqs l) ∧
    (∀ reqs l, Letter.verify P.dispatched cfg w reg reqs l = Letter.verify P cfg w reg reqs l) ∧
    (∀ tool seed, generateSignet P.dispatched tool seed = generateSignet P tool seed) :=
  ⟨fun e => correspondence_available (dispatched_same P) cfg w reg e,
    fun _ _ h rng st data => close_available (dispatched_same P) h rng st data,
    fun reqs l => letter_open_available (dispatched_same P) cfg w reg reqs l,
    fun reqs l => letter_verify_available (dispatched_same P) cfg w reg reqs l,
    fun tool seed => generate_available (dispatched_same P) tool seed⟩

/-- The dummies are there: with them, signing with a cipher, deriving keys with HKDF without a hash function or sharing a key with a signature tool do not
work; and a letter is closed and opened through the interface. -/
theorem dispatch_example :
    toyPrims.dispatched.sign b!"AES128-GCM" b!"SHA2-256" [1] [2] [3] = .error .unsupported ∧
    toyPrims.dispatched.kdf b!"HKDF" [] [1] [2] 0 4 = .error .panic ∧
    toyPrims.dispatched.kdf b!"HKDF" b!"SHA2-256" [1] [2] 0 4 = toyPrims.kdf b!"HKDF" b!"SHA2-256" [1] [2] 0 4 ∧
    toyPrims.dispatched.dh b!"Ed25519" [1] [2] = [] ∧
    (match correspondence toyPrims.dispatched toyConfig toyWorld suiteRegistry honestEnvelope with
      | .ok s =>
        (match (s.close toyPrims.dispatched toyConfig toyRng s.initState b!"hello").2 with
        | .ok l => decide (l.open toyPrims.dispatched toyConfig toyWorld suiteRegistry none = .ok b!"hello")
        | .error _ => false)
      | .error _ => false) = true := by
  decide +kernel

end Jess
