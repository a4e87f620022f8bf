import Verif.Lemmas.Prepare
import Verif.Lemmas.Core

/-! What is known about the session that opens a letter. -/

namespace Jess

open Requirements

/-- The stubs that a letter's envelope refers to. -/
def Letter.secretStubs (l : Letter) : List Signet := (l.keys.filter (fun s => !s.id.isEmpty && s.isSecret)).map (stubOf l.version)
def Letter.recipientStubs (l : Letter) : List Signet := (l.keys.filter (fun s => !s.id.isEmpty && !s.isSecret)).map (stubOf l.version)

/-- The session that opens a letter. -/
structure OpenedBy (P : Prims) (cfg : Config) (w : World) (reg : List Suite) (reqs : Option Requirements) (l : Letter)
    (s : Session) : Prop where
  version : l.version ≠ 0
  suite : getSuite reg l.suiteID = some s.suite
  reqs : ∀ a ∈ reqs.getD full, a ∈ s.suite.provides
  secrets : prepSignets P w s.suite.securityLevel true l.secretStubs = .ok s.env.secrets
  senders : prepSignets P w s.suite.securityLevel true (l.signatures.map (stubOf l.version)) = .ok s.env.senders
  recipients : prepSignets P w s.suite.securityLevel false l.recipientStubs = .ok s.env.recipients
  session : newSession P cfg s.env = .ok s
  envSuite : s.env.suite = some s.suite
  envLevel : s.env.securityLevel = 0

theorem newSession_env {P : Prims} {cfg : Config} {e : Envelope} {s : Session} (h : newSession P cfg e = .ok s) :
    s.env = e ∧ e.suite = some s.suite := by
  obtain ⟨suite, is, lv, h1, _, _, _, hm, _, _, _, _, hs, _⟩ := (newSession_ok_iff P cfg e s).mp h
  subst hs
  exact ⟨rfl, h1⟩

theorem envelope_ok_iff (reg : List Suite) (reqs : Option Requirements) (l : Letter) (e : Envelope) :
    l.envelope reg reqs = .ok e ↔ l.version ≠ 0 ∧ l.suiteID ≠ [] ∧ ∃ suite, getSuite reg l.suiteID = some suite ∧
      (∀ a ∈ reqs.getD full, a ∈ suite.provides) ∧
      e = { version := l.version, suiteID := l.suiteID, suite := some suite, secrets := l.secretStubs,
            recipients := l.recipientStubs, senders := l.signatures.map (stubOf l.version), opening := true } := by
  unfold Letter.envelope
  by_cases hv : l.version = 0
  · simp [hv]
  · by_cases hi : l.suiteID.length = 0
    · have := List.length_eq_zero_iff.mp hi
      simp [hv, this]
    · have hi' : l.suiteID ≠ [] := fun h => hi (by simp [h])
      simp only [hv, hi, if_false, ne_eq, not_false_eq_true, true_and, hi']
      cases getSuite reg l.suiteID with
      | none => simp
      | some suite =>
        simp only [bind_ok_iff, compliance_iff suite.provides, Except.ok.injEq, Option.some.injEq]
        constructor
        · rintro ⟨_, h1, h2⟩; exact ⟨suite, rfl, h1, h2.symm⟩
        · rintro ⟨su, rfl, h1, h2⟩; exact ⟨(), h1, h2.symm⟩

theorem openedBy_iff {P : Prims} {cfg : Config} {w : World} {reg : List Suite} {reqs : Option Requirements} {l : Letter}
    {e : Envelope} {s : Session} (he : l.envelope reg reqs = .ok e) (hs : correspondence P cfg w reg e = .ok s) :
    OpenedBy P cfg w reg reqs l s := by
  obtain ⟨h1, h2, suite, h3, h4, rfl⟩ := (envelope_ok_iff reg reqs l e).mp he
  simp only [correspondence, loadSuite, ok_bind, prepareSignets, bind_ok_iff, Bool.not_true] at hs
  obtain ⟨e', ⟨a, ha, b, hb, c, hc, hx⟩, hn⟩ := hs
  cases hx
  obtain ⟨g1, g2⟩ := newSession_env hn
  simp only [Option.some.injEq] at g2
  subst g2
  refine ⟨h1, h3, h4, by rw [g1]; exact ha, by rw [g1]; exact hb, by rw [g1]; exact hc, by rw [g1]; exact hn,
    by rw [g1], by rw [g1]⟩

/-- Opening succeeded: there is a session that did it. -/
theorem open_ok {P : Prims} {cfg : Config} {w : World} {reg : List Suite} {reqs : Option Requirements} {l : Letter} {d : Bytes}
    (h : l.open P cfg w reg reqs = .ok d) :
    ∃ s, OpenedBy P cfg w reg reqs l s ∧ (s.open P cfg s.initState l).2 = .ok d := by
  simp only [Letter.open, bind_ok_iff] at h
  obtain ⟨e, he, s, hs, ho⟩ := h
  exact ⟨s, openedBy_iff he hs, ho⟩

theorem verify_ok {P : Prims} {cfg : Config} {w : World} {reg : List Suite} {reqs : Option Requirements} {l : Letter}
    (h : l.verify P cfg w reg reqs = .ok ()) :
    ∃ s, OpenedBy P cfg w reg reqs l s ∧ (s.verify P s.initState l).2 = .ok () := by
  simp only [Letter.verify, bind_ok_iff] at h
  obtain ⟨e, he, s, hs, ho⟩ := h
  exact ⟨s, openedBy_iff he hs, ho⟩

/-- The purpose of the tool named by a tool ID. -/
def toolPurpose (tid : Bytes) : Option Purpose := (getTool (parseToolID tid).1).map (·.purpose)

/-- Registered suites have at most one tool of each purpose. -/
theorem registered_one_tool : ∀ su ∈ suiteRegistry, ∀ p ∈ [Purpose.signing, .keyExchange, .keyEncapsulation, .mac, .cipher, .integratedCipher],
    (su.tools.filter (fun t => toolPurpose t = some p)).length ≤ 1 := by decide +kernel

theorem queue_length {suite : Suite} {is : List ToolInst} (hm : suite.tools.map makeInst = is.map Except.ok) (p : Purpose) :
    (is.filter (fun t => t.info.purpose = p)).length = (suite.tools.filter (fun t => toolPurpose t = some p)).length := by
  have : ∀ (ts : List Bytes) (is : List ToolInst), ts.map makeInst = is.map Except.ok →
      (is.filter (fun t => t.info.purpose = p)).length = (ts.filter (fun t => toolPurpose t = some p)).length := by
    intro ts
    induction ts with
    | nil => intro is h; cases is with | nil => rfl | cons _ _ => cases h
    | cons t ts ih =>
      intro is h
      cases is with
      | nil => cases h
      | cons i is =>
        simp only [List.map_cons, List.cons.injEq] at h
        have h1 := (makeInst_spec h.1).1
        have h2 := ih is h.2
        simp only [List.filter_cons, toolPurpose, h1, Option.map_some, Option.some.injEq]
        split
        · simp only [List.length_cons]; exact congrArg (· + 1) h2
        · exact h2
  exact this _ _ hm

/-- A session of a registered suite has at most one tool of each of these purposes, and distinct tool names. -/
theorem registered_session {P : Prims} {cfg : Config} {e : Envelope} {s : Session} (h : newSession P cfg e = .ok s)
    (hr : s.suite ∈ suiteRegistry) :
    (s.insts.map (·.info.name)).Nodup ∧
    ∀ p ∈ [Purpose.signing, .keyExchange, .keyEncapsulation, .mac, .cipher, .integratedCipher], (s.queue p).length ≤ 1 := by
  obtain ⟨suite, is, lv, h1, _, _, _, hm, _, _, _, _, hs, _⟩ := (newSession_ok_iff P cfg e s).mp h
  have hins : s.insts = is := by rw [hs]; rfl
  have hsu : s.suite = suite := by rw [hs]; rfl
  rw [hsu] at hr
  refine ⟨by rw [hins, inst_names hm]; exact registered_names_nodup suite hr, ?_⟩
  intro p hp
  unfold Session.queue
  rw [hins, queue_length hm p]
  exact registered_one_tool suite hr p hp

theorem inst_tool {P : Prims} {cfg : Config} {e : Envelope} {s : Session} (h : newSession P cfg e = .ok s) {t : ToolInst}
    (ht : t ∈ s.insts) : ∃ tid ∈ s.suite.tools, makeInst tid = .ok t := by
  obtain ⟨suite, is, lv, h1, _, _, _, hm, _, _, _, _, hs, _⟩ := (newSession_ok_iff P cfg e s).mp h
  have hins : s.insts = is := by rw [hs]; rfl
  have hsu : s.suite = suite := by rw [hs]; rfl
  rw [hins] at ht
  rw [hsu]
  exact inst_of_session hm ht

theorem mem_queue {s : Session} {p : Purpose} {t : ToolInst} : t ∈ s.queue p ↔ t ∈ s.insts ∧ t.info.purpose = p := by
  simp [Session.queue]

end Jess
