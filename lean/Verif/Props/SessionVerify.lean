import Verif.Props.Signatures
import Verif.Props.Reuse
import Verif.Props.Library

/-!
# C14 for `Session.Verify`

`Letter.Verify` makes its own session from the letter (`verify_needs_signature`).  A caller can also verify letters with a
session of its own; then the senders are those of its envelope, and the letter's signatures are checked in their order.
-/

namespace Jess

/-- The state of a session after operations. -/
def afterOps (P : Prims) (cfg : Config) (s : Session) (ops : List Op) : SState :=
  ops.foldl (fun st op => (runOp P cfg s st op).1) s.initState

theorem afterOps_clean (P : Prims) (cfg : Config) (s : Session) (ops : List Op) : Clean s (afterOps P cfg s ops) := by
  have : ∀ (ops : List Op) (st : SState), Clean s st → Clean s (ops.foldl (fun st op => (runOp P cfg s st op).1) st) := by
    intro ops
    induction ops with
    | nil => intro st h; exact h
    | cons op ops ih => intro st h; exact ih _ (runOp_clean P cfg s st h op).1
  exact this ops _ (clean_init s)

/-- The signature is valid for the public key of the sender of the session; tool and hash function are those of the suite
(specification). -/
def ValidFor (P : Prims) (suite : Suite) (l : Letter) (sig : Seal) (sender : Signet) : Prop :=
  ∃ tid ∈ suite.tools, ∃ t, getTool (parseToolID tid).1 = some t ∧ t.purpose = .signing ∧ sender.scheme = t.name ∧
    ∃ h, getHash (parseToolID tid).2 = some h ∧
    ∃ pub, sender.loadedPub = some pub ∧ P.verify t.name h.name pub (P.hash h.name l.signedData) sig.value = true

theorem signAll_pairs {P : Prims} {cfg : Config} {s : Session} (hs : newSession P cfg s.env = .ok s) (hr : s.suite ∈ suiteRegistry)
    (hq : s.queue .signing ≠ []) : ∃ t, t ∈ s.insts ∧ t.info.purpose = .signing ∧ s.env.senders ≠ [] ∧
      (∀ k ∈ s.env.senders, k.scheme = t.info.name) ∧ s.signerPairs = s.env.senders.map (fun k => (t, k)) := by
  obtain ⟨hnd, hone⟩ := registered_session hs hr
  have hu := no_signet_ignored P cfg _ s hs hnd
  have h1 := hone .signing (by simp)
  cases hqs : s.queue .signing with
  | nil => exact absurd hqs hq
  | cons t ts =>
    have hts : ts = [] := by
      rw [hqs] at h1; simp at h1; exact h1
    subst hts
    have ht : t ∈ s.insts ∧ t.info.purpose = .signing := mem_queue.mp (by rw [hqs]; simp)
    have hsch : ∀ k ∈ s.env.senders, k.scheme = t.info.name := by
      intro k hk
      obtain ⟨t', ht', hp, hn⟩ := hu.senders k hk
      have : t' ∈ s.queue .signing := mem_queue.mpr ⟨ht', hp⟩
      rw [hqs] at this
      have := List.mem_singleton.mp this
      subst this
      exact hn.symm
    obtain ⟨u, hu1, _⟩ := (session_tools_have_signets P cfg _ s hs t ht.1).2.2 ht.2
    refine ⟨t, ht.1, ht.2, by intro h0; rw [h0] at hu1; simp at hu1, hsch, ?_⟩
    unfold Session.signerPairs
    rw [hqs]
    simp only [List.flatMap_cons, List.flatMap_nil, List.append_nil]
    congr 1
    unfold ofScheme
    rw [List.filter_eq_self]
    intro k hk
    simp [hsch k hk]

/-- C14, `Session.Verify`: for every session of the API, whatever it was used for before, and every letter: it succeeds only if the
letter has as many signatures as the session has senders, which is at least one, and each signature is valid for the public key
of the sender in its place. -/
theorem session_verify_needs_signature (P : Prims) (cfg : Config) (w : World) (e : Envelope) (he : e.suite = none) (s : Session)
    (hs : correspondence P cfg w suiteRegistry e = .ok s) (ops : List Op) (l : Letter)
    (h : (s.verify P (afterOps P cfg s ops) l).2 = .ok ()) :
    l.version = 1 ∧ l.signatures ≠ [] ∧ l.signatures.length = e.senders.length ∧
      All2 (fun sig k => ValidFor P s.suite l sig k) l.signatures s.env.senders := by
  have hl := library_session he hs
  have hcl := afterOps_clean P cfg s ops
  unfold Session.verify at h
  split at h
  · cases h
  rename_i hver
  split at h
  · cases h
  rename_i hq
  have hq' : s.queue .signing ≠ [] := by simpa using hq
  obtain ⟨t, ht, hp, hne, hsch, hpairs⟩ := signAll_pairs hl.made hl.mem hq'
  unfold checkSignatures at h
  rw [if_neg hq] at h
  dsimp only at h
  split at h
  · cases h
  rename_i hlen
  have hlen : s.env.senders.length = l.signatures.length := by simpa using hlen
  rw [hpairs, signingData_ad, hcl.fed, List.nil_append] at h
  obtain ⟨tid, htid, hmk⟩ := inst_tool hl.made ht
  obtain ⟨hh, e1, e2⟩ := signing_inst hmk hp
  have hhn : t.hashName = hh.name := by unfold ToolInst.hashName; rw [e1]
  refine ⟨Decidable.of_not_not hver, ?_, by rw [← hlen, hl.senders], ?_⟩
  · intro h0
    rw [h0] at hlen
    exact hne (List.length_eq_zero_iff.mp hlen)
  · have key : ∀ (i : Nat) sig k, l.signatures[i]? = some sig → s.env.senders[i]? = some k → ValidFor P s.suite l sig k := by
      intro i sig k hi hk
      obtain ⟨sl, hsl, hv⟩ := verifyAll_ok h (j := i) (x := (t, k)) (by simp [hk])
      rw [Nat.zero_add, hi] at hsl
      cases hsl
      obtain ⟨pub, hp1, hp2⟩ := toolVerify_ok hv
      simp only [hhn] at hp2
      exact ⟨tid, htid, t.info, (makeInst_spec hmk).1, hp, hsch k (List.mem_of_getElem? hk), hh, e2, pub, hp1, hp2⟩
    have : ∀ (a : List Seal) (b : List Signet), a.length = b.length →
        (∀ (i : Nat) sig k, a[i]? = some sig → b[i]? = some k → ValidFor P s.suite l sig k) →
        All2 (fun sig k => ValidFor P s.suite l sig k) a b := by
      intro a
      induction a with
      | nil => intro b hb _; cases b with
        | nil => exact .nil
        | cons => simp at hb
      | cons x a ih => intro b hb hk; cases b with
        | nil => simp at hb
        | cons y b => exact .cons (hk 0 x y rfl rfl) (ih b (by simpa using hb) (fun i sig k h1 h2 => hk (i + 1) sig k (by simpa using h1) (by simpa using h2)))
    exact this _ _ hlen.symm key

/-- The hypotheses are met: the session of a sender verifies its own letter, also after it has refused one without signatures. -/
theorem session_verify_example :
    (match correspondence toyPrims toyConfig toyWorld suiteRegistry (toyEnvelope b!"v2" [] [b!"alice"] [b!"bob"]) with
      | .ok s =>
        match (s.close toyPrims toyConfig toyRng s.initState b!"hello").2 with
        | .ok l => decide ((s.verify toyPrims (afterOps toyPrims toyConfig s [.verify { l with signatures := [] }, .close toyRng b!"x"]) l).2 = .ok ()) &&
            decide ((s.verify toyPrims s.initState { l with signatures := [] }).2 = .error .signature)
        | .error _ => false
      | .error _ => false) = true := by
  decide +kernel

end Jess
