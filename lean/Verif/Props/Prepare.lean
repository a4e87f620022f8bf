import Verif.Props.Signatures

/-!
# C50: preparing the signets of an envelope
-/

namespace Jess

open Requirements

/-- The signet `t` a password callback is asked about, for the signet `s` of an envelope (specification): the same signet, and
if it has no name, it gets the one the trust store knows for its ID. -/
structure ShownAs (w : World) (s t : Signet) : Prop where
  same : t = { s with info := t.info }
  named : ∀ i, s.info = some i → i.name ≠ [] → t.info = s.info
  stored : (∀ i, s.info = some i → i.name = []) → ∀ get n ni, w.store = some get → s.id ≠ [] → get s.id false = .ok n → n.info = some ni →
    (s.info = none → t.info = some ni) ∧ ∀ i, s.info = some i → t.info = some { i with name := ni.name }
  unknown : (∀ get n ni, w.store = some get → s.id ≠ [] → get s.id false = .ok n → n.info ≠ some ni) → t.info = s.info

theorem nameFromStore_shown (w : World) (s : Signet) : ShownAs w s (nameFromStore w s) := by
  have key : ∀ b : Bool, b = (match s.info with | none => true | some i => i.name.isEmpty) → (b = true ↔ ∀ i, s.info = some i → i.name = []) := by
    intro b hb
    subst hb
    cases hi : s.info with
    | none => simp
    | some i => simp
  have key := key _ rfl
  unfold nameFromStore
  refine iteInduction (fun hc => ?_) (fun hc => ?_)
  · have hc' := key.mp hc
    have hname : ∀ i, s.info = some i → i.name ≠ [] → False := fun i hi hn => hn (hc' i hi)
    cases hw : w.store with
    | none => exact ⟨rfl, fun i hi hn => (hname i hi hn).elim, fun _ get n ni h => (by rw [hw] at h; cases h), fun _ => rfl⟩
    | some get =>
      simp only
      by_cases hid : s.id.length > 0
      · rw [if_pos hid]
        have hid' : s.id ≠ [] := List.length_pos_iff.mp hid
        cases hg : get s.id false with
        | error e =>
          exact ⟨rfl, fun i hi hn => (hname i hi hn).elim,
            fun _ g n ni h _ h2 => (by rw [hw] at h; cases h; rw [hg] at h2; cases h2), fun _ => rfl⟩
        | ok n =>
          simp only
          cases hn : n.info with
          | none =>
            refine ⟨rfl, fun i hi hn => (hname i hi hn).elim, ?_, fun _ => rfl⟩
            intro _ g m ni h _ h2 h3
            rw [hw] at h; cases h; rw [hg] at h2; cases h2; rw [hn] at h3; cases h3
          | some ni =>
            cases hi : s.info with
            | none =>
              refine ⟨rfl, fun i h => (by rw [hi] at h; cases h), ?_, fun h => absurd hn (h get n ni hw hid' hg)⟩
              intro _ g m mi h _ h2 h3
              rw [hw] at h; cases h; rw [hg] at h2; cases h2; rw [hn] at h3; cases h3
              exact ⟨fun _ => rfl, fun i h => (by rw [hi] at h; cases h)⟩
            | some i =>
              refine ⟨rfl, fun j h hj => (hname j h hj).elim, ?_, fun h => absurd hn (h get n ni hw hid' hg)⟩
              intro _ g m mi h _ h2 h3
              rw [hw] at h; cases h; rw [hg] at h2; cases h2; rw [hn] at h3; cases h3
              exact ⟨fun h => (by rw [hi] at h; cases h), fun j h => (by rw [hi] at h; cases h; rfl)⟩
      · rw [if_neg hid]
        have hid' : s.id = [] := List.length_eq_zero_iff.mp (by omega)
        exact ⟨rfl, fun i hi hn => (hname i hi hn).elim, fun _ g n ni _ h => absurd hid' h, fun _ => rfl⟩
  · exact ⟨rfl, fun _ _ _ => rfl, fun h => absurd (key.mpr h) hc, fun _ => rfl⟩

/-- The specification leaves no choice. -/
theorem ShownAs.unique {w : World} {s t u : Signet} (h : ShownAs w s t) (g : ShownAs w s u) : t = u := by
  have hi : t.info = u.info := by
    by_cases hk : ∀ get n ni, w.store = some get → s.id ≠ [] → get s.id false = .ok n → n.info ≠ some ni
    · rw [h.unknown hk, g.unknown hk]
    · by_cases hn : ∀ i, s.info = some i → i.name = []
      · refine Classical.byContradiction fun hne => hk ?_
        intro get n ni a b c d
        have h1 := h.stored hn get n ni a b c d
        have g1 := g.stored hn get n ni a b c d
        apply hne
        cases hs : s.info with
        | none => rw [h1.1 hs, g1.1 hs]
        | some i => rw [h1.2 i hs, g1.2 i hs]
      · refine Classical.byContradiction fun hne => hn ?_
        intro i hi
        refine Classical.byContradiction fun hnn => hne ?_
        rw [h.named i hi hnn, g.named i hi hnn]
  rw [h.same, g.same, hi]

theorem ShownAs.eq {w : World} {s t : Signet} (h : ShownAs w s t) : t = nameFromStore w s := h.unique (nameFromStore_shown w s)

/-- How a signet of an envelope may be prepared (specification). `public` says which kind of signet the trust store is asked
for, `create` which password callback is asked. -/
structure PreparedAs (P : Prims) (w : World) (level : Int) (pub create : Bool) (s o : Signet) : Prop where
  /-- signets with a key are used as they are: only loaded, and only if they are not protected -/
  inline : s.key ≠ [] → s.protection = false ∧
    (if s.scheme = schemeKey ∨ s.scheme = schemePassword then o = s else s.load P = .ok o)
  /-- passwords are asked for with the callback (if there is one) -/
  password : s.key = [] → s.scheme = schemePassword →
    match (if create then w.createPw.map (fun cb s => cb s level) else w.getPw) with
    | none => o = s
    | some cb => ∃ t, ShownAs w s t ∧ cb t = .ok o
  /-- references are looked up by their ID: raw keys as private signets, others as demanded; scheme mismatches and
  protected signets are rejected -/
  reference : s.key = [] → s.scheme ≠ schemePassword → s.id ≠ [] ∧ ∃ get n, w.store = some get ∧
    get s.id (pub && decide (s.scheme ≠ schemeKey)) = .ok n ∧ (s.scheme = [] ∨ n.scheme = s.scheme) ∧ n.protection = false ∧
    (if n.scheme = schemeKey ∨ n.scheme = schemePassword then o = n else n.load P = .ok o)

theorem prepOne_preparedAs {P : Prims} {w : World} {level : Int} {flag : Bool} {s o : Signet}
    (h : prepOne P w level flag s = .ok o) : PreparedAs P w level flag (!flag) s o := by
  have hfin : ∀ {n : Signet}, finishPrep P n = .ok o → n.protection = false ∧
      (if n.scheme = schemeKey ∨ n.scheme = schemePassword then o = n else n.load P = .ok o) := by
    intro n hn
    obtain ⟨h1, _, _, _, h5⟩ := finishPrep_spec hn
    refine ⟨h1, ?_⟩
    rcases h5 with ⟨ha, hb⟩ | ⟨ha, hb, hc⟩
    · rw [if_pos ha]; exact hb
    · rw [if_neg (fun h => h.elim ha hb)]; exact hc
  constructor
  · intro hk
    have : s.key.length ≠ 0 := fun h => hk (List.length_eq_zero_iff.mp h)
    simp only [prepOne, this, if_false] at h
    exact hfin h
  · intro hk hp
    simp only [prepOne, hk, hp, List.length_nil, if_true] at h
    unfold fillPassword at h
    cases flag
    · simp only [Bool.not_false, if_true] at h ⊢
      cases hc : w.createPw with
      | none => rw [hc] at h; simp at h ⊢; exact h.symm
      | some cb => rw [hc] at h; exact ⟨_, nameFromStore_shown w s, by simpa using h⟩
    · simp only [Bool.not_true, Bool.false_eq_true, if_false] at h ⊢
      cases hc : w.getPw with
      | none => rw [hc] at h; simp at h ⊢; exact h.symm
      | some cb => rw [hc] at h; exact ⟨_, nameFromStore_shown w s, by simpa using h⟩
  · intro hk hp
    obtain ⟨get, n, h1, h2, h3, h4, h5⟩ := prepOne_fetch hk hp h
    refine ⟨h3, get, n, h1, ?_, h4.imp id Eq.symm, (hfin h5).1, (hfin h5).2⟩
    by_cases hs : s.scheme = schemeKey
    · rw [if_pos hs] at h2; simpa [hs] using h2
    · rw [if_neg hs] at h2; simpa [hs] using h2

/-- References to raw keys come after all other signets. -/
def KeysLast (l : List Signet) : Prop :=
  ∃ a b, l = a ++ b ∧ NoKeyStub a ∧ ∀ s ∈ b, s.key = [] ∧ s.scheme = schemeKey

theorem prepOne_key_flag {P : Prims} {w : World} {level : Int} {s : Signet} (hk : s.key = []) (hs : s.scheme = schemeKey)
    (f g : Bool) : prepOne P w level f s = prepOne P w level g s := by
  simp [prepOne, hk, hs, schemeKey_ne_pw]

theorem prepSignets_keysLast {P : Prims} {w : World} {level : Int} {flag : Bool} {l out : List Signet} (hl : KeysLast l)
    (h : prepSignets P w level flag l = .ok out) : All2 (fun s o => prepOne P w level flag s = .ok o) l out := by
  obtain ⟨a, b, rfl, ha, hb⟩ := hl
  induction a generalizing out with
  | nil =>
    simp only [List.nil_append] at h ⊢
    have := prepSignets_flags P w level b out flag h
    exact this.mono_mem fun s hs o _ hso => by
      rcases hso with h | ⟨h, _⟩
      · exact h
      · rw [prepOne_key_flag (hb s hs).1 (hb s hs).2 flag false]; exact h
  | cons s a ih =>
    rw [List.cons_append] at h ⊢
    simp only [prepSignets_cons, bind_ok_iff] at h
    obtain ⟨o, ho, rest, hr, he⟩ := h
    cases he
    have hn : nextFlag flag s = flag := by
      unfold nextFlag
      rw [if_neg]; rintro ⟨x, y⟩; exact ha s (by simp) x y
    rw [hn] at hr
    exact .cons ho (ih hr (fun x hx => ha x (by simp [hx])))

/-- C50. Preparing the signets of an envelope: senders are looked up as private signets when closing and as public ones when
opening, recipients the other way round; passwords are created when closing and requested when opening; keys are looked up
as they are. Order matters: this holds if references to raw keys come last in each list. -/
theorem signets_prepared (P : Prims) (w : World) (level : Int) (e e' : Envelope) (h : prepareSignets P w level e = .ok e')
    (h1 : KeysLast e.secrets) (h2 : KeysLast e.senders) (h3 : KeysLast e.recipients) :
    All2 (PreparedAs P w level e.opening (!e.opening)) e.secrets e'.secrets ∧
    All2 (PreparedAs P w level e.opening (!e.opening)) e.senders e'.senders ∧
    All2 (PreparedAs P w level (!e.opening) e.opening) e.recipients e'.recipients := by
  simp only [prepareSignets, bind_ok_iff] at h
  obtain ⟨a, ha, b, hb, c, hc, he⟩ := h
  cases he
  refine ⟨(prepSignets_keysLast h1 ha).mono fun _ _ => prepOne_preparedAs,
    (prepSignets_keysLast h2 hb).mono fun _ _ => prepOne_preparedAs,
    (prepSignets_keysLast h3 hc).mono fun s o h => ?_⟩
  have := prepOne_preparedAs h
  simpa using this

/-- C50 for closing: the order does not matter. -/
theorem signets_prepared_closing (P : Prims) (w : World) (level : Int) (e e' : Envelope) (ho : e.opening = false)
    (h : prepareSignets P w level e = .ok e') :
    All2 (PreparedAs P w level false true) e.secrets e'.secrets ∧ All2 (PreparedAs P w level false true) e.senders e'.senders := by
  simp only [prepareSignets, bind_ok_iff, ho] at h
  obtain ⟨a, ha, b, hb, c, hc, he⟩ := h
  cases he
  exact ⟨((prepSignets_all2 P w level false _ _ (Or.inl rfl)).mp ha).mono fun _ _ => prepOne_preparedAs,
    ((prepSignets_all2 P w level false _ _ (Or.inl rfl)).mp hb).mono fun _ _ => prepOne_preparedAs⟩

/-- An environment that can only request the existing password. -/
def requestWorld : World := { store := some toyStore, getPw := some (fun s => .ok { s with key := b!"pass" }) }

/-- An environment in which creating passwords is answered with a new password. -/
def askWorld : World := { requestWorld with createPw := some (fun s _ => .ok { s with key := b!"another" }) }

/-- An envelope with a key and a password that is given in place. -/
def keyAndPw : Envelope :=
  { suiteID := b!"pw_v2",
    secrets := [{ id := b!"key", scheme := schemeKey }, { id := b!"pw", scheme := schemePassword, key := b!"pass" }] }

/-- C50 and C10 refuted for letters with a key and a password: when the letter is opened, the user is not asked for the
existing password, but asked to create a new one (a reference to a raw key switches the lookup mode for all following
signets, envelope.go:199-201). The letter then does not open, although all its secrets are available; without the create
callback the password is simply missing. -/
theorem key_and_password_spill :
    (match toyClose keyAndPw b!"hello" with
      | .ok l =>
        decide (l.open toyPrims toyConfig askWorld suiteRegistry none = .error .integrity) &&
        decide (l.open toyPrims toyConfig requestWorld suiteRegistry none = .error .missing) &&
        -- the key and the password open it
        decide (l.open toyPrims toyConfig toyWorld suiteRegistry none = .ok b!"hello")
      | .error _ => false) = true := by decide +kernel

end Jess
